import Verif.Go.Base
/-!
Independent specification of the netlink wire format, as the kernel reads it
(include/uapi/linux/netlink.h, include/uapi/linux/netfilter/nfnetlink.h, include/net/netlink.h).
Values are natural numbers; nothing here refers to the model of the code.
-/
namespace Verif.Spec

/-- The 16-bit number stored at offset `i` in byte order `e`. -/
def num16 (e : Endian) (b : List Byte) (i : Nat) : Option Nat :=
  match b[i]?, b[i + 1]? with
  | some x, some y =>
    some (match e with | .big => x.toNat * 256 + y.toNat | .little => y.toNat * 256 + x.toNat)
  | _, _ => none

/-- The 32-bit number stored at offset `i` in byte order `e`. -/
def num32 (e : Endian) (b : List Byte) (i : Nat) : Option Nat :=
  match b[i]?, b[i + 1]?, b[i + 2]?, b[i + 3]? with
  | some x, some y, some z, some w =>
    some (match e with
      | .big => ((x.toNat * 256 + y.toNat) * 256 + z.toNat) * 256 + w.toNat
      | .little => ((w.toNat * 256 + z.toNat) * 256 + y.toNat) * 256 + x.toNat)
  | _, _, _, _ => none

/-- A 32-bit number read as a two's complement signed one. -/
def signed32 (n : Nat) : Int := if n < 2147483648 then n else n - 4294967296

/-- The signed 32-bit number at offset `i`. -/
def numI32 (e : Endian) (b : List Byte) (i : Nat) : Option Int := (num32 e b i).map signed32

/-- Network byte order. -/
abbrev be16 := num16 .big
/-- Network byte order. -/
abbrev be32 := num32 .big

/-- Round up to a multiple of four. -/
def roundUp4 (n : Nat) : Nat := (n + 3) / 4 * 4

/-- `r` is the least multiple of 4 that is at least `n`. -/
def IsRoundUp4 (n r : Nat) : Prop := r % 4 = 0 ∧ n ≤ r ∧ ∀ m, m % 4 = 0 → n ≤ m → r ≤ m

/-- A netlink attribute: 14-bit type, the NLA_F_NESTED bit, payload. -/
structure Attr where
  type : Nat
  nested : Bool
  payload : List Byte
deriving DecidableEq, Repr

/-- Strict attribute decoder (`nla_ok`/`nla_next`): every header must be complete, state a length
of at least 4 and at most the bytes left; the next one starts at the next multiple of 4. -/
def decodeAttrsN (e : Endian) : Nat → List Byte → Option (List Attr)
  | _, [] => some []
  | 0, _ => none
  | n + 1, b =>
    match num16 e b 0, num16 e b 2 with
    | some l, some t =>
      if 4 ≤ l ∧ l ≤ b.length then
        match decodeAttrsN e n (b.drop (roundUp4 l)) with
        | some as => some (⟨t % 16384, decide (t / 32768 % 2 = 1), (b.take l).drop 4⟩ :: as)
        | none => none
      else none
    | _, _ => none

/-- Decode a run of attributes. -/
def decodeAttrs (e : Endian) (b : List Byte) : Option (List Attr) := decodeAttrsN e b.length b

/-- A netlink message: the `nlmsghdr` fields and what follows it inside the stated length. -/
structure NlMsg where
  len : Nat
  type : Nat
  flags : Nat
  seq : Nat
  pid : Nat
  body : List Byte
deriving DecidableEq, Repr

/-- Decode the first message of a datagram. -/
def decodeNl (e : Endian) (b : List Byte) : Option NlMsg :=
  match num32 e b 0, num16 e b 4, num16 e b 6, num32 e b 8, num32 e b 12 with
  | some l, some t, some f, some s, some p =>
    if 16 ≤ l ∧ l ≤ b.length then some ⟨l, t, f, s, p, (b.take l).drop 16⟩ else none
  | _, _, _, _, _ => none

/-- A netfilter netlink message: `nfgenmsg` (resource id in network order) and attributes. -/
structure NfMsg where
  len : Nat
  type : Nat
  flags : Nat
  seq : Nat
  pid : Nat
  family : Nat
  version : Nat
  resId : Nat
  attrs : List Attr
deriving DecidableEq, Repr

/-- Decode the first message of a datagram as a netfilter message. -/
def decodeNf (e : Endian) (b : List Byte) : Option NfMsg :=
  match decodeNl e b with
  | some m =>
    match m.body[0]?, m.body[1]?, be16 m.body 2, decodeAttrs e (m.body.drop 4) with
    | some fam, some ver, some rid, some as =>
      some ⟨m.len, m.type, m.flags, m.seq, m.pid, fam.toNat, ver.toNat, rid, as⟩
    | _, _, _, _ => none
  | none => none

/-- The two bytes of a 16-bit number in order `e`. -/
def bytes16 (e : Endian) (n : Nat) : List Byte :=
  match e with
  | .big => [BitVec.ofNat 8 (n / 256), BitVec.ofNat 8 n]
  | .little => [BitVec.ofNat 8 n, BitVec.ofNat 8 (n / 256)]

/-- The four bytes of a 32-bit number in order `e`. -/
def bytes32 (e : Endian) (n : Nat) : List Byte :=
  match e with
  | .big => [BitVec.ofNat 8 (n / 16777216), BitVec.ofNat 8 (n / 65536), BitVec.ofNat 8 (n / 256),
      BitVec.ofNat 8 n]
  | .little => [BitVec.ofNat 8 n, BitVec.ofNat 8 (n / 256), BitVec.ofNat 8 (n / 65536),
      BitVec.ofNat 8 (n / 16777216)]

/-- The four bytes of a signed 32-bit number (two's complement). -/
def bytesI32 (e : Endian) (n : Int) : List Byte := bytes32 e (n % 4294967296).toNat

/-- Encode one attribute (type `t`): length (header + payload), type, payload, zero padding. -/
def encodeAttr (e : Endian) (t : Nat) (payload : List Byte) : List Byte :=
  bytes16 e (payload.length + 4) ++ bytes16 e t ++ payload
    ++ List.replicate (roundUp4 payload.length - payload.length) 0

/-- Encode attributes back to back. -/
def encodeAttrs (e : Endian) (l : List (Nat × List Byte)) : List Byte :=
  l.flatMap fun a => encodeAttr e a.1 a.2

/-- The payload of the last attribute of type `k` in the list, if any. -/
def lastOf (k : Nat) (attrs : List (Nat × List Byte)) : Option (List Byte) :=
  ((attrs.filter fun a => a.1 = k).getLast?).map (·.2)

/-- Positions the attribute walk visits: from a header at `i` whose stated length `l` fits into the
buffer the walk moves on to the next multiple of four after `i + l`. -/
inductive Visits (e : Endian) (b : List Byte) : Nat → Nat → Prop
  | here (i : Nat) : Visits e b i i
  | step {i j l : Nat} : i + 4 ≤ b.length → num16 e b i = some l → i + l ≤ b.length →
      Visits e b (roundUp4 (i + l)) j → Visits e b i j

/-- There is an attribute header at `i`, stating length `l` and type `t`. -/
def HeaderAt (e : Endian) (b : List Byte) (i l t : Nat) : Prop :=
  i + 4 ≤ b.length ∧ num16 e b i = some l ∧ num16 e b (i + 2) = some t

end Verif.Spec
