import Verif.Spec.Netlink
/-! What the specifications of the kernel's side have in common: looking up attributes, replying to requests. -/
namespace Verif.Spec

/-- The payload of the attribute of type `k` (the last one wins, as in `nla_parse`). -/
def attrOf (k : Nat) (as : List Attr) : Option (List Byte) := ((as.filter fun a => decide (a.type = k)).getLast?).map (·.payload)

/-- The reply to a request: an NLMSG_ERROR (2) with the code at offset 16. -/
def ReplyIs (e : Endian) (d : List Byte) (code : Int) : Prop :=
  20 ≤ d.length ∧ num16 e d 4 = some 2 ∧ numI32 e d 16 = some code

/-- An acknowledgement as the kernel sends it (rfc3549, section 2.3.2.2): 36 bytes: header of type 2, code 0, and
the header of the acknowledged request, whose length field is `reqLen`. -/
def IsAck (e : Endian) (d : List Byte) (reqLen : Nat) : Prop :=
  d.length = 36 ∧ num16 e d 4 = some 2 ∧ num32 e d 16 = some 0 ∧ num32 e d 20 = some reqLen

/-- Such a reply. -/
def replyBytes (e : Endian) (code : Int) : List Byte :=
  bytes32 e 36 ++ bytes16 e 2 ++ bytes16 e 0 ++ bytes32 e 0 ++ bytes32 e 0 ++ bytes32 e (if code < 0 then (code + 4294967296).toNat else code.toNat)

theorem num32_bytes32 (e : Endian) (n : Nat) (h : n < 2 ^ 32) : num32 e (bytes32 e n) 0 = some n := by
  cases e <;>
  · simp only [num32, bytes32, List.getElem?_cons_zero, List.getElem?_cons_succ, BitVec.toNat_ofNat]
    rw [Option.some.injEq]
    omega

theorem replyBytes_is (e : Endian) {code : Int} (h : code ≤ 0 ∧ -4095 ≤ code) : ReplyIs e (replyBytes e code) code := by
  have hn : (if code < 0 then (code + 4294967296).toNat else code.toNat) < 2 ^ 32 := by split <;> omega
  have hs : signed32 (if code < 0 then (code + 4294967296).toNat else code.toNat) = code := by
    unfold signed32
    split <;> split <;> omega
  refine ⟨by unfold replyBytes; cases e <;> simp [bytes16, bytes32], ?_, ?_⟩
  · unfold replyBytes; cases e <;> rfl
  · unfold replyBytes numI32
    generalize (if code < 0 then (code + 4294967296).toNat else code.toNat) = v at hn hs
    have : num32 e (bytes32 e 36 ++ bytes16 e 2 ++ bytes16 e 0 ++ bytes32 e 0 ++ bytes32 e 0 ++ bytes32 e v) 16 = num32 e (bytes32 e v) 0 := by
      cases e <;> rfl
    rw [this, num32_bytes32 e v hn, Option.map_some, hs]

theorem replyBytes_length (e : Endian) (code : Int) : (replyBytes e code).length = 20 := by
  unfold replyBytes
  cases e <;> simp [bytes16, bytes32]

end Verif.Spec
