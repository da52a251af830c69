import Verif.Props.PacketMore

/-!
C118: the flow hash is the text `source:destination:sport:dport`, the addresses and ports in their
standard notation: ports and IPv4 addresses in decimal without leading zeros, IPv6 addresses in the
RFC 5952 form the Go standard library prints (lower-case hexadecimal groups without leading zeros, the
*first* of the *longest* runs of at least two zero groups shortened to `::`, and nothing else).
Numerals and runs are described here on their own, without the functions of the model that
produce or search for them.
-/

namespace Verif.Packet

/-! ### Numerals -/

/-- `s` is the numeral of `n` to the given base, without leading zeros. -/
inductive Numeral (base : Nat) : Nat → List Char → Prop
  | one {d : Nat} {c : Char} : d < base → "0123456789abcdef".toList[d]? = some c → Numeral base d [c]
  | more {n d : Nat} {s : List Char} {c : Char} : 0 < n → Numeral base n s → d < base →
      "0123456789abcdef".toList[d]? = some c → Numeral base (n * base + d) (s ++ [c])

theorem digit_char : ∀ d : Fin 16, "0123456789abcdef".toList[d.1]? = some d.1.digitChar := by
  decide +kernel

theorem toDigits_numeral {base : Nat} (h1 : 1 < base) (h2 : base ≤ 16) (n : Nat) :
    Numeral base n (Nat.toDigits base n) := by
  induction n using Nat.strongRecOn with
  | ind n ih =>
    have dc : ∀ d, d < base → "0123456789abcdef".toList[d]? = some d.digitChar :=
      fun d hd => digit_char ⟨d, by omega⟩
    by_cases hn : n < base
    · rw [Nat.toDigits_of_lt_base hn]
      exact .one hn (dc n hn)
    · have hp : 0 < n / base := Nat.div_pos (by omega) (by omega)
      have hm := Nat.mod_lt n (show base > 0 by omega)
      rw [Nat.toDigits_of_base_le h1 (by omega)]
      have key : Numeral base (n / base * base + n % base)
          (Nat.toDigits base (n / base) ++ [(n % base).digitChar]) :=
        .more hp (ih (n / base) (Nat.div_lt_self (by omega) h1)) hm (dc _ hm)
      rw [Nat.div_add_mod'] at key
      exact key

/-- The texts `ts` are the numerals of the numbers `ns`, one each. -/
inductive Numerals (base : Nat) : List Nat → List (List Char) → Prop
  | nil : Numerals base [] []
  | cons {n : Nat} {s : List Char} {ns : List Nat} {ts : List (List Char)} :
      Numeral base n s → Numerals base ns ts → Numerals base (n :: ns) (s :: ts)

/-- Texts written one after the other with a separator between them. -/
def joined (sep : Char) : List (List Char) → List Char
  | [] => []
  | t :: ts => t ++ (ts.map (fun u => sep :: u)).flatten

theorem numerals_map {base : Nat} {f : Nat → List Char} (hf : ∀ n, Numeral base n (f n)) :
    ∀ ns : List Nat, Numerals base ns (ns.map f)
  | [] => .nil
  | n :: ns => .cons (hf n) (numerals_map hf ns)

theorem hexGroups_joined : ∀ gs : List Nat, hexGroups gs = joined ':' (gs.map hex)
  | [] => rfl
  | [g] => by simp [hexGroups, joined]
  | g :: g' :: t => by
    rw [hexGroups_cons, hexGroups_joined (g' :: t)]
    simp [joined]

theorem dotted_joined : ∀ b : List Byte, dotted b = joined '.' ((b.map BitVec.toNat).map itoa)
  | [] => rfl
  | [g] => by simp [dotted, joined]
  | g :: g' :: t => by
    rw [dotted_cons, dotted_joined (g' :: t)]
    simp [joined]

/-! ### Runs of zero groups -/

/-- The groups at positions `s, …, s+n-1` exist and are all zero. -/
def ZeroGroups (gs : List Nat) (s n : Nat) : Prop :=
  ∀ i, i < n → gs[s + i]? = some 0

theorem zeroRun_spec : ∀ (gs : List Nat) (n : Nat), ZeroGroups gs 0 n ↔ n ≤ zeroRun gs
  | [], n => by
    constructor
    · intro h
      cases n with
      | zero => exact Nat.le_refl _
      | succ k => exact absurd (h 0 (by omega)) (by simp)
    · intro h i hi
      simp only [zeroRun] at h
      omega
  | 0 :: t, n => by
    cases n with
    | zero => exact ⟨fun _ => Nat.zero_le _, fun _ i hi => absurd hi (by omega)⟩
    | succ k =>
      simp only [zeroRun]
      rw [Nat.add_le_add_iff_right, ← zeroRun_spec t k]
      constructor
      · intro h i hi
        have := h (i + 1) (by omega)
        rw [show 0 + (i + 1) = (0 + i) + 1 by omega, List.getElem?_cons_succ] at this
        exact this
      · intro h i hi
        cases i with
        | zero => rfl
        | succ i =>
          rw [show 0 + (i + 1) = (0 + i) + 1 by omega, List.getElem?_cons_succ]
          exact h i (by omega)
  | (g + 1) :: t, n => by
    cases n with
    | zero => exact ⟨fun _ => Nat.zero_le _, fun _ i hi => absurd hi (by omega)⟩
    | succ k =>
      simp only [zeroRun]
      constructor
      · intro h
        exact absurd (h 0 (by omega)) (by simp)
      · intro h
        omega

theorem zeroGroups_drop {gs : List Nat} {s n : Nat} :
    ZeroGroups gs s n ↔ ZeroGroups (gs.drop s) 0 n := by
  unfold ZeroGroups
  simp only [List.getElem?_drop, Nat.zero_add]

/-- The run `r` is a run of zero groups that beats every run starting before `i`. -/
structure Best (gs : List Nat) (i : Nat) (r : Nat × Nat) : Prop where
  run : ZeroGroups gs r.1 r.2
  before : r.2 = 0 ∨ r.1 < i
  longest : ∀ s n, s < i → ZeroGroups gs s n → n ≤ r.2
  first : ∀ s n, s < r.1 → ZeroGroups gs s n → n < r.2 ∨ r.2 = 0

theorem bestRun_best (full : List Nat) : ∀ (gs : List Nat) (i : Nat) (r : Nat × Nat),
    full.drop i = gs → Best full i r → Best full (i + gs.length) (bestRun gs i r)
  | [], i, r, _, hb => hb
  | g :: t, i, r, hd, hb => by
    unfold bestRun
    have hd' : full.drop (i + 1) = t := by rw [← List.drop_drop, hd]; rfl
    have key := bestRun_best full t (i + 1) (if zeroRun (g :: t) > r.2 then (i, zeroRun (g :: t)) else r) hd' ?_
    · rw [List.length_cons, show i + (t.length + 1) = i + 1 + t.length by omega]
      exact key
    · have here : ∀ n, ZeroGroups full i n ↔ n ≤ zeroRun (g :: t) := by
        intro n
        rw [zeroGroups_drop, hd, zeroRun_spec]
      split
      · rename_i hgt
        refine ⟨(here _).2 (Nat.le_refl _), Or.inr (Nat.lt_succ_self i), ?_, ?_⟩
        · intro s n hs hz
          show n ≤ zeroRun (g :: t)
          by_cases e : s = i
          · subst e
            exact (here n).1 hz
          · have := hb.longest s n (by omega) hz
            omega
        · intro s n hs hz
          left
          have := hb.longest s n hs hz
          show n < zeroRun (g :: t)
          omega
      · rename_i hle
        refine ⟨hb.run, ?_, ?_, hb.first⟩
        · rcases hb.before with h | h
          · exact Or.inl h
          · exact Or.inr (by omega)
        · intro s n hs hz
          by_cases e : s = i
          · subst e
            have := (here n).1 hz
            omega
          · exact hb.longest s n (by omega) hz

/-- For every list of 16-bit groups: if it has two adjacent zero groups, the text is the groups
before a run `s, …, s+n-1` of zero groups, `::`, and the groups after it, where the run has at least
two groups, no run is longer, and no run of the same length starts earlier; otherwise all groups are
written, separated by colons. -/
theorem ip6Text_spec (gs : List Nat) :
    (∃ s n, 2 ≤ n ∧ ZeroGroups gs s n ∧
      (∀ s' n', ZeroGroups gs s' n' → n' ≤ n) ∧
      (∀ s', ZeroGroups gs s' n → s ≤ s') ∧
      ip6Text gs = hexGroups (gs.take s) ++ ':' :: ':' :: hexGroups (gs.drop (s + n))) ∨
    ((∀ s, ¬ ZeroGroups gs s 2) ∧ ip6Text gs = hexGroups gs) := by
  have hb : Best gs (0 + gs.length) (bestRun gs 0 (0, 0)) :=
    bestRun_best gs gs 0 (0, 0) rfl
      ⟨fun i hi => absurd hi (Nat.not_lt_zero _), Or.inl rfl,
        fun s n hs _ => absurd hs (Nat.not_lt_zero _), fun s n hs _ => absurd hs (Nat.not_lt_zero _)⟩
  have all : ∀ s n, ZeroGroups gs s n → n ≤ (bestRun gs 0 (0, 0)).2 := by
    intro s n hz
    by_cases hs : s < gs.length
    · exact hb.longest s n (by omega) hz
    · cases n with
      | zero => exact Nat.zero_le _
      | succ k =>
        have h0 := hz 0 (by omega)
        rw [List.getElem?_eq_none (by omega)] at h0
        cases h0
  unfold ip6Text
  generalize hr : bestRun gs 0 (0, 0) = r at *
  by_cases h2 : r.2 ≥ 2
  · left
    refine ⟨r.1, r.2, h2, hb.run, all, ?_, ?_⟩
    · intro s' hz
      refine Classical.byContradiction fun hlt => ?_
      rcases hb.first s' r.2 (by omega) hz with h | h <;> omega
    · simp only
      rw [if_pos h2]
  · right
    refine ⟨fun s hz => ?_, ?_⟩
    · have := all s 2 hz
      omega
    · simp only
      rw [if_neg h2]

/-! ### The text of addresses and flows -/

/-- The bytes are an IPv4 address, or an IPv6 address of the form `::ffff:a.b.c.d`, with these four
bytes at the end. -/
def FourBytes (a b : List Byte) : Prop :=
  b.length = 4 ∧ (a = b ∨ a = List.replicate 10 (0 : Byte) ++ [0xff, 0xff] ++ b)

/-- `t` is the standard text of the address `a` (4 or 16 bytes). -/
inductive AddressText (a : List Byte) : List Char → Prop
  /-- IPv4: four decimal numbers with dots -/
  | v4 {b : List Byte} {ts : List (List Char)} : FourBytes a b →
      Numerals 10 (b.map BitVec.toNat) ts → AddressText a (joined '.' ts)
  /-- IPv6 without two adjacent zero groups: eight hexadecimal numbers with colons -/
  | full {gs : List Nat} {ts : List (List Char)} : (¬ ∃ b, FourBytes a b) → gs.length = 8 →
      (∀ i, i < 8 → Verif.Spec.be16 a (2 * i) = gs[i]?) → (∀ s, ¬ ZeroGroups gs s 2) →
      Numerals 16 gs ts → AddressText a (joined ':' ts)
  /-- IPv6 with the first of the longest runs of two or more zero groups written `::` -/
  | short {gs : List Nat} {ts us : List (List Char)} {s n : Nat} : (¬ ∃ b, FourBytes a b) → gs.length = 8 →
      (∀ i, i < 8 → Verif.Spec.be16 a (2 * i) = gs[i]?) → 2 ≤ n → ZeroGroups gs s n →
      (∀ s' n', ZeroGroups gs s' n' → n' ≤ n) → (∀ s', ZeroGroups gs s' n → s ≤ s') →
      Numerals 16 (gs.take s) ts → Numerals 16 (gs.drop (s + n)) us →
      AddressText a (joined ':' ts ++ [':', ':'] ++ joined ':' us)

theorem to4_spec {a : List Byte} (_hl : a.length = 4 ∨ a.length = 16) :
    (∀ b, to4 a = some b → FourBytes a b) ∧ (to4 a = none → ¬ ∃ b, FourBytes a b) := by
  unfold to4 FourBytes
  refine ⟨fun b h => ?_, fun h => ?_⟩
  · split at h
    · rename_i h4
      cases h
      exact ⟨h4, Or.inl rfl⟩
    · split at h
      · rename_i h16
        cases h
        refine ⟨by rw [List.length_drop]; omega, Or.inr ?_⟩
        have e1 := List.take_append_drop 10 a
        have e2 := List.take_append_drop 2 (a.drop 10)
        rw [h16.2.1, ← e2, h16.2.2, List.drop_drop] at e1
        rw [List.append_assoc]
        exact e1.symm
      · cases h
  · rintro ⟨b, hb, e | e⟩
    · rw [if_pos (e ▸ hb)] at h
      cases h
    · have l : a.length = 16 := by rw [e]; simp [hb]
      rw [if_neg (by omega), if_pos ⟨l, by rw [e]; rfl, by rw [e]; rfl⟩] at h
      cases h

/-- The text the model writes for an address is its standard text. -/
theorem ipString_text {a : List Byte} (hl : a.length = 4 ∨ a.length = 16) : AddressText a (ipString a) := by
  obtain ⟨t1, t2⟩ := to4_spec hl
  unfold ipString
  rw [if_neg (by omega)]
  cases h4 : to4 a with
  | some b =>
    show AddressText a (dotted b)
    rw [dotted_joined]
    exact .v4 (t1 b h4) (numerals_map (fun n => toDigits_numeral (by omega) (by omega) n) _)
  | none =>
    have hn := t2 h4
    have l16 : a.length = 16 := by
      rcases hl with h | h
      · exact absurd ⟨a, h, Or.inl rfl⟩ hn
      · exact h
    show AddressText a (if a.length = 16 then ip6Text (groups a) else ['?'])
    rw [if_pos l16]
    have hgl : (groups a).length = 8 := by rw [groups_length]; omega
    have hg : ∀ i, i < 8 → Verif.Spec.be16 a (2 * i) = (groups a)[i]? := by
      intro i hi
      rw [groups_get, if_pos (by omega)]
    have num := numerals_map (base := 16) (f := hex) (fun n => toDigits_numeral (by omega) (by omega) n)
    rcases ip6Text_spec (groups a) with ⟨s, n, h2, hz, hm, hf, e⟩ | ⟨hz, e⟩
    · rw [e, hexGroups_joined, hexGroups_joined]
      have := AddressText.short hn hgl hg h2 hz hm hf (num _) (num _)
      rw [List.append_assoc] at this
      exact this
    · rw [e, hexGroups_joined]
      exact .full hn hgl hg hz (num _)

/-- **C118.**  For every accepted packet: its flow hash is the text of the source address, of the destination address,
of the source port and of the destination port, separated by colons, and its reverse flow hash the
same with source and destination exchanged; ports are written in decimal. -/
theorem C118_flow_hash_text {h : Heap} {bytes : Slice} (hv : bytes.Valid h) {c : U64} {m : List Char} {lv : Bool}
    {p : Packet} (ha : New h c bytes m lv = .ok (some p, none)) :
    ∃ src dst sport dport, AddressText p.SourceAddress src ∧ AddressText p.DestinationAddress dst ∧
      Numeral 10 p.SourcePort.toNat sport ∧ Numeral 10 p.DestPort.toNat dport ∧
      p.L4FlowHash = joined ':' [src, dst, sport, dport] ∧
      p.L4ReverseFlowHash = joined ':' [dst, src, dport, sport] := by
  obtain ⟨a1, a2, a3⟩ := accepted_hash hv ha
  have hl : addrLen p.version = 4 ∨ addrLen p.version = 16 := by
    cases p.version
    · exact Or.inl rfl
    · exact Or.inr rfl
  refine ⟨ipString p.SourceAddress, ipString p.DestinationAddress, itoa p.SourcePort.toNat, itoa p.DestPort.toNat,
    ipString_text ?_, ipString_text ?_, toDigits_numeral (by omega) (by omega) _,
    toDigits_numeral (by omega) (by omega) _, ?_, ?_⟩
  · show p.sourceAddress.length = 4 ∨ p.sourceAddress.length = 16
    omega
  · show p.destinationAddress.length = 4 ∨ p.destinationAddress.length = 16
    omega
  · have ea : p.L4FlowHash = flowText p.sourceAddress p.destinationAddress p.SourcePort p.DestPort := a1
    rw [ea]
    simp [flowText, joined, Packet.SourceAddress, Packet.DestinationAddress]
  · have er : p.L4ReverseFlowHash = flowText p.destinationAddress p.sourceAddress p.DestPort p.SourcePort := rfl
    rw [er]
    simp [flowText, joined, Packet.SourceAddress, Packet.DestinationAddress]

/-- An accepted IPv6 UDP packet from 2001:db8::1:0:0:1 (two longest runs: the first is shortened) to ::1. -/
theorem C118_example : ∃ p : Packet,
    New ⟨[[0x60, 0, 0, 0, 0, 8, 17, 64, 0x20, 1, 0x0d, 0xb8, 0, 0, 0, 0, 0, 1, 0, 0, 0, 0, 0, 1,
      0, 0, 0, 0, 0, 0, 0, 0, 0, 0, 0, 0, 0, 0, 0, 1, 0, 53, 4, 210, 0, 8, 0, 0]]⟩ 0
      ⟨0, 0, 48, 48⟩ [] true = .ok (some p, none) ∧
    p.L4FlowHash = "2001:db8::1:0:0:1:::1:53:1234".toList := by
  refine ⟨_, rfl, ?_⟩
  decide +kernel

/-- `2001:db8:0:0:1:0:0:1` has two longest runs: the first is shortened. -/
theorem C118_ipv6_example :
    ip6Text [0x2001, 0xdb8, 0, 0, 1, 0, 0, 1] = "2001:db8::1:0:0:1".toList ∧
    ip6Text [1, 0, 2, 0, 3, 0, 4, 0] = "1:0:2:0:3:0:4:0".toList ∧
    ip6Text [0, 0, 0, 0, 0, 0, 0, 1] = "::1".toList ∧
    ip6Text [0xfe80, 0, 0, 0, 0, 0, 0, 0] = "fe80::".toList := by
  decide +kernel

end Verif.Packet
