import Verif.Props.PacketMore
/-! C67: exactly which IPv6 flows share a flow hash. -/
namespace Verif.Packet
open Verif.Spec

/-! ### Texts as lists of colon-separated fields -/

/-- The fields of a text, separated by colons. -/
def fields : List Char → List (List Char)
  | [] => [[]]
  | c :: t => if c = ':' then [] :: fields t else
    match fields t with
    | f :: fs => (c :: f) :: fs
    | [] => [[c]]

theorem fields_ne : ∀ t, fields t ≠ []
  | [] => by simp [fields]
  | c :: t => by
    unfold fields
    split
    · simp
    · split <;> simp

theorem fields_plain_cons {c : Char} (hc : c ≠ ':') {t f : List Char} {fs : List (List Char)} (h : fields t = f :: fs) :
    fields (c :: t) = (c :: f) :: fs := by
  rw [fields, if_neg hc, h]

theorem fields_append : ∀ a b : List Char, fields (a ++ ':' :: b) = fields a ++ fields b
  | [], b => by show fields (':' :: b) = _; simp [fields]
  | c :: t, b => by
    show fields (c :: (t ++ ':' :: b)) = _
    have ih := fields_append t b
    by_cases hc : c = ':'
    · simp only [fields, if_pos hc, ih]; rfl
    · obtain ⟨f, fs, hf⟩ : ∃ f fs, fields t = f :: fs := List.exists_cons_of_ne_nil (fields_ne t)
      rw [fields_plain_cons hc hf]
      rw [hf] at ih
      exact fields_plain_cons hc ih

theorem fields_word : ∀ {a : List Char}, ':' ∉ a → fields a = [a]
  | [], _ => rfl
  | c :: t, h => by
    have hc : c ≠ ':' := fun e => h (by rw [e]; exact List.mem_cons_self)
    exact fields_plain_cons hc (fields_word (fun e => h (List.mem_cons_of_mem _ e)))

theorem fields_inj : ∀ {a b : List Char}, fields a = fields b → a = b
  | [], [], _ => rfl
  | [], c :: t, h => by
    by_cases hc : c = ':'
    · simp only [fields, if_pos hc] at h
      have := (List.cons.inj h).2
      exact absurd this.symm (fields_ne t)
    · obtain ⟨f, fs, hf⟩ := List.exists_cons_of_ne_nil (fields_ne t)
      rw [fields_plain_cons hc hf] at h
      simp [fields] at h
  | c :: t, [], h => by
    by_cases hc : c = ':'
    · simp only [fields, if_pos hc] at h
      have := (List.cons.inj h).2
      exact absurd this (fields_ne t)
    · obtain ⟨f, fs, hf⟩ := List.exists_cons_of_ne_nil (fields_ne t)
      rw [fields_plain_cons hc hf] at h
      simp [fields] at h
  | c :: t, d :: u, h => by
    obtain ⟨f, fs, hf⟩ := List.exists_cons_of_ne_nil (fields_ne t)
    obtain ⟨g, gs, hg⟩ := List.exists_cons_of_ne_nil (fields_ne u)
    by_cases hc : c = ':'
    · by_cases hd : d = ':'
      · simp only [fields, if_pos hc, if_pos hd] at h
        rw [hc, hd, fields_inj (List.cons.inj h).2]
      · rw [fields_plain_cons hd hg] at h
        simp only [fields, if_pos hc] at h
        exact absurd (List.cons.inj h).1 (by simp)
    · by_cases hd : d = ':'
      · rw [fields_plain_cons hc hf] at h
        simp only [fields, if_pos hd] at h
        exact absurd (List.cons.inj h).1 (by simp)
      · rw [fields_plain_cons hc hf, fields_plain_cons hd hg] at h
        have h1 := List.cons.inj h
        have h2 := List.cons.inj h1.1
        rw [h2.1, fields_inj (a := t) (b := u) (by rw [hf, hg, h2.2, h1.2])]

theorem fields_hexGroups : ∀ {gs : List Nat}, gs ≠ [] → fields (hexGroups gs) = gs.map hex
  | [g], _ => fields_word (hex_colon g)
  | g :: g' :: t, _ => by
    rw [hexGroups_cons, fields_append, fields_word (hex_colon g), fields_hexGroups (gs := g' :: t) (by simp)]
    rfl

/-! ### The three shapes of address texts -/

/-- The text of the address is that of the groups `A`, two colons, and that of the groups `B`. -/
def WrittenAs (a : List Byte) (A B : List Nat) : Prop :=
  ipString a = hexGroups A ++ ':' :: ':' :: hexGroups B

inductive Shape (a : List Byte) : Prop
  /-- an IPv4-mapped address: dotted decimal -/
  | dots (t : List Char) : fields (ipString a) = [t] → '.' ∈ t → Shape a
  /-- eight groups -/
  | full (gs : List Nat) : fields (ipString a) = gs.map hex → gs.length = 8 → Shape a
  /-- the longest run of zero groups left out -/
  | short (A B : List Nat) : A.length + B.length ≤ 6 → WrittenAs a A B → Shape a

theorem shape {a : List Byte} (ha : a.length = 16) : Shape a := by
  have ht := ipString_sixteen ha
  cases h4 : to4 a with
  | some b =>
    rw [h4] at ht
    obtain ⟨hb, _⟩ := to4_some ha h4
    have ht' : ipString a = dotted b := ht
    exact .dots (dotted b) (by rw [ht']; exact fields_word dotted_no_colon) (dotted_dot (by omega))
  | none =>
    rw [h4] at ht
    have ht' : ipString a = ip6Text (groups a) := ht
    have hgl : (groups a).length = 8 := by rw [groups_length, ha]
    have ra := bestRun_ok (groups a) (groups a) 0 (0, 0) rfl ⟨Nat.zero_le _, by simp⟩
    unfold ip6Text at ht'
    simp only at ht'
    generalize bestRun (groups a) 0 (0, 0) = r at ra ht'
    by_cases hr : r.2 ≥ 2
    · rw [if_pos hr] at ht'
      refine .short _ _ ?_ ht'
      have := ra.1
      rw [List.length_take, List.length_drop]
      omega
    · rw [if_neg hr] at ht'
      refine .full (groups a) ?_ hgl
      rw [ht', fields_hexGroups]
      intro hz; rw [hz] at hgl; exact absurd hgl (by decide)

/-- The fields of one side of a `::`. -/
def side (gs : List Nat) : List (List Char) := if gs = [] then [[]] else gs.map hex

theorem fields_side (gs : List Nat) : fields (hexGroups gs) = side gs := by
  unfold side
  split
  · next h => subst h; rfl
  · next h => exact fields_hexGroups h

theorem fields_short {a : List Byte} {A B : List Nat} (h : WrittenAs a A B) :
    fields (ipString a) = side A ++ ([] :: side B) := by
  rw [show ipString a = _ from h, fields_append]
  show _ ++ fields (':' :: hexGroups B) = _
  rw [fields, if_pos rfl, fields_side, fields_side]

theorem side_no_dot {gs : List Nat} {t : List Char} (h : t ∈ side gs) : '.' ∉ t := by
  unfold side at h
  split at h
  · simp at h; subst h; simp
  · obtain ⟨g, _, rfl⟩ := List.mem_map.mp h
    exact fun hx => (hex_plain hx).2 rfl

theorem side_length (gs : List Nat) : (side gs).length = if gs = [] then 1 else gs.length := by
  unfold side; split <;> simp

theorem side_bound (gs : List Nat) : 1 ≤ (side gs).length ∧ (side gs).length ≤ gs.length + 1 := by
  rw [side_length]
  split
  · next h => subst h; simp
  · next h =>
    have : 0 < gs.length := List.length_pos_iff.mpr h
    omega

theorem fields_count {a : List Byte} (ha : a.length = 16) :
    1 ≤ (fields (ipString a)).length ∧ (fields (ipString a)).length ≤ 8 := by
  cases shape ha with
  | dots t h _ => rw [h]; simp
  | full gs h hl => rw [h, List.length_map, hl]; decide
  | short A B hl h =>
    rw [fields_short h, List.length_append, List.length_cons, side_length, side_length]
    by_cases hA : A = []
    · subst hA
      by_cases hB : B = []
      · subst hB; decide
      · rw [if_pos rfl, if_neg hB]; simp only [List.length_nil] at hl; omega
    · by_cases hB : B = []
      · subst hB; rw [if_neg hA, if_pos rfl]; simp only [List.length_nil] at hl; omega
      · rw [if_neg hA, if_neg hB]; omega

/-- The text of the address has no `::`. -/
def Unshortened (a : List Byte) : Prop := ∀ A B, ¬ WrittenAs a A B

/-- An unshortened text has as many fields as any address text that has all of its fields. -/
theorem unshortened_within {a b : List Byte} (ha : a.length = 16) (hb : b.length = 16) (hu : Unshortened a)
    (hsub : ∀ t ∈ fields (ipString a), t ∈ fields (ipString b))
    (hle : (fields (ipString a)).length ≤ (fields (ipString b)).length) :
    (fields (ipString a)).length = (fields (ipString b)).length := by
  cases shape ha with
  | short A B _ h => exact absurd h (hu A B)
  | full gs h hl =>
    have := (fields_count hb).2
    rw [h, List.length_map, hl] at hle ⊢
    omega
  | dots t h hd =>
    have hm : t ∈ fields (ipString b) := hsub t (by rw [h]; exact List.mem_singleton.mpr rfl)
    cases shape hb with
    | dots t' h' _ => rw [h, h']; rfl
    | full gs h' _ =>
      rw [h'] at hm
      obtain ⟨g, _, rfl⟩ := List.mem_map.mp hm
      exact absurd rfl (hex_plain hd).2
    | short A B _ h' =>
      rw [fields_short h'] at hm
      rcases List.mem_append.mp hm with hm | hm
      · exact absurd hd (side_no_dot hm)
      · rcases List.mem_cons.mp hm with rfl | hm
        · cases hd
        · exact absurd hd (side_no_dot hm)

/-- And as any address text whose fields are all among its own. -/
theorem unshortened_around {a b : List Byte} (ha : a.length = 16) (hb : b.length = 16) (hu : Unshortened a)
    (hsub : ∀ t ∈ fields (ipString b), t ∈ fields (ipString a))
    (hle : (fields (ipString b)).length ≤ (fields (ipString a)).length) :
    (fields (ipString b)).length = (fields (ipString a)).length := by
  cases shape ha with
  | short A B _ h => exact absurd h (hu A B)
  | dots t h hd =>
    have := (fields_count hb).1
    rw [h, List.length_singleton] at hle ⊢
    omega
  | full gs h hl =>
    rw [h] at hsub
    cases shape hb with
    | dots t' h' hd =>
      have hm := hsub t' (by rw [h']; exact List.mem_singleton.mpr rfl)
      obtain ⟨g, _, rfl⟩ := List.mem_map.mp hm
      exact absurd rfl (hex_plain hd).2
    | full gs' h' hl' => rw [h, h', List.length_map, List.length_map, hl, hl']
    | short A B _ h' =>
      have hm := hsub [] (by rw [fields_short h']; simp)
      obtain ⟨g, _, hg⟩ := List.mem_map.mp hm
      exact absurd hg (hex_ne_nil g)

theorem unshortened_source {s d s' d' : List Byte} (hs : s.length = 16) (hs' : s'.length = 16) (hu : Unshortened s)
    (h : ipString s ++ ':' :: ipString d = ipString s' ++ ':' :: ipString d') : ipString s = ipString s' := by
  have hf := congrArg fields h
  rw [fields_append, fields_append] at hf
  have hlen : (fields (ipString s)).length = (fields (ipString s')).length := by
    rcases List.append_eq_append_iff.mp hf with ⟨m, h1, _⟩ | ⟨m, h1, _⟩
    · refine unshortened_within hs hs' hu (fun t ht => ?_) ?_
      · rw [h1]; exact List.mem_append_left _ ht
      · rw [h1, List.length_append]; omega
    · refine (unshortened_around hs hs' hu (fun t ht => ?_) ?_).symm
      · rw [h1]; exact List.mem_append_left _ ht
      · rw [h1, List.length_append]; omega
  exact fields_inj (List.append_inj hf hlen).1

theorem unshortened_destination {s d s' d' : List Byte} (hd : d.length = 16) (hd' : d'.length = 16) (hu : Unshortened d)
    (h : ipString s ++ ':' :: ipString d = ipString s' ++ ':' :: ipString d') : ipString d = ipString d' := by
  have hf := congrArg fields h
  rw [fields_append, fields_append] at hf
  have hlen : (fields (ipString d)).length = (fields (ipString d')).length := by
    rcases List.append_eq_append_iff.mp hf with ⟨m, _, h1⟩ | ⟨m, _, h1⟩
    · refine (unshortened_around hd hd' hu (fun t ht => ?_) ?_).symm
      · rw [h1]; exact List.mem_append_right _ ht
      · rw [h1, List.length_append]; omega
    · refine unshortened_within hd hd' hu (fun t ht => ?_) ?_
      · rw [h1]; exact List.mem_append_right _ ht
      · rw [h1, List.length_append]; omega
  exact fields_inj (List.append_inj' hf hlen).2

/-! ### Both addresses shortened -/

theorem hexGroups_append : ∀ {a b : List Nat}, a ≠ [] → b ≠ [] → hexGroups a ++ ':' :: hexGroups b = hexGroups (a ++ b)
  | [x], y :: u, _, _ => rfl
  | x :: x' :: t, b, _, hb => by
    rw [hexGroups_cons, List.append_assoc, List.cons_append, hexGroups_append (a := x' :: t) (by simp) hb]
    rfl

/-- Two different flows with the same text: the groups between the two `::` are divided differently. -/
def Regrouped (s d s' d' : List Byte) : Prop :=
  ∃ A B C B' C' D : List Nat, B ≠ [] ∧ C ≠ [] ∧ B' ≠ [] ∧ C' ≠ [] ∧ B ++ C = B' ++ C' ∧
    WrittenAs s A B ∧ WrittenAs d C D ∧ WrittenAs s' A B' ∧ WrittenAs d' C' D

theorem shortened_both {s d s' d' : List Byte} {A B C D A' B' C' D' : List Nat} (h1 : WrittenAs s A B)
    (h2 : WrittenAs d C D) (h3 : WrittenAs s' A' B') (h4 : WrittenAs d' C' D')
    (h : ipString s ++ ':' :: ipString d = ipString s' ++ ':' :: ipString d') :
    ipString d = ipString d' ∨ Regrouped s d s' d' := by
  have h0 := h
  rw [show ipString s = _ from h1, show ipString s' = _ from h3, List.append_assoc, List.append_assoc,
    List.cons_append, List.cons_append, List.cons_append, List.cons_append] at h
  obtain ⟨hA, h⟩ := dcolon_inj h
  by_cases hB : B = []
  · subst hB
    cases B' with
    | nil => exact .inl (List.cons.inj h).2
    | cons x t => exact absurd h.symm colon_ne
  · by_cases hB' : B' = []
    · subst hB'
      cases B with
      | nil => exact absurd rfl hB
      | cons x t => exact absurd h colon_ne
    · rw [show ipString d = _ from h2, show ipString d' = _ from h4] at h
      by_cases hC : C = []
      · subst hC
        by_cases hC' : C' = []
        · subst hC'
          have e := dcolon_inj (A := ':' :: hexGroups D) (B := ':' :: hexGroups D') h
          left
          rw [show ipString d = _ from h2, show ipString d' = _ from h4, (List.cons.inj e.2).2]
        · have e : hexGroups B ++ ':' :: ':' :: (':' :: hexGroups D) = hexGroups (B' ++ C') ++ ':' :: ':' :: hexGroups D' := by
            rw [← hexGroups_append hB' hC', List.append_assoc, List.cons_append]
            exact h
          have e2 := (dcolon_inj e).2
          cases D' with
          | nil => simp [hexGroups] at e2
          | cons x t =>
            have : hexGroups (x :: t) ++ [] = ':' :: hexGroups D := by rw [List.append_nil]; exact e2.symm
            exact absurd this colon_ne
      · by_cases hC' : C' = []
        · subst hC'
          have e : hexGroups (B ++ C) ++ ':' :: ':' :: hexGroups D = hexGroups B' ++ ':' :: ':' :: (':' :: hexGroups D') := by
            rw [← hexGroups_append hB hC, List.append_assoc, List.cons_append]
            exact h
          have e2 := (dcolon_inj e).2
          cases D with
          | nil => simp [hexGroups] at e2
          | cons x t =>
            have : hexGroups (x :: t) ++ [] = ':' :: hexGroups D' := by rw [List.append_nil]; exact e2
            exact absurd this colon_ne
        · have e : hexGroups (B ++ C) ++ ':' :: ':' :: hexGroups D = hexGroups (B' ++ C') ++ ':' :: ':' :: hexGroups D' := by
            rw [← hexGroups_append hB hC, ← hexGroups_append hB' hC']
            simpa using h
          obtain ⟨e1, e2⟩ := dcolon_inj e
          have hD := hexGroups_inj e2
          subst hA hD
          exact .inr ⟨A, B, C, B', C', D, hB, hC, hB', hC', e1, h1, h2, h3, h4⟩

theorem regrouped_text {s d s' d' : List Byte} (h : Regrouped s d s' d') :
    ipString s ++ ':' :: ipString d = ipString s' ++ ':' :: ipString d' := by
  obtain ⟨A, B, C, B', C', D, hB, hC, hB', hC', e, h1, h2, h3, h4⟩ := h
  rw [show ipString s = _ from h1, show ipString s' = _ from h3, show ipString d = _ from h2,
    show ipString d' = _ from h4]
  have e1 := congrArg (fun x => hexGroups x ++ ':' :: ':' :: hexGroups D) e
  rw [← hexGroups_append hB hC, ← hexGroups_append hB' hC'] at e1
  simpa using e1

theorem pair_text {s d s' d' : List Byte} (hs : s.length = 16) (hd : d.length = 16) (hs' : s'.length = 16)
    (hd' : d'.length = 16) :
    ipString s ++ ':' :: ipString d = ipString s' ++ ':' :: ipString d' ↔ (s = s' ∧ d = d') ∨ Regrouped s d s' d' := by
  constructor
  · intro h
    have bySrc : ipString s = ipString s' → s = s' ∧ d = d' := by
      intro e
      refine ⟨ipString_inj6 hs hs' e, ?_⟩
      rw [e] at h
      exact ipString_inj6 hd hd' (List.cons.inj (List.append_cancel_left h)).2
    have byDst : ipString d = ipString d' → s = s' ∧ d = d' := by
      intro e
      refine ⟨?_, ipString_inj6 hd hd' e⟩
      rw [e] at h
      exact ipString_inj6 hs hs' (List.append_cancel_right h)
    have split : ∀ x, Unshortened x ∨ ∃ A B, WrittenAs x A B := by
      intro x
      by_cases hx : ∃ A B, WrittenAs x A B
      · exact .inr hx
      · exact .inl fun A B hw => hx ⟨A, B, hw⟩
    rcases split s with u | ⟨A, B, w1⟩
    · exact .inl (bySrc (unshortened_source hs hs' u h))
    rcases split s' with u | ⟨A', B', w3⟩
    · exact .inl (bySrc (unshortened_source hs' hs u h.symm).symm)
    rcases split d with u | ⟨C, D, w2⟩
    · exact .inl (byDst (unshortened_destination hd hd' u h))
    rcases split d' with u | ⟨C', D', w4⟩
    · exact .inl (byDst (unshortened_destination hd' hd u h.symm).symm)
    rcases shortened_both w1 w2 w3 w4 h with e | e
    · exact .inl (byDst e)
    · exact .inr e
  · rintro (⟨rfl, rfl⟩ | h)
    · rfl
    · exact regrouped_text h

/-- C67, exactly. Two accepted IPv6 packets have the same flow hash iff their ports agree and either their addresses
agree too, or both addresses of both packets are written with `::` and the groups between the two `::` are divided
differently between source and destination, everything else being the same. -/
theorem C67_exact {h h' : Heap} {bytes bytes' : Slice} (hv : bytes.Valid h) (hv' : bytes'.Valid h')
    {c c' : U64} {m m' : List Char} {lv lv' : Bool} {p q : Packet} (ha : New h c bytes m lv = .ok (some p, none))
    (hb : New h' c' bytes' m' lv' = .ok (some q, none)) (h6 : p.IPversion = .V6) (h6' : q.IPversion = .V6) :
    p.L4FlowHash = q.L4FlowHash ↔ p.SourcePort = q.SourcePort ∧ p.DestPort = q.DestPort ∧
      ((p.SourceAddress = q.SourceAddress ∧ p.DestinationAddress = q.DestinationAddress) ∨
        Regrouped p.SourceAddress p.DestinationAddress q.SourceAddress q.DestinationAddress) := by
  obtain ⟨a1, a2, a3⟩ := accepted_hash hv ha
  obtain ⟨b1, b2, b3⟩ := accepted_hash hv' hb
  rw [show p.version = .V6 from h6] at a2 a3
  rw [show q.version = .V6 from h6'] at b2 b3
  have ea : p.L4FlowHash = flowText p.sourceAddress p.destinationAddress p.SourcePort p.DestPort := a1
  have eb : q.L4FlowHash = flowText q.sourceAddress q.destinationAddress q.SourcePort q.DestPort := b1
  have hp := pair_text a2 a3 b2 b3
  constructor
  · intro hx
    rw [ea, eb] at hx
    obtain ⟨h1, h2, h3⟩ := flowText_ports hx
    exact ⟨h2, h3, hp.mp h1⟩
  · rintro ⟨h2, h3, h1⟩
    have := hp.mpr h1
    rw [ea, eb]
    unfold flowText
    rw [h2, h3, this]

/-- C67 (part). If any one of the four addresses is written without `::`, the flow hash identifies the 4-tuple.
Missing for the full C67: flows all of whose addresses have `::`; `C67_exact` says which of these share a hash. -/
theorem C67_one_unshortened_partial {h h' : Heap} {bytes bytes' : Slice} (hv : bytes.Valid h) (hv' : bytes'.Valid h')
    {c c' : U64} {m m' : List Char} {lv lv' : Bool} {p q : Packet} (ha : New h c bytes m lv = .ok (some p, none))
    (hb : New h' c' bytes' m' lv' = .ok (some q, none)) (h6 : p.IPversion = .V6) (h6' : q.IPversion = .V6)
    (hu : Unshortened p.SourceAddress ∨ Unshortened p.DestinationAddress ∨ Unshortened q.SourceAddress ∨
      Unshortened q.DestinationAddress) :
    p.L4FlowHash = q.L4FlowHash ↔ p.SourceAddress = q.SourceAddress ∧ p.DestinationAddress = q.DestinationAddress ∧
      p.SourcePort = q.SourcePort ∧ p.DestPort = q.DestPort := by
  rw [C67_exact hv hv' ha hb h6 h6']
  constructor
  · rintro ⟨h1, h2, ⟨h3, h4⟩ | ⟨A, B, C, B', C', D, _, _, _, _, _, w1, w2, w3, w4⟩⟩
    · exact ⟨h3, h4, h1, h2⟩
    · rcases hu with u | u | u | u
      · exact absurd w1 (u _ _)
      · exact absurd w2 (u _ _)
      · exact absurd w3 (u _ _)
      · exact absurd w4 (u _ _)
  · rintro ⟨h1, h2, h3, h4⟩
    exact ⟨h3, h4, .inl ⟨h1, h2⟩⟩

/-- An address without two adjacent zero groups is written without `::`. -/
theorem FullText.unshortened {a : List Byte} (ha : a.length = 16) (hf : FullText a) : Unshortened a := by
  intro A B hw
  have h := hf.text ha
  rw [show ipString a = _ from hw] at h
  exact no_dcolon h.symm

/-- Both cases of `C67_exact` occur: 1::2:3 to 4::5 and 1::2 to 3:4::5 are regrouped; 2001:db8:0:1:0:2:3:4 is written
without `::`. -/
example : Regrouped [0, 1, 0, 0, 0, 0, 0, 0, 0, 0, 0, 0, 0, 2, 0, 3] [0, 4, 0, 0, 0, 0, 0, 0, 0, 0, 0, 0, 0, 0, 0, 5]
    [0, 1, 0, 0, 0, 0, 0, 0, 0, 0, 0, 0, 0, 0, 0, 2] [0, 3, 0, 4, 0, 0, 0, 0, 0, 0, 0, 0, 0, 0, 0, 5] := by
  refine ⟨[1], [2, 3], [4], [2], [3, 4], [5], by decide, by decide, by decide, by decide, rfl, ?_, ?_, ?_, ?_⟩ <;>
    (unfold WrittenAs; decide +kernel)
example : Unshortened [0x20, 1, 0xd, 0xb8, 0, 0, 0, 1, 0, 0, 0, 2, 0, 3, 0, 4] :=
  FullText.unshortened rfl (by unfold FullText; decide)

end Verif.Packet
