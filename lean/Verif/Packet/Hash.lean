import Verif.Packet.Lemmas
/-! Texts of addresses and ports: what they determine. -/
namespace Verif.Packet

/-! ### Numbers -/

theorem itoa_inj {a b : Nat} (h : itoa a = itoa b) : a = b := by
  have := congrArg (fun l => Nat.ofDigitChars 10 l 0) h
  simpa only [itoa, Nat.ofDigitChars_ten_toDigits] using this

theorem itoa_digit {n : Nat} {c : Char} (h : c ∈ itoa n) : c.isDigit = true :=
  Nat.isDigit_of_mem_toDigits (by decide) (by decide) h

theorem itoa_not {n : Nat} {c : Char} (hc : c.isDigit = false) : c ∉ itoa n := by
  intro h
  rw [itoa_digit h] at hc
  exact absurd hc (by decide)

theorem hex_eq (n : Nat) : hex n = if n < 16 then [n.digitChar] else hex (n / 16) ++ [(n % 16).digitChar] :=
  Nat.toDigits_eq_if (by decide)

theorem digitChar_inj : ∀ a b : Fin 16, a.val.digitChar = b.val.digitChar → a = b := by decide

theorem hex_ne_nil (n : Nat) : hex n ≠ [] := Nat.toDigits_ne_nil

theorem hex_inj : ∀ {a b : Nat}, hex a = hex b → a = b := by
  intro a
  induction a using Nat.strongRecOn with
  | ind a ih =>
    intro b h
    rw [hex_eq a, hex_eq b] at h
    split at h
    · rename_i ha
      split at h
      · rename_i hb
        have := digitChar_inj ⟨a, ha⟩ ⟨b, hb⟩ (by simpa using h)
        exact congrArg Fin.val this
      · have := congrArg List.length h
        rw [List.length_append] at this
        have h1 := List.length_pos_iff.mpr (hex_ne_nil (b / 16))
        simp only [List.length_singleton] at this
        omega
    · rename_i ha
      split at h
      · have := congrArg List.length h
        rw [List.length_append] at this
        have h1 := List.length_pos_iff.mpr (hex_ne_nil (a / 16))
        simp only [List.length_singleton] at this
        omega
      · have hl := List.append_inj_left' h rfl
        have hr := List.append_inj_right' h rfl
        have hd := digitChar_inj ⟨a % 16, Nat.mod_lt _ (by decide)⟩ ⟨b % 16, Nat.mod_lt _ (by decide)⟩ (by simpa using hr)
        have hd' : a % 16 = b % 16 := congrArg Fin.val hd
        have := ih (a / 16) (by omega) hl
        omega

theorem digitChar_plain : ∀ a : Fin 16, a.val.digitChar ≠ ':' ∧ a.val.digitChar ≠ '.' := by decide

theorem hex_plain : ∀ {n : Nat} {c : Char}, c ∈ hex n → c ≠ ':' ∧ c ≠ '.' := by
  intro n
  induction n using Nat.strongRecOn with
  | ind n ih =>
    intro c h
    rw [hex_eq] at h
    split at h
    · rename_i hn
      have := digitChar_plain ⟨n, hn⟩
      rw [List.mem_singleton] at h
      rw [h]; exact this
    · rw [List.mem_append, List.mem_singleton] at h
      rcases h with h | h
      · exact ih (n / 16) (by omega) h
      · rw [h]; exact digitChar_plain ⟨n % 16, Nat.mod_lt _ (by decide)⟩

/-! ### Separators -/

theorem sep_inj {c : Char} {a a' r r' : List Char} (ha : c ∉ a) (ha' : c ∉ a') (h : a ++ c :: r = a' ++ c :: r') :
    a = a' ∧ r = r' := by
  induction a generalizing a' with
  | nil =>
    cases a' with
    | nil => exact ⟨rfl, (List.cons.inj h).2⟩
    | cons x t => exact absurd (by rw [(List.cons.inj h).1]; exact List.mem_cons_self) ha'
  | cons x t ih =>
    cases a' with
    | nil => exact absurd (by rw [← (List.cons.inj h).1]; exact List.mem_cons_self) ha
    | cons y u =>
      obtain ⟨h1, h2⟩ := List.cons.inj h
      obtain ⟨h3, h4⟩ := ih (fun hx => ha (List.mem_cons_of_mem _ hx)) (fun hx => ha' (List.mem_cons_of_mem _ hx)) h2
      rw [h1, h3]; exact ⟨rfl, h4⟩

/-- Split at the last separator. -/
theorem sep_inj_last {c : Char} {a a' r r' : List Char} (hr : c ∉ r) (hr' : c ∉ r') (h : a ++ c :: r = a' ++ c :: r') :
    a = a' ∧ r = r' := by
  have := congrArg List.reverse h
  simp only [List.reverse_append, List.reverse_cons, List.append_assoc, List.singleton_append] at this
  obtain ⟨h1, h2⟩ := sep_inj (by rwa [List.mem_reverse]) (by rwa [List.mem_reverse]) this
  exact ⟨List.reverse_inj.mp h2, List.reverse_inj.mp h1⟩

/-! ### IPv4 addresses -/

theorem dotted_cons (a b : Byte) (t : List Byte) : dotted (a :: b :: t) = itoa a.toNat ++ '.' :: dotted (b :: t) := rfl

theorem dotted_inj : ∀ {a b : List Byte}, a.length = b.length → dotted a = dotted b → a = b
  | [], [], _, _ => rfl
  | [x], [y], _, h => by
    have := itoa_inj h
    rw [BitVec.eq_of_toNat_eq this]
  | x :: x' :: t, y :: y' :: u, hl, h => by
    rw [dotted_cons, dotted_cons] at h
    obtain ⟨h1, h2⟩ := sep_inj (itoa_not rfl) (itoa_not rfl) h
    rw [BitVec.eq_of_toNat_eq (itoa_inj h1), dotted_inj (by simpa using hl) h2]

theorem dotted_plain : ∀ {a : List Byte} {c : Char}, c ∈ dotted a → c = '.' ∨ c.isDigit = true
  | [], _, h => by simp [dotted] at h
  | [x], _, h => .inr (itoa_digit h)
  | x :: y :: t, c, h => by
    rw [dotted_cons, List.mem_append, List.mem_cons] at h
    rcases h with h | h | h
    · exact .inr (itoa_digit h)
    · exact .inl h
    · exact dotted_plain h

theorem dotted_no_colon {a : List Byte} : ':' ∉ dotted a := by
  intro h
  rcases dotted_plain h with h | h <;> exact absurd h (by decide)

theorem dotted_dot {a : List Byte} (hl : 2 ≤ a.length) : '.' ∈ dotted a := by
  match a, hl with
  | x :: y :: t, _ => rw [dotted_cons]; simp

/-! ### IPv6 addresses -/

theorem hexGroups_cons (a b : Nat) (t : List Nat) : hexGroups (a :: b :: t) = hex a ++ ':' :: hexGroups (b :: t) := rfl

/-- The text of a non-empty list of groups begins with something other than a colon. -/
theorem hexGroups_head (a : Nat) (t : List Nat) (r : List Char) : ∃ c s, hexGroups (a :: t) ++ r = c :: s ∧ c ≠ ':' := by
  have hne := hex_ne_nil a
  obtain ⟨c, s, hc⟩ : ∃ c s, hex a = c :: s := by
    cases hx : hex a with
    | nil => exact absurd hx hne
    | cons c s => exact ⟨c, s, rfl⟩
  have hp : c ≠ ':' := (hex_plain (n := a) (by rw [hc]; exact List.mem_cons_self)).1
  cases t with
  | nil => exact ⟨c, s ++ r, by show hex a ++ r = _; rw [hc]; rfl, hp⟩
  | cons b u => exact ⟨c, s ++ ':' :: hexGroups (b :: u) ++ r, by rw [hexGroups_cons, hc]; simp, hp⟩

theorem hex_colon (a : Nat) : ':' ∉ hex a := fun h => (hex_plain h).1 rfl

theorem colon_ne {a : Nat} {t : List Nat} {r s : List Char} : hexGroups (a :: t) ++ r ≠ ':' :: s := by
  obtain ⟨c, u, h1, h2⟩ := hexGroups_head a t r
  rw [h1]
  intro h
  exact h2 (List.cons.inj h).1

theorem hexGroups_inj : ∀ {a b : List Nat}, hexGroups a = hexGroups b → a = b
  | [], [], _ => rfl
  | [], y :: u, h => by
    obtain ⟨c, s, h1, _⟩ := hexGroups_head y u []
    rw [List.append_nil, ← h] at h1
    exact absurd h1 (by simp [hexGroups])
  | x :: t, [], h => by
    obtain ⟨c, s, h1, _⟩ := hexGroups_head x t []
    rw [List.append_nil, h] at h1
    exact absurd h1 (by simp [hexGroups])
  | [x], [y], h => by rw [hex_inj h]
  | [x], y :: y' :: u, h => by
    rw [hexGroups_cons] at h
    exact absurd (by show ':' ∈ hex x; rw [show hex x = _ from h]; simp) (hex_colon x)
  | x :: x' :: t, [y], h => by
    rw [hexGroups_cons] at h
    exact absurd (by show ':' ∈ hex y; rw [show hex y = _ from h.symm]; simp) (hex_colon y)
  | x :: x' :: t, y :: y' :: u, h => by
    rw [hexGroups_cons, hexGroups_cons] at h
    obtain ⟨h1, h2⟩ := sep_inj (hex_colon x) (hex_colon y) h
    rw [hex_inj h1, hexGroups_inj h2]

/-- What follows the first group of a text that goes on with a double colon. -/
theorem groups_dcolon (a : Nat) (t : List Nat) (B : List Char) :
    hexGroups (a :: t) ++ ':' :: ':' :: B = hex a ++ ':' :: (if t = [] then ':' :: B else hexGroups t ++ ':' :: ':' :: B) := by
  cases t with
  | nil => rw [if_pos rfl]; rfl
  | cons b u => rw [if_neg (by simp), hexGroups_cons]; simp

theorem dcolon_inj : ∀ {a b : List Nat} {A B : List Char},
    hexGroups a ++ ':' :: ':' :: A = hexGroups b ++ ':' :: ':' :: B → a = b ∧ A = B
  | [], [], A, B, h => ⟨rfl, (List.cons.inj (List.cons.inj h).2).2⟩
  | [], y :: u, A, B, h => absurd h.symm colon_ne
  | x :: t, [], A, B, h => absurd h colon_ne
  | x :: t, y :: u, A, B, h => by
    rw [groups_dcolon, groups_dcolon] at h
    obtain ⟨h1, h2⟩ := sep_inj (hex_colon x) (hex_colon y) h
    have hxy := hex_inj h1
    cases t with
    | nil =>
      cases u with
      | nil => rw [if_pos rfl, if_pos rfl] at h2; exact ⟨by rw [hxy], (List.cons.inj h2).2⟩
      | cons y' u => rw [if_pos rfl, if_neg (by simp)] at h2; exact absurd h2.symm colon_ne
    | cons x' t =>
      cases u with
      | nil => rw [if_pos rfl, if_neg (by simp)] at h2; exact absurd h2 colon_ne
      | cons y' u =>
        rw [if_neg (by simp), if_neg (by simp)] at h2
        obtain ⟨h3, h4⟩ := dcolon_inj h2
        exact ⟨by rw [hxy, h3], h4⟩

theorem no_dcolon : ∀ {a b : List Nat} {B : List Char}, hexGroups a ≠ hexGroups b ++ ':' :: ':' :: B
  | [], b, B, h => by
    have := congrArg List.length h
    simp [hexGroups] at this
  | x :: t, [], B, h => by
    have : hexGroups (x :: t) ++ [] = ':' :: ':' :: B := by rw [List.append_nil]; exact h
    exact colon_ne this
  | [x], y :: u, B, h => by
    rw [groups_dcolon] at h
    exact absurd (by show ':' ∈ hex x; rw [show hex x = _ from h]; simp) (hex_colon x)
  | x :: x' :: t, y :: u, B, h => by
    rw [groups_dcolon, hexGroups_cons] at h
    obtain ⟨h1, h2⟩ := sep_inj (hex_colon x) (hex_colon y) h
    cases u with
    | nil =>
      rw [if_pos rfl] at h2
      have : hexGroups (x' :: t) ++ [] = ':' :: B := by rw [List.append_nil]; exact h2
      exact colon_ne this
    | cons y' u =>
      rw [if_neg (by simp)] at h2
      exact no_dcolon h2

/-! The run of zero groups that is left out. -/

theorem zeroRun_le : ∀ gs : List Nat, zeroRun gs ≤ gs.length
  | [] => Nat.le_refl _
  | 0 :: t => by have := zeroRun_le t; simp only [zeroRun, List.length_cons]; omega
  | (n + 1) :: t => by simp [zeroRun]

theorem zeroRun_take : ∀ gs : List Nat, gs.take (zeroRun gs) = List.replicate (zeroRun gs) 0
  | [] => rfl
  | 0 :: t => by simp only [zeroRun, List.take_succ_cons, List.replicate_succ]; rw [zeroRun_take t]
  | (n + 1) :: t => by simp [zeroRun]

/-- `r` names a run of zeros of `full`. -/
def RunOk (full : List Nat) (r : Nat × Nat) : Prop :=
  r.1 + r.2 ≤ full.length ∧ (full.drop r.1).take r.2 = List.replicate r.2 0

theorem bestRun_ok (full : List Nat) : ∀ (gs : List Nat) (i : Nat) (best : Nat × Nat), full.drop i = gs →
    RunOk full best → RunOk full (bestRun gs i best)
  | [], _, best, _, hb => hb
  | g :: t, i, best, hd, hb => by
    unfold bestRun
    refine bestRun_ok full t (i + 1) _ ?_ ?_
    · rw [← List.drop_drop, hd]; rfl
    · split
      · refine ⟨?_, ?_⟩
        · have h1 := zeroRun_le (g :: t)
          have h2 := congrArg List.length hd
          rw [List.length_drop] at h2
          have h3 : 0 < (g :: t).length := by simp
          show i + zeroRun (g :: t) ≤ _
          omega
        · show (full.drop i).take (zeroRun (g :: t)) = _
          rw [hd, zeroRun_take]
      · exact hb

theorem ip6Text_inj {a b : List Nat} (hl : a.length = b.length) (h : ip6Text a = ip6Text b) : a = b := by
  have ra := bestRun_ok a a 0 (0, 0) rfl ⟨Nat.zero_le _, by simp⟩
  have rb := bestRun_ok b b 0 (0, 0) rfl ⟨Nat.zero_le _, by simp⟩
  unfold ip6Text at h
  simp only at h
  generalize bestRun a 0 (0, 0) = r at *
  generalize bestRun b 0 (0, 0) = s at *
  split at h
  · split at h
    · obtain ⟨h1, h2⟩ := dcolon_inj h
      have h3 := hexGroups_inj h2
      have l1 := congrArg List.length h1
      have l3 := congrArg List.length h3
      rw [List.length_take, List.length_take, Nat.min_eq_left (by have := ra.1; omega), Nat.min_eq_left (by have := rb.1; omega)] at l1
      rw [List.length_drop, List.length_drop] at l3
      have e2 : r.2 = s.2 := by have := ra.1; have := rb.1; omega
      have split3 : ∀ (x : List Nat) (t : Nat × Nat), RunOk x t →
          x = x.take t.1 ++ (List.replicate t.2 0 ++ x.drop (t.1 + t.2)) := by
        intro x t ht
        rw [← ht.2, ← List.drop_drop, List.take_append_drop, List.take_append_drop]
      rw [split3 a r ra, split3 b s rb, h1, h3, e2]
    · exact absurd h.symm no_dcolon
  · split at h
    · exact absurd h no_dcolon
    · exact hexGroups_inj h

theorem hexGroups_no_dot : ∀ {gs : List Nat}, '.' ∉ hexGroups gs
  | [], h => by simp [hexGroups] at h
  | [x], h => (hex_plain h).2 rfl
  | x :: y :: t, h => by
    rw [hexGroups_cons, List.mem_append, List.mem_cons] at h
    rcases h with h | h | h
    · exact (hex_plain h).2 rfl
    · exact absurd h (by decide)
    · exact hexGroups_no_dot h

theorem ip6Text_no_dot {gs : List Nat} : '.' ∉ ip6Text gs := by
  unfold ip6Text
  simp only
  split
  · intro h
    simp only [List.mem_append, List.mem_cons] at h
    rcases h with h | h | h | h
    · exact hexGroups_no_dot h
    · exact absurd h (by decide)
    · exact absurd h (by decide)
    · exact hexGroups_no_dot h
  · exact hexGroups_no_dot

theorem groups_inj : ∀ {a b : List Byte}, a.length = b.length → a.length % 2 = 0 → groups a = groups b → a = b
  | [], [], _, _, _ => rfl
  | [_], _, _, h2, _ => by simp at h2
  | x :: y :: t, x' :: y' :: u, hl, h2, h => by
    simp only [groups, List.cons.injEq] at h
    have hx := x.isLt
    have hy := y.isLt
    have hx' := x'.isLt
    have hy' := y'.isLt
    have e1 : x = x' := BitVec.eq_of_toNat_eq (by omega)
    have e2 : y = y' := BitVec.eq_of_toNat_eq (by omega)
    simp only [List.length_cons] at hl h2
    rw [e1, e2, groups_inj (by omega) (by omega) h.2]
  | x :: y :: t, [_], hl, _, _ => by simp at hl
  | x :: y :: t, [], hl, _, _ => by simp at hl
  | [], _ :: _, hl, _, _ => by simp at hl

theorem groups_length : ∀ a : List Byte, (groups a).length = a.length / 2
  | [] => rfl
  | [_] => by simp [groups]
  | x :: y :: t => by simp only [groups, List.length_cons, groups_length t]; omega

theorem ipString_four {a : List Byte} (ha : a.length = 4) : ipString a = dotted a := by
  have : to4 a = some a := by unfold to4; rw [if_pos ha]
  unfold ipString
  rw [if_neg (by omega : ¬ a.length = 0), this]

theorem ipString_sixteen {a : List Byte} (ha : a.length = 16) :
    ipString a = (match to4 a with | some b => dotted b | none => ip6Text (groups a)) := by
  unfold ipString
  rw [if_neg (by omega : ¬ a.length = 0), if_pos ha]
  cases to4 a <;> rfl

/-- The text of an address determines it, among addresses of the same length. -/
theorem ipString_inj4 {a b : List Byte} (ha : a.length = 4) (hb : b.length = 4) (h : ipString a = ipString b) : a = b := by
  rw [ipString_four ha, ipString_four hb] at h
  exact dotted_inj (by omega) h

theorem to4_some {a b : List Byte} (ha : a.length = 16) (h : to4 a = some b) :
    b.length = 4 ∧ a = zeros 10 ++ ([0xff, 0xff] ++ b) := by
  unfold to4 at h
  rw [if_neg (by omega)] at h
  split at h
  · rename_i hx
    obtain ⟨_, h1, h2⟩ := hx
    simp only [Option.some.injEq] at h
    refine ⟨by rw [← h, List.length_drop]; omega, ?_⟩
    rw [← h, ← h1, ← h2, show 12 = 10 + 2 from rfl, ← List.drop_drop, List.take_append_drop, List.take_append_drop]
  · simp at h

theorem ipString_inj6 {a b : List Byte} (ha : a.length = 16) (hb : b.length = 16) (h : ipString a = ipString b) : a = b := by
  rw [ipString_sixteen ha, ipString_sixteen hb] at h
  cases h1 : to4 a with
  | some x =>
    obtain ⟨k1, k2⟩ := to4_some ha h1
    cases h2 : to4 b with
    | some y =>
      obtain ⟨k3, k4⟩ := to4_some hb h2
      rw [h1, h2] at h
      rw [k2, k4, dotted_inj (k1.trans k3.symm) h]
    | none =>
      rw [h1, h2] at h
      have h : dotted x = ip6Text (groups b) := h
      exact absurd (by rw [← h]; exact dotted_dot (by omega)) (ip6Text_no_dot (gs := groups b))
  | none =>
    cases h2 : to4 b with
    | some y =>
      obtain ⟨k3, k4⟩ := to4_some hb h2
      rw [h1, h2] at h
      have h : ip6Text (groups a) = dotted y := h
      exact absurd (by rw [h]; exact dotted_dot (by omega)) (ip6Text_no_dot (gs := groups a))
    | none =>
      rw [h1, h2] at h
      exact groups_inj (by omega) (by omega) (ip6Text_inj (by rw [groups_length, groups_length, ha, hb]) h)

end Verif.Packet
