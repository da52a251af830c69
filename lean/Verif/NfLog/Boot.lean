import Verif.NfLog.GroupsLemmas
/-! Starting to listen, on a kernel that keeps log groups: lemmas. -/
namespace Verif.NfLog
open Sys Spec
variable {e : Endian} {F : Nat → Prop}

/-! ### What a note looks like, cut or not -/

theorem num16_prefix {a b : List Byte} {n i : Nat} (h : a = b.take n) (hi : i + 2 ≤ n) : num16 e a i = num16 e b i := by
  subst h
  unfold num16
  rw [List.getElem?_take_of_lt (by omega), List.getElem?_take_of_lt (by omega)]

theorem num32_prefix {a b : List Byte} {n i : Nat} (h : a = b.take n) (hi : i + 4 ≤ n) : num32 e a i = num32 e b i := by
  subst h
  unfold num32
  rw [List.getElem?_take_of_lt (by omega), List.getElem?_take_of_lt (by omega), List.getElem?_take_of_lt (by omega),
    List.getElem?_take_of_lt (by omega)]

theorem length_msgBytes {t : Nat} {mid body : List Byte} (hm : mid.length = 10) : (msgBytes e t mid body).length = 16 + body.length := by
  unfold msgBytes
  simp [hm]; omega

theorem type_msgBytes {t : Nat} (ht : t < 65536) (mid body rest : List Byte) : num16 e (msgBytes e t mid body ++ rest) 4 = some t := by
  unfold msgBytes num16
  cases e <;>
  · simp only [bytes32, bytes16, List.append_assoc, List.cons_append, List.nil_append, List.getElem?_cons_zero, List.getElem?_cons_succ,
      BitVec.toNat_ofNat]
    rw [Option.some.injEq]
    omega

theorem code_msgBytes {t : Nat} {mid body : List Byte} (hm : mid.length = 10) : num32 e (msgBytes e t mid body) 16 = num32 e body 0 := by
  have : (msgBytes e t mid body) = (bytes32 e (16 + body.length) ++ bytes16 e t ++ mid) ++ body := rfl
  have hl : (bytes32 e (16 + body.length) ++ bytes16 e t ++ mid).length = 16 := by simp [hm]
  rw [this]
  unfold num32
  rw [List.getElem?_append_right (by omega), List.getElem?_append_right (by omega), List.getElem?_append_right (by omega),
    List.getElem?_append_right (by omega), hl]

/-- A note that refuses something. -/
def Note.Bad : Note → Prop
  | .ack c => c ≠ 0
  | .logs _ => False

/-- A datagram of logs. -/
def Note.isLogs : Note → Bool
  | .ack _ => false
  | .logs _ => true

theorem NoteIs.cut {d d' : List Byte} {n : Note} {size : Nat} (h : NoteIs e d' n) (hd : d = d'.take size) (hs : 20 ≤ size) :
    20 ≤ d.length ∧ 20 ≤ d'.length ∧ (num16 e d 4 = some 0x400 ↔ n.isLogs = true) ∧ (Refusal e d ↔ n.Bad) := by
  have h20 : 20 ≤ d'.length → 20 ≤ d.length := by intro h; rw [hd, List.length_take]; omega
  cases n with
  | ack c =>
    obtain ⟨mid, body, h1, h2, h3, rfl, _⟩ := h
    have hl := length_msgBytes (e := e) (t := 2) (body := body) h1
    have ht : num16 e d 4 = some 2 := by
      rw [num16_prefix hd (by omega)]
      have := type_msgBytes (e := e) (t := 2) (by decide) mid body []
      simpa using this
    have hc : num32 e d 16 = num32 e body 0 := by rw [num32_prefix hd (by omega), code_msgBytes h1]
    refine ⟨h20 (by omega), by omega, ?_, ?_⟩
    · rw [ht]; simp [Note.isLogs]
    · unfold Refusal
      rw [ht, hc]
      simp only [true_and]
      unfold numI32 at h3
      cases hn : num32 e body 0 with
      | none => rw [hn] at h3; cases h3
      | some v =>
        rw [hn] at h3
        simp only [Option.map_some, Option.some.injEq] at h3
        have hv : v < 4294967296 := by
          unfold num32 at hn
          split at hn
          · rename_i a b c d _ _ _ _
            have := a.isLt; have := b.isLt; have := c.isLt; have := d.isLt
            split at hn <;> (simp only [Option.some.injEq] at hn; omega)
          · cases hn
        simp only [ne_eq, Option.some.injEq, Note.Bad]
        rw [← h3]
        unfold signed32
        split <;> omega
  | logs l =>
    obtain ⟨hne, dd, h1, _, mid, body, _, _, rfl⟩ := h
    cases h1 with
    | nil => exact absurd rfl hne
    | @cons d1 d2 r l' h1 h2 =>
      obtain ⟨mid1, hdr, attrs, a1, a2, _, _, _, _, rfl⟩ := h1
      have hl := length_msgBytes (e := e) (t := 0x400) (body := hdr ++ encodeAttrs e (attrs ++ if r.packet.take r.range = [] then [] else [(9, r.packet.take r.range)])) a1
      have ht : num16 e d 4 = some 0x400 := by
        rw [num16_prefix hd (by omega), List.append_assoc]
        exact type_msgBytes (by decide) _ _ _
      simp only [List.length_append, a2] at hl
      refine ⟨h20 (by simp only [List.length_append]; omega), by simp only [List.length_append]; omega, by rw [ht]; simp [Note.isLogs], ?_⟩
      unfold Refusal
      rw [ht]
      simp [Note.Bad]

theorem Encodes.length {b : List Byte} {req : LReq} (h : Encodes e b req) : 20 ≤ b.length := by
  obtain ⟨t, p, h1, _⟩ := h
  unfold decodeNf at h1
  split at h1
  · rename_i m hm
    split at h1
    · rename_i fam ver rid as _ _ hr _
      unfold decodeNl at hm
      split at hm
      · split at hm
        · rename_i l _ _ _ _ _ _ _ _ _ hl
          simp only [Option.some.injEq] at hm
          subst hm
          unfold be16 num16 at hr
          split at hr
          · rename_i _ _ _ h3
            have := (List.getElem?_eq_some_iff.mp h3).1
            simp only [List.length_drop, List.length_take] at this
            omega
          · cases hr
        · cases hm
      · cases hm
    · cases h1
  · cases h1

/-- The datagrams of logs among what was received. -/
def logDatagrams (e : Endian) (evs : List (Ev LEv)) : List (List Byte) :=
  evs.filterMap fun
    | .recvfrom _ _ _ (.ok d) => if num16 e d 4 = some 0x400 then some d else none
    | _ => none

theorem logDatagrams_append (a b : List (Ev LEv)) : logDatagrams e (a ++ b) = logDatagrams e a ++ logDatagrams e b := by
  simp [logDatagrams]

theorem logDatagrams_none {evs : List (Ev LEv)} (h : ∀ ev ∈ evs, ∀ fd size flags d, ev ≠ .recvfrom fd size flags (.ok d)) : logDatagrams e evs = [] := by
  unfold logDatagrams
  rw [List.filterMap_eq_nil_iff]
  intro ev hev
  have := h ev hev
  split
  · rename_i fd size flags d
    exact absurd rfl (this fd size flags d)
  · rfl

theorem logDatagrams_send {fd : Nat} {b : List Byte} {r : Option Nat} {evs : List (Ev LEv)} (h : SendEvs fd b r evs) : logDatagrams e evs = [] :=
  logDatagrams_none fun ev hev fd size flags d hc => by
    obtain ⟨x, hx⟩ := h.mem ev hev
    rw [hx] at hc; cases hc

/-! ### One exchange -/

/-- What an exchange does: the request does not get through; or it is served, answered, and then nothing is received; or the first thing
in the socket is received: it decides about the result. -/
inductive Traded (e : Endian) (F : Nat → Prop) (fd : Nat) (req : LReq) (r : Option Err) (logs : Nat) (s s' : KState) : Prop
  | unsent : r ≠ none → Meanwhile F s s' → Traded e F fd req r logs s s'
  | served {b : List Byte} {s1 s2 s3 : KState} : Encodes e b req → Meanwhile F s s1 → Meanwhile F (s1.serve e fd b).2 s2 →
      Meanwhile F (s2.setInbox fd (s2.inbox fd ++ [.ack (s1.serve e fd b).1])) s3 → r ≠ none → s' = s3 → Traded e F fd req r logs s s'
  | got {b : List Byte} {s1 s2 s3 : KState} {n : Note} {rest : List Note} : Encodes e b req → Meanwhile F s s1 →
      Meanwhile F (s1.serve e fd b).2 s2 → Meanwhile F (s2.setInbox fd (s2.inbox fd ++ [.ack (s1.serve e fd b).1])) s3 →
      s3.inbox fd = n :: rest → Meanwhile F (s3.setInbox fd rest) s' → (r = none ↔ ¬ n.Bad) → logs = (if n.isLogs = true then 1 else 0) →
      Traded e F fd req r logs s s'

theorem Run.traded {fd : Nat} {req : LReq} {r : Option Err} {evs : List (Ev LEv)} {s s' : KState} (h : Exchange e fd req r evs)
    (hr : Run e F s evs s') : Traded e F fd req r (logDatagrams e evs).length s s' := by
  obtain ⟨b, hb, hq⟩ := h
  cases hq with
  | sendFailed hs =>
    refine .unsent (by simp) (hr.of_silent ?_)
    rcases hs with ⟨h, _⟩ | ⟨e1, rfl⟩
    · cases h
    · simp [Silent, handedOver]
  | recvFailed hs =>
    obtain ⟨t, r1, r2⟩ := hr.split
    obtain ⟨s1, s2, m1, m2, m3⟩ := r1.sent hs
    rw [hb.answered] at m3
    exact .served hb m1 m2 (m3.trans (r2.of_silent (by simp [Silent, handedOver]))) (by simp) rfl
  | @replied d _ evs1 hs _ hi _ =>
    obtain ⟨t, r1, r2⟩ := hr.split
    obtain ⟨s1, s2, m1, m2, m3⟩ := r1.sent hs
    obtain ⟨s3, n, rest, d', m4, hin, hd, hdd, m5⟩ := r2.got
    rw [hb.answered] at m3
    obtain ⟨c1, _, c3, c4⟩ := hd.cut hdd hb.length
    refine .got hb m1 m2 (m3.trans m4) hin m5 ?_ ?_
    · rw [hi]
      unfold Ack
      rw [c4]
      exact ⟨fun h => h.2, fun h => ⟨c1, h⟩⟩
    · rw [logDatagrams_append, logDatagrams_send hs]
      unfold logDatagrams
      by_cases hl : n.isLogs = true
      · simp [c3.mpr hl, hl]
      · simp [mt c3.mp hl, hl]

/-! ### Other groups -/

/-- Since the state `s0`: groups not in `G` that nobody else uses are configured as they were; those in `G` too, or they were free and belong to
socket `fd` now; the socket has no other group. -/
structure Apart (F : Nat → Prop) (fd : Nat) (G : Nat → Prop) (s0 s : KState) : Prop where
  others : ∀ g, ¬ G g → ¬ F g → s.conf g = s0.conf g
  these : ∀ g, G g → ¬ F g → s.conf g = s0.conf g ∨ (s0.conf g = none ∧ s.Owns fd g)
  only : ∀ g, ¬ G g → ¬ s.Owns fd g

variable {fd : Nat} {G : Nat → Prop} {s0 : KState}

theorem Apart.meanwhile {s s' : KState} (h : Apart F fd G s0 s) (hm : Meanwhile F s s') : Apart F fd G s0 s' where
  others g h1 h2 := by rw [hm.conf (.inl h2)]; exact h.others g h1 h2
  these g h0 h1 := by
    rw [hm.conf (.inl h1)]
    rcases h.these g h0 h1 with h2 | ⟨h2, h3⟩
    · exact .inl h2
    · exact .inr ⟨h2, (hm.owns fd g).mpr h3⟩
  only g h1 h2 := h.only g h1 ((hm.owns fd g).mp h2)

theorem Apart.groups {s s' : KState} (h : Apart F fd G s0 s) (he : s'.groups = s.groups) : Apart F fd G s0 s' where
  others g h1 h2 := by
    have := h.others g h1 h2
    unfold KState.conf at *
    rw [he]; exact this
  these g h0 h1 := by
    have := h.these g h0 h1
    unfold KState.conf KState.Owns at *
    rw [he]; exact this
  only g h1 h2 := by
    have := h.only g h1
    unfold KState.Owns at *
    rw [he] at h2
    exact this h2

theorem Apart.inbox {s : KState} (h : Apart F fd G s0 s) (i : Nat) (l : List Note) : Apart F fd G s0 (s.setInbox i l) := h.groups rfl

/-- A request about a group of `G`. -/
def About (G : Nat → Prop) : LReq → Prop
  | .bindGroup g => G g
  | .copyPacket g _ => G g
  | _ => False

/-- Serving a request of the library changes at most the group it is about, and that only if it is free or belongs to the socket; then it
belongs to the socket afterwards.  What it has collected and what lies in the sockets stays. -/
theorem serve_about {b : List Byte} {req : LReq} (hb : Encodes e b req) (ha : About G req) (s : KState) :
    (s.serve e fd b).2.inbox = s.inbox ∧ (s.serve e fd b).2.logged = s.logged ∧
    ((s.serve e fd b).2.groups = s.groups ∨ ∃ g k', G g ∧ (s.serve e fd b).2.groups = (s.setGroup g (some k')).groups ∧ k'.owner = .sock fd ∧
      ((s.groups g = none ∧ k'.batch = []) ∨ ∃ k, s.groups g = some k ∧ k.owner = .sock fd ∧ k'.batch = k.batch)) := by
  cases req with
  | pfUnbind => exact ha.elim
  | pfBind => exact ha.elim
  | bindGroup g =>
    rw [serve_bind hb]
    cases hg : s.groups g with
    | some k => exact ⟨rfl, rfl, .inl rfl⟩
    | none => exact ⟨rfl, rfl, .inr ⟨g, _, ha, rfl, rfl, .inl ⟨hg, rfl⟩⟩⟩
  | copyPacket g range =>
    rw [serve_mode hb]
    cases hg : s.groups g with
    | some k =>
      by_cases ho : k.owner = .sock fd
      · simp only [ho, ne_eq, not_true_eq_false, if_false]
        exact ⟨rfl, rfl, .inr ⟨g, { k with mode := 2, range := clip range }, ha, by rw [ho], ho, .inr ⟨k, hg, ho, rfl⟩⟩⟩
      · simp [ho]
    | none => exact ⟨rfl, rfl, .inl rfl⟩

theorem Apart.serve {s : KState} (h : Apart F fd G s0 s) (hno : ∀ g, ¬ s0.Owns fd g) {b : List Byte} {req : LReq} (hb : Encodes e b req)
    (ha : About G req) : Apart F fd G s0 (s.serve e fd b).2 := by
  obtain ⟨_, _, h1 | ⟨g, k', hg, h1, h2, h3⟩⟩ := serve_about (fd := fd) hb ha s
  · exact h.groups h1
  · refine Apart.groups (s := s.setGroup g (some k')) ?_ h1
    refine ⟨fun g' hG hF => ?_, fun g' hG hF => ?_, fun g' hG ho => h.only g' hG ?_⟩
    · have hne : g' ≠ g := by intro hc; subst hc; exact hG hg
      have := h.others g' hG hF
      unfold KState.conf at *
      rw [setGroup_other _ _ hne]; exact this
    · by_cases hne : g' = g
      · subst hne
        refine .inr ⟨?_, k', by simp, h2⟩
        rcases h.these g' hG hF with h4 | ⟨h4, _⟩
        · rcases h3 with ⟨h3, _⟩ | ⟨k, hk, ho, _⟩
          · rw [← h4, conf_none]; exact h3
          · exfalso
            unfold KState.conf at h4
            rw [hk] at h4
            cases hs0 : s0.groups g' with
            | none => rw [hs0] at h4; cases h4
            | some k0 =>
              rw [hs0] at h4
              simp only [Option.map_some, Option.some.injEq] at h4
              exact hno g' ⟨k0, hs0, by rw [← (conf_parts h4).1]; exact ho⟩
        · exact h4
      · have := h.these g' hG hF
        unfold KState.conf KState.Owns at *
        rw [setGroup_other _ _ hne]; exact this
    · have hne : g' ≠ g := by intro hc; subst hc; exact hG hg
      unfold KState.Owns at *
      rw [setGroup_other _ _ hne] at ho; exact ho

theorem Apart.traded {s s' : KState} {req : LReq} {r : Option Err} {n : Nat} (h : Apart F fd G s0 s) (hno : ∀ g, ¬ s0.Owns fd g)
    (ha : About G req) (ht : Traded e F fd req r n s s') : Apart F fd G s0 s' := by
  cases ht with
  | unsent _ m => exact h.meanwhile m
  | served hb m1 m2 m3 _ he =>
    subst he
    exact ((((h.meanwhile m1).serve hno hb ha).meanwhile m2).inbox _ _).meanwhile m3
  | got hb m1 m2 m3 hin m4 _ _ =>
    exact ((((((h.meanwhile m1).serve hno hb ha).meanwhile m2).inbox _ _).meanwhile m3).inbox _ _).meanwhile m4

theorem Apart.groupsOut {req : Nat → LReq} (hno : ∀ g, ¬ s0.Owns fd g) {gs : List U16} {r : Option Err} {evs : List (Ev LEv)}
    (h : GroupsOut e fd req gs r evs) (hG : ∀ g ∈ gs, About G (req g.toNat)) : ∀ {s s' : KState}, Apart F fd G s0 s → Run e F s evs s' →
    Apart F fd G s0 s' := by
  induction h with
  | nil => intro s s' ha hr; exact ha.meanwhile hr.meanwhile
  | cons hx _ ih =>
    intro s s' ha hr
    obtain ⟨t, r1, r2⟩ := hr.split
    exact ih (fun g hg => hG g (List.mem_cons_of_mem _ hg)) (ha.traded hno (hG _ List.mem_cons_self) (r1.traded hx)) r2
  | stop hx =>
    intro s s' ha hr
    exact ha.traded hno (hG _ List.mem_cons_self) (hr.traded hx)

/-- After the socket is closed the groups are as they were. -/
theorem Apart.released {s : KState} (h : Apart F fd G s0 s) (h0 : ∀ g, ¬ s0.Owns fd g) :
    (∀ g, ¬ F g → (s.release fd).conf g = s0.conf g) ∧ ∀ g, ¬ (s.release fd).Owns fd g := by
  have keep : ∀ g, s.conf g = s0.conf g → (s.release fd).conf g = s0.conf g := by
    intro g hg
    rw [release_conf, hg]
    unfold KState.conf
    cases hs : s0.groups g with
    | none => rfl
    | some k =>
      have : k.owner ≠ .sock fd := fun ho => h0 g ⟨k, hs, ho⟩
      simp [Option.filter, KGroup.conf, this]
  refine ⟨fun g hF => ?_, fun g => release_owns s fd g⟩
  by_cases hg : G g
  · rcases h.these g hg hF with h1 | ⟨h1, k, hk, ho⟩
    · exact keep g h1
    · rw [release_conf, h1]
      unfold KState.conf
      rw [hk]
      simp [Option.filter, KGroup.conf, ho]
  · exact keep g (h.others g hg hF)

/-! ### What was received, what is to be received -/

/-- The requests so far were answered with `done`; `n` datagrams of logs were received, with the entries `read`; all else that was received were
zeros, in order; `o` requests await a reply. -/
structure Boot (F : Nat → Prop) (fd : Nat) (s0 : KState) (o : Nat) (done : List Int) (n : Nat) (read : List Entry) (s : KState) : Prop where
  tidy : Tidy fd s
  sorted : Sorted fd s
  flows : ∀ g, Usable F fd g s0 → Flow F fd g (s0.loggedTo g) read s
  codes : ∃ p, done = List.replicate p 0 ++ codesOf (s.inbox fd) ∧ done.length = p + n + o

variable {o : Nat} {done : List Int} {n : Nat} {read : List Entry}

theorem Boot.start (h1 : ∀ g, ¬ s0.Owns fd g) (h2 : s0.inbox fd = []) : Boot F fd s0 0 [] 0 [] s0 where
  tidy g k hk ho := absurd ⟨k, hk, ho⟩ (h1 g)
  sorted x hx := by rw [h2] at hx; cases hx
  flows g hu := by
    refine ⟨hu, ?_⟩
    rcases hu with hu | ⟨hu, _⟩
    · exact absurd hu (h1 g)
    · simp [KState.pending, KState.batchOf, h2, hu]
  codes := ⟨0, by simp [h2], rfl⟩

theorem Boot.meanwhile {s s' : KState} (h : Boot F fd s0 o done n read s) (hm : Meanwhile F s s') : Boot F fd s0 o done n read s' where
  tidy := hm.tidy h.tidy
  sorted := hm.sorted h.tidy h.sorted
  flows g hu := hm.flow h.tidy (h.flows g hu)
  codes := by
    obtain ⟨p, h1, h2⟩ := h.codes
    exact ⟨p, by rw [hm.codes]; exact h1, h2⟩

theorem Boot.serve {s : KState} (h : Boot F fd s0 o done n read s) {b : List Byte} {req : LReq} (hb : Encodes e b req) (ha : About G req) :
    Boot F fd s0 o done n read (s.serve e fd b).2 := by
  obtain ⟨i1, i2, i3⟩ := serve_about (fd := fd) hb ha s
  generalize hs' : (s.serve e fd b).2 = s' at i1 i2 i3
  rcases i3 with h1 | ⟨g0, k', hg, h1, h2, h3⟩
  · have : s' = s := by cases s; cases s'; simp_all
    rw [this]; exact h
  · have owns : ∀ g, s.Owns fd g → s'.Owns fd g := by
      intro g ho
      unfold KState.Owns
      rw [h1]
      by_cases hgg : g = g0
      · subst hgg; exact ⟨k', by simp, h2⟩
      · rw [setGroup_other _ _ hgg]; exact ho
    have batch : ∀ g, s'.batchOf fd g = s.batchOf fd g := by
      intro g
      unfold KState.batchOf
      rw [h1]
      by_cases hgg : g = g0
      · subst hgg
        rcases h3 with ⟨h3, h4⟩ | ⟨k, hk, ho, h4⟩
        · simp [h2, h3, h4]
        · simp [h2, hk, ho, h4]
      · rw [setGroup_other _ _ hgg]
    refine ⟨fun g k hk ho => ?_, fun x hx => ?_, fun g hu => ?_, ?_⟩
    · rw [h1] at hk
      by_cases hgg : g = g0
      · subst hgg
        simp only [setGroup_same, Option.some.injEq] at hk
        subst hk
        rcases h3 with ⟨_, h4⟩ | ⟨k, hk, ho, h4⟩
        · rw [h4]; intro x hx; cases hx
        · rw [h4]; exact h.tidy g k hk ho
      · rw [setGroup_other _ _ hgg] at hk
        exact h.tidy g k hk ho
    · rw [i1] at hx
      exact owns _ (h.sorted x hx)
    · obtain ⟨f1, f2⟩ := h.flows g hu
      refine ⟨?_, ?_⟩
      · rcases f1 with f1 | ⟨f1, f3⟩
        · exact .inl (owns g f1)
        · by_cases hgg : g = g0
          · subst hgg; exact .inl ⟨k', by rw [h1]; simp, h2⟩
          · exact .inr ⟨by rw [h1, setGroup_other _ _ hgg]; exact f1, f3⟩
      · have e1 : s'.loggedTo g = s.loggedTo g := by unfold KState.loggedTo; rw [i2]
        have e2 : s'.pending fd g = s.pending fd g := by unfold KState.pending; rw [i1, batch g]
        rw [e1, e2]; exact f2
    · rw [i1]; exact h.codes

theorem Boot.answered {s : KState} (h : Boot F fd s0 o done n read s) (c : Int) :
    Boot F fd s0 (o + 1) (done ++ [c]) n read (s.setInbox fd (s.inbox fd ++ [.ack c])) where
  tidy := h.tidy
  sorted x hx := by
    refine h.sorted x ?_
    simpa using hx
  flows g hu := by
    obtain ⟨f1, f2⟩ := h.flows g hu
    refine ⟨f1, ?_⟩
    have e2 : (s.setInbox fd (s.inbox fd ++ [.ack c])).pending fd g = s.pending fd g := by
      unfold KState.pending; simp [KState.batchOf]
    rw [e2]; exact f2
  codes := by
    obtain ⟨p, h1, h2⟩ := h.codes
    refine ⟨p, by simp [h1], by simp [h2]; omega⟩

theorem Boot.popped {s : KState} (h : Boot F fd s0 (o + 1) done n read s) {x : Note} {rest : List Note} (hin : s.inbox fd = x :: rest) (hx : ¬ x.Bad) :
    ∃ read', Boot F fd s0 o done (n + if x.isLogs = true then 1 else 0) (read ++ read') (s.setInbox fd rest) ∧
      (x.isLogs = false → read' = []) ∧ ∀ y ∈ read', s.Owns fd y.group := by
  have hent : entriesOf (s.inbox fd) = entriesOf [x] ++ entriesOf rest := by rw [hin, ← entriesOf_append]; rfl
  refine ⟨entriesOf [x], ⟨h.tidy, fun y hy => ?_, fun g hu => ?_, ?_⟩, ?_, ?_⟩
  · refine h.sorted y ?_
    rw [hent]
    simp only [setInbox_same] at hy
    exact List.mem_append_right _ hy
  · obtain ⟨f1, f2⟩ := h.flows g hu
    refine ⟨f1, ?_⟩
    have e1 : (s.setInbox fd rest).loggedTo g = s.loggedTo g := rfl
    rw [e1, f2]
    unfold KState.pending
    rw [hent]
    simp [KState.batchOf]
  · obtain ⟨p, h1, h2⟩ := h.codes
    rw [hin] at h1
    cases x with
    | ack c =>
      have hc : c = 0 := by simpa [Note.Bad] using hx
      subst hc
      refine ⟨p + 1, ?_, by simp [Note.isLogs]; omega⟩
      rw [h1, codesOf_ack, List.replicate_succ']
      simp
    | logs l =>
      refine ⟨p, ?_, by simp [Note.isLogs]; omega⟩
      rw [h1, codesOf_logs]
      simp
  · cases x with
    | ack c => intro _; rfl
    | logs l => intro h; cases h
  · intro y hy
    exact h.sorted y (by rw [hent]; exact List.mem_append_left _ hy)

/-- One exchange that returns nil. -/
theorem Boot.traded {s s' : KState} {req : LReq} {m : Nat} (h : Boot F fd s0 0 done n read s) (ha : About G req)
    (ht : Traded e F fd req none m s s') :
    ∃ b s1 read', Encodes e b req ∧ Meanwhile F s s1 ∧ Boot F fd s0 0 (done ++ [(s1.serve e fd b).1]) (n + m) (read ++ read') s' ∧
      (m = 0 → read' = []) ∧ (∀ y ∈ read', s'.Owns fd y.group) ∧
      (∀ g, s'.Owns fd g ↔ (s1.serve e fd b).2.Owns fd g) ∧
      ∀ g, ¬ F g ∨ (s1.serve e fd b).2.Owns fd g → s'.conf g = (s1.serve e fd b).2.conf g := by
  cases ht with
  | unsent hc _ => exact absurd rfl hc
  | served _ _ _ _ hc _ => exact absurd rfl hc
  | @got b s1 s2 s3 x rest hb m1 m2 m3 hin m4 hr hm =>
    have h3 := ((((h.meanwhile m1).serve hb ha).meanwhile m2).answered (s1.serve e fd b).1).meanwhile m3
    obtain ⟨read', h4, h5, h6⟩ := h3.popped hin (hr.mp rfl)
    have owns : ∀ g, s'.Owns fd g ↔ (s1.serve e fd b).2.Owns fd g := by
      intro g
      rw [m4.owns fd g]
      have : (s3.setInbox fd rest).Owns fd g ↔ s3.Owns fd g := Iff.rfl
      rw [this, m3.owns fd g]
      exact m2.owns fd g
    refine ⟨b, s1, read', hb, m1, ?_, ?_, ?_, owns, ?_⟩
    · rw [hm]; exact h4.meanwhile m4
    · intro h0
      apply h5
      cases hx : x.isLogs with
      | false => rfl
      | true => rw [hx] at hm; simp at hm; omega
    · intro y hy
      rw [m4.owns]; exact h6 y hy
    · intro g hg
      have hg2 : ¬ F g ∨ ∃ fd, s2.Owns fd g := by
        rcases hg with hg | hg
        · exact .inl hg
        · exact .inr ⟨fd, (m2.owns fd g).mpr hg⟩
      have hg3 : ¬ F g ∨ ∃ fd, s3.Owns fd g := by
        rcases hg with hg | hg
        · exact .inl hg
        · exact .inr ⟨fd, (m3.owns fd g).mpr ((m2.owns fd g).mpr hg)⟩
      rw [m4.conf hg3]
      show s3.conf g = _
      rw [m3.conf hg2]
      show s2.conf g = _
      refine m2.conf ?_
      rcases hg with hg | hg
      · exact .inl hg
      · exact .inr ⟨fd, hg⟩

/-- Binding to groups. -/
theorem Boot.bound {gs : List U16} {r : Option Err} {evs : List (Ev LEv)} (h : GroupsOut e fd .bindGroup gs r evs) :
    r = none → ∀ {s s' : KState} {done : List Int} {n : Nat} {read : List Entry}, Boot F fd s0 0 done n read s → Run e F s evs s' →
    ∃ done' read', Boot F fd s0 0 (done ++ done') (n + (logDatagrams e evs).length) (read ++ read') s' ∧ done'.length = gs.length ∧
      ((logDatagrams e evs).length = 0 → read' = []) ∧ (∀ y ∈ read', s'.Owns fd y.group) ∧
      (∀ g, s.Owns fd g → s'.Owns fd g) ∧
      (∀ g ∈ gs, ¬ F g.toNat → s.groups g.toNat = none → s'.Owns fd g.toNat) ∧
      ((∀ c ∈ done', c = 0) → gs.Nodup ∧ (∀ g ∈ gs, s'.Owns fd g.toNat) ∧ (∀ g ∈ gs, ¬ s.Owns fd g.toNat) ∧
        ∀ g ∈ gs, ¬ F g.toNat → s.groups g.toNat = none) := by
  induction h with
  | nil =>
    intro _ s s' done n read hB hr
    refine ⟨[], [], by simpa [logDatagrams] using hB.meanwhile hr.meanwhile, rfl, fun _ => rfl, by simp, fun g ho => (hr.meanwhile.owns fd g).mpr ho,
      by simp, by simp⟩
  | @cons g gs r ev1 evs hx hrest ih =>
    intro hr0 s s' done n read hB hr
    obtain ⟨t, r1, r2⟩ := hr.split
    obtain ⟨b, s1, rd1, hb, m1, B1, z1, y1, o1, c1⟩ := hB.traded (G := fun _ => True) (req := .bindGroup g.toNat) (by trivial) (r1.traded hx)
    obtain ⟨dn2, rd2, B2, l2, z2, y2, o2, p2, q2⟩ := ih hr0 B1 r2
    rw [serve_bind hb] at o1 c1
    have keep : ∀ g', s.Owns fd g' → t.Owns fd g' := by
      intro g' ho
      rw [o1]
      have ho1 := (m1.owns fd g').mpr ho
      cases hg : s1.groups g.toNat with
      | some k => exact ho1
      | none =>
        have hne : g' ≠ g.toNat := by
          intro hc; subst hc
          obtain ⟨k, hk, _⟩ := ho1
          rw [hg] at hk; cases hk
        unfold KState.Owns
        rw [setGroup_other _ _ hne]; exact ho1
    have freed : ∀ g', ¬ F g' → s.groups g' = none → s1.groups g' = none := by
      intro g' hF hs
      rw [← conf_none, m1.conf (.inl hF), conf_none]; exact hs
    have freed' : ∀ g', ¬ F g' → s1.groups g' = none → s.groups g' = none := by
      intro g' hF hs
      rw [← conf_none, ← m1.conf (.inl hF), conf_none]; exact hs
    refine ⟨(s1.serve e fd b).1 :: dn2, rd1 ++ rd2, ?_, by simp [l2], ?_, ?_, fun g' ho => o2 g' (keep g' ho), ?_, ?_⟩
    · have := B2
      rw [logDatagrams_append, List.length_append]
      simpa [Nat.add_assoc] using this
    · intro h0
      rw [logDatagrams_append, List.length_append] at h0
      rw [z1 (by omega), z2 (by omega)]; rfl
    · intro y hy
      rcases List.mem_append.mp hy with hy | hy
      · exact o2 _ (y1 y hy)
      · exact y2 y hy
    · intro g' hg' hF hs
      by_cases hgg : g' = g
      · subst hgg
        apply o2
        rw [o1, freed _ hF hs]
        exact ⟨_, setGroup_same _ _ _, rfl⟩
      · have hne : g'.toNat ≠ g.toNat := fun hc => hgg (BitVec.eq_of_toNat_eq hc)
        rcases List.mem_cons.mp hg' with hc | hg'
        · exact absurd hc hgg
        · refine p2 g' hg' hF ?_
          rw [← conf_none, c1 _ (.inl hF), conf_none]
          have hs1 := freed _ hF hs
          cases hg : s1.groups g.toNat with
          | some k => exact hs1
          | none => simp only; rw [setGroup_other _ _ hne]; exact hs1
    · intro hz
      have hfree : s1.groups g.toNat = none := by
        have := hz _ List.mem_cons_self
        rw [serve_bind hb] at this
        cases hg : s1.groups g.toNat with
        | none => rfl
        | some k =>
          rw [hg] at this
          simp only at this
          split at this <;> cases this
      rw [hfree] at o1 c1
      have hown : t.Owns fd g.toNat := by
        rw [o1]; exact ⟨_, setGroup_same _ _ _, rfl⟩
      obtain ⟨q3, q4, q5, q6⟩ := q2 fun c hc => hz c (List.mem_cons_of_mem _ hc)
      refine ⟨List.nodup_cons.mpr ⟨fun hc => q5 g hc hown, q3⟩, ?_, ?_, ?_⟩
      · intro g' hg'
        rcases List.mem_cons.mp hg' with rfl | hg'
        · exact o2 _ hown
        · exact q4 g' hg'
      · intro g' hg' ho
        rcases List.mem_cons.mp hg' with rfl | hg'
        · obtain ⟨k, hk, _⟩ := (m1.owns fd g'.toNat).mpr ho
          rw [hfree] at hk; cases hk
        · exact q5 g' hg' (keep _ ho)
      · intro g' hg' hF
        by_cases hgg : g' = g
        · subst hgg; exact freed' _ hF hfree
        · have hne : g'.toNat ≠ g.toNat := fun hc => hgg (BitVec.eq_of_toNat_eq hc)
          rcases List.mem_cons.mp hg' with hc | hg'
          · exact absurd hc hgg
          · have := q6 g' hg' hF
            rw [← conf_none, c1 _ (.inl hF), conf_none] at this
            simp only [setGroup_other _ _ hne] at this
            exact freed' _ hF this
  | stop hx => intro h; cases h

/-- The configuration of a group of socket `fd` that copies `range` bytes. -/
def modeOf (fd range : Nat) : KGroup := ⟨.sock fd, 2, clip range, []⟩

/-- Setting the copy mode. -/
theorem Boot.moded {range : Nat} {gs : List U16} {r : Option Err} {evs : List (Ev LEv)}
    (h : GroupsOut e fd (fun g => .copyPacket g range) gs r evs) :
    r = none → ∀ {s s' : KState} {done : List Int} {n : Nat} {read : List Entry}, Boot F fd s0 0 done n read s → Run e F s evs s' →
    ∃ done' read', Boot F fd s0 0 (done ++ done') (n + (logDatagrams e evs).length) (read ++ read') s' ∧ done'.length = gs.length ∧
      ((logDatagrams e evs).length = 0 → read' = []) ∧ (∀ y ∈ read', s'.Owns fd y.group) ∧
      (∀ g, s'.Owns fd g ↔ s.Owns fd g) ∧
      (∀ g, s.conf g = some (modeOf fd range) → s'.conf g = some (modeOf fd range)) ∧
      (∀ g ∈ gs, s.Owns fd g.toNat → s'.conf g.toNat = some (modeOf fd range)) := by
  induction h with
  | nil =>
    intro _ s s' done n read hB hr
    refine ⟨[], [], by simpa [logDatagrams] using hB.meanwhile hr.meanwhile, rfl, fun _ => rfl, by simp, fun g => hr.meanwhile.owns fd g,
      fun g hg => ?_, by simp⟩
    rw [hr.meanwhile.conf (.inr ⟨fd, ?_⟩)]
    · exact hg
    · unfold KState.conf at hg
      cases hk : s.groups g with
      | none => rw [hk] at hg; cases hg
      | some k =>
        rw [hk] at hg
        simp only [Option.map_some, Option.some.injEq] at hg
        exact ⟨k, hk, (conf_parts (c := modeOf fd range) hg).1⟩
  | @cons g gs r ev1 evs hx hrest ih =>
    intro hr0 s s' done n read hB hr
    obtain ⟨t, r1, r2⟩ := hr.split
    obtain ⟨b, s1, rd1, hb, m1, B1, z1, y1, o1, c1⟩ := hB.traded (G := fun _ => True) (req := .copyPacket g.toNat range) (by trivial) (r1.traded hx)
    obtain ⟨dn2, rd2, B2, l2, z2, y2, o2, p2, q2⟩ := ih hr0 B1 r2
    rw [serve_mode hb] at o1 c1
    have owns : ∀ g', t.Owns fd g' ↔ s.Owns fd g' := by
      intro g'
      rw [o1, ← m1.owns fd g']
      cases hg : s1.groups g.toNat with
      | none => exact Iff.rfl
      | some k =>
        by_cases ho : k.owner = .sock fd
        · simp only [ho, ne_eq, not_true_eq_false, if_false]
          exact Owns.set hg (k' := { k with mode := 2, range := clip range }) rfl (by rw [← ho]) fd g'
        · simp only [ne_eq, ho, not_false_eq_true, if_true]
    have this' : s.Owns fd g.toNat → t.conf g.toNat = some (modeOf fd range) := by
      intro ho
      obtain ⟨k, hk, hko⟩ := (m1.owns fd g.toNat).mpr ho
      rw [hk] at o1 c1
      simp only [hko, ne_eq, not_true_eq_false, if_false] at o1 c1
      rw [c1 g.toNat (.inr ?_)]
      · simp [KState.conf, KGroup.conf, modeOf]
      · exact (o1 g.toNat).mp ((owns g.toNat).mpr ho)
    have mine : ∀ {u : KState} {g'}, u.conf g' = some (modeOf fd range) → u.Owns fd g' := by
      intro u g' hg
      unfold KState.conf at hg
      cases hk : u.groups g' with
      | none => rw [hk] at hg; cases hg
      | some k =>
        rw [hk] at hg
        simp only [Option.map_some, Option.some.injEq] at hg
        exact ⟨k, hk, (conf_parts (c := modeOf fd range) hg).1⟩
    have stays : ∀ g', s.conf g' = some (modeOf fd range) → t.conf g' = some (modeOf fd range) := by
      intro g' hg'
      by_cases hgg : g' = g.toNat
      · rw [hgg] at hg' ⊢; exact this' (mine hg')
      · have ho := mine hg'
        rw [c1 g' (.inr ((o1 g').mp ((owns g').mpr ho)))]
        have h1 : s1.conf g' = some (modeOf fd range) := by rw [m1.conf (.inr ⟨fd, ho⟩)]; exact hg'
        cases hg : s1.groups g.toNat with
        | none => exact h1
        | some k =>
          simp only
          split
          · exact h1
          · unfold KState.conf at *
            rw [setGroup_other _ _ hgg]; exact h1
    refine ⟨(s1.serve e fd b).1 :: dn2, rd1 ++ rd2, ?_, by simp [l2], ?_, ?_, fun g' => (o2 g').trans (owns g'), fun g' hg' => p2 g' (stays g' hg'), ?_⟩
    · have := B2
      rw [logDatagrams_append, List.length_append]
      simpa [Nat.add_assoc] using this
    · intro h0
      rw [logDatagrams_append, List.length_append] at h0
      rw [z1 (by omega), z2 (by omega)]; rfl
    · intro y hy
      rcases List.mem_append.mp hy with hy | hy
      · exact (o2 _).mpr (y1 y hy)
      · exact y2 y hy
    · intro g' hg' ho
      rcases List.mem_cons.mp hg' with rfl | hg'
      · exact p2 _ (this' ho)
      · exact q2 g' hg' ((owns _).mpr ho)
  | stop hx => intro h; cases h

end Verif.NfLog
