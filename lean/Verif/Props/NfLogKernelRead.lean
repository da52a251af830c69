import Verif.Props.NfLogKernelWorks
import Verif.Props.NfLogEndToEnd
import Verif.NfLog.Shown
import Verif.NfLog.Calm
/-! C138: reading logs on a kernel that keeps log groups. -/
namespace Verif.Props.Log
open Verif.Common Verif.Sys Verif.Spec Verif.NfLog Verif.Packet

/-- `m` is the report of the entry `x`: its prefix, the bytes shown of its packet as the reader hands them out, and the addresses, protocol, ports, id and
total length of the packet itself. -/
def ReportOf (m : NfPacket) (x : Entry) : Prop := Describes m (x.pfx.getD []) (cut (x.packet.take x.range)) x.packet

/-- One report for each entry, in order. -/
inductive Reports : List NfPacket → List Entry → Prop
  | nil : Reports [] []
  | cons {m x ms xs} : ReportOf m x → Reports ms xs → Reports (m :: ms) (x :: xs)

theorem Reports.append {ms ms' : List NfPacket} {xs xs' : List Entry} (h : Reports ms xs) (h' : Reports ms' xs') :
    Reports (ms ++ ms') (xs ++ xs') := by
  induction h with
  | nil => exact h'
  | cons h _ ih => exact .cons h ih

/-- Enough of a complete packet is shown. -/
structure Enough (x : Entry) : Prop where
  whole : WholePacket x.packet
  range : 0 < x.range ∧ x.range ≤ 65531
  shown : needed x.packet ≤ (x.packet.take x.range).length

theorem Enough.captured {x : Entry} (h : Enough x) : x.packet.take x.range = captured x.range x.packet := by
  have := h.range
  unfold Log.captured
  rw [if_neg (by omega), Nat.min_eq_left this.2]

theorem prefixOf_entry {attrs : List (Nat × List Byte)} {pfx : Option (List Byte)}
    (h1 : ∀ a ∈ attrs, a.1 = 10 → ∃ p, pfx = some p ∧ a.2 = p ++ [0]) (h2 : ∀ p, pfx = some p → (10, p ++ [0]) ∈ attrs) :
    prefixOf attrs = pfx.getD [] := by
  unfold prefixOf
  cases hl : (attrs.filter fun a => a.1 == 10).getLast? with
  | none =>
    rw [List.getLast?_eq_none_iff, List.filter_eq_nil_iff] at hl
    cases pfx with
    | none => rfl
    | some p => exact absurd rfl (hl _ (h2 p rfl))
  | some a =>
    have hm := List.mem_of_getLast? hl
    obtain ⟨h3, h4⟩ := List.mem_filter.mp hm
    obtain ⟨p, hp, ha⟩ := h1 a h3 (by simpa using h4)
    rw [hp]
    simp [ha]

/-- The message about an entry of which enough is shown is well-formed and reported once. -/
theorem entry_item {d : List Byte} {x : Entry} (h : EntryIs .little d x) (hx : Enough x) :
    ∃ i : Item, d = i.bytes ∧ ItemOk i ∧ ∀ items ms, AllReported (i :: items) ms →
      ∃ m ms', ms = m :: ms' ∧ ReportOf m x ∧ AllReported items ms' := by
  obtain ⟨mid, hdr, attrs, hm, hh, _, ha, hp1, hp2, hd⟩ := h
  have h21 := needed_ge x.packet
  have hs := hx.shown
  have hne : x.packet.take x.range ≠ [] := by
    intro hc; rw [hc] at hs; simp at hs; omega
  rw [if_neg hne, hx.captured] at hd
  rw [hx.captured] at hs
  have hok : (⟨mid, hdr, attrs, x.packet⟩ : Logged).Ok := by
    refine ⟨hm, hh, fun a hm => ?_, hx.whole⟩
    obtain ⟨a1, a2, a3⟩ := ha a hm
    refine ⟨a1, a2, by omega, fun h10 => ?_⟩
    obtain ⟨p, _, h⟩ := hp1 a hm h10
    rw [h]; simp
  refine ⟨(⟨mid, hdr, attrs, x.packet⟩ : Logged).item x.range, hd, logged_ok hok hs, ?_⟩
  intro items ms hr
  unfold Logged.item at hr
  cases hr with
  | log h h' =>
    rw [cutLast_append] at h
    obtain ⟨m, rfl, hd⟩ := reported_one (fun a hm => (ha a hm).2.1) h
    refine ⟨m, _, rfl, ?_, h'⟩
    have hne' : Log.captured x.range x.packet ≠ [] := by rw [← hx.captured]; exact hne
    have := describes_same (seen_same x.range x.packet hne').1 hd (by omega) (by omega)
    unfold ReportOf
    rw [hx.captured]
    rw [show ((attrs.filter fun a => a.1 == 10).getLast?.map fun a => a.2.dropLast).getD [] = x.pfx.getD [] from prefixOf_entry hp1 hp2] at this
    exact this

theorem entries_items {d : List Byte} {l : List Entry} (h : EntriesAre .little d l) (hl : ∀ x ∈ l, Enough x) :
    ∃ items : List Item, d = datagram items ∧ (∀ i ∈ items, ItemOk i) ∧ ∀ more ms, AllReported (items ++ more) ms →
      ∃ ms1 ms2, ms = ms1 ++ ms2 ∧ Reports ms1 l ∧ AllReported more ms2 := by
  induction h with
  | nil => exact ⟨[], rfl, by simp, fun more ms h => ⟨[], ms, rfl, .nil, h⟩⟩
  | @cons d d' r l h1 _ ih =>
    obtain ⟨i, hi, hok, hrep⟩ := entry_item h1 (hl r (by simp))
    obtain ⟨items, hd, hall, hrest⟩ := ih fun x hx => hl x (by simp [hx])
    refine ⟨i :: items, by rw [hi, hd]; simp [datagram], ?_, ?_⟩
    · intro j hj
      rcases List.mem_cons.mp hj with rfl | hj
      · exact hok
      · exact hall j hj
    · intro more ms hr
      obtain ⟨m, ms', rfl, hm, hr'⟩ := hrep _ _ hr
      obtain ⟨ms1, ms2, rfl, a, b⟩ := hrest _ _ hr'
      exact ⟨m :: ms1, ms2, rfl, .cons hm a, b⟩

/-- The datagram of a note is well-formed, and each of the entries in it is reported, in order. -/
theorem note_items {d : List Byte} {n : Note} (h : NoteIs .little d n) (hl : ∀ x ∈ entriesOf [n], Enough x) :
    ∃ items : List Item, d = datagram items ∧ (∀ i ∈ items, ItemOk i) ∧ d.length < 65536 ∧
      ∀ ms, AllReported items ms → Reports ms (entriesOf [n]) := by
  cases n with
  | ack c =>
    obtain ⟨mid, body, hm, _, _, hd, hlen⟩ := h
    refine ⟨[.other 2 mid body], by rw [hd]; simp [datagram, Item.bytes, msgBytes, nlBytes], ?_, hlen, ?_⟩
    · intro i hi
      simp only [List.mem_singleton] at hi
      subst hi
      exact ⟨hm, by omega, by omega⟩
    · intro ms hr
      cases hr with
      | other h => cases h; exact .nil
  | logs l =>
    obtain ⟨_, d', he, hlen, mid, body, hm, _, hd⟩ := h
    have hl' : ∀ x ∈ l, Enough x := fun x hx => hl x (by simpa using hx)
    obtain ⟨items, hi, hall, hrep⟩ := entries_items he hl'
    have e1 : entriesOf [Note.logs l] = l := by simp
    rw [e1]
    by_cases h1 : 1 < l.length
    · rw [if_pos h1] at hd
      refine ⟨items ++ [.other 3 mid body], by rw [hd, hi]; simp [datagram, Item.bytes, msgBytes, nlBytes], ?_, hlen, ?_⟩
      · intro i hi
        rcases List.mem_append.mp hi with hi | hi
        · exact hall i hi
        · simp only [List.mem_singleton] at hi
          subst hi
          exact ⟨hm, by omega, by omega⟩
      · intro ms hr
        obtain ⟨ms1, ms2, rfl, a, b⟩ := hrep _ _ hr
        cases b with
        | other h => cases h; rw [List.append_nil]; exact a
    · rw [if_neg h1, List.append_nil] at hd
      refine ⟨items, by rw [hd, hi], hall, hlen, ?_⟩
      intro ms hr
      obtain ⟨ms1, ms2, rfl, a, b⟩ := hrep [] ms (by simpa using hr)
      cases b
      rw [List.append_nil]; exact a

theorem errReport_told {ecb : Option Nat} {n : Nat} {rep : List (Ev LEv)} (h : ErrReport ecb "Netlink error" (.errno n) rep) :
    logs rep = [] ∧ errors rep = told ecb n := by
  cases h with
  | silent h => rw [h]; exact ⟨rfl, rfl⟩
  | told h0 h1 h2 _ =>
    rw [h0]
    refine ⟨?_, ?_⟩
    · show logs ([_] ++ _) = []
      rw [logs_append, h1]; rfl
    · show errors ([_] ++ _) = _
      rw [errors_append, h2]; rfl

/-- The errors of the receives in a history. -/
def failures (evs : List (Ev LEv)) : List Nat := evs.filterMap fun
  | .recvfrom _ _ _ (.error n) => some n
  | _ => none

theorem failures_append (a b : List (Ev LEv)) : failures (a ++ b) = failures a ++ failures b := by simp [failures]

theorem failures_none {evs : List (Ev LEv)} (h : ∀ ev ∈ evs, isRecv ev = false) : failures evs = [] := by
  unfold failures
  apply filterMap_none
  intro ev hev
  have := h ev hev
  cases ev <;> simp_all [isRecv]

theorem report_no_recv {ecb : Option Nat} {kind : String} {err : Err} {rep : List (Ev LEv)} (h : ErrReport ecb kind err rep) :
    ∀ ev ∈ rep, isRecv ev = false := by
  cases h with
  | silent _ => simp
  | told _ _ _ h =>
    intro ev hev
    rcases List.mem_cons.mp hev with rfl | hev
    · rfl
    · exact (h ev hev).1

theorem close_no {fd : Nat} {cl : List (Ev LEv)} (h : CloseEvs fd cl) : (∀ ev ∈ cl, isRecv ev = false) ∧ logs cl = [] ∧ errors cl = [] := by
  rcases h with rfl | ⟨_, _, rfl⟩
  · exact ⟨by intro ev h; simp at h; subst h; rfl, rfl, rfl⟩
  · exact ⟨by intro ev h; simp at h; rcases h with rfl | rfl <;> rfl, rfl, rfl⟩

/-- What one turn of the reader does with what lies in the socket. -/
inductive Turned (F : Nat → Prop) (fd cb : Nat) (ecb : Option Nat) (fin : Bool) (evs : List (Ev LEv)) (s s' : KState) : Prop
  | got {s1 : KState} {n : Note} {rest : List Note} {ms : List NfPacket} : fin = false → Meanwhile F s s1 → s1.inbox fd = n :: rest →
      Meanwhile F (s1.setInbox fd rest) s' → logs evs = ms.map (cb, ·) → Reports ms (entriesOf [n]) → errors evs = [] → failures evs = [] →
      Turned F fd cb ecb fin evs s s'
  | overrun : fin = false → Meanwhile F s s' → logs evs = [] → errors evs = told ecb 105 → failures evs = [105] → Turned F fd cb ecb fin evs s s'
  | failed {e : Nat} {s1 s2 : KState} : fin = true → e ≠ 105 → logs evs = [] → errors evs = told ecb e → failures evs = [e] →
      Meanwhile F s s1 → Meanwhile F (s1.release fd) s2 → (s' = s2 ∨ Meanwhile F (s2.release fd) s') → Turned F fd cb ecb fin evs s s'

theorem turn {env : Env} {K : Kernel LEv} {F : Nat → Prop} {st : List (Ev LEv) → KState} (hc : Calm env K) (hK : Keeps .little F K st)
    {w : W} {fd n cb : Nat} (hs : w.st.socket = some ⟨fd, n⟩) (hcb : w.st.callback = some cb)
    (hE : ∀ ev s1 x rest, Meanwhile F (st w.trace) s1 → s1.inbox fd = x :: rest → Meanwhile F (s1.setInbox fd rest) (st (w.trace ++ [ev])) →
      ∀ y ∈ entriesOf [x], Enough y) :
    ∃ fin w' evs, readIter env K w = .ok (fin, w') ∧ w'.st = w.st ∧ w'.trace = w.trace ++ evs ∧
      (∀ d, K.recv w.trace fd = .ok d → failures evs = []) ∧
      Turned F fd cb w.st.errorCallback fin evs (st w.trace) (st w'.trace) := by
  cases hr : K.recv w.trace fd with
  | ok d =>
    have ha : Answers K w.trace (.recvfrom fd 65536 0 (.ok (d.take 65536))) := by
      show _ = (K.recv w.trace fd).map _
      rw [hr]; rfl
    obtain ⟨s1, s2, m1, hst, m2⟩ := hK _ _ ha
    have hrun : Run .little F s1 [.recvfrom fd 65536 0 (.ok (d.take 65536))] (st (w.trace ++ [.recvfrom fd 65536 0 (.ok (d.take 65536))])) :=
      .cons .refl hst (.nil m2)
    obtain ⟨s3, x, rest, d', m3, hin, hn, hdd, m4⟩ := hrun.got
    have hen := hE _ s3 x rest (m1.trans m3) hin m4
    obtain ⟨items, hd, hall, hlen, hrep⟩ := note_items hn hen
    rw [List.take_of_length_le (by omega : d'.length ≤ 65536)] at hdd
    have hd2 : d = datagram items := by
      rw [← hd, ← hdd]
      have := congrArg List.length hdd
      rw [List.length_take] at this
      rw [List.take_of_length_le (by omega)]
    have hok : (Arrival.messages items).Ok := ⟨hall, by rw [← hd]; omega⟩
    obtain ⟨w', evs, ms, h1, h2, h3, h4, h5, h6, h7⟩ := arrival_turn hc.toQuiet hok hs hcb (by rw [hr, hd2]; rfl)
    obtain ⟨evs1, cl, ht, hg, hsil, hcl, _⟩ := readIter_calm hc hs h1
    have hcl := hcl rfl
    subst hcl
    rw [hr] at ht hg
    simp only [List.append_nil] at ht hg
    have hev : evs = [.recvfrom fd 65536 0 (.ok (d.take 65536))] ++ evs1 := List.append_cancel_left (by rw [← h3, ht, List.append_assoc]; rfl)
    have hr2 := Run.of_genuine hK hg.split.2
    have e1 : w.trace ++ [.recvfrom fd 65536 0 (.ok (d.take 65536))] ++ evs1 = w'.trace := by rw [ht]; rfl
    have m5 : Meanwhile F (st (w.trace ++ [.recvfrom fd 65536 0 (.ok (d.take 65536))])) (st w'.trace) := by
      rw [← e1]; exact hr2.of_silent hsil
    have hf : failures evs = [] := by
      rw [hev, failures_append]
      have hno : ∀ ev ∈ evs1, isRecv ev = false := by
        have h4' := h4
        rw [hev, List.filter_append, List.length_append] at h4'
        simp only [List.filter_cons, isRecv, if_true, List.filter_nil, List.length_cons, List.length_nil] at h4'
        have : (evs1.filter isRecv) = [] := List.length_eq_zero_iff.mp (by omega)
        rw [List.filter_eq_nil_iff] at this
        intro ev hev
        simpa using this ev hev
      rw [failures_none hno]; rfl
    exact ⟨false, w', evs, h1, h2, h3, fun _ _ => hf, .got rfl (m1.trans m3) hin (m4.trans m5) h6 (hrep ms h5) h7 hf⟩
  | error e =>
    obtain ⟨fin, w', h1⟩ := readIter_runs hc.toQuiet (K := K) (w := w) (sh := ⟨fd, n⟩) (cb := cb) hs hcb
      (fun d hd => by rw [hr] at hd; cases hd)
    obtain ⟨h2, g, h3, hT⟩ := readIter_turn hc.toQuiet hs h1
    obtain ⟨evs1, cl, ht, hg, hsil, hcl, hcl2⟩ := readIter_calm hc hs h1
    have hm : (Except.error e : Except Nat (List Byte)).map (·.take 65536) = .error e := rfl
    rw [hr, hm] at ht hg
    have hrun := Run.of_genuine hK hg
    have e1 : w.trace ++ ([.recvfrom fd 65536 0 (.error e)] ++ evs1 ++ cl) = w'.trace := by
      rw [ht]; simp
    rw [e1] at hrun
    have hev : g = [.recvfrom fd 65536 0 (.error e)] ++ evs1 ++ cl := List.append_cancel_left (by rw [← h3, ← e1])
    obtain ⟨t, r1, r2⟩ := hrun.split
    have m1 : Meanwhile F (st w.trace) t := r1.of_silent (by
      intro ev hm
      rcases List.mem_append.mp hm with hm | hm
      · simp only [List.mem_singleton] at hm
        subst hm
        simp [Silent, handedOver]
      · exact hsil ev hm)
    have wit : ∀ {rep : List (Ev LEv)}, (∀ ev ∈ rep, isRecv ev = false) → failures (.recvfrom fd 65536 0 (.error e) :: rep) = [e] := by
      intro rep h
      show failures ([_] ++ rep) = _
      rw [failures_append, failures_none h]; rfl
    refine ⟨fin, w', g, h1, h2, h3, fun d hd => (by cases hd), ?_⟩
    cases hT with
    | overrun hrep =>
      have hhead : e = 105 := by
        have := congrArg List.head? hev
        simp at this
        exact this.symm
      subst hhead
      have hcl := hcl rfl
      subst hcl
      obtain ⟨a, b⟩ := errReport_told hrep
      refine .overrun rfl (m1.trans r2.meanwhile) ?_ ?_ (wit (report_no_recv hrep))
      · show logs ([_] ++ _) = []
        rw [logs_append, a]; rfl
      · show errors ([_] ++ _) = _
        rw [errors_append, b]; rfl
    | @failed n' rep closes hne hrep hce =>
      have hhead : e = n' := by
        have := congrArg List.head? hev
        simp at this
        exact this.symm
      subst hhead
      obtain ⟨a, b⟩ := errReport_told hrep
      obtain ⟨c1, c2, c3⟩ := close_no hce
      obtain ⟨hce2, _⟩ := hcl2 rfl
      obtain ⟨s1, s2, n1, n2, n3⟩ := r2.closes hce2
      refine .failed rfl hne ?_ ?_ (wit ?_) (m1.trans n1) n2 n3
      · show logs ([_] ++ (rep ++ closes)) = []
        rw [logs_append, logs_append, a, c2]; rfl
      · show errors ([_] ++ (rep ++ closes)) = _
        rw [errors_append, errors_append, b, c3, List.append_nil]; rfl
      · intro ev hev
        exact (List.mem_append.mp hev).elim (report_no_recv hrep ev) (c1 ev)
    | parsed =>
      have := congrArg List.head? hev
      simp at this

/-- What holds of the socket between turns. -/
structure Reading (G : Nat → Prop) (fd : Nat) (s : KState) : Prop where
  shown : Shown (fun r => 57 ≤ r ∧ r ≤ 65531) fd s
  tidy : Tidy fd s
  sorted : Sorted fd s
  only : ∀ g, s.Owns fd g → G g

theorem Reading.meanwhile {F G : Nat → Prop} {fd : Nat} {s s' : KState} (h : Reading G fd s) (hm : Meanwhile F s s') : Reading G fd s' where
  shown := hm.shown h.shown
  tidy := hm.tidy h.tidy
  sorted := hm.sorted h.tidy h.sorted
  only g ho := h.only g ((hm.owns fd g).mp ho)

theorem Reading.popped {G : Nat → Prop} {fd : Nat} {s : KState} {x : Note} {rest : List Note} (h : Reading G fd s) (hin : s.inbox fd = x :: rest) :
    Reading G fd (s.setInbox fd rest) where
  shown := h.shown.setInbox fun y hy => by
    rw [hin]
    cases x with
    | ack => simpa using hy
    | logs l => simp [hy]
  tidy := h.tidy
  sorted := by
    intro y hy
    rw [setInbox_same] at hy
    refine h.sorted y ?_
    rw [hin]
    cases x with
    | ack => simpa using hy
    | logs l => simp [hy]
  only g ho := h.only g ho

theorem Meanwhile.logged_grows {F : Nat → Prop} {s s' : KState} (h : Meanwhile F s s') : ∃ l, s'.logged = s.logged ++ l := by
  induction h with
  | refl => exact ⟨[], by simp⟩
  | tail _ h ih =>
    obtain ⟨a, ha⟩ := ih
    cases h with
    | log => exact ⟨a ++ [_], by rw [log_logged, ha, List.append_assoc]⟩
    | flush => exact ⟨a, by rw [flush_logged, ha]⟩
    | others _ h _ => exact ⟨a, by rw [h, ha]⟩

theorem loggedTo_grows {s s' : KState} (h : ∃ l, s'.logged = s.logged ++ l) (g : Nat) : ∃ l, s'.loggedTo g = s.loggedTo g ++ l := by
  obtain ⟨l, hl⟩ := h
  exact ⟨_, by unfold KState.loggedTo; rw [hl, List.filter_append]⟩

/-- A complete IP packet that is TCP or UDP or has at least 41 bytes. -/
def Ordinary (P : List Byte) : Prop :=
  WholePacket P ∧ ((byteAt P 0 = 0x45 ∧ (byteAt P 9 = 6 ∨ byteAt P 9 = 17)) ∨ (byteAt P 0 / 16 = 6 ∧ (byteAt P 6 = 6 ∨ byteAt P 6 = 17)) ∨
    41 ≤ P.length)

theorem ordinary_enough {x : Entry} (hP : Ordinary x.packet) (hr : 57 ≤ x.range ∧ x.range ≤ 65531) : Enough x := by
  refine ⟨hP.1, ⟨by omega, hr.2⟩, ?_⟩
  have h := C124_enough x.range x.packet hP.1 (.inr hr.1) hP.2
  unfold Log.captured at h
  rw [if_neg (by omega), Nat.min_eq_left hr.2] at h
  exact h

/-- What is received next in a reading socket is ordinary when all packets logged to its groups are. -/
theorem next_enough {F G : Nat → Prop} {fd : Nat} {s s1 s' : KState} (h : Reading G fd s) {x : Note} {rest : List Note} (m1 : Meanwhile F s s1)
    (hin : s1.inbox fd = x :: rest) (m2 : Meanwhile F (s1.setInbox fd rest) s') (hP : ∀ y ∈ s'.logged, G y.group → Ordinary y.packet) :
    ∀ y ∈ entriesOf [x], Enough y := by
  intro y hy
  have h1 := h.meanwhile m1
  have hy1 : y ∈ entriesOf (s1.inbox fd) := by
    rw [hin]
    show y ∈ entriesOf ([x] ++ rest)
    rw [entriesOf_append]
    exact List.mem_append_left _ hy
  obtain ⟨a, b⟩ := h1.shown.inbox y hy1
  obtain ⟨l, hl⟩ := Meanwhile.logged_grows m2
  exact ordinary_enough (hP y (by rw [hl]; exact List.mem_append_left _ a) (h1.only _ (h1.sorted y hy1))) b

/-- Any number of turns. -/
theorem turns {env : Env} {K : Kernel LEv} {F G : Nat → Prop} {st : List (Ev LEv) → KState} (hc : Calm env K) (hK : Keeps .little F K st)
    {fd k cb : Nat} (hP : ∀ tr, ∀ x ∈ (st tr).logged, G x.group → Ordinary x.packet) : ∀ (n : Nat) (w : W), w.st.socket = some ⟨fd, k⟩ →
      w.st.callback = some cb → Reading G fd (st w.trace) →
    ∃ fin w' evs ms read, readLogs env K n w = .ok (fin, w') ∧ w'.st = w.st ∧ w'.trace = w.trace ++ evs ∧ logs evs = ms.map (cb, ·) ∧
      Reports ms read ∧ errors evs = (failures evs).flatMap (told w.st.errorCallback) ∧ (fin = false → ∀ e ∈ failures evs, e = 105) ∧
      (fin = false → Reading G fd (st w'.trace)) ∧
      (fin = true → ∃ early e, failures evs = early ++ [e] ∧ e ≠ 105 ∧ (∀ x ∈ early, x = 105) ∧ ∀ g, ¬ (st w'.trace).Owns fd g) ∧
      ∀ g base r0, Flow F fd g base r0 (st w.trace) → (fin = false → Flow F fd g base (r0 ++ read) (st w'.trace)) ∧
        ∃ rest, (st w'.trace).loggedTo g = base ++ ((r0 ++ read).filter fun x => decide (x.group = g)) ++ rest := by
  intro n
  induction n with
  | zero =>
    intro w hs hcb hR
    refine ⟨false, w, [], [], [], rfl, rfl, by simp, rfl, .nil, rfl, by simp [failures], fun _ => hR, by simp, fun g base r0 hF => ⟨fun _ => ?_, ?_⟩⟩
    · rw [List.append_nil]; exact hF
    · rw [List.append_nil]; exact ⟨_, hF.flow⟩
  | succ n ih =>
    intro w hs hcb hR
    obtain ⟨fin1, w1, ev1, h1, hst1, ht1, _, hT⟩ := turn hc hK hs hcb
      (fun ev s1 x rest m1 hin m2 => next_enough hR m1 hin m2 (hP _))
    have step : ∀ fin w', (fin1 = true → fin = true ∧ w' = w1) → (fin1 = false → readLogs env K n w1 = .ok (fin, w')) →
        readLogs env K (n + 1) w = .ok (fin, w') := by
      intro fin w' a b
      show (readIter env K >>= fun b => if b then pure true else readLogs env K n) w = _
      rw [GoM.bind_apply, h1, Res.ok_bind]
      cases fin1 with
      | true => obtain ⟨rfl, rfl⟩ := a rfl; rfl
      | false => exact b rfl
    cases hT with
    | @got s1 x rest ms1 hf m1 hin m2 hl1 hr1 he1 hfl1 =>
      subst hf
      have hR1 : Reading G fd (st w1.trace) := ((hR.meanwhile m1).popped hin).meanwhile m2
      obtain ⟨fin, w', ev2, ms2, read2, h2, hst2, ht2, hl2, hr2, he2, hx2, hy2, hz2, hF2⟩ := ih w1 (by rw [hst1]; exact hs) (by rw [hst1]; exact hcb) hR1
      refine ⟨fin, w', ev1 ++ ev2, ms1 ++ ms2, entriesOf [x] ++ read2, step _ _ (by simp) (fun _ => h2), hst2.trans hst1,
        by rw [ht2, ht1, List.append_assoc], by rw [logs_append, hl1, hl2, List.map_append], hr1.append hr2,
        by rw [errors_append, failures_append, he1, he2, hfl1, hst1]; rfl, ?_, hy2, ?_, ?_⟩
      · rw [failures_append, hfl1]; exact hx2
      · rw [failures_append, hfl1]; exact hz2
      · intro g base r0 hF
        have f1 := m1.flow hR.tidy hF
        have f2 : Flow F fd g base (r0 ++ entriesOf [x]) (s1.setInbox fd rest) := by
          refine ⟨f1.usable, ?_⟩
          have := f1.flow
          unfold KState.pending at this ⊢
          rw [hin] at this
          rw [setInbox_same]
          have e1 : entriesOf (x :: rest) = entriesOf [x] ++ entriesOf rest := by rw [← entriesOf_append]; rfl
          rw [e1] at this
          simp only [List.filter_append, List.append_assoc] at this ⊢
          exact this
        have f3 := m2.flow ((hR.meanwhile m1).popped hin).tidy f2
        have := hF2 g base _ f3
        rw [List.append_assoc] at this
        exact this
    | overrun hf m1 hl1 he1 hfl1 =>
      subst hf
      obtain ⟨fin, w', ev2, ms2, read2, h2, hst2, ht2, hl2, hr2, he2, hx2, hy2, hz2, hF2⟩ := ih w1 (by rw [hst1]; exact hs) (by rw [hst1]; exact hcb)
        (hR.meanwhile m1)
      refine ⟨fin, w', ev1 ++ ev2, ms2, read2, step _ _ (by simp) (fun _ => h2), hst2.trans hst1,
        by rw [ht2, ht1, List.append_assoc], by rw [logs_append, hl1, hl2]; rfl, hr2,
        by rw [errors_append, failures_append, he1, he2, hfl1, hst1]; simp, ?_, hy2, ?_, ?_⟩
      · intro hf e he
        rw [failures_append, hfl1] at he
        rcases List.mem_append.mp he with he | he
        · simpa using he
        · exact hx2 hf e he
      · intro hf
        obtain ⟨early, e, a, b, c, d⟩ := hz2 hf
        refine ⟨105 :: early, e, by rw [failures_append, hfl1, a]; rfl, b, ?_, d⟩
        intro x hx
        rcases List.mem_cons.mp hx with rfl | hx
        · rfl
        · exact c x hx
      · intro g base r0 hF
        exact hF2 g base r0 (m1.flow hR.tidy hF)
    | @failed e s1 s2 hf hne hl1 he1 hfl1 m1 m2 m3 =>
      subst hf
      refine ⟨true, w1, ev1, [], [], step _ _ (by simp) (by simp), hst1, ht1, by rw [hl1]; rfl, .nil, by rw [he1, hfl1]; simp, by simp, by simp, ?_, ?_⟩
      · intro _
        refine ⟨[], e, by rw [hfl1]; rfl, hne, by simp, fun g => ?_⟩
        have d2 : ¬ s2.Owns fd g := fun ho => release_owns s1 fd g ((m2.owns fd g).mp ho)
        rcases m3 with m3 | m3
        · rw [m3]; exact d2
        · exact fun ho => release_owns s2 fd g ((m3.owns fd g).mp ho)
      · intro g base r0 hF
        refine ⟨by simp, ?_⟩
        rw [List.append_nil]
        obtain ⟨l, hl⟩ : ∃ l, (st w1.trace).loggedTo g = (st w.trace).loggedTo g ++ l := by
          refine loggedTo_grows ?_ g
          obtain ⟨a, ha⟩ := Meanwhile.logged_grows m1
          obtain ⟨b, hb⟩ := Meanwhile.logged_grows m2
          have e1 : (s1.release fd).logged = s1.logged := rfl
          rw [e1, ha] at hb
          rcases m3 with m3 | m3
          · exact ⟨a ++ b, by rw [m3, hb, List.append_assoc]⟩
          · obtain ⟨c, hc⟩ := Meanwhile.logged_grows m3
            have e2 : (s2.release fd).logged = s2.logged := rfl
            rw [e2, hb] at hc
            exact ⟨a ++ (b ++ c), by rw [hc]; simp⟩
        exact ⟨_, by rw [hl, hF.flow, List.append_assoc]⟩

/-- A start that returned nil, with a copy range of 0 or at least 57: the socket is ready for reading. -/
theorem start_reading {env : Env} {F : Nat → Prop} {K : Kernel LEv} {st : List (Ev LEv) → KState} (hK : Keeps env.e F K st)
    {groups : List U16} {size : U32} {cb ecb : Option Nat} {w w1 : W} (hsize : size.toNat = 0 ∨ 57 ≤ size.toNat)
    (h : bindAndListen env K groups size cb ecb w = .ok (none, w1)) :
    ∃ evs fd, w1.trace = w.trace ++ evs ∧ OpenOn w1 fd ∧ Began env.e F groups size.toNat fd evs (st w.trace) (st w1.trace) ∧
      Reading (fun g => ∃ x ∈ groups, x.toNat = g) fd (st w1.trace) := by
  obtain ⟨fd, bevs, opts, ev1, ev2, hfd, ht, hb, hopt, g1, g2⟩ := start_fd h
  obtain ⟨evs, ht', hg⟩ := records_bindAndListen env groups size cb ecb w none w1 h
  have he : evs = [.socket 16 3 12 (.ok fd)] ++ bevs ++ opts ++ ev1 ++ ev2 ++ [.app .spawnReader] := List.append_cancel_left (ht'.symm.trans ht)
  have hr := Run.of_genuine hK hg
  rw [← ht'] at hr
  subst he
  have hB := started_began hb hopt g1 g2 hr
  refine ⟨_, fd, ht, hfd, hB, ?_, hB.tidy, hB.sorted, hB.only⟩
  obtain ⟨t5, hr, r6⟩ := hr.split
  obtain ⟨t4, hr, r5⟩ := hr.split
  obtain ⟨t3, hr, r4⟩ := hr.split
  obtain ⟨t2, hr, r3⟩ := hr.split
  obtain ⟨t1, r1, r2⟩ := hr.split
  obtain ⟨s0, m0, hno, hin, m1⟩ := r1.opened
  have m3 : Meanwhile F s0 t3 := (m1.trans (r2.of_silent (bind_silent hb))).trans (r3.of_silent (opt_silent hopt))
  have hclip : 57 ≤ clip size.toNat ∧ clip size.toNat ≤ 65531 := by
    unfold clip
    split <;> omega
  have c1 : Shown (fun r => 57 ≤ r ∧ r ≤ 65531) fd t4 :=
    Shown.groupsOut ⟨by omega, by omega⟩ g1 (fun _ _ => trivial) (m3.shown (.start hno hin)) r4
  have c2 : Shown (fun r => 57 ≤ r ∧ r ≤ 65531) fd t5 :=
    Shown.groupsOut (P := fun r => 57 ≤ r ∧ r ≤ 65531) ⟨by omega, by omega⟩ g2 (fun _ _ => hclip) c1 r5
  exact (Run.app r6).shown c2

/-- C138: on a kernel that keeps log groups, with a copy range of 0 or at least 57, when only ordinary packets are logged to the groups asked for and callbacks
leave log groups alone: after a start that returned nil the reader never crashes, however many turns it makes and whatever is received.  It reports to the log callback,
in order, each once, entries `read`; to the error callback each receive that failed, and nothing else.  For every group that was free and
that no other program uses, what was logged to it since the start is, in order: what the start itself received and dropped (nothing if no log arrived
during it); then what was reported; then, as long as the reader goes on, what is still to be received.  It stops only when a
receive fails with something else than ENOBUFS (105); then no group belongs to the socket any more. -/
theorem C138_reported (env : Env) (he : env.e = .little) (F : Nat → Prop) (K : Kernel LEv) (st : List (Ev LEv) → KState) (hK : Keeps .little F K st)
    (hc : Calm env K) (groups : List U16) (size : U32) (hsize : size.toNat = 0 ∨ 57 ≤ size.toNat) (cb : Nat) (ecb : Option Nat)
    (hP : ∀ tr, ∀ x ∈ (st tr).logged, (∃ g ∈ groups, g.toNat = x.group) → Ordinary x.packet)
    (w w1 : W) (h : bindAndListen env K groups size (some cb) ecb w = .ok (none, w1)) :
    ∃ start fd lost, w1.trace = w.trace ++ start ∧ OpenOn w1 fd ∧ (logDatagrams .little start = [] → lost = []) ∧
      ∀ n, ∃ fin w' evs ms read, readLogs env K n w1 = .ok (fin, w') ∧ w'.trace = w1.trace ++ evs ∧
        logs evs = ms.map (cb, ·) ∧ Reports ms read ∧ errors evs = (failures evs).flatMap (told ecb) ∧
        (fin = false → ∀ e ∈ failures evs, e = 105) ∧
        (fin = true → ∃ early e, failures evs = early ++ [e] ∧ e ≠ 105 ∧ (∀ x ∈ early, x = 105) ∧ ∀ g, ¬ (st w'.trace).Owns fd g) ∧
        ∀ g, ¬ F g → Free (st w.trace) g → ∃ rest,
          (st w'.trace).loggedTo g = (st w.trace).loggedTo g ++ (lost.filter fun x => decide (x.group = g)) ++
            (read.filter fun x => decide (x.group = g)) ++ rest ∧ (fin = false → rest = (st w'.trace).pending fd g) := by
  have hK' : Keeps env.e F K st := by rw [he]; exact hK
  obtain ⟨start, fd, ht, ⟨k, ho⟩, hB, hR⟩ := start_reading hK' hsize h
  obtain ⟨_, _, _, h32⟩ := C32_outcomes env K groups size (some cb) ecb w w1 none h
  obtain ⟨hcb, hecb, _⟩ := h32 rfl
  obtain ⟨lost, hl1, hl2, hl3⟩ := hB.flow
  rw [he] at hl1
  refine ⟨start, fd, lost, ht, ⟨k, ho⟩, hl1, fun n => ?_⟩
  obtain ⟨fin, w', evs, ms, read, a1, a2, a3, a4, a5, a6, a7, a8, a9, a10⟩ := turns hc hK hP n w1 ho hcb hR
  rw [hecb] at a6
  refine ⟨fin, w', evs, ms, read, a1, a3, a4, a5, a6, a7, a9, fun g hF hf => ?_⟩
  have hu : Usable F fd g (st w1.trace) := by
    by_cases hg : ∃ x ∈ groups, x.toNat = g
    · obtain ⟨x, hx, rfl⟩ := hg
      obtain ⟨q, hq, hqo, _⟩ := hB.bound x hx hF hf
      exact .inl ⟨q, hq, hqo⟩
    · refine .inr ⟨?_, hF⟩
      rw [← conf_none, hB.rest g hF (.inl fun x hx hc => hg ⟨x, hx, hc⟩), conf_none]
      exact hf
  obtain ⟨b1, rest, b2⟩ := a10 g ((st w.trace).loggedTo g ++ lost.filter fun x => decide (x.group = g)) [] ⟨hu, by simpa using hl3 g hF hf⟩
  rw [List.nil_append] at b1 b2
  cases fin with
  | true => exact ⟨rest, b2, by simp⟩
  | false => exact ⟨_, (b1 rfl).flow, fun _ => rfl⟩

/-- C138: and if moreover the calls of the kernel do not fail, then what lies in the socket is reported, oldest first: after `n` turns the
entries of the first `n` things that lay in it. -/
theorem C138_delivered (env : Env) (he : env.e = .little) (F : Nat → Prop) (K : Kernel LEv) (st : List (Ev LEv) → KState) (hK : Keeps .little F K st)
    (hH : Healthy K st) (hc : Calm env K) (groups : List U16) (size : U32) (hsize : size.toNat = 0 ∨ 57 ≤ size.toNat) (cb : Nat) (ecb : Option Nat)
    (hP : ∀ tr, ∀ x ∈ (st tr).logged, (∃ g ∈ groups, g.toNat = x.group) → Ordinary x.packet)
    (w w1 : W) (h : bindAndListen env K groups size (some cb) ecb w = .ok (none, w1)) :
    ∃ fd, OpenOn w1 fd ∧ ∀ n, n ≤ ((st w1.trace).inbox fd).length → ∃ w' evs ms, readLogs env K n w1 = .ok (false, w') ∧
      w'.trace = w1.trace ++ evs ∧ logs evs = ms.map (cb, ·) ∧ Reports ms (entriesOf (((st w1.trace).inbox fd).take n)) ∧ errors evs = [] := by
  have hK' : Keeps env.e F K st := by rw [he]; exact hK
  obtain ⟨start, fd, ht, ⟨k, ho⟩, hB, hR⟩ := start_reading hK' hsize h
  obtain ⟨_, _, _, h32⟩ := C32_outcomes env K groups size (some cb) ecb w w1 none h
  obtain ⟨hcb, hecb, _⟩ := h32 rfl
  refine ⟨fd, ⟨k, ho⟩, ?_⟩
  have key : ∀ (a : List Note) (w : W) (more : List Note), w.st.socket = some ⟨fd, k⟩ → w.st.callback = some cb →
      Reading (fun g => ∃ x ∈ groups, x.toNat = g) fd (st w.trace) → (st w.trace).inbox fd = a ++ more →
      ∃ w' evs ms, readLogs env K a.length w = .ok (false, w') ∧ w'.trace = w.trace ++ evs ∧ logs evs = ms.map (cb, ·) ∧
        Reports ms (entriesOf a) ∧ errors evs = [] := by
    intro a
    induction a with
    | nil => intro w more _ _ _ _; exact ⟨w, [], [], rfl, by simp, rfl, .nil, rfl⟩
    | cons x a ih =>
      intro w more hs hcb hR hin
      obtain ⟨fin1, w1, ev1, h1, hst1, ht1, hok, hT⟩ := turn hc hK hs hcb
        (fun ev s1 x rest m1 hin m2 => next_enough hR m1 hin m2 (hP _))
      obtain ⟨d, hd⟩ := hH.recv w.trace fd (by rw [hin]; simp)
      have hnf := hok d hd
      cases hT with
      | overrun _ _ _ _ hf => rw [hnf] at hf; cases hf
      | failed _ _ _ _ hf => rw [hnf] at hf; cases hf
      | @got s1 y rest ms1 hf m1 hin1 m2 hl1 hr1 he1 _ =>
        subst hf
        obtain ⟨l1, hl⟩ := m1.inbox_grows fd
        rw [hin1, hin, List.cons_append, List.cons_append, List.cons.injEq] at hl
        obtain ⟨rfl, hrest⟩ := hl
        obtain ⟨l2, hl2⟩ := m2.inbox_grows fd
        rw [setInbox_same, hrest, List.append_assoc, List.append_assoc] at hl2
        obtain ⟨w', ev2, ms2, h2, ht2, hlg2, hr2, he2⟩ := ih w1 _ (by rw [hst1]; exact hs) (by rw [hst1]; exact hcb)
          (((hR.meanwhile m1).popped hin1).meanwhile m2) hl2
        refine ⟨w', ev1 ++ ev2, ms1 ++ ms2, ?_, by rw [ht2, ht1, List.append_assoc], by rw [logs_append, hl1, hlg2, List.map_append], ?_,
          by rw [errors_append, he1, he2]; rfl⟩
        · show (readIter env K >>= fun b => if b then pure true else readLogs env K a.length) w = _
          rw [GoM.bind_apply, h1, Res.ok_bind]
          exact h2
        · have e1 : entriesOf (y :: a) = entriesOf [y] ++ entriesOf a := by rw [← entriesOf_append]; rfl
          rw [e1]
          exact hr1.append hr2
  intro n hn
  have := key (((st w1.trace).inbox fd).take n) w1 (((st w1.trace).inbox fd).drop n) ho hcb hR (List.take_append_drop _ _).symm
  rw [List.length_take, Nat.min_eq_left hn] at this
  exact this

/-! ### A concrete case -/

/-- The script logged what it was told to log. -/
theorem scripted_logged (e : Endian) (s0 : KState) (script : List (Ev LEv) → List Act) (Q : Nat → List Byte → Prop) (h0 : s0.logged = [])
    (hs : ∀ tr g pfx p, Act.log g pfx p ∈ script tr → Q g p) : ∀ tr, ∀ x ∈ (stateAfter e s0 script tr).logged, Q x.group x.packet := by
  have acts : ∀ (l : List Act) (s : KState), (∀ g pfx p, Act.log g pfx p ∈ l → Q g p) → (∀ x ∈ s.logged, Q x.group x.packet) →
      ∀ x ∈ (l.foldl (KState.act e) s).logged, Q x.group x.packet := by
    intro l
    induction l with
    | nil => intro s _ h; exact h
    | cons a l ih =>
      intro s hl h
      rw [List.foldl_cons]
      refine ih _ (fun g pfx p hm => hl g pfx p (by simp [hm])) ?_
      intro x hx
      cases a with
      | log g pfx p =>
        unfold KState.act at hx
        simp only at hx
        split at hx
        · split at hx
          · rw [log_logged] at hx
            rcases List.mem_append.mp hx with hx | hx
            · exact h x hx
            · simp only [List.mem_singleton] at hx
              subst hx
              exact hl g pfx p (by simp)
          · exact h x hx
        · exact h x hx
      | flush g =>
        unfold KState.act at hx
        simp only at hx
        split at hx
        · split at hx
          · exact h x hx
          · rw [flush_logged] at hx; exact h x hx
        · exact h x hx
  have config : ∀ (s : KState) (fd : Nat) (m : NfMsg), (s.config fd m).2.logged = s.logged := by
    intro s fd m
    unfold KState.config
    simp only
    repeat' split
    all_goals rfl
  have after : ∀ (s : KState) (o : List Nat) (ev : Ev LEv), (s.after e o ev).logged = s.logged := by
    intro s o ev
    have serve : ∀ fd b, (s.serve e fd b).2.logged = s.logged := by
      intro fd b
      unfold KState.serve
      repeat' split
      all_goals first | rfl | exact config _ _ _
    have answer : ∀ (t : KState) fd b c, (t.answer e fd b c).logged = t.logged := by
      intro t fd b c
      unfold KState.answer
      split <;> rfl
    unfold KState.after
    split
    · rfl
    · rfl
    · split
      · split
        · rw [answer, serve]
        · rfl
      · rfl
  refine snoc_ind ?_ ?_
  · intro x hx
    have : (stateAfter e s0 script []).logged = [] := h0
    rw [this] at hx; cases hx
  · intro tr ev ih
    rw [stateAfter_snoc]
    refine acts _ _ (fun g pfx p hm => hs _ g pfx p hm) ?_
    intro x hx
    rw [after] at hx
    exact ih x hx

theorem someEnv_calm (K : Kernel LEv) : Calm someEnv K where
  toQuiet := someEnv_quiet
  calls w evs h := by
    have : evs = [] := by
      have h' : w.trace = w.trace ++ evs := h
      simpa using h'.symm
    subst this
    exact ⟨.nil, by simp⟩

/-- When the reader is started, two packets are logged to group 10, the first one under the prefix "A", and sent. -/
def twoLogs (tr : List (Ev LEv)) : List Act :=
  match tr.getLast? with
  | some (.app .spawnReader) => [.log 10 (some [65]) tcp44, .log 10 none tcp44, .flush 10]
  | _ => []

/-- After a start for groups 10 and 11 they lie in the socket. -/
def twoReady : Bool :=
  match bindAndListen someEnv (groupKernel .little someGroups twoLogs) [10, 11] 64 (some 1) (some 2) ⟨[], ⟨[]⟩, newNFLog⟩ with
  | .ok (none, w') => decide (w'.st.socket.map (·.fd) = some 3) &&
      decide ((stateAfter .little someGroups twoLogs w'.trace).inbox 3 = [.logs [⟨10, some [65], tcp44, 64⟩, ⟨10, none, tcp44, 64⟩]])
  | _ => false

theorem twoReady_true : twoReady = true := by decide +kernel

theorem twoLogs_ordinary (tr : List (Ev LEv)) : ∀ x ∈ (stateAfter .little someGroups twoLogs tr).logged, Ordinary x.packet :=
  scripted_logged .little someGroups twoLogs (fun _ p => Ordinary p) rfl (by
    intro tr g pfx p h
    unfold twoLogs at h
    split at h
    · simp only [List.mem_cons, Act.log.injEq, List.not_mem_nil, or_false, reduceCtorEq] at h
      rcases h with ⟨_, _, rfl⟩ | ⟨_, _, rfl⟩ <;> exact ⟨tcp44_whole, .inl (by decide)⟩
    · cases h) tr

/-- C138, a concrete case: the first turn of the reader reports the two packets, from port 1234. -/
theorem C138_example : ∃ w1 w' evs a b, bindAndListen someEnv (groupKernel .little someGroups twoLogs) [10, 11] 64 (some 1) (some 2)
      ⟨[], ⟨[]⟩, newNFLog⟩ = .ok (none, w1) ∧ readLogs someEnv (groupKernel .little someGroups twoLogs) 1 w1 = .ok (false, w') ∧
    w'.trace = w1.trace ++ evs ∧ logs evs = [(1, a), (1, b)] ∧ a.prefix' = [65] ∧ b.prefix' = [] ∧ a.length = 44 ∧ b.srcPort = 1234 := by
  have ht := twoReady_true
  unfold twoReady at ht
  split at ht
  · rename_i w1 h
    simp only [Bool.and_eq_true, decide_eq_true_eq] at ht
    obtain ⟨h1, h2⟩ := ht
    obtain ⟨fd, ⟨k, ho⟩, hrun⟩ := C138_delivered someEnv rfl (fun _ => False) _ _ (groupKernel_keeps .little someGroups_untouched twoLogs _)
      (groupKernel_healthy _ _ _) (someEnv_calm _) [10, 11] 64 (.inr (by decide)) 1 (some 2) (fun tr x hx _ => twoLogs_ordinary tr x hx) _ w1 h
    have hfd : fd = 3 := by
      rw [ho] at h1
      simpa using h1
    subst hfd
    have h2 : (stateAfter .little someGroups twoLogs w1.trace).inbox 3 = _ := h2
    obtain ⟨w', evs, ms, a1, a2, a3, a4, _⟩ := hrun 1 (by rw [h2]; decide)
    rw [h2] at a4
    have e1 : entriesOf (List.take 1 [Note.logs [⟨10, some [65], tcp44, 64⟩, ⟨10, none, tcp44, 64⟩]]) =
      [⟨10, some [65], tcp44, 64⟩, ⟨10, none, tcp44, 64⟩] := by simp
    rw [e1] at a4
    cases a4 with
    | @cons a _ ms _ ha a4 =>
      cases a4 with
      | @cons b _ ms _ hb a4 =>
        cases a4
        have facts : ∀ {m : NfPacket} {pfx pay : List Byte}, Describes m pfx pay tcp44 → m.prefix' = pfx ∧ m.length = 44 ∧ m.srcPort = 1234 := by
          intro m pfx pay hd
          obtain ⟨p1, _, hd⟩ := hd
          refine ⟨p1, ?_⟩
          rcases hd with ⟨_, hpr, hl, _, _, _, hports, _⟩ | ⟨⟨x, hx, hne⟩, _⟩
          · have hp6 : m.protocol = 6 := by simpa [tcp44] using hpr.symm
            obtain ⟨hs, _⟩ := hports (.inl (by rw [hp6]; rfl))
            have hl' : be16 tcp44 2 = some 44 := by decide
            have hs' : be16 tcp44 20 = some 1234 := by decide
            have hl2 := hl'.symm.trans hl
            have hs2 := hs'.symm.trans hs
            refine ⟨?_, ?_⟩
            · apply BitVec.eq_of_toNat_eq; simpa using hl2.symm
            · apply BitVec.eq_of_toNat_eq; simpa using hs2.symm
          · have : tcp44[0]? = some 0x45 := by decide
            rw [this] at hx
            simp only [Option.some.injEq] at hx
            subst hx
            exact absurd rfl hne
        refine ⟨w1, w', evs, a, b, h, a1, a2, by rw [a3]; rfl, ?_, ?_, ?_, ?_⟩
        · exact (facts ha).1
        · exact (facts hb).1
        · exact (facts ha).2.1
        · exact (facts hb).2.2
  · cases ht

end Verif.Props.Log
