import Verif.Props.ConntrackTable
import Verif.Props.ConntrackFlows
/-!
C129, C130 on a kernel whose system calls do not fail: the outcome is determined.  The kernel `tableKernel` meets all the hypotheses, for
every initial table.
-/
namespace Verif.Props.Ct
open Verif.Conntrack Verif.Sys Verif.Spec Verif.Common

/-! ### The hypotheses can be met -/

/-- The codes the kernel answers with are small. -/
theorem serve_code (e : Endian) (b : List Byte) (t : Table) : (serve e b t).1 ≤ 0 ∧ -34 ≤ (serve e b t).1 := by
  have hch : ∀ (x : Entry) (as : List Attr), (x.change e as).1 ≤ 0 ∧ -34 ≤ (x.change e as).1 := by
    intro x as
    unfold Entry.change
    split
    · constructor <;> simp
    · dsimp only
      split
      · constructor <;> simp
      · split <;> constructor <;> simp
  unfold serve
  split
  · split
    · split
      · split
        · exact hch _ _
        · constructor <;> simp
      · constructor <;> simp
    · constructor <;> simp
  · constructor <;> simp

/-- For every initial table there is a kernel that keeps it and serves requests on it, undisturbed and without failing. -/
theorem tableKernel_keeps (e : Endian) (t0 : Table) :
    KeepsTable e (tableKernel e t0) (replay e t0) ∧ Undisturbed (replay e t0) ∧ Works (tableKernel e t0) ∧ replay e t0 [] = t0 := by
  refine ⟨⟨?_, ?_⟩, ?_, ⟨fun _ => ⟨3, rfl⟩, fun _ _ => rfl, fun _ _ _ => rfl, fun _ _ => ⟨_, rfl⟩⟩, rfl⟩
  · intro tr fd b f
    simp [replay]
  · intro tr fd b f d hd
    have : (tableKernel e t0).recv (tr ++ [.sendto fd b f none]) fd = .ok (replyBytes e (serve e b (replay e t0 tr)).1) := by
      simp [tableKernel]
    rw [this, Except.ok.injEq] at hd
    subst hd
    obtain ⟨h1, h2⟩ := serve_code e b (replay e t0 tr)
    exact replyBytes_is e ⟨h1, by omega⟩
  · intro tr ev hev
    unfold replay
    rw [List.foldl_append]
    simp only [List.foldl_cons, List.foldl_nil]
    split
    · cases hev
    · rfl

/-! ### Labels on a kernel that works -/

theorem labelCall_works {env : Env} {K : Kernel CEv} {tab : List (Ev CEv) → Table} (hK : KeepsTable env.e K tab) (hU : Undisturbed tab)
    (hW : Works K) {ipSrc ipDst : String} {p : Byte} {sp dp : U16} {c : Conn} (l : U32) (h : Names env ipSrc ipDst p sp dp c) (hp : p ≠ 6)
    (w : W) : ∃ r w', labelCall env K ipSrc ipDst p sp dp l w = .ok (r, w') ∧
      ((¬ (tab w.trace).Has c ∧ r = some (.netlink (-2)) ∧ tab w'.trace = tab w.trace) ∨
       ∃ x ∈ tab w.trace, x.Is c ∧ r = (if x.labels = none then some (.netlink (-28)) else none) ∧
         tab w'.trace = (tab w.trace).setLabels c (bytes32 env.e l.toNat)) := by
  obtain ⟨r, w', hr⟩ : ∃ r w', labelCall env K ipSrc ipDst p sp dp l w = .ok (r, w') := by
    unfold labelCall
    simp only [GoM.bind_apply, GoM.lift_apply, labelMessage_eq env l h.taken hp, Res.ok_bind]
    exact sendMessage_table_returns hK hW _ _ (by simp) w
  refine ⟨r, w', hr, ?_⟩
  unfold labelCall at hr
  simp only [GoM.bind_apply, GoM.lift_apply, labelMessage_eq env l h.taken hp, Res.ok_bind] at hr
  obtain ⟨hs, hd⟩ := names_len h.taken
  obtain ⟨evs, h1, h2, hno⟩ := sendMessage_table (req := LabelReq env.e c l) hK (labelReq_ok env.e hs hd l) (by simp) hr
  cases h2 with
  | @unsent _ n hn => exact absurd rfl (hno hW n).1
  | @served pre fd b post r ha hb hq hcode =>
    have hpre : tab (w.trace ++ pre) = tab w.trace := hU.past _ _ ha
    have hfin : tab w'.trace = (serve env.e b (tab w.trace)).2 := by
      have : w.trace ++ (pre ++ Ev.sendto fd b 0 none :: post) = w.trace ++ pre ++ [.sendto fd b 0 none] ++ post := by simp
      rw [h1, this, hU.past _ _ hb, hK.serves, hpre]
    rw [hpre] at hcode
    have hc : r = (if (serve env.e b (tab w.trace)).1 = 0 then none else some (.netlink (serve env.e b (tab w.trace)).1)) := by
      rcases hcode with hc | ⟨n, hc⟩
      · exact hc
      · exact absurd hc (hno hW n).2
    rcases serve_label hq (tab w.trace) with ⟨hn, hx⟩ | ⟨x, hx1, hx2, hx⟩
    · rw [hx] at hfin hc
      exact .inl ⟨hn, by rw [hc]; rfl, hfin⟩
    · rw [hx] at hfin hc
      refine .inr ⟨x, hx1, hx2, ?_, hfin⟩
      rw [hc]
      by_cases hl : x.labels = none
      · simp [hl]
      · simp [hl]

theorem labelLoop_returns {env : Env} {K : Kernel CEv} {tab : List (Ev CEv) → Table} (hK : KeepsTable env.e K tab) (hU : Undisturbed tab)
    (hW : Works K) {ipSrc ipDst : String} {p : Byte} {sp dp : U16} {c : Conn} {l : U32} (h : Names env ipSrc ipDst p sp dp c) (hp : p ≠ 6) :
    ∀ (flows : List Flow) (k : Nat) (w : W), (∀ f ∈ flows, V4Flow f) →
      ∃ n r w', labelLoop env K ipSrc ipDst p sp dp l flows k w = .ok ((n, r), w') := by
  intro flows
  induction flows with
  | nil => intro k w _; exact ⟨_, _, _, rfl⟩
  | cons f fs ih =>
    intro k w hf
    have hfs : ∀ f ∈ fs, V4Flow f := fun g hg => hf g (List.mem_cons_of_mem _ hg)
    unfold labelLoop
    simp only [GoM.bind_apply, GoM.lift_apply, check_v4 env h (hf f (List.mem_cons_self ..)), Res.ok_bind]
    by_cases hF : FlowOf f c
    · obtain ⟨hdr, data, hmsg, _⟩ := labelMessage_ok env l h
      obtain ⟨r, w1, h1, _⟩ := labelCall_works hK hU hW l h hp w
      unfold labelCall at h1
      simp only [GoM.bind_apply, GoM.lift_apply, hmsg, Res.ok_bind] at h1
      simp only [hF, decide_true, if_true, GoM.bind_apply, GoM.lift_apply, hmsg, Res.ok_bind, h1]
      rcases r with _ | err
      · exact ih _ _ hfs
      · exact ⟨_, _, _, rfl⟩
    · simp only [hF, decide_false, Bool.false_eq_true, if_false]
      exact ih _ _ hfs

/-- C130, for protocols other than TCP, on a kernel whose system calls do not fail: what a label update of the connection `c` does is
determined.  No entry of `c` in the table: 0 entries updated, no error.  An entry with a label area: one updated, no error, and the table is
the old one with these labels.  An entry without: an error (ENOSPC), and the table is as it was. -/
theorem C130_label_works_partial {env : Env} {K : Kernel CEv} {tab : List (Ev CEv) → Table} (hK : KeepsTable env.e K tab)
    (hU : Undisturbed tab) (hW : Works K) {ipSrc ipDst : String} {p : Byte} {sp dp : U16} {c : Conn} {l : U32}
    (h : Names env ipSrc ipDst p sp dp c) (hp : p ≠ 6) (w : W) (ht : (tab w.trace).Ok) :
    ∃ n r w', updateLabel env K (tab w.trace).listed ipSrc ipDst p sp dp l w = .ok ((n, r), w') ∧
      (((∀ x ∈ tab w.trace, ¬ Entry.Plain x c) ∧ n = 0 ∧ r = none ∧ tab w'.trace = tab w.trace) ∨
       (∃ x ∈ tab w.trace, Entry.Plain x c ∧ x.labels ≠ none ∧ n = 1 ∧ r = none ∧
         tab w'.trace = labelPlain (tab w.trace) c (bytes32 env.e l.toNat)) ∨
       (∃ x ∈ tab w.trace, Entry.Plain x c ∧ x.labels = none ∧ n = 0 ∧ r = some (.netlink (-28)) ∧ tab w'.trace = tab w.trace)) := by
  obtain ⟨k, r, w', hl⟩ := labelLoop_returns hK hU hW (l := l) h hp (tab w.trace).listed 0 w (listed_v4 ht)
  have hr := bulkLabel_eq env K _ ipSrc ipDst p sp dp l w w' k r hl
  refine ⟨_, _, w', hr, ?_⟩
  obtain ⟨hc, hk⟩ := labelLoop_calls env K h _ 0 k r w w' (listed_v4 ht) hl
  rw [matching_listed c ht.v4] at hc hk
  have hle := C129_at_most_one ht c
  have hpart := C130_list_and_label_partial hK hU h hp w w' ht _ _ hr
  by_cases h0 : (tab w.trace).countP (fun x => decide (Entry.Plain x c)) = 0
  · rw [h0] at hc hk
    cases hc
    refine .inl ⟨?_, by simpa using hk, rfl, rfl⟩
    intro x hx hpl
    have := (List.countP_eq_zero.mp h0) x hx
    simp [hpl] at this
  · have h1 : (tab w.trace).countP (fun x => decide (Entry.Plain x c)) = 1 := by omega
    obtain ⟨r1, w1, hcall, ⟨hn, _⟩ | ⟨x, hx, hxc, hr1, htab⟩⟩ := labelCall_works hK hU hW l h hp w
    · exact absurd (plain_has h0) hn
    have hpl := plain_only ht.unique (by omega) x hx hxc
    rw [h1] at hc hk
    by_cases hlab : x.labels = none
    · rw [if_pos hlab] at hr1
      subst hr1
      refine .inr (.inr ⟨x, hx, hpl, hlab, ?_⟩)
      have hsame : (tab w.trace).setLabels c (bytes32 env.e l.toNat) = tab w.trace := by
        unfold Table.setLabels
        conv => rhs; rw [← List.map_id (tab w.trace)]
        apply List.map_congr_left
        intro y hy
        by_cases hyc : y.Is c
        · have hyx : y = x := by
            have hyp := plain_only ht.unique (by omega) y hy hyc
            have hu := ht.unique
            rcases Decidable.em (y = x) with hxy | hxy
            · exact hxy
            · rcases List.mem_iff_getElem.mp hx with ⟨i, hi, rfl⟩
              rcases List.mem_iff_getElem.mp hy with ⟨j, hj, rfl⟩
              have hij : i ≠ j := by rintro rfl; exact hxy rfl
              rw [List.pairwise_iff_getElem] at hu
              rcases Nat.lt_or_gt_of_ne hij with hlt | hlt
              · exact absurd ⟨hxc, hyc⟩ (hu i j hi hj hlt c)
              · exact absurd ⟨hyc, hxc⟩ (hu j i hj hi hlt c)
          subst hyx
          rw [if_pos hyc, hlab]
          rcases y with ⟨a, b, m, lab⟩
          simp only at hlab
          subst hlab
          rfl
        · rw [if_neg hyc]; rfl
      cases hc with
      | cons h' _ => rw [hcall] at h'; cases h'
      | stop h' =>
        rw [hcall] at h'
        simp only [Res.ok.injEq, Prod.mk.injEq, Option.some.injEq] at h'
        obtain ⟨rfl, rfl⟩ := h'
        exact ⟨by simp, rfl, by rw [htab, hsame]⟩
    · rw [if_neg hlab] at hr1
      subst hr1
      refine .inr (.inl ⟨x, hx, hpl, hlab, ?_⟩)
      cases hc with
      | cons h' hrest =>
        cases hrest
        exact ⟨by rw [(hpart.1 rfl).1, h1]; rfl, rfl, (hpart.1 rfl).2⟩
      | stop h' => rw [hcall] at h'; cases h'

/-! ### The example program on a kernel that keeps a table -/

theorem ok_getFirst {x : Entry} {t : Table} (ht : Table.Ok (x :: t)) {c : Conn} (hx : Entry.Plain x c) :
    (x :: t).countP (fun x => decide (Entry.Plain x c)) = 1 := by
  have := C129_at_most_one ht c
  rw [List.countP_cons_of_pos (by simpa using hx)] at this ⊢
  omega

/-- C129: the example program (conntrack/examples/example) on a kernel that keeps a table, whose first entry is a connection that is not
translated: it sets the mark of that entry to 42, changes nothing else, reports one update and no error. -/
theorem C129_example {env : Env} {K : Kernel CEv} {tab : List (Ev CEv) → Table} (hK : KeepsTable env.e K tab) (hU : Undisturbed tab)
    (hW : Works K) (hp : ReadsPrinted env) (w : W) {x : Entry} {t : Table} (hw : tab w.trace = x :: t) (ht : Table.Ok (x :: t))
    (hx : x.reply = x.orig.mirror) :
    ∃ w', exampleMain env K (fun tr => (some (tab tr).listed, none)) w = .ok (⟨1, none, ⟨x.orig.tuple, x.reply.tuple⟩⟩, w') ∧
      tab w'.trace = { x with mark := 42 } :: t := by
  have hpl : Entry.Plain x x.orig := ⟨rfl, hx⟩
  have hv := ht.v4 x (List.mem_cons_self ..)
  have hN : Names env (ipStr x.orig.src) (ipStr x.orig.dst) x.orig.proto x.orig.sport x.orig.dport x.orig :=
    ⟨hp _ hv.1, hp _ hv.2.1, rfl, rfl, rfl⟩
  obtain ⟨w', h1, h2⟩ := C129_list_and_mark_works hK hU hW hN (mark := 42) (by decide) w (hw ▸ ht)
  have hone : (tab w.trace).countP (fun y => decide (Entry.Plain y x.orig)) = 1 := by rw [hw]; exact ok_getFirst ht hpl
  rw [hone] at h1
  have hfin : tab w'.trace = { x with mark := 42 } :: t := by
    rw [h2, hw]
    unfold markPlain
    rw [List.map_cons, if_pos hpl]
    congr 1
    conv => rhs; rw [← List.map_id t]
    apply List.map_congr_left
    intro y hy
    rw [if_neg]
    · rfl
    · intro hyp
      exact (List.pairwise_cons.mp ht.unique).1 y hy x.orig ⟨.inl rfl, .inl hyp.1⟩
  refine ⟨w', ?_, hfin⟩
  have hl : (tab w.trace).listed = ⟨x.orig.tuple, x.reply.tuple⟩ :: Table.listed t := by rw [hw]; rfl
  rw [hl] at h1
  exact exampleMain_eq env K _ w (f := ⟨x.orig.tuple, x.reply.tuple⟩) (rest := Table.listed t)
    (by unfold Lists; simp only [hl]) h1 (g := ⟨x.orig.tuple, x.reply.tuple⟩) (rest' := Table.listed t)
    (by unfold Lists; simp only [hfin]; rfl)

/-! ### Concrete cases -/

/-- A table: a UDP connection with labels, one without a label area, and a translated TCP connection followed by a plain one. -/
def sampleTable : Table :=
  [⟨sampleConn, sampleConn.mirror, 7, some (List.replicate 16 1)⟩,
   ⟨⟨[10, 0, 0, 3], [10, 0, 0, 2], 17, 1000, 53⟩, ⟨[10, 0, 0, 2], [10, 0, 0, 3], 17, 53, 1000⟩, 0, none⟩,
   ⟨⟨[10, 0, 0, 1], [10, 0, 0, 2], 6, 1001, 80⟩, ⟨[10, 0, 0, 2], [192, 0, 2, 1], 6, 80, 1001⟩, 1, some (List.replicate 16 0)⟩,
   ⟨⟨[10, 0, 0, 1], [10, 0, 0, 2], 6, 1000, 80⟩, ⟨[10, 0, 0, 2], [10, 0, 0, 1], 6, 80, 1000⟩, 1, some (List.replicate 16 0)⟩]

theorem sampleTable_ok : Table.Ok sampleTable := by
  refine ⟨by decide, ?_⟩
  have : sampleTable.Pairwise fun x y => x.orig ≠ y.orig ∧ x.orig ≠ y.reply ∧ x.reply ≠ y.orig ∧ x.reply ≠ y.reply := by decide
  refine this.imp ?_
  rintro x y ⟨h1, h2, h3, h4⟩ c ⟨hx, hy⟩
  rcases hx with rfl | rfl <;> rcases hy with hy | hy
  · exact h1 hy.symm
  · exact h2 hy.symm
  · exact h3 hy.symm
  · exact h4 hy.symm

/-- The hypotheses of all these theorems are met by this kernel and this table; the mark of the first entry becomes 9. -/
example : ∃ w', updateMarkForAvailableFlow sampleEnv (tableKernel .little sampleTable) sampleTable.listed "10.0.0.1" "10.0.0.2" 17 1000 53 9
      sampleWorld = .ok ((1, none), w') ∧
    replay .little sampleTable w'.trace = { sampleTable.head (by decide) with mark := 9 } :: sampleTable.tail := by
  obtain ⟨h1, h2, h3, _⟩ := tableKernel_keeps .little sampleTable
  obtain ⟨w', ha, hb⟩ := C129_list_and_mark_works (env := sampleEnv) h1 h2 h3 sample_names (mark := 9) (by decide) sampleWorld sampleTable_ok
  exact ⟨w', ha, hb⟩

example : ∃ w', updateLabel sampleEnv (tableKernel .little sampleTable) sampleTable.listed "10.0.0.1" "10.0.0.2" 17 1000 53 0x01020304
      sampleWorld = .ok ((1, none), w') ∧
    (replay .little sampleTable w'.trace).head? = some ⟨sampleConn, sampleConn.mirror, 7, some ([4, 3, 2, 1] ++ List.replicate 12 0)⟩ := by
  obtain ⟨h1, h2, h3, _⟩ := tableKernel_keeps .little sampleTable
  obtain ⟨n, r, w', ha, ⟨hno, _⟩ | ⟨x, _, _, _, rfl, rfl, hb⟩ | ⟨x, hx, hpl, hlab, _⟩⟩ :=
    C130_label_works_partial (env := sampleEnv) h1 h2 h3 sample_names (l := 0x01020304) (by decide) sampleWorld sampleTable_ok
  · exact absurd ⟨rfl, rfl⟩ (hno _ (List.mem_cons_self ..))
  · exact ⟨w', ha, by rw [hb]; rfl⟩
  · exact absurd hlab (by
      have : ∀ x ∈ sampleTable, x.orig = sampleConn → x.labels ≠ none := by decide
      exact this x hx hpl.1)

/-- The TCP connection: refused, unchanged. -/
example (w' : W) (n : Int) (r : Option Err)
    (hr : updateLabel sampleEnv (tableKernel .little sampleTable) sampleTable.listed "10.0.0.1" "10.0.0.2" 6 1000 80 5 sampleWorld =
      .ok ((n, r), w')) : r = some (.netlink (-34)) ∧ replay .little sampleTable w'.trace = sampleTable := by
  obtain ⟨h1, h2, h3, _⟩ := tableKernel_keeps .little sampleTable
  have hN : Names sampleEnv "10.0.0.1" "10.0.0.2" 6 1000 80 ⟨[10, 0, 0, 1], [10, 0, 0, 2], 6, 1000, 80⟩ := by unfold Names; decide
  obtain ⟨_, _, hb, hc⟩ := C130_tcp_violated (env := sampleEnv) h1 h2 hN sampleWorld w' sampleTable_ok
    ⟨⟨⟨[10, 0, 0, 1], [10, 0, 0, 2], 6, 1000, 80⟩, ⟨[10, 0, 0, 2], [10, 0, 0, 1], 6, 80, 1000⟩, 1, some (List.replicate 16 0)⟩,
      by decide, rfl, rfl⟩ n r hr
  exact ⟨hc h3, hb⟩

/-- It does return. -/
example : (match updateLabel sampleEnv (tableKernel .little sampleTable) sampleTable.listed "10.0.0.1" "10.0.0.2" 6 1000 80 5 sampleWorld with
    | .ok ((n, r), _) => decide (n = 0 ∧ r = some (.netlink (-34)))
    | _ => false) = true := by decide +kernel

/-- A connection that is not there. -/
example : ∃ r w', updateMark sampleEnv (tableKernel .little []) "10.0.0.1" "10.0.0.2" 17 1000 53 9 sampleWorld = .ok (r, w') ∧
    r = some (.netlink (-2)) := by
  obtain ⟨h1, h2, h3, _⟩ := tableKernel_keeps .little []
  obtain ⟨r, w', ha, _, ⟨⟨x, hx, _⟩, _⟩ | ⟨_, hb⟩⟩ := C129_mark_exact (env := sampleEnv) h1 h2 h3 9 sample_names sampleWorld
  · cases hx
  · exact ⟨r, w', ha, hb⟩

/-- The test of the repository, on this table: two calls, one for a connection that is listed, one for one that is translated. -/
example : ∃ w', markAll sampleEnv (tableKernel .little sampleTable) sampleTable.listed
      [⟨"10.0.0.1", "10.0.0.2", 17, 1000, 53, 33⟩, ⟨"10.0.0.1", "10.0.0.2", 6, 1001, 80, 34⟩] sampleWorld = .ok ([(1, none), (0, none)], w') := by
  obtain ⟨h1, h2, h3, _⟩ := tableKernel_keeps .little sampleTable
  obtain ⟨w', ha, _⟩ := C129_test_mark (env := sampleEnv) h1 h2 h3 sampleTable sampleTable_ok
    [(⟨"10.0.0.1", "10.0.0.2", 17, 1000, 53, 33⟩, sampleConn),
     (⟨"10.0.0.1", "10.0.0.2", 6, 1001, 80, 34⟩, ⟨[10, 0, 0, 1], [10, 0, 0, 2], 6, 1001, 80⟩)] sampleWorld rfl
    (by unfold Names; decide)
  exact ⟨w', ha⟩

/-- The example program on this table. -/
example : ∃ w', exampleMain ⟨.little, parseDotted⟩ (tableKernel .little sampleTable)
      (fun tr => (some (replay .little sampleTable tr).listed, none)) sampleWorld =
      .ok (⟨1, none, ⟨sampleConn.tuple, sampleConn.mirror.tuple⟩⟩, w') ∧
    replay .little sampleTable w'.trace = ⟨sampleConn, sampleConn.mirror, 42, some (List.replicate 16 1)⟩ :: sampleTable.tail := by
  obtain ⟨h1, h2, h3, _⟩ := tableKernel_keeps .little sampleTable
  exact C129_example (env := ⟨.little, parseDotted⟩) h1 h2 h3 (parseDotted_reads .little) sampleWorld rfl sampleTable_ok rfl

end Verif.Props.Ct
