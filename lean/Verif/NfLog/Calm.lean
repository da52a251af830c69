import Verif.NfLog.ReadLoop
import Verif.NfLog.GroupsLemmas
/-! Callbacks that leave the log groups alone, and what the reader does when callbacks are like that. -/
namespace Verif.NfLog
open Common Sys Spec Packet

/-- Callbacks that moreover make only system calls answered by `K`, and none that means anything to log groups. -/
structure Calm (env : Env) (K : Kernel LEv) : Prop extends Quiet env where
  calls : ∀ (w : W) evs, (env.cbEffect w).trace = w.trace ++ evs → Genuine K w.trace evs ∧ ∀ ev ∈ evs, Silent ev

/-- A relation between worlds that covers whatever a call of the log callback does. -/
structure Covers (env : Env) (R : W → W → Prop) : Prop where
  refl : ∀ w, R w w
  trans : ∀ {a b c}, R a b → R b c → R a c
  heap : ∀ (w : W) h, R w { w with heap := h }
  call : ∀ (w : W) cb m, w.st.callback = some cb → R w (env.cbEffect (w.log (.app (.log cb m))))

variable {env : Env} {R : W → W → Prop}

theorem deliver_covered (hR : Covers env R) {payload : List Byte} {n : U16} {m : NfPacket} {w w' : W} {r : Except Err NfPacket}
    (h : deliver env payload n m w = .ok (r, w')) : R w w' := by
  unfold deliver at h
  simp only at h
  obtain ⟨⟨p, err⟩, hN, h⟩ := Res.bind_eq_ok.mp h
  cases err with
  | some err =>
    simp only [Res.ok.injEq, Prod.mk.injEq] at h
    rw [← h.2]
    exact hR.heap _ _
  | none =>
    simp only at h
    obtain ⟨_, _, h⟩ := Res.bind_eq_ok.mp h
    obtain ⟨w1, h1, h⟩ := Res.bind_eq_ok.mp h
    simp only [Res.ok.injEq, Prod.mk.injEq] at h
    rw [← h.2]
    unfold invoke at h1
    simp only at h1
    rcases hcb : w.st.callback with _ | cb
    · rw [hcb] at h1; simp at h1
    · rw [hcb] at h1
      simp only [Res.ok.injEq] at h1
      rw [← h1]
      exact hR.trans (hR.heap _ _) (hR.call _ _ _ hcb)

theorem attrStep_covered (hR : Covers env R) {len type : U16} {rest : List Byte} {m : NfPacket} {w : W}
    {x : Step TlvState (Option Err × W)} (h : attrStep env len type rest m w = .ok x) : R w (stepWorld x) := by
  unfold attrStep at h
  simp only at h
  split at h
  · obtain ⟨_, _, h⟩ := Res.bind_eq_ok.mp h
    simp only [Res.ok.injEq] at h
    rw [← h]
    exact hR.refl w
  · split at h
    · obtain ⟨⟨r, w'⟩, hd, h⟩ := Res.bind_eq_ok.mp h
      have := deliver_covered hR hd
      cases r with
      | error e => simp only [Res.ok.injEq] at h; rw [← h]; exact this
      | ok m => simp only [Res.ok.injEq] at h; rw [← h]; exact this
    · simp only [Res.ok.injEq] at h
      rw [← h]
      exact hR.refl w

theorem tlvBody_covered (hR : Covers env R) {s : TlvState} {x : Step TlvState (Option Err × W)} (h : tlvBody env s = .ok x) :
    R s.w (stepWorld x) := by
  unfold tlvBody at h
  split at h
  · simp only [Res.ok.injEq] at h; rw [← h]; exact hR.refl _
  · split at h
    · simp only [Res.ok.injEq] at h; rw [← h]; exact hR.refl _
    · obtain ⟨_, _, h⟩ := Res.bind_eq_ok.mp h
      obtain ⟨_, _, h⟩ := Res.bind_eq_ok.mp h
      exact attrStep_covered hR h

theorem parsePacket_covered (hR : Covers env R) {b : List Byte} {w w' : W} {r : Option Err} (h : parsePacket env b w = .ok (r, w')) :
    R w w' := by
  unfold parsePacket at h
  refine loop_ok_of_inv (P := fun s => R w s.w) (Q := fun a => R w a.2) ?_ ?_ (hR.refl w) h
  · intro s s' hs hb; exact hR.trans hs (tlvBody_covered hR hb)
  · intro s a hs hb; exact hR.trans hs (tlvBody_covered hR hb)

theorem logBody_covered (hR : Covers env R) {s : List Byte × W} {x : Step (List Byte × W) (Option Err × W)} (h : logBody env s = .ok x) :
    R s.2 (logWorld x) := by
  unfold logBody at h
  split at h
  · simp only [Res.ok.injEq] at h; rw [← h]; exact hR.refl _
  · obtain ⟨⟨n, t⟩, _, h⟩ := Res.bind_eq_ok.mp h
    simp only at h
    split at h
    · simp only [Res.ok.injEq] at h; rw [← h]; exact hR.refl _
    · obtain ⟨⟨r, w1⟩, hm, h⟩ := Res.bind_eq_ok.mp h
      have h1 : R s.2 w1 := by
        unfold parseMessage at hm
        split at hm
        · obtain ⟨b, _, hm⟩ := Res.bind_eq_ok.mp hm
          exact parsePacket_covered hR hm
        · simp only [Res.ok.injEq, Prod.mk.injEq] at hm; rw [← hm.2]; exact hR.refl _
      cases r with
      | some err => simp only [Res.ok.injEq] at h; rw [← h]; exact h1
      | none =>
        simp only at h
        obtain ⟨b, _, h⟩ := Res.bind_eq_ok.mp h
        simp only [Res.ok.injEq] at h; rw [← h]; exact h1

theorem parseLog_covered (hR : Covers env R) {b : List Byte} {w w' : W} {r : Option Err} (h : parseLog env b w = .ok (r, w')) : R w w' := by
  unfold parseLog at h
  refine loop_ok_of_inv (P := fun s => R w s.2) (Q := fun a => R w a.2) ?_ ?_ (hR.refl w) h
  · intro s s' hs hb; exact hR.trans hs (logBody_covered hR hb)
  · intro s a hs hb; exact hR.trans hs (logBody_covered hR hb)

/-- From `w` to `w'` nothing happened that means anything to log groups. -/
def Calmly (K : Kernel LEv) (w w' : W) : Prop := ∃ evs, w'.trace = w.trace ++ evs ∧ Genuine K w.trace evs ∧ ∀ ev ∈ evs, Silent ev

theorem Calmly.refl (K : Kernel LEv) (w : W) : Calmly K w w := ⟨[], by simp, .nil, by simp⟩

theorem Calmly.trans {K : Kernel LEv} {a b c : W} (h : Calmly K a b) (h' : Calmly K b c) : Calmly K a c := by
  obtain ⟨e1, t1, g1, s1⟩ := h
  obtain ⟨e2, t2, g2, s2⟩ := h'
  refine ⟨e1 ++ e2, by rw [t2, t1, List.append_assoc], g1.append (by rw [← t1]; exact g2), fun ev hev => ?_⟩
  exact (List.mem_append.mp hev).elim (s1 ev) (s2 ev)

theorem calm_call {K : Kernel LEv} (hc : Calm env K) (w : W) (a : LEv) : Calmly K w (env.cbEffect (w.log (.app a))) := by
  obtain ⟨evs, ht, _, _⟩ := hc.appends (w.log (.app a))
  obtain ⟨hg, hs⟩ := hc.calls _ _ ht
  refine ⟨.app a :: evs, by rw [ht]; simp [World.log], .cons trivial ?_, fun ev hev => ?_⟩
  · simpa [World.log] using hg
  · rcases List.mem_cons.mp hev with rfl | hev
    · simp [Silent, handedOver]
    · exact hs ev hev

theorem calm_covers {K : Kernel LEv} (hc : Calm env K) : Covers env (Calmly K) where
  refl := Calmly.refl K
  trans h h' := h.trans h'
  heap w h := ⟨[], by simp, .nil, by simp⟩
  call w cb m _ := calm_call hc w _

theorem calm_report {K : Kernel LEv} (hc : Calm env K) {kind : String} {err : Err} {w w' : W} {u : Unit}
    (h : report env kind err w = .ok (u, w')) : Calmly K w w' := by
  unfold report at h
  rcases hcb : w.st.errorCallback with _ | cb
  · rw [hcb] at h
    simp only [Res.ok.injEq, Prod.mk.injEq] at h
    rw [← h.2]; exact .refl K w
  · rw [hcb] at h
    simp only [Res.ok.injEq, Prod.mk.injEq] at h
    rw [← h.2]; exact calm_call hc w _

/-- One turn: a receive, then nothing that matters; if it is the last turn, then the socket is closed. -/
theorem readIter_calm {K : Kernel LEv} (hc : Calm env K) {w w' : W} {sh : Handle} {fin : Bool} (hs : w.st.socket = some sh)
    (h : readIter env K w = .ok (fin, w')) :
    ∃ evs cl, w'.trace = w.trace ++ [.recvfrom sh.fd 65536 0 ((K.recv w.trace sh.fd).map (·.take 65536))] ++ evs ++ cl ∧
      Genuine K w.trace ([.recvfrom sh.fd 65536 0 ((K.recv w.trace sh.fd).map (·.take 65536))] ++ evs ++ cl) ∧ (∀ ev ∈ evs, Silent ev) ∧
      (fin = false → cl = []) ∧ (fin = true → CloseEvs sh.fd cl ∧ ∃ n, K.recv w.trace sh.fd = .error n ∧ n ≠ 105) := by
  unfold readIter at h
  simp only [GoM.bind_apply, getL, Res.ok_bind, hs] at h
  have first : ∀ r, r = (K.recv w.trace sh.fd).map (·.take 65536) → Genuine K w.trace [.recvfrom sh.fd 65536 0 r] :=
    fun r hr => .cons hr .nil
  rcases recvfrom_spec K sh.fd 65536 0 w with ⟨n, hn, hr⟩ | ⟨d, hd, hr⟩
  · rw [hr] at h
    simp only [Res.ok_bind] at h
    unfold handleFailure at h
    obtain ⟨w1, _, hrep, hst, _, _⟩ := report_spec hc.toQuiet "Netlink error" (.errno n)
      ({ w with trace := w.trace ++ [.recvfrom sh.fd 65536 0 (.error n)] } : W)
    obtain ⟨evs, htr, hg, hsil⟩ := calm_report hc hrep
    simp only [GoM.bind_apply, hrep, Res.ok_bind] at h
    have hg1 := (first (.error n) (by rw [hn]; rfl)).append hg
    rw [hn]
    by_cases h105 : n = 105
    · subst h105
      rw [if_pos rfl] at h
      simp only [GoM.pure_apply, Res.ok.injEq, Prod.mk.injEq] at h
      obtain ⟨rfl, rfl⟩ := h
      refine ⟨evs, [], ?_, by rw [List.append_nil]; exact hg1, hsil, fun _ => rfl, by simp⟩
      rw [htr, List.append_nil]; rfl
    · rw [if_neg h105] at h
      have hs1 : w1.st.socket = some sh := by rw [hst]; exact hs
      obtain ⟨rc, cl, hcl, hce⟩ := close_spec K sh.fd w1
      obtain ⟨cl', hcl', hgc⟩ := records_close K sh.fd w1 _ _ hcl
      have : cl' = cl := List.append_cancel_left hcl'.symm
      subst this
      simp only [GoM.bind_apply, nflogClose, getL, Res.ok_bind, hs1, closeHandle, hcl, GoM.pure_apply, Res.ok.injEq,
        Prod.mk.injEq] at h
      obtain ⟨rfl, rfl⟩ := h
      refine ⟨evs, cl', ?_, ?_, hsil, by simp, fun _ => ⟨hce, n, rfl, h105⟩⟩
      · simp only; rw [htr]; rfl
      · refine hg1.append ?_
        have e1 : w1.trace = w.trace ++ ([.recvfrom sh.fd 65536 0 (.error n)] ++ evs) := by rw [htr]; simp
        rw [← e1]; exact hgc
  · rw [hr] at h
    simp only [Res.ok_bind] at h
    unfold handleDatagram at h
    obtain ⟨⟨r, w1⟩, hp, h⟩ := Res.bind_eq_ok.mp h
    have c1 := parseLog_covered (calm_covers hc) hp
    have c2 : fin = false ∧ Calmly K ({ w with trace := w.trace ++ [.recvfrom sh.fd 65536 0 (.ok (d.take 65536))] } : W) w' := by
      cases r with
      | none =>
        simp only [GoM.pure_apply, Res.ok.injEq, Prod.mk.injEq] at h
        obtain ⟨rfl, rfl⟩ := h
        exact ⟨rfl, c1⟩
      | some err =>
        obtain ⟨w2, _, hrep, _, _, _⟩ := report_spec hc.toQuiet "Parse error" err w1
        have c3 := calm_report hc hrep
        simp only [GoM.bind_apply, hrep, Res.ok_bind, GoM.pure_apply, Res.ok.injEq, Prod.mk.injEq] at h
        obtain ⟨rfl, rfl⟩ := h
        exact ⟨rfl, c1.trans c3⟩
    obtain ⟨rfl, evs, htr, hg, hsil⟩ := c2
    rw [hd]
    refine ⟨evs, [], ?_, ?_, hsil, fun _ => rfl, by simp⟩
    · rw [htr, List.append_nil]; rfl
    · rw [List.append_nil]
      exact (first (.ok (d.take 65536)) (by rw [hd]; rfl)).append hg

end Verif.NfLog
