import Verif.NfQueue.Reader
import Verif.Props.NfQueueConcurrent
import Verif.Props.NfQueueLimits
/-! C100: packets are received while verdicts are being given. -/
namespace Verif.Props
open Verif.Common Verif.Sys Verif.Spec Verif.NfQueue

/-- What holds of the reader's part of the world throughout: the queue is being served, and the receive buffer and the
remembered attributes are not memory that verdict calls write. -/
structure Rd (X : Ctx) (qh : Handle) (cb ecb priv size : Nat) (w : W) : Prop where
  setup : Setup w qh cb ecb priv size
  attrs : AttrsOk w
  aside : ∀ k s, w.st.attrs k = some s → X.aside s.arr
  buf : X.aside w.st.buf.arr
  own : ∀ k s, w.st.attrs k = some s → ¬ X.others s.arr
  bufOwn : ¬ X.others w.st.buf.arr
  arr : X.R = some w.st.buf.arr

/-- The remembered attributes show those of datagram `d`. -/
def Shows (e : Endian) (w : W) (d : List Byte) : Prop :=
  ∀ attrs, Carries e d attrs → ∀ k, (k = 1 ∨ k = 3 ∨ k = 10) → ∀ p, lastOf k attrs = some p →
    ∃ s, w.st.attrs k = some s ∧ w.heap.bytes s = p

/-- What the reader knows at each of its steps; `pend` are the events of the turn so far. -/
def RAt (e : Endian) (qh : Handle) (size : Nat) (w : W) (pend : List (Ev QEv)) : RPc → Prop
  | .idle => pend = []
  | .got buf n => buf = w.st.buf ∧ ∃ d, pend = [.recvfrom qh.fd size 0x100 (.ok d)] ∧ d.length = n ∧ n ≤ size ∧
      Decent e d ∧ w.heap.bytes ⟨w.st.buf.arr, w.st.buf.off, n, w.st.buf.cap⟩ = d
  | .parsed _ a err => ∃ r, pend = [.recvfrom qh.fd size 0x100 r] ∧
      (((∃ x, err = some x ∧ Told e r x) ∧ Failed e r) ∨
        (err = none ∧ ¬ Failed e r ∧ a = some w.st.attrs ∧ ∃ d, r = .ok d ∧ Shows e w d))
  | .ready id mark pkt => ∃ d, pend = [.recvfrom qh.fd size 0x100 (.ok d)] ∧ ¬ Failed e (.ok d) ∧
      pkt = w.st.attrs 10 ∧ ∀ attrs, Carries e d attrs → Agrees e attrs (optBytes w.heap pkt) mark id

theorem bytes_of_arrayOf {h h' : Heap} {s : Slice} (ha : h'.arrayOf s.arr = h.arrayOf s.arr) :
    h'.bytes s = h.bytes s := by
  unfold Heap.bytes; rw [ha]

theorem valid_of_arrayOf {h h' : Heap} {s : Slice} (ha : h'.arrayOf s.arr = h.arrayOf s.arr) (hv : s.Valid h) :
    s.Valid h' := by
  unfold Slice.Valid; rw [ha]; exact hv

/-- Verdict steps do not disturb the reader. -/
theorem Rd.mono {X : Ctx} {qh : Handle} {cb ecb priv size : Nat} {w w' : W} (r : Rd X qh cb ecb priv size w)
    (hS : w.st.hdrSlice.arr < X.base)
    (ha : ∀ a, X.aside a → ¬ X.others a → w'.heap.arrayOf a = w.heap.arrayOf a) (ev : Evolve X w.heap w'.heap)
    (hst : ∃ acc drp, w'.st = { w.st with accepted := acc, dropped := drp }) : Rd X qh cb ecb priv size w' := by
  obtain ⟨acc, drp, hst⟩ := hst
  obtain ⟨⟨hs, h1, h2, h3, h4⟩, h5, h6, h7, h8, h9, h10⟩ := r
  refine ⟨⟨⟨?_, ?_, ?_, ?_, ?_, ?_, ?_⟩, ?_, ?_, ?_, ?_⟩, ?_, ?_, ?_, ?_, ?_, ?_⟩ <;> try rw [hst]
  · exact hs.handle
  · exact valid_of_arrayOf (ha _ h7 h9) hs.buf
  · exact hs.small
  · have := ev.size _ hS
    refine ⟨hs.hdr.1, ?_⟩
    show _ ≤ (w'.heap.arrayOf w.st.hdrSlice.arr).length
    rw [this]; exact hs.hdr.2
  · exact hs.hdr40
  · exact hs.sep
  · exact hs.reg
  · exact h1
  · exact h2
  · exact h3
  · exact h4
  · intro k s hk
    rw [hst] at hk
    exact ⟨valid_of_arrayOf (ha _ (h6 k s hk) (h8 k s hk)) (h5 k s hk).1, (h5 k s hk).2⟩
  · exact h6
  · exact h7
  · exact h8
  · exact h9
  · exact h10

theorem RAt.mono {X : Ctx} {e : Endian} {qh : Handle} {cb ecb priv size : Nat} {w w' : W} {pend : List (Ev QEv)}
    {pc : RPc} (t : RAt e qh size w pend pc) (r : Rd X qh cb ecb priv size w)
    (ha : ∀ a, X.aside a → ¬ X.others a → w'.heap.arrayOf a = w.heap.arrayOf a)
    (hst : ∃ acc drp, w'.st = { w.st with accepted := acc, dropped := drp }) : RAt e qh size w' pend pc := by
  obtain ⟨acc, drp, hst⟩ := hst
  cases pc with
  | idle => exact t
  | got buf n =>
    obtain ⟨h1, d, h2, h3, h4, h5, h6⟩ := t
    refine ⟨by rw [hst]; exact h1, d, h2, h3, h4, h5, ?_⟩
    rw [hst, ← h6]
    exact bytes_of_arrayOf (ha _ r.buf r.bufOwn)
  | parsed g a err =>
    obtain ⟨x, h1, h2 | ⟨h2, h3, h4, d, h5, h6⟩⟩ := t
    · exact ⟨x, h1, Or.inl h2⟩
    · refine ⟨x, h1, Or.inr ⟨h2, h3, by rw [hst]; exact h4, d, h5, ?_⟩⟩
      intro attrs hc k hk p hp
      obtain ⟨s, hs, hb⟩ := h6 attrs hc k hk p hp
      exact ⟨s, by rw [hst]; exact hs, by rw [bytes_of_arrayOf (ha _ (r.aside k s hs) (r.own k s hs))]; exact hb⟩
  | ready id mark pkt =>
    obtain ⟨d, h1, h2, h3, h4⟩ := t
    refine ⟨d, h1, h2, by rw [hst]; exact h3, ?_⟩
    have hb : optBytes w'.heap pkt = optBytes w.heap pkt := by
      cases hp : pkt with
      | none => rfl
      | some s => exact bytes_of_arrayOf (ha _ (r.aside 10 s (by rw [← h3, hp])) (r.own 10 s (by rw [← h3, hp])))
    rw [hb]; exact h4

theorem Rd.trace {X : Ctx} {qh : Handle} {cb ecb priv size : Nat} {w : W} (r : Rd X qh cb ecb priv size w)
    (tr : List (Ev QEv)) : Rd X qh cb ecb priv size { w with trace := tr } := by
  have hS := r.setup.serving
  exact ⟨⟨⟨hS.1, hS.2, hS.3, hS.4, hS.5, hS.6, hS.7⟩, r.setup.cb, r.setup.ecb, r.setup.priv, r.setup.size⟩, r.attrs,
    r.aside, r.buf, r.own, r.bufOwn, r.arr⟩

/-- If the receive buffer already holds `d`, storing it again changes nothing. -/
theorem stored_self {w : W} (hb : w.st.buf.Valid w.heap) {d : List Byte} (hd : d.length ≤ w.st.buf.len)
    (h : w.heap.bytes ⟨w.st.buf.arr, w.st.buf.off, d.length, w.st.buf.cap⟩ = d) : stored w d = w.heap := by
  have h1 := hb.1; have h2 := hb.2
  have hsp : splice (w.heap.arrayOf w.st.buf.arr) w.st.buf.off d = w.heap.arrayOf w.st.buf.arr := by
    apply List.ext_getElem?
    intro j
    rw [splice_getElem? _ _ _ (by omega)]
    split
    · rename_i hj
      conv => lhs; rw [← h]
      simp only [Heap.bytes, List.getElem?_take, List.getElem?_drop]
      rw [if_pos (by omega)]
      congr 1; omega
    · rfl
  unfold stored Heap.write
  rw [hsp]
  congr 1
  apply List.ext_getElem?
  intro j
  rw [List.getElem?_set]
  split
  · rename_i hj
    subst hj
    split
    · rename_i hlt
      simp [Heap.arrayOf, List.getElem?_eq_getElem hlt]
    · rename_i hlt
      exact (List.getElem?_eq_none (Nat.le_of_not_lt hlt)).symm
  · rfl

/-- Storing a datagram is a change the verdict calls can live with. -/
theorem Evolve.store {X : Ctx} {w : W} (hb : w.st.buf.Valid w.heap) (hbuf : X.aside w.st.buf.arr)
    (hR : X.R = some w.st.buf.arr) {d : List Byte} (hd : d.length ≤ w.st.buf.len) : Evolve X w.heap (stored w d) := by
  have h1 := hb.1; have h2 := hb.2
  have hlt := hbuf.1
  refine ⟨by simp [stored], ?_, ?_, ?_⟩
  · intro a ha _ _
    exact Heap.arrayOf_write_ne (by omega)
  · intro a _
    exact Heap.arrayOf_length_write (by omega)
  · intro a _ _ hne _ i
    left
    unfold stored
    rw [Heap.arrayOf_write_ne (fun h => hne (by rw [hR, h]))]

/-- The verdict calls do not notice a step of the reader. -/
theorem GInv.reader {X : Ctx} (hc : Calls X) {qh : Handle} {w0 w w' : W} {pcs : Nat → Pc} {order : List Nat}
    {extra log es : List (Ev QEv)} (g : GInv X qh w0 w pcs order extra log) (ev : Evolve X w.heap w'.heap)
    (hS : w'.heap.bytes X.S = w.heap.bytes X.S)
    (hst : ∃ m p, w'.st = { w.st with attrs := m, processed := p })
    (hs : sentOf es = []) (ho : othersOf es = es) :
    GInv X qh w0 w' pcs order (extra ++ es) (log ++ es) := by
  obtain ⟨m, p, hst⟩ := hst
  obtain ⟨e2, e3⟩ := g.sent
  refine ⟨⟨g.winv.ev.trans ev, by rw [hst]; exact g.winv.handle, by rw [hst]; exact g.winv.hdr,
    by rw [hst]; exact g.winv.qn, g.winv.room_le ev.len⟩, ?_, g.excl, g.nodup, g.fin, ⟨?_, ?_⟩,
    by rw [hst]; exact g.acc, by rw [hst]; exact g.drp⟩
  · intro i c hi
    exact TInv.mono hc (List.mem_of_getElem? hi) ev (fun _ => hS) (g.tinv i c hi)
  · unfold othersOf at *
    rw [List.filter_append, e2, ho]
  · unfold sentOf at *
    rw [List.filterMap_append, e3, hs, List.append_nil]

/-- The packet counted but not yet handed to the application. -/
def counting : RPc → Nat
  | .ready .. => 1
  | _ => 0

/-- Steps of its turn the reader has behind it (at most). -/
def progress : RPc → Nat
  | .idle => 0
  | .got .. => 1
  | .parsed .. => 2
  | .ready .. => 3

/-- What one step of the reader before the packet callback does: it goes on within its turn, having received at most
one datagram (A), or ends its turn by calling the error callback (B). -/
theorem rstep_ok {X : Ctx} (env : Env) (hidle : ∀ w, env.cbEffect w = w) (K : Kernel QEv) {qh : Handle} {cb ecb priv size : Nat}
    {w : W} {pend : List (Ev QEv)} {pc : RPc}
    (hK : ∀ d, K.recv w.trace qh.fd = .ok d → Decent env.e (d.take size))
    (r : Rd X qh cb ecb priv size w) (t : RAt env.e qh size w pend pc) (hpc : progress pc < 3) :
    ∃ (pc' : RPc) (w' : W) (es : List (Ev QEv)), rstep env K pc w = .ok (pc', w') ∧
      w'.trace = w.trace ++ es ∧ Rd X qh cb ecb priv size w' ∧
      (∃ m p, w'.st = { w.st with attrs := m, processed := p }) ∧
      (∀ a, a ≠ w.st.buf.arr → w'.heap.arrayOf a = w.heap.arrayOf a) ∧ Evolve X w.heap w'.heap ∧
      ((progress pc + 1 ≤ progress pc' ∧ RAt env.e qh size w' (pend ++ es) pc' ∧
          w'.st.processed = w.st.processed + BitVec.ofNat 64 (counting pc') ∧
          (es = [] ∨ ∃ x, es = [.recvfrom qh.fd size 0x100 x] ∧
            ∀ d, x = .ok d → ∃ d0, K.recv w.trace qh.fd = .ok d0 ∧ d = d0.take size)) ∨
        (pc' = .idle ∧ w'.st.processed = w.st.processed ∧ ∃ x err gm, pend = [.recvfrom qh.fd size 0x100 x] ∧ Failed env.e x ∧
          Told env.e x err ∧ es = [.app (.error ecb (.wrap "Netlink error %v" err) gm)])) := by
  have hS := r.setup.serving
  have hsz := r.setup.size
  cases pc with
  | idle =>
    have hpend : pend = [] := t
    subst hpend
    rcases hk : K.recv w.trace qh.fd with n | d0
    · refine ⟨.parsed none none (some (.wrap "Unable to read from socket %v" (.errno n))),
        { w with trace := w.trace ++ [.recvfrom qh.fd w.st.buf.len 0x100 (.error n)] },
        [.recvfrom qh.fd w.st.buf.len 0x100 (.error n)], ?_, rfl, r.trace _, ⟨_, _, rfl⟩, fun _ _ => rfl, Evolve.refl _ _,
        Or.inl ⟨by simp [progress], ?_, by simp [counting], Or.inr ⟨.error n, by rw [hsz], fun d hd => by cases hd⟩⟩⟩
      · simp [rstep, getQ, hS.handle, recvInto, recvfrom, rawRecvfrom, hk, World.log, Except.map]
      · exact ⟨.error n, by rw [hsz]; rfl, Or.inl ⟨⟨_, rfl, rfl⟩, trivial⟩⟩
    · have hPd := hK d0 hk
      have hd : (d0.take w.st.buf.len).length ≤ w.st.buf.len := by simp; omega
      have hr : rstep env K .idle w = .ok (.got w.st.buf (d0.take w.st.buf.len).length,
          ⟨w.trace ++ [.recvfrom qh.fd w.st.buf.len 0x100 (.ok (d0.take w.st.buf.len))],
            stored w (d0.take w.st.buf.len), w.st⟩) := by
        simp [rstep, getQ, hS.handle, recvInto, recvfrom, rawRecvfrom, hk, World.log, Except.map, stored]
      rw [← hsz] at hPd
      have hq : ∃ d1, Except.ok (ε := Nat) d0 = .ok d1 ∧ d0.take w.st.buf.len = d1.take size := ⟨d0, rfl, by rw [hsz]⟩
      generalize d0.take w.st.buf.len = d at hd hr hPd hq
      refine ⟨_, _, [.recvfrom qh.fd w.st.buf.len 0x100 (.ok d)], hr, rfl,
        ?_, ⟨_, _, rfl⟩, fun a ha => Heap.arrayOf_write_ne (fun h => ha h.symm),
        Evolve.store hS.buf r.buf r.arr hd, Or.inl ⟨by simp [progress], ?_, by simp [counting], Or.inr ⟨.ok d, by rw [hsz], ?_⟩⟩⟩
      · refine ⟨⟨hS.after hd rfl rfl rfl rfl (fun _ => rfl), r.setup.cb, r.setup.ecb, r.setup.priv, r.setup.size⟩,
          ?_, r.aside, r.buf, r.own, r.bufOwn, r.arr⟩
        intro k s hk
        exact ⟨stored_valid hS.buf hd (r.attrs k s hk).1, (r.attrs k s hk).2⟩
      · obtain ⟨v, _, hvb, hve⟩ := view_bytes hS.buf hd
        refine ⟨rfl, d, by rw [hsz]; rfl, rfl, by rw [← hsz]; exact hd, hPd, ?_⟩
        rw [hve] at hvb
        exact hvb
      · intro d1 h1
        cases h1
        exact hq
  | got buf n =>
    obtain ⟨rfl, d, hpend, rfl, hd, hPd, hb⟩ := t
    rw [← hsz] at hd
    have hst := stored_self hS.buf hd hb
    obtain ⟨_, hB, hC⟩ := decode_step env w w qh hS hd hst.symm rfl
    by_cases hE : ErrMsg env.e d
    · obtain ⟨err, hT, he⟩ := hB hPd.1 hE
      refine ⟨.parsed none none (some err), w, [], ?_, by simp, r, ⟨_, _, rfl⟩, fun _ _ => rfl, Evolve.refl _ _,
        Or.inl ⟨by simp [progress], ?_, by simp [counting], Or.inl rfl⟩⟩
      · simp only [rstep, GoM.bind_apply, he, Res.ok_bind]; rfl
      · exact ⟨.ok d, by rw [hpend]; rfl, Or.inl ⟨⟨_, rfl, hT⟩, Or.inl hE⟩⟩
    · have hPd := hPd.2 hE
      obtain ⟨gm, he⟩ := hC hPd.1 hE
      obtain ⟨hab, hv⟩ := attrSlice_bytes hS.buf hd hPd.1
      have hs : (attrSlice w d).len + 3 < 2 ^ 32 := by
        have := hS.small
        show d.length - 20 + 3 < _
        omega
      obtain ⟨⟨m', rest, err⟩, hr⟩ := C07_returns_partial env.e _ _ hv hs w.st.attrs (by
        intro j l t h1 h2
        rw [hab] at h1 h2
        exact (hPd.2 j l t h1 h2).1)
      rw [hr] at he
      obtain ⟨hreg, hbad⟩ := attrs_parse hS hd hPd.1 hr
      refine ⟨.parsed (some gm) (some m') err, { w with st := { w.st with attrs := m' } }, [], ?_, by simp, ?_, ⟨_, _, rfl⟩,
        fun _ _ => rfl, Evolve.refl _ _, Or.inl ⟨by simp [progress], ?_, by simp [counting], Or.inl rfl⟩⟩
      · simp only [rstep, GoM.bind_apply, he, Res.ok_bind]; rfl
      · refine ⟨⟨hS.after hd hst.symm rfl rfl rfl hreg, r.setup.cb, r.setup.ecb, r.setup.priv, r.setup.size⟩, ?_, ?_,
          r.buf, ?_, r.bufOwn, r.arr⟩
        · have := attrsOk_parse hS r.attrs hd hPd hr
          rw [hst] at this
          exact this
        · intro k s hk
          rcases attr_location env.e _ _ hv hs _ _ _ _ hr k with heq | ⟨s', hs', harr⟩
          · exact r.aside k s (by rw [← heq]; exact hk)
          · have : some s' = some s := hs'.symm.trans hk
            cases this
            rw [harr]; exact r.buf
        · intro k s hk
          rcases attr_location env.e _ _ hv hs _ _ _ _ hr k with heq | ⟨s', hs', harr⟩
          · exact r.own k s (by rw [← heq]; exact hk)
          · have : some s' = some s := hs'.symm.trans hk
            cases this
            rw [harr]; exact r.bufOwn
      · refine ⟨.ok d, by rw [hpend]; rfl, ?_⟩
        cases err with
        | some err => 
          exact Or.inl ⟨⟨_, rfl, fun h => absurd h hE, fun _ => attrs_err hS hd hPd.1 hr⟩, Or.inr (hbad.mp (by simp))⟩
        | none =>
          refine Or.inr ⟨rfl, ?_, rfl, d, rfl, ?_⟩
          · rintro (hf | hf)
            · exact hE hf
            · exact hbad.mpr hf rfl
          · intro attrs hcar k hk p hp
            have := carried hS hd hr hcar k hk
            rw [hp, hst] at this
            exact this
  | parsed gm a err =>
    obtain ⟨x, hpend, hcase⟩ := t
    rcases hcase with ⟨⟨err, rfl, hT⟩, hf⟩ | ⟨rfl, hf, rfl, d, rfl, hsh⟩
    · refine ⟨.idle, { w with trace := w.trace ++ [.app (.error ecb (.wrap "Netlink error %v" err) gm)] },
        [.app (.error ecb (.wrap "Netlink error %v" err) gm)], ?_, rfl, r.trace _, ⟨_, _, rfl⟩, fun _ _ => rfl, Evolve.refl _ _,
        Or.inr ⟨rfl, rfl, x, err, gm, hpend, hf, hT, rfl⟩⟩
      simp only [rstep, GoM.bind_apply, getQ, Res.ok_bind, r.setup.ecb, emit, runCallback, hidle]
      rfl
    · obtain ⟨⟨id, mark, pkt⟩, hi⟩ := info_returns (e := env.e) (h := w.heap) (m := w.st.attrs) r.attrs
      obtain ⟨i1, i3, i10⟩ := info_of hi
      refine ⟨.ready id mark pkt, { w with st := { w.st with processed := w.st.processed + 1 } }, [],
        ?_, by simp, ?_, ⟨_, _, rfl⟩, fun _ _ => rfl, Evolve.refl _ _, Or.inl ⟨by simp [progress], ?_, rfl, Or.inl rfl⟩⟩
      · simp only [rstep, GoM.bind_apply, getQ, Res.ok_bind, packetInfoM, hi, modifyQ]
        rfl
      · exact ⟨⟨⟨hS.1, hS.2, hS.3, hS.4, hS.5, hS.6, hS.7⟩, r.setup.cb, r.setup.ecb, r.setup.priv, r.setup.size⟩, r.attrs,
          r.aside, r.buf, r.own, r.bufOwn, r.arr⟩
      · refine ⟨d, by rw [hpend]; rfl, hf, i10, ?_⟩
        intro attrs hcar
        refine ⟨?_, ?_, ?_⟩
        · intro p hp
          obtain ⟨s, hs, hb⟩ := hsh attrs hcar 1 (by simp) p hp
          rw [← hb]; exact i1 s hs
        · intro p hp
          obtain ⟨s, hs, hb⟩ := hsh attrs hcar 3 (by simp) p hp
          rw [← hb]; exact i3 s hs
        · intro p hp
          obtain ⟨s, hs, hb⟩ := hsh attrs hcar 10 (by simp) p hp
          rw [← hb, i10, hs]; rfl
  | ready id mark pkt => exact absurd hpc (by simp [progress])

/-- One step of the reader. -/
theorem reader_step {X : Ctx} (hc : Calls X) (env : Env) (hidle : ∀ w, env.cbEffect w = w) (K : Kernel QEv) {qh : Handle} {cb ecb priv size : Nat}
    {w0 w : W} {pcs : Nat → Pc} {order : List Nat} {ts : List (List (Ev QEv))} {pend log : List (Ev QEv)} {pc : RPc} {p0 : U64}
    (hK : ∀ d, K.recv w.trace qh.fd = .ok d → Decent env.e (d.take size))
    (g : GInv X qh w0 w pcs order (ts.flatten ++ pend) log) (r : Rd X qh cb ecb priv size w)
    (t : RAt env.e qh size w pend pc) (hts : ∀ g ∈ ts, Turn env.e qh cb ecb priv size g)
    (hp : w.st.processed = p0 + BitVec.ofNat 64 (ts.flatten.countP isPacket + counting pc)) :
    ∃ (pc' : RPc) (w' : W) (ts' : List (List (Ev QEv))) (pend' es : List (Ev QEv)), rstep env K pc w = .ok (pc', w') ∧
      w'.trace = w.trace ++ es ∧ GInv X qh w0 w' pcs order (ts'.flatten ++ pend') (log ++ es) ∧
      Rd X qh cb ecb priv size w' ∧ RAt env.e qh size w' pend' pc' ∧ (∀ g ∈ ts', Turn env.e qh cb ecb priv size g) ∧
      w'.st.processed = p0 + BitVec.ofNat 64 (ts'.flatten.countP isPacket + counting pc') ∧
      4 * ts.length + progress pc + 1 ≤ 4 * ts'.length + progress pc' ∧
      (∀ a, a ≠ w.st.buf.arr → w'.heap.arrayOf a = w.heap.arrayOf a) ∧ Evolve X w.heap w'.heap := by
  have hS := r.setup.serving
  have hX : X.S.arr ≠ w.st.buf.arr := by
    rw [← g.winv.hdr]; exact fun h => hS.sep h.symm
  by_cases h3 : progress pc < 3
  · have hc0 : counting pc = 0 := by cases pc <;> first | rfl | simp [progress] at h3
    obtain ⟨pc', w', es, h1, ht, h2, hst, hfr, hev, hcase⟩ := rstep_ok env hidle K hK r t h3
    have hbS : w'.heap.bytes X.S = w.heap.bytes X.S := bytes_of_arrayOf (hfr _ hX)
    rcases hcase with ⟨a1, a2, a3, a4⟩ | ⟨rfl, a3, x, err, gm, hpend, hf, hT, rfl⟩
    · refine ⟨pc', w', ts, pend ++ es, es, h1, ht, ?_, h2, a2, hts, ?_, by omega, hfr, hev⟩
      · have hes : sentOf es = [] ∧ othersOf es = es := by
          rcases a4 with rfl | ⟨x, rfl, _⟩ <;> exact ⟨rfl, rfl⟩
        rw [← List.append_assoc]
        exact g.reader hc hev hbS hst hes.1 hes.2
      · rw [a3, hp, hc0, BitVec.add_assoc, ← BitVec.ofNat_add, Nat.add_zero]
    · refine ⟨.idle, w', ts ++ [pend ++ [.app (.error ecb (.wrap "Netlink error %v" err) gm)]], [],
        [.app (.error ecb (.wrap "Netlink error %v" err) gm)], h1, ht, ?_, h2, rfl, ?_, ?_, ?_, hfr, hev⟩
      · have := g.reader hc (es := [.app (.error ecb (.wrap "Netlink error %v" err) gm)]) hev hbS hst rfl rfl
        simpa [List.append_assoc] using this
      · intro g' hg'
        rw [List.mem_append] at hg'
        rcases hg' with h | h
        · exact hts g' h
        · simp only [List.mem_singleton] at h
          subst h
          exact ⟨x, [], by simp, Or.inl ⟨hf, err, gm, hT, by rw [hpend]; rfl⟩⟩
      · rw [a3, hp, hc0, List.flatten_append, List.countP_append]
        simp [hpend, isPacket, counting]
      · rw [List.length_append]; show 4 * ts.length + progress pc + 1 ≤ 4 * (ts.length + 1) + 0; omega
  · cases pc with
    | idle => simp [progress] at h3
    | got => simp [progress] at h3
    | parsed => simp [progress] at h3
    | ready id mark pkt =>
      obtain ⟨d, hpend, hf, hpk, hag⟩ := t
      refine ⟨.idle, { w with trace := w.trace ++ [.app (.packet cb (optBytes w.heap pkt) mark id priv)] },
        ts ++ [pend ++ [.app (.packet cb (optBytes w.heap pkt) mark id priv)]], [],
        [.app (.packet cb (optBytes w.heap pkt) mark id priv)], ?_, rfl, ?_, r.trace _, rfl, ?_, ?_, by simp [progress]; omega,
        fun _ _ => rfl, Evolve.refl _ _⟩
      · simp only [rstep, GoM.bind_apply, getQ, Res.ok_bind, r.setup.cb, r.setup.priv, emitPacket, runCallback, hidle]
        rfl
      · have := g.reader hc (w' := { w with trace := w.trace ++ [.app (.packet cb (optBytes w.heap pkt) mark id priv)] })
          (es := [.app (.packet cb (optBytes w.heap pkt) mark id priv)]) (Evolve.refl _ _) rfl ⟨_, _, rfl⟩ rfl rfl
        simpa [List.append_assoc] using this
      · intro g' hg'
        rw [List.mem_append] at hg'
        rcases hg' with h | h
        · exact hts g' h
        · simp only [List.mem_singleton] at h
          subst h
          exact ⟨.ok d, [], by simp, Or.inr ⟨hf, d, _, mark, id, rfl, hag, by rw [hpend]; rfl⟩⟩
      · rw [List.flatten_append, List.countP_append]
        simpa [hpend, isPacket, counting] using hp

/-- Reader and verdict goroutines together. -/
structure CInv (X : Ctx) (e : Endian) (qh : Handle) (cb ecb priv size : Nat) (w0 w : W) (pc : RPc) (pcs : Nat → Pc)
    (order : List Nat) (ts : List (List (Ev QEv))) (pend log : List (Ev QEv)) (n : Nat) : Prop where
  g : GInv X qh w0 w pcs order (ts.flatten ++ pend) log
  r : Rd X qh cb ecb priv size w
  t : RAt e qh size w pend pc
  turns : ∀ g ∈ ts, Turn e qh cb ecb priv size g
  processed : w.st.processed = w0.st.processed + BitVec.ofNat 64 (ts.flatten.countP isPacket + counting pc)
  steps : n ≤ 4 * ts.length + progress pc

theorem cinv_step {X : Ctx} (hc : Calls X) (env : Env) (he : env.e = X.e) (hidle : ∀ w, env.cbEffect w = w)
    (K : Kernel QEv) (lock : Bool) (hl : lock = true ∨ ∀ c ∈ X.calls, c.isV2 = false) {qh : Handle}
    {cb ecb priv size : Nat} {w0 w : W} {pc : RPc} {pcs : Nat → Pc} {order : List Nat}
    {ts : List (List (Ev QEv))} {pend log : List (Ev QEv)} {n : Nat}
    (hK : ∀ d, K.recv w.trace qh.fd = .ok d → Decent env.e (d.take size))
    (inv : CInv X env.e qh cb ecb priv size w0 w pc pcs order ts pend log n) (i : Option Nat) :
    ∃ (pc' : RPc) (pcs' : Nat → Pc) (w' : W) (order' : List Nat) (ts' : List (List (Ev QEv))) (pend' es : List (Ev QEv)),
      cstep env K lock X.calls i (pc, pcs) w = .ok ((pc', pcs'), w') ∧ w'.trace = w.trace ++ es ∧
      CInv X env.e qh cb ecb priv size w0 w' pc' pcs' order' ts' pend' (log ++ es) (n + if i = none then 1 else 0) ∧
      (∀ a, a ≠ w.st.buf.arr → X.aside a → w'.heap.arrayOf a = w.heap.arrayOf a) ∧ Evolve X w.heap w'.heap := by
  cases i with
  | none =>
    obtain ⟨pc', w', ts', pend', es, h1, ht, h2, h3, h4, h5, h6, h7, h8, h9⟩ := reader_step hc env hidle K hK inv.g inv.r inv.t
      inv.turns inv.processed
    exact ⟨pc', pcs, w', order, ts', pend', es, bind_of_eq h1 rfl, ht,
      ⟨h2, h3, h4, h5, h6, by have := inv.steps; simp; omega⟩, fun a ha _ => h8 a ha, h9⟩
  | some i =>
    obtain ⟨pcs', w', order', es, h1, ht, h2, h3, h4, h5⟩ := ginv_step hc env he K lock hl inv.g i
    refine ⟨pc, pcs', w', order', ts, pend, es, bind_of_eq h1 rfl, ht, ⟨h2, ?_, inv.t.mono inv.r (fun a h _ => h3 a h) h5, inv.turns, ?_,
      by simpa using inv.steps⟩, fun a _ ha => h3 a ha, h4⟩
    · exact inv.r.mono (by rw [inv.g.winv.hdr]; exact hc.scratch_lt) (fun a h _ => h3 a h) h4 h5
    · obtain ⟨acc, drp, h5⟩ := h5
      rw [h5]; exact inv.processed

theorem cinv_sched {X : Ctx} (hc : Calls X) (env : Env) (he : env.e = X.e) (hidle : ∀ w, env.cbEffect w = w)
    (K : Kernel QEv) (lock : Bool) (hl : lock = true ∨ ∀ c ∈ X.calls, c.isV2 = false) {qh : Handle}
    {cb ecb priv size : Nat} {w0 : W}
    (hK : ∀ evs d, K.recv (w0.trace ++ evs) qh.fd = .ok d → Decent env.e (d.take size)) (is : List (Option Nat)) :
    ∀ {w : W} {pc : RPc} {pcs : Nat → Pc} {order : List Nat} {ts : List (List (Ev QEv))} {pend log : List (Ev QEv)} {n : Nat},
    w.trace = w0.trace ++ log → CInv X env.e qh cb ecb priv size w0 w pc pcs order ts pend log n →
    ∃ (pc' : RPc) (pcs' : Nat → Pc) (w' : W) (order' : List Nat) (ts' : List (List (Ev QEv))) (pend' log' : List (Ev QEv)),
      csched env K lock X.calls is (pc, pcs) w = .ok ((pc', pcs'), w') ∧ w'.trace = w0.trace ++ log' ∧
      CInv X env.e qh cb ecb priv size w0 w' pc' pcs' order' ts' pend' log' (n + is.count none) := by
  induction is with
  | nil => intro w pc pcs order ts pend log n ht inv; exact ⟨pc, pcs, w, order, ts, pend, log, rfl, ht, inv⟩
  | cons i is ih =>
    intro w pc pcs order ts pend log n ht inv
    obtain ⟨_, _, _, _, _, _, _, h1, ht1, inv1, _⟩ := cinv_step hc env he hidle K lock hl (fun d hd => hK log d (ht ▸ hd)) inv i
    obtain ⟨p2, q2, w2, o2, t2, d2, l2, h2, ht2, inv2⟩ := ih (by rw [ht1, ht, List.append_assoc]) inv1
    refine ⟨p2, q2, w2, o2, t2, d2, l2, bind_of_eq h1 h2, ht2, ?_⟩
    have hn : n + (if i = none then 1 else 0) + is.count none = n + (i :: is).count none := by
      rw [List.count_cons]; cases i <;> simp <;> omega
    rw [← hn]; exact inv2

/-- Memory of the reader that is not that of the verdict calls: the receive buffer and the attributes remembered from
earlier datagrams are in none of the packets verdicts are being given on, nor in the scratch header. -/
structure Apart (w : W) (calls : List VCall) : Prop where
  buf : ∀ c ∈ calls, c.packet.arr ≠ w.st.buf.arr
  attrs : ∀ k s, w.st.attrs k = some s → s.arr < w.heap.arrays.length ∧ s.arr ≠ w.st.hdrSlice.arr ∧
    ∀ c ∈ calls, c.packet.arr ≠ s.arr

theorem cinv_init {env : Env} {calls : List VCall} {w : W} {qh : Handle} {cb ecb priv size : Nat}
    (hS : Setup w qh cb ecb priv size) (hO : AttrsOk w) (hA : Apart w calls)
    (hok : ∀ c ∈ calls, c.Ok w.heap w.st.hdrSlice) (hsep : ∀ c ∈ calls, ∀ d ∈ calls, Sep c d) (h20 : 20 ≤ size) :
    Calls (soloCtx env w calls (some w.st.buf.arr)) ∧
    CInv (soloCtx env w calls (some w.st.buf.arr)) env.e qh cb ecb priv size w w .idle allStart [] [] [] [] 0 := by
  have hs := hS.serving
  have hV : VReady w qh := ⟨hs.handle, hs.hdr, hs.hdr40⟩
  have hlt : w.st.buf.arr < w.heap.arrays.length := by
    have h1 := hs.buf.1; have h2 := hs.buf.2; have h3 := hS.size
    exact Heap.lt_of_arrayOf_pos (by omega)
  have hc : Calls (soloCtx env w calls (some w.st.buf.arr)) := by
    refine ⟨hV.2, hok, fun _ h => h, hsep, ⟨?_, ?_⟩, by simp [soloCtx]⟩
    · simpa [soloCtx] using hs.sep
    · intro c hc h
      exact hA.buf c hc (Option.some.inj h).symm
  refine ⟨hc, ?_⟩
  · refine ⟨ginv_init hV env _ _ (fun _ h => h.elim), ⟨hS, hO, ?_, ?_, fun _ _ _ => id, id, rfl⟩, rfl, by simp, by simp [counting], by simp⟩
    · intro k s hk
      obtain ⟨a, b, c⟩ := hA.attrs k s hk
      exact ⟨a, b, fun x hx h => c x hx h.symm⟩
    · exact ⟨hlt, hs.sep, fun x hx h => hA.buf x hx h.symm⟩

/-- C100 (partial: see `C20_no_mixing_partial`; and the packets verdicts are given on must have been copied out of the
receive buffer, see C98).  A queue is being served by a reader while any number of verdict calls are in flight, in any
schedule, for any kernel sending well-formed datagrams or failing: nothing crashes; the datagrams sent are, in the order in which the calls finish,
one per finished call, each byte for byte what that call would have sent alone; everything else that happens is the
reader's, as if it were alone: complete turns (one receive, one callback with the contents of that very datagram), then
at most the receive of an unfinished turn; and the packets delivered are counted. -/
theorem C100_serves_partial (env : Env) (hidle : ∀ w, env.cbEffect w = w) (K : Kernel QEv) (lock : Bool)
    (calls : List VCall) (w : W) (qh : Handle) (cb ecb priv size : Nat)
    (hS : Setup w qh cb ecb priv size) (hO : AttrsOk w) (hA : Apart w calls)
    (hok : ∀ c ∈ calls, c.Ok w.heap w.st.hdrSlice) (hsep : ∀ c ∈ calls, ∀ d ∈ calls, Sep c d)
    (hl : lock = true ∨ ∀ c ∈ calls, c.isV2 = false) (h20 : 20 ≤ size)
    (hK : ∀ evs d, K.recv (w.trace ++ evs) qh.fd = .ok d → Decent env.e (d.take size)) (is : List (Option Nat)) :
    ∃ (pc : RPc) (pcs : Nat → Pc) (w' : W), csched env K lock calls is (.idle, allStart) w = .ok ((pc, pcs), w') ∧
      ∃ (evs : List (Ev QEv)) (order : List Nat) (msg : Nat → List Byte) (turns : List (List (Ev QEv))) (rest : List (Ev QEv)),
        w'.trace = w.trace ++ evs ∧
        -- the verdicts
        order.Nodup ∧ (∀ i, i ∈ order ↔ i < calls.length ∧ pcs i = .done) ∧
        sentOf evs = order.map msg ∧
        (∀ i ∈ order, ∃ c, calls[i]? = some c ∧ SendsAlone env K w c (msg i)) ∧
        -- the reader
        othersOf evs = turns.flatten ++ rest ∧
        (∀ g ∈ turns, Turn env.e qh cb ecb priv size g) ∧
        (rest = [] ∨ ∃ r, rest = [.recvfrom qh.fd size 0x100 r]) ∧
        (rest = [] → w'.st.processed = w.st.processed + BitVec.ofNat 64 (turns.flatten.countP isPacket)) ∧
        -- it does not wait for the verdicts: four steps are enough for a turn
        is.count none ≤ 4 * turns.length + 3 := by
  have hV : VReady w qh := ⟨hS.serving.handle, hS.serving.hdr, hS.serving.hdr40⟩
  obtain ⟨hc, i0⟩ := cinv_init (env := env) hS hO hA hok hsep h20
  obtain ⟨pc, pcs, w', order, ts, pend, evs, h1, e1, inv⟩ := cinv_sched hc env rfl hidle K lock hl hK is (by simp) i0
  obtain ⟨e2, e3⟩ := inv.g.sent
  refine ⟨pc, pcs, w', h1, evs, order, _, ts, pend, e1, inv.g.nodup, inv.g.fin, e3, ?_, e2, inv.turns, ?_, ?_, ?_⟩
  · intro i hi
    have hlt' := ((inv.g.fin i).mp hi).1
    exact ⟨calls[i], List.getElem?_eq_getElem hlt', sendsAlone hV env K _ _ hok (List.getElem?_eq_getElem hlt')⟩
  · have ht := inv.t
    cases pc with
    | idle => exact Or.inl ht
    | got => obtain ⟨_, d, hd, _⟩ := ht; exact Or.inr ⟨_, hd⟩
    | parsed => obtain ⟨r, hr, _⟩ := ht; exact Or.inr ⟨_, hr⟩
    | ready => obtain ⟨d, hd, _⟩ := ht; exact Or.inr ⟨_, hd⟩
  · intro hrest
    have ht := inv.t
    have hp := inv.processed
    cases pc with
    | idle => simpa [counting] using hp
    | got => obtain ⟨_, d, hd, _⟩ := ht; rw [hrest] at hd; cases hd
    | parsed => obtain ⟨r, hr, _⟩ := ht; rw [hrest] at hr; cases hr
    | ready => obtain ⟨d, hd, _⟩ := ht; rw [hrest] at hd; cases hd
  · have := inv.steps
    have : progress pc ≤ 3 := by cases pc <;> simp [progress]
    omega

/-- Steps left of a `SetVerdict` call decrease with every turn its goroutine is given, whatever the reader does. -/
theorem crank_sched {X : Ctx} (hc : Calls X) (env : Env) (he : env.e = X.e) (hidle : ∀ w, env.cbEffect w = w)
    (K : Kernel QEv) (hl : ∀ c ∈ X.calls, c.isV2 = false) {qh : Handle} {cb ecb priv size : Nat} {w0 : W}
    (hK : ∀ evs d, K.recv (w0.trace ++ evs) qh.fd = .ok d → Decent env.e (d.take size)) (is : List (Option Nat)) :
    ∀ {w : W} {pc : RPc} {pcs : Nat → Pc} {order : List Nat} {ts : List (List (Ev QEv))} {pend log : List (Ev QEv)} {n : Nat},
    w.trace = w0.trace ++ log → CInv X env.e qh cb ecb priv size w0 w pc pcs order ts pend log n →
    ∀ {s' w'}, csched env K false X.calls is (pc, pcs) w = .ok (s', w') →
      ∀ i c, X.calls[i]? = some c → rank c (s'.2 i) = rank c (pcs i) - is.count (some i) := by
  induction is with
  | nil =>
    intro w pc pcs order ts pend log n ht inv s' w' h i c hi
    simp only [csched, GoM.pure_apply, Res.ok.injEq, Prod.mk.injEq] at h
    rw [← h.1]; simp
  | cons j is ih =>
    intro w pc pcs order ts pend log n ht inv s' w' h i c hi
    obtain ⟨p1, q1, w1, o1, t1, d1, _, h1, ht1, inv1, _⟩ :=
      cinv_step hc env he hidle K false (Or.inr hl) (fun d hd => hK log d (ht ▸ hd)) inv j
    have h' : csched env K false X.calls is (p1, q1) w1 = .ok (s', w') := by
      rw [← h]
      show _ = (cstep env K false X.calls j (pc, pcs) >>= fun s => csched env K false X.calls is s) w
      rw [GoM.bind_apply, h1, Res.ok_bind]
    have hi' := ih (by rw [ht1, ht, List.append_assoc]) inv1 h' i c hi
    have hstep : rank c (q1 i) = rank c (pcs i) - (if j == some i then 1 else 0) := by
      cases j with
      | none =>
        obtain ⟨x, _, hx⟩ := Res.bind_eq_ok.mp h1
        simp only [GoM.pure_apply, Res.ok.injEq, Prod.mk.injEq] at hx
        rw [← hx.1.2]; simp
      | some j =>
        obtain ⟨⟨p, w2⟩, hj, hx⟩ := Res.bind_eq_ok.mp h1
        simp only [GoM.pure_apply, Res.ok.injEq, Prod.mk.injEq] at hx
        obtain ⟨⟨_, rfl⟩, rfl⟩ := hx
        simpa using rank_step hc env he K hl inv.g hj i c hi
    rw [hi', List.count_cons, hstep]; omega

/-- C100, completion: `SetVerdict` never waits for the reader: a goroutine that is given five turns has sent its
message and returned. -/
theorem C100_completes (env : Env) (hidle : ∀ w, env.cbEffect w = w) (K : Kernel QEv)
    (calls : List VCall) (w : W) (qh : Handle) (cb ecb priv size : Nat)
    (hS : Setup w qh cb ecb priv size) (hO : AttrsOk w) (hA : Apart w calls)
    (hok : ∀ c ∈ calls, c.Ok w.heap w.st.hdrSlice) (hsep : ∀ c ∈ calls, ∀ d ∈ calls, Sep c d)
    (hl : ∀ c ∈ calls, c.isV2 = false) (h20 : 20 ≤ size)
    (hK : ∀ evs d, K.recv (w.trace ++ evs) qh.fd = .ok d → Decent env.e (d.take size)) (is : List (Option Nat)) :
    ∃ pc pcs w', csched env K false calls is (.idle, allStart) w = .ok ((pc, pcs), w') ∧
      ∀ i, i < calls.length → 5 ≤ is.count (some i) → pcs i = .done := by
  obtain ⟨hc, i0⟩ := cinv_init (env := env) hS hO hA hok hsep h20
  obtain ⟨pc, pcs, w', order, ts, pend, _, h1, _, inv⟩ := cinv_sched hc env rfl hidle K false (Or.inr hl) hK is (by simp) i0
  refine ⟨pc, pcs, w', h1, fun i hi hcnt => ?_⟩
  have hg : calls[i]? = some calls[i] := List.getElem?_eq_getElem hi
  have hr := crank_sched hc env rfl hidle K hl hK is (by simp) i0 h1 i calls[i] hg
  have hv := hl calls[i] (List.getElem_mem hi)
  have ht := inv.g.tinv i calls[i] hg
  have h0 : rank calls[i] (pcs i) = 0 := by
    rw [hr]; simp [allStart, rank, hv]; omega
  cases hp : pcs i with
  | done => rfl
  | start => rw [hp] at h0; simp [rank, hv] at h0
  | counted => rw [hp] at h0; simp [rank] at h0
  | headed => rw [hp] at h0; simp [rank] at h0
  | attred => rw [hp] at h0; simp [rank] at h0
  | padded => rw [hp] at h0; simp [rank] at h0
  | filled k j =>
    rw [hp] at ht
    have := ht.1
    rw [hv] at this; cases this

/-- The queue of `readerWorld`, and memory into which the application has copied two packets. -/
def servingWorld : W := { readerWorld with heap := ⟨readerWorld.heap.arrays ++ [[7, 7, 7, 7, 0, 0, 0, 0, 8, 8, 8, 0]]⟩ }

/-- Verdicts on these packets. -/
def copied : List VCall := [.v1 0 1 4 1 ⟨5, 0, 4, 4⟩, .v1 0 0 3 2 ⟨5, 8, 3, 4⟩]

theorem serving_ok : Setup servingWorld ⟨3, Slice.nil⟩ 1 2 3 64 ∧ AttrsOk servingWorld ∧ Apart servingWorld copied ∧
    (∀ c ∈ copied, c.Ok servingWorld.heap servingWorld.st.hdrSlice) ∧ (∀ c ∈ copied, ∀ d ∈ copied, Sep c d) := by
  have h := readerWorld_serving
  refine ⟨⟨⟨rfl, ⟨Nat.le_refl _, by decide⟩, by decide, ⟨Nat.le_refl _, by decide⟩, rfl, by decide, h.reg⟩, rfl, rfl, rfl, rfl⟩,
    ?_, ⟨by decide, ?_⟩, ?_, ?_⟩
  · intro k s hk
    simp only [servingWorld, readerWorld] at hk
    by_cases k1 : k = 1
    · simp [k1] at hk; subst hk; exact ⟨⟨Nat.le_refl _, by decide⟩, by simp⟩
    by_cases k3 : k = 3
    · simp [k3] at hk; subst hk; exact ⟨⟨Nat.le_refl _, by decide⟩, by simp⟩
    by_cases k10 : k = 10
    · simp [k10] at hk; subst hk; exact ⟨⟨Nat.le_refl _, by decide⟩, by simp⟩
    simp [k1, k3, k10] at hk
  · intro k s hk
    simp only [servingWorld, readerWorld] at hk
    by_cases k1 : k = 1
    · simp [k1] at hk; subst hk; decide
    by_cases k3 : k = 3
    · simp [k3] at hk; subst hk; decide
    by_cases k10 : k = 10
    · simp [k10] at hk; subst hk; decide
    simp [k1, k3, k10] at hk
  · intro c hc
    simp only [copied, List.mem_cons, List.not_mem_nil, or_false] at hc
    rcases hc with rfl | rfl
    · exact ⟨⟨by decide, by decide⟩, by decide, by decide, by decide⟩
    · exact ⟨⟨by decide, by decide⟩, by decide, by decide, by decide⟩
  · intro c hc d hd
    simp only [copied, List.mem_cons, List.not_mem_nil, or_false] at hc hd
    rcases hc with rfl | rfl <;> rcases hd with rfl | rfl <;> simp [Sep, VCall.packet]

/-- C100, a concrete case: a schedule that mixes two turns of the reader with both verdict calls; both verdicts
are sent, and a packet is delivered. -/
theorem C100_example : ∃ pc pcs w', csched someEnv packetKernel false copied
      [none, some 0, none, some 1, some 0, none, some 0, some 1, none, some 0, none, some 1, some 0, some 1, none, some 1, none, none]
      (.idle, allStart) servingWorld = .ok ((pc, pcs), w') ∧ pcs 0 = .done ∧ pcs 1 = .done ∧
    ∃ evs turns rest, w'.trace = evs ∧ (sentOf evs).length = 2 ∧ othersOf evs = turns.flatten ++ rest ∧ turns ≠ [] ∧
      ∀ g ∈ turns, Turn .little ⟨3, Slice.nil⟩ 1 2 3 64 g := by
  obtain ⟨hS, hO, hA, hok, hsep⟩ := serving_ok
  have hK : ∀ evs d, packetKernel.recv (servingWorld.trace ++ evs) 3 = .ok d → Decent .little (d.take 64) := by
    intro evs d hd
    have hd' : d = dgram1 := (Except.ok.inj hd).symm
    rw [hd', show dgram1.take 64 = dgram1 by decide]
    obtain ⟨attrs, p, hc, h4, _⟩ := dgram1_msg
    exact (carries_proper hc h4).decent
  have h1 := C100_completes someEnv (fun _ => rfl) packetKernel copied servingWorld ⟨3, Slice.nil⟩ 1 2 3 64 hS hO hA hok
    hsep (by decide) (by decide) hK
    [none, some 0, none, some 1, some 0, none, some 0, some 1, none, some 0, none, some 1, some 0, some 1, none, some 1, none, none]
  obtain ⟨pc, pcs, w', hr, evs, order, msg, turns, rest, a1, a2, a3, a4, a5, a6, a7, a8, a9, a10⟩ :=
    C100_serves_partial someEnv (fun _ => rfl) packetKernel false copied servingWorld ⟨3, Slice.nil⟩ 1 2 3 64 hS hO hA hok
    hsep (Or.inr (by decide)) (by decide) hK
    [none, some 0, none, some 1, some 0, none, some 0, some 1, none, some 0, none, some 1, some 0, some 1, none, some 1, none, none]
  obtain ⟨pc2, pcs2, w2, hr2, hdone⟩ := h1
  rw [hr] at hr2
  simp only [Res.ok.injEq, Prod.mk.injEq] at hr2
  obtain ⟨⟨rfl, rfl⟩, rfl⟩ := hr2
  have d0 := hdone 0 (by decide) (by decide)
  have d1 := hdone 1 (by decide) (by decide)
  refine ⟨pc, pcs, w', hr, d0, d1, evs, turns, rest, a1, ?_, a6, ?_, a7⟩
  · rw [a4, List.length_map]
    have h0 : 0 ∈ order := (a3 0).mpr ⟨by decide, d0⟩
    have h1 : 1 ∈ order := (a3 1).mpr ⟨by decide, d1⟩
    have hle : ∀ i ∈ order, i < 2 := fun i hi => ((a3 i).mp hi).1
    have : order.Perm [0, 1] := by
      rw [List.perm_ext_iff_of_nodup a2 (by decide)]
      intro i
      constructor
      · intro hi
        have := hle i hi
        match i, this with
        | 0, _ => simp
        | 1, _ => simp
      · intro hi
        simp only [List.mem_cons, List.not_mem_nil, or_false] at hi
        rcases hi with rfl | rfl
        · exact h0
        · exact h1
    rw [this.length_eq]; rfl
  · rintro rfl
    revert a10; decide

end Verif.Props
