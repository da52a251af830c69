import Verif.Props.PacketFrame
/-! C164: work on several TCP packets in separate memory does not mix. -/
namespace Verif.Packet
open Verif.Spec

/-- The memory of `s` and that of `t`, up to their capacities, do not overlap. -/
def MemApart (s t : Slice) : Prop := s.arr ≠ t.arr ∨ s.off + s.cap ≤ t.off ∨ t.off + t.cap ≤ s.off

/-- The slices of the caller an operation is handed. -/
def TcpOp.handed : TcpOp → List Slice
  | .attach o d => [o, d]
  | .setData d => [d]
  | _ => []

/-- The packets, the one numbered `i` being `p` now. -/
def setAt (ps : Nat → Packet) (i : Nat) (p : Packet) : Nat → Packet := fun j => if j = i then p else ps j

/-- A history of calls, each on the packet with the number given. -/
noncomputable def runTeam (grow : Nat → Nat) (h : Heap) (ps : Nat → Packet) :
    List (Nat × TcpOp) → Res (Heap × (Nat → Packet))
  | [] => .ok (h, ps)
  | (i, op) :: t => do
    let r ← op.run grow h (ps i)
    runTeam grow r.1 (setAt ps i r.2) t

/-- Every call is on one of the first `n` packets, is allowed at the moment it is made, and is handed only
slices of `D`. -/
def TeamAllowed (grow : Nat → Nat) (D : Slice → Prop) (n : Nat) (h : Heap) (ps : Nat → Packet) : List (Nat × TcpOp) → Prop
  | [] => True
  | (i, op) :: t => i < n ∧ op.Allowed h (ps i) ∧
    (∀ d ∈ op.handed, D d) ∧
    ∀ h' p', op.run grow h (ps i) = .ok (h', p') → TeamAllowed grow D n h' (setAt ps i p') t

/-- Whatever is clear of the slices a packet holds, of its buffer and of what a call hands it, is clear of the
slices the packet holds after the call. -/
theorem run_parts (grow : Nat → Nat) {h : Heap} {p : Packet} (hi : TcpInv h p) (op : TcpOp) (ha : op.Allowed h p)
    {h' : Heap} {p' : Packet} (he : op.run grow h p = .ok (h', p')) {s : Slice} {n : Nat} (hs : s.Valid h)
    (hn : n ≤ s.cap) (h0 : 0 < s.cap) (hap : MemApart s p.buffer) (hk : ∀ d ∈ op.handed, Clear s d 0 n)
    (ho : Clear s p.tcpOptions 0 n) (hd : Clear s p.tcpData 0 n) :
    Clear s p'.tcpOptions 0 n ∧ Clear s p'.tcpData 0 n := by
  have hr := hi.room
  have hc := hi.buf.1
  have hwl := window_length hi.buf
  have hcut : ∀ o : U16, DetachOk h p o → Clear s (cut p o).tcpOptions 0 n ∧ Clear s (cut p o).tcpData 0 n := by
    intro o hdo
    have k1 := hdo.inb
    have k2 := hdo.opt
    unfold cut
    refine ⟨?_, ?_⟩
    · show Clear s (if o = 0 then p.tcpOptions else _) 0 n
      split
      · exact ho
      · unfold Clear head tail
        unfold MemApart at hap
        simp only
        omega
    · show Clear s (if _ then p.tcpData else _) 0 n
      split
      · exact hd
      · unfold Clear tail
        unfold MemApart at hap
        simp only
        omega
  cases op with
  | incSeq n => cases (IncSeq_eq hi.buf hr n).symm.trans he; exact ⟨ho, hd⟩
  | decSeq n => cases (DecSeq_eq hi.buf hr n).symm.trans he; exact ⟨ho, hd⟩
  | incAck n => cases (IncAck_eq hi.buf hr n).symm.trans he; exact ⟨ho, hd⟩
  | decAck n => cases (DecAck_eq hi.buf hr n).symm.trans he; exact ⟨ho, hd⟩
  | detach o =>
    have hdo := Detachable.ok hi ha
    cases (Detach_eq hdo).symm.trans he
    exact hcut o hdo
  | attach o d =>
    obtain ⟨h1, h2, h3⟩ := ha
    by_cases hgo : p.TCPDataStartBytes = BitVec.ofNat 16 (p.buffer.len - p.ipHeaderLen.toNat) ∨ o.len = 0
    · have e := res_bind (f := fun r : Heap × Packet × Option Err => .ok (r.1, r.2.1)) (Attach_eq grow (d := d) hi.buf hr (hi.optsNil h1) hgo) rfl
      cases e.symm.trans he
      exact ⟨append_nil_clear grow (h.bytes o) hs h0, hk d (by simp [TcpOp.handed])⟩
    · have e := res_bind (f := fun r : Heap × Packet × Option Err => .ok (r.1, r.2.1)) (Attach_refused grow (d := d) hi.buf (by omega) hgo) rfl
      cases e.symm.trans he
      exact ⟨ho, hd⟩
  | dropData => cases he; exact ⟨ho, nil_clear _ _ _⟩
  | dropAll => cases he; exact ⟨nil_clear _ _ _, nil_clear _ _ _⟩
  | setData d => cases he; exact ⟨ho, hk d (by simp [TcpOp.handed])⟩
  | updateIP =>
    have h4 : p.version = .V4 := ha
    have h20 : p.ipHeaderLen = 20 := by
      rcases hi.hdr with ⟨_, h1⟩ | ⟨h1, _⟩
      · exact h1
      · rw [h4] at h1; exact absurd h1 (by decide)
    cases (UpdateIPv4_eq hi.buf h20 (by omega) (by omega)).symm.trans he
    exact ⟨ho, hd⟩
  | verifyIP =>
    have h4 : p.version = .V4 := ha
    have h20 : p.ipHeaderLen = 20 := by
      rcases hi.hdr with ⟨_, h1⟩ | ⟨h1, _⟩
      · exact h1
      · rw [h4] at h1; exact absurd h1 (by decide)
    have e := res_bind (f := fun r : Bool × Heap => .ok (r.2, p)) (VerifyIPv4_eq hi.buf h20 (by omega) (by omega)) rfl
    cases e.symm.trans he
    exact ⟨ho, hd⟩
  | updateTCP =>
    cases (UpdateTCP_eq (hi.mem ha)).symm.trans he
    exact ⟨ho, hd⟩
  | verifyTCP =>
    have e := res_bind (f := fun r : Bool × Heap => .ok (r.2, p)) (VerifyTCP_eq (hi.mem ha)) rfl
    cases e.symm.trans he
    exact ⟨ho, hd⟩
  | fixLength a b =>
    have e := Fixup_eq hi.buf hwl (by omega) a b
    rw [put_self] at e
    cases e.symm.trans he
    exact ⟨ho, hd⟩
  | toFinAck =>
    have hdo := Detachable.ok hi ha
    cases (ConvertAck_eq hdo).symm.trans he
    exact ⟨nil_clear _ _ _, nil_clear _ _ _⟩

/-- What holds of the packets from parsing on. -/
structure TeamInv (D : Slice → Prop) (n : Nat) (h : Heap) (ps : Nat → Packet) : Prop where
  inv : ∀ i, i < n → TcpInv h (ps i)
  apart : ∀ i j, i < n → j < n → i ≠ j → MemApart (ps i).buffer (ps j).buffer
  opts : ∀ i j, i < n → j < n → i ≠ j →
    Clear (ps i).buffer (ps j).tcpOptions 0 ((ps i).ipHeaderLen.toNat + 20)
  data : ∀ i j, i < n → j < n → i ≠ j →
    Clear (ps i).buffer (ps j).tcpData 0 ((ps i).ipHeaderLen.toNat + 20)
  ext : ∀ t, D t → t.Valid h ∧ ∀ j, j < n → Clear (ps j).buffer t 0 ((ps j).ipHeaderLen.toNat + 20)

/-- Packet `p` shows the same and has the same parts in `h` and in `h'`. -/
def SameParts (h : Heap) (p : Packet) (h' : Heap) (p' : Packet) : Prop :=
  p' = p ∧ h'.bytes p'.buffer = h.bytes p.buffer ∧ h'.bytes p'.tcpOptions = h.bytes p.tcpOptions ∧
    h'.bytes p'.tcpData = h.bytes p.tcpData

theorem apart_symm {s t : Slice} (h : MemApart s t) : MemApart t s := by unfold MemApart at *; omega

/-- The whole memory of `s` is clear of the headers of a packet apart from it. -/
theorem apart_clear {s t : Slice} (h : MemApart s t) {n : Nat} (hn : n ≤ s.cap) :
    Clear s ⟨t.arr, t.off, t.cap, t.cap⟩ 0 n := by
  unfold Clear; unfold MemApart at h; simp only; omega

theorem inv_same {h h' : Heap} {p : Packet} (hi : TcpInv h p) (hb : p.buffer.Valid h')
    (hw : window h' p.buffer = window h p.buffer) (ho : p.tcpOptions.Valid h') (hd : p.tcpData.Valid h') :
    TcpInv h' p :=
  ⟨hb, hi.hdr, hi.room, hi.proto, by rw [hw]; exact hi.ip, by rw [hw]; exact hi.tcp, ho, hd, hi.optsClear,
    hi.dataClear, hi.optsNil, hi.hash⟩

theorem team_step (grow : Nat → Nat) {D : Slice → Prop} {n : Nat} {h : Heap} {ps : Nat → Packet}
    (hi : TeamInv D n h ps) {i : Nat} {op : TcpOp} (hin : i < n) (ha : op.Allowed h (ps i))
    (hk : ∀ d ∈ op.handed, D d) :
    ∃ h' p', op.run grow h (ps i) = .ok (h', p') ∧ TeamInv D n h' (setAt ps i p') ∧
      (∀ t, D t → h'.bytes t = h.bytes t) ∧
      ∀ j, j < n → j ≠ i → SameParts h (ps j) h' (setAt ps i p' j) ∧
        window h' (ps j).buffer = window h (ps j).buffer := by
  obtain ⟨h', p', hr, hi', _⟩ := run_ok grow (hi.inv i hin) op ha
  obtain ⟨⟨f1, f2, f3, f4⟩, hu⟩ := run_frame grow (hi.inv i hin) op ha hr
  have hcap : ∀ j, j < n → (ps j).ipHeaderLen.toNat + 20 ≤ (ps j).buffer.cap := fun j hj => by
    have k1 := (hi.inv j hj).room
    have k2 := (hi.inv j hj).buf.1
    omega
  have other : ∀ j, j < n → j ≠ i → TcpInv h' (ps j) ∧ SameParts h (ps j) h' (ps j) ∧
      window h' (ps j).buffer = window h (ps j).buffer := by
    intro j hj hji
    have hj' := hi.inv j hj
    have hap := hi.apart i j hin hj (fun e => hji e.symm)
    obtain ⟨_, w2⟩ := hu ⟨(ps j).buffer.arr, (ps j).buffer.off, (ps j).buffer.cap, (ps j).buffer.cap⟩
      ⟨Nat.le_refl _, hj'.buf.2⟩ (apart_clear hap (hcap i hin))
    have w2 : window h' (ps j).buffer = window h (ps j).buffer := w2
    obtain ⟨b1, b2⟩ := hu (ps j).buffer hj'.buf (by
      have k := hj'.buf.1
      have kc := hcap i hin
      unfold Clear; unfold MemApart at hap; omega)
    obtain ⟨o1, o2⟩ := hu _ hj'.opts (hi.opts i j hin hj (fun e => hji e.symm))
    obtain ⟨d1, d2⟩ := hu _ hj'.data (hi.data i j hin hj (fun e => hji e.symm))
    exact ⟨inv_same hj' b1 w2 o1 d1, ⟨rfl, b2, o2, d2⟩, w2⟩
  have parts : ∀ j, j < n → j ≠ i → Clear (ps j).buffer p'.tcpOptions 0 ((ps j).ipHeaderLen.toNat + 20) ∧
      Clear (ps j).buffer p'.tcpData 0 ((ps j).ipHeaderLen.toNat + 20) := by
    intro j hj hji
    have kc := hcap j hj
    exact run_parts grow (hi.inv i hin) op ha hr (hi.inv j hj).buf kc (by omega) (hi.apart j i hj hin hji)
      (fun d hd => (hi.ext d (hk d hd)).2 j hj) (hi.opts j i hj hin hji) (hi.data j i hj hin hji)
  have at_i : setAt ps i p' i = p' := by simp [setAt]
  have at_j : ∀ j, j ≠ i → setAt ps i p' j = ps j := fun j hj => by simp [setAt, hj]
  have hap' : ∀ s, MemApart s (ps i).buffer → MemApart s p'.buffer := by
    intro s hs
    unfold MemApart at *
    rw [f1, f2, f3]; exact hs
  refine ⟨h', p', hr, ⟨?_, ?_, ?_, ?_, ?_⟩, fun t ht => (hu t (hi.ext t ht).1 ((hi.ext t ht).2 i hin)).2, fun j hj hji => by rw [at_j j hji]; exact (other j hj hji).2⟩
  · intro j hj
    by_cases hji : j = i
    · subst hji; rw [at_i]; exact hi'
    · rw [at_j j hji]; exact (other j hj hji).1
  · intro a b hna hnb hab
    by_cases hai : a = i
    · subst hai
      rw [at_i, at_j b (fun e => hab e.symm)]
      exact apart_symm (hap' _ (hi.apart b a hnb hna (fun e => hab e.symm)))
    · rw [at_j a hai]
      by_cases hbi : b = i
      · subst hbi; rw [at_i]; exact hap' _ (hi.apart a b hna hnb hab)
      · rw [at_j b hbi]; exact hi.apart a b hna hnb hab
  · intro a b hna hnb hab
    by_cases hai : a = i
    · subst hai
      rw [at_i, at_j b (fun e => hab e.symm), f4]
      have k := hi.opts a b hna hnb hab
      unfold Clear at *
      rw [f1, f2]; exact k
    · rw [at_j a hai]
      by_cases hbi : b = i
      · subst hbi; rw [at_i]; exact (parts a hna hai).1
      · rw [at_j b hbi]; exact hi.opts a b hna hnb hab
  · intro a b hna hnb hab
    by_cases hai : a = i
    · subst hai
      rw [at_i, at_j b (fun e => hab e.symm), f4]
      have k := hi.data a b hna hnb hab
      unfold Clear at *
      rw [f1, f2]; exact k
    · rw [at_j a hai]
      by_cases hbi : b = i
      · subst hbi; rw [at_i]; exact (parts a hna hai).2
      · rw [at_j b hbi]; exact hi.data a b hna hnb hab
  · intro t ht
    obtain ⟨t1, t2⟩ := hi.ext t ht
    refine ⟨(hu t t1 (t2 i hin)).1, fun j hj => ?_⟩
    by_cases hji : j = i
    · subst hji
      rw [at_i, f4]
      have k := t2 j hj
      unfold Clear at *
      rw [f1, f2]; exact k
    · rw [at_j j hji]; exact t2 j hj

/-! ### The same calls on one packet alone -/

/-- `p` in `h` and `q` in `g` differ only in where their options are kept. -/
structure Sim (D : Slice → Prop) (h : Heap) (p : Packet) (g : Heap) (q : Packet) : Prop where
  inv : TcpInv h p
  invr : TcpInv g q
  record : q = { p with tcpOptions := q.tcpOptions }
  win : window g p.buffer = window h p.buffer
  opts : g.bytes q.tcpOptions = h.bytes p.tcpOptions
  data : g.bytes p.tcpData = h.bytes p.tcpData
  ext : ∀ t, D t → t.Valid h ∧ t.Valid g ∧ g.bytes t = h.bytes t ∧
    Clear p.buffer t 0 (p.ipHeaderLen.toNat + 20)

theorem win_put {h g : Heap} {s : Slice} (hv : s.Valid h) (gv : s.Valid g) {W V : List Byte}
    (hW : W.length = s.cap) (e : V = W) : window (put g s V) s = window (put h s W) s := by
  subst e
  rw [window_put hv hW, window_put gv hW]

/-- The bytes of a slice within `s` are part of the window of `s`. -/
theorem bytes_within {h : Heap} {s t : Slice} (ha : t.arr = s.arr) (h1 : s.off ≤ t.off)
    (h2 : t.off + t.len ≤ s.off + s.cap) :
    h.bytes t = ((window h s).drop (t.off - s.off)).take t.len := by
  unfold Heap.bytes window
  rw [ha]
  apply List.ext_getElem?
  intro j
  rw [List.getElem?_take, List.getElem?_take]
  split
  · rw [List.getElem?_drop, List.getElem?_drop, List.getElem?_take, if_pos (by omega), List.getElem?_drop]
    congr 1; omega
  · rfl

theorem sim_step (grow : Nat → Nat) {D : Slice → Prop} {h g : Heap} {p q : Packet} (hs : Sim D h p g q)
    {op : TcpOp} (ha : op.Allowed h p) (hk : ∀ d ∈ op.handed, D d) {h' : Heap} {p' : Packet}
    (he : op.run grow h p = .ok (h', p')) :
    op.Allowed g q ∧ ∃ g' q', op.run grow g q = .ok (g', q') ∧ Sim D h' p' g' q' := by
  obtain ⟨hi, gi, hrec, hw, hopts, hdata, hext⟩ := hs
  generalize q.tcpOptions = o at hrec
  subst hrec
  have hopts : g.bytes o = h.bytes p.tcpOptions := hopts
  have hol : o.len = p.tcpOptions.len := by
    have k1 := Heap.bytes_length hi.opts
    have k2 := Heap.bytes_length gi.opts
    have k2 : (g.bytes o).length = o.len := k2
    rw [hopts, k1] at k2; exact k2.symm
  have hr := hi.room
  have hc := hi.buf.1
  have hwl := window_length hi.buf
  have hg := hi.ge.1
  have hb := hi.buf
  have gb : p.buffer.Valid g := gi.buf
  obtain ⟨h1, p1, e1, hi', _⟩ := run_ok grow hi op ha
  cases e1.symm.trans he
  obtain ⟨⟨f1, f2, f3, f4⟩, hu⟩ := run_frame grow hi op ha e1
  have fin : ∀ {g' : Heap} {q' : Packet}, op.Allowed g { p with tcpOptions := o } →
      op.run grow g { p with tcpOptions := o } = .ok (g', q') →
      q' = { p' with tcpOptions := q'.tcpOptions } → window g' p'.buffer = window h' p'.buffer →
      ((∀ t, t.Valid g → Clear p.buffer t 0 (p.ipHeaderLen.toNat + 20) → g'.bytes t = g.bytes t) →
        (∀ t, t.Valid h → Clear p.buffer t 0 (p.ipHeaderLen.toNat + 20) → h'.bytes t = h.bytes t) →
        g'.bytes q'.tcpOptions = h'.bytes p'.tcpOptions ∧ g'.bytes p'.tcpData = h'.bytes p'.tcpData) →
      op.Allowed g { p with tcpOptions := o } ∧
        ∃ g' q', op.run grow g { p with tcpOptions := o } = .ok (g', q') ∧ Sim D h' p' g' q' := by
    intro g' q' gal er e2 e3 e4
    obtain ⟨g1, q1, x1, gi', _⟩ := run_ok grow gi op gal
    cases x1.symm.trans er
    obtain ⟨_, gu⟩ := run_frame grow gi op gal x1
    obtain ⟨e5, e6⟩ := e4 (fun t ht hct => (gu t ht hct).2) (fun t ht hct => (hu t ht hct).2)
    refine ⟨gal, _, _, x1, hi', gi', e2, e3, e5, e6, fun t ht => ?_⟩
    obtain ⟨t1, t2, t3, t4⟩ := hext t ht
    have k1 := hu t t1 t4
    have k2 := gu t t2 t4
    refine ⟨k1.1, k2.1, by rw [k1.2, k2.2]; exact t3, ?_⟩
    unfold Clear at *
    rw [f1, f2, f4]; exact t4
  have keep : ∀ {g' h' : Heap},
      (∀ t, t.Valid g → Clear p.buffer t 0 (p.ipHeaderLen.toNat + 20) → g'.bytes t = g.bytes t) →
      (∀ t, t.Valid h → Clear p.buffer t 0 (p.ipHeaderLen.toNat + 20) → h'.bytes t = h.bytes t) →
      g'.bytes o = h'.bytes p.tcpOptions ∧ g'.bytes p.tcpData = h'.bytes p.tcpData := by
    intro g' h' k1 k2
    rw [k1 o gi.opts gi.optsClear, k2 _ hi.opts hi.optsClear, k1 _ gi.data gi.dataClear,
      k2 _ hi.data hi.dataClear]
    exact ⟨hopts, hdata⟩
  have wl : ∀ (i : Nat) (bs : List Byte), i + bs.length ≤ p.ipHeaderLen.toNat + 20 →
      (splice (window h p.buffer) i bs).length = p.buffer.cap := by
    intro i bs hib
    rw [splice_length _ _ _ (by omega)]; exact hwl
  cases op with
  | incSeq n =>
    cases (IncSeq_eq hi.buf hr n).symm.trans he
    exact fin trivial (IncSeq_eq (p := { p with tcpOptions := o }) gb hr n) rfl (win_put hb gb (wl _ _ (by simp)) (by rw [← hw])) keep
  | decSeq n =>
    cases (DecSeq_eq hi.buf hr n).symm.trans he
    exact fin trivial (DecSeq_eq (p := { p with tcpOptions := o }) gb hr n) rfl (win_put hb gb (wl _ _ (by simp)) (by rw [← hw])) keep
  | incAck n =>
    cases (IncAck_eq hi.buf hr n).symm.trans he
    exact fin trivial (IncAck_eq (p := { p with tcpOptions := o }) gb hr n) rfl (win_put hb gb (wl _ _ (by simp)) (by rw [← hw])) keep
  | decAck n =>
    cases (DecAck_eq hi.buf hr n).symm.trans he
    exact fin trivial (DecAck_eq (p := { p with tcpOptions := o }) gb hr n) rfl (win_put hb gb (wl _ _ (by simp)) (by rw [← hw])) keep
  | detach n =>
    have hd := Detachable.ok hi ha
    have gd : DetachOk g { p with tcpOptions := o } n := Detachable.ok gi ha
    cases (Detach_eq hd).symm.trans he
    have k1 := hd.inb
    have k2 := hd.opt
    have hwin : window (put g p.buffer (detachedBytes p (window g p.buffer) n)) p.buffer =
        window (put h p.buffer (detachedBytes p (window h p.buffer) n)) p.buffer :=
      win_put hb gb (by rw [detachedBytes_length hg (by omega)]; exact hwl) (by rw [← hw])
    have own : ∀ t : Slice, t.arr = p.buffer.arr → p.buffer.off ≤ t.off →
        t.off + t.len ≤ p.buffer.off + p.buffer.cap →
        (put g p.buffer (detachedBytes p (window g p.buffer) n)).bytes t =
          (put h p.buffer (detachedBytes p (window h p.buffer) n)).bytes t := by
      intro t t1 t2 t3
      rw [bytes_within t1 t2 t3, bytes_within t1 t2 t3, hwin]
    refine fin ha (Detach_eq gd) rfl hwin (fun a b => ?_)
    obtain ⟨c1, c2⟩ := keep a b
    refine ⟨?_, ?_⟩
    · show (put g p.buffer (detachedBytes p (window g p.buffer) n)).bytes (if n = 0 then o else _) =
        (put h p.buffer (detachedBytes p (window h p.buffer) n)).bytes (if n = 0 then p.tcpOptions else _)
      split
      · exact c1
      · refine own _ rfl ?_ ?_ <;> simp only [head, tail] <;> omega
    · show (put g p.buffer (detachedBytes p (window g p.buffer) n)).bytes (if _ then p.tcpData else _) =
        (put h p.buffer (detachedBytes p (window h p.buffer) n)).bytes (if _ then p.tcpData else _)
      split
      · exact c2
      · refine own _ rfl ?_ ?_ <;> simp only [tail] <;> omega
  | attach oa d =>
    obtain ⟨h1, h2, h3⟩ := ha
    obtain ⟨_, _, od, _⟩ := hext oa (hk oa (by simp [TcpOp.handed]))
    obtain ⟨dh, dg, dd, dc⟩ := hext d (hk d (by simp [TcpOp.handed]))
    have h1 : p.tcpOptions.len = 0 := h1
    have gal : TcpOp.Allowed g { p with tcpOptions := o } (.attach oa d) :=
      ⟨by show o.len = 0; rw [hol]; exact h1, ⟨dg, h2.2⟩, h3⟩
    by_cases hgo : p.TCPDataStartBytes = BitVec.ofNat 16 (p.buffer.len - p.ipHeaderLen.toNat) ∨ oa.len = 0
    · have e := res_bind (f := fun r : Heap × Packet × Option Err => .ok (r.1, r.2.1)) (Attach_eq grow (d := d) hi.buf hr (hi.optsNil h1) hgo) rfl
      cases e.symm.trans he
      have e' := res_bind (f := fun r : Heap × Packet × Option Err => .ok (r.1, r.2.1))
        (Attach_eq grow (p := { p with tcpOptions := o }) (d := d) gb hr (gi.optsNil (by show o.len = 0; rw [hol]; exact h1)) hgo) rfl
      obtain ⟨hf1, hf2, _, hold⟩ := append_nil_spec grow (h := h) (h.bytes oa)
      obtain ⟨gf1, gf2, _, gold⟩ := append_nil_spec grow (h := g) (g.bytes oa)
      have hw' := window_append_nil grow (h := h) (h.bytes oa) hb
      have gw' := window_append_nil grow (h := g) (g.bytes oa) gb
      have hl : (attachedBytes p (window h p.buffer) oa.len d.len).length = p.buffer.cap := by
        rw [attachedBytes_length hg (by omega)]; exact hwl
      have gwl : (window g p.buffer).length = p.buffer.cap := window_length gb
      have gl : (attachedBytes p (window g p.buffer) oa.len d.len).length = p.buffer.cap := by
        rw [attachedBytes_length hg (by omega)]; exact gwl
      refine fin gal e' rfl (win_put (hold _ hb).1 (gold _ gb).1 hl (by rw [← hw]; rfl)) (fun a b => ⟨?_, ?_⟩)
      · have x1 := (put_untouched (n := p.ipHeaderLen.toNat + 20) (W := attachedBytes p (window h p.buffer) oa.len d.len)
          (hold _ hb).1 hl (by omega) (by rw [hw', attachedBytes_drop hg (by omega)]) _ hf2
          (append_nil_clear grow (h.bytes oa) hb (by omega))).2
        have x2 := (put_untouched (n := p.ipHeaderLen.toNat + 20) (W := attachedBytes p (window g p.buffer) oa.len d.len)
          (gold _ gb).1 gl (by omega) (by rw [gw', attachedBytes_drop hg (by omega)]) _ gf2
          (append_nil_clear grow (g.bytes oa) gb (by omega))).2
        refine Eq.trans x2 (Eq.trans ?_ x1.symm)
        rw [gf1, hf1]; exact od
      · have y1 := a d dg dc
        have y2 := b d dh dc
        exact y1.trans (dd.trans y2.symm)
    · have e := res_bind (f := fun r : Heap × Packet × Option Err => .ok (r.1, r.2.1)) (Attach_refused grow (d := d) hi.buf (by omega) hgo) rfl
      cases e.symm.trans he
      exact fin gal (res_bind (f := fun r : Heap × Packet × Option Err => .ok (r.1, r.2.1))
        (Attach_refused grow (p := { p with tcpOptions := o }) (d := d) gb (by show p.ipHeaderLen.toNat ≤ p.buffer.len; omega) hgo) rfl) rfl hw keep
  | dropData => cases he; exact fin trivial rfl rfl hw (fun a b => ⟨(keep a b).1, rfl⟩)
  | dropAll => cases he; exact fin trivial rfl rfl hw (fun _ _ => ⟨rfl, rfl⟩)
  | setData d =>
    obtain ⟨dh, dg, dd, dc⟩ := hext d (hk d (by simp [TcpOp.handed]))
    have ha : Foreign h p d := ha
    cases he
    exact fin (show Foreign g { p with tcpOptions := o } d from ⟨dg, ha.2⟩) rfl rfl hw (fun a b => ⟨(keep a b).1, dd⟩)
  | updateIP =>
    have h4 : p.version = .V4 := ha
    have h20 : p.ipHeaderLen = 20 := by
      rcases hi.hdr with ⟨_, h1⟩ | ⟨h1, _⟩
      · exact h1
      · rw [h4] at h1; exact absurd h1 (by decide)
    cases (UpdateIPv4_eq hi.buf h20 (by omega) (by omega)).symm.trans he
    have k := UpdateIPv4_eq (p := { p with tcpOptions := o }) gb h20 (by show 12 ≤ p.buffer.len; omega) (by show 20 ≤ p.buffer.cap; omega)
    exact fin h4 k (by show _ = _; simp only [hw]) (win_put hb gb (wl _ _ (by simp)) (by rw [← hw])) keep
  | verifyIP =>
    have h4 : p.version = .V4 := ha
    have h20 : p.ipHeaderLen = 20 := by
      rcases hi.hdr with ⟨_, h1⟩ | ⟨h1, _⟩
      · exact h1
      · rw [h4] at h1; exact absurd h1 (by decide)
    have e := res_bind (f := fun r : Bool × Heap => .ok (r.2, p)) (VerifyIPv4_eq hi.buf h20 (by omega) (by omega)) rfl
    cases e.symm.trans he
    have k := res_bind (f := fun r : Bool × Heap => .ok (r.2, { p with tcpOptions := o })) (VerifyIPv4_eq (p := { p with tcpOptions := o }) gb h20 (by show 12 ≤ p.buffer.len; omega) (by show 20 ≤ p.buffer.cap; omega)) rfl
    exact fin h4 k rfl (win_put hb gb (wl _ _ (by simp)) (by rw [← hw])) keep
  | updateTCP =>
    have gal : TcpOp.Allowed g { p with tcpOptions := o } .updateTCP := by
      have ha : p.buffer.len - p.ipHeaderLen.toNat + p.tcpOptions.len + p.tcpData.len < 65536 := ha
      show p.buffer.len - p.ipHeaderLen.toNat + o.len + p.tcpData.len < 65536
      rw [hol]; exact ha
    cases (UpdateTCP_eq (hi.mem ha)).symm.trans he
    have hck : tcpCks { p with tcpOptions := o } (window g p.buffer) (g.bytes o) (g.bytes p.tcpData) =
        tcpCks p (window h p.buffer) (h.bytes p.tcpOptions) (h.bytes p.tcpData) := by
      rw [hw, hopts, hdata]; rfl
    have k := UpdateTCP_eq (gi.mem gal)
    have k : UpdateTCPChecksum g { p with tcpOptions := o } = .ok (put g p.buffer
        (splice (window g p.buffer) (p.ipHeaderLen.toNat + 16)
          (enc16 .big (tcpCks { p with tcpOptions := o } (window g p.buffer) (g.bytes o) (g.bytes p.tcpData)))),
        { p with
          tcpOptions := o
          tcpChecksum := tcpCks { p with tcpOptions := o } (window g p.buffer) (g.bytes o) (g.bytes p.tcpData) }) := k
    rw [hck] at k
    exact fin gal k rfl (win_put hb gb (wl _ _ (by simp)) (by rw [← hw])) keep
  | verifyTCP =>
    have gal : TcpOp.Allowed g { p with tcpOptions := o } .verifyTCP := by
      have ha : p.buffer.len - p.ipHeaderLen.toNat + p.tcpOptions.len + p.tcpData.len < 65536 := ha
      show p.buffer.len - p.ipHeaderLen.toNat + o.len + p.tcpData.len < 65536
      rw [hol]; exact ha
    have e := res_bind (f := fun r : Bool × Heap => .ok (r.2, p)) (VerifyTCP_eq (hi.mem ha)) rfl
    cases e.symm.trans he
    have k := res_bind (f := fun r : Bool × Heap => .ok (r.2, { p with tcpOptions := o })) (VerifyTCP_eq (gi.mem gal)) rfl
    exact fin gal k rfl hw keep
  | fixLength a b =>
    have e := Fixup_eq hi.buf hwl (by omega) a b
    rw [put_self] at e
    cases e.symm.trans he
    have k := Fixup_eq (p := { p with tcpOptions := o }) gb (W := window g p.buffer) (window_length gb) (by show 12 ≤ p.buffer.cap; omega) a b
    have k : FixupIPHdrOnDataModify (put g p.buffer (window g p.buffer)) { p with tcpOptions := o } a b =
      .ok (put g p.buffer (fixedBytes p (window g p.buffer) a b), fixed { p with tcpOptions := o } a b) := k
    rw [put_self] at k
    exact fin trivial k rfl (win_put hb gb (by rw [fixedBytes_length (by omega)]; exact hwl) (by rw [← hw])) keep
  | toFinAck =>
    have hd := Detachable.ok hi ha
    have gd : DetachOk g { p with tcpOptions := o } 0 := Detachable.ok gi ha
    cases (ConvertAck_eq hd).symm.trans he
    have hl : (splice (window h p.buffer) (p.ipHeaderLen.toNat + 13) [0x11]).length = p.buffer.cap := wl _ _ (by simp)
    have hwin : window (put g p.buffer (detachedBytes p (splice (window g p.buffer) (p.ipHeaderLen.toNat + 13) [0x11]) 0)) p.buffer =
        window (put h p.buffer (detachedBytes p (splice (window h p.buffer) (p.ipHeaderLen.toNat + 13) [0x11]) 0)) p.buffer :=
      win_put hb gb (by rw [detachedBytes_length hg (by omega)]; exact hl) (by rw [← hw])
    exact fin ha (ConvertAck_eq gd) rfl hwin (fun _ _ => ⟨rfl, rfl⟩)

/-- The calls of a history that are on packet `i`. -/
def own (i : Nat) : List (Nat × TcpOp) → List TcpOp
  | [] => []
  | (j, op) :: t => if j = i then op :: own i t else own i t

theorem team_sim (grow : Nat → Nat) {D : Slice → Prop} {n : Nat} (ops : List (Nat × TcpOp)) {h : Heap}
    {ps : Nat → Packet} (hi : TeamInv D n h ps) (ha : TeamAllowed grow D n h ps ops) :
    ∃ h' ps', runTeam grow h ps ops = .ok (h', ps') ∧ TeamInv D n h' ps' ∧
      ∀ i, i < n → ∀ g q, Sim D h (ps i) g q →
        AllAllowed grow g q (own i ops) ∧
          ∃ g' q', runOps grow g q (own i ops) = .ok (g', q') ∧ Sim D h' (ps' i) g' q' := by
  induction ops generalizing h ps with
  | nil => exact ⟨h, ps, rfl, hi, fun i _ g q hs => ⟨trivial, g, q, rfl, hs⟩⟩
  | cons x t ih =>
    obtain ⟨k, op⟩ := x
    obtain ⟨a1, a2, a3, a4⟩ := ha
    obtain ⟨h1, p1, hr, hi1, hD, hoth⟩ := team_step grow hi a1 a2 a3
    obtain ⟨h2, ps2, hr2, hi2, hsim⟩ := ih hi1 (a4 _ _ hr)
    refine ⟨h2, ps2, ?_, hi2, ?_⟩
    · show (op.run grow h (ps k) >>= _) = _
      rw [hr, Res.ok_bind]
      exact hr2
    · intro i hin g q hs
      by_cases hki : k = i
      · subst hki
        obtain ⟨gal, g1, q1, e1, s1⟩ := sim_step grow hs a2 a3 hr
        obtain ⟨al, g2, q2, e2, s2⟩ := hsim k hin g1 q1 (by
          rw [show setAt ps k p1 k = p1 by simp [setAt]]; exact s1)
        rw [show own k ((k, op) :: t) = op :: own k t by simp [own]]
        refine ⟨⟨gal, fun g3 q3 e3 => by cases e1.symm.trans e3; exact al⟩, g2, q2, ?_, s2⟩
        show (op.run grow g q >>= _) = _
        rw [e1, Res.ok_bind]
        exact e2
      · have hik : i ≠ k := fun e => hki e.symm
        have es : setAt ps k p1 i = ps i := by simp [setAt, hik]
        obtain ⟨hsame, hwin⟩ := hoth i hin hik
        obtain ⟨_, _, so, sd⟩ := hsame
        rw [es] at so sd
        obtain ⟨al, g2, q2, e2, s2⟩ := hsim i hin g q (by
          rw [es]
          refine ⟨by have k := hi1.inv i hin; rw [es] at k; exact k, hs.invr, hs.record, by rw [hwin]; exact hs.win,
            by rw [so]; exact hs.opts, by rw [sd]; exact hs.data, fun d hd => ?_⟩
          obtain ⟨t1, t2, t3, t4⟩ := hs.ext d hd
          exact ⟨(hi1.ext d hd).1, t2, by rw [hD d hd]; exact t3, t4⟩)
        rw [show own i ((k, op) :: t) = own i t by simp [own, hki]]
        exact ⟨al, g2, q2, e2, s2⟩

/-! ### Capacities do not matter

A slice of a larger buffer has a capacity that reaches into what follows it; nothing an allowed call does depends
on it. -/

/-- `p` with other capacities. -/
def clip (c co cd : Nat) (p : Packet) : Packet :=
  { p with
    buffer := ⟨p.buffer.arr, p.buffer.off, p.buffer.len, c⟩
    tcpOptions := ⟨p.tcpOptions.arr, p.tcpOptions.off, p.tcpOptions.len, co⟩
    tcpData := ⟨p.tcpData.arr, p.tcpData.off, p.tcpData.len, cd⟩ }

/-- `r` is `p` with the capacity `C` of the buffer cut down to `c`. -/
def Clip (c C : Nat) (p r : Packet) : Prop :=
  p.buffer.cap = C ∧ c ≤ C ∧ ∃ co cd, r = clip c co cd p

theorem window_clip (h : Heap) (s : Slice) {c l : Nat} (hc : c ≤ s.cap) :
    window h ⟨s.arr, s.off, l, c⟩ = (window h s).take c := by
  unfold window
  rw [List.take_take, Nat.min_eq_left hc]

theorem splice_take {W : List Byte} {i c : Nat} {bs : List Byte} (hi : i + bs.length ≤ c) (hc : c ≤ W.length) :
    splice (W.take c) i bs = (splice W i bs).take c := by
  apply List.ext_getElem?
  intro j
  rw [splice_getElem? _ _ _ (by rw [List.length_take, Nat.min_eq_left hc]; exact hi), List.getElem?_take,
    List.getElem?_take, splice_getElem? _ _ _ (by omega)]
  split
  · rw [if_pos (by omega)]
  · rfl

theorem put_clip {h : Heap} {s : Slice} (hv : s.Valid h) {W : List Byte} (hW : W.length = s.cap) {c l : Nat}
    (hc : c ≤ s.cap) (hd : W.drop c = (window h s).drop c) :
    put h ⟨s.arr, s.off, l, c⟩ (W.take c) = put h s W := by
  have k := write_put hv (window_length hv) (k := 0) (bs := W.take c) (by rw [List.length_take]; omega)
  rw [put_self] at k
  have e : splice (window h s) 0 (W.take c) = W := by
    unfold splice
    rw [List.length_take, Nat.min_eq_left (by omega), Nat.zero_add, ← hd]
    simp
  rw [e] at k
  exact k

theorem fixedBytes_clip {p : Packet} {W : List Byte} {c : Nat} (h12 : 12 ≤ c) (hc : c ≤ W.length) (a b : U16) :
    fixedBytes p (W.take c) a b = (fixedBytes p W a b).take c := by
  unfold fixedBytes
  split
  · rw [splice_take (by simp; omega) hc, splice_take (by simp; omega) (by rw [splice_length _ _ _ (by simp; omega)]; exact hc)]
  · rw [splice_take (by simp; omega) hc]

theorem detachedBytes_clip {p : Packet} {W : List Byte} {c : Nat} (hg : 20 ≤ p.ipHeaderLen.toNat)
    (h20 : p.ipHeaderLen.toNat + 20 ≤ c) (hc : c ≤ W.length) (o : U16) :
    detachedBytes p (W.take c) o = (detachedBytes p W o).take c := by
  unfold detachedBytes
  rw [splice_take (by rw [List.length_singleton]; omega) hc,
    fixedBytes_clip (by omega) (by rw [splice_length _ _ _ (by rw [List.length_singleton]; omega)]; exact hc)]

theorem attachedBytes_clip {p : Packet} {W : List Byte} {c : Nat} (hg : 20 ≤ p.ipHeaderLen.toNat)
    (h20 : p.ipHeaderLen.toNat + 20 ≤ c) (hc : c ≤ W.length) (a b : Nat) :
    attachedBytes p (W.take c) a b = (attachedBytes p W a b).take c := by
  unfold attachedBytes
  have hf := fixedBytes_length (p := p) (W := W) (by omega) p.ipTotalLength (p.ipTotalLength + BitVec.ofNat 16 (b + a))
  have h1 : p.ipHeaderLen.toNat + 16 + (enc16 .big p.tcpChecksum).length ≤ c := by simp; omega
  rw [fixedBytes_clip (by omega) hc, splice_take h1 (by rw [hf]; exact hc),
    splice_take (by rw [List.length_singleton]; omega) (by rw [splice_length _ _ _ (by rw [hf]; omega), hf]; exact hc)]

theorem tcpCks_clip {p : Packet} (hh : HdrOk p) {W opts data : List Byte} {c co cd : Nat}
    (h20 : p.ipHeaderLen.toNat ≤ c) (hl : p.buffer.len ≤ c) :
    tcpCks (clip c co cd p) (W.take c) opts data = tcpCks p W opts data := by
  have ea : wireAddrs (clip c co cd p) (W.take c) = wireAddrs p W := by
    unfold wireAddrs
    show (match p.version with | .V4 => _ | .V6 => _) = _
    rcases hh.nat with ⟨e1, e2⟩ | ⟨e1, e2⟩
    · simp only [e1]
      rw [part_take (by omega), part_take (by omega)]
    · simp only [e1]
      rw [part_take (by omega), part_take (by omega)]
  unfold tcpCks tcpSum
  rw [ea, List.take_take]
  show BitVec.ofNat 16 (65535 - red (_ + _ + _ + wsum (splice ((W.take (min p.buffer.len c)).drop p.ipHeaderLen.toNat) 16 [0, 0]) + _ + _)) = _
  rw [Nat.min_eq_left hl]
  rfl

theorem ipWire_take {v : IPver} {tot csum : U16} {proto : Byte} {src dst W : List Byte} {c : Nat}
    (h20 : 20 ≤ c) (h40 : v = .V6 → 40 ≤ c) :
    IPWire v tot csum proto src dst (W.take c) ↔ IPWire v tot csum proto src dst W := by
  constructor
  · rintro ⟨k1, k2, k3, k4, k5, k6, k7, k8, k9, k10⟩
    refine ⟨fun e => ?_, fun e => ?_, fun e => ?_, fun e => ?_, fun e => ?_, fun e => ?_, fun e => ?_, fun e => ?_, fun e => ?_, fun e => ?_⟩
    · rw [← u8at_take (n := c) (by omega)]; exact k1 e
    · rw [← u16at_take (n := c) (by omega)]; exact k2 e
    · rw [← u16at_take (n := c) (by omega)]; exact k3 e
    · rw [← u8at_take (n := c) (by omega)]; exact k4 e
    · rw [← part_take (n := c) (by omega)]; exact k5 e
    · rw [← part_take (n := c) (by omega)]; exact k6 e
    · rw [← u16at_take (n := c) (by omega)]; exact k7 e
    · rw [← u8at_take (n := c) (by omega)]; exact k8 e
    · have := h40 e; rw [← part_take (n := c) (by omega)]; exact k9 e
    · have := h40 e; rw [← part_take (n := c) (by omega)]; exact k10 e
  · rintro ⟨k1, k2, k3, k4, k5, k6, k7, k8, k9, k10⟩
    refine ⟨fun e => ?_, fun e => ?_, fun e => ?_, fun e => ?_, fun e => ?_, fun e => ?_, fun e => ?_, fun e => ?_, fun e => ?_, fun e => ?_⟩
    · rw [u8at_take (n := c) (by omega)]; exact k1 e
    · rw [u16at_take (n := c) (by omega)]; exact k2 e
    · rw [u16at_take (n := c) (by omega)]; exact k3 e
    · rw [u8at_take (n := c) (by omega)]; exact k4 e
    · rw [part_take (n := c) (by omega)]; exact k5 e
    · rw [part_take (n := c) (by omega)]; exact k6 e
    · rw [u16at_take (n := c) (by omega)]; exact k7 e
    · rw [u8at_take (n := c) (by omega)]; exact k8 e
    · have := h40 e; rw [part_take (n := c) (by omega)]; exact k9 e
    · have := h40 e; rw [part_take (n := c) (by omega)]; exact k10 e

theorem tcpWire_take {H : Nat} {sp dp : U16} {seq ack : U32} {off flags : Byte} {csum : U16} {W : List Byte}
    {c : Nat} (hc : H + 20 ≤ c) :
    TCPWire H sp dp seq ack off flags csum (W.take c) ↔ TCPWire H sp dp seq ack off flags csum W := by
  constructor
  · rintro ⟨k1, k2, k3, k4, k5, k6, k7⟩
    refine ⟨?_, ?_, ?_, ?_, ?_, ?_, ?_⟩
    · rw [← u16at_take (n := c) (by omega)]; exact k1
    · rw [← u16at_take (n := c) (by omega)]; exact k2
    · rw [← u32at_take (n := c) (by omega)]; exact k3
    · rw [← u32at_take (n := c) (by omega)]; exact k4
    · rw [← u8at_take (n := c) (by omega)]; exact k5
    · rw [← u8at_take (n := c) (by omega)]; exact k6
    · rw [← u16at_take (n := c) (by omega)]; exact k7
  · rintro ⟨k1, k2, k3, k4, k5, k6, k7⟩
    refine ⟨?_, ?_, ?_, ?_, ?_, ?_, ?_⟩
    · rw [u16at_take (n := c) (by omega)]; exact k1
    · rw [u16at_take (n := c) (by omega)]; exact k2
    · rw [u32at_take (n := c) (by omega)]; exact k3
    · rw [u32at_take (n := c) (by omega)]; exact k4
    · rw [u8at_take (n := c) (by omega)]; exact k5
    · rw [u8at_take (n := c) (by omega)]; exact k6
    · rw [u16at_take (n := c) (by omega)]; exact k7

/-- The invariant of the packet with cut capacities gives that of the packet. -/
theorem unclip_inv {h h' : Heap} {c C : Nat} {p r : Packet} (hi : TcpInv h p) (hr : TcpInv h' r) (hc : Clip c C p r)
    (hb : p.buffer.Valid h') (ho : p.tcpOptions.Valid h') (hd : p.tcpData.Valid h') : TcpInv h' p := by
  obtain ⟨e1, e2, co, cd, rfl⟩ := hc
  have hg := hi.ge
  have hroom : p.ipHeaderLen.toNat + 20 ≤ p.buffer.len := hi.room
  have hlen : p.buffer.len ≤ c := hr.buf.1
  have hip := hr.ip
  have htcp := hr.tcp
  have ew : window h' (clip c co cd p).buffer = (window h' p.buffer).take c := window_clip h' p.buffer (by omega)
  rw [ew] at hip htcp
  refine ⟨hb, hi.hdr, hi.room, hi.proto, ?_, ?_, ho, hd, hi.optsClear, hi.dataClear, hi.optsNil, hi.hash⟩
  · exact (ipWire_take (by omega) (fun e => by have := hg.2 e; omega)).1 hip
  · exact (tcpWire_take (by omega)).1 htcp

/-- A packet holding nothing, with the capacity of its buffer cut down. -/
theorem clip_inv {h : Heap} {c : Nat} {p : Packet} (hi : TcpInv h p) (hl : p.buffer.len ≤ c) (hc : c ≤ p.buffer.cap) :
    TcpInv h (clip c p.tcpOptions.cap p.tcpData.cap p) := by
  have hg := hi.ge
  have hroom := hi.room
  have ew : window h (clip c p.tcpOptions.cap p.tcpData.cap p).buffer = (window h p.buffer).take c := window_clip h p.buffer hc
  have hb2 := hi.buf.2
  refine ⟨⟨hl, ?_⟩, hi.hdr, hi.room, hi.proto, ?_, ?_, hi.opts, hi.data, hi.optsClear, hi.dataClear, hi.optsNil, hi.hash⟩
  · show p.buffer.off + c ≤ _
    exact Nat.le_trans (by omega) hb2
  · rw [ew]; exact (ipWire_take (by omega) (fun e => by have := hg.2 e; omega)).2 hi.ip
  · rw [ew]; exact (tcpWire_take (by show p.ipHeaderLen.toNat + 20 ≤ c; omega)).2 hi.tcp

/-- A call does the same to memory whatever the capacities. -/
theorem clip_step (grow : Nat → Nat) {c C : Nat} {h : Heap} {p r : Packet} (hi : TcpInv h p) (gi : TcpInv h r)
    (hcl : Clip c C p r) {op : TcpOp} (ha : op.Allowed h p) {h' : Heap} {p' : Packet}
    (he : op.run grow h p = .ok (h', p')) :
    op.Allowed h r ∧ ∃ r', op.run grow h r = .ok (h', r') ∧ Clip c C p' r' := by
  obtain ⟨hC, hcC, co, cd, rfl⟩ := hcl
  subst hC
  have gal : op.Allowed h (clip c co cd p) := by cases op <;> exact ha
  refine ⟨gal, ?_⟩
  have hr := hi.room
  have hc := hi.buf.1
  have hwl := window_length hi.buf
  have hg := hi.ge.1
  have hb := hi.buf
  have hlc : p.buffer.len ≤ c := gi.buf.1
  have hgr : (clip c co cd p).ipHeaderLen.toNat + 20 ≤ (clip c co cd p).buffer.len := hr
  have ew : window h (clip c co cd p).buffer = (window h p.buffer).take c := window_clip h p.buffer hcC
  have wl : ∀ (i : Nat) (bs : List Byte), i + bs.length ≤ p.ipHeaderLen.toNat + 20 →
      put h (clip c co cd p).buffer (splice (window h (clip c co cd p).buffer) i bs) =
        put h p.buffer (splice (window h p.buffer) i bs) := by
    intro i bs hib
    rw [ew, splice_take (by omega) (by omega)]
    exact put_clip hb (by rw [splice_length _ _ _ (by omega)]; exact hwl) hcC (drop_splice_ge (by omega) (by omega))
  have mk : ∀ {g : Heap} {q : Packet}, op.run grow h (clip c co cd p) = .ok (g, q) → g = h' →
      Clip c p.buffer.cap p' q → ∃ r', op.run grow h (clip c co cd p) = .ok (h', r') ∧ Clip c p.buffer.cap p' r' := by
    intro g q k e l
    subst e
    exact ⟨q, k, l⟩
  cases op with
  | incSeq n =>
    cases (IncSeq_eq hi.buf hr n).symm.trans he
    exact mk (IncSeq_eq gi.buf hgr n) (wl _ _ (by simp [clip])) ⟨rfl, hcC, co, cd, rfl⟩
  | decSeq n =>
    cases (DecSeq_eq hi.buf hr n).symm.trans he
    exact mk (DecSeq_eq gi.buf hgr n) (wl _ _ (by simp [clip])) ⟨rfl, hcC, co, cd, rfl⟩
  | incAck n =>
    cases (IncAck_eq hi.buf hr n).symm.trans he
    exact mk (IncAck_eq gi.buf hgr n) (wl _ _ (by simp [clip])) ⟨rfl, hcC, co, cd, rfl⟩
  | decAck n =>
    cases (DecAck_eq hi.buf hr n).symm.trans he
    exact mk (DecAck_eq gi.buf hgr n) (wl _ _ (by simp [clip])) ⟨rfl, hcC, co, cd, rfl⟩
  | detach o =>
    have hd := Detachable.ok hi ha
    have gd : DetachOk h (clip c co cd p) o := Detachable.ok gi gal
    cases (Detach_eq hd).symm.trans he
    refine mk (Detach_eq gd) ?_ ⟨rfl, hcC, ?_⟩
    · rw [ew]
      show put h (clip c co cd p).buffer (detachedBytes p ((window h p.buffer).take c) o) = _
      rw [detachedBytes_clip hg (by omega) (by omega)]
      exact put_clip hb (by rw [detachedBytes_length hg (by omega)]; exact hwl) hcC (by
        have k := detachedBytes_drop (p := p) (W := window h p.buffer) hg (by omega) o
        have k2 := congrArg (List.drop (c - (p.ipHeaderLen.toNat + 20))) k
        rw [List.drop_drop, List.drop_drop, show p.ipHeaderLen.toNat + 20 + (c - (p.ipHeaderLen.toNat + 20)) = c by omega] at k2
        exact k2)
    · refine ⟨(cut (clip c co cd p) o).tcpOptions.cap, (cut (clip c co cd p) o).tcpData.cap, ?_⟩
      by_cases ho : o = 0
      · by_cases hl : p.buffer.len = p.ipHeaderLen.toNat + p.tcpDataOffset.toNat * 4
        · simp [cutHdr, cut, clip, fixed, cutLen, head, tail, ho, hl, Packet.TCPDataStartBytes]
        · simp [cutHdr, cut, clip, fixed, cutLen, head, tail, ho, hl, Packet.TCPDataStartBytes]
      · have ho' : ¬ o = 0#16 := ho
        by_cases hl : p.buffer.len = p.ipHeaderLen.toNat + p.tcpDataOffset.toNat * 4
        · simp [cutHdr, cut, clip, fixed, cutLen, head, tail, ho', hl, Packet.TCPDataStartBytes]
        · simp [cutHdr, cut, clip, fixed, cutLen, head, tail, ho', hl, Packet.TCPDataStartBytes]
  | attach oa d =>
    obtain ⟨h1, h2, h3⟩ := ha
    by_cases hgo : p.TCPDataStartBytes = BitVec.ofNat 16 (p.buffer.len - p.ipHeaderLen.toNat) ∨ oa.len = 0
    · have e := res_bind (f := fun r : Heap × Packet × Option Err => .ok (r.1, r.2.1)) (Attach_eq grow (d := d) hi.buf hr (hi.optsNil h1) hgo) rfl
      cases e.symm.trans he
      have e' := res_bind (f := fun r : Heap × Packet × Option Err => .ok (r.1, r.2.1))
        (Attach_eq grow (p := clip c co cd p) (d := d) gi.buf hgr (gi.optsNil h1) hgo) rfl
      obtain ⟨_, _, _, hold⟩ := append_nil_spec grow (h := h) (h.bytes oa)
      have hw' := window_append_nil grow (h := h) (h.bytes oa) hb
      refine mk e' ?_ ⟨rfl, hcC, _, _, rfl⟩
      show put _ (clip c co cd p).buffer (attachedBytes p (window h (clip c co cd p).buffer) oa.len d.len) = _
      rw [ew, attachedBytes_clip hg (by omega) (by omega)]
      exact put_clip (hold _ hb).1 (by rw [attachedBytes_length hg (by omega)]; exact hwl) hcC (by
        have k := attachedBytes_drop (p := p) (W := window h p.buffer) hg (by omega) oa.len d.len
        have k2 := congrArg (List.drop (c - (p.ipHeaderLen.toNat + 20))) k
        rw [List.drop_drop, List.drop_drop, show p.ipHeaderLen.toNat + 20 + (c - (p.ipHeaderLen.toNat + 20)) = c by omega] at k2
        rw [hw']; exact k2)
    · have e := res_bind (f := fun r : Heap × Packet × Option Err => .ok (r.1, r.2.1)) (Attach_refused grow (d := d) hi.buf (by omega) hgo) rfl
      cases e.symm.trans he
      have e' := res_bind (f := fun r : Heap × Packet × Option Err => .ok (r.1, r.2.1))
        (Attach_refused grow (p := clip c co cd p) (d := d) gi.buf (by show p.ipHeaderLen.toNat ≤ p.buffer.len; omega) hgo) rfl
      exact mk e' rfl ⟨rfl, hcC, co, cd, rfl⟩
  | dropData => cases he; exact mk rfl rfl ⟨rfl, hcC, co, 0, rfl⟩
  | dropAll => cases he; exact mk rfl rfl ⟨rfl, hcC, 0, 0, rfl⟩
  | setData d => cases he; exact mk rfl rfl ⟨rfl, hcC, co, d.cap, rfl⟩
  | updateIP =>
    have h4 : p.version = .V4 := ha
    have h20 : p.ipHeaderLen = 20 := by
      rcases hi.hdr with ⟨_, h1⟩ | ⟨h1, _⟩
      · exact h1
      · rw [h4] at h1; exact absurd h1 (by decide)
    cases (UpdateIPv4_eq hi.buf h20 (by omega) (by omega)).symm.trans he
    have et : (window h (clip c co cd p).buffer).take 20 = (window h p.buffer).take 20 := by
      rw [ew, List.take_take, Nat.min_eq_left (by omega)]
    refine mk (UpdateIPv4_eq (p := clip c co cd p) gi.buf h20 (by show 12 ≤ p.buffer.len; omega) (by show 20 ≤ c; omega)) ?_ ⟨rfl, hcC, co, cd, ?_⟩
    · rw [et]; exact wl _ _ (by simp)
    · rw [et]; rfl
  | verifyIP =>
    have h4 : p.version = .V4 := ha
    have h20 : p.ipHeaderLen = 20 := by
      rcases hi.hdr with ⟨_, h1⟩ | ⟨h1, _⟩
      · exact h1
      · rw [h4] at h1; exact absurd h1 (by decide)
    have e := res_bind (f := fun r : Bool × Heap => .ok (r.2, p)) (VerifyIPv4_eq hi.buf h20 (by omega) (by omega)) rfl
    cases e.symm.trans he
    have k := res_bind (f := fun r : Bool × Heap => .ok (r.2, clip c co cd p)) (VerifyIPv4_eq (p := clip c co cd p) gi.buf h20 (by show 12 ≤ p.buffer.len; omega) (by show 20 ≤ c; omega)) rfl
    exact mk k (wl _ _ (by simp [clip])) ⟨rfl, hcC, co, cd, rfl⟩
  | updateTCP =>
    cases (UpdateTCP_eq (hi.mem ha)).symm.trans he
    have hck := tcpCks_clip hi.hdr (W := window h p.buffer) (opts := h.bytes p.tcpOptions) (data := h.bytes p.tcpData)
      (c := c) (co := co) (cd := cd) (by omega) hlc
    have hck' : tcpCks (clip c co cd p) (window h (clip c co cd p).buffer) (h.bytes (clip c co cd p).tcpOptions)
        (h.bytes (clip c co cd p).tcpData) =
        tcpCks p (window h p.buffer) (h.bytes p.tcpOptions) (h.bytes p.tcpData) := by rw [ew]; exact hck
    have k := UpdateTCP_eq (gi.mem gal)
    refine mk k ?_ ⟨rfl, hcC, co, cd, ?_⟩
    · rw [hck']
      exact wl _ _ (by simp [clip])
    · rw [hck']
      rfl
  | verifyTCP =>
    have e := res_bind (f := fun r : Bool × Heap => .ok (r.2, p)) (VerifyTCP_eq (hi.mem ha)) rfl
    cases e.symm.trans he
    have k := res_bind (f := fun r : Bool × Heap => .ok (r.2, clip c co cd p)) (VerifyTCP_eq (gi.mem gal)) rfl
    exact mk k rfl ⟨rfl, hcC, co, cd, rfl⟩
  | fixLength a b =>
    have e := Fixup_eq hi.buf hwl (by omega) a b
    rw [put_self] at e
    cases e.symm.trans he
    have k := Fixup_eq gi.buf (window_length gi.buf) (by show 12 ≤ c; omega) a b
    rw [put_self] at k
    refine mk k ?_ ⟨rfl, hcC, co, cd, rfl⟩
    rw [ew]
    show put h (clip c co cd p).buffer (fixedBytes p ((window h p.buffer).take c) a b) = _
    rw [fixedBytes_clip (by omega) (by omega)]
    exact put_clip hb (by rw [fixedBytes_length (by omega)]; exact hwl) hcC (fixedBytes_drop (by omega) (by omega) a b)
  | toFinAck =>
    have hd := Detachable.ok hi ha
    have gd : DetachOk h (clip c co cd p) 0 := Detachable.ok gi gal
    cases (ConvertAck_eq hd).symm.trans he
    have hl : (splice (window h p.buffer) (p.ipHeaderLen.toNat + 13) [0x11]).length = p.buffer.cap := by
      rw [splice_length _ _ _ (by simp; omega)]; exact hwl
    refine mk (ConvertAck_eq gd) ?_ ⟨rfl, hcC, 0, 0, rfl⟩
    rw [ew]
    show put h (clip c co cd p).buffer (detachedBytes p (splice ((window h p.buffer).take c) (p.ipHeaderLen.toNat + 13) [0x11]) 0) = _
    rw [splice_take (by simp; omega) (by omega), detachedBytes_clip hg (by omega) (by omega)]
    exact put_clip hb (by rw [detachedBytes_length hg (by omega)]; exact hl) hcC (by
      have k := detachedBytes_drop (p := p) (W := splice (window h p.buffer) (p.ipHeaderLen.toNat + 13) [0x11]) hg (by omega) 0
      have k2 := congrArg (List.drop (c - (p.ipHeaderLen.toNat + 20))) k
      rw [List.drop_drop, List.drop_drop, show p.ipHeaderLen.toNat + 20 + (c - (p.ipHeaderLen.toNat + 20)) = c by omega] at k2
      rw [k2]
      exact drop_splice_ge (by simp; omega) (by simp; omega))

/-- A whole history of calls on one packet does the same to memory whatever the capacities. -/
theorem clip_run (grow : Nat → Nat) {c C : Nat} (ops : List TcpOp) {h : Heap} {p r : Packet} (hi : TcpInv h p)
    (gi : TcpInv h r) (hcl : Clip c C p r) (ha : AllAllowed grow h r ops) {g : Heap} {q : Packet}
    (he : runOps grow h r ops = .ok (g, q)) :
    AllAllowed grow h p ops ∧ ∃ q', runOps grow h p ops = .ok (g, q') ∧ Clip c C q' q ∧ TcpInv g q' := by
  induction ops generalizing h p r with
  | nil => cases he; exact ⟨trivial, p, rfl, hcl, hi⟩
  | cons op t ih =>
    have pal : op.Allowed h p := by
      obtain ⟨_, _, co, cd, e⟩ := hcl
      have k := ha.1
      rw [e] at k
      cases op <;> exact k
    obtain ⟨h1, p1, e1, hi1, _⟩ := run_ok grow hi op pal
    obtain ⟨ral, r1, e2, cl1⟩ := clip_step grow hi gi hcl pal e1
    obtain ⟨h1', r1', e2', gi1, _⟩ := run_ok grow gi op ral
    cases e2.symm.trans e2'
    have he : (op.run grow h r >>= fun x => runOps grow x.1 x.2 t) = .ok (g, q) := he
    rw [e2, Res.ok_bind] at he
    obtain ⟨al, q', k1, k2, k3⟩ := ih hi1 gi1 cl1 (ha.2 _ _ e2) he
    refine ⟨⟨pal, fun h2 p2 e => by cases e1.symm.trans e; exact al⟩, q', ?_, k2, k3⟩
    show (op.run grow h p >>= _) = _
    rw [e1, Res.ok_bind]
    exact k1

/-- The packets, and the same packets with the capacities cut down to memory that does not overlap. -/
structure Pair (D : Slice → Prop) (n : Nat) (c C : Nat → Nat) (h : Heap) (ps rs : Nat → Packet) : Prop where
  team : TeamInv D n h rs
  inv : ∀ i, i < n → TcpInv h (ps i)
  clip : ∀ i, i < n → Clip (c i) (C i) (ps i) (rs i)

theorem pair_step (grow : Nat → Nat) {D : Slice → Prop} {n : Nat} {c C : Nat → Nat} {h : Heap} {ps rs : Nat → Packet}
    (hp : Pair D n c C h ps rs) {i : Nat} {op : TcpOp} (hin : i < n) (ha : op.Allowed h (ps i))
    (hk : ∀ d ∈ op.handed, D d) :
    ∃ h' p' r', op.run grow h (ps i) = .ok (h', p') ∧ op.Allowed h (rs i) ∧ op.run grow h (rs i) = .ok (h', r') ∧
      Pair D n c C h' (setAt ps i p') (setAt rs i r') ∧
      ∀ j, j < n → j ≠ i → SameParts h (ps j) h' (setAt ps i p' j) := by
  obtain ⟨h', p', hr, hi', _⟩ := run_ok grow (hp.inv i hin) op ha
  obtain ⟨_, hu⟩ := run_frame grow (hp.inv i hin) op ha hr
  obtain ⟨ral, r', e2, cl⟩ := clip_step grow (hp.inv i hin) (hp.team.inv i hin) (hp.clip i hin) ha hr
  obtain ⟨h2, r2, e3, ht, _⟩ := team_step grow hp.team hin ral hk
  cases e2.symm.trans e3
  have buf : ∀ j, j < n → (rs j).buffer = ⟨(ps j).buffer.arr, (ps j).buffer.off, (ps j).buffer.len, c j⟩ ∧
      (rs j).tcpOptions = ⟨(ps j).tcpOptions.arr, (ps j).tcpOptions.off, (ps j).tcpOptions.len, (rs j).tcpOptions.cap⟩ ∧
      (rs j).tcpData = ⟨(ps j).tcpData.arr, (ps j).tcpData.off, (ps j).tcpData.len, (rs j).tcpData.cap⟩ ∧
      (rs j).ipHeaderLen = (ps j).ipHeaderLen := by
    intro j hj
    obtain ⟨_, _, co, cd, e⟩ := hp.clip j hj
    rw [e]
    exact ⟨rfl, rfl, rfl, rfl⟩
  have at_j : ∀ (qs : Nat → Packet) (q : Packet) (j : Nat), j ≠ i → setAt qs i q j = qs j :=
    fun qs q j hj => by simp [setAt, hj]
  have at_i : ∀ (qs : Nat → Packet) (q : Packet), setAt qs i q i = q := fun qs q => by simp [setAt]
  have other : ∀ j, j < n → j ≠ i → TcpInv h' (ps j) ∧ SameParts h (ps j) h' (ps j) := by
    intro j hj hji
    have hj' := hp.inv j hj
    have hap := hp.team.apart i j hin hj (fun e => hji e.symm)
    have ho := hp.team.opts i j hin hj (fun e => hji e.symm)
    have hd := hp.team.data i j hin hj (fun e => hji e.symm)
    have hroom := (hp.team.inv i hin).room
    have hci := (hp.team.inv i hin).buf.1
    have hcj := (hp.team.inv j hj).buf.1
    obtain ⟨b1, b2, b3, b4⟩ := buf i hin
    obtain ⟨c1, c2, c3, c4⟩ := buf j hj
    rw [b1, c1] at hap
    rw [b1, b4, c2] at ho
    rw [b1, b4, c3] at hd
    rw [b1, b4] at hroom
    rw [b1] at hci
    rw [c1] at hcj
    have hroom : (ps i).ipHeaderLen.toNat + 20 ≤ (ps i).buffer.len := hroom
    have hci : (ps i).buffer.len ≤ c i := hci
    have hcj : (ps j).buffer.len ≤ c j := hcj
    unfold MemApart at hap
    simp only at hap
    obtain ⟨z1, _⟩ := hu ⟨(ps j).buffer.arr, (ps j).buffer.off, 0, (ps j).buffer.cap⟩ ⟨Nat.zero_le _, hj'.buf.2⟩ (by
      unfold Clear; simp only; omega)
    obtain ⟨_, x2⟩ := hu (ps j).buffer hj'.buf (by unfold Clear; omega)
    obtain ⟨o1, o2⟩ := hu (ps j).tcpOptions hj'.opts ho
    obtain ⟨d1, d2⟩ := hu (ps j).tcpData hj'.data hd
    have hrj := ht.inv j hj
    rw [at_j rs r' j hji] at hrj
    exact ⟨unclip_inv hj' hrj (hp.clip j hj) ⟨hj'.buf.1, z1.2⟩ o1 d1, rfl, x2, o2, d2⟩
  refine ⟨h', p', r', hr, ral, e2, ⟨ht, fun j hj => ?_, fun j hj => ?_⟩, fun j hj hji => by
    rw [at_j ps p' j hji]; exact (other j hj hji).2⟩
  · by_cases hji : j = i
    · subst hji; rw [at_i]; exact hi'
    · rw [at_j _ _ j hji]; exact (other j hj hji).1
  · by_cases hji : j = i
    · subst hji; rw [at_i, at_i]; exact cl
    · rw [at_j _ _ j hji, at_j _ _ j hji]; exact hp.clip j hj

theorem pair_run (grow : Nat → Nat) {D : Slice → Prop} {n : Nat} {c C : Nat → Nat} (ops : List (Nat × TcpOp))
    {h : Heap} {ps rs : Nat → Packet} (hp : Pair D n c C h ps rs) (ha : TeamAllowed grow D n h ps ops) :
    ∃ h' ps' rs', runTeam grow h ps ops = .ok (h', ps') ∧ runTeam grow h rs ops = .ok (h', rs') ∧
      TeamAllowed grow D n h rs ops ∧ Pair D n c C h' ps' rs' := by
  induction ops generalizing h ps rs with
  | nil => exact ⟨h, ps, rs, rfl, rfl, trivial, hp⟩
  | cons x t ih =>
    obtain ⟨k, op⟩ := x
    obtain ⟨a1, a2, a3, a4⟩ := ha
    obtain ⟨h1, p1, r1, e1, ral, e2, hp1, _⟩ := pair_step grow hp a1 a2 a3
    obtain ⟨h2, ps2, rs2, e3, e4, al, hp2⟩ := ih hp1 (a4 _ _ e1)
    refine ⟨h2, ps2, rs2, ?_, ?_, ⟨a1, ral, a3, fun h' r' e => by cases e2.symm.trans e; exact al⟩, hp2⟩
    · show (op.run grow h (ps k) >>= _) = _
      rw [e1, Res.ok_bind]
      exact e3
    · show (op.run grow h (rs k) >>= _) = _
      rw [e2, Res.ok_bind]
      exact e4

/-! ### C164 -/

/-- What the packets of a program are before it works on them: TCP packets accepted by `New` from slices that do
not overlap (what lies beyond a slice's length, up to its capacity, may be memory of another packet). -/
structure Team (n : Nat) (h : Heap) (bytes : Nat → Slice) (ps : Nat → Packet) : Prop where
  valid : ∀ i, i < n → (bytes i).Valid h
  small : ∀ i, i < n → (bytes i).len < 65536
  accepted : ∀ i, i < n → ∃ c m, New h c (bytes i) m true = .ok (some (ps i), none)
  tcp : ∀ i, i < n → (ps i).IPProto = 6
  apart : ∀ i j, i < n → j < n → i ≠ j → (bytes i).arr ≠ (bytes j).arr ∨
    (bytes i).off + (bytes i).len ≤ (bytes j).off ∨ (bytes j).off + (bytes j).len ≤ (bytes i).off

/-- The slices that may be handed to the packets: they lie in memory from the start and inside the headers of
no packet. -/
def Free (n : Nat) (h : Heap) (ps : Nat → Packet) (d : Slice) : Prop :=
  d.Valid h ∧ ∀ i, i < n → Foreign h (ps i) d

theorem Team.pair {n : Nat} {h : Heap} {bytes : Nat → Slice} {ps : Nat → Packet} (ht : Team n h bytes ps) :
    ∃ rs, Pair (Free n h ps) n (fun i => (bytes i).len) (fun i => (bytes i).cap) h ps rs := by
  have place : ∀ i, i < n → (ps i).buffer.arr = (bytes i).arr ∧ (ps i).buffer.off = (bytes i).off ∧
      (ps i).buffer.cap = (bytes i).cap ∧ (ps i).buffer.len ≤ (bytes i).len ∧
      (ps i).tcpOptions = Slice.nil ∧ (ps i).tcpData = Slice.nil ∧ TcpInv h (ps i) := by
    intro i hi
    obtain ⟨c, m, ha⟩ := ht.accepted i hi
    obtain ⟨_, _, _, _, k5, k6, _, _, k9, _⟩ := accepted_tcp (ht.valid i hi) ha (ht.tcp i hi)
    obtain ⟨b1, b2, b3⟩ := accepted_place (ht.valid i hi) ha
    exact ⟨b1, b2, b3, k9, k5, k6, accepted_inv (ht.valid i hi) ha (ht.tcp i hi) (ht.small i hi)⟩
  have len : ∀ i, i < n → (bytes i).len ≤ (ps i).buffer.cap := fun i hi => by
    obtain ⟨_, _, b3, _⟩ := place i hi
    rw [b3]; exact (ht.valid i hi).1
  refine ⟨fun i => clip (bytes i).len (ps i).tcpOptions.cap (ps i).tcpData.cap (ps i), ⟨fun i hi => ?_, fun i j hi hj hij => ?_,
    fun i j _ hj _ => ?_, fun i j _ hj _ => ?_, fun d hd => ⟨hd.1, fun j hj => (hd.2 j hj).clear⟩⟩, fun i hi => ?_, fun i hi => ?_⟩
  · obtain ⟨_, _, _, b4, _, _, b7⟩ := place i hi
    exact clip_inv b7 b4 (len i hi)
  · obtain ⟨b1, b2, _⟩ := place i hi
    obtain ⟨c1, c2, _⟩ := place j hj
    have k := ht.apart i j hi hj hij
    unfold MemApart clip
    simp only
    rw [b1, b2, c1, c2]
    exact k
  · have e : (clip (bytes j).len (ps j).tcpOptions.cap (ps j).tcpData.cap (ps j)).tcpOptions = (ps j).tcpOptions := rfl
    rw [e, (place j hj).2.2.2.2.1]; exact nil_clear _ _ _
  · have e : (clip (bytes j).len (ps j).tcpOptions.cap (ps j).tcpData.cap (ps j)).tcpData = (ps j).tcpData := rfl
    rw [e, (place j hj).2.2.2.2.2.1]; exact nil_clear _ _ _
  · exact (place i hi).2.2.2.2.2.2
  · exact ⟨(place i hi).2.2.1, by have := len i hi; rw [(place i hi).2.2.1] at this; exact this, _, _, rfl⟩

/-- The common run and the run alone. -/
theorem team_alone {n : Nat} {h : Heap} {bytes : Nat → Slice} {ps : Nat → Packet} (ht : Team n h bytes ps)
    (grow : Nat → Nat) (ops : List (Nat × TcpOp)) (hall : TeamAllowed grow (Free n h ps) n h ps ops) :
    ∃ h' ps', runTeam grow h ps ops = .ok (h', ps') ∧
      ∀ i, i < n → AllAllowed grow h (ps i) (own i ops) ∧ ∃ g q, runOps grow h (ps i) (own i ops) = .ok (g, q) ∧
        TcpInv h' (ps' i) ∧ TcpInv g q ∧
        ps' i = { q with tcpOptions := (ps' i).tcpOptions, tcpData := (ps' i).tcpData } ∧
        h'.bytes (ps' i).buffer = g.bytes q.buffer ∧
        h'.bytes (ps' i).tcpOptions = g.bytes q.tcpOptions ∧
        h'.bytes (ps' i).tcpData = g.bytes q.tcpData := by
  obtain ⟨rs, hp⟩ := ht.pair
  obtain ⟨h', ps', rs', hr, hr2, al, hp'⟩ := pair_run grow ops hp hall
  obtain ⟨h2, rs2, hr3, _, hsim⟩ := team_sim grow ops hp.team al
  cases hr2.symm.trans hr3
  refine ⟨h', ps', hr, fun i hi => ?_⟩
  have hii := hp.team.inv i hi
  obtain ⟨ral, g, q, e, s⟩ := hsim i hi h (rs i) ⟨hii, hii, rfl, rfl, rfl, rfl, fun d hd =>
    ⟨(hp.team.ext d hd).1, (hp.team.ext d hd).1, rfl, (hp.team.ext d hd).2 i hi⟩⟩
  obtain ⟨pal, q', e', ⟨w1, w2, w3, w4, w5⟩, w6⟩ := clip_run grow (own i ops) (hp.inv i hi) hii (hp.clip i hi) ral e
  obtain ⟨v1, v2, v3, v4, v5⟩ := hp'.clip i hi
  have hbuf : q.buffer = (rs' i).buffer := by rw [s.record]
  have hwb : h'.bytes (rs' i).buffer = g.bytes q.buffer := by
    rw [hbuf, bytes_eq_window s.inv.buf, bytes_eq_window (hbuf ▸ s.invr.buf), s.win]
  have hdat : q.tcpData = (rs' i).tcpData := by rw [s.record]
  have hdb : h'.bytes (rs' i).tcpData = g.bytes q.tcpData := by rw [hdat]; exact s.data.symm
  have hob := s.opts.symm
  have hrec := s.record
  generalize q.tcpOptions = qo at hrec hob
  rw [v5] at hwb hdb hob hrec
  rw [w5] at hwb hdb hrec
  have x1 : h'.bytes (ps' i).buffer = g.bytes q'.buffer := hwb
  have x3 : h'.bytes (ps' i).tcpData = g.bytes q'.tcpData := hdb
  have x2 : h'.bytes (ps' i).tcpOptions = g.bytes q'.tcpOptions := by
    have k := s.opts.symm
    rw [v5, w5] at k
    exact k
  refine ⟨pal, g, q', e', hp'.inv i hi, w6, ?_, x1, x2, x3⟩
  have full : ∀ (a b : Packet) (c co cd eo ed C : Nat) (o : Slice), a.buffer.cap = C → b.buffer.cap = C →
      clip c co cd b = { clip c eo ed a with tcpOptions := o } →
      a = { b with tcpOptions := a.tcpOptions, tcpData := a.tcpData } := by
    intro a b c co cd eo ed C o ha hb he
    cases a
    rename_i abuf _ _ _ _ _ _ _ _ _ _ _ _ _ _ _ _ _ _ _ _ _ _ _
    cases b
    rename_i bbuf _ _ _ _ _ _ _ _ _ _ _ _ _ _ _ _ _ _ _ _ _ _ _
    cases abuf
    cases bbuf
    simp only [clip, Packet.mk.injEq, Slice.mk.injEq] at he ⊢
    simp only at ha hb
    subst ha
    simp_all
  exact full (ps' i) q' _ _ _ _ _ _ _ v1 w1 hrec

/-- C164. However calls on several accepted TCP packets in separate memory follow one another, the program does
not crash, and each packet ends as its own calls, made one after the other with no other packet worked on, would
have left it: every field, the bytes of the packet, the options and the data held for attaching; and what it
reports is what is on the wire. -/
theorem C164_separate {n : Nat} {h : Heap} {bytes : Nat → Slice} {ps : Nat → Packet} (ht : Team n h bytes ps)
    (grow : Nat → Nat) (ops : List (Nat × TcpOp)) (hall : TeamAllowed grow (Free n h ps) n h ps ops) :
    ∃ h' ps', runTeam grow h ps ops = .ok (h', ps') ∧
      ∀ i, i < n → ∃ g q, runOps grow h (ps i) (own i ops) = .ok (g, q) ∧
        ps' i = { q with tcpOptions := (ps' i).tcpOptions, tcpData := (ps' i).tcpData } ∧
        h'.bytes (ps' i).buffer = g.bytes q.buffer ∧
        h'.bytes (ps' i).tcpOptions = g.bytes q.tcpOptions ∧
        h'.bytes (ps' i).tcpData = g.bytes q.tcpData ∧
        OnWire (ps' i) (h'.bytes (ps' i).buffer) := by
  obtain ⟨h', ps', hr, hal⟩ := team_alone ht grow ops hall
  refine ⟨h', ps', hr, fun i hi => ?_⟩
  obtain ⟨_, g, q, e, k1, _, k3, k4, k5, k6⟩ := hal i hi
  exact ⟨g, q, e, k3, k4, k5, k6, k1.onWire⟩

/-- C164. Checking a packet's TCP checksum after any such history says what it would say after the packet's own
calls alone. -/
theorem C164_verify {n : Nat} {h : Heap} {bytes : Nat → Slice} {ps : Nat → Packet} (ht : Team n h bytes ps)
    (grow : Nat → Nat) (ops : List (Nat × TcpOp)) (hall : TeamAllowed grow (Free n h ps) n h ps ops)
    {h' : Heap} {ps' : Nat → Packet} (hr : runTeam grow h ps ops = .ok (h', ps')) {i : Nat} (hi : i < n)
    (hsize : (ps' i).buffer.len - (ps' i).IPHeaderLen.toNat + (ps' i).TCPOptionLength + (ps' i).TCPDataLength < 65536) :
    ∃ g q b, runOps grow h (ps i) (own i ops) = .ok (g, q) ∧
      VerifyTCPChecksum h' (ps' i) = .ok (b, h') ∧ VerifyTCPChecksum g q = .ok (b, g) := by
  obtain ⟨h2, ps2, hr2, hal⟩ := team_alone ht grow ops hall
  cases hr.symm.trans hr2
  obtain ⟨_, g, q, e, k1, k2, k3, k4, k5, k6⟩ := hal i hi
  have hv := VerifyTCP_eq (k1.mem hsize)
  have lo : (ps' i).tcpOptions.len = q.tcpOptions.len := by
    rw [← Heap.bytes_length k1.opts, ← Heap.bytes_length k2.opts, k5]
  have ld : (ps' i).tcpData.len = q.tcpData.len := by
    rw [← Heap.bytes_length k1.data, ← Heap.bytes_length k2.data, k6]
  have eb : (ps' i).buffer = q.buffer := by rw [k3]
  have eh : (ps' i).ipHeaderLen = q.ipHeaderLen := by rw [k3]
  have ec : (ps' i).tcpChecksum = q.tcpChecksum := by rw [k3]
  have gsize : q.buffer.len - q.ipHeaderLen.toNat + q.tcpOptions.len + q.tcpData.len < 65536 := by
    rw [← eb, ← eh, ← lo, ← ld]; exact hsize
  have gv := VerifyTCP_eq (k2.mem gsize)
  have hh := k1.hdr
  have hlen : (ps' i).ipHeaderLen.toNat ≤ (ps' i).buffer.len := by have := k1.room; omega
  have ck : tcpCks (ps' i) (window h' (ps' i).buffer) (h'.bytes (ps' i).tcpOptions) (h'.bytes (ps' i).tcpData) =
      tcpCks q (window g q.buffer) (g.bytes q.tcpOptions) (g.bytes q.tcpData) := by
    rw [← tcpCks_clip hh (c := (ps' i).buffer.len) (co := 0) (cd := 0) hlen (Nat.le_refl _),
      ← tcpCks_clip k2.hdr (c := q.buffer.len) (co := 0) (cd := 0) (by rw [← eb, ← eh]; exact hlen) (Nat.le_refl _),
      ← bytes_eq_window k1.buf, ← bytes_eq_window k2.buf, k4, k5, k6]
    have ep : tcpCks (clip (ps' i).buffer.len 0 0 (ps' i)) = tcpCks (clip q.buffer.len 0 0 q) := by
      rw [k3]; rfl
    rw [ep]
  refine ⟨g, q, _, e, hv, ?_⟩
  rw [gv, ck, ec]

/-- C164. A call on one packet leaves every other packet as it was: its fields, bytes, options and data. -/
theorem C164_others {n : Nat} {h : Heap} {bytes : Nat → Slice} {ps : Nat → Packet} (ht : Team n h bytes ps)
    (grow : Nat → Nat) (before : List (Nat × TcpOp)) (i : Nat) (op : TcpOp)
    (hall : TeamAllowed grow (Free n h ps) n h ps (before ++ [(i, op)])) {h1 : Heap} {ps1 : Nat → Packet}
    (hr : runTeam grow h ps before = .ok (h1, ps1)) :
    ∃ h2 p2, op.run grow h1 (ps1 i) = .ok (h2, p2) ∧
      runTeam grow h ps (before ++ [(i, op)]) = .ok (h2, setAt ps1 i p2) ∧
      ∀ j, j < n → j ≠ i → h2.bytes (ps1 j).buffer = h1.bytes (ps1 j).buffer ∧
        h2.bytes (ps1 j).tcpOptions = h1.bytes (ps1 j).tcpOptions ∧
        h2.bytes (ps1 j).tcpData = h1.bytes (ps1 j).tcpData := by
  have key : ∀ (l : List (Nat × TcpOp)) (h0 : Heap) (ps0 rs0 : Nat → Packet),
      Pair (Free n h ps) n (fun i => (bytes i).len) (fun i => (bytes i).cap) h0 ps0 rs0 →
      TeamAllowed grow (Free n h ps) n h0 ps0 (l ++ [(i, op)]) → runTeam grow h0 ps0 l = .ok (h1, ps1) →
      ∃ h2 p2, op.run grow h1 (ps1 i) = .ok (h2, p2) ∧
        runTeam grow h0 ps0 (l ++ [(i, op)]) = .ok (h2, setAt ps1 i p2) ∧
        ∀ j, j < n → j ≠ i → SameParts h1 (ps1 j) h2 (setAt ps1 i p2 j) := by
    intro l
    induction l with
    | nil =>
      intro h0 ps0 rs0 hi ha hr
      cases hr
      obtain ⟨a1, a2, a3, _⟩ := ha
      obtain ⟨h2, p2, r2, e, _, _, _, hoth⟩ := pair_step grow hi a1 a2 a3
      refine ⟨h2, p2, e, ?_, hoth⟩
      show (op.run grow h1 (ps1 i) >>= _) = _
      rw [e, Res.ok_bind]
      rfl
    | cons x t ih =>
      intro h0 ps0 rs0 hi ha hr
      obtain ⟨k, o⟩ := x
      obtain ⟨a1, a2, a3, a4⟩ := ha
      obtain ⟨h3, p3, r3, e, _, _, hi3, _⟩ := pair_step grow hi a1 a2 a3
      have hr : (o.run grow h0 (ps0 k) >>= fun r => runTeam grow r.1 (setAt ps0 k r.2) t) = .ok (h1, ps1) := hr
      rw [e, Res.ok_bind] at hr
      obtain ⟨h2, p2, e2, e3, e4⟩ := ih h3 (setAt ps0 k p3) (setAt rs0 k r3) hi3 (a4 _ _ e) hr
      refine ⟨h2, p2, e2, ?_, e4⟩
      show (o.run grow h0 (ps0 k) >>= _) = _
      rw [e, Res.ok_bind]
      exact e3
  obtain ⟨rs, hp⟩ := ht.pair
  obtain ⟨h2, p2, e1, e2, e3⟩ := key before h ps rs hp hall hr
  refine ⟨h2, p2, e1, e2, fun j hj hji => ?_⟩
  obtain ⟨k1, k2, k3, k4⟩ := e3 j hj hji
  rw [k1] at k2 k3 k4
  exact ⟨k2, k3, k4⟩

/-- Two packets next to each other in one array, as a reader that fills one large buffer leaves them, and bytes to
attach in another; the capacity of the first reaches over the second. -/
def exTeamHeap : Heap := ⟨[exHeap.arrayOf 0 ++ exHeap.arrayOf 0, [1, 2, 3, 4]]⟩

/-- The packets `New` makes of them. -/
def exTeam (i : Nat) : Packet := { exPacket with buffer := ⟨0, i * 52, 52, 104 - i * 52⟩ }

theorem exTeam_ok : Team 2 exTeamHeap (fun i => ⟨0, i * 52, 52, 104 - i * 52⟩) exTeam := by
  have cases2 : ∀ {P : Nat → Prop}, P 0 → P 1 → ∀ i, i < 2 → P i := by
    intro P p0 p1 i hi
    match i, hi with
    | 0, _ => exact p0
    | 1, _ => exact p1
  refine ⟨cases2 ?_ ?_, fun i _ => by show 52 < 65536; omega, cases2 ⟨0, [], ?_⟩ ⟨0, [], ?_⟩, fun i _ => rfl, ?_⟩
  · unfold Slice.Valid; decide
  · unfold Slice.Valid; decide
  · decide +kernel
  · decide +kernel
  · intro i j _ _ hij
    show (0 : Nat) ≠ 0 ∨ i * 52 + 52 ≤ j * 52 ∨ j * 52 + 52 ≤ i * 52
    omega

theorem exTeam_free : Free 2 exTeamHeap exTeam ⟨1, 0, 4, 4⟩ := by
  refine ⟨by unfold Slice.Valid; decide, fun i _ => ⟨by unfold Slice.Valid; decide, .inl ?_⟩⟩
  show (1 : Nat) ≠ 0
  decide

/-- Working on both in turn: data for the second, the first's sequence number, the second's acknowledgment. -/
theorem C164_example (grow : Nat → Nat) : ∃ h' ps',
    runTeam grow exTeamHeap exTeam [(1, .setData ⟨1, 0, 4, 4⟩), (0, .incSeq 5), (1, .decAck 1)] = .ok (h', ps') ∧
    (ps' 0).tcpSeq = 6 ∧ (ps' 0).tcpAck = 2 ∧ (ps' 1).tcpSeq = 1 ∧ (ps' 1).tcpAck = 1 ∧
    h'.bytes (ps' 0).tcpData = [] ∧ h'.bytes (ps' 1).tcpData = [1, 2, 3, 4] := by
  have hfree := exTeam_free
  obtain ⟨h', ps', hr, hsep⟩ := C164_separate exTeam_ok grow
    [(1, .setData ⟨1, 0, 4, 4⟩), (0, .incSeq 5), (1, .decAck 1)]
    ⟨by decide, hfree.2 1 (by decide), fun d hd => by
        have e : d = ⟨1, 0, 4, 4⟩ := by simpa [TcpOp.handed] using hd
        rw [e]; exact hfree,
      fun _ _ _ => ⟨by decide, trivial, fun d hd => by simp [TcpOp.handed] at hd,
        fun _ _ _ => ⟨by decide, trivial, fun d hd => by simp [TcpOp.handed] at hd, fun _ _ _ => trivial⟩⟩⟩
  refine ⟨h', ps', hr, ?_⟩
  obtain ⟨_, hp⟩ := exTeam_ok.pair
  have hi0 := hp.inv 0 (by decide)
  have hi1 := hp.inv 1 (by decide)
  obtain ⟨g0, q0, e0, s0, _, _, d0, _⟩ := hsep 0 (by decide)
  obtain ⟨g1, q1, e1, s1, _, _, d1, _⟩ := hsep 1 (by decide)
  have r0 := res_bind (f := fun r : Heap × Packet => runOps grow r.1 r.2 [])
    (IncSeq_eq hi0.buf hi0.room 5) rfl
  cases (show runOps grow exTeamHeap (exTeam 0) (own 0 [(1, .setData ⟨1, 0, 4, 4⟩), (0, .incSeq 5), (1, .decAck 1)]) = _
    from r0).symm.trans e0
  have hset : TcpInv exTeamHeap ((exTeam 1).SetTCPData ⟨1, 0, 4, 4⟩) := by
    obtain ⟨hx, px, x1, x2, _⟩ := run_ok grow hi1 (.setData ⟨1, 0, 4, 4⟩) (hfree.2 1 (by decide))
    cases x1
    exact x2
  have r1 := res_bind (f := fun r : Heap × Packet => runOps grow r.1 r.2 [])
    (DecAck_eq hset.buf hset.room 1) rfl
  cases (show runOps grow exTeamHeap (exTeam 1) (own 1 [(1, .setData ⟨1, 0, 4, 4⟩), (0, .incSeq 5), (1, .decAck 1)]) = _
    from r1).symm.trans e1
  refine ⟨by rw [s0]; rfl, by rw [s0]; rfl, by rw [s1]; rfl, by rw [s1]; rfl, ?_, ?_⟩
  · rw [d0]
    show Heap.bytes _ Slice.nil = []
    simp [Slice.nil, Heap.bytes]
  · rw [d1]
    have := put_untouched (h := exTeamHeap) (s := (exTeam 1).buffer) (n := 40) hset.buf
      (W := splice (window exTeamHeap (exTeam 1).buffer) 28 (enc32 .big ((exTeam 1).tcpAck - 1)))
      (by rw [splice_length _ _ _ (by rw [window_length hi1.buf]; decide)]; exact window_length hi1.buf)
      (by decide) (drop_splice_ge (by rw [window_length hi1.buf]; decide) (by decide)) ⟨1, 0, 4, 4⟩ hfree.1
      (.inl (by decide))
    exact this.2.trans (by decide)

end Verif.Packet
