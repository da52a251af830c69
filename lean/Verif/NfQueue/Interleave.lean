import Verif.NfQueue.Concurrent
/-! Invariants of interleaved verdict calls. -/
namespace Verif.NfQueue
open Common Sys Spec Props

/-- What stays fixed during a run: host byte order, queue number, scratch header, the calls, the initial memory,
the array of the receive buffer, if a reader is at work at the same time; and, if the process has other queues too,
the calls on all of them and the arrays that belong to the others. -/
structure Ctx where
  e : Endian
  qn : U16
  S : Slice
  calls : List VCall
  h0 : Heap
  R : Option Nat
  all : VCall → Prop
  others : Nat → Prop

/-- The arrays that existed at the start. -/
def Ctx.base (X : Ctx) : Nat := X.h0.arrays.length

/-- Position `i` of array `a` is one of the three bytes after some call's packet. -/
def Ctx.inPad (X : Ctx) (a i : Nat) : Prop :=
  ∃ c, X.all c ∧ a = c.packet.arr ∧ c.packet.off + c.packet.len ≤ i ∧ i < c.packet.off + c.packet.len + 3

/-- How memory may change: new arrays appear and are never written again, old ones keep their size, and change
only in the scratch header, in the receive buffer, in what belongs to other queues, and by becoming zero right after
a packet. -/
structure Evolve (X : Ctx) (h h' : Heap) : Prop where
  len : h.arrays.length ≤ h'.arrays.length
  priv : ∀ a, X.base ≤ a → a < h.arrays.length → ¬ X.others a → h'.arrayOf a = h.arrayOf a
  size : ∀ a, a < X.base → (h'.arrayOf a).length = (h.arrayOf a).length
  old : ∀ a, a < X.base → a ≠ X.S.arr → X.R ≠ some a → ¬ X.others a → ∀ i, (h'.arrayOf a)[i]? = (h.arrayOf a)[i]? ∨
    (h'.arrayOf a)[i]? = some 0 ∧ X.inPad a i

theorem Evolve.refl (X : Ctx) (h : Heap) : Evolve X h h :=
  ⟨Nat.le_refl _, fun _ _ _ _ => rfl, fun _ _ => rfl, fun _ _ _ _ _ _ => Or.inl rfl⟩

theorem Evolve.trans {X : Ctx} {h h1 h2 : Heap} (a : Evolve X h h1) (b : Evolve X h1 h2) : Evolve X h h2 := by
  refine ⟨Nat.le_trans a.len b.len, ?_, ?_, ?_⟩
  · intro x hx hl ho
    rw [b.priv x hx (Nat.lt_of_lt_of_le hl a.len) ho, a.priv x hx hl ho]
  · intro x hx; rw [b.size x hx, a.size x hx]
  · intro x hx hn hR ho i
    rcases b.old x hx hn hR ho i with hb | hb
    · rw [hb]; exact a.old x hx hn hR ho i
    · exact Or.inr hb

theorem Evolve.alloc {X : Ctx} {h : Heap} (hb : X.base ≤ h.arrays.length) (bs : List Byte) :
    Evolve X h ⟨h.arrays ++ [bs]⟩ := by
  refine ⟨by simp, ?_, ?_, ?_⟩
  · intro a _ hl _; rw [Heap.arrayOf_alloc_old hl]
  · intro a ha; rw [Heap.arrayOf_alloc_old (by omega)]
  · intro a ha _ _ _ i; rw [Heap.arrayOf_alloc_old (by omega)]; exact Or.inl rfl

theorem Evolve.scratch {X : Ctx} {h : Heap} (hS : X.S.arr < X.base) {i : Nat} {bs : List Byte}
    (hw : i + bs.length ≤ (h.arrayOf X.S.arr).length) : Evolve X h (h.write X.S.arr i bs) := by
  refine ⟨by simp, ?_, ?_, ?_⟩
  · intro a ha _ _; rw [Heap.arrayOf_write_ne (by omega)]
  · intro a _; exact Heap.arrayOf_length_write hw
  · intro a _ hn _ _ j; rw [Heap.arrayOf_write_ne (fun h => hn h.symm)]; exact Or.inl rfl

/-- The slice `s` is in the memory `h`, in an array made during the run, and shows `bs`. -/
def Priv (X : Ctx) (h : Heap) (s : Slice) (bs : List Byte) : Prop :=
  (X.base ≤ s.arr ∧ ¬ X.others s.arr) ∧ s.arr < h.arrays.length ∧ s.Valid h ∧ h.bytes s = bs

theorem Priv.mono {X : Ctx} {h h' : Heap} {s : Slice} {bs : List Byte} (p : Priv X h s bs)
    (ev : Evolve X h h') : Priv X h' s bs := by
  obtain ⟨h1, h2, h3, h4⟩ := p
  have := ev.priv s.arr h1.1 h2 h1.2
  refine ⟨h1, Nat.lt_of_lt_of_le h2 ev.len, ?_, ?_⟩
  · unfold Slice.Valid; rw [this]; exact h3
  · unfold Heap.bytes; rw [this]; exact h4

theorem Priv.new {X : Ctx} {h : Heap} (hb : X.base ≤ h.arrays.length) (hr : ∀ a, X.others a → a < h.arrays.length) (bs : List Byte) :
    Priv X (h.mk' bs).2 (h.mk' bs).1 bs :=
  ⟨⟨hb, fun ho => Nat.lt_irrefl _ (hr _ ho)⟩, by simp [Heap.mk'], Heap.valid_mk' h bs, Heap.bytes_mk' h bs⟩

/-- A slice of an old array other than the scratch header and the receive buffer, all of whose bytes are zero or out of reach of
padding, keeps its contents. -/
theorem bytes_stable {X : Ctx} {h h' : Heap} (ev : Evolve X h h') {s : Slice} (ha : s.arr < X.base)
    (hn : s.arr ≠ X.S.arr) (hR : X.R ≠ some s.arr) (hO : ¬ X.others s.arr) (hv : s.Valid h)
    (hz : ∀ j, j < s.len → (h.bytes s)[j]? = some 0 ∨ ¬ X.inPad s.arr (s.off + j)) :
    s.Valid h' ∧ h'.bytes s = h.bytes s := by
  refine ⟨by unfold Slice.Valid; rw [ev.size _ ha]; exact hv, ?_⟩
  apply List.ext_getElem?
  intro j
  unfold Heap.bytes
  simp only [List.getElem?_take, List.getElem?_drop]
  by_cases hj : j < s.len
  · simp only [hj, ↓reduceIte]
    rcases ev.old s.arr ha hn hR hO (s.off + j) with he | ⟨he, hp⟩
    · exact he
    · rcases hz j hj with h0 | h0
      · rw [he]
        unfold Heap.bytes at h0
        simp only [List.getElem?_take, List.getElem?_drop, hj, ↓reduceIte] at h0
        exact h0.symm
      · exact absurd hp h0
  · simp only [hj, ↓reduceIte]

/-- The assumptions on the calls. -/
structure Calls (X : Ctx) : Prop where
  scratch : X.S.Valid X.h0 ∧ X.S.len = 40
  ok : ∀ c ∈ X.calls, c.Ok X.h0 X.S
  mine : ∀ c ∈ X.calls, X.all c
  sep : ∀ c, X.all c → ∀ d ∈ X.calls, Sep c d
  reader : X.R ≠ some X.S.arr ∧ ∀ c ∈ X.calls, X.R ≠ some c.packet.arr
  others : ¬ X.others X.S.arr ∧ ∀ c ∈ X.calls, ¬ X.others c.packet.arr

theorem Calls.scratch_lt {X : Ctx} (hc : Calls X) : X.S.arr < X.base := by
  have h1 := hc.scratch.1; have h2 := hc.scratch.2
  unfold Slice.Valid at h1
  exact Heap.lt_of_arrayOf_pos (by omega)

theorem Calls.packet_lt {X : Ctx} (hc : Calls X) {c : VCall} (h : c ∈ X.calls) : c.packet.arr < X.base := by
  obtain ⟨h1, _, h3, _⟩ := hc.ok c h
  unfold Slice.Valid at h1
  exact Heap.lt_of_arrayOf_pos (by omega)

theorem Calls.not_inPad {X : Ctx} (hc : Calls X) {c : VCall} (h : c ∈ X.calls) {j : Nat}
    (hj : j < c.packet.len) : ¬ X.inPad c.packet.arr (c.packet.off + j) := by
  rintro ⟨d, hd, h1, h2, h3⟩
  rcases hc.sep d hd c h with hs | hs | hs
  · exact hs h1
  · omega
  · omega

/-- Packets are intact throughout. -/
theorem packet_same {X : Ctx} (hc : Calls X) {c : VCall} (h : c ∈ X.calls) {h' : Heap}
    (ev : Evolve X X.h0 h') : c.packet.Valid h' ∧ h'.bytes c.packet = X.h0.bytes c.packet := by
  obtain ⟨h1, h2, _, _⟩ := hc.ok c h
  exact bytes_stable ev (hc.packet_lt h) h2 (hc.reader.2 c h) (hc.others.2 c h) h1 fun j hj => Or.inr (hc.not_inPad h hj)

/-- `p` is the padded packet of call `c`: in place or a private copy. -/
def Padded (X : Ctx) (h : Heap) (c : VCall) (pad : Nat) (p : Slice) : Prop :=
  p.Valid h ∧ p.len = c.packet.len + pad ∧ h.bytes p = X.h0.bytes c.packet ++ zeros pad ∧
    (((X.base ≤ p.arr ∧ ¬ X.others p.arr) ∧ p.arr < h.arrays.length) ∨ (p.arr = c.packet.arr ∧ p.off = c.packet.off))

theorem Padded.mono {X : Ctx} (hc : Calls X) {c : VCall} (hm : c ∈ X.calls) {h h' : Heap} {pad : Nat} {p : Slice}
    (hp : Padded X h c pad p) (ev : Evolve X h h') : Padded X h' c pad p := by
  obtain ⟨h1, h2, h3, h4⟩ := hp
  rcases h4 with h4 | ⟨h4, h5⟩
  · obtain ⟨a, b, d, e⟩ := Priv.mono ⟨h4.1, h4.2, h1, h3⟩ ev
    exact ⟨d, h2, e, Or.inl ⟨a, b⟩⟩
  · obtain ⟨k1, k2, _, _⟩ := hc.ok c hm
    have hl := Heap.bytes_length k1
    obtain ⟨a, b⟩ := bytes_stable ev (s := p) (by rw [h4]; exact hc.packet_lt hm) (by rw [h4]; exact k2)
      (by rw [h4]; exact hc.reader.2 c hm) (by rw [h4]; exact hc.others.2 c hm) h1 (by
      intro j hj
      by_cases hjp : j < c.packet.len
      · right; rw [h4, h5]; exact hc.not_inPad hm hjp
      · left
        rw [h3, List.getElem?_append_right (by omega)]
        unfold zeros
        rw [List.getElem?_replicate, if_pos (by omega)])
    exact ⟨a, h2, by rw [b, h3], Or.inr ⟨h4, h5⟩⟩

/-- The 16-bit packet length of a call. -/
def _root_.Verif.Props.VCall.pl : VCall → U16
  | .v1 _ _ l _ _ => l.setWidth 16
  | .v2 _ _ _ l _ _ => l.setWidth 16

/-- The header of a call's message. -/
def headOf (e : Endian) (qn : U16) : VCall → List Byte
  | .v1 _ v l id _ => v1Head e qn v id (l.setWidth 16)
  | .v2 _ v m l id _ => v2Head e qn v m id (l.setWidth 16)

/-- The payload attribute header of a call's message. -/
def attrOf (e : Endian) : VCall → List Byte
  | .v1 _ _ l _ _ => enc16 e (nfaLength (l.setWidth 16)) ++ enc16 e 10
  | .v2 _ _ _ l _ _ => enc16 e (l.setWidth 16 + 4) ++ enc16 e 10

/-- Where the header of a call lives: in private memory, or in the shared scratch header. -/
def HeadAt (X : Ctx) (h : Heap) (c : VCall) (hs : Slice) : Prop :=
  match c with
  | .v1 .. => Priv X h hs (headOf X.e X.qn c)
  | .v2 .. => hs = X.S ∧ h.bytes X.S = headOf X.e X.qn c

/-- What a goroutine knows at each of its steps. -/
def TInv (X : Ctx) (h : Heap) (c : VCall) : Pc → Prop
  | .start => True
  | .done => True
  | .counted => c.isV2 = false
  | .filled k i => c.isV2 = true ∧ (k, i) ∈ [(1, 16), (2, 20), (3, 24), (4, 32), (5, 36), (6, 40)] ∧
      (h.bytes X.S).take i = (headOf X.e X.qn c).take i
  | .headed hs => c.isV2 = false ∧ HeadAt X h c hs
  | .attred hs ps => HeadAt X h c hs ∧ Priv X h ps (attrOf X.e c)
  | .padded hs ps p => HeadAt X h c hs ∧ Priv X h ps (attrOf X.e c) ∧ Padded X h c (padOf c.pl) p

/-- Inside `SetVerdict2`. -/
def active2 (c : VCall) (pc : Pc) : Prop := c.isV2 = true ∧ pc ≠ .start ∧ pc ≠ .done

/-- Steps of other goroutines do not disturb what a goroutine knows. -/
theorem TInv.mono {X : Ctx} (hc : Calls X) {c : VCall} (hm : c ∈ X.calls) {h h' : Heap} {pc : Pc}
    (ev : Evolve X h h') (hs : active2 c pc → h'.bytes X.S = h.bytes X.S) (t : TInv X h c pc) :
    TInv X h' c pc := by
  have hd : ∀ hs', (c.isV2 = true → h'.bytes X.S = h.bytes X.S) → HeadAt X h c hs' → HeadAt X h' c hs' := by
    intro hs' hx ha
    cases c with
    | v1 => exact Priv.mono ha ev
    | v2 => exact ⟨ha.1, by rw [hx rfl]; exact ha.2⟩
  cases pc with
  | start => trivial
  | done => trivial
  | counted => exact t
  | filled k i =>
    obtain ⟨a, b, d⟩ := t
    refine ⟨a, b, ?_⟩
    rw [hs ⟨a, by simp, by simp⟩]; exact d
  | headed x => exact ⟨t.1, hd x (fun h => by rw [t.1] at h; simp at h) t.2⟩
  | attred x y => exact ⟨hd x (fun h => hs ⟨h, by simp, by simp⟩) t.1, t.2.mono ev⟩
  | padded x y z => exact ⟨hd x (fun h => hs ⟨h, by simp, by simp⟩) t.1, t.2.1.mono ev, t.2.2.mono hc hm ev⟩

/-- What holds of the world throughout. -/
structure WInv (X : Ctx) (qh : Handle) (w : W) : Prop where
  ev : Evolve X X.h0 w.heap
  handle : w.st.handle = some qh
  hdr : w.st.hdrSlice = X.S
  qn : w.st.queueNum = X.qn
  room : ∀ a, X.others a → a < w.heap.arrays.length

theorem WInv.base_le {X : Ctx} {qh : Handle} {w : W} (hw : WInv X qh w) : X.base ≤ w.heap.arrays.length :=
  hw.ev.len

theorem WInv.room_le {X : Ctx} {qh : Handle} {w : W} (hw : WInv X qh w) {h : Heap} (hl : w.heap.arrays.length ≤ h.arrays.length) :
    ∀ a, X.others a → a < h.arrays.length := fun a ha => Nat.lt_of_lt_of_le (hw.room a ha) hl

theorem WInv.scratch_valid {X : Ctx} {qh : Handle} {w : W} (hc : Calls X) (hw : WInv X qh w) :
    X.S.Valid w.heap := by
  unfold Slice.Valid
  rw [hw.ev.size _ hc.scratch_lt]; exact hc.scratch.1

/-- Steps left. -/
def rank (c : VCall) : Pc → Nat
  | .start => if c.isV2 then 9 else 5
  | .counted => 4
  | .headed _ => 3
  | .filled k _ => 9 - k
  | .attred .. => 2
  | .padded .. => 1
  | .done => 0

/-- What a step does to the queue's own state: the first step of `SetVerdict` counts. -/
def countOf (c : VCall) (pc : Pc) (q : NfQueue) : NfQueue :=
  match c, pc with
  | .v1 _ v _ _ _, .start => counted v q
  | _, _ => q

/-- An array that verdict calls leave alone: neither the scratch header nor one that holds a packet. -/
def Ctx.aside (X : Ctx) (a : Nat) : Prop := a < X.base ∧ a ≠ X.S.arr ∧ ∀ c, X.all c → a ≠ c.packet.arr

/-- An array of memory `h` that is neither the scratch header nor one that holds a packet. -/
def Ctx.spared (X : Ctx) (h : Heap) (a : Nat) : Prop := a < h.arrays.length ∧ a ≠ X.S.arr ∧ ∀ c, X.all c → a ≠ c.packet.arr

/-- Result of one step. -/
structure StepTo (X : Ctx) (qh : Handle) (c : VCall) (pc : Pc) (w : W) (pc' : Pc) (w' : W) : Prop where
  ev : Evolve X w.heap w'.heap
  winv : WInv X qh w'
  tinv : TInv X w'.heap c pc'
  scratch : c.isV2 = false → w'.heap.bytes X.S = w.heap.bytes X.S
  spared : ∀ a, X.spared w.heap a → w'.heap.arrayOf a = w.heap.arrayOf a
  started : pc' ≠ .start
  rank : rank c pc' + 1 = rank c pc
  count : w'.st = countOf c pc w.st
  sent : (pc' ≠ .done ∧ w'.trace = w.trace) ∨
    (pc' = .done ∧ ∃ r, w'.trace = w.trace ++ [.sendmsg qh.fd (callMsg X.e X.qn c (X.h0.bytes c.packet)) r])

theorem StepTo.aside {X : Ctx} {qh : Handle} {c : VCall} {pc pc' : Pc} {w w' : W} (st : StepTo X qh c pc w pc' w')
    (hb : X.base ≤ w.heap.arrays.length) : ∀ a, X.aside a → w'.heap.arrayOf a = w.heap.arrayOf a :=
  fun a ha => st.spared a ⟨Nat.lt_of_lt_of_le ha.1 hb, ha.2⟩

theorem bytes_alloc_scratch {X : Ctx} {qh : Handle} {w : W} (hc : Calls X) (hw : WInv X qh w) (bs : List Byte) :
    (w.heap.mk' bs).2.bytes X.S = w.heap.bytes X.S :=
  Heap.bytes_alloc_valid (hw.scratch_valid hc)

/-- Padding a packet. -/
theorem pad_step {X : Ctx} (hc : Calls X) {c : VCall} (hm : c ∈ X.calls) {qh : Handle} {w : W}
    (hw : WInv X qh w) (env : Env) :
    ∃ p' h', padPacket env c.packet (padOf c.pl) w = .ok (p', { w with heap := h' }) ∧
      Evolve X w.heap h' ∧ Padded X h' c (padOf c.pl) p' ∧ h'.bytes X.S = w.heap.bytes X.S ∧
      ∀ a, X.spared w.heap a → h'.arrayOf a = w.heap.arrayOf a := by
  obtain ⟨hv, hb⟩ := packet_same hc hm hw.ev
  obtain ⟨_, hne, hl1, _⟩ := hc.ok c hm
  obtain ⟨p', h', he, hbp, hvp, hlp, hmem, _, hin⟩ := padPacket_spec env (w := w) hv (padOf c.pl)
  have hpl := hc.packet_lt hm
  have hlt := padOf_lt c.pl
  have hSv := hw.scratch_valid hc
  refine ⟨p', h', he, ?_, ⟨hvp, hlp, by rw [hbp, hb], ?_⟩, ?_, ?_⟩
  · -- shape of the new memory
    unfold padPacket at he
    split at he
    · rename_i hpos
      simp only [appendM, Heap.append, zeros_length] at he
      split at he
      · rename_i hcap
        simp only [Res.ok.injEq, Prod.mk.injEq, World.mk.injEq] at he
        rw [← he.2.2.1]
        have hwr : c.packet.off + c.packet.len + (zeros (padOf c.pl)).length
            ≤ (w.heap.arrayOf c.packet.arr).length := by
          have := hv.2; simp; omega
        refine ⟨by simp, ?_, ?_, ?_⟩
        · intro a ha _ _; rw [Heap.arrayOf_write_ne (by omega)]
        · intro a _; exact Heap.arrayOf_length_write hwr
        · intro a ha _ _ _ i
          by_cases hap : c.packet.arr = a
          · subst hap
            rw [Heap.arrayOf_write_same (by have := hw.base_le; omega), splice_getElem? _ _ _ hwr]
            split
            · rename_i hi
              right
              simp only [zeros_length] at hi
              refine ⟨?_, c, hc.mine c hm, rfl, hi.1, by omega⟩
              unfold zeros
              rw [List.getElem?_replicate, if_pos (by omega)]
            · exact Or.inl rfl
          · rw [Heap.arrayOf_write_ne hap]; exact Or.inl rfl
      · simp only [Res.ok.injEq, Prod.mk.injEq, World.mk.injEq] at he
        rw [← he.2.2.1]
        exact Evolve.alloc hw.base_le _
    · simp only [GoM.pure_apply, Res.ok.injEq, Prod.mk.injEq] at he
      have : w.heap = h' := by rw [he.2]
      rw [this]
      exact Evolve.refl X h'
  · by_cases hcap : c.packet.len + padOf c.pl ≤ c.packet.cap
    · rw [hin hcap]; exact Or.inr ⟨rfl, rfl⟩
    · left
      unfold padPacket at he
      split at he
      · simp only [appendM, Heap.append, zeros_length, if_neg hcap, Res.ok.injEq, Prod.mk.injEq,
          World.mk.injEq] at he
        rw [← he.1, ← he.2.2.1]
        exact ⟨⟨hw.base_le, fun ho => Nat.lt_irrefl _ (hw.room _ ho)⟩, by simp⟩
      · have := hv.1; omega
  · exact (hmem X.S hSv).2 (Or.inl fun h => hne h.symm)
  · intro a ha
    unfold padPacket at he
    split at he
    · simp only [appendM, Heap.append, zeros_length] at he
      split at he
      · simp only [Res.ok.injEq, Prod.mk.injEq, World.mk.injEq] at he
        rw [← he.2.2.1, Heap.arrayOf_write_ne (fun h => ha.2.2 c (hc.mine c hm) h.symm)]
      · simp only [Res.ok.injEq, Prod.mk.injEq, World.mk.injEq] at he
        rw [← he.2.2.1, Heap.arrayOf_alloc_old ha.1]
    · simp only [GoM.pure_apply, Res.ok.injEq, Prod.mk.injEq] at he
      have : w.heap = h' := by rw [he.2]
      rw [this]

theorem headOf_length (e : Endian) (qn : U16) (c : VCall) :
    (headOf e qn c).length = if c.isV2 then 40 else 32 := by
  cases c <;> simp [headOf, VCall.isV2]

theorem attrOf_length (e : Endian) (c : VCall) : (attrOf e c).length = 4 := by
  cases c <;> simp [attrOf]

/-- Sending. -/
theorem send_step {X : Ctx} (hc : Calls X) {c : VCall} (hm : c ∈ X.calls) {qh : Handle} {w : W}
    (hw : WInv X qh w) (env : Env) (K : Kernel QEv) {hs ps p : Slice}
    (t : TInv X w.heap c (.padded hs ps p)) :
    ∃ w', vstep env K c (.padded hs ps p) w = .ok (.done, w') ∧ StepTo X qh c (.padded hs ps p) w .done w' := by
  obtain ⟨hh, ⟨pa, pb, pv, pby⟩, qv, ql, qby, qa⟩ := t
  obtain ⟨pk, hne, hl1, hll⟩ := hc.ok c hm
  have hpl : ps.len = 4 := by rw [← Heap.bytes_length pv, pby, attrOf_length]
  have hbl := Heap.bytes_length pk
  have hps0 : ps.len ≠ 0 := by omega
  have hp0 : p.len ≠ 0 := by omega
  obtain ⟨tr, heap, q⟩ := w
  cases c with
  | v1 qa' v l id pkt =>
    obtain ⟨ha, hb, hv, hby⟩ := hh
    have hsl : hs.len = 32 := by rw [← Heap.bytes_length hv, hby, headOf_length]; rfl
    obtain ⟨r, hsm⟩ := sendmsg_spec env K qh.fd
      [⟨hs.arr, hs.off, 32⟩, ⟨ps.arr, ps.off, 4⟩, ⟨p.arr, p.off, (nfaAlign (l.setWidth 16)).toNat⟩] ⟨tr, heap, q⟩
    have hpl' : (l.setWidth 16).toNat = l.toNat % 65536 := by rw [BitVec.toNat_setWidth]
    have hle : (nfaAlign (l.setWidth 16)).toNat ≤ p.len := by
      have hpad := padOf_eq (l.setWidth 16)
      rw [hpl'] at hpad
      have hal : (nfaAlign (l.setWidth 16)).toNat ≤ roundUp4 (l.toNat % 65536) := by
        rw [nfaAlign_toNat, hpl']; unfold roundUp4; split <;> omega
      have := roundUp4_ge (l.toNat % 65536)
      simp only [VCall.packet, VCall.pl, VCall.plen] at *
      omega
    have hbytes : [(⟨hs.arr, hs.off, 32⟩ : Iov), ⟨ps.arr, ps.off, 4⟩,
        ⟨p.arr, p.off, (nfaAlign (l.setWidth 16)).toNat⟩].flatMap (Iov.read env heap)
        = callMsg X.e X.qn (.v1 qa' v l id pkt) (X.h0.bytes pkt) := by
      simp only [List.flatMap_cons, List.flatMap_nil, List.append_nil]
      rw [Iov.read_eq env hv 32 (by omega), Iov.read_eq env pv 4 (by omega), Iov.read_eq env qv _ hle, hby, pby, qby]
      rw [List.take_of_length_le (by rw [headOf_length]; exact Nat.le_refl _),
        List.take_of_length_le (by rw [attrOf_length]; exact Nat.le_refl _)]
      simp only [headOf, attrOf, callMsg, v1Bytes, v1Head, VCall.packet, VCall.pl, List.append_assoc]
    rw [hbytes] at hsm
    refine ⟨⟨tr ++ [.sendmsg qh.fd (callMsg X.e X.qn (.v1 qa' v l id pkt) (X.h0.bytes pkt)) r], heap, q⟩, ?_, ⟨Evolve.refl _ _, ⟨hw.ev, hw.handle, hw.hdr, hw.qn, hw.room⟩, trivial, fun _ => rfl, fun _ _ => rfl, by simp, rfl, rfl,
      Or.inr ⟨rfl, r, rfl⟩⟩⟩
    simp only [vstep, vSend, GoM.bind_apply]
    rw [baseOf_eq _ (by omega)]
    refine bind_of_eq rfl ?_
    rw [baseOf_eq _ hps0]
    refine bind_of_eq rfl ?_
    rw [baseOf_eq _ hp0]
    refine bind_of_eq rfl ?_
    simp only [getQ, Res.ok_bind]
    rw [show q.handle = some qh from hw.handle]
    simp only [GoM.bind_apply]
    rw [hsm]
    rfl
  | v2 qa' v m l id pkt =>
    obtain ⟨rfl, hby⟩ := hh
    have hSv : X.S.Valid heap := hw.scratch_valid hc
    have hsl := hc.scratch.2
    obtain ⟨r, hsm⟩ := sendmsg_spec env K qh.fd
      [⟨X.S.arr, X.S.off, 40⟩, ⟨ps.arr, ps.off, 4⟩, ⟨p.arr, p.off, p.len⟩] ⟨tr, heap, q⟩
    have hbytes : [(⟨X.S.arr, X.S.off, 40⟩ : Iov), ⟨ps.arr, ps.off, 4⟩,
        ⟨p.arr, p.off, p.len⟩].flatMap (Iov.read env heap)
        = callMsg X.e X.qn (.v2 qa' v m l id pkt) (X.h0.bytes pkt) := by
      simp only [List.flatMap_cons, List.flatMap_nil, List.append_nil]
      rw [Iov.read_eq env hSv 40 (by omega), Iov.read_eq env pv 4 (by omega), Iov.read_eq env qv _ (Nat.le_refl _),
        hby, pby, qby]
      rw [List.take_of_length_le (by rw [headOf_length]; exact Nat.le_refl _),
        List.take_of_length_le (by rw [attrOf_length]; exact Nat.le_refl _),
        List.take_of_length_le (by simp [ql, hbl])]
      simp only [headOf, attrOf, callMsg, v2Bytes, VCall.packet, VCall.pl, List.append_assoc]
    rw [hbytes] at hsm
    refine ⟨⟨tr ++ [.sendmsg qh.fd (callMsg X.e X.qn (.v2 qa' v m l id pkt) (X.h0.bytes pkt)) r], heap, q⟩, ?_, ⟨Evolve.refl _ _, ⟨hw.ev, hw.handle, hw.hdr, hw.qn, hw.room⟩, trivial, fun _ => rfl, fun _ _ => rfl, by simp, rfl, rfl,
      Or.inr ⟨rfl, r, rfl⟩⟩⟩
    simp only [vstep, vSend, GoM.bind_apply]
    rw [baseOf_eq _ (by omega)]
    refine bind_of_eq rfl ?_
    rw [baseOf_eq _ hps0]
    refine bind_of_eq rfl ?_
    rw [baseOf_eq _ hp0]
    refine bind_of_eq rfl ?_
    simp only [getQ, Res.ok_bind]
    rw [show q.handle = some qh from hw.handle]
    simp only [GoM.bind_apply]
    rw [hsm]
    rfl

theorem take_cat {h pre new suf : List Byte} {i n : Nat} (hh : h = pre ++ (new ++ suf)) (hi : pre.length = i)
    (hn : new.length = n) : h.take i ++ new = h.take (i + n) := by
  rw [hh, ← hi, ← hn, List.take_left' rfl, ← List.append_assoc, List.take_left' (by simp)]

/-- Writing one field of the scratch header. -/
theorem fill_ok {X : Ctx} (hc : Calls X) {qa v m l id : U32} {pkt : Slice}
    {qh : Handle} {w : W} (hw : WInv X qh w) (env : Env) (he : env.e = X.e) (k i n : Nat)
    (hk : (k, i, n) ∈ [(0, 0, 16), (1, 16, 4), (2, 20, 4), (3, 24, 8), (4, 32, 4), (5, 36, 4)])
    (hp : (w.heap.bytes X.S).take i = (headOf X.e X.qn (.v2 qa v m l id pkt)).take i) :
    ∃ h', v2Fill env v m l id k i w = .ok (.filled (k + 1) (i + n), { w with heap := h' }) ∧
      Evolve X w.heap h' ∧
      (h'.bytes X.S).take (i + n) = (headOf X.e X.qn (.v2 qa v m l id pkt)).take (i + n) ∧
      ∀ a, X.spared w.heap a → h'.arrayOf a = w.heap.arrayOf a := by
  have hSv := hw.scratch_valid hc
  have hS40 := hc.scratch.2
  have hbl : (w.heap.bytes X.S).length = 40 := by rw [Heap.bytes_length hSv, hS40]
  have hSlt := hc.scratch_lt
  have main : ∀ new : List Byte, new.length = n → i + n ≤ 40 →
      (∀ b : List Byte, n ≤ b.length → v2Writer env.e X.qn v m l id k b = .ok (new ++ b.drop n, n)) →
      (headOf X.e X.qn (.v2 qa v m l id pkt)).take i ++ new
        = (headOf X.e X.qn (.v2 qa v m l id pkt)).take (i + n) →
      ∃ h', v2Fill env v m l id k i w = .ok (.filled (k + 1) (i + n), { w with heap := h' }) ∧
        Evolve X w.heap h' ∧
        (h'.bytes X.S).take (i + n) = (headOf X.e X.qn (.v2 qa v m l id pkt)).take (i + n) ∧
        ∀ a, X.spared w.heap a → h'.arrayOf a = w.heap.arrayOf a := by
    intro new hnew hin hwr hcat
    have hf := hwr ((w.heap.bytes X.S).drop i) (by rw [List.length_drop, hbl]; omega)
    obtain ⟨f1, f2, f3, _⟩ := fillFrom_spec (s := X.S) (i := i) (w := w) (n := n) hSv (by omega) hf
      (by simp [hbl, hS40, hnew]; omega)
    refine ⟨w.heap.write X.S.arr (X.S.off + i) (new ++ List.drop n (List.drop i (w.heap.bytes X.S))), ?_,
      Evolve.scratch hSlt ?_, ?_, fun a ha => Heap.arrayOf_write_ne (fun h => ha.2.1 h.symm)⟩
    · unfold v2Fill
      simp only [GoM.bind_apply, getQ, Res.ok_bind, hw.hdr, hw.qn]
      rw [f1]
      rfl
    · have := hSv.1; have := hSv.2
      simp [hbl, hnew]; omega
    · rw [f3, hp, ← List.append_assoc, hcat]
      apply List.take_left'
      simp [headOf]; omega
  simp only [List.mem_cons, Prod.mk.injEq, List.not_mem_nil, or_false] at hk
  rcases hk with ⟨rfl, rfl, rfl⟩ | ⟨rfl, rfl, rfl⟩ | ⟨rfl, rfl, rfl⟩ | ⟨rfl, rfl, rfl⟩ | ⟨rfl, rfl, rfl⟩ |
    ⟨rfl, rfl, rfl⟩
  · refine main (hdrBytes X.e ⟨40 + (l.setWidth 16 + 4 : U16).setWidth 32, 0x301, 1, 0, 0⟩) (by simp) (by omega) ?_ ?_
    · intro b hb; rw [he]; exact hdrBuf_eq _ _ _ hb
    · exact take_cat (pre := [])
        (suf := ([0, 0] ++ enc16 .big X.qn) ++ (enc16 X.e 12 ++ enc16 X.e 2) ++ (enc32 .big v ++ enc32 X.e id) ++ (enc16 X.e 8 ++ enc16 X.e 3) ++ enc32 .big m)
        (by simp [headOf, v2Head]) (by simp) (by simp)
  · refine main ([0, 0] ++ enc16 .big X.qn) (by simp) (by omega) ?_ ?_
    · intro b hb; exact nfgenBuf_eq _ _ hb
    · exact take_cat (pre := hdrBytes X.e ⟨40 + (l.setWidth 16 + 4 : U16).setWidth 32, 0x301, 1, 0, 0⟩)
        (suf := (enc16 X.e 12 ++ enc16 X.e 2) ++ (enc32 .big v ++ enc32 X.e id) ++ (enc16 X.e 8 ++ enc16 X.e 3) ++ enc32 .big m)
        (by simp [headOf, v2Head]) (by simp) (by simp)
  · refine main (enc16 X.e 12 ++ enc16 X.e 2) (by simp) (by omega) ?_ ?_
    · intro b hb; rw [he]; exact attrBuf_eq _ _ _ hb
    · exact take_cat (pre := hdrBytes X.e ⟨40 + (l.setWidth 16 + 4 : U16).setWidth 32, 0x301, 1, 0, 0⟩ ++ ([0, 0] ++ enc16 .big X.qn))
        (suf := (enc32 .big v ++ enc32 X.e id) ++ (enc16 X.e 8 ++ enc16 X.e 3) ++ enc32 .big m)
        (by simp [headOf, v2Head]) (by simp) (by simp)
  · refine main (enc32 .big v ++ enc32 X.e id) (by simp) (by omega) ?_ ?_
    · intro b hb; rw [he]; exact verdictBuf_eq _ _ _ _ hb
    · exact take_cat (pre := hdrBytes X.e ⟨40 + (l.setWidth 16 + 4 : U16).setWidth 32, 0x301, 1, 0, 0⟩ ++ ([0, 0] ++ enc16 .big X.qn) ++ (enc16 X.e 12 ++ enc16 X.e 2))
        (suf := (enc16 X.e 8 ++ enc16 X.e 3) ++ enc32 .big m)
        (by simp [headOf, v2Head]) (by simp) (by simp)
  · refine main (enc16 X.e 8 ++ enc16 X.e 3) (by simp) (by omega) ?_ ?_
    · intro b hb; rw [he]; exact attrBuf_eq _ _ _ hb
    · exact take_cat (pre := hdrBytes X.e ⟨40 + (l.setWidth 16 + 4 : U16).setWidth 32, 0x301, 1, 0, 0⟩ ++ ([0, 0] ++ enc16 .big X.qn) ++ (enc16 X.e 12 ++ enc16 X.e 2) ++ (enc32 .big v ++ enc32 X.e id))
        (suf := enc32 .big m)
        (by simp [headOf, v2Head]) (by simp) (by simp)
  · refine main (enc32 .big m) (by simp) (by omega) ?_ ?_
    · intro b hb; exact markBuf_eq _ _ hb
    · exact take_cat (pre := hdrBytes X.e ⟨40 + (l.setWidth 16 + 4 : U16).setWidth 32, 0x301, 1, 0, 0⟩ ++ ([0, 0] ++ enc16 .big X.qn) ++ (enc16 X.e 12 ++ enc16 X.e 2) ++ (enc32 .big v ++ enc32 X.e id) ++ (enc16 X.e 8 ++ enc16 X.e 3))
        (suf := [])
        (by simp [headOf, v2Head]) (by simp) (by simp)

/-- Every step of a goroutine succeeds and keeps the invariants. -/
theorem step_ok {X : Ctx} (hc : Calls X) {c : VCall} (hm : c ∈ X.calls) {qh : Handle} {w : W}
    (hw : WInv X qh w) (env : Env) (he : env.e = X.e) (K : Kernel QEv) {pc : Pc} (hd : pc ≠ .done)
    (t : TInv X w.heap c pc) :
    ∃ pc' w', vstep env K c pc w = .ok (pc', w') ∧ StepTo X qh c pc w pc' w' := by
  have hb := hw.base_le
  obtain ⟨tr, heap, q⟩ := w
  -- a fill step
  have fill : ∀ (qa v m l id : U32) (pkt : Slice), c = .v2 qa v m l id pkt → ∀ k i n : Nat,
      (k, i, n) ∈ [(0, 0, 16), (1, 16, 4), (2, 20, 4), (3, 24, 8), (4, 32, 4), (5, 36, 4)] →
      (heap.bytes X.S).take i = (headOf X.e X.qn c).take i →
      ∃ pc' w', v2Fill env v m l id k i ⟨tr, heap, q⟩ = .ok (pc', w') ∧ StepTo X qh c (.filled k i) ⟨tr, heap, q⟩ pc' w' := by
    intro qa v m l id pkt hcc k i n hk hp
    subst hcc
    obtain ⟨h', h1, h2, h3, h4⟩ := fill_ok hc hw env he k i n hk hp
    refine ⟨_, _, h1, ⟨h2, ⟨hw.ev.trans h2, hw.handle, hw.hdr, hw.qn, hw.room_le h2.len⟩, ⟨rfl, ?_, h3⟩, by simp [VCall.isV2], h4,
      by simp, ?_, rfl, Or.inl ⟨by simp, rfl⟩⟩⟩
    · simp only [List.mem_cons, Prod.mk.injEq, List.not_mem_nil, or_false] at hk ⊢
      omega
    · simp only [List.mem_cons, Prod.mk.injEq, List.not_mem_nil, or_false] at hk
      simp only [rank]; omega
  -- an allocation
  have alloc : ∀ bs : List Byte, Evolve X heap (heap.mk' bs).2 ∧ WInv X qh ⟨tr, (heap.mk' bs).2, q⟩ ∧
      (heap.mk' bs).2.bytes X.S = heap.bytes X.S ∧ Priv X (heap.mk' bs).2 (heap.mk' bs).1 bs ∧
      ∀ a, X.spared heap a → (heap.mk' bs).2.arrayOf a = heap.arrayOf a := by
    intro bs
    have := Evolve.alloc (X := X) (h := heap) hb bs
    exact ⟨this, ⟨hw.ev.trans this, hw.handle, hw.hdr, hw.qn, hw.room_le this.len⟩, bytes_alloc_scratch hc hw bs, Priv.new hb hw.room bs,
      fun a ha => Heap.arrayOf_alloc_old ha.1⟩
  -- padding
  have pad : ∀ hs ps : Slice, TInv X heap c (.attred hs ps) →
      ∃ p' w', padPacket env c.packet (padOf c.pl) ⟨tr, heap, q⟩ = .ok (p', w') ∧
        StepTo X qh c (.attred hs ps) ⟨tr, heap, q⟩ (.padded hs ps p') w' := by
    intro hs ps t
    obtain ⟨p', h', h1, h2, h3, h4, h5⟩ := pad_step hc hm hw env
    refine ⟨_, _, h1, ⟨h2, ⟨hw.ev.trans h2, hw.handle, hw.hdr, hw.qn, hw.room_le h2.len⟩, ?_, fun _ => h4, h5, by simp,
      rfl, by cases c <;> rfl, Or.inl ⟨by simp, rfl⟩⟩⟩
    have := TInv.mono hc hm h2 (fun _ => h4) t
    exact ⟨this.1, this.2, h3⟩
  cases pc with
  | done => exact absurd rfl hd
  | start =>
    cases c with
    | v1 qa v l id pkt =>
      refine ⟨.counted, ⟨tr, heap, counted v q⟩, ?_, ⟨Evolve.refl _ _, ⟨hw.ev, ?_, ?_, ?_, hw.room⟩, rfl, fun _ => rfl, fun _ _ => rfl,
        by simp, rfl, rfl, Or.inl ⟨by simp, rfl⟩⟩⟩
      · simp only [vstep, GoM.bind_apply, bump, counted]
        split <;> rfl
      · rw [← hw.handle]; simp only [counted]; split <;> rfl
      · rw [← hw.hdr]; simp only [counted]; split <;> rfl
      · rw [← hw.qn]; simp only [counted]; split <;> rfl
    | v2 qa v m l id pkt =>
      obtain ⟨pc', w', h1, h2⟩ := fill qa v m l id pkt rfl 0 0 16 (by simp) (by simp)
      exact ⟨pc', w', h1, ⟨h2.ev, h2.winv, h2.tinv, h2.scratch, h2.spared, h2.started, h2.rank, h2.count, h2.sent⟩⟩
  | counted =>
    cases c with
    | v2 => simp [TInv, VCall.isV2] at t
    | v1 qa v l id pkt =>
      obtain ⟨a1, a2, a3, a4, a5⟩ := alloc (v1Head env.e q.queueNum v id (l.setWidth 16))
      refine ⟨.headed (heap.mk' (v1Head env.e q.queueNum v id (l.setWidth 16))).1, ⟨tr, (heap.mk' (v1Head env.e q.queueNum v id (l.setWidth 16))).2, q⟩, ?_,
        ⟨a1, a2, ⟨rfl, ?_⟩, fun _ => a3, a5, by simp, ?_, rfl, Or.inl ⟨by simp, rfl⟩⟩⟩
      · simp only [vstep, GoM.bind_apply, v1Build_eq, allocM_eq, Res.ok_bind, GoM.pure_apply]
      · simp only [HeadAt, headOf]
        rw [← he, ← show q.queueNum = X.qn from hw.qn]; exact a4
      · rfl
  | headed hs =>
    cases c with
    | v2 => simp [TInv, VCall.isV2] at t
    | v1 qa v l id pkt =>
      obtain ⟨a1, a2, a3, a4, a5⟩ := alloc (attrOf X.e (.v1 qa v l id pkt))
      refine ⟨.attred hs (heap.mk' (attrOf X.e (.v1 qa v l id pkt))).1,
        ⟨tr, (heap.mk' (attrOf X.e (.v1 qa v l id pkt))).2, q⟩, ?_,
        ⟨a1, a2, ⟨Priv.mono t.2 a1, a4⟩, fun _ => a3, a5, by simp, ?_, rfl, Or.inl ⟨by simp, rfl⟩⟩⟩
      · simp only [vstep, GoM.bind_apply, attrBuild_eq, allocM_eq, Res.ok_bind, GoM.pure_apply, attrOf, he]
      · rfl
  | attred hs ps =>
    obtain ⟨p', w', h1, h2⟩ := pad hs ps t
    refine ⟨.padded hs ps p', w', ?_, h2⟩
    cases c with
    | v1 qa v l id pkt => exact bind_of_eq h1 rfl
    | v2 qa v m l id pkt => exact bind_of_eq h1 rfl
  | padded hs ps p =>
    obtain ⟨w', h1, h2⟩ := send_step hc hm hw env K t
    exact ⟨.done, w', h1, h2⟩
  | filled k i =>
    cases c with
    | v1 => simp [TInv, VCall.isV2] at t
    | v2 qa v m l id pkt =>
      obtain ⟨_, hki, hp⟩ := t
      simp only [List.mem_cons, Prod.mk.injEq, List.not_mem_nil, or_false] at hki
      by_cases hk6 : k < 6
      · have : ∃ n, (k, i, n) ∈ [(0, 0, 16), (1, 16, 4), (2, 20, 4), (3, 24, 8), (4, 32, 4), (5, 36, 4)] := by
          rcases hki with ⟨rfl, rfl⟩ | ⟨rfl, rfl⟩ | ⟨rfl, rfl⟩ | ⟨rfl, rfl⟩ | ⟨rfl, rfl⟩ | ⟨rfl, rfl⟩
          · exact ⟨4, by simp⟩
          · exact ⟨4, by simp⟩
          · exact ⟨8, by simp⟩
          · exact ⟨4, by simp⟩
          · exact ⟨4, by simp⟩
          · omega
        obtain ⟨n, hn⟩ := this
        obtain ⟨pc', w', h1, h2⟩ := fill qa v m l id pkt rfl k i n hn hp
        refine ⟨pc', w', ?_, h2⟩
        simp only [vstep, if_pos hk6]
        exact h1
      · have hi : i = 40 := by omega
        subst hi
        obtain ⟨a1, a2, a3, a4, a5⟩ := alloc (attrOf X.e (.v2 qa v m l id pkt))
        refine ⟨.attred X.S (heap.mk' (attrOf X.e (.v2 qa v m l id pkt))).1,
          ⟨tr, (heap.mk' (attrOf X.e (.v2 qa v m l id pkt))).2, q⟩, ?_,
          ⟨a1, a2, ⟨⟨rfl, ?_⟩, a4⟩, fun _ => a3, a5, by simp, ?_, rfl, Or.inl ⟨by simp, rfl⟩⟩⟩
        · simp only [vstep, if_neg hk6, GoM.bind_apply, getQ, attrBuild_eq, allocM_eq, Res.ok_bind, GoM.pure_apply,
            attrOf, he, show q.hdrSlice = X.S from hw.hdr]
        · rw [a3, ← List.take_of_length_le (l := heap.bytes X.S) (i := 40), hp,
            List.take_of_length_le]
          · rw [headOf_length]; exact Nat.le_refl _
          · rw [Heap.bytes_length (hw.scratch_valid hc), hc.scratch.2]; exact Nat.le_refl _
        · simp only [rank]; omega

end Verif.NfQueue
