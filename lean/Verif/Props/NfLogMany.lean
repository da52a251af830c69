import Verif.NfLog.Many
import Verif.Props.NfLogConfig
import Verif.Props.NfLogRead
import Verif.Props.NfLogKernelWorks
/-!
Property C142: several listeners in one process.
-/
namespace Verif.Props.Log
open Verif.Common Verif.Sys Verif.Spec Verif.NfLog

/-! ### Specification -/

/-- What listener `i` did. -/
def ownEvents (i : Nat) (l : List (Nat × Ev LEv)) : List (Ev LEv) := (l.filter fun x => decide (x.1 = i)).map (·.2)

/-- The beginning of a turn on descriptor `fd`, with the callbacks `cb`, `ecb`: nothing yet; a failed receive and perhaps its report;
or a datagram and calls of the log callback: if it is well-formed, the first of the reports it must produce. -/
def Begun (fd : Nat) (cb ecb : Option Nat) (part : List (Ev LEv)) : Prop :=
  part = [] ∨
  (∃ n rep, part = .recvfrom fd 65536 0 (.error n) :: rep ∧ (rep = [] ∨ ErrReport ecb "Netlink error" (.errno n) rep)) ∨
  ∃ d evs, part = .recvfrom fd 65536 0 (.ok d) :: evs ∧ errors evs = [] ∧
    (∀ x ∈ logs evs, cb = some x.1 ∧ x.2.version = 4) ∧ (∀ ev ∈ evs, isRecv ev = false ∧ isClose ev = false) ∧
    ∀ items, d = datagram items → (∀ i ∈ items, ItemOk i) → cb.isSome = true →
      ∃ more, AllReported items ((logs evs).map Prod.snd ++ more)

/-- What a listener called with the arguments `a` may have done so far, if it were alone: nothing; listening could not be started; or it
was started on a socket `fd` of its own, and then there were turns of the reader, each complete except perhaps the last one, or the last
one ended it. -/
inductive Listener (e : Endian) (a : ListenArgs) : List (Ev LEv) → Prop
  | nothing : Listener e a []
  | refused {err evs} : ListenOut e a.groups a.size.toNat (some err) evs → Listener e a evs
  | reading {fd start part} {gs : List (List (Ev LEv))} : ListenOut e a.groups a.size.toNat none start → .socket 16 3 12 (.ok fd) ∈ start →
      (∀ g ∈ gs, LogTurn fd a.cb a.ecb false g) → Begun fd a.cb a.ecb part → Listener e a (start ++ gs.flatten ++ part)
  | ended {fd start last} {gs : List (List (Ev LEv))} : ListenOut e a.groups a.size.toNat none start → .socket 16 3 12 (.ok fd) ∈ start →
      (∀ g ∈ gs, LogTurn fd a.cb a.ecb false g) → LogTurn fd a.cb a.ecb true last → Listener e a (start ++ gs.flatten ++ last)

/-! ### Inside a well-formed datagram -/

/-- The bytes `rest` are read as the attributes `as`. -/
inductive AttrsAt : List Byte → List (Nat × List Byte) → Prop
  | nil : AttrsAt [] []
  | cons {t n p body as} : AttrOk (t, p) → n = p.length → readPayload (roundUp4 p.length) body = padded p →
      AttrsAt (body.drop (roundUp4 p.length)) as → AttrsAt (attrHdr t n ++ body) ((t, p) :: as)

theorem attrsAt_init (tail : List Byte) (as : List (Nat × List Byte)) (ht : AttrsAt tail as) :
    ∀ init : List (Nat × List Byte), (∀ a ∈ init, AttrOk a) → AttrsAt (encodeAttrs .little init ++ tail) (init ++ as) := by
  intro init
  induction init with
  | nil => intro _; simpa [encodeAttrs] using ht
  | cons a init ih =>
    intro hall
    obtain ⟨t, p⟩ := a
    have hb : encodeAttrs .little ((t, p) :: init) ++ tail =
        attrHdr t p.length ++ (padded p ++ (encodeAttrs .little init ++ tail)) := by
      simp [encodeAttrs, encodeAttr_split]
    rw [hb]
    refine .cons (hall (t, p) (by simp)) rfl (readPayload_exact (padded_length p)) ?_
    rw [List.drop_left' (padded_length p)]
    exact ih fun x hx => hall x (by simp [hx])

/-- A well-formed message is read as its attributes, the last one cut. -/
theorem attrsAt_msg {hdr : List Byte} {attrs : List (Nat × List Byte)} (hok : MsgOk hdr attrs) :
    AttrsAt ((hdr ++ encodeAttrs .little attrs).dropLast.drop 4) (cutLast attrs) := by
  obtain ⟨hh, hall, hlast⟩ := hok
  by_cases hnil : attrs = []
  · subst hnil
    rw [List.drop_of_length_le (by simp [encodeAttrs]; omega)]
    exact .nil
  · obtain ⟨init, ⟨t, p⟩, rfl⟩ : ∃ init a, attrs = init ++ [a] :=
      ⟨attrs.dropLast, attrs.getLast hnil, (List.dropLast_concat_getLast hnil).symm⟩
    have hne : p ≠ [] := hlast (t, p) (by simp)
    rw [cutLast_append] at hall ⊢
    have hpos : 0 < (padded p).length := by
      have := List.length_pos_iff.mpr hne
      simp; unfold roundUp4; omega
    have hb : (hdr ++ encodeAttrs .little (init ++ [(t, p)])).dropLast.drop 4 =
        encodeAttrs .little init ++ (attrHdr t p.length ++ (padded p).dropLast) := by
      have h1 : hdr ++ encodeAttrs .little (init ++ [(t, p)]) =
          hdr ++ (encodeAttrs .little init ++ (attrHdr t p.length ++ padded p)) := by
        simp [encodeAttrs, encodeAttr_split]
      have h2 : padded p ≠ [] := List.length_pos_iff.mp hpos
      rw [h1, List.dropLast_append_of_ne_nil (by simp [h2]), List.drop_left' hh,
        List.dropLast_append_of_ne_nil (by simp [h2]), List.dropLast_append_of_ne_nil h2]
    have hrd : readPayload (roundUp4 (cut p).length) (padded p).dropLast = padded (cut p) := by
      rw [cut_length p hne, readPayload_short (by simp), ← padded_cut p hne]
      have : roundUp4 p.length - (padded p).dropLast.length = 1 := by simp at hpos ⊢; omega
      rw [this]; rfl
    rw [hb]
    refine attrsAt_init _ _ (.cons (hall (t, cut p) (by simp)) (cut_length p hne).symm hrd ?_) init
      fun a ha => hall a (by simp [ha])
    rw [cut_length p hne, List.drop_of_length_le (by simp)]
    exact .nil

/-- Where the listener is, if the datagram `items` is well-formed and `ms` was reported so far: what is left completes it. -/
def Owes (items : List Item) (ms : List NfPacket) : LPc → Prop
  | .msgs b => ∃ items2, b = datagram items2 ∧ (∀ i ∈ items2, ItemOk i) ∧ b.length ≤ 65536 ∧
      ∀ ms2, AllReported items2 ms2 → AllReported items (ms ++ ms2)
  | .attrs rest m msgLen b => ∃ items2 as, sliceFrom b msgLen.toNat = .ok (datagram items2) ∧ AttrsAt rest as ∧
      (∀ i ∈ items2, ItemOk i) ∧ (datagram items2).length ≤ 65536 ∧
      ∀ ms1 ms2, Reported m.prefix' as ms1 → AllReported items2 ms2 → AllReported items (ms ++ (ms1 ++ ms2))
  | _ => False

/-- Reports of well-formed attributes exist. -/
theorem reported_exists {env : Env} (hp : Polite env) {cb : Nat} {rest : List Byte} {as : List (Nat × List Byte)} (h : AttrsAt rest as) :
    ∀ (m : NfPacket) (w : W), w.st.callback = some cb → ∃ ms, Reported m.prefix' as ms := by
  induction h with
  | nil => intro m w _; exact ⟨[], .nil⟩
  | @cons t n p body as hok hn hrd _ ih =>
    intro m w hcb
    obtain ⟨m', w', ms, _, hi, hrep⟩ := attr_ok hp hok hrd m w hcb
    obtain ⟨ms2, h2⟩ := ih m' w' (by rw [hi.1]; exact hcb)
    exact ⟨_, hrep _ _ h2⟩

theorem allReported_exists {env : Env} (hp : Polite env) {cb : Nat} {w : W} (hcb : w.st.callback = some cb) {items : List Item}
    (hlen : (datagram items).length ≤ 65536) (hall : ∀ i ∈ items, ItemOk i) : ∃ ms, AllReported items ms := by
  obtain ⟨_, ms, _, _, h⟩ := parse_items hp items [] w (by rw [List.append_nil]; omega) hall hcb
  exact ⟨ms, h⟩

theorem Owes.more {env : Env} (hp : Polite env) {items : List Item} {ms : List NfPacket} {pc : LPc} {cb : Nat} {w : W}
    (hcb : w.st.callback = some cb) (h : Owes items ms pc) : ∃ more, AllReported items (ms ++ more) := by
  cases pc with
  | msgs b =>
    obtain ⟨items2, rfl, hall, hlen, h⟩ := h
    obtain ⟨ms2, h2⟩ := allReported_exists hp hcb hlen hall
    exact ⟨ms2, h ms2 h2⟩
  | attrs rest m msgLen b =>
    obtain ⟨items2, as, _, hA, hall, hlen, h⟩ := h
    obtain ⟨ms1, h1⟩ := reported_exists hp hA m w hcb
    obtain ⟨ms2, h2⟩ := allReported_exists hp hcb hlen hall
    exact ⟨ms1 ++ ms2, h ms1 ms2 h1 h2⟩
  | _ => exact h.elim

/-- How many steps are left until the datagram is done with. -/
def toGo : LPc → Nat
  | .msgs b => 2 * b.length + 1
  | .attrs rest _ msgLen b => rest.length + 2 * (b.length - msgLen.toNat) + 2
  | _ => 0

theorem sliceFrom_msg {type : Nat} {mid body rest : List Byte} (hm : mid.length = 10)
    (hlen : (nlBytes type mid body ++ rest).length ≤ 65536) :
    (BitVec.ofNat 32 (16 + body.length)).toNat = 16 + body.length ∧
    ¬ (BitVec.ofNat 32 (16 + body.length) > BitVec.ofNat 32 (nlBytes type mid body ++ rest).length) ∧
    sliceFrom (nlBytes type mid body ++ rest) (BitVec.ofNat 32 (16 + body.length)).toNat = .ok rest := by
  have hl : (nlBytes type mid body ++ rest).length = 16 + body.length + rest.length := by
    rw [List.length_append, nlBytes_length hm]
  have h1 : (BitVec.ofNat 32 (16 + body.length)).toNat = 16 + body.length := by
    rw [BitVec.toNat_ofNat]; exact Nat.mod_eq_of_lt (by omega)
  refine ⟨h1, ?_, ?_⟩
  · rw [gt_iff_lt, BitVec.lt_def, BitVec.toNat_ofNat, BitVec.toNat_ofNat]
    omega
  · unfold sliceFrom
    rw [h1, if_pos (by omega), List.drop_left' (nlBytes_length hm)]

theorem slice_msg {mid body rest : List Byte} (hm : mid.length = 10) (hb : body ≠ [])
    (hlen : (nlBytes (4 * 256) mid body ++ rest).length ≤ 65536) :
    slice (nlBytes (4 * 256) mid body ++ rest) 16 (BitVec.ofNat 32 (16 + body.length) - 1 : U32).toNat = .ok body.dropLast := by
  have hpos := List.length_pos_iff.mpr hb
  have hl : (nlBytes (4 * 256) mid body ++ rest).length = 16 + body.length + rest.length := by
    rw [List.length_append, nlBytes_length hm]
  have h1 : (BitVec.ofNat 32 (16 + body.length) - 1 : U32).toNat = 15 + body.length := by
    rw [show 16 + body.length = (15 + body.length) + 1 from by omega, BitVec.ofNat_add,
      show (1 : U32) = BitVec.ofNat 32 1 from rfl, BitVec.add_sub_cancel, BitVec.toNat_ofNat]
    omega
  rw [h1]
  unfold slice
  rw [if_pos ⟨by omega, by omega⟩]
  congr 1
  unfold nlBytes
  rw [List.append_assoc _ body rest, List.drop_left' (by simp [bytes16, bytes32, hm]),
    show 15 + body.length - 16 = body.length - 1 from by omega,
    List.take_append_of_le_length (by omega), List.dropLast_eq_take]

/-- A step inside a well-formed datagram: no crash, and closer to its end. -/
theorem owes_step {env : Env} (hp : Polite env) (K : Kernel LEv) {items : List Item} {ms : List NfPacket} {pc : LPc} {cb : Nat} {w : W}
    (hcb : w.st.callback = some cb) (h : Owes items ms pc) :
    ∃ pc' w' ms', lstep env K pc w = .ok (pc', w') ∧ Invoked cb ms' w w' ∧ toGo pc' < toGo pc ∧
      ((pc' = .idle ∧ AllReported items (ms ++ ms')) ∨ Owes items (ms ++ ms') pc') := by
  cases pc with
  | msgs b =>
    obtain ⟨items2, rfl, hall, hlen, h⟩ := h
    cases items2 with
    | nil =>
      refine ⟨.idle, w, [], ?_, .refl cb w, by simp [toGo], .inl ⟨rfl, ?_⟩⟩
      · rfl
      · exact h [] .nil
    | cons i items2 =>
      have hd : datagram (i :: items2) = i.bytes ++ datagram items2 := by simp [datagram]
      rw [hd] at hlen ⊢
      have hi := hall i (by simp)
      have hall2 : ∀ i ∈ items2, ItemOk i := fun x hx => hall x (by simp [hx])
      cases i with
      | log mid hdr attrs =>
        obtain ⟨hm, hok⟩ := hi
        have hne : hdr ++ encodeAttrs .little attrs ≠ [] := by
          have h4 := hok.1
          intro h
          have := congrArg List.length h
          rw [List.length_append, h4] at this
          simp at this
        simp only [Item.bytes] at hlen ⊢
        obtain ⟨h1, h2, h3⟩ := sliceFrom_msg (type := 4 * 256) hm hlen
        have h4 := slice_msg hm hne hlen
        have hA := attrsAt_msg hok
        have hlen2 : (nlBytes (4 * 256) mid (hdr ++ encodeAttrs .little attrs) ++ datagram items2).length =
            16 + (hdr ++ encodeAttrs .little attrs).length + (datagram items2).length := by
          rw [List.length_append, nlBytes_length hm]
        generalize hbody : hdr ++ encodeAttrs .little attrs = body at *
        refine ⟨.attrs (body.dropLast.drop 4) NfPacket.zero (BitVec.ofNat 32 (16 + body.length))
          (nlBytes (4 * 256) mid body ++ datagram items2), w, [], ?_, .refl cb w, ?_, .inr ?_⟩
        · simp only [lstep]
          rw [if_neg (by omega), readHeader_nl hm]
          simp only [Res.ok_bind]
          rw [if_neg h2, if_pos (by rfl), h4]
          rfl
        · simp only [toGo]
          rw [h1, hlen2]
          simp only [List.length_drop, List.length_dropLast]
          omega
        · refine ⟨items2, cutLast attrs, h3, hA, hall2, by omega, ?_⟩
          intro ms1 ms2 r1 r2
          rw [List.append_nil]
          exact h _ (.log r1 r2)
      | other type mid body =>
        obtain ⟨hm, ht, hne⟩ := hi
        simp only [Item.bytes] at hlen ⊢
        obtain ⟨h1, h2, h3⟩ := sliceFrom_msg hm hlen
        have hlen2 : (nlBytes type mid body ++ datagram items2).length = 16 + body.length + (datagram items2).length := by
          rw [List.length_append, nlBytes_length hm]
        refine ⟨.msgs (datagram items2), w, [], ?_, .refl cb w, ?_, .inr ?_⟩
        · simp only [lstep]
          rw [if_neg (by omega), readHeader_nl hm]
          simp only [Res.ok_bind]
          rw [if_neg h2, if_neg (by
            rw [show (0x400 : U16) = BitVec.ofNat 16 (4 * 256) from rfl, type_eq ht (by omega)]; exact hne), h3]
          rfl
        · simp only [toGo]
          rw [hlen2]
          omega
        · refine ⟨items2, rfl, hall2, by omega, ?_⟩
          intro ms2 r2
          rw [List.append_nil]
          exact h _ (.other r2)
  | attrs rest m msgLen b =>
    obtain ⟨items2, as, hs, hA, hall, hlen, h⟩ := h
    cases hA with
    | nil =>
      have hb : (datagram items2).length = b.length - msgLen.toNat := by
        unfold sliceFrom at hs
        split at hs
        · simp only [Res.ok.injEq] at hs
          rw [← hs, List.length_drop]
        · cases hs
      refine ⟨.msgs (datagram items2), w, [], ?_, .refl cb w, ?_, .inr ?_⟩
      · rw [lstep_attrs]
        have : tlvBody env ⟨[], m, w⟩ = .ok (.done (none, w)) := rfl
        rw [this]
        simp only [Res.ok_bind, afterAttrs, hs]
      · simp only [toGo]
        rw [hb]
        simp only [List.length_nil]
        omega
      · refine ⟨items2, rfl, hall, hlen, ?_⟩
        intro ms2 r2
        rw [List.append_nil]
        exact h [] ms2 .nil r2
    | @cons t n p body as hok hn hrd hA =>
      subst hn
      obtain ⟨m', w', ms', hst, hi, hrep⟩ := attr_ok hp hok hrd m w hcb
      refine ⟨.attrs (body.drop (roundUp4 p.length)) m' msgLen b, w', ms', ?_, hi, ?_, .inr ?_⟩
      · rw [lstep_attrs, tlv_header, hst]
        rfl
      · simp only [toGo, List.length_append, List.length_drop]
        have : (attrHdr t p.length).length = 4 := by simp [attrHdr, bytes16]
        omega
      · refine ⟨items2, as, hs, hA, hall, hlen, ?_⟩
        intro ms1 ms2 r1 r2
        have := h _ _ (hrep _ _ r1) r2
        simpa using this
  | _ => exact h.elim

/-! ### A step of one listener -/

/-- What the turn has done so far, by position. -/
def AtPc (fd : Nat) (cb ecb : Option Nat) (part : List (Ev LEv)) : LPc → Prop
  | .unstarted => False
  | .off => False
  | .idle => part = []
  | .failed n => part = [.recvfrom fd 65536 0 (.error n)]
  | .closing => ∃ n rep, n ≠ 105 ∧ ErrReport ecb "Netlink error" (.errno n) rep ∧
      part = .recvfrom fd 65536 0 (.error n) :: rep
  | .done => LogTurn fd cb ecb true part
  | pc => ∃ d evs, part = .recvfrom fd 65536 0 (.ok d) :: evs ∧ errors evs = [] ∧
      (∀ x ∈ logs evs, cb = some x.1 ∧ x.2.version = 4) ∧ (∀ ev ∈ evs, isRecv ev = false ∧ isClose ev = false) ∧
      ∀ items, d = datagram items → (∀ i ∈ items, ItemOk i) → cb.isSome = true → Owes items ((logs evs).map Prod.snd) pc

/-- Steps that parse only call the log callback. -/
theorem parse_reads {env : Env} (hq : Quiet env) {K : Kernel LEv} {pc pc' : LPc} {w w' : W}
    (hpc : (∃ b, pc = .msgs b) ∨ ∃ rest m msgLen b, pc = .attrs rest m msgLen b) (h : lstep env K pc w = .ok (pc', w')) :
    Reads w.st.callback w w' ∧
      (pc' = .idle ∨ (∃ b, pc' = .msgs b) ∨ (∃ rest m msgLen b, pc' = .attrs rest m msgLen b) ∨ ∃ err, pc' = .parseErr err) := by
  rcases hpc with ⟨b, rfl⟩ | ⟨rest, m, msgLen, b, rfl⟩
  · simp only [lstep] at h
    split at h
    · simp only [Res.ok.injEq, Prod.mk.injEq] at h
      obtain ⟨rfl, rfl⟩ := h
      exact ⟨.refl _ _, .inl rfl⟩
    · obtain ⟨⟨msgLen, type⟩, _, h⟩ := Res.bind_eq_ok.mp h
      simp only at h
      split at h
      · simp only [Res.ok.injEq, Prod.mk.injEq] at h
        obtain ⟨rfl, rfl⟩ := h
        exact ⟨.refl _ _, .inr (.inr (.inr ⟨_, rfl⟩))⟩
      · split at h
        · obtain ⟨body, _, h⟩ := Res.bind_eq_ok.mp h
          simp only [Res.ok.injEq, Prod.mk.injEq] at h
          obtain ⟨rfl, rfl⟩ := h
          exact ⟨.refl _ _, .inr (.inr (.inl ⟨_, _, _, _, rfl⟩))⟩
        · obtain ⟨body, _, h⟩ := Res.bind_eq_ok.mp h
          simp only [Res.ok.injEq, Prod.mk.injEq] at h
          obtain ⟨rfl, rfl⟩ := h
          exact ⟨.refl _ _, .inr (.inl ⟨_, rfl⟩)⟩
  · rw [lstep_attrs] at h
    obtain ⟨x, hx, h⟩ := Res.bind_eq_ok.mp h
    have hr := tlvBody_reads hq hx
    cases x with
    | next s =>
      simp only [Res.ok.injEq, Prod.mk.injEq] at h
      obtain ⟨rfl, rfl⟩ := h
      exact ⟨hr, .inr (.inr (.inl ⟨_, _, _, _, rfl⟩))⟩
    | done a =>
      obtain ⟨e, w1⟩ := a
      simp only [afterAttrs] at h
      cases e with
      | some err =>
        simp only [Res.ok.injEq, Prod.mk.injEq] at h
        obtain ⟨rfl, rfl⟩ := h
        exact ⟨hr, .inr (.inr (.inr ⟨_, rfl⟩))⟩
      | none =>
        obtain ⟨b', _, h⟩ := Res.bind_eq_ok.mp h
        simp only [Res.ok.injEq, Prod.mk.injEq] at h
        obtain ⟨rfl, rfl⟩ := h
        exact ⟨hr, .inr (.inl ⟨_, rfl⟩)⟩

/-- One step of the goroutine: the turn goes on, or is complete. -/
theorem lstep_spec {env : Env} (hq : Quiet env) {K : Kernel LEv} {pc pc' : LPc} {w w' : W} {fd : Nat} {part : List (Ev LEv)}
    (ho : OpenOn w fd) (hat : AtPc fd w.st.callback w.st.errorCallback part pc) (h : lstep env K pc w = .ok (pc', w')) :
    w'.st = w.st ∧ ∃ evs, w'.trace = w.trace ++ evs ∧
      ((pc' = .idle ∧ LogTurn fd w.st.callback w.st.errorCallback false (part ++ evs)) ∨
        (pc' ≠ .idle ∧ AtPc fd w.st.callback w.st.errorCallback (part ++ evs) pc')) := by
  obtain ⟨n0, hs⟩ := ho
  have hparse : ((∃ b, pc = .msgs b) ∨ ∃ rest m msgLen b, pc = .attrs rest m msgLen b) →
      (∃ d evs, part = .recvfrom fd 65536 0 (.ok d) :: evs ∧ errors evs = [] ∧
      (∀ x ∈ logs evs, w.st.callback = some x.1 ∧ x.2.version = 4) ∧ (∀ ev ∈ evs, isRecv ev = false ∧ isClose ev = false) ∧
      ∀ items, d = datagram items → (∀ i ∈ items, ItemOk i) → w.st.callback.isSome = true →
        Owes items ((logs evs).map Prod.snd) pc) →
      w'.st = w.st ∧ ∃ evs, w'.trace = w.trace ++ evs ∧
      ((pc' = .idle ∧ LogTurn fd w.st.callback w.st.errorCallback false (part ++ evs)) ∨
        (pc' ≠ .idle ∧ AtPc fd w.st.callback w.st.errorCallback (part ++ evs) pc')) := by
    rintro hpc ⟨d, evs, rfl, he, hl, hn, hw⟩
    obtain ⟨⟨hst, evs2, ht, he2, hl2, hn2⟩, hpc'⟩ := parse_reads hq hpc h
    refine ⟨hst, evs2, ht, ?_⟩
    have hstep : ∀ items, d = datagram items → (∀ i ∈ items, ItemOk i) → w.st.callback.isSome = true →
        (pc' = .idle ∧ AllReported items ((logs (evs ++ evs2)).map Prod.snd)) ∨
          Owes items ((logs (evs ++ evs2)).map Prod.snd) pc' := by
      intro items hd hall hcb
      obtain ⟨cb, hcb'⟩ := Option.isSome_iff_exists.mp hcb
      obtain ⟨pc2, w2, ms', h2, ⟨_, evs3, ht3, hl3, _⟩, _, hor⟩ := owes_step hq.toPolite K hcb' (hw items hd hall hcb)
      rw [h] at h2
      simp only [Res.ok.injEq, Prod.mk.injEq] at h2
      obtain ⟨rfl, rfl⟩ := h2
      have : evs2 = evs3 := List.append_cancel_left (ht.symm.trans ht3)
      subst this
      have hms : (logs (evs ++ evs2)).map Prod.snd = (logs evs).map Prod.snd ++ ms' := by
        rw [logs_append, List.map_append, hl3, List.map_map]
        congr 1
        exact List.map_id' ms'
      rw [hms]
      exact hor
    have he' : errors (evs ++ evs2) = [] := by rw [errors_append, he, he2]; rfl
    have hl' : ∀ x ∈ logs (evs ++ evs2), w.st.callback = some x.1 ∧ x.2.version = 4 := by
      intro x hx
      rw [logs_append, List.mem_append] at hx
      exact hx.elim (hl x) (hl2 x)
    have hn' : ∀ ev ∈ evs ++ evs2, isRecv ev = false ∧ isClose ev = false := by
      intro ev hx
      exact (List.mem_append.mp hx).elim (hn ev) (hn2 ev)
    have hne : pc' ≠ .idle → ∀ items, d = datagram items → (∀ i ∈ items, ItemOk i) → w.st.callback.isSome = true →
        Owes items ((logs (evs ++ evs2)).map Prod.snd) pc' := by
      intro hne items hd hall hcb
      exact (hstep items hd hall hcb).elim (fun h => absurd h.1 hne) id
    rcases hpc' with rfl | ⟨b, rfl⟩ | ⟨rest, m, msgLen, b, rfl⟩ | ⟨err, rfl⟩
    · refine .inl ⟨rfl, ?_⟩
      have := LogTurn.parsed (fd := fd) (cb := w.st.callback) (ecb := w.st.errorCallback) (d := d)
        (rep := []) (r := none) he' hl' hn' (fun _ => rfl) (by simp) (by
          intro items hd hall hcb
          refine ⟨rfl, _, ?_, rfl⟩
          exact (hstep items hd hall hcb).elim (fun h => h.2) (fun h => h.elim))
      simpa using this
    · exact .inr ⟨(by intro h; cases h), d, evs ++ evs2, rfl, he', hl', hn', hne (by intro h; cases h)⟩
    · exact .inr ⟨(by intro h; cases h), d, evs ++ evs2, rfl, he', hl', hn', hne (by intro h; cases h)⟩
    · exact .inr ⟨(by intro h; cases h), d, evs ++ evs2, rfl, he', hl', hn', hne (by intro h; cases h)⟩
  cases pc with
  | unstarted => exact hat.elim
  | off => exact hat.elim
  | idle =>
    have hat : part = [] := hat
    subst hat
    simp only [lstep, GoM.bind_apply, getL, Res.ok_bind, hs] at h
    rcases recvfrom_spec K fd 65536 0 w with ⟨n, _, hr⟩ | ⟨d, _, hr⟩
    · rw [hr] at h
      simp only [Res.ok_bind, GoM.pure_apply, Res.ok.injEq, Prod.mk.injEq] at h
      obtain ⟨rfl, rfl⟩ := h
      exact ⟨rfl, _, rfl, .inr ⟨(by intro h; cases h), rfl⟩⟩
    · rw [hr] at h
      simp only [Res.ok_bind, GoM.pure_apply, Res.ok.injEq, Prod.mk.injEq] at h
      obtain ⟨rfl, rfl⟩ := h
      refine ⟨rfl, _, rfl, .inr ⟨(by intro h; cases h), d.take 65536, [], rfl, rfl, by simp [logs], by simp, ?_⟩⟩
      intro items hd hall _
      refine ⟨items, hd, hall, by rw [List.length_take]; omega, ?_⟩
      intro ms2 h2
      simpa [logs] using h2
  | msgs b => exact hparse (.inl ⟨b, rfl⟩) hat
  | attrs rest m msgLen b => exact hparse (.inr ⟨rest, m, msgLen, b, rfl⟩) hat
  | parseErr err =>
    obtain ⟨d, evs, rfl, he, hl, hn, hw⟩ := hat
    obtain ⟨w1, rep, hrep, hst, htr, hE⟩ := report_spec hq "Parse error" err w
    simp only [lstep, GoM.bind_apply, hrep, Res.ok_bind, GoM.pure_apply, Res.ok.injEq, Prod.mk.injEq] at h
    obtain ⟨rfl, rfl⟩ := h
    refine ⟨hst, rep, htr, .inl ⟨rfl, ?_⟩⟩
    refine .parsed (r := some err) he hl hn (by simp) ?_ ?_
    · intro e he
      simp only [Option.some.injEq] at he
      subst he
      exact hE
    · intro items hd hall hcb
      exact (hw items hd hall hcb).elim
  | failed n =>
    have hat : part = [.recvfrom fd 65536 0 (.error n)] := hat
    subst hat
    obtain ⟨w1, rep, hrep, hst, htr, hE⟩ := report_spec hq "Netlink error" (.errno n) w
    simp only [lstep, GoM.bind_apply, hrep, Res.ok_bind, GoM.pure_apply, Res.ok.injEq, Prod.mk.injEq] at h
    obtain ⟨rfl, rfl⟩ := h
    refine ⟨hst, rep, htr, ?_⟩
    by_cases h105 : n = 105
    · subst h105
      exact .inl ⟨by simp, .overrun hE⟩
    · rw [if_neg h105]
      exact .inr ⟨(by intro h; cases h), n, rep, h105, hE, rfl⟩
  | closing =>
    obtain ⟨n, rep, h105, hE, rfl⟩ := hat
    obtain ⟨cl, hc, hce⟩ := nflogClose_spec K ⟨n0, hs⟩
    simp only [lstep, GoM.bind_apply, hc, Res.ok_bind, GoM.pure_apply, Res.ok.injEq, Prod.mk.injEq] at h
    obtain ⟨rfl, rfl⟩ := h
    exact ⟨rfl, cl, rfl, .inr ⟨(by intro h; cases h), .failed h105 hE hce⟩⟩
  | done =>
    simp only [lstep, GoM.pure_apply, Res.ok.injEq, Prod.mk.injEq] at h
    obtain ⟨rfl, rfl⟩ := h
    refine ⟨rfl, [], by simp, .inr ⟨(by intro h; cases h), ?_⟩⟩
    rw [List.append_nil]
    exact hat

/-! ### When everything received is well-formed -/

/-- Every datagram received from now on holds whole messages, well-formed if they are log messages; it is not 16 to 19 bytes long. -/
def Tidy (K : Kernel LEv) (tr : List (Ev LEv)) : Prop :=
  ∀ evs fd d, K.recv (tr ++ evs) fd = .ok d → ∃ items, d = datagram items ∧ (∀ i ∈ items, ItemOk i) ∧ d.length ≤ 65536 ∧
    (d.length < 16 ∨ 20 ≤ d.length)

theorem Tidy.later {K : Kernel LEv} {tr : List (Ev LEv)} (h : Tidy K tr) (evs : List (Ev LEv)) : Tidy K (tr ++ evs) := by
  intro evs' fd d hd
  rw [List.append_assoc] at hd
  exact h _ fd d hd

/-- The position of a listener that received well-formed datagrams only. -/
def Sane : LPc → Prop
  | .unstarted => False
  | .parseErr _ => False
  | .msgs b => ∃ items ms, Owes items ms (.msgs b)
  | .attrs rest m msgLen b => ∃ items ms, Owes items ms (.attrs rest m msgLen b)
  | _ => True

/-- At most how many steps a turn has: a receive, two for every byte, one to see the end. -/
def most : Nat := 131074

/-- How many steps are left in the turn. -/
def stepsLeft : LPc → Nat
  | .idle => most
  | .failed _ => 2
  | .closing => 1
  | pc => toGo pc

theorem sane_step {env : Env} (hq : Quiet env) {K : Kernel LEv} {pc : LPc} {w : W} {fd : Nat} (ho : OpenOn w fd)
    (hcb : w.st.callback.isSome = true) (hk : Tidy K w.trace) (hs : Sane pc) (hoff : pc ≠ .off) (hdone : pc ≠ .done) :
    ∃ pc' w', lstep env K pc w = .ok (pc', w') ∧ Sane pc' ∧ pc' ≠ .off ∧
      (pc' = .done ∨ (pc' = .idle ∧ 1 ≤ stepsLeft pc) ∨ (pc' ≠ .idle ∧ stepsLeft pc' + 1 ≤ stepsLeft pc)) := by
  obtain ⟨n0, hsock⟩ := ho
  obtain ⟨cb, hcb⟩ := Option.isSome_iff_exists.mp hcb
  have hparse : ∀ items ms, Owes items ms pc → stepsLeft pc = toGo pc → 
      ∃ pc' w', lstep env K pc w = .ok (pc', w') ∧ Sane pc' ∧ pc' ≠ .off ∧
      (pc' = .done ∨ (pc' = .idle ∧ 1 ≤ stepsLeft pc) ∨ (pc' ≠ .idle ∧ stepsLeft pc' + 1 ≤ stepsLeft pc)) := by
    intro items ms hO hsl
    obtain ⟨pc', w', ms', h, _, hlt, hor⟩ := owes_step hq.toPolite K hcb hO
    rcases hor with ⟨rfl, _⟩ | hO'
    · exact ⟨_, w', h, trivial, (by intro h; cases h), .inr (.inl ⟨rfl, by omega⟩)⟩
    · cases pc' with
      | msgs b => exact ⟨_, w', h, ⟨_, _, hO'⟩, (by intro h; cases h), .inr (.inr ⟨(by intro h; cases h), by rw [hsl]; exact hlt⟩)⟩
      | attrs rest m msgLen b =>
        exact ⟨_, w', h, ⟨_, _, hO'⟩, (by intro h; cases h), .inr (.inr ⟨(by intro h; cases h), by rw [hsl]; exact hlt⟩)⟩
      | _ => exact hO'.elim
  cases pc with
  | unstarted => exact hs.elim
  | off => exact absurd rfl hoff
  | done => exact absurd rfl hdone
  | parseErr err => exact hs.elim
  | msgs b => obtain ⟨items, ms, hO⟩ := hs; exact hparse items ms hO rfl
  | attrs rest m msgLen b => obtain ⟨items, ms, hO⟩ := hs; exact hparse items ms hO rfl
  | idle =>
    simp only [lstep, GoM.bind_apply, getL, Res.ok_bind, hsock]
    rcases recvfrom_spec K fd 65536 0 w with ⟨n, _, hr⟩ | ⟨d, hd, hr⟩
    · rw [hr]
      exact ⟨.failed n, _, rfl, trivial, (by intro h; cases h), .inr (.inr ⟨(by intro h; cases h), by simp [stepsLeft, most]⟩)⟩
    · rw [hr]
      obtain ⟨items, rfl, hall, hlen, _⟩ := hk [] fd d (by rw [List.append_nil]; exact hd)
      refine ⟨.msgs ((datagram items).take 65536), _, rfl, ?_, (by intro h; cases h), .inr (.inr ⟨(by intro h; cases h), ?_⟩)⟩
      · rw [List.take_of_length_le hlen]
        exact ⟨items, [], items, rfl, hall, hlen, fun ms2 h => h⟩
      · simp only [stepsLeft, toGo, most, List.length_take]
        omega
  | failed n =>
    obtain ⟨w1, rep, hrep, hst, htr, hE⟩ := report_spec hq "Netlink error" (.errno n) w
    simp only [lstep, GoM.bind_apply, hrep, Res.ok_bind, GoM.pure_apply]
    by_cases h105 : n = 105
    · rw [if_pos h105]
      exact ⟨_, _, rfl, trivial, (by intro h; cases h), .inr (.inl ⟨rfl, by simp [stepsLeft]⟩)⟩
    · rw [if_neg h105]
      exact ⟨_, _, rfl, trivial, (by intro h; cases h), .inr (.inr ⟨(by intro h; cases h), by simp [stepsLeft]⟩)⟩
  | closing =>
    obtain ⟨cl, hc, hce⟩ := nflogClose_spec K ⟨n0, hsock⟩
    simp only [lstep, GoM.bind_apply, hc, Res.ok_bind, GoM.pure_apply]
    exact ⟨_, _, rfl, trivial, (by intro h; cases h), .inl rfl⟩

/-! ### All listeners -/

/-- One listener: what it did, and where it is.  `n` = how often the scheduler picked it, `S` = whether only well-formed datagrams are
received. -/
def Inside (S : Prop) (e : Endian) (a : ListenArgs) (n : Nat) (st : NfLog) (evs : List (Ev LEv)) (pc : LPc) : Prop :=
  (pc = .unstarted ∧ evs = [] ∧ n = 0) ∨
  (pc = .off ∧ ∃ err, ListenOut e a.groups a.size.toNat (some err) evs) ∨
  ∃ fd start part, ∃ gs : List (List (Ev LEv)), ListenOut e a.groups a.size.toNat none start ∧ .socket 16 3 12 (.ok fd) ∈ start ∧
    (∀ g ∈ gs, LogTurn fd a.cb a.ecb false g) ∧ AtPc fd a.cb a.ecb part pc ∧ evs = start ++ gs.flatten ++ part ∧
    st.callback = a.cb ∧ st.errorCallback = a.ecb ∧ (∃ m, st.socket = some ⟨fd, m⟩) ∧
    (S → Sane pc ∧ (pc ≠ .done → n + stepsLeft pc ≤ 1 + gs.length * most + most))

theorem AtPc.begun {env : Env} (hq : Quiet env) {fd : Nat} {cb ecb : Option Nat} {part : List (Ev LEv)} {pc : LPc}
    (h : AtPc fd cb ecb part pc) (hd : pc ≠ .done) : Begun fd cb ecb part := by
  have hmid : (∃ d evs, part = .recvfrom fd 65536 0 (.ok d) :: evs ∧ errors evs = [] ∧
      (∀ x ∈ logs evs, cb = some x.1 ∧ x.2.version = 4) ∧ (∀ ev ∈ evs, isRecv ev = false ∧ isClose ev = false) ∧
      ∀ items, d = datagram items → (∀ i ∈ items, ItemOk i) → cb.isSome = true → Owes items ((logs evs).map Prod.snd) pc) →
      Begun fd cb ecb part := by
    rintro ⟨d, evs, rfl, he, hl, hn, hw⟩
    refine .inr (.inr ⟨d, evs, rfl, he, hl, hn, ?_⟩)
    intro items hd hall hcb
    obtain ⟨c, hcb'⟩ := Option.isSome_iff_exists.mp hcb
    exact (hw items hd hall hcb).more hq.toPolite (w := ⟨[], ⟨[]⟩, ⟨some c, none, none, false⟩⟩) (cb := c) rfl
  cases pc with
  | unstarted => exact h.elim
  | off => exact h.elim
  | idle => exact .inl h
  | failed n => exact .inr (.inl ⟨n, [], h, .inl rfl⟩)
  | closing =>
    obtain ⟨n, rep, _, hE, rfl⟩ := h
    exact .inr (.inl ⟨n, rep, rfl, .inr hE⟩)
  | done => exact absurd rfl hd
  | msgs b => exact hmid h
  | attrs rest m msgLen b => exact hmid h
  | parseErr err => exact hmid h

theorem Inside.listener {S : Prop} {env : Env} (hq : Quiet env) {a : ListenArgs} {n : Nat} {st : NfLog} {evs : List (Ev LEv)} {pc : LPc}
    (h : Inside S env.e a n st evs pc) : Listener env.e a evs := by
  rcases h with ⟨_, rfl, _⟩ | ⟨_, err, h⟩ | ⟨fd, start, part, gs, h1, h2, h3, h4, rfl, hc, _, _, _⟩
  · exact .nothing
  · exact .refused h
  · by_cases hd : pc = .done
    · subst hd
      exact .ended h1 h2 h3 h4
    · exact .reading h1 h2 h3 (h4.begun hq hd)

theorem inside_step {S : Prop} {env : Env} (hq : Quiet env) {K : Kernel LEv} {a : ListenArgs} {n : Nat} {w w' : W} {evs : List (Ev LEv)}
    {pc pc' : LPc} (hS : S → Tidy K w.trace ∧ a.cb.isSome = true) (hI : Inside S env.e a n w.st evs pc)
    (h : listenStep env K a pc w = .ok (pc', w')) :
    ∃ evs', w'.trace = w.trace ++ evs' ∧ Inside S env.e a (n + 1) w'.st (evs ++ evs') pc' := by
  rcases hI with ⟨rfl, rfl, rfl⟩ | ⟨rfl, err, hL⟩ | ⟨fd, start, part, gs, h1, h2, h3, h4, rfl, hc, hec, ⟨m, hs⟩, hT⟩
  · simp only [listenStep, GoM.bind_apply] at h
    obtain ⟨⟨r, w1⟩, hb, h⟩ := Res.bind_eq_ok.mp h
    obtain ⟨evs', ht, hL, hst⟩ := C32_outcomes env K a.groups a.size a.cb a.ecb w w1 r hb
    cases r with
    | some err =>
      simp only [GoM.pure_apply, Res.ok.injEq, Prod.mk.injEq] at h
      obtain ⟨rfl, rfl⟩ := h
      exact ⟨evs', ht, .inr (.inl ⟨rfl, err, hL⟩)⟩
    | none =>
      simp only [GoM.pure_apply, Res.ok.injEq, Prod.mk.injEq] at h
      obtain ⟨rfl, rfl⟩ := h
      obtain ⟨hc, hec, fd, ho, hm⟩ := hst rfl
      refine ⟨evs', ht, .inr (.inr ⟨fd, evs', [], [], hL, hm, by simp, rfl, by simp, hc, hec, ho, ?_⟩)⟩
      intro _
      exact ⟨trivial, fun _ => by simp [stepsLeft]⟩
  · simp only [listenStep, lstep, GoM.pure_apply, Res.ok.injEq, Prod.mk.injEq] at h
    obtain ⟨rfl, rfl⟩ := h
    exact ⟨[], by simp, .inr (.inl ⟨rfl, err, by simpa using hL⟩)⟩
  · have h : lstep env K pc w = .ok (pc', w') := by
      cases pc with
      | unstarted => exact h4.elim
      | _ => exact h
    obtain ⟨hst, evs', ht, hor⟩ := lstep_spec hq ⟨m, hs⟩ (by rw [hc, hec]; exact h4) h
    rw [hc, hec] at hor
    have hT' : S → Sane pc' ∧ (pc = .done → pc' = .done) ∧ (pc ≠ .done → pc' ≠ .done →
        (pc' = .idle ∧ n + 1 ≤ 1 + gs.length * most + most) ∨
        (pc' ≠ .idle ∧ n + 1 + stepsLeft pc' ≤ 1 + gs.length * most + most)) := by
      intro hSS
      obtain ⟨hk, hcb⟩ := hS hSS
      obtain ⟨hsane, hn⟩ := hT hSS
      by_cases hd : pc = .done
      · subst hd
        simp only [lstep, GoM.pure_apply, Res.ok.injEq, Prod.mk.injEq] at h
        obtain ⟨rfl, rfl⟩ := h
        exact ⟨hsane, fun _ => rfl, fun h => absurd rfl h⟩
      · have hn := hn hd
        obtain ⟨pc2, w2, h2, hs2, _, hor2⟩ := sane_step hq ⟨m, hs⟩ (by rw [hc]; exact hcb) hk hsane (by
          rintro rfl; exact h4.elim) hd
        rw [h] at h2
        simp only [Res.ok.injEq, Prod.mk.injEq] at h2
        obtain ⟨rfl, rfl⟩ := h2
        refine ⟨hs2, fun h => absurd h hd, ?_⟩
        intro _ hd'
        rcases hor2 with h | ⟨h, h1⟩ | ⟨h, h1⟩
        · exact absurd h hd'
        · exact .inl ⟨h, by omega⟩
        · exact .inr ⟨h, by omega⟩
    refine ⟨evs', ht, .inr (.inr ?_)⟩
    rcases hor with ⟨rfl, hL⟩ | ⟨hne, hat⟩
    · refine ⟨fd, start, [], gs ++ [part ++ evs'], h1, h2, ?_, rfl, by simp, by rw [hst]; exact hc, by rw [hst]; exact hec,
        by rw [hst]; exact ⟨m, hs⟩, ?_⟩
      · intro g hg
        rcases List.mem_append.mp hg with hg | hg
        · exact h3 g hg
        · simp only [List.mem_singleton] at hg
          subst hg
          exact hL
      · intro hSS
        obtain ⟨a1, a2, a3⟩ := hT' hSS
        refine ⟨a1, fun hd => ?_⟩
        rcases a3 (fun h => (by cases a2 h)) hd with ⟨_, h⟩ | ⟨h, _⟩
        · simp only [stepsLeft, List.length_append, List.length_singleton, Nat.add_mul]
          omega
        · exact absurd rfl h
    · refine ⟨fd, start, part ++ evs', gs, h1, h2, h3, hat, by simp, by rw [hst]; exact hc, by rw [hst]; exact hec,
        by rw [hst]; exact ⟨m, hs⟩, ?_⟩
      intro hSS
      obtain ⟨a1, a2, a3⟩ := hT' hSS
      refine ⟨a1, fun hd => ?_⟩
      rcases a3 (fun h => hd (a2 h)) hd with ⟨h, _⟩ | ⟨_, h⟩
      · exact absurd h hne
      · exact h

/-- If only well-formed datagrams are received, the step of a listener does not crash. -/
theorem inside_goes {env : Env} (hq : Quiet env) {K : Kernel LEv} {a : ListenArgs} {n : Nat} {w : W} {evs : List (Ev LEv)}
    {pc : LPc} (hk : Tidy K w.trace) (hcb : a.cb.isSome = true) (hI : Inside True env.e a n w.st evs pc) :
    ∃ pc' w', listenStep env K a pc w = .ok (pc', w') := by
  rcases hI with ⟨rfl, rfl, rfl⟩ | ⟨rfl, err, hL⟩ | ⟨fd, start, part, gs, h1, h2, h3, h4, rfl, hc, hec, ⟨m, hs⟩, hT⟩
  · obtain ⟨r, w1, h⟩ := start_returns env K a.groups a.size a.cb a.ecb w (fun evs fd d hd => by
      obtain ⟨_, _, _, _, h⟩ := hk evs fd d hd
      exact h)
    simp only [listenStep, GoM.bind_apply, h, Res.ok_bind]
    cases r with
    | none => exact ⟨_, _, rfl⟩
    | some err => exact ⟨_, _, rfl⟩
  · exact ⟨_, _, rfl⟩
  · have hl : listenStep env K a pc w = lstep env K pc w := by
      cases pc with
      | unstarted => exact h4.elim
      | _ => rfl
    rw [hl]
    by_cases hd : pc = .done
    · subst hd
      exact ⟨_, _, rfl⟩
    · obtain ⟨pc', w', h, _⟩ := sane_step hq ⟨m, hs⟩ (by rw [hc]; exact hcb) hk (hT trivial).1 (by rintro rfl; exact h4.elim) hd
      exact ⟨pc', w', h⟩

/-- All of them. -/
def AllInside (S : Prop) (e : Endian) (args : List ListenArgs) (done : List Nat) (l : List (Nat × Ev LEv)) (w : MW) (s : Nat → LPc) : Prop :=
  (∀ x ∈ l, x.1 < args.length) ∧ ∀ i a, args[i]? = some a → Inside S e a (done.count i) (w.st i) (ownEvents i l) (s i)

theorem ownEvents_append (i : Nat) (l l' : List (Nat × Ev LEv)) : ownEvents i (l ++ l') = ownEvents i l ++ ownEvents i l' := by
  simp [ownEvents]

theorem ownEvents_own (i : Nat) (evs : List (Ev LEv)) : ownEvents i (evs.map (i, ·)) = evs := by
  unfold ownEvents
  rw [List.filter_eq_self.mpr (by simp), List.map_map]
  exact List.map_id' evs

theorem ownEvents_other {i k : Nat} (h : i ≠ k) (evs : List (Ev LEv)) : ownEvents k (evs.map (i, ·)) = [] := by
  unfold ownEvents
  rw [List.filter_eq_nil_iff.mpr (by simp [h])]
  rfl

theorem mstep_inside {S : Prop} {env : Env} (hq : Quiet env) {K : Kernel LEv} {args : List ListenArgs} {w w' : MW} {done : List Nat}
    {l l' : List (Nat × Ev LEv)} {s s' : Nat → LPc} {i : Nat} (hS : S → Tidy K w.trace ∧ ∀ a ∈ args, a.cb.isSome = true)
    (hI : AllInside S env.e args done l w s) (h : mstep env K args i s w = .ok ((s', l'), w')) :
    w'.trace = w.trace ++ l'.map (·.2) ∧ AllInside S env.e args (done ++ [i]) (l ++ l') w' s' := by
  unfold mstep at h
  rcases ha : args[i]? with _ | a
  · rw [ha] at h
    simp only [Res.ok.injEq, Prod.mk.injEq] at h
    obtain ⟨⟨rfl, rfl⟩, rfl⟩ := h
    refine ⟨by simp, by simpa using hI.1, ?_⟩
    intro k b hb
    have hne : i ≠ k := by rintro rfl; rw [ha] at hb; cases hb
    rw [List.append_nil, List.count_append, show List.count k [i] = 0 from by simp [hne]]
    exact hI.2 k b hb
  · rw [ha] at h
    simp only at h
    rcases hst : listenStep env K a (s i) (w.view i) with ⟨pc, v⟩ | _ | _
    · rw [hst] at h
      simp only [Res.ok.injEq, Prod.mk.injEq] at h
      obtain ⟨⟨rfl, rfl⟩, rfl⟩ := h
      obtain ⟨evs, ht, hin⟩ := inside_step (S := S) hq (w := w.view i) (fun hs => ⟨(hS hs).1, (hS hs).2 a (List.mem_of_getElem? ha)⟩)
        (hI.2 i a ha) hst
      have ht : v.trace = w.trace ++ evs := ht
      have hd : v.trace.drop w.trace.length = evs := by rw [ht, List.drop_left]
      simp only
      rw [hd]
      refine ⟨by rw [ht, List.map_map]; congr 1; exact (List.map_id' evs).symm, ?_, ?_⟩
      · intro x hx
        rcases List.mem_append.mp hx with hx | hx
        · exact hI.1 x hx
        · obtain ⟨ev, _, rfl⟩ := List.mem_map.mp hx
          exact (List.getElem?_eq_some_iff.mp ha).1
      · intro k b hb
        rw [ownEvents_append, List.count_append]
        by_cases hk : k = i
        · subst hk
          rw [ha] at hb
          simp only [Option.some.injEq] at hb
          subst hb
          rw [ownEvents_own]
          simp only [if_true, List.count_singleton_self]
          exact hin
        · rw [ownEvents_other (fun h => hk h.symm), show List.count k [i] = 0 from List.count_eq_zero.mpr (by simp [hk])]
          simp only [if_neg hk, List.append_nil, Nat.add_zero]
          exact hI.2 k b hb
    · rw [hst] at h; cases h
    · rw [hst] at h; cases h

theorem msched_inside {S : Prop} {env : Env} (hq : Quiet env) {K : Kernel LEv} {args : List ListenArgs} : ∀ (is : List Nat) (w w' : MW)
    (done : List Nat) (l l' : List (Nat × Ev LEv)) (s s' : Nat → LPc), (S → Tidy K w.trace ∧ ∀ a ∈ args, a.cb.isSome = true) →
    AllInside S env.e args done l w s → msched env K args is s w = .ok ((s', l'), w') →
    w'.trace = w.trace ++ l'.map (·.2) ∧ AllInside S env.e args (done ++ is) (l ++ l') w' s' := by
  intro is
  induction is with
  | nil =>
    intro w w' done l l' s s' _ hI h
    simp only [msched, GoM.pure_apply, Res.ok.injEq, Prod.mk.injEq] at h
    obtain ⟨⟨rfl, rfl⟩, rfl⟩ := h
    exact ⟨by simp, by simpa using hI⟩
  | cons i is ih =>
    intro w w' done l l' s s' hS hI h
    simp only [msched, GoM.bind_apply] at h
    obtain ⟨⟨⟨s1, l1⟩, w1⟩, h1, h⟩ := Res.bind_eq_ok.mp h
    obtain ⟨⟨⟨s2, l2⟩, w2⟩, h2, h⟩ := Res.bind_eq_ok.mp h
    simp only [GoM.pure_apply, Res.ok.injEq, Prod.mk.injEq] at h
    obtain ⟨⟨rfl, rfl⟩, rfl⟩ := h
    obtain ⟨t1, hI1⟩ := mstep_inside hq hS hI h1
    obtain ⟨t2, hI2⟩ := ih w1 w2 (done ++ [i]) (l ++ l1) l2 s1 s2 (fun hs => ⟨by rw [t1]; exact (hS hs).1.later _, (hS hs).2⟩) hI1 h2
    refine ⟨by rw [t2, t1]; simp, ?_⟩
    simpa using hI2

theorem mstep_goes {env : Env} (hq : Quiet env) {K : Kernel LEv} {args : List ListenArgs} {w : MW} {done : List Nat}
    {l : List (Nat × Ev LEv)} {s : Nat → LPc} {i : Nat} (hk : Tidy K w.trace) (hcb : ∀ a ∈ args, a.cb.isSome = true)
    (hI : AllInside True env.e args done l w s) : ∃ s' l' w', mstep env K args i s w = .ok ((s', l'), w') := by
  unfold mstep
  rcases ha : args[i]? with _ | a
  · exact ⟨_, _, _, rfl⟩
  · obtain ⟨pc', w', h⟩ := inside_goes hq (w := w.view i) hk (hcb a (List.mem_of_getElem? ha)) (hI.2 i a ha)
    simp only [h]
    exact ⟨_, _, _, rfl⟩

theorem msched_goes {env : Env} (hq : Quiet env) {K : Kernel LEv} {args : List ListenArgs} (hcb : ∀ a ∈ args, a.cb.isSome = true) :
    ∀ (is : List Nat) (w : MW) (done : List Nat) (l : List (Nat × Ev LEv)) (s : Nat → LPc), Tidy K w.trace →
    AllInside True env.e args done l w s → ∃ s' l' w', msched env K args is s w = .ok ((s', l'), w') := by
  intro is
  induction is with
  | nil => intro w done l s _ _; exact ⟨_, _, _, rfl⟩
  | cons i is ih =>
    intro w done l s hk hI
    obtain ⟨s1, l1, w1, h1⟩ := mstep_goes (i := i) hq hk hcb hI
    obtain ⟨t1, hI1⟩ := mstep_inside hq (fun _ => ⟨hk, hcb⟩) hI h1
    obtain ⟨s2, l2, w2, h2⟩ := ih w1 _ _ s1 (by rw [t1]; exact hk.later _) hI1
    refine ⟨s2, l1 ++ l2, w2, ?_⟩
    simp only [msched, GoM.bind_apply, h1, Res.ok_bind, h2]
    rfl

theorem allInside_init (S : Prop) (e : Endian) (args : List ListenArgs) (w : MW) :
    AllInside S e args [] [] w fun _ => .unstarted :=
  ⟨by simp, fun _ _ _ => .inl ⟨rfl, rfl, rfl⟩⟩

/-! ### The theorems -/

/-- C142: the steps are those of the loop: left alone, a listener does in some number of steps exactly what one turn of `readIter` does,
with the same outcome, or crashing. -/
theorem C142_alone (env : Env) (K : Kernel LEv) (w : W) :
    (∀ fin w', readIter env K w = .ok (fin, w') → ∃ n, lrun env K n .idle w = .ok (if fin then .done else .idle, w')) ∧
    (readIter env K w = .panic → ∃ n, lrun env K n .idle w = .panic) :=
  listener_alone env K w

/-- C142: whatever the schedule, the kernel and the datagrams, what each listener did is what it could have done alone: it called only
its own callbacks, received only from its own socket, closed only that. -/
theorem C142_independent (env : Env) (hq : Quiet env) (K : Kernel LEv) (args : List ListenArgs) (is : List Nat) (w w' : MW) (s : Nat → LPc)
    (l : List (Nat × Ev LEv)) (h : msched env K args is (fun _ => .unstarted) w = .ok ((s, l), w')) :
    w'.trace = w.trace ++ l.map (·.2) ∧ (∀ x ∈ l, x.1 < args.length) ∧
      ∀ i a, args[i]? = some a → Listener env.e a (ownEvents i l) := by
  obtain ⟨ht, hm, hI⟩ := msched_inside (S := False) hq is w w' [] [] l _ s (fun h => h.elim) (allInside_init _ _ args w) h
  refine ⟨ht, by simpa using hm, ?_⟩
  intro i a ha
  simpa using (hI i a ha).listener hq

/-- C142: if only well-formed datagrams are received and every listener has a log callback, no schedule crashes the process. -/
theorem C142_goes_on (env : Env) (hq : Quiet env) (K : Kernel LEv) (args : List ListenArgs) (is : List Nat) (w : MW) (hk : Tidy K w.trace)
    (hcb : ∀ a ∈ args, a.cb.isSome = true) :
    ∃ s l w', msched env K args is (fun _ => .unstarted) w = .ok ((s, l), w') :=
  msched_goes hq hcb is w [] [] _ hk (allInside_init _ _ args w)

/-- C142: then no listener holds another up: one that was picked `1 + 131074 * n` times has been refused, has ended, or has completed `n`
turns, whatever the others do. -/
theorem C142_keeps_pace (env : Env) (hq : Quiet env) (K : Kernel LEv) (args : List ListenArgs) (is : List Nat) (w w' : MW)
    (s : Nat → LPc) (l : List (Nat × Ev LEv)) (hk : Tidy K w.trace) (hcb : ∀ a ∈ args, a.cb.isSome = true)
    (h : msched env K args is (fun _ => .unstarted) w = .ok ((s, l), w')) (i : Nat) (a : ListenArgs) (ha : args[i]? = some a)
    (n : Nat) (hn : 1 + 131074 * n ≤ is.count i) :
    (∃ err, ListenOut env.e a.groups a.size.toNat (some err) (ownEvents i l)) ∨
    ∃ fd start last, ∃ gs : List (List (Ev LEv)), ListenOut env.e a.groups a.size.toNat none start ∧
      .socket 16 3 12 (.ok fd) ∈ start ∧ (∀ g ∈ gs, LogTurn fd a.cb a.ecb false g) ∧
      ownEvents i l = start ++ gs.flatten ++ last ∧ (LogTurn fd a.cb a.ecb true last ∨ (Begun fd a.cb a.ecb last ∧ n ≤ gs.length)) := by
  obtain ⟨_, _, hI⟩ := msched_inside (S := True) hq is w w' [] [] l _ s (fun _ => ⟨hk, hcb⟩) (allInside_init _ _ args w) h
  have hi := hI i a ha
  simp only [List.nil_append] at hi
  rcases hi with ⟨_, _, h0⟩ | ⟨_, err, h⟩ | ⟨fd, start, part, gs, h1, h2, h3, h4, he, hc, hec, hs, hT⟩
  · omega
  · exact .inl ⟨err, h⟩
  · refine .inr ⟨fd, start, part, gs, h1, h2, h3, he, ?_⟩
    by_cases hd : s i = .done
    · rw [hd] at h4
      exact .inl h4
    · obtain ⟨hsane, hb⟩ := hT trivial
      have hb := hb hd
      refine .inr ⟨?_, ?_⟩
      · exact h4.begun hq hd
      · have hpos : 1 ≤ stepsLeft (s i) := by
          generalize s i = pc at *
          cases pc with
          | unstarted => exact hsane.elim
          | parseErr _ => exact hsane.elim
          | off => exact h4.elim
          | done => exact absurd rfl hd
          | _ => simp [stepsLeft, toGo, most]
        unfold most at hb
        omega

/-! ### A concrete case -/

/-- A kernel: sockets are numbered, each of them acknowledges two requests, then delivers the sample datagram, then fails with EBADF. -/
def severalKernel : Kernel LEv :=
  { ackKernel with
    socket := fun tr => .ok (3 + (tr.filter fun ev => match ev with | .socket _ _ _ _ => true | _ => false).length)
    recv := fun tr fd =>
      match (tr.filter fun ev => match ev with | .recvfrom f _ _ _ => decide (f = fd) | _ => false).length with
      | 0 | 1 => ackKernel.recv tr fd
      | 2 => .ok (datagram sampleItems)
      | _ => .error 9 }

theorem severalKernel_tidy : Tidy severalKernel [] := by
  intro evs fd d h
  unfold severalKernel at h
  simp only at h
  have hack : ∀ d : List Byte, ackKernel.recv ([] ++ evs) fd = .ok d → ∃ items, d = datagram items ∧ (∀ i ∈ items, ItemOk i) ∧
      d.length ≤ 65536 ∧ (d.length < 16 ∨ 20 ≤ d.length) := by
    intro d h
    simp only [ackKernel, Except.ok.injEq] at h
    subst h
    refine ⟨[.other 2 (List.replicate 10 0) [0, 0, 0, 0]], by decide, ?_, by decide, by decide⟩
    intro i hi
    simp only [List.mem_singleton] at hi
    subst hi
    exact ⟨rfl, by decide, by decide⟩
  split at h
  · exact hack d h
  · exact hack d h
  · simp only [Except.ok.injEq] at h
    subst h
    exact ⟨sampleItems, rfl, sampleItems_ok, by decide, by decide⟩
  · cases h

/-- Two listeners. -/
def twoListeners : List ListenArgs := [⟨[10], 64, some 1, some 2⟩, ⟨[11], 64, some 3, some 4⟩]

/-- Their steps, mixed. -/
def mixed : List Nat := [0, 1, 0, 1, 1, 0, 0, 1, 1, 0, 1, 0, 0, 1, 1, 0, 1, 0, 1, 0, 1, 0, 1, 0, 1, 0, 1, 0]

def mixedTest : Bool :=
  match msched someEnv severalKernel twoListeners mixed (fun _ => .unstarted) ⟨[], ⟨[]⟩, fun _ => newNFLog⟩ with
  | .ok ((_, l), _) =>
    decide ((logs (ownEvents 0 l)).map (·.1) = [1]) && decide ((logs (ownEvents 1 l)).map (·.1) = [3]) &&
    decide ((errors (ownEvents 0 l)).map (·.1) = [2]) && decide ((errors (ownEvents 1 l)).map (·.1) = [4])
  | _ => false

theorem mixedTest_true : mixedTest = true := by decide +kernel

/-- C142, a concrete case: the two listeners start, read and end at the same time; each log and each error goes to the callback of the
listener it belongs to. -/
theorem C142_example : ∃ s l w', msched someEnv severalKernel twoListeners mixed (fun _ => .unstarted)
      ⟨[], ⟨[]⟩, fun _ => newNFLog⟩ = .ok ((s, l), w') ∧
    (logs (ownEvents 0 l)).map (·.1) = [1] ∧ (logs (ownEvents 1 l)).map (·.1) = [3] ∧
    (errors (ownEvents 0 l)).map (·.1) = [2] ∧ (errors (ownEvents 1 l)).map (·.1) = [4] ∧
    Listener .little ⟨[10], 64, some 1, some 2⟩ (ownEvents 0 l) := by
  have h := mixedTest_true
  unfold mixedTest at h
  split at h
  · rename_i s l w' hw
    simp only [Bool.and_eq_true, decide_eq_true_eq] at h
    obtain ⟨⟨⟨h1, h2⟩, h3⟩, h4⟩ := h
    exact ⟨s, l, w', hw, h1, h2, h3, h4, (C142_independent someEnv someEnv_quiet severalKernel twoListeners mixed _ w' s l hw).2.2 0 _ rfl⟩
  · cases h

/-- C142: the kernel above meets the hypotheses of the other theorems: any schedule goes on. -/
example (is : List Nat) : ∃ s l w', msched someEnv severalKernel twoListeners is (fun _ => .unstarted)
    ⟨[], ⟨[]⟩, fun _ => newNFLog⟩ = .ok ((s, l), w') :=
  C142_goes_on someEnv someEnv_quiet severalKernel twoListeners is _ severalKernel_tidy (by
    intro a ha
    simp only [twoListeners, List.mem_cons, List.not_mem_nil, or_false] at ha
    rcases ha with rfl | rfl <;> rfl)

end Verif.Props.Log
