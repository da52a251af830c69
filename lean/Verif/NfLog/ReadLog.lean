import Verif.NfLog.Read
/-! Reading logs: whole datagrams. -/
namespace Verif.NfLog
open Common Sys Spec Packet

/-! ### The last byte -/

theorem cut_length (p : List Byte) (hp : p ≠ []) : (cut p).length = p.length := by
  have := List.length_pos_iff.mpr hp
  unfold cut; split
  · simp; omega
  · rfl

theorem padded_cut (p : List Byte) (hp : p ≠ []) : (padded p).dropLast ++ [0] = padded (cut p) := by
  have hpos := List.length_pos_iff.mpr hp
  unfold cut
  split
  · rename_i h
    have h0 : roundUp4 p.length - p.length = 0 := by unfold roundUp4; omega
    have h1 : roundUp4 (p.dropLast ++ [(0 : Byte)]).length - (p.dropLast ++ [(0 : Byte)]).length = 0 := by
      simp; unfold roundUp4; omega
    unfold padded
    rw [h0, h1]; simp
  · rename_i h
    have h0 : ∃ k, roundUp4 p.length - p.length = k + 1 := ⟨roundUp4 p.length - p.length - 1, by
      unfold roundUp4; omega⟩
    obtain ⟨k, hk⟩ := h0
    unfold padded
    rw [hk, List.replicate_succ']
    rw [← List.append_assoc, List.dropLast_concat]

theorem cutLast_append (l : List (Nat × List Byte)) (t : Nat) (p : List Byte) :
    cutLast (l ++ [(t, p)]) = l ++ [(t, cut p)] := by
  induction l with
  | nil => rfl
  | cons a l ih =>
    cases l with
    | nil => rfl
    | cons b l => 
      show a :: cutLast (b :: (l ++ [(t, p)])) = _
      rw [show b :: (l ++ [(t, p)]) = (b :: l) ++ [(t, p)] from rfl, ih]
      rfl

/-- What is required of a log message for its reports to be delivered. -/
def MsgOk (hdr : List Byte) (attrs : List (Nat × List Byte)) : Prop :=
  hdr.length = 4 ∧ (∀ a ∈ cutLast attrs, AttrOk a) ∧ ∀ a, attrs.getLast? = some a → a.2 ≠ []

theorem parsePacket_ok {env : Env} (hp : Polite env) {cb : Nat} {hdr : List Byte} (hh : hdr.length = 4)
    {attrs : List (Nat × List Byte)} (hall : ∀ a ∈ attrs, AttrOk a) (w : W) (hcb : w.st.callback = some cb) :
    ∃ w' ms, parsePacket env (hdr ++ encodeAttrs .little attrs) w = .ok (none, w') ∧ Invoked cb ms w w' ∧
      Reported [] attrs ms := by
  obtain ⟨m', w', ms, hl, hi, hr⟩ := parse_attrs hp attrs [] NfPacket.zero w hall hcb
  refine ⟨w', ms, ?_, hi, ?_⟩
  · unfold parsePacket
    rw [List.drop_left' hh]
    rw [List.append_nil] at hl
    rw [hl, parse_end]
  · have := hr [] [] .nil
    simpa [NfPacket.zero] using this

theorem parsePacket_cut {env : Env} (hp : Polite env) {cb : Nat} {hdr : List Byte}
    {attrs : List (Nat × List Byte)} (hok : MsgOk hdr attrs) (w : W) (hcb : w.st.callback = some cb) :
    ∃ w' ms, parsePacket env (hdr ++ encodeAttrs .little attrs).dropLast w = .ok (none, w') ∧
      Invoked cb ms w w' ∧ Reported [] (cutLast attrs) ms := by
  obtain ⟨hh, hall, hlast⟩ := hok
  by_cases hnil : attrs = []
  · subst hnil
    refine ⟨w, [], ?_, .refl cb w, .nil⟩
    unfold parsePacket
    rw [List.drop_of_length_le (by simp [encodeAttrs]; omega), parse_end]
  · obtain ⟨init, ⟨t, p⟩, rfl⟩ : ∃ init a, attrs = init ++ [a] :=
      ⟨attrs.dropLast, attrs.getLast hnil, (List.dropLast_concat_getLast hnil).symm⟩
    have hne : p ≠ [] := hlast (t, p) (by simp)
    rw [cutLast_append] at hall
    have hpos : 0 < (padded p).length := by
      have := List.length_pos_iff.mpr hne
      simp; unfold roundUp4; omega
    have hb : (hdr ++ encodeAttrs .little (init ++ [(t, p)])).dropLast.drop 4 =
        encodeAttrs .little init ++ (attrHdr t p.length ++ (padded p).dropLast) := by
      have h1 : hdr ++ encodeAttrs .little (init ++ [(t, p)]) =
          hdr ++ (encodeAttrs .little init ++ (attrHdr t p.length ++ padded p)) := by
        simp [encodeAttrs, encodeAttr_split]
      have h2 : padded p ≠ [] := List.length_pos_iff.mp hpos
      rw [h1, List.dropLast_append_of_ne_nil (by simp [h2]), List.drop_left' hh,
        List.dropLast_append_of_ne_nil (by simp [h2]), List.dropLast_append_of_ne_nil h2]
    obtain ⟨m1, w1, ms1, hl, hi, hr⟩ := parse_attrs hp init (attrHdr t p.length ++ (padded p).dropLast)
      NfPacket.zero w (fun a ha => hall a (by simp [ha])) hcb
    have hrd : readPayload (roundUp4 (cut p).length) (padded p).dropLast = padded (cut p) := by
      rw [cut_length p hne, readPayload_short (by simp), ← padded_cut p hne]
      have : roundUp4 p.length - (padded p).dropLast.length = 1 := by simp at hpos ⊢; omega
      rw [this]; rfl
    obtain ⟨m2, w2, ms2, hs, hi2, hr2⟩ := attr_ok hp (hall (t, cut p) (by simp)) hrd m1 w1
      (by rw [hi.1]; exact hcb)
    rw [cut_length p hne] at hs
    refine ⟨w2, ms1 ++ ms2, ?_, hi.trans hi2, ?_⟩
    · unfold parsePacket
      rw [hb, hl, loop_unfold, tlv_header, hs]
      simp only
      rw [List.drop_of_length_le (by simp), parse_end]
    · rw [cutLast_append]
      have := hr _ _ (hr2 [] [] .nil)
      simpa [NfPacket.zero] using this

/-! ### Messages -/

theorem nlBytes_length {type : Nat} {mid body : List Byte} (hm : mid.length = 10) :
    (nlBytes type mid body).length = 16 + body.length := by
  simp [nlBytes, bytes16, bytes32, hm]; omega

theorem readHeader_nl {type : Nat} {mid body rest : List Byte} (hm : mid.length = 10) :
    readHeader (nlBytes type mid body ++ rest) =
      .ok (BitVec.ofNat 32 (16 + body.length), BitVec.ofNat 16 type) := by
  unfold readHeader
  rw [if_neg (by rw [List.length_append, nlBytes_length hm]; omega)]
  unfold nlBytes
  rw [bytes32_eq, bytes16_eq]
  simp only [List.append_assoc, dec32_enc32, Res.ok_bind]
  rw [List.drop_left' (by simp)]
  simp [dec16_enc16]

/-- What is required of a message. -/
def ItemOk : Item → Prop
  | .log mid hdr attrs => mid.length = 10 ∧ MsgOk hdr attrs
  | .other type mid _ => mid.length = 10 ∧ type < 65536 ∧ type ≠ 4 * 256

theorem msg_step (env : Env) {type : Nat} {mid body rest : List Byte} (hm : mid.length = 10)
    (hlen : (nlBytes type mid body ++ rest).length < 4294967296) (w : W) :
    logBody env (nlBytes type mid body ++ rest, w) = (do
      let (r, w) ← parseMessage env (BitVec.ofNat 32 (16 + body.length)) (BitVec.ofNat 16 type)
        (nlBytes type mid body ++ rest) w
      match r with
      | some err => .ok (.done (some (.wrap "Failed to parse NFPacket: %v" err), w))
      | none => .ok (.next (rest, w))) := by
  have hl : (nlBytes type mid body ++ rest).length = 16 + body.length + rest.length := by
    rw [List.length_append, nlBytes_length hm]
  unfold logBody
  simp only
  rw [if_neg (by omega), readHeader_nl hm]
  simp only [Res.ok_bind]
  rw [if_neg (by
    rw [gt_iff_lt, BitVec.lt_def, BitVec.toNat_ofNat, BitVec.toNat_ofNat]
    omega)]
  have hs : sliceFrom (nlBytes type mid body ++ rest) (BitVec.ofNat 32 (16 + body.length)).toNat = .ok rest := by
    have : (BitVec.ofNat 32 (16 + body.length)).toNat = 16 + body.length := by
      rw [BitVec.toNat_ofNat]; exact Nat.mod_eq_of_lt (by omega)
    unfold sliceFrom
    rw [this, if_pos (by omega), List.drop_left' (nlBytes_length hm)]
  rw [hs]
  rfl

theorem parseMessage_log (env : Env) {mid body rest : List Byte} (hm : mid.length = 10) (hb : body ≠ [])
    (hlen : (nlBytes (4 * 256) mid body ++ rest).length < 4294967296) (w : W) :
    parseMessage env (BitVec.ofNat 32 (16 + body.length)) (BitVec.ofNat 16 (4 * 256))
      (nlBytes (4 * 256) mid body ++ rest) w = parsePacket env body.dropLast w := by
  have hpos := List.length_pos_iff.mpr hb
  have hl : (nlBytes (4 * 256) mid body ++ rest).length = 16 + body.length + rest.length := by
    rw [List.length_append, nlBytes_length hm]
  unfold parseMessage
  rw [if_pos (by rfl)]
  have h1 : (BitVec.ofNat 32 (16 + body.length) - 1 : U32).toNat = 15 + body.length := by
    rw [show 16 + body.length = (15 + body.length) + 1 from by omega, BitVec.ofNat_add,
      show (1 : U32) = BitVec.ofNat 32 1 from rfl, BitVec.add_sub_cancel, BitVec.toNat_ofNat]
    omega
  have hs : slice (nlBytes (4 * 256) mid body ++ rest) 16 (15 + body.length) = .ok body.dropLast := by
    unfold slice
    rw [if_pos ⟨by omega, by omega⟩]
    congr 1
    unfold nlBytes
    rw [List.append_assoc _ body rest, List.drop_left' (by simp [bytes16, bytes32, hm]),
      show 15 + body.length - 16 = body.length - 1 from by omega,
      List.take_append_of_le_length (by omega), List.dropLast_eq_take]
  rw [h1, hs]
  rfl

theorem parseMessage_other (env : Env) {type : Nat} (ht : type < 65536) (hne : type ≠ 4 * 256) (n : U32)
    (b : List Byte) (w : W) : parseMessage env n (BitVec.ofNat 16 type) b w = .ok (none, w) := by
  unfold parseMessage
  rw [if_neg (by
    rw [show (0x400 : U16) = BitVec.ofNat 16 (4 * 256) from rfl, type_eq ht (by omega)]; exact hne)]

/-- All messages of a datagram. -/
theorem parse_items {env : Env} (hp : Polite env) {cb : Nat} : ∀ (items : List Item) (rest : List Byte) (w : W),
    (datagram items ++ rest).length < 4294967296 → (∀ i ∈ items, ItemOk i) → w.st.callback = some cb →
    ∃ w' ms, loop (logBody env) (datagram items ++ rest, w) = loop (logBody env) (rest, w') ∧
      Invoked cb ms w w' ∧ AllReported items ms := by
  intro items
  induction items with
  | nil => intro rest w _ _ _; exact ⟨w, [], rfl, .refl cb w, .nil⟩
  | cons i items ih =>
    intro rest w hlen hall hcb
    have hd : datagram (i :: items) ++ rest = i.bytes ++ (datagram items ++ rest) := by simp [datagram]
    rw [hd] at hlen ⊢
    have hi := hall i (by simp)
    have hlen' : (datagram items ++ rest).length < 4294967296 := by
      rw [List.length_append] at hlen; omega
    cases i with
    | log mid hdr attrs =>
      obtain ⟨hm, hok⟩ := hi
      have hne : hdr ++ encodeAttrs .little attrs ≠ [] := by
        have h4 := hok.1
        intro h
        have := congrArg List.length h
        rw [List.length_append, h4] at this
        simp at this
      obtain ⟨w1, ms1, h1, i1, r1⟩ := parsePacket_cut hp hok w hcb
      obtain ⟨w2, ms2, h2, i2, r2⟩ := ih rest w1 hlen' (fun x hx => hall x (by simp [hx]))
        (by rw [i1.1]; exact hcb)
      refine ⟨w2, ms1 ++ ms2, ?_, i1.trans i2, .log r1 r2⟩
      unfold Item.bytes at hlen ⊢
      rw [loop_unfold, msg_step env hm hlen, parseMessage_log env hm hne hlen, h1]
      exact h2
    | other type mid body =>
      obtain ⟨hm, ht, hne⟩ := hi
      obtain ⟨w2, ms2, h2, i2, r2⟩ := ih rest w hlen' (fun x hx => hall x (by simp [hx])) hcb
      refine ⟨w2, ms2, ?_, i2, .other r2⟩
      unfold Item.bytes at hlen ⊢
      rw [loop_unfold, msg_step env hm hlen, parseMessage_other env ht hne]
      exact h2

theorem log_end (env : Env) (w : W) : loop (logBody env) ([], w) = .ok (none, w) := by
  rw [loop_unfold]; rfl

/-- Fewer than 16 bytes left: it never ends. -/
theorem log_trailing (env : Env) {rest : List Byte} (h0 : rest ≠ []) (h : rest.length < 16) (w : W) :
    loop (logBody env) (rest, w) = .diverge := by
  refine loop_diverge_of_inv (fun s => s = (rest, w)) ?_ rfl
  rintro s rfl
  have := List.length_pos_iff.mpr h0
  refine ⟨_, ?_, rfl⟩
  unfold logBody
  simp only
  rw [if_neg (by omega)]
  unfold readHeader
  rw [if_pos h]
  simp only [Res.ok_bind]
  rw [if_neg (by simp)]
  rfl

/-- A message that states length 0 and is no log message: it never ends. -/
theorem log_zero (env : Env) {rest : List Byte} (h : 16 ≤ rest.length) (hz : num32 .little rest 0 = some 0)
    (ht : num16 .little rest 4 ≠ some (4 * 256)) (w : W) :
    loop (logBody env) (rest, w) = .diverge := by
  refine loop_diverge_of_inv (fun s => s = (rest, w)) ?_ rfl
  rintro s rfl
  refine ⟨_, ?_, rfl⟩
  match rest, h with
  | a0 :: a1 :: a2 :: a3 :: a4 :: a5 :: a6 :: a7 :: a8 :: a9 :: b0 :: b1 :: b2 :: b3 :: b4 :: b5 :: tl, _ =>
    unfold logBody
    simp only
    rw [if_neg (by simp)]
    have hr : readHeader (a0 :: a1 :: a2 :: a3 :: a4 :: a5 :: a6 :: a7 :: a8 :: a9 :: b0 :: b1 :: b2 :: b3 :: b4
        :: b5 :: tl) = .ok (join32 a3 a2 a1 a0, join16 a5 a4) := by
      unfold readHeader
      rw [if_neg (by simp)]
      rfl
    have h0 : join32 a3 a2 a1 a0 = 0 := by
      apply BitVec.eq_of_toNat_eq
      simp [num32] at hz
      rw [join32_toNat]
      simp
      omega
    have h1 : join16 a5 a4 ≠ 0x400 := by
      intro he
      apply ht
      have := congrArg BitVec.toNat he
      rw [join16_toNat] at this
      simp [num16] at this ⊢
      omega
    rw [hr, h0]
    simp only [Res.ok_bind]
    rw [if_neg (by simp)]
    unfold parseMessage
    rw [if_neg h1]
    rfl

theorem num32_drop (e : Endian) (b : List Byte) (i : Nat) : num32 e (b.drop i) 0 = num32 e b i := by
  unfold num32; simp

/-- It ends when every place visited holds a complete header stating a length other than 0. -/
theorem log_terminates (env : Env) (b : List Byte) (hlen : b.length < 4294967296) (w : W)
    (hv : ∀ i, Steps b 0 i → i < b.length → i + 16 ≤ b.length ∧ num32 .little b i ≠ some 0) :
    parseLog env b w ≠ .diverge := by
  unfold parseLog
  have key : ∀ s : List Byte × W, (∃ i, i ≤ b.length ∧ s.1 = b.drop i ∧ ∀ j, Steps b i j → Steps b 0 j) →
      logBody env s ≠ .diverge ∧ ∀ s', logBody env s = .ok (.next s') →
        (∃ i, i ≤ b.length ∧ s'.1 = b.drop i ∧ ∀ j, Steps b i j → Steps b 0 j) ∧ s'.1.length < s.1.length := by
    rintro ⟨r, w⟩ ⟨i, hi, hr, hj⟩
    simp only at hr
    subst hr
    unfold logBody
    simp only
    by_cases hz : (b.drop i).length = 0
    · rw [if_pos hz]; simp
    rw [if_neg hz]
    have hlt : i < b.length := by simp at hz; omega
    obtain ⟨h16, hn0⟩ := hv i (hj i (.here i)) hlt
    have hd : ∃ n t, readHeader (b.drop i) = .ok (n, t) ∧ num32 .little b i = some n.toNat := by
      unfold readHeader
      rw [if_neg (by simp; omega)]
      obtain ⟨v, hv⟩ := (dec32_ok_iff .little (b.drop i)).mpr (by simp; omega)
      obtain ⟨t, ht⟩ := dec16_of_le .little (b := (b.drop i).drop 4) (by simp; omega)
      rw [hv, ht]
      refine ⟨v, t, rfl, ?_⟩
      exact num32_eq .little b i v hv
    obtain ⟨n, t, hrd, hnum⟩ := hd
    rw [hrd]
    simp only [Res.ok_bind]
    split
    · simp
    · rename_i hgt
      have hle : n.toNat ≤ b.length - i := by
        simp only [gt_iff_lt, BitVec.lt_def, BitVec.toNat_ofNat, List.length_drop, Nat.not_lt] at hgt
        exact Nat.le_trans hgt (Nat.mod_le _ _)
      have hpm : parseMessage env n t (b.drop i) w ≠ .diverge := by
        unfold parseMessage
        split
        · unfold slice
          split
          · simp only [Res.ok_bind]; exact parsePacket_ne_diverge _ _ _
          · simp
        · simp
      have hsf : sliceFrom (b.drop i) n.toNat = .ok (b.drop (i + n.toNat)) := by
        unfold sliceFrom
        rw [if_pos (by simp; omega), List.drop_drop]
      rcases hm : parseMessage env n t (b.drop i) w with ⟨r, w'⟩ | _ | _
      · simp only [Res.ok_bind]
        cases r with
        | some err => simp
        | none =>
          simp only [hsf, Res.ok_bind]
          refine ⟨by simp, ?_⟩
          intro s' hs'
          simp only [Res.ok.injEq, Step.next.injEq] at hs'
          subst hs'
          have hpos : n.toNat ≠ 0 := by
            intro h0; apply hn0; rw [hnum, h0]
          refine ⟨⟨i + n.toNat, by omega, rfl, fun j hs => hj j (.step h16 hnum (by omega) hs)⟩, ?_⟩
          simp; omega
      · simp
      · exact absurd hm hpm
  exact loop_terminates_of_measure
    (fun s : List Byte × W => ∃ i, i ≤ b.length ∧ s.1 = b.drop i ∧ ∀ j, Steps b i j → Steps b 0 j)
    (fun s => s.1.length) (fun s hs => (key s hs).1) (fun s s' hs hb => (key s hs).2 s' hb)
    ⟨0, by omega, by simp, fun j h => h⟩

end Verif.NfLog
