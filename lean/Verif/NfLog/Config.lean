import Verif.NfLog.Spec
import Verif.NfQueue.Config
/-! The nflog configuration calls: lemmas. -/
namespace Verif.NfLog
open Common Sys Spec

theorem wireBytes_eq (e : Endian) (msg : NetlinkMessage) :
    wireBytes e msg = .ok (hdrBytes e msg.header ++ msg.data) :=
  NfQueue.wireBytes_eq e ⟨msg.header, msg.data⟩

/-- A configuration message with one attribute. -/
def cfgMsg (e : Endian) (fam : Byte) (rid at' len : U16) (payload : List Byte) : NetlinkMessage :=
  ⟨⟨24 + len.setWidth 32, 0x401, 5, 0, 0⟩,
   ([fam, 0] ++ enc16 .big rid) ++ (enc16 e (len + 4) ++ enc16 e at' ++ payload)⟩

/-- Its bytes. -/
def cfgBytes (e : Endian) (fam : Byte) (rid at' len : U16) (payload : List Byte) : List Byte :=
  hdrBytes e (cfgMsg e fam rid at' len payload).header ++ (cfgMsg e fam rid at' len payload).data

theorem commandMsg_eq (env : Env) (c : Byte) (g : U16) :
    commandMsg env c g = .ok (cfgMsg env.e 2 g 1 4 [c, 0, 0, 0]) := by
  unfold commandMsg; rcases env with ⟨e, _⟩; cases e <;> rfl

theorem modeMsg_eq (env : Env) (size : U32) (g : U16) :
    modeMsg env size g = .ok (cfgMsg env.e 0 g 2 8 (enc32 .big size ++ [2, 0, 0, 0])) := by
  unfold modeMsg; rcases env with ⟨e, _⟩; cases e <;> rfl

theorem cfgMsg_decodes (e : Endian) (fam : Byte) (rid at' len : U16) (payload : List Byte)
    (hlen : len.toNat = payload.length) (h4 : len.toNat + 4 < 65536) (hat : at'.toNat < 16384) :
    decodeNf e (cfgBytes e fam rid at' len payload) =
      some ⟨(cfgBytes e fam rid at' len payload).length, 4 * 256 + 1, 5, 0, 0, fam.toNat, 0, rid.toNat,
        [⟨at'.toNat, false, payload⟩]⟩ := by
  have hl4 : (len + 4).toNat = payload.length + 4 := by
    rw [BitVec.toNat_add]; show (len.toNat + 4) % 65536 = _; omega
  have hda := decodeAttrs_last e (len + 4) at' payload hl4
  have hhl : ((24 : U32) + len.setWidth 32).toNat = 24 + payload.length := by
    rw [BitVec.toNat_add, BitVec.toNat_setWidth]
    show (24 + len.toNat % 4294967296) % 4294967296 = _; omega
  have := decodeNf_parts e ⟨24 + len.setWidth 32, 0x401, 5, 0, 0⟩ fam 0 rid
    (enc16 e (len + 4) ++ enc16 e at' ++ payload) [] _ (by simp only [hhl]; simp; omega) hda
  have hb : cfgBytes e fam rid at' len payload = hdrBytes e ⟨24 + len.setWidth 32, 0x401, 5, 0, 0⟩
      ++ ([fam, 0] ++ enc16 .big rid) ++ (enc16 e (len + 4) ++ enc16 e at' ++ payload) ++ [] := by
    simp [cfgBytes, cfgMsg]
  have hbl : (cfgBytes e fam rid at' len payload).length = 24 + payload.length := by rw [hb]; simp; omega
  rw [hbl, hb, this, hhl]
  have h1 : at'.toNat % 16384 = at'.toNat := Nat.mod_eq_of_lt hat
  have h2 : at'.toNat / 32768 % 2 = 0 := by omega
  rw [h1, h2]
  rfl

theorem enc_pfUnbind (e : Endian) : Encodes e (cfgBytes e 2 0 1 4 [4, 0, 0, 0]) .pfUnbind :=
  ⟨1, _, cfgMsg_decodes e 2 0 1 4 [4, 0, 0, 0] rfl (by decide) (by decide), rfl, rfl⟩
theorem enc_pfBind (e : Endian) : Encodes e (cfgBytes e 2 0 1 4 [3, 0, 0, 0]) .pfBind :=
  ⟨1, _, cfgMsg_decodes e 2 0 1 4 [3, 0, 0, 0] rfl (by decide) (by decide), rfl, rfl⟩
theorem enc_bind (e : Endian) (g : U16) :
    Encodes e (cfgBytes e 2 g 1 4 [1, 0, 0, 0]) (.bindGroup g.toNat) :=
  ⟨1, _, cfgMsg_decodes e 2 g 1 4 [1, 0, 0, 0] rfl (by decide) (by decide), rfl, rfl⟩
theorem enc_mode (e : Endian) (g : U16) (size : U32) :
    Encodes e (cfgBytes e 0 g 2 8 (enc32 .big size ++ [2, 0, 0, 0])) (.copyPacket g.toNat size.toNat) :=
  ⟨2, _, cfgMsg_decodes e 0 g 2 8 _ (by simp) (by decide) (by decide), rfl,
    NfQueue.num32_enc32_big _ _, by simp [enc32]⟩

/-! ### Replies -/

theorem nfgen_ok (b : List Byte) (hb : 4 ≤ b.length) : ∃ r, netlinkMessageToNfGenStruct b = .ok r := by
  match b, hb with
  | a :: b :: c :: d :: t, _ => exact ⟨_, rfl⟩

theorem nfgen_short (b : List Byte) (hb : b.length < 4) : netlinkMessageToNfGenStruct b = .panic := by
  match b, hb with
  | [], _ => rfl
  | [_], _ => rfl
  | [_, _], _ => rfl
  | [_, _, _], _ => rfl

/-- Reading a reply: error when shorter than 16 bytes, crash from 16 to 19, else nil exactly for an
acknowledgement. -/
theorem readReply_cases (e : Endian) (d : List Byte) :
    (d.length < 16 ∧ ∃ err, readReply e d = .ok (some err)) ∨
    (16 ≤ d.length ∧ d.length < 20 ∧ readReply e d = .panic) ∨
    (20 ≤ d.length ∧ ∃ r, readReply e d = .ok r ∧ (r = none ↔ ¬ Refusal e d) ∧
      (Refusal e d → ∃ c : Int, r = some (.netlink c) ∧ numI32 e d 16 = some c)) := by
  by_cases h16 : d.length < 16
  · left
    refine ⟨h16, .msg "Buffer is empty", ?_⟩
    unfold readReply netlinkMessageToStruct
    rw [if_pos (by omega)]; rfl
  obtain ⟨hd, h1, h2, h3, h4⟩ := NfQueue.parse_hdr e d (by omega)
  by_cases h20 : d.length < 20
  · right; left
    refine ⟨by omega, h20, ?_⟩
    unfold readReply
    simp only [h1, Res.ok_bind]
    have hs : (d.drop 16).length < 4 := by simp; omega
    by_cases ht : hd.type = 2
    · rw [if_pos ht]
      unfold netlinkErrMessagetoStruct
      rw [(dec32_panic_iff e _).mpr hs]; rfl
    · rw [if_neg ht, nfgen_short _ hs]; rfl
  · right; right
    refine ⟨by omega, ?_⟩
    have hs : 4 ≤ (d.drop 16).length := by simp; omega
    obtain ⟨g, hg⟩ := nfgen_ok (d.drop 16) hs
    obtain ⟨hd2, v, hv, hn⟩ := NfQueue.parse_err e (d.drop 16) hs
    have hn' : num32 e d 16 = some v.toNat := by
      rw [← hn]; unfold num32; simp
    unfold readReply
    simp only [h1, Res.ok_bind]
    by_cases ht : hd.type = 2
    · rw [if_pos ht, hv]
      simp only [Res.ok_bind]
      have ht' : num16 e d 4 = some 2 := by rw [h3, ht]; rfl
      by_cases hc : v.toInt = 0
      · rw [if_neg (by simpa using hc), hg]
        refine ⟨none, rfl, ?_, ?_⟩
        · simp only [true_iff]
          rintro ⟨_, h⟩
          rw [hn', (NfQueue.toInt_eq_zero_iff v).mp hc] at h
          exact h rfl
        · rintro ⟨_, h⟩
          rw [hn', (NfQueue.toInt_eq_zero_iff v).mp hc] at h
          exact absurd rfl h
      · rw [if_pos (by simpa using hc)]
        have hne : v.toNat ≠ 0 := fun h => hc ((NfQueue.toInt_eq_zero_iff v).mpr h)
        refine ⟨_, rfl, ?_, ?_⟩
        · simp only [reduceCtorEq, false_iff, Classical.not_not]
          exact ⟨ht', by rw [hn']; simpa using hne⟩
        · intro _
          exact ⟨v.toInt, rfl, NfQueue.numI32_of hn'⟩
    · rw [if_neg ht, hg]
      have ht' : ¬ Refusal e d := by
        rintro ⟨h, _⟩
        rw [h3] at h
        apply ht
        apply BitVec.eq_of_toNat_eq
        simpa using h
      exact ⟨none, rfl, by simpa using ht', fun h => absurd h ht'⟩

/-! ### Queries -/

/-- The socket is open on descriptor `fd`. -/
def OpenOn (w : W) (fd : Nat) : Prop := ∃ n, w.st.socket = some ⟨fd, n⟩

/-- Package state after sending `n` bytes. -/
def sent (st : NfLog) (fd n : Nat) : NfLog := { st with socket := some ⟨fd, n⟩ }

theorem send_spec (env : Env) (K : Kernel LEv) (sh : Handle) (msg : NetlinkMessage) (w : W) :
    ∃ r evs, send env K sh msg w = .ok (r.map Err.errno,
        { w with trace := w.trace ++ evs, st := sent w.st sh.fd (16 + msg.data.length) }) ∧
      SendEvs sh.fd (hdrBytes env.e msg.header ++ msg.data) r evs ∧
      ∃ tr, r = K.send tr sh.fd (hdrBytes env.e msg.header ++ msg.data) := by
  have hl : (hdrBytes env.e msg.header ++ msg.data).length = 16 + msg.data.length := by simp
  obtain ⟨r, evs, h1, h2, h3⟩ := sendto_spec K sh.fd (hdrBytes env.e msg.header ++ msg.data)
    ({ w with st := sent w.st sh.fd (16 + msg.data.length) } : W)
  refine ⟨r, evs, ?_, h2, h3⟩
  unfold send
  simp only [GoM.bind_apply, GoM.lift_apply, wireBytes_eq, Res.ok_bind, modifyL, hl]
  unfold sent at h1
  rw [h1]
  cases r <;> rfl

theorem query_spec (env : Env) (K : Kernel LEv) (sh : Handle) (msg : NetlinkMessage) (w w' : W)
    (r : Option Err) (h : query env K sh msg w = .ok (r, w')) :
    ∃ evs, QueryOut env.e sh.fd (hdrBytes env.e msg.header ++ msg.data) r evs ∧
      w' = { w with trace := w.trace ++ evs, st := sent w.st sh.fd (16 + msg.data.length) } := by
  obtain ⟨rs, evs, h1, h2, _⟩ := send_spec env K sh msg w
  unfold query at h
  simp only [GoM.bind_apply, h1, Res.ok_bind] at h
  rcases rs with _ | n
  · simp only [Option.map_none] at h
    unfold recv at h
    simp only [GoM.bind_apply] at h
    rcases recvfrom_spec K sh.fd (16 + msg.data.length) 0 ({ w with trace := w.trace ++ evs, st := sent w.st sh.fd (16 + msg.data.length) } : W) with
      ⟨n, _, hr⟩ | ⟨d, _, hr⟩
    · rw [hr] at h
      simp only [Res.ok_bind, GoM.pure_apply, Res.ok.injEq, Prod.mk.injEq] at h
      obtain ⟨rfl, rfl⟩ := h
      exact ⟨_, .recvFailed (n := n) (size := 16 + msg.data.length) h2, by simp⟩
    · rw [hr] at h
      simp only [Res.ok_bind, GoM.lift_apply] at h
      obtain ⟨r', hr', h⟩ := Res.bind_eq_ok.mp h
      simp only [Res.ok.injEq, Prod.mk.injEq] at h
      obtain ⟨rfl, rfl⟩ := h
      have hl : (hdrBytes env.e msg.header ++ msg.data).length = 16 + msg.data.length := by simp
      refine ⟨_, .replied (d := d.take (16 + msg.data.length)) h2
        (by rw [hl]; simp; omega) ?_ ?_, by simp⟩
      · unfold Ack
        rcases readReply_cases env.e (d.take (16 + msg.data.length)) with ⟨a, err, b⟩ | ⟨a, b, c⟩ |
          ⟨a, r2, b, c, _⟩
        · rw [b] at hr'
          simp only [Res.ok.injEq] at hr'
          subst hr'
          simp only [reduceCtorEq, false_iff]
          rintro ⟨h, _⟩; omega
        · rw [c] at hr'; cases hr'
        · rw [b] at hr'
          simp only [Res.ok.injEq] at hr'
          subst hr'
          rw [c]
          exact ⟨fun h => ⟨a, h⟩, fun h => h.2⟩
      · intro h16 href
        rcases readReply_cases env.e (d.take (16 + msg.data.length)) with ⟨a, _⟩ | ⟨a, b, c⟩ |
          ⟨a, r2, b, _, c⟩
        · omega
        · rw [c] at hr'; cases hr'
        · rw [b] at hr'
          simp only [Res.ok.injEq] at hr'
          subst hr'
          exact c href
  · simp only [Option.map_some, GoM.pure_apply, Res.ok.injEq, Prod.mk.injEq] at h
    obtain ⟨rfl, rfl⟩ := h
    exact ⟨evs, .sendFailed h2, rfl⟩

/-- It returns unless the (truncated) reply has 16 to 19 bytes. -/
theorem query_returns (env : Env) (K : Kernel LEv) (sh : Handle) (msg : NetlinkMessage) (w : W)
    (hlen : 4 ≤ msg.data.length)
    (hk : ∀ evs d, K.recv (w.trace ++ evs) sh.fd = .ok d → d.length < 16 ∨ 20 ≤ d.length) :
    ∃ r w', query env K sh msg w = .ok (r, w') := by
  obtain ⟨rs, evs, h1, h2, _⟩ := send_spec env K sh msg w
  unfold query
  simp only [GoM.bind_apply, h1, Res.ok_bind]
  rcases rs with _ | n
  · simp only [Option.map_none]
    unfold recv
    simp only [GoM.bind_apply]
    rcases recvfrom_spec K sh.fd (16 + msg.data.length) 0 ({ w with trace := w.trace ++ evs, st := sent w.st sh.fd (16 + msg.data.length) } : W) with
      ⟨n, _, hr⟩ | ⟨d, hd, hr⟩
    · rw [hr]; exact ⟨_, _, rfl⟩
    · rw [hr]
      simp only [Res.ok_bind, GoM.lift_apply]
      rcases readReply_cases env.e (d.take (16 + msg.data.length)) with ⟨a, err, b⟩ | ⟨a, b, c⟩ |
          ⟨a, r2, b, c, _⟩
      · rw [b]; exact ⟨_, _, rfl⟩
      · exfalso
        rcases hk _ _ hd with h | h
        · simp at a; omega
        · simp at b; omega
      · rw [b]; exact ⟨_, _, rfl⟩
  · exact ⟨_, _, rfl⟩

/-- It returns nil when the kernel accepts the message and answers with an acknowledgement. -/
theorem query_succeeds (env : Env) (K : Kernel LEv) (sh : Handle) (msg : NetlinkMessage) (w : W)
    (hlen : 4 ≤ msg.data.length) (hs : ∀ tr b, K.send tr sh.fd b = none)
    (hr : ∀ tr, ∃ d, K.recv tr sh.fd = .ok d ∧ 20 ≤ d.length ∧ ∀ n, 20 ≤ n → ¬ Refusal env.e (d.take n)) :
    ∃ w', query env K sh msg w = .ok (none, w') ∧ w'.heap = w.heap ∧
      w'.st = sent w.st sh.fd (16 + msg.data.length) := by
  obtain ⟨r, w', h⟩ := query_returns env K sh msg w hlen (fun evs d' h => by
    obtain ⟨d, h1, h20, _⟩ := hr (w.trace ++ evs)
    rw [h1] at h; simp only [Except.ok.injEq] at h; subst h; exact .inr h20)
  obtain ⟨evs, hq, rfl⟩ := query_spec env K sh msg w w' r h
  refine ⟨{ w with trace := w.trace ++ evs, st := sent w.st sh.fd (16 + msg.data.length) }, ?_, rfl, rfl⟩
  rw [h]
  suffices r = none by rw [this]
  clear hq
  -- redo the computation
  obtain ⟨rs, evs', h1, h2, tr', h3⟩ := send_spec env K sh msg w
  rw [hs] at h3
  subst h3
  unfold query at h
  simp only [GoM.bind_apply, h1, Res.ok_bind, Option.map_none] at h
  unfold recv at h
  simp only [GoM.bind_apply] at h
  rcases recvfrom_spec K sh.fd (16 + msg.data.length) 0 ({ w with trace := w.trace ++ evs', st := sent w.st sh.fd (16 + msg.data.length) } : W) with
      ⟨n, hn, hr'⟩ | ⟨d', hd, hr'⟩
  · obtain ⟨d, h1, _⟩ := hr (w.trace ++ evs')
    rw [h1] at hn; cases hn
  · obtain ⟨d, h1, h20, hack⟩ := hr (w.trace ++ evs')
    rw [h1] at hd
    simp only [Except.ok.injEq] at hd
    subst hd
    rw [hr'] at h
    simp only [Res.ok_bind, GoM.lift_apply] at h
    obtain ⟨r', hr2, h⟩ := Res.bind_eq_ok.mp h
    simp only [Res.ok.injEq, Prod.mk.injEq] at h
    obtain ⟨rfl, _⟩ := h
    rcases readReply_cases env.e (d.take (16 + msg.data.length)) with ⟨a, err, b⟩ | ⟨a, b, c⟩ |
          ⟨a, r2, b, c, _⟩
    · simp at a; omega
    · simp at b; omega
    · rw [b] at hr2
      simp only [Res.ok.injEq] at hr2
      subst hr2
      exact c.mpr (hack _ (by omega))

/-- One message per group. -/
theorem forGroups_spec (env : Env) (K : Kernel LEv) (mk : U16 → Res NetlinkMessage) (req : Nat → LReq)
    (fd : Nat)
    (hmk : ∀ g, ∃ msg, mk g = .ok msg ∧ Encodes env.e (hdrBytes env.e msg.header ++ msg.data) (req g.toNat)) :
    ∀ (groups : List U16) (w w' : W) (r : Option Err), OpenOn w fd →
      forGroups env K mk groups w = .ok (r, w') →
      ∃ evs, GroupsOut env.e fd req groups r evs ∧ w'.trace = w.trace ++ evs ∧ w'.heap = w.heap ∧
        OpenOn w' fd ∧ w'.st = { w.st with socket := w'.st.socket } := by
  intro groups
  induction groups with
  | nil =>
    intro w w' r ho h
    simp only [forGroups, GoM.pure_apply, Res.ok.injEq, Prod.mk.injEq] at h
    obtain ⟨rfl, rfl⟩ := h
    exact ⟨[], .nil, by simp, rfl, ho, rfl⟩
  | cons g gs ih =>
    intro w w' r ho h
    obtain ⟨n, hn⟩ := ho
    obtain ⟨msg, hm, henc⟩ := hmk g
    unfold forGroups at h
    simp only [GoM.bind_apply, hm, GoM.lift_apply, Res.ok_bind, queryOrSkip, getL, hn] at h
    obtain ⟨⟨r1, w1⟩, h1, h⟩ := Res.bind_eq_ok.mp h
    obtain ⟨ev1, hq, rfl⟩ := query_spec env K ⟨fd, n⟩ msg w w1 r1 h1
    rcases r1 with _ | err
    · simp only at h
      obtain ⟨evs, hg, ht, hh, ho', hst⟩ := ih _ w' r ⟨_, rfl⟩ h
      refine ⟨ev1 ++ evs, .cons ⟨_, henc, hq⟩ hg, ?_, hh, ho', ?_⟩
      · rw [ht]; simp
      · exact hst
    · simp only [GoM.pure_apply, Res.ok.injEq, Prod.mk.injEq] at h
      obtain ⟨rfl, rfl⟩ := h
      exact ⟨ev1, .stop ⟨_, henc, hq⟩, rfl, rfl, ⟨_, rfl⟩, rfl⟩

theorem forGroups_returns (env : Env) (K : Kernel LEv) (mk : U16 → Res NetlinkMessage) (fd : Nat)
    (hmk : ∀ g, ∃ msg, mk g = .ok msg ∧ 4 ≤ msg.data.length)
    : ∀ (groups : List U16) (w : W), OpenOn w fd →
    (∀ evs d, K.recv (w.trace ++ evs) fd = .ok d → d.length < 16 ∨ 20 ≤ d.length) →
    ∃ r w', forGroups env K mk groups w = .ok (r, w') := by
  intro groups
  induction groups with
  | nil => intro w _ _; exact ⟨_, _, rfl⟩
  | cons g gs ih =>
    intro w ho hk
    obtain ⟨n, hn⟩ := ho
    obtain ⟨msg, hm, hl⟩ := hmk g
    unfold forGroups
    simp only [GoM.bind_apply, hm, GoM.lift_apply, Res.ok_bind, queryOrSkip, getL, hn]
    obtain ⟨r1, w1, h1⟩ := query_returns env K ⟨fd, n⟩ msg w hl hk
    obtain ⟨ev1, hq, hw⟩ := query_spec env K ⟨fd, n⟩ msg w w1 r1 h1
    rw [h1]
    simp only [Res.ok_bind]
    rcases r1 with _ | err
    · exact ih w1 (by rw [hw]; exact ⟨_, rfl⟩) (fun evs d hd => hk (ev1 ++ evs) d (by
        rw [hw] at hd; simpa using hd))
    · exact ⟨_, _, rfl⟩

theorem forGroups_succeeds (env : Env) (K : Kernel LEv) (mk : U16 → Res NetlinkMessage) (fd : Nat)
    (hmk : ∀ g, ∃ msg, mk g = .ok msg ∧ 4 ≤ msg.data.length)
    (hs : ∀ tr b, K.send tr fd b = none)
    (hr : ∀ tr, ∃ d, K.recv tr fd = .ok d ∧ 20 ≤ d.length ∧ ∀ n, 20 ≤ n → ¬ Refusal env.e (d.take n)) :
    ∀ (groups : List U16) (w : W), OpenOn w fd → ∃ w', forGroups env K mk groups w = .ok (none, w') := by
  intro groups
  induction groups with
  | nil => intro w _; exact ⟨_, rfl⟩
  | cons g gs ih =>
    intro w ho
    obtain ⟨n, hn⟩ := ho
    obtain ⟨msg, hm, hl⟩ := hmk g
    unfold forGroups
    simp only [GoM.bind_apply, hm, GoM.lift_apply, Res.ok_bind, queryOrSkip, getL, hn]
    obtain ⟨w1, h1, _, hst⟩ := query_succeeds env K ⟨fd, n⟩ msg w hl hs hr
    rw [h1]
    exact ih w1 ⟨_, by rw [hst]; rfl⟩

/-! ### Opening -/

theorem nflogOpen_spec (K : Kernel LEv) (w : W) :
    (∃ n w', K.socket w.trace = .error n ∧ nflogOpen K w = .ok (.error (.errno n), w') ∧
      w'.trace = w.trace ++ [.socket 16 3 12 (.error n)] ∧ w'.st = w.st) ∨
    (∃ fd, K.socket w.trace = .ok fd ∧
      ((∃ n bevs w', (∃ tr, K.bind tr fd = some n) ∧ nflogOpen K w = .ok (.error (.errno n), w') ∧
        BindEvs fd (some n) bevs ∧
        w'.trace = w.trace ++ ([.socket 16 3 12 (.ok fd)] ++ bevs) ∧ w'.st = w.st) ∨
      (∃ bevs opts w', (∃ tr, K.bind tr fd = none) ∧ nflogOpen K w = .ok (.ok (), w') ∧
        BindEvs fd none bevs ∧ OptEvs fd opts ∧
        w'.trace = w.trace ++ ([.socket 16 3 12 (.ok fd)] ++ bevs ++ opts) ∧ w'.heap = w.heap ∧
        w'.st = { w.st with socket := some ⟨fd, 0⟩, opened := true }))) := by
  unfold nflogOpen
  simp only [GoM.bind_apply, socket_spec, Res.ok_bind]
  rcases hs : K.socket w.trace with n | fd
  · exact .inl ⟨n, _, rfl, rfl, rfl, rfl⟩
  · right
    refine ⟨fd, rfl, ?_⟩
    simp only [GoM.bind_apply]
    obtain ⟨rb, bevs, hb, hbe, btr, hbtr⟩ := bind_spec K fd
      ({ w with trace := w.trace ++ [.socket 16 3 12 (.ok fd)] } : W)
    rw [hb]
    rcases rb with _ | n
    · right
      simp only [Res.ok_bind, GoM.bind_apply]
      obtain ⟨r1, o1, h1, ho1⟩ := setsockopt_spec K fd 270 5 1
        ({ w with trace := w.trace ++ [.socket 16 3 12 (.ok fd)] ++ bevs } : W)
      rw [h1]
      exact ⟨bevs, o1, _, ⟨btr, hbtr.symm⟩, rfl, hbe, ho1, by simp, rfl, rfl⟩
    · left
      exact ⟨n, bevs, _, ⟨btr, hbtr.symm⟩, rfl, hbe, by simp, rfl⟩

theorem nflogClose_spec (K : Kernel LEv) {w : W} {fd : Nat} (h : OpenOn w fd) :
    ∃ evs, nflogClose K w = .ok ((), { w with trace := w.trace ++ evs }) ∧ CloseEvs fd evs := by
  obtain ⟨n, hn⟩ := h
  obtain ⟨r, evs, h1, h2⟩ := close_spec K fd w
  refine ⟨evs, ?_, h2⟩
  unfold nflogClose closeHandle
  simp only [GoM.bind_apply, getL, Res.ok_bind, hn, h1]
  rfl

end Verif.NfLog
