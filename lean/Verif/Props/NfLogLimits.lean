import Verif.Props.NfLogRead
/-! C85, C86: what the log reader does not promise. -/
namespace Verif.Props.Log
open Verif.Common Verif.Sys Verif.Spec Verif.NfLog

/-! ### C85 -/

/-- On a big-endian host every datagram (below 64 KiB) is refused: the length of its first message, as such a
kernel writes it, is read the wrong way round and exceeds every datagram. -/
theorem refused_big (env : Env) (d : List Byte) (len : Nat) (h16 : 16 ≤ d.length) (h64 : d.length < 65536)
    (hl : num32 .big d 0 = some len) (h0 : 0 < len) (hle : len ≤ d.length) (w : W) :
    parseLog env d w = .ok (some (.msg "Message was truncated"), w) := by
  match d, h16 with
  | a0 :: a1 :: a2 :: a3 :: a4 :: a5 :: a6 :: a7 :: a8 :: a9 :: b0 :: b1 :: b2 :: b3 :: b4 :: b5 :: tl, _ =>
    have hr : readHeader (a0 :: a1 :: a2 :: a3 :: a4 :: a5 :: a6 :: a7 :: a8 :: a9 :: b0 :: b1 :: b2 :: b3 :: b4
        :: b5 :: tl) = .ok (join32 a3 a2 a1 a0, join16 a5 a4) := by
      unfold readHeader
      rw [if_neg (by simp)]
      rfl
    generalize hd : a0 :: a1 :: a2 :: a3 :: a4 :: a5 :: a6 :: a7 :: a8 :: a9 :: b0 :: b1 :: b2 :: b3 :: b4 :: b5 :: tl
      = d at *
    have hbig : join32 a3 a2 a1 a0 > BitVec.ofNat 32 d.length := by
      rw [← hd] at hl
      simp only [num32, List.getElem?_cons_zero, List.getElem?_cons_succ, Option.some.injEq, Nat.zero_add] at hl
      show BitVec.ofNat 32 d.length < join32 a3 a2 a1 a0
      rw [BitVec.lt_def, join32_toNat, BitVec.toNat_ofNat]
      have := a0.isLt; have := a1.isLt; have := a2.isLt; have := a3.isLt
      have hz0 : a0.toNat = 0 := by omega
      have hz1 : a1.toNat = 0 := by omega
      have hm : d.length % 2 ^ 32 = d.length := Nat.mod_eq_of_lt (by omega)
      rw [hm]
      omega
    unfold parseLog
    rw [loop_unfold]
    have hb : logBody env (d, w) = .ok (.done (some (.msg "Message was truncated"), w)) := by
      unfold logBody
      simp only
      rw [if_neg (by rw [← hd]; simp), hr]
      simp only [Res.ok_bind]
      rw [if_pos hbig]
    rw [hb]

/-- C85 is violated: on a big-endian host, every datagram (below 64 KiB) whose first message states its length the
way such a kernel does is reported as a parse error, and none of its logs reaches the application. -/
theorem C85_big_endian_violated (env : Env) (hq : Quiet env) (K : Kernel LEv) (w : W) (sh : Handle) (ecb : Nat)
    (hs : w.st.socket = some sh) (hecb : w.st.errorCallback = some ecb) (d : List Byte) (len : Nat)
    (hd : K.recv w.trace sh.fd = .ok d) (h16 : 16 ≤ d.length) (h64 : d.length < 65536)
    (hl : num32 .big d 0 = some len) (h0 : 0 < len) (hle : len ≤ d.length) :
    ∃ w' rest, readIter env K w = .ok (false, w') ∧ w'.trace = w.trace ++ (.recvfrom sh.fd 65536 0 (.ok d) ::
        .app (.error ecb "Parse error" (.msg "Message was truncated")) :: rest) ∧ logs rest = [] ∧
      w'.st = w.st := by
  unfold readIter
  simp only [GoM.bind_apply, getL, Res.ok_bind, hs]
  rcases recvfrom_spec K sh.fd 65536 0 w with ⟨n, hn, _⟩ | ⟨d', hd', hr⟩
  · rw [hd] at hn; cases hn
  · rw [hd] at hd'
    cases hd'
    rw [List.take_of_length_le (by omega)] at hr
    rw [hr]
    simp only [Res.ok_bind]
    have hp := refused_big env d len h16 h64 hl h0 hle
      ({ w with trace := w.trace ++ [.recvfrom sh.fd 65536 0 (.ok d)] } : W)
    obtain ⟨w', evs, hrep, hst, ht, hE⟩ := report_spec hq "Parse error" (.msg "Message was truncated")
      ({ w with trace := w.trace ++ [.recvfrom sh.fd 65536 0 (.ok d)] } : W)
    cases hE with
    | silent h => rw [hecb] at h; cases h
    | told h hlog _ _ =>
      rw [show w.st.errorCallback = some ecb from hecb] at h
      cases h
      refine ⟨w', _, ?_, by rw [ht]; simp only [List.append_assoc, List.cons_append, List.nil_append], hlog, hst⟩
      have : handleDatagram env d ({ w with trace := w.trace ++ [.recvfrom sh.fd 65536 0 (.ok d)] } : W) =
          ((do report env "Parse error" (.msg "Message was truncated"); pure false : M Bool)
            ({ w with trace := w.trace ++ [.recvfrom sh.fd 65536 0 (.ok d)] } : W)) :=
        (congrArg (· >>= _) hp).trans rfl
      rw [this]
      simp only [GoM.bind_apply, Res.ok_bind, hrep]
      rfl

/-- A 20-byte log message with a big-endian header. -/
example : num32 .big ([0, 0, 0, 20, 4, 0, 0, 0] ++ zeros 8 ++ [2, 0, 0, 5]) 0 = some 20 := by decide

/-! ### C86 -/

/-- C86 is violated: the application closes the socket with NFlogClose; the reader's next receive fails (as a receive
on a closed descriptor does), and the reader closes the descriptor a second time before it returns. -/
theorem C86_closes_again_violated (env : Env) (hq : Quiet env) (K : Kernel LEv) (w : W) (sh : Handle)
    (hs : w.st.socket = some sh) (n k : Nat) (hn : n ≠ 105)
    (hK : ∀ evs, evs ≠ [] → K.recv (w.trace ++ evs) sh.fd = .error n) :
    ∃ w1 w2 cl1 mid cl2, nflogClose K w = .ok ((), w1) ∧ readLogs env K (k + 1) w1 = .ok (true, w2) ∧
      w2.trace = w.trace ++ cl1 ++ .recvfrom sh.fd 65536 0 (.error n) :: (mid ++ cl2) ∧
      CloseEvs sh.fd cl1 ∧ CloseEvs sh.fd cl2 := by
  obtain ⟨cl1, h1, hc1⟩ := nflogClose_spec K (fd := sh.fd) (w := w) ⟨sh.bufLen, hs⟩
  have hne : cl1 ≠ [] := by rcases hc1 with rfl | ⟨a, b, rfl⟩ <;> simp
  obtain ⟨w2, evs, hrep, hst, ht, hE⟩ := report_spec hq "Netlink error" (.errno n)
    ({ w with trace := w.trace ++ cl1 ++ [.recvfrom sh.fd 65536 0 (.error n)] } : W)
  obtain ⟨cl2, h2, hc2⟩ := nflogClose_spec K (fd := sh.fd) (w := w2) ⟨sh.bufLen, by rw [hst]; exact hs⟩
  refine ⟨_, { w2 with trace := w2.trace ++ cl2 }, cl1, evs, cl2, h1, ?_, ?_, hc1, hc2⟩
  · unfold readLogs
    have hi : readIter env K { w with trace := w.trace ++ cl1 } = .ok (true, { w2 with trace := w2.trace ++ cl2 }) := by
      unfold readIter
      simp only [GoM.bind_apply, getL, Res.ok_bind, hs]
      rcases recvfrom_spec K sh.fd 65536 0 ({ w with trace := w.trace ++ cl1 } : W) with ⟨m, hm, hr⟩ | ⟨d', hd', hr⟩
      · rw [hK cl1 hne] at hm
        cases hm
        rw [hr]
        simp only [Res.ok_bind, handleFailure, GoM.bind_apply, hrep, if_neg hn, h2]
        rfl
      · rw [hK cl1 hne] at hd'; cases hd'
    simp only [GoM.bind_apply, hi, Res.ok_bind]
    rfl
  · simp [ht]

/-- The sample handle, with a kernel that fails receives with EBADF. -/
example : readWorld.st.socket = some ⟨3, 28⟩ ∧
    ∀ evs, evs ≠ [] → ({ ackKernel with recv := fun _ _ => .error 9 } : Kernel LEv).recv (readWorld.trace ++ evs) 3 = .error 9 :=
  ⟨rfl, fun _ _ => rfl⟩

end Verif.Props.Log
