import Verif.Conntrack.TableLemmas
import Verif.Props.Conntrack
/-!
C129, C130: what updates do to the connection table of a kernel that keeps one (Conntrack/Table.lean).
-/
namespace Verif.Props.Ct
open Verif Verif.Sys Verif.Common Verif.Conntrack Verif.Spec

/-! ### Facts about tables -/

theorem setMark_has (t : Table) (c : Conn) (m : Nat) : (t.setMark c m).Has c ↔ t.Has c := by
  unfold Table.Has Table.setMark
  constructor
  · rintro ⟨x, hx, hc⟩
    obtain ⟨y, hy, rfl⟩ := List.mem_map.mp hx
    refine ⟨y, hy, ?_⟩
    split at hc <;> assumption
  · rintro ⟨x, hx, hc⟩
    exact ⟨_, List.mem_map.mpr ⟨x, hx, rfl⟩, by rw [if_pos hc]; exact hc⟩

theorem setMark_idem (t : Table) (c : Conn) (m : Nat) : (t.setMark c m).setMark c m = t.setMark c m := by
  unfold Table.setMark
  rw [List.map_map]
  apply List.map_congr_left
  intro x _
  simp only [Function.comp]
  by_cases h : x.Is c
  · have h' : Entry.Is { x with mark := m } c := h
    rw [if_pos h, if_pos h']
  · rw [if_neg h, if_neg h]

theorem setMark_absent (t : Table) (c : Conn) (m : Nat) (h : ¬ t.Has c) : t.setMark c m = t := by
  unfold Table.setMark
  conv => rhs; rw [← List.map_id t]
  apply List.map_congr_left
  intro x hx
  rw [if_neg (fun hc => h ⟨x, hx, hc⟩)]; rfl

theorem setLabels_has (t : Table) (c : Conn) (p : List Byte) : (t.setLabels c p).Has c ↔ t.Has c := by
  unfold Table.Has Table.setLabels
  constructor
  · rintro ⟨x, hx, hc⟩
    obtain ⟨y, hy, rfl⟩ := List.mem_map.mp hx
    refine ⟨y, hy, ?_⟩
    split at hc <;> assumption
  · rintro ⟨x, hx, hc⟩
    exact ⟨_, List.mem_map.mpr ⟨x, hx, rfl⟩, by rw [if_pos hc]; exact hc⟩

theorem setLabels_idem (t : Table) (c : Conn) (p : List Byte) : (t.setLabels c p).setLabels c p = t.setLabels c p := by
  unfold Table.setLabels
  rw [List.map_map]
  apply List.map_congr_left
  intro x _
  simp only [Function.comp]
  by_cases h : x.Is c
  · have h' : Entry.Is { x with labels := x.labels.map fun _ => padLabels p } c := h
    rw [if_pos h, if_pos h']
    cases x.labels <;> rfl
  · rw [if_neg h, if_neg h]

/-! ### One request -/

theorem sendMessage_table_returns {env : Env} {K : Kernel CEv} {tab : List (Ev CEv) → Table} (hK : KeepsTable env.e K tab) (hW : Works K)
    (hdr : NlMsghdr) (data : List Byte) (hlen : 4 ≤ data.length) (w : W) : ∃ r w', sendMessage env K hdr data w = .ok (r, w') := by
  unfold sendMessage
  simp only [GoM.bind_apply]
  rcases openSock_spec K w with ⟨n, w1, hs, ho⟩ | ⟨fd, _, ⟨n, w1, ho, tr, hb⟩ | ⟨bevs, _, ho, hb⟩⟩
  · obtain ⟨fd, h⟩ := hW.socket w.trace; rw [h] at hs; cases hs
  · rw [hW.bind] at hb; cases hb
  rw [ho]
  simp only [Res.ok_bind, GoM.bind_apply]
  obtain ⟨rs, evs, h1, h2, tr, h3⟩ := send_spec env K fd ⟨hdr, data⟩
    ({ w with trace := w.trace ++ .socket 16 3 12 (.ok fd) :: bevs } : W)
  rw [hW.send] at h3
  subst h3
  obtain ⟨tr', he⟩ : ∃ tr', w.trace ++ Ev.socket 16 3 12 (.ok fd) :: bevs ++ evs = tr' ++ [.sendto fd (hdrBytes env.e hdr ++ data) 0 none] := by
    rcases h2 with ⟨_, rfl⟩ | ⟨e1, rfl⟩
    · exact ⟨_, rfl⟩
    · exact ⟨w.trace ++ Ev.socket 16 3 12 (.ok fd) :: bevs ++ [.sendto fd (hdrBytes env.e hdr ++ data) 0 (some e1)], by simp⟩
  have hq : ∃ r w1, query env K fd ⟨hdr, data⟩ ({ w with trace := w.trace ++ .socket 16 3 12 (.ok fd) :: bevs } : W) = .ok (r, w1) := by
    unfold query
    simp only [GoM.bind_apply, h1, Res.ok_bind, Option.map_none]
    unfold recv
    simp only [GoM.bind_apply]
    rcases recvfrom_spec K fd (16 + data.length) 0 ({ w with trace := w.trace ++ .socket 16 3 12 (.ok fd) :: bevs ++ evs } : W) with
      ⟨n, hn, hr⟩ | ⟨d, hd, hr⟩
    · rw [hr]; exact ⟨_, _, rfl⟩
    · rw [hr]
      simp only [he] at hd
      have hrep := take_reply (hK.replies _ fd _ 0 d hd) (16 + data.length) (by omega)
      simp only [Res.ok_bind, GoM.lift_apply, readReply_reply hrep]
      exact ⟨_, _, rfl⟩
  obtain ⟨r, w1, hq⟩ := hq
  rw [hq]
  obtain ⟨rc, cl, hc, _⟩ := close_spec K fd w1
  unfold closeSock
  simp only [Res.ok_bind, GoM.bind_apply, hc]
  exact ⟨_, _, rfl⟩

/-- C129: whatever happens to the table meanwhile, a mark update that returns has either handed the kernel nothing (and reports an error), or
handed it one request, and at that very moment the mark of `c`, and nothing else, was set in the table.  nil means that `c` was in the
table then, an error code from the kernel that it was not (ENOENT); a reply that could not be received is reported as such. -/
theorem C129_at_that_moment {env : Env} {K : Kernel CEv} {tab : List (Ev CEv) → Table} (hK : KeepsTable env.e K tab)
    {ipSrc ipDst : String} {p : Byte} {sp dp : U16} {c : Conn} (mark : U32) (h : Names env ipSrc ipDst p sp dp c) (w w' : W)
    (r : Option Err) (hr : updateMark env K ipSrc ipDst p sp dp mark w = .ok (r, w')) :
    ∃ evs, w'.trace = w.trace ++ evs ∧
      ((NoRequest evs ∧ ∃ n, r = some (.errno n)) ∨
      ∃ pre fd b post, evs = pre ++ .sendto fd b 0 none :: post ∧ NoRequest pre ∧ NoRequest post ∧
        tab (w.trace ++ pre ++ [.sendto fd b 0 none]) = (tab (w.trace ++ pre)).setMark c mark.toNat ∧
        ((r = none ∧ (tab (w.trace ++ pre)).Has c) ∨ (r = some (.netlink (-2)) ∧ ¬ (tab (w.trace ++ pre)).Has c) ∨
          ∃ n, r = some (.wrap "Recvfrom returned error %v" (.errno n)))) := by
  unfold updateMark at hr
  simp only [GoM.bind_apply, GoM.lift_apply, markMessage_eq env mark h.taken, Res.ok_bind] at hr
  obtain ⟨hs, hd⟩ := names_len h.taken
  obtain ⟨evs, h1, h2, _⟩ := sendMessage_table (req := MarkReq env.e c mark) hK (markReq_ok env.e hs hd mark) (by simp) hr
  refine ⟨evs, h1, ?_⟩
  cases h2 with
  | unsent hn => exact .inl ⟨hn, _, rfl⟩
  | @served pre fd b post r ha hb hq hcode =>
    refine .inr ⟨pre, fd, b, post, rfl, ha, hb, ?_, ?_⟩
    · rw [hK.serves]
      rcases serve_mark hq (tab (w.trace ++ pre)) with ⟨_, hx⟩ | ⟨hn, hx⟩
      · rw [hx]
      · rw [hx, setMark_absent _ _ _ hn]
    · rcases hcode with rfl | hcode
      · rcases serve_mark hq (tab (w.trace ++ pre)) with ⟨hh, hx⟩ | ⟨hn, hx⟩
        · left; rw [hx]; exact ⟨rfl, hh⟩
        · right; left; rw [hx]; exact ⟨rfl, hn⟩
      · exact .inr (.inr hcode)

/-- What a call that may change the table by `F` reports. -/
structure Effect (F : Table → Table) (c : Conn) (t t' : Table) (r : Option Err) : Prop where
  done : r = none → t.Has c ∧ t' = F t
  only : t' = t ∨ t' = F t

/-- C129: when nothing else changes the table, a mark update that returns nil has set the mark of `c`, which was in the table, and nothing
else; one that returns the kernel's error code (ENOENT) found no `c` and has changed nothing; and in no case is anything else
changed than that mark. -/
theorem C129_mark {env : Env} {K : Kernel CEv} {tab : List (Ev CEv) → Table} (hK : KeepsTable env.e K tab) (hU : Undisturbed tab)
    {ipSrc ipDst : String} {p : Byte} {sp dp : U16} {c : Conn} (mark : U32) (h : Names env ipSrc ipDst p sp dp c) (w w' : W)
    (r : Option Err) (hr : updateMark env K ipSrc ipDst p sp dp mark w = .ok (r, w')) :
    (r = none → (tab w.trace).Has c ∧ tab w'.trace = (tab w.trace).setMark c mark.toNat) ∧
    (∀ code, r = some (.netlink code) → code = -2 ∧ ¬ (tab w.trace).Has c ∧ tab w'.trace = tab w.trace) ∧
    (tab w'.trace = tab w.trace ∨ tab w'.trace = (tab w.trace).setMark c mark.toNat) := by
  obtain ⟨evs, h1, ⟨hn, n, rfl⟩ | ⟨pre, fd, b, post, rfl, ha, hb, hset, hres⟩⟩ := C129_at_that_moment hK mark h w w' r hr
  · have hsame : tab w'.trace = tab w.trace := by rw [h1]; exact hU.past _ _ hn
    exact ⟨(by intro h; cases h), (by intro _ h; cases h), .inl hsame⟩
  · have hpre : tab (w.trace ++ pre) = tab w.trace := hU.past _ _ ha
    have hfin : tab w'.trace = (tab w.trace).setMark c mark.toNat := by
      have : w.trace ++ (pre ++ Ev.sendto fd b 0 none :: post) = w.trace ++ pre ++ [.sendto fd b 0 none] ++ post := by simp
      rw [h1, this, hU.past _ _ hb, hset, hpre]
    rw [hpre] at hres
    refine ⟨?_, ?_, .inr hfin⟩
    · rintro rfl
      rcases hres with ⟨_, hh⟩ | ⟨hx, _⟩ | ⟨_, hx⟩
      · exact ⟨hh, hfin⟩
      · cases hx
      · cases hx
    · rintro code rfl
      rcases hres with ⟨hx, _⟩ | ⟨hx, hh⟩ | ⟨_, hx⟩
      · cases hx
      · cases hx
        exact ⟨rfl, hh, hfin.trans (setMark_absent _ _ _ hh)⟩
      · cases hx

/-- C129: on a kernel whose system calls work, a mark update returns, nil exactly if `c` is in the table. -/
theorem C129_mark_exact {env : Env} {K : Kernel CEv} {tab : List (Ev CEv) → Table} (hK : KeepsTable env.e K tab) (hU : Undisturbed tab)
    (hW : Works K) {ipSrc ipDst : String} {p : Byte} {sp dp : U16} {c : Conn} (mark : U32) (h : Names env ipSrc ipDst p sp dp c) (w : W) :
    ∃ r w', updateMark env K ipSrc ipDst p sp dp mark w = .ok (r, w') ∧
      tab w'.trace = (tab w.trace).setMark c mark.toNat ∧
      (((tab w.trace).Has c ∧ r = none) ∨ (¬ (tab w.trace).Has c ∧ r = some (.netlink (-2)))) := by
  obtain ⟨r, w', hr⟩ : ∃ r w', updateMark env K ipSrc ipDst p sp dp mark w = .ok (r, w') := by
    unfold updateMark
    simp only [GoM.bind_apply, GoM.lift_apply, markMessage_eq env mark h.taken, Res.ok_bind]
    exact sendMessage_table_returns hK hW _ _ (by simp) w
  refine ⟨r, w', hr, ?_⟩
  have hr0 := hr
  unfold updateMark at hr
  simp only [GoM.bind_apply, GoM.lift_apply, markMessage_eq env mark h.taken, Res.ok_bind] at hr
  obtain ⟨hs, hd⟩ := names_len h.taken
  obtain ⟨evs', _, _, hno⟩ := sendMessage_table (req := MarkReq env.e c mark) hK (markReq_ok env.e hs hd mark) (by simp) hr
  obtain ⟨evs, h1, ⟨_, n, hx⟩ | ⟨pre, fd, b, post, rfl, ha, hb, hset, hres⟩⟩ := C129_at_that_moment hK mark h w w' r hr0
  · exact absurd hx (hno hW n).1
  · have hpre : tab (w.trace ++ pre) = tab w.trace := hU.past _ _ ha
    refine ⟨?_, ?_⟩
    · have : w.trace ++ (pre ++ Ev.sendto fd b 0 none :: post) = w.trace ++ pre ++ [.sendto fd b 0 none] ++ post := by simp
      rw [h1, this, hU.past _ _ hb, hset, hpre]
    · rw [hpre] at hres
      rcases hres with ⟨hx, hh⟩ | ⟨hx, hh⟩ | ⟨n, hx⟩
      · exact .inl ⟨hh, hx⟩
      · exact .inr ⟨hh, hx⟩
      · exact absurd hx (hno hW n).2

/-! ### Several requests -/

/-- `k` calls one after the other, up to and including the first that fails. -/
inductive Calls (call : M (Option Err)) : Nat → Option Err → W → W → Prop
  | nil {w} : Calls call 0 none w w
  | cons {k r w w1 w2} : call w = .ok (none, w1) → Calls call k r w1 w2 → Calls call (k + 1) r w w2
  | stop {k err w w1} : call w = .ok (some err, w1) → Calls call (k + 1) (some err) w w1

theorem markLoop_calls (env : Env) (K : Kernel CEv) {ipSrc ipDst : String} {p : Byte} {sp dp : U16} {c : Conn} {m : U32}
    (h : Names env ipSrc ipDst p sp dp c) (hm : m ≠ 0) :
    ∀ (flows : List Flow) (k n : Nat) (r : Option Err) (w w' : W), (∀ f ∈ flows, V4Flow f) →
      markLoop env K ipSrc ipDst p sp dp m flows k w = .ok ((n, r), w') →
      Calls (updateMark env K ipSrc ipDst p sp dp m) (matching flows c) r w w' ∧ n = if r = none then k + matching flows c else 0 := by
  intro flows
  induction flows with
  | nil =>
    intro k n r w w' _ hl
    simp only [markLoop, GoM.pure_apply, Res.ok.injEq, Prod.mk.injEq] at hl
    obtain ⟨⟨rfl, rfl⟩, rfl⟩ := hl
    exact ⟨.nil, by simp [matching]⟩
  | cons f fs ih =>
    intro k n r w w' hf hl
    have hfs : ∀ f ∈ fs, V4Flow f := fun g hg => hf g (List.mem_cons_of_mem _ hg)
    unfold markLoop at hl
    simp only [GoM.bind_apply, GoM.lift_apply, check_v4 env h (hf f (List.mem_cons_self ..)), Res.ok_bind] at hl
    by_cases hF : FlowOf f c
    · have hmat : matching (f :: fs) c = matching fs c + 1 := by simp [matching, hF]
      simp only [hF, decide_true, bne_iff_ne, ne_eq, hm, not_false_eq_true, Bool.true_and, if_true, GoM.bind_apply] at hl
      obtain ⟨⟨r1, w1⟩, h1, hl⟩ := Res.bind_eq_ok.mp hl
      rcases r1 with _ | err
      · simp only at hl
        obtain ⟨hu, hn⟩ := ih (k + 1) n r _ w' hfs hl
        refine ⟨hmat ▸ .cons h1 hu, ?_⟩
        rw [hn, hmat]
        split <;> omega
      · simp only [GoM.pure_apply, Res.ok.injEq, Prod.mk.injEq] at hl
        obtain ⟨⟨rfl, rfl⟩, rfl⟩ := hl
        exact ⟨hmat ▸ .stop h1, by simp⟩
    · have hmat : matching (f :: fs) c = matching fs c := by simp [matching, hF]
      simp only [hF, decide_false, Bool.false_and, Bool.false_eq_true, if_false] at hl
      rw [hmat]
      exact ih k n r w w' hfs hl

/-- Calls that each have the effect `F` or none. -/
theorem calls_effect {tab : List (Ev CEv) → Table} {call : M (Option Err)} {F : Table → Table} {c : Conn}
    (hid : ∀ t, F (F t) = F t)
    (hcall : ∀ w w' r, call w = .ok (r, w') → Effect F c (tab w.trace) (tab w'.trace) r) :
    ∀ {k r w w'}, Calls call k r w w' → (tab w'.trace = tab w.trace ∨ tab w'.trace = F (tab w.trace)) ∧
      (r = none → tab w'.trace = (if k = 0 then tab w.trace else F (tab w.trace)) ∧ (k ≠ 0 → (tab w.trace).Has c)) := by
  intro k r w w' h
  induction h with
  | nil => exact ⟨.inl rfl, fun _ => ⟨by simp, by simp⟩⟩
  | @cons k r w w1 w2 h1 _ ih =>
    obtain ⟨hh, he⟩ := (hcall _ _ _ h1).done rfl
    rw [he, hid] at ih
    refine ⟨?_, ?_⟩
    · rcases ih.1 with h | h <;> exact .inr h
    · intro hr
      obtain ⟨h2, _⟩ := ih.2 hr
      refine ⟨?_, fun _ => hh⟩
      rw [if_neg (by omega), h2]
      split <;> rfl
  | stop h1 => exact ⟨(hcall _ _ _ h1).only, by intro h; cases h⟩

/-! ### Listing and updating -/

/-- The entry of the connection `c`, not translated: its original tuple is `c`, its reply tuple the mirror image. -/
def Entry.Plain (x : Entry) (c : Conn) : Prop := x.orig = c ∧ x.reply = c.mirror

instance (x : Entry) (c : Conn) : Decidable (Entry.Plain x c) := by unfold Entry.Plain; infer_instance

theorem isV4_four {a b : List Byte} (ha : a.length = 4) : IsV4 a b ↔ a = b := by
  constructor
  · rintro ⟨hb, rfl | h⟩
    · rfl
    · have := congrArg List.length h
      simp at this
      omega
  · rintro rfl; exact ⟨ha, .inl rfl⟩

theorem plain_iff {x : Entry} {c : Conn} (hx : x.orig.src.length = 4 ∧ x.orig.dst.length = 4 ∧ x.reply.src.length = 4 ∧ x.reply.dst.length = 4) :
    FlowOf ⟨x.orig.tuple, x.reply.tuple⟩ c ↔ Entry.Plain x c := by
  obtain ⟨h1, h2, h3, h4⟩ := hx
  unfold FlowOf Entry.Plain Conn.tuple Conn.mirror
  simp only [isV4_four h1, isV4_four h2, isV4_four h3, isV4_four h4]
  rcases x with ⟨⟨a, b, p, s, d⟩, ⟨a', b', p', s', d'⟩, m, l⟩
  rcases c with ⟨u, v, q, y, z⟩
  simp only [Conn.mk.injEq]
  constructor
  · rintro ⟨rfl, rfl, rfl, rfl, rfl, rfl, rfl, rfl, rfl, rfl⟩; simp
  · rintro ⟨⟨rfl, rfl, rfl, rfl, rfl⟩, rfl, rfl, rfl, rfl, rfl⟩; simp

theorem listed_v4 {t : Table} (ht : t.Ok) : ∀ f ∈ t.listed, V4Flow f := by
  intro f hf
  obtain ⟨x, hx, rfl⟩ := List.mem_map.mp hf
  obtain ⟨h1, h2, h3, h4⟩ := ht.v4 x hx
  exact ⟨⟨_, (isV4_four h1).mpr rfl⟩, ⟨_, (isV4_four h2).mpr rfl⟩, ⟨_, (isV4_four h3).mpr rfl⟩, ⟨_, (isV4_four h4).mpr rfl⟩⟩

theorem matching_listed (c : Conn) : ∀ {t : Table}, (∀ x ∈ t, x.orig.src.length = 4 ∧ x.orig.dst.length = 4 ∧
    x.reply.src.length = 4 ∧ x.reply.dst.length = 4) → matching t.listed c = t.countP fun x => decide (Entry.Plain x c) := by
  intro t ht
  unfold matching Table.listed
  rw [List.countP_map]
  apply List.countP_congr
  intro x hx
  simp only [Function.comp, decide_eq_true_eq]
  exact plain_iff (ht x hx)

/-- If an entry of `c` is in a proper table, it is the only one the kernel finds by `c`. -/
theorem plain_only {t : Table} (hu : t.Pairwise fun x y => ∀ c, ¬ (x.Is c ∧ y.Is c)) {c : Conn}
    (h : 0 < t.countP fun x => decide (Entry.Plain x c)) : ∀ x ∈ t, x.Is c → Entry.Plain x c := by
  induction t with
  | nil => intro x hx; cases hx
  | cons y ys ih =>
    obtain ⟨hy, hys⟩ := List.pairwise_cons.mp hu
    intro x hx hxc
    by_cases hpy : Entry.Plain y c
    · rcases List.mem_cons.mp hx with rfl | hx
      · exact hpy
      · exact absurd ⟨.inl hpy.1, hxc⟩ (hy x hx c)
    · have h' : 0 < ys.countP fun x => decide (Entry.Plain x c) := by
        rw [List.countP_cons_of_neg (by simpa using hpy)] at h
        exact h
      rcases List.mem_cons.mp hx with rfl | hx
      · obtain ⟨z, hz, hzp⟩ := List.countP_pos_iff.mp h'
        exact absurd ⟨hxc, .inl (by simpa using hzp : Entry.Plain z c).1⟩ (hy z hz c)
      · exact ih hys h' x hx hxc

/-- The table with the mark of the connection `c` (not translated) set. -/
def markPlain (t : Table) (c : Conn) (mark : Nat) : Table := t.map fun x => if Entry.Plain x c then { x with mark := mark } else x

theorem setMark_plain {t : Table} (ht : t.Ok) {c : Conn} (m : Nat) :
    (if t.countP (fun x => decide (Entry.Plain x c)) = 0 then t else t.setMark c m) = markPlain t c m := by
  unfold markPlain
  split
  · rename_i h0
    conv => lhs; rw [← List.map_id t]
    apply List.map_congr_left
    intro x hx
    rw [if_neg]
    · rfl
    · intro hp
      have := (List.countP_eq_zero.mp h0) x hx
      simp [hp] at this
  · rename_i h0
    apply List.map_congr_left
    intro x hx
    by_cases hc : x.Is c
    · rw [if_pos hc, if_pos (plain_only ht.unique (by omega) x hx hc)]
    · rw [if_neg hc, if_neg (fun hp => hc (.inl hp.1))]

theorem plain_has {t : Table} {c : Conn} (h : t.countP (fun x => decide (Entry.Plain x c)) ≠ 0) : t.Has c := by
  obtain ⟨z, hz, hzp⟩ := List.countP_pos_iff.mp (Nat.pos_of_ne_zero h)
  exact ⟨z, hz, .inl (by simpa using hzp : Entry.Plain z c).1⟩

theorem mark_effect {env : Env} {K : Kernel CEv} {tab : List (Ev CEv) → Table} (hK : KeepsTable env.e K tab) (hU : Undisturbed tab)
    {ipSrc ipDst : String} {p : Byte} {sp dp : U16} {c : Conn} (mark : U32) (h : Names env ipSrc ipDst p sp dp c) (w w' : W)
    (r : Option Err) (hr : updateMark env K ipSrc ipDst p sp dp mark w = .ok (r, w')) :
    Effect (fun t => t.setMark c mark.toNat) c (tab w.trace) (tab w'.trace) r :=
  ⟨(C129_mark hK hU mark h w w' r hr).1, (C129_mark hK hU mark h w w' r hr).2.2⟩

/-- C129: list the table and update the mark of a connection in it (conntrack_test.go `TestMark`, the example): if the update returns nil,
then the count it returns is the number of entries of `c` in the table, their mark is set, and nothing else is different.  Whatever
it returns, no other entry is changed. -/
theorem C129_list_and_mark {env : Env} {K : Kernel CEv} {tab : List (Ev CEv) → Table} (hK : KeepsTable env.e K tab) (hU : Undisturbed tab)
    {ipSrc ipDst : String} {p : Byte} {sp dp : U16} {c : Conn} {mark : U32} (h : Names env ipSrc ipDst p sp dp c) (hm : mark ≠ 0)
    (w w' : W) (ht : (tab w.trace).Ok) (n : Int) (r : Option Err)
    (hr : updateMarkForAvailableFlow env K (tab w.trace).listed ipSrc ipDst p sp dp mark w = .ok ((n, r), w')) :
    (r = none → n = (tab w.trace).countP (fun x => decide (Entry.Plain x c)) ∧ tab w'.trace = markPlain (tab w.trace) c mark.toNat) ∧
    (tab w'.trace = tab w.trace ∨ tab w'.trace = markPlain (tab w.trace) c mark.toNat) := by
  obtain ⟨k, e, hl, rfl, rfl⟩ := bulkMark_ok env K _ ipSrc ipDst p sp dp mark w w' n r hr
  obtain ⟨hc, hk⟩ := markLoop_calls env K h hm _ 0 k e w w' (listed_v4 ht) hl
  rw [matching_listed c ht.v4] at hc hk
  have hx := calls_effect (tab := tab) (F := fun t => t.setMark c mark.toNat) (c := c) (fun t => setMark_idem t c _)
    (fun w w' r h' => mark_effect hK hU mark h w w' r h') hc
  refine ⟨?_, ?_⟩
  · intro hn
    rcases e with _ | err
    · rw [if_pos rfl] at hk ⊢
      refine ⟨by omega, ?_⟩
      rw [(hx.2 rfl).1]
      exact setMark_plain ht _
    · cases hn
  · rcases hx.1 with h1 | h1
    · exact .inl h1
    · by_cases h0 : (tab w.trace).countP (fun x => decide (Entry.Plain x c)) = 0
      · rw [h0] at hc
        cases hc
        exact .inl rfl
      · right
        rw [h1, ← setMark_plain ht, if_neg h0]

/-- Calls on which none fails. -/
theorem markLoop_table_returns {env : Env} {K : Kernel CEv} {tab : List (Ev CEv) → Table} (hK : KeepsTable env.e K tab) (hU : Undisturbed tab)
    (hW : Works K) {ipSrc ipDst : String} {p : Byte} {sp dp : U16} {c : Conn} {m : U32} (h : Names env ipSrc ipDst p sp dp c) :
    ∀ (flows : List Flow) (k : Nat) (w : W), (∀ f ∈ flows, V4Flow f) → (matching flows c ≠ 0 → (tab w.trace).Has c) →
      ∃ n w', markLoop env K ipSrc ipDst p sp dp m flows k w = .ok ((n, none), w') := by
  intro flows
  induction flows with
  | nil => intro k w _ _; exact ⟨_, _, rfl⟩
  | cons f fs ih =>
    intro k w hf hin
    have hfs : ∀ f ∈ fs, V4Flow f := fun g hg => hf g (List.mem_cons_of_mem _ hg)
    unfold markLoop
    simp only [GoM.bind_apply, GoM.lift_apply, check_v4 env h (hf f (List.mem_cons_self ..)), Res.ok_bind]
    by_cases hc : (decide (FlowOf f c) && m != 0) = true
    · rw [if_pos hc]
      have hF : FlowOf f c := by
        rw [Bool.and_eq_true, decide_eq_true_eq] at hc
        exact hc.1
      have hmat : matching (f :: fs) c = matching fs c + 1 := by simp [matching, hF]
      obtain ⟨r, w1, hu, ht, ⟨hh, rfl⟩ | ⟨hh, _⟩⟩ := C129_mark_exact hK hU hW m h w
      · simp only [GoM.bind_apply, hu, Res.ok_bind]
        refine ih _ _ hfs (fun _ => ?_)
        rw [ht, setMark_has]
        exact hh
      · exact absurd (hin (by omega)) hh
    · rw [if_neg hc]
      refine ih _ _ hfs (fun h0 => hin ?_)
      unfold matching at h0 ⊢
      rw [List.countP_cons]
      omega

/-- C129: on a kernel whose system calls work, that update returns the number of entries of `c`, no error, and they have the mark. -/
theorem C129_list_and_mark_works {env : Env} {K : Kernel CEv} {tab : List (Ev CEv) → Table} (hK : KeepsTable env.e K tab)
    (hU : Undisturbed tab) (hW : Works K) {ipSrc ipDst : String} {p : Byte} {sp dp : U16} {c : Conn} {mark : U32}
    (h : Names env ipSrc ipDst p sp dp c) (hm : mark ≠ 0) (w : W) (ht : (tab w.trace).Ok) :
    ∃ w', updateMarkForAvailableFlow env K (tab w.trace).listed ipSrc ipDst p sp dp mark w =
        .ok (((tab w.trace).countP fun x => decide (Entry.Plain x c), none), w') ∧
      tab w'.trace = markPlain (tab w.trace) c mark.toNat := by
  obtain ⟨n, w', hl⟩ := markLoop_table_returns hK hU hW (m := mark) h (tab w.trace).listed 0 w (listed_v4 ht) (by
    rw [matching_listed c ht.v4]
    exact plain_has)
  have hr := bulkMark_eq env K _ ipSrc ipDst p sp dp mark w w' n none hl
  obtain ⟨h1, h2⟩ := (C129_list_and_mark hK hU h hm w w' ht _ _ hr).1 rfl
  refine ⟨w', ?_, h2⟩
  rw [hr, h1]
  rfl

/-- An entry is never counted twice: at most one entry of a proper table is that of `c`. -/
theorem C129_at_most_one {t : Table} (ht : t.Ok) (c : Conn) : t.countP (fun x => decide (Entry.Plain x c)) ≤ 1 := by
  have hu := ht.unique
  clear ht
  induction t with
  | nil => simp
  | cons y ys ih =>
    obtain ⟨hy, hys⟩ := List.pairwise_cons.mp hu
    by_cases hp : Entry.Plain y c
    · rw [List.countP_cons_of_pos (by simpa using hp)]
      have : ys.countP (fun x => decide (Entry.Plain x c)) = 0 := by
        rw [List.countP_eq_zero]
        intro z hz hzp
        exact hy z hz c ⟨.inl hp.1, .inl (by simpa using hzp : Entry.Plain z c).1⟩
      omega
    · rw [List.countP_cons_of_neg (by simpa using hp)]
      exact ih hys

/-! ### The test of the repository, for any number of connections -/

/-- One call of the loop of `TestMark`. -/
structure MarkCall where
  ipSrc : String
  ipDst : String
  proto : Byte
  sport : U16
  dport : U16
  mark : U32

/-- conntrack/conntrack_test.go:43-47: the loop of `TestMark`: updates on one listing, the results collected. -/
def markAll (env : Env) (K : Kernel CEv) (flows : List Flow) : List MarkCall → M (List (Int × Option Err))
  | [] => pure []
  | q :: qs => do
    let r ← updateMarkForAvailableFlow env K flows q.ipSrc q.ipDst q.proto q.sport q.dport q.mark
    let rs ← markAll env K flows qs
    pure (r :: rs)

theorem markPlain_listed (t : Table) (c : Conn) (m : Nat) : (markPlain t c m).listed = t.listed := by
  unfold markPlain Table.listed
  rw [List.map_map]
  apply List.map_congr_left
  intro x _
  simp only [Function.comp]
  split <;> rfl

theorem markPlain_ok {t : Table} (ht : t.Ok) (c : Conn) (m : Nat) : (markPlain t c m).Ok := by
  have key : ∀ x : Entry, (if Entry.Plain x c then { x with mark := m } else x).orig = x.orig ∧
      (if Entry.Plain x c then { x with mark := m } else x).reply = x.reply := by
    intro x; split <;> exact ⟨rfl, rfl⟩
  refine ⟨?_, ?_⟩
  · intro x hx
    obtain ⟨y, hy, rfl⟩ := List.mem_map.mp hx
    rw [(key y).1, (key y).2]
    exact ht.v4 y hy
  · unfold markPlain
    rw [List.pairwise_map]
    refine ht.unique.imp ?_
    intro x y h d hd
    unfold Entry.Is at hd
    rw [(key x).1, (key x).2, (key y).1, (key y).2] at hd
    exact h d hd

theorem markPlain_count (t : Table) (c d : Conn) (m : Nat) :
    (markPlain t c m).countP (fun x => decide (Entry.Plain x d)) = t.countP (fun x => decide (Entry.Plain x d)) := by
  unfold markPlain
  rw [List.countP_map]
  apply List.countP_congr
  intro x _
  simp only [Function.comp, decide_eq_true_eq]
  split <;> exact Iff.rfl

/-- C129, the test of the repository for any table and any calls: list the table once, then update the marks of connections in it one after the
other.  Each call returns the number of entries of its connection, without error, and at the end the table is the old one with these marks
set, in order. -/
theorem C129_test_mark {env : Env} {K : Kernel CEv} {tab : List (Ev CEv) → Table} (hK : KeepsTable env.e K tab) (hU : Undisturbed tab)
    (hW : Works K) (t : Table) (ht : t.Ok) : ∀ (qs : List (MarkCall × Conn)) (w : W), tab w.trace = t →
    (∀ q ∈ qs, Names env q.1.ipSrc q.1.ipDst q.1.proto q.1.sport q.1.dport q.2 ∧ q.1.mark ≠ 0) →
    ∃ w', markAll env K t.listed (qs.map (·.1)) w =
        .ok (qs.map (fun q => ((t.countP fun x => decide (Entry.Plain x q.2) : Nat), none)), w') ∧
      tab w'.trace = qs.foldl (fun t q => markPlain t q.2 q.1.mark.toNat) t := by
  intro qs
  induction qs generalizing t with
  | nil => intro w hw _; exact ⟨w, rfl, hw⟩
  | cons q qs ih =>
    intro w hw hq
    obtain ⟨hn, hm⟩ := hq q (List.mem_cons_self ..)
    obtain ⟨w1, h1, h2⟩ := C129_list_and_mark_works hK hU hW hn hm w (hw ▸ ht)
    rw [hw] at h1 h2
    obtain ⟨w2, h3, h4⟩ := ih (markPlain t q.2 q.1.mark.toNat) (markPlain_ok ht _ _) w1 h2 (fun q' h' => hq q' (List.mem_cons_of_mem _ h'))
    refine ⟨w2, ?_, by rw [h4]; rfl⟩
    rw [markPlain_listed] at h3
    show markAll env K t.listed (q.1 :: qs.map (·.1)) w = _
    unfold markAll
    simp only [GoM.bind_apply, h1, Res.ok_bind, h3, GoM.pure_apply, markPlain_count]
    rfl

/-! ### Labels -/

/-- One label request, as the loop makes it. -/
def labelCall (env : Env) (K : Kernel CEv) (ipSrc ipDst : String) (p : Byte) (sp dp : U16) (l : U32) : M (Option Err) := do
  let msg ← GoM.lift (labelMessage env ipSrc ipDst p sp dp l)
  sendMessage env K msg.1 msg.2

theorem labelLoop_calls (env : Env) (K : Kernel CEv) {ipSrc ipDst : String} {p : Byte} {sp dp : U16} {c : Conn} {l : U32}
    (h : Names env ipSrc ipDst p sp dp c) :
    ∀ (flows : List Flow) (k n : Nat) (r : Option Err) (w w' : W), (∀ f ∈ flows, V4Flow f) →
      labelLoop env K ipSrc ipDst p sp dp l flows k w = .ok ((n, r), w') →
      Calls (labelCall env K ipSrc ipDst p sp dp l) (matching flows c) r w w' ∧ n = if r = none then k + matching flows c else 0 := by
  intro flows
  induction flows with
  | nil =>
    intro k n r w w' _ hl
    simp only [labelLoop, GoM.pure_apply, Res.ok.injEq, Prod.mk.injEq] at hl
    obtain ⟨⟨rfl, rfl⟩, rfl⟩ := hl
    exact ⟨.nil, by simp [matching]⟩
  | cons f fs ih =>
    intro k n r w w' hf hl
    have hfs : ∀ f ∈ fs, V4Flow f := fun g hg => hf g (List.mem_cons_of_mem _ hg)
    unfold labelLoop at hl
    simp only [GoM.bind_apply, GoM.lift_apply, check_v4 env h (hf f (List.mem_cons_self ..)), Res.ok_bind] at hl
    by_cases hF : FlowOf f c
    · have hmat : matching (f :: fs) c = matching fs c + 1 := by simp [matching, hF]
      obtain ⟨hdr, data, hmsg, _⟩ := labelMessage_ok env l h
      simp only [hF, decide_true, if_true, GoM.bind_apply, GoM.lift_apply, hmsg, Res.ok_bind] at hl
      obtain ⟨⟨r1, w1⟩, h1, hl⟩ := Res.bind_eq_ok.mp hl
      have h1' : labelCall env K ipSrc ipDst p sp dp l w = .ok (r1, w1) := by
        unfold labelCall
        simp only [GoM.bind_apply, GoM.lift_apply, hmsg, Res.ok_bind, h1]
      rcases r1 with _ | err
      · simp only at hl
        obtain ⟨hu, hn⟩ := ih (k + 1) n r _ w' hfs hl
        refine ⟨hmat ▸ .cons h1' hu, ?_⟩
        rw [hn, hmat]
        split <;> omega
      · simp only [GoM.pure_apply, Res.ok.injEq, Prod.mk.injEq] at hl
        obtain ⟨⟨rfl, rfl⟩, rfl⟩ := hl
        exact ⟨hmat ▸ .stop h1', by simp⟩
    · have hmat : matching (f :: fs) c = matching fs c := by simp [matching, hF]
      simp only [hF, decide_false, Bool.false_eq_true, if_false] at hl
      rw [hmat]
      exact ih k n r w w' hfs hl

/-- The table with the labels of the connection `c` (not translated) set to the label, in host order. -/
def labelPlain (t : Table) (c : Conn) (p : List Byte) : Table :=
  t.map fun x => if Entry.Plain x c then { x with labels := x.labels.map fun _ => padLabels p } else x

theorem setLabels_plain {t : Table} (ht : t.Ok) {c : Conn} (p : List Byte) :
    (if t.countP (fun x => decide (Entry.Plain x c)) = 0 then t else t.setLabels c p) = labelPlain t c p := by
  unfold labelPlain
  split
  · rename_i h0
    conv => lhs; rw [← List.map_id t]
    apply List.map_congr_left
    intro x hx
    rw [if_neg]
    · rfl
    · intro hp
      have := (List.countP_eq_zero.mp h0) x hx
      simp [hp] at this
  · rename_i h0
    apply List.map_congr_left
    intro x hx
    by_cases hc : x.Is c
    · rw [if_pos hc, if_pos (plain_only ht.unique (by omega) x hx hc)]
    · rw [if_neg hc, if_neg (fun hp => hc (.inl hp.1))]

theorem label_effect {env : Env} {K : Kernel CEv} {tab : List (Ev CEv) → Table} (hK : KeepsTable env.e K tab) (hU : Undisturbed tab)
    {ipSrc ipDst : String} {p : Byte} {sp dp : U16} {c : Conn} (l : U32) (h : Names env ipSrc ipDst p sp dp c) (hp : p ≠ 6) (w w' : W)
    (r : Option Err) (hr : labelCall env K ipSrc ipDst p sp dp l w = .ok (r, w')) :
    Effect (fun t => t.setLabels c (bytes32 env.e l.toNat)) c (tab w.trace) (tab w'.trace) r := by
  unfold labelCall at hr
  simp only [GoM.bind_apply, GoM.lift_apply, labelMessage_eq env l h.taken hp, Res.ok_bind] at hr
  obtain ⟨hs, hd⟩ := names_len h.taken
  obtain ⟨evs, h1, h2, _⟩ := sendMessage_table (req := LabelReq env.e c l) hK (labelReq_ok env.e hs hd l) (by simp) hr
  cases h2 with
  | unsent hn =>
    refine ⟨(by intro h; cases h), .inl ?_⟩
    rw [h1]; exact hU.past _ _ hn
  | @served pre fd b post r ha hb hq hcode =>
    have hpre : tab (w.trace ++ pre) = tab w.trace := hU.past _ _ ha
    have hfin : tab w'.trace = (serve env.e b (tab w.trace)).2 := by
      have : w.trace ++ (pre ++ Ev.sendto fd b 0 none :: post) = w.trace ++ pre ++ [.sendto fd b 0 none] ++ post := by simp
      rw [h1, this, hU.past _ _ hb, hK.serves, hpre]
    rw [hpre] at hcode
    rcases serve_label hq (tab w.trace) with ⟨hn, hx⟩ | ⟨x, hx1, hx2, hx⟩
    · rw [hx] at hfin hcode
      refine ⟨?_, .inl hfin⟩
      rintro rfl
      rcases hcode with hc | ⟨_, hc⟩
      · exact absurd hc (by simp)
      · cases hc
    · rw [hx] at hfin hcode
      exact ⟨fun _ => ⟨⟨x, hx1, hx2⟩, hfin⟩, .inr hfin⟩

/-- C130, for protocols other than TCP: list the table and update the label of a connection in it: if the update returns nil, the count it
returns is the number of entries of `c` in the table, their labels are those four bytes (host order) followed by zeros, and nothing
else is different.  Whatever it returns, no other entry is changed. -/
theorem C130_list_and_label_partial {env : Env} {K : Kernel CEv} {tab : List (Ev CEv) → Table} (hK : KeepsTable env.e K tab)
    (hU : Undisturbed tab) {ipSrc ipDst : String} {p : Byte} {sp dp : U16} {c : Conn} {l : U32} (h : Names env ipSrc ipDst p sp dp c)
    (hp : p ≠ 6) (w w' : W) (ht : (tab w.trace).Ok) (n : Int) (r : Option Err)
    (hr : updateLabel env K (tab w.trace).listed ipSrc ipDst p sp dp l w = .ok ((n, r), w')) :
    (r = none → n = (tab w.trace).countP (fun x => decide (Entry.Plain x c)) ∧
      tab w'.trace = labelPlain (tab w.trace) c (bytes32 env.e l.toNat)) ∧
    (tab w'.trace = tab w.trace ∨ tab w'.trace = labelPlain (tab w.trace) c (bytes32 env.e l.toNat)) := by
  obtain ⟨k, hl, hn⟩ := bulkLabel_ok env K _ ipSrc ipDst p sp dp l w w' n r hr
  obtain ⟨hc, hk⟩ := labelLoop_calls env K h _ 0 k r w w' (listed_v4 ht) hl
  rw [matching_listed c ht.v4] at hc hk
  have hx := calls_effect (tab := tab) (F := fun t => t.setLabels c (bytes32 env.e l.toNat)) (c := c) (fun t => setLabels_idem t c _)
    (fun w w' r h' => label_effect hK hU l h hp w w' r h') hc
  refine ⟨?_, ?_⟩
  · rintro rfl
    rw [if_pos rfl] at hk
    rw [if_pos rfl] at hn
    refine ⟨by omega, ?_⟩
    rw [(hx.2 rfl).1]
    exact setLabels_plain ht _
  · rcases hx.1 with h1 | h1
    · exact .inl h1
    · by_cases h0 : (tab w.trace).countP (fun x => decide (Entry.Plain x c)) = 0
      · rw [h0] at hc
        cases hc
        exact .inl rfl
      · right
        rw [h1, ← setLabels_plain ht, if_neg h0]

/-- C130, violated for TCP: the kernel refuses every label update of a TCP connection (the flags attributes the library adds are too short,
C40): none returns nil, and the table stays as it was. -/
theorem C130_tcp_violated {env : Env} {K : Kernel CEv} {tab : List (Ev CEv) → Table} (hK : KeepsTable env.e K tab)
    (hU : Undisturbed tab) {ipSrc ipDst : String} {sp dp : U16} {c : Conn} {l : U32} (h : Names env ipSrc ipDst 6 sp dp c)
    (w w' : W) (ht : (tab w.trace).Ok) (hin : ∃ x ∈ tab w.trace, Entry.Plain x c) (n : Int) (r : Option Err)
    (hr : updateLabel env K (tab w.trace).listed ipSrc ipDst 6 sp dp l w = .ok ((n, r), w')) :
    r ≠ none ∧ n = 0 ∧ tab w'.trace = tab w.trace ∧ (Works K → r = some (.netlink (-34))) := by
  obtain ⟨k, hl, hn⟩ := bulkLabel_ok env K _ ipSrc ipDst 6 sp dp l w w' n r hr
  obtain ⟨hc, hk⟩ := labelLoop_calls env K h _ 0 k r w w' (listed_v4 ht) hl
  rw [matching_listed c ht.v4] at hc
  have hpos : 0 < (tab w.trace).countP (fun x => decide (Entry.Plain x c)) := by
    obtain ⟨x, hx, hp⟩ := hin
    exact List.countP_pos_iff.mpr ⟨x, hx, by simpa using hp⟩
  have hc6 : c.proto = 6 := h.2.2.1.symm
  have htcp : ∀ x ∈ tab w.trace, x.Is c → x.orig.proto = 6 := by
    intro x hx hxc
    rw [(plain_only ht.unique hpos x hx hxc).1]
    exact hc6
  have key : ∀ r1 w1, labelCall env K ipSrc ipDst 6 sp dp l w = .ok (r1, w1) → r1 ≠ none ∧ tab w1.trace = tab w.trace ∧
      (Works K → r1 = some (.netlink (-34))) := by
    intro r1 w1 hr1
    unfold labelCall at hr1
    simp only [GoM.bind_apply, GoM.lift_apply, labelMessage_tcp env l h.taken, Res.ok_bind] at hr1
    obtain ⟨hs, hd⟩ := names_len h.taken
    obtain ⟨evs, h1, h2, hno⟩ := sendMessage_table (req := LabelReqTCP env.e c l (flagsBytes env.e)) hK
      (labelReqTCP_ok env.e hs hd l) (by simp) hr1
    cases h2 with
    | @unsent _ n hn =>
      refine ⟨by simp, ?_, fun hW => absurd rfl (hno hW n).1⟩
      rw [h1]; exact hU.past _ _ hn
    | @served pre fd b post r ha hb hq hcode =>
      have hpre : tab (w.trace ++ pre) = tab w.trace := hU.past _ _ ha
      have hfin : tab w1.trace = (serve env.e b (tab w.trace)).2 := by
        have : w.trace ++ (pre ++ Ev.sendto fd b 0 none :: post) = w.trace ++ pre ++ [.sendto fd b 0 none] ++ post := by simp
        rw [h1, this, hU.past _ _ hb, hK.serves, hpre]
      rw [hpre] at hcode
      rcases serve_label_tcp hq (tab w.trace) htcp with ⟨_, hx⟩ | ⟨hn, _⟩
      · rw [hx] at hfin hcode
        refine ⟨?_, hfin, ?_⟩
        · rcases hcode with hc | ⟨_, hc⟩ <;> rw [hc] <;> simp
        · intro hW
          rcases hcode with hc | ⟨n, hc⟩
          · rw [hc]; rfl
          · exact absurd hc (hno hW n).2
      · exact absurd (plain_has (by omega)) hn
  generalize hg : (tab w.trace).countP (fun x => decide (Entry.Plain x c)) = g at hc hpos
  cases hc with
  | nil => omega
  | cons h1 _ => exact absurd rfl (key _ _ h1).1
  | stop h1 =>
    obtain ⟨a, b, d⟩ := key _ _ h1
    refine ⟨a, ?_, b, d⟩
    rw [hn, if_neg a]

end Verif.Props.Ct
