import Verif.Conntrack.Table
import Verif.Conntrack.Exec
/-! Serving the requests of this library on a table. -/
namespace Verif.Conntrack
open Sys Spec Common

theorem be16_bytes16 (x : U16) : be16 (bytes16 .big x.toNat) 0 = some x.toNat := by
  have := x.isLt
  simp only [be16, num16, bytes16, List.getElem?_cons_zero, List.getElem?_cons_succ, BitVec.toNat_ofNat]
  rw [Option.some.injEq]
  omega

theorem connOf_tuple {e : Endian} {p : List Byte} {c : Conn} (h : TupleIs e p c) : connOf e p = some c := by
  obtain ⟨ip, proto, h1, h2, h3⟩ := h
  have a1 : attrOf 1 [⟨1, true, ip⟩, ⟨2, true, proto⟩] = some ip := rfl
  have a2 : attrOf 2 [⟨1, true, ip⟩, ⟨2, true, proto⟩] = some proto := rfl
  unfold connOf
  simp only [h1, a1, a2, h2, h3, Option.bind_eq_bind, Option.bind_some]
  have b1 : attrOf 1 [⟨1, false, [c.proto]⟩, ⟨2, false, bytes16 .big c.sport.toNat⟩, ⟨3, false, bytes16 .big c.dport.toNat⟩]
      = some [c.proto] := rfl
  have b2 : attrOf 2 [⟨1, false, [c.proto]⟩, ⟨2, false, bytes16 .big c.sport.toNat⟩, ⟨3, false, bytes16 .big c.dport.toNat⟩]
      = some (bytes16 .big c.sport.toNat) := rfl
  have b3 : attrOf 3 [⟨1, false, [c.proto]⟩, ⟨2, false, bytes16 .big c.sport.toNat⟩, ⟨3, false, bytes16 .big c.dport.toNat⟩]
      = some (bytes16 .big c.dport.toNat) := rfl
  have d1 : attrOf 1 [⟨1, false, c.src⟩, ⟨2, false, c.dst⟩] = some c.src := rfl
  have d2 : attrOf 2 [⟨1, false, c.src⟩, ⟨2, false, c.dst⟩] = some c.dst := rfl
  simp only [b1, b2, b3, d1, d2, Option.bind_some, be16_bytes16, List.getElem?_cons_zero, BitVec.ofNat_toNat, BitVec.setWidth_eq]

/-- Serving an update that names `c`. -/
theorem serve_update {e : Endian} {b : List Byte} {c : Conn} {extra : List Attr} (h : UpdateIs e b c extra)
    (hx : attrOf 1 extra = none) (t : Table) :
    ∃ as, (∀ k, k ≠ 1 → attrOf k as = attrOf k extra) ∧ serve e b t =
      match t.find? fun x => decide (x.Is c) with
      | some x => ((x.change e as).1, t.map fun y => if y.Is c then (y.change e as).2 else y)
      | none => (-2, t) := by
  obtain ⟨tuple, h1, h2⟩ := h
  refine ⟨⟨1, true, tuple⟩ :: extra, ?_, ?_⟩
  · intro k hk
    unfold attrOf
    rw [List.filter_cons_of_neg (by simp; omega)]
  · have ht : attrOf 1 (⟨1, true, tuple⟩ :: extra) = some tuple := by
      unfold attrOf at hx ⊢
      rw [List.filter_cons_of_pos (by simp), Option.map_eq_some_iff]
      refine ⟨⟨1, true, tuple⟩, ?_, rfl⟩
      have : extra.filter (fun a => decide (a.type = 1)) = [] := by
        rw [Option.map_eq_none_iff, List.getLast?_eq_none_iff] at hx
        exact hx
      rw [this]; rfl
    unfold serve
    rw [h1]
    simp only
    rw [ht, Option.bind_some, connOf_tuple h2]
    rcases hf : t.find? (fun x => decide (x.Is c)) with _ | x <;> simp [hf]

theorem has_iff (t : Table) (c : Conn) : t.Has c ↔ ∃ x, t.find? (fun x => decide (x.Is c)) = some x := by
  unfold Table.Has
  constructor
  · rintro ⟨x, hx, hc⟩
    rcases hf : t.find? (fun x => decide (x.Is c)) with _ | y
    · have := List.find?_eq_none.mp hf x hx
      simp [hc] at this
    · exact ⟨y, hf⟩
  · rintro ⟨x, hx⟩
    exact ⟨x, List.mem_of_find?_eq_some hx, by simpa using List.find?_some hx⟩

theorem serve_mark {e : Endian} {b : List Byte} {c : Conn} {m : U32} (h : MarkReq e c m b) (t : Table) :
    (t.Has c ∧ serve e b t = (0, t.setMark c m.toNat)) ∨ (¬ t.Has c ∧ serve e b t = (-2, t)) := by
  obtain ⟨as, h1, h2⟩ := serve_update h (by rfl) t
  have h4 : attrOf 4 as = none := h1 4 (by omega)
  have h8 : attrOf 8 as = some (bytes32 .big m.toNat) := h1 8 (by omega)
  have h22 : attrOf 22 as = none := h1 22 (by omega)
  have hc : ∀ x : Entry, x.change e as = (0, { x with mark := m.toNat }) := by
    intro x
    unfold Entry.change infoOk
    have : be32 (bytes32 .big m.toNat) 0 = some m.toNat := num32_bytes32 .big _ m.isLt
    simp [h4, h8, h22, this]
  rw [h2, has_iff]
  rcases hf : t.find? (fun x => decide (x.Is c)) with _ | x
  · right; simp [hf]
  · left; simp [hf, hc, Table.setMark]

theorem serve_label {e : Endian} {b : List Byte} {c : Conn} {l : U32} (h : LabelReq e c l b) (t : Table) :
    (¬ t.Has c ∧ serve e b t = (-2, t)) ∨
    ∃ x ∈ t, x.Is c ∧ serve e b t = (if x.labels = none then -28 else 0, t.setLabels c (bytes32 e l.toNat)) := by
  obtain ⟨as, h1, h2⟩ := serve_update h (by rfl) t
  have h4 : attrOf 4 as = none := h1 4 (by omega)
  have h8 : attrOf 8 as = none := h1 8 (by omega)
  have h22 : attrOf 22 as = some (bytes32 e l.toNat) := h1 22 (by omega)
  have hc : ∀ x : Entry, x.change e as = (if x.labels = none then -28 else 0,
      { x with labels := x.labels.map fun _ => padLabels (bytes32 e l.toNat) }) := by
    intro x
    unfold Entry.change infoOk
    rcases x with ⟨a, b, m, _ | ls⟩ <;> simp [h4, h8, h22]
  rw [h2, has_iff]
  rcases hf : t.find? (fun x => decide (x.Is c)) with _ | x
  · left; simp [hf]
  · right
    refine ⟨x, List.mem_of_find?_eq_some hf, by simpa using List.find?_some hf, ?_⟩
    simp [hf, hc, Table.setLabels]

/-- The flags the library sends for TCP are too short. -/
theorem flags_short (e : Endian) : tcpFlagsOk e (flagsBytes e) = false := by cases e <;> decide +kernel

theorem serve_label_tcp {e : Endian} {b : List Byte} {c : Conn} {l : U32} (h : LabelReqTCP e c l (flagsBytes e) b) (t : Table)
    (htcp : ∀ x ∈ t, x.Is c → x.orig.proto = 6) :
    (t.Has c ∧ serve e b t = (-34, t)) ∨ (¬ t.Has c ∧ serve e b t = (-2, t)) := by
  obtain ⟨info, hu, hi⟩ := h
  obtain ⟨as, h1, h2⟩ := serve_update hu (by rfl) t
  have h4 : attrOf 4 as = some info := h1 4 (by omega)
  have hbad : infoOk e as = false := by
    unfold infoOk
    have : attrOf 1 [⟨1, true, flagsBytes e⟩] = some (flagsBytes e) := rfl
    simp only [h4, hi, this, flags_short]
  have hc : ∀ x : Entry, x.orig.proto = 6 → x.change e as = (-34, x) := by
    intro x hx
    unfold Entry.change
    rw [if_pos ⟨hx, hbad⟩]
  rw [h2, has_iff]
  rcases hf : t.find? (fun x => decide (x.Is c)) with _ | x
  · right; simp [hf]
  · left
    have hx := htcp x (List.mem_of_find?_eq_some hf) (by simpa using List.find?_some hf)
    refine ⟨⟨x, hf⟩, ?_⟩
    simp only [hf, hc x hx, Prod.mk.injEq, true_and]
    conv => rhs; rw [← List.map_id t]
    apply List.map_congr_left
    intro y hy
    split
    · rename_i hyc
      rw [hc y (htcp y hy hyc)]; rfl
    · rfl

/-! ### One exchange with a kernel that keeps a table -/

/-- No request among these events. -/
def NoRequest (evs : List (Ev CEv)) : Prop := ∀ ev ∈ evs, isRequest ev = false

theorem NoRequest.append {a b : List (Ev CEv)} (ha : NoRequest a) (hb : NoRequest b) : NoRequest (a ++ b) := by
  intro ev h
  rcases List.mem_append.mp h with h | h
  · exact ha ev h
  · exact hb ev h

theorem Undisturbed.past {tab : List (Ev CEv) → Table} (h : Undisturbed tab) (tr : List (Ev CEv)) :
    ∀ evs : List (Ev CEv), NoRequest evs → tab (tr ++ evs) = tab tr := by
  intro evs
  induction evs generalizing tr with
  | nil => intro _; rw [List.append_nil]
  | cons ev evs ih =>
    intro hn
    have := ih (tr ++ [ev]) (fun x hx => hn x (List.mem_cons_of_mem _ hx))
    rw [List.append_assoc] at this
    exact this.trans (h tr ev (hn ev (List.mem_cons_self ..)))

/-- What one request to a kernel that keeps the table `tab` amounts to.  `served`: at the moment of the request the kernel serves it, and
the result is the code of the reply, or that the reply could not be received.  `unsent`: nothing reached the kernel. -/
inductive Served (e : Endian) (tab : List (Ev CEv) → Table) (tr : List (Ev CEv)) (req : List Byte → Prop) : Option Err → List (Ev CEv) → Prop
  | served {pre fd b post r} : NoRequest pre → NoRequest post → req b →
      (r = (if (serve e b (tab (tr ++ pre))).1 = 0 then none else some (.netlink (serve e b (tab (tr ++ pre))).1)) ∨
        ∃ n, r = some (.wrap "Recvfrom returned error %v" (.errno n))) →
      Served e tab tr req r (pre ++ .sendto fd b 0 none :: post)
  | unsent {evs n} : NoRequest evs → Served e tab tr req (some (.errno n)) evs

theorem take_reply {e : Endian} {d : List Byte} {code : Int} (h : ReplyIs e d code) (n : Nat) (hn : 20 ≤ n) : ReplyIs e (d.take n) code := by
  obtain ⟨h1, h2, h3⟩ := h
  have hk : ∀ k, k < 20 → (d.take n)[k]? = d[k]? := by
    intro k hk
    rw [List.getElem?_take, if_pos (by omega)]
  refine ⟨by simp; omega, ?_, ?_⟩
  · rw [← h2]; unfold num16; rw [hk 4 (by omega), hk 5 (by omega)]
  · rw [← h3]; unfold numI32 num32; rw [hk 16 (by omega), hk 17 (by omega), hk 18 (by omega), hk 19 (by omega)]

theorem readReply_reply {e : Endian} {d : List Byte} {code : Int} (h : ReplyIs e d code) :
    readReply e d = .ok (if code = 0 then none else some (.netlink code)) := by
  obtain ⟨h1, h2, h3⟩ := h
  rcases readReply_cases e d with ⟨a, _⟩ | ⟨_, a, _⟩ | ⟨_, r, hr, hn, hc⟩
  · omega
  · omega
  · rw [hr]
    have hz : Refusal e d ↔ code ≠ 0 := by
      unfold Refusal
      unfold numI32 at h3
      rcases hn : num32 e d 16 with _ | v
      · rw [hn] at h3; cases h3
      · rw [hn, Option.map_some, Option.some.injEq] at h3
        have hv := (show v < 2 ^ 32 by
          unfold num32 at hn
          split at hn
          · rename_i x y z t _ _ _ _
            have hx := x.isLt; have hy := y.isLt; have hz := z.isLt; have ht := t.isLt
            rw [Option.some.injEq] at hn
            cases e <;> simp only at hn <;> omega
          · cases hn)
        unfold signed32 at h3
        simp only [h2, true_and, ne_eq, Option.some.injEq]
        split at h3 <;> omega
    by_cases h0 : code = 0
    · rw [if_pos h0, hn.mpr (fun h => hz.mp h h0)]
    · rw [if_neg h0]
      obtain ⟨c, hc1, hc2⟩ := hc (hz.mpr h0)
      rw [h3, Option.some.injEq] at hc2
      rw [hc1, hc2]

theorem sendMessage_table {env : Env} {K : Kernel CEv} {tab : List (Ev CEv) → Table} (hK : KeepsTable env.e K tab) {hdr : NlMsghdr}
    {data : List Byte} {w w' : W} {r : Option Err} {req : List Byte → Prop} (hreq : req (hdrBytes env.e hdr ++ data))
    (hlen : 4 ≤ data.length) (h : sendMessage env K hdr data w = .ok (r, w')) :
    ∃ evs, w'.trace = w.trace ++ evs ∧ Served env.e tab w.trace req r evs ∧ (Works K → ∀ n, r ≠ some (.errno n) ∧
      r ≠ some (.wrap "Recvfrom returned error %v" (.errno n))) := by
  unfold sendMessage at h
  simp only [GoM.bind_apply] at h
  rcases openSock_spec K w with ⟨n, w1, _, ho⟩ | ⟨fd, _, ⟨n, w1, ho, _⟩ | ⟨bevs, _, ho, hb⟩⟩
  · rw [ho] at h; cases h
  · rw [ho] at h; cases h
  rw [ho] at h
  simp only [Res.ok_bind, GoM.bind_apply] at h
  have hpre : NoRequest (.socket 16 3 12 (.ok fd) :: bevs) := by
    intro ev hev
    rcases List.mem_cons.mp hev with rfl | hev
    · rfl
    · rcases hb with ⟨_, rfl⟩ | ⟨_, rfl⟩
      · simp at hev; subst hev; rfl
      · simp at hev; rcases hev with rfl | rfl <;> rfl
  obtain ⟨⟨r1, w1⟩, hq, h⟩ := Res.bind_eq_ok.mp h
  obtain ⟨rc, cl, hc, hcl⟩ := close_spec K fd w1
  unfold closeSock at h
  simp only [Res.ok_bind, GoM.bind_apply, hc, GoM.pure_apply, Res.ok.injEq, Prod.mk.injEq] at h
  obtain ⟨rfl, rfl⟩ := h
  have hcl' : NoRequest cl := by
    intro ev hev
    rcases hcl with rfl | ⟨_, _, rfl⟩
    · simp at hev; subst hev; rfl
    · simp at hev; rcases hev with rfl | rfl <;> rfl
  unfold query at hq
  obtain ⟨rs, evs, h1, h2, h3⟩ := send_spec env K fd ⟨hdr, data⟩
    ({ w with trace := w.trace ++ .socket 16 3 12 (.ok fd) :: bevs } : W)
  simp only [GoM.bind_apply, h1, Res.ok_bind] at hq
  rcases rs with _ | n
  · simp only [Option.map_none] at hq
    -- the request was sent; its last event is the successful one
    obtain ⟨pre2, hp2, he⟩ : ∃ pre2, NoRequest pre2 ∧ evs = pre2 ++ [.sendto fd (hdrBytes env.e hdr ++ data) 0 none] := by
      rcases h2 with ⟨_, rfl⟩ | ⟨e1, rfl⟩
      · exact ⟨[], (by intro _ h; cases h), rfl⟩
      · refine ⟨[.sendto fd (hdrBytes env.e hdr ++ data) 0 (some e1)], ?_, rfl⟩
        intro ev hev; simp at hev; subst hev; rfl
    subst he
    unfold recv at hq
    simp only [GoM.bind_apply] at hq
    have hcat : w.trace ++ Ev.socket 16 3 12 (.ok fd) :: bevs ++ (pre2 ++ [.sendto fd (hdrBytes env.e hdr ++ data) 0 none]) =
        w.trace ++ ((.socket 16 3 12 (.ok fd) :: bevs) ++ pre2) ++ [.sendto fd (hdrBytes env.e hdr ++ data) 0 none] := by simp
    rcases recvfrom_spec K fd (16 + data.length) 0 ({ w with trace := w.trace ++ .socket 16 3 12 (.ok fd) :: bevs ++
        (pre2 ++ [.sendto fd (hdrBytes env.e hdr ++ data) 0 none]) } : W) with ⟨n, hn, hr⟩ | ⟨d, hd, hr⟩
    · rw [hr] at hq
      simp only [Res.ok_bind, GoM.pure_apply, Res.ok.injEq, Prod.mk.injEq] at hq
      obtain ⟨rfl, rfl⟩ := hq
      refine ⟨_, ?_, .served (pre := (.socket 16 3 12 (.ok fd) :: bevs) ++ pre2) (fd := fd)
        (post := .recvfrom fd (16 + data.length) 0 (.error n) :: cl) (hpre.append hp2) ?_ hreq (.inr ⟨n, rfl⟩), ?_⟩
      · simp
      · intro ev hev
        rcases List.mem_cons.mp hev with rfl | hev
        · rfl
        · exact hcl' ev hev
      · intro hW
        obtain ⟨d, hd⟩ := hW.recv (w.trace ++ Ev.socket 16 3 12 (.ok fd) :: bevs ++
          (pre2 ++ [.sendto fd (hdrBytes env.e hdr ++ data) 0 none])) fd
        rw [hd] at hn; cases hn
    · rw [hr] at hq
      simp only [Res.ok_bind, GoM.lift_apply] at hq
      simp only [hcat] at hd
      have hrep := take_reply (hK.replies _ fd _ 0 d hd) (16 + data.length) (by omega)
      rw [readReply_reply hrep] at hq
      simp only [Res.ok_bind, Res.ok.injEq, Prod.mk.injEq] at hq
      obtain ⟨rfl, rfl⟩ := hq
      refine ⟨_, ?_, .served (pre := (.socket 16 3 12 (.ok fd) :: bevs) ++ pre2) (fd := fd)
        (post := .recvfrom fd (16 + data.length) 0 (.ok (d.take (16 + data.length))) :: cl) (hpre.append hp2) ?_ hreq (.inl rfl), ?_⟩
      · simp
      · intro ev hev
        rcases List.mem_cons.mp hev with rfl | hev
        · rfl
        · exact hcl' ev hev
      · intro _ n
        split <;> simp
  · simp only [Option.map_some, GoM.pure_apply, Res.ok.injEq, Prod.mk.injEq] at hq
    obtain ⟨rfl, rfl⟩ := hq
    refine ⟨(.socket 16 3 12 (.ok fd) :: bevs) ++ evs ++ cl, by simp, .unsent ((hpre.append ?_).append hcl'), ?_⟩
    · intro ev hev
      rcases h2 with ⟨h, _⟩ | ⟨e1, rfl⟩
      · cases h
      · simp at hev; rcases hev with rfl | rfl <;> rfl
    · intro hW
      obtain ⟨tr, ht⟩ := h3
      rw [hW.send] at ht; cases ht

end Verif.Conntrack
