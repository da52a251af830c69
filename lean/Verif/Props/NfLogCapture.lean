import Verif.Props.NfLogStays
/-! C124, C125: how many bytes of a packet must be captured for its log report to be right. -/
namespace Verif.Props.Log
open Verif.Common Verif.Sys Verif.Spec Verif.NfLog Verif.Packet

/-- A complete IP packet: IPv4 without options, or IPv6; as long as its header says; if TCP (6) or UDP (17), with room for that header. -/
structure WholePacket (P : List Byte) : Prop where
  ip : (byteAt P 0 = 0x45 ∧ 20 ≤ P.length ∧ P.length = numAt P 2) ∨
    (byteAt P 0 / 16 = 6 ∧ P.length = 40 + numAt P 4)
  tcp4 : byteAt P 0 = 0x45 → byteAt P 9 = 6 → 40 ≤ P.length
  udp4 : byteAt P 0 = 0x45 → byteAt P 9 = 17 → 28 ≤ P.length
  tcp6 : byteAt P 0 / 16 = 6 → byteAt P 6 = 6 → 60 ≤ P.length
  udp6 : byteAt P 0 / 16 = 6 → byteAt P 6 = 17 → 48 ≤ P.length

/-- What the kernel includes of a packet in a log when asked for `n` bytes: at most 65531 (what fits an attribute); 0 means as much as
possible. -/
def captured (n : Nat) (P : List Byte) : List Byte := P.take (if n = 0 then 65531 else min n 65531)

/-- The number of bytes of a packet that have to be there. -/
def needed (P : List Byte) : Nat :=
  if byteAt P 0 / 16 = 4 then (if byteAt P 9 = 6 then 37 else if byteAt P 9 = 17 then 25 else 21)
  else (if byteAt P 6 = 6 then 57 else if byteAt P 6 = 17 then 45 else 41)

/-- A log message about a packet: the attributes sent before the payload. -/
structure Logged where
  mid : List Byte
  hdr : List Byte
  attrs : List (Nat × List Byte)
  packet : List Byte

/-- The message the kernel sends about it when `n` bytes were asked for: the payload attribute (9) comes last. -/
def Logged.item (n : Nat) (l : Logged) : Item := .log l.mid l.hdr (l.attrs ++ [(9, captured n l.packet)])

/-- The prefix (attribute 10) among the attributes, without the NUL at its end; the last one if there are several. -/
def prefixOf (attrs : List (Nat × List Byte)) : List Byte :=
  ((attrs.filter fun a => a.1 == 10).getLast?.map fun a => a.2.dropLast).getD []

/-- What is required of a log message. -/
structure Logged.Ok (l : Logged) : Prop where
  mid : l.mid.length = 10
  hdr : l.hdr.length = 4
  attrs : ∀ a ∈ l.attrs, a.1 < 65536 ∧ a.1 ≠ 9 ∧ a.2.length + 4 < 65536 ∧ (a.1 = 10 → a.2 ≠ [])
  packet : WholePacket l.packet

/-- Two buffers show the same first `k` bytes. -/
def SameTo (k : Nat) (B P : List Byte) : Prop := ∀ i, i < k → B[i]? = P[i]?

theorem SameTo.be16 {k i : Nat} {B P : List Byte} (h : SameTo k B P) (hi : i + 2 ≤ k) : be16 B i = be16 P i := by
  unfold Spec.be16 num16
  rw [h i (by omega), h (i + 1) (by omega)]

theorem SameTo.range {k i n : Nat} {B P : List Byte} (h : SameTo k B P) (hi : i + n ≤ k) :
    (B.drop i).take n = (P.drop i).take n := by
  apply List.ext_getElem?
  intro j
  by_cases hj : j < n
  · rw [List.getElem?_take_of_lt hj, List.getElem?_take_of_lt hj, List.getElem?_drop, List.getElem?_drop, h (i + j) (by omega)]
  · rw [List.getElem?_take_eq_none (by omega), List.getElem?_take_eq_none (by omega)]

theorem SameTo.byteAt {k i : Nat} {B P : List Byte} (h : SameTo k B P) (hi : i < k) : byteAt B i = byteAt P i := by
  unfold Packet.byteAt
  rw [h i hi]

theorem SameTo.numAt {k i : Nat} {B P : List Byte} (h : SameTo k B P) (hi : i + 2 ≤ k) : numAt B i = numAt P i := by
  unfold Packet.numAt
  rw [h.be16 hi]

theorem numAt_lt (B : List Byte) (i : Nat) : numAt B i < 65536 := by
  unfold Packet.numAt Spec.be16 num16
  split
  · rename_i x y _ _
    have := x.isLt
    have := y.isLt
    simp only [Option.getD_some]
    omega
  · simp

theorem captured_length (n : Nat) (P : List Byte) : (captured n P).length ≤ 65531 := by
  unfold captured
  rw [List.length_take]
  split <;> omega

theorem captured_same (n : Nat) (P : List Byte) : SameTo (captured n P).length (captured n P) P := by
  intro i hi
  unfold captured at hi ⊢
  rw [List.length_take] at hi
  rw [List.getElem?_take_of_lt (by omega)]

theorem cut_same (Q : List Byte) : SameTo (Q.length - 1) (cut Q) Q := by
  intro i hi
  unfold cut
  split
  · rw [List.getElem?_append_left (by simp; omega), List.getElem?_dropLast, if_pos (by omega)]
  · rfl

theorem padded_same (Q : List Byte) : SameTo Q.length (padded Q) Q := by
  intro i hi
  unfold padded
  rw [List.getElem?_append_left hi]

theorem SameTo.trans {k : Nat} {A B C : List Byte} (h : SameTo k A B) (h' : SameTo k B C) : SameTo k A C :=
  fun i hi => (h i hi).trans (h' i hi)

theorem SameTo.mono {k j : Nat} {A B : List Byte} (h : SameTo k A B) (hj : j ≤ k) : SameTo j A B := fun i hi => h i (by omega)

/-- What the parser sees of a captured packet. -/
theorem seen_same (n : Nat) (P : List Byte) (hne : captured n P ≠ []) :
    SameTo ((captured n P).length - 1) (padded (cut (captured n P))) P ∧
    (padded (cut (captured n P))).length = roundUp4 (captured n P).length := by
  refine ⟨?_, by rw [padded_length, cut_length _ hne]⟩
  refine ((padded_same _).mono ?_).trans ((cut_same _).trans ((captured_same n P).mono (by omega)))
  rw [cut_length _ hne]
  omega

/-- The report of a packet says the same about any buffer that agrees with it far enough. -/
theorem describes_same {m : NfPacket} {pfx pay B P : List Byte} {k : Nat} (h : SameTo k B P) (hd : Describes m pfx pay B)
    (hk : k ≥ needed P - 1) (h1 : 1 ≤ k) : Describes m pfx pay P := by
  obtain ⟨a, b, hd⟩ := hd
  refine ⟨a, b, ?_⟩
  have hb0 := h.byteAt (i := 0) (by omega)
  rcases hd with ⟨d0, d9, dl, ds, dd, ⟨n, di, did⟩, dp⟩ | ⟨⟨x, d0, dx⟩, d6, ⟨n, dl, dn⟩, ds, dd, di, dp⟩
  · left
    have h4 : byteAt P 0 / 16 = 4 := by
      rw [← hb0]; unfold Packet.byteAt; rw [d0]; rfl
    unfold needed at hk
    rw [if_pos h4] at hk
    have h20 : 20 ≤ k := by
      repeat' split at hk
      all_goals omega
    have h9 : byteAt P 9 = m.protocol.toNat := by
      rw [← h.byteAt (by omega)]; unfold Packet.byteAt; rw [d9]; rfl
    refine ⟨by rw [← h 0 (by omega)]; exact d0, by rw [← h 9 (by omega)]; exact d9, by rw [← h.be16 (by omega)]; exact dl,
      by rw [← h.range (by omega)]; exact ds, by rw [← h.range (by omega)]; exact dd,
      ⟨n, by rw [← h.be16 (by omega)]; exact di, did⟩, ?_, dp.2⟩
    intro hp
    have h24 : 24 ≤ k := by
      rw [h9] at hk
      rcases hp with hp | hp
      · rw [if_pos hp] at hk; omega
      · rw [if_neg (by omega), if_pos hp] at hk; omega
    rw [← h.be16 (by omega), ← h.be16 (by omega)]
    exact dp.1 hp
  · right
    have h4 : byteAt P 0 / 16 ≠ 4 := by
      rw [← hb0]; unfold Packet.byteAt; rw [d0]; exact dx
    unfold needed at hk
    rw [if_neg h4] at hk
    have h40 : 40 ≤ k := by
      repeat' split at hk
      all_goals omega
    have h6 : byteAt P 6 = m.protocol.toNat := by
      rw [← h.byteAt (by omega)]; unfold Packet.byteAt; rw [d6]; rfl
    refine ⟨⟨x, by rw [← h 0 (by omega)]; exact d0, dx⟩, by rw [← h 6 (by omega)]; exact d6,
      ⟨n, by rw [← h.be16 (by omega)]; exact dl, dn⟩,
      by rw [← h.range (by omega)]; exact ds, by rw [← h.range (by omega)]; exact dd, di, ?_, dp.2⟩
    intro hp
    have h44 : 44 ≤ k := by
      rw [h6] at hk
      rcases hp with hp | hp
      · rw [if_pos hp] at hk; omega
      · rw [if_neg (by omega), if_pos hp] at hk; omega
    rw [← h.be16 (by omega), ← h.be16 (by omega)]
    exact dp.1 hp

theorem needed_ge (P : List Byte) : 21 ≤ needed P := by
  unfold needed
  repeat' split
  all_goals omega

/-- Enough was captured: the parser accepts. -/
theorem captured_accepts {n : Nat} {P : List Byte} (hP : WholePacket P) (hn : needed P ≤ (captured n P).length) :
    Accepts (padded (cut (captured n P))) := by
  have h21 := needed_ge P
  have hne : captured n P ≠ [] := by
    intro h; rw [h] at hn; simp at hn; omega
  obtain ⟨hs, hl⟩ := seen_same n P hne
  have h0 := hs.byteAt (i := 0) (by omega)
  have h9 := hs.byteAt (i := 9) (by omega)
  have h6 := hs.byteAt (i := 6) (by omega)
  have hn2 := hs.numAt (i := 2) (by omega)
  have hn4 := hs.numAt (i := 4) (by omega)
  have hlt2 := numAt_lt P 2
  unfold roundUp4 at hl
  unfold Accepts TransportFits
  rw [h0, h9, h6, hn2, hn4, hl]
  unfold needed at hn
  rcases hP.ip with ⟨a, b, c⟩ | ⟨a, c⟩
  · left
    rw [if_pos (by omega)] at hn
    have hc : 21 ≤ (captured n P).length := by
      repeat' split at hn
      all_goals omega
    refine ⟨by omega, by omega, by omega, ?_, ?_⟩
    · intro hp
      have := hP.tcp4 a hp
      rw [if_pos hp] at hn
      omega
    · intro hp
      have := hP.udp4 a hp
      rw [if_neg (by omega), if_pos hp] at hn
      omega
  · right
    rw [if_neg (by omega)] at hn
    have hc : 41 ≤ (captured n P).length := by
      repeat' split at hn
      all_goals omega
    refine ⟨by omega, by omega, ?_, ?_⟩
    · intro hp
      have := hP.tcp6 a hp
      rw [if_pos hp] at hn
      omega
    · intro hp
      have := hP.udp6 a hp
      rw [if_neg (by omega), if_pos hp] at hn
      omega

/-- A log message of which enough was captured is well-formed. -/
theorem logged_ok {n : Nat} {l : Logged} (hl : l.Ok) (hn : needed l.packet ≤ (captured n l.packet).length) : ItemOk (l.item n) := by
  have h21 := needed_ge l.packet
  have hne : captured n l.packet ≠ [] := by
    intro h; rw [h] at hn; simp at hn; omega
  refine ⟨hl.mid, hl.hdr, ?_, ?_⟩
  · intro a ha
    rw [cutLast_append, List.mem_append] at ha
    rcases ha with ha | ha
    · obtain ⟨h1, h2, h3, h4⟩ := hl.attrs a ha
      exact ⟨h1, h3, h4, fun h => absurd h h2⟩
    · simp only [List.mem_singleton] at ha
      subst ha
      refine ⟨by show (9 : Nat) < 65536; omega, ?_, fun h => absurd h (by simp), fun _ => captured_accepts hl.packet hn⟩
      show (cut (captured n l.packet)).length + 4 < 65536
      rw [cut_length _ hne]
      have := captured_length n l.packet
      omega
  · intro a ha
    simp at ha
    rw [← ha]
    exact hne

/-- A message with one payload, its last attribute, is reported once, under its prefix. -/
theorem reported_one {q : List Byte} : ∀ {attrs : List (Nat × List Byte)} {pfx : List Byte} {ms : List NfPacket},
    (∀ a ∈ attrs, a.1 ≠ 9) → Reported pfx (attrs ++ [(9, q)]) ms →
    ∃ m, ms = [m] ∧ Describes m (((attrs.filter fun a => a.1 == 10).getLast?.map fun a => a.2.dropLast).getD pfx) q (padded q) := by
  intro attrs
  induction attrs with
  | nil =>
    intro pfx ms _ h
    rw [List.nil_append] at h
    cases h with
    | payload hd h => cases h; exact ⟨_, rfl, hd⟩
    | other h9 _ _ => exact absurd rfl h9
  | cons a attrs ih =>
    intro pfx ms hall h
    rw [List.cons_append] at h
    cases h with
    | «prefix» h =>
      rename_i p
      obtain ⟨m, rfl, hd⟩ := ih (fun a ha => hall a (by simp [ha])) h
      refine ⟨m, rfl, ?_⟩
      rw [List.filter_cons_of_pos (by rfl)]
      rcases hf : attrs.filter fun a => a.1 == 10 with _ | ⟨x, l⟩
      · rw [hf] at hd ⊢
        exact hd
      · rw [hf] at hd ⊢
        rw [List.getLast?_cons_cons]
        obtain ⟨y, hy⟩ : ∃ y, (x :: l).getLast? = some y := ⟨_, List.getLast?_eq_some_getLast (by simp)⟩
        rw [hy] at hd ⊢
        exact hd
    | payload hd h => exact absurd rfl (hall (9, _) List.mem_cons_self)
    | other h9 h10 h =>
      obtain ⟨m, rfl, hd⟩ := ih (fun a ha => hall a (by simp [ha])) h
      refine ⟨m, rfl, ?_⟩
      rw [List.filter_cons_of_neg (by simpa using h10)]
      exact hd

theorem all_reported {n : Nat} : ∀ {ls : List Logged} {ms : List NfPacket}, (∀ l ∈ ls, l.Ok) →
    (∀ l ∈ ls, needed l.packet ≤ (captured n l.packet).length) → AllReported (ls.map (Logged.item n)) ms →
    ms.length = ls.length ∧ ∀ (i : Nat) (l : Logged) (m : NfPacket), ls[i]? = some l → ms[i]? = some m →
      Describes m (prefixOf l.attrs) (cut (captured n l.packet)) l.packet := by
  intro ls
  induction ls with
  | nil =>
    intro ms _ _ h
    cases h
    exact ⟨rfl, by simp⟩
  | cons l ls ih =>
    intro ms hok hn h
    rw [List.map_cons] at h
    unfold Logged.item at h
    cases h with
    | log h h' =>
      rw [cutLast_append] at h
      have ho := hok l (by simp)
      have hnl := hn l (by simp)
      obtain ⟨m, rfl, hd⟩ := reported_one (fun a ha => (ho.attrs a ha).2.1) h
      obtain ⟨hlen, hrest⟩ := ih (fun l hl => hok l (by simp [hl])) (fun l hl => hn l (by simp [hl])) h'
      refine ⟨by simp [hlen], ?_⟩
      intro i l' m' hi hm
      cases i with
      | zero =>
        simp only [List.getElem?_cons_zero, Option.some.injEq, List.singleton_append] at hi hm
        subst hi
        subst hm
        have h21 := needed_ge l.packet
        have hne : captured n l.packet ≠ [] := by
          intro h; rw [h] at hnl; simp at hnl; omega
        exact describes_same (seen_same n l.packet hne).1 hd (by omega) (by omega)
      | succ i =>
        simp only [List.getElem?_cons_succ, List.singleton_append] at hi hm
        exact hrest i l' m' hi hm

/-- C124: a datagram of log messages about complete packets of which at least the `needed` bytes were captured is read to its end, and
each packet is reported, in order, with the addresses, protocol, ports, id and total length the packet itself has (not
just what was captured of it), under its prefix. -/
theorem C124_headers_suffice (env : Env) (hp : Polite env) (cb n : Nat) (ls : List Logged) (hok : ∀ l ∈ ls, l.Ok)
    (hn : ∀ l ∈ ls, needed l.packet ≤ (captured n l.packet).length)
    (hlen : (datagram (ls.map (Logged.item n))).length < 4294967296) (w : W) (hcb : w.st.callback = some cb) :
    ∃ w' ms, parseLog env (datagram (ls.map (Logged.item n))) w = .ok (none, w') ∧ Invoked cb ms w w' ∧
      ms.length = ls.length ∧ ∀ (i : Nat) (l : Logged) (m : NfPacket), ls[i]? = some l → ms[i]? = some m →
        Describes m (prefixOf l.attrs) (cut (captured n l.packet)) l.packet := by
  obtain ⟨w', ms, h1, h2, h3⟩ := C37_datagram_delivered env hp cb (ls.map (Logged.item n)) hlen (by
    intro i hi
    obtain ⟨l, hl, rfl⟩ := List.mem_map.mp hi
    exact logged_ok (hok l hl) (hn l hl)) w hcb
  exact ⟨w', ms, h1, h3, all_reported hok hn h2⟩

/-- C124: asking for 57 bytes or more, or for everything, is enough for every TCP and UDP packet and for every packet of more than 41 bytes;
the 64 bytes of the example program in particular are. -/
theorem C124_enough (n : Nat) (P : List Byte) (hP : WholePacket P) (hn : n = 0 ∨ 57 ≤ n)
    (h : (byteAt P 0 = 0x45 ∧ (byteAt P 9 = 6 ∨ byteAt P 9 = 17)) ∨ (byteAt P 0 / 16 = 6 ∧ (byteAt P 6 = 6 ∨ byteAt P 6 = 17)) ∨
      41 ≤ P.length) :
    needed P ≤ (captured n P).length := by
  have hc : (captured n P).length = P.length ∨ 57 ≤ (captured n P).length := by
    unfold captured
    rw [List.length_take]
    rcases hn with rfl | hn
    · rw [if_pos rfl]; omega
    · rw [if_neg (by omega)]; omega
  unfold needed
  rcases hP.ip with ⟨a, b, c⟩ | ⟨a, c⟩
  · rw [if_pos (by omega)]
    by_cases h6 : byteAt P 9 = 6
    · have := hP.tcp4 a h6
      rw [if_pos h6]; omega
    · rw [if_neg h6]
      by_cases h17 : byteAt P 9 = 17
      · have := hP.udp4 a h17
        rw [if_pos h17]; omega
      · rw [if_neg h17]; omega
  · rw [if_neg (by omega)]
    by_cases h6 : byteAt P 6 = 6
    · have := hP.tcp6 a h6
      rw [if_pos h6]; omega
    · rw [if_neg h6]
      by_cases h17 : byteAt P 6 = 17
      · have := hP.udp6 a h17
        rw [if_pos h17]; omega
      · rw [if_neg h17]; omega

/-! ### Less is not enough -/

/-- Too few bytes of a packet: the parser runs off the end. -/
def TooShort (P : List Byte) (c : Nat) : Prop :=
  (byteAt P 0 = 0x45 ∧ 17 ≤ c ∧ (byteAt P 9 = 6 ∧ c ≤ 36 ∨ byteAt P 9 = 17 ∧ c ≤ 24)) ∨
  (byteAt P 0 / 16 = 6 ∧ 0 < c ∧ (c ≤ 36 ∨ byteAt P 6 = 6 ∧ c ≤ 56 ∨ byteAt P 6 = 17 ∧ c ≤ 44))

theorem byteAt_getElem? {B : List Byte} {i : Nat} : byteAt B i = (B[i]?.getD 0).toNat := rfl

theorem captured_crashes {n : Nat} {P : List Byte} (hP : WholePacket P) (h : TooShort P (captured n P).length) :
    Crashes (padded (cut (captured n P))) false := by
  have hpos : 0 < (captured n P).length := by rcases h with h | h <;> omega
  have hne : captured n P ≠ [] := List.length_pos_iff.mp hpos
  obtain ⟨hs, hl⟩ := seen_same n P hne
  have hlt2 := numAt_lt P 2
  unfold roundUp4 at hl
  rcases h with ⟨h45, h17, h⟩ | ⟨h6, _, h⟩
  · right; left
    have h0 := hs.byteAt (i := 0) (by omega)
    have h9 := hs.byteAt (i := 9) (by omega)
    have hn2 := hs.numAt (i := 2) (by omega)
    rw [h0, h9, hn2, hl]
    rcases hP.ip with ⟨a, b, c⟩ | ⟨a, c⟩
    · refine ⟨by omega, by omega, by omega, by simp, ?_⟩
      rcases h with ⟨h, hc⟩ | ⟨h, hc⟩
      · have := hP.tcp4 a h
        exact .inl ⟨h, by omega, .inl (by omega)⟩
      · have := hP.udp4 a h
        exact .inr ⟨h, by omega, by omega⟩
    · omega
  · right; right
    have h0 : byteAt (padded (cut (captured n P))) 0 / 16 ≠ 4 := by
      by_cases h1 : 1 < (captured n P).length
      · rw [hs.byteAt (i := 0) (by omega)]; omega
      · have h4 : (captured n P).length % 4 ≠ 0 := by omega
        have hcut : cut (captured n P) = captured n P := by unfold cut; rw [if_neg h4]
        rw [hcut, (padded_same _).byteAt hpos, (captured_same n P).byteAt hpos]
        omega
    refine ⟨by intro h; rw [h] at hl; simp at hl; omega, h0, ?_⟩
    rcases hP.ip with ⟨a, b, c⟩ | ⟨a, c⟩
    · omega
    · by_cases h40 : (captured n P).length ≤ 36
      · exact .inl (by omega)
      · right; right
        have h66 := hs.byteAt (i := 6) (by omega)
        have hn4 := hs.numAt (i := 4) (by omega)
        rw [h66, hn4, hl]
        refine ⟨rfl, ?_⟩
        rcases h with h | ⟨h, hc⟩ | ⟨h, hc⟩
        · omega
        · have := hP.tcp6 a h
          exact .inl ⟨h, by omega, by omega⟩
        · have := hP.udp6 a h
          exact .inr ⟨h, by omega, by omega⟩

/-- The body of a log message whose last attribute is the payload, cut by a byte. -/
theorem body_cut_last {hdr : List Byte} (hh : hdr.length = 4) (attrs : List (Nat × List Byte)) (p : List Byte) (hne : p ≠ []) :
    (hdr ++ encodeAttrs .little (attrs ++ [(9, p)])).dropLast.drop 4 =
      encodeAttrs .little attrs ++ (attrHdr 9 p.length ++ (padded p).dropLast) := by
  have hpos : 0 < (padded p).length := by
    have := List.length_pos_iff.mpr hne
    simp; unfold roundUp4; omega
  have h1 : hdr ++ encodeAttrs .little (attrs ++ [(9, p)]) =
      hdr ++ (encodeAttrs .little attrs ++ (attrHdr 9 p.length ++ padded p)) := by
    simp [encodeAttrs, encodeAttr_split]
  have h2 : padded p ≠ [] := List.length_pos_iff.mp hpos
  rw [h1, List.dropLast_append_of_ne_nil (by simp [h2]), List.drop_left' hh,
    List.dropLast_append_of_ne_nil (by simp [h2]), List.dropLast_append_of_ne_nil h2]

/-- C125 is violated for small copy ranges: a log of a complete packet of which too little was captured crashes the
process, after whatever messages, before whatever bytes. -/
theorem C125_too_short_violated (env : Env) (hp : Polite env) (cb n : Nat) (items : List Item) (l : Logged) (rest : List Byte)
    (hl : l.Ok) (hs : TooShort l.packet (captured n l.packet).length)
    (hlen : (datagram items ++ ((l.item n).bytes ++ rest)).length < 4294967296)
    (hall : ∀ i ∈ items, ItemOk i) (w : W) (hcb : w.st.callback = some cb) :
    parseLog env (datagram items ++ ((l.item n).bytes ++ rest)) w = .panic := by
  have hpos : 0 < (captured n l.packet).length := by rcases hs with h | h <;> omega
  have hcne : captured n l.packet ≠ [] := List.length_pos_iff.mp hpos
  have hclen := captured_length n l.packet
  have hne : l.hdr ++ encodeAttrs .little (l.attrs ++ [(9, captured n l.packet)]) ≠ [] := by
    intro h
    have := congrArg List.length h
    rw [List.length_append, hl.hdr] at this
    simp at this
  obtain ⟨w1, ms, hr, hi, he⟩ := after_items hp hl.mid hne hlen hall w hcb
  have hb := body_cut_last hl.hdr l.attrs (captured n l.packet) hcne
  obtain ⟨m2, w2, ms2, hl2, hi2, hr2⟩ := parse_attrs hp l.attrs (attrHdr 9 (captured n l.packet).length ++ (padded (captured n l.packet)).dropLast)
    NfPacket.zero w1 (fun a ha => by
      obtain ⟨h1, h2, h3, h4⟩ := hl.attrs a ha
      exact ⟨h1, h3, h4, fun h => absurd h h2⟩) (by rw [hi.1]; exact hcb)
  have hpp : parsePacket env (l.hdr ++ encodeAttrs .little (l.attrs ++ [(9, captured n l.packet)])).dropLast w1 = .panic := by
    unfold parsePacket
    rw [hb, hl2, loop_unfold, tlv_header]
    unfold attrStep
    simp only [len_sub4, align16_toNat (show (captured n l.packet).length + 4 < 65536 by omega)]
    rw [if_neg (by decide), if_pos (by rfl)]
    have hrd : readPayload (roundUp4 (captured n l.packet).length) (padded (captured n l.packet)).dropLast = padded (cut (captured n l.packet)) := by
      rw [readPayload_short (by simp), ← padded_cut _ hcne]
      have : roundUp4 (captured n l.packet).length - (padded (captured n l.packet)).dropLast.length = 1 := by
        simp; unfold roundUp4; omega
      rw [this]; rfl
    rw [hrd, deliver_crash env (captured_crashes hl.packet hs)]
    rfl
  rw [hpp] at he
  exact he

/-- Only just the IP header, or a little less, of a packet that is neither TCP nor UDP. -/
def BareHeader (P : List Byte) (c : Nat) : Prop :=
  (byteAt P 0 = 0x45 ∧ byteAt P 9 ≠ 6 ∧ byteAt P 9 ≠ 17 ∧ 17 ≤ c ∧ c ≤ 20) ∨
  (byteAt P 0 / 16 = 6 ∧ byteAt P 6 ≠ 6 ∧ byteAt P 6 ≠ 17 ∧ 37 ≤ c ∧ c ≤ 40)

theorem seen_last {Q : List Byte} (hne : Q ≠ []) : (padded (cut Q)).getLast? = some 0 := by
  rw [← padded_cut Q hne]
  simp

theorem bare_accepts {n : Nat} {P : List Byte} (h : BareHeader P (captured n P).length) :
    Accepts (padded (cut (captured n P))) := by
  have hpos : 0 < (captured n P).length := by rcases h with h | h <;> omega
  obtain ⟨hs, hl⟩ := seen_same n P (List.length_pos_iff.mp hpos)
  unfold roundUp4 at hl
  unfold Accepts TransportFits
  rcases h with ⟨a, b, c, d, e⟩ | ⟨a, b, c, d, e⟩
  · left
    rw [hs.byteAt (i := 0) (by omega), hs.byteAt (i := 9) (by omega), hl]
    exact ⟨by omega, by omega, by omega, fun h => absurd h b, fun h => absurd h c⟩
  · right
    rw [hs.byteAt (i := 0) (by omega), hs.byteAt (i := 6) (by omega), hl]
    exact ⟨by omega, by omega, fun h => absurd h b, fun h => absurd h c⟩

/-- C125 is violated for small copy ranges: of a packet that is neither TCP nor UDP, when only its IP header (or up to three bytes less) is captured,
a destination address is reported whose last byte is 0, whatever the packet's is. -/
theorem C125_wrong_destination_violated (env : Env) (hp : Polite env) (cb n : Nat) (l : Logged) (hl : l.Ok)
    (hb : BareHeader l.packet (captured n l.packet).length) (hlen : (l.item n).bytes.length < 4294967296)
    (w : W) (hcb : w.st.callback = some cb) :
    ∃ w' m, parseLog env (l.item n).bytes w = .ok (none, w') ∧ Invoked cb [m] w w' ∧ m.dstIP.getLast? = some 0 := by
  have hpos : 0 < (captured n l.packet).length := by rcases hb with h | h <;> omega
  have hne : captured n l.packet ≠ [] := List.length_pos_iff.mp hpos
  have hclen := captured_length n l.packet
  obtain ⟨hs, hsl⟩ := seen_same n l.packet hne
  have hok : MsgOk l.hdr (l.attrs ++ [(9, captured n l.packet)]) := by
    refine ⟨hl.hdr, ?_, ?_⟩
    · intro a ha
      rw [cutLast_append, List.mem_append] at ha
      rcases ha with ha | ha
      · obtain ⟨h1, h2, h3, h4⟩ := hl.attrs a ha
        exact ⟨h1, h3, h4, fun h => absurd h h2⟩
      · simp only [List.mem_singleton] at ha
        subst ha
        refine ⟨by show (9 : Nat) < 65536; omega, ?_, fun h => absurd h (by simp), fun _ => bare_accepts hb⟩
        show (cut (captured n l.packet)).length + 4 < 65536
        rw [cut_length _ hne]
        omega
    · intro a ha
      simp at ha
      rw [← ha]
      exact hne
  obtain ⟨w', ms, h1, h2, h3⟩ := one_message env hp cb l.mid l.hdr hl.mid _ hok hlen w hcb
  rw [cutLast_append] at h2
  obtain ⟨m, rfl, _, _, hd⟩ := reported_one (fun a ha => (hl.attrs a ha).2.1) h2
  refine ⟨w', m, h1, h3, ?_⟩
  have hlast := seen_last hne
  unfold roundUp4 at hsl
  have key : ∀ k j, (padded (cut (captured n l.packet))).length = k + j → 0 < j →
      (((padded (cut (captured n l.packet))).drop k).take j).getLast? = some 0 := by
    intro k j hk hj
    rw [List.take_of_length_le (by simp only [List.length_drop]; omega), List.getLast?_drop, if_neg (by omega)]
    exact hlast
  rcases hd with ⟨d0, _, _, _, dd, _⟩ | ⟨⟨x, d0, dx⟩, _, _, _, dd, _⟩
  · rcases hb with ⟨a, b, c, d, e⟩ | ⟨a, b, c, d, e⟩
    · rw [← dd]
      exact key 16 4 (by omega) (by omega)
    · have := hs.byteAt (i := 0) (by omega)
      rw [byteAt_getElem?, d0] at this
      simp at this
      omega
  · rcases hb with ⟨a, b, c, d, e⟩ | ⟨a, b, c, d, e⟩
    · have := hs.byteAt (i := 0) (by omega)
      rw [byteAt_getElem?, d0] at this
      simp at this
      omega
    · rw [← dd]
      exact key 24 16 (by omega) (by omega)

/-! ### Concrete cases -/

/-- A TCP segment of 44 bytes from 10.0.0.1:1234 to 10.0.0.2:80. -/
def tcp44 : List Byte :=
  [0x45, 0, 0, 44, 0, 9, 0, 0, 64, 6, 0, 0, 10, 0, 0, 1, 10, 0, 0, 2, 4, 210, 0, 80, 0, 0, 0, 1, 0, 0, 0, 0, 0x50, 2, 1, 1, 0, 0, 0, 0,
    1, 2, 3, 4]

theorem tcp44_whole : WholePacket tcp44 := ⟨by decide, by decide, by decide, by decide, by decide⟩
theorem icmp_whole : WholePacket icmp := ⟨by decide, by decide, by decide, by decide, by decide⟩

/-- Its log under the prefix "ab". -/
def tcpLog : Logged := ⟨List.replicate 10 0, [2, 0, 0, 5], [(10, [0x61, 0x62, 0])], tcp44⟩

theorem tcpLog_ok : tcpLog.Ok := by
  refine ⟨rfl, rfl, ?_, tcp44_whole⟩
  intro a ha
  simp only [tcpLog, List.mem_singleton] at ha
  subst ha
  simp

/-- C124: of the 44 bytes 37 are captured, of which the last is part of the checksum; the report has the ports. -/
theorem C124_example : ∃ w' m, parseLog someEnv (datagram [tcpLog.item 37]) readWorld = .ok (none, w') ∧
    Invoked 1 [m] readWorld w' ∧ m.prefix' = [0x61, 0x62] ∧ m.payload.length = 37 ∧ m.length = 44 ∧ m.srcPort = 1234 ∧ m.dstPort = 80 := by
  obtain ⟨w', ms, h1, h2, h3, h4⟩ := C124_headers_suffice someEnv someEnv_quiet.toPolite 1 37 [tcpLog]
    (by simp [tcpLog_ok]) (by simp only [List.mem_singleton, forall_eq]; decide) (by decide) readWorld rfl
  obtain ⟨m, rfl⟩ : ∃ m, ms = [m] := by
    rcases ms with _ | ⟨m, _ | _⟩
    · simp at h3
    · exact ⟨m, rfl⟩
    · simp at h3
  obtain ⟨a, b, hd⟩ := h4 0 tcpLog m rfl rfl
  refine ⟨w', m, h1, h2, a, by rw [b]; decide, ?_⟩
  rcases hd with ⟨_, hpr, hl, _, _, _, hports, _⟩ | ⟨⟨x, hx, hne⟩, _⟩
  · have hp6 : m.protocol = 6 := by simpa [tcpLog, tcp44] using hpr.symm
    obtain ⟨hs, hd⟩ := hports (.inl (by rw [hp6]; rfl))
    have hl' : be16 tcp44 2 = some 44 := by decide
    have hs' : be16 tcp44 20 = some 1234 := by decide
    have hd' : be16 tcp44 (20 + 2) = some 80 := by decide
    have hl2 := hl'.symm.trans hl
    have hs2 := hs'.symm.trans hs
    have hd2 := hd'.symm.trans hd
    refine ⟨?_, ?_, ?_⟩
    · apply BitVec.eq_of_toNat_eq; simpa using hl2.symm
    · apply BitVec.eq_of_toNat_eq; simpa using hs2.symm
    · apply BitVec.eq_of_toNat_eq; simpa using hd2.symm
  · have : tcpLog.packet[0]? = some 0x45 := by decide
    rw [this] at hx
    simp only [Option.some.injEq] at hx
    subst hx
    exact absurd rfl hne

/-- C125: with 36 bytes the same packet crashes the process. -/
theorem C125_too_short_example : parseLog someEnv (datagram [] ++ ((tcpLog.item 36).bytes ++ [])) readWorld = .panic :=
  C125_too_short_violated someEnv someEnv_quiet.toPolite 1 36 [] tcpLog [] tcpLog_ok (by unfold TooShort; decide) (by decide) (by simp)
    readWorld rfl

/-- The log of an ICMP packet to 10.0.0.2. -/
def icmpLog : Logged := ⟨List.replicate 10 0, [2, 0, 0, 5], [], icmp⟩

/-- C125: with 20 bytes the ICMP packet to 10.0.0.2 is reported as one to 10.0.0.0. -/
theorem C125_wrong_destination_example : ∃ w' m, parseLog someEnv (icmpLog.item 20).bytes readWorld = .ok (none, w') ∧
    Invoked 1 [m] readWorld w' ∧ m.dstIP.getLast? = some 0 ∧ (icmp.drop 16).take 4 = [10, 0, 0, 2] := by
  obtain ⟨w', m, a, b, c⟩ := C125_wrong_destination_violated someEnv someEnv_quiet.toPolite 1 20 icmpLog
    ⟨rfl, rfl, by simp [icmpLog], icmp_whole⟩ (by unfold BareHeader; decide) (by decide) readWorld rfl
  exact ⟨w', m, a, b, c, by decide⟩

end Verif.Props.Log
