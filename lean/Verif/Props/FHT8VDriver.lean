import Verif.Model.FHT8VDriver
import Verif.Props.FHT8V

/-!
# C91–C93: the FHT8V driver's transmissions
-/

namespace OTR.Props
open OTR.FHT8V OTR.FS20

/-! ### C91 -/

/-- In sync, ready to send, with the command for the current codes and value in the buffer. -/
structure Ready (c : Cfg) (s : Drv) : Prop where
  synced : s.synced = true
  radio : s.radio = true
  due : 1 ≤ s.hsNext ∧ s.hsNext < 256
  frame : ∃ pre, (pre = [] ∨ pre = c.preamble) ∧
    s.frame = pre ++ createBody ⟨s.hc1, s.hc2, 0, 0x26, UInt8.ofNat (percentTo255 s.value)⟩

theorem body_ne_nil (m : Msg) : createBody m ≠ [] := by
  intro h
  have h1 := byteBits_len m.hc1
  have := body_len m
  rw [h] at this; simp at this; omega

theorem Ready.tx {c : Cfg} {s : Drv} (h : Ready c s) : s.tx = [s.frame] := by
  obtain ⟨pre, -, e⟩ := h.frame
  have : s.frame ≠ [] := by
    rw [e]; intro h'; exact body_ne_nil _ (List.append_eq_nil_iff.1 h').2
  simp [Drv.tx, this, h.radio]

/-- The fields a minor cycle in sync does not touch. -/
def Same (s t : Drv) : Prop := t.hc1 = s.hc1 ∧ t.hc2 = s.hc2 ∧ t.radio = s.radio ∧ t.synced = s.synced ∧ t.value = s.value ∧ t.frame = s.frame

theorem Ready.of_same {c : Cfg} {s t : Drv} (h : Ready c s) (e : Same s t) (hd : 1 ≤ t.hsNext ∧ t.hsNext < 256) : Ready c t := by
  obtain ⟨e1, e2, e3, e4, e5, e6⟩ := e
  refine ⟨e4.trans h.synced, e3.trans h.radio, hd, ?_⟩
  rw [e6, e1, e2, e5]; exact h.frame

theorem nexts_ready (c : Cfg) (hc : c.maxHSC ≤ 100) (rnd : Nat → Byte) (k : Nat) (s : Drv) (h : Ready c s) (hk : s.hsNext ≤ k)
    (hm : s.hsc + k = c.maxHSC) :
    (s.nexts c rnd k).2 = [(s.hsc + s.hsNext, s.frame)] ∧ Same s (s.nexts c rnd k).1 ∧
    (s.nexts c rnd k).1.hsNext = gapHS s.hc2 - (c.maxHSC - (s.hsc + s.hsNext)) := by
  induction k generalizing s with
  | zero => have := h.due; omega
  | succ k ih =>
    have hd := h.due
    obtain ⟨t, ht⟩ : ∃ t, t = { s with hsc := s.hsc + 1, hsNext := s.hsNext - 1 } := ⟨_, rfl⟩
    have d : dec8 s.hsNext = s.hsNext - 1 := by unfold dec8; omega
    have htx : t.tx = [s.frame] := by rw [← h.tx, ht]; rfl
    by_cases h1 : s.hsNext = 1
    · have e : s.pollNext c (rnd (s.hsc + 1)) =
          (false, { t with isOpen := decide (10 ≤ t.value), hsNext := gapHSAt c t.hc2 t.hsc }, t.tx) := by
        subst ht
        simp [Drv.pollNext, h.synced, d, h1, Drv.valveSettingTX]
        rfl
      simp only [Drv.nexts, e, htx]
      subst ht
      simp [Same, gapHSAt, h1]
    · have e : s.pollNext c (rnd (s.hsc + 1)) = (true, t, []) := by
        subst ht
        have : s.hsNext - 1 ≠ 0 := by omega
        simp [Drv.pollNext, h.synced, d, this]
      simp only [Drv.nexts, e, if_true]
      have hs : Same s t := by subst ht; exact ⟨rfl, rfl, rfl, rfl, rfl, rfl⟩
      have hr : Ready c t := h.of_same hs (by subst ht; dsimp only; omega)
      have hh : t.hsc = s.hsc + 1 ∧ t.hsNext = s.hsNext - 1 := by subst ht; exact ⟨rfl, rfl⟩
      obtain ⟨a1, a2, a3⟩ := ih t hr (by omega) (by omega)
      refine ⟨?_, ?_, ?_⟩
      · simp only [a1, hh.1, hh.2, hs.2.2.2.2.2, List.map_nil, List.nil_append]
        congr 2; omega
      · obtain ⟨b1, b2, b3, b4, b5, b6⟩ := a2
        obtain ⟨c1, c2, c3, c4, c5, c6⟩ := hs
        exact ⟨b1.trans c1, b2.trans c2, b3.trans c3, b4.trans c4, b5.trans c5, b6.trans c6⟩
      · rw [a3, hs.2.1, hh.1, hh.2]; congr 2; omega

/-- One minor cycle in sync: send in this cycle exactly if the count says so, and at that slot. -/
theorem cycle_ready (c : Cfg) (hc : c.maxHSC ≤ 100) (rnd : Nat → Byte) (s : Drv) (h : Ready c s) :
    Ready c (s.cycle c rnd).1 ∧ Same s (s.cycle c rnd).1 ∧
    (s.hsNext > c.maxHSC + 1 → (s.cycle c rnd).2 = [] ∧ (s.cycle c rnd).1.hsNext = s.hsNext - (c.maxHSC + 1)) ∧
    (s.hsNext ≤ c.maxHSC + 1 → (s.cycle c rnd).2 = [(s.hsNext - 1, s.frame)] ∧
      (s.cycle c rnd).1.hsNext + c.maxHSC + 1 = gapHS s.hc2 + s.hsNext) := by
  have hd := h.due
  have hg : 230 ≤ gapHS s.hc2 ∧ gapHS s.hc2 ≤ 237 := by unfold gapHS; omega
  have d : dec8 s.hsNext = s.hsNext - 1 := by unfold dec8; omega
  by_cases h1 : s.hsNext > c.maxHSC + 1
  · obtain ⟨t, ht⟩ : ∃ t, t = { s with hsc := 0, hsNext := s.hsNext - (c.maxHSC + 1) } := ⟨_, rfl⟩
    have e : s.pollFirst c (rnd 0) = (false, t, []) := by
      subst ht; simp [Drv.pollFirst, h.synced, h1]
    have e2 : s.cycle c rnd = (t, []) := by simp [Drv.cycle, e]
    rw [e2]
    have hs : Same s t := by subst ht; exact ⟨rfl, rfl, rfl, rfl, rfl, rfl⟩
    have hn : t.hsNext = s.hsNext - (c.maxHSC + 1) := by subst ht; rfl
    have hr : Ready c t := h.of_same hs (by omega)
    exact ⟨hr, hs, fun _ => ⟨rfl, hn⟩, fun h' => absurd h1 (by omega)⟩
  · by_cases h2 : s.hsNext = 1
    · obtain ⟨t, ht⟩ : ∃ t, t = { s with hsc := 0, hsNext := gapHSAt c s.hc2 0, isOpen := decide (10 ≤ s.value) } := ⟨_, rfl⟩
      have e : s.pollFirst c (rnd 0) = (false, t, [s.frame]) := by
        have htx : Drv.tx { s with hsc := 0, hsNext := 0 } = [s.frame] := by rw [← h.tx]; rfl
        have d0 : dec8 s.hsNext = 0 := by rw [h2]; rfl
        have h1' : ¬ (c.maxHSC + 1 < s.hsNext) := h1
        have hsy := h.synced
        subst ht
        simp only [Drv.pollFirst, d0, Drv.valveSettingTX]
        rw [if_neg (by simp [hsy]), if_neg h1', if_pos trivial, htx]
      have e2 : s.cycle c rnd = (t, [(0, s.frame)]) := by simp [Drv.cycle, e]
      rw [e2]
      have hs : Same s t := by subst ht; exact ⟨rfl, rfl, rfl, rfl, rfl, rfl⟩
      have hn : t.hsNext = gapHS s.hc2 - c.maxHSC := by subst ht; simp [gapHSAt]
      have hr : Ready c t := h.of_same hs (by omega)
      refine ⟨hr, hs, fun h' => absurd h' h1, fun _ => ⟨by rw [h2], ?_⟩⟩
      dsimp only; omega
    · obtain ⟨t, ht⟩ : ∃ t, t = { s with hsc := 0, hsNext := s.hsNext - 1 } := ⟨_, rfl⟩
      have e : s.pollFirst c (rnd 0) = (true, t, []) := by
        have : s.hsNext - 1 ≠ 0 := by omega
        have h1' : ¬ (c.maxHSC + 1 < s.hsNext) := h1
        subst ht; simp [Drv.pollFirst, h.synced, d, h1', this]
      have hs : Same s t := by subst ht; exact ⟨rfl, rfl, rfl, rfl, rfl, rfl⟩
      have hh : t.hsc = 0 ∧ t.hsNext = s.hsNext - 1 := by subst ht; exact ⟨rfl, rfl⟩
      have hr : Ready c t := h.of_same hs (by omega)
      obtain ⟨a1, a2, a3⟩ := nexts_ready c hc rnd c.maxHSC t hr (by omega) (by omega)
      have e2 : s.cycle c rnd = t.nexts c rnd c.maxHSC := by simp [Drv.cycle, e]
      rw [e2]
      have hs2 : Same s (t.nexts c rnd c.maxHSC).1 := by
        obtain ⟨b1, b2, b3, b4, b5, b6⟩ := a2
        obtain ⟨c1, c2, c3, c4, c5, c6⟩ := hs
        exact ⟨b1.trans c1, b2.trans c2, b3.trans c3, b4.trans c4, b5.trans c5, b6.trans c6⟩
      have hn : (t.nexts c rnd c.maxHSC).1.hsNext + c.maxHSC + 1 = gapHS s.hc2 + s.hsNext := by
        rw [a3, hs.2.1, hh.1, hh.2]; omega
      refine ⟨h.of_same hs2 (by omega), hs2, fun h' => absurd h' h1, fun _ => ⟨?_, hn⟩⟩
      rw [a1, hh.1, hh.2, hs.2.2.2.2.2]; simp

theorem set_ready (c : Cfg) (s : Drv) (v : Nat) (h : Ready c s) :
    Ready c (s.set c v) ∧ (s.set c v).hsNext = s.hsNext ∧ (s.set c v).hc1 = s.hc1 ∧ (s.set c v).hc2 = s.hc2 ∧
    (s.set c v).value = (if v > 100 then s.value else v) := by
  unfold Drv.set
  by_cases hv : v > 100
  · rw [if_pos hv, if_pos hv]; exact ⟨h, rfl, rfl, rfl, rfl⟩
  · rw [if_neg hv, if_neg hv]
    refine ⟨⟨h.synced, h.radio, h.due, ?_⟩, rfl, rfl, rfl, rfl⟩
    by_cases h10 : 10 ≤ v
    · exact ⟨c.preamble, Or.inr rfl, by simp [Drv.createSetFrame, h10]⟩
    · exact ⟨[], Or.inl rfl, by simp [Drv.createSetFrame, h10]⟩

theorem sets_ready (c : Cfg) (vs : List Nat) : ∀ (s : Drv), Ready c s →
    Ready c (vs.foldl (fun s v => Drv.set c s v) s) ∧ (vs.foldl (fun s v => Drv.set c s v) s).hsNext = s.hsNext ∧
    (vs.foldl (fun s v => Drv.set c s v) s).hc1 = s.hc1 ∧ (vs.foldl (fun s v => Drv.set c s v) s).hc2 = s.hc2 ∧
    (vs.foldl (fun s v => Drv.set c s v) s).value = vs.foldl (fun x v => if v > 100 then x else v) s.value := by
  induction vs with
  | nil => intro s h; exact ⟨h, rfl, rfl, rfl, rfl⟩
  | cons v vs ih =>
    intro s h
    obtain ⟨h1, h2, h3, h4, h5⟩ := set_ready c s v h
    obtain ⟨g1, g2, g3, g4, g5⟩ := ih _ h1
    rw [h5] at g5
    exact ⟨g1, g2.trans h2, g3.trans h3, g4.trans h4, g5⟩

/-- The percentage in force before cycle `n`: the last acceptable value set. -/
def valueAt (v0 : Nat) (vals : Nat → List Nat) : Nat → Nat
  | 0 => (vals 0).foldl (fun x v => if v > 100 then x else v) v0
  | n + 1 => (vals (n + 1)).foldl (fun x v => if v > 100 then x else v) (valueAt v0 vals n)

theorem cycles_inv (c : Cfg) (hc : c.maxHSC ≤ 100) (vals : Nat → List Nat) (rnd : Nat → Nat → Byte) (s : Drv)
    (h : Ready c s) (n : Nat) :
    Ready c (s.cycles c vals rnd n).1 ∧ (s.cycles c vals rnd n).1.hc1 = s.hc1 ∧ (s.cycles c vals rnd n).1.hc2 = s.hc2 ∧
    (s.cycles c vals rnd n).1.value = (match n with | 0 => s.value | n + 1 => valueAt s.value vals n) ∧
    ∃ k, n * (c.maxHSC + 1) + (s.cycles c vals rnd n).1.hsNext = s.hsNext + k * gapHS s.hc2 ∧
      (s.cycles c vals rnd n).2.map Prod.fst = (List.range k).map (fun i => s.hsNext - 1 + i * gapHS s.hc2) ∧
      (∀ i, i < k → s.hsNext - 1 + i * gapHS s.hc2 < n * (c.maxHSC + 1)) := by
  induction n with
  | zero => exact ⟨h, rfl, rfl, rfl, 0, by simp [Drv.cycles], rfl, by intro i hi; omega⟩
  | succ n ih =>
    obtain ⟨r, e1, e2, ev, k, hk, hm, hb⟩ := ih
    obtain ⟨g1, g2, g3, g4, g5⟩ := sets_ready c (vals n) _ r
    obtain ⟨S, hS⟩ : ∃ S, S = (vals n).foldl (fun s v => Drv.set c s v) (s.cycles c vals rnd n).1 := ⟨_, rfl⟩
    rw [← hS] at g1 g2 g3 g4 g5
    obtain ⟨a1, a2, a3, a4⟩ := cycle_ready c hc (rnd n) S g1
    have eq : s.cycles c vals rnd (n + 1) = ((S.cycle c (rnd n)).1, (s.cycles c vals rnd n).2 ++
        (S.cycle c (rnd n)).2.map fun x => (n * (c.maxHSC + 1) + x.1, x.2)) := by
      rw [hS]; rfl
    rw [eq]
    have hmul : (n + 1) * (c.maxHSC + 1) = n * (c.maxHSC + 1) + (c.maxHSC + 1) := Nat.succ_mul _ _
    have hd := g1.due
    refine ⟨a1, a2.1.trans (g3.trans e1), a2.2.1.trans (g4.trans e2), ?_, ?_⟩
    · show _ = valueAt s.value vals n
      rw [a2.2.2.2.2.1, g5]
      cases n with
      | zero => simp only at ev; rw [ev]; rfl
      | succ m => simp only at ev; rw [ev]; rfl
    · by_cases hh : S.hsNext > c.maxHSC + 1
      · obtain ⟨b1, b2⟩ := a3 hh
        refine ⟨k, ?_, ?_, ?_⟩
        · dsimp only; rw [b2, hmul]; omega
        · dsimp only; rw [b1]; simpa using hm
        · intro i hi; have := hb i hi; omega
      · obtain ⟨b1, b2⟩ := a4 (by omega)
        have hg : (k + 1) * gapHS s.hc2 = k * gapHS s.hc2 + gapHS s.hc2 := Nat.succ_mul _ _
        have hgap : gapHS S.hc2 = gapHS s.hc2 := by rw [g4, e2]
        refine ⟨k + 1, ?_, ?_, ?_⟩
        · dsimp only; rw [hmul, hg]; omega
        · dsimp only
          rw [b1, List.map_append, hm, List.range_succ, List.map_append]
          simp only [List.map_cons, List.map_nil]
          congr 2
          have := h.due
          omega
        · intro i hi
          by_cases hik : i < k
          · have := hb i hik; omega
          · have : i = k := by omega
            subst this
            have := h.due
            omega

/-- **C91.** Once in sync, transmissions are exactly periodic: over any number of minor cycles, whatever percentages are
set meanwhile, the half-second slots with a transmission are those at `t0, t0+gap, t0+2gap, …`, where `t0` is
the slot already due and the gap is 115s to 118.5s depending only on the second house code. -/
theorem C91_periodic (c : Cfg) (hc : c.maxHSC = 1 ∨ c.maxHSC = 3) (vals : Nat → List Nat) (rnd : Nat → Nat → Byte) (s : Drv)
    (h : Ready c s) (n t : Nat) :
    (t ∈ (s.cycles c vals rnd n).2.map Prod.fst) ↔
      t < n * (c.maxHSC + 1) ∧ ∃ k, t = (s.hsNext - 1) + k * (230 + s.hc2.toNat % 8) := by
  obtain ⟨-, -, -, -, k, hk, hm, hb⟩ := cycles_inv c (by omega) vals rnd s h n
  have hr := (cycles_inv c (by omega) vals rnd s h n).1.due
  have hg : gapHS s.hc2 = 230 + s.hc2.toNat % 8 := by unfold gapHS; omega
  rw [hg] at hk hm hb
  rw [hm]
  simp only [List.mem_map, List.mem_range]
  constructor
  · rintro ⟨i, hi, rfl⟩; exact ⟨hb i hi, i, rfl⟩
  · rintro ⟨ht, i, rfl⟩
    refine ⟨i, ?_, rfl⟩
    apply Classical.byContradiction
    intro hik
    have : k * (230 + s.hc2.toNat % 8) ≤ i * (230 + s.hc2.toNat % 8) := Nat.mul_le_mul_right _ (by omega)
    have := h.due
    omega

/-- **C91.** No slot carries two transmissions. -/
theorem C91_no_repeat (c : Cfg) (hc : c.maxHSC = 1 ∨ c.maxHSC = 3) (vals : Nat → List Nat) (rnd : Nat → Nat → Byte) (s : Drv)
    (h : Ready c s) (n : Nat) : ((s.cycles c vals rnd n).2.map Prod.fst).Nodup := by
  obtain ⟨-, -, -, -, k, hk, hm, hb⟩ := cycles_inv c (by omega) vals rnd s h n
  have hg : 230 ≤ gapHS s.hc2 := by unfold gapHS; omega
  rw [hm]
  unfold List.Nodup
  rw [List.pairwise_map]
  refine List.Pairwise.imp ?_ List.pairwise_lt_range
  intro i j hij e
  have : i * gapHS s.hc2 + gapHS s.hc2 ≤ j * gapHS s.hc2 := by
    rw [← Nat.succ_mul]; exact Nat.mul_le_mul_right _ hij
  omega

/-! ### C92 -/

/-- **C92.** In sync, what is transmitted during cycle `n` decodes at the valve to: this unit's house codes, "set valve",
and the last acceptable percentage set before that cycle. -/
theorem C92_content (c : Cfg) (hc : c.maxHSC = 1 ∨ c.maxHSC = 3) (vals : Nat → List Nat) (rnd : Nat → Nat → Byte) (s : Drv)
    (h : Ready c s) (n : Nat) (slot : Nat) (f : Bytes)
    (hf : (slot, f) ∈ (s.cycles c vals rnd n).2) :
    ∃ pre body j, f = pre ++ body ∧ (pre = [] ∨ pre = c.preamble) ∧ j < n ∧
      j = slot / (c.maxHSC + 1) ∧
      ∀ tail, decodeStream (body ++ tail) =
        .ok (⟨s.hc1, s.hc2, 0, 0x26, UInt8.ofNat (percentTo255 (valueAt s.value vals j))⟩, body.length) := by
  induction n with
  | zero => simp [Drv.cycles] at hf
  | succ n ih =>
    obtain ⟨r, e1, e2, ev, -⟩ := cycles_inv c (by omega) vals rnd s h n
    obtain ⟨g1, g2, g3, g4, g5⟩ := sets_ready c (vals n) _ r
    obtain ⟨S, hS⟩ : ∃ S, S = (vals n).foldl (fun s v => Drv.set c s v) (s.cycles c vals rnd n).1 := ⟨_, rfl⟩
    rw [← hS] at g1 g2 g3 g4 g5
    have eq : (s.cycles c vals rnd (n + 1)).2 = (s.cycles c vals rnd n).2 ++
        (S.cycle c (rnd n)).2.map fun x => (n * (c.maxHSC + 1) + x.1, x.2) := by
      rw [hS]; rfl
    rw [eq, List.mem_append] at hf
    rcases hf with hf | hf
    · obtain ⟨pre, body, j, h1, h2, h3, h4⟩ := ih hf
      exact ⟨pre, body, j, h1, h2, by omega, h4⟩
    · obtain ⟨-, -, a3, a4⟩ := cycle_ready c (by omega) (rnd n) S g1
      by_cases hh : S.hsNext > c.maxHSC + 1
      · rw [(a3 hh).1] at hf; simp at hf
      · rw [(a4 (by omega)).1] at hf
        simp only [List.map_cons, List.map_nil, List.mem_singleton, Prod.mk.injEq] at hf
        obtain ⟨rfl, rfl⟩ := hf
        obtain ⟨pre, hp, ef⟩ := g1.frame
        have hval : S.value = valueAt s.value vals n := by
          rw [g5]
          cases n with
          | zero => simp only at ev; rw [ev]; rfl
          | succ m => simp only at ev; rw [ev]; rfl
        refine ⟨pre, _, n, ef, hp, by omega, ?_, ?_⟩
        · have := g1.due
          rw [Nat.mul_comm, Nat.mul_add_div (by omega), Nat.div_eq_of_lt (by omega)]; omega
        · intro tail
          rw [C57_round_trip, g3, g4, e1, e2, hval]

/-! Being in sync suffices: every reachable state that is in sync (and has a radio) is `Ready`. -/

/-- In sync implies all of `Ready` but the radio. -/
def SyncReady (c : Cfg) (s : Drv) : Prop := s.synced = true → Ready c { s with radio := true }

theorem SyncReady.poll_tail {c : Cfg} (hc : c.maxHSC ≤ 100) {s : Drv} (h : SyncReady c s) (hs : s.synced = true) (n : Nat)
    (hn : 1 ≤ n ∧ n < 256) (k : Nat) (o : Bool) : SyncReady c { s with hsc := k, hsNext := n, isOpen := o } := by
  intro _
  have r := h hs
  exact ⟨r.synced, rfl, hn, r.frame⟩

theorem gapAt_range (c : Cfg) (hc : c.maxHSC ≤ 100) (b : Byte) (k : Nat) : 1 ≤ gapHSAt c b k ∧ gapHSAt c b k < 256 := by
  unfold gapHSAt gapHS; omega

theorem doSync_ready (c : Cfg) (hc : c.maxHSC ≤ 100) (s : Drv) (rnd : Byte) (h : s.synced = false) :
    SyncReady c (s.doSync c rnd).2.1 := by
  unfold Drv.doSync
  by_cases ha : s.isAvailable = true
  · rw [if_neg (by simp [ha])]
    by_cases h1 : s.syncState = 0 ∧ (0x1e &&& rnd) ≠ 0
    · rw [if_pos h1]; intro hx; simp at hx
    · rw [if_neg h1]
      obtain ⟨t, ht⟩ : ∃ t, t = (if s.syncState = 0 then { s with syncState := 241 } else s) := ⟨_, rfl⟩
      have hts : t.synced = false := by rw [ht]; split <;> exact h
      rw [← ht]
      dsimp only
      by_cases h2 : t.syncState ≥ 2
      · rw [if_pos h2]
        by_cases ho : t.syncState % 2 = 1
        · simp only [ho, if_true]
          split <;> intro hx <;> exact absurd hx (by simp [hts])
        · simp only [ho, if_false]
          split <;> intro hx <;> exact absurd hx (by simp [hts])
      · rw [if_neg h2]
        split
        · intro _
          refine ⟨rfl, rfl, gapAt_range c hc _ _, [], Or.inl rfl, ?_⟩
          simp [Drv.createSetFrame]
        · intro hx; exact absurd hx (by simp [hts])
  · rw [if_pos (by simp [ha])]
    intro hx; simp at hx

theorem pollNext_ready (c : Cfg) (hc : c.maxHSC ≤ 100) (s : Drv) (rnd : Byte) (h : SyncReady c s) :
    SyncReady c (s.pollNext c rnd).2.1 := by
  unfold Drv.pollNext
  by_cases hs : s.synced = true
  · have hd := (h hs).due
    have d : dec8 s.hsNext = s.hsNext - 1 := by unfold dec8; dsimp only at hd; omega
    dsimp only
    rw [if_neg (by simp [hs])]
    by_cases h0 : dec8 s.hsNext = 0
    · rw [if_pos h0]
      exact h.poll_tail hc hs _ (gapAt_range c hc _ _) _ _
    · rw [if_neg h0]
      exact h.poll_tail hc hs _ (by dsimp only at hd; omega) _ _
  · have hs' : s.synced = false := by simpa using hs
    dsimp only
    rw [if_pos (by simp [hs'])]
    exact doSync_ready c hc _ rnd hs'

theorem pollFirst_ready (c : Cfg) (hc : c.maxHSC ≤ 100) (s : Drv) (rnd : Byte) (h : SyncReady c s) :
    SyncReady c (s.pollFirst c rnd).2.1 := by
  unfold Drv.pollFirst
  by_cases hs : s.synced = true
  · have hd := (h hs).due
    have d : dec8 s.hsNext = s.hsNext - 1 := by unfold dec8; dsimp only at hd; omega
    dsimp only
    dsimp only at hd
    rw [if_neg (by simp [hs])]
    by_cases h1 : s.hsNext > c.maxHSC + 1
    · rw [if_pos h1]
      exact h.poll_tail hc hs _ (by omega) _ _
    · rw [if_neg h1]
      by_cases h0 : dec8 s.hsNext = 0
      · rw [if_pos h0]
        exact h.poll_tail hc hs _ (gapAt_range c hc _ _) _ _
      · rw [if_neg h0]
        exact h.poll_tail hc hs _ (by omega) _ _
  · have hs' : s.synced = false := by simpa using hs
    dsimp only
    rw [if_pos (by simp [hs'])]
    exact doSync_ready c hc _ rnd hs'

theorem nexts_sync_ready (c : Cfg) (hc : c.maxHSC ≤ 100) (rnd : Nat → Byte) (k : Nat) (s : Drv) (h : SyncReady c s) :
    SyncReady c (s.nexts c rnd k).1 := by
  induction k generalizing s with
  | zero => exact h
  | succ k ih =>
    have h1 := pollNext_ready c hc s (rnd (s.hsc + 1)) h
    simp only [Drv.nexts]
    split
    · exact ih _ h1
    · exact h1

theorem cycle_sync_ready (c : Cfg) (hc : c.maxHSC ≤ 100) (rnd : Nat → Byte) (s : Drv) (h : SyncReady c s) :
    SyncReady c (s.cycle c rnd).1 := by
  have h1 := pollFirst_ready c hc s (rnd 0) h
  unfold Drv.cycle
  dsimp only
  split
  · exact nexts_sync_ready c hc rnd _ _ h1
  · exact h1

theorem step_sync_ready (c : Cfg) (hc : c.maxHSC ≤ 100) (s : Drv) (op : DOp) (h : SyncReady c s) : SyncReady c (s.step c op).1 := by
  cases op with
  | setHC1 hc =>
    simp only [Drv.step, Drv.setHC1]
    split
    · intro hx; simp [Drv.resync] at hx
    · exact h
  | setHC2 hc =>
    simp only [Drv.step, Drv.setHC2]
    split
    · intro hx; simp [Drv.resync] at hx
    · exact h
  | clearHC => intro hx; simp [Drv.step, Drv.clearHC, Drv.resync] at hx
  | setRadio b => exact h
  | set v =>
    simp only [Drv.step]
    intro hx
    have hs : s.synced = true := by
      revert hx; unfold Drv.set; split
      · exact id
      · exact id
    have := (set_ready c { s with radio := true } v (h hs)).1
    have e : Drv.set c { s with radio := true } v = { Drv.set c s v with radio := true } := by
      unfold Drv.set; split <;> rfl
    rwa [e] at this
  | cycle rnd => exact cycle_sync_ready c hc rnd s h

/-- **C91/C92 apply to every reachable state in sync.** -/
theorem C91_sync_is_ready (c : Cfg) (hc : c.maxHSC = 1 ∨ c.maxHSC = 3) (radio : Bool) (ops : List DOp)
    (hs : ((Drv.init radio).run c ops).synced = true) (hr : ((Drv.init radio).run c ops).radio = true) :
    Ready c ((Drv.init radio).run c ops) := by
  have key : ∀ (ops : List DOp) (s : Drv), SyncReady c s → SyncReady c (s.run c ops) := by
    intro ops
    induction ops with
    | nil => intro s h; exact h
    | cons op ops ih => intro s h; exact ih _ (step_sync_ready c (by omega) s op h)
  have h := key ops (Drv.init radio) (by intro h; simp [Drv.init] at h) hs
  generalize (Drv.init radio).run c ops = s at *
  obtain ⟨a1, a2, a3, a4, a5, a6, a7, a8, a9, a10⟩ := s
  simp only at hr
  subst hr
  exact h

/-- Sync is reached within 65 two-second cycles (with the house codes as they are at power-up; see C93). -/
example : ((Drv.init true).run ⟨3, [0xaa]⟩ (.set 30 :: List.replicate 65 (.cycle fun _ => 0))).synced = true := by
  decide +kernel

/-- A concrete state in sync. -/
def exReady : Drv := ⟨13, 73, true, 1, 231, 3, true, false, 30, createBody ⟨13, 73, 0, 0x26, UInt8.ofNat (percentTo255 30)⟩⟩

example : Ready ⟨3, [0xaa]⟩ exReady := ⟨rfl, rfl, by decide, [], Or.inl rfl, by simp [exReady]⟩

example : (exReady.cycles ⟨3, [0xaa]⟩ (fun k => if k = 20 then [50, 120] else []) (fun _ _ => 0) 120).2.map Prod.fst =
    [230, 461] := by decide +kernel

/-! ### C93: synchronisation and house codes -/

theorem doSync_synced (c : Cfg) (s : Drv) (rnd : Byte) :
    ((s.doSync c rnd).2.1.synced = true → s.validHC = false) ∧
    ((s.doSync c rnd).2.2 ≠ [] → s.validHC = false) ∧
    (s.doSync c rnd).2.1.hc1 = s.hc1 ∧ (s.doSync c rnd).2.1.hc2 = s.hc2 := by
  by_cases ha : s.isAvailable = true
  · have hv : s.validHC = false := by
      unfold Drv.isAvailable at ha
      revert ha; cases s.radio <;> cases s.validHC <;> simp
    refine ⟨fun _ => hv, fun _ => hv, ?_, ?_⟩
    all_goals
      unfold Drv.doSync
      rw [if_neg (by simp [ha])]
      by_cases h1 : s.syncState = 0 ∧ (0x1e &&& rnd) ≠ 0
      · rw [if_pos h1]
      · rw [if_neg h1]
        by_cases h0 : s.syncState = 0
        · simp [h0]
        · simp only [h0, if_false]
          by_cases h2 : s.syncState ≥ 2
          · simp only [h2, if_true]
            by_cases ho : s.syncState % 2 = 1 <;> simp only [ho, if_true, if_false] <;> split <;> rfl
          · simp only [h2, if_false]
            split <;> rfl
  · have e : s.doSync c rnd = (false, { s with synced := false }, []) := by
      unfold Drv.doSync; rw [if_pos (by simp [ha])]
    rw [e]
    exact ⟨by simp, by simp, rfl, rfl⟩

/-- What every reachable state satisfies: in sync only with unusable house codes. -/
def OnlyBadSync (s : Drv) : Prop := s.synced = true → s.validHC = false

theorem pollNext_bad (c : Cfg) (s : Drv) (rnd : Byte) (h : OnlyBadSync s) :
    OnlyBadSync (s.pollNext c rnd).2.1 ∧ ((s.pollNext c rnd).2.2 ≠ [] → s.validHC = false) ∧
    (s.pollNext c rnd).2.1.hc1 = s.hc1 ∧ (s.pollNext c rnd).2.1.hc2 = s.hc2 := by
  unfold Drv.pollNext
  by_cases hs : s.synced = true
  · have hv := h hs
    simp only [hs, Bool.not_true, Bool.false_eq_true, if_false]
    split
    · exact ⟨fun _ => hv, fun _ => hv, rfl, rfl⟩
    · exact ⟨fun _ => hv, fun _ => hv, rfl, rfl⟩
  · have hs' : s.synced = false := by simpa using hs
    dsimp only
    rw [if_pos (by simp [hs'])]
    obtain ⟨h1, h2, h3, h4⟩ := doSync_synced c { s with hsc := s.hsc + 1 } rnd
    refine ⟨?_, h2, h3, h4⟩
    intro hx
    have := h1 hx
    unfold Drv.validHC at this ⊢
    rw [h3, h4]; exact this

theorem pollFirst_bad (c : Cfg) (s : Drv) (rnd : Byte) (h : OnlyBadSync s) :
    OnlyBadSync (s.pollFirst c rnd).2.1 ∧ ((s.pollFirst c rnd).2.2 ≠ [] → s.validHC = false) ∧
    (s.pollFirst c rnd).2.1.hc1 = s.hc1 ∧ (s.pollFirst c rnd).2.1.hc2 = s.hc2 := by
  unfold Drv.pollFirst
  by_cases hs : s.synced = true
  · have hv := h hs
    simp only [hs, Bool.not_true, Bool.false_eq_true, if_false]
    split
    · exact ⟨fun _ => hv, fun _ => hv, rfl, rfl⟩
    · split
      · exact ⟨fun _ => hv, fun _ => hv, rfl, rfl⟩
      · exact ⟨fun _ => hv, fun _ => hv, rfl, rfl⟩
  · have hs' : s.synced = false := by simpa using hs
    dsimp only
    rw [if_pos (by simp [hs'])]
    obtain ⟨h1, h2, h3, h4⟩ := doSync_synced c { s with hsc := 0 } rnd
    refine ⟨?_, h2, h3, h4⟩
    intro hx
    have := h1 hx
    unfold Drv.validHC at this ⊢
    rw [h3, h4]; exact this

theorem nexts_bad (c : Cfg) (rnd : Nat → Byte) (k : Nat) (s : Drv) (h : OnlyBadSync s) :
    OnlyBadSync (s.nexts c rnd k).1 ∧ ((s.nexts c rnd k).2 ≠ [] → s.validHC = false) ∧
    (s.nexts c rnd k).1.hc1 = s.hc1 ∧ (s.nexts c rnd k).1.hc2 = s.hc2 := by
  induction k generalizing s with
  | zero => exact ⟨h, by simp [Drv.nexts], rfl, rfl⟩
  | succ k ih =>
    obtain ⟨h1, h2, h3, h4⟩ := pollNext_bad c s (rnd (s.hsc + 1)) h
    simp only [Drv.nexts]
    split
    · obtain ⟨g1, g2, g3, g4⟩ := ih _ h1
      refine ⟨g1, ?_, g3.trans h3, g4.trans h4⟩
      intro hne
      dsimp only at hne
      by_cases hn : (s.pollNext c (rnd (s.hsc + 1))).2.2 = []
      · rw [hn] at hne
        have := g2 (by simpa using hne)
        unfold Drv.validHC at this ⊢
        rw [h3, h4] at this; exact this
      · exact h2 hn
    · refine ⟨h1, ?_, h3, h4⟩
      intro hne
      exact h2 (by simpa using hne)

theorem cycle_bad (c : Cfg) (rnd : Nat → Byte) (s : Drv) (h : OnlyBadSync s) :
    OnlyBadSync (s.cycle c rnd).1 ∧ ((s.cycle c rnd).2 ≠ [] → s.validHC = false) := by
  obtain ⟨h1, h2, h3, h4⟩ := pollFirst_bad c s (rnd 0) h
  unfold Drv.cycle
  dsimp only
  split
  · obtain ⟨g1, g2, g3, g4⟩ := nexts_bad c rnd c.maxHSC _ h1
    refine ⟨g1, ?_⟩
    intro hne
    dsimp only at hne
    by_cases hn : (s.pollFirst c (rnd 0)).2.2 = []
    · rw [hn] at hne
      have := g2 (by simpa using hne)
      unfold Drv.validHC at this ⊢
      rw [h3, h4] at this; exact this
    · exact h2 hn
  · refine ⟨h1, ?_⟩
    intro hne
    exact h2 (by simpa using hne)

theorem step_bad (c : Cfg) (s : Drv) (op : DOp) (h : OnlyBadSync s) : OnlyBadSync (s.step c op).1 := by
  cases op with
  | setHC1 hc =>
    simp only [Drv.step, Drv.setHC1]
    split
    · intro hx; simp [Drv.resync] at hx
    · exact h
  | setHC2 hc =>
    simp only [Drv.step, Drv.setHC2]
    split
    · intro hx; simp [Drv.resync] at hx
    · exact h
  | clearHC => intro hx; simp [Drv.step, Drv.clearHC, Drv.resync] at hx
  | setRadio b => exact h
  | set v =>
    simp only [Drv.step, Drv.set]
    split
    · exact h
    · exact h
  | cycle rnd => exact (cycle_bad c rnd s h).1

/-- **C93 (refuted).** The intended property - with valid house codes and a radio, the driver synchronises with and then
drives its valve - fails completely, since `isAvailable()` has the house-code test inverted: after any history of
operations whatever, a minor cycle run with valid house codes transmits nothing, and the unit is not in sync. -/
theorem C93_refuted_never_transmits (c : Cfg) (radio : Bool) (ops : List DOp) (rnd : Nat → Byte)
    (hv : ((Drv.init radio).run c ops).validHC = true) :
    (((Drv.init radio).run c ops).cycle c rnd).2 = [] ∧ ((Drv.init radio).run c ops).synced = false := by
  have key : ∀ (ops : List DOp) (s : Drv), OnlyBadSync s → OnlyBadSync (s.run c ops) := by
    intro ops
    induction ops with
    | nil => intro s h; exact h
    | cons op ops ih => intro s h; exact ih _ (step_bad c s op h)
  have hb := key ops (Drv.init radio) (by intro h; simp [Drv.init] at h)
  constructor
  · apply Classical.byContradiction
    intro hne
    have := (cycle_bad c rnd _ hb).2 hne
    rw [hv] at this; simp at this
  · cases hs : ((Drv.init radio).run c ops).synced with
    | false => rfl
    | true => have := hb hs; rw [hv] at this; simp at this

/-- Valid codes are reachable (and then nothing is ever sent). -/
example : ((Drv.init true).run ⟨3, [0xaa]⟩ [.setHC1 13, .setHC2 73, .set 50]).validHC = true := by decide +kernel

/-- By contrast with unusable codes the unit does start to synchronise. -/
example : (((Drv.init true).run ⟨3, [0xaa]⟩ [.set 50]).cycle ⟨3, [0xaa]⟩ (fun _ => 0)).2 ≠ [] := by decide +kernel

/-- **C93.** Changing either house code always drops sync, so no frame is ever sent for stale codes. -/
theorem C93_code_change_resyncs_partial (s : Drv) (hc : Byte) :
    ((s.setHC1 hc).hc1 = hc) ∧ ((s.setHC2 hc).hc2 = hc) ∧
    (hc ≠ s.hc1 → (s.setHC1 hc).synced = false) ∧ (hc ≠ s.hc2 → (s.setHC2 hc).synced = false) := by
  unfold Drv.setHC1 Drv.setHC2
  refine ⟨?_, ?_, ?_, ?_⟩
  · split
    · rfl
    · rename_i h; exact (Classical.not_not.1 h).symm
  · split
    · rfl
    · rename_i h; exact (Classical.not_not.1 h).symm
  · intro h; rw [if_pos h]; rfl
  · intro h; rw [if_pos h]; rfl

end OTR.Props
