import Verif.Proof.MotorHW
import Verif.Proof.MotorSpin
/-! # C153–C155: the motor hardware drivers -/

namespace OTR.Props
open OTR

/-! ## C153: the direct (REV7/DORM1) driver -/

/-- For every sequence of `motorRun` calls, starting with the motor unpowered: the two bridge lines are never low together;
power always ends up as asked by the last call; power in a direction lasts only while a run in that direction is being
monitored; and between opposite directions the motor rests unpowered for at least 120 ms. -/
theorem C153_direct_driver (calls : List (Nat × MDir)) (s : Pins) (hs : bridgeV1 s = .off) :
    (∀ e ∈ callsWave directV1Run s .off calls, bridgeV1 e.2 ≠ .short) ∧
    Monitored bridgeV1 (callsWave directV1Run s .off calls) ∧
    RestsOnReversal bridgeV1 120 (callsWave directV1Run s .off calls) ∧
    (∀ n rest, calls = rest ++ [(n, .off)] → bridgeV1 (callsPins directV1Run s .off calls) = .off) ∧
    (∀ n rest, calls = rest ++ [(n, .closing)] → bridgeV1 (callsPins directV1Run s .off calls) = .closing) ∧
    (∀ n rest, calls = rest ++ [(n, .opening)] → bridgeV1 (callsPins directV1Run s .off calls) = .opening) := by
  obtain ⟨h1, h2, ⟨r, h3⟩, h4⟩ := directV1_calls calls .off s hs .off (by simp) (by simp)
  refine ⟨h1, h2, restsOnReversal_of_run _ _ _ _ r h3, ?_, ?_, ?_⟩ <;>
  · intro n rest hr
    rw [h4, hr, List.getLast?_append]
    rfl

/-- Within one call, from the state a call to `prev` left: nothing is ever powered against the direction asked for; asking
for "off" never powers the motor anew (after opening it stays powered, and monitored, until the line is released). -/
theorem C153_direction (n : Nat) (prev dir : MDir) (s : Pins) (hs : bridgeV1 s = prev.power) :
    ∀ e ∈ wave s (directV1Run n prev dir),
      bridgeV1 e.2 = .off ∨ bridgeV1 e.2 = dir.power ∨ (dir = .off ∧ prev = .opening ∧ bridgeV1 e.2 = .opening) := by
  have := directV1_call n prev dir s hs prev.power (fun _ => rfl) (by cases prev <;> simp [MDir.power])
  exact this.2.1

/-- After a call that turns the motor off both lines are released: inputs held high by their pull-ups, whatever was done before. -/
theorem C153_released (calls : List (Nat × MDir)) (n : Nat) (s : Pins) (p : MDir) :
    (callsPins directV1Run s p (calls ++ [(n, .off)])).ml = ⟨false, true⟩ ∧
    (callsPins directV1Run s p (calls ++ [(n, .off)])).mr = ⟨false, true⟩ := by
  induction calls generalizing s p with
  | nil =>
    obtain ⟨a, b, c⟩ := s
    cases p <;> exact ⟨rfl, rfl⟩
  | cons c cs ih => exact ih _ _

/-- Every start of power in a direction other than that of the previous call is preceded, in the same call, by a rest of
120 ms without power, and every run is watched for at least the run-up time. -/
theorem C153_start (n : Nat) (prev dir : MDir) (s : Pins) (hs : bridgeV1 s = prev.power) (hd : dir ≠ .off) :
    (∃ k m, HAct.spin k m dir ∈ directV1Run n prev dir ∧ n ≤ k ∧ runupTicks ≤ k ∧ m = runupTicks) ∧
    (prev ≠ dir → ∀ a e b, wave s (directV1Run n prev dir) = a ++ e :: b → bridgeV1 e.2 = dir.power →
      ∃ x ∈ a, x.1 = .nap 120 ∧ bridgeV1 x.2 = .off) := by
  constructor
  · refine ⟨max n 4, 4, ?_, by omega, by omega, rfl⟩
    cases dir <;> simp_all [directV1Run]
  · intro hne a e b hw he
    obtain ⟨r, hr, -⟩ := (directV1_call n prev dir s hs prev.power (fun _ => rfl)
      (by cases prev <;> simp [MDir.power])).2.2.2
    obtain ⟨⟨p, q⟩, ⟨u, v⟩, z⟩ := s
    clear hr
    cases prev <;> cases dir <;> first | (exfalso; exact hne rfl) | (exfalso; exact hd rfl) | skip
    all_goals
      simp only [directV1Run, wave, Pins.step, Pins.upd, List.cons_append, List.nil_append, ne_eq, reduceCtorEq,
        not_false_eq_true, if_true] at hw
      rcases a with _ | ⟨a0, _ | ⟨a1, _ | ⟨a2, a⟩⟩⟩ <;>
        simp only [List.nil_append, List.cons_append, List.cons.injEq] at hw
      · exfalso; obtain ⟨rfl, -⟩ := hw; revert hs he
        cases p <;> cases q <;> cases u <;> cases v <;> simp [bridgeV1, PinSt.low, MDir.power]
      · exfalso; obtain ⟨-, rfl, -⟩ := hw; revert hs he
        cases p <;> cases q <;> cases u <;> cases v <;> simp [bridgeV1, PinSt.low, MDir.power]
      · exfalso; obtain ⟨-, -, rfl, -⟩ := hw; revert hs he
        cases p <;> cases q <;> cases u <;> cases v <;> simp [bridgeV1, PinSt.low, MDir.power]
      · refine ⟨a2, by simp, ?_⟩
        obtain ⟨-, -, rfl, -⟩ := hw
        refine ⟨rfl, ?_⟩
        revert hs
        cases p <;> cases q <;> cases u <;> cases v <;> simp [bridgeV1, PinSt.low, MDir.power]

/-- Pins as set at start-up (both lines weakly pulled up). -/
def pinsIdle : Pins := ⟨⟨false, true⟩, ⟨false, true⟩, ⟨true, false⟩⟩

example : bridgeV1 pinsIdle = .off := by decide
example : bridgeV1 (callsPins directV1Run pinsIdle .off [(20, .opening), (0, .closing)]) = .closing := by decide
example : ∃ e ∈ callsWave directV1Run pinsIdle .off [(20, .opening), (0, .closing)], bridgeV1 e.2 = .opening := by
  refine ⟨(.write .ml false, ⟨⟨true, false⟩, ⟨true, true⟩, ⟨true, false⟩⟩), ?_, by decide⟩
  decide

/-! ## C154: the monitored run -/

/-- There is not enough of the sub-cycle left for the minimum run. -/
def TooLate (minAbort start : Nat) : Prop := 230 ≤ start ∨ 230 < start + minAbort

/-- When too late, nothing is run or signalled, and the result is true. -/
theorem C154_too_late (maxRun minAbort start : Nat) (d : MDir) (polls : List MPoll) (h : TooLate minAbort start) :
    spinSCT maxRun minAbort d start polls = some ⟨0, false, true, start⟩ := by
  unfold spinSCT
  rw [if_pos (by unfold TooLate at h; omega)]

/-- Otherwise, for every clock that is looked at at least every `g` ticks (at most 13, some 100 ms) and every current
sensor: the run ends in the same sub-cycle, no later than `g` after its limit, and lasts the minimum; the ticks signalled
never exceed the time passed, and equal it if no tick is missed; nothing is signalled while waiting for a stopped motor;
the result says whether an end stop was signalled; that happens only if the current was seen high after the minimum time,
and at the first such time. -/
theorem C154_spin (g maxRun minAbort start : Nat) (d : MDir) (polls : List MPoll) (hg1 : 1 ≤ g) (hg : g ≤ 13)
    (hl : ¬ TooLate minAbort start) (hp : PacedFrom g start polls) (r : Spun)
    (h : spinSCT maxRun minAbort d start (polls.map MPoll.wrap) = some r) :
    start + minAbort ≤ r.sct ∧ start < r.sct ∧ r.sct < 256 ∧
    r.sct < max (start + maxRun) (max (start + minAbort) (start + 1) + g) + g ∧
    r.sct < max 230 (max (start + minAbort) (start + 1) + g) + g ∧
    (g = 1 → 1 ≤ minAbort → r.sct ≤ max (start + maxRun) (start + minAbort) ∧ r.sct ≤ 230) ∧
    r.ticks ≤ r.sct - start ∧ (d = .off → r.ticks = 0) ∧ (g = 1 → d ≠ .off → r.ticks = r.sct - start) ∧
    r.result = r.endStop ∧
    (r.endStop = true → minAbort < maxRun ∧ ∃ a q b, polls = a ++ q :: b ∧ q.high = true ∧ lastSct start a = r.sct) ∧
    (minAbort < min maxRun (230 - start) → ∀ a q b, polls = a ++ q :: b → start < lastSct start a →
      start + minAbort ≤ lastSct start a → lastSct start a < r.sct → q.high = false) ∧
    (r.endStop = false → min (start + maxRun) 230 ≤ r.sct) := by
  unfold TooLate at hl
  unfold spinSCT at h
  rw [if_neg (by omega)] at h
  dsimp only at h
  cases h1 : spinMin (start + minAbort) (decide (d = MDir.off)) start 0 (polls.map MPoll.wrap) with
  | none => rw [h1] at h; cases h
  | some m =>
    rw [h1] at h
    obtain ⟨a, b, e1, e2, e3, e4, e5, e6, e7, e8, e9, e10, e11, e12, e13⟩ :=
      spinMin_spec g (by omega) (start + minAbort) (by omega) _ polls start 0 (Or.inr (by omega)) hp m h1
    obtain ⟨sct, ticks, rest⟩ := m
    dsimp only at *
    by_cases hgt : start + min maxRun (230 - start) > start + minAbort
    · rw [if_pos hgt] at h
      subst e2
      cases h2 : spinMax (start + min maxRun (230 - start)) (decide (d = MDir.off)) sct ticks (b.map MPoll.wrap) with
      | none => rw [h2] at h; cases h
      | some m2 =>
        rw [h2] at h
        have hpb : PacedFrom g sct b := by rw [← e4]; exact (paced_append (by rw [← e1]; exact hp)).2
        obtain ⟨f1, f2, f3, f4, f5, f6, f7, f8, f9, f10, f11⟩ :=
          spinMax_spec g (by omega) (start + min maxRun (230 - start)) (by omega) _ b sct ticks (by omega) hpb m2 h2
        obtain ⟨sct2, ticks2, high⟩ := m2
        dsimp only at *
        simp only [Option.some.injEq] at h
        subst h
        dsimp only
        refine ⟨by omega, by omega, f2, by omega, by omega, ?_, by omega, ?_, ?_, by trivial, ?_, ?_, ?_⟩
        · intro hg1 hm1; subst hg1; omega
        · intro hd
          have := e12 (by simp [hd]); have := f9 (by simp [hd]); omega
        · intro hg1 hd
          have hs : decide (d = MDir.off) ≠ true := by simp [hd]
          rcases e9 with e9 | e9 | e9
          · rcases f6 with f6 | f6 | f6
            · omega
            · exact absurd f6 hs
            · exact absurd hg1 f6
          · exact absurd e9 hs
          · exact absurd hg1 e9
        · intro hh
          obtain ⟨c, q, x, g1, g2, g3⟩ := f10 hh
          refine ⟨by omega, a ++ c, q, x, by rw [e1, g1, List.append_assoc], g2, ?_⟩
          rw [← g3, ← e4]
          exact lastSct_append start a c
        · intro _ c q x hc hc1 hc2 hc3
          -- the poll lies in the second loop's part
          rw [e1] at hc
          rcases List.append_eq_append_iff.mp hc with ⟨u, hu1, hu2⟩ | ⟨u, hu1, hu2⟩
          · -- c = a ++ u
            refine f11 u q x hu2 ?_
            refine Nat.lt_of_le_of_lt (Nat.le_of_eq ?_) hc3
            rw [hu1, ← e4]
            exact (lastSct_append start a u).symm
          · -- a = c ++ u, q :: x = u ++ b
            cases u with
            | nil =>
              simp only [List.append_nil, List.nil_append] at hu1 hu2
              refine f11 [] q x hu2.symm ?_
              rw [← hu1, e4] at hc3
              exact hc3
            | cons u0 u =>
              rcases e13 c u0 u hu1 with h | h <;> omega
        · intro hh
          have := f5 hh; omega
    · rw [if_neg hgt] at h
      simp only [Option.some.injEq] at h
      subst h
      dsimp only
      refine ⟨e6, e5, e7, by omega, by omega, ?_, by omega, ?_, ?_, by trivial, fun h => (by cases h), ?_, ?_⟩
      · intro hg1 hm1; subst hg1; omega
      · intro hd; exact e12 (by simp [hd])
      · intro hg1 hd
        have hs : decide (d = MDir.off) ≠ true := by simp [hd]
        rcases e9 with e9 | e9 | e9
        · omega
        · exact absurd e9 hs
        · exact absurd hg1 e9
      · intro hlt; omega
      · intro _; omega

/-- The run always ends: once the clock has passed the limit (by more than two gaps) it is over. -/
theorem C154_ends (g maxRun minAbort start : Nat) (d : MDir) (polls : List MPoll) (hg : g ≤ 13)
    (hp : PacedFrom g start polls) (hend : ∃ p ∈ polls, 256 ≤ p.sct) :
    spinSCT maxRun minAbort d start (polls.map MPoll.wrap) ≠ none := by
  intro h
  unfold spinSCT at h
  by_cases hl : start ≥ 230 ∨ 230 - start < minAbort
  · rw [if_pos hl] at h; cases h
  rw [if_neg hl] at h
  dsimp only at h
  obtain ⟨p, hpm, hp256⟩ := hend
  cases h1 : spinMin (start + minAbort) (decide (d = MDir.off)) start 0 (polls.map MPoll.wrap) with
  | none =>
    have := spinMin_none g (by omega) (start + minAbort) (by omega) _ polls start 0 (by omega) hp h1 p hpm
    omega
  | some m =>
    rw [h1] at h
    obtain ⟨a, b, e1, e2, e3, e4, e5, e6, e7, e8, e9, e10, e11, e12, e13⟩ :=
      spinMin_spec g (by omega) (start + minAbort) (by omega) _ polls start 0 (Or.inr (by omega)) hp m h1
    obtain ⟨sct, ticks, rest⟩ := m
    dsimp only at *
    by_cases hgt : start + min maxRun (230 - start) > start + minAbort
    · rw [if_pos hgt] at h
      subst e2
      have hpb := paced_append (g := g) (t := start) (as := a) (bs := b) (by rw [← e1]; exact hp)
      rw [e4] at hpb
      cases h2 : spinMax (start + min maxRun (230 - start)) (decide (d = MDir.off)) sct ticks (b.map MPoll.wrap) with
      | some m2 => rw [h2] at h; cases h
      | none =>
        have hb := spinMax_none g (by omega) (start + min maxRun (230 - start)) (by omega) _ b sct ticks (by omega) hpb.2 h2
        rw [e1] at hpm
        rcases List.mem_append.mp hpm with hpm | hpm
        · have : ∀ (as : List MPoll) (t : Nat), PacedFrom g t as → ∀ q ∈ as, q.sct ≤ lastSct t as := by
            intro as
            induction as with
            | nil => intro t _ q hq; cases hq
            | cons x xs ih =>
              intro t ht q hq
              rw [lastSct_cons]
              rcases List.mem_cons.mp hq with rfl | hq
              · exact paced_le_last ht.2.2
              · exact ih x.sct ht.2.2 q hq
          have := this a start hpb.1 p hpm
          omega
        · have := hb p hpm
          omega
    · rw [if_neg hgt] at h; cases h

/-- The pace matters: a clock looked at only every 30 ticks can step over the end of the sub-cycle, and the motor is then
run on into the next one (here still running 125 ticks after its limit). -/
theorem C154_overrun :
    spinSCT 20 4 .opening 205
      ([⟨false, 209⟩, ⟨false, 224⟩, ⟨false, 258⟩, ⟨false, 300⟩, ⟨false, 350⟩].map MPoll.wrap) = none := by decide

example : ¬ TooLate 4 100 := by unfold TooLate; omega
example : spinSCT 10 4 .closing 100 ([⟨true, 101⟩, ⟨true, 102⟩, ⟨true, 103⟩, ⟨true, 104⟩, ⟨false, 105⟩, ⟨true, 106⟩].map
    MPoll.wrap) = some ⟨5, true, true, 105⟩ := by decide
example : PacedFrom 1 100 [⟨true, 101⟩, ⟨true, 102⟩, ⟨true, 103⟩, ⟨true, 104⟩, ⟨false, 105⟩, ⟨true, 106⟩] := by
  simp [PacedFrom]

/-! ## C155: the DRV8850 driver -/

/-- Pins of the DRV8850 board before the first call: outputs, all low (asleep). -/
def pins8850Idle : Pins := ⟨⟨true, false⟩, ⟨true, false⟩, ⟨true, false⟩⟩

/-- What holds: never the shoot-through combination, power as last asked, 120 ms of rest on reversal. -/
theorem C155_drv8850_partial (calls : List (Nat × MDir)) :
    (∀ e ∈ callsWave drv8850Run pins8850Idle .off calls, bridge8850 e.2 ≠ .short) ∧
    RestsOnReversal bridge8850 120 (callsWave drv8850Run pins8850Idle .off calls) ∧
    (∀ n d rest, calls = rest ++ [(n, d)] → bridge8850 (callsPins drv8850Run pins8850Idle .off calls) = d.power) := by
  obtain ⟨h1, ⟨r, h3⟩, h4⟩ := drv8850_calls calls .off pins8850Idle (by simp [Drv8850Inv, pins8850Idle]) .off
    (by simp) (by simp) (by simp)
  refine ⟨h1, restsOnReversal_of_run _ _ _ _ r h3, ?_⟩
  intro n d rest hr
  rw [h4, hr, List.getLast?_append]
  rfl

/-- What does not: opening, stopping and opening again powers the motor for the whole 120 ms rest, unmonitored, because
"off" clears the MR line twice and the ML line never. -/
theorem C155_unmonitored (n m k : Nat) :
    ¬ Monitored bridge8850 (callsWave drv8850Run pins8850Idle .off [(n, .opening), (m, .off), (k, .opening)]) ∧
    (HAct.nap 120, (⟨⟨true, true⟩, ⟨true, false⟩, ⟨true, true⟩⟩ : Pins)) ∈
      callsWave drv8850Run pins8850Idle .off [(n, .opening), (m, .off), (k, .opening)] ∧
    bridge8850 ⟨⟨true, true⟩, ⟨true, false⟩, ⟨true, true⟩⟩ = .opening := by
  have hm : (HAct.nap 120, (⟨⟨true, true⟩, ⟨true, false⟩, ⟨true, true⟩⟩ : Pins)) ∈
      callsWave drv8850Run pins8850Idle .off [(n, .opening), (m, .off), (k, .opening)] := by
    simp [callsWave, drv8850Run, wave, Pins.run, Pins.step, Pins.upd, pins8850Idle]
  have hb : bridge8850 ⟨⟨true, true⟩, ⟨true, false⟩, ⟨true, true⟩⟩ = .opening := by decide
  refine ⟨fun hmon => ?_, hm, hb⟩
  obtain ⟨_, _, h⟩ := (hmon _ hm trivial).2 hb
  cases h

/-- Exactly which calls run unmonitored. -/
theorem C155_exactly (n : Nat) (prev dir : MDir) (s : Pins) (hs : Drv8850Inv s prev) :
    Monitored bridge8850 (wave s (drv8850Run n prev dir)) ↔ ¬ (prev = .off ∧ dir = .opening ∧ s.ml.port = true) := by
  by_cases hp : prev = .off
  · exact (drv8850_call n prev dir s hs .off (by simp [hp]) (by simp) (by simp)).2.2.1
  · refine (drv8850_call n prev dir s hs prev.power (fun _ => rfl) ?_ (by cases prev <;> simp [MDir.power])).2.2.1
    intro hml
    cases prev <;> simp_all [Drv8850Inv, MDir.power]

example : Drv8850Inv pins8850Idle .off := by simp [Drv8850Inv, pins8850Idle]

end OTR.Props
