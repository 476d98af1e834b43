import Verif.Spec.MotorLines
/-! # Motor hardware drivers: waveform lemmas -/

namespace OTR

theorem wave_append (s : Pins) (as bs : List HAct) : wave s (as ++ bs) = wave s as ++ wave (s.run as) bs := by
  induction as generalizing s with
  | nil => rfl
  | cons a as ih => simp only [List.cons_append, wave, ih]; rfl

/-- The powered direction that has not yet been followed by a rest; `none` if power was reversed without one. -/
def restStep (bridge : Pins → Power) (ms : Nat) (st : Power) (e : HAct × Pins) : Option Power :=
  match bridge e.2, st, e.1 with
  | .closing, .opening, _ => none
  | .closing, _, _ => some .closing
  | .opening, .closing, _ => none
  | .opening, _, _ => some .opening
  | .off, st, .nap k => if ms ≤ k then some .off else some st
  | _, st, _ => some st

def restRun (bridge : Pins → Power) (ms : Nat) : Power → List (HAct × Pins) → Option Power
  | st, [] => some st
  | st, e :: w => match restStep bridge ms st e with
    | none => none
    | some st' => restRun bridge ms st' w

theorem restRun_append (bridge : Pins → Power) (ms : Nat) (st : Power) (v w : List (HAct × Pins)) :
    restRun bridge ms st (v ++ w) = (restRun bridge ms st v).bind fun st' => restRun bridge ms st' w := by
  induction v generalizing st with
  | nil => rfl
  | cons e v ih =>
    simp only [List.cons_append, restRun]
    cases restStep bridge ms st e with
    | none => rfl
    | some st' => exact ih st'

/-- Without a rest in between the remembered direction survives. -/
theorem restRun_keep (bridge : Pins → Power) (ms : Nat) (d : Power) (hd : d = .closing ∨ d = .opening)
    (b : List (HAct × Pins)) (hb : ∀ e ∈ b, ¬ (bridge e.2 = .off ∧ ∃ k, e.1 = .nap k ∧ ms ≤ k)) (st' : Power)
    (h : restRun bridge ms d b = some st') : st' = d := by
  induction b with
  | nil => simp only [restRun, Option.some.injEq] at h; exact h.symm
  | cons e b ih =>
    obtain ⟨a, p⟩ := e
    have he := hb (a, p) (by simp)
    have hs : restStep bridge ms d (a, p) = none ∨ restStep bridge ms d (a, p) = some d := by
      rcases hd with rfl | rfl <;> unfold restStep <;> cases hp : bridge p <;> cases a <;> simp only <;> try simp
      all_goals
        refine Or.inr (Nat.lt_of_not_le fun hk => ?_)
        exact absurd ⟨hp, _, rfl, hk⟩ he
    simp only [restRun] at h
    rcases hs with hs | hs <;> rw [hs] at h
    · cases h
    · exact ih (fun e he => hb e (List.mem_cons_of_mem _ he)) h

theorem restsOnReversal_of_run (bridge : Pins → Power) (ms : Nat) (st : Power) (w : List (HAct × Pins)) (r : Power)
    (h : restRun bridge ms st w = some r) : RestsOnReversal bridge ms w := by
  intro a x b y c hw hxy
  refine Classical.byContradiction fun hno => ?_
  have hb : ∀ e ∈ b, ¬ (bridge e.2 = .off ∧ ∃ k, e.1 = .nap k ∧ ms ≤ k) := by
    intro e he hc; exact hno ⟨e, he, hc⟩
  subst hw
  rw [restRun_append] at h
  cases h1 : restRun bridge ms st (a ++ [x] ++ b ++ [y]) with
  | none => rw [h1] at h; cases h
  | some s1 =>
    rw [restRun_append] at h1
    cases h2 : restRun bridge ms st (a ++ [x] ++ b) with
    | none => rw [h2] at h1; cases h1
    | some s2 =>
      rw [h2] at h1
      rw [restRun_append] at h2
      cases h3 : restRun bridge ms st (a ++ [x]) with
      | none => rw [h3] at h2; cases h2
      | some s3 =>
        rw [h3] at h2
        rw [restRun_append] at h3
        cases h4 : restRun bridge ms st a with
        | none => rw [h4] at h3; cases h3
        | some s4 =>
          rw [h4] at h3
          simp only [Option.bind_some, restRun] at h1 h2 h3
          obtain ⟨xa, xp⟩ := x
          obtain ⟨ya, yp⟩ := y
          rcases hxy with ⟨hx, hy⟩ | ⟨hx, hy⟩
          · have h3' : s3 = .closing := by
              simp only at hx hy
              unfold restStep at h3
              cases s4 <;> simp_all
            subst h3'
            have := restRun_keep bridge ms .closing (Or.inl rfl) b hb s2 h2
            subst this
            simp only at hy
            simp [restStep, hy] at h1
          · have h3' : s3 = .opening := by
              simp only at hx hy
              unfold restStep at h3
              cases s4 <;> simp_all
            subst h3'
            have := restRun_keep bridge ms .opening (Or.inr rfl) b hb s2 h2
            subst this
            simp only at hy
            simp [restStep, hy] at h1

/-! ## The direct (REV7) driver -/

/-- Power state expected with last direction `d`. -/
def MDir.power : MDir → Power
  | .off => .off
  | .closing => .closing
  | .opening => .opening

set_option maxHeartbeats 4000000 in
/-- Everything about one call of the direct driver. -/
theorem directV1_call (n : Nat) (prev dir : MDir) (s : Pins) (hs : bridgeV1 s = prev.power) (st : Power)
    (hst : prev ≠ .off → st = prev.power) (hst' : st ≠ .short) :
    bridgeV1 (s.run (directV1Run n prev dir)) = dir.power ∧
    (∀ e ∈ wave s (directV1Run n prev dir),
      bridgeV1 e.2 = .off ∨ bridgeV1 e.2 = dir.power ∨
        (dir = .off ∧ prev = .opening ∧ bridgeV1 e.2 = .opening)) ∧
    Monitored bridgeV1 (wave s (directV1Run n prev dir)) ∧
    ∃ r, restRun bridgeV1 120 st (wave s (directV1Run n prev dir)) = some r ∧ (dir ≠ .off → r = dir.power) ∧ r ≠ .short := by
  obtain ⟨⟨a, b⟩, ⟨c, d⟩, z⟩ := s
  cases prev <;> cases dir <;> cases a <;> cases b <;> cases c <;> cases d <;>
    first
    | (exfalso; revert hs; simp [bridgeV1, PinSt.low, MDir.power]; done)
    | (cases st <;>
        first
        | (exfalso; simp [MDir.power] at hst hst'; done)
        | (simp [directV1Run, wave, Pins.run, Pins.step, Pins.upd, bridgeV1, PinSt.low, MDir.power, Monitored, HAct.lasting,
            restRun, restStep]))

/-- The state the driver keeps between calls, over a history. -/
theorem directV1_calls (cs : List (Nat × MDir)) (prev : MDir) (s : Pins) (hs : bridgeV1 s = prev.power) (st : Power)
    (hst : prev ≠ .off → st = prev.power) (hst' : st ≠ .short) :
    (∀ e ∈ callsWave directV1Run s prev cs, bridgeV1 e.2 ≠ .short) ∧
    Monitored bridgeV1 (callsWave directV1Run s prev cs) ∧
    (∃ r, restRun bridgeV1 120 st (callsWave directV1Run s prev cs) = some r) ∧
    bridgeV1 (callsPins directV1Run s prev cs) = (match cs.getLast? with | none => prev | some c => c.2).power := by
  induction cs generalizing prev s st with
  | nil =>
    refine ⟨fun e he => (by cases he), fun e he => (by cases he), ⟨st, rfl⟩, hs⟩
  | cons c cs ih =>
    obtain ⟨n, dir⟩ := c
    obtain ⟨h1, h2, h3, r, h4, h5, h6⟩ := directV1_call n prev dir s hs st hst hst'
    obtain ⟨i1, i2, ⟨r', i3⟩, i4⟩ := ih dir _ h1 r h5 h6
    refine ⟨?_, ?_, ⟨r', ?_⟩, ?_⟩
    · intro e he
      simp only [callsWave, List.mem_append] at he
      rcases he with he | he
      · rcases h2 e he with h | h | ⟨_, _, h⟩ <;> rw [h] <;> first | (simp; done) | (cases dir <;> simp [MDir.power])
      · exact i1 e he
    · intro e he
      simp only [callsWave, List.mem_append] at he
      rcases he with he | he
      · exact h3 e he
      · exact i2 e he
    · simp only [callsWave, restRun_append, h4, Option.bind_some, i3]
    · rw [callsPins, i4]
      cases cs with
      | nil => rfl
      | cons c cs => simp only [List.getLast?_cons_cons]
                     cases h : (c :: cs).getLast? with
                     | none => simp at h
                     | some c => rfl

/-! ## The DRV8850 driver -/

/-- Between calls of the DRV8850 driver: all pins outputs, and the latches as its last call left them. -/
def Drv8850Inv (s : Pins) (prev : MDir) : Prop :=
  s.ml.out = true ∧ s.mr.out = true ∧ s.nsleep.out = true ∧
  match prev with
  | .off => s.nsleep.port = false ∧ s.mr.port = false
  | .closing => s.nsleep.port = true ∧ s.mr.port = true ∧ s.ml.port = false
  | .opening => s.nsleep.port = true ∧ s.mr.port = false ∧ s.ml.port = true

theorem drv8850Inv_power {s : Pins} {prev : MDir} (h : Drv8850Inv s prev) : bridge8850 s = prev.power := by
  obtain ⟨⟨a, b⟩, ⟨c, d⟩, ⟨e, f⟩⟩ := s
  cases prev <;> simp_all [Drv8850Inv, bridge8850, PinSt.low, MDir.power]

set_option maxHeartbeats 4000000 in
/-- Everything about one call of the DRV8850 driver. -/
theorem drv8850_call (n : Nat) (prev dir : MDir) (s : Pins) (hs : Drv8850Inv s prev) (st : Power)
    (hst : prev ≠ .off → st = prev.power) (hml : s.ml.port = true → st ≠ .closing) (hst' : st ≠ .short) :
    Drv8850Inv (s.run (drv8850Run n prev dir)) dir ∧
    (∀ e ∈ wave s (drv8850Run n prev dir), bridge8850 e.2 = .off ∨ bridge8850 e.2 = dir.power) ∧
    (Monitored bridge8850 (wave s (drv8850Run n prev dir)) ↔ ¬ (prev = .off ∧ dir = .opening ∧ s.ml.port = true)) ∧
    ∃ r, restRun bridge8850 120 st (wave s (drv8850Run n prev dir)) = some r ∧ (dir ≠ .off → r = dir.power) ∧
      ((s.run (drv8850Run n prev dir)).ml.port = true → r ≠ .closing) ∧ r ≠ .short := by
  obtain ⟨⟨a, b⟩, ⟨c, d⟩, ⟨e, f⟩⟩ := s
  cases prev <;> cases dir <;> cases b <;> simp only [Drv8850Inv] at hs <;>
    first
    | (exfalso; simp at hs; done)
    | (obtain ⟨rfl, rfl, rfl, hs⟩ := hs
       (try simp at hs)
       cases st <;>
        first
        | (exfalso; simp [MDir.power] at hst hst' hml; done)
        | (simp [drv8850Run, wave, Pins.run, Pins.step, Pins.upd, bridge8850, PinSt.low, MDir.power, Monitored, HAct.lasting,
            restRun, restStep, Drv8850Inv, hs]))

theorem drv8850_calls (cs : List (Nat × MDir)) (prev : MDir) (s : Pins) (hs : Drv8850Inv s prev) (st : Power)
    (hst : prev ≠ .off → st = prev.power) (hml : s.ml.port = true → st ≠ .closing) (hst' : st ≠ .short) :
    (∀ e ∈ callsWave drv8850Run s prev cs, bridge8850 e.2 ≠ .short) ∧
    (∃ r, restRun bridge8850 120 st (callsWave drv8850Run s prev cs) = some r) ∧
    bridge8850 (callsPins drv8850Run s prev cs) = (match cs.getLast? with | none => prev | some c => c.2).power := by
  induction cs generalizing prev s st with
  | nil =>
    refine ⟨fun e he => (by cases he), ⟨st, rfl⟩, drv8850Inv_power hs⟩
  | cons c cs ih =>
    obtain ⟨n, dir⟩ := c
    obtain ⟨h1, h2, -, r, h4, h5, h6, h7⟩ := drv8850_call n prev dir s hs st hst hml hst'
    obtain ⟨i1, ⟨r', i3⟩, i4⟩ := ih dir _ h1 r h5 h6 h7
    refine ⟨?_, ⟨r', ?_⟩, ?_⟩
    · intro e he
      simp only [callsWave, List.mem_append] at he
      rcases he with he | he
      · rcases h2 e he with h | h <;> rw [h] <;> first | (simp; done) | (cases dir <;> simp [MDir.power])
      · exact i1 e he
    · simp only [callsWave, restRun_append, h4, Option.bind_some, i3]
    · rw [callsPins, i4]
      cases cs with
      | nil => rfl
      | cons c cs => simp only [List.getLast?_cons_cons]
                     cases h : (c :: cs).getLast? with
                     | none => simp at h
                     | some c => rfl

end OTR
