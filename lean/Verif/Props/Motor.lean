import Verif.Proof.Motor
/-!
# Properties C61-C62, C99-C103: the motorised valve driver

A driver is made by `Motor.new` (the tick counters start with whatever was in memory) and then sees any list of events
`MEv`: polls (with arbitrary time, hardware answers and battery state), the "valve fitted" signal, target changes and
wiggles. `runAll` gives the driver afterwards and every command given to the motor hardware.
-/

namespace OTR.Props
open OTR

/-! ## C61 -/

/-- **C61**: the position given is 0..100% after any history, as is the target, for the binary-only and the proportional
driver, whatever the hardware does and whatever was in memory. -/
theorem C61_range (prop : Bool) (limit minDR tfo trev : Nat) (h1 : tfo ≤ 65535) (h2 : trev ≤ 65535) (l : List MEv) :
    (((Motor.new prop limit minDR tfo trev).runAll l).1).cur ≤ 100 ∧
    (((Motor.new prop limit minDR tfo trev).runAll l).1).target ≤ 100 := by
  obtain ⟨a, b⟩ := new_inv prop limit minDR tfo trev h1 h2 (0, none)
  have := (run_inv l _ _ a b).1
  exact ⟨this.cur, this.target⟩

/-- **C61**: the position computed for every calibration and every pair of tick counts. Each `ctoS` opening ticks cancel
`otcS` closing ones; what is left, as a part of the full travel `otc`, gives the percentage. -/
theorem C61_position (c : Calib) (tfo trev : Nat) :
    (c.position tfo trev).1 ≤ 100 ∧
    (c.position tfo trev).1 =
      (if tfo ≤ trev / c.ctoS * c.otcS then 100
       else if c.otc ≤ tfo - trev / c.ctoS * c.otcS then 0
       else (c.otc - (tfo - trev / c.ctoS * c.otcS)) * 100 / c.otc) := by
  refine ⟨position_le c tfo trev, ?_⟩
  unfold Calib.position
  rw [fold_eq]
  dsimp only
  by_cases h : tfo ≤ trev / c.ctoS * c.otcS
  · rw [if_pos h, if_pos (by omega)]
  · have h' : ¬ tfo - trev / c.ctoS * c.otcS = 0 := by omega
    rw [if_neg h, if_neg h']
    by_cases h2 : c.otc ≤ tfo - trev / c.ctoS * c.otcS
    · rw [if_pos h2, if_pos h2]
    · rw [if_neg h2, if_neg h2]

/-- **C61**: more closing never gives a more open position and more opening never a more closed one. -/
theorem C61_monotone (c : Calib) (a a' b b' : Nat) (ha : a ≤ a') (hb : b' ≤ b) :
    (c.position a' b').1 ≤ (c.position a b).1 := by
  have h100 := position_le c a' b'
  rw [(C61_position c a b).2, (C61_position c a' b').2]
  rw [(C61_position c a' b').2] at h100
  have hm : b' / c.ctoS * c.otcS ≤ b / c.ctoS * c.otcS := Nat.mul_le_mul_right _ (Nat.div_le_div_right hb)
  generalize b' / c.ctoS * c.otcS = x at *
  generalize b / c.ctoS * c.otcS = y at *
  by_cases h1 : a ≤ y
  · rw [if_pos h1]; exact h100
  rw [if_neg h1, if_neg (by omega)]
  by_cases h2 : c.otc ≤ a' - x
  · rw [if_pos h2]; exact Nat.zero_le _
  rw [if_neg h2, if_neg (by omega)]
  apply Nat.div_le_div_right
  apply Nat.mul_le_mul_right
  omega

/-- **C61**: an end stop sets the position to exactly 100% or 0%, and what the next position computation gives is the same
until the motor is run again (proportional driver with a usable calibration). -/
theorem C61_end_stop (m : Motor) (o : Bool) :
    (m.hitEndstop o).cur = (if o then 100 else 0) ∧
    (m.prop = true → 0 < m.cp.otc →
      ((m.hitEndstop o).cp.position (m.hitEndstop o).tfo (m.hitEndstop o).trev).1 = if o then 100 else 0) := by
  constructor
  · unfold Motor.hitEndstop; split <;> rfl
  · intro hp ho
    unfold Motor.hitEndstop
    rw [if_pos hp]
    dsimp only
    rw [(C61_position _ _ _).2]
    cases o
    · simp [Nat.not_le.2 ho]
    · simp

/-! ## C62 -/

/-- **C62**: whatever happens, one event changes the state only along the start-up order: start → wait → withdraw the pin →
wait for fitting → calibrate → normal running, with errors only from withdrawing and calibrating, and recalibration from
normal running. Nothing leaves the error state. -/
theorem C62_order (prop : Bool) (limit minDR tfo trev : Nat) (h1 : tfo ≤ 65535) (h2 : trev ≤ 65535) (l : List MEv) (e : MEv) :
    let s := (((Motor.new prop limit minDR tfo trev).runAll l).1).st
    let s' := (((Motor.new prop limit minDR tfo trev).runAll (l ++ [e])).1).st
    s' = s ∨ (s, s') ∈ [(.init, .initWaiting), (.initWaiting, .withdrawing), (.withdrawing, .withdrawn),
      (.withdrawing, .error), (.withdrawn, .calibrating), (.calibrating, .normal), (.calibrating, .error),
      (.normal, .calibrating)] := by
  obtain ⟨a, b⟩ := new_inv prop limit minDR tfo trev h1 h2 (0, none)
  obtain ⟨i, g⟩ := run_inv l _ _ a b
  dsimp only
  rw [runAll_snoc]
  rcases (step_ok _ _ e i g).edge with h | h
  · exact .inl h
  · right
    revert h
    dsimp only
    generalize ((Motor.new prop limit minDR tfo trev).runAll l).1.st = s
    generalize ((((Motor.new prop limit minDR tfo trev).runAll l).1).step e).1.st = s'
    cases s <;> simp only [Edge] <;> intro h <;> first | exact h.elim | (rcases h with rfl | rfl <;> decide) | (subst h; decide)

/-- The valve is not fitted until the user says so. -/
theorem unfitted_run (l : List MEv) : ∀ (m : Motor), MInv m → m.fitted = false →
    m.st = .init ∨ m.st = .initWaiting ∨ m.st = .withdrawing ∨ m.st = .withdrawn ∨ m.st = .error →
    .fitted ∉ l →
    let r := m.runAll l
    (r.1.st = .init ∨ r.1.st = .initWaiting ∨ r.1.st = .withdrawing ∨ r.1.st = .withdrawn ∨ r.1.st = .error) ∧
    ∀ x, .drive false x ∉ r.2 := by
  induction l with
  | nil => intro m hi hf hs hn; exact ⟨hs, by simp [Motor.runAll]⟩
  | cons e t ih =>
    intro m hi hf hs hn
    have hok := step_ok m (m.hits, some true) e hi ⟨Nat.le_refl _, fun _ => rfl⟩
    have hcl : ∀ x, .drive false x ∉ (m.step e).2 := by
      intro x hx
      rcases hok.closing x hx with h | h <;> rw [h] at hs <;> simp at hs
    have key : (m.step e).1.fitted = false ∧ ((m.step e).1.st = .init ∨ (m.step e).1.st = .initWaiting ∨
        (m.step e).1.st = .withdrawing ∨ (m.step e).1.st = .withdrawn ∨ (m.step e).1.st = .error) := by
      cases e with
      | fitted => simp at hn
      | target pc => exact ⟨hf, hs⟩
      | wiggle i =>
        obtain ⟨a, b, h, -, -⟩ := wiggle_ok m i hi.tfo hi.trev
        simp only [Motor.step]; rw [h]; exact ⟨hf, hs⟩
      | poll i =>
        simp only [Motor.step]
        constructor
        · obtain ⟨a, b, hw, -, -⟩ := wiggle_ok m i hi.tfo hi.trev
          unfold Motor.poll
          rw [hw]
          by_cases hl : i.sct ≥ m.limit
          · rw [if_pos hl]; exact hf
          rw [if_neg hl]
          rcases hs with h | h | h | h | h <;> rw [h] <;> dsimp only
          · rfl
          · split
            · exact hf
            · rfl
          · unfold Motor.withdraw
            dsimp only
            split
            · rfl
            · dsimp only
              split
              · rfl
              · obtain ⟨h, a, b, he, -⟩ := seek_eq 4 true (by omega) i.more { m with wall := m.wall + 1 } i.first hi.tfo hi.trev
                rw [he]; exact hf
          · rw [hf]; exact hf
          · rfl
        · by_cases hwd : m.st = .withdrawn
          · have : (m.poll i).1 = m := by
              unfold Motor.poll
              split
              · rfl
              · rw [hwd]; dsimp only; rw [hf]; rfl
            rw [this]; exact hs
          · rcases hok.edge with h | h
            · simp only [Motor.step] at h; rw [h]; exact hs
            · simp only [Motor.step] at h
              rcases hs with h' | h' | h' | h' | h' <;> rw [h'] at h <;> simp only [Edge] at h
              · exact .inr (.inl h)
              · exact .inr (.inr (.inl h))
              · rcases h with h | h <;> simp [h]
              · exact absurd h' hwd
    have := ih _ hok.inv key.1 key.2 (fun h => hn (List.mem_cons_of_mem _ h))
    refine ⟨this.1, ?_⟩
    intro x hx
    simp only [Motor.runAll, List.mem_append] at hx
    rcases hx with hx | hx
    · exact hcl x hx
    · exact this.2 x hx

/-- **C62**: until the user signals that the valve is fitted, the driver never starts calibrating or normal running, and the
motor is never driven closed (so the pin stays withdrawn). -/
theorem C62_waits_for_fitting (prop : Bool) (limit minDR tfo trev : Nat) (h1 : tfo ≤ 65535) (h2 : trev ≤ 65535) (l : List MEv)
    (hn : .fitted ∉ l) :
    let r := (Motor.new prop limit minDR tfo trev).runAll l
    r.1.st ≠ .calibrating ∧ r.1.st ≠ .normal ∧ ∀ x, .drive false x ∉ r.2 := by
  obtain ⟨h, h'⟩ := unfitted_run l _ (new_inv prop limit minDR tfo trev h1 h2 (0, none)).1 rfl (.inl rfl) hn
  refine ⟨?_, ?_, h'⟩ <;> intro hx <;> rw [hx] at h <;> simp at h

/-- **C62**: once in error the driver stays there for ever, and polls only ever turn the motor off; the position is kept. -/
theorem C62_error_absorbing (m : Motor) (hm : m.st = .error) (l : List MIn) :
    let r := m.runAll (l.map .poll)
    r.1.st = .error ∧ r.1.cur = m.cur ∧ ∀ d ∈ r.2, d = .off := by
  induction l generalizing m with
  | nil => exact ⟨hm, rfl, by simp [Motor.runAll]⟩
  | cons i t ih =>
    have hp : (m.poll i).1.st = .error ∧ (m.poll i).1.cur = m.cur ∧ ∀ d ∈ (m.poll i).2, d = .off := by
      unfold Motor.poll
      split
      · exact ⟨hm, rfl, by simp⟩
      · rw [hm]; exact ⟨rfl, rfl, by simp⟩
    obtain ⟨a, b, c⟩ := ih _ hp.1
    refine ⟨a, b.trans hp.2.1, ?_⟩
    intro d hd
    simp only [List.map, Motor.runAll, Motor.step, List.mem_append] at hd
    rcases hd with hd | hd
    · exact hp.2.2 d hd
    · exact c d hd

/-- **C62**: every event leaves the motor off: the commands it gives, if any, end with "off". -/
theorem C62_motor_left_off (prop : Bool) (limit minDR tfo trev : Nat) (h1 : tfo ≤ 65535) (h2 : trev ≤ 65535) (l : List MEv) (e : MEv) :
    let c := ((((Motor.new prop limit minDR tfo trev).runAll l).1).step e).2
    c = [] ∨ c.getLast? = some .off := by
  obtain ⟨a, b⟩ := new_inv prop limit minDR tfo trev h1 h2 (0, none)
  obtain ⟨i, g⟩ := run_inv l _ _ a b
  rcases (step_ok _ _ e i g).off with h | ⟨t, h⟩
  · exact .inl h
  · right; rw [h]; simp

/-- **C62**: a poll too late in the cycle does nothing. -/
theorem C62_late_poll (m : Motor) (i : MIn) (h : m.limit ≤ i.sct) : m.poll i = (m, []) := by
  unfold Motor.poll; rw [if_pos h]

/-- Progress measure: an upper bound on how many more polls withdrawing or calibrating can take. -/
def left (m : Motor) : Nat :=
  match m.st with
  | .withdrawing => 121 - m.wall
  | .calibrating => (4 - m.calib) * 121 + (121 - m.wall)
  | _ => 0

/-- What is fixed when the driver is made. -/
def cfg (m : Motor) : Nat × Bool × Nat := (m.limit, m.prop, m.minDR)

theorem step_cfg (m : Motor) (e : MEv) (hi : MInv m) : cfg (m.step e).1 = cfg m := by
  have hsk : ∀ (n : Nat) (hn : 0 < n) (o : Bool) (m' : Motor) (r : MRun) (t : List MRun), m'.tfo ≤ 65535 → m'.trev ≤ 65535 →
      cfg (m'.seek n o r t).2.1 = cfg m' := by
    intro n hn o m' r t ha hb
    obtain ⟨h, a, b, he, -⟩ := seek_eq n o hn t m' r ha hb
    rw [he]; rfl
  have htk : ∀ (m : Motor) (o : Bool) (k : Nat), cfg (m.ticks o k) = cfg m := by
    intro m o k; unfold Motor.ticks; split
    · rfl
    · split <;> rfl
  have hhe : ∀ (m : Motor) (o : Bool), cfg (m.hitEndstop o) = cfg m := by
    intro m o; unfold Motor.hitEndstop; split <;> rfl
  have hrc : ∀ (m : Motor), cfg m.recompute = cfg m := by
    intro m; unfold Motor.recompute; split <;> rfl
  have hcs : ∀ (m : Motor) (s : MState), cfg (m.changeState s) = cfg m := fun _ _ => rfl
  have hwg : ∀ (m : Motor) (i : MIn), cfg (m.wiggle i) = cfg m := by
    intro m i; unfold Motor.wiggle; rw [htk, htk]
  cases e with
  | fitted => simp only [Motor.step, Motor.signalFitted]; split <;> rfl
  | target pc => rfl
  | wiggle i => exact hwg m i
  | poll i =>
    simp only [Motor.step]
    unfold Motor.poll
    split
    · rfl
    split
    · rw [hcs, hwg]
    · split
      · rfl
      · rw [hcs, hwg]
    · have key4 := hsk 4 (by omega) true { m with wall := m.wall + 1 } i.first i.more hi.tfo hi.trev
      unfold Motor.withdraw
      dsimp only
      split
      · rfl
      · dsimp only; split
        · rw [hcs, hhe]; exact key4
        · exact key4
    · split
      · rw [hcs, hwg]
      · rfl
    · split
      · have key := fun o => hsk 5 (by omega) o { m with need := true, wall := m.wall + 1 } i.first i.more hi.tfo hi.trev
        unfold Motor.calibrate
        dsimp only
        split
        · rfl
        split
        · rfl
        split
        · rfl
        split
        · dsimp only; split <;> exact key true
        split
        · dsimp only; split <;> exact key false
        split
        · dsimp only; split <;> exact key true
        split
        · dsimp only; rw [hcs, hhe]; rfl
        · rfl
      · rfl
    · have hb : cfg (m.normalBin i).1 = cfg m := by
        unfold Motor.normalBin
        generalize decide (m.target ≥ 50) = o
        dsimp only
        by_cases h1 : m.cur = (if o = true then 100 else 0)
        · rw [if_pos h1]; rfl
        rw [if_neg h1]
        split
        · rfl
        split
        · dsimp only; rw [hrc]; exact htk _ _ _
        · split
          · exact (hhe _ _).trans (htk _ _ _)
          · exact htk _ _ _
      split
      · rfl
      split
      · rename_i r hr
        revert hr
        split
        · intro hr
          unfold Motor.normalProp at hr
          split at hr
          · cases hr; rfl
          split at hr
          · cases hr
          dsimp only at hr
          split at hr
          · cases hr
          split at hr
          · cases hr
          split at hr
          · cases hr; rfl
          generalize decide (m.target > m.cur) = o at hr
          have hb1 : cfg ((m.run o i.first).recompute) = cfg m := by rw [hrc]; exact htk _ _ _
          split at hr
          · cases hr
            dsimp only
            split
            · split
              · exact (hhe _ _).trans hb1
              · exact hb1
            · split
              · exact (hhe _ _).trans hb1
              · exact hb1
          · cases hr; exact hb1
        · intro hr; cases hr
      · exact hb
    · rfl

theorem step_limit (m : Motor) (e : MEv) (hi : MInv m) : (m.step e).1.limit = m.limit := congrArg (·.1) (step_cfg m e hi)

/-- One event, while withdrawing or calibrating: the state is left or the measure decreases if the event was a poll early
enough in the cycle, and does not increase otherwise. -/
theorem step_left (m : Motor) (e : MEv) (hi : MInv m) (hst : m.st = .withdrawing ∨ m.st = .calibrating) :
    (m.step e).1.st ≠ m.st ∨ (m.step e).1.st = m.st ∧ left (m.step e).1 + effPolls m.limit [e] ≤ left m := by
  cases e with
  | fitted =>
    right
    have : m.signalFitted = m := by
      unfold Motor.signalFitted
      rw [if_neg (by rcases hst with h | h <;> rw [h] <;> simp)]
    simp only [Motor.step]; rw [this]; simp [effPolls]
  | target pc => right; simp [Motor.step, Motor.setTarget, left, effPolls]
  | wiggle i =>
    right
    obtain ⟨a, b, h, -, -⟩ := wiggle_ok m i hi.tfo hi.trev
    simp only [Motor.step]; rw [h]; simp [left, effPolls]
  | poll i =>
    by_cases hl : m.limit ≤ i.sct
    · right
      simp only [Motor.step]; rw [C62_late_poll m i hl]
      have hl' : ¬ i.sct < m.limit := by omega
      simp [effPolls, hl']
    have hl' : i.sct < m.limit := by omega
    have h1 : effPolls m.limit [.poll i] = 1 := by simp [effPolls, hl']
    rw [h1]
    simp only [Motor.step]
    have hl2 : ¬ i.sct ≥ m.limit := by omega
    have hq9 := hi.wall
    have hq11 := hi.calib
    rcases hst with h | h
    · rw [h]
      unfold Motor.poll
      rw [if_neg hl2, h]
      dsimp only
      unfold Motor.withdraw
      dsimp only
      by_cases hw : m.wall + 1 > 120
      · rw [if_pos hw]; left; simp [Motor.changeState]
      rw [if_neg hw]
      dsimp only
      split
      · left; simp [Motor.changeState]
      · right
        obtain ⟨h', a, b, he, -⟩ := seek_eq 4 true (by omega) i.more { m with wall := m.wall + 1 } i.first hi.tfo hi.trev
        rw [he]
        refine ⟨h, ?_⟩
        unfold left
        dsimp only
        rw [h]
        dsimp only
        omega
    · rw [h]
      unfold Motor.poll
      rw [if_neg hl2, h]
      dsimp only
      by_cases hp : m.prop = true
      rotate_left
      · rw [if_neg hp]; left; simp [Motor.changeState]
      rw [if_pos hp]
      have hleft : left m = (4 - m.calib) * 121 + (121 - m.wall) := by unfold left; rw [h]
      unfold Motor.calibrate
      dsimp only
      by_cases hdf : i.defer = true
      · rw [if_pos hdf]; left; simp [Motor.changeState]
      rw [if_neg hdf]
      by_cases hw : m.wall + 1 > 120
      · rw [if_pos hw]; left; simp [Motor.changeState]
      rw [if_neg hw, hleft]
      have key := fun o => seek_eq 5 o (by omega) i.more { m with need := true, wall := m.wall + 1 } i.first hi.tfo hi.trev
      by_cases hc0 : m.calib = 0
      · rw [if_pos hc0]
        right; refine ⟨h, ?_⟩
        unfold left; dsimp only; rw [h]; dsimp only; omega
      rw [if_neg hc0]
      by_cases hc1 : m.calib = 1
      · rw [if_pos hc1]
        obtain ⟨h', a, b, he, -⟩ := key true
        dsimp only
        rw [he]
        right
        split
        · refine ⟨h, ?_⟩
          unfold left; dsimp only; rw [h]; dsimp only; omega
        · refine ⟨h, ?_⟩
          unfold left; dsimp only; rw [h]; dsimp only; omega
      rw [if_neg hc1]
      by_cases hc2 : m.calib = 2
      · rw [if_pos hc2]
        obtain ⟨h', a, b, he, -⟩ := key false
        dsimp only
        rw [he]
        right
        split
        · refine ⟨h, ?_⟩
          unfold left; dsimp only; rw [h]; dsimp only; omega
        · refine ⟨h, ?_⟩
          unfold left; dsimp only; rw [h]; dsimp only; omega
      rw [if_neg hc2]
      by_cases hc3 : m.calib = 3
      · rw [if_pos hc3]
        obtain ⟨h', a, b, he, -⟩ := key true
        dsimp only
        rw [he]
        right
        split
        · refine ⟨h, ?_⟩
          unfold left; dsimp only; rw [h]; dsimp only; omega
        · refine ⟨h, ?_⟩
          unfold left; dsimp only; rw [h]; dsimp only; omega
      rw [if_neg hc3]
      left
      by_cases hc4 : m.calib = 4
      · rw [if_pos hc4]; dsimp only [Motor.changeState]; simp
      · omega

/-- Consecutive states of a driver during a history (including the first). -/
def states (m : Motor) : List MEv → List MState
  | [] => [m.st]
  | e :: t => m.st :: states (m.step e).1 t

theorem stay_bound (l : List MEv) : ∀ (m : Motor) (s : MState), MInv m → s = .withdrawing ∨ s = .calibrating →
    (∀ x ∈ states m l, x = s) → effPolls m.limit l ≤ left m := by
  induction l with
  | nil => intro m s _ _ _; simp [effPolls]
  | cons e t ih =>
    intro m s hi hs hall
    have hm : m.st = s := hall _ (by simp [states])
    have hm' : (m.step e).1.st = s := by
      apply hall
      simp only [states, List.mem_cons]
      right
      cases t <;> simp [states]
    rcases step_left m e hi (by rw [hm]; exact hs) with h | ⟨-, h⟩
    · exact absurd (hm'.trans hm.symm) h
    · have hok := step_ok m (m.hits, some true) e hi ⟨Nat.le_refl _, fun _ => rfl⟩
      have := ih (m.step e).1 s hok.inv hs (fun x hx => hall x (by simp only [states, List.mem_cons]; exact .inr hx))
      rw [step_limit m e hi] at this
      have e1 : effPolls m.limit (e :: t) = effPolls m.limit [e] + effPolls m.limit t := by
        unfold effPolls
        rw [← List.length_append, ← List.filter_append]; rfl
      omega

/-- **C62**: withdrawing the pin lasts at most 121 polls that are early enough in the cycle (four minutes), then the state has been left:
for the state of waiting for the valve to be fitted or the error state (`C62_order`). -/
theorem C62_withdraw_limit (prop : Bool) (limit minDR tfo trev : Nat) (h1 : tfo ≤ 65535) (h2 : trev ≤ 65535) (l₀ l : List MEv)
    (h : ∀ s ∈ states ((Motor.new prop limit minDR tfo trev).runAll l₀).1 l, s = .withdrawing) :
    effPolls (((Motor.new prop limit minDR tfo trev).runAll l₀).1).limit l ≤ 121 := by
  obtain ⟨a, b⟩ := new_inv prop limit minDR tfo trev h1 h2 (0, none)
  obtain ⟨i, -⟩ := run_inv l₀ _ _ a b
  have h0 := stay_bound l _ .withdrawing i (.inl rfl) h
  have hs : (((Motor.new prop limit minDR tfo trev).runAll l₀).1).st = .withdrawing := h _ (by cases l <;> simp [states])
  unfold left at h0
  rw [hs] at h0
  dsimp only at h0
  omega

/-- **C62**: one calibration lasts at most 605 polls that are early enough in the cycle. -/
theorem C62_calibration_limit (prop : Bool) (limit minDR tfo trev : Nat) (h1 : tfo ≤ 65535) (h2 : trev ≤ 65535) (l₀ l : List MEv)
    (h : ∀ s ∈ states ((Motor.new prop limit minDR tfo trev).runAll l₀).1 l, s = .calibrating) :
    effPolls (((Motor.new prop limit minDR tfo trev).runAll l₀).1).limit l ≤ 605 := by
  obtain ⟨a, b⟩ := new_inv prop limit minDR tfo trev h1 h2 (0, none)
  obtain ⟨i, -⟩ := run_inv l₀ _ _ a b
  have h0 := stay_bound l _ .calibrating i (.inr rfl) h
  have hs : (((Motor.new prop limit minDR tfo trev).runAll l₀).1).st = .calibrating := h _ (by cases l <;> simp [states])
  unfold left at h0
  rw [hs] at h0
  dsimp only at h0
  omega

theorem seek_none (need : Nat) (o : Bool) (hn : 0 < need) (l : List MRun) : ∀ (m : Motor) (r : MRun),
    r.hit = false → (∀ x ∈ l, x.hit = false) → (m.seek need o r l).1 = false := by
  induction l with
  | nil => intro m r h _; simp [Motor.seek, Motor.seekOne, h]
  | cons r' t ih =>
    intro m r h hl
    rw [Motor.seek]
    dsimp only
    split
    · simp [Motor.seekOne, h]
    · exact ih _ _ (hl _ (by simp)) (fun x hx => hl x (by simp [hx]))

theorem withdraw_no_hit (l : List MIn) : ∀ (m : Motor), MInv m → m.st = .withdrawing ∨ m.st = .error →
    (∀ i ∈ l, i.sct < m.limit ∧ i.first.hit = false ∧ ∀ r ∈ i.more, r.hit = false) →
    ((m.runAll (l.map .poll)).1.st = .withdrawing ∧ (m.runAll (l.map .poll)).1.wall = m.wall + l.length) ∨
      (m.runAll (l.map .poll)).1.st = .error := by
  induction l with
  | nil => intro m hi h _; exact h.imp (fun h => ⟨h, rfl⟩) id
  | cons i t ih =>
    intro m hi h hl
    obtain ⟨hs, hf, hm⟩ := hl i (by simp)
    have hsct : ¬ i.sct ≥ m.limit := by omega
    have hok := step_ok m (m.hits, some true) (.poll i) hi ⟨Nat.le_refl _, fun _ => rfl⟩
    have hlim := step_limit m (.poll i) hi
    simp only [Motor.step] at hlim hok
    have hl' : ∀ x ∈ t, x.sct < (m.poll i).1.limit ∧ x.first.hit = false ∧ ∀ r ∈ x.more, r.hit = false := by
      rw [hlim]; exact fun x hx => hl x (List.mem_cons_of_mem _ hx)
    simp only [List.map, Motor.runAll, Motor.step]
    rcases h with h | h
    · have hp : ((m.poll i).1.st = .withdrawing ∧ (m.poll i).1.wall = m.wall + 1) ∨ (m.poll i).1.st = .error := by
        unfold Motor.poll
        rw [if_neg hsct, h]
        dsimp only
        unfold Motor.withdraw
        dsimp only
        split
        · exact .inr rfl
        · have hsn := seek_none 4 true (by omega) i.more { m with wall := m.wall + 1 } i.first hf hm
          obtain ⟨h', a, b, he, -⟩ := seek_eq 4 true (by omega) i.more { m with wall := m.wall + 1 } i.first hi.tfo hi.trev
          dsimp only
          rw [hsn, he]
          exact .inl ⟨h, rfl⟩
      rcases hp with ⟨hp, hw⟩ | hp
      · rcases ih _ hok.inv (.inl hp) hl' with ⟨h1, h2⟩ | h1
        · left; refine ⟨h1, ?_⟩; rw [h2, hw, List.length_cons]; omega
        · exact .inr h1
      · exact .inr (C62_error_absorbing _ hp t).1
    · have hp : (m.poll i).1.st = .error := by unfold Motor.poll; rw [if_neg hsct, h]; rfl
      exact .inr (C62_error_absorbing _ hp t).1

/-- **C62**: a motor that never reports the end stop while the pin is withdrawn puts the driver in the error state within 121
polls, and from then on the motor is only ever turned off (`C62_error_absorbing`). -/
theorem C62_stuck_motor (prop : Bool) (limit minDR tfo trev : Nat) (h1 : tfo ≤ 65535) (h2 : trev ≤ 65535) (l₀ : List MEv)
    (l : List MIn)
    (hw : (((Motor.new prop limit minDR tfo trev).runAll l₀).1).st = .withdrawing)
    (hl : ∀ i ∈ l, i.sct < (((Motor.new prop limit minDR tfo trev).runAll l₀).1).limit ∧ i.first.hit = false ∧
      ∀ r ∈ i.more, r.hit = false)
    (hn : 121 ≤ l.length) :
    ((((Motor.new prop limit minDR tfo trev).runAll (l₀ ++ l.map .poll)).1)).st = .error := by
  obtain ⟨a, b⟩ := new_inv prop limit minDR tfo trev h1 h2 (0, none)
  obtain ⟨i, g⟩ := run_inv l₀ _ _ a b
  rw [runAll_append]
  rcases withdraw_no_hit l _ i (.inl hw) hl with ⟨-, h⟩ | h
  · have := (run_inv (l.map .poll) _ _ i g).1.wall
    omega
  · exact h

theorem start_delay (l : List MEv) : ∀ (m : Motor) (n : Nat), MInv m → m.st = .init ∨ (m.st = .initWaiting ∧ m.waited + 1 ≤ n) →
    n + effPolls m.limit l ≤ 16 →
    ((m.runAll l).1.st = .init ∨ (m.runAll l).1.st = .initWaiting) ∧ ∀ o x, .drive o x ∉ (m.runAll l).2 := by
  induction l with
  | nil =>
    intro m n hi h _
    exact ⟨h.imp id (·.1), by simp [Motor.runAll]⟩
  | cons e t ih =>
    intro m n hi h hn
    have e1 : effPolls m.limit (e :: t) = effPolls m.limit [e] + effPolls m.limit t := by
      unfold effPolls
      rw [← List.length_append, ← List.filter_append]; rfl
    have hok := step_ok m (m.hits, some true) e hi ⟨Nat.le_refl _, fun _ => rfl⟩
    have hlim := step_limit m e hi
    have key : ((m.step e).1.st = .init ∨ ((m.step e).1.st = .initWaiting ∧
        (m.step e).1.waited + 1 ≤ n + effPolls m.limit [e])) ∧ ∀ o x, .drive o x ∉ (m.step e).2 := by
      cases e with
      | fitted =>
        have : m.signalFitted = m := by
          unfold Motor.signalFitted
          rw [if_neg (by rcases h with h | h <;> simp [h])]
        simp only [Motor.step]
        rw [this]
        exact ⟨h.imp id (fun h => ⟨h.1, by have := h.2; omega⟩), by simp⟩
      | target pc => exact ⟨h.imp id (fun h => ⟨h.1, by have := h.2; simp only [Motor.step, Motor.setTarget]; omega⟩), by simp [Motor.step]⟩
      | wiggle i =>
        obtain ⟨a, b, hw, -, -⟩ := wiggle_ok m i hi.tfo hi.trev
        simp only [Motor.step]; rw [hw]
        exact ⟨h.imp id (fun h => ⟨h.1, by have := h.2; dsimp only; omega⟩), by simp [Motor.wiggleCmds]⟩
      | poll i =>
        simp only [Motor.step]
        by_cases hl : m.limit ≤ i.sct
        · rw [C62_late_poll m i hl]
          exact ⟨h.imp id (fun h => ⟨h.1, by have := h.2; dsimp only; omega⟩), by simp⟩
        have hl' : i.sct < m.limit := by omega
        have h1 : effPolls m.limit [.poll i] = 1 := by simp [effPolls, hl']
        have hl2 : ¬ i.sct ≥ m.limit := by omega
        rw [h1] at e1 ⊢
        unfold Motor.poll
        rw [if_neg hl2]
        rcases h with h | ⟨h, h'⟩
        · rw [h]
          refine ⟨.inr ⟨rfl, ?_⟩, by simp [Motor.wiggleCmds]⟩
          dsimp only [Motor.changeState]; omega
        · rw [h]
          dsimp only
          have hw : m.waited < 30 / 2 := by omega
          rw [if_pos hw]
          refine ⟨.inr ⟨rfl, ?_⟩, by simp⟩
          dsimp only; omega
    have := ih (m.step e).1 (n + effPolls m.limit [e]) hok.inv key.1 (by rw [hlim]; omega)
    refine ⟨this.1, ?_⟩
    intro o x hx
    simp only [Motor.runAll, List.mem_append] at hx
    rcases hx with hx | hx
    · exact key.2 o x hx
    · exact this.2 o x hx

/-- **C62**: the pin starts to withdraw only after 17 polls (about 30 s): until then the motor is never driven beyond a wiggle. -/
theorem C62_start_delay (prop : Bool) (limit minDR tfo trev : Nat) (h1 : tfo ≤ 65535) (h2 : trev ≤ 65535) (l : List MEv)
    (hn : effPolls limit l ≤ 16) :
    let r := (Motor.new prop limit minDR tfo trev).runAll l
    (r.1.st = .init ∨ r.1.st = .initWaiting) ∧ ∀ o x, .drive o x ∉ r.2 :=
  start_delay l _ 0 (new_inv prop limit minDR tfo trev h1 h2 (0, none)).1 (.inl rfl) (by rw [Nat.zero_add]; exact hn)

/-! ## C100 -/

/-- **C100** (part): the position becomes fully open (or fully closed) only at an event by which the hardware has reported an
end stop at least four times in a row, the last run being an opening (or closing) one. The full property also wants
the other three reports to be in the same direction: see `C100_refuted`. -/
theorem C100_end_stop_partial (prop : Bool) (limit minDR tfo trev : Nat) (h1 : tfo ≤ 65535) (h2 : trev ≤ 65535) (l : List MEv) (e : MEv) :
    let m := (Motor.new prop limit minDR tfo trev).runAll l
    let m' := (Motor.new prop limit minDR tfo trev).runAll (l ++ [e])
    (m'.1.cur = 100 → m.1.cur ≠ 100 → 4 ≤ (after (0, none) m'.2).1 ∧ (after (0, none) m'.2).2 = some true) ∧
    (m'.1.cur = 0 → m.1.cur ≠ 0 → 4 ≤ (after (0, none) m'.2).1 ∧ (after (0, none) m'.2).2 = some false) := by
  obtain ⟨a, b⟩ := new_inv prop limit minDR tfo trev h1 h2 (0, none)
  obtain ⟨i, g⟩ := run_inv l _ _ a b
  have hc := (step_ok _ _ e i g).cur
  dsimp only
  rw [runAll_snoc, after_append]
  dsimp only
  rcases hc with h | h | ⟨h, h'⟩ | ⟨h, h'⟩
  · exact ⟨fun x y => absurd (h ▸ x) y, fun x y => absurd (h ▸ x) y⟩
  · exact ⟨fun x => by omega, fun x => by omega⟩
  · exact ⟨fun _ _ => h', fun x => by omega⟩
  · exact ⟨fun x => by omega, fun _ _ => h'⟩

/-! ## C99 -/

/-- Calibration parameters change only when calibration is not deferred. -/
theorem step_cp (m : Motor) (e : MEv) (hi : MInv m)
    (hd : ∀ i, e = .poll i → i.defer = true) : (m.step e).1.cp = m.cp := by
  have hsk : ∀ (n : Nat) (hn : 0 < n) (o : Bool) (m' : Motor) (r : MRun) (t : List MRun), m'.tfo ≤ 65535 → m'.trev ≤ 65535 →
      Motor.cp (m'.seek n o r t).2.1 = Motor.cp m' := by
    intro n hn o m' r t ha hb
    obtain ⟨h, a, b, he, -⟩ := seek_eq n o hn t m' r ha hb
    rw [he]
  have htk : ∀ (m : Motor) (o : Bool) (k : Nat), Motor.cp (m.ticks o k) = Motor.cp m := by
    intro m o k; unfold Motor.ticks; split
    · rfl
    · split <;> rfl
  have hhe : ∀ (m : Motor) (o : Bool), Motor.cp (m.hitEndstop o) = Motor.cp m := by
    intro m o; unfold Motor.hitEndstop; split <;> rfl
  have hrc : ∀ (m : Motor), Motor.cp m.recompute = Motor.cp m := by
    intro m; unfold Motor.recompute; split <;> rfl
  have hcs : ∀ (m : Motor) (s : MState), Motor.cp (m.changeState s) = Motor.cp m := fun _ _ => rfl
  have hwg : ∀ (m : Motor) (i : MIn), Motor.cp (m.wiggle i) = Motor.cp m := by
    intro m i; unfold Motor.wiggle; rw [htk, htk]
  cases e with
  | fitted => simp only [Motor.step, Motor.signalFitted]; split <;> rfl
  | target pc => rfl
  | wiggle i => exact hwg m i
  | poll i =>
    simp only [Motor.step]
    unfold Motor.poll
    split
    · rfl
    split
    · rw [hcs, hwg]
    · split
      · rfl
      · rw [hcs, hwg]
    · have key4 := hsk 4 (by omega) true { m with wall := m.wall + 1 } i.first i.more hi.tfo hi.trev
      unfold Motor.withdraw
      dsimp only
      split
      · rfl
      · dsimp only; split
        · rw [hcs, hhe]; exact key4
        · exact key4
    · split
      · rw [hcs, hwg]
      · rfl
    · split
      · unfold Motor.calibrate
        dsimp only
        rw [if_pos (hd i rfl)]
        rfl
      · rfl
    · have hb : Motor.cp (m.normalBin i).1 = Motor.cp m := by
        unfold Motor.normalBin
        generalize decide (m.target ≥ 50) = o
        dsimp only
        by_cases h1 : m.cur = (if o = true then 100 else 0)
        · rw [if_pos h1]
        rw [if_neg h1]
        split
        · rfl
        split
        · dsimp only; rw [hrc]; exact htk _ _ _
        · split
          · exact (hhe _ _).trans (htk _ _ _)
          · exact htk _ _ _
      split
      · rfl
      split
      · rename_i r hr
        revert hr
        split
        · intro hr
          unfold Motor.normalProp at hr
          split at hr
          · cases hr; rfl
          split at hr
          · cases hr
          dsimp only at hr
          split at hr
          · cases hr
          split at hr
          · cases hr
          split at hr
          · cases hr; rfl
          generalize decide (m.target > m.cur) = o at hr
          have hb1 : Motor.cp ((m.run o i.first).recompute) = Motor.cp m := by rw [hrc]; exact htk _ _ _
          split at hr
          · cases hr
            dsimp only
            split
            · split
              · exact (hhe _ _).trans hb1
              · exact hb1
            · split
              · exact (hhe _ _).trans hb1
              · exact hb1
          · cases hr; exact hb1
        · intro hr; cases hr
      · exact hb
    · rfl

theorem run_cp (l : List MEv) : ∀ m : Motor, MInv m → (∀ i, .poll i ∈ l → i.defer = true) →
    (m.runAll l).1.cp = m.cp ∧ (m.runAll l).1.prop = m.prop := by
  induction l with
  | nil => intro m _ _; exact ⟨rfl, rfl⟩
  | cons e t ih =>
    intro m hi hd
    have hok := step_ok m (m.hits, some true) e hi ⟨Nat.le_refl _, fun _ => rfl⟩
    obtain ⟨a, b⟩ := ih _ hok.inv (fun i h => hd i (List.mem_cons_of_mem _ h))
    refine ⟨a.trans (step_cp m e hi ?_), b.trans (congrArg (fun x => x.2.1) (step_cfg m e hi))⟩
    intro i he
    exact hd i (by rw [he]; simp)

/-- **C99** is false of the code: while calibration is deferred (low battery, or a dark room) a proportional driver never reports
the valve as really open, after any history, however far open it is: the least percentage taken as open is then 110. -/
theorem C99_never_open_uncalibrated (limit minDR tfo trev : Nat) (h1 : tfo ≤ 65535) (h2 : trev ≤ 65535) (l : List MEv)
    (hd : ∀ i, .poll i ∈ l → i.defer = true) :
    (((Motor.new true limit minDR tfo trev).runAll l).1).reallyOpen = false ∧
    (((Motor.new true limit minDR tfo trev).runAll l).1).minPercentOpen = 110 := by
  obtain ⟨a, b⟩ := new_inv true limit minDR tfo trev h1 h2 (0, none)
  obtain ⟨i, -⟩ := run_inv l _ _ a b
  obtain ⟨c, d⟩ := run_cp l _ a hd
  have hmin : (((Motor.new true limit minDR tfo trev).runAll l).1).minPercentOpen = 110 := by
    unfold Motor.minPercentOpen
    rw [c, d]; rfl
  refine ⟨?_, hmin⟩
  unfold Motor.reallyOpen
  rw [hmin]
  have := i.cur
  simp
  intro _
  omega

/-- The same for a calibration giving a precision worse than 90%. -/
theorem C99_never_open_poor (m : Motor) (hp : m.prop = true) (hc : m.cur ≤ 100) (h : 90 < m.cp.prec) (h' : m.cp.prec ≤ 100) :
    m.reallyOpen = false := by
  unfold Motor.reallyOpen Motor.minPercentOpen
  rw [if_pos hp, Nat.mod_eq_of_lt (by omega)]
  simp
  intro _
  omega

/-- **C99** (part): with the binary-only driver, or a calibration good enough for proportional running, a fully open valve in
normal running is reported as really open and a fully closed one is not, and the threshold is in 1..99. -/
theorem C99_really_open_partial (m : Motor) (h : m.prop = false ∨ m.cp.prec ≤ 15) :
    (m.st = .normal → m.cur = 100 → m.reallyOpen = true) ∧ (m.cur = 0 → m.reallyOpen = false) ∧
    (m.st ≠ .normal → m.reallyOpen = false) ∧ 1 ≤ m.minPercentOpen ∧ m.minPercentOpen ≤ 99 := by
  have hmin : 1 ≤ m.minPercentOpen ∧ m.minPercentOpen ≤ 99 := by
    unfold Motor.minPercentOpen
    rcases h with h | h
    · rw [h]; simp
    · split
      · rw [Nat.mod_eq_of_lt (by omega)]; omega
      · decide
  refine ⟨?_, ?_, ?_, hmin⟩
  · intro hs hc
    unfold Motor.reallyOpen
    simp [hs, hc]; omega
  · intro hc
    unfold Motor.reallyOpen
    simp [hc]; intro _; omega
  · intro hs
    unfold Motor.reallyOpen
    simp [hs]

/-! ## C103 -/

theorem halve_eq (m : Nat) (hm : 0 < m) : ∀ (n a b : Nat), max a b ≤ n → ∃ k, halve m a b = (a / 2 ^ k, b / 2 ^ k) ∧
    max a b / 2 ^ k ≤ m ∧ ∀ j, j < k → m < max a b / 2 ^ j := by
  intro n
  induction n with
  | zero =>
    intro a b h
    refine ⟨0, ?_, ?_, by simp⟩
    · rw [halve, if_neg (by omega)]; simp
    · have : max a b = 0 := by omega
      rw [this]; simp
  | succ n ih =>
    intro a b h
    rw [halve]
    by_cases hc : max a b > m ∧ max a b ≠ 0
    · rw [if_pos hc]
      obtain ⟨k, h1, h2, h3⟩ := ih (a / 2) (b / 2) (by omega)
      have hmx : max (a / 2) (b / 2) = max a b / 2 := by omega
      rw [hmx] at h2 h3
      refine ⟨k + 1, ?_, ?_, ?_⟩
      · rw [h1, Nat.div_div_eq_div_mul, Nat.div_div_eq_div_mul, Nat.pow_succ, Nat.mul_comm 2]
      · rw [Nat.pow_succ, Nat.mul_comm, ← Nat.div_div_eq_div_mul]; exact h2
      · intro j hj
        cases j with
        | zero => simpa using hc.1
        | succ j =>
          rw [Nat.pow_succ, Nat.mul_comm, ← Nat.div_div_eq_div_mul]
          exact h3 j (by omega)
    · rw [if_neg hc]
      exact ⟨0, by simp, by simp; omega, by simp⟩

/-- **C103**: a calibration is accepted exactly when it can be used for proportional running, and then: both travel times are kept
and neither is more than about twice the other; the small ratio is both of them divided by the same power of two, the least
that brings them down to one dead-reckoning step, with at least 8 ticks in each; and the precision is 1..15%. -/
theorem C103_calibration (t f d : Nat) (hd : d ≤ 255) :
    ((Calib.update t f d).1 = true ↔ (Calib.update t f d).2.cannot = false) ∧
    ((Calib.update t f d).1 = true →
      let c := (Calib.update t f d).2
      c.otc = t ∧ c.cto = f ∧ 0 < t ∧ 0 < f ∧ t ≤ 2 * f + 1 ∧ f ≤ 2 * t + 1 ∧
      1 ≤ c.prec ∧ c.prec ≤ 15 ∧ c.prec * min t f ≤ max (128 * d) (min t f) ∧ 128 * d < (c.prec + 1) * min t f ∧
      ∃ k, c.otcS = t / 2 ^ k ∧ c.ctoS = f / 2 ^ k ∧ 8 ≤ c.otcS ∧ 8 ≤ c.ctoS ∧ c.otcS ≤ d ∧ c.ctoS ≤ d ∧
        ∀ j, j < k → d < max t f / 2 ^ j) := by
  unfold Calib.update
  dsimp only
  by_cases h0 : d = 0
  · rw [if_pos h0]; simp [Calib.cannot]
  rw [if_neg h0]
  by_cases h1 : min t f = 0
  · rw [if_pos h1]; simp [Calib.cannot]
  rw [if_neg h1]
  by_cases h2 : t / 2 > f ∨ f / 2 > t
  · rw [if_pos h2]; simp [Calib.cannot]
  rw [if_neg h2]
  obtain ⟨k, h3, h4, h5⟩ := halve_eq d (by omega) _ t f (Nat.le_refl _)
  rw [h3]
  dsimp only
  have ht : t / 2 ^ k ≤ max t f / 2 ^ k := Nat.div_le_div_right (Nat.le_max_left _ _)
  have hf : f / 2 ^ k ≤ max t f / 2 ^ k := Nat.div_le_div_right (Nat.le_max_right _ _)
  by_cases h6 : min (t / 2 ^ k) (f / 2 ^ k) < 8
  · rw [if_pos h6]; simp [Calib.cannot]
  rw [if_neg h6]
  dsimp only [Calib.cannot]
  constructor
  · simp
  · intro hp
    have hp := of_decide_eq_true hp
    have hq : 128 * d / min t f ≤ 15 := by omega
    have e1 := Nat.div_mul_le_self (128 * d) (min t f)
    have e2 := Nat.lt_div_mul_add (a := 128 * d) (b := min t f) (by omega)
    refine ⟨rfl, rfl, by omega, by omega, by omega, by omega, by omega, hp, ?_, ?_, k, ?_, ?_, ?_, ?_, ?_, ?_, h5⟩
    · by_cases hq1 : 1 ≤ 128 * d / min t f
      · have : max 1 (min 100 (128 * d / min t f)) = 128 * d / min t f := by omega
        rw [this]
        exact Nat.le_trans e1 (Nat.le_max_left _ _)
      · have : max 1 (min 100 (128 * d / min t f)) = 1 := by omega
        rw [this, Nat.one_mul]
        exact Nat.le_max_right _ _
    · have : 128 * d / min t f ≤ max 1 (min 100 (128 * d / min t f)) := by omega
      have h7 := Nat.mul_le_mul_right (min t f) this
      rw [Nat.add_mul, Nat.one_mul]
      omega
    · exact Nat.mod_eq_of_lt (by omega)
    · exact Nat.mod_eq_of_lt (by omega)
    · rw [Nat.mod_eq_of_lt (by omega)]; omega
    · rw [Nat.mod_eq_of_lt (by omega)]; omega
    · rw [Nat.mod_eq_of_lt (by omega)]; omega
    · rw [Nat.mod_eq_of_lt (by omega)]; omega

/-! ## The binary-only driver: C100, C101, C102 -/

/-- End-stop reports in a row, in the same direction (number and direction), over a list of commands. -/
def streak (g : Nat × Bool) : List Drive → Nat × Bool
  | [] => g
  | .drive o true :: t => streak (if g.2 = o then g.1 + 1 else 1, o) t
  | .drive o false :: t => streak (0, o) t
  | _ :: t => streak g t

theorem streak_append (l₁ l₂ : List Drive) : ∀ g, streak g (l₁ ++ l₂) = streak (streak g l₁) l₂ := by
  induction l₁ with
  | nil => intro g; rfl
  | cons d t ih =>
    intro g
    cases d with
    | off => exact ih g
    | nudge o => exact ih g
    | drive o h => cases h <;> exact ih _

theorem seek_streak (need : Nat) (o : Bool) (l : List MRun) : ∀ (m : Motor) (r : MRun) (g : Nat × Bool),
    m.prop = false → m.hits ≤ g.1 → (m.hits ≠ 0 → g.2 = o) →
    (m.seek need o r l).2.1.hits ≤ (streak g (m.seek need o r l).2.2).1 ∧ (streak g (m.seek need o r l).2.2).2 = o := by
  have one : ∀ (m : Motor) (r : MRun) (g : Nat × Bool), m.prop = false → m.hits ≤ g.1 → (m.hits ≠ 0 → g.2 = o) →
      (m.seekOne need o r).2.prop = false ∧ (m.seekOne need o r).2.hits ≤ (streak g (Motor.runCmds o r)).1 ∧
      (streak g (Motor.runCmds o r)).2 = o := by
    intro m r g hp h1 h2
    have ht : m.ticks o r.ticks = m := by unfold Motor.ticks; rw [hp]; simp
    unfold Motor.seekOne Motor.run
    rw [ht]
    cases hr : r.hit with
    | false => simp [Motor.runCmds, hr, streak, hp]
    | true =>
      simp [Motor.runCmds, hr, streak, hp]
      split
      · omega
      · rename_i hne
        have : m.hits = 0 := Classical.byContradiction fun h => hne (h2 h)
        omega
  induction l with
  | nil =>
    intro m r g hp h1 h2
    exact (one m r g hp h1 h2).2
  | cons r' t ih =>
    intro m r g hp h1 h2
    obtain ⟨a, b, c⟩ := one m r g hp h1 h2
    rw [Motor.seek]
    dsimp only
    split
    · exact ⟨b, c⟩
    · rw [streak_append]
      exact ih _ r' _ a b (fun _ => c)

/-- What holds of a binary-only driver after any history. -/
structure BInv (m : Motor) (g : Nat × Bool) : Prop where
  inv : MInv m
  prop : m.prop = false
  cur : m.cur = 0 ∨ m.cur = 100
  hits : m.hits ≤ g.1
  dir : m.hits ≠ 0 → (m.st = .withdrawing ∧ g.2 = true) ∨ (m.st = .normal ∧ g.2 = decide (m.cur = 0))

theorem bin_step (m : Motor) (g : Nat × Bool) (e : MEv) (h : BInv m g) :
    BInv (m.step e).1 (streak g (m.step e).2) ∧
    ((m.step e).1.cur = m.cur ∨ ∃ o, (m.step e).1.cur = (if o = true then 100 else 0) ∧
      4 ≤ (streak g (m.step e).2).1 ∧ (streak g (m.step e).2).2 = o) ∧
    (∀ i, e = .poll i → i.low = true → ∀ x, .drive false x ∉ (m.step e).2) := by
  obtain ⟨hi, hp, hc, hh, hd⟩ := h
  have hok := step_ok m (m.hits, some true) e hi ⟨Nat.le_refl _, fun _ => rfl⟩
  have hinv := hok.inv
  have htk : ∀ (m' : Motor) o k, m'.prop = false → m'.ticks o k = m' := by
    intro m' o k hp; unfold Motor.ticks; rw [hp]; simp
  have hwg : ∀ i, m.wiggle i = m := by
    intro i; unfold Motor.wiggle; rw [htk m _ _ hp, htk m _ _ hp]
  cases e with
  | fitted =>
    simp only [Motor.step] at hinv ⊢
    refine ⟨⟨hinv, ?_, ?_, ?_, ?_⟩, .inl ?_, by simp⟩ <;> unfold Motor.signalFitted <;> split <;> first | assumption | rfl
  | target pc => exact ⟨⟨hinv, hp, hc, hh, hd⟩, .inl rfl, by simp⟩
  | wiggle i =>
    simp only [Motor.step] at hinv ⊢
    rw [hwg i] at hinv ⊢
    exact ⟨⟨hinv, hp, hc, hh, hd⟩, .inl rfl, by simp⟩
  | poll i =>
    simp only [Motor.step] at hinv ⊢
    have key : BInv (m.poll i).1 (streak g (m.poll i).2) ∧ ((m.poll i).1.cur = m.cur ∨ ∃ o, (m.poll i).1.cur = (if o = true then 100 else 0) ∧
      4 ≤ (streak g (m.poll i).2).1 ∧ (streak g (m.poll i).2).2 = o) ∧ (i.low = true → ∀ x, .drive false x ∉ (m.poll i).2) := by
      have stay : ∀ s, (m.changeState s).prop = false ∧ ((m.changeState s).cur = 0 ∨ (m.changeState s).cur = 100) ∧
          (m.changeState s).hits ≤ g.1 ∧ ((m.changeState s).hits ≠ 0 → (((m.changeState s).st = .withdrawing ∧ g.2 = true) ∨
            ((m.changeState s).st = .normal ∧ g.2 = decide ((m.changeState s).cur = 0)))) := by
        intro s; exact ⟨hp, hc, Nat.zero_le _, fun h => absurd rfl h⟩
      by_cases hl : m.limit ≤ i.sct
      · rw [C62_late_poll m i hl]; exact ⟨⟨hi, hp, hc, hh, hd⟩, .inl rfl, by simp⟩
      have hl2 : ¬ i.sct ≥ m.limit := by omega
      revert hinv
      unfold Motor.poll
      rw [if_neg hl2, hwg i]
      cases hst : m.st with
      | init => intro hinv; exact ⟨⟨hinv, (stay _).1, (stay _).2.1, (stay _).2.2.1, (stay _).2.2.2⟩, .inl rfl, by simp [Motor.wiggleCmds]⟩
      | initWaiting =>
        dsimp only
        split
        · intro hinv
          refine ⟨⟨hinv, hp, hc, hh, ?_⟩, .inl rfl, by simp⟩
          intro h
          have := hd h
          rw [hst] at this
          simp at this
        · intro hinv; exact ⟨⟨hinv, (stay _).1, (stay _).2.1, (stay _).2.2.1, (stay _).2.2.2⟩, .inl rfl, by simp [Motor.wiggleCmds]⟩
      | withdrawing =>
        dsimp only
        unfold Motor.withdraw
        dsimp only
        split
        · intro hinv; exact ⟨⟨hinv, hp, hc, Nat.zero_le _, fun h => absurd rfl h⟩, .inl rfl, by simp⟩
        · obtain ⟨h, a, b, he, ha, hb, c1, c2, c3, c4, c5, -⟩ :=
            seek_eq 4 true (by omega) i.more { m with wall := m.wall + 1 } i.first hi.tfo hi.trev
          have hsk := seek_streak 4 true i.more { m with wall := m.wall + 1 } i.first g hp hh (by
            intro h; have := hd h; rw [hst] at this; simpa using this)
          have hdr : ∀ x, Drive.drive false x ∉ (Motor.seek 4 true { m with wall := m.wall + 1 } i.first i.more).2.2 := by
            intro x hx; have := c5 _ hx; simp at this
          dsimp only
          split
          · rename_i hx
            intro hinv
            rw [he] at hsk ⊢
            have hE : ∀ m' : Motor, m'.prop = false → (m'.hitEndstop true) = { m' with cur := 100 } := by
              intro m' h; unfold Motor.hitEndstop; rw [if_neg (by simp [h])]; rfl
            rw [he, hE _ (by exact hp)] at hinv
            rw [hE _ (by exact hp)]
            refine ⟨⟨hinv, hp, .inr rfl, Nat.zero_le _, fun h => absurd rfl h⟩, .inr ⟨true, rfl, ?_, hsk.2⟩, fun _ => hdr⟩
            have := c1 hx
            have := hsk.1
            dsimp only at this
            omega
          · intro hinv
            rw [he] at hsk hinv ⊢
            exact ⟨⟨hinv, hp, hc, hsk.1, fun _ => .inl ⟨hst, hsk.2⟩⟩, .inl rfl, fun _ => hdr⟩
      | withdrawn =>
        dsimp only
        split
        · intro hinv; exact ⟨⟨hinv, (stay _).1, (stay _).2.1, (stay _).2.2.1, (stay _).2.2.2⟩, .inl rfl, by simp [Motor.wiggleCmds]⟩
        · intro hinv; exact ⟨⟨hi, hp, hc, hh, hd⟩, .inl rfl, by simp⟩
      | calibrating =>
        dsimp only
        rw [if_neg (by simp [hp])]
        intro hinv; exact ⟨⟨hinv, (stay _).1, (stay _).2.1, (stay _).2.2.1, (stay _).2.2.2⟩, .inl rfl, by simp⟩
      | error =>
        dsimp only
        intro hinv; exact ⟨⟨hinv, (stay _).1, (stay _).2.1, (stay _).2.2.1, (stay _).2.2.2⟩, .inl rfl, by simp⟩
      | normal =>
        dsimp only
        have hpn : ¬ m.prop = true := by simp [hp]
        rw [if_neg hpn]
        dsimp only
        by_cases ht : m.cur = m.target
        · rw [if_pos ht]
          intro hinv
          exact ⟨⟨hinv, hp, hc, Nat.zero_le _, fun h => absurd rfl h⟩, .inl rfl, by simp⟩
        rw [if_neg ht]
        unfold Motor.normalBin
        generalize ho : decide (m.target ≥ 50) = o
        dsimp only
        by_cases hcu : m.cur = (if o = true then 100 else 0)
        · rw [if_pos hcu]
          intro hinv
          exact ⟨⟨hinv, hp, hc, Nat.zero_le _, fun h => absurd rfl h⟩, .inl rfl, by simp⟩
        rw [if_neg hcu]
        by_cases hlow : i.low = true ∧ m.target < m.cur
        · rw [if_pos hlow]
          intro hinv
          exact ⟨⟨hi, hp, hc, hh, hd⟩, .inl rfl, by simp⟩
        rw [if_neg hlow]
        have hdir : o = decide (m.cur = 0) := by
          rcases hc with h | h <;> rw [h] at hcu ⊢ <;> cases o <;> simp_all
        have hlo : i.low = true → ∀ x, Drive.drive false x ∉ Motor.runCmds o i.first := by
          intro hb x hx
          simp [Motor.runCmds] at hx
          obtain ⟨rfl, -⟩ := hx
          have h50 : ¬ m.target ≥ 50 := of_decide_eq_false ho
          have : m.cur = 100 := by rcases hc with h | h
                                   · rw [h] at hcu; simp at hcu
                                   · exact h
          exact hlow ⟨hb, by omega⟩
        have hrun : m.run o i.first = m := htk m _ _ hp
        rw [hrun]
        by_cases hhit : i.first.hit = true
        · have hnn : ¬ ¬ i.first.hit = true := by simp [hhit]
          rw [if_neg hnn]
          have hst1 : streak g (Motor.runCmds o i.first) = (if g.2 = o then g.1 + 1 else 1, o) := by
            simp [Motor.runCmds, hhit, streak]
          have hge : m.hits + 1 ≤ (if g.2 = o then g.1 + 1 else 1) := by
            by_cases h0 : m.hits = 0
            · split <;> omega
            · have := hd h0
              rw [hst] at this
              simp at this
              rw [if_pos (by rw [this, hdir])]
              omega
          dsimp only
          by_cases h4 : m.hits + 1 ≥ 4
          · rw [if_pos h4]
            have hE : ∀ m' : Motor, m'.prop = false → (m'.hitEndstop o) = { m' with cur := if o = true then 100 else 0 } := by
              intro m' h; unfold Motor.hitEndstop; rw [if_neg (by simp [h])]
            rw [hE _ (by exact hp)]
            intro hinv
            rw [hst1]
            refine ⟨⟨hinv, hp, ?_, Nat.zero_le _, fun h => absurd rfl h⟩, .inr ⟨o, rfl, ?_, rfl⟩, hlo⟩
            · cases o
              · exact .inl rfl
              · exact .inr rfl
            · dsimp only; omega
          · rw [if_neg h4]
            intro hinv
            rw [hst1]
            exact ⟨⟨hinv, hp, hc, hge, fun _ => .inr ⟨hst, hdir⟩⟩, .inl rfl, hlo⟩
        · have hst1 : streak g (Motor.runCmds o i.first) = (0, o) := by
            simp [Motor.runCmds, hhit, streak]
          rw [if_pos hhit]
          have hrc : ∀ m' : Motor, m'.prop = false → m'.recompute = m' := by
            intro m' h; unfold Motor.recompute; rw [if_neg (by simp [h])]
          rw [hrc _ (by exact hp)]
          intro hinv
          rw [hst1]
          exact ⟨⟨hinv, hp, hc, Nat.zero_le _, fun h => absurd rfl h⟩, .inl rfl, hlo⟩
    exact ⟨key.1, key.2.1, fun i' hi' => by cases hi'; exact key.2.2⟩

theorem bin_run (l : List MEv) : ∀ (m : Motor) (g : Nat × Bool), BInv m g → BInv (m.runAll l).1 (streak g (m.runAll l).2) := by
  induction l with
  | nil => intro m g h; exact h
  | cons e t ih =>
    intro m g h
    simp only [Motor.runAll]
    rw [streak_append]
    exact ih _ _ (bin_step m g e h).1

theorem bin_new (limit minDR tfo trev : Nat) (h1 : tfo ≤ 65535) (h2 : trev ≤ 65535) (g : Nat × Bool) :
    BInv (Motor.new false limit minDR tfo trev) g :=
  ⟨(new_inv false limit minDR tfo trev h1 h2 (0, none)).1, rfl, .inr rfl, Nat.zero_le _, fun h => absurd rfl h⟩

/-- **C100** in full for the binary-only driver: the position becomes fully open (or fully closed) only at an event by which the
hardware has reported an end stop at least four times in a row, all while opening (or closing). -/
theorem C100_binary (limit minDR tfo trev : Nat) (h1 : tfo ≤ 65535) (h2 : trev ≤ 65535) (l : List MEv) (e : MEv) :
    let m := (Motor.new false limit minDR tfo trev).runAll l
    let m' := (Motor.new false limit minDR tfo trev).runAll (l ++ [e])
    m'.1.cur = m.1.cur ∨ ∃ o, m'.1.cur = (if o = true then 100 else 0) ∧ 4 ≤ (streak (0, true) m'.2).1 ∧
      (streak (0, true) m'.2).2 = o := by
  have h := bin_run l _ _ (bin_new limit minDR tfo trev h1 h2 (0, true))
  dsimp only
  rw [runAll_snoc, streak_append]
  exact (bin_step _ _ e h).2.1

/-- **C101** for the binary-only driver: after any history, no poll with the battery low drives the valve closed. -/
theorem C101_binary (limit minDR tfo trev : Nat) (h1 : tfo ≤ 65535) (h2 : trev ≤ 65535) (l : List MEv) (i : MIn)
    (hb : i.low = true) : ∀ x, .drive false x ∉ (((Motor.new false limit minDR tfo trev).runAll l).1.poll i).2 := by
  have h := bin_run l _ _ (bin_new limit minDR tfo trev h1 h2 (0, true))
  exact (bin_step _ _ (.poll i) h).2.2 i rfl hb

/-- One poll in normal running of the binary-only driver with the end stop reported. -/
theorem bin_hit (m : Motor) (i : MIn) (g : Nat × Bool) (h : BInv m g) (hst : m.st = .normal) (hs : i.sct < m.limit)
    (hlow : i.low = false) (hh : i.first.hit = true) :
    (m.poll i).1.st = .normal ∧ (m.poll i).1.target = m.target ∧
    ((m.poll i).1.cur = (if m.target ≥ 50 then 100 else 0) ∨ ((m.poll i).1.hits = m.hits + 1 ∧ m.hits + 1 < 4)) := by
  have hp := h.prop
  have hl2 : ¬ i.sct ≥ m.limit := by omega
  unfold Motor.poll
  rw [if_neg hl2, hst]
  dsimp only
  have hpn : ¬ m.prop = true := by simp [hp]
  rw [if_neg hpn]
  dsimp only
  by_cases ht : m.cur = m.target
  · rw [if_pos ht]
    refine ⟨rfl, rfl, .inl ?_⟩
    dsimp only
    rcases h.cur with hc | hc <;> rw [← ht, hc] <;> rfl
  rw [if_neg ht]
  unfold Motor.normalBin
  dsimp only
  have hde : (if decide (m.target ≥ 50) = true then 100 else 0 : Nat) = if m.target ≥ 50 then 100 else 0 := by simp
  by_cases hcu : m.cur = (if decide (m.target ≥ 50) = true then 100 else 0)
  · rw [if_pos hcu]
    exact ⟨hst, rfl, .inl (hcu.trans hde)⟩
  rw [if_neg hcu]
  rw [if_neg (by simp [hlow])]
  have hrun : ∀ o, m.run o i.first = m := fun o => by unfold Motor.run Motor.ticks; rw [hp]; simp
  rw [hrun]
  have hnn : ¬ ¬ i.first.hit = true := by simp [hh]
  rw [if_neg hnn]
  dsimp only
  have hE : ∀ (m' : Motor) o, m'.prop = false → (m'.hitEndstop o) = { m' with cur := if o = true then 100 else 0 } := by
    intro m' o h; unfold Motor.hitEndstop; rw [if_neg (by simp [h])]
  by_cases h4 : m.hits + 1 ≥ 4
  · rw [if_pos h4, hE _ _ (by exact hp)]
    exact ⟨hst, rfl, .inl hde⟩
  · rw [if_neg h4]
    exact ⟨hst, rfl, .inr ⟨rfl, by omega⟩⟩

theorem bin_reach (l : List MIn) : ∀ (m : Motor) (g : Nat × Bool), BInv m g → m.st = .normal →
    (∀ i ∈ l, i.sct < m.limit ∧ i.low = false ∧ i.first.hit = true) →
    m.cur = (if m.target ≥ 50 then 100 else 0) ∨ 4 ≤ m.hits + l.length →
    (m.runAll (l.map .poll)).1.cur = (if m.target ≥ 50 then 100 else 0) ∧ (m.runAll (l.map .poll)).1.st = .normal := by
  induction l with
  | nil =>
    intro m g h hst _ hc
    have := h.inv.hitsN (by rw [hst]; simp)
    refine ⟨?_, hst⟩
    rcases hc with hc | hc
    · exact hc
    · simp at hc; omega
  | cons i t ih =>
    intro m g h hst hl hc
    obtain ⟨a, b, c⟩ := hl i (by simp)
    obtain ⟨e1, e2, e3⟩ := bin_hit m i g h hst a b c
    have hb := bin_step m g (.poll i) h
    have hlim := step_limit m (.poll i) h.inv
    simp only [Motor.step] at hb hlim
    have := ih (m.poll i).1 _ hb.1 e1 (by rw [hlim]; exact fun x hx => hl x (List.mem_cons_of_mem _ hx)) (by
      rw [e2]
      rcases e3 with e3 | ⟨e3, -⟩
      · exact .inl e3
      · rcases hc with hc | hc
        · left
          have hpoll : (m.poll i).1.cur = m.cur := by
            rcases hb.2.1 with h' | ⟨o, h', -⟩
            · exact h'
            · -- already at the end stop: the driver does not move
              have hl2 : ¬ i.sct ≥ m.limit := by omega
              have hpn : ¬ m.prop = true := by simp [h.prop]
              unfold Motor.poll
              rw [if_neg hl2, hst]
              dsimp only
              rw [if_neg hpn]
              dsimp only
              split
              · rfl
              · unfold Motor.normalBin
                dsimp only
                rw [if_pos (by rw [hc]; simp)]
          rw [hpoll]; exact hc
        · right; rw [e3]; simp at hc; omega)
    simp only [List.map, Motor.runAll, Motor.step]
    rw [e2] at this
    exact this

/-- **C102**: a binary-only driver in normal running with its target set reaches exactly fully open (target 50% or more) or exactly
fully closed (less) after any four or more polls in which the motor reports the end stop, and stays there. -/
theorem C102_reaches_target (limit minDR tfo trev : Nat) (h1 : tfo ≤ 65535) (h2 : trev ≤ 65535) (l₀ : List MEv) (l : List MIn)
    (hst : (((Motor.new false limit minDR tfo trev).runAll l₀).1).st = .normal)
    (hl : ∀ i ∈ l, i.sct < (((Motor.new false limit minDR tfo trev).runAll l₀).1).limit ∧ i.low = false ∧ i.first.hit = true)
    (hn : 4 ≤ l.length) :
    (((Motor.new false limit minDR tfo trev).runAll (l₀ ++ l.map .poll)).1).cur =
      if (((Motor.new false limit minDR tfo trev).runAll l₀).1).target ≥ 50 then 100 else 0 := by
  have h := bin_run l₀ _ _ (bin_new limit minDR tfo trev h1 h2 (0, true))
  rw [runAll_append]
  exact (bin_reach l _ _ h hst hl (.inr (by omega))).1

/-- **C102**: what one poll in normal running does with the motor, for both drivers: nothing, or one run; opening only if the
target is above the position or at least 50% with the valve not fully open; closing only if the target is below the position or
under 50% with the valve not fully closed. -/
theorem C102_direction (m : Motor) (i : MIn) (hst : m.st = .normal) :
    (m.poll i).2 = [] ∨ ∃ o, (m.poll i).2 = [.drive o i.first.hit, .off] ∧
      (o = true → m.cur < m.target ∨ 50 ≤ m.target ∧ m.cur ≠ 100) ∧
      (o = false → m.target < m.cur ∨ m.target < 50 ∧ m.cur ≠ 0) := by
  unfold Motor.poll
  split
  · exact .inl rfl
  rw [hst]
  dsimp only
  split
  · exact .inl rfl
  rename_i hne
  have hbin : (m.normalBin i).2 = [] ∨ ∃ o, (m.normalBin i).2 = [.drive o i.first.hit, .off] ∧
      (o = true → m.cur < m.target ∨ 50 ≤ m.target ∧ m.cur ≠ 100) ∧
      (o = false → m.target < m.cur ∨ m.target < 50 ∧ m.cur ≠ 0) := by
    unfold Motor.normalBin
    generalize ho : decide (m.target ≥ 50) = o
    dsimp only
    by_cases hcu : m.cur = (if o = true then 100 else 0)
    · rw [if_pos hcu]; exact .inl rfl
    rw [if_neg hcu]
    split
    · exact .inl rfl
    have hd : (o = true → m.cur < m.target ∨ 50 ≤ m.target ∧ m.cur ≠ 100) ∧
      (o = false → m.target < m.cur ∨ m.target < 50 ∧ m.cur ≠ 0) := by
      constructor
      · rintro rfl; exact .inr ⟨of_decide_eq_true ho, hcu⟩
      · rintro rfl; exact .inr ⟨by have := of_decide_eq_false ho; omega, hcu⟩
    right
    refine ⟨o, ?_, hd⟩
    split <;> rfl
  split
  · rename_i r hr
    revert hr
    split
    · intro hr
      unfold Motor.normalProp at hr
      split at hr
      · cases hr; exact .inl rfl
      split at hr
      · cases hr
      dsimp only at hr
      split at hr
      · cases hr
      split at hr
      · cases hr
      split at hr
      · cases hr; exact .inl rfl
      generalize ho : decide (m.target > m.cur) = o at hr
      right
      refine ⟨o, ?_, ?_, ?_⟩
      · split at hr <;> cases hr <;> rfl
      · rintro rfl; exact .inl (of_decide_eq_true ho)
      · rintro rfl; have := of_decide_eq_false ho; left; omega
    · intro hr; cases hr
  · exact hbin

/-- **C102**: a poll in normal running, early enough and with the battery not low, leaves the motor alone only if the position is
the target to within the precision of the calibration, or at the end stop on the target's side of 50%, or if the driver has
gone to recalibrate. -/
theorem C102_idle (m : Motor) (i : MIn) (hst : m.st = .normal) (hs : i.sct < m.limit) (hlow : i.low = false)
    (h : (m.poll i).2 = []) :
    (m.cur ≤ m.target + m.cp.prec ∧ m.target ≤ m.cur + m.cp.prec) ∨ m.cur = (if m.target ≥ 50 then 100 else 0) ∨
      (m.poll i).1.st = .calibrating := by
  have hl2 : ¬ i.sct ≥ m.limit := by omega
  revert h
  unfold Motor.poll
  rw [if_neg hl2, hst]
  dsimp only
  by_cases hne : m.cur = m.target
  · intro _; left; omega
  rw [if_neg hne]
  have hbin : (m.normalBin i).2 = [] → m.cur = (if m.target ≥ 50 then 100 else 0) := by
    unfold Motor.normalBin
    dsimp only
    have hde : (if decide (m.target ≥ 50) = true then 100 else 0 : Nat) = if m.target ≥ 50 then 100 else 0 := by simp
    by_cases hcu : m.cur = (if decide (m.target ≥ 50) = true then 100 else 0)
    · intro _; rw [hcu]; exact hde
    rw [if_neg hcu, if_neg (by simp [hlow])]
    split <;> intro h <;> simp [Motor.runCmds] at h
  split
  · rename_i r hr
    revert hr
    split
    · intro hr
      unfold Motor.normalProp at hr
      split at hr
      · cases hr; intro _; exact .inr (.inr rfl)
      split at hr
      · cases hr
      dsimp only at hr
      split at hr
      · cases hr
      split at hr
      · cases hr
      split at hr
      · cases hr; intro _; left; omega
      split at hr <;> cases hr <;> intro h <;> simp [Motor.runCmds] at h
    · intro hr; cases hr
  · intro h; exact .inr (.inl (hbin h))

/-! ## Examples: a complete start-up, and the refutations -/

/-- A run with the end stop reported, early in the cycle. -/
def hitR : MRun := ⟨true, 0, 0⟩
/-- Polls of the start-up: initial wiggle, wait, withdraw the pin with four end-stop reports, fitting, acknowledgement. -/
def startUp : List MEv :=
  List.replicate 17 (.poll { sct := 0, first := ⟨false, 0, 0⟩ }) ++
  [.poll { sct := 0, first := hitR, more := [hitR, hitR, hitR] }, .fitted, .poll { sct := 0, first := hitR }]
/-- A calibration with a travel of 2000 ticks each way. -/
def calibrateEvs : List MEv :=
  [.poll { sct := 0, first := hitR },
   .poll { sct := 0, first := hitR, more := List.replicate 4 hitR },
   .poll { sct := 0, first := ⟨false, 2000, 0⟩, more := List.replicate 5 hitR },
   .poll { sct := 0, first := ⟨false, 2000, 0⟩, more := List.replicate 5 hitR },
   .poll { sct := 0, first := hitR }]

example : (((Motor.new false 200 40 7 7).runAll (startUp ++ [.poll { sct := 0, first := hitR }])).1).st = .normal := by
  decide +kernel
example : (((Motor.new false 200 40 7 7).runAll (List.replicate 17 (.poll { sct := 0, first := ⟨false, 0, 0⟩ }))).1).st = .withdrawing := by
  decide +kernel
example : (((Motor.new true 200 40 7 7).runAll startUp).1).st = .calibrating ∧
    (((Motor.new true 200 40 7 7).runAll (startUp ++ calibrateEvs)).1).st = .normal ∧
    (((Motor.new true 200 40 7 7).runAll (startUp ++ calibrateEvs)).1).cp = ⟨2000, 2000, 2, 31, 31⟩ := by decide +kernel
example : (Calib.update 2000 1900 40).1 = true := by decide +kernel
/-- Position tracking after calibration: half-way gives 50%. -/
example : (((Motor.new true 200 40 7 7).runAll (startUp ++ calibrateEvs ++
    [.target 50, .poll { sct := 0, first := ⟨false, 1000, 0⟩ }])).1).cur = 50 := by decide +kernel

/-- The history for `C100_refuted`: half-way, three end-stop reports closing, then the target is changed to fully open. -/
def flipEvs : List MEv := startUp ++ calibrateEvs ++
  [.target 50, .poll { sct := 0, first := ⟨false, 1000, 0⟩ }, .target 0] ++ List.replicate 3 (.poll { sct := 0, first := hitR }) ++
  [.target 100]

/-- **C100** is false of the proportional driver: with the valve half open, three (possibly spurious) reports while closing
and then a single one while opening make it believe that the valve is fully open. -/
theorem C100_refuted : ¬ ∀ (limit minDR tfo trev : Nat) (l : List MEv) (e : MEv),
    let m := (Motor.new true limit minDR tfo trev).runAll l
    let m' := (Motor.new true limit minDR tfo trev).runAll (l ++ [e])
    m.1.cur ≠ 100 → m'.1.cur = 100 → 4 ≤ (streak (0, true) m'.2).1 := by
  intro h
  have := h 200 40 0 0 flipEvs (.poll { sct := 0, first := hitR })
  revert this
  decide +kernel

/-- **C99** is false: normal running, fully open, not reported as open. -/
theorem C99_refuted : ∃ l : List MEv, let m := ((Motor.new true 200 40 0 0).runAll l).1
    m.st = .normal ∧ m.cur = 100 ∧ m.reallyOpen = false :=
  ⟨startUp ++ [.poll { sct := 0, first := hitR, defer := true }, .target 100, .poll { sct := 0, first := hitR, defer := true }],
    by decide +kernel⟩

/-- **C101** is false of the proportional driver: with a good calibration it drives the valve closed however low the battery is. -/
theorem C101_refuted : ∃ (l : List MEv) (i : MIn), i.low = true ∧ i.defer = true ∧
    .drive false false ∈ (((Motor.new true 200 40 0 0).runAll l).1.poll i).2 :=
  ⟨startUp ++ calibrateEvs ++ [.target 50], { sct := 0, first := ⟨false, 1000, 0⟩, low := true, defer := true }, by decide +kernel⟩

/-- Also without proportional running (a tracking error with recalibration deferred by the low battery): at 44% with a target of
49% the valve is driven fully closed. -/
theorem C101_refuted_nonproportional : ∃ (l : List MEv) (i : MIn), i.low = true ∧ i.defer = true ∧
    (((Motor.new true 200 40 0 0).runAll l).1).nonProp = true ∧
    (((Motor.new true 200 40 0 0).runAll l).1).cur < (((Motor.new true 200 40 0 0).runAll l).1).target ∧
    .drive false false ∈ (((Motor.new true 200 40 0 0).runAll l).1.poll i).2 :=
  ⟨startUp ++ calibrateEvs ++ [.target 44, .poll { sct := 0, first := ⟨false, 1000, 0⟩ }, .poll { sct := 0, first := ⟨true, 120, 0⟩ },
      .target 49],
    { sct := 0, first := ⟨false, 100, 0⟩, low := true, defer := true }, by decide +kernel⟩

end OTR.Props
