import Verif.Props.Motor
/-!
# C248: a motor in working order starts up
-/

namespace OTR.Props
open OTR

/-! ## Specification -/

/-- A poll of a motor in working order: it comes too late in the sub-cycle to do anything, or at every run the motor reports the end of its travel. -/
def Working (limit : Nat) (i : MIn) : Prop := limit ≤ i.sct ∨ (i.first.hit = true ∧ ∀ r ∈ i.more, r.hit = true)

/-- How many polls of a history came early enough in the sub-cycle to do something. -/
def earlyPolls (limit : Nat) (l : List MEv) : Nat :=
  l.countP fun e => match e with | .poll i => decide (i.sct < limit) | _ => false

/-! ## Proofs -/

/-- With the end stop reported at each run, the search finds it or counts at least one more report. -/
theorem seek_hits (need : Nat) (o : Bool) (l : List MRun) : ∀ (m : Motor) (r : MRun), r.hit = true → (∀ r' ∈ l, r'.hit = true) →
    (m.seek need o r l).1 = true ∨ m.hits + 1 ≤ (m.seek need o r l).2.1.hits := by
  have hone : ∀ (m : Motor) (r : MRun), r.hit = true → (m.seekOne need o r).2.hits = m.hits + 1 := by
    intro m r hr
    have ht : ∀ k, (m.ticks o k).hits = m.hits := by
      intro k
      unfold Motor.ticks
      split
      · rfl
      · split <;> rfl
    unfold Motor.seekOne
    dsimp only
    rw [if_neg (by simp [hr])]
    show (m.run o r).hits + 1 = _
    rw [show (m.run o r).hits = m.hits from ht _]
  induction l with
  | nil => intro m r hr _; exact .inr (Nat.le_of_eq (hone m r hr).symm)
  | cons r' t ih =>
    intro m r hr hl
    rw [Motor.seek]
    dsimp only
    split
    · exact .inr (Nat.le_of_eq (hone m r hr).symm)
    · rcases ih (m.seekOne need o r).2 r' (hl r' (by simp)) (fun x hx => hl x (List.mem_cons_of_mem _ hx)) with h | h
      · exact .inl h
      · right
        rw [hone m r hr] at h
        dsimp only
        omega

/-- What holds while the motor has always worked. -/
structure SInv (m : Motor) : Prop where
  inv : MInv m
  ok : m.st ≠ .error
  wall : m.st = .withdrawing ∨ m.st = .calibrating → m.wall ≤ m.hits

/-- Polls to go until the pin is withdrawn. -/
def toWithdrawn (m : Motor) : Nat :=
  match m.st with
  | .init => 21
  | .initWaiting => 4 + (16 - m.waited)
  | .withdrawing => 4 - m.hits
  | _ => 0

/-- Polls to go from fitting until normal running. -/
def toNormal (m : Motor) : Nat :=
  match m.st with
  | .withdrawn => 18
  | .calibrating => if m.calib = 0 then 17 else if m.calib = 1 then 11 + (5 - m.hits) else if m.calib = 2 then 6 + (5 - m.hits) else
      if m.calib = 3 then 1 + (5 - m.hits) else 1
  | _ => 0

theorem wiggle_fields (m : Motor) (i : MIn) (h1 : m.tfo ≤ 65535) (h2 : m.trev ≤ 65535) :
    ∃ a b, m.wiggle i = { m with tfo := a, trev := b } := by
  obtain ⟨a, b, h, _⟩ := wiggle_ok m i h1 h2
  exact ⟨a, b, h⟩

theorem st_run (m : Motor) (o : Bool) (r : MRun) : (m.run o r).st = m.st := by
  unfold Motor.run Motor.ticks
  split
  · rfl
  · split <;> rfl

theorem st_hit (m : Motor) (o : Bool) : (m.hitEndstop o).st = m.st := by
  unfold Motor.hitEndstop; split <;> rfl

theorem st_recompute (m : Motor) : m.recompute.st = m.st := by
  unfold Motor.recompute; split <;> rfl

theorem st_normalBin (m : Motor) (i : MIn) : (m.normalBin i).1.st = m.st := by
  unfold Motor.normalBin
  dsimp only
  generalize decide (m.target ≥ 50) = o
  generalize (if o = true then 100 else 0 : Nat) = k
  split
  · rfl
  split
  · rfl
  split
  · rw [st_recompute]; exact st_run m _ _
  · dsimp only
    split
    · show (Motor.hitEndstop _ _).st = _
      rw [st_hit]; exact st_run m _ _
    · exact st_run m _ _

/-- A poll in normal running goes on in normal running or starts a calibration afresh. -/
theorem normal_poll (m : Motor) (i : MIn) (hst : m.st = .normal) (hl : ¬ i.sct ≥ m.limit) :
    (m.poll i).1 = m.changeState .calibrating ∨ (m.poll i).1.st = .normal := by
  have hrr : ∀ o, (m.run o i.first).recompute.st = m.st := fun o => (st_recompute _).trans (st_run m o _)
  have hprop : ∀ r, m.normalProp i = some r → r.1 = m.changeState .calibrating ∨ r.1.st = m.st := by
    intro r h
    unfold Motor.normalProp at h
    split at h
    · cases h; exact .inl rfl
    right
    split at h
    · cases h
    dsimp only at h
    split at h
    · cases h
    split at h
    · cases h
    split at h
    · cases h; rfl
    split at h
    · cases h
      split
      · split
        · exact (st_hit _ _).trans (hrr _)
        · exact hrr _
      · split
        · exact (st_hit _ _).trans (hrr _)
        · exact hrr _
    · cases h; exact hrr _
  unfold Motor.poll
  rw [if_neg hl, hst]
  dsimp only
  split
  · exact .inr rfl
  split
  · rename_i r h
    split at h
    · rw [← hst]; exact hprop r h
    · cases h
  · exact .inr ((st_normalBin m i).trans hst)

/-- One early poll of a working motor. -/
theorem start_poll (m : Motor) (i : MIn) (h : SInv m) (he : i.sct < m.limit) (hh : i.first.hit = true) (hm : ∀ r ∈ i.more, r.hit = true) :
    SInv (m.poll i).1 ∧ (toWithdrawn m ≠ 0 → toWithdrawn (m.poll i).1 < toWithdrawn m) ∧ (toWithdrawn m = 0 → toWithdrawn (m.poll i).1 = 0) ∧
      ((m.st = .withdrawn → m.fitted = true) → toWithdrawn m = 0 → m.st ≠ .normal →
        toNormal (m.poll i).1 < toNormal m ∧ (m.poll i).1.st ≠ .withdrawn) := by
  have hI := (poll_ok m (m.hits, some true) i h.inv ⟨Nat.le_refl _, fun _ => rfl⟩).inv
  obtain ⟨hi, hok, hw⟩ := h
  have hl2 : ¬ i.sct ≥ m.limit := by omega
  cases hst : m.st with
  | init =>
    have e : (m.poll i).1 = (m.wiggle i).changeState .initWaiting := by
      unfold Motor.poll; rw [if_neg hl2, hst]
    rw [e] at hI ⊢
    exact ⟨⟨hI, by simp [Motor.changeState], by simp [Motor.changeState]⟩, fun _ => by simp [toWithdrawn, hst, Motor.changeState],
      fun h => by simp [toWithdrawn, hst] at h, fun _ h => by simp [toWithdrawn, hst] at h⟩
  | initWaiting =>
    have hwt := hi.waited
    by_cases h15 : m.waited < 15
    · have e : (m.poll i).1 = { m with waited := m.waited + 1 } := by
        unfold Motor.poll; rw [if_neg hl2, hst]; dsimp only; rw [if_pos (by omega)]
      rw [e] at hI ⊢
      exact ⟨⟨hI, by simp [hst], by simp [hst]⟩, fun _ => by simp [toWithdrawn, hst]; omega,
        fun h => by simp [toWithdrawn, hst] at h, fun _ h => by simp [toWithdrawn, hst] at h⟩
    · have e : (m.poll i).1 = (m.wiggle i).changeState .withdrawing := by
        unfold Motor.poll; rw [if_neg hl2, hst]; dsimp only; rw [if_neg (by omega)]
      rw [e] at hI ⊢
      exact ⟨⟨hI, by simp [Motor.changeState], by simp [Motor.changeState]⟩, fun _ => by simp [toWithdrawn, hst, Motor.changeState]; omega,
        fun h => by simp [toWithdrawn, hst] at h, fun _ h => by simp [toWithdrawn, hst] at h⟩
  | withdrawing =>
    have hwall := hw (.inl hst)
    have hh3 := hi.hitsN (by rw [hst]; simp)
    have e : (m.poll i).1 = (m.withdraw i).1 := by unfold Motor.poll; rw [if_neg hl2, hst]
    rw [e] at hI ⊢
    unfold Motor.withdraw at hI ⊢
    dsimp only at hI ⊢
    rw [if_neg (by omega)] at hI ⊢
    dsimp only at hI ⊢
    obtain ⟨h', a, b, he', _, _, ht, hf, _⟩ := seek_eq 4 true (by decide) i.more { m with wall := m.wall + 1 } i.first hi.tfo hi.trev
    have hs := seek_hits 4 true i.more { m with wall := m.wall + 1 } i.first hh hm
    rw [he'] at hs hI ⊢
    dsimp only at hs
    by_cases hx : (({ m with wall := m.wall + 1 } : Motor).seek 4 true i.first i.more).1 = true
    · rw [if_pos hx] at hI ⊢
      refine ⟨⟨hI, by simp [Motor.changeState], by simp [Motor.changeState]⟩, fun _ => ?_, fun h => ?_, fun _ h => ?_⟩
      · simp [toWithdrawn, hst, Motor.changeState]; omega
      · simp [toWithdrawn, hst] at h; omega
      · simp [toWithdrawn, hst] at h; omega
    · rw [if_neg hx] at hI ⊢
      have hb : m.hits + 1 ≤ h' := by
        rcases hs with hs | hs
        · exact absurd hs hx
        · exact hs
      have hlt : h' < 4 := hf (by simpa using hx)
      refine ⟨⟨hI, by simp [hst], fun _ => by show m.wall + 1 ≤ h'; omega⟩, fun _ => ?_, fun h => ?_, fun _ h => ?_⟩
      · simp [toWithdrawn, hst]; omega
      · simp [toWithdrawn, hst] at h; omega
      · simp [toWithdrawn, hst] at h; omega
  | withdrawn =>
    by_cases hf : m.fitted = true
    · have e : (m.poll i).1 = (m.wiggle i).changeState .calibrating := by
        unfold Motor.poll; rw [if_neg hl2, hst]; dsimp only; rw [if_pos hf]
      rw [e] at hI ⊢
      exact ⟨⟨hI, by simp [Motor.changeState], by simp [Motor.changeState]⟩, fun h => by simp [toWithdrawn, hst] at h,
        fun _ => by simp [toWithdrawn, Motor.changeState], fun _ _ _ => ⟨by simp [toNormal, hst, Motor.changeState], by simp [Motor.changeState]⟩⟩
    · have e : (m.poll i).1 = m := by
        unfold Motor.poll; rw [if_neg hl2, hst]; dsimp only; rw [if_neg hf]
      rw [e] at hI ⊢
      exact ⟨⟨hi, hok, hw⟩, fun h => by simp [toWithdrawn, hst] at h, fun h => h, fun h => absurd (h rfl) hf⟩
  | calibrating =>
    have h0 : toWithdrawn m = 0 := by simp [toWithdrawn, hst]
    have hpos : 1 ≤ toNormal m := by
      simp only [toNormal, hst]
      repeat' split
      all_goals omega
    have fin : ∀ m' : Motor, MInv m' → m'.st = .normal → SInv m' ∧ (toWithdrawn m ≠ 0 → toWithdrawn m' < toWithdrawn m) ∧ (toWithdrawn m = 0 → toWithdrawn m' = 0) ∧
      ((MState.calibrating = .withdrawn → m.fitted = true) → toWithdrawn m = 0 → MState.calibrating ≠ .normal →
        toNormal m' < toNormal m ∧ m'.st ≠ .withdrawn) := by
      intro m' h1 h2
      refine ⟨⟨h1, by rw [h2]; simp, by rw [h2]; simp⟩, fun h => absurd h0 h, fun _ => by simp [toWithdrawn, h2], fun _ _ _ => ⟨?_, by rw [h2]; simp⟩⟩
      have : toNormal m' = 0 := by simp [toNormal, h2]
      omega
    by_cases hp : m.prop = true
    · have e : (m.poll i).1 = (m.calibrate i).1 := by
        unfold Motor.poll; rw [if_neg hl2, hst]; dsimp only; rw [if_pos hp]
      rw [e] at hI ⊢
      have hwall := hw (.inr hst)
      have hh5 := hi.hits
      have hc4 := hi.calib
      have hh4 := hi.hitsC
      -- one of the three searches
      have srch : ∀ (o : Bool) (f : Motor → Motor),
          (∀ x : Motor, (f x).st = x.st ∧ (f x).wall ≤ (f x).hits ∨ (f x).st = x.st ∧ (f x).wall = x.wall ∧ (f x).hits = x.hits) →
          (∀ x : Motor, x.st = .calibrating → 5 ≤ x.hits → toNormal (f x) < toNormal m) → (m.calib = 1 ∨ m.calib = 2 ∨ m.calib = 3) →
          MInv (if (({ m with need := true, wall := m.wall + 1 } : Motor).seek 5 o i.first i.more).1 = true then
              f (({ m with need := true, wall := m.wall + 1 } : Motor).seek 5 o i.first i.more).2.1
              else (({ m with need := true, wall := m.wall + 1 } : Motor).seek 5 o i.first i.more).2.1) →
          let m' := (if (({ m with need := true, wall := m.wall + 1 } : Motor).seek 5 o i.first i.more).1 = true then
              f (({ m with need := true, wall := m.wall + 1 } : Motor).seek 5 o i.first i.more).2.1
              else (({ m with need := true, wall := m.wall + 1 } : Motor).seek 5 o i.first i.more).2.1)
          SInv m' ∧ (toWithdrawn m ≠ 0 → toWithdrawn m' < toWithdrawn m) ∧ (toWithdrawn m = 0 → toWithdrawn m' = 0) ∧
          ((MState.calibrating = .withdrawn → m.fitted = true) → toWithdrawn m = 0 → MState.calibrating ≠ .normal →
            toNormal m' < toNormal m ∧ m'.st ≠ .withdrawn) := by
        intro o f hf1 hf2 hcal hIm
        dsimp only
        obtain ⟨h', a, b, he', _, _, ht, hf, _⟩ := seek_eq 5 o (by decide) i.more { m with need := true, wall := m.wall + 1 } i.first hi.tfo hi.trev
        have hs := seek_hits 5 o i.more { m with need := true, wall := m.wall + 1 } i.first hh hm
        generalize hseek : ({ m with need := true, wall := m.wall + 1 } : Motor).seek 5 o i.first i.more = z at *
        rw [he'] at hs hIm ⊢
        dsimp only at hs
        by_cases hx : z.1 = true
        · rw [if_pos hx] at hIm ⊢
          have h5 := ht hx
          have g2 := hf2 { m with need := true, wall := m.wall + 1, hits := h', tfo := a, trev := b } hst h5
          have g1 := hf1 { m with need := true, wall := m.wall + 1, hits := h', tfo := a, trev := b }
          have gst : (f { m with need := true, wall := m.wall + 1, hits := h', tfo := a, trev := b }).st = .calibrating := by
            rcases g1 with g | g
            · exact g.1.trans hst
            · exact g.1.trans hst
          refine ⟨⟨hIm, by rw [gst]; simp, fun _ => ?_⟩, fun h => absurd h0 h, fun _ => by simp [toWithdrawn, gst], fun _ _ _ => ⟨g2, by rw [gst]; simp⟩⟩
          rcases g1 with g | g
          · exact g.2
          · rw [g.2.1, g.2.2]
            have := hh4 (by omega)
            show m.wall + 1 ≤ h'
            omega
        · rw [if_neg hx] at hIm ⊢
          have hb : m.hits + 1 ≤ h' := by
            rcases hs with hs | hs
            · exact absurd hs hx
            · exact hs
          have hlt : h' < 5 := hf (by simpa using hx)
          refine ⟨⟨hIm, by simp [hst], fun _ => by show m.wall + 1 ≤ h'; omega⟩, fun h => absurd h0 h, fun _ => by simp [toWithdrawn, hst],
            fun _ _ _ => ⟨?_, by simp [hst]⟩⟩
          simp only [toNormal, hst]
          rcases hcal with h | h | h <;> rw [h] <;> simp <;> omega
      unfold Motor.calibrate at hI ⊢
      dsimp only at hI ⊢
      by_cases hd : i.defer = true
      · rw [if_pos hd] at hI ⊢
        exact fin _ hI rfl
      rw [if_neg hd] at hI ⊢
      rw [if_neg (by omega)] at hI ⊢
      by_cases c0 : m.calib = 0
      · rw [if_pos c0] at hI ⊢
        refine ⟨⟨hI, by simp [hst], fun _ => Nat.le_refl 0⟩, fun h => absurd h0 h, fun _ => by simp [toWithdrawn, hst], fun _ _ _ => ⟨?_, by simp [hst]⟩⟩
        simp [toNormal, hst, c0]
      rw [if_neg c0] at hI ⊢
      by_cases c1 : m.calib = 1
      · rw [if_pos c1] at hI ⊢
        refine srch true (fun x => { x with tfo := 0, trev := 0, wall := 0, hits := 0, calib := 2 }) (fun x => .inl ⟨rfl, Nat.le_refl 0⟩) ?_ (.inl c1) hI
        intro x hx _
        simp only [toNormal, hst, hx, c1]
        have := hh4 (by omega)
        simp; omega
      rw [if_neg c1] at hI ⊢
      by_cases c2 : m.calib = 2
      · rw [if_pos c2] at hI ⊢
        refine srch false (fun x => { x with cOtc := x.tfo, wall := 0, hits := 0, calib := 3 }) (fun x => .inl ⟨rfl, Nat.le_refl 0⟩) ?_ (.inr (.inl c2)) hI
        intro x hx _
        simp only [toNormal, hst, hx, c2]
        have := hh4 (by omega)
        simp; omega
      rw [if_neg c2] at hI ⊢
      by_cases c3 : m.calib = 3
      · rw [if_pos c3] at hI ⊢
        refine srch true (fun x => { x with cCto := x.trev, tfo := 0, trev := 0, calib := 4 }) (fun x => .inr ⟨rfl, rfl, rfl⟩) ?_ (.inr (.inr c3)) hI
        intro x hx _
        simp only [toNormal, hst, hx, c3]
        have := hh4 (by omega)
        simp; omega
      rw [if_neg c3] at hI ⊢
      have c4 : m.calib = 4 := by omega
      rw [if_pos c4] at hI ⊢
      exact fin _ hI rfl
    · have e : (m.poll i).1 = m.changeState .normal := by
        unfold Motor.poll; rw [if_neg hl2, hst]; dsimp only; rw [if_neg hp]
      rw [e] at hI ⊢
      exact fin _ hI rfl
  | normal =>
    have h0 : toWithdrawn m = 0 := by simp [toWithdrawn, hst]
    have hed := (poll_ok m (m.hits, some true) i hi ⟨Nat.le_refl _, fun _ => rfl⟩).edge
    have hs' : (m.poll i).1.st = .normal ∨ (m.poll i).1.st = .calibrating ∧ (m.poll i).1.wall = 0 := by
      rw [hst] at hed
      rcases hed with h | h
      · exact .inl h
      · right
        refine ⟨h, ?_⟩
        have hc : (m.poll i).1.st = .calibrating := h
        have hcases : (m.poll i).1 = m.changeState .calibrating ∨ (m.poll i).1.st = .normal := by
          exact normal_poll m i hst hl2
        rcases hcases with h' | h'
        · rw [h']; rfl
        · rw [hc] at h'; cases h'
    refine ⟨?_, fun h => absurd h0 h, fun _ => ?_, fun _ _ h => absurd rfl h⟩
    · rcases hs' with h | h
      · exact ⟨hI, by rw [h]; simp, by rw [h]; simp⟩
      · exact ⟨hI, by rw [h.1]; simp, fun _ => by rw [h.2]; omega⟩
    · rcases hs' with h | h <;> simp [toWithdrawn, h]
  | error => exact absurd hst hok

theorem start_other (m : Motor) (e : MEv) (h : SInv m) (he : ∀ i, e = .poll i → m.limit ≤ i.sct) :
    SInv (m.step e).1 ∧ toWithdrawn (m.step e).1 = toWithdrawn m ∧ toNormal (m.step e).1 = toNormal m ∧ (m.step e).1.st = m.st ∧
      (m.fitted = true → (m.step e).1.fitted = true) := by
  have hI := (step_ok m (m.hits, some true) e h.inv ⟨Nat.le_refl _, fun _ => rfl⟩).inv
  cases e with
  | poll i =>
    have : m.poll i = (m, []) := C62_late_poll m i (he i rfl)
    have e : (m.step (.poll i)).1 = m := congrArg Prod.fst this
    rw [e]
    exact ⟨h, rfl, rfl, rfl, fun h => h⟩
  | fitted =>
    simp only [Motor.step, Motor.signalFitted] at hI ⊢
    split
    · rename_i hs
      rw [if_pos hs] at hI
      exact ⟨⟨hI, h.ok, h.wall⟩, rfl, rfl, rfl, fun _ => rfl⟩
    · exact ⟨h, rfl, rfl, rfl, fun h => h⟩
  | target pc => exact ⟨⟨hI, h.ok, h.wall⟩, rfl, rfl, rfl, fun h => h⟩
  | wiggle i =>
    obtain ⟨a, b, hw⟩ := wiggle_fields m i h.inv.tfo h.inv.trev
    have e : (m.step (.wiggle i)).1 = { m with tfo := a, trev := b } := hw
    rw [e] at hI ⊢
    exact ⟨⟨hI, h.ok, h.wall⟩, rfl, rfl, rfl, fun h => h⟩

/-- A history of a working motor. -/
theorem start_run (l : List MEv) : ∀ m : Motor, SInv m → (∀ i, .poll i ∈ l → Working m.limit i) →
    SInv (m.runAll l).1 ∧ (m.runAll l).1.limit = m.limit ∧ toWithdrawn (m.runAll l).1 ≤ toWithdrawn m - earlyPolls m.limit l := by
  induction l with
  | nil => intro m h _; exact ⟨h, rfl, Nat.le_refl _⟩
  | cons e t ih =>
    intro m h hw
    have hlim := step_limit m e h.inv
    by_cases hearly : ∃ i, e = .poll i ∧ i.sct < m.limit
    · obtain ⟨i, rfl, hi⟩ := hearly
      have hx : i.first.hit = true ∧ ∀ r ∈ i.more, r.hit = true := by
        rcases hw i (by simp) with h' | h'
        · omega
        · exact h'
      obtain ⟨a, b, c, -⟩ := start_poll m i h hi hx.1 hx.2
      obtain ⟨i1, i2, i3⟩ := ih (m.poll i).1 a (by rw [show (m.poll i).1.limit = m.limit from hlim]; exact fun j hj => hw j (List.mem_cons_of_mem _ hj))
      have hlim' : (m.poll i).1.limit = m.limit := hlim
      rw [hlim'] at i2 i3
      have hc : earlyPolls m.limit (.poll i :: t) = earlyPolls m.limit t + 1 := by
        unfold earlyPolls; rw [List.countP_cons_of_pos (by simpa using hi)]
      refine ⟨i1, i2, ?_⟩
      show toWithdrawn ((m.poll i).1.runAll t).1 ≤ _
      rw [hc]
      by_cases h0 : toWithdrawn m = 0
      · rw [c h0] at i3; omega
      · have := b h0; omega
    · have he : ∀ i, e = .poll i → m.limit ≤ i.sct := fun i hi => by
        apply Nat.le_of_not_lt; intro h'; exact hearly ⟨i, hi, h'⟩
      obtain ⟨a, b, -⟩ := start_other m e h he
      obtain ⟨i1, i2, i3⟩ := ih (m.step e).1 a (by rw [hlim]; exact fun j hj => hw j (List.mem_cons_of_mem _ hj))
      rw [hlim] at i2 i3
      rw [b] at i3
      have hc : earlyPolls m.limit (e :: t) = earlyPolls m.limit t := by
        unfold earlyPolls
        rw [List.countP_cons_of_neg]
        cases e with
        | poll i => have := he i rfl; simp; omega
        | fitted => simp
        | target pc => simp
        | wiggle i => simp
      exact ⟨i1, i2, by rw [hc]; exact i3⟩

/-- From a fitted valve on, normal running is reached. -/
theorem fitted_run (l : List MEv) : ∀ m : Motor, SInv m → (∀ i, .poll i ∈ l → Working m.limit i) → toWithdrawn m = 0 →
    (m.st = .withdrawn → m.fitted = true) → toNormal m ≤ earlyPolls m.limit l →
    ∃ l₁ l₂, l = l₁ ++ l₂ ∧ (m.runAll l₁).1.st = .normal := by
  induction l with
  | nil =>
    intro m h _ h0 hf hn
    have hn : toNormal m = 0 := by simpa [earlyPolls] using hn
    refine ⟨[], [], rfl, ?_⟩
    show m.st = .normal
    cases hst : m.st with
    | init => simp [toWithdrawn, hst] at h0
    | initWaiting => simp [toWithdrawn, hst] at h0
    | withdrawing =>
      have := h.inv.hitsN (by rw [hst]; simp)
      simp [toWithdrawn, hst] at h0; omega
    | withdrawn => simp [toNormal, hst] at hn
    | calibrating =>
      simp only [toNormal, hst] at hn
      split at hn
      · omega
      split at hn
      · omega
      split at hn
      · omega
      split at hn <;> omega
    | normal => rfl
    | error => exact absurd hst h.ok
  | cons e t ih =>
    intro m h hw h0 hf hn
    by_cases hnorm : m.st = .normal
    · exact ⟨[], e :: t, rfl, hnorm⟩
    have hlim := step_limit m e h.inv
    have go : SInv (m.step e).1 → toWithdrawn (m.step e).1 = 0 → ((m.step e).1.st = .withdrawn → (m.step e).1.fitted = true) →
        toNormal (m.step e).1 ≤ earlyPolls m.limit t → ∃ l₁ l₂, e :: t = l₁ ++ l₂ ∧ (m.runAll l₁).1.st = .normal := by
      intro a b c d
      obtain ⟨l₁, l₂, hl, hs⟩ := ih (m.step e).1 a (by rw [hlim]; exact fun j hj => hw j (List.mem_cons_of_mem _ hj)) b c (by rw [hlim]; exact d)
      exact ⟨e :: l₁, l₂, by rw [hl]; rfl, hs⟩
    by_cases hearly : ∃ i, e = .poll i ∧ i.sct < m.limit
    · obtain ⟨i, rfl, hi⟩ := hearly
      have hx : i.first.hit = true ∧ ∀ r ∈ i.more, r.hit = true := by
        rcases hw i (by simp) with h' | h'
        · omega
        · exact h'
      obtain ⟨a, b, c, d⟩ := start_poll m i h hi hx.1 hx.2
      have hc : earlyPolls m.limit (.poll i :: t) = earlyPolls m.limit t + 1 := by
        unfold earlyPolls; rw [List.countP_cons_of_pos (by simpa using hi)]
      obtain ⟨d1, d2⟩ := d hf h0 hnorm
      exact go a (c h0) (fun h => absurd h d2) (by show toNormal (m.poll i).1 ≤ _; omega)
    · have he : ∀ i, e = .poll i → m.limit ≤ i.sct := fun i hi => by
        apply Nat.le_of_not_lt; intro h'; exact hearly ⟨i, hi, h'⟩
      obtain ⟨a, b, c, d, f⟩ := start_other m e h he
      have hc : earlyPolls m.limit (e :: t) = earlyPolls m.limit t := by
        unfold earlyPolls
        rw [List.countP_cons_of_neg]
        cases e with
        | poll i => have := he i rfl; simp; omega
        | fitted => simp
        | target pc => simp
        | wiggle i => simp
      exact go a (b.trans h0) (fun h => f (hf (by rw [← d]; exact h))) (by rw [c]; omega)

theorem start_new (prop : Bool) (limit minDR tfo trev : Nat) (h1 : tfo ≤ 65535) (h2 : trev ≤ 65535) : SInv (Motor.new prop limit minDR tfo trev) :=
  ⟨(new_inv prop limit minDR tfo trev h1 h2 (0, none)).1, by simp [Motor.new], by simp [Motor.new]⟩

/-! ## Theorems -/

/-- **C248.** A motor in working order never gets into the error state: whatever the history, if at each poll that is not too late every run of
the motor reports the end of its travel. -/
theorem C248_no_error (prop : Bool) (limit minDR tfo trev : Nat) (h1 : tfo ≤ 65535) (h2 : trev ≤ 65535) (l : List MEv)
    (hw : ∀ i, .poll i ∈ l → Working limit i) : ((Motor.new prop limit minDR tfo trev).runAll l).1.st ≠ .error :=
  (start_run l _ (start_new prop limit minDR tfo trev h1 h2) hw).1.ok

/-- **C248.** Such a motor has its pin withdrawn, ready for fitting (or is further on), after 21 polls that are not too late, whatever else happens
between them. -/
theorem C248_withdrawn (prop : Bool) (limit minDR tfo trev : Nat) (h1 : tfo ≤ 65535) (h2 : trev ≤ 65535) (l : List MEv)
    (hw : ∀ i, .poll i ∈ l → Working limit i) (hn : 21 ≤ earlyPolls limit l) :
    let s := ((Motor.new prop limit minDR tfo trev).runAll l).1.st
    s = .withdrawn ∨ s = .calibrating ∨ s = .normal := by
  obtain ⟨a, -, c⟩ := start_run l _ (start_new prop limit minDR tfo trev h1 h2) hw
  have c0 : toWithdrawn ((Motor.new prop limit minDR tfo trev).runAll l).1 = 0 := by
    have e : toWithdrawn (Motor.new prop limit minDR tfo trev) = 21 := rfl
    have e' : (Motor.new prop limit minDR tfo trev).limit = limit := rfl
    rw [e, e'] at c
    omega
  dsimp only
  cases hst : ((Motor.new prop limit minDR tfo trev).runAll l).1.st with
  | init => simp [toWithdrawn, hst] at c0
  | initWaiting => simp [toWithdrawn, hst] at c0
  | withdrawing =>
    have := a.inv.hitsN (by rw [hst]; simp)
    simp [toWithdrawn, hst] at c0; omega
  | withdrawn => simp
  | calibrating => simp
  | normal => simp
  | error => exact absurd hst a.ok

/-- **C248.** And once the user then signals that the valve is fitted, it gets into normal running within 18 polls that are not too late, whatever
else happens between them. -/
theorem C248_normal (prop : Bool) (limit minDR tfo trev : Nat) (h1 : tfo ≤ 65535) (h2 : trev ≤ 65535) (l l' : List MEv)
    (hw : ∀ i, .poll i ∈ l ++ .fitted :: l' → Working limit i) (hn : 21 ≤ earlyPolls limit l) (hn' : 18 ≤ earlyPolls limit l') :
    ∃ l₁ l₂, l' = l₁ ++ l₂ ∧ ((Motor.new prop limit minDR tfo trev).runAll (l ++ .fitted :: l₁)).1.st = .normal := by
  have hwl : ∀ i, .poll i ∈ l → Working limit i := fun i hi => hw i (List.mem_append_left _ hi)
  have hs := C248_withdrawn prop limit minDR tfo trev h1 h2 l hwl hn
  obtain ⟨a, b, -⟩ := start_run l _ (start_new prop limit minDR tfo trev h1 h2) hwl
  have b' : ((Motor.new prop limit minDR tfo trev).runAll l).1.limit = limit := b
  have key : ∀ l₁, ((Motor.new prop limit minDR tfo trev).runAll (l ++ .fitted :: l₁)).1 =
      (((Motor.new prop limit minDR tfo trev).runAll l).1.signalFitted.runAll l₁).1 := by
    intro l₁; rw [runAll_append]; rfl
  dsimp only at hs
  generalize ((Motor.new prop limit minDR tfo trev).runAll l).1 = m at *
  obtain ⟨f1, f2, f3, f4, -⟩ := start_other m .fitted a (fun i h => by cases h)
  have f1 : SInv m.signalFitted := f1
  have f4 : m.signalFitted.st = m.st := f4
  have hlim : m.signalFitted.limit = limit := (step_limit m .fitted a.inv).trans b'
  have f0 : toWithdrawn m.signalFitted = 0 := by
    rcases hs with h | h | h <;> simp [toWithdrawn, f4, h]
  have hfit : m.signalFitted.st = .withdrawn → m.signalFitted.fitted = true := by
    rw [f4]; intro h; unfold Motor.signalFitted; rw [if_pos h]
  have hle : toNormal m.signalFitted ≤ 18 := by
    have h5 := f1.inv.hits
    simp only [toNormal]
    split
    · omega
    · split
      · omega
      split
      · omega
      split
      · omega
      split <;> omega
    · omega
  obtain ⟨l₁, l₂, hl, hn⟩ := fitted_run l' m.signalFitted f1 (by
    rw [hlim]; exact fun i hi => hw i (List.mem_append_right _ (List.mem_cons_of_mem _ hi))) f0 hfit (by rw [hlim]; omega)
  exact ⟨l₁, l₂, hl, by rw [key]; exact hn⟩

/-! ## Non-vacuity -/

/-- A poll with the end stop reported at the one run there was time for. -/
def exOneRun : MIn := { sct := 10, first := ⟨true, 3, 220⟩ }

example : Working 200 exOneRun ∧ Working 200 { exOneRun with sct := 230, first := ⟨false, 0, 0⟩ } :=
  ⟨.inr ⟨rfl, fun r hr => by simp [exOneRun] at hr⟩, .inl (by decide)⟩

/-- The counts are exact: with one run a poll, 21 polls are needed to withdraw and 18 more from fitting to normal running. -/
example : ((Motor.new true 200 40 0 0).runAll (List.replicate 20 (.poll exOneRun))).1.st = .withdrawing ∧
    ((Motor.new true 200 40 0 0).runAll (List.replicate 21 (.poll exOneRun))).1.st = .withdrawn ∧
    ((Motor.new true 200 40 0 0).runAll (List.replicate 21 (.poll exOneRun) ++ .fitted :: List.replicate 17 (.poll exOneRun))).1.st = .calibrating ∧
    ((Motor.new true 200 40 0 0).runAll (List.replicate 21 (.poll exOneRun) ++ .fitted :: List.replicate 18 (.poll exOneRun))).1.st = .normal := by
  decide +kernel

end OTR.Props
