import Verif.Model.Motor
/-!
# Lemmas about the motorised valve driver (for Props/Motor)
-/

namespace OTR.Props
open OTR

/-! ## What the pieces can change -/

theorem ticks_eq (m : Motor) (o : Bool) (k : Nat) (h1 : m.tfo ≤ 65535) (h2 : m.trev ≤ 65535) :
    ∃ a b, m.ticks o k = { m with tfo := a, trev := b } ∧ a ≤ 65535 ∧ b ≤ 65535 := by
  unfold Motor.ticks
  split
  · exact ⟨m.tfo, m.trev, rfl, h1, h2⟩
  split
  · exact ⟨m.tfo, _, rfl, h1, by omega⟩
  · exact ⟨_, m.trev, rfl, by omega, h2⟩

theorem hitEndstop_eq (m : Motor) (o : Bool) (h1 : m.tfo ≤ 65535) (h2 : m.trev ≤ 65535) (h3 : m.cp.otc ≤ 65535) :
    ∃ a b, m.hitEndstop o = { m with cur := if o then 100 else 0, tfo := a, trev := b } ∧ a ≤ 65535 ∧ b ≤ 65535 := by
  unfold Motor.hitEndstop
  split
  · exact ⟨_, _, rfl, by split <;> omega, by omega⟩
  · exact ⟨m.tfo, m.trev, rfl, h1, h2⟩

/-- Closed form of the reverse-folding loop. -/
theorem fold_eq (c : Calib) (tfo trev : Nat) :
    c.fold tfo trev = (tfo - trev / c.ctoS * c.otcS, if c.ctoS = 0 then trev else trev % c.ctoS) := by
  induction trev using Nat.strongRecOn generalizing tfo with
  | ind trev ih =>
    rw [Calib.fold]
    by_cases h : trev ≥ c.ctoS ∧ c.ctoS ≠ 0
    · rw [if_pos h]
      have h0 : c.ctoS ≠ 0 := h.2
      rw [ih _ (by omega), if_neg h0, if_neg h0]
      have e1 : trev / c.ctoS = (trev - c.ctoS) / c.ctoS + 1 := by
        rw [Nat.div_eq trev, if_pos ⟨by omega, h.1⟩]
      have e2 : trev % c.ctoS = (trev - c.ctoS) % c.ctoS := by
        rw [Nat.mod_eq_sub_mod h.1]
      rw [e1, e2, Nat.add_mul]
      congr 1
      split <;> omega
    · rw [if_neg h]
      by_cases h0 : c.ctoS = 0
      · simp [h0]
      · have : trev < c.ctoS := by omega
        rw [if_neg h0, Nat.div_eq_of_lt this, Nat.mod_eq_of_lt this]; simp

theorem position_le (c : Calib) (a b : Nat) : (c.position a b).1 ≤ 100 := by
  unfold Calib.position
  dsimp only
  split
  · exact Nat.le_refl _
  split
  · exact Nat.zero_le _
  · dsimp only
    rename_i h1 h2
    apply Nat.div_le_of_le_mul
    rw [Nat.mul_comm c.otc]
    have : c.otc - (c.fold a b).1 ≤ c.otc := Nat.sub_le _ _
    omega

theorem position_snd (c : Calib) (a b : Nat) : (c.position a b).2 = c.fold a b := by
  unfold Calib.position
  dsimp only
  split
  · rfl
  · split <;> rfl

theorem recompute_eq (m : Motor) (h1 : m.tfo ≤ 65535) (h2 : m.trev ≤ 65535) :
    ∃ c a b, m.recompute = { m with cur := c, tfo := a, trev := b } ∧ (c = m.cur ∨ 1 ≤ c ∧ c ≤ 99) ∧
      a ≤ 65535 ∧ b ≤ 65535 := by
  unfold Motor.recompute
  split
  · dsimp only
    refine ⟨_, _, _, rfl, .inr ⟨by omega, by omega⟩, ?_, ?_⟩
    · rw [position_snd, fold_eq]; dsimp only; omega
    · rw [position_snd, fold_eq]; dsimp only
      split
      · exact h2
      · have := Nat.mod_le m.trev m.cp.ctoS; omega
  · exact ⟨m.cur, m.tfo, m.trev, rfl, .inl rfl, h1, h2⟩

/-- The effect of a list of commands on a count of consecutive end-stop reports: number of reports since the last run
without one, and the direction of the last run. -/
def after (g : Nat × Option Bool) : List Drive → Nat × Option Bool
  | [] => g
  | .drive o true :: t => after (g.1 + 1, some o) t
  | .drive o false :: t => after (0, some o) t
  | _ :: t => after g t

theorem after_append (l₁ l₂ : List Drive) : ∀ g, after g (l₁ ++ l₂) = after (after g l₁) l₂ := by
  induction l₁ with
  | nil => intro g; rfl
  | cons d t ih =>
    intro g
    cases d with
    | off => exact ih g
    | nudge o => exact ih g
    | drive o h => cases h <;> exact ih _

theorem seekOne_eq (need : Nat) (o : Bool) (m : Motor) (r : MRun) (h1 : m.tfo ≤ 65535) (h2 : m.trev ≤ 65535) :
    ∃ a b, (m.seekOne need o r).2 = { m with hits := if r.hit then m.hits + 1 else 0, tfo := a, trev := b } ∧
      a ≤ 65535 ∧ b ≤ 65535 ∧
      ((m.seekOne need o r).1 = true ↔ r.hit = true ∧ m.hits + 1 ≥ need) := by
  obtain ⟨a, b, h, ha, hb⟩ := ticks_eq m o r.ticks h1 h2
  unfold Motor.seekOne Motor.run
  rw [h]
  cases hr : r.hit <;> exact ⟨a, b, by simp, ha, hb, by simp⟩

theorem seek_eq (need : Nat) (o : Bool) (hneed : 0 < need) (l : List MRun) : ∀ (m : Motor) (r : MRun), m.tfo ≤ 65535 → m.trev ≤ 65535 →
    ∃ h a b, (m.seek need o r l).2.1 = { m with hits := h, tfo := a, trev := b } ∧ a ≤ 65535 ∧ b ≤ 65535 ∧
      ((m.seek need o r l).1 = true → h ≥ need) ∧ ((m.seek need o r l).1 = false → h < need) ∧ h ≤ max need (m.hits + 1) ∧
      (∀ g : Nat × Option Bool, m.hits ≤ g.1 → h ≤ (after g (m.seek need o r l).2.2).1 ∧
        (after g (m.seek need o r l).2.2).2 = some o) ∧
      (∀ d ∈ (m.seek need o r l).2.2, d = .off ∨ ∃ x, d = .drive o x) ∧
      (∃ t, (m.seek need o r l).2.2 = t ++ [.off]) := by
  induction l with
  | nil =>
    intro m r h1 h2
    obtain ⟨a, b, he, ha, hb, hf⟩ := seekOne_eq need o m r h1 h2
    refine ⟨_, a, b, he, ha, hb, ?_, ?_, ?_, ?_, ?_, ⟨[.drive o r.hit], rfl⟩⟩
    · intro h
      have := hf.1 h
      rw [if_pos this.1]; exact this.2
    · intro h
      have hn : ¬ (r.hit = true ∧ m.hits + 1 ≥ need) := fun hx => by
        have := hf.2 hx; rw [Motor.seek] at h; simp [this] at h
      split
      · rename_i hr; have : ¬ m.hits + 1 ≥ need := fun hx => hn ⟨hr, hx⟩; omega
      · omega
    · split <;> omega
    · intro g hg
      simp only [Motor.seek, Motor.runCmds]
      cases hr : r.hit <;> simp [after] <;> omega
    · intro d hd
      simp [Motor.seek, Motor.runCmds] at hd
      rcases hd with rfl | rfl
      · exact .inr ⟨_, rfl⟩
      · exact .inl rfl
  | cons r' t ih =>
    intro m r h1 h2
    obtain ⟨a, b, he, ha, hb, hf⟩ := seekOne_eq need o m r h1 h2
    rw [Motor.seek]
    dsimp only
    split
    · dsimp only
      refine ⟨_, a, b, he, ha, hb, ?_, ?_, ?_, ?_, ?_, ⟨[.drive o r.hit], rfl⟩⟩
      · intro h
        have := hf.1 h
        rw [if_pos this.1]; exact this.2
      · intro h
        have hn : ¬ (r.hit = true ∧ m.hits + 1 ≥ need) := fun hx => by
          have := hf.2 hx; simp [this] at h
        split
        · rename_i hr; have : ¬ m.hits + 1 ≥ need := fun hx => hn ⟨hr, hx⟩; omega
        · omega
      · split <;> omega
      · intro g hg
        simp only [Motor.runCmds]
        cases hr : r.hit <;> simp [after] <;> omega
      · intro d hd
        simp [Motor.runCmds] at hd
        rcases hd with rfl | rfl
        · exact .inr ⟨_, rfl⟩
        · exact .inl rfl
    · rename_i hc
      dsimp only
      have hnf : ¬ (r.hit = true ∧ m.hits + 1 ≥ need) := fun hx => hc (.inl (hf.2 hx))
      have h1' : (m.seekOne need o r).2.tfo ≤ 65535 := by rw [he]; exact ha
      have h2' : (m.seekOne need o r).2.trev ≤ 65535 := by rw [he]; exact hb
      obtain ⟨h, a', b', he', ha', hb', c1, c2, c3, c4, c5, t', c6⟩ := ih (m.seekOne need o r).2 r' h1' h2'
      refine ⟨h, a', b', ?_, ha', hb', c1, c2, ?_, ?_, ?_, ⟨Motor.runCmds o r ++ t', by rw [c6]; simp⟩⟩
      · rw [he', he]
      · have : (m.seekOne need o r).2.hits = if r.hit = true then m.hits + 1 else 0 := by rw [he]
        rw [this] at c3
        split at c3
        · rename_i hr; have : ¬ m.hits + 1 ≥ need := fun hx => hnf ⟨hr, hx⟩; omega
        · omega
      · intro g hg
        rw [after_append]
        apply c4
        rw [he]
        simp only [Motor.runCmds]
        cases hr : r.hit <;> simp [after] <;> omega
      · intro d hd
        rw [List.mem_append] at hd
        rcases hd with hd | hd
        · simp [Motor.runCmds] at hd
          rcases hd with rfl | rfl
          · exact .inr ⟨_, rfl⟩
          · exact .inl rfl
        · exact c5 d hd

/-- What holds of a driver at all times (in particular every 8-bit counter is far below its limit). -/
structure MInv (m : Motor) : Prop where
  cur : m.cur ≤ 100
  target : m.target ≤ 100
  tfo : m.tfo ≤ 65535
  trev : m.trev ≤ 65535
  cOtc : m.cOtc ≤ 65535
  cCto : m.cCto ≤ 65535
  otc : m.cp.otc ≤ 65535
  prec : m.cp.prec ≤ 100
  wall : m.wall ≤ 120
  waited : m.waited ≤ 15
  calib : m.calib ≤ 4
  hits : m.hits ≤ 5
  calib4 : m.calib = 4 → m.hits = 5
  calibSt : m.calib ≠ 0 → m.st = .calibrating
  hitsN : m.st ≠ .calibrating → m.hits ≤ 3
  hitsC : m.calib ≠ 4 → m.hits ≤ 4

/-- The counts kept by the driver never exceed what was really reported. -/
structure MGhost (m : Motor) (g : Nat × Option Bool) : Prop where
  hits : m.hits ≤ g.1
  dir : m.calib = 4 → g.2 = some true

/-- Permitted changes of state. -/
def Edge : MState → MState → Prop
  | .init, s => s = .initWaiting
  | .initWaiting, s => s = .withdrawing
  | .withdrawing, s => s = .withdrawn ∨ s = .error
  | .withdrawn, s => s = .calibrating
  | .calibrating, s => s = .normal ∨ s = .error
  | .normal, s => s = .calibrating
  | .error, _ => False

/-- Everything needed about one poll. -/
structure PollOK (m : Motor) (g : Nat × Option Bool) (r : Motor × List Drive) : Prop where
  inv : MInv r.1
  ghost : MGhost r.1 (after g r.2)
  cur : r.1.cur = m.cur ∨ (1 ≤ r.1.cur ∧ r.1.cur ≤ 99) ∨
    (r.1.cur = 100 ∧ 4 ≤ (after g r.2).1 ∧ (after g r.2).2 = some true) ∨
    (r.1.cur = 0 ∧ 4 ≤ (after g r.2).1 ∧ (after g r.2).2 = some false)
  edge : r.1.st = m.st ∨ Edge m.st r.1.st
  off : r.2 = [] ∨ ∃ t, r.2 = t ++ [.off]
  closing : ∀ x, .drive false x ∈ r.2 → m.st = .calibrating ∨ m.st = .normal
  err : m.st = .error → r.1.st = .error ∧ r.1.cur = m.cur ∧ ∀ d ∈ r.2, d = .off

theorem wiggle_ok (m : Motor) (i : MIn) (h1 : m.tfo ≤ 65535) (h2 : m.trev ≤ 65535) :
    ∃ a b, m.wiggle i = { m with tfo := a, trev := b } ∧ a ≤ 65535 ∧ b ≤ 65535 := by
  unfold Motor.wiggle
  obtain ⟨a, b, h, ha, hb⟩ := ticks_eq m true i.wigO h1 h2
  rw [h]
  obtain ⟨a', b', h', ha', hb'⟩ := ticks_eq { m with tfo := a, trev := b } false i.wigC ha hb
  exact ⟨a', b', h', ha', hb'⟩

theorem update_bounds (t f d : Nat) (ht : t ≤ 65535) : (Calib.update t f d).2.otc ≤ 65535 ∧ (Calib.update t f d).2.prec ≤ 100 := by
  unfold Calib.update
  dsimp only
  split
  · exact ⟨ht, Nat.le_refl _⟩
  split
  · exact ⟨ht, Nat.le_refl _⟩
  split
  · exact ⟨ht, Nat.le_refl _⟩
  split
  · exact ⟨ht, Nat.le_refl _⟩
  · exact ⟨ht, by dsimp only; omega⟩

theorem withdraw_ok (m : Motor) (g : Nat × Option Bool) (i : MIn) (hi : MInv m) (hg : MGhost m g)
    (hst : m.st = .withdrawing) : PollOK m g (m.withdraw i) := by
  obtain ⟨q1, q2, q3, q4, q5, q6, q7, q8, q9, q10, q11, q12, q13, q14, q15, q16⟩ := hi
  obtain ⟨g1, g2⟩ := hg
  unfold Motor.withdraw
  dsimp only
  have hc0 : m.calib = 0 := Classical.byContradiction fun h => by have := q14 h; rw [hst] at this; cases this
  have hh3 : m.hits ≤ 3 := q15 (by rw [hst]; simp)
  by_cases hw : m.wall + 1 > 120
  · rw [if_pos hw]
    constructor <;> simp_all [Motor.changeState, after, Edge]
    · constructor <;> simp_all
    · constructor <;> simp
  rw [if_neg hw]
  obtain ⟨h, a, b, he, ha, hb, c1, c2, c3, c4, c5, t, c6⟩ :=
    seek_eq 4 true (by omega) i.more { m with wall := m.wall + 1 } i.first q3 q4
  obtain ⟨d1, d2⟩ := c4 g g1
  dsimp only at c3
  generalize Motor.seek 4 true { m with wall := m.wall + 1 } i.first i.more = x at he c1 c2 c4 c5 c6 d1 d2
  obtain ⟨x1, x2, x3⟩ := x
  dsimp only at he c1 c2 c4 c5 c6 d1 d2 ⊢
  subst he
  cases x1 with
  | true =>
    have := c1 rfl
    obtain ⟨a', b', hx, ha', hb'⟩ := hitEndstop_eq { m with wall := m.wall + 1, hits := h, tfo := a, trev := b } true ha hb q7
    rw [if_pos rfl, hx]
    constructor <;> dsimp only [Motor.changeState]
    · constructor <;> simp_all
    · constructor <;> simp_all
    · right; right; left; exact ⟨rfl, by omega, d2⟩
    · right; rw [hst]; exact .inl rfl
    · exact .inr ⟨t, c6⟩
    · intro x hx; have := c5 _ hx; simp at this
    · rw [hst]; simp
  | false =>
    have := c2 rfl
    rw [if_neg (by simp)]
    constructor <;> dsimp only
    · constructor <;> simp_all <;> omega
    · constructor <;> simp_all
    · exact .inl rfl
    · exact .inl rfl
    · exact .inr ⟨t, c6⟩
    · intro x hx; have := c5 _ hx; simp at this
    · rw [hst]; simp

set_option maxHeartbeats 2000000 in
theorem calibrate_ok (m : Motor) (g : Nat × Option Bool) (i : MIn) (hi : MInv m) (hg : MGhost m g)
    (hst : m.st = .calibrating) : PollOK m g (m.calibrate i) := by
  obtain ⟨q1, q2, q3, q4, q5, q6, q7, q8, q9, q10, q11, q12, q13, q14, q15, q16⟩ := hi
  obtain ⟨g1, g2⟩ := hg
  unfold Motor.calibrate
  dsimp only
  by_cases hdf : i.defer = true
  · rw [if_pos hdf]
    constructor <;> simp_all [Motor.changeState, after, Edge]
    · constructor <;> simp_all
    · constructor <;> simp
  rw [if_neg hdf]
  by_cases hw : m.wall + 1 > 120
  · rw [if_pos hw]
    constructor <;> simp_all [Motor.changeState, after, Edge]
    · constructor <;> simp_all
    · constructor <;> simp
  rw [if_neg hw]
  have hseek : ∀ (o : Bool), ∃ h a b, (Motor.seek 5 o { m with need := true, wall := m.wall + 1 } i.first i.more).2.1 =
      { m with need := true, wall := m.wall + 1, hits := h, tfo := a, trev := b } ∧ a ≤ 65535 ∧ b ≤ 65535 ∧
      ((Motor.seek 5 o { m with need := true, wall := m.wall + 1 } i.first i.more).1 = true → h ≥ 5) ∧
      ((Motor.seek 5 o { m with need := true, wall := m.wall + 1 } i.first i.more).1 = false → h < 5) ∧
      h ≤ max 5 (m.hits + 1) ∧
      h ≤ (after g (Motor.seek 5 o { m with need := true, wall := m.wall + 1 } i.first i.more).2.2).1 ∧
      (after g (Motor.seek 5 o { m with need := true, wall := m.wall + 1 } i.first i.more).2.2).2 = some o ∧
      (∃ t, (Motor.seek 5 o { m with need := true, wall := m.wall + 1 } i.first i.more).2.2 = t ++ [.off]) := by
    intro o
    obtain ⟨h, a, b, he, ha, hb, c1, c2, c3, c4, c5, c6⟩ :=
      seek_eq 5 o (by omega) i.more { m with need := true, wall := m.wall + 1 } i.first q3 q4
    exact ⟨h, a, b, he, ha, hb, c1, c2, c3, (c4 g g1).1, (c4 g g1).2, c6⟩
  have hcs : m.calib = 0 ∨ m.calib = 1 ∨ m.calib = 2 ∨ m.calib = 3 ∨ m.calib = 4 := by omega
  rcases hcs with hc | hc | hc | hc | hc
  · rw [if_pos hc]
    constructor <;> simp_all [after, Edge]
    · constructor <;> simp_all
    · constructor <;> simp
  · have n0 : ¬ m.calib = 0 := by omega
    rw [if_neg n0, if_pos hc]
    have hh4 := q16 (by omega)
    obtain ⟨h, a, b, he, ha, hb, c1, c2, c3, d1, d2, t, c6⟩ := hseek true
    generalize Motor.seek 5 true { m with need := true, wall := m.wall + 1 } i.first i.more = x at *
    obtain ⟨x1, x2, x3⟩ := x
    dsimp only at he c1 c2 c6 d1 d2 ⊢
    subst he
    cases x1 with
    | true =>
      have := c1 rfl
      constructor <;> dsimp only
      · constructor <;> simp_all
      · constructor <;> simp_all
      · exact .inl rfl
      · exact .inl rfl
      · exact .inr ⟨t, c6⟩
      · intro _ _; exact .inl hst
      · rw [hst]; simp
    | false =>
      have := c2 rfl
      constructor <;> dsimp only
      · constructor <;> simp_all <;> omega
      · constructor <;> simp_all
      · exact .inl rfl
      · exact .inl rfl
      · exact .inr ⟨t, c6⟩
      · intro _ _; exact .inl hst
      · rw [hst]; simp
  · have n0 : ¬ m.calib = 0 := by omega
    have n1 : ¬ m.calib = 1 := by omega
    rw [if_neg n0, if_neg n1, if_pos hc]
    have hh4 := q16 (by omega)
    obtain ⟨h, a, b, he, ha, hb, c1, c2, c3, d1, d2, t, c6⟩ := hseek false
    generalize Motor.seek 5 false { m with need := true, wall := m.wall + 1 } i.first i.more = x at *
    obtain ⟨x1, x2, x3⟩ := x
    dsimp only at he c1 c2 c6 d1 d2 ⊢
    subst he
    cases x1 with
    | true =>
      have := c1 rfl
      constructor <;> dsimp only
      · constructor <;> simp_all
      · constructor <;> simp_all
      · exact .inl rfl
      · exact .inl rfl
      · exact .inr ⟨t, c6⟩
      · intro _ _; exact .inl hst
      · rw [hst]; simp
    | false =>
      have := c2 rfl
      constructor <;> dsimp only
      · constructor <;> simp_all <;> omega
      · constructor <;> simp_all
      · exact .inl rfl
      · exact .inl rfl
      · exact .inr ⟨t, c6⟩
      · intro _ _; exact .inl hst
      · rw [hst]; simp
  · have n0 : ¬ m.calib = 0 := by omega
    have n1 : ¬ m.calib = 1 := by omega
    have n2 : ¬ m.calib = 2 := by omega
    rw [if_neg n0, if_neg n1, if_neg n2, if_pos hc]
    have hh4 := q16 (by omega)
    obtain ⟨h, a, b, he, ha, hb, c1, c2, c3, d1, d2, t, c6⟩ := hseek true
    generalize Motor.seek 5 true { m with need := true, wall := m.wall + 1 } i.first i.more = x at *
    obtain ⟨x1, x2, x3⟩ := x
    dsimp only at he c1 c2 c6 d1 d2 ⊢
    subst he
    cases x1 with
    | true =>
      have := c1 rfl
      constructor <;> dsimp only
      · constructor <;> simp_all <;> omega
      · constructor <;> simp_all
      · exact .inl rfl
      · exact .inl rfl
      · exact .inr ⟨t, c6⟩
      · intro _ _; exact .inl hst
      · rw [hst]; simp
    | false =>
      have := c2 rfl
      constructor <;> dsimp only
      · constructor <;> simp_all <;> omega
      · constructor <;> simp_all
      · exact .inl rfl
      · exact .inl rfl
      · exact .inr ⟨t, c6⟩
      · intro _ _; exact .inl hst
      · rw [hst]; simp
  · have n0 : ¬ m.calib = 0 := by omega
    have n1 : ¬ m.calib = 1 := by omega
    have n2 : ¬ m.calib = 2 := by omega
    have n3 : ¬ m.calib = 3 := by omega
    rw [if_neg n0, if_neg n1, if_neg n2, if_neg n3, if_pos hc]
    obtain ⟨u1, u2⟩ := update_bounds m.cOtc m.cCto m.minDR q5
    have hh5 := q13 hc
    generalize Calib.update m.cOtc m.cCto m.minDR = U at *
    obtain ⟨a', b', hx, ha', hb'⟩ := hitEndstop_eq
      { m with need := false, wall := m.wall + 1, cp := U.2 } true q3 q4 u1
    rw [hx]
    constructor <;> dsimp only [Motor.changeState, after]
    · constructor <;> simp_all
    · constructor <;> simp
    · right; right; left; exact ⟨rfl, by omega, g2 hc⟩
    · rw [hst]; exact .inr (.inl rfl)
    · exact .inl rfl
    · simp
    · rw [hst]; simp

theorem normalBin_ok (m : Motor) (g : Nat × Option Bool) (i : MIn) (hi : MInv m) (hg : MGhost m g)
    (hst : m.st = .normal) : PollOK m g (m.normalBin i) := by
  obtain ⟨q1, q2, q3, q4, q5, q6, q7, q8, q9, q10, q11, q12, q13, q14, q15, q16⟩ := hi
  obtain ⟨g1, g2⟩ := hg
  have hc0 : m.calib = 0 := Classical.byContradiction fun h => by have := q14 h; rw [hst] at this; cases this
  have hh3 : m.hits ≤ 3 := q15 (by rw [hst]; simp)
  unfold Motor.normalBin
  dsimp only
  generalize decide (m.target ≥ 50) = o
  by_cases hcu : m.cur = (if o = true then 100 else 0)
  · rw [if_pos hcu]
    constructor <;> simp_all [after]
    · constructor <;> simp_all
    · constructor <;> simp_all
  rw [if_neg hcu]
  by_cases hlow : i.low = true ∧ m.target < m.cur
  · rw [if_pos hlow]
    constructor <;> simp_all [after]
    · constructor <;> simp_all
    · constructor <;> simp_all
  rw [if_neg hlow]
  obtain ⟨a, b, h, ha, hb⟩ := ticks_eq m o i.first.ticks q3 q4
  unfold Motor.run
  rw [h]
  dsimp only
  by_cases hh : i.first.hit = true
  · have hnn : ¬ ¬ i.first.hit = true := by simp [hh]
    rw [if_neg hnn]
    by_cases h4 : m.hits + 1 ≥ 4
    · rw [if_pos h4]
      obtain ⟨a', b', hx, ha', hb'⟩ := hitEndstop_eq { m with tfo := a, trev := b, hits := m.hits + 1 } o ha hb q7
      rw [hx]
      constructor <;> dsimp only [Motor.runCmds, hh]
      · constructor <;> simp_all
        split <;> omega
      · constructor <;> simp_all
      · rw [hh]
        dsimp only [after]
        cases o
        · right; right; right; exact ⟨rfl, by omega, rfl⟩
        · right; right; left; exact ⟨rfl, by omega, rfl⟩
      · exact .inl rfl
      · exact .inr ⟨[_], rfl⟩
      · intro _ _; exact .inr hst
      · rw [hst]; simp
    · rw [if_neg h4]
      constructor <;> dsimp only [Motor.runCmds]
      · constructor <;> simp_all <;> omega
      · rw [hh]; constructor <;> dsimp only [after]
        · omega
        · intro h; omega
      · exact .inl rfl
      · exact .inl rfl
      · exact .inr ⟨[_], rfl⟩
      · intro _ _; exact .inr hst
      · rw [hst]; simp
  · have hh : i.first.hit = false := by simpa using hh
    have hnn : ¬ i.first.hit = true := by simp [hh]
    rw [if_pos hnn]
    obtain ⟨c', a', b', hx, hcur, ha', hb'⟩ := recompute_eq { m with tfo := a, trev := b, hits := 0 } ha hb
    rw [hx]
    dsimp only at hcur
    constructor <;> dsimp only [Motor.runCmds]
    · constructor <;> simp_all
      rcases hcur with hcur | hcur <;> omega
    · rw [hh]; constructor <;> dsimp only [after]
      · omega
      · intro h; omega
    · rcases hcur with hcur | hcur
      · exact .inl hcur
      · exact .inr (.inl hcur)
    · exact .inl rfl
    · exact .inr ⟨[_], rfl⟩
    · intro _ _; exact .inr hst
    · rw [hst]; simp

theorem normalProp_ok (m : Motor) (g : Nat × Option Bool) (i : MIn) (hi : MInv m) (hg : MGhost m g)
    (hst : m.st = .normal) : ∀ r, m.normalProp i = some r → PollOK m g r := by
  obtain ⟨q1, q2, q3, q4, q5, q6, q7, q8, q9, q10, q11, q12, q13, q14, q15, q16⟩ := hi
  obtain ⟨g1, g2⟩ := hg
  have hc0 : m.calib = 0 := Classical.byContradiction fun h => by have := q14 h; rw [hst] at this; cases this
  have hh3 : m.hits ≤ 3 := q15 (by rw [hst]; simp)
  intro r hr
  unfold Motor.normalProp at hr
  by_cases hn : m.need = true ∧ ¬ i.defer = true
  · rw [if_pos hn] at hr
    simp only [Option.some.injEq] at hr
    subst hr
    constructor <;> simp_all [Motor.changeState, after, Edge]
    · constructor <;> simp_all
    · constructor <;> simp
  rw [if_neg hn] at hr
  by_cases hnp : m.nonProp = true
  · rw [if_pos hnp] at hr; simp at hr
  rw [if_neg hnp] at hr
  dsimp only at hr
  split at hr
  · simp at hr
  split at hr
  · simp at hr
  split at hr
  · simp only [Option.some.injEq] at hr
    subst hr
    constructor <;> simp_all [after]
    · constructor <;> simp_all
    · constructor <;> simp_all
  generalize decide (m.target > m.cur) = o at hr
  obtain ⟨a, b, h, ha, hb⟩ := ticks_eq m o i.first.ticks q3 q4
  unfold Motor.run at hr
  rw [h] at hr
  obtain ⟨c', a', b', hx, hcur, ha', hb'⟩ := recompute_eq { m with tfo := a, trev := b } ha hb
  rw [hx] at hr
  dsimp only at hr hcur
  have hc100 : c' ≤ 100 := by rcases hcur with hcur | hcur <;> omega
  by_cases hh : i.first.hit = true
  · rw [if_pos hh] at hr
    simp only [Option.some.injEq] at hr
    obtain ⟨nd, hnd⟩ : ∃ nd, (if (o = true ∧ c' < 100 - 19) ∨ (o = false ∧ c' > 19) then
        Motor.trackingError { m with cur := c', tfo := a', trev := b' } else { m with cur := c', tfo := a', trev := b' }) =
        { m with cur := c', tfo := a', trev := b', need := nd } := by
      split
      · exact ⟨true, rfl⟩
      · exact ⟨m.need, rfl⟩
    rw [hnd] at hr
    dsimp only at hr
    by_cases h4 : m.hits + 1 ≥ 4
    · rw [if_pos h4] at hr
      obtain ⟨a2, b2, hx2, ha2, hb2⟩ := hitEndstop_eq { m with cur := c', tfo := a', trev := b', need := nd, hits := m.hits + 1 } o ha' hb' q7
      rw [hx2] at hr
      subst hr
      constructor <;> dsimp only [Motor.runCmds]
      · constructor <;> simp_all
        split <;> omega
      · constructor <;> simp_all
      · rw [hh]
        dsimp only [after]
        cases o
        · right; right; right; exact ⟨rfl, by omega, rfl⟩
        · right; right; left; exact ⟨rfl, by omega, rfl⟩
      · exact .inl rfl
      · exact .inr ⟨[_], rfl⟩
      · intro _ _; exact .inr hst
      · rw [hst]; simp
    · rw [if_neg h4] at hr
      subst hr
      constructor <;> dsimp only [Motor.runCmds]
      · constructor <;> simp_all <;> omega
      · rw [hh]; constructor <;> dsimp only [after]
        · omega
        · intro h; omega
      · rcases hcur with hcur | hcur
        · exact .inl hcur
        · exact .inr (.inl hcur)
      · exact .inl rfl
      · exact .inr ⟨[_], rfl⟩
      · intro _ _; exact .inr hst
      · rw [hst]; simp
  · rw [if_neg hh] at hr
    have hh : i.first.hit = false := by simpa using hh
    simp only [Option.some.injEq] at hr
    subst hr
    constructor <;> dsimp only [Motor.runCmds]
    · constructor <;> simp_all
    · rw [hh]; constructor <;> dsimp only [after]
      · omega
      · intro h; omega
    · rcases hcur with hcur | hcur
      · exact .inl hcur
      · exact .inr (.inl hcur)
    · exact .inl rfl
    · exact .inr ⟨[_], rfl⟩
    · intro _ _; exact .inr hst
    · rw [hst]; simp

theorem poll_ok (m : Motor) (g : Nat × Option Bool) (i : MIn) (hi : MInv m) (hg : MGhost m g) : PollOK m g (m.poll i) := by
  obtain ⟨q1, q2, q3, q4, q5, q6, q7, q8, q9, q10, q11, q12, q13, q14, q15, q16⟩ := hi
  obtain ⟨g1, g2⟩ := hg
  unfold Motor.poll
  by_cases hl : i.sct ≥ m.limit
  · rw [if_pos hl]
    exact ⟨⟨q1, q2, q3, q4, q5, q6, q7, q8, q9, q10, q11, q12, q13, q14, q15, q16⟩, ⟨g1, g2⟩, .inl rfl, .inl rfl, .inl rfl,
      by simp, by simp⟩
  rw [if_neg hl]
  cases hst : m.st with
  | init =>
    dsimp only
    obtain ⟨a, b, h, ha, hb⟩ := wiggle_ok m i q3 q4
    rw [h]
    constructor <;> simp_all [Motor.changeState, Motor.wiggleCmds, after, Edge]
    · constructor <;> simp_all
    · constructor <;> simp
    · exact ⟨[.off, .nudge true, .nudge false], rfl⟩
  | initWaiting =>
    dsimp only
    split
    · constructor <;> simp_all [Edge, after]
      · constructor <;> simp_all; omega
      · constructor <;> simp_all
    · obtain ⟨a, b, h, ha, hb⟩ := wiggle_ok m i q3 q4
      rw [h]
      constructor <;> simp_all [Motor.changeState, Motor.wiggleCmds, after, Edge]
      · constructor <;> simp_all
      · constructor <;> simp
      · exact ⟨[.off, .nudge true, .nudge false], rfl⟩
  | withdrawing => exact withdraw_ok m g i ⟨q1, q2, q3, q4, q5, q6, q7, q8, q9, q10, q11, q12, q13, q14, q15, q16⟩ ⟨g1, g2⟩ hst
  | withdrawn =>
    dsimp only
    split
    · obtain ⟨a, b, h, ha, hb⟩ := wiggle_ok m i q3 q4
      rw [h]
      constructor <;> simp_all [Motor.changeState, Motor.wiggleCmds, after, Edge]
      · constructor <;> simp_all
      · constructor <;> simp
      · exact ⟨[.off, .nudge true, .nudge false], rfl⟩
    · constructor <;> simp_all [Edge, after]
      · constructor <;> simp_all
      · constructor <;> simp_all
  | calibrating =>
    dsimp only
    by_cases hp : m.prop = true
    · rw [if_pos hp]
      exact calibrate_ok m g i ⟨q1, q2, q3, q4, q5, q6, q7, q8, q9, q10, q11, q12, q13, q14, q15, q16⟩ ⟨g1, g2⟩ hst
    · rw [if_neg hp]
      constructor <;> simp_all [Motor.changeState, after, Edge]
      · constructor <;> simp_all
      · constructor <;> simp
  | normal =>
    dsimp only
    by_cases ht : m.cur = m.target
    · rw [if_pos ht]
      have hc0 : m.calib = 0 := Classical.byContradiction fun h => by have := q14 h; rw [hst] at this; cases this
      constructor <;> simp_all [after]
      · constructor <;> simp_all
      · constructor <;> simp_all
    rw [if_neg ht]
    have hbin := normalBin_ok m g i ⟨q1, q2, q3, q4, q5, q6, q7, q8, q9, q10, q11, q12, q13, q14, q15, q16⟩ ⟨g1, g2⟩ hst
    by_cases hp : m.prop = true
    · rw [if_pos hp]
      cases hr : m.normalProp i with
      | none => exact hbin
      | some r =>
        exact normalProp_ok m g i ⟨q1, q2, q3, q4, q5, q6, q7, q8, q9, q10, q11, q12, q13, q14, q15, q16⟩ ⟨g1, g2⟩ hst r hr
    · rw [if_neg hp]; exact hbin
  | error =>
    dsimp only
    constructor <;> simp_all [Motor.changeState, Motor.wiggleCmds, after, Edge]
    · constructor <;> simp_all
    · constructor <;> simp

/-! ## Histories -/

theorem runAll_append (a b : List MEv) : ∀ m : Motor, m.runAll (a ++ b) =
    (((m.runAll a).1.runAll b).1, (m.runAll a).2 ++ ((m.runAll a).1.runAll b).2) := by
  induction a with
  | nil => intro m; rfl
  | cons e t ih => intro m; simp [Motor.runAll, ih, List.append_assoc]

theorem runAll_snoc (a : List MEv) (e : MEv) (m : Motor) : m.runAll (a ++ [e]) =
    (((m.runAll a).1.step e).1, (m.runAll a).2 ++ ((m.runAll a).1.step e).2) := by
  rw [runAll_append]; simp [Motor.runAll]

/-- What holds of one event of any kind. -/
structure StepOK (m : Motor) (g : Nat × Option Bool) (r : Motor × List Drive) : Prop where
  inv : MInv r.1
  ghost : MGhost r.1 (after g r.2)
  cur : r.1.cur = m.cur ∨ (1 ≤ r.1.cur ∧ r.1.cur ≤ 99) ∨
    (r.1.cur = 100 ∧ 4 ≤ (after g r.2).1 ∧ (after g r.2).2 = some true) ∨
    (r.1.cur = 0 ∧ 4 ≤ (after g r.2).1 ∧ (after g r.2).2 = some false)
  edge : r.1.st = m.st ∨ Edge m.st r.1.st
  off : r.2 = [] ∨ ∃ t, r.2 = t ++ [.off]
  closing : ∀ x, .drive false x ∈ r.2 → m.st = .calibrating ∨ m.st = .normal

theorem step_ok (m : Motor) (g : Nat × Option Bool) (e : MEv) (hi : MInv m) (hg : MGhost m g) : StepOK m g (m.step e) := by
  cases e with
  | poll i => have := poll_ok m g i hi hg; exact ⟨this.inv, this.ghost, this.cur, this.edge, this.off, this.closing⟩
  | fitted =>
    obtain ⟨q1, q2, q3, q4, q5, q6, q7, q8, q9, q10, q11, q12, q13, q14, q15, q16⟩ := hi
    obtain ⟨g1, g2⟩ := hg
    simp only [Motor.step, Motor.signalFitted]
    split <;> exact ⟨⟨q1, q2, q3, q4, q5, q6, q7, q8, q9, q10, q11, q12, q13, q14, q15, q16⟩, ⟨g1, g2⟩, .inl rfl, .inl rfl,
      .inl rfl, by simp⟩
  | target pc =>
    obtain ⟨q1, q2, q3, q4, q5, q6, q7, q8, q9, q10, q11, q12, q13, q14, q15, q16⟩ := hi
    obtain ⟨g1, g2⟩ := hg
    exact ⟨⟨q1, Nat.min_le_right _ _, q3, q4, q5, q6, q7, q8, q9, q10, q11, q12, q13, q14, q15, q16⟩, ⟨g1, g2⟩, .inl rfl,
      .inl rfl, .inl rfl, by simp [Motor.step]⟩
  | wiggle i =>
    obtain ⟨a, b, h, ha, hb⟩ := wiggle_ok m i hi.tfo hi.trev
    obtain ⟨q1, q2, q3, q4, q5, q6, q7, q8, q9, q10, q11, q12, q13, q14, q15, q16⟩ := hi
    obtain ⟨g1, g2⟩ := hg
    simp only [Motor.step]
    rw [h]
    exact ⟨⟨q1, q2, ha, hb, q5, q6, q7, q8, q9, q10, q11, q12, q13, q14, q15, q16⟩, ⟨g1, g2⟩, .inl rfl, .inl rfl,
      .inr ⟨[.off, .nudge true, .nudge false], rfl⟩, by simp [Motor.wiggleCmds]⟩

theorem run_inv (l : List MEv) : ∀ (m : Motor) (g : Nat × Option Bool), MInv m → MGhost m g →
    MInv (m.runAll l).1 ∧ MGhost (m.runAll l).1 (after g (m.runAll l).2) := by
  induction l with
  | nil => intro m g hi hg; exact ⟨hi, hg⟩
  | cons e t ih =>
    intro m g hi hg
    have h := step_ok m g e hi hg
    have := ih _ _ h.inv h.ghost
    simp only [Motor.runAll]
    rw [after_append]
    exact this

theorem new_inv (prop : Bool) (limit minDR tfo trev : Nat) (h1 : tfo ≤ 65535) (h2 : trev ≤ 65535) (g : Nat × Option Bool) :
    MInv (Motor.new prop limit minDR tfo trev) ∧ MGhost (Motor.new prop limit minDR tfo trev) g := by
  constructor
  · constructor <;> simp_all [Motor.new]
  · constructor <;> simp [Motor.new]

/-- Number of polls early enough in the cycle to do anything. -/
def effPolls (limit : Nat) (l : List MEv) : Nat :=
  (l.filter fun e => match e with | .poll i => decide (i.sct < limit) | _ => false).length

end OTR.Props
