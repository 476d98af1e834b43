import Verif.Spec.MotorLines
/-! # `spinSCTTicks`: loop lemmas -/

namespace OTR

/-- Polls whose clock values (as absolute ticks since the start of this sub-cycle) never go back and never jump by more
than `g`. -/
def PacedFrom (g : Nat) : Nat → List MPoll → Prop
  | _, [] => True
  | t, p :: ps => t ≤ p.sct ∧ p.sct ≤ t + g ∧ PacedFrom g p.sct ps

/-- What the 8-bit sub-cycle clock shows of an absolute tick count. -/
def MPoll.wrap (p : MPoll) : MPoll := { p with sct := p.sct % 256 }

/-- The clock value last seen, starting from `t`. -/
def lastSct (t : Nat) (ps : List MPoll) : Nat := ((ps.getLast?).map MPoll.sct).getD t

theorem lastSct_cons (t : Nat) (p : MPoll) (ps : List MPoll) : lastSct t (p :: ps) = lastSct p.sct ps := by
  cases ps with
  | nil => rfl
  | cons q qs =>
    simp only [lastSct, List.getLast?_cons_cons]
    cases h : (q :: qs).getLast? with
    | none => simp at h
    | some x => rfl

theorem paced_le_last {g t : Nat} {ps : List MPoll} (h : PacedFrom g t ps) : t ≤ lastSct t ps := by
  induction ps generalizing t with
  | nil => exact Nat.le_refl _
  | cons p ps ih => rw [lastSct_cons]; exact Nat.le_trans h.1 (ih h.2.2)

theorem paced_append {g t : Nat} {as bs : List MPoll} (h : PacedFrom g t (as ++ bs)) :
    PacedFrom g t as ∧ PacedFrom g (lastSct t as) bs := by
  induction as generalizing t with
  | nil => exact ⟨trivial, h⟩
  | cons a as ih =>
    obtain ⟨h1, h2, h3⟩ := h
    rw [lastSct_cons]
    exact ⟨⟨h1, h2, (ih h3).1⟩, (ih h3).2⟩

theorem lastSct_append (t : Nat) (a c : List MPoll) : lastSct t (a ++ c) = lastSct (lastSct t a) c := by
  unfold lastSct
  rw [List.getLast?_append]
  cases c.getLast? <;> rfl

/-- The minimum-time loop, for clocks that do not jump past the end of the cycle. -/
theorem spinMin_spec (g : Nat) (hg : g ≤ 25) (minT : Nat) (hm : minT ≤ 230) (stopped : Bool) (ps : List MPoll)
    (t ticks : Nat) (ht : t < minT ∨ t ≤ 230) (hp : PacedFrom g t ps) (r : Nat × Nat × List MPoll)
    (h : spinMin minT stopped t ticks (ps.map MPoll.wrap) = some r) :
    ∃ a b, ps = a ++ b ∧ r.2.2 = b.map MPoll.wrap ∧ a ≠ [] ∧ lastSct t a = r.1 ∧ t < r.1 ∧ minT ≤ r.1 ∧ r.1 < 256 ∧
      r.1 < max minT (t + 1) + g ∧
      (r.1 - t = r.2.1 - ticks ∨ stopped = true ∨ g ≠ 1) ∧
      ticks ≤ r.2.1 ∧ r.2.1 - ticks ≤ r.1 - t ∧ (stopped = true → r.2.1 = ticks) ∧
      (∀ c q d, a = c ++ q :: d → lastSct t c < minT ∨ lastSct t c = t) := by
  induction ps generalizing t ticks with
  | nil => simp [spinMin] at h
  | cons p ps ih =>
    obtain ⟨h1, h2, h3⟩ := hp
    have hlt : p.sct < 256 := by omega
    have hw : p.wrap = p := by cases p; simp only [MPoll.wrap, MPoll.mk.injEq, true_and]; exact Nat.mod_eq_of_lt hlt
    rw [List.map_cons, hw, spinMin] at h
    by_cases hne : p.sct ≠ t
    · rw [if_pos hne] at h
      by_cases hge : p.sct ≥ minT
      · simp only [if_pos hge, Option.some.injEq] at h
        refine ⟨[p], ps, rfl, ?_⟩
        subst h
        dsimp only
        refine ⟨rfl, by simp, rfl, by omega, hge, hlt, by omega, ?_, ?_, ?_, ?_, ?_⟩
        · cases stopped
          · simp only [Bool.false_eq_true, if_false, false_or]; omega
          · simp
        · split <;> omega
        · split <;> omega
        · intro hs; rw [hs]; rfl
        · intro c q d hc
          cases c with
          | nil => exact Or.inr rfl
          | cons c0 c =>
            exfalso
            have := congrArg List.length hc
            simp at this
      · simp only [if_neg hge] at h
        obtain ⟨a, b, e1, e2, e3, e4, e5, e6, e7, e8, e9, e10, e11, e12, e13⟩ := ih p.sct _ (Or.inl (by omega)) h3 h
        refine ⟨p :: a, b, by rw [e1]; rfl, e2, by simp, by rw [lastSct_cons]; exact e4, by omega, e6, e7, by omega, ?_, ?_, ?_, ?_, ?_⟩
        · cases stopped
          · simp only [Bool.false_eq_true, if_false, false_or] at e9 e10 e11 ⊢; omega
          · simp
        · revert e10; split <;> omega
        · revert e10 e11; split <;> omega
        · intro hs; have := e12 hs; rw [hs] at this; simpa using this
        · intro c q d hc
          cases c with
          | nil => exact Or.inr rfl
          | cons c0 c =>
            simp only [List.cons_append, List.cons.injEq] at hc
            obtain ⟨rfl, hc⟩ := hc
            rw [lastSct_cons]
            rcases e13 c q d hc with h | h
            · exact Or.inl h
            · left; omega
    · rw [if_neg hne] at h
      have hpt : p.sct = t := Classical.not_not.mp hne
      rw [hpt] at h3
      obtain ⟨a, b, e1, e2, e3, e4, e5, e6, e7, e8, e9, e10, e11, e12, e13⟩ := ih t ticks ht h3 h
      refine ⟨p :: a, b, by rw [e1]; rfl, e2, by simp, by rw [lastSct_cons, hpt]; exact e4, e5, e6, e7, e8, e9, e10, e11, e12, ?_⟩
      intro c q d hc
      cases c with
      | nil => exact Or.inr rfl
      | cons c0 c =>
        simp only [List.cons_append, List.cons.injEq] at hc
        obtain ⟨rfl, hc⟩ := hc
        rw [lastSct_cons, hpt]
        exact e13 c q d hc

/-- The current-watching loop. -/
theorem spinMax_spec (g : Nat) (hg : g ≤ 25) (maxT : Nat) (hm : maxT ≤ 230) (stopped : Bool) (ps : List MPoll)
    (t ticks : Nat) (ht : t + g < 256) (hp : PacedFrom g t ps) (r : Nat × Nat × Bool)
    (h : spinMax maxT stopped t ticks (ps.map MPoll.wrap) = some r) :
    t ≤ r.1 ∧ r.1 < 256 ∧ r.1 < max maxT (t + 1) + g ∧ (r.2.2 = true → r.1 < maxT ∨ r.1 = t) ∧
      (r.2.2 = false → maxT ≤ r.1 ∧ t < r.1) ∧
      (r.1 - t = r.2.1 - ticks ∨ stopped = true ∨ g ≠ 1) ∧
      ticks ≤ r.2.1 ∧ r.2.1 - ticks ≤ r.1 - t ∧ (stopped = true → r.2.1 = ticks) ∧
      (r.2.2 = true → ∃ a q b, ps = a ++ q :: b ∧ q.high = true ∧ lastSct t a = r.1) ∧
      (∀ a q b, ps = a ++ q :: b → lastSct t a < r.1 → q.high = false) := by
  induction ps generalizing t ticks with
  | nil => simp [spinMax] at h
  | cons p ps ih =>
    obtain ⟨h1, h2, h3⟩ := hp
    have hlt : p.sct < 256 := by omega
    have hw : p.wrap = p := by cases p; simp only [MPoll.wrap, MPoll.mk.injEq, true_and]; exact Nat.mod_eq_of_lt hlt
    rw [List.map_cons, hw, spinMax] at h
    by_cases hh : p.high = true
    · rw [if_pos hh] at h
      simp only [Option.some.injEq] at h
      subst h
      dsimp only
      refine ⟨Nat.le_refl _, by omega, by omega, fun _ => Or.inr rfl, fun h => (by cases h), Or.inl (by omega), Nat.le_refl _,
        by omega, fun _ => rfl, fun _ => ⟨[], p, ps, rfl, hh, rfl⟩, ?_⟩
      intro a q b hab hl
      exfalso
      have := paced_append (g := g) (t := t) (as := a) (bs := q :: b) (by rw [← hab]; exact ⟨h1, h2, h3⟩)
      have := paced_le_last this.1
      omega
    · rw [if_neg hh] at h
      have hh' : p.high = false := by simpa using hh
      by_cases hne : p.sct ≠ t
      · rw [if_pos hne] at h
        by_cases hge : p.sct ≥ maxT
        · simp only [if_pos hge, Option.some.injEq] at h
          subst h
          dsimp only
          refine ⟨h1, hlt, by omega, fun h => (by cases h), fun _ => ⟨hge, by omega⟩, ?_, ?_, ?_, ?_, fun h => (by cases h), ?_⟩
          · cases stopped
            · simp only [Bool.false_eq_true, if_false, false_or]; omega
            · simp
          · split <;> omega
          · split <;> omega
          · intro hs; rw [hs]; rfl
          · intro a q b hab hl
            cases a with
            | nil => simp only [List.nil_append, List.cons.injEq] at hab; rw [← hab.1]; exact hh'
            | cons a0 a =>
              simp only [List.cons_append, List.cons.injEq] at hab
              obtain ⟨rfl, hab⟩ := hab
              exfalso
              rw [lastSct_cons] at hl
              rw [hab] at h3
              have := paced_le_last (paced_append h3).1
              omega
        · simp only [if_neg hge] at h
          obtain ⟨e1, e2, e3, e4, e5, e6, e7, e8, e9, e10, e11⟩ := ih p.sct _ (by omega) h3 h
          refine ⟨by omega, e2, by omega, ?_, ?_, ?_, ?_, ?_, ?_, ?_, ?_⟩
          · intro hc; rcases e4 hc with h | h
            · exact Or.inl h
            · left; omega
          · intro hc; have := e5 hc; omega
          · cases stopped
            · simp only [Bool.false_eq_true, if_false, false_or] at e6 e7 e8 ⊢; omega
            · simp
          · revert e7; split <;> omega
          · revert e7 e8; split <;> omega
          · intro hs; have := e9 hs; rw [hs] at this; simpa using this
          · intro hc
            obtain ⟨a, q, b, f1, f2, f3⟩ := e10 hc
            exact ⟨p :: a, q, b, by rw [f1]; rfl, f2, by rw [lastSct_cons]; exact f3⟩
          · intro a q b hab hl
            cases a with
            | nil => simp only [List.nil_append, List.cons.injEq] at hab; rw [← hab.1]; exact hh'
            | cons a0 a =>
              simp only [List.cons_append, List.cons.injEq] at hab
              obtain ⟨rfl, hab⟩ := hab
              rw [lastSct_cons] at hl
              exact e11 a q b hab hl
      · rw [if_neg hne] at h
        have hpt : p.sct = t := Classical.not_not.mp hne
        rw [hpt] at h3
        obtain ⟨e1, e2, e3, e4, e5, e6, e7, e8, e9, e10, e11⟩ := ih t ticks ht h3 h
        refine ⟨e1, e2, e3, e4, e5, e6, e7, e8, e9, ?_, ?_⟩
        · intro hc
          obtain ⟨a, q, b, f1, f2, f3⟩ := e10 hc
          exact ⟨p :: a, q, b, by rw [f1]; rfl, f2, by rw [lastSct_cons, hpt]; exact f3⟩
        · intro a q b hab hl
          cases a with
          | nil => simp only [List.nil_append, List.cons.injEq] at hab; rw [← hab.1]; exact hh'
          | cons a0 a =>
            simp only [List.cons_append, List.cons.injEq] at hab
            obtain ⟨rfl, hab⟩ := hab
            rw [lastSct_cons, hpt] at hl
            exact e11 a q b hab hl

/-- A loop that is still waiting has not seen its limit. -/
theorem spinMin_none (g : Nat) (hg : g ≤ 25) (minT : Nat) (hm : minT ≤ 230) (stopped : Bool) (ps : List MPoll)
    (t ticks : Nat) (ht : t ≤ 230) (hp : PacedFrom g t ps)
    (h : spinMin minT stopped t ticks (ps.map MPoll.wrap) = none) : ∀ p ∈ ps, p.sct ≤ 230 := by
  induction ps generalizing t ticks with
  | nil => intro p hp; cases hp
  | cons p ps ih =>
    obtain ⟨h1, h2, h3⟩ := hp
    have hlt : p.sct < 256 := by omega
    have hw : p.wrap = p := by cases p; simp only [MPoll.wrap, MPoll.mk.injEq, true_and]; exact Nat.mod_eq_of_lt hlt
    rw [List.map_cons, hw, spinMin] at h
    by_cases hne : p.sct ≠ t
    · rw [if_pos hne] at h
      by_cases hge : p.sct ≥ minT
      · simp [hge] at h
      · simp only [if_neg hge] at h
        intro q hq
        rcases List.mem_cons.mp hq with rfl | hq
        · omega
        · exact ih p.sct _ (by omega) h3 h q hq
    · rw [if_neg hne] at h
      have hpt : p.sct = t := Classical.not_not.mp hne
      rw [hpt] at h3
      intro q hq
      rcases List.mem_cons.mp hq with rfl | hq
      · omega
      · exact ih t _ ht h3 h q hq

theorem spinMax_none (g : Nat) (hg : g ≤ 25) (maxT : Nat) (hm : maxT ≤ 230) (stopped : Bool) (ps : List MPoll)
    (t ticks : Nat) (ht : t + g < 256) (hp : PacedFrom g t ps)
    (h : spinMax maxT stopped t ticks (ps.map MPoll.wrap) = none) : ∀ p ∈ ps, p.sct ≤ max t 230 := by
  induction ps generalizing t ticks with
  | nil => intro p hp; cases hp
  | cons p ps ih =>
    obtain ⟨h1, h2, h3⟩ := hp
    have hlt : p.sct < 256 := by omega
    have hw : p.wrap = p := by cases p; simp only [MPoll.wrap, MPoll.mk.injEq, true_and]; exact Nat.mod_eq_of_lt hlt
    rw [List.map_cons, hw, spinMax] at h
    by_cases hh : p.high = true
    · simp [hh] at h
    · rw [if_neg hh] at h
      by_cases hne : p.sct ≠ t
      · rw [if_pos hne] at h
        by_cases hge : p.sct ≥ maxT
        · simp [hge] at h
        · simp only [if_neg hge] at h
          intro q hq
          rcases List.mem_cons.mp hq with rfl | hq
          · omega
          · have := ih p.sct _ (by omega) h3 h q hq
            omega
      · rw [if_neg hne] at h
        have hpt : p.sct = t := Classical.not_not.mp hne
        rw [hpt] at h3
        intro q hq
        rcases List.mem_cons.mp hq with rfl | hq
        · omega
        · exact ih t _ ht h3 h q hq

end OTR
