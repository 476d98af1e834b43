import Verif.Proof.Valve
/-!
# Properties C45-C51, C83: valve position control
-/

namespace OTR

/-! ## Specification vocabulary

Temperatures are in 1/16 C.  `effTemp` is the temperature the controller acts on at a tick: the room temperature, or
while temperatures are changing fast the mean of the last 16, plus 0.5 C. -/

/-- Effective temperature at a tick. -/
def effTemp (s : VState) (v : Nat) (t : VTick) : Int := (s.prepare v t.1 (t.2.map Prod.fst)).adj16 t.1

/-- Below this the room is far too cold: 7 C below target, or below 5 C. -/
def coldLimit (i : VIn) : Int := 16 * max ((i.target : Int) - 7) 5

/-- At or above this the room is far too hot: 8 C above the higher of the targets, or 96 C. -/
def hotLimit (i : VIn) : Int := 16 * (min (max i.target i.maxTarget + 7) 95 : Nat) + 16

/-- The set point: 0.25 C above the target (the effective temperature having 0.5 C added). -/
def setPoint (i : VIn) : Int := 16 * i.target + 12

/-- A target setting that the documentation allows. -/
def VIn.sane (i : VIn) : Prop := i.target ≤ 95 ∧ i.maxTarget ≤ 95 ∧ i.maxPC ≤ 100

/-- Temperatures for which 8/16 bit arithmetic on the device is exact: -127..127 C. -/
def Physical (t : Int) : Prop := -2040 ≤ t ∧ t ≤ 2030

/-- Total distance travelled through a list of positions. -/
def travel : Nat → List Nat → Nat
  | _, [] => 0
  | p, q :: qs => (max p q - min p q) + travel q qs

/-! ## Lemmas -/

theorem after_cons (c : VCfg) (s : VState) (v : Nat) (t : VTick) (ts : List VTick) :
    s.after c v (t :: ts) = (s.tick c v t.1 t.2).1.after c (s.tick c v t.1 t.2).2 ts := rfl

theorem after_append (c : VCfg) (s : VState) (v : Nat) (xs ys : List VTick) :
    s.after c v (xs ++ ys) = (s.after c v xs).1.after c (s.after c v xs).2 ys := by
  simp [VState.after]

theorem turndown_lb (c : VCfg) (s : VState) (v : Nat) (ts : List VTick) (h : s.turndownM ≤ 11) :
    s.turndownM - ts.length ≤ (s.after c v ts).1.turndownM ∧ (s.after c v ts).1.turndownM ≤ 11 := by
  induction ts generalizing s v with
  | nil => simp [VState.after, h]
  | cons t ts ih =>
    rw [after_cons]
    have e := (tick_fields c s v t.1 t.2).1
    have h' : (s.tick c v t.1 t.2).1.turndownM ≤ 11 := by rw [e]; split <;> omega
    have := ih (s.tick c v t.1 t.2).1 (s.tick c v t.1 t.2).2 h'
    refine ⟨?_, this.2⟩
    have h2 : s.turndownM - 1 ≤ (s.tick c v t.1 t.2).1.turndownM := by rw [e]; split <;> omega
    simp only [List.length_cons]
    omega

theorem turnup_lb (c : VCfg) (s : VState) (v : Nat) (ts : List VTick) (h : s.turnupM ≤ 10) :
    s.turnupM - ts.length ≤ (s.after c v ts).1.turnupM ∧ (s.after c v ts).1.turnupM ≤ 10 := by
  induction ts generalizing s v with
  | nil => simp [VState.after, h]
  | cons t ts ih =>
    rw [after_cons]
    have e := (tick_fields c s v t.1 t.2).2.1
    have h' : (s.tick c v t.1 t.2).1.turnupM ≤ 10 := by rw [e]; split <;> omega
    have := ih (s.tick c v t.1 t.2).1 (s.tick c v t.1 t.2).2 h'
    refine ⟨?_, this.2⟩
    have h2 : s.turnupM - 1 ≤ (s.tick c v t.1 t.2).1.turnupM := by rw [e]; split <;> omega
    simp only [List.length_cons]
    omega

theorem sum_lt {ts : List Int} {T : Int} (h : ∀ t ∈ ts, t ≤ T) : ts.sum ≤ ts.length * T := by
  induction ts with
  | nil => simp
  | cons a ts ih =>
    have h1 := h a (by simp)
    have h2 := ih (fun t ht => h t (by simp [ht]))
    simp only [List.sum_cons, List.length_cons]
    have : ((ts.length + 1 : Nat) : Int) * T = ts.length * T + T := by
      rw [Int.natCast_add, Int.add_mul]; simp
    omega

theorem sum_gt {ts : List Int} {T : Int} (h : ∀ t ∈ ts, T ≤ t) : ts.length * T ≤ ts.sum := by
  induction ts with
  | nil => simp
  | cons a ts ih =>
    have h1 := h a (by simp)
    have h2 := ih (fun t ht => h t (by simp [ht]))
    simp only [List.sum_cons, List.length_cons]
    have : ((ts.length + 1 : Nat) : Int) * T = ts.length * T + T := by
      rw [Int.natCast_add, Int.add_mul]; simp
    omega

theorem mean_bounds {ts : List Int} (hl : ts.length = 16) {lo hi : Int} (h1 : ∀ t ∈ ts, lo ≤ t ∧ t ≤ hi) (hlo : lo ≤ 0)
    (hhi : 0 ≤ hi) : lo ≤ smallIntMean ts ∧ smallIntMean ts ≤ hi := by
  have a := sum_lt (fun t ht => (h1 t ht).2)
  have b := sum_gt (fun t ht => (h1 t ht).1)
  rw [hl] at a b
  unfold smallIntMean
  generalize ts.sum = S at *
  by_cases hS : 0 ≤ S + 8
  · rw [Int.tdiv_eq_ediv_of_nonneg hS]; omega
  · have e : (S + 8).tdiv 16 = -((-(S + 8)).tdiv 16) := by rw [Int.neg_tdiv, Int.neg_neg]
    rw [e, Int.tdiv_eq_ediv_of_nonneg (by omega)]; omega

/-- The filter memory is full. -/
def VState.Full (s : VState) : Prop := s.initialised = true → s.temps.length = 16

theorem tick_full (c : VCfg) (s : VState) (v : Nat) (t : VTick) (h : s.Full) : (s.tick c v t.1 t.2).1.Full := by
  intro _
  rw [(tick_fields c s v t.1 t.2).2.2.2.1, (prepare_fields s v t.1 _).2.2.2.2.2]
  cases hi : s.initialised with
  | true => simp [h hi]
  | false => simp

/-- Bounds on remembered temperatures carry over to the effective one. -/
theorem effTemp_bounds (s : VState) (v : Nat) (t : VTick) (hf : s.Full) {lo hi : Int} (hlo : lo ≤ 0) (hhi : 0 ≤ hi)
    (ht : s.initialised = true → ∀ x ∈ s.temps, lo ≤ x ∧ x ≤ hi) (hr : lo ≤ t.1.ref16 - 8 ∧ t.1.ref16 - 8 ≤ hi) :
    lo + 8 ≤ effTemp s v t ∧ effTemp s v t ≤ hi + 8 := by
  unfold effTemp VState.adj16
  split
  · have e := (prepare_fields s v t.1 (t.2.map Prod.fst)).2.2.2.2.2
    rw [e]
    have := mean_bounds (ts := (t.1.ref16 - 8) :: (if s.initialised then s.temps else List.replicate 16 (t.1.ref16 - 8)).take 15)
      (by cases hi' : s.initialised with
          | true => simp [hf hi']
          | false => simp) (lo := lo) (hi := hi)
      (by
        intro x hx
        rcases List.mem_cons.1 hx with rfl | hx
        · exact hr
        · have hx := List.mem_of_mem_take hx
          cases hi' : s.initialised with
          | true => rw [hi'] at hx; exact ht hi' x (by simpa using hx)
          | false =>
            rw [hi'] at hx
            have : x = t.1.ref16 - 8 := by simpa using hx
            subst this; exact hr) hlo hhi
    omega
  · omega

namespace Props

/-! ## C45 -/

/-- **C45.** One tick: a position in 0..100 (and maximum opening at most 100) gives a position in 0..100, and
an opening move never goes beyond the maximum opening. -/
theorem C45_limits (c : VCfg) (s : VState) (v : Nat) (i : VIn) (p : Option (Nat × Nat)) :
    (v < (s.tick c v i p).2 → (s.tick c v i p).2 ≤ i.maxPC) ∧
    (v ≤ 100 → i.maxPC ≤ 100 → (s.tick c v i p).2 ≤ 100) := by
  rw [tick_snd]
  have h := compute_le c (s.prepare v i (p.map Prod.fst)) v i
  refine ⟨h, fun h1 h2 => ?_⟩
  by_cases hlt : v < (s.prepare v i (p.map Prod.fst)).compute c v i
  · have := h hlt; omega
  · omega

/-- **C45, all histories.** -/
theorem C45_always (c : VCfg) (s : VState) (v : Nat) (ts : List VTick) (hv : v ≤ 100)
    (hm : ∀ t ∈ ts, t.1.maxPC ≤ 100) : (s.after c v ts).2 ≤ 100 := by
  induction ts generalizing s v with
  | nil => exact hv
  | cons t ts ih =>
    rw [after_cons]
    exact ih _ _ ((C45_limits c s v t.1 t.2).2 hv (hm t (by simp))) fun t ht => hm t (by simp [ht])

/-! ## C46 -/

/-- **C46, reopening.** In any history, if a tick closes the valve and a later tick, with fewer than 10 ticks in
between, opens it, then that later tick was in BAKE mode. -/
theorem C46_no_rapid_reopen (c : VCfg) (s : VState) (v : Nat) (pre mid : List VTick) (t1 t2 : VTick)
    (hclose : (s.after c v (pre ++ [t1])).2 < (s.after c v pre).2)
    (hopen : (s.after c v (pre ++ [t1] ++ mid)).2 < (s.after c v (pre ++ [t1] ++ mid ++ [t2])).2)
    (hk : mid.length < reopenDelayM - 1) : t2.1.bake = true := by
  rw [after_append c s v (pre ++ [t1] ++ mid)] at hopen
  rw [after_append c s v (pre ++ [t1])] at hopen
  rw [after_append c s v pre] at hclose hopen
  generalize (s.after c v pre).1 = s1 at *
  generalize (s.after c v pre).2 = v1 at *
  have e1 : s1.after c v1 [t1] = (s1.tick c v1 t1.1 t1.2) := rfl
  rw [e1] at hopen hclose
  have htd := (tick_fields c s1 v1 t1.1 t1.2).1
  rw [if_pos hclose] at htd
  generalize (s1.tick c v1 t1.1 t1.2).1 = s2 at *
  generalize (s1.tick c v1 t1.1 t1.2).2 = v2 at *
  have hlb := (turndown_lb c s2 v2 mid (by omega)).1
  generalize s2.after c v2 mid = x at *
  have e2 : x.1.after c x.2 [t2] = (x.1.tick c x.2 t2.1 t2.2) := rfl
  rw [e2, tick_snd] at hopen
  cases hb : t2.1.bake with
  | true => rfl
  | false =>
    have := compute_noUp c (x.1.prepare x.2 t2.1 (t2.2.map Prod.fst)) x.2 t2.1
      (by rw [(prepare_fields _ _ _ _).1]; omega) hb
    omega

/-- **C46, reclosing.** In any history, if a tick opens the valve and a later tick, with fewer than 9 ticks in
between, closes it, then that was only because the maximum opening had been reduced below the position: the valve
moves exactly to that maximum. -/
theorem C46_no_rapid_reclose (c : VCfg) (s : VState) (v : Nat) (pre mid : List VTick) (t1 t2 : VTick)
    (hopen : (s.after c v pre).2 < (s.after c v (pre ++ [t1])).2)
    (hclose : (s.after c v (pre ++ [t1] ++ mid ++ [t2])).2 < (s.after c v (pre ++ [t1] ++ mid)).2)
    (hk : mid.length < recloseDelayM - 1) : (s.after c v (pre ++ [t1] ++ mid ++ [t2])).2 = t2.1.maxPC := by
  rw [after_append c s v (pre ++ [t1] ++ mid)] at hclose ⊢
  rw [after_append c s v (pre ++ [t1])] at hclose ⊢
  rw [after_append c s v pre] at hclose hopen ⊢
  generalize (s.after c v pre).1 = s1 at *
  generalize (s.after c v pre).2 = v1 at *
  have e1 : s1.after c v1 [t1] = (s1.tick c v1 t1.1 t1.2) := rfl
  rw [e1] at hclose hopen ⊢
  have htd := (tick_fields c s1 v1 t1.1 t1.2).2.1
  rw [if_pos hopen] at htd
  generalize (s1.tick c v1 t1.1 t1.2).1 = s2 at *
  generalize (s1.tick c v1 t1.1 t1.2).2 = v2 at *
  have hlb := (turnup_lb c s2 v2 mid (by omega)).1
  generalize s2.after c v2 mid = x at *
  have e2 : x.1.after c x.2 [t2] = (x.1.tick c x.2 t2.1 t2.2) := rfl
  rw [e2, tick_snd] at hclose ⊢
  exact compute_noDown c (x.1.prepare x.2 t2.1 (t2.2.map Prod.fst)) x.2 t2.1
    (by rw [(prepare_fields _ _ _ _).2.1]; omega) hclose

/-! ## C47 -/

/-- **C47.** Whenever the effective temperature is far too cold and no reopen hold is in force (or in BAKE), a tick
opens the valve to its maximum, or in glacial mode one step nearer to it. -/
theorem C47_frost_protection (c : VCfg) (hc : c.binary = false) (s : VState) (v : Nat) (t : VTick)
    (hp : Physical (effTemp s v t)) (hcold : effTemp s v t < coldLimit t.1)
    (hold : s.turndownM ≤ 1 ∨ t.1.bake = true) :
    (s.tick c v t.1 t.2).2 =
      if (c.alwaysGlacial || t.1.glacial) = true ∧ v < t.1.maxPC then v + 1 else t.1.maxPC := by
  rw [tick_snd]
  unfold effTemp at *
  have h1 := (prepare_fields s v t.1 (t.2.map Prod.fst)).1
  generalize s.prepare v t.1 (t.2.map Prod.fst) = s' at *
  unfold VState.compute
  have hcold' : isCold c.binary (s'.adj16 t.1) t.1 = true := by
    rw [hc, isCold_iff _ _ (by unfold Physical at hp; omega)]; exact hcold
  dsimp only
  rw [hcold', hc]
  have hno : (decide (s'.turndownM ≠ 0) && !t.1.bake) = false := by
    rcases hold with h | h
    · have : s'.turndownM = 0 := by omega
      simp [this]
    · simp [h]
  simp only [hno, Bool.false_eq_true, if_false, if_true, Bool.not_false, Bool.true_and]
  by_cases h : (c.alwaysGlacial || t.1.glacial) = true
  · by_cases h2 : v < t.1.maxPC <;> simp [h, h2]
  · simp [h]

/-- A room that is cold now and has been at every remembered tick is effectively cold, filtered or not. -/
theorem C47_cold_room_counts (s : VState) (v : Nat) (t : VTick) (hf : s.Full)
    (hprev : s.initialised = true → ∀ x ∈ s.temps, -2000 ≤ x ∧ x + 8 < coldLimit t.1)
    (hnow : -2000 ≤ t.1.ref16 - 8 ∧ t.1.ref16 < coldLimit t.1) (hs : t.1.sane) :
    Physical (effTemp s v t) ∧ effTemp s v t < coldLimit t.1 := by
  have h5 : 80 ≤ coldLimit t.1 := by unfold coldLimit; omega
  have h6 : coldLimit t.1 ≤ 1408 := by unfold coldLimit; have := hs.1; omega
  have := effTemp_bounds s v t hf (lo := -2000) (hi := coldLimit t.1 - 9) (by omega) (by omega)
    (fun hi x hx => by have := hprev hi x hx; omega) (by omega)
  unfold Physical; omega

/-- **C47, in time.** From any state, if the room is far too cold at each of `n` ticks, `n ≥ 11 + (max - v)`, and the
permitted maximum stays at `m ≥ v`, the valve ends fully open to that maximum — however glacial; and when not
glacial, 11 ticks are enough. -/
theorem C47_opens_in_time (c : VCfg) (hc : c.binary = false) (m : Nat) (ts : List VTick)
    (hm : ∀ t ∈ ts, t.1.maxPC = m ∧ t.1.sane) :
    ∀ (s : VState) (v : Nat), v ≤ m → s.turndownM ≤ 11 → s.Full →
    (∀ t ∈ ts, ∀ t' ∈ ts, -2000 ≤ t.1.ref16 - 8 ∧ t.1.ref16 < coldLimit t'.1) →
    (s.initialised = true → ∀ t ∈ ts, ∀ x ∈ s.temps, -2000 ≤ x ∧ x + 8 < coldLimit t.1) →
    (reopenDelayM + (m - v) ≤ ts.length → (s.after c v ts).2 = m) ∧
    ((c.alwaysGlacial = false ∧ (∀ t ∈ ts, t.1.glacial = false)) → reopenDelayM ≤ ts.length →
      (s.after c v ts).2 = m) := by
  -- stronger: what holds after any number of ticks
  have key : ∀ (ts : List VTick), (∀ t ∈ ts, t.1.maxPC = m ∧ t.1.sane) →
      ∀ (s : VState) (v : Nat), v ≤ m → s.Full →
      (∀ t ∈ ts, ∀ t' ∈ ts, -2000 ≤ t.1.ref16 - 8 ∧ t.1.ref16 < coldLimit t'.1) →
      (s.initialised = true → ∀ t ∈ ts, ∀ x ∈ s.temps, -2000 ≤ x ∧ x + 8 < coldLimit t.1) →
      (s.after c v ts).2 ≤ m ∧
      min m (v + (ts.length - (s.turndownM - 1))) ≤ (s.after c v ts).2 ∧
      ((c.alwaysGlacial = false ∧ (∀ t ∈ ts, t.1.glacial = false)) → 1 ≤ ts.length → s.turndownM ≤ ts.length →
        (s.after c v ts).2 = m) := by
    intro ts
    induction ts with
    | nil =>
      intro _ s v hv _ _ _
      refine ⟨hv, ?_, ?_⟩
      · simp [VState.after]; omega
      · intro _ h; simp at h
    | cons t ts ih =>
      intro hm s v hv hf hcold hprev
      have hmt := hm t (by simp)
      have heff := C47_cold_room_counts s v t hf (fun hi x hx => hprev hi t (by simp) x hx)
        (hcold t (by simp) t (by simp)) hmt.2
      have hf' := tick_full c s v t hf
      obtain ⟨f1, f2, f3, f4, f5, f6, f7⟩ := tick_fields c s v t.1 t.2
      -- the position after the tick
      have hpos : v ≤ (s.tick c v t.1 t.2).2 ∧ (s.tick c v t.1 t.2).2 ≤ m ∧
          (s.turndownM ≤ 1 → min m (v + 1) ≤ (s.tick c v t.1 t.2).2) ∧
          (s.turndownM ≤ 1 → (c.alwaysGlacial || t.1.glacial) = false → (s.tick c v t.1 t.2).2 = m) := by
        by_cases hh : s.turndownM ≤ 1 ∨ t.1.bake = true
        · have e := C47_frost_protection c hc s v t heff.1 heff.2 hh
          rw [hmt.1] at e
          rw [e]
          split
          · rename_i h; refine ⟨by omega, by omega, by omega, ?_⟩
            intro _ hg; rw [hg] at h; cases h.1
          · exact ⟨hv, by omega, by omega, fun _ _ => rfl⟩
        · have hb : t.1.bake = false := by
            cases hb : t.1.bake with
            | true => exact absurd (Or.inr hb) hh
            | false => rfl
          have e : (s.tick c v t.1 t.2).2 = v := by
            rw [tick_snd]
            have h1 := (prepare_fields s v t.1 (t.2.map Prod.fst)).1
            unfold effTemp at heff
            generalize s.prepare v t.1 (t.2.map Prod.fst) = s' at *
            unfold VState.compute
            have hcold' : isCold c.binary (s'.adj16 t.1) t.1 = true := by
              rw [hc, isCold_iff _ _ (by have := heff.1; unfold Physical at this; omega)]; exact heff.2
            have hn : s'.turndownM ≠ 0 := by omega
            simp [hcold', hn, hb]
          rw [e]
          refine ⟨Nat.le_refl _, hv, ?_, ?_⟩ <;> intro h <;> omega
      rw [if_neg (by omega)] at f1
      have hcold' : ∀ t ∈ ts, ∀ t' ∈ ts, -2000 ≤ t.1.ref16 - 8 ∧ t.1.ref16 < coldLimit t'.1 :=
        fun a ha b hb => hcold a (by simp [ha]) b (by simp [hb])
      have hprev' : (s.tick c v t.1 t.2).1.initialised = true → ∀ t' ∈ ts, ∀ x ∈ (s.tick c v t.1 t.2).1.temps,
          -2000 ≤ x ∧ x + 8 < coldLimit t'.1 := by
        intro _ t' ht' x hx
        rw [f4, (prepare_fields s v t.1 _).2.2.2.2.2] at hx
        have hnow := hcold t (by simp) t' (by simp [ht'])
        rcases List.mem_cons.1 hx with rfl | hx
        · omega
        · have hx := List.mem_of_mem_take hx
          cases hi' : s.initialised with
          | true => rw [hi'] at hx; exact hprev hi' t' (by simp [ht']) x (by simpa using hx)
          | false =>
            rw [hi'] at hx
            have : x = t.1.ref16 - 8 := by simpa using hx
            subst this; omega
      rw [after_cons]
      have i := ih (fun t ht => hm t (by simp [ht])) (s.tick c v t.1 t.2).1 (s.tick c v t.1 t.2).2 hpos.2.1 hf' hcold' hprev'
      rw [f1] at i
      refine ⟨i.1, ?_, ?_⟩
      · have i2 := i.2.1
        have p1 := hpos.1
        have p3 := hpos.2.2.1
        simp only [List.length_cons]
        by_cases htd : s.turndownM ≤ 1
        · have := p3 htd
          omega
        · omega
      · rintro ⟨g1, g2⟩ _ hl
        have g2' : ∀ t ∈ ts, t.1.glacial = false := fun t ht => g2 t (by simp [ht])
        by_cases hts : 1 ≤ ts.length
        · exact i.2.2 ⟨g1, g2'⟩ hts (by simp only [List.length_cons] at hl; omega)
        · have : ts = [] := List.eq_nil_of_length_eq_zero (by omega)
          subst this
          simp only [List.length_cons, List.length_nil] at hl
          have := hpos.2.2.2 (by omega) (by rw [g1, g2 t (by simp)]; rfl)
          exact this
  intro s v hv htd hf h1 h2
  have k := key ts hm s v hv hf h1 h2
  refine ⟨fun hl => ?_, fun hg hl => ?_⟩
  · have := k.1
    have := k.2.1
    omega
  · exact k.2.2 hg (by omega) (by omega)

/-! ## C48 -/

/-- **C48.** Whenever the effective temperature is far too hot and no reclose hold is in force, a tick closes the valve
completely. -/
theorem C48_overheat_closes (c : VCfg) (hc : c.binary = false) (s : VState) (v : Nat) (t : VTick) (hs : t.1.sane)
    (hp : Physical (effTemp s v t)) (hhot : hotLimit t.1 ≤ effTemp s v t) (hold : s.turnupM ≤ 1) :
    (s.tick c v t.1 t.2).2 = 0 := by
  rw [tick_snd]
  unfold effTemp at *
  have h1 := (prepare_fields s v t.1 (t.2.map Prod.fst)).2.1
  generalize s.prepare v t.1 (t.2.map Prod.fst) = s' at *
  have hr : -2048 ≤ s'.adj16 t.1 ∧ s'.adj16 t.1 ≤ 2047 := by unfold Physical at hp; omega
  have hh : t.1.higher ≤ 95 := by unfold VIn.higher; obtain ⟨a, b, _⟩ := hs; omega
  have hhot' : isHot c.binary (s'.adj16 t.1) t.1 = true := by
    rw [hc, isHot_iff _ _ hr hh]
    unfold hotLimit at hhot; unfold VIn.higher; omega
  have hcold' : isCold c.binary (s'.adj16 t.1) t.1 = false := by
    rw [Bool.eq_false_iff, hc]
    intro h
    rw [isCold_iff _ _ hr] at h
    unfold hotLimit at hhot
    have := hs.1
    omega
  unfold VState.compute
  have h0 : s'.turnupM = 0 := by omega
  simp [hcold', hhot', h0]

/-! ## C49, C50 -/

/-- In the proportional range outside BAKE the proportional computation decides. -/
theorem inRange_compute (c : VCfg) (hc : c.binary = false) (s : VState) (v : Nat) (t : VTick) (hs : t.1.sane)
    (hp : Physical (effTemp s v t)) (h1 : coldLimit t.1 ≤ effTemp s v t) (h2 : effTemp s v t < hotLimit t.1)
    (hb : t.1.bake = false) :
    ∃ f, (s.tick c v t.1 t.2).2 = propCompute c.aggressive (c.alwaysGlacial || t.1.glacial) f
      (decide (s.turndownM - 1 ≠ 0)) (decide (s.turnupM - 1 ≠ 0)) v t.1 (effTemp s v t - setPoint t.1)
      ((t.1.ref16 - 8) - ((if s.initialised then s.temps else List.replicate 16 (t.1.ref16 - 8)).take 15).getD 0 0) := by
  rw [tick_snd]
  unfold effTemp at *
  obtain ⟨f1, f2, _, _, _, f6⟩ := prepare_fields s v t.1 (t.2.map Prod.fst)
  generalize s.prepare v t.1 (t.2.map Prod.fst) = s' at *
  have hr : -2048 ≤ s'.adj16 t.1 ∧ s'.adj16 t.1 ≤ 2047 := by unfold Physical at hp; omega
  have hh : t.1.higher ≤ 95 := by unfold VIn.higher; obtain ⟨a, b, _⟩ := hs; omega
  have hhot' : isHot c.binary (s'.adj16 t.1) t.1 = false := by
    rw [Bool.eq_false_iff, hc]
    intro h
    rw [isHot_iff _ _ hr hh] at h
    unfold hotLimit at h2; unfold VIn.higher at h; omega
  have hcold' : isCold c.binary (s'.adj16 t.1) t.1 = false := by
    rw [Bool.eq_false_iff, hc]
    intro h
    rw [isCold_iff _ _ hr] at h
    unfold coldLimit at h1
    omega
  have e1 : s'.adj16 t.1 - (t.1.target : Int) * 16 - 12 = s'.adj16 t.1 - setPoint t.1 := by
    unfold setPoint; omega
  refine ⟨decide (s'.filtering ≠ 0), ?_⟩
  unfold VState.compute
  dsimp only
  rw [hcold', hhot', hc, hb, f1, f2, e1]
  simp only [Bool.false_eq_true, if_false, Bool.not_false, if_true]
  congr 1
  unfold VState.rawDelta
  rw [f6]
  rfl

/-- **C49.** In glacial mode, within the proportional range and not in BAKE, a tick changes the valve by at most 1%. -/
theorem C49_glacial_one_percent (c : VCfg) (hc : c.binary = false) (s : VState) (v : Nat) (t : VTick) (hs : t.1.sane)
    (hp : Physical (effTemp s v t)) (h1 : coldLimit t.1 ≤ effTemp s v t) (h2 : effTemp s v t < hotLimit t.1)
    (hb : t.1.bake = false) (hg : c.alwaysGlacial = true ∨ t.1.glacial = true) :
    (s.tick c v t.1 t.2).2 ≤ v + 1 ∧ v ≤ (s.tick c v t.1 t.2).2 + 1 := by
  obtain ⟨f, e⟩ := inRange_compute c hc s v t hs hp h1 h2 hb
  have hg' : (c.alwaysGlacial || t.1.glacial) = true := by rcases hg with h | h <;> simp [h]
  rw [e, hg']
  exact propCompute_glacial _ _ _ _ _ _ _ _

/-- **C50.** Within the proportional range and not in BAKE, the valve never opens when at or above the set point and
never closes when below it. -/
theorem C50_never_perverse (c : VCfg) (hc : c.binary = false) (s : VState) (v : Nat) (t : VTick) (hs : t.1.sane)
    (hp : Physical (effTemp s v t)) (h1 : coldLimit t.1 ≤ effTemp s v t) (h2 : effTemp s v t < hotLimit t.1)
    (hb : t.1.bake = false) :
    (setPoint t.1 ≤ effTemp s v t → (s.tick c v t.1 t.2).2 ≤ v) ∧
    (effTemp s v t < setPoint t.1 → v ≤ (s.tick c v t.1 t.2).2) := by
  obtain ⟨f, e⟩ := inRange_compute c hc s v t hs hp h1 h2 hb
  rw [e]
  have := propCompute_dir c.aggressive (c.alwaysGlacial || t.1.glacial) f (decide (s.turndownM - 1 ≠ 0))
    (decide (s.turnupM - 1 ≠ 0)) v t.1 (effTemp s v t - setPoint t.1)
    ((t.1.ref16 - 8) - ((if s.initialised then s.temps else List.replicate 16 (t.1.ref16 - 8)).take 15).getD 0 0)
  exact ⟨fun h => this.1 (by omega), fun h => (this.2 (by omega)).1⟩

/-! ## C51 -/

/-- Positions seen at the device: those it reports, or the modelled ones if there is no device. -/
def devPositions (ts : List VTick) (vs : List Nat) : List Nat :=
  List.zipWith (fun t v => (t.2.map Prod.snd).getD v) ts vs

/-- **C51.** After any ticks the cumulative movement is what it was plus the distance travelled, modulo 1024. -/
theorem C51_cumulative (c : VCfg) (s : VState) (v : Nat) (ts : List VTick) (hi : s.initialised = true)
    (h0 : s.cumulative < 1024) :
    (s.after c v ts).1.cumulative =
      (s.cumulative + travel s.prevPC (devPositions ts (s.positions c v ts))) % 1024 := by
  induction ts generalizing s v with
  | nil => simp [VState.after, devPositions, travel, VState.positions]; omega
  | cons t ts ih =>
    rw [after_cons]
    obtain ⟨f1, f2, f3, f4, f5, f6, f7⟩ := tick_fields c s v t.1 t.2
    have e1 : (s.tick c v t.1 t.2).1.cumulative = (s.cumulative +
        (max s.prevPC (s.tick c v t.1 t.2).1.prevPC - min s.prevPC (s.tick c v t.1 t.2).1.prevPC)) % 1024 := by
      rw [f6, tick_snd]
      obtain ⟨g1, g2, g3, g4, g5, g6⟩ := prepare_fields s v t.1 (t.2.map Prod.fst)
      unfold VState.tick
      dsimp only
      generalize s.prepare v t.1 (t.2.map Prod.fst) = s' at *
      rw [if_pos hi] at g5
      (repeat' split) <;> simp_all
    rw [ih _ _ f3 (by rw [e1]; omega), e1]
    simp only [VState.positions, devPositions, List.zipWith_cons_cons, travel]
    rw [f6]
    omega

/-- **C51, from new**, where the first tick notes the starting position. -/
theorem C51_cumulative_new (c : VCfg) (junk : List Int) (v : Nat) (t : VTick) (ts : List VTick) :
    ((VState.new junk).after c v (t :: ts)).1.cumulative =
      travel ((t.2.map Prod.fst).getD v) (devPositions (t :: ts) ((VState.new junk).positions c v (t :: ts))) % 1024 := by
  -- the first tick behaves as from an initialised state that holds the starting values
  let s0 : VState := { VState.new junk with
    initialised := true, temps := List.replicate 16 (t.1.ref16 - 8), prevPC := (t.2.map Prod.fst).getD v }
  have e : (VState.new junk).prepare v t.1 (t.2.map Prod.fst) = s0.prepare v t.1 (t.2.map Prod.fst) := by
    simp [VState.prepare, s0, VState.new]
  have et : (VState.new junk).tick c v t.1 t.2 = s0.tick c v t.1 t.2 := by
    unfold VState.tick; rw [e]
  have ea : (VState.new junk).after c v (t :: ts) = s0.after c v (t :: ts) := by rw [after_cons, after_cons, et]
  have ep : (VState.new junk).positions c v (t :: ts) = s0.positions c v (t :: ts) := by
    simp only [VState.positions, et]
  rw [ea, ep, C51_cumulative c s0 v (t :: ts) rfl (by simp [s0, VState.new])]
  simp [s0, VState.new]

/-! ## C83 -/

/-- **C83.** A valve that is calling for heat (open 50% or more) does not hover when the temperature is static: in the
proportional range, unless held by an anti-hunting delay or in BAKE, a tick closes it when at or above the set point,
and opens it further when below, if there is any further to go. -/
theorem C83_no_hovering (c : VCfg) (hc : c.binary = false) (s : VState) (v : Nat) (t : VTick) (hs : t.1.sane)
    (hi : s.initialised = true) (hst : s.temps.head? = some (t.1.ref16 - 8))
    (hp : Physical (effTemp s v t)) (h1 : coldLimit t.1 ≤ effTemp s v t) (h2 : effTemp s v t < hotLimit t.1)
    (hb : t.1.bake = false) (hv : callForHeatPC ≤ v) :
    (setPoint t.1 ≤ effTemp s v t → s.turnupM ≤ 1 → (s.tick c v t.1 t.2).2 < v) ∧
    (effTemp s v t < setPoint t.1 → s.turndownM ≤ 1 → v < t.1.maxPC → v < (s.tick c v t.1 t.2).2) := by
  obtain ⟨f, e⟩ := inRange_compute c hc s v t hs hp h1 h2 hb
  have hr : (t.1.ref16 - 8) - ((if s.initialised then s.temps else List.replicate 16 (t.1.ref16 - 8)).take 15).getD 0 0 = 0 := by
    rw [if_pos hi]
    cases hts : s.temps with
    | nil => rw [hts] at hst; cases hst
    | cons a as =>
      rw [hts] at hst
      have : a = t.1.ref16 - 8 := by simpa using hst
      simp [this]
  rw [e, hr]
  constructor
  · intro hsp htu
    have : decide (s.turnupM - 1 ≠ 0) = false := by simp; omega
    rw [this]
    exact (propCompute_nohover _ _ _ _ true v t.1 _ hv).1 (by omega)
  · intro hsp htd hm
    have : decide (s.turndownM - 1 ≠ 0) = false := by simp; omega
    rw [this]
    exact (propCompute_nohover _ _ _ true _ v t.1 _ hv).2 (by omega) hm

/-! ## Cases that meet the hypotheses -/

/-- 21 C (respectively 17 C, 10 C, 30 C) with a target of 19 C. -/
def vWarm : VTick := (⟨19, 19, 100, false, false, false, false, 21 * 16 + 8⟩, none)
def vCool : VTick := (⟨19, 19, 100, false, false, false, false, 17 * 16 + 8⟩, none)
def vCold : VTick := (⟨19, 19, 100, false, false, false, false, 10 * 16 + 8⟩, none)
def vHot : VTick := (⟨19, 19, 100, false, false, false, false, 30 * 16 + 8⟩, none)
def vBake : VTick := (⟨24, 24, 100, false, false, true, false, 10 * 16 + 8⟩, none)
def vGlacial : VTick := (⟨19, 19, 100, false, true, false, false, 21 * 16 + 8⟩, none)
def vLess : VTick := (⟨19, 19, 80, false, false, false, false, 10 * 16 + 8⟩, none)
def vCfg : VCfg := ⟨false, false, false⟩

-- C45: an opening move, reaching the maximum
example : 40 < ((VState.new []).tick vCfg 40 vCold.1 none).2 ∧ ((VState.new []).tick vCfg 40 vCold.1 none).2 = 100 := by
  decide +kernel

-- C46: a close followed by an open (in BAKE), an open followed by a close (to a reduced maximum)
example : ((VState.new []).after vCfg 60 ([] ++ [vHot])).2 < ((VState.new []).after vCfg 60 []).2 ∧
    ((VState.new []).after vCfg 60 ([] ++ [vHot] ++ [vHot])).2 <
      ((VState.new []).after vCfg 60 ([] ++ [vHot] ++ [vHot] ++ [vBake])).2 := by decide +kernel
example : ((VState.new []).after vCfg 60 []).2 < ((VState.new []).after vCfg 60 ([] ++ [vCold])).2 ∧
    ((VState.new []).after vCfg 60 ([] ++ [vCold] ++ [vCold] ++ [vLess])).2 <
      ((VState.new []).after vCfg 60 ([] ++ [vCold] ++ [vCold])).2 := by decide +kernel

-- the holds are exactly that long: a tick later the valve does move
example : ((VState.new []).after vCfg 60 (vHot :: List.replicate 10 vCold)).2 = 0 ∧
    ((VState.new []).after vCfg 60 (vHot :: List.replicate 11 vCold)).2 = 100 ∧
    ((VState.new []).after vCfg 60 (vCold :: List.replicate 9 vHot)).2 = 100 ∧
    ((VState.new []).after vCfg 60 (vCold :: List.replicate 10 vHot)).2 = 99 := by decide +kernel

-- C47, C48
example : Physical (effTemp (VState.new []) 30 vCold) ∧ effTemp (VState.new []) 30 vCold < coldLimit vCold.1 ∧
    Physical (effTemp (VState.new []) 30 vHot) ∧ hotLimit vHot.1 ≤ effTemp (VState.new []) 30 vHot :=
  ⟨⟨by decide +kernel, by decide +kernel⟩, by decide +kernel, ⟨by decide +kernel, by decide +kernel⟩, by decide +kernel⟩
example : ((VState.new []).after vCfg 30 (List.replicate 11 vCold)).2 = 100 :=
  (C47_opens_in_time vCfg rfl 100 (List.replicate 11 vCold)
    (fun t ht => by rw [List.eq_of_mem_replicate ht]; exact ⟨rfl, by decide, by decide, by decide⟩) (VState.new []) 30
    (by omega) (by decide) (fun h => by cases h)
    (fun t ht t' ht' => by
      rw [List.eq_of_mem_replicate ht, List.eq_of_mem_replicate ht']; exact ⟨by decide +kernel, by decide +kernel⟩)
    (fun h => by cases h)).2 ⟨rfl, fun t ht => by rw [List.eq_of_mem_replicate ht]; rfl⟩ (by simp)

-- C49, C50, C83: within the proportional range, moving
example : coldLimit vGlacial.1 ≤ effTemp (VState.new []) 60 vGlacial ∧
    effTemp (VState.new []) 60 vGlacial < hotLimit vGlacial.1 ∧
    setPoint vGlacial.1 ≤ effTemp (VState.new []) 60 vGlacial ∧
    ((VState.new []).tick vCfg 60 vGlacial.1 none).2 = 59 ∧
    ((VState.new []).tick vCfg 60 vWarm.1 none).2 < 60 ∧
    60 < ((VState.new []).tick vCfg 60 vCool.1 none).2 := by decide +kernel

-- C51: a journey of 60 → 0 → 0 → 100 → 100 counts 160
example : ((VState.new []).after vCfg 60 [vHot, vHot, vBake, vBake]).1.cumulative = 160 := by decide +kernel

end Props
end OTR
