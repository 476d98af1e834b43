import Verif.Props.ValveLive
/-!
# Property C84, further: a room steadily too warm ends with the valve shut, and filtering ends
-/

namespace OTR

theorem propCompute_wellAbove (ag gl f nu : Bool) (v : Nat) (i : VIn) (err : Int)
    (hh : 28 < err - ((i.higher - i.target : Nat) : Int) * 16) (hhi : err ≤ 1000) (hv : 0 < v) :
    propCompute ag gl f nu false v i err 0 < v := by
  have h28 : 28 < err := by omega
  have hb : decide (err < 0) = false := by simp; omega
  have hv0 : (v == 0) = false := by simp; omega
  have hwa : decide (err > if f = true then (28 : Int) else 6) = true := by cases f <;> simp <;> omega
  have hwm : decide (err - ((i.higher - i.target : Nat) : Int) * 16 > if f = true then (28 : Int) else 6) = true := by
    cases f <;> simp <;> omega
  have hsl : ∀ w : Bool, (min 21 (err.natAbs / (if w = true then 8 else 4) % 256) == 0) = false := by
    intro w; cases w <;> simp <;> omega
  have e1 : decide ((0 : Int) > 0) = false := by decide
  have e2 : decide ((0 : Int) < 0) = false := by decide
  have e3 : decide ((0 : Int) ≥ 0) = true := by decide
  unfold propCompute
  simp only [hb, hv0, hwa, hwm, hsl, e1, e2, e3, Bool.false_and, Bool.not_false, Bool.true_and, Bool.and_false, Bool.not_true,
    if_true, Bool.false_eq_true, if_false, Bool.and_true]
  have hcon : ∀ k : Nat, 0 < k → (constrainI ((v : Int) - k) 0 (50 - 1)).toNat < v := by
    intro k hk
    unfold constrainI
    split
    · simp; omega
    · split <;> omega
  generalize (if (i.wide || f) = true then (8 : Nat) else 4) = k
  generalize (i.fast || decide (err < -if (i.wide || f) = true then (12 : Int) else 6)) = q
  by_cases hcc : (!gl && q && decide (min 21 (err.natAbs / k % 256) > 0)) = true
  · rw [if_pos hcc]
    refine hcon _ ?_
    simp only [Bool.and_eq_true, decide_eq_true_eq] at hcc
    exact hcc.2
  · rw [if_neg hcc]; omega

/-- The temperature, in 1/16 C, above which a room is well above the highest of its targets: 2.5 C above. -/
def wellHot (i : VIn) : Int := (i.higher : Int) * 16 + 40

theorem hot_step (c : VCfg) (hc : c.binary = false) (s : VState) (v : Nat) (t : VTick) (hs : t.1.sane)
    (hf : s.Full) (h : s.Steady (t.1.ref16 - 8) 15) (h1 : t.1.ref16 ≤ 2030) (hhh : wellHot t.1 < t.1.ref16)
    (hsep : t.1.higher ≤ t.1.target + 50) (hb : t.1.bake = false) (h5 : 5 ≤ t.1.target) (htu : s.turnupM ≤ 1) (hv : 0 < v) :
    (s.tick c v t.1 t.2).2 < v := by
  have hhi : t.1.target ≤ t.1.higher := Nat.le_max_left _ _
  unfold wellHot at hhh
  have h0 : 8 ≤ t.1.ref16 := by omega
  have he := effTemp_steady s v t hf h h0
  have hp : Physical (effTemp s v t) := by rw [he]; unfold Physical; omega
  have hr : (t.1.ref16 - 8) - ((if s.initialised then s.temps else List.replicate 16 (t.1.ref16 - 8)).take 15).getD 0 0 = 0 := by
    cases hi : s.initialised with
    | false => simp
    | true =>
      have := h hi 0 (by omega)
      rw [if_pos rfl, List.getD_eq_getElem?_getD, List.getElem?_take_of_lt (by omega), this]
      simp
  have hcold : ¬ effTemp s v t < coldLimit t.1 := by
    rw [he]; unfold coldLimit; omega
  by_cases hhot : hotLimit t.1 ≤ effTemp s v t
  · rw [Props.C48_overheat_closes c hc s v t hs hp hhot htu]; exact hv
  · obtain ⟨f, e⟩ := Props.inRange_compute c hc s v t hs hp (by omega) (by omega) hb
    rw [hr, he] at e
    have hz : decide (s.turnupM - 1 ≠ 0) = false := by simp; omega
    rw [e, hz]
    rw [he] at hhot
    unfold hotLimit at hhot
    have hle : t.1.higher = max t.1.target t.1.maxTarget := rfl
    refine propCompute_wellAbove _ _ _ _ v t.1 _ ?_ ?_ hv
    · unfold setPoint; omega
    · unfold setPoint; omega

theorem hot_ticks (c : VCfg) (hc : c.binary = false) (i : VIn) (hs : i.sane) (h5 : 5 ≤ i.target) (hb : i.bake = false)
    (h1 : i.ref16 ≤ 2030) (hw : wellHot i < i.ref16) (hsep : i.higher ≤ i.target + 50) (ts : List VTick) (h : ∀ t ∈ ts, t.1 = i) :
    ∀ (s : VState) (v : Nat), s.Full → s.Steady (i.ref16 - 8) 15 →
      (s.after c v ts).2 ≤ v - (ts.length - (s.turnupM - 1)) := by
  have hhi : i.target ≤ i.higher := Nat.le_max_left _ _
  have h0 : 8 ≤ i.ref16 := by unfold wellHot at hw; omega
  have hsp : setPoint i ≤ i.ref16 := by unfold wellHot at hw; unfold setPoint; omega
  induction ts with
  | nil => intro s v _ _; simp only [VState.after, List.foldl_nil, List.length_nil]; omega
  | cons t ts ih =>
    intro s v hf hst
    have ht : t.1 = i := h t (by simp)
    have st := (steady_step c hc s v t (by rw [ht]; exact hs) hf (by rw [ht]; exact hst) (by rw [ht]; exact h0)
      (by rw [ht]; exact h1) (by rw [ht]; exact hb) (by rw [ht]; exact h5)).1 (by rw [ht]; exact hsp)
    have hd := fun hu hv => hot_step c hc s v t (by rw [ht]; exact hs) hf (by rw [ht]; exact hst) (by rw [ht]; exact h1)
      (by rw [ht]; exact hw) (by rw [ht]; exact hsep) (by rw [ht]; exact hb) (by rw [ht]; exact h5) hu hv
    have hf' := tick_full c s v t hf
    have hst' := steady_tick c s v t 14 (by omega) (by rw [ht]; exact steady_mono hst (by omega))
    rw [ht] at hst'
    have htu := (tick_fields c s v t.1 t.2).2.1
    rw [if_neg (by omega)] at htu
    have k := ih (fun t ht => h t (by simp [ht])) (s.tick c v t.1 t.2).1 (s.tick c v t.1 t.2).2 hf'
      (by rw [ht]; exact hst')
    rw [after_cons]
    simp only [List.length_cons]
    rw [htu] at k
    have a := st.1
    generalize (s.tick c v t.1 t.2).2 = v' at *
    by_cases hu : s.turnupM ≤ 1
    · by_cases hv : 0 < v
      · have := hd hu hv; omega
      · omega
    · omega

/-- The filter count after the first part of a minute's work. -/
theorem filtering_tick (c : VCfg) (s : VState) (v : Nat) (i : VIn) (ph : Option (Nat × Nat)) :
    (s.tick c v i ph).1.filtering = (s.prepare v i (ph.map Prod.fst)).filtering := by
  unfold VState.tick
  dsimp only
  (repeat' split) <;> rfl

theorem replicate_of_steady (s : VState) (x : Int) (hf : s.Full) (h : s.Steady x 15) :
    x :: (if s.initialised then s.temps else List.replicate 16 x).take 15 = List.replicate 16 x := by
  cases hi : s.initialised with
  | false => simp
  | true =>
    have hl := hf hi
    rw [if_pos rfl]
    apply List.ext_getElem?
    intro j
    cases j with
    | zero => simp
    | succ j =>
      rw [List.getElem?_cons_succ]
      by_cases hj : j < 15
      · rw [List.getElem?_take_of_lt hj, h hi j hj, List.getElem?_replicate, if_pos (by omega)]
      · rw [List.getElem?_eq_none (by simp; omega), List.getElem?_eq_none (by simp; omega)]

theorem mean_near (x : Int) : (smallIntMean (List.replicate 16 x) - x).natAbs ≤ 3 := by
  have : (List.replicate 16 x).sum = 16 * x := by simp [List.replicate]; omega
  unfold smallIntMean
  rw [this]
  by_cases h : 0 ≤ x
  · rw [Int.tdiv_eq_ediv_of_nonneg (by omega)]; omega
  · rw [show 16 * x + 8 = -(-(16 * x + 8)) by omega, Int.neg_tdiv, Int.tdiv_eq_ediv_of_nonneg (by omega)]; omega

/-- The filter count after one minute, from the list of temperatures then held. -/
theorem prepare_filtering (s : VState) (v : Nat) (i : VIn) (ph : Option Nat) :
    (s.prepare v i ph).filtering =
      (let ts := (i.ref16 - 8) :: (if s.initialised then s.temps else List.replicate 16 (i.ref16 - 8)).take 15
       let f := if s.filtering > 1 then s.filtering - 1
         else if s.filtering = 1 ∧ (smallIntMean ts - (i.ref16 - 8)).natAbs ≤ 3 then 0 else s.filtering
       if f = 0 ∧ (ts.getD 0 0 - ts.getD (min 5 15) 0).natAbs > 8 then 64 else f) := by
  unfold VState.prepare
  dsimp only
  have hte : ((if s.initialised = true then s else { s with temps := List.replicate 16 (i.ref16 - 8), prevPC := ph.getD v, initialised := true } : VState)).temps
      = if s.initialised then s.temps else List.replicate 16 (i.ref16 - 8) := by split <;> rfl
  have hfe : ((if s.initialised = true then s else { s with temps := List.replicate 16 (i.ref16 - 8), prevPC := ph.getD v, initialised := true } : VState)).filtering
      = s.filtering := by split <;> rfl
  generalize (if s.initialised = true then s else { s with temps := List.replicate 16 (i.ref16 - 8), prevPC := ph.getD v, initialised := true } : VState) = w at *
  rw [hte, hfe]
  generalize (i.ref16 - 8) :: List.take 15 (if s.initialised then s.temps else List.replicate 16 (i.ref16 - 8)) = ts
  unfold VState.rawDelta
  by_cases h1 : s.filtering > 1
  · rw [if_pos h1, if_pos h1]
    dsimp only
    generalize (ts.getD 0 0 - ts.getD (min 5 15) 0).natAbs = d
    by_cases h3 : s.filtering - 1 = 0 ∧ d > 8
    · rw [if_pos h3, if_pos h3]
    · rw [if_neg h3, if_neg h3]
  · rw [if_neg h1, if_neg h1]
    by_cases h2 : s.filtering = 1 ∧ (smallIntMean ts - (i.ref16 - 8)).natAbs ≤ 3
    · rw [if_pos h2, if_pos h2]
      dsimp only
      generalize (ts.getD 0 0 - ts.getD (min 5 15) 0).natAbs = d
      by_cases h3 : (0 = 0) ∧ d > 8
      · rw [if_pos h3, if_pos h3]
      · rw [if_neg h3, if_neg h3]
    · rw [if_neg h2, if_neg h2]
      dsimp only
      generalize (ts.getD 0 0 - ts.getD (min 5 15) 0).natAbs = d
      by_cases h3 : s.filtering = 0 ∧ d > 8
      · rw [if_pos h3, if_pos h3]
      · rw [if_neg h3, if_neg h3]

/-- In a steady room the filter count goes down to zero and stays there. -/
theorem filtering_step (s : VState) (v : Nat) (i : VIn) (ph : Option Nat) (hf : s.Full) (h : s.Steady (i.ref16 - 8) 15) :
    (s.prepare v i ph).filtering = s.filtering - 1 := by
  have e := replicate_of_steady s (i.ref16 - 8) hf h
  have hm := mean_near (i.ref16 - 8)
  rw [prepare_filtering]
  dsimp only
  rw [e]
  have hd : ((List.replicate 16 (i.ref16 - 8)).getD 0 0 - (List.replicate 16 (i.ref16 - 8)).getD (min 5 15) 0).natAbs = 0 := by
    simp [List.getD_eq_getElem?_getD, List.getElem?_replicate]
  rw [hd, if_neg (by omega)]
  by_cases h1 : s.filtering > 1
  · rw [if_pos h1]
  · rw [if_neg h1]
    by_cases h2 : s.filtering = 1
    · rw [if_pos ⟨h2, hm⟩]; omega
    · rw [if_neg (fun h => h2 h.1)]; omega

theorem filtering_ticks (c : VCfg) (i : VIn) (ts : List VTick) (h : ∀ t ∈ ts, t.1 = i) :
    ∀ (s : VState) (v : Nat), s.Full → s.Steady (i.ref16 - 8) 15 → (s.after c v ts).1.filtering = s.filtering - ts.length := by
  induction ts with
  | nil => intro s v _ _; rfl
  | cons t ts ih =>
    intro s v hf hst
    have ht : t.1 = i := h t (by simp)
    have hf' := tick_full c s v t hf
    have hst' := steady_tick c s v t 14 (by omega) (by rw [ht]; exact steady_mono hst (by omega))
    have e := filtering_tick c s v i t.2
    rw [filtering_step s v i _ hf hst] at e
    rw [after_cons]
    rw [ht] at hst' hf' ⊢
    rw [ih (fun t ht => h t (by simp [ht])) _ _ hf' hst', e, List.length_cons]
    omega

theorem filtering_le (s : VState) (v : Nat) (i : VIn) (ph : Option Nat) (h : s.filtering ≤ 64) : (s.prepare v i ph).filtering ≤ 64 := by
  rw [prepare_filtering]
  dsimp only
  (repeat' split) <;> omega

theorem filtering_after_le (c : VCfg) (ts : List VTick) : ∀ (s : VState) (v : Nat), s.filtering ≤ 64 →
    (s.after c v ts).1.filtering ≤ 64 := by
  induction ts with
  | nil => exact fun s v h => h
  | cons t ts ih =>
    intro s v h
    rw [after_cons]
    apply ih
    rw [filtering_tick]
    exact filtering_le s v t.1 _ h

namespace Props

/-- **C84, hot.** Whatever went before, in a room that stays at one temperature more than 2.5 C above the highest of its
targets, with the same (non-BAKE) settings, the valve is fully closed after 125 minutes, and stays so. -/
theorem C84_steady_hot_closes (c : VCfg) (hc : c.binary = false) (i : VIn) (hs : i.sane) (h5 : 5 ≤ i.target)
    (hb : i.bake = false) (h1 : i.ref16 ≤ 2030) (hw : wellHot i < i.ref16) (hsep : i.higher ≤ i.target + 50)
    (ts : List VTick) (h : ∀ t ∈ ts, t.1 = i)
    (s : VState) (v : Nat) (hv : v ≤ 100) (hf : s.Full) (htu : s.turnupM ≤ 10) (hn : 125 ≤ ts.length) :
    (s.after c v ts).2 = 0 := by
  have hsplit : ts = ts.take 15 ++ ts.drop 15 := (List.take_append_drop 15 ts).symm
  have ha : ∀ t ∈ ts.take 15, t.1 = i := fun t ht => h t (List.mem_of_mem_take ht)
  have hd : ∀ t ∈ ts.drop 15, t.1 = i := fun t ht => h t (List.mem_of_mem_drop ht)
  have hst := steady_after c i (ts.take 15) ha s v 0 (fun _ j hj => absurd hj (by omega)) (by omega)
  have hf' := full_after c (ts.take 15) s v hf
  have hv' : (s.after c v (ts.take 15)).2 ≤ 100 := C45_always c s v _ hv (fun t ht => by rw [ha t ht]; exact hs.2.2)
  have htu' := (turnup_lb c s v (ts.take 15) htu).2
  have k := hot_ticks c hc i hs h5 hb h1 hw hsep (ts.drop 15) hd (s.after c v (ts.take 15)).1 (s.after c v (ts.take 15)).2 hf'
    (steady_mono hst (by rw [List.length_take]; omega))
  rw [hsplit, after_append]
  rw [List.length_drop] at k
  omega

/-- **C84, filter.** In a room at a steady temperature the input filter is off after 79 minutes, and stays off. -/
theorem C84_filter_ends (c : VCfg) (i : VIn) (ts : List VTick) (h : ∀ t ∈ ts, t.1 = i)
    (s : VState) (v : Nat) (hf : s.Full) (hfl : s.filtering ≤ 64) (hn : 79 ≤ ts.length) :
    (s.after c v ts).1.filtering = 0 := by
  have hsplit : ts = ts.take 15 ++ ts.drop 15 := (List.take_append_drop 15 ts).symm
  have ha : ∀ t ∈ ts.take 15, t.1 = i := fun t ht => h t (List.mem_of_mem_take ht)
  have hd : ∀ t ∈ ts.drop 15, t.1 = i := fun t ht => h t (List.mem_of_mem_drop ht)
  have hst := steady_after c i (ts.take 15) ha s v 0 (fun _ j hj => absurd hj (by omega)) (by omega)
  have hf' := full_after c (ts.take 15) s v hf
  have hle := filtering_after_le c (ts.take 15) s v hfl
  have k := filtering_ticks c i (ts.drop 15) hd (s.after c v (ts.take 15)).1 (s.after c v (ts.take 15)).2 hf'
    (steady_mono hst (by rw [List.length_take]; omega))
  rw [hsplit, after_append, k, List.length_drop]
  omega

/-- Not vacuous: a fully open valve in a room at 23 C with target 19 C, from power-up; and a jump in temperature does
start the filter. -/
example : (((VState.new []).after ⟨false, false, false⟩ 100
    (List.replicate 125 (⟨19, 19, 100, false, false, false, false, 23 * 16 + 8⟩, none))).2 = 0) ∧
  ((((VState.new []).after ⟨false, false, false⟩ 100
    [(⟨19, 19, 100, false, false, false, false, 23 * 16 + 8⟩, none), (⟨19, 19, 100, false, false, false, false, 25 * 16 + 8⟩, none)]).1.filtering) = 64) := by
  decide +kernel
end Props
end OTR
