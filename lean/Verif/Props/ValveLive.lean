import Verif.Props.Valve
/-!
# Property C84: in a room at a steady temperature the valve ends up right
-/

namespace OTR

theorem propCompute_wellBelow (ag gl f nd : Bool) (v : Nat) (i : VIn) (err : Int) (h : err < -12) (hlo : -500 ≤ err)
    (hm : v < i.maxPC) : v < propCompute ag gl f false nd v i err 0 := by
  have hb : decide (err < 0) = true := by simp; omega
  have hm' : decide (v ≥ i.maxPC) = false := by simp; omega
  have hwa : decide (err > if f = true then (28 : Int) else 6) = false := by cases f <;> simp <;> omega
  have hwb : ∀ w : Bool, decide (err < -if w = true then (12 : Int) else 6) = true := by
    intro w; cases w <;> simp <;> omega
  have e1 : decide ((0 : Int) > 0) = false := by decide
  have e2 : decide ((0 : Int) ≤ 0) = true := by decide
  have hsl : ∀ w : Bool, (min 21 (err.natAbs / (if w = true then 8 else 4) % 256) == 0) = false := by
    intro w; cases w <;> simp <;> omega
  unfold propCompute
  simp only [hb, hm', hwa, hwb, hsl, e1, e2, Bool.false_and, Bool.not_false, Bool.true_and, Bool.and_false, Bool.not_true,
    if_true, Bool.false_eq_true, if_false, Bool.and_true]
  refine Nat.lt_of_succ_le (le_ite (fun _ => by omega) fun _ => ?_)
  split <;> omega

/-- The last `n` temperatures seen were all `x`. -/
def VState.Steady (s : VState) (x : Int) (n : Nat) : Prop := s.initialised = true → ∀ j < n, s.temps[j]? = some x

theorem steady_tick (c : VCfg) (s : VState) (v : Nat) (t : VTick) (n : Nat) (hn : n < 16) (h : s.Steady (t.1.ref16 - 8) n) :
    (s.tick c v t.1 t.2).1.Steady (t.1.ref16 - 8) (n + 1) := by
  intro _ j hj
  rw [(tick_fields c s v t.1 t.2).2.2.2.1, (prepare_fields s v t.1 _).2.2.2.2.2]
  cases j with
  | zero => simp
  | succ j =>
    rw [List.getElem?_cons_succ, List.getElem?_take_of_lt (by omega)]
    cases hi : s.initialised with
    | true => simp [h hi j (by omega)]
    | false => simp only [Bool.false_eq_true, if_false]; rw [List.getElem?_replicate, if_pos (by omega)]

theorem steady_mono {s : VState} {x : Int} {n m : Nat} (h : s.Steady x n) (hm : m ≤ n) : s.Steady x m :=
  fun hi j hj => h hi j (by omega)

theorem steady_after (c : VCfg) (i : VIn) (ts : List VTick) (h : ∀ t ∈ ts, t.1 = i) :
    ∀ (s : VState) (v n : Nat), s.Steady (i.ref16 - 8) n → n ≤ 16 →
      (s.after c v ts).1.Steady (i.ref16 - 8) (min 16 (n + ts.length)) := by
  induction ts with
  | nil => intro s v n hs hn; exact steady_mono hs (by simp only [List.length_nil]; omega)
  | cons t ts ih =>
    intro s v n hs hn
    rw [after_cons]
    have ht : t.1 = i := h t (by simp)
    have h1 := steady_tick c s v t (min n 15) (by omega) (by rw [ht]; exact steady_mono hs (by omega))
    rw [ht] at h1
    have h2 := ih (fun t ht => h t (by simp [ht])) (s.tick c v i t.2).1 (s.tick c v i t.2).2 (min n 15 + 1) h1 (by omega)
    rw [ht]
    exact steady_mono h2 (by simp only [List.length_cons]; omega)

theorem full_after (c : VCfg) (ts : List VTick) : ∀ (s : VState) (v : Nat), s.Full → (s.after c v ts).1.Full := by
  induction ts with
  | nil => intro s v h; exact h
  | cons t ts ih => intro s v h; rw [after_cons]; exact ih _ _ (tick_full c s v t h)

theorem mean_replicate {x : Int} (h : 0 ≤ x) : smallIntMean (List.replicate 16 x) = x := by
  have : (List.replicate 16 x).sum = 16 * x := by simp [List.replicate]; omega
  unfold smallIntMean
  rw [this, Int.tdiv_eq_ediv_of_nonneg (by omega)]
  omega

theorem effTemp_steady (s : VState) (v : Nat) (t : VTick) (hf : s.Full) (h : s.Steady (t.1.ref16 - 8) 15)
    (h0 : 8 ≤ t.1.ref16) : effTemp s v t = t.1.ref16 := by
  unfold effTemp VState.adj16
  split
  · have e := (prepare_fields s v t.1 (t.2.map Prod.fst)).2.2.2.2.2
    have : (t.1.ref16 - 8) :: (if s.initialised then s.temps else List.replicate 16 (t.1.ref16 - 8)).take 15 =
        List.replicate 16 (t.1.ref16 - 8) := by
      cases hi : s.initialised with
      | false => simp
      | true =>
        have hl := hf hi
        rw [if_pos rfl]
        apply List.ext_getElem?
        intro j
        cases j with
        | zero => simp
        | succ j =>
          rw [List.getElem?_cons_succ]
          by_cases hj : j < 15
          · rw [List.getElem?_take_of_lt hj, h hi j hj, List.getElem?_replicate, if_pos (by omega)]
          · rw [List.getElem?_eq_none (by simp; omega), List.getElem?_eq_none (by simp; omega)]
    rw [e, this, mean_replicate (by omega)]; omega
  · rfl

/-- One tick in a steady room. -/
theorem steady_step (c : VCfg) (hc : c.binary = false) (s : VState) (v : Nat) (t : VTick) (hs : t.1.sane)
    (hf : s.Full) (h : s.Steady (t.1.ref16 - 8) 15) (h0 : 8 ≤ t.1.ref16) (h1 : t.1.ref16 ≤ 2030)
    (hb : t.1.bake = false) (h5 : 5 ≤ t.1.target) :
    (setPoint t.1 ≤ t.1.ref16 → (s.tick c v t.1 t.2).2 ≤ v ∧
      (s.turnupM ≤ 1 → 50 ≤ v → (s.tick c v t.1 t.2).2 < v)) ∧
    (t.1.ref16 + 12 < setPoint t.1 → v ≤ t.1.maxPC → v ≤ (s.tick c v t.1 t.2).2 ∧
      (s.turndownM ≤ 1 → v < t.1.maxPC → v < (s.tick c v t.1 t.2).2)) := by
  have he := effTemp_steady s v t hf h h0
  have hp : Physical (effTemp s v t) := by rw [he]; unfold Physical; omega
  have hr : (t.1.ref16 - 8) - ((if s.initialised then s.temps else List.replicate 16 (t.1.ref16 - 8)).take 15).getD 0 0 = 0 := by
    cases hi : s.initialised with
    | false => simp
    | true =>
      have := h hi 0 (by omega)
      rw [if_pos rfl, List.getD_eq_getElem?_getD, List.getElem?_take_of_lt (by omega), this]
      simp
  by_cases hcold : effTemp s v t < coldLimit t.1
  · have hsp : t.1.ref16 < setPoint t.1 := by
      rw [he] at hcold; unfold coldLimit at hcold; unfold setPoint; omega
    refine ⟨fun hh => by omega, fun _ hv => ?_⟩
    by_cases hold : s.turndownM ≤ 1
    · rw [Props.C47_frost_protection c hc s v t hp hcold (Or.inl hold)]
      split <;> refine ⟨by omega, fun _ _ => by omega⟩
    · refine ⟨?_, fun h => absurd h hold⟩
      rw [tick_snd]
      unfold effTemp at hp hcold
      have hpf := (prepare_fields s v t.1 (t.2.map Prod.fst)).1
      generalize s.prepare v t.1 (t.2.map Prod.fst) = s' at *
      unfold VState.compute
      have hcold' : isCold c.binary (s'.adj16 t.1) t.1 = true := by
        rw [hc, isCold_iff _ _ (by unfold Physical at hp; omega)]; exact hcold
      have hn : s'.turndownM ≠ 0 := by omega
      simp [hcold', hn, hb]
  · by_cases hhot : hotLimit t.1 ≤ effTemp s v t
    · have hsp : setPoint t.1 ≤ t.1.ref16 := by
        rw [he] at hhot; unfold hotLimit at hhot; unfold setPoint; have := hs.1; omega
      refine ⟨fun _ => ?_, fun hh => by omega⟩
      by_cases hold : s.turnupM ≤ 1
      · rw [Props.C48_overheat_closes c hc s v t hs hp hhot hold]; omega
      · refine ⟨?_, fun h => absurd h hold⟩
        rw [tick_snd]
        unfold effTemp at hp hhot hcold
        have hpf := (prepare_fields s v t.1 (t.2.map Prod.fst)).2.1
        generalize s.prepare v t.1 (t.2.map Prod.fst) = s' at *
        have hr' : -2048 ≤ s'.adj16 t.1 ∧ s'.adj16 t.1 ≤ 2047 := by unfold Physical at hp; omega
        have hh : t.1.higher ≤ 95 := by unfold VIn.higher; obtain ⟨a, b, _⟩ := hs; omega
        unfold VState.compute
        have hcold' : isCold c.binary (s'.adj16 t.1) t.1 = false := by
          rw [Bool.eq_false_iff, hc]; intro hx; rw [isCold_iff _ _ hr'] at hx
          unfold coldLimit at hcold; omega
        have hhot' : isHot c.binary (s'.adj16 t.1) t.1 = true := by
          rw [hc, isHot_iff _ _ hr' hh]
          unfold hotLimit at hhot; unfold VIn.higher; omega
        have hn : s'.turnupM ≠ 0 := by omega
        simp [hcold', hhot', hn]
    · obtain ⟨f, e⟩ := Props.inRange_compute c hc s v t hs hp (by omega) (by omega) hb
      rw [hr, he] at e
      have hd := Props.C50_never_perverse c hc s v t hs hp (by omega) (by omega) hb
      rw [he] at hd
      constructor
      · intro hsp
        refine ⟨hd.1 hsp, fun htu hv => ?_⟩
        have h0 : decide (s.turnupM - 1 ≠ 0) = false := by simp; omega
        rw [e, h0]
        exact (propCompute_nohover _ _ _ _ true v t.1 _ hv).1 (by omega)
      · intro hsp _
        refine ⟨hd.2 (by omega), fun htd hv => ?_⟩
        have h0 : decide (s.turndownM - 1 ≠ 0) = false := by simp; omega
        rw [e, h0]
        refine propCompute_wellBelow _ _ _ _ v t.1 _ (by omega) ?_ hv
        rw [he] at hcold; unfold coldLimit at hcold; unfold setPoint; omega

theorem warm_ticks (c : VCfg) (hc : c.binary = false) (i : VIn) (hs : i.sane) (h5 : 5 ≤ i.target) (hb : i.bake = false)
    (h1 : i.ref16 ≤ 2030) (hw : setPoint i ≤ i.ref16) (ts : List VTick) (h : ∀ t ∈ ts, t.1 = i) :
    ∀ (s : VState) (v : Nat), s.Full → s.Steady (i.ref16 - 8) 15 →
      (s.after c v ts).2 ≤ max 49 (v - (ts.length - (s.turnupM - 1))) := by
  have h0 : 8 ≤ i.ref16 := by unfold setPoint at hw; omega
  induction ts with
  | nil => intro s v _ _; simp only [VState.after, List.foldl_nil, List.length_nil]; omega
  | cons t ts ih =>
    intro s v hf hst
    have ht : t.1 = i := h t (by simp)
    have st := (steady_step c hc s v t (by rw [ht]; exact hs) hf (by rw [ht]; exact hst) (by rw [ht]; exact h0)
      (by rw [ht]; exact h1) (by rw [ht]; exact hb) (by rw [ht]; exact h5)).1 (by rw [ht]; exact hw)
    have hf' := tick_full c s v t hf
    have hst' := steady_tick c s v t 14 (by omega) (by rw [ht]; exact steady_mono hst (by omega))
    rw [ht] at hst'
    have htu := (tick_fields c s v t.1 t.2).2.1
    rw [if_neg (by omega)] at htu
    have k := ih (fun t ht => h t (by simp [ht])) (s.tick c v t.1 t.2).1 (s.tick c v t.1 t.2).2 hf'
      (by rw [ht]; exact hst')
    rw [after_cons]
    simp only [List.length_cons]
    rw [htu] at k
    have a := st.1
    have b := st.2
    generalize (s.tick c v t.1 t.2).2 = v' at *
    by_cases hu : s.turnupM ≤ 1
    · by_cases hv : 50 ≤ v
      · have := b hu hv; omega
      · omega
    · omega

theorem cool_ticks (c : VCfg) (hc : c.binary = false) (i : VIn) (hs : i.sane) (h5 : 5 ≤ i.target) (hb : i.bake = false)
    (h0 : 8 ≤ i.ref16) (hw : i.ref16 + 12 < setPoint i) (ts : List VTick) (h : ∀ t ∈ ts, t.1 = i) :
    ∀ (s : VState) (v : Nat), v ≤ i.maxPC → s.Full → s.Steady (i.ref16 - 8) 15 →
      (s.after c v ts).2 ≤ i.maxPC ∧ min i.maxPC (v + (ts.length - (s.turndownM - 1))) ≤ (s.after c v ts).2 := by
  have h1 : i.ref16 ≤ 2030 := by unfold setPoint at hw; have := hs.1; omega
  induction ts with
  | nil => intro s v hv _ _; simp only [VState.after, List.foldl_nil, List.length_nil]; omega
  | cons t ts ih =>
    intro s v hv hf hst
    have ht : t.1 = i := h t (by simp)
    have st := (steady_step c hc s v t (by rw [ht]; exact hs) hf (by rw [ht]; exact hst) (by rw [ht]; exact h0)
      (by rw [ht]; exact h1) (by rw [ht]; exact hb) (by rw [ht]; exact h5)).2 (by rw [ht]; exact hw) (by rw [ht]; exact hv)
    have lim := (Props.C45_limits c s v t.1 t.2).1
    rw [ht] at lim st
    have hf' := tick_full c s v t hf
    have hst' := steady_tick c s v t 14 (by omega) (by rw [ht]; exact steady_mono hst (by omega))
    rw [ht] at hst' hf'
    have htd := (tick_fields c s v i t.2).1
    rw [if_neg (by omega)] at htd
    have hv' : (s.tick c v i t.2).2 ≤ i.maxPC := by
      by_cases hlt : v < (s.tick c v i t.2).2
      · exact lim hlt
      · omega
    have k := ih (fun t ht => h t (by simp [ht])) (s.tick c v i t.2).1 (s.tick c v i t.2).2 hv' hf' hst'
    rw [after_cons, ht]
    simp only [List.length_cons]
    rw [htd] at k
    refine ⟨k.1, ?_⟩
    have k2 := k.2
    have a := st.1
    have b := st.2
    generalize (s.tick c v i t.2).2 = v' at *
    by_cases hu : s.turndownM ≤ 1
    · by_cases hv : v < i.maxPC
      · have := b hu hv; omega
      · omega
    · omega

namespace Props

/-- **C84, warm.** Whatever went before, in a room that stays at one temperature at or above the set point, with the
same (non-BAKE) settings, the valve is calling for heat no longer after 76 minutes, and never again. -/
theorem C84_steady_warm_stops_calling (c : VCfg) (hc : c.binary = false) (i : VIn) (hs : i.sane) (h5 : 5 ≤ i.target)
    (hb : i.bake = false) (h1 : i.ref16 ≤ 2030) (hw : setPoint i ≤ i.ref16) (ts : List VTick) (h : ∀ t ∈ ts, t.1 = i)
    (s : VState) (v : Nat) (hv : v ≤ 100) (hf : s.Full) (htu : s.turnupM ≤ 10) (hn : 76 ≤ ts.length) :
    (s.after c v ts).2 < callForHeatPC := by
  have hsplit : ts = ts.take 15 ++ ts.drop 15 := (List.take_append_drop 15 ts).symm
  have ha : ∀ t ∈ ts.take 15, t.1 = i := fun t ht => h t (List.mem_of_mem_take ht)
  have hd : ∀ t ∈ ts.drop 15, t.1 = i := fun t ht => h t (List.mem_of_mem_drop ht)
  have hst := steady_after c i (ts.take 15) ha s v 0 (fun _ j hj => absurd hj (by omega)) (by omega)
  have hf' := full_after c (ts.take 15) s v hf
  have hv' : (s.after c v (ts.take 15)).2 ≤ 100 := C45_always c s v _ hv (fun t ht => by rw [ha t ht]; exact hs.2.2)
  have htu' := (turnup_lb c s v (ts.take 15) htu).2
  have k := warm_ticks c hc i hs h5 hb h1 hw (ts.drop 15) hd (s.after c v (ts.take 15)).1 (s.after c v (ts.take 15)).2 hf'
    (steady_mono hst (by rw [List.length_take]; omega))
  rw [hsplit, after_append]
  rw [List.length_drop] at k
  omega

/-- **C84, cool.** Whatever went before, in a room that stays at one temperature more than 0.75 C below the set point
(and not below 0 C), with the same (non-BAKE) settings, the valve is open to the permitted maximum after 26 minutes
plus one per percent of that maximum, and stays so. -/
theorem C84_steady_cool_opens (c : VCfg) (hc : c.binary = false) (i : VIn) (hs : i.sane) (h5 : 5 ≤ i.target)
    (hb : i.bake = false) (h0 : 8 ≤ i.ref16) (hw : i.ref16 + 12 < setPoint i) (ts : List VTick) (h : ∀ t ∈ ts, t.1 = i)
    (s : VState) (v : Nat) (hv : v ≤ i.maxPC) (hf : s.Full) (htd : s.turndownM ≤ 11) (hn : 26 + i.maxPC ≤ ts.length) :
    (s.after c v ts).2 = i.maxPC := by
  have hsplit : ts = ts.take 15 ++ ts.drop 15 := (List.take_append_drop 15 ts).symm
  have ha : ∀ t ∈ ts.take 15, t.1 = i := fun t ht => h t (List.mem_of_mem_take ht)
  have hd : ∀ t ∈ ts.drop 15, t.1 = i := fun t ht => h t (List.mem_of_mem_drop ht)
  have hst := steady_after c i (ts.take 15) ha s v 0 (fun _ j hj => absurd hj (by omega)) (by omega)
  have hf' := full_after c (ts.take 15) s v hf
  have hv' : (s.after c v (ts.take 15)).2 ≤ i.maxPC := by
    clear hsplit hd hst hf' hn
    generalize ts.take 15 = us at ha
    induction us generalizing s v with
    | nil => exact hv
    | cons u us ih =>
      rw [after_cons, ha u (by simp)]
      refine ih _ _ ?_ ?_ ?_ (fun t ht => ha t (by simp [ht]))
      · by_cases hlt : v < (s.tick c v i u.2).2
        · exact (C45_limits c s v i u.2).1 hlt
        · omega
      · have := tick_full c s v u hf; rw [ha u (by simp)] at this; exact this
      · rw [(tick_fields c s v i u.2).1]; split <;> omega
  have htd' := (turndown_lb c s v (ts.take 15) htd).2
  have k := cool_ticks c hc i hs h5 hb h0 hw (ts.drop 15) hd (s.after c v (ts.take 15)).1 (s.after c v (ts.take 15)).2
    hv' hf' (steady_mono hst (by rw [List.length_take]; omega))
  rw [hsplit, after_append]
  rw [List.length_drop] at k
  omega

/-- A room at 21 C with target 19 C: a valve starting at 100% has stopped calling for heat; and one at 17 C. -/
def exWarm : VIn := ⟨19, 19, 100, false, false, false, false, 21 * 16 + 8⟩
def exCool : VIn := ⟨19, 19, 100, false, false, false, false, 17 * 16 + 8⟩
def exCfg : VCfg := ⟨false, false, false⟩

example : exWarm.sane ∧ 5 ≤ exWarm.target ∧ exWarm.bake = false ∧ exWarm.ref16 ≤ 2030 ∧ setPoint exWarm ≤ exWarm.ref16 ∧
    exCool.sane ∧ 8 ≤ exCool.ref16 ∧ exCool.ref16 + 12 < setPoint exCool ∧ (VState.new []).Full := by
  refine ⟨⟨by decide, by decide, by decide⟩, by decide, rfl, by decide, by decide, ⟨by decide, by decide, by decide⟩,
    by decide, by decide, fun h => by cases h⟩

example : ((VState.new []).after exCfg 100 (List.replicate 76 (exWarm, none))).2 < 50 ∧
    ((VState.new []).after exCfg 0 (List.replicate 126 (exCool, none))).2 = 100 :=
  ⟨C84_steady_warm_stops_calling exCfg rfl exWarm ⟨by decide, by decide, by decide⟩ (by decide) rfl (by decide) (by decide) _
    (by intro t ht; rw [List.eq_of_mem_replicate ht]) _ _ (by omega) (fun h => by cases h) (by decide) (by simp),
   C84_steady_cool_opens exCfg rfl exCool ⟨by decide, by decide, by decide⟩ (by decide) rfl (by decide) (by decide) _
    (by intro t ht; rw [List.eq_of_mem_replicate ht]) _ _ (by decide) (fun h => by cases h) (by decide) (by simp [exCool])⟩

end Props
end OTR
