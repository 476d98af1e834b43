import Verif.Props.UI
/-!
# Property C114: a dial at rest goes quiet
-/

namespace OTR.Props
open OTR

/-- No interrupt comes during this read, and the dial's ADC gives `adc`. -/
def StillAt (adc : Nat) (i : UIIn) : Prop := i.adc = adc ∧ i.p1 = false ∧ i.p2 = false ∧ i.p3 = false ∧ i.p4 = false

/-- How many of these successive reads report that the user did something. -/
def reported (c : UICfg) : UI → List UIIn → Nat
  | _, [] => 0
  | u, i :: t => (if (u.read c i).1 then 1 else 0) + reported c (u.read c i).2 t

/-- Reports still to come: one if the remembered target is more than 10 away, else one for each degree. -/
def toCome (c : UICfg) (u : UI) : Nat :=
  let n := UI.nominalOf c u.pot.value
  let d := max u.nominal n - min u.nominal n
  if d > 10 then 1 else d

theorem toCome_le (c : UICfg) (u : UI) : toCome c u ≤ 10 := by
  unfold toCome
  dsimp only
  split <;> omega

theorem read_nopress (c : UICfg) (u : UI) (i : UIIn) (adc : Nat) (hs : StillAt adc i) (hc : c.cycle = false) :
    uiA c u i = (if c.hasPot && (u.begin_.veryRecent || decide (u.begin_.tick % 4 = 0) ||
        (u.mode.warm && !u.longLongVacant)) then u.begin_.dial c adc else u.begin_) ∧
    uiB c u i = (if (uiA c u i).sig then (uiA c u i).feedback i else uiA c u i) ∧
    (u.read c i).1 = (uiB c u i).status ∧ (u.read c i).2.status = false ∧ (u.read c i).2.sig = (uiB c u i).sig ∧
    (u.read c i).2.nominal = (uiB c u i).nominal ∧ (u.read c i).2.pot = (uiB c u i).pot := by
  obtain ⟨ha, h1, h2, h3, h4⟩ := hs
  have hA : uiA c u i = (if c.hasPot && (u.begin_.veryRecent || decide (u.begin_.tick % 4 = 0) ||
        (u.mode.warm && !u.longLongVacant)) then u.begin_.dial c adc else u.begin_) := by
    unfold uiA UI.pressIf
    rw [h1, ha]
    rfl
  have hB : uiB c u i = (if (uiA c u i).sig then (uiA c u i).feedback i else uiA c u i) := by
    unfold uiB UI.pressIf
    rw [h2]
    rfl
  have hC : uiC c u i = (uiB c u i).show_ i (decide (u.begin_.tick % 4 = 0)) u.begin_.veryRecent := by
    unfold uiC
    dsimp only
    rw [poll_noCycle c _ i (Or.inl hc)]
    rfl
  have hD : uiD c u i = (uiC c u i).off := by unfold uiD UI.pressIf; rw [h3]; rfl
  have hsn : ∀ (v : UI) (a b : Bool), (v.show_ i a b).nominal = v.nominal ∧ (v.show_ i a b).sig = v.sig := by
    intro v a b
    unfold UI.show_
    dsimp only
    constructor <;> (repeat' split) <;> rfl
  have hre : u.read c i = ((uiC c u i).status, { (uiC c u i).off with status := false }) := by
    rw [read_eq, h4, hD]; rfl
  refine ⟨hA, hB, ?_, ?_, ?_, ?_, ?_⟩
  · rw [hre, hC]; exact (show_was _ _ _ _).2
  · rw [hre]
  · rw [hre, hC]; exact (hsn _ _ _).2
  · rw [hre, hC]; exact (hsn _ _ _).1
  · rw [hre, hC]; exact (show_pot _ _ _ _).1

theorem feedback_fields (u : UI) (i : UIIn) : (u.feedback i).sig = false ∧ (u.feedback i).nominal = u.nominal := by
  unfold UI.feedback
  dsimp only
  split <;> exact ⟨rfl, rfl⟩

/-- With the dial at rest and already read there, one look at it: nothing, or one step nearer. -/
theorem dial_rest (c : UICfg) (u : UI) (hu : u.sig = false) (hst : u.status = false) (adc : Nat) (hraw : u.pot.raw = adc) :
    (u.dial c adc).pot = u.pot ∧ (u.dial c adc).status = false ∧
    (if UI.nominalOf c u.pot.value = u.nominal then (u.dial c adc).sig = false ∧ (u.dial c adc).nominal = u.nominal
     else (u.dial c adc).nominal = UI.follow u.nominal (UI.nominalOf c u.pot.value)) := by
  have hr : u.pot.read c.lo c.hi adc = (u.pot, []) := by
    unfold Pot.read
    have : ¬ ((adc / 4 % 256 > u.pot.value ∧ (adc + 65536 - u.pot.raw) % 65536 ≥ 4) ∨
        (adc / 4 % 256 < u.pot.value ∧ (u.pot.raw + 65536 - adc) % 65536 ≥ 4)) := by omega
    dsimp only
    rw [if_neg this, ← hraw]
  have hde : u.dial c adc = (
      let v := if u.pot.value < c.lo then { u with mode := u.mode.setWarm false } else u
      if UI.nominalOf c v.pot.value ≠ v.nominal then
        let w := if v.nominal ≠ 0 then { v with sig := true }
          else if ¬ v.pot.value < c.lo then { v with mode := v.mode.setWarm true } else v
        { w with nominal := UI.follow w.nominal (UI.nominalOf c v.pot.value) }
      else v) := by
    unfold UI.dial
    rw [hr]
    rfl
  rw [hde]
  have hv : ∀ v : UI, v.pot = u.pot → v.status = false → v.sig = false → v.nominal = u.nominal →
      let x := if UI.nominalOf c v.pot.value ≠ v.nominal then
          let w := if v.nominal ≠ 0 then { v with sig := true }
            else if ¬ v.pot.value < c.lo then { v with mode := v.mode.setWarm true } else v
          { w with nominal := UI.follow w.nominal (UI.nominalOf c v.pot.value) }
        else v
      x.pot = u.pot ∧ x.status = false ∧ (if UI.nominalOf c u.pot.value = u.nominal then x.sig = false ∧ x.nominal = u.nominal
        else x.nominal = UI.follow u.nominal (UI.nominalOf c u.pot.value)) := by
    intro v h1 h2 h3 h4 x
    by_cases hn : UI.nominalOf c v.pot.value ≠ v.nominal
    · have hx : x = ({ (if v.nominal ≠ 0 then { v with sig := true }
            else if ¬ v.pot.value < c.lo then { v with mode := v.mode.setWarm true } else v) with
            nominal := UI.follow v.nominal (UI.nominalOf c v.pot.value) } : UI) := by
        show (if _ then _ else _) = _
        rw [if_pos hn]
        dsimp only
        (repeat' split) <;> rfl
      have hn2 : ¬ UI.nominalOf c u.pot.value = u.nominal := by rw [← h1, ← h4]; exact hn
      rw [hx, if_neg hn2, ← h1, ← h4]
      refine ⟨?_, ?_, rfl⟩
      · (repeat' split) <;> rfl
      · (repeat' split) <;> exact h2
    · have hx : x = v := by
        show (if _ then _ else _) = _
        rw [if_neg hn]
      rw [hx, if_pos (by rw [← h1, ← h4]; exact Decidable.not_not.mp hn)]
      exact ⟨h1, h2, h3, h4⟩
  exact hv _ (by split <;> rfl) (by split <;> exact hst) (by split <;> exact hu) (by split <;> rfl)

theorem follow_toCome (last n : Nat) (h : n ≠ last) :
    (let d := max (UI.follow last n) n - min (UI.follow last n) n; if d > 10 then 1 else d) + 1 ≤
    (let d := max last n - min last n; if d > 10 then 1 else d) := by
  unfold UI.follow
  dsimp only
  by_cases h1 : max last n - min last n > 10
  · rw [if_pos h1, if_pos h1]; simp
  · rw [if_neg h1, if_neg h1]
    split <;> (rw [if_neg (by omega)]; omega)

/-- Settled up to the remembered target. -/
def AtRest (adc : Nat) (u : UI) : Prop := u.sig = false ∧ u.status = false ∧ u.pot.raw = adc

theorem rest_step (c : UICfg) (hc : c.cycle = false) (adc : Nat) (u : UI) (hu : AtRest adc u) (i : UIIn) (hi : StillAt adc i) :
    AtRest adc (u.read c i).2 ∧ (if (u.read c i).1 then 1 else 0) + toCome c (u.read c i).2 ≤ toCome c u := by
  obtain ⟨a, b, r1, r2, r3, r4, r5⟩ := read_nopress c u i adc hi hc
  obtain ⟨u1, u2, u3⟩ := hu
  by_cases hd : (c.hasPot && (u.begin_.veryRecent || decide (u.begin_.tick % 4 = 0) ||
        (u.mode.warm && !u.longLongVacant))) = true
  · rw [if_pos hd] at a
    obtain ⟨d1, d2, d3⟩ := dial_rest c u.begin_ u1 u2 adc u3
    rw [← a] at d1 d2 d3
    have e1 : u.begin_.pot = u.pot := rfl
    have e2 : u.begin_.nominal = u.nominal := rfl
    rw [e1, e2] at d3
    rw [e1] at d1
    by_cases hn : UI.nominalOf c u.pot.value = u.nominal
    · rw [if_pos hn] at d3
      rw [if_neg (by simp [d3.1])] at b
      rw [b] at r1 r3 r4 r5
      refine ⟨⟨by rw [r3, d3.1], r2, by rw [r5, d1, u3]⟩, ?_⟩
      rw [r1, d2]
      unfold toCome
      rw [r4, r5, d1, d3.2]
      simp
    · rw [if_neg hn] at d3
      have hx : (uiB c u i).sig = false ∧ (uiB c u i).nominal = UI.follow u.nominal (UI.nominalOf c u.pot.value) ∧
          (uiB c u i).pot = u.pot := by
        rw [b]
        by_cases hs : (uiA c u i).sig = true
        · rw [if_pos hs]
          exact ⟨(feedback_fields _ _).1, by rw [(feedback_fields _ _).2, d3], by rw [(feedback_pot _ _).1, d1]⟩
        · rw [if_neg hs]
          exact ⟨by simpa using hs, d3, d1⟩
      refine ⟨⟨by rw [r3, hx.1], r2, by rw [r5, hx.2.2, u3]⟩, ?_⟩
      have hf := follow_toCome u.nominal (UI.nominalOf c u.pot.value) hn
      unfold toCome
      rw [r4, r5, hx.2.1, hx.2.2]
      refine Nat.le_trans ?_ hf
      split <;> simp [Nat.add_comm]
  · rw [if_neg hd] at a
    have hs : (uiA c u i).sig = false := by rw [a]; exact u1
    rw [if_neg (by simp [hs])] at b
    rw [b] at r1 r3 r4 r5
    refine ⟨⟨by rw [r3, hs], r2, by rw [r5, a]; exact u3⟩, ?_⟩
    have h0 : (u.read c i).1 = false := by rw [r1, a]; exact u2
    rw [h0]
    unfold toCome
    rw [r4, r5, a]
    have e1 : u.begin_.pot = u.pot := rfl
    have e2 : u.begin_.nominal = u.nominal := rfl
    rw [e1, e2]
    simp

theorem rest_count (c : UICfg) (hc : c.cycle = false) (adc : Nat) (is : List UIIn) (hi : ∀ i ∈ is, StillAt adc i) :
    ∀ u : UI, AtRest adc u → reported c u is ≤ toCome c u := by
  induction is with
  | nil => intro u _; exact Nat.zero_le _
  | cons i t ih =>
    intro u hu
    obtain ⟨h1, h2⟩ := rest_step c hc adc u hu i (hi i (by simp))
    have := ih (fun j hj => hi j (by simp [hj])) _ h1
    simp only [reported]
    omega

/-- A read leaves nothing pending. -/
theorem clear_after (c : UICfg) (hc : c.cycle = false) (adc : Nat) (u : UI) (i : UIIn) (hi : StillAt adc i) :
    (u.read c i).2.sig = false ∧ (u.read c i).2.status = false := by
  obtain ⟨_, b, _, r2, r3, _⟩ := read_nopress c u i adc hi hc
  refine ⟨?_, r2⟩
  rw [r3, b]
  by_cases hs : (uiA c u i).sig = true
  · rw [if_pos hs]; exact (feedback_fields _ _).1
  · rw [if_neg hs]; simpa using hs

theorem clear_count (c : UICfg) (hc : c.cycle = false) (adc : Nat) (is : List UIIn) (hi : ∀ i ∈ is, StillAt adc i) :
    ∀ u : UI, u.sig = false → u.status = false → reported c u is ≤ 11 := by
  induction is with
  | nil => intro u _ _; exact Nat.zero_le _
  | cons i t ih =>
    intro u h1 h2
    have hs := hi i (by simp)
    have ht := fun j hj => hi j (List.mem_cons_of_mem i hj)
    obtain ⟨k1, k2⟩ := clear_after c hc adc u i hs
    obtain ⟨a, b, r1, r2, r3, r4, r5⟩ := read_nopress c u i adc hs hc
    by_cases hd : (c.hasPot && (u.begin_.veryRecent || decide (u.begin_.tick % 4 = 0) ||
        (u.mode.warm && !u.longLongVacant))) = true
    · rw [if_pos hd] at a
      have hraw : (u.read c i).2.pot.raw = adc := by
        have hp : (uiB c u i).pot = (uiA c u i).pot := by
          rw [b]
          split
          · exact (feedback_pot _ _).1
          · rfl
        rw [r5, hp, a, dial_pot]
        unfold Pot.read
        dsimp only
        split <;> rfl
      have h3 := rest_count c hc adc t ht _ ⟨k1, k2, hraw⟩
      have h4 := toCome_le c (u.read c i).2
      simp only [reported]
      split <;> omega
    · rw [if_neg hd] at a
      have hsg : (uiA c u i).sig = false := by rw [a]; exact h1
      rw [if_neg (by simp [hsg])] at b
      have h0 : (u.read c i).1 = false := by rw [r1, b, a]; exact h2
      have := ih ht _ k1 k2
      simp only [reported]
      rw [h0]
      simp
      exact this

/-- **C114.** Whatever happened before, if the dial is then left alone (its ADC reading steady) and the button is not
pressed, at most 12 of all the reads that follow, however many, report that the user did something: the user interface
does not go on flashing, wiggling the valve and claiming occupancy. (For the unit without a cycle button.) -/
theorem C114_settles (c : UICfg) (hc : c.cycle = false) (evs : List UIEv) (adc : Nat) (is : List UIIn)
    (hi : ∀ i ∈ is, StillAt adc i) : reported c (uiAfter c evs) is ≤ 12 := by
  cases is with
  | nil => exact Nat.zero_le _
  | cons i t =>
    obtain ⟨k1, k2⟩ := clear_after c hc adc (uiAfter c evs) i (hi i (by simp))
    have := clear_count c hc adc t (fun j hj => hi j (by simp [hj])) _ k1 k2
    simp only [reported]
    split <;> omega

/-- Not vacuous: after the first reading, a turn of the dial by a few degrees is reported several times and then no more. -/
example : reported ⟨true, 8, 247, fun v => 16 + v / 28, 16, 24, true, false⟩
    (uiAfter ⟨true, 8, 247, fun v => 16 + v / 28, 16, 24, true, false⟩
      [.read {}, .read {}, .read {}, .read { adc := 200 }, .setWarm true, .read { adc := 200 }])
    (List.replicate 20 { adc := 900 }) = 7 := by decide +kernel
end OTR.Props
