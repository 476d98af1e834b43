import Verif.Model.Boiler
/-!
# Properties C40-C42: boiler control
-/

namespace OTR

/-! ## Specification vocabulary -/

/-- Main loop ticks in a history. -/
def tickCount (evs : List BEv) : Nat := evs.countP fun | .tick _ _ => true | .call _ _ => false

/-- Ticks at the start of a minute in a history. -/
def minuteCount (evs : List BEv) : Nat := evs.countP fun | .tick s0 _ => s0 | .call _ _ => false

/-- The unit is in hub mode throughout. -/
def AllHub (evs : List BEv) : Prop := ∀ s0 h, BEv.tick s0 h ∈ evs → h = true

/-- Every call in the history is for less than `pct`. -/
def CallsBelow (pct : Nat) (evs : List BEv) : Prop := ∀ p m, BEv.call p m ∈ evs → p < pct

/-! ## Lemmas -/

theorem Boiler.run_append (tpm minOn : Nat) (b : Boiler) (xs ys : List BEv) :
    b.run tpm minOn (xs ++ ys) = (b.run tpm minOn xs).run tpm minOn ys := by
  simp [Boiler.run]

theorem Boiler.run_cons (tpm minOn : Nat) (b : Boiler) (x : BEv) (ys : List BEv) :
    b.run tpm minOn (x :: ys) = (b.step tpm minOn x).run tpm minOn ys := by
  simp [Boiler.run]

theorem Boiler.run_nil (tpm minOn : Nat) (b : Boiler) : b.run tpm minOn [] = b := rfl

/-- What is always true of the driver in hub mode. -/
def BInv (tpm minOn : Nat) (b : Boiler) : Prop :=
  b.pin = b.isOn ∧ b.ticks ≤ minOn * tpm ∧ (b.isOn = true → b.noCallM = 0) ∧ b.noCallM ≤ 255

theorem Boiler.thr_cases (b : Boiler) (m : Nat) : b.threshold m = 50 ∨ b.threshold m = 66 := by
  unfold Boiler.threshold; dsimp only; split <;> simp

theorem Boiler.call_fields (b : Boiler) (p m : Nat) : ∃ c, b.remoteCall p m = { b with call := c } := by
  unfold Boiler.remoteCall; split
  · exact ⟨_, rfl⟩
  · exact ⟨b.call, rfl⟩

section
variable {tpm minOn : Nat} (ht : tpm ≤ 60) (hm : minOn ≤ 255)
include ht hm

theorem onTicks_eq : (minOn * tpm) % 65536 = minOn * tpm := by
  have : minOn * tpm ≤ 255 * 60 := Nat.mul_le_mul hm ht
  omega

/-- The three things a hub-mode tick can do. -/
theorem Boiler.tick_cases (b : Boiler) (s0 : Bool) :
    (b.call = true ∧ (b.isOn = true ∨ min 254 minOn < b.noCallM) ∧ 0 < minOn * tpm ∧
      b.process tpm minOn s0 true =
        { call := false, noCallM := 0, ticks := minOn * tpm - 1, pin := minOn * tpm - 1 != 0 }) ∨
    (b.call = false ∧ b.isOn = true ∧
      b.process tpm minOn s0 true = { b with ticks := b.ticks - 1, pin := b.ticks - 1 != 0 }) ∨
    (b.isOn = false ∧ (b.call = true → b.noCallM ≤ min 254 minOn) ∧
      b.process tpm minOn s0 true =
        { call := false, noCallM := min 255 (b.noCallM + if s0 then 1 else 0), ticks := 0, pin := false }) ∨
    (b.call = true ∧ minOn * tpm = 0 ∧
      b.process tpm minOn s0 true =
        { call := false, noCallM := if s0 then 1 else 0, ticks := 0, pin := false }) ∨
    255 < b.noCallM := by
  have e := onTicks_eq ht hm
  obtain ⟨call, n, t, pin⟩ := b
  by_cases hn : 255 < n
  · exact .inr (.inr (.inr (.inr hn)))
  cases call with
  | false =>
    by_cases h0 : t = 0
    · right; right; left
      subst h0
      refine ⟨rfl, by simp, ?_⟩
      cases s0 <;> by_cases h : n < 255 <;> simp [Boiler.process, Boiler.hear, Boiler.isOn, h] <;> omega
    · right; left
      have h1 : (t != 0) = true := by simp [h0]
      refine ⟨rfl, h1, ?_⟩
      simp [Boiler.process, Boiler.hear, Boiler.isOn, h0]
  | true =>
    by_cases hacc : t ≠ 0 ∨ min 254 minOn < n
    · have hi : (!(t != 0) && decide (n ≤ min 254 minOn)) = false := by
        rcases hacc with h | h
        · simp [h]
        · have : ¬ n ≤ min 254 minOn := by omega
          simp only [this, decide_false, Bool.and_false]
      by_cases hz : minOn * tpm = 0
      · right; right; right; left
        refine ⟨rfl, hz, ?_⟩
        cases s0 <;> simp [Boiler.process, Boiler.hear, Boiler.isOn, hi, hz]
      · left
        refine ⟨rfl, ?_, by omega, ?_⟩
        · rcases hacc with h | h
          · left; simp [Boiler.isOn, h]
          · right; exact h
        · simp only [Boiler.process, Boiler.hear, Boiler.isOn, hi, e]
          simp [hz]
    · right; right; left
      have h0 : t = 0 := by omega
      have h1 : n ≤ min 254 minOn := by omega
      subst h0
      refine ⟨rfl, fun _ => h1, ?_⟩
      have hl : n < 255 := by omega
      simp only [Boiler.process, Boiler.hear, Boiler.isOn, h1]
      cases s0 <;> simp [hl] <;> omega

theorem BInv.step {b : Boiler} (h : BInv tpm minOn b) (ev : BEv) (hh : ∀ s0 hub, ev = .tick s0 hub → hub = true) :
    BInv tpm minOn (b.step tpm minOn ev) := by
  cases ev with
  | call p m =>
    obtain ⟨c, e⟩ := b.call_fields p m
    simp only [Boiler.step, e]
    exact h
  | tick s0 hub =>
    obtain rfl := hh s0 hub rfl
    obtain ⟨h1, h2, h3, h4⟩ := h
    simp only [Boiler.step]
    rcases Boiler.tick_cases ht hm b s0 with ⟨_, _, _, e⟩ | ⟨_, on, e⟩ | ⟨_, _, e⟩ | ⟨_, _, e⟩ | e
    · rw [e]; exact ⟨rfl, by dsimp only; omega, fun _ => rfl, by simp⟩
    · rw [e]; exact ⟨rfl, by dsimp only; omega, fun _ => h3 on, h4⟩
    · rw [e]; exact ⟨rfl, by simp, fun h => by simp [Boiler.isOn] at h, by dsimp only; omega⟩
    · rw [e]; exact ⟨rfl, by simp, fun h => by simp [Boiler.isOn] at h, by dsimp only; split <;> omega⟩
    · omega

theorem BInv.run {b : Boiler} (h : BInv tpm minOn b) (evs : List BEv) (hh : AllHub evs) :
    BInv tpm minOn (b.run tpm minOn evs) := by
  induction evs generalizing b with
  | nil => exact h
  | cons ev evs ih =>
    rw [Boiler.run_cons]
    exact ih (h.step ht hm ev fun s0 hub e => hh s0 hub (by simp [e])) fun s0 hub hm => hh s0 hub (by simp [hm])

omit ht hm in
theorem BInv.init : BInv tpm minOn Boiler.init := by
  refine ⟨rfl, by simp [Boiler.init], fun h => by simp [Boiler.isOn, Boiler.init] at h, by simp [Boiler.init]⟩

/-- While `k` ticks of on time remain, `k - 1` more ticks leave it on. -/
theorem Boiler.stays_on {b : Boiler} (h : BInv tpm minOn b) (post : List BEv) (hh : AllHub post)
    (hk : tickCount post < b.ticks) : (b.run tpm minOn post).isOn = true := by
  induction post generalizing b with
  | nil => simp [tickCount] at hk; simp [Boiler.run, Boiler.isOn]; omega
  | cons ev post ih =>
    have hs := h.step ht hm ev fun s0 hub e => hh s0 hub (by simp [e])
    have hh' : AllHub post := fun s0 hub hm => hh s0 hub (by simp [hm])
    rw [Boiler.run_cons]
    refine ih hs hh' ?_
    cases ev with
    | call p m =>
      obtain ⟨c, e⟩ := b.call_fields p m
      simp only [Boiler.step, e]
      simpa [tickCount] using hk
    | tick s0 hub =>
      obtain rfl := hh s0 hub (by simp)
      simp only [tickCount, List.countP_cons, if_true] at hk ⊢
      obtain ⟨h1, h2, h3, h4⟩ := h
      simp only [Boiler.step]
      rcases Boiler.tick_cases ht hm b s0 with ⟨_, _, _, e⟩ | ⟨_, on, e⟩ | ⟨off, _, e⟩ | ⟨_, _, e⟩ | e
      · rw [e]; dsimp only; omega
      · rw [e]; dsimp only; omega
      · simp [Boiler.isOn] at off; omega
      · omega
      · omega

/-- The off time is enforced while too few minutes have passed. -/
theorem Boiler.stays_off {b : Boiler} (h : BInv tpm minOn b) (hoff : b.isOn = false) (post : List BEv)
    (hh : AllHub post) (hk : b.noCallM + minuteCount post ≤ min 254 minOn) :
    (b.run tpm minOn post).isOn = false ∧
      (b.run tpm minOn post).noCallM = b.noCallM + minuteCount post := by
  induction post generalizing b with
  | nil => simp [Boiler.run, hoff, minuteCount]
  | cons ev post ih =>
    have hs := h.step ht hm ev fun s0 hub e => hh s0 hub (by simp [e])
    have hh' : AllHub post := fun s0 hub hm => hh s0 hub (by simp [hm])
    rw [Boiler.run_cons]
    cases ev with
    | call p m =>
      obtain ⟨c, e⟩ := b.call_fields p m
      simp only [Boiler.step, e] at hs ⊢
      have e2 : minuteCount (.call p m :: post) = minuteCount post := by simp [minuteCount]
      rw [e2] at hk ⊢
      exact ih hs hoff hh' hk
    | tick s0 hub =>
      obtain rfl := hh s0 hub (by simp)
      have e2 : minuteCount (.tick s0 true :: post) = minuteCount post + if s0 then 1 else 0 := by
        cases s0 <;> simp [minuteCount]
      rw [e2] at hk ⊢
      have hle : (if s0 then 1 else 0) ≤ 1 := by cases s0 <;> simp
      rcases Boiler.tick_cases ht hm b s0 with ⟨_, on, _, _⟩ | ⟨_, on, _⟩ | ⟨_, _, e⟩ | ⟨c, z, e⟩ | e
      · rcases on with on | on
        · rw [hoff] at on; cases on
        · omega
      · rw [hoff] at on; cases on
      · simp only [Boiler.step, e] at hs ⊢
        have := ih hs rfl hh' (by dsimp only; omega)
        refine ⟨this.1, ?_⟩
        rw [this.2]; dsimp only; omega
      · simp only [Boiler.step, e] at hs ⊢
        have hp : b.process tpm minOn s0 true = b.process tpm minOn s0 true := rfl
        by_cases hz : b.noCallM ≤ min 254 minOn
        · have e3 : b.process tpm minOn s0 true =
              { call := false, noCallM := min 255 (b.noCallM + if s0 then 1 else 0), ticks := 0, pin := false } := by
            simp only [Boiler.process, Boiler.hear, hoff, c, hz]
            have hl : b.noCallM < 255 := by omega
            have ht0 : b.ticks = 0 := by simpa [Boiler.isOn] using hoff
            cases s0 <;> simp [hl, ht0, Boiler.isOn] <;> omega
          rw [e3] at e
          rw [← e] at hs ⊢
          have := ih hs rfl hh' (by dsimp only; omega)
          refine ⟨this.1, ?_⟩
          rw [this.2]; dsimp only; omega
        · omega
      · omega

/-- With no valve calling, it goes off within the on time. -/
theorem Boiler.goes_off {b : Boiler} (h : BInv tpm minOn b) (hc : b.call = false) (evs : List BEv) (hh : AllHub evs)
    (hb : CallsBelow saferOpenPC evs) (hk : b.ticks ≤ tickCount evs) :
    (b.run tpm minOn evs).isOn = false := by
  induction evs generalizing b with
  | nil => simp [tickCount] at hk; simp [Boiler.run, Boiler.isOn, hk]
  | cons ev evs ih =>
    have hs := h.step ht hm ev fun s0 hub e => hh s0 hub (by simp [e])
    have hh' : AllHub evs := fun s0 hub hm => hh s0 hub (by simp [hm])
    have hb' : CallsBelow saferOpenPC evs := fun p m hm => hb p m (by simp [hm])
    rw [Boiler.run_cons]
    cases ev with
    | call p m =>
      have hp := hb p m (by simp)
      have e : b.remoteCall p m = b := by
        unfold Boiler.remoteCall; rw [if_neg]
        have := b.thr_cases m; omega
      simp only [Boiler.step, e] at hs ⊢
      exact ih h hc hh' hb' (by simpa [tickCount] using hk)
    | tick s0 hub =>
      obtain rfl := hh s0 hub (by simp)
      simp only [tickCount, List.countP_cons, if_true] at hk
      rcases Boiler.tick_cases ht hm b s0 with ⟨c, _⟩ | ⟨_, on, e⟩ | ⟨off, _, e⟩ | ⟨c, _⟩ | e
      · rw [hc] at c; cases c
      · simp only [Boiler.step, e] at hs ⊢
        refine ih hs hc hh' hb' ?_
        dsimp only [tickCount]; omega
      · simp only [Boiler.step, e] at hs ⊢
        exact ih hs rfl hh' hb' (by simp)
      · rw [hc] at c; cases c
      · have := h.2.2.2; omega

end

namespace Props

/-! ## C40 -/

/-- **C40, on time.** In hub mode, with `minOn` minutes configured, whenever a tick turns the output on then it is
still on after any further calls and up to `minOn * tpm - 2` further ticks: it is on for `minOn` minutes less one
tick, whatever the valves do. -/
theorem C40_min_on (tpm minOn : Nat) (ht : tpm = 30 ∨ tpm = 60) (hm : minOn ≤ 255) (pre post : List BEv) (s0 : Bool)
    (h1 : AllHub pre) (h2 : AllHub post)
    (hoff : (Boiler.init.run tpm minOn pre).pin = false)
    (hon : (Boiler.init.run tpm minOn (pre ++ [.tick s0 true])).pin = true)
    (hk : tickCount post ≤ minOn * tpm - 2) :
    (Boiler.init.run tpm minOn (pre ++ [.tick s0 true] ++ post)).pin = true := by
  have ht' : tpm ≤ 60 := by omega
  have i1 := BInv.init.run ht' hm pre h1
  have i2 := BInv.init.run ht' hm (pre ++ [.tick s0 true])
    (fun s h hmem => by simp at hmem; rcases hmem with hmem | hmem; exact h1 s h hmem; exact hmem.2)
  rw [Boiler.run_append]
  generalize hb' : Boiler.init.run tpm minOn (pre ++ [.tick s0 true]) = b' at *
  have i3 := i2.run ht' hm post h2
  rw [i3.1]
  apply Boiler.stays_on ht' hm i2 post h2
  rw [Boiler.run_append] at hb'
  generalize Boiler.init.run tpm minOn pre = b at *
  have hoff' : b.isOn = false := by rw [← i1.1]; exact hoff
  simp only [Boiler.run_cons, Boiler.run_nil, Boiler.step] at hb'
  subst hb'
  rcases Boiler.tick_cases ht' hm b s0 with ⟨_, _, z, e⟩ | ⟨_, on, _⟩ | ⟨_, _, e⟩ | ⟨_, _, e⟩ | e
  · rw [e] at hon ⊢
    dsimp only at hon ⊢
    simp at hon
    omega
  · rw [hoff'] at on; cases on
  · rw [e] at hon; cases hon
  · rw [e] at hon; cases hon
  · have := i1.2.2.2; omega

/-- **C40, extension.** While it is on, a call from a valve at least moderately open (less the tolerated 1%) restarts
the on time from the tick that hears it. -/
theorem C40_extend (tpm minOn : Nat) (ht : tpm = 30 ∨ tpm = 60) (hm : minOn ≤ 255) (pre mid post : List BEv)
    (h1 : AllHub pre) (h2 : AllHub post) (hmid : tickCount mid = 0) (s0 : Bool) (pct m : Nat)
    (hp : moderatelyOpenPC - 1 ≤ pct)
    (hon : (Boiler.init.run tpm minOn pre).pin = true)
    (hk : tickCount post ≤ minOn * tpm - 2) :
    (Boiler.init.run tpm minOn (pre ++ [.call pct m] ++ mid ++ [.tick s0 true] ++ post)).pin = true := by
  have ht' : tpm ≤ 60 := by omega
  have i1 := BInv.init.run ht' hm pre h1
  simp only [Boiler.run_append]
  generalize Boiler.init.run tpm minOn pre = b at *
  have hon' : b.isOn = true := by rw [← i1.1]; exact hon
  have hmul : minOn * tpm ≥ 30 := by
    have : minOn ≠ 0 := by
      rintro rfl
      have := i1.2.1
      simp [Boiler.isOn] at hon'
      omega
    rcases ht with rfl | rfl <;> omega
  -- the call is noted, and stays noted through further calls
  have key : ∀ (mid : List BEv) (b : Boiler), tickCount mid = 0 → b.call = true →
      b.run tpm minOn mid = b := by
    intro mid
    induction mid with
    | nil => intros; rfl
    | cons ev mid ih =>
      intro b hz hc
      cases ev with
      | tick s h => simp [tickCount] at hz
      | call p q =>
        have e : b.remoteCall p q = b := by
          unfold Boiler.remoteCall; split
          · cases b; simp at hc; simp [hc]
          · rfl
        rw [Boiler.run_cons]
        simp only [Boiler.step, e]
        exact ih b (by simpa [tickCount] using hz) hc
  have e1 : b.run tpm minOn [.call pct m] = { b with call := true } := by
    simp only [Boiler.run_cons, Boiler.run_nil, Boiler.step, Boiler.remoteCall]
    rw [if_pos]
    have := b.thr_cases m; omega
  have i2 : BInv tpm minOn { b with call := true } := i1
  rw [e1, key mid _ hmid rfl]
  have i3 := i2.run ht' hm [.tick s0 true] (by intro s h; simp)
  have e2 : ({ b with call := true } : Boiler).run tpm minOn [.tick s0 true] =
      { call := false, noCallM := 0, ticks := minOn * tpm - 1, pin := minOn * tpm - 1 != 0 } := by
    simp only [Boiler.run_cons, Boiler.run_nil, Boiler.step]
    rcases Boiler.tick_cases ht' hm { b with call := true } s0 with ⟨_, _, z, e⟩ | ⟨c, _⟩ | ⟨off, _⟩ | ⟨_, z, _⟩ | e
    · exact e
    · cases c
    · have : b.isOn = false := off
      rw [hon'] at this; cases this
    · omega
    · have := i2.2.2.2; dsimp only at e this; omega
  rw [e2] at i3 ⊢
  have i4 := i3.run ht' hm post h2
  rw [i4.1]
  apply Boiler.stays_on ht' hm i3 post h2
  dsimp only; omega

/-- **C40, off time.** In hub mode, once a tick turns the output off it cannot come on until more than
`min 254 minOn` minute starts have been seen, so for more than that many minutes, whatever the valves do. -/
theorem C40_min_off (tpm minOn : Nat) (ht : tpm = 30 ∨ tpm = 60) (hm : minOn ≤ 255) (pre post : List BEv)
    (s0 s1 : Bool) (h1 : AllHub pre) (h2 : AllHub post)
    (hon : (Boiler.init.run tpm minOn pre).pin = true)
    (hoff : (Boiler.init.run tpm minOn (pre ++ [.tick s0 true])).pin = false)
    (hk : minuteCount post ≤ min 254 minOn) :
    (Boiler.init.run tpm minOn (pre ++ [.tick s0 true] ++ post)).pin = false ∧
    (Boiler.init.run tpm minOn (pre ++ [.tick s0 true] ++ post ++ [.tick s1 true])).pin = false := by
  have ht' : tpm ≤ 60 := by omega
  have i1 := BInv.init.run ht' hm pre h1
  have i2 := BInv.init.run ht' hm (pre ++ [.tick s0 true])
    (fun s h hmem => by simp at hmem; rcases hmem with hmem | hmem; exact h1 s h hmem; exact hmem.2)
  simp only [Boiler.run_append] at *
  generalize Boiler.init.run tpm minOn pre = b at *
  have hon' : b.isOn = true := by rw [← i1.1]; exact hon
  simp only [Boiler.run_cons, Boiler.run_nil, Boiler.step] at hoff i2 ⊢
  have hn : (b.process tpm minOn s0 true).noCallM = 0 := by
    rcases Boiler.tick_cases ht' hm b s0 with ⟨_, _, z, e⟩ | ⟨_, on, e⟩ | ⟨off, _, e⟩ | ⟨_, z, e⟩ | e
    · rw [e]
    · rw [e]; exact i1.2.2.1 on
    · rw [hon'] at off; cases off
    · have := i1.2.1; simp [Boiler.isOn] at hon'; omega
    · have := i1.2.2.2; omega
  generalize b.process tpm minOn s0 true = c at *
  have hoff' : c.isOn = false := by rw [← i2.1]; exact hoff
  have h3 := Boiler.stays_off ht' hm i2 hoff' post h2 (by omega)
  have i3 := i2.run ht' hm post h2
  refine ⟨by rw [i3.1]; exact h3.1, ?_⟩
  generalize c.run tpm minOn post = d at *
  rcases Boiler.tick_cases ht' hm d s1 with ⟨_, o, z, e⟩ | ⟨_, on, e⟩ | ⟨off, _, e⟩ | ⟨_, z, e⟩ | e
  · rcases o with o | o
    · rw [h3.1] at o; cases o
    · omega
  · rw [h3.1] at on; cases on
  · rw [e]
  · rw [e]
  · have := i3.2.2.2; omega

/-- **C40, power-up.** The same off time is enforced from power-up. -/
theorem C40_power_up (tpm minOn : Nat) (ht : tpm = 30 ∨ tpm = 60) (hm : minOn ≤ 255) (post : List BEv)
    (h2 : AllHub post) (hk : minuteCount post ≤ min 254 minOn) :
    (Boiler.init.run tpm minOn post).pin = false := by
  have ht' : tpm ≤ 60 := by omega
  have i := BInv.init.run ht' hm post h2
  rw [i.1]
  exact (Boiler.stays_off ht' hm BInv.init rfl post h2 (by simp [Boiler.init]; omega)).1

/-- It does come on: after more than the off time, one call of a moderately open valve and a tick. -/
theorem C40_comes_on (tpm minOn : Nat) (ht : tpm = 30 ∨ tpm = 60) (hm : 1 ≤ minOn ∧ minOn ≤ 255) (b : Boiler)
    (hn : min 254 minOn < b.noCallM ∧ b.noCallM ≤ 255) (pct m : Nat) (hp : moderatelyOpenPC - 1 ≤ pct) (s0 : Bool) :
    (b.run tpm minOn [.call pct m, .tick s0 true]).pin = true := by
  have ht' : tpm ≤ 60 := by omega
  have hmul : minOn * tpm ≥ 30 := by rcases ht with rfl | rfl <;> omega
  have e1 : b.remoteCall pct m = { b with call := true } := by
    unfold Boiler.remoteCall; rw [if_pos]
    have := b.thr_cases m; omega
  simp only [Boiler.run_cons, Boiler.run_nil, Boiler.step, e1]
  rcases Boiler.tick_cases ht' hm.2 { b with call := true } s0 with ⟨_, _, z, e⟩ | ⟨c, _⟩ | ⟨_, h, _⟩ | ⟨_, z, _⟩ | e
  · rw [e]; dsimp only; simp; omega
  · cases c
  · have := h rfl; dsimp only at this; omega
  · omega
  · dsimp only at e; omega

/-- The exact length: with a 5 minute minimum and 2 s ticks (150 ticks), an uninterrupted run is on after 149 ticks
and off at the 150th counting the one that started it: one tick short of 5 minutes. -/
theorem C40_one_tick_short :
    let pre := List.replicate 6 (BEv.tick true true) ++ [.call 100 0]
    (Boiler.init.run 30 5 pre).pin = false ∧
    (Boiler.init.run 30 5 (pre ++ [.tick false true])).pin = true ∧
    (Boiler.init.run 30 5 (pre ++ [.tick false true] ++ List.replicate 148 (.tick false true))).pin = true ∧
    (Boiler.init.run 30 5 (pre ++ [.tick false true] ++ List.replicate 149 (.tick false true))).pin = false := by
  decide +kernel

/-! ## C41 -/

/-- **C41.** From anything that can happen in hub mode, if no valve calls (calls below 50% count as none) then after
`minOn` minutes of ticks the output is off, and stays off however long this continues. -/
theorem C41_goes_off (tpm minOn : Nat) (ht : tpm = 30 ∨ tpm = 60) (hm : minOn ≤ 255) (pre evs : List BEv)
    (h1 : AllHub pre) (h2 : AllHub evs) (hc : CallsBelow saferOpenPC evs)
    (hk : minOn * tpm ≤ tickCount evs) (hk1 : 1 ≤ tickCount evs) :
    (Boiler.init.run tpm minOn (pre ++ evs)).pin = false := by
  have ht' : tpm ≤ 60 := by omega
  have i1 := BInv.init.run ht' hm pre h1
  rw [Boiler.run_append]
  generalize Boiler.init.run tpm minOn pre = b at *
  have i2 := i1.run ht' hm evs h2
  rw [i2.1]
  clear i2 h1
  induction evs generalizing b with
  | nil => simp [tickCount] at hk1
  | cons ev evs ih =>
    have hs := i1.step ht' hm ev fun s0 hub e => h2 s0 hub (by simp [e])
    have h2' : AllHub evs := fun s0 hub hm => h2 s0 hub (by simp [hm])
    have hc' : CallsBelow saferOpenPC evs := fun p m hm => hc p m (by simp [hm])
    rw [Boiler.run_cons]
    cases ev with
    | call p m =>
      exact ih h2' hc' (by simpa [tickCount] using hk) (by simpa [tickCount] using hk1) _ hs
    | tick s0 hub =>
      obtain rfl := h2 s0 hub (by simp)
      have e2 : tickCount (.tick s0 true :: evs) = tickCount evs + 1 := by simp [tickCount]
      rw [e2] at hk
      simp only [Boiler.step] at hs ⊢
      have hcl : (b.process tpm minOn s0 true).call = false ∧
          (b.process tpm minOn s0 true).ticks ≤ tickCount evs := by
        have h := i1.2.1
        rcases Boiler.tick_cases ht' hm b s0 with ⟨_, _, z, e⟩ | ⟨c, on, e⟩ | ⟨off, _, e⟩ | ⟨_, z, e⟩ | e
        · rw [e]; exact ⟨rfl, by dsimp only; omega⟩
        · rw [e]; exact ⟨c, by dsimp only; omega⟩
        · rw [e]; exact ⟨rfl, by simp⟩
        · rw [e]; exact ⟨rfl, by simp⟩
        · have := i1.2.2.2; omega
      exact Boiler.goes_off ht' hm hs hcl.1 evs h2' hc' hcl.2

/-- **C41, non-hub.** A tick in non-hub mode leaves the output off, in any state, and nothing else turns it on. -/
theorem C41_nonhub (tpm minOn : Nat) (b : Boiler) (s0 : Bool) (evs : List BEv)
    (h : ∀ s h, BEv.tick s h ∈ evs → h = false) :
    (b.run tpm minOn (.tick s0 false :: evs)).pin = false := by
  rw [Boiler.run_cons]
  have h0 : (b.step tpm minOn (.tick s0 false)).pin = false := by simp [Boiler.step, Boiler.process]
  generalize b.step tpm minOn (.tick s0 false) = c at h0
  induction evs generalizing c with
  | nil => exact h0
  | cons ev evs ih =>
    rw [Boiler.run_cons]
    refine ih (fun s h' hm => h s h' (by simp [hm])) _ ?_
    cases ev with
    | call p m => obtain ⟨x, e⟩ := c.call_fields p m; simp only [Boiler.step, e]; exact h0
    | tick s hub => obtain rfl := h s hub (by simp); simp [Boiler.step, Boiler.process]

/-- Hub settings: with EEPROM in use the configured minutes are those last set; a never-programmed (0xff) cell means
zero, and then, unless the unit always listens, it is not in hub mode. -/
theorem C41_hub_setting (mins b : Byte) (h : setMinBoilerOnMinutes true mins = some b) (radioRX : Bool) :
    minBoilerOnMinutes true b = mins.toNat ∧
    (inHubMode false radioRX (minBoilerOnMinutes true b) = true ↔ radioRX = true ∧ mins ≠ 0) ∧
    minBoilerOnMinutes true 0xff = 0 ∧ inHubMode false radioRX (minBoilerOnMinutes true 0xff) = false := by
  have hb : b = ~~~mins := by simp [setMinBoilerOnMinutes] at h; exact h.symm
  subst hb
  have e : minBoilerOnMinutes true (~~~mins) = mins.toNat := by simp [minBoilerOnMinutes]
  refine ⟨e, ?_, by decide, ?_⟩
  · rw [e]; cases radioRX <;> simp [inHubMode, ← UInt8.toNat_inj]
  · cases radioRX <;> decide

/-! ## C42 -/

/-- **C42.** If every call ever received is below 50%, the output is never on, in any mix of modes and ticks. -/
theorem C42_weak_calls_never (tpm minOn : Nat) (evs : List BEv) (hc : CallsBelow saferOpenPC evs) :
    (Boiler.init.run tpm minOn evs).pin = false := by
  have key : ∀ (evs : List BEv) (b : Boiler), CallsBelow saferOpenPC evs → b.call = false → b.ticks = 0 →
      b.pin = false → (b.run tpm minOn evs).pin = false := by
    intro evs
    induction evs with
    | nil => intro b _ _ _ h; exact h
    | cons ev evs ih =>
      intro b hc h1 h2 h3
      rw [Boiler.run_cons]
      have hc' : CallsBelow saferOpenPC evs := fun p m hm => hc p m (by simp [hm])
      cases ev with
      | call p m =>
        have hp := hc p m (by simp)
        have e : b.remoteCall p m = b := by
          unfold Boiler.remoteCall; rw [if_neg]
          have := b.thr_cases m; omega
        simp only [Boiler.step, e]
        exact ih b hc' h1 h2 h3
      | tick s hub =>
        refine ih _ hc' ?_ ?_ ?_ <;> cases hub <;> cases s <;> by_cases hn : b.noCallM < 255 <;>
          simp [Boiler.step, Boiler.process, Boiler.hear, h1, h2, Boiler.isOn, hn]
  exact key evs Boiler.init hc rfl rfl rfl

/-- **C42, start threshold.** While the boiler is off with no call pending, calls below 66% do not start it
outside the part of the cycle (minutes 15-30 of each 64) meant to encourage it. -/
theorem C42_start_threshold (tpm minOn : Nat) (b : Boiler) (hb : b.call = false ∧ b.isOn = false ∧ b.pin = false)
    (evs : List BEv)
    (hc : ∀ p m, BEv.call p m ∈ evs → p < moderatelyOpenPC - 1 ∧ ¬ (15 ≤ m % 64 ∧ m % 64 < 31)) :
    (b.run tpm minOn evs).pin = false := by
  induction evs generalizing b with
  | nil => exact hb.2.2
  | cons ev evs ih =>
    rw [Boiler.run_cons]
    have hc' := fun p m hm => hc p m (List.mem_cons_of_mem _ hm)
    obtain ⟨h1, h2, h3⟩ := hb
    have h2' : b.ticks = 0 := by simpa [Boiler.isOn] using h2
    cases ev with
    | call p m =>
      have hp := hc p m (by simp)
      have et : b.threshold m = 66 := by
        unfold Boiler.threshold
        have : ¬ (!decide (m % 64 < 63 / 4) &&
          ((!decide (m % 64 < 63 / 4) && decide (m % 64 < 63 / 2)) || b.isOn)) = true := by
          simp [h2]; omega
        simp only [this]; decide
      have e : b.remoteCall p m = b := by
        unfold Boiler.remoteCall; rw [if_neg]; omega
      simp only [Boiler.step, e]
      exact ih b ⟨h1, h2, h3⟩ hc'
    | tick s hub =>
      refine ih _ ⟨?_, ?_, ?_⟩ hc' <;> cases hub <;> cases s <;> by_cases hn : b.noCallM < 255 <;>
        simp [Boiler.step, Boiler.process, Boiler.hear, h1, h2', h3, Boiler.isOn, hn]

/-- **C42, hysteresis.** At any minute, any call noted while the boiler is off would also be noted while it is on. -/
theorem C42_hysteresis (off on : Boiler) (h1 : off.isOn = false) (h2 : on.isOn = true) (h3 : off.call = false)
    (pct m : Nat) (h : (off.remoteCall pct m).call = true) : (on.remoteCall pct m).call = true := by
  unfold Boiler.remoteCall at *
  have hle : on.threshold m ≤ off.threshold m := by
    unfold Boiler.threshold
    rw [h1, h2]
    dsimp only
    generalize decide (m % 64 < 63 / 4) = x
    generalize decide (m % 64 < 63 / 2) = y
    cases x <;> cases y <;> decide
  split at h
  · rw [if_pos (by omega)]
  · rw [h3] at h; cases h

/-- Not vacuous: a weaker call (50%) does keep it on, and in the encouraged window does start it. -/
example :
    (Boiler.init.run 30 5 (List.replicate 6 (.tick true true) ++ [.call 50 40, .tick false true])).pin = false ∧
    (Boiler.init.run 30 5 (List.replicate 6 (.tick true true) ++ [.call 50 20, .tick false true])).pin = true ∧
    (Boiler.init.run 30 5 (List.replicate 6 (.tick true true) ++ [.call 66 40, .tick false true] ++
      List.replicate 140 (.tick false true) ++ [.call 50 40] ++ List.replicate 140 (.tick false true))).pin = true := by
  decide +kernel

end Props
end OTR
