import Verif.Model.UI
/-!
# Properties C109-C113: the physical user interface
-/

namespace OTR.Props
open OTR

/-! ## Stage lemmas -/

/-- Nothing marked the controls as used between `u` and `v`, unless `v` says so. -/
def Kept (u v : UI) : Prop := v.status = false → u.status = false ∧ v.tmo = u.tmo

theorem Kept.refl (u : UI) : Kept u u := fun h => ⟨h, rfl⟩
theorem Kept.trans {u v w : UI} (h1 : Kept u v) (h2 : Kept v w) : Kept u w := fun h => by
  obtain ⟨a, b⟩ := h2 h
  obtain ⟨c, d⟩ := h1 a
  exact ⟨c, by rw [b, d]⟩
theorem Kept.of_status {u v : UI} (h : v.status = true) : Kept u v := fun h' => by simp [h] at h'
theorem Kept.of_eq {u v : UI} (h1 : v.status = u.status) (h2 : v.tmo = u.tmo) : Kept u v := fun h => ⟨by rw [← h1]; exact h, h2⟩

theorem used_status (u : UI) : u.used.status = true := rfl
theorem usedSig_status (c : UICfg) (u : UI) : (u.usedSig c).status = true := rfl

theorem manualWarm_kept (c : UICfg) (u : UI) (w : Bool) : Kept u (u.manualWarm c w) := by
  unfold UI.manualWarm
  dsimp only
  by_cases h : w ≠ u.mode.warm
  · rw [if_pos h]; exact .of_status rfl
  · rw [if_neg h]; exact .of_eq rfl rfl

theorem manualBake_kept (c : UICfg) (u : UI) (w : Bool) : Kept u (u.manualBake c w) := by
  unfold UI.manualBake
  dsimp only
  by_cases h : u.mode.inBake ≠ w
  · rw [if_pos h]; exact .of_status rfl
  · rw [if_neg h]; exact .of_eq rfl rfl

theorem press_status (c : UICfg) (u : UI) : (u.press c).status = true := by
  unfold UI.press
  split
  · rfl
  · split <;> rfl

theorem pressIf_kept (c : UICfg) (b : Bool) (u : UI) : Kept u (u.pressIf c b) := by
  unfold UI.pressIf
  cases b
  · exact .refl u
  · exact .of_status (press_status c u)

theorem event_kept (c : UICfg) (u : UI) (e : PotEv) : Kept u (u.event c e) := by
  cases e with
  | warm b => exact manualWarm_kept c u b
  | bake b => exact manualBake_kept c u b
  | occupied => exact .of_eq rfl rfl

theorem events_kept (c : UICfg) (l : List PotEv) : ∀ u : UI, Kept u (l.foldl (UI.event c) u) := by
  induction l with
  | nil => exact fun u => .refl u
  | cons e t ih => exact fun u => (event_kept c u e).trans (ih _)

theorem dial_kept (c : UICfg) (u : UI) (adc : Nat) : Kept u (u.dial c adc) := by
  unfold UI.dial
  dsimp only
  generalize hv : (u.pot.read c.lo c.hi adc).2.foldl (UI.event c) { u with pot := (u.pot.read c.lo c.hi adc).1 } = v
  have h1 : Kept u v := by
    rw [← hv]
    exact Kept.trans (v := { u with pot := (u.pot.read c.lo c.hi adc).1 }) (.of_eq rfl rfl) (events_kept c _ _)
  refine h1.trans ?_
  refine Kept.of_eq ?_ ?_ <;> (repeat' split) <;> rfl

theorem feedback_status (u : UI) (i : UIIn) : (u.feedback i).status = true := by
  unfold UI.feedback
  dsimp only
  split <;> rfl

theorem poll_kept (c : UICfg) (u : UI) (i : UIIn) : Kept u (u.poll c i).2 := by
  unfold UI.poll
  split
  · exact .refl u
  split
  · refine .of_status ?_
    dsimp only
    (repeat' split) <;> rfl
  split
  · exact .of_status rfl
  · exact .refl u

theorem show_kept (u : UI) (i : UIIn) (a b : Bool) : Kept u (u.show_ i a b) := by
  unfold UI.show_
  dsimp only
  refine Kept.of_eq ?_ ?_ <;> (repeat' split) <;> rfl

/-! The state at successive points of one `read()`. -/

/-- After the dial. -/
def uiA (c : UICfg) (u : UI) (i : UIIn) : UI :=
  let v := u.begin_
  let w := v.pressIf c i.p1
  if c.hasPot && (v.veryRecent || decide (v.tick % 4 = 0) || (w.mode.warm && !w.longLongVacant)) then w.dial c i.adc else w
/-- After feedback. -/
def uiB (c : UICfg) (u : UI) (i : UIIn) : UI :=
  let w := (uiA c u i).pressIf c i.p2
  if w.sig then w.feedback i else w
/-- After the button and the display. -/
def uiC (c : UICfg) (u : UI) (i : UIIn) : UI :=
  let r := (uiB c u i).poll c i
  if r.1 then r.2 else r.2.show_ i (decide (u.begin_.tick % 4 = 0)) u.begin_.veryRecent
/-- When the value to return is fetched. -/
def uiD (c : UICfg) (u : UI) (i : UIIn) : UI := ((uiC c u i).pressIf c i.p3).off

theorem read_eq (c : UICfg) (u : UI) (i : UIIn) :
    u.read c i = ((uiD c u i).status, { (uiD c u i).pressIf c i.p4 with status := false }) := rfl

theorem uiA_kept (c : UICfg) (u : UI) (i : UIIn) : Kept u.begin_ (uiA c u i) := by
  unfold uiA
  dsimp only
  refine (pressIf_kept c i.p1 _).trans ?_
  split
  · exact dial_kept c _ _
  · exact .refl _

theorem uiB_kept (c : UICfg) (u : UI) (i : UIIn) : Kept (uiA c u i) (uiB c u i) := by
  unfold uiB
  dsimp only
  refine (pressIf_kept c i.p2 _).trans ?_
  split
  · exact .of_status (feedback_status _ _)
  · exact .refl _

theorem uiC_kept (c : UICfg) (u : UI) (i : UIIn) : Kept (uiB c u i) (uiC c u i) := by
  unfold uiC
  dsimp only
  refine (poll_kept c _ i).trans ?_
  split
  · exact .refl _
  · exact show_kept _ _ _ _

theorem uiD_kept (c : UICfg) (u : UI) (i : UIIn) : Kept (uiC c u i) (uiD c u i) := by
  unfold uiD
  exact (pressIf_kept c i.p3 _).trans (.of_eq rfl rfl)

theorem read_kept (c : UICfg) (u : UI) (i : UIIn) : Kept u.begin_ (uiD c u i) :=
  (uiA_kept c u i).trans ((uiB_kept c u i).trans ((uiC_kept c u i).trans (uiD_kept c u i)))

/-! ### The tick count -/

theorem pressIf_tick (c : UICfg) (b : Bool) (u : UI) : (u.pressIf c b).tick = u.tick := by
  unfold UI.pressIf UI.press UI.usedSig
  (repeat' split) <;> rfl

theorem event_tick (c : UICfg) (u : UI) (e : PotEv) : (u.event c e).tick = u.tick := by
  cases e <;> unfold UI.event
  · unfold UI.manualWarm UI.usedSig; dsimp only; (repeat' split) <;> rfl
  · unfold UI.manualBake UI.usedSig; dsimp only; (repeat' split) <;> rfl
  · rfl

theorem events_tick (c : UICfg) (l : List PotEv) : ∀ u : UI, (l.foldl (UI.event c) u).tick = u.tick := by
  induction l with
  | nil => exact fun u => rfl
  | cons e t ih => exact fun u => (ih _).trans (event_tick c u e)

theorem dial_tick (c : UICfg) (u : UI) (adc : Nat) : (u.dial c adc).tick = u.tick := by
  unfold UI.dial
  dsimp only
  have h := events_tick c (u.pot.read c.lo c.hi adc).2 { u with pot := (u.pot.read c.lo c.hi adc).1 }
  (repeat' split) <;> exact h

theorem poll_tick (c : UICfg) (u : UI) (i : UIIn) : (u.poll c i).2.tick = u.tick := by
  unfold UI.poll
  dsimp only
  (repeat' split) <;> rfl

theorem show_tick (u : UI) (i : UIIn) (a b : Bool) : (u.show_ i a b).tick = u.tick := by
  unfold UI.show_
  dsimp only
  (repeat' split) <;> rfl

theorem read_tick (c : UICfg) (u : UI) (i : UIIn) : (u.read c i).2.tick = (u.tick + 1) % 256 := by
  have hA : (uiA c u i).tick = (u.tick + 1) % 256 := by
    unfold uiA; dsimp only
    split
    · rw [dial_tick, pressIf_tick]; rfl
    · rw [pressIf_tick]; rfl
  have hB : (uiB c u i).tick = (u.tick + 1) % 256 := by
    unfold uiB; dsimp only
    split
    · unfold UI.feedback; dsimp only; split <;> (refine Eq.trans ?_ hA; exact pressIf_tick _ _ _)
    · rw [pressIf_tick, hA]
  have hC : (uiC c u i).tick = (u.tick + 1) % 256 := by
    unfold uiC; dsimp only
    split
    · rw [poll_tick, hB]
    · rw [show_tick, poll_tick, hB]
  have hD : (uiD c u i).tick = (u.tick + 1) % 256 := by
    unfold uiD
    exact (pressIf_tick _ _ _).trans hC
  rw [read_eq]
  exact (pressIf_tick _ _ _).trans hD

/-! ## C109: how long the controls count as recently used -/

/-- A history of events from power-up. -/
def uiAfter (c : UICfg) (evs : List UIEv) : UI := evs.foldl (UI.step c) {}

/-- Successive reads. -/
def uiReads (c : UICfg) (u : UI) (is : List UIIn) : UI := is.foldl (fun u i => (u.read c i).2) u

/-- The user does nothing: no button interrupt during any of these reads, and each returns 0 ("the user interacted with
the system" being what a non-zero value means). -/
def NoUse (c : UICfg) : UI → List UIIn → Prop
  | _, [] => True
  | u, i :: t => i.p4 = false ∧ (u.read c i).1 = false ∧ NoUse c (u.read c i).2 t

theorem noUse_tmo (c : UICfg) (is : List UIIn) : ∀ u : UI, u.tick < 256 → NoUse c u is →
    (uiReads c u is).tmo = u.tmo - (u.tick % 32 + is.length) / 32 := by
  induction is with
  | nil => intro u _ _; simp only [uiReads, List.foldl_nil, List.length_nil]; omega
  | cons i t ih =>
    intro u ht hn
    obtain ⟨h4, hr, hn⟩ := hn
    have hk := read_kept c u i (by rw [read_eq] at hr; exact hr)
    have htm : (u.read c i).2.tmo = u.begin_.tmo := by
      rw [read_eq, h4]; exact hk.2
    have htk := read_tick c u i
    have := ih (u.read c i).2 (by rw [htk]; omega) hn
    have hrec : uiReads c u (i :: t) = uiReads c (u.read c i).2 t := rfl
    rw [hrec, this, htm, htk]
    simp only [UI.begin_, List.length_cons]
    split <;> omega

theorem used_inv (c : UICfg) (u : UI) : (u.press c).tmo = 31 := by
  unfold UI.press UI.usedSig UI.used
  (repeat' split) <;> rfl

/-- Between events a reported use is always the most recent possible. -/
theorem uiAfter_inv (c : UICfg) (evs : List UIEv) :
    (uiAfter c evs).tick < 256 ∧ ((uiAfter c evs).status = true → (uiAfter c evs).tmo = 31) := by
  unfold uiAfter
  suffices h : ∀ u : UI, u.tick < 256 → (u.status = true → u.tmo = 31) →
      (evs.foldl (UI.step c) u).tick < 256 ∧ ((evs.foldl (UI.step c) u).status = true → (evs.foldl (UI.step c) u).tmo = 31) by
    exact h {} (by decide) (by decide)
  induction evs with
  | nil => exact fun u a b => ⟨a, b⟩
  | cons e t ih =>
    intro u ha hb
    apply ih
    · cases e with
      | read i => simp only [UI.step]; rw [read_tick]; omega
      | press => simp only [UI.step]; have := pressIf_tick c true u; simp only [UI.pressIf, if_true] at this; omega
      | _ => exact ha
    · cases e with
      | read i => simp [UI.step, read_eq]
      | press => intro _; exact used_inv c u
      | _ => exact hb

/-- How far below its maximum the countdown can be when a read reports use. -/
def Fresh (u v : UI) : Prop := v.status = true → (u.status = true → 30 ≤ u.tmo) → 30 ≤ v.tmo

theorem manual_tmo (c : UICfg) (u : UI) (e : PotEv) :
    (u.event c e).tmo = 31 ∨ (u.event c e).tmo = u.tmo ∧ (u.event c e).status = u.status := by
  cases e with
  | warm b =>
    simp only [UI.event, UI.manualWarm]
    by_cases h : b ≠ u.mode.warm
    · rw [if_pos h]; exact Or.inl rfl
    · rw [if_neg h]; exact Or.inr ⟨rfl, rfl⟩
  | bake b =>
    simp only [UI.event, UI.manualBake]
    by_cases h : u.mode.inBake ≠ b
    · rw [if_pos h]; exact Or.inl rfl
    · rw [if_neg h]; exact Or.inr ⟨rfl, rfl⟩
  | occupied => exact Or.inr ⟨rfl, rfl⟩

/-- `v` has the countdown full, or as in `u`. -/
def Full (u v : UI) : Prop := v.tmo = 31 ∨ v.tmo = u.tmo ∧ v.status = u.status

theorem Full.trans {u v w : UI} (h1 : Full u v) (h2 : Full v w) : Full u w := by
  rcases h2 with h | ⟨h, h'⟩
  · exact Or.inl h
  · rcases h1 with g | ⟨g, g'⟩
    · exact Or.inl (by rw [h, g])
    · exact Or.inr ⟨by rw [h, g], by rw [h', g']⟩

theorem events_full (c : UICfg) (l : List PotEv) : ∀ u : UI, Full u (l.foldl (UI.event c) u) := by
  induction l with
  | nil => exact fun u => Or.inr ⟨rfl, rfl⟩
  | cons e t ih => exact fun u => Full.trans (manual_tmo c u e) (ih _)

theorem pressIf_full (c : UICfg) (b : Bool) (u : UI) : Full u (u.pressIf c b) := by
  unfold UI.pressIf
  cases b
  · exact Or.inr ⟨rfl, rfl⟩
  · exact Or.inl (used_inv c u)

theorem dial_full (c : UICfg) (u : UI) (adc : Nat) : Full u (u.dial c adc) := by
  unfold UI.dial
  dsimp only
  have h := events_full c (u.pot.read c.lo c.hi adc).2 { u with pot := (u.pot.read c.lo c.hi adc).1 }
  have h2 : Full u ((u.pot.read c.lo c.hi adc).2.foldl (UI.event c) { u with pot := (u.pot.read c.lo c.hi adc).1 }) := h
  (repeat' split) <;> exact h2

theorem poll_full (c : UICfg) (u : UI) (i : UIIn) : Full u (u.poll c i).2 := by
  unfold UI.poll
  split
  · exact Or.inr ⟨rfl, rfl⟩
  split
  · left; dsimp only; (repeat' split) <;> rfl
  split
  · left; rfl
  · exact Or.inr ⟨rfl, rfl⟩

theorem show_full (u : UI) (i : UIIn) (a b : Bool) : Full u (u.show_ i a b) := by
  unfold UI.show_
  dsimp only
  right
  constructor <;> (repeat' split) <;> rfl

theorem read_full (c : UICfg) (u : UI) (i : UIIn) : Full u.begin_ (uiD c u i) := by
  have hA : Full u.begin_ (uiA c u i) := by
    unfold uiA; dsimp only
    refine (pressIf_full c i.p1 _).trans ?_
    split
    · exact dial_full c _ _
    · exact Or.inr ⟨rfl, rfl⟩
  have hB : Full (uiA c u i) (uiB c u i) := by
    unfold uiB; dsimp only
    refine (pressIf_full c i.p2 _).trans ?_
    split
    · left; unfold UI.feedback; dsimp only; split <;> rfl
    · exact Or.inr ⟨rfl, rfl⟩
  have hC : Full (uiB c u i) (uiC c u i) := by
    unfold uiC; dsimp only
    refine (poll_full c _ i).trans ?_
    split
    · exact Or.inr ⟨rfl, rfl⟩
    · exact show_full _ _ _ _
  have hD : Full (uiC c u i) (uiD c u i) := by
    unfold uiD
    exact (pressIf_full c i.p3 _).trans (Or.inr ⟨rfl, rfl⟩)
  exact hA.trans (hB.trans (hC.trans hD))

theorem reported_full (c : UICfg) (u : UI) (i : UIIn) (hu : u.status = true → u.tmo = 31)
    (hr : (u.read c i).1 = true) : 30 ≤ (u.read c i).2.tmo ∧ (u.read c i).2.tmo ≤ 31 := by
  have h4 : ((u.read c i).2.tmo = 31 ∨ (u.read c i).2.tmo = (uiD c u i).tmo) := by
    rcases pressIf_full c i.p4 (uiD c u i) with h | ⟨h, _⟩
    · exact Or.inl h
    · exact Or.inr h
  rcases h4 with h | h
  · omega
  · rw [h]
    rcases read_full c u i with h' | ⟨h', hs⟩
    · omega
    · have hst : (uiD c u i).status = true := hr
      rw [hs] at hst
      have := hu hst
      rw [h']
      simp only [UI.begin_]; split <;> omega

/-- **C109.** For the whole family of dials and buttons, after any history: take a read that reports that the user did
something, followed by `is`, in none of which the user does anything. Then `recentUIControlUse()` stays true for at least
29x32 further reads (at the nominal 2 seconds, more than 30 minutes) and is false from 31x32 reads on (about 33 minutes);
`veryRecentUIControlUse()` stays true for at least 32 reads (more than a minute) and is false from 96 on (about 3
minutes). -/
theorem C109_recent_use (c : UICfg) (evs : List UIEv) (i0 : UIIn) (is : List UIIn)
    (h0 : ((uiAfter c evs).read c i0).1 = true)
    (hn : NoUse c ((uiAfter c evs).read c i0).2 is) :
    (is.length ≤ 29 * 32 → (uiReads c ((uiAfter c evs).read c i0).2 is).recent = true) ∧
    (31 * 32 ≤ is.length → (uiReads c ((uiAfter c evs).read c i0).2 is).recent = false) ∧
    (is.length ≤ 32 → (uiReads c ((uiAfter c evs).read c i0).2 is).veryRecent = true) ∧
    (96 ≤ is.length → (uiReads c ((uiAfter c evs).read c i0).2 is).veryRecent = false) := by
  obtain ⟨ht, hs⟩ := uiAfter_inv c evs
  have hf := reported_full c _ i0 hs h0
  have htk : ((uiAfter c evs).read c i0).2.tick < 256 := by rw [read_tick]; omega
  have htm := noUse_tmo c is _ htk hn
  simp only [UI.recent, UI.veryRecent, bne_iff_ne, decide_eq_true_eq, decide_eq_false_iff_not, bne_eq_false_iff_eq, ge_iff_le]
  rw [htm]
  refine ⟨?_, ?_, ?_, ?_⟩ <;> intro h <;> omega

/-- **C109 (occupancy).** Pressing the button always marks the room as occupied, with full confidence, and counts as very
recent use of the controls. -/
theorem C109_press_is_occupancy (c : UICfg) (u : UI) :
    (u.press c).occ = u.occ.markAsOccupied ∧ (u.press c).occ.value = 100 ∧ (u.press c).veryRecent = true := by
  unfold UI.press UI.usedSig UI.used UI.on
  refine ⟨?_, ?_, ?_⟩ <;> (repeat' split) <;> rfl

/-! ## C110: the dial's frost position -/

/-- The cycle button (if this is the class with one) takes no part in this read. -/
def NoCycle (c : UICfg) (u : UI) (i : UIIn) : Prop := c.cycle = false ∨ (u.wasPressed = false ∧ i.button = false)

/-- FROST: neither warm nor baking. -/
def IsFrost (u : UI) : Prop := u.mode.warm = false ∧ u.mode.inBake = false ∧ u.mode.get = 0

theorem isFrost_of {u : UI} (h : u.mode.warm = false) : IsFrost u := by
  simp [IsFrost, VMode.inBake, VMode.get, h]

/-- **C110 (button).** With the dial at its frost end stop, pressing the button never starts BAKE nor changes the mode. -/
theorem C110_press_at_frost (c : UICfg) (u : UI) (hp : c.hasPot = true) (hlo : u.pot.value < c.lo) :
    (u.press c).mode = u.mode := by
  unfold UI.press UI.used
  rw [if_pos (c := c.hasPot = true ∧ u.pot.value < c.lo) ⟨hp, hlo⟩]
  split <;> rfl

theorem pressIf_pot (c : UICfg) (b : Bool) (u : UI) : (u.pressIf c b).pot = u.pot := by
  unfold UI.pressIf UI.press UI.usedSig
  (repeat' split) <;> rfl

theorem pressIf_frost (c : UICfg) (b : Bool) (u : UI) (hp : c.hasPot = true) (hlo : u.pot.value < c.lo) :
    (u.pressIf c b).mode = u.mode := by
  unfold UI.pressIf
  split
  · exact C110_press_at_frost c u hp hlo
  · rfl

theorem event_pot (c : UICfg) (u : UI) (e : PotEv) : (u.event c e).pot = u.pot := by
  cases e <;> unfold UI.event
  · unfold UI.manualWarm UI.usedSig; dsimp only; (repeat' split) <;> rfl
  · unfold UI.manualBake UI.usedSig; dsimp only; (repeat' split) <;> rfl
  · rfl

theorem events_pot (c : UICfg) (l : List PotEv) : ∀ u : UI, (l.foldl (UI.event c) u).pot = u.pot := by
  induction l with
  | nil => exact fun u => rfl
  | cons e t ih => exact fun u => (ih _).trans (event_pot c u e)

theorem dial_pot (c : UICfg) (u : UI) (adc : Nat) : (u.dial c adc).pot = (u.pot.read c.lo c.hi adc).1 := by
  unfold UI.dial
  dsimp only
  have h := events_pot c (u.pot.read c.lo c.hi adc).2 { u with pot := (u.pot.read c.lo c.hi adc).1 }
  (repeat' split) <;> exact h

theorem dial_frost (c : UICfg) (u : UI) (adc : Nat) (h : (u.dial c adc).pot.value < c.lo) :
    (u.dial c adc).mode.warm = false := by
  rw [dial_pot] at h
  unfold UI.dial
  dsimp only
  have hp := events_pot c (u.pot.read c.lo c.hi adc).2 { u with pot := (u.pot.read c.lo c.hi adc).1 }
  have hlo : ((u.pot.read c.lo c.hi adc).2.foldl (UI.event c)
      { u with pot := (u.pot.read c.lo c.hi adc).1 }).pot.value < c.lo := by rw [hp]; exact h
  generalize (u.pot.read c.lo c.hi adc).2.foldl (UI.event c) { u with pot := (u.pot.read c.lo c.hi adc).1 } = v at hlo
  rw [if_pos hlo]
  have hn : ¬ ¬ v.pot.value < c.lo := not_not_intro hlo
  by_cases h1 : UI.nominalOf c v.pot.value ≠ v.nominal
  · by_cases h2 : v.nominal ≠ 0
    · simp [h1, h2, hlo, VMode.setWarm]
    · simp [h1, h2, hlo, VMode.setWarm]
  · simp [h1, VMode.setWarm]

theorem feedback_pot (u : UI) (i : UIIn) : (u.feedback i).pot = u.pot ∧ (u.feedback i).mode = u.mode ∧
    (u.feedback i).wasPressed = u.wasPressed := by
  unfold UI.feedback; dsimp only; split <;> exact ⟨rfl, rfl, rfl⟩

theorem poll_pot (c : UICfg) (u : UI) (i : UIIn) : (u.poll c i).2.pot = u.pot := by
  unfold UI.poll
  dsimp only
  (repeat' split) <;> rfl

theorem show_pot (u : UI) (i : UIIn) (a b : Bool) : (u.show_ i a b).pot = u.pot ∧ (u.show_ i a b).mode = u.mode := by
  unfold UI.show_
  dsimp only
  constructor <;> (repeat' split) <;> rfl

theorem poll_noCycle (c : UICfg) (u : UI) (i : UIIn) (h : NoCycle c u i) : u.poll c i = (false, u) := by
  unfold UI.poll
  rcases h with h | ⟨h1, h2⟩
  · simp [h]
  · by_cases hc : c.cycle = true
    · rw [if_neg (by simp [hc]), if_neg (by simp [h2]), if_neg (by simp [h1])]
    · rw [if_pos hc]

theorem pressIf_was (c : UICfg) (b : Bool) (u : UI) : (u.pressIf c b).wasPressed = u.wasPressed := by
  unfold UI.pressIf UI.press UI.usedSig
  (repeat' split) <;> rfl

theorem event_was (c : UICfg) (u : UI) (e : PotEv) : (u.event c e).wasPressed = u.wasPressed := by
  cases e <;> unfold UI.event
  · unfold UI.manualWarm UI.usedSig; dsimp only; (repeat' split) <;> rfl
  · unfold UI.manualBake UI.usedSig; dsimp only; (repeat' split) <;> rfl
  · rfl

theorem events_was (c : UICfg) (l : List PotEv) : ∀ u : UI, (l.foldl (UI.event c) u).wasPressed = u.wasPressed := by
  induction l with
  | nil => exact fun u => rfl
  | cons e t ih => exact fun u => (ih _).trans (event_was c u e)

theorem dial_was (c : UICfg) (u : UI) (adc : Nat) : (u.dial c adc).wasPressed = u.wasPressed := by
  unfold UI.dial
  dsimp only
  have h := events_was c (u.pot.read c.lo c.hi adc).2 { u with pot := (u.pot.read c.lo c.hi adc).1 }
  (repeat' split) <;> exact h

theorem uiB_was (c : UICfg) (u : UI) (i : UIIn) : (uiB c u i).wasPressed = u.wasPressed := by
  have hA : (uiA c u i).wasPressed = u.wasPressed := by
    unfold uiA; dsimp only
    split
    · rw [dial_was, pressIf_was]; rfl
    · rw [pressIf_was]; rfl
  unfold uiB; dsimp only
  split
  · rw [(feedback_pot _ _).2.2, pressIf_was, hA]
  · rw [pressIf_was, hA]

theorem uiB_pot (c : UICfg) (u : UI) (i : UIIn) : (uiB c u i).pot = (uiA c u i).pot := by
  unfold uiB; dsimp only
  split
  · rw [(feedback_pot _ _).1, pressIf_pot]
  · rw [pressIf_pot]

theorem uiD_pot (c : UICfg) (u : UI) (i : UIIn) : (uiD c u i).pot = (uiA c u i).pot := by
  have hC : (uiC c u i).pot = (uiA c u i).pot := by
    unfold uiC; dsimp only
    split
    · rw [poll_pot, uiB_pot]
    · rw [(show_pot _ _ _ _).1, poll_pot, uiB_pot]
  unfold uiD
  exact (pressIf_pot _ _ _).trans hC

theorem uiC_mode (c : UICfg) (u : UI) (i : UIIn) (hc : NoCycle c u i) : (uiC c u i).mode = (uiB c u i).mode := by
  have hc' : NoCycle c (uiB c u i) i := by
    rcases hc with h | ⟨h1, h2⟩
    · exact Or.inl h
    · exact Or.inr ⟨by rw [uiB_was]; exact h1, h2⟩
  unfold uiC; dsimp only
  rw [poll_noCycle c _ i hc']
  exact (show_pot _ _ _ _).2

theorem frost_after (c : UICfg) (u : UI) (i : UIIn) (hp : c.hasPot = true) (hc : NoCycle c u i)
    (hs : u.begin_.veryRecent = true ∨ u.begin_.tick % 4 = 0 ∨
      ((u.begin_.pressIf c i.p1).mode.warm = true ∧ (u.begin_.pressIf c i.p1).longLongVacant = false))
    (hlo : (u.read c i).2.pot.value < c.lo) : IsFrost (u.read c i).2 := by
  have hpotD : (u.read c i).2.pot = (uiA c u i).pot := by
    rw [read_eq]; exact (pressIf_pot _ _ _).trans (uiD_pot c u i)
  rw [hpotD] at hlo
  have hA : (uiA c u i).mode.warm = false := by
    have hcond : (c.hasPot && (u.begin_.veryRecent || decide (u.begin_.tick % 4 = 0) ||
        ((u.begin_.pressIf c i.p1).mode.warm && !(u.begin_.pressIf c i.p1).longLongVacant))) = true := by
      rcases hs with h | h | ⟨h1, h2⟩
      · simp [hp, h]
      · simp [hp, h]
      · simp [hp, h1, h2]
    unfold uiA at hlo ⊢
    dsimp only at hlo ⊢
    rw [if_pos hcond] at hlo ⊢
    exact dial_frost c _ _ hlo
  have hB : (uiB c u i).mode.warm = false := by
    unfold uiB; dsimp only
    split
    · rw [(feedback_pot _ _).2.1, pressIf_frost c _ _ hp hlo]; exact hA
    · rw [pressIf_frost c _ _ hp hlo]; exact hA
  have hC : (uiC c u i).mode.warm = false := by rw [uiC_mode c u i hc]; exact hB
  have hCp : (uiC c u i).pot = (uiA c u i).pot := by
    unfold uiC; dsimp only
    split
    · rw [poll_pot, uiB_pot]
    · rw [(show_pot _ _ _ _).1, poll_pot, uiB_pot]
  have hD : (uiD c u i).mode.warm = false := by
    unfold uiD
    have := pressIf_frost c i.p3 (uiC c u i) hp (by rw [hCp]; exact hlo)
    show ((uiC c u i).pressIf c i.p3).mode.warm = false
    rw [this]; exact hC
  apply isFrost_of
  rw [read_eq]
  have := pressIf_frost c i.p4 (uiD c u i) hp (by rw [uiD_pot]; exact hlo)
  show ((uiD c u i).pressIf c i.p4).mode.warm = false
  rw [this]; exact hD

/-- **C110.** Whatever happened before, and wherever button interrupts come: at the end of a read after which the dial
stands at its frost end stop, the valve is in FROST, not WARM and not BAKE, if that read was a fourth one, or the
controls were used very recently, or the valve was in WARM mode in a room not vacant for days. (The button of the
cycle variant must not itself be in use.) -/
theorem C110_frost_position (c : UICfg) (u : UI) (i : UIIn) (hp : c.hasPot = true) (hc : NoCycle c u i)
    (hs : (u.tick + 1) % 4 = 0 ∨ u.tmo ≥ 30 ∨ (u.mode.warm = true ∧ u.occ.getVacancyH ≤ 39))
    (hlo : (u.read c i).2.pot.value < c.lo) : IsFrost (u.read c i).2 := by
  refine frost_after c u i hp hc ?_ hlo
  rcases hs with h | h | ⟨h1, h2⟩
  · right; left; simp only [UI.begin_]; omega
  · left
    have h29 : u.begin_.tmo ≥ 29 := by unfold UI.begin_; dsimp only; split <;> omega
    exact decide_eq_true h29
  · right; right
    have hb : ∀ b, (u.begin_.pressIf c b).mode.warm = true ∧ (u.begin_.pressIf c b).occ.getVacancyH ≤ 39 := by
      intro b
      unfold UI.pressIf
      split
      · have h3 := C109_press_is_occupancy c u.begin_
        constructor
        · unfold UI.press UI.usedSig UI.used UI.on
          (repeat' split) <;> first | exact h1 | rfl
        · unfold Occ.getVacancyH; rw [if_pos (by rw [h3.2.1]; decide)]; omega
      · exact ⟨h1, h2⟩
    exact ⟨(hb i.p1).1, by simp only [UI.longLongVacant, decide_eq_false_iff_not]; have := (hb i.p1).2; omega⟩

/-- **C110 (every four reads).** Of any four consecutive reads (with anything happening between them) one is a fourth
read, so a valve put in WARM or BAKE by anything else while the dial stands at its frost end stop is back in FROST by
the end of that read. -/
theorem C110_within_four (c : UICfg) (evs : List UIEv) (i : Fin 4 → UIIn) (e : Fin 4 → List UIEv) (hp : c.hasPot = true)
    (hcy : c.cycle = false) (he : ∀ k, ∀ x ∈ e k, ∀ j, x ≠ .read j) :
    let u0 := uiAfter c evs
    let u1 := (e 0).foldl (UI.step c) (u0.read c (i 0)).2
    let u2 := (e 1).foldl (UI.step c) (u1.read c (i 1)).2
    let u3 := (e 2).foldl (UI.step c) (u2.read c (i 2)).2
    let l := [(u0.read c (i 0)).2, (u1.read c (i 1)).2, (u2.read c (i 2)).2, (u3.read c (i 3)).2]
    (∀ r ∈ l, r.pot.value < c.lo) → ∃ r ∈ l, IsFrost r := by
  have hstep : ∀ (l : List UIEv), (∀ x ∈ l, ∀ j, x ≠ UIEv.read j) → ∀ u : UI, (l.foldl (UI.step c) u).tick = u.tick := by
    intro l
    induction l with
    | nil => exact fun _ u => rfl
    | cons x t ih =>
      intro hx u
      rw [List.foldl_cons, ih (fun y hy => hx y (by simp [hy]))]
      cases x with
      | read j => exact absurd rfl (hx _ (by simp) j)
      | press => have := pressIf_tick c true u; simp only [UI.pressIf, if_true] at this; exact this
      | _ => rfl
  intro u0 u1 u2 u3 l hl
  have t0 : u0.tick < 256 := (uiAfter_inv c evs).1
  have t1 : u1.tick = (u0.tick + 1) % 256 := by rw [show u1 = _ from rfl, hstep _ (he 0), read_tick]
  have t2 : u2.tick = (u1.tick + 1) % 256 := by rw [show u2 = _ from rfl, hstep _ (he 1), read_tick]
  have t3 : u3.tick = (u2.tick + 1) % 256 := by rw [show u3 = _ from rfl, hstep _ (he 2), read_tick]
  have hcase : (u0.tick + 1) % 4 = 0 ∨ (u1.tick + 1) % 4 = 0 ∨ (u2.tick + 1) % 4 = 0 ∨ (u3.tick + 1) % 4 = 0 := by omega
  rcases hcase with h | h | h | h
  · exact ⟨(u0.read c (i 0)).2, by simp [l], C110_frost_position c _ _ hp (Or.inl hcy) (Or.inl h) (hl _ (by simp [l]))⟩
  · exact ⟨(u1.read c (i 1)).2, by simp [l], C110_frost_position c _ _ hp (Or.inl hcy) (Or.inl h) (hl _ (by simp [l]))⟩
  · exact ⟨(u2.read c (i 2)).2, by simp [l], C110_frost_position c _ _ hp (Or.inl hcy) (Or.inl h) (hl _ (by simp [l]))⟩
  · exact ⟨(u3.read c (i 3)).2, by simp [l], C110_frost_position c _ _ hp (Or.inl hcy) (Or.inl h) (hl _ (by simp [l]))⟩

/-! ## C111: the cycle button -/

/-- The mode the held button is showing. -/
def shown (u : UI) : Nat := if !u.pWarm then 0 else if u.pBake then 2 else 1

theorem poll_held (c : UICfg) (u : UI) (i : UIIn) (hc : c.cycle = true) (hb : i.button = true) :
    (u.poll c i).1 = true ∧ (u.poll c i).2.wasPressed = true ∧ ((u.poll c i).2.pBake = true → (u.poll c i).2.pWarm = true) ∧
    shown (u.poll c i).2 = ((if u.wasPressed then shown u else u.mode.get) + 1) % 3 := by
  unfold UI.poll
  rw [if_neg (by simp [hc]), if_pos hb]
  have hg : u.mode.get = if !u.mode.warm then 0 else if u.mode.inBake then 2 else 1 := by
    unfold VMode.get VMode.inBake
    cases u.mode.warm <;> simp
  by_cases hw : u.wasPressed = true
  · simp only [hw, if_true]
    cases h1 : u.pWarm <;> cases h2 : u.pBake <;> simp [shown, UI.used, UI.on, UI.off, h1, h2, hw]
  · simp only [hw]
    rw [hg]
    cases h1 : u.mode.warm <;> cases h2 : u.mode.inBake <;> simp [shown, UI.used, UI.on, UI.off, h1, h2]

/-- What the button interrupt keeps in the cycle variant. -/
theorem pressIf_cycle (c : UICfg) (b : Bool) (u : UI) (hc : c.cycle = true) :
    (u.pressIf c b).mode = u.mode ∧ (u.pressIf c b).pWarm = u.pWarm ∧ (u.pressIf c b).pBake = u.pBake ∧
    (u.pressIf c b).wasPressed = u.wasPressed := by
  unfold UI.pressIf UI.press
  rw [if_pos hc]
  cases b <;> exact ⟨rfl, rfl, rfl, rfl⟩

theorem uiB_cycle (c : UICfg) (u : UI) (i : UIIn) (hc : c.cycle = true) (hp : c.hasPot = false) :
    (uiB c u i).mode = u.mode ∧ (uiB c u i).pWarm = u.pWarm ∧ (uiB c u i).pBake = u.pBake ∧
    (uiB c u i).wasPressed = u.wasPressed := by
  have hA : uiA c u i = u.begin_.pressIf c i.p1 := by unfold uiA; simp [hp]
  have h1 := pressIf_cycle c i.p1 u.begin_ hc
  have h2 := pressIf_cycle c i.p2 (uiA c u i) hc
  rw [← hA] at h1
  obtain ⟨a1, a2, a3, a4⟩ := h1
  obtain ⟨b1, b2, b3, b4⟩ := h2
  have e1 : u.begin_.mode = u.mode := rfl
  have e2 : u.begin_.pWarm = u.pWarm := rfl
  have e3 : u.begin_.pBake = u.pBake := rfl
  have e4 : u.begin_.wasPressed = u.wasPressed := rfl
  unfold uiB
  dsimp only
  split
  · unfold UI.feedback
    dsimp only
    split <;>
    exact ⟨by show ((uiA c u i).pressIf c i.p2).mode = _; rw [b1, a1, e1],
      by show ((uiA c u i).pressIf c i.p2).pWarm = _; rw [b2, a2, e2],
      by show ((uiA c u i).pressIf c i.p2).pBake = _; rw [b3, a3, e3],
      by show ((uiA c u i).pressIf c i.p2).wasPressed = _; rw [b4, a4, e4]⟩
  · exact ⟨by rw [b1, a1, e1], by rw [b2, a2, e2], by rw [b3, a3, e3], by rw [b4, a4, e4]⟩

theorem shown_congr {u v : UI} (h1 : u.pWarm = v.pWarm) (h2 : u.pBake = v.pBake) : shown u = shown v := by
  unfold shown; rw [h1, h2]

theorem read_held (c : UICfg) (u : UI) (i : UIIn) (hc : c.cycle = true) (hp : c.hasPot = false) (hb : i.button = true) :
    (u.read c i).2.wasPressed = true ∧ ((u.read c i).2.pBake = true → (u.read c i).2.pWarm = true) ∧
    shown (u.read c i).2 = ((if u.wasPressed then shown u else u.mode.get) + 1) % 3 := by
  obtain ⟨m, w, k, p⟩ := uiB_cycle c u i hc hp
  obtain ⟨r1, r2, r4, r3⟩ := poll_held c (uiB c u i) i hc hb
  have hC : uiC c u i = ((uiB c u i).poll c i).2 := by unfold uiC; dsimp only; rw [if_pos r1]
  have h3 := pressIf_cycle c i.p3 (uiC c u i) hc
  have h4 := pressIf_cycle c i.p4 (uiD c u i) hc
  have hD : (uiD c u i).wasPressed = true := by
    show ((uiC c u i).pressIf c i.p3).wasPressed = true
    rw [h3.2.2.2, hC, r2]
  rw [read_eq]
  refine ⟨?_, ?_, ?_⟩
  · show ((uiD c u i).pressIf c i.p4).wasPressed = true
    rw [h4.2.2.2, hD]
  · intro h
    have eb : ((uiD c u i).pressIf c i.p4).pBake = (uiC c u i).pBake := h4.2.2.1.trans h3.2.2.1
    have ew : ((uiD c u i).pressIf c i.p4).pWarm = (uiC c u i).pWarm := h4.2.1.trans h3.2.1
    have h' : ((uiD c u i).pressIf c i.p4).pBake = true := h
    show ((uiD c u i).pressIf c i.p4).pWarm = true
    rw [ew, hC]
    rw [eb, hC] at h'
    exact r4 h'
  · have e : shown ({ (uiD c u i).pressIf c i.p4 with status := false }) = shown (uiC c u i) :=
      shown_congr (h4.2.1.trans h3.2.1) (h4.2.2.1.trans h3.2.2.1)
    show shown ({ (uiD c u i).pressIf c i.p4 with status := false }) = _
    rw [e, hC, r3, p, m, shown_congr w k]

theorem show_was (u : UI) (i : UIIn) (a b : Bool) : (u.show_ i a b).wasPressed = u.wasPressed ∧ (u.show_ i a b).status = u.status := by
  unfold UI.show_
  dsimp only
  constructor <;> (repeat' split) <;> rfl

theorem read_released (c : UICfg) (u : UI) (i : UIIn) (hc : c.cycle = true) (hp : c.hasPot = false) (hb : i.button = false)
    (hw : u.wasPressed = true) (hi : u.pBake = true → u.pWarm = true) :
    (u.read c i).2.mode.get = shown u ∧ (u.read c i).2.wasPressed = false ∧ (u.read c i).1 = true := by
  obtain ⟨m, w, k, p⟩ := uiB_cycle c u i hc hp
  have hpoll : ((uiB c u i).poll c i).1 = false ∧ ((uiB c u i).poll c i).2.mode.get = shown (uiB c u i) ∧
      ((uiB c u i).poll c i).2.wasPressed = false ∧ ((uiB c u i).poll c i).2.status = true := by
    unfold UI.poll
    rw [if_neg (by simp [hc]), if_neg (by simp [hb]), if_pos (by rw [p, hw])]
    refine ⟨rfl, ?_, rfl, rfl⟩
    rw [← w, ← k] at hi
    dsimp only
    unfold shown
    cases h1 : (uiB c u i).pWarm <;> cases h2 : (uiB c u i).pBake <;>
      simp [UI.used, VMode.setWarm, VMode.get, VMode.startBake, VMode.cancelBake]
    simp [h1, h2] at hi
  obtain ⟨q1, q2, q3, q4⟩ := hpoll
  have hC : (uiC c u i).mode.get = shown u ∧ (uiC c u i).wasPressed = false ∧ (uiC c u i).status = true := by
    unfold uiC
    dsimp only
    rw [if_neg (by simp [q1])]
    rw [(show_pot _ _ _ _).2, (show_was _ _ _ _).1, (show_was _ _ _ _).2]
    exact ⟨by rw [q2]; exact shown_congr w k, q3, q4⟩
  have h3 := pressIf_cycle c i.p3 (uiC c u i) hc
  have h4 := pressIf_cycle c i.p4 (uiD c u i) hc
  rw [read_eq]
  refine ⟨?_, ?_, ?_⟩
  · show ((uiD c u i).pressIf c i.p4).mode.get = _
    rw [h4.1]
    show ((uiC c u i).pressIf c i.p3).mode.get = _
    rw [h3.1]; exact hC.1
  · show ((uiD c u i).pressIf c i.p4).wasPressed = _
    rw [h4.2.2.2]
    show ((uiC c u i).pressIf c i.p3).wasPressed = _
    rw [h3.2.2.2]; exact hC.2.1
  · cases hs : (uiD c u i).status
    · have := (uiD_kept c u i hs).1
      rw [hC.2.2] at this
      simp at this
    · rfl

/-- Reads each followed by other events (presses noticed by the interrupt, the passing of minutes, other actors setting the
mode). -/
def heldReads (c : UICfg) (u : UI) (l : List (UIIn × List UIEv)) : UI :=
  l.foldl (fun u x => x.2.foldl (UI.step c) (u.read c x.1).2) u

theorem others_keep (c : UICfg) (hc : c.cycle = true) (l : List UIEv) (hl : ∀ x ∈ l, ∀ j, x ≠ UIEv.read j) : ∀ u : UI,
    (l.foldl (UI.step c) u).wasPressed = u.wasPressed ∧ (l.foldl (UI.step c) u).pWarm = u.pWarm ∧
    (l.foldl (UI.step c) u).pBake = u.pBake := by
  induction l with
  | nil => exact fun u => ⟨rfl, rfl, rfl⟩
  | cons e t ih =>
    intro u
    have h1 : (u.step c e).wasPressed = u.wasPressed ∧ (u.step c e).pWarm = u.pWarm ∧ (u.step c e).pBake = u.pBake := by
      cases e with
      | read j => exact absurd rfl (hl _ (by simp) j)
      | press =>
        have := pressIf_cycle c true u hc
        exact ⟨this.2.2.2, this.2.1, this.2.2.1⟩
      | _ => exact ⟨rfl, rfl, rfl⟩
    have h2 := ih (fun x hx => hl x (by simp [hx])) (u.step c e)
    exact ⟨h2.1.trans h1.1, h2.2.1.trans h1.2.1, h2.2.2.trans h1.2.2⟩

theorem held_loop (c : UICfg) (hc : c.cycle = true) (hp : c.hasPot = false) (l : List (UIIn × List UIEv))
    (hl : ∀ x ∈ l, x.1.button = true ∧ ∀ y ∈ x.2, ∀ j, y ≠ UIEv.read j) :
    ∀ u : UI, u.wasPressed = true → (u.pBake = true → u.pWarm = true) →
      (heldReads c u l).wasPressed = true ∧ ((heldReads c u l).pBake = true → (heldReads c u l).pWarm = true) ∧
      shown (heldReads c u l) = (shown u + l.length) % 3 := by
  induction l with
  | nil =>
    intro u h1 h2
    refine ⟨h1, h2, ?_⟩
    show shown u = _
    unfold shown
    (repeat' split) <;> rfl
  | cons x t ih =>
    intro u h1 h2
    obtain ⟨hb, ho⟩ := hl x (by simp)
    obtain ⟨r1, r2, r3⟩ := read_held c u x.1 hc hp hb
    obtain ⟨k1, k2, k3⟩ := others_keep c hc x.2 ho (u.read c x.1).2
    have := ih (fun y hy => hl y (by simp [hy])) (x.2.foldl (UI.step c) (u.read c x.1).2) (by rw [k1, r1])
      (by rw [k2, k3]; exact r2)
    refine ⟨this.1, this.2.1, ?_⟩
    show shown (heldReads c (x.2.foldl (UI.step c) (u.read c x.1).2) t) = _
    rw [this.2.2, shown_congr k2 k3, r3, if_pos h1, List.length_cons]
    omega

/-- **C111.** On a unit with a cycle button and no dial: hold the button through `n` reads (n at least 1) and let go. Then
at the first read that finds it released the mode has moved on exactly `n` places round FROST, WARM, BAKE from what it
was when the button went down, whatever interrupts, passing minutes or other setting of the mode came in between; and
that read reports that the user did something. -/
theorem C111_cycle_button (c : UICfg) (hc : c.cycle = true) (hp : c.hasPot = false) (u : UI) (hu : u.wasPressed = false)
    (l : List (UIIn × List UIEv)) (hne : l ≠ []) (i : UIIn) (hi : i.button = false)
    (hl : ∀ x ∈ l, x.1.button = true ∧ ∀ y ∈ x.2, ∀ j, y ≠ UIEv.read j) :
    ((heldReads c u l).read c i).2.mode.get = (u.mode.get + l.length) % 3 ∧
    ((heldReads c u l).read c i).1 = true ∧ ((heldReads c u l).read c i).2.wasPressed = false := by
  match l, hne, hl with
  | x :: t, _, hl =>
    obtain ⟨hb, ho⟩ := hl x (by simp)
    obtain ⟨r1, r2, r3⟩ := read_held c u x.1 hc hp hb
    obtain ⟨k1, k2, k3⟩ := others_keep c hc x.2 ho (u.read c x.1).2
    obtain ⟨a, b, d⟩ := held_loop c hc hp t (fun y hy => hl y (by simp [hy])) (x.2.foldl (UI.step c) (u.read c x.1).2)
      (by rw [k1, r1]) (by rw [k2, k3]; exact r2)
    obtain ⟨e, f, g⟩ := read_released c (heldReads c u (x :: t)) i hc hp hi a b
    refine ⟨?_, g, f⟩
    rw [e]
    have : shown (heldReads c u (x :: t)) = (shown (x.2.foldl (UI.step c) (u.read c x.1).2) + t.length) % 3 := d
    rw [this, shown_congr k2 k3, r3, hu, List.length_cons]
    simp
    omega

/-- **C111 (no drift).** While the button is neither down nor just released, no read changes the mode of such a unit. -/
theorem C111_idle (c : UICfg) (hc : c.cycle = true) (hp : c.hasPot = false) (u : UI) (i : UIIn) (hu : u.wasPressed = false)
    (hi : i.button = false) : (u.read c i).2.mode = u.mode ∧ (u.read c i).2.wasPressed = false := by
  obtain ⟨m, w, k, p⟩ := uiB_cycle c u i hc hp
  have hpo := poll_noCycle c (uiB c u i) i (Or.inr ⟨by rw [p, hu], hi⟩)
  have hC : (uiC c u i).mode = u.mode ∧ (uiC c u i).wasPressed = false := by
    unfold uiC
    dsimp only
    rw [hpo]
    dsimp only
    rw [if_neg (by simp), (show_pot _ _ _ _).2, (show_was _ _ _ _).1, m, p, hu]
    exact ⟨rfl, rfl⟩
  have h3 := pressIf_cycle c i.p3 (uiC c u i) hc
  have h4 := pressIf_cycle c i.p4 (uiD c u i) hc
  rw [read_eq]
  refine ⟨?_, ?_⟩
  · show ((uiD c u i).pressIf c i.p4).mode = _
    rw [h4.1]
    show ((uiC c u i).pressIf c i.p3).mode = _
    rw [h3.1]; exact hC.1
  · show ((uiD c u i).pressIf c i.p4).wasPressed = _
    rw [h4.2.2.2]
    show ((uiC c u i).pressIf c i.p3).wasPressed = _
    rw [h3.2.2.2]; exact hC.2

/-- Not vacuous: from FROST, five reads held (with a press interrupt and a schedule switching on in between) end in BAKE. -/
example : ((heldReads ⟨false, 8, 247, fun v => v, 16, 24, true, true⟩ {}
      [({ button := true, p2 := true }, [.press]), ({ button := true }, [.setWarm true, .minute]), ({ button := true }, []),
       ({ button := true }, []), ({ button := true }, [])]).read ⟨false, 8, 247, fun v => v, 16, 24, true, true⟩ {}).2.mode.get
      = 2 := by decide

/-! ## C112: the LED -/

/-- **C112.** At the end of every read the LED is off, unless a button press interrupt came in its very last
instructions (when it lights at once and is off by the end of the next read). -/
theorem C112_off_after_read (c : UICfg) (u : UI) (i : UIIn) (h : i.p4 = false) : (u.read c i).2.led = false := by
  rw [read_eq, h]; rfl

/-- **C112.** Where the LED may be used from interrupts, a press of the boost button that starts a boost lights it at once. -/
theorem C112_lit_at_once (c : UICfg) (u : UI) (hi : c.isrLED = true) (hc : c.cycle = false) (hp : c.hasPot = false ∨ c.lo ≤ u.pot.value) :
    (u.press c).led = true ∧ (u.press c).ons = u.ons + 1 ∧ (u.press c).mode.inBake = true := by
  have h : ¬ (c.hasPot = true ∧ u.pot.value < c.lo) := by
    rintro ⟨h1, h2⟩
    rcases hp with h | h
    · rw [h] at h1; cases h1
    · exact absurd h2 (by omega)
  unfold UI.press
  rw [if_neg (by rw [hc]; decide), if_neg h]
  unfold UI.usedSig
  rw [if_pos hi]
  exact ⟨rfl, rfl, rfl⟩

/-- Switched on only if the controls were marked as used. -/
def Dim (u v : UI) : Prop := v.status = false → u.status = false ∧ v.ons = u.ons

theorem Dim.refl (u : UI) : Dim u u := fun h => ⟨h, rfl⟩
theorem Dim.trans {u v w : UI} (h1 : Dim u v) (h2 : Dim v w) : Dim u w := fun h => by
  obtain ⟨a, b⟩ := h2 h
  obtain ⟨c, d⟩ := h1 a
  exact ⟨c, by rw [b, d]⟩
theorem Dim.of_status {u v : UI} (h : v.status = true) : Dim u v := fun h' => by simp [h] at h'
theorem Dim.of_eq {u v : UI} (h1 : v.status = u.status) (h2 : v.ons = u.ons) : Dim u v := fun h => ⟨by rw [← h1]; exact h, h2⟩

theorem pressIf_dim (c : UICfg) (b : Bool) (u : UI) : Dim u (u.pressIf c b) := by
  unfold UI.pressIf
  cases b
  · exact .refl u
  · exact .of_status (press_status c u)

theorem event_dim (c : UICfg) (u : UI) (e : PotEv) : Dim u (u.event c e) := by
  cases e with
  | warm b =>
    unfold UI.event UI.manualWarm
    dsimp only
    by_cases h : b ≠ u.mode.warm
    · rw [if_pos h]; exact .of_status rfl
    · rw [if_neg h]; exact .of_eq rfl rfl
  | bake b =>
    unfold UI.event UI.manualBake
    dsimp only
    by_cases h : u.mode.inBake ≠ b
    · rw [if_pos h]; exact .of_status rfl
    · rw [if_neg h]; exact .of_eq rfl rfl
  | occupied => exact .of_eq rfl rfl

theorem events_dim (c : UICfg) (l : List PotEv) : ∀ u : UI, Dim u (l.foldl (UI.event c) u) := by
  induction l with
  | nil => exact fun u => .refl u
  | cons e t ih => exact fun u => (event_dim c u e).trans (ih _)

theorem dial_dim (c : UICfg) (u : UI) (adc : Nat) : Dim u (u.dial c adc) := by
  unfold UI.dial
  dsimp only
  generalize hv : (u.pot.read c.lo c.hi adc).2.foldl (UI.event c) { u with pot := (u.pot.read c.lo c.hi adc).1 } = v
  have h1 : Dim u v := by
    rw [← hv]
    exact Dim.trans (v := { u with pot := (u.pot.read c.lo c.hi adc).1 }) (.of_eq rfl rfl) (events_dim c _ _)
  refine h1.trans ?_
  refine Dim.of_eq ?_ ?_ <;> (repeat' split) <;> rfl

theorem uiB_dim (c : UICfg) (u : UI) (i : UIIn) : Dim u (uiB c u i) := by
  have hA : Dim u (uiA c u i) := by
    unfold uiA
    dsimp only
    refine Dim.trans (v := u.begin_) (.of_eq rfl rfl) ((pressIf_dim c i.p1 _).trans ?_)
    split
    · exact dial_dim c _ _
    · exact .refl _
  refine hA.trans ?_
  unfold uiB
  dsimp only
  refine (pressIf_dim c i.p2 _).trans ?_
  split
  · exact .of_status (feedback_status _ _)
  · exact .refl _

theorem show_ons (u : UI) (i : UIIn) (forth : Bool) (h1 : u.status = false)
    (h2 : i.dark = true ∨ (forth = false ∧ i.calling = false ∧ u.mode.inBake = false) ∨ (u.mode.warm = false ∧ i.calling = false)) :
    (u.show_ i forth false).ons = u.ons := by
  have hib : u.mode.warm = false → u.mode.inBake = false := by intro h; simp [VMode.inBake, h]
  unfold UI.show_
  simp only [h1, Bool.or_false, Bool.false_or]
  rcases h2 with h | ⟨h3, h4, h5⟩ | ⟨h3, h4⟩
  · simp [h]
  · simp [h3, h4, h5]
  · simp [h3, h4]

/-- **C112 (in the dark, and at rest).** In a read that reports no use of the controls, when they were not used in the
last couple of minutes, and with no interrupt in the last instructions, the LED is never switched on in a dark room;
nor, in any room, when the valve is in FROST mode and not calling for heat; nor in a read that is not a fourth one,
when the valve is neither calling for heat nor in BAKE. -/
theorem C112_stays_dark (c : UICfg) (u : UI) (i : UIIn) (hr : (u.read c i).1 = false) (h4 : i.p4 = false) (ht : u.tmo ≤ 28)
    (hd : i.dark = true ∨ ((u.read c i).2.mode.get = 0 ∧ i.calling = false) ∨
      ((u.tick + 1) % 4 ≠ 0 ∧ i.calling = false ∧ (u.read c i).2.mode.get ≠ 2)) :
    (u.read c i).2.ons = u.ons := by
  have hD : (uiD c u i).status = false := hr
  have kC := uiD_kept c u i hD
  have e3 : i.p3 = false := by
    cases h : i.p3
    · rfl
    · have : (uiD c u i).status = true := by
        unfold uiD UI.pressIf
        rw [h]
        exact press_status c (uiC c u i)
      rw [hD] at this; simp at this
  have hDC : uiD c u i = (uiC c u i).off := by unfold uiD UI.pressIf; rw [e3]; rfl
  have kB := uiC_kept c u i kC.1
  have kA := uiB_dim c u i kB.1
  have hpoll : (uiB c u i).poll c i = (false, uiB c u i) := by
    unfold UI.poll
    by_cases hc : c.cycle = true
    · rw [if_neg (by simp [hc])]
      by_cases hb : i.button = true
      · exfalso
        obtain ⟨r1, _⟩ := poll_held c (uiB c u i) i hc hb
        have hs : ((uiB c u i).poll c i).2.status = true := by
          unfold UI.poll
          rw [if_neg (by simp [hc]), if_pos hb]
          dsimp only
          (repeat' split) <;> rfl
        have : (uiC c u i).status = true := by unfold uiC; dsimp only; rw [if_pos r1, hs]
        rw [kC.1] at this; simp at this
      · rw [if_neg hb]
        by_cases hw : (uiB c u i).wasPressed = true
        · exfalso
          have hs : ((uiB c u i).poll c i).2.status = true := by
            unfold UI.poll
            rw [if_neg (by simp [hc]), if_neg hb, if_pos hw]; rfl
          have : (uiC c u i).status = true := by
            unfold uiC; dsimp only
            split
            · exact hs
            · rw [(show_was _ _ _ _).2]; exact hs
          rw [kC.1] at this; simp at this
        · rw [if_neg hw]
    · rw [if_pos hc]
  have hnr : u.begin_.veryRecent = false := by
    have : u.begin_.tmo < 29 := by unfold UI.begin_; dsimp only; split <;> omega
    exact decide_eq_false (by omega)
  have hCe : uiC c u i = (uiB c u i).show_ i (decide (u.begin_.tick % 4 = 0)) false := by
    unfold uiC; dsimp only; rw [hpoll, hnr]; rfl
  have hmode : (u.read c i).2.mode = (uiB c u i).mode := by
    rw [read_eq, h4, hDC]
    show (uiC c u i).mode = _
    rw [hCe, (show_pot _ _ _ _).2]
  rw [hmode] at hd
  have hons : (uiC c u i).ons = (uiB c u i).ons := by
    rw [hCe]
    refine show_ons _ i _ kB.1 ?_
    rcases hd with h | ⟨h, h'⟩ | ⟨h1, h2, h3⟩
    · exact Or.inl h
    · right; right
      refine ⟨?_, h'⟩
      unfold VMode.get at h
      cases hw : (uiB c u i).mode.warm
      · rfl
      · rw [hw] at h; simp at h; split at h <;> simp at h
    · right; left
      refine ⟨decide_eq_false (by simp only [UI.begin_]; omega), h2, ?_⟩
      unfold VMode.get at h3
      unfold VMode.inBake
      cases hw : (uiB c u i).mode.warm
      · rfl
      · by_cases hb : (uiB c u i).mode.bakeM = 0
        · simp [hb]
        · simp [hw, hb] at h3
  rw [read_eq, h4, hDC]
  show (uiC c u i).ons = u.ons
  rw [hons, kA.2]

/-! ## C113: the user is not missed, and is told once -/

theorem read_true_of (c : UICfg) (u : UI) (i : UIIn) (h : ¬ (uiD c u i).status = false) : (u.read c i).1 = true := by
  rw [read_eq]; simpa using h

/-- **C113.** A press of the button between reads, whatever else happens before the next read, makes that read report that
the user did something. -/
theorem C113_press_reported (c : UICfg) (u : UI) (evs : List UIEv) (hne : ∀ x ∈ evs, ∀ j, x ≠ UIEv.read j)
    (hp : UIEv.press ∈ evs) (i : UIIn) : ((evs.foldl (UI.step c) u).read c i).1 = true := by
  have hs : ∀ l : List UIEv, (∀ x ∈ l, ∀ j, x ≠ UIEv.read j) → ∀ u : UI, (u.status = true ∨ UIEv.press ∈ l) →
      (l.foldl (UI.step c) u).status = true := by
    intro l
    induction l with
    | nil => intro _ u h; simpa using h
    | cons e t ih =>
      intro hn u h
      rw [List.foldl_cons]
      apply ih (fun x hx => hn x (by simp [hx]))
      cases e with
      | read j => exact absurd rfl (hn _ (by simp) j)
      | press => exact Or.inl (press_status c u)
      | _ =>
        rcases h with h | h
        · exact Or.inl h
        · simp at h; exact Or.inr h
  have h1 := hs evs hne u (Or.inr hp)
  apply read_true_of
  intro h
  have := (read_kept c _ i h).1
  have e : (evs.foldl (UI.step c) u).begin_.status = (evs.foldl (UI.step c) u).status := rfl
  rw [e, h1] at this
  simp at this

/-- **C113 (during a read).** The same for a press that comes during a read, before the value to return is fetched. -/
theorem C113_press_during_read (c : UICfg) (u : UI) (i : UIIn) (hp : i.p1 = true ∨ i.p2 = true ∨ i.p3 = true) :
    (u.read c i).1 = true := by
  apply read_true_of
  intro h
  have hC := (uiD_kept c u i h).1
  have hB := (uiC_kept c u i hC).1
  rcases hp with hp | hp | hp
  · have hA := (uiB_kept c u i hB).1
    have h1 : (u.begin_.pressIf c i.p1).status = true := by rw [hp]; exact press_status c _
    have : Kept (u.begin_.pressIf c i.p1) (uiA c u i) := by
      unfold uiA
      dsimp only
      split
      · exact dial_kept c _ _
      · exact .refl _
    have := (this hA).1
    rw [h1] at this; simp at this
  · have h1 : ((uiA c u i).pressIf c i.p2).status = true := by rw [hp]; exact press_status c _
    have : (uiB c u i).status = true := by
      unfold uiB; dsimp only
      split
      · exact feedback_status _ _
      · exact h1
    rw [hB] at this; simp at this
  · have h1 : (uiD c u i).status = true := by unfold uiD; rw [hp]; exact press_status c _
    rw [h] at h1; simp at h1

/-- **C113 (the last instructions).** A press that comes after the value to return has been fetched and before the flag
behind it is cleared is reported by the next read, provided that it started a BAKE. -/
theorem C113_press_at_end (c : UICfg) (u : UI) (i j : UIIn) (hp : i.p4 = true) (hc : c.cycle = false)
    (hb : ¬ (c.hasPot = true ∧ (u.read c i).2.pot.value < c.lo)) : ((u.read c i).2.read c j).1 = true := by
  have hpot : (u.read c i).2.pot = (uiD c u i).pot := by rw [read_eq]; exact pressIf_pot _ _ _
  rw [hpot] at hb
  have hsig : (u.read c i).2.sig = true := by
    rw [read_eq, hp]
    show ((uiD c u i).press c).sig = true
    unfold UI.press
    rw [if_neg (by simp [hc]), if_neg hb]
    rfl
  generalize (u.read c i).2 = v at hsig
  have hsA : (uiA c v j).sig = true := by
    have h1 : (v.begin_.pressIf c j.p1).sig = true := by
      unfold UI.pressIf UI.press UI.usedSig UI.used
      (repeat' split) <;> first | exact hsig | rfl
    have hd : ∀ w : UI, w.sig = true → (w.dial c j.adc).sig = true := by
      intro w hw
      have he : ∀ (l : List PotEv) (w : UI), w.sig = true → (l.foldl (UI.event c) w).sig = true := by
        intro l
        induction l with
        | nil => exact fun w h => h
        | cons e t ih =>
          intro w h
          rw [List.foldl_cons]
          apply ih
          cases e <;> unfold UI.event
          · unfold UI.manualWarm UI.usedSig UI.used; dsimp only; (repeat' split) <;> first | exact h | rfl
          · unfold UI.manualBake UI.usedSig UI.used; dsimp only; (repeat' split) <;> first | exact h | rfl
          · exact h
      unfold UI.dial
      dsimp only
      have := he (w.pot.read c.lo c.hi j.adc).2 { w with pot := (w.pot.read c.lo c.hi j.adc).1 } hw
      (repeat' split) <;> first | exact this | rfl
    unfold uiA
    dsimp only
    split
    · exact hd _ h1
    · exact h1
  have hsB : (uiB c v j).status = true := by
    have h1 : ((uiA c v j).pressIf c j.p2).sig = true := by
      unfold UI.pressIf UI.press UI.usedSig UI.used
      (repeat' split) <;> first | exact hsA | rfl
    unfold uiB
    dsimp only
    rw [if_pos h1]
    exact feedback_status _ _
  apply read_true_of
  intro h
  have := (uiC_kept c v j (uiD_kept c v j h).1).1
  rw [hsB] at this; simp at this

/-- **C113 (refuted as it stands).** "Every press is reported by the read it falls in or by the next one" is false: with
the dial at its frost end stop, a press in the last instructions of a read is reported by neither. -/
theorem C113_refuted_lost_press :
    ∃ (c : UICfg) (u : UI) (i j : UIIn), c.hasPot = true ∧ i.p4 = true ∧ (u.read c i).1 = false ∧
      ((u.read c i).2.read c j).1 = false :=
  ⟨⟨true, 8, 247, fun v => v, 16, 24, true, false⟩, { nominal := 15 }, { p4 := true }, {}, by decide, by decide, by decide,
    by decide⟩
end OTR.Props
