import Verif.Props.UIDial
import Verif.Props.Target
import Verif.Props.Schedule
import Verif.Props.Occupancy
/-!
# Property C254: what the user does with the dial or the button decides the target temperature at once
-/

namespace OTR.Props
open OTR

/-- What the target computation sees just after the controls `u` have been read: their mode, occupancy and dial setting
and whether they have been used lately; everything else (schedule, light, statistics, lockout, frost temperature) as in `x`. -/
def controls (c : UICfg) (u : UI) (x : TTIn) : TTIn :=
  { x with mode := u.mode, vacancyH := u.occ.getVacancyH, likelyOccupied := u.occ.isLikelyOccupied, recentUI := u.recent,
           warmC := c.warmOf u.pot.value }

/-- Just marked as occupied. -/
def JustOcc (u : UI) : Prop := u.occ.value = 100 ∧ u.occ.occ = 50

theorem used_occ (u : UI) : JustOcc u.used := ⟨rfl, rfl⟩

theorem usedSig_occ (c : UICfg) (u : UI) : JustOcc (u.usedSig c) ∧ (u.usedSig c).tmo = 31 := ⟨⟨rfl, rfl⟩, rfl⟩

theorem pressIf_occ (c : UICfg) (b : Bool) (u : UI) : (JustOcc u → JustOcc (u.pressIf c b)) ∧ (u.tmo = 31 → (u.pressIf c b).tmo = 31) := by
  unfold UI.pressIf UI.press
  (repeat' split) <;> refine ⟨fun h => ?_, fun h => ?_⟩ <;> first | exact h | exact ⟨rfl, rfl⟩ | rfl

theorem feedback_occ (u : UI) (i : UIIn) : JustOcc (u.feedback i) ∧ (u.feedback i).tmo = 31 := by
  unfold UI.feedback; dsimp only; split <;> exact ⟨⟨rfl, rfl⟩, rfl⟩

theorem poll_occ (c : UICfg) (u : UI) (i : UIIn) : (JustOcc u → JustOcc (u.poll c i).2) ∧ (u.tmo = 31 → (u.poll c i).2.tmo = 31) := by
  unfold UI.poll
  dsimp only
  (repeat' split) <;> refine ⟨fun h => ?_, fun h => ?_⟩ <;> first | exact h | exact ⟨rfl, rfl⟩ | rfl

theorem show_occ (u : UI) (i : UIIn) (a b : Bool) : (u.show_ i a b).occ = u.occ ∧ (u.show_ i a b).tmo = u.tmo := by
  unfold UI.show_
  dsimp only
  constructor <;> (repeat' split) <;> rfl

/-- Once marked while the dial was looked at, still so at the end of the read. -/
theorem read_occ (c : UICfg) (u : UI) (i : UIIn) :
    (JustOcc (uiA c u i) → JustOcc (u.read c i).2) ∧ ((uiA c u i).tmo = 31 → (u.read c i).2.tmo = 31) := by
  have hB : (JustOcc (uiA c u i) → JustOcc (uiB c u i)) ∧ ((uiA c u i).tmo = 31 → (uiB c u i).tmo = 31) := by
    unfold uiB
    dsimp only
    split
    · exact ⟨fun _ => (feedback_occ _ _).1, fun _ => (feedback_occ _ _).2⟩
    · exact pressIf_occ c _ _
  have hC : (JustOcc (uiB c u i) → JustOcc (uiC c u i)) ∧ ((uiB c u i).tmo = 31 → (uiC c u i).tmo = 31) := by
    have hp := poll_occ c (uiB c u i) i
    unfold uiC
    dsimp only
    split
    · exact hp
    · have hs := show_occ ((uiB c u i).poll c i).2 i (decide (u.begin_.tick % 4 = 0)) u.begin_.veryRecent
      refine ⟨fun h => ?_, fun h => by rw [hs.2]; exact hp.2 h⟩
      have := hp.1 h
      unfold JustOcc at this ⊢
      rw [hs.1]; exact this
  have h3 := pressIf_occ c i.p3 (uiC c u i)
  have h4 := pressIf_occ c i.p4 (uiD c u i)
  rw [read_eq]
  exact ⟨fun h => h4.1 (h3.1 (hC.1 (hB.1 h))), fun h => h4.2 (h3.2 (hC.2 (hB.2 h)))⟩

theorem dial_occ (c : UICfg) (u : UI) (adc : Nat) :
    (u.dial c adc).occ = ((u.pot.read c.lo c.hi adc).2.foldl (UI.event c) { u with pot := (u.pot.read c.lo c.hi adc).1 }).occ ∧
    (u.dial c adc).tmo = ((u.pot.read c.lo c.hi adc).2.foldl (UI.event c) { u with pot := (u.pot.read c.lo c.hi adc).1 }).tmo := by
  unfold UI.dial
  dsimp only
  constructor <;> (repeat' split) <;> rfl

/-- Does this read look at the dial? (See C110.) -/
def Looks (u : UI) : Prop := (u.tick + 1) % 4 = 0 ∨ u.tmo ≥ 30 ∨ (u.mode.warm = true ∧ u.occ.getVacancyH ≤ 39)

theorem uiA_looks (c : UICfg) (u : UI) (i : UIIn) (hp : c.hasPot = true) (hn : NoPress i) (hs : Looks u) :
    uiA c u i = u.begin_.dial c i.adc := by
  have hcond : (c.hasPot && (u.begin_.veryRecent || decide (u.begin_.tick % 4 = 0) ||
      ((u.begin_.pressIf c i.p1).mode.warm && !(u.begin_.pressIf c i.p1).longLongVacant))) = true := by
    rw [hn.1, pressIf_false]
    rcases hs with h | h | ⟨h1, h2⟩
    · have : u.begin_.tick % 4 = 0 := by simp only [UI.begin_]; omega
      simp [hp, this]
    · have h29 : u.begin_.tmo ≥ 29 := by unfold UI.begin_; dsimp only; split <;> omega
      have : u.begin_.veryRecent = true := decide_eq_true h29
      simp [hp, this]
    · have a : u.begin_.mode.warm = true := h1
      have b : u.begin_.longLongVacant = false := by
        have h2' : u.begin_.occ.getVacancyH ≤ 39 := h2
        simp only [UI.longLongVacant, decide_eq_false_iff_not]; omega
      simp [hp, a, b]
  unfold uiA
  dsimp only
  rw [if_pos hcond, hn.1, pressIf_false]

/-- A turn of the dial marks the room as occupied; and one into the frost end zone from WARM counts as use of the controls. -/
theorem turned_occ (c : UICfg) (u : UI) (i : UIIn) (hp : c.hasPot = true) (hn : NoPress i) (hs : Looks u)
    (hr : u.pot.raw ≠ 65535) (hne : (u.read c i).2.pot.value ≠ u.pot.value) :
    JustOcc (u.read c i).2 ∧
    ((u.read c i).2.pot.value < c.lo → u.mode.warm = true → (u.read c i).2.recent = true) := by
  have eA := uiA_looks c u i hp hn hs
  have ep : (u.read c i).2.pot = (u.pot.read c.lo c.hi i.adc).1 := by rw [read_pot, eA, dial_pot]; rfl
  rw [ep] at hne ⊢
  have hd := dial_occ c u.begin_ i.adc
  have e0 : u.begin_.pot = u.pot := rfl
  have e1 : u.begin_.mode = u.mode := rfl
  have hR := read_occ c u i
  rw [eA] at hR
  rw [e0] at hd
  generalize u.begin_ = ub at *
  generalize hv : ub.dial c i.adc = v at *
  unfold Pot.read at hne hd ⊢
  dsimp only at hne hd ⊢
  by_cases hmv : (i.adc / 4 % 256 > u.pot.value ∧ (i.adc + 65536 - u.pot.raw) % 65536 ≥ 4) ∨
      (i.adc / 4 % 256 < u.pot.value ∧ (u.pot.raw + 65536 - i.adc) % 65536 ≥ 4)
  · rw [if_pos hmv] at hd ⊢
    dsimp only at hd ⊢
    rw [if_pos hr, List.foldl_append] at hd
    constructor
    · apply hR.1
      unfold JustOcc
      rw [hd.1]
      exact ⟨rfl, rfl⟩
    · intro hlo hw
      have : v.tmo = 31 := by
        rw [hd.2, if_pos hlo]
        show (UI.manualWarm c _ false).tmo = 31
        unfold UI.manualWarm
        dsimp only
        rw [if_pos (by rw [e1, hw]; decide)]
        rfl
      unfold UI.recent
      rw [hR.2 this]; rfl
  · rw [if_neg hmv] at hne
    exact absurd rfl hne

/-- The target in WARM mode, not baking, with the room just marked as occupied. -/
theorem occ_target (p : VCP) (c : UICfg) (u : UI) (x : TTIn) (h : JustOcc u) (hw : u.mode.warm = true) (hb : u.mode.bakeM = 0) :
    computeTarget p (controls c u x) = c.warmOf u.pot.value := by
  have h1 : u.occ.getVacancyH = 0 := by unfold Occ.getVacancyH; rw [h.1]; rfl
  have h2 : u.occ.isLikelyOccupied = true := by unfold Occ.isLikelyOccupied; rw [h.2]; rfl
  unfold computeTarget controls
  simp [VMode.inBake, hw, hb, h1, h2, TTIn.longVacant, TTIn.confVacant]

theorem bake_target (p : VCP) (c : UICfg) (u : UI) (x : TTIn) (h : u.mode.get = 2) :
    computeTarget p (controls c u x) = min ((c.warmOf u.pot.value + p.bakeUplift) % 256) maxTargetC := by
  have hb : u.mode.inBake = true := (C54_bake_implies_warm u.mode).2.1.1 h
  have hw := (C54_bake_implies_warm u.mode).1 hb
  unfold computeTarget controls
  simp [hw, hb]

/-- **C254, turning the dial.** When a read that looks at the dial finds it turned (no button involved, not the first time the
dial is read), the target temperature computed straight after is, whatever the schedule, the light, the statistics and how
long the room has been vacant:
up, within the normal range and not baking: exactly the temperature the dial now shows, with no setback;
into the top end zone: that temperature with the BAKE uplift (limited to the maximum);
down, within the normal range, in WARM or BAKE: exactly the temperature the dial now shows;
down into the frost end zone, from WARM or BAKE: exactly the frost temperature, even if a schedule comes on soon. -/
theorem C254_dial (p : VCP) (c : UICfg) (u : UI) (i : UIIn) (x : TTIn) (hp : c.hasPot = true) (hc : NoCycle c u i) (hn : NoPress i)
    (hs : (u.tick + 1) % 4 = 0 ∨ u.tmo ≥ 30 ∨ (u.mode.warm = true ∧ u.occ.getVacancyH ≤ 39))
    (h1 : u.nominal ≠ 0) (hr : u.pot.raw ≠ 65535) :
    let old := u.pot.value
    let new := (u.read c i).2.pot.value
    let target := computeTarget p (controls c (u.read c i).2 x)
    (old < new → c.lo ≤ new → new ≤ c.hi → u.mode.bakeM = 0 → target = c.warmOf new) ∧
    (old ≠ new → c.lo ≤ new → c.hi < new → target = min ((c.warmOf new + p.bakeUplift) % 256) maxTargetC) ∧
    (new < old → c.lo ≤ new → new ≤ c.hi → u.mode.warm = true → target = c.warmOf new) ∧
    (new < old → new < c.lo → u.mode.warm = true → target = x.frostC) := by
  intro old new target
  refine ⟨fun h hlo hhi hb => ?_, fun h hlo hhi => ?_, fun h hlo hhi hw => ?_, fun h hlo hw => ?_⟩
  · have hm := (C253_dial_turned c u i hp hc hn hs h1 hr hlo).2.1 h
    exact occ_target p c _ x (turned_occ c u i hp hn hs hr (by omega)).1 hm.1 ((hm.2 hhi).trans hb)
  · have hm := (C253_dial_turned c u i hp hc hn hs h1 hr hlo).1 (Ne.symm h) hhi
    exact bake_target p c _ x hm.1
  · have hm := (C253_dial_turned c u i hp hc hn hs h1 hr hlo).2.2.1 h hhi
    have hw' : (u.read c i).2.mode.warm = true := hm.2.trans hw
    refine occ_target p c _ x (turned_occ c u i hp hn hs hr (by omega)).1 hw' ?_
    have := hm.1
    unfold VMode.get at this
    rw [hw'] at this
    by_cases hz : (u.read c i).2.mode.bakeM = 0
    · exact hz
    · exact absurd (by simp [hz]) this
  · have ho := (turned_occ c u i hp hn hs hr (by omega)).2 hlo hw
    have hwf : (u.read c i).2.mode.warm = false := by
      rw [read_mode c u i hc hn, uiA_looks c u i hp hn hs]
      apply dial_frost
      rw [← uiA_looks c u i hp hn hs, ← read_pot]
      exact hlo
    show computeTarget p (controls c (u.read c i).2 x) = _
    unfold computeTarget controls
    simp [hwf, ho]

/-- **C254, pressing the button** (the kind that starts BAKE; dial, if any, not in its frost end zone): the target computed
straight after is the WARM temperature with the BAKE uplift, limited to the maximum, whatever the mode was before and whatever
the schedule, light, statistics and vacancy. In the frost end zone the press changes nothing but is counted as use. -/
theorem C254_button (p : VCP) (c : UICfg) (u : UI) (x : TTIn) (hc : c.cycle = false) :
    (c.hasPot = false ∨ c.lo ≤ u.pot.value →
      computeTarget p (controls c (u.press c) x) = min ((c.warmOf u.pot.value + p.bakeUplift) % 256) maxTargetC) ∧
    (c.hasPot = true → u.pot.value < c.lo → u.mode.warm = false →
      computeTarget p (controls c (u.press c) x) = x.frostC) := by
  constructor
  · intro h
    have hcond : ¬ (c.hasPot = true ∧ u.pot.value < c.lo) := by
      rcases h with h | h
      · rw [h]; simp
      · omega
    have e : u.press c = UI.usedSig c { u with mode := u.mode.startBake } := by
      unfold UI.press; rw [if_neg (by rw [hc]; simp), if_neg hcond]
    have hp : (u.press c).pot = u.pot := by rw [e]; unfold UI.usedSig UI.used UI.on; split <;> rfl
    have hm : (u.press c).mode = u.mode.startBake := by rw [e, usedSig_mode]
    rw [bake_target p c (u.press c) x (by rw [hm]; simp [VMode.startBake, VMode.get]), hp]
  · intro hp hlo hw
    have e : u.press c = u.used := by
      unfold UI.press; rw [if_neg (by rw [hc]; simp), if_pos ⟨hp, hlo⟩]
    rw [e]
    have a : u.used.mode.warm = false := hw
    have b : u.used.recent = true := rfl
    unfold computeTarget controls
    simp [a, b]

/-- In a room long vacant with a schedule off and dark, turned up a little from the top of FROST: the hypotheses hold. -/
example : let u : UI := { nominal := 16, tick := 3, mode := VMode.init, pot := ⟨100, 25⟩, occ := { Occ.init with vacH := 60 } }
    let i : UIIn := { adc := 400 }
    let x : TTIn := ⟨VMode.init, 6, 0, 0, false, false, false, false, false, 700, 0, 0⟩
    NoPress i ∧ u.pot.value < (u.read uiDial i).2.pot.value ∧ (u.read uiDial i).2.pot.value ≤ uiDial.hi ∧ u.mode.bakeM = 0 ∧
      computeTarget vcpDefault (controls uiDial (u.read uiDial i).2 x) = 19 ∧
      computeTarget vcpDefault (controls uiDial u x) = 6 := by
  unfold NoPress
  decide +kernel

/-! ### It lasts -/

/-- In WARM, not baking, dial at `v`, and the occupancy has at least `n` minutes to go. -/
structure DialHeld (c : UICfg) (v n : Nat) (u : UI) : Prop where
  warm : u.mode.warm = true
  bake : u.mode.bakeM = 0
  pot : u.pot.value = v
  lo : c.lo ≤ v
  occ : n ≤ u.occ.occ
  le : u.occ.occ ≤ 50
  val : u.occ.value ≠ 0

theorem DialHeld.used {c : UICfg} {v n : Nat} {u : UI} (h : DialHeld c v n u) (hn : n ≤ 50) : DialHeld c v n u.used :=
  ⟨h.warm, h.bake, h.pot, h.lo, hn, Nat.le_refl _, by show (100 : Nat) ≠ 0; decide⟩

theorem DialHeld.dial {c : UICfg} {v n : Nat} {u : UI} (h : DialHeld c v n u) (adc : Nat) (ha : adc / 4 % 256 = v) : DialHeld c v n (u.dial c adc) := by
  have e : u.pot.read c.lo c.hi adc = ({ u.pot with raw := adc }, []) := by
    unfold Pot.read
    dsimp only
    rw [if_neg (by rw [ha, h.pot]; omega)]
  have hw : DialHeld c v n ((u.pot.read c.lo c.hi adc).2.foldl (UI.event c) { u with pot := (u.pot.read c.lo c.hi adc).1 }) := by
    rw [e]
    exact ⟨h.warm, h.bake, h.pot, h.lo, h.occ, h.le, h.val⟩
  unfold UI.dial
  dsimp only
  generalize (u.pot.read c.lo c.hi adc).2.foldl (UI.event c) { u with pot := (u.pot.read c.lo c.hi adc).1 } = w at hw ⊢
  have hlo : ¬ w.pot.value < c.lo := by rw [hw.pot]; have := hw.lo; omega
  have ev : (if w.pot.value < c.lo then { w with mode := w.mode.setWarm false } else w) = w := if_neg hlo
  rw [ev]
  split
  · split
    · exact ⟨hw.warm, hw.bake, hw.pot, hw.lo, hw.occ, hw.le, hw.val⟩
    · exact ⟨rfl, hw.bake, hw.pot, hw.lo, hw.occ, hw.le, hw.val⟩
  · exact hw

theorem DialHeld.read {c : UICfg} {v n : Nat} {u : UI} (h : DialHeld c v n u) (hn : n ≤ 50) (hc : c.cycle = false) (i : UIIn) (hp : NoPress i)
    (ha : i.adc / 4 % 256 = v) : DialHeld c v n (u.read c i).2 := by
  have h0 : DialHeld c v n u.begin_ := ⟨h.warm, h.bake, h.pot, h.lo, h.occ, h.le, h.val⟩
  have hA : DialHeld c v n (uiA c u i) := by
    unfold uiA
    dsimp only
    rw [hp.1, pressIf_false]
    split
    · exact h0.dial i.adc ha
    · exact h0
  have hB : DialHeld c v n (uiB c u i) := by
    unfold uiB
    dsimp only
    rw [hp.2.1, pressIf_false]
    split
    · unfold UI.feedback
      dsimp only
      have hu : DialHeld c v n (uiA c u i).on.used :=
        (show DialHeld c v n (uiA c u i).on from ⟨hA.warm, hA.bake, hA.pot, hA.lo, hA.occ, hA.le, hA.val⟩).used hn
      split <;> exact ⟨hu.warm, hu.bake, hu.pot, hu.lo, hu.occ, hu.le, hu.val⟩
    · exact hA
  have hC : DialHeld c v n (uiC c u i) := by
    have ep : (uiB c u i).poll c i = (false, uiB c u i) := by unfold UI.poll; rw [if_pos (by rw [hc]; simp)]
    unfold uiC
    dsimp only
    rw [ep]
    have h1 := show_occ (uiB c u i) i (decide (u.begin_.tick % 4 = 0)) u.begin_.veryRecent
    have h2 := show_pot (uiB c u i) i (decide (u.begin_.tick % 4 = 0)) u.begin_.veryRecent
    simp only [Bool.false_eq_true, if_false]
    exact ⟨by rw [h2.2]; exact hB.warm, by rw [h2.2]; exact hB.bake, by rw [h2.1]; exact hB.pot, hB.lo,
      by rw [h1.1]; exact hB.occ, by rw [h1.1]; exact hB.le, by rw [h1.1]; exact hB.val⟩
  rw [read_eq, hp.2.2.2, pressIf_false]
  unfold uiD
  rw [hp.2.2.1, pressIf_false]
  exact ⟨hC.warm, hC.bake, hC.pot, hC.lo, hC.occ, hC.le, hC.val⟩

/-- The dial left alone at position `v`: reads at that position without button presses, and minutes going by. -/
def LeftAlone (v : Nat) : UIEv → Prop
  | .read i => NoPress i ∧ i.adc / 4 % 256 = v
  | .minute => True
  | _ => False

/-- How many minutes go by. -/
def minutesIn : List UIEv → Nat
  | [] => 0
  | .minute :: t => minutesIn t + 1
  | _ :: t => minutesIn t

theorem dialHeld_run (c : UICfg) (v : Nat) (hc : c.cycle = false) (l : List UIEv) : ∀ (n : Nat) (u : UI), n ≤ 50 → DialHeld c v n u →
    (∀ e ∈ l, LeftAlone v e) → minutesIn l < n → DialHeld c v (n - minutesIn l) (l.foldl (UI.step c) u) := by
  induction l with
  | nil => intro n u _ h _ _; exact h
  | cons e t ih =>
    intro n u hn h hl hm
    have he := hl e (List.mem_cons_self ..)
    have ht := fun e' h' => hl e' (List.mem_cons_of_mem _ h')
    rw [List.foldl_cons]
    cases e with
    | read i => exact ih n _ hn (h.read hn hc i he.1 he.2) ht hm
    | press => exact absurd he id
    | setWarm w => exact absurd he id
    | startBake => exact absurd he id
    | minute =>
      simp only [minutesIn] at hm ⊢
      have hq := C71_read_quiet u.occ
      have ho := h.occ
      have hle := h.le
      have h' : DialHeld c v (n - 1) (UI.step c u .minute) :=
        ⟨h.warm, by show u.mode.bakeM - 1 = 0; rw [h.bake], h.pot, h.lo, by show n - 1 ≤ u.occ.read.occ; omega,
          by show u.occ.read.occ ≤ 50; omega, by show u.occ.read.value ≠ 0; rw [hq.2.2 h.le]; omega⟩
      have := ih (n - 1) _ (by omega) h' ht (by omega)
      rwa [show n - 1 - minutesIn t = n - (minutesIn t + 1) by omega] at this

/-- **C254, it lasts.** The dial having been turned up within the normal range as in `C254_dial`, and then left alone, the
target stays exactly what the dial shows for the next 49 minutes at least, whatever the schedule, light and statistics. -/
theorem C254_lasts (p : VCP) (c : UICfg) (u : UI) (i : UIIn) (x : TTIn) (hp : c.hasPot = true) (hc : c.cycle = false) (hn : NoPress i)
    (hs : (u.tick + 1) % 4 = 0 ∨ u.tmo ≥ 30 ∨ (u.mode.warm = true ∧ u.occ.getVacancyH ≤ 39))
    (h1 : u.nominal ≠ 0) (hr : u.pot.raw ≠ 65535)
    (hup : u.pot.value < (u.read c i).2.pot.value) (hlo : c.lo ≤ (u.read c i).2.pot.value) (hhi : (u.read c i).2.pot.value ≤ c.hi)
    (hb : u.mode.bakeM = 0) (l : List UIEv) (hl : ∀ e ∈ l, LeftAlone (u.read c i).2.pot.value e) (hm : minutesIn l ≤ 49) :
    computeTarget p (controls c (l.foldl (UI.step c) (u.read c i).2) x) = c.warmOf (u.read c i).2.pot.value := by
  have hmo := (C253_dial_turned c u i hp (Or.inl hc) hn hs h1 hr hlo).2.1 hup
  have ho := (turned_occ c u i hp hn hs hr (by omega)).1
  have h0 : DialHeld c (u.read c i).2.pot.value 50 (u.read c i).2 :=
    ⟨hmo.1, (hmo.2 hhi).trans hb, rfl, hlo, by rw [ho.2]; exact Nat.le_refl _, by rw [ho.2]; exact Nat.le_refl _, by rw [ho.1]; decide⟩
  have h := dialHeld_run c _ hc l 50 _ (Nat.le_refl _) h0 hl (by omega)
  generalize l.foldl (UI.step c) (u.read c i).2 = w at h
  have hw := h.occ
  have g1 : w.occ.getVacancyH = 0 := by unfold Occ.getVacancyH; rw [if_pos h.val]
  have g2 : w.occ.isLikelyOccupied = true := by
    unfold Occ.isLikelyOccupied
    simp only [bne_iff_ne, ne_eq]; omega
  unfold computeTarget controls
  simp [VMode.inBake, h.warm, h.bake, g1, g2, h.pot, TTIn.longVacant, TTIn.confVacant]

/-- The bound is reached: in the example below, after 49 minutes the target is still 19 °C, after 50 it is set back. -/
example : let u : UI := { nominal := 16, tick := 3, mode := VMode.init, pot := ⟨100, 25⟩, occ := { Occ.init with vacH := 60 } }
    let x : TTIn := ⟨VMode.init, 6, 0, 0, false, false, false, false, false, 700, 0, 0⟩
    let w := (u.read uiDial { adc := 400 }).2
    let l : List UIEv := [.read { adc := 402 }] ++ List.replicate 49 .minute
    (∀ e ∈ l, LeftAlone w.pot.value e) ∧ minutesIn l = 49 ∧
      computeTarget vcpDefault (controls uiDial (l.foldl (UI.step uiDial) w) x) = 19 ∧
      computeTarget vcpDefault (controls uiDial ((l ++ [UIEv.minute]).foldl (UI.step uiDial) w) x) < 19 := by
  refine ⟨?_, ?_, ?_, ?_⟩
  · intro e he
    rcases List.mem_append.1 he with h | h
    · rw [List.mem_singleton.1 h]
      exact ⟨⟨rfl, rfl, rfl, rfl⟩, by decide +kernel⟩
    · rw [List.eq_of_mem_replicate h]; trivial
  · decide +kernel
  · decide +kernel
  · decide +kernel

end OTR.Props
