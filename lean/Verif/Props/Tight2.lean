import Verif.Model.Messaging
import Verif.Props.AmbientLight
import Verif.Props.CLISet
/-!
# Properties C118, C120, C124 (sharper forms) and the privacy command

Added after seeded faults showed that the first statements did not pin down the size of the rise that counts as lights on,
the band of habitual lighting, the moment a full line ends and the range of a parameter value.
-/

namespace OTR.Props
open OTR

/-! ## C118: how big a rise, and which steady levels -/

/-- At some reading, made while the callback was installed, the light rose by at least the noise floor and by at least
half-way from the darkest usual level to the mean for that time of day (as then known), after being steady for three readings;
since then it has not fallen by the noise floor or more between two readings. -/
def BigOnSince : List LightOp → Prop
  | [] => False
  | .read v :: h =>
    if cbOn h = true then
      ((seen h).headD 254 + 4 ≤ v ∧ (seen h).headD 254 + needRise (lastTyp h).1 (lastTyp h).2.1 ≤ v ∧ 3 ≤ steadyRun (seen h)) ∨
      ((seen h).headD 254 < v + 4 ∧ BigOnSince h)
    else BigOnSince h
  | _ :: h => BigOnSince h

theorem update_big (d : LightDet) (v : Nat) (hp : (d.update v).1.pending = true ∨ (d.update v).2 = .probable) :
    (d.prev + 4 ≤ v ∧ d.prev + d.minRise ≤ v ∧ 3 ≤ d.steady) ∨ (d.prev < v + 4 ∧ d.pending = true) := by
  revert hp
  simp only [LightDet.update]
  (repeat' split) <;> simp <;> intros <;> first | omega | (right; constructor; omega; assumption) | skip

theorem minRise_spec (h : List LightOp) :
    (Light.after h).det.minRise = needRise (lastTyp h).1 (lastTyp h).2.1 := by
  rw [← after_typ h]
  rfl

theorem seen_headD (h : List LightOp) : (seen h).headD 254 = (Light.after h).det.prev := by
  have := seen_head h
  cases hs : seen h with
  | nil => rw [hs] at this; cases this
  | cons a t => rw [hs] at this; simpa using this

theorem steady_le (h : List LightOp) (n : Nat) (hn : n ≤ (Light.after h).det.steady) : n ≤ steadyRun (seen h) := by
  have := (after_det h).steady
  omega

theorem pending_big (h : List LightOp) (hp : (Light.after h).det.pending = true) : BigOnSince h := by
  induction h with
  | nil => cases hp
  | cons o h ih =>
    simp only [Light.after] at hp
    cases o with
    | read v =>
      rw [op_det_read, after_cb] at hp
      unfold BigOnSince
      by_cases hc : cbOn h = true
      · rw [if_pos hc]; rw [if_pos hc] at hp
        rw [seen_headD, ← minRise_spec]
        rcases update_big _ v (.inl hp) with ⟨a, b, c⟩ | ⟨a, b⟩
        · exact .inl ⟨a, b, steady_le h 3 c⟩
        · exact .inr ⟨a, ih b⟩
      · rw [if_neg hc]; rw [if_neg hc] at hp; exact ih hp
    | setTyp mean mn mx sens => rw [op_det_setTyp] at hp; exact ih hp
    | setCb b => exact ih hp

/-- **C118.** A strong occupancy signal is only ever given because of a rise that was large enough: at least half-way from the
darkest usual level to the usual mean (or 8 if unknown). -/
theorem C118_rise_large_enough (h : List LightOp) (v : Nat) (hs : ((Light.after h).op (.read v)).2 = some true) :
    BigOnSince (.read v :: h) := by
  rw [read_callback, after_cb] at hs
  by_cases hc : cbOn h = true
  · rw [if_pos hc] at hs
    have hp : ((Light.after h).det.update v).2 = .probable := by
      revert hs; split
      · intro; assumption
      · split <;> simp
    unfold BigOnSince
    rw [if_pos hc, seen_headD, ← minRise_spec]
    rcases update_big _ v (.inr hp) with ⟨a, b, c⟩ | ⟨a, b⟩
    · exact .inl ⟨a, b, steady_le h 3 c⟩
    · exact .inr ⟨a, pending_big h b⟩
  · rw [if_neg hc] at hs; cases hs

/-- A concrete case: mean 100 and minimum 10 known, light steady at 20 then 66 (46 up, 45 needed): signalled. One less: not. -/
example :
    ((Light.after [.read 20, .read 20, .read 20, .read 20, .setTyp 100 10 200 false, .setCb true]).op (.read 66)).2 = some true ∧
    ((Light.after [.read 20, .read 20, .read 20, .read 20, .setTyp 100 10 200 false, .setCb true]).op (.read 64)).2 = none := by
  decide +kernel

/-- The brightest usual level. -/
def ceilOf (mx : Nat) : Nat := if mx = 255 then 251 else mx

/-- A level of habitual artificial lighting, given the usual mean, minimum and maximum: the mean is known and strictly between
the extremes, which are more than 8 apart; the level is above the darkest eighth and below the brighter half of the range; and
it is not further from the mean than half the distance of the mean to the nearer extreme. -/
def HabitualLevel (mean mn mx v : Nat) : Prop :=
  floorOf mn < mean ∧ mean < ceilOf mx ∧ floorOf mn + 8 < ceilOf mx ∧
  floorOf mn + (ceilOf mx - floorOf mn) / 2 / 4 < v ∧ v + (ceilOf mx - floorOf mn) / 2 < ceilOf mx ∧
  v ≤ mean + (min (mean - floorOf mn) (ceilOf mx - mean)) / 2 ∧ mean ≤ v + (min (mean - floorOf mn) (ceilOf mx - mean)) / 2

theorem update_weak (d : LightDet) (v : Nat) (hp : (d.update v).2 = .weak) :
    (d.prev + 4 ≤ v ∧ d.prev + d.minRise ≤ v ∧ d.prev ≤ d.minUse ∧ 255 ≤ d.steady) ∨
    (Near v d.prev ∧ 29 ≤ d.steady ∧ d.habitual v = true) := by
  revert hp
  simp only [LightDet.update]
  (repeat' split) <;> simp <;> intros
  · omega
  · left; omega
  · rename_i h1 h2
    right
    refine ⟨by unfold Near; omega, ?_, h2.2⟩
    have := h2.1
    simp only [satTick] at this
    split at this <;> omega
  · omega

theorem habitual_spec (d : LightDet) (v : Nat) (hh : d.habitual v = true) : HabitualLevel d.mean d.mn d.mx v := by
  have e1 : d.minUse = floorOf d.mn := rfl
  have e2 : d.maxUse = ceilOf d.mx := rfl
  unfold LightDet.habitual at hh
  rw [e1, e2] at hh
  split at hh
  · dsimp only at hh
    split at hh
    · simp only [Bool.and_eq_true, decide_eq_true_eq] at hh
      obtain ⟨⟨a, b⟩, c⟩ := hh
      unfold HabitualLevel
      generalize (min (d.mean - floorOf d.mn) (ceilOf d.mx - d.mean)) / 2 = q at *
      refine ⟨by omega, by omega, by omega, a, by omega, ?_, ?_⟩ <;> (split at c <;> omega)
    · cases hh
  · cases hh

/-- **C118.** A weak occupancy signal is only given for a sufficient rise from the darkest usual level after a long steady time,
or for light that has been steady for 30 readings at a habitual level. -/
theorem C118_weak_sound (h : List LightOp) (v : Nat) (hs : ((Light.after h).op (.read v)).2 = some false) :
    ((seen h).headD 254 + 4 ≤ v ∧ (seen h).headD 254 + needRise (lastTyp h).1 (lastTyp h).2.1 ≤ v ∧
      (seen h).headD 254 ≤ floorOf (lastTyp h).2.1 ∧ 255 ≤ steadyRun (seen h)) ∨
    (30 ≤ steadyRun (v :: seen h) ∧ HabitualLevel (lastTyp h).1 (lastTyp h).2.1 (lastTyp h).2.2 v) := by
  rw [read_callback, after_cb] at hs
  by_cases hc : cbOn h = true
  · rw [if_pos hc] at hs
    have hp : ((Light.after h).det.update v).2 = .weak := by
      revert hs; split
      · simp
      · split
        · rename_i h2; intro; exact h2.2
        · simp
    have ht := after_typ h
    rw [seen_headD, ← minRise_spec]
    rcases update_weak _ v hp with ⟨a, b, c, d⟩ | ⟨a, b, c⟩
    · left
      refine ⟨a, b, ?_, steady_le h 255 d⟩
      rw [← ht]; exact c
    · right
      refine ⟨?_, ?_⟩
      · rw [steadyRun_cons (after_det h).prev, if_pos a]
        have := steady_le h 29 b
        omega
      · have := habitual_spec _ v c
        rw [← ht]; exact this
  · rw [if_neg hc] at hs; cases hs

/-- A concrete case: thirty steady readings at 60 with usual range 10..200 and mean 60. -/
example : ((Light.after (List.replicate 31 (.read 60) ++ [.setTyp 60 10 200 false, .setCb true])).op (.read 60)).2 = some false ∧
    ((Light.after (List.replicate 31 (.read 150) ++ [.setTyp 160 10 200 false, .setCb true])).op (.read 150)).2 = none := by
  decide +kernel

/-! ## C120: a full line ends at once -/

theorem cliLoop_prefix (maxSCT cap : Nat) (s : List SerEv) : ∀ evs acc l, cliLoop maxSCT cap evs acc = some l →
    cliLoop maxSCT cap (evs ++ s) acc = some l := by
  intro evs
  induction evs with
  | nil =>
    intro acc l h
    rw [cliLoop] at h
    split at h
    · cases h
    · rename_i hc
      cases h
      cases s with
      | nil => rw [List.append_nil, cliLoop, if_neg hc]
      | cons e s => rw [List.nil_append]; cases e <;> rw [cliLoop, if_neg hc]
  | cons e evs ih =>
    intro acc l h
    rw [List.cons_append]
    cases e with
    | idle sct =>
      rw [cliLoop] at h ⊢
      split at h
      · rename_i hc
        rw [if_pos hc]
        split at h
        · rename_i h2; rw [if_pos h2]; exact h
        · rename_i h2; rw [if_neg h2]; exact ih _ _ h
      · rename_i hc; rw [if_neg hc]; exact h
    | ch c =>
      rw [cliLoop] at h ⊢
      split at h
      · rename_i hc
        rw [if_pos hc]
        split at h
        · rename_i h2; rw [if_pos h2]; exact h
        · rename_i h2
          rw [if_neg h2]
          split at h
          · rename_i h3; rw [if_pos h3]; exact ih _ _ h
          · rename_i h3
            rw [if_neg h3]
            split at h
            · rename_i h4
              rw [if_pos h4]
              split at h
              · rename_i h5; rw [if_pos h5]; exact ih _ _ h
              · rename_i h5; rw [if_neg h5]; exact ih _ _ h
            · rename_i h4; rw [if_neg h4]; exact ih _ _ h
      · rename_i hc; rw [if_neg hc]; exact h

theorem cliLoop_waiting (maxSCT cap : Nat) : ∀ evs acc, Quiet maxSCT evs → cliLoop maxSCT cap evs acc = none →
    (if acc = [] then (keptLine (typed evs)).length else acc.length + ((typed evs).filter printable).length) < cap := by
  intro evs
  induction evs with
  | nil =>
    intro acc _ h
    rw [cliLoop] at h
    split at h
    · split
      · rename_i hc hn; subst hn; simpa [typed, keptLine] using hc
      · simpa [typed]
    · cases h
  | cons e evs ih =>
    intro acc hq h
    have hq' : Quiet maxSCT evs := fun x hx => hq x (List.mem_cons_of_mem _ hx)
    have he := hq e List.mem_cons_self
    cases e with
    | idle sct =>
      dsimp only at he
      rw [cliLoop] at h
      split at h
      · rw [if_neg (by omega)] at h
        exact ih acc hq' h
      · cases h
    | ch c =>
      dsimp only at he
      rw [cliLoop] at h
      split at h
      · rw [if_neg (by simp [he.1, he.2])] at h
        split at h
        · rename_i h2
          have hp : printable c = false := by
            cases hp : printable c with
            | false => rfl
            | true => exact absurd h2 ((printable_iff c).1 hp)
          have := ih acc hq' h
          simpa [typed, keptLine, hp] using this
        · rename_i h2
          have hp := (printable_iff c).2 h2
          split at h
          · rename_i h3
            have hnil : acc = [] := List.length_eq_zero_iff.1 h3
            subst hnil
            split at h
            · rename_i h4
              have hs : starter c = false := by
                cases hs : starter c with
                | false => rfl
                | true => exact absurd h4 ((toUpper_starter c).2 hs)
              have := ih [] hq' h
              simpa [typed, keptLine, hp, hs] using this
            · rename_i h4
              have hs := (toUpper_starter c).1 h4
              have := ih _ hq' h
              simp at this
              simp [typed, keptLine, hp, hs]
              omega
          · rename_i h3
            have := ih _ hq' h
            have hne : acc ≠ [] := fun hn => h3 (by simp [hn])
            simp at this
            simp [typed, hp, hne]
            omega
      · cases h

/-- **C120.** As soon as the buffer is full the line is complete: nothing more need be typed, and the result is the
characters typed so far (from the command letter on). -/
theorem C120_full_buffer (minPoll maxSCT sct0 n : Nat) (hn : 2 ≤ n) (ht : sct0 + 1 + minPoll < maxSCT)
    (evs : List SerEv) (hq : Quiet maxSCT evs) (hf : n - 1 ≤ (keptLine (typed evs)).length) :
    readCommandLine minPoll maxSCT sct0 (some n) evs = some ((keptLine (typed evs)).take (n - 1)) := by
  have hx := C120_line_exact minPoll maxSCT sct0 n hn ht evs [] hq
  have hw := cliLoop_waiting maxSCT (n - 1) evs [] hq
  unfold readCommandLine at hx ⊢
  dsimp only at hx ⊢
  rw [if_neg (by omega), if_neg (by rw [if_neg (by omega)]; omega)] at hx ⊢
  cases hl : cliLoop maxSCT (n - 1) evs [] with
  | none => have := hw hl; simp at this; omega
  | some l => rw [cliLoop_prefix maxSCT (n - 1) [.ch 13] evs [] l hl] at hx; exact hx

/-- A concrete case: a buffer of three bytes is full after "t1". -/
example : readCommandLine 10 250 5 (some 3) [.ch 116, .ch 49] = some [84, 49] := by decide +kernel

/-! ## C124: values out of range -/

/-- **C124.** A value that is not in 0..255 (a decimal number up to 32767, or a negative one) changes nothing. -/
theorem C124_bad_value (buf : Bytes) (h0 : ∀ c ∈ buf, c ≠ 0) (w v : Bytes) (ws : List Bytes) (x : Nat)
    (hws : IsWords (buf.drop 2) (w :: v :: ws))
    (hv : (DecWord v x ∧ 255 < x ∧ x < 32768) ∨ (∃ u, v = 45 :: u ∧ DecWord u x ∧ 0 < x ∧ x < 32768)) (m : EE) :
    cliParam buf m = m := by
  have hst := strToks_words hws fun c hc => h0 c (List.mem_of_mem_drop hc)
  have hx : atoi16 v < 0 ∨ atoi16 v > 255 := by
    rcases hv with ⟨a, b, c⟩ | ⟨u, rfl, a, b, c⟩
    · right; rw [atoi16_dec a c]; omega
    · left
      have hd := atoiDigits_dec u 0 a.2.1
      rw [a.2.2] at hd
      have he : atoi16 (45 :: u) = (-((atoiDigits u 0 : Nat) : Int) + 32768) % 65536 - 32768 := rfl
      rw [he, hd]; omega
  unfold cliParam
  rw [hst]
  dsimp only
  rw [if_pos hx]
  split
  · split <;> rfl
  · rfl

/-- A concrete case: "G 3 -2" and "G 3 256". -/
example (m : EE) : cliParam "G 3 -2".toUTF8.toList m = m ∧ cliParam "G 3 256".toUTF8.toList m = m := by
  have t1 : strToks [] ("G 3 -2".toUTF8.toList.drop 2) = ["3".toUTF8.toList, "-2".toUTF8.toList] := by decide +kernel
  have t2 : strToks [] ("G 3 256".toUTF8.toList.drop 2) = ["3".toUTF8.toList, "256".toUTF8.toList] := by decide +kernel
  constructor <;> unfold cliParam
  · rw [if_pos (by decide +kernel), t1]; dsimp only; rw [if_neg (by decide +kernel), if_pos (by decide +kernel)]
  · rw [if_pos (by decide +kernel), t2]; dsimp only; rw [if_neg (by decide +kernel), if_pos (by decide +kernel)]

/-! ## The privacy command -/

/-- **C133.** "X n" with a decimal number up to 255 sets exactly the stats-transmission privacy level (EEPROM cell 28); a line
without a number changes nothing. -/
theorem C133_privacy (buf : Bytes) (h0 : ∀ c ∈ buf, c ≠ 0) (w : Bytes) (ws : List Bytes) (x : Nat) (hx : x ≤ 255)
    (hw : DecWord w x) (hws : IsWords (buf.drop 2) (w :: ws)) (m : EE) (a : Nat) :
    cliPrivacy buf m a = if a = 28 then u8 x else m a := by
  have hst := strToks_words hws fun c hc => h0 c (List.mem_of_mem_drop hc)
  have hlen : 3 ≤ buf.length := by
    have hne : buf.drop 2 ≠ [] := by
      intro he
      rw [he] at hst
      cases hst
    have : 0 < (buf.drop 2).length := List.length_pos_iff.2 hne
    rw [List.length_drop] at this
    omega
  have e1 : atoiU8 w = x := by rw [atoiU8_dec hw (by omega)]; omega
  unfold cliPrivacy
  rw [if_pos hlen, hst]
  dsimp only
  rw [post_update, e1]
  rfl

/-- **C133.** Whatever is typed, no other cell changes. -/
theorem C133_confined (buf : Bytes) (m : EE) (a : Nat) (ha : a ≠ 28) : cliPrivacy buf m a = m a := by
  unfold cliPrivacy
  split
  · cases strToks [] (buf.drop 2) with
    | nil => rfl
    | cons t ts => dsimp only; rw [post_update]; simp [EE.upd, ha]
  · rfl

/-- Each ID byte is printed as its ordinary upper-case hexadecimal numeral (without leading zero). -/
theorem C98_hex (b : Byte) : printHex b = (Nat.toDigits 16 b.toNat).map fun c => u8 c.toUpper.toNat := by
  revert b; apply forall_byte; decide +kernel

end OTR.Props
