import Verif.Model.TempControl
import Verif.Proof.EEPROM
/-!
# Properties C55, C56, C85: temperature settings and the dial
-/

namespace OTR.Props

/-! ## C55 -/

theorem consistent_aux (p : VCP) (h1 : 5 ≤ p.frost) (h2 : p.frost ≤ 95) (h3 : 5 ≤ p.scaleMin) (h4 : p.scaleMax ≤ 95)
    (h5 : p.warm ≤ 95) (m : EE) :
    5 ≤ eeGetFrost p m ∧ eeGetFrost p m ≤ eeGetWarm p m ∧ eeGetWarm p m ≤ 95 := by
  have hF : 5 ≤ eeGetFrost p m ∧ eeGetFrost p m ≤ 95 := by
    unfold eeGetFrost
    dsimp only
    split <;> omega
  refine ⟨hF.1, ?_⟩
  unfold eeGetWarm
  dsimp only
  split <;> omega

/-- **C55, reading.** For any stored bytes, and any reasonable parameters, the FROST target is at least 5 C and at most
the WARM target, which is at most 95 C. -/
theorem C55_consistent (a b c d l e f : Nat) (ha : a ≤ 93) (hb : b ≤ 93) (hd : d ≤ 94) (m : EE) :
    5 ≤ eeGetFrost (.mk' a b c d l e f) m ∧ eeGetFrost (.mk' a b c d l e f) m ≤ eeGetWarm (.mk' a b c d l e f) m ∧
    eeGetWarm (.mk' a b c d l e f) m ≤ 95 := by
  apply consistent_aux <;> simp only [VCP.mk'] <;> omega

example : eeGetFrost vcpDefault (fun _ => 0xff) = 6 ∧ eeGetWarm vcpDefault (fun _ => 0xff) = 18 := by decide +kernel
/-- Even if the bytes have become inverted. -/
example : eeGetFrost vcpDefault (fun a => if a = 14 then 20 else 17) = 20 ∧
    eeGetWarm vcpDefault (fun a => if a = 14 then 20 else 17) = 20 := by decide +kernel

theorem setFrost_ok (split : Bool) (p : VCP) (t : Byte) (m : EE) (h : (eeSetFrost split p t m).1 = true) :
    p.scaleMin ≤ t.toNat ∧ t.toNat ≤ p.scaleMax ∧ t.toNat ≤ eeGetWarm p m ∧
    EM.post (eeSetFrost split p t) m = m.upd 14 t := by
  unfold eeSetFrost emIf at h
  split at h
  · cases h
  · split at h
    · cases h
    · rename_i h1 h2
      refine ⟨by omega, by omega, by omega, ?_⟩
      unfold EM.post eeSetFrost emIf
      rw [if_neg h1, if_neg h2]
      simp only [emBind, emRet, List.append_nil, smartUpdate_eq]
      exact applyW_wr1 _ _ _

theorem setWarm_ok (split : Bool) (p : VCP) (t : Byte) (m : EE) (h : (eeSetWarm split p t m).1 = true) :
    p.scaleMin ≤ t.toNat ∧ t.toNat ≤ p.scaleMax ∧ eeGetFrost p m ≤ t.toNat ∧
    EM.post (eeSetWarm split p t) m = m.upd 15 t := by
  unfold eeSetWarm emIf at h
  split at h
  · cases h
  · split at h
    · cases h
    · rename_i h1 h2
      refine ⟨by omega, by omega, by omega, ?_⟩
      unfold EM.post eeSetWarm emIf
      rw [if_neg h1, if_neg h2]
      simp only [emBind, emRet, List.append_nil, smartUpdate_eq]
      exact applyW_wr1 _ _ _

/-- **C55, setting WARM.** It is accepted just when on the scale and not below FROST; then it reads back, FROST is as it
was, and no other cell changes; refused, nothing is written. -/
theorem C55_set_warm (split : Bool) (p : VCP) (t : Byte) (m : EE) :
    ((eeSetWarm split p t m).1 = true ↔ p.scaleMin ≤ t.toNat ∧ t.toNat ≤ p.scaleMax ∧ eeGetFrost p m ≤ t.toNat) ∧
    ((eeSetWarm split p t m).1 = true →
      eeGetWarm p (EM.post (eeSetWarm split p t) m) = t.toNat ∧
      eeGetFrost p (EM.post (eeSetWarm split p t) m) = eeGetFrost p m ∧
      ∀ a, a ≠ 15 → EM.post (eeSetWarm split p t) m a = m a) ∧
    ((eeSetWarm split p t m).1 = false → (eeSetWarm split p t m).2 = []) := by
  refine ⟨⟨fun h => ?_, fun ⟨h1, h2, h3⟩ => ?_⟩, fun h => ?_, fun h => ?_⟩
  · have := setWarm_ok split p t m h; exact ⟨this.1, this.2.1, this.2.2.1⟩
  · unfold eeSetWarm emIf; rw [if_neg (by omega), if_neg (by omega)]; rfl
  · obtain ⟨h1, h2, h3, h4⟩ := setWarm_ok split p t m h
    rw [h4]
    have hf : eeGetFrost p (m.upd 15 t) = eeGetFrost p m := by
      unfold eeGetFrost; rw [EE.upd_other _ _ (by decide)]
    refine ⟨?_, hf, fun a ha => EE.upd_other _ _ ha⟩
    unfold eeGetWarm
    rw [hf, EE.upd_same, if_neg (by omega)]; omega
  · unfold eeSetWarm emIf at *
    split
    · rfl
    · rename_i h1
      rw [if_neg h1] at h
      split
      · rfl
      · rename_i h2; rw [if_neg h2] at h; cases h

/-- **C55, setting FROST.** It is accepted just when on the scale and not above WARM; then it reads back, WARM is not
raised nor below it (and unchanged if FROST was raised), and no other cell changes; refused, nothing is written. -/
theorem C55_set_frost (split : Bool) (p : VCP) (t : Byte) (m : EE) :
    ((eeSetFrost split p t m).1 = true ↔ p.scaleMin ≤ t.toNat ∧ t.toNat ≤ p.scaleMax ∧ t.toNat ≤ eeGetWarm p m) ∧
    ((eeSetFrost split p t m).1 = true →
      eeGetFrost p (EM.post (eeSetFrost split p t) m) = t.toNat ∧
      eeGetWarm p (EM.post (eeSetFrost split p t) m) ≤ eeGetWarm p m ∧
      t.toNat ≤ eeGetWarm p (EM.post (eeSetFrost split p t) m) ∧
      (eeGetFrost p m ≤ t.toNat → eeGetWarm p (EM.post (eeSetFrost split p t) m) = eeGetWarm p m) ∧
      ∀ a, a ≠ 14 → EM.post (eeSetFrost split p t) m a = m a) ∧
    ((eeSetFrost split p t m).1 = false → (eeSetFrost split p t m).2 = []) := by
  refine ⟨⟨fun h => ?_, fun ⟨h1, h2, h3⟩ => ?_⟩, fun h => ?_, fun h => ?_⟩
  · have := setFrost_ok split p t m h; exact ⟨this.1, this.2.1, this.2.2.1⟩
  · unfold eeSetFrost emIf; rw [if_neg (by omega), if_neg (by omega)]; rfl
  · obtain ⟨h1, h2, h3, h4⟩ := setFrost_ok split p t m h
    rw [h4]
    have hf : eeGetFrost p (m.upd 14 t) = t.toNat := by
      unfold eeGetFrost; rw [EE.upd_same, if_neg (by omega)]
    have hw : eeGetWarm p (m.upd 14 t) = max (if (m 15).toNat < p.scaleMin ∨ (m 15).toNat > p.scaleMax then p.warm
        else (m 15).toNat) t.toNat := by
      unfold eeGetWarm; rw [hf, EE.upd_other _ _ (by decide)]; dsimp only; split <;> rfl
    have hw0 : eeGetWarm p m = max (if (m 15).toNat < p.scaleMin ∨ (m 15).toNat > p.scaleMax then p.warm
        else (m 15).toNat) (eeGetFrost p m) := by
      unfold eeGetWarm; dsimp only; split <;> rfl
    rw [hw0] at h3
    rw [hw, hw0]
    exact ⟨hf, by omega, by omega, by omega, fun a ha => EE.upd_other _ _ ha⟩
  · unfold eeSetFrost emIf at *
    split
    · rfl
    · rename_i h1
      rw [if_neg h1] at h
      split
      · rfl
      · rename_i h2; rw [if_neg h2] at h; cases h

/-- **Observation.** The documentation of setFROSTTargetC() promises any temperature of 5..95 C not above WARM; in
fact, with the default parameters, all below 16 C are refused — including the default FROST value itself. -/
theorem C55_low_frost_refused (split : Bool) (m : EE) (t : Byte) (ht : t.toNat < 16) :
    (eeSetFrost split vcpDefault t m).1 = false := by
  have h := (C55_set_frost split vcpDefault t m).1
  have e : vcpDefault.scaleMin = 16 := by decide +kernel
  cases hh : (eeSetFrost split vcpDefault t m).1 with
  | false => rfl
  | true => have := (h.1 hh).1; omega

/-! ## C56 -/

theorem dialLoop_bounds (ppot band : Nat) : ∀ k r b, r ≤ dialLoop ppot band k r b ∧ dialLoop ppot band k r b ≤ r + k := by
  intro k
  induction k with
  | zero => intro r b; simp [dialLoop]
  | succ k ih =>
    intro r b
    unfold dialLoop
    split
    · have := ih (r + 1) ((b + band) % 256); omega
    · omega

theorem dialLoop_mono {p q : Nat} (h : p ≤ q) (band : Nat) : ∀ k r b, dialLoop p band k r b ≤ dialLoop q band k r b := by
  intro k
  induction k with
  | zero => intro r b; simp [dialLoop]
  | succ k ih =>
    intro r b
    unfold dialLoop
    by_cases h1 : p ≥ b
    · rw [if_pos h1, if_pos (by omega)]; exact ih _ _
    · rw [if_neg h1]
      split
      · have := (dialLoop_bounds q band k (r + 1) ((b + band) % 256)).1; omega
      · omega

/-- **C56.** On a dial with fewer than ten temperatures, whatever the end stops, every position gives a temperature on
the scale, with the extremes at the ends, and turning the dial up never lowers it. -/
theorem C56_dial (p : VCP) (hp : p.scaleMin ≤ p.scaleMax) (hr : p.scaleMax - p.scaleMin + 1 < 10) (lo hi : Nat) :
    (∀ pot, ∃ r, dialWarm p lo hi pot = some r ∧ p.scaleMin ≤ r ∧ r ≤ p.scaleMax) ∧
    (∀ pot, pot ≤ lo → dialWarm p lo hi pot = some p.scaleMin) ∧
    (∀ pot, lo < pot → hi ≤ pot → dialWarm p lo hi pot = some p.scaleMax) ∧
    (∀ pot pot', pot ≤ pot' → ∀ r r', dialWarm p lo hi pot = some r → dialWarm p lo hi pot' = some r' → r ≤ r') := by
  have hb : ∀ ppot band, p.scaleMin ≤ dialLoop ppot band (p.scaleMax - p.scaleMin) p.scaleMin band ∧
      dialLoop ppot band (p.scaleMax - p.scaleMin) p.scaleMin band ≤ p.scaleMax := by
    intro ppot band
    have := dialLoop_bounds ppot band (p.scaleMax - p.scaleMin) p.scaleMin band
    omega
  -- a dial position gives either the bottom, the top, or the loop's answer
  have hlim : ∀ pot r, dialWarm p lo hi pot = some r → p.scaleMin ≤ r ∧ r ≤ p.scaleMax := by
    intro pot r h
    unfold dialWarm at h
    dsimp only at h
    rw [if_pos hr] at h
    split at h
    · injection h with h; omega
    · split at h
      · injection h with h; omega
      · split at h <;> split at h
        · injection h with h; omega
        · injection h with h; subst h; exact hb _ _
        · injection h with h; omega
        · injection h with h; subst h; exact hb _ _
  refine ⟨fun pot => ?_, fun pot h => ?_, fun pot h1 h2 => ?_, fun pot pot' h r r' e e' => ?_⟩
  · have : ∃ r, dialWarm p lo hi pot = some r := by
      unfold dialWarm
      dsimp only
      rw [if_pos hr]
      (repeat' split) <;> exact ⟨_, rfl⟩
    obtain ⟨r, e⟩ := this
    exact ⟨r, e, hlim pot r e⟩
  · unfold dialWarm; rw [if_pos h]
  · unfold dialWarm; rw [if_neg (by omega), if_pos (by omega)]
  · have l := hlim pot r e
    have l' := hlim pot' r' e'
    by_cases h1 : pot ≤ lo
    · unfold dialWarm at e; rw [if_pos h1] at e; injection e with e; omega
    by_cases h2 : pot' ≥ hi
    · unfold dialWarm at e'; rw [if_neg (by omega), if_pos (by omega)] at e'; injection e' with e'; omega
    unfold dialWarm at e e'
    dsimp only at e e'
    rw [if_neg (by omega), if_neg (by omega), if_pos hr] at e e'
    by_cases hs : p.scaleMax - p.scaleMin + 1 ≠ 0 ∧
        Nat.land (p.scaleMax - p.scaleMin + 1) (p.scaleMax - p.scaleMin + 1 + 1) = 0
    · rw [if_pos hs] at e e'
      generalize ((hi - lo + 1) % 256 + (p.scaleMax - p.scaleMin + 1 + 1) / 2) / (p.scaleMax - p.scaleMin + 1 + 1) = band at *
      by_cases a : pot - lo ≤ band / 2
      · rw [if_pos ⟨hs, a⟩] at e; injection e with e; omega
      · have a' : ¬ pot' - lo ≤ band / 2 := by omega
        rw [if_neg (fun h => a h.2), if_pos hs] at e
        rw [if_neg (fun h => a' h.2), if_pos hs] at e'
        injection e with e; injection e' with e'
        subst e e'
        exact dialLoop_mono (by omega) _ _ _ _
    · rw [if_neg hs, if_neg (fun h => hs h.1)] at e e'
      rw [if_neg hs] at e e'
      injection e with e; injection e' with e'
      subst e e'
      exact dialLoop_mono (by omega) _ _ _ _

/-- Both shipped room-temperature parameter sets meet the hypotheses. -/
example : vcpDefault.scaleMin ≤ vcpDefault.scaleMax ∧ vcpDefault.scaleMax - vcpDefault.scaleMin + 1 < 10 ∧
    vcpProposed.scaleMin ≤ vcpProposed.scaleMax ∧ vcpProposed.scaleMax - vcpProposed.scaleMin + 1 < 10 := by decide +kernel
/-- The whole scale is reached with the standard end stops. -/
example : dialWarm vcpDefault (potLo 0 1023) (potHi 0 1023) 8 = some 16 ∧
    dialWarm vcpDefault (potLo 0 1023) (potHi 0 1023) 128 = some 19 ∧
    dialWarm vcpDefault (potLo 0 1023) (potHi 0 1023) 247 = some 22 := by decide +kernel

/-- **C56 fails for a dial with ten temperatures or more.** With the hot-water parameters and the standard end stops
(8, 247), turning the dial up from 246 to 247 lowers the target, and at 246 it is above the top of the scale. -/
theorem C56_refuted_hot_water :
    potLo 0 1023 = 8 ∧ potHi 0 1023 = 247 ∧ vcpDHW.scaleMax = 66 ∧
    dialWarm vcpDHW 8 247 246 = some 67 ∧ dialWarm vcpDHW 8 247 247 = some 66 := by decide +kernel

/-- **C56, what the user sees.** However the dial has been turned, and from a new object, the WARM target given is that
of the present position: remembering the last result makes no difference. -/
theorem C56_cache_transparent (p : VCP) (hp : p.scaleMin ≤ p.scaleMax)
    (hr : p.scaleMax - p.scaleMin + 1 < 10) (lo hi : Nat) (pots : List Nat) (pot : Nat) :
    some ((pots.foldl (fun c q => (c.getWarm p lo hi q).2) (⟨0, 0⟩ : DialCache)).getWarm p lo hi pot).1 =
      dialWarm p lo hi pot := by
  have tot := (C56_dial p hp hr lo hi).1
  -- invariant: a remembered result is right for the remembered position
  have inv : ∀ (qs : List Nat) (c : DialCache), (c.result ≠ 0 → dialWarm p lo hi c.pot = some c.result) →
      (((qs.foldl (fun c q => (c.getWarm p lo hi q).2) c).result ≠ 0 →
        dialWarm p lo hi (qs.foldl (fun c q => (c.getWarm p lo hi q).2) c).pot =
          some (qs.foldl (fun c q => (c.getWarm p lo hi q).2) c).result)) := by
    intro qs
    induction qs with
    | nil => intro c h; exact h
    | cons q qs ih =>
      intro c h
      refine ih _ ?_
      unfold DialCache.getWarm
      dsimp only
      split
      · obtain ⟨r, e, _⟩ := tot q
        intro _
        simp [e]
      · exact h
  have h := inv pots ⟨0, 0⟩ (fun h => absurd rfl h)
  generalize pots.foldl (fun c q => (c.getWarm p lo hi q).2) (⟨0, 0⟩ : DialCache) = c at *
  unfold DialCache.getWarm
  split
  · obtain ⟨r, e, _⟩ := tot pot
    simp [e]
  · rename_i hn
    have h1 : c.result ≠ 0 := fun h => hn (Or.inr h)
    have h2 : c.pot = pot := by
      by_cases h : c.pot = pot
      · exact h
      · exact absurd (Or.inl h) hn
    rw [← h h1, h2]

/-- With a dial, FROST is at most WARM for both shipped room parameter sets. -/
theorem C55_dial_frost (p : VCP) (hp : p = vcpDefault ∨ p = vcpProposed ∨ p = vcpDHW) (warmC : Nat)
    (hw : p.scaleMin ≤ warmC) (rhHigh : Bool) : 5 ≤ dialFrost p warmC rhHigh ∧ dialFrost p warmC rhHigh ≤ warmC := by
  have h : 5 ≤ p.frost ∧ 5 ≤ p.frostCom ∧ p.frost ≤ p.scaleMin ∧ p.frostCom ≤ p.scaleMin := by
    rcases hp with rfl | rfl | rfl <;> decide +kernel
  unfold dialFrost
  split <;> omega

/-! ## C85 -/

/-- **C85, following.** At any read, if the dial has moved by 4 counts (of 1024) or more since the previous read, the
value becomes the new position exactly. -/
theorem C85_follows_partial (lo hi : Nat) (s : Pot) (adc : Nat) (h0 : s.raw < 1024) (h1 : adc < 1024)
    (hmove : s.raw + 4 ≤ adc ∨ adc + 4 ≤ s.raw) : ((s.read lo hi adc).1).value = adc / 4 := by
  have e : adc / 4 % 256 = adc / 4 := by omega
  unfold Pot.read
  dsimp only
  rw [e]
  by_cases hv : adc / 4 = s.value
  · rw [if_neg (by omega)]; exact hv.symm
  · rw [if_pos (by omega)]

/-- **C85, first read** gives the position, and makes no callback. -/
theorem C85_first_read (lo hi adc : Nat) (h1 : adc < 1024) :
    (Pot.init.read lo hi adc).1 = { raw := adc, value := adc / 4 } ∧ (Pot.init.read lo hi adc).2 = [] := by
  have e : adc / 4 % 256 = adc / 4 := by omega
  unfold Pot.read Pot.init
  dsimp only
  rw [e]
  by_cases h : adc / 4 = 0
  · rw [if_neg (by omega)]; rw [h]; exact ⟨rfl, rfl⟩
  · rw [if_pos (by omega)]; exact ⟨rfl, rfl⟩

/-- **C85, callbacks.** A callback is made, and the room marked occupied, only at a read at which the value changes;
below the low end stop it selects FROST, above the high one it starts BAKE, otherwise turning down cancels BAKE and
turning up selects WARM. -/
theorem C85_callbacks (lo hi : Nat) (s : Pot) (adc : Nat) :
    (s.read lo hi adc).2 =
      if s.raw = 65535 ∨ (s.read lo hi adc).1.value = s.value then []
      else [if (s.read lo hi adc).1.value < lo then PotEv.warm false
            else if (s.read lo hi adc).1.value > hi then PotEv.bake true
            else if (s.read lo hi adc).1.value < s.value then PotEv.bake false
            else PotEv.warm true, PotEv.occupied] := by
  unfold Pot.read
  dsimp only
  by_cases hc : (adc / 4 % 256 > s.value ∧ (adc + 65536 - s.raw) % 65536 ≥ 4) ∨
      (adc / 4 % 256 < s.value ∧ (s.raw + 65536 - adc) % 65536 ≥ 4)
  · rw [if_pos hc]
    dsimp only
    generalize adc / 4 % 256 = rn at *
    by_cases h1 : s.raw = 65535
    · simp [h1]
    · have hn : ¬ (s.raw = 65535 ∨ rn = s.value) := by omega
      rw [if_pos h1, if_neg hn]
      by_cases a : rn < lo
      · rw [if_pos a, if_pos a]; rfl
      · rw [if_neg a, if_neg a]
        by_cases b : rn > hi
        · rw [if_pos b, if_pos b]; rfl
        · rw [if_neg b, if_neg b]
          by_cases d : rn < s.value
          · rw [if_pos d, if_pos d]; rfl
          · rw [if_neg d, if_neg d, if_pos (by omega)]; rfl
  · rw [if_neg hc]; simp

/-- Readings in turn, with all events. -/
def potRun (lo hi : Nat) : Pot → List Nat → Pot × List PotEv
  | s, [] => (s, [])
  | s, a :: as => ((potRun lo hi (s.read lo hi a).1 as).1, (s.read lo hi a).2 ++ (potRun lo hi (s.read lo hi a).1 as).2)

/-- **C85 fails for jitter.** With noise of one count in 1024, less than the hysteresis, the room is marked occupied and
BAKE is cancelled with nobody there: the unsigned difference of raw readings wraps. -/
theorem C85_refuted_jitter :
    (potRun 8 247 Pot.init [400, 399, 398, 399]).2 = [PotEv.bake false, PotEv.occupied] := by decide +kernel

/-- **C85 fails for slow turning.** Turned down steadily by less than 4 counts between reads the dial is never seen to
move, however far it goes: the hysteresis is against the previous reading, not the reported value. -/
theorem C85_refuted_slow_turn (lo hi start k : Nat) (hs : start < 1024) (hk : 3 * k ≤ start) :
    (potRun lo hi Pot.init ((List.range (k + 1)).map fun j => start - 3 * j)).1.value = start / 4 ∧
    (potRun lo hi Pot.init ((List.range (k + 1)).map fun j => start - 3 * j)).2 = [] := by
  have gen : ∀ (n r : Nat), r < 1024 → r ≤ start → 3 * n ≤ r →
      (potRun lo hi ⟨r, start / 4⟩ ((List.range n).map fun j => r - 3 * (j + 1))).1.value = start / 4 ∧
      (potRun lo hi ⟨r, start / 4⟩ ((List.range n).map fun j => r - 3 * (j + 1))).2 = [] := by
    intro n
    induction n with
    | zero => intro r _ _ _; exact ⟨rfl, rfl⟩
    | succ n ih =>
      intro r h1 h2 h3
      rw [List.range_succ_eq_map, List.map_cons, List.map_map]
      have hstep : (Pot.read lo hi ⟨r, start / 4⟩ (r - 3 * (0 + 1))) = (⟨r - 3, start / 4⟩, []) := by
        unfold Pot.read
        dsimp only
        rw [if_neg (by omega)]
      have hm : ((fun j => r - 3 * (j + 1)) ∘ Nat.succ) = fun j => (r - 3) - 3 * (j + 1) := by
        funext j; simp only [Function.comp]; omega
      rw [hm]
      simp only [potRun, hstep, List.nil_append]
      exact ih (r - 3) (by omega) (by omega) (by omega)
  rw [List.range_succ_eq_map, List.map_cons, List.map_map]
  have h0 := C85_first_read lo hi start hs
  simp only [potRun, Nat.mul_zero, Nat.sub_zero, h0.1, h0.2, List.nil_append]
  have hm : ((fun j => start - 3 * j) ∘ Nat.succ) = fun j => start - 3 * (j + 1) := by funext j; rfl
  rw [hm]
  exact gen k start hs (Nat.le_refl _) hk

end OTR.Props
