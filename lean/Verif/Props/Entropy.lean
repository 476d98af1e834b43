import Verif.Model.Entropy
import Mathlib.Data.Fintype.Pigeonhole
import Mathlib.Data.Finite.Prod
/-!
# Properties C142 (small generator), C143 (secure random byte), C144 (seed bytes in EEPROM)
-/

namespace OTR.Props
open OTR

theorem xor_cancel_right (a b c : Byte) (h : a ^^^ c = b ^^^ c) : a = b := by
  have := congrArg (· ^^^ c) h
  simpa [UInt8.xor_assoc] using this

theorem xor_cancel_left (a b c : Byte) (h : c ^^^ a = c ^^^ b) : a = b := by
  rw [UInt8.xor_comm c a, UInt8.xor_comm c b] at h
  exact xor_cancel_right a b c h

/-! ## C142 -/

/-- No two states lead to the same next state. -/
theorem C142_step_injective (s t : Rng) (h : s.rand.2 = t.rand.2) : s = t := by
  obtain ⟨a, b, c, x⟩ := s
  obtain ⟨a', b', c', x'⟩ := t
  simp only [Rng.rand, Rng.step, Rng.mk.injEq] at h
  obtain ⟨ha, hb, hc, hx⟩ := h
  rw [hb, ha] at hc
  have hx' : x = x' := (UInt8.add_left_inj 1).1 hx
  have hc1 := xor_cancel_right _ _ _ hc
  have hc' : c = c' := (UInt8.add_left_inj _).1 hc1
  rw [ha] at hb
  have hb' : b = b' := (UInt8.add_left_inj _).1 hb
  subst hx'; subst hc'; subst hb'
  have ha1 := xor_cancel_right _ _ _ ha
  have ha' := xor_cancel_right _ _ _ ha1
  subst ha'; rfl

/-- The state after `n` calls of `randRNG8()`. -/
def rngAfter : Nat → Rng → Rng
  | 0, s => s
  | n + 1, s => (rngAfter n s).rand.2

theorem rngAfter_x (s : Rng) (n : Nat) : (rngAfter n s).x.toNat = (s.x.toNat + n) % 256 := by
  induction n with
  | zero => have := byte_lt s.x; simp only [rngAfter]; omega
  | succ n ih =>
    have : (rngAfter (n + 1) s).x = (rngAfter n s).x + 1 := rfl
    rw [this, UInt8.toNat_add, ih]; simp [Nat.add_assoc]

/-- The generator does not latch up: 256 states in a row are all different. -/
theorem C142_no_latch_up (s : Rng) (i j : Nat) (h : i < j) (h' : j < i + 256) : rngAfter i s ≠ rngAfter j s := by
  intro e
  have h1 := rngAfter_x s i
  have h2 := rngAfter_x s j
  rw [e, h2] at h1
  omega

instance : Finite Rng := by
  apply Finite.of_injective (fun s : Rng => (s.a.toFin, s.b.toFin, s.c.toFin, s.x.toFin))
  intro s t h
  simp only [Prod.mk.injEq] at h
  obtain ⟨h1, h2, h3, h4⟩ := h
  cases s; cases t
  simp only [Rng.mk.injEq]
  exact ⟨UInt8.toFin_inj.1 h1, UInt8.toFin_inj.1 h2, UInt8.toFin_inj.1 h3, UInt8.toFin_inj.1 h4⟩

/-- Every state comes back, after a number of calls that is a multiple of 256: there is no tail. -/
theorem C142_every_state_recurs (s : Rng) : ∃ p, 0 < p ∧ p % 256 = 0 ∧ rngAfter p s = s := by
  obtain ⟨i, j, hne, h⟩ := Finite.exists_ne_map_eq_of_infinite (fun n => rngAfter n s)
  have key : ∀ i d, rngAfter i s = rngAfter (i + d) s → rngAfter d s = s := by
    intro i
    induction i with
    | zero => intro d h; rw [Nat.zero_add] at h; exact h.symm
    | succ i ih =>
      intro d h
      rw [show i + 1 + d = (i + d) + 1 from by omega] at h
      exact ih d (C142_step_injective _ _ h)
  have fin : ∀ i j, i < j → rngAfter i s = rngAfter j s → ∃ p, 0 < p ∧ p % 256 = 0 ∧ rngAfter p s = s := by
    intro i j hlt h
    have hp := key i (j - i) (by rw [show i + (j - i) = j from by omega]; exact h)
    refine ⟨j - i, by omega, ?_, hp⟩
    have := rngAfter_x s (j - i)
    rw [hp] at this
    have := byte_lt s.x
    omega
  rcases Nat.lt_or_gt_of_ne hne with h1 | h1
  · exact fin i j h1 h
  · exact fin j i h1 h.symm

/-- Over all states each byte value comes out equally often: for each value there is exactly one state before each of the
2^24 states that show it. -/
theorem C142_output_uniform (v a b x : Byte) :
    ∃ s : Rng, s.rand = (v, ⟨a, b, v, x⟩) ∧ ∀ t : Rng, t.rand = (v, ⟨a, b, v, x⟩) → t = s := by
  refine ⟨⟨a ^^^ ((v ^^^ a) - (b >>> 1)) ^^^ x, b - a, (v ^^^ a) - (b >>> 1), x - 1⟩, ?_, ?_⟩
  · have e1 : a ^^^ ((v ^^^ a) - (b >>> 1)) ^^^ x ^^^ ((v ^^^ a) - (b >>> 1)) ^^^ x = a := by
      generalize (v ^^^ a) - (b >>> 1) = y
      have : a ^^^ y ^^^ x ^^^ y ^^^ x = a ^^^ ((y ^^^ y) ^^^ (x ^^^ x)) := by
        simp only [UInt8.xor_assoc]
        rw [← UInt8.xor_assoc x y x, UInt8.xor_comm x y, UInt8.xor_assoc y x x]
      rw [this]; simp
    have e2 : v ^^^ a ^^^ a = v := by rw [UInt8.xor_assoc]; simp
    simp only [Rng.rand, Rng.step, UInt8.sub_add_cancel, e1, e2]
  · intro t ht
    apply C142_step_injective
    rw [ht]
    have e1 : a ^^^ ((v ^^^ a) - (b >>> 1)) ^^^ x ^^^ ((v ^^^ a) - (b >>> 1)) ^^^ x = a := by
      generalize (v ^^^ a) - (b >>> 1) = y
      have : a ^^^ y ^^^ x ^^^ y ^^^ x = a ^^^ ((y ^^^ y) ^^^ (x ^^^ x)) := by
        simp only [UInt8.xor_assoc]
        rw [← UInt8.xor_assoc x y x, UInt8.xor_comm x y, UInt8.xor_assoc y x x]
      rw [this]; simp
    have e2 : v ^^^ a ^^^ a = v := by rw [UInt8.xor_assoc]; simp
    simp only [Rng.rand, Rng.step, UInt8.sub_add_cancel, e1, e2]

/-- Seeding loses nothing of the seed ... -/
theorem C142_seed_keeps_seed (s : Rng) (a b c a' b' c' : Byte) (h : s.seed a b c = s.seed a' b' c') : a = a' ∧ b = b' ∧ c = c' := by
  have := C142_step_injective _ _ h
  simp only [Rng.mk.injEq] at this
  exact ⟨xor_cancel_left _ _ _ this.1, xor_cancel_left _ _ _ this.2.1, xor_cancel_left _ _ _ this.2.2.1⟩

/-- ... and nothing of the state: two different states stay different however they are seeded alike. -/
theorem C142_seed_keeps_state (s t : Rng) (a b c : Byte) (h : s.seed a b c = t.seed a b c) : s = t := by
  have := C142_step_injective _ _ h
  simp only [Rng.mk.injEq] at this
  obtain ⟨h1, h2, h3, h4⟩ := this
  cases s; cases t
  simp only at h1 h2 h3 h4
  rw [xor_cancel_right _ _ _ h1, xor_cancel_right _ _ _ h2, xor_cancel_right _ _ _ h3, h4]

/-- Reference values. -/
example : (rngAfter 1 ⟨0, 0, 0, 0⟩) = ⟨1, 1, 1, 1⟩ ∧ (rngAfter 2 ⟨0, 0, 0, 0⟩) = ⟨2, 3, 0, 2⟩ ∧ (rngAfter 3 ⟨0, 0, 0, 0⟩) = ⟨1, 4, 3, 3⟩ := by decide +kernel

/-! ## C143 -/

/-- Linear over GF(2). -/
def Lin (f : Byte → Byte) : Prop := ∀ x y, f (x ^^^ y) = f x ^^^ f y

theorem xor4 (a b c d : Byte) : (a ^^^ b) ^^^ (c ^^^ d) = (a ^^^ c) ^^^ (b ^^^ d) := by
  simp only [UInt8.xor_assoc]
  rw [← UInt8.xor_assoc b c d, UInt8.xor_comm b c, UInt8.xor_assoc c b d]

theorem Lin.xor {f g : Byte → Byte} (hf : Lin f) (hg : Lin g) : Lin fun x => f x ^^^ g x := by
  intro x y; show f _ ^^^ g _ = _; rw [hf, hg, xor4]
theorem Lin.comp {f g : Byte → Byte} (hf : Lin f) (hg : Lin g) : Lin fun x => f (g x) := by
  intro x y; show f (g _) = _; rw [hg, hf]
theorem lin_id : Lin fun x => x := fun _ _ => rfl
theorem lin_shl (k : Byte) : Lin fun x => x <<< k := fun _ _ => UInt8.shiftLeft_xor
theorem lin_shr (k : Byte) : Lin fun x => x >>> k := fun _ _ => UInt8.shiftRight_xor

theorem bit0 (b : Byte) : (b &&& 1 != 0) = decide (b.toNat % 2 = 1) := by
  revert b; apply forall_byte; decide +kernel

theorem lin_round : Lin ibuttonRound := by
  have pick : ∀ b : Byte, ibuttonRound b = (b >>> 1) ^^^ (if b.toNat % 2 = 1 then 0x8c else 0) := by
    apply forall_byte; decide +kernel
  intro x y
  rw [pick, pick x, pick y, UInt8.shiftRight_xor, xor4]
  congr 1
  have h : (x ^^^ y).toNat % 2 = (x.toNat + y.toNat) % 2 := by
    have h0 : ∀ v : Nat, v % 2 = (v.testBit 0).toNat := by intro v; rw [Nat.testBit_zero]; rcases Nat.mod_two_eq_zero_or_one v with h | h <;> simp [h]
    rw [UInt8.toNat_xor, Nat.add_mod, h0 (x.toNat ^^^ y.toNat), h0 x.toNat, h0 y.toNat, Nat.testBit_xor]
    cases x.toNat.testBit 0 <;> cases y.toNat.testBit 0 <;> rfl
  rw [h]
  rcases Nat.mod_two_eq_zero_or_one x.toNat with hx | hx <;> rcases Nat.mod_two_eq_zero_or_one y.toNat with hy | hy
  · rw [if_neg (by omega), if_neg (by omega), if_neg (by omega)]; rfl
  · rw [if_pos (by omega), if_neg (by omega), if_pos (by omega)]; rfl
  · rw [if_pos (by omega), if_pos (by omega), if_neg (by omega)]; rfl
  · rw [if_neg (by omega), if_pos (by omega), if_pos (by omega)]; rfl

/-- The CRC as a linear map. -/
def crcL (c : Byte) : Byte := crcIbutton c 0

theorem lin_crc : Lin crcL := by
  have h8 := (((((((lin_round.comp lin_round).comp lin_round).comp lin_round).comp lin_round).comp lin_round).comp lin_round).comp lin_round)
  intro x y
  unfold crcL crcIbutton
  simp only [UInt8.xor_zero]
  exact h8 x y

theorem crc_eq (a b : Byte) : crcIbutton a b = crcL (a ^^^ b) := by
  unfold crcL crcIbutton; simp

def sh4 (x : Byte) : Byte := x ^^^ (x <<< 4)
def sr4 (x : Byte) : Byte := x ^^^ (x >>> 4)
def sh3 (x : Byte) : Byte := x ^^^ (x <<< 3)
theorem lin_sh4 : Lin sh4 := lin_id.xor (lin_shl 4)
theorem lin_sr4 : Lin sr4 := lin_id.xor (lin_shr 4)
theorem lin_sh3 : Lin sh3 := lin_id.xor (lin_shl 3)

theorem raw_eq (j a w : Byte) : secRandRaw j a w = sr4 (sh4 (sh3 j ^^^ a) ^^^ w) ^^^ crcL (j ^^^ sh4 (sh3 j ^^^ a)) := by
  unfold secRandRaw secMix
  simp only [crc_eq]; rfl

theorem white_eq (k1 k2 n r j a w : Byte) : secRandWhite k1 k2 n r j a w =
    sh3 (sr4 (sh4 (sh3 j ^^^ a) ^^^ w) ^^^ r) ^^^ crcIbutton k1 (n - k2) ^^^ crcL (j ^^^ sh4 (sh3 j ^^^ a)) := by
  unfold secRandWhite secMix
  simp only [crc_eq]; rfl

theorem lin_zero {f : Byte → Byte} (h : Lin f) : f 0 = 0 := by
  have := h 0 0; simpa using this

theorem inj_of_ker {f : Byte → Byte} (h : Lin f) (hk : ∀ x, f x = 0 → x = 0) (x y : Byte) (e : f x = f y) : x = y := by
  have : f (x ^^^ y) = 0 := by rw [h, e]; simp
  have := hk _ this
  apply xor_cancel_right _ _ y
  rw [this]; simp

theorem ker_sr4 : ∀ x, sr4 x = 0 → x = 0 := by apply forall_byte; decide +kernel
theorem ker_sh3 : ∀ x, sh3 x = 0 → x = 0 := by apply forall_byte; decide +kernel

/-- The parts of the byte that come from each source add up (XOR). -/
theorem raw_split (j a w : Byte) : secRandRaw j a w = secRandRaw j 0 0 ^^^ (secRandRaw 0 a 0 ^^^ secRandRaw 0 0 w) := by
  simp only [raw_eq, UInt8.xor_zero, UInt8.zero_xor, lin_zero lin_sh3, lin_zero lin_sh4, lin_zero lin_crc, lin_sh4 (sh3 j) a,
    lin_sr4 (sh4 (sh3 j) ^^^ sh4 a) w, lin_sr4 (sh4 (sh3 j)) (sh4 a)]
  rw [← UInt8.xor_assoc j, lin_crc (j ^^^ sh4 (sh3 j)) (sh4 a)]
  generalize sr4 (sh4 (sh3 j)) = p; generalize sr4 (sh4 a) = q; generalize sr4 w = r
  generalize crcL (j ^^^ sh4 (sh3 j)) = s; generalize crcL (sh4 a) = t
  simp only [UInt8.xor_assoc]
  congr 1
  rw [← UInt8.xor_assoc q, ← UInt8.xor_assoc q, UInt8.xor_comm _ (s ^^^ t), UInt8.xor_assoc s]
  congr 1
  rw [← UInt8.xor_assoc, UInt8.xor_comm t q]

theorem lin_rawA : Lin fun a => secRandRaw 0 a 0 := by
  have : (fun a => secRandRaw 0 a 0) = fun a => sr4 (sh4 a) ^^^ crcL (sh4 a) := by
    funext a; rw [raw_eq]; simp [lin_zero lin_sh3]
  rw [this]; exact (lin_sr4.comp lin_sh4).xor (lin_crc.comp lin_sh4)

theorem lin_rawW : Lin fun w => secRandRaw 0 0 w := by
  have : (fun w => secRandRaw 0 0 w) = sr4 := by
    funext a; rw [raw_eq]; simp [lin_zero lin_sh3, lin_zero lin_sh4, lin_zero lin_crc]
  rw [this]; exact lin_sr4

theorem lin_rawJ : Lin fun j => secRandRaw j 0 0 := by
  have : (fun j => secRandRaw j 0 0) = fun j => sr4 (sh4 (sh3 j)) ^^^ crcL (j ^^^ sh4 (sh3 j)) := by
    funext a; rw [raw_eq]; simp
  rw [this]; exact (lin_sr4.comp (lin_sh4.comp lin_sh3)).xor (lin_crc.comp (lin_id.xor (lin_sh4.comp lin_sh3)))

/-- `getSecureRandomByte(false)`: whatever the other sources give, different ADC readings and different watchdog jitter counts
give different bytes; so if either of them is uniform (and independent of the rest) the byte is. -/
theorem C143_raw_uniform_in_adc_and_wdt (j a w : Byte) :
    (∀ a', secRandRaw j a w = secRandRaw j a' w → a = a') ∧ (∀ w', secRandRaw j a w = secRandRaw j a w' → w = w') := by
  constructor
  · intro a' h
    rw [raw_split j a w, raw_split j a' w] at h
    have h := xor_cancel_right _ _ _ (xor_cancel_left _ _ _ h)
    exact inj_of_ker lin_rawA (by apply forall_byte; decide +kernel) a a' h
  · intro w' h
    rw [raw_split j a w, raw_split j a w'] at h
    have h := xor_cancel_left _ _ _ (xor_cancel_left _ _ _ h)
    exact inj_of_ker lin_rawW (by apply forall_byte; decide +kernel) w w' h

/-- `getSecureRandomByte(true)`: the same for the watchdog jitter count and for the byte of the generator. -/
theorem C143_white_uniform_in_wdt_and_prng (k1 k2 n r j a w : Byte) :
    (∀ w', secRandWhite k1 k2 n r j a w = secRandWhite k1 k2 n r j a w' → w = w') ∧
    (∀ r', secRandWhite k1 k2 n r j a w = secRandWhite k1 k2 n r' j a w → r = r') := by
  constructor
  · intro w' h
    rw [white_eq, white_eq] at h
    have h := xor_cancel_right _ _ _ (xor_cancel_right _ _ _ h)
    have h := xor_cancel_right _ _ _ (inj_of_ker lin_sh3 ker_sh3 _ _ h)
    exact xor_cancel_left _ _ _ (inj_of_ker lin_sr4 ker_sr4 _ _ h)
  · intro r' h
    rw [white_eq, white_eq] at h
    have h := xor_cancel_right _ _ _ (xor_cancel_right _ _ _ h)
    exact xor_cancel_left _ _ _ (inj_of_ker lin_sh3 ker_sh3 _ _ h)

/-- The clock jitter byte, the source meant to give 8 bits of entropy, is not passed on whole: its bytes come in fours that
give the same result whatever the other sources give ... -/
theorem C143_refuted_jitter_raw : ∃ d d' : Byte, d ≠ 0 ∧ d' ≠ 0 ∧ d ≠ d' ∧
    ∀ j a w, secRandRaw (j ^^^ d) a w = secRandRaw j a w ∧ secRandRaw (j ^^^ d') a w = secRandRaw j a w := by
  have key : ∀ d : Byte, secRandRaw d 0 0 = 0 → ∀ j a w, secRandRaw (j ^^^ d) a w = secRandRaw j a w := by
    intro d hd j a w
    rw [raw_split (j ^^^ d), raw_split j]
    have h : secRandRaw (j ^^^ d) 0 0 = secRandRaw j 0 0 ^^^ secRandRaw d 0 0 := lin_rawJ j d
    rw [h, hd]; simp
  obtain ⟨d, d', h1, h2, h3, h4, h5⟩ : ∃ d d' : Byte, d ≠ 0 ∧ d' ≠ 0 ∧ d ≠ d' ∧ secRandRaw d 0 0 = 0 ∧ secRandRaw d' 0 0 = 0 := by
    refine ⟨0x45, 0x86, ?_⟩; decide +kernel
  exact ⟨d, d', h1, h2, h3, fun j a w => ⟨key d h4 j a w, key d' h5 j a w⟩⟩


/-- ... and no more than fours. -/
theorem C143_jitter_raw (j j' a w : Byte) (h : secRandRaw j a w = secRandRaw j' a w) :
    j ^^^ j' = 0 ∨ j ^^^ j' = 0x45 ∨ j ^^^ j' = 0x86 ∨ j ^^^ j' = 0xc3 := by
  rw [raw_split j, raw_split j'] at h
  have h := xor_cancel_right _ _ _ h
  have e : secRandRaw (j ^^^ j') 0 0 = 0 := by
    have h2 : secRandRaw (j ^^^ j') 0 0 = secRandRaw j 0 0 ^^^ secRandRaw j' 0 0 := lin_rawJ j j'
    rw [h2, h]; simp
  have key : ∀ d : Byte, secRandRaw d 0 0 = 0 → d = 0 ∨ d = 0x45 ∨ d = 0x86 ∨ d = 0xc3 := by
    apply forall_byte; decide +kernel
  exact key _ e

/-- The whitened byte as a sum of the parts. -/
theorem white_split (k1 k2 n r j a w : Byte) : secRandWhite k1 k2 n r j a w =
    (sh3 (sr4 (sh4 (sh3 j))) ^^^ crcL (j ^^^ sh4 (sh3 j))) ^^^ ((sh3 (sr4 (sh4 a)) ^^^ crcL (sh4 a)) ^^^
      (sh3 (sr4 w) ^^^ (sh3 r ^^^ crcIbutton k1 (n - k2)))) := by
  rw [white_eq, lin_sh4 (sh3 j) a, lin_sr4, lin_sr4, lin_sh3, lin_sh3, lin_sh3, ← UInt8.xor_assoc j, lin_crc]
  generalize sh3 (sr4 (sh4 (sh3 j))) = p; generalize sh3 (sr4 (sh4 a)) = q; generalize sh3 (sr4 w) = x; generalize sh3 r = y
  generalize crcIbutton k1 (n - k2) = z
  generalize crcL (j ^^^ sh4 (sh3 j)) = s; generalize crcL (sh4 a) = t
  have ac : ∀ u v w : Byte, u ^^^ (v ^^^ w) = v ^^^ (u ^^^ w) := by
    intro u v w; rw [← UInt8.xor_assoc, UInt8.xor_comm u v, UInt8.xor_assoc]
  simp only [UInt8.xor_assoc]
  congr 1
  rw [UInt8.xor_comm s t] 
  rw [ac z t s, ac y t, ac x t, ac q t]
  rw [UInt8.xor_comm z s, ac y s, ac x s, ac q s, ac t s, ac t q]

/-- With whitening the clock jitter bytes come in pairs with the same result, and so do the ADC readings. -/
theorem C143_refuted_white : ∀ k1 k2 n r j a w,
    secRandWhite k1 k2 n r (j ^^^ 0xad) a w = secRandWhite k1 k2 n r j a w ∧
    secRandWhite k1 k2 n r j (a ^^^ 0x4b) w = secRandWhite k1 k2 n r j a w := by
  intro k1 k2 n r j a w
  have lj : Lin fun j => sh3 (sr4 (sh4 (sh3 j))) ^^^ crcL (j ^^^ sh4 (sh3 j)) :=
    (lin_sh3.comp (lin_sr4.comp (lin_sh4.comp lin_sh3))).xor (lin_crc.comp (lin_id.xor (lin_sh4.comp lin_sh3)))
  have la : Lin fun a => sh3 (sr4 (sh4 a)) ^^^ crcL (sh4 a) := (lin_sh3.comp (lin_sr4.comp lin_sh4)).xor (lin_crc.comp lin_sh4)
  constructor
  · rw [white_split, white_split k1 k2 n r j]
    congr 1
    have := lj j 0xad
    simp only at this
    rw [this]
    have z : sh3 (sr4 (sh4 (sh3 0xad))) ^^^ crcL (0xad ^^^ sh4 (sh3 0xad)) = 0 := by decide +kernel
    rw [z]; simp
  · rw [white_split, white_split k1 k2 n r j a]
    congr 2
    have := la a 0x4b
    simp only at this
    rw [this]
    have z : sh3 (sr4 (sh4 0x4b)) ^^^ crcL (sh4 0x4b) = 0 := by decide +kernel
    rw [z]; simp

/-! ## C144 -/

/-- The seed bytes after a number of boots (the latest first): which byte was picked and the noise. -/
def seedAfter (ee : Nat → Byte) : List (Nat × Byte) → Nat → Byte
  | [] => ee
  | (i, m) :: h => seedBoot i m (seedAfter ee h)

/-- How often byte `j` was erased. -/
def seedErases (ee : Nat → Byte) (j : Nat) : List (Nat × Byte) → Nat
  | [] => 0
  | (i, m) :: h => seedErases ee j h + (if i = j ∧ seedAfter ee h j = 0 then 1 else 0)

/-- How often it was picked. -/
def seedPicks (j : Nat) (h : List (Nat × Byte)) : Nat := (h.filter fun p => p.1 == j).length

/-- A boot touches one of the four seed bytes and nothing else in the EEPROM. -/
theorem C144_one_byte (i : Nat) (m : Byte) (ee : Nat → Byte) (j : Nat) (h : j ≠ i) : seedBoot i m ee j = ee j := by
  unfold seedBoot; rw [if_neg h]

/-- A byte is never erased at two boots in a row that pick it: over any history the erases of a byte are at most half the
boots that picked it, rounded up. -/
theorem C144_wear (ee : Nat → Byte) (j : Nat) (h : List (Nat × Byte)) :
    2 * seedErases ee j h ≤ seedPicks j h + 1 := by
  have key : 2 * seedErases ee j h ≤ seedPicks j h + 1 ∧ (seedAfter ee h j = 0 → 2 * seedErases ee j h ≤ seedPicks j h) := by
    induction h with
    | nil => exact ⟨by simp [seedErases], fun _ => by simp [seedErases]⟩
    | cons p h ih =>
      obtain ⟨i, m⟩ := p
      obtain ⟨h1, h2⟩ := ih
      by_cases hi : i = j
      · subst hi
        have hp : seedPicks i ((i, m) :: h) = seedPicks i h + 1 := by simp [seedPicks]
        by_cases hz : seedAfter ee h i = 0
        · have he : seedErases ee i ((i, m) :: h) = seedErases ee i h + 1 := by simp [seedErases, hz]
          have := h2 hz
          refine ⟨by omega, fun hc => ?_⟩
          have : seedAfter ee ((i, m) :: h) i = 0xff := by simp [seedAfter, seedBoot, hz]
          rw [this] at hc; exact absurd hc (by decide)
        · have he : seedErases ee i ((i, m) :: h) = seedErases ee i h := by simp [seedErases, hz]
          exact ⟨by omega, fun _ => by omega⟩
      · have hp : seedPicks j ((i, m) :: h) = seedPicks j h := by simp [seedPicks, hi]
        have he : seedErases ee j ((i, m) :: h) = seedErases ee j h := by simp [seedErases, hi]
        have ha : seedAfter ee ((i, m) :: h) j = seedAfter ee h j := by
          simp only [seedAfter, seedBoot]; rw [if_neg (Ne.symm hi)]
        rw [hp, he, ha]; exact ⟨h1, h2⟩
  exact key.1

/-- The bound is met. -/
example : seedErases (fun _ => 0) 1 [(1, 5), (1, 0), (1, 7)] = 2 ∧ seedPicks 1 [(1, 5), (1, 0), (1, 7)] = 3 := by decide +kernel

end OTR.Props
