import Verif.Model.Sensors
/-!
# Properties C146 (SHT21 temperature), C147 (SHT21 humidity), C148 (TMP112), C149 (supply voltage), C150 (peripheral
power), C151 (ADC), C152 (voice detector)
-/

namespace OTR.Props
open OTR

/-! ## C150: peripheral power -/

/-- Whatever the nesting, code made of power-up/power-down blocks leaves every peripheral's power as it found it. -/
theorem C150_power_restored (c : PCode) (r : Prr) : (c.run r).1 = r := by
  induction c generalizing r with
  | work p => rfl
  | seq a b iha ihb => simp only [PCode.run]; rw [iha, ihb]
  | block p body ih =>
    simp only [PCode.run, ih, powerUpIfDisabled]
    by_cases h : r p = true
    · simp [h]
    · have h' : r p = false := by simpa using h
      simp only [h', Bool.false_eq_true, if_false, if_true]
      funext q
      unfold powerDown
      by_cases hq : q = p
      · subst hq; simp [h']
      · simp [hq]

/-- Every piece of work lies in a block for its peripheral (or the peripheral was on to begin with). -/
def covered : (Periph → Bool) → PCode → Bool
  | on, .work p => on p
  | on, .seq a b => covered on a && covered on b
  | on, .block p body => covered (fun q => q == p || on q) body

/-- ... and inside the blocks all work finds its peripheral powered. -/
theorem C150_powered_inside (c : PCode) (r : Prr) (h : covered r c = true) : (c.run r).2 = true := by
  have key : ∀ (c : PCode) (on r : Prr), (∀ q, on q = true → r q = true) → covered on c = true → (c.run r).2 = true := by
    intro c
    induction c with
    | work p => intro on r hr h; exact hr p h
    | seq a b iha ihb =>
      intro on r hr h
      simp only [covered, Bool.and_eq_true] at h
      simp only [PCode.run, Bool.and_eq_true]
      refine ⟨iha on r hr h.1, ?_⟩
      rw [C150_power_restored]; exact ihb on r hr h.2
    | block p body ih =>
      intro on r hr h
      simp only [covered] at h
      simp only [PCode.run]
      apply ih _ _ _ h
      intro q hq
      unfold powerUpIfDisabled
      by_cases hp : r p = true
      · rw [if_pos hp]
        simp only [Bool.or_eq_true, beq_iff_eq] at hq
        rcases hq with rfl | hq
        · exact hp
        · exact hr q hq
      · rw [if_neg hp]
        dsimp only
        by_cases hqp : q = p
        · rw [if_pos hqp]
        · rw [if_neg hqp]
          simp only [Bool.or_eq_true, beq_iff_eq] at hq
          exact hr q (hq.resolve_left hqp)
  exact key c r r (fun _ h => h) h

/-- A use of the radio bus inside a use of the ADC, from all off. -/
example : let c : PCode := .block .adc (.seq (.block .spi (.seq (.work .adc) (.work .spi))) (.work .adc))
    covered (fun _ => false) c = true ∧ (c.run fun _ => false).2 = true ∧ (c.run fun _ => false).1 .spi = false := by
  refine ⟨by decide +kernel, by decide +kernel, by decide +kernel⟩

/-! ## C146: SHT21 temperature -/

theorem and_fc : ∀ b : Byte, (b &&& 0xfc).toNat = b.toNat / 4 * 4 := by apply forall_byte; decide +kernel

/-- The reading is the two bytes, most significant first, without the status bits. -/
theorem sht21Raw_eq (b1 b2 : Byte) : sht21Raw b1 b2 = b1.toNat * 256 + b2.toNat / 4 * 4 := by
  unfold sht21Raw
  rw [← Nat.shiftLeft_add_eq_or_of_lt (by have := byte_lt (b2 &&& 0xfc); exact this), and_fc, Nat.shiftLeft_eq]

/-- The temperature is within 0.1 C of the data sheet's `-46.85 + 175.72 * S / 65536`, never above it. In sixteenths of a
hundredth of a degree times 65536, to stay with whole numbers. -/
theorem C146_accuracy (raw : Nat) (h : raw < 65536) :
    sht21C16 raw * 6553600 ≤ (-4685 * 65536 + 17572 * (raw : Int)) * 16 ∧
    (-4685 * 65536 + 17572 * (raw : Int)) * 16 < sht21C16 raw * 6553600 + 160 * 65536 := by
  unfold sht21C16
  rw [Nat.shiftRight_eq_div_pow]
  simp only [Int.ofNat_eq_natCast, Int.natCast_ediv]
  omega

/-- Hotter readings never give lower results, and no reading gives the error value. -/
theorem C146_monotone (r1 r2 : Nat) (h : r1 ≤ r2) (h2 : r2 < 65536) :
    sht21C16 r1 ≤ sht21C16 r2 ∧ -750 ≤ sht21C16 r1 ∧ sht21C16 r2 ≤ 2061 ∧ sht21C16 r1 ≠ invalidTemp := by
  unfold sht21C16
  simp only [Nat.shiftRight_eq_div_pow, Int.ofNat_eq_natCast, Int.natCast_ediv]
  omega

/-- 25 C reads as 25 C less a sixteenth, freezing as freezing. -/
example : sht21C16 26796 = 399 ∧ sht21C16 17473 = -1 := by decide +kernel

theorem raw_lt (b1 b2 : Byte) : sht21Raw b1 b2 < 65536 := by
  rw [sht21Raw_eq]; have := byte_lt b1; have := byte_lt b2; omega

theorem prr_restore (p : Periph) (r : Prr) :
    (if (powerUpIfDisabled p r).1 then powerDown p (powerUpIfDisabled p r).2 else (powerUpIfDisabled p r).2) = r := by
  have := C150_power_restored (.block p (.work p)) r
  exact this

theorem init_fields (ok : Bool) (s : Sht21) :
    (if s.inited then s else s.init ok).prr = s.prr ∧ (if s.inited then s else s.init ok).temp = s.temp ∧
    (if s.inited then s else s.init ok).rh = s.rh ∧ (if s.inited then s else s.init ok).high = s.high := by
  by_cases hi : s.inited = true
  · rw [if_pos hi]; exact ⟨rfl, rfl, rfl, rfl⟩
  · rw [if_neg hi]; cases ok <;> exact ⟨rfl, rfl, rfl, rfl⟩

/-- A read whose data arrive returns the converted reading and keeps it for `get()`; the bus is powered as before. -/
theorem C146_read (initOk : Bool) (b1 b2 : Byte) (s : Sht21) :
    (s.readTemp initOk (some (b1, b2))).1 = sht21C16 (b1.toNat * 256 + b2.toNat / 4 * 4) ∧
    (s.readTemp initOk (some (b1, b2))).2.temp = (s.readTemp initOk (some (b1, b2))).1 ∧
    (s.readTemp initOk (some (b1, b2))).2.prr = s.prr ∧
    (s.readTemp initOk (some (b1, b2))).2.rh = s.rh ∧ (s.readTemp initOk (some (b1, b2))).2.high = s.high := by
  have hp := prr_restore .twi s.prr
  obtain ⟨e1, e2, e3, e4⟩ := init_fields initOk { s with prr := (powerUpIfDisabled .twi s.prr).2 }
  unfold Sht21.readTemp
  dsimp only
  dsimp only at e1 e2 e3 e4
  rw [sht21Raw_eq, e1]
  exact ⟨rfl, rfl, hp, e3, e4⟩

/-- A read whose data do not arrive returns the error value; what `get()` gives stays what it was, and nothing shows that it is
old. -/
theorem C146_failed_read (initOk : Bool) (s : Sht21) :
    (s.readTemp initOk none).1 = invalidTemp ∧ (s.readTemp initOk none).2.temp = s.temp ∧
    (s.readRH initOk none).1 = 0xff ∧ (s.readRH initOk none).2.rh = s.rh ∧ (s.readRH initOk none).2.high = s.high := by
  obtain ⟨e1, e2, e3, e4⟩ := init_fields initOk { s with prr := (powerUpIfDisabled .twi s.prr).2 }
  exact ⟨rfl, e2, rfl, e3, e4⟩

/-- But such a read leaves the bus powered although it was not. -/
theorem C146_refuted_power (initOk : Bool) (s : Sht21) :
    (s.readTemp initOk none).2.prr .twi = true ∧ (s.readRH initOk none).2.prr .twi = true := by
  have hu : (powerUpIfDisabled .twi s.prr).2 .twi = true := by
    unfold powerUpIfDisabled
    by_cases h : s.prr .twi = true
    · rw [if_pos h]; exact h
    · rw [if_neg h]; rfl
  obtain ⟨e1, e2, e3, e4⟩ := init_fields initOk { s with prr := (powerUpIfDisabled .twi s.prr).2 }
  have e := (congrFun e1 Periph.twi).trans hu
  exact ⟨e, e⟩

/-- And the AVR build never sets the reduced resolution it takes for granted afterwards: it sends the new register value with the
read command, which the chip ignores. -/
theorem C146_refuted_config (s : Sht21) : (s.init true).inited = true ∧ (s.init true).chip.userReg = s.chip.userReg := by
  refine ⟨rfl, ?_⟩
  show (s.chip.write 0xe7 ((s.chip.userReg &&& 0x38) ||| 3)).userReg = _
  unfold Sht21Chip.write; rw [if_neg (by decide)]

/-- The EFR32 build does: 8-bit humidity and 12-bit temperature (bits 7 and 0 are 0 and 1), heater off (bit 2), reserved bits 3
to 5 kept. -/
theorem C146_config_efr32 (s : Sht21) :
    (s.initEFR32).inited = true ∧ (s.initEFR32).chip.userReg &&& 0x38 = s.chip.userReg &&& 0x38 ∧
    (s.initEFR32).chip.userReg &&& 0xc7 = 3 := by
  have h : ∀ b : Byte, ((b &&& 0x38) ||| 3) &&& 0x38 = b &&& 0x38 ∧ ((b &&& 0x38) ||| 3) &&& 0xc7 = 3 := by
    apply forall_byte; decide +kernel
  have e : (s.initEFR32).chip.userReg = (s.chip.userReg &&& 0x38) ||| 3 := by
    show (s.chip.write (0xe7 &&& 0xfe) ((s.chip.userReg &&& 0x38) ||| 3)).userReg = _
    unfold Sht21Chip.write; rw [if_pos (by decide)]
  refine ⟨rfl, ?_, ?_⟩
  · rw [e]; exact (h _).1
  · rw [e]; exact (h _).2

/-! ## C147: SHT21 humidity -/

theorem rh_toNat (raw : Nat) (h : raw < 65536) :
    (sht21RH raw).toNat = if 125 * raw / 65536 < 6 then 250 + 125 * raw / 65536 else 125 * raw / 65536 - 6 := by
  unfold sht21RH
  rw [UInt8.toNat_sub, Nat.shiftRight_eq_div_pow, UInt8.toNat_ofNat']
  simp only [UInt8.reduceToNat]
  split <;> omega

/-- From a raw reading of 3146 (0%) up, the result is the data sheet's `-6 + 125 * S / 65536` rounded down, at most 118. -/
theorem C147_accuracy (raw : Nat) (h : 3146 ≤ raw) (h2 : raw < 65536) :
    ((sht21RH raw).toNat : Int) * 65536 ≤ -6 * 65536 + 125 * (raw : Int) ∧
    -6 * 65536 + 125 * (raw : Int) < ((sht21RH raw).toNat : Int) * 65536 + 65536 ∧ (sht21RH raw).toNat ≤ 118 := by
  rw [rh_toNat raw h2, if_neg (by omega)]
  omega

/-- A read whose data arrive returns and keeps the result, and the bus is powered as before. -/
theorem C147_read (initOk : Bool) (b1 b2 : Byte) (s : Sht21) :
    (s.readRH initOk (some (b1, b2))).1 = sht21RH (b1.toNat * 256 + b2.toNat / 4 * 4) ∧
    (s.readRH initOk (some (b1, b2))).2.rh = (s.readRH initOk (some (b1, b2))).1 ∧
    (s.readRH initOk (some (b1, b2))).2.prr = s.prr ∧ (s.readRH initOk (some (b1, b2))).2.temp = s.temp := by
  have hp := prr_restore .twi s.prr
  obtain ⟨e1, e2, e3, e4⟩ := init_fields initOk { s with prr := (powerUpIfDisabled .twi s.prr).2 }
  unfold Sht21.readRH
  dsimp only
  dsimp only at e1 e2 e3 e4
  rw [sht21Raw_eq, e1]
  exact ⟨rfl, rfl, hp, e2⟩

/-- The calls on the two sensors. -/
inductive ShtOp where
  | temp (initOk : Bool) (data : Option (Byte × Byte))
  | rh (initOk : Bool) (data : Option (Byte × Byte))

def shtAfter (s : Sht21) : List ShtOp → Sht21
  | [] => s
  | .temp i d :: h => ((shtAfter s h).readTemp i d).2
  | .rh i d :: h => ((shtAfter s h).readRH i d).2

/-- The humidity results of the reads that worked, newest first. -/
def rhResults : List ShtOp → List Nat
  | [] => []
  | .rh _ (some (b1, b2)) :: h => (sht21RH (b1.toNat * 256 + b2.toNat / 4 * 4)).toNat :: rhResults h
  | _ :: h => rhResults h

/-- The last result outside the band from 65 to 75. -/
def lastOutside : List Nat → Option Nat
  | [] => none
  | r :: h => if r < 65 ∨ 75 < r then some r else lastOutside h

/-- `isRHHighWithHyst()` over any history of reads: whether the last result outside the band was above it, and true as long as
there was none; `isRHHigh()` is about the last result alone. -/
theorem C147_hysteresis (s : Sht21) (h0 : s.high = true) (h : List ShtOp) :
    (shtAfter s h).high = (match lastOutside (rhResults h) with | none => true | some r => decide (75 < r)) ∧
    (∀ r rs, rhResults h = r :: rs → (shtAfter s h).isRHHigh = decide (75 < r)) := by
  induction h with
  | nil => exact ⟨h0, fun r rs e => by cases e⟩
  | cons op h ih =>
    obtain ⟨ih1, ih2⟩ := ih
    cases op with
    | temp i d =>
      have e1 : ((shtAfter s h).readTemp i d).2.high = (shtAfter s h).high ∧ ((shtAfter s h).readTemp i d).2.rh = (shtAfter s h).rh := by
        cases d with
        | none =>
          obtain ⟨e1, e2, e3, e4⟩ := init_fields i { shtAfter s h with prr := (powerUpIfDisabled .twi (shtAfter s h).prr).2 }
          exact ⟨e4, e3⟩
        | some p => obtain ⟨b1, b2⟩ := p; have := C146_read i b1 b2 (shtAfter s h); exact ⟨this.2.2.2.2, this.2.2.2.1⟩
      have er : rhResults (.temp i d :: h) = rhResults h := by cases d <;> rfl
      rw [er]
      refine ⟨e1.1.trans ih1, fun r rs e => ?_⟩
      have := ih2 r rs e
      unfold Sht21.isRHHigh at this ⊢
      show decide (((shtAfter s h).readTemp i d).2.rh.toNat > 70 + 5) = _
      rw [e1.2]; exact this
    | rh i d =>
      cases d with
      | none =>
        have := C146_failed_read i (shtAfter s h)
        have er : rhResults (.rh i none :: h) = rhResults h := rfl
        rw [er]
        refine ⟨this.2.2.2.2.trans ih1, fun r rs e => ?_⟩
        have h2 := ih2 r rs e
        unfold Sht21.isRHHigh at h2 ⊢
        show decide (((shtAfter s h).readRH i none).2.rh.toNat > 70 + 5) = _
        rw [this.2.2.2.1]; exact h2
      | some p =>
        obtain ⟨b1, b2⟩ := p
        have hr := C147_read i b1 b2 (shtAfter s h)
        have eh : ((shtAfter s h).readRH i (some (b1, b2))).2.high =
            if (sht21RH (b1.toNat * 256 + b2.toNat / 4 * 4)).toNat > 75 then true
            else if (sht21RH (b1.toNat * 256 + b2.toNat / 4 * 4)).toNat < 65 then false else (shtAfter s h).high := by
          unfold Sht21.readRH
          dsimp only
          obtain ⟨e1, e2, e3, e4⟩ := init_fields i { shtAfter s h with prr := (powerUpIfDisabled .twi (shtAfter s h).prr).2 }
          dsimp only at e4
          rw [sht21Raw_eq, e4]
        have er : rhResults (.rh i (some (b1, b2)) :: h) = (sht21RH (b1.toNat * 256 + b2.toNat / 4 * 4)).toNat :: rhResults h := rfl
        rw [er]
        constructor
        · show ((shtAfter s h).readRH i (some (b1, b2))).2.high = _
          rw [eh]
          generalize (sht21RH (b1.toNat * 256 + b2.toNat / 4 * 4)).toNat = r
          simp only [lastOutside]
          by_cases h75 : r > 75
          · rw [if_pos h75, if_pos (Or.inr h75)]; simp [h75]
          · by_cases h65 : r < 65
            · rw [if_neg h75, if_pos h65, if_pos (Or.inl h65)]; simp; omega
            · rw [if_neg h75, if_neg h65, if_neg (by omega)]; exact ih1
        · intro r rs e
          have e' : (sht21RH (b1.toNat * 256 + b2.toNat / 4 * 4)).toNat = r := (List.cons.inj e).1
          show decide (((shtAfter s h).readRH i (some (b1, b2))).2.rh.toNat > 70 + 5) = _
          rw [hr.2.1, hr.1, e']

/-- But the driest readings, which the chip can give (the formula goes down to -6%), come out as 250 to 255: not valid, and
taken for very damp. And the dampest come out above 100. -/
theorem C147_refuted_range (raw : Nat) (h : raw < 3146) (initOk : Bool) (s : Sht21) (b1 b2 : Byte)
    (hr : sht21Raw b1 b2 = raw) :
    250 ≤ (s.readRH initOk (some (b1, b2))).1.toNat ∧ rhValid (s.readRH initOk (some (b1, b2))).1 = false ∧
    (s.readRH initOk (some (b1, b2))).2.isRHHigh = true := by
  have h1 := C147_read initOk b1 b2 s
  rw [← sht21Raw_eq, hr] at h1
  have hv : 250 ≤ (sht21RH raw).toNat := by
    rw [rh_toNat raw (by omega), if_pos (by omega)]; omega
  refine ⟨by rw [h1.1]; exact hv, ?_, ?_⟩
  · rw [h1.1]; unfold rhValid; simp; omega
  · unfold Sht21.isRHHigh; rw [h1.2.1, h1.1]; simp; omega

/-- **C147, validity.** A humidity result is reported as valid exactly when the data sheet's formula gives from 0 up to, but not
including, 101%: 0% and 100% are valid. -/
theorem C147_valid (raw : Nat) (h2 : raw < 65536) :
    rhValid (sht21RH raw) = true ↔ 0 ≤ -6 * 65536 + 125 * (raw : Int) ∧ -6 * 65536 + 125 * (raw : Int) < 101 * 65536 := by
  have h := rh_toNat raw h2
  unfold rhValid
  rw [decide_eq_true_eq, h]
  split <;> omega

example : rhValid (sht21RH 55575) = true ∧ sht21RH 55575 = 100 ∧ rhValid (sht21RH 3146) = true ∧ rhValid (sht21RH 3145) = false := by
  decide +kernel

theorem C147_refuted_range_high : rhValid (sht21RH (sht21Raw 0xff 0xfc)) = false ∧ sht21RH (sht21Raw 0xff 0xfc) = 118 ∧
    sht21Raw 0 0 < 3146 := by decide +kernel

/-! ## C148: TMP112 -/

/-- The 12-bit two's complement value of the temperature register: sixteenths of a degree. -/
def twos12 (b1 b2 : Byte) : Int :=
  let u := b1.toNat * 16 + b2.toNat / 16
  if u < 2048 then u else u - 4096

theorem tmp_t16 (b1 b2 : Byte) : tmp112T16 b1 b2 = twos12 b1 b2 := by
  have h2 : (b2 >>> 4).toNat = b2.toNat / 16 := by
    rw [UInt8.toNat_shiftRight, Nat.shiftRight_eq_div_pow]; rfl
  have hlt : b2.toNat / 16 < 2 ^ 4 := by have := byte_lt b2; omega
  have hb := byte_lt b1
  have hs : ∀ b : Byte, (b &&& 0x80 != 0) = decide (128 ≤ b.toNat) := by apply forall_byte; decide +kernel
  unfold tmp112T16 twos12
  dsimp only
  rw [h2, ← Nat.shiftLeft_add_eq_or_of_lt hlt, Nat.shiftLeft_eq, hs]
  have hm : b1.toNat * 2 ^ 4 + b2.toNat / 16 < 2 ^ 12 := by omega
  by_cases hn : 128 ≤ b1.toNat
  · have he : (if decide (128 ≤ b1.toNat) = true then 0xf000 else 0) = 15 <<< 12 := by rw [if_pos (by simpa using hn)]; rfl
    rw [he, Nat.or_comm, ← Nat.shiftLeft_add_eq_or_of_lt hm, Nat.shiftLeft_eq]
    rw [if_neg (by omega), if_neg (by omega)]
    simp only [Int.ofNat_eq_natCast]; omega
  · have he : (if decide (128 ≤ b1.toNat) = true then 0xf000 else 0) = 0 := by rw [if_neg (by simpa using hn)]
    rw [he, Nat.or_zero, if_pos (by omega), if_pos (by omega)]
    simp only [Int.ofNat_eq_natCast]

/-- The bus treats the read well and the chip says within seven polls that the conversion is done. -/
def TmpGood (bus : Tmp112Bus) (b1 b2 : Byte) : Prop :=
  bus.start = false ∧ bus.sel = false ∧ bus.selT = false ∧ bus.fin = false ∧ bus.data = some (b1, b2) ∧
  ∃ k, k < 7 ∧ (∃ b, bus.poll k = some b ∧ b &&& 0x80 ≠ 0) ∧ ∀ i, i < k → ∃ b, bus.poll i = some b ∧ b &&& 0x80 = 0

/-- Something on the bus goes wrong. -/
def TmpBad (bus : Tmp112Bus) : Prop :=
  bus.start = true ∨ bus.sel = true ∨ bus.selT = true ∨ bus.fin = true ∨ bus.data = none ∨
  ∃ k, k < 7 ∧ bus.poll k = none ∧ ∀ i, i < k → ∃ b, bus.poll i = some b ∧ b &&& 0x80 = 0

theorem poll_good (bus : Tmp112Bus) (n j k : Nat) (hk : j ≤ k) (hkn : k < j + n)
    (hd : ∃ b, bus.poll k = some b ∧ b &&& 0x80 ≠ 0) (hb : ∀ i, j ≤ i → i < k → ∃ b, bus.poll i = some b ∧ b &&& 0x80 = 0) :
    tmp112Poll bus n j = true := by
  induction n generalizing j with
  | zero => omega
  | succ n ih =>
    unfold tmp112Poll
    rw [if_neg (by omega)]
    by_cases hj : j = k
    · subst hj
      obtain ⟨b, h1, h2⟩ := hd
      rw [h1]; simp [h2]
    · obtain ⟨b, h1, h2⟩ := hb j (Nat.le_refl _) (by omega)
      rw [h1]; simp only [h2]
      exact ih (j + 1) (by omega) (by omega) (fun i h3 h4 => hb i (by omega) h4)

theorem poll_none (bus : Tmp112Bus) (n j k : Nat) (hk : j ≤ k) (hkn : k < j + n) (hd : bus.poll k = none)
    (hb : ∀ i, j ≤ i → i < k → ∃ b, bus.poll i = some b ∧ b &&& 0x80 = 0) : tmp112Poll bus n j = false := by
  induction n generalizing j with
  | zero => omega
  | succ n ih =>
    unfold tmp112Poll
    rw [if_neg (by omega)]
    by_cases hj : j = k
    · subst hj; rw [hd]
    · obtain ⟨b, h1, h2⟩ := hb j (Nat.le_refl _) (by omega)
      rw [h1]; simp only [h2]
      exact ih (j + 1) (by omega) (by omega) (fun i h3 h4 => hb i (by omega) h4)

theorem poll_never (bus : Tmp112Bus) (n j : Nat) (hb : ∀ i, ∃ b, bus.poll i = some b ∧ b &&& 0x80 = 0) :
    tmp112Poll bus n j = true := by
  induction n generalizing j with
  | zero => rfl
  | succ n ih =>
    unfold tmp112Poll
    rw [if_neg (by omega)]
    obtain ⟨b, h1, h2⟩ := hb j
    rw [h1]; simp only [h2]; exact ih _

theorem tmp_success (bus : Tmp112Bus) (b1 b2 : Byte) (s : Tmp112) (h1 : bus.start = false) (h2 : bus.sel = false)
    (h3 : tmp112Poll bus 7 0 = true) (h4 : bus.selT = false) (h5 : bus.data = some (b1, b2)) (h6 : bus.fin = false) :
    s.read bus = (twos12 b1 b2, ⟨twos12 b1 b2, s.prr⟩) := by
  unfold Tmp112.read
  simp only [h1, h2, h3, h4, h5, h6, Bool.not_true, Bool.false_eq_true, if_false]
  rw [tmp_t16]
  have := prr_restore .twi s.prr
  simp only [Prod.mk.injEq, Tmp112.mk.injEq, true_and]
  exact this

/-- A good read returns the register as a signed number of sixteenths of a degree, keeps it for `get()` and leaves the bus
power as it was; the sensor is available afterwards unless it reads exactly -128 C. -/
theorem C148_read (bus : Tmp112Bus) (b1 b2 : Byte) (s : Tmp112) (h : TmpGood bus b1 b2) :
    s.read bus = (twos12 b1 b2, ⟨twos12 b1 b2, s.prr⟩) ∧ -2048 ≤ twos12 b1 b2 ∧ twos12 b1 b2 ≤ 2047 ∧
    ((s.read bus).2.isAvailable = false ↔ twos12 b1 b2 = -128 * 16) := by
  obtain ⟨h1, h2, h3, h4, h5, k, hk, hd, hb⟩ := h
  have e := tmp_success bus b1 b2 s h1 h2 (poll_good bus 7 0 k (by omega) (by omega) hd (fun i _ hi => hb i hi)) h3 h5 h4
  refine ⟨e, ?_, ?_, ?_⟩
  · unfold twos12; dsimp only; have := byte_lt b1; have := byte_lt b2; split <;> omega
  · unfold twos12; dsimp only; have := byte_lt b1; have := byte_lt b2; split <;> omega
  · rw [e]; unfold Tmp112.isAvailable
    simp only [decide_eq_false_iff_not, Decidable.not_not]
    constructor
    · intro h; rw [← h]; rfl
    · intro h; rw [h]; rfl

/-- A bus error at any step gives the error value, and `get()` is unchanged. -/
theorem C148_failed_read (bus : Tmp112Bus) (s : Tmp112) (h : TmpBad bus) :
    (s.read bus).1 = invalidTemp ∧ (s.read bus).2.value = s.value := by
  have hp : (∃ k, k < 7 ∧ bus.poll k = none ∧ ∀ i, i < k → ∃ b, bus.poll i = some b ∧ b &&& 0x80 = 0) → tmp112Poll bus 7 0 = false := by
    rintro ⟨k, hk, hd, hb⟩
    exact poll_none bus 7 0 k (by omega) (by omega) hd (fun i _ hi => hb i hi)
  unfold Tmp112.read
  dsimp only
  by_cases h1 : bus.start = true
  · rw [if_pos h1]; exact ⟨rfl, rfl⟩
  rw [if_neg h1]
  by_cases h2 : bus.sel = true
  · rw [if_pos h2]; exact ⟨rfl, rfl⟩
  rw [if_neg h2]
  by_cases h3 : tmp112Poll bus 7 0 = false
  · rw [h3]; exact ⟨rfl, rfl⟩
  have h3' : tmp112Poll bus 7 0 = true := by simpa using h3
  rw [h3']
  simp only [Bool.not_true, Bool.false_eq_true, if_false]
  by_cases h4 : bus.selT = true
  · rw [if_pos h4]; exact ⟨rfl, rfl⟩
  rw [if_neg h4]
  cases h5 : bus.data with
  | none => exact ⟨rfl, rfl⟩
  | some p =>
    obtain ⟨b1, b2⟩ := p
    dsimp only
    by_cases h6 : bus.fin = true
    · rw [if_pos h6]; exact ⟨rfl, rfl⟩
    · rcases h with h | h | h | h | h | h
      · exact absurd h h1
      · exact absurd h h2
      · exact absurd h h4
      · exact absurd h h6
      · rw [h5] at h; cases h
      · exact absurd (hp h) h3

/-- But a conversion that never finishes is not noticed: after seven polls the old contents of the register come back as a
reading. The test meant to catch it cannot be reached. -/
theorem C148_refuted_timeout (bus : Tmp112Bus) (b1 b2 : Byte) (s : Tmp112)
    (h1 : bus.start = false) (h2 : bus.sel = false) (h4 : bus.selT = false) (h5 : bus.data = some (b1, b2)) (h6 : bus.fin = false)
    (hb : ∀ i, ∃ b, bus.poll i = some b ∧ b &&& 0x80 = 0) : (s.read bus).1 = twos12 b1 b2 := by
  rw [tmp_success bus b1 b2 s h1 h2 (poll_never bus 7 0 hb) h4 h5 h6]

/-- And a failed read leaves the bus powered although it was not. -/
theorem C148_refuted_power (bus : Tmp112Bus) (s : Tmp112) (h : bus.start = true) (hp : s.prr .twi = false) :
    (s.read bus).2.prr .twi = true := by
  unfold Tmp112.read
  simp only [h, if_true, powerUpIfDisabled, hp, Bool.false_eq_true, if_false]

/-- 21.5 C and -0.0625 C; a good bus exists. -/
example : twos12 0x15 0x80 = 344 ∧ twos12 0xff 0xf0 = -1 ∧ TmpGood ⟨false, false, fun i => if i = 0 then some 0x31 else some 0xb1, false, some (0x15, 0x80), false⟩ 0x15 0x80 := by
  refine ⟨by decide +kernel, by decide +kernel, rfl, rfl, rfl, rfl, rfl, 1, by omega, ⟨0xb1, rfl, by decide⟩, ?_⟩
  intro i hi
  have : i = 0 := by omega
  subst this
  exact ⟨0x31, rfl, by decide⟩

/-! ## C151: ADC -/

theorem adcLoop_spec (late : Nat → Bool) (adc : Nat → Nat) (n old cur k : Nat) :
    k ≤ (adcLoop late adc n old cur k).2 ∧ (adcLoop late adc n old cur k).2 ≤ k + n ∧
    ((adcLoop late adc n old cur k).2 = k → (adcLoop late adc n old cur k).1 = cur ∧ (n ≠ 0 → late k = true)) ∧
    (k < (adcLoop late adc n old cur k).2 → (adcLoop late adc n old cur k).1 = adc ((adcLoop late adc n old cur k).2 - 1)) ∧
    ((adcLoop late adc n old cur k).2 < k + n →
      late (adcLoop late adc n old cur k).2 = true ∨
      (∃ p, (adcLoop late adc n old cur k).2 = p + 1 ∧ k ≤ p ∧ adc p = if p = k then old else adc (p - 1))) ∧
    (∀ i, k ≤ i → i + 1 < (adcLoop late adc n old cur k).2 → adc i ≠ if i = k then old else adc (i - 1)) := by
  induction n generalizing old cur k with
  | zero =>
    simp only [adcLoop]
    refine ⟨by omega, by omega, fun _ => ⟨(by trivial), fun h => absurd rfl h⟩, fun h => by omega, fun h => by omega, fun i h1 h2 => by omega⟩
  | succ n ih =>
    unfold adcLoop
    by_cases hl : late k = true
    · rw [if_pos hl]
      refine ⟨Nat.le_refl _, by omega, fun _ => ⟨rfl, fun _ => hl⟩, fun h => by simp only at h; omega, fun _ => Or.inl hl, fun i h1 h2 => by simp only at h2; omega⟩
    · rw [if_neg hl]
      by_cases he : adc k = old
      · rw [if_pos he]
        refine ⟨by simp only; omega, by simp only; omega, fun h => by simp only at h; omega, fun _ => rfl, fun _ => Or.inr ⟨k, rfl, Nat.le_refl _, ?_⟩, fun i h1 h2 => by simp only at h2; omega⟩
        rw [if_pos rfl]; exact he
      · rw [if_neg he]
        obtain ⟨i1, i2, i3, i4, i5, i6⟩ := ih (adc k) (adc k) (k + 1)
        generalize adcLoop late adc n (adc k) (adc k) (k + 1) = x at *
        refine ⟨by omega, by omega, fun h => by omega, fun _ => ?_, fun h => ?_, fun i h1 h2 => ?_⟩
        · by_cases hx : x.2 = k + 1
          · rw [(i3 hx).1, hx]; rfl
          · exact i4 (by omega)
        · rcases i5 (by omega) with h5 | ⟨p, hp, hkp, ha⟩
          · exact Or.inl h5
          · refine Or.inr ⟨p, hp, by omega, ?_⟩
            rw [if_neg (by omega)]
            by_cases hpk : p = k + 1
            · rw [if_pos hpk] at ha; rw [ha, hpk]; rfl
            · rw [if_neg hpk] at ha; exact ha
        · by_cases hik : i = k
          · rw [if_pos hik, hik]; exact he
          · rw [if_neg hik]
            have := i6 i (by omega) h2
            by_cases hik2 : i = k + 1
            · rw [if_pos hik2] at this; rw [hik2] at this ⊢; exact this
            · rw [if_neg hik2] at this; exact this

/-- A multi-sample read: it makes at most as many conversions as asked for; the result is the last conversion; it stops before that
number only because two conversions in a row agree or the cycle is over, and two that agree always stop it. The ADC is powered as
before. (Conversions give 10 bits.) -/
theorem C151_read (late : Nat → Bool) (adc : Nat → Nat) (n : Nat) (r : Prr) (h10 : ∀ k, adc k < 1024) (hn : n ≠ 0)
    (h0 : late 0 = false) : ∃ k, (adcRead late adc n r).2.1 = k + 1 ∧ (adcRead late adc n r).1 = adc k ∧ k < n ∧
      (k + 1 < n → late (k + 1) = true ∨ (0 < k ∧ adc k = adc (k - 1))) ∧
      (∀ i, 0 < i → i < k → adc i ≠ adc (i - 1)) ∧ (adcRead late adc n r).2.2 = r := by
  obtain ⟨i1, i2, i3, i4, i5, i6⟩ := adcLoop_spec late adc n 0xffff 0x400 0
  have hr : (adcRead late adc n r).2.2 = r := prr_restore .adc r
  have e1 : (adcRead late adc n r).1 = (adcLoop late adc n 0xffff 0x400 0).1 := rfl
  have e2 : (adcRead late adc n r).2.1 = (adcLoop late adc n 0xffff 0x400 0).2 := rfl
  rw [e1, e2]
  generalize adcLoop late adc n 0xffff 0x400 0 = x at *
  have hpos : x.2 ≠ 0 := by
    intro hc
    have := (i3 hc).2 hn
    rw [h0] at this; cases this
  refine ⟨x.2 - 1, by omega, i4 (by omega), by omega, ?_, ?_, hr⟩
  · intro hlt
    rw [show x.2 - 1 + 1 = x.2 from by omega] at hlt ⊢
    rcases i5 (by omega) with h | ⟨p, hp, _, ha⟩
    · exact Or.inl h
    · have hp' : x.2 - 1 = p := by omega
      rw [hp']
      by_cases hz : p = 0
      · rw [if_pos hz] at ha; have := h10 p; omega
      · rw [if_neg hz] at ha; exact Or.inr ⟨by omega, ha⟩
  · intro i h1 h2
    have := i6 i (by omega) (by omega)
    rw [if_neg (by omega)] at this; exact this

/-- Started too late in the cycle, the read makes no conversion and returns 1024, which is no 10-bit value; callers do not
check, and the supply voltage sensor takes it for 1.08 V. -/
theorem C151_refuted_timeout (late : Nat → Bool) (adc : Nat → Nat) (n : Nat) (r : Prr) (h0 : late 0 = true) :
    (adcRead late adc n r).1 = 1024 ∧ (adcRead late adc n r).2.1 = 0 ∧
    (∀ s : Supply, s.rawInv < 1024 → (s.read (adcRead late adc n r).1).1 = 108 ∧ (s.read (adcRead late adc n r).1).2.1 = .veryLow) := by
  have e : (adcRead late adc n r).1 = 1024 := by
    unfold adcRead
    cases n with
    | zero => rfl
    | succ n => simp [adcLoop, h0]
  refine ⟨e, ?_, ?_⟩
  · unfold adcRead
    cases n with
    | zero => rfl
    | succ n => simp [adcLoop, h0]
  · intro s hs
    rw [e]
    unfold Supply.read
    rw [if_neg (by omega)]
    decide +kernel

example : (adcRead (fun _ => false) (fun k => if k = 0 then 430 else 431) 3 (fun _ => false)).1 = 431 ∧
    (adcRead (fun _ => false) (fun k => if k = 0 then 430 else 431) 3 (fun _ => false)).2.1 = 3 := by decide +kernel

/-! ## C149: supply voltage -/

/-- The exact supply voltage in centivolts is 112530 / raw (a 1.1 V reference read as raw/1023 of the supply). The result is never
above it and less than 3 cV below it, up to 20 V. -/
theorem C149_accuracy (raw : Nat) (h : 55 ≤ raw) : supplyConv raw * raw ≤ 112530 ∧ 112530 < (supplyConv raw + 3) * raw := by
  unfold supplyConv
  rw [Nat.shiftRight_eq_div_pow, show (1023 <<< 6) % 65536 = 65472 from rfl]
  have hq : 65472 / raw * raw ≤ 65472 := Nat.div_mul_le_self _ _
  have hq2 : 65472 < (65472 / raw + 1) * raw := by
    have h1 := Nat.div_add_mod 65472 raw
    have h2 := Nat.mod_lt 65472 (show raw > 0 by omega)
    rw [Nat.add_mul, Nat.mul_comm (65472 / raw)]; omega
  have hq3 : 65472 / raw ≤ 1190 := by
    have := Nat.div_le_div_left (a := 65472) h (by omega); omega
  generalize 65472 / raw = q at *
  rw [Nat.mod_eq_of_lt (by omega)]
  have hc1 : 32 * (q * 55 / 2 ^ 5) ≤ 55 * q := by omega
  have hc2 : 55 * q + 55 ≤ 32 * (q * 55 / 2 ^ 5 + 3) := by omega
  generalize q * 55 / 2 ^ 5 = c at *
  have m1 := Nat.mul_le_mul_right raw hc1
  have m2 := Nat.mul_le_mul_right raw hc2
  rw [Nat.mul_assoc, Nat.mul_assoc] at m1
  rw [Nat.add_mul, Nat.mul_assoc, Nat.mul_assoc] at m2
  rw [Nat.add_mul] at hq2
  constructor
  · omega
  · omega

/-- A higher supply voltage (a lower raw reading) never gives a lower result. -/
theorem C149_monotone (r1 r2 : Nat) (h : 55 ≤ r1) (h2 : r1 ≤ r2) : supplyConv r2 ≤ supplyConv r1 := by
  have hq3 : 65472 / r1 ≤ 1190 := by
    have := Nat.div_le_div_left (a := 65472) h (by omega); omega
  have hq : 65472 / r2 ≤ 65472 / r1 := Nat.div_le_div_left h2 (by omega)
  unfold supplyConv
  rw [Nat.shiftRight_eq_div_pow, Nat.shiftRight_eq_div_pow, show (1023 <<< 6) % 65536 = 65472 from rfl]
  generalize 65472 / r1 = q1 at *
  generalize 65472 / r2 = q2 at *
  rw [Nat.mod_eq_of_lt (by omega), Nat.mod_eq_of_lt (by omega)]
  omega

/-- The sensor after a number of reads (raw readings, the latest first). -/
def supplyAfter : List Nat → Supply
  | [] => Supply.init
  | raw :: h => ((supplyAfter h).read raw).2.2

/-- What the ADC can give on a supply below 20 V. -/
def PlausibleRaws (h : List Nat) : Prop := ∀ r ∈ h, 55 ≤ r ∧ r ≤ 1024

theorem supply_inv (h : List Nat) (hp : PlausibleRaws h) : (h = [] ∧ supplyAfter h = Supply.init) ∨
    (∃ raw t, h = raw :: t ∧ raw ≤ (supplyAfter h).rawInv ∧ (supplyAfter h).rawInv ≤ raw + 6 ∧ (supplyAfter h).rawInv ≤ 1024 ∧
      (supplyAfter h).value = supplyConv (supplyAfter h).rawInv ∧
      (supplyAfter h).isVeryLow = decide ((supplyAfter h).value ≤ 210) ∧
      (supplyAfter h).isLow = decide ((supplyAfter h).value ≤ 245)) := by
  induction h with
  | nil => exact Or.inl ⟨rfl, rfl⟩
  | cons raw t ih =>
    right
    refine ⟨raw, t, rfl, ?_⟩
    have hraw := hp raw List.mem_cons_self
    have ih := ih (fun r hr => hp r (List.mem_cons_of_mem _ hr))
    show raw ≤ ((supplyAfter t).read raw).2.2.rawInv ∧ ((supplyAfter t).read raw).2.2.rawInv ≤ raw + 6 ∧ ((supplyAfter t).read raw).2.2.rawInv ≤ 1024 ∧
      ((supplyAfter t).read raw).2.2.value = supplyConv ((supplyAfter t).read raw).2.2.rawInv ∧
      ((supplyAfter t).read raw).2.2.isVeryLow = decide (((supplyAfter t).read raw).2.2.value ≤ 210) ∧
      ((supplyAfter t).read raw).2.2.isLow = decide (((supplyAfter t).read raw).2.2.value ≤ 245)
    unfold Supply.read
    by_cases hc : raw ≤ (supplyAfter t).rawInv ∧ (supplyAfter t).rawInv - raw ≤ 6
    · rw [if_pos hc]
      rcases ih with ⟨_, h2⟩ | ⟨_, _, _, _, _, h3, h4, h5, h6⟩
      · rw [h2] at hc
        have : Supply.init.rawInv = 65535 := rfl
        omega
      · exact ⟨hc.1, by have := hc.2; dsimp only; omega, h3, h4, h5, h6⟩
    · rw [if_neg hc]
      refine ⟨Nat.le_refl _, by dsimp only; omega, hraw.2, rfl, rfl, ?_⟩
      dsimp only
      rw [← Bool.decide_or]
      apply decide_eq_decide.2
      omega

/-- After any number of reads, the value `read()` returned and `get()` gives never overstates the supply and is at most that of
a reading 6 counts worse; the two flags say whether it is at most 2.1 V and 2.45 V. -/
theorem C149_value (raw : Nat) (h : List Nat) (hp : PlausibleRaws (raw :: h)) :
    ((supplyAfter h).read raw).1 = (supplyAfter (raw :: h)).value ∧
    supplyConv (raw + 6) ≤ (supplyAfter (raw :: h)).value ∧ (supplyAfter (raw :: h)).value ≤ supplyConv raw ∧
    (supplyAfter (raw :: h)).isVeryLow = decide ((supplyAfter (raw :: h)).value ≤ 210) ∧
    (supplyAfter (raw :: h)).isLow = decide ((supplyAfter (raw :: h)).value ≤ 245) := by
  have hraw := hp raw List.mem_cons_self
  rcases supply_inv (raw :: h) hp with ⟨h1, _⟩ | ⟨r, t, he, h1, h2, h3, h4, h5, h6⟩
  · cases h1
  · obtain ⟨rfl, rfl⟩ := List.cons.inj he
    refine ⟨?_, ?_, ?_, h5, h6⟩
    · show _ = ((supplyAfter h).read raw).2.2.value
      unfold Supply.read
      by_cases hc : raw ≤ (supplyAfter h).rawInv ∧ (supplyAfter h).rawInv - raw ≤ 6
      · rw [if_pos hc]
      · rw [if_neg hc]
    · rw [h4]; exact C149_monotone _ _ (by omega) h2
    · rw [h4]; exact C149_monotone _ _ hraw.1 h1

/-- Before the first read, and after any: very low entails low, mains entails not low, and not low entails a value that is not
zero. At the start the supply counts as very low. -/
theorem C149_flags (h : List Nat) (hp : PlausibleRaws h) :
    ((supplyAfter h).isVeryLow = true → (supplyAfter h).isLow = true) ∧
    ((supplyAfter h).isMains = true → (supplyAfter h).isLow = false) ∧
    ((supplyAfter h).isLow = false → (supplyAfter h).value ≠ 0) ∧ (supplyAfter []).isVeryLow = true := by
  rcases supply_inv h hp with ⟨_, h2⟩ | ⟨r, t, he, h1, h2, h3, h4, h5, h6⟩
  · rw [h2]; exact ⟨fun _ => rfl, (fun hm => by revert hm; decide), (fun hm => by cases hm), rfl⟩
  · rw [h5, h6]
    unfold Supply.isMains
    refine ⟨fun a => ?_, fun a => ?_, fun a => ?_, rfl⟩
    · have := of_decide_eq_true a; exact decide_eq_true (by omega)
    · have := of_decide_eq_true a; exact decide_eq_false (by omega)
    · have := of_decide_eq_false a; omega

theorem supply_cons (raw : Nat) (t : List Nat) : supplyAfter (raw :: t) = ((supplyAfter t).read raw).2.2 := rfl

/-- No dithering: once the reading in force (`getRawInv()`) and the new readings are all within 6 counts of each other, the reported
value never goes up again, whatever the readings do in that band. -/
theorem C149_no_dither (m raw : Nat) (h t : List Nat) (hp : PlausibleRaws (raw :: h ++ t))
    (hstart : m ≤ (supplyAfter t).rawInv ∧ (supplyAfter t).rawInv ≤ m + 6) (hband : ∀ r ∈ raw :: h, m ≤ r ∧ r ≤ m + 6) :
    (supplyAfter (raw :: h ++ t)).value ≤ (supplyAfter (h ++ t)).value := by
  have inv : ∀ h : List Nat, (∀ r ∈ h, m ≤ r ∧ r ≤ m + 6) → m ≤ (supplyAfter (h ++ t)).rawInv ∧ (supplyAfter (h ++ t)).rawInv ≤ m + 6 := by
    intro h hb
    induction h with
    | nil => exact hstart
    | cons a b ih =>
      have ih := ih (fun r hr => hb r (List.mem_cons_of_mem _ hr))
      have ha := hb a List.mem_cons_self
      rw [List.cons_append, supply_cons]
      unfold Supply.read
      by_cases hc : a ≤ (supplyAfter (b ++ t)).rawInv ∧ (supplyAfter (b ++ t)).rawInv - a ≤ 6
      · rw [if_pos hc]; exact ih
      · rw [if_neg hc]; exact ha
  have hi := inv h (fun r hr => hband r (List.mem_cons_of_mem _ hr))
  have ha := hband raw List.mem_cons_self
  have hpl := hp raw List.mem_cons_self
  rw [List.cons_append, supply_cons]
  unfold Supply.read
  by_cases hc : raw ≤ (supplyAfter (h ++ t)).rawInv ∧ (supplyAfter (h ++ t)).rawInv - raw ≤ 6
  · rw [if_pos hc]; exact Nat.le_refl _
  · rw [if_neg hc]
    have hp2 : PlausibleRaws (h ++ t) := fun r hr => hp r (List.mem_cons_of_mem _ hr)
    rcases supply_inv (h ++ t) hp2 with ⟨h1, h2⟩ | ⟨r, t', he, h1, h2, h3, h4, _⟩
    · rw [h2] at hi
      have : Supply.init.rawInv = 65535 := rfl
      omega
    · rw [h4]
      dsimp only
      have h55 : 55 ≤ (supplyAfter (h ++ t)).rawInv := by
        have := hp2 r (by rw [he]; exact List.mem_cons_self); omega
      exact C149_monotone _ _ h55 (by omega)

/-- A read that changes the value reports a very low or a low supply, one that keeps it reports nothing. -/
theorem C149_report (raw : Nat) (s : Supply) :
    ((s.read raw).2.1 = .veryLow ↔ (s.read raw).2.2.rawInv = raw ∧ ¬ (raw ≤ s.rawInv ∧ s.rawInv ≤ raw + 6) ∧ (s.read raw).1 ≤ 210) ∧
    ((s.read raw).2.1 = .low ↔ (s.read raw).2.2.rawInv = raw ∧ ¬ (raw ≤ s.rawInv ∧ s.rawInv ≤ raw + 6) ∧ 210 < (s.read raw).1 ∧ (s.read raw).1 ≤ 245) := by
  unfold Supply.read
  by_cases hc : raw ≤ s.rawInv ∧ s.rawInv - raw ≤ 6
  · rw [if_pos hc]
    have hc' : raw ≤ s.rawInv ∧ s.rawInv ≤ raw + 6 := by omega
    exact ⟨⟨fun h => (by cases h), fun h => absurd hc' h.2.1⟩, ⟨fun h => (by cases h), fun h => absurd hc' h.2.1⟩⟩
  · rw [if_neg hc]
    have hc' : ¬ (raw ≤ s.rawInv ∧ s.rawInv ≤ raw + 6) := by omega
    dsimp only
    by_cases h1 : supplyConv raw ≤ 210
    · have e : decide (supplyConv raw ≤ 210) = true := decide_eq_true h1
      rw [e]
      exact ⟨⟨fun _ => ⟨rfl, hc', h1⟩, fun _ => rfl⟩, ⟨fun h => (by cases h), fun h => by omega⟩⟩
    · have e : decide (supplyConv raw ≤ 210) = false := decide_eq_false h1
      rw [e]
      by_cases h2 : supplyConv raw ≤ 245
      · have e2 : decide (supplyConv raw ≤ 245) = true := decide_eq_true h2
        rw [e2]
        exact ⟨⟨fun h => (by cases h), fun h => by omega⟩, ⟨fun _ => ⟨rfl, hc', by omega, h2⟩, fun _ => rfl⟩⟩
      · have e2 : decide (supplyConv raw ≤ 245) = false := decide_eq_false h2
        rw [e2]
        exact ⟨⟨fun h => (by cases h), fun h => by omega⟩, ⟨fun h => (by cases h), fun h => by omega⟩⟩

/-- The values the code's comment gives, and a small rise that is held back, then let through. -/
example : supplyConv 430 = 261 ∧ supplyConv 431 = 259 ∧ supplyConv 433 = 259 ∧ supplyConv 434 = 257 ∧
    (supplyAfter [431, 436]).value = 257 ∧ (supplyAfter [429, 431, 436]).value = 261 ∧
    PlausibleRaws [429, 431, 436] := by
  refine ⟨by decide, by decide, by decide, by decide, by decide, by decide, ?_⟩
  intro r hr; simp at hr; omega

/-! ## C152: voice detector -/

inductive QmEv where
  | irq
  | read (minute : Nat)

/-- The detector after a history (latest first). -/
def qmAfter (cb : Bool) : List QmEv → Res Qm1
  | [] => .ok ⟨0, 0, false, 0, cb⟩
  | .irq :: h => match qmAfter cb h with
    | .ok s => s.irq
    | r => r
  | .read m :: h => match qmAfter cb h with
    | .ok s => .ok (s.read m)
    | r => r

/-- Detections since the last read in a minute divisible by four, at most 255. -/
def qmCount : List QmEv → Nat
  | [] => 0
  | .irq :: h => min 255 (qmCount h + 1)
  | .read m :: h => if m % 4 = 0 then 0 else qmCount h

/-- That number at the last read. -/
def qmAtRead : List QmEv → Nat
  | [] => 0
  | .irq :: h => qmAtRead h
  | .read _ :: h => qmCount h

/-- How many detections brought the count to 4 or more. -/
def qmCalls : List QmEv → Nat
  | [] => 0
  | .irq :: h => qmCalls h + (if 3 ≤ qmCount h ∧ qmCount h < 255 then 1 else 0)
  | .read _ :: h => qmCalls h

/-- With a callback set: `get()` is the count at the last read; the voice flag is set exactly if the count now, or that at the
last read, is at least 4; the callback has run once for each detection from the fourth on. -/
theorem C152_voice (h : List QmEv) : ∃ s, qmAfter true h = .ok s ∧ s.count.toNat = qmCount h ∧ s.value.toNat = qmAtRead h ∧
    (s.det = true ↔ 4 ≤ qmCount h ∨ 4 ≤ qmAtRead h) ∧ s.calls = qmCalls h ∧ s.cb = true := by
  induction h with
  | nil => exact ⟨_, rfl, rfl, rfl, ⟨fun h => (by cases h), fun h => (by simp [qmCount, qmAtRead] at h)⟩, rfl, rfl⟩
  | cons e h ih =>
    obtain ⟨s, hs, hc, hv, hd, hn, hcb⟩ := ih
    cases e with
    | irq =>
      simp only [qmAfter, hs, Qm1.irq]
      have hb := byte_lt s.count
      by_cases h1 : s.count.toNat < 255
      · rw [if_pos h1]
        have e1 : (s.count + 1).toNat = s.count.toNat + 1 := by rw [UInt8.toNat_add]; simp; omega
        by_cases h2 : s.count.toNat + 1 ≥ 4
        · rw [if_pos h2, hcb, if_pos rfl]
          refine ⟨_, rfl, ?_, hv, ?_, ?_, rfl⟩
          · simp only [qmCount]; rw [e1]; omega
          · simp only [qmCount, qmAtRead, true_iff]; omega
          · simp only [qmCalls]; rw [if_pos (by omega), hn]
        · rw [if_neg h2]
          refine ⟨_, rfl, ?_, hv, ?_, ?_, hcb⟩
          · simp only [qmCount]; rw [e1]; omega
          · simp only [qmCount, qmAtRead]; rw [hd]; omega
          · simp only [qmCalls]; rw [if_neg (by omega), hn]; rfl
      · rw [if_neg h1]
        refine ⟨s, rfl, ?_, hv, ?_, ?_, hcb⟩
        · simp only [qmCount]; omega
        · simp only [qmCount, qmAtRead]; rw [hd]; omega
        · simp only [qmCalls]; rw [if_neg (by omega), hn]; rfl
    | read m =>
      have hm : m &&& 3 = m % 4 := Nat.and_two_pow_sub_one_eq_mod m 2
      simp only [qmAfter, hs, Qm1.read, hm, qmCount, qmAtRead, qmCalls]
      by_cases hz : m % 4 = 0
      · rw [if_pos hz, if_pos hz]
        refine ⟨_, rfl, rfl, hc, ?_, hn, hcb⟩
        dsimp only; rw [decide_eq_true_eq]; omega
      · rw [if_neg hz, if_neg hz]
        refine ⟨_, rfl, hc, hc, ?_, hn, hcb⟩
        dsimp only; rw [decide_eq_true_eq]; omega

/-- But without a callback, which the interface allows, the fourth detection calls through a null pointer. -/
theorem C152_refuted_null_callback : qmAfter false [.irq, .irq, .irq, .irq] = .ub := by decide +kernel

example : qmCount [.irq, .irq, .read 3, .irq, .irq, .irq] = 5 ∧ qmCalls [.irq, .irq, .read 3, .irq, .irq, .irq] = 2 ∧
    qmCount [.irq, .read 4, .irq, .irq, .irq, .irq] = 1 := by decide +kernel

end OTR.Props
