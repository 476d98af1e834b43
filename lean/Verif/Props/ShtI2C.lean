import Verif.Model.ShtI2C
import Verif.Props.I2C
import Verif.Props.Sensors
/-!
# C244 — SHT21 readings on the EFR32
-/

namespace OTR.Props
open OTR

/-- **C244** If the transfer of a read succeeds, the values are those of the two bytes the sensor gave, by the formulas of C146 and C147; the other sensor's value is left alone.
(`h` is the bus when the transfer starts.) -/
theorem C244_read (s : I2CSlave) (bus : Nat → Nat → I2CTick) (e : ShtE) (cmd : Byte) (h : I2CHw) (hi : h = (if e.inited then e.hw else (e.init s bus).hw))
    (hok : (i2cRead s (bus 2) 0x40 (some [cmd]) (some [0, 0]) h).1 = .done) :
    let t := busTurn (lineBefore h) 0x80 [cmd]
    let raw := (slaveByte s t 0).toNat * 256 + (slaveByte s t 1).toNat / 4 * 4
    (cmd = 0xe3 → (e.readTemp s bus).1 = sht21C16 raw ∧ (e.readTemp s bus).2.temp = sht21C16 raw ∧ (e.readTemp s bus).2.rh = e.rh ∧ (e.readTemp s bus).2.high = e.high ∧
      (e.readTemp s bus).2.hw.tr = busRead s (lineBefore h) 0x80 [0xe3] 2) ∧
    (cmd = 0xe5 → (e.readRH s bus).1 = sht21RH raw ∧ (e.readRH s bus).2.rh = sht21RH raw ∧ (e.readRH s bus).2.temp = e.temp ∧
      (e.readRH s bus).2.high = (if 75 < (sht21RH raw).toNat then true else if (sht21RH raw).toNat < 65 then false else e.high) ∧
      (e.readRH s bus).2.hw.tr = busRead s (lineBefore h) 0x80 [0xe5] 2) := by
  dsimp only
  obtain ⟨h1, _⟩ := C243_read s (bus 2) 0x40 [cmd] [0, 0] h (by simp) (by simp)
  obtain ⟨h2, h3⟩ := h1 hok
  have ha : u8 (2 * 0x40) = 0x80 := by decide
  rw [ha] at h2 h3
  have hh : (if e.inited = true then e else e.init s bus).hw = h := by rw [hi]; cases e.inited <;> rfl
  have hf : (if e.inited = true then e else e.init s bus).rh = e.rh ∧ (if e.inited = true then e else e.init s bus).high = e.high ∧
      (if e.inited = true then e else e.init s bus).temp = e.temp := by cases e.inited <;> exact ⟨rfl, rfl, rfl⟩
  have hraw : e.raw cmd s bus = ((slaveByte s (busTurn (lineBefore h) 0x80 [cmd]) 0).toNat * 256 + (slaveByte s (busTurn (lineBefore h) 0x80 [cmd]) 1).toNat / 4 * 4,
      { (if e.inited = true then e else e.init s bus) with hw := (i2cRead s (bus 2) 0x40 (some [cmd]) (some [0, 0]) h).2.2 }) := by
    unfold ShtE.raw
    dsimp only
    rw [hh, h3, sht21Raw_eq]
    rfl
  constructor
  · rintro rfl
    unfold ShtE.readTemp
    dsimp only
    rw [hraw]
    exact ⟨rfl, rfl, hf.1, hf.2.1, h2⟩
  · rintro rfl
    unfold ShtE.readRH
    dsimp only
    rw [hraw]
    refine ⟨rfl, rfl, hf.2.2, ?_, h2⟩
    dsimp only
    rw [hf.2.1]

/-- **C244** Initialisation, if both transfers succeed: the sensor's own user register is read and written back with the resolution bits set, the heater off and the reserved bits kept; the sensors' values are left alone. -/
theorem C244_init (s : I2CSlave) (bus : Nat → Nat → I2CTick) (e : ShtE) (hr : (i2cRead s (bus 0) 0x40 (some [0xe7]) (some [0]) e.hw).1 = .done)
    (hw : ∀ v, (i2cWrite s (bus 1) 0x40 (some [0xe6, v]) (i2cRead s (bus 0) 0x40 (some [0xe7]) (some [0]) e.hw).2.2).1 = .done) :
    ∃ v, (e.init s bus).hw.tr = busWrite (lineBefore (i2cRead s (bus 0) 0x40 (some [0xe7]) (some [0]) e.hw).2.2) 0x80 [0xe6, v] ++ [.stop] ∧
      v &&& 0x38 = slaveByte s (busTurn (lineBefore e.hw) 0x80 [0xe7]) 0 &&& 0x38 ∧ v &&& 0xc7 = 3 ∧
      (e.init s bus).inited = true ∧ (e.init s bus).temp = e.temp ∧ (e.init s bus).rh = e.rh ∧ (e.init s bus).high = e.high := by
  have hb : ∀ b : Byte, ((b &&& 0x38) ||| 3) &&& 0x38 = b &&& 0x38 ∧ ((b &&& 0x38) ||| 3) &&& 0xc7 = 3 := by
    apply forall_byte; decide +kernel
  refine ⟨(slaveByte s (busTurn (lineBefore e.hw) 0x80 [0xe7]) 0 &&& 0x38) ||| 3, ?_, (hb _).1, (hb _).2, rfl, rfl, rfl, rfl⟩
  have ha : u8 (2 * 0x40) = 0x80 := by decide
  have h3 := ((C243_read s (bus 0) 0x40 [0xe7] [0] e.hw (by simp) (by simp)).1 hr).2
  have h2 := (C243_write s (bus 1) 0x40 [0xe6, (slaveByte s (busTurn (lineBefore e.hw) 0x80 [0xe7]) 0 &&& 0x38) ||| 3] _ (by simp)).1 (hw _)
  rw [ha] at h2 h3
  unfold ShtE.init
  dsimp only
  rw [h3]
  exact h2

/-- **C244 (refuted)** A sensor that does not answer is not noticed: whatever the state, a read that is not acknowledged returns and keeps -46.9C, and a humidity of 250% that counts as high. -/
theorem C244_refuted_failure (s : I2CSlave) (bus : Nat → Nat → I2CTick) (e : ShtE) (hi : e.inited = true) :
    ((i2cRead s (bus 2) 0x40 (some [0xe3]) (some [0, 0]) e.hw).1 = .nack → (e.readTemp s bus).1 = -750 ∧ (e.readTemp s bus).2.temp = -750 ∧ (-750 : Int) ≠ invalidTemp) ∧
    ((i2cRead s (bus 2) 0x40 (some [0xe5]) (some [0, 0]) e.hw).1 = .nack → (e.readRH s bus).1 = 250 ∧ (e.readRH s bus).2.rh = 250 ∧ (e.readRH s bus).2.high = true) := by
  constructor
  · intro hn
    obtain ⟨_, h2, _⟩ := C243_read s (bus 2) 0x40 [0xe3] [0, 0] e.hw (by simp) (by simp)
    obtain ⟨t, b, _, _, _, h3⟩ := h2 hn
    unfold ShtE.readTemp ShtE.raw
    simp only [hi, if_true, h3]
    decide
  · intro hn
    obtain ⟨_, h2, _⟩ := C243_read s (bus 2) 0x40 [0xe5] [0, 0] e.hw (by simp) (by simp)
    obtain ⟨t, b, _, _, _, h3⟩ := h2 hn
    unfold ShtE.readRH ShtE.raw
    simp only [hi, if_true, h3]
    refine ⟨by decide, by decide, ?_⟩
    rw [if_pos (by decide)]

/-- A sensor at 25C and about half humid, on a fresh bus: initialised and read. -/
example : let s : I2CSlave := ⟨fun _ _ => true, fun t => if t.length % 2 = 0 then 0x68 else 0x78⟩
    let e : ShtE := ⟨false, 0, 0, true, freeBus⟩
    (e.readTemp s (fun _ _ => .act)).2.inited = true ∧ (e.readTemp s (fun _ _ => .act)).2.hw.tr.length = 23 := by
  exact ⟨rfl, rfl⟩

/-- No sensor. -/
example : let e : ShtE := ⟨true, 320, 50, false, freeBus⟩
    (i2cRead ⟨fun _ _ => false, fun _ => 0⟩ (fun _ => .act) 0x40 (some [0xe3]) (some [0, 0]) e.hw).1 = .nack ∧
    (e.readTemp ⟨fun _ _ => false, fun _ => 0⟩ (fun _ _ => .act)).1 = -750 := ⟨rfl, rfl⟩

end OTR.Props
