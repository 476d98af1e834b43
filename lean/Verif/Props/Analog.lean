import Verif.Model.Analog
import Verif.Props.Sensors
import Verif.Props.Entropy
/-!
# The ADC and comparator: C194–C197
-/

namespace OTR.Props

/-- Between uses: enabled exactly while powered, no interrupt, no free running, comparator off and its reference disconnected. -/
structure Rest (r : AReg) : Prop where
  enabled : r.aden = r.powered
  adie : r.adie = false
  adate : r.adate = false
  acd : r.acd = true
  acbg : r.acbg = false
  acie : r.acie = false

theorem setup_rest (r : AReg) : Rest r.setup := ⟨rfl, rfl, rfl, rfl, rfl, rfl⟩

theorem multi_rest {r : AReg} (h : Rest r) (m : Byte) (s : Nat) (late : Nat → Bool) (adc : Nat → Nat) :
    Rest (r.multi m s late adc).2.1 ∧ (r.multi m s late adc).2.1.powered = r.powered ∧
      ∀ w ∈ (r.multi m s late adc).2.2, w.converts = true ∧ w.admux = m := by
  obtain ⟨h1, h2, h3, h4, h5, h6⟩ := h
  obtain ⟨p, a, ie, at', ps, me, cd, bg, ci, mx⟩ := r
  dsimp only at h1 h2 h3 h4 h5 h6
  subst h1 h2 h3 h4 h5 h6
  unfold AReg.multi AReg.powerUp
  cases a with
  | true =>
    refine ⟨⟨rfl, rfl, rfl, rfl, rfl, rfl⟩, rfl, fun w hw => ?_⟩
    rw [List.eq_of_mem_replicate hw]
    exact ⟨rfl, rfl⟩
  | false =>
    refine ⟨⟨rfl, rfl, rfl, rfl, rfl, rfl⟩, rfl, fun w hw => ?_⟩
    rw [List.eq_of_mem_replicate hw]
    exact ⟨rfl, rfl⟩

theorem noisy_rest {r : AReg} (h : Rest r) (b t : NConv) (cs : List NConv) :
    Rest (r.noisy b t cs).2.1 ∧ (r.noisy b t cs).2.1.powered = r.powered ∧
      (∀ w ∈ (r.noisy b t cs).2.2, w.converts = true) ∧
      (r.noisy b t cs).2.2.map (·.admux) = [0x4e, 0xc8, 0x40, 0x41, 0x42, 0x43, 0x44, 0x45, 0x46, 0x47] := by
  obtain ⟨h1, h2, h3, h4, h5, h6⟩ := h
  obtain ⟨p, a, ie, at', ps, me, cd, bg, ci, mx⟩ := r
  dsimp only at h1 h2 h3 h4 h5 h6
  subst h1 h2 h3 h4 h5 h6
  cases a with
  | true =>
    refine ⟨⟨rfl, rfl, rfl, rfl, rfl, rfl⟩, rfl, fun w hw => ?_, ?_⟩
    · simp only [AReg.noisy, AReg.powerUp, List.mem_cons, List.mem_map, if_true] at hw
      rcases hw with rfl | rfl | ⟨i, _, rfl⟩ <;> rfl
    · rfl
  | false =>
    refine ⟨⟨rfl, rfl, rfl, rfl, rfl, rfl⟩, rfl, fun w hw => ?_, ?_⟩
    · simp only [AReg.noisy, AReg.powerUp, List.mem_cons, List.mem_map, Bool.false_eq_true, if_false] at hw
      rcases hw with rfl | rfl | ⟨i, _, rfl⟩ <;> rfl
    · rfl

theorem op_rest {r : AReg} (h : Rest r) (o : AnOp) : Rest (r.op o).1 ∧ ∀ w ∈ (r.op o).2, w.converts = true := by
  cases o with
  | multi m s l a =>
    obtain ⟨h1, _, h3⟩ := multi_rest h m s l a
    exact ⟨h1, fun w hw => (h3 w hw).1⟩
  | bandgap ai c => exact ⟨⟨rfl, h.adie, h.adate, rfl, rfl, rfl⟩, fun w hw => by cases hw⟩
  | noisy b t cs =>
    obtain ⟨h1, _, h3, _⟩ := noisy_rest h b t cs
    exact ⟨h1, h3⟩
  | up =>
    refine ⟨?_, fun w hw => by cases hw⟩
    show Rest r.powerUp.2
    unfold AReg.powerUp
    split
    · exact h
    · exact ⟨rfl, h.adie, h.adate, h.acd, h.acbg, h.acie⟩
  | down => exact ⟨⟨rfl, h.adie, h.adate, h.acd, h.acbg, h.acie⟩, fun w hw => by cases hw⟩

theorem ops_rest {r : AReg} (h : Rest r) (os : List AnOp) : Rest (r.ops os).1 ∧ ∀ w ∈ (r.ops os).2, w.converts = true := by
  induction os generalizing r with
  | nil => exact ⟨h, fun w hw => by cases hw⟩
  | cons o t ih =>
    obtain ⟨a1, a2⟩ := op_rest h o
    obtain ⟨b1, b2⟩ := ih a1
    refine ⟨b1, fun w hw => ?_⟩
    rcases List.mem_append.1 (show w ∈ (r.op o).2 ++ _ from hw) with hw | hw
    · exact a2 w hw
    · exact b2 w hw

/-- **C194.** After `powerSetup()`, whatever analogue reads are made in whatever order, and whenever the application powers the ADC up or down
between them: no read ever waits for a conversion that cannot end (the ADC has power and is enabled, and its interrupt is enabled, at every wait); and after each
the ADC is enabled exactly if it has power, its interrupt and free running are off, the comparator is off and the reference disconnected. -/
theorem C194_no_stuck_read (r : AReg) (os : List AnOp) :
    (∀ w ∈ (r.setup.ops os).2, w.powered = true ∧ w.aden = true ∧ w.adie = true) ∧
    (r.setup.ops os).1.aden = (r.setup.ops os).1.powered ∧ (r.setup.ops os).1.adie = false ∧ (r.setup.ops os).1.adate = false ∧
    (r.setup.ops os).1.acd = true ∧ (r.setup.ops os).1.acbg = false := by
  obtain ⟨h1, h2⟩ := ops_rest (setup_rest r) os
  refine ⟨fun w hw => ?_, h1.enabled, h1.adie, h1.adate, h1.acd, h1.acbg⟩
  have := h2 w hw
  unfold AReg.converts at this
  rw [Bool.and_eq_true, Bool.and_eq_true] at this
  exact ⟨this.1.1, this.1.2, this.2⟩

/-- **C194.** Conversions are made with the multiplexer as asked: a read of input `ai` against reference `mode` sets reference bits `mode` and channel `ai`
(modulo 8); the comparison with the band gap is made with the ADC powered but disabled, so that the comparator gets the channel, the comparator on and the
reference connected. Each read but that comparison leaves ADC power as found. -/
theorem C194_right_input (r : AReg) (os : List AnOp) (ai mode : Byte) (hm : mode.toNat < 4) (s : Nat) (late : Nat → Bool) (adc : Nat → Nat) (c : Bool) (b t : NConv) (cs : List NConv) :
    let r1 := (r.setup.ops os).1
    (∀ w ∈ (r1.multi ((mode <<< 6) ||| (ai &&& 7)) s late adc).2.2, w.admux.toNat / 64 = mode.toNat ∧ w.admux.toNat % 64 = ai.toNat % 8) ∧
    (r1.multi ((mode <<< 6) ||| (ai &&& 7)) s late adc).2.1.powered = r1.powered ∧
    ((r1.bandgap ai c).1 = c ∧ (r1.bandgap ai c).2.2.powered = true ∧ (r1.bandgap ai c).2.2.aden = false ∧ (r1.bandgap ai c).2.2.acme = true ∧
      (r1.bandgap ai c).2.2.acd = false ∧ (r1.bandgap ai c).2.2.acbg = true ∧ (r1.bandgap ai c).2.2.admux.toNat = ai.toNat % 8) ∧
    (r1.noisy b t cs).2.1.powered = r1.powered ∧ (r1.noisy b t cs).2.2.length = 10 := by
  have hr := (ops_rest (setup_rest r) os).1
  generalize (r.setup.ops os).1 = r1 at hr
  dsimp only
  have h7 : ∀ x : Byte, (x &&& 7).toNat = x.toNat % 8 := by apply forall_byte; decide +kernel
  obtain ⟨n1, n2, n3, n4⟩ := noisy_rest hr b t cs
  obtain ⟨m1, m2, m3⟩ := multi_rest hr ((mode <<< 6) ||| (ai &&& 7)) s late adc
  refine ⟨?_, m2, ⟨rfl, rfl, rfl, rfl, rfl, rfl, h7 ai⟩, n2, by rw [← List.length_map (as := _) (fun w : AReg => w.admux), n4]; rfl⟩
  intro w hw
  rw [(m3 w hw).2]
  have : ∀ k : Fin 4, ∀ x : Byte, ((u8 k.val <<< 6) ||| (x &&& 7)).toNat / 64 = k.val ∧ ((u8 k.val <<< 6) ||| (x &&& 7)).toNat % 64 = x.toNat % 8 := by
    intro k
    apply forall_byte
    revert k
    decide +kernel
  have := this ⟨mode.toNat, hm⟩ ai
  have e : u8 mode.toNat = mode := by simp [u8]
  rw [e] at this
  exact this

/-- **C194** is false for power: a comparison with the band gap leaves the ADC without power even if it had power before. -/
theorem C194_refuted_bandgap_power (r : AReg) (ai : Byte) (c : Bool) : (r.bandgap ai c).2.1.powered = false := rfl

/-! ## C195: the internal temperature -/

/-- **C195** (what holds): for every reading from 168 to 480 the result is the linear formula (13.125 sixteenths of a degree per count, 0 at
324) rounded down, within 128C of zero, and monotone. -/
theorem C195_internal_partial (raw : Nat) (h1 : 168 ≤ raw) (h2 : raw ≤ 480) :
    ∃ v, internalC16 raw = some v ∧ v * 16 ≤ ((raw : Int) - 324) * 210 ∧ ((raw : Int) - 324) * 210 < v * 16 + 16 ∧ -2048 ≤ v ∧ v ≤ 2047 ∧
      ∀ raw', raw ≤ raw' → raw' ≤ 480 → ∃ v', internalC16 raw' = some v' ∧ v ≤ v' := by
  have key : ∀ raw : Nat, 168 ≤ raw → raw ≤ 480 → internalC16 raw = some ((((raw : Int) - 324) * 210) / 16) := by
    intro raw h1 h2
    unfold internalC16
    dsimp only
    rw [if_neg (by omega)]
  refine ⟨_, key raw h1 h2, by omega, by omega, by omega, by omega, fun raw' h3 h4 => ⟨_, key raw' (by omega) h4, by omega⟩⟩

/-- **C195** is false for other readings: the 16-bit product overflows for every ADC value below 168 or above 480, and for the value 1024 the read gives if
it was started too late in the cycle (C151). -/
theorem C195_refuted_overflow (raw : Nat) (h : raw < 168 ∨ 480 < raw) : internalC16 raw = none := by
  unfold internalC16
  dsimp only
  rw [if_pos (by omega)]

theorem C195_refuted_timeout (late : Nat → Bool) (adc : Nat → Nat) (h0 : late 0 = true) (r : AReg) :
    internalC16 (r.multi 0xc8 1 late adc).1 = none := by
  have : (r.multi 0xc8 1 late adc).1 = 1024 := by
    unfold AReg.multi
    simp [adcLoop, h0]
  rw [this]
  exact C195_refuted_overflow _ (.inr (by decide))

/-! ## C196: the noisy read -/

theorem xor_cancel' (a b c : Byte) (h : a ^^^ b = a ^^^ c) : b = c := by
  have : a ^^^ (a ^^^ b) = a ^^^ (a ^^^ c) := by rw [h]
  simpa [← UInt8.xor_assoc] using this

theorem crcIbutton_inj_data (c : Byte) (x y : Byte) (h : crcIbutton c x = crcIbutton c y) : x = y := by
  have inj : ∀ x y : Byte, crcIbutton 0 x = crcIbutton 0 y → x = y := by
    have : ∃ g : Byte → Byte, ∀ x, g (crcIbutton 0 x) = x := by
      refine ⟨fun z => ((List.range 256).map u8).find? (fun x => crcIbutton 0 x == z) |>.getD 0, ?_⟩
      apply forall_byte
      decide +kernel
    obtain ⟨g, hg⟩ := this
    intro x y h
    rw [← hg x, ← hg y, h]
  have e : ∀ x, crcIbutton c x = crcIbutton 0 (c ^^^ x) := fun x => by unfold crcIbutton; simp
  rw [e, e] at h
  exact xor_cancel' c x y (inj _ _ h)

theorem narLoop_snoc (pre : List NConv) : ∀ (res : Byte) (n : Nat), ∃ res' n', ∀ c, narLoop (pre ++ [c]) res n =
    crcIbutton (res' ^^^ c.h) (c.l ^^^ u8 ((n' + c.polls) % 256)) := by
  induction pre with
  | nil => intro res n; exact ⟨res, n, fun c => rfl⟩
  | cons a t ih =>
    intro res n
    obtain ⟨r', n', h⟩ := ih (crcIbutton (res ^^^ a.h) (a.l ^^^ u8 ((n + a.polls) % 256))) ((n + a.polls) % 256)
    exact ⟨r', n', fun c => by rw [← h c]; rfl⟩

/-- **C196.** The noisy read wastes no noise in the low bits of the supply reading, nor in those of the last input read: with all else the same, two different low bytes give
two different results (so each result is equally likely if each low byte is), and likewise two different counts (modulo 256) of the
time the last conversion took. ADC power is as before, and ten conversions are made: the band gap and the temperature sensor, then the eight inputs. -/
theorem C196_noise_kept (b t : NConv) (cs : List NConv) :
    (∀ x y : Byte, narValue { b with l := x } t cs = narValue { b with l := y } t cs → x = y) ∧
    (∀ z : Byte, ∃ x, narValue { b with l := x } t cs = z) ∧
    (∀ (c : NConv) (x y : Byte), narValue b t (cs ++ [{ c with l := x }]) = narValue b t (cs ++ [{ c with l := y }]) → x = y) ∧
    (∀ (c : NConv) (p q : Nat), narValue b t (cs ++ [{ c with polls := p }]) = narValue b t (cs ++ [{ c with polls := q }]) → p % 256 = q % 256) := by
  have hb : ∀ x, narValue { b with l := x } t cs = narValue { b with l := 0 } t cs ^^^ x := by
    intro x
    unfold narValue
    dsimp only
    simp
  refine ⟨?_, ?_, ?_, ?_⟩
  · intro x y h
    rw [hb x, hb y] at h
    exact xor_cancel' _ _ _ h
  · intro z
    refine ⟨narValue { b with l := 0 } t cs ^^^ z, ?_⟩
    rw [hb, ← UInt8.xor_assoc]
    simp
  · intro c x y h
    unfold narValue at h
    dsimp only at h
    obtain ⟨r', n', hs⟩ := narLoop_snoc cs (b.h <<< 5 ^^^ t.l ^^^ t.h <<< 3 ^^^ u8 ((b.polls % 256 + t.polls) % 256)) ((b.polls % 256 + t.polls) % 256)
    rw [hs, hs, UInt8.xor_comm, UInt8.xor_comm _ b.l] at h
    have := crcIbutton_inj_data _ _ _ (xor_cancel' _ _ _ h)
    rw [UInt8.xor_comm, UInt8.xor_comm y] at this
    exact xor_cancel' _ _ _ this
  · intro c p q h
    unfold narValue at h
    dsimp only at h
    obtain ⟨r', n', hs⟩ := narLoop_snoc cs (b.h <<< 5 ^^^ t.l ^^^ t.h <<< 3 ^^^ u8 ((b.polls % 256 + t.polls) % 256)) ((b.polls % 256 + t.polls) % 256)
    rw [hs, hs, UInt8.xor_comm, UInt8.xor_comm _ b.l] at h
    have := xor_cancel' _ _ _ (crcIbutton_inj_data _ _ _ (xor_cancel' _ _ _ h))
    have := congrArg UInt8.toNat this
    unfold u8 at this
    simp only [UInt8.toNat_ofNat'] at this
    omega

/-! ## C197: what is on after set-up -/

/-- **C197.** After `powerSetup()` the ADC, SPI, TWI and UART, timer 1 and the switched peripheral supply are off, timers 0 and 2 on, whatever was
on before. `minimisePowerWithoutSleep()` turns off the ADC, SPI, TWI, timer 1 and the switched supply, and leaves the UART and timers 0 and 2. -/
theorem C197_power_setup (p : PowerSt) :
    (∀ q, p.setup.prr q = false) ∧ p.setup.timer0 = true ∧ p.setup.timer1 = false ∧ p.setup.timer2 = true ∧ p.setup.ioPower = false ∧
    (∀ q, p.minimise.prr q = (if q = .serial then p.prr .serial else false)) ∧ p.minimise.timer0 = p.timer0 ∧ p.minimise.timer1 = false ∧
    p.minimise.timer2 = p.timer2 ∧ p.minimise.ioPower = false := by
  refine ⟨fun _ => rfl, rfl, rfl, rfl, rfl, fun q => ?_, rfl, rfl, rfl, rfl⟩
  cases q <;> rfl

/-- The ADC clock in kHz: the CPU's 1 MHz divided by 2, 2, 4, ..., 128. -/
def adcKHz (r : AReg) : Nat := 1000 / (if r.adps = 0 then 2 else 2 ^ r.adps)

theorem op_adps (r : AReg) (o : AnOp) : (r.op o).1.adps = r.adps := by
  cases o with
  | multi m s l a =>
    show (r.multi m s l a).2.1.adps = _
    unfold AReg.multi AReg.powerUp
    cases h : r.powered <;> simp [AReg.powerDown]
  | bandgap => rfl
  | noisy b t cs =>
    show (r.noisy b t cs).2.1.adps = _
    unfold AReg.noisy AReg.powerUp
    cases h : r.powered <;> simp [AReg.powerDown]
  | up =>
    show r.powerUp.2.adps = _
    unfold AReg.powerUp
    split <;> rfl
  | down => rfl

/-- **C197** is false of the ADC's clock: set-up zeroes the divider that the Arduino start-up code had set and nothing sets it again, so every conversion runs at
500 kHz, not within the 50 to 200 kHz the data sheet wants for 10 bits. -/
theorem C197_refuted_adc_clock (r : AReg) (os : List AnOp) : adcKHz (r.setup.ops os).1 = 500 := by
  have : ∀ (os : List AnOp) (r : AReg), (r.ops os).1.adps = r.adps := by
    intro os
    induction os with
    | nil => intro r; rfl
    | cons o t ih => intro r; show ((r.op o).1.ops t).1.adps = _; rw [ih, op_adps]
  unfold adcKHz
  rw [this]
  have h0 : r.setup.adps = 0 := rfl
  rw [h0]
  rfl

/-! ## Examples -/

def exAReg : AReg := ⟨true, true, true, true, 3, true, false, true, true, 0xff⟩

/-- A pot reading, a comparison while the application holds the ADC on, a noisy read: 3 + 10 conversions; the ADC is off afterwards. -/
example : let x := exAReg.setup.ops [.multi 0x41 3 (fun _ => false) (fun k => 100 + k), .up, .bandgap 3 true,
      .noisy ⟨3, 1, 2⟩ ⟨4, 5, 1⟩ (List.replicate 8 ⟨2, 7, 1⟩)]
    x.2.length = 13 ∧ x.1.powered = false ∧ x.2.map (·.admux) = [0x41, 0x41, 0x41, 0x4e, 0xc8, 0x40, 0x41, 0x42, 0x43, 0x44, 0x45, 0x46, 0x47] := by
  decide +kernel

/-- Room temperature reads as such; a late read overflows. -/
example : internalC16 350 = some 341 ∧ internalC16 1024 = none ∧ internalC16 480 = some 2047 := by decide

example : narValue ⟨3, 1, 2⟩ ⟨4, 5, 1⟩ [⟨2, 7, 1⟩] ≠ narValue ⟨3, 2, 2⟩ ⟨4, 5, 1⟩ [⟨2, 7, 1⟩] := by decide +kernel

end OTR.Props
