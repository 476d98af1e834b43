import Verif.Model.Relay
import Verif.Props.ClosedLoop
/-!
# C202–C204: a heater switched by a relay
-/

open OTR

/-! ## Specification -/

/-- Current flows in the relay's coil: the pin is an output, at the active level. -/
def OTR.Relay.on (activeHigh : Bool) (r : Relay) : Bool := r.output && (r.level == activeHigh)

/-- Any sequence of `set()` calls. -/
def OTR.Relay.sets (activeHigh : Bool) (r : Relay) (vs : List Nat) : Relay := vs.foldl (fun r v => (r.set activeHigh v).2) r

/-- The last legal value in a list, if any. -/
def OTR.Props.lastLegal (vs : List Nat) : Option Nat := (vs.filter (fun v => decide (v ≤ 100))).getLast?

namespace OTR.Props

/-! ## C202 -/

theorem relay_set (ah : Bool) (r : Relay) (v : Nat) (ho : r.output = true) (h : Relay.on ah r = calcRelayState r.value) :
    (r.set ah v).2.output = true ∧ Relay.on ah (r.set ah v).2 = calcRelayState (r.set ah v).2.value ∧
    (r.set ah v).2.value = if v ≤ 100 then v else r.value := by
  unfold Relay.set
  by_cases hv : v > 100
  · rw [if_pos hv, if_neg (show ¬ v ≤ 100 by omega)]; exact ⟨ho, h, rfl⟩
  · rw [if_neg hv]
    rw [if_pos (show v ≤ 100 by omega)]
    refine ⟨ho, ?_, rfl⟩
    unfold Relay.on
    dsimp only
    rw [ho]
    cases ah <;> cases calcRelayState v <;> rfl

/-- **C202.** From the moment the device starts, through `setup()`, and in any sequence of `set()` calls after it: the relay is never on before the first `set()`, is then on exactly when
the last legal value set was 50 or more, illegal values being rejected and without effect; and `get()`, really-open and calling-for-heat agree with the relay. -/
theorem C202_relay (ah : Bool) (vs : List Nat) (v : Nat) :
    Relay.on ah Relay.boot = false ∧ (∀ r ∈ Relay.boot.setupTrace ah, Relay.on ah r = false) ∧ (Relay.boot.setupTrace ah).getLast? = some (Relay.boot.setup ah) ∧
    ((Relay.boot.setup ah).sets ah vs).value = (lastLegal vs).getD 0 ∧
    (Relay.on ah ((Relay.boot.setup ah).sets ah vs) = true ↔ ∃ n, lastLegal vs = some n ∧ 50 ≤ n) ∧
    (((Relay.boot.setup ah).sets ah vs).calling = Relay.on ah ((Relay.boot.setup ah).sets ah vs)) ∧
    (((Relay.boot.setup ah).sets ah vs).reallyOpen = Relay.on ah ((Relay.boot.setup ah).sets ah vs)) ∧
    ((((Relay.boot.setup ah).sets ah vs).set ah v).1 = true ↔ v ≤ 100) := by
  have key : ∀ (vs : List Nat) (r : Relay), r.output = true → Relay.on ah r = calcRelayState r.value →
      Relay.on ah (r.sets ah vs) = calcRelayState (r.sets ah vs).value ∧ (r.sets ah vs).value = (lastLegal vs).getD r.value := by
    intro vs
    induction vs with
    | nil => intro r _ h; exact ⟨h, rfl⟩
    | cons x t ih =>
      intro r ho h
      obtain ⟨a, b, c⟩ := relay_set ah r x ho h
      obtain ⟨i1, i2⟩ := ih _ a b
      refine ⟨i1, ?_⟩
      show ((r.set ah x).2.sets ah t).value = _
      rw [i2, c]
      unfold lastLegal
      by_cases hx : x ≤ 100
      · rw [if_pos hx, List.filter_cons_of_pos (by simpa using hx), List.getLast?_cons]
        simp
      · rw [if_neg hx, List.filter_cons_of_neg (by simpa using hx)]
  have h0 : Relay.on ah (Relay.boot.setup ah) = calcRelayState (Relay.boot.setup ah).value := by cases ah <;> rfl
  obtain ⟨k1, k2⟩ := key vs (Relay.boot.setup ah) rfl h0
  have k2' : ((Relay.boot.setup ah).sets ah vs).value = (lastLegal vs).getD 0 := k2
  refine ⟨rfl, ?_, rfl, k2', ?_, ?_, ?_, ?_⟩
  · cases ah <;> decide
  · rw [k1, k2']
    unfold calcRelayState
    cases h : lastLegal vs with
    | none => simp
    | some n => simp
  · rw [k1]; unfold Relay.calling Relay.reallyOpen calcRelayState; simp
  · rw [k1]; rfl
  · unfold Relay.set
    split <;> simp <;> omega

example : Relay.on false ((Relay.boot.setup false).sets false [100, 49, 50, 101]) = true ∧ Relay.on true ((Relay.boot.setup true).sets true [100, 49]) = false := by decide

/-- Refuted without `setup()` first: set before `setup()`, the relay is off (and stays off after `setup()`) while the device reports itself open and calling for heat. -/
theorem C202_refuted_before_setup (ah : Bool) :
    ((Relay.boot.set ah 100).2.setup ah).calling = true ∧ Relay.on ah (Relay.boot.set ah 100).2 = false ∧ Relay.on ah ((Relay.boot.set ah 100).2.setup ah) = false := by
  cases ah <;> decide

/-! ## A heater: modelled valve driving a relay -/

structure Heater where
  mv : MV
  relay : Relay
deriving DecidableEq

/-- What the modelled valve gets from the relay at a reading (`physicalDeviceOpt` is the relay): position before and after its `set()`, and whether it is really open. -/
def Heater.reading (v : ValveSetup) (ah : Bool) (h : Heater) (e : Reading) : Reading :=
  (e.1, { e.2 with phys := some (h.relay.value, (h.relay.set ah (h.mv.step v.p v.c v.maxPC e).value).2.value), physOpen := h.relay.reallyOpen })

/-- One reading — ModelledRadValveState.h 311-325 for the `set()`. -/
def Heater.step (v : ValveSetup) (ah : Bool) (h : Heater) (e : Reading) : Heater :=
  ⟨h.mv.step v.p v.c v.maxPC (h.reading v ah e), (h.relay.set ah (h.mv.step v.p v.c v.maxPC (h.reading v ah e)).value).2⟩

/-- Before reading `k`. -/
def heaterAt (v : ValveSetup) (ah : Bool) (es : Nat → Reading) : Nat → Heater
  | 0 => ⟨newMV, Relay.boot.setup ah⟩
  | k + 1 => (heaterAt v ah es k).step v ah (es k)

/-- Whether the heater is on from reading `k` on. -/
def heating (v : ValveSetup) (ah : Bool) (es : Nat → Reading) (k : Nat) : Bool := Relay.on ah (heaterAt v ah es (k + 1)).relay

def heaterReadings (v : ValveSetup) (ah : Bool) (es : Nat → Reading) (k : Nat) : Reading := (heaterAt v ah es k).reading v ah (es k)

theorem heater_mv (v : ValveSetup) (ah : Bool) (es : Nat → Reading) (k : Nat) : valveAt v (heaterReadings v ah es) k = (heaterAt v ah es k).mv := by
  induction k with
  | zero => rfl
  | succ k ih => unfold valveAt; rw [ih]; rfl

theorem step_phys (v : ValveSetup) (s : MV) (e : Reading) (p : Option (Nat × Nat)) (o : Bool) :
    (s.step v.p v.c v.maxPC (e.1, { e.2 with phys := p, physOpen := o })).value = (s.step v.p v.c v.maxPC e).value := by
  have e1 : ∀ e' : Reading, (s.step v.p v.c v.maxPC e').value = (s.st.tick v.c s.value (s.tickOf v.p v.maxPC e').1 (s.tickOf v.p v.maxPC e').2).2 := fun _ => rfl
  rw [e1, e1, tick_snd, tick_snd]
  have h : (s.tickOf v.p v.maxPC (e.1, { e.2 with phys := p, physOpen := o })).1 = (s.tickOf v.p v.maxPC e).1 := rfl
  rw [h]
  generalize (s.tickOf v.p v.maxPC e).1 = i
  have pp : ∀ q q' : Option Nat, (s.st.prepare s.value i q).turndownM = (s.st.prepare s.value i q').turndownM ∧ (s.st.prepare s.value i q).turnupM = (s.st.prepare s.value i q').turnupM ∧
      (s.st.prepare s.value i q).temps = (s.st.prepare s.value i q').temps ∧ (s.st.prepare s.value i q).filtering = (s.st.prepare s.value i q').filtering := by
    intro q q'
    have a := prepare_fields s.st s.value i q
    have b := prepare_fields s.st s.value i q'
    refine ⟨a.1.trans b.1.symm, a.2.1.trans b.2.1.symm, a.2.2.2.2.2.trans b.2.2.2.2.2.symm, ?_⟩
    obtain ⟨val, ⟨init, f, mo, td, tu, cu, pv, ts⟩, _⟩ := s
    unfold VState.prepare VState.rawDelta
    cases init <;> simp only [Bool.false_eq_true, if_false, if_true] <;> (repeat' split) <;> first | rfl | simp_all
  have cc : ∀ a b : VState, a.turndownM = b.turndownM → a.turnupM = b.turnupM → a.temps = b.temps → a.filtering = b.filtering → a.compute v.c s.value i = b.compute v.c s.value i := by
    intro a b h1 h2 h3 h4
    unfold VState.compute VState.adj16 VState.rawDelta
    rw [h1, h2, h3, h4]
  obtain ⟨a, b, c, d⟩ := pp ((p.map Prod.fst)) ((s.tickOf v.p v.maxPC e).2.map Prod.fst)
  exact cc _ _ a b c d

/-! ## C203 -/

theorem heater_follows (v : ValveSetup) (ah : Bool) (es : Nat → Reading) (k : Nat) :
    (heaterAt v ah es k).relay.output = true ∧ Relay.on ah (heaterAt v ah es k).relay = calcRelayState (heaterAt v ah es k).relay.value ∧
    (heaterAt v ah es k).relay.value = (heaterAt v ah es k).mv.value := by
  induction k with
  | zero => exact ⟨rfl, by cases ah <;> rfl, rfl⟩
  | succ k ih =>
    obtain ⟨a, b, c⟩ := relay_set ah (heaterAt v ah es k).relay (heaterAt v ah es (k + 1)).mv.value ih.1 ih.2.1
    have hb := (loop_bounds v (heaterReadings v ah es) (k + 1)).1
    rw [heater_mv] at hb
    rw [if_pos (by omega)] at c
    exact ⟨a, b, c⟩

theorem heating_eq (v : ValveSetup) (ah : Bool) (es : Nat → Reading) (k : Nat) : heating v ah es k = decide (50 ≤ posAt v (heaterReadings v ah es) k) := by
  obtain ⟨_, b, c⟩ := heater_follows v ah es (k + 1)
  unfold heating posAt
  rw [heater_mv, b, c]
  rfl

/-- What the reading that switches on or off goes by: BAKE in force at reading `k`. -/
def boosted (v : ValveSetup) (ah : Bool) (es : Nat → Reading) (k : Nat) : Bool := ((heaterAt v ah es k).mv.mode.run (es k).1).read.inBake

/-- **C203, heater.** A relay driven by a modelled valve: off before the first reading, then on exactly while the valve's position is 50% or more; and whenever the valve reports calling for heat the relay was on. -/
theorem C203_heater (v : ValveSetup) (ah : Bool) (es : Nat → Reading) (k : Nat) :
    Relay.on ah (heaterAt v ah es 0).relay = false ∧ (heating v ah es k = true ↔ 50 ≤ (heaterAt v ah es (k + 1)).mv.value) ∧
    (heaterAt v ah es k).relay.value = (heaterAt v ah es k).mv.value ∧
    ((heaterAt v ah es (k + 1)).mv.calling = true → Relay.on ah (heaterAt v ah es k).relay = true) := by
  refine ⟨by cases ah <;> rfl, ?_, (heater_follows v ah es k).2.2, fun h => ?_⟩
  · rw [heating_eq]
    unfold posAt
    rw [heater_mv, decide_eq_true_iff]
  · obtain ⟨_, b, c⟩ := heater_follows v ah es k
    rw [b]
    have e : (heaterAt v ah es (k + 1)).mv.calling = (_ && decide ((heaterAt v ah es k).mv.value ≥ 50) && _) := rfl
    rw [e] at h
    simp only [Bool.and_eq_true, decide_eq_true_eq] at h
    unfold calcRelayState
    rw [c]
    simpa using h.1.2

/-- **C203, off time.** Once switched off the heater stays off for eleven readings, unless BAKE is asked for. -/
theorem C203_min_off (v : ValveSetup) (ah : Bool) (es : Nat → Reading) (k : Nat) (hon : heating v ah es k = true) (hoff : heating v ah es (k + 1) = false)
    (j : Nat) (hj : j ≤ 10) (hb : ∀ i, i ≤ j → boosted v ah es (k + 1 + i) = false) : heating v ah es (k + 1 + j) = false := by
  suffices h : posAt v (heaterReadings v ah es) (k + 1 + j) < 50 ∧ 11 ≤ tdAt v (heaterReadings v ah es) (k + 1 + j) + j by
    rw [heating_eq]; simp; omega
  rw [heating_eq] at hon hoff
  simp only [decide_eq_true_eq, decide_eq_false_iff_not] at hon hoff
  have st : ∀ n, valveAt v (heaterReadings v ah es) (n + 1) = (valveAt v (heaterReadings v ah es) n).step v.p v.c v.maxPC (heaterReadings v ah es n) := fun _ => rfl
  induction j with
  | zero =>
    refine ⟨by rw [Nat.add_zero]; omega, ?_⟩
    unfold posAt at hon hoff
    unfold tdAt
    rw [Nat.add_zero, st, (loop_step v _ _).2.1, ← st, if_pos (by omega)]
    omega
  | succ j ih =>
    obtain ⟨i1, i2⟩ := ih (by omega) (fun i hi => hb i (by omega))
    have hbk := hb (j + 1) (Nat.le_refl _)
    rw [show k + 1 + (j + 1) = k + 1 + j + 1 by omega] at hbk ⊢
    generalize k + 1 + j = n at *
    unfold posAt tdAt at *
    rw [st (n + 1)]
    unfold boosted at hbk
    rw [← heater_mv] at hbk
    generalize valveAt v (heaterReadings v ah es) (n + 1) = s at *
    obtain ⟨e1, e2, _⟩ := loop_step v s (heaterReadings v ah es (n + 1))
    have nu := compute_noUp v.c (s.st.prepare s.value (s.tickOf v.p v.maxPC (heaterReadings v ah es (n + 1))).1 ((s.tickOf v.p v.maxPC (heaterReadings v ah es (n + 1))).2.map Prod.fst))
      s.value (s.tickOf v.p v.maxPC (heaterReadings v ah es (n + 1))).1 (by rw [(prepare_fields _ _ _ _).1]; omega) hbk
    rw [← e1] at nu
    refine ⟨by omega, ?_⟩
    rw [e2]
    split <;> omega

/-- **C203, on time.** Once switched on the heater stays on for ten readings. -/
theorem C203_min_on (v : ValveSetup) (ah : Bool) (es : Nat → Reading) (k : Nat) (hoff : heating v ah es k = false) (hon : heating v ah es (k + 1) = true)
    (j : Nat) (hj : j ≤ 9) : heating v ah es (k + 1 + j) = true := by
  suffices h : 50 ≤ posAt v (heaterReadings v ah es) (k + 1 + j) ∧ 10 ≤ tuAt v (heaterReadings v ah es) (k + 1 + j) + j by
    rw [heating_eq]; simp; omega
  rw [heating_eq] at hon hoff
  simp only [decide_eq_true_eq, decide_eq_false_iff_not] at hon hoff
  have st : ∀ n, valveAt v (heaterReadings v ah es) (n + 1) = (valveAt v (heaterReadings v ah es) n).step v.p v.c v.maxPC (heaterReadings v ah es n) := fun _ => rfl
  induction j with
  | zero =>
    refine ⟨by rw [Nat.add_zero]; omega, ?_⟩
    unfold posAt at hon hoff
    unfold tuAt
    rw [Nat.add_zero, st, (loop_step v _ _).2.2.1, ← st, if_pos (by omega)]
    omega
  | succ j ih =>
    obtain ⟨i1, i2⟩ := ih (by omega)
    rw [show k + 1 + (j + 1) = k + 1 + j + 1 by omega]
    generalize k + 1 + j = n at *
    have bnd := (loop_bounds v (heaterReadings v ah es) (n + 1)).1
    unfold posAt tuAt at *
    rw [st (n + 1)]
    generalize valveAt v (heaterReadings v ah es) (n + 1) = s at *
    obtain ⟨e1, _, e3, _⟩ := loop_step v s (heaterReadings v ah es (n + 1))
    have nd := compute_noDown v.c (s.st.prepare s.value (s.tickOf v.p v.maxPC (heaterReadings v ah es (n + 1))).1 ((s.tickOf v.p v.maxPC (heaterReadings v ah es (n + 1))).2.map Prod.fst))
      s.value (s.tickOf v.p v.maxPC (heaterReadings v ah es (n + 1))).1 (by rw [(prepare_fields _ _ _ _).2.1]; omega)
    rw [← e1, show (s.tickOf v.p v.maxPC (heaterReadings v ah es (n + 1))).1.maxPC = min v.maxPC 100 from rfl] at nd
    have : ¬ (s.step v.p v.c v.maxPC (heaterReadings v ah es (n + 1))).value < s.value := fun h => by have := nd h; omega
    refine ⟨by omega, ?_⟩
    rw [e3]
    split <;> omega

/-! ## C204 -/

/-- The heater was on (or off) at the last `L` readings up to reading `k`. -/
def HeaterFor (v : ValveSetup) (ah on : Bool) (es : Nat → Reading) (L k : Nat) : Prop := L ≤ k + 1 ∧ ∀ j, j < L → heating v ah es (k - j) = on

theorem heater_plain {v : ValveSetup} {ah : Bool} {es : Nat → Reading} (hr : PlainRoom v es) : PlainRoom v (heaterReadings v ah es) :=
  ⟨hr.half, hr.brisk, hr.settings, hr.range, hr.slow⟩

theorem held_open_on {v : ValveSetup} {ah : Bool} {es : Nat → Reading} (hr : PlainRoom v es) {L k : Nat} (h : HeldOpen v (heaterReadings v ah es) L k) : HeaterFor v ah true es L k :=
  ⟨h.1, fun j hj => by rw [heating_eq, h.2 j hj]; have := hr.half; simp; omega⟩

theorem held_closed_off {v : ValveSetup} {ah : Bool} {es : Nat → Reading} {L k : Nat} (h : HeldClosed v (heaterReadings v ah es) L k) : HeaterFor v ah false es L k :=
  ⟨h.1, fun j hj => by rw [heating_eq, h.2 j hj]; rfl⟩

/-- **C204, heater keeps warm.** As C198 for a room whose only heater is on the relay. -/
theorem C204_heater_keeps_warm {v : ValveSetup} (ah : Bool) {es : Nat → Reading} (hr : PlainRoom v es) (t L : Nat) (ht : ∀ k, t ≤ (es k).2.tt.frostC)
    (heats : ∀ k, HeaterFor v ah true es L k → tempAt es k ≤ 16 * (t : Int) - 9 → tempAt es k ≤ tempAt es (k + 1)) (k : Nat) :
    min (tempAt es 0) (16 * (t : Int) - 9) - 11 - L ≤ tempAt es k :=
  C198_no_frost (es := heaterReadings v ah es) (heater_plain hr) t L ht (fun k h => heats k (held_open_on hr h)) k

/-- **C204, heater does not overheat.** As C199 for a room whose only heater is on the relay. -/
theorem C204_heater_not_overheated {v : ValveSetup} (ah : Bool) {es : Nat → Reading} (hr : PlainRoom v es) (hb : NoBoost es) (t L : Nat) (ht : ∀ k, (es k).2.tt.warmC ≤ t)
    (cools : ∀ k, HeaterFor v ah false es L k → 16 * (t : Int) + 12 ≤ tempAt es k → tempAt es (k + 1) ≤ tempAt es k) (k : Nat) :
    tempAt es k ≤ max (tempAt es 0) (16 * (t : Int) + 12) + 36 + L :=
  C199_warm_setting (es := heaterReadings v ah es) (heater_plain hr) hb t L ht (fun k h => cools k (held_closed_off h)) k

/-! ## Examples -/

/-- An electric heater with a binary thermostat. -/
def exHeater : ValveSetup := ⟨vcpDefault, ⟨true, false, false⟩, 100⟩

/-- WARM at 19C; 18C for 20 readings, then up 1/16C a reading to 20C, where it stays. -/
def exHeaterRoom (k : Nat) : Reading := simWarm (min 320 (288 + ((k : Int) - 20).toNat))

/-- On from the first reading; off, once, at the 45th (19.5C read), for good. -/
example : (List.range 60).map (heating exHeater false exHeaterRoom) = List.replicate 44 true ++ List.replicate 16 false := by decide +kernel

example : heating exHeater false exHeaterRoom 43 = true ∧ heating exHeater false exHeaterRoom 44 = false ∧ boosted exHeater false exHeaterRoom 45 = false := by decide +kernel

/-- A room that is 18C whatever is done meets the hypotheses of C204 for 19C above and 6C below. -/
example : PlainRoom exHeater (fun _ => simWarm 288) ∧ NoBoost (fun _ => simWarm 288) ∧ (∀ k : Nat, 6 ≤ ((fun _ => simWarm 288 : Nat → Reading) k).2.tt.frostC) ∧
    (∀ k : Nat, ((fun _ => simWarm 288 : Nat → Reading) k).2.tt.warmC ≤ 19) :=
  ⟨⟨by decide, ⟨rfl, fun _ => rfl⟩, fun _ => sim_settings, fun _ => (show (-1900 : Int) ≤ 288 ∧ (288 : Int) ≤ 1000 by decide), fun _ => (show (288 : Int) ≤ 288 + 1 ∧ (288 : Int) ≤ 288 + 1 by decide)⟩,
   fun _ => ⟨by simp [simWarm], by simp [simWarm]⟩, fun _ => Nat.le_refl 6, fun _ => Nat.le_refl 19⟩

end OTR.Props
