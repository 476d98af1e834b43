import Verif.Props.Target
import Verif.Props.ValveHot
import Verif.Props.Stats
import Verif.Props.RXQueue
import Verif.Props.Boiler
import Verif.Props.Schedule
import Verif.Props.Occupancy
import Verif.Props.FHT8VDriver
import Verif.Props.RTC
import Verif.Props.BinaryStats
/-!
# Further theorems found wanting by testing against wrong programs
-/

namespace OTR.Props
open OTR

/-! ## C36 -/

/-- **C36, special hours.** The special hour values name the current hour, the next and the last, round the clock; a real
hour names itself. -/
theorem C36_special_hours (cur : Byte) (h : cur.toNat < 24) :
    getSpecialHour 0xff cur = cur ∧ (getSpecialHour 0xfe cur).toNat = (cur.toNat + 1) % 24 ∧
    (getSpecialHour 0xfd cur).toNat = (cur.toNat + 23) % 24 ∧
    (∀ hr : Byte, hr.toNat < 24 → getSpecialHour hr cur = hr) := by
  have key : ∀ n : Fin 24, (getSpecialHour 0xff (UInt8.ofNat n.val)) = UInt8.ofNat n.val ∧
      (getSpecialHour 0xfe (UInt8.ofNat n.val)).toNat = (n.val + 1) % 24 ∧
      (getSpecialHour 0xfd (UInt8.ofNat n.val)).toNat = (n.val + 23) % 24 := by decide
  have k := key ⟨cur.toNat, h⟩
  simp only [UInt8.ofNat_toNat] at k
  refine ⟨k.1, k.2.1, k.2.2, ?_⟩
  intro hr hh
  unfold getSpecialHour
  have e1 : hr ≠ 0xff := by intro e; rw [e] at hh; revert hh; decide
  have e2 : hr ≠ 0xfe := by intro e; rw [e] at hh; revert hh; decide
  have e3 : hr ≠ 0xfd := by intro e; rw [e] at hh; revert hh; decide
  rw [if_neg e1, if_neg e2, if_neg e3]

/-! ## C38 -/

/-- **C38, one-deep queue, over-long length.** Even if the interrupt routine claims more bytes than fit, what the main loop
is then shown is at most the maximum frame: the bytes stored, as far as they go, and never anything outside the buffer. -/
theorem C38_overlong_length (q : OQ) (hq : q.count = 0) (hmx : q.mx ≤ 255) (data : Bytes) (hd : data.length ≤ q.mx)
    (len : Nat) (hl : 1 ≤ len) :
    ∃ q', q.step (.isr data len) = some (q', .offered true) ∧
      ∃ f : Bytes, q'.step .peek = some (q', .frame (some f)) ∧ f.length = min len q.mx ∧
        f.take (min len data.length) = data.take (min len data.length) := by
  unfold OQ.step
  dsimp only
  rw [if_neg (by omega), if_pos (by omega), if_neg (by omega)]
  have hl' : (if len > q.mx then q.mx else len) = min len q.mx := by split <;> omega
  rw [hl']
  refine ⟨_, rfl, ?_⟩
  dsimp only
  have h0 : ∀ x : Byte, (if (0 : Nat) = 0 then u8 (min len q.mx) else x).toNat = min len q.mx := by
    intro x; simp [u8]; omega
  rw [if_neg (by omega), h0, if_pos (by omega)]
  refine ⟨_, rfl, by simp, ?_⟩
  apply List.ext_getElem?
  intro j
  by_cases hj : j < min len data.length
  · rw [List.getElem?_take_of_lt hj, List.getElem?_take_of_lt hj, List.getElem?_map, List.getElem?_range (by omega)]
    simp only [Option.map_some]
    rw [if_neg (by omega), if_pos (by omega)]
    rw [List.getElem?_eq_getElem (by omega)]
    simp only [Nat.add_sub_cancel_left]
    rw [List.getD_eq_getElem?_getD, List.getElem?_eq_getElem (by omega)]
    rfl
  · rw [List.getElem?_eq_none (by simp; omega), List.getElem?_eq_none (by simp; omega)]

example : (OQ.new 4 (fun _ => 0)).step (.isr [1, 2, 3] 200) ≠ none := by simp [OQ.step, OQ.new]

/-! ## C41 -/

/-- **C41, stats hub.** Exactly one minute configured (with a radio that can receive) means stats hub, which is a hub; a unit that
always listens is both, whatever is configured. -/
theorem C41_stats_hub (mins b : Byte) (h : setMinBoilerOnMinutes true mins = some b) (radioRX : Bool) (n : Nat) :
    (inStatsHubMode false radioRX (minBoilerOnMinutes true b) = true ↔ radioRX = true ∧ mins = 1) ∧
    (∀ a r k, inStatsHubMode a r k = true → inHubMode a r k = true) ∧
    inStatsHubMode true radioRX n = true ∧ inHubMode true radioRX n = true := by
  have hb : b = ~~~mins := by simp [setMinBoilerOnMinutes] at h; exact h.symm
  subst hb
  have e : minBoilerOnMinutes true (~~~mins) = mins.toNat := by simp [minBoilerOnMinutes]
  refine ⟨?_, ?_, rfl, rfl⟩
  · rw [e]; cases radioRX <;> simp [inStatsHubMode, ← UInt8.toNat_inj]
  · intro a r k hk
    unfold inStatsHubMode at hk
    unfold inHubMode
    cases a <;> cases r <;> simp_all

/-! ## C43 -/

/-- **C43, learned on-time.** An ECO setting gets the shorter configured time, a comfort setting the longer, and anything
between gets the shorter if the room has long been vacant and otherwise the mean. -/
theorem C43_on_time_by_bias (a b : Nat) (lv : Bool) :
    (∀ comfort, schedOnTime a b true comfort lv = a) ∧ schedOnTime a b false true lv = b ∧
    schedOnTime a b false false true = a ∧ schedOnTime a b false false false = (a + b) / 2 := by
  unfold schedOnTime
  refine ⟨?_, ?_, ?_, ?_⟩
  · intro cf; cases cf <;> simp
  · by_cases h : a = b <;> simp [h]
  · simp
  · by_cases h : a = b
    · simp [h]; omega
    · simp [h]

/-! ## C70, C72 -/

/-- **C72, weakest evidence.** In a room vacant for more than 2 hours the weakest evidence of occupancy changes nothing at
all, however often it comes. -/
theorem C72_weak_evidence_ignored (s : Occ) (h : 2 < s.vacH) (n : Nat) : s.isr (List.replicate n .justPossibly) = s := by
  induction n with
  | zero => rfl
  | succ n ih =>
    rw [List.replicate_succ]
    show ((s.mark .justPossibly).isr _) = s
    have : s.mark .justPossibly = s := by
      unfold Occ.mark Occ.markAsJustPossiblyOccupied
      rw [if_pos h]
    rw [this]; exact ih

/-- **C70, holiday.** After `setHolidayMode()` the room counts as vacant for 255 hours (so very long vacant), at every minute's
reading until there is evidence of occupancy; the weakest evidence does not end it. -/
theorem C70_holiday (s : Occ) (n : Nat) :
    let h := s.setHolidayMode
    h.getVacancyH = 255 ∧ h.isLikelyOccupied = false ∧ h.reportedNewOccupancyRecently = false ∧ (h.reads n).getVacancyH = 255 ∧
    (h.reads n).isLikelyOccupied = false ∧ (h.mark .justPossibly) = h := by
  intro h
  have hr : ∀ n, (h.reads n).value = 0 ∧ (h.reads n).vacH = 255 ∧ (h.reads n).occ = 0 := by
    intro n
    induction n with
    | zero => exact ⟨rfl, rfl, rfl⟩
    | succ n ih =>
      obtain ⟨a, b, c⟩ := ih
      have e : h.reads (n + 1) = (h.reads n).read := rfl
      rw [e]
      generalize h.reads n = w at *
      simp [Occ.read, Occ.readI, Occ.isr, Occ.vacUpdate, Occ.casNew, b, c, occPercent]
      split <;> simp [b, c]
  obtain ⟨a, b, c⟩ := hr n
  refine ⟨rfl, rfl, rfl, ?_, ?_, rfl⟩
  · unfold Occ.getVacancyH; simp [a, b]
  · unfold Occ.isLikelyOccupied; simp [c]

/-! ## C55 -/

/-- **C55, parameters.** Whatever numbers a parameter set is made from: FROST lies in 5..95 C, is no warmer in ECO than in
comfort, and is below the corresponding WARM; the default WARM is at least 18 C; the dial scale starts no lower than
ECO FROST; and the setbacks are at least 1, 2 and 3 C and in order (provided the ECO one is below 255). -/
theorem C55_parameters (a b c d l e f : Nat) (he : e < 255) :
    let p := VCP.mk' a b c d l e f
    5 ≤ p.frost ∧ p.frost ≤ 95 ∧ p.frost ≤ p.frostCom ∧ p.frostCom ≤ 95 ∧ p.frost < p.warmEco ∧ p.frostCom < p.warmCom ∧
    18 ≤ p.warm ∧ p.warmEco ≤ p.warm ∧ p.frost ≤ p.scaleMin ∧ p.sbDefault = 1 ∧ 2 ≤ p.sbEco ∧ p.sbEco < p.sbFull := by
  intro p
  simp only [p, VCP.mk']
  refine ⟨?_, ?_, ?_, ?_, ?_, ?_, ?_, ?_, ?_, ?_, ?_, ?_⟩ <;> first | omega | trivial

/-- **C55, dial and humidity.** With a dial, FROST is the comfort one exactly when the air is humid or the dial is not
in its ECO part. -/
theorem C55_dial_frost_humid (p : VCP) (warmC : Nat) :
    dialFrost p warmC true = p.frostCom ∧
    (p.ecoBias warmC = true → dialFrost p warmC false = p.frost) ∧ (p.ecoBias warmC = false → dialFrost p warmC false = p.frostCom) := by
  unfold dialFrost
  refine ⟨by simp, fun h => by simp [h], fun h => by simp [h]⟩

/-! ## C92, C93 -/

open FHT8V in
/-- **C92, synchronising.** While synchronising, everything sent is either a `sync` frame for this unit's house codes,
carrying the (odd) number of half-seconds left, or the final `sync-set` frame for them, with extension 0. -/
theorem C92_sync_content (c : Cfg) (s : Drv) (rnd : Byte) (f : Bytes) (hf : f ∈ (s.doSync c rnd).2.2) :
    (∃ n : Nat, n % 2 = 1 ∧ 3 ≤ n ∧ (n = s.syncState ∨ n = 241) ∧ f = createBody ⟨s.hc1, s.hc2, 0, 0x2c, UInt8.ofNat n⟩) ∨
    f = createBody ⟨s.hc1, s.hc2, 0, 0x20, 0⟩ := by
  have htx : ∀ (w : Drv), f ∈ w.tx → f = w.frame := by
    intro w h
    unfold Drv.tx at h
    split at h
    · simp at h
    · split at h
      · simpa using h
      · simp at h
  unfold Drv.doSync at hf
  by_cases ha : (!s.isAvailable) = true
  · rw [if_pos ha] at hf; simp at hf
  rw [if_neg ha] at hf
  by_cases hr : s.syncState = 0 ∧ (0x1e &&& rnd) ≠ 0
  · rw [if_pos hr] at hf; simp at hf
  rw [if_neg hr] at hf
  dsimp only at hf
  have hw : ((if s.syncState = 0 then { s with syncState := 241 } else s).syncState = s.syncState ∨
      (if s.syncState = 0 then { s with syncState := 241 } else s).syncState = 241) ∧
      (if s.syncState = 0 then { s with syncState := 241 } else s).hc1 = s.hc1 ∧
      (if s.syncState = 0 then { s with syncState := 241 } else s).hc2 = s.hc2 := by
    split
    · exact ⟨Or.inr rfl, rfl, rfl⟩
    · exact ⟨Or.inl rfl, rfl, rfl⟩
  generalize (if s.syncState = 0 then { s with syncState := 241 } else s) = w at *
  obtain ⟨w1, w2, w3⟩ := hw
  by_cases h2 : w.syncState ≥ 2
  · rw [if_pos h2] at hf
    by_cases ho : w.syncState % 2 = 1
    · simp only [ho, if_true] at hf
      have : f ∈ Drv.tx { w with frame := createBody ⟨w.hc1, w.hc2, 0, 0x2c, UInt8.ofNat w.syncState⟩ } := by
        split at hf <;> exact hf
      have e := htx _ this
      left
      exact ⟨w.syncState, ho, by omega, w1, by rw [e, w2, w3]⟩
    · simp only [ho, if_false] at hf
      split at hf <;> simp at hf
  · rw [if_neg h2] at hf
    split at hf
    · have e := htx _ hf
      right
      rw [e, ← w2, ← w3]
    · simp at hf

open FHT8V in
example : ((({ Drv.init true with syncState := 5 } : Drv).doSync ⟨3, []⟩ 0).2.2 ≠ []) ∧
    ((({ Drv.init true with syncState := 1, hsNext := 1 } : Drv).doSync ⟨3, []⟩ 0).2.2 =
      [createBody ⟨0xff, 0xff, 0, 0x20, 0⟩]) := by decide +kernel

open FHT8V in
/-- **C93, not open.** While out of touch with its valve after a change or clearing of the house codes, the driver does not
claim that the valve is open (so cannot keep the boiler running). -/
theorem C93_resync_not_open (s : Drv) (hc : Byte) :
    (hc ≠ s.hc1 → (s.setHC1 hc).isOpen = false) ∧ (hc ≠ s.hc2 → (s.setHC2 hc).isOpen = false) ∧
    s.clearHC.isOpen = false ∧ s.clearHC.synced = false := by
  unfold Drv.setHC1 Drv.setHC2
  exact ⟨fun h => by rw [if_pos h]; rfl, fun h => by rw [if_pos h]; rfl, rfl, rfl⟩

/-! ## C69 -/

/-- **C69, setting the clock.** Setting the time of day is refused if illegal, changing nothing; if accepted the clock shows
it, and if it moves to another quarter hour than the one stored, day and time are stored at once. -/
theorem C69_set_persists (r : RTC) (hr : RTCLegal r) (h m : Nat) (ee : EE) :
    (r.setHM h m ee).2.1 = decide (h ≤ 23 ∧ m ≤ 59) ∧
    ((r.setHM h m ee).2.1 = false → (r.setHM h m ee).1 = r ∧ (r.setHM h m ee).2.2 = ee) ∧
    ((r.setHM h m ee).2.1 = true → (r.setHM h m ee).1.mins = 60 * h + m ∧ (r.setHM h m ee).1.days = r.days ∧
      RTCLegal (r.setHM h m ee).1 ∧
      (60 * h + m ≠ r.mins → ee 10 ≠ rtcByte (60 * h + m) → Persisted (r.setHM h m ee).2.2 (r.setHM h m ee).1)) := by
  unfold RTC.setHM
  by_cases hb : h > 23 ∨ m > 59
  · rw [if_pos hb]
    refine ⟨by simp; omega, fun _ => ⟨rfl, rfl⟩, fun hx => by simp at hx⟩
  · rw [if_neg hb]
    dsimp only
    by_cases hn : 60 * h + m ≠ r.mins
    · rw [if_pos hn]
      have hl : RTCLegal { r with mins := 60 * h + m } := by
        obtain ⟨a, b, c, d⟩ := hr
        exact ⟨a, b, by dsimp only; omega, d⟩
      refine ⟨by simp; omega, fun hx => by simp at hx, fun _ => ⟨rfl, rfl, hl, fun _ he => ?_⟩⟩
      exact C69_established _ hl ee he
    · rw [if_neg hn]
      refine ⟨by simp; omega, fun hx => by simp at hx, fun _ => ⟨by dsimp only; omega, rfl, hr, fun hx => absurd hx hn⟩⟩

/-! ## C115: fast response -/

/-- **C115.** A unit in which the controls were just used, or in which someone has newly come in (and only such a one) asks for
a fast response, and then never for a wide dead band; it moves slowly exactly if that is configured or its maximum
opening cannot call for heat. -/
theorem C115_fast_when (maxPC : Nat) (x : MVIn) (target : Nat) :
    ((setupInput maxPC x target).fast = true ↔ x.veryRecentUI = true ∨ x.newOcc = true) ∧
    ((setupInput maxPC x target).fast = true → (setupInput maxPC x target).wide = false) ∧
    ((setupInput maxPC x target).fast = false →
      ((setupInput maxPC x target).wide = true ↔ target < x.tt.warmC ∨ x.dark = true)) ∧
    ((setupInput maxPC x target).glacial = true ↔ x.glacial = true ∨ maxPC < 50) ∧
    (setupInput maxPC x target).ref16 = x.temp16 + 8 ∧ (setupInput maxPC x target).maxPC = maxPC ∧
    (setupInput maxPC x target).target = target ∧ (setupInput maxPC x target).maxTarget = x.tt.warmC := by
  unfold setupInput VIn.setTemp
  dsimp only
  refine ⟨by simp, ?_, ?_, by simp, by simp, rfl, rfl, rfl⟩
  · intro h; simp [h]
  · intro h; simp [h]

/-- **C115.** In a room at least half a degree below the set point, a valve asked for a fast response (and not told to move
slowly), that has not been closing in the last minutes, is open to its maximum after one minute's computation. -/
theorem C115_fast_opens (c : VCfg) (hc : c.binary = false) (hg : c.alwaysGlacial = false) (s : VState) (v : Nat) (t : VTick)
    (hs : t.1.sane) (hfast : t.1.fast = true) (hgl : t.1.glacial = false) (hb : t.1.bake = false)
    (hp : Physical (effTemp s v t)) (h8 : effTemp s v t + 8 ≤ setPoint t.1) (h5 : 5 ≤ t.1.target)
    (htd : s.turndownM ≤ 1) (hv : v ≤ t.1.maxPC) : (s.tick c v t.1 t.2).2 = t.1.maxPC := by
  by_cases hcold : effTemp s v t < coldLimit t.1
  · rw [C47_frost_protection c hc s v t hp hcold (Or.inl htd), hg, hgl]
    simp
  · have hhot : effTemp s v t < hotLimit t.1 := by
      unfold setPoint at h8; unfold hotLimit
      have := hs.1
      omega
    obtain ⟨f, e⟩ := inRange_compute c hc s v t hs hp (by omega) hhot hb
    rw [e, hg, hgl]
    have hlo : -500 ≤ effTemp s v t - setPoint t.1 := by
      unfold coldLimit at hcold; unfold setPoint; omega
    have hz : decide (s.turndownM - 1 ≠ 0) = false := by simp; omega
    rw [hz]
    have herr : effTemp s v t - setPoint t.1 ≤ -8 := by omega
    generalize effTemp s v t - setPoint t.1 = err at *
    generalize (t.1.ref16 - 8) - _ = rise
    unfold propCompute
    have hbt : decide (err < 0) = true := by simp; omega
    simp only [hbt, hfast, Bool.and_false, Bool.false_eq_true, if_false, Bool.not_true, Bool.false_and, Bool.true_and,
      Bool.true_or, Bool.or_false, Bool.not_false, if_true]
    by_cases hm : v ≥ t.1.maxPC
    · rw [if_pos (by simpa using hm)]; omega
    · rw [if_neg (by simpa using hm)]
      have hsl : decide (min 21 (err.natAbs / (if (t.1.wide || f) = true then 8 else 4) % 256) > 0) = true := by
        split <;> simp <;> omega
      rw [hsl]
      simp

example : ((VState.new []).tick ⟨false, false, false⟩ 10 ⟨19, 19, 100, false, false, false, true, 18 * 16 + 16⟩ none).2 = 100 ∧
    ((VState.new []).tick ⟨false, false, false⟩ 10 ⟨19, 19, 100, true, false, false, false, 18 * 16 + 16⟩ none).2 < 100 := by
  decide +kernel

/-! ## C67 -/

theorem not_ff_of_and {b k v : Byte} (h : b &&& k = v) (hk : (0xff : Byte) &&& k ≠ v) : b ≠ 0xff := by
  intro e; rw [e] at h; exact hk h

theorem fullDecodeEnd_noff (buf : Bytes) (buflen b : Nat) (hb : buflen ≤ buf.length) (c0 c : FullStats) (n : Nat)
    (h : fullDecodeEnd buf buflen b c0 = .ok (c, n)) : c = c0 ∧ n = b + 1 ∧ ∀ k, b ≤ k → k < n → buf[k]? ≠ some 0xff := by
  unfold fullDecodeEnd at h
  rw [failIf_eq_ok] at h
  obtain ⟨h1, h2⟩ := h
  rw [rd_lt (by omega), failIf_eq_ok] at h2
  obtain ⟨h3, h4⟩ := h2
  simp only [Res.ok.injEq, Prod.mk.injEq] at h4
  obtain ⟨rfl, rfl⟩ := h4
  refine ⟨rfl, rfl, ?_⟩
  intro k hk1 hk2 e
  have hk : k = b := by omega
  subst hk
  rw [List.getElem?_eq_getElem (by omega), Option.some.injEq] at e
  have h5 := crc7_lt 0x7f (by decide) (buf.take k)
  have h6 : crc7 0x7f (buf.take k) = buf[k] := Classical.not_not.1 h3
  rw [h6, e] at h5
  revert h5; decide

theorem fullDecodeFlags_noff (buf : Bytes) (buflen b : Nat) (hb : buflen ≤ buf.length) (c0 c : FullStats) (n : Nat)
    (h : fullDecodeFlags buf buflen b c0 = .ok (c, n)) :
    c.containsID = c0.containsID ∧ ∀ k, b ≤ k → k < n → buf[k]? ≠ some 0xff := by
  unfold fullDecodeFlags at h
  rw [failIf_eq_ok] at h
  obtain ⟨h1, h2⟩ := h
  rw [rd_lt (by omega), failIf_eq_ok] at h2
  obtain ⟨h3, h4⟩ := h2
  have hfl : buf[b]? ≠ some 0xff := by
    rw [List.getElem?_eq_getElem (by omega), ne_eq, Option.some.injEq]
    exact not_ff_of_and (Classical.not_not.1 h3) (by decide)
  dsimp only at h4
  split at h4
  · rw [failIf_eq_ok] at h4
    obtain ⟨h5, h6⟩ := h4
    rw [rd_lt (by omega), failIf_eq_ok] at h6
    obtain ⟨e1, e2, e3⟩ := fullDecodeEnd_noff buf buflen _ hb _ _ _ h6.2
    refine ⟨by rw [e1], ?_⟩
    intro k k1 k2
    by_cases hk : k = b
    · rw [hk]; exact hfl
    · by_cases hk' : k = b + 1
      · rw [hk', List.getElem?_eq_getElem (by omega), ne_eq, Option.some.injEq]
        exact fun e => h6.1 (Or.inr e)
      · exact e3 k (by omega) k2
  · obtain ⟨e1, e2, e3⟩ := fullDecodeEnd_noff buf buflen _ hb _ _ _ h4
    refine ⟨by rw [e1], ?_⟩
    intro k k1 k2
    by_cases hk : k = b
    · rw [hk]; exact hfl
    · exact e3 k (by omega) k2

theorem fullDecodeTP_noff (buf : Bytes) (buflen b : Nat) (hb : buflen ≤ buf.length) (c0 c : FullStats) (n : Nat)
    (h : fullDecodeTP buf buflen b c0 = .ok (c, n)) :
    c.containsID = c0.containsID ∧ ∀ k, b ≤ k → k < n → buf[k]? ≠ some 0xff := by
  unfold fullDecodeTP at h
  rw [failIf_eq_ok] at h
  obtain ⟨h1, h2⟩ := h
  rw [rd_lt (by omega)] at h2
  split at h2
  · rename_i h40
    rw [failIf_eq_ok] at h2
    obtain ⟨h3, h4⟩ := h2
    rw [rd_lt (by omega), failIf_eq_ok] at h4
    obtain ⟨e1, e2⟩ := fullDecodeFlags_noff buf buflen _ hb _ _ _ h4.2
    refine ⟨by rw [e1], ?_⟩
    intro k k1 k2
    by_cases hk : k = b
    · rw [hk, List.getElem?_eq_getElem (by omega), ne_eq, Option.some.injEq]
      exact not_ff_of_and h40 (by decide)
    · by_cases hk' : k = b + 1
      · rw [hk', List.getElem?_eq_getElem (by omega), ne_eq, Option.some.injEq]
        exact not_ff_of_and (Classical.not_not.1 h4.1) (by decide)
      · exact e2 k (by omega) k2
  · exact fullDecodeFlags_noff buf buflen _ hb _ _ _ h2

/-- **C67, terminator.** Whatever bytes are given, if the decoder accepts them then no consumed byte is the 0xff terminator,
except possibly the two ID bytes: a message cut short by a terminator is never read past it. -/
theorem C67_stops_at_terminator (buf : Bytes) (buflen : Nat) (hb : buflen ≤ buf.length) (c : FullStats) (n : Nat)
    (h : fullDecode buf buflen = .ok (c, n)) (k : Nat) (hk : k < n) (hff : buf[k]? = some 0xff) :
    c.containsID = true ∧ (k = 1 ∨ k = 2) := by
  unfold fullDecode at h
  rw [failIf_eq_ok] at h
  obtain ⟨h1, h2⟩ := h
  rw [rd_lt (by omega), failIf_eq_ok, failIf_eq_ok] at h2
  obtain ⟨h3, h4, h5⟩ := h2
  have h0 : k ≠ 0 := by
    intro e
    rw [e, List.getElem?_eq_getElem (by omega), Option.some.injEq] at hff
    exact not_ff_of_and (Classical.not_not.1 h4) (by decide) hff
  split at h5
  · dsimp only at h5
    rw [rd_lt (by omega), rd_lt (by omega)] at h5
    obtain ⟨e1, e2⟩ := fullDecodeTP_noff buf buflen _ hb _ _ _ h5
    refine ⟨by rw [e1], ?_⟩
    by_cases hk3 : 3 ≤ k
    · exact absurd hff (e2 k hk3 hk)
    · omega
  · obtain ⟨e1, e2⟩ := fullDecodeTP_noff buf buflen _ hb _ _ _ h5
    exact absurd hff (e2 k (by omega) hk)
end OTR.Props
