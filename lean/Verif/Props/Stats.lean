import Verif.Proof.StatsUpd
/-!
# Properties C32-C36, C79-C81: temperature compression, smoothing, unary counters, hourly statistics
-/

namespace OTR.Props
open OTR

/-! ## C32 -/

/-- **C32.** For every temperature (in C/16): compression is monotonic, clamps below 0C to 0 and from 100C up to 248
(so is never the unset value 0xff); expanding gives back the temperature rounded down by less than 0.5C, by less
than 1/8C from 16C to 24C. -/
theorem C32_compress (s t : Int) (hst : s ≤ t) :
    (compressTempC16 s).toNat ≤ (compressTempC16 t).toNat ∧
    (compressTempC16 t).toNat ≤ 248 ∧
    (t ≤ 0 → compressTempC16 t = 0) ∧
    (1600 ≤ t → compressTempC16 t = 248 ∧ expandTempC16 (compressTempC16 t) = 1600) ∧
    (0 ≤ t → t ≤ 1600 → expandTempC16 (compressTempC16 t) ≤ t ∧ t < expandTempC16 (compressTempC16 t) + 8) ∧
    (256 ≤ t → t < 384 → t < expandTempC16 (compressTempC16 t) + 2) := by
  have val : ∀ t, (compressTempC16 t).toNat = if t ≤ 0 then 0 else if t < 256 then (t / 8).toNat
      else if t < 384 then ((t - 256) / 2 + 32).toNat else if t < 1600 then ((t - 384) / 8 + 96).toNat else 248 := by
    intro t
    unfold compressTempC16
    repeat' split
    · rfl
    · rw [u8_toNat, Nat.mod_eq_of_lt (by omega)]
    · rw [u8_toNat, Nat.mod_eq_of_lt (by omega)]
    · rw [u8_toNat, Nat.mod_eq_of_lt (by omega)]
    · rfl
  have ex : ∀ c : Byte, expandTempC16 c = if c.toNat < 32 then (c.toNat : Int) * 8
      else if c.toNat < 96 then ((c.toNat : Int) - 32) * 2 + 256
      else if c.toNat ≤ 248 then ((c.toNat : Int) - 96) * 8 + 384 else 0x7fff := by
    intro c
    unfold expandTempC16
    simp only [UInt8.lt_iff_toNat_lt, UInt8.le_iff_toNat_le]
    rfl
  refine ⟨?_, ?_, ?_, ?_, ?_, ?_⟩
  · rw [val, val]; repeat' split
    all_goals omega
  · rw [val]; repeat' split
    all_goals omega
  · intro h; apply byte_ext; rw [val, if_pos h]; rfl
  · intro h
    have : compressTempC16 t = 248 := by
      apply byte_ext; rw [val, if_neg (by omega), if_neg (by omega), if_neg (by omega), if_neg (by omega)]; rfl
    rw [this]; exact ⟨rfl, by decide⟩
  · intro h1 h2; rw [ex, val]; repeat' split
    all_goals omega
  · intro h1 h2; rw [ex, val]; repeat' split
    all_goals omega

/-- **C32, inverse.** Every valid compressed byte expands to a temperature that compresses to it again; invalid bytes
(above 248, including unset) expand to the unset marker. -/
theorem C32_inverse (c : Byte) :
    (c.toNat ≤ 248 → compressTempC16 (expandTempC16 c) = c ∧ 0 ≤ expandTempC16 c ∧ expandTempC16 c ≤ 1600) ∧
    (248 < c.toNat → expandTempC16 c = 0x7fff) := by
  revert c; apply forall_byte; decide +kernel

/-- Non-vacuity and precision at 21.8C. -/
example : compressTempC16 349 = 78 ∧ expandTempC16 78 = 348 := by decide

/-! ## C33 -/

/-- **C33.** Whatever random byte is drawn, the smoothed value lies between the old value and the new one
(inclusive); equal values are left alone; and where they differ, some draw moves the value. In particular two set
values never smooth to unset. -/
theorem C33_smooth (rnd old new : Byte) :
    min old.toNat new.toNat ≤ (smoothStatsValue rnd old new).toNat ∧
    (smoothStatsValue rnd old new).toNat ≤ max old.toNat new.toNat ∧
    (old = new → smoothStatsValue rnd old new = old) ∧
    (old ≠ new → ∃ r, smoothStatsValue r old new ≠ old) := by
  have ha : ∀ r : Byte, (r &&& 7).toNat ≤ 7 := by apply forall_byte; decide +kernel
  have val : ∀ r, old ≠ new → (smoothStatsValue r old new).toNat = (7 * old.toNat + new.toNat + (r &&& 7).toNat) / 8 := by
    intro r h
    unfold smoothStatsValue
    have := ha r
    have h1 := byte_lt old
    have h2 := byte_lt new
    rw [if_neg h, u8_toNat]
    omega
  refine ⟨?_, ?_, ?_, ?_⟩
  · by_cases h : old = new
    · subst h; simp [smoothStatsValue]
    · rw [val _ h]; omega
  · by_cases h : old = new
    · subst h; simp [smoothStatsValue]
    · have : old.toNat ≠ new.toNat := fun e => h (byte_ext e)
      have := ha rnd
      rw [val _ h]; omega
  · rintro rfl; simp [smoothStatsValue]
  · intro h
    have hne : old.toNat ≠ new.toNat := fun e => h (byte_ext e)
    by_cases hlt : old.toNat < new.toNat
    · refine ⟨7, fun e => ?_⟩
      have := val 7 h
      rw [e, show ((7 : Byte) &&& 7).toNat = 7 from rfl] at this; omega
    · refine ⟨0, fun e => ?_⟩
      have := val 0 h
      rw [e, show ((0 : Byte) &&& 7).toNat = 0 from rfl] at this; omega

example : smoothStatsValue 0x3f 100 200 = 113 := by decide

/-! ## C34 -/

/-- **C34.** Both unary encodings round trip for every legal value; advancing by one clears exactly one bit of the
stored byte(s) and sets none, so needs no erase and a power cut leaves the old or the new value. -/
theorem C34_unary :
    (∀ n : Byte, n.toNat ≤ 8 → unary1Decode (unary1Encode n) = n.toNat) ∧
    (∀ n : Byte, n.toNat ≤ 16 → unary2Decode (unary2Encode n).1 (unary2Encode n).2 = n.toNat) ∧
    (∀ n : Byte, n.toNat < 8 → unary1Encode (n + 1) = unary1Encode n &&& ~~~(u8 (2 ^ n.toNat)) ∧
      unary1Encode n = unary1Encode (n + 1) ||| u8 (2 ^ n.toNat)) ∧
    (∀ n : Byte, n.toNat < 16 →
      (n.toNat < 8 → (unary2Encode (n + 1)).1 = (unary2Encode n).1 ∧
        (unary2Encode (n + 1)).2 = (unary2Encode n).2 &&& ~~~(u8 (2 ^ n.toNat))) ∧
      (8 ≤ n.toNat → (unary2Encode (n + 1)).2 = (unary2Encode n).2 ∧
        (unary2Encode (n + 1)).1 = (unary2Encode n).1 &&& ~~~(u8 (2 ^ (n.toNat - 8))))) := by
  refine ⟨?_, ?_, ?_, ?_⟩ <;> apply forall_byte <;> decide +kernel

/-- **C34, invalid patterns.** The one-byte decoder yields -1 for exactly the bytes no legal value encodes to. -/
theorem C34_unary1_invalid (v : Byte) :
    unary1Decode v = -1 ↔ ∀ n : Byte, n.toNat ≤ 8 → unary1Encode n ≠ v := by
  have h : ∀ v : Byte, unary1Decode v = -1 ∨ (0 ≤ unary1Decode v ∧ unary1Decode v ≤ 8 ∧ unary1Encode (u8 (unary1Decode v).toNat) = v) := by
    apply forall_byte; decide +kernel
  have h2 := C34_unary.1
  constructor
  · intro e n hn he
    rw [← he, h2 n hn] at e; omega
  · intro hall
    rcases h v with h | ⟨h0, h8, he⟩
    · exact h
    · exact absurd he (hall _ (by rw [u8_toNat]; omega))

/-- The documented "-1 for invalid patterns" is false of the two-byte decoder: with low byte 0 and an invalid high
byte it answers 7. -/
theorem C34_unary2_invalid_refuted :
    ¬ ∀ vm vl : Byte, (∀ n : Byte, n.toNat ≤ 16 → unary2Encode n ≠ (vm, vl)) → unary2Decode vm vl = -1 := by
  intro h
  have h1 : ∀ n : Byte, n.toNat ≤ 16 → unary2Encode n ≠ (0x55, 0) := by apply forall_byte; decide +kernel
  have := h 0x55 0 h1
  revert this; decide

/-! ## C35 -/

/-- How many of the 24 hourly samples satisfy `p`. -/
def hours (day : DayStats) (p : Byte → Prop) [DecidablePred p] : Nat := (List.range 24).countP (fun h => decide (p (day h)))

/-- The documented claim: true iff the set is full (none unset) and at least 3/4 of the samples are strictly lower
(higher) than the given one. -/
def C35_claim : Prop := ∀ (day : DayStats) (sample : Byte),
  (inTopQuartile day sample = true ↔ (∀ h < 24, day h ≠ 0xff) ∧ 18 ≤ hours day (· < sample)) ∧
  (inBottomQuartile day sample = true ↔ (∀ h < 24, day h ≠ 0xff) ∧ 18 ≤ hours day (· > sample))

/-- **C35 is false of the code**: with the first six hours of the day unset and 18 equal later ones it still answers
true, because the scan stops at the 18th hit before seeing the unset hours. -/
theorem C35_refuted : ¬ C35_claim := by
  intro h
  have := ((h (fun h => if h < 6 then 0xff else 10) 20).1.1 (by decide +kernel)).1 0 (by decide)
  exact this rfl

/-- **C35 (partial).** With a full set of samples the answers are exactly the documented ones (a sample equal to the
unset value is never in the top quartile); and even with unset samples a positive answer is right in that at least
18 of the 24 stored bytes are strictly below (above). Missing: that an incomplete set always answers false, which the
code does not do. -/
theorem C35_quartiles_partial (day : DayStats) (sample : Byte) :
    ((∀ h < 24, day h ≠ 0xff) →
      (inTopQuartile day sample = true ↔ sample ≠ 0xff ∧ 18 ≤ hours day (· < sample)) ∧
      (inBottomQuartile day sample = true ↔ 18 ≤ hours day (· > sample))) ∧
    (inTopQuartile day sample = true → 18 ≤ hours day (· < sample)) ∧
    (inBottomQuartile day sample = true → 18 ≤ hours day (· > sample)) := by
  unfold hours
  refine ⟨fun hf => ⟨?_, ?_⟩, fun h => ?_, fun h => ?_⟩
  · rw [inTop_scan]
    by_cases e : sample = 0xff
    · simp [e]
    · rw [if_neg e, quart_full _ _ hf]; simp [e]
  · rw [inBottom_scan, quart_full _ _ hf]
  · rw [inTop_scan] at h
    split at h
    · exact absurd h (by decide)
    · exact quart_sound _ _ h
  · rw [inBottom_scan] at h
    exact quart_sound _ _ h

/-- **C35, exact.** The precise condition: scanning from hour 23 down, the 18th lower (higher) sample comes before any
unset one. -/
theorem C35_exact (day : DayStats) (sample : Byte) :
    (inTopQuartile day sample = true ↔ sample ≠ 0xff ∧ ∃ k ≤ 24, (∀ h, k ≤ h → h < 24 → day h ≠ 0xff) ∧
      18 ≤ (List.range' k (24 - k)).countP (fun h => decide (day h < sample))) ∧
    (inBottomQuartile day sample = true ↔ ∃ k ≤ 24, (∀ h, k ≤ h → h < 24 → day h ≠ 0xff) ∧
      18 ≤ (List.range' k (24 - k)).countP (fun h => decide (day h > sample))) := by
  constructor
  · rw [inTop_scan]
    by_cases e : sample = 0xff
    · simp [e]
    · rw [if_neg e, quartScan_iff _ _ _ _ (by omega)]; simp [e, hoursWith]
  · rw [inBottom_scan, quartScan_iff _ _ _ _ (by omega)]; simp [hoursWith]

/-- Non-vacuity: a full set with answers of both kinds. -/
example : (∀ h < 24, (fun h => u8 h : DayStats) h ≠ 0xff) ∧ inTopQuartile (fun h => u8 h) 18 = true ∧
    inTopQuartile (fun h => u8 h) 17 = false ∧ inBottomQuartile (fun h => u8 h) 5 = true ∧
    inBottomQuartile (fun h => u8 h) 6 = false := by decide +kernel

/-! ## C36 -/

/-- **C36.** Minimum and maximum of the day's set samples: a set sample bounding all set samples, or the unset value
exactly when none is set; and the count of samples below a value is exact. -/
theorem C36_min_max (day : DayStats) :
    (getMinByHourStat day = 0xff ↔ ∀ h < 24, day h = 0xff) ∧
    (getMaxByHourStat day = 0xff ↔ ∀ h < 24, day h = 0xff) ∧
    ((∃ h < 24, day h ≠ 0xff) →
      (∃ h < 24, getMinByHourStat day = day h) ∧ (∃ h < 24, getMaxByHourStat day = day h) ∧
      ∀ h < 24, day h ≠ 0xff → getMinByHourStat day ≤ day h ∧ day h ≤ getMaxByHourStat day) ∧
    (∀ v, countStatSamplesBelow day v = hours day (· < v)) := by
  obtain ⟨_, n2, n3⟩ := scan_min day 24 0xff
  obtain ⟨_, x2, x3⟩ := scan_max day 24 0xff
  have en : getMinByHourStat day = scanDown (β := Byte) (fun r hh => .inl (if day hh < r then day hh else r)) id 24 unsetByte := rfl
  have exx : getMaxByHourStat day = scanDown (β := Byte)
      (fun r hh => .inl (if day hh ≠ unsetByte ∧ (r = unsetByte ∨ day hh > r) then day hh else r)) id 24 unsetByte := rfl
  rw [← en] at n2 n3
  rw [← exx] at x2 x3
  have ff : (0xff : Byte).toNat = 255 := rfl
  have nff : getMinByHourStat day = 0xff ↔ ∀ h < 24, day h = 0xff := by
    constructor
    · intro e h hh
      have := n2 h hh
      rw [e, UInt8.le_iff_toNat_le] at this
      have := byte_lt (day h)
      exact byte_ext (by omega)
    · intro hall
      rcases n3 with h | ⟨h, hh, e⟩
      · exact h
      · rw [e]; exact hall h hh
  have xff : getMaxByHourStat day = 0xff ↔ ∀ h < 24, day h = 0xff := by
    constructor
    · intro e h hh
      by_contra hc
      exact (x2 h hh hc).1 e
    · intro hall
      rcases x3 with h | ⟨h, hh, e⟩
      · exact h
      · rw [e]; exact hall h hh
  refine ⟨nff, xff, ?_, ?_⟩
  · rintro ⟨h0, hh0, hne⟩
    refine ⟨?_, ?_, fun h hh hu => ⟨n2 h hh, (x2 h hh hu).2⟩⟩
    · rcases n3 with h | h
      · exact absurd (nff.1 h h0 hh0) hne
      · exact h
    · rcases x3 with h | h
      · exact absurd (xff.1 h h0 hh0) hne
      · exact h
  · intro v
    unfold countStatSamplesBelow hours
    by_cases e : v = 0
    · subst e
      rw [if_pos rfl]
      symm
      rw [List.countP_eq_zero]
      intro h _
      simp
    · rw [if_neg e, scan_count]; simp

example : getMinByHourStat (fun h => if h < 20 then 0xff else u8 h) = 20 ∧
    getMaxByHourStat (fun h => if h < 20 then 0xff else u8 h) = 23 := by decide +kernel

/-! ## C79 -/

/-- **C79.** At most 6 of the 24 hours (a quarter) are ever reported as being in the top quartile, and at most 6 in
the bottom quartile, whatever is stored; and if all samples are equal none is. -/
theorem C79_at_most_a_quarter (day : DayStats) (now : Byte) (inTop : Bool) :
    (List.range 24).countP (fun h => inOutlierQuartile inTop day now (u8 h)) ≤ 6 := by
  -- Characterise membership.
  have key : ∀ h < 24, inOutlierQuartile inTop day now (u8 h) = true →
      18 ≤ (List.range 24).countP (fun j => if inTop then decide (day j < day h) else decide (day j > day h)) := by
    intro h hh e
    unfold inOutlierQuartile at e
    have hn : ¬ (u8 h > (23 : Byte)) := by
      simp only [GT.gt, UInt8.lt_iff_toNat_lt, u8_toNat]
      have : (23 : Byte).toNat = 23 := rfl
      omega
    have hv : (u8 h).toNat = h := by rw [u8_toNat]; omega
    simp only [if_neg hn, hv] at e
    split at e
    · exact absurd e (by decide)
    · cases inTop
      · simpa [hours] using (C35_quartiles_partial day (day h)).2.2 (by simpa using e)
      · simpa [hours] using (C35_quartiles_partial day (day h)).2.1 (by simpa using e)
  -- A quartile member that is extreme among the members.
  by_contra hc
  generalize hq : (fun h => inOutlierQuartile inTop day now (u8 h)) = q at *
  have hex : ∃ h < 24, q h = true ∧ ∀ j < 24, q j = true →
      (if inTop then ¬ day j < day h else ¬ day j > day h) := by
    have gen : ∀ n, n ≤ 24 → (∃ h < n, q h = true) → ∃ h < n, q h = true ∧ ∀ j < n, q j = true →
        (if inTop then ¬ day j < day h else ¬ day j > day h) := by
      intro n
      induction n with
      | zero => rintro _ ⟨h, hh, _⟩; omega
      | succ n ih =>
        intro hn hex
        by_cases hprev : ∃ h < n, q h = true
        · obtain ⟨h, hh, hqh, hmin⟩ := ih (by omega) hprev
          by_cases hbetter : q n = true ∧ (if inTop then day n < day h else day n > day h)
          · refine ⟨n, by omega, hbetter.1, fun j hj hqj => ?_⟩
            by_cases e : j = n
            · subst e; cases inTop <;> simp [UInt8.lt_iff_toNat_lt]
            · have := hmin j (by omega) hqj
              have hb := hbetter.2
              cases inTop <;> simp [UInt8.lt_iff_toNat_lt] at * <;>
                (first | (simp only [UInt8.le_iff_toNat_le] at *; omega) | omega)
          · refine ⟨h, by omega, hqh, fun j hj hqj => ?_⟩
            by_cases e : j = n
            · subst e
              cases inTop
              · simp only [Bool.false_eq_true, if_false] at *; exact fun hx => hbetter ⟨hqj, hx⟩
              · simp only [if_true] at *; exact fun hx => hbetter ⟨hqj, hx⟩
            · exact hmin j (by omega) hqj
        · obtain ⟨h, hh, hqh⟩ := hex
          have : h = n := by
            by_contra hne
            exact hprev ⟨h, by omega, hqh⟩
          subst this
          refine ⟨h, by omega, hqh, fun j hj hqj => ?_⟩
          by_cases e : j = h
          · subst e; cases inTop <;> simp [UInt8.lt_iff_toNat_lt]
          · exact absurd ⟨j, by omega, hqj⟩ hprev
    apply gen 24 (by omega)
    have hpos : 0 < (List.range 24).countP q := by omega
    rw [List.countP_pos_iff] at hpos
    obtain ⟨h, hh, hq⟩ := hpos
    exact ⟨h, by simpa using hh, hq⟩
  obtain ⟨h, hh, hqh, hext⟩ := hex
  have h18 := key h hh (by rw [← hq] at hqh; exact hqh)
  -- Hours beyond the extreme member are not members.
  have hdis : (List.range 24).countP (fun j => if inTop then decide (day j < day h) else decide (day j > day h))
      ≤ (List.range 24).countP (fun j => !q j) := by
    apply List.countP_mono_left
    intro j hj hp
    have hj' : j < 24 := by simpa using hj
    have he := hext j hj'
    cases hqj : q j
    · rfl
    · exfalso
      have he := he hqj
      cases inTop <;> simp_all
  have htot := List.length_eq_countP_add_countP q (l := List.range 24)
  have hlen : (List.range 24).length = 24 := by simp
  have hnot : (List.range 24).countP (fun j => !q j) = (List.range 24).countP (fun a => decide ¬ q a = true) := by
    congr 1; funext j; cases q j <;> rfl
  omega

/-- Non-vacuity: exactly 6 hours qualify in a day of distinct values. -/
example : (List.range 24).countP (fun h => inOutlierQuartile true (fun h => u8 h) 0 (u8 h)) = 6 := by decide +kernel

/-! ## C80 -/

/-- **C80 (partial).** For a sampler allowing `maxSub` samples an hour, starting an hour afresh (`sampleCount` 0) with
any left-over totals: after any number of sub-samples and then the final sample of hour `hh`, each sensor that was
available *at every sample* has stored for that hour the mean (rounded half up) of the first `maxSub-1` sub-samples and
the final one; the smoothed set gets the same value if it was unset, else the smoothed one; nothing else in the store
changes; and the sampler is ready for the next hour.  Temperatures are taken non-negative with a sum below 2^15 (the
accumulator is 16 bits).  Missing: a sensor available at only some samples (`C80_refuted`). -/
theorem C80_hour_mean_partial (maxSub hh : Nat) (rnd : Nat → Byte) (subs : List Sensed) (last : Sensed) (x : UpdSt × Store)
    (hm : 1 ≤ maxSub ∧ maxSub ≤ 255) (hh24 : hh ≤ 23) (h0 : x.1.sampleCount = 0) :
    let r := updateStatsStore maxSub true hh rnd last (runSubs maxSub hh rnd subs x)
    let used := subs.take (maxSub - 1) ++ [last]
    let n := used.length
    let smooth (set : Nat) (v : Byte) : Byte :=
      if x.2 (set + 1) hh = 0xff then v else smoothStatsValue (rnd set) (x.2 (set + 1) hh) v
    r.1.sampleCount = 0 ∧
    ((∀ i ∈ used, i.amb.isSome) →
      r.2 2 hh = u8 (((used.map fun i => min (i.amb.getD 0).toNat 254).sum + n / 2) / n) ∧ r.2 3 hh = smooth 2 (r.2 2 hh)) ∧
    ((∀ i ∈ used, ∃ v, i.temp = some v ∧ 0 ≤ v) → (used.map fun i => i.temp.getD 0).sum < 32768 →
      r.2 0 hh = compressTempC16 (((used.map fun i => i.temp.getD 0).sum + (n / 2 : Nat)) / n) ∧ r.2 1 hh = smooth 0 (r.2 0 hh)) ∧
    ((∀ i ∈ used, ∃ v, i.occ = some v ∧ v.toNat ≤ 100) →
      r.2 4 hh = u8 (((used.map fun i => (i.occ.getD 0).toNat).sum + n / 2) / n) ∧ r.2 5 hh = smooth 4 (r.2 4 hh)) ∧
    ((∀ i ∈ used, ∃ v, i.rh = some v ∧ v.toNat ≤ 100) →
      r.2 6 hh = u8 (((used.map fun i => (i.rh.getD 0).toNat).sum + n / 2) / n) ∧ r.2 7 hh = smooth 6 (r.2 6 hh)) ∧
    (∀ k h, h ≠ hh ∨ 8 ≤ k → r.2 k h = x.2 k h) := by
  intro r used n smooth
  have hl : (subs.take (maxSub - 1)).length ≤ maxSub - 1 := by simp; omega
  have er : r = updateStatsStore maxSub true hh rnd last (runSubs maxSub hh rnd (subs.take (maxSub - 1)) x) := by
    show updateStatsStore _ _ _ _ _ _ = _
    rw [runSubs_take maxSub hh rnd subs x hm hh24 h0]
  obtain ⟨fa, ft, fo, fr⟩ := final_totals maxSub hh rnd (subs.take (maxSub - 1)) last x hm hh24 h0 hl
  have fs := fun k h => full_store maxSub hh rnd last (runSubs maxSub hh rnd (subs.take (maxSub - 1)) x) hh24 k h
  have fc := (upd_totals maxSub hh true rnd last (runSubs maxSub hh rnd (subs.take (maxSub - 1)) x) hh24 (by simp)).1
  have hc := runSubs_count maxSub hh rnd (subs.take (maxSub - 1)) x hm hh24 h0
  have hst := runSubs_store maxSub hh rnd (subs.take (maxSub - 1)) x
  have hn : n = (subs.take (maxSub - 1)).length + 1 := by simp [n, used]
  have hsc : ((runSubs maxSub hh rnd (subs.take (maxSub - 1)) x).1.sampleCount + 1) % 256 = n := by rw [hc]; omega
  rw [← er] at fa ft fo fr fs fc
  simp only [hsc, hst] at fs
  have hn1 : 1 ≤ n := by omega
  have hnm : n ≤ maxSub := by omega
  refine ⟨by simpa using fc, ?_, ?_, ?_, ?_, ?_⟩
  · intro h
    have hs := h last (by simp [used])
    have e2 := fs 2 hh
    have e3 := fs 3 hh
    simp only [ne_eq, not_true_eq_false, if_false, hs, if_true] at e2 e3
    rw [fa h, divide_mean _ _ _ hn1 hnm] at e2 e3
    refine ⟨e2, ?_⟩
    rw [e3, ← e2]
  · intro h hb
    have hs : last.temp.isSome := by obtain ⟨v, hv, _⟩ := h last (by simp [used]); simp [hv]
    have e2 := fs 0 hh
    have e3 := fs 1 hh
    simp only [ne_eq, not_true_eq_false, if_false, hs, if_true] at e2 e3
    have hnn := tempSum_nonneg used h
    have hlt : tempSum used < 32768 := hb
    have hmean : i16 (tempMean maxSub n r.1.tempC16Total) = (tempSum used + (n / 2 : Nat)) / n := by
      rw [ft h hb, tempMean_eq _ _ _ hn1 hnm hnn]
      have h1 : 0 ≤ (tempSum used + (n / 2 : Nat)) / (n : Int) := Int.ediv_nonneg (by omega) (by omega)
      have h2 : (tempSum used + (n / 2 : Nat)) / (n : Int) < 32768 := by
        apply Int.ediv_lt_of_lt_mul (by omega)
        have : (32768 : Int) * 1 ≤ 32768 * (n : Int) := by omega
        by_cases e : n = 1
        · rw [e]; omega
        · omega
      unfold i16; omega
    rw [hmean] at e2 e3
    refine ⟨e2, ?_⟩
    rw [e3, ← e2]
  · intro h
    have hs : last.occ.isSome := by obtain ⟨v, hv, _⟩ := h last (by simp [used]); simp [hv]
    have e2 := fs 4 hh
    have e3 := fs 5 hh
    simp only [ne_eq, not_true_eq_false, if_false, hs, if_true] at e2 e3
    rw [fo h, divide_mean _ _ _ hn1 hnm] at e2 e3
    refine ⟨e2, ?_⟩
    rw [e3, ← e2]
  · intro h
    have hs : last.rh.isSome := by obtain ⟨v, hv, _⟩ := h last (by simp [used]); simp [hv]
    have e2 := fs 6 hh
    have e3 := fs 7 hh
    simp only [ne_eq, not_true_eq_false, if_false, hs, if_true] at e2 e3
    rw [fr h, divide_mean _ _ _ hn1 hnm] at e2 e3
    refine ⟨e2, ?_⟩
    rw [e3, ← e2]
  · rintro k h (hne | hk)
    · rw [fs k h, if_pos hne]
    · have := fs k h
      match k, hk with
      | j + 8, _ => simpa using this

/-- The full claim: what is stored for an hour depends only on that hour's samples. -/
def C80_claim : Prop := ∀ (hh : Nat) (rnd : Nat → Byte) (sub last : Sensed) (x y : UpdSt × Store), hh ≤ 23 →
  x.1.sampleCount = 0 → y.1.sampleCount = 0 →
  (updateStatsStore 2 true hh rnd last (updateStatsStore 2 false hh rnd sub x)).2 2 hh =
  (updateStatsStore 2 true hh rnd last (updateStatsStore 2 false hh rnd sub y)).2 2 hh

/-- **C80 in full is false of the code**: a light sensor that was unavailable at the sub-sample and available at the
final one has the previous hour's total mixed into its mean. -/
theorem C80_refuted : ¬ C80_claim := by
  intro h
  have := h 5 (fun _ => 0) {} { amb := some 10 } ({ ambLightTotal := 400 }, fun _ _ => 0xff) ({ ambLightTotal := 0 }, fun _ _ => 0xff)
    (by decide) rfl rfl
  revert this; decide +kernel

/-- Non-vacuity: one sub-sample and the final one, means 15 and 21.0C. -/
example :
    let r := updateStatsStore 2 true 7 (fun _ => 0) { amb := some 20, temp := some 340 }
      (runSubs 2 7 (fun _ => 0) [{ amb := some 10, temp := some 332 }, { amb := some 200, temp := some 0 }] ({}, fun _ _ => 0xff))
    r.2 2 7 = 15 ∧ r.2 0 7 = compressTempC16 336 := by decide +kernel

/-! ## C81 -/

/-- Abstract view of the statistics area. -/
def statsOf (m : EE) : Store := fun i h => eeGetStat m i h

/-- **C81.** The EEPROM store behaves as the abstract one: a value set is the value read back, an out-of-range set or
hour is ignored on writing and reads as unset, no other statistic and no byte outside the statistics area changes. -/
theorem C81_ee_store (split : Bool) (m : EE) (set hh : Nat) (v : Byte) :
    (∀ i h, eeGetStat ((eeSetStat split set hh v).post m) i h =
      if i = set ∧ h = hh ∧ set < 14 ∧ hh < 24 then v else eeGetStat m i h) ∧
    (∀ a, a < 256 ∨ 592 ≤ a → (eeSetStat split set hh v).post m a = m a) := by
  have post : (eeSetStat split set hh v).post m = if set < 14 ∧ hh < 24 then m.upd (256 + set * 24 + hh) v else m := by
    unfold eeSetStat EM.post emIf
    by_cases h1 : set ≥ 14
    · rw [if_pos h1, if_neg (by omega)]; rfl
    · rw [if_neg h1]
      by_cases h2 : hh > 23
      · rw [if_pos h2, if_neg (by omega)]; rfl
      · rw [if_neg h2, if_pos (by omega)]
        unfold emBind emRet
        rw [smartUpdate_eq]
        simp only [List.append_nil]
        exact applyW_wr1 _ _ _
  rw [post]
  refine ⟨fun i h => ?_, fun a ha => ?_⟩
  · unfold eeGetStat
    by_cases hv : set < 14 ∧ hh < 24
    · rw [if_pos hv]
      by_cases h1 : i ≥ 14
      · rw [if_pos h1, if_pos h1, if_neg (by omega)]
      · rw [if_neg h1, if_neg h1]
        by_cases h2 : h > 23
        · rw [if_pos h2, if_pos h2, if_neg (by omega)]
        · rw [if_neg h2, if_neg h2]
          by_cases he : i = set ∧ h = hh
          · obtain ⟨rfl, rfl⟩ := he
            rw [if_pos ⟨rfl, rfl, hv⟩, EE.upd_same]
          · rw [if_neg (fun h => he ⟨h.1, h.2.1⟩), EE.upd_other]
            omega
    · have : ¬ (i = set ∧ h = hh ∧ set < 14 ∧ hh < 24) := fun h => hv h.2.2
      rw [if_neg hv, if_neg this]
  · by_cases hv : set < 14 ∧ hh < 24
    · rw [if_pos hv, EE.upd_other]; omega
    · rw [if_neg hv]

theorem zapFrom_spec (n p : Nat) (b : UInt16) (m : EE) :
    let r := zapFrom p n b m
    (∀ a, a < p ∨ p + n ≤ a → applyW m r.2 a = m a) ∧
    (∀ a, applyW m r.2 a = m a ∨ applyW m r.2 a = 0xff) ∧
    (r.1 = true → ∀ a, p ≤ a → a < p + n → applyW m r.2 a = 0xff) := by
  induction n generalizing p b m with
  | zero => simp [zapFrom, emRet]; intro a h1 h2; omega
  | succ n ih =>
    simp only [zapFrom, emBind]
    rw [smartErase_eq]
    simp only [applyW_wr1, applyW_append]
    have ups : ∀ a, m.upd p 0xff a = m a ∨ m.upd p 0xff a = 0xff := by
      intro a
      by_cases e : a = p
      · subst e; right; simp
      · left; exact EE.upd_other _ _ e
    have cont : ∀ b', 
        let r := zapFrom (p + 1) n b' (m.upd p 0xff)
        (∀ a, a < p ∨ p + (n + 1) ≤ a → applyW (m.upd p 0xff) r.2 a = m a) ∧
        (∀ a, applyW (m.upd p 0xff) r.2 a = m a ∨ applyW (m.upd p 0xff) r.2 a = 0xff) ∧
        (r.1 = true → ∀ a, p ≤ a → a < p + (n + 1) → applyW (m.upd p 0xff) r.2 a = 0xff) := by
      intro b'
      obtain ⟨i1, i2, i3⟩ := ih (p + 1) b' (m.upd p 0xff)
      refine ⟨fun a ha => ?_, fun a => ?_, fun hr a h1 h2 => ?_⟩
      · rw [i1 a (by omega), EE.upd_other _ _ (by omega)]
      · rcases i2 a with h | h
        · rcases ups a with h' | h'
          · left; rw [h, h']
          · right; rw [h, h']
        · right; exact h
      · by_cases e : a = p
        · subst e; rw [i1 a (by omega), EE.upd_same]
        · exact i3 hr a (by omega) (by omega)
    unfold emIf
    split
    · split
      · simp only [emRet, applyW_nil, Bool.false_eq_true, false_implies, and_true]
        refine ⟨fun a ha => EE.upd_other _ _ (by omega), ups⟩
      · exact cont _
    · exact cont _

/-- **C81, erase.** Clearing the statistics only ever erases bytes, only within the statistics area (256..615), and
when it reports completion every statistic is unset. -/
theorem C81_zap (budget : UInt16) (m : EE) :
    (∀ a, a < 256 ∨ 616 ≤ a → (zapStats budget).post m a = m a) ∧
    (∀ a, (zapStats budget).post m a = m a ∨ (zapStats budget).post m a = 0xff) ∧
    ((zapStats budget m).1 = true → ∀ i h, eeGetStat ((zapStats budget).post m) i h = 0xff) := by
  obtain ⟨h1, h2, h3⟩ := zapFrom_spec 360 256 budget m
  refine ⟨h1, h2, fun hr i h => ?_⟩
  unfold eeGetStat
  split
  · rfl
  · split
    · rfl
    · exact h3 hr _ (by omega) (by omega)

theorem zapFrom_done (n p : Nat) (b : UInt16) (m : EE) (hn : n < 65535) (hb : b = 0 ∨ n < b.toNat) :
    (zapFrom p n b m).1 = true := by
  induction n generalizing p b m with
  | zero => rfl
  | succ n ih =>
    simp only [zapFrom, emBind]
    unfold emIf
    have hsub : b ≠ 0 → (b - 1).toNat = b.toNat - 1 := by
      intro h
      have : b.toNat ≠ 0 := fun e => h (UInt16.toNat_inj.mp e)
      rw [UInt16.toNat_sub_of_le _ _ (by rw [UInt16.le_iff_toNat_le]; show 1 ≤ _; omega)]; rfl
    split
    · split
      · rename_i h
        exfalso
        rcases hb with hb | hb
        · subst hb; exact absurd h (by decide)
        · have hne : b ≠ 0 := by rintro rfl; simp at hb
          have := hsub hne
          rw [h] at this
          have h0 : (0 : UInt16).toNat = 0 := rfl
          omega
      · refine ih _ _ _ (by omega) (Or.inr ?_)
        rcases hb with hb | hb
        · subst hb; show n < 65535; omega
        · have hne : b ≠ 0 := by rintro rfl; simp at hb
          rw [hsub hne]; omega
    · exact ih _ _ _ (by omega) (hb.imp id (fun h => by omega))

/-- **C81, completion.** With no limit (0), or one above 360 bytes, the erase always completes. -/
theorem C81_zap_completes (budget : UInt16) (h : budget = 0 ∨ 360 < budget.toNat) (m : EE) :
    (zapStats budget m).1 = true := zapFrom_done 360 256 budget m (by omega) h

/-- Non-vacuity: setting the last hour of the last set. -/
example : eeGetStat ((eeSetStat true 13 23 7).post (fun _ => 0xff)) 13 23 = 7 := by decide +kernel

end OTR.Props
