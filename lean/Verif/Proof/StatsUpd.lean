import Verif.Proof.Stats
import Mathlib.Data.List.Induction
import Mathlib.Algebra.BigOperators.Group.List.Basic
/-! # The hourly sampler: helper lemmas -/

namespace OTR

/-- The samples of one hour before its final one: `update_stats_store(false, hh, ...)` for each in turn. -/
def runSubs (maxSub hh : Nat) (rnd : Nat → Byte) (subs : List Sensed) (x : UpdSt × Store) : UpdSt × Store :=
  subs.foldl (fun x i => updateStatsStore maxSub false hh rnd i x) x

/-- Ambient light is capped at 254 so that it cannot be the unset value. -/
def cap254 (v : Byte) : Nat := min v.toNat 254

def ambSum (l : List Sensed) : Nat := (l.map fun i => cap254 (i.amb.getD 0)).sum
def occSum (l : List Sensed) : Nat := (l.map fun i => (i.occ.getD 0).toNat).sum
def rhSum (l : List Sensed) : Nat := (l.map fun i => (i.rh.getD 0).toNat).sum
def tempSum (l : List Sensed) : Int := (l.map fun i => i.temp.getD 0).sum

theorem cap_toNat (v : Byte) : (if v < 254 then v else 254 : Byte).toNat = cap254 v := by
  unfold cap254
  split <;> rename_i h <;> simp only [UInt8.lt_iff_toNat_lt] at h
  · have : (254 : Byte).toNat = 254 := rfl
    omega
  · have : (254 : Byte).toNat = 254 := rfl
    omega

theorem ambSum_le (l : List Sensed) : ambSum l ≤ 254 * l.length := by
  induction l with
  | nil => simp [ambSum]
  | cons a l ih => simp only [ambSum, List.map_cons, List.sum_cons, List.length_cons, cap254] at *; omega

/-- The four totals one step later, on a non-skipped call. -/
theorem upd_totals (maxSub hh : Nat) (full : Bool) (rnd : Nat → Byte) (i : Sensed) (x : UpdSt × Store)
    (hh24 : hh ≤ 23) (hn : ¬ (full = false ∧ x.1.sampleCount ≥ maxSub - 1)) :
    let r := updateStatsStore maxSub full hh rnd i x
    r.1.sampleCount = (if full then 0 else (x.1.sampleCount + 1) % 256) ∧
    r.1.ambLightTotal = (match i.amb with
      | none => x.1.ambLightTotal
      | some v => if x.1.sampleCount = 0 then cap254 v else (x.1.ambLightTotal + cap254 v) % 65536) ∧
    r.1.tempC16Total = (match i.temp with
      | none => x.1.tempC16Total
      | some v => if x.1.sampleCount = 0 then v else i16 (x.1.tempC16Total + v)) ∧
    r.1.occpcTotal = (match i.occ with
      | none => x.1.occpcTotal
      | some v => if x.1.sampleCount = 0 then v.toNat else (x.1.occpcTotal + v.toNat) % pcMod maxSub) ∧
    r.1.rhpcTotal = (match i.rh with
      | none => x.1.rhpcTotal
      | some v => if x.1.sampleCount = 0 then v.toNat else (x.1.rhpcTotal + v.toNat) % pcMod maxSub) := by
  simp only [updateStatsStore, if_neg hn, if_neg (show ¬ hh > 23 by omega)]
  rcases i with ⟨a, t, o, r⟩
  cases a <;> cases t <;> cases o <;> cases r <;> cases full <;>
    simp [updAmb, updTemp, updOcc, updRh, cap_toNat]

theorem nonfull_store (maxSub hh : Nat) (rnd : Nat → Byte) (i : Sensed) (x : UpdSt × Store) :
    (updateStatsStore maxSub false hh rnd i x).2 = x.2 := by
  simp only [updateStatsStore]
  rcases i with ⟨a, t, o, r⟩
  cases a <;> cases t <;> cases o <;> cases r <;>
    simp [updAmb, updTemp, updOcc, updRh] <;> (repeat' split) <;> rfl

theorem skip_eq (maxSub hh : Nat) (rnd : Nat → Byte) (i : Sensed) (x : UpdSt × Store) (hh24 : hh ≤ 23)
    (h : x.1.sampleCount ≥ maxSub - 1) : updateStatsStore maxSub false hh rnd i x = x := by
  unfold updateStatsStore
  rw [if_neg (show ¬ hh > 23 by omega), if_pos ⟨rfl, h⟩]

theorem runSubs_store (maxSub hh : Nat) (rnd : Nat → Byte) (subs : List Sensed) (x : UpdSt × Store) :
    (runSubs maxSub hh rnd subs x).2 = x.2 := by
  unfold runSubs
  induction subs generalizing x with
  | nil => rfl
  | cons i l ih => rw [List.foldl_cons, ih, nonfull_store]

theorem runSubs_snoc (maxSub hh : Nat) (rnd : Nat → Byte) (l : List Sensed) (i : Sensed) (x : UpdSt × Store) :
    runSubs maxSub hh rnd (l ++ [i]) x = updateStatsStore maxSub false hh rnd i (runSubs maxSub hh rnd l x) := by
  simp [runSubs, List.foldl_append]

theorem runSubs_count (maxSub hh : Nat) (rnd : Nat → Byte) (subs : List Sensed) (x : UpdSt × Store)
    (hm : 1 ≤ maxSub ∧ maxSub ≤ 255) (hh24 : hh ≤ 23) (h0 : x.1.sampleCount = 0) :
    (runSubs maxSub hh rnd subs x).1.sampleCount = min subs.length (maxSub - 1) := by
  induction subs using List.reverseRecOn with
  | nil => simp [runSubs, h0]
  | append_singleton l i ih =>
    rw [runSubs_snoc]
    by_cases hs : (runSubs maxSub hh rnd l x).1.sampleCount ≥ maxSub - 1
    · rw [skip_eq _ _ _ _ _ hh24 hs, ih]; rw [ih] at hs; simp only [List.length_append, List.length_singleton]; omega
    · have := (upd_totals maxSub hh false rnd i (runSubs maxSub hh rnd l x) hh24 (fun h => hs h.2)).1
      rw [this, ih]; rw [ih] at hs
      simp only [Bool.false_eq_true, if_false, List.length_append, List.length_singleton]
      rw [Nat.mod_eq_of_lt (by omega)]; omega

/-- A channel accumulator that restarts at the first counted sample holds the sum of the counted samples. -/
theorem runSubs_take (maxSub hh : Nat) (rnd : Nat → Byte) (subs : List Sensed) (x : UpdSt × Store)
    (hm : 1 ≤ maxSub ∧ maxSub ≤ 255) (hh24 : hh ≤ 23) (h0 : x.1.sampleCount = 0) :
    runSubs maxSub hh rnd subs x = runSubs maxSub hh rnd (subs.take (maxSub - 1)) x := by
  induction subs using List.reverseRecOn with
  | nil => simp
  | append_singleton l i ih =>
    rw [runSubs_snoc]
    by_cases hl : l.length ≥ maxSub - 1
    · have hc := runSubs_count maxSub hh rnd l x hm hh24 h0
      rw [skip_eq _ _ _ _ _ hh24 (by omega), ih, List.take_append_of_le_length hl]
    · rw [List.take_of_length_le (l := l ++ [i]) (by simp; omega), runSubs_snoc]

theorem runSubs_sums (maxSub hh : Nat) (rnd : Nat → Byte) (l : List Sensed) (x : UpdSt × Store)
    (hm : 1 ≤ maxSub ∧ maxSub ≤ 255) (hh24 : hh ≤ 23) (h0 : x.1.sampleCount = 0)
    (hl : l.length ≤ maxSub - 1) (hne : l ≠ []) :
    ((∀ i ∈ l, i.amb.isSome) → (runSubs maxSub hh rnd l x).1.ambLightTotal = ambSum l) ∧
    ((∀ i ∈ l, i.temp.isSome) → (∀ p, p <+: l → -32768 ≤ tempSum p ∧ tempSum p < 32768) →
      (runSubs maxSub hh rnd l x).1.tempC16Total = tempSum l) ∧
    ((∀ i ∈ l, ∃ v, i.occ = some v ∧ v.toNat ≤ 100) → (runSubs maxSub hh rnd l x).1.occpcTotal = occSum l) ∧
    ((∀ i ∈ l, ∃ v, i.rh = some v ∧ v.toNat ≤ 100) → (runSubs maxSub hh rnd l x).1.rhpcTotal = rhSum l) := by
  induction l using List.reverseRecOn with
  | nil => exact absurd rfl hne
  | append_singleton l i ih =>
    simp only [List.length_append, List.length_singleton] at hl
    have hc := runSubs_count maxSub hh rnd l x hm hh24 h0
    have hs : ¬ (false = false ∧ (runSubs maxSub hh rnd l x).1.sampleCount ≥ maxSub - 1) := by rw [hc]; omega
    obtain ⟨_, ha, ht, ho, hr⟩ := upd_totals maxSub hh false rnd i (runSubs maxSub hh rnd l x) hh24 hs
    rw [runSubs_snoc]
    by_cases hnil : l = []
    · subst hnil
      have hc0 : (runSubs maxSub hh rnd [] x).1.sampleCount = 0 := by simpa using hc
      simp only [hc0, if_true] at ha ht ho hr
      simp only [List.nil_append, List.mem_singleton, forall_eq]
      refine ⟨fun h => ?_, fun h _ => ?_, fun h => ?_, fun h => ?_⟩
      · obtain ⟨v, hv⟩ := Option.isSome_iff_exists.mp h
        rw [ha, hv]; simp [ambSum, hv]
      · obtain ⟨v, hv⟩ := Option.isSome_iff_exists.mp h
        rw [ht, hv]; simp [tempSum, hv]
      · obtain ⟨v, hv, _⟩ := h
        rw [ho, hv]; simp [occSum, hv]
      · obtain ⟨v, hv, _⟩ := h
        rw [hr, hv]; simp [rhSum, hv]
    · obtain ⟨ia, it, io, ir⟩ := ih (by omega) hnil
      have hpos : 0 < l.length := List.length_pos_iff.mpr hnil
      have hcn : (runSubs maxSub hh rnd l x).1.sampleCount ≠ 0 := by rw [hc]; omega
      simp only [if_neg hcn] at ha ht ho hr
      refine ⟨fun h => ?_, fun h hp => ?_, fun h => ?_, fun h => ?_⟩
      · obtain ⟨v, hv⟩ := Option.isSome_iff_exists.mp (h i (by simp))
        rw [ha, hv, ia (fun j hj => h j (by simp [hj]))]
        have := ambSum_le l
        have hcap : cap254 v ≤ 254 := by unfold cap254; omega
        simp only []
        rw [Nat.mod_eq_of_lt (by omega)]
        simp [ambSum, hv]
      · obtain ⟨v, hv⟩ := Option.isSome_iff_exists.mp (h i (by simp))
        rw [ht, hv, it (fun j hj => h j (by simp [hj])) (fun p hpl => hp p (hpl.trans (List.prefix_append _ _)))]
        have h2 := hp (l ++ [i]) (List.prefix_refl _)
        have e : tempSum (l ++ [i]) = tempSum l + v := by simp [tempSum, hv]
        rw [e] at h2 ⊢
        simp only [i16]; omega
      · have bound : ∀ l : List Sensed, (∀ i ∈ l, ∃ v, i.occ = some v ∧ v.toNat ≤ 100) → occSum l ≤ 100 * l.length := by
          intro l hl
          induction l with
          | nil => simp [occSum]
          | cons a l ih =>
            have := ih (fun j hj => hl j (by simp [hj]))
            obtain ⟨v, hv, hv2⟩ := hl a (by simp)
            simp only [occSum, List.map_cons, List.sum_cons, List.length_cons, hv, Option.getD_some] at *; omega
        obtain ⟨v, hv, hv2⟩ := h i (by simp)
        have hb := bound l (fun j hj => h j (by simp [hj]))
        rw [ho, hv, io (fun j hj => h j (by simp [hj]))]
        simp only []
        rw [Nat.mod_eq_of_lt (by unfold pcMod; split <;> omega)]
        simp [occSum, hv]
      · have bound : ∀ l : List Sensed, (∀ i ∈ l, ∃ v, i.rh = some v ∧ v.toNat ≤ 100) → rhSum l ≤ 100 * l.length := by
          intro l hl
          induction l with
          | nil => simp [rhSum]
          | cons a l ih =>
            have := ih (fun j hj => hl j (by simp [hj]))
            obtain ⟨v, hv, hv2⟩ := hl a (by simp)
            simp only [rhSum, List.map_cons, List.sum_cons, List.length_cons, hv, Option.getD_some] at *; omega
        obtain ⟨v, hv, hv2⟩ := h i (by simp)
        have hb := bound l (fun j hj => h j (by simp [hj]))
        rw [hr, hv, ir (fun j hj => h j (by simp [hj]))]
        simp only []
        rw [Nat.mod_eq_of_lt (by unfold pcMod; split <;> omega)]
        simp [rhSum, hv]

end OTR

namespace OTR

theorem pair_apply (rnd : Byte) (set hh : Nat) (v : Byte) (s : Store) (hs : set + 1 < 14) (hh24 : hh ≤ 23) (i h : Nat) :
    updateStatsPair rnd set hh v s i h =
      if h = hh ∧ i = set then v
      else if h = hh ∧ i = set + 1 then
        (if s (set + 1) hh = unsetByte then v else smoothStatsValue rnd (s (set + 1) hh) v)
      else s i h := by
  have h1 : ¬ (set ≥ 14 ∨ hh ≥ 24) := by omega
  have h2 : ¬ (set + 1 ≥ 14 ∨ hh ≥ 24) := by omega
  have get1 : (s.set set hh v).get (set + 1) hh = s (set + 1) hh := by
    simp only [Store.set, Store.get, if_neg h1, if_neg h2]
    exact if_neg (by omega)
  have set1 : ∀ (s' : Store) (w : Byte), s'.set (set + 1) hh w = fun i' hh' => if i' = set + 1 ∧ hh' = hh then w else s' i' hh' :=
    fun s' w => by simp only [Store.set, if_neg h2]
  have set0 : s.set set hh v = fun i' hh' => if i' = set ∧ hh' = hh then v else s i' hh' := by
    simp only [Store.set, if_neg h1]
  unfold updateStatsPair
  simp only [get1, set1]
  rw [set0]
  by_cases a : h = hh
  · subst a
    by_cases b : i = set
    · subst b
      have : ¬ (i = i + 1) := by omega
      split <;> simp
    · by_cases c : i = set + 1
      · subst c; split <;> simp
      · split <;> simp [b, c]
  · split <;> simp [a]

/-- What the final sample of an hour leaves in the store. -/
theorem full_store (maxSub hh : Nat) (rnd : Nat → Byte) (i : Sensed) (x : UpdSt × Store) (hh24 : hh ≤ 23) (k h : Nat) :
    let r := updateStatsStore maxSub true hh rnd i x
    let sc := (x.1.sampleCount + 1) % 256
    r.2 k h =
      if h ≠ hh then x.2 k h
      else match k with
      | 0 => if i.temp.isSome then compressTempC16 (i16 (tempMean maxSub sc r.1.tempC16Total)) else x.2 k h
      | 1 => if i.temp.isSome then
               (if x.2 1 hh = unsetByte then compressTempC16 (i16 (tempMean maxSub sc r.1.tempC16Total))
                else smoothStatsValue (rnd 0) (x.2 1 hh) (compressTempC16 (i16 (tempMean maxSub sc r.1.tempC16Total)))) else x.2 k h
      | 2 => if i.amb.isSome then divideToU8 r.1.ambLightTotal sc maxSub else x.2 k h
      | 3 => if i.amb.isSome then
               (if x.2 3 hh = unsetByte then divideToU8 r.1.ambLightTotal sc maxSub
                else smoothStatsValue (rnd 2) (x.2 3 hh) (divideToU8 r.1.ambLightTotal sc maxSub)) else x.2 k h
      | 4 => if i.occ.isSome then divideToU8 r.1.occpcTotal sc maxSub else x.2 k h
      | 5 => if i.occ.isSome then
               (if x.2 5 hh = unsetByte then divideToU8 r.1.occpcTotal sc maxSub
                else smoothStatsValue (rnd 4) (x.2 5 hh) (divideToU8 r.1.occpcTotal sc maxSub)) else x.2 k h
      | 6 => if i.rh.isSome then divideToU8 r.1.rhpcTotal sc maxSub else x.2 k h
      | 7 => if i.rh.isSome then
               (if x.2 7 hh = unsetByte then divideToU8 r.1.rhpcTotal sc maxSub
                else smoothStatsValue (rnd 6) (x.2 7 hh) (divideToU8 r.1.rhpcTotal sc maxSub)) else x.2 k h
      | _ + 8 => x.2 k h := by
  have hn : ¬ (true = false ∧ x.1.sampleCount ≥ maxSub - 1) := by simp
  simp only [updateStatsStore, if_neg hn, if_neg (show ¬ hh > 23 by omega)]
  have pa : ∀ rnd set v s k, set + 1 < 14 → updateStatsPair rnd set hh v s k h =
      if h = hh ∧ k = set then v
      else if h = hh ∧ k = set + 1 then
        (if s (set + 1) hh = unsetByte then v else smoothStatsValue rnd (s (set + 1) hh) v)
      else s k h := fun rnd set v s k hs => pair_apply rnd set hh v s hs hh24 k h
  have pb : ∀ rnd set v s k, set + 1 < 14 → updateStatsPair rnd set hh v s k hh =
      if k = set then v
      else if k = set + 1 then
        (if s (set + 1) hh = unsetByte then v else smoothStatsValue rnd (s (set + 1) hh) v)
      else s k hh := fun rnd set v s k hs => by simpa using pair_apply rnd set hh v s hs hh24 k hh
  rcases i with ⟨a, t, o, r⟩
  by_cases e : h = hh
  · subst e
    rcases k with _ | _ | _ | _ | _ | _ | _ | _ | k <;>
    cases a <;> cases t <;> cases o <;> cases r <;>
      simp [updAmb, updTemp, updOcc, updRh, pb]
  · cases a <;> cases t <;> cases o <;> cases r <;>
      simp [updAmb, updTemp, updOcc, updRh, pa, e]

theorem divide_mean (total sc maxSub : Nat) (hsc : 1 ≤ sc) (hm : sc ≤ maxSub) :
    divideToU8 total sc maxSub = u8 ((total + sc / 2) / sc) := by
  unfold divideToU8
  by_cases h1 : maxSub = 1 ∨ sc = 1
  · have : sc = 1 := by omega
    subst this; simp
  · rw [if_neg h1]
    by_cases h2 : maxSub > 2 ∧ sc > 2
    · rw [if_pos h2]
    · have : sc = 2 := by omega
      subst this; rw [if_neg h2]

theorem tempMean_eq (maxSub sc : Nat) (total : Int) (hsc : 1 ≤ sc) (hm : sc ≤ maxSub) (h0 : 0 ≤ total) :
    tempMean maxSub sc total = (total + (sc / 2 : Nat)) / sc := by
  unfold tempMean
  by_cases h1 : sc = 1
  · subst h1; simp
  · by_cases h2 : sc = 2
    · subst h2; simp
    · rw [if_neg (by omega), if_neg h1, if_neg h2, Int.tdiv_eq_ediv_of_nonneg (by omega)]

end OTR

namespace OTR

theorem tempSum_nonneg (l : List Sensed) (h : ∀ i ∈ l, ∃ v, i.temp = some v ∧ 0 ≤ v) : 0 ≤ tempSum l := by
  induction l with
  | nil => simp [tempSum]
  | cons a l ih =>
    obtain ⟨v, hv, h0⟩ := h a (by simp)
    have := ih (fun i hi => h i (by simp [hi]))
    simp only [tempSum, List.map_cons, List.sum_cons, hv, Option.getD_some] at *; omega

theorem tempSum_append (a b : List Sensed) : tempSum (a ++ b) = tempSum a + tempSum b := by simp [tempSum]

theorem occSum_le (l : List Sensed) (h : ∀ i ∈ l, ∃ v, i.occ = some v ∧ v.toNat ≤ 100) : occSum l ≤ 100 * l.length := by
  induction l with
  | nil => simp [occSum]
  | cons a l ih =>
    have := ih (fun j hj => h j (by simp [hj]))
    obtain ⟨v, hv, hv2⟩ := h a (by simp)
    simp only [occSum, List.map_cons, List.sum_cons, List.length_cons, hv, Option.getD_some] at *; omega

theorem rhSum_le (l : List Sensed) (h : ∀ i ∈ l, ∃ v, i.rh = some v ∧ v.toNat ≤ 100) : rhSum l ≤ 100 * l.length := by
  induction l with
  | nil => simp [rhSum]
  | cons a l ih =>
    have := ih (fun j hj => h j (by simp [hj]))
    obtain ⟨v, hv, hv2⟩ := h a (by simp)
    simp only [rhSum, List.map_cons, List.sum_cons, List.length_cons, hv, Option.getD_some] at *; omega

/-- The totals just after the final sample of the hour. -/
theorem final_totals (maxSub hh : Nat) (rnd : Nat → Byte) (l : List Sensed) (last : Sensed) (x : UpdSt × Store)
    (hm : 1 ≤ maxSub ∧ maxSub ≤ 255) (hh24 : hh ≤ 23) (h0 : x.1.sampleCount = 0) (hl : l.length ≤ maxSub - 1) :
    let r := updateStatsStore maxSub true hh rnd last (runSubs maxSub hh rnd l x)
    ((∀ i ∈ l ++ [last], i.amb.isSome) → r.1.ambLightTotal = ambSum (l ++ [last])) ∧
    ((∀ i ∈ l ++ [last], ∃ v, i.temp = some v ∧ 0 ≤ v) → tempSum (l ++ [last]) < 32768 →
      r.1.tempC16Total = tempSum (l ++ [last])) ∧
    ((∀ i ∈ l ++ [last], ∃ v, i.occ = some v ∧ v.toNat ≤ 100) → r.1.occpcTotal = occSum (l ++ [last])) ∧
    ((∀ i ∈ l ++ [last], ∃ v, i.rh = some v ∧ v.toNat ≤ 100) → r.1.rhpcTotal = rhSum (l ++ [last])) := by
  obtain ⟨_, ha, ht, ho, hr⟩ := upd_totals maxSub hh true rnd last (runSubs maxSub hh rnd l x) hh24 (by simp)
  have hc := runSubs_count maxSub hh rnd l x hm hh24 h0
  dsimp only
  by_cases hnil : l = []
  · subst hnil
    have hc0 : (runSubs maxSub hh rnd [] x).1.sampleCount = 0 := by simpa using hc
    simp only [hc0, if_true] at ha ht ho hr
    simp only [List.nil_append, List.mem_singleton, forall_eq]
    refine ⟨fun h => ?_, fun h _ => ?_, fun h => ?_, fun h => ?_⟩
    · obtain ⟨v, hv⟩ := Option.isSome_iff_exists.mp h
      rw [ha, hv]; simp [ambSum, hv]
    · obtain ⟨v, hv, _⟩ := h
      rw [ht, hv]; simp [tempSum, hv]
    · obtain ⟨v, hv, _⟩ := h
      rw [ho, hv]; simp [occSum, hv]
    · obtain ⟨v, hv, _⟩ := h
      rw [hr, hv]; simp [rhSum, hv]
  · obtain ⟨ia, it, io, ir⟩ := runSubs_sums maxSub hh rnd l x hm hh24 h0 hl hnil
    have hpos : 0 < l.length := List.length_pos_iff.mpr hnil
    have hcn : (runSubs maxSub hh rnd l x).1.sampleCount ≠ 0 := by rw [hc]; omega
    simp only [if_neg hcn] at ha ht ho hr
    refine ⟨fun h => ?_, fun h hp => ?_, fun h => ?_, fun h => ?_⟩
    · obtain ⟨v, hv⟩ := Option.isSome_iff_exists.mp (h last (by simp))
      rw [ha, hv, ia (fun j hj => h j (by simp [hj]))]
      have := ambSum_le l
      have hcap : cap254 v ≤ 254 := by unfold cap254; omega
      simp only []
      rw [Nat.mod_eq_of_lt (by omega)]
      simp [ambSum, hv]
    · obtain ⟨v, hv, hv0⟩ := h last (by simp)
      have e : tempSum (l ++ [last]) = tempSum l + v := by simp [tempSum, hv]
      have hpre : ∀ p, p <+: l → -32768 ≤ tempSum p ∧ tempSum p < 32768 := by
        rintro p ⟨q, rfl⟩
        have h1 := tempSum_nonneg p (fun i hi => h i (by simp [hi]))
        have h2 := tempSum_nonneg q (fun i hi => h i (by simp [hi]))
        rw [e, tempSum_append] at hp
        omega
      rw [ht, hv, it (fun j hj => by obtain ⟨w, hw, _⟩ := h j (by simp [hj]); simp [hw]) hpre]
      have h1 := tempSum_nonneg l (fun i hi => h i (by simp [hi]))
      rw [e] at hp ⊢
      simp only [i16]; omega
    · obtain ⟨v, hv, hv2⟩ := h last (by simp)
      have hb := occSum_le l (fun j hj => h j (by simp [hj]))
      rw [ho, hv, io (fun j hj => h j (by simp [hj]))]
      simp only []
      rw [Nat.mod_eq_of_lt (by unfold pcMod; split <;> omega)]
      simp [occSum, hv]
    · obtain ⟨v, hv, hv2⟩ := h last (by simp)
      have hb := rhSum_le l (fun j hj => h j (by simp [hj]))
      rw [hr, hv, ir (fun j hj => h j (by simp [hj]))]
      simp only []
      rw [Nat.mod_eq_of_lt (by unfold pcMod; split <;> omega)]
      simp [rhSum, hv]

end OTR
