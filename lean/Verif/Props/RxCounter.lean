import Verif.Proof.RxCounter
import Verif.Props.Security
/-!
# Properties C23-C26, C28: receive counters in EEPROM
-/

namespace OTR.Props
open OTR

/-! ## C23 -/

/-- **C23.** From any EEPROM contents whatever: if `authAndUpdateRXMsgCtr(id, new)` reports success then the stored
counter of `id` was readable and strictly less than `new`, it now reads exactly `new`, and the counter of every other
node reads as before. If it reports failure, nothing was written. -/
theorem C23_update_exact (m : EE) (id new : Bytes) (h8 : id.length = 8) (h6 : new.length = 6) :
    let m' := (authAndUpdateRXMsgCtr id new).post m
    ((authAndUpdateRXMsgCtr id new m).1 = true →
      (∃ cur, getLastRXMsgCtr m id = some cur ∧ beVal cur < beVal new) ∧
      getLastRXMsgCtr m' id = some new ∧
      (∀ id', id'.length = 8 → id' ≠ id → getLastRXMsgCtr m' id' = getLastRXMsgCtr m id') ∧
      (∀ q, q < 8 → rowID m' q = rowID m q)) ∧
    ((authAndUpdateRXMsgCtr id new m).1 = false → m' = m) := by
  intro m'
  have hm' : m' = applyW m (authAndUpdateRXMsgCtr id new m).2 := rfl
  clear_value m'
  unfold authAndUpdateRXMsgCtr at hm' ⊢
  cases hl : getLastRXMsgCtr m id with
  | none => simp only [hl] at hm' ⊢; simp [hm']
  | some cur =>
    simp only [hl] at hm' ⊢
    by_cases hc : msgcountercmp new cur > 0
    · rw [if_pos hc] at hm' ⊢
      have hl' := hl
      unfold getLastRXMsgCtr at hl'
      cases hi : getNextMatchingNodeID m 0 id with
      | none => simp only [hi] at hm' ⊢; simp [hm']
      | some i =>
        simp only [hi] at hm' hl' ⊢
        obtain ⟨hi8, hrow⟩ := getNext_full h8 hi
        have hcur6 := rowLast_len hl'
        have hex := rowUpdate_exact (m := m) (r := assocRow i) h6
        have hconf := applyW_confined (m := m) (ws := (rowUpdate (assocRow i) new m).2)
          (fun w hw => rowUpdate_confined h6 hw)
        have hfr := row_frame (m := m) (m' := applyW m (rowUpdate (assocRow i) new m).2) (i := i) hconf
        rw [← hm'] at hfr
        constructor
        · intro ht
          refine ⟨⟨cur, rfl, ((cmp6 h6 hcur6).2.2).1 hc⟩, ?_, ?_, hfr.1⟩
          · unfold getLastRXMsgCtr
            rw [getNext_congr id hfr.1, hi]
            have := hex.2 ht
            rw [EM.post, ← hm'] at this
            exact this
          · intro id' h8' hne
            unfold getLastRXMsgCtr
            rw [getNext_congr id' hfr.1]
            cases hq : getNextMatchingNodeID m 0 id' with
            | none => rfl
            | some q =>
              obtain ⟨hq8, hqrow⟩ := getNext_full h8' hq
              apply hfr.2
              rintro rfl
              exact hne (hqrow.symm.trans hrow)
        · intro hf
          rw [hm', hex.1 hf]; rfl
    · rw [if_neg hc] at hm' ⊢
      simp [hm']

/-! ## Storage invariant for crash safety -/

/-- Both stored copies for node `id` (found in row `i`) are good and hold `c`. -/
def BothGood (m : EE) (id : Bytes) (c : Bytes) : Prop :=
  ∃ i, getNextMatchingNodeID m 0 id = some i ∧ HoldsCtr m (assocRow i + 8) c ∧ HoldsCtr m (assocRow i + 16) c

/-- C23 progress: with both copies good and the values far from the 40-bit carry (see C08), a greater counter is
accepted. -/
theorem C23_accepts_greater (m : EE) (id c cur new : Bytes) (h6 : new.length = 6) (hg : BothGood m id c)
    (hcur : getLastRXMsgCtr m id = some cur) (hlt : beVal cur < beVal new) (hsmall : beVal c + 255 < 2 ^ 40) :
    (authAndUpdateRXMsgCtr id new m).1 = true := by
  obtain ⟨i, hi, h0, h1⟩ := hg
  have hc6 := h0.1
  have hb : rxBase m (assocRow i) = some c := by unfold rxBase; rw [table_some_iff.2 h0]
  have hcur' := hcur
  unfold getLastRXMsgCtr at hcur'
  simp only [hi] at hcur'
  have hcl := rowLast_len hcur'
  rw [rowLast_eq hb] at hcur'
  unfold authAndUpdateRXMsgCtr
  simp only [hcur, hi]
  rw [if_pos ((cmp6 h6 hcl).2.2.2 hlt)]
  have hval : ∀ u : Byte, (msgcounteradd c u).1 = true ∧ beVal (msgcounteradd c u).2 = beVal c + u.toNat := by
    intro u
    have := byte_lt u
    have ht := (add_true_iff hc6 u).2 (by omega)
    refine ⟨ht, ?_⟩
    rw [(msgcounteradd_val hc6 u).2.2.2 ht, if_pos (by rw [Nat.mod_eq_of_lt (by omega)]; omega)]
  rw [if_pos (hval _).1] at hcur'
  simp only [Option.some.injEq] at hcur'
  have hcv := (hval (rxIncr m (assocRow i))).2
  rw [hcur'] at hcv
  have hfind : ∀ (n : Nat) (u : Byte), u.toNat + n = 17 → beVal c + u.toNat ≤ beVal new → beVal new ≤ beVal c + 16 →
      ∃ v, findIncr c new n u = some v := by
    intro n
    induction n with
    | zero => intro u hu a b; omega
    | succ n ih =>
      intro u hu a b
      rw [findIncr, if_neg (by simp [(hval u).1])]
      by_cases he : msgcountercmp (msgcounteradd c u).2 new = 0
      · rw [if_pos he]; exact ⟨_, rfl⟩
      · rw [if_neg he]
        have hs : (u + 1).toNat = u.toNat + 1 := by
          apply succ_toNat; rintro rfl
          have : (0xff : Byte).toNat = 255 := by decide
          omega
        apply ih _ (by omega) ?_ b
        have hne : beVal (msgcounteradd c u).2 ≠ beVal new := by
          intro hh
          exact he ((cmp6 (msgcounteradd_val hc6 u).1 h6).2.1.2 (beVal_inj (by rw [(msgcounteradd_val hc6 u).1, h6]) hh))
        rw [(hval u).2] at hne
        omega
  unfold rowUpdate
  rw [hb]
  simp only
  rw [if_neg (by simp [(hval 16).1])]
  have e16 : (16 : Byte).toNat = 16 := by decide
  by_cases hm : msgcountercmp (msgcounteradd c 16).2 new ≥ 0
  · rw [if_pos hm]
    have hle : beVal new ≤ beVal c + 16 := by
      have := (cmp6 (msgcounteradd_val hc6 16).1 h6).1
      rw [(hval 16).2, e16] at this
      have hn : ¬ (msgcountercmp (msgcounteradd c 16).2 new < 0) := by omega
      rw [this] at hn; omega
    obtain ⟨v, hv⟩ := hfind (17 - (rxIncr m (assocRow i)).toNat) (rxIncr m (assocRow i)) (by omega) (by omega) hle
    rw [hv]
    simp only
    rw [writeIncr_does]
  · rw [if_neg hm, fullUpdate_does _ _ h6]

/-! ## C24, C25: one power failure -/

/-- **C24/C25 (partial: one crash from a state with two good copies, counter not within 255 of a multiple of 2^40).**
Power fails after any number `k` of the byte writes of `authAndUpdateRXMsgCtr(id, new)`. Then the counter of `id` is
still readable and not less than before, so nothing that was not acceptable before becomes acceptable; no other node's
counter changes. -/
theorem C24_rx_crash_partial (m : EE) (id c cur new : Bytes) (h8 : id.length = 8) (h6 : new.length = 6)
    (hg : BothGood m id c) (hcur : getLastRXMsgCtr m id = some cur)
    (hsmall : beVal new % 2 ^ 40 + 255 < 2 ^ 40) (k : Nat) :
    let m' := applyW m ((authAndUpdateRXMsgCtr id new m).2.take k)
    (∃ q, getLastRXMsgCtr m' id = some q ∧ beVal cur ≤ beVal q) ∧
    (∀ id', id'.length = 8 → id' ≠ id → getLastRXMsgCtr m' id' = getLastRXMsgCtr m id') := by
  intro m'
  have hm' : m' = applyW m ((authAndUpdateRXMsgCtr id new m).2.take k) := rfl
  clear_value m'
  obtain ⟨i, hi, h0, h1⟩ := hg
  have hc6 := h0.1
  obtain ⟨hi8, hrow⟩ := getNext_full h8 hi
  have hb : rxBase m (assocRow i) = some c := by unfold rxBase; rw [table_some_iff.2 h0]
  have hcur' := hcur
  unfold getLastRXMsgCtr at hcur'
  simp only [hi] at hcur'
  have hcl := rowLast_len hcur'
  unfold authAndUpdateRXMsgCtr at hm'
  simp only [hcur, hi] at hm'
  by_cases hgt : msgcountercmp new cur > 0
  case neg =>
    rw [if_neg hgt] at hm'
    simp only [List.take_nil, applyW_nil] at hm'
    subst hm'
    exact ⟨⟨cur, hcur, Nat.le_refl _⟩, fun _ _ _ => rfl⟩
  rw [if_pos hgt] at hm'
  have hlt := ((cmp6 h6 hcl).2.2).1 hgt
  have hfr : (∀ q, q < 8 → rowID m' q = rowID m q) ∧
      (∀ q, q ≠ i → rowLast m' (assocRow q) = rowLast m (assocRow q)) := by
    apply row_frame
    rw [hm']
    apply applyW_confined
    intro w hw
    exact rowUpdate_confined h6 (List.mem_of_mem_take hw)
  refine ⟨?_, ?_⟩
  case refine_2 =>
    intro id' h8' hne
    unfold getLastRXMsgCtr
    rw [getNext_congr id' hfr.1]
    cases hq : getNextMatchingNodeID m 0 id' with
    | none => rfl
    | some q =>
      obtain ⟨hq8, hqrow⟩ := getNext_full h8' hq
      apply hfr.2
      rintro rfl
      exact hne (hqrow.symm.trans hrow)
  have hgoal : getLastRXMsgCtr m' id = rowLast m' (assocRow i) := by
    unfold getLastRXMsgCtr; rw [getNext_congr id hfr.1, hi]
  rw [hgoal]
  generalize hr : assocRow i = r at *
  have hcur'' := hcur'
  rw [rowLast_eq hb] at hcur''
  have hs0 : (msgcounteradd c (rxIncr m r)).1 = true := by
    apply Classical.byContradiction
    intro hh; rw [if_neg hh] at hcur''; simp at hcur''
  rw [if_pos hs0] at hcur''
  simp only [Option.some.injEq] at hcur''
  -- reading the new counter plus anything
  have hnewval : ∀ u : Byte, (msgcounteradd new u).1 = true ∧ beVal new ≤ beVal (msgcounteradd new u).2 := by
    intro u
    have hu := byte_lt u
    have hnl := beVal_lt new
    rw [h6] at hnl
    have hb48 : beVal new + 255 < 2 ^ 48 := by
      generalize beVal new = N at *
      omega
    have ht := (add_true_iff h6 u).2 (by omega)
    refine ⟨ht, ?_⟩
    rw [(msgcounteradd_val h6 u).2.2.2 ht, if_pos (by omega)]
    omega
  rcases rowUpdate_cases h6 hb with hz | ⟨u, hu0, hu16, hadd, hd⟩ | hd
  · rw [hz] at hm'
    simp only [List.take_nil, applyW_nil] at hm'
    subst hm'
    exact ⟨cur, hcur', Nat.le_refl _⟩
  · -- unary increase
    unfold Does at hd
    rw [hd] at hm'
    simp only at hm'
    obtain ⟨j, hj, he⟩ := smartSeq_prefix m [(r + 23, (unary2Encode u).2), (r + 15, (unary2Encode u).1)] k
    rw [he] at hm'
    have hb2 : rxBase m' r = some c := by
      unfold rxBase at hb ⊢
      rw [table_congr (m := m) (a := r + 8), table_congr (m := m) (a := r + 16)]
      · exact hb
      · intro x g1 g2
        rw [hm']; apply applyW_other
        intro w hw; have := List.mem_of_mem_take hw
        simp at this; rcases this with rfl | rfl <;> simp <;> omega
      · intro x g1 g2
        rw [hm']; apply applyW_other
        intro w hw; have := List.mem_of_mem_take hw
        simp at this; rcases this with rfl | rfl <;> simp <;> omega
    have hsu : (msgcounteradd c u).1 = true := by rw [hadd]
    have hvu : (msgcounteradd c u).2 = new := by rw [hadd]
    have hne : (rxIncr m r).toNat < u.toNat := by
      rcases Nat.lt_or_ge (rxIncr m r).toNat u.toNat with h | h
      · exact h
      · exfalso
        have : rxIncr m r = u := byte_ext (by omega)
        rw [this, hadd] at hcur''
        simp only at hcur''
        rw [hcur''] at hlt; omega
    have hmid : (rxIncr m r).toNat ≤ (rxIncr m' r).toNat ∧ (rxIncr m' r).toNat ≤ u.toNat := by
      have hj' : j = 0 ∨ j = 1 ∨ j = 2 := by simp at hj; omega
      rcases hj' with rfl | rfl | rfl
      · simp only [List.take_zero, applyW_nil] at hm'
        subst hm'; omega
      · simp only [List.take_succ_cons, List.take_zero, applyW_cons, applyW_nil] at hm'
        unfold rxIncr at hne ⊢
        rw [hm', EE.upd_other _ _ (by omega), EE.upd_same]
        exact unary_mid _ _ _ hne hu16
      · simp only [List.take_succ_cons, List.take_zero, applyW_cons, applyW_nil] at hm'
        have : rxIncr m' r = u := by
          unfold rxIncr
          rw [hm', EE.upd_same, EE.upd_other _ _ (by omega), EE.upd_same, unary_roundtrip u hu16]
        rw [this]; omega
    have := add_mid hc6 hmid.1 hmid.2 hsu (by rw [hcur'', hvu]; exact hlt)
    rw [rowLast_eq hb2, if_pos this.1]
    exact ⟨_, rfl, by rw [← hcur'']; exact this.2.1⟩
  · -- full update
    unfold Does at hd
    rw [hd] at hm'
    simp only at hm'
    obtain ⟨j, hj, he⟩ := smartSeq_prefix m (fullList (m (r + 14)) (m (r + 22)) r new) k
    rw [he] at hm'
    have hl : (fullList (m (r + 14)) (m (r + 22)) r new).length = 18 := by
      simp [fullList, updList, wlist_length, h6]
    rw [hl] at hj
    have hst := full_states m r new h6 j hj
    simp only at hst
    rw [← hm'] at hst
    obtain ⟨s0, s1, s8, s16, s17, s18⟩ := hst
    by_cases hj0 : j = 0
    · rw [s0 hj0]; exact ⟨cur, hcur', Nat.le_refl _⟩
    by_cases hj7 : j ≤ 7
    · obtain ⟨t1, t2⟩ := s1 ⟨by omega, hj7⟩
      have hb2 : rxBase m' r = some c := by
        unfold rxBase
        rw [table_none_of_msb (a := r + 8) t1, table_congr (m := m) (a := r + 16) (fun x g1 _ => t2 x (by omega))]
        exact table_some_iff.2 h1
      have hi2 : rxIncr m' r = rxIncr m r := by
        unfold rxIncr; rw [t2 _ (by omega), t2 _ (by omega)]
      rw [rowLast_eq hb2, hi2, if_pos hs0, hcur'']
      exact ⟨cur, rfl, Nat.le_refl _⟩
    · have hb2 : rxBase m' r = some new := by
        unfold rxBase; rw [table_some_iff.2 (s8 (by omega))]
      have := hnewval (rxIncr m' r)
      rw [rowLast_eq hb2, if_pos this.1]
      exact ⟨_, rfl, by omega⟩

/-- The invariant used above is kept by every completed update ... -/
theorem C24_invariant_kept (m : EE) (id c new : Bytes) (h8 : id.length = 8) (h6 : new.length = 6) (hg : BothGood m id c) :
    ∃ c', BothGood ((authAndUpdateRXMsgCtr id new).post m) id c' ∧ (c' = c ∨ c' = new) := by
  obtain ⟨i, hi, h0, h1⟩ := hg
  obtain ⟨hi8, hrow⟩ := getNext_full h8 hi
  have hb : rxBase m (assocRow i) = some c := by unfold rxBase; rw [table_some_iff.2 h0]
  have hsame : ∃ c', BothGood m id c' ∧ (c' = c ∨ c' = new) := ⟨c, ⟨i, hi, h0, h1⟩, Or.inl rfl⟩
  rw [EM.post]
  unfold authAndUpdateRXMsgCtr
  cases hl : getLastRXMsgCtr m id with
  | none => simpa using hsame
  | some cur =>
    simp only
    by_cases hc : msgcountercmp new cur > 0
    case neg => rw [if_neg hc]; simpa using hsame
    rw [if_pos hc, hi]
    simp only
    have hfr := row_frame (m := m) (m' := applyW m (rowUpdate (assocRow i) new m).2) (i := i)
      (applyW_confined (fun w hw => rowUpdate_confined h6 hw))
    rcases rowUpdate_cases h6 hb with hz | ⟨u, hu0, hu16, hadd, hd⟩ | hd
    · rw [hz]; simpa using hsame
    · refine ⟨c, ⟨i, by rw [getNext_congr id hfr.1]; exact hi, ?_, ?_⟩, Or.inl rfl⟩
      · rw [← table_some_iff, table_congr (m := m), table_some_iff]
        · exact h0
        · intro x g1 g2
          unfold Does at hd; rw [hd]; simp only [applyW_smartSeq]
          apply applyW_other; intro w hw
          simp at hw; rcases hw with rfl | rfl <;> simp <;> omega
      · rw [← table_some_iff, table_congr (m := m), table_some_iff]
        · exact h1
        · intro x g1 g2
          unfold Does at hd; rw [hd]; simp only [applyW_smartSeq]
          apply applyW_other; intro w hw
          simp at hw; rcases hw with rfl | rfl <;> simp <;> omega
    · refine ⟨new, ⟨i, by rw [getNext_congr id hfr.1]; exact hi, ?_, ?_⟩, Or.inr rfl⟩
      all_goals
        unfold Does at hd; rw [hd]; simp only [applyW_smartSeq]
        have hst := full_states m (assocRow i) new h6 18 (by omega)
        have hl : (fullList (m (assocRow i + 14)) (m (assocRow i + 22)) (assocRow i) new).length = 18 := by
          simp [fullList, updList, wlist_length, h6]
        rw [List.take_of_length_le (by omega)] at hst
        simp only at hst
      · exact hst.2.2.1 (by omega)
      · exact (hst.2.2.2.2.1 (by omega)).2

/-- **C25 (partial, same limits as C24).** One power failure at any point of an update does not lock the node out. -/
theorem C25_one_crash_readable_partial (m : EE) (id c cur new : Bytes) (h8 : id.length = 8) (h6 : new.length = 6)
    (hg : BothGood m id c) (hcur : getLastRXMsgCtr m id = some cur)
    (hsmall : beVal new % 2 ^ 40 + 255 < 2 ^ 40) (k : Nat) :
    getLastRXMsgCtr (applyW m ((authAndUpdateRXMsgCtr id new m).2.take k)) id ≠ none := by
  obtain ⟨⟨q, hq, _⟩, _⟩ := C24_rx_crash_partial m id c cur new h8 h6 hg hcur hsmall k
  rw [hq]; simp

/-- A concrete receiver: one associated node, otherwise erased EEPROM, then the writes `l`. -/
def exRx (l : List Wr) : EE :=
  applyW (fun _ => 0xff)
    ([(768, 0x80), (769, 0x81), (770, 0x82), (771, 0x83), (772, 0x84), (773, 0x85), (774, 0x86), (775, 0x87)] ++ l)
def exRxID : Bytes := [0x80, 0x81, 0x82, 0x83, 0x84, 0x85, 0x86, 0x87]

theorem exRx_append (l l' : List Wr) : applyW (exRx l) l' = exRx (l ++ l') := by
  unfold exRx; simp only [applyW_append]

/-- Non-vacuity of C23-C25: a new node, first counter 100 (needs a full update of 6 byte writes) or 3 (unary). -/
theorem exRx_good : BothGood (exRx []) exRxID [0, 0, 0, 0, 0, 0] :=
  ⟨0, by decide +kernel, table_some_iff.1 (by decide +kernel), table_some_iff.1 (by decide +kernel)⟩
example : getLastRXMsgCtr (exRx []) exRxID = some [0, 0, 0, 0, 0, 0] ∧
    (authAndUpdateRXMsgCtr exRxID [0, 0, 0, 0, 0, 100] (exRx [])).2.length = 6 ∧
    (authAndUpdateRXMsgCtr exRxID [0, 0, 0, 0, 0, 100] (exRx [])).1 = true ∧
    (authAndUpdateRXMsgCtr exRxID [0, 0, 0, 0, 0, 3] (exRx [])).2.length = 1 := by decide +kernel

/-! ## What is false -/

/-- C24 without the limit on the counter's value. -/
def C24_claim : Prop := ∀ (m : EE) (id c cur new q : Bytes) (k : Nat), id.length = 8 → new.length = 6 →
  BothGood m id c → getLastRXMsgCtr m id = some cur →
  getLastRXMsgCtr (applyW m ((authAndUpdateRXMsgCtr id new m).2.take k)) id = some q → beVal cur ≤ beVal q

/-- It is false, because of the missing carry in `msgcounteradd` (C08): stored counter 1 (base 0, unary 1), new counter
2^40-1, power fails once the first copy is written: the counter reads back as 0. -/
theorem C24_refuted : ¬ C24_claim := by
  intro h
  have h1 := h (exRx [(791, 254)]) exRxID [0, 0, 0, 0, 0, 0] [0, 0, 0, 0, 0, 1] [0, 0xff, 0xff, 0xff, 0xff, 0xff]
    [0, 0, 0, 0, 0, 0] 7 rfl rfl
    ⟨0, by decide +kernel, table_some_iff.1 (by decide +kernel), table_some_iff.1 (by decide +kernel)⟩
    (by decide +kernel)
  have hw : (authAndUpdateRXMsgCtr exRxID [0, 0xff, 0xff, 0xff, 0xff, 0xff] (exRx [(791, 254)])).2.take 7 =
      [(782, 127), (777, 0), (778, 0), (779, 0), (780, 0), (781, 0), (782, 139)] := by decide +kernel
  rw [hw, exRx_append] at h1
  have := h1 (by decide +kernel)
  revert this; decide

/-- **Replay after two power failures** (small counters, no carry involved): start with both copies good; a crash in the
update to 100; counter 101 is then accepted; a crash in the update to 768; and counter 101 is accepted a second time. -/
theorem C24_replay_after_two_crashes :
    ∃ (m0 : EE) (k1 k2 : Nat), BothGood m0 exRxID [0, 0, 0, 0, 0, 0] ∧
      let m1 := applyW m0 ((authAndUpdateRXMsgCtr exRxID [0, 0, 0, 0, 0, 100] m0).2.take k1)
      (authAndUpdateRXMsgCtr exRxID [0, 0, 0, 0, 0, 101] m1).1 = true ∧
      let m2 := (authAndUpdateRXMsgCtr exRxID [0, 0, 0, 0, 0, 101]).post m1
      let m3 := applyW m2 ((authAndUpdateRXMsgCtr exRxID [0, 0, 0, 0, 3, 0] m2).2.take k2)
      (authAndUpdateRXMsgCtr exRxID [0, 0, 0, 0, 0, 101] m3).1 = true := by
  refine ⟨exRx [], 3, 1, exRx_good, ?_⟩
  have w1 : (authAndUpdateRXMsgCtr exRxID [0, 0, 0, 0, 0, 100] (exRx [])).2.take 3 =
      [(782, 127), (781, 155), (782, 196)] := by decide +kernel
  simp only [w1, exRx_append, EM.post]
  have w2 : authAndUpdateRXMsgCtr exRxID [0, 0, 0, 0, 0, 101] (exRx ([] ++ [(782, 127), (781, 155), (782, 196)])) =
      (true, [(791, 254)]) := by decide +kernel
  simp only [w2]
  have w3 : (authAndUpdateRXMsgCtr exRxID [0, 0, 0, 0, 3, 0]
      (exRx ([] ++ [(782, 127), (781, 155), (782, 196)] ++ [(791, 254)]))).2.take 1 = [(782, 68)] := by decide +kernel
  simp only [w3]
  refine ⟨trivial, by decide +kernel⟩

/-- A series of interrupted updates: (new counter, number of byte writes before power failed). -/
def crashes (id : Bytes) (m : EE) (us : List (Bytes × Nat)) : EE :=
  us.foldl (fun m u => applyW m ((authAndUpdateRXMsgCtr id u.1 m).2.take u.2)) m

/-- C26 as documented: any number of power failures leaves the node's counter readable (even for small counters). -/
def C26_claim : Prop := ∀ (m : EE) (id c : Bytes) (us : List (Bytes × Nat)), id.length = 8 →
  (∀ u ∈ us, u.1.length = 6 ∧ beVal u.1 < 2 ^ 32) → BothGood m id c → beVal c < 2 ^ 32 →
  getLastRXMsgCtr (crashes id m us) id ≠ none

/-- **C26 is false**: two power failures lock the node out - one while the second copy is being rewritten, the next
while the first is. -/
theorem C26_refuted : ¬ C26_claim := by
  intro h
  have h1 := h (exRx []) exRxID [0, 0, 0, 0, 0, 0] [([0, 0, 0, 0, 0, 100], 4), ([0, 0, 0, 0, 3, 0], 1)] rfl
    (by intro u hu; simp at hu; rcases hu with rfl | rfl <;> decide) exRx_good (by decide)
  apply h1
  unfold crashes
  have w1 : (authAndUpdateRXMsgCtr exRxID [0, 0, 0, 0, 0, 100] (exRx [])).2.take 4 =
      [(782, 127), (781, 155), (782, 196), (790, 127)] := by decide +kernel
  simp only [List.foldl_cons, List.foldl_nil, w1, exRx_append]
  have w2 : (authAndUpdateRXMsgCtr exRxID [0, 0, 0, 0, 3, 0]
      (exRx ([] ++ [(782, 127), (781, 155), (782, 196), (790, 127)]))).2.take 1 = [(782, 68)] := by decide +kernel
  rw [w2]
  decide +kernel

/-- **C26 (what does hold).** Any number of power failures, provided that after each one an update runs to completion
through a full (two-copy) rewrite - here: the completed update jumps more than 16 ahead of the base - before the next. -/
theorem C26_full_update_restores_partial (m : EE) (id base new : Bytes) (h8 : id.length = 8) (h6 : new.length = 6)
    (hok : (authAndUpdateRXMsgCtr id new m).1 = true)
    (hbase : ∃ i, getNextMatchingNodeID m 0 id = some i ∧ rxBase m (assocRow i) = some base)
    (hjump : beVal base + 16 < beVal new) :
    BothGood ((authAndUpdateRXMsgCtr id new).post m) id new ∧
    getLastRXMsgCtr ((authAndUpdateRXMsgCtr id new).post m) id = some new := by
  refine ⟨?_, ((C23_update_exact m id new h8 h6).1 hok).2.1⟩
  obtain ⟨i, hi, hb⟩ := hbase
  rw [EM.post]
  unfold authAndUpdateRXMsgCtr at hok ⊢
  cases hl : getLastRXMsgCtr m id with
  | none => simp [hl] at hok
  | some cur =>
    simp only [hl] at hok ⊢
    by_cases hc : msgcountercmp new cur > 0
    case neg => rw [if_neg hc] at hok; simp at hok
    rw [if_pos hc, hi] at hok ⊢
    simp only at hok ⊢
    have hfr := row_frame (m := m) (m' := applyW m (rowUpdate (assocRow i) new m).2) (i := i)
      (applyW_confined (fun w hw => rowUpdate_confined h6 hw))
    rcases rowUpdate_cases h6 hb with hz | ⟨u, hu0, hu16, hadd, hd⟩ | hd
    · rw [hz] at hok; simp at hok
    · exfalso
      have hb6 := rxBase_len hb
      have hv := (msgcounteradd_val hb6 u).2.2.2 (by rw [hadd])
      rw [hadd] at hv
      simp only at hv
      split at hv <;> omega
    · refine ⟨i, by rw [getNext_congr id hfr.1]; exact hi, ?_, ?_⟩
      all_goals
        unfold Does at hd; rw [hd]; simp only [applyW_smartSeq]
        have hst := full_states m (assocRow i) new h6 18 (by omega)
        have hl : (fullList (m (assocRow i + 14)) (m (assocRow i + 22)) (assocRow i) new).length = 18 := by
          simp [fullList, updList, wlist_length, h6]
        rw [List.take_of_length_le (by omega)] at hst
        simp only at hst
      · exact hst.2.2.1 (by omega)
      · exact (hst.2.2.2.2.1 (by omega)).2

/-! ## C28 -/

/-- **C28.** Whatever the EEPROM held, in a table holding `ids` (not full, not containing `id` already), adding `id`
leaves its counter readable as zero with both copies good, so every non-zero counter up to 2^40 is then accepted. -/
theorem C28_fresh_counter (m : EE) (ids : List Bytes) (id : Bytes) (ht : Table m ids) (hlt : ids.length < 8)
    (hid : GoodID id) (hnew : id ∉ ids) :
    let m' := (addNodeAssociation id).post m
    BothGood m' id [0, 0, 0, 0, 0, 0] ∧ getLastRXMsgCtr m' id = some [0, 0, 0, 0, 0, 0] ∧
    ∀ c : Bytes, c.length = 6 → beVal c ≠ 0 → (authAndUpdateRXMsgCtr id c m').1 = true := by
  intro m'
  have hta := table_add ht id hid hlt
  have hpost := add_post ht id hlt
  have hfind : getNextMatchingNodeID m' 0 id = some ids.length := by
    rw [table_find hta id (by rw [hid.1]; omega) 0]
    simp only [List.drop_zero, Nat.add_zero, Option.map_id']
    rw [List.findIdx?_append]
    have hpre : ∀ x : Bytes, x.length = 8 → id.isPrefixOf x = true → x = id := by
      intro x hx hp
      rw [List.isPrefixOf_iff_prefix] at hp
      exact (hp.eq_of_length (by rw [hid.1, hx])).symm
    have h1 : ids.findIdx? (fun x => id.isPrefixOf x) = none := by
      rw [List.findIdx?_eq_none_iff]
      intro x hx
      rw [← Bool.not_eq_true]
      intro hp
      obtain ⟨i, hi⟩ := List.mem_iff_getElem?.1 hx
      have := hpre x (ht.row i x hi).2.1 hp
      rw [this] at hx
      exact hnew hx
    rw [h1]
    have hself : id.isPrefixOf id = true := by rw [List.isPrefixOf_iff_prefix]; exact List.prefix_rfl
    simp [List.findIdx?_cons, hself]
  have hff : ∀ x, assocRow ids.length + 8 ≤ x → x < assocRow ids.length + 32 → m' x = 0xff := by
    intro x h1 h2
    show (addNodeAssociation id).post m x = 0xff
    rw [hpost, if_pos (by omega), if_neg (by omega)]
  have hn : ~~~(0xff : Byte) = 0 := by decide
  have hholds : ∀ a, assocRow ids.length + 8 ≤ a → a + 7 ≤ assocRow ids.length + 32 →
      HoldsCtr m' a [0, 0, 0, 0, 0, 0] := by
    intro a h1 h2
    refine ⟨rfl, ?_, ?_⟩
    · intro i hi
      rw [hff _ (by omega) (by omega), hn]
      have hi' : i = 0 ∨ i = 1 ∨ i = 2 ∨ i = 3 ∨ i = 4 ∨ i = 5 := by omega
      rcases hi' with rfl | rfl | rfl | rfl | rfl | rfl <;> rfl
    · rw [hff _ (by omega) (by omega), hn]; decide +kernel
  have hgood : BothGood m' id [0, 0, 0, 0, 0, 0] :=
    ⟨ids.length, hfind, hholds _ (by omega) (by omega), hholds _ (by omega) (by omega)⟩
  have hlast : getLastRXMsgCtr m' id = some [0, 0, 0, 0, 0, 0] := by
    unfold getLastRXMsgCtr
    rw [hfind]
    simp only
    have hb : rxBase m' (assocRow ids.length) = some [0, 0, 0, 0, 0, 0] := by
      unfold rxBase; rw [table_some_iff.2 (hholds _ (by omega) (by omega))]
    rw [rowLast_eq hb]
    have hi : rxIncr m' (assocRow ids.length) = 0 := by
      unfold rxIncr; rw [hff _ (by omega) (by omega), hff _ (by omega) (by omega)]; decide
    rw [hi]; simp [msgcounteradd]
  refine ⟨hgood, hlast, ?_⟩
  intro c hc hne
  have h0 : beVal [0, 0, 0, 0, 0, 0] = 0 := by decide
  exact C23_accepts_greater m' id _ _ c hc hgood hlast (by rw [h0]; omega) (by rw [h0]; decide)

/-- Non-vacuity of C28: a table with one node, and a different one to add. -/
example : Table (exRx []) [exRxID] ∧ GoodID [0x81, 0, 0, 0, 0, 0, 0, 0] ∧ [0x81, 0, 0, 0, 0, 0, 0, 0] ∉ [exRxID] := by
  refine ⟨⟨by decide, ?_, ?_⟩, ⟨rfl, by decide⟩, by decide⟩
  · intro i id hi
    have : i = 0 := by
      rcases i with _ | i
      · rfl
      · simp at hi
    subst this
    simp at hi
    subst hi
    exact ⟨by decide +kernel, rfl, by decide⟩
  · intro i h1 h2
    have hi : i = 1 ∨ i = 2 ∨ i = 3 ∨ i = 4 ∨ i = 5 ∨ i = 6 ∨ i = 7 := by simp at h1; omega
    rcases hi with rfl | rfl | rfl | rfl | rfl | rfl | rfl <;> decide +kernel

end OTR.Props
