import Verif.Props.RxCounter
import Verif.Props.TxCounter
/-!
# C185–C186: message counters do not wear out the EEPROM

An EEPROM cell wears by being erased. Setting any bit of a cell takes an erase; clearing bits does not.
-/

namespace OTR.Props
open OTR

/-! ## Specification -/

/-- How many of these writes, made in this order to contents `m`, set a bit of cell `a`. -/
def erasesAt (a : Nat) : EE → List Wr → Nat
  | _, [] => 0
  | m, w :: t => (if w.1 = a ∧ w.2 &&& m a ≠ w.2 then 1 else 0) + erasesAt a (m.upd w.1 w.2) t

/-- EEPROM after these calls of `authAndUpdateRXMsgCtr()` (ID, counter), for any nodes, successful or not. -/
def rxCalls : EE → List (Bytes × Bytes) → EE
  | m, [] => m
  | m, x :: t => rxCalls ((authAndUpdateRXMsgCtr x.1 x.2).post m) t

/-- Erases of cell `a` in all these calls. -/
def rxErases (a : Nat) : EE → List (Bytes × Bytes) → Nat
  | _, [] => 0
  | m, x :: t => erasesAt a m (authAndUpdateRXMsgCtr x.1 x.2 m).2 + rxErases a ((authAndUpdateRXMsgCtr x.1 x.2).post m) t

/-- Node `id`'s record, in row `i`, is as the updates leave it: two good copies of a base count, and a unary count of `u` (up to 16). -/
def CleanRecord (m : EE) (id : Bytes) (i : Nat) (c : Bytes) (u : Byte) : Prop :=
  getNextMatchingNodeID m 0 id = some i ∧ HoldsCtr m (assocRow i + 8) c ∧ HoldsCtr m (assocRow i + 16) c ∧
  u.toNat ≤ 16 ∧ (m (assocRow i + 15), m (assocRow i + 23)) = unary2Encode u

/-- Erases of cell `a` in all these events of a transmitter. -/
def txErases (a : Nat) : TxDev → List TxEvent → Nat
  | _, [] => 0
  | d, .call r r' :: t => erasesAt a d.ee (getNextTXMsgCtr d.ram r r' d.ee).2 + txErases a (d.step (.call r r')).1 t
  | d, .restart :: t => txErases a (d.step .restart).1 t
  | d, .crash r r' k :: t => erasesAt a d.ee ((getNextTXMsgCtr d.ram r r' d.ee).2.take k) + txErases a (d.step (.crash r r' k)).1 t

/-- Counters asked for (completed or cut short). -/
def txAsked : List TxEvent → Nat := List.countP fun | .restart => false | _ => true
/-- Times the device started again. -/
def txBoots : List TxEvent → Nat := List.countP fun | .call _ _ => false | _ => true

/-! ## Proofs -/

theorem erasesAt_append (a : Nat) : ∀ (u v : List Wr) (m : EE), erasesAt a m (u ++ v) = erasesAt a m u + erasesAt a (applyW m u) v
  | [], v, m => by simp [erasesAt]
  | w :: t, v, m => by rw [List.cons_append, erasesAt, erasesAt, erasesAt_append a t v, applyW_cons]; omega

theorem erasesAt_zero {a : Nat} : ∀ {ws : List Wr} {m : EE}, (∀ w ∈ ws, w.1 ≠ a) → erasesAt a m ws = 0
  | [], _, _ => rfl
  | w :: t, m, h => by
    rw [erasesAt, if_neg (fun hh => h w (by simp) hh.1), erasesAt_zero (fun x hx => h x (by simp [hx]))]

/-- Writes that would change nothing are no erases. -/
theorem erasesAt_smart (a : Nat) : ∀ (ws : List Wr) (m : EE), erasesAt a m (smartSeq m ws) = erasesAt a m ws
  | [], _ => rfl
  | w :: t, m => by
    rw [smartSeq, erasesAt_append, applyW_wr1, erasesAt_smart a t, erasesAt]
    congr 1
    unfold wr1
    split
    · rename_i h
      rw [if_neg]
      · rfl
      · rintro ⟨h1, h2⟩
        subst h1
        rw [h] at h2
        exact h2 (UInt8.and_self)
    · simp [erasesAt]

theorem erasesAt_take (a : Nat) : ∀ (ws : List Wr) (m : EE) (k : Nat), erasesAt a m (ws.take k) ≤ erasesAt a m ws
  | [], _, _ => by simp
  | w :: t, m, 0 => by simp [erasesAt]
  | w :: t, m, k + 1 => by
    rw [List.take_succ_cons, erasesAt, erasesAt]
    have := erasesAt_take a t (m.upd w.1 w.2) k
    omega

theorem erasesAt_wlist (a b : Nat) : ∀ (bs : Bytes) (m : EE), erasesAt a m (wlist b bs) ≤ 1 ∧ (¬ (b ≤ a ∧ a < b + bs.length) → erasesAt a m (wlist b bs) = 0) := by
  intro bs m
  constructor
  · induction bs generalizing b m with
    | nil => simp [wlist, erasesAt]
    | cons x t ih =>
      rw [wlist, erasesAt]
      by_cases h : b = a
      · have : erasesAt a (m.upd (b, ~~~x).1 (b, ~~~x).2) (wlist (b + 1) t) = 0 := by
          apply erasesAt_zero
          intro w hw
          have := wlist_addr hw
          omega
        rw [this]; split <;> omega
      · rw [if_neg (fun hh => h hh.1)]
        have := ih (b + 1) (m.upd (b, ~~~x).1 (b, ~~~x).2)
        omega
  · intro h
    apply erasesAt_zero
    intro w hw
    have := wlist_addr hw
    omega

/-- Updating one copy erases each of its cells at most once. -/
theorem erasesAt_upd (x a : Nat) (c : Bytes) (hc : c.length = 6) (m : EE) : erasesAt x m (updList (m (a + 6)) a c) ≤ 1 := by
  have hmask : ∀ v : Byte, (v &&& 0x7f) &&& v = v &&& 0x7f := by apply forall_byte; decide +kernel
  rw [updList, erasesAt, if_neg, erasesAt_append]
  · by_cases h : x = a + 6
    · have := (erasesAt_wlist x a c (m.upd (a + 6) (m (a + 6) &&& 0x7f))).2 (by omega)
      dsimp only
      rw [this]
      simp only [erasesAt]
      split <;> omega
    · have h1 := (erasesAt_wlist x a c (m.upd (a + 6) (m (a + 6) &&& 0x7f))).1
      have h2 : erasesAt x (applyW (m.upd (a + 6) (m (a + 6) &&& 0x7f)) (wlist a c)) [(a + 6, ~~~(crcCtr c))] = 0 := by
        apply erasesAt_zero; intro w hw; simp at hw; subst hw; exact fun h' => h h'.symm
      dsimp only
      rw [h2]; omega
  · rintro ⟨h1, h2⟩
    dsimp only at h1 h2
    rw [← h1] at h2
    exact h2 (hmask _)

/-- A full update erases each cell at most once. -/
theorem erasesAt_full (x r : Nat) (c : Bytes) (hc : c.length = 6) (m : EE) :
    erasesAt x m (fullList (m (r + 14)) (m (r + 22)) r c) ≤ 1 := by
  unfold fullList
  rw [erasesAt_append, erasesAt_append]
  have hv : applyW m (updList (m (r + 14)) (r + 8) c) (r + 16 + 6) = m (r + 22) := by
    apply applyW_other
    intro w hw
    have := updList_addr hc hw
    omega
  have e1 := erasesAt_upd x (r + 8) c hc m
  have e2 := erasesAt_upd x (r + 16) c hc (applyW m (updList (m (r + 14)) (r + 8) c))
  rw [hv] at e2
  have z1 : ¬ (r + 8 ≤ x ∧ x < r + 15) → erasesAt x m (updList (m (r + 14)) (r + 8) c) = 0 := by
    intro h; apply erasesAt_zero; intro w hw; have := updList_addr hc hw; omega
  have z2 : ¬ (r + 16 ≤ x ∧ x < r + 23) → erasesAt x (applyW m (updList (m (r + 14)) (r + 8) c)) (updList (m (r + 22)) (r + 16) c) = 0 := by
    intro h; apply erasesAt_zero; intro w hw; have := updList_addr hc hw; omega
  have z3 : ∀ m', erasesAt x m' [(r + 23, 0xff), (r + 15, 0xff)] ≤ 1 ∧ (x ≠ r + 23 → x ≠ r + 15 → erasesAt x m' [(r + 23, 0xff), (r + 15, 0xff)] = 0) := by
    intro m'
    constructor
    · simp only [erasesAt]
      by_cases h : r + 23 = x
      · rw [if_neg (c := r + 15 = x ∧ _) (by omega)]; split <;> omega
      · rw [if_neg (c := r + 23 = x ∧ _) (fun hh => h hh.1)]; split <;> omega
    · intro h1 h2
      apply erasesAt_zero; intro w hw; simp at hw; rcases hw with rfl | rfl
      · exact fun h => h1 h.symm
      · exact fun h => h2 h.symm
  have e3 := z3 (applyW m (updList (m (r + 14)) (r + 8) c ++ updList (m (r + 22)) (r + 16) c))
  by_cases h1 : r + 8 ≤ x ∧ x < r + 15
  · rw [z2 (by omega), e3.2 (by omega) (by omega)]; exact e1
  · rw [z1 h1]
    by_cases h2 : r + 16 ≤ x ∧ x < r + 23
    · rw [e3.2 (by omega) (by omega)]; omega
    · rw [z2 h2]; omega

/-- Unary codes only lose bits as the count goes up. -/
theorem unary_clears : ∀ u v : Byte, u.toNat ≤ v.toNat → v.toNat ≤ 16 →
    (unary2Encode v).1 &&& (unary2Encode u).1 = (unary2Encode v).1 ∧ (unary2Encode v).2 &&& (unary2Encode u).2 = (unary2Encode v).2 := by
  have h : ∀ i j : Fin 17, i.val ≤ j.val →
      (unary2Encode (UInt8.ofNat j.val)).1 &&& (unary2Encode (UInt8.ofNat i.val)).1 = (unary2Encode (UInt8.ofNat j.val)).1 ∧
      (unary2Encode (UInt8.ofNat j.val)).2 &&& (unary2Encode (UInt8.ofNat i.val)).2 = (unary2Encode (UInt8.ofNat j.val)).2 := by
    decide +kernel
  intro u v huv hv
  have := h ⟨u.toNat, by omega⟩ ⟨v.toNat, by omega⟩ huv
  simpa using this

/-- What one completed call for the node itself does. -/
theorem own_call {m : EE} {id c new : Bytes} {i : Nat} {u : Byte} (h8 : id.length = 8) (h6 : new.length = 6) (hr : CleanRecord m id i c u)
    (hc : beVal c + 255 < 2 ^ 40) (hn : beVal new + 255 < 2 ^ 40) (a : Nat) :
    ∃ c' u', CleanRecord ((authAndUpdateRXMsgCtr id new).post m) id i c' u' ∧ beVal c' + 255 < 2 ^ 40 ∧
      17 * erasesAt a m (authAndUpdateRXMsgCtr id new m).2 + beVal c ≤ beVal c' ∧ beVal c + u.toNat ≤ beVal c' + u'.toNat := by
  obtain ⟨hi, h0, h1, hu, hcell⟩ := hr
  obtain ⟨hi8, hrow⟩ := getNext_full h8 hi
  have hb : rxBase m (assocRow i) = some c := by unfold rxBase; rw [table_some_iff.2 h0]
  have hinc : rxIncr m (assocRow i) = u := by
    have e1 : m (assocRow i + 15) = (unary2Encode u).1 := congrArg Prod.fst hcell
    have e2 : m (assocRow i + 23) = (unary2Encode u).2 := congrArg Prod.snd hcell
    unfold rxIncr
    rw [e1, e2]; exact unary_roundtrip u hu
  have hval : ∀ v : Byte, (msgcounteradd c v).1 = true ∧ beVal (msgcounteradd c v).2 = beVal c + v.toNat := by
    intro v
    have := byte_lt v
    have ht := (add_true_iff h0.1 v).2 (by omega)
    refine ⟨ht, ?_⟩
    rw [(msgcounteradd_val h0.1 v).2.2.2 ht, if_pos (by rw [Nat.mod_eq_of_lt (by omega)]; omega)]
  have hsame : ∃ c' u', CleanRecord m id i c' u' ∧ beVal c' + 255 < 2 ^ 40 ∧ 17 * erasesAt a m [] + beVal c ≤ beVal c' ∧ beVal c + u.toNat ≤ beVal c' + u'.toNat :=
    ⟨c, u, ⟨hi, h0, h1, hu, hcell⟩, hc, by simp [erasesAt], Nat.le_refl _⟩
  rw [EM.post]
  unfold authAndUpdateRXMsgCtr
  cases hl : getLastRXMsgCtr m id with
  | none => exact hsame
  | some cur =>
    simp only
    by_cases hgt : msgcountercmp new cur > 0
    case neg => rw [if_neg hgt]; exact hsame
    rw [if_pos hgt, hi]
    simp only
    have hfr := row_frame (m := m) (m' := applyW m (rowUpdate (assocRow i) new m).2) (i := i)
      (applyW_confined (fun w hw => rowUpdate_confined h6 hw))
    have hi' : getNextMatchingNodeID (applyW m (rowUpdate (assocRow i) new m).2) 0 id = some i := by rw [getNext_congr id hfr.1]; exact hi
    have e : rowUpdate (assocRow i) new m =
        if (msgcounteradd c UNARY_MAX).1 = false then (false, [])
        else if msgcountercmp (msgcounteradd c UNARY_MAX).2 new ≥ 0 then
          match findIncr c new (17 - (rxIncr m (assocRow i)).toNat) (rxIncr m (assocRow i)) with
          | none => (false, [])
          | some incr => writeIncr (assocRow i) incr m
        else fullUpdate (assocRow i) new m := by
      unfold rowUpdate; rw [hb]; rfl
    rw [if_neg (by rw [(hval _).1]; simp), hinc] at e
    by_cases hcmp : msgcountercmp (msgcounteradd c UNARY_MAX).2 new ≥ 0
    · rw [if_pos hcmp] at e
      cases hf : findIncr c new (17 - u.toNat) u with
      | none =>
        rw [hf] at e
        rw [e]; exact hsame
      | some v =>
        rw [hf] at e
        obtain ⟨huv, hv, hadd⟩ := findIncr_some h0.1 h6 _ _ _ (by omega) hf
        have hd := writeIncr_does (assocRow i) v m
        unfold Does at hd
        simp only [hd] at e
        have hm' : applyW m (rowUpdate (assocRow i) new m).2 = applyW m [(assocRow i + 23, (unary2Encode v).2), (assocRow i + 15, (unary2Encode v).1)] := by
          rw [e]; exact applyW_smartSeq _ _
        rw [hm'] at hi'
        rw [hm', e]
        refine ⟨c, v, ⟨hi', ?_, ?_, hv, ?_⟩, hc, ?_, Nat.add_le_add_left huv _⟩
        · rw [← table_some_iff, table_congr (m := m), table_some_iff]
          · exact h0
          · intro x g1 g2
            apply applyW_other; intro w hw
            simp at hw; rcases hw with rfl | rfl <;> simp <;> omega
        · rw [← table_some_iff, table_congr (m := m), table_some_iff]
          · exact h1
          · intro x g1 g2
            apply applyW_other; intro w hw
            simp at hw; rcases hw with rfl | rfl <;> simp <;> omega
        · simp [EE.upd]
        · rw [erasesAt_smart]
          obtain ⟨b1, b2⟩ := unary_clears u v huv hv
          have e1 : m (assocRow i + 15) = (unary2Encode u).1 := congrArg Prod.fst hcell
          have e2 : m (assocRow i + 23) = (unary2Encode u).2 := congrArg Prod.snd hcell
          have hz : erasesAt a m [(assocRow i + 23, (unary2Encode v).2), (assocRow i + 15, (unary2Encode v).1)] = 0 := by
            simp only [erasesAt]
            rw [if_neg, if_neg]
            · rintro ⟨g1, g2⟩
              rw [← g1, EE.upd_other _ _ (by omega), e1] at g2
              exact g2 b1
            · rintro ⟨g1, g2⟩
              rw [← g1, e2] at g2
              exact g2 b2
          rw [hz]; omega
    · rw [if_neg hcmp] at e
      have hlt : beVal c + 16 < beVal new := by
        have hx := (hval UNARY_MAX)
        have : msgcountercmp (msgcounteradd c UNARY_MAX).2 new < 0 := by omega
        have := ((cmp6 (msgcounteradd_val h0.1 UNARY_MAX).1 h6).1).1 this
        rw [hx.2] at this
        exact this
      have hd := fullUpdate_does (assocRow i) new h6 m
      unfold Does at hd
      rw [hd] at e
      have hm' : applyW m (rowUpdate (assocRow i) new m).2 = applyW m (fullList (m (assocRow i + 14)) (m (assocRow i + 22)) (assocRow i) new) := by
        rw [e]; exact applyW_smartSeq _ _
      rw [hm'] at hi'
      rw [hm', e]
      have hst := full_states m (assocRow i) new h6 18 (by omega)
      have hll : (fullList (m (assocRow i + 14)) (m (assocRow i + 22)) (assocRow i) new).length = 18 := by
        simp [fullList, updList, wlist_length, h6]
      rw [List.take_of_length_le (by omega)] at hst
      simp only at hst
      refine ⟨new, 0, ⟨hi', hst.2.2.1 (by omega), (hst.2.2.2.2.1 (by omega)).2, by decide, ?_⟩, hn, ?_, by show _ ≤ beVal new + 0; omega⟩
      · rw [hst.2.2.2.2.2 trivial, (hst.2.2.2.2.1 (by omega)).1]; decide
      · rw [erasesAt_smart]
        have := erasesAt_full a (assocRow i) new h6 m
        omega

/-- A call for another node does not touch the record. -/
theorem other_call {m : EE} {id id' c new : Bytes} {i : Nat} {u : Byte} (h8 : id.length = 8) (h8' : id'.length = 8) (h6 : new.length = 6)
    (hne : id' ≠ id) (hr : CleanRecord m id i c u) (a : Nat) (ha : assocRow i + 8 ≤ a) (ha' : a < assocRow i + 24) :
    CleanRecord ((authAndUpdateRXMsgCtr id' new).post m) id i c u ∧ erasesAt a m (authAndUpdateRXMsgCtr id' new m).2 = 0 := by
  have hws : ∃ q, q ≠ i ∧ ∀ w ∈ (authAndUpdateRXMsgCtr id' new m).2, assocRow q + 8 ≤ w.1 ∧ w.1 < assocRow q + 24 := by
    obtain ⟨hi, _⟩ := hr
    obtain ⟨hi8, hrow⟩ := getNext_full h8 hi
    unfold authAndUpdateRXMsgCtr
    have hz : ∃ q, q ≠ i ∧ ∀ w ∈ ([] : List Wr), assocRow q + 8 ≤ w.1 ∧ w.1 < assocRow q + 24 := ⟨i + 1, by omega, by simp⟩
    cases getLastRXMsgCtr m id' with
    | none => exact hz
    | some cur =>
      simp only
      split
      · cases hq : getNextMatchingNodeID m 0 id' with
        | none => exact hz
        | some q =>
          obtain ⟨hq8, hqrow⟩ := getNext_full h8' hq
          refine ⟨q, ?_, fun w hw => rowUpdate_confined h6 hw⟩
          rintro rfl
          exact hne (hqrow.symm.trans hrow)
      · exact hz
  obtain ⟨q, hq, hconf⟩ := hws
  have hfr := row_frame (m := m) (m' := (authAndUpdateRXMsgCtr id' new).post m) (i := q) (applyW_confined hconf)
  have hsame : ∀ x, assocRow i + 8 ≤ x → x < assocRow i + 24 → (authAndUpdateRXMsgCtr id' new).post m x = m x := by
    intro x g1 g2
    apply applyW_confined hconf
    rw [assocRow_eq] at *; omega
  obtain ⟨hi, h0, h1, hu, hcell⟩ := hr
  refine ⟨⟨by rw [getNext_congr id hfr.1]; exact hi, ?_, ?_, hu, ?_⟩, ?_⟩
  · rw [← table_some_iff, table_congr (m := m), table_some_iff]
    · exact h0
    · intro x g1 g2; exact hsame x (by omega) (by omega)
  · rw [← table_some_iff, table_congr (m := m), table_some_iff]
    · exact h1
    · intro x g1 g2; exact hsame x (by omega) (by omega)
  · rw [hsame _ (by omega) (by omega), hsame _ (by omega) (by omega)]; exact hcell
  · apply erasesAt_zero
    intro w hw he
    have := hconf w hw
    rw [he, assocRow_eq] at this
    rw [assocRow_eq] at ha ha'
    omega

theorem wear_inv {id : Bytes} {i : Nat} (h8 : id.length = 8) (a : Nat) (ha : assocRow i + 8 ≤ a) (ha' : a < assocRow i + 24) :
    ∀ (calls : List (Bytes × Bytes)) (m : EE) (c : Bytes) (u : Byte), CleanRecord m id i c u → beVal c + 255 < 2 ^ 40 →
      (∀ x ∈ calls, x.1.length = 8 ∧ x.2.length = 6 ∧ (x.1 = id → beVal x.2 + 255 < 2 ^ 40)) →
      ∃ c' u', CleanRecord (rxCalls m calls) id i c' u' ∧ beVal c' + 255 < 2 ^ 40 ∧ 17 * rxErases a m calls + beVal c ≤ beVal c' ∧
        beVal c + u.toNat ≤ beVal c' + u'.toNat
  | [], m, c, u, hr, hc, _ => ⟨c, u, hr, hc, by simp [rxErases], Nat.le_refl _⟩
  | x :: t, m, c, u, hr, hc, hx => by
    obtain ⟨x8, x6, xs⟩ := hx x (by simp)
    have ht : ∀ y ∈ t, y.1.length = 8 ∧ y.2.length = 6 ∧ (y.1 = id → beVal y.2 + 255 < 2 ^ 40) := fun y hy => hx y (by simp [hy])
    rw [rxCalls, rxErases]
    by_cases he : x.1 = id
    · obtain ⟨c1, u1, r1, k1, w1, v1⟩ := own_call h8 x6 hr hc (xs he) a
      rw [he]
      obtain ⟨c2, u2, r2, k2, w2, v2⟩ := wear_inv h8 a ha ha' t _ c1 u1 r1 k1 ht
      exact ⟨c2, u2, r2, k2, by omega, by omega⟩
    · obtain ⟨r1, w1⟩ := other_call h8 x8 x6 he hr a ha ha'
      obtain ⟨c2, u2, r2, k2, w2, v2⟩ := wear_inv h8 a ha ha' t _ c u r1 hc ht
      exact ⟨c2, u2, r2, k2, by omega, by omega⟩

theorem clean_last {m : EE} {id c : Bytes} {i : Nat} {u : Byte} (hr : CleanRecord m id i c u) (hc : beVal c + 255 < 2 ^ 40) :
    ∃ cur, getLastRXMsgCtr m id = some cur ∧ beVal cur = beVal c + u.toNat := by
  obtain ⟨hi, h0, h1, hu, hcell⟩ := hr
  have hb : rxBase m (assocRow i) = some c := by unfold rxBase; rw [table_some_iff.2 h0]
  have hinc : rxIncr m (assocRow i) = u := by
    have e1 : m (assocRow i + 15) = (unary2Encode u).1 := congrArg Prod.fst hcell
    have e2 : m (assocRow i + 23) = (unary2Encode u).2 := congrArg Prod.snd hcell
    unfold rxIncr
    rw [e1, e2]; exact unary_roundtrip u hu
  have hlt := byte_lt u
  have ht := (add_true_iff h0.1 u).2 (by omega)
  refine ⟨(msgcounteradd c u).2, ?_, ?_⟩
  · unfold getLastRXMsgCtr
    rw [hi]
    dsimp only
    rw [rowLast_eq hb, hinc, if_pos ht]
  · rw [(msgcounteradd_val h0.1 u).2.2.2 ht, if_pos (by rw [Nat.mod_eq_of_lt (by omega)]; omega)]

/-- **C185.** Over any history of counter updates for any nodes, no cell of a node's record is erased more than once for every 17 steps its
counter advances (plus one): so with messages numbered consecutively, about one erase in 17 messages. -/
theorem C185_rx_wear (m : EE) (id c0 : Bytes) (i : Nat) (u0 : Byte) (h8 : id.length = 8) (hr : CleanRecord m id i c0 u0) (hc : beVal c0 + 255 < 2 ^ 40)
    (calls : List (Bytes × Bytes)) (hcalls : ∀ x ∈ calls, x.1.length = 8 ∧ x.2.length = 6 ∧ (x.1 = id → beVal x.2 + 255 < 2 ^ 40))
    (a : Nat) (ha : assocRow i + 8 ≤ a) (ha' : a < assocRow i + 24) :
    ∃ cur cur', getLastRXMsgCtr m id = some cur ∧ getLastRXMsgCtr (rxCalls m calls) id = some cur' ∧ beVal cur ≤ beVal cur' ∧
      17 * rxErases a m calls ≤ beVal cur' - beVal cur + 16 := by
  obtain ⟨c1, u1, r1, k1, w1, v1⟩ := wear_inv h8 a ha ha' calls m c0 u0 hr hc hcalls
  obtain ⟨cur, g1, g2⟩ := clean_last hr hc
  obtain ⟨cur', g3, g4⟩ := clean_last r1 k1
  have := hr.2.2.2.1
  have := r1.2.2.2.1
  exact ⟨cur, cur', g1, g3, by omega, by omega⟩

/-- **C185 (elsewhere).** No call writes outside the counter part of the node's own record. -/
theorem C185_rx_confined (m : EE) (id new : Bytes) (h8 : id.length = 8) (h6 : new.length = 6) (w : Wr) (hw : w ∈ (authAndUpdateRXMsgCtr id new m).2) :
    ∃ i, getNextMatchingNodeID m 0 id = some i ∧ assocRow i + 8 ≤ w.1 ∧ w.1 < assocRow i + 24 := by
  unfold authAndUpdateRXMsgCtr at hw
  cases hl : getLastRXMsgCtr m id with
  | none => rw [hl] at hw; cases hw
  | some cur =>
    rw [hl] at hw
    simp only at hw
    split at hw
    · cases hq : getNextMatchingNodeID m 0 id with
      | none => rw [hq] at hw; cases hw
      | some q =>
        rw [hq] at hw
        exact ⟨q, rfl, rowUpdate_confined h6 hw⟩
    · cases hw

/-! ## Transmitter -/

/-- One call: it writes nothing unless it is the first after a start or the RAM count wraps; when it writes, each cell at most once. -/
theorem tx_call (d : TxDev) (he : d.ram.ephemeral.length = 3) (r r' : Bytes) (a : Nat) :
    let x := getNextTXMsgCtr d.ram r r' d.ee
    x.1.2.initialised = true ∧ x.1.2.ephemeral.length = 3 ∧ erasesAt a d.ee x.2 ≤ 1 ∧ (¬ (104 ≤ a ∧ a < 112) → erasesAt a d.ee x.2 = 0) ∧
    (d.ram.initialised = false → beVal x.1.2.ephemeral ≤ 2 ^ 20 ∨ x.1.2.ephemeral = d.ram.ephemeral) ∧
    (d.ram.initialised = true → (beVal x.1.2.ephemeral = beVal d.ram.ephemeral + 1 ∧ erasesAt a d.ee x.2 = 0) ∨
      (beVal d.ram.ephemeral = 2 ^ 24 - 1 ∧ beVal x.1.2.ephemeral = 0)) := by
  have hlast : ∀ inc e1 ram2 m, (lastPart inc e1 ram2 m).1.2 = ram2 ∧ erasesAt a m (lastPart inc e1 ram2 m).2 ≤ 1 ∧
      (¬ (104 ≤ a ∧ a < 112) → erasesAt a m (lastPart inc e1 ram2 m).2 = 0) ∧ (inc = false → (lastPart inc e1 ram2 m).2 = []) := by
    intro inc e1 ram2 m
    unfold lastPart
    cases inc with
    | false => simp [erasesAt]
    | true =>
      simp only [if_true]
      cases hp : getTXNVCtrPrefix m with
      | none => simp [erasesAt]
      | some p =>
        have h3 := (getPrefix_some hp).1
        have hl := image_length (inc3_spec h3).1
        have := erasesAt_wlist a 104 (image (inc3 p).1) m
        rw [hl] at this
        dsimp only
        rw [erasesAt_smart]
        exact ⟨rfl, this.1, fun h => this.2 (by omega), by simp⟩
  have ht3 := tmpE_spec r'
  have hw : (inc3 (tmpE r')).2 = false := by
    rw [← Bool.not_eq_true]
    intro hh; exact (tmpE_spec r').2 ((inc3_spec (tmpE_spec r').1).2.1.1 hh)
  have htv : beVal (inc3 (tmpE r')).1 ≤ 2 ^ 20 := by
    rw [(inc3_spec ht3.1).2.2.1 hw]
    have h15 : ∀ x : Byte, ((0xf : Byte) &&& (x ^^^ (x >>> 4))).toNat ≤ 15 := by apply forall_byte; decide +kernel
    have := h15 (r'[0]?.getD 0)
    unfold tmpE
    rw [beVal3]
    have b1 := byte_lt (r'[1]?.getD 0)
    have b2 := byte_lt (r'[2]?.getD 0)
    omega
  intro x
  have hx : x = _ := next_eq d.ram r r' d.ee
  clear_value x
  cases hi : d.ram.initialised with
  | true =>
    rw [if_neg (by rw [hi]; simp)] at hx
    obtain ⟨q1, q2, q3, q4⟩ := hlast (inc3 d.ram.ephemeral).2 (inc3 d.ram.ephemeral).1 ⟨true, (inc3 d.ram.ephemeral).1⟩ d.ee
    rw [← hx] at q1 q2 q3 q4
    have hs := inc3_spec he
    refine ⟨by rw [q1], by rw [q1]; exact hs.1, q2, q3, by simp, fun _ => ?_⟩
    cases hc : (inc3 d.ram.ephemeral).2 with
    | false => left; rw [q1, q4 hc]; exact ⟨hs.2.2.1 hc, rfl⟩
    | true => right; rw [q1, hs.2.2.2.1 hc]; exact ⟨hs.2.2.2.2 hc, by decide⟩
  | false =>
    rw [if_pos (by rw [hi])] at hx
    cases hp : getTXNVCtrPrefix d.ee with
    | none =>
      rw [hp] at hx
      dsimp only at hx
      rw [hx]
      exact ⟨rfl, he, by simp [erasesAt], fun _ => by simp [erasesAt], fun _ => .inr rfl, by simp⟩
    | some p =>
      rw [hp] at hx
      dsimp only at hx
      by_cases h0 : p = [0, 0, 0]
      · rw [if_pos h0] at hx
        obtain ⟨q1, q2, q3, q4⟩ := hlast false (inc3 (tmpE r')).1 ⟨true, (inc3 (tmpE r')).1⟩ (applyW d.ee (wlist 104 (image (noise r))))
        rw [q4 rfl, List.append_nil] at hx
        have := erasesAt_wlist a 104 (image (noise r)) d.ee
        rw [image_length (noise_spec r).1] at this
        rw [hx]
        dsimp only
        rw [q1, erasesAt_smart]
        exact ⟨rfl, (inc3_spec ht3.1).1, this.1, fun h => this.2 (by omega), fun _ => .inl htv, by simp⟩
      · rw [if_neg h0] at hx
        obtain ⟨q1, q2, q3, q4⟩ := hlast true (inc3 (tmpE r')).1 ⟨true, (inc3 (tmpE r')).1⟩ d.ee
        rw [← hx] at q1 q2 q3 q4
        exact ⟨by rw [q1], by rw [q1]; exact (inc3_spec ht3.1).1, q2, q3, fun _ => .inl (by rw [q1]; exact htv), by simp⟩

theorem boot_small : beVal TxRam.boot.ephemeral ≤ 2 ^ 20 := by decide

theorem tx_wear_inv (a K : Nat) (hK : K + 2 ^ 20 = 2 ^ 24) : ∀ (evs : List TxEvent) (d : TxDev) (W : Nat), d.ram.ephemeral.length = 3 →
    (d.ram.initialised = false → beVal d.ram.ephemeral ≤ 2 ^ 20) →
    ∀ B n, (d.ram.initialised = false → W * K + K ≤ B * K + n) →
    (d.ram.initialised = true → W * K + (max (beVal d.ram.ephemeral) (2 ^ 20) - 2 ^ 20) ≤ B * K + n) →
    (W + txErases a d evs) * K ≤ (B + txBoots evs) * K + n + txAsked evs
  | [], d, W, he, hz, B, n, hu, hin => by
    simp only [txErases, txBoots, txAsked, List.countP_nil, Nat.add_zero]
    cases hi : d.ram.initialised with
    | false => have := hu hi; omega
    | true => have := hin hi; omega
  | .call r r' :: t, d, W, he, hz, B, n, hu, hin => by
    obtain ⟨p1, p2, p3, _, p4, p5⟩ := tx_call d he r r' a
    have hd : (d.step (.call r r')).1.ram = (getNextTXMsgCtr d.ram r r' d.ee).1.2 := rfl
    have hmul : (W + erasesAt a d.ee (getNextTXMsgCtr d.ram r r' d.ee).2) * K ≤ W * K + K := by
      rw [Nat.add_mul]
      have := Nat.mul_le_mul_right K p3
      omega
    have ih := tx_wear_inv a K hK t (d.step (.call r r')).1 (W + erasesAt a d.ee (getNextTXMsgCtr d.ram r r' d.ee).2) (by rw [hd]; exact p2)
      (by rw [hd, p1]; simp) B (n + 1) (by rw [hd, p1]; simp) (by
        intro _
        rw [hd]
        generalize hE : beVal (getNextTXMsgCtr d.ram r r' d.ee).1.2.ephemeral = E at p4 p5
        cases hi : d.ram.initialised with
        | false =>
          have h1 := hu hi
          have h2 := hz hi
          have h3 : E ≤ 2 ^ 20 := by
            rcases p4 hi with h | h
            · exact h
            · rw [← hE, h]; exact h2
          omega
        | true =>
          have h1 := hin hi
          rcases p5 hi with ⟨g1, g2⟩ | ⟨g1, g2⟩
          · rw [g2, Nat.add_zero]; clear hmul p4 p5 hz hK; generalize (2 : Nat) ^ 20 = M at h1 ⊢; omega
          · rw [g1] at h1; omega)
    have e1 : txErases a d (.call r r' :: t) = erasesAt a d.ee (getNextTXMsgCtr d.ram r r' d.ee).2 + txErases a (d.step (.call r r')).1 t := rfl
    have e2 : txBoots (.call r r' :: t) = txBoots t := by simp [txBoots]
    have e3 : txAsked (.call r r' :: t) = txAsked t + 1 := by simp [txAsked]
    rw [e1, e2, e3, ← Nat.add_assoc]
    omega
  | .restart :: t, d, W, he, hz, B, n, hu, hin => by
    have hd : (d.step .restart).1.ram = .boot := rfl
    have h0 : W * K ≤ B * K + n := by
      cases hi : d.ram.initialised with
      | false => have := hu hi; omega
      | true => have := hin hi; omega
    have ih := tx_wear_inv a K hK t (d.step .restart).1 W (by rw [hd]; rfl) (by rw [hd]; intro _; exact boot_small) (B + 1) n (by intro _; rw [Nat.add_mul, Nat.one_mul]; omega) (by rw [hd]; simp [TxRam.boot])
    have e1 : txErases a d (.restart :: t) = txErases a (d.step .restart).1 t := rfl
    have e2 : txBoots (.restart :: t) = txBoots t + 1 := by simp [txBoots]
    have e3 : txAsked (.restart :: t) = txAsked t := by simp [txAsked]
    rw [e1, e2, e3, show B + (txBoots t + 1) = B + 1 + txBoots t by omega]
    exact ih
  | .crash r r' k :: t, d, W, he, hz, B, n, hu, hin => by
    obtain ⟨p1, p2, p3, _, p4, p5⟩ := tx_call d he r r' a
    have htk := erasesAt_take a (getNextTXMsgCtr d.ram r r' d.ee).2 d.ee k
    have hd : (d.step (.crash r r' k)).1.ram = .boot := rfl
    have h0 : (W + erasesAt a d.ee ((getNextTXMsgCtr d.ram r r' d.ee).2.take k)) * K ≤ B * K + (n + 1) := by
      have hmul : (W + erasesAt a d.ee ((getNextTXMsgCtr d.ram r r' d.ee).2.take k)) * K ≤ W * K + K := by
        rw [Nat.add_mul]
        have := Nat.mul_le_mul_right K (Nat.le_trans htk p3)
        omega
      cases hi : d.ram.initialised with
      | false => have := hu hi; omega
      | true =>
        have h1 := hin hi
        rcases p5 hi with ⟨g1, g2⟩ | ⟨g1, g2⟩
        · rw [show erasesAt a d.ee ((getNextTXMsgCtr d.ram r r' d.ee).2.take k) = 0 by omega, Nat.add_zero]; omega
        · rw [g1] at h1; omega
    have ih := tx_wear_inv a K hK t (d.step (.crash r r' k)).1 (W + erasesAt a d.ee ((getNextTXMsgCtr d.ram r r' d.ee).2.take k)) (by rw [hd]; rfl)
      (by rw [hd]; intro _; exact boot_small) (B + 1) (n + 1) (by intro _; rw [Nat.add_mul B, Nat.one_mul]; omega) (by rw [hd]; simp [TxRam.boot])
    have e1 : txErases a d (.crash r r' k :: t) = erasesAt a d.ee ((getNextTXMsgCtr d.ram r r' d.ee).2.take k) + txErases a (d.step (.crash r r' k)).1 t := rfl
    have e2 : txBoots (.crash r r' k :: t) = txBoots t + 1 := by simp [txBoots]
    have e3 : txAsked (.crash r r' k :: t) = txAsked t + 1 := by simp [txAsked]
    rw [e1, e2, e3, ← Nat.add_assoc, show B + (txBoots t + 1) = B + 1 + txBoots t by omega]
    omega

/-- **C186.** Whatever the EEPROM holds at the start and whatever happens (restarts and power failures at any point): no EEPROM cell is erased by
the transmitter's counter more than once per start plus once for every 15728640 (15 × 2^20) counters handed out. -/
theorem C186_tx_wear (ee : EE) (evs : List TxEvent) (a : Nat) :
    txErases a ⟨ee, .boot⟩ evs ≤ 1 + txBoots evs + txAsked evs / 15728640 := by
  have h := tx_wear_inv a 15728640 (by decide) evs ⟨ee, .boot⟩ 0 rfl (fun _ => boot_small) 1 0 (by intro _; rw [Nat.zero_mul]; simp) (by simp [TxRam.boot])
  have hpos : 0 < 15728640 := by decide
  generalize 15728640 = K at h hpos ⊢
  have : (txErases a ⟨ee, .boot⟩ evs - (1 + txBoots evs)) * K ≤ txAsked evs := by
    rw [Nat.sub_mul, Nat.zero_add, Nat.add_zero] at *
    omega
  have := (Nat.le_div_iff_mul_le hpos).2 this
  omega

/-- **C186 (elsewhere).** Outside its eight cells (104..111) the transmitter's counter erases nothing. -/
theorem C186_tx_confined (a : Nat) (ha : ¬ (104 ≤ a ∧ a < 112)) : ∀ (evs : List TxEvent) (d : TxDev), d.ram.ephemeral.length = 3 → txErases a d evs = 0
  | [], _, _ => rfl
  | .call r r' :: t, d, he => by
    obtain ⟨p1, p2, p3, p6, p4, p5⟩ := tx_call d he r r' a
    have := C186_tx_confined a ha t (d.step (.call r r')).1 p2
    rw [txErases, p6 ha, this]
  | .restart :: t, d, he => by
    rw [txErases]; exact C186_tx_confined a ha t _ rfl
  | .crash r r' k :: t, d, he => by
    obtain ⟨p1, p2, p3, p6, p4, p5⟩ := tx_call d he r r' a
    have htk := erasesAt_take a (getNextTXMsgCtr d.ram r r' d.ee).2 d.ee k
    rw [p6 ha] at htk
    rw [txErases, C186_tx_confined a ha t _ rfl]
    omega

/-- **C186 (quiet).** After the first call following a start, the next 15728639 calls cost no EEPROM write at all. -/
theorem C186_tx_quiet (ee : EE) (r0 r0' : Bytes)
    (calls : List (Bytes × Bytes)) (hn : calls.length ≤ 15728638) (r r' : Bytes) :
    let d := calls.foldl (fun d x => (d.step (.call x.1 x.2)).1) ((TxDev.mk ee .boot).step (.call r0 r0')).1
    (getNextTXMsgCtr d.ram r r' d.ee).2 = [] := by
  have hstep : ∀ (d : TxDev) (r r' : Bytes), d.ram.initialised = true → d.ram.ephemeral.length = 3 → beVal d.ram.ephemeral + 1 < 2 ^ 24 →
      (getNextTXMsgCtr d.ram r r' d.ee).2 = [] ∧ (d.step (.call r r')).1.ram = ⟨true, (inc3 d.ram.ephemeral).1⟩ ∧
      (inc3 d.ram.ephemeral).1.length = 3 ∧ beVal (inc3 d.ram.ephemeral).1 = beVal d.ram.ephemeral + 1 := by
    intro d r r' hi he hlt
    have hs := inc3_spec he
    have hf : (inc3 d.ram.ephemeral).2 = false := by
      rw [← Bool.not_eq_true]; intro hh; have := hs.2.2.2.2 hh; omega
    have hx := next_eq d.ram r r' d.ee
    rw [if_neg (by rw [hi]; simp), hf] at hx
    unfold lastPart at hx
    simp only [Bool.false_eq_true, if_false] at hx
    refine ⟨by rw [hx], ?_, hs.1, hs.2.2.1 hf⟩
    show (getNextTXMsgCtr d.ram r r' d.ee).1.2 = _
    rw [hx]
  have hmain : ∀ (calls : List (Bytes × Bytes)) (d : TxDev), d.ram.initialised = true → d.ram.ephemeral.length = 3 →
      beVal d.ram.ephemeral + calls.length + 1 < 2 ^ 24 →
      (getNextTXMsgCtr (calls.foldl (fun d x => (d.step (.call x.1 x.2)).1) d).ram r r' (calls.foldl (fun d x => (d.step (.call x.1 x.2)).1) d).ee).2 = [] := by
    intro calls
    induction calls with
    | nil => intro d hi he hlt; exact (hstep d r r' hi he (by simpa using hlt)).1
    | cons x t ih =>
      intro d hi he hlt
      simp only [List.length_cons] at hlt
      obtain ⟨_, g2, g3, g4⟩ := hstep d x.1 x.2 hi he (by omega)
      rw [List.foldl_cons]
      apply ih
      · rw [g2]
      · rw [g2]; exact g3
      · rw [g2]; dsimp only; omega
  obtain ⟨p1, p2, p3, p6, p4, p5⟩ := tx_call ⟨ee, .boot⟩ rfl r0 r0' 0
  have hv : beVal (getNextTXMsgCtr (TxDev.mk ee .boot).ram r0 r0' (TxDev.mk ee .boot).ee).1.2.ephemeral ≤ 2 ^ 20 := by
    rcases p4 rfl with h | h
    · exact h
    · rw [h]; exact boot_small
  exact hmain calls _ p1 p2 (by
    show beVal (getNextTXMsgCtr (TxDev.mk ee .boot).ram r0 r0' (TxDev.mk ee .boot).ee).1.2.ephemeral + calls.length + 1 < 2 ^ 24
    omega)

/-! ## Non-vacuity -/

/-- A new node's record is clean. -/
theorem exRx_clean : CleanRecord (exRx []) exRxID 0 [0, 0, 0, 0, 0, 0] 0 :=
  ⟨by decide +kernel, table_some_iff.1 (by decide +kernel), table_some_iff.1 (by decide +kernel), by decide, by decide +kernel⟩

/-- 40 messages numbered from 1, each delivered twice. -/
def exCalls : List (Bytes × Bytes) := (List.range 40).flatMap fun n => [(exRxID, [0, 0, 0, 0, 0, u8 (n + 1)]), (exRxID, [0, 0, 0, 0, 0, u8 (n + 1)])]

example : rxErases 791 (exRx []) exCalls = 2 ∧ rxErases 783 (exRx []) exCalls = 2 ∧ rxErases 781 (exRx []) exCalls = 1 ∧
    getLastRXMsgCtr (rxCalls (exRx []) exCalls) exRxID = some [0, 0, 0, 0, 0, 40] := by decide +kernel

/-- A device used, restarted, used, cut off and used. -/
example : txErases 111 ⟨exTx, .boot⟩ [.call [] [], .call [] [], .restart, .call [] [], .crash [] [] 9, .restart, .call [] []] = 3 ∧
    ((TxDev.mk exTx .boot).step (.call [] [])).2 = some [0, 2, 0, 0, 0, 1] := by decide +kernel

end OTR.Props
