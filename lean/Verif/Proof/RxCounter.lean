import Verif.Model.RxCounter
import Verif.Proof.TxCounter
import Verif.Proof.CRC
/-! # Receive counter lemmas -/

namespace OTR

theorem smartSeq_append (m : EE) (u v : List Wr) : smartSeq m (u ++ v) = smartSeq m u ++ smartSeq (applyW m u) v := by
  induction u generalizing m with
  | nil => rfl
  | cons w t ih => simp [smartSeq, ih, List.append_assoc]

theorem smartSeq_addr (m : EE) (ws : List Wr) (w : Wr) (h : w ∈ smartSeq m ws) : w ∈ ws := by
  induction ws generalizing m with
  | nil => simp [smartSeq] at h
  | cons x t ih =>
    rw [smartSeq, List.mem_append] at h
    rcases h with h | h
    · unfold wr1 at h
      split at h
      · simp at h
      · simp at h; simp [h]
    · exact List.mem_cons_of_mem _ (ih _ h)

/-- A routine that succeeds and performs the intended writes `l`. -/
def Does (x : EM Bool) (m : EE) (l : List Wr) : Prop := x m = (true, smartSeq m l)

theorem updBytes_does (bs : Bytes) : ∀ (a : Nat) (k : EM Bool) (m : EE) (l : List Wr),
    Does k (applyW m (wlist a bs)) l → Does (updBytes a bs k) m (wlist a bs ++ l) := by
  induction bs with
  | nil => intro a k m l h; exact h
  | cons b t ih =>
    intro a k m l h
    have hih := ih (a + 1) k (m.upd a (~~~b)) l h
    unfold Does at hih ⊢
    simp only [updBytes, emBind, emIf, eeRead, smartUpdate_eq, applyW_wr1, EE.upd_same, ne_eq, not_true_eq_false,
      if_false, hih, wlist, List.cons_append, smartSeq]

/-- Intended writes of one copy update, `v` the present CRC cell. -/
def updList (v : Byte) (a : Nat) (c : Bytes) : List Wr :=
  (a + 6, v &&& 0x7f) :: (wlist a c ++ [(a + 6, ~~~(crcCtr c))])

theorem updateRXMessageCount_does (a : Nat) (c : Bytes) (m : EE) :
    Does (updateRXMessageCount a c) m (updList (m (a + 6)) a c) := by
  have h := updBytes_does c a
    (emBind (smartUpdate true (a + 6) (~~~(crcCtr c))) fun _ =>
      eeRead (a + 6) fun v => emIf (~~~(crcCtr c) ≠ v) (emRet false) (emRet true))
    (m.upd (a + 6) (m (a + 6) &&& 0x7f)) [(a + 6, ~~~(crcCtr c))]
    (by
      unfold Does
      simp only [emBind, emIf, eeRead, smartUpdate_eq, applyW_wr1, EE.upd_same, ne_eq, not_true_eq_false,
        if_false, emRet, smartSeq])
  unfold Does at h ⊢
  simp only [updateRXMessageCount, emBind, smartClearBits_eq, applyW_wr1] at h ⊢
  rw [h]
  rfl

/-- Intended writes of a full update; `v1`, `v2` the present CRC cells. -/
def fullList (v1 v2 : Byte) (r : Nat) (c : Bytes) : List Wr :=
  updList v1 (r + 8) c ++ updList v2 (r + 16) c ++ [(r + 23, 0xff), (r + 15, 0xff)]

theorem wlist_addr {a : Nat} {bs : Bytes} {w : Wr} (h : w ∈ wlist a bs) : a ≤ w.1 ∧ w.1 < a + bs.length := by
  induction bs generalizing a with
  | nil => simp [wlist] at h
  | cons b t ih =>
    rw [wlist, List.mem_cons] at h
    simp only [List.length_cons]
    rcases h with rfl | h
    · simp
    · have := ih h; omega

theorem updList_addr {v : Byte} {a : Nat} {c : Bytes} (hc : c.length = 6) {w : Wr} (h : w ∈ updList v a c) :
    a ≤ w.1 ∧ w.1 < a + 7 := by
  unfold updList at h
  rw [List.mem_cons, List.mem_append] at h
  rcases h with rfl | h | h
  · simp
  · have := wlist_addr h; omega
  · simp at h; subst h; simp

theorem fullList_addr {v1 v2 : Byte} {r : Nat} {c : Bytes} (hc : c.length = 6) {w : Wr} (h : w ∈ fullList v1 v2 r c) :
    r + 8 ≤ w.1 ∧ w.1 < r + 24 := by
  unfold fullList at h
  rw [List.mem_append, List.mem_append] at h
  rcases h with (h | h) | h
  · have := updList_addr hc h; omega
  · have := updList_addr hc h; omega
  · simp at h; rcases h with rfl | rfl <;> simp

theorem fullUpdate_does (r : Nat) (c : Bytes) (hc : c.length = 6) (m : EE) :
    Does (fullUpdate r c) m (fullList (m (r + 14)) (m (r + 22)) r c) := by
  have h1 := updateRXMessageCount_does (r + 8) c m
  have h2 := updateRXMessageCount_does (r + 16) c (applyW m (updList (m (r + 14)) (r + 8) c))
  have hv : applyW m (updList (m (r + 14)) (r + 8) c) (r + 16 + 6) = m (r + 22) := by
    apply applyW_other
    intro w hw
    have := updList_addr hc hw
    omega
  rw [hv] at h2
  unfold Does at h1 h2 ⊢
  have e14 : r + 8 + 6 = r + 14 := by omega
  rw [e14] at h1
  simp only [fullUpdate, emBind, emIf, h1, applyW_smartSeq, h2, Bool.true_eq_false, if_false, smartErase_eq, applyW_wr1,
    emRet, List.append_nil, fullList]
  rw [smartSeq_append, smartSeq_append, applyW_append]
  simp only [smartSeq, List.append_nil, List.append_assoc]

theorem writeIncr_does (r : Nat) (u : Byte) (m : EE) :
    Does (writeIncr r u) m [(r + 23, (unary2Encode u).2), (r + 15, (unary2Encode u).1)] := by
  unfold Does
  simp only [writeIncr, emBind, smartUpdate_eq, applyW_wr1, emRet, smartSeq, List.append_nil]

/-- One stored copy of counter `c` at `a`. -/
def HoldsCtr (m : EE) (a : Nat) (c : Bytes) : Prop :=
  c.length = 6 ∧ (∀ i, i < 6 → some (~~~ m (a + i)) = c[i]?) ∧ ~~~ m (a + 6) = crcCtr c

theorem table_some_iff {m : EE} {a : Nat} {c : Bytes} :
    getLastRXMsgCtrFromTable m a = some c ↔ HoldsCtr m a c := by
  have hnx : ∀ b : Byte, b ^^^ 0xff = ~~~b := by apply forall_byte; decide +kernel
  have hlist : ∀ i, i < 6 → ((eeBlock m a 6).map (· ^^^ 0xff))[i]? = some (~~~ m (a + i)) := by
    intro i hi
    rw [List.getElem?_map, eeBlock_get _ _ _ _ hi]
    simp [hnx]
  unfold getLastRXMsgCtrFromTable
  constructor
  · intro h
    simp only at h
    split at h
    · simp at h
    · rename_i hc
      simp only [Option.some.injEq] at h
      rw [h] at hlist hc
      refine ⟨by rw [← h]; simp [eeBlock_length], fun i hi => (hlist i hi).symm, (Decidable.not_not.mp hc).symm⟩
  · rintro ⟨h6, hb, hc⟩
    have : (eeBlock m a 6).map (· ^^^ 0xff) = c := by
      apply List.ext_getElem?
      intro i
      by_cases hi : i < 6
      · rw [hlist i hi, hb i hi]
      · rw [List.getElem?_eq_none (by simp [eeBlock_length]; omega), List.getElem?_eq_none (by omega)]
    simp only [this]
    rw [if_neg (by simp [hc])]

theorem crcCtr_lt (c : Bytes) : (crcCtr c).toNat < 128 := crc7_lt 0 (by decide) c

theorem table_none_of_msb {m : EE} {a : Nat} (h : m (a + 6) &&& 0x80 = 0) : getLastRXMsgCtrFromTable m a = none := by
  cases hx : getLastRXMsgCtrFromTable m a with
  | none => rfl
  | some c =>
    exfalso
    rw [table_some_iff] at hx
    have h1 := crcCtr_lt c
    rw [← hx.2.2] at h1
    have : ∀ b : Byte, b &&& 0x80 = 0 → ¬ (~~~b).toNat < 128 := by apply forall_byte; decide +kernel
    exact this _ h h1

theorem table_len {m : EE} {a : Nat} {c : Bytes} (h : getLastRXMsgCtrFromTable m a = some c) : c.length = 6 :=
  (table_some_iff.1 h).1

theorem table_congr {m m' : EE} {a : Nat} (h : ∀ x, a ≤ x → x < a + 7 → m' x = m x) :
    getLastRXMsgCtrFromTable m' a = getLastRXMsgCtrFromTable m a := by
  unfold getLastRXMsgCtrFromTable
  rw [eeBlock_congr (m := m') (m' := m) (fun i hi => h _ (by omega) (by omega)), h (a + 6) (by omega) (by omega)]

theorem rxBase_len {m : EE} {r : Nat} {c : Bytes} (h : rxBase m r = some c) : c.length = 6 := by
  unfold rxBase at h
  split at h
  · rename_i hx; simp only [Option.some.injEq] at h; subst h; exact table_len hx
  · exact table_len h

theorem rowLast_congr {m m' : EE} {r : Nat} (h : ∀ x, r + 8 ≤ x → x < r + 24 → m' x = m x) :
    rowLast m' r = rowLast m r := by
  unfold rowLast rxBase rxIncr
  rw [table_congr (m := m) (m' := m') (a := r + 8) (fun x h1 h2 => h x (by omega) (by omega)),
    table_congr (m := m) (m' := m') (a := r + 16) (fun x h1 h2 => h x (by omega) (by omega)),
    h (r + 15) (by omega) (by omega), h (r + 23) (by omega) (by omega)]

theorem rowLast_len {m : EE} {r : Nat} {c : Bytes} (h : rowLast m r = some c) : c.length = 6 := by
  unfold rowLast at h
  split at h
  · simp at h
  · rename_i b hb
    split at h
    · simp only [Option.some.injEq] at h
      rw [← h]; exact (msgcounteradd_val (rxBase_len hb) _).1
    · simp at h

theorem rowLast_eq {m : EE} {r : Nat} {c : Bytes} (hb : rxBase m r = some c) :
    rowLast m r = if (msgcounteradd c (rxIncr m r)).1 then some (msgcounteradd c (rxIncr m r)).2 else none := by
  unfold rowLast; rw [hb]

/-- State of the row after `j` of the intended writes of a full update. -/
theorem full_states (m : EE) (r : Nat) (c : Bytes) (hc : c.length = 6) (j : Nat) (hj : j ≤ 18) :
    let m' := applyW m ((fullList (m (r + 14)) (m (r + 22)) r c).take j)
    (j = 0 → m' = m) ∧
    (1 ≤ j ∧ j ≤ 7 → m' (r + 14) &&& 0x80 = 0 ∧ ∀ x, r + 15 ≤ x → m' x = m x) ∧
    (8 ≤ j → HoldsCtr m' (r + 8) c) ∧
    (8 ≤ j ∧ j ≤ 16 → m' (r + 15) = m (r + 15) ∧ m' (r + 23) = m (r + 23)) ∧
    (17 ≤ j → m' (r + 23) = 0xff ∧ HoldsCtr m' (r + 16) c) ∧
    (j = 18 → m' (r + 15) = 0xff) := by
  obtain ⟨a, b, d, e, f, g, rfl⟩ := len6 hc
  have hmask : ∀ v : Byte, (v &&& 0x7f) &&& 0x80 = 0 := by apply forall_byte; decide +kernel
  have hnn : ∀ v : Byte, ~~~(~~~v) = v := by apply forall_byte; decide +kernel
  intro m'
  have hm' : m' = applyW m ((fullList (m (r + 14)) (m (r + 22)) r [a, b, d, e, f, g]).take j) := rfl
  clear_value m'
  simp only [fullList, updList, wlist] at hm'
  generalize hcr : crcCtr [a, b, d, e, f, g] = cr at *
  have holds : ∀ q, q = r + 8 ∨ q = r + 16 → m' q = ~~~a → m' (q + 1) = ~~~b → m' (q + 2) = ~~~d → m' (q + 3) = ~~~e →
      m' (q + 4) = ~~~f → m' (q + 5) = ~~~g → m' (q + 6) = ~~~cr → HoldsCtr m' q [a, b, d, e, f, g] := by
    intro q _ h0 h1 h2 h3 h4 h5 h6
    refine ⟨rfl, ?_, by rw [h6, hnn, hcr]⟩
    intro i hi
    have hi' : i = 0 ∨ i = 1 ∨ i = 2 ∨ i = 3 ∨ i = 4 ∨ i = 5 := by omega
    rcases hi' with rfl | rfl | rfl | rfl | rfl | rfl
    · rw [Nat.add_zero, h0, hnn]; rfl
    · rw [h1, hnn]; rfl
    · rw [h2, hnn]; rfl
    · rw [h3, hnn]; rfl
    · rw [h4, hnn]; rfl
    · rw [h5, hnn]; rfl
  have hcases : j = 0 ∨ j = 1 ∨ j = 2 ∨ j = 3 ∨ j = 4 ∨ j = 5 ∨ j = 6 ∨ j = 7 ∨ j = 8 ∨ j = 9 ∨ j = 10 ∨ j = 11 ∨
    j = 12 ∨ j = 13 ∨ j = 14 ∨ j = 15 ∨ j = 16 ∨ j = 17 ∨ j = 18 := by omega
  refine ⟨?_, ?_, ?_, ?_, ?_, ?_⟩
  · intro h; subst h; rw [hm']; rfl
  · rintro ⟨h1, h2⟩
    rcases hcases with rfl | rfl | rfl | rfl | rfl | rfl | rfl | rfl | h | h | h | h | h | h | h | h | h | h | h <;>
      first
      | omega
      | (simp only [List.cons_append, List.nil_append, List.take_succ_cons, List.take_zero, applyW_cons, applyW_nil] at hm'
         rw [hm']
         refine ⟨?_, ?_⟩
         · simp [EE.upd, hmask]
         · intro x hx
           simp (disch := omega) only [EE.upd, if_neg])
  · intro h8
    rcases hcases with h | h | h | h | h | h | h | h | rfl | rfl | rfl | rfl | rfl | rfl | rfl | rfl | rfl | rfl | rfl <;>
      first
      | omega
      | (simp only [List.cons_append, List.nil_append, List.take_succ_cons, List.take_zero, applyW_cons, applyW_nil] at hm'
         apply holds _ (Or.inl rfl) <;> rw [hm'] <;> simp [EE.upd])
  · rintro ⟨h1, h2⟩
    rcases hcases with h | h | h | h | h | h | h | h | rfl | rfl | rfl | rfl | rfl | rfl | rfl | rfl | rfl | h | h <;>
      first
      | omega
      | (simp only [List.cons_append, List.nil_append, List.take_succ_cons, List.take_zero, applyW_cons, applyW_nil] at hm'
         rw [hm']
         exact ⟨by simp [EE.upd], by simp [EE.upd]⟩)
  · intro h17
    rcases hcases with h | h | h | h | h | h | h | h | h | h | h | h | h | h | h | h | h | rfl | rfl <;>
      first
      | omega
      | (simp only [List.cons_append, List.nil_append, List.take_succ_cons, List.take_zero, applyW_cons, applyW_nil] at hm'
         refine ⟨by rw [hm']; simp [EE.upd], ?_⟩
         apply holds _ (Or.inr rfl) <;> rw [hm'] <;> simp [EE.upd])
  · intro h18
    subst h18
    simp only [List.cons_append, List.nil_append, List.take_succ_cons, List.take_zero, applyW_cons, applyW_nil] at hm'
    rw [hm']; simp [EE.upd]

theorem cmp6 {s t : Bytes} (hs : s.length = 6) (ht : t.length = 6) :
    (msgcountercmp s t < 0 ↔ beVal s < beVal t) ∧ (msgcountercmp s t = 0 ↔ s = t) ∧
    (0 < msgcountercmp s t ↔ beVal t < beVal s) := by
  unfold msgcountercmp
  have e1 : s.take fullMsgCtrBytes = s := List.take_of_length_le (by simp [hs])
  have e2 : t.take fullMsgCtrBytes = t := List.take_of_length_le (by simp [ht])
  rw [e1, e2]
  have := memcmp_spec s t (by omega)
  exact ⟨this.1, memcmp_eq_zero (by omega), this.2.2⟩

theorem findIncr_some {base new : Bytes} (hb : base.length = 6) (hn : new.length = 6) :
    ∀ (n : Nat) (i u : Byte), i.toNat + n ≤ 17 → findIncr base new n i = some u →
      i.toNat ≤ u.toNat ∧ u.toNat ≤ 16 ∧ (msgcounteradd base u) = (true, new) := by
  intro n
  induction n with
  | zero => intro i u _ h; simp [findIncr] at h
  | succ n ih =>
    intro i u hi h
    rw [findIncr] at h
    have hadd := msgcounteradd_val hb i
    split at h
    · simp at h
    · rename_i h1
      split at h
      · rename_i h2
        simp only [Option.some.injEq] at h
        subst h
        rw [(cmp6 hadd.1 hn).2.1] at h2
        refine ⟨by omega, by omega, ?_⟩
        rw [← h2]
        ext1 <;> simp_all
      · have hs : (i + 1).toNat = i.toNat + 1 := by
          apply succ_toNat
          rintro rfl
          have : (0xff : Byte).toNat = 255 := by decide
          omega
        have := ih (i + 1) u (by omega) h
        exact ⟨by omega, this.2⟩

/-- What the row update does, once a good copy has been found. -/
theorem rowUpdate_cases {m : EE} {r : Nat} {new base : Bytes} (hn : new.length = 6) (hb : rxBase m r = some base) :
    rowUpdate r new m = (false, []) ∨
    (∃ u : Byte, (rxIncr m r).toNat ≤ u.toNat ∧ u.toNat ≤ 16 ∧ msgcounteradd base u = (true, new) ∧
      Does (rowUpdate r new) m [(r + 23, (unary2Encode u).2), (r + 15, (unary2Encode u).1)]) ∨
    Does (rowUpdate r new) m (fullList (m (r + 14)) (m (r + 22)) r new) := by
  have hb6 := rxBase_len hb
  have e : rowUpdate r new m =
      if (msgcounteradd base UNARY_MAX).1 = false then (false, [])
      else if msgcountercmp (msgcounteradd base UNARY_MAX).2 new ≥ 0 then
        match findIncr base new (17 - (rxIncr m r).toNat) (rxIncr m r) with
        | none => (false, [])
        | some incr => writeIncr r incr m
      else fullUpdate r new m := by
    unfold rowUpdate; rw [hb]; rfl
  split at e
  · exact Or.inl e
  · split at e
    · cases hf : findIncr base new (17 - (rxIncr m r).toNat) (rxIncr m r) with
      | none => rw [hf] at e; exact Or.inl e
      | some u =>
        rw [hf] at e
        right; left
        by_cases h16 : (rxIncr m r).toNat ≤ 17
        · have := findIncr_some hb6 hn _ _ _ (by omega) hf
          exact ⟨u, this.1, this.2.1, this.2.2, by unfold Does; rw [e]; exact writeIncr_does r u m⟩
        · have h0 : 17 - (rxIncr m r).toNat = 0 := by omega
          rw [h0] at hf; simp [findIncr] at hf
    · right; right
      unfold Does; rw [e]; exact fullUpdate_does r new hn m

theorem rowUpdate_none {m : EE} {r : Nat} {new : Bytes} (hb : rxBase m r = none) : rowUpdate r new m = (false, []) := by
  unfold rowUpdate; rw [hb]

/-- Encoded increments decode to themselves. -/
theorem unary_roundtrip : ∀ u : Byte, u.toNat ≤ 16 →
    i8u8 (unary2Decode (unary2Encode u).1 (unary2Encode u).2) = u := by
  apply forall_byte; decide +kernel

theorem unary_low : ∀ u : Byte, 8 ≤ u.toNat → (unary2Encode u).2 = 0 := by apply forall_byte; decide +kernel
theorem unary_ff0 : ∀ u : Byte, u.toNat ≤ 8 → i8u8 (unary2Decode 0xff (unary2Encode u).2) = u := by
  apply forall_byte; decide +kernel
theorem unary_ffle : ∀ v : Byte, i8u8 (unary2Decode 0xff v) = 0xff ∨ (i8u8 (unary2Decode 0xff v)).toNat ≤ 8 := by
  apply forall_byte; decide +kernel
theorem unary_vmge : ∀ v : Byte, 7 ≤ (i8u8 (unary1Decode v + 8)).toNat := by apply forall_byte; decide +kernel

/-- Between the two byte writes of a unary increase the decoded increment lies between the old and the new. -/
theorem unary_mid (vm vl u : Byte) (hlt : (i8u8 (unary2Decode vm vl)).toNat < u.toNat) (hu : u.toNat ≤ 16) :
    (i8u8 (unary2Decode vm vl)).toNat ≤ (i8u8 (unary2Decode vm (unary2Encode u).2)).toNat ∧
    (i8u8 (unary2Decode vm (unary2Encode u).2)).toNat ≤ u.toNat := by
  by_cases hvm : vm = 0xff
  · subst hvm
    by_cases h8 : u.toNat ≤ 8
    · rw [unary_ff0 u h8]; omega
    · rw [unary_low u (by omega)]
      have : i8u8 (unary2Decode 0xff 0) = 8 := by decide
      rw [this]
      have e8 : (8 : Byte).toNat = 8 := by decide
      rcases unary_ffle vl with h | h
      · rw [h] at hlt
        have : (0xff : Byte).toNat = 255 := by decide
        omega
      · omega
  · by_cases hvl : vl = 0
    · subst hvl
      have e : unary2Decode vm 0 = unary1Decode vm + 8 := by unfold unary2Decode; rw [if_neg hvm, if_pos rfl]
      have h7 := unary_vmge vm
      rw [e] at hlt ⊢
      rw [unary_low u (by omega), e]
      omega
    · exfalso
      have e : unary2Decode vm vl = -1 := by unfold unary2Decode; rw [if_neg hvm, if_neg hvl]
      rw [e] at hlt
      have : (i8u8 (-1)).toNat = 255 := by decide
      omega

theorem add_true_iff {c : Bytes} (hc : c.length = 6) (u : Byte) :
    (msgcounteradd c u).1 = true ↔ beVal c + u.toNat < 2 ^ 48 := by
  have := (msgcounteradd_val hc u).2.1
  rw [← Bool.not_eq_false, this]
  omega

/-- Adding an in-between increment gives an in-between counter (the carry bug does not break this). -/
theorem add_mid {c : Bytes} (hc : c.length = 6) {u0 u u1 : Byte} (h0 : u0.toNat ≤ u.toNat) (h1 : u.toNat ≤ u1.toNat)
    (hs : (msgcounteradd c u1).1 = true)
    (hgt : beVal (msgcounteradd c u0).2 < beVal (msgcounteradd c u1).2) :
    (msgcounteradd c u).1 = true ∧ beVal (msgcounteradd c u0).2 ≤ beVal (msgcounteradd c u).2 ∧
    beVal (msgcounteradd c u).2 ≤ beVal (msgcounteradd c u1).2 := by
  rw [add_true_iff hc] at hs ⊢
  have s0 := (msgcounteradd_val hc u0).2.2.2 ((add_true_iff hc u0).2 (by omega))
  have s1 := (msgcounteradd_val hc u1).2.2.2 ((add_true_iff hc u1).2 (by omega))
  have s := (msgcounteradd_val hc u).2.2.2 ((add_true_iff hc u).2 (by omega))
  have hlt := beVal_lt c
  rw [hc] at hlt
  have b1 := byte_lt u1
  rw [s0, s1] at hgt
  rw [s0, s1, s]
  generalize beVal c = N at *
  refine ⟨by omega, ?_, ?_⟩
  · split <;> split <;> (try split at hgt) <;> (try split at hgt) <;> omega
  · split <;> split <;> (try split at hgt) <;> (try split at hgt) <;> omega

/-- Lookups depend only on the ID bytes of the rows. -/
theorem findFrom_congr {m m' : EE} (pre : Bytes) : ∀ (k i : Nat), i + k ≤ 8 →
    (∀ q, q < 8 → rowID m' q = rowID m q) → findFrom m' pre k i = findFrom m pre k i := by
  intro k
  induction k with
  | zero => intro i _ _; rfl
  | succ k ih =>
    intro i hi h
    rw [findFrom, findFrom, h i (by omega), ih (i + 1) (by omega) h]

theorem getNext_congr {m m' : EE} (pre : Bytes) (h : ∀ q, q < 8 → rowID m' q = rowID m q) :
    getNextMatchingNodeID m' 0 pre = getNextMatchingNodeID m 0 pre := by
  unfold getNextMatchingNodeID
  rw [findFrom_congr pre 8 0 (by omega) h]

theorem findFrom_some {m : EE} {pre : Bytes} : ∀ (k i j : Nat), findFrom m pre k i = some j →
    i ≤ j ∧ j < i + k ∧ (rowID m j)[0]?.getD 0 ≠ 0xff ∧
      (pre.length = 0 ∨ memcmp ((rowID m j).take pre.length) pre = 0) := by
  intro k
  induction k with
  | zero => intro i j h; simp [findFrom] at h
  | succ k ih =>
    intro i j h
    rw [findFrom] at h
    split at h
    · simp at h
    · rename_i h1
      split at h
      · rename_i h2
        simp only [Option.some.injEq] at h
        subst h
        exact ⟨by omega, by omega, h1, h2⟩
      · have := ih (i + 1) j h
        exact ⟨by omega, by omega, this.2.2⟩

/-- A full-length match is the row with that ID. -/
theorem getNext_full {m : EE} {id : Bytes} (h8 : id.length = 8) {i : Nat} (h : getNextMatchingNodeID m 0 id = some i) :
    i < 8 ∧ rowID m i = id := by
  unfold getNextMatchingNodeID at h
  rw [if_neg (by omega), if_neg (by omega)] at h
  obtain ⟨_, h2, _, h4⟩ := findFrom_some _ _ _ h
  refine ⟨by omega, ?_⟩
  rcases h4 with h4 | h4
  · omega
  · rw [h8, List.take_of_length_le (Nat.le_of_eq (rowID_length m i))] at h4
    exact (memcmp_eq_zero (by rw [rowID_length, h8])).1 h4

/-- Writes confined to the counter area of row `i` change no ID and no other row's counter. -/
theorem row_frame {m m' : EE} {i : Nat}
    (h : ∀ x, ¬ (assocRow i + 8 ≤ x ∧ x < assocRow i + 24) → m' x = m x) :
    (∀ q, q < 8 → rowID m' q = rowID m q) ∧ (∀ q, q ≠ i → rowLast m' (assocRow q) = rowLast m (assocRow q)) := by
  constructor
  · intro q hq
    apply eeBlock_congr
    intro x hx
    apply h
    rw [assocRow_eq, assocRow_eq]; omega
  · intro q hq
    apply rowLast_congr
    intro x h1 h2
    apply h
    rw [assocRow_eq] at *; omega

/-- The intended writes of a row update, if any. -/
theorem rowUpdate_confined {m : EE} {r : Nat} {new : Bytes} (hn : new.length = 6) {w : Wr}
    (h : w ∈ (rowUpdate r new m).2) : r + 8 ≤ w.1 ∧ w.1 < r + 24 := by
  cases hb : rxBase m r with
  | none => rw [rowUpdate_none hb] at h; simp at h
  | some base =>
    rcases rowUpdate_cases hn hb with h0 | ⟨u, _, _, _, h1⟩ | h1
    · rw [h0] at h; simp at h
    · unfold Does at h1; rw [h1] at h
      have := smartSeq_addr _ _ _ h
      simp at this
      rcases this with rfl | rfl <;> simp
    · unfold Does at h1; rw [h1] at h
      exact fullList_addr hn (smartSeq_addr _ _ _ h)

theorem applyW_confined {m : EE} {ws : List Wr} {lo hi : Nat} (h : ∀ w ∈ ws, lo ≤ w.1 ∧ w.1 < hi) :
    ∀ x, ¬ (lo ≤ x ∧ x < hi) → applyW m ws x = m x := by
  intro x hx
  apply applyW_other
  intro w hw he
  subst he
  exact hx (h w hw)

/-- Row-level exactness. -/
theorem rowUpdate_exact {m : EE} {r : Nat} {new : Bytes} (hn : new.length = 6) :
    ((rowUpdate r new m).1 = false → (rowUpdate r new m).2 = []) ∧
    ((rowUpdate r new m).1 = true → rowLast ((rowUpdate r new).post m) r = some new) := by
  cases hb : rxBase m r with
  | none => rw [rowUpdate_none hb]; simp
  | some base =>
    rcases rowUpdate_cases hn hb with h0 | ⟨u, _, hu, hadd, h1⟩ | h1
    · rw [h0]; simp
    · unfold Does at h1
      refine ⟨by rw [h1]; simp, fun _ => ?_⟩
      rw [EM.post, h1]
      simp only
      rw [applyW_smartSeq]
      simp only [applyW_cons, applyW_nil]
      generalize hm2 : (m.upd (r + 23) (unary2Encode u).2).upd (r + 15) (unary2Encode u).1 = m2
      have hb2 : rxBase m2 r = some base := by
        unfold rxBase at hb ⊢
        rw [table_congr (m := m) (a := r + 8), table_congr (m := m) (a := r + 16)]
        · exact hb
        · intro x g1 g2; rw [← hm2, EE.upd_other _ _ (by omega), EE.upd_other _ _ (by omega)]
        · intro x g1 g2; rw [← hm2, EE.upd_other _ _ (by omega), EE.upd_other _ _ (by omega)]
      have hi2 : rxIncr m2 r = u := by
        unfold rxIncr
        have e1 : m2 (r + 15) = (unary2Encode u).1 := by rw [← hm2]; exact EE.upd_same _ _ _
        have e2 : m2 (r + 23) = (unary2Encode u).2 := by
          rw [← hm2, EE.upd_other _ _ (by omega)]; exact EE.upd_same _ _ _
        rw [e1, e2, unary_roundtrip u hu]
      rw [rowLast_eq hb2, hi2, hadd]
      rfl
    · unfold Does at h1
      refine ⟨by rw [h1]; simp, fun _ => ?_⟩
      rw [EM.post, h1]
      simp only
      rw [applyW_smartSeq]
      have hst := full_states m r new hn 18 (by omega)
      have hl : (fullList (m (r + 14)) (m (r + 22)) r new).length = 18 := by
        simp [fullList, updList, wlist_length, hn]
      rw [List.take_of_length_le (by omega)] at hst
      simp only at hst
      obtain ⟨-, -, h8, -, h17, h18⟩ := hst
      generalize applyW m (fullList (m (r + 14)) (m (r + 22)) r new) = m2 at *
      have hb2 : rxBase m2 r = some new := by
        unfold rxBase
        rw [table_some_iff.2 (h8 (by omega))]
      have hi2 : rxIncr m2 r = 0 := by
        unfold rxIncr
        rw [(h17 (by omega)).1, h18 (by simp)]; decide
      rw [rowLast_eq hb2, hi2]
      simp [msgcounteradd]

end OTR
