import Verif.Model.TxCounter
import Verif.Proof.Security
/-! # Transmit counter lemmas -/

namespace OTR

/-- The writes actually performed by a sequence of smart updates. -/
def smartSeq (m : EE) : List Wr → List Wr
  | [] => []
  | w :: t => wr1 m w.1 w.2 ++ smartSeq (m.upd w.1 w.2) t

theorem applyW_smartSeq (m : EE) (ws : List Wr) : applyW m (smartSeq m ws) = applyW m ws := by
  induction ws generalizing m with
  | nil => rfl
  | cons w t ih => rw [smartSeq, applyW_append, applyW_wr1, ih, applyW_cons]

/-- Any prefix of the performed writes has the effect of some prefix of the intended ones. -/
theorem smartSeq_prefix (m : EE) (ws : List Wr) (k : Nat) :
    ∃ j, j ≤ ws.length ∧ applyW m ((smartSeq m ws).take k) = applyW m (ws.take j) := by
  induction ws generalizing m k with
  | nil => exact ⟨0, by simp, by simp [smartSeq]⟩
  | cons w t ih =>
    rw [smartSeq]
    unfold wr1
    split
    · rename_i h
      obtain ⟨j, hj, he⟩ := ih (m.upd w.1 w.2) k
      refine ⟨j + 1, by simp; omega, ?_⟩
      rw [List.nil_append, List.take_succ_cons, applyW_cons, ← he, EE.upd_eq_self m _ _ h]
    · cases k with
      | zero => exact ⟨0, by omega, by simp⟩
      | succ k =>
        obtain ⟨j, hj, he⟩ := ih (m.upd w.1 w.2) k
        refine ⟨j + 1, by simp; omega, ?_⟩
        rw [List.cons_append, List.nil_append, List.take_succ_cons, List.take_succ_cons, applyW_cons, applyW_cons, he]

/-- If only `k` writes happened and one more was due, it is one of the intended ones. -/
theorem smartSeq_torn (m : EE) (ws : List Wr) (k : Nat) (w : Wr) (hw : (smartSeq m ws)[k]? = some w) :
    ∃ j, ws[j]? = some w ∧ applyW m ((smartSeq m ws).take k) = applyW m (ws.take j) := by
  induction ws generalizing m k with
  | nil => simp [smartSeq] at hw
  | cons x t ih =>
    rw [smartSeq] at hw ⊢
    unfold wr1 at hw ⊢
    split at hw
    · rename_i h
      rw [if_pos h]
      rw [List.nil_append] at hw
      obtain ⟨j, hj, he⟩ := ih (m.upd x.1 x.2) k hw
      refine ⟨j + 1, by simpa using hj, ?_⟩
      rw [List.nil_append, List.take_succ_cons, applyW_cons, ← he, EE.upd_eq_self m _ _ h]
    · rename_i h
      rw [if_neg h]
      cases k with
      | zero =>
        simp at hw
        exact ⟨0, by simp [← hw], by simp⟩
      | succ k =>
        simp only [List.cons_append, List.nil_append, List.getElem?_cons_succ] at hw
        obtain ⟨j, hj, he⟩ := ih (m.upd x.1 x.2) k hw
        refine ⟨j + 1, by simpa using hj, ?_⟩
        rw [List.cons_append, List.nil_append, List.take_succ_cons, List.take_succ_cons, applyW_cons, applyW_cons, he]

/-- The intended writes of `saveFrom`. -/
def wlist (a : Nat) : Bytes → List Wr
  | [] => []
  | b :: t => (a, ~~~b) :: wlist (a + 1) t

theorem saveFrom_eq (a : Nat) (bs : Bytes) (m : EE) : saveFrom a bs m = (true, smartSeq m (wlist a bs)) := by
  induction bs generalizing a m with
  | nil => rfl
  | cons b t ih =>
    simp only [saveFrom, emBind, smartUpdate_eq, applyW_wr1, eeRead, emIf, wlist, smartSeq]
    rw [if_neg (by simp)]
    rw [ih]

theorem wlist_take (a : Nat) (bs : Bytes) (j : Nat) : (wlist a bs).take j = wlist a (bs.take j) := by
  induction bs generalizing a j with
  | nil => simp [wlist]
  | cons b t ih => cases j with
    | zero => simp [wlist]
    | succ j => simp [wlist, ih]

theorem wlist_length (a : Nat) (bs : Bytes) : (wlist a bs).length = bs.length := by
  induction bs generalizing a with
  | nil => rfl
  | cons b t ih => simp [wlist, ih]

theorem wlist_get (a : Nat) (bs : Bytes) (j : Nat) (w : Wr) (h : (wlist a bs)[j]? = some w) :
    w.1 = a + j ∧ j < bs.length := by
  induction bs generalizing a j with
  | nil => simp [wlist] at h
  | cons b t ih => cases j with
    | zero => simp [wlist] at h; simp [← h]
    | succ j =>
      simp only [wlist, List.getElem?_cons_succ] at h
      have := ih (a + 1) j h
      constructor
      · omega
      · simp; omega

theorem applyW_wlist (m : EE) (a : Nat) (bs : Bytes) (x : Nat) :
    applyW m (wlist a bs) x = if a ≤ x ∧ x < a + bs.length then ~~~(bs[x - a]?.getD 0) else m x := by
  induction bs generalizing a m with
  | nil => simp [wlist]; intro h h'; omega
  | cons b t ih =>
    rw [wlist, applyW_cons, ih]
    simp only [List.length_cons]
    by_cases h1 : x = a
    · subst h1
      rw [if_neg (by omega), if_pos (by omega)]; simp
    · by_cases h2 : a + 1 ≤ x ∧ x < a + 1 + t.length
      · rw [if_pos h2, if_pos (by omega), show x - a = (x - (a + 1)) + 1 by omega]; simp
      · rw [if_neg h2, if_neg (by omega), EE.upd_other _ _ h1]

theorem not_xor_ff (b : Byte) : ~~~b ^^^ 0xff = b := by
  revert b; apply forall_byte; decide +kernel

theorem loadRaw_length (m : EE) : (loadRaw m).length = 8 := by simp [loadRaw, eeBlock_length]

theorem loadRaw_get (m : EE) (i : Nat) (h : i < 8) : (loadRaw m)[i]? = some (m (104 + i) ^^^ 0xff) := by
  simp [loadRaw, eeBlock_get m 104 8 i h]

/-- The raw image after the first `j` bytes of `img` have been saved. -/
theorem loadRaw_saved (m : EE) (img : Bytes) (hi : img.length = 8) (j : Nat) (hj : j ≤ 8) :
    loadRaw (applyW m (wlist 104 (img.take j))) = img.take j ++ (loadRaw m).drop j := by
  apply List.ext_getElem?
  intro i
  by_cases h8 : i < 8
  · rw [loadRaw_get _ _ h8, applyW_wlist]
    have hl : (img.take j).length = j := by simp; omega
    rw [hl]
    by_cases hij : i < j
    · rw [if_pos (by omega), List.getElem?_append_left (by omega), show 104 + i - 104 = i by omega,
        List.getElem?_eq_getElem (by omega)]
      simp only [Option.getD_some]; rw [not_xor_ff]
    · rw [if_neg (by omega), List.getElem?_append_right (by omega), hl, List.getElem?_drop,
        show j + (i - j) = i by omega, loadRaw_get _ _ h8]
  · rw [List.getElem?_eq_none (by rw [loadRaw_length]; omega), List.getElem?_eq_none]
    rw [List.length_append, List.length_drop, loadRaw_length, List.length_take]; omega

/-- The raw image after one further byte has been written as anything. -/
theorem loadRaw_upd (m : EE) (i : Nat) (v : Byte) :
    loadRaw (m.upd (104 + i) v) = (loadRaw m).set i (v ^^^ 0xff) := by
  apply List.ext_getElem?
  intro x
  by_cases h8 : x < 8
  · rw [loadRaw_get _ _ h8, List.getElem?_set]
    by_cases hx : i = x
    · subst hx; rw [loadRaw_length]; simp [h8]
    · rw [if_neg hx, EE.upd_other _ _ (by omega), loadRaw_get _ _ h8]
  · rw [List.getElem?_eq_none (by rw [loadRaw_length]; omega), List.getElem?_eq_none]
    rw [List.length_set, loadRaw_length]; omega

theorem len3 {b : Bytes} (h : b.length = 3) : ∃ x y z, b = [x, y, z] := by
  match b, h with
  | [x, y, z], _ => exact ⟨x, y, z, rfl⟩

theorem beVal3 (a b c : Byte) : beVal [a, b, c] = (a.toNat * 256 + b.toNat) * 256 + c.toNat := by simp [beVal]

/-- Inverse of one CRC-8 step, to show injectivity. -/
def crc8Inv (d : Byte) : Byte := if (d &&& 1) != 0 then ((d ^^^ 0x07) >>> 1) ||| 0x80 else d >>> 1

theorem crc8Inv_step (d : Byte) : crc8Inv (crc8Step d) = d := by
  revert d; apply forall_byte; decide +kernel

theorem crc8Step_inj {a b : Byte} (h : crc8Step a = crc8Step b) : a = b := by
  rw [← crc8Inv_step a, h, crc8Inv_step]

theorem byte_xor_right_cancel {a b c : Byte} (h : a ^^^ c = b ^^^ c) : a = b := by
  have : (a ^^^ c) ^^^ c = (b ^^^ c) ^^^ c := by rw [h]
  rwa [UInt8.xor_assoc, UInt8.xor_assoc, UInt8.xor_self, UInt8.xor_zero, UInt8.xor_zero] at this

theorem byte_xor_left_cancel {a b c : Byte} (h : c ^^^ a = c ^^^ b) : a = b := by
  rw [UInt8.xor_comm c a, UInt8.xor_comm c b] at h; exact byte_xor_right_cancel h

theorem crc8_xor_inj {c c' b b' : Byte} (h : crc8 c b = crc8 c' b') : c ^^^ b = c' ^^^ b' := by
  unfold crc8 at h
  exact crc8Step_inj (crc8Step_inj (crc8Step_inj (crc8Step_inj (crc8Step_inj (crc8Step_inj (crc8Step_inj
    (crc8Step_inj h)))))))

theorem crc8_inj_left {c c' b : Byte} (h : crc8 c b = crc8 c' b) : c = c' := byte_xor_right_cancel (crc8_xor_inj h)
theorem crc8_inj_right {c b b' : Byte} (h : crc8 c b = crc8 c b') : b = b' := byte_xor_left_cancel (crc8_xor_inj h)

theorem crcPrefix3 (x y z : Byte) (t : Bytes) : crcPrefix (x :: y :: z :: t) = crc8 (crc8 (crc8 0 x) y) z := rfl

theorem image3 (x y z : Byte) : image [x, y, z] =
    [x, y, z, crc8 (crc8 (crc8 0 x) y) z, x, y, z, crc8 (crc8 (crc8 0 x) y) z] := rfl

theorem image_length {b : Bytes} (h : b.length = 3) : (image b).length = 8 := by
  obtain ⟨x, y, z, rfl⟩ := len3 h; rfl

/-- Reading a 4-byte copy. -/
theorem readOne4 (x y z c : Byte) : readOne [x, y, z, c] =
    if crc8 (crc8 (crc8 0 x) y) z = c ∧ ¬ (x = 0xff ∧ y = 0xff ∧ z = 0xff) then some [x, y, z] else none := by
  unfold readOne
  simp only [crcPrefix3, List.getElem?_cons_succ, List.getElem?_cons_zero, Option.getD_some, List.take_succ_cons,
    List.take_zero, List.cons.injEq, and_true]
  by_cases h1 : crc8 (crc8 (crc8 0 x) y) z = c
  · by_cases h2 : x = 0xff ∧ y = 0xff ∧ z = 0xff
    · simp [h1, h2]
    · simp only [h1, h2, ne_eq, not_true_eq_false, if_false, not_false_eq_true, and_self, if_true]
  · simp [h1]

theorem readOne_some {l b : Bytes} (hl : l.length = 4) (h : readOne l = some b) :
    b = l.take 3 ∧ b ≠ [0xff, 0xff, 0xff] := by
  unfold readOne at h
  split at h
  · simp at h
  split at h
  · simp at h
  · rename_i h2
    simp only [Option.some.injEq] at h
    exact ⟨h.symm, by rw [← h]; exact h2⟩

theorem read3_some {l b : Bytes} (hl : l.length = 8) (h : read3 l = some b) :
    b.length = 3 ∧ b ≠ [0xff, 0xff, 0xff] := by
  unfold read3 at h
  split at h
  · rename_i b' hr
    simp only [Option.some.injEq] at h; subst h
    obtain ⟨h1, h2⟩ := readOne_some (by simp; omega) hr
    exact ⟨by rw [h1]; simp; omega, h2⟩
  · obtain ⟨h1, h2⟩ := readOne_some (by simp; omega) h
    exact ⟨by rw [h1]; simp; omega, h2⟩

theorem getPrefix_some {m : EE} {b : Bytes} (h : getTXNVCtrPrefix m = some b) :
    b.length = 3 ∧ b ≠ [0xff, 0xff, 0xff] := read3_some (loadRaw_length m) h

theorem read3_image {b : Bytes} (h : b.length = 3) :
    read3 (image b) = if b = [0xff, 0xff, 0xff] then none else some b := by
  obtain ⟨x, y, z, rfl⟩ := len3 h
  rw [image3]
  unfold read3
  simp only [List.take_succ_cons, List.take_zero, List.drop_succ_cons, List.drop_zero]
  rw [readOne4]
  simp only [List.cons.injEq, and_true, true_and]
  by_cases hf : x = 0xff ∧ y = 0xff ∧ z = 0xff
  · rw [if_neg (by simp [hf]), if_pos hf]
  · rw [if_pos hf, if_neg hf]

theorem inc3_spec {b : Bytes} (h : b.length = 3) :
    (inc3 b).1.length = 3 ∧ ((inc3 b).2 = true ↔ b = [0xff, 0xff, 0xff]) ∧
    ((inc3 b).2 = false → beVal (inc3 b).1 = beVal b + 1) ∧ ((inc3 b).2 = true → (inc3 b).1 = [0, 0, 0]) ∧
    ((inc3 b).2 = true → beVal b = 2 ^ 24 - 1) := by
  obtain ⟨x, y, z, rfl⟩ := len3 h
  simp only [inc3, List.getElem?_cons_succ, List.getElem?_cons_zero, Option.getD_some, succ_ne_zero_iff,
    List.cons.injEq, and_true]
  have h0 : (0 : Byte).toNat = 0 := by decide
  by_cases hz : z = 0xff
  · have hzn := (ff_iff z).1 hz
    by_cases hy : y = 0xff
    · have hyn := (ff_iff y).1 hy
      by_cases hx : x = 0xff
      · have hxn := (ff_iff x).1 hx
        rw [if_neg (by simpa using hz), if_neg (by simpa using hy), if_neg (by simpa using hx)]
        refine ⟨rfl, by simp [hx, hy, hz], by simp, by simp, ?_⟩
        intro _; rw [beVal3]; omega
      · rw [if_neg (by simpa using hz), if_neg (by simpa using hy), if_pos (by simpa using hx)]
        refine ⟨rfl, by simp [hx], ?_, by simp, by simp⟩
        intro _; rw [beVal3, beVal3, succ_toNat hx]; omega
    · rw [if_neg (by simpa using hz), if_pos (by simpa using hy)]
      refine ⟨rfl, by simp [hy], ?_, by simp, by simp⟩
      intro _; rw [beVal3, beVal3, succ_toNat hy]; omega
  · rw [if_pos (by simpa using hz)]
    refine ⟨rfl, by simp [hz], ?_, by simp, by simp⟩
    intro _; rw [beVal3, beVal3, succ_toNat hz]; omega

/-- Both copies hold the prefix `b`. -/
def Synced (m : EE) (b : Bytes) : Prop := loadRaw m = image b

theorem synced_read {m : EE} {b : Bytes} (hb : b.length = 3) (h : Synced m b) :
    getTXNVCtrPrefix m = if b = [0xff, 0xff, 0xff] then none else some b := by
  rw [getTXNVCtrPrefix, h, read3_image hb]

theorem synced_after_save (m : EE) (b : Bytes) (hb : b.length = 3) : Synced (applyW m (wlist 104 (image b))) b := by
  have := loadRaw_saved m (image b) (image_length hb) 8 (by omega)
  rw [List.take_of_length_le (by rw [image_length hb]; omega),
    List.drop_of_length_le (by rw [loadRaw_length]; omega), List.append_nil] at this
  exact this

theorem increment_eq (m : EE) : incrementTXNVCtrPrefix m =
    match getTXNVCtrPrefix m with
    | none => (false, [])
    | some b => (true, smartSeq m (wlist 104 (image (inc3 b).1))) := by
  unfold incrementTXNVCtrPrefix incrementImage
  rw [getTXNVCtrPrefix]
  cases h : read3 (loadRaw m) with
  | none => rfl
  | some b =>
    obtain ⟨h3, hf⟩ := read3_some (loadRaw_length m) h
    have : (inc3 b).2 = false := by
      rw [← Bool.not_eq_true]
      intro hh; exact hf ((inc3_spec h3).2.1.1 hh)
    simp only [this]
    exact saveFrom_eq _ _ _

/-- No value of the top byte makes a half-done carry look valid. -/
theorem crc8_no_carry_collision (x : Byte) (hx : x ≠ 0xff) :
    crc8 (crc8 (crc8 0 (x + 1)) 0) 0xff ≠ crc8 (crc8 (crc8 0 x) 0xff) 0xff := by
  revert x; apply forall_byte; decide +kernel

/-- Reading back after an update from `b` was cut short anywhere. -/
theorem crash_read {m : EE} {b : Bytes} (hb : b.length = 3) (hs : Synced m b) (hf : b ≠ [0xff, 0xff, 0xff])
    (j : Nat) (hj : j ≤ 8) :
    getTXNVCtrPrefix (applyW m ((wlist 104 (image (inc3 b).1)).take j)) = some b ∨
    getTXNVCtrPrefix (applyW m ((wlist 104 (image (inc3 b).1)).take j)) = some (inc3 b).1 ∨
    ((inc3 b).1 = [0xff, 0xff, 0xff] ∧
      getTXNVCtrPrefix (applyW m ((wlist 104 (image (inc3 b).1)).take j)) = none) := by
  have hi := (inc3_spec hb).1
  rw [getTXNVCtrPrefix, wlist_take, loadRaw_saved m _ (image_length hi) j hj, hs]
  obtain ⟨x, y, z, rfl⟩ := len3 hb
  have hxyz : ¬ (x = 0xff ∧ y = 0xff ∧ z = 0xff) := by
    rintro ⟨rfl, rfl, rfl⟩; exact hf rfl
  have hsec : readOne [x, y, z, crc8 (crc8 (crc8 0 x) y) z] = some [x, y, z] := by
    rw [readOne4, if_pos ⟨rfl, hxyz⟩]
  obtain ⟨x', y', z', hn⟩ := len3 hi
  -- how the successor relates
  have hrel : (x' = x ∧ y' = y) ∨ (x' = x ∧ y' ≠ y ∧ z = 0xff) ∨ (x ≠ 0xff ∧ x' = x + 1 ∧ y' = 0 ∧ y = 0xff ∧ z = 0xff) := by
    simp only [inc3, List.getElem?_cons_succ, List.getElem?_cons_zero, Option.getD_some, succ_ne_zero_iff] at hn
    by_cases hz : z = 0xff
    · by_cases hy : y = 0xff
      · by_cases hx : x = 0xff
        · exact absurd ⟨hx, hy, hz⟩ hxyz
        · rw [if_neg (by simpa using hz), if_neg (by simpa using hy), if_pos (by simpa using hx)] at hn
          simp only [List.cons.injEq, and_true] at hn
          right; right; exact ⟨hx, hn.1.symm, hn.2.1.symm, hy, hz⟩
      · rw [if_neg (by simpa using hz), if_pos (by simpa using hy)] at hn
        simp only [List.cons.injEq, and_true] at hn
        right; left
        refine ⟨hn.1.symm, ?_, hz⟩
        rw [← hn.2.1]
        intro hh
        have h1 := succ_toNat hy
        rw [hh] at h1; omega
    · rw [if_pos (by simpa using hz)] at hn
      simp only [List.cons.injEq, and_true] at hn
      left; exact ⟨hn.1.symm, hn.2.1.symm⟩
  rw [hn, image3, image3]
  unfold read3
  have hcase : j = 0 ∨ j = 1 ∨ j = 2 ∨ j = 3 ∨ j = 4 ∨ j = 5 ∨ j = 6 ∨ j = 7 ∨ j = 8 := by omega
  rcases hcase with h | h | h | h | h | h | h | h | h <;> subst h <;>
    simp only [List.take_succ_cons, List.take_zero, List.drop_succ_cons, List.drop_zero, List.cons_append,
      List.nil_append]
  · left; rw [hsec]
  · -- first byte new
    left
    rw [hsec]
    rcases hrel with ⟨h1, _⟩ | ⟨h1, _⟩ | ⟨h1, h2, _⟩
    · rw [h1, hsec]
    · rw [h1, hsec]
    · rw [readOne4, if_neg]
      rintro ⟨hc, _⟩
      have := crc8_inj_right (crc8_inj_left (crc8_inj_left hc))
      rw [h2] at this
      have h3 := succ_toNat h1
      rw [this] at h3; omega
  · left
    rw [hsec]
    rcases hrel with ⟨h1, h2⟩ | ⟨h1, h2, _⟩ | ⟨h1, h2, h3, h4, h5⟩
    · rw [h1, h2, hsec]
    · rw [readOne4, if_neg]
      rintro ⟨hc, _⟩
      rw [h1] at hc
      exact h2 (crc8_inj_right (crc8_inj_left hc))
    · rw [readOne4, if_neg]
      rintro ⟨hc, _⟩
      rw [h2, h3, h4, h5] at hc
      exact crc8_no_carry_collision x h1 hc
  · -- all three new, old CRC
    rw [hsec]
    rw [readOne4]
    by_cases hc : crc8 (crc8 (crc8 0 x') y') z' = crc8 (crc8 (crc8 0 x) y) z ∧ ¬(x' = 255 ∧ y' = 255 ∧ z' = 255)
    · rw [if_pos hc]; right; left; rfl
    · rw [if_neg hc]; left; rfl
  all_goals
    rw [readOne4]
    by_cases hn' : x' = 0xff ∧ y' = 0xff ∧ z' = 0xff
    · rw [if_neg (by simp [hn'])]
      obtain ⟨rfl, rfl, rfl⟩ := hn'
      try rw [readOne4]
      have hxy : x = 0xff ∧ y = 0xff := by
        rcases hrel with ⟨h1, h2⟩ | ⟨h1, h2, h3⟩ | ⟨_, _, h3, _⟩
        · exact ⟨h1.symm, h2.symm⟩
        · exfalso
          simp only [inc3, List.getElem?_cons_succ, List.getElem?_cons_zero, Option.getD_some, succ_ne_zero_iff] at hn
          rw [if_neg (by simpa using h3)] at hn
          split at hn
          · simp at hn
          · split at hn <;> simp at hn
        · simp at h3
      obtain ⟨rfl, rfl⟩ := hxy
      simp only [true_and] at hxyz
      first
        | (left; simp [hxyz]; done)
        | (right; right; simp; done)
    · right; left; rw [if_pos ⟨rfl, hn'⟩]
end OTR
