import Verif.Model.Security
import Verif.Proof.EEPROM
import Verif.Proof.Counter
/-! # Association table lemmas -/

namespace OTR

theorem post_bind {α β : Type} (x : EM α) (f : α → EM β) (m : EE) :
    (emBind x f).post m = (f (x m).1).post (x.post m) := by
  simp [EM.post, emBind, applyW_append]

theorem res_bind {α β : Type} (x : EM α) (f : α → EM β) (m : EE) :
    (emBind x f m).1 = (f (x m).1 (x.post m)).1 := rfl

theorem post_ret {α : Type} (a : α) (m : EE) : (emRet a).post m = m := rfl

theorem post_smartErase (a : Nat) (m : EE) : (smartErase a).post m = m.upd a 0xff := by
  rw [EM.post, smartErase_eq, applyW_wr1]

theorem post_smartUpdate (s : Bool) (a : Nat) (v : Byte) (m : EE) : (smartUpdate s a v).post m = m.upd a v := by
  rw [EM.post, smartUpdate_eq, applyW_wr1]

/-- Contents after a loop of single-cell writes to consecutive cells `base+x` of value `v x`. -/
theorem post_forEach {α : Type} (f : Nat → EM α) (base : Nat) (v : Nat → Byte)
    (hf : ∀ x m, (f x).post m = m.upd (base + x) (v x)) (n : Nat) (m : EE) (a : Nat) :
    (emForEach f (List.range n)).post m a = if base ≤ a ∧ a < base + n then v (a - base) else m a := by
  have gen : ∀ (xs : List Nat), xs.Pairwise (· < ·) → ∀ m : EE,
      (emForEach f xs).post m a = if base ≤ a ∧ (a - base) ∈ xs then v (a - base) else m a := by
    intro xs
    induction xs with
    | nil => intro _ m; simp [emForEach, post_ret]
    | cons x xs ih =>
      intro hp m
      rw [List.pairwise_cons] at hp
      rw [emForEach, post_bind, ih hp.2, hf]
      by_cases h1 : base ≤ a
      · by_cases h2 : a - base ∈ xs
        · simp [h1, h2]
        · by_cases h3 : a - base = x
          · have : a = base + x := by omega
            subst this
            simp [EE.upd, h2]
          · rw [if_neg (by simp [h2]), if_neg (by simp [h1, h2, h3]), EE.upd_other]
            omega
      · rw [if_neg (by simp [h1]), if_neg (by simp [h1]), EE.upd_other]
        omega
  rw [gen _ (List.pairwise_lt_range)]
  congr 1
  rw [List.mem_range]
  apply propext
  constructor
  · rintro ⟨h1, h2⟩; exact ⟨h1, by omega⟩
  · rintro ⟨h1, h2⟩; exact ⟨h1, by omega⟩

theorem assocRow_eq (i : Nat) : assocRow i = 768 + i * 32 := rfl

theorem post_writeRow (row : Nat) (id : Bytes) (m : EE) (a : Nat) :
    (writeRow row id).post m a =
      if row ≤ a ∧ a < row + 32 then (if a - row < 8 then id[a - row]?.getD 0 else 0xff) else m a := by
  unfold writeRow
  rw [post_forEach (v := fun j => if j < 8 then id[j]?.getD 0 else 0xff)]
  intro x m
  split
  · rw [post_smartUpdate]
  · rw [post_smartErase]

theorem rowID_get (m : EE) (i j : Nat) (h : j < 8) : (rowID m i)[j]? = some (m (assocRow i + j)) :=
  eeBlock_get m _ 8 j h

theorem rowID_length (m : EE) (i : Nat) : (rowID m i).length = 8 := eeBlock_length _ _ _

theorem rowID_first (m : EE) (i : Nat) : (rowID m i)[0]?.getD 0 = m (assocRow i) := by
  rw [rowID_get m i 0 (by omega)]; rfl

theorem memcmp_eq_zero {s t : Bytes} (h : s.length = t.length) : memcmp s t = 0 ↔ s = t := by
  rw [(memcmp_spec s t h).2.1]
  exact ⟨fun hh => beVal_inj h hh, fun hh => by rw [hh]⟩

end OTR
