import Verif.Model.Counter
/-! # Counter arithmetic helper lemmas -/

namespace OTR

theorem len6 {c : Bytes} (h : c.length = 6) : ∃ a b d e f g, c = [a, b, d, e, f, g] := by
  match c, h with
  | [a, b, d, e, f, g], _ => exact ⟨a, b, d, e, f, g, rfl⟩

theorem beVal6 (a b c d e f : Byte) : beVal [a, b, c, d, e, f] =
    ((((a.toNat * 256 + b.toNat) * 256 + c.toNat) * 256 + d.toNat) * 256 + e.toNat) * 256 + f.toNat := by
  simp [beVal]

theorem beVal_cons (a : Byte) (t : Bytes) : beVal (a :: t) = a.toNat * 256 ^ t.length + beVal t := by
  have aux : ∀ (t : Bytes) (n : Nat), t.foldl (fun a b => a * 256 + b.toNat) n = n * 256 ^ t.length + beVal t := by
    intro t
    induction t with
    | nil => intro n; simp [beVal]
    | cons b t ih =>
      intro n
      simp only [List.foldl_cons, beVal, List.length_cons]
      rw [ih, ih]
      simp only [beVal]
      rw [Nat.add_mul, Nat.zero_mul, Nat.zero_add, Nat.mul_assoc, Nat.pow_succ, Nat.mul_comm 256]
      omega
  have := aux t a.toNat
  simpa [beVal] using this

theorem beVal_lt (t : Bytes) : beVal t < 256 ^ t.length := by
  induction t with
  | nil => simp [beVal]
  | cons a t ih =>
    rw [beVal_cons, List.length_cons, Nat.pow_succ]
    have := byte_lt a
    calc a.toNat * 256 ^ t.length + beVal t < a.toNat * 256 ^ t.length + 256 ^ t.length := by omega
      _ = (a.toNat + 1) * 256 ^ t.length := by rw [Nat.add_mul, Nat.one_mul]
      _ ≤ 256 * 256 ^ t.length := Nat.mul_le_mul_right _ (by omega)
      _ = 256 ^ t.length * 256 := Nat.mul_comm _ _

theorem beVal_inj {s t : Bytes} (hl : s.length = t.length) (h : beVal s = beVal t) : s = t := by
  induction s generalizing t with
  | nil => cases t with
    | nil => rfl
    | cons => simp at hl
  | cons a s ih => cases t with
    | nil => simp at hl
    | cons b t =>
      simp only [List.length_cons, Nat.add_right_cancel_iff] at hl
      rw [beVal_cons, beVal_cons, hl] at h
      have h1 := beVal_lt s
      have h2 := beVal_lt t
      rw [hl] at h1
      have hab : a.toNat = b.toNat := by
        generalize 256 ^ t.length = p at *
        rcases Nat.lt_trichotomy a.toNat b.toNat with hh | hh | hh
        · have := Nat.mul_le_mul_right p (Nat.succ_le_of_lt hh)
          rw [Nat.succ_mul] at this; omega
        · exact hh
        · have := Nat.mul_le_mul_right p (Nat.succ_le_of_lt hh)
          rw [Nat.succ_mul] at this; omega
      have hst : beVal s = beVal t := by rw [hab] at h; omega
      rw [byte_ext hab, ih hl hst]

theorem memcmp_spec (s t : Bytes) (hl : s.length = t.length) :
    (memcmp s t < 0 ↔ beVal s < beVal t) ∧ (memcmp s t = 0 ↔ beVal s = beVal t) ∧
    (0 < memcmp s t ↔ beVal t < beVal s) := by
  induction s generalizing t with
  | nil => cases t with
    | nil => simp [memcmp]
    | cons => simp at hl
  | cons a s ih => cases t with
    | nil => simp at hl
    | cons b t =>
      simp only [List.length_cons, Nat.add_right_cancel_iff] at hl
      have h1 := beVal_lt s
      have h2 := beVal_lt t
      rw [hl] at h1
      simp only [memcmp]
      rw [beVal_cons, beVal_cons, hl]
      have ih := ih t hl
      split
      · rename_i hab; subst hab
        refine ⟨?_, ?_, ?_⟩
        · rw [ih.1]; omega
        · rw [ih.2.1]; omega
        · rw [ih.2.2]; omega
      · rename_i hab
        have hab' : a.toNat ≠ b.toNat := fun h => hab (byte_ext h)
        generalize 256 ^ t.length = p at *
        rcases Nat.lt_or_gt_of_ne hab' with hh | hh
        · have := Nat.mul_le_mul_right p (Nat.succ_le_of_lt hh)
          rw [Nat.succ_mul] at this
          refine ⟨⟨fun _ => by omega, fun _ => by omega⟩, ⟨fun _ => by omega, fun _ => by omega⟩,
            ⟨fun _ => by omega, fun _ => by omega⟩⟩
        · have := Nat.mul_le_mul_right p (Nat.succ_le_of_lt hh)
          rw [Nat.succ_mul] at this
          refine ⟨⟨fun _ => by omega, fun _ => by omega⟩, ⟨fun _ => by omega, fun _ => by omega⟩,
            ⟨fun _ => by omega, fun _ => by omega⟩⟩

theorem add_gt_iff (l d : Byte) (hd : d ≠ 0) : l + d > l ↔ l.toNat + d.toNat < 256 := by
  have h1 := byte_lt l
  have h2 := byte_lt d
  have h3 : d.toNat ≠ 0 := fun h => hd (byte_ext (by simpa using h))
  rw [gt_iff_lt, UInt8.lt_iff_toNat_lt, UInt8.toNat_add]
  omega

theorem succ_ne_zero_iff (v : Byte) : v + 1 ≠ 0 ↔ v ≠ 0xff := by
  revert v; apply forall_byte; decide +kernel

theorem succ_toNat {v : Byte} (h : v ≠ 0xff) : (v + 1).toNat = v.toNat + 1 := by
  have : v.toNat ≠ 255 := fun hh => h (byte_ext (by simpa using hh))
  have := byte_lt v
  rw [UInt8.toNat_add]
  have : (1 : Byte).toNat = 1 := by decide
  omega

theorem ff_iff (v : Byte) : v = 0xff ↔ v.toNat = 255 := by
  constructor
  · rintro rfl; decide
  · intro h; exact byte_ext (by simpa using h)

/-- Exact behaviour of `msgcounteradd`. -/
theorem msgcounteradd_val {c : Bytes} (hc : c.length = 6) (delta : Byte) :
    (msgcounteradd c delta).2.length = 6 ∧
    ((msgcounteradd c delta).1 = false ↔ 2 ^ 48 ≤ beVal c + delta.toNat) ∧
    ((msgcounteradd c delta).1 = false → (msgcounteradd c delta).2 = c) ∧
    ((msgcounteradd c delta).1 = true →
      beVal (msgcounteradd c delta).2 =
        if beVal c % 2 ^ 40 + delta.toNat < 2 ^ 40 then beVal c + delta.toNat
        else beVal c + delta.toNat - 2 ^ 40) := by
  obtain ⟨a, b, d, e, f, g, rfl⟩ := len6 hc
  have la := byte_lt a; have lb := byte_lt b; have ld := byte_lt d
  have le := byte_lt e; have lf := byte_lt f; have lg := byte_lt g; have ldel := byte_lt delta
  rw [beVal6]
  unfold msgcounteradd
  by_cases h0 : delta = 0
  · subst h0
    simp only [if_true]
    refine ⟨rfl, ?_, ?_, ?_⟩
    · simp; omega
    · simp
    · intro _
      have : (0 : Byte).toNat = 0 := by decide
      rw [if_pos (by rw [this]; omega), this, Nat.add_zero, beVal6]
  · have hd : delta.toNat ≠ 0 := fun h => h0 (byte_ext (by simpa using h))
    simp only [h0, if_false, List.getElem?_cons_succ, List.getElem?_cons_zero, Option.getD_some]
    by_cases h1 : g + delta > g
    · have h1' := (add_gt_iff g delta h0).1 h1
      rw [if_pos h1]
      refine ⟨by simp, ?_, ?_, ?_⟩
      · simp; omega
      · simp
      · intro _
        simp only [List.set_cons_succ, List.set_cons_zero, beVal6, UInt8.toNat_add]
        rw [if_pos (by omega)]
        omega
    · have h1' : ¬ g.toNat + delta.toNat < 256 := fun h => h1 ((add_gt_iff g delta h0).2 h)
      rw [if_neg h1]
      by_cases hall : a = 0xff ∧ b = 0xff ∧ d = 0xff ∧ e = 0xff ∧ f = 0xff
      · obtain ⟨rfl, rfl, rfl, rfl, rfl⟩ := hall
        simp only [List.take_succ_cons, List.take_zero, List.all_cons, List.all_nil, decide_true, Bool.and_true, if_true]
        have : (0xff : Byte).toNat = 255 := by decide
        refine ⟨by simp, ?_, ?_, ?_⟩
        · simp only [this, true_iff]; omega
        · simp
        · simp
      · have hall2 : ((List.take 5 [a, b, d, e, f, g]).all (fun x => decide (x = 0xff))) = false := by
          simp only [List.take_succ_cons, List.take_zero, List.all_cons, List.all_nil, Bool.and_true]
          rw [← Bool.not_eq_true]
          simp only [Bool.and_eq_true, decide_eq_true_eq]
          exact hall
        rw [hall2]
        have hne : ¬ (a.toNat = 255 ∧ b.toNat = 255 ∧ d.toNat = 255 ∧ e.toNat = 255 ∧ f.toNat = 255) := by
          simpa only [ff_iff] using hall
        have hg : (g + delta).toNat = g.toNat + delta.toNat - 256 := by rw [UInt8.toNat_add]; omega
        simp only [Bool.false_eq_true, if_false, List.set_cons_succ, List.set_cons_zero, msgRipple,
          List.getElem?_cons_succ, List.getElem?_cons_zero, Option.getD_some, succ_ne_zero_iff]
        refine ⟨?_, ?_, by simp, ?_⟩
        · repeat' split
          all_goals simp
        · simp only [Bool.true_eq_false, false_iff]; omega
        · intro _
          by_cases hf : f = 0xff
          · have hf0 : f + 1 = 0 := by rw [hf]; decide
            have hfn := (ff_iff f).1 hf
            rw [if_neg (by simpa using hf)]
            by_cases he : e = 0xff
            · have he0 : e + 1 = 0 := by rw [he]; decide
              have hen := (ff_iff e).1 he
              rw [if_neg (by simpa using he)]
              by_cases hd' : d = 0xff
              · have hd0 : d + 1 = 0 := by rw [hd']; decide
                have hdn := (ff_iff d).1 hd'
                rw [if_neg (by simpa using hd')]
                by_cases hb : b = 0xff
                · have hb0 : b + 1 = 0 := by rw [hb]; decide
                  have hbn := (ff_iff b).1 hb
                  rw [if_neg (by simpa using hb)]
                  rw [beVal6, hb0, hd0, he0, hf0, hg]
                  have : (0 : Byte).toNat = 0 := by decide
                  rw [if_neg (by omega)]
                  omega
                · have hbn : b.toNat ≠ 255 := fun h => hb ((ff_iff b).2 h)
                  rw [if_pos (by simpa using hb)]
                  rw [beVal6, succ_toNat hb, hd0, he0, hf0, hg]
                  have : (0 : Byte).toNat = 0 := by decide
                  rw [if_pos (by omega)]
                  omega
              · have hdn : d.toNat ≠ 255 := fun h => hd' ((ff_iff d).2 h)
                rw [if_pos (by simpa using hd')]
                rw [beVal6, succ_toNat hd', he0, hf0, hg]
                have : (0 : Byte).toNat = 0 := by decide
                rw [if_pos (by omega)]
                omega
            · have hen : e.toNat ≠ 255 := fun h => he ((ff_iff e).2 h)
              rw [if_pos (by simpa using he)]
              rw [beVal6, succ_toNat he, hf0, hg]
              have : (0 : Byte).toNat = 0 := by decide
              rw [if_pos (by omega)]
              omega
          · have hfn : f.toNat ≠ 255 := fun h => hf ((ff_iff f).2 h)
            rw [if_pos (by simpa using hf)]
            rw [beVal6, succ_toNat hf, hg]
            rw [if_pos (by omega)]
            omega

end OTR
