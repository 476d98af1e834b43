import Verif.Model.ZapCLI
import Verif.Props.Stats
/-!
# C237: the `Z` command

Each command erases as much as there is time for; repeated often enough it clears everything, whenever it is given and wherever the
power fails.
-/
namespace OTR.Props
open OTR

/-- Bytes not erased among the `n` from address `p` on. -/
def notErased (m : EE) : Nat → Nat → Nat
  | _, 0 => 0
  | p, n + 1 => (if m p = 0xff then 0 else 1) + notErased m (p + 1) n

theorem notErased_le (m : EE) (n : Nat) : ∀ p, notErased m p n ≤ n := by
  induction n with
  | zero => intro p; exact Nat.le_refl _
  | succ n ih => intro p; have := ih (p + 1); simp only [notErased]; split <;> omega

theorem notErased_upd (m : EE) (a : Nat) (v : Byte) (n : Nat) : ∀ p, a < p → notErased (m.upd a v) p n = notErased m p n := by
  induction n with
  | zero => intro p _; rfl
  | succ n ih =>
    intro p h
    simp only [notErased]
    rw [ih (p + 1) (by omega), EE.upd_other _ _ (by omega)]

theorem notErased_zero (m : EE) (n : Nat) : ∀ p, notErased m p n = 0 ↔ ∀ a, p ≤ a → a < p + n → m a = 0xff := by
  induction n with
  | zero => intro p; simp only [notErased, true_iff]; intro a h1 h2; omega
  | succ n ih =>
    intro p
    simp only [notErased]
    constructor
    · intro h a h1 h2
      by_cases hp : m p = 0xff
      · rw [if_pos hp] at h
        by_cases e : a = p
        · rw [e]; exact hp
        · exact (ih (p + 1)).1 (by omega) a (by omega) (by omega)
      · rw [if_neg hp] at h; omega
    · intro h
      rw [if_pos (h p (Nat.le_refl _) (by omega)), (ih (p + 1)).2 (fun a h1 h2 => h a (by omega) (by omega))]

theorem notErased_congr (m m' : EE) (n : Nat) : ∀ p, (∀ a, p ≤ a → m a = m' a) → notErased m p n = notErased m' p n := by
  induction n with
  | zero => intro p _; rfl
  | succ n ih =>
    intro p h
    simp only [notErased]
    rw [h p (Nat.le_refl _), ih (p + 1) (fun a ha => h a (by omega))]

theorem u16_pred (b : UInt16) (h : 0 < b.toNat) : (b - 1).toNat = b.toNat - 1 := by
  rw [UInt16.toNat_sub_of_le _ _ (by rw [UInt16.le_iff_toNat_le]; show 1 ≤ _; omega)]; rfl

/-- A budgeted erase from any point: the number of writes, the answer, and what is left after any number of the writes. -/
theorem zap_counts (n : Nat) : ∀ (p : Nat) (b : UInt16) (m : EE), 0 < b.toNat →
    ((zapFrom p n b m).1 = true ↔ notErased m p n < b.toNat) ∧
    (zapFrom p n b m).2.length = min (notErased m p n) b.toNat ∧
    ∀ k, k ≤ (zapFrom p n b m).2.length → notErased (applyW m ((zapFrom p n b m).2.take k)) p n = notErased m p n - k := by
  induction n with
  | zero => intro p b m hb; simp [zapFrom, emRet, notErased, hb]
  | succ n ih =>
    intro p b m hb
    simp only [zapFrom, emBind]
    rw [smartErase_eq]
    simp only [applyW_wr1]
    by_cases hp : m p = 0xff
    · -- already erased: nothing written
      have hu : m.upd p 0xff = m := by
        funext a
        by_cases e : a = p
        · subst e; rw [EE.upd_same, hp]
        · rw [EE.upd_other _ _ e]
      have hw : wr1 m p 0xff = [] := by simp [wr1, hp]
      obtain ⟨i1, i2, i3⟩ := ih (p + 1) b m hb
      simp only [emIf, hp, ne_eq, not_true, decide_false, Bool.false_eq_true, if_false, hw, List.nil_append, hu, notErased, if_true, Nat.zero_add]
      refine ⟨i1, i2, fun k hk => ?_⟩
      have h0 : applyW m ((zapFrom (p + 1) n b m).2.take k) p = 0xff := by
        have hall : ∀ w ∈ (zapFrom (p + 1) n b m).2, w.2 = 0xff := by
          have gen : ∀ (n p : Nat) (b : UInt16) (m : EE), ∀ w ∈ (zapFrom p n b m).2, w.2 = 0xff := by
            intro n
            induction n with
            | zero => intro p b m w hw; simp [zapFrom, emRet] at hw
            | succ n ih =>
              intro p b m w hw
              simp only [zapFrom, emBind] at hw
              rw [smartErase_eq] at hw
              simp only [List.mem_append] at hw
              rcases hw with hw | hw
              · simp only [wr1] at hw
                split at hw
                · cases hw
                · rw [List.mem_singleton] at hw; rw [hw]
              · simp only [emIf] at hw
                split at hw
                · split at hw
                  · simp [emRet] at hw
                  · exact ih _ _ _ _ hw
                · exact ih _ _ _ _ hw
          exact gen n (p + 1) b m
        have : ∀ (ws : List Wr) (m : EE), (∀ w ∈ ws, w.2 = 0xff) → m p = 0xff → applyW m ws p = 0xff := by
          intro ws
          induction ws with
          | nil => intro m _ h; exact h
          | cons w ws ih =>
            intro m h1 h2
            simp only [applyW, List.foldl_cons]
            refine ih _ (fun x hx => h1 x (by simp [hx])) ?_
            by_cases e : p = w.1
            · rw [← e, EE.upd_same]; exact h1 w (by simp)
            · rw [EE.upd_other _ _ e]; exact h2
        exact this _ m (fun w hw => hall w (List.mem_of_mem_take hw)) hp
      rw [if_pos h0, Nat.zero_add]
      exact i3 k hk
    · -- one byte to erase
      have hw : wr1 m p 0xff = [(p, 0xff)] := by simp [wr1, hp]
      have hup : notErased (m.upd p 0xff) (p + 1) n = notErased m (p + 1) n := notErased_upd m p 0xff n (p + 1) (by omega)
      have hle : notErased (m.upd p 0xff) p (n + 1) = notErased m (p + 1) n := by
        simp only [notErased]; rw [EE.upd_same, if_pos rfl, hup, Nat.zero_add]
      by_cases hb1 : b - 1 = 0
      · have hb' : b.toNat = 1 := by
          have := u16_pred b hb
          rw [hb1] at this
          have h0 : (0 : UInt16).toNat = 0 := rfl
          omega
        simp only [emIf, hp, ne_eq, not_false_iff, decide_true, if_true, hw, hb1, emRet, List.append_nil, notErased, if_false, hb', List.length_singleton]
        refine ⟨by simp, by omega, fun k hk => ?_⟩
        rcases (by omega : k = 0 ∨ k = 1) with rfl | rfl
        · simp [applyW, hp]
        · have := hle
          simp only [notErased] at this
          simp only [List.take_succ_cons, List.take_nil, applyW, List.foldl_cons, List.foldl_nil]
          rw [this]; omega
      · have hpred := u16_pred b hb
        have hb2 : 0 < (b - 1).toNat := by
          rcases Nat.eq_zero_or_pos (b - 1).toNat with h | h
          · exact absurd (UInt16.toNat_inj.mp h) hb1
          · exact h
        obtain ⟨i1, i2, i3⟩ := ih (p + 1) (b - 1) (m.upd p 0xff) hb2
        rw [hup] at i1 i2
        simp only [emIf, hp, ne_eq, not_false_iff, decide_true, if_true, hw, hb1, if_false]
        have hN : notErased m p (n + 1) = 1 + notErased m (p + 1) n := by simp only [notErased]; rw [if_neg hp]
        rw [hN]
        refine ⟨by rw [i1]; omega, by simp only [List.length_append, List.length_singleton]; rw [i2]; omega, fun k hk => ?_⟩
        cases k with
        | zero => simp only [List.take_zero, applyW, List.foldl_nil]; omega
        | succ k =>
          simp only [List.cons_append, List.nil_append, List.take_succ_cons]
          have hk' : k ≤ (zapFrom (p + 1) n (b - 1) (m.upd p 0xff)).2.length := by
            simp only [List.cons_append, List.nil_append, List.length_cons] at hk; omega
          have h3 := i3 k hk'
          rw [hup] at h3
          have happ : ∀ ws, applyW m ((p, 0xff) :: ws) = applyW (m.upd p 0xff) ws := fun ws => rfl
          rw [happ]
          have h0 : applyW (m.upd p 0xff) ((zapFrom (p + 1) n (b - 1) (m.upd p 0xff)).2.take k) p = 0xff := by
            have hgt : ∀ (n q : Nat) (b : UInt16) (m : EE), ∀ w ∈ (zapFrom q n b m).2, q ≤ w.1 := by
              intro n
              induction n with
              | zero => intro q b m w hw; simp [zapFrom, emRet] at hw
              | succ n ih =>
                intro q b m w hw
                simp only [zapFrom, emBind] at hw
                rw [smartErase_eq] at hw
                simp only [List.mem_append] at hw
                rcases hw with hw | hw
                · simp only [wr1] at hw
                  split at hw
                  · cases hw
                  · rw [List.mem_singleton] at hw; rw [hw]; exact Nat.le_refl _
                · simp only [emIf] at hw
                  split at hw
                  · split at hw
                    · simp [emRet] at hw
                    · exact Nat.le_of_succ_le (ih _ _ _ _ hw)
                  · exact Nat.le_of_succ_le (ih _ _ _ _ hw)
            have hkeep : ∀ (ws : List Wr) (m : EE), (∀ w ∈ ws, p + 1 ≤ w.1) → applyW m ws p = m p := by
              intro ws
              induction ws with
              | nil => intro m _; rfl
              | cons w ws ih =>
                intro m h1
                have hw1 := h1 w (by simp)
                simp only [applyW, List.foldl_cons]
                have := ih (m.upd w.1 w.2) (fun x hx => h1 x (by simp [hx]))
                simp only [applyW] at this
                rw [this, EE.upd_other _ _ (by omega)]
            rw [hkeep _ _ (fun w hw => hgt n (p + 1) (b - 1) (m.upd p 0xff) w (List.mem_of_mem_take hw)), EE.upd_same]
          simp only [notErased]
          rw [if_pos h0, h3]; omega

theorem zapBudget_val : ∀ s : Byte, (zapBudget s).toNat = max 1 (msLeftOf s / 2 - 20) ∧ 0 < (zapBudget s).toNat := by
  apply forall_byte; decide +kernel

/-- What the command does, exactly. -/
theorem cliZap_eq (s : Byte) (m : EE) : (cliZap s m).2 = (zapFrom 256 360 (zapBudget s) m).2 ∧
    (cliZap s m).1 = (if (zapFrom 256 360 (zapBudget s) m).1 = true then ascii "Zapped." else ascii "Not finished.") ++ [13, 10] := by
  exact ⟨by simp [cliZap, emBind, emRet, zapStats], rfl⟩

/-- **C237** (one command): given at any time, with any contents, `Z` erases one byte if there is hardly any time left and otherwise at most
what fits the rest of the cycle at 2 ms a byte with 40 ms to spare; it erases all of what is left or as much as it allows itself; and it
prints `Zapped.` exactly if there was less to erase than it allows itself, in which case every statistic reads as unset. -/
theorem C237_one (s : Byte) (m : EE) :
    let d := notErased m 256 360
    let b := max 1 (msLeftOf s / 2 - 20)
    (cliZap s m).2.length = min d b ∧
    (42 ≤ msLeftOf s → 2 * (cliZap s m).2.length + 40 ≤ msLeftOf s) ∧
    notErased ((cliZap s).post m) 256 360 = d - b ∧
    ((cliZap s m).1 = ascii "Zapped." ++ [13, 10] ↔ d < b) ∧
    ((cliZap s m).1 = ascii "Zapped." ++ [13, 10] → ∀ i h, eeGetStat ((cliZap s).post m) i h = 0xff) := by
  obtain ⟨e2, e1⟩ := cliZap_eq s m
  obtain ⟨hv, hp⟩ := zapBudget_val s
  obtain ⟨c1, c2, c3⟩ := zap_counts 360 256 (zapBudget s) m hp
  rw [hv] at c1 c2
  have hz : (cliZap s m).1 = ascii "Zapped." ++ [13, 10] ↔ (zapFrom 256 360 (zapBudget s) m).1 = true := by
    rw [e1]
    cases (zapFrom 256 360 (zapBudget s) m).1
    · simp only [Bool.false_eq_true, if_false, iff_false]; decide +kernel
    · simp
  have hpost : (cliZap s).post m = applyW m ((zapFrom 256 360 (zapBudget s) m).2.take (zapFrom 256 360 (zapBudget s) m).2.length) := by
    rw [List.take_length]; unfold EM.post; rw [e2]
  dsimp only
  refine ⟨by rw [e2]; exact c2, ?_, ?_, hz.trans c1, ?_⟩
  · intro h; rw [e2, c2]; omega
  · rw [hpost, c3 _ (Nat.le_refl _), c2]; omega
  · intro h i hh
    have := (C81_zap (zapBudget s) m).2.2 (hz.1 h) i hh
    have hp2 : (cliZap s).post m = (zapStats (zapBudget s)).post m := by
      unfold EM.post; rw [e2]; rfl
    rw [hp2]; exact this

/-- A `Z` command given at a sub-cycle time; `some k`: the power failed after `k` writes. -/
def zapStep (m : EE) (c : Byte × Option Nat) : EE :=
  match c.2 with
  | none => (cliZap c.1).post m
  | some k => applyW m ((cliZap c.1 m).2.take k)

/-- **C237** (repetition): any 360 commands that are not cut off, at any times, among any others that are, leave nothing to erase: every statistic
reads as unset, and the next command says `Zapped.`. -/
theorem C237_repeat (l : List (Byte × Option Nat)) (m : EE) (hl : 360 ≤ (l.filter (fun c => c.2.isNone)).length) :
    notErased (l.foldl zapStep m) 256 360 = 0 ∧ (∀ i h, eeGetStat (l.foldl zapStep m) i h = 0xff) ∧
    ∀ s, (cliZap s (l.foldl zapStep m)).1 = ascii "Zapped." ++ [13, 10] := by
  have step : ∀ m c, notErased (zapStep m c) 256 360 ≤ notErased m 256 360 - (if c.2.isNone then 1 else 0) := by
    intro m c
    obtain ⟨s, o⟩ := c
    obtain ⟨e2, _⟩ := cliZap_eq s m
    obtain ⟨hv, hp⟩ := zapBudget_val s
    obtain ⟨c1, c2, c3⟩ := zap_counts 360 256 (zapBudget s) m hp
    cases o with
    | none =>
      have := (C237_one s m).2.2.1
      simp only [zapStep, Option.isNone_none, if_true]
      rw [this]; omega
    | some k =>
      simp only [zapStep, Option.isNone_some, Bool.false_eq_true, if_false]
      rw [e2]
      by_cases hk : k ≤ (zapFrom 256 360 (zapBudget s) m).2.length
      · rw [c3 k hk]; omega
      · have := c3 _ (Nat.le_refl _)
        rw [List.take_length] at this
        rw [List.take_of_length_le (by omega), this]; omega
  have many : ∀ (l : List (Byte × Option Nat)) m, notErased (l.foldl zapStep m) 256 360 ≤ notErased m 256 360 - (l.filter (fun c => c.2.isNone)).length := by
    intro l
    induction l with
    | nil => intro m; simp
    | cons c t ih =>
      intro m
      have h1 := ih (zapStep m c)
      have h2 := step m c
      simp only [List.foldl_cons, List.filter_cons]
      split
      · rename_i h; rw [if_pos h] at h2; simp only [List.length_cons]; omega
      · rename_i h; rw [if_neg h] at h2; omega
  have h0 : notErased (l.foldl zapStep m) 256 360 = 0 := by
    have := many l m
    have := notErased_le m 360 256
    omega
  refine ⟨h0, fun i h => ?_, fun s => ((C237_one s _).2.2.2.1).2 (by rw [h0]; omega)⟩
  unfold eeGetStat
  split
  · rfl
  · split
    · rfl
    · exact (notErased_zero _ 360 256).1 h0 _ (by omega) (by omega)

/-- A case in the middle: with 60 ms left (sub-cycle time 246) ten bytes are erased and, with more to go, it says so. -/
example : msLeftOf 246 = 63 ∧ (cliZap 246 (fun _ => 0)).2.length = 11 ∧
    (cliZap 246 (fun _ => 0)).1 = ascii "Not finished.\r\n" := by decide +kernel

end OTR.Props
