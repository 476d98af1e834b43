import Verif.Model.ErrorReport
/-!
# C73: errors take priority over warnings
-/

namespace OTR.Props

/-- Number of `read()` calls in a history. -/
def errReads (h : List ErrOp) : Nat := h.countP (fun o => o = .read)

/-- No error (strictly positive) is reported in the history. -/
def noError (h : List ErrOp) : Prop := ∀ v, ErrOp.set v ∈ h → v ≤ 0

/-- **C73.** Whatever happened before, a new error is accepted, is at once the value returned by `get()`, and is live. -/
theorem C73_error_wins (h : List ErrOp) (v : Int) (hv : v > 0) :
    ((Err.init.run h).set v).2 = true ∧ (Err.init.run (h ++ [.set v])).get = v ∧
    (Err.init.run (h ++ [.set v])).isAvailable = true := by
  have e : (Err.init.run (h ++ [.set v])) = ((Err.init.run h).set v).1 := by
    simp [Err.run, List.foldl_append, Err.step]
  rw [e]
  simp [Err.set, hv, Err.get, Err.isAvailable, Err.isAged]

/-- **C73.** Whatever happened before, while a report is live a warning (or zero) is refused and changes nothing. -/
theorem C73_warning_refused (h : List ErrOp) (v : Int) (hv : v ≤ 0) (ha : (Err.init.run h).isAvailable = true) :
    ((Err.init.run h).set v).2 = false ∧ Err.init.run (h ++ [.set v]) = Err.init.run h := by
  have e : (Err.init.run (h ++ [.set v])) = ((Err.init.run h).set v).1 := by
    simp [Err.run, List.foldl_append, Err.step]
  rw [e]
  have : ¬ (v > 0 ∨ (Err.init.run h).isAged = true) := by
    simp [Err.isAvailable] at ha; simp [ha]; omega
  simp [Err.set, if_neg this]

/-- **C73.** When nothing is live a warning is accepted. -/
theorem C73_warning_accepted (h : List ErrOp) (v : Int) (ha : (Err.init.run h).isAvailable = false) :
    ((Err.init.run h).set v).2 = true ∧ (Err.init.run (h ++ [.set v])).get = v ∧
    (Err.init.run (h ++ [.set v])).isAvailable = true := by
  have e : (Err.init.run (h ++ [.set v])) = ((Err.init.run h).set v).1 := by
    simp [Err.run, List.foldl_append, Err.step]
  rw [e]
  have : (Err.init.run h).isAged = true := by simpa [Err.isAvailable] using ha
  simp [Err.set, this, Err.get, Err.isAvailable]
  simp [Err.isAged]

theorem run_no_error (s : Err) (t : List ErrOp) (ht : noError t) (hr : errReads t < s.timeout) :
    s.run t = ⟨s.value, s.timeout - errReads t⟩ := by
  induction t generalizing s with
  | nil => simp [Err.run, errReads]
  | cons o t ih =>
    show (s.step o).run t = _
    cases o with
    | set v =>
      have hv : v ≤ 0 := ht v (by simp)
      have hc : errReads (.set v :: t) = errReads t := by simp [errReads, List.countP_cons]
      rw [hc] at hr ⊢
      have : s.step (.set v) = s := by
        have hn : ¬ (v > 0 ∨ s.isAged = true) := by simp [Err.isAged]; omega
        simp [Err.step, Err.set, if_neg hn]
      rw [this]
      exact ih s (fun w hw => ht w (by simp [hw])) hr
    | read =>
      have hc : errReads (.read :: t) = errReads t + 1 := by simp [errReads, List.countP_cons]
      rw [hc] at hr ⊢
      have hs : s.step .read = ⟨s.value, s.timeout - 1⟩ := by
        simp only [Err.step, Err.read]
        rw [if_neg (by omega)]
      rw [hs, ih ⟨s.value, s.timeout - 1⟩ (fun w hw => ht w (by simp [hw])) (by dsimp only; omega)]
      congr 1
      dsimp only
      omega

/-- **C73.** An accepted report stays the reported, live value until either another error or the tenth later `read()`,
whatever warnings arrive in between. -/
theorem C73_retained (h : List ErrOp) (v : Int) (ha : ((Err.init.run h).set v).2 = true)
    (t : List ErrOp) (ht : noError t) (hr : errReads t < 10) :
    (Err.init.run (h ++ .set v :: t)).get = v ∧ (Err.init.run (h ++ .set v :: t)).isAvailable = true := by
  have e : Err.init.run (h ++ .set v :: t) = (((Err.init.run h).set v).1).run t := by
    simp [Err.run, List.foldl_append, Err.step]
  have e2 : ((Err.init.run h).set v).1 = ⟨v, 10⟩ := by
    unfold Err.set at ha ⊢
    split at ha
    · rename_i hc; rw [if_pos hc]
    · simp at ha
  rw [e, e2, run_no_error _ t ht hr]
  refine ⟨rfl, ?_⟩
  simp [Err.isAvailable, Err.isAged]
  omega

/-- **C73.** An un-refreshed report expires: with ten `read()`s after it, made while no error and (after it has gone) no
new warning arrives, it is no longer live.  Stated at the tenth read exactly, with any refused warnings before it. -/
theorem C73_expires (h : List ErrOp) (v : Int) (ha : ((Err.init.run h).set v).2 = true)
    (t : List ErrOp) (ht : noError t) (hr : errReads t = 9) (k : Nat) :
    (Err.init.run (h ++ .set v :: (t ++ .read :: List.replicate k .read))).isAvailable = false := by
  have e : Err.init.run (h ++ .set v :: (t ++ .read :: List.replicate k .read)) =
      ((((Err.init.run h).set v).1).run t).run (.read :: List.replicate k .read) := by
    simp [Err.run, List.foldl_append, Err.step]
  have e2 : ((Err.init.run h).set v).1 = ⟨v, 10⟩ := by
    unfold Err.set at ha ⊢
    split at ha
    · rename_i hc; rw [if_pos hc]
    · simp at ha
  rw [e, e2, run_no_error _ t ht (by rw [hr]; show 9 < 10; omega), hr]
  have : ∀ k, (Err.mk v 0).run (List.replicate k .read) = ⟨v, 0⟩ := by
    intro k
    induction k with
    | zero => rfl
    | succ k ih => rw [List.replicate_succ]; exact ih
  show ((Err.mk v (10 - 9)).step .read |>.run (List.replicate k .read)).isAvailable = false
  have e3 : (Err.mk v (10 - 9)).step .read = ⟨v, 0⟩ := rfl
  rw [e3, this]
  rfl

/-- A concrete history: a warning, then an error that displaces it, a refused warning, ageing, then a warning accepted. -/
example :
    ((Err.init.set (-1)).2 = true) ∧
    (Err.init.run [.set (-1), .set 5, .read, .set (-21)]).get = 5 ∧
    noError [.read, .set (-21)] ∧ errReads [.read, .set (-21)] < 10 ∧
    (Err.init.run ([.set (-1), .set 5] ++ List.replicate 10 .read ++ [.set (-21)])).get = -21 := by
  refine ⟨rfl, by decide, ?_, by decide, by decide⟩
  intro v hv
  simp at hv
  omega

end OTR.Props
