import Verif.Model.Trv
/-!
# Lemmas about the motor's target (for Props/Trv)
-/

namespace OTR.Props
open OTR

theorem tgt_ticks (m : Motor) (o : Bool) (k : Nat) : (m.ticks o k).target = m.target := by
  unfold Motor.ticks
  split
  · rfl
  · split <;> rfl

theorem tgt_wiggle (m : Motor) (i : MIn) : (m.wiggle i).target = m.target := by
  unfold Motor.wiggle; rw [tgt_ticks, tgt_ticks]

theorem tgt_run (m : Motor) (o : Bool) (r : MRun) : (m.run o r).target = m.target := tgt_ticks m o _

theorem tgt_hit (m : Motor) (o : Bool) : (m.hitEndstop o).target = m.target := by
  unfold Motor.hitEndstop; split <;> rfl

theorem tgt_recompute (m : Motor) : m.recompute.target = m.target := by
  unfold Motor.recompute; split <;> rfl

theorem tgt_seekOne (n : Nat) (o : Bool) (m : Motor) (r : MRun) : (m.seekOne n o r).2.target = m.target := by
  unfold Motor.seekOne
  dsimp only
  split <;> exact tgt_run m o r

theorem tgt_seek (n : Nat) (o : Bool) (l : List MRun) : ∀ (m : Motor) (r : MRun), (m.seek n o r l).2.1.target = m.target := by
  induction l with
  | nil => intro m r; exact tgt_seekOne n o m r
  | cons r' t ih =>
    intro m r
    rw [Motor.seek]
    dsimp only
    split
    · exact tgt_seekOne n o m r
    · exact (ih _ _).trans (tgt_seekOne n o m r)

theorem tgt_change (m : Motor) (s : MState) : (m.changeState s).target = m.target := rfl

theorem tgt_calibrate (m : Motor) (i : MIn) : (m.calibrate i).1.target = m.target := by
  unfold Motor.calibrate
  dsimp only
  split
  · rfl
  split
  · rfl
  split
  · rfl
  split
  · dsimp only; split <;> exact tgt_seek _ _ _ _ _
  split
  · dsimp only; split <;> exact tgt_seek _ _ _ _ _
  split
  · dsimp only; split <;> exact tgt_seek _ _ _ _ _
  split
  · dsimp only; rw [tgt_change, tgt_hit]
  · rfl

theorem tgt_withdraw (m : Motor) (i : MIn) : (m.withdraw i).1.target = m.target := by
  unfold Motor.withdraw
  dsimp only
  split
  · rfl
  · dsimp only
    split
    · rw [tgt_change, tgt_hit]; exact tgt_seek _ _ _ _ _
    · exact tgt_seek _ _ _ _ _

theorem tgt_normalBin (m : Motor) (i : MIn) : (m.normalBin i).1.target = m.target := by
  unfold Motor.normalBin
  dsimp only
  generalize decide (m.target ≥ 50) = o
  generalize (if o = true then 100 else 0 : Nat) = k
  split
  · rfl
  split
  · rfl
  split
  · rw [tgt_recompute]; exact tgt_run m _ _
  · dsimp only
    split
    · show (Motor.hitEndstop _ _).target = _
      rw [tgt_hit]; exact tgt_run m _ _
    · exact tgt_run m _ _

theorem tgt_normalProp (m : Motor) (i : MIn) (r : Motor × List Drive) (h : m.normalProp i = some r) : r.1.target = m.target := by
  unfold Motor.normalProp at h
  have hrr : ∀ o, (m.run o i.first).recompute.target = m.target := fun o => (tgt_recompute _).trans (tgt_run m o _)
  split at h
  · cases h; rfl
  split at h
  · cases h
  dsimp only at h
  split at h
  · cases h
  split at h
  · cases h
  split at h
  · cases h; rfl
  split at h
  · cases h
    split
    · split
      · exact (tgt_hit _ _).trans (hrr _)
      · exact hrr _
    · split
      · exact (tgt_hit _ _).trans (hrr _)
      · exact hrr _
  · cases h; exact hrr _

theorem tgt_poll (m : Motor) (i : MIn) : (m.poll i).1.target = m.target := by
  unfold Motor.poll
  split
  · rfl
  split
  · exact (tgt_change _ _).trans (tgt_wiggle m i)
  · split
    · rfl
    · exact (tgt_change _ _).trans (tgt_wiggle m i)
  · exact tgt_withdraw m i
  · split
    · exact (tgt_change _ _).trans (tgt_wiggle m i)
    · rfl
  · split
    · exact tgt_calibrate m i
    · rfl
  · split
    · rfl
    · split
      · rename_i r h
        split at h
        · exact tgt_normalProp m i r h
        · cases h
      · exact tgt_normalBin m i
  · rfl

end OTR.Props
