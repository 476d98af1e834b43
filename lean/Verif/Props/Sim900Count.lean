import Verif.Props.Sim900Live
/-!
# Property C227: the SIM900 modem is restarted after at most 255 frames
-/

namespace OTR.Props
open OTR

/-- A frame is announced to the modem (`AT+CIPSEND`). -/
def isSend : SimOut → Bool | .send _ => true | _ => false

/-- Only queued frames: `sendRaw()` is not used. -/
def QueuedOnly (h : List (Nat × SimOp)) : Prop := ∀ x ∈ h, ∀ m ok, x.2 ≠ .sendRaw m ok

/-- On the way to a power pulse. -/
def simDown : SimSt → Bool
  | .init | .reset | .getState => true
  | _ => false

/-- Between the power pulse and the first idle state. -/
def simStarting : SimSt → Bool
  | .waitPwrHigh | .waitPwrLow | .startUp | .checkPin | .waitReg | .setApn | .startGprs | .getIp | .openUdp => true
  | _ => false

/-- `n` frames have been announced since the last power pulse. -/
structure SendInv (n : Nat) (s : Sim) : Prop where
  le : n ≤ 255
  up : simDown s.st = false → n ≤ s.msgCount
  starting : simStarting s.st = true → n = 0
  full : n = 255 → s.retryTimer = none ∧ (simDown s.st = false → s.st = .writePacket)

theorem sim_body_old (cfg : SimCfg) (s : Sim) (e : SimEnv) : (s.body cfg e).1.old = s.old := by
  unfold Sim.body
  cases s.st <;> simp only [Sim.setRetryLock, Sim.bump] <;> (repeat' split) <;> rfl

theorem simSend_body (cfg : SimCfg) (n : Nat) (s : Sim) (e : SimEnv) (h : SendInv n s) (hw : SimWf s) (hr : s.retryTimer = none) (hc : s.msgCount ≠ 255) :
    SendInv (if SimOut.pinHigh ∈ (s.body cfg e).2 then 0 else n + ((s.body cfg e).2.filter isSend).length) (s.body cfg e).1.onStateChange := by
  obtain ⟨h1, h2, h3, h4⟩ := h
  have hcnt := hw.cnt
  have hst : (s.body cfg e).1.onStateChange.st = (s.body cfg e).1.st := sim_onStateChange_st _
  have hmc : (s.body cfg e).1.onStateChange.msgCount = (s.body cfg e).1.msgCount := by unfold Sim.onStateChange; split <;> rfl
  have hrt : (s.body cfg e).1.retryTimer = none → (s.body cfg e).1.onStateChange.retryTimer = none := by
    intro h; unfold Sim.onStateChange; split
    · rfl
    · exact h
  have hne : simDown s.st = false → n ≠ 255 := fun h hn => by have := h2 h; omega
  refine ⟨?_, ?_, ?_, ?_⟩
  · unfold Sim.body
    cases hs : s.st <;> rw [hs] at h2 h3 hne <;> simp only <;> (repeat' split) <;>
      first
        | (simp [isSend, List.filter]; done)
        | (simp [isSend, List.filter]; omega)
        | (have := hne rfl; simp [isSend, List.filter]; omega)
  · rw [hst, hmc]
    unfold Sim.body
    cases hs : s.st <;> rw [hs] at h2 h3 hne <;> simp only [Sim.setRetryLock, Sim.bump] <;> (repeat' split) <;>
      first
        | (intro hx; cases hx; done)
        | (intro _; have := h2 rfl; simp [isSend, List.filter]; omega)
        | (intro _; have := h3 rfl; simp [isSend, List.filter]; omega)
        | (intro _; simp [isSend, List.filter]; done)
        | (simp_all [simDown]; done)
  · rw [hst]
    unfold Sim.body
    cases hs : s.st <;> rw [hs] at h2 h3 hne <;> simp only [Sim.setRetryLock, Sim.bump] <;> (repeat' split) <;>
      first
        | (intro hx; cases hx; done)
        | (intro _; have := h3 rfl; simp [isSend, List.filter]; omega)
        | (intro _; simp [isSend, List.filter]; done)
        | (simp_all [simStarting]; done)
  · rw [hst]
    intro hn
    have key : (s.body cfg e).1.st = .writePacket ∧ s.st = .initSend ∨ simDown (s.body cfg e).1.st = true ∧ simDown s.st = true ∧ (s.body cfg e).1.retryTimer = none := by
      revert hn
      unfold Sim.body
      cases hs : s.st <;> rw [hs] at h2 h3 hne <;> simp only [Sim.setRetryLock, Sim.bump] <;> (repeat' split) <;>
        first
          | (intro hx; have := hne rfl; simp [isSend, List.filter] at hx; omega)
          | (intro _; left; simp; done)
          | (intro _; right; simp [simDown, hr]; done)
          | (rename_i hx; exfalso; apply hx; simp; done)
          | (intro hx; simp at hx; done)
    rcases key with ⟨k1, k2⟩ | ⟨k1, _, k3⟩
    · refine ⟨?_, fun _ => k1⟩
      unfold Sim.onStateChange
      have ho := sim_body_old cfg s e
      have hold : s.old = .initSend := by
        rcases hw.old with h | h | h
        · rw [← h, k2]
        · rw [k2] at h; cases h
        · rw [k2] at h; cases h
      rw [if_pos (by rw [k1, ho, hold]; exact fun h => by cases h)]
    · exact ⟨hrt k3, fun h => by rw [k1] at h; cases h⟩

theorem simSend_inv (cfg : SimCfg) (h : List (Nat × SimOp)) (hq : QueuedOnly h) : SendInv (simCount cfg isSend h) (Sim.after cfg h) := by
  induction h with
  | nil => exact ⟨Nat.zero_le _, fun _ => Nat.zero_le _, fun _ => rfl, (fun h => by cases h)⟩
  | cons o h ih =>
    obtain ⟨t, o⟩ := o
    have ih := ih fun x hx => hq x (List.mem_cons_of_mem _ hx)
    have hw := sim_after_wf cfg h
    cases o with
    | begin => exact ⟨ih.le, (fun h => by cases h), (fun h => by cases h), fun h => ⟨(ih.full h).1, (fun h => by cases h)⟩⟩
    | fin => exact ih
    | sendRaw m ok => exact absurd rfl (hq (t, .sendRaw m ok) (List.mem_cons_self ..) m ok)
    | queue b =>
      obtain ⟨q1, _, q3, q4, _⟩ := sim_queue_after cfg h t b
      exact ⟨ih.le, by rw [q1, q3]; exact ih.up, by rw [q1]; exact ih.starting, by rw [q1, q4]; exact ih.full⟩
    | poll near r1 r2 oob =>
      have hp1 : Sim.after cfg ((t, .poll near r1 r2 oob) :: h) =
        ((Sim.after cfg h).poll cfg { sec := t % 60, near := near, r1 := r1, r2 := r2, oob := oob }).1 := rfl
      have hp2 : simCount cfg isSend ((t, .poll near r1 r2 oob) :: h) =
        (let out := ((Sim.after cfg h).poll cfg { sec := t % 60, near := near, r1 := r1, r2 := r2, oob := oob }).2
         if SimOut.pinHigh ∈ out then 0 else simCount cfg isSend h + (out.filter isSend).length) := rfl
      rw [hp1, hp2]
      generalize simCount cfg isSend h = n at ih
      generalize Sim.after cfg h = s at ih hw
      rcases sim_poll_cases cfg s { sec := t % 60, near := near, r1 := r1, r2 := r2, oob := oob } with
        ⟨t', hrt, h'⟩ | ⟨hrt, _, h'⟩ | ⟨_, _, h'⟩ | ⟨hrt, hc, h'⟩
      · rw [h']
        have hn : n ≠ 255 := fun hn => by rw [(ih.full hn).1] at hrt; cases hrt
        have hf := (sim_lockOut_fields s t' (t % 60)).2.2.2.2.2
        have hm : (s.retryLockOut t' (t % 60)).msgCount = s.msgCount := by
          unfold Sim.retryLockOut; split
          · rfl
          · split <;> rfl
        refine ⟨ih.le, ?_, ?_, fun h => absurd h hn⟩
        · dsimp only; rw [hm]
          rcases hf with hf | hf
          · rw [hf]; exact ih.up
          · rw [hf]; intro h; cases h
        · dsimp only
          rcases hf with hf | hf
          · rw [hf]; exact ih.starting
          · rw [hf]; intro h; cases h
      · rw [h']
        exact ⟨ih.le, (fun h => by cases h), (fun h => by cases h), fun _ => ⟨hrt, (fun h => by cases h)⟩⟩
      · rw [h']; exact ih
      · rw [h']; exact simSend_body cfg n s _ ih hw hrt hc

/-- **C227.** Between two power pulses of the modem at most 255 frames are announced by `poll()`, whatever the modem answers. -/
theorem C227_at_most_255 (cfg : SimCfg) (h : List (Nat × SimOp)) (hq : QueuedOnly h) : simCount cfg isSend h ≤ 255 := (simSend_inv cfg h hq).le

/-- At most `k` turns from a power pulse. -/
def SimDue (k : Nat) (s : Sim) : Prop :=
  s.retryTimer = none ∧ (s.msgCount = 255 ∧ 3 ≤ k ∨ s.msgCount ≠ 255 ∧ ((s.st = .init ∨ s.st = .reset) ∧ 2 ≤ k ∨ s.st = .getState ∧ 1 ≤ k))

theorem due_step (cfg : SimCfg) (k t : Nat) (r1 r2 : Bytes) (oob : Byte) (s : Sim) (h : SimDue (k + 1) s) :
    (s.op cfg t (.poll true r1 r2 oob)).2 = [.at, .pinHigh] ∨
    (s.op cfg t (.poll true r1 r2 oob)).2 = [] ∧ SimDue k (s.op cfg t (.poll true r1 r2 oob)).1 := by
  obtain ⟨hr, h⟩ := h
  unfold Sim.op Sim.poll
  dsimp only
  rw [hr]
  dsimp only
  rcases h with ⟨hc, hk⟩ | ⟨hc, ⟨hs, hk⟩ | ⟨hs, hk⟩⟩
  · rw [if_pos hc]
    exact Or.inr ⟨rfl, (by first | exact hr | rfl), Or.inr ⟨by simp, Or.inl ⟨Or.inr rfl, by omega⟩⟩⟩
  · rw [if_neg hc, if_neg (by simp)]
    right
    rcases hs with hs | hs
    all_goals
      unfold Sim.body; rw [hs]; dsimp only
      refine ⟨rfl, ?_, Or.inr ⟨?_, Or.inr ⟨?_, by omega⟩⟩⟩
      · unfold Sim.onStateChange; split
        · rfl
        · first | rfl | exact hr
      · unfold Sim.onStateChange; split <;> first | exact hc | simp
      · rw [sim_onStateChange_st]
  · rw [if_neg hc, if_neg (by simp)]
    left
    unfold Sim.body; rw [hs]

/-- A poll that takes its turn. -/
def simTurn (o : SimOp) : Prop := ∃ r1 r2 oob, o = .poll true r1 r2 oob

/-- **C227 (restart).** Once 255 frames have been announced since the last power pulse, the third further `poll()` near the start of
the major cycle at the latest pulses the power pin again, whatever the modem answers, and no frame is announced before. -/
theorem C227_restart (cfg : SimCfg) (h : List (Nat × SimOp)) (hq : QueuedOnly h) (hn : simCount cfg isSend h = 255)
    (t1 t2 t3 : Nat) (o1 o2 o3 : SimOp) (h1 : simTurn o1) (h2 : simTurn o2) (h3 : simTurn o3) :
    (SimOut.pinHigh ∈ Sim.outs cfg h t1 o1 ∨ SimOut.pinHigh ∈ Sim.outs cfg ((t1, o1) :: h) t2 o2 ∨
      SimOut.pinHigh ∈ Sim.outs cfg ((t2, o2) :: (t1, o1) :: h) t3 o3) ∧
    (SimOut.pinHigh ∉ Sim.outs cfg h t1 o1 → Sim.outs cfg h t1 o1 = [] ∧
      (SimOut.pinHigh ∉ Sim.outs cfg ((t1, o1) :: h) t2 o2 → Sim.outs cfg ((t1, o1) :: h) t2 o2 = [])) := by
  obtain ⟨a1, b1, c1, rfl⟩ := h1
  obtain ⟨a2, b2, c2, rfl⟩ := h2
  obtain ⟨a3, b3, c3, rfl⟩ := h3
  have hi := simSend_inv cfg h hq
  have hw := sim_after_wf cfg h
  rw [hn] at hi
  obtain ⟨hr, hs⟩ := hi.full rfl
  have hd : SimDue 3 (Sim.after cfg h) := by
    refine ⟨hr, ?_⟩
    by_cases hmc : (Sim.after cfg h).msgCount = 255
    · exact Or.inl ⟨hmc, Nat.le_refl 3⟩
    · refine Or.inr ⟨hmc, ?_⟩
      cases hdn : simDown (Sim.after cfg h).st with
      | false => have := hi.up hdn; have := hw.cnt; omega
      | true =>
        revert hdn
        cases (Sim.after cfg h).st <;> simp [simDown]
  rcases due_step cfg 2 t1 a1 b1 c1 _ hd with e1 | ⟨e1, hd⟩
  · have e : Sim.outs cfg h t1 (.poll true a1 b1 c1) = [.at, .pinHigh] := e1
    rw [e]; exact ⟨Or.inl (by simp), fun hx => absurd (by simp) hx⟩
  · have e : Sim.outs cfg h t1 (.poll true a1 b1 c1) = [] := e1
    rw [e]
    rcases due_step cfg 1 t2 a2 b2 c2 _ hd with e2 | ⟨e2, hd⟩
    · have e' : Sim.outs cfg ((t1, .poll true a1 b1 c1) :: h) t2 (.poll true a2 b2 c2) = [.at, .pinHigh] := e2
      rw [e']; exact ⟨Or.inr (Or.inl (by simp)), fun _ => ⟨rfl, fun hx => absurd (by simp) hx⟩⟩
    · have e' : Sim.outs cfg ((t1, .poll true a1 b1 c1) :: h) t2 (.poll true a2 b2 c2) = [] := e2
      rw [e']
      rcases due_step cfg 0 t3 a3 b3 c3 _ hd with e3 | ⟨_, hd⟩
      · have e'' : Sim.outs cfg ((t2, .poll true a2 b2 c2) :: (t1, .poll true a1 b1 c1) :: h) t3 (.poll true a3 b3 c3) = [.at, .pinHigh] := e3
        rw [e'']; exact ⟨Or.inr (Or.inr (by simp)), fun _ => ⟨rfl, fun _ => rfl⟩⟩
      · rcases hd.2 with h | h
        · omega
        · rcases h.2 with h | h <;> omega

/-! ### A concrete history that reaches the limit -/

/-- A frame queued between sending one frame and looking for the next, `k` times (newest call first). -/
def simFrames : Nat → List (Nat × SimOp)
  | 0 => simSession.reverse
  | k + 1 => (42, simP []) :: (40, simP simA) :: (39, SimOp.queue (some [1, 2, 3])) :: simFrames k

theorem frames_state : ∀ k, k ≤ 253 → simCount simCfg0 isSend (simFrames k) = k + 1 ∧
    Sim.after simCfg0 (simFrames k) = { Sim.after simCfg0 simSession.reverse with msgCount := k + 1 }
  | 0, _ => by decide +kernel
  | k + 1, hk => by
    obtain ⟨h1, h2⟩ := frames_state k (by omega)
    have hS : Sim.after simCfg0 simSession.reverse =
      { st := .initSend, old := .initSend, avail := false, pin := false, powerTimer := 2, msgCount := 1, retries := 10, retryTimer := none,
        queued := 0, msgLen := 3, buf := [1, 2, 3] ++ List.replicate 61 0 } := by decide +kernel
    rw [hS] at h2 ⊢
    have hm : (k + 1 + 1) % 256 = k + 2 := by omega
    have n1 : k + 1 ≠ 255 := by omega
    have n2 : k + 2 ≠ 255 := by omega
    constructor
    · simp only [simFrames, simCount, Sim.outs, Sim.after, h2, Sim.op, simP, h1]
      simp [Sim.queueToSend, Sim.poll, Sim.body, Sim.bump, Sim.onStateChange, n1, n2, hm, isSend, List.filter]
    · simp only [simFrames, Sim.after, h2, Sim.op, simP]
      simp [Sim.queueToSend, Sim.poll, Sim.body, Sim.bump, Sim.onStateChange, n1, n2, hm]

theorem frames_queued : ∀ k, QueuedOnly (simFrames k)
  | 0 => by intro x hx m ok; simp only [simFrames, simSession, simStart, simP] at hx; revert hx; simp; rintro (h | h | h | h | h | h | h | h | h | h | h | h | h | h | h | h | h) <;> subst h <;> simp
  | k + 1 => by
    intro x hx m ok
    simp only [simFrames, simP, List.mem_cons] at hx
    rcases hx with h | h | h | h
    · subst h; simp
    · subst h; simp
    · subst h; simp
    · exact frames_queued k x h m ok

/-- The limit is reached: 255 frames are announced after one power pulse. -/
theorem C227_reached : QueuedOnly ((40, simP simA) :: (39, SimOp.queue (some [1, 2, 3])) :: simFrames 253) ∧
    simCount simCfg0 isSend ((40, simP simA) :: (39, SimOp.queue (some [1, 2, 3])) :: simFrames 253) = 255 := by
  obtain ⟨h1, h2⟩ := frames_state 253 (by omega)
  refine ⟨?_, ?_⟩
  · intro x hx m ok
    simp only [simP, List.mem_cons] at hx
    rcases hx with h | h | h
    · subst h; simp
    · subst h; simp
    · exact frames_queued 253 x h m ok
  · simp only [simCount, Sim.outs, Sim.after, h2, Sim.op, simP, h1]
    decide +kernel

/-- Without that restriction there is no limit: `sendRaw()` counts in the same 8-bit counter but does not look at it, so if `poll()`
is not called while the counter is exactly 255 any number of frames goes out without a restart. -/
theorem C227_sendRaw_unlimited (cfg : SimCfg) (m : Bytes) : ∀ k, simCount cfg isSend (List.replicate k (0, SimOp.sendRaw m true)) = k
  | 0 => rfl
  | k + 1 => by
    have := C227_sendRaw_unlimited cfg m k
    simp only [List.replicate_succ, simCount, Sim.outs, Sim.op, this]
    simp [isSend, List.filter]

end OTR.Props
