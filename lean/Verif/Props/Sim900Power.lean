import Verif.Props.Sim900

/-!
# C127-C129: the GPRS link only sends when connected, times its power pulses, and bounds its retries
-/

namespace OTR.Props

/-! ## C127 -/

/-- Reply in which the character after the first space is `C` (as in `STATE: CONNECT OK`). -/
def SimSaysConnected (r : Bytes) : Prop := ∃ pre rest, r = pre ++ 32 :: 67 :: rest ∧ (32 : Byte) ∉ pre

/-- Since the modem was last pulsed (or the link restarted), has a status query been answered "connected"? -/
def SimConnected (cfg : SimCfg) : List (Nat × SimOp) → Prop
  | [] => False
  | (t, .poll near r1 r2 oob) :: h =>
    SimOut.pinHigh ∉ Sim.outs cfg h t (.poll near r1 r2 oob) ∧
      ((SimOut.status ∈ Sim.outs cfg h t (.poll near r1 r2 oob) ∧ SimSaysConnected r1) ∨ SimConnected cfg h)
  | (_, .begin) :: _ => False
  | _ :: h => SimConnected cfg h

/-- No reply of the history has a space as its 64th character (such a reply makes the link read past its buffer: C131). -/
def SimNoOverrun (h : List (Nat × SimOp)) : Prop :=
  ∀ t near r1 r2 oob, (t, SimOp.poll near r1 r2 oob) ∈ h → r1[63]? ≠ some 32

theorem getRespFrom_some (c : Byte) (l : Bytes) (i o : Nat) (h : getRespFrom c l i = some o) :
    ∃ pre rest, l = pre ++ c :: rest ∧ c ∉ pre ∧ o = i + pre.length + 1 := by
  induction l generalizing i with
  | nil => cases h
  | cons x t ih =>
    unfold getRespFrom at h
    by_cases hx : x = c
    · rw [if_pos hx] at h
      exact ⟨[], t, by rw [hx]; rfl, by simp, by injection h with h; simp; omega⟩
    · rw [if_neg hx] at h
      obtain ⟨pre, rest, h1, h2, h3⟩ := ih _ h
      refine ⟨x :: pre, rest, by rw [h1]; rfl, ?_, by simp; omega⟩
      simp only [List.mem_cons, not_or]
      exact ⟨fun hh => hx hh.symm, h2⟩

theorem getRespFrom_of (c : Byte) (pre rest : Bytes) (i : Nat) (h : c ∉ pre) :
    getRespFrom c (pre ++ c :: rest) i = some (i + pre.length + 1) := by
  induction pre generalizing i with
  | nil => simp [getRespFrom]
  | cons x t ih =>
    simp only [List.mem_cons, not_or] at h
    simp only [List.cons_append, getRespFrom]
    rw [if_neg (fun hh => h.1 hh.symm), ih _ h.2]
    simp; omega

theorem readMany_get (n : Nat) (r : Bytes) (i : Nat) (hi : i < n) :
    (readMany n r)[i]? = some (if i < r.length then r[i]?.getD 0 else 0) := by
  unfold readMany
  rw [List.getElem?_take, if_pos hi]
  by_cases h : i < r.length
  · rw [if_pos h, List.getElem?_append_left h, List.getElem?_eq_getElem h]; rfl
  · rw [if_neg h, List.getElem?_append_right (by omega), List.getElem?_replicate, if_pos (by omega)]

theorem readMany_length (n : Nat) (r : Bytes) : (readMany n r).length = n := by
  unfold readMany; simp

theorem udpStatus_connected (r : Bytes) (oob : Byte) (h : udpStatus r oob = 1) (ho : r[63]? ≠ some 32) :
    SimSaysConnected r := by
  unfold udpStatus at h
  cases hg : getResp (readMany 64 r) 32 with
  | none => rw [hg] at h; simp at h
  | some o =>
    rw [hg] at h
    dsimp only at h
    have h0 : cutAt (readMany 64 r) o 0 oob = 67 := by
      by_cases hc : cutAt (readMany 64 r) o 0 oob = 67
      · exact hc
      · rw [if_neg hc] at h
        split at h
        · simp at h
        · split at h <;> simp at h
    obtain ⟨pre, rest, h1, h2, h3⟩ := getRespFrom_some _ _ _ _ hg
    have hlen := readMany_length 64 r
    have hpl : pre.length + 1 + rest.length = 64 := by rw [h1] at hlen; simp at hlen; omega
    have hsp : (readMany 64 r)[pre.length]? = some 32 := by rw [h1]; simp
    rw [readMany_get 64 r _ (by omega)] at hsp
    have hpr : pre.length < r.length := by
      by_cases hx : pre.length < r.length
      · exact hx
      · rw [if_neg hx] at hsp; simp at hsp
    rw [if_pos hpr] at hsp
    have hsp' : r[pre.length]? = some 32 := by
      rw [List.getElem?_eq_getElem hpr] at hsp ⊢; simpa using hsp
    have h63 : pre.length ≠ 63 := by intro hh; rw [hh] at hsp'; exact ho hsp'
    -- the character after the space is inside the buffer
    unfold cutAt at h0
    have ho' : o + 0 = pre.length + 1 := by omega
    rw [ho', readMany_get 64 r _ (by omega)] at h0
    simp only [Option.getD_some] at h0
    have hpr2 : pre.length + 1 < r.length := by
      by_cases hx : pre.length + 1 < r.length
      · exact hx
      · rw [if_neg hx] at h0; simp at h0
    rw [if_pos hpr2] at h0
    have hC : r[pre.length + 1]? = some 67 := by
      rw [List.getElem?_eq_getElem hpr2] at h0 ⊢; simpa using h0
    -- rebuild
    have hpre : r.take pre.length = pre := by
      have e1 : (readMany 64 r).take pre.length = pre := by rw [h1]; simp
      have e2 : (readMany 64 r).take pre.length = r.take pre.length := by
        unfold readMany
        rw [List.take_take, List.take_append_of_le_length (by omega)]
        congr 1; omega
      rw [← e2, e1]
    refine ⟨pre, r.drop (pre.length + 2), ?_, h2⟩
    have hd : r = r.take pre.length ++ r.drop pre.length := (List.take_append_drop _ _).symm
    rw [hpre] at hd
    have hd2 : r.drop pre.length = 32 :: 67 :: r.drop (pre.length + 2) := by
      rw [List.drop_eq_getElem_cons hpr, List.drop_eq_getElem_cons hpr2]
      rw [List.getElem?_eq_getElem hpr] at hsp'
      rw [List.getElem?_eq_getElem hpr2] at hC
      injection hsp' with hsp'; injection hC with hC
      rw [hsp', hC]
    rw [hd2] at hd; exact hd

/-- How the sending states are entered in one call of `poll()`. -/
theorem sim_poll_sending (cfg : SimCfg) (s : Sim) (e : SimEnv) :
    let p := s.poll cfg e
    (p.1.st = .initSend ∨ p.1.st = .writePacket) →
      SimOut.pinHigh ∉ p.2 ∧
      ((s.st = .initSend ∨ s.st = .writePacket) ∨
        (s.st = .waitUdp ∧ udpStatus e.r1 e.oob = 1 ∧ p.2 = [.status])) := by
  dsimp only
  intro h
  rcases sim_poll_cases cfg s e with ⟨t, _, h'⟩ | ⟨_, _, h'⟩ | ⟨_, _, h'⟩ | ⟨_, _, h'⟩
  · rw [h'] at h ⊢; dsimp only at h ⊢
    rcases (sim_lockOut_fields s t e.sec).2.2.2.2.2 with d | d
    · rw [d] at h; exact ⟨by simp, .inl h⟩
    · rw [d] at h; simp at h
  · rw [h'] at h; simp at h
  · rw [h'] at h ⊢; exact ⟨by simp, .inl h⟩
  · rw [h'] at h ⊢; dsimp only at h ⊢
    rw [sim_onStateChange_st] at h
    revert h
    unfold Sim.body
    cases hst : s.st
    case waitUdp =>
      dsimp only
      by_cases h1 : udpStatus e.r1 e.oob = 1
      · simp [h1]
      · by_cases h2 : udpStatus e.r1 e.oob = 2 <;> simp [h1, h2, Sim.setRetryLock, hst]
    case initSend =>
      dsimp only
      by_cases h : 0 < s.queued <;> simp [h]
    case writePacket => simp
    all_goals dsimp only [Sim.setRetryLock]
    all_goals first
      | (intro h; exfalso; revert h; (repeat' split) <;> simp [hst]; done)
      | (intro h; exfalso; revert h; simp [hst]; done)

theorem sim_poll_send (cfg : SimCfg) (s : Sim) (e : SimEnv) (n : Nat) (h : SimOut.send n ∈ (s.poll cfg e).2) :
    s.st = .initSend := by
  rcases sim_poll_cases cfg s e with ⟨t, _, h'⟩ | ⟨_, _, h'⟩ | ⟨_, _, h'⟩ | ⟨_, _, h'⟩
  · rw [h'] at h; cases h
  · rw [h'] at h; cases h
  · rw [h'] at h; cases h
  · rw [h'] at h; dsimp only at h
    revert h
    unfold Sim.body
    cases hst : s.st <;> dsimp only <;> (try simp; done)
    all_goals intro h; exfalso; revert h; (repeat' split) <;> simp

/-- **C127.** Polling announces a frame to the modem only if, since the modem was last power-pulsed and the link last started,
a status query was answered "connected". -/
theorem C127_sends_only_connected (cfg : SimCfg) (h : List (Nat × SimOp)) (t : Nat) (near : Bool) (r1 r2 : Bytes) (oob : Byte)
    (n : Nat) (hn : SimNoOverrun h) (hs : SimOut.send n ∈ Sim.outs cfg h t (.poll near r1 r2 oob)) : SimConnected cfg h := by
  have key : ∀ h : List (Nat × SimOp), SimNoOverrun h →
      ((Sim.after cfg h).st = .initSend ∨ (Sim.after cfg h).st = .writePacket) → SimConnected cfg h := by
    intro h
    induction h with
    | nil => intro _ h; rcases h with h | h <;> cases h
    | cons o h ih =>
      intro hn hst
      have hn' : SimNoOverrun h := fun t a b c d hm => hn t a b c d (List.mem_cons_of_mem _ hm)
      obtain ⟨t, o⟩ := o
      cases o with
      | begin => rcases hst with hst | hst <;> cases hst
      | fin => exact ih hn' hst
      | sendRaw m ok => exact ih hn' hst
      | queue b =>
        have : (Sim.after cfg ((t, SimOp.queue b) :: h)).st = (Sim.after cfg h).st := by
          simp only [Sim.after, Sim.op, Sim.queueToSend]
          cases b with
          | none => rfl
          | some m => dsimp only; split <;> rfl
        rw [this] at hst
        exact ih hn' hst
      | poll near r1 r2 oob =>
        obtain ⟨a, b⟩ := sim_poll_sending cfg (Sim.after cfg h) { sec := t % 60, near := near, r1 := r1, r2 := r2, oob := oob } hst
        refine ⟨a, ?_⟩
        rcases b with b | ⟨_, b, c⟩
        · exact .inr (ih hn' b)
        · refine .inl ⟨?_, udpStatus_connected r1 oob b (hn t near r1 r2 oob (List.mem_cons_self))⟩
          show SimOut.status ∈ ((Sim.after cfg h).poll cfg _).2
          rw [c]; simp
  exact key h hn (.inl (sim_poll_send cfg _ _ n hs))

/-- The session meets the hypotheses of C127 (its 16th call announces the frame). -/
example : SimOut.send 3 ∈ Sim.outs simCfg0 ((simSession.take 15).reverse) 36 (simP simA) := by decide +kernel

/-! ## C128 -/

/-- Time of the most recent call that raised the power pin. -/
def simHighAt (cfg : SimCfg) : List (Nat × SimOp) → Option Nat
  | [] => none
  | (t, o) :: h => if SimOut.pinHigh ∈ Sim.outs cfg h t o then some t else simHighAt cfg h

/-- Times never go backwards along the history. -/
def SimOrdered : List (Nat × SimOp) → Prop
  | [] => True
  | [_] => True
  | (t, _) :: (t', o) :: h => t' ≤ t ∧ SimOrdered ((t', o) :: h)

/-- Time of the newest call. -/
def simNow : List (Nat × SimOp) → Nat
  | [] => 0
  | (t, _) :: _ => t

theorem SimOrdered.tail {t : Nat} {o : SimOp} {h : List (Nat × SimOp)} (ho : SimOrdered ((t, o) :: h)) :
    simNow h ≤ t ∧ SimOrdered h := by
  cases h with
  | nil => exact ⟨Nat.zero_le _, trivial⟩
  | cons x h => exact ho

/-- How the power states and the pin change in one turn. -/
theorem sim_body_power (cfg : SimCfg) (s : Sim) (e : SimEnv) :
    let p := s.body cfg e
    (s.st = .getState ∧ p.1.st = .waitPwrHigh ∧ p.1.powerTimer = e.sec ∧ p.2 = [.at, .pinHigh] ∧
      p.1.msgCount = s.msgCount ∧ p.1.retryTimer = s.retryTimer) ∨
    (s.st = .waitPwrHigh ∧ p.1.st = .waitPwrHigh ∧ p.1 = s ∧ p.2 = []) ∨
    (s.st = .waitPwrHigh ∧ waitedLong s.powerTimer 2 e.sec = true ∧ p.1.st = .waitPwrLow ∧ p.1.powerTimer = s.powerTimer ∧
      p.2 = [.pinLow] ∧ p.1.msgCount = s.msgCount ∧ p.1.retryTimer = s.retryTimer) ∨
    (s.st = .waitPwrLow ∧ p.1.st = .waitPwrLow ∧ p.1 = s ∧ p.2 = []) ∨
    (s.st = .waitPwrLow ∧ waitedLong s.powerTimer 12 e.sec = true ∧ p.1.st = .startUp ∧ p.2 = []) ∨
    (s.st ≠ .getState ∧ s.st ≠ .waitPwrHigh ∧ s.st ≠ .waitPwrLow ∧ p.1.st ≠ .waitPwrHigh ∧ p.1.st ≠ .waitPwrLow ∧
      SimOut.pinHigh ∉ p.2 ∧ SimOut.pinLow ∉ p.2) := by
  dsimp only
  unfold Sim.body
  cases hst : s.st
  case getState => left; simp
  case waitPwrHigh =>
    dsimp only
    cases waitedLong s.powerTimer 2 e.sec
    · right; left; simp [hst]
    · right; right; left; simp
  case waitPwrLow =>
    dsimp only
    cases waitedLong s.powerTimer 12 e.sec
    · right; right; right; left; simp [hst]
    · right; right; right; right; left; simp
  case panic => simp [hst]
  case waitUdp => dsimp only; (repeat' split) <;> simp [Sim.setRetryLock, hst]
  all_goals dsimp only [Sim.setRetryLock]
  all_goals first
    | (simp; done)
    | (right; right; right; right; right; (repeat' split) <;> simp; done)

theorem waitedLong_real (T t d : Nat) (hT : T ≤ t) (h : waitedLong (T % 60) d (t % 60) = true) : T + d + 1 ≤ t := by
  unfold waitedLong elapsedLT at h
  simp only [decide_eq_true_eq] at h
  split at h <;> omega

/-- Whether the link is inside a power pulse, with the pulse's start time. -/
structure SimPowInv (cfg : SimCfg) (h : List (Nat × SimOp)) : Prop where
  high : (Sim.after cfg h).st = .waitPwrHigh ∨ (Sim.after cfg h).st = .waitPwrLow →
    ∃ T, simHighAt cfg h = some T ∧ T ≤ simNow h ∧ (Sim.after cfg h).powerTimer = T % 60

theorem sim_queue_after (cfg : SimCfg) (h : List (Nat × SimOp)) (t : Nat) (b : Option Bytes) :
    (Sim.after cfg ((t, .queue b) :: h)).st = (Sim.after cfg h).st ∧
    (Sim.after cfg ((t, .queue b) :: h)).powerTimer = (Sim.after cfg h).powerTimer ∧
    (Sim.after cfg ((t, .queue b) :: h)).msgCount = (Sim.after cfg h).msgCount ∧
    (Sim.after cfg ((t, .queue b) :: h)).retryTimer = (Sim.after cfg h).retryTimer ∧
    (Sim.after cfg ((t, .queue b) :: h)).retries = (Sim.after cfg h).retries ∧
    (Sim.after cfg ((t, .queue b) :: h)).old = (Sim.after cfg h).old := by
  simp only [Sim.after, Sim.op, Sim.queueToSend]
  cases b with
  | none => simp
  | some m => dsimp only; split <;> simp

theorem sim_pow_inv (cfg : SimCfg) (h : List (Nat × SimOp)) (ho : SimOrdered h) : SimPowInv cfg h := by
  induction h with
  | nil => exact ⟨fun h => by rcases h with h | h <;> cases h⟩
  | cons o h ih =>
    obtain ⟨t, o⟩ := o
    obtain ⟨hle, ho'⟩ := ho.tail
    have ih := (ih ho').high
    refine ⟨fun hst => ?_⟩
    have keep : (SimOut.pinHigh ∉ Sim.outs cfg h t o) →
        ((Sim.after cfg h).st = .waitPwrHigh ∨ (Sim.after cfg h).st = .waitPwrLow) →
        (Sim.after cfg ((t, o) :: h)).powerTimer = (Sim.after cfg h).powerTimer →
        ∃ T, simHighAt cfg ((t, o) :: h) = some T ∧ T ≤ simNow ((t, o) :: h) ∧
          (Sim.after cfg ((t, o) :: h)).powerTimer = T % 60 := by
      intro h1 h2 h3
      obtain ⟨T, a, b, c⟩ := ih h2
      refine ⟨T, ?_, Nat.le_trans b hle, by rw [h3]; exact c⟩
      simp only [simHighAt]; rw [if_neg h1]; exact a
    cases o with
    | begin => rcases hst with hst | hst <;> cases hst
    | fin => exact keep (by simp [Sim.outs, Sim.op, Sim.fin]) hst rfl
    | sendRaw m ok => exact keep (by cases ok <;> simp [Sim.outs, Sim.op]) hst rfl
    | queue b =>
      obtain ⟨q1, q2, _⟩ := sim_queue_after cfg h t b
      rw [q1] at hst
      exact keep (by simp [Sim.outs, Sim.op]) hst q2
    | poll near r1 r2 oob =>
      have hp1 : Sim.after cfg ((t, .poll near r1 r2 oob) :: h) =
        ((Sim.after cfg h).poll cfg { sec := t % 60, near := near, r1 := r1, r2 := r2, oob := oob }).1 := rfl
      have hp2 : Sim.outs cfg h t (.poll near r1 r2 oob) =
        ((Sim.after cfg h).poll cfg { sec := t % 60, near := near, r1 := r1, r2 := r2, oob := oob }).2 := rfl
      rcases sim_poll_cases cfg (Sim.after cfg h) { sec := t % 60, near := near, r1 := r1, r2 := r2, oob := oob } with
        ⟨t', _, h'⟩ | ⟨_, _, h'⟩ | ⟨_, _, h'⟩ | ⟨_, _, h'⟩
      · rw [h'] at hp1 hp2
        obtain ⟨_, _, _, _, f5, f6⟩ := sim_lockOut_fields (Sim.after cfg h) t' (t % 60)
        refine keep (by rw [hp2]; simp) ?_ (by rw [hp1]; exact f5)
        rw [hp1] at hst
        rcases f6 with f6 | f6
        · dsimp only at hst; rw [f6] at hst; exact hst
        · dsimp only at hst; rw [f6] at hst; simp at hst
      · rw [h'] at hp1; rw [hp1] at hst; simp at hst
      · rw [h'] at hp1 hp2
        rw [hp1] at hst
        exact keep (by rw [hp2]; simp) hst (by rw [hp1])
      · rw [h'] at hp1 hp2
        dsimp only at hp1 hp2
        have hst' := hst
        rw [hp1, sim_onStateChange_st] at hst
        rcases sim_body_power cfg (Sim.after cfg h) { sec := t % 60, near := near, r1 := r1, r2 := r2, oob := oob } with
          ⟨_, _, b, c, _⟩ | ⟨a, b, c, d⟩ | ⟨a, _, _, d, f, _⟩ | ⟨a, b, c, d⟩ | ⟨_, _, b, _⟩ | ⟨_, _, _, b, c, _⟩
        · refine ⟨t, ?_, Nat.le_refl _, by rw [hp1, sim_onStateChange_power]; exact b⟩
          simp only [simHighAt]; rw [hp2, c]; simp
        · exact keep (by rw [hp2, d]; simp) (.inl a) (by rw [hp1, sim_onStateChange_power, c])
        · exact keep (by rw [hp2, f]; simp) (.inl a) (by rw [hp1, sim_onStateChange_power, d])
        · exact keep (by rw [hp2, d]; simp) (.inr a) (by rw [hp1, sim_onStateChange_power, c])
        · rw [b] at hst; simp at hst
        · rcases hst with hst | hst
          · exact absurd hst b
          · exact absurd hst c

/-- **C128.** Whatever the schedule, polling lowers the power pin only when at least 3 seconds of real time have passed
since it was last raised: the modem's power key is always pressed for longer than 2 s. -/
theorem C128_pulse_length (cfg : SimCfg) (h : List (Nat × SimOp)) (t : Nat) (near : Bool) (r1 r2 : Bytes) (oob : Byte)
    (ho : SimOrdered ((t, .poll near r1 r2 oob) :: h))
    (hl : SimOut.pinLow ∈ Sim.outs cfg h t (.poll near r1 r2 oob)) :
    ∃ T, simHighAt cfg h = some T ∧ T + 3 ≤ t := by
  obtain ⟨hle, ho'⟩ := ho.tail
  have hi := (sim_pow_inv cfg h ho').high
  have hp2 : Sim.outs cfg h t (.poll near r1 r2 oob) =
    ((Sim.after cfg h).poll cfg { sec := t % 60, near := near, r1 := r1, r2 := r2, oob := oob }).2 := rfl
  rw [hp2] at hl
  rcases sim_poll_cases cfg (Sim.after cfg h) { sec := t % 60, near := near, r1 := r1, r2 := r2, oob := oob } with
    ⟨t', _, h'⟩ | ⟨_, _, h'⟩ | ⟨_, _, h'⟩ | ⟨_, _, h'⟩
  · rw [h'] at hl; cases hl
  · rw [h'] at hl; cases hl
  · rw [h'] at hl; cases hl
  · rw [h'] at hl
    dsimp only at hl
    rcases sim_body_power cfg (Sim.after cfg h) { sec := t % 60, near := near, r1 := r1, r2 := r2, oob := oob } with
      ⟨_, _, _, c, _⟩ | ⟨_, _, _, d⟩ | ⟨a, w, _, _, _, _⟩ | ⟨_, _, _, d⟩ | ⟨_, _, _, d⟩ | ⟨_, _, _, _, _, _, d⟩
    · rw [c] at hl; simp at hl
    · rw [d] at hl; simp at hl
    · obtain ⟨T, h1, h2, h3⟩ := hi (.inl a)
      rw [h3] at w
      exact ⟨T, h1, by have := waitedLong_real T t 2 (by omega) w; omega⟩
    · rw [d] at hl; simp at hl
    · rw [d] at hl; simp at hl
    · exact absurd hl d

/-- Time of the most recent power pulse not followed by `begin()` or a direct `sendRaw()`. -/
def simPulse (cfg : SimCfg) : List (Nat × SimOp) → Option Nat
  | [] => none
  | (_, .begin) :: _ => none
  | (_, .sendRaw _ _) :: _ => none
  | (t, o) :: h => if SimOut.pinHigh ∈ Sim.outs cfg h t o then some t else simPulse cfg h

theorem sim_pulse_inv (cfg : SimCfg) (h : List (Nat × SimOp)) (ho : SimOrdered h) (T : Nat) (hT : simPulse cfg h = some T) :
    (((Sim.after cfg h).st = .waitPwrHigh ∨ (Sim.after cfg h).st = .waitPwrLow) ∧ (Sim.after cfg h).retryTimer = none ∧
      (Sim.after cfg h).msgCount ≠ 255 ∧ simHighAt cfg h = some T) ∨ T + 13 ≤ simNow h := by
  induction h generalizing T with
  | nil => cases hT
  | cons o h ih =>
    obtain ⟨t, o⟩ := o
    obtain ⟨hle, ho'⟩ := ho.tail
    have ih := ih ho'
    have hpow := (sim_pow_inv cfg h ho').high
    cases o with
    | begin => cases hT
    | sendRaw m ok => cases hT
    | fin =>
      have : simPulse cfg h = some T := by simpa [simPulse, Sim.outs, Sim.op, Sim.fin] using hT
      rcases ih T this with ⟨a, b, c, d⟩ | a
      · refine .inl ⟨a, b, c, ?_⟩
        simp only [simHighAt]; rw [if_neg (by simp [Sim.outs, Sim.op, Sim.fin])]; exact d
      · exact .inr (by simp only [simNow]; omega)
    | queue b =>
      have : simPulse cfg h = some T := by simpa [simPulse, Sim.outs, Sim.op] using hT
      obtain ⟨q1, _, q3, q4, _⟩ := sim_queue_after cfg h t b
      rcases ih T this with ⟨a, b', c, d⟩ | a
      · refine .inl ⟨by rw [q1]; exact a, by rw [q4]; exact b', by rw [q3]; exact c, ?_⟩
        simp only [simHighAt]; rw [if_neg (by simp [Sim.outs, Sim.op])]; exact d
      · exact .inr (by simp only [simNow]; omega)
    | poll near r1 r2 oob =>
      have hp1 : Sim.after cfg ((t, .poll near r1 r2 oob) :: h) =
        ((Sim.after cfg h).poll cfg { sec := t % 60, near := near, r1 := r1, r2 := r2, oob := oob }).1 := rfl
      have hp2 : Sim.outs cfg h t (.poll near r1 r2 oob) =
        ((Sim.after cfg h).poll cfg { sec := t % 60, near := near, r1 := r1, r2 := r2, oob := oob }).2 := rfl
      by_cases hin : SimOut.pinHigh ∈ Sim.outs cfg h t (.poll near r1 r2 oob)
      · -- a new pulse
        simp only [simPulse] at hT
        rw [if_pos hin] at hT
        injection hT with hT
        left
        have hHA : simHighAt cfg ((t, .poll near r1 r2 oob) :: h) = some T := by
          simp only [simHighAt]; rw [if_pos hin, hT]
        rw [hp2] at hin
        rcases sim_poll_cases cfg (Sim.after cfg h) { sec := t % 60, near := near, r1 := r1, r2 := r2, oob := oob } with
          ⟨t', _, h'⟩ | ⟨_, _, h'⟩ | ⟨_, _, h'⟩ | ⟨hr, hm, h'⟩
        · rw [h'] at hin; cases hin
        · rw [h'] at hin; cases hin
        · rw [h'] at hin; cases hin
        · rw [h'] at hin hp1
          dsimp only at hin hp1
          rcases sim_body_power cfg (Sim.after cfg h) { sec := t % 60, near := near, r1 := r1, r2 := r2, oob := oob } with
            ⟨_, a, _, _, c, d⟩ | ⟨_, _, _, d⟩ | ⟨_, _, _, _, d, _⟩ | ⟨_, _, _, d⟩ | ⟨_, _, _, d⟩ | ⟨_, _, _, _, _, d, _⟩
          · refine ⟨?_, ?_, ?_, hHA⟩
            · rw [hp1, sim_onStateChange_st]; exact .inl a
            · rw [hp1]; unfold Sim.onStateChange
              split
              · rfl
              · rw [d]; exact hr
            · rw [hp1, sim_onStateChange_msgCount, c]; exact hm
          · rw [d] at hin; simp at hin
          · rw [d] at hin; simp at hin
          · rw [d] at hin; simp at hin
          · rw [d] at hin; simp at hin
          · exact absurd hin d
      · simp only [simPulse] at hT
        rw [if_neg hin] at hT
        have hHA : simHighAt cfg ((t, .poll near r1 r2 oob) :: h) = simHighAt cfg h := by
          simp only [simHighAt]; rw [if_neg hin]
        rcases ih T hT with ⟨a, b, c, d⟩ | a
        · rcases sim_poll_cases cfg (Sim.after cfg h) { sec := t % 60, near := near, r1 := r1, r2 := r2, oob := oob } with
            ⟨t', hr, h'⟩ | ⟨_, hm, h'⟩ | ⟨_, _, h'⟩ | ⟨hr, hm, h'⟩
          · rw [b] at hr; cases hr
          · exact absurd hm c
          · rw [h'] at hp1
            exact .inl ⟨by rw [hp1]; exact a, by rw [hp1]; exact b, by rw [hp1]; exact c, by rw [hHA]; exact d⟩
          · rw [h'] at hp1
            dsimp only at hp1
            have keep : (((Sim.after cfg h).body cfg { sec := t % 60, near := near, r1 := r1, r2 := r2, oob := oob }).1.retryTimer = none) →
                (Sim.after cfg ((t, SimOp.poll near r1 r2 oob) :: h)).retryTimer = none := by
              intro hb
              rw [hp1]; unfold Sim.onStateChange
              split
              · rfl
              · exact hb
            rcases sim_body_power cfg (Sim.after cfg h) { sec := t % 60, near := near, r1 := r1, r2 := r2, oob := oob } with
              ⟨a', _⟩ | ⟨_, a', b', _⟩ | ⟨_, _, a', _, _, b', c'⟩ | ⟨_, a', b', _⟩ | ⟨a', w, _, _⟩ | ⟨_, a', b', _⟩
            · rw [a'] at a; simp at a
            · refine .inl ⟨?_, keep (by rw [b']; exact b), ?_, by rw [hHA]; exact d⟩
              · rw [hp1, sim_onStateChange_st]; exact .inl a'
              · rw [hp1, sim_onStateChange_msgCount, b']; exact c
            · refine .inl ⟨?_, keep (by rw [c']; exact b), ?_, by rw [hHA]; exact d⟩
              · rw [hp1, sim_onStateChange_st]; exact .inr a'
              · rw [hp1, sim_onStateChange_msgCount, b']; exact c
            · refine .inl ⟨?_, keep (by rw [b']; exact b), ?_, by rw [hHA]; exact d⟩
              · rw [hp1, sim_onStateChange_st]; exact .inr a'
              · rw [hp1, sim_onStateChange_msgCount, b']; exact c
            · right
              obtain ⟨T', e1, e2, e3⟩ := hpow a
              rw [d] at e1; injection e1 with e1
              rw [e3, ← e1] at w
              have := waitedLong_real T t 12 (by omega) w
              simp only [simNow]; omega
            · rcases a with a | a
              · exact absurd a a'
              · exact absurd a b'
        · exact .inr (by simp only [simNow]; omega)

/-- **C128.** After a power pulse starts, polling sends the modem nothing (and does not pulse it again) until at least 13 seconds of
real time have passed; the only event before that is the end of the pulse. (`begin()` restarts the whole sequence, and a
direct `sendRaw()` is outside the poll machine.) -/
theorem C128_quiet_after_pulse (cfg : SimCfg) (h : List (Nat × SimOp)) (t : Nat) (near : Bool) (r1 r2 : Bytes) (oob : Byte)
    (ho : SimOrdered ((t, .poll near r1 r2 oob) :: h)) (T : Nat) (hT : simPulse cfg h = some T)
    (x : SimOut) (hx : x ∈ Sim.outs cfg h t (.poll near r1 r2 oob)) (hxl : x ≠ .pinLow) : T + 13 ≤ t := by
  obtain ⟨hle, ho'⟩ := ho.tail
  rcases sim_pulse_inv cfg h ho' T hT with ⟨a, b, c, d⟩ | a
  · exfalso
    have hp2 : Sim.outs cfg h t (.poll near r1 r2 oob) =
      ((Sim.after cfg h).poll cfg { sec := t % 60, near := near, r1 := r1, r2 := r2, oob := oob }).2 := rfl
    rw [hp2] at hx
    rcases sim_poll_cases cfg (Sim.after cfg h) { sec := t % 60, near := near, r1 := r1, r2 := r2, oob := oob } with
      ⟨t', _, h'⟩ | ⟨_, _, h'⟩ | ⟨_, _, h'⟩ | ⟨_, _, h'⟩
    · rw [h'] at hx; cases hx
    · rw [h'] at hx; cases hx
    · rw [h'] at hx; cases hx
    · rw [h'] at hx
      dsimp only at hx
      rcases sim_body_power cfg (Sim.after cfg h) { sec := t % 60, near := near, r1 := r1, r2 := r2, oob := oob } with
        ⟨a', _⟩ | ⟨_, _, _, d⟩ | ⟨_, _, _, _, d, _⟩ | ⟨_, _, _, d⟩ | ⟨_, _, _, d⟩ | ⟨_, a', b', _⟩
      · rw [a'] at a; simp at a
      · rw [d] at hx; simp at hx
      · rw [d] at hx; simp at hx; exact hxl hx
      · rw [d] at hx; simp at hx
      · rw [d] at hx; simp at hx
      · rcases a with a | a
        · exact absurd a a'
        · exact absurd a b'
  · omega

/-- The hypotheses are met: in the session the pin is raised at 2 and lowered at 5, and the next command goes out at 18. -/
example : simPulse simCfg0 ((simStart.take 5).reverse) = some 2 ∧
    Sim.outs simCfg0 ((simStart.take 3).reverse) 5 (simP []) = [.pinLow] ∧
    Sim.outs simCfg0 ((simStart.take 5).reverse) 18 (simP simA) = [.at] := by decide +kernel

/-! ## C129 -/

/-- Number of events of a kind since the modem's power pin was last raised. -/
def simCount (cfg : SimCfg) (p : SimOut → Bool) : List (Nat × SimOp) → Nat
  | [] => 0
  | (t, o) :: h =>
    if SimOut.pinHigh ∈ Sim.outs cfg h t o then 0 else simCount cfg p h + ((Sim.outs cfg h t o).filter p).length

/-- Order in which the states follow a power pulse. -/
def simRank : SimSt → Nat
  | .waitPwrHigh => 1 | .waitPwrLow => 2 | .startUp => 3 | .checkPin => 4 | .waitReg => 5 | .setApn => 6
  | .startGprs => 7 | .getIp => 8 | .openUdp => 9 | .idle => 10 | .waitUdp => 10 | .initSend => 10 | .writePacket => 10
  | .init => 20 | .getState => 20 | .reset => 20 | .panic => 20

theorem sim_body_rank (cfg : SimCfg) (s : Sim) (e : SimEnv) :
    (SimOut.pinHigh ∈ (s.body cfg e).2 ∧ (s.body cfg e).1.st = .waitPwrHigh) ∨
    (SimOut.pinHigh ∉ (s.body cfg e).2 ∧ simRank s.st ≤ simRank (s.body cfg e).1.st) := by
  unfold Sim.body
  cases hst : s.st
  case getState => left; simp
  all_goals right; dsimp only [Sim.setRetryLock]
  all_goals first
    | (simp [simRank, hst]; done)
    | (constructor <;> (repeat' split) <;> simp [simRank, hst]; done)

/-- A retried step: state `X` is the only one whose turn causes events of kind `p`, one per turn, and a turn that stays in `X`
uses up a retry and sets the lock. -/
structure SimStep (cfg : SimCfg) (X : SimSt) (p : SimOut → Bool) : Prop where
  only : ∀ s e, s.st ≠ X → ((Sim.body cfg s e).2.filter p).length = 0
  one : ∀ s e, s.st = X → ((Sim.body cfg s e).2.filter p).length ≤ 1
  stay : ∀ s e, s.st = X → (Sim.body cfg s e).1.st = X →
    (Sim.body cfg s e).1.retries = s.retries - 1 ∧ (Sim.body cfg s e).1.retryTimer ≠ none ∧ (Sim.body cfg s e).1.old = s.old
  rank : simRank X < 10

theorem sim_old_inv (cfg : SimCfg) (h : List (Nat × SimOp)) :
    (Sim.after cfg h).st = (Sim.after cfg h).old ∨ (Sim.after cfg h).st = .init ∨ (Sim.after cfg h).st = .reset := by
  induction h with
  | nil => left; rfl
  | cons o h ih =>
    obtain ⟨t, o⟩ := o
    cases o with
    | begin => right; left; rfl
    | fin => exact ih
    | sendRaw m ok => exact ih
    | queue b =>
      obtain ⟨q1, _, _, _, _, q6⟩ := sim_queue_after cfg h t b
      rw [q1, q6]; exact ih
    | poll near r1 r2 oob =>
      have hp1 : Sim.after cfg ((t, .poll near r1 r2 oob) :: h) =
        ((Sim.after cfg h).poll cfg { sec := t % 60, near := near, r1 := r1, r2 := r2, oob := oob }).1 := rfl
      rcases sim_poll_cases cfg (Sim.after cfg h) { sec := t % 60, near := near, r1 := r1, r2 := r2, oob := oob } with
        ⟨t', _, h'⟩ | ⟨_, _, h'⟩ | ⟨_, _, h'⟩ | ⟨_, _, h'⟩
      · rw [h'] at hp1; rw [hp1]; dsimp only
        unfold Sim.retryLockOut
        split
        · right; right; rfl
        · split <;> exact ih
      · rw [h'] at hp1; rw [hp1]; right; right; rfl
      · rw [h'] at hp1; rw [hp1]; exact ih
      · rw [h'] at hp1; rw [hp1]; dsimp only
        left
        unfold Sim.onStateChange
        by_cases hx : ((Sim.after cfg h).body cfg { sec := t % 60, near := near, r1 := r1, r2 := r2, oob := oob }).1.st ≠
          ((Sim.after cfg h).body cfg { sec := t % 60, near := near, r1 := r1, r2 := r2, oob := oob }).1.old
        · rw [if_pos hx]
        · rw [if_neg hx]; simpa using hx

theorem sim_count_inv (cfg : SimCfg) (X : SimSt) (p : SimOut → Bool) (B : Nat) (hX : SimStep cfg X p)
    (hB : B = if X = .waitReg then 30 else 10)
    (hnp : p .pinLow = false ∧ p .close = false ∧ (∀ n, p (.send n) = false) ∧ ∀ d, p (.data d) = false)
    (h : List (Nat × SimOp)) :
    simCount cfg p h ≤ B ∧ (simRank (Sim.after cfg h).st < simRank X → simCount cfg p h = 0) ∧
    ((Sim.after cfg h).st = X → simCount cfg p h + (Sim.after cfg h).retries ≤ B ∧
      ((Sim.after cfg h).retryTimer = none → 0 < (Sim.after cfg h).retries)) := by
  have hB10 : 10 ≤ B := by rw [hB]; split <;> omega
  have hXi : X ≠ .init := by intro hh; have := hX.rank; rw [hh] at this; simp [simRank] at this
  have hXr : X ≠ .reset := by intro hh; have := hX.rank; rw [hh] at this; simp [simRank] at this
  have hr := hX.rank
  induction h with
  | nil =>
    refine ⟨Nat.zero_le _, fun _ => rfl, fun hh => ?_⟩
    exact absurd hh.symm hXi
  | cons o h ih =>
    obtain ⟨t, o⟩ := o
    obtain ⟨i1, i2, i3⟩ := ih
    have keep : SimOut.pinHigh ∉ Sim.outs cfg h t o → ((Sim.outs cfg h t o).filter p).length = 0 →
        simCount cfg p ((t, o) :: h) = simCount cfg p h := by
      intro a b
      simp only [simCount]; rw [if_neg a, b, Nat.add_zero]
    have hold := sim_old_inv cfg h
    cases o with
    | begin =>
      rw [keep (by simp [Sim.outs, Sim.op, Sim.begin]) (by simp [Sim.outs, Sim.op, Sim.begin, hnp.1])]
      refine ⟨i1, fun hh => ?_, fun hh => absurd hh.symm hXi⟩
      have : simRank (Sim.after cfg ((t, SimOp.begin) :: h)).st = 20 := rfl
      omega
    | fin =>
      rw [keep (by simp [Sim.outs, Sim.op, Sim.fin]) (by simp [Sim.outs, Sim.op, Sim.fin, hnp.2.1])]
      exact ⟨i1, i2, i3⟩
    | sendRaw m ok =>
      rw [keep (by cases ok <;> simp [Sim.outs, Sim.op]) (by cases ok <;> simp [Sim.outs, Sim.op, hnp.2.2.1, hnp.2.2.2])]
      exact ⟨i1, i2, i3⟩
    | queue b =>
      obtain ⟨q1, _, _, q4, q5, _⟩ := sim_queue_after cfg h t b
      rw [keep (by simp [Sim.outs, Sim.op]) (by simp [Sim.outs, Sim.op]), q1, q4, q5]
      exact ⟨i1, i2, i3⟩
    | poll near r1 r2 oob =>
      have hp1 : Sim.after cfg ((t, .poll near r1 r2 oob) :: h) =
        ((Sim.after cfg h).poll cfg { sec := t % 60, near := near, r1 := r1, r2 := r2, oob := oob }).1 := rfl
      have hp2 : Sim.outs cfg h t (.poll near r1 r2 oob) =
        ((Sim.after cfg h).poll cfg { sec := t % 60, near := near, r1 := r1, r2 := r2, oob := oob }).2 := rfl
      rcases sim_poll_cases cfg (Sim.after cfg h) { sec := t % 60, near := near, r1 := r1, r2 := r2, oob := oob } with
        ⟨t', hrt, h'⟩ | ⟨_, _, h'⟩ | ⟨_, _, h'⟩ | ⟨hrt, _, h'⟩
      · rw [h'] at hp1 hp2
        rw [keep (by rw [hp2]; simp) (by rw [hp2]; rfl)]
        refine ⟨i1, ?_, ?_⟩
        · rw [hp1]; dsimp only
          rcases (sim_lockOut_fields (Sim.after cfg h) t' (t % 60)).2.2.2.2.2 with f | f
          · rw [f]; exact i2
          · rw [f]; intro hh; exfalso; have h20 : simRank .reset = 20 := rfl; omega
        · rw [hp1]; dsimp only
          unfold Sim.retryLockOut
          by_cases hz : (Sim.after cfg h).retries = 0
          · rw [if_pos hz]; intro hh; exact absurd hh.symm hXr
          · rw [if_neg hz]
            split
            · intro hh; exact ⟨(i3 hh).1, fun _ => by dsimp only; omega⟩
            · exact i3
      · rw [h'] at hp1 hp2
        rw [keep (by rw [hp2]; simp) (by rw [hp2]; rfl), hp1]
        refine ⟨i1, ?_, fun hh => absurd hh.symm hXr⟩
        dsimp only
        intro hh; exfalso; have h20 : simRank .reset = 20 := rfl; omega
      · rw [h'] at hp1 hp2
        rw [keep (by rw [hp2]; simp) (by rw [hp2]; rfl), hp1]
        exact ⟨i1, i2, i3⟩
      · rw [h'] at hp1 hp2
        dsimp only at hp1 hp2
        have honly := hX.only (Sim.after cfg h) { sec := t % 60, near := near, r1 := r1, r2 := r2, oob := oob }
        have hone := hX.one (Sim.after cfg h) { sec := t % 60, near := near, r1 := r1, r2 := r2, oob := oob }
        have hstay := hX.stay (Sim.after cfg h) { sec := t % 60, near := near, r1 := r1, r2 := r2, oob := oob }
        have hrank := sim_body_rank cfg (Sim.after cfg h) { sec := t % 60, near := near, r1 := r1, r2 := r2, oob := oob }
        have hst1 : (Sim.after cfg ((t, SimOp.poll near r1 r2 oob) :: h)).st =
          ((Sim.after cfg h).body cfg { sec := t % 60, near := near, r1 := r1, r2 := r2, oob := oob }).1.st := by
          rw [hp1, sim_onStateChange_st]
        rw [hst1]
        generalize hb : (Sim.after cfg h).body cfg { sec := t % 60, near := near, r1 := r1, r2 := r2, oob := oob } = b at *
        have hcnt : simCount cfg p ((t, SimOp.poll near r1 r2 oob) :: h) =
          if SimOut.pinHigh ∈ b.2 then 0 else simCount cfg p h + (b.2.filter p).length := by
          simp only [simCount]; rw [hp2]
        -- entering X resets the retries
        have henter : b.1.st = X → (Sim.after cfg h).st ≠ X → b.1.old ≠ X →
            b.1.onStateChange.retries = B := by
          intro e1 e2 e3
          unfold Sim.onStateChange
          rw [if_pos (by rw [e1]; exact fun hh => e3 hh.symm)]
          dsimp only
          rw [hB, e1]
        have hbold : b.1.old = (Sim.after cfg h).old := by
          rw [← hb]; unfold Sim.body
          cases hst : (Sim.after cfg h).st <;> dsimp only [Sim.setRetryLock, Sim.bump] <;> (repeat' split) <;> rfl
        rcases hrank with ⟨g1, g2⟩ | ⟨g1, g2⟩
        · rw [hcnt, if_pos g1]
          refine ⟨Nat.zero_le _, fun _ => rfl, ?_⟩
          intro hXX
          rw [g2] at hXX
          -- X = waitPwrHigh cannot be: its turn sets no lock
          exfalso
          have := hX.stay { (({} : Sim)) with st := .waitPwrHigh } { sec := 0 } hXX
          rw [← hXX] at this
          simp [Sim.body, waitedLong, elapsedLT] at this
        · rw [hcnt, if_neg g1]
          by_cases hsX : (Sim.after cfg h).st = X
          · obtain ⟨j1, j2⟩ := i3 hsX
            have hpos := j2 hrt
            have h1 := hone hsX
            refine ⟨by omega, fun hh => ?_, fun hXX => ?_⟩
            · rw [hsX] at g2; omega
            · obtain ⟨k1, k2, k3⟩ := hstay hsX hXX
              have hoX : b.1.old = X := by
                rw [hbold]
                rcases hold with ho | ho | ho
                · rw [← ho]; exact hsX
                · exact absurd (hsX.symm.trans ho) hXi
                · exact absurd (hsX.symm.trans ho) hXr
              have hnc : b.1.onStateChange = b.1 := by
                unfold Sim.onStateChange; rw [if_neg (by rw [hXX, hoX]; simp)]
              rw [hp1, hnc]
              exact ⟨by omega, fun hn => absurd hn k2⟩
          · have h0 := honly hsX
            refine ⟨by omega, fun hh => ?_, fun hXX => ?_⟩
            · rw [h0, i2 (by omega)]
            · have hoX : b.1.old ≠ X := by
                rw [hbold]
                rcases hold with ho | ho | ho
                · rw [← ho]; exact hsX
                · rw [hXX, ho] at g2; have h20 : simRank .reset = 20 := rfl; have h21 : simRank .init = 20 := rfl; omega
                · rw [hXX, ho] at g2; have h20 : simRank .reset = 20 := rfl; have h21 : simRank .init = 20 := rfl; omega
              have hre := henter hXX hsX hoX
              have hlt : simCount cfg p h = 0 := by
                apply i2
                have hne : simRank (Sim.after cfg h).st ≠ simRank X := by
                  intro hh
                  apply hsX
                  revert hh hr
                  cases (Sim.after cfg h).st <;> cases X <;> simp [simRank]
                rw [hXX] at g2
                omega
              rw [hp1, hre, hlt, h0]
              exact ⟨by omega, fun _ => by omega⟩

def isPinQ : SimOut → Bool | .pinQ => true | _ => false
def isRegQ : SimOut → Bool | .regQ => true | _ => false
def isSetApn : SimOut → Bool | .setApn _ => true | _ => false
def isStartGprs : SimOut → Bool | .startGprs => true | _ => false
def isStartUdp : SimOut → Bool | .startUdp _ _ => true | _ => false

theorem sim_step_of (cfg : SimCfg) (X : SimSt) (p : SimOut → Bool) (hr : simRank X < 10)
    (h1 : ∀ s e, s.st ≠ X → ((Sim.body cfg s e).2.filter p).length = 0)
    (h2 : ∀ s e, s.st = X → ((Sim.body cfg s e).2.filter p).length ≤ 1)
    (h3 : ∀ s e, s.st = X → ∃ s', (Sim.body cfg s e).1 = Sim.setRetryLock s' e.sec ∧ s'.retries = s.retries ∧ s'.old = s.old) :
    SimStep cfg X p := by
  refine ⟨h1, h2, fun s e hs _ => ?_, hr⟩
  obtain ⟨s', a, b, c⟩ := h3 s e hs
  rw [a]
  refine ⟨?_, by simp [Sim.setRetryLock], c⟩
  simp only [Sim.setRetryLock]
  split <;> omega

theorem sim_step_pin (cfg : SimCfg) : SimStep cfg .checkPin isPinQ := by
  refine sim_step_of cfg _ _ (by decide) (fun s e hs => ?_) (fun s e hs => ?_) (fun s e hs => ?_)
  · unfold Sim.body
    cases hst : s.st
    case checkPin => exact absurd hst hs
    all_goals dsimp only; (repeat' split) <;> rfl
  · unfold Sim.body; rw [hs]; exact Nat.le_refl 1
  · unfold Sim.body; rw [hs]; exact ⟨_, rfl, rfl, rfl⟩

theorem sim_step_reg (cfg : SimCfg) : SimStep cfg .waitReg isRegQ := by
  refine sim_step_of cfg _ _ (by decide) (fun s e hs => ?_) (fun s e hs => ?_) (fun s e hs => ?_)
  · unfold Sim.body
    cases hst : s.st
    case waitReg => exact absurd hst hs
    all_goals dsimp only; (repeat' split) <;> rfl
  · unfold Sim.body; rw [hs]; exact Nat.le_refl 1
  · unfold Sim.body; rw [hs]; exact ⟨_, rfl, rfl, rfl⟩

theorem sim_step_apn (cfg : SimCfg) : SimStep cfg .setApn isSetApn := by
  refine sim_step_of cfg _ _ (by decide) (fun s e hs => ?_) (fun s e hs => ?_) (fun s e hs => ?_)
  · unfold Sim.body
    cases hst : s.st
    case setApn => exact absurd hst hs
    all_goals dsimp only; (repeat' split) <;> rfl
  · unfold Sim.body; rw [hs]; exact Nat.le_refl 1
  · unfold Sim.body; rw [hs]; exact ⟨_, rfl, rfl, rfl⟩

theorem sim_step_gprs (cfg : SimCfg) : SimStep cfg .startGprs isStartGprs := by
  refine sim_step_of cfg _ _ (by decide) (fun s e hs => ?_) (fun s e hs => ?_) (fun s e hs => ?_)
  · unfold Sim.body
    cases hst : s.st
    case startGprs => exact absurd hst hs
    all_goals dsimp only; (repeat' split) <;> rfl
  · unfold Sim.body; rw [hs]; dsimp only; split
    · exact Nat.le_refl 1
    · exact Nat.zero_le 1
  · unfold Sim.body; rw [hs]; exact ⟨_, rfl, rfl, rfl⟩

theorem sim_step_udp (cfg : SimCfg) : SimStep cfg .openUdp isStartUdp := by
  refine sim_step_of cfg _ _ (by decide) (fun s e hs => ?_) (fun s e hs => ?_) (fun s e hs => ?_)
  · unfold Sim.body
    cases hst : s.st
    case openUdp => exact absurd hst hs
    all_goals dsimp only; (repeat' split) <;> rfl
  · unfold Sim.body; rw [hs]; exact Nat.le_refl 1
  · unfold Sim.body; rw [hs]; exact ⟨_, rfl, rfl, rfl⟩

/-- **C129.** Whatever the modem answers, between two power pulses the link asks for the PIN state at most 10 times, for the network
registration at most 30 times, and sets the APN, brings up GPRS and opens the socket at most 10 times each. -/
theorem C129_bounded_retries (cfg : SimCfg) (h : List (Nat × SimOp)) :
    simCount cfg isPinQ h ≤ 10 ∧ simCount cfg isRegQ h ≤ 30 ∧ simCount cfg isSetApn h ≤ 10 ∧
    simCount cfg isStartGprs h ≤ 10 ∧ simCount cfg isStartUdp h ≤ 10 :=
  ⟨(sim_count_inv cfg .checkPin isPinQ 10 (sim_step_pin cfg) rfl ⟨rfl, rfl, fun _ => rfl, fun _ => rfl⟩ h).1,
   (sim_count_inv cfg .waitReg isRegQ 30 (sim_step_reg cfg) rfl ⟨rfl, rfl, fun _ => rfl, fun _ => rfl⟩ h).1,
   (sim_count_inv cfg .setApn isSetApn 10 (sim_step_apn cfg) rfl ⟨rfl, rfl, fun _ => rfl, fun _ => rfl⟩ h).1,
   (sim_count_inv cfg .startGprs isStartGprs 10 (sim_step_gprs cfg) rfl ⟨rfl, rfl, fun _ => rfl, fun _ => rfl⟩ h).1,
   (sim_count_inv cfg .openUdp isStartUdp 10 (sim_step_udp cfg) rfl ⟨rfl, rfl, fun _ => rfl, fun _ => rfl⟩ h).1⟩

/-- The bound is reached: a modem that never reports its PIN ready is asked 10 times, then power-pulsed again. -/
def simNoPin : List (Nat × SimOp) :=
  simStart.take 6 ++ (List.range 19).map (fun i => (20 + 3 * i, simP []))
theorem C129_witness : simCount simCfg0 isPinQ simNoPin.reverse = 10 ∧
    (Sim.after simCfg0 ((200, simP []) :: simNoPin.reverse)).st = .reset := by decide +kernel

end OTR.Props
