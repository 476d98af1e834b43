import Verif.Props.Sim900Power

/-!
# C130: the GPRS link recovers and delivers a waiting frame

The closed loop of the link with a working modem. The modem is described independently of the link: it has a power key (a press and
release toggles it, and it then has forgotten its connections), it brings up GPRS and a socket when told to, and it answers each
query truthfully. Its answers are otherwise arbitrary text.
-/

namespace OTR.Props

/-- A modem: powered, GPRS up, socket open. -/
structure Modem where
  on : Bool
  gprs : Bool
  udp : Bool
deriving Repr, DecidableEq

/-- What the modem does on an event of the link. -/
def Modem.hear (m : Modem) : SimOut → Modem
  | .pinLow => { on := !m.on, gprs := false, udp := false }
  | .startGprs => { m with gprs := m.gprs || m.on }
  | .startUdp _ _ => { m with udp := m.udp || (m.on && m.gprs) }
  | _ => m

def Modem.hears (m : Modem) : List SimOut → Modem
  | [] => m
  | x :: t => (m.hear x).hears t

/-- Truthful answers: silent when off; otherwise some echo `pre` without the mark character, the mark, and the news. -/
def Modem.Answers (m : Modem) (q : SimOut) (r : Bytes) : Prop :=
  if m.on = false then r = []
  else match q with
  | .at => r.head? = some 65
  | .pinQ => ∃ pre rest, r = pre ++ 32 :: 82 :: rest ∧ (32 : Byte) ∉ pre ∧ pre.length ≤ 30
  | .regQ => ∃ pre x y z rest, r = pre ++ 32 :: x :: y :: z :: rest ∧ (32 : Byte) ∉ pre ∧ pre.length ≤ 50 ∧ (z = 49 ∨ z = 53)
  | .setApn _ => ∃ pre x y rest, r = pre ++ 10 :: x :: y :: 79 :: rest ∧ (10 : Byte) ∉ pre ∧ pre.length ≤ 60
  | .status =>
    ∃ pre x y z w rest, r = pre ++ 32 :: x :: y :: z :: w :: rest ∧ (32 : Byte) ∉ pre ∧ pre.length ≤ 50 ∧
      if m.udp then x = 67 else x ≠ 67 ∧ x ≠ 80 ∧ (w = 71 ↔ m.gprs = true)
  | .startUdp _ _ => m.gprs = true → ∃ pre x rest, r = pre ++ 10 :: x :: rest ∧ (10 : Byte) ∉ pre ∧ pre.length ≤ 60 ∧ x ≠ 69
  | _ => True

/-- Link, modem, time of the last call, and the frames the modem took while its socket was open. -/
structure SimLoop where
  s : Sim
  m : Modem
  t : Nat
  delivered : List Bytes

/-- A call of `poll()` at time `t`. -/
def SimLoop.step (cfg : SimCfg) (c : SimLoop) (t : Nat) (r1 r2 : Bytes) (oob : Byte) : SimLoop :=
  let p := c.s.poll cfg { sec := t % 60, near := true, r1 := r1, r2 := r2, oob := oob }
  { s := p.1, m := c.m.hears p.2, t := t,
    delivered := if c.m.on && c.m.udp then c.delivered ++ simData p.2 else c.delivered }

/-- The call comes 1 to 47 seconds after the last one and the modem's answer is truthful. -/
def SimLoop.Allowed (cfg : SimCfg) (c : SimLoop) (t : Nat) (r1 r2 : Bytes) (oob : Byte) : Prop :=
  c.t < t ∧ t ≤ c.t + 47 ∧
  ∀ q, (c.s.poll cfg { sec := t % 60, near := true, r1 := r1, r2 := r2, oob := oob }).2.head? = some q → c.m.Answers q r1

/-- `P` holds now or after at most `n` allowed calls, whatever the environment chooses. -/
def SimInev (cfg : SimCfg) (P : SimLoop → Prop) : Nat → SimLoop → Prop
  | 0, c => P c
  | n + 1, c => P c ∨ ∀ t r1 r2 oob, c.Allowed cfg t r1 r2 oob → SimInev cfg P n (c.step cfg t r1 r2 oob)

theorem SimInev.now {cfg : SimCfg} {P : SimLoop → Prop} {n : Nat} {c : SimLoop} (h : P c) : SimInev cfg P n c := by
  cases n with
  | zero => exact h
  | succ n => exact .inl h

theorem SimInev.bind {cfg : SimCfg} {P Q : SimLoop → Prop} {n k : Nat} {c : SimLoop} (h : SimInev cfg P n c)
    (hq : ∀ c, P c → SimInev cfg Q k c) : SimInev cfg Q (n + k) c := by
  induction n generalizing c with
  | zero => rw [Nat.zero_add]; exact hq c h
  | succ n ih =>
    rcases h with h | h
    · have := hq c h
      clear ih
      revert this
      have mono : ∀ (a b : Nat) (c : SimLoop), SimInev cfg Q a c → SimInev cfg Q (b + a) c := by
        intro a
        induction a with
        | zero => intro b c hc; exact SimInev.now hc
        | succ a ih =>
          intro b c hc
          rcases hc with hc | hc
          · exact SimInev.now hc
          · exact .inr (fun t r1 r2 oob ha => ih b _ (hc t r1 r2 oob ha))
      exact mono k (n + 1) c
    · rw [Nat.add_right_comm]
      exact .inr (fun t r1 r2 oob ha => ih (h t r1 r2 oob ha))

theorem SimInev.weaken {cfg : SimCfg} {P : SimLoop → Prop} {n k : Nat} {c : SimLoop} (h : SimInev cfg P n c) (hk : n ≤ k) :
    SimInev cfg P k c := by
  have := h.bind (k := k - n) (fun c hc => SimInev.now hc)
  rwa [show n + (k - n) = k by omega] at this

theorem SimInev.step {cfg : SimCfg} {P : SimLoop → Prop} {n : Nat} {c : SimLoop}
    (h : ∀ t r1 r2 oob, c.Allowed cfg t r1 r2 oob → SimInev cfg P n (c.step cfg t r1 r2 oob)) : SimInev cfg P (n + 1) c := .inr h

/-! ## Answers as the link understands them -/

theorem getResp_hit (n : Nat) (c : Byte) (pre rest : Bytes) (hp : c ∉ pre) (hl : pre.length < n) :
    getResp (readMany n (pre ++ c :: rest)) c = some (pre.length + 1) := by
  unfold getResp readMany
  rw [List.append_assoc, List.take_append, List.take_of_length_le (by omega)]
  rw [show n - pre.length = (n - pre.length - 1) + 1 by omega, List.cons_append, List.take_succ_cons]
  rw [getRespFrom_of _ _ _ _ hp]; simp

theorem cutAt_hit (n : Nat) (c x : Byte) (pre rest : Bytes) (k : Nat) (oob : Byte) (hl : pre.length + 1 + k < n)
    (hx : rest[k]? = some x) : cutAt (readMany n (pre ++ c :: rest)) (pre.length + 1) k oob = x := by
  unfold cutAt
  have hlt : k < rest.length := by
    by_cases h : k < rest.length
    · exact h
    · rw [List.getElem?_eq_none (by omega)] at hx; cases hx
  rw [readMany_get n _ _ (by omega), if_pos (by simp; omega)]
  rw [List.getElem?_append_right (by omega)]
  rw [show pre.length + 1 + k - pre.length = k + 1 by omega, List.getElem?_cons_succ, hx]
  rfl

theorem readMany_nil_getResp (n : Nat) (c : Byte) (hc : c ≠ 0) : getResp (readMany n []) c = none := by
  unfold getResp readMany
  rw [List.nil_append, List.take_replicate, Nat.min_self]
  suffices h : ∀ k i, getRespFrom c (List.replicate k 0) i = none from h n 0
  intro k
  induction k with
  | zero => intro i; rfl
  | succ k ih => intro i; simp only [List.replicate_succ, getRespFrom]; rw [if_neg (Ne.symm hc)]; exact ih _

theorem ans_at (m : Modem) (r : Bytes) (h : m.Answers .at r) : isReplying r = m.on := by
  unfold Modem.Answers at h
  cases hm : m.on with
  | false => rw [hm] at h; simp at h; rw [h]; decide
  | true =>
    rw [hm] at h; simp at h
    cases r with
    | nil => simp at h
    | cons x t => simp at h; rw [h]; simp [isReplying, readMany]

theorem ans_pin (m : Modem) (r : Bytes) (oob : Byte) (h : m.Answers .pinQ r) (hm : m.on = true) : isPinReady r oob = true := by
  unfold Modem.Answers at h
  rw [if_neg (by rw [hm]; simp)] at h
  obtain ⟨pre, rest, h1, h2, h3⟩ := h
  unfold isPinReady
  rw [h1, getResp_hit 40 32 pre _ h2 (by omega)]
  dsimp only
  rw [cutAt_hit 40 32 82 pre _ 0 oob (by omega) rfl]; rfl

theorem ans_reg (m : Modem) (r : Bytes) (oob : Byte) (h : m.Answers .regQ r) (hm : m.on = true) : isRegistered r oob = true := by
  unfold Modem.Answers at h
  rw [if_neg (by rw [hm]; simp)] at h
  obtain ⟨pre, x, y, z, rest, h1, h2, h3, h4⟩ := h
  unfold isRegistered
  rw [h1, getResp_hit 64 32 pre _ h2 (by omega)]
  dsimp only
  rw [cutAt_hit 64 32 z pre _ 2 oob (by omega) rfl]
  rcases h4 with h4 | h4 <;> rw [h4] <;> rfl

theorem ans_apn (m : Modem) (r : Bytes) (oob : Byte) (a : Bytes) (h : m.Answers (.setApn a) r) (hm : m.on = true) :
    apnAccepted r oob = true := by
  unfold Modem.Answers at h
  rw [if_neg (by rw [hm]; simp)] at h
  obtain ⟨pre, x, y, rest, h1, h2, h3⟩ := h
  unfold apnAccepted
  rw [h1, getResp_hit 64 10 pre _ h2 (by omega)]
  dsimp only
  rw [cutAt_hit 64 10 79 pre _ 2 oob (by omega) rfl]; rfl

theorem ans_status (m : Modem) (r : Bytes) (oob : Byte) (h : m.Answers .status r) :
    udpStatus r oob = if m.on = false then 0 else if m.udp = true then 1 else if m.gprs = true then 3 else 0 := by
  unfold Modem.Answers at h
  cases hm : m.on with
  | false => rw [hm] at h; simp at h; rw [h]; unfold udpStatus; rw [readMany_nil_getResp _ _ (by decide)]; rfl
  | true =>
    rw [if_neg (by rw [hm]; simp)] at h
    obtain ⟨pre, x, y, z, w, rest, h1, h2, h3, h4⟩ := h
    unfold udpStatus
    rw [h1, getResp_hit 64 32 pre _ h2 (by omega)]
    dsimp only
    rw [cutAt_hit 64 32 x pre _ 0 oob (by omega) rfl, cutAt_hit 64 32 w pre _ 3 oob (by omega) rfl]
    cases hu : m.udp with
    | true => rw [hu] at h4; simp at h4; simp [h4]
    | false =>
      rw [hu] at h4; simp at h4
      rw [if_neg h4.1, if_neg h4.2.1]
      cases hg : m.gprs <;> simp [h4.2.2, hg]

theorem ans_open (m : Modem) (r : Bytes) (oob : Byte) (a p : Bytes) (h : m.Answers (.startUdp a p) r) (hm : m.on = true)
    (hg : m.gprs = true) : udpOpened r oob = true := by
  unfold Modem.Answers at h
  rw [if_neg (by rw [hm]; simp)] at h
  obtain ⟨pre, x, rest, h1, h2, h3, h4⟩ := h hg
  unfold udpOpened
  rw [h1, getResp_hit 64 10 pre _ h2 (by omega)]
  dsimp only
  rw [cutAt_hit 64 10 x pre _ 0 oob (by omega) rfl]
  simp [h4]

/-! ## Reachable link states -/

/-- One of the states of the first stage. -/
def simMid : SimSt → Bool
  | .waitUdp | .idle | .openUdp | .getIp | .startGprs | .setApn | .waitReg | .checkPin | .startUp | .waitPwrLow | .waitPwrHigh => true
  | _ => false

/-- Facts about every reachable state that the argument needs. -/
structure SimWf (s : Sim) : Prop where
  pow : s.powerTimer < 60
  rt : ∀ r, s.retryTimer = some r → r < 60
  ret : s.retries ≤ if s.old = .waitReg then 30 else 10
  old : s.st = s.old ∨ s.st = .init ∨ s.st = .reset
  np : s.st ≠ .panic
  np' : s.old ≠ .panic
  cnt : s.msgCount < 256
  pt : s.st = .waitPwrHigh ∨ s.st = .waitPwrLow → s.retryTimer = none
  rz : simMid s.st = true → s.retryTimer = none → 0 < s.retries

theorem sim_body_wf (cfg : SimCfg) (s : Sim) (e : SimEnv) (he : e.sec < 60) (h : SimWf s) (hr : s.retryTimer = none) :
    SimWf (s.body cfg e).1.onStateChange := by
  have hx : (s.body cfg e).1.powerTimer < 60 ∧ (∀ r, (s.body cfg e).1.retryTimer = some r → r < 60) ∧
      (s.body cfg e).1.retries ≤ s.retries ∧ (s.body cfg e).1.old = s.old ∧ (s.body cfg e).1.st ≠ .panic ∧
      (s.body cfg e).1.msgCount < 256 ∧
      ((s.body cfg e).1.st = .waitPwrHigh ∨ (s.body cfg e).1.st = .waitPwrLow → (s.body cfg e).1.retryTimer = none) := by
    have h1 := h.pow
    have h2 := h.cnt
    have h3 := h.np
    unfold Sim.body
    cases hst : s.st <;> simp only [Sim.setRetryLock, Sim.bump]
    case panic => exact absurd hst h3
    all_goals
      refine ⟨?_, ?_, ?_, ?_, ?_, ?_, ?_⟩ <;> (repeat' split) <;>
      first
        | exact fun _ => hr
        | rfl
        | exact h1 | exact h2 | exact he
        | (simp only [hst]; simp; done)
        | (simp; done)
        | (intro r hr'; rw [hr] at hr'; cases hr'; done)
        | (intro r hr'; injection hr' with hr'; omega)
        | omega
        | (dsimp only; omega)
  obtain ⟨a, b, c, d, f, g, k⟩ := hx
  have hz : (s.body cfg e).1.st = (s.body cfg e).1.old → simMid (s.body cfg e).1.st = true →
      (s.body cfg e).1.retryTimer = none → 0 < (s.body cfg e).1.retries := by
    rw [d]
    have ho := h.old
    have hz := h.rz
    rw [hr] at hz
    unfold Sim.body
    cases hst : s.st <;> rw [hst] at ho hz <;> simp only [Sim.setRetryLock, Sim.bump]
    case init => intro _ hm; cases hm
    case reset => intro _ hm; cases hm
    case getState => intro ho2; rcases ho with ho | ho | ho <;> simp_all
    case writePacket => intro _ hm; cases hm
    case panic => exact absurd hst h.np
    case waitPwrHigh => split <;> intro _ _ _ <;> exact hz rfl rfl
    case waitPwrLow => split <;> intro _ _ _ <;> exact hz rfl rfl
    case startUp => intro _ _ _; exact hz rfl rfl
    case getIp => intro _ _ _; exact hz rfl rfl
    case idle => intro _ _ _; exact hz rfl rfl
    case initSend =>
      split
      · intro _ hm; cases hm
      · intro ho2; rcases ho with ho | ho | ho <;> simp_all
    case waitUdp =>
      split
      · intro _ hm; cases hm
      · split
        · intro _ hm; cases hm
        · intro _ _ hh; simp at hh
    all_goals intro _ _ hh; simp at hh
  generalize s.body cfg e = p at *
  have hold := h.ret
  unfold Sim.onStateChange
  by_cases hc : p.1.st ≠ p.1.old
  · rw [if_pos hc]
    exact ⟨a, fun r hr => by simp at hr, Nat.le_refl _, .inl rfl, f, f, g, fun _ => rfl, fun _ _ => by dsimp only; split <;> omega⟩
  · rw [if_neg hc]
    have hc' : p.1.st = p.1.old := by simpa using hc
    exact ⟨a, b, by rw [d]; omega, .inl hc', f, by rw [d]; exact h.np', g, k, hz hc'⟩

theorem sim_poll_wf (cfg : SimCfg) (s : Sim) (e : SimEnv) (he : e.sec < 60) (h : SimWf s) : SimWf (s.poll cfg e).1 := by
  rcases sim_poll_cases cfg s e with ⟨t, hr, h'⟩ | ⟨_, _, h'⟩ | ⟨_, _, h'⟩ | ⟨hr, _, h'⟩
  · rw [h']; dsimp only
    unfold Sim.retryLockOut
    split
    · exact ⟨h.pow, fun r hr => by simp at hr, h.ret, .inr (.inr rfl), by simp, h.np', h.cnt, fun _ => rfl, fun hm => by cases hm⟩
    · split
      · exact ⟨h.pow, fun r hr => by simp at hr, h.ret, h.old, h.np, h.np', h.cnt, fun _ => rfl, fun _ _ => by dsimp only; omega⟩
      · exact h
  · rw [h']; exact ⟨h.pow, h.rt, h.ret, .inr (.inr rfl), by simp, h.np', by simp, fun hx => by simp at hx, fun hm => by cases hm⟩
  · rw [h']; exact h
  · rw [h']; exact sim_body_wf cfg s e he h hr

theorem sim_after_wf (cfg : SimCfg) (h : List (Nat × SimOp)) : SimWf (Sim.after cfg h) := by
  induction h with
  | nil => exact ⟨by simp [Sim.after], fun r hr => (by cases hr), Nat.zero_le _, .inl rfl, by simp [Sim.after], by simp [Sim.after], by simp [Sim.after], fun _ => rfl, fun hm => (by cases hm)⟩
  | cons o h ih =>
    obtain ⟨t, o⟩ := o
    cases o with
    | begin => exact ⟨ih.pow, ih.rt, ih.ret, .inr (.inl rfl), by simp [Sim.after, Sim.op, Sim.begin], ih.np', ih.cnt, fun hx => (by simp [Sim.after, Sim.op, Sim.begin] at hx), fun hm => (by cases hm)⟩
    | fin => exact ih
    | sendRaw m ok =>
      exact ⟨ih.pow, ih.rt, ih.ret, ih.old, ih.np, ih.np', Nat.mod_lt _ (by omega), ih.pt, ih.rz⟩
    | queue b =>
      have hx : SimWf ((Sim.after cfg h).queueToSend b).1 := by
        unfold Sim.queueToSend
        cases b with
        | none => exact ih
        | some m =>
          dsimp only
          split
          · exact ih
          · exact ⟨ih.pow, ih.rt, ih.ret, ih.old, ih.np, ih.np', ih.cnt, ih.pt, ih.rz⟩
      exact hx
    | poll near r1 r2 oob => exact sim_poll_wf cfg _ _ (Nat.mod_lt _ (by omega)) ih

/-! ## The loop -/

/-- The frame `msg` is waiting and has a working object around it. -/
structure SimPend (msg : Bytes) (c : SimLoop) : Prop where
  wf : SimWf c.s
  q : c.s.queued = 1
  m : c.s.buf.take c.s.msgLen = msg
  ni : c.s.st ≠ .init

theorem SimPend.step {cfg : SimCfg} {msg : Bytes} {c : SimLoop} (h : SimPend msg c) (t : Nat) (r1 r2 : Bytes) (oob : Byte)
    (hw : c.s.st ≠ .writePacket) : SimPend msg (c.step cfg t r1 r2 oob) := by
  have hwf := sim_poll_wf cfg c.s { sec := t % 60, near := true, r1 := r1, r2 := r2, oob := oob } (Nat.mod_lt _ (by omega)) h.wf
  have hs : (c.step cfg t r1 r2 oob).s =
    (c.s.poll cfg { sec := t % 60, near := true, r1 := r1, r2 := r2, oob := oob }).1 := rfl
  have hslot : (c.step cfg t r1 r2 oob).s.queued = c.s.queued ∧ (c.step cfg t r1 r2 oob).s.buf = c.s.buf ∧
      (c.step cfg t r1 r2 oob).s.msgLen = c.s.msgLen ∧ (c.step cfg t r1 r2 oob).s.st ≠ .init := by
    rw [hs]
    rcases sim_poll_cases cfg c.s { sec := t % 60, near := true, r1 := r1, r2 := r2, oob := oob } with
      ⟨t', _, h'⟩ | ⟨_, _, h'⟩ | ⟨_, _, h'⟩ | ⟨_, _, h'⟩
    · rw [h']
      obtain ⟨a, b, d, _, _, f⟩ := sim_lockOut_fields c.s t' (t % 60)
      refine ⟨a, b, d, ?_⟩
      rcases f with f | f
      · dsimp only; rw [f]; exact h.ni
      · dsimp only; rw [f]; simp
    · rw [h']; exact ⟨rfl, rfl, rfl, by simp⟩
    · rw [h']; exact ⟨rfl, rfl, rfl, h.ni⟩
    · rw [h']; dsimp only
      rw [sim_onStateChange_queued, sim_onStateChange_buf, sim_onStateChange_msgLen, sim_onStateChange_st]
      rcases sim_body_slot cfg c.s { sec := t % 60, near := true, r1 := r1, r2 := r2, oob := oob } with
        ⟨_, _, a, b, d, _, _⟩ | ⟨a, _⟩ | ⟨a, _⟩
      · refine ⟨a, b, d, ?_⟩
        have hni := h.ni
        unfold Sim.body
        cases hst : c.s.st
        case init => exact absurd hst hni
        all_goals dsimp only [Sim.setRetryLock]
        all_goals first
          | (simp [hst]; done)
          | ((repeat' split) <;> simp [hst]; done)
      · exact absurd a h.ni
      · exact absurd a hw
  exact ⟨by rw [hs]; exact hwf, by rw [hslot.1]; exact h.q, by rw [hslot.2.1, hslot.2.2.1]; exact h.m, hslot.2.2.2⟩

theorem elapsed_step (r t t' : Nat) (hr : r < 60) (h1 : t < t') (h2 : t' ≤ t + 47) :
    elapsedLT r (t' % 60) = (elapsedLT r (t % 60) + (t' - t)) % 60 := by
  unfold elapsedLT; split <;> split <;> omega

theorem elapsed_lt (r t : Nat) (hr : r < 60) : elapsedLT r (t % 60) < 60 := by unfold elapsedLT; split <;> omega

theorem elapsed_self (t : Nat) : elapsedLT t t = 0 := by unfold elapsedLT; simp

/-- Calls still needed, at most, before a wait of more than `d` seconds is seen to be over. -/
def simRem (d r t : Nat) : Nat := if elapsedLT r (t % 60) ≤ d then d + 1 - elapsedLT r (t % 60) else d + 2

theorem simRem_pos (d r t : Nat) : 0 < simRem d r t := by unfold simRem; split <;> omega

theorem simRem_le (d r t : Nat) : simRem d r t ≤ d + 2 := by unfold simRem; split <;> omega

theorem simRem_new (d t : Nat) : simRem d (t % 60) t = d + 1 := by
  unfold simRem; rw [elapsed_self]; simp

theorem simRem_step (d r t t' : Nat) (hd : d ≤ 12) (hr : r < 60) (h1 : t < t') (h2 : t' ≤ t + 47)
    (hw : waitedLong r d (t' % 60) = false) : simRem d r t' < simRem d r t := by
  have he := elapsed_step r t t' hr h1 h2
  have hl := elapsed_lt r t hr
  unfold waitedLong at hw
  simp only [decide_eq_false_iff_not] at hw
  unfold simRem
  rw [if_pos (by omega)]
  split <;> omega

/-- Distance of a state from sending or from a reset. -/
def simBase : SimSt → Nat
  | .waitUdp => 0 | .idle => 60 | .openUdp => 120 | .getIp => 180 | .startGprs => 240 | .setApn => 300 | .waitReg => 360
  | .checkPin => 540 | .startUp => 600 | .waitPwrLow => 660 | .waitPwrHigh => 740
  | _ => 0

def simLockM (c : SimLoop) : Nat := match c.s.retryTimer with | none => 0 | some r => simRem 2 r c.t
def simPowM (c : SimLoop) : Nat :=
  if c.s.st = .waitPwrHigh then simRem 2 c.s.powerTimer c.t
  else if c.s.st = .waitPwrLow then simRem 12 c.s.powerTimer c.t else 0

def simM (c : SimLoop) : Nat := simBase c.s.st + 5 * c.s.retries + simLockM c + simPowM c

/-- The first stage ends in a reset, at the start of a power cycle, or about to send on an open socket. -/
def SimExit (msg : Bytes) (c : SimLoop) : Prop :=
  SimPend msg c ∧ (c.s.st = .reset ∨ c.s.st = .getState ∨
    (c.s.st = .initSend ∧ c.s.retryTimer = none ∧ c.m.on = true ∧ c.m.udp = true))

theorem sim_osc_st_ne (s : Sim) (h : s.st ≠ s.old) :
    s.onStateChange = { s with old := s.st, retryTimer := none, retries := if s.st = .waitReg then 30 else 10 } := by
  unfold Sim.onStateChange; rw [if_pos h]

theorem sim_osc_st_eq (s : Sim) (h : s.st = s.old) : s.onStateChange = s := by
  unfold Sim.onStateChange; rw [if_neg (by simpa using h)]

theorem simM_of (s : Sim) (m : Modem) (t : Nat) (d : List Bytes) (hr : s.retryTimer = none)
    (hp : s.st ≠ .waitPwrHigh ∧ s.st ≠ .waitPwrLow) : simM ⟨s, m, t, d⟩ = simBase s.st + 5 * s.retries := by
  unfold simM simLockM simPowM
  simp [hr, hp.1, hp.2]

/-- A locked call in the first stage. -/
theorem sim_stageA_locked (cfg : SimCfg) (msg : Bytes) (c : SimLoop) (hp : SimPend msg c) (hmid : simMid c.s.st = true)
    (r : Nat) (hr : c.s.retryTimer = some r) (t : Nat) (r1 r2 : Bytes) (oob : Byte) (ha : c.Allowed cfg t r1 r2 oob) :
    SimExit msg (c.step cfg t r1 r2 oob) ∨
      (simMid (c.step cfg t r1 r2 oob).s.st = true ∧ simM (c.step cfg t r1 r2 oob) < simM c) := by
  have hw : c.s.st ≠ .writePacket := by intro h; rw [h] at hmid; cases hmid
  have hp' := hp.step (cfg := cfg) t r1 r2 oob hw
  have hs : (c.step cfg t r1 r2 oob).s = c.s.retryLockOut r (t % 60) := by
    simp only [SimLoop.step, Sim.poll, hr]
  have ht : (c.step cfg t r1 r2 oob).t = t := rfl
  by_cases hz : c.s.retries = 0
  · left
    refine ⟨hp', .inl ?_⟩
    rw [hs]; unfold Sim.retryLockOut; rw [if_pos hz]
  · right
    have hr60 := hp.wf.rt r hr
    have hnp : ¬ (c.s.st = .waitPwrHigh ∨ c.s.st = .waitPwrLow) := by
      intro h; have := hp.wf.pt h; rw [hr] at this; cases this
    have hn1 : c.s.st ≠ .waitPwrHigh := fun h => hnp (.inl h)
    have hn2 : c.s.st ≠ .waitPwrLow := fun h => hnp (.inr h)
    have hM : simM c = simBase c.s.st + 5 * c.s.retries + simRem 2 r c.t := by
      unfold simM simLockM simPowM; simp [hr, hn1, hn2]
    have hpos := simRem_pos 2 r c.t
    rw [hM]
    unfold simM simLockM simPowM
    rw [hs, ht]
    unfold Sim.retryLockOut
    rw [if_neg hz]
    by_cases hwl : waitedLong r 2 (t % 60) = true
    · rw [if_pos hwl]
      refine ⟨hmid, ?_⟩
      simp [hn1, hn2]; omega
    · rw [if_neg hwl]
      refine ⟨hmid, ?_⟩
      have := simRem_step 2 r c.t t (by omega) hr60 ha.1 ha.2.1 (by simpa using hwl)
      simp [hr, hn1, hn2]; omega

/-- An unlocked call: the state machine's turn. -/
theorem sim_step_unlocked (cfg : SimCfg) (c : SimLoop) (hr : c.s.retryTimer = none) (hm : c.s.msgCount ≠ 255)
    (t : Nat) (r1 r2 : Bytes) (oob : Byte) :
    (c.step cfg t r1 r2 oob).s = (c.s.body cfg { sec := t % 60, near := true, r1 := r1, r2 := r2, oob := oob }).1.onStateChange ∧
    (c.s.poll cfg { sec := t % 60, near := true, r1 := r1, r2 := r2, oob := oob }).2 =
      (c.s.body cfg { sec := t % 60, near := true, r1 := r1, r2 := r2, oob := oob }).2 := by
  constructor <;> simp only [SimLoop.step, Sim.poll, hr] <;> rw [if_neg hm, if_neg (by simp)]

/-- The measure of a state just entered. -/
theorem simM_entered (c : SimLoop) (s : Sim) (hs : c.s = s.onStateChange) (hne : s.st ≠ s.old) :
    simM c ≤ simBase s.st + (if s.st = .waitReg then 150 else 50) +
      (if s.st = .waitPwrHigh then 4 else if s.st = .waitPwrLow then 14 else 0) := by
  have h1 : c.s.st = s.st := by rw [hs, sim_onStateChange_st]
  have h2 : c.s.retryTimer = none := by rw [hs, sim_osc_st_ne s hne]
  have h3 : c.s.retries = if s.st = .waitReg then 30 else 10 := by rw [hs, sim_osc_st_ne s hne]
  unfold simM simLockM simPowM
  rw [h1, h2, h3]
  have a := simRem_le 2 c.s.powerTimer c.t
  have b := simRem_le 12 c.s.powerTimer c.t
  dsimp only
  split <;> split <;> (try split) <;> omega

theorem simM_ge (c : SimLoop) : simBase c.s.st ≤ simM c := by unfold simM; omega

/-- The measure after a failed attempt. -/
theorem simM_retry (c c' : SimLoop) (now : Nat) (hs : c'.s = (c.s.setRetryLock (now % 60)).onStateChange) (ht : c'.t = now)
    (ho : c.s.st = c.s.old) (hr : c.s.retryTimer = none) (hpos : 0 < c.s.retries)
    (h1 : c.s.st ≠ .waitPwrHigh) (h2 : c.s.st ≠ .waitPwrLow) : simM c' < simM c := by
  rw [sim_osc_st_eq _ (show (c.s.setRetryLock (now % 60)).st = (c.s.setRetryLock (now % 60)).old from ho)] at hs
  have hn := simRem_new 2 now
  unfold simM simLockM simPowM
  rw [hs, ht, hr]
  simp only [Sim.setRetryLock, h1, h2, if_false]
  rw [hn, if_pos (by omega)]; omega

/-- An unlocked call in the first stage. -/
theorem sim_stageA_unlocked (cfg : SimCfg) (msg : Bytes) (c : SimLoop) (hp : SimPend msg c) (hmid : simMid c.s.st = true)
    (hr : c.s.retryTimer = none) (t : Nat) (r1 r2 : Bytes) (oob : Byte) (ha : c.Allowed cfg t r1 r2 oob) :
    SimExit msg (c.step cfg t r1 r2 oob) ∨
      (simMid (c.step cfg t r1 r2 oob).s.st = true ∧ simM (c.step cfg t r1 r2 oob) < simM c) := by
  have hw : c.s.st ≠ .writePacket := by intro h; rw [h] at hmid; cases hmid
  have hp' := hp.step (cfg := cfg) t r1 r2 oob hw
  have hold : c.s.st = c.s.old := by
    rcases hp.wf.old with h | h | h
    · exact h
    · rw [h] at hmid; cases hmid
    · rw [h] at hmid; cases hmid
  have hpos := hp.wf.rz hmid hr
  have hpow := hp.wf.pow
  have ht : (c.step cfg t r1 r2 oob).t = t := rfl
  by_cases hm : c.s.msgCount = 255
  · left
    refine ⟨hp', .inl ?_⟩
    simp only [SimLoop.step, Sim.poll, hr]; rw [if_pos hm]
  obtain ⟨hs, hout⟩ := sim_step_unlocked cfg c hr hm t r1 r2 oob
  have hans := ha.2.2
  have hmod : (c.step cfg t r1 r2 oob).m = c.m.hears (c.s.poll cfg { sec := t % 60, near := true, r1 := r1, r2 := r2, oob := oob }).2 := rfl
  rw [hout] at hans hmod
  -- entering a new state `Y` of the stage
  have enter : ∀ s' : Sim, (c.step cfg t r1 r2 oob).s = s'.onStateChange → s'.old = c.s.old → s'.st ≠ c.s.st →
      simMid s'.st = true →
      simBase s'.st + (if s'.st = .waitReg then 150 else 50) +
        (if s'.st = .waitPwrHigh then 4 else if s'.st = .waitPwrLow then 14 else 0) < simBase c.s.st →
      simMid (c.step cfg t r1 r2 oob).s.st = true ∧ simM (c.step cfg t r1 r2 oob) < simM c := by
    intro s' e1 e2 e3 e4 e5
    refine ⟨by rw [e1, sim_onStateChange_st]; exact e4, ?_⟩
    have h1 := simM_entered (c.step cfg t r1 r2 oob) s' e1 (by rw [e2, ← hold]; exact e3)
    have h2 := simM_ge c
    omega
  have retry : (c.step cfg t r1 r2 oob).s = (c.s.setRetryLock (t % 60)).onStateChange →
      c.s.st ≠ .waitPwrHigh → c.s.st ≠ .waitPwrLow →
      simMid (c.step cfg t r1 r2 oob).s.st = true ∧ simM (c.step cfg t r1 r2 oob) < simM c := by
    intro e1 e2 e3
    refine ⟨by rw [e1, sim_onStateChange_st]; exact hmid, ?_⟩
    exact simM_retry c _ t e1 ht hold hr hpos e2 e3
  cases hst : c.s.st
  case waitPwrHigh =>
    unfold Sim.body at hs; rw [hst] at hs; dsimp only at hs
    right
    cases hwl : waitedLong c.s.powerTimer 2 (t % 60) with
    | true =>
      rw [hwl, if_pos rfl] at hs
      exact enter _ hs rfl (by rw [hst]; simp) rfl (by rw [hst]; simp [simBase, Sim.setRetryLock])
    | false =>
      rw [hwl, if_neg (by simp)] at hs
      have hs' : (c.step cfg t r1 r2 oob).s = c.s := by rw [hs]; exact sim_osc_st_eq _ hold
      refine ⟨by rw [hs']; exact hmid, ?_⟩
      have := simRem_step 2 c.s.powerTimer c.t t (by omega) hpow ha.1 ha.2.1 hwl
      unfold simM simLockM simPowM
      rw [hs', ht, hr, hst]; simp; omega
  case waitPwrLow =>
    unfold Sim.body at hs; rw [hst] at hs; dsimp only at hs
    right
    cases hwl : waitedLong c.s.powerTimer 12 (t % 60) with
    | true =>
      rw [hwl, if_pos rfl] at hs
      exact enter _ hs rfl (by rw [hst]; simp) rfl (by rw [hst]; simp [simBase, Sim.setRetryLock])
    | false =>
      rw [hwl, if_neg (by simp)] at hs
      have hs' : (c.step cfg t r1 r2 oob).s = c.s := by rw [hs]; exact sim_osc_st_eq _ hold
      refine ⟨by rw [hs']; exact hmid, ?_⟩
      have := simRem_step 12 c.s.powerTimer c.t t (by omega) hpow ha.1 ha.2.1 hwl
      unfold simM simLockM simPowM
      rw [hs', ht, hr, hst]; simp; omega
  case startUp =>
    unfold Sim.body at hs; rw [hst] at hs; dsimp only at hs
    cases hx : isReplying r1 with
    | true => rw [hx, if_pos rfl] at hs; right; exact enter _ hs rfl (by rw [hst]; simp) rfl (by rw [hst]; simp [simBase, Sim.setRetryLock])
    | false =>
      rw [hx, if_neg (by simp)] at hs
      left; refine ⟨hp', .inr (.inl ?_)⟩
      rw [hs, sim_onStateChange_st]
  case checkPin =>
    unfold Sim.body at hs; rw [hst] at hs; dsimp only at hs
    right
    cases hx : isPinReady r1 oob with
    | true => rw [hx, if_pos rfl] at hs; exact enter _ hs rfl (by rw [hst]; simp [Sim.setRetryLock]) rfl (by rw [hst]; simp [simBase, Sim.setRetryLock])
    | false => rw [hx, if_neg (by simp), ← hst] at hs; exact retry hs (by rw [hst]; simp) (by rw [hst]; simp)
  case waitReg =>
    unfold Sim.body at hs; rw [hst] at hs; dsimp only at hs
    right
    cases hx : isRegistered r1 oob with
    | true => rw [hx, if_pos rfl] at hs; exact enter _ hs rfl (by rw [hst]; simp [Sim.setRetryLock]) rfl (by rw [hst]; simp [simBase, Sim.setRetryLock])
    | false => rw [hx, if_neg (by simp), ← hst] at hs; exact retry hs (by rw [hst]; simp) (by rw [hst]; simp)
  case setApn =>
    unfold Sim.body at hs; rw [hst] at hs; dsimp only at hs
    right
    cases hx : apnAccepted r1 oob with
    | true => rw [hx, if_pos rfl, if_pos rfl] at hs; exact enter _ hs rfl (by rw [hst]; simp [Sim.setRetryLock]) rfl (by rw [hst]; simp [simBase, Sim.setRetryLock])
    | false => rw [hx, if_neg (by simp), if_neg (by simp), ← hst] at hs; exact retry hs (by rw [hst]; simp) (by rw [hst]; simp)
  case startGprs =>
    unfold Sim.body at hs; rw [hst] at hs; dsimp only at hs
    right
    by_cases hx : udpStatus r1 oob = 3
    · rw [if_pos hx] at hs; exact enter _ hs rfl (by rw [hst]; simp [Sim.setRetryLock]) rfl (by rw [hst]; simp [simBase, Sim.setRetryLock])
    · rw [if_neg hx, ← hst] at hs; exact retry hs (by rw [hst]; simp) (by rw [hst]; simp)
  case getIp =>
    unfold Sim.body at hs; rw [hst] at hs; dsimp only at hs
    right; exact enter _ hs rfl (by rw [hst]; simp) rfl (by rw [hst]; simp [simBase, Sim.setRetryLock])
  case openUdp =>
    unfold Sim.body at hs; rw [hst] at hs; dsimp only at hs
    right
    cases hx : udpOpened r1 oob with
    | true => rw [hx, if_pos rfl] at hs; exact enter _ hs rfl (by rw [hst]; simp [Sim.setRetryLock]) rfl (by rw [hst]; simp [simBase, Sim.setRetryLock])
    | false => rw [hx, if_neg (by simp), ← hst] at hs; exact retry hs (by rw [hst]; simp) (by rw [hst]; simp)
  case idle =>
    unfold Sim.body at hs; rw [hst] at hs; dsimp only at hs
    rw [if_pos (by rw [hp.q]; omega)] at hs
    right; exact enter _ hs rfl (by rw [hst]; simp) rfl (by rw [hst]; simp [simBase, Sim.setRetryLock])
  case waitUdp =>
    have hb : (c.s.body cfg { sec := t % 60, near := true, r1 := r1, r2 := r2, oob := oob }).2 = [.status] := by
      unfold Sim.body; rw [hst]; dsimp only; (repeat' split) <;> rfl
    rw [hb] at hans hmod
    have hA := ans_status c.m r1 oob (hans .status rfl)
    unfold Sim.body at hs; rw [hst] at hs; dsimp only at hs
    by_cases hx : udpStatus r1 oob = 1
    · rw [if_pos hx] at hs
      left
      refine ⟨hp', .inr (.inr ?_)⟩
      rw [hs, sim_onStateChange_st]
      rw [hmod]
      rw [hx] at hA
      refine ⟨rfl, ?_, ?_⟩
      · rw [sim_osc_st_ne _ (by rw [← hold, hst]; simp)]
      · simp only [Modem.hears, Modem.hear]
        cases h1 : c.m.on <;> cases h2 : c.m.udp <;> cases h3 : c.m.gprs <;> simp_all
    · rw [if_neg hx] at hs
      by_cases hx2 : udpStatus r1 oob = 2
      · rw [if_pos hx2] at hs
        left; refine ⟨hp', .inl ?_⟩
        rw [hs, sim_onStateChange_st]
      · rw [if_neg hx2] at hs
        right; exact retry hs (by rw [hst]; simp) (by rw [hst]; simp)
  all_goals rw [hst] at hmid; cases hmid

theorem sim_stageA (cfg : SimCfg) (msg : Bytes) (n : Nat) (c : SimLoop) (hp : SimPend msg c) (hmid : simMid c.s.st = true)
    (hn : simM c ≤ n) : SimInev cfg (SimExit msg) (n + 1) c := by
  induction n using Nat.strongRecOn generalizing c with
  | _ n ih =>
    refine SimInev.step (fun t r1 r2 oob ha => ?_)
    have hw : c.s.st ≠ .writePacket := by intro h; rw [h] at hmid; cases hmid
    have hp' := hp.step (cfg := cfg) t r1 r2 oob hw
    have hx : SimExit msg (c.step cfg t r1 r2 oob) ∨
        (simMid (c.step cfg t r1 r2 oob).s.st = true ∧ simM (c.step cfg t r1 r2 oob) < simM c) := by
      cases hr : c.s.retryTimer with
      | none => exact sim_stageA_unlocked cfg msg c hp hmid hr t r1 r2 oob ha
      | some r => exact sim_stageA_locked cfg msg c hp hmid r hr t r1 r2 oob ha
    rcases hx with hx | ⟨h1, h2⟩
    · exact SimInev.now hx
    · exact (ih (simM (c.step cfg t r1 r2 oob)) (by omega) _ hp' h1 (Nat.le_refl _)).weaken (by omega)

theorem simM_bound (msg : Bytes) (c : SimLoop) (hp : SimPend msg c) (_ : simMid c.s.st = true) : simM c ≤ 908 := by
  have h1 := hp.wf.ret
  unfold simM
  have h2 : simLockM c ≤ 4 := by
    unfold simLockM; split
    · omega
    · exact simRem_le 2 _ _
  have h3 : simPowM c ≤ 14 := by
    unfold simPowM; split
    · have := simRem_le 2 c.s.powerTimer c.t; omega
    · split
      · exact simRem_le 12 _ _
      · omega
  have h4 : simBase c.s.st ≤ 740 := by cases c.s.st <;> simp [simBase]
  split at h1 <;> omega

/-! ## Second stage: from a reset to a freshly started modem -/

/-- At a given state, unlocked. -/
def SimAt (msg : Bytes) (st : SimSt) (m : Modem) (c : SimLoop) : Prop :=
  SimPend msg c ∧ c.s.st = st ∧ c.s.retryTimer = none ∧ c.s.msgCount ≠ 255 ∧ c.m = m

theorem SimAt.old {msg : Bytes} {st : SimSt} {m : Modem} {c : SimLoop} (h : SimAt msg st m c) (h1 : st ≠ .init) (h2 : st ≠ .reset) :
    c.s.old = st := by
  rcases h.1.wf.old with h' | h' | h'
  · rw [← h', h.2.1]
  · exact absurd (h.2.1.symm.trans h') h1
  · exact absurd (h.2.1.symm.trans h') h2

/-- One unlocked turn from `X` that moves to another state. -/
theorem sim_move (cfg : SimCfg) (msg : Bytes) (X Y : SimSt) (m m' : Modem) (c : SimLoop) (h : SimAt msg X m c)
    (hX : X ≠ .writePacket) (hi : X ≠ .init) (hrs : X ≠ .reset) (hXY : Y ≠ X)
    (t : Nat) (r1 r2 : Bytes) (oob : Byte)
    (hb : (c.s.body cfg { sec := t % 60, near := true, r1 := r1, r2 := r2, oob := oob }).1.st = Y)
    (ho : (c.s.body cfg { sec := t % 60, near := true, r1 := r1, r2 := r2, oob := oob }).1.old = c.s.old)
    (hc : (c.s.body cfg { sec := t % 60, near := true, r1 := r1, r2 := r2, oob := oob }).1.msgCount ≠ 255)
    (hm : m.hears (c.s.body cfg { sec := t % 60, near := true, r1 := r1, r2 := r2, oob := oob }).2 = m') :
    SimAt msg Y m' (c.step cfg t r1 r2 oob) := by
  obtain ⟨hs, hout⟩ := sim_step_unlocked cfg c h.2.2.1 h.2.2.2.1 t r1 r2 oob
  have hold := h.old hi hrs
  refine ⟨h.1.step t r1 r2 oob (by rw [h.2.1]; exact hX), ?_, ?_, ?_, ?_⟩
  · rw [hs, sim_onStateChange_st]; exact hb
  · rw [hs, sim_osc_st_ne _ (by rw [hb, ho, hold]; exact hXY)]
  · rw [hs, sim_onStateChange_msgCount]; exact hc
  · show c.m.hears (c.s.poll cfg _).2 = m'
    rw [hout, h.2.2.2.2]; exact hm

/-- One unlocked turn from `X` that changes nothing. -/
theorem sim_stay (cfg : SimCfg) (msg : Bytes) (X : SimSt) (m : Modem) (c : SimLoop) (h : SimAt msg X m c)
    (hX : X ≠ .writePacket) (hi : X ≠ .init) (hrs : X ≠ .reset)
    (t : Nat) (r1 r2 : Bytes) (oob : Byte)
    (hb : c.s.body cfg { sec := t % 60, near := true, r1 := r1, r2 := r2, oob := oob } = (c.s, [])) :
    SimAt msg X m (c.step cfg t r1 r2 oob) ∧ (c.step cfg t r1 r2 oob).s = c.s := by
  obtain ⟨hs, hout⟩ := sim_step_unlocked cfg c h.2.2.1 h.2.2.2.1 t r1 r2 oob
  have hold := h.old hi hrs
  have hs' : (c.step cfg t r1 r2 oob).s = c.s := by
    rw [hs, hb]; exact sim_osc_st_eq _ (by rw [h.2.1, hold])
  refine ⟨⟨h.1.step t r1 r2 oob (by rw [h.2.1]; exact hX), ?_, ?_, ?_, ?_⟩, hs'⟩
  · rw [hs']; exact h.2.1
  · rw [hs']; exact h.2.2.1
  · rw [hs']; exact h.2.2.2.1
  · show c.m.hears (c.s.poll cfg _).2 = m
    rw [hout, hb, h.2.2.2.2]; rfl

/-- Waiting with the pin low. -/
theorem sim_wait_low (cfg : SimCfg) (msg : Bytes) (m : Modem) (n : Nat) (c : SimLoop) (h : SimAt msg .waitPwrLow m c)
    (hn : simRem 12 c.s.powerTimer c.t ≤ n) : SimInev cfg (SimAt msg .startUp m) (n + 1) c := by
  induction n using Nat.strongRecOn generalizing c with
  | _ n ih =>
    refine SimInev.step (fun t r1 r2 oob ha => ?_)
    cases hwl : waitedLong c.s.powerTimer 12 (t % 60) with
    | true =>
      apply SimInev.now
      have hb : c.s.body cfg { sec := t % 60, near := true, r1 := r1, r2 := r2, oob := oob } =
          ({ c.s with st := .startUp }, []) := by
        unfold Sim.body; rw [h.2.1]; dsimp only; rw [hwl, if_pos rfl]
      exact sim_move cfg msg .waitPwrLow .startUp m m c h (by simp) (by simp) (by simp) (by simp) t r1 r2 oob
        (by rw [hb]) (by rw [hb]) (by rw [hb]; exact h.2.2.2.1) (by rw [hb]; rfl)
    | false =>
      have hb : c.s.body cfg { sec := t % 60, near := true, r1 := r1, r2 := r2, oob := oob } = (c.s, []) := by
        unfold Sim.body; rw [h.2.1]; dsimp only; rw [hwl, if_neg (by simp)]
      obtain ⟨h1, h2⟩ := sim_stay cfg msg .waitPwrLow m c h (by simp) (by simp) (by simp) t r1 r2 oob hb
      have := simRem_step 12 c.s.powerTimer c.t t (by omega) h.1.wf.pow ha.1 ha.2.1 hwl
      exact (ih (simRem 12 c.s.powerTimer t) (by omega) _ h1 (by rw [h2]; exact Nat.le_refl _)).weaken (by omega)

/-- Waiting with the pin high. -/
theorem sim_wait_high (cfg : SimCfg) (msg : Bytes) (m : Modem) (n : Nat) (c : SimLoop) (h : SimAt msg .waitPwrHigh m c)
    (hn : simRem 2 c.s.powerTimer c.t ≤ n) :
    SimInev cfg (SimAt msg .waitPwrLow ⟨!m.on, false, false⟩) (n + 1) c := by
  induction n using Nat.strongRecOn generalizing c with
  | _ n ih =>
    refine SimInev.step (fun t r1 r2 oob ha => ?_)
    cases hwl : waitedLong c.s.powerTimer 2 (t % 60) with
    | true =>
      apply SimInev.now
      have hb : c.s.body cfg { sec := t % 60, near := true, r1 := r1, r2 := r2, oob := oob } =
          ({ c.s with pin := false, st := .waitPwrLow }, [.pinLow]) := by
        unfold Sim.body; rw [h.2.1]; dsimp only; rw [hwl, if_pos rfl]
      exact sim_move cfg msg .waitPwrHigh .waitPwrLow m ⟨!m.on, false, false⟩ c h (by simp) (by simp) (by simp) (by simp) t r1 r2 oob
        (by rw [hb]) (by rw [hb]) (by rw [hb]; exact h.2.2.2.1) (by rw [hb]; rfl)
    | false =>
      have hb : c.s.body cfg { sec := t % 60, near := true, r1 := r1, r2 := r2, oob := oob } = (c.s, []) := by
        unfold Sim.body; rw [h.2.1]; dsimp only; rw [hwl, if_neg (by simp)]
      obtain ⟨h1, h2⟩ := sim_stay cfg msg .waitPwrHigh m c h (by simp) (by simp) (by simp) t r1 r2 oob hb
      have := simRem_step 2 c.s.powerTimer c.t t (by omega) h.1.wf.pow ha.1 ha.2.1 hwl
      exact (ih (simRem 2 c.s.powerTimer t) (by omega) _ h1 (by rw [h2]; exact Nat.le_refl _)).weaken (by omega)

/-- One power pulse: the modem ends toggled, with nothing open, and the link at START_UP. -/
theorem sim_pulse (cfg : SimCfg) (msg : Bytes) (m : Modem) (c : SimLoop) (h : SimAt msg .getState m c) :
    SimInev cfg (SimAt msg .startUp ⟨!m.on, false, false⟩) 21 c := by
  refine SimInev.step (n := 20) (fun t r1 r2 oob ha => ?_)
  have hb : c.s.body cfg { sec := t % 60, near := true, r1 := r1, r2 := r2, oob := oob } =
      ({ c.s with avail := c.s.avail || isReplying r1, pin := true, powerTimer := t % 60, st := .waitPwrHigh }, [.at, .pinHigh]) := by
    unfold Sim.body; rw [h.2.1]
  have h1 := sim_move cfg msg .getState .waitPwrHigh m m c h (by simp) (by simp) (by simp) (by simp) t r1 r2 oob
    (by rw [hb]) (by rw [hb]) (by rw [hb]; exact h.2.2.2.1) (by rw [hb]; rfl)
  refine (sim_wait_high cfg msg m 4 _ h1 (simRem_le 2 _ _)).bind (k := 15) (fun c' h2 => ?_)
  exact sim_wait_low cfg msg _ 14 c' h2 (simRem_le 12 _ _)

/-- START_UP with the modem on leads to the PIN check; with it off, to another pulse. -/
theorem sim_startUp (cfg : SimCfg) (msg : Bytes) (m : Modem) (c : SimLoop) (h : SimAt msg .startUp m c) :
    SimInev cfg (SimAt msg (if m.on then .checkPin else .getState) m) 1 c := by
  refine SimInev.step (n := 0) (fun t r1 r2 oob ha => ?_)
  have hb : c.s.body cfg { sec := t % 60, near := true, r1 := r1, r2 := r2, oob := oob } =
      ({ c.s with st := if isReplying r1 then .checkPin else .getState }, [.at]) := by
    unfold Sim.body; rw [h.2.1]
  obtain ⟨_, hout⟩ := sim_step_unlocked cfg c h.2.2.1 h.2.2.2.1 t r1 r2 oob
  have hans := ha.2.2
  rw [hout, hb] at hans
  have hA := ans_at c.m r1 (hans .at rfl)
  rw [h.2.2.2.2] at hA
  exact sim_move cfg msg .startUp _ m m c h (by simp) (by simp) (by simp) (by cases m.on <;> simp) t r1 r2 oob
    (by rw [hb]; dsimp only; rw [hA]) (by rw [hb]) (by rw [hb]; exact h.2.2.2.1) (by rw [hb]; rfl)

/-- From the start of a power cycle: at most two pulses to a fresh modem. -/
theorem sim_fresh (cfg : SimCfg) (msg : Bytes) (m : Modem) (c : SimLoop) (h : SimAt msg .getState m c) :
    SimInev cfg (SimAt msg .checkPin ⟨true, false, false⟩) 44 c := by
  have one : ∀ (m : Modem) (c : SimLoop), SimAt msg .getState m c → m.on = false →
      SimInev cfg (SimAt msg .checkPin ⟨true, false, false⟩) 22 c := by
    intro m c h hm
    refine (sim_pulse cfg msg m c h).bind (k := 1) (fun c' h' => ?_)
    rw [hm] at h'
    exact sim_startUp cfg msg ⟨true, false, false⟩ c' h'
  cases hm : m.on with
  | false => exact (one m c h hm).weaken (by omega)
  | true =>
    refine (sim_pulse cfg msg m c h).bind (k := 23) (fun c' h' => ?_)
    rw [hm] at h'
    refine (sim_startUp cfg msg ⟨false, false, false⟩ c' h').bind (k := 22) (fun c'' h'' => ?_)
    exact one ⟨false, false, false⟩ c'' h'' rfl

/-! ## Third stage: start-up with a working modem, and sending -/

theorem sim_checkPin (cfg : SimCfg) (msg : Bytes) (m : Modem) (hm : m.on = true) (c : SimLoop) (h : SimAt msg .checkPin m c) :
    SimInev cfg (SimAt msg .waitReg m) 1 c := by
  refine SimInev.step (n := 0) (fun t r1 r2 oob ha => ?_)
  obtain ⟨_, hout⟩ := sim_step_unlocked cfg c h.2.2.1 h.2.2.2.1 t r1 r2 oob
  have hans := ha.2.2
  rw [hout] at hans
  have hA : isPinReady r1 oob = true :=
    ans_pin c.m r1 oob (hans .pinQ (by unfold Sim.body; rw [h.2.1]; rfl)) (by rw [h.2.2.2.2]; exact hm)
  refine sim_move cfg msg .checkPin _ m m c h (by simp) (by simp) (by simp) (by simp) t r1 r2 oob ?_ ?_ ?_ ?_ <;>
    unfold Sim.body <;> rw [h.2.1] <;> dsimp only [Sim.setRetryLock]
  · rw [hA, if_pos rfl]
  · exact h.2.2.2.1
  · rfl

theorem sim_waitReg (cfg : SimCfg) (msg : Bytes) (m : Modem) (hm : m.on = true) (c : SimLoop) (h : SimAt msg .waitReg m c) :
    SimInev cfg (SimAt msg .setApn m) 1 c := by
  refine SimInev.step (n := 0) (fun t r1 r2 oob ha => ?_)
  obtain ⟨_, hout⟩ := sim_step_unlocked cfg c h.2.2.1 h.2.2.2.1 t r1 r2 oob
  have hans := ha.2.2
  rw [hout] at hans
  have hA : isRegistered r1 oob = true :=
    ans_reg c.m r1 oob (hans .regQ (by unfold Sim.body; rw [h.2.1]; rfl)) (by rw [h.2.2.2.2]; exact hm)
  refine sim_move cfg msg .waitReg _ m m c h (by simp) (by simp) (by simp) (by simp) t r1 r2 oob ?_ ?_ ?_ ?_ <;>
    unfold Sim.body <;> rw [h.2.1] <;> dsimp only [Sim.setRetryLock]
  · rw [hA, if_pos rfl]
  · exact h.2.2.2.1
  · rfl

/-- As `SimAt`, with the message counter just cleared. -/
def SimAt0 (msg : Bytes) (st : SimSt) (m : Modem) (c : SimLoop) : Prop := SimAt msg st m c ∧ c.s.msgCount = 0

theorem sim_move0 (cfg : SimCfg) (msg : Bytes) (X Y : SimSt) (m m' : Modem) (c : SimLoop) (h : SimAt msg X m c)
    (hX : X ≠ .writePacket) (hi : X ≠ .init) (hrs : X ≠ .reset) (hXY : Y ≠ X)
    (t : Nat) (r1 r2 : Bytes) (oob : Byte)
    (hb : (c.s.body cfg { sec := t % 60, near := true, r1 := r1, r2 := r2, oob := oob }).1.st = Y)
    (ho : (c.s.body cfg { sec := t % 60, near := true, r1 := r1, r2 := r2, oob := oob }).1.old = c.s.old)
    (hc : (c.s.body cfg { sec := t % 60, near := true, r1 := r1, r2 := r2, oob := oob }).1.msgCount = 0)
    (hm : m.hears (c.s.body cfg { sec := t % 60, near := true, r1 := r1, r2 := r2, oob := oob }).2 = m') :
    SimAt0 msg Y m' (c.step cfg t r1 r2 oob) := by
  refine ⟨sim_move cfg msg X Y m m' c h hX hi hrs hXY t r1 r2 oob hb ho (by rw [hc]; simp) hm, ?_⟩
  obtain ⟨hs, _⟩ := sim_step_unlocked cfg c h.2.2.1 h.2.2.2.1 t r1 r2 oob
  rw [hs, sim_onStateChange_msgCount]; exact hc

theorem sim_setApn (cfg : SimCfg) (msg : Bytes) (m : Modem) (hm : m.on = true) (c : SimLoop) (h : SimAt msg .setApn m c) :
    SimInev cfg (SimAt0 msg .startGprs m) 1 c := by
  refine SimInev.step (n := 0) (fun t r1 r2 oob ha => ?_)
  obtain ⟨_, hout⟩ := sim_step_unlocked cfg c h.2.2.1 h.2.2.2.1 t r1 r2 oob
  have hans := ha.2.2
  rw [hout] at hans
  have hA : apnAccepted r1 oob = true :=
    ans_apn c.m r1 oob cfg.apn (hans (.setApn cfg.apn) (by unfold Sim.body; rw [h.2.1]; rfl)) (by rw [h.2.2.2.2]; exact hm)
  refine sim_move0 cfg msg .setApn _ m m c h (by simp) (by simp) (by simp) (by simp) t r1 r2 oob ?_ ?_ ?_ ?_ <;>
    unfold Sim.body <;> rw [h.2.1] <;> dsimp only [Sim.setRetryLock]
  · rw [hA, if_pos rfl]
  · rw [hA, if_pos rfl]
  · rfl

/-- Locked in START_GPRS with retries left. -/
def SimLockG (msg : Bytes) (m : Modem) (c : SimLoop) : Prop :=
  SimPend msg c ∧ c.s.st = .startGprs ∧ c.s.msgCount = 0 ∧ c.m = m ∧ 0 < c.s.retries ∧ ∃ r, c.s.retryTimer = some r

theorem sim_unlockG (cfg : SimCfg) (msg : Bytes) (m : Modem) (n : Nat) (c : SimLoop) (h : SimLockG msg m c)
    (hn : simLockM c ≤ n) : SimInev cfg (SimAt0 msg .startGprs m) (n + 1) c := by
  induction n using Nat.strongRecOn generalizing c with
  | _ n ih =>
    refine SimInev.step (fun t r1 r2 oob ha => ?_)
    obtain ⟨hp, hst, hc, hm, hpos, r, hr⟩ := h
    have hp' := hp.step (cfg := cfg) t r1 r2 oob (by rw [hst]; simp)
    have hpoll : c.s.poll cfg { sec := t % 60, near := true, r1 := r1, r2 := r2, oob := oob } = (c.s.retryLockOut r (t % 60), []) := by
      simp only [Sim.poll, hr]
    have hs : (c.step cfg t r1 r2 oob).s = c.s.retryLockOut r (t % 60) := by
      simp only [SimLoop.step]; rw [hpoll]
    have hmm : (c.step cfg t r1 r2 oob).m = m := by
      simp only [SimLoop.step]; rw [hpoll, hm]; rfl
    unfold Sim.retryLockOut at hs
    rw [if_neg (by omega)] at hs
    by_cases hwl : waitedLong r 2 (t % 60) = true
    · rw [if_pos hwl] at hs
      apply SimInev.now
      refine ⟨⟨hp', ?_, ?_, ?_, hmm⟩, ?_⟩ <;> rw [hs]
      · exact hst
      · dsimp only; rw [hc]; simp
      · exact hc
    · rw [if_neg hwl] at hs
      have hl := simRem_step 2 r c.t t (by omega) (hp.wf.rt r hr) ha.1 ha.2.1 (by simpa using hwl)
      have e1 : simLockM c = simRem 2 r c.t := by unfold simLockM; rw [hr]
      have e2 : simLockM (c.step cfg t r1 r2 oob) = simRem 2 r t := by unfold simLockM; rw [hs, hr]; rfl
      exact (ih (simLockM (c.step cfg t r1 r2 oob)) (by omega) _
        ⟨hp', by rw [hs]; exact hst, by rw [hs]; exact hc, hmm, by rw [hs]; exact hpos, r, by rw [hs]; exact hr⟩ (Nat.le_refl _)).weaken
        (by omega)

theorem sim_startGprs_first (cfg : SimCfg) (msg : Bytes) (c : SimLoop) (h : SimAt0 msg .startGprs ⟨true, false, false⟩ c)
    (hret : c.s.retries = 10) : SimInev cfg (SimLockG msg ⟨true, true, false⟩) 1 c := by
  refine SimInev.step (n := 0) (fun t r1 r2 oob ha => ?_)
  obtain ⟨hs, hout⟩ := sim_step_unlocked cfg c h.1.2.2.1 h.1.2.2.2.1 t r1 r2 oob
  have hold := h.1.old (by simp) (by simp)
  have hans := ha.2.2
  rw [hout] at hans
  have hA := ans_status c.m r1 oob (hans .status (by unfold Sim.body; rw [h.1.2.1]; dsimp only; split <;> rfl))
  rw [h.1.2.2.2.2] at hA
  simp at hA
  have hp' := h.1.1.step (cfg := cfg) t r1 r2 oob (by rw [h.1.2.1]; simp)
  have hb : c.s.body cfg { sec := t % 60, near := true, r1 := r1, r2 := r2, oob := oob } =
      (c.s.setRetryLock (t % 60), [.status, .startGprs]) := by
    unfold Sim.body; rw [h.1.2.1]; dsimp only
    rw [hA, if_neg (by decide), if_pos rfl, ← h.1.2.1]
  rw [hb] at hs
  dsimp only at hs
  rw [sim_osc_st_eq _ (show (c.s.setRetryLock (t % 60)).st = (c.s.setRetryLock (t % 60)).old by
    show c.s.st = c.s.old; rw [hold, h.1.2.1])] at hs
  refine ⟨hp', ?_, ?_, ?_, ?_, t % 60, ?_⟩
  · rw [hs]; exact h.1.2.1
  · rw [hs]; exact h.2
  · show c.m.hears (c.s.poll cfg _).2 = _
    rw [hout, hb, h.1.2.2.2.2]; rfl
  · rw [hs]; simp [Sim.setRetryLock, hret]
  · rw [hs]; rfl

theorem sim_startGprs_second (cfg : SimCfg) (msg : Bytes) (c : SimLoop) (h : SimAt0 msg .startGprs ⟨true, true, false⟩ c) :
    SimInev cfg (SimAt0 msg .getIp ⟨true, true, false⟩) 1 c := by
  refine SimInev.step (n := 0) (fun t r1 r2 oob ha => ?_)
  obtain ⟨_, hout⟩ := sim_step_unlocked cfg c h.1.2.2.1 h.1.2.2.2.1 t r1 r2 oob
  have hans := ha.2.2
  rw [hout] at hans
  have hA := ans_status c.m r1 oob (hans .status (by unfold Sim.body; rw [h.1.2.1]; dsimp only; split <;> rfl))
  rw [h.1.2.2.2.2] at hA
  simp at hA
  refine sim_move0 cfg msg .startGprs _ _ _ c h.1 (by simp) (by simp) (by simp) (by simp) t r1 r2 oob ?_ ?_ ?_ ?_ <;>
    unfold Sim.body <;> rw [h.1.2.1] <;> dsimp only [Sim.setRetryLock]
  · rw [hA, if_pos rfl]
  · exact h.2
  · rw [hA, if_neg (by decide)]; rfl

theorem sim_getIp (cfg : SimCfg) (msg : Bytes) (m : Modem) (c : SimLoop) (h : SimAt0 msg .getIp m c) :
    SimInev cfg (SimAt0 msg .openUdp m) 1 c := by
  refine SimInev.step (n := 0) (fun t r1 r2 oob ha => ?_)
  refine sim_move0 cfg msg .getIp _ _ _ c h.1 (by simp) (by simp) (by simp) (by simp) t r1 r2 oob ?_ ?_ ?_ ?_ <;>
    unfold Sim.body <;> rw [h.1.2.1]
  · exact h.2
  · rfl

theorem sim_openUdp (cfg : SimCfg) (msg : Bytes) (c : SimLoop) (h : SimAt0 msg .openUdp ⟨true, true, false⟩ c) :
    SimInev cfg (SimAt0 msg .idle ⟨true, true, true⟩) 1 c := by
  refine SimInev.step (n := 0) (fun t r1 r2 oob ha => ?_)
  obtain ⟨_, hout⟩ := sim_step_unlocked cfg c h.1.2.2.1 h.1.2.2.2.1 t r1 r2 oob
  have hans := ha.2.2
  rw [hout] at hans
  have hA : udpOpened r1 oob = true :=
    ans_open c.m r1 oob cfg.addr cfg.port (hans (.startUdp cfg.addr cfg.port) (by unfold Sim.body; rw [h.1.2.1]; rfl))
      (by rw [h.1.2.2.2.2]) (by rw [h.1.2.2.2.2])
  refine sim_move0 cfg msg .openUdp _ _ _ c h.1 (by simp) (by simp) (by simp) (by simp) t r1 r2 oob ?_ ?_ ?_ ?_ <;>
    unfold Sim.body <;> rw [h.1.2.1] <;> dsimp only [Sim.setRetryLock]
  · rw [hA, if_pos rfl]
  · exact h.2
  · rfl

theorem sim_idle (cfg : SimCfg) (msg : Bytes) (m : Modem) (c : SimLoop) (h : SimAt0 msg .idle m c) :
    SimInev cfg (SimAt0 msg .waitUdp m) 1 c := by
  refine SimInev.step (n := 0) (fun t r1 r2 oob ha => ?_)
  refine sim_move0 cfg msg .idle _ _ _ c h.1 (by simp) (by simp) (by simp) (by simp) t r1 r2 oob ?_ ?_ ?_ ?_ <;>
    unfold Sim.body <;> rw [h.1.2.1] <;> dsimp only
  · rw [if_pos (by rw [h.1.1.q]; omega)]
  · exact h.2
  · rfl

theorem sim_waitUdp (cfg : SimCfg) (msg : Bytes) (c : SimLoop) (h : SimAt0 msg .waitUdp ⟨true, true, true⟩ c) :
    SimInev cfg (SimAt0 msg .initSend ⟨true, true, true⟩) 1 c := by
  refine SimInev.step (n := 0) (fun t r1 r2 oob ha => ?_)
  obtain ⟨_, hout⟩ := sim_step_unlocked cfg c h.1.2.2.1 h.1.2.2.2.1 t r1 r2 oob
  have hans := ha.2.2
  rw [hout] at hans
  have hA := ans_status c.m r1 oob (hans .status (by unfold Sim.body; rw [h.1.2.1]; dsimp only; (repeat' split) <;> rfl))
  rw [h.1.2.2.2.2] at hA
  simp at hA
  refine sim_move0 cfg msg .waitUdp _ _ _ c h.1 (by simp) (by simp) (by simp) (by simp) t r1 r2 oob ?_ ?_ ?_ ?_ <;>
    unfold Sim.body <;> rw [h.1.2.1] <;> dsimp only <;> rw [hA, if_pos rfl]
  · exact h.2
  · rfl

/-- The frame has reached a modem whose socket was open. -/
def SimDelivered (msg : Bytes) (c : SimLoop) : Prop := msg ∈ c.delivered

/-- About to write on an open socket. -/
theorem sim_write (cfg : SimCfg) (msg : Bytes) (m : Modem) (h1 : m.on = true) (h2 : m.udp = true) (c : SimLoop)
    (h : SimAt msg .writePacket m c) : SimInev cfg (SimDelivered msg) 1 c := by
  refine SimInev.step (n := 0) (fun t r1 r2 oob ha => ?_)
  obtain ⟨_, hout⟩ := sim_step_unlocked cfg c h.2.2.1 h.2.2.2.1 t r1 r2 oob
  show msg ∈ (c.step cfg t r1 r2 oob).delivered
  simp only [SimLoop.step]
  rw [hout, h.2.2.2.2, h1, h2]
  have hb : (c.s.body cfg { sec := t % 60, near := true, r1 := r1, r2 := r2, oob := oob }).2 = [.data (c.s.buf.take c.s.msgLen)] := by
    unfold Sim.body; rw [h.2.1]
  rw [hb, h.1.m]
  simp [simData]

/-- About to send on an open socket: the frame is delivered, or the 255th announcement resets the link first. -/
theorem sim_send (cfg : SimCfg) (msg : Bytes) (m : Modem) (h1 : m.on = true) (h2 : m.udp = true) (c : SimLoop)
    (hp : SimPend msg c) (hst : c.s.st = .initSend) (hr : c.s.retryTimer = none) (hm : c.m = m) :
    SimInev cfg (fun c' => SimDelivered msg c' ∨ (SimPend msg c' ∧ c'.s.st = .reset)) 2 c := by
  refine SimInev.step (n := 1) (fun t r1 r2 oob ha => ?_)
  have hp' := hp.step (cfg := cfg) t r1 r2 oob (by rw [hst]; simp)
  by_cases hc : c.s.msgCount = 255
  · apply SimInev.now
    right
    refine ⟨hp', ?_⟩
    simp only [SimLoop.step, Sim.poll, hr]; rw [if_pos hc]
  · have hb : c.s.body cfg { sec := t % 60, near := true, r1 := r1, r2 := r2, oob := oob } =
        ({ c.s.bump with st := .writePacket }, [.at, .send c.s.msgLen]) := by
      unfold Sim.body; rw [hst]; dsimp only; rw [if_pos (by rw [hp.q]; omega)]
    obtain ⟨hs, hout⟩ := sim_step_unlocked cfg c hr hc t r1 r2 oob
    rw [hb] at hs
    have hold : c.s.old = .initSend := by
      rcases hp.wf.old with h' | h' | h'
      · rw [← h', hst]
      · rw [hst] at h'; cases h'
      · rw [hst] at h'; cases h'
    rw [sim_osc_st_ne _ (show SimSt.writePacket ≠ c.s.old by rw [hold]; simp)] at hs
    have hm' : (c.step cfg t r1 r2 oob).m = m := by
      simp only [SimLoop.step]; rw [hout, hb, hm]; rfl
    by_cases hcc : (c.step cfg t r1 r2 oob).s.msgCount = 255
    · refine SimInev.step (n := 0) (fun t' r1' r2' oob' ha' => ?_)
      right
      have hpoll : (c.step cfg t r1 r2 oob).s.poll cfg { sec := t' % 60, near := true, r1 := r1', r2 := r2', oob := oob' } =
          ({ (c.step cfg t r1 r2 oob).s with msgCount := 0, st := .reset }, []) := by
        have hrr : (c.step cfg t r1 r2 oob).s.retryTimer = none := by rw [hs]
        simp only [Sim.poll, hrr]; rw [if_pos hcc]
      have hss : ((c.step cfg t r1 r2 oob).step cfg t' r1' r2' oob').s =
          { (c.step cfg t r1 r2 oob).s with msgCount := 0, st := .reset } := by
        show ((c.step cfg t r1 r2 oob).s.poll cfg _).1 = _
        rw [hpoll]
      have hwf := sim_poll_wf cfg (c.step cfg t r1 r2 oob).s { sec := t' % 60, near := true, r1 := r1', r2 := r2', oob := oob' }
        (Nat.mod_lt _ (by omega)) hp'.wf
      rw [hpoll] at hwf
      exact ⟨⟨by rw [hss]; exact hwf, by rw [hss]; exact hp'.q, by rw [hss]; exact hp'.m, by rw [hss]; simp⟩, by rw [hss]⟩
    · have hat : SimAt msg .writePacket m (c.step cfg t r1 r2 oob) := ⟨hp', by rw [hs], by rw [hs], hcc, hm'⟩
      have := (sim_write cfg msg m h1 h2 _ hat).bind (k := 0)
        (Q := fun c' => SimDelivered msg c' ∨ (SimPend msg c' ∧ c'.s.st = .reset)) (fun c' hc' => SimInev.now (.inl hc'))
      exact this

/-- A fresh modem: the frame is delivered within 16 calls. -/
theorem sim_stageC (cfg : SimCfg) (msg : Bytes) (c : SimLoop) (h : SimAt msg .checkPin ⟨true, false, false⟩ c) :
    SimInev cfg (SimDelivered msg) 17 c := by
  refine (sim_checkPin cfg msg _ rfl c h).bind (k := 16) (fun c h => ?_)
  refine (sim_waitReg cfg msg _ rfl c h).bind (k := 15) (fun c h => ?_)
  refine SimInev.bind (n := 1) (k := 14) (P := fun c => SimAt0 msg .startGprs ⟨true, false, false⟩ c ∧ c.s.retries = 10) ?_ (fun c h => ?_)
  · refine SimInev.step (n := 0) (fun t r1 r2 oob ha => ?_)
    have h1 := sim_setApn cfg msg ⟨true, false, false⟩ rfl c h
    rcases h1 with h1 | h1
    · have := h1.1.2.1; rw [h.2.1] at this; cases this
    · have h2 := h1 t r1 r2 oob ha
      refine ⟨h2, ?_⟩
      obtain ⟨hs, _⟩ := sim_step_unlocked cfg c h.2.2.1 h.2.2.2.1 t r1 r2 oob
      have hst : ((c.s.body cfg { sec := t % 60, near := true, r1 := r1, r2 := r2, oob := oob }).1).st = .startGprs := by
        have := h2.1.2.1
        rw [hs, sim_onStateChange_st] at this; exact this
      have hbo : ((c.s.body cfg { sec := t % 60, near := true, r1 := r1, r2 := r2, oob := oob }).1).old = c.s.old := by
        unfold Sim.body; rw [h.2.1]; rfl
      rw [hs, sim_osc_st_ne _ (by rw [hst, hbo, h.old (by simp) (by simp)]; simp)]
      dsimp only
      rw [hst, if_neg (by simp)]
  refine (sim_startGprs_first cfg msg c h.1 h.2).bind (k := 13) (fun c h => ?_)
  refine (sim_unlockG cfg msg _ 4 c h (by
    obtain ⟨_, _, _, _, _, r, hr⟩ := h
    unfold simLockM; rw [hr]; exact simRem_le 2 _ _)).bind (k := 8) (fun c h => ?_)
  refine (sim_startGprs_second cfg msg c h).bind (k := 7) (fun c h => ?_)
  refine (sim_getIp cfg msg _ c h).bind (k := 6) (fun c h => ?_)
  refine (sim_openUdp cfg msg c h).bind (k := 5) (fun c h => ?_)
  refine (sim_idle cfg msg _ c h).bind (k := 4) (fun c h => ?_)
  refine (sim_waitUdp cfg msg c h).bind (k := 3) (fun c h => ?_)
  refine SimInev.weaken (n := 2) ?_ (by omega)
  -- the counter is 0, so no reset can intervene
  refine SimInev.step (n := 1) (fun t r1 r2 oob ha => ?_)
  have hb : c.s.body cfg { sec := t % 60, near := true, r1 := r1, r2 := r2, oob := oob } =
      ({ c.s.bump with st := .writePacket }, [.at, .send c.s.msgLen]) := by
    unfold Sim.body; rw [h.1.2.1]; dsimp only; rw [if_pos (by rw [h.1.1.q]; omega)]
  have h' := sim_move cfg msg .initSend .writePacket ⟨true, true, true⟩ ⟨true, true, true⟩ c h.1 (by simp) (by simp) (by simp) (by simp)
    t r1 r2 oob (by rw [hb]) (by rw [hb]; rfl) (by rw [hb]; simp [Sim.bump, h.2]) (by rw [hb]; rfl)
  exact sim_write cfg msg _ rfl rfl _ h'

/-- From a reset or the start of a power cycle the frame is delivered. -/
theorem sim_stageBC (cfg : SimCfg) (msg : Bytes) (c : SimLoop) (hp : SimPend msg c) (hst : c.s.st = .reset ∨ c.s.st = .getState) :
    SimInev cfg (SimDelivered msg) 70 c := by
  -- any lock left over is released or turns into a reset; then the counter check; then GET_STATE
  have hget : ∀ c : SimLoop, SimPend msg c → c.s.st = .getState → c.s.retryTimer = none → c.s.msgCount ≠ 255 →
      SimInev cfg (SimDelivered msg) 61 c := by
    intro c hp h1 h2 h3
    exact (sim_fresh cfg msg c.m c ⟨hp, h1, h2, h3, rfl⟩).bind (k := 17) (fun c h => sim_stageC cfg msg c h)
  have hres : ∀ c : SimLoop, SimPend msg c → c.s.st = .reset → c.s.retryTimer = none → c.s.msgCount ≠ 255 →
      SimInev cfg (SimDelivered msg) 62 c := by
    intro c hp h1 h2 h3
    refine SimInev.step (n := 61) (fun t r1 r2 oob ha => ?_)
    obtain ⟨hs, _⟩ := sim_step_unlocked cfg c h2 h3 t r1 r2 oob
    have hb : c.s.body cfg { sec := t % 60, near := true, r1 := r1, r2 := r2, oob := oob } = ({ c.s with st := .getState }, []) := by
      unfold Sim.body; rw [h1]
    rw [hb] at hs
    refine hget _ (hp.step t r1 r2 oob (by rw [h1]; simp)) ?_ ?_ ?_
    · rw [hs, sim_onStateChange_st]
    · rw [hs]; unfold Sim.onStateChange; split
      · rfl
      · exact h2
    · rw [hs, sim_onStateChange_msgCount]; exact h3
  have hunl : ∀ c : SimLoop, SimPend msg c → (c.s.st = .reset ∨ c.s.st = .getState) → c.s.retryTimer = none →
      SimInev cfg (SimDelivered msg) 63 c := by
    intro c hp h1 h2
    by_cases h3 : c.s.msgCount = 255
    · refine SimInev.step (n := 62) (fun t r1 r2 oob ha => ?_)
      have hs : (c.step cfg t r1 r2 oob).s = { c.s with msgCount := 0, st := .reset } := by
        simp only [SimLoop.step, Sim.poll, h2]; rw [if_pos h3]
      refine hres _ (hp.step t r1 r2 oob (by rcases h1 with h1 | h1 <;> rw [h1] <;> simp)) ?_ ?_ ?_ <;> rw [hs]
      · exact h2
      · simp
    · rcases h1 with h1 | h1
      · exact (hres c hp h1 h2 h3).weaken (by omega)
      · exact (hget c hp h1 h2 h3).weaken (by omega)
  -- locked
  have hlock : ∀ n (c : SimLoop), SimPend msg c → (c.s.st = .reset ∨ c.s.st = .getState) → simLockM c ≤ n →
      SimInev cfg (SimDelivered msg) (n + 63) c := by
    intro n
    induction n with
    | zero =>
      intro c hp h1 h2
      apply (hunl c hp h1 ?_).weaken (by omega)
      unfold simLockM at h2
      cases hr : c.s.retryTimer with
      | none => rfl
      | some r => rw [hr] at h2; have := simRem_pos 2 r c.t; dsimp only at h2; omega
    | succ n ih =>
      intro c hp h1 h2
      cases hr : c.s.retryTimer with
      | none => exact (hunl c hp h1 hr).weaken (by omega)
      | some r =>
        rw [show n + 1 + 63 = (n + 63) + 1 by omega]
        refine SimInev.step (fun t r1 r2 oob ha => ?_)
        have hp' := hp.step (cfg := cfg) t r1 r2 oob (by rcases h1 with h1 | h1 <;> rw [h1] <;> simp)
        have hs : (c.step cfg t r1 r2 oob).s = c.s.retryLockOut r (t % 60) := by
          simp only [SimLoop.step, Sim.poll, hr]
        unfold Sim.retryLockOut at hs
        by_cases hz : c.s.retries = 0
        · rw [if_pos hz] at hs
          exact (hunl _ hp' (.inl (by rw [hs])) (by rw [hs])).weaken (by omega)
        · rw [if_neg hz] at hs
          by_cases hwl : waitedLong r 2 (t % 60) = true
          · rw [if_pos hwl] at hs
            exact (hunl _ hp' (by rw [hs]; exact h1) (by rw [hs])).weaken (by omega)
          · rw [if_neg hwl] at hs
            have hl := simRem_step 2 r c.t t (by omega) (hp.wf.rt r hr) ha.1 ha.2.1 (by simpa using hwl)
            have e1 : simLockM c = simRem 2 r c.t := by unfold simLockM; rw [hr]
            have e2 : simLockM (c.step cfg t r1 r2 oob) = simRem 2 r t := by unfold simLockM; rw [hs, hr]; rfl
            exact ih _ hp' (by rw [hs]; exact h1) (by omega)
  refine (hlock 4 c hp hst ?_).weaken (by omega)
  unfold simLockM; split
  · omega
  · exact simRem_le 2 _ _

theorem sim_recovers (cfg : SimCfg) (msg : Bytes) (c : SimLoop) (hp : SimPend msg c)
    (h1 : c.s.st ≠ .initSend) (h2 : c.s.st ≠ .writePacket) : SimInev cfg (SimDelivered msg) 981 c := by
  have hexit : ∀ c, SimExit msg c → SimInev cfg (SimDelivered msg) 72 c := by
    intro c ⟨hp, h⟩
    rcases h with h | h | ⟨a, b, d, f⟩
    · exact (sim_stageBC cfg msg c hp (.inl h)).weaken (by omega)
    · exact (sim_stageBC cfg msg c hp (.inr h)).weaken (by omega)
    · refine (sim_send cfg msg c.m d f c hp a b rfl).bind (k := 70) (fun c' h' => ?_)
      rcases h' with h' | ⟨h', h''⟩
      · exact SimInev.now h'
      · exact sim_stageBC cfg msg c' h' (.inl h'')
  by_cases hmid : simMid c.s.st = true
  · exact (sim_stageA cfg msg 908 c hp hmid (simM_bound msg c hp hmid)).bind (k := 72) hexit
  · refine (hexit c ⟨hp, ?_⟩).weaken (by omega)
    have h3 := hp.ni
    have h4 := hp.wf.np
    cases hst : c.s.st <;> simp_all [simMid]

/-! ## C130 -/

/-- The loop after the first `k` calls of a schedule of calls (time, the modem's two answers, memory beyond the buffer). -/
def SimLoop.run (cfg : SimCfg) (c : SimLoop) (sch : Nat → Nat × Bytes × Bytes × Byte) : Nat → SimLoop
  | 0 => c
  | k + 1 => (c.run cfg sch k).step cfg (sch k).1 (sch k).2.1 (sch k).2.2.1 (sch k).2.2.2

theorem sim_run_shift (cfg : SimCfg) (c : SimLoop) (sch : Nat → Nat × Bytes × Bytes × Byte) (k : Nat) :
    c.run cfg sch (k + 1) =
      (c.step cfg (sch 0).1 (sch 0).2.1 (sch 0).2.2.1 (sch 0).2.2.2).run cfg (fun i => sch (i + 1)) k := by
  induction k with
  | zero => rfl
  | succ k ih => rw [SimLoop.run, ih]; rfl

theorem SimInev.run {cfg : SimCfg} {P : SimLoop → Prop} {n : Nat} {c : SimLoop} (h : SimInev cfg P n c)
    (sch : Nat → Nat × Bytes × Bytes × Byte)
    (ha : ∀ k, (c.run cfg sch k).Allowed cfg (sch k).1 (sch k).2.1 (sch k).2.2.1 (sch k).2.2.2) :
    ∃ k, k ≤ n ∧ P (c.run cfg sch k) := by
  induction n generalizing c sch with
  | zero => exact ⟨0, Nat.le_refl _, h⟩
  | succ n ih =>
    rcases h with h | h
    · exact ⟨0, Nat.zero_le _, h⟩
    · obtain ⟨k, hk, hp⟩ := ih (h _ _ _ _ (ha 0)) (fun i => sch (i + 1)) (fun k => by
        rw [← sim_run_shift]; exact ha (k + 1))
      exact ⟨k + 1, by omega, by rw [sim_run_shift]; exact hp⟩

/-- **C130.** Take any history of calls ending with an accepted `queueToSend(msg)` at which the link has done its first `poll()` since
`begin()` and is not in the middle of writing a frame, with the modem in any condition (off, on, half connected). If `poll()` is
then called every 1 to 47 seconds and the modem answers truthfully, then within 981 calls `msg` is written to the modem
while its socket is open: no earlier failure, exhausted retry, power state or counter can leave the link stuck. -/
theorem C130_recovers_and_delivers (cfg : SimCfg) (h : List (Nat × SimOp)) (t0 : Nat) (msg : Bytes) (hlen : msg.length ≤ 64)
    (hst : (Sim.after cfg h).st ≠ .init ∧ (Sim.after cfg h).st ≠ .initSend ∧ (Sim.after cfg h).st ≠ .writePacket)
    (m : Modem) (sch : Nat → Nat × Bytes × Bytes × Byte)
    (ha : ∀ k, ((⟨Sim.after cfg ((t0, .queue (some msg)) :: h), m, t0, []⟩ : SimLoop).run cfg sch k).Allowed cfg
      (sch k).1 (sch k).2.1 (sch k).2.2.1 (sch k).2.2.2) :
    ∃ k, k ≤ 981 ∧ msg ∈ ((⟨Sim.after cfg ((t0, .queue (some msg)) :: h), m, t0, []⟩ : SimLoop).run cfg sch k).delivered := by
  have hs : Sim.after cfg ((t0, .queue (some msg)) :: h) =
      { Sim.after cfg h with queued := 1, buf := msg ++ (Sim.after cfg h).buf.drop msg.length, msgLen := msg.length } := by
    simp only [Sim.after, Sim.op, Sim.queueToSend]; rw [if_neg (by omega)]
  have hwf := sim_after_wf cfg ((t0, .queue (some msg)) :: h)
  have hp : SimPend msg ⟨Sim.after cfg ((t0, .queue (some msg)) :: h), m, t0, []⟩ :=
    ⟨hwf, by dsimp only; rw [hs], by dsimp only; rw [hs]; simp, by dsimp only; rw [hs]; exact hst.1⟩
  exact (sim_recovers cfg msg _ hp (by dsimp only; rw [hs]; exact hst.2.1) (by dsimp only; rw [hs]; exact hst.2.2)).run sch ha

/-- The hypotheses are met, and the conclusion is not immediate: after the start-up the frame is delivered by the fourth call. -/
example : (Sim.after simCfg0 simStart.reverse).st = .idle ∧
    (((⟨Sim.after simCfg0 ((31, .queue (some [1, 2, 3])) :: simStart.reverse), ⟨true, true, true⟩, 31, []⟩ : SimLoop).run simCfg0
      (fun k => (33 + 2 * k, [65, 32, 67, 1, 1, 1], [], 0)) 4).delivered = [[1, 2, 3]]) := by decide +kernel

theorem sim_head_indep (cfg : SimCfg) (s : Sim) (sec : Nat) (r1 r2 r1' r2' : Bytes) (oob oob' : Byte) :
    (s.poll cfg { sec := sec, near := true, r1 := r1, r2 := r2, oob := oob }).2.head? =
    (s.poll cfg { sec := sec, near := true, r1 := r1', r2 := r2', oob := oob' }).2.head? := by
  unfold Sim.poll
  cases s.retryTimer with
  | some t => rfl
  | none =>
    dsimp only
    split
    · rfl
    · rw [if_neg (by simp), if_neg (by simp)]; dsimp only
      unfold Sim.body
      cases s.st <;> dsimp only
      case startGprs => split <;> split <;> rfl
      case waitUdp => (repeat' split) <;> rfl
      all_goals (repeat' split) <;> rfl

/-- A truthful modem always has an answer, so schedules as in C130 exist from every situation. -/
theorem C130_schedules_exist (cfg : SimCfg) (c : SimLoop) : ∃ t r1 r2 oob, c.Allowed cfg t r1 r2 oob := by
  have hans : ∀ q, ∃ r, c.m.Answers q r := by
    intro q
    unfold Modem.Answers
    cases c.m.on with
    | false => exact ⟨[], by simp⟩
    | true =>
      simp only [Bool.true_eq_false, if_false]
      cases q with
      | «at» => exact ⟨[65], rfl⟩
      | pinQ => exact ⟨[32, 82], [], [], rfl, by simp, by simp⟩
      | regQ => exact ⟨[32, 0, 0, 49], [], 0, 0, 49, [], rfl, by simp, by simp, .inl rfl⟩
      | setApn a => exact ⟨[10, 0, 0, 79], [], 0, 0, [], rfl, by simp, by simp⟩
      | status =>
        cases c.m.udp with
        | true => exact ⟨[32, 67, 0, 0, 0], [], 67, 0, 0, 0, [], rfl, by simp, by simp, by simp⟩
        | false =>
          cases c.m.gprs with
          | true => exact ⟨[32, 73, 0, 0, 71], [], 73, 0, 0, 71, [], rfl, by simp, by simp, by simp⟩
          | false => exact ⟨[32, 73, 0, 0, 73], [], 73, 0, 0, 73, [], rfl, by simp, by simp, by simp⟩
      | startUdp a p => exact ⟨[10, 79], fun _ => ⟨[], 79, [], rfl, by simp, by simp, by simp⟩⟩
      | _ => exact ⟨[], trivial⟩
  cases hq : (c.s.poll cfg { sec := (c.t + 1) % 60, near := true, r1 := [], r2 := [], oob := 0 }).2.head? with
  | none =>
    refine ⟨c.t + 1, [], [], 0, by omega, by omega, fun q h => ?_⟩
    rw [hq] at h; cases h
  | some q =>
    obtain ⟨r, hr⟩ := hans q
    refine ⟨c.t + 1, r, [], 0, by omega, by omega, fun q' h => ?_⟩
    rw [sim_head_indep cfg c.s _ r [] [] [] 0 0, hq] at h
    injection h with h
    rw [← h]; exact hr

/-- **C130 (limit).** Polled at exact one-minute intervals the link never sees its power-up wait end: the modulo-60 clock shows
no time passing, and the power key stays pressed. -/
theorem C130_refuted_minute_polls (cfg : SimCfg) (s : Sim) (e : SimEnv) (h : s.st = .waitPwrHigh) (ho : s.old = .waitPwrHigh)
    (hr : s.retryTimer = none) (hm : s.msgCount ≠ 255) (he : e.sec = s.powerTimer) : s.poll cfg e = (s, []) := by
  unfold Sim.poll
  rw [hr]; dsimp only
  rw [if_neg hm]
  split
  · rfl
  · have hb : s.body cfg e = (s, []) := by
      unfold Sim.body; rw [h]; dsimp only
      rw [if_neg (by rw [he]; simp [waitedLong, elapsed_self])]
    rw [hb]; dsimp only
    rw [sim_osc_st_eq s (by rw [h, ho])]

end OTR.Props
