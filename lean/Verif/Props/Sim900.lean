import Verif.Model.Sim900

/-!
# C125-C129: frames, connection, power pin and retries of the GPRS link

Histories are lists of timed calls, newest first. The specification functions below look only at the calls and at
the events (`SimOut`) the link caused.
-/

namespace OTR.Props

/-- Frames accepted by `queueToSend` in a history, oldest first: non-null and at most 64 bytes. -/
def simAccepted : List (Nat × SimOp) → List Bytes
  | [] => []
  | (_, .queue (some m)) :: h => if m.length ≤ 64 then simAccepted h ++ [m] else simAccepted h
  | _ :: h => simAccepted h

/-- The frame bytes among some events. -/
def simData : List SimOut → List Bytes
  | [] => []
  | .data d :: t => d :: simData t
  | _ :: t => simData t

/-- Frames written to the modem by `poll()` in a history, oldest first. -/
def simWritten (cfg : SimCfg) : List (Nat × SimOp) → List Bytes
  | [] => []
  | (t, .poll near r1 r2 oob) :: h => simWritten cfg h ++ simData (Sim.outs cfg h t (.poll near r1 r2 oob))
  | _ :: h => simWritten cfg h

/-! ## One call of `poll()` -/

theorem sim_onStateChange_st (s : Sim) : s.onStateChange.st = s.st := by
  unfold Sim.onStateChange; split <;> rfl
theorem sim_onStateChange_queued (s : Sim) : s.onStateChange.queued = s.queued := by
  unfold Sim.onStateChange; split <;> rfl
theorem sim_onStateChange_buf (s : Sim) : s.onStateChange.buf = s.buf := by
  unfold Sim.onStateChange; split <;> rfl
theorem sim_onStateChange_msgLen (s : Sim) : s.onStateChange.msgLen = s.msgLen := by
  unfold Sim.onStateChange; split <;> rfl
theorem sim_onStateChange_pin (s : Sim) : s.onStateChange.pin = s.pin := by
  unfold Sim.onStateChange; split <;> rfl
theorem sim_onStateChange_power (s : Sim) : s.onStateChange.powerTimer = s.powerTimer := by
  unfold Sim.onStateChange; split <;> rfl
theorem sim_onStateChange_msgCount (s : Sim) : s.onStateChange.msgCount = s.msgCount := by
  unfold Sim.onStateChange; split <;> rfl
theorem sim_lock_st (s : Sim) (n : Nat) : (s.setRetryLock n).st = s.st := rfl

/-- A call of `poll()` is one of: nothing but a retry-lock update; a forced reset; a skipped call; one turn of the state machine. -/
theorem sim_poll_cases (cfg : SimCfg) (s : Sim) (e : SimEnv) :
    (∃ t, s.retryTimer = some t ∧ s.poll cfg e = (s.retryLockOut t e.sec, [])) ∨
    (s.retryTimer = none ∧ s.msgCount = 255 ∧ s.poll cfg e = ({ s with msgCount := 0, st := .reset }, [])) ∨
    (s.retryTimer = none ∧ s.msgCount ≠ 255 ∧ s.poll cfg e = (s, [])) ∨
    (s.retryTimer = none ∧ s.msgCount ≠ 255 ∧ s.poll cfg e = ((s.body cfg e).1.onStateChange, (s.body cfg e).2)) := by
  unfold Sim.poll
  cases h : s.retryTimer with
  | some t => exact .inl ⟨t, rfl, rfl⟩
  | none =>
    dsimp only
    by_cases hc : s.msgCount = 255
    · rw [if_pos hc]; exact .inr (.inl ⟨rfl, hc, rfl⟩)
    · rw [if_neg hc]
      by_cases hn : e.near = false
      · rw [if_pos hn]; exact .inr (.inr (.inl ⟨rfl, hc, rfl⟩))
      · rw [if_neg hn]; exact .inr (.inr (.inr ⟨rfl, hc, rfl⟩))

theorem sim_lockOut_fields (s : Sim) (t n : Nat) :
    (s.retryLockOut t n).queued = s.queued ∧ (s.retryLockOut t n).buf = s.buf ∧
    (s.retryLockOut t n).msgLen = s.msgLen ∧ (s.retryLockOut t n).pin = s.pin ∧
    (s.retryLockOut t n).powerTimer = s.powerTimer ∧
    ((s.retryLockOut t n).st = s.st ∨ (s.retryLockOut t n).st = .reset) := by
  unfold Sim.retryLockOut
  split
  · simp
  · split <;> simp

/-- How the slot and the written frames change in one turn of the state machine. -/
theorem sim_body_slot (cfg : SimCfg) (s : Sim) (e : SimEnv) :
    let p := s.body cfg e
    (s.st ≠ .init ∧ s.st ≠ .writePacket ∧ p.1.queued = s.queued ∧ p.1.buf = s.buf ∧ p.1.msgLen = s.msgLen ∧
      simData p.2 = [] ∧ (p.1.st = .writePacket → s.st = .initSend ∧ 0 < s.queued ∧ p.2 = [.at, .send s.msgLen])) ∨
    (s.st = .init ∧ p.1.queued = 0 ∧ p.1.buf.length = 64 ∧ p.2 = [] ∧ p.1.st = .getState) ∨
    (s.st = .writePacket ∧ p.1.queued = (s.queued + 255) % 256 ∧ p.1.buf = s.buf ∧ p.1.msgLen = s.msgLen ∧
      p.2 = [.data (s.buf.take s.msgLen)] ∧ p.1.st = .initSend) := by
  dsimp only
  unfold Sim.body
  cases hst : s.st
  case init => right; left; simp
  case writePacket => right; right; simp
  all_goals left; dsimp only
  case waitPwrHigh => split <;> simp [simData, hst]
  case waitPwrLow => split <;> simp [simData, hst]
  case startUp => cases isReplying e.r1 <;> simp [simData]
  case checkPin => cases isPinReady e.r1 e.oob <;> simp [simData, Sim.setRetryLock]
  case waitReg => cases isRegistered e.r1 e.oob <;> simp [simData, Sim.setRetryLock]
  case setApn => cases apnAccepted e.r1 e.oob <;> simp [simData, Sim.setRetryLock]
  case startGprs =>
    by_cases h3 : udpStatus e.r1 e.oob = 3
    · simp [simData, Sim.setRetryLock, h3]
    · by_cases h0 : udpStatus e.r1 e.oob = 0 <;> simp [simData, Sim.setRetryLock, h0, h3]
  case openUdp => cases udpOpened e.r1 e.oob <;> simp [simData, Sim.setRetryLock]
  case idle => by_cases h : s.queued > 0 <;> simp [simData, h]
  case waitUdp =>
    by_cases h1 : udpStatus e.r1 e.oob = 1
    · simp [simData, h1]
    · by_cases h2 : udpStatus e.r1 e.oob = 2 <;> simp [simData, h1, h2, Sim.setRetryLock, hst]
  case initSend => by_cases h : 0 < s.queued <;> simp [simData, h, Sim.bump]
  all_goals simp [simData, hst]

/-- The same for a whole call of `poll()`. -/
theorem sim_poll_slot (cfg : SimCfg) (s : Sim) (e : SimEnv) :
    let p := s.poll cfg e
    (p.1.queued = s.queued ∧ p.1.buf = s.buf ∧ p.1.msgLen = s.msgLen ∧ simData p.2 = [] ∧
      (p.1.st = .writePacket →
        (s.st = .writePacket ∧ p.2 = []) ∨ (s.st = .initSend ∧ 0 < s.queued ∧ p.2 = [.at, .send s.msgLen]))) ∨
    (p.1.queued = 0 ∧ p.1.buf.length = 64 ∧ p.2 = [] ∧ p.1.st = .getState) ∨
    (s.st = .writePacket ∧ p.1.queued = (s.queued + 255) % 256 ∧ p.1.buf = s.buf ∧ p.1.msgLen = s.msgLen ∧
      p.2 = [.data (s.buf.take s.msgLen)] ∧ p.1.st = .initSend) := by
  dsimp only
  rcases sim_poll_cases cfg s e with ⟨t, _, h⟩ | ⟨_, _, h⟩ | ⟨_, _, h⟩ | ⟨_, _, h⟩
  · rw [h]; dsimp only
    obtain ⟨a, b, c, _, _, d⟩ := sim_lockOut_fields s t e.sec
    refine .inl ⟨a, b, c, rfl, fun hw => ?_⟩
    rcases d with d | d
    · exact .inl ⟨d ▸ hw, rfl⟩
    · rw [d] at hw; cases hw
  · rw [h]; exact .inl ⟨rfl, rfl, rfl, rfl, fun hw => by cases hw⟩
  · rw [h]; exact .inl ⟨rfl, rfl, rfl, rfl, fun hw => .inl ⟨hw, rfl⟩⟩
  · rw [h]; dsimp only
    rw [sim_onStateChange_queued, sim_onStateChange_buf, sim_onStateChange_msgLen, sim_onStateChange_st]
    rcases sim_body_slot cfg s e with ⟨_, _, a, b, c, d, f⟩ | ⟨_, a, b, c, d⟩ | ⟨a, b, c, d, f, g⟩
    · exact .inl ⟨a, b, c, d, fun hw => .inr (f hw)⟩
    · exact .inr (.inl ⟨a, b, c, d⟩)
    · exact .inr (.inr ⟨a, b, c, d, f, g⟩)

/-! ## C125: frames -/

/-- Invariant tying the object to the history. -/
structure SimInv (cfg : SimCfg) (h : List (Nat × SimOp)) : Prop where
  len : (Sim.after cfg h).buf.length = 64
  le1 : (Sim.after cfg h).queued ≤ 1
  wr : (Sim.after cfg h).st = .writePacket → (Sim.after cfg h).queued = 1
  sub : (simWritten cfg h).Sublist (simAccepted h)
  pend : (Sim.after cfg h).queued = 1 →
    ∃ pre, simAccepted h = pre ++ [(Sim.after cfg h).buf.take (Sim.after cfg h).msgLen] ∧
      (simWritten cfg h).Sublist pre

theorem sim_inv (cfg : SimCfg) (h : List (Nat × SimOp)) : SimInv cfg h := by
  induction h with
  | nil => exact ⟨rfl, Nat.zero_le _, fun hw => (by cases hw), List.Sublist.refl _, fun hq => by cases hq⟩
  | cons o h ih =>
    obtain ⟨t, o⟩ := o
    cases o with
    | begin => exact ⟨ih.len, ih.le1, fun hw => (by cases hw), ih.sub, ih.pend⟩
    | fin => exact ⟨ih.len, ih.le1, ih.wr, ih.sub, ih.pend⟩
    | sendRaw m ok => exact ⟨ih.len, ih.le1, ih.wr, ih.sub, ih.pend⟩
    | queue b =>
      cases b with
      | none => exact ⟨ih.len, ih.le1, ih.wr, ih.sub, ih.pend⟩
      | some m =>
        by_cases hm : m.length > 64
        · have h1 : Sim.after cfg ((t, .queue (some m)) :: h) = Sim.after cfg h := by
            simp [Sim.after, Sim.op, Sim.queueToSend, hm]
          have h2 : simAccepted ((t, .queue (some m)) :: h) = simAccepted h := by
            simp only [simAccepted]; rw [if_neg (by omega : ¬ m.length ≤ 64)]
          have h3 : simWritten cfg ((t, .queue (some m)) :: h) = simWritten cfg h := rfl
          exact ⟨h1 ▸ ih.len, h1 ▸ ih.le1, h1 ▸ ih.wr, by rw [h2, h3]; exact ih.sub, by rw [h1, h2, h3]; exact ih.pend⟩
        · have h1 : Sim.after cfg ((t, .queue (some m)) :: h) =
              { Sim.after cfg h with queued := 1, buf := m ++ (Sim.after cfg h).buf.drop m.length, msgLen := m.length } := by
            simp [Sim.after, Sim.op, Sim.queueToSend, hm]
          have h2 : simAccepted ((t, .queue (some m)) :: h) = simAccepted h ++ [m] := by
            simp only [simAccepted]; rw [if_pos (by omega : m.length ≤ 64)]
          have h3 : simWritten cfg ((t, .queue (some m)) :: h) = simWritten cfg h := rfl
          have hl := ih.len
          refine ⟨?_, ?_, ?_, ?_, ?_⟩
          · rw [h1]; simp; omega
          · rw [h1]; exact Nat.le_refl 1
          · rw [h1]; intro _; rfl
          · rw [h2, h3]; exact ih.sub.trans (List.sublist_append_left _ _)
          · rw [h1, h2, h3]; intro _
            exact ⟨simAccepted h, by simp, ih.sub⟩
    | poll near r1 r2 oob =>
      have hA : simAccepted ((t, .poll near r1 r2 oob) :: h) = simAccepted h := rfl
      have hW : simWritten cfg ((t, .poll near r1 r2 oob) :: h) =
        simWritten cfg h ++ simData (Sim.outs cfg h t (.poll near r1 r2 oob)) := rfl
      have hs := sim_poll_slot cfg (Sim.after cfg h) { sec := t % 60, near := near, r1 := r1, r2 := r2, oob := oob }
      have h1 : Sim.after cfg ((t, .poll near r1 r2 oob) :: h) =
        ((Sim.after cfg h).poll cfg { sec := t % 60, near := near, r1 := r1, r2 := r2, oob := oob }).1 := rfl
      have h2 : Sim.outs cfg h t (.poll near r1 r2 oob) =
        ((Sim.after cfg h).poll cfg { sec := t % 60, near := near, r1 := r1, r2 := r2, oob := oob }).2 := rfl
      dsimp only at hs
      rw [← h1, ← h2] at hs
      have hl := ih.len
      have hle := ih.le1
      have hwr := ih.wr
      rcases hs with ⟨a, b, c, d, f⟩ | ⟨a, b, c, d⟩ | ⟨a, b, c, d, f, g⟩
      · refine ⟨by rw [b]; exact hl, by rw [a]; exact hle, ?_, ?_, ?_⟩
        · intro hw
          rw [a]
          rcases f hw with ⟨h', _⟩ | ⟨_, h', _⟩
          · exact hwr h'
          · omega
        · rw [hA, hW, d, List.append_nil]; exact ih.sub
        · rw [hA, hW, d, List.append_nil, a, b, c]; exact ih.pend
      · refine ⟨b, by omega, ?_, ?_, ?_⟩
        · intro hw; rw [d] at hw; cases hw
        · rw [hA, hW, c]; simpa [simData] using ih.sub
        · intro hq; omega
      · have hq := hwr a
        obtain ⟨pre, hp1, hp2⟩ := ih.pend hq
        refine ⟨by rw [c]; exact hl, by omega, ?_, ?_, ?_⟩
        · intro hw; rw [g] at hw; cases hw
        · rw [hA, hW, f, hp1]
          simp only [simData]
          exact List.Sublist.append hp2 (List.Sublist.refl _)
        · intro hq'; omega

/-- **C125.** Whatever the calls, the clock and the modem do, the frames that polling writes to the modem are frames accepted by
`queueToSend`, in the order they were accepted, each written at most once for each time it was accepted. -/
theorem C125_frames_once_in_order (cfg : SimCfg) (h : List (Nat × SimOp)) :
    (simWritten cfg h).Sublist (simAccepted h) := (sim_inv cfg h).sub

/-- **C125.** A frame written by polling is always the one most recently accepted: a superseded frame is never sent. -/
theorem C125_newest_only (cfg : SimCfg) (h : List (Nat × SimOp)) (t : Nat) (near : Bool) (r1 r2 : Bytes) (oob : Byte)
    (d : Bytes) (hd : d ∈ simData (Sim.outs cfg h t (.poll near r1 r2 oob))) :
    (simAccepted h).getLast? = some d := by
  have hs := sim_poll_slot cfg (Sim.after cfg h) { sec := t % 60, near := near, r1 := r1, r2 := r2, oob := oob }
  have h2 : Sim.outs cfg h t (.poll near r1 r2 oob) =
    ((Sim.after cfg h).poll cfg { sec := t % 60, near := near, r1 := r1, r2 := r2, oob := oob }).2 := rfl
  rw [h2] at hd
  dsimp only at hs
  have hi := sim_inv cfg h
  rcases hs with ⟨_, _, _, f, _⟩ | ⟨_, _, f, _⟩ | ⟨a, _, _, _, f, _⟩
  · rw [f] at hd; cases hd
  · rw [f] at hd; cases hd
  · rw [f] at hd
    obtain ⟨pre, hp, _⟩ := hi.pend (hi.wr a)
    simp only [simData, List.mem_singleton] at hd
    rw [hp, hd]; simp

/-- **C125.** `queueToSend` takes exactly the non-null frames of at most 64 bytes and says so. -/
theorem C125_accepts (s : Sim) (b : Option Bytes) :
    (s.queueToSend b).2 = true ↔ ∃ m, b = some m ∧ m.length ≤ 64 := by
  unfold Sim.queueToSend
  cases b with
  | none => simp
  | some m =>
    dsimp only
    by_cases hm : m.length > 64
    · rw [if_pos hm]; simp; omega
    · rw [if_neg hm]; simp; omega

/-- **C125 (limit).** A refused frame leaves the waiting one in place. -/
theorem C125_refused_keeps (s : Sim) (b : Option Bytes) (hb : (s.queueToSend b).2 = false) : (s.queueToSend b).1 = s := by
  unfold Sim.queueToSend at *
  cases b with
  | none => rfl
  | some m =>
    dsimp only at *
    by_cases hm : m.length > 64
    · rw [if_pos hm]
    · rw [if_neg hm] at hb; cases hb

/-! ### A healthy session, used as the concrete case for the theorems -/

/-- "A" as the modem's echo. -/
def simA : Bytes := [65, 84]
/-- " R": PIN ready. -/
def simR : Bytes := [58, 32, 82]
/-- " 0,1": registered. -/
def simReg : Bytes := [58, 32, 48, 44, 49]
/-- LF, two characters, "O". -/
def simOK : Bytes := [10, 13, 10, 79]
/-- " IP G": GPRS active. -/
def simG : Bytes := [58, 32, 73, 80, 32, 71]
/-- " C": connected. -/
def simC : Bytes := [58, 32, 67]
def simCfg0 : SimCfg := ⟨[97], [98], [99]⟩
def simP (r : Bytes) : SimOp := .poll true r [] 0

/-- A complete start-up, oldest call first: power pulse, PIN, registration, APN, GPRS, IP, UDP. -/
def simStart : List (Nat × SimOp) :=
  [(0, SimOp.begin), (0, simP []), (2, simP []), (5, simP []), (16, simP []), (18, simP simA), (20, simP simR),
   (22, simP simReg), (24, simP simOK), (26, simP simG), (28, simP []), (30, simP simOK)]
/-- Then one frame queued and sent. -/
def simSession : List (Nat × SimOp) :=
  simStart ++ [(31, SimOp.queue (some [1, 2, 3])), (32, simP []), (34, simP simC), (36, simP simA), (38, simP [])]

/-- The session really sends its frame, so C125 is not vacuous. -/
theorem C125_witness : simWritten simCfg0 simSession.reverse = [[1, 2, 3]] := by decide +kernel

/-- **C125 (refuted converse).** An accepted frame need not be sent, even with a perfect modem: one queued before the first `poll()`
is discarded by it. -/
theorem C125_refuted_before_start :
    simAccepted (((0, SimOp.begin) :: (0, SimOp.queue (some [7])) :: simStart.drop 1 ++
      [(32, simP []), (34, simP simC), (36, simP simA), (38, simP [])]).reverse) = [[7]] ∧
    simWritten simCfg0 (((0, SimOp.begin) :: (0, SimOp.queue (some [7])) :: simStart.drop 1 ++
      [(32, simP []), (34, simP simC), (36, simP simA), (38, simP [])]).reverse) = [] ∧
    (Sim.after simCfg0 (((0, SimOp.begin) :: (0, SimOp.queue (some [7])) :: simStart.drop 1 ++
      [(32, simP []), (34, simP simC), (36, simP simA), (38, simP [])]).reverse)).queued = 0 := by decide +kernel

/-- **C125 (refuted converse).** A frame queued while another waits replaces it, although both calls returned true. -/
theorem C125_refuted_overwrite :
    simAccepted ((simStart ++ [(31, SimOp.queue (some [7])), (31, SimOp.queue (some [8])),
      (32, simP []), (34, simP simC), (36, simP simA), (38, simP [])]).reverse) = [[7], [8]] ∧
    simWritten simCfg0 ((simStart ++ [(31, SimOp.queue (some [7])), (31, SimOp.queue (some [8])),
      (32, simP []), (34, simP simC), (36, simP simA), (38, simP [])]).reverse) = [[8]] := by decide +kernel

/-- **C125 (refuted converse).** The reset meant for a modem that has stopped answering just before a frame is sent does not happen:
the frame is written to the dead modem, forgotten, and the link returns to idle. -/
theorem C125_refuted_dead_modem :
    (Sim.after simCfg0 ((simStart ++ [(31, SimOp.queue (some [7])),
      (32, simP []), (34, simP simC), (36, simP []), (38, simP []), (40, simP [])]).reverse)).queued = 0 ∧
    (Sim.after simCfg0 ((simStart ++ [(31, SimOp.queue (some [7])),
      (32, simP []), (34, simP simC), (36, simP []), (38, simP []), (40, simP [])]).reverse)).st = .idle := by
  decide +kernel

/-! ## C126: announced length -/

/-- The length last announced to the modem by polling (`AT+CIPSEND=n`) and not followed by an accepted `queueToSend`. -/
def simAnnounced (cfg : SimCfg) : List (Nat × SimOp) → Option Nat
  | [] => none
  | (t, .poll near r1 r2 oob) :: h =>
    match (Sim.outs cfg h t (.poll near r1 r2 oob)).getLast? with
    | some (.send n) => some n
    | _ => simAnnounced cfg h
  | (_, .queue (some m)) :: h => if m.length ≤ 64 then none else simAnnounced cfg h
  | _ :: h => simAnnounced cfg h

/-- Has a frame been accepted after the last announcement? -/
def simRequeued (cfg : SimCfg) : List (Nat × SimOp) → Bool
  | [] => false
  | (t, .poll near r1 r2 oob) :: h =>
    match (Sim.outs cfg h t (.poll near r1 r2 oob)).getLast? with
    | some (.send _) => false
    | _ => simRequeued cfg h
  | (_, .queue (some m)) :: h => if m.length ≤ 64 then true else simRequeued cfg h
  | _ :: h => simRequeued cfg h

theorem sim_announced_inv (cfg : SimCfg) (h : List (Nat × SimOp)) :
    (Sim.after cfg h).st = .writePacket →
      simRequeued cfg h = true ∨ simAnnounced cfg h = some (Sim.after cfg h).msgLen := by
  induction h with
  | nil => intro h; cases h
  | cons o h ih =>
    obtain ⟨t, o⟩ := o
    cases o with
    | begin => intro hw; cases hw
    | fin => exact ih
    | sendRaw m ok => exact ih
    | queue b =>
      cases b with
      | none => exact ih
      | some m =>
        by_cases hm : m.length > 64
        · have h1 : Sim.after cfg ((t, .queue (some m)) :: h) = Sim.after cfg h := by
            simp [Sim.after, Sim.op, Sim.queueToSend, hm]
          rw [h1]
          simp only [simAnnounced, simRequeued]
          rw [if_neg (by omega : ¬ m.length ≤ 64), if_neg (by omega : ¬ m.length ≤ 64)]
          exact ih
        · intro _
          left
          simp only [simRequeued]
          rw [if_pos (by omega : m.length ≤ 64)]
    | poll near r1 r2 oob =>
      have hs := sim_poll_slot cfg (Sim.after cfg h) { sec := t % 60, near := near, r1 := r1, r2 := r2, oob := oob }
      have h1 : Sim.after cfg ((t, .poll near r1 r2 oob) :: h) =
        ((Sim.after cfg h).poll cfg { sec := t % 60, near := near, r1 := r1, r2 := r2, oob := oob }).1 := rfl
      have h2 : Sim.outs cfg h t (.poll near r1 r2 oob) =
        ((Sim.after cfg h).poll cfg { sec := t % 60, near := near, r1 := r1, r2 := r2, oob := oob }).2 := rfl
      dsimp only at hs
      rw [← h1, ← h2] at hs
      intro hw
      simp only [simAnnounced, simRequeued]
      rcases hs with ⟨_, _, c, _, f⟩ | ⟨_, _, _, d⟩ | ⟨_, _, _, _, _, g⟩
      · rw [c]
        rcases f hw with ⟨a, b⟩ | ⟨_, _, b⟩
        · rw [b]; exact ih a
        · rw [b]; right; rfl
      · rw [d] at hw; cases hw
      · rw [g] at hw; cases hw

/-- **C126.** When polling writes a frame, the length last announced to the modem is the number of bytes written, provided
no frame was accepted by `queueToSend` since the announcement. -/
theorem C126_announced_length (cfg : SimCfg) (h : List (Nat × SimOp)) (t : Nat) (near : Bool) (r1 r2 : Bytes) (oob : Byte)
    (d : Bytes) (hd : d ∈ simData (Sim.outs cfg h t (.poll near r1 r2 oob))) (hq : simRequeued cfg h = false) :
    simAnnounced cfg h = some d.length := by
  have hs := sim_poll_slot cfg (Sim.after cfg h) { sec := t % 60, near := near, r1 := r1, r2 := r2, oob := oob }
  have h2 : Sim.outs cfg h t (.poll near r1 r2 oob) =
    ((Sim.after cfg h).poll cfg { sec := t % 60, near := near, r1 := r1, r2 := r2, oob := oob }).2 := rfl
  rw [h2] at hd
  dsimp only at hs
  have hi := sim_inv cfg h
  have hlast : ∀ h : List (Nat × SimOp), (Sim.after cfg h).msgLen ≤ 64 := by
    intro h
    induction h with
    | nil => exact Nat.zero_le _
    | cons o h ih =>
      obtain ⟨t, o⟩ := o
      cases o with
      | begin => exact ih
      | fin => exact ih
      | sendRaw m ok => exact ih
      | queue b =>
        cases b with
        | none => exact ih
        | some m =>
          simp only [Sim.after, Sim.op, Sim.queueToSend]
          by_cases hm : m.length > 64
          · rw [if_pos hm]; exact ih
          · rw [if_neg hm]; exact Nat.le_of_not_lt hm
      | poll near r1 r2 oob =>
        have hb : ∀ (s : Sim) e, s.msgLen ≤ 64 → (s.body cfg e).1.msgLen ≤ 64 := by
          intro s e hs
          unfold Sim.body
          cases s.st <;> dsimp only <;>
            first | exact hs | exact Nat.zero_le _ | (repeat' split) <;> exact hs
        rcases sim_poll_cases cfg (Sim.after cfg h) { sec := t % 60, near := near, r1 := r1, r2 := r2, oob := oob } with
          ⟨t', _, h'⟩ | ⟨_, _, h'⟩ | ⟨_, _, h'⟩ | ⟨_, _, h'⟩ <;> simp only [Sim.after, Sim.op] <;> rw [h']
        · dsimp only; rw [(sim_lockOut_fields _ _ _).2.2.1]; exact ih
        · exact ih
        · exact ih
        · dsimp only; rw [sim_onStateChange_msgLen]; exact hb _ _ ih
  rcases hs with ⟨_, _, _, f, _⟩ | ⟨_, _, f, _⟩ | ⟨a, _, _, _, f, _⟩
  · rw [f] at hd; cases hd
  · rw [f] at hd; cases hd
  · rw [f] at hd
    simp only [simData, List.mem_singleton] at hd
    rcases sim_announced_inv cfg h a with hx | hx
    · rw [hq] at hx; cases hx
    · rw [hx, hd, List.length_take, hi.len, Nat.min_eq_left (hlast h)]

/-- The hypotheses of C126 are met by the session. -/
example : simRequeued simCfg0 (simSession.dropLast.reverse) = false ∧
    simData (Sim.outs simCfg0 simSession.dropLast.reverse 38 (simP [])) = [[1, 2, 3]] ∧
    simAnnounced simCfg0 simSession.dropLast.reverse = some 3 := by decide +kernel

/-- **C126 (refuted without the proviso).** A frame queued between the announcement and the write is written under the
length announced for the previous one: here 3 was announced and one byte is written. -/
theorem C126_refuted_requeue :
    Sim.outs simCfg0 ((simStart ++ [(31, SimOp.queue (some [1, 2, 3])), (32, simP []), (34, simP simC)]).reverse)
      36 (simP simA) = [.at, .send 3] ∧
    Sim.outs simCfg0 ((simStart ++ [(31, SimOp.queue (some [1, 2, 3])), (32, simP []), (34, simP simC), (36, simP simA),
      (37, SimOp.queue (some [9]))]).reverse) 38 (simP []) = [.data [9]] := by decide +kernel

end OTR.Props
