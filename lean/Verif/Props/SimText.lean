import Verif.Model.SimText
import Verif.Spec.Modem
import Verif.Props.Sim900
import Verif.Props.JSONStats
/-!
# C236: what the modem makes of the bytes of the GPRS link
-/
namespace OTR.Props
open OTR OTR.Spec

/-- What an event of the link should mean to the modem. -/
def simMeans : SimOut → List ModemEv
  | .pinHigh => []
  | .pinLow => []
  | .at => [.cmd (ascii "AT")]
  | .pinQ => [.cmd (ascii "AT+CPIN?")]
  | .regQ => [.cmd (ascii "AT+CREG?")]
  | .setApn a => [.cmd (ascii "AT+CSTT=" ++ a)]
  | .status => [.cmd (ascii "AT+CIPSTATUS")]
  | .startGprs => [.cmd (ascii "AT+CIICR")]
  | .getIp => [.cmd (ascii "AT+CIFSR")]
  | .startUdp a p => [.cmd (ascii "AT+CIPSTART=\"UDP\",\"" ++ a ++ ascii "\",\"" ++ p ++ ascii "\"")]
  | .send n => [.cmd (ascii "AT+CIPSEND=" ++ decNat n)]
  | .data d => if d = [] then [] else [.packet d]
  | .close => [.cmd (ascii "AT+CIPCLOSE")]

/-- The modem after all the bytes of a history, accepting every announcement. -/
def simModem (cfg : SimCfg) (h : List (Nat × SimOp)) : Modem := Modem.feed true {} (Sim.wire cfg h)

/-- Is the last thing the link did an announcement, its data still to come? -/
def simPending (cfg : SimCfg) (h : List (Nat × SimOp)) : Bool :=
  match (Sim.stream cfg h).getLast? with
  | some (.send _) => true
  | _ => false

/-- Announcements in a history. -/
def simSends (l : List SimOut) : Nat := (l.filter fun o => match o with | .send _ => true | _ => false).length

/-- A history in which nothing but `poll()` is called between an announcement and its data, and `sendRaw()` always gets its prompt. -/
def simTidy (cfg : SimCfg) : List (Nat × SimOp) → Prop
  | [] => True
  | (_, .poll _ _ _ _) :: h => simTidy cfg h
  | (_, .sendRaw m ok) :: h => simTidy cfg h ∧ simPending cfg h = false ∧ ok = true ∧ m.length ≤ 255
  | (_, .queue _) :: h => simTidy cfg h ∧ simPending cfg h = false
  | (_, .begin) :: h => simTidy cfg h ∧ simPending cfg h = false
  | (_, .fin) :: h => simTidy cfg h ∧ simPending cfg h = false

/-- No string of the configuration contains a CR. -/
def simCfgOK (cfg : SimCfg) : Prop := 13 ∉ cfg.apn ∧ 13 ∉ cfg.addr ∧ 13 ∉ cfg.port

/-! ### The modem on a line and on data -/

theorem feed_append (acc : Bool) (m : Modem) (a b : Bytes) : m.feed acc (a ++ b) = (m.feed acc a).feed acc b := by
  simp [Modem.feed, List.foldl_append]

theorem feed_chars (acc : Bool) (l : Bytes) (h : 13 ∉ l) : ∀ (pre : Bytes) (L : List ModemEv),
    ({ line := pre, log := L } : Modem).feed acc l = { line := pre ++ l, log := L } := by
  induction l with
  | nil => intro pre L; simp [Modem.feed]
  | cons c t ih =>
    intro pre L
    have hc : c ≠ 13 := fun e => h (by simp [e])
    have ht : 13 ∉ t := fun e => h (by simp [e])
    have := ih ht (pre ++ [c]) L
    simp only [Modem.feed, List.foldl_cons] at this ⊢
    have hb : Modem.byte acc { line := pre, log := L } c = { line := pre ++ [c], log := L } := by
      simp [Modem.byte, hc]
    rw [hb, this]; simp

theorem feed_line (acc : Bool) (l : Bytes) (h : 13 ∉ l) (L : List ModemEv) :
    ({ log := L } : Modem).feed acc (l ++ [13, 10]) = { want := if acc then announced l else 0, log := L ++ [.cmd l] } := by
  rw [feed_append, feed_chars acc l h [] L]
  simp [Modem.feed, Modem.byte]

theorem feed_data (acc : Bool) (d : Bytes) : ∀ (g : Bytes) (L : List ModemEv), d ≠ [] →
    ({ want := d.length, got := g, log := L } : Modem).feed acc d = { log := L ++ [.packet (g ++ d)] } := by
  induction d with
  | nil => intro g L h; exact absurd rfl h
  | cons c t ih =>
    intro g L _
    by_cases ht : t = []
    · subst ht; simp [Modem.feed, Modem.byte]
    · have := ih (g ++ [c]) L ht
      have hl : t.length ≠ 0 := fun e => ht (List.length_eq_zero_iff.1 e)
      simp only [Modem.feed, List.foldl_cons] at this ⊢
      have hb : Modem.byte acc { want := (c :: t).length, got := g, log := L } c = { want := t.length, got := g ++ [c], log := L } := by
        simp [Modem.byte, hl]
      rw [hb, this]; simp

theorem modemNat_dec (n : Nat) : modemNat (decNat n) = some n := by
  obtain ⟨a, _, c⟩ := dec_digits n
  unfold modemNat
  rw [if_pos (by rw [List.all_eq_true]; exact a)]
  exact congrArg some c

theorem no13_digits (n : Nat) : 13 ∉ decNat n := by
  intro h
  have := (dec_digits n).1 13 h
  revert this; decide

theorem sendText_eq : ascii "AT+CIPSEND=" = sendText := by decide +kernel

theorem announced_send (n : Nat) : announced (ascii "AT+CIPSEND=" ++ decNat n) = n := by
  rw [sendText_eq]
  have h1 : (sendText ++ decNat n).take 11 = sendText := by
    rw [List.take_append_of_le_length (by decide)]; decide
  have h2 : (sendText ++ decNat n).drop 11 = decNat n := by
    rw [List.drop_append_of_le_length (by decide)]; rfl
  unfold announced
  rw [if_pos h1, h2, modemNat_dec]; rfl

/-- A command that is not an announcement, with strings from the configuration. -/
def simPlain (cfg : SimCfg) : SimOut → Prop
  | .send _ => False
  | .data _ => False
  | .setApn a => a = cfg.apn
  | .startUdp a p => a = cfg.addr ∧ p = cfg.port
  | _ => True

theorem feed_fixed (l t : Bytes) (L : List ModemEv) (ht : t = l ++ [13, 10]) (h : 13 ∉ l) (ha : announced l = 0) :
    ({ log := L } : Modem).feed true t = { log := L ++ [.cmd l] } := by
  rw [ht, feed_line true l h L, if_pos rfl, ha]

theorem feed_plain (cfg : SimCfg) (hc : simCfgOK cfg) (o : SimOut) (h : simPlain cfg o) (L : List ModemEv) :
    ({ log := L } : Modem).feed true o.text = { log := L ++ simMeans o } := by
  obtain ⟨c1, c2, c3⟩ := hc
  cases o with
  | pinHigh => simp [SimOut.text, simMeans, Modem.feed]
  | pinLow => simp [SimOut.text, simMeans, Modem.feed]
  | «at» => exact feed_fixed _ _ L (by decide +kernel) (by decide +kernel) (by decide +kernel)
  | pinQ => exact feed_fixed _ _ L (by decide +kernel) (by decide +kernel) (by decide +kernel)
  | regQ => exact feed_fixed _ _ L (by decide +kernel) (by decide +kernel) (by decide +kernel)
  | status => exact feed_fixed _ _ L (by decide +kernel) (by decide +kernel) (by decide +kernel)
  | startGprs => exact feed_fixed _ _ L (by decide +kernel) (by decide +kernel) (by decide +kernel)
  | getIp => exact feed_fixed _ _ L (by decide +kernel) (by decide +kernel) (by decide +kernel)
  | close => exact feed_fixed _ _ L (by decide +kernel) (by decide +kernel) (by decide +kernel)
  | send n => exact absurd h id
  | data d => exact absurd h id
  | setApn a =>
    have e : a = cfg.apn := h
    have e1 : ascii "AT" ++ ascii "+CSTT" ++ ascii "=" = [0x41, 0x54, 0x2b, 0x43, 0x53, 0x54, 0x54, 0x3d] := by decide +kernel
    have e2 : ascii "AT+CSTT=" = [0x41, 0x54, 0x2b, 0x43, 0x53, 0x54, 0x54, 0x3d] := by decide +kernel
    refine feed_fixed (ascii "AT+CSTT=" ++ a) _ L ?_ ?_ ?_
    · simp only [SimOut.text]; rw [e1, e2]
    · rw [e2, e]; simp [c1]
    · rw [e2]; simp [announced, sendText]
  | startUdp a p =>
    obtain ⟨e, e'⟩ : a = cfg.addr ∧ p = cfg.port := h
    have e1 : ascii "AT" ++ ascii "+CIPSTART" ++ ascii "=\"UDP\"," ++ ascii "\"" = ascii "AT+CIPSTART=\"UDP\",\"" := by decide +kernel
    have e2 : ascii "AT+CIPSTART=\"UDP\",\"" = [0x41, 0x54, 0x2b, 0x43, 0x49, 0x50, 0x53, 0x54, 0x41, 0x52, 0x54, 0x3d, 0x22, 0x55, 0x44,
      0x50, 0x22, 0x2c, 0x22] := by decide +kernel
    have e3 : ascii "\",\"" = [0x22, 0x2c, 0x22] ∧ ascii "\"" = [0x22] := by decide +kernel
    refine feed_fixed (ascii "AT+CIPSTART=\"UDP\",\"" ++ a ++ ascii "\",\"" ++ p ++ ascii "\"") _ L ?_ ?_ ?_
    · simp only [SimOut.text]; rw [e1]
    · rw [e2, e3.1, e3.2, e, e']; simp [c2, c3]
    · rw [e2]; simp [announced, sendText]

theorem feed_plains (cfg : SimCfg) (hc : simCfgOK cfg) (l : List SimOut) (h : ∀ o ∈ l, simPlain cfg o) : ∀ L : List ModemEv,
    ({ log := L } : Modem).feed true (l.flatMap SimOut.text) = { log := L ++ l.flatMap simMeans } := by
  induction l with
  | nil => intro L; simp [Modem.feed]
  | cons o t ih =>
    intro L
    rw [List.flatMap_cons, feed_append, feed_plain cfg hc o (h o (by simp)) L, ih (fun x hx => h x (by simp [hx]))]
    simp

theorem feed_send (n : Nat) (L : List ModemEv) :
    ({ log := L } : Modem).feed true (SimOut.text (.send n)) = { want := n, log := L ++ simMeans (.send n) } := by
  have e : SimOut.text (.send n) = (ascii "AT+CIPSEND=" ++ decNat n) ++ [13, 10] := by
    have e1 : ascii "AT" ++ ascii "+CIPSEND" ++ ascii "=" = ascii "AT+CIPSEND=" := by decide +kernel
    simp only [SimOut.text]; rw [e1]
  have h13 : 13 ∉ ascii "AT+CIPSEND=" ++ decNat n := by
    intro hm
    rcases List.mem_append.1 hm with hm | hm
    · revert hm; decide +kernel
    · exact no13_digits n hm
  rw [e, feed_line true _ h13, if_pos rfl, announced_send]
  rfl

theorem feed_datum (d : Bytes) (L : List ModemEv) :
    ({ want := d.length, log := L } : Modem).feed true (SimOut.text (.data d)) = { log := L ++ simMeans (.data d) } := by
  by_cases hd : d = []
  · subst hd; simp [SimOut.text, simMeans, Modem.feed]
  · have := feed_data true d [] L hd
    simp only [SimOut.text, simMeans, hd, if_false]
    simpa using this

/-! ### The link's side -/

theorem sends_append (a b : List SimOut) : simSends (a ++ b) = simSends a + simSends b := by
  simp [simSends, List.filter_append]

theorem sim_body_outs (cfg : SimCfg) (s : Sim) (e : SimEnv) :
    let p := s.body cfg e
    (s.st ≠ .writePacket ∧ p.1.st ≠ .writePacket ∧ (∀ o ∈ p.2, simPlain cfg o) ∧ p.1.msgCount ≤ s.msgCount ∧ p.1.msgLen ≤ max s.msgLen 0) ∨
    (s.st ≠ .writePacket ∧ p.1.st = .writePacket ∧ p.2 = [.at, .send s.msgLen] ∧ p.1.msgLen = s.msgLen ∧ p.1.retryTimer = s.retryTimer ∧
      p.1.msgCount ≤ s.msgCount + 1) ∨
    (s.st = .writePacket ∧ p.1.st = .initSend ∧ p.2 = [.data (s.buf.take s.msgLen)] ∧ p.1.msgLen = s.msgLen ∧ p.1.msgCount = s.msgCount) := by
  dsimp only
  unfold Sim.body
  cases hst : s.st
  case writePacket => right; right; simp
  case initSend =>
    by_cases h : 0 < s.queued
    · right; left; simp [h, Sim.bump]; omega
    · left; simp [h, simPlain]
  all_goals left; dsimp only
  case waitPwrHigh => split <;> simp [simPlain, hst]
  case waitPwrLow => split <;> simp [simPlain, hst]
  case startUp => cases isReplying e.r1 <;> simp [simPlain]
  case checkPin => cases isPinReady e.r1 e.oob <;> simp [simPlain, Sim.setRetryLock]
  case waitReg => cases isRegistered e.r1 e.oob <;> simp [simPlain, Sim.setRetryLock]
  case setApn => cases apnAccepted e.r1 e.oob <;> simp [simPlain, Sim.setRetryLock]
  case startGprs =>
    by_cases h3 : udpStatus e.r1 e.oob = 3
    · simp [simPlain, Sim.setRetryLock, h3]
    · by_cases h0 : udpStatus e.r1 e.oob = 0 <;> simp [simPlain, Sim.setRetryLock, h0, h3]
  case openUdp => cases udpOpened e.r1 e.oob <;> simp [simPlain, Sim.setRetryLock]
  case idle => by_cases h : s.queued > 0 <;> simp [simPlain, h]
  case waitUdp =>
    by_cases h1 : udpStatus e.r1 e.oob = 1
    · simp [simPlain, h1]
    · by_cases h2 : udpStatus e.r1 e.oob = 2 <;> simp [simPlain, h1, h2, Sim.setRetryLock, hst]
  all_goals simp [simPlain, hst]

theorem plain_sends (cfg : SimCfg) (l : List SimOut) (h : ∀ o ∈ l, simPlain cfg o) : simSends l = 0 := by
  have : (l.filter fun o => match o with | .send _ => true | _ => false) = [] := by
    rw [List.filter_eq_nil_iff]
    intro o ho hx
    have := h o ho
    cases o <;> simp_all [simPlain]
  simp [simSends, this]

theorem onStateChange_retry (s : Sim) (h : s.retryTimer = none) : s.onStateChange.retryTimer = none := by
  unfold Sim.onStateChange; split <;> simp [h]

/-- The invariant: the modem has understood everything so far and waits for exactly the data the link will write. -/
structure TextInv (cfg : SimCfg) (h : List (Nat × SimOp)) : Prop where
  modem : simModem cfg h = { want := if (Sim.after cfg h).st = .writePacket then (Sim.after cfg h).msgLen else 0,
                             log := (Sim.stream cfg h).flatMap simMeans }
  pend : (Sim.after cfg h).st = .writePacket → simPending cfg h = true
  timer : (Sim.after cfg h).st = .writePacket → (Sim.after cfg h).retryTimer = none
  count : (Sim.after cfg h).msgCount ≤ simSends (Sim.stream cfg h)
  len : (Sim.after cfg h).msgLen ≤ 64

theorem simModem_cons (cfg : SimCfg) (t : Nat) (o : SimOp) (h : List (Nat × SimOp)) :
    simModem cfg ((t, o) :: h) = (simModem cfg h).feed true ((Sim.outs cfg h t o).flatMap SimOut.text) := by
  simp only [simModem, Sim.wire, Sim.stream, List.flatMap_append, feed_append]

theorem text_inv (cfg : SimCfg) (hc : simCfgOK cfg) (h : List (Nat × SimOp)) (ht : simTidy cfg h)
    (hn : simSends (Sim.stream cfg h) ≤ 254) : TextInv cfg h := by
  induction h with
  | nil => exact ⟨rfl, fun e => (by cases e), fun e => (by cases e), Nat.zero_le _, Nat.zero_le _⟩
  | cons x h ih =>
    obtain ⟨t, o⟩ := x
    have hst : Sim.stream cfg ((t, o) :: h) = Sim.stream cfg h ++ Sim.outs cfg h t o := rfl
    rw [hst, sends_append] at hn
    have quiet : simTidy cfg h → simPending cfg h = false → TextInv cfg h ∧ (Sim.after cfg h).st ≠ .writePacket ∧
        simModem cfg h = { log := (Sim.stream cfg h).flatMap simMeans } := by
      intro h1 h2
      have i := ih h1 (by omega)
      have hne : (Sim.after cfg h).st ≠ .writePacket := by
        intro e; rw [i.pend e] at h2; cases h2
      refine ⟨i, hne, ?_⟩
      rw [i.modem, if_neg hne]
    cases o with
    | begin =>
      obtain ⟨i, hne, hm⟩ := quiet ht.1 ht.2
      have ho : Sim.outs cfg h t .begin = [.pinLow] := rfl
      have ha : (Sim.after cfg ((t, .begin) :: h)).st = .init := rfl
      refine ⟨?_, fun e => (by rw [ha] at e; cases e), fun e => (by rw [ha] at e; cases e), ?_, i.len⟩
      · rw [simModem_cons, hm, hst, ho, ha]
        simp [SimOut.text, simMeans, Modem.feed]
      · rw [hst, sends_append]; exact Nat.le_trans i.count (Nat.le_add_right _ _)
    | fin =>
      obtain ⟨i, hne, hm⟩ := quiet ht.1 ht.2
      have ho : Sim.outs cfg h t .fin = [.close] := rfl
      have ha : Sim.after cfg ((t, .fin) :: h) = Sim.after cfg h := rfl
      refine ⟨?_, fun e => absurd e hne, fun e => absurd e hne, ?_, i.len⟩
      · rw [simModem_cons, hm, hst, ho, ha, if_neg hne, feed_plains cfg hc _ (by simp [simPlain])]
        simp
      · rw [hst, sends_append, ha]; exact Nat.le_trans i.count (Nat.le_add_right _ _)
    | queue b =>
      obtain ⟨i, hne, hm⟩ := quiet ht.1 ht.2
      have ho : Sim.outs cfg h t (.queue b) = [] := rfl
      have ha : (Sim.after cfg ((t, .queue b) :: h)).st = (Sim.after cfg h).st ∧
          (Sim.after cfg ((t, .queue b) :: h)).msgCount = (Sim.after cfg h).msgCount ∧ (Sim.after cfg ((t, .queue b) :: h)).msgLen ≤ 64 := by
        simp only [Sim.after, Sim.op, Sim.queueToSend]
        cases b with
        | none => exact ⟨rfl, rfl, i.len⟩
        | some m =>
          dsimp only
          by_cases hm : m.length > 64
          · rw [if_pos hm]; exact ⟨rfl, rfl, i.len⟩
          · rw [if_neg hm]; exact ⟨rfl, rfl, by dsimp only; omega⟩
      refine ⟨?_, fun e => absurd (ha.1 ▸ e) hne, fun e => absurd (ha.1 ▸ e) hne, ?_, ha.2.2⟩
      · rw [simModem_cons, hm, hst, ho, ha.1, if_neg hne]
        simp [Modem.feed]
      · rw [hst, sends_append, ha.2.1]; exact Nat.le_trans i.count (Nat.le_add_right _ _)
    | sendRaw m ok =>
      obtain ⟨hT, hP, hok, _⟩ := ht
      obtain ⟨i, hne, hm⟩ := quiet hT hP
      subst hok
      have ho : Sim.outs cfg h t (.sendRaw m true) = [.send m.length, .data m] := rfl
      have ha : (Sim.after cfg ((t, .sendRaw m true) :: h)) = (Sim.after cfg h).bump := rfl
      have hne' : (Sim.after cfg h).bump.st ≠ .writePacket := hne
      refine ⟨?_, fun e => absurd (ha ▸ e) hne', fun e => absurd (ha ▸ e) hne', ?_, by rw [ha]; exact i.len⟩
      · rw [simModem_cons, hm, hst, ho, ha, if_neg hne']
        simp only [List.flatMap_cons, List.flatMap_nil, List.append_nil]
        rw [feed_append, feed_send, feed_datum]
        simp
      · rw [hst, sends_append, ha, ho]
        have h1 : simSends [SimOut.send m.length, SimOut.data m] = 1 := rfl
        have h2 := i.count
        have h3 : (Sim.after cfg h).bump.msgCount ≤ (Sim.after cfg h).msgCount + 1 := by simp only [Sim.bump]; omega
        omega
    | poll near r1 r2 oob =>
      have i := ih ht (by omega)
      generalize he : ({ sec := t % 60, near := near, r1 := r1, r2 := r2, oob := oob } : SimEnv) = e
      have ha : Sim.after cfg ((t, .poll near r1 r2 oob) :: h) = ((Sim.after cfg h).poll cfg e).1 := by rw [← he]; rfl
      have ho : Sim.outs cfg h t (.poll near r1 r2 oob) = ((Sim.after cfg h).poll cfg e).2 := by rw [← he]; rfl
      have hlen := (sim_inv cfg h).len
      have hcnt := i.count
      have keep : ∀ s : Sim, Sim.after cfg ((t, .poll near r1 r2 oob) :: h) = s → Sim.outs cfg h t (.poll near r1 r2 oob) = [] →
          s.st = (Sim.after cfg h).st ∨ (s.st ≠ .writePacket ∧ (Sim.after cfg h).st ≠ .writePacket) →
          s.msgLen = (Sim.after cfg h).msgLen → s.msgCount ≤ (Sim.after cfg h).msgCount →
          (s.st = .writePacket → s.retryTimer = none) → TextInv cfg ((t, .poll near r1 r2 oob) :: h) := by
        intro s e1 e2 e3 e4 e5 e6
        have hs2 : Sim.stream cfg ((t, .poll near r1 r2 oob) :: h) = Sim.stream cfg h := by rw [hst, e2, List.append_nil]
        have hiff : s.st = .writePacket ↔ (Sim.after cfg h).st = .writePacket := by
          rcases e3 with e3 | ⟨e3, e3'⟩
          · rw [e3]
          · exact ⟨fun x => absurd x e3, fun x => absurd x e3'⟩
        refine ⟨?_, ?_, ?_, ?_, ?_⟩
        · rw [simModem_cons, e2, i.modem, hs2, e1, e4]
          simp [Modem.feed, hiff]
        · intro hw
          rw [e1] at hw
          have := i.pend (hiff.1 hw)
          simp only [simPending] at this ⊢
          rw [hs2]; exact this
        · rw [e1]; exact e6
        · rw [e1, hs2]; omega
        · rw [e1, e4]; exact i.len
      rcases sim_poll_cases cfg (Sim.after cfg h) e with ⟨t', h1, h'⟩ | ⟨h1, h2, h'⟩ | ⟨h1, h2, h'⟩ | ⟨h1, h2, h'⟩
      · have hne : (Sim.after cfg h).st ≠ .writePacket := by
          intro hw; rw [i.timer hw] at h1; cases h1
        have hf := sim_lockOut_fields (Sim.after cfg h) t' e.sec
        refine keep _ ha (by rw [ho, h']) ?_ (by rw [h']; exact hf.2.2.1) ?_ ?_
        · right; rw [h']
          refine ⟨?_, hne⟩
          rcases hf.2.2.2.2.2 with d | d
          · dsimp only; rw [d]; exact hne
          · dsimp only; rw [d]; decide
        · rw [h']; dsimp only
          unfold Sim.retryLockOut
          split
          · exact Nat.le_refl _
          · split <;> exact Nat.le_refl _
        · intro hw
          rw [h'] at hw
          rcases hf.2.2.2.2.2 with d | d
          · dsimp only at hw; rw [d] at hw; exact absurd hw hne
          · dsimp only at hw; rw [d] at hw; cases hw
      · omega
      · exact keep _ ha (by rw [ho, h']) (.inl (by rw [h'])) (by rw [h']) (by rw [h'])
          (by rw [h']; exact i.timer)
      · have hb := sim_body_outs cfg (Sim.after cfg h) e
        dsimp only at hb
        have ha' : Sim.after cfg ((t, .poll near r1 r2 oob) :: h) = ((Sim.after cfg h).body cfg e).1.onStateChange := by rw [ha, h']
        have ho' : Sim.outs cfg h t (.poll near r1 r2 oob) = ((Sim.after cfg h).body cfg e).2 := by rw [ho, h']
        have hS : (Sim.after cfg ((t, .poll near r1 r2 oob) :: h)).st = ((Sim.after cfg h).body cfg e).1.st := by
          rw [ha', sim_onStateChange_st]
        have hL : (Sim.after cfg ((t, .poll near r1 r2 oob) :: h)).msgLen = ((Sim.after cfg h).body cfg e).1.msgLen := by
          rw [ha', sim_onStateChange_msgLen]
        have hC : (Sim.after cfg ((t, .poll near r1 r2 oob) :: h)).msgCount = ((Sim.after cfg h).body cfg e).1.msgCount := by
          rw [ha', sim_onStateChange_msgCount]
        have hlb := i.len
        rcases hb with ⟨b1, b2, b3, b4, b5⟩ | ⟨b1, b2, b3, b4, b5, b6⟩ | ⟨b1, b2, b3, b4, b5⟩
        · refine ⟨?_, ?_, ?_, ?_, ?_⟩
          · rw [simModem_cons, i.modem, if_neg b1, ho', feed_plains cfg hc _ b3, hS, if_neg b2, hst, ho']
            simp
          · intro hw; rw [hS] at hw; exact absurd hw b2
          · intro hw; rw [hS] at hw; exact absurd hw b2
          · rw [hC, hst, sends_append]; omega
          · rw [hL]; omega
        · refine ⟨?_, ?_, ?_, ?_, ?_⟩
          · rw [simModem_cons, i.modem, if_neg b1, ho', b3, hS, if_pos b2, hL, b4, hst, ho', b3]
            simp only [List.flatMap_cons, List.flatMap_nil, List.append_nil, List.flatMap_append]
            rw [feed_append, feed_plain cfg hc .at trivial, feed_send]
            simp
          · intro _
            simp only [simPending]
            rw [hst, ho', b3]
            simp
          · intro _
            rw [ha']
            exact onStateChange_retry _ (b5.trans h1)
          · rw [hC, hst, sends_append, ho', b3]
            have h1 : simSends [SimOut.at, SimOut.send (Sim.after cfg h).msgLen] = 1 := rfl
            omega
          · rw [hL]; omega
        · have hne : SimSt.initSend ≠ .writePacket := by decide
          refine ⟨?_, ?_, ?_, ?_, ?_⟩
          · have hd : (Sim.after cfg h).msgLen = ((Sim.after cfg h).buf.take (Sim.after cfg h).msgLen).length := by
              rw [List.length_take, hlen]; omega
            rw [simModem_cons, i.modem, if_pos b1, ho', b3, hS, b2, if_neg hne, hst, ho', b3]
            simp only [List.flatMap_cons, List.flatMap_nil, List.append_nil, List.flatMap_append]
            generalize (Sim.after cfg h).buf.take (Sim.after cfg h).msgLen = d at hd ⊢
            rw [hd, feed_datum]
          · intro hw; rw [hS, b2] at hw; cases hw
          · intro hw; rw [hS, b2] at hw; cases hw
          · rw [hC, hst, sends_append]; omega
          · rw [hL]; omega

/-- **C236.** If nothing but `poll()` is called between an announcement and its data, the modem accepts the announcements and there are
fewer than 255 of them, then the modem, reading only the bytes on its serial line, executes exactly the commands the link means and sends
exactly the frames it writes, in that order; and it never waits for data except when the link is about to write them. -/
theorem C236_understood (cfg : SimCfg) (hc : simCfgOK cfg) (h : List (Nat × SimOp)) (ht : simTidy cfg h)
    (hn : simSends (Sim.stream cfg h) ≤ 254) :
    (simModem cfg h).log = (Sim.stream cfg h).flatMap simMeans ∧ (simModem cfg h).line = [] ∧ (simModem cfg h).got = [] ∧
    (simPending cfg h = false → (simModem cfg h).want = 0) := by
  have i := text_inv cfg hc h ht hn
  rw [i.modem]
  refine ⟨rfl, rfl, rfl, fun hp => ?_⟩
  dsimp only
  rw [if_neg]
  intro e; rw [i.pend e] at hp; cases hp

/-- A history the theorem covers: the whole session of C125, start-up and a frame. -/
example : simCfgOK simCfg0 ∧ simTidy simCfg0 simSession.reverse ∧ simSends (Sim.stream simCfg0 simSession.reverse) = 1 ∧
    ModemEv.packet [1, 2, 3] ∈ (simModem simCfg0 simSession.reverse).log := by
  refine ⟨by unfold simCfgOK; decide, ?_, by decide +kernel, by decide +kernel⟩
  simp only [simSession, simStart, simP, List.cons_append, List.nil_append, List.reverse_cons, List.reverse_nil, simTidy]
  decide +kernel

/-- A frame that contains a command on a line of its own. -/
def simEvil : Bytes := [13] ++ ascii "AT+CIPSHUT" ++ [13]

/-- **C236 (refuted for a modem that refuses).** `poll()` writes the frame whether or not the modem has given its prompt: a modem that
refuses the announcement executes the bytes of the frame as commands, here one that closes the connection. -/
theorem C236_refuted_refused :
    let h := (simStart ++ [(31, SimOp.queue (some simEvil)), (32, simP []), (34, simP simC), (36, simP simA), (38, simP [])]).reverse
    ModemEv.cmd (ascii "AT+CIPSHUT") ∈ (Modem.feed false {} (Sim.wire simCfg0 h)).log ∧
    ModemEv.cmd (ascii "AT+CIPSHUT") ∉ (Sim.stream simCfg0 h).flatMap simMeans := by decide +kernel

/-- **C236 (refuted after a time-out).** When `sendRaw()` gives up waiting for the prompt the announcement stands: the next commands go
out as a packet. Here the frame was one byte long and the packet is the `A` of the next command. -/
theorem C236_refuted_timeout :
    let h := (simStart ++ [(31, SimOp.sendRaw [1] false), (32, SimOp.queue (some [2])), (32, simP []), (34, simP simC)]).reverse
    ModemEv.packet (ascii "A") ∈ (simModem simCfg0 h).log ∧ simAccepted h = [[2]] := by decide +kernel

/-- After some frames sent with `sendRaw()` only the count has changed. -/
theorem after_raws (cfg : SimCfg) (h : List (Nat × SimOp)) (m : Bytes) (k : Nat) :
    Sim.after cfg (List.replicate k (31, SimOp.sendRaw m true) ++ h) =
      { Sim.after cfg h with msgCount := if k = 0 then (Sim.after cfg h).msgCount else ((Sim.after cfg h).msgCount + k) % 256 } := by
  induction k with
  | zero => rfl
  | succ k ih =>
    rw [List.replicate_succ, List.cons_append]
    simp only [Sim.after, Sim.op]
    rw [ih]
    by_cases hk : k = 0
    · subst hk; simp [Sim.bump]
    · simp [Sim.bump, hk]; omega

/-- The stream of those calls. -/
theorem stream_raws (cfg : SimCfg) (h : List (Nat × SimOp)) (m : Bytes) (k : Nat) :
    Sim.stream cfg (List.replicate k (31, SimOp.sendRaw m true) ++ h) =
      Sim.stream cfg h ++ (List.replicate k [SimOut.send m.length, SimOut.data m]).flatten := by
  induction k with
  | zero => simp
  | succ k ih =>
    rw [List.replicate_succ, List.cons_append]
    simp only [Sim.stream]
    rw [ih]
    have : Sim.outs cfg (List.replicate k (31, SimOp.sendRaw m true) ++ h) 31 (.sendRaw m true) = [.send m.length, .data m] := rfl
    rw [this, List.append_assoc]
    congr 1
    have h1 : [SimOut.send m.length, SimOut.data m] = [[SimOut.send m.length, SimOut.data m]].flatten := by simp
    conv => lhs; rhs; rw [h1]
    rw [← List.flatten_append, ← List.replicate_succ']

/-- Calls made one after another (oldest first) from a given state. -/
def simFrom (cfg : SimCfg) (s : Sim) : List (Nat × SimOp) → Sim × List SimOut
  | [] => (s, [])
  | (t, o) :: l => ((simFrom cfg (s.op cfg t o).1 l).1, (s.op cfg t o).2 ++ (simFrom cfg (s.op cfg t o).1 l).2)

theorem simFrom_eq (cfg : SimCfg) (l : List (Nat × SimOp)) : ∀ h, Sim.after cfg (l.reverse ++ h) = (simFrom cfg (Sim.after cfg h) l).1 ∧
    Sim.stream cfg (l.reverse ++ h) = Sim.stream cfg h ++ (simFrom cfg (Sim.after cfg h) l).2 := by
  induction l with
  | nil => intro h; simp [simFrom]
  | cons x l ih =>
    intro h
    obtain ⟨t, o⟩ := x
    have := ih ((t, o) :: h)
    simp only [List.reverse_cons, List.append_assoc, List.cons_append, List.nil_append]
    refine ⟨this.1, ?_⟩
    rw [this.2]
    simp only [simFrom, Sim.stream, Sim.after, Sim.outs, List.append_assoc]

theorem raws_sends (m : Bytes) (k : Nat) : simSends (List.replicate k [SimOut.send m.length, SimOut.data m]).flatten = k := by
  induction k with
  | zero => rfl
  | succ k ih =>
    rw [List.replicate_succ, List.flatten_cons, sends_append, ih]
    have : simSends [SimOut.send m.length, SimOut.data m] = 1 := rfl
    omega

theorem raws_pending (cfg : SimCfg) (h : List (Nat × SimOp)) (m : Bytes) (k : Nat) (hp : simPending cfg h = false) :
    simPending cfg (List.replicate k (31, SimOp.sendRaw m true) ++ h) = false := by
  cases k with
  | zero => exact hp
  | succ k =>
    rw [List.replicate_succ, List.cons_append]
    have : Sim.stream cfg ((31, SimOp.sendRaw m true) :: (List.replicate k (31, SimOp.sendRaw m true) ++ h)) =
      Sim.stream cfg (List.replicate k (31, SimOp.sendRaw m true) ++ h) ++ [.send m.length, .data m] := rfl
    simp only [simPending]
    rw [this]
    simp

theorem raws_tidy (cfg : SimCfg) (h : List (Nat × SimOp)) (m : Bytes) (k : Nat) (ht : simTidy cfg h) (hp : simPending cfg h = false)
    (hm : m.length ≤ 255) : simTidy cfg (List.replicate k (31, SimOp.sendRaw m true) ++ h) := by
  induction k with
  | zero => exact ht
  | succ k ih =>
    rw [List.replicate_succ, List.cons_append]
    exact ⟨ih, raws_pending cfg h m k hp, rfl, hm⟩

/-- The calls of the refutation: start-up, 254 frames sent directly, and one queued and polled for. -/
def simMany : List (Nat × SimOp) :=
  [(31, SimOp.queue (some [1, 2, 3])), (32, simP []), (34, simP simC), (36, simP simA), (38, simP []), (40, simP []), (42, simP [])].reverse ++
    (List.replicate 254 (31, SimOp.sendRaw [9] true) ++ simStart.reverse)

/-- **C236 (refuted at the 255th frame).** The restart forced after 255 frames comes between the announcement of the last of them and its
data: the modem sends the text of the next command, `AT` and a CR, as a packet, though the history is tidy, the modem accepts everything
and the frames given were all `[9]` or `[1, 2, 3]`. -/
theorem C236_refuted_255 :
    simTidy simCfg0 simMany ∧ simSends (Sim.stream simCfg0 simMany) = 255 ∧
    ModemEv.packet [65, 84, 13] ∈ (simModem simCfg0 simMany).log ∧ SimOut.data [1, 2, 3] ∉ Sim.stream simCfg0 simMany := by
  have hc : simCfgOK simCfg0 := by unfold simCfgOK; decide
  have ht0 : simTidy simCfg0 simStart.reverse := by
    simp only [simStart, simP, List.reverse_cons, List.reverse_nil, List.cons_append, List.nil_append, simTidy]
    decide +kernel
  have hp0 : simPending simCfg0 simStart.reverse = false := by decide +kernel
  have hs0 : simSends (Sim.stream simCfg0 simStart.reverse) = 0 := by decide +kernel
  have hd0 : SimOut.data [1, 2, 3] ∉ Sim.stream simCfg0 simStart.reverse := by decide +kernel
  have ht1 := raws_tidy simCfg0 simStart.reverse [9] 254 ht0 hp0 (by decide)
  have hp1 := raws_pending simCfg0 simStart.reverse [9] 254 hp0
  have hs1 := stream_raws simCfg0 simStart.reverse [9] 254
  have ha1 := after_raws simCfg0 simStart.reverse [9] 254
  have hn1 := raws_sends [9] 254
  generalize hh : List.replicate 254 (31, SimOp.sendRaw [9] true) ++ simStart.reverse = h1 at ht1 hp1 hs1 ha1
  have hn : simSends (Sim.stream simCfg0 h1) = 254 := by rw [hs1, sends_append, hn1, hs0]
  have hd1 : SimOut.data [1, 2, 3] ∉ Sim.stream simCfg0 h1 := by
    rw [hs1]
    intro hm
    rcases List.mem_append.1 hm with hm | hm
    · exact hd0 hm
    · rw [List.mem_flatten] at hm
      obtain ⟨l, hl, hm⟩ := hm
      rw [List.eq_of_mem_replicate hl] at hm
      revert hm; decide
  have hM : simMany = [(31, SimOp.queue (some [1, 2, 3])), (32, simP []), (34, simP simC), (36, simP simA), (38, simP []), (40, simP []),
      (42, simP [])].reverse ++ h1 := by rw [← hh]; rfl
  obtain ⟨_, es⟩ := simFrom_eq simCfg0 [(31, SimOp.queue (some [1, 2, 3])), (32, simP []), (34, simP simC), (36, simP simA), (38, simP []),
    (40, simP []), (42, simP [])] h1
  have hrun : (simFrom simCfg0 (Sim.after simCfg0 h1) [(31, SimOp.queue (some [1, 2, 3])), (32, simP []), (34, simP simC), (36, simP simA),
      (38, simP []), (40, simP []), (42, simP [])]).2 = [.status, .at, .send 3, .at, .pinHigh] := by
    rw [ha1]; decide +kernel
  rw [hrun, ← hM] at es
  refine ⟨?_, ?_, ?_, ?_⟩
  · rw [hM]
    simp only [List.reverse_cons, List.reverse_nil, List.cons_append, List.nil_append, simTidy, simP]
    exact ⟨ht1, hp1⟩
  · rw [es, sends_append, hn]; rfl
  · have i := text_inv simCfg0 hc h1 ht1 (by omega)
    have hne : (Sim.after simCfg0 h1).st ≠ .writePacket := by
      intro e; rw [i.pend e] at hp1; cases hp1
    have hm := i.modem
    rw [if_neg hne] at hm
    have e : simModem simCfg0 simMany = (simModem simCfg0 h1).feed true
        ([SimOut.status, .at, .send 3, .at, .pinHigh].flatMap SimOut.text) := by
      simp only [simModem, Sim.wire]
      rw [es, List.flatMap_append, feed_append]
    rw [e, hm]
    simp only [List.flatMap_cons, List.flatMap_nil]
    rw [feed_append, feed_plain simCfg0 hc .status trivial, feed_append, feed_plain simCfg0 hc .at trivial, feed_append, feed_send]
    have h4 : SimOut.text .at = [65, 84, 13, 10] := by decide +kernel
    rw [h4]
    simp [Modem.feed, Modem.byte, SimOut.text]
  · rw [es]
    intro hm
    rcases List.mem_append.1 hm with hm | hm
    · exact hd1 hm
    · revert hm; decide

end OTR.Props
