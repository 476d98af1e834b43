import Verif.Model.I2C
/-!
# C243 — I2C transfers on the EFR32

Specification (`Spec` part): what is on the bus in a complete write-then-read or write.
-/

namespace OTR.Props
open OTR

/-- The bytes sent, all acknowledged. -/
def sentOk (bs : Bytes) : List BusEv := bs.map fun b => .wr b true

/-- The bus after `j` bytes have been read from the slave, each acknowledged by the master, starting from `t`. -/
def readOk (s : I2CSlave) (t : List BusEv) : Nat → List BusEv
  | 0 => t
  | j + 1 => readOk s t j ++ [.rd (s.data (readOk s t j)), .mack true]

/-- The `j`-th byte the slave gives. -/
def slaveByte (s : I2CSlave) (t : List BusEv) (j : Nat) : Byte := s.data (readOk s t j)

/-- Start, address for writing, the bytes. -/
def busWrite (t : List BusEv) (a : Byte) (c : Bytes) : List BusEv := t ++ [.start, .wr a true] ++ sentOk c

/-- The same, repeated start, address for reading. -/
def busTurn (t : List BusEv) (a : Byte) (c : Bytes) : List BusEv := busWrite t a c ++ [.start, .wr (a ||| 1) true]

/-- The same, `n` bytes read of which the last is refused, as the end of the reading, and stop. -/
def busRead (s : I2CSlave) (t : List BusEv) (a : Byte) (c : Bytes) (n : Nat) : List BusEv :=
  readOk s (busTurn t a c) (n - 1) ++ [.rd (slaveByte s (busTurn t a c) (n - 1)), .mack false, .stop]

/-- Whether `t` ends just before a byte of the master's in the course of such a transfer, and which byte: the first address, a data byte, the second address (if a read follows). -/
inductive Before (t0 : List BusEv) (a : Byte) (c : Bytes) (rd : Bool) : List BusEv → Byte → Prop
  | addr : Before t0 a c rd (t0 ++ [.start]) a
  | data (k : Nat) (b : Byte) : c[k]? = some b → Before t0 a c rd (busWrite t0 a (c.take k)) b
  | turn : rd = true → Before t0 a c rd (busWrite t0 a c ++ [.start]) (a ||| 1)

/-- The first `j` of the slave's bytes, in the buffer. -/
def filled (s : I2CSlave) (t : List BusEv) (r : Bytes) (j : Nat) : Bytes := (List.range j).map (slaveByte s t) ++ r.drop j

/-! ## Proof: where a transfer can be between two polls -/

/-- A peripheral with no flag up. -/
def hwq (phase : I2CPhase) (tx : Option Byte) (start stop pnack : Bool) (d : Byte) (tr : List BusEv) : I2CHw :=
  ⟨phase, tx, start, stop, pnack, false, false, false, false, false, false, d, tr⟩

/-- Where a transfer can be between two polls; the number: how many things still have to happen on the bus, at most. -/
inductive Going (s : I2CSlave) (q : I2CSeq) (a : Byte) (r : Bytes) (t0 : List BusEv) : I2CM → Nat → Prop
  | addr (d : Byte) : Going s q a r t0 ⟨.addrW, .inProgress, 0, 0, r, hwq .idle (some a) true false false d t0⟩ (q.cmd.length + r.length + 3)
  | data (k : Nat) (d : Byte) (h : k < q.cmd.length) :
      Going s q a r t0 ⟨.dataW, .inProgress, k + 1, 0, r, hwq .tx q.cmd[k]? false false false d (busWrite t0 a (q.cmd.take k))⟩ (q.cmd.length - k + r.length + 2)
  | turn (d : Byte) (h : q.rd = true) : Going s q a r t0 ⟨.raddrW, .inProgress, 0, 1, r, hwq .tx (some (a ||| 1)) true false false d (busWrite t0 a q.cmd)⟩ (r.length + 2)
  | read (j : Nat) (d : Byte) (h : q.rd = true) (hj : j < r.length) :
      Going s q a r t0 ⟨.wfData, .inProgress, j, 1, filled s (busTurn t0 a q.cmd) r j,
        hwq .rx none false false (decide (1 < r.length ∧ j = r.length - 1)) d (readOk s (busTurn t0 a q.cmd) j)⟩ (r.length - j + 1)
  | stopR (d : Byte) (h : q.rd = true) :
      Going s q a r t0 ⟨.stopW, .inProgress, r.length, 1, filled s (busTurn t0 a q.cmd) r r.length,
        hwq .refused none false true false d (readOk s (busTurn t0 a q.cmd) (r.length - 1) ++ [.rd (slaveByte s (busTurn t0 a q.cmd) (r.length - 1)), .mack false])⟩ 1
  | stopW (d : Byte) (h : q.rd = false) : Going s q a r t0 ⟨.stopW, .inProgress, 0, 1, r, hwq .tx none false true false d (busWrite t0 a q.cmd)⟩ 1
  | refused (off bi : Nat) (d b : Byte) (t : List BusEv) (h : Before t0 a q.cmd q.rd t b) (hb : s.acks t b = false) :
      Going s q a r t0 ⟨.stopW, .nack, off, bi, r, hwq .tx none false true false d (t ++ [.wr b false])⟩ 1

/-- How a transfer can have ended. -/
inductive Ended (s : I2CSlave) (q : I2CSeq) (a : Byte) (r : Bytes) (t0 : List BusEv) (m : I2CM) : Prop
  | okR : m.ret = .done → q.rd = true → m.hw.tr = busRead s t0 a q.cmd r.length → m.rx = (List.range r.length).map (slaveByte s (busTurn t0 a q.cmd)) → Ended s q a r t0 m
  | okW : m.ret = .done → q.rd = false → m.hw.tr = busWrite t0 a q.cmd ++ [.stop] → m.rx = r → Ended s q a r t0 m
  | nak (t : List BusEv) (b : Byte) : m.ret = .nack → Before t0 a q.cmd q.rd t b → s.acks t b = false → m.hw.tr = t ++ [.wr b false, .stop] → m.rx = r → Ended s q a r t0 m
  | arb (j : Nat) : m.ret = .arbLost → j ≤ r.length → m.rx = filled s (busTurn t0 a q.cmd) r j → Ended s q a r t0 m
  | berr (j : Nat) : m.ret = .busErr → j ≤ r.length → m.rx = filled s (busTurn t0 a q.cmd) r j → Ended s q a r t0 m

theorem going_ret {s q a r t0 m k} (h : Going s q a r t0 m k) : m.ret = .inProgress := by
  cases h <;> rfl

theorem ended_ret {s q a r t0 m} (h : Ended s q a r t0 m) : m.ret ≠ .inProgress := by
  cases h <;> (intro h'; simp_all)

theorem filled_zero (s : I2CSlave) (t : List BusEv) (r : Bytes) : filled s t r 0 = r := rfl

/-- Wherever it is, the buffer holds the slave's first bytes and, after them, what it held. -/
theorem going_filled {s q a r t0 m k} (h : Going s q a r t0 m k) : ∃ j, j ≤ r.length ∧ m.rx = filled s (busTurn t0 a q.cmd) r j := by
  cases h with
  | read j d h hj => exact ⟨j, by omega, rfl⟩
  | stopR d h => exact ⟨r.length, Nat.le_refl _, rfl⟩
  | _ => exact ⟨0, Nat.zero_le _, rfl⟩

/-- Nothing happens: nothing changes. -/
theorem going_none {s q a r t0 m k} (h : Going s q a r t0 m k) : I2CM.poll q { m with hw := m.hw.tick s .none } = m := by
  cases h <;> rfl

theorem going_arb {s q a r t0 m k} (h : Going s q a r t0 m k) : Ended s q a r t0 (I2CM.poll q { m with hw := m.hw.tick s .arb }) := by
  obtain ⟨j, hj, e⟩ := going_filled h
  refine .arb j ?_ hj ?_
  · cases h <;> rfl
  · rw [← e]; cases h <;> rfl

theorem going_berr {s q a r t0 m k} (h : Going s q a r t0 m k) : Ended s q a r t0 (I2CM.poll q { m with hw := m.hw.tick s .berr }) := by
  obtain ⟨j, hj, e⟩ := going_filled h
  refine .berr j ?_ hj ?_
  · cases h <;> rfl
  · rw [← e]; cases h <;> rfl

/-- After an acknowledged byte with `k` data bytes sent. -/
theorem going_send {s q a r t0} (ha : a = u8 q.addr &&& 0xfe) (st : I2CState) (k : Nat) (hk : k ≤ q.cmd.length) (d : Byte) (n : Nat)
    (hn : q.cmd.length - k + r.length + 2 ≤ n) :
    ∃ n', n' ≤ n ∧ Going s q a r t0 (I2CM.doDataSend q ⟨st, .inProgress, k, 0, r, hwq .tx none false false false d (busWrite t0 a (q.cmd.take k))⟩) n' := by
  unfold I2CM.doDataSend
  by_cases h : k < q.cmd.length
  · rw [if_neg (by dsimp only; omega)]
    exact ⟨_, hn, .data k d h⟩
  · have e : k = q.cmd.length := by omega
    subst e
    rw [if_pos (Nat.le_refl _), List.take_length]
    cases h2 : q.rd with
    | true =>
      refine ⟨r.length + 2, by omega, ?_⟩
      have := Going.turn (s := s) (q := q) (a := a) (r := r) (t0 := t0) d h2
      simp only [I2CM.doRstart, h2, if_true]
      rw [ha] at this ⊢
      exact this
    | false => exact ⟨1, by omega, .stopW d h2⟩

theorem getElem?_some_of_lt {c : Bytes} {k : Nat} (h : k < c.length) : c[k]? = some c[k] := List.getElem?_eq_getElem h

theorem busWrite_snoc (t0 : List BusEv) (a : Byte) (c : Bytes) (k : Nat) (h : k < c.length) :
    busWrite t0 a (c.take k) ++ [.wr c[k] true] = busWrite t0 a (c.take (k + 1)) := by
  rw [List.take_succ_eq_append_getElem h, busWrite, busWrite, sentOk, sentOk, List.map_append]
  simp

theorem even_addr (x : Byte) : (x &&& 0xfe).toNat % 2 = 0 ∧ ((x &&& 0xfe) ||| 1).toNat % 2 = 1 := by
  revert x; apply forall_byte; decide +kernel

theorem filled_set (s : I2CSlave) (t : List BusEv) (r : Bytes) (j : Nat) (hj : j < r.length) :
    (filled s t r j).set j (slaveByte s t j) = filled s t r (j + 1) := by
  unfold filled
  rw [List.set_append_right _ _ (by simp)]
  simp only [List.length_map, List.length_range, Nat.sub_self, List.range_succ, List.map_append, List.map_cons, List.map_nil, List.append_assoc, List.singleton_append]
  rw [List.drop_eq_getElem_cons hj, List.set_cons_zero]

theorem filled_length (s : I2CSlave) (t : List BusEv) (r : Bytes) (j : Nat) (hj : j ≤ r.length) : (filled s t r j).length = r.length := by
  simp [filled]; omega

theorem poll_of {q : I2CSeq} {m m' : I2CM} (h1 : m.hw.arb = false) (h2 : m.hw.berr = false) (e : m.switch q = m') (h : m'.state ≠ .done) : I2CM.poll q m = m' := by
  unfold I2CM.poll
  rw [h1, h2]
  simp only [Bool.false_eq_true, if_false, e]
  rw [if_neg (fun x => h x.1)]

theorem poll_done {q : I2CSeq} {m m' : I2CM} (h1 : m.hw.arb = false) (h2 : m.hw.berr = false) (e : m.switch q = m') (h : m'.state = .done) :
    I2CM.poll q m = if m'.result = .inProgress then { m' with result := .done } else m' := by
  unfold I2CM.poll
  rw [h1, h2]
  simp only [Bool.false_eq_true, if_false, e, h, true_and]

theorem send_state (q : I2CSeq) (m : I2CM) : (m.doDataSend q).state ≠ .done := by
  unfold I2CM.doDataSend I2CM.doRstart
  by_cases h : m.offset ≥ q.cmd.length
  · rw [if_pos h]; cases q.rd <;> simp
  · rw [if_neg h]; simp

/-- A peripheral with the acknowledge or refusal of a byte in its flags. -/
def hwk (phase : I2CPhase) (k : Bool) (d : Byte) (tr : List BusEv) : I2CHw :=
  ⟨phase, none, false, false, false, k, !k, false, false, false, false, d, tr⟩

theorem act_addr (s : I2CSlave) (p : I2CPhase) (hp : p = .idle ∨ p = .tx) (a d : Byte) (t : List BusEv) :
    (hwq p (some a) true false false d t).act s =
      hwk (if s.acks (t ++ [.start]) a && a.toNat % 2 == 1 then .rx else .tx) (s.acks (t ++ [.start]) a) d (t ++ [.start, .wr a (s.acks (t ++ [.start]) a)]) := by
  rcases hp with rfl | rfl <;> rfl

theorem act_data (s : I2CSlave) (b d : Byte) (t : List BusEv) :
    (hwq .tx (some b) false false false d t).act s = hwk .tx (s.acks t b) d (t ++ [.wr b (s.acks t b)]) := rfl

theorem doData_last (m : I2CM) (h1 : m.hw.rxv = true) (h2 : m.offset + 1 = m.rx.length) :
    m.doData = { m with state := .stopW, rx := m.rx.set m.offset m.hw.rxd, offset := m.offset + 1, hw := { (if m.rx.length = 1 then I2CHw.cmdNack { m.hw with rxv := false } else { m.hw with rxv := false }) with stop := true } } := by
  unfold I2CM.doData
  rw [if_pos h1]
  have g1 : m.offset < m.rx.length := by omega
  have g2 : m.offset + 1 ≥ m.rx.length := by omega
  simp only [if_pos g1, if_pos g2]
  by_cases h : m.rx.length = 1
  · simp only [if_pos h]
  · simp only [if_neg h]

theorem doData_mid (m : I2CM) (h1 : m.hw.rxv = true) (h2 : m.offset + 1 < m.rx.length) :
    m.doData = { m with rx := m.rx.set m.offset m.hw.rxd, offset := m.offset + 1, hw := if m.offset + 1 = m.rx.length - 1 then (I2CHw.cmdAck { m.hw with rxv := false }).cmdNack else I2CHw.cmdAck { m.hw with rxv := false } } := by
  unfold I2CM.doData
  rw [if_pos h1]
  have g1 : m.offset < m.rx.length := by omega
  have g2 : ¬ m.offset + 1 ≥ m.rx.length := by omega
  simp only [if_pos g1, if_neg g2]
  by_cases h : m.offset + 1 = m.rx.length - 1
  · rw [if_pos ⟨by omega, h⟩]; simp only [if_pos h]
  · rw [if_neg (fun x => h x.2)]; simp only [if_neg h]

/-- The next thing happens: the transfer gets on. -/
theorem going_act {s q a r t0 m k} (ha : a = u8 q.addr &&& 0xfe) (hr : q.rd = true → r ≠ []) (h : Going s q a r t0 m k) :
    (∃ k', k' < k ∧ Going s q a r t0 (I2CM.poll q { m with hw := m.hw.act s }) k') ∨
      (Ended s q a r t0 (I2CM.poll q { m with hw := m.hw.act s }) ∧ (I2CM.poll q { m with hw := m.hw.act s }).ret ≠ .arbLost ∧ (I2CM.poll q { m with hw := m.hw.act s }).ret ≠ .busErr) := by
  have hev := even_addr (u8 q.addr)
  rw [← ha] at hev
  cases h with
  | addr d =>
    left
    dsimp only
    rw [act_addr s .idle (Or.inl rfl)]
    cases hk : s.acks (t0 ++ [.start]) a with
    | true =>
      obtain ⟨n', h1, h2⟩ := going_send (s := s) (t0 := t0) (q := q) (r := r) ha .addrW 0 (Nat.zero_le _) d (q.cmd.length + r.length + 2) (by omega)
      refine ⟨n', by omega, ?_⟩
      have hp : (if (true && a.toNat % 2 == 1) then I2CPhase.rx else .tx) = .tx := by rw [hev.1]; rfl
      rw [hp]
      have e : I2CM.poll q ⟨.addrW, .inProgress, 0, 0, r, hwk .tx true d (t0 ++ [.start, .wr a true])⟩ =
          I2CM.doDataSend q ⟨.addrW, .inProgress, 0, 0, r, hwq .tx none false false false d (t0 ++ [.start, .wr a true])⟩ := poll_of rfl rfl rfl (send_state q _)
      rw [e]
      have hb : t0 ++ [.start, .wr a true] = busWrite t0 a (q.cmd.take 0) := by simp [busWrite, sentOk]
      rw [hb]
      exact h2
    | false =>
      refine ⟨1, by omega, ?_⟩
      rw [poll_of rfl rfl rfl (by simp [I2CM.switch, hwk, I2CM.refused])]
      have := Going.refused (s := s) (q := q) (a := a) (r := r) (t0 := t0) 0 0 d a _ .addr hk
      rw [List.append_assoc] at this
      exact this
  | data k d hk =>
    left
    dsimp only
    rw [List.getElem?_eq_getElem hk, act_data]
    cases hb : s.acks (busWrite t0 a (q.cmd.take k)) q.cmd[k] with
    | true =>
      obtain ⟨n', h1, h2⟩ := going_send (s := s) (t0 := t0) (q := q) (r := r) ha .dataW (k + 1) (by omega) d (q.cmd.length - (k + 1) + r.length + 2) (Nat.le_refl _)
      refine ⟨n', by omega, ?_⟩
      have e : I2CM.poll q ⟨.dataW, .inProgress, k + 1, 0, r, hwk .tx true d (busWrite t0 a (q.cmd.take k) ++ [.wr q.cmd[k] true])⟩ =
          I2CM.doDataSend q ⟨.dataW, .inProgress, k + 1, 0, r, hwq .tx none false false false d (busWrite t0 a (q.cmd.take k) ++ [.wr q.cmd[k] true])⟩ :=
        poll_of rfl rfl rfl (send_state q _)
      rw [e, busWrite_snoc _ _ _ _ hk]
      exact h2
    | false =>
      refine ⟨1, by omega, ?_⟩
      rw [poll_of rfl rfl rfl (by simp [I2CM.switch, hwk, I2CM.refused])]
      exact Going.refused (s := s) (q := q) (a := a) (r := r) (t0 := t0) (k + 1) 0 d _ _ (.data k _ (List.getElem?_eq_getElem hk)) hb
  | turn d h =>
    left
    dsimp only
    rw [act_addr s .tx (Or.inr rfl)]
    cases hk : s.acks (busWrite t0 a q.cmd ++ [.start]) (a ||| 1) with
    | true =>
      have hr0 : 0 < r.length := List.length_pos_iff.2 (hr h)
      refine ⟨r.length - 0 + 1, by omega, ?_⟩
      have hp : (if (true && (a ||| 1).toNat % 2 == 1) then I2CPhase.rx else .tx) = .rx := by rw [hev.2]; rfl
      rw [hp, poll_of rfl rfl rfl (by simp [I2CM.switch, hwk])]
      have := Going.read (s := s) (q := q) (a := a) (r := r) (t0 := t0) 0 d h hr0
      have hd : decide (1 < r.length ∧ 0 = r.length - 1) = false := by
        rw [decide_eq_false_iff_not]; omega
      rw [hd] at this
      exact this
    | false =>
      refine ⟨1, by omega, ?_⟩
      rw [poll_of rfl rfl rfl (by simp [I2CM.switch, hwk, I2CM.refused])]
      have := Going.refused (s := s) (q := q) (a := a) (r := r) (t0 := t0) 0 1 d _ _ (.turn h) hk
      rw [List.append_assoc] at this
      exact this
  | read j d h hj =>
    left
    dsimp only
    have hl : (filled s (busTurn t0 a q.cmd) r j).length = r.length := filled_length s _ r j (by omega)
    by_cases last : j + 1 = r.length
    · -- the last byte
      refine ⟨1, by omega, ?_⟩
      by_cases one : r.length = 1
      · have hd : decide (1 < r.length ∧ j = r.length - 1) = false := by rw [decide_eq_false_iff_not]; omega
        rw [hd]
        have e : I2CM.poll q ⟨.wfData, .inProgress, j, 1, filled s (busTurn t0 a q.cmd) r j, (hwq .rx none false false false d (readOk s (busTurn t0 a q.cmd) j)).act s⟩ =
            ⟨.stopW, .inProgress, r.length, 1, filled s (busTurn t0 a q.cmd) r r.length, hwq .refused none false true false (slaveByte s (busTurn t0 a q.cmd) j)
              (readOk s (busTurn t0 a q.cmd) (r.length - 1) ++ [.rd (slaveByte s (busTurn t0 a q.cmd) (r.length - 1)), .mack false])⟩ := by
          refine poll_of rfl rfl ?_ (by simp)
          have e2 := doData_last ⟨.wfData, .inProgress, j, 1, filled s (busTurn t0 a q.cmd) r j, (hwq .rx none false false false d (readOk s (busTurn t0 a q.cmd) j)).act s⟩ rfl (by rw [hl]; exact last)
          refine e2.trans ?_
          have hj0 : j = 0 := by omega
          subst hj0
          simp only [hl, one, if_true, Nat.zero_add, Nat.sub_self]
          rw [← filled_set s (busTurn t0 a q.cmd) r 0 hj]
          simp [I2CHw.act, hwq, I2CHw.cmdNack, slaveByte]
        rw [e]
        exact .stopR _ h
      · have hd : decide (1 < r.length ∧ j = r.length - 1) = true := by rw [decide_eq_true_iff]; omega
        rw [hd]
        have e : I2CM.poll q ⟨.wfData, .inProgress, j, 1, filled s (busTurn t0 a q.cmd) r j, (hwq .rx none false false true d (readOk s (busTurn t0 a q.cmd) j)).act s⟩ =
            ⟨.stopW, .inProgress, r.length, 1, filled s (busTurn t0 a q.cmd) r r.length, hwq .refused none false true false (slaveByte s (busTurn t0 a q.cmd) j)
              (readOk s (busTurn t0 a q.cmd) (r.length - 1) ++ [.rd (slaveByte s (busTurn t0 a q.cmd) (r.length - 1)), .mack false])⟩ := by
          refine poll_of rfl rfl ?_ (by simp)
          have e2 := doData_last ⟨.wfData, .inProgress, j, 1, filled s (busTurn t0 a q.cmd) r j, (hwq .rx none false false true d (readOk s (busTurn t0 a q.cmd) j)).act s⟩ rfl (by rw [hl]; exact last)
          refine e2.trans ?_
          simp only [hl, if_neg one]
          have hj1 : r.length - 1 = j := by omega
          rw [hj1, ← last, ← filled_set s (busTurn t0 a q.cmd) r j hj]
          simp [I2CHw.act, hwq, slaveByte]
        rw [e]
        exact .stopR _ h
    · refine ⟨r.length - (j + 1) + 1, by omega, ?_⟩
      have hd : decide (1 < r.length ∧ j = r.length - 1) = false := by rw [decide_eq_false_iff_not]; omega
      rw [hd]
      have e : I2CM.poll q ⟨.wfData, .inProgress, j, 1, filled s (busTurn t0 a q.cmd) r j, (hwq .rx none false false false d (readOk s (busTurn t0 a q.cmd) j)).act s⟩ =
          ⟨.wfData, .inProgress, j + 1, 1, filled s (busTurn t0 a q.cmd) r (j + 1),
            hwq .rx none false false (decide (1 < r.length ∧ j + 1 = r.length - 1)) (slaveByte s (busTurn t0 a q.cmd) j) (readOk s (busTurn t0 a q.cmd) (j + 1))⟩ := by
        refine poll_of rfl rfl ?_ (by simp)
        have e2 := doData_mid ⟨.wfData, .inProgress, j, 1, filled s (busTurn t0 a q.cmd) r j, (hwq .rx none false false false d (readOk s (busTurn t0 a q.cmd) j)).act s⟩ rfl (by rw [hl]; dsimp only; omega)
        refine e2.trans ?_
        rw [← filled_set s (busTurn t0 a q.cmd) r j hj]
        by_cases h3 : j + 1 = r.length - 1
        · have hd3 : decide (1 < r.length ∧ j + 1 = r.length - 1) = true := by rw [decide_eq_true_iff]; omega
          simp only [hl, if_pos h3, hd3]
          simp [I2CHw.act, hwq, slaveByte, I2CHw.cmdAck, I2CHw.cmdNack, readOk]
        · have hd3 : decide (1 < r.length ∧ j + 1 = r.length - 1) = false := by rw [decide_eq_false_iff_not]; omega
          simp only [hl, if_neg h3, hd3]
          simp [I2CHw.act, hwq, slaveByte, I2CHw.cmdAck, readOk]
      rw [e]
      exact .read (j + 1) _ h (by omega)
  | stopR d h =>
    right
    dsimp only
    refine ⟨.okR rfl h ?_ ?_, (by decide : I2CRes.done ≠ .arbLost), (by decide : I2CRes.done ≠ .busErr)⟩
    · show (_ ++ [_, _]) ++ [BusEv.stop] = _
      rw [busRead]; simp
    · show filled s (busTurn t0 a q.cmd) r r.length = _
      simp [filled]
  | stopW d h => exact Or.inr ⟨.okW rfl h rfl rfl, (by decide : I2CRes.done ≠ .arbLost), (by decide : I2CRes.done ≠ .busErr)⟩
  | refused off bi d b t h hb =>
    refine Or.inr ⟨.nak t b rfl h hb ?_ rfl, (by decide : I2CRes.nack ≠ .arbLost), (by decide : I2CRes.nack ≠ .busErr)⟩
    show (t ++ [.wr b false]) ++ [.stop] = _
    simp


/-- Ended, and lost to another master or by a bus error only if there was one. -/
def EndedBy (s : I2CSlave) (q : I2CSeq) (a : Byte) (r : Bytes) (t0 : List BusEv) (n : Nat) (sch : Nat → I2CTick) (m : I2CM) : Prop :=
  Ended s q a r t0 m ∧ (m.ret = .arbLost → ∃ i < n, sch i = .arb) ∧ (m.ret = .busErr → ∃ i < n, sch i = .berr)

theorem EndedBy.later {s q a r t0 n sch m} (h : EndedBy s q a r t0 n (fun i => sch (i + 1)) m) : EndedBy s q a r t0 (n + 1) sch m := by
  obtain ⟨h1, h2, h3⟩ := h
  refine ⟨h1, fun e => ?_, fun e => ?_⟩
  · obtain ⟨i, hi, hs⟩ := h2 e; exact ⟨i + 1, by omega, hs⟩
  · obtain ⟨i, hi, hs⟩ := h3 e; exact ⟨i + 1, by omega, hs⟩

/-- The polling loop: the transfer goes on, or it has ended. -/
theorem loop_inv {s q a r t0} (ha : a = u8 q.addr &&& 0xfe) (hr : q.rd = true → r ≠ []) (n : Nat) : ∀ (sch : Nat → I2CTick) (m : I2CM) (k : Nat),
    Going s q a r t0 m k → EndedBy s q a r t0 n sch (i2cLoop s q n sch m) ∨
      ((∃ k', Going s q a r t0 (i2cLoop s q n sch m) k') ∧ ((List.range n).countP fun i => sch i = .act) < k ∧ ∀ i < n, sch i ≠ .arb ∧ sch i ≠ .berr) := by
  induction n with
  | zero =>
    intro sch m k h
    refine Or.inr ⟨⟨k, h⟩, ?_, fun i hi => by omega⟩
    cases h <;> simp <;> omega
  | succ n ih =>
    intro sch m k h
    rw [i2cLoop, if_pos (going_ret h)]
    have stay : ∀ m', Ended s q a r t0 m' → i2cLoop s q n (fun i => sch (i + 1)) m' = m' := by
      intro m' he
      cases n with
      | zero => rfl
      | succ n => rw [i2cLoop, if_neg (ended_ret he)]
    have cnt : ((List.range (n + 1)).countP fun i => sch i = .act) = (if sch 0 = .act then 1 else 0) + (List.range n).countP fun i => sch (i + 1) = .act := by
      rw [List.range_succ_eq_map, List.countP_cons, List.countP_map, Nat.add_comm]
      simp [Function.comp_def]
    cases ht : sch 0 with
    | none =>
      rw [going_none h]
      rcases ih (fun i => sch (i + 1)) m k h with g | ⟨g1, g2, g3⟩
      · exact Or.inl g.later
      · refine Or.inr ⟨g1, by rw [cnt, ht]; simpa using g2, fun i hi => ?_⟩
        cases i with
        | zero => rw [ht]; decide
        | succ i => exact g3 i (by omega)
    | act =>
      rcases going_act ha hr h with ⟨k', hk, g⟩ | ⟨g, ga, gb⟩
      · rcases ih (fun i => sch (i + 1)) _ k' g with g | ⟨g1, g2, g3⟩
        · exact Or.inl g.later
        · refine Or.inr ⟨g1, by rw [cnt, ht]; simp only [if_true]; omega, fun i hi => ?_⟩
          cases i with
          | zero => rw [ht]; decide
          | succ i => exact g3 i (by omega)
      · refine Or.inl ?_
        show EndedBy s q a r t0 (n + 1) sch (i2cLoop s q n _ (I2CM.poll q { m with hw := m.hw.act s }))
        rw [stay _ g]; exact ⟨g, fun e => absurd e ga, fun e => absurd e gb⟩
    | arb =>
      refine Or.inl ?_
      have e : (I2CM.poll q { m with hw := m.hw.tick s .arb }).ret = .arbLost := by cases h <;> rfl
      rw [stay _ (going_arb h)]; exact ⟨going_arb h, fun _ => ⟨0, by omega, ht⟩, fun e' => by rw [e] at e'; cases e'⟩
    | berr =>
      refine Or.inl ?_
      have e : (I2CM.poll q { m with hw := m.hw.tick s .berr }).ret = .busErr := by cases h <;> rfl
      rw [stay _ (going_berr h)]; exact ⟨going_berr h, fun e' => (by rw [e] at e'; cases e'), fun _ => ⟨0, by omega, ht⟩⟩

theorem init_going (s : I2CSlave) (q : I2CSeq) (r : Bytes) (h : I2CHw) : Going s q (u8 q.addr &&& 0xfe) r h.clear.tr (i2cInit q r h) (q.cmd.length + r.length + 3) :=
  Going.addr h.rxd

theorem addr_byte (addr : Nat) : u8 (2 * addr % 65536) &&& 0xfe = u8 (2 * addr) := by
  have h1 : u8 (2 * addr % 65536) = u8 (2 * addr) := by
    apply UInt8.toNat_inj.1
    simp only [u8, UInt8.toNat_ofNat']
    omega
  have h2 : ∀ x : Byte, x.toNat % 2 = 0 → x &&& 0xfe = x := by apply forall_byte; decide +kernel
  rw [h1]
  refine h2 _ ?_
  simp only [u8, UInt8.toNat_ofNat']
  omega

/-! ## The properties -/

/-- What was on the bus before: a transfer left unfinished is broken off. -/
def lineBefore (h : I2CHw) : List BusEv := if h.phase = .idle then h.tr else h.tr ++ [.abort]

/-- How many things happened on the bus in the time the driver allows. -/
def busActs (sch : Nat → I2CTick) : Nat := (List.range i2cTimeout).countP fun i => sch i = .act

theorem transfer_inv (s : I2CSlave) (sch : Nat → I2CTick) (q : I2CSeq) (r : Bytes) (h : I2CHw) (hr : q.rd = true → r ≠ []) :
    ∃ m : I2CM, i2cTransfer s sch q r h = (m.ret, m.rx, m.hw) ∧
      (EndedBy s q (u8 q.addr &&& 0xfe) r (lineBefore h) i2cTimeout sch m ∨
        ((∃ k', Going s q (u8 q.addr &&& 0xfe) r (lineBefore h) m k') ∧ busActs sch < q.cmd.length + r.length + 3 ∧ ∀ i < i2cTimeout, sch i ≠ .arb ∧ sch i ≠ .berr)) :=
  ⟨_, rfl, loop_inv rfl hr i2cTimeout sch _ _ (init_going s q r h)⟩

/-- **C243** A write-then-read: what each result means. -/
theorem C243_read (s : I2CSlave) (sch : Nat → I2CTick) (addr : Nat) (c r : Bytes) (h : I2CHw) (hc : c ≠ []) (hr : r ≠ []) :
    let t0 := lineBefore h
    let a := u8 (2 * addr)
    let o := i2cRead s sch addr (some c) (some r) h
    (o.1 = .done → o.2.2.tr = busRead s t0 a c r.length ∧ o.2.1 = (List.range r.length).map (slaveByte s (busTurn t0 a c))) ∧
    (o.1 = .nack → ∃ t b, Before t0 a c true t b ∧ s.acks t b = false ∧ o.2.2.tr = t ++ [.wr b false, .stop] ∧ o.2.1 = r) ∧
    (o.1 = .inProgress → busActs sch < c.length + r.length + 3) ∧
    (o.1 = .arbLost → ∃ i < i2cTimeout, sch i = .arb) ∧ (o.1 = .busErr → ∃ i < i2cTimeout, sch i = .berr) ∧ o.1 ≠ .usageFault ∧
    ∃ j, j ≤ r.length ∧ o.2.1 = filled s (busTurn t0 a c) r j := by
  dsimp only
  have e : i2cRead s sch addr (some c) (some r) h = i2cTransfer s sch ⟨2 * addr % 65536, true, c⟩ r h := by
    simp only [i2cRead]; rw [if_neg (by simp [hc, hr])]
  rw [e]
  obtain ⟨m, em, hm⟩ := transfer_inv s sch ⟨2 * addr % 65536, true, c⟩ r h (fun _ => hr)
  rw [em]
  dsimp only at hm ⊢
  rw [addr_byte] at hm
  rcases hm with ⟨h1, h2, h3⟩ | ⟨⟨k, hk⟩, h2, h3⟩
  · cases h1 with
    | okR e1 _ e2 e3 =>
      refine ⟨fun _ => ⟨e2, e3⟩, ?_, ?_, h2, h3, ?_, r.length, Nat.le_refl _, ?_⟩
      · intro x; rw [e1] at x; cases x
      · intro x; rw [e1] at x; cases x
      · rw [e1]; decide
      · rw [e3]; simp [filled]
    | okW _ e1 => cases e1
    | nak t b e1 e2 e3 e4 e5 =>
      refine ⟨?_, fun _ => ⟨t, b, e2, e3, e4, e5⟩, ?_, h2, h3, ?_, 0, Nat.zero_le _, e5⟩
      · intro x; rw [e1] at x; cases x
      · intro x; rw [e1] at x; cases x
      · rw [e1]; decide
    | arb j e1 e2 e3 =>
      refine ⟨?_, ?_, ?_, h2, h3, ?_, j, e2, e3⟩
      · intro x; rw [e1] at x; cases x
      · intro x; rw [e1] at x; cases x
      · intro x; rw [e1] at x; cases x
      · rw [e1]; decide
    | berr j e1 e2 e3 =>
      refine ⟨?_, ?_, ?_, h2, h3, ?_, j, e2, e3⟩
      · intro x; rw [e1] at x; cases x
      · intro x; rw [e1] at x; cases x
      · intro x; rw [e1] at x; cases x
      · rw [e1]; decide
  · have e1 := going_ret hk
    refine ⟨?_, ?_, fun _ => h2, ?_, ?_, ?_, going_filled hk⟩
    · intro x; rw [e1] at x; cases x
    · intro x; rw [e1] at x; cases x
    · intro x; rw [e1] at x; cases x
    · intro x; rw [e1] at x; cases x
    · rw [e1]; decide

/-- **C243** A write: what each result means. -/
theorem C243_write (s : I2CSlave) (sch : Nat → I2CTick) (addr : Nat) (c : Bytes) (h : I2CHw) (hc : c ≠ []) :
    let t0 := lineBefore h
    let a := u8 (2 * addr)
    let o := i2cWrite s sch addr (some c) h
    (o.1 = .done → o.2.tr = busWrite t0 a c ++ [.stop]) ∧
    (o.1 = .nack → ∃ t b, Before t0 a c false t b ∧ s.acks t b = false ∧ o.2.tr = t ++ [.wr b false, .stop]) ∧
    (o.1 = .inProgress → busActs sch < c.length + 3) ∧
    (o.1 = .arbLost → ∃ i < i2cTimeout, sch i = .arb) ∧ (o.1 = .busErr → ∃ i < i2cTimeout, sch i = .berr) ∧ o.1 ≠ .usageFault := by
  dsimp only
  have e : i2cWrite s sch addr (some c) h = ((i2cTransfer s sch ⟨2 * addr % 65536, false, c⟩ [] h).1, (i2cTransfer s sch ⟨2 * addr % 65536, false, c⟩ [] h).2.2) := by
    simp only [i2cWrite]; rw [if_neg hc]
  rw [e]
  obtain ⟨m, em, hm⟩ := transfer_inv s sch ⟨2 * addr % 65536, false, c⟩ [] h (fun x => by cases x)
  rw [em]
  dsimp only at hm ⊢
  rw [addr_byte] at hm
  rcases hm with ⟨h1, h2, h3⟩ | ⟨⟨k, hk⟩, h2, h3⟩
  · cases h1 with
    | okR _ e1 => cases e1
    | okW e1 _ e2 e3 =>
      refine ⟨fun _ => e2, ?_, ?_, h2, h3, ?_⟩
      · intro x; rw [e1] at x; cases x
      · intro x; rw [e1] at x; cases x
      · rw [e1]; decide
    | nak t b e1 e2 e3 e4 e5 =>
      refine ⟨?_, fun _ => ⟨t, b, e2, e3, e4⟩, ?_, h2, h3, ?_⟩
      · intro x; rw [e1] at x; cases x
      · intro x; rw [e1] at x; cases x
      · rw [e1]; decide
    | arb j e1 e2 e3 =>
      refine ⟨?_, ?_, ?_, h2, h3, ?_⟩
      · intro x; rw [e1] at x; cases x
      · intro x; rw [e1] at x; cases x
      · intro x; rw [e1] at x; cases x
      · rw [e1]; decide
    | berr j e1 e2 e3 =>
      refine ⟨?_, ?_, ?_, h2, h3, ?_⟩
      · intro x; rw [e1] at x; cases x
      · intro x; rw [e1] at x; cases x
      · intro x; rw [e1] at x; cases x
      · rw [e1]; decide
  · have e1 := going_ret hk
    refine ⟨?_, ?_, fun _ => h2, ?_, ?_, ?_⟩
    · intro x; rw [e1] at x; cases x
    · intro x; rw [e1] at x; cases x
    · intro x; rw [e1] at x; cases x
    · intro x; rw [e1] at x; cases x
    · rw [e1]; decide

/-- **C243** With a slave that acknowledges every byte of the transfer, a bus without errors and fast enough, both calls succeed. -/
theorem C243_works (s : I2CSlave) (sch : Nat → I2CTick) (addr : Nat) (c r : Bytes) (h : I2CHw) (hc : c ≠ []) (hr : r ≠ [])
    (hs : ∀ t b, Before (lineBefore h) (u8 (2 * addr)) c true t b → s.acks t b = true) (he : ∀ i < i2cTimeout, sch i ≠ .arb ∧ sch i ≠ .berr)
    (hb : c.length + r.length + 3 ≤ busActs sch) :
    (i2cRead s sch addr (some c) (some r) h).1 = .done ∧ (i2cWrite s sch addr (some c) h).1 = .done := by
  have l1 := C243_read s sch addr c r h hc hr
  have l2 := C243_write s sch addr c h hc
  dsimp only at l1 l2
  constructor
  · obtain ⟨_, h2, h3, h4, h5, h6, _⟩ := l1
    cases ho : (i2cRead s sch addr (some c) (some r) h).1 with
    | done => rfl
    | inProgress => have := h3 ho; omega
    | nack => obtain ⟨t, b, g1, g2, _⟩ := h2 ho; rw [hs t b g1] at g2; cases g2
    | busErr => obtain ⟨i, hi, g⟩ := h5 ho; exact absurd g (he i hi).2
    | arbLost => obtain ⟨i, hi, g⟩ := h4 ho; exact absurd g (he i hi).1
    | usageFault => exact absurd ho h6
  · obtain ⟨_, h2, h3, h4, h5, h6⟩ := l2
    cases ho : (i2cWrite s sch addr (some c) h).1 with
    | done => rfl
    | inProgress => have := h3 ho; omega
    | nack =>
      obtain ⟨t, b, g1, g2, _⟩ := h2 ho
      have g3 : Before (lineBefore h) (u8 (2 * addr)) c true t b := by
        cases g1 with
        | addr => exact .addr
        | data k b hk => exact .data k b hk
        | turn x => cases x
      rw [hs t b g3] at g2; cases g2
    | busErr => obtain ⟨i, hi, g⟩ := h5 ho; exact absurd g (he i hi).2
    | arbLost => obtain ⟨i, hi, g⟩ := h4 ho; exact absurd g (he i hi).1
    | usageFault => exact absurd ho h6

/-- **C243** Missing or empty buffers are refused and nothing is touched. -/
theorem C243_usage (s : I2CSlave) (sch : Nat → I2CTick) (addr : Nat) (c r : Option Bytes) (h : I2CHw) :
    (c.getD [] = [] ∨ r.getD [] = [] → i2cRead s sch addr c r h = (.usageFault, r.getD [], h)) ∧
    (c.getD [] = [] → i2cWrite s sch addr c h = (.usageFault, h)) := by
  constructor
  · intro hx
    cases c with
    | none => rfl
    | some c =>
      cases r with
      | none => rfl
      | some r => simp only [i2cRead]; rw [if_pos (by simpa using hx)]; rfl
  · intro hx
    cases c with
    | none => rfl
    | some c => simp only [i2cWrite]; rw [if_pos (by simpa using hx)]

/-- A free bus. -/
def freeBus : I2CHw := ⟨.idle, none, false, false, false, false, false, false, false, false, false, 0, []⟩

theorem busActs_all : busActs (fun _ => .act) = i2cTimeout := by
  unfold busActs
  rw [List.countP_eq_length.2 (by simp), List.length_range]

/-- A device at address 0x40 that gives 0x66, 0x4c: command 0xe3, two bytes read. -/
example : i2cRead ⟨fun _ _ => true, fun t => if t.length < 6 then 0x66 else 0x4c⟩ (fun _ => .act) 0x40 (some [0xe3]) (some [0, 0]) freeBus =
    (.done, [0x66, 0x4c], { freeBus with rxd := 0x4c, tr := [.start, .wr 0x80 true, .wr 0xe3 true, .start, .wr 0x81 true, .rd 0x66, .mack true, .rd 0x4c, .mack false, .stop] }) := by
  rfl

/-- The hypotheses of `C243_works` are met. -/
example : (i2cRead ⟨fun _ _ => true, fun _ => 7⟩ (fun _ => .act) 0x40 (some [0xe3, 1]) (some [0, 0, 0]) freeBus).1 = .done :=
  (C243_works _ _ _ _ _ _ (by decide) (by decide) (fun _ _ _ => rfl) (fun _ _ => by decide) (by rw [busActs_all]; decide)).1

/-- Nobody at the address: refused, stopped, buffer as it was. -/
example : i2cRead ⟨fun _ _ => false, fun _ => 0⟩ (fun _ => .act) 0x40 (some [0xe3]) (some [5, 6]) freeBus =
    (.nack, [5, 6], { freeBus with tr := [.start, .wr 0x80 false, .stop] }) := by rfl

end OTR.Props
