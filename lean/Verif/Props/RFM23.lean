import Verif.Proof.RFM23
/-!
# Properties C134–C137: the RFM23B radio link

Setting: the link object is fresh (nothing listened to, channel 0, queue empty), the chip is in any state with the SPI
hardware powered down, `begin()` succeeds, and then any calls, interrupts and radio events happen in any order, except a
further `begin()` or `end()` (newest first in the lists). The configuration tables must be sane (`SaneTable`: they must not
start a transmission or reception or touch the FIFO-clear bits); the tables in the code are.
-/

namespace OTR.Props
open OTR

/-- A new link object with any chip and a queue for frames of 64 bytes. -/
def rfmFresh (c : Chip) (cap : Nat) (junk : Nat → Byte) : Rfm := { chip := c, q := VQ.new 64 cap junk }

/-- The channel to listen on, according to the calls made. -/
def listenChan (cfg : RfmCfg) : List RfmOp → Option Nat
  | [] => none
  | .listen a ch :: _ => if a = true ∧ 0 ≤ ch then some (min ch.toNat (cfg.nCh - 1)) else none
  | _ :: h => listenChan cfg h

/-- No second `begin()` and no `end()`. -/
def Running (h : List RfmOp) : Prop := ∀ o ∈ h, o ≠ .begin ∧ o ≠ .fin

theorem fold_any (l : List (Nat × Byte)) (c : Chip) (hs : c.spi = true) :
    (l.foldl (fun c p => c.wr p.1 p.2) c).spi = true ∧ (l.foldl (fun c p => c.wr p.1 p.2) c).fault = c.fault ∧
      ∀ x, (l.foldl (fun c p => c.wr p.1 p.2) c).reg x = (tableVal l x).getD (c.reg x) := by
  induction l generalizing c with
  | nil => exact ⟨hs, rfl, fun _ => rfl⟩
  | cons p l ih =>
    obtain ⟨a, b, d⟩ := ih (c.wr p.1 p.2) (by simp [Chip.wr, Chip.acc, hs])
    rw [List.foldl_cons]
    refine ⟨a, by rw [b]; simp [Chip.wr, Chip.acc, hs], fun x => ?_⟩
    rw [d]
    simp only [Chip.wr, tableVal]
    rw [List.reverse_cons, List.find?_append]
    cases hf : List.find? (fun p => p.1 == x) l.reverse with
    | some q => simp
    | none =>
      by_cases e : x = p.1
      · subst e; simp
      · have e' : ¬ (p.1 = x) := fun h => e h.symm
        simp [e, e']

theorem begin_inv {cfg : RfmCfg} (hc : CfgOk cfg) (c : Chip) (cap : Nat) (junk : Nat → Byte) (h1 : c.spi = false) (h2 : c.fault = false)
    (hb : ((rfmFresh c cap junk).begin cfg).2 = true) : RInv cfg ((rfmFresh c cap junk).begin cfg).1 := by
  have e0 : (rfmFresh c cap junk).chip.withSPI Chip.acc = c := by
    cases c; simp only [rfmFresh, Chip.withSPI, Chip.acc] at *; simp [h1, h2]
  unfold Rfm.begin at hb ⊢
  dsimp only at hb ⊢
  rw [e0] at hb ⊢
  by_cases hid : c.reg 0 = 8 ∧ c.reg 1 = 6
  · rw [if_pos hid]
    dsimp only
    obtain ⟨a, b, d⟩ := fold_any (cfg.regs 0) { c with spi := true } rfl
    have hr : c.regBlock (cfg.regs 0) = { (cfg.regs 0).foldl (fun c p => c.wr p.1 p.2) { c with spi := true } with spi := false } := by
      unfold Chip.regBlock Chip.withSPI; rw [if_neg (by simp [h1])]
    rw [hr]
    generalize List.foldl (fun c p => Chip.wr c p.1 p.2) { c with spi := true } (cfg.regs 0) = f at a b d ⊢
    have hq : Quiet ({ f with spi := false } : Chip).standbyClear := by rw [standbyClear_eq]; exact ⟨rfl, rfl, rfl, rfl, rfl⟩
    refine ⟨⟨hc.ch, ?_, (by simp only [rfmFresh]; decide), (fun ch h => by cases h)⟩, ?_, ?_, (fun ch h => by cases h), fun _ => hq⟩
    · exact holds_congr (holds_of_val d) (standby_owned { f with spi := false })
    · rw [standbyClear_eq]
    · rw [standbyClear_eq]; exact b.trans h2
  · rw [if_neg hid] at hb; cases hb

theorem rfm_run_inv {cfg : RfmCfg} (hc : CfgOk cfg) {s : Rfm} (h : RInv cfg s) (ops : List RfmOp) (hr : Running ops) :
    RInv cfg (Rfm.after cfg s ops) := by
  induction ops with
  | nil => exact h
  | cons o ops ih =>
    exact op_inv hc (ih fun x hx => hr x (by simp [hx])) o (hr o (by simp)).1 (hr o (by simp)).2

theorem lc_take (cfg : RfmCfg) (s : Rfm) (n : Nat) (junk : Nat → Byte) : (s.take cfg n junk).lc = s.lc := (take_fields cfg s n junk).2.1

theorem lc_setChannel (cfg : RfmCfg) (s : Rfm) (n : Nat) : (s.setChannel cfg n).lc = s.lc := by
  unfold Rfm.setChannel; (repeat' split) <;> rfl

theorem lc_dolisten (cfg : RfmCfg) (s : Rfm) : (s.dolisten cfg).lc = s.lc := by
  unfold Rfm.dolisten
  dsimp only
  by_cases h : cfg.allowRX = false
  · rw [if_pos h]
  · rw [if_neg h]
    cases hl : s.lc with
    | none => rfl
    | some ch => dsimp only; rw [lc_setChannel]

theorem lc_poll (cfg : RfmCfg) (s : Rfm) (junk : Nat → Byte) : (s.poll cfg junk).lc = s.lc := by
  unfold Rfm.poll
  split
  · rfl
  · unfold Rfm.pollBody
    by_cases h : cfg.allowRX = false
    · rw [if_pos h]
    · rw [if_neg h]
      cases hl : s.lc with
      | none => simp only [hl]
      | some ch =>
        dsimp only
        (repeat' split) <;> first | rfl | (simp only [lc_dolisten, lc_take])

theorem lc_after {cfg : RfmCfg} (hc : CfgOk cfg) (s : Rfm) (h0 : s.lc = none) (ops : List RfmOp) (hr : Running ops) :
    (Rfm.after cfg s ops).lc = listenChan cfg ops := by
  induction ops with
  | nil => exact h0
  | cons o ops ih =>
    have ih := ih fun x hx => hr x (by simp [hx])
    unfold Rfm.after
    generalize Rfm.after cfg s ops = t at ih ⊢
    cases o with
    | begin => exact absurd rfl (hr .begin (by simp)).1
    | fin => exact absurd rfl (hr .fin (by simp)).2
    | listen a ch =>
      have hn : ∀ n, (if n = none ∨ t.lc ≠ n then ({ t with lc := n } : Rfm).dolisten cfg else ({ t with lc := n } : Rfm)).lc = n := by
        intro n; split
        · rw [lc_dolisten]
        · rfl
      simp only [Rfm.op, Rfm.listen]
      rw [hn]
      simp only [listenChan]
      have := hc.ch
      cases a with
      | false => simp
      | true =>
        by_cases h : ch < 0
        · rw [if_pos (Or.inr h), if_neg (fun x => by omega)]
        · have h' : ¬ (true = false ∨ ch < 0) := by simp [h]
          have h'' : true = true ∧ 0 ≤ ch := ⟨rfl, by omega⟩
          rw [if_neg h', if_pos h'']
          congr 1
          by_cases h2 : ch ≥ (cfg.nCh : Int)
          · rw [if_pos h2]; omega
          · rw [if_neg h2]; omega
    | setMax n => exact ih
    | send buf ch p e1 e2 =>
      refine Eq.trans ?_ ih
      simp only [Rfm.op, Rfm.sendRaw, lc_dolisten, Rfm.prepTX, lc_setChannel]
    | poll junk => exact (lc_poll cfg t junk).trans ih
    | air e => exact ih
    | remove =>
      refine Eq.trans ?_ ih
      simp only [Rfm.op]; split <;> rfl
    | getErr => exact ih

/-- The radio does what `listen()` said: if the latest `listen()` asked for a channel, the chip holds that channel's
configuration and receives with the receive interrupt enabled (or holds a received packet with the interrupt raised);
otherwise it is in standby with no interrupt. The SPI hardware is powered down and was never used while down. -/
theorem C134_follows_listen {cfg : RfmCfg} (hc : CfgOk cfg) (c : Chip) (cap : Nat) (junk : Nat → Byte) (h1 : c.spi = false)
    (h2 : c.fault = false) (hb : ((rfmFresh c cap junk).begin cfg).2 = true) (ops : List RfmOp) (hr : Running ops) :
    let s := Rfm.after cfg ((rfmFresh c cap junk).begin cfg).1 ops
    s.chip.spi = false ∧ s.chip.fault = false ∧
    match (if cfg.allowRX = true then listenChan cfg ops else none) with
    | some ch => Holds (cfg.regs ch) s.chip.reg ∧ Receiving s.chip
    | none => Quiet s.chip := by
  have hi := rfm_run_inv hc (begin_inv hc c cap junk h1 h2 hb) ops hr
  have hl0 : ((rfmFresh c cap junk).begin cfg).1.lc = none := by unfold Rfm.begin; dsimp only; split <;> rfl
  have hl := lc_after hc _ hl0 ops hr
  refine ⟨hi.spi, hi.fault, ?_⟩
  by_cases ha : cfg.allowRX = true
  · rw [if_pos ha, ← hl]
    cases hs : (Rfm.after cfg ((rfmFresh c cap junk).begin cfg).1 ops).lc with
    | none => exact hi.off (Or.inl hs)
    | some ch =>
      obtain ⟨e, r⟩ := hi.on ch hs ha
      exact ⟨by rw [← e]; exact hi.holds, r⟩
  · rw [if_neg ha]
    exact hi.off (Or.inr (by simpa using ha))

/-- The tables in the code are sane. -/
theorem C134_real_tables : SaneTable regsFHT8V ∧ SaneTable regsOOK ∧ SaneTable regsGFSK ∧ SaneTable regsJeeLabs := by
  unfold SaneTable
  decide +kernel

/-- A working chip just reset. -/
def chip0 : Chip := { reg := fun x => if x = 0 then 8 else if x = 1 then 6 else if x = 7 then 1 else 0 }

/-- Two channels as a primary and secondary: GFSK packets and OOK. -/
def cfg2 : RfmCfg :=
  { nCh := 2, regs := fun n => if n = 0 then regsGFSK else regsOOK, allowRX := true, irqPin := true, filter := none }

theorem cfg2_ok : CfgOk cfg2 := ⟨by decide, fun ch h => by
  simp only [cfg2]; split
  · exact C134_real_tables.2.2.1
  · exact C134_real_tables.2.1⟩

/-- The hypotheses of `C134_follows_listen` are met, with the channel switched. -/
example : ((rfmFresh chip0 2 fun _ => 0).begin cfg2).2 = true ∧
    (Rfm.after cfg2 ((rfmFresh chip0 2 fun _ => 0).begin cfg2).1 [.listen true 1]).chip.reg 7 = 5 ∧
    (Rfm.after cfg2 ((rfmFresh chip0 2 fun _ => 0).begin cfg2).1 [.listen true 1]).chip.reg 0x30 = 0 ∧
    (Rfm.after cfg2 ((rfmFresh chip0 2 fun _ => 0).begin cfg2).1 [.listen true 0, .listen true 1]).chip.reg 0x30 = 0x88 := by
  decide +kernel

/-- Steps that do not ask the radio for anything: polls and interrupts, what is on the air, taking messages and errors. -/
def rfmIdle : RfmOp → Bool
  | .poll _ | .air _ | .remove | .getErr => true
  | _ => false

/-- After `end()`, whatever came before, the radio is in standby with no interrupt, and stays so whatever is on the air and
however often it is polled, until it is asked for something; no message received before is lost and none arrives. -/
theorem C134_end_quiet (cfg : RfmCfg) (s : Rfm) (ops : List RfmOp) (hi : ∀ o ∈ ops, rfmIdle o = true) :
    let s' := Rfm.after cfg (Rfm.op cfg s .fin) ops
    Quiet s'.chip ∧ ((∀ o ∈ ops, o ≠ .remove) → s'.q = s.q) := by
  induction ops with
  | nil =>
    refine ⟨?_, fun _ => rfl⟩
    show Quiet s.chip.standbyClear
    rw [standbyClear_eq]; exact ⟨rfl, rfl, rfl, rfl, rfl⟩
  | cons o h ih =>
    obtain ⟨hq, hk⟩ := ih (fun o ho => hi o (List.mem_cons_of_mem _ ho))
    have ho := hi o List.mem_cons_self
    have hk' : (∀ o' ∈ o :: h, o' ≠ .remove) → (Rfm.after cfg (Rfm.op cfg s .fin) h).q = s.q := fun hh =>
      hk (fun o ho => hh o (List.mem_cons_of_mem _ ho))
    show Quiet (Rfm.op cfg (Rfm.after cfg (Rfm.op cfg s .fin) h) o).chip ∧ (_ → (Rfm.op cfg (Rfm.after cfg (Rfm.op cfg s .fin) h) o).q = s.q)
    generalize Rfm.after cfg (Rfm.op cfg s .fin) h = t at hq hk'
    obtain ⟨q1, q2, q3, q4, q5⟩ := hq
    cases o with
    | begin => cases ho
    | fin => cases ho
    | listen a ch => cases ho
    | setMax n => cases ho
    | send b ch p e1 e2 => cases ho
    | getErr => exact ⟨⟨q1, q2, q3, q4, q5⟩, hk'⟩
    | remove =>
      refine ⟨?_, fun hh => absurd rfl (hh .remove List.mem_cons_self)⟩
      simp only [Rfm.op]
      split <;> exact ⟨q1, q2, q3, q4, q5⟩
    | air e =>
      have e0 : t.chip.air1 e = t.chip := by cases e <;> simp [Chip.air1, q1]
      refine ⟨?_, hk'⟩
      show Quiet (t.chip.air1 e)
      rw [e0]; exact ⟨q1, q2, q3, q4, q5⟩
    | poll junk =>
      show Quiet (t.poll cfg junk).chip ∧ (_ → (t.poll cfg junk).q = s.q)
      have key : Quiet (t.pollBody cfg junk).chip ∧ (t.pollBody cfg junk).q = t.q := by
        unfold Rfm.pollBody
        by_cases ha : cfg.allowRX = false
        · rw [if_pos ha]; exact ⟨⟨q1, q2, q3, q4, q5⟩, rfl⟩
        · rw [if_neg ha]
          cases t.lc with
          | none => exact ⟨⟨q1, q2, q3, q4, q5⟩, rfl⟩
          | some ch =>
            dsimp only
            have hz : Quiet (t.chip.withSPI fun c => c.clrInt.acc) := by
              unfold Chip.withSPI
              split <;> exact ⟨q1, q2, q3, rfl, rfl⟩
            rw [q4]
            have z1 : ¬ ((0 : Byte) &&& 2 ≠ 0) := by decide
            have z2 : ¬ ((0 : Byte) &&& 0x80 ≠ 0) := by decide
            have z3 : ¬ ((0 : Byte) &&& 0x10 ≠ 0) := by decide
            rw [if_neg z1, if_neg z2, if_neg z3]
            split <;> exact ⟨hz, rfl⟩
      unfold Rfm.poll
      split
      · exact ⟨⟨q1, q2, q3, q4, q5⟩, hk'⟩
      · exact ⟨key.1, fun hh => key.2.trans (hk' hh)⟩

/-- While listening a packet is heard; ended before it, the radio does not hear it. -/
example :
    let s := Rfm.after cfg2 (rfmFresh chip0 2 fun _ => 0) [.listen true 0, .begin]
    (Rfm.op cfg2 s (.air (.packet [1, 2]))).chip.st1 = 2 ∧
    (Rfm.after cfg2 (Rfm.op cfg2 s .fin) [.poll fun _ => 0, .air (.packet [1, 2])]).chip.st1 = 0 := by
  decide +kernel

/-- Not so across `end()` and `begin()`: listening again on the same channel leaves the radio deaf. -/
theorem C134_refuted_restart :
    let s := Rfm.after cfg2 (rfmFresh chip0 2 fun _ => 0) [.listen true 0, .begin, .fin, .listen true 0, .begin]
    s.lc = some 0 ∧ s.chip.reg 7 = 0 ∧ s.chip.reg 5 = 0 := by
  decide +kernel

/-- Nor after a second `begin()` while on another channel: the registers of channel 0 are loaded, but the channel is still
taken to be 1, so a frame for channel 1 goes out as for channel 0 (GFSK packet mode, not OOK). -/
theorem C134_refuted_channel :
    let s := Rfm.after cfg2 (rfmFresh chip0 2 fun _ => 0)
      [.send [1, 2, 3] 1 0 (fun _ => true) (fun _ => true), .begin, .listen true 1, .begin]
    (s.chip.air.map fun p => (p.1, p.2 0x30)) = [([1, 2, 3], 0x88)] ∧ tableVal (cfg2.regs 1) 0x30 = some 0 := by
  decide +kernel

/-- A frame of at most 64 bytes given to `sendRaw()` for a real channel goes on the air once (at the highest power, twice if
the first transmission ended in time, or at least before the second try), with that channel's configuration and its own length announced in packet mode, and
nothing else does. The result is true exactly if each transmission was reported finished within its 1000 status reads. The
link then listens as before. -/
theorem C135_send {cfg : RfmCfg} (hc : CfgOk cfg) (c : Chip) (cap : Nat) (junk : Nat → Byte) (h1 : c.spi = false)
    (h2 : c.fault = false) (hb : ((rfmFresh c cap junk).begin cfg).2 = true) (ops : List RfmOp) (hr : Running ops)
    (buf : Bytes) (hl : buf.length ≤ 64) (ch : Nat) (hch : ch < cfg.nCh) (hch' : ch < 128) (power : Nat) (ev1 ev2 : Nat → Bool) :
    let s := Rfm.after cfg ((rfmFresh c cap junk).begin cfg).1 ops
    let r := s.sendRaw cfg buf ch power ev1 ev2
    (∃ new, r.1.chip.air = new ++ s.chip.air ∧
      new.length = (if power ≥ 4 ∧ ((List.range 1000).any ev1 = true ∨ ev2 1001 = true ∨ ev2 1000 = true) then 2 else 1) ∧
      ∀ f ∈ new, f.1 = buf ∧ Holds (cfg.regs ch) f.2 ∧ (f.2 0x30 &&& 8 ≠ 0 → (f.2 0x3e).toNat = buf.length)) ∧
    (r.2 = true ↔ (∃ k, k < 1000 ∧ ev1 k = true) ∧ (power ≥ 4 → ∃ k, k < 1000 ∧ ev2 k = true)) ∧
    r.1.lc = s.lc ∧ (∀ ch', s.lc = some ch' → cfg.allowRX = true → Holds (cfg.regs ch') r.1.chip.reg ∧ r.1.chip.reg 7 = 5) ∧
    r.1.q = s.q ∧ r.1.dropped = s.dropped ∧ r.1.filtered = s.filtered := by
  dsimp only
  have hi := rfm_run_inv hc (begin_inv hc c cap junk h1 h2 hb) ops hr
  generalize Rfm.after cfg ((rfmFresh c cap junk).begin cfg).1 ops = s at hi ⊢
  obtain ⟨R, k, R', t, p1, p2, p3, p4, hk, hk1, _, e, hbt, g1, g2, a1, a2, res⟩ :=
    sendRaw_spec hc s hi.toRBase hi.spi hi.fault buf ch power ev1 ev2
  have hcc : ((ch : Int) % 256).toNat = ch := by omega
  rw [hcc] at hk1
  have hkk := hk1 hch
  subst hkk
  have ht : buf.take 64 = buf := List.take_of_length_le hl
  rw [ht] at a1 a2
  have hu : (u8 buf.length).toNat = buf.length := by rw [u8_toNat]; omega
  have any_iff : (List.range 1000).any ev1 = true ↔ ∃ k, k < 1000 ∧ ev1 k = true := by
    rw [List.any_eq_true]
    constructor
    · rintro ⟨x, hx, hv⟩; exact ⟨x, List.mem_range.1 hx, hv⟩
    · rintro ⟨x, hx, hv⟩; exact ⟨x, List.mem_range.2 hx, hv⟩
  obtain ⟨r, k', e', hk', hh', hon, _⟩ := dolisten_spec hc _ hbt
  refine ⟨?_, res, ?_, ?_, ?_, ?_, ?_⟩
  · rw [e, e']
    dsimp only
    by_cases hp : power ≥ 4 ∧ ((∃ k, k < 1000 ∧ ev1 k = true) ∨ ev2 1001 = true ∨ ev2 1000 = true)
    · refine ⟨[(buf, R'), (buf, R)], a1 hp, ?_, ?_⟩
      · rw [if_pos (by rw [any_iff]; exact hp)]; rfl
      · intro f hf
        simp only [List.mem_cons, List.not_mem_nil, or_false] at hf
        rcases hf with rfl | rfl
        · exact ⟨rfl, p3, fun h => by dsimp only; rw [p4 h]; exact hu⟩
        · exact ⟨rfl, p1, fun h => by dsimp only; rw [p2 h]; exact hu⟩
    · refine ⟨[(buf, R)], a2 hp, ?_, ?_⟩
      · rw [if_neg (by rw [any_iff]; exact hp)]; rfl
      · intro f hf
        simp only [List.mem_cons, List.not_mem_nil, or_false] at hf
        subst hf
        exact ⟨rfl, p1, fun h => by dsimp only; rw [p2 h]; exact hu⟩
  · rw [e, e']
  · intro ch' hl' ha
    rw [e, e']
    obtain ⟨q1, q2, _⟩ := hon ch' hl' ha
    exact ⟨by rw [← q1]; exact hh', q2⟩
  · rw [e, e']
  · rw [e, e']
  · rw [e, e']

/-- A frame for a channel that does not exist is not refused but sent on the current channel, and the call returns true; so
is a frame that does not fit the FIFO, cut to 64 bytes. -/
theorem C135_refuted_channel_and_length :
    let s := Rfm.after cfg2 (rfmFresh chip0 2 fun _ => 0) [.begin]
    let r := s.sendRaw cfg2 [1, 2, 3] 7 0 (fun _ => true) (fun _ => true)
    let r' := s.sendRaw cfg2 (List.replicate 70 9) 0 0 (fun _ => true) (fun _ => true)
    (r.2 = true ∧ r.1.chip.air.map (fun p => (p.1, p.2 0x30)) = [([1, 2, 3], 0x88)]) ∧
    (r'.2 = true ∧ r'.1.chip.air.map (fun p => (p.1, p.2 0x3e)) = [(List.replicate 64 9, 70)]) := by
  decide +kernel

example : -- the highest power sends twice
    let s := Rfm.after cfg2 (rfmFresh chip0 2 fun _ => 0) [.listen true 0, .begin]
    let r := s.sendRaw cfg2 [1, 2, 3] 1 4 (fun n => n == 990) (fun n => n == 995)
    (r.2 = true ∧ r.1.chip.air.map (fun p => (p.1, p.2 0x30)) = [([1, 2, 3], 0), ([1, 2, 3], 0)] ∧ r.1.chip.reg 0x30 = 0x88 ∧ r.1.chip.reg 7 = 5) := by
  decide +kernel

end OTR.Props
