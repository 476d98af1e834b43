import Verif.Model.RFM23
import Verif.Proof.RXQueue
/-! # Lemmas about the RFM23B link -/

namespace OTR

/-- Registers the driver itself drives, whatever the configuration tables say: interrupt enables, operating mode, packet
length, RX FIFO threshold; and the received packet length, which the chip sets. -/
def rfmOwned (x : Nat) : Prop := x = 5 ∨ x = 6 ∨ x = 7 ∨ x = 8 ∨ x = 0x3e ∨ x = 0x7e ∨ x = 0x4b

/-- The value a configuration table gives to a register: the last entry for it. -/
def tableVal (l : List (Nat × Byte)) (x : Nat) : Option Byte := (l.reverse.find? fun p => p.1 == x).map (·.2)

/-- The registers are as the table says, except those the driver drives. -/
def Holds (l : List (Nat × Byte)) (r : Nat → Byte) : Prop := ∀ x v, ¬ rfmOwned x → tableVal l x = some v → r x = v

/-- A table that starts neither transmission nor reception and does not touch the FIFO-clear bits. -/
def SaneTable (l : List (Nat × Byte)) : Prop :=
  ∀ p ∈ l, (p.1 = 7 → p.2 &&& 0x0c = 0) ∧ (p.1 = 8 → p.2 = 0)

theorem b31 : (3 : Byte) &&& 1 = 1 := by decide
theorem b32 : (3 : Byte) &&& 2 = 2 := by decide
theorem b58 : (5 : Byte) &&& 8 = 0 := by decide
theorem b98 : (9 : Byte) &&& 8 = 8 := by decide

theorem withSPI_spi (f : Chip → Chip) (hf : ∀ c, (f c).spi = c.spi) (c : Chip) : (c.withSPI f).spi = c.spi := by
  unfold Chip.withSPI
  by_cases h : c.spi = true
  · rw [if_pos h, hf]
  · rw [if_neg h]; simpa using h

/-- What `standbyClear` leaves. -/
theorem standbyClear_eq (c : Chip) : c.standbyClear =
    { c with reg := fun x => if x = 6 then 0 else if x = 5 then 0 else if x = 8 then 0 else if x = 7 then 0 else c.reg x,
             st1 := 0, st2 := 0, tx := [], rx := [] } := by
  have e : ∀ x, (if x = 6 then (0 : Byte) else if x = 5 then 0 else if x = 8 then 0 else if x = 8 then 3 else if x = 7 then 0 else c.reg x) =
      (if x = 6 then 0 else if x = 5 then 0 else if x = 8 then 0 else if x = 7 then 0 else c.reg x) := by
    intro x; (repeat' split) <;> rfl
  unfold Chip.standbyClear Chip.withSPI
  by_cases h : c.spi = true
  · rw [if_pos h]
    simp [Chip.wr, Chip.clrInt, Chip.acc, h, e, b31, b32]
  · rw [if_neg h]
    have h' : c.spi = false := by simpa using h
    simp [Chip.wr, Chip.clrInt, Chip.acc, h', e, b31, b32]

/-- Writing a sane table one register at a time. -/
theorem fold_table (l : List (Nat × Byte)) (hs : SaneTable l) (c : Chip) (h8 : c.reg 8 = 0) (h7 : c.reg 7 &&& 0x0c = 0)
    (hspi : c.spi = true) :
    let d := l.foldl (fun c p => c.wr p.1 p.2) c
    d = { c with reg := d.reg } ∧ d.reg 8 = 0 ∧ d.reg 7 &&& 0x0c = 0 ∧
      ∀ x, d.reg x = (tableVal l x).getD (c.reg x) := by
  induction l generalizing c with
  | nil => refine ⟨rfl, h8, h7, fun x => rfl⟩
  | cons p l ih =>
    have hp := hs p (by simp)
    have hw : c.wr p.1 p.2 = { c with reg := fun x => if x = p.1 then p.2 else c.reg x } := by
      have a1 : ¬ (p.1 = 7 ∧ p.2 &&& 8 ≠ 0 ∧ c.reg 7 &&& 8 = 0) := by
        rintro ⟨e, n, _⟩
        have := hp.1 e
        apply n
        have e2 : p.2 &&& 8 = (p.2 &&& 0x0c) &&& 8 := by
          generalize p.2 = b; revert b; apply forall_byte; decide +kernel
        rw [e2, this]; decide
      have e1 : c.reg 8 &&& 1 = 0 := by rw [h8]; decide
      have e2 : c.reg 8 &&& 2 = 0 := by rw [h8]; decide
      simp [Chip.wr, Chip.acc, hspi, h8, a1]
    have := ih (fun q hq => hs q (by simp [hq])) (c.wr p.1 p.2)
      (by rw [hw]; dsimp only; by_cases e : 8 = p.1
          · rw [if_pos e]; exact hp.2 e.symm
          · rw [if_neg e]; exact h8)
      (by rw [hw]; dsimp only; by_cases e : 7 = p.1
          · rw [if_pos e]; exact hp.1 e.symm
          · rw [if_neg e]; exact h7)
      (by rw [hw]; exact hspi)
    dsimp only at this ⊢
    rw [List.foldl_cons]
    generalize hd : List.foldl (fun c p => Chip.wr c p.1 p.2) (c.wr p.1 p.2) l = d at *
    obtain ⟨t1, t2, t3, t5⟩ := this
    refine ⟨?_, t2, t3, ?_⟩
    · rw [t1, hw]
    · intro x
      rw [t5, hw]
      dsimp only
      unfold tableVal
      rw [List.reverse_cons, List.find?_append]
      cases hf : List.find? (fun p => p.1 == x) l.reverse with
      | some q => simp
      | none =>
        by_cases e : x = p.1
        · subst e; simp
        · have e' : ¬ (p.1 = x) := fun h => e h.symm
          simp [e, e']

/-- What writing a sane table does. -/
theorem regBlock_eq (l : List (Nat × Byte)) (hs : SaneTable l) (c : Chip) (h8 : c.reg 8 = 0) (h7 : c.reg 7 &&& 0x0c = 0) :
    ∃ r, c.regBlock l = { c with reg := r } ∧ r 8 = 0 ∧ r 7 &&& 0x0c = 0 ∧
      ∀ x, r x = (tableVal l x).getD (c.reg x) := by
  by_cases h : c.spi = true
  · obtain ⟨t1, t2, t3, t5⟩ := fold_table l hs c h8 h7 h
    refine ⟨_, ?_, t2, t3, t5⟩
    unfold Chip.regBlock Chip.withSPI
    rw [if_pos h]; exact t1
  · obtain ⟨t1, t2, t3, t5⟩ := fold_table l hs { c with spi := true } h8 h7 rfl
    refine ⟨_, ?_, t2, t3, t5⟩
    have h' : c.spi = false := by simpa using h
    have e := congrArg (fun d : Chip => { d with spi := false }) t1
    unfold Chip.regBlock Chip.withSPI
    rw [if_neg h]
    refine e.trans ?_
    simp [h']

theorem holds_of_val {l : List (Nat × Byte)} {r r0 : Nat → Byte} (h : ∀ x, r x = (tableVal l x).getD (r0 x)) : Holds l r := by
  intro x v _ hv; rw [h, hv]; rfl

theorem wr_plain (c : Chip) (a : Nat) (v : Byte) (hs : c.spi = true) (h7 : a ≠ 7) (h8 : a ≠ 8) :
    c.wr a v = { c with reg := fun x => if x = a then v else c.reg x } := by
  simp [Chip.wr, Chip.acc, hs, h7, h8]

theorem wr_clear (c : Chip) (hs : c.spi = true) : (c.wr 8 3).wr 8 0 =
    { c with reg := fun x => if x = 8 then 0 else c.reg x, tx := [], rx := [] } := by
  have e : ∀ x, (if x = 8 then (0 : Byte) else if x = 8 then 3 else c.reg x) = if x = 8 then 0 else c.reg x := by
    intro x; (repeat' split) <;> rfl
  simp [Chip.wr, Chip.acc, hs, b31, b32, e]

/-- What `_enableIRQLine` leaves. -/
theorem enableIRQ_eq (m : Byte) (c : Chip) (hs : c.spi = true) :
    ∃ r, c.enableIRQ m = { c with reg := r } ∧ r 6 = 0 ∧
      r 5 = (if c.reg 0x30 &&& 0x80 ≠ 0 then 2 else 0x10) ∧
      (c.reg 0x30 &&& 0x80 ≠ 0 → c.reg 0x33 &&& 8 = 8 → r 0x3e = m) ∧
      ∀ x, x ≠ 5 → x ≠ 6 → x ≠ 0x3e → r x = c.reg x := by
  unfold Chip.enableIRQ
  by_cases h1 : c.reg 0x30 &&& 0x80 ≠ 0
  · rw [if_pos h1]
    by_cases h2 : c.reg 0x33 &&& 8 = 8
    · refine ⟨fun x => if x = 0x3e then m else if x = 6 then 0 else if x = 5 then 2 else c.reg x, ?_, rfl, ?_, ?_, ?_⟩
      · simp [Chip.wr, Chip.acc, hs, h2]
      · rw [if_pos h1]; rfl
      · intro _ _; rfl
      · intro x a b d; simp [a, b, d]
    · refine ⟨fun x => if x = 6 then 0 else if x = 5 then 2 else c.reg x, ?_, rfl, ?_, ?_, ?_⟩
      · simp [Chip.wr, Chip.acc, hs, h2]
      · rw [if_pos h1]; rfl
      · intro _ h; exact absurd h h2
      · intro x a b d; simp [a, b]
  · rw [if_neg h1]
    refine ⟨fun x => if x = 6 then 0 else if x = 5 then 0x10 else c.reg x, ?_, rfl, ?_, ?_, ?_⟩
    · simp [Chip.wr, Chip.acc, hs]
    · rw [if_neg h1]; rfl
    · intro h; exact absurd h h1
    · intro x a b d; simp [a, b]

/-- What `startRX` leaves. -/
theorem startRX_eq (m : Byte) (c : Chip) :
    ∃ r, c.startRX m = { c with reg := r, st1 := 0, st2 := 0, tx := [], rx := [] } ∧ r 7 = 5 ∧ r 8 = 0 ∧ r 6 = 0 ∧ r 0x7e = m ∧
      r 5 = (if c.reg 0x30 &&& 0x80 ≠ 0 then 2 else 0x10) ∧
      (c.reg 0x30 &&& 0x80 ≠ 0 → c.reg 0x33 &&& 8 = 8 → r 0x3e = m) ∧ ∀ x, ¬ rfmOwned x → r x = c.reg x := by
  have key : ∀ c : Chip, c.spi = true →
      ∃ r, ((((c.wr 8 3).wr 8 0).wr 0x7e m).enableIRQ m).clrInt.wr 7 5 =
        { c with reg := r, st1 := 0, st2 := 0, tx := [], rx := [] } ∧ r 7 = 5 ∧ r 8 = 0 ∧ r 6 = 0 ∧ r 0x7e = m ∧
      r 5 = (if c.reg 0x30 &&& 0x80 ≠ 0 then 2 else 0x10) ∧
      (c.reg 0x30 &&& 0x80 ≠ 0 → c.reg 0x33 &&& 8 = 8 → r 0x3e = m) ∧ ∀ x, ¬ rfmOwned x → r x = c.reg x := by
    intro c h
    rw [wr_clear c h, wr_plain { c with reg := fun x => if x = 8 then 0 else c.reg x, tx := [], rx := [] } 0x7e m h (by decide) (by decide)]
    obtain ⟨r, e, r6, r5, r3, rx⟩ := enableIRQ_eq m { c with
      reg := fun x => if x = 0x7e then m else (if x = 8 then 0 else c.reg x), tx := [], rx := [] } h
    refine ⟨fun x => if x = 7 then 5 else r x, ?_, rfl, ?_, ?_, ?_, ?_, ?_, ?_⟩
    · rw [e]; simp [Chip.wr, Chip.clrInt, Chip.acc, h, b58]
    · have := rx 8 (by decide) (by decide) (by decide); simpa using this
    · simpa using r6
    · have := rx 0x7e (by decide) (by decide) (by decide); simpa using this
    · simpa using r5
    · intro a b; exact r3 a b
    · intro x hx
      simp only [rfmOwned, not_or] at hx
      obtain ⟨h5, h6, h7, h8, h3, h9, _⟩ := hx
      dsimp only
      rw [if_neg h7, rx x h5 h6 h3]
      simp [h8, h9]
  unfold Chip.startRX Chip.withSPI
  by_cases h : c.spi = true
  · rw [if_pos h]; exact key c h
  · have h' : c.spi = false := by simpa using h
    rw [if_neg h]
    obtain ⟨r, e, k⟩ := key { c with spi := true } rfl
    refine ⟨r, ?_, k⟩
    have e := congrArg (fun d : Chip => { d with spi := false }) e
    refine e.trans ?_
    simp [h']

/-- A configuration with at least one channel and sane tables. -/
structure CfgOk (cfg : RfmCfg) : Prop where
  ch : 1 ≤ cfg.nCh
  tables : ∀ ch, ch < cfg.nCh → SaneTable (cfg.regs ch)

/-- The chip receives, with the receive interrupt enabled, or holds a received packet with the interrupt line active. -/
def Receiving (c : Chip) : Prop :=
  c.reg 6 = 0 ∧ 1 ≤ (c.reg 0x7e).toNat ∧ (c.reg 0x7e).toNat ≤ 63 ∧
    (c.reg 0x30 &&& 0x80 ≠ 0 →
      c.reg 5 = 2 ∧ (c.reg 0x33 &&& 8 = 8 → 1 ≤ (c.reg 0x3e).toNat ∧ (c.reg 0x3e).toNat ≤ 63) ∧
        (c.reg 7 = 5 ∨ (c.reg 7 = 1 ∧ c.st1 &&& 2 ≠ 0))) ∧
    (c.reg 0x30 &&& 0x80 = 0 → c.reg 5 = 0x10 ∧ c.reg 7 = 5)

/-- The chip is in standby with no interrupt enabled or pending. -/
def Quiet (c : Chip) : Prop := c.reg 7 = 0 ∧ c.reg 5 = 0 ∧ c.reg 6 = 0 ∧ c.st1 = 0 ∧ c.st2 = 0

/-- What the driver keeps true of the fields that do not depend on listening. -/
structure RBase (cfg : RfmCfg) (s : Rfm) : Prop where
  cur : s.cur < cfg.nCh
  holds : Holds (cfg.regs s.cur) s.chip.reg
  mx : 1 ≤ s.maxF.toNat ∧ s.maxF.toNat ≤ 63
  lc : ∀ ch, s.lc = some ch → ch < cfg.nCh

/-- What is true after every call. -/
structure RInv (cfg : RfmCfg) (s : Rfm) : Prop extends RBase cfg s where
  spi : s.chip.spi = false
  fault : s.chip.fault = false
  on : ∀ ch, s.lc = some ch → cfg.allowRX = true → s.cur = ch ∧ Receiving s.chip
  off : s.lc = none ∨ cfg.allowRX = false → Quiet s.chip

theorem holds_congr {l : List (Nat × Byte)} {r r' : Nat → Byte} (h : Holds l r) (e : ∀ x, ¬ rfmOwned x → r' x = r x) : Holds l r' :=
  fun x v hx hv => by rw [e x hx]; exact h x v hx hv

theorem standby_owned (c : Chip) (x : Nat) (hx : ¬ rfmOwned x) : c.standbyClear.reg x = c.reg x := by
  rw [standbyClear_eq]
  simp only [rfmOwned, not_or] at hx
  simp [hx]

/-- `_setChannel` from standby. -/
theorem setChannel_spec {cfg : RfmCfg} (hc : CfgOk cfg) (s : Rfm) (ch : Nat) (h8 : s.chip.reg 8 = 0) (h7 : s.chip.reg 7 = 0)
    (hb : RBase cfg s) :
    ∃ r k, s.setChannel cfg ch = { s with chip := { s.chip with reg := r }, cur := k } ∧
      (ch < cfg.nCh → k = ch) ∧ (¬ ch < cfg.nCh → k = s.cur ∧ r = s.chip.reg) ∧ k < cfg.nCh ∧ Holds (cfg.regs k) r ∧ r 8 = 0 ∧
      r 7 &&& 0x0c = 0 := by
  unfold Rfm.setChannel
  by_cases e : s.cur = ch
  · rw [if_pos e]
    exact ⟨s.chip.reg, s.cur, rfl, fun _ => e, fun h => ⟨rfl, rfl⟩, hb.cur, hb.holds, h8, by rw [h7]; decide⟩
  · rw [if_neg e]
    by_cases e2 : ch ≥ cfg.nCh
    · rw [if_pos e2]
      exact ⟨s.chip.reg, s.cur, rfl, fun h => absurd h (by omega), fun _ => ⟨rfl, rfl⟩, hb.cur, hb.holds, h8, by rw [h7]; decide⟩
    · rw [if_neg e2]
      obtain ⟨r, e3, r8, r7, rv⟩ := regBlock_eq (cfg.regs ch) (hc.tables ch (by omega)) s.chip h8 (by rw [h7]; decide)
      refine ⟨r, ch, by rw [e3], fun _ => rfl, fun h => absurd (by omega) h, by omega, holds_of_val rv, r8, r7⟩

/-- `_dolisten`. -/
theorem dolisten_spec {cfg : RfmCfg} (hc : CfgOk cfg) (s : Rfm) (hb : RBase cfg s) :
    ∃ r k, s.dolisten cfg = { s with chip := { s.chip with reg := r, st1 := 0, st2 := 0, tx := [], rx := [] }, cur := k } ∧
      k < cfg.nCh ∧ Holds (cfg.regs k) r ∧
      (∀ ch, s.lc = some ch → cfg.allowRX = true → k = ch ∧ r 7 = 5 ∧
        Receiving { s.chip with reg := r, st1 := 0, st2 := 0, tx := [], rx := [] }) ∧
      (s.lc = none ∨ cfg.allowRX = false → Quiet { s.chip with reg := r, st1 := 0, st2 := 0, tx := [], rx := [] }) := by
  have hq : ∀ c : Chip, Quiet c.standbyClear := fun c => by rw [standbyClear_eq]; exact ⟨rfl, rfl, rfl, rfl, rfl⟩
  have hst : Holds (cfg.regs s.cur) s.chip.standbyClear.reg := holds_congr hb.holds (standby_owned s.chip)
  unfold Rfm.dolisten
  dsimp only
  by_cases ha : cfg.allowRX = false
  · rw [if_pos ha]
    refine ⟨s.chip.standbyClear.reg, s.cur, ?_, hb.cur, hst, fun _ _ h => by rw [ha] at h; exact absurd h (by decide), fun _ => ?_⟩
    · rw [standbyClear_eq]
    · have := hq s.chip; rw [standbyClear_eq] at this ⊢; exact this
  · rw [if_neg ha]
    cases hl : s.lc with
    | none =>
      refine ⟨s.chip.standbyClear.reg, s.cur, ?_, hb.cur, hst, (fun _ h => by cases h), fun _ => ?_⟩
      · simp only [standbyClear_eq, hl]
      · have := hq s.chip; rw [standbyClear_eq] at this ⊢; exact this
    | some ch =>
      have hch := hb.lc ch hl
      obtain ⟨r, k, e, hk, _, hk2, hh, h8, h7⟩ := setChannel_spec hc { s with chip := s.chip.standbyClear } ch
        (by rw [standbyClear_eq]; rfl) (by rw [standbyClear_eq]; rfl) ⟨hb.cur, hst, hb.mx, hb.lc⟩
      have e' := hk hch
      subst e'
      simp only [← hl]
      rw [e]
      obtain ⟨r', e2, r7, r8, r6, r7e, r5, r3, rx⟩ := startRX_eq s.maxF { s.chip.standbyClear with reg := r }
      have n30 := rx 0x30 (by simp [rfmOwned])
      have n33 := rx 0x33 (by simp [rfmOwned])
      dsimp only at n30 n33 r5 r3
      refine ⟨r', k, ?_, hk2, holds_congr hh rx, ?_, fun h => ?_⟩
      · dsimp only; rw [e2]; simp only [standbyClear_eq]
      · intro c h _
        rw [hl] at h
        refine ⟨by injection h, r7, r6, ?_, ?_, ?_, ?_⟩
        · dsimp only; rw [r7e]; exact hb.mx.1
        · dsimp only; rw [r7e]; exact hb.mx.2
        · dsimp only
          rw [n30, n33, r5]
          intro hp
          rw [if_pos hp]
          refine ⟨rfl, fun hf => ?_, Or.inl r7⟩
          rw [r3 hp hf]; exact hb.mx
        · dsimp only
          rw [n30, r5]
          intro hp
          rw [if_neg (by simp [hp])]; exact ⟨rfl, r7⟩
      · rw [hl] at h; rcases h with h | h
        · cases h
        · exact absurd h ha

theorem dolisten_inv {cfg : RfmCfg} (hc : CfgOk cfg) (s : Rfm) (hb : RBase cfg s) (h1 : s.chip.spi = false)
    (h2 : s.chip.fault = false) : RInv cfg (s.dolisten cfg) := by
  obtain ⟨r, k, e, hk, hh, hon, hoff⟩ := dolisten_spec hc s hb
  rw [e]
  exact ⟨⟨hk, hh, hb.mx, hb.lc⟩, h1, h2, fun ch h a => ⟨(hon ch h a).1, (hon ch h a).2.2⟩, hoff⟩

theorem queueFrame_eq (buf : Bytes) (c : Chip) (h8 : c.reg 8 = 0) : ∃ r st,
    c.queueFrame buf = { c with reg := r, tx := buf.take 64, st1 := st } ∧ ∀ x, r x = c.reg x := by
  have b11 : (1 : Byte) &&& 1 = 1 := by decide
  have b12 : (1 : Byte) &&& 2 = 0 := by decide
  have e : ∀ x, (if x = 8 then (0 : Byte) else if x = 8 then 1 else c.reg x) = c.reg x := by
    intro x
    by_cases h : x = 8
    · rw [if_pos h, h, h8]
    · rw [if_neg h, if_neg h]
  unfold Chip.queueFrame Chip.withSPI
  by_cases h : c.spi = true
  · rw [if_pos h]
    refine ⟨c.reg, if buf.length > 64 then c.st1 ||| 0x80 else c.st1, ?_, fun _ => rfl⟩
    simp [Chip.wr, Chip.acc, h, e, b11, b12, h8]
  · have h' : c.spi = false := by simpa using h
    rw [if_neg h]
    refine ⟨c.reg, if buf.length > 64 then c.st1 ||| 0x80 else c.st1, ?_, fun _ => rfl⟩
    simp [Chip.wr, Chip.acc, h', e, b11, b12, h8]

theorem txLoop_spec (ev : Nat → Bool) (n : Nat) (c : Chip) (hs : c.spi = true) (h1 : c.st1 = 0) (h7 : c.reg 7 &&& 8 ≠ 0) :
    ∃ r b, txLoop ev n c = ({ c with reg := r }, b) ∧ (∀ x, x ≠ 7 → r x = c.reg x) ∧ (b = true ↔ ∃ k, k < n ∧ ev k = true) ∧
      (b = true → r 7 &&& 8 = 0) ∧ (b = false → r = c.reg) := by
  induction n with
  | zero => exact ⟨c.reg, false, rfl, fun _ _ => rfl, by simp, by simp, fun _ => rfl⟩
  | succ n ih =>
    unfold txLoop
    by_cases he : ev n = true
    · simp only [he, if_true]
      have e1 : c.sent = { c with st1 := 4, reg := fun x => if x = 7 then c.reg 7 &&& 0xf7 else c.reg x } := by
        unfold Chip.sent
        rw [if_pos h7, h1]
        have : (0 : Byte) ||| 4 = 4 := by decide
        rw [this]
      rw [e1]
      dsimp only
      rw [if_pos (by decide)]
      refine ⟨fun x => if x = 7 then c.reg 7 &&& 0xf7 else c.reg x, true, ?_, fun x hx => by simp [hx], ?_, fun _ => ?_, by simp⟩
      · simp [Chip.acc, hs, h1]
      · exact ⟨fun _ => ⟨n, by omega, he⟩, fun _ => rfl⟩
      · dsimp only; rw [if_pos rfl]
        generalize c.reg 7 = b; revert b; apply forall_byte; decide +kernel
    · dsimp only
      rw [if_neg he]
      have e0 : ¬ (c.st1 &&& 4 ≠ 0) := by rw [h1]; decide
      have e1 : ({ c.acc with st1 := 0 } : Chip) = c := by
        cases c; simp only [Chip.acc] at *; simp [hs, h1]
      rw [if_neg e0, e1]
      obtain ⟨r, b, e, p1, p2, p3, p4⟩ := ih
      refine ⟨r, b, by simpa using e, p1, ?_, p3, p4⟩
      rw [p2]
      constructor
      · rintro ⟨k, hk, hv⟩; exact ⟨k, by omega, hv⟩
      · rintro ⟨k, hk, hv⟩
        refine ⟨k, ?_, hv⟩
        rcases Nat.lt_or_ge k n with h | h
        · exact h
        · have : k = n := by omega
          subst this; exact absurd hv he

/-- The registers while a frame is sent. -/
def txRegs (r : Nat → Byte) : Nat → Byte := fun x => if x = 6 then 0 else if x = 5 then 0 else r x

theorem txFifo_spec (ev : Nat → Bool) (c : Chip) (h7 : c.reg 7 &&& 8 = 0) :
    ∃ r b, c.txFifo ev = ({ c with reg := r, st1 := 0, st2 := 0, air := (c.tx, txRegs c.reg) :: c.air }, b) ∧
      (∀ x, x ≠ 5 → x ≠ 6 → x ≠ 7 → r x = c.reg x) ∧ (b = true ↔ ∃ k, k < 1000 ∧ ev k = true) ∧
      (b = true → r 7 &&& 8 = 0) ∧ (b = false → r 7 &&& 8 ≠ 0) := by
  have e0 : (if ev 1001 = true then c.sent else c) = c := by
    unfold Chip.sent; rw [if_neg (show ¬ (c.reg 7 &&& 8 ≠ 0) by simp [h7]), ite_self]
  have e1 : ((({ c with spi := true } : Chip).wr 5 0).wr 6 0).clrInt =
      { c with spi := true, st1 := 0, st2 := 0, reg := txRegs c.reg } := by
    simp [Chip.wr, Chip.clrInt, Chip.acc]
    rfl
  have h7' : (txRegs c.reg) 7 &&& 8 = 0 := h7
  have e2 : (if ev 1000 = true then Chip.sent { c with spi := true, st1 := 0, st2 := 0, reg := txRegs c.reg } else
      { c with spi := true, st1 := 0, st2 := 0, reg := txRegs c.reg }) = { c with spi := true, st1 := 0, st2 := 0, reg := txRegs c.reg } := by
    unfold Chip.sent; rw [if_neg (show ¬ (txRegs c.reg 7 &&& 8 ≠ 0) by simp [h7']), ite_self]
  have e3 : Chip.wr { c with spi := true, st1 := 0, st2 := 0, reg := txRegs c.reg } 7 9 =
      { c with spi := true, st1 := 0, st2 := 0, air := (c.tx, txRegs c.reg) :: c.air,
               reg := fun x => if x = 7 then 9 else txRegs c.reg x } := by
    simp [Chip.wr, Chip.acc, b98, h7']
  obtain ⟨r, b, e, p1, p2, p3, p4⟩ := txLoop_spec ev 1000
    { c with spi := true, st1 := 0, st2 := 0, air := (c.tx, txRegs c.reg) :: c.air, reg := fun x => if x = 7 then 9 else txRegs c.reg x } rfl rfl (by dsimp only; rw [if_pos rfl]; decide)
  refine ⟨r, b, ?_, ?_, p2, p3, fun h => by rw [p4 h]; dsimp only; rw [if_pos rfl]; decide⟩
  · unfold Chip.txFifo
    dsimp only
    rw [e0, e1, e2, e3, e]
  · intro x h5 h6 h7
    rw [p1 x h7]
    simp [txRegs, h5, h6, h7]

/-- The loop leaves all but register 7 and the status. -/
theorem txLoop_any (ev : Nat → Bool) (n : Nat) (c : Chip) (hs : c.spi = true) :
    ∃ r st b, txLoop ev n c = ({ c with reg := r, st1 := st }, b) ∧ (∀ x, x ≠ 7 → r x = c.reg x) := by
  induction n generalizing c with
  | zero => exact ⟨c.reg, c.st1, false, rfl, fun _ _ => rfl⟩
  | succ n ih =>
    unfold txLoop
    have e : ∃ r st, (if ev n = true then c.sent else c) = { c with reg := r, st1 := st } ∧ ∀ x, x ≠ 7 → r x = c.reg x := by
      unfold Chip.sent
      by_cases h : ev n = true
      · rw [if_pos h]
        by_cases h2 : c.reg 7 &&& 8 ≠ 0
        · rw [if_pos h2]; exact ⟨_, _, rfl, fun x hx => by simp [hx]⟩
        · rw [if_neg h2]; exact ⟨c.reg, c.st1, rfl, fun _ _ => rfl⟩
      · rw [if_neg h]; exact ⟨c.reg, c.st1, rfl, fun _ _ => rfl⟩
    obtain ⟨r, st, e, hr⟩ := e
    rw [e]
    dsimp only
    have ea : (({ c with reg := r, st1 := st } : Chip).acc) = { c with reg := r, st1 := st } := by
      simp [Chip.acc, hs]
    rw [ea]
    by_cases h : st &&& 4 ≠ 0
    · rw [if_pos h]; exact ⟨r, 0, true, rfl, hr⟩
    · rw [if_neg h]
      obtain ⟨r2, st2, b, e2, h2⟩ := ih { c with reg := r, st1 := 0 } hs
      exact ⟨r2, st2, b, e2, fun x hx => by rw [h2 x hx]; exact hr x hx⟩

/-- A transmission while another may be going on: at most one more frame goes on the air, exactly if the other is over. -/
theorem txFifo_any (ev : Nat → Bool) (c : Chip) :
    ∃ r st b, c.txFifo ev = ({ c with reg := r, st1 := st, st2 := 0, air := (if c.reg 7 &&& 8 = 0 ∨ ev 1001 = true ∨ ev 1000 = true then (c.tx, txRegs fun x => if x = 7 then c.reg 7 &&& 0xf7 else c.reg x) :: c.air else c.air) }, b) ∧
      (∀ x, x ≠ 5 → x ≠ 6 → x ≠ 7 → r x = c.reg x) := by
  have bz : ∀ b : Byte, b &&& 8 = 0 → b &&& 0xf7 = b := by apply forall_byte; decide +kernel
  have bs : ∀ b : Byte, b &&& 0xf7 &&& 8 = 0 := by apply forall_byte; decide +kernel
  -- a chip no longer sending
  have done : ∀ d : Chip, d.reg 7 &&& 8 = 0 → d.sent = d := fun d h => by unfold Chip.sent; rw [if_neg (by simp [h])]
  have e1 : ∀ d : Chip, ((({ d with spi := true } : Chip).wr 5 0).wr 6 0).clrInt =
      { d with spi := true, st1 := 0, st2 := 0, reg := txRegs d.reg } := by
    intro d
    simp [Chip.wr, Chip.clrInt, Chip.acc]
    rfl
  have fin : ∀ (d : Chip), d.spi = true → (∀ x, x ≠ 5 → x ≠ 6 → x ≠ 7 → d.reg x = c.reg x) → ∀ A, (d.wr 7 9).air = A →
      d.tx = c.tx → d.rx = c.rx → d.st2 = 0 → d.fault = c.fault →
      ∃ r st b, (({ (txLoop ev 1000 (d.wr 7 9)).1 with spi := c.spi } : Chip), (txLoop ev 1000 (d.wr 7 9)).2) =
        ({ c with reg := r, st1 := st, st2 := 0, air := A }, b) ∧ (∀ x, x ≠ 5 → x ≠ 6 → x ≠ 7 → r x = c.reg x) := by
    intro d hs hr A ha ht hx h2 hf
    obtain ⟨r, st, b, e, hr2⟩ := txLoop_any ev 1000 (d.wr 7 9) hs
    refine ⟨r, st, b, ?_, ?_⟩
    · rw [e]
      simp only [ha]
      simp [Chip.wr, Chip.acc, hs, ht, hx, h2, hf]
    · intro x h5 h6 h7
      rw [hr2 x h7]
      show (if x = 7 then (9 : Byte) else d.reg x) = _
      rw [if_neg h7]; exact hr x h5 h6 h7
  by_cases h7 : c.reg 7 &&& 8 = 0
  · obtain ⟨r, b, e, h, -⟩ := txFifo_spec ev c h7
    refine ⟨r, 0, b, ?_, h⟩
    rw [e, if_pos (Or.inl h7), bz _ h7]
    have : (fun x => if x = 7 then c.reg 7 else c.reg x) = c.reg := by
      funext x; by_cases hx : x = 7
      · rw [if_pos hx, hx]
      · rw [if_neg hx]
    rw [this]
  · have se : c.sent = { c with st1 := c.st1 ||| 4, reg := fun x => if x = 7 then c.reg 7 &&& 0xf7 else c.reg x } := by
      unfold Chip.sent; rw [if_pos h7]
    unfold Chip.txFifo
    dsimp only
    by_cases v1 : ev 1001 = true
    · rw [if_pos v1, if_pos (Or.inr (Or.inl v1)), se, e1]
      dsimp only
      rw [show (if ev 1000 = true then Chip.sent _ else _) = _ from by
        rw [done ({ c with st1 := 0, st2 := 0, spi := true, reg := txRegs fun x => if x = 7 then c.reg 7 &&& 0xf7 else c.reg x } : Chip) (by exact bs _), ite_self]]
      refine fin _ rfl (fun x h5 h6 h7 => by simp [txRegs, h5, h6, h7]) _ ?_ rfl rfl rfl rfl
      have : (txRegs fun x => if x = 7 then c.reg 7 &&& 0xf7 else c.reg x) 7 &&& 8 = 0 := bs _
      simp only [Chip.wr]
      rw [if_pos ⟨trivial, by decide, this⟩]
    · rw [if_neg v1, e1]
      by_cases v0 : ev 1000 = true
      · rw [if_pos v0, if_pos (Or.inr (Or.inr v0))]
        have se2 : Chip.sent { c with spi := true, st1 := 0, st2 := 0, reg := txRegs c.reg } =
            { c with spi := true, st1 := 4, st2 := 0, reg := txRegs fun x => if x = 7 then c.reg 7 &&& 0xf7 else c.reg x } := by
          unfold Chip.sent
          rw [if_pos (show txRegs c.reg 7 &&& 8 ≠ 0 from h7)]
          have : (0 : Byte) ||| 4 = 4 := by decide
          dsimp only
          rw [this]
          congr 1
          funext x
          by_cases hx : x = 7
          · subst hx; rfl
          · unfold txRegs; simp only [if_neg hx]
        rw [se2]
        refine fin _ rfl (fun x h5 h6 h7 => by simp [txRegs, h5, h6, h7]) _ ?_ rfl rfl rfl rfl
        have : (txRegs fun x => if x = 7 then c.reg 7 &&& 0xf7 else c.reg x) 7 &&& 8 = 0 := bs _
        simp only [Chip.wr]
        rw [if_pos ⟨trivial, by decide, this⟩]
      · rw [if_neg v0, if_neg (by simp [h7, v1, v0])]
        refine fin _ rfl (fun x h5 h6 h7 => by simp [txRegs, h5, h6]) _ ?_ rfl rfl rfl rfl
        have : ¬ (txRegs c.reg 7 &&& 8 = 0) := h7
        simp only [Chip.wr]
        rw [if_neg (fun h => this h.2.2)]

/-- The state when the transmission starts. -/
theorem prepTX_spec {cfg : RfmCfg} (hc : CfgOk cfg) (s : Rfm) (hb : RBase cfg s) (buf : Bytes) (ch : Int) :
    ∃ r k st, s.prepTX cfg buf ch = { s with chip := { s.chip with reg := r, st1 := st, st2 := 0, tx := buf.take 64, rx := [] }, cur := k } ∧
      k < cfg.nCh ∧ ((ch % 256).toNat < cfg.nCh → k = (ch % 256).toNat) ∧ (¬ (ch % 256).toNat < cfg.nCh → k = s.cur) ∧
      Holds (cfg.regs k) r ∧
      (r 0x30 &&& 8 ≠ 0 → r 0x3e = u8 buf.length) ∧ r 7 &&& 8 = 0 := by
  have hst : Holds (cfg.regs s.cur) s.chip.standbyClear.reg := holds_congr hb.holds (standby_owned s.chip)
  obtain ⟨r, k, e, hk, hk', hk2, hh, h8, h7⟩ := setChannel_spec hc { s with chip := s.chip.standbyClear } (ch % 256).toNat
    (by rw [standbyClear_eq]; rfl) (by rw [standbyClear_eq]; rfl) ⟨hb.cur, hst, hb.mx, hb.lc⟩
  obtain ⟨r1, st, e1, hr1⟩ := queueFrame_eq buf { s.chip.standbyClear with reg := r } h8
  have hr : r1 = r := funext hr1
  subst hr
  have h7' : r1 7 &&& 8 = 0 := by
    have : r1 7 &&& 8 = (r1 7 &&& 0x0c) &&& 8 := by generalize r1 7 = b; revert b; apply forall_byte; decide +kernel
    rw [this, h7]; decide
  unfold Rfm.prepTX
  dsimp only
  rw [e]
  dsimp only
  rw [e1]
  have e2 : s.chip.standbyClear = { s.chip with reg := s.chip.standbyClear.reg, st1 := 0, st2 := 0, tx := [], rx := [] } := by
    rw [standbyClear_eq]
  have fin : ∀ c : Chip, c.reg = r1 → c.withSPI (fun c => if c.reg 0x30 &&& 8 ≠ 0 then c.acc.wr 0x3e (u8 buf.length) else c.acc) =
      { c with reg := if r1 0x30 &&& 8 ≠ 0 then fun x => if x = 0x3e then u8 buf.length else r1 x else r1 } := by
    rintro c rfl
    unfold Chip.withSPI
    by_cases hp : c.reg 0x30 &&& 8 ≠ 0
    · by_cases h : c.spi = true
      · rw [if_pos h, if_pos hp]; dsimp only; rw [if_pos hp]; simp [Chip.wr, Chip.acc, h]
      · have h' : c.spi = false := by simpa using h
        rw [if_neg h, if_pos hp]; dsimp only; rw [if_pos hp]; simp [Chip.wr, Chip.acc, h']
    · by_cases h : c.spi = true
      · rw [if_pos h, if_neg hp]; dsimp only; rw [if_neg hp]; simp [Chip.acc, h]
      · have h' : c.spi = false := by simpa using h
        rw [if_neg h, if_neg hp]; dsimp only; rw [if_neg hp]; simp [Chip.acc, h']
  rw [fin _ rfl]
  refine ⟨if r1 0x30 &&& 8 ≠ 0 then fun x => if x = 0x3e then u8 buf.length else r1 x else r1, k, st, ?_, hk2, hk,
    fun h => (hk' h).1, ?_, ?_, ?_⟩
  · rw [e2]
  · apply holds_congr hh
    intro x hx
    by_cases hp : r1 0x30 &&& 8 ≠ 0
    · rw [if_pos hp]; simp only [rfmOwned, not_or] at hx; simp [hx]
    · rw [if_neg hp]
  · by_cases hp : r1 0x30 &&& 8 ≠ 0
    · rw [if_pos hp]; intro _; rfl
    · rw [if_neg hp]; intro h; exact absurd h hp
  · by_cases hp : r1 0x30 &&& 8 ≠ 0
    · rw [if_pos hp]; exact h7'
    · rw [if_neg hp]; exact h7'

theorem sendRaw_spec {cfg : RfmCfg} (hc : CfgOk cfg) (s : Rfm) (hb : RBase cfg s) (h1 : s.chip.spi = false)
    (h2 : s.chip.fault = false) (buf : Bytes) (ch : Int) (power : Nat) (ev1 ev2 : Nat → Bool) :
    ∃ R k R' t, Holds (cfg.regs k) R ∧ (R 0x30 &&& 8 ≠ 0 → R 0x3e = u8 buf.length) ∧
      Holds (cfg.regs k) R' ∧ (R' 0x30 &&& 8 ≠ 0 → R' 0x3e = u8 buf.length) ∧
      k < cfg.nCh ∧ ((ch % 256).toNat < cfg.nCh → k = (ch % 256).toNat) ∧ (¬ (ch % 256).toNat < cfg.nCh → k = s.cur) ∧
      (s.sendRaw cfg buf ch power ev1 ev2).1 = ({ s with chip := t, cur := k } : Rfm).dolisten cfg ∧
      RBase cfg { s with chip := t, cur := k } ∧ t.spi = false ∧ t.fault = false ∧
      ((power ≥ 4 ∧ ((∃ k, k < 1000 ∧ ev1 k = true) ∨ ev2 1001 = true ∨ ev2 1000 = true)) → t.air = (buf.take 64, R') :: (buf.take 64, R) :: s.chip.air) ∧
      (¬ (power ≥ 4 ∧ ((∃ k, k < 1000 ∧ ev1 k = true) ∨ ev2 1001 = true ∨ ev2 1000 = true)) → t.air = (buf.take 64, R) :: s.chip.air) ∧
      ((s.sendRaw cfg buf ch power ev1 ev2).2 = true ↔
        (∃ k, k < 1000 ∧ ev1 k = true) ∧ (power ≥ 4 → ∃ k, k < 1000 ∧ ev2 k = true)) := by
  obtain ⟨r, k, st, e, hk, hk1, hk2, hh, h3e, h7⟩ := prepTX_spec hc s hb buf ch
  unfold Rfm.sendRaw
  dsimp only
  rw [e]
  dsimp only
  obtain ⟨r1, b1, e1, p1, p2, p3, p4⟩ := txFifo_spec ev1 { s.chip with reg := r, st1 := st, st2 := 0, tx := buf.take 64, rx := [] } h7
  dsimp only at e1 p1
  have own : ∀ x, ¬ rfmOwned x → r1 x = r x := by
    intro x hx; simp only [rfmOwned, not_or] at hx; exact p1 x hx.1 hx.2.1 hx.2.2.1
  have own' : ∀ (r : Nat → Byte) x, ¬ rfmOwned x → txRegs r x = r x := by
    intro r x hx; simp only [rfmOwned, not_or] at hx; simp [txRegs, hx]
  have t30 : ∀ r : Nat → Byte, txRegs r 0x30 = r 0x30 := fun r => rfl
  have t3e : ∀ r : Nat → Byte, txRegs r 0x3e = r 0x3e := fun r => rfl
  have q30 := p1 0x30 (by decide) (by decide) (by decide)
  have q3e := p1 0x3e (by decide) (by decide) (by decide)
  rw [e1]
  dsimp only
  let r1' : Nat → Byte := fun x => if x = 7 then r1 7 &&& 0xf7 else r1 x
  have own1 : ∀ x, ¬ rfmOwned x → r1' x = r x := by
    intro x hx
    have := hx
    simp only [rfmOwned, not_or] at this
    show (if x = 7 then r1 7 &&& 0xf7 else r1 x) = _
    rw [if_neg this.2.2.1]; exact own x hx
  refine ⟨txRegs r, k, txRegs r1', ?_⟩
  have base : Holds (cfg.regs k) (txRegs r) ∧ (txRegs r 0x30 &&& 8 ≠ 0 → txRegs r 0x3e = u8 buf.length) ∧
      Holds (cfg.regs k) (txRegs r1') ∧ (txRegs r1' 0x30 &&& 8 ≠ 0 → txRegs r1' 0x3e = u8 buf.length) := by
    refine ⟨holds_congr hh (own' r), by rw [t30, t3e]; exact h3e, holds_congr (holds_congr hh own1) (own' r1'), ?_⟩
    rw [t30, t3e, show r1' 0x30 = r 0x30 from q30, show r1' 0x3e = r 0x3e from q3e]; exact h3e
  by_cases hp : power ≥ 4
  · rw [if_pos hp]
    dsimp only
    obtain ⟨r2, st2, b2, e2, s1⟩ := txFifo_any ev2 { s.chip with reg := r1, st1 := 0, st2 := 0, tx := buf.take 64, rx := [], air := (buf.take 64, txRegs r) :: s.chip.air }
    dsimp only at e2 s1
    have hres : (b1 && b2) = true ↔ (∃ k, k < 1000 ∧ ev1 k = true) ∧ (power ≥ 4 → ∃ k, k < 1000 ∧ ev2 k = true) := by
      cases hb1 : b1 with
      | false =>
        rw [hb1] at p2
        exact ⟨fun h => (by cases h), fun h => absurd (p2.2 h.1) (by simp)⟩
      | true =>
        have z7 := p3 hb1
        obtain ⟨r3, b3, e3, _, s2, _⟩ := txFifo_spec ev2 { s.chip with reg := r1, st1 := 0, st2 := 0, tx := buf.take 64, rx := [], air := (buf.take 64, txRegs r) :: s.chip.air } z7
        have : b2 = b3 := by
          have := congrArg Prod.snd (e2.symm.trans e3); exact this
        rw [this, Bool.true_and, s2]
        exact ⟨fun h => ⟨p2.1 hb1, fun _ => h⟩, fun h => h.2 hp⟩
    have air7 : (r1 7 &&& 8 = 0 ∨ ev2 1001 = true ∨ ev2 1000 = true) ↔
        ((∃ k, k < 1000 ∧ ev1 k = true) ∨ ev2 1001 = true ∨ ev2 1000 = true) := by
      have : (r1 7 &&& 8 = 0) ↔ ∃ k, k < 1000 ∧ ev1 k = true := by
        rw [← p2]
        cases hb1 : b1 with
        | false => exact ⟨fun h => absurd h (p4 hb1), fun h => (by cases h)⟩
        | true => exact ⟨fun _ => rfl, fun _ => p3 hb1⟩
      rw [this]
    rw [e2]
    refine ⟨_, base.1, base.2.1, base.2.2.1, base.2.2.2, hk, hk1, hk2, rfl, ⟨hk, ?_, hb.mx, hb.lc⟩, h1, h2, ?_, ?_, hres⟩
    · refine holds_congr (holds_congr hh own) ?_
      intro x hx; simp only [rfmOwned, not_or] at hx; exact s1 x hx.1 hx.2.1 hx.2.2.1
    · rintro ⟨_, hv⟩
      dsimp only
      rw [if_pos (air7.2 hv)]
    · intro hv
      dsimp only
      rw [if_neg (fun h => hv ⟨hp, air7.1 h⟩)]
  · rw [if_neg hp]
    refine ⟨_, base.1, base.2.1, base.2.2.1, base.2.2.2, hk, hk1, hk2, rfl, ⟨hk, holds_congr hh own, hb.mx, hb.lc⟩, h1, h2, ?_, ?_, ?_⟩
    · rintro ⟨h, _⟩; exact absurd h hp
    · intro _; rfl
    · exact ⟨fun h => ⟨p2.1 h, fun h => absurd h hp⟩, fun h => p2.2 h.1⟩

theorem rxFifo_chip (n : Nat) (junk : Nat → Byte) (c : Chip) : (c.rxFifo n junk).2 = c.standbyClear := by
  have e : ∀ x, (if x = 6 then (0 : Byte) else if x = 5 then 0 else if x = 8 then 0 else if x = 8 then 3 else if x = 7 then 0 else c.reg x) =
      (if x = 6 then 0 else if x = 5 then 0 else if x = 8 then 0 else if x = 7 then 0 else c.reg x) := by
    intro x; (repeat' split) <;> rfl
  rw [standbyClear_eq]
  unfold Chip.rxFifo Chip.withSPI
  dsimp only
  by_cases h : c.spi = true
  · rw [if_pos h]
    simp [Chip.wr, Chip.clrInt, Chip.acc, h, e, b31, b32]
  · rw [if_neg h]
    have h' : c.spi = false := by simpa using h
    simp [Chip.wr, Chip.clrInt, Chip.acc, h', e, b31, b32]

theorem take_fields (cfg : RfmCfg) (s : Rfm) (len : Nat) (junk : Nat → Byte) :
    (s.take cfg len junk).chip = s.chip.standbyClear ∧ (s.take cfg len junk).lc = s.lc ∧ (s.take cfg len junk).cur = s.cur ∧
      (s.take cfg len junk).maxF = s.maxF := by
  unfold Rfm.take
  dsimp only
  rw [rxFifo_chip, rxFifo_chip]
  (repeat' split) <;> exact ⟨rfl, rfl, rfl, rfl⟩

theorem take_base {cfg : RfmCfg} {s : Rfm} (hb : RBase cfg s) (len : Nat) (junk : Nat → Byte) : RBase cfg (s.take cfg len junk) := by
  obtain ⟨e1, e2, e3, e4⟩ := take_fields cfg s len junk
  exact ⟨by rw [e3]; exact hb.cur, by rw [e1, e3]; exact holds_congr hb.holds (standby_owned _), by rw [e4]; exact hb.mx,
    fun ch h => hb.lc ch (by rw [← e2]; exact h)⟩

theorem readStatus_eq (c : Chip) : (c.withSPI fun c => c.clrInt.acc) = { c with st1 := 0, st2 := 0 } := by
  unfold Chip.withSPI
  by_cases h : c.spi = true
  · rw [if_pos h]; simp [Chip.clrInt, Chip.acc, h]
  · have h' : c.spi = false := by simpa using h
    rw [if_neg h]; simp [Chip.clrInt, Chip.acc, h']

/-- Result of `_poll` when listening: nothing waiting (status cleared); overrun; or a frame taken. In the last two the link
then listens afresh. -/
theorem pollBody_cases {cfg : RfmCfg} {s : Rfm} {ch : Nat} (ha : cfg.allowRX = true) (hl : s.lc = some ch) (hs : s.chip.spi = false)
    (junk : Nat → Byte) :
    let s1 : Rfm := { s with chip := { s.chip with st1 := 0, st2 := 0 } }
    let len := (if s.chip.reg 0x33 &&& 8 = 8 then s.chip.reg 0x3e else s.chip.reg 0x4b).toNat
    let t := ({ s1 with chip := { s1.chip with spi := true } } : Rfm).take cfg len junk
    s.pollBody cfg junk =
      if s.chip.reg 0x30 &&& 0x80 ≠ 0 then
        if s.chip.st1 &&& 2 ≠ 0 then
          { t.dolisten cfg with chip := { (t.dolisten cfg).chip with spi := false } }
        else s1
      else if s.chip.st1 &&& 0x80 ≠ 0 then ({ s1 with err := 2 } : Rfm).dolisten cfg
      else if s.chip.st1 &&& 0x10 ≠ 0 then (s1.take cfg 64 junk).dolisten cfg
      else s1 := by
  dsimp only
  unfold Rfm.pollBody
  rw [if_neg (by rw [ha]; decide)]
  simp only [hl]
  rw [readStatus_eq]
  by_cases h1 : s.chip.reg 0x30 &&& 0x80 ≠ 0
  · rw [if_pos h1]
    dsimp only
    rw [if_pos h1]
    by_cases h2 : s.chip.st1 &&& 2 ≠ 0
    · rw [if_pos h2, if_pos h2]
      simp only [Chip.acc, hs, hl, Bool.not_true, Bool.or_false]
    · rw [if_neg h2, if_neg h2]
  · rw [if_neg h1, if_neg h1]

theorem poll_inv {cfg : RfmCfg} (hc : CfgOk cfg) {s : Rfm} (h : RInv cfg s) (junk : Nat → Byte) : RInv cfg (s.poll cfg junk) := by
  unfold Rfm.poll
  by_cases h0 : cfg.irqPin = true ∧ s.chip.irq = false
  · rw [if_pos h0]; exact h
  rw [if_neg h0]
  by_cases ha : cfg.allowRX = true
  · cases hl : s.lc with
    | none =>
      have : s.pollBody cfg junk = s := by unfold Rfm.pollBody; rw [if_neg (by rw [ha]; decide)]; simp only [hl]
      rw [this]; exact h
    | some ch =>
      rw [pollBody_cases ha hl h.spi junk]
      obtain ⟨hcur, hr⟩ := h.on ch hl ha
      have hb1 : RBase cfg { s with chip := { s.chip with st1 := 0, st2 := 0 } } := ⟨h.cur, h.holds, h.mx, h.lc⟩
      have hb2 : RBase cfg { s with chip := { s.chip with st1 := 0, st2 := 0, spi := true } } := ⟨h.cur, h.holds, h.mx, h.lc⟩
      have hb3 : RBase cfg { s with chip := { s.chip with st1 := 0, st2 := 0 }, err := 2 } := ⟨h.cur, h.holds, h.mx, h.lc⟩
      have idle : (s.chip.reg 0x30 &&& 0x80 ≠ 0 → s.chip.st1 &&& 2 = 0) → RInv cfg { s with chip := { s.chip with st1 := 0, st2 := 0 } } := by
        intro h2
        refine ⟨hb1, h.spi, h.fault, fun c hc a => ⟨(h.on c hc a).1, ?_⟩, fun hh => ?_⟩
        · obtain ⟨r6, r1, r2, rp, rf⟩ := hr
          refine ⟨r6, r1, r2, fun p => ?_, rf⟩
          obtain ⟨a1, a2, a3⟩ := rp p
          refine ⟨a1, a2, Or.inl ?_⟩
          rcases a3 with a3 | a3
          · exact a3
          · exact absurd (h2 p) a3.2
        · rcases hh with hh | hh
          · exact absurd (hl.symm.trans hh) (by simp)
          · rw [ha] at hh; cases hh
      by_cases h1 : s.chip.reg 0x30 &&& 0x80 ≠ 0
      · rw [if_pos h1]
        by_cases h2 : s.chip.st1 &&& 2 ≠ 0
        · rw [if_pos h2]
          have hf := take_fields cfg { s with chip := { s.chip with st1 := 0, st2 := 0, spi := true } } 
            (if s.chip.reg 0x33 &&& 8 = 8 then s.chip.reg 0x3e else s.chip.reg 0x4b).toNat junk
          have hb4 := take_base hb2 (if s.chip.reg 0x33 &&& 8 = 8 then s.chip.reg 0x3e else s.chip.reg 0x4b).toNat junk
          dsimp only
          generalize Rfm.take cfg _ _ junk = t at hf hb4 ⊢
          obtain ⟨r, k, e, hk, hh, hon, hoff⟩ := dolisten_spec hc t hb4
          rw [e]
          refine ⟨⟨hk, hh, hb4.mx, hb4.lc⟩, rfl, ?_, fun c hc a => ⟨(hon c hc a).1, (hon c hc a).2.2⟩, hoff⟩
          dsimp only; rw [hf.1, standbyClear_eq]; exact h.fault
        · rw [if_neg h2]; exact idle (fun _ => by simpa using h2)
      · rw [if_neg h1]
        by_cases h2 : s.chip.st1 &&& 0x80 ≠ 0
        · rw [if_pos h2]
          exact dolisten_inv hc _ hb3 h.spi h.fault
        · rw [if_neg h2]
          by_cases h3 : s.chip.st1 &&& 0x10 ≠ 0
          · rw [if_pos h3]
            have hf := take_fields cfg { s with chip := { s.chip with st1 := 0, st2 := 0 } } 64 junk
            refine dolisten_inv hc _ (take_base hb1 64 junk) ?_ ?_
            · rw [hf.1, standbyClear_eq]; exact h.spi
            · rw [hf.1, standbyClear_eq]; exact h.fault
          · rw [if_neg h3]; exact idle (fun p => absurd p h1)
  · have ha' : cfg.allowRX = false := by simpa using ha
    have : s.pollBody cfg junk = s := by unfold Rfm.pollBody; rw [if_pos ha']
    rw [this]; exact h

theorem listen_inv {cfg : RfmCfg} (hc : CfgOk cfg) {s : Rfm} (h : RInv cfg s) (a : Bool) (ch : Int) : RInv cfg (s.listen cfg a ch) := by
  unfold Rfm.listen
  dsimp only
  generalize hn : (if a = false ∨ ch < 0 then none else some (if ch ≥ (cfg.nCh : Int) then cfg.nCh - 1 else ch.toNat) : Option Nat) = new
  have hnew : ∀ c, new = some c → c < cfg.nCh := by
    intro c e
    have := hc.ch
    subst hn
    by_cases h1 : a = false ∨ ch < 0
    · rw [if_pos h1] at e; cases e
    · rw [if_neg h1] at e
      injection e with e
      by_cases h2 : ch ≥ (cfg.nCh : Int)
      · rw [if_pos h2] at e; omega
      · rw [if_neg h2] at e; omega
  by_cases h2 : new = none ∨ s.lc ≠ new
  · rw [if_pos h2]
    exact dolisten_inv hc _ ⟨h.cur, h.holds, h.mx, hnew⟩ h.spi h.fault
  · rw [if_neg h2]
    have e : s.lc = new := Decidable.byContradiction fun e => h2 (Or.inr e)
    rw [← e]; exact h

theorem air_inv {cfg : RfmCfg} {s : Rfm} (h : RInv cfg s) (e : Air) : RInv cfg { s with chip := s.chip.air1 e } := by
  have b54 : (5 : Byte) &&& 0xfb = 1 := by decide
  have hoff : (s.lc = none ∨ cfg.allowRX = false) → s.chip.air1 e = s.chip := by
    intro hh
    have h7 := (h.off hh).1
    have : ¬ (s.chip.reg 7 &&& 4 ≠ 0) := by rw [h7]; decide
    cases e <;> simp only [Chip.air1]
    · rw [if_neg (fun x => this x.1)]
    · rw [if_neg (fun x => this x.1)]
    · rw [if_neg this]
  cases e with
  | packet d =>
    by_cases hx : s.chip.reg 7 &&& 4 ≠ 0 ∧ s.chip.reg 0x30 &&& 0x80 ≠ 0 ∧ d.length ≤ 255 ∧
        (s.chip.reg 0x33 &&& 8 = 8 → d.length = (s.chip.reg 0x3e).toNat)
    · have e : s.chip.air1 (.packet d) = { s.chip with rx := d.take 64, st1 := s.chip.st1 ||| 2, reg := fun x => if x = 7 then s.chip.reg 7 &&& 0xfb else if x = 0x4b then u8 d.length else s.chip.reg x } := by
        simp only [Chip.air1]; rw [if_pos hx]
      refine ⟨⟨h.cur, ?_, h.mx, h.lc⟩, ?_, ?_, fun c hc a => ⟨(h.on c hc a).1, ?_⟩, fun hh => by rw [hoff hh]; exact h.off hh⟩
      · rw [e]; dsimp only
        apply holds_congr h.holds
        intro x hx; simp only [rfmOwned, not_or] at hx; simp [hx]
      · rw [e]; exact h.spi
      · rw [e]; exact h.fault
      · rw [e]
        obtain ⟨r6, r1, r2, rp, rf⟩ := (h.on c hc a).2
        refine ⟨r6, r1, r2, fun p => ?_, fun p => absurd p hx.2.1⟩
        obtain ⟨a1, a2, a3⟩ := rp p
        refine ⟨a1, a2, Or.inr ⟨?_, ?_⟩⟩
        · dsimp only
          rw [if_pos rfl]
          rcases a3 with a3 | a3
          · rw [a3, b54]
          · exact absurd hx.1 (by rw [a3.1]; decide)
        · dsimp only
          generalize s.chip.st1 = b; revert b; apply forall_byte; decide +kernel
    · have e : s.chip.air1 (.packet d) = s.chip := by simp only [Chip.air1]; rw [if_neg hx]
      rw [e]; exact h
  | bytes d =>
    by_cases hx : s.chip.reg 7 &&& 4 ≠ 0 ∧ s.chip.reg 0x30 &&& 0x80 = 0
    · refine ⟨⟨h.cur, ?_, h.mx, h.lc⟩, ?_, ?_, fun c hc a => ⟨(h.on c hc a).1, ?_⟩, fun hh => by rw [hoff hh]; exact h.off hh⟩
      · simp only [Chip.air1]; rw [if_pos hx]; exact h.holds
      · simp only [Chip.air1]; rw [if_pos hx]; exact h.spi
      · simp only [Chip.air1]; rw [if_pos hx]; exact h.fault
      · obtain ⟨r6, r1, r2, rp, rf⟩ := (h.on c hc a).2
        simp only [Chip.air1]; rw [if_pos hx]
        exact ⟨r6, r1, r2, fun p => absurd hx.2 p, rf⟩
    · have e : s.chip.air1 (.bytes d) = s.chip := by simp only [Chip.air1]; rw [if_neg hx]
      rw [e]; exact h
  | noise n1 n2 =>
    by_cases hx : s.chip.reg 7 &&& 4 ≠ 0
    · refine ⟨⟨h.cur, ?_, h.mx, h.lc⟩, ?_, ?_, fun c hc a => ⟨(h.on c hc a).1, ?_⟩, fun hh => by rw [hoff hh]; exact h.off hh⟩
      · simp only [Chip.air1]; rw [if_pos hx]; exact h.holds
      · simp only [Chip.air1]; rw [if_pos hx]; exact h.spi
      · simp only [Chip.air1]; rw [if_pos hx]; exact h.fault
      · obtain ⟨r6, r1, r2, rp, rf⟩ := (h.on c hc a).2
        simp only [Chip.air1]; rw [if_pos hx]
        refine ⟨r6, r1, r2, fun p => ?_, rf⟩
        obtain ⟨a1, a2, a3⟩ := rp p
        refine ⟨a1, a2, Or.inl ?_⟩
        rcases a3 with a3 | a3
        · exact a3
        · exact absurd hx (by rw [a3.1]; decide)
    · have e : s.chip.air1 (.noise n1 n2) = s.chip := by simp only [Chip.air1]; rw [if_neg hx]
      rw [e]; exact h

/-- Nothing but `begin()` and `end()` breaks the invariant. -/
theorem op_inv {cfg : RfmCfg} (hc : CfgOk cfg) {s : Rfm} (h : RInv cfg s) (o : RfmOp) (h1 : o ≠ .begin) (h2 : o ≠ .fin) :
    RInv cfg (s.op cfg o) := by
  cases o with
  | begin => exact absurd rfl h1
  | fin => exact absurd rfl h2
  | listen a ch => exact listen_inv hc h a ch
  | setMax n =>
    refine ⟨⟨h.cur, h.holds, ?_, h.lc⟩, h.spi, h.fault, h.on, h.off⟩
    simp only [Rfm.op, Rfm.setMax]
    rw [u8_toNat]; omega
  | send buf ch p e1 e2 =>
    obtain ⟨R, k, R', t, _, _, _, _, _, _, _, e, hb, g1, g2, _⟩ := sendRaw_spec hc s h.toRBase h.spi h.fault buf ch p e1 e2
    simp only [Rfm.op]
    rw [e]
    exact dolisten_inv hc _ hb g1 g2
  | poll junk => exact poll_inv hc h junk
  | air e => exact air_inv h e
  | remove =>
    simp only [Rfm.op]
    split <;> exact ⟨⟨h.cur, h.holds, h.mx, h.lc⟩, h.spi, h.fault, h.on, h.off⟩
  | getErr => exact ⟨⟨h.cur, h.holds, h.mx, h.lc⟩, h.spi, h.fault, h.on, h.off⟩

end OTR
