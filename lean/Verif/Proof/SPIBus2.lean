import Verif.Proof.SPIBus
/-! # Lemmas: the byte-level RFM23B link refines the register-level one: receiving, and the interrupt routine -/

namespace OTR
namespace Spi
variable {q : Bool}

theorem r_enableIRQ (f : Byte) {m : Wire} (hi : m.Idle) (hie : m.ie = false) (hk : Kq q false m.s.chip) :
    Runs q (enableIRQ f) m () (m.onChip (Chip.enableIRQ f)) ∧ Kq q false (m.s.chip.enableIRQ f) := by
  obtain ⟨s, junk, ph, ie, ju, t⟩ := m
  obtain ⟨rfl, rfl⟩ : ph = .idle ∧ ju = 0 := hi
  obtain rfl : ie = false := hie
  have hk : Kq q false s.chip := hk
  by_cases h1 : s.chip.reg 0x30 &&& 0x80 ≠ 0
  · have k1 := hk.acc.wr 5 2 (by omega)
    have k2 := k1.wr 6 0 (by omega)
    by_cases h2 : ((s.chip.acc.wr 5 2).wr 6 0).reg 0x33 &&& 8 = 8
    · have k3 := k2.acc.wr 0x3e f (by omega)
      have e : s.chip.enableIRQ f = ((s.chip.acc.wr 5 2).wr 6 0).acc.wr 0x3e f := by
        unfold Chip.enableIRQ; rw [if_pos h1]; dsimp only; rw [if_pos h2]
      refine ⟨?_, by rw [e]; exact k3⟩
      refine Runs.bind (r_readReg ⟨rfl, rfl⟩ 0x30 (by omega) (by omega) (by omega) (by exact hk)) ?_
      refine Runs.ite_pos (by exact h1) ?_
      refine Runs.bind (r_writeReg ⟨rfl, rfl⟩ 5 (by omega) 2 (by exact hk) (by exact k1)) ?_
      refine Runs.bind (r_writeReg ⟨rfl, rfl⟩ 6 (by omega) 0 (by exact k1) (by exact k2)) ?_
      refine Runs.bind (r_readReg ⟨rfl, rfl⟩ 0x33 (by omega) (by omega) (by omega) (by exact k2)) ?_
      refine Runs.ite_pos (by exact h2) ?_
      simp only [Wire.onChip]
      rw [e]
      exact r_writeReg ⟨rfl, rfl⟩ 0x3e (by omega) f (by exact k2) (by exact k3)
    · have e : s.chip.enableIRQ f = ((s.chip.acc.wr 5 2).wr 6 0).acc := by
        unfold Chip.enableIRQ; rw [if_pos h1]; dsimp only; rw [if_neg h2]
      refine ⟨?_, by rw [e]; exact k2⟩
      refine Runs.bind (r_readReg ⟨rfl, rfl⟩ 0x30 (by omega) (by omega) (by omega) (by exact hk)) ?_
      refine Runs.ite_pos (by exact h1) ?_
      refine Runs.bind (r_writeReg ⟨rfl, rfl⟩ 5 (by omega) 2 (by exact hk) (by exact k1)) ?_
      refine Runs.bind (r_writeReg ⟨rfl, rfl⟩ 6 (by omega) 0 (by exact k1) (by exact k2)) ?_
      refine Runs.bind (r_readReg ⟨rfl, rfl⟩ 0x33 (by omega) (by omega) (by omega) (by exact k2)) ?_
      refine Runs.ite_neg (by exact h2) ?_
      simp only [Wire.onChip]
      rw [e]
      exact Runs.pure _ _
  · have k1 := hk.acc.wr 5 0x10 (by omega)
    have k2 := k1.wr 6 0 (by omega)
    have e : s.chip.enableIRQ f = (s.chip.acc.wr 5 0x10).wr 6 0 := by
      unfold Chip.enableIRQ; rw [if_neg h1]
    refine ⟨?_, by rw [e]; exact k2⟩
    refine Runs.bind (r_readReg ⟨rfl, rfl⟩ 0x30 (by omega) (by omega) (by omega) (by exact hk)) ?_
    refine Runs.ite_neg (by exact h1) ?_
    refine Runs.bind (r_writeReg ⟨rfl, rfl⟩ 5 (by omega) 0x10 (by exact hk) (by exact k1)) ?_
    simp only [Wire.onChip]
    rw [e]
    exact r_writeReg ⟨rfl, rfl⟩ 6 (by omega) 0 (by exact k1) (by exact k2)

/-- The body of `startRX` before the last register is written. -/
def startPre : BusP Unit := do
  writeReg 8 3; writeReg 8 0
  let maxF ← load (·.maxF)
  writeReg 0x7e maxF
  enableIRQ maxF
  clearInts

def startG (f : Byte) (c : Chip) : Chip := ((((c.wr 8 3).wr 8 0).wr 0x7e f).enableIRQ f).clrInt

theorem r_startPre {m : Wire} (hi : m.Idle) (hie : m.ie = false) (hk : Kq q false m.s.chip) :
    Runs q startPre m () (m.onChip (startG m.s.maxF)) ∧ Kq q false (startG m.s.maxF m.s.chip) := by
  obtain ⟨s, junk, ph, ie, ju, t⟩ := m
  obtain ⟨rfl, rfl⟩ : ph = .idle ∧ ju = 0 := hi
  obtain rfl : ie = false := hie
  have hk : Kq q false s.chip := hk
  have k1 := hk.wr 8 3 (by omega)
  have k2 := k1.wr 8 0 (by omega)
  have k3 := k2.wr 0x7e s.maxF (by omega)
  obtain ⟨x, k4⟩ := r_enableIRQ (q := q) s.maxF (m := ⟨{ s with chip := ((s.chip.wr 8 3).wr 8 0).wr 0x7e s.maxF }, junk, .idle, false, 0, t⟩)
    ⟨rfl, rfl⟩ rfl k3
  refine ⟨?_, k4.low rfl⟩
  refine Runs.bind (r_writeReg ⟨rfl, rfl⟩ 8 (by omega) 3 (by exact hk) (by exact k1)) ?_
  refine Runs.bind (r_writeReg ⟨rfl, rfl⟩ 8 (by omega) 0 (by exact k1) (by exact k2)) ?_
  refine Runs.bind (r_load (by exact k2)) ?_
  refine Runs.bind (r_writeReg ⟨rfl, rfl⟩ 0x7e (by omega) s.maxF (by exact k2) (by exact k3)) ?_
  refine Runs.bind (by exact x) ?_
  exact r_clearInts ⟨rfl, rfl⟩ (by exact k4) (by exact k4.low rfl) (by exact k4.low rfl)

theorem bind_assoc {α β γ : Type} (p : BusP α) (k : α → BusP β) (l : β → BusP γ) : ((p >>= k) >>= l) = (p >>= fun x => k x >>= l) := rfl

theorem r_startRX {m : Wire} (hi : m.Idle) : Runs false startRX m () (m.onChip (Chip.startRX m.s.maxF)) := by
  obtain ⟨s, junk, ph, ie, ju, t⟩ := m
  obtain ⟨rfl, rfl⟩ : ph = .idle ∧ ju = 0 := hi
  refine r_atomic (m := ⟨s, junk, .idle, ie, 0, t⟩) (m2 := (⟨s, junk, .idle, false, 0, t⟩ : Wire).onChip (Chip.startRX s.maxF))
    (Kq.none _ _) ?_ (Kq.none _ _)
  refine r_powered ⟨rfl, rfl⟩ (Kq.none _ _) (fun x hx _ => ?_) (Kq.none _ _)
  have hxi : x.Idle := by rcases hx with rfl | rfl <;> exact ⟨rfl, rfl⟩
  have hxe : x.ie = false := by rcases hx with rfl | rfl <;> rfl
  have hxm : x.s.maxF = s.maxF := by rcases hx with rfl | rfl <;> rfl
  have := Runs.bind (r_startPre (q := false) hxi hxe (Kq.none _ _)).1
    (k := fun _ => writeReg 7 5) (r_writeReg (m := x.onChip (startG x.s.maxF)) hxi 7 (by omega) 5 (Kq.none _ _) (Kq.none _ _))
  rw [hxm] at this
  exact this

/-- Addresses of all tables of a configuration are below the FIFO's. -/
def CfgAddr (cfg : RfmCfg) : Prop := ∀ ch, ch < cfg.nCh → TableAddr (cfg.regs ch)

theorem dolisten_some {cfg : RfmCfg} {s : Rfm} {ch : Nat} (ha : ¬ cfg.allowRX = false) (hc : s.lc = some ch) :
    s.dolisten cfg = { ({ s with chip := s.chip.standbyClear } : Rfm).setChannel cfg ch with
      chip := (({ s with chip := s.chip.standbyClear } : Rfm).setChannel cfg ch).chip.startRX
        (({ s with chip := s.chip.standbyClear } : Rfm).setChannel cfg ch).maxF } := by
  obtain ⟨c, cur, lc, maxF, dr, fi, er, qq, qb⟩ := s
  obtain rfl : lc = some ch := hc
  unfold Rfm.dolisten; dsimp only; rw [if_neg ha]

theorem dolisten_off {cfg : RfmCfg} {s : Rfm} (h : cfg.allowRX = false ∨ s.lc = none) :
    s.dolisten cfg = { s with chip := s.chip.standbyClear } := by
  obtain ⟨c, cur, lc, maxF, dr, fi, er, qq, qb⟩ := s
  unfold Rfm.dolisten
  dsimp only
  by_cases ha : cfg.allowRX = false
  · rw [if_pos ha]
  · rw [if_neg ha]
    obtain rfl : lc = none := h.resolve_left ha
    rfl

theorem r_dolisten {cfg : RfmCfg} (hl : CfgAddr cfg) {m : Wire} (hi : m.Idle) :
    Runs false (dolisten cfg) m () { m with s := m.s.dolisten cfg } := by
  unfold dolisten
  refine Runs.bind (r_standby hi) ?_
  by_cases ha : cfg.allowRX = false
  · rw [if_pos ha]
    rw [dolisten_off (Or.inl ha)]
    exact Runs.pure _ _
  · rw [if_neg ha]
    refine Runs.bind (r_load (Kq.none _ _)) ?_
    cases hc : m.s.lc with
    | none =>
      rw [dolisten_off (Or.inr hc)]
      show Runs false (match (m.onChip Chip.standbyClear).s.lc with
        | none => _
        | some ch => _) _ _ _
      rw [show (m.onChip Chip.standbyClear).s.lc = none from hc]
      exact Runs.pure _ _
    | some ch =>
      rw [dolisten_some ha hc]
      show Runs false (match (m.onChip Chip.standbyClear).s.lc with
        | none => _
        | some ch => _) _ _ _
      rw [show (m.onChip Chip.standbyClear).s.lc = some ch from hc]
      refine Runs.bind (r_setChannel ch (hl ch) (fun h => by cases h) hi (Kq.none _ _) (Kq.none _ _)) ?_
      exact r_startRX (m := { m.onChip Chip.standbyClear with s := ({ m.s with chip := m.s.chip.standbyClear } : Rfm).setChannel cfg ch }) hi

/-! ## Receiving -/

/-- The bytes read from the RX FIFO holding `rx`, when `j` reads have found it empty. -/
def rdOut (junk : Nat → Byte) : Nat → Bytes → Nat → Bytes
  | 0, _, _ => []
  | n + 1, rx, j => rx.headD (junk j) :: rdOut junk n (rx.drop 1) (if rx = [] then j + 1 else j)

theorem rdOut_eq (junk : Nat → Byte) (n : Nat) : ∀ (rx : Bytes) (j : Nat),
    rdOut junk n rx j = (rx ++ (List.range' j n).map junk).take n := by
  induction n with
  | zero => intro rx j; rfl
  | succ n ih =>
    intro rx j
    cases rx with
    | nil =>
      show junk j :: rdOut junk n [] (if ([] : Bytes) = [] then j + 1 else j) = _
      rw [if_pos rfl, ih, List.range'_succ]
      rfl
    | cons b r =>
      show b :: rdOut junk n r (if b :: r = [] then j + 1 else j) = _
      rw [if_neg (by simp), ih]
      show _ = b :: (r ++ (List.range' j (n + 1)).map junk).take n
      rw [List.range'_1_concat, List.map_append, ← List.append_assoc,
        List.take_append_of_le_length (l₁ := r ++ (List.range' j n).map junk) (by simp)]

theorem r_rdLoop (n : Nat) : ∀ {m : Wire}, m.ph = .data false 0x7f → m.s.chip.acc = m.s.chip → Kq q m.ie m.s.chip →
    ∃ j, Runs q (rdLoop n) m (rdOut m.junk n m.s.chip.rx m.ju)
      { m.onChip (fun c => { c with rx := c.rx.drop n }) with ju := j } := by
  induction n with
  | zero => intro m _ _ _; exact ⟨m.ju, Runs.pure _ _⟩
  | succ n ih =>
    intro m hp hacc hk
    obtain ⟨s, junk, ph, ie, ju, t⟩ := m
    obtain rfl : ph = .data false 0x7f := hp
    have hacc : s.chip.acc = s.chip := hacc
    have e : ∀ j, s.chip.rdB 0x7f j = (s.chip.rx.headD j, { s.chip with rx := s.chip.rx.drop 1 }) := by
      intro j; unfold Chip.rdB; rw [if_neg (by omega), if_neg (by omega), if_pos rfl, hacc]
    obtain ⟨j, h⟩ := ih (m := ⟨{ s with chip := { s.chip with rx := s.chip.rx.drop 1 } }, junk, .data false 0x7f, ie,
      if s.chip.rx = [] then ju + 1 else ju, t⟩) rfl (by
        unfold Chip.acc at hacc ⊢
        have := congrArg Chip.fault hacc
        dsimp only at this ⊢
        rw [this]) (by exact hk)
    refine ⟨j, Runs.bind (r_get rfl (by exact hk) 0) ?_⟩
    simp only [Wire.onChip, e, true_and]
    simp only [Wire.onChip] at h
    have h2 : { s.chip with rx := (s.chip.rx.drop 1).drop n } = { s.chip with rx := s.chip.rx.drop (n + 1) } := by
      rw [List.drop_drop, Nat.add_comm]
    dsimp only at h h2
    rw [h2] at h
    refine Runs.bind (r := rdOut junk n (s.chip.rx.drop 1) (if s.chip.rx = [] then ju + 1 else ju)) ?_ (Runs.pure _ _)
    exact h

theorem r_rxFifo (n : Nat) {m : Wire} (hi : m.Idle) :
    Runs false (rxFifo n) m (m.s.chip.rxFifo n m.junk).1 (m.onChip fun c => (c.rxFifo n m.junk).2) := by
  obtain ⟨s, junk, ph, ie, ju, t⟩ := m
  obtain ⟨rfl, rfl⟩ : ph = .idle ∧ ju = 0 := hi
  have ho : (s.chip.rxFifo n junk).1 = rdOut junk n s.chip.rx 0 := by
    rw [rdOut_eq, ← List.range_eq_range']; rfl
  show Runs false (rxFifo n) _ (s.chip.rxFifo n junk).1 _
  rw [ho]
  refine r_atomic (m := ⟨s, junk, .idle, ie, 0, t⟩) (m2 := (⟨s, junk, .idle, false, 0, t⟩ : Wire).onChip fun c => (c.rxFifo n junk).2)
    (Kq.none _ _) ?_ (Kq.none _ _)
  refine r_powered (m := ⟨s, junk, .idle, false, 0, t⟩)
    (g := fun c => (((((({ (c.wr 7 0).acc with rx := c.rx.drop n }).wr 8 3).wr 8 0).wr 5 0).wr 6 0).clrInt))
    ⟨rfl, rfl⟩ (Kq.none _ _) (fun x hx _ => ?_) (Kq.none _ _)
  have hxr : x.s.chip.rx = s.chip.rx := by rcases hx with rfl | rfl <;> rfl
  have hxj : x.junk = junk := by rcases hx with rfl | rfl <;> rfl
  have hxi : x.Idle := by rcases hx with rfl | rfl <;> exact ⟨rfl, rfl⟩
  clear hx
  rw [← hxr, ← hxj]
  obtain ⟨s', junk', ph', ie', ju', t'⟩ := x
  obtain ⟨rfl, rfl⟩ : ph' = .idle ∧ ju' = 0 := hxi
  refine Runs.bind (r_writeReg ⟨rfl, rfl⟩ 7 (by omega) 0 (Kq.none _ _) (Kq.none _ _)) ?_
  refine Runs.bind (r_sel ⟨rfl, rfl⟩ (Kq.none _ _)) ?_
  refine Runs.bind (r_addrR rfl (Kq.none _ _) 0x7f (by omega)) ?_
  obtain ⟨j, h⟩ := r_rdLoop n (m := ⟨{ s' with chip := (s'.chip.wr 7 0).acc }, junk', .data false 0x7f, ie', 0, t'⟩) rfl (acc_acc _) (Kq.none _ _)
  have er : (s'.chip.wr 7 0).acc.rx = s'.chip.rx := by simp [Chip.wr, Chip.acc]
  dsimp only at h
  rw [er] at h
  refine Runs.bind (by exact h) ?_
  refine Runs.bind (r_desel (Kq.none _ _)) ?_
  simp only [Wire.onChip]
  rw [er]
  refine Runs.bind (r_writeReg ⟨rfl, rfl⟩ 8 (by omega) 3 (Kq.none _ _) (Kq.none _ _)) ?_
  refine Runs.bind (r_writeReg ⟨rfl, rfl⟩ 8 (by omega) 0 (Kq.none _ _) (Kq.none _ _)) ?_
  refine Runs.bind (r_writeReg ⟨rfl, rfl⟩ 5 (by omega) 0 (Kq.none _ _) (Kq.none _ _)) ?_
  refine Runs.bind (r_writeReg ⟨rfl, rfl⟩ 6 (by omega) 0 (Kq.none _ _) (Kq.none _ _)) ?_
  refine Runs.bind (r_clearInts ⟨rfl, rfl⟩ (Kq.none _ _) (Kq.none _ _) (Kq.none _ _)) ?_
  exact Runs.pure _ _

theorem r_take (cfg : RfmCfg) (len : Nat) {m : Wire} (hi : m.Idle) :
    Runs false (take cfg len) m () { m with s := m.s.take cfg len m.junk } := by
  refine Runs.bind (r_load (Kq.none _ _)) ?_
  unfold Rfm.take
  by_cases h1 : len > 64 ∨ m.s.q.isFull = true
  · rw [if_pos h1, if_pos h1]
    exact Runs.bind (r_rxFifo 1 hi) (r_store (Kq.none _ _))
  · rw [if_neg h1, if_neg h1]
    refine Runs.bind (r_rxFifo 64 hi) ?_
    exact Runs.bind (r_store (Kq.none _ _)) (r_store (Kq.none _ _))

theorem dolisten_spi (cfg : RfmCfg) (s : Rfm) : (s.dolisten cfg).chip.spi = s.chip.spi := by
  have h0 : s.chip.standbyClear.spi = s.chip.spi := by rw [standbyClear_eq]
  by_cases ha : cfg.allowRX = false
  · rw [dolisten_off (Or.inl ha)]; exact h0
  · cases hc : s.lc with
    | none => rw [dolisten_off (Or.inr hc)]; exact h0
    | some ch =>
      rw [dolisten_some ha hc]
      obtain ⟨r, e, -⟩ := startRX_eq (({ s with chip := s.chip.standbyClear } : Rfm).setChannel cfg ch).maxF
        (({ s with chip := s.chip.standbyClear } : Rfm).setChannel cfg ch).chip
      dsimp only
      rw [e]
      show (({ s with chip := s.chip.standbyClear } : Rfm).setChannel cfg ch).chip.spi = _
      rw [← h0]
      unfold Rfm.setChannel
      split
      · rfl
      · split
        · rfl
        · refine withSPI_spi _ (fun c => ?_) _
          generalize cfg.regs ch = l
          induction l generalizing c with
          | nil => rfl
          | cons p l ih => rw [List.foldl_cons, ih]; rfl

theorem take_spi (cfg : RfmCfg) (s : Rfm) (n : Nat) (junk : Nat → Byte) : (s.take cfg n junk).chip.spi = s.chip.spi := by
  rw [(take_fields cfg s n junk).1, standbyClear_eq]

/-- The state after reading the status registers. -/
def readStat (s : Rfm) : Rfm := { s with chip := s.chip.withSPI fun c => c.clrInt.acc }

theorem pollBody_off {cfg : RfmCfg} {s : Rfm} (junk : Nat → Byte) (h : cfg.allowRX = false ∨ s.lc = none) : s.pollBody cfg junk = s := by
  obtain ⟨c, cur, lc, maxF, dr, fi, er, qq, qb⟩ := s
  unfold Rfm.pollBody
  by_cases ha : cfg.allowRX = false
  · rw [if_pos ha]
  · rw [if_neg ha]
    obtain rfl : lc = none := h.resolve_left ha
    rfl

theorem pollBody_on {cfg : RfmCfg} {s : Rfm} (junk : Nat → Byte) (ha : ¬ cfg.allowRX = false) (hc : s.lc ≠ none) : s.pollBody cfg junk =
    if s.chip.reg 0x30 &&& 0x80 ≠ 0 then
      if s.chip.st1 &&& 2 ≠ 0 then
        { ((({ readStat s with chip := ({ (readStat s).chip with spi := true } : Chip).acc } : Rfm).take cfg
              (if s.chip.reg 0x33 &&& (8 : Byte) = (8 : Byte) then s.chip.reg 0x3e else s.chip.reg 0x4b).toNat junk).dolisten cfg) with
          chip := { ((({ readStat s with chip := ({ (readStat s).chip with spi := true } : Chip).acc } : Rfm).take cfg
              (if s.chip.reg 0x33 &&& (8 : Byte) = (8 : Byte) then s.chip.reg 0x3e else s.chip.reg 0x4b).toNat junk).dolisten cfg).chip with
            spi := s.chip.spi } }
      else readStat s
    else if s.chip.st1 &&& 0x80 ≠ 0 then ({ readStat s with err := 2 } : Rfm).dolisten cfg
    else if s.chip.st1 &&& 0x10 ≠ 0 then ((readStat s).take cfg 64 junk).dolisten cfg
    else readStat s := by
  obtain ⟨c, cur, lc, maxF, dr, fi, er, qq, qb⟩ := s
  cases lc with
  | none => exact absurd rfl hc
  | some ch =>
    unfold Rfm.pollBody
    rw [if_neg ha]
    dsimp only [readStat]
    have er : (c.withSPI fun c => c.clrInt.acc).reg = c.reg := by rw [readStatus_eq]
    have es : (c.withSPI fun c => c.clrInt.acc).spi = c.spi := by rw [readStatus_eq]
    have ea : ∀ x : Chip, x.acc.reg = x.reg := fun _ => rfl
    simp only [ea, er, es]

theorem r_packet {cfg : RfmCfg} (hl : CfgAddr cfg) {x : Wire} (hi : x.Idle) :
    Runs false (do
      let f ← readReg 0x33
      let len ← if f &&& 8 = 8 then readReg 0x3e else readReg 0x4b
      take cfg len.toNat
      dolisten cfg) x () { x with s := (({ x.s with chip := x.s.chip.acc } : Rfm).take cfg
        (if x.s.chip.reg 0x33 &&& (8 : Byte) = (8 : Byte) then x.s.chip.reg 0x3e else x.s.chip.reg 0x4b).toNat x.junk).dolisten cfg } := by
  refine Runs.bind (r_readReg hi 0x33 (by omega) (by omega) (by omega) (Kq.none _ _)) ?_
  have ea : (x.s.chip.acc).acc = x.s.chip.acc := acc_acc _
  by_cases h : x.s.chip.reg 0x33 &&& (8 : Byte) = (8 : Byte)
  · simp only [if_pos h]
    refine Runs.bind (r_readReg (m := x.onChip Chip.acc) hi 0x3e (by omega) (by omega) (by omega) (Kq.none _ _)) ?_
    simp only [Wire.onChip, ea]
    refine Runs.bind (r_take cfg _ (by exact hi)) ?_
    exact r_dolisten hl (by exact hi)
  · simp only [if_neg h]
    refine Runs.bind (r_readReg (m := x.onChip Chip.acc) hi 0x4b (by omega) (by omega) (by omega) (Kq.none _ _)) ?_
    simp only [Wire.onChip, ea]
    refine Runs.bind (r_take cfg _ (by exact hi)) ?_
    exact r_dolisten hl (by exact hi)

theorem r_pollBody {cfg : RfmCfg} (hl : CfgAddr cfg) {m : Wire} (hi : m.Idle) :
    Runs false (pollBody cfg) m () { m with s := m.s.pollBody cfg m.junk } := by
  unfold pollBody
  by_cases ha : cfg.allowRX = false
  · rw [if_pos ha, pollBody_off _ (Or.inl ha)]; exact Runs.pure _ _
  rw [if_neg ha]
  refine Runs.bind (r_load (Kq.none _ _)) ?_
  by_cases hc : m.s.lc = none
  · rw [pollBody_off _ (Or.inr hc)]
    exact Runs.ite_pos (by exact hc) (Runs.pure _ _)
  rw [pollBody_on _ ha hc]
  refine Runs.ite_neg (by exact hc) ?_
  have hp : Runs false (powered do
      let st ← readReg16 3
      let d ← readReg 0x30
      pure (st.1, d)) m (m.s.chip.st1, m.s.chip.reg 0x30) (m.onChip (Chip.withSPI fun c => c.clrInt.acc)) := by
    refine r_powered (g := fun c => c.clrInt.acc) hi (Kq.none _ _) (fun x hx _ => ?_) (Kq.none _ _)
    have hxi : x.Idle := by rcases hx with rfl | rfl <;> exact hi
    have e1 : x.s.chip.st1 = m.s.chip.st1 := by rcases hx with rfl | rfl <;> rfl
    have e2 : x.s.chip.reg = m.s.chip.reg := by rcases hx with rfl | rfl <;> rfl
    rw [← e1, ← e2]
    refine Runs.bind (r_readSt hxi (Kq.none _ _) (Kq.none _ _) (Kq.none _ _)) ?_
    refine Runs.bind (r_readReg (m := x.onChip Chip.clrInt) hxi 0x30 (by omega) (by omega) (by omega) (Kq.none _ _)) ?_
    exact Runs.pure _ _
  refine Runs.bind hp ?_
  dsimp only
  by_cases h1 : m.s.chip.reg 0x30 &&& 0x80 ≠ 0
  · refine Runs.ite_pos (by exact h1) ?_
    simp only [if_pos h1]
    by_cases h2 : m.s.chip.st1 &&& 2 ≠ 0
    · refine Runs.ite_pos (by exact h2) ?_
      simp only [if_pos h2]
      have es : (readStat m.s).chip.spi = m.s.chip.spi := by unfold readStat; rw [readStatus_eq]
      have er : (readStat m.s).chip.reg = m.s.chip.reg := by unfold readStat; rw [readStatus_eq]
      have hm1 : m.onChip (Chip.withSPI fun c => c.clrInt.acc) = { m with s := readStat m.s } := rfl
      rw [hm1]
      generalize hs1 : readStat m.s = s1 at es er
      cases hs : m.s.chip.spi with
      | true =>
        have e1 : s1.chip.spi = true := by rw [es, hs]
        have e2 : ({ s1.chip with spi := true } : Chip) = s1.chip := by rw [← e1]
        have e3 : ∀ z : Rfm, z.chip.spi = true → ({ z with chip := { z.chip with spi := true } } : Rfm) = z := by
          intro z hz; rw [← hz]
        rw [e2]
        rw [e3 _ (by rw [dolisten_spi, take_spi]; exact e1)]
        refine r_powered_on (by exact e1) (Kq.none _ _) ?_
        have := r_packet (cfg := cfg) hl (x := { m with s := s1 }) hi
        rw [show ({ m with s := s1 } : Wire).s.chip.reg = m.s.chip.reg from er] at this
        exact this
      | false =>
        refine r_powered_off (m := { m with s := s1 }) (m2 := { m with s := (({ s1 with chip := ({ s1.chip with spi := true } : Chip).acc } : Rfm).take cfg
              (if m.s.chip.reg 0x33 &&& (8 : Byte) = (8 : Byte) then m.s.chip.reg 0x3e else m.s.chip.reg 0x4b).toNat m.junk).dolisten cfg })
          hi (by rw [es, hs]) (Kq.none _ _) ?_ hi (Kq.none _ _)
        have := r_packet (cfg := cfg) hl (x := { m with s := { s1 with chip := { s1.chip with spi := true } } }) hi
        rw [show ({ m with s := { s1 with chip := { s1.chip with spi := true } } } : Wire).s.chip.reg = m.s.chip.reg from er] at this
        exact this
    · refine Runs.ite_neg (by exact h2) ?_
      simp only [if_neg h2]
      exact Runs.pure _ _
  · refine Runs.ite_neg (by exact h1) ?_
    simp only [if_neg h1]
    by_cases h2 : m.s.chip.st1 &&& 0x80 ≠ 0
    · refine Runs.ite_pos (by exact h2) ?_
      simp only [if_pos h2]
      exact Runs.bind (r_store (Kq.none _ _)) (r_dolisten hl (by exact hi))
    · refine Runs.ite_neg (by exact h2) ?_
      simp only [if_neg h2]
      by_cases h3 : m.s.chip.st1 &&& 0x10 ≠ 0
      · refine Runs.ite_pos (by exact h3) ?_
        simp only [if_pos h3]
        exact Runs.bind (r_take cfg 64 (by exact hi)) (r_dolisten hl (by exact hi))
      · refine Runs.ite_neg (by exact h3) ?_
        simp only [if_neg h3]
        exact Runs.pure _ _

theorem poll_off {cfg : RfmCfg} {s : Rfm} (junk : Nat → Byte) (h : cfg.allowRX = false) : s.poll cfg junk = s := by
  unfold Rfm.poll; rw [pollBody_off _ (Or.inl h), ite_self]

theorem r_line {cfg : RfmCfg} {m : Wire} : Runs false (BusP.prim fun m => (cfg.irqPin && !m.s.chip.irq, m)) m (cfg.irqPin && !m.s.chip.irq) m :=
  Runs.prim (Kq.none _ _) fun _ => rfl

theorem r_handler {cfg : RfmCfg} (hl : CfgAddr cfg) {m : Wire} (hi : m.Idle) :
    Runs false (handler cfg) m () { m with s := m.s.poll cfg m.junk } := by
  unfold handler
  by_cases ha : cfg.allowRX = false
  · rw [if_pos ha, poll_off _ ha]; exact Runs.pure _ _
  rw [if_neg ha]
  refine Runs.bind r_line ?_
  by_cases hq : cfg.irqPin = true ∧ m.s.chip.irq = false
  · refine Runs.ite_pos (by rw [hq.1, hq.2]; rfl) ?_
    unfold Rfm.poll; simp only [if_pos hq]; exact Runs.pure _ _
  · refine Runs.ite_neg (by simpa using hq) ?_
    unfold Rfm.poll; simp only [if_neg hq]; exact r_pollBody hl hi

theorem r_poll {cfg : RfmCfg} (hl : CfgAddr cfg) {m : Wire} (hi : m.Idle) :
    Runs false (poll cfg) m () { m with s := m.s.poll cfg m.junk } := by
  unfold poll
  refine Runs.bind r_line ?_
  by_cases hq : cfg.irqPin = true ∧ m.s.chip.irq = false
  · refine Runs.ite_pos (by rw [hq.1, hq.2]; rfl) ?_
    unfold Rfm.poll; simp only [if_pos hq]; exact Runs.pure _ _
  · refine Runs.ite_neg (by simpa using hq) ?_
    unfold Rfm.poll; simp only [if_neg hq]
    exact r_atomic (m2 := { m with ie := false, s := m.s.pollBody cfg m.junk }) (Kq.none _ _)
      (r_pollBody hl (m := { m with ie := false }) hi) (Kq.none _ _)

end Spi
end OTR
