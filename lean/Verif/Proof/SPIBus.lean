import Verif.Model.SPIBus
import Verif.Proof.RFM23
/-! # Lemmas: the byte-level RFM23B link refines the register-level one -/

namespace OTR

/-- No transaction is going on. -/
def Wire.Idle (m : Wire) : Prop := m.ph = .idle ∧ m.ju = 0

/-- The machine at another step number. -/
def Wire.tm (m : Wire) (t : Nat) : Wire := { m with t := t }

/-- When nothing can happen between steps: the radio neither receives nor sends, and interrupts are off or none is asked for.
With `q = false` there is no condition. -/
def Kq (q : Bool) (b : Bool) (c : Chip) : Prop := q = true → c.reg 7 &&& 0x0c = 0 ∧ (b = false ∨ c.irq = false)

/-- Whatever happens before steps does nothing in such states. -/
def Triv (q : Bool) (h : Wire → Wire) : Prop := ∀ m : Wire, Kq q m.ie m.s.chip → ∃ t, h m = m.tm t

/-- From `m` the program gives `r` and ends in `m'` (step numbers aside), whatever happens before steps. -/
def Runs (q : Bool) {α : Type} (p : BusP α) (m : Wire) (r : α) (m' : Wire) : Prop :=
  ∀ h, Triv q h → ∀ t, ∃ t', p h (m.tm t) = (r, m'.tm t')

theorem Runs.bind {q : Bool} {α β : Type} {p : BusP α} {k : α → BusP β} {m m' m'' : Wire} {r : α} {r' : β}
    (h1 : Runs q p m r m') (h2 : Runs q (k r) m' r' m'') : Runs q (p >>= k) m r' m'' := by
  intro h ht t
  obtain ⟨t1, e1⟩ := h1 h ht t
  obtain ⟨t2, e2⟩ := h2 h ht t1
  refine ⟨t2, ?_⟩
  show k (p h (m.tm t)).1 h (p h (m.tm t)).2 = _
  rw [e1]; exact e2

theorem Runs.pure {q : Bool} {α : Type} (a : α) (m : Wire) : Runs q (Pure.pure a : BusP α) m a m :=
  fun _ _ t => ⟨t, rfl⟩

theorem Runs.prim {q : Bool} {α : Type} {f : Wire → α × Wire} {m : Wire} {r : α} {m' : Wire} (hk : Kq q m.ie m.s.chip)
    (hf : ∀ t, f (m.tm t) = (r, m'.tm t)) : Runs q (BusP.prim f) m r m' := by
  intro h ht t
  obtain ⟨t1, e1⟩ := ht (m.tm t) hk
  exact ⟨t1, by show f (h (m.tm t)) = _; rw [e1]; exact hf t1⟩

theorem Runs.ite_pos {q : Bool} {α : Type} {c : Prop} [Decidable c] (hc : c) {p p' : BusP α} {m m' : Wire} {r : α}
    (h : Runs q p m r m') : Runs q (if c then p else p') m r m' := by rw [if_pos hc]; exact h
theorem Runs.ite_neg {q : Bool} {α : Type} {c : Prop} [Decidable c] (hc : ¬ c) {p p' : BusP α} {m m' : Wire} {r : α}
    (h : Runs q p' m r m') : Runs q (if c then p else p') m r m' := by rw [if_neg hc]; exact h

/-! ## The conditions between steps -/

theorem Kq.acc {q b : Bool} {c : Chip} (h : Kq q b c) : Kq q b c.acc := h
theorem Kq.spi {q b : Bool} {c : Chip} (h : Kq q b c) (x : Bool) : Kq q b { c with spi := x } := h
theorem Kq.cli {q b : Bool} {c : Chip} (h : Kq q b c) : Kq q false c := fun e => ⟨(h e).1, Or.inl rfl⟩
theorem Kq.low {q : Bool} {c c' : Chip} (h : Kq q false c) (e : c'.reg 7 = c.reg 7) : Kq q false c' :=
  fun hq => ⟨by rw [e]; exact (h hq).1, Or.inl rfl⟩
theorem Kq.wr {q : Bool} {c : Chip} (h : Kq q false c) (a : Nat) (v : Byte) (ha : q = true → a = 7 → v &&& 0x0c = 0) :
    Kq q false (c.wr a v) := by
  intro hq
  refine ⟨?_, Or.inl rfl⟩
  show (if 7 = a then v else c.reg 7) &&& 0x0c = 0
  by_cases e : 7 = a
  · rw [if_pos e]; exact ha hq e.symm
  · rw [if_neg e]; exact (h hq).1
theorem Kq.none (b : Bool) (c : Chip) : Kq false b c := fun h => by cases h

namespace Spi

theorem addr_w (a : Nat) (ha : a < 128) : decide ((u8 a ||| 0x80).toNat ≥ 128) = true ∧ ((u8 a ||| 0x80) &&& 0x7f).toNat = a := by
  have : ∀ a : Fin 128, decide ((u8 a.val ||| 0x80).toNat ≥ 128) = true ∧ ((u8 a.val ||| 0x80) &&& 0x7f).toNat = a.val := by decide +kernel
  exact this ⟨a, ha⟩

theorem addr_r (a : Nat) (ha : a < 128) : decide ((u8 a &&& 0x7f).toNat ≥ 128) = false ∧ ((u8 a &&& 0x7f) &&& 0x7f).toNat = a := by
  have : ∀ a : Fin 128, decide ((u8 a.val &&& 0x7f).toNat ≥ 128) = false ∧ ((u8 a.val &&& 0x7f) &&& 0x7f).toNat = a.val := by decide +kernel
  exact this ⟨a, ha⟩

theorem acc_acc (c : Chip) : c.acc.acc = c.acc := by
  unfold Chip.acc; dsimp only; rw [Bool.or_assoc, Bool.or_self]
theorem acc_wr (c : Chip) (a : Nat) (v : Byte) : c.acc.wr a v = c.wr a v := by
  unfold Chip.wr; rw [acc_acc]; rfl
theorem wr_acc (c : Chip) (a : Nat) (v : Byte) : (c.wr a v).acc = c.wr a v := by
  unfold Chip.wr Chip.acc; dsimp only; rw [Bool.or_assoc, Bool.or_self]
theorem acc_clr (c : Chip) : c.acc.clrInt = c.clrInt := by unfold Chip.clrInt; rw [acc_acc]
theorem clr_acc (c : Chip) : c.clrInt.acc = c.clrInt := by
  unfold Chip.clrInt Chip.acc; dsimp only; rw [Bool.or_assoc, Bool.or_self]

theorem acc_wrB (c : Chip) (a : Nat) (ha : a < 127) (v : Byte) : c.acc.wrB a v = c.wr a v := by
  unfold Chip.wrB; rw [if_neg (by omega), acc_wr]
theorem wrB_wr (c : Chip) (a : Nat) (ha : a < 127) (v : Byte) : c.wrB a v = c.wr a v := by
  unfold Chip.wrB; rw [if_neg (by omega)]

theorem rd_plain (c : Chip) (a : Nat) (ha : a < 127) (h3 : a ≠ 3) (h4 : a ≠ 4) (j : Byte) : c.acc.rdB a j = (c.reg a, c.acc) := by
  unfold Chip.rdB; rw [if_neg h3, if_neg h4, if_neg (by omega), acc_acc]; rfl
theorem rd3 (c : Chip) (j : Byte) : c.acc.rdB 3 j = (c.st1, { c.acc with st1 := 0 }) := by
  unfold Chip.rdB; rw [if_pos rfl, acc_acc]; rfl
theorem rd4 (c : Chip) (j : Byte) : Chip.rdB { c.acc with st1 := 0 } 4 j = (c.st2, c.clrInt) := by
  unfold Chip.rdB; rw [if_neg (by omega), if_pos rfl]
  unfold Chip.clrInt Chip.acc; dsimp only; rw [Bool.or_assoc, Bool.or_self]

variable {q : Bool}

/-! ## Single steps -/

theorem r_sel {m : Wire} (hi : m.Idle) (hk : Kq q m.ie m.s.chip) : Runs q sel m () { m with ph := .addr } := by
  obtain ⟨s, junk, ph, ie, ju, t⟩ := m
  obtain ⟨rfl, rfl⟩ : ph = .idle ∧ ju = 0 := hi
  exact Runs.prim hk fun _ => rfl

theorem r_desel {m : Wire} (hk : Kq q m.ie m.s.chip) : Runs q desel m () { m with ph := .idle, ju := 0 } :=
  Runs.prim hk fun _ => rfl

theorem r_addrW {m : Wire} (hp : m.ph = .addr) (hk : Kq q m.ie m.s.chip) (a : Nat) (ha : a < 128) :
    Runs q (xfer (u8 a ||| 0x80)) m 0 { m.onChip Chip.acc with ph := .data true a } := by
  obtain ⟨s, junk, ph, ie, ju, t⟩ := m
  obtain rfl : ph = .addr := hp
  obtain ⟨e1, e2⟩ := addr_w a ha
  refine Runs.prim hk fun t => ?_
  simp only [Wire.tm, Wire.onChip]
  rw [e1, e2]

theorem r_addrR {m : Wire} (hp : m.ph = .addr) (hk : Kq q m.ie m.s.chip) (a : Nat) (ha : a < 128) :
    Runs q (xfer (u8 a &&& 0x7f)) m 0 { m.onChip Chip.acc with ph := .data false a } := by
  obtain ⟨s, junk, ph, ie, ju, t⟩ := m
  obtain rfl : ph = .addr := hp
  obtain ⟨e1, e2⟩ := addr_r a ha
  refine Runs.prim hk fun t => ?_
  simp only [Wire.tm, Wire.onChip]
  rw [e1, e2]

theorem r_put {m : Wire} {a : Nat} (hp : m.ph = .data true a) (hk : Kq q m.ie m.s.chip) (v : Byte) :
    Runs q (xfer v) m 0 { m.onChip (fun c => c.wrB a v) with ph := .data true (nextA a) } := by
  obtain ⟨s, junk, ph, ie, ju, t⟩ := m
  obtain rfl : ph = .data true a := hp
  exact Runs.prim hk fun _ => rfl

theorem r_get {m : Wire} {a : Nat} (hp : m.ph = .data false a) (hk : Kq q m.ie m.s.chip) (v : Byte) :
    Runs q (xfer v) m (m.s.chip.rdB a (m.junk m.ju)).1
      { m.onChip (fun _ => (m.s.chip.rdB a (m.junk m.ju)).2) with
        ph := .data false (nextA a), ju := if a = 0x7f ∧ m.s.chip.rx = [] then m.ju + 1 else m.ju } := by
  obtain ⟨s, junk, ph, ie, ju, t⟩ := m
  obtain rfl : ph = .data false a := hp
  exact Runs.prim hk fun _ => rfl

/-! ## Transactions -/

theorem r_writeReg {m : Wire} (hi : m.Idle) (a : Nat) (ha : a < 127) (v : Byte) (hk : Kq q m.ie m.s.chip)
    (hk' : Kq q m.ie (m.s.chip.wr a v)) : Runs q (writeReg a v) m () (m.onChip fun c => c.wr a v) := by
  obtain ⟨s, junk, ph, ie, ju, t⟩ := m
  obtain ⟨rfl, rfl⟩ : ph = .idle ∧ ju = 0 := hi
  refine Runs.bind (r_sel ⟨rfl, rfl⟩ (by exact hk)) ?_
  refine Runs.bind (r_addrW rfl (by exact hk.acc) a (by omega)) ?_
  refine Runs.bind (r_put rfl (by exact hk.acc) v) ?_
  have hw : (s.chip.acc.wrB a v) = s.chip.wr a v := acc_wrB _ a ha v
  simp only [Wire.onChip] at hk' ⊢
  rw [hw]
  exact r_desel (by exact hk')

theorem r_writeReg16 {m : Wire} (hi : m.Idle) (a : Nat) (ha : a < 126) (hk : Kq q m.ie m.s.chip)
    (hk' : Kq q m.ie (m.s.chip.wr a 0)) (hk2 : Kq q m.ie ((m.s.chip.wr a 0).wr (a + 1) 0)) :
    Runs q (writeReg16 a) m () (m.onChip fun c => (c.wr a 0).wr (a + 1) 0) := by
  obtain ⟨s, junk, ph, ie, ju, t⟩ := m
  obtain ⟨rfl, rfl⟩ : ph = .idle ∧ ju = 0 := hi
  refine Runs.bind (r_sel ⟨rfl, rfl⟩ (by exact hk)) ?_
  refine Runs.bind (r_addrW rfl (by exact hk.acc) a (by omega)) ?_
  refine Runs.bind (r_put rfl (by exact hk.acc) 0) ?_
  have hw : (s.chip.acc.wrB a 0) = s.chip.wr a 0 := acc_wrB _ a (by omega) 0
  have hn : nextA a = a + 1 := by unfold nextA; rw [if_neg (by omega)]
  simp only [Wire.onChip] at hk' hk2 ⊢
  rw [hw, hn]
  refine Runs.bind (r_put rfl (by exact hk') 0) ?_
  simp only [Wire.onChip]
  rw [wrB_wr _ _ (by omega)]
  exact r_desel (by exact hk2)

theorem r_readReg {m : Wire} (hi : m.Idle) (a : Nat) (ha : a < 127) (h3 : a ≠ 3) (h4 : a ≠ 4) (hk : Kq q m.ie m.s.chip) :
    Runs q (readReg a) m (m.s.chip.reg a) (m.onChip Chip.acc) := by
  obtain ⟨s, junk, ph, ie, ju, t⟩ := m
  obtain ⟨rfl, rfl⟩ : ph = .idle ∧ ju = 0 := hi
  refine Runs.bind (r_sel ⟨rfl, rfl⟩ (by exact hk)) ?_
  refine Runs.bind (r_addrR rfl (by exact hk.acc) a (by omega)) ?_
  refine Runs.bind (r_get rfl (by exact hk.acc) 0) ?_
  simp only [Wire.onChip]
  rw [rd_plain _ a ha h3 h4]
  exact Runs.bind (r_desel (by exact hk.acc)) (Runs.pure _ _)

theorem r_readSt1 {m : Wire} (hi : m.Idle) (hk : Kq q m.ie m.s.chip) (hk' : Kq q m.ie { m.s.chip.acc with st1 := 0 }) :
    Runs q (readReg 3) m m.s.chip.st1 (m.onChip fun c => { c.acc with st1 := 0 }) := by
  obtain ⟨s, junk, ph, ie, ju, t⟩ := m
  obtain ⟨rfl, rfl⟩ : ph = .idle ∧ ju = 0 := hi
  refine Runs.bind (r_sel ⟨rfl, rfl⟩ (by exact hk)) ?_
  refine Runs.bind (r_addrR rfl (by exact hk.acc) 3 (by omega)) ?_
  refine Runs.bind (r_get rfl (by exact hk.acc) 0) ?_
  simp only [Wire.onChip]
  rw [rd3]
  exact Runs.bind (r_desel (by exact hk')) (Runs.pure _ _)

theorem r_readSt {m : Wire} (hi : m.Idle) (hk : Kq q m.ie m.s.chip) (hk' : Kq q m.ie { m.s.chip.acc with st1 := 0 })
    (hk2 : Kq q m.ie m.s.chip.clrInt) :
    Runs q (readReg16 3) m (m.s.chip.st1, m.s.chip.st2) (m.onChip Chip.clrInt) := by
  obtain ⟨s, junk, ph, ie, ju, t⟩ := m
  obtain ⟨rfl, rfl⟩ : ph = .idle ∧ ju = 0 := hi
  refine Runs.bind (r_sel ⟨rfl, rfl⟩ (by exact hk)) ?_
  refine Runs.bind (r_addrR rfl (by exact hk.acc) 3 (by omega)) ?_
  refine Runs.bind (r_get rfl (by exact hk.acc) 0) ?_
  simp only [Wire.onChip]
  rw [rd3]
  refine Runs.bind (r_get (a := 4) rfl (by exact hk') 0) ?_
  simp only [Wire.onChip]
  rw [rd4]
  exact Runs.bind (r_desel (by exact hk2)) (Runs.pure _ _)

theorem r_clearInts {m : Wire} (hi : m.Idle) (hk : Kq q m.ie m.s.chip) (hk' : Kq q m.ie { m.s.chip.acc with st1 := 0 })
    (hk2 : Kq q m.ie m.s.chip.clrInt) : Runs q clearInts m () (m.onChip Chip.clrInt) := by
  obtain ⟨s, junk, ph, ie, ju, t⟩ := m
  obtain ⟨rfl, rfl⟩ : ph = .idle ∧ ju = 0 := hi
  refine Runs.bind (r_sel ⟨rfl, rfl⟩ (by exact hk)) ?_
  refine Runs.bind (r_addrR rfl (by exact hk.acc) 3 (by omega)) ?_
  refine Runs.bind (r_get rfl (by exact hk.acc) 0) ?_
  simp only [Wire.onChip]
  rw [rd3]
  refine Runs.bind (r_get (a := 4) rfl (by exact hk') 0) ?_
  simp only [Wire.onChip]
  rw [rd4]
  exact r_desel (by exact hk2)

/-! ## Power and interrupts -/

theorem r_powered_on {α : Type} {p : BusP α} {m m2 : Wire} {r : α} (hs : m.s.chip.spi = true) (hk : Kq q m.ie m.s.chip)
    (h : Runs q p m r m2) : Runs q (powered p) m r m2 := by
  refine Runs.bind (m' := m) (r := false) (Runs.prim hk fun t => ?_) (Runs.bind h ?_)
  · show (if m.s.chip.spi = true then _ else _) = _
    rw [if_pos hs]
  · exact Runs.pure _ _

theorem r_powered_off {α : Type} {p : BusP α} {m m2 : Wire} {r : α} (hi : m.Idle) (hs : m.s.chip.spi = false) (hk : Kq q m.ie m.s.chip)
    (h : Runs q p (m.onChip fun c => { c with spi := true }) r m2) (hi2 : m2.Idle) (hk2 : Kq q m2.ie m2.s.chip) :
    Runs q (powered p) m r (m2.onChip fun c => { c with spi := false }) := by
  obtain ⟨s, junk, ph, ie, ju, t⟩ := m
  obtain ⟨rfl, rfl⟩ : ph = .idle ∧ ju = 0 := hi
  obtain ⟨s2, junk2, ph2, ie2, ju2, t2⟩ := m2
  obtain ⟨rfl, rfl⟩ : ph2 = .idle ∧ ju2 = 0 := hi2
  refine Runs.bind (r := true) (Runs.prim hk fun t => ?_) (Runs.bind h ?_)
  · show (if s.chip.spi = true then _ else _) = _
    rw [if_neg (by rw [hs]; simp)]
    rfl
  · exact Runs.bind (r := ()) (Runs.prim hk2 fun _ => rfl) (Runs.pure _ _)

/-- With the same change to the chip whatever the power. -/
theorem r_powered {α : Type} {p : BusP α} {m : Wire} {r : α} {g : Chip → Chip} (hi : m.Idle) (hk : Kq q m.ie m.s.chip)
    (h : ∀ x, x = m ∨ x = m.onChip (fun c => { c with spi := true }) → x.s.chip.spi = true → Runs q p x r (x.onChip g))
    (hk2 : Kq q m.ie (g { m.s.chip with spi := true })) :
    Runs q (powered p) m r (m.onChip (Chip.withSPI g)) := by
  cases hs : m.s.chip.spi with
  | true =>
    have : m.onChip (Chip.withSPI g) = m.onChip g := by
      unfold Wire.onChip Chip.withSPI; rw [if_pos hs]
    rw [this]
    exact r_powered_on hs hk (h m (Or.inl rfl) hs)
  | false =>
    have : m.onChip (Chip.withSPI g) = ((m.onChip fun c => { c with spi := true }).onChip g).onChip fun c => { c with spi := false } := by
      unfold Wire.onChip Chip.withSPI; rw [if_neg (by rw [hs]; simp)]
    rw [this]
    exact r_powered_off hi hs hk (h _ (Or.inr rfl) rfl) hi hk2

theorem r_atomic {α : Type} {p : BusP α} {m m2 : Wire} {r : α} (hk : Kq q m.ie m.s.chip)
    (h : Runs q p { m with ie := false } r m2) (hk2 : Kq q m2.ie m2.s.chip) :
    Runs q (atomic p) m r { m2 with ie := m.ie } := by
  refine Runs.bind (r := m.ie) (m' := { m with ie := false }) (Runs.prim hk fun t => rfl) (Runs.bind h ?_)
  exact Runs.bind (r := ()) (Runs.prim hk2 fun t => rfl) (Runs.pure _ _)

theorem r_load {α : Type} {f : Rfm → α} {m : Wire} (hk : Kq q m.ie m.s.chip) : Runs q (load f) m (f m.s) m :=
  Runs.prim hk fun _ => rfl

theorem r_store {f : Rfm → Rfm} {m : Wire} (hk : Kq q m.ie m.s.chip) : Runs q (store f) m () { m with s := f m.s } :=
  Runs.prim hk fun _ => rfl

/-! ## Routines -/

/-- The part of `standby` after the radio has been put in standby. -/
def standbyRest : BusP Unit := do writeReg 8 3; writeReg 8 0; writeReg16 5; clearInts

theorem r_standbyRest {m : Wire} (hi : m.Idle) (hie : m.ie = false) (hk : Kq q false m.s.chip) :
    Runs q standbyRest m () (m.onChip fun c => ((((c.wr 8 3).wr 8 0).wr 5 0).wr 6 0).clrInt) := by
  obtain ⟨s, junk, ph, ie, ju, t⟩ := m
  obtain ⟨rfl, rfl⟩ : ph = .idle ∧ ju = 0 := hi
  obtain rfl : ie = false := hie
  have k1 := hk.wr 8 3 (by omega)
  have k2 := k1.wr 8 0 (by omega)
  have k3 := k2.wr 5 0 (by omega)
  have k4 := k3.wr 6 0 (by omega)
  refine Runs.bind (r_writeReg ⟨rfl, rfl⟩ 8 (by omega) 3 (by exact hk) (by exact k1)) ?_
  refine Runs.bind (r_writeReg ⟨rfl, rfl⟩ 8 (by omega) 0 (by exact k1) (by exact k2)) ?_
  refine Runs.bind (r_writeReg16 ⟨rfl, rfl⟩ 5 (by omega) (by exact k2) (by exact k3) (by exact k4)) ?_
  exact r_clearInts ⟨rfl, rfl⟩ (by exact k4) (by exact k4.low rfl) (by exact k4.low rfl)

theorem r_standby {m : Wire} (hi : m.Idle) : Runs false standby m () (m.onChip Chip.standbyClear) := by
  obtain ⟨s, junk, ph, ie, ju, t⟩ := m
  obtain ⟨rfl, rfl⟩ : ph = .idle ∧ ju = 0 := hi
  refine r_atomic (m := ⟨s, junk, .idle, ie, 0, t⟩) (m2 := (⟨s, junk, .idle, false, 0, t⟩ : Wire).onChip Chip.standbyClear)
    (Kq.none _ _) ?_ (Kq.none _ _)
  refine r_powered ⟨rfl, rfl⟩ (Kq.none _ _) (fun x hx _ => ?_) (Kq.none _ _)
  have hxi : x.Idle := by rcases hx with rfl | rfl <;> exact ⟨rfl, rfl⟩
  have hxe : x.ie = false := by rcases hx with rfl | rfl <;> rfl
  exact Runs.bind (r_writeReg hxi 7 (by omega) 0 (Kq.none _ _) (Kq.none _ _)) (r_standbyRest hxi hxe (Kq.none _ _))

/-- Addresses of a table below the FIFO's. -/
def TableAddr (l : List (Nat × Byte)) : Prop := ∀ p ∈ l, p.1 < 127

theorem r_regLoop (l : List (Nat × Byte)) (hl : TableAddr l) (hs : q = true → SaneTable l) : ∀ {m : Wire}, m.Idle → m.ie = false →
    Kq q false m.s.chip → Runs q (regLoop l) m () (m.onChip fun c => l.foldl (fun c p => c.wr p.1 p.2) c) ∧
      Kq q false (l.foldl (fun c p => c.wr p.1 p.2) m.s.chip) := by
  induction l with
  | nil => intro m _ _ hk; exact ⟨Runs.pure _ _, hk⟩
  | cons p l ih =>
    intro m hi hie hk
    have k1 : Kq q false (m.s.chip.wr p.1 p.2) := hk.wr p.1 p.2 fun hq h7 => (hs hq p (by simp)).1 h7
    obtain ⟨a, b⟩ := ih (fun x hx => hl x (by simp [hx])) (fun hq x hx => hs hq x (by simp [hx]))
      (m := m.onChip fun c => c.wr p.1 p.2) hi hie k1
    refine ⟨Runs.bind (r_writeReg hi p.1 (hl p (by simp)) p.2 (by rw [hie]; exact hk) (by rw [hie]; exact k1)) a, b⟩

theorem r_regBlock (l : List (Nat × Byte)) (hl : TableAddr l) (hs : q = true → SaneTable l) {m : Wire} (hi : m.Idle)
    (hk : Kq q m.ie m.s.chip) : Runs q (regBlock l) m () (m.onChip (Chip.regBlock l)) := by
  obtain ⟨s, junk, ph, ie, ju, t⟩ := m
  obtain ⟨rfl, rfl⟩ : ph = .idle ∧ ju = 0 := hi
  have key : ∀ c : Chip, Kq q false c → Kq q false (l.foldl (fun c p => c.wr p.1 p.2) c) := fun c hc =>
    (r_regLoop l hl hs (m := ⟨{ s with chip := c }, junk, .idle, false, 0, t⟩) ⟨rfl, rfl⟩ rfl hc).2
  have k2 : Kq q false (Chip.regBlock l s.chip) := by
    unfold Chip.regBlock Chip.withSPI
    split
    · exact key _ hk.cli
    · exact (key _ (Kq.spi (b := false) hk.cli true)).spi false
  refine r_atomic (m := ⟨s, junk, .idle, ie, 0, t⟩) (m2 := (⟨s, junk, .idle, false, 0, t⟩ : Wire).onChip (Chip.regBlock l))
    (by exact hk) ?_ (by exact k2)
  refine r_powered ⟨rfl, rfl⟩ (by exact hk.cli) (fun x hx _ => ?_) (by exact key _ (Kq.spi (b := false) hk.cli true))
  rcases hx with rfl | rfl
  · exact (r_regLoop l hl hs ⟨rfl, rfl⟩ rfl (by exact hk.cli)).1
  · exact (r_regLoop l hl hs ⟨rfl, rfl⟩ rfl (by exact hk.cli)).1

theorem r_setChannel {cfg : RfmCfg} (ch : Nat) (hl : ch < cfg.nCh → TableAddr (cfg.regs ch)) (hs : q = true → ch < cfg.nCh → SaneTable (cfg.regs ch))
    {m : Wire} (hi : m.Idle) (hk : Kq q m.ie m.s.chip) (hk2 : Kq q m.ie (m.s.setChannel cfg ch).chip) :
    Runs q (setChannel cfg ch) m () { m with s := m.s.setChannel cfg ch } := by
  refine Runs.bind (r_load hk) ?_
  unfold Rfm.setChannel at hk2 ⊢
  by_cases h1 : m.s.cur = ch
  · rw [if_pos h1, if_pos h1]; exact Runs.pure _ _
  · rw [if_neg h1] at hk2
    rw [if_neg h1, if_neg h1]
    by_cases h2 : ch ≥ cfg.nCh
    · rw [if_pos h2, if_pos h2]; exact Runs.pure _ _
    · rw [if_neg h2] at hk2
      rw [if_neg h2, if_neg h2]
      exact Runs.bind (r_regBlock _ (hl (by omega)) (fun hq => hs hq (by omega)) hi hk) (r_store (by exact hk2))

/-! ## The FIFOs -/

/-- Bytes pushed one by one. -/
theorem wrLoop_eq (buf : Bytes) : ∀ c : Chip, c.acc = c → c.tx.length ≤ 64 →
    buf.foldl (fun c b => c.wrB 0x7f b) c =
      { c with tx := (c.tx ++ buf).take 64, st1 := if (c.tx ++ buf).length > 64 then c.st1 ||| 0x80 else c.st1 } := by
  induction buf with
  | nil =>
    intro c _ hl
    rw [List.append_nil, List.take_of_length_le hl, if_neg (by omega)]; rfl
  | cons b l ih =>
    intro c hacc hl
    have e1 : c.wrB 0x7f b = { c with tx := (c.tx ++ [b]).take 64, st1 := if (c.tx ++ [b]).length > 64 then c.st1 ||| 0x80 else c.st1 } := by
      unfold Chip.wrB; rw [if_pos rfl, hacc]
    rw [List.foldl_cons, e1, ih _ (by
      unfold Chip.acc at hacc ⊢
      have := congrArg Chip.fault hacc
      dsimp only at this ⊢
      rw [this]) (by dsimp only; rw [List.length_take]; omega)]
    dsimp only
    have e2 : ((c.tx ++ [b]).take 64 ++ l).take 64 = (c.tx ++ b :: l).take 64 := by
      by_cases h : c.tx.length < 64
      · rw [List.take_of_length_le (l := c.tx ++ [b]) (by rw [List.length_append]; simp; omega), List.append_assoc]; rfl
      · have h64 : c.tx.length = 64 := by omega
        have e3 : (c.tx ++ [b]).take 64 = c.tx := by
          rw [List.take_append_of_le_length (by omega), List.take_of_length_le (by omega)]
        rw [e3, List.take_append_of_le_length (by omega), List.take_append_of_le_length (by omega)]
    rw [e2]
    have o : ∀ x : Byte, x ||| 0x80 ||| 0x80 = x ||| 0x80 := by apply forall_byte; decide +kernel
    have : (if ((c.tx ++ [b]).take 64 ++ l).length > 64 then (if (c.tx ++ [b]).length > 64 then c.st1 ||| 0x80 else c.st1) ||| 0x80
        else if (c.tx ++ [b]).length > 64 then c.st1 ||| 0x80 else c.st1) = if (c.tx ++ b :: l).length > 64 then c.st1 ||| 0x80 else c.st1 := by
      simp only [List.length_append, List.length_take, List.length_cons, List.length_nil]
      by_cases h1 : c.tx.length + (0 + 1) > 64
      · rw [if_pos h1, if_pos (show c.tx.length + (l.length + 1) > 64 by omega), o, ite_self]
      · rw [if_neg h1, Nat.min_eq_right (by omega)]
        by_cases h2 : c.tx.length + (0 + 1) + l.length > 64
        · rw [if_pos h2, if_pos (by omega)]
        · rw [if_neg h2, if_neg (by omega)]
    rw [this]

theorem wrB_reg (c : Chip) (b : Byte) : (c.wrB 0x7f b).reg = c.reg := by unfold Chip.wrB; rw [if_pos rfl]; rfl

theorem r_wrLoop (buf : Bytes) : ∀ {m : Wire}, m.ph = .data true 0x7f → m.ie = false → Kq q false m.s.chip →
    Runs q (wrLoop buf) m () (m.onChip fun c => buf.foldl (fun c b => c.wrB 0x7f b) c) ∧
      Kq q false (buf.foldl (fun c b => c.wrB 0x7f b) m.s.chip) := by
  induction buf with
  | nil => intro m _ _ hk; exact ⟨Runs.pure _ _, hk⟩
  | cons b l ih =>
    intro m hp hie hk
    have k1 : Kq q false (m.s.chip.wrB 0x7f b) := hk.low (by rw [wrB_reg])
    obtain ⟨x, y⟩ := ih (m := { m.onChip (fun c => c.wrB 0x7f b) with ph := .data true (nextA 0x7f) }) rfl hie k1
    have e : ∀ (f : Chip → Chip), ({ m.onChip (fun c => c.wrB 0x7f b) with ph := .data true (nextA 0x7f) } : Wire).onChip f =
        m.onChip (fun c => f (c.wrB 0x7f b)) := by
      intro f
      obtain ⟨s, junk, ph, ie, ju, t⟩ := m
      obtain rfl : ph = .data true 0x7f := hp
      rfl
    rw [e] at x
    exact ⟨Runs.bind (r_put hp (by rw [hie]; exact hk) b) x, y⟩

/-- The chip after `_queueFrameInTXFIFO` with the SPI hardware on. -/
def queueG (buf : Bytes) (c : Chip) : Chip :=
  let c := ((c.wr 8 1).wr 8 0).acc
  { c with tx := (c.tx ++ buf).take 64, st1 := if (c.tx ++ buf).length > 64 then c.st1 ||| 0x80 else c.st1 }

theorem r_queueBody (buf : Bytes) {m : Wire} (hi : m.Idle) (hie : m.ie = false) (hk : Kq q false m.s.chip) :
    Runs q (do
      writeReg 8 1; writeReg 8 0
      sel; let _ ← xfer (u8 0x7f ||| 0x80); wrLoop buf; desel) m () (m.onChip (queueG buf)) := by
  obtain ⟨s, junk, ph, ie, ju, t⟩ := m
  obtain ⟨rfl, rfl⟩ : ph = .idle ∧ ju = 0 := hi
  obtain rfl : ie = false := hie
  have k1 := hk.wr 8 1 (by omega)
  have k2 := k1.wr 8 0 (by omega)
  refine Runs.bind (r_writeReg ⟨rfl, rfl⟩ 8 (by omega) 1 (by exact hk) (by exact k1)) ?_
  refine Runs.bind (r_writeReg ⟨rfl, rfl⟩ 8 (by omega) 0 (by exact k1) (by exact k2)) ?_
  refine Runs.bind (r_sel ⟨rfl, rfl⟩ (by exact k2)) ?_
  refine Runs.bind (r_addrW rfl (by exact k2) 0x7f (by omega)) ?_
  have ht : ((s.chip.wr 8 1).wr 8 0).tx = [] := by
    simp [Chip.wr, Chip.acc]
  obtain ⟨a, b⟩ := r_wrLoop (q := q) buf (m := ⟨{ s with chip := ((s.chip.wr 8 1).wr 8 0).acc }, junk, .data true 0x7f, false, 0, t⟩) rfl rfl k2
  refine Runs.bind (by exact a) ?_
  have e := wrLoop_eq buf ((s.chip.wr 8 1).wr 8 0).acc (acc_acc _) (by show ((s.chip.wr 8 1).wr 8 0).tx.length ≤ 64; rw [ht]; simp)
  simp only [Wire.onChip, queueG] at b ⊢
  rw [e] at b ⊢
  exact r_desel (by exact b)

theorem r_queueFrame (buf : Bytes) {m : Wire} (hi : m.Idle) (hk : Kq q m.ie m.s.chip) :
    Runs q (queueFrame buf) m () (m.onChip (Chip.queueFrame buf)) := by
  obtain ⟨s, junk, ph, ie, ju, t⟩ := m
  obtain ⟨rfl, rfl⟩ : ph = .idle ∧ ju = 0 := hi
  have e7 : ∀ c : Chip, (queueG buf c).reg 7 = c.reg 7 := fun c => by simp [queueG, Chip.wr, Chip.acc]
  have e7' : (Chip.queueFrame buf s.chip).reg 7 = s.chip.reg 7 := by
    show (Chip.withSPI (queueG buf) s.chip).reg 7 = _
    unfold Chip.withSPI
    split
    · exact e7 _
    · exact e7 _
  refine r_atomic (m := ⟨s, junk, .idle, ie, 0, t⟩) (m2 := (⟨s, junk, .idle, false, 0, t⟩ : Wire).onChip (Chip.queueFrame buf))
    (by exact hk) ?_ (by exact Kq.low hk.cli e7')
  refine r_powered (g := queueG buf) ⟨rfl, rfl⟩ (by exact hk.cli) (fun x hx _ => ?_) (by exact Kq.low (hk.cli.spi true) (e7 _))
  rcases hx with rfl | rfl
  · exact r_queueBody buf ⟨rfl, rfl⟩ rfl (by exact hk.cli)
  · exact r_queueBody buf ⟨rfl, rfl⟩ rfl (by exact hk.cli)

end Spi
end OTR
