import Verif.Proof.SPIBus3
/-! # Lemmas: the receive routine of the byte-level RFM23B link with radio events at any step -/

namespace OTR

theorem byte_48 : ∀ b : Byte, b &&& 4 = 0 → b &&& 8 = 0 → b &&& 0x0c = 0 := by apply forall_byte; decide +kernel

theorem airs_off (l : List Air) : ∀ (c : Chip), c.reg 7 &&& 4 = 0 → c.airs l = c := by
  induction l with
  | nil => intro c _; rfl
  | cons e l ih => intro c h; show (c.air1 e).airs l = c; rw [air1_off c e h]; exact ih c h

theorem air1_reg (c : Chip) (e : Air) (x : Nat) (h7 : x ≠ 7) (h4 : x ≠ 0x4b) : (c.air1 e).reg x = c.reg x := by
  cases e <;> simp only [Chip.air1] <;> split <;> try rfl
  simp [h7, h4]
theorem airs_reg (l : List Air) : ∀ (c : Chip) (x : Nat), x ≠ 7 → x ≠ 0x4b → (c.airs l).reg x = c.reg x := by
  induction l with
  | nil => intro c x _ _; rfl
  | cons e l ih => intro c x h7 h4; exact (ih (c.air1 e) x h7 h4).trans (air1_reg c e x h7 h4)
theorem airs_flags (l : List Air) : ∀ (c : Chip), (c.airs l).fault = c.fault ∧ (c.airs l).spi = c.spi := by
  induction l with
  | nil => intro c; exact ⟨rfl, rfl⟩
  | cons e l ih => intro c; exact ⟨(ih (c.air1 e)).1.trans (air1_flags c e).1, (ih (c.air1 e)).2.trans (air1_flags c e).2⟩

/-- All events of a list satisfy `A`. -/
abbrev AL (A : Air → Prop) (l : List Air) : Prop := ∀ e ∈ l, A e

theorem AL.append {A : Air → Prop} {l1 l2 : List Air} (h1 : AL A l1) (h2 : AL A l2) : AL A (l1 ++ l2) := by
  intro e he
  rcases List.mem_append.1 he with he | he
  · exact h1 e he
  · exact h2 e he

theorem AL.nil {A : Air → Prop} : AL A [] := by intro e h; cases h

/-- The link after radio events. -/
def Rfm.aired (s : Rfm) (l : List Air) : Rfm := { s with chip := s.chip.airs l }

/-! ## Steps in the regime of radio events -/

section
variable {A : Air → Prop} {h : Wire → Wire}

theorem Fm.list {m x : Wire} (hx : Fm (FAir A) m x) : ∃ l, AL A l ∧ At { m with s := m.s.aired l } x := by
  obtain ⟨f, ⟨l, hl, rfl⟩, t, rfl⟩ := hx
  exact ⟨l, hl, t, rfl⟩

theorem Fm.ofList {m x : Wire} {l : List Air} (hl : AL A l) (hx : At { m with s := m.s.aired l } x) : Fm (FAir A) m x := by
  obtain ⟨t, rfl⟩ := hx
  exact ⟨_, ⟨l, hl, rfl⟩, t, rfl⟩

theorem Fm.off {m x : Wire} (h7 : m.s.chip.reg 7 &&& 4 = 0) (hx : Fm (FAir A) m x) : At m x := by
  obtain ⟨l, -, t, rfl⟩ := hx.list
  refine ⟨t, ?_⟩
  unfold Rfm.aired; rw [airs_off l _ h7]

/-- A routine run with the radio off. -/
theorem Ex.runsF (g : Rgm (FAir A) KAir h) (ht : Triv true h) {α : Type} {p : BusP α} {m m' : Wire} {r : α} (h7 : m.s.chip.reg 7 &&& 4 = 0)
    (hr : Runs true p m r m') : Ex h p (Fm (FAir A) m) (fun r' x => r' = r ∧ Fm (FAir A) m' x) := by
  intro x hx
  obtain ⟨e, hx'⟩ := Ex.runs ht hr x (hx.off h7)
  exact ⟨e, Fm.at g hx'⟩

namespace Spi

theorem kq_off {c : Chip} (h4 : c.reg 7 &&& 4 = 0) (h8 : c.reg 7 &&& 8 = 0) : Kq true false c := fun _ => ⟨byte_48 _ h4 h8, Or.inl rfl⟩

theorem g_store (g : Rgm (FAir A) KAir h) {m : Wire} (hk : KAir m.ie m.s.chip) (f : Rfm → Rfm)
    (hf : ∀ l, f (m.s.aired l) = (f m.s).aired l) :
    Ex h (store f) (Fm (FAir A) m) (fun r x => r = () ∧ Fm (FAir A) { m with s := f m.s } x) := by
  refine g.prim hk ?_
  rintro _ ⟨l, -, rfl⟩ t
  simp only [Wire.tm, Wire.onChip]
  have : f { m.s with chip := m.s.chip.airs l } = { f m.s with chip := (f m.s).chip.airs l } := hf l
  rw [this]

theorem g_loadv (g : Rgm (FAir A) KAir h) {m : Wire} (hk : KAir m.ie m.s.chip) {α : Type} (f : Rfm → α)
    (hf : ∀ l, f (m.s.aired l) = f m.s) :
    Ex h (load f) (Fm (FAir A) m) (fun r x => r = f m.s ∧ Fm (FAir A) m x) := by
  refine g.prim hk ?_
  rintro _ ⟨l, -, rfl⟩ t
  have : f { m.s with chip := m.s.chip.airs l } = f m.s := hf l
  show (f { m.s with chip := m.s.chip.airs l }, _) = _
  rw [this]

/-- A routine between power-up and power-down of the SPI; `P` is what is known of the parameter of the outcome. -/
theorem g_powered (g : Rgm (FAir A) KAir h) {α Y : Type} {P : Y → Prop} {R : Y → α} {S : Y → Rfm} {p : BusP α} {m : Wire} (hi : m.Idle)
    (hk : KAir m.ie m.s.chip)
    (hb : Ex h p (Fm (FAir A) (m.onChip fun c => { c with spi := true })) (fun r x => ∃ y, P y ∧ r = R y ∧ Fm (FAir A) { m with s := S y } x))
    (hS : ∀ y, P y → (S y).chip.spi = true ∧ (S y).chip.reg 7 &&& 8 = 0) :
    Ex h (powered p) (Fm (FAir A) m) (fun r x => ∃ y, P y ∧ r = R y ∧
      Fm (FAir A) { m with s := { S y with chip := { (S y).chip with spi := m.s.chip.spi } } } x) := by
  obtain ⟨s, junk, ph, ie, ju, t⟩ := m
  obtain ⟨rfl, rfl⟩ : ph = .idle ∧ ju = 0 := hi
  cases hs : s.chip.spi with
  | false =>
    refine g.bind (g_up g ⟨rfl, rfl⟩ hs hk) ?_
    refine Ex.bind hb fun r => ?_
    refine Ex.exists fun y => Ex.and fun hy => Ex.and fun hr => ?_
    rw [if_pos rfl]
    refine g.bind (g_down g (m := ⟨S y, junk, .idle, ie, 0, t⟩) ⟨rfl, rfl⟩ ⟨hk.1, (hS y hy).2⟩) ?_
    exact Ex.pure fun x hx => ⟨y, hy, hr, hx⟩
  | true =>
    have e1 : ({ s.chip with spi := true } : Chip) = s.chip := by rw [← hs]
    refine g.bind (r := false) (m' := ⟨s, junk, .idle, ie, 0, t⟩) (g.prim hk ?_) ?_
    · rintro f ⟨l, hl, rfl⟩ t'
      show (if (s.chip.airs l).spi = true then _ else _) = _
      rw [if_pos ((airs_flags l s.chip).2.trans hs)]
    have hb : Ex h p (Fm (FAir A) ⟨s, junk, .idle, ie, 0, t⟩) (fun r x => ∃ y, P y ∧ r = R y ∧ Fm (FAir A) ⟨S y, junk, .idle, ie, 0, t⟩ x) := by
      have := hb
      unfold Wire.onChip at this
      dsimp only at this
      rw [e1] at this
      exact this
    refine Ex.bind hb fun r => ?_
    refine Ex.exists fun y => Ex.and fun hy => Ex.and fun hr => ?_
    rw [if_neg (by simp)]
    refine Ex.pure fun x hx => ⟨y, hy, hr, ?_⟩
    show Fm (FAir A) ⟨{ S y with chip := { (S y).chip with spi := true } }, junk, .idle, ie, 0, t⟩ x
    have e2 : ({ (S y).chip with spi := true } : Chip) = (S y).chip := by rw [← (hS y hy).1]
    rw [e2]; exact hx

/-- An atomic block with interrupts off already. -/
theorem g_atomic (g : Rgm (FAir A) KAir h) {α Y : Type} {P : Y → Prop} {R : Y → α} {S : Y → Rfm} {p : BusP α} {m : Wire}
    (hk : KAir m.ie m.s.chip)
    (hb : Ex h p (Fm (FAir A) m) (fun r x => ∃ y, P y ∧ r = R y ∧ Fm (FAir A) { m with s := S y } x))
    (hS : ∀ y, P y → (S y).chip.reg 7 &&& 8 = 0) :
    Ex h (atomic p) (Fm (FAir A) m) (fun r x => ∃ y, P y ∧ r = R y ∧ Fm (FAir A) { m with s := S y } x) := by
  obtain ⟨s, junk, ph, ie, ju, t⟩ := m
  obtain rfl : ie = false := hk.1
  refine g.bind (g_cli g hk) ?_
  refine Ex.bind hb fun r => ?_
  refine Ex.exists fun y => Ex.and fun hy => Ex.and fun hr => ?_
  refine g.bind (g_sei g (m := ⟨S y, junk, ph, false, ju, t⟩) ⟨rfl, hS y hy⟩ false) ?_
  exact Ex.pure fun x hx => ⟨y, hy, hr, hx⟩

/-- Writing 0 to register 7: after some last events the radio is off. -/
theorem g_off (g : Rgm (FAir A) KAir h) {m : Wire} (hi : m.Idle) (hk : KAir m.ie m.s.chip) :
    Ex h (writeReg 7 0) (Fm (FAir A) m) (fun _ x => ∃ l, AL A l ∧ Fm (FAir A) (m.onChip fun c => (c.airs l).wr 7 0) x) := by
  obtain ⟨s, junk, ph, ie, ju, t⟩ := m
  obtain ⟨rfl, rfl⟩ : ph = .idle ∧ ju = 0 := hi
  refine g.bind (g_sel g ⟨rfl, rfl⟩ (by exact hk)) ?_
  refine g.bind (g_addrW (m := ⟨s, junk, .addr, ie, 0, t⟩) g rfl (by exact hk) 7 (by omega)) ?_
  refine Ex.bind (Q := fun _ x => ∃ l, AL A l ∧ At ⟨{ s with chip := (s.chip.airs l).wr 7 0 }, junk, .data true 8, ie, 0, t⟩ x)
    (g.step (by exact g.kacc hk) ?_) fun r => ?_
  · rintro _ ⟨l, hl, rfl⟩ t'
    refine ⟨l, hl, t', ?_⟩
    show ({ s := { s with chip := (s.chip.acc.airs l).wrB 7 0 }, junk := junk, ph := .data true (nextA 7), ie := ie, ju := 0, t := t' } : Wire) = _
    rw [airs_acc, acc_wrB _ _ (by omega)]
    rfl
  · refine Ex.exists fun l => Ex.and fun hl => ?_
    have k2 : KAir ie ((s.chip.airs l).wr 7 0) := ⟨hk.1, by simp [Chip.wr]⟩
    refine Ex.pre (S := Fm (FAir A) ⟨{ s with chip := (s.chip.airs l).wr 7 0 }, junk, .data true 8, ie, 0, t⟩) ?_ fun x hx => Fm.at g hx
    exact Ex.post (g_desel (m := ⟨{ s with chip := (s.chip.airs l).wr 7 0 }, junk, .data true 8, ie, 0, t⟩) g (by exact k2)) fun _ x hx => ⟨l, hl, hx.2⟩

theorem standby_on (c : Chip) (hs : c.spi = true) : (((((c.wr 7 0).wr 8 3).wr 8 0).wr 5 0).wr 6 0).clrInt = c.standbyClear := by
  unfold Chip.standbyClear Chip.withSPI; rw [if_pos hs]

theorem standby_spi (c : Chip) (b b' : Bool) (_ : c.spi = b') :
    ({ (Chip.standbyClear { c with spi := b }) with spi := b' } : Chip) = { c.standbyClear with spi := b' } := by
  rw [standbyClear_eq, standbyClear_eq]

theorem standby_off7 (c : Chip) : c.standbyClear.reg 7 = 0 := by rw [standbyClear_eq]; simp
theorem standby_spi0 (c : Chip) : c.standbyClear.spi = c.spi := by rw [standbyClear_eq]

/-- `standby` in the interrupt routine. -/
theorem i_standby (g : Rgm (FAir A) KAir h) (ht : Triv true h) {m : Wire} (hi : m.Idle) (hk : KAir m.ie m.s.chip) :
    Ex h standby (Fm (FAir A) m) (fun _ x => ∃ l, AL A l ∧ Fm (FAir A) { m with s := { m.s with chip := (m.s.chip.airs l).standbyClear } } x) := by
  refine Ex.post (g_atomic g (P := AL A) (R := fun _ => ()) (S := fun l => { m.s with chip := (m.s.chip.airs l).standbyClear }) hk ?_ ?_) ?_
  · refine Ex.post (g_powered g (P := AL A) (R := fun _ => ()) (S := fun l => { m.s with chip := Chip.standbyClear { m.s.chip.airs l with spi := true } }) hi hk ?_ ?_) ?_
    · obtain ⟨s, junk, ph, ie, ju, t⟩ := m
      obtain ⟨rfl, rfl⟩ : ph = .idle ∧ ju = 0 := hi
      obtain rfl : ie = false := hk.1
      refine Ex.bind (g_off g (m := ⟨{ s with chip := { s.chip with spi := true } }, junk, .idle, false, 0, t⟩) ⟨rfl, rfl⟩ ⟨rfl, hk.2⟩) fun _ => ?_
      refine Ex.exists fun l => Ex.and fun hl => ?_
      have h7 : ((({ s.chip with spi := true } : Chip).airs l).wr 7 0).reg 7 = 0 := rfl
      refine Ex.post (Ex.runsF g ht (m := ⟨{ s with chip := (({ s.chip with spi := true } : Chip).airs l).wr 7 0 }, junk, .idle, false, 0, t⟩)
        (by rw [show _ = (0 : Byte) from h7]; decide) (r_standbyRest ⟨rfl, rfl⟩ rfl (kq_off (by rw [show _ = (0 : Byte) from h7]; decide) (by rw [show _ = (0 : Byte) from h7]; decide)))) ?_
      rintro r x ⟨-, hx⟩
      refine ⟨l, hl, rfl, ?_⟩
      unfold Wire.onChip at hx
      dsimp only at hx
      rw [standby_on _ ((airs_flags l _).2), airs_spi] at hx
      exact hx
    · intro l hl
      exact ⟨by rw [standby_spi0], by dsimp only; rw [standby_off7]; decide⟩
    · rintro r x ⟨l, hl, -, hx⟩
      refine ⟨l, hl, rfl, ?_⟩
      dsimp only at hx ⊢
      have e := standby_spi (m.s.chip.airs l) true _ (airs_flags l m.s.chip).2
      rw [e] at hx
      rw [show ({ (m.s.chip.airs l).standbyClear with spi := m.s.chip.spi } : Chip) = (m.s.chip.airs l).standbyClear by
        rw [← (airs_flags l m.s.chip).2, ← standby_spi0]] at hx
      exact hx
  · intro l hl
    dsimp only; rw [standby_off7]; decide
  · rintro r x ⟨l, hl, -, hx⟩
    exact ⟨l, hl, hx⟩

theorem withSPI_form (f : Chip → Chip) (hf : ∀ c, (f c).spi = c.spi) (c : Chip) :
    c.withSPI f = { f { c with spi := true } with spi := c.spi } := by
  unfold Chip.withSPI
  cases hs : c.spi with
  | true =>
    rw [if_pos rfl]
    have e : ({ c with spi := true } : Chip) = c := by rw [← hs]
    rw [e]
    have := hf c
    rw [hs] at this
    rw [← this]
  | false => rw [if_neg (by simp)]

/-- Writing 5 to register 7 turns the radio on. -/
theorem g_on (g : Rgm (FAir A) KAir h) (ht : Triv true h) {m : Wire} (hi : m.Idle) (hie : m.ie = false) (hk : Kq true false m.s.chip) :
    Ex h (writeReg 7 5) (Fm (FAir A) m) (fun _ x => Fm (FAir A) (m.onChip fun c => c.wr 7 5) x) := by
  obtain ⟨s, junk, ph, ie, ju, t⟩ := m
  obtain ⟨rfl, rfl⟩ : ph = .idle ∧ ju = 0 := hi
  obtain rfl : ie = false := hie
  have h7 := byte_c4 _ (hk rfl).1
  have e7 : s.chip.acc.wrB 7 5 = s.chip.wr 7 5 := acc_wrB _ _ (by omega) _
  refine Ex.pre (S := At ⟨s, junk, .idle, false, 0, t⟩) ?_ (fun x hx => hx.off h7)
  refine Ex.runsBind ht (r_sel ⟨rfl, rfl⟩ (by exact hk)) ?_
  refine Ex.runsBind ht (r_addrW rfl (by exact hk) 7 (by omega)) ?_
  refine Ex.runsBind ht (r_put rfl (by exact hk) 5) ?_
  refine Ex.pre (S := Fm (FAir A) ⟨{ s with chip := s.chip.wr 7 5 }, junk, .data true 8, false, 0, t⟩) ?_
    (fun x hx => Fm.at g (by rw [← e7]; exact hx))
  exact Ex.post (g_desel (m := ⟨{ s with chip := s.chip.wr 7 5 }, junk, .data true 8, false, 0, t⟩) g
    ⟨rfl, by show (if 7 = 7 then (5 : Byte) else _) &&& 8 = 0; rw [if_pos rfl]; decide⟩) fun _ x hx => hx.2

theorem startG_spi (f : Byte) (c : Chip) : ((startG f c).wr 7 5).spi = c.spi := by
  show (startG f c).spi = c.spi
  unfold startG Chip.enableIRQ
  dsimp only
  (repeat' split) <;> rfl

/-- `startRX` in the interrupt routine. -/
theorem i_startRX (g : Rgm (FAir A) KAir h) (ht : Triv true h) {m : Wire} (hi : m.Idle) (hie : m.ie = false) (hk : Kq true false m.s.chip) :
    Ex h startRX (Fm (FAir A) m) (fun _ x => Fm (FAir A) (m.onChip fun c => c.startRX m.s.maxF) x) := by
  have k0 : KAir m.ie m.s.chip := ⟨hie, byte_c8 _ (hk rfl).1⟩
  have key : ∀ c : Chip, ((startG m.s.maxF c).wr 7 5).reg 7 &&& 8 = 0 := fun c => by
    show (if 7 = 7 then (5 : Byte) else _) &&& 8 = 0; rw [if_pos rfl]; decide
  have e : m.s.chip.startRX m.s.maxF = { (startG m.s.maxF { m.s.chip with spi := true }).wr 7 5 with spi := m.s.chip.spi } :=
    withSPI_form (fun c => (startG m.s.maxF c).wr 7 5) (startG_spi _) _
  refine Ex.post (g_atomic g (P := fun _ : Unit => True) (R := fun _ => ()) (S := fun _ => { m.s with chip := m.s.chip.startRX m.s.maxF }) k0 ?_ ?_) ?_
  · refine Ex.post (g_powered g (P := fun _ : Unit => True) (R := fun _ => ()) (S := fun _ => { m.s with chip := (startG m.s.maxF { m.s.chip with spi := true }).wr 7 5 }) hi k0 ?_ ?_) ?_
    · obtain ⟨s, junk, ph, ie, ju, t⟩ := m
      obtain ⟨rfl, rfl⟩ : ph = .idle ∧ ju = 0 := hi
      obtain rfl : ie = false := hie
      obtain ⟨rp, k3⟩ := r_startPre (q := true) (m := ⟨{ s with chip := { s.chip with spi := true } }, junk, .idle, false, 0, t⟩) ⟨rfl, rfl⟩ rfl (by exact hk)
      show Ex h (startPre >>= fun _ => writeReg 7 5) _ _
      refine g.bind (Ex.runsF g ht (m := ⟨{ s with chip := { s.chip with spi := true } }, junk, .idle, false, 0, t⟩) (by exact byte_c4 _ (hk rfl).1) rp) ?_
      exact Ex.post (g_on g ht (m := ⟨{ s with chip := startG s.maxF { s.chip with spi := true } }, junk, .idle, false, 0, t⟩) ⟨rfl, rfl⟩ rfl (by exact k3))
        fun _ x hx => ⟨(), trivial, rfl, hx⟩
    · intro _ _
      exact ⟨startG_spi m.s.maxF { m.s.chip with spi := true }, key { m.s.chip with spi := true }⟩
    · rintro r x ⟨y, -, -, hx⟩
      refine ⟨(), trivial, rfl, ?_⟩
      dsimp only at hx ⊢
      rw [e]; exact hx
  · intro _ _
    dsimp only
    rw [e]; exact key { m.s.chip with spi := true }
  · rintro r x ⟨y, -, -, hx⟩
    exact hx

/-- `_dolistenNonVirtual` in the interrupt routine. -/
theorem i_dolisten {cfg : RfmCfg} (hc : CfgOk cfg) (hl : CfgAddr cfg) (g : Rgm (FAir A) KAir h) (ht : Triv true h) {m : Wire} (hi : m.Idle)
    (hk : KAir m.ie m.s.chip) (hb : RBase cfg m.s) :
    Ex h (dolisten cfg) (Fm (FAir A) m) (fun _ x => ∃ l, AL A l ∧ Fm (FAir A) { m with s := (m.s.aired l).dolisten cfg } x) := by
  have hie := hk.1
  refine Ex.bind (i_standby g ht hi hk) fun _ => ?_
  refine Ex.exists fun l => Ex.and fun hal => ?_
  obtain ⟨s, junk, ph, ie, ju, t⟩ := m
  obtain ⟨rfl, rfl⟩ : ph = .idle ∧ ju = 0 := hi
  obtain rfl : ie = false := hie
  obtain ⟨c, cur, lc, maxF, dr, fi, er, qq, qb⟩ := s
  have h7 : (c.airs l).standbyClear.reg 7 = 0 := standby_off7 _
  have h8 : (c.airs l).standbyClear.reg 8 = 0 := by rw [standbyClear_eq]; rfl
  have kq : Kq true false (c.airs l).standbyClear := kq_off (by rw [h7]; decide) (by rw [h7]; decide)
  have none : ∀ x, Fm (FAir A) ⟨⟨(c.airs l).standbyClear, cur, lc, maxF, dr, fi, er, qq, qb⟩, junk, .idle, false, 0, t⟩ x → (cfg.allowRX = false ∨ lc = none) →
      ∃ l, AL A l ∧ Fm (FAir A) ⟨Rfm.dolisten cfg (Rfm.aired ⟨c, cur, lc, maxF, dr, fi, er, qq, qb⟩ l), junk, .idle, false, 0, t⟩ x := by
    intro x hx hh
    refine ⟨l, hal, ?_⟩
    rw [dolisten_off (s := Rfm.aired ⟨c, cur, lc, maxF, dr, fi, er, qq, qb⟩ l) hh]; exact hx
  by_cases ha : cfg.allowRX = false
  · rw [if_pos ha]
    exact Ex.pure fun x hx => none x hx (Or.inl ha)
  · rw [if_neg ha]
    refine g.bind (Ex.runsF g ht (by exact byte_c4 _ (kq rfl).1) (r_load (by exact kq))) ?_
    cases lc with
    | none => exact Ex.pure fun x hx => none x hx (Or.inr rfl)
    | some ch =>
      show Ex _ (setChannel cfg ch >>= fun _ => startRX) _ _
      have hb' : RBase cfg ⟨(c.airs l).standbyClear, cur, some ch, maxF, dr, fi, er, qq, qb⟩ := by
        refine ⟨hb.cur, holds_congr hb.holds fun x hx => ?_, hb.mx, hb.lc⟩
        rw [standby_owned _ x hx]
        simp only [rfmOwned, not_or] at hx
        exact airs_reg l c x (by simp [hx]) (by simp [hx])
      obtain ⟨r, k, e, -, -, -, -, -, h7'⟩ := setChannel_spec hc ⟨(c.airs l).standbyClear, cur, some ch, maxF, dr, fi, er, qq, qb⟩ ch h8 h7 hb'
      have kq2 : Kq true false (Rfm.setChannel cfg ⟨(c.airs l).standbyClear, cur, some ch, maxF, dr, fi, er, qq, qb⟩ ch).chip := by
        rw [e]; exact fun _ => ⟨h7', Or.inl rfl⟩
      refine g.bind (Ex.runsF g ht (by exact byte_c4 _ (kq rfl).1) (r_setChannel ch (hl ch) (fun _ => hc.tables ch) ⟨rfl, rfl⟩ (by exact kq) (by exact kq2))) ?_
      refine Ex.post (i_startRX g ht (m := ⟨Rfm.setChannel cfg ⟨(c.airs l).standbyClear, cur, some ch, maxF, dr, fi, er, qq, qb⟩ ch, junk, .idle, false, 0, t⟩)
        ⟨rfl, rfl⟩ rfl kq2) ?_
      intro _ x hx
      refine ⟨l, hal, ?_⟩
      dsimp only
      rw [dolisten_some (s := Rfm.aired ⟨c, cur, some ch, maxF, dr, fi, er, qq, qb⟩ l) ha rfl]
      exact hx

/-- The part of `_RXFIFO` after the radio has been turned off. -/
def rxRest (n : Nat) : BusP Bytes := do
  sel; let _ ← xfer (u8 0x7f &&& 0x7f); let r ← rdLoop n; desel
  writeReg 8 3; writeReg 8 0; writeReg 5 0; writeReg 6 0; clearInts
  pure r

theorem r_rxRest (n : Nat) {m : Wire} (hi : m.Idle) (hie : m.ie = false) (hs : m.s.chip.spi = true) (hk : Kq true false m.s.chip) :
    Runs true (rxRest n) m ((m.s.chip.rx ++ (List.range n).map m.junk).take n)
      (m.onChip fun c => (((((({ c with rx := c.rx.drop n } : Chip).wr 8 3).wr 8 0).wr 5 0).wr 6 0).clrInt)) := by
  obtain ⟨s, junk, ph, ie, ju, t⟩ := m
  obtain ⟨rfl, rfl⟩ : ph = .idle ∧ ju = 0 := hi
  obtain rfl : ie = false := hie
  have hs : s.chip.spi = true := hs
  have hk : Kq true false s.chip := hk
  have ho : (s.chip.rx ++ (List.range n).map junk).take n = rdOut junk n s.chip.rx 0 := by
    rw [rdOut_eq, ← List.range_eq_range']
  have ea : s.chip.acc = s.chip := by
    obtain ⟨c, cur, lc, maxF, dr, fi, er, qq, qb⟩ := s
    obtain ⟨rg, s1, s2, tx, rx, sp, fa, ai⟩ := c
    obtain rfl : sp = true := hs
    simp [Chip.acc]
  dsimp only
  rw [ho]
  refine Runs.bind (r_sel ⟨rfl, rfl⟩ (by exact hk)) ?_
  refine Runs.bind (r_addrR rfl (by exact hk) 0x7f (by omega)) ?_
  obtain ⟨j, h⟩ := r_rdLoop (q := true) n (m := ⟨{ s with chip := s.chip.acc }, junk, .data false 0x7f, false, 0, t⟩) rfl (acc_acc _) (by exact hk)
  dsimp only at h
  refine Runs.bind (by exact h) ?_
  refine Runs.bind (r_desel (by exact hk)) ?_
  simp only [Wire.onChip]
  rw [ea]
  have k0 : Kq true false ({ s.chip with rx := s.chip.rx.drop n } : Chip) := hk
  have k1 := k0.wr 8 3 (by omega)
  have k2 := k1.wr 8 0 (by omega)
  have k3 := k2.wr 5 0 (by omega)
  have k4 := k3.wr 6 0 (by omega)
  refine Runs.bind (r_writeReg ⟨rfl, rfl⟩ 8 (by omega) 3 (by exact k0) (by exact k1)) ?_
  refine Runs.bind (r_writeReg ⟨rfl, rfl⟩ 8 (by omega) 0 (by exact k1) (by exact k2)) ?_
  refine Runs.bind (r_writeReg ⟨rfl, rfl⟩ 5 (by omega) 0 (by exact k2) (by exact k3)) ?_
  refine Runs.bind (r_writeReg ⟨rfl, rfl⟩ 6 (by omega) 0 (by exact k3) (by exact k4)) ?_
  refine Runs.bind (r_clearInts ⟨rfl, rfl⟩ (by exact k4) (by exact k4.low rfl) (by exact k4.low rfl)) ?_
  exact Runs.pure _ _

theorem acc_on {c : Chip} (hs : c.spi = true) : c.acc = c := by
  obtain ⟨rg, s1, s2, tx, rx, sp, fa, ai⟩ := c
  obtain rfl : sp = true := hs
  simp [Chip.acc]

theorem rxrest_on (n : Nat) (c : Chip) (hs : c.spi = true) :
    ((((({ c.wr 7 0 with rx := (c.wr 7 0).rx.drop n } : Chip).wr 8 3).wr 8 0).wr 5 0).wr 6 0).clrInt = c.standbyClear := by
  rw [← rxFifo_chip n (fun _ => 0)]
  unfold Chip.rxFifo Chip.withSPI
  dsimp only
  rw [if_pos hs, wr_acc]
  have e : (c.wr 7 0).rx = c.rx := by simp [Chip.wr]
  rw [e]

/-- `_RXFIFO` in the interrupt routine. -/
theorem i_rxFifo (n : Nat) (g : Rgm (FAir A) KAir h) (ht : Triv true h) {m : Wire} (hi : m.Idle) (hk : KAir m.ie m.s.chip) :
    Ex h (rxFifo n) (Fm (FAir A) m) (fun r x => ∃ l, AL A l ∧ r = ((m.s.chip.airs l).rxFifo n m.junk).1 ∧
      Fm (FAir A) { m with s := { m.s with chip := (m.s.chip.airs l).standbyClear } } x) := by
  show Ex h (atomic (powered (writeReg 7 0 >>= fun _ => rxRest n))) _ _
  refine g_atomic g (P := AL A) (R := fun l => ((m.s.chip.airs l).rxFifo n m.junk).1) (S := fun l => { m.s with chip := (m.s.chip.airs l).standbyClear }) hk ?_ ?_
  · refine Ex.post (g_powered g (P := AL A) (R := fun l => ((m.s.chip.airs l).rxFifo n m.junk).1) (S := fun l => { m.s with chip := Chip.standbyClear { m.s.chip.airs l with spi := true } }) hi hk ?_ ?_) ?_
    · obtain ⟨s, junk, ph, ie, ju, t⟩ := m
      obtain ⟨rfl, rfl⟩ : ph = .idle ∧ ju = 0 := hi
      obtain rfl : ie = false := hk.1
      refine Ex.bind (g_off g (m := ⟨{ s with chip := { s.chip with spi := true } }, junk, .idle, false, 0, t⟩) ⟨rfl, rfl⟩ ⟨rfl, hk.2⟩) fun _ => ?_
      refine Ex.exists fun l => Ex.and fun hl => ?_
      have h7 : ((({ s.chip with spi := true } : Chip).airs l).wr 7 0).reg 7 = 0 := rfl
      have hsp : ((({ s.chip with spi := true } : Chip).airs l).wr 7 0).spi = true := (airs_flags l { s.chip with spi := true }).2
      refine Ex.post (Ex.runsF g ht (m := ⟨{ s with chip := (({ s.chip with spi := true } : Chip).airs l).wr 7 0 }, junk, .idle, false, 0, t⟩)
        (by rw [show _ = (0 : Byte) from h7]; decide) (r_rxRest n ⟨rfl, rfl⟩ rfl hsp (kq_off (by rw [show _ = (0 : Byte) from h7]; decide) (by rw [show _ = (0 : Byte) from h7]; decide)))) ?_
      rintro r x ⟨hr, hx⟩
      refine ⟨l, hl, ?_, ?_⟩
      · rw [hr]
        have e : ((({ s.chip with spi := true } : Chip).airs l).wr 7 0).rx = (s.chip.airs l).rx := by
          rw [airs_spi]; simp [Chip.wr]
        show List.take n (((({ s.chip with spi := true } : Chip).airs l).wr 7 0).rx ++ _) = _
        rw [e]; rfl
      · unfold Wire.onChip at hx
        dsimp only at hx
        rw [rxrest_on n _ ((airs_flags l _).2), airs_spi] at hx
        exact hx
    · intro l hl
      exact ⟨by rw [standby_spi0], by dsimp only; rw [standby_off7]; decide⟩
    · rintro r x ⟨l, hl, hr, hx⟩
      refine ⟨l, hl, hr, ?_⟩
      dsimp only at hx ⊢
      have e := standby_spi (m.s.chip.airs l) true _ (airs_flags l m.s.chip).2
      rw [e] at hx
      rw [show ({ (m.s.chip.airs l).standbyClear with spi := m.s.chip.spi } : Chip) = (m.s.chip.airs l).standbyClear by
        rw [← (airs_flags l m.s.chip).2, ← standby_spi0]] at hx
      exact hx
  · intro l hl
    dsimp only; rw [standby_off7]; decide

/-- The decision of the receive filter, and the two stores after it. -/
def keepOf (cfg : RfmCfg) (r : Bytes) (len : Nat) : Bool × Nat := match cfg.filter with
  | none => (true, len)
  | some f => f r len
def stF (keep : Bool × Nat) (s : Rfm) : Rfm := if keep.1 = true then s else { s with filtered := (s.filtered + 1) % 256 }
def stQ (r : Bytes) (keep : Bool × Nat) (s : Rfm) : Rfm := match s.q.step (.isr r (if keep.1 = true then keep.2 else 0)) with
  | none => { s with qbad := true }
  | some (q, _) => { s with q := q }

/-- Taking a frame in the interrupt routine. -/
theorem i_take (cfg : RfmCfg) (len : Nat) (g : Rgm (FAir A) KAir h) (ht : Triv true h) {m : Wire} (hi : m.Idle) (hk : KAir m.ie m.s.chip) :
    Ex h (take cfg len) (Fm (FAir A) m) (fun _ x => ∃ l, AL A l ∧ Fm (FAir A) { m with s := (m.s.aired l).take cfg len m.junk } x) := by
  refine g.bind (g_loadv g hk (fun s => s.q.isFull) fun l => rfl) ?_
  have k2 : ∀ l, KAir m.ie (m.s.chip.airs l).standbyClear := fun l => ⟨hk.1, by rw [standby_off7]; decide⟩
  by_cases hf : len > 64 ∨ m.s.q.isFull = true
  · rw [if_pos hf]
    refine Ex.bind (i_rxFifo 1 g ht hi hk) fun r => ?_
    refine Ex.exists fun l => Ex.and fun hl => Ex.and fun _ => ?_
    refine Ex.post (g_store g (m := { m with s := { m.s with chip := (m.s.chip.airs l).standbyClear } }) (k2 l) _ fun l => rfl) ?_
    rintro _ x ⟨-, hx⟩
    refine ⟨l, hl, ?_⟩
    unfold Rfm.take
    rw [if_pos (by exact hf), rxFifo_chip]
    exact hx
  · rw [if_neg hf]
    refine Ex.bind (i_rxFifo 64 g ht hi hk) fun r => ?_
    refine Ex.exists fun l => Ex.and fun hl => Ex.and fun hr => ?_
    subst hr
    have et : (m.s.aired l).take cfg len m.junk = stQ ((m.s.chip.airs l).rxFifo 64 m.junk).1 (keepOf cfg ((m.s.chip.airs l).rxFifo 64 m.junk).1 len)
        (stF (keepOf cfg ((m.s.chip.airs l).rxFifo 64 m.junk).1 len) { m.s with chip := (m.s.chip.airs l).standbyClear }) := by
      rw [← rxFifo_chip 64 m.junk]
      unfold Rfm.take
      rw [if_neg (by exact hf)]
      unfold stQ stF keepOf
      dsimp only [Rfm.aired]
      cases cfg.filter <;> rfl
    show Ex h (store (stF (keepOf cfg ((m.s.chip.airs l).rxFifo 64 m.junk).1 len)) >>= fun _ =>
      store (stQ ((m.s.chip.airs l).rxFifo 64 m.junk).1 (keepOf cfg ((m.s.chip.airs l).rxFifo 64 m.junk).1 len))) _ _
    generalize ((m.s.chip.airs l).rxFifo 64 m.junk).1 = r at et
    generalize keepOf cfg r len = keep at et
    have kk : ∀ s : Rfm, (stF keep s).chip = s.chip := by
      intro s; unfold stF; split <;> rfl
    refine g.bind (g_store g (m := { m with s := { m.s with chip := (m.s.chip.airs l).standbyClear } }) (k2 l) _ fun l => ?_) ?_
    · unfold stF; split <;> rfl
    refine Ex.post (g_store g (m := { m with s := stF keep { m.s with chip := (m.s.chip.airs l).standbyClear } }) (by dsimp only; rw [kk]; exact k2 l) _ fun l' => ?_) ?_
    · unfold stQ
      dsimp only [Rfm.aired]
      split <;> rfl
    · rintro _ x ⟨-, hx⟩
      refine ⟨l, hl, ?_⟩
      rw [et]; exact hx

end Spi
end

/-! ## Moving events -/

/-- Events that may stand for others: fewer bytes, less noise. -/
structure Closed (A : Air → Prop) : Prop where
  less : ∀ d k, A (.bytes d) → A (.bytes (d.take k))
  quiet : ∀ n1 n2, A (.noise n1 n2) → A (.noise n1 0)

/-- The chip never has more than 64 bytes, and in packet mode stops when it has a packet. -/
structure Mild (c : Chip) : Prop where
  pk : c.reg 0x30 &&& 0x80 ≠ 0 → c.st1 &&& 2 ≠ 0 → c.reg 7 &&& 4 = 0
  rx : c.rx.length ≤ 64

theorem byte_fb4 : ∀ b : Byte, b &&& 0xfb &&& 4 = 0 := by apply forall_byte; decide +kernel
theorem byte_orand (a b c : Byte) : (a ||| b) &&& c = (a &&& c) ||| (b &&& c) := by
  apply UInt8.toBitVec_inj.1
  simp only [UInt8.toBitVec_and, UInt8.toBitVec_or]
  rw [BitVec.and_or_distrib_right]
theorem byte_or2 : ∀ a b : Byte, (a ||| b) &&& 2 = (a &&& 2) ||| (b &&& 2) := by intro a b; rw [byte_orand]
theorem byte_692 : ∀ b : Byte, b &&& 0x69 &&& 2 = 0 := by apply forall_byte; decide +kernel
theorem byte_6980 : ∀ b : Byte, b &&& 0x69 &&& 0x80 = 0 := by apply forall_byte; decide +kernel
theorem byte_6910 : ∀ b : Byte, b &&& 0x69 &&& 0x10 = 0 := by apply forall_byte; decide +kernel

theorem air1_mild {c : Chip} (h : Mild c) (e : Air) : Mild (c.air1 e) := by
  cases e with
  | packet d =>
    simp only [Chip.air1]
    split
    · refine ⟨fun _ _ => ?_, by dsimp only; rw [List.length_take]; omega⟩
      show c.reg 7 &&& 0xfb &&& 4 = 0
      exact byte_fb4 _
    · exact h
  | bytes d =>
    simp only [Chip.air1]
    split
    · rename_i hc
      exact ⟨fun h1 _ => absurd hc.2 h1, by dsimp only; rw [List.length_take]; omega⟩
    · exact h
  | noise n1 n2 =>
    simp only [Chip.air1]
    split
    · refine ⟨fun h1 h2 => h.pk h1 ?_, h.rx⟩
      dsimp only at h2
      rw [byte_or2, byte_692] at h2
      simpa using h2
    · exact h

theorem airs_mild (l : List Air) : ∀ {c : Chip}, Mild c → Mild (c.airs l) := by
  induction l with
  | nil => intro c h; exact h
  | cons e l ih => intro c h; exact ih (air1_mild h e)

/-- The interrupt line only becomes active. -/
theorem byte_orne : ∀ a b c : Byte, a &&& c ≠ 0 → (a ||| b) &&& c ≠ 0 := by
  intro a b c h h2
  rw [byte_orand] at h2
  exact h (UInt8.or_eq_zero_iff.1 h2).1

theorem air1_irq (c : Chip) (e : Air) (h : c.irq = true) : (c.air1 e).irq = true := by
  have key : ∀ c' : Chip, c'.reg 5 = c.reg 5 → c'.reg 6 = c.reg 6 → (∃ a, c'.st1 = c.st1 ||| a) → (∃ b, c'.st2 = c.st2 ||| b) → c'.irq = true := by
    intro c' h5 h6 ⟨a, h1⟩ ⟨b, h2⟩
    unfold Chip.irq at h ⊢
    rw [h5, h6, h1, h2]
    simp only [Bool.or_eq_true, decide_eq_true_eq] at h ⊢
    exact h.imp (byte_orne _ _ _) (byte_orne _ _ _)
  have z : ∀ a : Byte, a = a ||| 0 := by intro a; simp
  refine key _ (air1_reg c e 5 (by omega) (by omega)) (air1_reg c e 6 (by omega) (by omega)) ?_ ?_
  · cases e <;> simp only [Chip.air1] <;> split
    · exact ⟨_, rfl⟩
    · exact ⟨0, z _⟩
    · exact ⟨_, by rw [UInt8.or_assoc]⟩
    · exact ⟨0, z _⟩
    · exact ⟨_, rfl⟩
    · exact ⟨0, z _⟩
  · cases e <;> simp only [Chip.air1] <;> split
    · exact ⟨0, z _⟩
    · exact ⟨0, z _⟩
    · exact ⟨0, z _⟩
    · exact ⟨0, z _⟩
    · exact ⟨_, rfl⟩
    · exact ⟨0, z _⟩

theorem airs_irq (l : List Air) : ∀ (c : Chip), c.irq = true → (c.airs l).irq = true := by
  induction l with
  | nil => intro c h; exact h
  | cons e l ih => intro c h; exact ih _ (air1_irq c e h)

/-- An event without its effect on the second status byte. -/
def Air.hush : Air → Air
  | .noise n1 _ => .noise n1 0
  | e => e

theorem air1_hush (c : Chip) (e : Air) : ({ c.air1 e with st2 := 0 } : Chip) = Chip.air1 { c with st2 := 0 } e.hush := by
  cases e <;> simp only [Chip.air1, Air.hush] <;> split <;> first | rfl | simp

theorem airs_hush (l : List Air) : ∀ (c : Chip), ({ c.airs l with st2 := 0 } : Chip) = Chip.airs { c with st2 := 0 } (l.map Air.hush) := by
  induction l with
  | nil => intro c; rfl
  | cons e l ih =>
    intro c
    show ({ (c.air1 e).airs l with st2 := 0 } : Chip) = _
    rw [ih, air1_hush]; rfl

theorem hush_al {A : Air → Prop} (hA : Closed A) {l : List Air} (h : AL A l) : AL A (l.map Air.hush) := by
  intro e he
  obtain ⟨e', h1, rfl⟩ := List.mem_map.1 he
  cases e' with
  | noise n1 n2 => exact hA.quiet _ _ (h _ h1)
  | packet d => exact h _ h1
  | bytes d => exact h _ h1

/-- In FIFO mode events change only the receive buffer and the status. -/
theorem air1_fifo (c : Chip) (e : Air) (h : c.reg 0x30 &&& 0x80 = 0) : ∃ r a b, c.air1 e = { c with rx := r, st1 := a, st2 := b } := by
  cases e with
  | packet d => simp only [Chip.air1]; rw [if_neg (fun x => x.2.1 h)]; exact ⟨c.rx, c.st1, c.st2, rfl⟩
  | bytes d => simp only [Chip.air1]; split <;> exact ⟨_, _, _, rfl⟩
  | noise n1 n2 => simp only [Chip.air1]; split <;> exact ⟨_, _, _, rfl⟩

theorem airs_fifo (l : List Air) : ∀ (c : Chip), c.reg 0x30 &&& 0x80 = 0 → ∃ r a b, c.airs l = { c with rx := r, st1 := a, st2 := b } := by
  induction l with
  | nil => intro c _; exact ⟨c.rx, c.st1, c.st2, rfl⟩
  | cons e l ih =>
    intro c h
    obtain ⟨r, a, b, e1⟩ := air1_fifo c e h
    obtain ⟨r', a', b', e2⟩ := ih (c.air1 e) (by rw [e1]; exact h)
    refine ⟨r', a', b', ?_⟩
    show (c.air1 e).airs l = _
    rw [e2, e1]

theorem fifo_standby (l : List Air) (c : Chip) (h : c.reg 0x30 &&& 0x80 = 0) : (c.airs l).standbyClear = c.standbyClear := by
  obtain ⟨r, a, b, e⟩ := airs_fifo l c h
  rw [e, standbyClear_eq, standbyClear_eq]

theorem byte_or0 (a b m : Byte) (h1 : a &&& m = 0) (h2 : b &&& m = 0) : (a ||| b) &&& m = 0 := by
  rw [byte_orand, h1, h2]; rfl

/-- In FIFO mode the bytes that come in after the status has been read could have come before, without those that do not fit. -/
theorem airs_thin {A : Air → Prop} (hA : Closed A) (l : List Air) : ∀ (c c' : Chip), AL A l → c'.reg = c.reg → c'.rx = c.rx →
    c.reg 0x30 &&& 0x80 = 0 → c.rx.length ≤ 64 → c.st1 &&& 0x80 = 0 → c.st1 &&& 0x10 ≠ 0 →
    ∃ l', AL A l' ∧ (c.airs l').rx = (c'.airs l).rx ∧ (c.airs l').st1 &&& 0x80 = 0 ∧ (c.airs l').st1 &&& 0x10 ≠ 0 := by
  induction l with
  | nil => intro c c' _ _ e2 _ _ h1 h2; exact ⟨[], AL.nil, e2.symm, h1, h2⟩
  | cons e l ih =>
    intro c c' hl er ex h3 h64 h1 h2
    have hl' : AL A l := fun x hx => hl x (List.mem_cons_of_mem _ hx)
    have he : A e := hl e (List.mem_cons_self ..)
    have go : ∀ e1 : Air, A e1 → (c'.air1 e).reg = (c.air1 e1).reg → (c'.air1 e).rx = (c.air1 e1).rx → (c.air1 e1).rx.length ≤ 64 →
        (c.air1 e1).st1 &&& 0x80 = 0 → (c.air1 e1).st1 &&& 0x10 ≠ 0 →
        ∃ l', AL A l' ∧ (c.airs l').rx = (c'.airs (e :: l)).rx ∧ (c.airs l').st1 &&& 0x80 = 0 ∧ (c.airs l').st1 &&& 0x10 ≠ 0 := by
      intro e1 ha g1 g2 g3 g4 g5
      obtain ⟨l', i1, i2, i3, i4⟩ := ih (c.air1 e1) (c'.air1 e) hl' g1 g2 (by rw [air1_reg c e1 _ (by omega) (by omega)]; exact h3) g3 g4 g5
      refine ⟨e1 :: l', ?_, i2, i3, i4⟩
      intro x hx
      rcases List.mem_cons.1 hx with rfl | hx
      · exact ha
      · exact i1 x hx
    by_cases h7 : c.reg 7 &&& 4 = 0
    · have n1 : ∀ e, c.air1 e = c := fun e => air1_off c e h7
      have n2 : ∀ e, c'.air1 e = c' := fun e => air1_off c' e (by rw [er]; exact h7)
      exact go e he (by rw [n1, n2]; exact er) (by rw [n1, n2]; exact ex) (by rw [n1]; exact h64) (by rw [n1]; exact h1) (by rw [n1]; exact h2)
    · cases e with
      | packet d =>
        have n1 : c.air1 (.packet d) = c := by simp only [Chip.air1]; rw [if_neg (fun x => x.2.1 h3)]
        have n2 : c'.air1 (.packet d) = c' := by simp only [Chip.air1]; rw [if_neg (fun x => x.2.1 (by rw [er]; exact h3))]
        exact go _ he (by rw [n1, n2]; exact er) (by rw [n1, n2]; exact ex) (by rw [n1]; exact h64) (by rw [n1]; exact h1) (by rw [n1]; exact h2)
      | noise n1 n2 =>
        have q1 : c.air1 (.noise n1 n2) = { c with st1 := c.st1 ||| (n1 &&& 0x69), st2 := c.st2 ||| n2 } := by simp only [Chip.air1]; rw [if_pos h7]
        have q2 : c'.air1 (.noise n1 n2) = { c' with st1 := c'.st1 ||| (n1 &&& 0x69), st2 := c'.st2 ||| n2 } := by
          simp only [Chip.air1]; rw [if_pos (by rw [er]; exact h7)]
        refine go _ he (by rw [q1, q2]; exact er) (by rw [q1, q2]; exact ex) (by rw [q1]; exact h64) ?_ ?_
        · rw [q1]; exact byte_or0 _ _ _ h1 (byte_6980 n1)
        · rw [q1]; exact byte_orne _ _ _ h2
      | bytes d =>
        have q1 : c.air1 (.bytes (d.take (64 - c.rx.length))) = { c with rx := (c.rx ++ d).take 64, st1 := c.st1 ||| (if (c.rx ++ d.take (64 - c.rx.length)).length ≥ (c.reg 0x7e).toNat then 0x10 else 0) } := by
          simp only [Chip.air1]
          rw [if_pos ⟨h7, h3⟩]
          have a1 : ¬ (c.rx ++ d.take (64 - c.rx.length)).length > 64 := by rw [List.length_append, List.length_take]; omega
          rw [if_neg a1]
          have a2 : (c.rx ++ d.take (64 - c.rx.length)).take 64 = (c.rx ++ d).take 64 := by
            rw [List.take_append, List.take_append, List.take_take, Nat.min_self]
          rw [a2]
          congr 1
          simp
        have q2 : (c'.air1 (.bytes d)).rx = (c.rx ++ d).take 64 ∧ (c'.air1 (.bytes d)).reg = c'.reg := by
          simp only [Chip.air1]
          rw [if_pos (by rw [er]; exact ⟨h7, h3⟩), ex]
          exact ⟨rfl, rfl⟩
        refine go _ (hA.less d _ he) (by rw [q1, q2.2]; exact er) (by rw [q1, q2.1]) (by rw [q1]; dsimp only; rw [List.length_take]; omega) ?_ ?_
        · rw [q1]
          refine byte_or0 _ _ _ h1 ?_
          split <;> rfl
        · rw [q1]; exact byte_orne _ _ _ h2

/-- `take` depends only on the bytes received and on what the chip is after standby. -/
theorem take_congr (cfg : RfmCfg) (s : Rfm) (c : Chip) (len : Nat) (junk : Nat → Byte) (h1 : c.rx = s.chip.rx) (h2 : c.standbyClear = s.chip.standbyClear) :
    Rfm.take cfg { s with chip := c } len junk = s.take cfg len junk := by
  unfold Rfm.take
  dsimp only
  rw [rxFifo_chip, rxFifo_chip, rxFifo_chip, rxFifo_chip, h2]
  have e : (c.rxFifo 64 junk).1 = (s.chip.rxFifo 64 junk).1 := by unfold Chip.rxFifo; dsimp only; rw [h1]
  rw [e]

theorem dolisten_congr (cfg : RfmCfg) (s : Rfm) (c : Chip) (h2 : c.standbyClear = s.chip.standbyClear) :
    Rfm.dolisten cfg { s with chip := c } = s.dolisten cfg := by
  unfold Rfm.dolisten
  dsimp only
  rw [h2]

theorem dolisten_r8 {cfg : RfmCfg} (hc : CfgOk cfg) {s : Rfm} (hb : RBase cfg s) : (s.dolisten cfg).chip.reg 7 &&& 8 = 0 := by
  obtain ⟨r, k, e, -, -, hon, hoff⟩ := dolisten_spec hc s hb
  rw [e]
  dsimp only
  by_cases ha : cfg.allowRX = true
  · cases hl : s.lc with
    | none => rw [show r 7 = 0 from (hoff (Or.inl hl)).1]; decide
    | some ch => rw [(hon ch hl ha).2.1]; decide
  · rw [show r 7 = 0 from (hoff (Or.inr (by simpa using ha))).1]; decide

theorem dolisten_mild {cfg : RfmCfg} (hc : CfgOk cfg) {s : Rfm} (hb : RBase cfg s) : Mild (s.dolisten cfg).chip := by
  obtain ⟨r, k, e, -⟩ := dolisten_spec hc s hb
  rw [e]
  exact ⟨fun _ h => absurd (by simp) h, by simp⟩

theorem aired_base {cfg : RfmCfg} {s : Rfm} (hb : RBase cfg s) (l : List Air) : RBase cfg (s.aired l) := by
  refine ⟨hb.cur, holds_congr hb.holds fun x hx => ?_, hb.mx, hb.lc⟩
  simp only [rfmOwned, not_or] at hx
  exact airs_reg l _ x (by simp [hx]) (by simp [hx])

theorem aired_aired (s : Rfm) (l1 l2 : List Air) : (s.aired l1).aired l2 = s.aired (l1 ++ l2) := by
  unfold Rfm.aired; dsimp only; rw [airs_append]

theorem aired_off (s : Rfm) (l : List Air) (h : s.chip.reg 7 &&& 4 = 0) : s.aired l = s := by
  unfold Rfm.aired; rw [airs_off l _ h]

/-! ## The interrupt routine -/

section
variable {A : Air → Prop} {h : Wire → Wire}
namespace Spi

theorem xfer_rd (v : Byte) (s : Rfm) (c : Chip) (junk : Nat → Byte) (a : Nat) (ha : a ≠ 0x7f) (ie : Bool) (t : Nat) :
    xfer v id ⟨{ s with chip := c }, junk, .data false a, ie, 0, t⟩ =
      ((c.rdB a (junk 0)).1, ⟨{ s with chip := (c.rdB a (junk 0)).2 }, junk, .data false (nextA a), ie, 0, t⟩) := by
  show ((Chip.rdB c a (junk 0)).1, (⟨{ s with chip := (Chip.rdB c a (junk 0)).2 }, junk, .data false (nextA a), ie,
      if a = 0x7f ∧ c.rx = [] then 0 + 1 else 0, t⟩ : Wire)) = _
  rw [if_neg (fun x => ha x.1)]

/-- Reading a register that events do not change. -/
theorem g_readReg (g : Rgm (FAir A) KAir h) {m : Wire} (hi : m.Idle) (a : Nat) (ha : a < 127) (h3 : a ≠ 3) (h4 : a ≠ 4) (h7 : a ≠ 7) (hb : a ≠ 0x4b)
    (hs : m.s.chip.spi = true) (hk : KAir m.ie m.s.chip) :
    Ex h (readReg a) (Fm (FAir A) m) (fun r x => r = m.s.chip.reg a ∧ Fm (FAir A) m x) := by
  obtain ⟨s, junk, ph, ie, ju, t⟩ := m
  obtain ⟨rfl, rfl⟩ : ph = .idle ∧ ju = 0 := hi
  have hs : s.chip.spi = true := hs
  refine g.bind (g_sel g ⟨rfl, rfl⟩ (by exact hk)) ?_
  refine g.bind (g_addrR (m := ⟨s, junk, .addr, ie, 0, t⟩) g rfl (by exact hk) a (by omega)) ?_
  refine Ex.pre (S := Fm (FAir A) ⟨s, junk, .data false a, ie, 0, t⟩) ?_ (fun x hx => by
    unfold Wire.onChip at hx; dsimp only at hx; rw [acc_on hs] at hx; exact hx)
  refine g.bind (r := s.chip.reg a) (m' := ⟨s, junk, .data false (nextA a), ie, 0, t⟩) (g.prim (by exact hk) ?_) ?_
  · rintro _ ⟨l, -, rfl⟩ t'
    have e : (s.chip.airs l).rdB a (junk 0) = (s.chip.reg a, s.chip.airs l) := by
      have := rd_plain (s.chip.airs l) a ha h3 h4 (junk 0)
      rw [acc_on ((airs_flags l _).2.trans hs), airs_reg l _ _ h7 hb] at this
      exact this
    show xfer 0 id ⟨{ s with chip := s.chip.airs l }, junk, .data false a, ie, 0, t'⟩ = _
    rw [xfer_rd _ _ _ _ _ (by omega), e]; rfl
  refine g.bind (g_desel g (by exact hk)) ?_
  exact Ex.pure fun x hx => ⟨rfl, hx⟩

/-- Reading the status bytes and the mode. -/
theorem i_status (hA : Closed A) (g : Rgm (FAir A) KAir h) {m : Wire} (hi : m.Idle) (hk : KAir m.ie m.s.chip) :
    Ex h (powered do
        let st ← readReg16 3
        let d ← readReg 0x30
        Pure.pure (st.1, d)) (Fm (FAir A) m)
      (fun r x => ∃ l, AL A l ∧ r = ((m.s.chip.airs l).st1, m.s.chip.reg 0x30) ∧ Fm (FAir A) { m with s := readStat (m.s.aired l) } x) := by
  refine Ex.post (g_powered g (P := AL A) (R := fun l => ((m.s.chip.airs l).st1, m.s.chip.reg 0x30))
    (S := fun l => { m.s with chip := { m.s.chip.airs l with st1 := 0, st2 := 0, spi := true } }) hi hk ?_ ?_) ?_
  · obtain ⟨s, junk, ph, ie, ju, t⟩ := m
    obtain ⟨rfl, rfl⟩ : ph = .idle ∧ ju = 0 := hi
    obtain rfl : ie = false := hk.1
    have hk8 : s.chip.reg 7 &&& 8 = 0 := hk.2
    show Ex h (sel >>= fun _ => xfer (u8 3 &&& 0x7f) >>= fun _ => xfer 0 >>= fun x => xfer 0 >>= fun y => desel >>= fun _ =>
      readReg 0x30 >>= fun d => Pure.pure (x, d)) _ _
    refine g.bind (g_sel g (m := ⟨{ s with chip := { s.chip with spi := true } }, junk, .idle, false, 0, t⟩) ⟨rfl, rfl⟩ ⟨rfl, hk8⟩) ?_
    refine g.bind (g_addrR (m := ⟨{ s with chip := { s.chip with spi := true } }, junk, .addr, false, 0, t⟩) g rfl ⟨rfl, hk8⟩ 3 (by omega)) ?_
    refine Ex.pre (S := Fm (FAir A) ⟨{ s with chip := { s.chip with spi := true } }, junk, .data false 3, false, 0, t⟩) ?_ (fun x hx => by
      unfold Wire.onChip at hx; dsimp only at hx; rw [acc_on (c := { s.chip with spi := true }) rfl] at hx; exact hx)
    refine Ex.bind (Q := fun r x => ∃ l, AL A l ∧ r = (s.chip.airs l).st1 ∧
      At ⟨{ s with chip := { s.chip.airs l with st1 := 0, spi := true } }, junk, .data false 4, false, 0, t⟩ x) (g.step ⟨rfl, hk8⟩ ?_) fun r => ?_
    · rintro _ ⟨l, hl, rfl⟩ t'
      have e := rd3 (({ s.chip with spi := true } : Chip).airs l) (junk 0)
      rw [acc_on (c := ({ s.chip with spi := true } : Chip).airs l) (airs_flags l _).2, airs_spi] at e
      have e1 := xfer_rd 0 s (({ s.chip with spi := true } : Chip).airs l) junk 3 (by omega) false t'
      rw [airs_spi, e] at e1
      refine ⟨l, hl, ?_, t', ?_⟩
      · show (xfer 0 id ⟨{ s with chip := ({ s.chip with spi := true } : Chip).airs l }, junk, .data false 3, false, 0, t'⟩).1 = _
        rw [airs_spi, e1]
      · show (xfer 0 id ⟨{ s with chip := ({ s.chip with spi := true } : Chip).airs l }, junk, .data false 3, false, 0, t'⟩).2 = _
        rw [airs_spi, e1]
        rfl
    refine Ex.exists fun l => Ex.and fun hl => Ex.and fun hr => ?_
    have k8 : (s.chip.airs l).reg 7 &&& 8 = 0 := by rw [airs_r7]; exact hk8
    refine Ex.pre (S := Fm (FAir A) ⟨{ s with chip := { s.chip.airs l with st1 := 0, spi := true } }, junk, .data false 4, false, 0, t⟩) ?_ fun x hx => Fm.at g hx
    refine Ex.bind (Q := fun _ x => Fm (FAir A) ⟨{ s with chip := { s.chip.airs l with st1 := 0, st2 := 0, spi := true } }, junk, .data false 5, false, 0, t⟩ x)
      (g.step ⟨rfl, k8⟩ ?_) fun r => ?_
    · rintro _ ⟨l2, hl2, rfl⟩ t'
      have e : Chip.rdB (({ s.chip.airs l with st1 := 0, spi := true } : Chip).airs l2) 4 (junk 0) =
          ((({ s.chip.airs l with st1 := 0, spi := true } : Chip).airs l2).st2, { (({ s.chip.airs l with st1 := 0, spi := true } : Chip).airs l2) with st2 := 0 }) := by
        unfold Chip.rdB
        rw [if_neg (by omega), if_pos rfl, acc_on (c := ({ s.chip.airs l with st1 := 0, spi := true } : Chip).airs l2) (airs_flags l2 _).2]
      refine ⟨_, ⟨l2.map Air.hush, hush_al hA hl2, rfl⟩, t', ?_⟩
      have e1 := xfer_rd 0 s (({ s.chip.airs l with st1 := 0, spi := true } : Chip).airs l2) junk 4 (by omega) false t'
      rw [e] at e1
      show (xfer 0 id ⟨{ s with chip := ({ s.chip.airs l with st1 := 0, spi := true } : Chip).airs l2 }, junk, .data false 4, false, 0, t'⟩).2 = _
      rw [e1]
      dsimp only
      rw [airs_hush]
      rfl
    refine Ex.bind (g_desel g (m := ⟨{ s with chip := { s.chip.airs l with st1 := 0, st2 := 0, spi := true } }, junk, .data false 5, false, 0, t⟩) ⟨rfl, k8⟩) fun _ => ?_
    refine Ex.and fun _ => ?_
    refine g.bind (g_readReg g (m := ⟨{ s with chip := { s.chip.airs l with st1 := 0, st2 := 0, spi := true } }, junk, .idle, false, 0, t⟩) ⟨rfl, rfl⟩ 0x30 (by omega) (by omega)
      (by omega) (by omega) (by omega) rfl ⟨rfl, k8⟩) ?_
    refine Ex.pure fun x hx => ⟨l, hl, ?_, hx⟩
    dsimp only
    rw [hr, airs_reg l _ _ (by omega) (by omega)]
  · intro l hl
    exact ⟨rfl, by show (m.s.chip.airs l).reg 7 &&& 8 = 0; rw [airs_r7]; exact hk.2⟩
  · rintro r x ⟨l, hl, hr, hx⟩
    refine ⟨l, hl, hr, ?_⟩
    have e : readStat (m.s.aired l) = { m.s with chip := { m.s.chip.airs l with st1 := 0, st2 := 0, spi := m.s.chip.spi } } := by
      unfold readStat Rfm.aired; rw [readStatus_eq]; dsimp only; rw [← (airs_flags l m.s.chip).2]
    rw [e]; exact hx

/-- The packet branch of `_poll`, with the radio off. -/
theorem i_packet {cfg : RfmCfg} (hc : CfgOk cfg) (hl : CfgAddr cfg) (g : Rgm (FAir A) KAir h) (ht : Triv true h) {m : Wire} (hi : m.Idle)
    (hk : KAir m.ie m.s.chip) (hb : RBase cfg m.s) (h7 : m.s.chip.reg 7 &&& 4 = 0) :
    Ex h (powered do
        let f ← readReg 0x33
        let len ← if f &&& 8 = 8 then readReg 0x3e else readReg 0x4b
        take cfg len.toNat
        dolisten cfg) (Fm (FAir A) m)
      (fun _ x => Fm (FAir A) { m with s := { ((({ m.s with chip := ({ m.s.chip with spi := true } : Chip).acc } : Rfm).take cfg
              (if m.s.chip.reg 0x33 &&& (8 : Byte) = (8 : Byte) then m.s.chip.reg 0x3e else m.s.chip.reg 0x4b).toNat m.junk).dolisten cfg) with
          chip := { ((({ m.s with chip := ({ m.s.chip with spi := true } : Chip).acc } : Rfm).take cfg
              (if m.s.chip.reg 0x33 &&& (8 : Byte) = (8 : Byte) then m.s.chip.reg 0x3e else m.s.chip.reg 0x4b).toNat m.junk).dolisten cfg).chip with
            spi := m.s.chip.spi } } } x) := by
  have ea : ({ m.s.chip with spi := true } : Chip).acc = { m.s.chip with spi := true } := acc_on rfl
  rw [ea]
  generalize hlen : (if m.s.chip.reg 0x33 &&& (8 : Byte) = (8 : Byte) then m.s.chip.reg 0x3e else m.s.chip.reg 0x4b) = len
  have hb2 : RBase cfg { m.s with chip := { m.s.chip with spi := true } } := ⟨hb.cur, hb.holds, hb.mx, hb.lc⟩
  have hbt := take_base hb2 len.toNat m.junk
  have htf := (take_fields cfg { m.s with chip := { m.s.chip with spi := true } } len.toNat m.junk).1
  refine Ex.post (g_powered g (P := fun _ : Unit => True) (R := fun _ => ())
    (S := fun _ => (Rfm.take cfg { m.s with chip := { m.s.chip with spi := true } } len.toNat m.junk).dolisten cfg) hi hk ?_ ?_) ?_
  · obtain ⟨s, junk, ph, ie, ju, t⟩ := m
    obtain ⟨rfl, rfl⟩ : ph = .idle ∧ ju = 0 := hi
    obtain rfl : ie = false := hk.1
    dsimp only at *
    have kq : Kq true false ({ s.chip with spi := true } : Chip) := kq_off h7 hk.2
    have rd : ∀ a, a < 127 → a ≠ 3 → a ≠ 4 → Runs true (readReg a) ⟨{ s with chip := { s.chip with spi := true } }, junk, .idle, false, 0, t⟩ (s.chip.reg a)
        ⟨{ s with chip := { s.chip with spi := true } }, junk, .idle, false, 0, t⟩ := by
      intro a h1 h2 h3
      have := r_readReg (q := true) (m := ⟨{ s with chip := { s.chip with spi := true } }, junk, .idle, false, 0, t⟩) ⟨rfl, rfl⟩ a h1 h2 h3 kq
      unfold Wire.onChip at this
      dsimp only at this
      rw [ea] at this
      exact this
    have tail : Ex h (take cfg len.toNat >>= fun _ => dolisten cfg) (Fm (FAir A) ⟨{ s with chip := { s.chip with spi := true } }, junk, .idle, false, 0, t⟩)
        (fun r x => ∃ y : Unit, True ∧ r = () ∧ Fm (FAir A) ⟨(Rfm.take cfg { s with chip := { s.chip with spi := true } } len.toNat junk).dolisten cfg, junk, .idle, false, 0, t⟩ x) := by
      refine Ex.bind (i_take cfg len.toNat g ht (m := ⟨{ s with chip := { s.chip with spi := true } }, junk, .idle, false, 0, t⟩) ⟨rfl, rfl⟩ ⟨rfl, hk.2⟩) fun _ => ?_
      refine Ex.exists fun l => Ex.and fun _ => ?_
      have e1 : Rfm.aired { s with chip := { s.chip with spi := true } } l = { s with chip := { s.chip with spi := true } } := aired_off _ _ h7
      dsimp only
      rw [e1]
      refine Ex.post (i_dolisten hc hl g ht (m := ⟨Rfm.take cfg { s with chip := { s.chip with spi := true } } len.toNat junk, junk, .idle, false, 0, t⟩) ⟨rfl, rfl⟩
        ⟨rfl, by rw [htf, standby_off7]; decide⟩ hbt) ?_
      rintro _ x ⟨l2, -, hx⟩
      refine ⟨(), trivial, rfl, ?_⟩
      dsimp only at hx
      rw [aired_off _ _ (by rw [htf, standby_off7]; decide)] at hx
      exact hx
    refine g.bind (Ex.runsF g ht (by exact h7) (rd 0x33 (by omega) (by omega) (by omega))) ?_
    by_cases h8 : s.chip.reg 0x33 &&& 8 = 8
    · rw [if_pos h8] at hlen ⊢
      refine g.bind (Ex.runsF g ht (by exact h7) (rd 0x3e (by omega) (by omega) (by omega))) ?_
      rw [hlen]; exact tail
    · rw [if_neg h8] at hlen ⊢
      refine g.bind (Ex.runsF g ht (by exact h7) (rd 0x4b (by omega) (by omega) (by omega))) ?_
      rw [hlen]; exact tail
  · intro _ _
    refine ⟨?_, dolisten_r8 hc hbt⟩
    rw [dolisten_spi, htf, standby_spi0]
  · rintro r x ⟨y, -, -, hx⟩
    exact hx

/-- `_poll` in the interrupt routine: as if the events up to some point had come before, and the rest after. -/
theorem i_pollBody (hA : Closed A) {cfg : RfmCfg} (hc : CfgOk cfg) (hl : CfgAddr cfg) (g : Rgm (FAir A) KAir h) (ht : Triv true h) {m : Wire} (hi : m.Idle)
    (hk : KAir m.ie m.s.chip) (hb : RBase cfg m.s) (hm : Mild m.s.chip) :
    Ex h (pollBody cfg) (Fm (FAir A) m) (fun _ x => ∃ l, AL A l ∧ Fm (FAir A) { m with s := (m.s.aired l).pollBody cfg m.junk } x) := by
  unfold pollBody
  by_cases ha : cfg.allowRX = false
  · rw [if_pos ha]
    refine Ex.pure fun x hx => ⟨[], AL.nil, ?_⟩
    rw [pollBody_off _ (Or.inl ha)]; exact hx
  rw [if_neg ha]
  refine g.bind (g_loadv g hk (·.lc) fun l => rfl) ?_
  by_cases hn : m.s.lc = none
  · rw [if_pos hn]
    refine Ex.pure fun x hx => ⟨[], AL.nil, ?_⟩
    rw [pollBody_off (s := m.s.aired []) _ (Or.inr hn)]; exact hx
  rw [if_neg hn]
  refine Ex.bind (i_status hA g hi hk) fun r => ?_
  refine Ex.exists fun l1 => Ex.and fun hl1 => Ex.and fun hr => ?_
  subst hr
  have h30 : m.s.chip.reg 0x30 = (m.s.aired l1).chip.reg 0x30 := (airs_reg l1 _ _ (by omega) (by omega)).symm
  have hst : (m.s.chip.airs l1).st1 = (m.s.aired l1).chip.st1 := rfl
  dsimp only
  rw [h30, hst]
  have hn1 : (m.s.aired l1).lc ≠ none := hn
  have hb1 := aired_base hb l1
  have hm1 : Mild (m.s.aired l1).chip := airs_mild l1 hm
  have hk1 : KAir m.ie (m.s.aired l1).chip := ⟨hk.1, (airs_r7 l1 _).trans hk.2⟩
  -- the link after the events that came before
  have fin : ∀ (s' : Rfm) (x : Wire), (∃ l2, AL A l2 ∧ s' = ((m.s.aired l1).aired l2).pollBody cfg m.junk) → Fm (FAir A) { m with s := s' } x →
      ∃ l, AL A l ∧ Fm (FAir A) { m with s := (m.s.aired l).pollBody cfg m.junk } x := by
    rintro s' x ⟨l2, hl2, rfl⟩ hx
    exact ⟨l1 ++ l2, hl1.append hl2, by rw [← aired_aired]; exact hx⟩
  have fin0 : ∀ (s' : Rfm) (x : Wire), s' = (m.s.aired l1).pollBody cfg m.junk → Fm (FAir A) { m with s := s' } x →
      ∃ l, AL A l ∧ Fm (FAir A) { m with s := (m.s.aired l).pollBody cfg m.junk } x := by
    intro s' x e hx
    exact ⟨l1, hl1, by rw [← e]; exact hx⟩
  clear h30 hst
  generalize m.s.aired l1 = s1 at hn1 hb1 hm1 hk1 fin fin0 ⊢
  have rs : readStat s1 = { s1 with chip := { s1.chip with st1 := 0, st2 := 0 } } := by unfold readStat; rw [readStatus_eq]
  have hbr : RBase cfg (readStat s1) := by rw [rs]; exact ⟨hb1.cur, hb1.holds, hb1.mx, hb1.lc⟩
  have hkr : KAir m.ie (readStat s1).chip := by rw [rs]; exact hk1
  have hpb := pollBody_on m.junk ha hn1
  by_cases h1 : s1.chip.reg 0x30 &&& 0x80 ≠ 0
  · rw [if_pos h1] at hpb ⊢
    by_cases h2 : s1.chip.st1 &&& 2 ≠ 0
    · rw [if_pos h2] at hpb ⊢
      have h7 := hm1.pk h1 h2
      refine Ex.post (i_packet hc hl g ht (m := { m with s := readStat s1 }) hi hkr hbr (by rw [rs]; exact h7)) ?_
      intro _ x hx
      refine fin0 _ x ?_ hx
      rw [hpb]
      dsimp only
      rw [show (readStat s1).chip.reg = s1.chip.reg by rw [rs], show (readStat s1).chip.spi = s1.chip.spi by rw [rs]]
    · rw [if_neg h2] at hpb ⊢
      exact Ex.pure fun x hx => fin0 _ x hpb.symm hx
  · rw [if_neg h1] at hpb ⊢
    have h1 : s1.chip.reg 0x30 &&& 0x80 = 0 := Classical.not_not.1 h1
    by_cases h2 : s1.chip.st1 &&& 0x80 ≠ 0
    · rw [if_pos h2] at hpb ⊢
      refine g.bind (g_store g (m := { m with s := readStat s1 }) hkr _ fun l => rfl) ?_
      refine Ex.post (i_dolisten hc hl g ht (m := { m with s := { readStat s1 with err := 2 } }) hi hkr ⟨hbr.cur, hbr.holds, hbr.mx, hbr.lc⟩) ?_
      rintro _ x ⟨l, -, hx⟩
      refine fin0 _ x ?_ hx
      rw [hpb]
      exact dolisten_congr cfg { readStat s1 with err := 2 } _ (fifo_standby l _ (by rw [rs]; exact h1))
    · rw [if_neg h2] at hpb ⊢
      have h2 : s1.chip.st1 &&& 0x80 = 0 := Classical.not_not.1 h2
      by_cases h3 : s1.chip.st1 &&& 0x10 ≠ 0
      · rw [if_pos h3] at hpb ⊢
        refine Ex.bind (i_take cfg 64 g ht (m := { m with s := readStat s1 }) hi hkr) fun _ => ?_
        refine Ex.exists fun l => Ex.and fun hl2 => ?_
        have htf := (take_fields cfg ((readStat s1).aired l) 64 m.junk).1
        have h70 : (Rfm.take cfg ((readStat s1).aired l) 64 m.junk).chip.reg 7 = 0 := by rw [htf, standby_off7]
        refine Ex.post (i_dolisten hc hl g ht (m := { m with s := Rfm.take cfg ((readStat s1).aired l) 64 m.junk }) hi
          ⟨hk.1, by dsimp only; rw [h70]; decide⟩ (take_base (aired_base hbr l) 64 m.junk)) ?_
        rintro _ x ⟨l', -, hx⟩
        dsimp only at hx
        rw [aired_off _ _ (by rw [h70]; decide)] at hx
        refine fin _ x ?_ hx
        obtain ⟨l'', i1, i2, i3, i4⟩ := airs_thin hA l s1.chip { s1.chip with st1 := 0, st2 := 0 } hl2 rfl rfl h1 hm1.rx h2 h3
        refine ⟨l'', i1, ?_⟩
        have hb2 := aired_base hb1 l''
        have r30 : (s1.aired l'').chip.reg 0x30 = s1.chip.reg 0x30 := airs_reg l'' _ _ (by omega) (by omega)
        rw [pollBody_on (s := s1.aired l'') m.junk ha hn1, if_neg (by rw [r30, h1]; decide), if_neg (by show ¬ (s1.chip.airs l'').st1 &&& 0x80 ≠ 0; rw [i3]; decide),
          if_pos (by exact i4)]
        have rs2 : readStat (s1.aired l'') = { s1 with chip := { s1.chip.airs l'' with st1 := 0, st2 := 0 } } := by
          unfold readStat Rfm.aired; rw [readStatus_eq]
        have sb : ∀ c : Chip, Chip.standbyClear { c with st1 := 0, st2 := 0 } = c.standbyClear := by
          intro c; rw [standbyClear_eq, standbyClear_eq]
        have e := take_congr cfg (readStat (s1.aired l'')) (Chip.airs { s1.chip with st1 := 0, st2 := 0 } l) 64 m.junk
          (by rw [rs2]; exact i2.symm) (by rw [rs2]; dsimp only; rw [sb, fifo_standby l'' s1.chip h1, fifo_standby l { s1.chip with st1 := 0, st2 := 0 } h1, sb])
        rw [← e, rs, rs2]
        rfl
      · rw [if_neg h3] at hpb ⊢
        exact Ex.pure fun x hx => fin0 _ x hpb.symm hx

/-- The interrupt routine. -/
theorem i_handler (hA : Closed A) {cfg : RfmCfg} (hc : CfgOk cfg) (hl : CfgAddr cfg) (g : Rgm (FAir A) KAir h) (ht : Triv true h) {m : Wire} (hi : m.Idle)
    (hk : KAir m.ie m.s.chip) (hb : RBase cfg m.s) (hm : Mild m.s.chip) :
    Ex h (handler cfg) (Fm (FAir A) m) (fun _ x => ∃ l, AL A l ∧ Fm (FAir A) { m with s := (m.s.aired l).poll cfg m.junk } x) := by
  unfold handler
  by_cases ha : cfg.allowRX = false
  · rw [if_pos ha]
    refine Ex.pure fun x hx => ⟨[], AL.nil, ?_⟩
    have : (m.s.aired []).poll cfg m.junk = m.s := by
      unfold Rfm.poll; split
      · rfl
      · rw [pollBody_off _ (Or.inl ha)]; rfl
    rw [this]; exact hx
  rw [if_neg ha]
  refine Ex.bind (Q := fun r x => ∃ l, AL A l ∧ r = (cfg.irqPin && !(m.s.chip.airs l).irq) ∧ At { m with s := m.s.aired l } x) (g.step hk ?_) fun r => ?_
  · rintro _ ⟨l, hl, rfl⟩ t'
    exact ⟨l, hl, rfl, t', rfl⟩
  refine Ex.exists fun l => Ex.and fun hl0 => Ex.and fun hr => ?_
  subst hr
  by_cases hq : (cfg.irqPin && !(m.s.chip.airs l).irq) = true
  · rw [if_pos hq]
    refine Ex.pure fun x hx => ⟨l, hl0, Fm.at g ?_⟩
    have e : (m.s.aired l).poll cfg m.junk = m.s.aired l := by
      unfold Rfm.poll
      rw [if_pos]
      simp only [Bool.and_eq_true, Bool.not_eq_true'] at hq
      exact hq
    rw [e]; exact hx
  · rw [if_neg hq]
    refine Ex.post (Ex.pre (i_pollBody hA hc hl g ht (m := { m with s := m.s.aired l }) hi ⟨hk.1, (airs_r7 l _).trans hk.2⟩ (aired_base hb l) (airs_mild l hm))
      fun x hx => Fm.at g hx) ?_
    rintro _ x ⟨l2, hl2, hx⟩
    refine ⟨l ++ l2, hl0.append hl2, ?_⟩
    dsimp only at hx
    rw [aired_aired] at hx
    have e : (m.s.aired (l ++ l2)).poll cfg m.junk = (m.s.aired (l ++ l2)).pollBody cfg m.junk := by
      unfold Rfm.poll
      rw [if_neg]
      rintro ⟨hp, hx⟩
      apply hq
      have hirq : (m.s.chip.airs l).irq = false := by
        cases hh : (m.s.chip.airs l).irq with
        | false => rfl
        | true =>
          have := airs_irq l2 _ hh
          rw [← airs_append] at this
          rw [show (m.s.aired (l ++ l2)).chip.irq = true from this] at hx
          cases hx
      rw [hp, hirq]; rfl
    rw [e]; exact hx

end Spi
end

end OTR
