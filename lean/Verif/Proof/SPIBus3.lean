import Verif.Proof.SPIBus2
/-! # Lemmas: the byte-level RFM23B link with interrupts and radio events at any step -/

namespace OTR

/-! ## What the radio does by itself -/

/-- A number of radio events. -/
def Chip.airs (c : Chip) (l : List Air) : Chip := l.foldl Chip.air1 c

theorem byte_c4 : ∀ b : Byte, b &&& 0x0c = 0 → b &&& 4 = 0 := by apply forall_byte; decide +kernel
theorem byte_c8 : ∀ b : Byte, b &&& 0x0c = 0 → b &&& 8 = 0 := by apply forall_byte; decide +kernel
theorem byte_fb8 : ∀ b : Byte, b &&& 0xfb &&& 8 = b &&& 8 := by apply forall_byte; decide +kernel
theorem byte_f74 : ∀ b : Byte, b &&& 0xf7 &&& 4 = b &&& 4 := by apply forall_byte; decide +kernel
theorem byte_f78 : ∀ b : Byte, b &&& 0xf7 &&& 8 = 0 := by apply forall_byte; decide +kernel

theorem air1_spi (c : Chip) (e : Air) (b : Bool) : Chip.air1 { c with spi := b } e = { c.air1 e with spi := b } := by
  cases e <;> simp only [Chip.air1] <;> split <;> rfl
theorem air1_fault (c : Chip) (e : Air) (b : Bool) : Chip.air1 { c with fault := b } e = { c.air1 e with fault := b } := by
  cases e <;> simp only [Chip.air1] <;> split <;> rfl
theorem air1_flags (c : Chip) (e : Air) : (c.air1 e).fault = c.fault ∧ (c.air1 e).spi = c.spi := by
  cases e <;> simp only [Chip.air1] <;> split <;> exact ⟨rfl, rfl⟩
theorem air1_acc (c : Chip) (e : Air) : c.acc.air1 e = (c.air1 e).acc := by
  unfold Chip.acc
  rw [air1_fault]
  simp only [(air1_flags c e).1, (air1_flags c e).2]
theorem air1_off (c : Chip) (e : Air) (h : c.reg 7 &&& 4 = 0) : c.air1 e = c := by
  cases e <;> simp [Chip.air1, h]
theorem air1_r7 (c : Chip) (e : Air) : (c.air1 e).reg 7 &&& 8 = c.reg 7 &&& 8 := by
  cases e <;> simp only [Chip.air1] <;> split <;> try rfl
  exact byte_fb8 _

theorem airs_spi (l : List Air) : ∀ (c : Chip) (b : Bool), Chip.airs { c with spi := b } l = { c.airs l with spi := b } := by
  induction l with
  | nil => intro c b; rfl
  | cons e l ih => intro c b; show Chip.airs (Chip.air1 { c with spi := b } e) l = _; rw [air1_spi, ih]; rfl
theorem airs_acc (l : List Air) : ∀ (c : Chip), c.acc.airs l = (c.airs l).acc := by
  induction l with
  | nil => intro c; rfl
  | cons e l ih => intro c; show (c.acc.air1 e).airs l = _; rw [air1_acc, ih]; rfl
theorem airs_r7 (l : List Air) : ∀ (c : Chip), (c.airs l).reg 7 &&& 8 = c.reg 7 &&& 8 := by
  induction l with
  | nil => intro c; rfl
  | cons e l ih => intro c; exact (ih (c.air1 e)).trans (air1_r7 c e)
theorem airs_append (c : Chip) (l1 l2 : List Air) : c.airs (l1 ++ l2) = (c.airs l1).airs l2 := by
  unfold Chip.airs; rw [List.foldl_append]

theorem sent_off (c : Chip) (h : c.reg 7 &&& 8 = 0) : c.sent = c := by
  unfold Chip.sent; rw [if_neg (by simp [h])]
theorem sent_on (c : Chip) (h : c.reg 7 &&& 8 ≠ 0) :
    c.sent = { c with st1 := c.st1 ||| 4, reg := fun x => if x = 7 then c.reg 7 &&& 0xf7 else c.reg x } := by
  unfold Chip.sent; rw [if_pos h]
theorem sent_cases (c : Chip) : c.sent = c ∨
    c.sent = { c with st1 := c.st1 ||| 4, reg := fun x => if x = 7 then c.reg 7 &&& 0xf7 else c.reg x } := by
  by_cases h : c.reg 7 &&& 8 = 0
  · exact Or.inl (sent_off c h)
  · exact Or.inr (sent_on c h)
theorem sent_r4 (c : Chip) : c.sent.reg 7 &&& 4 = c.reg 7 &&& 4 := by
  rcases sent_cases c with e | e
  · rw [e]
  · rw [e]; exact byte_f74 _
theorem sent_r8 (c : Chip) : c.sent.reg 7 &&& 8 = 0 := by
  by_cases h : c.reg 7 &&& 8 = 0
  · rw [sent_off c h]; exact h
  · rw [sent_on c h]; exact byte_f78 _
theorem sent_sent (c : Chip) : c.sent.sent = c.sent := sent_off _ (sent_r8 c)
theorem sent_reg (c : Chip) (x : Nat) (hx : x ≠ 7) : c.sent.reg x = c.reg x := by
  rcases sent_cases c with e | e
  · rw [e]
  · rw [e]; simp [hx]
theorem sent_spi (c : Chip) (b : Bool) : Chip.sent { c with spi := b } = { c.sent with spi := b } := by
  unfold Chip.sent; dsimp only; split <;> rfl
theorem sent_acc (c : Chip) : c.acc.sent = c.sent.acc := by
  unfold Chip.sent Chip.acc; dsimp only; split <;> rfl
theorem sent_wr (c : Chip) (a : Nat) (v : Byte) (ha : a ≠ 7) : (c.wr a v).sent = c.sent.wr a v := by
  have e7 : (c.wr a v).reg 7 = c.reg 7 := by
    show (if 7 = a then v else c.reg 7) = _; rw [if_neg (fun h => ha h.symm)]
  by_cases h : c.reg 7 &&& 8 = 0
  · rw [sent_off c h, sent_off _ (by rw [e7]; exact h)]
  · rw [sent_on c h, sent_on _ (by rw [e7]; exact h), e7]
    unfold Chip.wr
    simp only [Chip.acc, ha, false_and, if_false]
    congr 1
    · funext x
      by_cases h7 : x = 7
      · subst h7; rw [if_pos rfl, if_neg (fun h => ha h.symm), if_pos rfl]
      · rw [if_neg h7]; simp [h7]

theorem onChip_same {m : Wire} {f : Chip → Chip} (h : f m.s.chip = m.s.chip) : m.onChip f = m := by
  unfold Wire.onChip; rw [h]

/-! ## Triples -/

/-- From every state in `S` the program, with `h` before each step, ends with `Q`. -/
def Ex (h : Wire → Wire) {α : Type} (p : BusP α) (S : Wire → Prop) (Q : α → Wire → Prop) : Prop :=
  ∀ m, S m → Q (p h m).1 (p h m).2

theorem Ex.bind {h : Wire → Wire} {α β : Type} {p : BusP α} {k : α → BusP β} {S : Wire → Prop} {Q : α → Wire → Prop} {R : β → Wire → Prop}
    (h1 : Ex h p S Q) (h2 : ∀ r, Ex h (k r) (Q r) R) : Ex h (p >>= k) S R :=
  fun m hm => h2 _ _ (h1 m hm)

theorem Ex.pure {h : Wire → Wire} {α : Type} {a : α} {S : Wire → Prop} {Q : α → Wire → Prop} (hq : ∀ m, S m → Q a m) :
    Ex h (Pure.pure a : BusP α) S Q := hq

theorem Ex.post {h : Wire → Wire} {α : Type} {p : BusP α} {S : Wire → Prop} {Q Q' : α → Wire → Prop}
    (h1 : Ex h p S Q) (h2 : ∀ r m, Q r m → Q' r m) : Ex h p S Q' := fun m hm => h2 _ _ (h1 m hm)

theorem Ex.pre {h : Wire → Wire} {α : Type} {p : BusP α} {S S' : Wire → Prop} {Q : α → Wire → Prop}
    (h1 : Ex h p S Q) (h2 : ∀ m, S' m → S m) : Ex h p S' Q := fun m hm => h1 m (h2 m hm)

/-- The machine `m`, step number aside. -/
def At (m x : Wire) : Prop := ∃ t, x = m.tm t

theorem Ex.runs {q : Bool} {h : Wire → Wire} (ht : Triv q h) {α : Type} {p : BusP α} {m m' : Wire} {r : α} (hr : Runs q p m r m') :
    Ex h p (At m) (fun r' x => r' = r ∧ At m' x) := by
  rintro x ⟨t, rfl⟩
  obtain ⟨t', e⟩ := hr h ht t
  rw [e]
  exact ⟨rfl, t', rfl⟩

/-- The same, then something. -/
theorem Ex.runsBind {q : Bool} {h : Wire → Wire} (ht : Triv q h) {α β : Type} {p : BusP α} {k : α → BusP β} {m m' : Wire} {r : α}
    {R : β → Wire → Prop} (hr : Runs q p m r m') (h2 : Ex h (k r) (At m') R) : Ex h (p >>= k) (At m) R :=
  Ex.bind (Ex.runs ht hr) fun r' => by
    rintro x ⟨rfl, hx⟩
    exact h2 x hx

theorem Ex.assoc {h : Wire → Wire} {α β γ : Type} {p : BusP α} {k : α → BusP β} {l : β → BusP γ} {S : Wire → Prop} {R : γ → Wire → Prop}
    (h1 : Ex h (p >>= fun x => k x >>= l) S R) : Ex h ((p >>= k) >>= l) S R := h1

/-- An existential in a precondition. -/
theorem Ex.exists {h : Wire → Wire} {α β : Type} {p : BusP α} {S : β → Wire → Prop} {Q : α → Wire → Prop} (h1 : ∀ b, Ex h p (S b) Q) :
    Ex h p (fun m => ∃ b, S b m) Q := fun m ⟨b, hb⟩ => h1 b m hb

theorem Ex.and {h : Wire → Wire} {α : Type} {p : BusP α} {P : Prop} {S : Wire → Prop} {Q : α → Wire → Prop} (h1 : P → Ex h p S Q) :
    Ex h p (fun m => P ∧ S m) Q := fun m ⟨hp, hb⟩ => h1 hp m hb

/-! ## Regimes -/

/-- A regime: between steps only the chip changes, by one of `F`; `K` says when. -/
structure Rgm (F : (Chip → Chip) → Prop) (K : Bool → Chip → Prop) (h : Wire → Wire) : Prop where
  one : F fun c => c
  comp : ∀ {f g}, F f → F g → F fun c => g (f c)
  acc : ∀ {f}, F f → ∀ c, f c.acc = (f c).acc
  spi : ∀ {f}, F f → ∀ (c : Chip) b, f { c with spi := b } = { f c with spi := b }
  kacc : ∀ {b c}, K b c → K b c.acc
  kspi : ∀ {b} {c : Chip} (x), K b c → K b { c with spi := x }
  kf : ∀ {f b c}, F f → K b c → K b (f c)
  kcli : ∀ {b c}, K b c → K false c
  hook : ∀ m : Wire, K m.ie m.s.chip → ∃ f, F f ∧ ∃ t, h m = (m.onChip f).tm t

/-- The machine `m` after changes in `F`. -/
def Fm (F : (Chip → Chip) → Prop) (m x : Wire) : Prop := ∃ f, F f ∧ ∃ t, x = (m.onChip f).tm t

section
variable {F : (Chip → Chip) → Prop} {K : Bool → Chip → Prop} {h : Wire → Wire}

theorem Fm.at (g : Rgm F K h) {m x : Wire} (hx : At m x) : Fm F m x := by
  obtain ⟨t, rfl⟩ := hx
  exact ⟨_, g.one, t, rfl⟩

/-- A step after one more change. -/
theorem Rgm.step (g : Rgm F K h) {α : Type} {p : Wire → α × Wire} {m : Wire} {Q : α → Wire → Prop} (hk : K m.ie m.s.chip)
    (hq : ∀ f, F f → ∀ t, Q (p ((m.onChip f).tm t)).1 (p ((m.onChip f).tm t)).2) : Ex h (BusP.prim p) (Fm F m) Q := by
  rintro x ⟨f, hf, t, rfl⟩
  obtain ⟨f', hf', t', e⟩ := g.hook ((m.onChip f).tm t) (g.kf hf hk)
  show Q (p (h ((m.onChip f).tm t))).1 (p (h ((m.onChip f).tm t))).2
  rw [e]
  exact hq _ (g.comp hf hf') t'

/-- A step that commutes with the changes. -/
theorem Rgm.prim (g : Rgm F K h) {α : Type} {p : Wire → α × Wire} {m m' : Wire} {r : α} (hk : K m.ie m.s.chip)
    (hp : ∀ f, F f → ∀ t, p ((m.onChip f).tm t) = (r, (m'.onChip f).tm t)) :
    Ex h (BusP.prim p) (Fm F m) (fun r' x => r' = r ∧ Fm F m' x) :=
  g.step hk fun f hf t => by rw [hp f hf t]; exact ⟨rfl, f, hf, t, rfl⟩

theorem Rgm.bind (g : Rgm F K h) {α β : Type} {p : BusP α} {k : α → BusP β} {m m' : Wire} {r : α} {R : β → Wire → Prop}
    (h1 : Ex h p (Fm F m) (fun r' x => r' = r ∧ Fm F m' x)) (h2 : Ex h (k r) (Fm F m') R) : Ex h (p >>= k) (Fm F m) R :=
  have _ := g
  Ex.bind h1 fun r' => by
    rintro x ⟨rfl, hx⟩
    exact h2 x hx

namespace Spi

theorem g_cli (g : Rgm F K h) {m : Wire} (hk : K m.ie m.s.chip) :
    Ex h (BusP.prim fun m => (m.ie, { m with ie := false })) (Fm F m) (fun r x => r = m.ie ∧ Fm F { m with ie := false } x) :=
  g.prim hk fun _ _ _ => rfl

theorem g_sei (g : Rgm F K h) {m : Wire} (hk : K m.ie m.s.chip) (w : Bool) :
    Ex h (BusP.prim fun m => ((), { m with ie := w })) (Fm F m) (fun r x => r = () ∧ Fm F { m with ie := w } x) :=
  g.prim hk fun _ _ _ => rfl

theorem g_load (g : Rgm F K h) {m : Wire} (hk : K m.ie m.s.chip) :
    Ex h (load fun _ => ()) (Fm F m) (fun r x => r = () ∧ Fm F m x) :=
  g.prim hk fun _ _ _ => rfl

theorem g_sel (g : Rgm F K h) {m : Wire} (hi : m.Idle) (hk : K m.ie m.s.chip) :
    Ex h sel (Fm F m) (fun r x => r = () ∧ Fm F { m with ph := .addr } x) := by
  obtain ⟨s, junk, ph, ie, ju, t⟩ := m
  obtain ⟨rfl, rfl⟩ : ph = .idle ∧ ju = 0 := hi
  exact g.prim hk fun _ _ _ => rfl

theorem g_desel (g : Rgm F K h) {m : Wire} (hk : K m.ie m.s.chip) :
    Ex h desel (Fm F m) (fun r x => r = () ∧ Fm F { m with ph := .idle, ju := 0 } x) :=
  g.prim hk fun _ _ _ => rfl

theorem g_addrW (g : Rgm F K h) {m : Wire} (hp : m.ph = .addr) (hk : K m.ie m.s.chip) (a : Nat) (ha : a < 128) :
    Ex h (xfer (u8 a ||| 0x80)) (Fm F m) (fun r x => r = 0 ∧ Fm F { m.onChip Chip.acc with ph := .data true a } x) := by
  obtain ⟨s, junk, ph, ie, ju, t⟩ := m
  obtain rfl : ph = .addr := hp
  obtain ⟨e1, e2⟩ := addr_w a ha
  refine g.prim hk fun f hf t => ?_
  simp only [Wire.tm, Wire.onChip]
  rw [e1, e2, g.acc hf]

theorem g_addrR (g : Rgm F K h) {m : Wire} (hp : m.ph = .addr) (hk : K m.ie m.s.chip) (a : Nat) (ha : a < 128) :
    Ex h (xfer (u8 a &&& 0x7f)) (Fm F m) (fun r x => r = 0 ∧ Fm F { m.onChip Chip.acc with ph := .data false a } x) := by
  obtain ⟨s, junk, ph, ie, ju, t⟩ := m
  obtain rfl : ph = .addr := hp
  obtain ⟨e1, e2⟩ := addr_r a ha
  refine g.prim hk fun f hf t => ?_
  simp only [Wire.tm, Wire.onChip]
  rw [e1, e2, g.acc hf]

theorem g_up (g : Rgm F K h) {m : Wire} (hi : m.Idle) (hs : m.s.chip.spi = false) (hk : K m.ie m.s.chip) :
    Ex h up (Fm F m) (fun r x => r = true ∧ Fm F (m.onChip fun c => { c with spi := true }) x) := by
  obtain ⟨s, junk, ph, ie, ju, t⟩ := m
  obtain ⟨rfl, rfl⟩ : ph = .idle ∧ ju = 0 := hi
  have hs : s.chip.spi = false := hs
  refine g.prim hk fun f hf t => ?_
  have e : (f s.chip).spi = false := by
    have := g.spi hf s.chip false
    rw [show ({ s.chip with spi := false } : Chip) = s.chip by rw [← hs]] at this
    rw [this]
  show (if (f s.chip).spi = true then _ else _) = _
  rw [if_neg (by rw [e]; simp)]
  simp only [Wire.tm, Wire.onChip]
  rw [g.spi hf s.chip true]

theorem g_down (g : Rgm F K h) {m : Wire} (hi : m.Idle) (hk : K m.ie m.s.chip) :
    Ex h down (Fm F m) (fun r x => r = () ∧ Fm F (m.onChip fun c => { c with spi := false }) x) := by
  obtain ⟨s, junk, ph, ie, ju, t⟩ := m
  obtain ⟨rfl, rfl⟩ : ph = .idle ∧ ju = 0 := hi
  refine g.prim hk fun f hf t => ?_
  simp only [Wire.tm, Wire.onChip]
  rw [g.spi hf s.chip false]

/-- A register the changes do not depend on. -/
theorem g_put (g : Rgm F K h) {m : Wire} {a : Nat} (hp : m.ph = .data true a) (hk : K m.ie m.s.chip) (v : Byte) (ha : a < 127)
    (hf : ∀ f, F f → ∀ c : Chip, f (c.wr a v) = (f c).wr a v) :
    Ex h (xfer v) (Fm F m) (fun r x => r = 0 ∧ Fm F { m.onChip (fun c => c.wr a v) with ph := .data true (a + 1) } x) := by
  obtain ⟨s, junk, ph, ie, ju, t⟩ := m
  obtain rfl : ph = .data true a := hp
  refine g.prim hk fun f hff t => ?_
  have hn : nextA a = a + 1 := by unfold nextA; rw [if_neg (by omega)]
  simp only [Wire.tm, Wire.onChip]
  rw [wrB_wr _ _ ha, hf f hff, hn]

theorem g_writeReg (g : Rgm F K h) {m : Wire} (hi : m.Idle) (a : Nat) (ha : a < 127) (v : Byte) (hk : K m.ie m.s.chip)
    (hf : ∀ f, F f → ∀ c : Chip, f (c.wr a v) = (f c).wr a v) (hk' : K m.ie (m.s.chip.wr a v)) :
    Ex h (writeReg a v) (Fm F m) (fun r x => r = () ∧ Fm F (m.onChip fun c => c.wr a v) x) := by
  obtain ⟨s, junk, ph, ie, ju, t⟩ := m
  obtain ⟨rfl, rfl⟩ : ph = .idle ∧ ju = 0 := hi
  refine g.bind (g_sel g ⟨rfl, rfl⟩ (by exact hk)) ?_
  refine g.bind (g_addrW g rfl (by exact hk) a (by omega)) ?_
  refine g.bind (g_put g rfl (by exact g.kacc hk) v ha hf) ?_
  simp only [Wire.onChip, acc_wr]
  exact Ex.post (g_desel (m := ⟨{ s with chip := s.chip.wr a v }, junk, .data true (a + 1), ie, 0, t⟩) g hk') fun _ _ hx => ⟨trivial, hx.2⟩

/-- Putting the radio in standby, from any regime, with interrupts off: from here on nothing happens. -/
theorem g_stop (g : Rgm F K h) (ht : Triv true h) {m : Wire} (hi : m.Idle) (hie : m.ie = false) (hs : m.s.chip.spi = false)
    (hk : K false m.s.chip) :
    Ex h (powered do writeReg 7 0; standbyRest) (Fm F m) (fun _ x => ∃ f, F f ∧ At (m.onChip fun c => (f c).standbyClear) x) := by
  obtain ⟨s, junk, ph, ie, ju, t⟩ := m
  obtain ⟨rfl, rfl⟩ : ph = .idle ∧ ju = 0 := hi
  obtain rfl : ie = false := hie
  have hs : s.chip.spi = false := hs
  have k1 : K false ({ s.chip with spi := true } : Chip) := g.kspi _ hk
  refine g.bind (g_up g ⟨rfl, rfl⟩ hs hk) ?_
  unfold writeReg
  refine Ex.assoc (Ex.assoc (g.bind (g_sel g ⟨rfl, rfl⟩ (by exact g.kspi _ hk)) ?_))
  refine Ex.assoc (g.bind (g_addrW (m := ⟨{ s with chip := { s.chip with spi := true } }, junk, .addr, false, 0, t⟩) g rfl (by exact k1) 7 (by omega)) ?_)
  have hfs : ∀ f, F f → (f s.chip).spi = false := by
    intro f hf
    have := g.spi hf s.chip false
    rw [show ({ s.chip with spi := false } : Chip) = s.chip by rw [← hs]] at this
    rw [this]
  refine Ex.assoc ?_
  refine Ex.bind (Q := fun _ x => ∃ f, F f ∧ At ⟨{ s with chip := Chip.wr { f s.chip with spi := true } 7 0 }, junk, .data true 8, false, 0, t⟩ x)
    (g.step (by exact g.kacc (g.kspi _ hk)) fun f hf t' => ⟨f, hf, t', ?_⟩) fun _ => ?_
  · simp only [Wire.tm, Wire.onChip]
    rw [wrB_wr _ _ (by omega), g.acc hf, g.spi hf, acc_wr]
    rfl
  · refine Ex.exists fun f => Ex.and fun hf => ?_
    have k7 : Kq true false (Chip.wr { f s.chip with spi := true } 7 0) := fun _ => ⟨by simp [Chip.wr], Or.inl rfl⟩
    refine Ex.runsBind ht (r_desel (by exact k7)) ?_
    refine Ex.runsBind ht (r_standbyRest (m := ⟨{ s with chip := Chip.wr { f s.chip with spi := true } 7 0 }, junk, .idle, false, 0, t⟩)
      ⟨rfl, rfl⟩ rfl (by exact k7)) ?_
    have kr : Kq true false (((((Chip.wr { f s.chip with spi := true } 7 0).wr 8 3).wr 8 0).wr 5 0).wr 6 0).clrInt :=
      fun _ => ⟨by simp [Chip.wr, Chip.clrInt, Chip.acc], Or.inl rfl⟩
    have e : (f s.chip).standbyClear = { (((((Chip.wr { f s.chip with spi := true } 7 0).wr 8 3).wr 8 0).wr 5 0).wr 6 0).clrInt with spi := false } := by
      unfold Chip.standbyClear Chip.withSPI; rw [if_neg (by rw [hfs f hf]; simp)]
    refine Ex.runsBind ht (r := ()) (m' := ⟨{ s with chip := { (((((Chip.wr { f s.chip with spi := true } 7 0).wr 8 3).wr 8 0).wr 5 0).wr 6 0).clrInt with spi := false } }, junk, .idle, false, 0, t⟩)
      (Runs.prim (by exact kr) fun _ => rfl) ?_
    refine Ex.pure fun x hx => ⟨f, hf, ?_⟩
    rw [← e] at hx
    exact hx

/-- `standby` with interrupts on: what happens before they are turned off, then the rest. -/
theorem g_standby (g : Rgm F K h) (ht : Triv true h) {m : Wire} (hi : m.Idle) (hs : m.s.chip.spi = false) (hk : K m.ie m.s.chip) :
    Ex h standby (Fm F m) (fun _ x => ∃ f, F f ∧ At (m.onChip fun c => (f c).standbyClear) x) := by
  refine g.bind (g_cli g hk) ?_
  refine Ex.bind (g_stop (m := { m with ie := false }) g ht hi rfl hs (g.kcli hk)) fun _ => ?_
  refine Ex.exists fun f => Ex.and fun hf => ?_
  refine Ex.runsBind ht (r := ()) (m' := m.onChip fun c => (f c).standbyClear) (Runs.prim ?_ fun _ => rfl) (Ex.pure fun x hx => ⟨f, hf, hx⟩)
  intro _
  exact ⟨by show (f m.s.chip).standbyClear.reg 7 &&& 0x0c = 0; rw [standbyClear_eq]; simp, Or.inl rfl⟩

end Spi
end

/-! ## The regimes of the link -/

/-- The radio events of a schedule satisfy `A`. -/
def RSched (A : Air → Prop) (r : Nat → List REnv) : Prop := ∀ t e, REnv.air e ∈ r t → A e
def Sched (A : Air → Prop) (w : Nat → List WEnv) : Prop :=
  (∀ t e, WEnv.radio (.air e) ∈ w t → A e) ∧ ∀ t r, WEnv.irq r ∈ w t → RSched A r

/-- With the radio off nothing happens. -/
theorem radios_off (l : List REnv) (m : Wire) (h7 : m.s.chip.reg 7 &&& 0x0c = 0) : l.foldl Wire.radio m = m := by
  induction l with
  | nil => rfl
  | cons e l ih =>
    have : m.radio e = m := by
      cases e with
      | air e => exact onChip_same (f := fun c => c.air1 e) (air1_off _ e (byte_c4 _ h7))
      | sent => exact onChip_same (sent_off _ (byte_c8 _ h7))
    rw [List.foldl_cons, this]; exact ih

theorem radioHook_triv (r : Nat → List REnv) : Triv true (Wire.radioHook r) := by
  intro m hk
  obtain ⟨h7, -⟩ := hk rfl
  exact ⟨m.t + 1, radios_off (r m.t) { m with t := m.t + 1 } h7⟩

theorem handler_idle {cfg : RfmCfg} (hp : cfg.irqPin = true) {h : Wire → Wire} {m : Wire} (hq : (h m).s.chip.irq = false) :
    (Spi.handler cfg h m).2 = m ∨ (Spi.handler cfg h m).2 = h m := by
  unfold Spi.handler
  by_cases ha : cfg.allowRX = false
  · rw [if_pos ha]; exact Or.inl rfl
  · rw [if_neg ha]
    right
    show (Spi.pollBody cfg |> fun p => (if (cfg.irqPin && !(h m).s.chip.irq) = true then (Pure.pure () : BusP Unit) else p) h (h m)).2 = h m
    rw [hp, hq]
    rfl

theorem env_irq_idle {cfg : RfmCfg} (hp : cfg.irqPin = true) (r : Nat → List REnv) {m : Wire} {f : Chip → Chip}
    (h : m.ie = false ∨ ((f m.s.chip).irq = false ∧ ∃ t, Wire.radioHook r { m with ie := false } = (({ m with ie := false } : Wire).onChip f).tm t)) :
    m.env cfg (.irq r) = m ∨ ∃ t, m.env cfg (.irq r) = (m.onChip f).tm t := by
  unfold Wire.env
  dsimp only
  by_cases hie : m.ie = true
  · rw [if_pos hie]
    obtain ⟨hq, t, e⟩ := h.resolve_left (by rw [hie]; simp)
    rcases handler_idle (cfg := cfg) hp (h := Wire.radioHook r) (m := { m with ie := false }) (by rw [e]; exact hq) with e2 | e2
    · left; rw [e2, ← hie]
    · right; refine ⟨t, ?_⟩; rw [e2, e, ← hie]; rfl
  · rw [if_neg hie]; exact Or.inl rfl

theorem tm_tm (m : Wire) (t t' : Nat) : (m.tm t).tm t' = m.tm t' := rfl

theorem hook_triv {cfg : RfmCfg} (hp : cfg.irqPin = true) (w : Nat → List WEnv) : Triv true (Wire.hook cfg w) := by
  intro m hk
  obtain ⟨h7, hq⟩ := hk rfl
  unfold Wire.hook
  have : ∀ (l : List WEnv) (m : Wire), m.s.chip.reg 7 &&& 0x0c = 0 → (m.ie = false ∨ m.s.chip.irq = false) → ∃ t, l.foldl (Wire.env cfg) m = m.tm t := by
    intro l
    induction l with
    | nil => intro m _ _; exact ⟨m.t, rfl⟩
    | cons e l ih =>
      intro m h7 hq
      have : ∃ t, m.env cfg e = m.tm t := by
        cases e with
        | radio e => exact ⟨m.t, radios_off [e] m h7⟩
        | irq r =>
          rcases env_irq_idle (f := fun c => c) hp r (m := m) (hq.imp id fun h => ⟨h, radioHook_triv r { m with ie := false } fun _ => ⟨h7, Or.inl rfl⟩⟩) with e | ⟨t, e⟩
          · exact ⟨m.t, e⟩
          · exact ⟨t, e⟩
      obtain ⟨t, e⟩ := this
      rw [List.foldl_cons, e]
      obtain ⟨t', e'⟩ := ih (m.tm t) h7 hq
      exact ⟨t', e'⟩
  obtain ⟨t, e⟩ := this (w m.t) { m with t := m.t + 1 } h7 hq
  exact ⟨t, e⟩

/-- Changes by reception of events satisfying `A`. -/
def FAir (A : Air → Prop) (f : Chip → Chip) : Prop := ∃ l, (∀ e ∈ l, A e) ∧ f = fun c => c.airs l

/-- No transmission, and interrupts off. -/
def KAir (b : Bool) (c : Chip) : Prop := b = false ∧ c.reg 7 &&& 8 = 0

theorem rgm_airs {A : Air → Prop} {h : Wire → Wire}
    (hh : ∀ m : Wire, m.ie = false → m.s.chip.reg 7 &&& 8 = 0 → ∃ la, (∀ e ∈ la, A e) ∧ ∃ t, h m = (m.onChip fun c => c.airs la).tm t) :
    Rgm (FAir A) KAir h where
  one := ⟨[], (by intro e h; cases h), rfl⟩
  comp := by
    rintro f g ⟨l1, h1, rfl⟩ ⟨l2, h2, rfl⟩
    refine ⟨l1 ++ l2, ?_, by funext c; rw [airs_append]⟩
    intro e he
    rcases List.mem_append.1 he with he | he
    · exact h1 e he
    · exact h2 e he
  acc := by rintro f ⟨l, -, rfl⟩ c; exact airs_acc l c
  spi := by rintro f ⟨l, -, rfl⟩ c b; exact airs_spi l c b
  kacc := fun h => h
  kspi := fun _ h => h
  kf := by rintro f b c ⟨l, -, rfl⟩ ⟨h1, h2⟩; exact ⟨h1, by rw [airs_r7]; exact h2⟩
  kcli := fun h => ⟨rfl, h.2⟩
  hook := by
    intro m hk
    obtain ⟨la, h1, t, e⟩ := hh m hk.1 hk.2
    exact ⟨_, ⟨la, h1, rfl⟩, t, e⟩

theorem rgm_radio {A : Air → Prop} {r : Nat → List REnv} (hr : RSched A r) : Rgm (FAir A) KAir (Wire.radioHook r) := by
  refine rgm_airs fun m _ h7 => ?_
  have : ∀ (l : List REnv) (m : Wire), (∀ e, REnv.air e ∈ l → A e) → m.s.chip.reg 7 &&& 8 = 0 →
      ∃ la, (∀ e ∈ la, A e) ∧ l.foldl Wire.radio m = m.onChip fun c => c.airs la := by
    intro l
    induction l with
    | nil => intro m _ _; exact ⟨[], (by intro e h; cases h), rfl⟩
    | cons e l ih =>
      intro m hl h7
      have hl' : ∀ e, REnv.air e ∈ l → A e := fun e he => hl e (List.mem_cons_of_mem _ he)
      rw [List.foldl_cons]
      cases e with
      | air e =>
        obtain ⟨la, ha, h⟩ := ih (m.onChip fun c => c.air1 e) hl' (by show (m.s.chip.air1 e).reg 7 &&& 8 = 0; rw [air1_r7]; exact h7)
        refine ⟨e :: la, ?_, h⟩
        intro x hx
        rcases List.mem_cons.1 hx with rfl | hx
        · exact hl x (List.mem_cons_self ..)
        · exact ha x hx
      | sent =>
        have e : m.radio .sent = m := by exact onChip_same (sent_off _ h7)
        rw [e]; exact ih m hl' h7
  obtain ⟨la, h1, e⟩ := this (r m.t) { m with t := m.t + 1 } (hr m.t) h7
  exact ⟨la, h1, m.t + 1, e⟩

theorem rgm_air {A : Air → Prop} (cfg : RfmCfg) {w : Nat → List WEnv} (hw : Sched A w) : Rgm (FAir A) KAir (Wire.hook cfg w) := by
  refine rgm_airs fun m hie h7 => ?_
  have : ∀ (l : List WEnv) (m : Wire), (∀ e, WEnv.radio (.air e) ∈ l → A e) → m.ie = false → m.s.chip.reg 7 &&& 8 = 0 →
      ∃ la, (∀ e ∈ la, A e) ∧ l.foldl (Wire.env cfg) m = m.onChip fun c => c.airs la := by
    intro l
    induction l with
    | nil => intro m _ _ _; exact ⟨[], (by intro e h; cases h), rfl⟩
    | cons e l ih =>
      intro m hl hie h7
      have hl' : ∀ e, WEnv.radio (.air e) ∈ l → A e := fun e he => hl e (List.mem_cons_of_mem _ he)
      rw [List.foldl_cons]
      cases e with
      | radio e =>
        cases e with
        | air e =>
          obtain ⟨la, ha, h⟩ := ih (m.onChip fun c => c.air1 e) hl' hie (by show (m.s.chip.air1 e).reg 7 &&& 8 = 0; rw [air1_r7]; exact h7)
          refine ⟨e :: la, ?_, h⟩
          intro x hx
          rcases List.mem_cons.1 hx with rfl | hx
          · exact hl x (List.mem_cons_self ..)
          · exact ha x hx
        | sent =>
          have e : m.env cfg (.radio .sent) = m := by exact onChip_same (sent_off _ h7)
          rw [e]; exact ih m hl' hie h7
      | irq r =>
        have e : m.env cfg (.irq r) = m := by unfold Wire.env; dsimp only; rw [if_neg (by rw [hie]; simp)]
        rw [e]; exact ih m hl' hie h7
  obtain ⟨la, h1, e⟩ := this (w m.t) { m with t := m.t + 1 } (hw.1 m.t) hie h7
  exact ⟨la, h1, m.t + 1, e⟩

/-- Changes by the end of a transmission. -/
def FSent (f : Chip → Chip) : Prop := (f = fun c => c) ∨ f = Chip.sent

/-- A transmission may be going on, and asks for no interrupt. -/
def KSent (b : Bool) (c : Chip) : Prop := c.reg 7 &&& 4 = 0 ∧ (b = false ∨ (c.irq = false ∧ c.sent.irq = false))

theorem rgm_sent {cfg : RfmCfg} (hp : cfg.irqPin = true) (w : Nat → List WEnv) : Rgm FSent KSent (Wire.hook cfg w) where
  one := Or.inl rfl
  comp := by
    rintro f g (rfl | rfl) (rfl | rfl)
    · exact Or.inl rfl
    · exact Or.inr rfl
    · exact Or.inr rfl
    · exact Or.inr (funext sent_sent)
  acc := by
    rintro f (rfl | rfl) c
    · rfl
    · exact sent_acc c
  spi := by
    rintro f (rfl | rfl) c b
    · rfl
    · exact sent_spi c b
  kacc := by
    rintro b c ⟨h1, h2⟩
    refine ⟨h1, h2.imp id fun h => ⟨h.1, ?_⟩⟩
    rw [sent_acc]; exact h.2
  kspi := by
    rintro b c x ⟨h1, h2⟩
    refine ⟨h1, h2.imp id fun h => ⟨h.1, ?_⟩⟩
    rw [sent_spi]; exact h.2
  kf := by
    rintro f b c (rfl | rfl) ⟨h1, h2⟩
    · exact ⟨h1, h2⟩
    · exact ⟨by rw [sent_r4]; exact h1, h2.imp id fun h => ⟨h.2, by rw [sent_sent]; exact h.2⟩⟩
  kcli := fun h => ⟨h.1, Or.inl rfl⟩
  hook := by
    intro m hk
    have rad : ∀ (l : List REnv) (m : Wire), KSent m.ie m.s.chip → ∃ f, FSent f ∧ l.foldl Wire.radio m = m.onChip f := by
      intro l
      induction l with
      | nil => intro m _; exact ⟨_, Or.inl rfl, rfl⟩
      | cons e l ih =>
        intro m ⟨h1, h2⟩
        rw [List.foldl_cons]
        cases e with
        | air e =>
          have e : m.radio (.air e) = m := by exact onChip_same (f := fun c => c.air1 e) (air1_off _ e h1)
          rw [e]; exact ih m ⟨h1, h2⟩
        | sent =>
          obtain ⟨f, hf, e⟩ := ih (m.onChip Chip.sent) ⟨by show m.s.chip.sent.reg 7 &&& 4 = 0; rw [sent_r4]; exact h1,
            h2.imp id fun h => ⟨h.2, by show m.s.chip.sent.sent.irq = false; rw [sent_sent]; exact h.2⟩⟩
          refine ⟨Chip.sent, Or.inr rfl, e.trans ?_⟩
          rcases hf with rfl | rfl
          · rfl
          · show (m.onChip Chip.sent).onChip Chip.sent = _; unfold Wire.onChip; dsimp only; rw [sent_sent]
    have kf : ∀ {f b c}, FSent f → KSent b c → KSent b (f c) := by
      rintro f b c (rfl | rfl) ⟨h1, h2⟩
      · exact ⟨h1, h2⟩
      · exact ⟨by rw [sent_r4]; exact h1, h2.imp id fun h => ⟨h.2, by rw [sent_sent]; exact h.2⟩⟩
    have fcomp : ∀ {f g}, FSent f → FSent g → FSent fun c => g (f c) := by
      rintro f g (rfl | rfl) (rfl | rfl)
      · exact Or.inl rfl
      · exact Or.inr rfl
      · exact Or.inr rfl
      · exact Or.inr (funext sent_sent)
    have : ∀ (l : List WEnv) (m : Wire), KSent m.ie m.s.chip → ∃ f, FSent f ∧ ∃ t, l.foldl (Wire.env cfg) m = (m.onChip f).tm t := by
      intro l
      induction l with
      | nil => intro m _; exact ⟨_, Or.inl rfl, m.t, rfl⟩
      | cons e l ih =>
        intro m hk
        have one : ∃ f, FSent f ∧ ∃ t, m.env cfg e = (m.onChip f).tm t := by
          cases e with
          | radio e =>
            obtain ⟨f, hf, e⟩ := rad [e] m hk
            exact ⟨f, hf, m.t, e⟩
          | irq r =>
            by_cases hie : m.ie = false
            · refine ⟨_, Or.inl rfl, m.t, ?_⟩
              unfold Wire.env; dsimp only; rw [if_neg (by rw [hie]; simp)]; rfl
            · obtain ⟨h1, h2⟩ := hk
              have h2 := h2.resolve_left hie
              obtain ⟨f, hf, e⟩ := rad (r m.t) ({ m with ie := false, t := m.t + 1 } : Wire) ⟨h1, Or.inl rfl⟩
              have hq : (f m.s.chip).irq = false := by
                rcases hf with rfl | rfl
                · exact h2.1
                · exact h2.2
              rcases env_irq_idle (f := f) hp r (m := m) (Or.inr ⟨hq, m.t + 1, e⟩) with e | ⟨t, e⟩
              · exact ⟨_, Or.inl rfl, m.t, e⟩
              · exact ⟨f, hf, t, e⟩
        obtain ⟨f, hf, t, e⟩ := one
        obtain ⟨f', hf', t', e'⟩ := ih ((m.onChip f).tm t) (kf hf hk)
        refine ⟨_, fcomp hf hf', t', ?_⟩
        rw [List.foldl_cons, e, e']; rfl
    obtain ⟨f, hf, t, e⟩ := this (w m.t) { m with t := m.t + 1 } hk
    exact ⟨f, hf, t, e⟩

end OTR
