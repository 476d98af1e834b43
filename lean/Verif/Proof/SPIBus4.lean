import Verif.Proof.SPIBus3
/-! # Lemmas: sending, byte by byte, with interrupts and radio events at any step -/

namespace OTR

theorem fsent_wr {f : Chip → Chip} (hf : FSent f) (c : Chip) (a : Nat) (v : Byte) (ha : a ≠ 7) : f (c.wr a v) = (f c).wr a v := by
  rcases hf with rfl | rfl
  · rfl
  · exact sent_wr c a v ha

theorem fsent_ite {f : Chip → Chip} (hf : FSent f) : ∃ b : Bool, f = fun c => if b = true then c.sent else c := by
  rcases hf with rfl | rfl
  · exact ⟨false, rfl⟩
  · exact ⟨true, rfl⟩

theorem KSent.wr {b : Bool} {c : Chip} (h : KSent b c) (hb : b = false) (a : Nat) (v : Byte) (ha : a = 7 → v &&& 4 = 0) : KSent b (c.wr a v) := by
  refine ⟨?_, Or.inl hb⟩
  show (if 7 = a then v else c.reg 7) &&& 4 = 0
  by_cases e : 7 = a
  · rw [if_pos e]; exact ha e.symm
  · rw [if_neg e]; exact h.1

theorem KSent.low {c c' : Chip} (h : KSent false c) (e : c'.reg 7 = c.reg 7) : KSent false c' :=
  ⟨by rw [e]; exact h.1, Or.inl rfl⟩

/-- With no interrupt enabled. -/
theorem KSent.noInt {b : Bool} {c : Chip} (h5 : c.reg 5 = 0) (h6 : c.reg 6 = 0) (h7 : c.reg 7 &&& 4 = 0) : KSent b c := by
  have key : ∀ c : Chip, c.reg 5 = 0 → c.reg 6 = 0 → c.irq = false := by
    intro c h5 h6; unfold Chip.irq; rw [h5, h6]; simp
  exact ⟨h7, Or.inr ⟨key c h5 h6, key _ (by rw [sent_reg _ _ (by omega)]; exact h5) (by rw [sent_reg _ _ (by omega)]; exact h6)⟩⟩

theorem KSent.ofQ {c : Chip} (h : Kq true true c) : KSent true c := by
  obtain ⟨h7, h2⟩ := h rfl
  have h2 := h2.resolve_left (by simp)
  exact ⟨byte_c4 _ h7, Or.inr ⟨h2, by rw [sent_off _ (byte_c8 _ h7)]; exact h2⟩⟩

namespace Spi
variable {h : Wire → Wire}

/-- Reading the first status byte. -/
theorem t_readSt (g : Rgm FSent KSent h) {m : Wire} (hi : m.Idle) (hk : KSent m.ie m.s.chip)
    (hk' : ∀ f, FSent f → KSent m.ie { (f m.s.chip).acc with st1 := 0 }) :
    Ex h (readReg 3) (Fm FSent m) (fun r x => ∃ f, FSent f ∧ r = (f m.s.chip).st1 ∧
      Fm FSent (m.onChip fun c => { (f c).acc with st1 := 0 }) x) := by
  obtain ⟨s, junk, ph, ie, ju, t⟩ := m
  obtain ⟨rfl, rfl⟩ : ph = .idle ∧ ju = 0 := hi
  refine g.bind (g_sel g ⟨rfl, rfl⟩ (by exact hk)) ?_
  refine g.bind (g_addrR (m := ⟨s, junk, .addr, ie, 0, t⟩) g rfl (by exact hk) 3 (by omega)) ?_
  refine Ex.bind (Q := fun r x => ∃ f, FSent f ∧ r = (f s.chip).st1 ∧
      At ⟨{ s with chip := { (f s.chip).acc with st1 := 0 } }, junk, .data false 4, ie, 0, t⟩ x)
    (g.step (by exact g.kacc hk) fun f hf t' => ⟨f, hf, ?_, t', ?_⟩) fun r => ?_
  · show (Chip.rdB (f s.chip.acc) 3 (junk 0)).1 = _
    rw [g.acc hf, rd3]
  · show ({ s := { s with chip := (Chip.rdB (f s.chip.acc) 3 (junk 0)).2 }, junk := junk, ph := .data false (nextA 3), ie := ie,
            ju := if 3 = 0x7f ∧ _ then _ else _, t := t' } : Wire) = _
    rw [g.acc hf, rd3, if_neg (by omega)]
    rfl
  · refine Ex.exists fun f => Ex.and fun hf => Ex.and fun hr => ?_
    refine Ex.pre (S := Fm FSent ⟨{ s with chip := { (f s.chip).acc with st1 := 0 } }, junk, .data false 4, ie, 0, t⟩) ?_ fun x hx => Fm.at g hx
    refine g.bind (g_desel (m := ⟨{ s with chip := { (f s.chip).acc with st1 := 0 } }, junk, .data false 4, ie, 0, t⟩) g (by exact hk' f hf)) ?_
    exact Ex.pure fun x hx => ⟨f, hf, hr, hx⟩

/-- Clearing the status bytes. -/
theorem t_clear (g : Rgm FSent KSent h) {m : Wire} (hi : m.Idle) (hie : m.ie = false) (hk : KSent false m.s.chip) :
    Ex h clearInts (Fm FSent m) (fun _ x => ∃ f, FSent f ∧ Fm FSent (m.onChip fun c => (f c).clrInt) x) := by
  obtain ⟨s, junk, ph, ie, ju, t⟩ := m
  obtain ⟨rfl, rfl⟩ : ph = .idle ∧ ju = 0 := hi
  obtain rfl : ie = false := hie
  have hk : KSent false s.chip := hk
  refine g.bind (g_sel g ⟨rfl, rfl⟩ (by exact hk)) ?_
  refine g.bind (g_addrR (m := ⟨s, junk, .addr, false, 0, t⟩) g rfl (by exact hk) 3 (by omega)) ?_
  refine Ex.bind (Q := fun _ x => ∃ f, FSent f ∧
      At ⟨{ s with chip := { (f s.chip).acc with st1 := 0 } }, junk, .data false 4, false, 0, t⟩ x)
    (g.step (by exact g.kacc hk) fun f hf t' => ⟨f, hf, t', ?_⟩) fun r => ?_
  · show ({ s := { s with chip := (Chip.rdB (f s.chip.acc) 3 (junk 0)).2 }, junk := junk, ph := .data false (nextA 3), ie := false,
            ju := if 3 = 0x7f ∧ _ then _ else _, t := t' } : Wire) = _
    rw [g.acc hf, rd3, if_neg (by omega)]
    rfl
  · refine Ex.exists fun f => Ex.and fun hf => ?_
    have k2 : KSent false { (f s.chip).acc with st1 := 0 } := (g.kf hf hk).low rfl
    have k3 : KSent false (f s.chip).clrInt := (g.kf hf hk).low rfl
    refine Ex.pre (S := Fm FSent ⟨{ s with chip := { (f s.chip).acc with st1 := 0 } }, junk, .data false 4, false, 0, t⟩) ?_ fun x hx => Fm.at g hx
    refine g.bind (r := (f s.chip).st2) (m' := ⟨{ s with chip := (f s.chip).clrInt }, junk, .data false 5, false, 0, t⟩) (g.prim (by exact k2) fun f' hf' t' => ?_) ?_
    · have e : ∀ j, Chip.rdB (f' { (f s.chip).acc with st1 := 0 }) 4 j = ((f s.chip).st2, f' (f s.chip).clrInt) := by
        intro j
        rcases hf' with rfl | rfl
        · exact rd4 _ j
        · unfold Chip.rdB
          rw [if_neg (by omega), if_pos rfl]
          by_cases h8 : (f s.chip).reg 7 &&& 8 = 0
          · rw [sent_off _ (by exact h8), sent_off _ (by exact h8)]
            unfold Chip.clrInt Chip.acc; simp
          · rw [sent_on _ (by exact h8), sent_on _ (by exact h8)]
            unfold Chip.clrInt Chip.acc; simp
      show ((Chip.rdB (f' { (f s.chip).acc with st1 := 0 }) 4 (junk 0)).1,
        ({ s := { s with chip := (Chip.rdB (f' { (f s.chip).acc with st1 := 0 }) 4 (junk 0)).2 }, junk := junk, ph := .data false (nextA 4), ie := false,
            ju := if 4 = 0x7f ∧ _ then _ else _, t := t' } : Wire)) = _
      rw [e, if_neg (by omega)]
      rfl
    · exact Ex.post (g_desel (m := ⟨{ s with chip := (f s.chip).clrInt }, junk, .data false 5, false, 0, t⟩) g (by exact k3)) fun _ x hx => ⟨f, hf, hx.2⟩

/-- Starting the transmission. -/
theorem t_modeTX (g : Rgm FSent KSent h) {m : Wire} (hi : m.Idle) (hie : m.ie = false) (hk : KSent false m.s.chip) :
    Ex h (writeReg 7 9) (Fm FSent m) (fun _ x => ∃ f, FSent f ∧ Fm FSent (m.onChip fun c => (f c).wr 7 9) x) := by
  obtain ⟨s, junk, ph, ie, ju, t⟩ := m
  obtain ⟨rfl, rfl⟩ : ph = .idle ∧ ju = 0 := hi
  obtain rfl : ie = false := hie
  have hk : KSent false s.chip := hk
  refine g.bind (g_sel g ⟨rfl, rfl⟩ (by exact hk)) ?_
  refine g.bind (g_addrW (m := ⟨s, junk, .addr, false, 0, t⟩) g rfl (by exact hk) 7 (by omega)) ?_
  refine Ex.bind (Q := fun _ x => ∃ f, FSent f ∧
      At ⟨{ s with chip := (f s.chip).wr 7 9 }, junk, .data true 8, false, 0, t⟩ x)
    (g.step (by exact g.kacc hk) fun f hf t' => ⟨f, hf, t', ?_⟩) fun r => ?_
  · show ({ s := { s with chip := (f s.chip.acc).wrB 7 9 }, junk := junk, ph := .data true (nextA 7), ie := false, ju := 0, t := t' } : Wire) = _
    rw [g.acc hf, acc_wrB _ _ (by omega)]
    rfl
  · refine Ex.exists fun f => Ex.and fun hf => ?_
    have k2 : KSent false ((f s.chip).wr 7 9) := (g.kf hf hk).wr rfl 7 9 (fun _ => by decide)
    refine Ex.pre (S := Fm FSent ⟨{ s with chip := (f s.chip).wr 7 9 }, junk, .data true 8, false, 0, t⟩) ?_ fun x hx => Fm.at g hx
    exact Ex.post (g_desel (m := ⟨{ s with chip := (f s.chip).wr 7 9 }, junk, .data true 8, false, 0, t⟩) g (by exact k2)) fun _ x hx => ⟨f, hf, hx.2⟩

theorem txLoop_congr {ev ev' : Nat → Bool} (n : Nat) : ∀ c : Chip, (∀ k, k < n → ev k = ev' k) → OTR.txLoop ev n c = OTR.txLoop ev' n c := by
  induction n with
  | zero => intro c _; rfl
  | succ n ih =>
    intro c he
    unfold OTR.txLoop
    rw [he n (by omega)]
    dsimp only
    rw [ih _ fun k hk => he k (by omega)]

/-- The wait for the end of the transmission. -/
theorem t_loop (g : Rgm FSent KSent h) (n : Nat) : ∀ {m : Wire}, m.Idle → m.s.chip.reg 5 = 0 → m.s.chip.reg 6 = 0 → m.s.chip.reg 7 &&& 4 = 0 →
    Ex h (txLoop n) (Fm FSent m) (fun r x => ∃ ev, r = (OTR.txLoop ev n m.s.chip).2 ∧
      Fm FSent (m.onChip fun c => (OTR.txLoop ev n c).1) x) := by
  induction n with
  | zero =>
    intro m _ _ _ _
    exact Ex.pure fun x hx => ⟨fun _ => false, rfl, hx⟩
  | succ n ih =>
    intro m hi h5 h6 h7
    have h5' : ∀ f, FSent f → (f m.s.chip).reg 5 = 0 := by
      rintro f (rfl | rfl)
      · exact h5
      · rw [sent_reg _ _ (by omega)]; exact h5
    have h6' : ∀ f, FSent f → (f m.s.chip).reg 6 = 0 := by
      rintro f (rfl | rfl)
      · exact h6
      · rw [sent_reg _ _ (by omega)]; exact h6
    have h7' : ∀ f, FSent f → (f m.s.chip).reg 7 &&& 4 = 0 := by
      rintro f (rfl | rfl)
      · exact h7
      · rw [sent_r4]; exact h7
    refine Ex.bind (t_readSt g hi (KSent.noInt h5 h6 h7) fun f hf => KSent.noInt (by exact h5' f hf) (by exact h6' f hf) (by exact h7' f hf)) fun r => ?_
    refine Ex.exists fun f => Ex.and fun hf => Ex.and fun hr => ?_
    obtain ⟨b, rfl⟩ := fsent_ite hf
    subst hr
    by_cases h4 : (if b = true then m.s.chip.sent else m.s.chip).st1 &&& 4 ≠ 0
    · rw [if_pos h4]
      refine Ex.pure fun x hx => ⟨fun _ => b, ?_, ?_⟩
      · unfold OTR.txLoop; dsimp only; rw [if_pos h4]
      · have e : (m.onChip fun c => (OTR.txLoop (fun _ => b) (n + 1) c).1) = m.onChip fun c => { (if b = true then c.sent else c).acc with st1 := 0 } := by
          unfold Wire.onChip OTR.txLoop; dsimp only; rw [if_pos h4]
        rw [e]; exact hx
    · rw [if_neg h4]
      refine Ex.post (ih (m := m.onChip fun c => { (if b = true then c.sent else c).acc with st1 := 0 }) hi (by exact h5' (fun c => if b = true then c.sent else c) hf) (by exact h6' (fun c => if b = true then c.sent else c) hf) (by exact h7' (fun c => if b = true then c.sent else c) hf)) ?_
      rintro r x ⟨ev, hr, hx⟩
      have e : OTR.txLoop (fun k => if k = n then b else ev k) (n + 1) m.s.chip =
          OTR.txLoop ev n { (if b = true then m.s.chip.sent else m.s.chip).acc with st1 := 0 } := by
        conv => lhs; unfold OTR.txLoop
        dsimp only
        rw [if_pos rfl, if_neg h4]
        exact txLoop_congr n _ fun k hk => if_neg (by omega)
      refine ⟨fun k => if k = n then b else ev k, by rw [e]; exact hr, ?_⟩
      have e2 : (m.onChip fun c => (OTR.txLoop (fun k => if k = n then b else ev k) (n + 1) c).1) =
          (m.onChip fun c => { (if b = true then c.sent else c).acc with st1 := 0 }).onChip fun c => (OTR.txLoop ev n c).1 := by
        unfold Wire.onChip; dsimp only; rw [e]
      rw [e2]; exact hx

theorem txFifo_bits (ev : Nat → Bool) (c : Chip) (hs : c.spi = false) :
    c.txFifo ev =
      let d := (if ev 1001 = true then ((({ c with spi := true } : Chip).wr 5 0).wr 6 0).sent else (({ c with spi := true } : Chip).wr 5 0).wr 6 0).clrInt
      let r := OTR.txLoop ev 1000 ((if ev 1000 = true then d.sent else d).wr 7 9)
      ({ r.1 with spi := false }, r.2) := by
  have e : ∀ b1 : Bool, (if b1 = true then ((({ c with spi := true } : Chip).wr 5 0).wr 6 0).sent else (({ c with spi := true } : Chip).wr 5 0).wr 6 0) =
      (({ (if b1 = true then c.sent else c) with spi := true } : Chip).wr 5 0).wr 6 0 := by
    intro b1
    cases b1
    · rfl
    · simp only [if_true]
      rw [sent_wr _ _ _ (by omega), sent_wr _ _ _ (by omega), sent_spi]
  rw [e]
  unfold Chip.txFifo
  dsimp only
  rw [hs]

theorem txLoop_r7 (ev : Nat → Bool) (n : Nat) : ∀ c : Chip, (OTR.txLoop ev n c).1.reg 7 &&& 4 = c.reg 7 &&& 4 ∧
    (∀ x, x ≠ 7 → (OTR.txLoop ev n c).1.reg x = c.reg x) := by
  induction n with
  | zero => intro c; exact ⟨rfl, fun _ _ => rfl⟩
  | succ n ih =>
    intro c
    have k : (if ev n = true then c.sent else c).reg 7 &&& 4 = c.reg 7 &&& 4 ∧ ∀ x, x ≠ 7 → (if ev n = true then c.sent else c).reg x = c.reg x := by
      by_cases he : ev n = true
      · rw [if_pos he]; exact ⟨sent_r4 c, sent_reg c⟩
      · rw [if_neg he]; exact ⟨rfl, fun _ _ => rfl⟩
    unfold OTR.txLoop
    dsimp only
    by_cases h4 : (if ev n = true then c.sent else c).st1 &&& 4 ≠ 0
    · rw [if_pos h4]; exact k
    · rw [if_neg h4]
      obtain ⟨a, b⟩ := ih { (if ev n = true then c.sent else c).acc with st1 := 0 }
      exact ⟨a.trans k.1, fun x hx => (b x hx).trans (k.2 x hx)⟩

/-- What `_TXFIFO` leaves in the registers that matter for interrupts. -/
theorem txFifo_regs (ev : Nat → Bool) (c : Chip) : (c.txFifo ev).1.reg 5 = 0 ∧ (c.txFifo ev).1.reg 6 = 0 ∧ (c.txFifo ev).1.reg 7 &&& 4 = 0 ∧
    (c.txFifo ev).1.spi = c.spi := by
  have key : ∀ c : Chip, (c.wr 7 9).reg 7 &&& 4 = 0 := fun c => by
    show (if 7 = 7 then (9 : Byte) else _) &&& 4 = 0
    rw [if_pos rfl]; decide
  have k5 : ∀ c : Chip, ((c.wr 5 0).wr 6 0).clrInt.reg 5 = 0 ∧ ((c.wr 5 0).wr 6 0).clrInt.reg 6 = 0 := fun c => ⟨rfl, rfl⟩
  unfold Chip.txFifo
  dsimp only
  generalize (if ev 1001 = true then c.sent else c) = d
  obtain ⟨a5, a6⟩ := k5 { d with spi := true }
  generalize ((({ d with spi := true } : Chip).wr 5 0).wr 6 0).clrInt = d at a5 a6
  have : (if ev 1000 = true then d.sent else d).reg 5 = 0 ∧ (if ev 1000 = true then d.sent else d).reg 6 = 0 := by
    by_cases he : ev 1000 = true
    · rw [if_pos he, sent_reg _ _ (by omega), sent_reg _ _ (by omega)]; exact ⟨a5, a6⟩
    · rw [if_neg he]; exact ⟨a5, a6⟩
  generalize (if ev 1000 = true then d.sent else d) = d at this
  obtain ⟨x, y⟩ := txLoop_r7 ev 1000 (d.wr 7 9)
  exact ⟨(y 5 (by omega)).trans this.1, (y 6 (by omega)).trans this.2, x.trans (key d), rfl⟩

/-- `_TXFIFO`. -/
theorem t_txFifo (g : Rgm FSent KSent h) {m : Wire} (hi : m.Idle) (hie : m.ie = true) (hs : m.s.chip.spi = false) (hk : KSent true m.s.chip) :
    Ex h txFifo (Fm FSent m) (fun r x => ∃ ev, r = (m.s.chip.txFifo ev).2 ∧ Fm FSent (m.onChip fun c => (c.txFifo ev).1) x) := by
  obtain ⟨s, junk, ph, ie, ju, t⟩ := m
  obtain ⟨rfl, rfl⟩ : ph = .idle ∧ ju = 0 := hi
  obtain rfl : ie = true := hie
  have hs : s.chip.spi = false := hs
  have hk : KSent true s.chip := hk
  have k0 : KSent true ({ s.chip with spi := true } : Chip) := g.kspi _ hk
  have k1 : KSent false ({ s.chip with spi := true } : Chip) := g.kcli k0
  have k2 : KSent false (({ s.chip with spi := true } : Chip).wr 5 0) := k1.wr rfl 5 0 (by omega)
  have k3 : KSent false ((({ s.chip with spi := true } : Chip).wr 5 0).wr 6 0) := k2.wr rfl 6 0 (by omega)
  refine g.bind (g_up g ⟨rfl, rfl⟩ hs hk) ?_
  refine Ex.assoc (Ex.assoc (g.bind (g_cli (m := ⟨{ s with chip := { s.chip with spi := true } }, junk, .idle, true, 0, t⟩) g k0) ?_))
  show Ex h (writeReg 5 0 >>= fun _ => writeReg 6 0 >>= fun _ => clearInts >>= fun _ => writeReg 7 9 >>= fun _ =>
    (BusP.prim fun m => ((), { m with ie := true }) : BusP Unit) >>= fun _ => txLoop 1000 >>= fun r => down >>= fun _ => Pure.pure r) _ _
  refine g.bind (g_writeReg (m := ⟨{ s with chip := { s.chip with spi := true } }, junk, .idle, false, 0, t⟩) g ⟨rfl, rfl⟩ 5 (by omega) 0 k1
    (fun f hf c => fsent_wr hf c _ _ (by omega)) k2) ?_
  refine g.bind (g_writeReg (m := ⟨{ s with chip := ({ s.chip with spi := true } : Chip).wr 5 0 }, junk, .idle, false, 0, t⟩) g ⟨rfl, rfl⟩ 6 (by omega) 0 k2
    (fun f hf c => fsent_wr hf c _ _ (by omega)) k3) ?_
  refine Ex.bind (t_clear (m := ⟨{ s with chip := (({ s.chip with spi := true } : Chip).wr 5 0).wr 6 0 }, junk, .idle, false, 0, t⟩) g ⟨rfl, rfl⟩ rfl k3) fun _ => ?_
  refine Ex.exists fun f1 => Ex.and fun hf1 => ?_
  have k4 : KSent false (f1 ((({ s.chip with spi := true } : Chip).wr 5 0).wr 6 0)).clrInt := (g.kf hf1 k3).low rfl
  have r5 : ∀ f : Chip → Chip, FSent f → ∀ c : Chip, (f c).reg 5 = c.reg 5 ∧ (f c).reg 6 = c.reg 6 := by
    rintro f (rfl | rfl) c
    · exact ⟨rfl, rfl⟩
    · exact ⟨sent_reg _ _ (by omega), sent_reg _ _ (by omega)⟩
  generalize hd : (f1 ((({ s.chip with spi := true } : Chip).wr 5 0).wr 6 0)).clrInt = d at k4
  have d5 : d.reg 5 = 0 := by rw [← hd]; exact (r5 f1 hf1 _).1
  have d6 : d.reg 6 = 0 := by rw [← hd]; exact (r5 f1 hf1 _).2
  refine Ex.pre (S := Fm FSent ⟨{ s with chip := d }, junk, .idle, false, 0, t⟩) ?_ (fun x hx => by rw [← hd]; exact hx)
  refine Ex.bind (t_modeTX (m := ⟨{ s with chip := d }, junk, .idle, false, 0, t⟩) g ⟨rfl, rfl⟩ rfl k4) fun _ => ?_
  refine Ex.exists fun f2 => Ex.and fun hf2 => ?_
  have c7 : ((f2 d).wr 7 9).reg 7 &&& 4 = 0 := by
    show (if 7 = 7 then (9 : Byte) else _) &&& 4 = 0
    rw [if_pos rfl]; decide
  have c5 : ((f2 d).wr 7 9).reg 5 = 0 := (r5 f2 hf2 d).1.trans d5
  have c6 : ((f2 d).wr 7 9).reg 6 = 0 := (r5 f2 hf2 d).2.trans d6
  refine g.bind (g_sei (m := ⟨{ s with chip := (f2 d).wr 7 9 }, junk, .idle, false, 0, t⟩) g (KSent.noInt c5 c6 c7) true) ?_
  refine Ex.bind (t_loop g 1000 (m := ⟨{ s with chip := (f2 d).wr 7 9 }, junk, .idle, true, 0, t⟩) ⟨rfl, rfl⟩ c5 c6 c7) fun r => ?_
  refine Ex.exists fun ev => Ex.and fun hr => ?_
  obtain ⟨l7, lx⟩ := txLoop_r7 ev 1000 ((f2 d).wr 7 9)
  refine g.bind (g_down (m := ⟨{ s with chip := (OTR.txLoop ev 1000 ((f2 d).wr 7 9)).1 }, junk, .idle, true, 0, t⟩) g ⟨rfl, rfl⟩
    (KSent.noInt ((lx 5 (by omega)).trans c5) ((lx 6 (by omega)).trans c6) (l7.trans c7))) ?_
  refine Ex.pure fun x hx => ?_
  obtain ⟨b1, rfl⟩ := fsent_ite hf1
  obtain ⟨b2, rfl⟩ := fsent_ite hf2
  obtain ⟨ev', e1, e0, el⟩ : ∃ ev' : Nat → Bool, ev' 1001 = b1 ∧ ev' 1000 = b2 ∧ ∀ k, k < 1000 → ev' k = ev k :=
    ⟨fun k => if k = 1001 then b1 else if k = 1000 then b2 else ev k, if_pos rfl, by simp, fun k hk => by
      show (if k = 1001 then b1 else if k = 1000 then b2 else ev k) = _
      rw [if_neg (by omega), if_neg (by omega)]⟩
  subst e1 e0
  have et : s.chip.txFifo ev' = ({ (OTR.txLoop ev 1000 ((if ev' 1000 = true then d.sent else d).wr 7 9)).1 with spi := false },
      (OTR.txLoop ev 1000 ((if ev' 1000 = true then d.sent else d).wr 7 9)).2) := by
    rw [txFifo_bits _ _ hs]
    dsimp only at hd ⊢
    rw [hd, txLoop_congr 1000 _ el]
  refine ⟨ev', ?_, ?_⟩
  · show r = (s.chip.txFifo ev').2
    rw [et]; exact hr
  · show Fm FSent ⟨{ s with chip := (s.chip.txFifo ev').1 }, junk, .idle, true, 0, t⟩ x
    rw [et]; exact hx

end Spi
end OTR
