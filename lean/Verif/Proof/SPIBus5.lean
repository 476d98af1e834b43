import Verif.Proof.SPIBus4
import Verif.Proof.SPIBusISR
/-! # Lemmas: API calls of the byte-level RFM23B link with interrupts and radio events at any step -/

namespace OTR

/-- Only interrupts (or polls) and radio events that satisfy `A`. -/
def RxOnly (A : Air → Prop) (l : List RfmOp) : Prop := ∀ o ∈ l, (∃ j, o = .poll j) ∨ ∃ e, A e ∧ o = .air e
/-- Only radio events that satisfy `A`. -/
def AirOnly (A : Air → Prop) (l : List RfmOp) : Prop := ∀ o ∈ l, ∃ e, A e ∧ o = .air e

theorem AirOnly.rx {A : Air → Prop} {l : List RfmOp} (h : AirOnly A l) : RxOnly A l := fun o ho => Or.inr (h o ho)

theorem RxOnly.append {A : Air → Prop} {l1 l2 : List RfmOp} (h1 : RxOnly A l1) (h2 : RxOnly A l2) : RxOnly A (l1 ++ l2) := by
  intro o h
  rcases List.mem_append.1 h with h | h
  · exact h1 o h
  · exact h2 o h

theorem RxOnly.nil {A : Air → Prop} : RxOnly A [] := by intro o h; cases h

theorem rfm_after_append (cfg : RfmCfg) (s : Rfm) (l1 l2 : List RfmOp) : Rfm.after cfg s (l2 ++ l1) = Rfm.after cfg (Rfm.after cfg s l1) l2 := by
  induction l2 with
  | nil => rfl
  | cons o l2 ih => show (Rfm.after cfg s (l2 ++ l1)).op cfg o = _; rw [ih]; rfl

theorem airs_after {A : Air → Prop} (cfg : RfmCfg) (s : Rfm) {l : List Air} (hl : AL A l) : ∃ ops, AirOnly A ops ∧ Rfm.after cfg s ops = s.aired l := by
  induction l generalizing s with
  | nil => exact ⟨[], (by intro o h; cases h), rfl⟩
  | cons e l ih =>
    obtain ⟨ops, h1, h2⟩ := ih { s with chip := s.chip.air1 e } fun x hx => hl x (List.mem_cons_of_mem _ hx)
    refine ⟨ops ++ [.air e], ?_, ?_⟩
    · intro o ho
      rcases List.mem_append.1 ho with ho | ho
      · exact h1 o ho
      · exact ⟨e, hl e (List.mem_cons_self ..), by simpa using ho⟩
    · rw [rfm_after_append]; exact h2

theorem rx_inv {A : Air → Prop} {cfg : RfmCfg} (hc : CfgOk cfg) {s : Rfm} (h : RInv cfg s) (ops : List RfmOp) (ho : RxOnly A ops) : RInv cfg (Rfm.after cfg s ops) := by
  induction ops with
  | nil => exact h
  | cons o ops ih =>
    have ih := ih fun x hx => ho x (List.mem_cons_of_mem _ hx)
    rcases ho o (List.mem_cons_self ..) with ⟨j, rfl⟩ | ⟨e, -, rfl⟩
    · exact poll_inv hc ih j
    · exact air_inv ih e

theorem rinv_r8 {cfg : RfmCfg} {s : Rfm} (h : RInv cfg s) : s.chip.reg 7 &&& 8 = 0 := by
  by_cases ho : s.lc = none ∨ cfg.allowRX = false
  · rw [(h.off ho).1]; decide
  · have ha : cfg.allowRX = true := by
      cases hh : cfg.allowRX with
      | true => rfl
      | false => exact absurd (Or.inr hh) ho
    cases hl : s.lc with
    | none => exact absurd (Or.inl hl) ho
    | some ch =>
      obtain ⟨-, -, -, -, hp, hf⟩ := h.on ch hl ha
      by_cases h3 : s.chip.reg 0x30 &&& 0x80 = 0
      · rw [(hf h3).2]; decide
      · rcases (hp h3).2.2 with e | e
        · rw [e]; decide
        · rw [e.1]; decide

/-- What is true at every step with interrupts on. -/
structure Soft (cfg : RfmCfg) (s : Rfm) : Prop extends RBase cfg s where
  spi : s.chip.spi = false
  fault : s.chip.fault = false
  r8 : s.chip.reg 7 &&& 8 = 0
  mild : Mild s.chip

theorem RInv.soft {cfg : RfmCfg} {s : Rfm} (h : RInv cfg s) (hm : Mild s.chip) : Soft cfg s := ⟨h.toRBase, h.spi, h.fault, rinv_r8 h, hm⟩

theorem air_soft {cfg : RfmCfg} {s : Rfm} (h : Soft cfg s) (e : Air) : Soft cfg { s with chip := s.chip.air1 e } := by
  refine ⟨⟨h.cur, holds_congr h.holds fun x hx => ?_, h.mx, h.lc⟩, (air1_flags _ e).2.trans h.spi, (air1_flags _ e).1.trans h.fault,
    (air1_r7 _ e).trans h.r8, air1_mild h.mild e⟩
  simp only [rfmOwned, not_or] at hx
  cases e <;> simp only [Chip.air1] <;> split <;> try rfl
  simp [hx]

theorem poll_soft {cfg : RfmCfg} (hc : CfgOk cfg) {s : Rfm} (h : Soft cfg s) (junk : Nat → Byte) : Soft cfg (s.poll cfg junk) := by
  unfold Rfm.poll
  by_cases h0 : cfg.irqPin = true ∧ s.chip.irq = false
  · rw [if_pos h0]; exact h
  rw [if_neg h0]
  by_cases ha : cfg.allowRX = true
  · cases hl : s.lc with
    | none =>
      have : s.pollBody cfg junk = s := by unfold Rfm.pollBody; rw [if_neg (by rw [ha]; decide)]; simp only [hl]
      rw [this]; exact h
    | some ch =>
      rw [pollBody_cases ha hl h.spi junk]
      have hb1 : RBase cfg { s with chip := { s.chip with st1 := 0, st2 := 0 } } := ⟨h.cur, h.holds, h.mx, h.lc⟩
      have hb2 : RBase cfg { s with chip := { s.chip with st1 := 0, st2 := 0, spi := true } } := ⟨h.cur, h.holds, h.mx, h.lc⟩
      have hb3 : RBase cfg { s with chip := { s.chip with st1 := 0, st2 := 0 }, err := 2 } := ⟨h.cur, h.holds, h.mx, h.lc⟩
      have idle : Soft cfg { s with chip := { s.chip with st1 := 0, st2 := 0 } } := ⟨hb1, h.spi, h.fault, h.r8, ⟨fun _ h => absurd (by simp) h, h.mild.rx⟩⟩
      by_cases h1 : s.chip.reg 0x30 &&& 0x80 ≠ 0
      · rw [if_pos h1]
        by_cases h2 : s.chip.st1 &&& 2 ≠ 0
        · rw [if_pos h2]
          have hf := take_fields cfg { s with chip := { s.chip with st1 := 0, st2 := 0, spi := true } } 
            (if s.chip.reg 0x33 &&& 8 = 8 then s.chip.reg 0x3e else s.chip.reg 0x4b).toNat junk
          have hb4 := take_base hb2 (if s.chip.reg 0x33 &&& 8 = 8 then s.chip.reg 0x3e else s.chip.reg 0x4b).toNat junk
          dsimp only
          generalize Rfm.take cfg _ _ junk = t at hf hb4 ⊢
          obtain ⟨r, k, e, hk, hh, hon, hoff⟩ := dolisten_spec hc t hb4
          rw [e]
          refine RInv.soft ⟨⟨hk, hh, hb4.mx, hb4.lc⟩, rfl, ?_, fun c hc a => ⟨(hon c hc a).1, (hon c hc a).2.2⟩, hoff⟩ ⟨fun _ h => absurd (by simp) h, by simp⟩
          dsimp only; rw [hf.1, standbyClear_eq]; exact h.fault
        · rw [if_neg h2]; exact idle
      · rw [if_neg h1]
        by_cases h2 : s.chip.st1 &&& 0x80 ≠ 0
        · rw [if_pos h2]
          exact (dolisten_inv hc _ hb3 h.spi h.fault).soft (dolisten_mild hc hb3)
        · rw [if_neg h2]
          by_cases h3 : s.chip.st1 &&& 0x10 ≠ 0
          · rw [if_pos h3]
            have hf := take_fields cfg { s with chip := { s.chip with st1 := 0, st2 := 0 } } 64 junk
            refine (dolisten_inv hc _ (take_base hb1 64 junk) ?_ ?_).soft (dolisten_mild hc (take_base hb1 64 junk))
            · rw [hf.1, standbyClear_eq]; exact h.spi
            · rw [hf.1, standbyClear_eq]; exact h.fault
          · rw [if_neg h3]; exact idle
  · have ha' : cfg.allowRX = false := by simpa using ha
    have : s.pollBody cfg junk = s := by unfold Rfm.pollBody; rw [if_pos ha']
    rw [this]; exact h

/-- A configuration without the interrupt line. -/
abbrev RfmCfg.noPin (cfg : RfmCfg) : RfmCfg := { cfg with irqPin := false }

theorem noPin_ok {cfg : RfmCfg} (hc : CfgOk cfg) : CfgOk cfg.noPin := ⟨hc.ch, hc.tables⟩
theorem noPin_poll (cfg : RfmCfg) (s : Rfm) (junk : Nat → Byte) : s.poll cfg.noPin junk = s.pollBody cfg junk := by
  unfold Rfm.poll; rw [if_neg (fun h => nomatch h.1)]; rfl
theorem noPin_inv {cfg : RfmCfg} {s : Rfm} : RInv cfg.noPin s ↔ RInv cfg s :=
  ⟨fun h => ⟨⟨h.cur, h.holds, h.mx, h.lc⟩, h.spi, h.fault, h.on, h.off⟩, fun h => ⟨⟨h.cur, h.holds, h.mx, h.lc⟩, h.spi, h.fault, h.on, h.off⟩⟩
theorem noPin_soft {cfg : RfmCfg} {s : Rfm} : Soft cfg.noPin s ↔ Soft cfg s :=
  ⟨fun h => ⟨⟨h.cur, h.holds, h.mx, h.lc⟩, h.spi, h.fault, h.r8, h.mild⟩, fun h => ⟨⟨h.cur, h.holds, h.mx, h.lc⟩, h.spi, h.fault, h.r8, h.mild⟩⟩

theorem pollBody_soft {cfg : RfmCfg} (hc : CfgOk cfg) {s : Rfm} (h : Soft cfg s) (junk : Nat → Byte) : Soft cfg (s.pollBody cfg junk) := by
  rw [← noPin_poll]; exact noPin_soft.1 (poll_soft (noPin_ok hc) (noPin_soft.2 h) junk)
theorem pollBody_inv {cfg : RfmCfg} (hc : CfgOk cfg) {s : Rfm} (h : RInv cfg s) (junk : Nat → Byte) : RInv cfg (s.pollBody cfg junk) := by
  rw [← noPin_poll]; exact noPin_inv.1 (poll_inv (noPin_ok hc) (noPin_inv.2 h) junk)

theorem rx_soft {A : Air → Prop} {cfg : RfmCfg} (hc : CfgOk cfg) {s : Rfm} (h : Soft cfg s) (ops : List RfmOp) (ho : RxOnly A ops) : Soft cfg (Rfm.after cfg s ops) := by
  induction ops with
  | nil => exact h
  | cons o ops ih =>
    have ih := ih fun x hx => ho x (List.mem_cons_of_mem _ hx)
    rcases ho o (List.mem_cons_self ..) with ⟨j, rfl⟩ | ⟨e, -, rfl⟩
    · exact poll_soft hc ih j
    · exact air_soft ih e

/-- A machine between the steps of the application. -/
structure Live (cfg : RfmCfg) (m : Wire) : Prop where
  idle : m.Idle
  ie : m.ie = true
  inv : Soft cfg m.s

/-- A machine between the calls: bus idle, interrupts on, and the link as it is after every call. -/
structure Rest (cfg : RfmCfg) (m : Wire) : Prop where
  idle : m.Idle
  ie : m.ie = true
  inv : RInv cfg m.s
  mild : Mild m.s.chip

theorem Rest.live {cfg : RfmCfg} {m : Wire} (h : Rest cfg m) : Live cfg m := ⟨h.idle, h.ie, h.inv.soft h.mild⟩

/-- Between the calls, after interrupts and events. -/
theorem rx_mild {A : Air → Prop} {cfg : RfmCfg} (hc : CfgOk cfg) {s : Rfm} (h : RInv cfg s) (hm : Mild s.chip) (ops : List RfmOp) (ho : RxOnly A ops) :
    Mild (Rfm.after cfg s ops).chip := (rx_soft hc (h.soft hm) ops ho).mild

/-- One interrupt: events up to some point, a poll, more events. -/
theorem irq_live {A : Air → Prop} (hA : Closed A) {cfg : RfmCfg} (hc : CfgOk cfg) (hl : Spi.CfgAddr cfg) {r : Nat → List REnv} (hr : RSched A r) {m : Wire}
    (hm : Live cfg m) : ∃ ops, RxOnly A ops ∧ ∃ t, m.env cfg (.irq r) = ({ m with s := Rfm.after cfg m.s ops } : Wire).tm t := by
  have hx := Spi.i_handler hA hc hl (rgm_radio hr) (radioHook_triv r) (m := { m with ie := false }) hm.idle ⟨rfl, hm.inv.r8⟩ hm.inv.toRBase hm.inv.mild
    { m with ie := false } (Fm.at (rgm_radio hr) ⟨m.t, rfl⟩)
  obtain ⟨l, hl1, hx⟩ := hx
  obtain ⟨l2, hl2, t, e⟩ := hx.list
  obtain ⟨o1, ho1, e1⟩ := airs_after cfg m.s hl1
  obtain ⟨o2, ho2, e2⟩ := airs_after cfg ((m.s.aired l).poll cfg m.junk) hl2
  refine ⟨o2 ++ ([.poll m.junk] ++ o1), ho2.rx.append (RxOnly.append (fun o ho => Or.inl ⟨_, by simpa using ho⟩) ho1.rx), t, ?_⟩
  unfold Wire.env
  dsimp only
  rw [if_pos hm.ie, e, rfm_after_append, rfm_after_append, e1, show Rfm.after cfg (m.s.aired l) [.poll m.junk] = (m.s.aired l).poll cfg m.junk from rfl, e2]
  obtain ⟨s, junk, ph, ie, ju, t⟩ := m
  obtain rfl : ie = true := hm.ie
  rfl

/-- Before a step with interrupts on. -/
theorem hook_live {A : Air → Prop} (hA : Closed A) {cfg : RfmCfg} (hc : CfgOk cfg) (hl : Spi.CfgAddr cfg) {w : Nat → List WEnv} (hw : Sched A w) {m : Wire}
    (hm : Live cfg m) : ∃ ops, RxOnly A ops ∧ ∃ t, Wire.hook cfg w m = ({ m with s := Rfm.after cfg m.s ops } : Wire).tm t := by
  have : ∀ (l : List WEnv) (m : Wire), (∀ e, WEnv.radio (.air e) ∈ l → A e) → (∀ r, WEnv.irq r ∈ l → RSched A r) → Live cfg m →
      ∃ ops, RxOnly A ops ∧ ∃ t, l.foldl (Wire.env cfg) m = ({ m with s := Rfm.after cfg m.s ops } : Wire).tm t := by
    intro l
    induction l with
    | nil => intro m _ _ _; exact ⟨[], RxOnly.nil, m.t, rfl⟩
    | cons e l ih =>
      intro m h1 h2 hm
      have one : ∃ ops, RxOnly A ops ∧ ∃ t, m.env cfg e = ({ m with s := Rfm.after cfg m.s ops } : Wire).tm t := by
        cases e with
        | radio e =>
          cases e with
          | air e => exact ⟨[.air e], (fun o ho => Or.inr ⟨e, h1 e (List.mem_cons_self ..), by simpa using ho⟩), m.t, rfl⟩
          | sent => exact ⟨[], RxOnly.nil, m.t, onChip_same (sent_off _ (hm.inv.r8))⟩
        | irq r => exact irq_live hA hc hl (h2 r (List.mem_cons_self ..)) hm
      obtain ⟨ops, ho, t, e⟩ := one
      obtain ⟨ops', ho', t', e'⟩ := ih (({ m with s := Rfm.after cfg m.s ops } : Wire).tm t) (fun e he => h1 e (List.mem_cons_of_mem _ he))
        (fun r he => h2 r (List.mem_cons_of_mem _ he)) ⟨hm.idle, hm.ie, rx_soft hc hm.inv ops ho⟩
      refine ⟨ops' ++ ops, ho'.append ho, t', ?_⟩
      rw [List.foldl_cons, e, e', rfm_after_append]; rfl
  exact this _ _ (hw.1 m.t) (hw.2 m.t) ⟨hm.idle, hm.ie, hm.inv⟩

namespace Spi
variable {A : Air → Prop}

/-- `standby` with interrupts on. -/
theorem t_standby (hA : Closed A) {cfg : RfmCfg} (hc : CfgOk cfg) (hl : CfgAddr cfg) (hp : cfg.irqPin = true) {w : Nat → List WEnv} (hw : Sched A w) {m : Wire} (hm : Live cfg m) :
    Ex (Wire.hook cfg w) standby (At m) (fun _ x => ∃ ops, RxOnly A ops ∧
      At { m with s := { Rfm.after cfg m.s ops with chip := (Rfm.after cfg m.s ops).chip.standbyClear } } x) := by
  have ht := hook_triv hp w
  refine Ex.bind (Q := fun r x => r = true ∧ ∃ ops, RxOnly A ops ∧ At { m with s := Rfm.after cfg m.s ops, ie := false } x) ?_ fun r => ?_
  · rintro x ⟨t, rfl⟩
    obtain ⟨ops, ho, t', e⟩ := hook_live hA hc hl hw (m := m.tm t) ⟨hm.idle, hm.ie, hm.inv⟩
    show (Wire.hook cfg w (m.tm t)).ie = true ∧ _
    rw [e]
    refine ⟨hm.ie, ops, ho, t', ?_⟩
    show ({ Wire.hook cfg w (m.tm t) with ie := false } : Wire) = _
    rw [e]; rfl
  · refine Ex.and fun hr => Ex.exists fun ops => Ex.and fun ho => ?_
    subst hr
    have hs := rx_soft hc hm.inv ops ho
    refine Ex.bind (Ex.pre (g_stop (m := { m with s := Rfm.after cfg m.s ops, ie := false }) (rgm_air cfg hw) ht hm.idle rfl hs.spi ⟨rfl, hs.r8⟩)
      fun x hx => Fm.at (rgm_air cfg hw) hx) fun _ => ?_
    refine Ex.exists fun f => Ex.and fun hf => ?_
    obtain ⟨l, hal, rfl⟩ := hf
    obtain ⟨ops2, ho2, e2⟩ := airs_after cfg (Rfm.after cfg m.s ops) hal
    refine Ex.runsBind ht (r := ()) (m' := { m with s := { Rfm.after cfg m.s (ops2 ++ ops) with chip := (Rfm.after cfg m.s (ops2 ++ ops)).chip.standbyClear } })
      (Runs.prim ?_ fun _ => ?_) (Ex.pure fun x hx => ⟨ops2 ++ ops, ?_, hx⟩)
    · intro _
      exact ⟨by show (Chip.airs (Rfm.after cfg m.s ops).chip l).standbyClear.reg 7 &&& 0x0c = 0; rw [standbyClear_eq]; simp, Or.inl rfl⟩
    · rw [rfm_after_append, e2]
      obtain ⟨s, junk, ph, ie, ju, t⟩ := m
      obtain rfl : ie = true := hm.ie
      rfl
    · intro o h
      rcases List.mem_append.1 h with h | h
      · exact (ho2.rx) o h
      · exact ho o h

/-- `startRX` from standby. -/
theorem t_startRX {cfg : RfmCfg} (hp : cfg.irqPin = true) {w : Nat → List WEnv} (hw : Sched A w) {m : Wire} (hi : m.Idle) (hie : m.ie = true)
    (hs : m.s.chip.spi = false) (hk : Kq true true m.s.chip) :
    Ex (Wire.hook cfg w) startRX (At m) (fun _ x => ∃ l, AL A l ∧ At (m.onChip fun c => (c.startRX m.s.maxF).airs l) x) := by
  have ht := hook_triv hp w
  have g := rgm_air cfg hw
  obtain ⟨s, junk, ph, ie, ju, t⟩ := m
  obtain ⟨rfl, rfl⟩ : ph = .idle ∧ ju = 0 := hi
  obtain rfl : ie = true := hie
  have hs : s.chip.spi = false := hs
  have hk : Kq true true s.chip := hk
  have k1 : Kq true false s.chip := hk.cli
  have k2 : Kq true false ({ s.chip with spi := true } : Chip) := k1.spi true
  obtain ⟨rp, k3⟩ := r_startPre (q := true) (m := ⟨{ s with chip := { s.chip with spi := true } }, junk, .idle, false, 0, t⟩) ⟨rfl, rfl⟩ rfl k2
  show Ex _ ((BusP.prim fun m => (m.ie, { m with ie := false }) : BusP Bool) >>= fun w => up >>= fun n => startPre >>= fun _ =>
    sel >>= fun _ => xfer (u8 7 ||| 0x80) >>= fun _ => xfer 5 >>= fun _ => desel >>= fun _ => (if n = true then down else Pure.pure ()) >>= fun _ =>
    (BusP.prim fun m => ((), { m with ie := w }) : BusP Unit) >>= fun _ => Pure.pure ()) _ _
  refine Ex.runsBind ht (r := true) (m' := ⟨s, junk, .idle, false, 0, t⟩) (Runs.prim (by exact hk) fun _ => rfl) ?_
  refine Ex.runsBind ht (r := true) (m' := ⟨{ s with chip := { s.chip with spi := true } }, junk, .idle, false, 0, t⟩)
    (Runs.prim (by exact k1) fun _ => ?_) ?_
  · show (if s.chip.spi = true then _ else _) = _
    rw [if_neg (by rw [hs]; simp)]; rfl
  refine Ex.runsBind ht (by exact rp) ?_
  generalize hd : startG s.maxF { s.chip with spi := true } = d at k3
  refine Ex.pre (S := At ⟨{ s with chip := d }, junk, .idle, false, 0, t⟩) ?_ (fun x hx => by rw [← hd]; exact hx)
  refine Ex.runsBind ht (r_sel (m := ⟨{ s with chip := d }, junk, .idle, false, 0, t⟩) ⟨rfl, rfl⟩ (by exact k3)) ?_
  refine Ex.runsBind ht (r_addrW rfl (by exact k3) 7 (by omega)) ?_
  refine Ex.runsBind ht (r_put rfl (by exact k3) 5) ?_
  have e7 : d.acc.wrB 7 5 = d.wr 7 5 := acc_wrB _ _ (by omega) _
  have e8 : (d.wr 7 5).reg 7 &&& 8 = 0 := by
    show (if 7 = 7 then (5 : Byte) else _) &&& 8 = 0
    rw [if_pos rfl]; decide
  refine Ex.pre (S := Fm (FAir A) ⟨{ s with chip := d.wr 7 5 }, junk, .data true 8, false, 0, t⟩) ?_
    (fun x hx => Fm.at g (by rw [← e7]; exact hx))
  refine g.bind (g_desel g ⟨rfl, e8⟩) ?_
  rw [if_pos rfl]
  refine g.bind (g_down g ⟨rfl, rfl⟩ ⟨rfl, e8⟩) ?_
  refine g.bind (g_sei g (m := ⟨{ s with chip := { d.wr 7 5 with spi := false } }, junk, .idle, false, 0, t⟩) ⟨rfl, e8⟩ true) ?_
  refine Ex.pure fun x hx => ?_
  obtain ⟨f, ⟨l, hal, rfl⟩, hx⟩ := hx
  refine ⟨l, hal, ?_⟩
  have e : s.chip.startRX s.maxF = { d.wr 7 5 with spi := false } := by
    rw [← hd]; unfold Chip.startRX Chip.withSPI; rw [if_neg (by rw [hs]; simp)]; rfl
  show At ⟨{ s with chip := (s.chip.startRX s.maxF).airs l }, junk, .idle, true, 0, t⟩ x
  rw [e]; exact hx

theorem kq_quiet {c : Chip} (h7 : c.reg 7 &&& 0x0c = 0) (h1 : c.st1 = 0) (h2 : c.st2 = 0) (b : Bool) : Kq true b c :=
  fun _ => ⟨h7, Or.inr (by unfold Chip.irq; rw [h1, h2]; simp)⟩

/-- After `standby`, the rest of `_dolistenNonVirtual`. -/
theorem t_listenRest {cfg : RfmCfg} (hc : CfgOk cfg) (hl : CfgAddr cfg) (hp : cfg.irqPin = true) {w : Nat → List WEnv} (hw : Sched A w) {m : Wire} (hi : m.Idle)
    (hie : m.ie = true) (hb : RBase cfg m.s) (hs : m.s.chip.spi = false) {c0 : Chip} (hc0 : m.s.chip = c0.standbyClear) :
    Ex (Wire.hook cfg w) (if cfg.allowRX = false then Pure.pure ()
      else do
        let lc ← load (·.lc)
        match lc with
        | none => Pure.pure ()
        | some ch => do setChannel cfg ch; startRX) (At m)
      (fun _ x => ∃ ops, AirOnly A ops ∧ At { m with s := Rfm.after cfg (({ m.s with chip := c0 } : Rfm).dolisten cfg) ops } x) := by
  have ht := hook_triv hp w
  obtain ⟨s, junk, ph, ie, ju, t⟩ := m
  obtain ⟨rfl, rfl⟩ : ph = .idle ∧ ju = 0 := hi
  obtain rfl : ie = true := hie
  obtain ⟨c, cur, lc, maxF, dr, fi, er, qq, qb⟩ := s
  obtain rfl : c = c0.standbyClear := hc0
  have q1 : c0.standbyClear.reg 7 = 0 ∧ c0.standbyClear.reg 8 = 0 ∧ c0.standbyClear.st1 = 0 ∧ c0.standbyClear.st2 = 0 := by
    rw [standbyClear_eq]; exact ⟨rfl, rfl, rfl, rfl⟩
  have kq : Kq true true c0.standbyClear := kq_quiet (by rw [q1.1]; decide) q1.2.2.1 q1.2.2.2 _
  have none : ∀ x, At ⟨⟨c0.standbyClear, cur, lc, maxF, dr, fi, er, qq, qb⟩, junk, .idle, true, 0, t⟩ x → (cfg.allowRX = false ∨ lc = none) →
      ∃ ops, AirOnly A ops ∧ At ⟨Rfm.after cfg (Rfm.dolisten cfg ⟨c0, cur, lc, maxF, dr, fi, er, qq, qb⟩) ops, junk, .idle, true, 0, t⟩ x := by
    intro x hx hh
    refine ⟨[], (by intro o h; cases h), ?_⟩
    rw [dolisten_off (s := ⟨c0, cur, lc, maxF, dr, fi, er, qq, qb⟩) hh]; exact hx
  by_cases ha : cfg.allowRX = false
  · rw [if_pos ha]
    exact Ex.pure fun x hx => none x hx (Or.inl ha)
  · rw [if_neg ha]
    refine Ex.runsBind ht (r_load (by exact kq)) ?_
    cases lc with
    | none => exact Ex.pure fun x hx => none x hx (Or.inr rfl)
    | some ch =>
      show Ex _ (setChannel cfg ch >>= fun _ => startRX) _ _
      obtain ⟨r, k, e, -, -, -, -, h8, h7⟩ := setChannel_spec hc ⟨c0.standbyClear, cur, some ch, maxF, dr, fi, er, qq, qb⟩ ch q1.2.1 q1.1 hb
      have kq2 : Kq true true (Rfm.setChannel cfg ⟨c0.standbyClear, cur, some ch, maxF, dr, fi, er, qq, qb⟩ ch).chip := by
        rw [e]; exact kq_quiet (c := { c0.standbyClear with reg := r }) h7 q1.2.2.1 q1.2.2.2 _
      refine Ex.runsBind ht (r_setChannel ch (hl ch) (fun _ => hc.tables ch) ⟨rfl, rfl⟩ (by exact kq) (by exact kq2)) ?_
      refine Ex.post (t_startRX hp hw (m := ⟨Rfm.setChannel cfg ⟨c0.standbyClear, cur, some ch, maxF, dr, fi, er, qq, qb⟩ ch, junk, .idle, true, 0, t⟩)
        ⟨rfl, rfl⟩ rfl (by rw [e]; exact hs) kq2) ?_
      rintro _ x ⟨l, hal, hx⟩
      obtain ⟨ops, ho, eo⟩ := airs_after cfg (Rfm.dolisten cfg ⟨c0, cur, some ch, maxF, dr, fi, er, qq, qb⟩) hal
      refine ⟨ops, ho, ?_⟩
      dsimp only
      rw [eo, dolisten_some (s := ⟨c0, cur, some ch, maxF, dr, fi, er, qq, qb⟩) ha rfl]
      exact hx

theorem sent_standby (c : Chip) : c.sent.standbyClear = c.standbyClear := by
  rw [standbyClear_eq, standbyClear_eq]
  rcases sent_cases c with e | e
  · rw [e]
  · rw [e]
    dsimp only
    congr 1
    funext x
    by_cases h7 : x = 7
    · subst h7; simp
    · simp [h7]

/-- `_dolistenNonVirtual` while a transmission may be going on. -/
theorem t_dolistenTX {cfg : RfmCfg} (hc : CfgOk cfg) (hl : CfgAddr cfg) (hp : cfg.irqPin = true) {w : Nat → List WEnv} (hw : Sched A w) {m : Wire} (hi : m.Idle)
    (hie : m.ie = true) (hb : RBase cfg m.s) (hs : m.s.chip.spi = false) (hk : KSent true m.s.chip) :
    Ex (Wire.hook cfg w) (dolisten cfg) (Fm FSent m)
      (fun _ x => ∃ ops, AirOnly A ops ∧ At { m with s := Rfm.after cfg (m.s.dolisten cfg) ops } x) := by
  refine Ex.bind (g_standby (rgm_sent hp w) (hook_triv hp w) hi hs (by rw [hie]; exact hk)) fun _ => ?_
  refine Ex.exists fun f => Ex.and fun hf => ?_
  have e : (m.onChip fun c => (f c).standbyClear) = m.onChip Chip.standbyClear := by
    rcases hf with rfl | rfl
    · rfl
    · unfold Wire.onChip; dsimp only; rw [sent_standby]
  rw [e]
  exact t_listenRest hc hl hp hw (m := m.onChip Chip.standbyClear) (c0 := m.s.chip) hi hie
    ⟨hb.cur, holds_congr hb.holds (standby_owned _), hb.mx, hb.lc⟩ (by show m.s.chip.standbyClear.spi = false; rw [standbyClear_eq]; exact hs) rfl

/-- The step of `sendRaw` that sets the frame length. -/
def lenStep (n : Nat) : BusP Unit := powered do
    let d ← readReg 0x30
    if d &&& 8 ≠ 0 then writeReg 0x3e (u8 n) else Pure.pure ()

theorem r_lenStep (n : Nat) {m : Wire} (hi : m.Idle) (h7 : m.s.chip.reg 7 &&& 0x0c = 0) (h1 : m.s.chip.st1 = 0) (h2 : m.s.chip.st2 = 0) :
    Runs true (lenStep n) m () (m.onChip fun c => c.withSPI fun c => if c.reg 0x30 &&& 8 ≠ 0 then c.acc.wr 0x3e (u8 n) else c.acc) := by
  have hw : ∀ c : Chip, c.reg 7 &&& 0x0c = 0 → c.st1 = 0 → c.st2 = 0 → ∀ b, Kq true b (if c.reg 0x30 &&& 8 ≠ 0 then c.acc.wr 0x3e (u8 n) else c.acc) := by
    intro c h7 h1 h2 b
    by_cases h : c.reg 0x30 &&& 8 ≠ 0
    · rw [if_pos h]
      exact kq_quiet (by exact h7) (by exact h1) (by exact h2) b
    · rw [if_neg h]; exact kq_quiet (by exact h7) (by exact h1) (by exact h2) b
  refine r_powered hi (kq_quiet h7 h1 h2 _) (fun x hx _ => ?_) (hw _ (by exact h7) (by exact h1) (by exact h2) _)
  have hx' : x.Idle ∧ x.s.chip.reg 7 &&& 0x0c = 0 ∧ x.s.chip.st1 = 0 ∧ x.s.chip.st2 = 0 := by
    rcases hx with rfl | rfl
    · exact ⟨hi, h7, h1, h2⟩
    · exact ⟨hi, h7, h1, h2⟩
  clear hx
  obtain ⟨hxi, x7, x1, x2⟩ := hx'
  refine Runs.bind (r_readReg hxi 0x30 (by omega) (by omega) (by omega) (kq_quiet x7 x1 x2 _)) ?_
  by_cases h : x.s.chip.reg 0x30 &&& 8 ≠ 0
  · refine Runs.ite_pos h ?_
    have e : (x.onChip fun c => if c.reg 0x30 &&& 8 ≠ 0 then c.acc.wr 0x3e (u8 n) else c.acc) = (x.onChip Chip.acc).onChip fun c => c.wr 0x3e (u8 n) := by
      unfold Wire.onChip; dsimp only; rw [if_pos h]
    rw [e]
    exact r_writeReg (m := x.onChip Chip.acc) hxi 0x3e (by omega) _ (kq_quiet (by exact x7) (by exact x1) (by exact x2) _) (kq_quiet (by exact x7) (by exact x1) (by exact x2) _)
  · refine Runs.ite_neg h ?_
    have e : (x.onChip fun c => if c.reg 0x30 &&& 8 ≠ 0 then c.acc.wr 0x3e (u8 n) else c.acc) = x.onChip Chip.acc := by
      unfold Wire.onChip; dsimp only; rw [if_neg h]
    rw [e]
    exact Runs.pure _ _

theorem queue_short (buf : Bytes) (hlen : buf.length ≤ 64) (c : Chip) : (c.queueFrame buf).st1 = c.st1 := by
  have key : ∀ c : Chip, (queueG buf c).st1 = c.st1 := by
    intro c
    have ht : ((c.wr 8 1).wr 8 0).acc.tx = [] := by simp [Chip.wr, Chip.acc]
    unfold queueG
    dsimp only
    rw [ht, if_neg (by simp; omega)]
    rfl
  show (Chip.withSPI (queueG buf) c).st1 = _
  unfold Chip.withSPI
  split
  · exact key _
  · exact key _

/-- `sendRaw` up to the transmission, after `standby`. -/
theorem t_prep {cfg : RfmCfg} (hc : CfgOk cfg) (hl : CfgAddr cfg) (hp : cfg.irqPin = true) (w : Nat → List WEnv) {m : Wire} (hi : m.Idle)
    (hie : m.ie = true) (hb : RBase cfg m.s) {buf : Bytes} (hlen : buf.length ≤ 64) (ch : Int) {α : Type} {k : Unit → BusP α}
    {R : α → Wire → Prop}
    (hk : Kq true true (m.s.prepTX cfg buf ch).chip → Ex (Wire.hook cfg w) (k ()) (At { m with s := m.s.prepTX cfg buf ch }) R) :
    Ex (Wire.hook cfg w) (setChannel cfg (ch % 256).toNat >>= fun _ => queueFrame buf >>= fun _ => lenStep buf.length >>= k)
      (At (m.onChip Chip.standbyClear)) R := by
  have ht := hook_triv hp w
  obtain ⟨s, junk, ph, ie, ju, t⟩ := m
  obtain ⟨rfl, rfl⟩ : ph = .idle ∧ ju = 0 := hi
  obtain rfl : ie = true := hie
  have q1 : s.chip.standbyClear.reg 7 = 0 ∧ s.chip.standbyClear.reg 8 = 0 ∧ s.chip.standbyClear.st1 = 0 ∧ s.chip.standbyClear.st2 = 0 := by
    rw [standbyClear_eq]; exact ⟨rfl, rfl, rfl, rfl⟩
  have kq : Kq true true s.chip.standbyClear := kq_quiet (by rw [q1.1]; decide) q1.2.2.1 q1.2.2.2 _
  obtain ⟨r, k', e, -, -, -, -, h8, h7⟩ := setChannel_spec hc { s with chip := s.chip.standbyClear } (ch % 256).toNat q1.2.1 q1.1
    ⟨hb.cur, holds_congr hb.holds (standby_owned _), hb.mx, hb.lc⟩
  have kq2 : Kq true true (Rfm.setChannel cfg { s with chip := s.chip.standbyClear } (ch % 256).toNat).chip := by
    rw [e]; exact kq_quiet (c := { s.chip.standbyClear with reg := r }) h7 q1.2.2.1 q1.2.2.2 _
  refine Ex.runsBind ht (r_setChannel (ch % 256).toNat (hl _) (fun _ => hc.tables _) ⟨rfl, rfl⟩ (by exact kq) (by exact kq2)) ?_
  have hq : ∃ r st, (Rfm.setChannel cfg { s with chip := s.chip.standbyClear } (ch % 256).toNat).chip.queueFrame buf = _ ∧ _ :=
    queueFrame_eq buf (Rfm.setChannel cfg { s with chip := s.chip.standbyClear } (ch % 256).toNat).chip (by rw [e]; exact h8)
  have h1 : ((Rfm.setChannel cfg { s with chip := s.chip.standbyClear } (ch % 256).toNat).chip.queueFrame buf).st1 = 0 := by
    rw [queue_short buf hlen, e]; exact q1.2.2.1
  have h2 : ((Rfm.setChannel cfg { s with chip := s.chip.standbyClear } (ch % 256).toNat).chip.queueFrame buf).st2 = 0 := by
    obtain ⟨_, _, e2, -⟩ := hq
    rw [e2, e]; exact q1.2.2.2
  have h3 : ((Rfm.setChannel cfg { s with chip := s.chip.standbyClear } (ch % 256).toNat).chip.queueFrame buf).reg 7 &&& 0x0c = 0 := by
    obtain ⟨_, _, e2, hr⟩ := hq
    rw [e2]; dsimp only; rw [hr, e]; exact h7
  refine Ex.runsBind ht (r_queueFrame buf (m := ⟨Rfm.setChannel cfg { s with chip := s.chip.standbyClear } (ch % 256).toNat, junk, .idle, true, 0, t⟩) ⟨rfl, rfl⟩ (by exact kq2)) ?_
  refine Ex.runsBind ht (r_lenStep buf.length (by exact ⟨rfl, rfl⟩) (by exact h3) (by exact h1) (by exact h2)) ?_
  refine hk ?_
  show Kq true true (Chip.withSPI (fun c => if c.reg 0x30 &&& 8 ≠ 0 then c.acc.wr 0x3e (u8 buf.length) else c.acc)
    ((Rfm.setChannel cfg { s with chip := s.chip.standbyClear } (ch % 256).toNat).chip.queueFrame buf))
  generalize (Rfm.setChannel cfg { s with chip := s.chip.standbyClear } (ch % 256).toNat).chip.queueFrame buf = c at h1 h2 h3
  unfold Chip.withSPI
  by_cases hs : c.spi = true
  · simp only [if_pos hs]
    by_cases hh : c.reg 0x30 &&& 8 ≠ 0
    · simp only [if_pos hh]; exact kq_quiet (by exact h3) (by exact h1) (by exact h2) _
    · simp only [if_neg hh]; exact kq_quiet (by exact h3) (by exact h1) (by exact h2) _
  · rw [if_neg hs]
    by_cases hh : c.reg 0x30 &&& 8 ≠ 0
    · simp only [if_pos hh]; exact kq_quiet (by exact h3) (by exact h1) (by exact h2) _
    · simp only [if_neg hh]; exact kq_quiet (by exact h3) (by exact h1) (by exact h2) _

/-- A transmission or two, then listening again; `T` and `P` stand for `_TXFIFO`. -/
theorem t_sendRest {cfg : RfmCfg} (hc : CfgOk cfg) (hl : CfgAddr cfg) (hp : cfg.irqPin = true) {w : Nat → List WEnv} (hw : Sched A w)
    (T : (Nat → Bool) → Chip → Chip × Bool) (P : BusP Bool)
    (hP : ∀ {m : Wire}, m.Idle → m.ie = true → m.s.chip.spi = false → KSent true m.s.chip →
      Ex (Wire.hook cfg w) P (Fm FSent m) (fun r x => ∃ ev, r = (T ev m.s.chip).2 ∧ Fm FSent (m.onChip fun c => (T ev c).1) x))
    (hT : ∀ ev c, (T ev c).1.reg 5 = 0 ∧ (T ev c).1.reg 6 = 0 ∧ (T ev c).1.reg 7 &&& 4 = 0 ∧ (T ev c).1.spi = c.spi)
    {m : Wire} (hi : m.Idle)
    (hie : m.ie = true) (hs : m.s.chip.spi = false) (hk : Kq true true m.s.chip) (power : Nat)
    (hb : ∀ ev1 ev2, RBase cfg { m.s with chip := (if power ≥ 4 then ((T ev2 (T ev1 m.s.chip).1).1, (T ev1 m.s.chip).2 && (T ev2 (T ev1 m.s.chip).1).2) else T ev1 m.s.chip).1 }) :
    Ex (Wire.hook cfg w) (do
        let r ← P
        let r ← if power ≥ 4 then (do
            load fun _ => ()
            let r2 ← P
            Pure.pure (r && r2)) else Pure.pure r
        dolisten cfg
        Pure.pure r) (At m)
      (fun r x => ∃ ev1 ev2 ops, AirOnly A ops ∧
        r = (if power ≥ 4 then ((T ev2 (T ev1 m.s.chip).1).1, (T ev1 m.s.chip).2 && (T ev2 (T ev1 m.s.chip).1).2) else T ev1 m.s.chip).2 ∧
        At { m with s := Rfm.after cfg (({ m.s with chip := (if power ≥ 4 then ((T ev2 (T ev1 m.s.chip).1).1, (T ev1 m.s.chip).2 && (T ev2 (T ev1 m.s.chip).1).2) else T ev1 m.s.chip).1 } : Rfm).dolisten cfg) ops } x) := by
  have g := rgm_sent (cfg := cfg) hp w
  refine Ex.bind (Ex.pre (hP hi hie hs (KSent.ofQ hk)) fun x hx => Fm.at g hx) fun r => ?_
  refine Ex.exists fun ev1 => Ex.and fun hr => ?_
  obtain ⟨a5, a6, a7, a8⟩ := hT ev1 m.s.chip
  have k1 : KSent true (T ev1 m.s.chip).1 := KSent.noInt a5 a6 a7
  by_cases h4 : power ≥ 4
  · simp only [if_pos h4] at hb ⊢
    refine Ex.assoc (g.bind (g_load g (m := m.onChip fun c => (T ev1 c).1) (by show KSent m.ie _; rw [hie]; exact k1)) ?_)
    refine Ex.assoc (Ex.bind (hP (m := m.onChip fun c => (T ev1 c).1) hi hie (a8.trans hs) k1) fun r2 => ?_)
    refine Ex.exists fun ev2 => Ex.and fun hr2 => ?_
    obtain ⟨b5, b6, b7, b8⟩ := hT ev2 (T ev1 m.s.chip).1
    show Ex _ (dolisten cfg >>= fun _ => Pure.pure (r && r2)) _ _
    refine Ex.bind (t_dolistenTX hc hl hp hw (m := m.onChip fun c => (T ev2 (T ev1 c).1).1) hi hie (hb ev1 ev2) (b8.trans (a8.trans hs)) (KSent.noInt b5 b6 b7)) fun _ => ?_
    refine Ex.pure ?_
    rintro x ⟨ops, ho, hx⟩
    refine ⟨ev1, ev2, ops, ho, ?_, hx⟩
    rw [hr, hr2]; rfl
  · simp only [if_neg h4] at hb ⊢
    show Ex _ (dolisten cfg >>= fun _ => Pure.pure r) _ _
    refine Ex.bind (t_dolistenTX hc hl hp hw (m := m.onChip fun c => (T ev1 c).1) hi hie (hb ev1 ev1) (a8.trans hs) k1) fun _ => ?_
    refine Ex.pure ?_
    rintro x ⟨ops, ho, hx⟩
    exact ⟨ev1, ev1, ops, ho, hr, hx⟩

theorem sendRaw_form (cfg : RfmCfg) (s : Rfm) (buf : Bytes) (ch : Int) (power : Nat) (ev1 ev2 : Nat → Bool) :
    s.sendRaw cfg buf ch power ev1 ev2 =
      (({ s.prepTX cfg buf ch with chip := (if power ≥ 4 then ((Chip.txFifo ev2 (Chip.txFifo ev1 (s.prepTX cfg buf ch).chip).1).1,
          (Chip.txFifo ev1 (s.prepTX cfg buf ch).chip).2 && (Chip.txFifo ev2 (Chip.txFifo ev1 (s.prepTX cfg buf ch).chip).1).2)
          else Chip.txFifo ev1 (s.prepTX cfg buf ch).chip).1 } : Rfm).dolisten cfg,
       (if power ≥ 4 then ((Chip.txFifo ev2 (Chip.txFifo ev1 (s.prepTX cfg buf ch).chip).1).1,
          (Chip.txFifo ev1 (s.prepTX cfg buf ch).chip).2 && (Chip.txFifo ev2 (Chip.txFifo ev1 (s.prepTX cfg buf ch).chip).1).2)
          else Chip.txFifo ev1 (s.prepTX cfg buf ch).chip).2) := by
  unfold Rfm.sendRaw
  rfl

theorem send_base {cfg : RfmCfg} (hc : CfgOk cfg) {s : Rfm} (hb : RBase cfg s) (hs : s.chip.spi = false) (buf : Bytes) (ch : Int) :
    (s.prepTX cfg buf ch).chip.spi = false ∧ ∀ (power : Nat) (ev1 ev2 : Nat → Bool), RBase cfg { s.prepTX cfg buf ch with
      chip := (if power ≥ 4 then ((Chip.txFifo ev2 (Chip.txFifo ev1 (s.prepTX cfg buf ch).chip).1).1,
          (Chip.txFifo ev1 (s.prepTX cfg buf ch).chip).2 && (Chip.txFifo ev2 (Chip.txFifo ev1 (s.prepTX cfg buf ch).chip).1).2)
          else Chip.txFifo ev1 (s.prepTX cfg buf ch).chip).1 } := by
  have hT : ∀ ev (c : Chip) x, ¬ rfmOwned x → (Chip.txFifo ev c).1.reg x = c.reg x := by
    intro ev c x hx
    obtain ⟨r, st, b, e, hr⟩ := txFifo_any ev c
    rw [e]
    simp only [rfmOwned, not_or] at hx
    exact hr x hx.1 hx.2.1 hx.2.2.1
  generalize Chip.txFifo = T at hT
  obtain ⟨r, k, st, e, hk, -, -, hh, -, -⟩ := prepTX_spec hc s hb buf ch
  rw [e]
  refine ⟨hs, fun power ev1 ev2 => ⟨hk, ?_, hb.mx, hb.lc⟩⟩
  dsimp only
  by_cases h4 : power ≥ 4
  · rw [if_pos h4]
    exact holds_congr hh fun x hx => (hT ev2 _ x hx).trans (hT ev1 _ x hx)
  · rw [if_neg h4]
    exact holds_congr hh fun x hx => hT ev1 _ x hx

/-- `sendRaw` with anything in between. -/
theorem t_send (hA : Closed A) {cfg : RfmCfg} (hc : CfgOk cfg) (hl : CfgAddr cfg) (hp : cfg.irqPin = true) {w : Nat → List WEnv} (hw : Sched A w) {m : Wire} (hm : Rest cfg m)
    {buf : Bytes} (hlen : buf.length ≤ 64) (ch : Int) (power : Nat) :
    Ex (Wire.hook cfg w) (sendRaw cfg buf ch power) (At m)
      (fun r x => ∃ before after ev1 ev2, RxOnly A before ∧ AirOnly A after ∧
        r = ((Rfm.after cfg m.s before).sendRaw cfg buf ch power ev1 ev2).2 ∧
        At { m with s := Rfm.after cfg ((Rfm.after cfg m.s before).sendRaw cfg buf ch power ev1 ev2).1 after } x) := by
  refine Ex.bind (t_standby hA hc hl hp hw hm.live) fun _ => ?_
  refine Ex.exists fun before => Ex.and fun ho => ?_
  have hs := rx_inv hc hm.inv before ho
  obtain ⟨hspi, hbase⟩ := send_base hc hs.toRBase hs.spi buf ch
  refine Ex.pre (S := At (({ m with s := Rfm.after cfg m.s before } : Wire).onChip Chip.standbyClear)) ?_ fun x hx => hx
  refine t_prep hc hl hp w (m := { m with s := Rfm.after cfg m.s before }) hm.idle hm.ie hs.toRBase hlen ch (fun kq => ?_)
  refine Ex.post (t_sendRest hc hl hp hw Chip.txFifo txFifo (fun a b c d => t_txFifo (rgm_sent hp w) a b c d) txFifo_regs
    (m := { m with s := (Rfm.after cfg m.s before).prepTX cfg buf ch }) hm.idle hm.ie hspi kq power (fun ev1 ev2 => hbase power ev1 ev2)) ?_
  rintro r x ⟨ev1, ev2, ops, ha, hr, hx⟩
  refine ⟨before, ops, ev1, ev2, ho, ha, ?_, ?_⟩
  · rw [sendRaw_form]; exact hr
  · rw [sendRaw_form]; exact hx

/-- A step with interrupts on that only looks at or changes fields of the link. -/
theorem t_live (hA : Closed A) {cfg : RfmCfg} (hc : CfgOk cfg) (hl : CfgAddr cfg) {w : Nat → List WEnv} (hw : Sched A w) {m : Wire} (hm : Live cfg m) {α : Type}
    (f : Rfm → α × Rfm) :
    Ex (Wire.hook cfg w) (BusP.prim fun m => ((f m.s).1, { m with s := (f m.s).2 })) (At m) (fun r x => ∃ ops, RxOnly A ops ∧
      r = (f (Rfm.after cfg m.s ops)).1 ∧ At { m with s := (f (Rfm.after cfg m.s ops)).2 } x) := by
  rintro x ⟨t, rfl⟩
  obtain ⟨ops, ho, t', e⟩ := hook_live hA hc hl hw (m := m.tm t) ⟨hm.idle, hm.ie, hm.inv⟩
  refine ⟨ops, ho, ?_, t', ?_⟩
  · show (f (Wire.hook cfg w (m.tm t)).s).1 = _
    rw [e]; rfl
  · show ({ Wire.hook cfg w (m.tm t) with s := (f (Wire.hook cfg w (m.tm t)).s).2 } : Wire) = _
    rw [e]; rfl

/-- `_dolistenNonVirtual` with interrupts on. -/
theorem t_dolisten (hA : Closed A) {cfg : RfmCfg} (hc : CfgOk cfg) (hl : CfgAddr cfg) (hp : cfg.irqPin = true) {w : Nat → List WEnv} (hw : Sched A w) {m : Wire} (hm : Live cfg m) :
    Ex (Wire.hook cfg w) (dolisten cfg) (At m) (fun _ x => ∃ mid after, RxOnly A mid ∧ AirOnly A after ∧
      At { m with s := Rfm.after cfg ((Rfm.after cfg m.s mid).dolisten cfg) after } x) := by
  refine Ex.bind (t_standby hA hc hl hp hw hm) fun _ => ?_
  refine Ex.exists fun mid => Ex.and fun ho => ?_
  have hs := rx_soft hc hm.inv mid ho
  refine Ex.post (t_listenRest hc hl hp hw (m := { m with s := { Rfm.after cfg m.s mid with chip := (Rfm.after cfg m.s mid).chip.standbyClear } })
    (c0 := (Rfm.after cfg m.s mid).chip) hm.idle hm.ie
    ⟨hs.cur, holds_congr hs.holds (standby_owned _), hs.mx, hs.lc⟩ (by dsimp only; rw [standbyClear_eq]; exact hs.spi) rfl) ?_
  rintro _ x ⟨ops, ha, hx⟩
  exact ⟨mid, ops, ho, ha, hx⟩

/-- `poll()` with anything in between: nothing is done, or one undisturbed `_poll`. -/
theorem t_poll (hA : Closed A) {cfg : RfmCfg} (hc : CfgOk cfg) (hl : CfgAddr cfg) (hp : cfg.irqPin = true) {w : Nat → List WEnv} (hw : Sched A w) {m : Wire}
    (hm : Live cfg m) :
    Ex (Wire.hook cfg w) (poll cfg) (At m) (fun _ x => ∃ before after, RxOnly A before ∧ AirOnly A after ∧
      (At { m with s := Rfm.after cfg m.s before } x ∨ At { m with s := Rfm.after cfg ((Rfm.after cfg m.s before).pollBody cfg m.junk) after } x)) := by
  have ht := hook_triv hp w
  have g := rgm_air cfg hw
  refine Ex.bind (Q := fun _ x => ∃ ops, RxOnly A ops ∧ At { m with s := Rfm.after cfg m.s ops } x) ?_ fun r => ?_
  · rintro x ⟨t, rfl⟩
    obtain ⟨ops, ho, t', e⟩ := hook_live hA hc hl hw (m := m.tm t) ⟨hm.idle, hm.ie, hm.inv⟩
    exact ⟨ops, ho, t', e⟩
  refine Ex.exists fun o1 => Ex.and fun ho1 => ?_
  by_cases hr : r = true
  · rw [if_pos hr]
    exact Ex.pure fun x hx => ⟨o1, [], ho1, (by intro o h; cases h), Or.inl hx⟩
  rw [if_neg hr]
  have hm1 : Live cfg { m with s := Rfm.after cfg m.s o1 } := ⟨hm.idle, hm.ie, rx_soft hc hm.inv o1 ho1⟩
  refine Ex.bind (Q := fun r x => r = true ∧ ∃ ops, RxOnly A ops ∧ At { m with s := Rfm.after cfg m.s ops, ie := false } x) ?_ fun r => ?_
  · rintro x ⟨t, rfl⟩
    obtain ⟨ops, ho, t', e⟩ := hook_live hA hc hl hw (m := ({ m with s := Rfm.after cfg m.s o1 } : Wire).tm t) ⟨hm1.idle, hm1.ie, hm1.inv⟩
    show (Wire.hook cfg w _).ie = true ∧ _
    rw [e]
    refine ⟨hm.ie, ops ++ o1, ho.append ho1, t', ?_⟩
    show ({ Wire.hook cfg w _ with ie := false } : Wire) = _
    rw [e, rfm_after_append]; rfl
  refine Ex.and fun hr => Ex.exists fun ops => Ex.and fun ho => ?_
  subst hr
  have hs := rx_soft hc hm.inv ops ho
  refine Ex.bind (Ex.pre (i_pollBody hA hc hl g ht (m := { m with s := Rfm.after cfg m.s ops, ie := false }) hm.idle ⟨rfl, hs.r8⟩ hs.toRBase hs.mild)
    fun x hx => Fm.at g hx) fun _ => ?_
  refine Ex.exists fun l => Ex.and fun hal => ?_
  obtain ⟨o2, ho2, e2⟩ := airs_after cfg (Rfm.after cfg m.s ops) hal
  dsimp only
  rw [← e2, ← rfm_after_append]
  have hbefore : RxOnly A (o2 ++ ops) := ho2.rx.append ho
  have hs2 := rx_soft hc hm.inv (o2 ++ ops) hbefore
  generalize o2 ++ ops = before at hbefore hs2 ⊢
  refine g.bind (g_sei g (m := { m with s := (Rfm.after cfg m.s before).pollBody cfg m.junk, ie := false }) ⟨rfl, (pollBody_soft hc hs2 m.junk).r8⟩ true) ?_
  refine Ex.pure fun x hx => ?_
  obtain ⟨l2, hl2, hx⟩ := hx.list
  obtain ⟨o3, ho3, e3⟩ := airs_after cfg ((Rfm.after cfg m.s before).pollBody cfg m.junk) hl2
  refine ⟨before, o3, hbefore, ho3, Or.inr ?_⟩
  rw [e3]
  obtain ⟨s, junk, ph, ie, ju, t⟩ := m
  obtain rfl : ie = true := hm.ie
  exact hx

end Spi

theorem lc_rx {A : Air → Prop} (cfg : RfmCfg) (s : Rfm) (ops : List RfmOp) (ho : RxOnly A ops) (hl : ∀ s : Rfm, ∀ j, (s.poll cfg j).lc = s.lc) :
    (Rfm.after cfg s ops).lc = s.lc := by
  induction ops with
  | nil => rfl
  | cons o ops ih =>
    have ih := ih fun x hx => ho x (List.mem_cons_of_mem _ hx)
    rcases ho o (List.mem_cons_self ..) with ⟨j, rfl⟩ | ⟨e, -, rfl⟩
    · exact (hl _ j).trans ih
    · exact ih

end OTR
