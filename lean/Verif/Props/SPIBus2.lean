import Verif.Proof.SPIBus5
import Verif.Props.SPIBus
/-!
# Property C225: calls to the radio link are safe against interrupts between any two bytes

The machine of `Model/SPIBus.lean`: before each step of the application (each byte on the SPI bus, each change of slave-select,
SPI power or interrupt flag, each access to a shared field) a schedule `w` lets any number of things happen: the radio receives a
packet, bytes or noise; a transmission ends; the receive interrupt routine runs, if interrupts are on. The interrupt routine is
itself carried out byte by byte, with the radio free to act before each of its steps.
-/

namespace OTR.Props
open OTR Spi

/-- The radio events in a schedule: those before the application's steps and those during interrupts; and, as parts of these, fewer
bytes or less noise. -/
inductive Heard (w : Nat → List WEnv) : Air → Prop
  | app (t : Nat) (e : Air) : WEnv.radio (.air e) ∈ w t → Heard w e
  | isr (t t' : Nat) (r : Nat → List REnv) (e : Air) : WEnv.irq r ∈ w t → REnv.air e ∈ r t' → Heard w e
  | less (d : Bytes) (k : Nat) : Heard w (.bytes d) → Heard w (.bytes (d.take k))
  | quiet (n1 n2 : Byte) : Heard w (.noise n1 n2) → Heard w (.noise n1 0)

theorem heard_closed (w : Nat → List WEnv) : Closed (Heard w) := ⟨.less, .quiet⟩
theorem heard_sched (w : Nat → List WEnv) : Sched (Heard w) w := ⟨.app, fun t r h t' e he => .isr t t' r e h he⟩

/-- Interrupts (or polls) and radio events of the schedule. -/
abbrev Rx (w : Nat → List WEnv) : List RfmOp → Prop := RxOnly (Heard w)
/-- Radio events of the schedule. -/
abbrev Airs (w : Nat → List WEnv) : List RfmOp → Prop := AirOnly (Heard w)

theorem ex_run {cfg : RfmCfg} {w : Nat → List WEnv} {α : Type} {p : BusP α} {m : Wire} {Q : α → Wire → Prop}
    (h : Ex (Wire.hook cfg w) p (At m) Q) : Q (p (Wire.hook cfg w) m).1 (p (Wire.hook cfg w) m).2 := h m ⟨m.t, rfl⟩

theorem rest_of {cfg : RfmCfg} {m x : Wire} {s : Rfm} (hm : Rest cfg m) (hs : RInv cfg s) (hd : Mild s.chip) (hx : At { m with s := s } x) :
    x.s = s ∧ Rest cfg x := by
  obtain ⟨t, rfl⟩ := hx
  exact ⟨rfl, hm.idle, hm.ie, hs, hd⟩

theorem send_inv {cfg : RfmCfg} (hc : CfgOk cfg) {s : Rfm} (h : RInv cfg s) (buf : Bytes) (ch : Int) (p : Nat) (e1 e2 : Nat → Bool) :
    RInv cfg (s.sendRaw cfg buf ch p e1 e2).1 :=
  op_inv hc h (.send buf ch p e1 e2) (by intro h; cases h) (by intro h; cases h)

theorem send_mild {cfg : RfmCfg} (hc : CfgOk cfg) {s : Rfm} (h : RInv cfg s) (buf : Bytes) (ch : Int) (p : Nat) (e1 e2 : Nat → Bool) :
    Mild (s.sendRaw cfg buf ch p e1 e2).1.chip := by
  rw [sendRaw_form]
  exact dolisten_mild hc ((send_base hc h.toRBase h.spi buf ch).2 p e1 e2)

/-- Sending, byte by byte with anything in between, is the same as: some interrupts and radio events, then an undisturbed
`sendRaw()` of the register-level model with its result, then some radio events. The bus is left idle, interrupts on, and the
link in the state it has after every call. -/
theorem C225_send {cfg : RfmCfg} (hc : CfgOk cfg) (hl : CfgAddr cfg) (hp : cfg.irqPin = true) (w : Nat → List WEnv) (m : Wire) (hm : Rest cfg m)
    (buf : Bytes) (hlen : buf.length ≤ 64) (ch : Int) (power : Nat) :
    let x := Spi.sendRaw cfg buf ch power (Wire.hook cfg w) m
    Rest cfg x.2 ∧ ∃ before after ev1 ev2, Rx w before ∧ Airs w after ∧
      x.1 = ((Rfm.after cfg m.s before).sendRaw cfg buf ch power ev1 ev2).2 ∧
      x.2.s = Rfm.after cfg ((Rfm.after cfg m.s before).sendRaw cfg buf ch power ev1 ev2).1 after := by
  obtain ⟨before, after, ev1, ev2, hb, ha, hr, hx⟩ := ex_run (t_send (heard_closed w) hc hl hp (heard_sched w) hm hlen ch power)
  have hi := rx_inv hc hm.inv before hb
  obtain ⟨h1, h2⟩ := rest_of hm (rx_inv hc (send_inv hc hi buf ch power ev1 ev2) after ha.rx)
    (rx_mild hc (send_inv hc hi buf ch power ev1 ev2) (send_mild hc hi buf ch power ev1 ev2) after ha.rx) hx
  exact ⟨h2, before, after, ev1, ev2, hb, ha, hr, h1⟩

/-- The channel `listen()` sets. -/
def listenNew (cfg : RfmCfg) (active : Bool) (ch : Int) : Option Nat :=
  if active = true ∧ 0 ≤ ch then some (min ch.toNat (cfg.nCh - 1)) else none

theorem listenNew_eq {cfg : RfmCfg} (hc : CfgOk cfg) (a : Bool) (ch : Int) :
    (if a = false ∨ ch < 0 then none else some (if ch ≥ cfg.nCh then cfg.nCh - 1 else ch.toNat) : Option Nat) = listenNew cfg a ch := by
  have := hc.ch
  unfold listenNew
  cases a with
  | false => simp
  | true =>
    by_cases h : ch < 0
    · rw [if_pos (Or.inr h), if_neg (fun x => by omega)]
    · have h' : ¬ (true = false ∨ ch < 0) := by simp [h]
      have h'' : true = true ∧ 0 ≤ ch := ⟨rfl, by omega⟩
      rw [if_neg h', if_pos h'']
      congr 1
      by_cases h2 : ch ≥ (cfg.nCh : Int)
      · rw [if_pos h2]; omega
      · rw [if_neg h2]; omega

theorem listenNew_lt {cfg : RfmCfg} (hc : CfgOk cfg) (a : Bool) (ch : Int) (c : Nat) (h : listenNew cfg a ch = some c) : c < cfg.nCh := by
  have := hc.ch
  unfold listenNew at h
  split at h
  · injection h with h; omega
  · cases h

/-- Changing channel, byte by byte with anything in between: the interrupt routine may also run between the store of the new
channel and the set-up of the radio (`mid`). If the channel is not new nothing is done. In every case the link is left as after
every call, for the new channel. -/
theorem C225_listen {cfg : RfmCfg} (hc : CfgOk cfg) (hl : CfgAddr cfg) (hp : cfg.irqPin = true) (w : Nat → List WEnv) (m : Wire) (hm : Rest cfg m)
    (a : Bool) (ch : Int) :
    let x := Spi.listen cfg a ch (Wire.hook cfg w) m
    Rest cfg x.2 ∧ x.2.s.lc = listenNew cfg a ch ∧ ∃ before mid after, Rx w before ∧ Rx w mid ∧ Airs w after ∧
      x.2.s = if listenNew cfg a ch = none ∨ m.s.lc ≠ listenNew cfg a ch then
        Rfm.after cfg ((Rfm.after cfg { Rfm.after cfg m.s before with lc := listenNew cfg a ch } mid).dolisten cfg) after
      else Rfm.after cfg m.s before := by
  have key : Ex (Wire.hook cfg w) (Spi.listen cfg a ch) (At m) (fun _ x => ∃ before mid after, Rx w before ∧ Rx w mid ∧ Airs w after ∧
      At { m with s := (if listenNew cfg a ch = none ∨ m.s.lc ≠ listenNew cfg a ch then
        Rfm.after cfg ((Rfm.after cfg { Rfm.after cfg m.s before with lc := listenNew cfg a ch } mid).dolisten cfg) after
      else Rfm.after cfg m.s before) } x) := by
    unfold Spi.listen
    rw [listenNew_eq hc]
    refine Ex.bind (Q := fun r x => ∃ ops, Rx w ops ∧ r = (Rfm.after cfg m.s ops).lc ∧ At { m with s := Rfm.after cfg m.s ops } x)
      (t_live (heard_closed w) hc hl (heard_sched w) hm.live fun s => (s.lc, s)) fun old => ?_
    refine Ex.exists fun b1 => Ex.and fun h1 => Ex.and fun ho => ?_
    have ho : old = m.s.lc := ho.trans (lc_rx cfg m.s b1 h1 fun s j => lc_poll cfg s j)
    have r1 : Rest cfg { m with s := Rfm.after cfg m.s b1 } := ⟨hm.idle, hm.ie, rx_inv hc hm.inv b1 h1, rx_mild hc hm.inv hm.mild b1 h1⟩
    refine Ex.bind (Q := fun _ x => ∃ ops, Rx w ops ∧ True ∧ At { m with s := { Rfm.after cfg (Rfm.after cfg m.s b1) ops with lc := listenNew cfg a ch } } x)
      (Ex.post (t_live (heard_closed w) hc hl (heard_sched w) r1.live fun s => ((), { s with lc := listenNew cfg a ch })) fun _ x hx => ?_) fun _ => ?_
    · obtain ⟨ops, h, -, hx⟩ := hx
      exact ⟨ops, h, trivial, hx⟩
    refine Ex.exists fun b2 => Ex.and fun h2 => Ex.and fun _ => ?_
    rw [← rfm_after_append]
    have hb : Rx w (b2 ++ b1) := by
      intro o h
      rcases List.mem_append.1 h with h | h
      · exact h2 o h
      · exact h1 o h
    generalize b2 ++ b1 = before at hb
    have hs := rx_inv hc hm.inv before hb
    have hsm := rx_mild hc hm.inv hm.mild before hb
    have r8s := rinv_r8 hs
    have hlc : (Rfm.after cfg m.s before).lc = m.s.lc := lc_rx cfg m.s before hb fun s j => lc_poll cfg s j
    subst ho
    by_cases hcase : listenNew cfg a ch = none ∨ m.s.lc ≠ listenNew cfg a ch
    · rw [if_pos hcase]
      have lv : Live cfg { m with s := { Rfm.after cfg m.s before with lc := listenNew cfg a ch } } :=
        ⟨hm.idle, hm.ie, ⟨⟨hs.cur, hs.holds, hs.mx, fun c h => listenNew_lt hc a ch c h⟩, hs.spi, hs.fault, r8s, hsm⟩⟩
      refine Ex.post (t_dolisten (heard_closed w) hc hl hp (heard_sched w) lv) ?_
      rintro _ x ⟨mid, after, hm', ha, hx⟩
      refine ⟨before, mid, after, hb, hm', ha, ?_⟩
      rw [if_pos hcase]; exact hx
    · rw [if_neg hcase]
      refine Ex.pure fun x hx => ⟨before, [], [], hb, (by intro o h; cases h), (by intro o h; cases h), ?_⟩
      rw [if_neg hcase]
      have e : listenNew cfg a ch = (Rfm.after cfg m.s before).lc := by
        rw [hlc]
        by_cases h : m.s.lc = listenNew cfg a ch
        · exact h.symm
        · exact absurd (Or.inr h) hcase
      rw [e] at hx
      exact hx
  obtain ⟨before, mid, after, hb, hmid, ha, hx⟩ := ex_run key
  have hs := rx_inv hc hm.inv before hb
  have hsm := rx_mild hc hm.inv hm.mild before hb
  have r8s := rinv_r8 hs
  by_cases hcase : listenNew cfg a ch = none ∨ m.s.lc ≠ listenNew cfg a ch
  · rw [if_pos hcase] at hx
    have hsoft := rx_soft hc (s := { Rfm.after cfg m.s before with lc := listenNew cfg a ch })
      ⟨⟨hs.cur, hs.holds, hs.mx, fun c h => listenNew_lt hc a ch c h⟩, hs.spi, hs.fault, r8s, hsm⟩ mid hmid
    obtain ⟨e1, e2⟩ := rest_of hm (rx_inv hc (dolisten_inv hc _ hsoft.toRBase hsoft.spi hsoft.fault) after ha.rx)
      (rx_mild hc (dolisten_inv hc _ hsoft.toRBase hsoft.spi hsoft.fault) (dolisten_mild hc hsoft.toRBase) after ha.rx) hx
    refine ⟨e2, ?_, before, mid, after, hb, hmid, ha, by rw [if_pos hcase]; exact e1⟩
    rw [e1, lc_rx cfg _ after ha.rx fun s j => lc_poll cfg s j, lc_dolisten, lc_rx cfg _ mid hmid fun s j => lc_poll cfg s j]
  · rw [if_neg hcase] at hx
    obtain ⟨e1, e2⟩ := rest_of hm hs hsm hx
    refine ⟨e2, ?_, before, mid, after, hb, hmid, ha, by rw [if_neg hcase]; exact e1⟩
    rw [e1, lc_rx cfg _ before hb fun s j => lc_poll cfg s j]
    by_cases h : m.s.lc = listenNew cfg a ch
    · exact h
    · exact absurd (Or.inr h) hcase

/-- `poll()`, byte by byte with anything in between: it does nothing, or one undisturbed `_poll` (the interrupt routine may have
run since the check of the interrupt line, so `_poll` may find nothing to do). -/
theorem C225_poll {cfg : RfmCfg} (hc : CfgOk cfg) (hl : CfgAddr cfg) (hp : cfg.irqPin = true) (w : Nat → List WEnv) (m : Wire) (hm : Rest cfg m) :
    let x := Spi.poll cfg (Wire.hook cfg w) m
    Rest cfg x.2 ∧ ∃ before after, Rx w before ∧ Airs w after ∧
      (x.2.s = Rfm.after cfg m.s before ∨ x.2.s = Rfm.after cfg ((Rfm.after cfg m.s before).pollBody cfg m.junk) after) := by
  obtain ⟨before, after, hb, ha, hx⟩ := ex_run (t_poll (heard_closed w) hc hl hp (heard_sched w) hm.live)
  have hi := rx_inv hc hm.inv before hb
  have hd := rx_mild hc hm.inv hm.mild before hb
  rcases hx with hx | hx
  · obtain ⟨h1, h2⟩ := rest_of hm hi hd hx
    exact ⟨h2, before, after, hb, ha, Or.inl h1⟩
  · have hi2 := pollBody_inv hc hi m.junk
    obtain ⟨h1, h2⟩ := rest_of hm (rx_inv hc hi2 after ha.rx) (rx_mild hc hi2 (pollBody_soft hc (hi.soft hd) m.junk).mild after ha.rx) hx
    exact ⟨h2, before, after, hb, ha, Or.inr h1⟩

/-! ## Any sequence of calls -/

/-- Calls by the application; `wait` is a step of other code; `remove` and `setMax` are one step each (`remove` is atomic in the
code). -/
inductive WCall where
  | send (buf : Bytes) (ch : Int) (power : Nat)
  | listen (active : Bool) (ch : Int)
  | poll
  | remove
  | setMax (n : Byte)
  | wait

/-- A call as a program. -/
def callProg (cfg : RfmCfg) : WCall → BusP Unit
  | .send buf ch power => do let _ ← Spi.sendRaw cfg buf ch power; pure ()
  | .listen a ch => Spi.listen cfg a ch
  | .poll => Spi.poll cfg
  | .remove => Spi.store fun s => s.op cfg .remove
  | .setMax n => Spi.store fun s => s.setMax n
  | .wait => Spi.store fun s => s

/-- A number of calls one after another (newest first in the list). -/
def callsRun (cfg : RfmCfg) (w : Nat → List WEnv) (m : Wire) : List WCall → Wire
  | [] => m
  | c :: l => (callProg cfg c (Wire.hook cfg w) (callsRun cfg w m l)).2

/-- The frames given to `sendRaw()` fit the radio's buffer. -/
def Short (l : List WCall) : Prop := ∀ b ch p, WCall.send b ch p ∈ l → b.length ≤ 64

/-- The channel to listen on, according to the calls made. -/
def callChan (cfg : RfmCfg) : List WCall → Option Nat
  | [] => none
  | .listen a ch :: _ => listenNew cfg a ch
  | _ :: l => callChan cfg l

theorem live_step {cfg : RfmCfg} (hc : CfgOk cfg) (hl : CfgAddr cfg) (w : Nat → List WEnv) {m : Wire} (hm : Rest cfg m) (f : Rfm → Rfm)
    (hf : ∀ s, RInv cfg s → RInv cfg (f s) ∧ (f s).lc = s.lc ∧ (f s).chip = s.chip) :
    Rest cfg (Spi.store f (Wire.hook cfg w) m).2 ∧ (Spi.store f (Wire.hook cfg w) m).2.s.lc = m.s.lc := by
  obtain ⟨ops, ho, -, hx⟩ := ex_run (t_live (heard_closed w) hc hl (heard_sched w) hm.live fun s => ((), f s))
  have hs := rx_inv hc hm.inv ops ho
  obtain ⟨e1, e2⟩ := rest_of hm (hf _ hs).1 (by rw [(hf _ hs).2.2]; exact rx_mild hc hm.inv hm.mild ops ho) hx
  refine ⟨e2, ?_⟩
  rw [show (Spi.store f (Wire.hook cfg w) m).2.s = _ from e1, (hf _ hs).2.1]
  exact lc_rx cfg _ ops ho fun s j => lc_poll cfg s j

theorem sendRaw_lc (cfg : RfmCfg) (s : Rfm) (buf : Bytes) (ch : Int) (p : Nat) (e1 e2 : Nat → Bool) : (s.sendRaw cfg buf ch p e1 e2).1.lc = s.lc := by
  simp only [Rfm.sendRaw, lc_dolisten, Rfm.prepTX, lc_setChannel]

theorem calls_inv {cfg : RfmCfg} (hc : CfgOk cfg) (hl : CfgAddr cfg) (hp : cfg.irqPin = true) (w : Nat → List WEnv) {m : Wire} (hm : Rest cfg m)
    (hlc : m.s.lc = none) (l : List WCall) (hs : Short l) : Rest cfg (callsRun cfg w m l) ∧ (callsRun cfg w m l).s.lc = callChan cfg l := by
  induction l with
  | nil => exact ⟨hm, hlc⟩
  | cons c l ih =>
    obtain ⟨h1, h2⟩ := ih fun b ch p h => hs b ch p (List.mem_cons_of_mem _ h)
    unfold callsRun
    generalize callsRun cfg w m l = m1 at h1 h2
    cases c with
    | send buf ch power =>
      obtain ⟨r, before, after, ev1, ev2, hb, ha, -, e⟩ := C225_send hc hl hp w m1 h1 buf (hs buf ch power (List.mem_cons_self ..)) ch power
      refine ⟨r, ?_⟩
      show (Spi.sendRaw cfg buf ch power (Wire.hook cfg w) m1).2.s.lc = callChan cfg l
      rw [e, lc_rx cfg _ after ha.rx fun s j => lc_poll cfg s j, sendRaw_lc, lc_rx cfg _ before hb fun s j => lc_poll cfg s j]
      exact h2
    | listen a ch =>
      obtain ⟨r, e, -⟩ := C225_listen hc hl hp w m1 h1 a ch
      exact ⟨r, e⟩
    | poll =>
      obtain ⟨r, before, after, hb, ha, e⟩ := C225_poll hc hl hp w m1 h1
      refine ⟨r, ?_⟩
      show (Spi.poll cfg (Wire.hook cfg w) m1).2.s.lc = callChan cfg l
      rcases e with e | e
      · rw [e, lc_rx cfg _ before hb fun s j => lc_poll cfg s j]; exact h2
      · rw [e, lc_rx cfg _ after ha.rx fun s j => lc_poll cfg s j, ← noPin_poll, lc_poll, lc_rx cfg _ before hb fun s j => lc_poll cfg s j]; exact h2
    | remove =>
      obtain ⟨r, e⟩ := live_step hc hl w h1 (fun s => s.op cfg .remove) fun s h => ⟨op_inv hc h _ (by intro h; cases h) (by intro h; cases h), by
        simp only [Rfm.op]; split <;> exact ⟨rfl, rfl⟩⟩
      exact ⟨r, e.trans h2⟩
    | setMax n =>
      obtain ⟨r, e⟩ := live_step hc hl w h1 (fun s => s.setMax n) fun s h => ⟨op_inv hc h (.setMax n) (by intro h; cases h) (by intro h; cases h), rfl, rfl⟩
      exact ⟨r, e.trans h2⟩
    | wait =>
      obtain ⟨r, e⟩ := live_step hc hl w h1 (fun s => s) fun s h => ⟨h, rfl, rfl⟩
      exact ⟨r, e.trans h2⟩

/-- A machine just started: `begin()` has succeeded on a fresh link, with the bus idle; interrupts are then turned on. -/
structure Started (cfg : RfmCfg) (m : Wire) : Prop where
  idle : m.ph = .idle ∧ m.ju = 0
  ie : m.ie = true
  link : ∃ c cap junk, c.spi = false ∧ c.fault = false ∧ ((rfmFresh c cap junk).begin cfg).2 = true ∧ m.s = ((rfmFresh c cap junk).begin cfg).1

theorem started_rest {cfg : RfmCfg} (hc : CfgOk cfg) {m : Wire} (h : Started cfg m) : Rest cfg m ∧ m.s.lc = none := by
  obtain ⟨c, cap, junk, h1, h2, h3, e⟩ := h.link
  have hm : Mild m.s.chip := by
    rw [e]; unfold Rfm.begin at h3 ⊢; dsimp only at h3 ⊢
    split at h3
    · rename_i hx; rw [if_pos hx]; dsimp only; rw [standbyClear_eq]; exact ⟨fun _ h => absurd (by simp) h, by simp⟩
    · cases h3
  refine ⟨⟨h.idle, h.ie, by rw [e]; exact begin_inv hc c cap junk h1 h2 h3, hm⟩, ?_⟩
  rw [e]; unfold Rfm.begin; dsimp only; split <;> rfl

/-- After any calls, with interrupts and radio events between any two bytes: the bus is idle and the SPI hardware off, was never
used while off, interrupts are on, and the radio does what the latest `listen()` said. -/
theorem C225_follows_listen {cfg : RfmCfg} (hc : CfgOk cfg) (hl : CfgAddr cfg) (hp : cfg.irqPin = true) (w : Nat → List WEnv) (m : Wire)
    (hm : Started cfg m) (l : List WCall) (hs : Short l) :
    let x := callsRun cfg w m l
    x.ph = .idle ∧ x.ie = true ∧ x.s.chip.spi = false ∧ x.s.chip.fault = false ∧
    match (if cfg.allowRX = true then callChan cfg l else none) with
    | some ch => Holds (cfg.regs ch) x.s.chip.reg ∧ Receiving x.s.chip
    | none => Quiet x.s.chip := by
  obtain ⟨hm, h0⟩ := started_rest hc hm
  obtain ⟨r, e⟩ := calls_inv hc hl hp w hm h0 l hs
  refine ⟨r.idle.1, r.ie, r.inv.spi, r.inv.fault, ?_⟩
  by_cases ha : cfg.allowRX = true
  · rw [if_pos ha, ← e]
    cases hs : (callsRun cfg w m l).s.lc with
    | none => exact r.inv.off (Or.inl hs)
    | some ch =>
      obtain ⟨e, rr⟩ := r.inv.on ch hs ha
      exact ⟨by rw [← e]; exact r.inv.holds, rr⟩
  · rw [if_neg ha]
    exact r.inv.off (Or.inr (by simpa using ha))

/-! ## What goes on the air -/

theorem take_air (cfg : RfmCfg) (s : Rfm) (n : Nat) (junk : Nat → Byte) : (s.take cfg n junk).chip.air = s.chip.air := by
  rw [(take_fields cfg s n junk).1, standbyClear_eq]

theorem dolisten_air {cfg : RfmCfg} (hc : CfgOk cfg) {s : Rfm} (hb : RBase cfg s) : (s.dolisten cfg).chip.air = s.chip.air := by
  obtain ⟨r, k, e, -⟩ := dolisten_spec hc s hb
  rw [e]

theorem poll_air {cfg : RfmCfg} (hc : CfgOk cfg) {s : Rfm} (h : RInv cfg s) (junk : Nat → Byte) : (s.poll cfg junk).chip.air = s.chip.air := by
  unfold Rfm.poll
  split
  · rfl
  · by_cases ha : cfg.allowRX = true
    · cases hl : s.lc with
      | none => rw [pollBody_off _ (Or.inr hl)]
      | some ch =>
        rw [pollBody_cases ha hl h.spi junk]
        have hb1 : RBase cfg { s with chip := { s.chip with st1 := 0, st2 := 0 } } := ⟨h.cur, h.holds, h.mx, h.lc⟩
        have hb2 : RBase cfg { s with chip := { s.chip with st1 := 0, st2 := 0, spi := true } } := ⟨h.cur, h.holds, h.mx, h.lc⟩
        have hb3 : RBase cfg { s with chip := { s.chip with st1 := 0, st2 := 0 }, err := 2 } := ⟨h.cur, h.holds, h.mx, h.lc⟩
        dsimp only
        generalize (if s.chip.reg 0x33 &&& 8 = 8 then s.chip.reg 0x3e else s.chip.reg 0x4b).toNat = len
        (repeat' split)
        · show (Rfm.dolisten cfg _).chip.air = _
          rw [dolisten_air hc (take_base hb2 _ junk), take_air]
        · rfl
        · rw [dolisten_air hc hb3]
        · rw [dolisten_air hc (take_base hb1 _ junk), take_air]
        · rfl
    · rw [pollBody_off _ (Or.inl (by simpa using ha))]

theorem rx_air {A : Air → Prop} {cfg : RfmCfg} (hc : CfgOk cfg) {s : Rfm} (h : RInv cfg s) (ops : List RfmOp) (ho : RxOnly A ops) :
    (Rfm.after cfg s ops).chip.air = s.chip.air := by
  induction ops with
  | nil => rfl
  | cons o ops ih =>
    have ho' : RxOnly A ops := fun x hx => ho x (List.mem_cons_of_mem _ hx)
    have ih := ih ho'
    rcases ho o (List.mem_cons_self ..) with ⟨j, rfl⟩ | ⟨e, -, rfl⟩
    · exact (poll_air hc (rx_inv hc h ops ho') j).trans ih
    · refine Eq.trans ?_ ih
      show ((Rfm.after cfg s ops).chip.air1 e).air = _
      generalize (Rfm.after cfg s ops).chip = c
      cases e <;> simp only [Chip.air1] <;> split <;> rfl

/-- A frame of at most 64 bytes sent on a channel that exists, after any calls and whatever happens between the bytes: it goes on
the air whole, once, or at the highest power once or twice (twice if the call returns true), with that channel's configuration
and its own length; and nothing else goes on the air. -/
theorem C225_frame {cfg : RfmCfg} (hc : CfgOk cfg) (hl : CfgAddr cfg) (hp : cfg.irqPin = true) (w : Nat → List WEnv) (m : Wire)
    (hm : Started cfg m) (l : List WCall) (hs : Short l) (buf : Bytes) (hlen : buf.length ≤ 64) (ch : Nat) (hch : ch < cfg.nCh)
    (hch' : ch < 128) (power : Nat) :
    let y := callsRun cfg w m l
    let x := Spi.sendRaw cfg buf ch power (Wire.hook cfg w) y
    ∃ new, x.2.s.chip.air = new ++ y.s.chip.air ∧ 1 ≤ new.length ∧ new.length ≤ 2 ∧ (power < 4 → new.length = 1) ∧
      (power ≥ 4 → x.1 = true → new.length = 2) ∧
      ∀ f ∈ new, f.1 = buf ∧ Holds (cfg.regs ch) f.2 ∧ (f.2 0x30 &&& 8 ≠ 0 → (f.2 0x3e).toNat = buf.length) := by
  obtain ⟨hm, h0⟩ := started_rest hc hm
  obtain ⟨r, -⟩ := calls_inv hc hl hp w hm h0 l hs
  dsimp only
  generalize callsRun cfg w m l = y at r
  obtain ⟨-, before, after, ev1, ev2, hb, ha, hr, e⟩ := C225_send hc hl hp w y r buf hlen ch power
  have hi := rx_inv hc r.inv before hb
  rw [hr, e, rx_air hc (send_inv hc hi buf ch power ev1 ev2) after ha.rx, ← rx_air hc r.inv before hb]
  clear e hr
  generalize Rfm.after cfg y.s before = s at hi
  obtain ⟨R, k, R', t, p1, p2, p3, p4, hk, hk1, _, e, hbt, g1, g2, a1, a2, res⟩ :=
    sendRaw_spec hc s hi.toRBase hi.spi hi.fault buf ch power ev1 ev2
  have hcc : ((ch : Int) % 256).toNat = ch := by omega
  rw [hcc] at hk1
  have hkk := hk1 hch
  subst hkk
  have ht : buf.take 64 = buf := List.take_of_length_le hlen
  rw [ht] at a1 a2
  have hu : (u8 buf.length).toNat = buf.length := by rw [u8_toNat]; omega
  rw [e, dolisten_air hc hbt]
  dsimp only
  by_cases hpw : power ≥ 4 ∧ ((∃ k, k < 1000 ∧ ev1 k = true) ∨ ev2 1001 = true ∨ ev2 1000 = true)
  · refine ⟨[(buf, R'), (buf, R)], a1 hpw, by simp, by simp, fun h => absurd hpw.1 (by omega), fun _ _ => rfl, ?_⟩
    intro f hf
    simp only [List.mem_cons, List.not_mem_nil, or_false] at hf
    rcases hf with rfl | rfl
    · exact ⟨rfl, p3, fun h => by dsimp only; rw [p4 h]; exact hu⟩
    · exact ⟨rfl, p1, fun h => by dsimp only; rw [p2 h]; exact hu⟩
  · refine ⟨[(buf, R)], a2 hpw, by simp, by simp, fun _ => rfl, fun h4 ht => ?_, ?_⟩
    · rw [← e] at *
      exact absurd ⟨h4, Or.inl (res.1 ht).1⟩ hpw
    · intro f hf
      simp only [List.mem_cons, List.not_mem_nil, or_false] at hf
      subst hf
      exact ⟨rfl, p1, fun h => by dsimp only; rw [p2 h]; exact hu⟩

/-! ## The hypotheses are met -/

/-- Two channels as in C134, just started. -/
def wire0 : Wire := { s := ((rfmFresh chip0 128 fun _ => 0).begin cfg2).1, junk := fun _ => 0 }

theorem wire0_started : Started cfg2 wire0 :=
  ⟨⟨rfl, rfl⟩, rfl, chip0, 128, fun _ => 0, rfl, rfl, by decide +kernel, rfl⟩

theorem cfg2_addr : CfgAddr cfg2 := by
  intro ch _
  show TableAddr (if ch = 0 then regsGFSK else regsOOK)
  by_cases h : ch = 0
  · rw [if_pos h]; exact rfm_tables_addr.2.2
  · rw [if_neg h]; exact rfm_tables_addr.2.1

/-- A busy schedule: before every seventh step a packet arrives, the interrupt routine runs, and a transmission ends; before each
step of the interrupt routine another packet arrives. -/
def busy (t : Nat) : List WEnv :=
  if t % 7 = 0 then [.radio (.air (.packet [1, 2])), .irq fun _ => [.air (.packet [3])], .radio .sent] else []

/-- Listening, waiting and sending under it: a packet is queued, the frame sent goes out in OOK, its channel's mode, and the
radio listens again in packet mode. -/
example :
    let x := callsRun cfg2 busy wire0 [.send [5, 6, 7] 1 0, .wait, .wait, .wait, .wait, .wait, .wait, .wait, .listen true 0]
    x.s.q.count = 1 ∧ x.s.chip.air.map (fun p => (p.1, p.2 0x30)) = [([5, 6, 7], 0)] ∧ x.s.chip.reg 0x30 = 0x88 ∧ x.s.chip.reg 5 = 2 ∧
      x.ie = true ∧ x.s.chip.fault = false := by
  decide +kernel

end OTR.Props
