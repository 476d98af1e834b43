import Verif.Props.RFM23RX
import Verif.Props.SPIBus2
/-!
# Property C226: every frame handed to the application was received whole, once and in order (RFM23B link, packet mode)
-/

namespace OTR.Props
open OTR Spi

/-- Every channel is in packet mode: its table turns on the radio's receive packet handler (bit 7 of register 0x30). -/
def PacketMode (cfg : RfmCfg) : Prop := ∀ ch < cfg.nCh, ∃ v, tableVal (cfg.regs ch) 0x30 = some v ∧ v &&& 0x80 ≠ 0

/-- The packets on the air in a history (newest step first), oldest first. -/
def onAir : List RfmOp → List Bytes
  | [] => []
  | .air (.packet d) :: h => onAir h ++ [d]
  | _ :: h => onAir h

/-- The frames removed from the queue by the application in a history (newest step first), oldest first. -/
def handed (cfg : RfmCfg) (s : Rfm) : List RfmOp → List Bytes
  | [] => []
  | .remove :: h => handed cfg s h ++ (waiting (Rfm.after cfg s h)).head?.toList
  | _ :: h => handed cfg s h

/-- A frame and the packet it came in: the filter may have shortened it, nothing else may. -/
def FromPacket (cfg : RfmCfg) (p : Bytes × Bytes) : Prop := p.1 <+: p.2 ∧ p.1 ≠ [] ∧ p.2.length ≤ 64 ∧ (cfg.filter = none → p.1 = p.2)

/-- The packet `d` is in the radio's buffer, complete. -/
def Held (c : Chip) (d : Bytes) : Prop :=
  c.rx = d.take 64 ∧ d.length ≤ 255 ∧ (if c.reg 0x33 &&& 8 = 8 then c.reg 0x3e else c.reg 0x4b).toNat = d.length

/-- What is kept up: `ok` says which lists of packets may have been received. -/
structure PInv (cfg : RfmCfg) (ok : List Bytes → Prop) (got : List Bytes) (s : Rfm) : Prop where
  base : RBase cfg s
  spi : s.chip.spi = false
  fault : s.chip.fault = false
  st : ∃ (fs : List Bytes) (ps : List (Bytes × Bytes)), QOk s fs ∧ ps.map (·.1) = got ++ fs ∧ (∀ p ∈ ps, FromPacket cfg p) ∧ ok (ps.map (·.2)) ∧
    (s.chip.st1 &&& 2 ≠ 0 → ∃ d, Held s.chip d ∧ ok (ps.map (·.2) ++ [d]))

section
variable {cfg : RfmCfg} {ok : List Bytes → Prop} {got : List Bytes} {s : Rfm}

theorem packet_reg (hp : PacketMode cfg) (h : RBase cfg s) : s.chip.reg 0x30 &&& 0x80 ≠ 0 := by
  obtain ⟨v, e, hv⟩ := hp s.cur h.cur
  rw [h.holds 0x30 v (by simp [rfmOwned]) e]; exact hv

/-- `_dolisten` leaves the queue as it is and nothing in the radio's buffer. -/
theorem PInv.dolisten (hc : CfgOk cfg) (h : PInv cfg ok got s) : PInv cfg ok got (s.dolisten cfg) := by
  obtain ⟨fs, ps, q, e, g, o, -⟩ := h.st
  obtain ⟨r, k, ed, hk, hh, -⟩ := dolisten_spec hc s h.base
  rw [ed]
  exact ⟨⟨hk, hh, h.base.mx, h.base.lc⟩, h.spi, h.fault, fs, ps, q, e, g, o, fun x => absurd (show (0 : Byte) &&& 2 = 0 from rfl) x⟩

theorem air1_base (h : RBase cfg s) (e : Air) : RBase cfg { s with chip := s.chip.air1 e } :=
  ⟨h.cur, holds_congr h.holds fun x hx => by
    simp only [rfmOwned, not_or] at hx
    exact air1_reg s.chip e x (by omega) (by omega), h.mx, h.lc⟩

theorem byte_or_2 : ∀ b : Byte, ∀ n : Byte, (b ||| n &&& 0x69) &&& 2 = b &&& 2 := by
  intro b n
  have h : ∀ n : Byte, (n &&& 0x69) &&& 2 = 0 := by apply forall_byte; decide +kernel
  rw [byte_orand, h n, UInt8.or_zero]

/-- The radio receives something. -/
theorem PInv.air (hp : PacketMode cfg) (h : PInv cfg ok got s) (ok' : List Bytes → Prop) (hok : ∀ l, ok l → ok' l) (e : Air)
    (hpk : ∀ d, e = .packet d → ∀ l, ok l → ok' (l ++ [d])) : PInv cfg ok' got { s with chip := s.chip.air1 e } := by
  obtain ⟨fs, ps, q, em, g, o, pe⟩ := h.st
  have h30 := packet_reg hp h.base
  have keep : PInv cfg ok' got s := ⟨h.base, h.spi, h.fault, fs, ps, q, em, g, hok _ o, fun x =>
    have ⟨d, h1, h2⟩ := pe x
    ⟨d, h1, hok _ h2⟩⟩
  refine ⟨air1_base h.base e, (air1_flags s.chip e).2.trans h.spi, (air1_flags s.chip e).1.trans h.fault, fs, ps, q, em, g, hok _ o, ?_⟩
  cases e with
  | packet d =>
    simp only [Chip.air1]
    split
    · rename_i hx
      refine fun _ => ⟨d, ⟨rfl, hx.2.2.1, ?_⟩, hpk d rfl _ o⟩
      show (if s.chip.reg 0x33 &&& 8 = 8 then s.chip.reg 0x3e else u8 d.length).toNat = d.length
      by_cases hf : s.chip.reg 0x33 &&& 8 = 8
      · rw [if_pos hf]; exact (hx.2.2.2 hf).symm
      · rw [if_neg hf, u8_toNat]; have := hx.2.2.1; omega
    · intro x
      obtain ⟨d, h1, h2⟩ := pe x
      exact ⟨d, h1, hok _ h2⟩
  | bytes d =>
    simp only [Chip.air1]
    rw [if_neg (fun x => h30 x.2)]
    intro x
    obtain ⟨d, h1, h2⟩ := pe x
    exact ⟨d, h1, hok _ h2⟩
  | noise n1 n2 =>
    simp only [Chip.air1]
    split
    · intro x
      dsimp only at x
      rw [byte_or_2] at x
      obtain ⟨d, h1, h2⟩ := pe x
      exact ⟨d, h1, hok _ h2⟩
    · intro x
      obtain ⟨d, h1, h2⟩ := pe x
      exact ⟨d, h1, hok _ h2⟩

/-- Storing the packet in the radio's buffer. -/
theorem take_frames (hf : FilterOk cfg) {fs : List Bytes} (q : QOk s fs) {d : Bytes} (hd : Held s.chip d) (junk : Nat → Byte) :
    QOk (s.take cfg d.length junk) fs ∨ ∃ f, QOk (s.take cfg d.length junk) (fs ++ [f]) ∧ FromPacket cfg (f, d) := by
  obtain ⟨a, b⟩ := take_queue hf q d.length junk
  by_cases hx : d.length > 64 ∨ s.q.isFull = true
  · exact .inl (a hx).1
  · obtain ⟨b1, b2, -⟩ := b hx
    have hl : d.length ≤ 64 := by omega
    have pre : ∀ n, n ≤ d.length → ((s.chip.rx ++ (List.range 64).map junk).take 64).take n = d.take n := by
      intro n hn
      rw [hd.1, List.take_of_length_le (l := d) hl, List.take_take, List.take_append_of_le_length (by omega)]
      congr 1; omega
    have ne : ∀ n, n ≠ 0 → n ≤ d.length → d.take n ≠ [] := by
      intro n h0 hn e
      have := congrArg List.length e
      rw [List.length_take, List.length_nil] at this
      omega
    cases hfi : cfg.filter with
    | none =>
      have h1 := (b1 hfi).1
      by_cases h0 : d.length = 0
      · rw [if_pos h0] at h1; exact .inl h1
      · rw [if_neg h0, pre _ (Nat.le_refl _)] at h1
        refine .inr ⟨_, h1, List.take_prefix .., ne _ h0 (Nat.le_refl _), hl, fun _ => List.take_length⟩
    | some f =>
      obtain ⟨c1, c2⟩ := b2 f hfi
      generalize hD : (s.chip.rx ++ (List.range 64).map junk).take 64 = D at c1 c2 pre
      cases hk : (f D d.length).1 with
      | false => exact .inl (c1 hk).1
      | true =>
        have h1 := (c2 hk).1
        have hn := hf f hfi D d.length hk
        by_cases h0 : (f D d.length).2 = 0
        · rw [if_pos h0] at h1; exact .inl h1
        · rw [if_neg h0, pre _ hn] at h1
          exact .inr ⟨_, h1, List.take_prefix .., ne _ h0 hn, hl, fun h => by rw [hfi] at h; cases h⟩

/-- A poll or interrupt. -/
theorem PInv.pollBody (hc : CfgOk cfg) (hf : FilterOk cfg) (hp : PacketMode cfg) (h : PInv cfg ok got s) (junk : Nat → Byte) :
    PInv cfg ok got (s.pollBody cfg junk) := by
  by_cases ha : cfg.allowRX = true
  · cases hl : s.lc with
    | none => rw [pollBody_off _ (Or.inr hl)]; exact h
    | some ch =>
      obtain ⟨fs, ps, q, em, g, o, pe⟩ := h.st
      rw [pollBody_cases ha hl h.spi junk]
      dsimp only
      rw [if_pos (packet_reg hp h.base)]
      have hb2 : RBase cfg { s with chip := { s.chip with st1 := 0, st2 := 0, spi := true } } := ⟨h.base.cur, h.base.holds, h.base.mx, h.base.lc⟩
      by_cases hs : s.chip.st1 &&& 2 ≠ 0
      · rw [if_pos hs]
        obtain ⟨d, hd, od⟩ := pe hs
        rw [hd.2.2]
        have tb := take_base hb2 d.length junk
        have tf := take_fields cfg { s with chip := { s.chip with st1 := 0, st2 := 0, spi := true } } d.length junk
        have tq := take_frames (s := { s with chip := { s.chip with st1 := 0, st2 := 0, spi := true } }) hf (fs := fs) q (d := d) hd junk
        generalize Rfm.take cfg { s with chip := { s.chip with st1 := 0, st2 := 0, spi := true } } d.length junk = t at tb tf tq ⊢
        have tfault : t.chip.fault = false := by rw [tf.1, standbyClear_eq]; exact h.fault
        obtain ⟨r, k, ed, hk, hh, -⟩ := dolisten_spec hc t tb
        rw [ed]
        refine ⟨⟨hk, hh, tb.mx, tb.lc⟩, rfl, tfault, ?_⟩
        rcases tq with tq | ⟨f, tq, fp⟩
        · exact ⟨fs, ps, tq, em, g, o, fun x => absurd (show (0 : Byte) &&& 2 = 0 from rfl) x⟩
        · refine ⟨fs ++ [f], ps ++ [(f, d)], tq, ?_, ?_, ?_, fun x => absurd (show (0 : Byte) &&& 2 = 0 from rfl) x⟩
          · rw [List.map_append, em, List.append_assoc]; rfl
          · intro p hp
            rcases List.mem_append.1 hp with hp | hp
            · exact g p hp
            · rw [List.mem_singleton.1 hp]; exact fp
          · rw [List.map_append]; exact od
      · rw [if_neg hs]
        exact ⟨⟨h.base.cur, h.base.holds, h.base.mx, h.base.lc⟩, h.spi, h.fault, fs, ps, q, em, g, o, fun x => absurd (show (0 : Byte) &&& 2 = 0 from rfl) x⟩
  · rw [pollBody_off _ (Or.inl (by simpa using ha))]; exact h

theorem PInv.poll (hc : CfgOk cfg) (hf : FilterOk cfg) (hp : PacketMode cfg) (h : PInv cfg ok got s) (junk : Nat → Byte) :
    PInv cfg ok got (s.poll cfg junk) := by
  unfold Rfm.poll
  split
  · exact h
  · exact h.pollBody hc hf hp junk

theorem PInv.send (hc : CfgOk cfg) (h : PInv cfg ok got s) (buf : Bytes) (ch : Int) (p : Nat) (e1 e2 : Nat → Bool) :
    PInv cfg ok got (s.sendRaw cfg buf ch p e1 e2).1 := by
  obtain ⟨fs, ps, q, em, g, o, -⟩ := h.st
  obtain ⟨R, k, R', t, _, _, _, _, _, _, _, e, hb, g1, g2, _⟩ := sendRaw_spec hc s h.base h.spi h.fault buf ch p e1 e2
  rw [e]
  obtain ⟨r, k', ed, hk, hh, -⟩ := dolisten_spec hc _ hb
  rw [ed]
  exact ⟨⟨hk, hh, hb.mx, hb.lc⟩, g1, g2, fs, ps, q, em, g, o, fun x => absurd (show (0 : Byte) &&& 2 = 0 from rfl) x⟩

/-- The application removes the oldest frame. -/
theorem PInv.remove (h : PInv cfg ok got s) : PInv cfg ok (got ++ (waiting s).head?.toList) (s.op cfg .remove) := by
  obtain ⟨fs, ps, q, em, g, o, pe⟩ := h.st
  obtain ⟨q', e, h', m, _⟩ := q.2.1.remove
  simp only [Rfm.op]
  rw [e, waiting_eq q.2.1]
  refine ⟨⟨h.base.cur, h.base.holds, h.base.mx, h.base.lc⟩, h.spi, h.fault, _, ps, ⟨q.1, h', by rw [m]; exact q.2.2⟩, ?_, g, o, pe⟩
  rw [em]
  cases fs <;> simp

theorem PInv.setLc (h : PInv cfg ok got s) (n : Option Nat) (hn : ∀ c, n = some c → c < cfg.nCh) : PInv cfg ok got { s with lc := n } :=
  ⟨⟨h.base.cur, h.base.holds, h.base.mx, hn⟩, h.spi, h.fault, h.st⟩

theorem PInv.setMax (h : PInv cfg ok got s) (n : Byte) : PInv cfg ok got (s.setMax n) := by
  refine ⟨⟨h.base.cur, h.base.holds, ?_, h.base.lc⟩, h.spi, h.fault, h.st⟩
  simp only [Rfm.setMax]
  rw [u8_toNat]; omega

theorem PInv.start (hc : CfgOk cfg) (c : Chip) (cap : Nat) (hcap : 1 ≤ cap) (junk : Nat → Byte) (h1 : c.spi = false) (h2 : c.fault = false)
    (hb : ((rfmFresh c cap junk).begin cfg).2 = true) (ok : List Bytes → Prop) (h0 : ok []) : PInv cfg ok [] ((rfmFresh c cap junk).begin cfg).1 := by
  have hi := begin_inv hc c cap junk h1 h2 hb
  refine ⟨hi.toRBase, hi.spi, hi.fault, [], [], begin_queue c cap junk hcap, rfl, (fun p h => by cases h), h0, fun x => absurd ?_ x⟩
  unfold Rfm.begin at hb ⊢
  dsimp only at hb ⊢
  split at hb
  · rename_i hx; rw [if_pos hx]; dsimp only; rw [standbyClear_eq]; exact UInt8.zero_and
  · cases hb
end

/-- Any history after `begin()`. -/
theorem frames_inv {cfg : RfmCfg} (hc : CfgOk cfg) (hf : FilterOk cfg) (hp : PacketMode cfg) {s : Rfm} (h : PInv cfg (List.Sublist · []) [] s)
    (ops : List RfmOp) (hr : Running ops) : PInv cfg (List.Sublist · (onAir ops)) (handed cfg s ops) (Rfm.after cfg s ops) := by
  induction ops with
  | nil => exact h
  | cons o ops ih =>
    have ih := ih fun x hx => hr x (List.mem_cons_of_mem _ hx)
    have ho := hr o (List.mem_cons_self ..)
    unfold Rfm.after
    cases o with
    | begin => exact absurd rfl ho.1
    | fin => exact absurd rfl ho.2
    | listen a ch =>
      simp only [Rfm.op, Rfm.listen]
      rw [listenNew_eq hc]
      have h1 := ih.setLc (listenNew cfg a ch) (listenNew_lt hc a ch)
      split
      · exact h1.dolisten hc
      · exact h1
    | setMax n => exact ih.setMax n
    | send buf ch p e1 e2 => exact ih.send hc buf ch p e1 e2
    | poll junk => exact ih.poll hc hf hp junk
    | air e =>
      cases e with
      | packet d =>
        exact ih.air hp _ (fun l h => h.trans (List.sublist_append_left ..)) (.packet d) (fun d' e l h => by
          injection e with e; subst e; exact h.append (List.Sublist.refl _))
      | bytes d => exact ih.air hp _ (fun l h => h) (.bytes d) (fun d e => by cases e)
      | noise a b => exact ih.air hp _ (fun l h => h) (.noise a b) (fun d e => by cases e)
    | remove => exact ih.remove
    | getErr => exact ⟨⟨ih.base.cur, ih.base.holds, ih.base.mx, ih.base.lc⟩, ih.spi, ih.fault, ih.st⟩

/-- Whatever happens after `begin()`, with all channels in packet mode: the frames handed to the application so far and those
waiting, in order, each come from a different packet received on the air, in the order received; each is the whole packet if
there is no filter, and otherwise a beginning of it; none is empty, and none from a packet longer than 64 bytes. -/
theorem C226_frames {cfg : RfmCfg} (hc : CfgOk cfg) (hf : FilterOk cfg) (hp : PacketMode cfg) (c : Chip) (cap : Nat) (hcap : 1 ≤ cap)
    (junk : Nat → Byte) (h1 : c.spi = false) (h2 : c.fault = false) (hb : ((rfmFresh c cap junk).begin cfg).2 = true)
    (ops : List RfmOp) (hr : Running ops) :
    let s := ((rfmFresh c cap junk).begin cfg).1
    ∃ ps : List (Bytes × Bytes), ps.map (·.1) = handed cfg s ops ++ waiting (Rfm.after cfg s ops) ∧
      (ps.map (·.2)).Sublist (onAir ops) ∧ ∀ p ∈ ps, p.1 <+: p.2 ∧ p.1 ≠ [] ∧ p.2.length ≤ 64 ∧ (cfg.filter = none → p.1 = p.2) := by
  obtain ⟨fs, ps, q, e, g, o, -⟩ := (frames_inv hc hf hp (PInv.start hc c cap hcap junk h1 h2 hb _ (List.Sublist.refl _)) ops hr).st
  exact ⟨ps, by rw [e, waiting_eq q.2.1], o, g⟩

/-- Without a filter: the frames handed over and waiting are packets received, in order, none twice. -/
theorem C226_whole {cfg : RfmCfg} (hc : CfgOk cfg) (hn : cfg.filter = none) (hp : PacketMode cfg) (c : Chip) (cap : Nat) (hcap : 1 ≤ cap)
    (junk : Nat → Byte) (h1 : c.spi = false) (h2 : c.fault = false) (hb : ((rfmFresh c cap junk).begin cfg).2 = true)
    (ops : List RfmOp) (hr : Running ops) :
    let s := ((rfmFresh c cap junk).begin cfg).1
    (handed cfg s ops ++ waiting (Rfm.after cfg s ops)).Sublist (onAir ops) := by
  obtain ⟨ps, e, o, g⟩ := C226_frames hc (fun f hf => by rw [hn] at hf; cases hf) hp c cap hcap junk h1 h2 hb ops hr
  dsimp only
  rw [← e, List.map_congr_left fun p h => (g p h).2.2.2 hn]
  exact o

/-! ## Down to bytes, with interrupts and radio events between any two -/

/-- Each packet is one of the schedule. -/
def HeardAll (w : Nat → List WEnv) (l : List Bytes) : Prop := ∀ d ∈ l, Heard w (.packet d)

theorem rx_frames {cfg : RfmCfg} (hc : CfgOk cfg) (hf : FilterOk cfg) (hp : PacketMode cfg) {w : Nat → List WEnv} {got : List Bytes} {s : Rfm}
    (h : PInv cfg (HeardAll w) got s) (ops : List RfmOp) (ho : Rx w ops) : PInv cfg (HeardAll w) got (Rfm.after cfg s ops) := by
  induction ops with
  | nil => exact h
  | cons o ops ih =>
    have ih := ih fun x hx => ho x (List.mem_cons_of_mem _ hx)
    rcases ho o (List.mem_cons_self ..) with ⟨j, rfl⟩ | ⟨e, he, rfl⟩
    · exact ih.poll hc hf hp j
    · refine ih.air hp _ (fun l h => h) e fun d ed l hl x hx => ?_
      subst ed
      rcases List.mem_append.1 hx with hx | hx
      · exact hl x hx
      · rw [List.mem_singleton.1 hx]; exact he

theorem store_frames {cfg : RfmCfg} (hc : CfgOk cfg) (hl : CfgAddr cfg) (hf : FilterOk cfg) (hpm : PacketMode cfg) (w : Nat → List WEnv) {m : Wire}
    (hm : Rest cfg m) {got : List Bytes} (hq : PInv cfg (HeardAll w) got m.s) (f : Rfm → Rfm) :
    ∃ s, PInv cfg (HeardAll w) got s ∧ (Spi.store f (Wire.hook cfg w) m).2.s = f s := by
  obtain ⟨ops, ho, -, t, hx⟩ := ex_run (t_live (heard_closed w) hc hl (heard_sched w) hm.live fun s => ((), f s))
  refine ⟨_, rx_frames hc hf hpm hq ops ho, ?_⟩
  have := congrArg Wire.s hx
  exact this

/-- What has been handed over so far does not matter here. -/
theorem calls_frames {cfg : RfmCfg} (hc : CfgOk cfg) (hl : CfgAddr cfg) (hp : cfg.irqPin = true) (hf : FilterOk cfg) (hpm : PacketMode cfg)
    (w : Nat → List WEnv) {m : Wire} (hm : Rest cfg m) (hlc : m.s.lc = none) {got : List Bytes} (hq : PInv cfg (HeardAll w) got m.s)
    (l : List WCall) (hs : Short l) : ∃ got, PInv cfg (HeardAll w) got (callsRun cfg w m l).s := by
  induction l with
  | nil => exact ⟨got, hq⟩
  | cons c l ih =>
    have hs' : Short l := fun b ch p h => hs b ch p (List.mem_cons_of_mem _ h)
    obtain ⟨got, ih⟩ := ih hs'
    obtain ⟨h1, -⟩ := calls_inv hc hl hp w hm hlc l hs'
    unfold callsRun
    generalize callsRun cfg w m l = m1 at h1 ih
    cases c with
    | send buf ch power =>
      obtain ⟨-, before, after, ev1, ev2, hb, ha, -, e⟩ := C225_send hc hl hp w m1 h1 buf (hs buf ch power (List.mem_cons_self ..)) ch power
      refine ⟨got, ?_⟩
      show PInv cfg _ _ (Spi.sendRaw cfg buf ch power (Wire.hook cfg w) m1).2.s
      rw [e]
      exact rx_frames hc hf hpm ((rx_frames hc hf hpm ih before hb).send hc ..) after ha.rx
    | listen a ch =>
      obtain ⟨-, -, before, mid, after, hb, hmid, ha, e⟩ := C225_listen hc hl hp w m1 h1 a ch
      refine ⟨got, ?_⟩
      show PInv cfg _ _ (Spi.listen cfg a ch (Wire.hook cfg w) m1).2.s
      rw [e]
      have h2 := rx_frames hc hf hpm ih before hb
      split
      · exact rx_frames hc hf hpm ((rx_frames hc hf hpm (h2.setLc _ (listenNew_lt hc a ch)) mid hmid).dolisten hc) after ha.rx
      · exact h2
    | poll =>
      obtain ⟨-, before, after, hb, ha, e⟩ := C225_poll hc hl hp w m1 h1
      refine ⟨got, ?_⟩
      show PInv cfg _ _ (Spi.poll cfg (Wire.hook cfg w) m1).2.s
      have h2 := rx_frames hc hf hpm ih before hb
      rcases e with e | e
      · rw [e]; exact h2
      · rw [e]; exact rx_frames hc hf hpm (h2.pollBody hc hf hpm _) after ha.rx
    | remove =>
      obtain ⟨s, h, e⟩ := store_frames hc hl hf hpm w h1 ih fun s => s.op cfg .remove
      exact ⟨_, by show PInv _ _ _ (Spi.store _ (Wire.hook cfg w) m1).2.s; rw [e]; exact h.remove⟩
    | setMax n =>
      obtain ⟨s, h, e⟩ := store_frames hc hl hf hpm w h1 ih fun s => s.setMax n
      exact ⟨_, by show PInv _ _ _ (Spi.store _ (Wire.hook cfg w) m1).2.s; rw [e]; exact h.setMax n⟩
    | wait =>
      obtain ⟨s, h, e⟩ := store_frames hc hl hf hpm w h1 ih fun s => s
      exact ⟨_, by show PInv _ _ _ (Spi.store _ (Wire.hook cfg w) m1).2.s; rw [e]; exact h⟩

/-- The same down to bytes on the SPI bus, with interrupts between any two steps of a call and the radio free to act before any
step of the call or of the interrupt routine: the receive queue never leaves its buffer, and every frame waiting is a packet on
the air of the schedule, whole if there is no filter, and otherwise a beginning of one. -/
theorem C226_bytes {cfg : RfmCfg} (hc : CfgOk cfg) (hl : CfgAddr cfg) (hp : cfg.irqPin = true) (hf : FilterOk cfg) (hpm : PacketMode cfg)
    (w : Nat → List WEnv) (c : Chip) (cap : Nat) (hcap : 1 ≤ cap) (junk : Nat → Byte) (h1 : c.spi = false) (h2 : c.fault = false)
    (h3 : ((rfmFresh c cap junk).begin cfg).2 = true) (m : Wire) (hi : m.ph = .idle ∧ m.ju = 0) (hie : m.ie = true)
    (e : m.s = ((rfmFresh c cap junk).begin cfg).1) (l : List WCall) (hs : Short l) :
    let s := (callsRun cfg w m l).s
    s.qbad = false ∧ ∀ f ∈ waiting s, f ≠ [] ∧ ∃ d, Heard w (.packet d) ∧ f <+: d ∧ d.length ≤ 64 ∧ (cfg.filter = none → f = d) := by
  obtain ⟨hr, hlc⟩ := started_rest hc (m := m) ⟨hi, hie, c, cap, junk, h1, h2, h3, e⟩
  have hq := PInv.start hc c cap hcap junk h1 h2 h3 (HeardAll w) (fun d h => by cases h)
  rw [← e] at hq
  obtain ⟨got, h⟩ := calls_frames hc hl hp hf hpm w hr hlc hq l hs
  obtain ⟨fs, ps, q, em, g, o, -⟩ := h.st
  refine ⟨q.1, fun f hfw => ?_⟩
  rw [waiting_eq q.2.1] at hfw
  have : f ∈ ps.map (·.1) := by rw [em]; exact List.mem_append_right _ hfw
  obtain ⟨p, hp, rfl⟩ := List.mem_map.1 this
  obtain ⟨g1, g2, g3, g4⟩ := g p hp
  exact ⟨g2, p.2, o _ (List.mem_map.2 ⟨p, hp, rfl⟩), g1, g3, g4⟩

/-! ## The hypotheses are met -/

/-- The channel of the real devices: GFSK packets. -/
def cfg1 : RfmCfg := { nCh := 1, regs := fun _ => regsGFSK, allowRX := true, irqPin := true, filter := none }

theorem cfg1_ok : CfgOk cfg1 := ⟨by decide, fun ch h => C134_real_tables.2.2.1⟩
theorem cfg1_packet : PacketMode cfg1 := fun ch h => ⟨0x88, (by decide +kernel : tableVal regsGFSK 0x30 = some 0x88), by decide⟩

/-- Three packets, of which the second is lost because a frame is sent before it is polled. -/
example :
    let s := ((rfmFresh chip0 128 fun _ => 0).begin cfg1).1
    let ops : List RfmOp := [.poll fun _ => 7, .air (.packet [6]), .remove, .send [9] 0 0 (fun _ => true) (fun _ => true), .air (.packet [4, 5]),
      .poll fun _ => 7, .air (.packet [1, 2, 3]), .listen true 0]
    handed cfg1 s ops = [[1, 2, 3]] ∧ waiting (Rfm.after cfg1 s ops) = [[6]] ∧ onAir ops = [[1, 2, 3], [4, 5], [6]] := by
  decide +kernel

/-- The busy schedule of C225: packets queued by interrupts and by `poll()`, some lost to the frame sent. -/
example :
    let m : Wire := { s := ((rfmFresh chip0 128 fun _ => 0).begin cfg1).1, junk := fun _ => 0 }
    let x := callsRun cfg1 busy m [.poll, .wait, .wait, .wait, .send [5, 6, 7] 0 0, .wait, .wait, .wait, .wait, .wait, .wait, .wait, .listen true 0]
    x.s.qbad = false ∧ waiting x.s = [[1, 2], [1, 2], [3]] := by
  decide +kernel

end OTR.Props
