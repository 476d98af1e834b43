import Verif.Props.RFM23
/-!
# Property C136: every packet polled is queued, filtered out or counted as dropped (RFM23B link)
-/

namespace OTR.Props
open OTR

/-- The frames an application gets by repeatedly peeking at and removing the oldest frame. -/
def drain : Nat → VQ → List Bytes
  | 0, _ => []
  | n + 1, q =>
    match q.step .peek with
    | some (_, .frame (some f)) => match q.step .remove with
      | some (q', _) => f :: drain n q'
      | none => []
    | _ => []

/-- The frames waiting in the link's queue. -/
def waiting (s : Rfm) : List Bytes := drain 128 s.q

theorem drain_eq {q : VQ} {fs : List Bytes} (h : QInv q fs) (n : Nat) (hn : fs.length ≤ n) : drain n q = fs := by
  induction n generalizing q fs with
  | zero => cases fs with
    | nil => rfl
    | cons => simp at hn
  | succ n ih =>
    unfold drain
    rw [h.peek]
    cases fs with
    | nil => rfl
    | cons f fs =>
      obtain ⟨q', e, h', _⟩ := h.remove
      simp only [List.head?_cons, e]
      rw [ih h' (by simpa using hn)]
      rfl

theorem waiting_eq {s : Rfm} {fs : List Bytes} (h : QInv s.q fs) : waiting s = fs := drain_eq h 128 h.len

/-- A receive filter may shorten a frame but not lengthen it. -/
def FilterOk (cfg : RfmCfg) : Prop := ∀ f, cfg.filter = some f → ∀ b n, (f b n).1 = true → (f b n).2 ≤ n

/-- The queue is well formed and never left its buffer. -/
def QOk (s : Rfm) (fs : List Bytes) : Prop := s.qbad = false ∧ QInv s.q fs ∧ s.q.mf = 64

/-- The part of the state that only receiving changes. -/
def sameRX (a b : Rfm) : Prop := a.q = b.q ∧ a.qbad = b.qbad ∧ a.dropped = b.dropped ∧ a.filtered = b.filtered

theorem sameRX_dolisten {cfg : RfmCfg} (hc : CfgOk cfg) {s : Rfm} (hb : RBase cfg s) : sameRX (s.dolisten cfg) s ∧ (s.dolisten cfg).err = s.err := by
  obtain ⟨r, k, e, _⟩ := dolisten_spec hc s hb
  rw [e]; exact ⟨⟨rfl, rfl, rfl, rfl⟩, rfl⟩

/-- What `take` does to the queue and the counters. -/
theorem take_queue {cfg : RfmCfg} (hf : FilterOk cfg) {s : Rfm} {fs : List Bytes} (h : QOk s fs) (len : Nat) (junk : Nat → Byte) :
    let data := (s.chip.rx ++ (List.range 64).map junk).take 64
    let t := s.take cfg len junk
    (len > 64 ∨ s.q.isFull = true → QOk t fs ∧ t.dropped = (s.dropped + 1) % 256 ∧ t.err = 4 ∧ t.filtered = s.filtered) ∧
    (¬ (len > 64 ∨ s.q.isFull = true) →
      (cfg.filter = none → QOk t (if len = 0 then fs else fs ++ [data.take len]) ∧ t.filtered = s.filtered) ∧
      (∀ f, cfg.filter = some f →
        ((f data len).1 = false → QOk t fs ∧ t.filtered = (s.filtered + 1) % 256) ∧
        ((f data len).1 = true → QOk t (if (f data len).2 = 0 then fs else fs ++ [data.take (f data len).2]) ∧ t.filtered = s.filtered)) ∧
      t.dropped = s.dropped ∧ t.err = s.err) := by
  dsimp only
  obtain ⟨hq0, hq, hm⟩ := h
  unfold Rfm.take
  by_cases hx : len > 64 ∨ s.q.isFull = true
  · rw [if_pos hx]
    exact ⟨fun _ => ⟨⟨hq0, hq, hm⟩, rfl, rfl, rfl⟩, fun h => absurd hx h⟩
  · rw [if_neg hx]
    refine ⟨fun h => absurd h hx, fun _ => ?_⟩
    have e : (s.chip.rxFifo 64 junk).1 = (s.chip.rx ++ (List.range 64).map junk).take 64 := rfl
    dsimp only
    rw [e]
    have hdl : ((s.chip.rx ++ (List.range 64).map junk).take 64).length = 64 := by
      rw [List.length_take, List.length_append, List.length_map, List.length_range]; omega
    generalize (s.chip.rx ++ (List.range 64).map junk).take 64 = data at hdl
    have hnf : s.q.isFull = false := by
      cases hh : s.q.isFull with
      | false => rfl
      | true => exact absurd (Or.inr hh) hx
    have hlen : len ≤ 64 := by omega
    have put : ∀ n, n ≤ 64 → ∃ q', s.q.step (.isr data n) = some (q', .offered true) ∧
        QInv q' (if n = 0 then fs else fs ++ [data.take n]) ∧ q'.mf = 64 := by
      intro n hn
      obtain ⟨q', out, e1, m1, i1, _, eo⟩ := hq.isr data n (by omega) (by omega)
      rw [hnf] at eo
      subst eo
      exact ⟨q', e1, i1 rfl, by rw [m1, hm]⟩
    cases hfi : cfg.filter with
    | none =>
      dsimp only
      obtain ⟨q', e1, i1, m1⟩ := put len hlen
      rw [if_pos rfl, if_pos rfl]
      dsimp only
      rw [e1]
      exact ⟨fun _ => ⟨⟨hq0, i1, m1⟩, rfl⟩, (fun f hf => by cases hf), rfl, rfl⟩
    | some f =>
      dsimp only
      have hfo := hf f hfi data len
      cases hk : (f data len).1 with
      | true =>
        obtain ⟨q', e1, i1, m1⟩ := put (f data len).2 (by have := hfo hk; omega)
        rw [if_pos rfl, if_pos rfl]
        dsimp only
        rw [e1]
        refine ⟨(fun h => by cases h), fun g hg => ?_, rfl, rfl⟩
        injection hg with hg
        subst hg
        exact ⟨(fun h => by rw [hk] at h; cases h), fun _ => ⟨⟨hq0, i1, m1⟩, rfl⟩⟩
      | false =>
        obtain ⟨q', e1, i1, m1⟩ := put 0 (by omega)
        rw [if_neg (by decide), if_neg (by decide)]
        dsimp only
        rw [e1]
        refine ⟨(fun h => by cases h), fun g hg => ?_, rfl, rfl⟩
        injection hg with hg
        subst hg
        rw [if_pos rfl] at i1
        exact ⟨fun _ => ⟨⟨hq0, i1, m1⟩, rfl⟩, fun h => by rw [hk] at h; cases h⟩

theorem take_ok {cfg : RfmCfg} (hf : FilterOk cfg) {s : Rfm} {fs : List Bytes} (h : QOk s fs) (len : Nat) (junk : Nat → Byte) :
    ∃ fs', QOk (s.take cfg len junk) fs' := by
  obtain ⟨a, b⟩ := take_queue hf h len junk
  by_cases hx : len > 64 ∨ s.q.isFull = true
  · exact ⟨_, (a hx).1⟩
  · obtain ⟨b1, b2, _⟩ := b hx
    cases hfi : cfg.filter with
    | none => exact ⟨_, (b1 hfi).1⟩
    | some f =>
      obtain ⟨c1, c2⟩ := b2 f hfi
      cases hk : (f ((s.chip.rx ++ (List.range 64).map junk).take 64) len).1 with
      | true => exact ⟨_, (c2 hk).1⟩
      | false => exact ⟨_, (c1 hk).1⟩

theorem QOk_of_same {a b : Rfm} {fs : List Bytes} (h : sameRX a b) (hb : QOk b fs) : QOk a fs := by
  obtain ⟨h1, h2, _⟩ := h
  exact ⟨by rw [h2]; exact hb.1, by rw [h1]; exact hb.2.1, by rw [h1]; exact hb.2.2⟩

theorem poll_queue {cfg : RfmCfg} (hc : CfgOk cfg) (hf : FilterOk cfg) {s : Rfm} (h : RInv cfg s) {fs : List Bytes} (hq : QOk s fs)
    (junk : Nat → Byte) : ∃ fs', QOk (s.poll cfg junk) fs' := by
  unfold Rfm.poll
  by_cases h0 : cfg.irqPin = true ∧ s.chip.irq = false
  · rw [if_pos h0]; exact ⟨fs, hq⟩
  rw [if_neg h0]
  by_cases ha : cfg.allowRX = true
  · cases hl : s.lc with
    | none =>
      have : s.pollBody cfg junk = s := by unfold Rfm.pollBody; rw [if_neg (by rw [ha]; decide)]; simp only [hl]
      rw [this]; exact ⟨fs, hq⟩
    | some ch =>
      rw [pollBody_cases ha hl h.spi junk]
      have hb1 : RBase cfg { s with chip := { s.chip with st1 := 0, st2 := 0 } } := ⟨h.cur, h.holds, h.mx, h.lc⟩
      have hb2 : RBase cfg { s with chip := { s.chip with st1 := 0, st2 := 0, spi := true } } := ⟨h.cur, h.holds, h.mx, h.lc⟩
      have hb3 : RBase cfg { s with chip := { s.chip with st1 := 0, st2 := 0 }, err := 2 } := ⟨h.cur, h.holds, h.mx, h.lc⟩
      dsimp only
      split
      · split
        · obtain ⟨fs', h'⟩ := take_ok hf (s := { s with chip := { s.chip with st1 := 0, st2 := 0, spi := true } }) (fs := fs) hq
            (if s.chip.reg 0x33 &&& 8 = 8 then s.chip.reg 0x3e else s.chip.reg 0x4b).toNat junk
          exact ⟨fs', QOk_of_same (sameRX_dolisten hc (take_base hb2 _ junk)).1 h'⟩
        · exact ⟨fs, hq⟩
      · split
        · exact ⟨fs, QOk_of_same (sameRX_dolisten hc hb3).1 hq⟩
        · split
          · obtain ⟨fs', h'⟩ := take_ok hf (s := { s with chip := { s.chip with st1 := 0, st2 := 0 } }) (fs := fs) hq 64 junk
            exact ⟨fs', QOk_of_same (sameRX_dolisten hc (take_base hb1 _ junk)).1 h'⟩
          · exact ⟨fs, hq⟩
  · have ha' : cfg.allowRX = false := by simpa using ha
    have : s.pollBody cfg junk = s := by unfold Rfm.pollBody; rw [if_pos ha']
    rw [this]; exact ⟨fs, hq⟩

theorem op_same {cfg : RfmCfg} (hc : CfgOk cfg) {s : Rfm} (h : RInv cfg s) (o : RfmOp) (h1 : o ≠ .begin) (h2 : o ≠ .fin)
    (h3 : ∀ j, o ≠ .poll j) (h4 : o ≠ .remove) : sameRX (s.op cfg o) s ∧ (o ≠ .getErr → (s.op cfg o).err = s.err) := by
  have r : sameRX s s := ⟨rfl, rfl, rfl, rfl⟩
  cases o with
  | begin => exact absurd rfl h1
  | fin => exact absurd rfl h2
  | listen a ch =>
    simp only [Rfm.op, Rfm.listen]
    have hnew : ∀ c, (if a = false ∨ ch < 0 then none else some (if ch ≥ (cfg.nCh : Int) then cfg.nCh - 1 else ch.toNat) : Option Nat) = some c → c < cfg.nCh := by
      intro c e
      have := hc.ch
      by_cases h1 : a = false ∨ ch < 0
      · rw [if_pos h1] at e; cases e
      · rw [if_neg h1] at e
        injection e with e
        by_cases h2 : ch ≥ (cfg.nCh : Int)
        · rw [if_pos h2] at e; omega
        · rw [if_neg h2] at e; omega
    generalize (if a = false ∨ ch < 0 then none else some (if ch ≥ (cfg.nCh : Int) then cfg.nCh - 1 else ch.toNat) : Option Nat) = nw at hnew ⊢
    split
    · have := sameRX_dolisten hc (s := { s with lc := nw })
        ⟨h.cur, h.holds, h.mx, hnew⟩
      exact ⟨this.1, fun _ => this.2⟩
    · exact ⟨r, fun _ => rfl⟩
  | setMax n => exact ⟨r, fun _ => rfl⟩
  | send buf ch p e1 e2 =>
    obtain ⟨R, k, R', t, _, _, _, _, _, _, _, e, hb, _⟩ := sendRaw_spec hc s h.toRBase h.spi h.fault buf ch p e1 e2
    simp only [Rfm.op]
    rw [e]
    have := sameRX_dolisten hc hb
    exact ⟨this.1, fun _ => this.2⟩
  | poll junk => exact absurd rfl (h3 junk)
  | air e => exact ⟨r, fun _ => rfl⟩
  | remove => exact absurd rfl h4
  | getErr => exact ⟨r, fun h => absurd rfl h⟩

theorem run_queue {cfg : RfmCfg} (hc : CfgOk cfg) (hf : FilterOk cfg) {s : Rfm} (h : RInv cfg s) {fs : List Bytes} (hq : QOk s fs)
    (ops : List RfmOp) (hr : Running ops) : ∃ fs', QOk (Rfm.after cfg s ops) fs' := by
  induction ops with
  | nil => exact ⟨fs, hq⟩
  | cons o ops ih =>
    have hr' : Running ops := fun x hx => hr x (by simp [hx])
    obtain ⟨fs1, hq1⟩ := ih hr'
    have hi := rfm_run_inv hc h ops hr'
    have ho := hr o (by simp)
    unfold Rfm.after
    generalize Rfm.after cfg s ops = t at hq1 hi ⊢
    by_cases h4 : o = .remove
    · subst h4
      obtain ⟨q', e, h', m, _⟩ := hq1.2.1.remove
      simp only [Rfm.op]
      rw [e]
      exact ⟨_, hq1.1, h', by rw [m]; exact hq1.2.2⟩
    · cases o with
      | poll junk => exact poll_queue hc hf hi hq1 junk
      | _ => exact ⟨fs1, QOk_of_same (op_same hc hi _ ho.1 ho.2 (by simp) h4).1 hq1⟩

theorem begin_queue {cfg : RfmCfg} (c : Chip) (cap : Nat) (junk : Nat → Byte) (hcap : 1 ≤ cap) :
    QOk ((rfmFresh c cap junk).begin cfg).1 [] := by
  have : sameRX ((rfmFresh c cap junk).begin cfg).1 (rfmFresh c cap junk) := by
    unfold Rfm.begin; dsimp only; split <;> exact ⟨rfl, rfl, rfl, rfl⟩
  exact QOk_of_same this ⟨rfl, QInv.new 64 cap junk (by omega) hcap, rfl⟩

/-- Whatever happens, the receive queue never writes or reads outside its buffer. -/
theorem C136_queue_safe {cfg : RfmCfg} (hc : CfgOk cfg) (hf : FilterOk cfg) (c : Chip) (cap : Nat) (hcap : 1 ≤ cap)
    (junk : Nat → Byte) (h1 : c.spi = false) (h2 : c.fault = false) (hb : ((rfmFresh c cap junk).begin cfg).2 = true)
    (ops : List RfmOp) (hr : Running ops) :
    (Rfm.after cfg ((rfmFresh c cap junk).begin cfg).1 ops).qbad = false := by
  obtain ⟨fs, h⟩ := run_queue hc hf (begin_inv hc c cap junk h1 h2 hb) (begin_queue c cap junk hcap) ops hr
  exact h.1

/-- Only a poll (or interrupt) and removing a frame change what is waiting and the counts of dropped and filtered frames. -/
theorem C136_only_poll {cfg : RfmCfg} (hc : CfgOk cfg) (c : Chip) (cap : Nat)
    (junk : Nat → Byte) (h1 : c.spi = false) (h2 : c.fault = false) (hb : ((rfmFresh c cap junk).begin cfg).2 = true)
    (ops : List RfmOp) (hr : Running ops) (o : RfmOp) (ho : o ≠ .begin ∧ o ≠ .fin) (hp : (∀ j, o ≠ .poll j) ∧ o ≠ .remove) :
    let s := Rfm.after cfg ((rfmFresh c cap junk).begin cfg).1 ops
    waiting (s.op cfg o) = waiting s ∧ (s.op cfg o).dropped = s.dropped ∧ (s.op cfg o).filtered = s.filtered := by
  have hi := rfm_run_inv hc (begin_inv hc c cap junk h1 h2 hb) ops hr
  obtain ⟨⟨e1, _, e2, e3⟩, _⟩ := op_same hc hi o ho.1 ho.2 hp.1 hp.2
  exact ⟨by simp only [waiting]; rw [e1], e2, e3⟩

/-- The bytes in the buffer when a frame `d` has been read into it. -/
def padded (d : Bytes) (junk : Nat → Byte) : Bytes := (d.take 64 ++ (List.range 64).map junk).take 64

/-- A valid packet arriving while the link listens in packet mode (with no earlier packet pending) is dealt with by the next
poll: if it is longer than 64 bytes or the queue is full it is counted as dropped and the error noted; otherwise, if the
filter rejects it, it is counted as filtered; otherwise exactly its bytes (as many as the filter keeps) are added at the end
of the queue. What waited before still does. The radio is then receiving again on its channel. -/
theorem C136_packet {cfg : RfmCfg} (hc : CfgOk cfg) (hf : FilterOk cfg) (c : Chip) (cap : Nat) (hcap : 1 ≤ cap)
    (junk0 : Nat → Byte) (h1 : c.spi = false) (h2 : c.fault = false) (hb : ((rfmFresh c cap junk0).begin cfg).2 = true)
    (ops : List RfmOp) (hr : Running ops) (ch : Nat) (hl : listenChan cfg ops = some ch) (ha : cfg.allowRX = true)
    (d : Bytes) (junk : Nat → Byte) (hd : 1 ≤ d.length ∧ d.length ≤ 255) :
    let s := Rfm.after cfg ((rfmFresh c cap junk0).begin cfg).1 ops
    let t := (s.op cfg (.air (.packet d))).op cfg (.poll junk)
    s.chip.reg 7 = 5 → s.chip.reg 0x30 &&& 0x80 ≠ 0 → (s.chip.reg 0x33 &&& 8 = 8 → d.length = (s.chip.reg 0x3e).toNat) →
    (d.length > 64 ∨ s.q.isFull = true →
      waiting t = waiting s ∧ t.dropped = (s.dropped + 1) % 256 ∧ t.err = 4 ∧ t.filtered = s.filtered) ∧
    (¬ (d.length > 64 ∨ s.q.isFull = true) →
      (cfg.filter = none → waiting t = waiting s ++ [d] ∧ t.filtered = s.filtered) ∧
      (∀ f, cfg.filter = some f →
        ((f (padded d junk) d.length).1 = false → waiting t = waiting s ∧ t.filtered = (s.filtered + 1) % 256) ∧
        ((f (padded d junk) d.length).1 = true → t.filtered = s.filtered ∧
          waiting t = waiting s ++
            (if (f (padded d junk) d.length).2 = 0 then [] else [d.take (f (padded d junk) d.length).2]))) ∧
      t.dropped = s.dropped ∧ t.err = s.err) ∧
    t.chip.reg 7 = 5 ∧ Holds (cfg.regs ch) t.chip.reg := by
  dsimp only
  have hi := rfm_run_inv hc (begin_inv hc c cap junk0 h1 h2 hb) ops hr
  obtain ⟨fs, hq⟩ := run_queue hc hf (begin_inv hc c cap junk0 h1 h2 hb) (begin_queue c cap junk0 hcap) ops hr
  have hl0 : ((rfmFresh c cap junk0).begin cfg).1.lc = none := by unfold Rfm.begin; dsimp only; split <;> rfl
  have hl1 := (lc_after hc _ hl0 ops hr).trans hl
  generalize Rfm.after cfg ((rfmFresh c cap junk0).begin cfg).1 ops = s at hi hq hl1 ⊢
  intro h7 h30 h33
  have hair : s.chip.air1 (.packet d) = { s.chip with rx := d.take 64, st1 := s.chip.st1 ||| 2, reg := fun x => if x = 7 then s.chip.reg 7 &&& 0xfb else if x = 0x4b then u8 d.length else s.chip.reg x } := by
    simp only [Chip.air1]; rw [if_pos ⟨by rw [h7]; decide, h30, hd.2, h33⟩]
  have hi2 := air_inv hi (.packet d)
  have hst : (s.chip.st1 ||| 2) &&& 2 ≠ 0 := by generalize s.chip.st1 = b; revert b; apply forall_byte; decide +kernel
  simp only [Rfm.op]
  rw [hair] at hi2 ⊢
  generalize hs1 : ({ s with chip := { s.chip with rx := d.take 64, st1 := s.chip.st1 ||| 2, reg := fun x => if x = 7 then s.chip.reg 7 &&& 0xfb else if x = 0x4b then u8 d.length else s.chip.reg x } } : Rfm) = s1 at hi2 ⊢
  have k30 : s1.chip.reg 0x30 = s.chip.reg 0x30 := by subst hs1; rfl
  have k33 : s1.chip.reg 0x33 = s.chip.reg 0x33 := by subst hs1; rfl
  have k3e : s1.chip.reg 0x3e = s.chip.reg 0x3e := by subst hs1; rfl
  have k4b : s1.chip.reg 0x4b = u8 d.length := by subst hs1; rfl
  have kst : s1.chip.st1 &&& 2 ≠ 0 := by subst hs1; exact hst
  have kl : s1.lc = some ch := by subst hs1; exact hl1
  have krx : s1.chip.rx = d.take 64 := by subst hs1; rfl
  have kq : QOk s1 fs := by subst hs1; exact hq
  have kqq : s1.q = s.q := by subst hs1; rfl
  have kd : s1.dropped = s.dropped := by subst hs1; rfl
  have kf : s1.filtered = s.filtered := by subst hs1; rfl
  have ke : s1.err = s.err := by subst hs1; rfl
  have hlen : (if s1.chip.reg 0x33 &&& 8 = 8 then s1.chip.reg 0x3e else s1.chip.reg 0x4b).toNat = d.length := by
    rw [k33, k3e, k4b]
    by_cases h : s.chip.reg 0x33 &&& 8 = 8
    · rw [if_pos h]; exact (h33 h).symm
    · rw [if_neg h, u8_toNat]; omega
  have r5 := ((hi2.on ch kl ha).2.2.2.2.1 (by rw [k30]; exact h30)).1
  have hirq : s1.chip.irq = true := by
    unfold Chip.irq; rw [r5]; simp [kst]
  have hpoll : s1.poll cfg junk = s1.pollBody cfg junk := by
    unfold Rfm.poll; rw [if_neg (by rw [hirq]; simp)]
  rw [hpoll, pollBody_cases ha kl hi2.spi junk]
  dsimp only
  rw [if_pos (by rw [k30]; exact h30), if_pos kst, hlen]
  have hb2 : RBase cfg { s1 with chip := { s1.chip with st1 := 0, st2 := 0, spi := true } } := ⟨hi2.cur, hi2.holds, hi2.mx, hi2.lc⟩
  have hq2 : QOk { s1 with chip := { s1.chip with st1 := 0, st2 := 0, spi := true } } fs := kq
  obtain ⟨t1, t2⟩ := take_queue hf hq2 d.length junk
  have tf := take_fields cfg { s1 with chip := { s1.chip with st1 := 0, st2 := 0, spi := true } } d.length junk
  have tb := take_base hb2 d.length junk
  dsimp only at t1 t2 tf
  generalize Rfm.take cfg { s1 with chip := { s1.chip with st1 := 0, st2 := 0, spi := true } } d.length junk = t at t1 t2 tf tb ⊢
  obtain ⟨r, k, e, _, hh, hon, _⟩ := dolisten_spec hc t tb
  have hon' := hon ch (by rw [tf.2.1]; exact kl) ha
  rw [e]
  dsimp only
  rw [kqq] at t1
  rw [kqq, krx] at t2
  rw [kd, kf] at t1
  rw [kd, kf, ke] at t2
  have wt : ∀ (C : Chip) K fs', QOk t fs' → waiting ({ t with chip := C, cur := K } : Rfm) = fs' := fun C K fs' h => waiting_eq h.2.1
  have ws : waiting s = fs := waiting_eq hq.2.1
  rw [ws]
  refine ⟨fun hx => ?_, fun hx => ?_, hon'.2.1, by rw [← hon'.1]; exact hh⟩
  · obtain ⟨a1, a2, a3, a4⟩ := t1 hx
    exact ⟨wt _ _ _ a1, a2, a3, a4⟩
  · obtain ⟨b1, b2, b3, b4⟩ := t2 hx
    have hdl : d.length ≤ 64 := by omega
    have hn0 : d.length ≠ 0 := by omega
    have hpad : ∀ n, n ≤ d.length → (padded d junk).take n = d.take n := by
      intro n hn
      unfold padded
      rw [List.take_of_length_le (l := d) (by omega), List.take_take, List.take_append_of_le_length (by omega)]
      congr 1; omega
    have hpd : (d.take 64 ++ (List.range 64).map junk).take 64 = padded d junk := rfl
    rw [hpd] at b1 b2
    refine ⟨fun hn => ?_, fun f hff => ⟨fun hk => ?_, fun hk => ?_⟩, b3, b4⟩
    · obtain ⟨c1, c2⟩ := b1 hn
      rw [if_neg hn0, hpad _ (Nat.le_refl _), List.take_length] at c1
      exact ⟨wt _ _ _ c1, c2⟩
    · obtain ⟨c1, c2⟩ := (b2 f hff).1 hk
      exact ⟨wt _ _ _ c1, c2⟩
    · obtain ⟨c1, c2⟩ := (b2 f hff).2 hk
      have := wt { t.chip with reg := r, st1 := 0, st2 := 0, tx := [], rx := [], spi := false } k _ c1
      refine ⟨c2, this.trans ?_⟩
      by_cases h0 : (f (padded d junk) d.length).2 = 0
      · rw [if_pos h0, if_pos h0, List.append_nil]
      · rw [if_neg h0, if_neg h0, hpad _ (hf f hff _ _ hk)]

/-- The same in FIFO mode (no packet handler), where a frame is whatever is in the FIFO once the threshold is reached: a
64-byte frame starting with the bytes received is queued, or filtered, or dropped with a count; if the FIFO overflows, an
overrun error is noted. In every case the radio is receiving again afterwards. -/
theorem C136_fifo {cfg : RfmCfg} (hc : CfgOk cfg) (hf : FilterOk cfg) (c : Chip) (cap : Nat) (hcap : 1 ≤ cap)
    (junk0 : Nat → Byte) (h1 : c.spi = false) (h2 : c.fault = false) (hb : ((rfmFresh c cap junk0).begin cfg).2 = true)
    (ops : List RfmOp) (hr : Running ops) (ch : Nat) (hl : listenChan cfg ops = some ch) (ha : cfg.allowRX = true)
    (d : Bytes) (junk : Nat → Byte) :
    let s := Rfm.after cfg ((rfmFresh c cap junk0).begin cfg).1 ops
    let t := (s.op cfg (.air (.bytes d))).op cfg (.poll junk)
    s.chip.reg 0x30 &&& 0x80 = 0 → s.chip.rx = [] → s.chip.st1 = 0 → (s.chip.reg 0x7e).toNat ≤ d.length →
    (d.length > 64 → waiting t = waiting s ∧ t.dropped = s.dropped ∧ t.filtered = s.filtered ∧ t.err = 2) ∧
    (d.length ≤ 64 → s.q.isFull = true →
      waiting t = waiting s ∧ t.dropped = (s.dropped + 1) % 256 ∧ t.err = 4 ∧ t.filtered = s.filtered) ∧
    (d.length ≤ 64 → s.q.isFull = false →
      (cfg.filter = none → (∃ f, waiting t = waiting s ++ [f] ∧ f.length = 64 ∧ f.take d.length = d) ∧ t.filtered = s.filtered) ∧
      (∀ f, cfg.filter = some f →
        ((f (padded d junk) 64).1 = false → waiting t = waiting s ∧ t.filtered = (s.filtered + 1) % 256) ∧
        ((f (padded d junk) 64).1 = true → t.filtered = s.filtered ∧
          waiting t = waiting s ++
            (if (f (padded d junk) 64).2 = 0 then [] else [(padded d junk).take (f (padded d junk) 64).2]))) ∧
      t.dropped = s.dropped ∧ t.err = s.err) ∧
    t.chip.reg 7 = 5 ∧ Holds (cfg.regs ch) t.chip.reg := by
  dsimp only
  have hi := rfm_run_inv hc (begin_inv hc c cap junk0 h1 h2 hb) ops hr
  obtain ⟨fs, hq⟩ := run_queue hc hf (begin_inv hc c cap junk0 h1 h2 hb) (begin_queue c cap junk0 hcap) ops hr
  have hl0 : ((rfmFresh c cap junk0).begin cfg).1.lc = none := by unfold Rfm.begin; dsimp only; split <;> rfl
  have hl1 := (lc_after hc _ hl0 ops hr).trans hl
  generalize Rfm.after cfg ((rfmFresh c cap junk0).begin cfg).1 ops = s at hi hq hl1 ⊢
  intro h30 hrx hst hth
  obtain ⟨r5, h7⟩ := (hi.on ch hl1 ha).2.2.2.2.2 h30
  have hair : s.chip.air1 (.bytes d) = { s.chip with rx := d.take 64, st1 := 0x10 ||| (if d.length > 64 then 0x80 else 0) } := by
    simp only [Chip.air1]; rw [if_pos ⟨by rw [h7]; decide, h30⟩, hrx, hst]
    simp only [List.nil_append]
    rw [if_pos hth]
    have : (0 : Byte) ||| 0x10 = 0x10 := by decide
    rw [this]
  have hi2 := air_inv hi (.bytes d)
  simp only [Rfm.op]
  rw [hair] at hi2 ⊢
  have s10 : (0x10 ||| (if d.length > 64 then 0x80 else 0) : Byte) &&& 0x10 ≠ 0 := by split <;> decide
  have s80 : ((0x10 ||| (if d.length > 64 then 0x80 else 0) : Byte) &&& 0x80 ≠ 0) ↔ d.length > 64 := by
    split
    · rename_i h; exact ⟨fun _ => h, fun _ => by decide⟩
    · rename_i h; simp only [h, iff_false]; decide
  generalize (0x10 ||| (if d.length > 64 then 0x80 else 0) : Byte) = st at *
  have ws : waiting s = fs := waiting_eq hq.2.1
  rw [ws]
  generalize hs1 : ({ s with chip := { s.chip with rx := d.take 64, st1 := st } } : Rfm) = s1 at hi2 ⊢
  have k30 : s1.chip.reg = s.chip.reg := by subst hs1; rfl
  have kst : s1.chip.st1 = st := by subst hs1; rfl
  have kl : s1.lc = some ch := by subst hs1; exact hl1
  have krx : s1.chip.rx = d.take 64 := by subst hs1; rfl
  have kq : QOk s1 fs := by subst hs1; exact hq
  have kqq : s1.q = s.q := by subst hs1; rfl
  have kd : s1.dropped = s.dropped := by subst hs1; rfl
  have kf : s1.filtered = s.filtered := by subst hs1; rfl
  have ke : s1.err = s.err := by subst hs1; rfl
  have hirq : s1.chip.irq = true := by
    unfold Chip.irq; rw [k30, r5, kst]; simp [s10]
  have hpoll : s1.poll cfg junk = s1.pollBody cfg junk := by
    unfold Rfm.poll; rw [if_neg (by rw [hirq]; simp)]
  rw [hpoll, pollBody_cases ha kl hi2.spi junk]
  dsimp only
  rw [if_neg (by rw [k30]; simp [h30]), kst]
  have hb1 : RBase cfg { s1 with chip := { s1.chip with st1 := 0, st2 := 0 } } := ⟨hi2.cur, hi2.holds, hi2.mx, hi2.lc⟩
  have hb3 : RBase cfg { s1 with chip := { s1.chip with st1 := 0, st2 := 0 }, err := 2 } := ⟨hi2.cur, hi2.holds, hi2.mx, hi2.lc⟩
  by_cases hov : d.length > 64
  · rw [if_pos (s80.2 hov)]
    obtain ⟨r, k, e, _, hh, hon, _⟩ := dolisten_spec hc _ hb3
    have hon' := hon ch kl ha
    rw [e]
    dsimp only
    refine ⟨fun _ => ⟨waiting_eq kq.2.1, kd, kf, rfl⟩, fun h => by omega, fun h => by omega, hon'.2.1, by rw [← hon'.1]; exact hh⟩
  · rw [if_neg (fun h => hov (s80.1 h)), if_pos s10]
    have hq2 : QOk { s1 with chip := { s1.chip with st1 := 0, st2 := 0 } } fs := kq
    obtain ⟨t1, t2⟩ := take_queue hf hq2 64 junk
    have tf := take_fields cfg { s1 with chip := { s1.chip with st1 := 0, st2 := 0 } } 64 junk
    have tb := take_base hb1 64 junk
    dsimp only at t1 t2 tf
    generalize Rfm.take cfg { s1 with chip := { s1.chip with st1 := 0, st2 := 0 } } 64 junk = t at t1 t2 tf tb ⊢
    obtain ⟨r, k, e, _, hh, hon, _⟩ := dolisten_spec hc t tb
    have hon' := hon ch (by rw [tf.2.1]; exact kl) ha
    rw [e]
    dsimp only
    rw [kqq] at t1
    rw [kqq, krx] at t2
    rw [kd, kf] at t1
    rw [kd, kf, ke] at t2
    have wt : ∀ (C : Chip) K fs', QOk t fs' → waiting ({ t with chip := C, cur := K } : Rfm) = fs' := fun C K fs' h => waiting_eq h.2.1
    refine ⟨fun h => absurd h hov, fun _ hx => ?_, fun hdl hx => ?_, hon'.2.1, by rw [← hon'.1]; exact hh⟩
    · obtain ⟨a1, a2, a3, a4⟩ := t1 (Or.inr hx)
      exact ⟨wt _ _ _ a1, a2, a3, a4⟩
    · obtain ⟨b1, b2, b3, b4⟩ := t2 (by rw [hx]; simp)
      have hpd : (d.take 64 ++ (List.range 64).map junk).take 64 = padded d junk := rfl
      have hpl : (padded d junk).length = 64 := by
        unfold padded; rw [List.length_take, List.length_append, List.length_map, List.length_range]; omega
      rw [hpd] at b1 b2
      refine ⟨fun hn => ?_, fun f hff => ⟨fun hk => ?_, fun hk => ?_⟩, b3, b4⟩
      · obtain ⟨c1, c2⟩ := b1 hn
        rw [if_neg (by decide), List.take_of_length_le (by omega)] at c1
        refine ⟨⟨padded d junk, wt _ _ _ c1, hpl, ?_⟩, c2⟩
        unfold padded
        rw [List.take_of_length_le (l := d) hdl, List.take_take, Nat.min_eq_left hdl, List.take_left']
        rfl
      · obtain ⟨c1, c2⟩ := (b2 f hff).1 hk
        exact ⟨wt _ _ _ c1, c2⟩
      · obtain ⟨c1, c2⟩ := (b2 f hff).2 hk
        have := wt { t.chip with reg := r, st1 := 0, st2 := 0, tx := [], rx := [] } k _ c1
        refine ⟨c2, this.trans ?_⟩
        by_cases h0 : (f (padded d junk) 64).2 = 0
        · rw [if_pos h0, if_pos h0, List.append_nil]
        · rw [if_neg h0, if_neg h0]

/-- A packet in GFSK mode and then a full FIFO in OOK mode are queued in order: the hypotheses of the above are met. -/
example :
    let s := Rfm.after cfg2 (rfmFresh chip0 2 fun _ => 0)
      [.poll fun _ => 7, .air (.bytes (List.replicate 63 5)), .listen true 1, .poll fun _ => 7, .air (.packet [1, 2, 3]), .listen true 0, .begin]
    waiting s = [[1, 2, 3], List.replicate 63 5 ++ [7]] ∧ s.chip.reg 7 = 5 := by
  decide +kernel

/-- A packet received but not yet polled is lost without a trace when a frame is sent (or listening changed). -/
theorem C136_refuted_lost_by_send :
    let s := Rfm.after cfg2 (rfmFresh chip0 2 fun _ => 0)
      [.poll fun _ => 7, .send [9] 0 0 (fun _ => true) (fun _ => true), .air (.packet [1, 2, 3]), .listen true 0, .begin]
    waiting s = [] ∧ s.dropped = 0 ∧ s.filtered = 0 ∧ s.err = 0 := by
  decide +kernel

end OTR.Props
