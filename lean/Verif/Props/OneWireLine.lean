import Verif.Model.OneWireLine
/-!
# C234: 1-Wire calls keep to the timing of the bus
-/

namespace OTR.Props
open OTR

/-! ## Statement -/

/-- The calls as `Verif.Model.OneWire` has them: whole slots that take no time; and what they return. -/
def slotCalls : OW → List OWOp → OW × List Bool
  | o, [] => (o, [])
  | o, .reset :: ops => ((slotCalls o.reset ops).1, o.present :: (slotCalls o.reset ops).2)
  | o, .read :: ops => ((slotCalls o.readBit.2 ops).1, o.readBit.1 :: (slotCalls o.readBit.2 ops).2)
  | o, .write b :: ops => slotCalls (o.writeBit b) ops

/-- The pin operations take about as long as the code expects (`stdDelayReduction`): releasing the pin at least 5 cycles, releasing and then reading it at most 9, and
there are at least 10 between reading it and the next falling edge. -/
structure OWCost.Fits (c : OWCost) : Prop where
  release : 5 ≤ c.release
  read : c.release + c.look ≤ 9
  next : 10 ≤ c.look + c.restore + c.cli + c.low

/-- Read-modify-write of a port register takes 5 cycles on the AVR (`ld`, `andi`, `st`), reading it 2. -/
example : OWCost.Fits { cli := 2, restore := 1, low := 10, release := 5, look := 2 } := ⟨by decide, by decide, by decide⟩

/-- The slaves are in step: any two that are not waiting for a reset are at the same point of the protocol. True at power-up, when all wait. -/
def OWInStep (devs : List OWDev) : Prop := ∀ d ∈ devs, ∀ e ∈ devs, d.st = .idle ∨ e.st = .idle ∨ d.st = e.st

/-! ## Slaves -/

theorem slot_idle {d : OWDev} (h : d.st = .idle) (b : Bool) : (d.slot b).st = .idle := by
  unfold OWDev.slot; rw [h]; exact h

theorem slot_step {d e : OWDev} (h : d.st = e.st) (b : Bool) :
    (d.slot b).st = .idle ∨ (e.slot b).st = .idle ∨ (d.slot b).st = (e.slot b).st := by
  unfold OWDev.slot
  rw [h]
  cases hs : e.st with
  | idle => right; left; exact hs
  | cmd n v => dsimp only; split <;> simp
  | srch i ph =>
    match ph with
    | 0 => simp
    | 1 => simp
    | ph + 2 =>
      cases b <;> cases hx : romBit d.rom i <;> cases hy : romBit e.rom i <;> by_cases h3 : i < 63 <;> simp [h3, hx, hy]
  | mtch i =>
    dsimp only
    by_cases h1 : b = romBit d.rom i <;> by_cases h2 : b = romBit e.rom i
    · rw [if_pos h1, if_pos h2]; split <;> simp
    · right; left; rw [if_neg h2]
    · left; rw [if_neg h1]
    · left; rw [if_neg h1]
  | func n v =>
    dsimp only
    split
    · simp
    · unfold OWDev.funcCmd
      by_cases h1 : d.rom.getD 0 0 ≠ 0x28
      · left; rw [if_pos h1]
      · by_cases h2 : e.rom.getD 0 0 ≠ 0x28
        · right; left; rw [if_pos h2]
        · rw [if_neg h1, if_neg h2]
          repeat' split
          all_goals simp
  | wscr n v => dsimp only; split <;> simp
  | rscr n => simp
  | conv => dsimp only; rw [h, hs]; simp

theorem inStep_slot {devs : List OWDev} (h : OWInStep devs) (b : Bool) : OWInStep (devs.map (OWDev.slot b)) := by
  intro d hd e he
  obtain ⟨d0, hd0, rfl⟩ := List.mem_map.mp hd
  obtain ⟨e0, he0, rfl⟩ := List.mem_map.mp he
  rcases h d0 hd0 e0 he0 with h | h | h
  · exact Or.inl (slot_idle h b)
  · exact Or.inr (Or.inl (slot_idle h b))
  · exact slot_step h b

theorem inStep_rst (s : OWBus) : OWInStep s.rst.devs := by
  intro d hd e he
  unfold OWBus.rst at hd he
  obtain ⟨d0, hd0, rfl⟩ := List.mem_map.mp hd
  obtain ⟨e0, he0, rfl⟩ := List.mem_map.mp he
  exact Or.inr (Or.inr rfl)

/-- Where one slave sends a 0 nobody listens. -/
theorem deaf {devs : List OWDev} (h : OWInStep devs) {d e : OWDev} (hd : d ∈ devs) (hl : d.drive = false) (he : e ∈ devs) (b b' : Bool) :
    e.slot b = e.slot b' := by
  rcases h d hd e he with h | h | h
  · unfold OWDev.drive at hl; rw [h] at hl; cases hl
  · unfold OWDev.slot; rw [h]
  · unfold OWDev.drive at hl; rw [h] at hl
    unfold OWDev.slot
    cases hs : e.st with
    | srch i ph =>
      match ph with
      | 0 => rfl
      | 1 => rfl
      | ph + 2 => simp [hs] at hl
    | rscr n => rfl
    | conv => rfl
    | idle => rfl
    | cmd n v => rw [hs] at hl; cases hl
    | mtch n => rw [hs] at hl; cases hl
    | func n v => rw [hs] at hl; cases hl
    | wscr n v => rw [hs] at hl; cases hl

/-! ## The line -/

theorem slavesHigh_drive (ck : SlaveClocks) (n x : Nat) (devs : List OWDev) (h : devs.all OWDev.drive = true) (i : Nat) :
    slavesHigh ck n x i devs = true := by
  induction devs generalizing i with
  | nil => rfl
  | cons d ds ih =>
    rw [List.all_cons, Bool.and_eq_true] at h
    unfold slavesHigh
    rw [h.1, ih h.2]; rfl

theorem slavesHigh_look (ck : SlaveClocks) (hk : ∀ n i, (ck n i).Ok 1) (n x : Nat) (h1 : 1 ≤ x) (h2 : x < 15) (devs : List OWDev) (i : Nat) :
    slavesHigh ck n x i devs = devs.all OWDev.drive := by
  induction devs generalizing i with
  | nil => rfl
  | cons d ds ih =>
    unfold slavesHigh
    rw [ih, List.all_cons]
    have := (hk n i).react
    have := (hk n i).hold
    rw [decide_eq_false (by omega), decide_eq_false (by omega)]
    simp

theorem noPresence_look (ck : SlaveClocks) (hk : ∀ n i, (ck n i).Ok 1) (n x : Nat) (h1 : 60 ≤ x) (h2 : x < 75) (k i : Nat) :
    noPresence ck n x i k = decide (k = 0) := by
  cases k with
  | zero => rfl
  | succ k =>
    unfold noPresence
    have := (hk n i).pres
    have := (hk n i).presLen
    rw [decide_eq_false (by omega), decide_eq_false (by omega)]
    simp

theorem takeSlot_map (ck : SlaveClocks) (n : Nat) (level : Nat → Bool) (b : Bool) (devs : List OWDev)
    (h : ∀ d ∈ devs, ∀ i, d.slot (level (ck n i).look) = d.slot b) (i : Nat) : takeSlot ck n level i devs = devs.map (OWDev.slot b) := by
  induction devs generalizing i with
  | nil => rfl
  | cons d ds ih =>
    unfold takeSlot
    rw [h d (by simp) i, ih (fun e he => h e (List.mem_cons_of_mem _ he))]; rfl

theorem takeSlot_level (ck : SlaveClocks) (hk : ∀ n i, (ck n i).Ok 1) (n : Nat) (s : OWBus) (hs : OWInStep s.devs) (b : Bool) (len : Nat)
    (hl : if b then len ≤ 15 else 60 ≤ len) :
    takeSlot ck n (slotLevel ck n s.short s.devs len) 0 s.devs = (s.slot b).devs := by
  unfold OWBus.slot
  apply takeSlot_map
  intro d hd i
  by_cases hall : s.devs.all OWDev.drive = true
  · congr 1
    unfold slotLevel OWBus.level
    rw [slavesHigh_drive ck n _ _ hall, hall]
    have := (hk n i).look
    cases b with
    | true => rw [if_pos rfl] at hl; rw [decide_eq_false (by omega)]; rfl
    | false => rw [if_neg (by simp)] at hl; rw [decide_eq_true (by omega)]; rfl
  · rw [Bool.not_eq_true] at hall
    obtain ⟨e, he, hn⟩ := List.all_eq_false.mp hall
    exact deaf hs he (by simpa using hn) hd _ _

/-! ## The calls -/

theorem b1 : busy1Int (6 - stdDelayReduction) = 1 := by decide
theorem b2 : busy1Int (64 - stdDelayReduction) = 59 := by decide
theorem b3 : busy1Int (60 - stdDelayReduction) = 55 := by decide
theorem b4 : busy1Int (10 - stdDelayReduction) = 5 := by decide
theorem b5 : busy1Int (9 - stdDelayReduction) = 4 := by decide
theorem b6 : busy1Int (55 - stdDelayReduction) = 50 := by decide
theorem b7 : busy1Int (0 - stdDelayReduction) = 3 := by decide
theorem b8 : busy1Int (480 - stdDelayReduction) = 475 := by decide
theorem b9 : busy1Int (70 - stdDelayReduction) = 65 := by decide
theorem b10 : busy1Int (410 - stdDelayReduction) = 405 := by decide

/-- A falling edge is allowed from now on, after the cycles that every call takes before it. -/
def OWReady (c : OWCost) (s : OWCpu) (l : Line) : Prop :=
  match l.pulse with
  | .idle => True
  | .low _ => False
  | .slot t0 _ _ => t0 + 61 ≤ s.t + c.cli + c.low
  | .reset r => r + 480 ≤ s.t + c.cli + c.low

theorem fall_ok (ck : SlaveClocks) (c : OWCost) (s : OWCpu) (l : Line) (h : OWReady c s l) (t : Nat) (ht : s.t + c.cli + c.low ≤ t) :
    l.ev 1 ck t .fall = some ({ l with pulse := .low t }, none) := by
  unfold OWReady at h
  unfold Line.ev
  cases hp : l.pulse with
  | idle => rfl
  | low t0 => rw [hp] at h; exact h.elim
  | slot t0 r ds => rw [hp] at h; dsimp only at h ⊢; rw [if_pos (by omega)]
  | reset r => rw [hp] at h; dsimp only at h ⊢; rw [if_pos (by omega)]


theorem rise_slot (ck : SlaveClocks) (hk : ∀ n i, (ck n i).Ok 1) (l : Line) (hs : OWInStep l.bus.devs) (b : Bool) (t t0 : Nat)
    (hp : l.pulse = .low t0) (h1 : t0 + 1 ≤ t) (h2 : if b then t ≤ t0 + 15 else t0 + 60 ≤ t ∧ t ≤ t0 + 120) :
    l.ev 1 ck t .rise = some ({ bus := l.bus.slot b, pulse := .slot t0 t l.bus.devs, n := l.n + 1 }, none) := by
  unfold Line.ev
  rw [hp]
  dsimp only
  have h3 : t ≤ t0 + 120 := by split at h2 <;> omega
  rw [if_pos (by omega), takeSlot_level ck hk l.n l.bus hs b (t - t0) (by cases b <;> simp at h2 ⊢ <;> omega)]
  rfl

theorem rise_reset (ck : SlaveClocks) (l : Line) (t t0 : Nat) (hp : l.pulse = .low t0) (h1 : t0 + 480 ≤ t) :
    l.ev 1 ck t .rise = some ({ bus := l.bus.rst, pulse := .reset t, n := l.n + 1 }, none) := by
  unfold Line.ev
  rw [hp]
  dsimp only
  rw [if_neg (by omega), if_pos (by omega)]

theorem call_reset (ck : SlaveClocks) (hk : ∀ n i, (ck n i).Ok 1) (c : OWCost) (hc : OWCost.Fits c) (irq : Nat → Nat) (s : OWCpu) (l : Line)
    (hr : OWReady c s l) :
    ∃ l1, l.evs 1 ck (owiRun c busy1Int irq s OWOp.reset.prog).2 = some (l1, [!(l.bus.short || !l.bus.devs.isEmpty)]) ∧ l1.bus = l.bus.rst ∧
      OWReady c (owiRun c busy1Int irq s OWOp.reset.prog).1 l1 := by
  obtain ⟨c1, c2, c3⟩ := hc
  generalize hx : (if s.ie = true then irq s.i else 0) = x
  generalize hy : (if s.ie = true then irq (s.i + 8) else 0) = y
  have he : (owiRun c busy1Int irq s OWOp.reset.prog) =
      ({ t := s.t + x + c.cli + 3 + c.low + 475 + c.release + 65 + c.look + c.restore + y + 405, ie := s.ie, saved := s.ie, i := s.i + 9 },
       [(s.t + x + c.cli + 3 + c.low, .fall), (s.t + x + c.cli + 3 + c.low + 475 + c.release, .rise),
        (s.t + x + c.cli + 3 + c.low + 475 + c.release + 65 + c.look, .look)]) := by
    simp only [OWOp.prog, owiRun, OWI.step, OWI.cycles, delayG, delayH, delayI, delayJ, b7, b8, b9, b10, List.nil_append, List.append_nil,
      List.cons_append, Nat.add_assoc, Nat.reduceAdd, hx, hy, if_false, Bool.false_eq_true, Nat.zero_add]
  rw [he]
  dsimp only
  generalize hT : s.t + x + c.cli + 3 + c.low = T
  have hfl := fall_ok ck c s l hr T (by omega)
  have hrs := rise_reset ck { l with pulse := .low T } (T + 475 + c.release) T rfl (by omega)
  refine ⟨{ bus := l.bus.rst, pulse := .reset (T + 475 + c.release), n := l.n + 1 }, ?_, rfl, ?_⟩
  · simp only [Line.evs, hfl, hrs]
    simp only [Line.ev, Option.toList, List.append_nil, List.nil_append]
    rw [noPresence_look ck hk _ _ (by omega) (by omega)]
    have hn : ∀ ds : List OWDev, decide (ds = []) = ds.isEmpty := by intro ds; cases ds <;> simp
    simp [OWBus.rst, hn]
  · show T + 475 + c.release + 480 ≤ _
    dsimp only
    omega

theorem call_read (ck : SlaveClocks) (hk : ∀ n i, (ck n i).Ok 1) (c : OWCost) (hc : OWCost.Fits c) (irq : Nat → Nat) (s : OWCpu) (l : Line)
    (hs : OWInStep l.bus.devs) (hr : OWReady c s l) :
    ∃ l1, l.evs 1 ck (owiRun c busy1Int irq s OWOp.read.prog).2 = some (l1, [l.bus.level true]) ∧ l1.bus = l.bus.slot true ∧
      OWReady c (owiRun c busy1Int irq s OWOp.read.prog).1 l1 := by
  obtain ⟨c1, c2, c3⟩ := hc
  generalize hx : (if s.ie = true then irq s.i else 0) = x
  generalize hy : (if s.ie = true then irq (s.i + 7) else 0) = y
  have he : (owiRun c busy1Int irq s OWOp.read.prog) =
      ({ t := s.t + x + c.cli + c.low + 1 + c.release + 4 + c.look + c.restore + y + 50, ie := s.ie, saved := s.ie, i := s.i + 8 },
       [(s.t + x + c.cli + c.low, .fall), (s.t + x + c.cli + c.low + 1 + c.release, .rise),
        (s.t + x + c.cli + c.low + 1 + c.release + 4 + c.look, .look)]) := by
    simp only [OWOp.prog, owiRun, OWI.step, OWI.cycles, delayA, delayE, delayF, b1, b5, b6, List.nil_append, List.append_nil,
      List.cons_append, Nat.add_assoc, Nat.reduceAdd, hx, hy, if_false, Bool.false_eq_true, Nat.zero_add]
  rw [he]
  dsimp only
  generalize hT : s.t + x + c.cli + c.low = T
  have hfl := fall_ok ck c s l hr T (by omega)
  have hrs := rise_slot ck hk { l with pulse := .low T } hs true (T + 1 + c.release) T rfl (by omega) (by rw [if_pos rfl]; omega)
  refine ⟨{ bus := l.bus.slot true, pulse := .slot T (T + 1 + c.release) l.bus.devs, n := l.n + 1 }, ?_, rfl, ?_⟩
  · simp only [Line.evs, hfl, hrs]
    simp only [Line.ev, Option.toList, List.append_nil, List.nil_append, slotLevel]
    rw [slavesHigh_look ck hk _ _ (by omega) (by omega), decide_eq_false (by omega)]
    rfl
  · show T + 61 ≤ _
    dsimp only
    omega

theorem call_write (ck : SlaveClocks) (hk : ∀ n i, (ck n i).Ok 1) (c : OWCost) (hc : OWCost.Fits c) (irq : Nat → Nat) (s : OWCpu) (l : Line)
    (hs : OWInStep l.bus.devs) (hr : OWReady c s l) (b : Bool) :
    ∃ l1, l.evs 1 ck (owiRun c busy1Int irq s (OWOp.write b).prog).2 = some (l1, []) ∧ l1.bus = l.bus.slot b ∧
      OWReady c (owiRun c busy1Int irq s (OWOp.write b).prog).1 l1 := by
  obtain ⟨c1, c2, c3⟩ := hc
  generalize hx : (if s.ie = true then irq s.i else 0) = x
  generalize hy : (if s.ie = true then irq (s.i + 5) else 0) = y
  have he : (owiRun c busy1Int irq s (OWOp.write b).prog) =
      ({ t := s.t + x + c.cli + c.low + (if b then 1 else 55) + c.release + c.restore + y + (if b then 59 else 5), ie := s.ie, saved := s.ie, i := s.i + 6 },
       [(s.t + x + c.cli + c.low, .fall), (s.t + x + c.cli + c.low + (if b then 1 else 55) + c.release, .rise)]) := by
    cases b <;>
    simp only [OWOp.prog, owiRun, OWI.step, OWI.cycles, delayA, delayB, delayC, delayD, b1, b2, b3, b4, List.nil_append, List.append_nil,
      List.cons_append, Nat.add_assoc, Nat.reduceAdd, hx, hy, if_false, if_true, Bool.false_eq_true, Nat.zero_add]
  rw [he]
  dsimp only
  generalize hT : s.t + x + c.cli + c.low = T
  have hfl := fall_ok ck c s l hr T (by omega)
  have hrs := rise_slot ck hk { l with pulse := .low T } hs b (T + (if b then 1 else 55) + c.release) T rfl (by split <;> omega)
    (by cases b <;> simp <;> omega)
  refine ⟨{ bus := l.bus.slot b, pulse := .slot T (T + (if b then 1 else 55) + c.release) l.bus.devs, n := l.n + 1 }, ?_, rfl, ?_⟩
  · simp only [Line.evs, hfl, hrs]
    rfl
  · show T + 61 ≤ _
    dsimp only
    cases b <;> simp <;> omega

/-- **C234.** At 1 MHz, with pin operations that take about as long as expected: whatever calls are made, whatever interrupts come whenever they are on, and whatever time
each slave takes within its data sheet, the line is used as the data sheet demands, and the calls do and return what they do with whole slots. -/
theorem C234_slots (ck : SlaveClocks) (hk : ∀ n i, (ck n i).Ok 1) (c : OWCost) (hc : OWCost.Fits c) (irq : Nat → Nat) (ie : Bool)
    (o : OW) (hs : OWInStep o.bus.devs) (ops : List (Nat × OWOp)) :
    ∃ l, owCalls 1 ck c busy1Int irq { ie := ie } { bus := o.bus } ops = some (l, (slotCalls o (ops.map (·.2))).2) ∧
      l.bus = (slotCalls o (ops.map (·.2))).1.bus := by
  have gen : ∀ (ops : List (Nat × OWOp)) (o : OW) (s : OWCpu) (l : Line), l.bus = o.bus → OWInStep o.bus.devs → OWReady c s l →
      ∃ l', owCalls 1 ck c busy1Int irq s l ops = some (l', (slotCalls o (ops.map (·.2))).2) ∧
        l'.bus = (slotCalls o (ops.map (·.2))).1.bus := by
    intro ops
    induction ops with
    | nil => intro o s l hb _ _; exact ⟨l, rfl, hb⟩
    | cons p ops ih =>
      obtain ⟨gap, op⟩ := p
      intro o s l hb hi hr
      have hr' : OWReady c { s with t := s.t + gap } l := by
        unfold OWReady at hr ⊢
        cases hp : l.pulse <;> rw [hp] at hr <;> dsimp only at hr ⊢ <;> omega
      unfold owCalls
      cases op with
      | reset =>
        obtain ⟨l1, e1, e2, e3⟩ := call_reset ck hk c hc irq { s with t := s.t + gap } l hr'
        rw [e1]
        dsimp only
        obtain ⟨l2, f1, f2⟩ := ih o.reset _ l1 (by rw [e2, hb]; rfl) (inStep_rst o.bus) e3
        rw [f1]
        refine ⟨l2, ?_, f2⟩
        simp [OWOp.answer, slotCalls, OW.present, OWBus.presence, hb]
      | read =>
        obtain ⟨l1, e1, e2, e3⟩ := call_read ck hk c hc irq { s with t := s.t + gap } l (by rw [hb]; exact hi) hr'
        rw [e1]
        dsimp only
        obtain ⟨l2, f1, f2⟩ := ih o.readBit.2 _ l1 (by rw [e2, hb]; rfl) (inStep_slot hi _) e3
        rw [f1]
        refine ⟨l2, ?_, f2⟩
        simp [OWOp.answer, slotCalls, OW.readBit, hb]
      | write b =>
        obtain ⟨l1, e1, e2, e3⟩ := call_write ck hk c hc irq { s with t := s.t + gap } l (by rw [hb]; exact hi) hr' b
        rw [e1]
        dsimp only
        obtain ⟨l2, f1, f2⟩ := ih (o.writeBit b) _ l1 (by rw [e2, hb]; rfl) (inStep_slot hi _) e3
        rw [f1]
        exact ⟨l2, rfl, f2⟩
  exact gen ops o { ie := ie } { bus := o.bus } rfl hs trivial

/-! ## Where the timing does not hold -/

/-- A slave with times within the data sheet that looks at the line as late as it may. -/
def lateSlave (f : Nat) : SlaveTimes := { react := 0, hold := 15 * f, look := 60 * f - 1, pres := 15 * f, presLen := 60 * f }

theorem lateSlave_ok (f : Nat) (hf : 1 ≤ f) : (lateSlave f).Ok f :=
  ⟨by simp [lateSlave], by simp only [lateSlave]; omega, by simp only [lateSlave]; omega, by simp only [lateSlave]; omega, by simp only [lateSlave]; omega⟩

/-- A slave waiting for a command gets the bit `b` in one slot with the line low for `len` cycles. -/
theorem late_write (f : Nat) (c : OWCost) (busy : Int → Nat) (irq : Nat → Nat) (ie : Bool) (rom : Bytes) (hf : 1 ≤ f)
    (hlen : f ≤ busy (60 - stdDelayReduction) + c.release) (hlt : busy (60 - stdDelayReduction) + c.release < 60 * f) :
    ∃ l, owCalls f (fun _ _ => lateSlave f) c busy irq { ie := ie } { bus := { devs := [{ rom := rom, st := .cmd 0 0 }] } } [(0, .write false)] = some (l, []) ∧
      l.bus.devs = [{ rom := rom, st := .cmd 1 1 }] := by
  generalize hB : busy (60 - stdDelayReduction) = B at hlen hlt
  have hr : ∀ T, Line.ev f (fun _ _ => lateSlave f) { bus := { devs := [{ rom := rom, st := .cmd 0 0 }] }, pulse := .low T } (T + (B + c.release)) .rise =
      some ({ bus := { devs := [{ rom := rom, st := .cmd 1 1 }] }, pulse := .slot T (T + (B + c.release)) [{ rom := rom, st := .cmd 0 0 }], n := 1 }, none) := by
    intro T
    unfold Line.ev
    dsimp only
    rw [if_pos (by omega)]
    have hx : ¬ (lateSlave f).look < T + (B + c.release) - T := by show ¬ 60 * f - 1 < _; omega
    simp only [takeSlot, slotLevel, slavesHigh, OWDev.drive]
    rw [decide_eq_false hx]
    rfl
  simp only [owCalls, OWOp.prog, owiRun, OWI.step, OWI.cycles, delayC, hB, List.nil_append, List.append_nil, List.cons_append, Nat.add_assoc,
    Bool.false_eq_true, if_false, Nat.zero_add, Line.evs]
  generalize (if ie = true then irq 0 else 0) = x
  have h1 : Line.ev f (fun _ _ => lateSlave f) { bus := { devs := [{ rom := rom, st := .cmd 0 0 }] } } (x + (c.cli + c.low)) .fall =
      some ({ bus := { devs := [{ rom := rom, st := .cmd 0 0 }] }, pulse := .low (x + (c.cli + c.low)) }, none) := rfl
  have h2 := hr (x + (c.cli + c.low))
  simp only [Nat.add_assoc] at h1 h2
  simp only [h1, h2]
  exact ⟨_, rfl, rfl⟩

/-- **C234 (the margin is needed).** If the pin is released faster than the code expects, in less than 5 cycles, there is a slave within its data sheet that takes a 0
written at 1 MHz for a 1. -/
theorem C234_fast_pin (c : OWCost) (h : c.release < 5) (irq : Nat → Nat) (ie : Bool) (rom : Bytes) :
    ∃ ck : SlaveClocks, (∀ n i, (ck n i).Ok 1) ∧
      ∃ l, owCalls 1 ck c busy1Int irq { ie := ie } { bus := { devs := [{ rom := rom, st := .cmd 0 0 }] } } [(0, .write false)] = some (l, []) ∧
        l.bus.devs = [OWDev.slot true { rom := rom, st := .cmd 0 0 }] :=
  ⟨fun _ _ => lateSlave 1, fun _ _ => lateSlave_ok 1 (by decide), late_write 1 c busy1Int irq ie rom (by decide) (by rw [b3]; omega) (by rw [b3]; omega)⟩

theorem b3_16 : busy16Int (60 - stdDelayReduction) = 880 := by decide

/-- **C234 (1 MHz only).** At 16 MHz the delays are 5 us too short, which the pin operations no longer make up for: unless releasing the pin takes 80 cycles, there is a slave
within its data sheet that takes a written 0 for a 1. -/
theorem C234_16MHz_refuted (c : OWCost) (h : c.release < 80) (irq : Nat → Nat) (ie : Bool) (rom : Bytes) :
    ∃ ck : SlaveClocks, (∀ n i, (ck n i).Ok 16) ∧
      ∃ l, owCalls 16 ck c busy16Int irq { ie := ie } { bus := { devs := [{ rom := rom, st := .cmd 0 0 }] } } [(0, .write false)] = some (l, []) ∧
        l.bus.devs = [OWDev.slot true { rom := rom, st := .cmd 0 0 }] :=
  ⟨fun _ _ => lateSlave 16, fun _ _ => lateSlave_ok 16 (by decide), late_write 16 c busy16Int irq ie rom (by decide) (by rw [b3_16]; omega) (by rw [b3_16]; omega)⟩

/-- **C234 (interrupts off).** `reset()` keeps interrupts off for 543 cycles (at 1 MHz: us) and its pin operations, and no call for longer; but at 16 MHz for
more than 16 ms, as the delay of 0 - 5 us is taken for one of 255 times 64 us. -/
theorem C234_interrupts_off :
    ((OWOp.reset.prog.takeWhile (· ≠ .restore)).map (OWI.cycles { cli := 0, restore := 0, low := 0, release := 0, look := 0 } busy1Int)).sum = 543 ∧
    (∀ op : OWOp, ((op.prog.takeWhile (· ≠ .restore)).map (OWI.cycles { cli := 0, restore := 0, low := 0, release := 0, look := 0 } busy1Int)).sum ≤ 543) ∧
    16 * 16000 < ((OWOp.reset.prog.takeWhile (· ≠ .restore)).map (OWI.cycles { cli := 0, restore := 0, low := 0, release := 0, look := 0 } busy16Int)).sum := by
  refine ⟨by decide, ?_, by decide⟩
  intro op
  cases op with
  | reset => decide
  | read => decide
  | write b => cases b <;> decide

/-- The delays are those of C162 where they are not negative. -/
theorem busy1Int_nat (us : Nat) (h : us < 1024) : busy1Int us = busy1MHz true us := by
  unfold busy1Int busy1MHz
  by_cases h0 : us = 0
  · subst h0; rfl
  · have e : ((us : Int) / 4 % 256).toNat = us / 4 % 256 := by omega
    have e2 : avrX4 (us / 4 % 256) = avrX4 (us / 4) := by unfold avrX4; rw [Nat.mod_mod]
    rw [e, e2]
    generalize avrX4 (us / 4) = a
    simp only [true_and]
    repeat' split
    all_goals omega

/-- Two DS18B20s, one of them slow, asked to search: a reset and the eight bits of the command, then the first two read slots. -/
example : ∃ l, owCalls 1 (fun _ i => if i = 0 then lateSlave 1 else { react := 1, hold := 60, look := 15, pres := 60, presLen := 240 })
    { cli := 2, restore := 1, low := 10, release := 5, look := 2 } busy1Int (fun _ => 200) { ie := true }
    { bus := { devs := [{ rom := [0x28, 1, 2, 3, 4, 5, 6, 7] }, { rom := [0x29, 1, 2, 3, 4, 5, 6, 7] }] } }
    ([(0, .reset)] ++ [false, false, false, false, true, true, true, true].map (fun b => (7, OWOp.write b)) ++ [(9, .read), (9, .read)]) =
    some (l, [true, false, false]) := by
  obtain ⟨l, h, -⟩ := C234_slots (fun _ i => if i = 0 then lateSlave 1 else { react := 1, hold := 60, look := 15, pres := 60, presLen := 240 })
    (by intro n i; split
        · exact lateSlave_ok 1 (by decide)
        · exact ⟨by decide, by decide, by decide, by decide, by decide⟩)
    { cli := 2, restore := 1, low := 10, release := 5, look := 2 } ⟨by decide, by decide, by decide⟩ (fun _ => 200) true
    { bus := { devs := [{ rom := [0x28, 1, 2, 3, 4, 5, 6, 7] }, { rom := [0x29, 1, 2, 3, 4, 5, 6, 7] }] } }
    (by intro d hd e he
        left
        simp only [List.mem_cons, List.not_mem_nil, or_false] at hd
        rcases hd with rfl | rfl <;> rfl)
    ([(0, .reset)] ++ [false, false, false, false, true, true, true, true].map (fun b => (7, OWOp.write b)) ++ [(9, .read), (9, .read)])
  exact ⟨l, h⟩

end OTR.Props
