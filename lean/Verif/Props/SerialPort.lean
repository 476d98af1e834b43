import Verif.Model.SerialPort
/-!
# C205–C206: serial output
-/

namespace OTR

/-! ## Specification -/

/-- Written but not yet on the line, in the order it will leave. -/
def Ser.pending (s : Ser) : Bytes := s.shift.toList ++ s.udr.toList ++ s.ring

namespace Props

/-- CPU, transmitter and interrupt all keep getting their turn. -/
def FairSched (sched : Nat → Option UartEv) : Prop := ∀ e n, ∃ m, n ≤ m ∧ sched m = e

/-- What an application does with the port: the library's print-and-flush functions, output from a scope that powers the port (RAII, or the message handler), direct
output (`Serial.print`), flushing, and power up and down. -/
inductive SerOp
  | print (text : Bytes) | scope (text : Bytes) | raw (text : Bytes) | flush | up | down

/-- The program of an operation started with the port on or off. Direct output and flushing are done only with the port on. -/
def SerOp.prog (on : Bool) : SerOp → List SerAct
  | .print t => serialPrintAndFlush on t
  | .scope t => withSerial on t
  | .raw t => if on then serWrites t else []
  | .flush => if on then flushSerialProductive else []
  | .up => if on then [] else powerUpSerial
  | .down => if on then powerDownSerial else []

def SerOp.onAfter (on : Bool) : SerOp → Bool
  | .up => true
  | .down => false
  | _ => on

def SerOp.text (on : Bool) : SerOp → Bytes
  | .print t => t
  | .scope t => t
  | .raw t => if on then t else []
  | _ => []

/-- Whether the operation waits for the hardware to have sent everything. -/
def SerOp.waits (on : Bool) : SerOp → Bool
  | .print _ => true
  | .scope _ => !on
  | .flush => on
  | _ => false

/-- Program, final power and output of a sequence of operations. -/
def serProg : Bool → List SerOp → List SerAct
  | _, [] => []
  | on, o :: t => o.prog on ++ serProg (o.onAfter on) t
def serOn : Bool → List SerOp → Bool
  | on, [] => on
  | on, o :: t => serOn (o.onAfter on) t
def serText : Bool → List SerOp → Bytes
  | _, [] => []
  | on, o :: t => o.text on ++ serText (o.onAfter on) t

/-- No operation waits for the end of transmission before the first byte ever was printed. -/
def NeverSilent : Bool → Bytes → List SerOp → Prop
  | _, _, [] => True
  | on, tot, o :: t => (o.waits on = true → tot ++ o.text on ≠ []) ∧ NeverSilent (o.onAfter on) (tot ++ o.text on) t

/-! ## Proofs -/

theorem fair_shift {sched : Nat → Option UartEv} (h : FairSched sched) (k : Nat) : FairSched fun i => sched (k + i) := fun e n => by
  obtain ⟨m, h1, h2⟩ := h e (k + n)
  exact ⟨m - k, by omega, by show sched (k + (m - k)) = e; rw [show k + (m - k) = m by omega]; exact h2⟩

theorem serRun_add (sched : Nat → Option UartEv) (x : SerCfg) (n m : Nat) : SerCfg.run sched x (n + m) = SerCfg.run (fun i => sched (n + i)) (SerCfg.run sched x n) m := by
  induction m with
  | zero => rfl
  | succ m ih => rw [show n + (m + 1) = n + m + 1 by omega]; unfold SerCfg.run; rw [ih]

/-- Well-formed states. -/
structure SerInv (s : Ser) : Prop where
  busy : s.pending ≠ [] → s.on = true ∧ s.written = true
  flag : s.txc = true → s.shift = none ∧ s.udr = none
  quiet : s.pending = [] → (s.txc = true ↔ s.line ≠ [])
  wrote : s.written = true → s.line ++ s.pending ≠ []

/-- Bytes still to move, weighted. -/
def Ser.work (s : Ser) : Nat := 3 * s.ring.length + (if s.udr.isSome then 2 else 0) + (if s.shift.isSome then 1 else 0)

theorem ev_facts (s : Ser) (e : UartEv) : (s.ev e).line ++ (s.ev e).pending = s.line ++ s.pending ∧ (s.ev e).on = s.on ∧ (s.ev e).written = s.written ∧
    (Ser.work (s.ev e) < Ser.work s ∨ s.ev e = s) := by
  obtain ⟨on, ring, udr, shift, txc, wr, line⟩ := s
  cases e <;> cases on <;> cases ring <;> cases udr <;> cases shift <;> simp [Ser.ev, Ser.pending, Ser.work] <;> omega

theorem ev_idle {s : Ser} (hp : s.pending = []) (e : UartEv) : s.ev e = s := by
  obtain ⟨on, ring, udr, shift, txc, wr, line⟩ := s
  cases ring <;> cases udr <;> cases shift <;> simp [Ser.pending] at hp <;> cases e <;> cases on <;> rfl

theorem ev_inv {s : Ser} (h : SerInv s) (e : UartEv) : SerInv (s.ev e) := by
  obtain ⟨h1, h2, h3, h4⟩ := h
  have hf := ev_facts s e
  refine ⟨?_, ?_, ?_, ?_⟩
  · intro hp
    rw [hf.2.1, hf.2.2.1]
    by_cases hq : s.pending = []
    · rw [ev_idle hq] at hp
      exact absurd hq hp
    · exact h1 hq
  · obtain ⟨on, ring, udr, shift, txc, wr, line⟩ := s
    clear hf h1 h3 h4
    cases e <;> cases on <;> cases ring <;> cases udr <;> cases shift <;> simp_all [Ser.ev]
  · obtain ⟨on, ring, udr, shift, txc, wr, line⟩ := s
    clear hf h4
    cases e <;> cases on <;> cases ring <;> cases udr <;> cases shift <;> simp_all [Ser.ev, Ser.pending]
  · rw [hf.2.2.1, hf.1]
    exact h4

/-- From `s` the program always ends, in a state with `Q`. -/
def SerEnds (p : List SerAct) (s : Ser) (Q : Ser → Prop) : Prop :=
  ∀ (rest : List SerAct) (sched : Nat → Option UartEv), FairSched sched → ∃ n s', SerCfg.run sched (p ++ rest, s) n = (rest, s') ∧ Q s'

theorem ends_nil {s : Ser} {Q : Ser → Prop} (h : Q s) : SerEnds [] s Q := fun _ _ _ => ⟨0, s, rfl, h⟩

theorem ends_append {p q : List SerAct} {s : Ser} {R Q : Ser → Prop} (h1 : SerEnds p s R) (h2 : ∀ s', R s' → SerEnds q s' Q) : SerEnds (p ++ q) s Q := by
  intro rest sched hf
  obtain ⟨n, s1, e1, r1⟩ := h1 (q ++ rest) sched hf
  obtain ⟨m, s2, e2, r2⟩ := h2 s1 r1 rest _ (fair_shift hf n)
  exact ⟨n + m, s2, by rw [serRun_add, List.append_assoc, e1, e2], r2⟩

theorem ends_mono {p : List SerAct} {s : Ser} {R Q : Ser → Prop} (h1 : SerEnds p s R) (h2 : ∀ s', R s' → Q s') : SerEnds p s Q := fun rest sched hf => by
  obtain ⟨n, s', a, b⟩ := h1 rest sched hf
  exact ⟨n, s', a, h2 s' b⟩

theorem ends_set {P Q : Ser → Prop} {f : Ser → Ser} {s : Ser} (hP : P s) (hev : ∀ s, P s → ∀ e, P (s.ev e)) (hQ : ∀ s, P s → Q (f s)) : SerEnds [.set f] s Q := by
  intro rest sched hf
  obtain ⟨m, _, hm⟩ := hf none 0
  have key : ∀ (m : Nat) (s : Ser) (sched : Nat → Option UartEv), P s → sched m = none → ∃ n s', SerCfg.run sched ([.set f] ++ rest, s) n = (rest, s') ∧ Q s' := by
    intro m
    induction m with
    | zero =>
      intro s sched hP hm
      refine ⟨1, f s, ?_, hQ s hP⟩
      unfold SerCfg.run SerCfg.run
      rw [hm]; rfl
    | succ m ih =>
      intro s sched hP hm
      cases h0 : sched 0 with
      | none =>
        refine ⟨1, f s, ?_, hQ s hP⟩
        unfold SerCfg.run SerCfg.run
        rw [h0]; rfl
      | some e =>
        obtain ⟨n, s', a, b⟩ := ih (s.ev e) (fun i => sched (1 + i)) (hev s hP e) (by show sched (1 + m) = none; rw [Nat.add_comm]; exact hm)
        refine ⟨1 + n, s', ?_, b⟩
        rw [serRun_add]
        have : SerCfg.run sched ([.set f] ++ rest, s) 1 = ([.set f] ++ rest, s.ev e) := by
          unfold SerCfg.run SerCfg.run
          rw [h0]; rfl
        rw [this]
        exact a
  exact key m s sched hP hm

/-- The event that is sure to do something. -/
def Ser.ready (s : Ser) : UartEv := if s.shift.isSome then .shiftDone else if s.udr.isSome then .load else .isr

theorem ready_works (s : Ser) (ho : s.on = true) (hp : s.pending ≠ []) : Ser.work (s.ev (Ser.ready s)) < Ser.work s := by
  obtain ⟨on, ring, udr, shift, txc, wr, line⟩ := s
  cases ho
  cases ring <;> cases udr <;> cases shift <;> simp_all [Ser.ev, Ser.pending, Ser.work, Ser.ready] <;> omega

theorem ends_spin {P Q : Ser → Prop} {c : Ser → Bool} {b : Ser → Ser} (hev : ∀ s, P s → ∀ e, P (s.ev e))
    (hb : ∀ s, P s → c s = true → P (b s) ∧ (b s).on = s.on ∧ (b s).ring = s.ring ∧ (b s).udr = s.udr ∧ (b s).shift = s.shift)
    (hon : ∀ s, P s → s.pending ≠ [] → s.on = true) (hquiet : ∀ s, P s → s.pending = [] → c s = false) (hQ : ∀ s, P s → c s = false → Q s) :
    ∀ s, P s → SerEnds [.spin c b] s Q := by
  intro s hP rest sched hf
  have one : ∀ (s : Ser) (sched : Nat → Option UartEv), SerCfg.run sched ([.spin c b] ++ rest, s) 1 =
      match sched 0 with | none => if c s then ([.spin c b] ++ rest, b s) else (rest, s) | some e => ([.spin c b] ++ rest, s.ev e) := by
    intro s sched
    unfold SerCfg.run SerCfg.run
    cases sched 0 <;> rfl
  generalize hw : Ser.work s = w
  induction w using Nat.strongRecOn generalizing s sched with
  | ind w ih =>
    by_cases hp : s.pending = []
    · obtain ⟨m, _, hm⟩ := hf none 0
      have key : ∀ (m : Nat) (sched : Nat → Option UartEv), sched m = none → ∃ n s', SerCfg.run sched ([.spin c b] ++ rest, s) n = (rest, s') ∧ Q s' := by
        intro m
        induction m with
        | zero =>
          intro sched hm
          refine ⟨1, s, ?_, hQ s hP (hquiet s hP hp)⟩
          rw [one, hm]
          dsimp only
          rw [hquiet s hP hp]; rfl
        | succ m ihm =>
          intro sched hm
          cases h0 : sched 0 with
          | none =>
            refine ⟨1, s, ?_, hQ s hP (hquiet s hP hp)⟩
            rw [one, h0]
            dsimp only
            rw [hquiet s hP hp]; rfl
          | some e =>
            obtain ⟨n, s', a, hq⟩ := ihm (fun i => sched (1 + i)) (by show sched (1 + m) = none; rw [Nat.add_comm]; exact hm)
            refine ⟨1 + n, s', ?_, hq⟩
            rw [serRun_add, one, h0]
            dsimp only
            rw [ev_idle hp]
            exact a
      exact key m sched hm
    · have ho := hon s hP hp
      obtain ⟨m, _, hm⟩ := hf (some (Ser.ready s)) 0
      have key : ∀ (m : Nat) (s : Ser) (sched : Nat → Option UartEv), FairSched sched → P s → s.on = true → s.pending ≠ [] → sched m = some (Ser.ready s) → Ser.work s = w →
          ∃ n s', SerCfg.run sched ([.spin c b] ++ rest, s) n = (rest, s') ∧ Q s' := by
        intro m
        induction m with
        | zero =>
          intro s sched hf hP ho hp hm hw
          obtain ⟨n, s', a, hq⟩ := ih _ (by rw [← hw]; exact ready_works s ho hp) (s.ev (Ser.ready s)) (hev s hP _) _ (fair_shift hf 1) rfl
          refine ⟨1 + n, s', ?_, hq⟩
          rw [serRun_add, one, hm]
          exact a
        | succ m ihm =>
          intro s sched hf hP ho hp hm hw
          have hm' : (fun i => sched (1 + i)) m = some (Ser.ready s) := by show sched (1 + m) = _; rw [Nat.add_comm]; exact hm
          cases h0 : sched 0 with
          | none =>
            by_cases hc : c s = true
            · obtain ⟨p1, p2, p3, p4, p5⟩ := hb s hP hc
              have e1 : Ser.ready (b s) = Ser.ready s := by unfold Ser.ready; rw [p4, p5]
              have e2 : (b s).pending = s.pending := by unfold Ser.pending; rw [p3, p4, p5]
              have e3 : Ser.work (b s) = Ser.work s := by unfold Ser.work; rw [p3, p4, p5]
              obtain ⟨n, s', a, hq⟩ := ihm (b s) (fun i => sched (1 + i)) (fair_shift hf 1) p1 (p2.trans ho) (by rw [e2]; exact hp) (by rw [e1]; exact hm') (e3.trans hw)
              refine ⟨1 + n, s', ?_, hq⟩
              rw [serRun_add, one, h0]
              dsimp only
              rw [hc]
              exact a
            · refine ⟨1, s, ?_, hQ s hP (by simpa using hc)⟩
              rw [one, h0]
              dsimp only
              rw [if_neg hc]
          | some e =>
            rcases (ev_facts s e).2.2.2 with hlt | heq
            · obtain ⟨n, s', a, hq⟩ := ih _ (by rw [← hw]; exact hlt) (s.ev e) (hev s hP _) _ (fair_shift hf 1) rfl
              refine ⟨1 + n, s', ?_, hq⟩
              rw [serRun_add, one, h0]
              exact a
            · obtain ⟨n, s', a, hq⟩ := ihm s (fun i => sched (1 + i)) (fair_shift hf 1) hP ho hp hm' hw
              refine ⟨1 + n, s', ?_, hq⟩
              rw [serRun_add, one, h0]
              dsimp only
              rw [heq]
              exact a
      exact key m s sched hf hP ho hp hm hw


/-- Port on, and `tot` printed altogether. -/
def SerA (tot : Bytes) (s : Ser) : Prop := SerInv s ∧ s.on = true ∧ s.line ++ s.pending = tot

theorem serA_ev {tot : Bytes} : ∀ s, SerA tot s → ∀ e, SerA tot (s.ev e) := fun s ⟨a, b, c⟩ e =>
  ⟨ev_inv a e, (ev_facts s e).2.1.trans b, (ev_facts s e).1.trans c⟩

theorem write_inv {tot : Bytes} {s : Ser} (h : SerA tot s) (b : Byte) : SerA (tot ++ [b]) (s.write b) := by
  obtain ⟨⟨h1, h2, h3, h4⟩, ho, ht⟩ := h
  obtain ⟨on, ring, udr, shift, txc, wr, line⟩ := s
  subst ht
  cases ho
  unfold Ser.write
  by_cases hc : ring = [] ∧ udr = none
  · rw [if_pos hc]
    obtain ⟨rfl, rfl⟩ := hc
    refine ⟨⟨?_, ?_, ?_, ?_⟩, rfl, ?_⟩ <;> simp [Ser.pending]
  · rw [if_neg hc]
    refine ⟨⟨?_, ?_, ?_, ?_⟩, rfl, ?_⟩
    · simp
    · exact h2
    · simp [Ser.pending]
    · simp [Ser.pending]
    · simp [Ser.pending]

theorem ends_writes (t : Bytes) : ∀ (tot : Bytes) (s : Ser), SerA tot s → SerEnds (serWrites t) s (SerA (tot ++ t)) := by
  induction t with
  | nil => intro tot s h; exact ends_nil (by simpa using h)
  | cons b t ih =>
    intro tot s h
    have : SerEnds ([.set fun s => s.write b] ++ serWrites t) s (SerA (tot ++ b :: t)) :=
      ends_append (ends_set h serA_ev fun s hs => write_inv hs b) fun s' h' => by
        have := ih (tot ++ [b]) s' h'
        rwa [List.append_assoc] at this
    exact this

/-- Port on, `tot` printed, and — if anything was written since the port was powered up — all of it sent. -/
theorem ends_serFlush {tot : Bytes} {s : Ser} (h : SerA tot s) : SerEnds serFlush s fun s => SerA tot s ∧ s.pending = [] := by
  refine ends_spin (P := SerA tot) serA_ev (fun s h _ => ⟨h, rfl, rfl, rfl, rfl⟩) (fun s h _ => h.2.1) ?_ ?_ s h
  · intro s ⟨hi, ho, ht⟩ hp
    by_cases hw : s.written = true
    · have h4 := hi.wrote hw
      rw [hp, List.append_nil] at h4
      have h5 := (hi.quiet hp).2 h4
      have h6 : s.ring = [] := by unfold Ser.pending at hp; simp at hp; exact hp.2.2
      simp [h5, h6]
    · simp at hw; simp [hw]
  · intro s h hc
    refine ⟨h, ?_⟩
    by_cases hp : s.pending = []
    · exact hp
    · have hw := (h.1.busy hp).2
      simp [hw] at hc
      have := h.1.flag hc.2
      unfold Ser.pending
      simp [this, hc.1]

theorem ends_hw {tot : Bytes} {s : Ser} (hne : tot ≠ []) (h : SerA tot s ∧ s.pending = []) : SerEnds flushSerialHW s fun s => SerA tot s ∧ s.pending = [] := by
  have hev : ∀ s, (SerA tot s ∧ s.pending = []) → ∀ e, (SerA tot (s.ev e) ∧ (s.ev e).pending = []) := fun s h e => by rw [ev_idle h.2]; exact h
  have hu : ∀ s : Ser, s.pending = [] → s.udr = none := fun s hp => by unfold Ser.pending at hp; simp at hp; exact hp.2.1
  refine ends_append (p := [_]) (q := [_]) (R := fun s => SerA tot s ∧ s.pending = []) ?_ ?_
  · refine ends_spin (P := fun s => SerA tot s ∧ s.pending = []) hev ?_ (fun s h => absurd h.2) ?_ (fun s h _ => h) s h
    · intro s h hc
      rw [hu s h.2] at hc
      simp at hc
    · intro s h hp
      rw [hu s h.2]
      simp
  · intro s' h'
    refine ends_spin (P := fun s => SerA tot s ∧ s.pending = []) hev (fun s h _ => ⟨h, rfl, rfl, rfl, rfl⟩) (fun s h => absurd h.2) ?_ (fun s h _ => h) s' h'
    intro s h hp
    have : s.txc = true := (h.1.1.quiet hp).2 (by have := h.1.2.2; rw [hp, List.append_nil] at this; rw [this]; exact hne)
    simp [this]

theorem ends_productive {tot : Bytes} {s : Ser} (hne : tot ≠ []) (h : SerA tot s) : SerEnds flushSerialProductive s fun s => SerA tot s ∧ s.pending = [] := by
  refine ends_append (p := [_]) (R := SerA tot) ?_ fun s1 h1 => ends_append (ends_serFlush h1) fun s2 h2 => ends_hw hne h2
  refine ends_spin (P := SerA tot) serA_ev (fun s h _ => ⟨h, rfl, rfl, rfl, rfl⟩) (fun s h _ => h.2.1) ?_ (fun s h _ => h) s h
  intro s h hp
  have : s.udr = none := by unfold Ser.pending at hp; simp at hp; exact hp.2.1
  simp [this]

/-- Between operations. -/
def SerB (on : Bool) (tot : Bytes) (s : Ser) : Prop := SerInv s ∧ s.on = on ∧ s.line ++ s.pending = tot ∧ (on = false → s.pending = [])

theorem ends_up {tot : Bytes} {s : Ser} (h : SerB false tot s) : SerEnds powerUpSerial s (SerA tot) := by
  refine ends_set (P := SerB false tot) h (fun s h e => by rw [ev_idle (h.2.2.2 rfl)]; exact h) ?_
  intro s ⟨hi, _, ht, hp⟩
  have hp := hp rfl
  have e : ({ s with on := true, written := false } : Ser).pending = s.pending := rfl
  refine ⟨⟨fun h => absurd (e.trans hp) h, hi.flag, hi.quiet, fun h => by cases h⟩, rfl, ht⟩

theorem ends_down {tot : Bytes} {s : Ser} (h : SerA tot s) : SerEnds powerDownSerial s (SerB false tot) := by
  have hev : ∀ s, (SerA tot s ∧ s.pending = []) → ∀ e, (SerA tot (s.ev e) ∧ (s.ev e).pending = []) := fun s h e => by rw [ev_idle h.2]; exact h
  refine ends_append (p := serFlush ++ serFlush) (R := fun s => SerA tot s ∧ s.pending = []) ?_ fun s2 h2 => ?_
  · exact ends_append (ends_serFlush h) fun s1 h1 => ends_serFlush h1.1
  · refine ends_set (P := fun s => SerA tot s ∧ s.pending = []) h2 hev ?_
    intro s ⟨⟨hi, _, ht⟩, hp⟩
    exact ⟨⟨fun h => absurd hp h, hi.flag, hi.quiet, hi.wrote⟩, rfl, ht, fun _ => hp⟩

theorem serA_B {tot : Bytes} {s : Ser} (h : SerA tot s) : SerB true tot s := ⟨h.1, h.2.1, h.2.2, fun h => by cases h⟩
theorem serB_A {tot : Bytes} {s : Ser} (h : SerB true tot s) : SerA tot s := ⟨h.1, h.2.1, h.2.2.1⟩

/-- An operation that does not wait for the end of a transmission that never was ends. -/
theorem ends_op {on : Bool} {tot : Bytes} {s : Ser} (o : SerOp) (hw : o.waits on = true → tot ++ o.text on ≠ []) (h : SerB on tot s) :
    SerEnds (o.prog on) s (SerB (o.onAfter on) (tot ++ o.text on)) := by
  have session : ∀ t : Bytes, tot ++ t ≠ [] → SerB false tot s → SerEnds (powerUpSerial ++ serWrites t ++ flushSerialProductive ++ powerDownSerial) s (SerB false (tot ++ t)) :=
    fun t hne h => ends_append (ends_append (ends_append (ends_up h) fun s1 h1 => ends_writes t tot s1 h1) fun s2 h2 => ends_productive hne h2) fun s3 h3 => ends_down h3.1
  cases on with
  | false =>
    cases o with
    | print t => exact session t (hw rfl) h
    | scope t => exact session t (hw rfl) h
    | raw t => exact ends_nil (by simpa [SerOp.onAfter, SerOp.text] using h)
    | flush => exact ends_nil (by simpa [SerOp.onAfter, SerOp.text] using h)
    | up => exact ends_mono (ends_up h) fun s' h' => by simpa [SerOp.onAfter, SerOp.text] using serA_B h'
    | down => exact ends_nil (by simpa [SerOp.onAfter, SerOp.text] using h)
  | true =>
    have h := serB_A h
    cases o with
    | print t => exact ends_append (ends_writes t tot s h) fun s2 h2 => ends_mono (ends_productive (hw rfl) h2) fun s' h' => serA_B h'.1
    | scope t => exact ends_mono (ends_writes t tot s h) fun s' h' => serA_B h'
    | raw t => exact ends_mono (ends_writes t tot s h) fun s' h' => serA_B h'
    | flush => exact ends_mono (ends_productive (by simpa [SerOp.text] using hw rfl) h) fun s' h' => by simpa [SerOp.onAfter, SerOp.text] using serA_B h'.1
    | up => exact ends_nil (by simpa [SerOp.onAfter, SerOp.text] using serA_B h)
    | down => exact ends_mono (ends_down h) fun s' h' => by simpa [SerOp.onAfter, SerOp.text] using h'

theorem ends_ops (ops : List SerOp) : ∀ (on : Bool) (tot : Bytes) (s : Ser), NeverSilent on tot ops → SerB on tot s →
    SerEnds (serProg on ops) s (SerB (serOn on ops) (tot ++ serText on ops)) := by
  induction ops with
  | nil => intro on tot s _ h; exact ends_nil (by simpa [serOn, serText] using h)
  | cons o t ih =>
    intro on tot s ⟨hw, hn⟩ h
    refine ends_append (ends_op o hw h) fun s' h' => ?_
    have := ih _ _ s' hn h'
    rw [List.append_assoc] at this
    exact this

theorem serB_reset : SerB false [] Ser.reset :=
  ⟨{ busy := fun h => absurd rfl h, flag := fun h => (by cases h), quiet := fun _ => ⟨fun h => (by cases h), fun h => absurd rfl h⟩, wrote := fun h => (by cases h) }, rfl, rfl, fun _ => rfl⟩

/-- **C205** Every program of serial operations, from reset, under every fair schedule of the CPU, the transmitter and the interrupt, that never waits for the end
of a transmission before anything was printed, ends; the bytes on the line followed by those still on their way are exactly those printed, in order; and if
the port ends up powered down, nothing is left behind. -/
theorem C205_serial_output (ops : List SerOp) (sched : Nat → Option UartEv) (hf : FairSched sched) (hn : NeverSilent false [] ops) :
    ∃ n s, SerCfg.run sched (serProg false ops, Ser.reset) n = ([], s) ∧ s.line ++ s.pending = serText false ops ∧ s.on = serOn false ops ∧
      (s.on = false → s.line = serText false ops) := by
  obtain ⟨n, s, a, b⟩ := ends_ops ops false [] Ser.reset hn serB_reset [] sched hf
  rw [List.append_nil] at a
  refine ⟨n, s, a, b.2.2.1, b.2.1, fun h => ?_⟩
  have := b.2.2.2 (b.2.1.symm.trans h)
  have h3 := b.2.2.1
  rw [this, List.append_nil] at h3
  exact h3

theorem serProg_append (ops : List SerOp) : ∀ (on : Bool) (t : List SerOp), serProg on (ops ++ t) = serProg on ops ++ serProg (serOn on ops) t := by
  induction ops with
  | nil => intros; rfl
  | cons o l ih => intro on t; show o.prog on ++ serProg (o.onAfter on) (l ++ t) = (o.prog on ++ _) ++ _; rw [ih, List.append_assoc]; rfl

theorem serText_append (ops : List SerOp) : ∀ (on : Bool) (t : List SerOp), serText on (ops ++ t) = serText on ops ++ serText (serOn on ops) t := by
  induction ops with
  | nil => intros; rfl
  | cons o l ih => intro on t; show o.text on ++ serText (o.onAfter on) (l ++ t) = (o.text on ++ _) ++ _; rw [ih, List.append_assoc]; rfl

theorem neverSilent_append (ops : List SerOp) : ∀ (on : Bool) (tot : Bytes) (t : List SerOp), NeverSilent on tot (ops ++ t) →
    NeverSilent on tot ops ∧ NeverSilent (serOn on ops) (tot ++ serText on ops) t := by
  induction ops with
  | nil => intro on tot t h; exact ⟨trivial, by simpa [serOn, serText] using h⟩
  | cons o l ih =>
    intro on tot t h
    obtain ⟨a, b⟩ := ih _ _ _ h.2
    rw [List.append_assoc] at b
    exact ⟨⟨h.1, a⟩, b⟩

/-- **C205** When the library's print-and-flush, its flush, or a scope that had to power the port, returns, every byte printed so far has left on the line. -/
theorem C205_flushed (ops : List SerOp) (o : SerOp) (sched : Nat → Option UartEv) (hf : FairSched sched) (hw : o.waits (serOn false ops) = true)
    (hn : NeverSilent false [] (ops ++ [o])) :
    ∃ n s, SerCfg.run sched (serProg false (ops ++ [o]), Ser.reset) n = ([], s) ∧ s.line = serText false (ops ++ [o]) := by
  obtain ⟨n1, n2⟩ := neverSilent_append ops _ _ _ hn
  have hne := n2.1 hw
  have key := ends_append (ends_ops ops false [] Ser.reset n1 serB_reset) (q := o.prog (serOn false ops))
    (Q := fun s => s.line = serText false ops ++ o.text (serOn false ops)) fun s h => by
      rw [List.nil_append] at h
      have fin : ∀ {tot : Bytes} {s' : Ser}, SerA tot s' ∧ s'.pending = [] → s'.line = tot := fun h => by
        have := h.1.2.2
        rw [h.2, List.append_nil] at this
        exact this
      rw [List.nil_append] at hne
      generalize hon : serOn false ops = on at *
      generalize serText false ops = tot at *
      cases on with
      | true =>
        cases o with
        | print t => exact ends_append (ends_writes t tot s (serB_A h)) fun s2 h2 => ends_mono (ends_productive hne h2) fun s' h' => fin h'
        | flush => exact ends_mono (ends_productive (by simpa [SerOp.text] using hne) (serB_A h)) fun s' h' => by simpa [SerOp.text] using fin h'
        | _ => cases hw
      | false =>
        have off := ends_mono (ends_op o (fun _ => hne) h) fun s' h' => by
          have h3 := h'.2.2.1
          rw [h'.2.2.2 (by cases o <;> first | rfl | cases hw), List.append_nil] at h3
          exact h3
        exact off
  obtain ⟨n, s, a, b⟩ := key [] sched hf
  rw [List.append_nil] at a
  refine ⟨n, s, ?_, ?_⟩
  · rw [serProg_append]
    show SerCfg.run sched (serProg false ops ++ (o.prog _ ++ []), Ser.reset) n = _
    rw [List.append_nil]
    exact a
  · rw [b, serText_append]
    show _ = _ ++ (o.text _ ++ [])
    rw [List.append_nil]

/-! ## The silent device -/

/-- Idle, and never anything sent. -/
def SerMute (s : Ser) : Prop := s.pending = [] ∧ s.on = true ∧ s.txc = false ∧ s.written = false

theorem mute_stuck {sched : Nat → Option UartEv} {rest : List SerAct} {s : Ser} (h : SerMute s) (n : Nat) :
    ∃ p, (SerCfg.run sched (flushSerialProductive ++ rest, s) n) = (p, s) ∧ p ∈ [flushSerialProductive ++ rest, serFlush ++ (flushSerialHW ++ rest), flushSerialHW ++ rest, flushSerialHW.tail ++ rest] := by
  obtain ⟨hp, ho, ht, hw⟩ := h
  have hu : s.udr = none := by unfold Ser.pending at hp; simp at hp; exact hp.2.1
  induction n with
  | zero => exact ⟨_, rfl, by simp⟩
  | succ n ih =>
    obtain ⟨p, e, hm⟩ := ih
    unfold SerCfg.run
    rw [e]
    cases hs : sched n with
    | some ev => exact ⟨p, by show (p, s.ev ev) = _; rw [ev_idle hp], hm⟩
    | none =>
      simp only [List.mem_cons, List.not_mem_nil, or_false] at hm
      rcases hm with rfl | rfl | rfl | rfl
      · refine ⟨serFlush ++ (flushSerialHW ++ rest), ?_, by simp⟩
        simp [SerCfg.move, SerCfg.cpu, flushSerialProductive, hu]
      · refine ⟨flushSerialHW ++ rest, ?_, by simp⟩
        simp [SerCfg.move, SerCfg.cpu, serFlush, hw]
      · refine ⟨flushSerialHW.tail ++ rest, ?_, by simp⟩
        simp [SerCfg.move, SerCfg.cpu, flushSerialHW, hu]
      · refine ⟨flushSerialHW.tail ++ rest, ?_, by simp⟩
        simp [SerCfg.move, SerCfg.cpu, flushSerialHW, ho, ht]

/-- The program never ends, whatever the schedule. -/
def SerStuck (p : List SerAct) (s : Ser) : Prop := ∀ sched n, (SerCfg.run sched (p, s) n).1 ≠ []

theorem stuck_cpu {p : List SerAct} {s : Ser} (hp : s.pending = []) (hne : p ≠ []) (h : SerStuck (SerCfg.cpu (p, s)).1 (SerCfg.cpu (p, s)).2) : SerStuck p s := by
  intro sched n
  induction n generalizing sched with
  | zero => exact hne
  | succ n ih =>
    rw [show n + 1 = 1 + n by omega, serRun_add]
    have e : SerCfg.run sched (p, s) 1 = SerCfg.move (p, s) (sched 0) := by unfold SerCfg.run SerCfg.run; rfl
    rw [e]
    cases sched 0 with
    | none => exact h _ n
    | some ev =>
      show (SerCfg.run _ (p, s.ev ev) n).1 ≠ []
      rw [ev_idle hp]
      exact ih _

theorem mute_flush_stuck {s : Ser} (h : SerMute s) (rest : List SerAct) : SerStuck (flushSerialProductive ++ rest) s := by
  intro sched n
  obtain ⟨p, e, hm⟩ := mute_stuck (sched := sched) (rest := rest) h n
  rw [e]
  simp only [List.mem_cons, List.not_mem_nil, or_false] at hm
  rcases hm with rfl | rfl | rfl | rfl <;> simp [flushSerialProductive, serFlush, flushSerialHW]

theorem said_neverSilent (ops : List SerOp) : ∀ (on : Bool) (tot : Bytes), tot ≠ [] → NeverSilent on tot ops := by
  induction ops with
  | nil => intros; trivial
  | cons o t ih =>
    intro on tot h
    have : tot ++ o.text on ≠ [] := by simp [h]
    exact ⟨fun _ => this, ih _ _ this⟩

theorem mute_ops (ops : List SerOp) : ∀ (s : Ser), SerB s.on [] s → ¬ NeverSilent s.on [] ops → SerStuck (serProg s.on ops) s := by
  induction ops with
  | nil => intro s _ h; exact absurd trivial h
  | cons o t ih =>
    intro s hB hn
    obtain ⟨hi, _, ht, _⟩ := hB
    have hp : s.pending = [] := (List.append_eq_nil_iff.1 ht).2
    have hl : s.line = [] := (List.append_eq_nil_iff.1 ht).1
    have hw : s.written = false := by
      cases h : s.written with
      | false => rfl
      | true => exact absurd ht (hi.wrote h)
    have hx : s.txc = false := by
      cases h : s.txc with
      | false => rfl
      | true => exact absurd hl ((hi.quiet hp).1 h)
    by_cases hv : o.waits s.on = true → [] ++ o.text s.on ≠ []
    · -- not this operation
      have hn' : ¬ NeverSilent (o.onAfter s.on) ([] ++ o.text s.on) t := fun h => hn ⟨hv, h⟩
      have htx : o.text s.on = [] := by
        cases h : o.text s.on with
        | nil => rfl
        | cons b l => exact absurd (said_neverSilent t _ _ (by rw [h]; simp)) hn'
      rw [htx, List.append_nil] at hn'
      have hwt : o.waits s.on = false := by
        cases h : o.waits s.on with
        | false => rfl
        | true => exact absurd htx (hv h)
      have hup : ∀ on', SerB on' [] { s with on := on', written := false } := fun on' =>
        ⟨{ busy := fun h => absurd hp h, flag := hi.flag, quiet := hi.quiet, wrote := fun h => (by cases h) }, rfl, ht, fun _ => hp⟩
      unfold serProg
      obtain ⟨on, ring, udr, shift, txc, wr, line⟩ := s
      dsimp only at hw hx hl
      subst hw; subst hx; subst hl
      have same := ih ⟨on, ring, udr, shift, false, false, []⟩ (hup on)
      cases o with
      | print x => simp [SerOp.waits] at hwt
      | scope x =>
        cases on with
        | false => simp [SerOp.waits] at hwt
        | true => simp [SerOp.text] at htx; subst htx; exact same hn'
      | raw x =>
        cases on with
        | false => exact same hn'
        | true => simp [SerOp.text] at htx; subst htx; exact same hn'
      | flush =>
        cases on with
        | false => exact same hn'
        | true => simp [SerOp.waits] at hwt
      | up =>
        cases on with
        | false => exact stuck_cpu hp (by simp [SerOp.prog, powerUpSerial]) (ih ⟨true, ring, udr, shift, false, false, []⟩ (hup true) hn')
        | true => exact same hn'
      | down =>
        cases on with
        | false => exact same hn'
        | true =>
          exact stuck_cpu hp (by simp [SerOp.prog, powerDownSerial, serFlush]) (stuck_cpu hp (by simp [SerCfg.cpu, SerOp.prog, powerDownSerial, serFlush])
            (stuck_cpu hp (by simp [SerCfg.cpu, SerOp.prog, powerDownSerial, serFlush]) (ih ⟨false, ring, udr, shift, false, false, []⟩ (hup false) hn')))
    · -- this operation waits
      have hv1 : o.waits s.on = true := by
        cases h : o.waits s.on with
        | true => rfl
        | false => exact absurd (fun h' => by rw [h] at h'; cases h') hv
      have htx : o.text s.on = [] := by
        cases h : o.text s.on with
        | nil => rfl
        | cons b l => exact absurd (fun _ => by rw [h]; simp) hv
      have hm : ∀ on' : Bool, on' = true → SerMute { s with on := on', written := false } := fun on' h => ⟨hp, h, hx, rfl⟩
      unfold serProg
      obtain ⟨on, ring, udr, shift, txc, wr, line⟩ := s
      dsimp only at hw
      subst hw
      have session : ∀ rest, SerStuck (powerUpSerial ++ serWrites [] ++ flushSerialProductive ++ powerDownSerial ++ rest) ⟨on, ring, udr, shift, txc, false, line⟩ := fun rest => by
        refine stuck_cpu hp (by simp [powerUpSerial]) ?_
        have := mute_flush_stuck (hm true rfl) (powerDownSerial ++ rest)
        rw [← List.append_assoc] at this
        exact this
      cases o with
      | print x =>
        simp [SerOp.text] at htx; subst htx
        cases on with
        | false => exact session _
        | true => exact mute_flush_stuck (hm true rfl) _
      | scope x =>
        simp [SerOp.text] at htx; subst htx
        cases on with
        | false => exact session _
        | true => simp [SerOp.waits] at hv1
      | raw x => simp [SerOp.waits] at hv1
      | flush =>
        cases on with
        | false => simp [SerOp.waits] at hv1
        | true => exact mute_flush_stuck (hm true rfl) _
      | up => simp [SerOp.waits] at hv1
      | down => simp [SerOp.waits] at hv1

/-- **C206** The condition of C205 is exactly right: a program of serial operations that waits for the end of transmission on a device that has printed
nothing since reset never ends, under any schedule. -/
theorem C206_ends_iff (ops : List SerOp) (sched : Nat → Option UartEv) (hf : FairSched sched) :
    (∃ n, (SerCfg.run sched (serProg false ops, Ser.reset) n).1 = []) ↔ NeverSilent false [] ops := by
  constructor
  · intro ⟨n, hn⟩
    by_cases h : NeverSilent false [] ops
    · exact h
    · exact absurd hn (mute_ops ops Ser.reset serB_reset h sched n)
  · intro h
    obtain ⟨n, s, e, _⟩ := C205_serial_output ops sched hf h
    exact ⟨n, by rw [e]⟩

/-- **C206** Refuted: printing the empty string, or handling a message that prints nothing in a scope that powers the port, hangs a device that has printed nothing since reset. -/
theorem C206_silent_hang_refuted (sched : Nat → Option UartEv) (n : Nat) :
    (SerCfg.run sched (serialPrintAndFlush false [], Ser.reset) n).1 ≠ [] ∧ (SerCfg.run sched (withSerial false [], Ser.reset) n).1 ≠ [] := by
  have h := mute_ops [.print []] Ser.reset serB_reset (fun h => h.1 rfl rfl) sched n
  have h' := mute_ops [.scope []] Ser.reset serB_reset (fun h => h.1 rfl rfl) sched n
  simp only [serProg, List.append_nil] at h h'
  exact ⟨h, h'⟩

/-- **C206** A device that printed anything, once, never hangs afterwards: a boot banner is enough. -/
theorem C206_banner_suffices (banner : Bytes) (hb : banner ≠ []) (ops : List SerOp) (sched : Nat → Option UartEv) (hf : FairSched sched) :
    ∃ n, (SerCfg.run sched (serProg false (.print banner :: ops), Ser.reset) n).1 = [] :=
  (C206_ends_iff _ sched hf).2 ⟨fun _ => by simpa [SerOp.text] using hb, said_neverSilent ops _ _ (by simpa [SerOp.text] using hb)⟩

/-! ## Non-vacuity -/

/-- A fair schedule: CPU, shift register, data register, interrupt in turn. -/
def serTurns (n : Nat) : Option UartEv := match n % 4 with | 0 => none | 1 => some .shiftDone | 2 => some .load | _ => some .isr

theorem serTurns_fair : FairSched serTurns := fun e n => by
  rcases e with _ | _ | _ | _
  · exact ⟨4 * n, by omega, by unfold serTurns; rw [show 4 * n % 4 = 0 by omega]; rfl⟩
  · exact ⟨4 * n + 1, by omega, by unfold serTurns; rw [show (4 * n + 1) % 4 = 1 by omega]; rfl⟩
  · exact ⟨4 * n + 2, by omega, by unfold serTurns; rw [show (4 * n + 2) % 4 = 2 by omega]; rfl⟩
  · exact ⟨4 * n + 3, by omega, by unfold serTurns; rw [show (4 * n + 3) % 4 = 3 by omega]; rfl⟩

example : NeverSilent false [] [.up, .raw [0x3e], .scope [], .down, .print [72, 105, 13, 10], .scope [], .print []] := by simp [NeverSilent, SerOp.waits, SerOp.text, SerOp.onAfter]
example : (SerCfg.run serTurns (serProg false [.up, .raw [0x3e], .print [72, 105]], Ser.reset) 60).2.line = [0x3e, 72, 105] := by decide +kernel
example : (SerCfg.run serTurns (serProg false [.print [72, 105], .scope [], .print []], Ser.reset) 240).1.length = 0 ∧
    (SerCfg.run serTurns (serProg false [.print [72, 105], .scope [], .print []], Ser.reset) 240).2.line = [72, 105] := by decide +kernel

end Props
end OTR
