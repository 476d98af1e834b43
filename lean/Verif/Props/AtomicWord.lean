import Verif.Model.AtomicWord
/-!
# C242 — `OTAtomic_t` is atomic with respect to interrupts
-/

namespace OTR.Props
open OTR

/-- What one operation on the variable is to do, in one go: value before ↦ result and value after. -/
abbrev OneGo (α : Type) := Bytes → α × Bytes

/-- All of `fs`, one after the other. -/
def runAll (fs : List (Bytes → Bytes)) (v : Bytes) : Bytes := fs.foldl (fun v f => f v) v

/-- **Atomic**: however interrupts fall and whatever they do to the variable (keeping its size), the operation took place in one go between two of those that ran,
they all ran outside it, the interrupt flag is as before, and if it was off none ran. -/
def AtomicOp {α : Type} (n : Nat) (p : AProg α) (f : OneGo α) : Prop :=
  ∀ (v : Bytes) (ie : Bool) (sch : Nat → List (Bytes → Bytes)), v.length = n → (∀ i, ∀ g ∈ sch i, ∀ x : Bytes, x.length = n → (g x).length = n) →
    ∃ before after, let r := p.run sch ⟨v, ie, false, []⟩
      r.2.log = before ++ after ∧
      r.1 = (f (runAll before v)).1 ∧ r.2.v = runAll after (f (runAll before v)).2 ∧
      r.2.ie = ie ∧ (ie = false → before = [] ∧ after = [])

theorem isrs_off {m : AMach} {fs : List (Bytes → Bytes)} (h : m.ie = false) : m.isrs fs = m := by simp [AMach.isrs, h]

/-- With interrupts off, a read of the whole variable reads it. -/
theorem readFrom_off {α : Type} (c : Bytes → AProg α) (n : Nat) : ∀ (k : Nat) (acc : Bytes) (sch : Nat → List (Bytes → Bytes)) (m : AMach), m.ie = false → k + n = m.v.length →
    (readFrom n k acc c).run sch m = (c (acc ++ m.v.drop k)).run (fun i => sch (i + n)) m := by
  induction n with
  | zero =>
    intro k acc sch m h hl
    rw [readFrom, List.drop_eq_nil_of_le (by omega), List.append_nil]
    rfl
  | succ n ih =>
    intro k acc sch m h hl
    rw [readFrom, AProg.run, isrs_off h, ih (k + 1) _ _ m h (by omega)]
    have hk : k < m.v.length := by omega
    rw [List.getElem?_eq_getElem hk, Option.getD_some, List.append_assoc, List.singleton_append, ← List.drop_eq_getElem_cons hk]
    rfl

/-- With interrupts off, a write of the whole variable writes it. -/
theorem writeFrom_off {α : Type} (c : AProg α) (d : Bytes) : ∀ (k : Nat) (sch : Nat → List (Bytes → Bytes)) (m : AMach), m.ie = false → k + d.length = m.v.length →
    (writeFrom d k c).run sch m = c.run (fun i => sch (i + d.length)) { m with v := m.v.take k ++ d } := by
  induction d with
  | nil =>
    intro k sch m h hl
    rw [writeFrom, List.append_nil, List.take_of_length_le (by simp at hl; omega)]
    rfl
  | cons b t ih =>
    intro k sch m h hl
    simp only [List.length_cons] at hl
    rw [writeFrom, AProg.run, isrs_off h]
    dsimp only
    rw [ih (k + 1) (fun i => sch (i + 1)) ⟨m.v.set k b, m.ie, m.sv, m.log⟩ h (by simp; omega)]
    have hk : k < m.v.length := by omega
    have e : (m.v.set k b).take (k + 1) ++ t = m.v.take k ++ b :: t := by
      rw [List.take_succ_eq_append_getElem (by simpa using hk), List.take_set_of_le (Nat.le_refl _)]
      simp
    dsimp only
    rw [e]
    rfl

theorem runAll_length {n : Nat} (fs : List (Bytes → Bytes)) : ∀ v : Bytes, v.length = n → (∀ g ∈ fs, ∀ x : Bytes, x.length = n → (g x).length = n) → (runAll fs v).length = n := by
  induction fs with
  | nil => intro v h _; exact h
  | cons f t ih =>
    intro v h hg
    exact ih (f v) (hg f (by simp) v h) fun g hm => hg g (by simp [hm])

/-- The machine just inside the lock. -/
def inside (v : Bytes) (ie : Bool) (a b : List (Bytes → Bytes)) : AMach :=
  if ie then ⟨runAll (a ++ b) v, false, true, a ++ b⟩ else ⟨v, false, false, []⟩

/-- A locked body that does `f` in one go when interrupts are off is atomic. -/
theorem lockd_atomic {α : Type} (n : Nat) (body : (AProg α → AProg α) → AProg α) (f : OneGo α)
    (h : ∀ (m : AMach) (sch : Nat → List (Bytes → Bytes)), m.ie = false → m.v.length = n → ∃ j, (body .restore).run sch m =
      (AProg.restore (.ret (f m.v).1)).run (fun i => sch (i + j)) { m with v := (f m.v).2 }) : AtomicOp n (lockd body) f := by
  intro v ie sch hv hg
  have e : (lockd body).run sch ⟨v, ie, false, []⟩ = (body .restore).run (fun i => sch (i + 2)) (inside v ie (sch 0) (sch 1)) := by
    rw [lockd, AProg.run, AProg.run]
    cases ie
    · rfl
    · simp [AMach.isrs, inside, runAll, List.foldl_append]
  have hl : (inside v ie (sch 0) (sch 1)).v.length = n := by
    unfold inside
    cases ie
    · exact hv
    · refine runAll_length _ v hv fun g hm => ?_
      rcases List.mem_append.1 hm with hm | hm
      · exact hg 0 g hm
      · exact hg 1 g hm
  obtain ⟨j, hj⟩ := h (inside v ie (sch 0) (sch 1)) (fun i => sch (i + 2)) (by unfold inside; cases ie <;> rfl) hl
  cases ie with
  | false =>
    refine ⟨[], [], ?_⟩
    dsimp only
    rw [e, hj]
    simp [AProg.run, inside, AMach.isrs, runAll]
  | true =>
    refine ⟨sch 0 ++ sch 1, sch (j + 3), ?_⟩
    dsimp only
    rw [e, hj]
    have a3 : 0 + 1 + j + 2 = j + 3 := by omega
    simp [AProg.run, inside, AMach.isrs, runAll, a3]

/-- **C242** `load()`, `store()` and `compare_exchange_strong()` on a value of any number of bytes are atomic, however interrupts fall. -/
theorem C242_load (n : Nat) : AtomicOp n (aLoad n) fun v => (v, v) := by
  refine lockd_atomic n _ _ fun m sch hm hl => ⟨n, ?_⟩
  rw [readFrom_off _ n 0 [] sch m hm (by omega), List.nil_append, List.drop_zero]

theorem C242_store (d : Bytes) : AtomicOp d.length (aStore d) fun _ => ((), d) := by
  refine lockd_atomic _ _ _ fun m sch hm hl => ⟨d.length, ?_⟩
  rw [writeFrom_off _ d 0 sch m hm (by omega), List.take_zero, List.nil_append]

theorem C242_exchange (n : Nat) (expd d : Bytes) (hd : d.length = n) :
    AtomicOp n (aCas n expd d) fun v => if v = expd then ((true, expd), d) else ((false, v), v) := by
  refine lockd_atomic n _ _ fun m sch hm hl => ?_
  · by_cases e : m.v = expd
    · refine ⟨n + n, ?_⟩
      rw [readFrom_off _ n 0 [] sch m hm (by omega), List.nil_append, List.drop_zero]
      simp only [if_pos e]
      rw [writeFrom_off _ d 0 _ m hm (by omega), List.take_zero, List.nil_append, hd]
      congr 1
      funext i; rw [Nat.add_assoc]
    · refine ⟨n + n, ?_⟩
      rw [readFrom_off _ n 0 [] sch m hm (by omega), List.nil_append, List.drop_zero]
      simp only [if_neg e]
      rw [readFrom_off _ n 0 [] _ m hm (by omega), List.nil_append, List.drop_zero]
      congr 1
      funext i; rw [Nat.add_assoc]

/-- **C242** One byte needs no lock to be loaded or stored. -/
theorem C242_one_byte (b : Byte) : AtomicOp 1 aLoad1 (fun v => (v, v)) ∧ AtomicOp 1 (aStore1 b) (fun _ => ((), [b])) := by
  have one : ∀ x : Bytes, x.length = 1 → x = [x[0]?.getD 0] := by
    intro x hx
    match x, hx with
    | [a], _ => rfl
  constructor
  · intro v ie sch hv hg
    cases ie with
    | false =>
      refine ⟨[], [], ?_⟩
      simp only [aLoad1, readFrom, AProg.run, AMach.isrs, runAll, List.foldl_nil, List.nil_append]
      exact ⟨rfl, (one v hv).symm, rfl, rfl, fun _ => by simp⟩
    | true =>
      refine ⟨sch 0, sch 1, ?_⟩
      have hl := runAll_length (sch 0) v hv (hg 0)
      simp only [aLoad1, readFrom, AProg.run, AMach.isrs, List.nil_append, if_true]
      exact ⟨trivial, (one _ hl).symm, rfl, by simp⟩
  · intro v ie sch hv hg
    cases ie with
    | false =>
      refine ⟨[], [], ?_⟩
      match v, hv with
      | [a], _ => simp [aStore1, writeFrom, AProg.run, AMach.isrs, runAll]
    | true =>
      refine ⟨sch 0, sch 1, ?_⟩
      have hl := runAll_length (sch 0) v hv (hg 0)
      have : (runAll (sch 0) v).set 0 b = [b] := by rw [one _ hl]; rfl
      simp only [aStore1, writeFrom, AProg.run, AMach.isrs, List.nil_append, if_true]
      exact ⟨trivial, trivial, congrArg (runAll (sch 1)) this, by simp⟩

/-- Two bytes, an interrupt before every instruction adding 1 to the 16-bit value: 0x00ff is loaded as 0x0101 (two have run), and four have run in all at the end. -/
example : ∃ g : Bytes → Bytes, (∀ x : Bytes, x.length = 2 → (g x).length = 2) ∧
    ((aLoad 2).run (fun _ => [g]) ⟨[0xff, 0x00], true, false, []⟩).1 = [0x01, 0x01] ∧
    ((aLoad 2).run (fun _ => [g]) ⟨[0xff, 0x00], true, false, []⟩).2.v = [0x02, 0x01] ∧
    -- without the lock the two bytes come from different values
    ((readFrom 2 0 [] .ret).run (fun i => if i = 1 then [g] else []) ⟨[0xff, 0x00], true, false, []⟩).1 = [0xff, 0x01] := by
  refine ⟨fun x => [x[0]?.getD 0 + 1, if x[0]?.getD 0 = 0xff then x[1]?.getD 0 + 1 else x[1]?.getD 0], fun _ _ => rfl, ?_, ?_, ?_⟩ <;> decide

end OTR.Props
