import Verif.Props.SoftSerial
import Verif.Props.TextOut
import Verif.Spec.UARTStream
/-! # C230: text over the software serial line -/

namespace OTR.Props
open OTR OTR.Spec

/-- The line while bytes are written one after the other with bit time `T`: before each, `gap` time units of idle line; after the last, `tail`. Each byte is written
with interrupts off (SoftSerial.cpp 164-187), the pauses are those of the code between (Arduino `Print`, OTRN2483Link.cpp 119-124). -/
def lineOf (T : Nat) (bs : List (Nat × Byte)) (tail : Nat) : List Bool :=
  bs.flatMap (fun x => List.replicate x.1 true ++ (txFrame x.2.toNat).flatMap (List.replicate T ·)) ++ List.replicate tail true

theorem rx_idle (h p k n : Nat) (rest : List Bool) : uartRx h p (n + k) (List.replicate k true ++ rest) = uartRx h p n rest := by
  induction k with
  | zero => rfl
  | succ k ih => rw [List.replicate_succ, ← Nat.add_assoc]; exact ih

theorem rx_quiet (h p n k : Nat) : uartRx h p n (List.replicate k true) = [] := by
  induction k generalizing n with
  | zero => cases n <;> rfl
  | succ k ih => cases n with
    | zero => rfl
    | succ n => rw [List.replicate_succ]; exact ih n

theorem cells_length (T : Nat) (l : List Bool) : (l.flatMap (List.replicate T ·)).length = l.length * T := by
  induction l with
  | nil => simp
  | cons a t ih => simp only [List.flatMap_cons, List.length_append, List.length_replicate, ih, List.length_cons]; rw [Nat.add_mul]; omega

theorem cells_get (T : Nat) (hT : 0 < T) (l rest : List Bool) (j : Nat) (hj : j < l.length * T) :
    (l.flatMap (List.replicate T ·) ++ rest)[j]? = l[j / T]? := by
  induction l generalizing j with
  | nil => simp at hj
  | cons a t ih =>
    simp only [List.flatMap_cons, List.append_assoc]
    by_cases h : j < T
    · rw [List.getElem?_append_left (by simpa using h), List.getElem?_replicate, if_pos h, Nat.div_eq_of_lt h]; rfl
    · rw [List.getElem?_append_right (by simp; omega)]
      simp only [List.length_replicate]
      rw [ih (j - T) (by simp only [List.length_cons, Nat.add_mul] at hj; omega)]
      have : j / T = (j - T) / T + 1 := by
        rw [← Nat.add_div_right _ hT]; congr 1; omega
      rw [this, List.getElem?_cons_succ]

theorem frame_length (c : Byte) : (txFrame c.toNat).length = 10 := by
  rw [C158_frame _ c.toNat_lt]; simp

theorem frame_cell (T : Nat) (hT : 0 < T) (c : Byte) (rest : List Bool) (j k : Nat) (hk : k < 10) (h1 : k * T ≤ j) (h2 : j < (k + 1) * T) :
    ((txFrame c.toNat).flatMap (List.replicate T ·) ++ rest)[j]?.getD true = uartCell c.toNat k := by
  have e : j / T = k := by
    apply Nat.div_eq_of_lt_le h1 h2
  rw [cells_get T hT _ _ _ (by rw [frame_length]; exact Nat.lt_of_lt_of_le h2 (Nat.mul_le_mul_right T (by omega)))]
  rw [e, C158_frame _ c.toNat_lt]
  simp [hk]

/-- The receiver's clock is near enough: its first and last data samples and its stop sample fall in the right bits. -/
def InStep (T h p : Nat) : Prop := T ≤ h + p ∧ h + p < 2 * T ∧ 8 * T ≤ h + 8 * p ∧ 9 * T ≤ h + 9 * p ∧ h + 8 * p < 9 * T ∧ h + 9 * p < 10 * T

theorem bits_of : ∀ c : Byte, (List.range 8).foldl (fun v i => v + (if uartCell c.toNat (i + 1) then 2 ^ i else 0)) 0 = c.toNat := by
  apply forall_byte; decide +kernel

theorem sample_cell {T h p : Nat} (s : InStep T h p) (i : Nat) (h1 : 1 ≤ i) (h9 : i ≤ 9) : i * T ≤ h + i * p ∧ h + i * p < (i + 1) * T := by
  obtain ⟨a1, a2, a3, a4, a5, a6⟩ := s
  have : i = 1 ∨ i = 2 ∨ i = 3 ∨ i = 4 ∨ i = 5 ∨ i = 6 ∨ i = 7 ∨ i = 8 ∨ i = 9 := by omega
  rcases this with rfl | rfl | rfl | rfl | rfl | rfl | rfl | rfl | rfl <;> omega

theorem frame_drop (T : Nat) (c : Byte) (rest : List Bool) (d : Nat) (h1 : 9 * T ≤ d) (h2 : d ≤ 10 * T) :
    ((txFrame c.toNat).flatMap (List.replicate T ·) ++ rest).drop d = List.replicate (10 * T - d) true ++ rest := by
  have e : ∃ l : List Bool, l.length = 9 ∧ txFrame c.toNat = l ++ [true] := by
    refine ⟨(List.range 9).map (uartCell c.toNat), by simp, ?_⟩
    rw [C158_frame _ c.toNat_lt, List.range_succ, List.map_append]
    simp [uartCell]
  obtain ⟨l, hl, e⟩ := e
  rw [e, List.flatMap_append, List.append_assoc, List.drop_append, List.drop_eq_nil_of_le (by rw [cells_length, hl]; exact h1), List.nil_append,
    cells_length, hl]
  simp only [List.flatMap_cons, List.flatMap_nil, List.append_nil]
  rw [List.drop_append]
  simp only [List.drop_replicate, List.length_replicate]
  rw [show T - (d - 9 * T) = 10 * T - d by omega, show d - 9 * T - T = 0 by omega, List.drop_zero]

theorem rx_frame (T h p : Nat) (s : InStep T h p) (c : Byte) (rest : List Bool) (n : Nat) :
    uartRx h p (n + 1 + (10 * T - (h + 9 * p))) ((txFrame c.toNat).flatMap (List.replicate T ·) ++ rest) = some c.toNat :: uartRx h p n rest := by
  have hT : 0 < T := by obtain ⟨a1, a2, _⟩ := s; omega
  have hs := s
  obtain ⟨a1, a2, a3, a4, a5, a6⟩ := s
  have g0 := frame_cell T hT c rest 0 0 (by omega) (by omega) (by omega)
  generalize hl : (txFrame c.toNat).flatMap (List.replicate T ·) ++ rest = l at *
  have gi : ∀ i, 1 ≤ i → i ≤ 9 → l[h + i * p]?.getD true = uartCell c.toNat i := by
    intro i h1 h9
    obtain ⟨x, y⟩ := sample_cell hs i h1 h9
    rw [← hl]
    exact frame_cell T hT c rest _ i (by omega) x y
  have dr : l.drop (h + 9 * p) = List.replicate (10 * T - (h + 9 * p)) true ++ rest := by
    rw [← hl]; exact frame_drop T c rest _ a4 (by omega)
  cases l with
  | nil => simp [uartCell] at g0
  | cons b t =>
    have hb : b = false := by simpa [uartCell] using g0
    subst hb
    rw [show n + 1 + (10 * T - (h + 9 * p)) = (n + (10 * T - (h + 9 * p))) + 1 by omega, uartRx]
    have g9 := gi 9 (by omega) (by omega)
    rw [if_pos (by rw [g9]; rfl)]
    have e8 : (List.range 8).foldl (fun v i => v + (if (false :: t)[h + (i + 1) * p]?.getD true then 2 ^ i else 0)) 0 = c.toNat := by
      rw [← bits_of c]
      have cg : ∀ (l : List Nat) (v : Nat), (∀ i ∈ l, i < 8) →
          l.foldl (fun v i => v + (if (false :: t)[h + (i + 1) * p]?.getD true then 2 ^ i else 0)) v =
          l.foldl (fun v i => v + (if uartCell c.toNat (i + 1) then 2 ^ i else 0)) v := by
        intro l
        induction l with
        | nil => intros; rfl
        | cons i l ih =>
          intro v hv
          have : i < 8 := hv i (List.mem_cons_self ..)
          simp only [List.foldl_cons]
          rw [gi (i + 1) (by omega) (by omega)]
          exact ih _ fun k hk => hv k (List.mem_cons_of_mem _ hk)
      exact cg _ _ fun i hi => List.mem_range.mp hi
    rw [e8, dr, rx_idle]

/-- **C230** Whatever bytes are written, and however long the line rests before each, a receiver whose clock is near enough receives exactly those
bytes, in order, with no framing error. -/
theorem C230_received (T h p : Nat) (s : InStep T h p) (bs : List (Nat × Byte)) (tail : Nat) :
    uartRx h p (lineOf T bs tail).length (lineOf T bs tail) = bs.map fun x => some x.2.toNat := by
  have gen : ∀ bs n, (lineOf T bs tail).length ≤ n → uartRx h p n (lineOf T bs tail) = bs.map fun x => some x.2.toNat := by
    intro bs
    induction bs with
    | nil => intro n _; exact rx_quiet h p n tail
    | cons x t ih =>
      intro n hn
      have e : lineOf T (x :: t) tail = List.replicate x.1 true ++ ((txFrame x.2.toNat).flatMap (List.replicate T ·) ++ lineOf T t tail) := by
        simp [lineOf, List.append_assoc]
      rw [e] at hn ⊢
      simp only [List.length_append, List.length_replicate, cells_length, frame_length] at hn
      have hT : 0 < T := by obtain ⟨a1, a2, _⟩ := s; omega
      obtain ⟨a1, a2, a3, a4, a5, a6⟩ := s
      rw [show n = (n - x.1 - 1 - (10 * T - (h + 9 * p)) + 1 + (10 * T - (h + 9 * p))) + x.1 by omega, rx_idle,
        rx_frame T h p ⟨a1, a2, a3, a4, a5, a6⟩, ih _ (by omega)]
      rfl
  exact gen bs _ (Nat.le_refl _)

/-- **C230** The whole way for the LoRa link: a message of up to 127 bytes given to `sendRaw()` reaches the modem over the line, whatever the pauses
between the characters, as the command to transmit that message. -/
theorem C230_lora (T h p : Nat) (s : InStep T h p) (msg : Bytes) (hm : msg.length ≤ 127) (gap : Nat → Nat) (tail : Nat) :
    ∃ out, rnSend msg = .ok out ∧
      let line := lineOf T (out.zipIdx.map fun x => (gap x.2, x.1)) tail
      ∃ got : Bytes, uartRx h p line.length line = got.map (fun b => some b.toNat) ∧ modemTX got = some msg := by
  obtain ⟨out, h1, _, h3, _⟩ := C168_sent_partial msg (by omega)
  refine ⟨out, h1, out, ?_, h3 hm⟩
  rw [C230_received T h p s, List.map_map]
  conv => rhs; rw [← List.zipIdx_map_fst 0 out]
  rw [List.map_map]
  rfl

/-- At 9600 baud with 26 time units to a bit, a receiver up to 3% fast or slow. -/
example : InStep 26 13 26 ∧ InStep 104 52 101 ∧ InStep 104 52 107 := by unfold InStep; decide

example : uartRx 3 6 (lineOf 6 [(2, 0x41), (0, 0xff), (7, 0)] 3).length (lineOf 6 [(2, 0x41), (0, 0xff), (7, 0)] 3) = [some 0x41, some 0xff, some 0] := by
  decide +kernel

end OTR.Props
