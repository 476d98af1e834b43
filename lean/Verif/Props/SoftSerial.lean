import Verif.Model.SoftSerial
import Verif.Spec.UART
/-! # C156–C159: the software UARTs -/

namespace OTR.Props
open OTR

/-! ## C156: reception by interrupt -/

theorem uartLine_cell {T c t k : Nat} (h1 : k * T ≤ t) (h2 : t < (k + 1) * T) : uartLine T c t = uartCell c k := by
  unfold uartLine
  congr 1
  exact Nat.div_eq_of_lt_le h1 h2

private theorem async_val : ∀ i : Fin 7, ∀ c : Fin 256,
    ((c.val % 2 ^ i.val * 2 ^ (7 - i.val) + (if c.val.testBit i.val then 128 else 0)) % 256) / 2 =
      c.val % 2 ^ (i.val + 1) * 2 ^ (6 - i.val) := by decide +kernel

private theorem async_step (i c : Nat) (hi : i < 7) (hc : c < 256) :
    ((c % 2 ^ i * 2 ^ (7 - i) + (if c.testBit i then 128 else 0)) % 256) / 2 = c % 2 ^ (i + 1) * 2 ^ (6 - i) :=
  async_val ⟨i, hi⟩ ⟨c, hc⟩

private theorem async_small : ∀ i : Fin 8, ∀ c : Fin 256, c.val % 2 ^ i.val * 2 ^ (7 - i.val) < 128 := by decide +kernel

private theorem loop000 {tm : AsyncTiming} {line : Nat → Bool} {n t val : Nat} (ha : line t = false)
    (hb : line (t + tm.q) = false) (hc : line (t + 2 * tm.q) = false) :
    asyncLoop tm line (n + 1) t val = asyncLoop tm line n (t + 2 * tm.q + tm.half) (val / 2) := by
  rw [asyncLoop, ha, hb, hc]; rfl

private theorem loop001 {tm : AsyncTiming} {line : Nat → Bool} {n t val : Nat} (ha : line t = false)
    (hb : line (t + tm.q) = false) (hc : line (t + 2 * tm.q) = true) :
    asyncLoop tm line (n + 1) t val = asyncLoop tm line n (t + 2 * tm.q + (tm.half - tm.adj)) (val / 2) := by
  rw [asyncLoop, ha, hb, hc]; rfl

private theorem loop100 {tm : AsyncTiming} {line : Nat → Bool} {n t val : Nat} (ha : line t = true)
    (hb : line (t + tm.q) = false) (hc : line (t + 2 * tm.q) = false) :
    asyncLoop tm line (n + 1) t val = asyncLoop tm line n (t + 2 * tm.q + (tm.half + tm.adj)) (val / 2) := by
  rw [asyncLoop, ha, hb, hc]; rfl

private theorem loop111 {tm : AsyncTiming} {line : Nat → Bool} {n t val : Nat} (ha : line t = true)
    (hb : line (t + tm.q) = true) (hc : line (t + 2 * tm.q) = true) :
    asyncLoop tm line (n + 1) t val = asyncLoop tm line n (t + 2 * tm.q + tm.half) ((val + 128) % 256 / 2) := by
  rw [asyncLoop, ha, hb, hc]; rfl

private theorem loop110 {tm : AsyncTiming} {line : Nat → Bool} {n t val : Nat} (ha : line t = true)
    (hb : line (t + tm.q) = true) (hc : line (t + 2 * tm.q) = false) :
    asyncLoop tm line (n + 1) t val = asyncLoop tm line n (t + 2 * tm.q + (tm.half - tm.adj)) ((val + 128) % 256 / 2) := by
  rw [asyncLoop, ha, hb, hc]; rfl

private theorem loop011 {tm : AsyncTiming} {line : Nat → Bool} {n t val : Nat} (ha : line t = false)
    (hb : line (t + tm.q) = true) (hc : line (t + 2 * tm.q) = true) :
    asyncLoop tm line (n + 1) t val = asyncLoop tm line n (t + 2 * tm.q + (tm.half + tm.adj)) ((val + 128) % 256 / 2) := by
  rw [asyncLoop, ha, hb, hc]; rfl

theorem async_loop_spec (tm : AsyncTiming) (T c x e : Nat) (hc : c < 256) (hq2 : 2 * tm.q ≤ T)
    (hadj : tm.adj + 2 * tm.q ≤ T) (hah : tm.adj ≤ tm.half) (he1 : 2 * tm.q + tm.half ≤ T + e)
    (he2 : T ≤ 2 * tm.q + tm.half + e) (hx : x + 6 * e ≤ tm.q) :
    ∀ (n i t : Nat), i + n = 7 → (i + 1) * T ≤ t + x + i * e → t + 2 * tm.q < (i + 2) * T + x + i * e →
      asyncLoop tm (uartLine T c) n t (c % 2 ^ i * 2 ^ (7 - i)) = c % 128 := by
  intro n
  induction n with
  | zero => intro i t hi _ _; have : i = 7 := by omega
            subst this; simp [asyncLoop]
  | succ n ih =>
    intro i t hi h1 h2
    have hie : i * e ≤ 6 * e := Nat.mul_le_mul_right e (by omega)
    have eT1 : (i + 1) * T = i * T + T := by rw [Nat.add_mul, Nat.one_mul]
    have eT2 : (i + 2) * T = i * T + 2 * T := by rw [Nat.add_mul]
    have eT3 : (i + 1 + 1) * T = i * T + 2 * T := by rw [Nat.add_mul, Nat.add_mul]; omega
    have eT4 : (i + 1 + 2) * T = i * T + 3 * T := by rw [Nat.add_mul, Nat.add_mul]; omega
    have eT5 : (i + 2 + 1) * T = i * T + 3 * T := by rw [Nat.add_mul, Nat.add_mul]; omega
    have ee1 : (i + 1) * e = i * e + e := by rw [Nat.add_mul, Nat.one_mul]
    -- the middle sample is in cell i+1
    have hmid : uartLine T c (t + tm.q) = uartCell c (i + 1) :=
      uartLine_cell (by omega) (by rw [eT3]; omega)
    have hbit : uartCell c (i + 1) = c.testBit i := by
      simp only [uartCell, Nat.add_one_ne_zero, if_false, Nat.add_sub_cancel]; rw [if_pos (by omega)]
    have hfst : (i + 1) * T ≤ t → uartLine T c t = c.testBit i := fun h => by
      rw [uartLine_cell (k := i + 1) h (by rw [eT3]; omega), hbit]
    have hlst : t + 2 * tm.q < (i + 2) * T → uartLine T c (t + 2 * tm.q) = c.testBit i := fun h => by
      rw [uartLine_cell (k := i + 1) (by omega) (by rw [eT3]; omega), hbit]
    rw [hbit] at hmid
    have hval := async_step i c (by omega) hc
    have hsm := async_small ⟨i, by omega⟩ ⟨c, hc⟩
    dsimp only at hsm
    have e67 : 6 - i = 7 - (i + 1) := by omega
    have hv0 : c.testBit i = false → c % 2 ^ i * 2 ^ (7 - i) / 2 = c % 2 ^ (i + 1) * 2 ^ (7 - (i + 1)) := fun hb => by
      rw [hb] at hval
      simp only [Bool.false_eq_true, if_false, Nat.add_zero] at hval
      rw [Nat.mod_eq_of_lt (by omega), e67] at hval
      exact hval
    have hv1 : c.testBit i = true → (c % 2 ^ i * 2 ^ (7 - i) + 128) % 256 / 2 = c % 2 ^ (i + 1) * 2 ^ (7 - (i + 1)) :=
      fun hb => by
      rw [hb] at hval
      simp only [if_true] at hval
      rw [e67] at hval
      exact hval
    -- at least two of the samples agree with the bit
    by_cases hA : (i + 1) * T ≤ t
    · have ha := hfst hA
      by_cases hC : t + 2 * tm.q < (i + 2) * T
      · have hl := hlst hC
        cases hb : c.testBit i <;> rw [hb] at ha hmid hl
        · rw [loop000 ha hmid hl, hv0 hb]
          exact ih (i + 1) _ (by omega) (by omega) (by omega)
        · rw [loop111 ha hmid hl, hv1 hb]
          exact ih (i + 1) _ (by omega) (by omega) (by omega)
      · -- last sample late
        cases hb : c.testBit i <;> rw [hb] at ha hmid <;> cases hl : uartLine T c (t + 2 * tm.q)
        · rw [loop000 ha hmid hl, hv0 hb]
          exact ih (i + 1) _ (by omega) (by omega) (by omega)
        · rw [loop001 ha hmid hl, hv0 hb]
          exact ih (i + 1) _ (by omega) (by omega) (by omega)
        · rw [loop110 ha hmid hl, hv1 hb]
          exact ih (i + 1) _ (by omega) (by omega) (by omega)
        · rw [loop111 ha hmid hl, hv1 hb]
          exact ih (i + 1) _ (by omega) (by omega) (by omega)
    · -- first sample early; then the last is in the cell
      have hl := hlst (by omega)
      cases hb : c.testBit i <;> rw [hb] at hl hmid <;> cases ha : uartLine T c t
      · rw [loop000 ha hmid hl, hv0 hb]
        exact ih (i + 1) _ (by omega) (by omega) (by omega)
      · rw [loop100 ha hmid hl, hv0 hb]
        exact ih (i + 1) _ (by omega) (by omega) (by omega)
      · rw [loop011 ha hmid hl, hv1 hb]
        exact ih (i + 1) _ (by omega) (by omega) (by omega)
      · rw [loop111 ha hmid hl, hv1 hb]
        exact ih (i + 1) _ (by omega) (by omega) (by omega)

/-- For every character sent with bit time `T` and every receiver whose first sample is at most `x` before the first data
bit (or whose third is at most `x` after it), whose bit period is within `e` of the sender's, with `x + 6e` at most the sample
spacing: the low seven bits of the character are received. -/
theorem C156_receives (tm : AsyncTiming) (T c x e : Nat) (hc : c < 256) (hq2 : 2 * tm.q ≤ T)
    (hadj : tm.adj + 2 * tm.q ≤ T) (hah : tm.adj ≤ tm.half) (he1 : 2 * tm.q + tm.half ≤ T + e)
    (he2 : T ≤ 2 * tm.q + tm.half + e) (hx : x + 6 * e ≤ tm.q)
    (hf1 : T ≤ tm.first + x) (hf2 : tm.first + 2 * tm.q < 2 * T + x) :
    asyncRx tm (uartLine T c) = c % 128 := by
  have := async_loop_spec tm T c x e hc hq2 hadj hah he1 he2 hx 7 0 tm.first (by omega) (by omega) (by omega)
  simpa [asyncRx, Nat.mod_one] using this

/-- At 4800 baud (52 delay turns per bit): with a sender within 2% of that, instructions adding `oQ` per sample and `oH` per
bit so that the receiver's bit is within one turn (4 cycles) of the sender's, and an interrupt entry of 10 to 40 turns, every 7-bit
character is received as sent. -/
theorem C156_4800 (T c oS oQ oH : Nat) (hc : c < 128) (hT : 51 ≤ T ∧ T ≤ 53) (hQ : oQ ≤ 6)
    (hp : 43 + 2 * oQ + oH ≤ T ∧ T ≤ 45 + 2 * oQ + oH) (hS : 10 ≤ oS ∧ oS + 2 * oQ ≤ 46) :
    asyncRx (asyncTiming 52 oS oQ oH) (uartLine T c) = c := by
  have h := C156_receives (asyncTiming 52 oS oQ oH) T c (6 + oQ) 1 (by omega) (by simp only [asyncTiming]; omega)
    (by simp only [asyncTiming]; omega) (by simp only [asyncTiming]; omega) (by simp only [asyncTiming]; omega)
    (by simp only [asyncTiming]; omega) (by simp only [asyncTiming]; omega) (by simp only [asyncTiming]; omega)
    (by simp only [asyncTiming]; omega)
  rw [h, Nat.mod_eq_of_lt hc]

/-- At 2400 baud (104 turns per bit), likewise, with the receiver's bit within three turns of the sender's. -/
theorem C156_2400 (T c oS oQ oH : Nat) (hc : c < 128) (hT : 101 ≤ T ∧ T ≤ 107) (hQ : oQ ≤ 12)
    (hp : 93 + 2 * oQ + oH ≤ T ∧ T ≤ 99 + 2 * oQ + oH) (hS : 24 ≤ oS + oQ ∧ oS + oQ ≤ 80) :
    asyncRx (asyncTiming 104 oS oQ oH) (uartLine T c) = c := by
  have h := C156_receives (asyncTiming 104 oS oQ oH) T c (7 + oQ) 3 (by omega) (by simp only [asyncTiming]; omega)
    (by simp only [asyncTiming]; omega) (by simp only [asyncTiming]; omega) (by simp only [asyncTiming]; omega)
    (by simp only [asyncTiming]; omega) (by simp only [asyncTiming]; omega) (by simp only [asyncTiming]; omega)
    (by simp only [asyncTiming]; omega)
  rw [h, Nat.mod_eq_of_lt hc]

/-- Whatever is on the line, only 7-bit values come out: a character with the top bit set is never received as sent. -/
theorem C156_seven_bits (tm : AsyncTiming) (line : Nat → Bool) : asyncRx tm line < 128 := by
  have : ∀ n t val, val < 128 → asyncLoop tm line n t val < 128 := by
    intro n
    induction n with
    | zero => intro t val h; exact h
    | succ n ih =>
      intro t val h
      rw [asyncLoop]
      split
      · exact ih _ _ (by omega)
      · exact ih _ _ (by omega)
  exact this 7 _ 0 (by omega)

example : asyncRx (asyncTiming 52 14 1 6) (uartLine 52 0x55) = 0x55 :=
  C156_4800 52 0x55 14 1 6 (by omega) (by omega) (by omega) (by omega) (by omega)
example : asyncRx (asyncTiming 52 14 1 6) (uartLine 52 0xd5) = 0x55 := by decide +kernel

/-! ## C157: the receive buffer -/

/-- What happens to the port. -/
inductive AsyncOp where
  | rx (v : Nat) | read | peek | available | write
deriving Repr, DecidableEq

/-- What the caller sees. -/
inductive AsyncOut where
  | nothing | char (v : Option Nat) | count (n : Int)
deriving Repr, DecidableEq

/-- The code, one operation (the interrupt and `write` are atomic against each other and against `read`'s accesses to
`rxBufferTail`). -/
def asyncOp (s : AsyncBuf) : AsyncOp → AsyncOut × AsyncBuf
  | .rx v => (.nothing, s.store v)
  | .read => (.char s.read.1, s.read.2)
  | .peek => (.char s.peek, s)
  | .available => (.count s.available, s)
  | .write => (.nothing, s.reset)

/-- The specification: a queue of what arrived since the last write, which takes the first 32 characters only. -/
def asyncIdeal (s : Nat × List Nat) : AsyncOp → AsyncOut × (Nat × List Nat)
  | .rx v => (.nothing, if s.1 < 32 then (s.1 + 1, s.2 ++ [v]) else s)
  | .read => (.char s.2.head?, (s.1, s.2.tail))
  | .peek => (.char s.2.head?, s)
  | .available => (.count s.2.length, s)
  | .write => (.nothing, (0, []))

/-- Outputs of a history. -/
def runOps {σ : Type} (f : σ → AsyncOp → AsyncOut × σ) : σ → List AsyncOp → List AsyncOut
  | _, [] => []
  | s, o :: os => (f s o).1 :: runOps f (f s o).2 os

private def BufRel (s : AsyncBuf) (q : Nat × List Nat) : Prop :=
  s.head ≤ s.tail ∧ s.tail ≤ 32 ∧ s.buf.length = 32 ∧ q.1 = s.tail ∧ q.2 = (s.buf.take s.tail).drop s.head

private theorem bufRel_head {s : AsyncBuf} {q : Nat × List Nat} (h : BufRel s q) :
    (if s.tail > 0 ∧ s.head < s.tail then s.buf[s.head]? else none) = q.2.head? ∧ (q.2.length : Int) = s.available := by
  obtain ⟨h1, h2, h3, h4, h5⟩ := h
  constructor
  · rw [h5, List.head?_drop]
    by_cases hlt : s.head < s.tail
    · rw [if_pos ⟨by omega, hlt⟩, List.getElem?_take, if_pos hlt]
    · rw [if_neg (by omega), List.getElem?_take, if_neg hlt]
  · rw [h5]; simp only [List.length_drop, List.length_take, AsyncBuf.available]; omega

private theorem bufRel_step {s : AsyncBuf} {q : Nat × List Nat} (h : BufRel s q) (o : AsyncOp) :
    (asyncOp s o).1 = (asyncIdeal q o).1 ∧ BufRel (asyncOp s o).2 (asyncIdeal q o).2 := by
  have hh := bufRel_head h
  obtain ⟨h1, h2, h3, h4, h5⟩ := h
  cases o with
  | rx v =>
    refine ⟨rfl, ?_⟩
    simp only [asyncOp, asyncIdeal, AsyncBuf.store]
    by_cases hlt : s.tail < 32
    · rw [if_pos hlt, if_pos (by omega)]
      refine ⟨by dsimp only; omega, by dsimp only; omega, by simp [h3], by dsimp only; omega, ?_⟩
      dsimp only
      rw [h5]
      rw [List.take_add_one, List.take_set_of_le (Nat.le_refl _), List.getElem?_set_self (by omega),
        List.drop_append_of_le_length (by simp; omega)]
      rfl
    · rw [if_neg hlt, if_neg (by omega)]
      exact ⟨h1, h2, h3, h4, h5⟩
  | read =>
    simp only [asyncOp, asyncIdeal, AsyncBuf.read]
    by_cases hlt : s.tail > 0 ∧ s.head < s.tail
    · rw [if_pos hlt] at hh ⊢
      refine ⟨by rw [hh.1], by dsimp only; omega, h2, h3, h4, ?_⟩
      dsimp only
      rw [h5, List.tail_drop]
    · rw [if_neg hlt] at hh ⊢
      refine ⟨by rw [hh.1], h1, h2, h3, h4, ?_⟩
      dsimp only
      have : q.2 = [] := by cases hq : q.2 with
        | nil => rfl
        | cons x xs => rw [hq] at hh; exact absurd hh.1 (by simp)
      rw [← h5, this]; rfl
  | peek =>
    refine ⟨?_, h1, h2, h3, h4, h5⟩
    simp only [asyncOp, asyncIdeal, AsyncBuf.peek]
    rw [hh.1]
  | available =>
    refine ⟨?_, h1, h2, h3, h4, h5⟩
    simp only [asyncOp, asyncIdeal]
    rw [hh.2]
  | write =>
    refine ⟨rfl, ?_⟩
    simp [asyncOp, asyncIdeal, AsyncBuf.reset, BufRel]

/-- For every history of arrivals, reads, peeks, counts and writes the caller sees exactly that queue. -/
theorem C157_receive_queue (ops : List AsyncOp) : runOps asyncOp {} ops = runOps asyncIdeal (0, []) ops := by
  have : ∀ (ops : List AsyncOp) s q, BufRel s q → runOps asyncOp s ops = runOps asyncIdeal q ops := by
    intro ops
    induction ops with
    | nil => intro s q _; rfl
    | cons o os ih =>
      intro s q h
      obtain ⟨h1, h2⟩ := bufRel_step h o
      rw [runOps, runOps, h1, ih _ _ h2]
  exact this ops _ _ (by simp [BufRel])

/-- Without a write in between, characters beyond the 32nd are lost even when all have been read. -/
theorem C157_stuck_until_write (v : Nat) (vs : List Nat) (hv : vs.length = 32) :
    runOps asyncIdeal (0, []) ((vs.flatMap fun x => [.rx x, .read]) ++ [.rx v, .read]) =
      (vs.flatMap fun x => [.nothing, .char (some x)]) ++ [.nothing, .char none] := by
  have : ∀ (vs : List Nat) k, k + vs.length = 32 →
      runOps asyncIdeal (k, []) ((vs.flatMap fun x => [.rx x, .read]) ++ [.rx v, .read]) =
        (vs.flatMap fun x => [AsyncOut.nothing, .char (some x)]) ++ [.nothing, .char none] := by
    intro vs
    induction vs with
    | nil => intro k hk; simp only [List.length_nil] at hk; have : k = 32 := by omega
             subst this; rfl
    | cons x xs ih =>
      intro k hk
      simp only [List.length_cons] at hk
      simp only [List.flatMap_cons, List.cons_append, List.nil_append, runOps, asyncIdeal]
      rw [if_pos (by omega)]
      simp only [List.nil_append, List.head?_cons, List.tail_cons]
      rw [ih (k + 1) (by omega)]
  exact this vs 0 (by omega)

example : runOps asyncOp {} [.rx 65, .rx 66, .read, .available, .read, .read, .rx 67, .write, .read] =
    [.nothing, .nothing, .char (some 65), .count 1, .char (some 66), .char none, .nothing, .nothing, .char none] := by decide

/-! ## C158: sending, and blocking reception -/

private theorem tx_all : ∀ c : Fin 256, txFrame c.val = (List.range 10).map (uartCell c.val) := by decide +kernel

/-- Every byte is sent as an 8N1 frame. -/
theorem C158_frame (c : Nat) (hc : c < 256) : txFrame c = (List.range 10).map (uartCell c) := tx_all ⟨c, hc⟩

private theorem sample_bits : ∀ c : Fin 256,
    (List.range 8).foldl (fun val i => val ||| ((c.val.testBit i).toNat <<< i)) 0 = c.val := by decide +kernel

/-- A byte sent with bit time `T` is read back exactly, by every reader whose first and last samples fall inside the first and
last data bits. -/
theorem C158_sampled (T c t0 p : Nat) (hc : c < 256) (h1 : T ≤ t0 + p) (h2 : t0 + p < 2 * T) (h3 : 8 * T ≤ t0 + 8 * p)
    (h4 : t0 + 8 * p < 9 * T) : sampleByte (uartLine T c) t0 p = c := by
  refine Eq.trans ?_ (sample_bits ⟨c, hc⟩)
  show sampleByte (uartLine T c) t0 p = (List.range 8).foldl (fun val i => val ||| ((c.testBit i).toNat <<< i)) 0
  unfold sampleByte
  have : ∀ i ∈ List.range 8, uartLine T c (t0 + (i + 1) * p) = c.testBit i := by
    intro i hi
    have hi8 : i < 8 := List.mem_range.mp hi
    have hcell : uartLine T c (t0 + (i + 1) * p) = uartCell c (i + 1) := by
      apply uartLine_cell
      · have : i = 0 ∨ i = 1 ∨ i = 2 ∨ i = 3 ∨ i = 4 ∨ i = 5 ∨ i = 6 ∨ i = 7 := by omega
        rcases this with rfl | rfl | rfl | rfl | rfl | rfl | rfl | rfl <;> omega
      · have : i = 0 ∨ i = 1 ∨ i = 2 ∨ i = 3 ∨ i = 4 ∨ i = 5 ∨ i = 6 ∨ i = 7 := by omega
        rcases this with rfl | rfl | rfl | rfl | rfl | rfl | rfl | rfl <;> omega
    rw [hcell]
    simp only [uartCell, Nat.add_one_ne_zero, if_false, Nat.add_sub_cancel]
    rw [if_pos (by omega)]
  generalize 0 = z
  revert this
  generalize List.range 8 = l
  intro this
  induction l generalizing z with
  | nil => rfl
  | cons i l ih =>
    rw [List.foldl_cons, List.foldl_cons, this i (by simp)]
    exact ih _ (fun j hj => this j (List.mem_cons_of_mem _ hj))

theorem pollWait_none (want : Bool) (ps : Nat → Bool) (n k : Nat) :
    pollWait want ps n k = none ↔ ∀ j, j < n → ps (k + j) ≠ want := by
  induction n generalizing k with
  | zero => simp [pollWait]
  | succ n ih =>
    rw [pollWait]
    by_cases h : ps k = want
    · rw [if_pos h]
      constructor
      · intro h; cases h
      · intro hj; exact absurd h (hj 0 (by omega))
    · rw [if_neg h]
      by_cases hn : n = 0
      · rw [if_pos hn]
        subst hn
        refine ⟨fun _ j hj => ?_, fun _ => rfl⟩
        have : j = 0 := by omega
        subst this; exact h
      · rw [if_neg hn, ih]
        constructor
        · intro hj j hjn
          cases j with
          | zero => exact h
          | succ j => have := hj j (by omega)
                      rwa [Nat.add_assoc, Nat.add_comm 1 j] at this
        · intro hj j hjn
          have := hj (j + 1) (by omega)
          rwa [Nat.add_assoc, Nat.add_comm 1 j]

/-- `read()` gives -1 exactly when no start bit is seen in 60000 polls or the line is not seen high again in 60000 polls; else
the byte sampled. -/
theorem C158_read (pre line post : Nat → Bool) (lat half p : Nat) :
    (ss2Read pre line lat half p post = none ↔ (∀ j < 60000, pre j = true) ∨ (∀ j < 60000, post j = false)) ∧
    (∀ v, ss2Read pre line lat half p post = some v → v = sampleByte line (lat + half) p) := by
  have h1 := pollWait_none false pre 60000 0
  have h2 := pollWait_none true post 60000 0
  simp only [Nat.zero_add, ne_eq, Bool.not_eq_false, Bool.not_eq_true] at h1 h2
  unfold ss2Read
  cases hp : pollWait false pre 60000 0 with
  | none => exact ⟨⟨fun _ => Or.inl (h1.mp hp), fun _ => rfl⟩, fun v h => by cases h⟩
  | some k =>
    have hn : ¬ ∀ j < 60000, pre j = true := fun h => by rw [h1.mpr h] at hp; cases hp
    dsimp only
    cases hq : pollWait true post 60000 0 with
    | none => exact ⟨⟨fun _ => Or.inr (h2.mp hq), fun _ => rfl⟩, fun v h => by cases h⟩
    | some m =>
      have hn2 : ¬ ∀ j < 60000, post j = false := fun h => by rw [h2.mpr h] at hq; cases hq
      refine ⟨⟨fun h => (by cases h), fun h => (h.elim (fun h => absurd h hn) (fun h => absurd h hn2))⟩, fun v h => ?_⟩
      exact (Option.some.inj h).symm

/-- At 9600 baud (26 turns per bit, `halfDelay` 13): with a bit of 25 to 27 turns at the sender, the reader's bit of the same length to
within one turn, and the start bit noticed within 5 turns, every byte sent is read. -/
theorem C158_9600 (pre post : Nat → Bool) (T p lat c : Nat) (hc : c < 256) (hT : 25 ≤ T ∧ T ≤ 27) (hp : p ≤ T + 1 ∧ T ≤ p + 1)
    (hlat : lat ≤ 3) (hpre : ∃ j < 60000, pre j = false) (hpost : ∃ j < 60000, post j = true) :
    ss2Read pre (uartLine T c) lat 13 p post = some c := by
  obtain ⟨h1, h2⟩ := C158_read pre (uartLine T c) post lat 13 p
  cases h : ss2Read pre (uartLine T c) lat 13 p post with
  | none =>
    exfalso
    rcases h1.mp h with hh | hh
    · obtain ⟨j, hj, hf⟩ := hpre; rw [hh j hj] at hf; cases hf
    · obtain ⟨j, hj, hf⟩ := hpost; rw [hh j hj] at hf; cases hf
  | some v =>
    rw [h2 v h, C158_sampled T c (lat + 13) p hc (by omega) (by omega) (by omega) (by omega)]

example : sampleByte (uartLine 26 0xa7) 14 26 = 0xa7 := by decide +kernel

/-! ## C159: `OTSoftSerial` -/

/-- The delays are the bit time, and half the bit time less the fixed tuning. -/
def DelaysRight (baud : Nat) : Prop :=
  (ss1Begin baud).2 = 250000 / baud ∧ (ss1Begin baud).1 + 22 = 250000 / baud / 2 ∧ ss1ReadDelay baud + 22 = 250000 / baud

/-- `begin(baud)` sets the right delays exactly for 977 to 5681 baud. -/
theorem C159_begin_partial (baud : Nat) (h0 : 4 ≤ baud) : DelaysRight baud ↔ 977 ≤ baud ∧ baud ≤ 5681 := by
  have e1 : 1000000 / 4 / baud = 250000 / baud := rfl
  have lt : 250000 / baud < 65536 := by
    rw [Nat.div_lt_iff_lt_mul (by omega)]; omega
  have a1 : 977 ≤ baud → 250000 / baud ≤ 255 := fun h => by
    have : 250000 / baud < 256 := by rw [Nat.div_lt_iff_lt_mul (by omega)]; omega
    omega
  have a2 : baud ≤ 5681 → 44 ≤ 250000 / baud := fun h => by
    rw [Nat.le_div_iff_mul_le (by omega)]; omega
  have b1 : ¬ 977 ≤ baud → 256 ≤ 250000 / baud := fun h => by
    rw [Nat.le_div_iff_mul_le (by omega)]; omega
  have b2 : ¬ baud ≤ 5681 → 250000 / baud < 44 := fun h => by
    rw [Nat.div_lt_iff_lt_mul (by omega)]; omega
  unfold DelaysRight ss1ReadDelay ss1Begin
  dsimp only
  rw [e1, Nat.mod_eq_of_lt lt]
  generalize 250000 / baud = b at *
  constructor
  · intro h
    refine Classical.byContradiction fun hn => ?_
    by_cases h1 : 977 ≤ baud
    · have := b2 (fun h2 => hn ⟨h1, h2⟩); omega
    · have := b1 h1; omega
  · intro h
    have := a1 h.1; have := a2 h.2
    omega

/-- For instance: at 9600 baud the half-bit delay is 247 turns, nearly ten bits; at 300 baud the bit delay is 65 turns instead of 833. -/
theorem C159_refuted_baud : ¬ DelaysRight 9600 ∧ (ss1Begin 9600).1 = 247 ∧ ¬ DelaysRight 300 ∧ (ss1Begin 300).2 = 65 := by
  unfold DelaysRight; decide

/-- `read(buf, len)` never stores more than `len` bytes and returns the number stored; they are the bytes received, in order; it
ends early only when the line is quiet or stuck. -/
theorem C159_read (len : Nat) (vs : List Nat) (env : List SSByte) :
    (vs.length < len → ss1ReadBuf len 0 (vs.map (.byte · true) ++ .quiet :: env) = some vs) ∧
    (∀ v, vs.length < len → ss1ReadBuf len 0 (vs.map (.byte · true) ++ .byte v false :: env) = some (vs ++ [v])) ∧
    (vs.length = len → ss1ReadBuf len 0 (vs.map (.byte · true) ++ env) = some vs) := by
  have key : ∀ (tail : List SSByte) (vs : List Nat) (k : Nat), k + vs.length ≤ len →
      ss1ReadBuf len k (vs.map (.byte · true) ++ tail) = (ss1ReadBuf len (k + vs.length) tail).map (vs ++ ·) := by
    intro tail vs
    induction vs with
    | nil => intro k _; simp
    | cons v vs ih =>
      intro k hk
      simp only [List.length_cons] at hk
      rw [List.map_cons, List.cons_append, ss1ReadBuf, if_pos (by omega)]
      simp only [if_true]
      rw [ih (k + 1) (by omega), List.length_cons, Nat.add_assoc, Nat.add_comm 1 vs.length]
      cases ss1ReadBuf len (k + (vs.length + 1)) tail <;> simp
  refine ⟨fun h => ?_, fun v h => ?_, fun h => ?_⟩
  · rw [key _ vs 0 (by omega), ss1ReadBuf, if_pos (by omega)]; simp
  · rw [key _ vs 0 (by omega), ss1ReadBuf, if_pos (by omega)]; simp
  · rw [key _ vs 0 (by omega), ss1ReadBuf.eq_def]; dsimp only; rw [if_neg (by omega)]; simp

example : ss1ReadBuf 3 0 [.byte 1 true, .byte 2 true, .quiet] = some [1, 2] := by
  exact (C159_read 3 [1, 2] []).1 (by decide)
example : DelaysRight 2400 := (C159_begin_partial 2400 (by decide)).mpr (by decide)

end OTR.Props
