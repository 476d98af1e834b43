import Verif.Model.SoftSerial1
import Verif.Props.SerialText
import Verif.Props.JSONStats
/-! # C240: the sub-cycle time on the EFR32; C241: text and single bytes over the basic software serial port -/

namespace OTR.Props
open OTR OTR.Spec

/-! ## C240 -/

/-- **C240** The emulated sub-cycle time counts the interrupts modulo 256, whatever the width of the variable. -/
theorem C240_counts (w : Nat) (hw : 8 ≤ w) (n : Nat) : subAfter w n = n % 256 := by
  have h256 : 256 ≤ 2 ^ w := by
    have := Nat.pow_le_pow_right (n := 2) (by omega) hw
    omega
  induction n with
  | zero => rfl
  | succ n ih =>
    rw [subAfter, tickSub, ih]
    by_cases h : w = 8
    · subst h
      have : (2 : Nat) ^ 8 = 256 := by decide
      rw [this, if_neg (by omega)]; omega
    · have h512 : 512 ≤ 2 ^ w := by
        have := Nat.pow_le_pow_right (n := 2) (by omega) (show 9 ≤ w by omega)
        omega
      rw [Nat.mod_eq_of_lt (a := n % 256 + 1) (by omega)]
      by_cases hh : n % 256 + 1 = 256
      · rw [if_pos hh]; omega
      · rw [if_neg hh]; omega

/-- **C240, refuted.** The cycle of 256 interrupts does not take the two seconds it is documented to take: at every core frequency (below 613 MHz, so that nothing overflows) it is over 10% short. -/
theorem C240_refuted_two_seconds (f : Nat) (h0 : 0 < f) (h : f ≤ 613566756) : 10 * (256 * sysTicks f) < 9 * (2 * f) := by
  unfold sysTicks
  rw [show 2000 / 256 = 7 by decide, Nat.mod_eq_of_lt (by omega)]
  omega

/-- At the 19 MHz of the part's default oscillator: 133000 clocks (7 ms) an interrupt, 1.792 s a cycle. -/
example : sysTicks 19000000 = 133000 ∧ 256 * sysTicks 19000000 * 1000 = 1792 * 19000000 ∧ subAfter 32 256 = 0 ∧ subAfter 32 255 = 255 := by
  refine ⟨by decide, by decide, ?_, ?_⟩ <;> rw [C240_counts _ (by omega)]

/-! ## C241 -/

/-- **C241** A byte sent with bit time `T` is received exactly, whenever the start bit is seen within 30000 looks, the line is seen high again within 30000 looks, and the first and last data bits are looked
at while they last. -/
theorem C241_byte (T c lat half p : Nat) (pre post : Nat → Bool) (hc : c < 256) (h1 : T ≤ lat + half + p) (h2 : lat + half + p < 2 * T)
    (h3 : 8 * T ≤ lat + half + 8 * p) (h4 : lat + half + 8 * p < 9 * T) (hpre : ∃ j < 30000, pre j = false) (hpost : ∃ j < 30000, post j = true) :
    ss1Read pre (uartLine T c) lat half p post = c := by
  unfold ss1Read
  cases hp : pollWait false pre 30000 0 with
  | none =>
    obtain ⟨j, hj, hf⟩ := hpre
    have := (pollWait_none false pre 30000 0).1 hp j hj
    rw [Nat.zero_add] at this
    exact absurd hf this
  | some k =>
    cases hq : pollWait true post 30000 0 with
    | none =>
      obtain ⟨j, hj, hf⟩ := hpost
      have := (pollWait_none true post 30000 0).1 hq j hj
      rw [Nat.zero_add] at this
      exact absurd hf this
    | some m => exact C158_sampled T c (lat + half) p hc h1 h2 h3 h4

/-- **C241, refuted.** The value does not say whether anything was received: silence, a byte whose stop bit never comes, and a received NUL all read as 0. -/
theorem C241_refuted_zero (pre line post : Nat → Bool) (lat half p : Nat) :
    ((∀ j < 30000, pre j = true) → ss1Read pre line lat half p post = 0) ∧ ((∀ j < 30000, post j = false) → ss1Read pre line lat half p post = 0) ∧
    ss1Read (fun _ => false) (uartLine 104 0) 0 52 104 (fun _ => true) = 0 := by
  have hn : ∀ (w : Bool) (ps : Nat → Bool), (∀ j < 30000, ps j = !w) → pollWait w ps 30000 0 = none := by
    intro w ps hh
    refine (pollWait_none w ps 30000 0).2 fun j hj => ?_
    rw [Nat.zero_add, hh j hj]
    cases w <;> simp
  refine ⟨fun h => ?_, fun h => ?_, ?_⟩
  · unfold ss1Read
    rw [hn false pre h]
  · unfold ss1Read
    rw [hn true post h]
    cases pollWait false pre 30000 0 <;> rfl
  · exact C241_byte 104 0 0 52 104 _ _ (by omega) (by omega) (by omega) (by omega) (by omega) ⟨0, by omega, rfl⟩ ⟨0, by omega, rfl⟩

theorem ss1Print_eq (s t : Bytes) (hs : ∀ b ∈ s, b ≠ 0) (i : Nat) (hi : i < 256) : ss1Print (s ++ 0 :: t) i = some (s, (i + s.length) % 256) := by
  induction s generalizing i with
  | nil => simp [ss1Print]; omega
  | cons b s ih =>
    rw [List.cons_append, ss1Print, if_neg (hs b (List.mem_cons_self ..)), ih (fun x hx => hs x (List.mem_cons_of_mem _ hx)) _ (by omega)]
    simp only [Option.map_some, List.length_cons, Option.some.injEq, Prod.mk.injEq, true_and]
    omega

/-- **C241** Printing a string writes exactly the characters before its NUL, and a receiver in step receives exactly them, whatever the pauses between them; the number returned is their number modulo 256. -/
theorem C241_print (T h p : Nat) (s : InStep T h p) (text rest : Bytes) (ht : ∀ b ∈ text, b ≠ 0) (gap : Nat → Nat) (tail : Nat) :
    ∃ out, ss1Print (text ++ 0 :: rest) 0 = some (out, text.length % 256) ∧
      let line := lineOf T (out.zipIdx.map fun x => (gap x.2, x.1)) tail
      uartRx h p line.length line = text.map fun b => some b.toNat := by
  refine ⟨text, by rw [ss1Print_eq text rest ht 0 (by omega), Nat.zero_add], ?_⟩
  dsimp only
  rw [C230_received T h p s, List.map_map]
  conv => rhs; rw [← List.zipIdx_map_fst 0 text]
  rw [List.map_map]
  rfl

/-- **C241** Writing `n` bytes of a buffer that has them writes exactly those. -/
theorem C241_write (buf : Bytes) (n : Nat) (h : n ≤ buf.length) : ss1Write buf n = some (buf.take n) := by
  induction buf generalizing n with
  | nil => have : n = 0 := by simpa using h
           subst this; rfl
  | cons b t ih =>
    cases n with
    | zero => rfl
    | succ n => rw [ss1Write, ih n (by simpa using h)]; rfl

/-- **C241** Every number of the argument's type is printed in decimal, within the buffer: read as decimal text, what is written is the number. -/
theorem C241_number (n : Int) (h1 : -128 ≤ n) (h2 : n ≤ 127) :
    ∃ out, ss1PrintNum n = some (out, out.length) ∧ out.length ≤ 4 ∧ readInt (out ++ [13]) = some (n, [13]) := by
  have all : ∀ k : Fin 256, (decInt ((k.val : Int) - 128)).length ≤ 4 ∧ ∀ b ∈ decInt ((k.val : Int) - 128), b ≠ 0 := by decide +kernel
  have hk : (((n + 128).toNat : Nat) : Int) - 128 = n := by omega
  obtain ⟨a1, a2⟩ := all ⟨(n + 128).toNat, by omega⟩
  simp only at a1 a2
  rw [hk] at a1 a2
  refine ⟨decInt n, ?_, a1, readInt_dec n 13 [] (by decide)⟩
  unfold ss1PrintNum
  rw [if_pos (by omega)]
  obtain ⟨m, hm⟩ : ∃ m, 5 - (decInt n).length = m + 1 := ⟨4 - (decInt n).length, by omega⟩
  rw [hm, List.replicate_succ, ss1Print_eq _ _ a2 0 (by omega), Nat.zero_add, Nat.mod_eq_of_lt (by omega)]

/-- Non-vacuity: "-128" with its NUL just fits; 2400 baud with 104 time units to a bit. -/
example : ss1PrintNum (-128) = some (ascii "-128", 4) ∧ ss1Print (ascii "AT" ++ [0]) 0 = some (ascii "AT", 2) ∧ InStep 104 52 104 := by
  refine ⟨by decide +kernel, by decide +kernel, by unfold InStep; decide⟩

end OTR.Props
