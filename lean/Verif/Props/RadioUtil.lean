import Verif.Model.RadioUtil
import Verif.Props.RFM23RX
/-!
# Property C137: frame helpers of the radio link
-/

namespace OTR.Props
open OTR

theorem ffLoop_spec (b : Nat → Byte) : ∀ n len, n + len = 256 →
    (∀ k, len ≤ k → k < 256 → (b k = 0xff ∧ ∀ j, len ≤ j → j < k → b j ≠ 0xff) → ffLoop b n len = k) ∧
    ((∀ j, len ≤ j → j < 256 → b j ≠ 0xff) → ffLoop b n len = 0) := by
  intro n
  induction n with
  | zero => intro len h; exact ⟨fun k h1 h2 => by omega, fun _ => rfl⟩
  | succ n ih =>
    intro len h
    unfold ffLoop
    by_cases hb : b len = 0xff
    · rw [if_pos hb]
      refine ⟨fun k h1 h2 ⟨hk, hj⟩ => ?_, fun hj => absurd hb (hj len (by omega) (by omega))⟩
      rcases Nat.lt_or_ge len k with h3 | h3
      · exact absurd hb (hj len (by omega) h3)
      · omega
    · rw [if_neg hb]
      refine ⟨fun k h1 h2 ⟨hk, hj⟩ => ?_, fun hj => ?_⟩
      · have hne : len ≠ k := fun e => hb (e ▸ hk)
        rw [if_neg (by omega)]
        exact (ih (len + 1) (by omega)).1 k (by omega) h2 ⟨hk, fun j a c => hj j (by omega) c⟩
      · by_cases hw : (len + 1) % 256 = 0
        · rw [if_pos hw]
        · rw [if_neg hw]
          exact (ih (len + 1) (by omega)).2 (fun j a c => hj j (by omega) c)

/-- `frameLenFFTerminated` gives the position of the first 0xff if that is below 256, and 0 if there is none or no buffer. -/
theorem C137_ff_length (b : Nat → Byte) :
    (∀ k, k < 256 → b k = 0xff → (∀ j, j < k → b j ≠ 0xff) → frameLenFF (some b) = k) ∧
    ((∀ j, j < 256 → b j ≠ 0xff) → frameLenFF (some b) = 0) ∧ frameLenFF none = 0 := by
  obtain ⟨h1, h2⟩ := ffLoop_spec b 256 0 rfl
  exact ⟨fun k a c d => h1 k (by omega) a ⟨c, fun j _ e => d j e⟩, fun h => h2 fun j _ a => h j a, rfl⟩

/-- It never looks past the first 0xff, nor past index 255. -/
theorem C137_ff_bounded (b b' : Nat → Byte) (n : Nat) (hn : b n = 0xff ∨ n = 255) (h : ∀ j, j ≤ n → b j = b' j) :
    frameLenFF (some b) = frameLenFF (some b') := by
  have key : ∀ m len, m + len = 256 → len ≤ n → ffLoop b m len = ffLoop b' m len := by
    intro m
    induction m with
    | zero => intro len _ _; rfl
    | succ m ih =>
      intro len e1 e2
      unfold ffLoop
      rw [h len e2]
      by_cases hb : b' len = 0xff
      · rw [if_pos hb, if_pos hb]
      · rw [if_neg hb, if_neg hb]
        by_cases hw : (len + 1) % 256 = 0
        · rw [if_pos hw, if_pos hw]
        · rw [if_neg hw, if_neg hw]
          apply ih (len + 1) (by omega)
          rcases Nat.lt_or_ge len n with h3 | h3
          · omega
          · have : len = n := by omega
            subst this
            rcases hn with hn | hn
            · rw [h len (Nat.le_refl _)] at hn; exact absurd hn hb
            · omega
  exact key 256 0 rfl (Nat.zero_le _)

theorem tzLoop_spec (buf : Bytes) (i : Nat) (hi : 1 ≤ i) (h0 : buf.getD i 0 = 0) :
    1 ≤ tzLoop buf i ∧ tzLoop buf i ≤ i + 1 ∧ (∀ j, tzLoop buf i ≤ j + 1 → j ≤ i → buf.getD j 0 = 0) ∧
      (tzLoop buf i = 1 ∨ buf.getD (tzLoop buf i - 2) 0 ≠ 0 ∧ 2 ≤ tzLoop buf i) := by
  induction i with
  | zero => omega
  | succ i ih =>
    unfold tzLoop
    by_cases hb : buf.getD i 0 = 0
    · rw [if_pos hb]
      by_cases h1 : i = 0
      · rw [if_pos h1]
        subst h1
        refine ⟨by omega, by omega, fun j _ h => ?_, Or.inl rfl⟩
        have : j = 0 ∨ j = 1 := by omega
        rcases this with rfl | rfl
        · exact hb
        · exact h0
      · rw [if_neg h1]
        obtain ⟨a, b, c, d⟩ := ih (by omega) hb
        refine ⟨a, by omega, fun j h2 h3 => ?_, d⟩
        rcases Nat.lt_or_ge i j with h4 | h4
        · have : j = i + 1 := by omega
          subst this; exact h0
        · exact c j h2 h4
    · rw [if_neg hb]
      refine ⟨by omega, by omega, fun j h2 h3 => ?_, Or.inr ⟨?_, by omega⟩⟩
      · have : j = i + 1 := by omega
        subst this; exact h0
      · simpa using hb

/-- The trailing-zeros filter keeps every frame, never lengthens it, cuts only zero bytes, never empties it, and leaves at most
one trailing zero (so a frame that ended in zero still does). -/
theorem C137_trailing_zeros (buf : Bytes) (len : Nat) :
    let r := filterTrailingZeros buf len
    r.1 = true ∧ r.2 ≤ len ∧ (1 ≤ len → 1 ≤ r.2) ∧ (∀ j, r.2 ≤ j → j < len → buf.getD j 0 = 0) ∧
    (r.2 < len → buf.getD (r.2 - 1) 0 = 0) ∧ (2 ≤ r.2 → buf.getD (r.2 - 1) 0 = 0 → buf.getD (r.2 - 2) 0 ≠ 0) := by
  dsimp only
  unfold filterTrailingZeros
  by_cases h1 : len ≤ 1
  · rw [if_pos h1]; exact ⟨rfl, Nat.le_refl _, fun h => h, fun j a b => by dsimp only at a; omega, fun h => by dsimp only at h; omega, fun h => by dsimp only at h; omega⟩
  · rw [if_neg h1]
    by_cases h2 : buf.getD (len - 1) 0 ≠ 0
    · rw [if_pos h2]
      exact ⟨rfl, Nat.le_refl _, fun h => h, fun j a b => by dsimp only at a; omega, fun h => by dsimp only at h; omega, fun _ h => absurd h h2⟩
    · rw [if_neg h2]
      obtain ⟨a, b, c, d⟩ := tzLoop_spec buf (len - 1) (by omega) (by simpa using h2)
      refine ⟨rfl, by dsimp only; omega, fun _ => a, fun j h3 h4 => c j (by dsimp only at h3; omega) (by omega), fun h => c _ (by dsimp only; omega) (by dsimp only; omega), fun h3 _ => ?_⟩
      rcases d with d | d
      · dsimp only at h3; omega
      · exact d.1

/-- So it is a filter as C136 requires. -/
theorem C137_filter_ok (cfg : RfmCfg) (h : cfg.filter = some filterTrailingZeros) : FilterOk cfg := by
  intro f hf b n _
  rw [h] at hf
  injection hf with hf
  subst hf
  exact (C137_trailing_zeros b n).2.1

theorem rxByte_len (b : Byte) : (rxByte b).length = 2 := by
  revert b; apply forall_byte; decide +kernel

/-- The value of a printed byte. -/
def unRx (l : Bytes) : Byte :=
  match l with
  | [a, b] =>
    let h (c : Byte) : Nat := if c.toNat < 58 then c.toNat - 48 else c.toNat - 55
    if a = 32 then b else u8 (h a * 16 + h b)
  | _ => 0

theorem unRx_rxByte (b : Byte) : unRx (rxByte b) = b := by
  revert b; apply forall_byte; decide +kernel

theorem rx_inj (x : Bytes) : ∀ y : Bytes, x.flatMap rxByte ++ [13, 10] = y.flatMap rxByte ++ [13, 10] → x = y := by
  induction x with
  | nil =>
    intro y h
    cases y with
    | nil => rfl
    | cons b y =>
      have := congrArg List.length h
      have hb := rxByte_len b
      simp only [List.flatMap_nil, List.flatMap_cons, List.length_append, List.length_nil, List.length_cons] at this
      omega
  | cons a x ih =>
    intro y h
    cases y with
    | nil =>
      have := congrArg List.length h
      have hb := rxByte_len a
      simp only [List.flatMap_nil, List.flatMap_cons, List.length_append, List.length_nil, List.length_cons] at this
      omega
    | cons b y =>
      simp only [List.flatMap_cons, List.append_assoc] at h
      obtain ⟨h1, h2⟩ := List.append_inj h (by rw [rxByte_len, rxByte_len])
      rw [ih y h2, ← unRx_rxByte a, h1, unRx_rxByte]

theorem dec_len (n : Nat) (h : n < 256) : ∀ b ∈ printDec n, b ≠ 32 := by
  have : ∀ n : Fin 256, ∀ b ∈ printDec n.val, b ≠ 32 := by decide +kernel
  exact this ⟨n, h⟩

theorem split_at (a b c d : Bytes) (ha : ∀ x ∈ a, x ≠ 32) (hc : ∀ x ∈ c, x ≠ 32) (h : a ++ 32 :: b = c ++ 32 :: d) : a = c ∧ b = d := by
  induction a generalizing c with
  | nil =>
    cases c with
    | nil => exact ⟨rfl, by simpa using h⟩
    | cons x c =>
      simp only [List.nil_append, List.cons_append, List.cons.injEq] at h
      exact absurd h.1.symm (hc x (by simp))
  | cons x a ih =>
    cases c with
    | nil =>
      simp only [List.nil_append, List.cons_append, List.cons.injEq] at h
      exact absurd h.1 (ha x (by simp))
    | cons y c =>
      simp only [List.cons_append, List.cons.injEq] at h
      obtain ⟨e1, e2⟩ := ih c (fun z hz => ha z (by simp [hz])) (fun z hz => hc z (by simp [hz])) h.2
      exact ⟨by rw [h.1, e1], e2⟩

/-- A frame printed for logging can be recovered: different frames (of up to 255 bytes) print differently. -/
theorem C137_printed_unique (x y : Bytes) (hx : x.length < 256) (hy : y.length < 256) (h : printRXMsg x = printRXMsg y) : x = y := by
  unfold printRXMsg at h
  simp only [List.singleton_append, List.cons_append, List.append_assoc, List.cons.injEq, true_and] at h
  obtain ⟨_, h2⟩ := split_at _ _ _ _ (dec_len _ hx) (dec_len _ hy) h
  exact rx_inj x y h2

example : frameLenFF (some fun n => if n = 3 then 0xff else 1) = 3 := by decide +kernel
example : filterTrailingZeros [1, 2, 0, 0, 0] 5 = (true, 3) ∧ filterTrailingZeros [0, 0, 0] 3 = (true, 1) := by decide +kernel
example : printRXMsg [1, 65, 200, 30] = ascii "|4 01 AC81E\r\n" := by decide +kernel

end OTR.Props
