import Verif.Proof.FHT8V

/-!
# C57–C60, C90: the FHT8V codec
-/

namespace OTR.Props
open OTR.FHT8V OTR.FS20

/-- The six bytes an FHT8V message carries, in order, the last being 12 plus the sum of the others modulo 256. -/
def fhtBytes (m : Msg) : Bytes :=
  [m.hc1, m.hc2, m.address, m.command, m.extension,
   UInt8.ofNat ((12 + m.hc1.toNat + m.hc2.toNat + m.address.toNat + m.command.toNat + m.extension.toNat) % 256)]

theorem fhtBytes_eq (m : Msg) : msgBytes m = fhtBytes m := by
  simp only [msgBytes, fhtBytes, List.cons.injEq, true_and, and_true]
  apply UInt8.toNat.inj
  simp only [checksum, UInt8.toNat_add, UInt8.toNat_ofNat']
  have : (12 : UInt8).toNat = 12 := rfl
  omega

/-- **C57.** What is put on the air: the pair encoding of twelve 0s, a 1, the six bytes with parity, a 0 and two more 0s,
with at most the last three pairs replaced by the terminator. -/
theorem C57_encoder_exact (m : Msg) :
    ∃ cut : List Pair, cut.length < 4 ∧
      pairs (createBody m) ++ cut = encBits (msgBits 12 (fhtBytes m) ++ [false, false]) ∧
      createStream m = createBody m ++ [0xff] := by
  obtain ⟨rem, h1, h2⟩ := createBody_pairs m
  rw [fhtBytes_eq] at h2
  exact ⟨rem, h1, h2, rfl⟩

/-- **C57.** The decoder accepts exactly the buffers that begin with a well-formed message (any number of leading 0s),
and returns that message and the index of the next full byte. -/
theorem C57_decoder_exact (buf : Bytes) (m : Msg) (r : Nat) :
    decodeStream buf = .ok (m, r) ↔
    ∃ k rest, pairs buf = encBits (msgBits k (fhtBytes m)) ++ rest ∧
      r = (encBits (msgBits k (fhtBytes m))).length / 4 + 1 := by
  rw [decode_ok_iff]
  constructor
  · rintro ⟨k, p, h, rfl⟩
    obtain ⟨⟨t, e⟩, rfl⟩ := (ReadsTo_iff _ _ _ _).1 h
    rw [fhtBytes_eq] at e ⊢
    refine ⟨k, t, by simpa using e, by simp⟩
  · rintro ⟨k, t, e, rfl⟩
    rw [← fhtBytes_eq] at e ⊢
    exact ⟨k, _, (ReadsTo_iff _ _ _ _).2 ⟨⟨t, by simpa using e⟩, rfl⟩, by simp⟩

theorem body_shape (m : Msg) : ∃ u, u.length < 4 ∧ pairs (createBody m) = encBits (msgBits 12 (fhtBytes m)) ++ 3 :: u := by
  obtain ⟨rem, h1, h2⟩ := createBody_pairs m
  rw [fhtBytes_eq, encBits_append] at h2
  have e4 : encBits [false, false] = [3, 0, 3, 0] := by decide
  rw [e4] at h2
  generalize pairs (createBody m) = P at *
  generalize encBits (msgBits 12 (fhtBytes m)) = Q at *
  rcases List.append_eq_append_iff.1 h2 with ⟨a, ha, hb⟩ | ⟨a, ha, hb⟩
  · -- Q = P ++ a would leave a short remainder
    have := congrArg List.length hb
    simp at this; omega
  · subst ha
    match a, hb with
    | [], hb => simp at hb; subst hb; simp at h1
    | x :: u, hb =>
      simp only [List.cons_append, List.cons.injEq] at hb
      obtain ⟨rfl, hb⟩ := hb
      refine ⟨u, ?_, rfl⟩
      have := congrArg List.length hb
      simp at this; omega

/-- **C57.** Round trip: the stream made for any command decodes to that command, whatever follows it (the terminator,
a trailer, or nothing), and decoding stops exactly where the terminator was written. -/
theorem C57_round_trip (m : Msg) (tail : Bytes) :
    decodeStream (createBody m ++ tail) = .ok (m, (createBody m).length) := by
  rw [C57_decoder_exact]
  obtain ⟨u, hu, e⟩ := body_shape m
  refine ⟨12, 3 :: u ++ pairs tail, ?_, ?_⟩
  · rw [pairs_append, e, List.append_assoc]
  · have hl := pairs_length (createBody m)
    rw [e, List.length_append, List.length_cons] at hl
    omega

/-- Non-trivial instance: a real valve-set command. -/
example : decodeStream (createStream ⟨13, 73, 0, 0x26, 0x3f⟩ ++ [1, 2, 3]) = .ok (⟨13, 73, 0, 0x26, 0x3f⟩, 41) := by
  have h := C57_round_trip ⟨13, 73, 0, 0x26, 0x3f⟩ [0xff, 1, 2, 3]
  have e : (createBody ⟨13, 73, 0, 0x26, 0x3f⟩).length = 41 := by decide +kernel
  rw [e] at h
  simpa [createStream] using h

/-! ### C58 -/

theorem enc_no33 (bs : List Bool) (l r : List Pair) : encBits bs ≠ l ++ 3 :: 3 :: r := by
  induction bs generalizing l with
  | nil => simp [encBits]
  | cons b bs ih =>
    have e : encBits (b :: bs) = encBit b ++ encBits bs := by simp [encBits]
    rw [e]
    have hd : ∀ x y, encBits bs = x :: y → x = 3 := by
      intro x y h
      cases bs with
      | nil => simp [encBits] at h
      | cons c cs => cases c <;> simp [encBits, encBit] at h <;> exact h.1.symm
    intro h
    cases b
    · match l, h with
      | [], h => simp [encBit] at h
      | [a], h => simp [encBit] at h
      | a :: c :: l, h =>
        simp [encBit] at h
        exact ih l h.2.2
    · match l, h with
      | [], h => simp [encBit] at h
      | [a], h => simp [encBit] at h
      | [a, c], h => simp [encBit] at h
      | a :: c :: d :: l, h =>
        simp [encBit] at h
        exact ih l h.2.2.2

/-- **C58.** The terminator value 0xff never occurs inside the stream. -/
theorem C58_no_terminator_inside (m : Msg) : (0xff : Byte) ∉ createBody m := by
  intro h
  obtain ⟨s, t, e⟩ := List.append_of_mem h
  obtain ⟨rem, -, h2, -⟩ := C57_encoder_exact m
  rw [e, pairs_append, pairs_cons] at h2
  have e4 : pairsOfByte 0xff = [3, 3, 3, 3] := by decide
  rw [e4] at h2
  exact enc_no33 _ (pairs s) (3 :: 3 :: (pairs t ++ rem)) (by rw [← h2]; simp)

theorem byteBits_len : ∀ b : Byte, 18 ≤ (encBits (byteBits b)).length ∧ (encBits (byteBits b)).length ≤ 26 := by
  apply forall_byte; decide +kernel

theorem body_len (m : Msg) : (createBody m).length = 6 +
    ((encBits (byteBits m.hc1)).length + (encBits (byteBits m.hc2)).length + (encBits (byteBits m.address)).length +
     (encBits (byteBits m.command)).length + (encBits (byteBits m.extension)).length +
     (encBits (byteBits (checksum m))).length + 9) / 4 := by
  obtain ⟨rem, h1, h2⟩ := createBody_pairs m
  have hl := congrArg List.length h2
  have e : msgBits 12 (msgBytes m) ++ [false, false] = List.replicate 12 false ++ [true] ++ byteBits m.hc1 ++ byteBits m.hc2 ++
      byteBits m.address ++ byteBits m.command ++ byteBits m.extension ++ byteBits (checksum m) ++ [false, false, false] := by
    simp [msgBits, msgBytes, List.append_assoc]
  have e1 : (encBits (List.replicate 12 false)).length = 24 := by decide
  have e2 : (encBits [true]).length = 3 := by decide
  have e3 : (encBits [false, false, false]).length = 6 := by decide
  rw [e] at hl
  simp only [encBits_append, List.length_append, pairs_length, e1, e2, e3] at hl
  omega

/-- **C58.** Size: in the default build (no address byte: it is sent as 0) the stream is 35 to 45 bytes,
so with its terminator it fits the documented 46-byte buffer. -/
theorem C58_fits_partial (m : Msg) (ha : m.address = 0) :
    35 ≤ (createBody m).length ∧ (createBody m).length ≤ 45 ∧ (createStream m).length ≤ 46 := by
  have h := body_len m
  have h1 := byteBits_len m.hc1
  have h2 := byteBits_len m.hc2
  have h4 := byteBits_len m.command
  have h5 := byteBits_len m.extension
  have h6 := byteBits_len (checksum m)
  have h3 : (encBits (byteBits m.address)).length = 18 := by rw [ha]; decide
  have : (createStream m).length = (createBody m).length + 1 := by simp [createStream]
  omega

example : (createBody ⟨0, 0, 0, 0, 0⟩).length = 35 ∧ (createBody ⟨0xf7, 0xfe, 0, 0xff, 0xff⟩).length = 45 := by decide +kernel

/-- **C58 (refuted for builds with an address byte).** With `OTV0P2BASE_FHT8V_ADR_USED` there is a command whose stream
needs 48 bytes: two more than `MIN_FHT8V_200US_BIT_STREAM_BUF_SIZE`. -/
theorem C58_refuted_with_address :
    (createStream ⟨0xff, 0xff, 0xff, 0xff, 0xf7⟩).length = 48 := by decide +kernel

/-- **C58.** Whatever the build, 48 bytes are enough. -/
theorem C58_fits_48 (m : Msg) : (createStream m).length ≤ 48 := by
  have h := body_len m
  have h1 := byteBits_len m.hc1
  have h2 := byteBits_len m.hc2
  have h3 := byteBits_len m.address
  have h4 := byteBits_len m.command
  have h5 := byteBits_len m.extension
  have h6 := byteBits_len (checksum m)
  have : (createStream m).length = (createBody m).length + 1 := by simp [createStream]
  omega

/-! ### C59 -/

/-- **C59.** On any bytes whatever the decoder terminates and reads nothing outside the buffer given:
it either rejects or returns a message. -/
theorem C59_decoder_safe (buf : Bytes) : decodeStream buf = .fail ∨ ∃ m r, decodeStream buf = .ok (m, r) := by
  have h := decode_never_ub buf
  cases e : decodeStream buf with
  | ub => exact absurd e h
  | fail => exact Or.inl rfl
  | ok a => exact Or.inr ⟨a.1, a.2, rfl⟩

/-- The model does distinguish such reads: a read past the end is undefined behaviour. -/
example : rd (α := Nat) [1, 2] 2 (fun _ => .ok 0) = .ub := by decide

/-! ### C60 -/

/-- **C60.** Percent scaling: end points, strict monotonicity, exact round trip, and within 5/255 of the true ratio. -/
theorem C60_percent_scale :
    percentTo255 0 = 0 ∧ percentTo255 100 = 255 ∧ (∀ p, 100 ≤ p → percentTo255 p = 255) ∧
    (∀ p q, p < q → q ≤ 100 → percentTo255 p < percentTo255 q) ∧
    (∀ p, p ≤ 100 → percentFrom255 (percentTo255 p) = p) ∧
    (∀ p, p ≤ 100 → 100 * percentTo255 p ≤ 255 * p + 500 ∧ 255 * p ≤ 100 * percentTo255 p + 500) := by
  refine ⟨by decide, by decide, ?_, ?_, ?_, ?_⟩
  · intro p h; unfold percentTo255; rw [if_pos h]
  · have : ∀ q, q < 101 → ∀ p, p < q → percentTo255 p < percentTo255 q := by decide +kernel
    intro p q h1 h2; exact this q (by omega) p h1
  · have : ∀ p, p < 101 → percentFrom255 (percentTo255 p) = p := by decide +kernel
    intro p h; exact this p (by omega)
  · have : ∀ p, p < 101 → 100 * percentTo255 p ≤ 255 * p + 500 ∧ 255 * p ≤ 100 * percentTo255 p + 500 := by decide +kernel
    intro p h; exact this p (by omega)

/-- **C60.** Scale back to percent: always a percentage, monotonic, 0 and 100 exactly at the ends. -/
theorem C60_percent_back :
    (∀ s, s ≤ 255 → percentFrom255 s ≤ 100) ∧ (∀ s t, s ≤ t → t ≤ 255 → percentFrom255 s ≤ percentFrom255 t) ∧
    (∀ s, s ≤ 255 → (percentFrom255 s = 0 ↔ s = 0)) ∧ percentFrom255 255 = 100 := by
  refine ⟨?_, ?_, ?_, by decide⟩
  · have : ∀ s, s < 256 → percentFrom255 s ≤ 100 := by decide +kernel
    intro s h; exact this s (by omega)
  · intro s t h1 h2
    unfold percentFrom255
    by_cases hs : s = 0
    · rw [if_pos hs]; omega
    · rw [if_neg hs, if_neg (show t ≠ 0 by omega)]
      have hm : ∀ x, x < 255 → ((x * 100 + 199) / 256) % 256 = (x * 100 + 199) / 256 ∧ (x * 100 + 199) / 256 ≤ 100 := by
        intro x hx
        have : (x * 100 + 199) / 256 ≤ 100 := by omega
        exact ⟨Nat.mod_eq_of_lt (by omega), this⟩
      by_cases ht : t = 255
      · rw [if_pos ht]
        by_cases hs' : s = 255
        · rw [if_pos hs']; omega
        · rw [if_neg hs', (hm s (by omega)).1]; exact (hm s (by omega)).2
      · rw [if_neg ht, if_neg (show s ≠ 255 by omega), (hm s (by omega)).1, (hm t (by omega)).1]
        omega
  · have : ∀ s, s < 256 → (percentFrom255 s = 0 ↔ s = 0) := by decide +kernel
    intro s h; exact this s (by omega)

/-! ### C90: corruption -/

theorem rep_true_inj (a b : Nat) (x y : List Bool)
    (h : List.replicate a false ++ true :: x = List.replicate b false ++ true :: y) : a = b ∧ x = y := by
  induction a generalizing b with
  | zero =>
    cases b with
    | zero => simpa using h
    | succ b => simp [List.replicate_succ] at h
  | succ a ih =>
    cases b with
    | zero => simp [List.replicate_succ] at h
    | succ b =>
      simp only [List.replicate_succ, List.cons_append, List.cons.injEq, true_and] at h
      obtain ⟨rfl, rfl⟩ := ih b h
      exact ⟨rfl, rfl⟩

theorem flat_len (l : Bytes) : (l.flatMap byteBits).length = 9 * l.length := by
  induction l with
  | nil => rfl
  | cons y ys ih =>
    rw [List.flatMap_cons, List.length_append, ih]
    have : (byteBits y).length = 9 := rfl
    rw [this, List.length_cons]; omega

theorem first_diff : ∀ B B' : List Bool, (∃ t, B' = B ++ t) ∨ (∃ t, B = B' ++ t) ∨
    ∃ C b D D', B = C ++ b :: D ∧ B' = C ++ (!b) :: D' := by
  intro B
  induction B with
  | nil => intro B'; left; exact ⟨B', rfl⟩
  | cons x xs ih =>
    intro B'
    cases B' with
    | nil => right; left; exact ⟨x :: xs, rfl⟩
    | cons y ys =>
      by_cases hxy : x = y
      · subst hxy
        rcases ih ys with ⟨t, rfl⟩ | ⟨t, rfl⟩ | ⟨C, b, D, D', rfl, rfl⟩
        · left; exact ⟨t, rfl⟩
        · right; left; exact ⟨t, rfl⟩
        · right; right; exact ⟨x :: C, b, D, D', rfl, rfl⟩
      · right; right
        refine ⟨[], x, xs, ys, rfl, ?_⟩
        have : y = !x := by revert hxy; cases x <;> cases y <;> simp
        rw [this]; rfl

theorem two_diffs (C : List Bool) (b : Bool) (U V : List Pair) (X Y : List Pair)
    (hx : X = encBits C ++ (encBit b ++ 3 :: U)) (hy : Y = encBits C ++ (encBit (!b) ++ 3 :: V)) :
    ∃ n, X[n]? ≠ Y[n]? ∧ X[n + 1]? ≠ Y[n + 1]? := by
  subst hx hy
  have g : ∀ (Z : List Pair) k, (encBits C ++ Z)[(encBits C).length + k]? = Z[k]? := by
    intro Z k
    rw [List.getElem?_append_right (by omega)]
    congr 1; omega
  refine ⟨(encBits C).length + 1, ?_, ?_⟩
  · rw [g, g]; cases b <;> simp [encBit]
  · rw [Nat.add_assoc, g, g]; cases b <;> simp [encBit]

theorem enc_head (D : List Bool) (T : List Pair) (h : D ≠ []) : ∃ V, encBits D ++ T = 3 :: V := by
  cases D with
  | nil => exact absurd rfl h
  | cons c cs => cases c <;> simp [encBits, encBit]

/-- **C90.** Corrupt any one bit pair (hence any one bit) of a transmitted message: the decoder rejects it.
`i` ranges over the pairs of the message proper (twelve 0s to the first trailing 0). -/
theorem C90_corrupt_pair_rejected (m : Msg) (tail buf' : Bytes) (i : Nat)
    (hi : i < (encBits (msgBits 12 (fhtBytes m))).length)
    (hdiff : ∀ j, (pairs buf')[j]? = (pairs (createBody m ++ tail))[j]? ↔ j ≠ i) :
    decodeStream buf' = .fail := by
  rcases C59_decoder_safe buf' with h | ⟨m', r, h⟩
  · exact h
  exfalso
  obtain ⟨k, rest, e, -⟩ := (C57_decoder_exact _ _ _).1 h
  obtain ⟨u, -, ex⟩ := body_shape m
  have ex' : pairs (createBody m ++ tail) = encBits (msgBits 12 (fhtBytes m)) ++ 3 :: (u ++ pairs tail) := by
    rw [pairs_append, ex]; simp
  rw [ex', e] at hdiff
  have noTwo : ¬ ∃ n, (encBits (msgBits 12 (fhtBytes m)) ++ 3 :: (u ++ pairs tail))[n]? ≠ (encBits (msgBits k (fhtBytes m')) ++ rest)[n]? ∧
      (encBits (msgBits 12 (fhtBytes m)) ++ 3 :: (u ++ pairs tail))[n + 1]? ≠ (encBits (msgBits k (fhtBytes m')) ++ rest)[n + 1]? := by
    rintro ⟨n, h1, h2⟩
    have a : n = i := Classical.byContradiction fun hn => h1 ((hdiff n).2 hn).symm
    have b : n + 1 = i := Classical.byContradiction fun hn => h2 ((hdiff (n + 1)).2 hn).symm
    omega
  have shape : ∀ k (x : Bytes), msgBits k x = List.replicate k false ++ true :: (x.flatMap byteBits ++ [false]) := by
    intro k x; simp [msgBits]
  have same : ∀ t, msgBits k (fhtBytes m') = msgBits 12 (fhtBytes m) ++ t → t = [] := by
    intro t ht
    rw [shape, shape] at ht
    have := (rep_true_inj k 12 (x := (fhtBytes m').flatMap byteBits ++ [false])
      (y := (fhtBytes m).flatMap byteBits ++ [false] ++ t) (by rw [ht]; simp)).2
    have := congrArg List.length this
    simp only [List.length_append, flat_len, fhtBytes, List.length_cons, List.length_nil] at this
    exact List.length_eq_zero_iff.1 (by omega)
  have same' : ∀ t, msgBits 12 (fhtBytes m) = msgBits k (fhtBytes m') ++ t → t = [] := by
    intro t ht
    rw [shape, shape] at ht
    have := (rep_true_inj 12 k (x := (fhtBytes m).flatMap byteBits ++ [false])
      (y := (fhtBytes m').flatMap byteBits ++ [false] ++ t) (by rw [ht]; simp)).2
    have := congrArg List.length this
    simp only [List.length_append, flat_len, fhtBytes, List.length_cons, List.length_nil] at this
    exact List.length_eq_zero_iff.1 (by omega)
  have eqCase : msgBits k (fhtBytes m') = msgBits 12 (fhtBytes m) → False := by
    intro he
    have := (hdiff i).1 ?_
    · exact this rfl
    · rw [he, List.getElem?_append_left hi, List.getElem?_append_left hi]
  rcases first_diff (msgBits 12 (fhtBytes m)) (msgBits k (fhtBytes m')) with ⟨t, ht⟩ | ⟨t, ht⟩ | ⟨C, b, D, D', h1, h2⟩
  · have := same t ht; subst this; exact eqCase (by simpa using ht)
  · have := same' t ht; subst this; exact eqCase (by simpa using ht.symm)
  · have cons_enc : ∀ c (E : List Bool), encBits (C ++ c :: E) = encBits C ++ (encBit c ++ encBits E) := by
      intro c E; simp [encBits]
    obtain ⟨U, hU⟩ : ∃ U, encBits D ++ 3 :: (u ++ pairs tail) = 3 :: U := by
      cases D with
      | nil => exact ⟨_, rfl⟩
      | cons c cs => exact enc_head _ _ (by simp)
    have eX : encBits (msgBits 12 (fhtBytes m)) ++ 3 :: (u ++ pairs tail) = encBits C ++ (encBit b ++ 3 :: U) := by
      rw [h1, cons_enc, ← hU]; simp
    by_cases hD : D' = []
    · subst hD
      -- the differing bit is the last of the decoded message, a 0
      have hlast : (!b) = false := by
        have e0 : msgBits k (fhtBytes m') = (List.replicate k false ++ true :: (fhtBytes m').flatMap byteBits) ++ [false] := by
          rw [shape]; simp
        have := congrArg List.getLast? (e0.symm.trans h2)
        rw [List.getLast?_concat, List.getLast?_concat] at this
        exact (Option.some.inj this).symm
      have hb : b = true := by simpa using hlast
      subst hb
      have e2 : msgBits k (fhtBytes m') = C ++ [false] := by rw [h2]; rfl
      have hC : C = List.replicate k false ++ true :: (fhtBytes m').flatMap byteBits := by
        have : C ++ [false] = (List.replicate k false ++ true :: (fhtBytes m').flatMap byteBits) ++ [false] := by
          rw [← e2, shape]; simp
        exact List.append_cancel_right this
      rw [shape, hC] at h1
      have h1' := rep_true_inj 12 k (x := (fhtBytes m).flatMap byteBits ++ [false])
        (y := (fhtBytes m').flatMap byteBits ++ true :: D) (by rw [h1]; simp)
      have hl : ((fhtBytes m).flatMap byteBits).length = ((fhtBytes m').flatMap byteBits).length := by
        rw [flat_len, flat_len]; rfl
      have := (List.append_inj h1'.2 hl).2
      simp at this
    · obtain ⟨V, hV⟩ := enc_head D' rest hD
      have eY : encBits (msgBits k (fhtBytes m')) ++ rest = encBits C ++ (encBit (!b) ++ 3 :: V) := by
        rw [h2, cons_enc, ← hV]; simp
      exact noTwo (two_diffs C b U V _ _ eX eY)

/-- **C90, in terms of bits.** Flip any one bit of any byte of the stream but the last: rejected. -/
theorem C90_flipped_bit_rejected (m : Msg) (tail : Bytes) (i k : Nat) (hk : k < 8) (hi : i + 1 < (createBody m).length) :
    decodeStream ((createBody m ++ tail).set i (((createBody m ++ tail).getD i 0) ^^^ UInt8.ofNat (2 ^ k))) = .fail := by
  have hlen : i < (createBody m ++ tail).length := by simp; omega
  obtain ⟨b, hb⟩ : ∃ b, (createBody m ++ tail).getD i 0 = b := ⟨_, rfl⟩
  have hb' : (createBody m ++ tail)[i]? = some b := by
    rw [List.getElem?_eq_getElem hlen, ← hb]; simp [List.getD, List.getElem?_eq_getElem hlen]
  rw [hb]
  have flip : ∀ b : Byte, ∀ k < 8, ∀ q < 4, pairAt (b ^^^ UInt8.ofNat (2 ^ k)) q = pairAt b q ↔ q ≠ 3 - k / 2 := by
    intro b k hk
    have : k = 0 ∨ k = 1 ∨ k = 2 ∨ k = 3 ∨ k = 4 ∨ k = 5 ∨ k = 6 ∨ k = 7 := by omega
    intro q hq
    have hq' : q = 0 ∨ q = 1 ∨ q = 2 ∨ q = 3 := by omega
    rcases this with rfl | rfl | rfl | rfl | rfl | rfl | rfl | rfl <;> rcases hq' with rfl | rfl | rfl | rfl <;>
      revert b <;> apply forall_byte <;> decide +kernel
  refine C90_corrupt_pair_rejected m tail _ (4 * i + (3 - k / 2)) ?_ ?_
  · obtain ⟨u, hu, e⟩ := body_shape m
    have hl := pairs_length (createBody m)
    rw [e, List.length_append, List.length_cons] at hl
    omega
  · intro j
    rw [pget, pget]
    by_cases hj : j / 4 = i
    · have e1 : ((createBody m ++ tail).set i (b ^^^ UInt8.ofNat (2 ^ k)))[j / 4]? = some (b ^^^ UInt8.ofNat (2 ^ k)) := by
        rw [hj, List.getElem?_set_self hlen]
      rw [e1, hj, hb']
      simp only [Option.map_some, Option.some.injEq]
      rw [flip b k hk (j % 4) (Nat.mod_lt _ (by decide))]
      omega
    · rw [List.getElem?_set_ne (by omega)]
      constructor
      · intro _; omega
      · intro _; rfl

example : 3 + 1 < (createBody ⟨13, 73, 0, 0x26, 0x3f⟩).length := by decide +kernel

end OTR.Props
