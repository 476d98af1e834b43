import Verif.Model.FHT8V
import Verif.Spec.FS20
import Verif.Proof.CRC

namespace OTR.FHT8V
open FS20

theorem encBits_append (a b : List Bool) : encBits (a ++ b) = encBits a ++ encBits b := by
  simp [encBits]

theorem pairs_append (a b : Bytes) : pairs (a ++ b) = pairs a ++ pairs b := by simp [pairs]

theorem pairs_length (a : Bytes) : (pairs a).length = 4 * a.length := by
  induction a with
  | nil => rfl
  | cons x xs ih =>
    have : pairs (x :: xs) = pairsOfByte x ++ pairs xs := by simp [pairs]
    rw [this, List.length_append, ih]; simp [pairsOfByte]; omega

/-- What the partial byte holds: the pairs so far at the top and "pairs left - 1" in the low two bits. -/
def curOK (cur : Byte) (rem : List Pair) : Bool :=
  match rem with
  | [] => cur &&& 3 = 3
  | [a] => pairAt cur 0 = a && cur &&& 3 = 2
  | [a, b] => pairAt cur 0 = a && pairAt cur 1 = b && cur &&& 3 = 1
  | [a, b, c] => pairAt cur 0 = a && pairAt cur 1 = b && pairAt cur 2 = c && cur &&& 3 = 0
  | _ => false

/-- The encoder has emitted exactly the pairs `ps`. -/
def EncInv (s : Enc) (ps : List Pair) : Prop := ∃ rem, pairs s.out ++ rem = ps ∧ curOK s.cur rem = true


theorem b30 (c : Byte) : pairsOfByte ((c &&& 0xc0) ||| 0x30) = [pairAt c 0, 3, 0, 0] ∧ ((c &&& 0xc0) ||| 0x30) &&& 3 = 0 := by
  revert c; apply forall_byte; decide +kernel
theorem b0c (c : Byte) : pairsOfByte ((c &&& 0xf0) ||| 0xc) = [pairAt c 0, pairAt c 1, 3, 0] := by
  revert c; apply forall_byte; decide +kernel
theorem b03 (c : Byte) : pairsOfByte (c ||| 3) = [pairAt c 0, pairAt c 1, pairAt c 2, 3] := by
  revert c; apply forall_byte; decide +kernel
theorem b38 (c : Byte) : pairsOfByte ((c &&& 0xc0) ||| 0x38) = [pairAt c 0, 3, 2, 0] := by
  revert c; apply forall_byte; decide +kernel
theorem b0e (c : Byte) : pairsOfByte ((c &&& 0xf0) ||| 0xe) = [pairAt c 0, pairAt c 1, 3, 2] := by
  revert c; apply forall_byte; decide +kernel

theorem append_inv (s : Enc) (ps : List Pair) (b : Bool) (h : EncInv s ps) :
    EncInv (appendEncBit s b) (ps ++ encBit b) := by
  obtain ⟨rem, rfl, hc⟩ := h
  obtain ⟨out, cur⟩ := s
  have p1 : ∀ x, pairs [x] = pairsOfByte x := by intro x; simp [pairs]
  match rem, hc with
  | [], hc =>
    simp only [curOK, decide_eq_true_eq] at hc
    cases b
    · refine ⟨[3, 0], ?_, ?_⟩ <;> simp [appendEncBit, hc, encBit] <;> decide
    · refine ⟨[3, 2, 0], ?_, ?_⟩ <;> simp [appendEncBit, hc, encBit] <;> decide
  | [a], hc =>
    simp only [curOK, Bool.and_eq_true, decide_eq_true_eq] at hc
    obtain ⟨rfl, hc⟩ := hc
    have hb := b30 cur
    cases b
    · refine ⟨[pairAt cur 0, 3, 0], ?_, ?_⟩
      · simp [appendEncBit, hc, encBit]
      · simp only [pairsOfByte, List.cons.injEq] at hb
        simp [appendEncBit, hc, curOK, hb]
    · refine ⟨[], ?_, ?_⟩
      · simp [appendEncBit, hc, encBit, pairs_append, p1, b38]
      · simp [appendEncBit, hc, curOK]; decide
  | [a, a'], hc =>
    simp only [curOK, Bool.and_eq_true, decide_eq_true_eq] at hc
    obtain ⟨⟨rfl, rfl⟩, hc⟩ := hc
    cases b
    · refine ⟨[], ?_, ?_⟩
      · simp [appendEncBit, hc, encBit, pairs_append, p1, b0c]
      · simp [appendEncBit, hc, curOK]; decide
    · refine ⟨[0], ?_, ?_⟩
      · simp [appendEncBit, hc, encBit, pairs_append, p1, b0e]
      · simp [appendEncBit, hc, curOK]; decide
  | [a, a', a''], hc =>
    simp only [curOK, Bool.and_eq_true, decide_eq_true_eq] at hc
    obtain ⟨⟨⟨rfl, rfl⟩, rfl⟩, hc⟩ := hc
    cases b
    · refine ⟨[0], ?_, ?_⟩
      · simp [appendEncBit, hc, encBit, pairs_append, p1, b03]
      · simp [appendEncBit, hc, curOK]; decide
    · refine ⟨[2, 0], ?_, ?_⟩
      · simp [appendEncBit, hc, encBit, pairs_append, p1, b03]
      · simp [appendEncBit, hc, curOK]; decide

theorem parity_eq (b : Byte) : (xorParityEvenBit b != 0) = parity b := by
  revert b; apply forall_byte; decide +kernel

def M0 : Byte := 0x80

theorem maskbits (b : Byte) :
    [b &&& M0 != 0, b &&& (M0 >>> 1) != 0, b &&& (M0 >>> 1 >>> 1) != 0, b &&& (M0 >>> 1 >>> 1 >>> 1) != 0,
     b &&& (M0 >>> 1 >>> 1 >>> 1 >>> 1) != 0, b &&& (M0 >>> 1 >>> 1 >>> 1 >>> 1 >>> 1) != 0,
     b &&& (M0 >>> 1 >>> 1 >>> 1 >>> 1 >>> 1 >>> 1) != 0,
     b &&& (M0 >>> 1 >>> 1 >>> 1 >>> 1 >>> 1 >>> 1 >>> 1) != 0] = bitsOfByte b := by
  revert b; apply forall_byte; decide +kernel

theorem appendBits_foldl (b : Byte) (s : Enc) : appendBits 8 0x80 b s = (bitsOfByte b).foldl appendEncBit s := by
  rw [← maskbits]; rfl

theorem foldl_inv (bs : List Bool) : ∀ (s : Enc) (ps : List Pair), EncInv s ps →
    EncInv (bs.foldl appendEncBit s) (ps ++ encBits bs) := by
  induction bs with
  | nil => intro s ps h; simpa [encBits] using h
  | cons b bs ih =>
    intro s ps h
    have := ih _ _ (append_inv s ps b h)
    simpa [encBits, List.append_assoc] using this

theorem appendByteEP_foldl (s : Enc) (b : Byte) : appendByteEP s b = (byteBits b).foldl appendEncBit s := by
  rw [appendByteEP, appendBits_foldl, parity_eq, byteBits, List.foldl_append]; rfl

/-- The bytes of a message in order. -/
def msgBytes (m : Msg) : Bytes := [m.hc1, m.hc2, m.address, m.command, m.extension, checksum m]

/-- The body written is the air encoding of the message bits and two more 0s, less at most three trailing pairs. -/
theorem createBody_pairs (m : Msg) :
    ∃ rem, rem.length < 4 ∧ pairs (createBody m) ++ rem = encBits (msgBits 12 (msgBytes m) ++ [false, false]) := by
  have h0 : EncInv ⟨[0xcc, 0xcc, 0xcc, 0xcc, 0xcc, 0xcc], 0xff⟩ (encBits (List.replicate 12 false)) :=
    ⟨[], by decide, by decide⟩
  have h := foldl_inv (true :: ((msgBytes m).flatMap byteBits ++ [false, false, false])) _ _ h0
  obtain ⟨rem, h1, h2⟩ := h
  refine ⟨rem, ?_, ?_⟩
  · match rem, h2 with
    | [], _ => decide
    | [_], _ => simp
    | [_, _], _ => simp
    | [_, _, _], _ => simp
    | _ :: _ :: _ :: _ :: _, h2 => simp [curOK] at h2
  · have e : createBody m = ((true :: ((msgBytes m).flatMap byteBits ++ [false, false, false])).foldl appendEncBit
        ⟨[0xcc, 0xcc, 0xcc, 0xcc, 0xcc, 0xcc], 0xff⟩).out := by
      simp only [createBody, appendByteEP_foldl, msgBytes, List.flatMap_cons, List.flatMap_nil, List.foldl_append,
        List.foldl_cons, List.foldl_nil]
    rw [e, h1, ← encBits_append]
    simp [msgBits, List.append_assoc]

/-! ### Reading pairs -/

theorem pairs_cons (x : Byte) (xs : Bytes) : pairs (x :: xs) = pairsOfByte x ++ pairs xs := by simp [pairs]

theorem pairs_get (buf : Bytes) (i k : Nat) (hk : k < 4) :
    (pairs buf)[4 * i + k]? = buf[i]?.map (fun b => pairAt b k) := by
  induction buf generalizing i with
  | nil => simp [pairs]
  | cons x xs ih =>
    rw [pairs_cons]
    cases i with
    | zero =>
      have : k = 0 ∨ k = 1 ∨ k = 2 ∨ k = 3 := by omega
      rcases this with rfl | rfl | rfl | rfl <;> simp [pairsOfByte]
    | succ i =>
      rw [List.getElem?_append_right (by simp [pairsOfByte]; omega)]
      have : 4 * (i + 1) + k - (pairsOfByte x).length = 4 * i + k := by simp [pairsOfByte]; omega
      rw [this, ih]; simp

/-- One logical bit at pair position `p`: its value and the position after it. -/
def bitAt (ps : List Pair) (p : Nat) : Option (Bool × Nat) :=
  if ps[p]? = some 3 then
    if ps[p + 1]? = some 0 then some (false, p + 2)
    else if ps[p + 1]? = some 2 ∧ ps[p + 2]? = some 0 then some (true, p + 3)
    else none
  else none

def maskAt (k : Nat) : Byte := if k = 0 then 0xc0 else if k = 1 then 0x30 else if k = 2 then 0x0c else 0x03

/-- Decoder state `s` is at pair position `p` and has not failed. -/
def At (s : Dec) (p : Nat) : Prop :=
  s.failed = false ∧ s.idx = p / 4 ∧ (s.mask = maskAt (p % 4) ∨ (p % 4 = 0 ∧ s.mask = 0))


theorem mask_zero (k : Nat) : maskAt k ≠ 0 := by
  unfold maskAt; split
  · decide
  · split
    · decide
    · split <;> decide

/-- Facts about one byte and the four masks. -/
theorem mask_facts (b : Byte) (k : Nat) (hk : k < 4) :
    (maskAt k = maskAt k &&& b ↔ pairAt b k = 3) ∧ (maskAt k &&& b = 0 ↔ pairAt b k = 0) ∧
    ((maskAt k &&& b = 0x80 ∨ maskAt k &&& b = 0x20 ∨ maskAt k &&& b = 8 ∨ maskAt k &&& b = 2) ↔ pairAt b k = 2) ∧
    (maskAt k >>> 2 = 0 ↔ k = 3) ∧ (k < 3 → maskAt k >>> 2 = maskAt (k + 1)) := by
  have : k = 0 ∨ k = 1 ∨ k = 2 ∨ k = 3 := by omega
  rcases this with rfl | rfl | rfl | rfl <;> revert b <;> apply forall_byte <;> decide +kernel

/-- Position after moving on one pair: index and mask as the code computes them. -/
theorem next_pos (p : Nat) :
    (if maskAt (p % 4) >>> 2 = 0 then p / 4 + 1 else p / 4) = (p + 1) / 4 ∧
    (if maskAt (p % 4) >>> 2 = 0 then (0xc0 : Byte) else maskAt (p % 4) >>> 2) = maskAt ((p + 1) % 4) := by
  have hk : p % 4 < 4 := Nat.mod_lt _ (by decide)
  obtain ⟨-, -, -, h4, h5⟩ := mask_facts 0 (p % 4) hk
  by_cases h : p % 4 = 3
  · rw [if_pos (h4.2 h), if_pos (h4.2 h)]
    refine ⟨by omega, ?_⟩
    have : (p + 1) % 4 = 0 := by omega
    rw [this]; rfl
  · rw [if_neg (fun e => h (h4.1 e)), if_neg (fun e => h (h4.1 e)), h5 (by omega)]
    refine ⟨by omega, ?_⟩
    congr 1; omega

theorem next_at (p : Nat) : At ⟨if maskAt (p % 4) >>> 2 = 0 then p / 4 + 1 else p / 4, maskAt (p % 4) >>> 2, false⟩ (p + 1) := by
  have hk : p % 4 < 4 := Nat.mod_lt _ (by decide)
  obtain ⟨-, -, -, h4, h5⟩ := mask_facts 0 (p % 4) hk
  refine ⟨rfl, (next_pos p).1, ?_⟩
  by_cases h : p % 4 = 3
  · right; exact ⟨by omega, h4.2 h⟩
  · left
    show maskAt (p % 4) >>> 2 = _
    rw [h5 (by omega)]; congr 1; omega

theorem pget (buf : Bytes) (p : Nat) : (pairs buf)[p]? = buf[p / 4]?.map (fun b => pairAt b (p % 4)) := by
  have := pairs_get buf (p / 4) (p % 4) (Nat.mod_lt _ (by decide))
  have e : 4 * (p / 4) + p % 4 = p := by omega
  rw [e] at this; exact this

/-- `readOneBit()` from position `p` reads the logical bit there, or fails if there is none. -/
theorem readOneBit_at (buf : Bytes) (s : Dec) (p : Nat) (h : At s p) :
    match bitAt (pairs buf) p with
    | some (b, p') => ∃ s', readOneBit buf s = .ok (b, s') ∧ At s' p'
    | none => ∃ s', readOneBit buf s = .ok (false, s') ∧ s'.failed = true := by
  obtain ⟨hf, hi, hm⟩ := h
  have hk : p % 4 < 4 := Nat.mod_lt _ (by decide)
  unfold readOneBit
  by_cases hl : buf.length ≤ s.idx
  · have : (pairs buf)[p]? = none := by rw [pget, ← hi, List.getElem?_eq_none hl]; rfl
    simp [bitAt, this, hl]
  · have hmm : (if s.mask = 0 then (0xc0 : Byte) else s.mask) = maskAt (p % 4) := by
      rcases hm with hm | ⟨h0, hm⟩
      · rw [if_neg (by rw [hm]; exact mask_zero _), hm]
      · rw [if_pos hm, h0]; rfl
    have hlt : p / 4 < buf.length := by omega
    rw [hi] at hl
    simp only [hl, if_false, hf, Bool.false_eq_true, hmm, hi]
    rw [rd_lt hlt]
    have g0 : (pairs buf)[p]? = some (pairAt buf[p / 4] (p % 4)) := by rw [pget, List.getElem?_eq_getElem hlt]; rfl
    by_cases h3 : pairAt buf[p / 4] (p % 4) = 3
    · have c0 := (mask_facts buf[p/4] (p % 4) hk).1.2 h3
      rw [if_neg (not_not_intro c0), (next_pos p).1, (next_pos p).2]
      have hk1 : (p + 1) % 4 < 4 := Nat.mod_lt _ (by decide)
      by_cases hl1 : buf.length ≤ (p + 1) / 4
      · have hz : maskAt (p % 4) >>> 2 = 0 := (mask_facts 0 (p % 4) hk).2.2.2.1.2 (by omega)
        rw [if_pos ⟨hz, hl1⟩]
        have : (pairs buf)[p + 1]? = none := by rw [pget, List.getElem?_eq_none hl1]; rfl
        simp [bitAt, this]
      · rw [if_neg (fun e => hl1 e.2), rd_lt (by omega)]
        have g1 : (pairs buf)[p + 1]? = some (pairAt (buf[(p + 1) / 4]'(by omega)) ((p + 1) % 4)) := by
          rw [pget, List.getElem?_eq_getElem (by omega)]; rfl
        obtain ⟨-, f0, f2, -, -⟩ := mask_facts (buf[(p + 1) / 4]'(by omega)) ((p + 1) % 4) hk1
        by_cases s0 : pairAt (buf[(p + 1) / 4]'(by omega)) ((p + 1) % 4) = 0
        · simp only [f0.2 s0, if_true]
          have : bitAt (pairs buf) p = some (false, p + 2) := by simp [bitAt, g0, h3, g1, s0]
          rw [this]
          exact ⟨_, rfl, next_at (p + 1)⟩
        · simp only [mt f0.1 s0, if_false]
          by_cases s2 : pairAt (buf[(p + 1) / 4]'(by omega)) ((p + 1) % 4) = 2
          · rw [if_pos (f2.2 s2), (next_pos (p + 1)).1, (next_pos (p + 1)).2]
            have hk2 : (p + 1 + 1) % 4 < 4 := Nat.mod_lt _ (by decide)
            by_cases hl2 : buf.length ≤ (p + 1 + 1) / 4
            · have hz : maskAt ((p + 1) % 4) >>> 2 = 0 := (mask_facts 0 ((p + 1) % 4) hk1).2.2.2.1.2 (by omega)
              rw [if_pos ⟨hz, hl2⟩]
              have : (pairs buf)[p + 2]? = none := by rw [pget, List.getElem?_eq_none hl2]; rfl
              simp [bitAt, this, g0, h3, g1, s2]
            · rw [if_neg (fun e => hl2 e.2), rd_lt (by omega)]
              have g2 : (pairs buf)[p + 2]? = some (pairAt (buf[(p + 1 + 1) / 4]'(by omega)) ((p + 1 + 1) % 4)) := by
                rw [pget, List.getElem?_eq_getElem (by omega)]; rfl
              obtain ⟨-, f0', -, -, -⟩ := mask_facts (buf[(p + 1 + 1) / 4]'(by omega)) ((p + 1 + 1) % 4) hk2
              by_cases t0 : pairAt (buf[(p + 1 + 1) / 4]'(by omega)) ((p + 1 + 1) % 4) = 0
              · rw [if_neg (not_not_intro (f0'.2 t0))]
                have : bitAt (pairs buf) p = some (true, p + 3) := by simp [bitAt, g0, h3, g1, s2, g2, t0]
                rw [this]
                exact ⟨_, rfl, next_at (p + 1 + 1)⟩
              · rw [if_pos (mt f0'.1 t0)]
                have : bitAt (pairs buf) p = none := by simp [bitAt, g0, h3, g1, s2, g2, t0]
                rw [this]
                exact ⟨_, rfl, rfl⟩
          · rw [if_neg (mt f2.1 s2)]
            have : bitAt (pairs buf) p = none := by simp [bitAt, g0, h3, g1, s2, s0]
            rw [this]
            exact ⟨_, rfl, rfl⟩
    · have c0 := mt (mask_facts buf[p/4] (p % 4) hk).1.1 h3
      rw [if_pos c0]
      have : bitAt (pairs buf) p = none := by simp [bitAt, g0, h3]
      rw [this]
      exact ⟨_, rfl, rfl⟩

/-- A failed decoder stays failed, reads nothing and returns 0. -/
theorem readOneBit_failed (buf : Bytes) (s : Dec) (h : s.failed = true) :
    readOneBit buf s = .ok (false, s) := by
  obtain ⟨i, m, f⟩ := s
  subst h
  simp [readOneBit]


/-- The logical bits `bs` are read from pair position `p`, ending at `p'`. -/
def ReadsTo (ps : List Pair) : Nat → List Bool → Nat → Prop
  | p, [], p' => p = p'
  | p, b :: bs, p' => ∃ q, bitAt ps p = some (b, q) ∧ ReadsTo ps q bs p'

theorem ReadsTo_append (ps : List Pair) (a b : List Bool) (p r : Nat) :
    ReadsTo ps p (a ++ b) r ↔ ∃ q, ReadsTo ps p a q ∧ ReadsTo ps q b r := by
  induction a generalizing p with
  | nil => simp [ReadsTo]
  | cons x xs ih =>
    simp only [List.cons_append, ReadsTo, ih]
    constructor
    · rintro ⟨q, h1, t, h2, h3⟩; exact ⟨t, ⟨q, h1, h2⟩, h3⟩
    · rintro ⟨t, ⟨q, h1, h2⟩, h3⟩; exact ⟨q, h1, t, h2, h3⟩

theorem ReadsTo_unique (ps : List Pair) (a b : List Bool) (p q r : Nat) (hl : a.length = b.length)
    (ha : ReadsTo ps p a q) (hb : ReadsTo ps p b r) : a = b ∧ q = r := by
  induction a generalizing p b with
  | nil =>
    have : b = [] := List.length_eq_zero_iff.1 hl.symm
    subst this
    exact ⟨rfl, Eq.trans (Eq.symm ha) hb⟩
  | cons x xs ih =>
    cases b with
    | nil => simp at hl
    | cons y ys =>
      obtain ⟨s, h1, h2⟩ := ha
      obtain ⟨t, h3, h4⟩ := hb
      rw [h1] at h3
      obtain ⟨rfl, rfl⟩ : x = y ∧ s = t := by simpa using h3
      obtain ⟨rfl, rfl⟩ := ih ys s (by simpa using hl) h2 h4
      exact ⟨rfl, rfl⟩

theorem bitAt_iff (ps : List Pair) (p q : Nat) (b : Bool) :
    bitAt ps p = some (b, q) ↔ (∃ t, ps.drop p = encBit b ++ t) ∧ q = p + (encBit b).length := by
  have g : ∀ k, ps[p + k]? = (ps.drop p)[k]? := by intro k; rw [List.getElem?_drop]
  have g0 := g 0
  have g1 := g 1
  have g2 := g 2
  rw [Nat.add_zero] at g0
  unfold bitAt
  rw [g0, g1, g2]
  generalize ps.drop p = l
  cases b
  · constructor
    · intro h
      split at h
      · rename_i h3
        split at h
        · rename_i h0
          match l, h3, h0 with
          | a :: c :: t, h3, h0 =>
            simp at h3 h0 h
            subst h3 h0
            exact ⟨⟨t, rfl⟩, h.symm⟩
        · split at h <;> simp at h
      · simp at h
    · rintro ⟨⟨t, rfl⟩, rfl⟩
      simp [encBit]
  · constructor
    · intro h
      split at h
      · rename_i h3
        split at h
        · simp at h
        · split at h
          · rename_i h20
            match l, h3, h20 with
            | a :: c :: d :: t, h3, h20 =>
              simp at h3 h20 h
              obtain ⟨rfl, rfl⟩ := h20
              subst h3
              exact ⟨⟨t, rfl⟩, h.symm⟩
          · simp at h
      · simp at h
    · rintro ⟨⟨t, rfl⟩, rfl⟩
      simp [encBit]

/-- Reading `bs` from `p` means the air encoding of `bs` is there. -/
theorem ReadsTo_iff (ps : List Pair) (bs : List Bool) (p q : Nat) :
    ReadsTo ps p bs q ↔ (∃ t, ps.drop p = encBits bs ++ t) ∧ q = p + (encBits bs).length := by
  induction bs generalizing p with
  | nil => simp [ReadsTo, encBits]; exact eq_comm
  | cons b bs ih =>
    have e : encBits (b :: bs) = encBit b ++ encBits bs := by simp [encBits]
    simp only [ReadsTo, bitAt_iff, ih, e, List.length_append]
    constructor
    · rintro ⟨r, ⟨⟨t, h1⟩, rfl⟩, ⟨u, h2⟩, rfl⟩
      refine ⟨⟨u, ?_⟩, by omega⟩
      rw [← List.drop_drop, h1, List.drop_left] at h2
      rw [h1, h2, List.append_assoc]
    · rintro ⟨⟨u, h⟩, rfl⟩
      refine ⟨_, ⟨⟨encBits bs ++ u, ?_⟩, rfl⟩, ⟨u, ?_⟩, by omega⟩
      · rw [h, List.append_assoc]
      · rw [← List.drop_drop, h, List.append_assoc, List.drop_left]

/-- The next `n` logical bits. -/
def bitsN (ps : List Pair) : Nat → Nat → Option (List Bool × Nat)
  | 0, p => some ([], p)
  | n + 1, p =>
    match bitAt ps p with
    | none => none
    | some (b, q) =>
      match bitsN ps n q with
      | none => none
      | some (bs, r) => some (b :: bs, r)

theorem bitsN_some (ps : List Pair) (n p : Nat) (bs : List Bool) (q : Nat) :
    bitsN ps n p = some (bs, q) ↔ bs.length = n ∧ ReadsTo ps p bs q := by
  induction n generalizing p bs with
  | zero =>
    simp only [bitsN, Option.some.injEq, Prod.mk.injEq]
    constructor
    · rintro ⟨rfl, rfl⟩; exact ⟨rfl, rfl⟩
    · rintro ⟨h, h'⟩
      have : bs = [] := List.length_eq_zero_iff.1 h
      subst this; exact ⟨rfl, h'⟩
  | succ n ih =>
    simp only [bitsN]
    cases hb : bitAt ps p with
    | none =>
      simp only [reduceCtorEq, false_iff]
      rintro ⟨h, h'⟩
      cases bs with
      | nil => simp at h
      | cons x xs => obtain ⟨r, h1, -⟩ := h'; rw [hb] at h1; simp at h1
    | some v =>
      obtain ⟨b, r⟩ := v
      dsimp only
      cases hn : bitsN ps n r with
      | none =>
        simp only [reduceCtorEq, false_iff]
        rintro ⟨h, h'⟩
        cases bs with
        | nil => simp at h
        | cons x xs =>
          obtain ⟨r', h1, h2⟩ := h'
          rw [hb] at h1
          obtain ⟨rfl, rfl⟩ : b = x ∧ r = r' := by simpa using h1
          have := (ih r xs).2 ⟨by simpa using h, h2⟩
          rw [hn] at this; simp at this
      | some w =>
        obtain ⟨cs, t⟩ := w
        simp only [Option.some.injEq, Prod.mk.injEq]
        constructor
        · rintro ⟨rfl, rfl⟩
          obtain ⟨h1, h2⟩ := (ih r cs).1 hn
          exact ⟨by simp [h1], r, hb, h2⟩
        · rintro ⟨h, h'⟩
          cases bs with
          | nil => simp at h
          | cons x xs =>
            obtain ⟨r', h1, h2⟩ := h'
            rw [hb] at h1
            obtain ⟨rfl, rfl⟩ : b = x ∧ r = r' := by simpa using h1
            have := (ih r xs).2 ⟨by simpa using h, h2⟩
            rw [hn] at this
            simp at this
            exact ⟨by rw [this.1], this.2⟩

def shiftIn (r : Byte) : List Bool → Byte
  | [] => r
  | b :: bs => shiftIn ((r <<< 1) ||| (if b then 1 else 0)) bs

def xorIn (r : Byte) : List Bool → Byte
  | [] => r
  | b :: bs => xorIn (r ^^^ (if b then 1 else 0)) bs

theorem readBits_failed (buf : Bytes) (n : Nat) (r q : Byte) (s : Dec) (h : s.failed = true) :
    ∃ r' q', readBits buf n r q s = .ok (r', q', s) := by
  induction n generalizing r q with
  | zero => exact ⟨r, q, rfl⟩
  | succ n ih =>
    simp only [readBits, readOneBit_failed buf s h, Res.andThen]
    exact ih _ _

theorem readBits_at (buf : Bytes) (n : Nat) (r q : Byte) (s : Dec) (p : Nat) (h : At s p) :
    match bitsN (pairs buf) n p with
    | some (bs, p') => ∃ s', readBits buf n r q s = .ok (shiftIn r bs, xorIn q bs, s') ∧ At s' p'
    | none => ∃ r' q' s', readBits buf n r q s = .ok (r', q', s') ∧ s'.failed = true := by
  induction n generalizing r q s p with
  | zero => exact ⟨s, rfl, h⟩
  | succ n ih =>
    have hb := readOneBit_at buf s p h
    simp only [bitsN, readBits]
    cases hx : bitAt (pairs buf) p with
    | none =>
      rw [hx] at hb
      obtain ⟨s', e, hf⟩ := hb
      dsimp only
      rw [e]
      obtain ⟨r', q', e'⟩ := readBits_failed buf n ((r <<< 1) ||| 0) (q ^^^ 0) s' hf
      exact ⟨r', q', s', e', hf⟩
    | some v =>
      obtain ⟨b, p'⟩ := v
      rw [hx] at hb
      obtain ⟨s', e, hs⟩ := hb
      dsimp only
      rw [e]
      have := ih ((r <<< 1) ||| (if b then 1 else 0)) (q ^^^ (if b then 1 else 0)) s' p' hs
      cases hn : bitsN (pairs buf) n p' with
      | none => rw [hn] at this; exact this
      | some w =>
        obtain ⟨bs, p''⟩ := w
        rw [hn] at this
        exact this

theorem byte_of_bits : ∀ a b c d e f g h : Bool,
    let v : Byte := if a then 1 else 0
    bitsOfByte (shiftIn v [b, c, d, e, f, g, h]) = [a, b, c, d, e, f, g, h] ∧
    xorIn v [b, c, d, e, f, g, h] = if parity (shiftIn v [b, c, d, e, f, g, h]) then 1 else 0 := by
  decide +kernel

theorem bitsOfByte_inj (a b : Byte) (h : bitsOfByte a = bitsOfByte b) : a = b := by
  have key : ∀ x : Byte, x = shiftIn 0 (bitsOfByte x) := by apply forall_byte; decide +kernel
  rw [key a, key b, h]

/-- `readOneByteWithParity()` from position `p`: reads a byte with correct parity, or fails. -/
theorem readByte_at (buf : Bytes) (s : Dec) (p : Nat) (h : At s p) :
    (∃ b p' s', ReadsTo (pairs buf) p (byteBits b) p' ∧ readOneByteWithParity buf s = .ok (b, s') ∧ At s' p') ∨
    ((¬ ∃ b p', ReadsTo (pairs buf) p (byteBits b) p') ∧
      ∃ b s', readOneByteWithParity buf s = .ok (b, s') ∧ s'.failed = true) := by
  have hlen : ∀ b, (byteBits b).length = 9 := by intro b; rfl
  have none9 : bitsN (pairs buf) 9 p = none → ¬ ∃ b p', ReadsTo (pairs buf) p (byteBits b) p' := by
    rintro hn ⟨b, p', hr⟩
    have := (bitsN_some (pairs buf) 9 p (byteBits b) p').2 ⟨hlen b, hr⟩
    rw [hn] at this; simp at this
  unfold readOneByteWithParity
  rw [if_neg (by rw [h.1]; decide)]
  have h1 := readOneBit_at buf s p h
  cases hx : bitAt (pairs buf) p with
  | none =>
    right
    refine ⟨none9 (by simp [bitsN, hx]), ?_⟩
    rw [hx] at h1
    obtain ⟨s1, e1, f1⟩ := h1
    rw [e1]
    simp only [Res.andThen, Bool.false_eq_true, if_false]
    obtain ⟨r', q', e2⟩ := readBits_failed buf 7 0 0 s1 f1
    rw [e2]
    simp only [readOneBit_failed buf s1 f1, Bool.false_eq_true, if_false]
    refine ⟨_, _, rfl, ?_⟩
    split
    · rfl
    · exact f1
  | some v =>
    obtain ⟨b7, p1⟩ := v
    rw [hx] at h1
    obtain ⟨s1, e1, a1⟩ := h1
    rw [e1]
    simp only [Res.andThen]
    have h2 := readBits_at buf 7 (if b7 then 1 else 0) (if b7 then 1 else 0) s1 p1 a1
    cases h7 : bitsN (pairs buf) 7 p1 with
    | none =>
      right
      refine ⟨?_, ?_⟩
      · rintro ⟨b, p', hr⟩
        have e : byteBits b = bit b 7 :: ([6, 5, 4, 3, 2, 1, 0].map (bit b) ++ [parity b]) := rfl
        rw [e] at hr
        obtain ⟨q, hq1, hq2⟩ := hr
        rw [hx] at hq1
        obtain ⟨-, rfl⟩ : b7 = _ ∧ p1 = q := by simpa using hq1
        obtain ⟨t, ht, -⟩ := (ReadsTo_append _ _ _ _ _).1 hq2
        have := (bitsN_some (pairs buf) 7 p1 _ t).2 ⟨rfl, ht⟩
        rw [h7] at this; simp at this
      · rw [h7] at h2
        obtain ⟨r', q', s2, e2, f2⟩ := h2
        rw [e2]
        simp only [readOneBit_failed buf s2 f2, Bool.false_eq_true, if_false]
        refine ⟨_, _, rfl, ?_⟩
        split
        · rfl
        · exact f2
    | some w =>
      obtain ⟨bs, p2⟩ := w
      rw [h7] at h2
      obtain ⟨s2, e2, a2⟩ := h2
      obtain ⟨hl, hr7⟩ := (bitsN_some _ _ _ _ _).1 h7
      rw [e2]
      dsimp only
      have h3 := readOneBit_at buf s2 p2 a2
      obtain ⟨v, hv⟩ : ∃ v, v = shiftIn (if b7 then 1 else 0) bs := ⟨_, rfl⟩
      have key : bitsOfByte v = b7 :: bs ∧ xorIn (if b7 then 1 else 0) bs = if parity v then 1 else 0 := by
        subst hv
        match bs, hl with
        | [b, c, d, e, f, g, h], _ => exact byte_of_bits b7 b c d e f g h
      rw [← hv, key.2]
      have hbits : ∀ x, bitAt (pairs buf) p2 = some x → ∀ b p', ReadsTo (pairs buf) p (byteBits b) p' →
          b = v ∧ x.1 = parity b := by
        intro x hx2 b p' hr
        have r8 : ReadsTo (pairs buf) p (b7 :: bs) p2 := ⟨p1, hx, hr7⟩
        obtain ⟨t, ht1, ht2⟩ := (ReadsTo_append (pairs buf) (bitsOfByte b) [parity b] p p').1 hr
        obtain ⟨eb, rfl⟩ := ReadsTo_unique _ _ _ _ _ _ (by rw [← key.1]; rfl) ht1 r8
        obtain ⟨q, hq, -⟩ := ht2
        rw [hx2] at hq
        refine ⟨?_, by simp at hq; rw [hq]⟩
        rw [← key.1] at eb
        revert eb
        exact fun eb => bitsOfByte_inj b v eb
      cases hx2 : bitAt (pairs buf) p2 with
      | none =>
        right
        refine ⟨?_, ?_⟩
        · rintro ⟨b, p', hr⟩
          have r8 : ReadsTo (pairs buf) p (b7 :: bs) p2 := ⟨p1, hx, hr7⟩
          obtain ⟨t, ht1, ht2⟩ := (ReadsTo_append (pairs buf) (bitsOfByte b) [parity b] p p').1 hr
          obtain ⟨-, rfl⟩ := ReadsTo_unique _ _ _ _ _ _ (by rw [← key.1]; rfl) ht1 r8
          obtain ⟨q, hq, -⟩ := ht2
          rw [hx2] at hq; simp at hq
        · rw [hx2] at h3
          obtain ⟨s3, e3, f3⟩ := h3
          rw [e3]
          refine ⟨_, _, rfl, ?_⟩
          split
          · rfl
          · exact f3
      | some x =>
        obtain ⟨pb, p3⟩ := x
        rw [hx2] at h3
        obtain ⟨s3, e3, a3⟩ := h3
        rw [e3]
        dsimp only
        by_cases hpar : pb = parity v
        · left
          refine ⟨v, p3, s3, ?_, ?_, a3⟩
          · refine (ReadsTo_append (pairs buf) (bitsOfByte v) [parity v] p p3).2 ⟨p2, ?_, ?_⟩
            · rw [key.1]; exact ⟨p1, hx, hr7⟩
            · exact ⟨p3, by rw [hx2, hpar], rfl⟩
          · subst hpar
            rw [if_neg (fun hne => hne rfl)]
        · right
          refine ⟨?_, ?_⟩
          · rintro ⟨b, p', hr⟩
            obtain ⟨rfl, hp⟩ := hbits _ hx2 b p' hr
            exact hpar hp
          · rw [if_pos]
            · exact ⟨_, _, rfl, rfl⟩
            · revert hpar; cases pb <;> cases parity v <;> simp


/-- `n` successive calls of `readOneByteWithParity()`. -/
def readBytes (buf : Bytes) : Nat → Dec → Res (Bytes × Dec)
  | 0, s => .ok ([], s)
  | n + 1, s =>
    Res.andThen (readOneByteWithParity buf s) fun (b, s) =>
    Res.andThen (readBytes buf n s) fun (bs, s) => .ok (b :: bs, s)

theorem readBytes_failed (buf : Bytes) (n : Nat) (s : Dec) (h : s.failed = true) :
    ∃ l, l.length = n ∧ readBytes buf n s = .ok (l, s) := by
  induction n with
  | zero => exact ⟨[], rfl, rfl⟩
  | succ n ih =>
    obtain ⟨l, hl, e⟩ := ih
    refine ⟨0 :: l, by simp [hl], ?_⟩
    simp [readBytes, readOneByteWithParity, h, Res.andThen, e]

theorem readBytes_at (buf : Bytes) (n : Nat) (s : Dec) (p : Nat) (h : At s p) :
    (∃ l p' s', l.length = n ∧ ReadsTo (pairs buf) p (l.flatMap byteBits) p' ∧ readBytes buf n s = .ok (l, s') ∧ At s' p') ∨
    ((¬ ∃ (l : Bytes) (p' : Nat), l.length = n ∧ ReadsTo (pairs buf) p (l.flatMap byteBits) p') ∧
      ∃ l s', l.length = n ∧ readBytes buf n s = .ok (l, s') ∧ s'.failed = true) := by
  induction n generalizing s p with
  | zero => left; exact ⟨[], p, s, rfl, rfl, rfl, h⟩
  | succ n ih =>
    rcases readByte_at buf s p h with ⟨b, p1, s1, r1, e1, a1⟩ | ⟨no, b, s1, e1, f1⟩
    · rcases ih s1 p1 a1 with ⟨l, p2, s2, hl, r2, e2, a2⟩ | ⟨no, l, s2, hl, e2, f2⟩
      · left
        refine ⟨b :: l, p2, s2, by simp [hl], ?_, by simp [readBytes, e1, Res.andThen, e2], a2⟩
        rw [List.flatMap_cons, ReadsTo_append]
        exact ⟨p1, r1, r2⟩
      · right
        refine ⟨?_, b :: l, s2, by simp [hl], by simp [readBytes, e1, Res.andThen, e2], f2⟩
        rintro ⟨l', p', hl', hr⟩
        cases l' with
        | nil => simp at hl'
        | cons c l' =>
          rw [List.flatMap_cons, ReadsTo_append] at hr
          obtain ⟨q, hq1, hq2⟩ := hr
          obtain ⟨-, rfl⟩ := ReadsTo_unique (pairs buf) (byteBits c) (byteBits b) p q p1 rfl hq1 r1
          exact no ⟨l', p', by simpa using hl', hq2⟩
    · right
      refine ⟨?_, ?_⟩
      · rintro ⟨l', p', hl', hr⟩
        cases l' with
        | nil => simp at hl'
        | cons c l' =>
          rw [List.flatMap_cons, ReadsTo_append] at hr
          obtain ⟨q, hq1, -⟩ := hr
          exact no ⟨c, q, hq1⟩
      · obtain ⟨l, hl, e2⟩ := readBytes_failed buf n s1 f1
        exact ⟨b :: l, s1, by simp [hl], by simp [readBytes, e1, Res.andThen, e2], f1⟩

theorem bitAt_le (ps : List Pair) (p q : Nat) (b : Bool) (h : bitAt ps p = some (b, q)) : p < q ∧ q ≤ ps.length := by
  obtain ⟨⟨t, e⟩, rfl⟩ := (bitAt_iff _ _ _ _).1 h
  have := congrArg List.length e
  rw [List.length_drop, List.length_append] at this
  cases b <;> simp [encBit] at this ⊢ <;> omega

theorem skipZeros_at (buf : Bytes) (n : Nat) (s : Dec) (p : Nat) (h : At s p) (hp : p ≤ 4 * buf.length)
    (hn : 4 * buf.length < p + n) :
    (∃ k p' s', ReadsTo (pairs buf) p (List.replicate k false ++ [true]) p' ∧ skipZeros buf n s = .ok s' ∧ At s' p') ∨
    ((¬ ∃ k p', ReadsTo (pairs buf) p (List.replicate k false ++ [true]) p') ∧ skipZeros buf n s = .fail) := by
  induction n generalizing s p with
  | zero => omega
  | succ n ih =>
    have hb := readOneBit_at buf s p h
    simp only [skipZeros]
    cases hx : bitAt (pairs buf) p with
    | none =>
      rw [hx] at hb
      obtain ⟨s', e, hf⟩ := hb
      right
      refine ⟨?_, by rw [e]; simp [Res.andThen, hf]⟩
      rintro ⟨k, p', hr⟩
      cases k with
      | zero => obtain ⟨q, hq, -⟩ := hr; rw [hx] at hq; simp at hq
      | succ k => obtain ⟨q, hq, -⟩ := hr; rw [hx] at hq; simp at hq
    | some v =>
      obtain ⟨b, q⟩ := v
      have hle := bitAt_le _ _ _ _ hx
      rw [pairs_length] at hle
      rw [hx] at hb
      obtain ⟨s', e, a⟩ := hb
      rw [e]
      cases b with
      | true =>
        left
        exact ⟨0, q, s', ⟨q, hx, rfl⟩, by simp [Res.andThen], a⟩
      | false =>
        have e' : Res.andThen (Res.ok (false, s')) (fun x => if x.1 = true then Res.ok x.2
            else if x.2.failed = true then Res.fail else skipZeros buf n x.2) = skipZeros buf n s' := by
          simp [Res.andThen, a.1]
        rcases ih s' q a hle.2 (by omega) with ⟨k, p', s'', r, e2, a2⟩ | ⟨no, e2⟩
        · left
          exact ⟨k + 1, p', s'', ⟨q, hx, r⟩, e'.trans e2, a2⟩
        · right
          refine ⟨?_, e'.trans e2⟩
          rintro ⟨k, p', hr⟩
          cases k with
          | zero => obtain ⟨t, ht, -⟩ := hr; rw [hx] at ht; simp at ht
          | succ k =>
            obtain ⟨t, ht, hr⟩ := hr
            rw [hx] at ht
            obtain rfl : q = t := by simpa using ht
            exact no ⟨k, p', hr⟩

/-- The part of the decoder after its six bytes. -/
def finish (buf : Bytes) (l : Bytes) (s : Dec) : Res (Msg × Nat) :=
  match l with
  | [hc1, hc2, address, command, extension, checksumRead] =>
    if s.failed then .fail
    else
      let m : Msg := ⟨hc1, hc2, address, command, extension⟩
      if checksum m ≠ checksumRead then .fail
      else
        Res.andThen (readOneBit buf s) fun (b, s) =>
        if b then .fail
        else if s.failed then .fail
        else .ok (m, s.idx + 1)
  | _ => .ub

theorem andThen_assoc {α β γ : Type} (r : Res α) (f : α → Res β) (g : β → Res γ) :
    Res.andThen (Res.andThen r f) g = Res.andThen r (fun a => Res.andThen (f a) g) := by
  cases r <;> rfl

theorem decodeStream_eq (buf : Bytes) : decodeStream buf =
    Res.andThen (skipZeros buf (4 * buf.length + 1) ⟨0, 0, false⟩) fun s =>
    Res.andThen (readBytes buf 6 s) fun (l, s) => finish buf l s := by
  simp only [readBytes, andThen_assoc]
  rfl

theorem replicate_first (a b : Nat) (x y : List Bool) (ps : List Pair) (p q r : Nat)
    (h1 : ReadsTo ps p (List.replicate a false ++ true :: x) q)
    (h2 : ReadsTo ps p (List.replicate b false ++ true :: y) r) : a = b := by
  induction a generalizing b p with
  | zero =>
    cases b with
    | zero => rfl
    | succ b =>
      obtain ⟨s, h1, -⟩ := h1
      obtain ⟨t, h2, -⟩ := h2
      rw [h1] at h2; simp at h2
  | succ a ih =>
    cases b with
    | zero =>
      obtain ⟨s, h1, -⟩ := h1
      obtain ⟨t, h2, -⟩ := h2
      rw [h1] at h2; simp at h2
    | succ b =>
      obtain ⟨s, h1, h1'⟩ := h1
      obtain ⟨t, h2, h2'⟩ := h2
      rw [h1] at h2
      obtain rfl : s = t := by simpa using h2
      rw [ih b s h1' h2']

theorem decode_never_ub (buf : Bytes) : decodeStream buf ≠ .ub := by
  rw [decodeStream_eq]
  rcases skipZeros_at buf (4 * buf.length + 1) ⟨0, 0, false⟩ 0 ⟨rfl, rfl, Or.inr ⟨rfl, rfl⟩⟩ (by omega) (by omega) with
    ⟨k, p1, s1, r1, e1, a1⟩ | ⟨no, e1⟩
  · rw [e1]
    simp only [Res.andThen]
    rcases readBytes_at buf 6 s1 p1 a1 with ⟨l, p2, s2, hl, r2, e2, a2⟩ | ⟨no, l, s2, hl, e2, f2⟩
    · rw [e2]
      match l, hl with
      | [hc1, hc2, ad, co, ex, cs], _ =>
        simp only [finish, a2.1, Bool.false_eq_true, if_false]
        split
        · simp
        · have h3 := readOneBit_at buf s2 p2 a2
          cases hx : bitAt (pairs buf) p2 with
          | none =>
            rw [hx] at h3
            obtain ⟨s3, e3, f3⟩ := h3
            rw [e3]; simp [Res.andThen, f3]
          | some v =>
            obtain ⟨b, p3⟩ := v
            rw [hx] at h3
            obtain ⟨s3, e3, a3⟩ := h3
            rw [e3]; cases b <;> simp [Res.andThen, a3.1]
    · rw [e2]
      match l, hl with
      | [hc1, hc2, ad, co, ex, cs], _ => simp [finish, f2]
  · rw [e1]; simp [Res.andThen]

theorem decode_ok_iff (buf : Bytes) (m : Msg) (r : Nat) :
    decodeStream buf = .ok (m, r) ↔
    ∃ k p, ReadsTo (pairs buf) 0 (msgBits k (msgBytes m)) p ∧ r = p / 4 + 1 := by
  have assoc : ∀ k (l : Bytes), msgBits k l = (List.replicate k false ++ [true]) ++ (l.flatMap byteBits ++ [false]) := by
    intro k l; simp [msgBits]
  have assoc' : ∀ k (l : Bytes), (List.replicate k false ++ [true]) ++ (l.flatMap byteBits ++ [false]) =
      List.replicate k false ++ true :: (l.flatMap byteBits ++ [false]) := by
    intro k l; simp
  rw [decodeStream_eq]
  rcases skipZeros_at buf (4 * buf.length + 1) ⟨0, 0, false⟩ 0 ⟨rfl, rfl, Or.inr ⟨rfl, rfl⟩⟩ (by omega) (by omega) with
    ⟨k, p1, s1, r1, e1, a1⟩ | ⟨no, e1⟩
  · rw [e1]
    simp only [Res.andThen]
    -- any message readable has the same preamble
    have pre : ∀ k' p (m' : Msg), ReadsTo (pairs buf) 0 (msgBits k' (msgBytes m')) p →
        ReadsTo (pairs buf) p1 ((msgBytes m').flatMap byteBits ++ [false]) p := by
      intro k' p m' hr
      rw [assoc] at hr
      have hk : k' = k := by
        rw [assoc'] at hr
        exact replicate_first _ _ _ [] _ _ _ _ hr r1
      subst hk
      obtain ⟨q, hq, hr⟩ := (ReadsTo_append _ _ _ _ _).1 hr
      obtain ⟨-, rfl⟩ := ReadsTo_unique _ _ _ _ _ _ rfl hq r1
      exact hr
    rcases readBytes_at buf 6 s1 p1 a1 with ⟨l, p2, s2, hl, r2, e2, a2⟩ | ⟨no, l, s2, hl, e2, f2⟩
    · rw [e2]
      dsimp only
      have pre2 : ∀ k' p (m' : Msg), ReadsTo (pairs buf) 0 (msgBits k' (msgBytes m')) p →
          msgBytes m' = l ∧ ReadsTo (pairs buf) p2 [false] p := by
        intro k' p m' hr
        have hr := pre k' p m' hr
        obtain ⟨q, hq, hr⟩ := (ReadsTo_append _ _ _ _ _).1 hr
        have hll : ((msgBytes m').flatMap byteBits).length = (l.flatMap byteBits).length := by
          have : ∀ x : Bytes, (x.flatMap byteBits).length = 9 * x.length := by
            intro x
            induction x with
            | nil => rfl
            | cons y ys ih =>
              rw [List.flatMap_cons, List.length_append, ih]
              have : (byteBits y).length = 9 := rfl
              rw [this, List.length_cons]; omega
          rw [this, this, hl]; rfl
        obtain ⟨e, rfl⟩ := ReadsTo_unique _ _ _ _ _ _ hll hq r2
        refine ⟨?_, hr⟩
        have inj : ∀ (x y : Bytes), x.length = y.length → x.flatMap byteBits = y.flatMap byteBits → x = y := by
          intro x
          induction x with
          | nil => intro y hy _; exact (List.length_eq_zero_iff.1 hy.symm).symm
          | cons a x ih =>
            intro y hy he
            cases y with
            | nil => simp at hy
            | cons b y =>
              rw [List.flatMap_cons, List.flatMap_cons] at he
              have h9 := List.append_inj he rfl
              have h8 := List.append_inj (s₁ := bitsOfByte a) (s₂ := bitsOfByte b) h9.1 rfl
              rw [bitsOfByte_inj a b h8.1, ih y (by simpa using hy) h9.2]
        exact inj _ _ (by rw [hl]; rfl) e
      match l, hl with
      | [hc1, hc2, ad, co, ex, cs], _ =>
        simp only [finish, a2.1, Bool.false_eq_true, if_false]
        by_cases hc : checksum ⟨hc1, hc2, ad, co, ex⟩ = cs
        · subst hc
          rw [if_neg (fun h => h rfl)]
          have h3 := readOneBit_at buf s2 p2 a2
          cases hx : bitAt (pairs buf) p2 with
          | none =>
            rw [hx] at h3
            obtain ⟨s3, e3, f3⟩ := h3
            rw [e3]
            simp only [Res.andThen, Bool.false_eq_true, if_false, f3, if_true, reduceCtorEq, false_iff]
            rintro ⟨k', p, hr, -⟩
            obtain ⟨-, q, hq, -⟩ := pre2 k' p m hr
            rw [hx] at hq; simp at hq
          | some v =>
            obtain ⟨b, p3⟩ := v
            rw [hx] at h3
            obtain ⟨s3, e3, a3⟩ := h3
            rw [e3]
            cases b with
            | true =>
              simp only [Res.andThen, if_true, reduceCtorEq, false_iff]
              rintro ⟨k', p, hr, -⟩
              obtain ⟨-, q, hq, -⟩ := pre2 k' p m hr
              rw [hx] at hq; simp at hq
            | false =>
              simp only [Res.andThen, Bool.false_eq_true, if_false, a3.1, Res.ok.injEq, Prod.mk.injEq]
              constructor
              · rintro ⟨rfl, rfl⟩
                refine ⟨k, p3, ?_, by rw [a3.2.1]⟩
                rw [assoc, ReadsTo_append]
                refine ⟨p1, r1, ?_⟩
                rw [ReadsTo_append]
                exact ⟨p2, r2, p3, hx, rfl⟩
              · rintro ⟨k', p, hr, rfl⟩
                obtain ⟨em, q, hq, hq'⟩ := pre2 k' p m hr
                rw [hx] at hq
                obtain rfl : p3 = q := by simpa using hq
                obtain rfl : p3 = p := hq'
                refine ⟨?_, by rw [a3.2.1]⟩
                obtain ⟨x1, x2, x3, x4, x5⟩ := m
                simp only [msgBytes, List.cons.injEq] at em
                obtain ⟨rfl, rfl, rfl, rfl, rfl, -⟩ := em
                rfl
        · rw [if_pos hc]
          simp only [reduceCtorEq, false_iff]
          rintro ⟨k', p, hr, -⟩
          obtain ⟨em, -⟩ := pre2 k' p m hr
          obtain ⟨x1, x2, x3, x4, x5⟩ := m
          simp only [msgBytes, List.cons.injEq] at em
          obtain ⟨rfl, rfl, rfl, rfl, rfl, h, -⟩ := em
          exact hc h
    · rw [e2]
      match l, hl with
      | [hc1, hc2, ad, co, ex, cs], _ =>
        simp only [finish, f2, if_true, reduceCtorEq, false_iff]
        rintro ⟨k', p, hr, -⟩
        obtain ⟨q, hq, -⟩ := (ReadsTo_append _ _ _ _ _).1 (pre k' p m hr)
        exact no ⟨_, q, rfl, hq⟩
  · rw [e1]
    simp only [Res.andThen, reduceCtorEq, false_iff]
    rintro ⟨k', p, hr, -⟩
    rw [assoc] at hr
    obtain ⟨q, hq, -⟩ := (ReadsTo_append _ _ _ _ _).1 hr
    exact no ⟨k', q, hq⟩

end OTR.FHT8V
