import Verif.Model.Seed
import Verif.Props.Entropy
/-!
# C216–C218: start-up seeding and the clock jitter byte
-/

namespace OTR.Props
open OTR

/-! ## Specification -/

/-- The counts the jitter loop completes, in order: of the watchdog (`true`), the turns from one firing to the next; of the RTC (`false`), the turns from one tick to the next, counted
down from 0. `w`, `r`: counts so far; `t`: RTC counter at the last tick seen. -/
def jCounts (w r t : Byte) : List JTurn → List (Bool × Byte)
  | [] => []
  | x :: xs => (if x.fired then [(true, w)] else []) ++ (if t = x.r1 then [] else [(false, r)]) ++
      jCounts (if x.fired then 0 else w + 1) (if t = x.r1 then r - 1 else 0) (if t = x.r1 then t else x.r2) xs

/-- Those that differ from the one before of the same clock (the first: from 0). -/
def jNews (lw lr : Byte) : List (Bool × Byte) → List Byte
  | [] => []
  | (true, w) :: l => (if w = lw then [] else [w]) ++ jNews w lr l
  | (false, r) :: l => (if r = lr then [] else [r]) ++ jNews lw r l

/-- The byte made of counts: each is hashed in, and the low byte of the hash combined with what there is shifted left. -/
def jHash (h : Crc16) (res : Byte) : List Byte → Byte
  | [] => res
  | w :: ws => jHash (ccitt h w) ((res <<< 1) ^^^ (ccitt h w).lo) ws

/-! ## Proofs -/

theorem jrun_eq (ts : List JTurn) : ∀ s : JState, 0 < s.left → s.run ts =
    (let n := jNews s.lastW s.lastR (jCounts s.countW s.countR s.t1 ts)
     if s.left ≤ n.length then some (jHash s.hash s.result (n.take s.left)) else none) := by
  induction ts with
  | nil => intro s hs; simp [JState.run, jCounts, jNews]; omega
  | cons x xs ih =>
    rintro ⟨h, res, cR, lR, cW, lW, t1, left⟩ hs
    obtain ⟨n, rfl⟩ : ∃ n, left = n + 1 := ⟨left - 1, by simp at hs; omega⟩
    obtain ⟨f, r1, r2⟩ := x
    have tick : ∀ (h : Crc16) (res cW lW : Byte) (n : Nat),
        (let s := JState.rtc ⟨h, res, cR, lR, cW, lW, t1, n + 1⟩ r1 r2
         if s.left = 0 then some s.result else s.run xs) =
        (let m := jNews lW lR ((if t1 = r1 then [] else [(false, cR)]) ++ jCounts cW (if t1 = r1 then cR - 1 else 0) (if t1 = r1 then t1 else r2) xs)
         if n + 1 ≤ m.length then some (jHash h res (m.take (n + 1))) else none) := by
      intro h res cW lW n
      unfold JState.rtc
      by_cases ht : t1 = r1
      · simp only [ht, if_true, List.nil_append, Nat.add_one_ne_zero, if_false]
        rw [ih _ (Nat.succ_pos _)]
      · by_cases hc : cR = lR
        · simp only [ht, hc, if_false, ne_eq, not_true, Nat.add_one_ne_zero]
          rw [ih _ (Nat.succ_pos _)]
          simp [jNews]
        · simp only [ht, hc, if_false, ne_eq, not_false_eq_true, if_true, JState.mix, Nat.add_sub_cancel]
          by_cases hn : n = 0
          · subst hn
            simp [jNews, hc, jHash]
          · simp only [hn, if_false]
            rw [ih _ (Nat.pos_of_ne_zero hn)]
            simp [jNews, hc, jHash]
    unfold JState.run JState.wd
    cases f with
    | false =>
      simp only [Bool.false_eq_true, if_false, Nat.add_one_ne_zero, jCounts, List.nil_append]
      exact tick h res (cW + 1) lW n
    | true =>
      by_cases hc : cW = lW
      · simp only [hc, if_true, ne_eq, not_true, if_false, Nat.add_one_ne_zero, jCounts]
        rw [tick h res 0 lW n]
        simp [jNews]
      · simp only [hc, if_true, ne_eq, not_false_eq_true, JState.mix, Nat.add_sub_cancel, jCounts]
        by_cases hn : n = 0
        · subst hn
          simp [jNews, hc, jHash]
        · simp only [hn, if_false]
          obtain ⟨m, rfl⟩ : ∃ m, n = m + 1 := ⟨n - 1, by omega⟩
          rw [tick _ _ 0 cW m]
          simp [jNews, hc, jHash]

/-- **C217** `clockJitterEntropyByte()` returns once eight counts, of the two clocks together, have differed from the one before of the same clock, and not before; what it returns is made
of these eight, in order. -/
theorem C217_eight_changes (h : Crc16) (t : Byte) (ts : List JTurn) :
    (8 ≤ (jNews 0 0 (jCounts 0 0 t ts)).length → jitterByte h t ts = some (jHash h 0 ((jNews 0 0 (jCounts 0 0 t ts)).take 8))) ∧
    ((jNews 0 0 (jCounts 0 0 t ts)).length < 8 → jitterByte h t ts = none) := by
  have := jrun_eq ts ⟨h, 0, 0, 0, 0, 0, t, 8⟩ (Nat.succ_pos 7)
  unfold jitterByte
  rw [this]
  constructor
  · intro h8; simp only [h8, if_true]
  · intro h8; simp only [show ¬ 8 ≤ (jNews 0 0 (jCounts 0 0 t ts)).length by omega, if_false]

/-- `k` quiet turns. -/
def jQuiet (t : Byte) (k : Nat) : List JTurn := List.replicate k ⟨false, t, t⟩

/-- Clocks in step, ticking every `k + 1` turns, for `n` ticks. -/
def jSteady (k : Nat) : Nat → Byte → List JTurn
  | 0, _ => []
  | n + 1, t => jQuiet t k ++ ⟨true, t + 1, t + 1⟩ :: jSteady k n (t + 1)

theorem jCounts_quiet (w r t : Byte) (k : Nat) (xs : List JTurn) : jCounts w r t (jQuiet t k ++ xs) = jCounts (w + u8 k) (r - u8 k) t xs := by
  induction k generalizing w r with
  | zero => simp [jQuiet, u8]
  | succ k ih =>
    have : jQuiet t (k + 1) = ⟨false, t, t⟩ :: jQuiet t k := rfl
    rw [this, List.cons_append, jCounts]
    simp only [Bool.false_eq_true, if_false, if_true, List.nil_append]
    rw [ih]
    have e : u8 (k + 1) = 1 + u8 k := by
      unfold u8; rw [Nat.add_comm]; simp
    rw [e, UInt8.add_assoc, show r - 1 - u8 k = r - (1 + u8 k) by rw [UInt8.sub_eq_add_neg, UInt8.sub_eq_add_neg, UInt8.sub_eq_add_neg, UInt8.neg_add, UInt8.sub_eq_add_neg, UInt8.add_assoc]]

theorem ne_succ (t : Byte) : t ≠ t + 1 := by
  revert t; apply forall_byte; decide +kernel

theorem jSteady_counts (k n : Nat) (t : Byte) : jCounts 0 0 t (jSteady k n t) = (List.replicate n [(true, u8 k), (false, 0 - u8 k)]).flatten := by
  induction n generalizing t with
  | zero => rfl
  | succ n ih =>
    rw [jSteady, jCounts_quiet, jCounts]
    simp only [if_true, if_neg (ne_succ t)]
    rw [ih]
    simp [List.replicate_succ]

theorem jNews_same (w r : Byte) (n : Nat) : jNews w r (List.replicate n [(true, w), (false, r)]).flatten = [] := by
  induction n with
  | zero => rfl
  | succ n ih => simp [List.replicate_succ, jNews, ih]

/-- **C217** So with clocks that do not jitter against the CPU's it never returns: here with watchdog and RTC both ticking every `k + 1` turns. -/
theorem C217_steady_hang_refuted (h : Crc16) (t : Byte) (k n : Nat) : jitterByte h t (jSteady k n t) = none := by
  apply (C217_eight_changes h t _).2
  rw [jSteady_counts]
  cases n with
  | zero => exact Nat.succ_pos 7
  | succ n =>
    simp only [List.replicate_succ, List.flatten_cons, List.cons_append, List.nil_append, jNews, jNews_same, List.append_nil, List.length_append]
    split <;> split <;> simp

/-! ### Every count counts -/

def _root_.OTR.Crc16.xor (a b : Crc16) : Crc16 := ⟨a.hi ^^^ b.hi, a.lo ^^^ b.lo⟩

theorem lin_ccittByte : Lin ccittByte := lin_id.xor (lin_shl 4)

theorem ccitt_xor (a b : Crc16) (x y : Byte) : ccitt (a.xor b) (x ^^^ y) = (ccitt a x).xor (ccitt b y) := by
  unfold ccitt Crc16.xor
  have e : (x ^^^ y) ^^^ (a.lo ^^^ b.lo) = (x ^^^ a.lo) ^^^ (y ^^^ b.lo) := xor4 _ _ _ _
  simp only [e, lin_ccittByte (x ^^^ a.lo) (y ^^^ b.lo)]
  generalize ccittByte (x ^^^ a.lo) = p
  generalize ccittByte (y ^^^ b.lo) = q
  congr 1
  · exact (lin_id.xor (lin_shr 5)) p q
  · rw [show (p ^^^ q) >>> 4 = p >>> 4 ^^^ q >>> 4 from lin_shr 4 p q, show (p ^^^ q) <<< 3 = p <<< 3 ^^^ q <<< 3 from lin_shl 3 p q, xor4 a.hi b.hi, xor4]

theorem jHash_xor (us vs : List Byte) : ∀ (a b : Crc16) (p q : Byte), us.length = vs.length →
    jHash (a.xor b) (p ^^^ q) (List.zipWith (· ^^^ ·) us vs) = jHash a p us ^^^ jHash b q vs := by
  induction us generalizing vs with
  | nil =>
    intro a b p q hl
    cases vs with
    | nil => rfl
    | cons => cases hl
  | cons u us ih =>
    intro a b p q hl
    cases vs with
    | nil => cases hl
    | cons v vs =>
      simp only [List.zipWith_cons_cons, jHash]
      rw [ccitt_xor, show (p ^^^ q) <<< 1 = p <<< 1 ^^^ q <<< 1 from lin_shl 1 p q]
      have : (p <<< 1 ^^^ q <<< 1) ^^^ ((ccitt a u).xor (ccitt b v)).lo = (p <<< 1 ^^^ (ccitt a u).lo) ^^^ (q <<< 1 ^^^ (ccitt b v).lo) := xor4 _ _ _ _
      rw [this]
      exact ih vs _ _ _ _ (by simpa using hl)

/-- The effect of a difference `d` in the count at place `i` of eight. -/
def jEffect (i : Nat) (d : Byte) : Byte := jHash ⟨0, 0⟩ 0 ((List.replicate 8 (0 : Byte)).set i d)

theorem xor_self_crc (a : Crc16) : a.xor a = ⟨0, 0⟩ := by simp [Crc16.xor]

theorem zip_set (ws : List Byte) (i : Nat) (v v' : Byte) (hl : ws.length = 8) :
    List.zipWith (· ^^^ ·) (ws.set i v) (ws.set i v') = (List.replicate 8 (0 : Byte)).set i (v ^^^ v') := by
  apply List.ext_getElem
  · simp [hl]
  · intro j h1 h2
    simp only [List.getElem_zipWith, List.getElem_set, List.getElem_replicate]
    split
    · rfl
    · simp

theorem jHash_diff (h : Crc16) (ws : List Byte) (hl : ws.length = 8) (i : Nat) (v v' : Byte) :
    jHash h 0 (ws.set i v) ^^^ jHash h 0 (ws.set i v') = jEffect i (v ^^^ v') := by
  rw [← jHash_xor _ _ h h 0 0 (by simp), zip_set ws i v v' hl, xor_self_crc]
  rfl

/-- The differences that have no effect at each place. -/
def jLost : Nat → List Byte
  | 0 => [0, 0x2f]
  | 1 => [0, 0x5e]
  | 6 => [0, 0x71, 0xbc, 0xcd]
  | 7 => [0, 0x91]
  | _ => [0]

theorem jLost_spec (i : Nat) (hi : i < 8) : ∀ d : Byte, jEffect i d = 0 ↔ d ∈ jLost i := by
  have : i = 0 ∨ i = 1 ∨ i = 2 ∨ i = 3 ∨ i = 4 ∨ i = 5 ∨ i = 6 ∨ i = 7 := by omega
  rcases this with h | h | h | h | h | h | h | h <;> subst h <;> apply forall_byte <;> decide +kernel

/-- **C218** Each of the eight counts moves the byte: with the others and the start value as they are, two values of a count give the same byte exactly if they differ by one of a
fixed set of at most four differences; so each count gives 64 different bytes or more, and those in the middle all 256. -/
theorem C218_every_count (h : Crc16) (ws : List Byte) (hl : ws.length = 8) (i : Nat) (hi : i < 8) (v v' : Byte) :
    jHash h 0 (ws.set i v) = jHash h 0 (ws.set i v') ↔ v ^^^ v' ∈ jLost i := by
  rw [← jLost_spec i hi, ← jHash_diff h ws hl i v v']
  constructor
  · intro e; rw [e]; simp
  · intro e
    apply xor_cancel_right _ _ (jHash h 0 (ws.set i v'))
    rw [e]; simp

theorem C218_middle (h : Crc16) (ws : List Byte) (hl : ws.length = 8) (i : Nat) (hi : 2 ≤ i ∧ i ≤ 5) (v v' : Byte)
    (e : jHash h 0 (ws.set i v) = jHash h 0 (ws.set i v')) : v = v' := by
  have := (C218_every_count h ws hl i (by omega) v v').1 e
  have h1 : jLost i = [0] := by
    have : i = 2 ∨ i = 3 ∨ i = 4 ∨ i = 5 := by omega
    rcases this with h | h | h | h <;> subst h <;> rfl
  rw [h1, List.mem_singleton] at this
  apply xor_cancel_right _ _ v'
  rw [this]; simp

/-- Eight watchdog firings, after 1, 2, ... 8 quiet turns; the RTC does not tick. -/
def exJitter : List JTurn := ((List.range 8).map fun k => jQuiet 7 (k + 1) ++ [⟨true, 7, 7⟩]).flatten
example : jNews 0 0 (jCounts 0 0 7 exJitter) = [1, 2, 3, 4, 5, 6, 7, 8] ∧ jitterByte ⟨0, 9⟩ 7 exJitter = some (jHash ⟨0, 9⟩ 0 [1, 2, 3, 4, 5, 6, 7, 8]) ∧
    jitterByte ⟨0, 9⟩ 7 (exJitter.take 43) = none ∧ (jitterByte ⟨0, 9⟩ 7 exJitter).isSome = true := by decide +kernel
/-- With both clocks: a repeated count is left out. -/
example : jNews 0 0 (jCounts 0 0 7 [⟨false, 7, 7⟩, ⟨true, 8, 8⟩, ⟨false, 8, 8⟩, ⟨true, 9, 9⟩]) = [1, 255] := by decide +kernel
/-- A lost difference: the last count. -/
example : jHash ⟨0, 9⟩ 0 [1, 2, 3, 4, 5, 6, 7, 8] = jHash ⟨0, 9⟩ 0 [1, 2, 3, 4, 5, 6, 7, 8 ^^^ 0x91] := by decide +kernel

/-! ## C216 -/

/-- The CRC step loses nothing: from its result the high byte before and the combination of low byte and data can be had back. -/
theorem ccitt_inj (a b : Crc16) (x y : Byte) (h : (ccitt a x).hi = (ccitt b y).hi) : x ^^^ a.lo = y ^^^ b.lo := by
  unfold ccitt at h
  dsimp only at h
  have l : Lin fun z => ccittByte z ^^^ (ccittByte z >>> 5) := lin_ccittByte.xor ((lin_shr 5).comp lin_ccittByte)
  exact inj_of_ker l (by apply forall_byte; decide +kernel) _ _ h

theorem ccitt_hi (a b : Crc16) (x y : Byte) (h : ccitt a x = ccitt b y) : a.hi = b.hi ∧ x ^^^ a.lo = y ^^^ b.lo := by
  have h1 := ccitt_inj a b x y (congrArg Crc16.hi h)
  refine ⟨?_, h1⟩
  have h2 := congrArg Crc16.lo h
  unfold ccitt at h2
  dsimp only at h2
  rw [h1] at h2
  exact xor_cancel_right _ _ _ (xor_cancel_right _ _ _ h2)

theorem ccitt_state (a b : Crc16) (x : Byte) (h : ccitt a x = ccitt b x) : a = b := by
  obtain ⟨h1, h2⟩ := ccitt_hi a b x x h
  have := xor_cancel_left _ _ _ h2
  cases a; cases b; simp_all

theorem sweep_tail (l : Bytes) : ∀ a b : Crc16, l.foldl ccitt a = l.foldl ccitt b → a = b := by
  induction l with
  | nil => intro a b h; exact h
  | cons x l ih => intro a b h; exact ccitt_state _ _ x (ih _ _ h)

/-- The hash of memory differs whenever memory differs within two neighbouring bytes. -/
theorem sweep_two (pre post : Bytes) (x y x' y' : Byte) (h : sweepCRC (pre ++ x :: y :: post) = sweepCRC (pre ++ x' :: y' :: post)) : x = x' ∧ y = y' := by
  unfold sweepCRC at h
  rw [List.foldl_append, List.foldl_append] at h
  generalize pre.foldl ccitt ⟨0xff, 0xff⟩ = c at h
  simp only [List.foldl_cons] at h
  have h1 := sweep_tail post _ _ h
  obtain ⟨h2, h3⟩ := ccitt_hi _ _ _ _ h1
  have h4 := xor_cancel_right _ _ _ (ccitt_inj c c x x' h2)
  subst h4
  exact ⟨rfl, xor_cancel_right _ _ _ h3⟩

/-- All else the same, the generator's state tells the EEPROM's hash. -/
theorem seed_hash (i : SeedIn) (ee ee' : Bytes) (st : Byte × Rng) (hs : ∀ j, j < 4 → ee.getD (EE_SEED + j) 0 = ee'.getD (EE_SEED + j) 0)
    (h : seedState i ee st = seedState i ee' st) : sweepCRC ee = sweepCRC ee' := by
  unfold seedState addEntropy at h
  simp only [hs 0 (by omega), hs 1 (by omega), hs 2 (by omega), hs 3 (by omega), Prod.mk.injEq, true_and] at h
  have h := C142_seed_keeps_state _ _ _ _ _ h
  have h := C142_seed_keeps_state _ _ _ _ _ h
  have h := C142_seed_keeps_state _ _ _ _ _ h
  have h := C142_seed_keeps_state _ _ _ _ _ h
  have h := C142_seed_keeps_state _ _ _ _ _ h
  have h := C142_seed_keeps_state _ _ _ _ _ h
  have h := C142_step_injective _ _ h
  simp only [Rng.seed, Rng.step, Rng.mk.injEq] at h
  obtain ⟨h1, h2, _, _⟩ := h
  have hlo := xor_cancel_right _ _ _ (xor_cancel_left _ _ _ h1)
  have h2 := xor_cancel_right _ _ _ h2
  have hhi := xor_cancel_left _ _ _ ((UInt8.add_left_inj _).1 h2)
  generalize sweepCRC ee = a at *
  generalize sweepCRC ee' = b at *
  cases a; cases b; simp_all

/-- **C216** What the EEPROM holds makes a difference: all else being the same (memory, clocks, noise, generator), two EEPROM contents that differ only within two neighbouring bytes, outside the seed
area — a counter, a setting, a node's ID —, give the generator different states. -/
theorem C216_eeprom_seeds (i : SeedIn) (st : Byte × Rng) (pre post : Bytes) (x y x' y' : Byte) (hpos : 6 ≤ pre.length ∨ pre.length = 0) (hne : (x, y) ≠ (x', y')) :
    seedState i (pre ++ x :: y :: post) st ≠ seedState i (pre ++ x' :: y' :: post) st := by
  intro h
  apply hne
  have := sweep_two pre post x y x' y' (seed_hash i _ _ st (by
    intro j hj
    unfold EE_SEED
    rcases hpos with hp | hp
    · simp only [List.getD_eq_getElem?_getD]
      rw [List.getElem?_append_left (by omega), List.getElem?_append_left (by omega)]
    · rw [List.length_eq_zero_iff] at hp
      subst hp
      rw [show 2 + j = j + 1 + 1 by omega]
      simp) h)
  rw [this.1, this.2]

/-- **C216** And so do two generator states: seeding does not make what was there before worthless. -/
theorem C216_keeps_state (i : SeedIn) (ee : Bytes) (n : Byte) (s t : Rng) (h : seedState i ee (n, s) = seedState i ee (n, t)) : s = t := by
  unfold seedState addEntropy at h
  simp only [Prod.mk.injEq, true_and] at h
  have h := C142_seed_keeps_state _ _ _ _ _ h
  have h := C142_seed_keeps_state _ _ _ _ _ h
  have h := C142_seed_keeps_state _ _ _ _ _ h
  have h := C142_seed_keeps_state _ _ _ _ _ h
  have h := C142_seed_keeps_state _ _ _ _ _ h
  have h := C142_seed_keeps_state _ _ _ _ _ h
  have h := C142_seed_keeps_state _ _ _ _ _ h
  exact C142_seed_keeps_state _ _ _ _ _ h

/-- **C216** Of the EEPROM only the four seed bytes are written, and of these at most one; it is erased exactly if it was 0, else bits of it are cleared. -/
theorem C216_writes (i : SeedIn) (ee : Bytes) (hl : 6 ≤ ee.length) : (seedEE i ee).length = ee.length ∧
    ∃ p, 2 ≤ p ∧ p < 6 ∧ (∀ j, j ≠ p → (seedEE i ee).getD j 0 = ee.getD j 0) ∧
      ((ee.getD p 0 = 0 ∧ (seedEE i ee).getD p 0 = 0xff) ∨ (ee.getD p 0 ≠ 0 ∧ ∃ m, (seedEE i ee).getD p 0 = ee.getD p 0 &&& m)) := by
  have hp : seedPick i ee < 4 := by
    unfold seedPick
    have : ∀ b : Byte, ((3 : Byte) &&& b).toNat < 4 := by apply forall_byte; decide +kernel
    exact this _
  refine ⟨by simp [seedEE], 2 + seedPick i ee, by omega, by omega, fun j hj => ?_, ?_⟩
  · unfold seedEE EE_SEED
    simp only [List.getD_eq_getElem?_getD]
    rw [List.getElem?_set_ne (by omega)]
  · have e : (seedEE i ee).getD (2 + seedPick i ee) 0 = if ee.getD (2 + seedPick i ee) 0 = 0 then 0xff else ee.getD (2 + seedPick i ee) 0 &&& (i.jitter ^^^ (sweepCRC ee).lo) := by
      unfold seedEE EE_SEED
      simp only [List.getD_eq_getElem?_getD]
      rw [List.getElem?_set_self (by omega)]
      rfl
    rw [e]
    by_cases hz : ee.getD (2 + seedPick i ee) 0 = 0
    · exact .inl ⟨hz, if_pos hz⟩
    · exact .inr ⟨hz, _, if_neg hz⟩

def exSeedIn : SeedIn := ⟨[1, 2, 3], 7, 8, 9, fun n => (u8 n, u8 (n + 1)), 5, 0x37, 0x5a⟩
/-- A changed EEPROM byte, another generator state; one seed byte is changed. -/
example : seedState exSeedIn (List.replicate 32 0xff) (0, ⟨0, 0, 0, 0⟩) ≠ seedState exSeedIn ((List.replicate 32 0xff).set 14 20) (0, ⟨0, 0, 0, 0⟩) ∧
    seedPick exSeedIn (List.replicate 32 0xff) < 4 ∧ seedEE exSeedIn (List.replicate 32 0xff) ≠ List.replicate 32 0xff := by decide +kernel
example : sweepCRC [0x31, 0x32, 0x33, 0x34, 0x35, 0x36, 0x37, 0x38, 0x39] = ⟨0x6f, 0x91⟩ := by decide +kernel

end OTR.Props
