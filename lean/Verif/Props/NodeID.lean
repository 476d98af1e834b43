import Verif.Props.RxCounter
/-!
# C187–C189: node ID creation and administration of associations and keys, with power failures
-/

namespace OTR.Props
open OTR

/-! ## Specification -/

/-- A random byte that gives an ID byte: its top bit set, it must not be 0xff. -/
def usableRnd (r : Byte) : Bool := decide ((0x80 ||| r) ≠ 0xff)

/-- The ID bytes offered by a random source. -/
def idStream (rnd : Bytes) : Bytes := (rnd.filter usableRnd).map fun r => 0x80 ||| r

/-- Fill the unset (0xff) bytes, or with `force` all, from a stream. -/
def fillID (force : Bool) : Bytes → Bytes → Bytes
  | [], _ => []
  | b :: t, s => if force ∨ b = 0xff then s.headD 0 :: fillID force t s.tail else b :: fillID force t s

/-- EEPROM after calls of `ensureIDCreated()` (force, random bytes), each cut off after some writes. -/
def idAttempts : EE → List (Bool × Bytes × Nat) → EE
  | m, [] => m
  | m, (f, rnd, k) :: t => idAttempts (applyW m ((ensureIDCreated f rnd m).2.take k)) t

/-! ## C187 -/

theorem valid_or : ∀ r : Byte, usableRnd r = true → validIDByte (0x80 ||| r) = true := by
  apply forall_byte; decide +kernel

theorem valid_not_ff : ∀ b : Byte, validIDByte b = true → b ≠ 0xff := by
  apply forall_byte; decide +kernel

theorem ensureCell_eq : ∀ rnd : Bytes, (ensureCell rnd = none ∧ rnd.filter usableRnd = []) ∨
    ∃ r rnd', ensureCell rnd = some (0x80 ||| r, rnd') ∧ usableRnd r = true ∧ rnd.filter usableRnd = r :: rnd'.filter usableRnd
  | [] => .inl ⟨rfl, rfl⟩
  | r :: t => by
    rw [ensureCell]
    by_cases h : (0x80 ||| r) = 0xff
    · rw [if_pos h, List.filter_cons_of_neg (by simp [usableRnd, h])]
      exact ensureCell_eq t
    · rw [if_neg h, List.filter_cons_of_pos (by simp [usableRnd, h])]
      exact .inr ⟨r, t, rfl, by simp [usableRnd, h], rfl⟩

/-- One step of the loop. -/
theorem ensure_step (force : Bool) (k i : Nat) (rnd : Bytes) (m : EE) :
    let b := m (20 + i)
    (¬ (force = true ∨ b = 0xff) → ensureFrom force (k + 1) i rnd m =
      if validIDByte b = false then (some false, []) else ensureFrom force k (i + 1) rnd m) ∧
    ((force = true ∨ b = 0xff) → (ensureCell rnd = none → ensureFrom force (k + 1) i rnd m = (none, [])) ∧
      ∀ r rnd', ensureCell rnd = some (0x80 ||| r, rnd') → usableRnd r = true → ensureFrom force (k + 1) i rnd m =
        ((ensureFrom force k (i + 1) rnd' (m.upd (20 + i) (0x80 ||| r))).1,
          wr1 m (20 + i) (0x80 ||| r) ++ (ensureFrom force k (i + 1) rnd' (m.upd (20 + i) (0x80 ||| r))).2)) := by
  refine ⟨?_, ?_⟩
  · intro h
    simp only [ensureFrom, eeRead, if_neg h, emBind, emRet, emIf, applyW_nil, List.nil_append]
  · intro h
    refine ⟨?_, ?_⟩
    · intro hn
      simp only [ensureFrom, eeRead, if_pos h, hn, emRet]
    · intro r rnd' hs hu
      have hv := valid_or r hu
      simp only [ensureFrom, eeRead, if_pos h, hs, emBind, smartUpdate_eq, applyW_wr1, emIf]
      have e : (m.upd (20 + i) (0x80 ||| r)) (20 + i) = 0x80 ||| r := by simp [EE.upd]
      rw [e, hv]
      simp

theorem ensure_addr (force : Bool) : ∀ (k i : Nat) (rnd : Bytes) (m : EE), ∀ w ∈ (ensureFrom force k i rnd m).2,
    20 + i ≤ w.1 ∧ w.1 < 20 + i + k ∧ validIDByte w.2 = true ∧ (force = false → m w.1 = 0xff)
  | 0, _, _, _, w, h => by cases h
  | k + 1, i, rnd, m, w, h => by
    obtain ⟨s1, s2⟩ := ensure_step force k i rnd m
    by_cases hf : force = true ∨ m (20 + i) = 0xff
    · rcases ensureCell_eq rnd with ⟨hn, _⟩ | ⟨r, rnd', hs, hu, _⟩
      · rw [(s2 hf).1 hn] at h; cases h
      · rw [(s2 hf).2 r rnd' hs hu] at h
        simp only [List.mem_append] at h
        rcases h with h | h
        · have : w = (20 + i, 0x80 ||| r) := by
            unfold wr1 at h; split at h
            · cases h
            · simpa using h
          subst this
          refine ⟨by omega, by dsimp only; omega, valid_or r hu, fun hff => ?_⟩
          rcases hf with hf | hf
          · rw [hf] at hff; cases hff
          · exact hf
        · obtain ⟨a1, a2, a3, a4⟩ := ensure_addr force k (i + 1) rnd' _ w h
          refine ⟨by omega, by omega, a3, fun hff => ?_⟩
          have := a4 hff
          rwa [EE.upd_other _ _ (by omega)] at this
    · rw [s1 hf] at h
      split at h
      · cases h
      · obtain ⟨a1, a2, a3, a4⟩ := ensure_addr force k (i + 1) rnd _ w h
        exact ⟨by omega, by omega, a3, a4⟩

theorem block_cons (m : EE) (a k : Nat) : eeBlock m a (k + 1) = m a :: eeBlock m (a + 1) k := by
  unfold eeBlock
  rw [List.range_succ_eq_map, List.map_cons, List.map_map]
  congr 1
  apply List.map_congr_left
  intro x _
  simp only [Function.comp]
  congr 1
  omega

theorem idStream_cons {rnd rnd' : Bytes} {r : Byte} (h : rnd.filter usableRnd = r :: rnd'.filter usableRnd) :
    idStream rnd = (0x80 ||| r) :: idStream rnd' := by
  unfold idStream; rw [h, List.map_cons]

/-- Result and contents of the loop when it returns true; and when it returns at all. -/
theorem ensure_spec (force : Bool) : ∀ (k i : Nat) (rnd : Bytes) (m : EE),
    let x := ensureFrom force k i rnd m
    let m' := applyW m x.2
    (x.1 = some true → eeBlock m' (20 + i) k = fillID force (eeBlock m (20 + i) k) (idStream rnd) ∧ ∀ j, i ≤ j → j < i + k → validIDByte (m' (20 + j)) = true) ∧
    (x.1 = some false → ∃ j, i ≤ j ∧ j < i + k ∧ validIDByte (m' (20 + j)) = false ∧ m (20 + j) = m' (20 + j) ∧ m (20 + j) ≠ 0xff ∧ force = false) ∧
    (k ≤ (idStream rnd).length → x.1 ≠ none)
  | 0, i, rnd, m => by
    refine ⟨fun _ => ⟨rfl, fun j h1 h2 => by omega⟩, fun h => (by cases h), fun _ h => (by cases h)⟩
  | k + 1, i, rnd, m => by
    intro x m'
    obtain ⟨s1, s2⟩ := ensure_step force k i rnd m
    by_cases hf : force = true ∨ m (20 + i) = 0xff
    · rcases ensureCell_eq rnd with ⟨hn, hnil⟩ | ⟨r, rnd', hs, hu, hfil⟩
      · have hx : x = (none, []) := (s2 hf).1 hn
        rw [hx]
        refine ⟨fun h => (by cases h), fun h => (by cases h), fun h => ?_⟩
        unfold idStream at h; rw [hnil] at h; simp at h
      · have hx := (s2 hf).2 r rnd' hs hu
        obtain ⟨i1, i2, i3⟩ := ensure_spec force k (i + 1) rnd' (m.upd (20 + i) (0x80 ||| r))
        have hm' : m' = applyW (m.upd (20 + i) (0x80 ||| r)) (ensureFrom force k (i + 1) rnd' (m.upd (20 + i) (0x80 ||| r))).2 := by
          show applyW m (ensureFrom force (k + 1) i rnd m).2 = _
          rw [hx, applyW_append, applyW_wr1]
        have hx1 : x.1 = (ensureFrom force k (i + 1) rnd' (m.upd (20 + i) (0x80 ||| r))).1 := by
          show (ensureFrom force (k + 1) i rnd m).1 = _; rw [hx]
        have hown : m' (20 + i) = 0x80 ||| r := by
          rw [hm', applyW_other]
          · simp [EE.upd]
          · intro w hw
            have := ensure_addr force k (i + 1) rnd' _ w hw
            omega
        rw [← hm', ← hx1] at i1 i2
        rw [← hx1] at i3
        refine ⟨fun h => ?_, fun h => ?_, fun h => ?_⟩
        · obtain ⟨e1, e2⟩ := i1 h
          refine ⟨?_, ?_⟩
          · rw [block_cons, block_cons m, hown, fillID, if_pos hf, idStream_cons hfil]
            have e3 : eeBlock (m.upd (20 + i) (0x80 ||| r)) (20 + (i + 1)) k = eeBlock m (20 + i + 1) k :=
              eeBlock_congr fun j _ => EE.upd_other _ _ (by omega)
            rw [e3] at e1
            exact congrArg _ e1
          · intro j h1 h2
            by_cases hj : j = i
            · rw [hj, hown]; exact valid_or r hu
            · exact e2 j (by omega) (by omega)
        · obtain ⟨j, j1, j2, j3, j4, j5, j6⟩ := i2 h
          rw [EE.upd_other _ _ (by omega)] at j4 j5
          exact ⟨j, by omega, by omega, j3, j4, j5, j6⟩
        · apply i3
          rw [idStream_cons hfil] at h
          simpa using h
    · have hx := s1 hf
      by_cases hv : validIDByte (m (20 + i)) = false
      · rw [if_pos hv] at hx
        have hx' : x = (some false, []) := hx
        have hm' : m' = m := by show applyW m x.2 = m; rw [hx']; rfl
        rw [hm', hx']
        refine ⟨fun h => (by cases h), fun _ => ⟨i, by omega, by omega, hv, rfl, fun h => hf (.inr h), ?_⟩, fun _ h => (by cases h)⟩
        cases force
        · rfl
        · exact absurd (.inl rfl) hf
      · rw [if_neg hv] at hx
        obtain ⟨i1, i2, i3⟩ := ensure_spec force k (i + 1) rnd m
        have hx' : x = ensureFrom force k (i + 1) rnd m := hx
        have hm' : m' = applyW m (ensureFrom force k (i + 1) rnd m).2 := by show applyW m x.2 = _; rw [hx']
        have hown : m' (20 + i) = m (20 + i) := by
          rw [hm', applyW_other]
          intro w hw
          have := ensure_addr force k (i + 1) rnd _ w hw
          omega
        rw [← hm', ← hx'] at i1 i2
        rw [← hx'] at i3
        refine ⟨fun h => ?_, fun h => ?_, fun h => i3 (by omega)⟩
        · obtain ⟨e1, e2⟩ := i1 h
          refine ⟨?_, ?_⟩
          · rw [block_cons, block_cons m, hown, fillID, if_neg hf]
            exact congrArg _ e1
          · intro j h1 h2
            by_cases hj : j = i
            · rw [hj, hown]; simpa using hv
            · exact e2 j (by omega) (by omega)
        · obtain ⟨j, j1, j2, j3⟩ := i2 h
          exact ⟨j, by omega, by omega, j3⟩

/-- **C187.** When `ensureIDCreated()` returns: true exactly if all 8 stored ID bytes are now valid (0x80..0xfe); then the bytes that were
unset (all of them, if forced) come from the random source in order and the others are as before. If no byte was invalid before it returns
true. Nothing outside the 8 bytes changes. -/
theorem C187_id_created (force : Bool) (rnd : Bytes) (m : EE) (r : Bool) (hr : (ensureIDCreated force rnd m).1 = some r) :
    let m' := (ensureIDCreated force rnd).post m
    (r = true ↔ ∀ i, i < 8 → validIDByte (m' (20 + i)) = true) ∧
    (r = true → eeBlock m' 20 8 = fillID force (eeBlock m 20 8) (idStream rnd)) ∧
    ((force = true ∨ ∀ i, i < 8 → m (20 + i) = 0xff ∨ validIDByte (m (20 + i)) = true) → r = true) ∧
    ∀ a, ¬ (20 ≤ a ∧ a < 28) → m' a = m a := by
  obtain ⟨s1, s2, s3⟩ := ensure_spec force 8 0 rnd m
  intro m'
  have hm' : applyW m (ensureFrom force 8 0 rnd m).2 = m' := rfl
  have hr' : (ensureFrom force 8 0 rnd m).1 = some r := hr
  rw [hm'] at s1 s2
  refine ⟨?_, ?_, ?_, ?_⟩
  · constructor
    · rintro rfl i hi
      exact (s1 hr').2 i (by omega) (by omega)
    · intro h
      cases r with
      | true => rfl
      | false =>
        obtain ⟨j, j1, j2, j3, _⟩ := s2 hr'
        rw [h j (by omega)] at j3; cases j3
  · rintro rfl; exact (s1 hr').1
  · intro h
    cases r with
    | true => rfl
    | false =>
      obtain ⟨j, j1, j2, j3, j4, j5, j6⟩ := s2 hr'
      rcases h with h | h
      · rw [h] at j6; cases j6
      · rcases h j (by omega) with h | h
        · exact absurd h j5
        · rw [j4, j3] at h; cases h
  · intro a ha
    apply applyW_other
    intro w hw
    have := ensure_addr force 8 0 rnd m w hw
    omega

/-- **C187 (returns).** It returns if the random source offers eight usable bytes. -/
theorem C187_returns (force : Bool) (rnd : Bytes) (m : EE) (h : 8 ≤ (rnd.filter usableRnd).length) : (ensureIDCreated force rnd m).1 ≠ none := by
  obtain ⟨_, _, s3⟩ := ensure_spec force 8 0 rnd m
  exact s3 (by simpa [idStream] using h)

/-- **C187 (stable).** Once all bytes are valid, an unforced call writes nothing, needs no randomness and returns true. -/
theorem C187_stable (rnd : Bytes) (m : EE) (h : ∀ i, i < 8 → validIDByte (m (20 + i)) = true) : ensureIDCreated false rnd m = (some true, []) := by
  have gen : ∀ k i, i + k ≤ 8 → ensureFrom false k i rnd m = (some true, []) := by
    intro k
    induction k with
    | zero => intro i _; rfl
    | succ k ih =>
      intro i hi
      have hv := h i (by omega)
      rw [(ensure_step false k i rnd m).1 (by simp [valid_not_ff _ hv]), if_neg (by simp [hv])]
      exact ih (i + 1) (by omega)
  exact gen 8 0 (by omega)

/-- **C187 (power failures).** From an ID with no invalid byte, after any number of calls each cut off by a power failure at any write there is
still no invalid byte, so a completed call gives a valid ID; and unforced calls never change a byte once it is set. -/
theorem C187_power : ∀ (tries : List (Bool × Bytes × Nat)) (m : EE),
    (∀ i, i < 8 → m (20 + i) = 0xff ∨ validIDByte (m (20 + i)) = true) →
    (∀ i, i < 8 → idAttempts m tries (20 + i) = 0xff ∨ validIDByte (idAttempts m tries (20 + i)) = true) ∧
    (∀ force rnd, 8 ≤ (rnd.filter usableRnd).length → (ensureIDCreated force rnd (idAttempts m tries)).1 = some true) ∧
    ((∀ t ∈ tries, t.1 = false) → ∀ i, i < 8 → m (20 + i) ≠ 0xff → idAttempts m tries (20 + i) = m (20 + i))
  | [], m, h => by
    refine ⟨h, fun force rnd hr => ?_, fun _ i _ _ => rfl⟩
    cases hx : (ensureIDCreated force rnd m).1 with
    | none => exact absurd hx (C187_returns force rnd m hr)
    | some r =>
      have := (C187_id_created force rnd m r hx).2.2.1 (.inr h)
      rw [idAttempts, hx, this]
  | (f, rnd, k) :: t, m, h => by
    have hval : ∀ (ws : List Wr) (m : EE), (∀ w ∈ ws, validIDByte w.2 = true) → (∀ i, i < 8 → m (20 + i) = 0xff ∨ validIDByte (m (20 + i)) = true) →
        ∀ i, i < 8 → applyW m ws (20 + i) = 0xff ∨ validIDByte (applyW m ws (20 + i)) = true := by
      intro ws
      induction ws with
      | nil => intro m _ h; exact h
      | cons w ws ih =>
        intro m hw h
        rw [applyW_cons]
        apply ih _ (fun x hx => hw x (by simp [hx]))
        intro i hi
        by_cases he : 20 + i = w.1
        · right; rw [he]; simp [EE.upd]; exact hw w (by simp)
        · rw [EE.upd_other _ _ he]; exact h i hi
    have h1 := hval ((ensureIDCreated f rnd m).2.take k) m
      (fun w hw => (ensure_addr f 8 0 rnd m w (List.mem_of_mem_take hw)).2.2.1) h
    obtain ⟨g1, g2, g3⟩ := C187_power t _ h1
    refine ⟨g1, g2, fun hfs i hi hne => ?_⟩
    have hkeep : applyW m ((ensureIDCreated f rnd m).2.take k) (20 + i) = m (20 + i) := by
      apply applyW_other
      intro w hw he
      have := (ensure_addr f 8 0 rnd m w (List.mem_of_mem_take hw)).2.2.2 (hfs (f, rnd, k) List.mem_cons_self)
      rw [he] at this
      exact hne this
    rw [idAttempts, g3 (fun x hx => hfs x (by simp [hx])) i hi (by rw [hkeep]; exact hne), hkeep]

/-- Non-vacuity: a fresh unit draws 0x12, then two unusable bytes, then seven more. -/
example : (ensureIDCreated false [0x12, 0x7f, 0xff, 1, 2, 3, 4, 5, 6, 7] (fun _ => 0xff)).1 = some true ∧
    eeBlock ((ensureIDCreated false [0x12, 0x7f, 0xff, 1, 2, 3, 4, 5, 6, 7]).post fun _ => 0xff) 20 8 = [0x92, 0x81, 0x82, 0x83, 0x84, 0x85, 0x86, 0x87] ∧
    (ensureIDCreated false [1, 2, 3, 4, 5, 6, 7, 8] (fun a => if a = 22 then 0x42 else 0xff)).1 = some false := by decide +kernel

/-! ## C188: interrupted administration -/

/-- EEPROM after an operation that is cut off by a power failure after `k` writes. -/
def cutAt {α : Type} (x : EM α) (k : Nat) (m : EE) : EE := applyW m ((x m).2.take k)

/-- Writes of a loop of smart updates. -/
theorem forEach_writes {α : Type} (f : Nat → EM α) (a : Nat → Nat) (v : Nat → Byte) (hf : ∀ x m, (f x m).2 = wr1 m (a x) (v x)) :
    ∀ (xs : List Nat) (m : EE), (emForEach f xs m).2 = smartSeq m (xs.map fun x => (a x, v x))
  | [], _ => rfl
  | x :: t, m => by
    rw [emForEach, List.map_cons, smartSeq]
    simp only [emBind]
    rw [hf, applyW_wr1, forEach_writes f a v hf t]

theorem clear_writes (m : EE) : (clearAllNodeAssociations m).2 = smartSeq m ((List.range 8).map fun i => (assocRow i, (0xff : Byte))) :=
  forEach_writes _ (fun i => assocRow i) (fun _ => 0xff) (fun x m => by rw [smartErase_eq]) _ m

theorem cut_clear (m : EE) (k : Nat) : ∃ j, j ≤ 8 ∧ (k ≠ 0 → ∀ i, i < 8 → m (assocRow i) ≠ 0xff → 0 < i ∨ 0 < j) ∧
    ∀ a, cutAt clearAllNodeAssociations k m a = if ∃ i, i < j ∧ a = assocRow i then 0xff else m a := by
  unfold cutAt
  rw [clear_writes]
  by_cases hk : k = 0
  · refine ⟨0, by omega, fun h => absurd hk h, fun a => ?_⟩
    rw [hk, if_neg (by rintro ⟨i, hi, _⟩; omega)]; rfl
  · have happ : ∀ (xs : List Nat) (m : EE) (a : Nat), applyW m (xs.map fun i => (assocRow i, (0xff : Byte))) a =
        if ∃ i, i ∈ xs ∧ a = assocRow i then 0xff else m a := by
      intro xs
      induction xs with
      | nil => intro m a; simp
      | cons x t ih =>
        intro m a
        rw [List.map_cons, applyW_cons, ih]
        by_cases h1 : ∃ i, i ∈ t ∧ a = assocRow i
        · obtain ⟨i, hi, he⟩ := h1
          rw [if_pos ⟨i, hi, he⟩, if_pos ⟨i, by simp [hi], he⟩]
        · rw [if_neg h1]
          by_cases h2 : a = assocRow x
          · rw [if_pos ⟨x, by simp, h2⟩, h2]; simp [EE.upd]
          · rw [EE.upd_other _ _ h2, if_neg]
            rintro ⟨i, hi, he⟩
            simp only [List.mem_cons] at hi
            rcases hi with rfl | hi
            · exact h2 he
            · exact h1 ⟨i, hi, he⟩
    obtain ⟨k, rfl⟩ := Nat.exists_eq_succ_of_ne_zero hk
    by_cases h0 : m (assocRow 0) = 0xff
    · obtain ⟨j, hj, he⟩ := smartSeq_prefix m ((List.range 8).map fun i => (assocRow i, (0xff : Byte))) (k + 1)
      simp only [List.length_map, List.length_range] at hj
      refine ⟨j, hj, fun _ i _ hi => ?_, fun a => ?_⟩
      · by_cases hz : i = 0
        · rw [hz] at hi; exact absurd h0 hi
        · omega
      · rw [he, ← List.map_take, List.take_range, happ]
        simp only [List.mem_range, Nat.min_eq_left hj]
    · have e8 : (List.range 8).map (fun i => (assocRow i, (0xff : Byte))) = (assocRow 0, 0xff) :: ((List.range' 1 7).map fun i => (assocRow i, (0xff : Byte))) := rfl
      obtain ⟨j, hj, he⟩ := smartSeq_prefix (m.upd (assocRow 0) 0xff) ((List.range' 1 7).map fun i => (assocRow i, (0xff : Byte))) k
      simp only [List.length_map, List.length_range'] at hj
      have htr : (List.range' 1 7).take j = List.range' 1 j := by
        rw [show (7 : Nat) = j + (7 - j) by omega, List.range'_append_1.symm, List.take_left' (by simp)]
      refine ⟨j + 1, by omega, fun _ i _ _ => .inr (by omega), fun a => ?_⟩
      rw [e8, smartSeq]
      have hw : wr1 m (assocRow 0) 0xff = [(assocRow 0, 0xff)] := by unfold wr1; rw [if_neg h0]
      dsimp only
      rw [hw, List.singleton_append, List.take_succ_cons, applyW_cons]
      dsimp only
      rw [he, ← List.map_take, htr, happ]
      by_cases ha : a = assocRow 0
      · rw [if_pos (c := ∃ i, i < j + 1 ∧ a = assocRow i) ⟨0, by omega, ha⟩]
        split
        · rfl
        · rw [ha]; simp [EE.upd]
      · rw [EE.upd_other _ _ ha]
        have : (∃ i, i ∈ List.range' 1 j ∧ a = assocRow i) ↔ ∃ i, i < j + 1 ∧ a = assocRow i := by
          constructor
          · rintro ⟨i, hi, he⟩
            rw [List.mem_range'_1] at hi
            exact ⟨i, by omega, he⟩
          · rintro ⟨i, hi, he⟩
            refine ⟨i, ?_, he⟩
            rw [List.mem_range'_1]
            have : i ≠ 0 := by rintro rfl; exact ha he
            omega
        simp only [this]

/-- What an interrupted clear leaves: rows up to `j` free, the others as they were. -/
theorem cut_clear_table {m : EE} {ids : List Bytes} (ht : Table m ids) (k : Nat) :
    ∃ j, j ≤ 8 ∧ (k ≠ 0 → ids ≠ [] → 0 < j) ∧ (∀ i, i < j → cutAt clearAllNodeAssociations k m (assocRow i) = 0xff) ∧
      (∀ a, (∀ i, i < j → a ≠ assocRow i) → cutAt clearAllNodeAssociations k m a = m a) := by
  obtain ⟨j, h1, h2, h3⟩ := cut_clear m k
  refine ⟨j, h1, fun hk hne => ?_, fun i hi => ?_, fun a ha => ?_⟩
  · rcases h2 hk 0 (by omega) (fun hff => hne (List.length_eq_zero_iff.1 (by have := (table_first ht (by omega)).1 hff; omega))) with h | h
    · omega
    · exact h
  · rw [h3, if_pos ⟨i, hi, rfl⟩]
  · rw [h3, if_neg]
    rintro ⟨i, hi, he⟩
    exact ha i hi he

/-- **C188 (clear).** If clearing the associations is cut off by a power failure, either nothing has happened or the table reads as empty. -/
theorem C188_clear_cut (m : EE) (ids : List Bytes) (ht : Table m ids) (k : Nat) :
    cutAt clearAllNodeAssociations k m = m ∨
    (countNodeAssociations (cutAt clearAllNodeAssociations k m) = 0 ∧
      ∀ pre, getNextMatchingNodeID (cutAt clearAllNodeAssociations k m) 0 pre = none) := by
  obtain ⟨j, h1, h2, h3, h4⟩ := cut_clear_table ht k
  by_cases hj : j = 0
  · left
    funext a
    exact h4 a (fun i hi => by omega)
  · right
    have h0 := h3 0 (by omega)
    refine ⟨?_, ?_⟩
    · unfold countNodeAssociations
      rw [countFrom, if_pos h0]
    · intro pre
      unfold getNextMatchingNodeID
      rw [if_neg (by omega)]
      split
      · rfl
      · rw [Nat.sub_zero, findFrom, if_pos (by rw [rowID_first]; exact h0)]

/-- Rows: some new ones, a gap of free rows up to `j`, then the old ones. -/
structure Gap (m : EE) (news ids : List Bytes) (j : Nat) : Prop where
  fit : news.length ≤ j
  len : ids.length ≤ 8
  new : ∀ i id, news[i]? = some id → rowID m i = id ∧ GoodID id
  gap : ∀ i, news.length ≤ i → i < j → m (assocRow i) = 0xff
  old : ∀ i id, j ≤ i → ids[i]? = some id → rowID m i = id ∧ GoodID id
  free : ∀ i, j ≤ i → ids.length ≤ i → i < 8 → m (assocRow i) = 0xff

theorem rowID_congr {m m' : EE} {i : Nat} (h : ∀ a, assocRow i ≤ a → a < assocRow i + 8 → m' a = m a) : rowID m' i = rowID m i :=
  eeBlock_congr fun j hj => h _ (by omega) (by omega)

theorem good_first {m : EE} {i : Nat} {id : Bytes} (h : rowID m i = id ∧ GoodID id) : m (assocRow i) ≠ 0xff := by
  intro hff
  apply h.2.2
  rw [← h.1, rowID_get _ _ _ (by omega), Nat.add_zero, hff]

/-- Adding goes to the first free row. -/
theorem add_first (m : EE) (id : Bytes) (n : Nat) (hn : n < 8) (hfull : ∀ i, i < n → m (assocRow i) ≠ 0xff) (hfree : m (assocRow n) = 0xff) :
    addNodeAssociation id m = emBind (writeRow (assocRow n) id) (fun _ => emRet (some n)) m := by
  have gen : ∀ k i, k + i = 8 → i ≤ n → addFrom id k i m = emBind (writeRow (assocRow n) id) (fun _ => emRet (some n)) m := by
    intro k
    induction k with
    | zero => intro i h1 h2; omega
    | succ k ih =>
      intro i h1 h2
      simp only [addFrom, eeRead, emIf]
      by_cases he : i = n
      · subst he; rw [if_pos hfree]
      · rw [if_neg (hfull i (by omega))]
        exact ih (i + 1) (by omega) (by omega)
  exact gen 8 0 (by omega) (by omega)

theorem gap_add {m : EE} {news ids : List Bytes} {j : Nat} (h : Gap m news ids j) (hlt : news.length < j) (hj : j ≤ 8) (id : Bytes) (hid : GoodID id) :
    Gap ((addNodeAssociation id).post m) (news ++ [id]) ids j := by
  have hadd := add_first m id news.length (by omega)
    (fun i hi => good_first (h.new i news[i] (List.getElem?_eq_getElem hi))) (h.gap _ (by omega) hlt)
  have hpost : ∀ a, (addNodeAssociation id).post m a =
      if assocRow news.length ≤ a ∧ a < assocRow news.length + 32 then (if a - assocRow news.length < 8 then id[a - assocRow news.length]?.getD 0 else 0xff) else m a := by
    intro a
    have e : (addNodeAssociation id).post m = (writeRow (assocRow news.length) id).post m := by
      show applyW m (addNodeAssociation id m).2 = applyW m (writeRow (assocRow news.length) id m).2
      rw [hadd]
      simp [emBind, emRet]
    rw [e]
    exact post_writeRow _ _ m a
  have hother : ∀ i a, i ≠ news.length → assocRow i ≤ a → a < assocRow i + 8 → (addNodeAssociation id).post m a = m a := by
    intro i a hi h1 h2
    rw [hpost, if_neg]
    rw [assocRow_eq] at *
    omega
  have hrow : ∀ i, i ≠ news.length → rowID ((addNodeAssociation id).post m) i = rowID m i := fun i hi => rowID_congr (fun a h1 h2 => hother i a hi h1 h2)
  refine ⟨by simp; omega, h.len, ?_, ?_, ?_, ?_⟩
  · intro i x hx
    by_cases hi : i = news.length
    · subst hi
      simp at hx
      subst hx
      refine ⟨?_, hid⟩
      apply List.ext_getElem?
      intro q
      by_cases hq : q < 8
      · rw [rowID_get _ _ _ hq, hpost, if_pos (by omega), if_pos (by omega), Nat.add_sub_cancel_left, List.getElem?_eq_getElem (by rw [hid.1]; exact hq)]
        rfl
      · rw [List.getElem?_eq_none (by rw [rowID_length]; omega), List.getElem?_eq_none (by rw [hid.1]; omega)]
    · have hlt' : i < news.length := by
        have := (List.getElem?_eq_some_iff.1 hx).1
        simp at this; omega
      rw [List.getElem?_append_left hlt'] at hx
      rw [hrow i hi]; exact h.new i x hx
  · intro i h1 h2
    simp at h1
    rw [hother i _ (by omega) (by omega) (by omega)]
    exact h.gap i (by omega) h2
  · intro i x h1 hx
    rw [hrow i (by omega)]; exact h.old i x h1 hx
  · intro i h1 h2 h3
    rw [hother i _ (by omega) (by omega) (by omega)]
    exact h.free i h1 h2 h3

theorem gap_addAll : ∀ (more : List Bytes) {m : EE} {news ids : List Bytes} {j : Nat}, Gap m news ids j → j ≤ 8 → news.length + more.length ≤ j →
    (∀ id ∈ more, GoodID id) → Gap (addAll m more) (news ++ more) ids j
  | [], m, news, ids, j, h, _, _, _ => by simpa [addAll] using h
  | id :: t, m, news, ids, j, h, hj, hl, hg => by
    have h1 := gap_add h (by simp at hl; omega) hj id (hg id (by simp))
    have := gap_addAll t h1 hj (by simp at hl ⊢; omega) (fun x hx => hg x (by simp [hx]))
    simpa [addAll, List.append_assoc] using this

/-- **C188 (refuted: an interrupted clear is completed by nothing).** After a clear of a table of at least two nodes that was cut off after the
first write, the table reads as empty (above) and the user adds one node: then the other old nodes are associated again, with whatever counters
they had. -/
theorem C188_old_nodes_return (m : EE) (ids : List Bytes) (ht : Table m ids) (h2 : 2 ≤ ids.length) (id : Bytes) (hid : GoodID id) :
    Table ((addNodeAssociation id).post (cutAt clearAllNodeAssociations 1 m)) (id :: ids.tail) := by
  have hcut : ∀ a, cutAt clearAllNodeAssociations 1 m a = if a = assocRow 0 then 0xff else m a := by
    intro a
    unfold cutAt
    rw [clear_writes]
    have h0 : m (assocRow 0) ≠ 0xff := fun hff => by have := (table_first ht (by omega)).1 hff; omega
    have e8 : (List.range 8).map (fun i => (assocRow i, (0xff : Byte))) = (assocRow 0, 0xff) :: ((List.range' 1 7).map fun i => (assocRow i, (0xff : Byte))) := rfl
    have hw : wr1 m (assocRow 0) 0xff = [(assocRow 0, 0xff)] := by unfold wr1; rw [if_neg h0]
    rw [e8, smartSeq]
    dsimp only
    rw [hw, List.singleton_append, List.take_succ_cons, List.take_zero, applyW_cons, applyW_nil]
    rfl
  have hrow : ∀ i, i ≠ 0 → rowID (cutAt clearAllNodeAssociations 1 m) i = rowID m i := by
    intro i hi
    apply rowID_congr
    intro a h1 h2
    rw [hcut, if_neg]
    rw [assocRow_eq] at *
    omega
  have hg : Gap (cutAt clearAllNodeAssociations 1 m) [] ids 1 := by
    refine ⟨by simp, ht.len, by simp, ?_, ?_, ?_⟩
    · intro i _ hi
      rw [hcut, show i = 0 by omega, if_pos rfl]
    · intro i x h1 hx
      rw [hrow i (by omega)]; exact ht.row i x hx
    · intro i h1 h3 h4
      rw [hcut, if_neg (by rw [assocRow_eq, assocRow_eq]; omega)]
      exact ht.free i h3 h4
  have h1 := gap_add hg (by simp) (by omega) id hid
  refine ⟨by have := ht.len; simp; omega, ?_, ?_⟩
  · intro i x hx
    cases i with
    | zero => exact h1.new 0 x (by simpa using hx)
    | succ i =>
      rw [List.getElem?_cons_succ, List.getElem?_tail] at hx
      exact h1.old (i + 1) x (by omega) hx
  · intro i h3 h4
    simp at h3
    exact h1.free i (by omega) (by omega) h4

theorem add_writes {m : EE} {ids : List Bytes} (ht : Table m ids) (hlt : ids.length < 8) (id : Bytes) :
    (addNodeAssociation id m).2 = smartSeq m ((List.range 32).map fun j => (assocRow ids.length + j, if j < 8 then id[j]?.getD 0 else (0xff : Byte))) := by
  rw [addFrom_eq ht id, if_pos hlt]
  have : (emBind (writeRow (assocRow ids.length) id) (fun _ => emRet (some ids.length)) m).2 = (writeRow (assocRow ids.length) id m).2 := by
    simp [emBind, emRet]
  rw [this]
  apply forEach_writes
  intro x m
  split
  · rw [smartUpdate_eq]
  · rw [smartErase_eq]

/-- **C188 (add).** If adding an association is cut off, nothing outside the new row changes: every node already associated is still found, at the
same place, by every prefix that found it. At most one entry appears, starting with the new node's first byte. -/
theorem C188_add_cut (m : EE) (ids : List Bytes) (ht : Table m ids) (hlt : ids.length < 8) (id : Bytes) (hid : GoodID id) (k : Nat) :
    let m' := cutAt (addNodeAssociation id) k m
    (∀ a, ¬ (assocRow ids.length ≤ a ∧ a < assocRow ids.length + 32) → m' a = m a) ∧
    (∀ pre : Bytes, pre.length ≤ 8 → ∀ i, getNextMatchingNodeID m 0 pre = some i → getNextMatchingNodeID m' 0 pre = some i) ∧
    ((countNodeAssociations m' = ids.length ∧ m' = m) ∨ (countNodeAssociations m' = ids.length + 1 ∧ m' (assocRow ids.length) = id[0]?.getD 0)) := by
  intro m'
  have hcut : ∃ j, j ≤ 32 ∧ m' = applyW m (((List.range 32).map fun j => (assocRow ids.length + j, if j < 8 then id[j]?.getD 0 else (0xff : Byte))).take j) := by
    obtain ⟨j, hj, he⟩ := smartSeq_prefix m ((List.range 32).map fun j => (assocRow ids.length + j, if j < 8 then id[j]?.getD 0 else (0xff : Byte))) k
    refine ⟨j, by simpa using hj, ?_⟩
    show applyW m ((addNodeAssociation id m).2.take k) = _
    rw [add_writes ht hlt]; exact he
  obtain ⟨j, hj, hm'⟩ := hcut
  rw [← List.map_take, List.take_range, Nat.min_eq_left hj] at hm'
  have hout : ∀ a, ¬ (assocRow ids.length ≤ a ∧ a < assocRow ids.length + 32) → m' a = m a := by
    intro a ha
    rw [hm']
    apply applyW_other
    intro w hw
    simp only [List.mem_map, List.mem_range] at hw
    obtain ⟨x, hx, rfl⟩ := hw
    dsimp only
    omega
  have hrow : ∀ i, i ≠ ids.length → rowID m' i = rowID m i := by
    intro i hi
    apply rowID_congr
    intro a h1 h2
    apply hout
    rw [assocRow_eq] at *
    omega
  have hfirst : ∀ i, i ≠ ids.length → m' (assocRow i) = m (assocRow i) := by
    intro i hi
    apply hout
    rw [assocRow_eq, assocRow_eq]; omega
  refine ⟨hout, ?_, ?_⟩
  · intro pre hpre i hi
    have hfind : ∀ k s, k + s = 8 → s ≤ ids.length → findFrom m pre k s = some i → findFrom m' pre k s = some i := by
      intro k
      induction k with
      | zero => intro s _ _ h; exact h
      | succ k ih =>
        intro s hs hle h
        rw [findFrom] at h ⊢
        by_cases he : s = ids.length
        · rw [if_pos (by rw [rowID_first, he]; exact ht.free _ (by omega) hlt)] at h
          cases h
        · rw [hrow s he]
          split at h
          · cases h
          · rename_i h1
            rw [if_neg h1]
            split at h
            · rename_i h2; rw [if_pos h2]; exact h
            · rename_i h2; rw [if_neg h2]
              exact ih (s + 1) (by omega) (by omega) h
    unfold getNextMatchingNodeID at hi ⊢
    rw [if_neg (by omega), if_neg (by omega)] at hi ⊢
    exact hfind 8 0 (by omega) (by omega) hi
  · cases j with
    | zero =>
      left
      have : m' = m := by rw [hm']; rfl
      rw [this]
      exact ⟨table_count ht, rfl⟩
    | succ j =>
      right
      have h0 : m' (assocRow ids.length) = id[0]?.getD 0 := by
        rw [hm', List.range_succ_eq_map, List.map_cons, applyW_cons, applyW_other]
        · simp [EE.upd]
        · intro w hw
          simp only [List.mem_map, List.mem_range] at hw
          obtain ⟨x, ⟨y, _, rfl⟩, rfl⟩ := hw
          dsimp only
          omega
      refine ⟨?_, h0⟩
      have hne : id[0]?.getD 0 ≠ 0xff := by
        intro h
        apply hid.2
        rw [List.getElem?_eq_getElem (by rw [hid.1]; omega)] at h ⊢
        exact congrArg some h
      have hc : ∀ k s, k + s = 8 → s ≤ ids.length + 1 → countFrom m' k s = ids.length + 1 := by
        intro k
        induction k with
        | zero => intro s h1 h2; rw [countFrom]; omega
        | succ k ih =>
          intro s h1 h2
          rw [countFrom]
          by_cases he : s = ids.length
          · rw [he, if_neg (by rw [h0]; exact hne)]; exact ih _ (by omega) (by omega)
          · rw [hfirst s he]
            by_cases hff : m (assocRow s) = 0xff
            · rw [if_pos hff]
              have := (table_first ht (by omega)).1 hff
              omega
            · rw [if_neg hff]
              have : ¬ ids.length ≤ s := fun hh => hff ((table_first ht (by omega)).2 hh)
              exact ih _ (by omega) (by omega)
      exact hc 8 0 (by omega) (by omega)

theorem key_cut_aux (new : Bytes) (m : EE) (k : Nat) (x : EM Unit)
    (hx : ∀ m, (x m).2 = smartSeq m ((List.range 16).map fun i => (112 + i, new[i]?.getD 0))) (hl : new.length = 16) :
    ∃ j, j ≤ 16 ∧ eeBlock (applyW m ((x m).2.take k)) 112 16 = new.take j ++ (eeBlock m 112 16).drop j := by
  rw [hx]
  obtain ⟨j, hj, he⟩ := smartSeq_prefix m ((List.range 16).map fun i => (112 + i, new[i]?.getD 0)) k
  rw [he]
  have hj : j ≤ 16 := by simpa using hj
  refine ⟨j, hj, ?_⟩
  rw [← List.map_take, List.take_range, Nat.min_eq_left hj]
  have happ : ∀ (j : Nat) (a : Nat), applyW m ((List.range j).map fun i => (112 + i, new[i]?.getD 0)) a = if 112 ≤ a ∧ a < 112 + j then new[a - 112]?.getD 0 else m a := by
    intro j a
    induction j with
    | zero => rw [if_neg (by omega)]; rfl
    | succ j ih =>
      rw [List.range_succ, List.map_append, applyW_append]
      simp only [List.map_cons, List.map_nil, applyW_cons, applyW_nil]
      by_cases ha : a = 112 + j
      · rw [if_pos (by omega), ha, Nat.add_sub_cancel_left]; simp [EE.upd]
      · rw [EE.upd_other _ _ ha, ih]
        by_cases h : 112 ≤ a ∧ a < 112 + j
        · rw [if_pos h, if_pos (by omega)]
        · rw [if_neg h, if_neg (by omega)]
  apply List.ext_getElem?
  intro i
  by_cases hi : i < 16
  · rw [eeBlock_get _ _ _ _ hi, happ]
    by_cases hij : i < j
    · rw [if_pos (by omega), List.getElem?_append_left (by simp; omega), List.getElem?_take, if_pos hij, Nat.add_sub_cancel_left,
        List.getElem?_eq_getElem (by omega)]
      rfl
    · rw [if_neg (by omega), List.getElem?_append_right (by simp; omega), List.getElem?_drop, List.length_take, Nat.min_eq_left (by omega),
        show j + (i - j) = i by omega, eeBlock_get _ _ _ _ hi]
  · rw [List.getElem?_eq_none (by rw [eeBlock_length]; omega), List.getElem?_eq_none (by simp [eeBlock_length]; omega)]

/-- **C188 (key).** If setting the key is cut off by a power failure, what is stored is the first bytes of the new key followed by the last bytes of
the old one. (So it may be neither; see `C188_mixed_key`.) The same for clearing, with 0xff for the new key. -/
theorem C188_key_cut (m : EE) (new : Bytes) (hl : new.length = 16) (k : Nat) :
    (∃ j, j ≤ 16 ∧ (getKey (cutAt (setKey (some new)) k m)).2 = new.take j ++ (getKey m).2.drop j) ∧
    (∃ j, j ≤ 16 ∧ (getKey (cutAt (setKey none) k m)).2 = List.replicate j 0xff ++ (getKey m).2.drop j) := by
  constructor
  · have hw : (setKey (some new) m).2 = (emForEach (fun i => smartUpdate true (EE_KEY + i) (new[i]?.getD 0)) (List.range 16) m).2 := by
      rw [setKey]; simp [emBind]
    obtain ⟨j, hj, he⟩ := key_cut_aux new m k (emForEach (fun i => smartUpdate true (EE_KEY + i) (new[i]?.getD 0)) (List.range 16))
      (fun m => forEach_writes _ (fun i => 112 + i) (fun i => new[i]?.getD 0) (fun x m => by rw [smartUpdate_eq]) _ m) hl
    refine ⟨j, hj, ?_⟩
    unfold cutAt getKey
    rw [hw]; exact he
  · have hw : (setKey none m).2 = (emForEach (fun i => smartErase (EE_KEY + i)) (List.range 16) m).2 := by
      rw [setKey]; simp [emBind, emRet]
    obtain ⟨j, hj, he⟩ := key_cut_aux (List.replicate 16 0xff) m k (emForEach (fun i => smartErase (EE_KEY + i)) (List.range 16))
      (fun m => by
        rw [forEach_writes _ (fun i => 112 + i) (fun _ => 0xff) (fun x m => by rw [smartErase_eq]) _ m]
        rfl) (by simp)
    refine ⟨j, hj, ?_⟩
    unfold cutAt getKey
    rw [hw]
    simp only
    rw [he, List.take_replicate, Nat.min_eq_left hj]

/-- **C188 (refuted: the key is old or new).** Changing the key from all 1s to all 2s, cut off after 5 writes: a key that is neither is stored, and
reading the key succeeds. -/
theorem C188_mixed_key : let m : EE := fun _ => 1
    let new : Bytes := List.replicate 16 2
    getKey (cutAt (setKey (some new)) 5 m) = (true, [2, 2, 2, 2, 2, 1, 1, 1, 1, 1, 1, 1, 1, 1, 1, 1]) := by decide +kernel

/-- Non-vacuity: a table of three nodes. -/
theorem exTable3 : Table (addAll (fun _ => 0xff) [[0x81, 1, 1, 1, 1, 1, 1, 1], [0x82, 2, 2, 2, 2, 2, 2, 2], [0x83, 3, 3, 3, 3, 3, 3, 3]])
    [[0x81, 1, 1, 1, 1, 1, 1, 1], [0x82, 2, 2, 2, 2, 2, 2, 2], [0x83, 3, 3, 3, 3, 3, 3, 3]] := by
  have h0 : Table (fun _ => 0xff) [] := ⟨by simp, by simp, fun _ _ _ => rfl⟩
  have hg : ∀ id ∈ ([[0x81, 1, 1, 1, 1, 1, 1, 1], [0x82, 2, 2, 2, 2, 2, 2, 2], [0x83, 3, 3, 3, 3, 3, 3, 3]] : List Bytes), GoodID id := by
    intro id hid
    simp at hid
    rcases hid with rfl | rfl | rfl <;> exact ⟨rfl, by decide⟩
  exact table_addAll hg h0

/-! ## C189: counters and administration -/

/-- **C189.** Adding an association leaves the counter of every node already associated as it was. -/
theorem C189_add_keeps_counters (m : EE) (ids : List Bytes) (ht : Table m ids) (id other : Bytes) (hin : other ∈ ids) :
    getLastRXMsgCtr ((addNodeAssociation id).post m) other = getLastRXMsgCtr m other := by
  by_cases hlt : ids.length < 8
  case neg =>
    have : (addNodeAssociation id).post m = m := by
      rw [EM.post, addFrom_eq ht id, if_neg hlt]; rfl
    rw [this]
  obtain ⟨q, hq⟩ := List.mem_iff_getElem?.1 hin
  have h8 : other.length = 8 := (ht.row q other hq).2.1
  obtain ⟨i, hi, hil⟩ : ∃ i, getNextMatchingNodeID m 0 other = some i ∧ i < ids.length := by
    rw [table_find ht other (by omega) 0]
    rw [List.drop_zero]
    cases hf : ids.findIdx? (fun x => other.isPrefixOf x) with
    | none =>
      rw [List.findIdx?_eq_none_iff] at hf
      have := hf other hin
      rw [List.isPrefixOf_iff_prefix.2 (List.prefix_refl other)] at this
      cases this
    | some i =>
      refine ⟨i, rfl, ?_⟩
      exact (List.findIdx?_eq_some_iff_getElem.1 hf).1
  have hpost := add_post ht id hlt
  have hout : ∀ a, ¬ (assocRow ids.length ≤ a ∧ a < assocRow ids.length + 32) → (addNodeAssociation id).post m a = m a := by
    intro a ha; rw [hpost, if_neg ha]
  have hrow : ∀ s, s ≠ ids.length → rowID ((addNodeAssociation id).post m) s = rowID m s := by
    intro s hs
    apply rowID_congr
    intro a h1 h2
    apply hout
    rw [assocRow_eq] at *
    omega
  have hi' : getNextMatchingNodeID ((addNodeAssociation id).post m) 0 other = some i := by
    have hfind : ∀ k s, k + s = 8 → s ≤ ids.length → findFrom m other k s = some i → findFrom ((addNodeAssociation id).post m) other k s = some i := by
      intro k
      induction k with
      | zero => intro s _ _ h; exact h
      | succ k ih =>
        intro s hs hle h
        rw [findFrom] at h ⊢
        by_cases he : s = ids.length
        · rw [if_pos (by rw [rowID_first, he]; exact ht.free _ (by omega) hlt)] at h
          cases h
        · rw [hrow s he]
          split at h
          · cases h
          · rename_i h1
            rw [if_neg h1]
            split at h
            · rename_i h2; rw [if_pos h2]; exact h
            · rename_i h2; rw [if_neg h2]
              exact ih (s + 1) (by omega) (by omega) h
    unfold getNextMatchingNodeID at hi ⊢
    rw [if_neg (by omega), if_neg (by omega)] at hi ⊢
    exact hfind 8 0 (by omega) (by omega) hi
  have hsame : ∀ a, assocRow i ≤ a → a < assocRow i + 32 → (addNodeAssociation id).post m a = m a := by
    intro a h1 h2
    apply hout
    rw [assocRow_eq] at *
    omega
  unfold getLastRXMsgCtr
  rw [hi, hi']
  exact rowLast_congr fun a h1 h2 => hsame a (by omega) (by omega)

/-- **C189 (elsewhere).** Creating the unit's own ID and setting or clearing the key leave all counters and associations as they were. -/
theorem C189_id_key_keep_counters (m : EE) (id : Bytes) (force : Bool) (rnd : Bytes) (key : Bytes) (hk : key.length = 16) :
    getLastRXMsgCtr ((ensureIDCreated force rnd).post m) id = getLastRXMsgCtr m id ∧
    getLastRXMsgCtr ((setKey (some key)).post m) id = getLastRXMsgCtr m id ∧
    getLastRXMsgCtr ((setKey none).post m) id = getLastRXMsgCtr m id := by
  have gen : ∀ m' : EE, (∀ a, 768 ≤ a → m' a = m a) → getLastRXMsgCtr m' id = getLastRXMsgCtr m id := by
    intro m' h
    unfold getLastRXMsgCtr
    rw [getNext_congr (m := m) id (fun q _ => rowID_congr fun a h1 _ => h a (by rw [assocRow_eq] at h1; omega))]
    cases getNextMatchingNodeID m 0 id with
    | none => rfl
    | some i => exact rowLast_congr fun a h1 _ => h a (by rw [assocRow_eq] at h1; omega)
  have hk := C29_key_storage m key hk
  refine ⟨gen _ fun a ha => ?_, gen _ fun a ha => (hk.2.2.2 a (by omega)).1, gen _ fun a ha => (hk.2.2.2 a (by omega)).2⟩
  apply applyW_other
  intro w hw
  have := ensure_addr force 8 0 rnd m w hw
  omega

/-- **C189 (refuted: re-associating keeps replay protection).** Whatever was accepted from a node before, clearing the associations and adding the
node again makes every counter acceptable again, with the same key: recorded frames can then be replayed. -/
theorem C189_reassociation_resets (m : EE) (id : Bytes) (hid : GoodID id) (c : Bytes) (h6 : c.length = 6) (hc : beVal c ≠ 0) :
    let m1 := (authAndUpdateRXMsgCtr id c).post m
    let m2 := (addNodeAssociation id).post (clearAllNodeAssociations.post m1)
    getLastRXMsgCtr m2 id = some [0, 0, 0, 0, 0, 0] ∧ (authAndUpdateRXMsgCtr id c m2).1 = true := by
  intro m1 m2
  have h := C28_fresh_counter (clearAllNodeAssociations.post m1) [] id (table_clear m1) (by simp) hid (by simp)
  exact ⟨h.2.1, h.2.2 c h6 hc⟩

end OTR.Props
