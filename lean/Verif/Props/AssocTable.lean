import Verif.Model.AssocTable
import Verif.Proof.Security
/-! # C228: the table of associated nodes, as an object -/

namespace OTR.Props
open OTR

/-- A history of `set(index, id)` calls, oldest first; `none` is a NULL pointer. -/
abbrev Sets := List (Nat × Option Bytes)

/-- Specification: what was last stored in row `i`. -/
def lastAt (h : Sets) (i : Nat) : Option Bytes := h.foldl (fun acc x => if x.1 = i ∧ x.2.isSome then x.2 else acc) none

/-- IDs have 8 bytes. -/
def Ids8 (h : Sets) : Prop := ∀ x ∈ h, ∀ id, x.2 = some id → id.length = 8

/-- The EEPROM after the history. -/
def eeSets (m : EE) (h : Sets) : EE := h.foldl (fun m x => (tableSet x.1 x.2).post m) m

/-- The RAM table after the history. -/
def mockSets (b : Bytes) (h : Sets) : Bytes := h.foldl (fun b x => (mockSet b x.1 x.2).2) b

theorem assoc_post_update (a : Nat) (src : Bytes) (n : Nat) (m : EE) (x : Nat) :
    (eeUpdateBlock a src n).post m x = if a ≤ x ∧ x < a + n then src[x - a]?.getD 0 else m x := by
  have h := post_forEach (fun j => eeRead (a + j) fun old =>
      emIf (old = src[j]?.getD 0) (emRet ()) (eeWrite (a + j) (src[j]?.getD 0))) a (fun j => src[j]?.getD 0)
    (by
      intro j m
      simp only [EM.post, eeRead, emIf]
      by_cases e : m (a + j) = src[j]?.getD 0
      · rw [if_pos e, EE.upd_eq_self m _ _ e]; rfl
      · rw [if_neg e]; rfl)
  exact h n m x

theorem post_tableSet (m : EE) (i : Nat) (src : Option Bytes) (x : Nat) :
    (tableSet i src).post m x =
      match src with
      | none => m x
      | some id => if i < 8 ∧ 768 + i * 32 ≤ x ∧ x < 768 + i * 32 + 8 then id[x - (768 + i * 32)]?.getD 0 else m x := by
  cases src with
  | none => rfl
  | some id =>
    show ((emIf (i ≥ 8) (emRet false) (emBind (eeUpdateBlock (768 + i * 32) id 8) fun _ => emRet true)) : EM Bool).post m x = _
    by_cases h : i ≥ 8
    · have : ¬ (i < 8 ∧ 768 + i * 32 ≤ x ∧ x < 768 + i * 32 + 8) := by omega
      simp only [this, if_false]
      simp only [EM.post, emIf, if_pos h, emRet, applyW, List.foldl_nil]
    · have e : ((emIf (i ≥ 8) (emRet false) (emBind (eeUpdateBlock (768 + i * 32) id 8) fun _ => emRet true)) : EM Bool).post m
          = (emBind (eeUpdateBlock (768 + i * 32) id 8) fun _ => emRet true : EM Bool).post m := by
        simp only [EM.post, emIf, if_neg h]
      rw [e, post_bind, post_ret, assoc_post_update]
      have h' : i < 8 := by omega
      simp only [h', true_and]

/-- **C228** `set` reports success exactly for an index in range and a pointer that is not NULL; otherwise it writes nothing. -/
theorem C228_set_result (m : EE) (i : Nat) (src : Option Bytes) :
    ((tableSet i src m).1 = true ↔ i < 8 ∧ src.isSome = true) ∧ ((tableSet i src m).1 = false → (tableSet i src m).2 = []) := by
  cases src with
  | none => simp [tableSet, emRet]
  | some id =>
    by_cases h : i ≥ 8
    · simp [tableSet, emIf, h, emRet]
    · simp [tableSet, emIf, h, emBind, emRet]; omega

theorem lastAt_from (i : Nat) (acc : Option Bytes) (h : Sets) :
    h.foldl (fun acc x => if x.1 = i ∧ x.2.isSome then x.2 else acc) acc = (lastAt h i).or acc := by
  induction h generalizing acc with
  | nil => simp [lastAt]
  | cons x t ih =>
    rw [lastAt, List.foldl_cons, List.foldl_cons, ih, ih (if x.1 = i ∧ x.2.isSome then x.2 else none)]
    by_cases hx : x.1 = i ∧ x.2.isSome
    · rw [if_pos hx, if_pos hx]
      obtain ⟨y, hy⟩ := Option.isSome_iff_exists.1 hx.2
      rw [hy]
      cases lastAt t i <;> rfl
    · rw [if_neg hx, if_neg hx]
      cases lastAt t i <;> rfl

theorem lastAt_cons (i : Nat) (x : Nat × Option Bytes) (t : Sets) :
    lastAt (x :: t) i = (lastAt t i).or (if x.1 = i then x.2 else none) := by
  rw [lastAt, List.foldl_cons, lastAt_from]
  by_cases e : x.1 = i
  · rw [if_pos e]
    cases hx : x.2 with
    | none => simp
    | some y => simp [e]
  · rw [if_neg e, if_neg (fun c => e c.1)]

theorem id8_eq (id : Bytes) (h : id.length = 8) : (List.range 8).map (fun j => id[j]?.getD 0) = id := by
  apply List.ext_getElem (by simp [h])
  intro j h1 h2
  simp [List.getElem?_eq_getElem h2]

theorem get_set (m : EE) (i j : Nat) (hi : i < 8) (src : Option Bytes) (h8 : ∀ id, src = some id → id.length = 8) (was : Bytes) :
    tableGet ((tableSet j src).post m) i was = (if j = i then src else none).getD (tableGet m i was) := by
  have hn : ¬ i ≥ 8 := by omega
  rw [tableGet, if_neg hn, tableGet, if_neg hn]
  cases src with
  | none =>
    have e : (tableSet j none).post m = m := rfl
    rw [e]; split <;> rfl
  | some id =>
    have hl := h8 id rfl
    by_cases hji : j = i
    · subst hji
      rw [if_pos rfl]
      show eeBlock _ (768 + j * 32) 8 = id
      conv => rhs; rw [← id8_eq id hl]
      apply List.map_congr_left
      intro k hk
      rw [List.mem_range] at hk
      rw [post_tableSet]
      dsimp only
      rw [if_pos (by omega)]
      congr 2
      omega
    · rw [if_neg hji]
      show eeBlock _ (768 + i * 32) 8 = eeBlock m (768 + i * 32) 8
      apply eeBlock_congr
      intro k hk
      rw [post_tableSet]
      dsimp only
      rw [if_neg (by omega)]

/-- **C228** After any history of `set` calls, whatever their indices, `get` of a row gives the ID last stored in it, and what was there
before if there was none. -/
theorem C228_get_last (m : EE) (h : Sets) (h8 : Ids8 h) (i : Nat) (hi : i < 8) (was : Bytes) :
    tableGet (eeSets m h) i was = (lastAt h i).getD (tableGet m i was) := by
  induction h generalizing m with
  | nil => rfl
  | cons x t ih =>
    have := ih ((tableSet x.1 x.2).post m) (fun y hy => h8 y (List.mem_cons_of_mem _ hy))
    rw [lastAt_cons]
    show tableGet (eeSets ((tableSet x.1 x.2).post m) t) i was = _
    rw [this, get_set m i x.1 hi x.2 (h8 x (List.mem_cons_self ..)) was]
    cases lastAt t i <;> rfl

/-- **C228** No cell but the eight ID bytes of a row is ever touched by `set`: the message counters that `addNodeAssociation` erases for a new
node (`C228_add_erases`) are kept, and so apply to the node that takes over the row. -/
theorem C228_untouched (m : EE) (h : Sets) (a : Nat) (ha : ∀ i, i < 8 → ¬ (768 + i * 32 ≤ a ∧ a < 768 + i * 32 + 8)) :
    eeSets m h a = m a := by
  induction h generalizing m with
  | nil => rfl
  | cons x t ih =>
    show eeSets ((tableSet x.1 x.2).post m) t a = _
    rw [ih, post_tableSet]
    cases x.2 with
    | none => rfl
    | some id =>
      dsimp only
      rw [if_neg]
      intro c
      exact ha x.1 c.1 c.2

/-- **C228** in contrast: the row used by `addNodeAssociation` is erased after the ID. -/
theorem C228_add_erases (m : EE) (id : Bytes) (i : Nat) (h : (addNodeAssociation id m).1 = some i) (j : Nat) (hj : 8 ≤ j) (hj' : j < 32) :
    (addNodeAssociation id).post m (assocRow i + j) = 0xff := by
  have gen : ∀ k n (m : EE), (addFrom id k n m).1 = some i → (addFrom id k n).post m (assocRow i + j) = 0xff := by
    intro k
    induction k with
    | zero => intro n m h; exact nomatch h
    | succ k ih =>
      intro n m h
      by_cases hb : m (assocRow n) = 0xff
      · have e : addFrom id (k + 1) n m = (emBind (writeRow (assocRow n) id) fun _ => emRet (some n)) m := by
          simp only [addFrom, eeRead, emIf, if_pos hb]
        rw [e] at h
        have hn : n = i := by simpa [emBind, emRet] using h
        subst hn
        rw [EM.post, e]
        show (emBind (writeRow (assocRow n) id) fun _ => emRet (some n)).post m _ = _
        rw [post_bind, post_ret, post_writeRow, if_pos (by omega), if_neg (by omega)]
      · have e : addFrom id (k + 1) n m = addFrom id k (n + 1) m := by
          simp only [addFrom, eeRead, emIf, if_neg hb]
        rw [EM.post, e]
        rw [e] at h
        exact ih (n + 1) m h
  exact gen 8 0 m h

theorem mockSet_length (b : Bytes) (hb : b.length = 64) (j : Nat) (src : Option Bytes) (h8 : ∀ id, src = some id → id.length = 8) :
    (mockSet b j src).2.length = 64 := by
  cases src with
  | none => exact hb
  | some id =>
    have := h8 id rfl
    by_cases h : j ≥ 8
    · simp [mockSet, h, hb]
    · simp [mockSet, h, hb]; omega

theorem mock_get_set (b : Bytes) (hb : b.length = 64) (i j : Nat) (hi : i < 8) (src : Option Bytes)
    (h8 : ∀ id, src = some id → id.length = 8) (was : Bytes) :
    mockGet (mockSet b j src).2 i was = (if j = i then src else none).getD (mockGet b i was) := by
  have hn : ¬ i ≥ 8 := by omega
  rw [mockGet, if_neg hn, mockGet, if_neg hn]
  cases src with
  | none => rw [show (mockSet b j none).2 = b from rfl]; split <;> rfl
  | some id =>
    have hl := h8 id rfl
    by_cases hj : j ≥ 8
    · rw [if_neg (by omega)]; simp [mockSet, hj]
    · have e : (mockSet b j (some id)).2 = b.take (j * 8) ++ id ++ b.drop (j * 8 + 8) := by
        simp [mockSet, hj, List.take_of_length_le (Nat.le_of_eq hl)]
      rw [e]
      apply List.ext_getElem?
      intro k
      by_cases hk : k < 8
      · rw [List.getElem?_take_of_lt hk, List.getElem?_drop]
        by_cases hji : j = i
        · subst hji
          rw [if_pos rfl, List.append_assoc, List.getElem?_append_right (by simp; omega), List.getElem?_append_left (by simp; omega)]
          simp only [List.length_take, hb, Option.getD_some]
          congr 1; omega
        · rw [if_neg hji]
          show _ = (List.take 8 (List.drop (i * 8) b))[k]?
          rw [List.getElem?_take_of_lt hk, List.getElem?_drop]
          by_cases hlt : i < j
          · rw [List.append_assoc, List.getElem?_append_left (by simp; omega), List.getElem?_take_of_lt (by omega)]
          · rw [List.getElem?_append_right (by simp; omega), List.getElem?_drop]
            simp only [List.length_append, List.length_take, hb, hl]
            congr 1; omega
      · rw [List.getElem?_eq_none (by simp; omega), List.getElem?_eq_none]
        by_cases hji : j = i
        · rw [if_pos hji]; show id.length ≤ k; omega
        · rw [if_neg hji]; show (List.take 8 (List.drop (i * 8) b)).length ≤ k; simp; omega

/-- **C228** The same of the RAM table. -/
theorem C228_mock_get_last (b : Bytes) (hb : b.length = 64) (h : Sets) (h8 : Ids8 h) (i : Nat) (hi : i < 8) (was : Bytes) :
    mockGet (mockSets b h) i was = (lastAt h i).getD (mockGet b i was) := by
  induction h generalizing b with
  | nil => rfl
  | cons x t ih =>
    have hx := h8 x (List.mem_cons_self ..)
    have := ih (mockSet b x.1 x.2).2 (mockSet_length b hb x.1 x.2 hx) (fun y hy => h8 y (List.mem_cons_of_mem _ hy))
    rw [lastAt_cons]
    show mockGet (mockSets (mockSet b x.1 x.2).2 t) i was = _
    rw [this, mock_get_set b hb i x.1 hi x.2 hx was]
    cases lastAt t i <;> rfl

theorem genFrom_congr (g g' : Nat → Bytes → Bytes) (pre : Bytes) (plen : Nat) (hg : ∀ i, i < 8 → ∀ w, g i w = g' i w) :
    ∀ k i, i + k ≤ 8 → genFrom g pre plen k i = genFrom g' pre plen k i := by
  intro k
  induction k with
  | zero => intros; rfl
  | succ k ih =>
    intro i hi
    rw [genFrom, genFrom, hg i (by omega), ih (i + 1) (by omega)]

/-- **C228** A RAM table and an EEPROM table, both empty at first, answer every search alike after the same calls of `set`. -/
theorem C228_tables_alike (m : EE) (hm : ∀ i, i < 8 → rowID m i = List.replicate 8 255) (h : Sets) (h8 : Ids8 h)
    (index : Nat) (pre : Option Bytes) (plen : Nat) :
    getNextGeneric (tableGet (eeSets m h)) index pre plen = getNextGeneric (mockGet (mockSets mockNew h)) index pre plen := by
  have key : ∀ i, i < 8 → ∀ w, tableGet (eeSets m h) i w = mockGet (mockSets mockNew h) i w := by
    intro i hi w
    rw [C228_get_last m h h8 i hi w, C228_mock_get_last mockNew (by decide) h h8 i hi w]
    congr 1
    have hn : ¬ i ≥ 8 := by omega
    rw [tableGet, if_neg hn, mockGet, if_neg hn]
    show rowID m i = _
    rw [hm i hi]
    have : ∀ i, i < 8 → List.replicate 8 (255 : Byte) = List.take 8 (List.drop (i * 8) mockNew) := by decide
    exact this i hi
  unfold getNextGeneric
  by_cases h1 : index ≥ 8
  · rw [if_pos h1, if_pos h1]
  · rw [if_neg h1, if_neg h1]
    by_cases h2 : plen > 8
    · rw [if_pos h2, if_pos h2]
    · rw [if_neg h2, if_neg h2]
      cases pre with
      | none => dsimp only; rw [genFrom_congr _ _ _ _ key _ _ (by omega)]
      | some p => dsimp only; rw [genFrom_congr _ _ _ _ key _ _ (by omega)]

/-- **C228** On the EEPROM table the generic search is the search used by the receiver. -/
theorem C228_search_is_getNext (m : EE) (index : Nat) (pre : Bytes) :
    getNextGeneric (tableGet m) index (some pre) pre.length = (getNextMatchingNodeID m index pre).map fun i => (i, rowID m i) := by
  unfold getNextGeneric getNextMatchingNodeID
  by_cases h1 : index ≥ 8
  · rw [if_pos h1, if_pos h1]; rfl
  · rw [if_neg h1, if_neg h1]
    by_cases h2 : pre.length > 8
    · rw [if_pos h2, if_pos h2]; rfl
    · rw [if_neg h2, if_neg h2]
      dsimp only
      have gen : ∀ k i, i + k ≤ 8 → genFrom (tableGet m) pre pre.length k i = (findFrom m pre k i).map fun i => (i, rowID m i) := by
        intro k
        induction k with
        | zero => intros; rfl
        | succ k ih =>
          intro i hi
          have hn : ¬ i ≥ 8 := by omega
          have e : tableGet m i (List.replicate 8 0) = rowID m i := by rw [tableGet, if_neg hn]; rfl
          rw [genFrom, findFrom, e, List.take_length]
          by_cases c1 : (rowID m i)[0]?.getD 0 = 0xff
          · rw [if_pos c1, if_pos c1]; rfl
          · rw [if_neg c1, if_neg c1]
            by_cases c2 : pre.length = 0 ∨ memcmp ((rowID m i).take pre.length) pre = 0
            · rw [if_pos c2, if_pos c2]; rfl
            · rw [if_neg c2, if_neg c2]; exact ih (i + 1) (by omega)
      exact gen _ _ (by omega)

/-- **C228** The RAM table's `set` likewise reports success exactly for an index in range and a pointer that is not NULL, and otherwise changes
nothing. -/
theorem C228_mock_result (b : Bytes) (i : Nat) (src : Option Bytes) :
    ((mockSet b i src).1 = true ↔ i < 8 ∧ src.isSome = true) ∧ ((mockSet b i src).1 = false → (mockSet b i src).2 = b) := by
  cases src with
  | none => simp [mockSet]
  | some id =>
    by_cases h : i ≥ 8
    · rw [mockSet, if_pos h]; simp; omega
    · rw [mockSet, if_neg h]; simp; omega

/-- **C228** A NULL prefix matches every node if its length is given as 0, and none otherwise. -/
theorem C228_null_prefix (get : Nat → Bytes → Bytes) (index plen : Nat) :
    getNextGeneric get index none plen = if plen = 0 then getNextGeneric get index (some []) 0 else none := by
  unfold getNextGeneric
  by_cases h : plen = 0
  · subst h; simp
  · simp [h]

/-- **C228** What a search of a RAM table finds: the first row from `index` on whose ID begins with the prefix, all rows before it (from
`index`) being in use. -/
theorem C228_search_first (b : Bytes) (hb : b.length = 64) (index : Nat) (pre : Bytes) (hp : pre.length ≤ 8) (i : Nat) (id : Bytes) :
    getNextGeneric (mockGet b) index (some pre) pre.length = some (i, id) ↔
      index ≤ i ∧ i < 8 ∧ id = (b.drop (i * 8)).take 8 ∧ id.take pre.length = pre ∧
      (∀ j, index ≤ j → j ≤ i → b[j * 8]? ≠ some 0xff) ∧ (∀ j, index ≤ j → j < i → ((b.drop (j * 8)).take 8).take pre.length ≠ pre) := by
  have cmp : ∀ i, i < 8 → (memcmp (((b.drop (i * 8)).take 8).take pre.length) pre = 0 ↔ ((b.drop (i * 8)).take 8).take pre.length = pre) := by
    intro i hi
    exact memcmp_eq_zero (by simp [hb]; omega)
  have fst : ∀ i, i < 8 → (((b.drop (i * 8)).take 8)[0]?.getD 0 = 0xff ↔ b[i * 8]? = some 0xff) := by
    intro i hi
    rw [List.getElem?_take_of_lt (by omega), List.getElem?_drop, Nat.add_zero, List.getElem?_eq_getElem (by omega)]
    simp
  have gen : ∀ k n, n + k = 8 → (genFrom (mockGet b) pre pre.length k n = some (i, id) ↔
      n ≤ i ∧ i < 8 ∧ id = (b.drop (i * 8)).take 8 ∧ id.take pre.length = pre ∧
      (∀ j, n ≤ j → j ≤ i → b[j * 8]? ≠ some 0xff) ∧ (∀ j, n ≤ j → j < i → ((b.drop (j * 8)).take 8).take pre.length ≠ pre)) := by
    intro k
    induction k with
    | zero =>
      intro n hn
      constructor
      · intro h; exact nomatch h
      · intro h; omega
    | succ k ih =>
      intro n hn
      have hn8 : ¬ n ≥ 8 := by omega
      rw [genFrom]
      rw [show mockGet b n (List.replicate 8 0) = (b.drop (n * 8)).take 8 by rw [mockGet, if_neg hn8], List.take_length]
      by_cases c1 : ((b.drop (n * 8)).take 8)[0]?.getD 0 = 0xff
      · rw [if_pos c1]
        constructor
        · intro h; exact nomatch h
        · intro h; exact absurd ((fst n (by omega)).1 c1) (h.2.2.2.2.1 n (Nat.le_refl _) h.1)
      · rw [if_neg c1]
        have c1' : b[n * 8]? ≠ some 0xff := fun c => c1 ((fst n (by omega)).2 c)
        by_cases c2 : pre.length = 0 ∨ memcmp (((b.drop (n * 8)).take 8).take pre.length) pre = 0
        · rw [if_pos c2]
          have c2' : ((b.drop (n * 8)).take 8).take pre.length = pre := by
            rcases c2 with c | c
            · rw [c]; exact (List.eq_nil_of_length_eq_zero c).symm
            · exact (cmp n (by omega)).1 c
          constructor
          · intro h
            simp only [Option.some.injEq, Prod.mk.injEq] at h
            obtain ⟨rfl, rfl⟩ := h
            refine ⟨Nat.le_refl _, by omega, rfl, c2', ?_, ?_⟩
            · intro j h1 h2; have : j = n := by omega
              subst this; exact c1'
            · intro j h1 h2; omega
          · rintro ⟨h1, h2, h3, h4, h5, h6⟩
            by_cases he : n = i
            · subst he; rw [h3]
            · exact absurd c2' (h6 n (Nat.le_refl _) (by omega))
        · rw [if_neg c2, ih (n + 1) (by omega)]
          have c2' : ((b.drop (n * 8)).take 8).take pre.length ≠ pre := fun c => c2 (Or.inr ((cmp n (by omega)).2 c))
          constructor
          · rintro ⟨h1, h2, h3, h4, h5, h6⟩
            refine ⟨by omega, h2, h3, h4, ?_, ?_⟩
            · intro j hj hj'
              by_cases he : j = n
              · subst he; exact c1'
              · exact h5 j (by omega) hj'
            · intro j hj hj'
              by_cases he : j = n
              · subst he; exact c2'
              · exact h6 j (by omega) hj'
          · rintro ⟨h1, h2, h3, h4, h5, h6⟩
            have : n ≠ i := by
              intro he; subst he; rw [h3] at h4; exact c2' h4
            exact ⟨by omega, h2, h3, h4, fun j hj hj' => h5 j (by omega) hj', fun j hj hj' => h6 j (by omega) hj'⟩
  unfold getNextGeneric
  by_cases h1 : index ≥ 8
  · rw [if_pos h1]
    constructor
    · intro h; exact nomatch h
    · intro h; omega
  · rw [if_neg h1, if_neg (by omega)]
    exact gen _ _ (by omega)

/-- Two nodes set, one taking over the row of another; an index out of range is refused. -/
example : let h : Sets := [(0, some [1, 2, 3, 4, 5, 6, 7, 8]), (1, some [1, 9, 3, 4, 5, 6, 7, 8]), (0, some [5, 2, 3, 4, 5, 6, 7, 8]), (8, some [0, 0, 0, 0, 0, 0, 0, 0]), (2, none)]
    Ids8 h ∧ lastAt h 0 = some [5, 2, 3, 4, 5, 6, 7, 8] ∧ lastAt h 2 = none ∧
    (getNextGeneric (tableGet (eeSets (fun _ => 255) h)) 0 (some [1, 9]) 2).map (·.1) = some 1 ∧
    getNextGeneric (mockGet (mockSets mockNew h)) 0 (some [1, 2]) 2 = none := by
  refine ⟨?_, by decide, by decide, by decide +kernel, by decide +kernel⟩
  intro x hx id he
  simp only [List.mem_cons, List.mem_nil_iff, or_false] at hx
  rcases hx with rfl | rfl | rfl | rfl | rfl <;> cases he <;> rfl

end OTR.Props
