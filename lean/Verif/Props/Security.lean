import Verif.Proof.Security
/-!
# Properties C27, C29, C78: association table, key storage, EEPROM helpers
-/

namespace OTR.Props
open OTR

/-! ## C78 -/

/-- **C78.** Each "smart" helper leaves the cell with exactly the requested value (0xff for erase, old AND mask for
clear-bits), touches no other cell, writes at most once and only if the value changes, and reports whether it wrote.
For both builds (with and without split erase/write). -/
theorem C78_smart_ops (m : EE) (a : Nat) (v : Byte) (split : Bool) (b : Nat) :
    ((smartUpdate split a v).post m b = if b = a then v else m b) ∧
    ((smartErase a).post m b = if b = a then 0xff else m b) ∧
    ((smartClearBits a v).post m b = if b = a then m a &&& v else m b) ∧
    ((smartUpdate split a v m).2 = [] ↔ m a = v) ∧ ((smartUpdate split a v m).2.length ≤ 1) ∧
    ((smartErase a m).2 = [] ↔ m a = 0xff) ∧ ((smartErase a m).2.length ≤ 1) ∧
    ((smartClearBits a v m).2 = [] ↔ m a = m a &&& v) ∧ ((smartClearBits a v m).2.length ≤ 1) ∧
    ((smartUpdate split a v m).1 = true ↔ m a ≠ v) ∧
    ((smartErase a m).1 = true ↔ m a ≠ 0xff) ∧
    ((smartClearBits a v m).1 = true ↔ m a ≠ m a &&& v) := by
  have hw : ∀ x, (wr1 m a x = [] ↔ m a = x) ∧ (wr1 m a x).length ≤ 1 := by
    intro x; unfold wr1; split <;> simp_all
  refine ⟨?_, ?_, ?_, ?_, ?_, ?_, ?_, ?_, ?_, ?_, ?_, ?_⟩
  · rw [post_smartUpdate]; rfl
  · rw [post_smartErase]; rfl
  · rw [EM.post, smartClearBits_eq, applyW_wr1]; rfl
  · rw [smartUpdate_eq]; exact (hw _).1
  · rw [smartUpdate_eq]; exact (hw _).2
  · rw [smartErase_eq]; exact (hw _).1
  · rw [smartErase_eq]; exact (hw _).2
  · rw [smartClearBits_eq]; exact (hw _).1
  · rw [smartClearBits_eq]; exact (hw _).2
  · rw [smartUpdate_eq]; simp
  · rw [smartErase_eq]; simp
  · rw [smartClearBits_eq]; simp

/-! ## C29 -/

/-- **C29.** Setting a 16-byte key reports success, and get then returns success with exactly that key - unless every
byte is 0xff, which is indistinguishable from no key; clearing makes get fail. No cell outside the key area changes. -/
theorem C29_key_storage (m : EE) (k : Bytes) (hk : k.length = 16) :
    (setKey (some k) m).1 = true ∧
    getKey ((setKey (some k)).post m) = (decide (k ≠ List.replicate 16 0xff), k) ∧
    (getKey ((setKey none).post m)).1 = false ∧
    (∀ a, (a < 112 ∨ 128 ≤ a) → (setKey (some k)).post m a = m a ∧ (setKey none).post m a = m a) := by
  have hpost : ∀ m a, (emForEach (fun i => smartUpdate true (EE_KEY + i) (k[i]?.getD 0)) (List.range 16)).post m a =
      if EE_KEY ≤ a ∧ a < EE_KEY + 16 then k[a - EE_KEY]?.getD 0 else m a :=
    fun m a => post_forEach _ EE_KEY (fun i => k[i]?.getD 0) (fun x m => by rw [post_smartUpdate]) 16 m a
  have hpost0 : ∀ m a, (emForEach (fun i => smartErase (EE_KEY + i)) (List.range 16)).post m a =
      if EE_KEY ≤ a ∧ a < EE_KEY + 16 then 0xff else m a :=
    fun m a => post_forEach _ EE_KEY (fun _ => 0xff) (fun x m => by rw [post_smartErase]) 16 m a
  have hset : ∀ a, (setKey (some k)).post m a = if EE_KEY ≤ a ∧ a < EE_KEY + 16 then k[a - EE_KEY]?.getD 0 else m a := by
    intro a
    rw [setKey, post_bind]
    exact hpost m a
  have hclr : ∀ a, (setKey none).post m a = if EE_KEY ≤ a ∧ a < EE_KEY + 16 then 0xff else m a := by
    intro a
    rw [setKey, post_bind]
    exact hpost0 m a
  have hblk : eeBlock ((setKey (some k)).post m) EE_KEY 16 = k := by
    apply List.ext_getElem?
    intro i
    by_cases hi : i < 16
    · rw [eeBlock_get _ _ _ _ hi, hset, if_pos (by omega), show EE_KEY + i - EE_KEY = i by omega]
      rw [List.getElem?_eq_getElem (by omega)]; rfl
    · rw [List.getElem?_eq_none (by rw [eeBlock_length]; omega), List.getElem?_eq_none (by omega)]
  refine ⟨?_, ?_, ?_, ?_⟩
  · rw [setKey, res_bind]
    rw [List.all_eq_true]
    intro i hi
    rw [List.mem_range] at hi
    rw [hpost, if_pos (by omega), show EE_KEY + i - EE_KEY = i by omega]
    simp
  · unfold getKey
    rw [hblk]
    simp only [Prod.mk.injEq, and_true]
    rw [Bool.eq_iff_iff]
    simp only [List.any_eq_true, bne_iff_ne, decide_eq_true_eq]
    constructor
    · rintro ⟨x, hx, hne⟩ he
      rw [he] at hx
      exact hne (List.eq_of_mem_replicate hx)
    · intro hne
      apply Classical.byContradiction
      intro hn
      apply hne
      rw [List.eq_replicate_iff]
      refine ⟨hk, fun b hb => ?_⟩
      apply Classical.byContradiction
      intro hb'
      exact hn ⟨b, hb, hb'⟩
  · unfold getKey
    simp only
    rw [← Bool.not_eq_true]
    simp only [List.any_eq_true, bne_iff_ne, not_exists, not_and, Decidable.not_not]
    intro x hx
    rw [eeBlock, List.mem_map] at hx
    obtain ⟨i, hi, rfl⟩ := hx
    rw [List.mem_range] at hi
    rw [hclr, if_pos (by omega)]
  · intro a ha
    rw [hset, hclr, if_neg (by omega), if_neg (by omega)]
    exact ⟨rfl, rfl⟩

/-- Non-vacuity: a genuine 16-byte key (first byte even 0xff). -/
example : ([0xff, 1, 2, 3, 4, 5, 6, 7, 8, 9, 10, 11, 12, 13, 14, 15] : Bytes).length = 16 := by decide

/-! ## C27 -/

/-- A well-formed 8-byte node ID: its first byte is not 0xff (which marks a free row). -/
def GoodID (id : Bytes) : Prop := id.length = 8 ∧ id[0]? ≠ some 0xff

/-- The EEPROM table holds exactly `ids`, in order. -/
structure Table (m : EE) (ids : List Bytes) : Prop where
  len : ids.length ≤ 8
  row : ∀ i id, ids[i]? = some id → rowID m i = id ∧ GoodID id
  free : ∀ i, ids.length ≤ i → i < 8 → m (assocRow i) = 0xff

theorem table_clear (m : EE) : Table (clearAllNodeAssociations.post m) [] := by
  refine ⟨by simp, by simp, ?_⟩
  intro i _ hi
  unfold clearAllNodeAssociations
  have gen : ∀ (xs : List Nat) (m : EE), i ∈ xs ∨ m (assocRow i) = 0xff →
      (emForEach (fun i => smartErase (assocRow i)) xs).post m (assocRow i) = 0xff := by
    intro xs
    induction xs with
    | nil => intro m h; simpa [emForEach, post_ret] using h
    | cons x xs ih =>
      intro m h
      rw [emForEach, post_bind, post_smartErase]
      apply ih
      by_cases hx : assocRow i = assocRow x
      · right; rw [hx]; simp
      · rcases h with h | h
        · simp only [List.mem_cons] at h
          rcases h with h | h
          · subst h; exact absurd rfl hx
          · left; exact h
        · right; rw [EE.upd_other _ _ hx]; exact h
  exact gen _ m (Or.inl (List.mem_range.2 hi))

theorem table_first {m : EE} {ids : List Bytes} (h : Table m ids) {i : Nat} (hi : i < 8) :
    m (assocRow i) = 0xff ↔ ids.length ≤ i := by
  constructor
  · intro hff
    apply Classical.byContradiction
    intro hlt
    obtain ⟨h1, h2⟩ := h.row i ids[i] (List.getElem?_eq_getElem (by omega))
    apply h2.2
    rw [← h1, rowID_get _ _ _ (by omega)]
    rw [Nat.add_zero, hff]
  · intro hle; exact h.free i hle hi

theorem table_count {m : EE} {ids : List Bytes} (h : Table m ids) : countNodeAssociations m = ids.length := by
  have gen : ∀ k i, k + i = 8 → i ≤ ids.length → countFrom m k i = ids.length := by
    intro k
    induction k with
    | zero => intro i h1 h2; have := h.len; simp [countFrom]; omega
    | succ k ih =>
      intro i h1 h2
      rw [countFrom]
      by_cases hff : m (assocRow i) = 0xff
      · rw [if_pos hff]; have := (table_first h (by omega)).1 hff; omega
      · rw [if_neg hff]
        have : ¬ ids.length ≤ i := fun hh => hff ((table_first h (by omega)).2 hh)
        exact ih (i + 1) (by omega) (by omega)
  exact gen 8 0 (by omega) (by omega)

theorem addFrom_eq {m : EE} {ids : List Bytes} (h : Table m ids) (id : Bytes) :
    addNodeAssociation id m =
      if ids.length < 8 then emBind (writeRow (assocRow ids.length) id) (fun _ => emRet (some ids.length)) m
      else (none, []) := by
  have gen : ∀ k i, k + i = 8 → i ≤ ids.length → addFrom id k i m =
      if ids.length < 8 then emBind (writeRow (assocRow ids.length) id) (fun _ => emRet (some ids.length)) m
      else (none, []) := by
    intro k
    induction k with
    | zero => intro i h1 h2; have := h.len; rw [if_neg (by omega)]; rfl
    | succ k ih =>
      intro i h1 h2
      simp only [addFrom, eeRead, emIf]
      by_cases hff : m (assocRow i) = 0xff
      · rw [if_pos hff]
        have := (table_first h (by omega)).1 hff
        have e : i = ids.length := by omega
        rw [if_pos (by omega), e]
      · rw [if_neg hff]
        have : ¬ ids.length ≤ i := fun hh => hff ((table_first h (by omega)).2 hh)
        exact ih (i + 1) (by omega) (by omega)
  exact gen 8 0 (by omega) (by omega)

theorem add_post {m : EE} {ids : List Bytes} (h : Table m ids) (id : Bytes) (hlt : ids.length < 8) (a : Nat) :
    (addNodeAssociation id).post m a =
      if assocRow ids.length ≤ a ∧ a < assocRow ids.length + 32 then
        (if a - assocRow ids.length < 8 then id[a - assocRow ids.length]?.getD 0 else 0xff) else m a := by
  have := addFrom_eq h id
  rw [if_pos hlt] at this
  have e : (addNodeAssociation id).post m = (writeRow (assocRow ids.length) id).post m := by
    rw [EM.post, this]
    simp only [emBind, emRet, List.append_nil]
    rfl
  rw [e, post_writeRow]

theorem table_add {m : EE} {ids : List Bytes} (h : Table m ids) (id : Bytes) (hid : GoodID id) (hlt : ids.length < 8) :
    Table ((addNodeAssociation id).post m) (ids ++ [id]) := by
  have hp := add_post h id hlt
  refine ⟨by simp; omega, ?_, ?_⟩
  · intro i id' hi'
    by_cases hi : i < ids.length
    · rw [List.getElem?_append_left hi] at hi'
      obtain ⟨h1, h2⟩ := h.row i id' hi'
      refine ⟨?_, h2⟩
      rw [← h1]
      apply eeBlock_congr
      intro j hj
      rw [hp, if_neg]
      simp only [assocRow]; omega
    · by_cases he : i = ids.length
      · subst he
        simp at hi'
        subst hi'
        refine ⟨?_, hid⟩
        apply List.ext_getElem?
        intro j
        by_cases hj : j < 8
        · rw [rowID_get _ _ _ hj, hp, if_pos (by omega), if_pos (by omega),
            show assocRow ids.length + j - assocRow ids.length = j by omega,
            List.getElem?_eq_getElem (by have := hid.1; omega)]
          rfl
        · rw [List.getElem?_eq_none (by rw [rowID_length]; omega),
            List.getElem?_eq_none (by have := hid.1; omega)]
      · rw [List.getElem?_eq_none (by simp; omega)] at hi'; simp at hi'
  · intro i hi hi8
    simp only [List.length_append, List.length_cons, List.length_nil] at hi
    rw [hp, if_neg (by simp only [assocRow]; omega)]
    exact h.free i (by omega) hi8

theorem table_find {m : EE} {ids : List Bytes} (h : Table m ids) (pre : Bytes) (hpre : pre.length ≤ 8) (s : Nat) :
    getNextMatchingNodeID m s pre =
      ((ids.drop s).findIdx? fun id => pre.isPrefixOf id).map (· + s) := by
  have hl := h.len
  have gen : ∀ k i, k + i = 8 → findFrom m pre k i = ((ids.drop i).findIdx? fun id => pre.isPrefixOf id).map (· + i) := by
    intro k
    induction k with
    | zero =>
      intro i h1
      have : ids.drop i = [] := List.drop_eq_nil_of_le (by omega)
      simp [findFrom, this]
    | succ k ih =>
      intro i h1
      rw [findFrom, rowID_first]
      by_cases hff : m (assocRow i) = 0xff
      · rw [if_pos hff]
        have := (table_first h (by omega)).1 hff
        have : ids.drop i = [] := List.drop_eq_nil_of_le (by omega)
        simp [this]
      · rw [if_neg hff]
        have hlt : i < ids.length := by
          apply Classical.byContradiction
          intro hh; exact hff ((table_first h (by omega)).2 (by omega))
        obtain ⟨r1, r2⟩ := h.row i ids[i] (List.getElem?_eq_getElem hlt)
        rw [List.drop_eq_getElem_cons hlt, List.findIdx?_cons, r1]
        have hiff : (pre.length = 0 ∨ memcmp (ids[i].take pre.length) pre = 0) ↔ pre.isPrefixOf ids[i] = true := by
          rw [memcmp_eq_zero (by rw [List.length_take, r2.1]; omega), List.isPrefixOf_iff_prefix,
            List.prefix_iff_eq_take]
          constructor
          · rintro (h0 | h0)
            · have : pre = [] := List.length_eq_zero_iff.1 h0
              simp [this]
            · exact h0.symm
          · intro hh; right; exact hh.symm
        by_cases hm : pre.isPrefixOf ids[i] = true
        · rw [if_pos (hiff.2 hm), hm]; simp
        · rw [if_neg (fun hh => hm (hiff.1 hh))]
          simp only [hm, Bool.false_eq_true, if_false]
          rw [ih (i + 1) (by omega), Option.map_map]
          congr 1
          funext x; simp; omega
  unfold getNextMatchingNodeID
  by_cases hs : 8 ≤ s
  · rw [if_pos hs]
    have : ids.drop s = [] := List.drop_eq_nil_of_le (by omega)
    simp [this]
  · rw [if_neg (by omega), if_neg (by omega), gen _ _ (by omega)]

/-- EEPROM contents after adding each ID in turn. -/
def addAll (m : EE) (ids : List Bytes) : EE := ids.foldl (fun m id => (addNodeAssociation id).post m) m

theorem table_addAll {ids : List Bytes} (hg : ∀ id ∈ ids, GoodID id) :
    ∀ {m : EE} {cur : List Bytes}, Table m cur → Table (addAll m ids) ((cur ++ ids).take 8) := by
  induction ids with
  | nil =>
    intro m cur h
    rw [List.append_nil, List.take_of_length_le h.len]; exact h
  | cons id ids ih =>
    intro m cur h
    have hg' : ∀ x ∈ ids, GoodID x := fun x hx => hg x (by simp [hx])
    rw [addAll, List.foldl_cons]
    by_cases hlt : cur.length < 8
    · have := ih hg' (table_add h id (hg id (by simp)) hlt)
      rw [List.append_assoc] at this
      exact this
    · have hsame : (addNodeAssociation id).post m = m := by
        rw [EM.post, addFrom_eq h id, if_neg hlt]; rfl
      rw [hsame]
      have := ih hg' h
      have hl := h.len
      rw [List.take_append_of_le_length (by omega)] at this ⊢
      exact this

/-- **C27.** From any EEPROM contents: clear, then add any sequence of IDs (first byte not 0xff). Then the table is
exactly the first 8 of them: the count, retrieval by index, and lookup by any prefix (from any start index, the first
matching index or none) are those of that list. -/
theorem C27_associations (m : EE) (ids : List Bytes) (hg : ∀ id ∈ ids, GoodID id) :
    let m' := addAll (clearAllNodeAssociations.post m) ids
    let t := ids.take 8
    countNodeAssociations m' = t.length ∧
    (∀ i, getNodeAssociation m' i = t[i]?) ∧
    (∀ pre start, pre.length ≤ 8 →
      getNextMatchingNodeID m' start pre = ((t.drop start).findIdx? fun id => pre.isPrefixOf id).map (· + start)) ∧
    (∀ id, t.length < 8 → (addNodeAssociation id m').1 = some t.length) ∧
    (∀ id, t.length = 8 → addNodeAssociation id m' = (none, [])) := by
  intro m' t
  have ht : Table m' t := by
    have := table_addAll hg (table_clear m)
    simpa using this
  refine ⟨table_count ht, ?_, fun pre s hp => table_find ht pre hp s, ?_, ?_⟩
  · intro i
    unfold getNodeAssociation
    rw [table_count ht]
    by_cases hi : i < t.length
    · rw [if_neg (by omega), List.getElem?_eq_getElem hi]
      rw [(ht.row i t[i] (List.getElem?_eq_getElem hi)).1]
    · rw [if_pos (by omega), List.getElem?_eq_none (by omega)]
  · intro id hlt
    rw [addFrom_eq ht id, if_pos hlt]; rfl
  · intro id he
    rw [addFrom_eq ht id, if_neg (by omega)]

/-- Non-vacuity: nine legal IDs (one more than fits). -/
example : ∀ id ∈ ([1, 2, 3, 4, 5, 6, 7, 8, 9].map fun x : Nat => [0x80, u8 x, 0, 0, 0, 0, 0, 0xff]), GoodID id := by
  intro id h
  simp only [List.map_cons, List.map_nil, List.mem_cons, List.not_mem_nil, or_false] at h
  rcases h with h | h | h | h | h | h | h | h | h <;> subst h <;> exact ⟨rfl, by decide⟩

/-- The 0xff restriction is needed: an ID whose first byte is 0xff is reported as added but is not retrievable. -/
theorem C27_ff_id_lost (m : EE) (t : Bytes) :
    let m0 := clearAllNodeAssociations.post m
    (addNodeAssociation (0xff :: t) m0).1 = some 0 ∧
    countNodeAssociations ((addNodeAssociation (0xff :: t)).post m0) = 0 := by
  intro m0
  have ht := table_clear m
  refine ⟨?_, ?_⟩
  · rw [addFrom_eq ht, if_pos (by simp)]; rfl
  · have := add_post ht (0xff :: t) (by simp) (assocRow 0)
    rw [if_pos (by simp [assocRow]), if_pos (by simp [assocRow])] at this
    unfold countNodeAssociations
    rw [countFrom, if_pos]
    rw [this]; simp

end OTR.Props
