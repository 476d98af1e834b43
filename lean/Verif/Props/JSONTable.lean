import Verif.Proof.JSONStats
/-!
# Property C65: the statistics table is a bounded map

The map a user sees: `get s k` is the entry stored under key `k`, if any.
-/

namespace OTR.Props
open OTR

/-- The entry stored under a key. -/
def get (s : StatSet) (k : Bytes) : Option Stat := s.stats.find? fun x => x.key = k

/-- The representation is in order: distinct valid keys, at most `cap` (≤ 255) of them. -/
structure TabOK (s : StatSet) : Prop where
  keys : (s.stats.map (·.key)).Nodup
  valid : ∀ x ∈ s.stats, validKey x.key = true
  len : s.stats.length ≤ s.cap
  cap : s.cap ≤ 255
  last : s.lastTXed ≤ 255
  id : ∀ i, s.id = some i → validKey i = true
  count : s.count < 8

theorem get_iff (s : StatSet) (h : TabOK s) (k : Bytes) (x : Stat) : get s k = some x ↔ x ∈ s.stats ∧ x.key = k := by
  unfold get
  have hk := h.keys
  generalize s.stats = l at hk
  induction l with
  | nil => simp
  | cons a t ih =>
    simp only [List.map_cons, List.nodup_cons] at hk
    rw [List.find?_cons]
    by_cases ha : a.key = k
    · simp only [ha, decide_true, Option.some.injEq, List.mem_cons]
      constructor
      · rintro rfl; exact ⟨.inl rfl, ha⟩
      · rintro ⟨h1 | h1, h2⟩
        · exact h1.symm
        · exact absurd (by rw [ha, ← h2]; exact List.mem_map_of_mem h1) hk.1
    · simp only [ha, decide_false, List.mem_cons]
      refine (ih hk.2).trans ?_
      constructor
      · rintro ⟨h1, h2⟩; exact ⟨.inr h1, h2⟩
      · rintro ⟨h1 | h1, h2⟩
        · subst h1; exact absurd h2 ha
        · exact ⟨h1, h2⟩

theorem get_none (s : StatSet) (k : Bytes) : get s k = none ↔ ∀ x ∈ s.stats, x.key ≠ k := by
  unfold get; simp

theorem find_none (s : StatSet) (k : Bytes) : s.find k = none ↔ get s k = none := by
  unfold StatSet.find; rw [get_none]; simp

theorem find_split (s : StatSet) (k : Bytes) (i : Nat) (h : s.find k = some i) :
    ∃ a x b, s.stats = a ++ x :: b ∧ a.length = i ∧ x.key = k := by
  unfold StatSet.find at h
  rw [List.findIdx?_eq_some_iff_getElem] at h
  obtain ⟨hi, h1, _⟩ := h
  refine ⟨s.stats.take i, s.stats[i], s.stats.drop (i + 1), ?_, by simp; omega, by simpa using h1⟩
  rw [List.getElem_cons_drop, List.take_append_drop]

theorem get_congr (s s' : StatSet) (h : TabOK s) (h' : TabOK s') (k k' : Bytes) (hk : k' ≠ k)
    (hm : ∀ x, x.key ≠ k → (x ∈ s'.stats ↔ x ∈ s.stats)) : get s' k' = get s k' := by
  apply Option.ext
  intro x
  rw [get_iff s' h', get_iff s h]
  constructor <;> rintro ⟨h1, h2⟩
  · exact ⟨(hm x (by rw [h2]; exact hk)).1 h1, h2⟩
  · exact ⟨(hm x (by rw [h2]; exact hk)).2 h1, h2⟩

theorem swapRemove (s : StatSet) (k : Bytes) (i : Nat) (h : s.find k = some i) :
    (s.remove k).1 = true ∧ ∃ x, x.key = k ∧ s.stats.Perm (x :: (s.remove k).2.stats) ∧ (s.remove k).2 = { s with stats := (s.remove k).2.stats } := by
  obtain ⟨a, x, b, e, hl, hx⟩ := find_split s k i h
  unfold StatSet.remove
  rw [h]; dsimp only
  rcases List.eq_nil_or_concat b with rfl | ⟨b', z, rfl⟩
  · have hi : i = s.stats.length - 1 := by rw [e]; simp; omega
    rw [if_pos hi]
    refine ⟨rfl, x, hx, ?_, rfl⟩
    rw [e]; simp only [List.dropLast_concat]
    exact List.perm_append_comm (l₂ := [x])
  · have hi : ¬ i = s.stats.length - 1 := by rw [e]; simp; omega
    rw [if_neg hi]
    have hz : s.stats.getLast? = some z := by
      rw [e, List.concat_eq_append, show a ++ x :: (b' ++ [z]) = (a ++ x :: b') ++ [z] by simp, List.getLast?_append]; simp
    rw [hz]
    refine ⟨rfl, x, hx, ?_, rfl⟩
    have e2 : (s.stats.set i z).dropLast = a ++ z :: b' := by
      rw [e, ← hl]
      simp
      rw [show z :: (b' ++ [z]) = z :: b' ++ [z] by rfl, List.dropLast_concat]
    dsimp only
    rw [e2, e]
    rw [List.concat_eq_append]
    refine List.Perm.trans List.perm_middle ?_
    apply List.Perm.cons
    apply List.Perm.append_left
    exact List.perm_append_comm (l₂ := [z])

theorem tab_remove (s : StatSet) (h : TabOK s) (k : Bytes) : TabOK (s.remove k).2 := by
  cases hf : s.find k with
  | none => unfold StatSet.remove; rw [hf]; exact h
  | some i =>
    obtain ⟨_, x, hx, hp, e⟩ := swapRemove s k i hf
    have hk := (hp.map (·.key)).nodup_iff.mp h.keys
    simp only [List.map_cons, List.nodup_cons] at hk
    rw [e]
    refine ⟨hk.2, ?_, ?_, h.cap, h.last, h.id, h.count⟩
    · intro y hy
      exact h.valid y (hp.mem_iff.mpr (by simp only [List.mem_cons]; exact .inr hy))
    · have := hp.length_eq; have := h.len; simp at *; omega

/-- **C65** (remove): `remove` succeeds exactly when the key is present; afterwards the key is absent, every other entry is as it was,
and there is one entry less. -/
theorem C65_remove (s : StatSet) (h : TabOK s) (k : Bytes) :
    ((s.remove k).1 = (get s k).isSome) ∧ (∀ k', get (s.remove k).2 k' = if k' = k then none else get s k') ∧
    (s.remove k).2.stats.length = s.stats.length - (if (get s k).isSome then 1 else 0) := by
  cases hf : s.find k with
  | none =>
    have hg := (find_none s k).1 hf
    have e : s.remove k = (false, s) := by unfold StatSet.remove; rw [hf]
    rw [e, hg]
    refine ⟨rfl, ?_, by simp⟩
    intro k'
    split
    · rename_i hk; rw [hk]; exact hg
    · rfl
  | some i =>
    have hg : (get s k).isSome = true := by
      cases hx : get s k with
      | none => rw [← find_none] at hx; rw [hx] at hf; simp at hf
      | some _ => rfl
    obtain ⟨h1, x, hx, hp, e⟩ := swapRemove s k i hf
    have h' := tab_remove s h k
    have hk := (hp.map (·.key)).nodup_iff.mp h.keys
    simp only [List.map_cons, List.nodup_cons] at hk
    refine ⟨by rw [h1, hg], ?_, ?_⟩
    · intro k'
      by_cases hkk : k' = k
      · rw [if_pos hkk, hkk, get_none]
        intro y hy hyk
        exact hk.1 (by rw [hx, List.mem_map]; exact ⟨y, hy, hyk⟩)
      · rw [if_neg hkk]
        apply get_congr s _ h h' k k' hkk
        intro y hy
        rw [hp.mem_iff, List.mem_cons]
        constructor
        · exact .inr
        · rintro (rfl | h)
          · exact absurd hx hy
          · exact h
    · rw [hg]; have := hp.length_eq; simp at this ⊢; omega

theorem modify_split {α : Type} (a b : List α) (x : α) (f : α → α) : (a ++ x :: b).modify a.length f = a ++ f x :: b := by
  induction a with
  | nil => rfl
  | cons c t ih => simp [ih]

/-- Replacing the entry of a key. -/
theorem tab_modify (s : StatSet) (h : TabOK s) (k : Bytes) (i : Nat) (hf : s.find k = some i) (f : Stat → Stat)
    (hkey : ∀ x : Stat, x.key = k → (f x).key = k) :
    TabOK { s with stats := s.stats.modify i f } ∧
    ∀ k', get { s with stats := s.stats.modify i f } k' = if k' = k then (get s k).map f else get s k' := by
  obtain ⟨a, x, b, e, hl, hx⟩ := find_split s k i hf
  have em : s.stats.modify i f = a ++ f x :: b := by rw [e, ← hl]; exact modify_split a b x f
  have hkx := hkey x hx
  have emap : (s.stats.modify i f).map (·.key) = s.stats.map (·.key) := by rw [em, e]; simp [hx, hkx]
  have h' : TabOK { s with stats := s.stats.modify i f } := by
    refine ⟨by rw [emap]; exact h.keys, ?_, by simpa using h.len, h.cap, h.last, h.id, h.count⟩
    intro y hy
    have : y.key ∈ (s.stats.modify i f).map (·.key) := List.mem_map_of_mem hy
    rw [emap, List.mem_map] at this
    obtain ⟨z, hz, hzk⟩ := this
    rw [← hzk]; exact h.valid z hz
  refine ⟨h', ?_⟩
  intro k'
  by_cases hkk : k' = k
  · rw [if_pos hkk, hkk]
    have hg : get s k = some x := (get_iff s h k x).2 ⟨by rw [e]; simp, hx⟩
    rw [hg]
    exact (get_iff _ h' k (f x)).2 ⟨by show f x ∈ s.stats.modify i f; rw [em]; simp, hkx⟩
  · rw [if_neg hkk]
    apply get_congr s _ h h' k k' hkk
    intro y hy
    show y ∈ s.stats.modify i f ↔ _
    rw [em, e]
    simp only [List.mem_append, List.mem_cons]
    constructor
    · rintro (h | rfl | h)
      · exact .inl h
      · exact absurd hkx hy
      · exact .inr (.inr h)
    · rintro (h | rfl | h)
      · exact .inl h
      · exact absurd hx hy
      · exact .inr (.inr h)

/-- Appending an entry with a new key. -/
theorem tab_append (s : StatSet) (h : TabOK s) (x : Stat) (hv : validKey x.key = true) (hf : get s x.key = none) (hc : s.stats.length < s.cap) :
    TabOK { s with stats := s.stats ++ [x] } ∧
    ∀ k', get { s with stats := s.stats ++ [x] } k' = if k' = x.key then some x else get s k' := by
  rw [get_none] at hf
  have h' : TabOK { s with stats := s.stats ++ [x] } := by
    refine ⟨?_, ?_, by simp; omega, h.cap, h.last, h.id, h.count⟩
    · simp only [List.map_append, List.map_singleton]
      rw [List.nodup_append]
      refine ⟨h.keys, by simp, ?_⟩
      intro a ha b hb
      simp at hb; subst hb
      rw [List.mem_map] at ha
      obtain ⟨y, hy, rfl⟩ := ha
      exact hf y hy
    · intro y hy
      simp at hy
      rcases hy with hy | rfl
      · exact h.valid y hy
      · exact hv
  refine ⟨h', ?_⟩
  intro k'
  by_cases hk : k' = x.key
  · rw [if_pos hk]; exact (get_iff _ h' k' x).2 ⟨by simp, hk.symm⟩
  · rw [if_neg hk]
    apply get_congr s _ h h' x.key k' hk
    intro y hy
    simp only [List.mem_append, List.mem_singleton]
    constructor
    · rintro (h | rfl)
      · exact h
      · exact absurd rfl hy
    · exact .inl

theorem find_isSome (s : StatSet) (k : Bytes) (i : Nat) (hf : s.find k = some i) : (get s k).isSome = true := by
  cases hx : get s k with
  | none => rw [← find_none] at hx; rw [hx] at hf; simp at hf
  | some _ => rfl

/-- **C65** (put): `put` is refused exactly when the key is not a valid name, or it is new and the table is full; otherwise the
entry holds the value, a new entry gets the priority asked for and an old one keeps its own, the entry counts as changed if it is new
or its value differs (and else keeps its mark), and no other entry is affected. A refused `put` changes nothing. -/
theorem C65_put (s : StatSet) (h : TabOK s) (k : Bytes) (v : Int) (low : Bool) :
    ((s.put k v low).1 = (validKey k && ((get s k).isSome || decide (s.stats.length < s.cap)))) ∧
    ((s.put k v low).1 = false → (s.put k v low).2 = s) ∧
    ((s.put k v low).1 = true → ∀ k', get (s.put k v low).2 k' =
      if k' = k then some (match get s k with
        | some x => { x with value := v, changed := x.changed || decide (x.value ≠ v) }
        | none => { key := k, low, value := v, changed := true })
      else get s k') ∧
    TabOK (s.put k v low).2 := by
  unfold StatSet.put
  by_cases hv : validKey k = true
  · rw [if_neg (by simp [hv])]
    cases hf : s.find k with
    | none =>
      have hg := (find_none s k).1 hf
      dsimp only
      by_cases hc : s.stats.length < s.cap
      · rw [if_pos hc]
        obtain ⟨t1, t2⟩ := tab_append s h { key := k, low, value := v, changed := true } hv hg hc
        refine ⟨by simp [hv, hc], by simp, fun _ k' => ?_, t1⟩
        rw [t2 k', hg]
      · rw [if_neg hc]
        refine ⟨by simp [hv, hc, hg], by simp, by simp, h⟩
    | some i =>
      have hg := find_isSome s k i hf
      dsimp only
      obtain ⟨t1, t2⟩ := tab_modify s h k i hf (fun x => if x.value ≠ v then { x with value := v, changed := true } else x)
        (by intro x hx; split <;> exact hx)
      refine ⟨by simp [hv, hg], by simp, fun _ k' => ?_, t1⟩
      rw [t2 k']
      split
      · cases hx : get s k with
        | none => rw [hx] at hg; simp at hg
        | some x =>
          simp only [Option.map_some]
          by_cases hvv : x.value = v
          · simp [← hvv]
          · simp [hvv]
      · rfl
  · rw [if_pos (by simp [hv])]
    refine ⟨by simp [hv], by simp, by simp, h⟩

/-- **C65** (putDescriptor): refused in the same cases; sets the priority and keeps the value, or adds an entry with value zero. -/
theorem C65_putDescriptor (s : StatSet) (h : TabOK s) (k : Bytes) (low : Bool) :
    ((s.putDescriptor k low).1 = (validKey k && ((get s k).isSome || decide (s.stats.length < s.cap)))) ∧
    ((s.putDescriptor k low).1 = false → (s.putDescriptor k low).2 = s) ∧
    ((s.putDescriptor k low).1 = true → ∀ k', get (s.putDescriptor k low).2 k' =
      if k' = k then some (match get s k with
        | some x => { x with low := low }
        | none => { key := k, low, value := 0, changed := false })
      else get s k') ∧
    TabOK (s.putDescriptor k low).2 := by
  unfold StatSet.putDescriptor
  by_cases hv : validKey k = true
  · rw [if_neg (by simp [hv])]
    cases hf : s.find k with
    | none =>
      have hg := (find_none s k).1 hf
      dsimp only
      by_cases hc : s.stats.length < s.cap
      · rw [if_pos hc]
        obtain ⟨t1, t2⟩ := tab_append s h { key := k, low, value := 0, changed := false } hv hg hc
        refine ⟨by simp [hv, hc], by simp, fun _ k' => ?_, t1⟩
        rw [t2 k', hg]
      · rw [if_neg hc]
        refine ⟨by simp [hv, hc, hg], by simp, by simp, h⟩
    | some i =>
      have hg := find_isSome s k i hf
      dsimp only
      obtain ⟨t1, t2⟩ := tab_modify s h k i hf (fun x => { x with key := k, low }) (by intro x hx; rfl)
      refine ⟨by simp [hv, hg], by simp, fun _ k' => ?_, t1⟩
      rw [t2 k']
      split
      · cases hx : get s k with
        | none => rw [hx] at hg; simp at hg
        | some x =>
          have := ((get_iff s h k x).1 hx).2
          simp [← this]
      · rfl
  · rw [if_pos (by simp [hv])]
    refine ⟨by simp [hv], by simp, by simp, h⟩

/-- **C65** (queries): `containsKey` and `isLowPriority` report on the entry stored. -/
theorem C65_queries (s : StatSet) (h : TabOK s) (k : Bytes) :
    s.containsKey k = (get s k).isSome ∧ s.isLowPriority k = ((get s k).map (·.low)).getD false := by
  unfold StatSet.containsKey StatSet.isLowPriority
  cases hf : s.find k with
  | none => rw [(find_none s k).1 hf]; simp
  | some i =>
    obtain ⟨a, x, b, e, hl, hx⟩ := find_split s k i hf
    have hg : get s k = some x := (get_iff s h k x).2 ⟨by rw [e]; simp, hx⟩
    rw [hg]
    have : s.stats[i]? = some x := by rw [e, ← hl]; simp
    simp [this]

/-- The operations of the table. -/
inductive JOp where
  | put (k : Bytes) (v : Int) (low : Bool)
  | putDescriptor (k : Bytes) (low : Bool)
  | remove (k : Bytes)
  | setID (i : Bytes)
  | enableCount (b : Bool)
  | writeJSON (sys mem : Bytes) (bufSize : Nat) (maximise suppress : Bool)

/-- Carry out one operation. -/
def JOp.run (s : StatSet) : JOp → StatSet
  | .put k v low => (s.put k v low).2
  | .putDescriptor k low => (s.putDescriptor k low).2
  | .remove k => (s.remove k).2
  | .setID i => (s.setID i).2
  | .enableCount b => { s with enabled := b }
  | .writeJSON sys mem bufSize mx sup => (OTR.writeJSON s sys mem bufSize mx sup).2.1

/-- A call may be made: the buffer is as large as said, and its size fits a byte. -/
def JOp.ok : JOp → Prop
  | .writeJSON _ mem bufSize _ _ => bufSize ≤ mem.length ∧ bufSize ≤ 255
  | _ => True

theorem getLast_visit (n last : Nat) (pre post : List Nat) (hn : 0 < n) (h255 : n ≤ 255) (hl : last ≤ 255) (e : visit n n last = pre ++ post) :
    (pre.getLast?).getD last ≤ 255 ∧ (pre ≠ [] → (pre.getLast?).getD last < n) := by
  cases hg : pre.getLast? with
  | none => exact ⟨hl, fun h => absurd (List.getLast?_eq_none_iff.mp hg) h⟩
  | some x =>
    have : x ∈ visit n n last := by rw [e]; exact List.mem_append_left _ (List.mem_of_getLast? hg)
    have := visit_lt n last n hn h255 hl x this
    simp; omega

theorem map_key (a b : List Stat) (hl : a.length = b.length) (h : ∀ i, (statAt a i).key = (statAt b i).key) : a.map (·.key) = b.map (·.key) := by
  apply List.ext_getElem (by simpa using hl)
  intro i h1 h2
  have := h i
  simp only [List.length_map] at h1 h2
  simpa [statAt, h1, h2] using this

/-- **C65** (writeJSON): writing leaves every entry in place but for its mark as changed. -/
theorem C65_write (s : StatSet) (h : TabOK s) (sys mem : Bytes) (bufSize : Nat) (mx sup : Bool) (hm : bufSize ≤ mem.length) :
    TabOK (writeJSON s sys mem bufSize mx sup).2.1 ∧
    ∀ k, (get (writeJSON s sys mem bufSize mx sup).2.1 k).map (fun x => (x.key, x.low, x.value)) = (get s k).map fun x => (x.key, x.low, x.value) := by
  by_cases hb : bufSize < 10
  · have : (writeJSON s sys mem bufSize mx sup).2.1 = s := by rw [writeJSON, if_pos hb]
    rw [this]; exact ⟨h, fun _ => rfl⟩
  · obtain ⟨r, s', b, he⟩ : ∃ r s' b, writeJSON s sys mem bufSize mx sup = (r, s', b) := ⟨_, _, _, rfl⟩
    have hl255 : s.stats.length ≤ 255 := Nat.le_trans h.len h.cap
    obtain ⟨P, lead, _, _, _, _, e1, e2, ⟨e3, e4, _⟩, e5, e6, e7⟩ := write_spec s sys mem bufSize mx sup (by omega) hm hl255 h.last r s' b he
    rw [he]; dsimp only
    have hkeys : s'.stats.map (·.key) = s.stats.map (·.key) := map_key _ _ e1 (by intro i; rw [e2 i]; split <;> rfl)
    have h' : TabOK s' := by
      refine ⟨by rw [hkeys]; exact h.keys, ?_, by rw [e1, e4]; exact h.len, by rw [e4]; exact h.cap, ?_, by rw [e3]; exact h.id, ?_⟩
      · intro x hx
        have : x.key ∈ s'.stats.map (·.key) := List.mem_map_of_mem hx
        rw [hkeys, List.mem_map] at this
        obtain ⟨z, hz, hzk⟩ := this
        rw [← hzk]; exact h.valid z hz
      · rcases e5 with ⟨hf, _⟩ | ⟨_, _, _, _, rfl⟩
        · by_cases hn : s.stats.length = 0
          · rw [e7 hn]; exact h.last
          · obtain ⟨pre, post, hR⟩ := e6 hf (by omega)
            rw [hR.lst]
            exact (getLast_visit _ _ pre post (by omega) hl255 h.last hR.split).1
        · exact h.last
      · rcases e5 with ⟨_, _, _, _, _, e⟩ | ⟨_, _, _, _, rfl⟩
        · rw [e]; omega
        · exact h.count
    refine ⟨h', ?_⟩
    intro k
    have hpt : s'.stats.map (fun x => (x.key, x.low, x.value)) = s.stats.map fun x => (x.key, x.low, x.value) := by
      apply List.ext_getElem (by simpa using e1)
      intro i h1 h2
      have := e2 i
      simp only [List.length_map] at h1 h2
      simp only [List.getElem_map]
      have ha : statAt s'.stats i = s'.stats[i] := by simp [statAt, h1]
      have hb' : statAt s.stats i = s.stats[i] := by simp [statAt, h2]
      rw [← ha, ← hb', this]; split <;> rfl
    have hfm : ∀ l : List Stat, (l.find? fun x => x.key = k).map (fun x => (x.key, x.low, x.value)) =
        (l.map fun x => (x.key, x.low, x.value)).find? fun y => y.1 = k := by
      intro l; rw [List.find?_map]; rfl
    unfold get
    rw [hfm, hfm, hpt]

theorem jop_keeps (s : StatSet) (h : TabOK s) (o : JOp) (hok : o.ok) : TabOK (JOp.run s o) ∧ (JOp.run s o).cap = s.cap := by
  cases o with
  | put k v low =>
    refine ⟨(C65_put s h k v low).2.2.2, ?_⟩
    simp only [JOp.run, StatSet.put]; split
    · rfl
    · split
      · rfl
      · split <;> rfl
  | putDescriptor k low =>
    refine ⟨(C65_putDescriptor s h k low).2.2.2, ?_⟩
    simp only [JOp.run, StatSet.putDescriptor]; split
    · rfl
    · split
      · rfl
      · split <;> rfl
  | remove k =>
    refine ⟨tab_remove s h k, ?_⟩
    simp only [JOp.run, StatSet.remove]; split
    · rfl
    · split
      · rfl
      · split <;> rfl
  | setID i =>
    simp only [JOp.run, StatSet.setID]; split
    · rename_i hv
      refine ⟨⟨h.keys, h.valid, h.len, h.cap, h.last, ?_, h.count⟩, rfl⟩
      intro j hj; simp at hj; subst hj; exact hv
    · exact ⟨h, rfl⟩
  | enableCount b => exact ⟨⟨h.keys, h.valid, h.len, h.cap, h.last, h.id, h.count⟩, rfl⟩
  | writeJSON sys mem bufSize mx sup =>
    have hm := hok
    refine ⟨(C65_write s h sys mem bufSize mx sup hm.1).1, ?_⟩
    simp only [JOp.run]
    by_cases hb : bufSize < 10
    · rw [OTR.writeJSON, if_pos hb]
    · obtain ⟨r, s', b, he⟩ : ∃ r s' b, OTR.writeJSON s sys mem bufSize mx sup = (r, s', b) := ⟨_, _, _, rfl⟩
      obtain ⟨P, lead, _, _, _, _, _, _, ⟨_, e4, _⟩, _⟩ :=
        write_spec s sys mem bufSize mx sup (by omega) hm.1 (Nat.le_trans h.len h.cap) h.last r s' b he
      rw [he]; exact e4

/-- **C65** (all histories): a table of any capacity up to 255, after any sequence of operations from empty, holds distinct valid keys
and at most its capacity of them (so every theorem above applies). -/
theorem C65_histories (cap : Nat) (hc : cap ≤ 255) (ops : List JOp) (hok : ∀ o ∈ ops, o.ok) :
    TabOK (ops.foldl JOp.run { cap }) ∧ (ops.foldl JOp.run { cap }).cap = cap := by
  have key : ∀ (ops : List JOp) (s : StatSet), TabOK s → (∀ o ∈ ops, o.ok) → TabOK (ops.foldl JOp.run s) ∧ (ops.foldl JOp.run s).cap = s.cap := by
    intro ops
    induction ops with
    | nil => intro s h _; exact ⟨h, rfl⟩
    | cons o t ih =>
      intro s h hok
      have hs := jop_keeps s h o (hok o (by simp))
      have := ih (JOp.run s o) hs.1 (fun o ho => hok o (by simp [ho]))
      simp only [List.foldl_cons]
      exact ⟨this.1, this.2.trans hs.2⟩
  exact key ops { cap } ⟨by simp, by simp, by simp, hc, by simp, by simp, by simp⟩ hok

/-- A history that fills a table of two, fails to put a third, removes one and puts it then. -/
example : ([JOp.put [0x61] 1 false, .put [0x62] 2 true, .put [0x63] 3 false, .remove [0x61], .put [0x63] 3 false].foldl JOp.run { cap := 2 }).stats
    = [⟨[0x62], true, 2, true⟩, ⟨[0x63], false, 3, true⟩] := by decide +kernel

end OTR.Props
