import Verif.Model.JSONStats
/-!
# Lemmas about the buffer printer and the loops of `writeJSON`
-/

namespace OTR

/-- The text in the buffer. -/
def BP.txt (b : BP) : Bytes := b.mem.take b.size

/-- The printer is in order, over memory of length `L` whose bytes from `cap + 1` on are `tail`. -/
structure BPok (b : BP) (L : Nat) (tail : Bytes) : Prop where
  len : b.mem.length = L
  cap : b.cap < L
  size : b.size ≤ b.cap
  mark : b.mark ≤ b.size
  oob : b.oob = false
  tail : b.mem.drop (b.cap + 1) = tail
  nul : b.mem[b.size]? = some 0

theorem bp_new (mem : Bytes) (n : Nat) (h : n ≤ mem.length) (hn : 0 < n) :
    BPok (BP.new mem n) mem.length (mem.drop n) ∧ (BP.new mem n).txt = [] ∧ (BP.new mem n).cap = n - 1 := by
  have h0 : 0 < mem.length := by omega
  refine ⟨⟨?_, ?_, ?_, ?_, ?_, ?_, ?_⟩, ?_, rfl⟩
  · simp [BP.new, BP.store]
  · simp only [BP.new, BP.store]; omega
  · simp [BP.new, BP.store]
  · simp [BP.new, BP.store]
  · simp only [BP.new, BP.store, Bool.false_or, decide_eq_false_iff_not]; omega
  · simp only [BP.new, BP.store]; rw [show n - 1 + 1 = n by omega, List.drop_set_of_lt (by omega)]
  · simp only [BP.new, BP.store]; rw [List.getElem?_set_self h0]
  · simp [BP.new, BP.store, BP.txt]

theorem bp_write (b : BP) (L : Nat) (tail : Bytes) (c : Byte) (h : BPok b L tail) :
    BPok (b.write c) L tail ∧ (b.write c).txt = (b.txt ++ [c]).take b.cap ∧ (b.write c).cap = b.cap ∧ (b.write c).mark = b.mark ∧
    (b.write c).size = min (b.size + 1) b.cap ∧ (b.write c).txt.take b.mark = b.txt.take b.mark := by
  obtain ⟨h1, h2, h3, h4, h5, h6, h7⟩ := h
  rw [BP.write]
  by_cases hs : b.size < b.cap
  · rw [if_pos hs]
    have e : (b.txt ++ [c]).take b.cap = b.txt ++ [c] := by
      apply List.take_of_length_le; simp [BP.txt]; omega
    refine ⟨⟨?_, ?_, ?_, ?_, ?_, ?_, ?_⟩, ?_, rfl, rfl, ?_, ?_⟩
    · simp [BP.store, h1]
    · exact h2
    · simp only [BP.store]; omega
    · simp only [BP.store]; omega
    · simp only [BP.store, h5, List.length_set, Bool.false_or, Bool.or_eq_false_iff, decide_eq_false_iff_not]; omega
    · simp only [BP.store]; rw [List.drop_set_of_lt (by omega), List.drop_set_of_lt (by omega)]; exact h6
    · simp only [BP.store]; rw [List.getElem?_set_self (by simp; omega)]
    · rw [e]; simp only [BP.txt, BP.store]
      rw [List.take_set_of_le (by omega), List.take_add_one]
      simp [List.take_set_of_le, show b.size < b.mem.length by omega]
    · simp [BP.store]; omega
    · simp only [BP.txt, BP.store, List.take_take]
      rw [show min b.mark (b.size + 1) = b.mark by omega, show min b.mark b.size = b.mark by omega,
        List.take_set_of_le (by omega), List.take_set_of_le (by omega)]
  · rw [if_neg hs]
    refine ⟨⟨h1, h2, h3, h4, h5, h6, h7⟩, ?_, rfl, rfl, by omega, rfl⟩
    have hl : b.txt.length = b.cap := by simp [BP.txt]; omega
    rw [List.take_append_of_le_length (by omega), List.take_of_length_le (by omega)]

theorem bp_print (s : Bytes) : ∀ (b : BP) (L : Nat) (tail : Bytes), BPok b L tail →
    BPok (b.print s) L tail ∧ (b.print s).txt = (b.txt ++ s).take b.cap ∧ (b.print s).cap = b.cap ∧ (b.print s).mark = b.mark ∧
    (b.print s).size = min (b.size + s.length) b.cap ∧ (b.print s).txt.take b.mark = b.txt.take b.mark := by
  induction s with
  | nil =>
    intro b L tail h
    have hl : b.txt.length ≤ b.cap := by simp [BP.txt]; have := h.size; omega
    exact ⟨h, by simp [BP.print, List.take_of_length_le hl], rfl, rfl, by have := h.size; simp [BP.print]; omega, rfl⟩
  | cons c t ih =>
    intro b L tail h
    obtain ⟨w1, w2, w3, w4, w5, w6⟩ := bp_write b L tail c h
    obtain ⟨i1, i2, i3, i4, i5, i6⟩ := ih (b.write c) L tail w1
    have e : b.print (c :: t) = (b.write c).print t := rfl
    rw [e]
    refine ⟨i1, ?_, by rw [i3, w3], by rw [i4, w4], ?_, ?_⟩
    · rw [i2, w2, w3]
      by_cases hc : b.size < b.cap
      · rw [List.take_of_length_le (l := b.txt ++ [c])]
        · simp
        · simp [BP.txt]; omega
      · have := h.size
        have hl : b.txt.length = b.cap := by have := h.len; have := h.cap; simp [BP.txt]; omega
        rw [List.take_append_of_le_length (l₁ := b.txt) (by omega), List.take_append_of_le_length (by simp; omega),
          List.take_append_of_le_length (by omega), List.take_take]; simp
    · rw [i5, w5, w3, List.length_cons]; omega
    · rw [← w4, i6, w4, w6]

theorem bp_setMark (b : BP) (L : Nat) (tail : Bytes) (h : BPok b L tail) : BPok b.setMark L tail :=
  ⟨h.len, h.cap, h.size, Nat.le_refl _, h.oob, h.tail, h.nul⟩

theorem bp_rewind (b : BP) (L : Nat) (tail : Bytes) (h : BPok b L tail) :
    BPok b.rewind L tail ∧ b.rewind.txt = b.txt.take b.mark ∧ b.rewind.cap = b.cap ∧ b.rewind.mark = b.mark ∧ b.rewind.size = b.mark := by
  obtain ⟨h1, h2, h3, h4, h5, h6, h7⟩ := h
  refine ⟨⟨?_, ?_, ?_, ?_, ?_, ?_, ?_⟩, ?_, rfl, rfl, rfl⟩
  · simp [BP.rewind, BP.store, h1]
  · exact h2
  · simp [BP.rewind, BP.store]; omega
  · simp [BP.rewind, BP.store]
  · simp only [BP.rewind, BP.store, h5, Bool.false_or, decide_eq_false_iff_not]; omega
  · simp only [BP.rewind, BP.store]; rw [List.drop_set_of_lt (by omega)]; exact h6
  · simp only [BP.rewind, BP.store]; rw [List.getElem?_set_self (by omega)]
  · simp only [BP.rewind, BP.store, BP.txt, List.take_take]
    rw [List.take_set_of_le (by omega), show min b.mark b.size = b.mark by omega]

/-! ### The indices visited -/

theorem visit_eq (n : Nat) (hn : 0 < n) (h255 : n ≤ 255) : ∀ (k next : Nat), next < n →
    visit n k next = (List.range k).map fun j => (next + 1 + j) % n := by
  intro k
  induction k with
  | zero => intro _ _; rfl
  | succ k ih =>
    intro next hx
    have e : nextIdx n next = (next + 1) % n := by
      unfold nextIdx
      rw [Nat.mod_eq_of_lt (by omega)]
      split
      · rw [show next + 1 = n by omega, Nat.mod_self]
      · rw [Nat.mod_eq_of_lt (by omega)]
    have hl : nextIdx n next < n := by rw [e]; exact Nat.mod_lt _ hn
    rw [visit, ih _ hl, List.range_succ_eq_map, e]
    simp only [List.map_cons, List.map_map, Nat.add_zero]
    congr 1
    apply List.map_congr_left
    intro j _
    simp only [Function.comp]
    rw [Nat.add_assoc, Nat.mod_add_mod]
    congr 1; omega

theorem visit_ge (n : Nat) (hn : 0 < n) (next : Nat) (h : n ≤ next) (h2 : next ≤ 255) (k : Nat) : visit n k next = visit n k (n - 1) := by
  cases k with
  | zero => rfl
  | succ k =>
    have e1 : nextIdx n next = 0 := by
      unfold nextIdx; split
      · rfl
      · by_cases h3 : next = 255
        · subst h3; rfl
        · rw [Nat.mod_eq_of_lt (by omega)] at *; omega
    have e2 : nextIdx n (n - 1) = 0 := by
      unfold nextIdx; split
      · rfl
      · rw [show n - 1 + 1 = n by omega] at *
        by_cases h3 : n < 256
        · rw [Nat.mod_eq_of_lt h3] at *; omega
        · omega
    rw [visit, visit, e1, e2]

/-- Position from which the rotation goes on. -/
def effLast (n last : Nat) : Nat := if last < n then last else n - 1

theorem visit_eff (n last k : Nat) (hn : 0 < n) (h255 : n ≤ 255) (hl : last ≤ 255) :
    visit n k last = (List.range k).map fun j => (effLast n last + 1 + j) % n := by
  unfold effLast
  by_cases h : last < n
  · rw [if_pos h]; exact visit_eq n hn h255 k last h
  · rw [if_neg h, visit_ge n hn last (by omega) hl]; exact visit_eq n hn h255 k _ (by omega)

theorem mod_inj (n a i j : Nat) (hi : i < n) (hj : j < n) (h : (a + i) % n = (a + j) % n) : i = j := by
  have h1 := Nat.div_add_mod (a + i) n
  have h2 := Nat.div_add_mod (a + j) n
  rw [h] at h1
  generalize (a + j) % n = r at *
  generalize hx : (a + i) / n = x at *
  generalize hy : (a + j) / n = y at *
  rcases Nat.lt_trichotomy x y with hlt | heq | hgt
  · exfalso
    have := Nat.mul_le_mul_left n hlt
    rw [Nat.mul_succ] at this; omega
  · subst heq; omega
  · exfalso
    have := Nat.mul_le_mul_left n hgt
    rw [Nat.mul_succ] at this; omega

theorem visit_nodup (n last : Nat) (hn : 0 < n) (h255 : n ≤ 255) (hl : last ≤ 255) : (visit n n last).Nodup := by
  rw [visit_eff n last n hn h255 hl]
  unfold List.Nodup
  rw [List.pairwise_map]
  have := List.nodup_range (n := n)
  unfold List.Nodup at this
  refine List.Pairwise.imp_of_mem ?_ this
  intro a b ha hb hne he
  exact hne (mod_inj n _ a b (List.mem_range.mp ha) (List.mem_range.mp hb) he)

theorem visit_lt (n last k : Nat) (hn : 0 < n) (h255 : n ≤ 255) (hl : last ≤ 255) : ∀ i ∈ visit n k last, i < n := by
  rw [visit_eff n last k hn h255 hl]
  intro i hi
  simp only [List.mem_map] at hi
  obtain ⟨j, _, rfl⟩ := hi
  exact Nat.mod_lt _ hn

/-! ### The text written so far -/

/-- Fields separated by commas. -/
def joinC : List Bytes → Bytes
  | [] => []
  | f :: t => f ++ t.flatMap (0x2c :: ·)

/-- Fields separated by commas, with a leading comma if `lead`. -/
def bodyText (lead : Bool) (fs : List Bytes) : Bytes := if lead then fs.flatMap (0x2c :: ·) else joinC fs

theorem bodyText_snoc (lead : Bool) (fs : List Bytes) (f : Bytes) :
    bodyText lead (fs ++ [f]) = bodyText lead fs ++ ((if (lead || decide (fs ≠ [])) = true then [0x2c] else []) ++ f) := by
  cases lead
  · cases fs <;> simp [bodyText, joinC]
  · simp [bodyText]

/-- Slot `i` of a list of stats. -/
def statAt (S : List Stat) (i : Nat) : Stat := S.getD i ⟨[], false, 0, false⟩

/-- What `writeJSON`'s loops maintain: the fields `P` (indices into `S`) have been written after `base`. -/
structure WI (S : List Stat) (base : Bytes) (c0 sup : Bool) (maxLen L : Nat) (tail : Bytes) (bp : BP) (st : List Stat) (comma : Bool)
    (P : List Nat) : Prop where
  ok : BPok bp L tail
  mrk : bp.mark = bp.size
  cap : bp.cap = maxLen + 2
  txt : ∃ lead : Bool, (c0 = true → lead = true) ∧
    (lead = true → c0 = true ∨ ∃ i, i < S.length ∧ maxLen < base.length + (renderStat (statAt S i)).length) ∧
    bp.txt = base ++ bodyText lead (P.map fun i => renderStat (statAt S i)) ∧ comma = (lead || decide (P ≠ []))
  nd : P.Nodup
  lt : ∀ i ∈ P, i < S.length
  len : st.length = S.length
  st : ∀ i, statAt st i = if i ∈ P ∧ sup = false then { statAt S i with changed := false } else statAt S i
  fit : P ≠ [] → bp.size ≤ maxLen

theorem txt_len (b : BP) (L : Nat) (tail : Bytes) (h : BPok b L tail) : b.txt.length = b.size := by
  have := h.len; have := h.cap; have := h.size
  simp [BP.txt]; omega

theorem WI.rend {S base c0 sup maxLen L tail bp st comma P} (h : WI S base c0 sup maxLen L tail bp st comma P) (i : Nat) :
    renderStat (statAt st i) = renderStat (statAt S i) := by
  rw [h.st i]; split <;> simp [renderStat]

theorem WI.size {S base c0 sup maxLen L tail bp st comma P} (h : WI S base c0 sup maxLen L tail bp st comma P) (i : Nat) :
    (printStat bp (statAt st i) comma).size = min (bp.size + (if comma = true then 1 else 0) + (renderStat (statAt S i)).length) (maxLen + 2) := by
  obtain ⟨_, _, _, _, p5, _⟩ := bp_print ((if comma then [0x2c] else []) ++ renderStat (statAt st i)) bp L tail h.ok
  rw [printStat, p5, h.rend, h.cap]
  cases comma <;> simp; omega

theorem WI.fail {S base c0 sup maxLen L tail bp st comma P} (h : WI S base c0 sup maxLen L tail bp st comma P) (i : Nat) (hi : i < S.length)
    (hf : maxLen < (printStat bp (statAt st i) comma).size) :
    WI S base c0 sup maxLen L tail (printStat bp (statAt st i) comma).rewind st true P := by
  have hsz := h.size i
  obtain ⟨p1, p2, p3, p4, p5, p6⟩ := bp_print ((if comma then [0x2c] else []) ++ renderStat (statAt st i)) bp L tail h.ok
  change BPok (printStat bp (statAt st i) comma) L tail at p1
  obtain ⟨r1, r2, r3, r4, r5⟩ := bp_rewind _ L tail p1
  have p4' : (printStat bp (statAt st i) comma).mark = bp.mark := p4
  have p6' : (printStat bp (statAt st i) comma).txt.take bp.mark = bp.txt.take bp.mark := p6
  have hm := h.mrk
  have etxt : (printStat bp (statAt st i) comma).rewind.txt = bp.txt := by
    rw [r2, p4', p6']
    apply List.take_of_length_le
    rw [txt_len bp L tail h.ok]; omega
  refine ⟨r1, by rw [r4, r5], by rw [r3]; exact p3.trans h.cap, ?_, h.nd, h.lt, h.len, h.st, ?_⟩
  · obtain ⟨lead, l1, l2, l3, l4⟩ := h.txt
    by_cases hP : P = []
    · refine ⟨true, fun _ => rfl, fun _ => ?_, ?_, ?_⟩
      · by_cases hl : lead = true
        · exact l2 hl
        · right
          refine ⟨i, hi, ?_⟩
          have hc : comma = false := by rw [l4]; subst hP; simp at hl; simp [hl]
          have hb : bp.size = base.length := by
            rw [← txt_len bp L tail h.ok, l3]; subst hP; simp at hl; subst hl; simp [bodyText, joinC]
          rw [hc] at hsz hf
          rw [hsz] at hf
          simp only [Bool.false_eq_true, if_false] at hf; omega
      · rw [etxt, l3]; subst hP; cases lead <;> simp [bodyText, joinC]
      · simp
    · refine ⟨lead, l1, l2, by rw [etxt]; exact l3, ?_⟩
      simp [hP]
  · intro hP; rw [r5, p4', hm]; exact h.fit hP

theorem statAt_modify (st : List Stat) (i j : Nat) (hi : i < st.length) (f : Stat → Stat) :
    statAt (st.modify i f) j = if j = i then f (statAt st j) else statAt st j := by
  unfold statAt
  simp only [List.getD_eq_getElem?_getD, List.getElem?_modify]
  by_cases h : j = i
  · subst h; simp [hi]
  · simp [h, Ne.symm h]

theorem WI.take {S base c0 sup maxLen L tail bp st comma P} (h : WI S base c0 sup maxLen L tail bp st comma P) (i : Nat) (hi : i < S.length)
    (hP : i ∉ P) (hf : (printStat bp (statAt st i) comma).size ≤ maxLen) :
    WI S base c0 sup maxLen L tail (printStat bp (statAt st i) comma).setMark
      (if sup then st else st.modify i fun x => { x with changed := false }) true (P ++ [i]) := by
  obtain ⟨p1, p2, p3, p4, p5, p6⟩ := bp_print ((if comma then [0x2c] else []) ++ renderStat (statAt st i)) bp L tail h.ok
  have hsz := h.size i
  have hm := bp_setMark _ L tail p1
  refine ⟨hm, rfl, p3.trans h.cap, ?_, ?_, ?_, ?_, ?_, fun _ => hf⟩
  · obtain ⟨lead, l1, l2, l3, l4⟩ := h.txt
    refine ⟨lead, l1, l2, ?_, by simp⟩
    have e : (printStat bp (statAt st i) comma).setMark.txt = (bp.txt ++ ((if comma then [0x2c] else []) ++ renderStat (statAt st i))).take bp.cap := p2
    rw [e, h.rend, List.take_of_length_le]
    · rw [l3, List.map_append, List.map_singleton, bodyText_snoc, l4]
      have : (decide ((P.map fun i => renderStat (statAt S i)) ≠ [])) = decide (P ≠ []) := by simp
      rw [this]; simp
    · have ht := txt_len bp L tail h.ok
      have hc := h.cap
      rw [hsz] at hf
      simp only [List.length_append, ht]
      cases comma <;> simp at hf ⊢ <;> omega
  · rw [List.nodup_append]
    refine ⟨h.nd, by simp, ?_⟩
    intro a ha b hb
    simp at hb; subst hb
    exact fun e => hP (e ▸ ha)
  · intro j hj
    simp at hj
    rcases hj with hj | rfl
    · exact h.lt j hj
    · exact hi
  · split
    · exact h.len
    · simp [h.len]
  · intro j
    have hj := h.st j
    cases sup
    · simp only [Bool.false_eq_true, if_false, and_true] at hj ⊢
      rw [statAt_modify st i j (by rw [h.len]; exact hi)]
      by_cases e : j = i
      · subst e; simp [hj, hP]
      · simp only [e, if_false, hj, List.mem_append, List.mem_singleton, or_false]
    · simp only [if_true] at hj ⊢; simpa using hj

/-! ### The three loops -/

/-- `WI` for the state of the loops. -/
abbrev WJ (S : List Stat) (base : Bytes) (c0 sup : Bool) (maxLen L : Nat) (tail : Bytes) (w : JW) (P : List Nat) : Prop :=
  WI S base c0 sup maxLen L tail w.bp w.stats w.comma P

theorem pass1_spec {S base c0 sup maxLen L tail} (t : List Nat) : ∀ (w : JW), (∀ i ∈ t, i < S.length) →
    WJ S base c0 sup maxLen L tail w [] →
    ∃ P, WJ S base c0 sup maxLen L tail (w.pass1 maxLen sup t) P ∧ (w.pass1 maxLen sup t).last = w.last ∧
      (P = [] ∨ P = [(w.pass1 maxLen sup t).hi] ∧ (w.pass1 maxLen sup t).hi ∈ t ∧ (statAt S (w.pass1 maxLen sup t).hi).changed = true) ∧
      ((∀ i < S.length, base.length + 1 + (renderStat (statAt S i)).length ≤ maxLen) → P = [] → (w.pass1 maxLen sup t).hi = w.hi ∧
        ∀ i ∈ t, (statAt S i).changed = false) := by
  induction t with
  | nil => intro w _ h; exact ⟨[], h, rfl, .inl rfl, fun _ _ => ⟨rfl, by simp⟩⟩
  | cons i t ih =>
    intro w ht h
    have hi : i < S.length := ht i (by simp)
    have hst : w.at' i = statAt S i := by have := h.st i; simpa [JW.at', statAt] using this
    by_cases hc : (statAt S i).changed = true
    · by_cases hs : (printStat w.bp (w.at' i) w.comma).size > maxLen
      · have e : w.pass1 maxLen sup (i :: t) = JW.pass1 maxLen sup t
            { w with hi := i, bp := (printStat w.bp (w.at' i) w.comma).rewind, comma := true } := by
          rw [JW.pass1, if_neg (by rw [hst]; simp [hc])]
          dsimp only
          rw [if_pos hs]
        have hF := h.fail i hi hs
        obtain ⟨P, p1, p2, p3, p4⟩ := ih { w with hi := i, bp := (printStat w.bp (w.at' i) w.comma).rewind, comma := true }
          (fun j hj => ht j (by simp [hj])) hF
        rw [e]
        refine ⟨P, p1, p2, ?_, ?_⟩
        · rcases p3 with p3 | ⟨p3, p5, p6⟩
          · exact .inl p3
          · exact .inr ⟨p3, by simp [p5], p6⟩
        · intro hall _
          exfalso
          have h1 := hall i hi
          have h2 := h.size i
          have h3 : w.bp.size = base.length := by
            obtain ⟨lead, _, _, l3, _⟩ := h.txt
            rw [← txt_len w.bp L tail h.ok, l3]; cases lead <;> simp [bodyText, joinC]
          change (printStat w.bp (w.at' i) w.comma).size = _ at h2
          split at h2 <;> omega
      · have e : w.pass1 maxLen sup (i :: t) = JW.clear
            { w with hi := i, bp := (printStat w.bp (w.at' i) w.comma).setMark, comma := true } i sup := by
          rw [JW.pass1, if_neg (by rw [hst]; simp [hc])]
          dsimp only
          rw [if_neg hs]
        have hT := h.take i hi (by simp) (by change (printStat w.bp (w.at' i) w.comma).size ≤ maxLen; omega)
        have hhi : (JW.clear { w with hi := i, bp := (printStat w.bp (w.at' i) w.comma).setMark, comma := true } i sup).hi = i := by
          cases sup <;> rfl
        rw [e, hhi]
        refine ⟨[i], ?_, ?_, .inr ⟨rfl, by simp, hc⟩, fun _ hn => by simp at hn⟩
        · cases sup <;> exact hT
        · cases sup <;> rfl
    · have e : w.pass1 maxLen sup (i :: t) = JW.pass1 maxLen sup t w := by
        rw [JW.pass1, if_pos (by rw [hst]; simp [hc])]
      obtain ⟨P, p1, p2, p3, p4⟩ := ih w (fun j hj => ht j (by simp [hj])) h
      rw [e]
      refine ⟨P, p1, p2, ?_, ?_⟩
      · rcases p3 with p3 | ⟨p3, p5, p6⟩
        · exact .inl p3
        · exact .inr ⟨p3, by simp [p5], p6⟩
      · intro hall hn
        refine ⟨(p4 hall hn).1, ?_⟩
        intro j hj
        simp at hj
        rcases hj with rfl | hj
        · simpa using hc
        · exact (p4 hall hn).2 j hj

theorem pass2_spec {S base c0 sup maxLen L tail} (mx dcf : Bool) (t : List Nat) : ∀ (w : JW) (P : List Nat), (∀ i ∈ t, i < S.length) → t.Nodup →
    (∀ i ∈ t, i ∈ P → i = w.hi) → WJ S base c0 sup maxLen L tail w P →
    ∃ Q pre post, t = pre ++ post ∧ WJ S base c0 sup maxLen L tail (w.pass2 maxLen mx sup dcf t) (P ++ Q) ∧
      (w.pass2 maxLen mx sup dcf t).hi = w.hi ∧ (∀ i ∈ Q, i ∈ pre) ∧
      (∀ i ∈ pre, i ∈ Q ∨ i = w.hi ∨ ((statAt S i).low = true ∧ dcf = true)) ∧
      (w.pass2 maxLen mx sup dcf t).last = (pre.getLast?).getD w.last ∧
      (∀ i r, t = i :: r → i ≠ w.hi → dcf = false → w.bp.size + 1 + (renderStat (statAt S i)).length ≤ maxLen → pre ≠ [] ∧ Q.head? = some i) ∧
      (mx = false → Q.length ≤ 1) ∧ (∀ x, pre.getLast? = some x → x ∈ Q) ∧
      (mx = true → (∀ i ∈ t, i = w.hi → i ∈ P) →
        w.bp.size + (t.map fun i => 1 + (renderStat (statAt S i)).length).sum ≤ maxLen → dcf = false → ∀ i ∈ t, i ∈ P ++ Q) := by
  induction t with
  | nil => intro w P _ _ _ h; exact ⟨[], [], [], rfl, by rw [List.append_nil]; exact h, rfl, by simp, by simp, rfl, by simp, by simp, by simp, by simp⟩
  | cons i t ih =>
    intro w P ht hnd hd h
    have hi : i < S.length := ht i (by simp)
    have hit : i ∉ t := (List.nodup_cons.mp hnd).1
    have hnd' := (List.nodup_cons.mp hnd).2
    have hsz : (printStat w.bp (w.at' i) w.comma).size =
      min (w.bp.size + (if w.comma = true then 1 else 0) + (renderStat (statAt S i)).length) (maxLen + 2) := h.size i
    have skip : w.pass2 maxLen mx sup dcf (i :: t) = w.pass2 maxLen mx sup dcf t →
        (i = w.hi ∨ ((statAt S i).low = true ∧ dcf = true)) →
        ∃ Q pre post, i :: t = pre ++ post ∧ WJ S base c0 sup maxLen L tail (w.pass2 maxLen mx sup dcf (i :: t)) (P ++ Q) ∧
        (w.pass2 maxLen mx sup dcf (i :: t)).hi = w.hi ∧ (∀ i ∈ Q, i ∈ pre) ∧
        (∀ i ∈ pre, i ∈ Q ∨ i = w.hi ∨ ((statAt S i).low = true ∧ dcf = true)) ∧
        (w.pass2 maxLen mx sup dcf (i :: t)).last = (pre.getLast?).getD w.last ∧
        (∀ j r, i :: t = j :: r → j ≠ w.hi → dcf = false → w.bp.size + 1 + (renderStat (statAt S j)).length ≤ maxLen → pre ≠ [] ∧ Q.head? = some j) ∧
        (mx = false → Q.length ≤ 1) ∧ (∀ x, pre.getLast? = some x → x ∈ Q) ∧
        (mx = true → (∀ j ∈ i :: t, j = w.hi → j ∈ P) →
          w.bp.size + ((i :: t).map fun i => 1 + (renderStat (statAt S i)).length).sum ≤ maxLen → dcf = false → ∀ j ∈ i :: t, j ∈ P ++ Q) := by
      intro e hk
      obtain ⟨Q, pre, post, q1, q2, q3, q4, q5, q6, q7, q8, q9, q10⟩ := ih w P (fun j hj => ht j (by simp [hj])) hnd' (fun j hj => hd j (by simp [hj])) h
      rw [e]
      have hp : ∀ j r, i :: t = j :: r → j ≠ w.hi → dcf = false → w.bp.size + 1 + (renderStat (statAt S j)).length ≤ maxLen → False := by
        intro j r ej hj hdc _
        simp at ej
        rcases hk with hk | hk
        · exact hj (ej.1 ▸ hk)
        · rw [hdc] at hk; simp at hk
      have hm : mx = true → (∀ j ∈ i :: t, j = w.hi → j ∈ P) →
          w.bp.size + ((i :: t).map fun i => 1 + (renderStat (statAt S i)).length).sum ≤ maxLen → dcf = false → ∀ j ∈ i :: t, j ∈ P ++ Q := by
        intro m1 m2 m3 m4 j hj
        simp only [List.map_cons, List.sum_cons] at m3
        simp at hj
        rcases hj with rfl | hj
        · rcases hk with hk | hk
          · simp [m2 j (by simp) hk]
          · rw [m4] at hk; simp at hk
        · exact q10 m1 (fun j hj => m2 j (by simp [hj])) (by omega) m4 j hj
      by_cases hpre : pre = []
      · subst hpre
        refine ⟨Q, [], i :: t, rfl, q2, q3, q4, q5, q6, fun j r a b c d => (hp j r a b c d).elim, q8, q9, hm⟩
      · refine ⟨Q, i :: pre, post, by rw [q1]; rfl, q2, q3, fun j hj => by simp [q4 j hj], ?_, ?_,
          fun j r a b c d => (hp j r a b c d).elim, q8, ?_, hm⟩
        · intro j hj
          simp at hj
          rcases hj with rfl | hj
          · exact .inr hk
          · exact q5 j hj
        · rw [q6, List.getLast?_cons]
          cases hg : pre.getLast? with
          | none => exact absurd (List.getLast?_eq_none_iff.mp hg) hpre
          | some x => rfl
        · intro x hx
          rw [List.getLast?_cons] at hx
          cases hg : pre.getLast? with
          | none => exact absurd (List.getLast?_eq_none_iff.mp hg) hpre
          | some y => rw [hg] at hx; simp at hx; subst hx; exact q9 y hg
    by_cases h1 : w.hi = i
    · exact skip (by rw [JW.pass2, if_pos h1]) (.inl h1.symm)
    · have hiP : i ∉ P := fun hm => h1 (hd i (by simp) hm).symm
      have hst : w.at' i = statAt S i := by have := h.st i; rw [if_neg (by simp [hiP])] at this; exact this
      by_cases h2 : (w.at' i).low ∧ ¬ (w.at' i).changed ∧ dcf
      · exact skip (by rw [JW.pass2, if_neg h1, if_pos h2]) (.inr ⟨by rw [← hst]; exact h2.1, h2.2.2⟩)
      · by_cases hs : (printStat w.bp (w.at' i) w.comma).size > maxLen
        · have e : w.pass2 maxLen mx sup dcf (i :: t) = { w with bp := (printStat w.bp (w.at' i) w.comma).rewind, comma := true } := by
            rw [JW.pass2, if_neg h1, if_neg h2]; dsimp only; rw [if_pos hs]
          rw [e]
          refine ⟨[], [], i :: t, rfl, by rw [List.append_nil]; exact h.fail i hi hs, rfl, by simp, by simp, rfl, ?_, by simp, by simp, ?_⟩
          · intro j r ej _ _ hb
            simp at ej
            rw [← ej.1] at hb
            split at hsz <;> omega
          · intro _ _ hb
            simp only [List.map_cons, List.sum_cons] at hb
            split at hsz <;> omega
        · have hT := h.take i hi hiP (by change (printStat w.bp (w.at' i) w.comma).size ≤ maxLen; omega)
          cases mx
          · have e : w.pass2 maxLen false sup dcf (i :: t) = { ({ w with bp := (printStat w.bp (w.at' i) w.comma).setMark, comma := true }.clear i sup) with last := i } := by
              rw [JW.pass2, if_neg h1, if_neg h2]; dsimp only; rw [if_neg hs]; rfl
            rw [e]
            refine ⟨[i], [i], t, rfl, ?_, ?_, by simp, by simp, rfl, ?_, by simp, by simp, by simp⟩
            · cases sup <;> exact hT
            · cases sup <;> rfl
            · intro j r ej _ _ _; simp at ej; simp [ej.1]
          · have e : w.pass2 maxLen true sup dcf (i :: t) = JW.pass2 maxLen true sup dcf t
                { ({ w with bp := (printStat w.bp (w.at' i) w.comma).setMark, comma := true }.clear i sup) with last := i } := by
              rw [JW.pass2, if_neg h1, if_neg h2]; dsimp only; rw [if_neg hs]; rfl
            have hhi : ({ ({ w with bp := (printStat w.bp (w.at' i) w.comma).setMark, comma := true }.clear i sup) with last := i } : JW).hi = w.hi := by
              cases sup <;> rfl
            have hbp : ({ ({ w with bp := (printStat w.bp (w.at' i) w.comma).setMark, comma := true }.clear i sup) with last := i } : JW).bp.size
                = (printStat w.bp (w.at' i) w.comma).size := by
              cases sup <;> rfl
            obtain ⟨Q, pre, post, q1, q2, q3, q4, q5, q6, q7, q8, q9, q10⟩ := ih
              { ({ w with bp := (printStat w.bp (w.at' i) w.comma).setMark, comma := true }.clear i sup) with last := i } (P ++ [i])
              (fun j hj => ht j (by simp [hj])) hnd' (by
                intro j hj hm
                rw [hhi]
                simp at hm
                rcases hm with hm | rfl
                · exact hd j (by simp [hj]) hm
                · exact absurd hj hit) (by cases sup <;> exact hT)
            rw [e]
            rw [hhi] at q3 q5 q10
            refine ⟨i :: Q, i :: pre, post, by rw [q1]; rfl, ?_, q3, ?_, ?_, ?_, ?_, by simp, ?_, ?_⟩
            · simpa using q2
            · intro j hj
              simp at hj
              rcases hj with rfl | hj
              · simp
              · simp [q4 j hj]
            · intro j hj
              simp at hj
              rcases hj with rfl | hj
              · simp
              · rcases q5 j hj with h | h
                · simp [h]
                · exact .inr h
            · rw [q6, List.getLast?_cons]; rfl
            · intro j r ej _ _ _; simp at ej; simp [ej.1]
            · intro x hx
              rw [List.getLast?_cons] at hx
              cases hg : pre.getLast? with
              | none => rw [hg] at hx; simp at hx; simp [hx]
              | some y => rw [hg] at hx; simp at hx; subst hx; simp [q9 y hg]
            · intro _ m2 m3 m4 j hj
              simp only [List.map_cons, List.sum_cons] at m3
              simp at hj
              rcases hj with rfl | hj
              · simp
              · have := q10 rfl (fun j hj hh => by simp [m2 j (by simp [hj]) hh]) (by rw [hbp]; split at hsz <;> omega) m4 j hj
                simpa using this

theorem pass3_spec {S base c0 maxLen L tail} (t : List Nat) : ∀ (w : JW) (P : List Nat), (∀ i ∈ t, i < S.length) →
    WJ S base c0 false maxLen L tail w P →
    ∃ Q, WJ S base c0 false maxLen L tail (w.pass3 maxLen t) (P ++ Q) ∧ (w.pass3 maxLen t).last = w.last ∧
      ∀ i ∈ Q, (statAt S i).changed = true := by
  induction t with
  | nil => intro w P _ h; exact ⟨[], by rw [List.append_nil]; exact h, rfl, by simp⟩
  | cons i t ih =>
    intro w P ht h
    have hi : i < S.length := ht i (by simp)
    have hst := h.st i
    by_cases hc : (w.at' i).changed = true
    · have hiP : i ∉ P := by
        intro hm
        rw [if_pos ⟨hm, rfl⟩] at hst
        have : (statAt w.stats i).changed = true := hc
        rw [hst] at this; simp at this
      rw [if_neg (by simp [hiP])] at hst
      by_cases hs : (printStat w.bp (w.at' i) w.comma).size > maxLen
      · have e : w.pass3 maxLen (i :: t) = JW.pass3 maxLen t { w with bp := (printStat w.bp (w.at' i) w.comma).rewind, comma := true } := by
          rw [JW.pass3, if_neg (by simp [hc])]; dsimp only; rw [if_pos hs]
        obtain ⟨Q, q1, q2, q3⟩ := ih { w with bp := (printStat w.bp (w.at' i) w.comma).rewind, comma := true } P
          (fun j hj => ht j (by simp [hj])) (h.fail i hi hs)
        rw [e]; exact ⟨Q, q1, q2, q3⟩
      · have e : w.pass3 maxLen (i :: t) = JW.pass3 maxLen t ({ w with bp := (printStat w.bp (w.at' i) w.comma).setMark, comma := true }.clear i false) := by
          rw [JW.pass3, if_neg (by simp [hc])]; dsimp only; rw [if_neg hs]
        have hT := h.take i hi hiP (by change (printStat w.bp (w.at' i) w.comma).size ≤ maxLen; omega)
        obtain ⟨Q, q1, q2, q3⟩ := ih ({ w with bp := (printStat w.bp (w.at' i) w.comma).setMark, comma := true }.clear i false) (P ++ [i])
          (fun j hj => ht j (by simp [hj])) hT
        rw [e]
        refine ⟨i :: Q, by simpa using q1, q2, ?_⟩
        intro j hj
        simp at hj
        rcases hj with rfl | hj
        · rw [← hst]; exact hc
        · exact q3 j hj
    · have e : w.pass3 maxLen (i :: t) = JW.pass3 maxLen t w := by
        rw [JW.pass3, if_pos (by simpa using hc)]
      rw [e]; exact ih w P (fun j hj => ht j (by simp [hj])) h

/-- What the three loops do together, `P` being the fields written. -/
structure LoopRes (S : List Stat) (base : Bytes) (maxLen : Nat) (mx dcf : Bool) (last last' : Nat) (P pre post : List Nat) : Prop where
  split : visit S.length S.length last = pre ++ post
  lst : last' = (pre.getLast?).getD last
  none : P = [] → pre = []
  fair : (∀ i < S.length, base.length + 1 + (renderStat (statAt S i)).length ≤ maxLen) →
    ∀ i ∈ pre, i ∈ P ∨ ((statAt S i).low = true ∧ dcf = true)
  prog : (∀ i < S.length, base.length + 1 + (renderStat (statAt S i)).length ≤ maxLen) → dcf = false →
    pre ≠ [] ∧ P.head? = (visit S.length S.length last).head?
  chg : (∀ i < S.length, base.length + 1 + (renderStat (statAt S i)).length ≤ maxLen) → dcf = true →
    (∃ i, i < S.length ∧ (statAt S i).changed = true) → ∃ i, P.head? = some i ∧ (statAt S i).changed = true
  single : mx = false → P.length ≤ 2 ∧ (dcf = false → P.length ≤ 1)
  full : mx = true → dcf = false → base.length + ((visit S.length S.length last).map fun i => 1 + (renderStat (statAt S i)).length).sum ≤ maxLen →
    ∀ i < S.length, i ∈ P

theorem visit_all (n last : Nat) (hn : 0 < n) (h255 : n ≤ 255) (hl : last ≤ 255) : ∀ i < n, i ∈ visit n n last := by
  intro i hi
  rw [visit_eff n last n hn h255 hl, List.mem_map]
  have he : effLast n last < n := by unfold effLast; split <;> omega
  generalize effLast n last = e at he
  by_cases h : e + 1 ≤ i
  · refine ⟨i - (e + 1), by simp; omega, ?_⟩
    rw [show e + 1 + (i - (e + 1)) = i by omega, Nat.mod_eq_of_lt hi]
  · refine ⟨i + n - (e + 1), by simp; omega, ?_⟩
    rw [show e + 1 + (i + n - (e + 1)) = i + n by omega, Nat.add_mod_right, Nat.mod_eq_of_lt hi]

theorem loops_spec {S base c0 sup L tail} (bufSize : Nat) (mx dcf : Bool) (w : JW) (hS : 0 < S.length) (h255 : S.length ≤ 255)
    (hl : w.last ≤ 255) (hhi : w.hi = 255) (h : WJ S base c0 sup (bufSize - 3) L tail w []) :
    ∃ P pre post, WJ S base c0 sup (bufSize - 3) L tail (w.loops bufSize S.length mx sup dcf) P ∧
      LoopRes S base (bufSize - 3) mx dcf w.last (w.loops bufSize S.length mx sup dcf).last P pre post := by
  have hbs : w.bp.size = base.length := by
    obtain ⟨lead, _, _, l3, _⟩ := h.txt
    rw [← txt_len w.bp L tail h.ok, l3]; cases lead <;> simp [bodyText, joinC]
  have hvl := visit_lt S.length w.last S.length hS h255 hl
  have hvn := visit_nodup S.length w.last hS h255 hl
  -- first loop
  obtain ⟨w1, hw1, P1, h1, l1, c1⟩ : ∃ w1, w1 = (if dcf then w.pass1 (bufSize - 3) sup (visit S.length S.length w.last) else w) ∧
      ∃ P, WJ S base c0 sup (bufSize - 3) L tail w1 P ∧ w1.last = w.last ∧
        ((P = [] ∧ ((∀ i < S.length, base.length + 1 + (renderStat (statAt S i)).length ≤ bufSize - 3) ∨ dcf = false → w1.hi = 255 ∧
          (dcf = true → ∀ i < S.length, (statAt S i).changed = false)) ∧ (dcf = false → w1 = w))
         ∨ (P = [w1.hi] ∧ w1.hi < S.length ∧ dcf = true ∧ (statAt S w1.hi).changed = true)) := by
    refine ⟨_, rfl, ?_⟩
    cases dcf
    · exact ⟨[], h, rfl, .inl ⟨rfl, fun _ => ⟨hhi, by simp⟩, fun _ => rfl⟩⟩
    · obtain ⟨P, p1, p2, p3, p4⟩ := pass1_spec (visit S.length S.length w.last) w hvl h
      refine ⟨P, p1, p2, ?_⟩
      rcases p3 with p3 | ⟨p3, p5, p6⟩
      · refine .inl ⟨p3, ?_, by simp⟩
        intro hc
        rcases hc with hc | hc
        · exact ⟨(p4 hc p3).1.trans hhi, fun _ i hi => (p4 hc p3).2 i (visit_all _ _ hS h255 hl i hi)⟩
        · simp at hc
      · exact .inr ⟨p3, hvl _ p5, rfl, p6⟩
  -- second loop
  obtain ⟨Q, pre, post, q1, q2, q3, q4, q5, q6, q7, q8, q9, q10⟩ := pass2_spec mx dcf (visit S.length S.length w1.last) w1 P1
    (by rw [l1]; exact hvl) (by rw [l1]; exact hvn) (by
      intro i _ hm
      rcases c1 with ⟨rfl, _⟩ | ⟨rfl, _⟩
      · simp at hm
      · simpa using hm) h1
  rw [l1] at q1 q6 q7 q10
  have hlt2 : (w1.pass2 (bufSize - 3) mx sup dcf (visit S.length S.length w.last)).last ≤ 255 := by
    rw [show w1.pass2 (bufSize - 3) mx sup dcf (visit S.length S.length w.last) = w1.pass2 (bufSize - 3) mx sup dcf (visit S.length S.length w1.last) by rw [l1], l1, q6]
    cases hg : pre.getLast? with
    | none => exact hl
    | some x =>
      have : x ∈ visit S.length S.length w.last := by rw [q1]; exact List.mem_append_left _ (List.mem_of_getLast? hg)
      have := hvl x this
      simp; omega
  rw [l1] at q2
  -- third loop
  obtain ⟨R, r1, r2, r3⟩ : ∃ R, WJ S base c0 sup (bufSize - 3) L tail (w.loops bufSize S.length mx sup dcf) (P1 ++ Q ++ R) ∧
      (w.loops bufSize S.length mx sup dcf).last = (w1.pass2 (bufSize - 3) mx sup dcf (visit S.length S.length w.last)).last ∧ (mx = false → R = []) := by
    have e : w.loops bufSize S.length mx sup dcf =
        (if mx ∧ ¬ sup ∧ (w1.pass2 (bufSize - 3) mx sup dcf (visit S.length S.length w1.last)).bp.size ≤ bufSize - 9 then
          (w1.pass2 (bufSize - 3) mx sup dcf (visit S.length S.length w1.last)).pass3 (bufSize - 3)
            (visit S.length S.length (w1.pass2 (bufSize - 3) mx sup dcf (visit S.length S.length w1.last)).last)
         else w1.pass2 (bufSize - 3) mx sup dcf (visit S.length S.length w1.last)) := by
      rw [JW.loops, hw1]
    rw [e, l1]
    by_cases hc : mx ∧ ¬ sup ∧ (w1.pass2 (bufSize - 3) mx sup dcf (visit S.length S.length w.last)).bp.size ≤ bufSize - 9
    · rw [if_pos hc]
      have hsup : sup = false := by simpa using hc.2.1
      subst hsup
      obtain ⟨R, r1, r2, _⟩ := pass3_spec (visit S.length S.length (w1.pass2 (bufSize - 3) mx false dcf (visit S.length S.length w.last)).last)
        (w1.pass2 (bufSize - 3) mx false dcf (visit S.length S.length w.last)) (P1 ++ Q) (visit_lt _ _ _ hS h255 hlt2) q2
      exact ⟨R, r1, r2, fun hm => by rw [hm] at hc; simp at hc⟩
    · rw [if_neg hc]
      exact ⟨[], by simpa using q2, rfl, fun _ => rfl⟩
  refine ⟨P1 ++ Q ++ R, pre, post, r1, q1, ?_, ?_, ?_, ?_, ?_, ?_, ?_⟩
  · rw [r2, show w1.pass2 (bufSize - 3) mx sup dcf (visit S.length S.length w.last) = w1.pass2 (bufSize - 3) mx sup dcf (visit S.length S.length w1.last) by rw [l1], l1, q6]
  · intro hP
    simp at hP
    cases hg : pre.getLast? with
    | none => exact List.getLast?_eq_none_iff.mp hg
    | some x => have := q9 x hg; rw [hP.2.1] at this; simp at this
  · intro hall i hi
    rcases q5 i hi with hq | hq | hq
    · left; simp [hq]
    · rcases c1 with ⟨_, c2, _⟩ | ⟨c1, _⟩
      · have := (c2 (.inl hall)).1
        have hil := hvl i (by rw [q1]; simp [hi])
        omega
      · left; rw [c1, hq]; simp
    · exact .inr hq
  · intro hall hd
    rcases c1 with ⟨c1, c2, c3⟩ | ⟨_, _, c3, _⟩
    · cases hv : visit S.length S.length w.last with
      | nil =>
        have := visit_all S.length w.last hS h255 hl 0 hS
        rw [hv] at this; simp at this
      | cons i r =>
        have hil := hvl i (by rw [hv]; simp)
        have hx := (c2 (.inr hd)).1
        have hw := c3 hd
        obtain ⟨qa, qb⟩ := q7 i r hv (by omega) hd (by rw [hw, hbs]; exact hall i hil)
        refine ⟨qa, ?_⟩
        rw [c1]
        simp [qb]
    · rw [hd] at c3; simp at c3
  · intro hall hd hex
    rcases c1 with ⟨_, c2, _⟩ | ⟨c1, _, _, c4⟩
    · obtain ⟨i, hi, hc⟩ := hex
      have := (c2 (.inl hall)).2 hd i hi
      rw [this] at hc; simp at hc
    · exact ⟨w1.hi, by rw [c1]; simp, c4⟩
  · intro hm
    rw [r3 hm]
    have := q8 hm
    rcases c1 with ⟨c1, _⟩ | ⟨c1, _, c3, _⟩
    · simp [c1]; omega
    · refine ⟨by simp [c1]; omega, fun hd => by rw [hd] at c3; simp at c3⟩
  · intro hm hd hsum i hi
    rcases c1 with ⟨c1, c2, c3⟩ | ⟨_, _, c3, _⟩
    · have := q10 hm (by
          intro j hj hh
          have := (c2 (.inr hd)).1
          have := hvl j hj
          omega) (by rw [c3 hd, hbs]; exact hsum) hd i (visit_all _ _ hS h255 hl i hi)
      simp at this ⊢
      rcases this with h | h <;> simp [h]
    · rw [hd] at c3; simp at c3

theorem statAt_ext (a b : List Stat) (hl : a.length = b.length) (h : ∀ i, statAt a i = statAt b i) : a = b := by
  apply List.ext_getElem hl
  intro i h1 h2
  have := h i
  simpa [statAt, h1, h2] using this

/-- Does a call put a changed stat first? -/
def StatSet.dcf (s : StatSet) : Bool := decide (s.count % 4 ≠ 0) && (match s.changedValue with | .ok b => b | _ => false)

set_option maxHeartbeats 1000000 in
theorem write_spec (s : StatSet) (sys mem : Bytes) (bufSize : Nat) (mx sup : Bool) (hb : 10 ≤ bufSize) (hm : bufSize ≤ mem.length)
    (h255 : s.stats.length ≤ 255) (hl : s.lastTXed ≤ 255) (r : Nat) (s' : StatSet) (b : BP)
    (he : writeJSON s sys mem bufSize mx sup = (r, s', b)) :
    ∃ (P : List Nat) (lead : Bool),
      (b.oob = false ∧ b.mem.length = mem.length ∧ b.mem.drop bufSize = mem.drop bufSize) ∧
      (P.Nodup ∧ ∀ i ∈ P, i < s.stats.length) ∧
      (jsonComma s = true → lead = true) ∧
      (lead = true → jsonComma s = true ∨ ∃ i, i < s.stats.length ∧ bufSize - 3 < 1 + (jsonHeader s sys).length + (renderStat (statAt s.stats i)).length) ∧
      s'.stats.length = s.stats.length ∧
      (∀ i, statAt s'.stats i = if i ∈ P ∧ sup = false then { statAt s.stats i with changed := false } else statAt s.stats i) ∧
      (s'.id = s.id ∧ s'.cap = s.cap ∧ s'.enabled = s.enabled) ∧
      (((jsonHeader s sys).length + 1 ≤ bufSize - 3 ∧ 0 < r ∧ r ≤ bufSize - 2 ∧ b.mem[r]? = some 0 ∧
          b.mem.take r = [0x7b] ++ jsonHeader s sys ++ bodyText lead (P.map fun i => renderStat (statAt s.stats i)) ++ [0x7d] ∧
          s'.count = (s.count + 1) % 8) ∨
        (bufSize - 3 < (jsonHeader s sys).length + 1 ∧ r = 0 ∧ P = [] ∧ b.mem[0]? = some 0 ∧ s' = s)) ∧
      ((jsonHeader s sys).length + 1 ≤ bufSize - 3 → 0 < s.stats.length →
        ∃ pre post, LoopRes s.stats ([0x7b] ++ jsonHeader s sys) (bufSize - 3) mx s.dcf s.lastTXed s'.lastTXed P pre post) ∧
      (s.stats.length = 0 → s'.lastTXed = s.lastTXed) := by
  obtain ⟨n1, n2, n3⟩ := bp_new mem bufSize hm (by omega)
  obtain ⟨a1, a2, a3, a4, a5, a6⟩ := bp_write (BP.new mem bufSize) _ _ 0x7b n1
  obtain ⟨b1, b2, b3, b4, b5, b6⟩ := bp_print (jsonHeader s sys) ((BP.new mem bufSize).write 0x7b) _ _ a1
  rw [n2, n3] at a2
  rw [a3, n3] at b2 b3
  have hbtxt : (((BP.new mem bufSize).write 0x7b).print (jsonHeader s sys)).txt = ([0x7b] ++ jsonHeader s sys).take (bufSize - 1) := by
    rw [b2, a2]
    simp only [List.nil_append]
    rw [List.take_of_length_le (l := [0x7b]) (by simp; omega)]
  have h0 : WJ s.stats (([0x7b] ++ jsonHeader s sys).take (bufSize - 1)) (jsonComma s) sup (bufSize - 3) mem.length (mem.drop bufSize)
      { bp := (((BP.new mem bufSize).write 0x7b).print (jsonHeader s sys)).setMark, stats := s.stats, comma := jsonComma s, last := s.lastTXed } [] := by
    refine ⟨bp_setMark _ _ _ b1, rfl, ?_, ⟨jsonComma s, id, fun h => .inl h, ?_, by simp⟩, by simp, by simp, rfl, by simp, by simp⟩
    · change (((BP.new mem bufSize).write 0x7b).print (jsonHeader s sys)).cap = _
      rw [b3]; omega
    · change (((BP.new mem bufSize).write 0x7b).print (jsonHeader s sys)).txt = _
      rw [hbtxt]; cases jsonComma s <;> simp [bodyText, joinC]
  obtain ⟨w', hw', P, hP, hL⟩ : ∃ w', w' = (if s.stats.length = 0 then
        ({ bp := (((BP.new mem bufSize).write 0x7b).print (jsonHeader s sys)).setMark, stats := s.stats, comma := jsonComma s, last := s.lastTXed } : JW)
      else JW.loops bufSize s.stats.length mx sup s.dcf
        { bp := (((BP.new mem bufSize).write 0x7b).print (jsonHeader s sys)).setMark, stats := s.stats, comma := jsonComma s, last := s.lastTXed }) ∧
      ∃ P, WJ s.stats (([0x7b] ++ jsonHeader s sys).take (bufSize - 1)) (jsonComma s) sup (bufSize - 3) mem.length (mem.drop bufSize) w' P ∧
        (0 < s.stats.length → ∃ pre post, LoopRes s.stats (([0x7b] ++ jsonHeader s sys).take (bufSize - 1)) (bufSize - 3) mx s.dcf s.lastTXed w'.last P pre post) := by
    refine ⟨_, rfl, ?_⟩
    by_cases hn : s.stats.length = 0
    · rw [if_pos hn]; exact ⟨[], h0, fun h => by omega⟩
    · rw [if_neg hn]
      obtain ⟨P, pre, post, p1, p2⟩ := loops_spec bufSize mx s.dcf _ (by omega) h255 hl rfl h0
      exact ⟨P, p1, fun _ => ⟨pre, post, p2⟩⟩
  have hlast0 : s.stats.length = 0 → w'.last = s.lastTXed := by
    intro hn; rw [hw', if_pos hn]
  have he2 : writeJSON s sys mem bufSize mx sup =
      if (w'.bp.write 0x7d).isFull then (0, { s with stats := w'.stats, lastTXed := w'.last }, (w'.bp.write 0x7d).store 0 0)
      else ((w'.bp.write 0x7d).size, { { s with stats := w'.stats, lastTXed := w'.last } with count := (s.count + 1) % 8 }, w'.bp.write 0x7d) := by
    rw [writeJSON, if_neg (by omega), hw']; rfl
  rw [he2] at he
  obtain ⟨c1, c2, c3, c4, c5, c6⟩ := bp_write w'.bp _ _ 0x7d hP.ok
  have hcap : w'.bp.cap = bufSize - 1 := by rw [hP.cap]; omega
  obtain ⟨lead, l1, l2, l3, l4⟩ := hP.txt
  have hsz : w'.bp.size = (([0x7b] ++ jsonHeader s sys).take (bufSize - 1)).length + (bodyText lead (P.map fun i => renderStat (statAt s.stats i))).length := by
    rw [← txt_len w'.bp _ _ hP.ok, l3, List.length_append]
  have hlen : (([0x7b] ++ jsonHeader s sys).take (bufSize - 1)).length = min (bufSize - 1) ((jsonHeader s sys).length + 1) := by simp
  have hdrop : b.mem.length = mem.length → True := fun _ => trivial
  by_cases hfit : (jsonHeader s sys).length + 1 ≤ bufSize - 3
  · have hbase : ([0x7b] ++ jsonHeader s sys).take (bufSize - 1) = [0x7b] ++ jsonHeader s sys := by
      apply List.take_of_length_le; simp; omega
    rw [hbase] at hL hlen hsz l2 l3
    have hle : w'.bp.size ≤ bufSize - 3 := by
      by_cases hPe : P = []
      · subst hPe
        have : (bodyText lead (([] : List Nat).map fun i => renderStat (statAt s.stats i))).length = 0 := by cases lead <;> simp [bodyText, joinC]
        omega
      · exact hP.fit hPe
    have hnf : (w'.bp.write 0x7d).isFull = false := by
      rw [BP.isFull, c3, c5, hcap]; simp; omega
    rw [hnf] at he
    simp only [Bool.false_eq_true, if_false, Prod.mk.injEq] at he
    obtain ⟨e1, e2, e3⟩ := he
    subst e1; subst e2; subst e3
    refine ⟨P, lead, ⟨c1.oob, c1.len, ?_⟩, ⟨hP.nd, hP.lt⟩, l1, ?_, hP.len, hP.st, ⟨rfl, rfl, rfl⟩, .inl ⟨hfit, ?_, ?_, c1.nul, ?_, rfl⟩, fun _ hn => hL hn, hlast0⟩
    · have := c1.tail; rw [c3, hcap] at this; rw [show bufSize - 1 + 1 = bufSize by omega] at this; exact this
    · intro h
      rcases l2 h with h | ⟨i, i1, i2⟩
      · exact .inl h
      · refine .inr ⟨i, i1, ?_⟩
        simp at i2; omega
    · rw [c5, hcap]; omega
    · rw [c5, hcap]; omega
    · have : (w'.bp.write 0x7d).txt = (w'.bp.txt ++ [0x7d]).take w'.bp.cap := c2
      change (w'.bp.write 0x7d).txt = _
      rw [this, List.take_of_length_le, l3]
      rw [List.length_append, txt_len w'.bp _ _ hP.ok, hcap]; simp; omega
  · have hPe : P = [] := Classical.byContradiction fun h => by
      have := hP.fit h; omega
    have hfull : (w'.bp.write 0x7d).isFull = true := by
      rw [BP.isFull, c3, c5, hcap]; simp; have := hP.ok.size; omega
    rw [hfull] at he
    simp only [if_true, Prod.mk.injEq] at he
    obtain ⟨e1, e2, e3⟩ := he
    subst e1; subst e3
    have hstats : w'.stats = s.stats := by
      apply statAt_ext _ _ hP.len
      intro i; have := hP.st i; subst hPe; simpa using this
    have hlast : w'.last = s.lastTXed := by
      by_cases hn : s.stats.length = 0
      · exact hlast0 hn
      · obtain ⟨pre, post, hR⟩ := hL (by omega)
        have := hR.lst; rw [hR.none hPe] at this; simpa using this
    have es : s' = s := by rw [← e2, hstats, hlast]
    subst es
    refine ⟨P, true, ⟨?_, ?_, ?_⟩, ⟨hP.nd, hP.lt⟩, fun _ => rfl, ?_, rfl, ?_, ⟨rfl, rfl, rfl⟩, .inr ⟨by omega, rfl, hPe, ?_, rfl⟩, fun h => absurd h hfit, fun _ => rfl⟩
    · have := c1.oob; have h2 := c1.len
      simp only [BP.store, this, Bool.false_or, decide_eq_false_iff_not]; omega
    · simp [BP.store, c1.len]
    · have := c1.tail; rw [c3, hcap] at this; rw [show bufSize - 1 + 1 = bufSize by omega] at this
      simp only [BP.store]; rw [List.drop_set_of_lt (by omega)]; exact this
    · intro _
      by_cases hc : jsonComma s' = true
      · exact .inl hc
      · right
        exfalso
        have : jsonHeader s' sys = [] := by
          simp [jsonComma] at hc
          simp [jsonHeader, hc]
        rw [this] at hfit; simp at hfit; omega
    · intro i; rw [hPe]; simp
    · have h2 := c1.len
      simp only [BP.store]; rw [List.getElem?_set_self (by omega)]

end OTR
