import Verif.Props.JSONTable
import Verif.Props.JSON
import Verif.Spec.JSON
/-!
# Properties C64, C104, C105: what `writeJSON` writes
-/

namespace OTR.Props
open OTR OTR.Spec

/-! ### The entries of an object -/

/-- The `@` entry naming the sender: the ID set, the unit's own (`sys`) if none is set, nothing if it is set to the empty string. -/
def idEntry (s : StatSet) (sys : Bytes) : List (Bytes × JVal) :=
  match s.id with
  | none => [([0x40], .str sys)]
  | some [] => []
  | some i => [([0x40], .str i)]

/-- The `+` entry counting messages, if enabled. -/
def countEntry (s : StatSet) : List (Bytes × JVal) := if s.enabled then [([0x2b], .num s.count)] else []

/-- The entry of a stat. -/
def statEntry (x : Stat) : Bytes × JVal := (x.key, .num x.value)

/-! ### Text of entries -/

/-- Text of one entry. -/
def entryText : Bytes × JVal → Bytes
  | (k, .str s) => [0x22] ++ k ++ [0x22, 0x3a, 0x22] ++ s ++ [0x22]
  | (k, .num v) => [0x22] ++ k ++ [0x22, 0x3a] ++ decInt v

theorem small_dec (v : Int) (h0 : 0 ≤ v) (h9 : v ≤ 9) : decInt v = [u8 (48 + v.toNat)] := by
  obtain ⟨n, rfl⟩ := Int.eq_ofNat_of_zero_le h0
  have hn : n < 10 := by omega
  unfold decInt decNat
  rw [if_neg (by omega), Int.natAbs_natCast, Nat.toDigits_of_lt_base hn]
  simp [Nat.toNat_digitChar_of_lt_ten hn]

theorem render_eq (x : Stat) : renderStat x = entryText (statEntry x) := by
  show renderStat x = [0x22] ++ x.key ++ [0x22, 0x3a] ++ decInt x.value
  unfold renderStat
  split
  · rename_i h; rw [small_dec _ h.1 h.2]; simp
  · simp

theorem header_eq (s : StatSet) (sys : Bytes) : jsonHeader s sys = joinC ((idEntry s sys ++ countEntry s).map entryText) := by
  have hd : decInt (s.count : Int) = decNat s.count := by unfold decInt; rw [if_neg (by omega)]; simp
  unfold jsonHeader idEntry countEntry
  cases hi : s.id with
  | none => cases he : s.enabled <;> simp [joinC, entryText, hd]
  | some i =>
    cases i with
    | nil => cases he : s.enabled <;> simp [joinC, entryText, hd]
    | cons c t => cases he : s.enabled <;> simp [joinC, entryText, hd]

theorem header_nil (s : StatSet) (sys : Bytes) : idEntry s sys ++ countEntry s = [] ↔ jsonComma s = false := by
  unfold idEntry countEntry jsonComma
  cases hi : s.id with
  | none => simp
  | some i => cases i <;> cases he : s.enabled <;> simp

theorem joinC_append (a b : List Bytes) (ha : a ≠ []) : joinC (a ++ b) = joinC a ++ b.flatMap (0x2c :: ·) := by
  cases a with
  | nil => simp at ha
  | cons f t => simp [joinC]

/-! ### Reading back -/

theorem takeWhile_stop (p : Byte → Bool) (a : Bytes) (c : Byte) (r : Bytes) (ha : ∀ x ∈ a, p x = true) (hc : p c = false) :
    (a ++ c :: r).takeWhile p = a ∧ (a ++ c :: r).dropWhile p = c :: r := by
  induction a with
  | nil => simp [hc]
  | cons x t ih =>
    have hx := ha x (by simp)
    have := ih (fun y hy => ha y (by simp [hy]))
    simp [hx, this]

theorem readStr_quoted (k r : Bytes) (hk : (0x22 : Byte) ∉ k) : readStr ([0x22] ++ k ++ [0x22] ++ r) = some (k, r) := by
  have := takeWhile_stop (· != 0x22) k 0x22 r (by intro x hx; simp; rintro rfl; exact hk hx) (by simp)
  simp [readStr, this]

theorem dec_digits (n : Nat) : (∀ c ∈ decNat n, isDig c = true) ∧ decNat n ≠ [] ∧ digitsVal (decNat n) = n := by
  have hd : ∀ c ∈ Nat.toDigits 10 n, 48 ≤ c.toNat ∧ c.toNat ≤ 57 := by
    intro c hc
    have := Nat.isDigit_of_mem_toDigits (by decide) (by decide) hc
    simp only [Char.isDigit, Bool.and_eq_true, decide_eq_true_eq] at this
    have h1 := UInt32.le_iff_toNat_le.mp this.1
    have h2 := UInt32.le_iff_toNat_le.mp this.2
    exact ⟨h1, h2⟩
  refine ⟨?_, by simp [decNat], ?_⟩
  · intro c hc
    simp only [decNat, List.mem_map] at hc
    obtain ⟨d, hdm, rfl⟩ := hc
    have := hd d hdm
    simp only [isDig, u8_toNat, Bool.and_eq_true, decide_eq_true_eq]; omega
  · have : digitsVal (decNat n) = Nat.ofDigitChars 10 (Nat.toDigits 10 n) 0 := by
      rw [Nat.ofDigitChars_eq_foldl]
      unfold digitsVal decNat
      rw [List.foldl_map]
      have key : ∀ (l : List Char) (a : Nat), (∀ c ∈ l, 48 ≤ c.toNat ∧ c.toNat ≤ 57) →
          l.foldl (fun x y => 10 * x + ((u8 y.toNat).toNat - 48)) a = l.foldl (fun x c => 10 * x + (c.toNat - '0'.toNat)) a := by
        intro l
        induction l with
        | nil => intros; rfl
        | cons c t ih =>
          intro a h
          have hc := h c (by simp)
          simp only [List.foldl_cons]
          rw [ih _ (fun d hd => h d (by simp [hd])), u8_toNat, Nat.mod_eq_of_lt (by omega)]
          rfl
      exact key _ 0 hd
    rw [this, Nat.ofDigitChars_ten_toDigits]

theorem readInt_dec (v : Int) (c : Byte) (r : Bytes) (hc : isDig c = false) : readInt (decInt v ++ c :: r) = some (v, c :: r) := by
  obtain ⟨d1, d2, d3⟩ := dec_digits v.natAbs
  have hs := takeWhile_stop isDig (decNat v.natAbs) c r d1 hc
  unfold decInt
  by_cases hv : v < 0
  · rw [if_pos hv]
    simp only [List.cons_append, readInt, if_true]
    rw [hs.1, hs.2, d3, if_neg d2]
    congr 2; omega
  · rw [if_neg hv]
    cases he : decNat v.natAbs with
    | nil => exact absurd he d2
    | cons x t =>
      have hx : x ≠ 0x2d := by
        rintro rfl
        have := d1 0x2d (by rw [he]; simp)
        simp [isDig] at this
      rw [he] at hs d3
      simp only [List.cons_append] at hs
      simp only [List.cons_append, readInt, if_neg hx]
      rw [hs.1, hs.2, d3, if_neg (by simp)]
      congr 2; omega

/-- An entry whose name and text contain no quote. -/
def CleanEntry : Bytes × JVal → Prop
  | (k, .str s) => (0x22 : Byte) ∉ k ∧ (0x22 : Byte) ∉ s
  | (k, .num _) => (0x22 : Byte) ∉ k

theorem readField_text (e : Bytes × JVal) (h : CleanEntry e) (c : Byte) (r : Bytes) (hc : isDig c = false) :
    readField (entryText e ++ c :: r) = some (e, c :: r) := by
  obtain ⟨k, v⟩ := e
  cases v with
  | str s =>
    obtain ⟨h1, h2⟩ := h
    have e1 : entryText (k, .str s) ++ c :: r = [0x22] ++ k ++ [0x22] ++ (0x3a :: ([0x22] ++ s ++ [0x22] ++ c :: r)) := by
      simp [entryText]
    rw [e1, readField, readStr_quoted _ _ h1]
    simp only [if_true]
    rw [readVal, readStr_quoted _ _ h2]
  | num v =>
    have h1 : (0x22 : Byte) ∉ k := h
    have e1 : entryText (k, .num v) ++ c :: r = [0x22] ++ k ++ [0x22] ++ (0x3a :: (decInt v ++ c :: r)) := by
      simp [entryText]
    have hns : readStr (decInt v ++ c :: r) = none := by
      obtain ⟨d1, d2, d3⟩ := dec_digits v.natAbs
      unfold decInt
      split
      · rfl
      · cases he : decNat v.natAbs with
        | nil => exact absurd he d2
        | cons x t =>
          have hx : x ≠ 0x22 := by
            rintro rfl
            have := d1 0x22 (by rw [he]; simp)
            simp [isDig] at this
          simp [readStr, hx]
    rw [e1, readField, readStr_quoted _ _ h1]
    simp only [if_true]
    rw [readVal, hns]
    dsimp only
    rw [readInt_dec v c r hc]

theorem readFields_text (es : List (Bytes × JVal)) : ∀ (n : Nat) (e : Bytes × JVal), CleanEntry e → (∀ x ∈ es, CleanEntry x) → es.length < n →
    readFields n (joinC ((e :: es).map entryText) ++ [0x7d]) = some (e :: es) := by
  induction es with
  | nil =>
    intro n e he _ hn
    cases n with
    | zero => omega
    | succ n =>
      have := readField_text e he 0x7d [] (by decide)
      simp [joinC, readFields, this]
  | cons a t ih =>
    intro n e he hes hn
    cases n with
    | zero => omega
    | succ n =>
      have e1 : joinC ((e :: a :: t).map entryText) ++ [0x7d] = entryText e ++ 0x2c :: (joinC ((a :: t).map entryText) ++ [0x7d]) := by
        simp [joinC]
      rw [e1, readFields, readField_text e he 0x2c _ (by decide)]
      simp only [if_true]
      rw [ih n a (hes a (by simp)) (fun x hx => hes x (by simp [hx])) (by simp at hn; omega)]

theorem readObj_text (es : List (Bytes × JVal)) (h : ∀ x ∈ es, CleanEntry x) :
    readObj ([0x7b] ++ joinC (es.map entryText) ++ [0x7d]) = some es := by
  cases es with
  | nil => decide +kernel
  | cons e t =>
    have hne : joinC ((e :: t).map entryText) ++ [0x7d] ≠ [0x7d] := by
      obtain ⟨k, v⟩ := e
      cases v <;> simp [joinC, entryText]
    have hlen : t.length < ([0x7b] ++ joinC ((e :: t).map entryText) ++ [0x7d]).length := by
      have : ∀ l : List (Bytes × JVal), l.length ≤ ((l.map entryText).flatMap (0x2c :: ·)).length := by
        intro l
        induction l with
        | nil => simp
        | cons a b ih => simp at ih ⊢; omega
      have := this t
      simp [joinC] at this ⊢; omega
    have := readFields_text t _ e (h e (by simp)) (fun x hx => h x (by simp [hx])) hlen
    have e1 : [0x7b] ++ joinC ((e :: t).map entryText) ++ [0x7d] = 0x7b :: (joinC ((e :: t).map entryText) ++ [0x7d]) := by simp
    rw [e1] at this ⊢
    rw [readObj, if_pos rfl, if_neg hne]
    exact this

theorem valid_clean (k : Bytes) (h : validKey k = true) : (0x22 : Byte) ∉ k := by
  intro hm
  unfold validKey at h
  rw [List.all_eq_true] at h
  have := h 0x22 hm
  simp at this

/-- **C64** (memory): `writeJSON` never touches memory outside the buffer given, for any set reached by any history, any sizes and
flags. A buffer of fewer than 10 bytes is left alone altogether. -/
theorem C64_no_overrun (s : StatSet) (h : TabOK s) (sys mem : Bytes) (bufSize : Nat) (mx sup : Bool) (hm : bufSize ≤ mem.length) :
    (writeJSON s sys mem bufSize mx sup).2.2.oob = false ∧ (writeJSON s sys mem bufSize mx sup).2.2.mem.length = mem.length ∧
    (writeJSON s sys mem bufSize mx sup).2.2.mem.drop bufSize = mem.drop bufSize ∧
    (bufSize < 10 → (writeJSON s sys mem bufSize mx sup).2.2.mem = mem ∧ (writeJSON s sys mem bufSize mx sup).2.1 = s ∧
      (writeJSON s sys mem bufSize mx sup).1 = 0) := by
  by_cases hb : bufSize < 10
  · rw [writeJSON, if_pos hb]; exact ⟨rfl, rfl, rfl, fun _ => ⟨rfl, rfl, rfl⟩⟩
  · obtain ⟨r, s', b, he⟩ : ∃ r s' b, writeJSON s sys mem bufSize mx sup = (r, s', b) := ⟨_, _, _, rfl⟩
    obtain ⟨P, lead, ⟨o1, o2, o3⟩, _⟩ := write_spec s sys mem bufSize mx sup (by omega) hm (Nat.le_trans h.len h.cap) h.last r s' b he
    rw [he]; exact ⟨o1, o2, o3, fun h => absurd h hb⟩

/-- **C64** (failure): the result is zero exactly when the buffer has fewer than 10 bytes or cannot hold the `@` and `+` entries with
room to spare; then the set is unchanged, so nothing is marked as sent, and a buffer of 10 or more holds the empty string. -/
theorem C64_failure (s : StatSet) (h : TabOK s) (sys mem : Bytes) (bufSize : Nat) (mx sup : Bool) (hm : bufSize ≤ mem.length) :
    ((writeJSON s sys mem bufSize mx sup).1 = 0 ↔
      bufSize < 10 ∨ bufSize < (joinC ((idEntry s sys ++ countEntry s).map entryText)).length + 4) ∧
    ((writeJSON s sys mem bufSize mx sup).1 = 0 → (writeJSON s sys mem bufSize mx sup).2.1 = s ∧
      (10 ≤ bufSize → (writeJSON s sys mem bufSize mx sup).2.2.mem[0]? = some 0)) := by
  rw [← header_eq]
  by_cases hb : bufSize < 10
  · rw [writeJSON, if_pos hb]; simp [hb]
  · obtain ⟨r, s', b, he⟩ : ∃ r s' b, writeJSON s sys mem bufSize mx sup = (r, s', b) := ⟨_, _, _, rfl⟩
    obtain ⟨P, lead, _, _, _, _, _, _, _, e5, _⟩ := write_spec s sys mem bufSize mx sup (by omega) hm (Nat.le_trans h.len h.cap) h.last r s' b he
    rw [he]; dsimp only
    rcases e5 with ⟨a1, a2, _⟩ | ⟨a1, a2, a3, a4, a5⟩
    · refine ⟨⟨fun h => by omega, fun h => by omega⟩, fun h => by omega⟩
    · exact ⟨⟨fun _ => by omega, fun _ => a2⟩, fun _ => ⟨a5, fun _ => a4⟩⟩

/-- **C64** (bounds): a non-zero result is the length of the text, which starts with `{`, ends with `}`, is followed by a null and leaves
a byte of the buffer to spare. -/
theorem C64_framing (s : StatSet) (h : TabOK s) (sys mem : Bytes) (bufSize : Nat) (mx sup : Bool) (hm : bufSize ≤ mem.length) (r : Nat)
    (hr : (writeJSON s sys mem bufSize mx sup).1 = r) (h0 : r ≠ 0) :
    r + 2 ≤ bufSize ∧ (writeJSON s sys mem bufSize mx sup).2.2.mem[r]? = some 0 ∧
    ∃ body, (writeJSON s sys mem bufSize mx sup).2.2.mem.take r = [0x7b] ++ body ++ [0x7d] ∧ body.length + 2 = r := by
  by_cases hb : bufSize < 10
  · rw [writeJSON, if_pos hb] at hr; exact absurd hr.symm h0
  · obtain ⟨r', s', b, he⟩ : ∃ r s' b, writeJSON s sys mem bufSize mx sup = (r, s', b) := ⟨_, _, _, rfl⟩
    obtain ⟨P, lead, o, _, _, _, _, _, _, e5, _⟩ := write_spec s sys mem bufSize mx sup (by omega) hm (Nat.le_trans h.len h.cap) h.last r' s' b he
    rw [he] at hr ⊢; dsimp only at hr ⊢; subst hr
    rcases e5 with ⟨a1, a2, a3, a4, a5, _⟩ | ⟨_, a2, _⟩
    · refine ⟨by omega, a4, jsonHeader s sys ++ bodyText lead (P.map fun i => renderStat (statAt s.stats i)), by rw [a5]; simp, ?_⟩
      have := congrArg List.length a5
      rw [List.length_take, o.2.1] at this
      simp at this ⊢; omega
    · exact absurd a2 h0

theorem statAt_mem (S : List Stat) (i : Nat) (h : i < S.length) : statAt S i ∈ S := by simp [statAt, h]

theorem clean_all (s : StatSet) (h : TabOK s) (sys : Bytes) (hs : (0x22 : Byte) ∉ sys) (P : List Nat) (hP : ∀ i ∈ P, i < s.stats.length) :
    ∀ e ∈ idEntry s sys ++ countEntry s ++ P.map (fun i => statEntry (statAt s.stats i)), CleanEntry e := by
  intro e he
  simp only [List.mem_append] at he
  rcases he with (he | he) | he
  · unfold idEntry at he
    split at he
    · simp at he; subst he; exact ⟨by decide, hs⟩
    · simp at he
    · rename_i i _ hi
      simp at he; subst he; exact ⟨by decide, valid_clean _ (h.id _ hi)⟩
  · unfold countEntry at he
    split at he
    · simp at he; subst he; show (0x22 : Byte) ∉ [0x2b]; decide
    · simp at he
  · rw [List.mem_map] at he
    obtain ⟨i, hi, rfl⟩ := he
    exact valid_clean _ (h.valid _ (statAt_mem _ i (hP i hi)))

/-- Every entry fits by itself after the `@` and `+` entries. -/
def AllFit (s : StatSet) (sys : Bytes) (bufSize : Nat) : Prop :=
  ∀ i < s.stats.length, (joinC ((idEntry s sys ++ countEntry s).map entryText)).length + (entryText (statEntry (statAt s.stats i))).length + 5 ≤ bufSize

/-- The general form of the text. -/
theorem write_text (s : StatSet) (h : TabOK s) (sys mem : Bytes) (bufSize : Nat) (mx sup : Bool) (hm : bufSize ≤ mem.length)
    (hlead : idEntry s sys ++ countEntry s ≠ [] ∨ AllFit s sys bufSize) (r : Nat) (s' : StatSet) (b : BP)
    (he : writeJSON s sys mem bufSize mx sup = (r, s', b)) (h0 : r ≠ 0) :
    ∃ P : List Nat, P.Nodup ∧ (∀ i ∈ P, i < s.stats.length) ∧
      b.mem.take r = [0x7b] ++ joinC ((idEntry s sys ++ countEntry s ++ P.map (fun i => statEntry (statAt s.stats i))).map entryText) ++ [0x7d] ∧
      s'.stats.length = s.stats.length ∧
      (∀ i, statAt s'.stats i = if i ∈ P ∧ sup = false then { statAt s.stats i with changed := false } else statAt s.stats i) ∧
      s'.count = (s.count + 1) % 8 ∧ s'.id = s.id ∧ s'.cap = s.cap ∧ s'.enabled = s.enabled ∧
      (0 < s.stats.length →
        ∃ pre post, LoopRes s.stats ([0x7b] ++ jsonHeader s sys) (bufSize - 3) mx s.dcf s.lastTXed s'.lastTXed P pre post) := by
  have hb : ¬ bufSize < 10 := by
    intro hb; rw [writeJSON, if_pos hb] at he; simp at he; exact h0 he.1.symm
  obtain ⟨P, lead, _, ⟨n1, n2⟩, l1, l2, e1, e2, ⟨e3, e3', e3''⟩, e5, e6, _⟩ := write_spec s sys mem bufSize mx sup (by omega) hm (Nat.le_trans h.len h.cap) h.last r s' b he
  rcases e5 with ⟨a1, a2, a3, a4, a5, a6⟩ | ⟨_, a2, _⟩
  · refine ⟨P, n1, n2, ?_, e1, e2, a6, e3, e3', e3'', fun hn => e6 a1 hn⟩
    rw [a5, header_eq]
    have er : (P.map fun i => renderStat (statAt s.stats i)) = (P.map fun i => statEntry (statAt s.stats i)).map entryText := by
      rw [List.map_map]; apply List.map_congr_left; intro i _; exact render_eq _
    rw [er]
    by_cases hnil : idEntry s sys ++ countEntry s = []
    · have hc := (header_nil s sys).1 hnil
      have hl : lead = false := by
        cases lead
        · rfl
        · rcases l2 rfl with h | ⟨i, hi, hf⟩
          · rw [hc] at h; simp at h
          · rcases hlead with hl | hl
            · exact absurd hnil hl
            · have := hl i hi
              rw [← header_eq] at this
              rw [render_eq] at hf; omega
      rw [hnil, hl]; simp [bodyText, joinC]
    · have hc : jsonComma s = true := by
        cases hcc : jsonComma s
        · exact absurd ((header_nil s sys).2 hcc) hnil
        · rfl
      rw [l1 hc, bodyText, if_pos rfl, List.map_append (l₁ := idEntry s sys ++ countEntry s), joinC_append _ _ (by simpa using hnil)]
      simp
  · exact absurd a2 h0

/-- **C64** (content): if an object has an `@` or a `+` entry, or every entry fits by itself, a reader of JSON gets back exactly the `@`
entry, the `+` entry and some of the stats in the set, none twice, with their values. -/
theorem C64_wellformed_partial (s : StatSet) (h : TabOK s) (sys mem : Bytes) (hs : (0x22 : Byte) ∉ sys) (bufSize : Nat) (mx sup : Bool) (hm : bufSize ≤ mem.length)
    (hlead : idEntry s sys ++ countEntry s ≠ [] ∨ AllFit s sys bufSize) (r : Nat)
    (hr : (writeJSON s sys mem bufSize mx sup).1 = r) (h0 : r ≠ 0) :
    ∃ xs : List Stat, (∀ x ∈ xs, x ∈ s.stats) ∧ (xs.map (·.key)).Nodup ∧
      readObj ((writeJSON s sys mem bufSize mx sup).2.2.mem.take r) = some (idEntry s sys ++ countEntry s ++ xs.map statEntry) := by
  obtain ⟨r', s', b, he⟩ : ∃ r s' b, writeJSON s sys mem bufSize mx sup = (r, s', b) := ⟨_, _, _, rfl⟩
  rw [he] at hr ⊢; dsimp only at hr ⊢; subst hr
  obtain ⟨P, n1, n2, t, _⟩ := write_text s h sys mem bufSize mx sup hm hlead r' s' b he h0
  refine ⟨P.map (statAt s.stats), ?_, ?_, ?_⟩
  · intro x hx
    rw [List.mem_map] at hx
    obtain ⟨i, hi, rfl⟩ := hx
    exact statAt_mem _ i (n2 i hi)
  · rw [List.map_map]
    have hk := h.keys
    unfold List.Nodup at n1 ⊢
    rw [List.pairwise_map]
    refine List.Pairwise.imp_of_mem ?_ n1
    intro i j hi hj hne he
    have hi' := n2 i hi
    have hj' := n2 j hj
    apply hne
    have := (List.getElem_inj (xs := s.stats.map (·.key)) (h₀ := by simpa using hi') (h₁ := by simpa using hj') hk).1
    apply this
    simpa [statAt, hi', hj'] using he
  · rw [t, List.map_map]
    exact readObj_text _ (clean_all s h sys hs P n2)

/-- **C64** is false without that proviso: with an empty ID and no count, an entry that does not fit leaves its comma behind. The set is
`long`, `b`; the text is `{,"b":1}`. -/
theorem C64_refuted_leading_comma :
    let s : StatSet := ([JOp.setID [], .put (List.replicate 20 0x61) 1 false, .put [0x62] 1 false].foldl JOp.run { cap := 2 })
    let o := writeJSON { s with count := 1 } [] (List.replicate 20 0) 20 true false
    o.1 = 8 ∧ o.2.2.mem.take 8 = [0x7b, 0x2c, 0x22, 0x62, 0x22, 0x3a, 0x31, 0x7d] ∧ readObj (o.2.2.mem.take o.1) = none := by
  decide +kernel

/-- **C104**: with clearing not suppressed, a stat is marked as sent exactly when it is in the object written (and stays as it was
otherwise): no change is lost unsent. With clearing suppressed nothing is marked. Values never change. -/
theorem C104_marks (s : StatSet) (h : TabOK s) (sys mem : Bytes) (hs : (0x22 : Byte) ∉ sys) (bufSize : Nat) (mx sup : Bool) (hm : bufSize ≤ mem.length)
    (hlead : idEntry s sys ++ countEntry s ≠ [] ∨ AllFit s sys bufSize) (r : Nat)
    (hr : (writeJSON s sys mem bufSize mx sup).1 = r) (h0 : r ≠ 0) :
    ∃ es, readObj ((writeJSON s sys mem bufSize mx sup).2.2.mem.take r) = some (idEntry s sys ++ countEntry s ++ es) ∧
      ∀ k, get (writeJSON s sys mem bufSize mx sup).2.1 k =
        (get s k).map fun x => { x with changed := x.changed && (sup || !decide (statEntry x ∈ es)) } := by
  have h' := (C65_write s h sys mem bufSize mx sup hm).1
  obtain ⟨r', s', b, he⟩ : ∃ r s' b, writeJSON s sys mem bufSize mx sup = (r, s', b) := ⟨_, _, _, rfl⟩
  rw [he] at hr h' ⊢; dsimp only at hr h' ⊢; subst hr
  obtain ⟨P, n1, n2, t, e1, e2, _⟩ := write_text s h sys mem bufSize mx sup hm hlead r' s' b he h0
  refine ⟨P.map fun i => statEntry (statAt s.stats i), ?_, ?_⟩
  · rw [t]; exact readObj_text _ (clean_all s h sys hs P n2)
  · intro k
    have hmem : ∀ i, i < s.stats.length → (statEntry (statAt s.stats i) ∈ P.map (fun i => statEntry (statAt s.stats i)) ↔ i ∈ P) := by
      intro i hi
      rw [List.mem_map]
      constructor
      · rintro ⟨j, hj, hjk⟩
        have hj' := n2 j hj
        have hkey : (statAt s.stats j).key = (statAt s.stats i).key := congrArg Prod.fst hjk
        have := (List.getElem_inj (xs := s.stats.map (·.key)) (h₀ := by simpa using hj') (h₁ := by simpa using hi) h.keys).1
          (by simpa [statAt, hi, hj'] using hkey)
        exact this ▸ hj
      · intro hi; exact ⟨i, hi, rfl⟩
    cases hg : get s k with
    | none =>
      have hc := (C65_write s h sys mem bufSize mx sup hm).2 k
      rw [he, hg] at hc; simpa using hc
    | some x =>
      obtain ⟨hx, hxk⟩ := (get_iff s h k x).1 hg
      obtain ⟨i, hi, rfl⟩ := List.mem_iff_getElem.mp hx
      have hsa : statAt s.stats i = s.stats[i] := by simp [statAt, hi]
      rw [Option.map_some, get_iff s' h']
      have hsi : statAt s'.stats i = s'.stats[i]'(by omega) := by simp [statAt, e1, hi]
      have h2 := e2 i
      have hval : ({ s.stats[i] with changed := s.stats[i].changed && (sup || !decide (statEntry s.stats[i] ∈ P.map fun i => statEntry (statAt s.stats i))) } : Stat)
          = s'.stats[i]'(by omega) := by
        rw [← hsi, h2, ← hsa]
        by_cases hp : i ∈ P
        · cases sup
          · simp [(hmem i hi).2 hp, hp]
          · simp
        · cases sup
          · have := (not_congr (hmem i hi)).2 hp
            simp only [this, hp]; simp
          · simp
      refine ⟨by rw [hval]; exact List.getElem_mem _, hxk⟩

/-- The concrete case: two stats, both changed; one fits, is sent and marked. -/
example : (writeJSON ⟨2, [⟨[0x61], false, 1, true⟩, ⟨[0x62], false, 1000, true⟩], 255, some [], false, 0⟩ [] (List.replicate 11 7) 11 true false)
    = (7, ⟨2, [⟨[0x61], false, 1, false⟩, ⟨[0x62], false, 1000, true⟩], 0, some [], false, 1⟩,
        ⟨[0x7b, 0x22, 0x61, 0x22, 0x3a, 0x31, 0x7d, 0, 0x62, 0x22, 0], 10, 7, 6, false⟩) := by decide +kernel

/-- Printable characters only. -/
theorem text_printable (e : Bytes × JVal) (h : match e with | (k, .str s) => validKey k = true ∧ validKey s = true | (k, .num _) => validKey k = true) :
    ∀ c ∈ entryText e, 32 ≤ c.toNat ∧ c.toNat ≤ 126 := by
  have hv : ∀ k : Bytes, validKey k = true → ∀ c ∈ k, 32 ≤ c.toNat ∧ c.toNat ≤ 126 := by
    intro k hk c hc
    unfold validKey at hk
    rw [List.all_eq_true] at hk
    have := hk c hc
    simp only [Bool.and_eq_true, decide_eq_true_eq] at this
    exact ⟨this.1.1.1, this.1.1.2⟩
  obtain ⟨k, v⟩ := e
  intro c hc
  cases v with
  | str s =>
    simp only [entryText, List.mem_append, List.mem_cons, List.not_mem_nil, or_false] at hc
    rcases hc with (((rfl | hc) | rfl | rfl | rfl) | hc) | rfl
    · decide
    · exact hv _ h.1 c hc
    · decide
    · decide
    · decide
    · exact hv _ h.2 c hc
    · decide
  | num v =>
    simp only [entryText, List.mem_append, List.mem_cons, List.not_mem_nil, or_false] at hc
    rcases hc with ((rfl | hc) | rfl | rfl) | hc
    · decide
    · exact hv _ h c hc
    · decide
    · decide
    · have hdig := (dec_digits v.natAbs).1
      have hd : ∀ c ∈ decNat v.natAbs, 32 ≤ c.toNat ∧ c.toNat ≤ 126 := by
        intro c hc
        have := hdig c hc
        simp only [isDig, Bool.and_eq_true, decide_eq_true_eq] at this; omega
      unfold decInt at hc
      split at hc
      · simp at hc
        rcases hc with rfl | hc
        · decide
        · exact hd c hc
      · exact hd c hc

theorem joinC_mem (fs : List Bytes) (c : Byte) (h : c ∈ joinC fs) : c = 0x2c ∨ ∃ f ∈ fs, c ∈ f := by
  cases fs with
  | nil => simp [joinC] at h
  | cons f t =>
    simp only [joinC, List.mem_append, List.mem_flatMap, List.mem_cons] at h
    rcases h with h | ⟨g, hg, rfl | h⟩
    · exact .inr ⟨f, by simp, h⟩
    · exact .inl rfl
    · exact .inr ⟨g, by simp [hg], h⟩

/-- **C105**: what `writeJSON` writes into a buffer of at most 56 bytes can be sent: the sender's adjustment accepts it (its result is a
CRC, not the error code). -/
theorem C105_can_be_sent (s : StatSet) (h : TabOK s) (sys mem : Bytes) (hs : validKey sys = true) (bufSize : Nat) (hb56 : bufSize ≤ 56) (mx sup : Bool)
    (hm : bufSize ≤ mem.length) (hlead : idEntry s sys ++ countEntry s ≠ [] ∨ AllFit s sys bufSize) (r : Nat)
    (hr : (writeJSON s sys mem bufSize mx sup).1 = r) (h0 : r ≠ 0) :
    ∃ crc buf', adjustJSON (writeJSON s sys mem bufSize mx sup).2.2.mem = .ok (crc, buf') ∧ crc.toNat < 128 := by
  obtain ⟨f1, f2, body, f3, f4⟩ := C64_framing s h sys mem bufSize mx sup hm r hr h0
  obtain ⟨r', s', b, he⟩ : ∃ r s' b, writeJSON s sys mem bufSize mx sup = (r, s', b) := ⟨_, _, _, rfl⟩
  rw [he] at hr f2 f3 ⊢; dsimp only at hr f2 f3 ⊢; subst hr
  obtain ⟨P, n1, n2, t, _⟩ := write_text s h sys mem bufSize mx sup hm hlead r' s' b he h0
  have hbody : body = joinC ((idEntry s sys ++ countEntry s ++ P.map (fun i => statEntry (statAt s.stats i))).map entryText) := by
    rw [t] at f3
    simpa using f3.symm
  have hmid : JMid body := by
    refine ⟨by omega, ?_⟩
    intro c hc
    rw [hbody] at hc
    rcases joinC_mem _ c hc with rfl | ⟨f, hf, hcf⟩
    · decide
    · rw [List.mem_map] at hf
      obtain ⟨e, hem, rfl⟩ := hf
      refine text_printable e ?_ c hcf
      simp only [List.mem_append] at hem
      rcases hem with (hem | hem) | hem
      · unfold idEntry at hem
        split at hem
        · simp at hem; subst hem; exact ⟨by decide, hs⟩
        · simp at hem
        · rename_i i _ hi
          simp at hem; subst hem; exact ⟨by decide, h.id _ hi⟩
      · unfold countEntry at hem
        split at hem
        · simp at hem; subst hem; show validKey [0x2b] = true; decide
        · simp at hem
      · rw [List.mem_map] at hem
        obtain ⟨i, hi, rfl⟩ := hem
        exact h.valid _ (statAt_mem _ i (n2 i hi))
  have hlt : r' < b.mem.length := by
    rw [List.getElem?_eq_some_iff] at f2; exact f2.1
  have hmem : b.mem = jOpen :: body ++ [jClose, 0] ++ b.mem.drop (r' + 1) := by
    have h1 := List.take_append_drop r' b.mem
    have h2 : b.mem.drop r' = 0 :: b.mem.drop (r' + 1) := by
      rw [List.drop_eq_getElem_cons hlt]
      rw [List.getElem?_eq_some_iff] at f2
      rw [f2.2]
    rw [f3, h2] at h1
    calc b.mem = _ := h1.symm
      _ = _ := by simp
  have h00 : (0 : Byte) ∈ b.mem := by rw [hmem]; simp
  obtain ⟨hadj, hcrc⟩ := (C63_adjust b.mem h00).1 body _ hmem hmid
  exact ⟨_, _, hadj, hcrc⟩

end OTR.Props
