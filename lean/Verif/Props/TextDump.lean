import Verif.Props.TextOut
/-!
# Property C171: dumping the by-hour statistics
-/

namespace OTR.Props
open OTR OTR.Spec

/-- What the user should see for a set: its name. -/
def setTitle (n : Nat) : Bytes :=
  match n with
  | 0 | 1 => "C".toUTF8.toList
  | 2 | 3 => "ambl".toUTF8.toList
  | 4 | 5 => "occ%".toUTF8.toList
  | 6 | 7 => "RH%".toUTF8.toList
  | 10 | 11 => "u".toUTF8.toList
  | _ => "?".toUTF8.toList

theorem setName_title (n : Nat) : setName n = setTitle n := by
  by_cases h : n < 12
  · have : ∀ n, n < 12 → setName n = setTitle n := by decide +kernel
    exact this n h
  · unfold setName
    rw [if_neg (by omega), if_neg (by omega), if_neg (by omega), if_neg (by omega), if_neg (by omega)]
    match n, h with
    | k + 12, _ => exact (by decide +kernel : ascii "?" = "?".toUTF8.toList)
    | 0, h | 1, h | 2, h | 3, h | 4, h | 5, h | 6, h | 7, h | 8, h | 9, h | 10, h | 11, h => exact absurd (by decide) h

theorem title_word (n : Nat) : setTitle n ≠ [] ∧ ∀ c ∈ setTitle n, c ≠ 32 := by
  unfold setTitle
  split <;> decide +kernel

/-- One entry without its trailing blank. -/
def entryWord (m : EE) (setN hh thisHH : Nat) : Bytes :=
  (if eeGetStat m setN hh = 0xff then [0x2d]
   else if setN = 0 ∨ setN = 1 then decInt (i16 (i16 (expandTempC16 (eeGetStat m setN hh)) + 8) / 16)
   else decNat (eeGetStat m setN hh).toNat) ++ (if hh = thisHH then [0x3c] else [])

theorem decInt_word (v : Int) : decInt v ≠ [] ∧ ∀ c ∈ decInt v, c ≠ 32 := by
  have hd := (dec_digits v.natAbs)
  have h32 : ∀ c ∈ decNat v.natAbs, c ≠ 32 := by
    intro c hc e
    have := hd.1 c hc
    rw [e] at this
    exact absurd this (by decide)
  unfold decInt
  split
  · refine ⟨by simp, ?_⟩
    intro c hc
    rw [List.mem_cons] at hc
    rcases hc with rfl | hc
    · decide
    · exact h32 c hc
  · exact ⟨hd.2.1, h32⟩

theorem entryWord_word (m : EE) (setN hh thisHH : Nat) : entryWord m setN hh thisHH ≠ [] ∧ ∀ c ∈ entryWord m setN hh thisHH, c ≠ 32 := by
  have hA : ∀ A : Bytes, (A ≠ [] ∧ ∀ c ∈ A, c ≠ 32) → (A ++ (if hh = thisHH then [0x3c] else []) ≠ [] ∧ ∀ c ∈ A ++ (if hh = thisHH then [0x3c] else []), c ≠ 32) := by
    rintro A ⟨h1, h2⟩
    refine ⟨by simp [h1], ?_⟩
    intro c hc
    rw [List.mem_append] at hc
    rcases hc with hc | hc
    · exact h2 c hc
    · split at hc
      · simp at hc; rw [hc]; decide
      · simp at hc
  unfold entryWord
  apply hA
  by_cases h1 : eeGetStat m setN hh = 0xff
  · rw [if_pos h1]; decide
  · rw [if_neg h1]
    by_cases h2 : setN = 0 ∨ setN = 1
    · rw [if_pos h2]; exact decInt_word _
    · rw [if_neg h2, ← decInt_nat]; exact decInt_word _

theorem isWords_blanks (es : List Bytes) (h : ∀ w ∈ es, w ≠ [] ∧ ∀ c ∈ w, c ≠ 32) : IsWords (es.flatMap (· ++ [32])) es := by
  induction es with
  | nil => exact .nil
  | cons w t ih =>
    have hw := h w (by simp)
    rw [List.flatMap_cons, List.append_assoc]
    exact .word hw.1 hw.2 (ih fun x hx => h x (by simp [hx]))

/-- **C171.** "D n" prints one line: the name of set n, "last" or "smoothed", and 24 entries, one per hour, the entry for the current
hour (and only that) marked `<`. An hour with no value is `-`; otherwise the entry is a decimal number: the stored value, or for a set
of temperatures (with a value that can be stored) the whole number of degrees nearest to it (halves up). -/
theorem C171_dump (m : EE) (thisHH : Nat) (buf : Bytes) (h0 : ∀ c ∈ buf, c ≠ 0) (w : Bytes) (ws : List Bytes) (n : Nat)
    (hw : DecWord w n) (hn : n ≤ 255) (hws : IsWords (buf.drop 2) (w :: ws)) :
    ∃ line es, cliDump m thisHH buf = line ++ [13, 10] ∧ es.length = 24 ∧
      IsWords line (setTitle n :: (if n % 2 = 1 then "smoothed" else "last").toUTF8.toList :: es) ∧
      ∀ hh, hh < 24 → ∃ e, es[hh]? = some (e ++ if hh = thisHH then [0x3c] else []) ∧
        (eeGetStat m n hh = 0xff → e = [0x2d]) ∧
        (eeGetStat m n hh ≠ 0xff → 2 ≤ n → readInt (e ++ [32]) = some (((eeGetStat m n hh).toNat : Int), [32])) ∧
        (n < 2 → (eeGetStat m n hh).toNat ≤ 248 → ∃ t : Int, readInt (e ++ [32]) = some (t, [32]) ∧
          16 * t ≤ expandTempC16 (eeGetStat m n hh) + 8 ∧ expandTempC16 (eeGetStat m n hh) + 8 < 16 * t + 16) := by
  have h0' : ∀ c ∈ buf.drop 2, c ≠ 0 := fun c hc => h0 c (List.mem_of_mem_drop hc)
  have ht := strToks_words hws h0'
  have ha : atoiU8 w = n := by rw [atoiU8_dec hw (by omega)]; omega
  have hlen : buf.length ≥ 3 := by
    have hne : buf.drop 2 ≠ [] := by
      intro e; rw [e] at ht; simp [strToks] at ht
    have := List.length_pos_iff.2 hne
    simp at this; omega
  have hde : ∀ hh, dumpEntry m n hh thisHH = entryWord m n hh thisHH ++ [32] := by
    intro hh; unfold dumpEntry entryWord; simp only [List.append_assoc]
  have hkind : (if n % 2 = 1 then ascii "smoothed" else ascii "last") = (if n % 2 = 1 then "smoothed" else "last").toUTF8.toList := by
    split <;> decide +kernel
  refine ⟨setTitle n ++ 32 :: ((if n % 2 = 1 then "smoothed" else "last").toUTF8.toList ++ 32 ::
      ((List.range 24).map fun hh => entryWord m n hh thisHH).flatMap (· ++ [32])),
    (List.range 24).map fun hh => entryWord m n hh thisHH, ?_, by simp, ?_, ?_⟩
  · unfold cliDump
    rw [if_pos hlen, ht]
    dsimp only
    rw [ha, setName_title, hkind]
    simp only [hde, List.flatMap_map, List.append_assoc, List.cons_append, List.nil_append]
  · refine .word (title_word n).1 (title_word n).2 (.word ?_ ?_ (isWords_blanks _ ?_))
    · split <;> decide +kernel
    · split <;> decide +kernel
    · intro x hx
      rw [List.mem_map] at hx
      obtain ⟨hh, _, rfl⟩ := hx
      exact entryWord_word m n hh thisHH
  · intro hh hlt
    refine ⟨if eeGetStat m n hh = 0xff then [0x2d]
      else if n = 0 ∨ n = 1 then decInt (i16 (i16 (expandTempC16 (eeGetStat m n hh)) + 8) / 16)
      else decNat (eeGetStat m n hh).toNat, ?_, ?_, ?_, ?_⟩
    · rw [List.getElem?_map, List.getElem?_range hlt]
      rfl
    · intro h; rw [if_pos h]
    · intro h h2
      rw [if_neg h, if_neg (by omega), ← decInt_nat]
      exact readInt_dec _ 32 [] (by decide)
    · intro h2 h248
      generalize eeGetStat m n hh = b at h248
      have hne : b ≠ 0xff := by rintro rfl; simp at h248
      rw [if_neg hne, if_pos (by omega)]
      refine ⟨_, readInt_dec _ 32 [] (by decide), ?_⟩
      have hr : 0 ≤ expandTempC16 b ∧ expandTempC16 b ≤ 1600 := by
        have : ∀ b : Byte, b.toNat ≤ 248 → 0 ≤ expandTempC16 b ∧ expandTempC16 b ≤ 1600 := by apply forall_byte; decide +kernel
        exact this b h248
      unfold i16
      omega

/-- The dump never changes anything and only ever prints; a line without a set number prints nothing. -/
theorem C171_nothing (m : EE) (thisHH : Nat) (buf : Bytes) (h0 : ∀ c ∈ buf, c ≠ 0) (h : IsWords (buf.drop 2) []) : cliDump m thisHH buf = [] := by
  have ht := strToks_words h (fun c hc => h0 c (List.mem_of_mem_drop hc))
  unfold cliDump
  split
  · rw [ht]
  · rfl

example : cliDump (fun a => if a = 256 + 24 + 3 then 78 else if a = 256 + 24 + 4 then 0 else 0xff) 4 "D 1".toUTF8.toList =
    "C smoothed - - - 22 0< - - - - - - - - - - - - - - - - - - - \r\n".toUTF8.toList := by decide +kernel

example : DecWord [49] 1 ∧ IsWords ("D 1".toUTF8.toList.drop 2) [[49]] := by
  refine ⟨⟨by decide, by decide, by decide⟩, ?_⟩
  rw [show "D 1".toUTF8.toList.drop 2 = [49] by decide +kernel]
  exact .last (by decide) (by decide)

end OTR.Props
