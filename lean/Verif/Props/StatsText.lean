import Verif.Model.StatsText
import Verif.Spec.StatsText
import Verif.Props.TextOut
import Verif.Props.BinaryStats
/-!
# C235: the line printed for a remote node says what the node sent
-/
namespace OTR.Props
open OTR OTR.Spec

theorem hexU_is (n : Nat) (h : n < 16) : isHexUp (hexDigitU n) = true ∧ (hexUp (hexDigitU n)).getD 0 = n := by
  simp [isHexUp, (hexDigitU_up n h).1]

theorem printHexNat_reads (n : Nat) : (∀ c ∈ printHexNat n, isHexUp c = true) ∧ printHexNat n ≠ [] ∧
    (printHexNat n).foldl (fun x d => 16 * x + (hexUp d).getD 0) 0 = n := by
  induction n using Nat.strongRecOn with
  | ind n ih =>
    unfold printHexNat
    by_cases h : n < 16
    · rw [if_pos h]
      refine ⟨?_, by simp, ?_⟩
      · intro c hc; rw [List.mem_singleton] at hc; rw [hc]; exact (hexU_is n h).1
      · simp [(hexU_is n h).2]
    · rw [if_neg h]
      obtain ⟨a, b, c⟩ := ih (n / 16) (by omega)
      have hm : n % 16 < 16 := by omega
      refine ⟨?_, by simp, ?_⟩
      · intro x hx
        rcases List.mem_append.1 hx with hx | hx
        · exact a x hx
        · rw [List.mem_singleton] at hx; rw [hx]; exact (hexU_is _ hm).1
      · rw [List.foldl_append, c]
        simp only [List.foldl_cons, List.foldl_nil, (hexU_is _ hm).2]
        omega

theorem printHexNat_digit (n : Nat) (h : n < 16) : printHexNat n = [hexDigitU n] := by
  rw [printHexNat, if_pos h]

theorem tag_T : ascii ";T" = [0x3b, 0x54] ∧ ascii ";P" = [0x3b, 0x50] ∧ ascii ";L" = [0x3b, 0x4c] ∧ ascii ";O" = [0x3b, 0x4f] ∧
    ascii "C" = [0x43] := by decide +kernel

/-- What may follow a field: another field or the end of the line. -/
def Sep (l : Bytes) : Prop := ∃ c t, l = c :: t ∧ (c = 0x3b ∨ c = 13)

theorem Sep.nodig {l : Bytes} (h : Sep l) : ∃ c t, l = c :: t ∧ isDig c = false ∧ isHexUp c = false := by
  obtain ⟨c, t, e, h⟩ := h
  rcases h with h | h <;> exact ⟨c, t, e, by rw [h]; decide, by rw [h]; decide⟩

theorem readNat_dec (n : Nat) (l : Bytes) (h : Sep l) : readInt (decNat n ++ l) = some ((n : Int), l) := by
  obtain ⟨c, t, e, h, _⟩ := h.nodig
  rw [e, ← decInt_nat, readInt_dec _ _ _ h]

/-- Not the start of a field with letter `c`. -/
def NoTag (c : Byte) (l : Bytes) : Prop := afterTag c l = none

theorem noTag_end (c : Byte) : NoTag c [13, 10] := by
  simp [NoTag, afterTag]

theorem noTag_cons (c d : Byte) (t : Bytes) (h : d ≠ c) : NoTag c (0x3b :: d :: t) := by
  simp [NoTag, afterTag, h]

/-- **C235** (round trip): the line is read back as exactly the ID, temperature, battery state, light and occupancy it was printed
from; without an ID nothing is printed. -/
theorem C235_roundtrip (c : FullStats) :
    (c.containsID = false → c.text = []) ∧
    (c.containsID = true → readRemote c.text = some
      { id := c.id0.toNat * 256 + c.id1.toNat
        temp := if c.containsTP then some c.tp.tempC16 else none
        low := c.containsTP && c.tp.powerLow
        amb := if c.containsAmbL then some (c.ambL.toNat : Int) else none
        occ := if c.occ = 0 then none else some (c.occ.toNat : Int) }) := by
  refine ⟨fun h => by simp [FullStats.text, h], fun h => ?_⟩
  obtain ⟨t1, t2, t3, t4, t5⟩ := tag_T
  -- the tail from the occupancy on
  have ⟨lo, elo⟩ : ∃ l, l = (if c.occ ≠ 0 then ascii ";O" ++ decNat c.occ.toNat else []) ++ [13, 10] := ⟨_, rfl⟩
  have so : Sep lo := by
    rw [elo, t4]; by_cases hc : c.occ = 0
    · exact ⟨13, [10], by simp [hc], .inr rfl⟩
    · exact ⟨0x3b, _, by simp only [ne_eq, hc, not_false_iff, if_true, List.cons_append]; rfl, .inl rfl⟩
  have ro : readNField 0x4f lo = some (if c.occ = 0 then none else some (c.occ.toNat : Int), [13, 10]) := by
    rw [elo, t4]; by_cases hc : c.occ = 0
    · simp [hc, readNField, afterTag]
    · have := readNat_dec c.occ.toNat [13, 10] ⟨13, [10], rfl, .inr rfl⟩
      simp [hc, readNField, afterTag, this]
  have nol : ∀ x : Byte, x ≠ 0x4f → NoTag x lo := by
    intro x hx
    rw [elo, t4]; by_cases hc : c.occ = 0
    · simp only [hc, ne_eq, not_true, if_false]; exact noTag_end x
    · simp only [ne_eq, hc, not_false_iff, if_true, List.cons_append]; exact noTag_cons _ _ _ (fun e => hx e.symm)
  -- the tail from the light on
  have ⟨ll, ell⟩ : ∃ l, l = (if c.containsAmbL then ascii ";L" ++ decNat c.ambL.toNat else []) ++ lo := ⟨_, rfl⟩
  have sl : Sep ll := by
    rw [ell, t3]; by_cases hc : c.containsAmbL = true
    · exact ⟨0x3b, _, by simp only [hc, if_true, List.cons_append]; rfl, .inl rfl⟩
    · simpa [hc] using so
  have rl : readNField 0x4c ll = some (if c.containsAmbL then some (c.ambL.toNat : Int) else none, lo) := by
    rw [ell, t3]; by_cases hc : c.containsAmbL = true
    · have := readNat_dec c.ambL.toNat lo so
      simp [hc, readNField, afterTag, this]
    · have := nol 0x4c (by decide)
      simp only [NoTag] at this
      simp [hc, readNField, this]
  have nll : ∀ x : Byte, x ≠ 0x4f → x ≠ 0x4c → NoTag x ll := by
    intro x hx hy
    rw [ell, t3]; by_cases hc : c.containsAmbL = true
    · simp only [hc, if_true, List.cons_append]; exact noTag_cons _ _ _ (fun e => hy e.symm)
    · simpa [hc] using nol x hx
  -- the tail from the power flag on
  have rp : readPField ((if c.tp.powerLow then ascii ";P" else []) ++ ll) = (c.tp.powerLow, ll) := by
    rw [t2]; cases hc : c.tp.powerLow
    · have := nll 0x50 (by decide) (by decide)
      simp only [NoTag] at this
      simp [readPField, this]
    · simp [readPField, afterTag]
  have rp0 : readPField ll = (false, ll) := by
    have := nll 0x50 (by decide) (by decide)
    simp only [NoTag] at this
    simp [readPField, this]
  -- the tail from the temperature on
  have ⟨lt, elt⟩ : ∃ l, l = (if c.containsTP then
      ascii ";T" ++ decInt (c.tp.tempC16 / 16) ++ ascii "C" ++ printHexNat (c.tp.tempC16 % 16).toNat ++
        (if c.tp.powerLow then ascii ";P" else []) else []) ++ ll := ⟨_, rfl⟩
  have st : Sep lt := by
    rw [elt, t1]; by_cases hc : c.containsTP = true
    · exact ⟨0x3b, _, by simp only [hc, if_true, List.cons_append]; rfl, .inl rfl⟩
    · simpa [hc] using sl
  have rt : ∃ r1, readTField lt = some (if c.containsTP then some c.tp.tempC16 else none, r1) ∧
      readPField r1 = (c.containsTP && c.tp.powerLow, ll) := by
    by_cases hc : c.containsTP = true
    · refine ⟨(if c.tp.powerLow then ascii ";P" else []) ++ ll, ?_, by rw [rp, hc, Bool.true_and]⟩
      have hm : (c.tp.tempC16 % 16).toNat < 16 := by omega
      rw [elt, t1, if_pos hc, if_pos hc, printHexNat_digit _ hm, t5]
      have hr := readInt_dec (c.tp.tempC16 / 16) 0x43 (hexDigitU (c.tp.tempC16 % 16).toNat :: ((if c.tp.powerLow then ascii ";P" else []) ++ ll)) (by decide)
      have hu := (hexDigitU_up _ hm).1
      simp only [List.append_assoc, List.cons_append, List.nil_append, readTField, afterTag, and_self, if_true]
      rw [hr]
      have hv : 16 * (c.tp.tempC16 / 16) + (((c.tp.tempC16 % 16).toNat : Nat) : Int) = c.tp.tempC16 := by omega
      dsimp only; rw [hu, if_pos rfl, Option.map_some, hv]
    · refine ⟨ll, ?_, by simp [hc, rp0]⟩
      have := nll 0x54 (by decide) (by decide)
      simp only [NoTag] at this
      rw [elt]
      simp [hc, readTField, this]
  obtain ⟨r1, rt, rp1⟩ := rt
  obtain ⟨d, t, e, _, hd⟩ := st.nodig
  obtain ⟨a1, a2, a3⟩ := printHexNat_reads (c.id0.toNat * 256 + c.id1.toNat)
  have hs := takeWhile_stop isHexUp _ d t a1 hd
  have etext : c.text = 0x40 :: (printHexNat (c.id0.toNat * 256 + c.id1.toNat) ++ lt) := by
    rw [elt, ell, elo]
    simp only [FullStats.text, h, if_true, List.append_assoc, List.cons_append, List.nil_append]
  rw [etext]
  simp only [readRemote]
  rw [e, hs.1, hs.2, if_neg (by simp [a2]), ← e, rt]
  simp only [rp1, rl, ro, if_true, a3]

/-- **C235** (end to end): a stats message with an ID that was accepted for sending, decoded by a receiver and printed, is read from
the line as the ID and the values put in, the temperature held to the range that can be carried and the occupancy only when it was
disclosed. -/
theorem C235_end_to_end (c : FullStats) (buf : Bytes) (buflen : Nat) (sec : Byte) (hb : buflen ≤ buf.length) (hid : c.containsID = true)
    (out : Bytes) (n : Nat) (he : c.encode buf buflen sec false = .ok (out, n)) :
    ∃ c', fullDecode out n = .ok (c', n) ∧ readRemote c'.text = some
      { id := c.id0.toNat * 256 + c.id1.toNat
        temp := if c.containsTP then some (satTemp c.tp.tempC16) else none
        low := c.containsTP && c.tp.powerLow
        amb := if c.containsAmbL then some (c.ambL.toNat : Int) else none
        occ := if sec = 0 ∧ c.occ &&& 3 ≠ 0 then some ((c.occ &&& 3).toNat : Int) else none } := by
  have h := ((C67_round_trip_partial c buf buflen sec false hb).2 out n he).2.2.2.2.2.2 n (Nat.le_refl _)
  refine ⟨_, h, ?_⟩
  have hid' : (fullCanon c sec).containsID = true := by simp [fullCanon, hid]
  rw [(C235_roundtrip _).2 hid']
  unfold fullCanon
  cases c.containsTP <;> cases c.containsAmbL <;> simp [hid] <;> by_cases hs : sec = 0 <;> simp [hs]

/-- **C235** (minimal stats): the line for a minimal payload. -/
theorem C235_minimal (p : MinStats) (id0 id1 : Byte) :
    readRemote (p.text id0 id1) = some ⟨id0.toNat * 256 + id1.toNat, some p.tempC16, p.powerLow, none, none⟩ := by
  have := (C235_roundtrip { FullStats.clear with id0 := id0, id1 := id1, containsID := true, tp := p, containsTP := true }).2 rfl
  simpa [MinStats.text, FullStats.clear] using this

/-- A concrete line. -/
example : FullStats.text ⟨true, true, true, 0x80, 0x81, ⟨-8, true⟩, 42, 1⟩ = ascii "@8081;T-1C8;P;L42;O1\r\n" := by decide +kernel

end OTR.Props
