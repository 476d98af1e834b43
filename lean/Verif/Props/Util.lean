import Verif.Model.Util
/-!
# C74, C75: hex conversion and scratch space
-/

namespace OTR.Props

/-- The value of a hex digit character, by position in the alphabet (lower or upper case). -/
def hexVal (c : Byte) : Option Nat :=
  match "0123456789abcdef".toUTF8.toList.idxOf? c with
  | some i => some i
  | none => "0123456789ABCDEF".toUTF8.toList.idxOf? c

theorem parseHexDigit_eq : ∀ c : Byte, parseHexDigit c = (match hexVal c with | some v => (v : Int) | none => -1) := by
  apply forall_byte; decide +kernel

theorem hexVal_lt : ∀ c : Byte, ∀ v, hexVal c = some v → v < 16 := by
  have : ∀ c : Byte, (hexVal c).getD 0 < 16 := by
    apply forall_byte; decide +kernel
  intro c v h
  have := this c
  rw [h] at this
  exact this

/-- **C74.** Printing a byte in hex gives two lower-case hex digits whose values are its two nibbles. -/
theorem C74_print : ∀ b : Byte,
    hexVal (hexDigits b).1 = some (b.toNat / 16) ∧ hexVal (hexDigits b).2 = some (b.toNat % 16) ∧
    (hexDigits b).1 ∈ "0123456789abcdef".toUTF8.toList ∧ (hexDigits b).2 ∈ "0123456789abcdef".toUTF8.toList := by
  apply forall_byte; decide +kernel

/-- **C74.** Parsing what was printed for a byte gives the byte back (whatever follows in memory). -/
theorem C74_round_trip (b : Byte) (rest : Bytes) :
    parseHexByte (some ((hexDigits b).1 :: (hexDigits b).2 :: rest)) = .ok b.toNat := by
  obtain ⟨h1, h2, h3, h4⟩ := C74_print b
  have hz : ∀ c : Byte, hexVal c ≠ none → c ≠ 0 := by intro c hc e; subst e; exact hc (by decide +kernel)
  have e1 := parseHexDigit_eq (hexDigits b).1
  have e2 := parseHexDigit_eq (hexDigits b).2
  rw [h1] at e1; rw [h2] at e2
  dsimp only at e1 e2
  have z1 := hz (hexDigits b).1 (by rw [h1]; simp)
  have z2 := hz (hexDigits b).2 (by rw [h2]; simp)
  unfold parseHexByte
  simp only [rd, List.getElem?_cons_zero, List.getElem?_cons_succ, if_neg z1, if_neg z2, e1, e2]
  have n1 : ¬ ((b.toNat / 16 : Nat) : Int) = -1 := by omega
  have n2 : ¬ ((b.toNat % 16 : Nat) : Int) = -1 := by omega
  rw [if_neg n1, if_neg n2]
  have h5 : 16 * (b.toNat / 16) + b.toNat % 16 = b.toNat := by omega
  generalize b.toNat / 16 = x at *
  generalize b.toNat % 16 = y at *
  rw [← h5]
  simp

/-- **C74.** Parsing any NUL-terminated string never reads beyond the terminator, and the result is a value exactly for
one hex digit, or for two hex digits (then whatever follows is ignored); everything else, and `NULL`, gives -1. -/
theorem C74_parse (s rest : Bytes) (hs : ∀ c ∈ s, c ≠ 0) :
    parseHexByte none = .ok (-1) ∧
    parseHexByte (some (s ++ 0 :: rest)) = .ok (match s with
      | [] => -1
      | [a] => (match hexVal a with | some v => v | none => -1)
      | a :: b :: _ => (match hexVal a, hexVal b with | some v, some w => 16 * v + w | _, _ => -1)) := by
  refine ⟨rfl, ?_⟩
  match s, hs with
  | [], _ => rfl
  | [a], hs =>
    have ha := hs a (by simp)
    have e := parseHexDigit_eq a
    simp only [parseHexByte, rd, List.cons_append, List.getElem?_cons_zero, List.getElem?_cons_succ, if_neg ha, e, List.nil_append]
    cases hv : hexVal a with
    | none => simp
    | some v => simp
  | a :: b :: t, hs =>
    have ha := hs a (by simp)
    have hb := hs b (by simp)
    have e := parseHexDigit_eq a
    have e2 := parseHexDigit_eq b
    simp only [parseHexByte, rd, List.cons_append, List.getElem?_cons_zero, List.getElem?_cons_succ, if_neg ha, if_neg hb, e, e2]
    cases hv : hexVal a with
    | none => simp
    | some v =>
      cases hw : hexVal b with
      | none => simp
      | some w =>
        dsimp only
        have n1 : ¬ (v : Int) = -1 := by omega
        have n2 : ¬ (w : Int) = -1 := by omega
        rw [if_neg n1, if_neg n2]

/-- A concrete case: "4e" and "xz". -/
example : hexDigits 0x4e = (52, 101) ∧ parseHexByte (some [52, 101, 0]) = .ok 0x4e ∧ parseHexByte (some [120, 122, 0]) = .ok (-1) := by
  decide

/-! ### C75 -/

/-- The bytes a scratch space covers. -/
def Scratch.covers (s : Scratch) (a : Nat) : Prop := ∃ b, s.buf = some b ∧ b ≤ a ∧ a < b + s.size

/-- A well-formed space: `NULL` exactly when empty. -/
def Scratch.WF (s : Scratch) : Prop := s.buf = none ↔ s.size = 0

/-- **C75.** The constructor makes a space that covers exactly the bytes given, `NULL` exactly when empty; converting a
large space to the small form covers a part of it with the same start. -/
theorem C75_make (b : Option Nat) (n : Nat) :
    Scratch.WF (Scratch.mk' b n) ∧
    (∀ a, Scratch.covers (Scratch.mk' b n) a ↔ ∃ x, b = some x ∧ x ≤ a ∧ a < x + n) ∧
    (∀ p : Scratch, Scratch.WF p → Scratch.WF p.small ∧ p.small.size ≤ 255 ∧ p.small.buf = p.buf ∧
      ∀ a, Scratch.covers p.small a → Scratch.covers p a) := by
  refine ⟨?_, ?_, ?_⟩
  · unfold Scratch.WF Scratch.mk'
    cases b <;> by_cases h : n = 0 <;> simp [h]
  · intro a
    unfold Scratch.covers Scratch.mk'
    cases b with
    | none => simp
    | some x =>
      by_cases h : n = 0
      · subst h; simp
        try omega
      · simp [h]
  · intro p hp
    unfold Scratch.WF Scratch.covers Scratch.small at *
    refine ⟨?_, ?_, rfl, ?_⟩
    · dsimp only; split <;> rw [hp]; constructor <;> omega
    · dsimp only; split <;> omega
    · rintro a ⟨b, h1, h2, h3⟩
      refine ⟨b, h1, h2, ?_⟩
      dsimp only at h3
      split at h3 <;> omega

/-- **C75.** A sub-space made after reserving `n` bytes covers exactly the parent's bytes after the first `n`: inside the
parent, clear of the reserved prefix; if nothing would be left, or nothing is reserved, it is empty and `NULL`. -/
theorem C75_sub (p : Scratch) (hp : Scratch.WF p) (n : Nat) :
    Scratch.WF (p.sub n) ∧
    (0 < n ∧ n < p.size → ∃ b, p.buf = some b ∧ (p.sub n).buf = some (b + n) ∧ (p.sub n).size = p.size - n ∧
      ∀ a, Scratch.covers (p.sub n) a ↔ Scratch.covers p a ∧ ¬ (b ≤ a ∧ a < b + n)) ∧
    (n = 0 ∨ p.size ≤ n → p.sub n = ⟨none, 0⟩) := by
  unfold Scratch.WF at hp
  refine ⟨?_, ?_, ?_⟩
  · unfold Scratch.WF Scratch.sub subSpaceCannotBeMade
    by_cases h : n = 0 ∨ p.size ≤ n
    · have : (decide (n = 0) || decide (p.size ≤ n)) = true := by simpa using h
      simp [this]
    · have : (decide (n = 0) || decide (p.size ≤ n)) = false := by simpa using h
      simp [this, hp]; omega
  · rintro ⟨h1, h2⟩
    cases hb : p.buf with
    | none => have := hp.1 hb; omega
    | some b =>
      have : subSpaceCannotBeMade p.size n = false := by simp [subSpaceCannotBeMade]; omega
      have e : p.sub n = ⟨some (b + n), p.size - n⟩ := by simp [Scratch.sub, this, hb]
      refine ⟨b, rfl, by rw [e], by rw [e], ?_⟩
      intro a
      rw [e]
      simp only [Scratch.covers, hb, Option.some.injEq, exists_eq_left']
      omega
  · intro h
    have : subSpaceCannotBeMade p.size n = true := by simpa [subSpaceCannotBeMade] using h
    simp [Scratch.sub, this]

/-- The chain of spaces made by successive carving: each routine keeps the first `n` bytes and passes the rest down. -/
def Scratch.chain : Scratch → List Nat → List Scratch
  | p, [] => [p]
  | p, n :: ns => p :: Scratch.chain (p.sub n) ns

/-- The bytes that each routine in the chain keeps for itself (the first `n` of its space), and the last one's space. -/
def Scratch.kept : Scratch → List Nat → List (Nat → Prop)
  | p, [] => [Scratch.covers p]
  | p, n :: ns => (fun a => Scratch.covers p a ∧ ∀ b, p.buf = some b → a < b + n) :: Scratch.kept (p.sub n) ns

theorem kept_inside (ns : List Nat) : ∀ p, Scratch.WF p → ∀ k ∈ Scratch.kept p ns, ∀ a, k a → Scratch.covers p a := by
  induction ns with
  | nil => intro p _ k hk a ha; simp [Scratch.kept] at hk; subst hk; exact ha
  | cons n ns ih =>
    intro p hp k hk a ha
    simp only [Scratch.kept, List.mem_cons] at hk
    rcases hk with rfl | hk
    · exact ha.1
    · obtain ⟨w, hs, hz⟩ := C75_sub p hp n
      have := ih _ w k hk a ha
      by_cases h : 0 < n ∧ n < p.size
      · obtain ⟨b, _, _, _, hc⟩ := hs h
        exact ((hc a).1 this).1
      · rw [hz (by omega)] at this
        obtain ⟨b, hb, _⟩ := this
        simp at hb

/-- **C75.** However deep the calls nest and whatever each reserves, no byte is kept by two of the routines, and all are
inside the original space.  (A routine that reserves nothing, or all, passes down an empty space.) -/
theorem C75_chain_disjoint (p : Scratch) (hp : Scratch.WF p) (ns : List Nat) :
    (Scratch.kept p ns).Pairwise (fun k l => ∀ a, ¬ (k a ∧ l a)) ∧
    ∀ k ∈ Scratch.kept p ns, ∀ a, k a → Scratch.covers p a := by
  refine ⟨?_, kept_inside ns p hp⟩
  induction ns generalizing p with
  | nil => simp [Scratch.kept]
  | cons n ns ih =>
    obtain ⟨w, hs, hz⟩ := C75_sub p hp n
    simp only [Scratch.kept]
    refine List.Pairwise.cons ?_ (ih _ w)
    rintro l hl a ⟨⟨_, hk⟩, hla⟩
    have hc := kept_inside ns _ w l hl a hla
    by_cases h : 0 < n ∧ n < p.size
    · obtain ⟨b, hb, _, _, hcc⟩ := hs h
      have := (hcc a).1 hc
      have h1 := hk b hb
      obtain ⟨⟨b', hb', h2, h3⟩, h4⟩ := this
      rw [hb] at hb'
      cases hb'
      omega
    · rw [hz (by omega)] at hc
      obtain ⟨b, hb, _⟩ := hc
      simp at hb

/-- A concrete chain: 100 bytes at address 1000, reserving 32 then 48 leaves 20 at 1080; a further 20 is refused. -/
example : Scratch.WF (Scratch.mk' (some 1000) 100) ∧
    ((Scratch.mk' (some 1000) 100).sub 32).sub 48 = ⟨some 1080, 20⟩ ∧
    (((Scratch.mk' (some 1000) 100).sub 32).sub 48).sub 20 = ⟨none, 0⟩ := by
  refine ⟨(C75_make _ _).1, by decide, by decide⟩

end OTR.Props
