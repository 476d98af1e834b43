import Verif.Model.MemCheck
import Verif.Model.Target
import Verif.Props.CLISet
/-!
# C178-C182: stack checks, profiling tables and the setback lockout
-/

namespace OTR.Props

/-! ## Specification -/

mutual
/-- The stack positions at which `recordIfMinSP` is called, by the call itself and by interrupts taken during it. -/
def callPositions : RecCall → List Nat
  | .mk pos _ a b c d => callsPositions a ++ pos :: (callsPositions b ++ (callsPositions c ++ callsPositions d))
def callsPositions : RecCalls → List Nat
  | .nil => []
  | .cons x t => callPositions x ++ callsPositions t
end

mutual
/-- An interrupt's frame lies below (at a lower address than) that of what it interrupts. -/
def StackNested : RecCall → Prop
  | .mk pos _ a b c d =>
    (∀ p ∈ callsPositions a ++ (callsPositions b ++ (callsPositions c ++ callsPositions d)), p ≤ pos) ∧
    StacksNested a ∧ StacksNested b ∧ StacksNested c ∧ StacksNested d
def StacksNested : RecCalls → Prop
  | .nil => True
  | .cons x t => StackNested x ∧ StacksNested t
end

/-- Calls one after the other, none of them interrupted by another: position and location of each. -/
def plainCalls : List (Nat × Byte) → RecCalls
  | [] => .nil
  | (p, l) :: t => .cons (.mk p l .nil .nil .nil .nil) (plainCalls t)

/-! ## Lowest of a list -/

def lows (l : List Nat) (b : Nat) : Nat := l.foldl min b

theorem lows_append (l r : List Nat) (b : Nat) : lows (l ++ r) b = lows r (lows l b) := by unfold lows; rw [List.foldl_append]
theorem lows_cons (x : Nat) (r : List Nat) (b : Nat) : lows (x :: r) b = lows r (min b x) := rfl

theorem lows_le (l : List Nat) : ∀ b, lows l b ≤ b := by
  induction l with
  | nil => intro b; exact Nat.le_refl _
  | cons x t ih => intro b; rw [lows_cons]; have := ih (min b x); omega

theorem lows_min (l : List Nat) : ∀ b p, lows l (min b p) = min (lows l b) p := by
  induction l with
  | nil => intro b p; rfl
  | cons x t ih =>
    intro b p
    rw [lows_cons, lows_cons, show min (min b p) x = min (min b x) p by omega, ih]

theorem lows_mem (l : List Nat) : ∀ b, ∀ x ∈ l, lows l b ≤ x := by
  induction l with
  | nil => intro b x h; cases h
  | cons y t ih =>
    intro b x h
    rw [lows_cons]
    rcases List.mem_cons.mp h with rfl | h
    · have := lows_le t (min b x); omega
    · exact ih _ x h

theorem lows_is (l : List Nat) : ∀ b, lows l b = b ∨ lows l b ∈ l := by
  induction l with
  | nil => intro b; exact Or.inl rfl
  | cons x t ih =>
    intro b
    rw [lows_cons]
    rcases ih (min b x) with h | h
    · rw [h]
      by_cases hb : b ≤ x
      · left; omega
      · right; rw [show min b x = x by omega]; simp
    · right; exact List.mem_cons_of_mem _ h

/-- Calls all at or below `pos` that do not move a mark above `pos` are no calls. -/
theorem lows_same {l : List Nat} {b pos : Nat} (h : ∀ x ∈ l, x ≤ pos) (hb : pos < b) (he : lows l b = b) : l = [] := by
  cases l with
  | nil => rfl
  | cons x t =>
    have h1 := lows_mem (x :: t) b x (by simp)
    have h2 := h x (by simp)
    omega

/-! ## C178: the low-water mark -/

mutual
theorem exec_lows (endAddr : Nat) : ∀ (x : RecCall) (m : MemChk), StackNested x →
    (x.exec endAddr m).minSP = lows (callPositions x) m.minSP
  | .mk pos loc a b c d, m, hn => by
    obtain ⟨hle, na, nb, nc, nd⟩ := hn
    have ha := execs_lows endAddr a m na
    unfold RecCall.exec callPositions
    dsimp only
    rw [lows_append, ← ha]
    generalize RecCalls.exec endAddr a m = m1
    have hb := execs_lows endAddr b m1 nb
    generalize RecCalls.exec endAddr b m1 = m2 at *
    rw [lows_cons, lows_append, lows_append]
    by_cases hp : pos < m1.minSP
    · rw [if_pos hp]
      dsimp only
      have hc := execs_lows endAddr c { m2 with loc := loc } nc
      generalize RecCalls.exec endAddr c { m2 with loc := loc } = m3 at *
      have hd := execs_lows endAddr d (m3.exchange endAddr pos m1.minSP).1 nd
      rw [hd]
      congr 1
      unfold MemChk.exchange
      dsimp only at hc
      rw [hb] at hc
      rw [show min m1.minSP pos = pos by omega]
      by_cases he : m3.minSP = m1.minSP
      · rw [if_pos he]
        dsimp only
        rw [← lows_append] at hc ⊢
        have h0 : callsPositions b ++ callsPositions c = [] :=
          lows_same (pos := pos) (b := m1.minSP) (fun x hx => hle x (by
            rcases List.mem_append.mp hx with h | h <;> simp [h])) hp (by rw [← hc]; exact he)
        rw [h0]; rfl
      · rw [if_neg he]
        dsimp only
        have e := lows_min (callsPositions b ++ callsPositions c) m1.minSP pos
        rw [lows_append, lows_append] at e
        rw [show min m1.minSP pos = pos by omega] at e
        rw [e, ← hc]
        rcases lows_is (callsPositions b ++ callsPositions c) m1.minSP with h | h
        · rw [lows_append] at h; omega
        · rw [lows_append, ← hc] at h
          have := hle m3.minSP (by
            rcases List.mem_append.mp h with h | h <;> simp [h])
          omega
    · rw [if_neg hp]
      have hc := execs_lows endAddr c m2 nc
      have hd := execs_lows endAddr d (RecCalls.exec endAddr c m2) nd
      rw [hd, hc, hb]
      have e : min m1.minSP pos = m1.minSP := by omega
      rw [e]
theorem execs_lows (endAddr : Nat) : ∀ (x : RecCalls) (m : MemChk), StacksNested x →
    (x.exec endAddr m).minSP = lows (callsPositions x) m.minSP
  | .nil, m, _ => rfl
  | .cons x t, m, hn => by
    obtain ⟨n1, n2⟩ := hn
    unfold RecCalls.exec callsPositions
    rw [execs_lows endAddr t _ n2, exec_lows endAddr x m n1, lows_append]
end

/-- **C178** After any calls of `recordIfMinSP`, with any interrupts making such calls at any points of them, the mark is the lowest of what it was
and of all the positions seen. -/
theorem C178_low_water_mark (endAddr : Nat) (calls : RecCalls) (m : MemChk) (hn : StacksNested calls) :
    (calls.exec endAddr m).minSP ≤ m.minSP ∧ (∀ p ∈ callsPositions calls, (calls.exec endAddr m).minSP ≤ p) ∧
    ((calls.exec endAddr m).minSP = m.minSP ∨ (calls.exec endAddr m).minSP ∈ callsPositions calls) := by
  rw [execs_lows endAddr calls m hn]
  exact ⟨lows_le _ _, fun p hp => lows_mem _ _ p hp, lows_is _ _⟩

theorem plain_positions : ∀ l : List (Nat × Byte), callsPositions (plainCalls l) = l.map Prod.fst
  | [] => rfl
  | (p, b) :: t => by
    unfold plainCalls callsPositions callPositions
    rw [plain_positions t]; rfl

theorem plain_nested : ∀ l : List (Nat × Byte), StacksNested (plainCalls l)
  | [] => trivial
  | (p, b) :: t => by
    unfold plainCalls StacksNested StackNested
    refine ⟨⟨?_, trivial, trivial, trivial, trivial⟩, plain_nested t⟩
    intro x hx
    unfold callsPositions at hx
    cases hx

theorem execs_plain (endAddr : Nat) (p : Nat) (b : Byte) (t : List (Nat × Byte)) (m : MemChk) :
    (plainCalls ((p, b) :: t)).exec endAddr m =
      (plainCalls t).exec endAddr (if p < m.minSP then ⟨p, b, m.warned || decide ((m.minSP + 65536 - endAddr) % 65536 < 64)⟩ else m) := by
  conv => lhs; unfold plainCalls RecCalls.exec
  congr 1
  unfold RecCall.exec RecCalls.exec
  dsimp only
  by_cases h : p < m.minSP
  · rw [if_pos h, if_pos h]
    unfold MemChk.exchange
    rw [if_pos rfl]
  · rw [if_neg h, if_neg h]; unfold RecCalls.exec; rfl

/-- **C178** (location): if the calls do not interrupt one another, the location reported is that of the first call at the lowest position, or what it was if
no call was below the mark. -/
theorem C178_location (endAddr : Nat) : ∀ (l : List (Nat × Byte)) (m : MemChk),
    ((plainCalls l).exec endAddr m).loc = m.loc ∧ (∀ q ∈ l, m.minSP ≤ q.1) ∨
    ∃ pre p b post, l = pre ++ (p, b) :: post ∧ p < m.minSP ∧ (∀ q ∈ pre, p < q.1) ∧ (∀ q ∈ post, p ≤ q.1) ∧
      ((plainCalls l).exec endAddr m).loc = b
  | [], m => Or.inl ⟨rfl, fun q h => by cases h⟩
  | (p, b) :: t, m => by
    rw [execs_plain]
    by_cases hp : p < m.minSP
    · rw [if_pos hp]
      rcases C178_location endAddr t ⟨p, b, m.warned || decide ((m.minSP + 65536 - endAddr) % 65536 < 64)⟩ with ⟨h1, h2⟩ | ⟨pre, p', b', post, e, h1, h2, h3, h4⟩
      · exact Or.inr ⟨[], p, b, t, rfl, hp, fun q h => (List.not_mem_nil h).elim, h2, h1⟩
      · refine Or.inr ⟨(p, b) :: pre, p', b', post, by rw [e]; rfl, Nat.lt_trans h1 hp, ?_, h3, h4⟩
        intro q hq
        rcases List.mem_cons.mp hq with rfl | hq
        · exact h1
        · exact h2 q hq
    · rw [if_neg hp]
      rcases C178_location endAddr t m with ⟨h1, h2⟩ | ⟨pre, p', b', post, e, h1, h2, h3, h4⟩
      · refine Or.inl ⟨h1, ?_⟩
        intro q hq
        rcases List.mem_cons.mp hq with rfl | hq
        · exact Nat.le_of_not_lt hp
        · exact h2 q hq
      · refine Or.inr ⟨(p, b) :: pre, p', b', post, by rw [e]; rfl, h1, ?_, h3, h4⟩
        intro q hq
        rcases List.mem_cons.mp hq with rfl | hq
        · dsimp only; omega
        · exact h2 q hq

/-- An interrupt between the load and the exchange: it goes lower, and its position stands. -/
example : StacksNested (.cons (.mk 1000 1 .nil .nil (.cons (.mk 950 2 .nil .nil .nil .nil) .nil) .nil) .nil) ∧
    ((RecCalls.cons (.mk 1000 1 .nil .nil (.cons (.mk 950 2 .nil .nil .nil .nil) .nil) .nil) .nil).exec 500 ⟨2303, 0, false⟩).minSP = 950 := by
  refine ⟨?_, by decide +kernel⟩
  unfold StacksNested StackNested StacksNested StackNested StacksNested
  unfold callsPositions callPositions callsPositions
  refine ⟨⟨by decide, trivial, trivial, ⟨⟨by decide, trivial, trivial, trivial, trivial⟩, trivial⟩, trivial⟩, trivial⟩

/-! ## C179: the low-stack warning -/

/-- **C179** (refuted as documented): the mark may get within 64 bytes of the variables, or into them, and no warning is reported; the second deep call
warns, but if the first one is already in the variables no later one ever does. -/
theorem C179_warned_refuted :
    (let m := (plainCalls [(0x510, 1)]).exec 0x500 (MemChk.reset 0x8ff ⟨0, 0, false⟩)
     m.minSP < 0x500 + 64 ∧ m.warned = false) ∧
    (∀ l : List (Nat × Byte), (∀ q ∈ l, q.1 < 0x500) →
     ((plainCalls ((0x4f0, 1) :: l)).exec 0x500 (MemChk.reset 0x8ff ⟨0, 0, false⟩)).warned = false) := by
  refine ⟨by decide +kernel, ?_⟩
  intro l hl
  rw [execs_plain, if_pos (by decide)]
  have key : ∀ (l : List (Nat × Byte)) (m : MemChk), (∀ q ∈ l, q.1 < 0x500) → m.minSP < 0x500 → m.warned = false →
      ((plainCalls l).exec 0x500 m).warned = false := by
    intro l
    induction l with
    | nil => intro m _ _ h; exact h
    | cons x t ih =>
      intro m hl hm hw
      obtain ⟨p, b⟩ := x
      rw [execs_plain]
      refine ih _ (fun q hq => hl q (by simp [hq])) ?_ ?_
      · by_cases hp : p < m.minSP
        · rw [if_pos hp]; dsimp only; omega
        · rw [if_neg hp]; exact hm
      · by_cases hp : p < m.minSP
        · rw [if_pos hp]; dsimp only
          rw [hw, decide_eq_false (by omega)]; rfl
        · rw [if_neg hp]; exact hw
  refine key l _ hl (by decide) ?_
  decide

mutual
theorem warn_call (endAddr : Nat) (he : endAddr < 65536) : ∀ (x : RecCall) (m : MemChk), StackNested x → m.minSP < 65536 → m.warned = false →
    (x.exec endAddr m).warned = true → (x.exec endAddr m).minSP < endAddr + 64
  | .mk pos loc a b c d, m, hn, hm, hw, hx => by
    obtain ⟨hle, na, nb, nc, nd⟩ := hn
    unfold RecCall.exec at hx ⊢
    dsimp only at hx ⊢
    have low := fun (y : RecCalls) (m : MemChk) (hy : StacksNested y) =>
      (show (y.exec endAddr m).minSP ≤ m.minSP by rw [execs_lows endAddr y m hy]; exact lows_le _ _)
    have wa : (a.exec endAddr m).warned = true → (a.exec endAddr m).minSP < endAddr + 64 :=
      warn_calls endAddr he a m na hm (fun h => by rw [hw] at h; cases h)
    have la := low a m na
    generalize a.exec endAddr m = m1 at *
    have wb : (b.exec endAddr m1).warned = true → (b.exec endAddr m1).minSP < endAddr + 64 :=
      warn_calls endAddr he b m1 nb (by omega) wa
    have lb := low b m1 nb
    generalize b.exec endAddr m1 = m2 at *
    by_cases hp : pos < m1.minSP
    · rw [if_pos hp] at hx ⊢
      have wc : (c.exec endAddr { m2 with loc := loc }).warned = true → (c.exec endAddr { m2 with loc := loc }).minSP < endAddr + 64 :=
        warn_calls endAddr he c { m2 with loc := loc } nc (by dsimp only; omega) wb
      have lc := low c { m2 with loc := loc } nc
      dsimp only at lc
      generalize c.exec endAddr { m2 with loc := loc } = m3 at *
      unfold MemChk.exchange at hx ⊢
      by_cases hq : m3.minSP = m1.minSP
      · rw [if_pos hq] at hx ⊢
        dsimp only at hx ⊢
        have wd := warn_calls endAddr he d { m3 with minSP := pos } nd (by dsimp only; omega) (fun h => by have := wc h; dsimp only at this ⊢; omega)
        have ld := low d { m3 with minSP := pos } nd
        dsimp only at ld
        rcases (Bool.or_eq_true _ _).mp hx with h | h
        · exact wd h
        · have := of_decide_eq_true h
          omega
      · rw [if_neg hq] at hx ⊢
        dsimp only at hx ⊢
        have wd := warn_calls endAddr he d m3 nd (by omega) wc
        have ld := low d m3 nd
        rcases (Bool.or_eq_true _ _).mp hx with h | h
        · exact wd h
        · have := of_decide_eq_true h
          omega
    · rw [if_neg hp] at hx ⊢
      have lc := low c m2 nc
      exact warn_calls endAddr he d _ nd (by omega) (warn_calls endAddr he c m2 nc (by omega) wb) hx
theorem warn_calls (endAddr : Nat) (he : endAddr < 65536) : ∀ (x : RecCalls) (m : MemChk), StacksNested x → m.minSP < 65536 →
    (m.warned = true → m.minSP < endAddr + 64) →
    (x.exec endAddr m).warned = true → (x.exec endAddr m).minSP < endAddr + 64
  | .nil, m, _, _, hw, hx => hw hx
  | .cons x t, m, hn, hm, hw, hx => by
    obtain ⟨n1, n2⟩ := hn
    unfold RecCalls.exec at hx ⊢
    have l1 : (x.exec endAddr m).minSP ≤ m.minSP := by rw [exec_lows endAddr x m n1]; exact lows_le _ _
    refine warn_calls endAddr he t _ n2 (by omega) ?_ hx
    intro h
    cases hq : m.warned with
    | false => exact warn_call endAddr he x m n1 hm hq h
    | true => have := hw hq; omega
end

/-- **C179** (partial, no false alarm): whatever the interrupts, if the warning is reported then the stack did come within 64 bytes of the variables. -/
theorem C179_no_false_alarm_partial (endAddr ramEnd : Nat) (he : endAddr < 65536) (hr : ramEnd < 65536) (calls : RecCalls) (hn : StacksNested calls) (l : Byte)
    (hw : (calls.exec endAddr ⟨ramEnd, l, false⟩).warned = true) :
    (calls.exec endAddr ⟨ramEnd, l, false⟩).minSP < endAddr + 64 :=
  warn_calls endAddr he calls _ hn hr (fun h => by cases h) hw

/-- **C179** (partial, when exactly): without interrupts among them, calls report the warning exactly if one of them lowers a mark that was already
within 64 bytes of the variables, and not below their end. -/
theorem C179_when_partial (endAddr : Nat) (he : endAddr + 64 ≤ 65536) : ∀ (l : List (Nat × Byte)) (m : MemChk), m.minSP < 65536 →
    (((plainCalls l).exec endAddr m).warned = true ↔
      m.warned = true ∨ ∃ pre p b post, l = pre ++ (p, b) :: post ∧
        p < ((plainCalls pre).exec endAddr m).minSP ∧ endAddr ≤ ((plainCalls pre).exec endAddr m).minSP ∧
        ((plainCalls pre).exec endAddr m).minSP < endAddr + 64)
  | [], m, _ => by
    constructor
    · intro h; exact Or.inl h
    · rintro (h | ⟨pre, p, b, post, e, _⟩)
      · exact h
      · cases pre <;> cases e
  | (p, b) :: t, m, hm => by
    rw [execs_plain]
    have ht : (if p < m.minSP then (⟨p, b, m.warned || decide ((m.minSP + 65536 - endAddr) % 65536 < 64)⟩ : MemChk) else m).minSP < 65536 := by
      by_cases hp : p < m.minSP
      · rw [if_pos hp]; dsimp only; omega
      · rw [if_neg hp]; exact hm
    rw [C179_when_partial endAddr he t _ ht]
    have hw : (if p < m.minSP then (⟨p, b, m.warned || decide ((m.minSP + 65536 - endAddr) % 65536 < 64)⟩ : MemChk) else m).warned = true ↔
        m.warned = true ∨ (p < m.minSP ∧ endAddr ≤ m.minSP ∧ m.minSP < endAddr + 64) := by
      by_cases hp : p < m.minSP
      · rw [if_pos hp]; dsimp only
        rw [Bool.or_eq_true, decide_eq_true_iff]
        constructor
        · rintro (h | h)
          · exact Or.inl h
          · exact Or.inr ⟨hp, by omega, by omega⟩
        · rintro (h | h)
          · exact Or.inl h
          · exact Or.inr (by omega)
      · rw [if_neg hp]
        constructor
        · exact Or.inl
        · rintro (h | h)
          · exact h
          · omega
    rw [hw]
    constructor
    · rintro ((h | h) | ⟨pre, p', b', post, e, h1, h2, h3⟩)
      · exact Or.inl h
      · exact Or.inr ⟨[], p, b, t, rfl, h.1, h.2.1, h.2.2⟩
      · exact Or.inr ⟨(p, b) :: pre, p', b', post, by rw [e]; rfl, by rw [execs_plain]; exact h1, by rw [execs_plain]; exact h2, by rw [execs_plain]; exact h3⟩
    · rintro (h | ⟨pre, p', b', post, e, h1, h2, h3⟩)
      · exact Or.inl (Or.inl h)
      · cases pre with
        | nil =>
          injection e with e1 e2
          injection e1 with e3 e4
          exact Or.inl (Or.inr ⟨by rw [e3]; exact h1, h2, h3⟩)
        | cons y pre =>
          injection e with e1 e2
          subst e1
          rw [execs_plain] at h1 h2 h3
          exact Or.inr ⟨pre, p', b', post, e2, h1, h2, h3⟩

example : ((plainCalls [(0x530, 1), (0x520, 2)]).exec 0x500 (MemChk.reset 0x8ff ⟨0, 0, false⟩)).warned = true := by decide +kernel

/-! ## C180: the check in the main loop -/

/-- **C180** For RAM ending below 0x8000, after any calls since start-up with any interrupts, `stackCheck` complains exactly if some position seen
is less than 64 bytes above the end of the variables, and resets the processor exactly if some position seen is at or below that end. -/
theorem C180_stack_check (endAddr ramEnd : Nat) (hr : ramEnd < 32768) (he : endAddr + 64 ≤ ramEnd) (calls : RecCalls) (hn : StacksNested calls) (m : MemChk) :
    (((calls.exec endAddr (m.reset ramEnd)).stackCheck endAddr).1 = true ↔ ∃ p ∈ callsPositions calls, p < endAddr + 64) ∧
    (((calls.exec endAddr (m.reset ramEnd)).stackCheck endAddr).2 = true ↔ ∃ p ∈ callsPositions calls, p ≤ endAddr) := by
  obtain ⟨h1, h2, h3⟩ := C178_low_water_mark endAddr calls (m.reset ramEnd) hn
  generalize calls.exec endAddr (m.reset ramEnd) = x at *
  have e0 : (m.reset ramEnd).minSP = ramEnd := rfl
  rw [e0] at h1 h3
  have hs : x.space endAddr = (x.minSP : Int) - endAddr := by
    unfold MemChk.space asInt16
    by_cases hc : endAddr ≤ x.minSP
    · rw [if_pos (by omega)]; omega
    · rw [if_neg (by omega)]; omega
  unfold MemChk.stackCheck
  dsimp only
  rw [hs, decide_eq_true_iff, decide_eq_true_iff]
  refine ⟨⟨?_, ?_⟩, ⟨?_, ?_⟩⟩
  · intro h
    rcases h3 with h3 | h3
    · omega
    · exact ⟨_, h3, by omega⟩
  · rintro ⟨p, hp, hlt⟩
    have := h2 p hp; omega
  · intro h
    rcases h3 with h3 | h3
    · omega
    · exact ⟨_, h3, by omega⟩
  · rintro ⟨p, hp, hlt⟩
    have := h2 p hp; omega

example : (((plainCalls [(0x7f0, 3), (0x4ff, 2)]).exec 0x500 (MemChk.reset 0x8ff ⟨0, 0, false⟩)).stackCheck 0x500) = (true, true) := by decide +kernel

/-! ## C181: profiling -/

/-- The numbers of calls of `i` in each completed period. -/
def periodCounts (i : Nat) : List CallEv → Nat → List Nat
  | [], _ => []
  | .called l :: t, k => periodCounts i t (if i = l then k + 1 else k)
  | .reset :: t, k => k :: periodCounts i t 0

/-- The table after the events. -/
def callTable (evs : List CallEv) : Nat → CallSlot := evs.foldl callStep (fun _ => CallSlot.init)

theorem callTable_gen (i : Nat) : ∀ (evs : List CallEv) (t : Nat → CallSlot) (k : Nat), (t i).cur = k % 256 → (∀ c ∈ periodCounts i evs k, c ≤ 255) →
    (((evs.foldl callStep t) i).max = (periodCounts i evs k).foldl Nat.max (t i).max) ∧
    (((evs.foldl callStep t) i).min = (periodCounts i evs k).foldl Nat.min (t i).min)
  | [], t, k, _, _ => ⟨rfl, rfl⟩
  | .called l :: r, t, k, hk, hc => by
    have key : (callStep t (.called l) i).cur = (if i = l then k + 1 else k) % 256 ∧ (callStep t (.called l) i).max = (t i).max ∧
        (callStep t (.called l) i).min = (t i).min := by
      show (if i = l then (t i).called else t i).cur = _ ∧ (if i = l then (t i).called else t i).max = _ ∧ (if i = l then (t i).called else t i).min = _
      by_cases h : i = l
      · rw [if_pos h, if_pos h]
        refine ⟨?_, rfl, rfl⟩
        show ((t i).cur + 1) % 256 = _
        omega
      · rw [if_neg h, if_neg h]; exact ⟨hk, rfl, rfl⟩
    have := callTable_gen i r (callStep t (.called l)) _ key.1 hc
    rw [key.2.1, key.2.2] at this
    exact this
  | .reset :: r, t, k, hk, hc => by
    have hk' : (t i).cur = k := by have := hc k (by unfold periodCounts; simp); omega
    have := callTable_gen i r (callStep t .reset) 0 rfl (fun c h => hc c (by unfold periodCounts; simp [h]))
    have e1 : (callStep t .reset i).max = Nat.max (t i).max k := by rw [← hk']; rfl
    have e2 : (callStep t .reset i).min = Nat.min (t i).min k := by rw [← hk']; rfl
    rw [e1, e2] at this
    exact this

theorem foldl_max (l : List Nat) : ∀ b, b ≤ l.foldl Nat.max b ∧ (∀ x ∈ l, x ≤ l.foldl Nat.max b) ∧ (l.foldl Nat.max b = b ∨ l.foldl Nat.max b ∈ l) := by
  induction l with
  | nil => intro b; exact ⟨Nat.le_refl _, fun x h => (List.not_mem_nil h).elim, Or.inl rfl⟩
  | cons y t ih =>
    intro b
    obtain ⟨h1, h2, h3⟩ := ih (Nat.max b y)
    have e : Nat.max b y = max b y := rfl
    rw [List.foldl_cons]
    generalize t.foldl Nat.max (Nat.max b y) = v at *
    refine ⟨by omega, ?_, ?_⟩
    · intro x hx
      rcases List.mem_cons.mp hx with rfl | hx
      · omega
      · exact h2 x hx
    · rcases h3 with h | h
      · by_cases hb : y ≤ b
        · left; omega
        · right; rw [show v = y by omega]; simp
      · right; exact List.mem_cons_of_mem _ h

/-- **C181** (calls): as long as no function is called more than 255 times between resets, the table's highest and lowest counts are the highest
and lowest over the completed periods (0 and 255 if there are none). -/
theorem C181_call_table (evs : List CallEv) (i : Nat) (hc : ∀ c ∈ periodCounts i evs 0, c ≤ 255) :
    (∀ c ∈ periodCounts i evs 0, (callTable evs i).min ≤ c ∧ c ≤ (callTable evs i).max) ∧
    (periodCounts i evs 0 = [] → (callTable evs i).max = 0 ∧ (callTable evs i).min = 255) ∧
    (periodCounts i evs 0 ≠ [] → (callTable evs i).max ∈ periodCounts i evs 0 ∧ (callTable evs i).min ∈ periodCounts i evs 0) := by
  obtain ⟨e1, e2⟩ := callTable_gen i evs (fun _ => CallSlot.init) 0 rfl hc
  have e2' : (callTable evs i).min = lows (periodCounts i evs 0) 255 := e2
  have e1' : (callTable evs i).max = (periodCounts i evs 0).foldl Nat.max 0 := e1
  rw [e1', e2']
  generalize periodCounts i evs 0 = l at *
  obtain ⟨_, m2, m3⟩ := foldl_max l 0
  refine ⟨fun c h => ⟨lows_mem _ _ c h, m2 c h⟩, fun h => by rw [h]; exact ⟨rfl, rfl⟩, fun h => ⟨?_, ?_⟩⟩
  · rcases m3 with m | m
    · obtain ⟨x, t, rfl⟩ : ∃ x t, l = x :: t := by cases l with
        | nil => exact absurd rfl h
        | cons x t => exact ⟨x, t, rfl⟩
      have := m2 x (by simp)
      rw [m] at this ⊢
      rw [show x = 0 by omega]; simp
    · exact m
  · rcases lows_is l 255 with m | m
    · obtain ⟨x, t, rfl⟩ : ∃ x t, l = x :: t := by cases l with
        | nil => exact absurd rfl h
        | cons x t => exact ⟨x, t, rfl⟩
      have h1 := lows_mem (x :: t) 255 x (by simp)
      have h2 := hc x (by simp)
      rw [m] at h1 ⊢
      rw [show x = 255 by omega]; simp
    · exact m

example : callTable [.called 1, .called 1, .reset, .called 2, .reset, .called 1, .reset, .called 1] 1 = ⟨1, 2, 0⟩ := by decide

/-- A function that is started and exits, at the given times, over and over. -/
def timed (calls : List (Nat × Nat)) (s : TimeSlot) : TimeSlot := calls.foldl (fun s c => (s.fnStart c.1).fnExit c.2) s

/-- **C181** (refuted for the times): one call that is under way when the sub-cycle clock wraps is the last one ever recorded. -/
theorem C181_longest_refuted : ∃ c : Nat × Nat, c.1 < 256 ∧ c.2 < 256 ∧ ∀ calls, timed (c :: calls) TimeSlot.init = ⟨calls.foldl (fun _ c => c.1) 250, 250, 10⟩ := by
  refine ⟨(250, 4), by decide, by decide, ?_⟩
  intro calls
  show timed calls ⟨250, 250, 10⟩ = _
  have key : ∀ (calls : List (Nat × Nat)) (x : Nat), timed calls ⟨x, 250, 10⟩ = ⟨calls.foldl (fun _ c => c.1) x, 250, 10⟩ := by
    intro calls
    induction calls with
    | nil => intro x; rfl
    | cons c t ih =>
      intro x
      exact ih c.1
  exact key calls 250

/-- **C181** (partial, times): if every call exits in the sub-cycle it started in, the entry is the first of the longest calls: its start and its length. -/
theorem C181_longest_partial (calls : List (Nat × Nat)) (h : ∀ c ∈ calls, c.1 ≤ c.2 ∧ c.2 < 256) :
    (∀ c ∈ calls, c.2 - c.1 ≤ (timed calls TimeSlot.init).dur) ∧
    ((timed calls TimeSlot.init).dur = 0 ∨
     ∃ pre c post, calls = pre ++ c :: post ∧ (timed calls TimeSlot.init).start = c.1 ∧ (timed calls TimeSlot.init).dur = c.2 - c.1 ∧
      ∀ c' ∈ pre, c'.2 - c'.1 < c.2 - c.1) := by
  have key : ∀ (calls : List (Nat × Nat)), (∀ c ∈ calls, c.1 ≤ c.2 ∧ c.2 < 256) → ∀ s : TimeSlot, s.start + s.dur ≤ 255 →
      (timed calls s).start + (timed calls s).dur ≤ 255 ∧
      s.dur ≤ (timed calls s).dur ∧ (∀ c ∈ calls, c.2 - c.1 ≤ (timed calls s).dur) ∧
      ((timed calls s).start = s.start ∧ (timed calls s).dur = s.dur ∨
       s.dur < (timed calls s).dur ∧ ∃ pre c post, calls = pre ++ c :: post ∧ (timed calls s).start = c.1 ∧ (timed calls s).dur = c.2 - c.1 ∧
        ∀ c' ∈ pre, c'.2 - c'.1 < c.2 - c.1) := by
    intro calls
    induction calls with
    | nil => intro _ s hs; exact ⟨hs, Nat.le_refl _, fun c h => (List.not_mem_nil h).elim, Or.inl ⟨rfl, rfl⟩⟩
    | cons c t ih =>
      intro h s hs
      have hc := h c (by simp)
      have e : timed (c :: t) s = timed t ((s.fnStart c.1).fnExit c.2) := rfl
      have e2 : (s.fnStart c.1).fnExit c.2 = if c.2 - c.1 > s.dur then ⟨c.1, c.1, c.2 - c.1⟩ else ⟨c.1, s.start, s.dur⟩ := by
        unfold TimeSlot.fnExit TimeSlot.fnStart
        dsimp only
        rw [if_neg (by omega), show (c.2 + 256 - c.1) % 256 = c.2 - c.1 by omega]
      rw [e, e2]
      by_cases hd : c.2 - c.1 > s.dur
      · rw [if_pos hd]
        obtain ⟨g1, g2, g3, g4⟩ := ih (fun c hc => h c (by simp [hc])) ⟨c.1, c.1, c.2 - c.1⟩ (by dsimp only; omega)
        generalize timed t ⟨c.1, c.1, c.2 - c.1⟩ = u at *
        dsimp only at g2 g4
        refine ⟨g1, by omega, ?_, Or.inr ⟨by omega, ?_⟩⟩
        · intro c' hc'
          rcases List.mem_cons.mp hc' with rfl | hc'
          · exact g2
          · exact g3 c' hc'
        · rcases g4 with ⟨a, b⟩ | ⟨a, pre, c', post, b1, b2, b3, b4⟩
          · exact ⟨[], c, t, rfl, a, b, fun c' h => (List.not_mem_nil h).elim⟩
          · refine ⟨c :: pre, c', post, by rw [b1]; rfl, b2, b3, ?_⟩
            intro x hx
            rcases List.mem_cons.mp hx with rfl | hx
            · omega
            · exact b4 x hx
      · rw [if_neg hd]
        obtain ⟨g1, g2, g3, g4⟩ := ih (fun c hc => h c (by simp [hc])) ⟨c.1, s.start, s.dur⟩ hs
        generalize timed t ⟨c.1, s.start, s.dur⟩ = u at *
        dsimp only at g2 g4
        refine ⟨g1, g2, ?_, ?_⟩
        · intro c' hc'
          rcases List.mem_cons.mp hc' with rfl | hc'
          · omega
          · exact g3 c' hc'
        · rcases g4 with g4 | ⟨a, pre, c', post, b1, b2, b3, b4⟩
          · exact Or.inl g4
          · refine Or.inr ⟨a, c :: pre, c', post, by rw [b1]; rfl, b2, b3, ?_⟩
            intro x hx
            rcases List.mem_cons.mp hx with rfl | hx
            · omega
            · exact b4 x hx
  obtain ⟨_, _, h3, h4⟩ := key calls h TimeSlot.init (by decide)
  refine ⟨h3, ?_⟩
  rcases h4 with ⟨_, b⟩ | ⟨_, g⟩
  · exact Or.inl b
  · exact Or.inr g

example : timed [(10, 20), (100, 130), (5, 35)] TimeSlot.init = ⟨5, 100, 30⟩ := by decide

/-! ## C182: the setback lockout -/

/-- `n` days pass. -/
def lockoutDays (split : Bool) : Nat → EE → EE
  | 0, m => m
  | n + 1, m => lockoutDays split n ((countDownSetbackLockout split).post m)

theorem countDown_post (split : Bool) (m : EE) :
    (countDownSetbackLockout split).post m = m.upd 32 (~~~ (u8 (getSetbackLockout m - 1))) := by
  unfold EM.post countDownSetbackLockout
  have e : ∀ c : Byte, c ≠ 0xff → ~~~ ((~~~ c) - 1) = ~~~ (u8 ((~~~ c).toNat - 1)) := by apply forall_byte; decide +kernel
  by_cases h : m 32 ≠ 0xff
  · rw [if_pos h, smartUpdate_eq]
    dsimp only
    rw [applyW_wr1, e _ h]; rfl
  · rw [if_neg h]
    have h' : m 32 = 0xff := Classical.not_not.mp h
    dsimp only
    rw [applyW_nil, EE.upd_eq_self]
    unfold getSetbackLockout
    rw [h']; decide

theorem lockout_upd (m : EE) (n : Nat) (h : n ≤ 255) : getSetbackLockout (m.upd 32 (~~~ (u8 n))) = n := by
  unfold getSetbackLockout
  rw [EE.upd_same]
  have e : ∀ c : Byte, (~~~ (~~~ c)).toNat = c.toNat := by apply forall_byte; decide +kernel
  rw [e]
  unfold u8
  simp
  omega

/-- **C182** A lockout of `n` days is over after exactly `n` countdowns and stays over; nothing else in the EEPROM changes. -/
theorem C182_days (split : Bool) : ∀ (k : Nat) (m : EE),
    getSetbackLockout (lockoutDays split k m) = getSetbackLockout m - k ∧ ∀ a, a ≠ 32 → lockoutDays split k m a = m a
  | 0, m => ⟨rfl, fun a _ => rfl⟩
  | k + 1, m => by
    obtain ⟨h1, h2⟩ := C182_days split k ((countDownSetbackLockout split).post m)
    have hl : getSetbackLockout m ≤ 255 := by unfold getSetbackLockout; have := (~~~ (m 32)).toNat_lt; omega
    rw [countDown_post] at h1 h2
    rw [lockout_upd _ _ (by omega)] at h1
    constructor
    · unfold lockoutDays; rw [countDown_post, h1]; omega
    · intro a ha
      unfold lockoutDays
      rw [countDown_post, h2 a ha, EE.upd_other _ _ ha]

/-- **C182** (power failure): a countdown interrupted by a power failure has happened or has not. -/
theorem C182_power_failure (split : Bool) (m : EE) (k : Nat) :
    applyW m (((countDownSetbackLockout split) m).2.take k) = m ∨
    applyW m (((countDownSetbackLockout split) m).2.take k) = (countDownSetbackLockout split).post m := by
  unfold EM.post countDownSetbackLockout
  by_cases h : m 32 ≠ 0xff
  · rw [if_pos h, smartUpdate_eq]
    unfold wr1
    dsimp only
    split
    · left; rw [List.take_nil]; rfl
    · cases k with
      | zero => left; rfl
      | succ k => right; rw [List.take_succ_cons, List.take_nil]
  · rw [if_neg h]; left; rw [List.take_nil]; rfl

/-- **C182** (setting it): an erased EEPROM has no lockout; "G 0 v" sets a lockout of 255 - v days. -/
theorem C182_set (buf : Bytes) (h0 : ∀ c ∈ buf, c ≠ 0) (v : Bytes) (ws : List Bytes) (x : Nat) (hx : x ≤ 255) (hv : DecWord v x) (w : Bytes)
    (hw : DecWord w 0) (hb : IsWords (buf.drop 2) (w :: v :: ws)) (m : EE) :
    getSetbackLockout (cliParam buf m) = 255 - x ∧ (m 32 = 0xff → getSetbackLockout m = 0) := by
  have e : ∀ c : Byte, (~~~ c).toNat = 255 - c.toNat := by apply forall_byte; decide +kernel
  constructor
  · have h := (C124_set_param buf h0 w v ws 0 x hw (by omega) hx hv m).1 hb 32
    rw [if_pos rfl] at h
    unfold getSetbackLockout
    rw [h, e]
    unfold u8
    simp
    omega
  · intro h
    unfold getSetbackLockout
    rw [h]; decide

/-- **C182** (effect): while the lockout lasts, a valve in WARM mode that is not in BAKE is held at the WARM temperature, whatever the room's occupancy,
light and history. -/
theorem C182_effect (p : VCP) (x : TTIn) (m : EE) (split : Bool) (n : Nat) (hl : x.lockout = decide (getSetbackLockout (lockoutDays split n m) ≠ 0))
    (hn : n < getSetbackLockout m) (hw : x.mode.warm = true) (hb : x.mode.inBake = false) : computeTarget p x = x.warmC := by
  have h1 := (C182_days split n m).1
  unfold computeTarget
  rw [hw, hb, hl, decide_eq_true (by omega)]
  simp

example : getSetbackLockout (lockoutDays true 3 (fun _ => 0xfa)) = 2 ∧ getSetbackLockout (lockoutDays true 9 (fun _ => 0xfa)) = 0 := by decide +kernel

end OTR.Props
