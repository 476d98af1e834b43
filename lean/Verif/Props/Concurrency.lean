import Verif.Model.Concurrency
/-!
# Property C145: the shared byte with weak increments and decrements
-/

namespace OTR.Props
open OTR

/-! ## Specification -/

/-- The saturating result of the two calls. -/
def satOp : WOp → Nat → Nat
  | .inc, n => if n = 255 then 255 else n + 1
  | .dec, n => n - 1

/-- The event is somebody's exchange that takes effect, for a call of the given kind. -/
def tookEffect (k : WOp) (s : Shared) : ShEv → Bool
  | .xchg t => match s.pend t with
    | some (op, o, _) => decide (op = k ∧ s.v = o)
    | none => false
  | _ => false

/-- How many calls of a kind take effect in a history (oldest event first). -/
def effects (k : WOp) : Shared → List ShEv → Nat
  | _, [] => 0
  | s, e :: es => (if tookEffect k s e then 1 else 0) + effects k (s.step e) es

def sharedRun (s : Shared) (es : List ShEv) : Shared := es.foldl Shared.step s

def isStore : ShEv → Bool
  | .store _ => true
  | _ => false

def byThread (t : Nat) : ShEv → Bool
  | .load u _ => u == t
  | .xchg u => u == t
  | .store _ => false

/-- A state the program can be in: any history from a byte nobody is in a call on. -/
def SharedReach (s : Shared) : Prop := ∃ v es, s = sharedRun ⟨v, fun _ => none⟩ es

/-! ## Proofs -/

theorem want_spec {op : WOp} {o w : Byte} (h : op.want o = some w) :
    w.toNat = satOp op o.toNat ∧ (op = .inc → w.toNat = o.toNat + 1) ∧ (op = .dec → w.toNat + 1 = o.toNat) := by
  have hb := byte_lt o
  cases op
  · simp only [WOp.want] at h
    split at h
    · cases h
    · next hne =>
      have : o.toNat ≠ 255 := fun hc => hne (UInt8.toNat_inj.1 (by rw [hc]; rfl))
      have e : w = o + 1 := (Option.some.inj h).symm
      have e2 : w.toNat = o.toNat + 1 := by rw [e, UInt8.toNat_add]; simp; omega
      refine ⟨?_, fun _ => e2, fun h => by cases h⟩
      unfold satOp; simp only; rw [if_neg this]; exact e2
  · simp only [WOp.want] at h
    split at h
    · cases h
    · next hne =>
      have : o.toNat ≠ 0 := fun hc => hne (UInt8.toNat_inj.1 (by rw [hc]; rfl))
      have e : w = o - 1 := (Option.some.inj h).symm
      have e2 : w.toNat + 1 = o.toNat := by rw [e, UInt8.toNat_sub]; simp; omega
      refine ⟨?_, (fun h => by cases h), fun _ => e2⟩
      unfold satOp; simp only; omega

def PendOk (s : Shared) : Prop := ∀ t op o w, s.pend t = some (op, o, w) → op.want o = some w

theorem pendOk_step {s : Shared} (h : PendOk s) (e : ShEv) : PendOk (s.step e) := by
  intro t op o w hp
  cases e with
  | load u k =>
    simp only [Shared.step] at hp
    by_cases hu : t = u
    · rw [if_pos hu] at hp
      cases hk : k.want s.v with
      | none => rw [hk] at hp; cases hp
      | some x =>
        rw [hk] at hp; simp only [Option.map_some, Option.some.injEq, Prod.mk.injEq] at hp
        obtain ⟨rfl, rfl, rfl⟩ := hp; exact hk
    · rw [if_neg hu] at hp; exact h _ _ _ _ hp
  | xchg u =>
    simp only [Shared.step] at hp
    split at hp
    · exact h _ _ _ _ hp
    · dsimp only at hp
      by_cases hu : t = u
      · rw [if_pos hu] at hp; cases hp
      · rw [if_neg hu] at hp; exact h _ _ _ _ hp
  | store d => exact h _ _ _ _ hp

theorem pendOk_run {s : Shared} (h : PendOk s) (es : List ShEv) : PendOk (sharedRun s es) := by
  induction es generalizing s with
  | nil => exact h
  | cons e es ih => exact ih (pendOk_step h e)

theorem pendOk_reach {s : Shared} (h : SharedReach s) : PendOk s := by
  obtain ⟨v, es, rfl⟩ := h
  exact pendOk_run (fun t op o w hp => by cases hp) es

/-- The value after an exchange. -/
theorem xchg_v (s : Shared) (t : Nat) {op : WOp} {o w : Byte} (h : s.pend t = some (op, o, w)) :
    (s.step (.xchg t)).v = if s.v = o then w else s.v := by
  simp only [Shared.step, h, cas]; split <;> rfl

/-- One event other than a store: the value moves as counted. -/
theorem step_count {s : Shared} (h : PendOk s) (e : ShEv) (hs : isStore e = false) :
    (s.step e).v.toNat + (if tookEffect .dec s e then 1 else 0) = s.v.toNat + (if tookEffect .inc s e then 1 else 0) := by
  cases e with
  | load t o => simp [Shared.step, tookEffect]
  | store d => cases hs
  | xchg t =>
    cases hp : s.pend t with
    | none => simp [Shared.step, hp, tookEffect]
    | some p =>
      obtain ⟨op, o, w⟩ := p
      have hw := want_spec (h _ _ _ _ hp)
      rw [xchg_v s t hp]
      by_cases hv : s.v = o
      · rw [if_pos hv]
        cases op
        · have := hw.2.1 rfl
          simp [tookEffect, hp, hv]; omega
        · have := hw.2.2 rfl
          simp [tookEffect, hp, hv]; omega
      · rw [if_neg hv]; simp [tookEffect, hp, hv]

/-- Whatever threads do, in whatever order their loads and exchanges fall, in a stretch without plain stores the byte ends at
its start plus the increments that took effect minus the decrements that did: nothing is lost or made up, and it does not
wrap. -/
theorem C145_accounting {s : Shared} (hr : SharedReach s) (es : List ShEv) (hs : ∀ e ∈ es, isStore e = false) :
    (sharedRun s es).v.toNat + effects .dec s es = s.v.toNat + effects .inc s es := by
  have key : ∀ (es : List ShEv) (s : Shared), PendOk s → (∀ e ∈ es, isStore e = false) →
      (sharedRun s es).v.toNat + effects .dec s es = s.v.toNat + effects .inc s es := by
    intro es
    induction es with
    | nil => intro s _ _; rfl
    | cons e es ih =>
      intro s h hs
      have h1 := step_count h e (hs e List.mem_cons_self)
      have h2 := ih (s.step e) (pendOk_step h e) (fun x hx => hs x (List.mem_cons_of_mem _ hx))
      have h3 : sharedRun s (e :: es) = sharedRun (s.step e) es := rfl
      rw [h3]; simp only [effects]; omega
  exact key es s (pendOk_reach hr) hs

/-- No event of a call makes the byte wrap: it moves by at most one, as a number. -/
theorem C145_never_wraps {s : Shared} (hr : SharedReach s) (e : ShEv) (hs : isStore e = false) :
    (s.step e).v.toNat ≤ s.v.toNat + 1 ∧ s.v.toNat ≤ (s.step e).v.toNat + 1 := by
  have := step_count (pendOk_reach hr) e hs
  constructor
  · split at this <;> split at this <;> omega
  · split at this <;> split at this <;> omega

theorem pend_of_others (t : Nat) (mid : List ShEv) (h : ∀ e ∈ mid, byThread t e = false) (s : Shared) :
    (sharedRun s mid).pend t = s.pend t := by
  induction mid generalizing s with
  | nil => rfl
  | cons e es ih =>
    show (sharedRun (s.step e) es).pend t = _
    rw [ih (fun x hx => h x (List.mem_cons_of_mem _ hx))]
    have he := h e List.mem_cons_self
    cases e with
    | load u o =>
      simp only [byThread, beq_eq_false_iff_ne] at he
      simp only [Shared.step]; rw [if_neg (Ne.symm he)]
    | xchg u =>
      simp only [byThread, beq_eq_false_iff_ne] at he
      simp only [Shared.step]; split
      · rfl
      · dsimp only; rw [if_neg (Ne.symm he)]
    | store d => rfl

/-- A call during which the byte ends up where the call found it works as it should: it saturates. In particular a call with
nobody else about. -/
theorem C145_uncontended (s : Shared) (t : Nat) (op : WOp) (mid : List ShEv) (h : ∀ e ∈ mid, byThread t e = false)
    (hv : (sharedRun (s.step (.load t op)) mid).v = s.v) :
    (sharedRun s (.load t op :: mid ++ [.xchg t])).v.toNat = satOp op s.v.toNat := by
  have e1 : sharedRun s (.load t op :: mid ++ [.xchg t]) = (sharedRun (s.step (.load t op)) mid).step (.xchg t) := by
    unfold sharedRun; rw [List.cons_append, List.foldl_cons, List.foldl_append]; rfl
  rw [e1]
  have hp := pend_of_others t mid h (s.step (.load t op))
  have hp2 : (s.step (.load t op)).pend t = (op.want s.v).map (fun w => (op, s.v, w)) := by simp [Shared.step]
  rw [hp2] at hp
  cases hw : op.want s.v with
  | none =>
    rw [hw] at hp
    have : ((sharedRun (s.step (.load t op)) mid).step (.xchg t)).v = s.v := by
      generalize sharedRun (s.step (.load t op)) mid = s2 at hp hv
      simp only [Shared.step, hp, Option.map_none]; exact hv
    rw [this]
    cases op
    · simp only [WOp.want] at hw
      split at hw
      · next h0 => rw [h0]; rfl
      · cases hw
    · simp only [WOp.want] at hw
      split at hw
      · next h0 => rw [h0]; rfl
      · cases hw
  | some w =>
    rw [hw] at hp
    rw [xchg_v _ t hp, if_pos hv]
    exact (want_spec hw).1

theorem effect_exists : ∀ (es : List ShEv) (s : Shared), (∀ e ∈ es, isStore e = false) → PendOk s →
    (sharedRun s es).v ≠ s.v → 0 < effects .inc s es + effects .dec s es
  | [], s, _, _, h => absurd rfl h
  | e :: es, s, hs, hp, h => by
    by_cases he : (s.step e).v = s.v
    · have := effect_exists es (s.step e) (fun x hx => hs x (List.mem_cons_of_mem _ hx)) (pendOk_step hp e)
        (by rw [he]; exact h)
      simp only [effects]; omega
    · have := step_count hp e (hs e List.mem_cons_self)
      have hne : (s.step e).v.toNat ≠ s.v.toNat := fun hc => he (UInt8.toNat_inj.1 hc)
      simp only [effects]
      split at this <;> split at this <;> first | omega | (simp_all; done) | (simp_all; omega)

/-- A call that should move the byte and does not was beaten: somebody else changed the byte between its load and its
exchange. With calls only (no stores), that was another call taking effect: one of the contenders always gets through. -/
theorem C145_failure_means_progress {s : Shared} (hr : SharedReach s) (t : Nat) (op : WOp) (mid : List ShEv)
    (h : ∀ e ∈ mid, byThread t e = false) (hs : ∀ e ∈ mid, isStore e = false) (hroom : satOp op s.v.toNat ≠ s.v.toNat)
    (hfail : (sharedRun s (.load t op :: mid ++ [.xchg t])).v = (sharedRun s (.load t op :: mid)).v) :
    0 < effects .inc s (.load t op :: mid) + effects .dec s (.load t op :: mid) := by
  have hp := pendOk_reach hr
  have hne : (sharedRun (s.step (.load t op)) mid).v ≠ s.v := by
    intro hv
    have := C145_uncontended s t op mid h hv
    rw [hfail] at this
    have e : (sharedRun s (.load t op :: mid)).v = s.v := hv
    rw [e] at this; exact hroom this.symm
  have := effect_exists mid (s.step (.load t op)) hs (pendOk_step hp _) hne
  simp only [effects]; omega

/-- Two threads: the first loads 5, the second increments, the first's exchange fails; the byte is 6 and one call counted. -/
example : let s : Shared := ⟨5, fun _ => none⟩
    let es : List ShEv := [.load 1 .inc, .load 2 .inc, .xchg 2, .xchg 1]
    (sharedRun s es).v = 6 ∧ effects .inc s es = 1 ∧ effects .dec s es = 0 := by decide +kernel

/-- At the ends nothing happens. -/
example : let s : Shared := ⟨255, fun _ => none⟩
    (sharedRun s [.load 1 .inc, .xchg 1]).v = 255 := by decide +kernel

/-! ## The exchange on AVR -/

/-- What happens next on the machine: an instruction of the main line, or an interrupt that stores. -/
inductive AvrEv where
  | main
  | isr (x : Byte)

def machRun (o w : Byte) (m : Mach) : List AvrEv → Mach
  | [] => m
  | .main :: es => (machRun o w m es).main o w
  | .isr x :: es => (machRun o w m es).isr x

/-- The stores of interrupts in a history (newest first), oldest first. -/
def isrStores : List AvrEv → List Byte
  | [] => []
  | .main :: es => isrStores es
  | .isr x :: es => isrStores es ++ [x]

/-- The invariant behind the theorem below. -/
def AvrInv (o w v0 : Byte) (ie0 : Bool) (before after : List Byte) (m : Mach) : Prop :=
  match m.pc with
  | .start => m.ie = ie0 ∧ after = [] ∧ m.v = before.getLastD v0
  | .saved => m.ie = ie0 ∧ m.sv = ie0 ∧ after = [] ∧ m.v = before.getLastD v0
  | .off => m.ie = false ∧ m.sv = ie0 ∧ after = [] ∧ m.v = before.getLastD v0
  | .eq => m.ie = false ∧ m.sv = ie0 ∧ after = [] ∧ m.v = before.getLastD v0 ∧ m.v = o
  | .exit => m.ie = false ∧ m.sv = ie0 ∧ after = [] ∧ m.v = (cas (before.getLastD v0) o w).1
  | .done => m.ie = ie0 ∧ m.v = after.getLastD (cas (before.getLastD v0) o w).1

/-- The exchange, made of single instructions with interrupts between them wherever they are enabled, is atomic: the outcome is
that of some interrupts, then the whole exchange, then some interrupts; and the interrupt flag is as it was. With interrupts off at
the start (inside another critical section) none gets in, and they are still off. The history is newest first. -/
theorem C145_exchange_atomic (o w v0 : Byte) (ie0 sv0 : Bool) (es : List AvrEv)
    (hd : (machRun o w ⟨v0, ie0, sv0, .start⟩ es).pc = .done) :
    (machRun o w ⟨v0, ie0, sv0, .start⟩ es).ie = ie0 ∧
    ∃ before after : List Byte, (before ++ after).Sublist (isrStores es) ∧
      (machRun o w ⟨v0, ie0, sv0, .start⟩ es).v = after.getLastD (cas (before.getLastD v0) o w).1 ∧
      (ie0 = false → before = [] ∧ after = []) := by
  have inv : ∀ es : List AvrEv, ∃ before after : List Byte, (before ++ after).Sublist (isrStores es) ∧ (ie0 = false → before = [] ∧ after = []) ∧
      AvrInv o w v0 ie0 before after (machRun o w ⟨v0, ie0, sv0, .start⟩ es) := by
    intro es
    induction es with
    | nil => exact ⟨[], [], List.Sublist.slnil, fun _ => ⟨rfl, rfl⟩, rfl, rfl, rfl⟩
    | cons e es ih =>
      obtain ⟨before, after, hsub, hoff, hm⟩ := ih
      generalize hmm : machRun o w ⟨v0, ie0, sv0, .start⟩ es = m at hm
      obtain ⟨v, ie, sv, pc⟩ := m
      cases e with
      | main =>
        refine ⟨before, after, hsub, hoff, ?_⟩
        have hrun : machRun o w ⟨v0, ie0, sv0, .start⟩ (.main :: es) = (Mach.mk v ie sv pc).main o w := by
          show (machRun o w ⟨v0, ie0, sv0, .start⟩ es).main o w = _; rw [hmm]
        rw [hrun]
        cases pc
        · obtain ⟨h1, h2, h3⟩ := hm; exact ⟨h1, h1, h2, h3⟩
        · obtain ⟨h1, h2, h3, h4⟩ := hm; exact ⟨rfl, h2, h3, h4⟩
        · obtain ⟨h1, h2, h3, h4⟩ := hm
          simp only at h1 h2 h3 h4
          by_cases hv : v = o
          · simp only [Mach.main, if_pos hv, AvrInv]; exact ⟨h1, h2, h3, h4, hv⟩
          · simp only [Mach.main, if_neg hv, AvrInv]
            refine ⟨h1, h2, h3, ?_⟩
            unfold cas; rw [← h4, if_neg hv]
        · obtain ⟨h1, h2, h3, h4, h5⟩ := hm
          simp only at h1 h2 h3 h4 h5
          simp only [Mach.main, AvrInv]
          refine ⟨h1, h2, h3, ?_⟩
          unfold cas; rw [← h4, if_pos h5]
        · obtain ⟨h1, h2, h3, h4⟩ := hm
          simp only [Mach.main, AvrInv]
          refine ⟨h2, ?_⟩
          rw [h3]; exact h4
        · exact hm
      | isr x =>
        have hrun : machRun o w ⟨v0, ie0, sv0, .start⟩ (.isr x :: es) = (Mach.mk v ie sv pc).isr x := by
          show (machRun o w ⟨v0, ie0, sv0, .start⟩ es).isr x = _; rw [hmm]
        have skip : (before ++ after).Sublist (isrStores es ++ [x]) := hsub.trans (List.sublist_append_left _ _)
        by_cases hie : ie = true
        · have hr2 : (Mach.mk v ie sv pc).isr x = Mach.mk x ie sv pc := by unfold Mach.isr; rw [if_pos hie]
          cases pc
          · obtain ⟨h1, h2, h3⟩ := hm
            simp only at h1 h2 h3
            subst h2
            refine ⟨before ++ [x], [], ?_, ?_, ?_⟩
            · rw [List.append_nil] at *; exact hsub.append (List.Sublist.refl _)
            · intro hf; rw [← h1, hie] at hf; cases hf
            · rw [hrun, hr2]; exact ⟨h1, rfl, by simp⟩
          · obtain ⟨h1, h2, h3, h4⟩ := hm
            simp only at h1 h2 h3 h4
            subst h3
            refine ⟨before ++ [x], [], ?_, ?_, ?_⟩
            · rw [List.append_nil] at *; exact hsub.append (List.Sublist.refl _)
            · intro hf; rw [← h1, hie] at hf; cases hf
            · rw [hrun, hr2]; exact ⟨h1, h2, rfl, by simp⟩
          · obtain ⟨h1, _⟩ := hm; simp only at h1; rw [h1] at hie; cases hie
          · obtain ⟨h1, _⟩ := hm; simp only at h1; rw [h1] at hie; cases hie
          · obtain ⟨h1, _⟩ := hm; simp only at h1; rw [h1] at hie; cases hie
          · obtain ⟨h1, h2⟩ := hm
            simp only at h1 h2
            refine ⟨before, after ++ [x], ?_, ?_, ?_⟩
            · rw [← List.append_assoc]; exact hsub.append (List.Sublist.refl _)
            · intro hf; rw [← h1, hie] at hf; cases hf
            · rw [hrun, hr2]; exact ⟨h1, by simp⟩
        · have hr2 : (Mach.mk v ie sv pc).isr x = Mach.mk v ie sv pc := by unfold Mach.isr; rw [if_neg hie]
          refine ⟨before, after, skip, hoff, ?_⟩
          rw [hrun, hr2]; exact hm
  obtain ⟨before, after, hsub, hoff, hm⟩ := inv es
  unfold AvrInv at hm
  rw [hd] at hm
  dsimp only at hm
  exact ⟨hm.1, before, after, hsub, hm.2, hoff⟩

/-- It does get done, and an interrupt before it and one after it are both seen. -/
example : let m := machRun 7 8 ⟨5, true, false, .start⟩ [.isr 9, .main, .main, .main, .isr 3, .main, .isr 7, .main]
    m.pc = .done ∧ m.v = 9 ∧ m.ie = true := by decide +kernel

end OTR.Props
