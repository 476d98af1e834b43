import Verif.Model.Watchdog
/-!
# C219–C221: watchdogs, naps and forced resets
-/

namespace OTR.Props
open OTR

theorem snocRec {α : Type} {motive : List α → Prop} (l : List α) (nil : motive []) (append_singleton : ∀ l a, motive l → motive (l ++ [a])) : motive l := by
  have h : ∀ r : List α, motive r.reverse := by
    intro r
    induction r with
    | nil => exact nil
    | cons a r ih => rw [List.reverse_cons]; exact append_singleton _ _ ih
  have := h l.reverse
  rwa [List.reverse_reverse] at this

/-! ## C219: the RTC watchdog -/

/-- Whether the watchdog is enabled after a history: what the last `enableRTCWatchdog()` said. -/
def enabledAfter : List RWdEv → Bool
  | [] => false
  | es => (es.filterMap fun e => match e with | .enable b => some b | _ => none).getLast?.getD false

/-- The watchdog was enabled at some tick of the history, and has not been fed since. -/
def UnfedTick (es : List RWdEv) : Prop := ∃ a b, es = a ++ .tick :: b ∧ enabledAfter a = true ∧ .feed ∉ b

/-- At start-up, the clock reading `c`. -/
def rwd0 (c : RTC) : RWd := ⟨c, false, false⟩

theorem enabledAfter_nil : enabledAfter [] = false := rfl

theorem enabledAfter_snoc (es : List RWdEv) (e : RWdEv) : enabledAfter (es ++ [e]) = match e with | .enable b => b | _ => enabledAfter es := by
  have h : ∀ l : List RWdEv, enabledAfter l = (l.filterMap fun e => match e with | .enable b => some b | _ => none).getLast?.getD false := by
    intro l; cases l <;> rfl
  rw [h, h]
  cases e <;> simp

theorem rwd_run_snoc (es : List RWdEv) (e : RWdEv) : ∀ s : RWd, s.run (es ++ [e]) = match s.run es with
    | none => none
    | some t => if (t.step e).2 then none else some (t.step e).1 := by
  induction es with
  | nil => intro s; simp [RWd.run]
  | cons x xs ih =>
    intro s
    simp only [List.cons_append, RWd.run]
    by_cases hx : (s.step x).2 = true
    · simp [hx]
    · simp only [hx, Bool.false_eq_true, if_false]
      exact ih _

/-- What the state says about the history. -/
theorem rwd_state (c : RTC) (es : List RWdEv) (s : RWd) (h : (rwd0 c).run es = some s) :
    s.enabled = enabledAfter es ∧ (s.notCalled = true ↔ UnfedTick es) := by
  induction es using snocRec generalizing s with
  | nil =>
    cases h
    refine ⟨rfl, ⟨fun h => (by cases h), ?_⟩⟩
    rintro ⟨a, b, h, _⟩
    cases a <;> cases h
  | append_singleton es e ih =>
    rw [rwd_run_snoc] at h
    cases hr : (rwd0 c).run es with
    | none => rw [hr] at h; cases h
    | some t =>
      rw [hr] at h
      dsimp only at h
      obtain ⟨h1, h2⟩ := ih t hr
      by_cases hx : (t.step e).2 = true
      · rw [if_pos hx] at h; cases h
      · rw [if_neg hx] at h
        cases h
        rw [enabledAfter_snoc]
        have keep : ∀ e : RWdEv, e ≠ .feed → (e = .tick → enabledAfter es = false) → (UnfedTick (es ++ [e]) ↔ UnfedTick es) := by
          intro e h3 h4
          constructor
          · rintro ⟨a, b, he, ha, hb⟩
            cases b using snocRec with
            | nil =>
              have := List.append_inj' he rfl
              obtain ⟨e1, e2⟩ := this
              cases e2
              subst e1
              rw [h4 rfl] at ha
              cases ha
            | append_singleton b x =>
              have he' : es ++ [e] = (a ++ .tick :: b) ++ [x] := by rw [he]; simp
              have := List.append_inj' he' rfl
              obtain ⟨e1, _⟩ := this
              exact ⟨a, b, e1, ha, fun hm => hb (by simp [hm])⟩
          · rintro ⟨a, b, he, ha, hb⟩
            exact ⟨a, b ++ [e], by rw [he]; simp, ha, by simp [hb, Ne.symm h3]⟩
        cases e with
        | tick =>
          dsimp only
          unfold RWd.step at hx ⊢
          dsimp only at hx ⊢
          by_cases he : t.enabled = true
          · rw [if_pos he] at hx ⊢
            by_cases hn : t.notCalled = true
            · rw [if_pos hn] at hx; exact absurd rfl hx
            · rw [if_neg hn]
              exact ⟨h1, fun _ => ⟨es, [], rfl, h1 ▸ he, by simp⟩, fun _ => rfl⟩
          · rw [if_neg he]
            have : enabledAfter es = false := by rw [← h1]; simpa using he
            exact ⟨h1, h2.trans (keep .tick (by simp) (fun _ => this)).symm⟩
        | feed =>
          refine ⟨h1, ⟨fun h => (by cases h), ?_⟩⟩
          rintro ⟨a, b, he, ha, hb⟩
          exfalso
          cases b using snocRec with
          | nil =>
            have := List.append_inj' he rfl
            cases this.2
          | append_singleton b x =>
            have he' : es ++ [.feed] = (a ++ .tick :: b) ++ [x] := by rw [he]; simp
            have := (List.append_inj' he' rfl).2
            cases this
            exact hb (by simp)
        | enable b => exact ⟨rfl, h2.trans (keep (.enable b) (by simp) (by simp)).symm⟩

/-- **C219** A tick forces a reset exactly if the watchdog is enabled, and since an earlier tick at which it was enabled it has not been fed. -/
theorem C219_reset_iff (c : RTC) (es : List RWdEv) (s : RWd) (h : (rwd0 c).run es = some s) :
    (s.step .tick).2 = true ↔ enabledAfter es = true ∧ UnfedTick es := by
  obtain ⟨h1, h2⟩ := rwd_state c es s h
  rw [← h1, ← h2]
  unfold RWd.step
  cases s.enabled <;> cases s.notCalled <;> simp

/-- Nothing else forces one. -/
theorem C219_only_ticks (s : RWd) (e : RWdEv) (h : (s.step e).2 = true) : e = .tick := by
  cases e with
  | tick => rfl
  | feed => cases h
  | enable => cases h

/-- **C219** A main loop that hangs is reset: whatever happened before, if the watchdog is enabled and from now on neither fed nor disabled, the second tick at the latest forces a reset. -/
theorem C219_hang_is_reset (s : RWd) (hs : s.enabled = true) (es : List RWdEv) (hf : .feed ∉ es) (hd : .enable false ∉ es) (ht : 2 ≤ es.count .tick) : s.run es = none := by
  have one : ∀ (es : List RWdEv) (s : RWd), s.enabled = true → s.notCalled = true → .feed ∉ es → .enable false ∉ es → 1 ≤ es.count .tick → s.run es = none := by
    intro es
    induction es with
    | nil => intro s _ _ _ _ h; simp at h
    | cons e es ih =>
      intro s he hn hf hd ht
      simp only [List.mem_cons, not_or] at hf hd
      cases e with
      | tick => simp [RWd.run, RWd.step, he, hn]
      | feed => exact absurd rfl hf.1
      | enable b =>
        cases b with
        | false => exact absurd rfl hd.1
        | true =>
          simp only [RWd.run, RWd.step, Bool.false_eq_true, if_false]
          exact ih _ rfl hn hf.2 hd.2 (by simpa using ht)
  induction es generalizing s with
  | nil => simp at ht
  | cons e es ih =>
    simp only [List.mem_cons, not_or] at hf hd
    cases e with
    | tick =>
      by_cases hn : s.notCalled = true
      · simp [RWd.run, RWd.step, hs, hn]
      · simp only [RWd.run, RWd.step, hs, hn, if_true, if_false, Bool.false_eq_true]
        exact one es _ rfl rfl hf.2 hd.2 (by simpa using ht)
    | feed => exact absurd rfl hf.1
    | enable b =>
      cases b with
      | false => exact absurd rfl hd.1
      | true =>
        simp only [RWd.run, RWd.step, Bool.false_eq_true, if_false]
        exact ih _ rfl hf.2 hd.2 (by simpa using ht)

/-- **C219** A loop that does what the documentation asks is not: with a call of `resetRTCWatchDog()` between any two ticks (whatever else is called when), no history forces a reset. -/
theorem C219_fed_never_reset (c : RTC) (es : List RWdEv) (hfed : ∀ a m b, es = a ++ .tick :: m ++ .tick :: b → .feed ∈ m) : (rwd0 c).run es ≠ none := by
  induction es using snocRec with
  | nil => simp [RWd.run]
  | append_singleton es e ih =>
    have ih := ih (fun a m b he => hfed a m (b ++ [e]) (by rw [he]; simp))
    rw [rwd_run_snoc]
    cases hr : (rwd0 c).run es with
    | none => exact absurd hr ih
    | some t =>
      dsimp only
      by_cases hx : (t.step e).2 = true
      · exfalso
        have := C219_only_ticks t e hx
        subst this
        obtain ⟨_, a, b, he, _, hb⟩ := (C219_reset_iff c es t hr).1 hx
        exact hb (hfed a b [] (by rw [he]))
      · rw [if_neg hx]; simp

/-- **C219** The flag outlives a time with the watchdog disabled: enabling it again without feeding it first is answered by a reset at the very next tick, however long it was disabled (`n` ticks). -/
theorem C219_stale_flag_refuted (c : RTC) (n : Nat) : (rwd0 c).run ([.enable true, .tick, .enable false] ++ List.replicate n .tick ++ [.enable true]) ≠ none ∧
    (rwd0 c).run ([.enable true, .tick, .enable false] ++ List.replicate n .tick ++ [.enable true, .tick]) = none := by
  have h : ∀ (n : Nat) (c : RTC) (t : List RWdEv), ∃ c', (RWd.mk c false true).run (List.replicate n .tick ++ t) = (RWd.mk c' false true).run t := by
    intro n
    induction n with
    | zero => intro c t; exact ⟨c, rfl⟩
    | succ n ih =>
      intro c t
      obtain ⟨c', h⟩ := ih c.tick t
      refine ⟨c', ?_⟩
      rw [← h, List.replicate_succ, List.cons_append]
      simp [RWd.run, RWd.step]
  have h2 : ∀ t, ∃ c', (rwd0 c).run ([.enable true, .tick, .enable false] ++ List.replicate n .tick ++ t) = (RWd.mk c' false true).run t := by
    intro t
    obtain ⟨c', e⟩ := h n c.tick t
    refine ⟨c', ?_⟩
    rw [← e]
    simp [RWd.run, RWd.step, rwd0]
  constructor
  · obtain ⟨c', e⟩ := h2 [.enable true]
    rw [e]; simp [RWd.run, RWd.step]
  · obtain ⟨c', e⟩ := h2 [.enable true, .tick]
    rw [e]; simp [RWd.run, RWd.step]

/-- The documented use: fed and enabled in each cycle; then a hang. -/
example : (rwd0 ⟨0, 0, 0⟩).run [.feed, .enable true, .tick, .feed, .enable true, .tick, .feed, .enable true, .tick] = some ⟨⟨6, 0, 0⟩, true, true⟩ ∧
    (rwd0 ⟨0, 0, 0⟩).run [.feed, .enable true, .tick, .tick] = none := by decide +kernel
example : ((rwd0 ⟨0, 0, 0⟩).run [.feed, .enable true]).map (·.run [.tick, .tick]) = some none := by decide +kernel

/-! ## C220: naps -/

/-- What can happen around a nap, with at most `B` units of the watchdog's clock between turns of the CPU (while it is busy with other interrupts). -/
inductive NReach (B t : Nat) (premature : Bool) (s0 : Nap) : Nap → Prop
  | start : NReach B t premature s0 s0
  | cpu {s} : NReach B t premature s0 s → NReach B t premature s0 (s.cpu t premature)
  | other {s} : NReach B t premature s0 s → NReach B t premature s0 s.other
  | unit {s s'} : NReach B t premature s0 s → s.wait < B → s.unit = some s' → NReach B t premature s0 s'

/-- `nap()` is called with the watchdog off; all else is arbitrary: interrupts on or off, an old WDIF, an old `_watchdogFired`. -/
def NapStart (s : Nap) : Prop := s.pc = .clr ∧ s.asleep = false ∧ s.w.wde = false ∧ s.w.wdie = false ∧ s.wait = 0

/-- While napping. -/
def NLoop (t : Nat) (s : Nap) : Prop := s.w.per = t ∧
  ((s.fired = false ∧ s.w.wde = true ∧ s.w.wdie = true ∧ s.w.el < t ∧ (s.w.wdif = false → s.w.el ≤ s.units) ∧ (s.w.wdif = true → t ≤ s.units)) ∨
   (s.fired = true ∧ s.w.wde = false ∧ s.w.wdie = false ∧ t ≤ s.units))

def NInv (t : Nat) (premature : Bool) (s : Nap) : Prop :=
  match s.pc with
  | .clr => s.asleep = false ∧ s.w.wde = false ∧ s.w.wdie = false
  | .en => s.asleep = false ∧ s.w.wde = false ∧ s.w.wdie = false ∧ s.fired = false
  | .ie => s.asleep = false ∧ s.w.wde = true ∧ s.w.wdie = false ∧ s.fired = false ∧ s.w.per = t ∧ s.w.el = s.wait ∧ s.units = s.wait ∧ s.w.el < t
  | .cli => s.asleep = false ∧ NLoop t s
  | .slp => s.asleep = false ∧ s.i = false ∧ NLoop t s
  | .chk => s.i = true ∧ NLoop t s
  | .dis0 => s.asleep = false ∧ s.i = true ∧ NLoop t s ∧ (s.ret = true → t ≤ s.units) ∧ (premature = false → s.ret = true)
  | .dis1 => s.asleep = false ∧ s.i = false ∧ NLoop t s ∧ (s.ret = true → t ≤ s.units) ∧ (premature = false → s.ret = true)
  | .done => s.asleep = false ∧ s.i = true ∧ s.w.wde = false ∧ s.w.wdie = false ∧ (s.ret = true → t ≤ s.units) ∧ (premature = false → s.ret = true)

theorem nap_cpu_inv {t : Nat} {p : Bool} {s : Nap} (ht : 0 < t) (h : NInv t p s) : NInv t p (s.cpu t p) := by
  rcases s with ⟨⟨wde, wdie, wdif, per, el⟩, i, fired, asleep, pc, ret, units, wait⟩
  cases pc <;> cases wde <;> cases wdie <;> cases wdif <;> cases i <;> cases fired <;> cases asleep <;> cases p <;> cases ret <;>
    simp [NInv, NLoop, Nap.cpu, Nap.exec, Nap.isr, Wdt.enable, Wdt.setIE, Wdt.disable] at h ⊢ <;> omega

theorem nap_other_inv {t : Nat} {p : Bool} {s : Nap} (h : NInv t p s) : NInv t p s.other := by
  rcases s with ⟨⟨wde, wdie, wdif, per, el⟩, i, fired, asleep, pc, ret, units, wait⟩
  cases pc <;> cases i <;> cases asleep <;> simp [NInv, NLoop, Nap.other] at h ⊢ <;> exact h

theorem nap_unit_some {t B : Nat} {p : Bool} {s : Nap} (hB : B < t) (hw : s.wait < B) (h : NInv t p s) : s.unit ≠ none := by
  rcases s with ⟨⟨wde, wdie, wdif, per, el⟩, i, fired, asleep, pc, ret, units, wait⟩
  dsimp only at hw
  by_cases hc : el + 1 < per
  · simp [Nap.unit, Wdt.unit, hc]; split <;> simp
  · cases pc <;> cases wde <;> cases wdie <;> simp [NInv, NLoop, Nap.unit, Wdt.unit, hc] at h ⊢ <;> omega

theorem nloop_unit {t : Nat} {s : Nap} {w : Wdt} (h : NLoop t s) (hu : s.w.unit = some w) : NLoop t { s with w := w, units := s.units + 1, wait := s.wait + 1 } := by
  rcases s with ⟨⟨wde, wdie, wdif, per, el⟩, i, fired, asleep, pc, ret, units, wait⟩
  by_cases hc : el + 1 < per <;>
  cases wde <;> cases wdie <;> cases wdif <;> cases fired <;>
    simp [NLoop, Wdt.unit, hc] at h hu <;> (try subst hu) <;> simp [NLoop] <;> omega

theorem off_unit {w w' : Wdt} (h1 : w.wde = false) (h2 : w.wdie = false) (hu : w.unit = some w') : w' = w := by
  unfold Wdt.unit at hu
  simp [h1, h2] at hu
  exact hu.symm

theorem nap_unit_keep {t : Nat} {p : Bool} {s s' : Nap} (h : NInv t p s) (hu : s.unit = some s') : NInv t p s' := by
  unfold Nap.unit at hu
  cases hw : s.w.unit with
  | none => rw [hw] at hu; cases hu
  | some w =>
    rw [hw] at hu
    cases hu
    have le : ∀ P : Prop, (P → t ≤ s.units) → P → t ≤ s.units + 1 := fun P f x => Nat.le_succ_of_le (f x)
    unfold NInv at h ⊢
    dsimp only
    cases hp : s.pc <;> rw [hp] at h <;> dsimp only at h ⊢
    · rw [off_unit h.2.1 h.2.2 hw]; exact h
    · rw [off_unit h.2.1 h.2.2.1 hw]; exact h
    · obtain ⟨h1, h2, h3, h4, h5, h6, h7, h8⟩ := h
      unfold Wdt.unit at hw
      by_cases hc : s.w.el + 1 < s.w.per
      · simp [h2, h3, hc] at hw
        subst hw
        dsimp only
        exact ⟨h1, rfl, rfl, h4, h5, by omega, by omega, by omega⟩
      · simp [h2, h3, hc] at hw
    · exact ⟨h.1, nloop_unit h.2 hw⟩
    · exact ⟨h.1, h.2.1, nloop_unit h.2.2 hw⟩
    · exact ⟨h.1, nloop_unit h.2 hw⟩
    · exact ⟨h.1, h.2.1, nloop_unit h.2.2.1 hw, le _ h.2.2.2.1, h.2.2.2.2⟩
    · exact ⟨h.1, h.2.1, nloop_unit h.2.2.1 hw, le _ h.2.2.2.1, h.2.2.2.2⟩
    · rw [off_unit h.2.2.1 h.2.2.2.1 hw]; exact ⟨h.1, h.2.1, h.2.2.1, h.2.2.2.1, le _ h.2.2.2.2.1, h.2.2.2.2.2⟩

theorem nap_unit_inv {t B : Nat} {p : Bool} {s : Nap} (hB : B < t) (hw : s.wait < B) (h : NInv t p s) : ∃ s', s.unit = some s' ∧ NInv t p s' := by
  cases hu : s.unit with
  | none => exact absurd hu (nap_unit_some hB hw h)
  | some s' => exact ⟨s', rfl, nap_unit_keep h hu⟩

theorem nap_inv {B t : Nat} {p : Bool} {s0 s : Nap} (hB : B < t) (h0 : NapStart s0) (hr : NReach B t p s0 s) : NInv t p s := by
  induction hr with
  | start =>
    obtain ⟨h1, h2, h3, h4, _⟩ := h0
    unfold NInv
    rw [h1]
    exact ⟨h2, h3, h4⟩
  | cpu _ ih => exact nap_cpu_inv (by omega) ih
  | other _ ih => exact nap_other_inv ih
  | unit _ hw hu ih =>
    obtain ⟨s', e, h⟩ := nap_unit_inv hB hw ih
    rw [hu] at e
    cases e
    exact h

/-- **C220** A nap never resets the chip, as long as interrupts never keep the CPU for the length of the nap. -/
theorem C220_no_reset (B t : Nat) (p : Bool) (s0 s : Nap) (hB : B < t) (h0 : NapStart s0) (hr : NReach B t p s0 s) (hw : s.wait < B) : s.unit ≠ none := by
  obtain ⟨s', e, _⟩ := nap_unit_inv hB hw (nap_inv hB h0 hr)
  rw [e]; simp

/-- **C220** When it returns the watchdog is off and interrupts are on; a nap that may not end early has lasted its time, and one that may says truthfully whether it has. -/
theorem C220_returns (B t : Nat) (p : Bool) (s0 s : Nap) (hB : B < t) (h0 : NapStart s0) (hr : NReach B t p s0 s) (hd : s.pc = .done) :
    s.w.wde = false ∧ s.w.wdie = false ∧ s.i = true ∧ (s.ret = true → t ≤ s.units) ∧ (p = false → s.ret = true) := by
  have := nap_inv hB h0 hr
  unfold NInv at this
  rw [hd] at this
  exact ⟨this.2.2.1, this.2.2.2.1, this.2.1, this.2.2.2.2⟩

/-- **C220** The bound is needed: an interrupt that takes the length of the nap just after the watchdog is enabled resets the chip. -/
theorem C220_slow_interrupt_resets (B t : Nat) (p : Bool) (s0 : Nap) (ht : 0 < t) (hB : t ≤ B) (h0 : NapStart s0) : ∃ s, NReach B t p s0 s ∧ s.wait < B ∧ s.unit = none := by
  obtain ⟨h1, h2, h3, h4, h5⟩ := h0
  have hs : ∀ n, n < t → ∃ s, NReach B t p s0 s ∧ s.pc = .ie ∧ s.w.wde = true ∧ s.w.wdie = false ∧ s.w.per = t ∧ s.w.el = n ∧ s.wait = n := by
    intro n hn
    induction n with
    | zero =>
      refine ⟨_, .cpu (.cpu .start), ?_⟩
      rcases s0 with ⟨⟨wde, wdie, wdif, per, el⟩, i, fired, asleep, pc, ret, units, wait⟩
      dsimp only at h1 h2 h3 h4
      subst h1; subst h2; subst h3; subst h4
      cases i <;> cases wdif <;> simp [Nap.cpu, Nap.exec, Wdt.enable]
    | succ n ih =>
      obtain ⟨s, r, g1, g2, g3, g4, g5, g6⟩ := ih (by omega)
      rcases s with ⟨⟨wde, wdie, wdif, per, el⟩, i, fired, asleep, pc, ret, units, wait⟩
      dsimp only at g1 g2 g3 g4 g5 g6
      subst g1; subst g2; subst g3; subst g4; subst g5; subst g6
      refine ⟨_, .unit r (by dsimp only; omega) (by simp [Nap.unit, Wdt.unit, hn]; rfl), rfl, rfl, rfl, rfl, rfl, rfl⟩
  obtain ⟨s, r, g1, g2, g3, g4, g5, g6⟩ := hs (t - 1) (by omega)
  refine ⟨s, r, by omega, ?_⟩
  rcases s with ⟨⟨wde, wdie, wdif, per, el⟩, i, fired, asleep, pc, ret, units, wait⟩
  dsimp only at g1 g2 g3 g4 g5 g6
  subst g1; subst g2; subst g3; subst g4; subst g5
  simp [Nap.unit, Wdt.unit]; omega

/-! ### Naps end -/

inductive NapSched
  | cpu | other | unit
deriving DecidableEq, Repr

/-- After `n` events of a schedule; `none`: reset. -/
def napRun (t : Nat) (p : Bool) (sched : Nat → NapSched) (s0 : Nap) : Nat → Option Nap
  | 0 => some s0
  | n + 1 => match napRun t p sched s0 n with
    | none => none
    | some s => match sched n with
      | .cpu => some (s.cpu t p)
      | .other => some s.other
      | .unit => s.unit

/-- The CPU, the watchdog's clock and other interrupts all go on for ever. -/
def NapFair (sched : Nat → NapSched) : Prop := ∀ e n, ∃ m, n ≤ m ∧ sched m = e

def napRank (t : Nat) (s : Nap) : Nat :=
  match s.pc with
  | .clr => t + 30
  | .en => t + 29
  | .ie => t + 28
  | .dis0 => if s.w.wdie then 3 else 2
  | .dis1 => 1
  | .done => 0
  | pc => if s.fired then (match pc with | .cli => 7 | .slp => 6 | _ => if s.asleep then 5 else 4)
    else if s.w.wdif then 10 + (if s.i then 0 else match pc with | .cli => 2 | _ => 1)
    else 14 + (t - s.w.el)

def napNeed (s : Nap) : NapSched :=
  match s.pc with
  | .cli => if s.fired || s.w.wdif then .cpu else .unit
  | .slp => if s.fired || s.w.wdif then .cpu else .unit
  | .chk => if s.fired then (if s.asleep then .other else .cpu) else if s.w.wdif then .cpu else .unit
  | _ => .cpu

theorem nap_rank_cpu {t : Nat} {p : Bool} {s : Nap} (h : NInv t p s) (hd : s.pc ≠ .done) :
    napRank t (s.cpu t p) < napRank t s ∨ (napRank t (s.cpu t p) = napRank t s ∧ napNeed (s.cpu t p) = napNeed s ∧ napNeed s ≠ .cpu) := by
  rcases s with ⟨⟨wde, wdie, wdif, per, el⟩, i, fired, asleep, pc, ret, units, wait⟩
  cases pc <;> cases wde <;> cases wdie <;> cases wdif <;> cases i <;> cases fired <;> cases asleep <;> cases p <;>
    simp [NInv, NLoop, Nap.cpu, Nap.exec, Nap.isr, Wdt.enable, Wdt.setIE, Wdt.disable, napRank, napNeed] at h hd ⊢ <;> omega

theorem nap_rank_other {t : Nat} {p : Bool} {s : Nap} (h : NInv t p s) :
    napRank t s.other < napRank t s ∨ (napRank t s.other = napRank t s ∧ napNeed s.other = napNeed s ∧ napNeed s ≠ .other) := by
  rcases s with ⟨⟨wde, wdie, wdif, per, el⟩, i, fired, asleep, pc, ret, units, wait⟩
  cases pc <;> cases i <;> cases fired <;> cases asleep <;> cases wdif <;> simp [NInv, NLoop, Nap.other, napRank, napNeed] at h ⊢ <;> (try cases wdie <;> simp)

theorem nap_rank_unit {t : Nat} {p : Bool} {s s' : Nap} (h : NInv t p s) (hu : s.unit = some s') :
    napRank t s' < napRank t s ∨ (napRank t s' = napRank t s ∧ napNeed s' = napNeed s ∧ napNeed s ≠ .unit) := by
  rcases s with ⟨⟨wde, wdie, wdif, per, el⟩, i, fired, asleep, pc, ret, units, wait⟩
  by_cases hc : el + 1 < per <;>
  cases pc <;> cases wde <;> cases wdie <;> cases wdif <;> cases i <;> cases fired <;> cases asleep <;>
    simp [NInv, NLoop, Nap.unit, Wdt.unit, hc] at h hu ⊢ <;> (try subst hu) <;> simp [napRank, napNeed] <;> omega

/-- If every step lowers a rank or leaves it, and the event needed for lowering it the same, and each event comes again and again, the goal is reached. -/
theorem live_by_rank {σ ε : Type} (run : Nat → Option σ) (sched : Nat → ε) (rank : σ → Nat) (need : σ → ε) (hf : ∀ e n, ∃ m, n ≤ m ∧ sched m = e) (G : Prop)
    (hstep : ∀ n s, run n = some s → G ∨ ∃ s', run (n + 1) = some s' ∧ (rank s' < rank s ∨ (rank s' = rank s ∧ need s' = need s ∧ need s ≠ sched n)))
    (n : Nat) (s : σ) (e : run n = some s) : G := by
  have hdone : ∀ r n s, run n = some s → rank s ≤ r → G := by
    intro r
    induction r using Nat.strongRecOn with
    | ind r ih =>
      intro n s e hr
      obtain ⟨m, hm, hs⟩ := hf (need s) n
      have : ∀ k n s, n + k = m → run n = some s → rank s ≤ r → sched m = need s → G := by
        intro k
        induction k with
        | zero =>
          intro n s hk e hr hs
          rcases hstep n s e with g | ⟨s', e', hlt | ⟨_, _, hne⟩⟩
          · exact g
          · exact ih (rank s') (by omega) (n + 1) s' e' (Nat.le_refl _)
          · exact absurd (by rw [← hs, ← hk]; rfl) hne
        | succ k ihk =>
          intro n s hk e hr hs
          rcases hstep n s e with g | ⟨s', e', hlt | ⟨heq, hne, _⟩⟩
          · exact g
          · exact ih (rank s') (by omega) (n + 1) s' e' (Nat.le_refl _)
          · exact ihk (n + 1) s' (by omega) e' (by omega) (by rw [hs, hne])
      exact this (m - n) n s (by omega) e hr hs
  exact hdone _ n s e (Nat.le_refl _)

/-- **C220** A nap ends, if other interrupts (the clock's tick) keep coming and none keeps the CPU for its length. -/
theorem C220_ends (B t : Nat) (p : Bool) (s0 : Nap) (hB : B < t) (h0 : NapStart s0) (sched : Nat → NapSched) (hf : NapFair sched)
    (hw : ∀ n s, napRun t p sched s0 n = some s → sched n = .unit → s.wait < B) : ∃ n s, napRun t p sched s0 n = some s ∧ s.pc = .done := by
  have hi : ∀ n, ∃ s, napRun t p sched s0 n = some s ∧ NInv t p s := by
    intro n
    induction n with
    | zero => exact ⟨s0, rfl, nap_inv hB h0 .start⟩
    | succ n ih =>
      obtain ⟨s, e, h⟩ := ih
      unfold napRun
      rw [e]
      cases hs : sched n with
      | cpu => exact ⟨_, rfl, nap_cpu_inv (by omega) h⟩
      | other => exact ⟨_, rfl, nap_other_inv h⟩
      | unit => exact nap_unit_inv hB (hw n s e hs) h
  have hstep : ∀ n s, napRun t p sched s0 n = some s → s.pc ≠ .done → ∃ s', napRun t p sched s0 (n + 1) = some s' ∧
      (napRank t s' < napRank t s ∨ (napRank t s' = napRank t s ∧ napNeed s' = napNeed s ∧ napNeed s ≠ sched n)) := by
    intro n s e hd
    obtain ⟨s2, e2, h⟩ := hi n
    rw [e] at e2
    cases e2
    obtain ⟨s', e', _⟩ := hi (n + 1)
    refine ⟨s', e', ?_⟩
    unfold napRun at e'
    rw [e] at e'
    dsimp only at e'
    cases hs : sched n with
    | cpu => rw [hs] at e'; cases e'; exact nap_rank_cpu h hd
    | other => rw [hs] at e'; cases e'; exact nap_rank_other h
    | unit => rw [hs] at e'; exact nap_rank_unit h e'
  exact live_by_rank (napRun t p sched s0) sched (napRank t) napNeed hf _ (fun n s e => if hd : s.pc = .done then .inl ⟨n, s, e, hd⟩ else .inr (hstep n s e hd)) 0 s0 rfl

/-- Without other interrupts. -/
inductive NAlone (t : Nat) (p : Bool) (s0 : Nap) : Nap → Prop
  | start : NAlone t p s0 s0
  | cpu {s} : NAlone t p s0 s → NAlone t p s0 (s.cpu t p)
  | unit {s s'} : NAlone t p s0 s → s.unit = some s' → NAlone t p s0 s'

/-- **C220** Other interrupts are needed: if one wakes the CPU just before the time is over, the watchdog can fire between the test and the next sleep; then the nap never ends unless another interrupt comes. -/
theorem C220_lost_wakeup_refuted (t : Nat) (ht : 2 ≤ t) (s0 : Nap) (h0 : NapStart s0) :
    ∃ s, NReach 1 t false s0 s ∧ ∀ s', NAlone t false s s' → s'.pc = .chk ∧ s'.asleep = true := by
  obtain ⟨h1, h2, h3, h4, h5⟩ := h0
  have hs : ∀ n, n < t → ∃ u r, NReach 1 t false s0 ⟨⟨true, true, false, t, n⟩, true, false, true, .chk, r, u, 0⟩ := by
    intro n hn
    induction n with
    | zero =>
      have h : NReach 1 t false s0 _ := .cpu (.cpu (.cpu (.cpu (.cpu .start))))
      rcases s0 with ⟨⟨wde, wdie, wdif, per, el⟩, i, fired, asleep, pc, ret, units, wait⟩
      dsimp only at h1 h2 h3 h4
      subst h1; subst h2; subst h3; subst h4
      refine ⟨0, ret, ?_⟩
      cases i <;> cases wdif <;> simpa [Nap.cpu, Nap.exec, Wdt.enable, Wdt.setIE] using h
    | succ n ih =>
      obtain ⟨u, r, h⟩ := ih (by omega)
      have h := NReach.cpu (.unit h (Nat.succ_pos 0) (by simp [Nap.unit, Wdt.unit, hn]; rfl))
      exact ⟨u + 1, r, by simpa [Nap.cpu] using h⟩
  obtain ⟨u, r, h⟩ := hs (t - 1) (by omega)
  have h := NReach.cpu (.other h)
  simp [Nap.other, Nap.cpu, Nap.exec] at h
  have h := NReach.cpu (.cpu (.cpu (.unit h (Nat.succ_pos 0) (by unfold Nap.unit Wdt.unit; simp only [Bool.not_true, Bool.and_self, Bool.false_eq_true, if_false, if_true]; rw [if_neg (show ¬ t - 1 + 1 < t by omega)]; rfl))))
  simp [Nap.cpu, Nap.exec, Nap.isr, Wdt.disable] at h
  refine ⟨_, h, ?_⟩
  have : ∀ s', NAlone t false ⟨⟨false, false, false, t, 0⟩, true, true, true, .chk, r, u + 1, 0⟩ s' → s'.pc = .chk ∧ s'.asleep = true ∧ s'.w.wde = false ∧ s'.w.wdie = false := by
    intro s' hr
    induction hr with
    | start => exact ⟨rfl, rfl, rfl, rfl⟩
    | cpu _ ih =>
      obtain ⟨g1, g2, g3, g4⟩ := ih
      simp [Nap.cpu, g1, g2, g3, g4]
    | unit _ hu ih =>
      obtain ⟨g1, g2, g3, g4⟩ := ih
      unfold Nap.unit at hu
      rw [show Wdt.unit _ = some _ from by unfold Wdt.unit; rw [g3, g4]; rfl] at hu
      cases hu
      exact ⟨g1, g2, g3, g4⟩
  exact fun s' hr => ⟨(this s' hr).1, (this s' hr).2.1⟩

/-- A nap of 3 units with interrupts off before and an old WDIF: woken once early by another interrupt it sleeps on, and ends after the time. -/
def exNap : Nap := ⟨⟨false, false, true, 9, 0⟩, false, true, false, .clr, false, 0, 0⟩
example : NapStart exNap := ⟨rfl, rfl, rfl, rfl, rfl⟩
def exSched : Nat → NapSched := fun n => if n % 3 = 0 then .cpu else if n % 9 = 4 then .unit else if n % 9 = 7 then .other else .cpu
example : napRun 3 false exSched exNap 40 ≠ none ∧ (napRun 3 false exSched exNap 40).map (·.pc) = some .done ∧ (napRun 3 false exSched exNap 40).map (fun s => decide (3 ≤ s.units)) = some true ∧
    (napRun 3 false exSched exNap 20).map (·.pc) ≠ some .done := by decide +kernel
/-- A nap that may end early, ended early. -/
example : (napRun 3 true (fun n => if n = 5 then .other else .cpu) exNap 10).map (fun s => (s.pc, s.ret)) = some (.done, false) := by decide +kernel

/-! ## C221: forced reset -/

/-- What can happen once `forceReset()` is called: other interrupts have no effect on it. -/
inductive FReach (t : Nat) (s0 : Force) : Force → Prop
  | start : FReach t s0 s0
  | cpu {s} : FReach t s0 s → FReach t s0 (s.cpu t)
  | unit {s s'} : FReach t s0 s → s.unit = some s' → FReach t s0 s'

theorem force_inv {t : Nat} {s0 s : Force} (ht : 0 < t) (h0 : s0.pc = .cli) (hr : FReach t s0 s) :
    (s.pc = .en → s.i = false) ∧ (s.pc = .spin → s.i = false ∧ s.w.wde = true ∧ s.w.wdie = false ∧ s.w.per = t ∧ s.w.el = s.units ∧ s.units < t) := by
  induction hr with
  | start => rw [h0]; exact ⟨(fun h => nomatch h), (fun h => nomatch h)⟩
  | @cpu s _ ih =>
    rcases s with ⟨⟨wde, wdie, wdif, per, el⟩, i, pc, units⟩
    cases pc <;> cases wde <;> cases wdie <;> cases wdif <;> cases i <;> simp [Force.cpu, Wdt.enable, Wdt.disable] at ih ⊢ <;> omega
  | @unit s s' _ hu ih =>
    rcases s with ⟨⟨wde, wdie, wdif, per, el⟩, i, pc, units⟩
    by_cases hc : el + 1 < per <;>
    cases pc <;> cases wde <;> cases wdie <;> cases i <;> simp [Force.unit, Wdt.unit, hc] at ih hu <;> (try subst hu) <;> simp <;> omega

/-- **C221** Once `forceReset()` has set the watchdog, nothing stops it: whatever the watchdog was doing before — running for a nap, its interrupt pending —, the chip is reset by the time-out, not before. -/
theorem C221_resets (t : Nat) (ht : 0 < t) (s0 s : Force) (h0 : s0.pc = .cli) (hr : FReach t s0 s) (hp : s.pc = .spin) : s.units < t ∧ (s.unit = none ↔ s.units + 1 = t) := by
  obtain ⟨_, h2, h3, h4, h5, h6⟩ := (force_inv ht h0 hr).2 hp
  refine ⟨h6, ?_⟩
  unfold Force.unit Wdt.unit
  rw [h2, h3, h4, h5]
  simp
  omega

inductive ForceSched
  | cpu | unit
deriving DecidableEq, Repr

/-- After `n` events of a schedule; `none`: reset. -/
def forceRun (t : Nat) (sched : Nat → ForceSched) (s0 : Force) : Nat → Option Force
  | 0 => some s0
  | n + 1 => match forceRun t sched s0 n with
    | none => none
    | some s => match sched n with
      | .cpu => some (s.cpu t)
      | .unit => s.unit

def forceRank (t : Nat) (s : Force) : Nat :=
  match s.pc with
  | .cli => t + 3 + (if s.w.wdie then 1 else 0)
  | .en => t + 2
  | .spin => t - s.units

def forceNeed (s : Force) : ForceSched := if s.pc = .spin then .unit else .cpu

/-- **C221** And it gets there: if CPU and watchdog clock go on, the chip is reset. -/
theorem C221_ends (t : Nat) (ht : 0 < t) (s0 : Force) (h0 : s0.pc = .cli) (sched : Nat → ForceSched) (hf : ∀ e n, ∃ m, n ≤ m ∧ sched m = e) : ∃ n, forceRun t sched s0 n = none := by
  have hr : ∀ n s, forceRun t sched s0 n = some s → FReach t s0 s := by
    intro n
    induction n with
    | zero => intro s h; cases h; exact .start
    | succ n ih =>
      intro s h
      unfold forceRun at h
      cases hn : forceRun t sched s0 n with
      | none => rw [hn] at h; cases h
      | some s1 =>
        rw [hn] at h
        dsimp only at h
        cases hs : sched n with
        | cpu => rw [hs] at h; cases h; exact .cpu (ih _ hn)
        | unit => rw [hs] at h; exact .unit (ih _ hn) h
  refine live_by_rank (forceRun t sched s0) sched (forceRank t) forceNeed hf _ (fun n s e => ?_) 0 s0 rfl
  cases hn : forceRun t sched s0 (n + 1) with
  | none => exact .inl ⟨_, hn⟩
  | some s' =>
    refine .inr ⟨s', rfl, ?_⟩
    have hi := force_inv ht h0 (hr n s e)
    unfold forceRun at hn
    rw [e] at hn
    dsimp only at hn
    cases hs : sched n with
    | cpu =>
      rw [hs] at hn
      cases hn
      rcases s with ⟨⟨wde, wdie, wdif, per, el⟩, i, pc, units⟩
      cases pc <;> cases wdie <;> cases wdif <;> cases i <;> simp [Force.cpu, Wdt.enable, Wdt.disable, forceRank, forceNeed] at hi ⊢ <;> omega
    | unit =>
      rw [hs] at hn
      rcases s with ⟨⟨wde, wdie, wdif, per, el⟩, i, pc, units⟩
      by_cases hc : el + 1 < per <;>
      cases pc <;> cases wde <;> cases wdie <;> simp [Force.unit, Wdt.unit, hc] at hi hn <;> (try subst hn) <;> simp [forceRank, forceNeed] <;> omega

/-- Called while a nap's time-out is pending, with interrupts on: the interrupt is taken, then the chip is reset 4 units later. -/
def exForce : Force := ⟨⟨true, true, true, 2, 1⟩, true, .cli, 0⟩
example : (forceRun 4 (fun n => if n < 3 then .cpu else .unit) exForce 6).isSome = true ∧ forceRun 4 (fun n => if n < 3 then .cpu else .unit) exForce 7 = none := by decide +kernel

end OTR.Props
