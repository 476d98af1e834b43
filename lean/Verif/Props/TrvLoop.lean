import Verif.Props.TrvHome
import Verif.Props.HouseWarm
/-!
# C250: the control loop, with the motor, holds the temperature

C198 and C199 with the position of the motor in place of the position the controller wants.
-/

namespace OTR.Props
open OTR

/-! ## Specification -/

/-- A minute of a valve's life: what the user did and what the controller then read, and what happens until the next reading. -/
structure TrvMinute where
  ops : List VOp
  x : MVIn
  rest : List TrvEv

/-- The valve just before reading `n`. -/
def trvAt (k : TrvKit) (t0 : Trv) (ms : Nat → TrvMinute) : Nat → Trv
  | 0 => t0
  | n + 1 => trvAfter k.v (trvAt k t0 ms n) (.minute (ms n).ops (ms n).x :: (ms n).rest)

/-- The controller's readings. -/
def readsOf (ms : Nat → TrvMinute) (n : Nat) : Reading := ((ms n).ops, (ms n).x)

/-- The motor at `pc` at the end of each of the last `L` minutes, up to minute `n`. -/
def MotorHeld (k : TrvKit) (t0 : Trv) (ms : Nat → TrvMinute) (pc L n : Nat) : Prop := L ≤ n + 1 ∧ ∀ j, j < L → (trvAt k t0 ms (n - j + 1)).motor.cur = pc

/-- The controller has wanted `pc` in each of the last `L` minutes, up to minute `n`. -/
def Wanted (k : TrvKit) (t0 : Trv) (ms : Nat → TrvMinute) (pc L n : Nat) : Prop := L ≤ n + 1 ∧ ∀ j, j < L → (trvAt k t0 ms (n - j + 1)).mv.value = pc

/-- The valve at work: its motor is running normally at each reading, there is one reading a minute, and once the controller has wanted the valve open as far as allowed, or closed,
for `M` minutes, the motor has got there: the polls then, of which at least four a minute are in time, report the end of its travel (and calibration is put off if wanted, and
the battery is good enough to close). -/
structure TrvWorking (k : TrvKit) (t0 : Trv) (ms : Nat → TrvMinute) (M : Nat) : Prop where
  one : ∀ n, readingsIn (ms n).rest = []
  normal : ∀ n, (trvAt k t0 ms n).motor.st = .normal
  stops : ∀ n, Wanted k t0 ms (min k.v.maxPC 100) M n ∨ Wanted k t0 ms 0 M n →
    (∀ i ∈ pollsIn (ms n).rest, k.limit ≤ i.sct ∨ i.low = false ∧ EndStopPoll (trvAt k t0 ms n).motor i) ∧ 4 ≤ earlyIn k.limit (ms n).rest

/-! ## Proofs -/

theorem settle_run (v : ValveSetup) (prop : Bool) (limit minDR tfo trev : Nat) (h1 : tfo ≤ 65535) (h2 : trev ≤ 65535) (want val : Nat) (P : MIn → Prop)
    (hit : ∀ (m : Motor) (i : MIn), MInv m → (m.prop = false → m.cur = 0 ∨ m.cur = 100) → m.prop = prop → m.st = .normal → i.sct < m.limit →
      EndStopPoll m i → P i → m.target = val →
      (m.poll i).1.st = .normal ∧ (m.poll i).1.need = m.need ∧ (m.poll i).1.cp = m.cp ∧
        ((m.poll i).1.cur = want ∨ (m.cur ≠ want ∧ (m.poll i).1.hits = m.hits + 1 ∧ m.hits + 1 < 4)))
    (post : List TrvEv) :
    ∀ (l : List TrvEv), readingsIn l ≠ [] → readingsIn post = [] →
    (trvAfter v (newTrv prop limit minDR tfo trev) l).mv.value = val →
    (trvAfter v (newTrv prop limit minDR tfo trev) l).motor.st = .normal →
    (∀ i ∈ pollsIn post, limit ≤ i.sct ∨ P i ∧ EndStopPoll (trvAfter v (newTrv prop limit minDR tfo trev) l).motor i) →
    ((trvAfter v (newTrv prop limit minDR tfo trev) l).motor.cur = want ∨
      4 ≤ (trvAfter v (newTrv prop limit minDR tfo trev) l).motor.hits + earlyIn limit post) →
    (trvAfter v (newTrv prop limit minDR tfo trev) (l ++ post)).motor.st = .normal ∧
      (trvAfter v (newTrv prop limit minDR tfo trev) (l ++ post)).motor.cur = want ∧
      (trvAfter v (newTrv prop limit minDR tfo trev) (l ++ post)).motor.cp = (trvAfter v (newTrv prop limit minDR tfo trev) l).motor.cp := by
  induction post with
  | nil =>
    intro l _ _ _ hst _ hor
    rw [List.append_nil]
    have hm := (motor_always h1 h2 (trv_inv v prop limit minDR tfo trev l)).1
    refine ⟨hst, ?_, rfl⟩
    rcases hor with h | h
    · exact h
    · have := hm.hitsN (by rw [hst]; simp)
      simp [earlyIn, pollsIn] at h; omega
  | cons e post ih =>
    intro l hl hno hval hst hgood hor
    have inv := trv_inv v prop limit minDR tfo trev l
    have hstep := trvAfter_snoc v (newTrv prop limit minDR tfo trev) l e
    have happ : l ++ e :: post = (l ++ [e]) ++ post := by simp
    rw [happ]
    have hsplit : readingsIn [e] ++ readingsIn post = [] := by rw [← readings_append]; exact hno
    have hno' : readingsIn post = [] := (List.append_eq_nil_iff.1 hsplit).2
    have hre : readingsIn [e] = [] := (List.append_eq_nil_iff.1 hsplit).1
    have hl' : readingsIn (l ++ [e]) ≠ [] := by
      rw [readings_append]; intro h; exact hl (List.append_eq_nil_iff.1 h).1
    have htgt : (trvAfter v (newTrv prop limit minDR tfo trev) l).motor.target = val := (inv.target hl).trans hval
    generalize ht : trvAfter v (newTrv prop limit minDR tfo trev) l = t at *
    obtain ⟨hmi, hbin, hprop, hlim0⟩ := motor_always h1 h2 inv
    have hgpost : ∀ i ∈ pollsIn post, limit ≤ i.sct ∨ P i ∧ EndStopPoll t.motor i := fun x hx =>
      hgood x (by rw [show e :: post = [e] ++ post from rfl, polls_append]; exact List.mem_append_right _ hx)
    cases e with
    | minute ops x => simp [readingsIn] at hre
    | poll i =>
      have hm : (trvAfter v (newTrv prop limit minDR tfo trev) (l ++ [.poll i])).motor = (t.motor.poll i).1 := by rw [hstep]; rfl
      have hv : (trvAfter v (newTrv prop limit minDR tfo trev) (l ++ [.poll i])).mv.value = val := by rw [hstep]; exact hval
      have hpc : pollsIn (.poll i :: post) = i :: pollsIn post := rfl
      by_cases hlate : limit ≤ i.sct
      · have hsame : (t.motor.poll i).1 = t.motor := congrArg Prod.fst (C62_late_poll t.motor i (by rw [hlim0]; exact hlate))
        rw [hsame] at hm
        have hlen : earlyIn limit (.poll i :: post) = earlyIn limit post := by
          unfold earlyIn; rw [hpc, List.countP_cons_of_neg (by simp; omega)]
        rw [hlen] at hor
        have := ih (l ++ [.poll i]) hl' hno' hv (by rw [hm]; exact hst) (by rw [hm]; exact hgpost) (by rw [hm]; exact hor)
        rw [hm] at this
        exact this
      have hi : P i ∧ EndStopPoll t.motor i := (hgood i (by rw [hpc]; simp)).resolve_left hlate
      have hlen : earlyIn limit (.poll i :: post) = earlyIn limit post + 1 := by
        unfold earlyIn; rw [hpc, List.countP_cons_of_pos (by simp; omega)]
      rw [hlen] at hor
      have ho := hit t.motor i hmi hbin hprop hst (by omega) hi.2 hi.1 htgt
      have hcf := step_cfg t.motor (.poll i) hmi
      have hpr : (t.motor.poll i).1.prop = t.motor.prop := congrArg (·.2.1) hcf
      have := ih (l ++ [.poll i]) hl' hno' hv
        (by rw [hm]; exact ho.1) (by
          rw [hm]
          exact fun j hj => (hgpost j hj).imp_right fun h => ⟨h.1, h.2.hit, by rw [hpr, ho.2.1]; exact h.2.defer⟩) (by
          rw [hm]
          rcases ho.2.2.2 with h | ⟨h, h', _⟩
          · exact .inl h
          · rcases hor with hor | hor
            · exact absurd hor h
            · right; rw [h']; omega)
      rw [hm, ho.2.2.1] at this
      exact this
    | fitted =>
      have hm : (trvAfter v (newTrv prop limit minDR tfo trev) (l ++ [.fitted])).motor = t.motor := by
        rw [hstep]; show t.motor.signalFitted = _
        unfold Motor.signalFitted; rw [if_neg (by rw [hst]; simp)]
      have := ih (l ++ [.fitted]) hl' hno' (by rw [hstep]; exact hval)
        (by rw [hm]; exact hst) (by rw [hm]; exact hgpost) (by rw [hm]; exact hor)
      rw [hm] at this
      exact this
    | wiggle i =>
      have hm : (trvAfter v (newTrv prop limit minDR tfo trev) (l ++ [.wiggle i])).motor = t.motor.wiggle i := by rw [hstep]; rfl
      obtain ⟨w1, w2, w3, w4, w5, w6, w7⟩ := cur_wiggle t.motor i
      have := ih (l ++ [.wiggle i]) hl' hno' (by rw [hstep]; exact hval)
        (by rw [hm, w2]; exact hst) (by
          rw [hm]
          exact fun j hj => (hgpost j hj).imp_right fun h => ⟨h.1, h.2.hit, by rw [w6, w5]; exact h.2.defer⟩)
        (by rw [hm, w1, w3]; exact hor)
      rw [hm, w4] at this
      exact this

/-- What happened by reading `n`. -/
def histAt (ms : Nat → TrvMinute) (l0 : List TrvEv) : Nat → List TrvEv
  | 0 => l0
  | n + 1 => histAt ms l0 n ++ [.minute (ms n).ops (ms n).x] ++ (ms n).rest

theorem trvAt_hist (k : TrvKit) (l0 : List TrvEv) (ms : Nat → TrvMinute) (n : Nat) : trvAt k (k.after l0) ms n = k.after (histAt ms l0 n) := by
  induction n with
  | zero => rfl
  | succ n ih =>
    show trvAfter k.v (trvAt k (k.after l0) ms n) _ = trvAfter k.v _ _
    rw [ih, show histAt ms l0 (n + 1) = histAt ms l0 n ++ [.minute (ms n).ops (ms n).x] ++ (ms n).rest from rfl]
    unfold TrvKit.after trvAfter Trv.run
    simp [List.foldl_append]

/-- The readings as the controller sees them, with the state of its actuator. -/
def seenOf (k : TrvKit) (t0 : Trv) (ms : Nat → TrvMinute) (n : Nat) : Reading := ((ms n).ops, (trvAt k t0 ms n).sees (ms n).x)

theorem mv_keep (v : ValveSetup) (l : List TrvEv) : ∀ t : Trv, readingsIn l = [] → (trvAfter v t l).mv = t.mv := by
  induction l with
  | nil => intro t _; rfl
  | cons e l ih =>
    intro t h
    have hsplit : readingsIn [e] ++ readingsIn l = [] := by rw [← readings_append]; exact h
    have h' := List.append_eq_nil_iff.1 hsplit
    show (trvAfter v (t.step v.p v.c v.maxPC e) l).mv = _
    rw [ih _ h'.2]
    cases e with
    | minute ops x => simp [readingsIn] at h'
    | _ => rfl

theorem valve_at (k : TrvKit) (t0 : Trv) (h0 : t0.mv = newMV) (ms : Nat → TrvMinute) (hone : ∀ n, readingsIn (ms n).rest = []) (n : Nat) :
    valveAt k.v (seenOf k t0 ms) n = (trvAt k t0 ms n).mv := by
  induction n with
  | zero => exact h0.symm
  | succ n ih =>
    show (valveAt k.v (seenOf k t0 ms) n).step k.v.p k.v.c k.v.maxPC (seenOf k t0 ms n) = (trvAfter k.v (trvAt k t0 ms n) _).mv
    rw [ih]
    show _ = (trvAfter k.v ((trvAt k t0 ms n).step k.v.p k.v.c k.v.maxPC (.minute (ms n).ops (ms n).x)) (ms n).rest).mv
    rw [mv_keep _ _ _ (hone n)]
    rfl

/-- A position wanted for `M` minutes is reached. -/
theorem reached (k : TrvKit) (hk : k.Ok) (l0 : List TrvEv) (ms : Nat → TrvMinute) (M : Nat) (hM : 1 ≤ M)
    (hw : TrvWorking k (k.after l0) ms M) (n : Nat) :
    ((100 ≤ k.v.maxPC ∨ k.prop = false ∧ 50 ≤ k.v.maxPC) → Wanted k (k.after l0) ms (min k.v.maxPC 100) M n → (trvAt k (k.after l0) ms (n + 1)).motor.cur = 100) ∧
    (Wanted k (k.after l0) ms 0 M n → (trvAt k (k.after l0) ms (n + 1)).motor.cur = 0) := by
  have hnow : ∀ pc, Wanted k (k.after l0) ms pc M n → (trvAt k (k.after l0) ms (n + 1)).mv.value = pc := by
    intro pc h; have := h.2 0 hM; exact this
  have hmv : ∀ pc, Wanted k (k.after l0) ms pc M n → (k.after (histAt ms l0 n ++ [.minute (ms n).ops (ms n).x])).mv.value = pc := by
    intro pc h
    have := hnow pc h
    rw [trvAt_hist] at this
    show (trvAfter _ _ _).mv.value = pc
    have e : k.after (histAt ms l0 (n + 1)) = trvAfter k.v (k.after (histAt ms l0 n ++ [.minute (ms n).ops (ms n).x])) (ms n).rest := by
      rw [show histAt ms l0 (n + 1) = histAt ms l0 n ++ [.minute (ms n).ops (ms n).x] ++ (ms n).rest from rfl]
      unfold TrvKit.after trvAfter Trv.run; simp [List.foldl_append]
    rw [e, mv_keep _ _ _ (hw.one n)] at this
    exact this
  have hmot : ∃ y, (k.after (histAt ms l0 n ++ [.minute (ms n).ops (ms n).x])).motor = { (k.after (histAt ms l0 n)).motor with target := y } := by
    show ∃ y, (trvAfter _ _ _).motor = _
    rw [trvAfter_snoc]
    show ∃ y, Trv.setActuator (k.after (histAt ms l0 n)).motor _ = _
    unfold Trv.setActuator
    split
    · exact ⟨(k.after (histAt ms l0 n)).motor.target, rfl⟩
    · exact ⟨_, rfl⟩
  obtain ⟨y, hmot⟩ := hmot
  have hst : (k.after (histAt ms l0 n)).motor.st = .normal := by rw [← trvAt_hist]; exact hw.normal n
  have hne : readingsIn (histAt ms l0 n ++ [.minute (ms n).ops (ms n).x]) ≠ [] := by rw [readings_append]; simp [readingsIn]
  have hgood : (Wanted k (k.after l0) ms (min k.v.maxPC 100) M n ∨ Wanted k (k.after l0) ms 0 M n) →
      (∀ i ∈ pollsIn (ms n).rest, k.limit ≤ i.sct ∨ i.low = false ∧ EndStopPoll (k.after (histAt ms l0 n ++ [.minute (ms n).ops (ms n).x])).motor i) ∧
        4 ≤ earlyIn k.limit (ms n).rest := by
    intro h
    obtain ⟨g1, g2⟩ := hw.stops n h
    rw [trvAt_hist] at g1
    refine ⟨fun i hi => (g1 i hi).imp_right fun h => ⟨h.1, h.2.hit, ?_⟩, g2⟩
    rw [hmot]; exact h.2.defer
  constructor
  · intro hmax h
    rw [trvAt_hist]
    obtain ⟨g1, g2⟩ := hgood (.inl h)
    refine (settle_run k.v k.prop k.limit k.minDR k.tfo k.trev hk.1 hk.2 100 (min k.v.maxPC 100) (fun i => i.low = false) ?_ (ms n).rest
      (histAt ms l0 n ++ [TrvEv.minute (ms n).ops (ms n).x]) hne (hw.one n) (hmv _ h) ?_ g1 (.inr (by omega))).2.1
    · intro m i a1 a2 a3 a4 a5 a6 _ a8
      refine open_hit m i a1 a2 a4 a5 a6 ?_
      unfold Wide
      rw [a8, a3]
      rcases hmax with h | h
      · left; omega
      · exact .inr ⟨h.1, by omega⟩
    · show (k.after (histAt ms l0 n ++ [.minute (ms n).ops (ms n).x])).motor.st = _
      rw [hmot]; exact hst
  · intro h
    rw [trvAt_hist]
    obtain ⟨g1, g2⟩ := hgood (.inr h)
    refine (settle_run k.v k.prop k.limit k.minDR k.tfo k.trev hk.1 hk.2 0 0 (fun i => i.low = false) ?_ (ms n).rest
      (histAt ms l0 n ++ [TrvEv.minute (ms n).ops (ms n).x]) hne (hw.one n) (hmv _ h) ?_ g1 (.inr (by omega))).2.1
    · intro m i a1 _ _ a4 a5 a6 a7 a8
      exact close_hit m i a1 a4 a5 a6 a7 a8
    · show (k.after (histAt ms l0 n ++ [.minute (ms n).ops (ms n).x])).motor.st = _
      rw [hmot]; exact hst

/-! ## Theorems -/

/-- **C250, kept warm by the motor.** A whole valve (either driver, set up to open fully, or at least half with the binary-only driver) whose motor is running normally takes control of a room: if
the motor gets where it is wanted within `M` minutes, and the room (when below `t` less 9/16C) does not cool once the motor has been fully open for `L` minutes, then whatever user, schedule and
occupancy do, if the target is never below `t`, the room is never colder than `(10 + L + M)/16`C below the lower of where it started and `t` less 9/16C. -/
theorem C250_kept_warm (k : TrvKit) (hk : k.Ok) (hmax : 100 ≤ k.v.maxPC ∨ k.prop = false ∧ 50 ≤ k.v.maxPC) (l0 : List TrvEv) (hl0 : readingsIn l0 = [])
    (ms : Nat → TrvMinute) (M : Nat) (hM : 1 ≤ M) (hw : TrvWorking k (k.after l0) ms M) (hr : PlainRoom k.v (readsOf ms)) (t L : Nat)
    (ht : ∀ n, t ≤ (trvAt k (k.after l0) ms (n + 1)).mv.target)
    (heats : ∀ n, MotorHeld k (k.after l0) ms 100 L n → (ms n).x.temp16 ≤ 16 * (t : Int) - 9 → (ms n).x.temp16 ≤ (ms (n + 1)).x.temp16) (n : Nat) :
    min (ms 0).x.temp16 (16 * (t : Int) - 9) - 10 - L - M ≤ (ms n).x.temp16 := by
  have h0 : (k.after l0).mv = newMV := mv_keep _ _ _ hl0
  have hv := valve_at k (k.after l0) h0 ms hw.one
  have hr' : PlainRoom k.v (seenOf k (k.after l0) ms) := ⟨hr.half, hr.brisk, hr.settings, hr.range, hr.slow⟩
  have := C198_kept_warm hr' t (L + M - 1) (fun n => by unfold targetAt; rw [hv]; exact ht n) (by
    intro n hh hc
    refine heats n ⟨by have := hh.1; omega, fun j hj => ?_⟩ hc
    refine (reached k hk l0 ms M hM hw (n - j)).1 hmax ⟨by have := hh.1; omega, fun j' hj' => ?_⟩
    have h := hh.2 (j + j') (by omega)
    unfold posAt at h
    rw [hv] at h
    rw [Nat.sub_sub]; exact h) n
  have e : tempAt (seenOf k (k.after l0) ms) n = (ms n).x.temp16 := rfl
  have e0 : tempAt (seenOf k (k.after l0) ms) 0 = (ms 0).x.temp16 := rfl
  rw [e, e0] at this
  omega

/-- **C250, not overheated.** Likewise, if the room (when above `t` plus 3/4C) does not warm once the motor has been fully closed for `L` minutes, the target is never above `t`, and BAKE is
not used, the room is never warmer than `(35 + L + M)/16`C above the higher of where it started and `t` plus 3/4C. -/
theorem C250_not_overheated (k : TrvKit) (hk : k.Ok) (l0 : List TrvEv) (hl0 : readingsIn l0 = [])
    (ms : Nat → TrvMinute) (M : Nat) (hM : 1 ≤ M) (hw : TrvWorking k (k.after l0) ms M) (hr : PlainRoom k.v (readsOf ms)) (hb : NoBoost (readsOf ms)) (t L : Nat)
    (ht : ∀ n, (trvAt k (k.after l0) ms (n + 1)).mv.target ≤ t)
    (cools : ∀ n, MotorHeld k (k.after l0) ms 0 L n → 16 * (t : Int) + 12 ≤ (ms n).x.temp16 → (ms (n + 1)).x.temp16 ≤ (ms n).x.temp16) (n : Nat) :
    (ms n).x.temp16 ≤ max (ms 0).x.temp16 (16 * (t : Int) + 12) + 35 + L + M := by
  have h0 : (k.after l0).mv = newMV := mv_keep _ _ _ hl0
  have hv := valve_at k (k.after l0) h0 ms hw.one
  have hr' : PlainRoom k.v (seenOf k (k.after l0) ms) := ⟨hr.half, hr.brisk, hr.settings, hr.range, hr.slow⟩
  have := C199_not_overheated hr' hb t (L + M - 1) (fun n => by unfold targetAt; rw [hv]; exact ht n) (by
    intro n hh hc
    refine cools n ⟨by have := hh.1; omega, fun j hj => ?_⟩ hc
    refine (reached k hk l0 ms M hM hw (n - j)).2 ⟨by have := hh.1; omega, fun j' hj' => ?_⟩
    have h := hh.2 (j + j') (by omega)
    unfold posAt at h
    rw [hv] at h
    rw [Nat.sub_sub]; exact h) n
  have e : tempAt (seenOf k (k.after l0) ms) n = (ms n).x.temp16 := rfl
  have e0 : tempAt (seenOf k (k.after l0) ms) 0 = (ms 0).x.temp16 := rfl
  rw [e, e0] at this
  omega

/-- **C250, kept warm by the whole system.** As the first, but the room does not cool once the motor has been fully open, and the boiler on, for `L` minutes, and the boiler is run by a hub that hears of
the position wanted at least once in any `D` minutes, `D` at least two minutes less than the minimum on time, not restarting meanwhile: whatever else is sent, replayed or
made up, and whoever else asks for heat, the room is never colder than `(11 + L + M + 2*D + min 254 minOn)/16`C below the lower of where it started and `t` less 9/16C. -/
theorem C250_house_kept_warm (k : TrvKit) (hk : k.Ok) (hmax : 100 ≤ k.v.maxPC ∨ k.prop = false ∧ 66 ≤ k.v.maxPC) (l0 : List TrvEv) (hl0 : readingsIn l0 = [])
    (ms : Nat → TrvMinute) (M : Nat) (hM : 1 ≤ M) (hw : TrvWorking k (k.after l0) ms M) (hr : PlainRoom k.v (readsOf ms)) (t L D N : Nat)
    (htar : ∀ n, n ≤ N → t ≤ (trvAt k (k.after l0) ms (n + 1)).mv.target)
    (tpm minOn : Nat) (ht : tpm = 30 ∨ tpm = 60) (hm : minOn ≤ 255) (hD : D + 2 ≤ minOn) (hD1 : 1 ≤ D) (e : EncFn) (hel : EncLen e) (key : Bytes) (ids : List Bytes) (h0 : House)
    (hb : HBegin ids h0) (H : Nat → House) (hreach : HReach false tpm minOn e key ids h0 (H 0)) (hmin : ∀ n, n < N → MinuteOf tpm minOn e key ids (H n) (H (n + 1)))
    (hears : ∀ n, n + D ≤ N → ∃ j, n ≤ j ∧ j < n + D ∧ Hears tpm minOn e key ids h0 (H j) (H (j + 1)) (trvAt k (k.after l0) ms (j + 1)).mv.value)
    (heats : ∀ n, n < N → MotorHeld k (k.after l0) ms 100 L n → BoilerOnFor H L n → (ms n).x.temp16 ≤ 16 * (t : Int) - 9 → (ms n).x.temp16 ≤ (ms (n + 1)).x.temp16)
    (n : Nat) (hn : n ≤ N) :
    min (ms 0).x.temp16 (16 * (t : Int) - 9) - (11 + L + M + 2 * D + min 254 minOn : Nat) ≤ (ms n).x.temp16 := by
  have hnew : (k.after l0).mv = newMV := mv_keep _ _ _ hl0
  have hv := valve_at k (k.after l0) hnew ms hw.one
  have hr' : PlainRoom k.v (seenOf k (k.after l0) ms) := ⟨hr.half, hr.brisk, hr.settings, hr.range, hr.slow⟩
  have := C222_room_kept_warm k.v (seenOf k (k.after l0) ms) hr' (by omega) t (L + M - 1) D N (fun n hn => by unfold targetAt; rw [hv]; exact htar n hn)
    tpm minOn ht hm hD hD1 e hel key ids h0 hb H hreach hmin (fun n hn => by
      obtain ⟨j, j1, j2, j3⟩ := hears n hn
      refine ⟨j, j1, j2, ?_⟩
      unfold posAt
      rw [hv]; exact j3) (by
    intro n hnN hh hbo hc
    refine heats n hnN ⟨by have := hh.1; omega, fun j hj => ?_⟩ ⟨by have := hbo.1; omega, fun j hj => hbo.2 j (by omega)⟩ hc
    refine (reached k hk l0 ms M hM hw (n - j)).1 (hmax.imp_right fun h => ⟨h.1, by omega⟩) ⟨by have := hh.1; omega, fun j' hj' => ?_⟩
    have h := hh.2 (j + j') (by omega)
    unfold posAt at h
    rw [hv] at h
    rw [Nat.sub_sub]; exact h) n hn
  have e : tempAt (seenOf k (k.after l0) ms) n = (ms n).x.temp16 := rfl
  have e0 : tempAt (seenOf k (k.after l0) ms) 0 = (ms 0).x.temp16 := rfl
  rw [e, e0] at this
  omega

/-! ## Non-vacuity -/

/-- A room at 6C that cools to 4.75C in 20 minutes and stays there, the frost setting being 6C; the motor polled four times a minute. -/
def exCools (n : Nat) : Int := 96 - (min n 20 : Nat)

/-- A room at 20C that warms to 21.25C in 20 minutes and stays there, the warm setting being 19C. -/
def exWarms (n : Nat) : Int := 320 + (min n 20 : Nat)

def exTrvMinute (f : Nat → Int) (n : Nat) : TrvMinute :=
  ⟨exFreezing.1, { exFreezing.2 with temp16 := f n }, List.replicate 4 (.poll exStop)⟩

/-- Start-up, before the controller is first read. -/
def exStartUp : List TrvEv := List.replicate 21 (.poll exStop) ++ .fitted :: List.replicate 18 (.poll exStop)

theorem exTrvMinute_normal (f : Nat → Int) (n : Nat) : (trvAt (exKit exRxID) ((exKit exRxID).after exStartUp) (exTrvMinute f) n).motor.st = .normal := by
  induction n with
  | zero => exact (by decide +kernel : ((exKit exRxID).after exStartUp).motor.st = .normal)
  | succ n ih =>
    have hi := motor_always (by decide) (by decide) (trv_inv exSetup false 200 40 0 0 (histAt (exTrvMinute f) exStartUp n))
    rw [trvAt_hist] at ih
    show (trvAfter exSetup (trvAt (exKit exRxID) ((exKit exRxID).after exStartUp) (exTrvMinute f) n) _).motor.st = _
    rw [trvAt_hist, motorEvs_run]
    exact bin_stays_normal _ _ hi.1 hi.2.2.1 ih

theorem exTrvMinute_working (f : Nat → Int) : TrvWorking (exKit exRxID) ((exKit exRxID).after exStartUp) (exTrvMinute f) 2 := by
  refine ⟨fun n => rfl, exTrvMinute_normal f, fun n _ => ⟨fun i hi => ?_, by show 4 ≤ earlyIn 200 (List.replicate 4 (.poll exStop)); decide⟩⟩
  have hp : pollsIn (exTrvMinute f n).rest = List.replicate 4 exStop := rfl
  rw [hp] at hi
  rw [List.eq_of_mem_replicate hi]
  refine .inr ⟨rfl, rfl, fun h => ?_⟩
  have := (motor_always (by decide) (by decide) (trv_inv exSetup false 200 40 0 0 (histAt (exTrvMinute f) exStartUp n))).2.2.1
  rw [trvAt_hist] at h
  exact absurd (h.symm.trans this) (by decide)

theorem exTrvMinute_plain : PlainRoom exSetup (readsOf (exTrvMinute exCools)) := by
  refine ⟨by decide, ⟨rfl, fun n => rfl⟩, fun n => exFreezing_ok.1, fun n => ?_, fun n => ?_⟩
  · show -1900 ≤ (96 - (min n 20 : Nat) : Int) ∧ (96 - (min n 20 : Nat) : Int) ≤ 1000
    omega
  · show (96 - (min (n + 1) 20 : Nat) : Int) ≤ 96 - (min n 20 : Nat) + 1 ∧ (96 - (min n 20 : Nat) : Int) ≤ 96 - (min (n + 1) 20 : Nat) + 1
    omega

example (n : Nat) : (87 - 10 - 21 - 2 : Int) ≤ (exTrvMinute exCools n).x.temp16 := by
  have := C250_kept_warm (exKit exRxID) (exKit_ok exRxID) (.inl (by decide)) exStartUp (by decide +kernel) (exTrvMinute exCools) 2 (by decide) (exTrvMinute_working _) exTrvMinute_plain 6 21
    (fun n => by
      have hv := valve_at (exKit exRxID) ((exKit exRxID).after exStartUp) (mv_keep _ _ _ (by decide +kernel)) (exTrvMinute exCools) (fun _ => rfl)
      rw [← hv]
      have tb := C52_target_bounds exSetup.p { (exTrvMinute exCools n).x.tt with mode := ((valveAt exSetup (seenOf (exKit exRxID) ((exKit exRxID).after exStartUp) (exTrvMinute exCools)) n).mode.run (exTrvMinute exCools n).ops).read } exFreezing_ok.1
      exact tb.1)
    (fun n h _ => by
      have := h.1
      show (96 - (min n 20 : Nat) : Int) ≤ 96 - (min (n + 1) 20 : Nat)
      omega) n
  have e : (exTrvMinute exCools 0).x.temp16 = 96 := rfl
  rw [e] at this
  omega

example (n : Nat) : (exTrvMinute exWarms n).x.temp16 ≤ 320 + 35 + 21 + 2 := by
  have := C250_not_overheated (exKit exRxID) (exKit_ok exRxID) exStartUp (by decide +kernel) (exTrvMinute exWarms) 2 (by decide) (exTrvMinute_working _) (by
      refine ⟨by decide, ⟨rfl, fun n => rfl⟩, fun n => exFreezing_ok.1, fun n => ?_, fun n => ?_⟩
      · show -1900 ≤ (320 + (min n 20 : Nat) : Int) ∧ (320 + (min n 20 : Nat) : Int) ≤ 1000
        omega
      · show (320 + (min (n + 1) 20 : Nat) : Int) ≤ 320 + (min n 20 : Nat) + 1 ∧ (320 + (min n 20 : Nat) : Int) ≤ 320 + (min (n + 1) 20 : Nat) + 1
        omega) (fun n => ⟨List.not_mem_nil, fun _ h => (List.not_mem_nil h).elim⟩) 19 21
    (fun n => by
      have hv := valve_at (exKit exRxID) ((exKit exRxID).after exStartUp) (mv_keep _ _ _ (by decide +kernel)) (exTrvMinute exWarms) (fun _ => rfl)
      rw [← hv]
      have hb : NoBoost (seenOf (exKit exRxID) ((exKit exRxID).after exStartUp) (exTrvMinute exWarms)) :=
        fun n => ⟨List.not_mem_nil, fun _ h => (List.not_mem_nil h).elim⟩
      have tb := C52_target_bounds exSetup.p { (exTrvMinute exWarms n).x.tt with mode := ((valveAt exSetup (seenOf (exKit exRxID) ((exKit exRxID).after exStartUp) (exTrvMinute exWarms)) n).mode.run (exTrvMinute exWarms n).ops).read } exFreezing_ok.1
      have hnb := (loop_no_bake (v := exSetup) hb n).2
      have hnb' : ((valveAt exSetup (seenOf (exKit exRxID) ((exKit exRxID).after exStartUp) (exTrvMinute exWarms)) n).mode.run (exTrvMinute exWarms n).ops).read.inBake = false := hnb
      rw [if_neg (by rw [hnb']; simp)] at tb
      exact tb.2.1)
    (fun n h _ => by
      have := h.1
      show (320 + (min (n + 1) 20 : Nat) : Int) ≤ 320 + (min n 20 : Nat)
      omega) n
  have e : (exTrvMinute exWarms 0).x.temp16 = 320 := rfl
  rw [e] at this
  omega

end OTR.Props
