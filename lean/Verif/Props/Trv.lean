import Verif.Props.EndToEnd
import Verif.Props.MotorStart
import Verif.Proof.Trv
/-!
# C247: a whole radiator valve, controller and motor together
-/

namespace OTR.Props
open OTR

/-! ## Specification -/

/-- A valve just powered up: `prop`, which of the two motor drivers it has; the rest as for the motor. -/
def newTrv (prop : Bool) (limit minDR tfo trev : Nat) : Trv := ⟨newMV, Motor.new prop limit minDR tfo trev, 0⟩

/-- The valve after a history since power up. -/
def trvAfter (v : ValveSetup) (t : Trv) (l : List TrvEv) : Trv := t.run v.p v.c v.maxPC l

/-- The readings the controller took in a history. -/
def readingsIn (l : List TrvEv) : List Reading := l.filterMap fun e => match e with | .minute ops x => some (ops, x) | _ => none

/-- The polls of the motor in a history. -/
def pollsIn (l : List TrvEv) : List MIn := l.filterMap fun e => match e with | .poll i => some i | _ => none

/-- A poll of a motor working well with the valve against its stop: the end of the travel is reported, and it is not one at which a driver that
wants to calibrate starts doing so. -/
structure EndStopPoll (m : Motor) (i : MIn) : Prop where
  hit : i.first.hit = true
  defer : m.prop = true → m.need = true → i.defer = true

/-- How many polls in a history came early enough in the sub-cycle to do something. -/
def earlyIn (limit : Nat) (l : List TrvEv) : Nat := (pollsIn l).countP fun i => decide (i.sct < limit)

/-! ## Proofs -/

theorem trvAfter_snoc (v : ValveSetup) (t : Trv) (l : List TrvEv) (e : TrvEv) :
    trvAfter v t (l ++ [e]) = (trvAfter v t l).step v.p v.c v.maxPC e := by
  simp [trvAfter, Trv.run]

theorem readings_append (a b : List TrvEv) : readingsIn (a ++ b) = readingsIn a ++ readingsIn b := List.filterMap_append

theorem polls_append (a b : List TrvEv) : pollsIn (a ++ b) = pollsIn a ++ pollsIn b := List.filterMap_append

/-- What the parts have gone through. -/
structure TrvInv (v : ValveSetup) (m0 : Motor) (l : List TrvEv) (t : Trv) : Prop where
  mv : ∃ rs : List Reading, t.mv = newMV.run v.p v.c v.maxPC rs ∧
    rs.map (fun r => (r.1, { r.2 with phys := none, physOpen := false })) =
      (readingsIn l).map (fun r => (r.1, { r.2 with phys := none, physOpen := false }))
  motor : ∃ evs : List MEv, t.motor = (m0.runAll evs).1 ∧ (.fitted ∈ evs → .fitted ∈ l) ∧ ∀ i, .poll i ∈ evs → i ∈ pollsIn l
  target : readingsIn l ≠ [] → t.motor.target = t.mv.value
  shown : (pollsIn l = [] → t.shown = 0) ∧ (pollsIn l ≠ [] → t.shown = t.motor.cur)

theorem cur_wiggle (m : Motor) (i : MIn) : (m.wiggle i).cur = m.cur ∧ (m.wiggle i).st = m.st ∧ (m.wiggle i).hits = m.hits ∧
    (m.wiggle i).cp = m.cp ∧ (m.wiggle i).need = m.need ∧ (m.wiggle i).prop = m.prop ∧ (m.wiggle i).limit = m.limit := by
  have h : ∀ (m : Motor) o k, (m.ticks o k).cur = m.cur ∧ (m.ticks o k).st = m.st ∧ (m.ticks o k).hits = m.hits ∧
      (m.ticks o k).cp = m.cp ∧ (m.ticks o k).need = m.need ∧ (m.ticks o k).prop = m.prop ∧ (m.ticks o k).limit = m.limit := by
    intro m o k
    unfold Motor.ticks
    split
    · exact ⟨rfl, rfl, rfl, rfl, rfl, rfl, rfl⟩
    · split <;> exact ⟨rfl, rfl, rfl, rfl, rfl, rfl, rfl⟩
  have a := h m true i.wigO
  have b := h (m.ticks true i.wigO) false i.wigC
  unfold Motor.wiggle
  exact ⟨b.1.trans a.1, b.2.1.trans a.2.1, b.2.2.1.trans a.2.2.1, b.2.2.2.1.trans a.2.2.2.1, b.2.2.2.2.1.trans a.2.2.2.2.1,
    b.2.2.2.2.2.1.trans a.2.2.2.2.2.1, b.2.2.2.2.2.2.trans a.2.2.2.2.2.2⟩

theorem trv_step (v : ValveSetup) (m0 : Motor) (l : List TrvEv) (t : Trv) (h : TrvInv v m0 l t) (e : TrvEv) :
    TrvInv v m0 (l ++ [e]) (t.step v.p v.c v.maxPC e) := by
  obtain ⟨rs, hmv, hrs⟩ := h.mv
  obtain ⟨evs, hm, hf, hp⟩ := h.motor
  have snoc : ∀ e', t.motor = (m0.runAll evs).1 → (t.motor.step e').1 = (m0.runAll (evs ++ [e'])).1 := by
    intro e' h; rw [runAll_snoc, h]
  cases e with
  | minute ops x =>
    have hr : readingsIn (l ++ [.minute ops x]) = readingsIn l ++ [(ops, x)] := readings_append _ _
    have hpo : pollsIn (l ++ [.minute ops x]) = pollsIn l := by rw [polls_append]; exact List.append_nil _
    have hmv' : (t.minute v.p v.c v.maxPC ops x).mv = newMV.run v.p v.c v.maxPC (rs ++ [(ops, t.sees x)]) := by
      rw [mrun_append, ← hmv]; rfl
    have hle : (t.minute v.p v.c v.maxPC ops x).mv.value ≤ 100 := by
      rw [hmv']; have := (mv_always v (rs ++ [(ops, t.sees x)])).1; omega
    have hset : (t.minute v.p v.c v.maxPC ops x).motor = t.motor.setTarget (t.minute v.p v.c v.maxPC ops x).mv.value := by
      show Trv.setActuator t.motor (t.minute v.p v.c v.maxPC ops x).mv.value = _
      unfold Trv.setActuator
      rw [if_neg (by omega)]
    refine ⟨⟨rs ++ [(ops, t.sees x)], hmv', ?_⟩, ⟨evs ++ [.target (t.minute v.p v.c v.maxPC ops x).mv.value], ?_, ?_, ?_⟩, ?_, ?_⟩
    · rw [hr, List.map_append, List.map_append, hrs]; rfl
    · rw [← snoc _ hm]; exact hset
    · intro hx
      rcases List.mem_append.1 hx with hx | hx
      · exact List.mem_append_left _ (hf hx)
      · simp at hx
    · intro i hx
      rw [hpo]
      rcases List.mem_append.1 hx with hx | hx
      · exact hp i hx
      · simp at hx
    · intro _
      show (t.minute v.p v.c v.maxPC ops x).motor.target = _
      rw [hset]
      show min (t.minute v.p v.c v.maxPC ops x).mv.value 100 = (t.minute v.p v.c v.maxPC ops x).mv.value
      omega
    · rw [hpo]
      refine ⟨h.shown.1, fun hne => ?_⟩
      show t.shown = (t.minute v.p v.c v.maxPC ops x).motor.cur
      rw [hset]
      exact h.shown.2 hne
  | poll i =>
    have hr : readingsIn (l ++ [.poll i]) = readingsIn l := by rw [readings_append]; exact List.append_nil _
    have hpo : pollsIn (l ++ [.poll i]) = pollsIn l ++ [i] := polls_append _ _
    refine ⟨⟨rs, hmv, by rw [hr]; exact hrs⟩, ⟨evs ++ [MEv.poll i], snoc (.poll i) hm, ?_, ?_⟩, ?_, ?_⟩
    · intro hx
      rcases List.mem_append.1 hx with hx | hx
      · exact List.mem_append_left _ (hf hx)
      · simp at hx
    · intro j hx
      rw [hpo]
      rcases List.mem_append.1 hx with hx | hx
      · exact List.mem_append_left _ (hp j hx)
      · simp at hx; simp [hx]
    · rw [hr]
      intro hne
      exact (tgt_poll t.motor i).trans (h.target hne)
    · rw [hpo]
      exact ⟨fun hx => by simp at hx, fun _ => rfl⟩
  | fitted =>
    have hr : readingsIn (l ++ [.fitted]) = readingsIn l := by rw [readings_append]; exact List.append_nil _
    have hpo : pollsIn (l ++ [.fitted]) = pollsIn l := by rw [polls_append]; exact List.append_nil _
    have hsf : t.motor.signalFitted.target = t.motor.target ∧ t.motor.signalFitted.cur = t.motor.cur := by
      unfold Motor.signalFitted; split <;> exact ⟨rfl, rfl⟩
    refine ⟨⟨rs, hmv, by rw [hr]; exact hrs⟩, ⟨evs ++ [MEv.fitted], snoc .fitted hm, ?_, ?_⟩, ?_, ?_⟩
    · intro _; simp
    · intro j hx
      rw [hpo]
      rcases List.mem_append.1 hx with hx | hx
      · exact hp j hx
      · simp at hx
    · rw [hr]; intro hne; exact hsf.1.trans (h.target hne)
    · rw [hpo]; exact ⟨h.shown.1, fun hne => (h.shown.2 hne).trans hsf.2.symm⟩
  | wiggle i =>
    have hr : readingsIn (l ++ [.wiggle i]) = readingsIn l := by rw [readings_append]; exact List.append_nil _
    have hpo : pollsIn (l ++ [.wiggle i]) = pollsIn l := by rw [polls_append]; exact List.append_nil _
    refine ⟨⟨rs, hmv, by rw [hr]; exact hrs⟩, ⟨evs ++ [MEv.wiggle i], snoc (.wiggle i) hm, ?_, ?_⟩, ?_, ?_⟩
    · intro hx
      rcases List.mem_append.1 hx with hx | hx
      · exact List.mem_append_left _ (hf hx)
      · simp at hx
    · intro j hx
      rw [hpo]
      rcases List.mem_append.1 hx with hx | hx
      · exact hp j hx
      · simp at hx
    · rw [hr]; intro hne; exact (tgt_wiggle t.motor i).trans (h.target hne)
    · rw [hpo]; exact ⟨h.shown.1, fun hne => (h.shown.2 hne).trans (cur_wiggle t.motor i).1.symm⟩

theorem trv_inv (v : ValveSetup) (prop : Bool) (limit minDR tfo trev : Nat) (l : List TrvEv) :
    TrvInv v (Motor.new prop limit minDR tfo trev) l (trvAfter v (newTrv prop limit minDR tfo trev) l) := by
  have key : ∀ n, ∀ l : List TrvEv, l.length = n →
      TrvInv v (Motor.new prop limit minDR tfo trev) l (trvAfter v (newTrv prop limit minDR tfo trev) l) := by
    intro n
    induction n with
    | zero =>
      intro l hl
      have : l = [] := List.length_eq_zero_iff.1 hl
      subst this
      exact ⟨⟨[], rfl, rfl⟩, ⟨[], rfl, fun h => by simp at h, fun i h => by simp at h⟩, fun h => absurd rfl h, ⟨fun _ => rfl, fun h => absurd rfl h⟩⟩
    | succ n ih =>
      intro l hl
      have hne : l ≠ [] := by intro h; subst h; simp at hl
      have hdl := List.dropLast_concat_getLast hne
      rw [← hdl, trvAfter_snoc]
      exact trv_step v _ _ _ (ih _ (by rw [List.length_dropLast]; omega)) _
  exact key _ l rfl

/-! ### The motor against the open end stop -/

/-- The target asks for fully open. -/
def Wide (m : Motor) : Prop := m.target = 100 ∨ m.prop = false ∧ 50 ≤ m.target

/-- One poll in normal running with the end stop reported and the target fully open. -/
theorem open_hit (m : Motor) (i : MIn) (hi : MInv m) (hb : m.prop = false → m.cur = 0 ∨ m.cur = 100) (hst : m.st = .normal)
    (he : i.sct < m.limit) (hg : EndStopPoll m i) (hw : Wide m) :
    (m.poll i).1.st = .normal ∧ (m.poll i).1.need = m.need ∧ (m.poll i).1.cp = m.cp ∧
      ((m.poll i).1.cur = 100 ∨ (m.cur ≠ 100 ∧ (m.poll i).1.hits = m.hits + 1 ∧ m.hits + 1 < 4)) := by
  have hl2 : ¬ i.sct ≥ m.limit := by omega
  have h50 : 50 ≤ m.target := by rcases hw with h | ⟨_, h⟩ <;> omega
  have hc := hi.cur
  unfold Motor.poll
  rw [if_neg hl2, hst]
  dsimp only
  by_cases ht : m.cur = m.target
  · rw [if_pos ht]
    refine ⟨rfl, rfl, rfl, .inl ?_⟩
    show m.cur = 100
    rcases hw with h | ⟨h, _⟩
    · omega
    · have := hb h; omega
  rw [if_neg ht]
  have hnone : (if m.prop then m.normalProp i else none) = none := by
    by_cases hp : m.prop = true
    · rw [if_pos hp]
      have h100 : m.target = 100 := by
        rcases hw with h | ⟨h, _⟩
        · exact h
        · rw [hp] at h; cases h
      unfold Motor.normalProp
      have hd : ¬ (m.need = true ∧ ¬ i.defer = true) := fun h => h.2 (hg.defer hp h.1)
      rw [if_neg hd]
      by_cases hnp : m.nonProp = true
      · rw [if_pos hnp]
      · rw [if_neg hnp]
        dsimp only
        have hprec : m.cp.prec ≤ 15 := by
          simp only [Motor.nonProp, Calib.cannot, Bool.or_eq_true, decide_eq_true_eq, not_or] at hnp
          omega
        rw [if_pos (.inl (by unfold Motor.weps; omega))]
    · rw [if_neg hp]
  rw [hnone]
  dsimp only
  unfold Motor.normalBin
  dsimp only
  have hde : decide (m.target ≥ 50) = true := by simpa using h50
  rw [hde]
  rw [if_pos (rfl : true = true)]
  by_cases hcu : m.cur = 100
  · rw [if_pos hcu]
    exact ⟨hst, rfl, rfl, .inl hcu⟩
  rw [if_neg hcu]
  have hlow : ¬ (i.low = true ∧ m.target < m.cur) := by
    rintro ⟨_, h⟩
    rcases hw with h' | ⟨h', _⟩
    · omega
    · have := hb h'; omega
  rw [if_neg hlow]
  have hnn : ¬ ¬ i.first.hit = true := by simp [hg.hit]
  rw [if_neg hnn]
  have hr : ∃ a b, m.run true i.first = { m with tfo := a, trev := b } := by
    obtain ⟨a, b, h, _⟩ := ticks_eq m true i.first.ticks hi.tfo hi.trev
    exact ⟨a, b, h⟩
  obtain ⟨a, b, hr⟩ := hr
  rw [hr]
  dsimp only
  have hE : ∀ m' : Motor, (m'.hitEndstop true).cur = 100 ∧ (m'.hitEndstop true).st = m'.st ∧ (m'.hitEndstop true).need = m'.need ∧
      (m'.hitEndstop true).cp = m'.cp := by
    intro m'; unfold Motor.hitEndstop; split <;> exact ⟨rfl, rfl, rfl, rfl⟩
  by_cases h4 : m.hits + 1 ≥ 4
  · rw [if_pos h4]
    obtain ⟨e1, e2, e3, e4⟩ := hE { m with hits := m.hits + 1, tfo := a, trev := b }
    exact ⟨e2.trans hst, e3, e4, .inl e1⟩
  · rw [if_neg h4]
    exact ⟨hst, rfl, rfl, .inr ⟨hcu, rfl, by omega⟩⟩

/-- A whole valve whose room has been freezing has its motor's target at the maximum. -/
theorem trv_target (v : ValveSetup) (hc : v.c.binary = false) (hg : v.c.alwaysGlacial = false) (h50 : 50 ≤ v.maxPC) {m0 : Motor} {l : List TrvEv} {t : Trv}
    (h : TrvInv v m0 l t) (pre es : List Reading) (hl : readingsIn l = pre ++ es) (hf : ∀ x ∈ es, freezingReading v x)
    (hlong : 27 ≤ es.length ∨ (pre = [] ∧ 11 ≤ es.length)) :
    t.mv.value = min v.maxPC 100 ∧ t.motor.target = min v.maxPC 100 ∧
      ∃ rs, t.mv = newMV.run v.p v.c v.maxPC rs ∧ (newMV.run v.p v.c v.maxPC rs).value = min v.maxPC 100 := by
  obtain ⟨rs, hmv, hrs⟩ := h.mv
  rw [hl, List.map_append] at hrs
  obtain ⟨pre', es', rfl, hp, he⟩ := List.map_eq_append_iff.1 hrs
  have hlen : es'.length = es.length := by have := congrArg List.length he; simpa using this
  have hval : (newMV.run v.p v.c v.maxPC (pre' ++ es')).value = min v.maxPC 100 := by
    refine freezing_open v hc hg h50 pre' es' ?_ ?_
    · intro x hx
      have : (x.1, { x.2 with phys := none, physOpen := false }) ∈ es.map (fun r : Reading => (r.1, { r.2 with phys := none, physOpen := false })) := by
        rw [← he]; exact List.mem_map_of_mem (f := fun r : Reading => (r.1, { r.2 with phys := none, physOpen := false })) hx
      obtain ⟨y, hy, e⟩ := List.mem_map.1 this
      have hyf := hf y hy
      have : freezingReading v (y.1, { y.2 with phys := none, physOpen := false }) := hyf
      rw [e] at this
      exact this
    · rw [hlen]
      rcases hlong with h | ⟨h, h'⟩
      · exact .inl h
      · subst h
        exact .inr ⟨by simpa using hp, h'⟩
  have hv : t.mv.value = min v.maxPC 100 := by rw [hmv]; exact hval
  refine ⟨hv, ?_, _, hmv, hval⟩
  rw [h.target (by
    rw [hl]; intro h
    have := List.append_eq_nil_iff.1 h
    rw [this.2] at hlong
    simp at hlong), hv]

theorem motor_always {v : ValveSetup} {prop : Bool} {limit minDR tfo trev : Nat} (h1 : tfo ≤ 65535) (h2 : trev ≤ 65535) {l : List TrvEv} {t : Trv}
    (h : TrvInv v (Motor.new prop limit minDR tfo trev) l t) :
    MInv t.motor ∧ (t.motor.prop = false → t.motor.cur = 0 ∨ t.motor.cur = 100) ∧ t.motor.prop = prop ∧ t.motor.limit = limit := by
  obtain ⟨evs, hm, -⟩ := h.motor
  obtain ⟨a, b⟩ := new_inv prop limit minDR tfo trev h1 h2 (0, none)
  have hi := (run_inv evs _ _ a b).1
  have hcfg : ∀ (evs : List MEv) (m : Motor), MInv m → cfg (m.runAll evs).1 = cfg m := by
    intro evs
    induction evs with
    | nil => intro m _; rfl
    | cons e es ih =>
      intro m hm
      have hok := step_ok m (m.hits, some true) e hm ⟨Nat.le_refl _, fun _ => rfl⟩
      exact (ih _ hok.inv).trans (step_cfg m e hm)
  have hcf := hcfg evs _ a
  rw [← hm] at hi hcf
  have hp : t.motor.prop = prop := congrArg (·.2.1) hcf
  refine ⟨hi, ?_, hp, congrArg (·.1) hcf⟩
  intro hpf
  rw [hp] at hpf
  subst hpf
  have := (bin_run evs _ _ (bin_new limit minDR tfo trev h1 h2 (0, true))).cur
  rw [hm]; exact this

theorem open_run (v : ValveSetup) (hc : v.c.binary = false) (hg : v.c.alwaysGlacial = false) (prop : Bool) (limit minDR tfo trev : Nat)
    (h1 : tfo ≤ 65535) (h2 : trev ≤ 65535) (hmax : 100 ≤ v.maxPC ∨ prop = false ∧ 50 ≤ v.maxPC) (pre : List Reading) (post : List TrvEv) :
    ∀ (l : List TrvEv) (es : List Reading), readingsIn l = pre ++ es → (∀ x ∈ es, freezingReading v x) →
    (27 ≤ es.length ∨ (pre = [] ∧ 11 ≤ es.length)) → (∀ x ∈ readingsIn post, freezingReading v x) →
    (trvAfter v (newTrv prop limit minDR tfo trev) l).motor.st = .normal →
    (∀ i ∈ pollsIn post, limit ≤ i.sct ∨ EndStopPoll (trvAfter v (newTrv prop limit minDR tfo trev) l).motor i) →
    ((trvAfter v (newTrv prop limit minDR tfo trev) l).motor.cur = 100 ∨
      4 ≤ (trvAfter v (newTrv prop limit minDR tfo trev) l).motor.hits + earlyIn limit post) →
    (trvAfter v (newTrv prop limit minDR tfo trev) (l ++ post)).motor.st = .normal ∧
      (trvAfter v (newTrv prop limit minDR tfo trev) (l ++ post)).motor.cur = 100 ∧
      (trvAfter v (newTrv prop limit minDR tfo trev) (l ++ post)).motor.cp = (trvAfter v (newTrv prop limit minDR tfo trev) l).motor.cp := by
  induction post with
  | nil =>
    intro l es _ _ _ _ hst _ hor
    rw [List.append_nil]
    have hm := (motor_always h1 h2 (trv_inv v prop limit minDR tfo trev l)).1
    refine ⟨hst, ?_, rfl⟩
    rcases hor with h | h
    · exact h
    · have := hm.hitsN (by rw [hst]; simp)
      simp [earlyIn, pollsIn] at h; omega
  | cons e post ih =>
    intro l es hl hf hlong hpf hst hgood hor
    have inv := trv_inv v prop limit minDR tfo trev l
    have hstep := trvAfter_snoc v (newTrv prop limit minDR tfo trev) l e
    have happ : l ++ e :: post = (l ++ [e]) ++ post := by simp
    rw [happ]
    generalize ht : trvAfter v (newTrv prop limit minDR tfo trev) l = t at *
    obtain ⟨hmi, hbin, hprop, hlim0⟩ := motor_always h1 h2 inv
    have htgt := (trv_target v hc hg (by omega) inv pre es hl hf hlong).2.1
    have hpost : ∀ x ∈ readingsIn post, freezingReading v x := fun x hx =>
      hpf x (by rw [show e :: post = [e] ++ post from rfl, readings_append]; exact List.mem_append_right _ hx)
    have hgpost : ∀ i ∈ pollsIn post, limit ≤ i.sct ∨ EndStopPoll t.motor i := fun x hx =>
      hgood x (by rw [show e :: post = [e] ++ post from rfl, polls_append]; exact List.mem_append_right _ hx)
    cases e with
    | minute ops x =>
      have hsa : ∃ y, (t.minute v.p v.c v.maxPC ops x).motor = { t.motor with target := y } := by
        show ∃ y, Trv.setActuator t.motor (t.minute v.p v.c v.maxPC ops x).mv.value = _
        unfold Trv.setActuator
        split
        · exact ⟨t.motor.target, rfl⟩
        · exact ⟨_, rfl⟩
      obtain ⟨y, hsa⟩ := hsa
      have hm : (trvAfter v (newTrv prop limit minDR tfo trev) (l ++ [.minute ops x])).motor = { t.motor with target := y } := by rw [hstep]; exact hsa
      have := ih (l ++ [.minute ops x]) (es ++ [(ops, x)]) (by rw [readings_append, hl, List.append_assoc]; rfl) (by
        intro z hz
        rcases List.mem_append.1 hz with hz | hz
        · exact hf z hz
        · exact hpf z (by rw [List.mem_singleton.1 hz]; simp [readingsIn])) (by
        rw [List.length_append]
        rcases hlong with h | h
        · exact .inl (by omega)
        · exact .inr ⟨h.1, by omega⟩) hpost
        (by rw [hm]; exact hst) (by rw [hm]; exact fun i hi => (hgpost i hi).imp_right fun h => ⟨h.hit, h.defer⟩) (by rw [hm]; exact hor)
      rw [hm] at this
      exact this
    | poll i =>
      have hm : (trvAfter v (newTrv prop limit minDR tfo trev) (l ++ [.poll i])).motor = (t.motor.poll i).1 := by rw [hstep]; rfl
      have hpc : pollsIn (.poll i :: post) = i :: pollsIn post := rfl
      by_cases hlate : limit ≤ i.sct
      · have hsame : (t.motor.poll i).1 = t.motor := congrArg Prod.fst (C62_late_poll t.motor i (by rw [hlim0]; exact hlate))
        rw [hsame] at hm
        have hlen : earlyIn limit (.poll i :: post) = earlyIn limit post := by
          unfold earlyIn; rw [hpc, List.countP_cons_of_neg (by simp; omega)]
        rw [hlen] at hor
        have := ih (l ++ [.poll i]) es (by rw [readings_append, hl]; exact List.append_nil _) hf hlong hpost
          (by rw [hm]; exact hst) (by rw [hm]; exact hgpost) (by rw [hm]; exact hor)
        rw [hm] at this
        exact this
      have hi : EndStopPoll t.motor i := (hgood i (by rw [hpc]; simp)).resolve_left hlate
      have hlen : earlyIn limit (.poll i :: post) = earlyIn limit post + 1 := by
        unfold earlyIn; rw [hpc, List.countP_cons_of_pos (by simp; omega)]
      rw [hlen] at hor
      have ho := open_hit t.motor i hmi hbin hst (by omega) hi (by
        unfold Wide
        rw [htgt, hprop]
        rcases hmax with h | h
        · left; omega
        · exact .inr ⟨h.1, by omega⟩)
      have hcf := step_cfg t.motor (.poll i) hmi
      have hpr : (t.motor.poll i).1.prop = t.motor.prop := congrArg (·.2.1) hcf
      have := ih (l ++ [.poll i]) es (by rw [readings_append, hl]; exact List.append_nil _) hf hlong hpost
        (by rw [hm]; exact ho.1) (by
          rw [hm]
          exact fun j hj => (hgpost j hj).imp_right fun h => ⟨h.hit, by rw [hpr, ho.2.1]; exact h.defer⟩) (by
          rw [hm]
          rcases ho.2.2.2 with h | ⟨h, h', _⟩
          · exact .inl h
          · rcases hor with hor | hor
            · exact absurd hor h
            · right; rw [h']; omega)
      rw [hm, ho.2.2.1] at this
      exact this
    | fitted =>
      have hm : (trvAfter v (newTrv prop limit minDR tfo trev) (l ++ [.fitted])).motor = t.motor := by
        rw [hstep]; show t.motor.signalFitted = _
        unfold Motor.signalFitted; rw [if_neg (by rw [hst]; simp)]
      have := ih (l ++ [.fitted]) es (by rw [readings_append, hl]; exact List.append_nil _) hf hlong hpost
        (by rw [hm]; exact hst) (by rw [hm]; exact hgpost) (by rw [hm]; exact hor)
      rw [hm] at this
      exact this
    | wiggle i =>
      have hm : (trvAfter v (newTrv prop limit minDR tfo trev) (l ++ [.wiggle i])).motor = t.motor.wiggle i := by rw [hstep]; rfl
      obtain ⟨w1, w2, w3, w4, w5, w6, w7⟩ := cur_wiggle t.motor i
      have := ih (l ++ [.wiggle i]) es (by rw [readings_append, hl]; exact List.append_nil _) hf hlong hpost
        (by rw [hm, w2]; exact hst) (by
          rw [hm]
          exact fun j hj => (hgpost j hj).imp_right fun h => ⟨h.hit, by rw [w6, w5]; exact h.defer⟩)
        (by rw [hm, w1, w3]; exact hor)
      rw [hm, w4] at this
      exact this

/-! ## Theorems -/

/-- **C247.** A freezing room gets its valve open and calls for heat. Take any history of a valve (either motor driver) set up to open fully (or
at least 50%, with the binary-only driver), by the end of which its room has been below 4.5C at 27 readings running (or at all of at least 11
since power up), whatever else happened, and its motor is running normally. Then, after any further history in which the room stays that cold, in
which the motor is polled, early enough in the sub-cycle, at least four times, and at each of those polls reports the end of its travel (and, if it
wants to calibrate, is told to put that off): the motor is fully open, still running normally, and the valve shows 100%; and, with the binary-only driver or a good enough
calibration, the next reading in that room calls for heat. -/
theorem C247_freezing_room_calls (v : ValveSetup) (hc : v.c.binary = false) (hg : v.c.alwaysGlacial = false) (prop : Bool) (limit minDR tfo trev : Nat)
    (h1 : tfo ≤ 65535) (h2 : trev ≤ 65535) (hmax : 100 ≤ v.maxPC ∨ prop = false ∧ 50 ≤ v.maxPC) (l post : List TrvEv) (pre es : List Reading)
    (hl : readingsIn l = pre ++ es) (hf : ∀ x ∈ es, freezingReading v x) (hlong : 27 ≤ es.length ∨ (pre = [] ∧ 11 ≤ es.length))
    (hf' : ∀ x ∈ readingsIn post, freezingReading v x)
    (hst : (trvAfter v (newTrv prop limit minDR tfo trev) l).motor.st = .normal)
    (hgood : ∀ i ∈ pollsIn post, limit ≤ i.sct ∨ EndStopPoll (trvAfter v (newTrv prop limit minDR tfo trev) l).motor i)
    (hn : 4 ≤ earlyIn limit post) :
    let t := trvAfter v (newTrv prop limit minDR tfo trev) (l ++ post)
    t.motor.st = .normal ∧ t.motor.cur = 100 ∧ t.shown = 100 ∧
    ∀ ops x, freezingReading v (ops, x) → x.minOpen ≤ min v.maxPC 100 →
      (prop = false ∨ (trvAfter v (newTrv prop limit minDR tfo trev) l).motor.cp.prec ≤ 15) →
      (trvAfter v (newTrv prop limit minDR tfo trev) (l ++ post ++ [.minute ops x])).mv.calling = true := by
  obtain ⟨a, b, c⟩ := open_run v hc hg prop limit minDR tfo trev h1 h2 hmax pre post l es hl hf hlong hf' hst hgood (.inr (by omega))
  have inv := trv_inv v prop limit minDR tfo trev (l ++ post)
  have hne : pollsIn (l ++ post) ≠ [] := by
    rw [polls_append]
    intro h
    unfold earlyIn at hn
    rw [(List.append_eq_nil_iff.1 h).2] at hn
    simp at hn
  refine ⟨a, b, (inv.shown.2 hne).trans b, ?_⟩
  intro ops x hx hmin hcal
  have hro := (C99_really_open_partial (trvAfter v (newTrv prop limit minDR tfo trev) (l ++ post)).motor (by
    rw [(motor_always h1 h2 inv).2.2.1, c]; exact hcal)).1 a b
  obtain ⟨hval, -, rs, hmv, hrv⟩ := trv_target v hc hg (by omega) inv pre (es ++ readingsIn post) (by rw [readings_append, hl, List.append_assoc]) (by
    intro z hz
    rcases List.mem_append.1 hz with hz | hz
    · exact hf z hz
    · exact hf' z hz) (by
    rw [List.length_append]
    rcases hlong with h | h
    · exact .inl (by omega)
    · exact .inr ⟨h.1, by omega⟩)
  rw [trvAfter_snoc]
  generalize trvAfter v (newTrv prop limit minDR tfo trev) (l ++ post) = t at *
  have k := (C87_call_for_heat v.p v.c v.maxPC { t.mv with mode := t.mv.mode.run ops } (t.sees x)).1
  show ((MV.read v.p v.c v.maxPC { t.mv with mode := t.mv.mode.run ops } (t.sees x))).calling = true
  rw [k]
  obtain ⟨hs, hlo, hhi, -⟩ := hx
  have tb := C52_target_bounds v.p { x.tt with mode := (t.mv.mode.run ops).read } hs
  refine ⟨?_, by show 50 ≤ t.mv.value; omega, by show x.minOpen ≤ t.mv.value; omega, .inr hro⟩
  have h5 := tb.2.2.1
  show (x.temp16 + 8) / 16 < ((computeTarget v.p { x.tt with mode := (t.mv.mode.run ops).read } : Nat) : Int)
  have : (x.temp16 + 8) / 16 < 5 := by have : x.temp16 < 72 := hhi; omega
  omega

/-- **C247**, safety: whatever the history, a valve calls for heat only if at that reading the room is below target, the controller wants the valve
at least half open, the motor is running normally and known to be as far open as counts as open, and the user has signalled that it is fitted. -/
theorem C247_calls_only_if_open (v : ValveSetup) (prop : Bool) (limit minDR tfo trev : Nat) (h1 : tfo ≤ 65535) (h2 : trev ≤ 65535) (l : List TrvEv)
    (ops : List VOp) (x : MVIn) (hcall : (trvAfter v (newTrv prop limit minDR tfo trev) (l ++ [.minute ops x])).mv.calling = true) :
    let t := trvAfter v (newTrv prop limit minDR tfo trev) l
    t.motor.st = .normal ∧ t.motor.minPercentOpen ≤ t.motor.cur ∧ t.shown = t.motor.cur ∧ 50 ≤ t.mv.value ∧ .fitted ∈ l ∧
      (x.temp16 + 8) / 16 < (trvAfter v (newTrv prop limit minDR tfo trev) (l ++ [.minute ops x])).mv.target := by
  have inv := trv_inv v prop limit minDR tfo trev l
  rw [trvAfter_snoc] at hcall ⊢
  obtain ⟨evs, hm, hfit, hpoll⟩ := inv.motor
  have hsh := inv.shown
  generalize trvAfter v (newTrv prop limit minDR tfo trev) l = t at *
  have k := (C87_call_for_heat v.p v.c v.maxPC { t.mv with mode := t.mv.mode.run ops } (t.sees x)).1
  obtain ⟨k1, k2, -, k4⟩ := k.1 hcall
  have ho : t.motor.reallyOpen = true := by
    rcases k4 with k4 | k4
    · cases k4
    · exact k4
  simp only [Motor.reallyOpen, Bool.and_eq_true, decide_eq_true_eq] at ho
  have hfitted : MEv.fitted ∈ evs := by
    apply Classical.byContradiction
    intro hno
    have := (C62_waits_for_fitting prop limit minDR tfo trev h1 h2 evs hno).2.1
    rw [← hm] at this
    exact this ho.1
  refine ⟨ho.1, ho.2, ?_, k2, hfit hfitted, k1⟩
  apply hsh.2
  intro hnil
  have hnp : ∀ i, MEv.poll i ∉ evs := fun i hi => by have := hpoll i hi; rw [hnil] at this; simp at this
  have hinit : ∀ (evs : List MEv) (m : Motor), (∀ i, MEv.poll i ∉ evs) → m.st = .init → (m.runAll evs).1.st = .init := by
    intro evs
    induction evs with
    | nil => intro m _ h; exact h
    | cons e es ih =>
      intro m hno h
      show ((m.step e).1.runAll es).1.st = .init
      refine ih _ (fun i hi => hno i (List.mem_cons_of_mem _ hi)) ?_
      cases e with
      | poll i => exact absurd (by simp) (hno i)
      | fitted => show (m.signalFitted).st = _; unfold Motor.signalFitted; split <;> exact h
      | target pc => exact h
      | wiggle i => exact ((cur_wiggle m i).2.1).trans h
  have := hinit evs (Motor.new prop limit minDR tfo trev) hnp rfl
  rw [← hm, ho.1] at this
  cases this

/-- **C247**: what the parts are told: after any history the position shown is in 0..100, it is the motor's own once the motor has been polled, and
the motor's target is the position the controller computed at its last reading. -/
theorem C247_in_step (v : ValveSetup) (prop : Bool) (limit minDR tfo trev : Nat) (h1 : tfo ≤ 65535) (h2 : trev ≤ 65535) (l : List TrvEv) :
    let t := trvAfter v (newTrv prop limit minDR tfo trev) l
    t.shown ≤ 100 ∧ (pollsIn l ≠ [] → t.shown = t.motor.cur) ∧ (readingsIn l ≠ [] → t.motor.target = t.mv.value) := by
  have inv := trv_inv v prop limit minDR tfo trev l
  refine ⟨?_, inv.shown.2, inv.target⟩
  have := (motor_always h1 h2 inv).1.cur
  by_cases h : pollsIn l = []
  · rw [inv.shown.1 h]; omega
  · rw [inv.shown.2 h]; exact this

/-- **C247** fails for a proportional driver that is never let calibrate (low battery, or a dark room, at each poll): whatever the history, however
cold the room and however far open the valve, it never calls for heat. -/
theorem C247_refuted_uncalibrated (v : ValveSetup) (limit minDR tfo trev : Nat) (h1 : tfo ≤ 65535) (h2 : trev ≤ 65535) (l : List TrvEv)
    (hd : ∀ i ∈ pollsIn l, i.defer = true) (ops : List VOp) (x : MVIn) :
    (trvAfter v (newTrv true limit minDR tfo trev) (l ++ [.minute ops x])).mv.calling = false := by
  have inv := trv_inv v true limit minDR tfo trev l
  rw [trvAfter_snoc]
  obtain ⟨evs, hm, hfit, hpoll⟩ := inv.motor
  generalize trvAfter v (newTrv true limit minDR tfo trev) l = t at *
  have hno := (C99_never_open_uncalibrated limit minDR tfo trev h1 h2 evs (fun i hi => hd i (hpoll i hi))).1
  rw [← hm] at hno
  rw [Bool.eq_false_iff]
  intro hcall
  have k := (C87_call_for_heat v.p v.c v.maxPC { t.mv with mode := t.mv.mode.run ops } (t.sees x)).1
  rcases (k.1 hcall).2.2.2 with k4 | k4
  · cases k4
  · exact absurd (show t.motor.reallyOpen = true from k4) (by rw [hno]; simp)

/-! ### From power up, with the binary-only driver -/

/-- What an event of the whole valve is to its motor. -/
def motorEv (v : ValveSetup) (t : Trv) : TrvEv → List MEv
  | .minute ops x => if (t.minute v.p v.c v.maxPC ops x).mv.value > 100 then [] else [.target (t.minute v.p v.c v.maxPC ops x).mv.value]
  | .poll i => [.poll i]
  | .fitted => [.fitted]
  | .wiggle i => [.wiggle i]

def motorEvs (v : ValveSetup) (t : Trv) : List TrvEv → List MEv
  | [] => []
  | e :: l => motorEv v t e ++ motorEvs v (t.step v.p v.c v.maxPC e) l

theorem motorEvs_append (v : ValveSetup) (a b : List TrvEv) : ∀ t : Trv, motorEvs v t (a ++ b) = motorEvs v t a ++ motorEvs v (trvAfter v t a) b := by
  induction a with
  | nil => intro t; rfl
  | cons e a ih => intro t; simp only [List.cons_append, motorEvs, ih, List.append_assoc]; rfl

theorem motorEvs_run (v : ValveSetup) (l : List TrvEv) : ∀ t : Trv, (trvAfter v t l).motor = (t.motor.runAll (motorEvs v t l)).1 := by
  induction l with
  | nil => intro t; rfl
  | cons e l ih =>
    intro t
    have : (t.step v.p v.c v.maxPC e).motor = (t.motor.runAll (motorEv v t e)).1 := by
      cases e with
      | minute ops x =>
        show Trv.setActuator t.motor (t.minute v.p v.c v.maxPC ops x).mv.value = _
        unfold Trv.setActuator
        show _ = (t.motor.runAll (if (t.minute v.p v.c v.maxPC ops x).mv.value > 100 then [] else [.target (t.minute v.p v.c v.maxPC ops x).mv.value])).1
        split
        · rfl
        · rfl
      | poll i => rfl
      | fitted => rfl
      | wiggle i => rfl
    show (trvAfter v (t.step v.p v.c v.maxPC e) l).motor = (t.motor.runAll (motorEv v t e ++ _)).1
    rw [runAll_append, ih, this]

theorem motorEvs_polls (v : ValveSetup) (limit : Nat) (l : List TrvEv) : ∀ t : Trv,
    (∀ i, .poll i ∈ motorEvs v t l → i ∈ pollsIn l) ∧ earlyPolls limit (motorEvs v t l) = earlyIn limit l := by
  induction l with
  | nil => intro t; exact ⟨fun i h => by simp [motorEvs] at h, rfl⟩
  | cons e l ih =>
    intro t
    obtain ⟨h1, h2⟩ := ih (t.step v.p v.c v.maxPC e)
    have hsplit : earlyPolls limit (motorEvs v t (e :: l)) = earlyPolls limit (motorEv v t e) + earlyIn limit l := by
      rw [← h2]; simp [earlyPolls, motorEvs, List.countP_append]
    have hp : pollsIn (e :: l) = pollsIn [e] ++ pollsIn l := polls_append [e] l
    have he : earlyIn limit (e :: l) = earlyIn limit [e] + earlyIn limit l := by
      unfold earlyIn; rw [hp, List.countP_append]
    have hone : (∀ i, .poll i ∈ motorEv v t e → i ∈ pollsIn [e]) ∧ earlyPolls limit (motorEv v t e) = earlyIn limit [e] := by
      cases e with
      | minute ops x =>
        have hm : motorEv v t (.minute ops x) = [] ∨ motorEv v t (.minute ops x) = [.target (t.minute v.p v.c v.maxPC ops x).mv.value] := by
          simp only [motorEv]
          split
          · exact .inl rfl
          · exact .inr rfl
        rcases hm with h | h <;> rw [h] <;> exact ⟨fun i h => by simp at h, rfl⟩
      | poll i =>
        refine ⟨fun j h => ?_, ?_⟩
        · have : j = i := by simpa [motorEv] using h
          simp [pollsIn, this]
        · simp [motorEv, earlyPolls, earlyIn, pollsIn, List.countP_cons]
      | fitted => exact ⟨fun i h => by simp [motorEv] at h, rfl⟩
      | wiggle j => exact ⟨fun i h => by simp [motorEv] at h, rfl⟩
    refine ⟨fun i h => ?_, by rw [hsplit, he, hone.2]⟩
    rw [hp]
    rcases List.mem_append.1 (show _ ∈ motorEv v t e ++ _ from h) with h | h
    · exact List.mem_append_left _ (hone.1 i h)
    · exact List.mem_append_right _ (h1 i h)

/-- A binary-only driver in normal running stays so. -/
theorem bin_stays_normal (l : List MEv) : ∀ m : Motor, MInv m → m.prop = false → m.st = .normal → (m.runAll l).1.st = .normal := by
  induction l with
  | nil => intro m _ _ h; exact h
  | cons e l ih =>
    intro m hi hp hst
    have hok := step_ok m (m.hits, some true) e hi ⟨Nat.le_refl _, fun _ => rfl⟩
    refine ih (m.step e).1 hok.inv ((congrArg (fun x => x.2.1) (step_cfg m e hi)).trans hp) ?_
    cases e with
    | poll i =>
      show (m.poll i).1.st = .normal
      by_cases hl : i.sct ≥ m.limit
      · rw [C62_late_poll m i hl]; exact hst
      · unfold Motor.poll
        rw [if_neg hl, hst]
        dsimp only
        split
        · rfl
        · rw [if_neg (by simp [hp])]
          exact (st_normalBin m i).trans hst
    | fitted => show m.signalFitted.st = _; unfold Motor.signalFitted; rw [if_neg (by rw [hst]; simp)]; exact hst
    | target pc => exact hst
    | wiggle i => exact ((cur_wiggle m i).2.1).trans hst

/-- **C247**, from power up, with the binary-only driver and a motor in working order (at each poll that is not too late, every run reports the end of
the travel): once it has been polled 21 times in time, then signalled fitted, then polled 18 times, the room having been freezing at its last 27
readings by then, then polled 4 times more with the room still freezing, the next reading calls for heat, whatever else happens between. -/
theorem C247_from_power_up (v : ValveSetup) (hc : v.c.binary = false) (hg : v.c.alwaysGlacial = false) (limit minDR tfo trev : Nat)
    (h1 : tfo ≤ 65535) (h2 : trev ≤ 65535) (hmax : 50 ≤ v.maxPC) (a b post : List TrvEv)
    (hw : ∀ i ∈ pollsIn (a ++ .fitted :: b ++ post), Working limit i) (ha : 21 ≤ earlyIn limit a) (hb : 18 ≤ earlyIn limit b) (hp : 4 ≤ earlyIn limit post)
    (pre es : List Reading) (hl : readingsIn (a ++ .fitted :: b) = pre ++ es) (hf : ∀ x ∈ es, freezingReading v x)
    (hlong : 27 ≤ es.length ∨ (pre = [] ∧ 11 ≤ es.length)) (hf' : ∀ x ∈ readingsIn post, freezingReading v x)
    (ops : List VOp) (x : MVIn) (hx : freezingReading v (ops, x)) (hmin : x.minOpen ≤ min v.maxPC 100) :
    (trvAfter v (newTrv false limit minDR tfo trev) (a ++ .fitted :: b ++ post ++ [.minute ops x])).mv.calling = true := by
  have hst : (trvAfter v (newTrv false limit minDR tfo trev) (a ++ .fitted :: b)).motor.st = .normal := by
    rw [motorEvs_run]
    show ((Motor.new false limit minDR tfo trev).runAll _).1.st = _
    have hev : ∃ m', motorEvs v (newTrv false limit minDR tfo trev) (a ++ .fitted :: b) =
        motorEvs v (newTrv false limit minDR tfo trev) a ++ MEv.fitted :: motorEvs v m' b := by
      refine ⟨(trvAfter v (newTrv false limit minDR tfo trev) a).step v.p v.c v.maxPC .fitted, ?_⟩
      rw [motorEvs_append]; rfl
    obtain ⟨m', hev⟩ := hev
    have hpolls := (motorEvs_polls v limit (a ++ .fitted :: b) (newTrv false limit minDR tfo trev)).1
    rw [hev] at hpolls ⊢
    obtain ⟨l₁, l₂, e, hn⟩ := C248_normal false limit minDR tfo trev h1 h2 (motorEvs v (newTrv false limit minDR tfo trev) a) (motorEvs v m' b)
      (fun i hi => hw i (by rw [polls_append]; exact List.mem_append_left _ (hpolls i hi)))
      (by rw [(motorEvs_polls v limit a _).2]; exact ha) (by rw [(motorEvs_polls v limit b _).2]; exact hb)
    rw [e, show motorEvs v (newTrv false limit minDR tfo trev) a ++ MEv.fitted :: (l₁ ++ l₂) =
      (motorEvs v (newTrv false limit minDR tfo trev) a ++ MEv.fitted :: l₁) ++ l₂ by simp, runAll_append]
    obtain ⟨n1, n2⟩ := new_inv false limit minDR tfo trev h1 h2 (0, none)
    exact bin_stays_normal l₂ _ (run_inv _ _ _ n1 n2).1 (bin_run _ _ _ (bin_new limit minDR tfo trev h1 h2 (0, true))).prop hn
  have inv := motor_always h1 h2 (trv_inv v false limit minDR tfo trev (a ++ .fitted :: b))
  refine (C247_freezing_room_calls v hc hg false limit minDR tfo trev h1 h2 (.inr ⟨rfl, hmax⟩) (a ++ .fitted :: b) post pre es hl hf hlong hf' hst ?_ hp).2.2.2
    ops x hx hmin (.inl rfl)
  intro i hi
  rcases hw i (by rw [polls_append]; exact List.mem_append_right _ hi) with h | h
  · exact .inl h
  · exact .inr ⟨h.1, fun hp => by rw [inv.2.2.1] at hp; cases hp⟩

/-! ### A warm room -/

/-- One poll in normal running with the end stop reported, the target fully closed and the battery good. -/
theorem close_hit (m : Motor) (i : MIn) (hi : MInv m) (hst : m.st = .normal)
    (he : i.sct < m.limit) (hg : EndStopPoll m i) (hlow : i.low = false) (hw : m.target = 0) :
    (m.poll i).1.st = .normal ∧ (m.poll i).1.need = m.need ∧ (m.poll i).1.cp = m.cp ∧
      ((m.poll i).1.cur = 0 ∨ (m.cur ≠ 0 ∧ (m.poll i).1.hits = m.hits + 1 ∧ m.hits + 1 < 4)) := by
  have hl2 : ¬ i.sct ≥ m.limit := by omega
  unfold Motor.poll
  rw [if_neg hl2, hst]
  dsimp only
  by_cases ht : m.cur = m.target
  · rw [if_pos ht]
    exact ⟨rfl, rfl, rfl, .inl (by show m.cur = 0; omega)⟩
  rw [if_neg ht]
  have hnone : (if m.prop then m.normalProp i else none) = none := by
    by_cases hp : m.prop = true
    · rw [if_pos hp]
      unfold Motor.normalProp
      have hd : ¬ (m.need = true ∧ ¬ i.defer = true) := fun h => h.2 (hg.defer hp h.1)
      rw [if_neg hd]
      by_cases hnp : m.nonProp = true
      · rw [if_pos hnp]
      · rw [if_neg hnp]
        dsimp only
        rw [if_pos (.inr (by omega))]
    · rw [if_neg hp]
  rw [hnone]
  dsimp only
  unfold Motor.normalBin
  dsimp only
  have hde : decide (m.target ≥ 50) = false := by rw [hw]; rfl
  have hk : (if (false : Bool) = true then 100 else 0 : Nat) = 0 := rfl
  have hcur : ¬ m.cur = 0 := by omega
  have hlo : ¬ (i.low = true ∧ m.target < m.cur) := by simp [hlow]
  rw [hde, hk, if_neg hcur, if_neg hlo]
  have hnn : ¬ ¬ i.first.hit = true := by simp [hg.hit]
  rw [if_neg hnn]
  have hr : ∃ a b, m.run false i.first = { m with tfo := a, trev := b } := by
    obtain ⟨a, b, h, _⟩ := ticks_eq m false i.first.ticks hi.tfo hi.trev
    exact ⟨a, b, h⟩
  obtain ⟨a, b, hr⟩ := hr
  rw [hr]
  dsimp only
  have hE : ∀ m' : Motor, (m'.hitEndstop false).cur = 0 ∧ (m'.hitEndstop false).st = m'.st ∧ (m'.hitEndstop false).need = m'.need ∧
      (m'.hitEndstop false).cp = m'.cp := by
    intro m'; unfold Motor.hitEndstop; split <;> exact ⟨rfl, rfl, rfl, rfl⟩
  by_cases h4 : m.hits + 1 ≥ 4
  · rw [if_pos h4]
    obtain ⟨e1, e2, e3, e4⟩ := hE { m with hits := m.hits + 1, tfo := a, trev := b }
    exact ⟨e2.trans hst, e3, e4, .inl e1⟩
  · rw [if_neg h4]
    exact ⟨hst, rfl, rfl, .inr ⟨by omega, rfl, by omega⟩⟩

/-- A whole valve whose room has always been warm keeps its motor's target at 0. -/
theorem trv_warm (v : ValveSetup) (hc : v.c.binary = false) (w : Nat) {m0 : Motor} {l : List TrvEv} {t : Trv}
    (h : TrvInv v m0 l t) (hf : ∀ x ∈ readingsIn l, warmReading v w x) : t.mv.value = 0 ∧ (readingsIn l ≠ [] → t.motor.target = 0) ∧
      ∃ rs : List Reading, t.mv = newMV.run v.p v.c v.maxPC rs ∧ ∀ x ∈ rs, warmReading v w x := by
  obtain ⟨rs, hmv, hrs⟩ := h.mv
  have hwarm : ∀ x ∈ rs, warmReading v w x := by
    intro x hx
    have : (x.1, { x.2 with phys := none, physOpen := false }) ∈ (readingsIn l).map (fun r : Reading => (r.1, { r.2 with phys := none, physOpen := false })) := by
      rw [← hrs]; exact List.mem_map_of_mem (f := fun r : Reading => (r.1, { r.2 with phys := none, physOpen := false })) hx
    obtain ⟨y, hy, e⟩ := List.mem_map.1 this
    have : warmReading v w (y.1, { y.2 with phys := none, physOpen := false }) := hf y hy
    rw [e] at this
    exact this
  have hval : t.mv.value = 0 := by rw [hmv]; exact warm_closed v hc w rs hwarm
  exact ⟨hval, fun hne => (h.target hne).trans hval, rs, hmv, hwarm⟩

theorem close_run (v : ValveSetup) (hc : v.c.binary = false) (w : Nat) (prop : Bool) (limit minDR tfo trev : Nat)
    (h1 : tfo ≤ 65535) (h2 : trev ≤ 65535) (post : List TrvEv) :
    ∀ (l : List TrvEv), readingsIn l ≠ [] → (∀ x ∈ readingsIn l, warmReading v w x) → (∀ x ∈ readingsIn post, warmReading v w x) →
    (trvAfter v (newTrv prop limit minDR tfo trev) l).motor.st = .normal →
    (∀ i ∈ pollsIn post, limit ≤ i.sct ∨ i.low = false ∧ EndStopPoll (trvAfter v (newTrv prop limit minDR tfo trev) l).motor i) →
    ((trvAfter v (newTrv prop limit minDR tfo trev) l).motor.cur = 0 ∨
      4 ≤ (trvAfter v (newTrv prop limit minDR tfo trev) l).motor.hits + earlyIn limit post) →
    (trvAfter v (newTrv prop limit minDR tfo trev) (l ++ post)).motor.st = .normal ∧
      (trvAfter v (newTrv prop limit minDR tfo trev) (l ++ post)).motor.cur = 0 ∧
      (trvAfter v (newTrv prop limit minDR tfo trev) (l ++ post)).motor.cp = (trvAfter v (newTrv prop limit minDR tfo trev) l).motor.cp := by
  induction post with
  | nil =>
    intro l _ _ _ hst _ hor
    rw [List.append_nil]
    have hm := (motor_always h1 h2 (trv_inv v prop limit minDR tfo trev l)).1
    refine ⟨hst, ?_, rfl⟩
    rcases hor with h | h
    · exact h
    · have := hm.hitsN (by rw [hst]; simp)
      simp [earlyIn, pollsIn] at h; omega
  | cons e post ih =>
    intro l hl hf hpf hst hgood hor
    have inv := trv_inv v prop limit minDR tfo trev l
    have hstep := trvAfter_snoc v (newTrv prop limit minDR tfo trev) l e
    have happ : l ++ e :: post = (l ++ [e]) ++ post := by simp
    rw [happ]
    generalize ht : trvAfter v (newTrv prop limit minDR tfo trev) l = t at *
    obtain ⟨hmi, hbin, hprop, hlim0⟩ := motor_always h1 h2 inv
    have htgt := (trv_warm v hc w inv hf).2.1 hl
    have hpost : ∀ x ∈ readingsIn post, warmReading v w x := fun x hx =>
      hpf x (by rw [show e :: post = [e] ++ post from rfl, readings_append]; exact List.mem_append_right _ hx)
    have hgpost : ∀ i ∈ pollsIn post, limit ≤ i.sct ∨ i.low = false ∧ EndStopPoll t.motor i := fun x hx =>
      hgood x (by rw [show e :: post = [e] ++ post from rfl, polls_append]; exact List.mem_append_right _ hx)
    cases e with
    | minute ops x =>
      have hsa : ∃ y, (t.minute v.p v.c v.maxPC ops x).motor = { t.motor with target := y } := by
        show ∃ y, Trv.setActuator t.motor (t.minute v.p v.c v.maxPC ops x).mv.value = _
        unfold Trv.setActuator
        split
        · exact ⟨t.motor.target, rfl⟩
        · exact ⟨_, rfl⟩
      obtain ⟨y, hsa⟩ := hsa
      have hm : (trvAfter v (newTrv prop limit minDR tfo trev) (l ++ [.minute ops x])).motor = { t.motor with target := y } := by rw [hstep]; exact hsa
      have := ih (l ++ [.minute ops x]) (by rw [readings_append]; simp [readingsIn]) (by
        intro z hz
        rw [readings_append] at hz
        rcases List.mem_append.1 hz with hz | hz
        · exact hf z hz
        · exact hpf z (by rw [List.mem_singleton.1 hz]; simp [readingsIn])) hpost
        (by rw [hm]; exact hst) (by rw [hm]; exact fun i hi => (hgpost i hi).imp_right fun h => ⟨h.1, h.2.hit, h.2.defer⟩) (by rw [hm]; exact hor)
      rw [hm] at this
      exact this
    | poll i =>
      have hsame_r : readingsIn (l ++ [.poll i]) = readingsIn l := by rw [readings_append]; exact List.append_nil _
      have hm : (trvAfter v (newTrv prop limit minDR tfo trev) (l ++ [.poll i])).motor = (t.motor.poll i).1 := by rw [hstep]; rfl
      have hpc : pollsIn (.poll i :: post) = i :: pollsIn post := rfl
      by_cases hlate : limit ≤ i.sct
      · have hsame : (t.motor.poll i).1 = t.motor := congrArg Prod.fst (C62_late_poll t.motor i (by rw [hlim0]; exact hlate))
        rw [hsame] at hm
        have hlen : earlyIn limit (.poll i :: post) = earlyIn limit post := by
          unfold earlyIn; rw [hpc, List.countP_cons_of_neg (by simp; omega)]
        rw [hlen] at hor
        have := ih (l ++ [.poll i]) (by rw [hsame_r]; exact hl) (by rw [hsame_r]; exact hf) hpost
          (by rw [hm]; exact hst) (by rw [hm]; exact hgpost) (by rw [hm]; exact hor)
        rw [hm] at this
        exact this
      have hi : i.low = false ∧ EndStopPoll t.motor i := (hgood i (by rw [hpc]; simp)).resolve_left hlate
      have hlen : earlyIn limit (.poll i :: post) = earlyIn limit post + 1 := by
        unfold earlyIn; rw [hpc, List.countP_cons_of_pos (by simp; omega)]
      rw [hlen] at hor
      have ho := close_hit t.motor i hmi hst (by omega) hi.2 hi.1 htgt
      have hcf := step_cfg t.motor (.poll i) hmi
      have hpr : (t.motor.poll i).1.prop = t.motor.prop := congrArg (·.2.1) hcf
      have := ih (l ++ [.poll i]) (by rw [hsame_r]; exact hl) (by rw [hsame_r]; exact hf) hpost
        (by rw [hm]; exact ho.1) (by
          rw [hm]
          exact fun j hj => (hgpost j hj).imp_right fun h => ⟨h.1, h.2.hit, by rw [hpr, ho.2.1]; exact h.2.defer⟩) (by
          rw [hm]
          rcases ho.2.2.2 with h | ⟨h, h', _⟩
          · exact .inl h
          · rcases hor with hor | hor
            · exact absurd hor h
            · right; rw [h']; omega)
      rw [hm, ho.2.2.1] at this
      exact this
    | fitted =>
      have hsame_r : readingsIn (l ++ [.fitted]) = readingsIn l := by rw [readings_append]; exact List.append_nil _
      have hm : (trvAfter v (newTrv prop limit minDR tfo trev) (l ++ [.fitted])).motor = t.motor := by
        rw [hstep]; show t.motor.signalFitted = _
        unfold Motor.signalFitted; rw [if_neg (by rw [hst]; simp)]
      have := ih (l ++ [.fitted]) (by rw [hsame_r]; exact hl) (by rw [hsame_r]; exact hf) hpost
        (by rw [hm]; exact hst) (by rw [hm]; exact hgpost) (by rw [hm]; exact hor)
      rw [hm] at this
      exact this
    | wiggle i =>
      have hsame_r : readingsIn (l ++ [.wiggle i]) = readingsIn l := by rw [readings_append]; exact List.append_nil _
      have hm : (trvAfter v (newTrv prop limit minDR tfo trev) (l ++ [.wiggle i])).motor = t.motor.wiggle i := by rw [hstep]; rfl
      obtain ⟨w1, w2, w3, w4, w5, w6, w7⟩ := cur_wiggle t.motor i
      have := ih (l ++ [.wiggle i]) (by rw [hsame_r]; exact hl) (by rw [hsame_r]; exact hf) hpost
        (by rw [hm, w2]; exact hst) (by
          rw [hm]
          exact fun j hj => (hgpost j hj).imp_right fun h => ⟨h.1, h.2.hit, by rw [w6, w5]; exact h.2.defer⟩)
        (by rw [hm, w1, w3]; exact hor)
      rw [hm, w4] at this
      exact this

/-- **C247**, a warm room: if the room has been at least a quarter of a degree above the WARM setting at every reading since power up (and nobody asked
for BAKE), the valve never calls for heat; and once its motor runs normally, after at least four polls in time that report the end of the travel
with the battery good (and calibration put off if wanted), it is fully closed and shows 0%. -/
theorem C247_warm_room_closed (v : ValveSetup) (hc : v.c.binary = false) (w : Nat) (prop : Bool) (limit minDR tfo trev : Nat)
    (h1 : tfo ≤ 65535) (h2 : trev ≤ 65535) (l post : List TrvEv) (hf : ∀ x ∈ readingsIn (l ++ post), warmReading v w x) :
    (trvAfter v (newTrv prop limit minDR tfo trev) (l ++ post)).mv.calling = false ∧
    (readingsIn l ≠ [] → (trvAfter v (newTrv prop limit minDR tfo trev) l).motor.st = .normal →
      (∀ i ∈ pollsIn post, limit ≤ i.sct ∨ i.low = false ∧ EndStopPoll (trvAfter v (newTrv prop limit minDR tfo trev) l).motor i) →
      4 ≤ earlyIn limit post →
      (trvAfter v (newTrv prop limit minDR tfo trev) (l ++ post)).motor.cur = 0 ∧ (trvAfter v (newTrv prop limit minDR tfo trev) (l ++ post)).shown = 0 ∧
        (trvAfter v (newTrv prop limit minDR tfo trev) (l ++ post)).motor.st = .normal) := by
  have inv := trv_inv v prop limit minDR tfo trev (l ++ post)
  constructor
  · obtain ⟨-, -, rs, hmv, hwarm⟩ := trv_warm v hc w inv hf
    rw [hmv]
    by_cases hne : rs = []
    · subst hne; rfl
    · rw [← List.dropLast_concat_getLast hne, mrun_append]
      have hz := warm_closed v hc w rs.dropLast (fun x hx => hwarm x (List.dropLast_subset _ hx))
      unfold positionAfter at hz
      generalize newMV.run v.p v.c v.maxPC rs.dropLast = s at *
      rw [Bool.eq_false_iff]
      intro hcall
      have k := (C87_call_for_heat v.p v.c v.maxPC { s with mode := s.mode.run (rs.getLast hne).1 } (rs.getLast hne).2).1.1 hcall
      have : 50 ≤ s.value := k.2.1
      omega
  · intro hne hst hgood hn
    rw [readings_append] at hf
    obtain ⟨a, b, -⟩ := close_run v hc w prop limit minDR tfo trev h1 h2 post l hne (fun x hx => hf x (List.mem_append_left _ hx))
      (fun x hx => hf x (List.mem_append_right _ hx)) hst hgood (.inr (by omega))
    refine ⟨b, (inv.shown.2 ?_).trans b, a⟩
    rw [polls_append]
    intro h
    unfold earlyIn at hn
    rw [(List.append_eq_nil_iff.1 h).2] at hn
    simp at hn

/-! ## Non-vacuity -/

/-- A poll early in the sub-cycle with the end stop reported (four times over, where the driver goes on looking). -/
def exStop : MIn := { sct := 10, first := ⟨true, 3, 20⟩, more := List.replicate 4 ⟨true, 3, 30⟩ }

/-- Power up, withdraw, fit, run normally, close for a warm room; then the room freezes. -/
def exTrvHist : List TrvEv :=
  List.replicate 18 (.poll exStop) ++ [.fitted, .poll exStop, .poll exStop, .minute exWarmRoom.1 exWarmRoom.2] ++
    List.replicate 5 (.poll exStop) ++ List.replicate 27 (.minute exFreezing.1 exFreezing.2)

def exTrv : Trv := trvAfter exSetup (newTrv false 200 40 0 0) exTrvHist

example : exTrv.motor.st = .normal ∧ exTrv.motor.cur = 0 ∧ exTrv.shown = 0 ∧ exTrv.mv.value = 100 ∧ exTrv.mv.calling = false := by decide +kernel

/-- What C247 asks of the history and of what follows. -/
example : readingsIn exTrvHist = [exWarmRoom] ++ List.replicate 27 exFreezing ∧ (∀ i ∈ pollsIn (List.replicate 4 (.poll exStop)), EndStopPoll exTrv.motor i) ∧ 4 ≤ earlyIn 200 (List.replicate 4 (.poll exStop)) ∧
    exFreezing.2.minOpen ≤ min exSetup.maxPC 100 := by
  refine ⟨rfl, ?_, by decide, by decide⟩
  intro i hi
  have : i = exStop := by simpa [pollsIn, List.replicate] using hi
  subst this
  exact ⟨rfl, fun h => absurd h (by decide +kernel)⟩

example : (trvAfter exSetup (newTrv false 200 40 0 0) (exTrvHist ++ List.replicate 4 (.poll exStop) ++ [.minute exFreezing.1 exFreezing.2])).mv.calling = true ∧
    (trvAfter exSetup (newTrv false 200 40 0 0) (exTrvHist ++ List.replicate 3 (.poll exStop) ++ [.minute exFreezing.1 exFreezing.2])).mv.calling = false := by
  decide +kernel

/-- The same with the proportional driver never let calibrate: the motor is fully open, and there is no call for heat. -/
def exDeferred : List TrvEv := exTrvHist.map fun e => match e with | .poll i => .poll { i with defer := true } | e => e

example : let t := trvAfter exSetup (newTrv true 200 40 0 0) (exDeferred ++ List.replicate 4 (.poll { exStop with defer := true }) ++ [.minute exFreezing.1 exFreezing.2])
    t.motor.cur = 100 ∧ t.motor.st = .normal ∧ t.mv.value = 100 ∧ t.mv.calling = false := by
  decide +kernel

def exA : List TrvEv := List.replicate 21 (.poll exStop)
def exB : List TrvEv := List.replicate 18 (.poll exStop) ++ List.replicate 11 (.minute exFreezing.1 exFreezing.2)
def exPost : List TrvEv := List.replicate 4 (.poll exStop)

theorem exPower_polls : pollsIn (exA ++ .fitted :: exB ++ exPost) = List.replicate 43 exStop := by decide +kernel

/-- From power up: all that `C247_from_power_up` asks, and its conclusion used. -/
example : (trvAfter exSetup (newTrv false 200 40 0 0) (exA ++ .fitted :: exB ++ exPost ++ [.minute exFreezing.1 exFreezing.2])).mv.calling = true := by
  have hr : readingsIn (exA ++ .fitted :: exB) = [] ++ List.replicate 11 exFreezing := by decide +kernel
  have hp : readingsIn exPost = [] := by decide +kernel
  refine C247_from_power_up exSetup rfl rfl 200 40 0 0 (by decide) (by decide) (by decide) exA exB exPost ?_
    (by decide +kernel) (by decide +kernel) (by decide +kernel) [] (List.replicate 11 exFreezing) hr
    (fun x hx => by rw [List.eq_of_mem_replicate hx]; exact exFreezing_ok) (.inr ⟨rfl, by rw [List.length_replicate]; omega⟩) (fun x hx => by rw [hp] at hx; simp at hx)
    exFreezing.1 exFreezing.2 exFreezing_ok (by decide)
  intro i hi
  rw [exPower_polls] at hi
  rw [List.eq_of_mem_replicate hi]
  exact .inr ⟨rfl, by decide⟩

/-- A warm room closes the valve. -/
example : (∀ x ∈ readingsIn ([TrvEv.minute exWarmRoom.1 exWarmRoom.2]), warmReading exSetup 19 x) ∧
    (let l := List.replicate 18 (TrvEv.poll exStop) ++ [.fitted, .poll exStop, .poll exStop, .minute exWarmRoom.1 exWarmRoom.2]
     (trvAfter exSetup (newTrv false 200 40 0 0) l).motor.st = .normal ∧ (trvAfter exSetup (newTrv false 200 40 0 0) l).motor.cur = 100 ∧
     (trvAfter exSetup (newTrv false 200 40 0 0) (l ++ exPost)).motor.cur = 0) := by
  refine ⟨fun x hx => ?_, by decide +kernel⟩
  have : x = exWarmRoom := by simpa [readingsIn] using hx
  rw [this]; exact exWarm_ok

end OTR.Props
