import Verif.Props.HeatSystem
import Verif.Props.Target
/-!
# C190–C191: from room temperature to boiler

Rooms with radiator valves (each reading its room's temperature, computing its position by the modelled algorithm and sending it now and
then), the insecure air between, and the boiler hub (C183).
-/

namespace OTR.Props
open OTR

/-! ## Specification -/

/-- How the valves are set up: parameters, algorithm variant, maximum opening. -/
structure ValveSetup where
  p : VCP
  c : VCfg
  maxPC : Nat

/-- One reading at a valve: what happened to the mode just before, and the readings. -/
abbrev Reading := List VOp × MVIn

/-- The position of a valve after its readings since it started. -/
def positionAfter (v : ValveSetup) (es : List Reading) : Nat := (newMV.run v.p v.c v.maxPC es).value

/-- The system: boiler hub and air, and for each valve its readings since it last started. -/
structure Home where
  house : House
  seen : Bytes → List Reading

/-- The states the system can get into: valves take readings, of which `ok` holds, restart, and send their position or frames of other
kinds; between, anything that sends nothing may happen: ticks of the hub, arrivals of any bytes, restarts and power failures. -/
inductive HomeReach (v : ValveSetup) (ok : Reading → Prop) (pf : Bool) (tpm minOn : Nat) (e : EncFn) (key : Bytes) (ids : List Bytes) (h0 : House) :
    Home → Prop
  | start : HomeReach v ok pf tpm minOn e key ids h0 ⟨h0, fun _ => []⟩
  | reading {s} (id : Bytes) (x : Reading) : HomeReach v ok pf tpm minOn e key ids h0 s → ok x →
      HomeReach v ok pf tpm minOn e key ids h0 { s with seen := setAt s.seen id (s.seen id ++ [x]) }
  | valveRestart {s} (id : Bytes) : HomeReach v ok pf tpm minOn e key ids h0 s →
      HomeReach v ok pf tpm minOn e key ids h0 { s with seen := setAt s.seen id [] }
  | send {s id} (a : ValveArgs) (r r' : Bytes) : HomeReach v ok pf tpm minOn e key ids h0 s → id ∈ ids →
      a.valvePC.toNat = positionAfter v (s.seen id) →
      HomeReach v ok pf tpm minOn e key ids h0 { s with house := { s.house with chan := s.house.chan.valve e key id a r r' } }
  | sendOther {s id} (a : PlainArgs) (r r' : Bytes) : HomeReach v ok pf tpm minOn e key ids h0 s → id ∈ ids → a.fType ≠ FTS_BasicSensorOrValve →
      HomeReach v ok pf tpm minOn e key ids h0 { s with house := { s.house with chan := s.house.chan.plain e key id a r r' } }
  | other {s h'} : HomeReach v ok pf tpm minOn e key ids h0 s → HReach pf tpm minOn e key ids s.house h' → h'.chan.sent = s.house.chan.sent →
      HomeReach v ok pf tpm minOn e key ids h0 { s with house := h' }

/-- A reading in a warm room: allowed settings with WARM temperature at most `w`, not in (or going to) BAKE mode, and room temperature at
least a quarter of a degree above `w`. -/
def warmReading (v : ValveSetup) (w : Nat) (x : Reading) : Prop :=
  Settings v.p x.2.tt.frostC x.2.tt.warmC ∧ x.2.tt.warmC ≤ w ∧ (VOp.startBake ∉ x.1 ∧ ∀ n, VOp.set n ∈ x.1 → n ≠ 2) ∧
    16 * (w : Int) + 4 ≤ x.2.temp16 ∧ x.2.temp16 ≤ 2000

/-- A reading in a freezing room, below 4.5C, outside glacial operation, with allowed settings. -/
def freezingReading (v : ValveSetup) (x : Reading) : Prop :=
  Settings v.p x.2.tt.frostC x.2.tt.warmC ∧ -1900 ≤ x.2.temp16 ∧ x.2.temp16 < 72 ∧ x.2.glacial = false

/-! ## Proofs -/

theorem HReach.trans {pf : Bool} {tpm minOn : Nat} {e : EncFn} {key : Bytes} {ids : List Bytes} {h0 h1 h2 : House}
    (h : HReach pf tpm minOn e key ids h0 h1) (h' : HReach pf tpm minOn e key ids h1 h2) : HReach pf tpm minOn e key ids h0 h2 := by
  induction h' with
  | start => exact h
  | valve a r r' _ hid ih => exact .valve a r r' ih hid
  | plain a r r' _ hid hne ih => exact .plain a r r' ih hid hne
  | restart _ hid ih => exact .restart ih hid
  | crash r r' k _ hid hc ih => exact .crash r r' k ih hid hc
  | hear c minute msg _ hml hst hk hnf hgb ih => exact .hear c minute msg ih hml hst hk hnf hgb
  | hubRestart _ ih => exact .hubRestart ih
  | lose c msg k hpf _ h1 h2 h3 h4 ih => exact .lose c msg k hpf ih h1 h2 h3 h4
  | tick s0 _ ih => exact .tick s0 ih

theorem HomeReach.hreach {v : ValveSetup} {ok : Reading → Prop} {pf : Bool} {tpm minOn : Nat} {e : EncFn} {key : Bytes} {ids : List Bytes}
    {h0 : House} {s : Home} (h : HomeReach v ok pf tpm minOn e key ids h0 s) : HReach pf tpm minOn e key ids h0 s.house := by
  induction h with
  | start => exact .start
  | reading _ _ _ _ ih => exact ih
  | valveRestart _ _ ih => exact ih
  | send a r r' _ hid _ ih => exact .valve a r r' ih hid
  | sendOther a r r' _ hid hne ih => exact .plain a r r' ih hid (.inl hne)
  | other _ h' _ ih => exact ih.trans h'

theorem HomeReach.seen_ok {v : ValveSetup} {ok : Reading → Prop} {pf : Bool} {tpm minOn : Nat} {e : EncFn} {key : Bytes} {ids : List Bytes}
    {h0 : House} {s : Home} (h : HomeReach v ok pf tpm minOn e key ids h0 s) : ∀ id, ∀ x ∈ s.seen id, ok x := by
  induction h with
  | start => intro id x hx; exact (List.not_mem_nil hx).elim
  | @reading s id x _ hx ih =>
    intro i y hy
    dsimp only [setAt] at hy
    split at hy
    · rcases List.mem_append.1 hy with hy | hy
      · exact ih _ _ hy
      · rw [List.mem_singleton.1 hy]; exact hx
    · exact ih _ _ hy
  | @valveRestart s id _ ih =>
    intro i y hy
    dsimp only [setAt] at hy
    split at hy
    · exact (List.not_mem_nil hy).elim
    · exact ih _ _ hy
  | send a r r' _ hid _ ih => exact ih
  | sendOther a r r' _ hid hne ih => exact ih
  | other _ h' _ ih => exact ih

theorem sendValve_body {e : EncFn} {key id : Bytes} {d : TxDev} {a : ValveArgs} {r r' : Bytes} {x : SentMsg}
    (h : (sendValve e key id d a r r').2 = some x) :
    x.fType = FTS_BasicSensorOrValve ∧ x.body[0]? = some (if a.valvePC.toNat ≤ 100 then a.valvePC else 0x7f) := by
  unfold sendValve at h
  split at h
  · simp at h
  · dsimp only at h
    split at h
    · simp only [Option.some.injEq] at h
      subst h
      exact ⟨rfl, rfl⟩
    · simp at h

/-- A warm room's valve remembers only warm temperatures and does not open. -/
theorem warm_tick (c : VCfg) (hc : c.binary = false) (s : VState) (val : Nat) (t : VTick) (hs : t.1.sane) (w : Nat) (hw : t.1.target ≤ w) (h5 : 5 ≤ t.1.target)
    (hf : s.Full) (hb : t.1.bake = false) (hlo : 16 * (w : Int) + 12 ≤ t.1.ref16) (hhi : t.1.ref16 ≤ 2008)
    (ht : s.initialised = true → ∀ x ∈ s.temps, 16 * (w : Int) + 4 ≤ x ∧ x ≤ 2000) :
    (s.tick c val t.1 t.2).2 ≤ val ∧
      ((s.tick c val t.1 t.2).1.initialised = true → ∀ x ∈ (s.tick c val t.1 t.2).1.temps, 16 * (w : Int) + 4 ≤ x ∧ x ≤ 2000) := by
  have hmem : ∀ x ∈ (t.1.ref16 - 8) :: (if s.initialised then s.temps else List.replicate 16 (t.1.ref16 - 8)).take 15,
      16 * (w : Int) + 4 ≤ x ∧ x ≤ 2000 := by
    intro x hx
    rcases List.mem_cons.1 hx with rfl | hx
    · omega
    · have hx := List.mem_of_mem_take hx
      cases hi' : s.initialised with
      | true => rw [hi'] at hx; exact ht hi' x (by simpa using hx)
      | false =>
        rw [hi'] at hx
        have : x = t.1.ref16 - 8 := by simpa using hx
        omega
  constructor
  · have heff : 16 * (w : Int) + 12 ≤ effTemp s val t ∧ effTemp s val t ≤ 2008 := by
      unfold effTemp VState.adj16
      split
      · have e := (prepare_fields s val t.1 (t.2.map Prod.fst)).2.2.2.2.2
        rw [e]
        generalize hl : (t.1.ref16 - 8) :: (if s.initialised then s.temps else List.replicate 16 (t.1.ref16 - 8)).take 15 = l at hmem ⊢
        have hlen : l.length = 16 := by
          rw [← hl]
          cases hi' : s.initialised with
          | true => simp [hf hi']
          | false => simp
        have a := sum_lt (fun t ht => (hmem t ht).2)
        have b := sum_gt (fun t ht => (hmem t ht).1)
        rw [hlen] at a b
        unfold smallIntMean
        generalize l.sum = S at *
        rw [Int.tdiv_eq_ediv_of_nonneg (by omega)]
        omega
      · omega
    have hcl : coldLimit t.1 ≤ effTemp s val t := by unfold coldLimit; omega
    by_cases hh : effTemp s val t < hotLimit t.1
    · exact (C50_never_perverse c hc s val t hs (by unfold Physical; omega) hcl hh hb).1 (by unfold setPoint; omega)
    · rw [tick_snd]
      unfold effTemp at *
      generalize s.prepare val t.1 (t.2.map Prod.fst) = s' at *
      have hr : -2048 ≤ s'.adj16 t.1 ∧ s'.adj16 t.1 ≤ 2047 := by omega
      have hhi : t.1.higher ≤ 95 := by unfold VIn.higher; obtain ⟨a, b, _⟩ := hs; omega
      have hhot' : isHot c.binary (s'.adj16 t.1) t.1 = true := by
        rw [hc, isHot_iff _ _ hr hhi]
        unfold hotLimit at hh; unfold VIn.higher; omega
      have hcold' : isCold c.binary (s'.adj16 t.1) t.1 = false := by
        rw [Bool.eq_false_iff, hc]
        intro h
        rw [isCold_iff _ _ hr] at h
        omega
      unfold VState.compute
      simp only [hcold', hhot', Bool.false_eq_true, if_false, if_true]
      split <;> omega
  · intro _ x hx
    rw [(tick_fields c s val t.1 t.2).2.2.2.1, (prepare_fields s val t.1 _).2.2.2.2.2] at hx
    exact hmem x hx

theorem mode_no_bake (ops : List VOp) (h : VOp.startBake ∉ ops ∧ ∀ n, VOp.set n ∈ ops → n ≠ 2) : ∀ m : VMode, m.bakeM = 0 → (m.run ops).bakeM = 0 := by
  induction ops with
  | nil => intro m hm; exact hm
  | cons o ops ih =>
    intro m hm
    show ((m.step o).run ops).bakeM = 0
    apply ih ⟨fun hx => h.1 (by simp [hx]), fun n hn => h.2 n (by simp [hn])⟩
    cases o with
    | setWarm w => simp only [VMode.step, VMode.setWarm]; split <;> simp [hm]
    | startBake => exact absurd (by simp) h.1
    | cancelBake => rfl
    | set n =>
      have := h.2 n (by simp)
      simp only [VMode.step, VMode.set, if_neg this]
      split
      · simp [VMode.setWarm]
      · split <;> simp [VMode.setWarm, hm]
    | read => simp [VMode.step, VMode.read, hm]

/-- The valve of a room that has always been warm is closed. -/
theorem warm_closed (v : ValveSetup) (hc : v.c.binary = false) (w : Nat) (es : List Reading) (h : ∀ x ∈ es, warmReading v w x) :
    positionAfter v es = 0 := by
  have key : ∀ (es : List Reading) (s : MV), (∀ x ∈ es, warmReading v w x) → s.value = 0 → s.st.Full → s.mode.bakeM = 0 →
      (s.st.initialised = true → ∀ x ∈ s.st.temps, 16 * (w : Int) + 4 ≤ x ∧ x ≤ 2000) → (s.run v.p v.c v.maxPC es).value = 0 := by
    intro es
    induction es with
    | nil => intro s _ h0 _ _ _; exact h0
    | cons x es ih =>
      intro s h h0 hf hm ht
      show ((s.step v.p v.c v.maxPC x).run v.p v.c v.maxPC es).value = 0
      obtain ⟨hset, hwc, hops, hlo, hhi⟩ := h x (by simp)
      have hmode := mode_no_bake x.1 hops s.mode hm
      have hread : (s.mode.run x.1).read.inBake = false := by
        unfold VMode.inBake VMode.read; simp [hmode]
      have tb := C52_target_bounds v.p { x.2.tt with mode := (s.mode.run x.1).read } hset
      rw [if_neg (by rw [hread]; simp)] at tb
      have e := step_eq v.p v.c v.maxPC s x
      have tk := warm_tick v.c hc s.st s.value (s.tickOf v.p v.maxPC x) ⟨tb.2.2.2, hset.hi, by show min _ 100 ≤ 100; omega⟩ w
        (Nat.le_trans tb.2.1 hwc) tb.2.2.1 hf hread (by show _ ≤ x.2.temp16 + 8; omega) (by show x.2.temp16 + 8 ≤ _; omega) ht
      have fl := tick_full v.c s.st s.value (s.tickOf v.p v.maxPC x) hf
      rw [← e] at tk fl
      refine ih _ (fun y hy => h y (by simp [hy])) ?_ fl ?_ tk.2
      · have := tk.1; dsimp only at this; omega
      · show (if _ then _ else _ : VMode).bakeM = 0
        split
        · rfl
        · show (s.mode.run x.1).bakeM - 1 = 0
          omega
  exact key es newMV h rfl (fun h => by cases h) rfl (fun h => by cases h)

/-- **C190.** A house in which every room is always warm is never heated: if at every reading of every valve the room is at least a quarter
of a degree above the WARM setting (and nobody asks for BAKE), then, however the valves and the hub restart and lose power, and whatever
anybody records, replays, delays, alters or makes up on the air, the boiler is never on. -/
theorem C190_warm_house_not_heated (v : ValveSetup) (hc : v.c.binary = false) (w : Nat) (pf : Bool) (tpm minOn : Nat) (ht : tpm = 30 ∨ tpm = 60)
    (hm : minOn ≤ 255) (e : EncFn) (hel : EncLen e) (key : Bytes) (ids : List Bytes) (h0 : House) (hb : HBegin ids h0) (s : Home)
    (hr : HomeReach v (warmReading v w) pf tpm minOn e key ids h0 s) :
    s.house.boiler.pin = false ∧ onTicks s.house.log = 0 ∧ ∀ id, positionAfter v (s.seen id) = 0 := by
  have hsent : ∀ x ∈ s.house.chan.sent, x.fType = FTS_BasicSensorOrValve → x.body[0]? = some 0 := by
    induction hr with
    | start => intro x hx; rw [hb.chan.sent] at hx; exact (List.not_mem_nil hx).elim
    | reading _ _ _ _ ih => exact ih
    | valveRestart _ _ ih => exact ih
    | @send s id a r r' hs hid ha ih =>
      intro x hx hO
      rcases List.mem_append.1 (show x ∈ s.house.chan.sent ++ (sendValve e key id (s.house.chan.tx id) a r r').2.toList from hx) with hx | hx
      · exact ih x hx hO
      · have := (sendValve_body (Option.mem_toList.1 hx)).2
        rw [warm_closed v hc w _ (hs.seen_ok id)] at ha
        rw [if_pos (by omega)] at this
        rw [this]
        congr 1
        apply UInt8.toNat_inj.mp
        exact ha
    | @sendOther s id a r r' hs hid hne ih =>
      intro x hx hO
      rcases List.mem_append.1 (show x ∈ s.house.chan.sent ++ (sendPlain e key id (s.house.chan.tx id) a r r').2.toList from hx) with hx | hx
      · exact ih x hx hO
      · exact absurd ((sent_plain_body (Option.mem_toList.1 hx)).1.symm.trans hO) hne
    | other _ h' hsame ih => intro x hx; rw [show _ = _ from hsame] at hx; exact ih x hx
  refine ⟨?_, ?_, fun id => warm_closed v hc w _ (hr.seen_ok id)⟩
  · cases hp : s.house.boiler.pin with
    | false => rfl
    | true =>
      obtain ⟨_, _, _, p, _, _, _, h50, x, hx, _, hO, b, hbb, hbp⟩ := C183_on_only_if_asked pf tpm minOn ht hm e hel key ids h0 s.house hb hr.hreach hp
      rw [hsent x hx hO] at hbb
      cases hbb
      have : (0 : Byte).toNat = 0 := rfl
      omega
  · have := C183_bounded pf tpm minOn ht hm e hel key ids h0 s.house hb hr.hreach
    rw [List.countP_eq_zero.2 (by
      intro x hx ha
      simp only [asksHeat, Bool.and_eq_true, beq_iff_eq] at ha
      have := hsent x hx (UInt8.toNat_inj.mp (by rw [ha.1]; rfl))
      cases hbd : x.body with
      | nil => rw [hbd] at this; simp at this
      | cons a l =>
        rw [hbd] at this ha
        simp only [List.getElem?_cons_zero, Option.some.injEq] at this
        subst this
        simp at ha)] at this
    omega

theorem mrun_append (p : VCP) (c : VCfg) (maxPC : Nat) (s : MV) (xs ys : List Reading) :
    s.run p c maxPC (xs ++ ys) = (s.run p c maxPC xs).run p c maxPC ys := by
  simp [MV.run]

/-- After `n` freezing readings the newest `n` temperatures remembered are freezing. -/
theorem cold_memory (v : ValveSetup) (n : Nat) : ∀ (es : List Reading) (s : MV), (∀ x ∈ es, freezingReading v x) →
    (s.st.initialised = true → ∀ x ∈ s.st.temps.take n, -1900 ≤ x ∧ x < 72) →
    (s.run v.p v.c v.maxPC es).st.initialised = true → ∀ x ∈ (s.run v.p v.c v.maxPC es).st.temps.take (n + es.length), -1900 ≤ x ∧ x < 72 := by
  intro es
  induction es generalizing n with
  | nil => intro s _ h hi; exact h hi
  | cons y es ih =>
    intro s hc h
    show ((s.step v.p v.c v.maxPC y).run v.p v.c v.maxPC es).st.initialised = true →
      ∀ x ∈ ((s.step v.p v.c v.maxPC y).run v.p v.c v.maxPC es).st.temps.take _, _
    have := ih (n + 1) (s.step v.p v.c v.maxPC y) (fun x hx => hc x (by simp [hx])) (by
      intro _ x hx
      have e : (s.step v.p v.c v.maxPC y).st = (s.st.tick v.c s.value (s.tickOf v.p v.maxPC y).1 (s.tickOf v.p v.maxPC y).2).1 := rfl
      rw [e, (tick_fields v.c s.st s.value _ _).2.2.2.1, (prepare_fields s.st s.value _ _).2.2.2.2.2, List.take_succ_cons] at hx
      have hy : (s.tickOf v.p v.maxPC y).1.ref16 - 8 = y.2.temp16 := by
        show y.2.temp16 + 8 - 8 = _
        omega
      obtain ⟨_, hlo, hhi, _⟩ := hc y (by simp)
      rcases List.mem_cons.1 hx with rfl | hx
      · omega
      · rw [List.take_take] at hx
        cases hi : s.st.initialised with
        | true =>
          rw [hi] at hx
          refine h hi x ?_
          rw [show min n 15 = min 15 n by omega, ← List.take_take] at hx
          exact List.mem_of_mem_take hx
        | false =>
          rw [hi] at hx
          have hx := List.mem_of_mem_take hx
          have : x = (s.tickOf v.p v.maxPC y).1.ref16 - 8 := by simpa using hx
          omega)
    rw [List.length_cons, show n + (es.length + 1) = n + 1 + es.length by omega]
    exact this

/-- What holds of a valve whatever it has read. -/
theorem mv_always (v : ValveSetup) (es : List Reading) :
    (newMV.run v.p v.c v.maxPC es).value ≤ min v.maxPC 100 ∧ (newMV.run v.p v.c v.maxPC es).st.turndownM ≤ 11 ∧
      (newMV.run v.p v.c v.maxPC es).st.Full := by
  have key : ∀ (es : List Reading) (s : MV), s.value ≤ min v.maxPC 100 → s.st.turndownM ≤ 11 → s.st.Full →
      (s.run v.p v.c v.maxPC es).value ≤ min v.maxPC 100 ∧ (s.run v.p v.c v.maxPC es).st.turndownM ≤ 11 ∧ (s.run v.p v.c v.maxPC es).st.Full := by
    intro es
    induction es with
    | nil => intro s h1 h2 h3; exact ⟨h1, h2, h3⟩
    | cons y es ih =>
      intro s h1 h2 h3
      have e := step_eq v.p v.c v.maxPC s y
      have e1 : (s.step v.p v.c v.maxPC y).value = (s.st.tick v.c s.value (s.tickOf v.p v.maxPC y).1 (s.tickOf v.p v.maxPC y).2).2 := congrArg Prod.snd e
      have e2 : (s.step v.p v.c v.maxPC y).st = (s.st.tick v.c s.value (s.tickOf v.p v.maxPC y).1 (s.tickOf v.p v.maxPC y).2).1 := congrArg Prod.fst e
      refine ih (s.step v.p v.c v.maxPC y) ?_ ?_ ?_
      · rw [e1]
        have h := (C45_limits v.c s.st s.value (s.tickOf v.p v.maxPC y).1 (s.tickOf v.p v.maxPC y).2).1
        have hm : (s.tickOf v.p v.maxPC y).1.maxPC = min v.maxPC 100 := rfl
        rw [hm] at h
        by_cases hlt : s.value < (s.st.tick v.c s.value (s.tickOf v.p v.maxPC y).1 (s.tickOf v.p v.maxPC y).2).2
        · exact h hlt
        · omega
      · rw [e2, (tick_fields v.c s.st s.value _ _).1]
        split <;> omega
      · rw [e2]; exact tick_full v.c s.st s.value (s.tickOf v.p v.maxPC y) h3
  exact key es newMV (Nat.zero_le _) (by decide) (fun h => by cases h)

/-- The valve of a room that has been freezing for 27 readings (or for 11, if that is since the valve started) is open to its maximum. -/
theorem freezing_open (v : ValveSetup) (hc : v.c.binary = false) (hg : v.c.alwaysGlacial = false) (h50 : 50 ≤ v.maxPC) (pre es : List Reading)
    (h : ∀ x ∈ es, freezingReading v x) (hl : 27 ≤ es.length ∨ (pre = [] ∧ 11 ≤ es.length)) : positionAfter v (pre ++ es) = min v.maxPC 100 := by
  unfold positionAfter
  have fin : ∀ (pre es : List Reading), (∀ x ∈ es, freezingReading v x) → 11 ≤ es.length →
      ((newMV.run v.p v.c v.maxPC pre).st.initialised = true → ∀ x ∈ (newMV.run v.p v.c v.maxPC pre).st.temps, -1900 ≤ x ∧ x < 72) →
      (newMV.run v.p v.c v.maxPC (pre ++ es)).value = min v.maxPC 100 := by
    intro pre es h hl hmem
    rw [mrun_append]
    obtain ⟨a1, a2, a3⟩ := mv_always v pre
    exact (C88_frost_end_to_end v.p v.c hc v.maxPC _ es (fun x hx => (h x hx).1) (fun x hx => ⟨(h x hx).2.1, (h x hx).2.2.1⟩) a1 a2 a3 hmem).2.1
      ⟨hg, h50, fun x hx => (h x hx).2.2.2⟩ hl
  rcases hl with hl | ⟨rfl, hl⟩
  · have hsp : pre ++ es = (pre ++ es.take 16) ++ es.drop 16 := by rw [List.append_assoc, List.take_append_drop]
    rw [hsp]
    refine fin _ _ (fun x hx => h x (List.mem_of_mem_drop hx)) (by rw [List.length_drop]; omega) ?_
    intro hi
    have hm := cold_memory v 0 (es.take 16) (newMV.run v.p v.c v.maxPC pre) (fun x hx => h x (List.mem_of_mem_take hx))
      (fun _ x hx => by rw [List.take_zero] at hx; exact (List.not_mem_nil hx).elim)
    rw [← mrun_append] at hm
    have hfull := (mv_always v (pre ++ es.take 16)).2.2 hi
    have := hm hi
    rw [List.length_take, List.take_of_length_le (by omega)] at this
    exact this
  · exact fin [] es h hl (fun h => by cases h)

/-- **C191.** A freezing room gets heat. In the same system (the hub not losing power in the middle of a message): a valve, set up to open to
at least 66%, whose room was below 4.5C at its last 27 readings (or at all of at least 11 since it started), whatever it read before and
whatever schedule, mode, occupancy, light and user do, sends its position, and some message it so sent arrives intact and fresh (neither it nor a later one of that valve
was accepted before) at the hub. Then the boiler comes on at the next tick, provided it is on or has been off for long
enough, and stays on for the minimum on time (less one tick), whatever else arrives. -/
theorem C191_freezing_room_heated (v : ValveSetup) (hc : v.c.binary = false) (hg : v.c.alwaysGlacial = false) (h66 : 66 ≤ v.maxPC) (ok : Reading → Prop)
    (tpm minOn : Nat) (ht : tpm = 30 ∨ tpm = 60) (hm1 : 1 ≤ minOn) (hm : minOn ≤ 255) (e : EncFn) (hel : EncLen e) (key : Bytes)
    (ids : List Bytes) (h0 : House) (hb : HBegin ids h0) (s s' : Home) (hr : HomeReach v ok false tpm minOn e key ids h0 s)
    -- the room is freezing
    (id : Bytes) (hid : id ∈ ids) (pre es : List Reading) (hseen : s.seen id = pre ++ es) (hcold : ∀ x ∈ es, freezingReading v x)
    (hlong : 27 ≤ es.length ∨ (pre = [] ∧ 11 ≤ es.length))
    -- the valve sends its position
    (a : ValveArgs) (r r' : Bytes) (ha : a.valvePC.toNat = positionAfter v (s.seen id)) (x : SentMsg)
    (hx : (s.house.chan.valve e key id a r r').sent = s.house.chan.sent ++ [x])
    -- whatever happens next
    (hr' : HReach false tpm minOn e key ids { s.house with chan := s.house.chan.valve e key id a r r' } s'.house)
    (after : List SentMsg) (hsent : s'.house.chan.sent = s.house.chan.sent ++ x :: after)
    -- the message arrives at the hub
    (hfresh : ∀ y ∈ x :: after, y.id = x.id → ∀ g ∈ s'.house.chan.got, g.node = x.id → g.frame ≠ y.frame)
    (c0 cur0 : Bytes) (hgood : BothGood h0.chan.ee x.id c0) (hcur : getLastRXMsgCtr h0.chan.ee x.id = some cur0) (hlt : beVal cur0 < beVal x.ctr)
    (hfind : (getNextMatchingNodeID h0.chan.ee 0 (x.id.take ((x.frame[2]?.getD 0).toNat % 16))).map (rowID h0.chan.ee) = some x.id)
    (hsmall0 : beVal c0 + 255 < 2 ^ 40) (hsmall : beVal x.ctr + 255 < 2 ^ 40)
    (c : HCfg) (hacc : Accepts e c.dec key x) (hkey : c.key = some key) (hscr : 74 ≤ c.scratch) (hst : 31 ≤ c.stack.length)
    (hop : c.o1 = .boiler ∨ c.o2 = .boiler) (minute : Nat) (s0 : Bool)
    (hquiet : s'.house.boiler.pin = true ∨
      ∃ pre post, s'.house.log = pre ++ post ∧ onTicks post = 0 ∧ HubObs.restart ∉ post ∧ min 254 minOn + 2 ≤ minutesSeen post)
    -- and for the minimum on time
    (h2 : House) (hr2 : HReach false tpm minOn e key ids ((s'.house.hear key c minute (x.frame.drop 1)).tick tpm minOn s0) h2)
    (l : List HubObs) (hl : h2.log = ((s'.house.hear key c minute (x.frame.drop 1)).tick tpm minOn s0).log ++ l) (hnr : HubObs.restart ∉ l)
    (hk : ticksSeen l ≤ minOn * tpm - 2) :
    h2.boiler.pin = true := by
  have hx' : (sendValve e key id (s.house.chan.tx id) a r r').2 = some x := by
    have := List.append_cancel_left (show s.house.chan.sent ++ (sendValve e key id (s.house.chan.tx id) a r r').2.toList = _ from hx)
    generalize (sendValve e key id (s.house.chan.tx id) a r r').2 = o at this ⊢
    cases o with
    | none => cases this
    | some y => cases this; rfl
  obtain ⟨hO, hbody⟩ := sendValve_body hx'
  rw [hseen, freezing_open v hc hg (by omega) pre es hcold hlong] at ha
  rw [if_pos (by omega)] at hbody
  have hreach : HReach false tpm minOn e key ids h0 s'.house := (HReach.valve a r r' hr.hreach hid).trans hr'
  exact C184_asked_gets_heat tpm minOn ht hm1 hm e hel key ids h0 s'.house hb hreach s.house.chan.sent after x hsent hfresh hO a.valvePC hbody
    (by omega) (by omega) c0 cur0 hgood hcur hlt hfind hsmall0 hsmall c hacc hkey hscr hst hop minute s0 hquiet h2 hr2 l hl hnr hk

/-! ## Non-vacuity -/

def exSetup : ValveSetup := ⟨vcpDefault, ⟨false, false, false⟩, 100⟩

/-- A room at 21C with the WARM setting at 19C. -/
def exWarmRoom : Reading :=
  ([.setWarm true], ⟨⟨VMode.init, 6, 19, 255, false, false, false, false, false, 600, 0, 0⟩, 21 * 16, false, false, false, true, none, false, 15⟩)

theorem exWarm_ok : warmReading exSetup 19 exWarmRoom :=
  ⟨⟨by decide, by decide, by decide, by decide +kernel, by decide +kernel, by decide +kernel⟩, by decide, ⟨by decide, by simp [exWarmRoom]⟩, by decide, by decide⟩

theorem exFreezing_ok : freezingReading exSetup exFreezing :=
  ⟨⟨by decide, by decide, by decide, by decide +kernel, by decide +kernel, by decide +kernel⟩, by decide, by decide, rfl⟩

/-- The valve's position in a room read `n` times the same, at the quiet house of C184. -/
def exHome (x : Reading) (n : Nat) : Home := ⟨exHouse1, setAt (fun _ => []) exRxID (List.replicate n x)⟩

theorem exHome_reach (x : Reading) (ok : Reading → Prop) (h : ok x) (n : Nat) :
    HomeReach exSetup ok false 30 1 nullEncChecked chKey [exRxID] exHouse0 (exHome x n) := by
  induction n with
  | zero =>
    have := HomeReach.other (v := exSetup) (ok := ok) (h0 := exHouse0) .start (HReach.tick (pf := false) (minOn := 1) (tpm := 30) (e := nullEncChecked)
      (key := chKey) (ids := [exRxID]) true (.tick true (.tick true .start))) rfl
    have e : exHome x 0 = { (⟨exHouse0, fun _ => []⟩ : Home) with house := exHouse1 } := by
      unfold exHome
      congr 1
      funext i
      simp [setAt]
    rw [e]; exact this
  | succ n ih =>
    have := HomeReach.reading exRxID x ih h
    have e : exHome x (n + 1) = { exHome x n with seen := setAt (exHome x n).seen exRxID ((exHome x n).seen exRxID ++ [x]) } := by
      unfold exHome
      congr 1
      funext i
      by_cases hi : i = exRxID
      · simp [setAt, hi, List.replicate_succ']
      · simp [setAt, hi]
    rw [e]; exact this

/-- The valve then sends. -/
def exReported (pc : Byte) : House := { exHouse1 with chan := exHouse1.chan.valve nullEncChecked chKey exRxID (exValve pc) [] [4, 5, 6] }

theorem exReported_reach (x : Reading) (ok : Reading → Prop) (h : ok x) (n : Nat) (pc : Byte) (hpc : pc.toNat = positionAfter exSetup (List.replicate n x)) :
    HomeReach exSetup ok false 30 1 nullEncChecked chKey [exRxID] exHouse0 ⟨exReported pc, (exHome x n).seen⟩ :=
  .send (s := exHome x n) (id := exRxID) (exValve pc) [] [4, 5, 6] (exHome_reach x ok h n) (by simp)
    (by rw [show (exHome x n).seen exRxID = List.replicate n x by simp [exHome, setAt]]; exact hpc)

def exMsgOf (h : House) : Bytes := ((h.chan.sent[0]?.map (·.frame)).getD []).drop 1

/-- The warm room's valve reports 0%, the hub hears it and ticks. -/
def exWarm3 : House := ((exReported 0).hear chKey (hsCfg (exReported 0)) 20 (exMsgOf (exReported 0))).tick 30 1 false

theorem exWarm_reach : HomeReach exSetup (warmReading exSetup 19) false 30 1 nullEncChecked chKey [exRxID] exHouse0 ⟨exWarm3, (exHome exWarmRoom 5).seen⟩ := by
  have h1 := exReported_reach exWarmRoom _ exWarm_ok 5 0
    (by rw [warm_closed exSetup rfl 19 _ (fun x hx => by rw [List.eq_of_mem_replicate hx]; exact exWarm_ok)]; rfl)
  have h2 : HReach false 30 1 nullEncChecked chKey [exRxID] (exReported 0) exWarm3 :=
    .tick false (.hear (hsCfg (exReported 0)) 20 (exMsgOf (exReported 0)) .start (by decide +kernel) (hsCfg_ok _).2.2.1 (hsCfg_ok _).2.2.2 (hsCfg_ok (exReported 0)).1 (hsCfg_ok _).2.1)
  exact .other (s := ⟨exReported 0, (exHome exWarmRoom 5).seen⟩) h1 h2 rfl

/-- The report was heard, and the boiler stays off. -/
example : exWarm3.boiler.pin = false ∧ exWarm3.log = [.tick true false, .tick true false, .tick true false, .handled [.heat 0], .tick false false] := by
  decide +kernel

/-- A freezing room's valve is fully open after 11 readings; it reports so; the hub hears it, and the boiler comes on. -/
def exCold3 : House := ((exReported 100).hear chKey (hsCfg (exReported 100)) 20 (exMsgOf (exReported 100))).tick 30 1 false

example : HomeReach exSetup (freezingReading exSetup) false 30 1 nullEncChecked chKey [exRxID] exHouse0 ⟨exReported 100, (exHome exFreezing 11).seen⟩ :=
  exReported_reach exFreezing _ exFreezing_ok 11 100
    (freezing_open exSetup rfl rfl (by decide) [] (List.replicate 11 exFreezing)
      (fun x hx => by rw [List.eq_of_mem_replicate hx]; exact exFreezing_ok) (.inr ⟨rfl, by rw [List.length_replicate]; omega⟩)).symm

example : (exReported 100).chan.sent.map (fun x => (x.id == exRxID, x.body[0]?, decide (0 < beVal x.ctr))) = [(true, some 100, true)] ∧ (exReported 100).chan.got = [] ∧
    onTicks (exReported 100).log = 0 ∧ HubObs.restart ∉ (exReported 100).log ∧ min 254 1 + 2 ≤ minutesSeen (exReported 100).log ∧
    exCold3.boiler.pin = true ∧ exCold3.log = [.tick true false, .tick true false, .tick true false, .handled [.heat 100], .tick false true] := by
  decide +kernel

end OTR.Props
