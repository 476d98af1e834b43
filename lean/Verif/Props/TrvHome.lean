import Verif.Props.Trv
/-!
# C249: a house of whole radiator valves, controllers and motors, and the boiler hub
-/

namespace OTR.Props
open OTR

/-! ## Specification -/

/-- What a valve is made of: its controller's settings, and its motor driver as for `newTrv`. -/
structure TrvKit where
  v : ValveSetup
  prop : Bool
  limit : Nat
  minDR : Nat
  tfo : Nat
  trev : Nat

/-- The dead reckoning parameters fit their 16 bits. -/
def TrvKit.Ok (k : TrvKit) : Prop := k.tfo ≤ 65535 ∧ k.trev ≤ 65535

/-- A valve of this kind after what happened to it since power up. -/
def TrvKit.after (k : TrvKit) (l : List TrvEv) : Trv := trvAfter k.v (newTrv k.prop k.limit k.minDR k.tfo k.trev) l

/-- The position a valve's application reports: the controller's, or (`gated`) 0 in its place unless the controller calls for heat. -/
def reportOf (gated : Bool) (t : Trv) : Nat := if gated && !t.mv.calling then 0 else t.mv.value

/-- The system: boiler hub and air; for each valve what happened to it since it last started; and each position message with what had
happened to its sender by then. -/
structure TrvHome where
  house : House
  did : Bytes → List TrvEv
  told : List (SentMsg × List TrvEv)

/-- The states the system can get into: things happen to the valves (readings only such that `ok` holds), they restart, and send the position they
report or frames of other kinds; between, anything that sends nothing may happen: ticks of the hub, arrivals of any bytes, restarts and
power failures. -/
inductive TrvReach (kit : Bytes → TrvKit) (gated : Bool) (ok : Bytes → Reading → Prop) (pf : Bool) (tpm minOn : Nat) (e : EncFn) (key : Bytes)
    (ids : List Bytes) (h0 : House) : TrvHome → Prop
  | start : TrvReach kit gated ok pf tpm minOn e key ids h0 ⟨h0, fun _ => [], []⟩
  | event {s} (id : Bytes) (ev : TrvEv) : TrvReach kit gated ok pf tpm minOn e key ids h0 s → (∀ ops x, ev = .minute ops x → ok id (ops, x)) →
      TrvReach kit gated ok pf tpm minOn e key ids h0 { s with did := setAt s.did id (s.did id ++ [ev]) }
  | valveRestart {s} (id : Bytes) : TrvReach kit gated ok pf tpm minOn e key ids h0 s →
      TrvReach kit gated ok pf tpm minOn e key ids h0 { s with did := setAt s.did id [] }
  | send {s id} (a : ValveArgs) (r r' : Bytes) : TrvReach kit gated ok pf tpm minOn e key ids h0 s → id ∈ ids →
      a.valvePC.toNat = reportOf gated ((kit id).after (s.did id)) →
      TrvReach kit gated ok pf tpm minOn e key ids h0
        { s with house := { s.house with chan := s.house.chan.valve e key id a r r' },
                 told := s.told ++ (sendValve e key id (s.house.chan.tx id) a r r').2.toList.map fun x => (x, s.did id) }
  | sendOther {s id} (a : PlainArgs) (r r' : Bytes) : TrvReach kit gated ok pf tpm minOn e key ids h0 s → id ∈ ids → a.fType ≠ FTS_BasicSensorOrValve →
      TrvReach kit gated ok pf tpm minOn e key ids h0 { s with house := { s.house with chan := s.house.chan.plain e key id a r r' } }
  | other {s h'} : TrvReach kit gated ok pf tpm minOn e key ids h0 s → HReach pf tpm minOn e key ids s.house h' → h'.chan.sent = s.house.chan.sent →
      TrvReach kit gated ok pf tpm minOn e key ids h0 { s with house := h' }

/-! ## Proofs -/

theorem TrvReach.hreach {kit : Bytes → TrvKit} {gated : Bool} {ok : Bytes → Reading → Prop} {pf : Bool} {tpm minOn : Nat} {e : EncFn} {key : Bytes}
    {ids : List Bytes} {h0 : House} {s : TrvHome} (h : TrvReach kit gated ok pf tpm minOn e key ids h0 s) : HReach pf tpm minOn e key ids h0 s.house := by
  induction h with
  | start => exact .start
  | event _ _ _ _ ih => exact ih
  | valveRestart _ _ ih => exact ih
  | send a r r' _ hid _ ih => exact .valve a r r' ih hid
  | sendOther a r r' _ hid hne ih => exact .plain a r r' ih hid (.inl hne)
  | other _ h' _ ih => exact ih.trans h'

theorem TrvReach.did_ok {kit : Bytes → TrvKit} {gated : Bool} {ok : Bytes → Reading → Prop} {pf : Bool} {tpm minOn : Nat} {e : EncFn} {key : Bytes}
    {ids : List Bytes} {h0 : House} {s : TrvHome} (h : TrvReach kit gated ok pf tpm minOn e key ids h0 s) :
    ∀ id, ∀ x ∈ readingsIn (s.did id), ok id x := by
  induction h with
  | start => intro id x hx; exact (List.not_mem_nil hx).elim
  | @event s id ev _ hx ih =>
    intro i y hy
    dsimp only [setAt] at hy
    split at hy
    · rename_i hi
      rw [readings_append] at hy
      rcases List.mem_append.1 hy with hy | hy
      · rw [hi]; exact ih _ _ hy
      · cases ev with
        | minute ops x =>
          have : y = (ops, x) := by simpa [readingsIn] using hy
          rw [this, hi]; exact hx ops x rfl
        | _ => simp [readingsIn] at hy
    · exact ih _ _ hy
  | @valveRestart s id _ ih =>
    intro i y hy
    dsimp only [setAt] at hy
    split at hy
    · exact (List.not_mem_nil hy).elim
    · exact ih _ _ hy
  | send a r r' _ hid _ ih => exact ih
  | sendOther a r r' _ hid hne ih => exact ih
  | other _ h' _ ih => exact ih

/-- Every position message on the air was sent by a valve that then reported that position. -/
theorem TrvReach.told_ok {kit : Bytes → TrvKit} {gated : Bool} {ok : Bytes → Reading → Prop} {pf : Bool} {tpm minOn : Nat} {e : EncFn} {key : Bytes}
    {ids : List Bytes} {h0 : House} (hb : HBegin ids h0) {s : TrvHome} (h : TrvReach kit gated ok pf tpm minOn e key ids h0 s) :
    (∀ x ∈ s.house.chan.sent, x.fType = FTS_BasicSensorOrValve → ∃ l, (x, l) ∈ s.told) ∧
    ∀ x l, (x, l) ∈ s.told → x ∈ s.house.chan.sent ∧ (∀ y ∈ readingsIn l, ok x.id y) ∧
      ∃ b : Byte, x.body[0]? = some (if b.toNat ≤ 100 then b else 0x7f) ∧ b.toNat = reportOf gated ((kit x.id).after l) := by
  induction h with
  | start =>
    refine ⟨fun x hx => ?_, fun x l hx => (List.not_mem_nil hx).elim⟩
    rw [hb.chan.sent] at hx; exact (List.not_mem_nil hx).elim
  | event _ _ _ _ ih => exact ih
  | valveRestart _ _ ih => exact ih
  | @send s id a r r' hs hid ha ih =>
    have hsent : ∀ x, x ∈ (s.house.chan.valve e key id a r r').sent ↔
        x ∈ s.house.chan.sent ++ (sendValve e key id (s.house.chan.tx id) a r r').2.toList := fun x => Iff.rfl
    constructor
    · intro x hx hO
      rcases List.mem_append.1 ((hsent x).1 hx) with hx | hx
      · obtain ⟨l, hl⟩ := ih.1 x hx hO
        exact ⟨l, List.mem_append_left _ hl⟩
      · exact ⟨s.did id, List.mem_append_right _ (List.mem_map.2 ⟨x, hx, rfl⟩)⟩
    · intro x l hx
      rcases List.mem_append.1 hx with hx | hx
      · obtain ⟨h1, h2⟩ := ih.2 x l hx
        exact ⟨(hsent x).2 (List.mem_append_left _ h1), h2⟩
      · obtain ⟨y, hy, he⟩ := List.mem_map.1 hx
        cases he
        have hid' : x.id = id := by
          have h := Option.mem_toList.1 hy
          unfold sendValve at h
          split at h
          · simp at h
          · dsimp only at h
            split at h
            · simp only [Option.mem_def, Option.some.injEq] at h
              subst h
              rfl
            · simp at h
        rw [hid']
        exact ⟨(hsent x).2 (List.mem_append_right _ hy), hs.did_ok id, a.valvePC, (sendValve_body (Option.mem_toList.1 hy)).2, ha⟩
  | @sendOther s id a r r' hs hid hne ih =>
    have hsent : ∀ x, x ∈ (s.house.chan.plain e key id a r r').sent ↔
        x ∈ s.house.chan.sent ++ (sendPlain e key id (s.house.chan.tx id) a r r').2.toList := fun x => Iff.rfl
    refine ⟨fun x hx hO => ?_, fun x l hx => ⟨(hsent x).2 (List.mem_append_left _ (ih.2 x l hx).1), (ih.2 x l hx).2⟩⟩
    rcases List.mem_append.1 ((hsent x).1 hx) with hx | hx
    · exact ih.1 x hx hO
    · exact absurd ((sent_plain_body (Option.mem_toList.1 hx)).1.symm.trans hO) hne
  | other _ h' hsame ih =>
    refine ⟨fun x hx => ih.1 x (by rw [← hsame]; exact hx), fun x l hx => ⟨?_, (ih.2 x l hx).2⟩⟩
    rw [hsame]; exact (ih.2 x l hx).1

/-- The last reading a valve took. -/
theorem last_reading (v : ValveSetup) (t : Trv) (l : List TrvEv) (ht : t.mv.calling = false) (h : (trvAfter v t l).mv.calling = true) :
    ∃ pre ops x post, l = pre ++ .minute ops x :: post ∧ readingsIn post = [] ∧ (trvAfter v t (pre ++ [.minute ops x])).mv = (trvAfter v t l).mv := by
  have key : ∀ n (l : List TrvEv), l.length = n → (trvAfter v t l).mv.calling = true →
      ∃ pre ops x post, l = pre ++ .minute ops x :: post ∧ readingsIn post = [] ∧ (trvAfter v t (pre ++ [.minute ops x])).mv = (trvAfter v t l).mv := by
    intro n
    induction n with
    | zero =>
      intro l hl h
      rw [List.length_eq_zero_iff.1 hl] at h
      have : t.mv.calling = true := h
      rw [ht] at this; cases this
    | succ n ih =>
      intro l hl h
      have hne : l ≠ [] := by intro h0; rw [h0] at hl; simp at hl
      obtain ⟨l', ev, rfl⟩ : ∃ l' ev, l = l' ++ [ev] := ⟨l.dropLast, l.getLast hne, (List.dropLast_concat_getLast hne).symm⟩
      have hl' : l'.length = n := by simpa using hl
      have go : readingsIn [ev] = [] → (trvAfter v t (l' ++ [ev])).mv = (trvAfter v t l').mv →
          ∃ pre ops x post, l' ++ [ev] = pre ++ .minute ops x :: post ∧ readingsIn post = [] ∧
            (trvAfter v t (pre ++ [.minute ops x])).mv = (trvAfter v t (l' ++ [ev])).mv := by
        intro h1 h2
        obtain ⟨pre, ops, x, post, e1, e2, e3⟩ := ih l' hl' (by rw [← h2]; exact h)
        refine ⟨pre, ops, x, post ++ [ev], by rw [e1]; simp, by rw [readings_append, e2, h1]; rfl, by rw [h2]; exact e3⟩
      cases ev with
      | minute ops x => exact ⟨l', ops, x, [], rfl, rfl, rfl⟩
      | poll i => exact go rfl (by rw [trvAfter_snoc]; rfl)
      | fitted => exact go rfl (by rw [trvAfter_snoc]; rfl)
      | wiggle i => exact go rfl (by rw [trvAfter_snoc]; rfl)
  exact key l.length l rfl h

/-- **C249.** The boiler runs only for a radiator that is really open. In a house of whole valves (of any kinds and settings) whose applications
report a position other than 0 only while the valve calls for heat: whenever the boiler is on, within the minimum on time just past the hub handled
a message asking for heat that one of the house's own valves sent, and at the last reading that valve had taken before sending, its room was below
its target, its controller wanted it at least half open, and its motor was running normally and was open as far as it takes
for heat to flow, the user having signalled that it was fitted; whatever the valves went through, whatever was recorded, replayed, delayed, altered or made up on the air,
and whatever restarted or lost power. -/
theorem C249_boiler_only_for_open_valve (kit : Bytes → TrvKit) (hk : ∀ id, (kit id).Ok) (ok : Bytes → Reading → Prop) (pf : Bool) (tpm minOn : Nat)
    (ht : tpm = 30 ∨ tpm = 60) (hm : minOn ≤ 255) (e : EncFn) (hel : EncLen e) (key : Bytes) (ids : List Bytes) (h0 : House) (hb : HBegin ids h0)
    (s : TrvHome) (hr : TrvReach kit true ok pf tpm minOn e key ids h0 s) (hon : s.house.boiler.pin = true) :
    ∃ before es after p, s.house.log = before ++ .handled es :: after ∧ ticksSeen after < minOn * tpm ∧ Eff.heat p ∈ es ∧ 50 ≤ p ∧
      ∃ m l, (m, l) ∈ s.told ∧ m ∈ s.house.chan.sent ∧ m.id ∈ ids ∧ m.body[0]?.map UInt8.toNat = some p ∧
      ∃ (pre : List TrvEv) (ops : List VOp) (x : MVIn) (post : List TrvEv), l = pre ++ .minute ops x :: post ∧ readingsIn post = [] ∧
        let k := kit m.id
        let t := k.after pre
        t.motor.st = .normal ∧ t.motor.minPercentOpen ≤ t.motor.cur ∧ .fitted ∈ pre ∧ 50 ≤ t.mv.value ∧
          (x.temp16 + 8) / 16 < (k.after (pre ++ [.minute ops x])).mv.target := by
  obtain ⟨before, es, after, p, h1, h2, h3, h4, m, hms, hmi, hmO, b, hbody, hbp⟩ :=
    C183_on_only_if_asked pf tpm minOn ht hm e hel key ids h0 s.house hb hr.hreach hon
  obtain ⟨l, hl⟩ := (hr.told_ok hb).1 m hms hmO
  obtain ⟨-, -, b', hb1, hb2⟩ := (hr.told_ok hb).2 m l hl
  have hcall : ((kit m.id).after l).mv.calling = true := by
    cases hc : ((kit m.id).after l).mv.calling with
    | true => rfl
    | false =>
      exfalso
      have h0 : b'.toNat = 0 := by rw [hb2, reportOf, hc]; rfl
      rw [if_pos (by omega), hbody] at hb1
      cases hb1
      omega
  obtain ⟨pre, ops, x, post, e1, e2, e3⟩ := last_reading _ _ l (rfl : (newTrv _ _ _ _ _).mv.calling = false) hcall
  refine ⟨before, es, after, p, h1, h2, h3, h4, m, l, hl, hms, hmi, by rw [hbody, ← hbp]; rfl, pre, ops, x, post, e1, e2, ?_⟩
  obtain ⟨c1, c2, -, c4, c5, c6⟩ := C247_calls_only_if_open (kit m.id).v (kit m.id).prop (kit m.id).limit (kit m.id).minDR (kit m.id).tfo (kit m.id).trev
    (hk m.id).1 (hk m.id).2 pre ops x (by rw [e3]; exact hcall)
  exact ⟨c1, c2, c5, c4, c6⟩

/-- **C249.** A house in which every room is always warm is never heated, whichever position the valves report, and no valve in it ever calls for
heat or asks its motor to open. -/
theorem C249_warm_house (kit : Bytes → TrvKit) (hk : ∀ id, (kit id).Ok) (hc : ∀ id, (kit id).v.c.binary = false) (w : Bytes → Nat) (gated pf : Bool) (tpm minOn : Nat)
    (ht : tpm = 30 ∨ tpm = 60) (hm : minOn ≤ 255) (e : EncFn) (hel : EncLen e) (key : Bytes) (ids : List Bytes) (h0 : House) (hb : HBegin ids h0)
    (s : TrvHome) (hr : TrvReach kit gated (fun id => warmReading (kit id).v (w id)) pf tpm minOn e key ids h0 s) :
    s.house.boiler.pin = false ∧ onTicks s.house.log = 0 ∧
      ∀ id, ((kit id).after (s.did id)).mv.calling = false ∧ ((kit id).after (s.did id)).mv.value = 0 ∧
        (readingsIn (s.did id) ≠ [] → ((kit id).after (s.did id)).motor.target = 0) := by
  have hzero : ∀ id l, (∀ x ∈ readingsIn l, warmReading (kit id).v (w id) x) → ((kit id).after l).mv.value = 0 ∧
      (readingsIn l ≠ [] → ((kit id).after l).motor.target = 0) := by
    intro id l h
    have := trv_warm (kit id).v (hc id) (w id) (trv_inv (kit id).v (kit id).prop (kit id).limit (kit id).minDR (kit id).tfo (kit id).trev l) h
    exact ⟨this.1, this.2.1⟩
  have hsent : ∀ x ∈ s.house.chan.sent, x.fType = FTS_BasicSensorOrValve → x.body[0]? = some 0 := by
    intro x hx hO
    obtain ⟨l, hl⟩ := (hr.told_ok hb).1 x hx hO
    obtain ⟨-, hok, b, hb1, hb2⟩ := (hr.told_ok hb).2 x l hl
    have h0 : b.toNat = 0 := by
      rw [hb2, reportOf, (hzero x.id l hok).1]; split <;> rfl
    rw [hb1, if_pos (by omega)]
    congr 1
    exact UInt8.toNat_inj.mp h0
  refine ⟨?_, ?_, fun id => ⟨?_, hzero id _ (hr.did_ok id)⟩⟩
  · cases hp : s.house.boiler.pin with
    | false => rfl
    | true =>
      obtain ⟨_, _, _, p, _, _, _, h50, x, hx, _, hO, b, hbb, hbp⟩ := C183_on_only_if_asked pf tpm minOn ht hm e hel key ids h0 s.house hb hr.hreach hp
      rw [hsent x hx hO] at hbb
      cases hbb
      have : (0 : Byte).toNat = 0 := rfl
      omega
  · have := C183_bounded pf tpm minOn ht hm e hel key ids h0 s.house hb hr.hreach
    rw [List.countP_eq_zero.2 (by
      intro x hx ha
      simp only [asksHeat, Bool.and_eq_true, beq_iff_eq] at ha
      have := hsent x hx (UInt8.toNat_inj.mp (by rw [ha.1]; rfl))
      cases hbd : x.body with
      | nil => rw [hbd] at this; simp at this
      | cons a l =>
        rw [hbd] at this ha
        simp only [List.getElem?_cons_zero, Option.some.injEq] at this
        subst this
        simp at ha)] at this
    omega
  · have := (C247_warm_room_closed (kit id).v (hc id) (w id) (kit id).prop (kit id).limit (kit id).minDR (kit id).tfo (kit id).trev (hk id).1 (hk id).2
      (s.did id) [] (by rw [List.append_nil]; exact hr.did_ok id)).1
    rw [List.append_nil] at this
    exact this

/-- **C249.** A freezing room is really heated. In the same house (the hub not losing power in the middle of a message): a valve allowed to open to at least 66%
(fully, with the proportional driver, which must be calibrated well enough), whose motor runs normally and whose room has been
below 4.5C at its last 27 readings (or at all of at least 11 since it started), has its motor fully open once the room has stayed so while the motor was polled at least four
times in time, each reporting the end of its travel; then whichever position is reported after its next reading, the message,
once it arrives intact and fresh at the hub, turns the boiler on at the next tick, provided it is on or has been off for long
enough, and it stays on for the minimum on time (less one tick), whatever else arrives. -/
theorem C249_freezing_room_heated (kit : Bytes → TrvKit) (gated : Bool) (ok : Bytes → Reading → Prop)
    (tpm minOn : Nat) (ht : tpm = 30 ∨ tpm = 60) (hm1 : 1 ≤ minOn) (hm : minOn ≤ 255) (e : EncFn) (hel : EncLen e) (key : Bytes)
    (ids : List Bytes) (h0 : House) (hb : HBegin ids h0) (s : TrvHome) (h' : House) (hr : TrvReach kit gated ok false tpm minOn e key ids h0 s)
    -- the valve
    (id : Bytes) (hid : id ∈ ids) (hk : (kit id).Ok) (hc : (kit id).v.c.binary = false) (hg : (kit id).v.c.alwaysGlacial = false)
    (hmax : 100 ≤ (kit id).v.maxPC ∨ (kit id).prop = false ∧ 66 ≤ (kit id).v.maxPC)
    -- the room is freezing, the motor working
    (l post : List TrvEv) (ops : List VOp) (y : MVIn) (hdid : s.did id = l ++ post ++ [.minute ops y])
    (pre es : List Reading) (hl : readingsIn l = pre ++ es) (hf : ∀ x ∈ es ++ readingsIn post ++ [(ops, y)], freezingReading (kit id).v x)
    (hlong : 27 ≤ es.length ∨ (pre = [] ∧ 11 ≤ es.length)) (hmin : y.minOpen ≤ min (kit id).v.maxPC 100)
    (hst : ((kit id).after l).motor.st = .normal) (hcal : (kit id).prop = false ∨ ((kit id).after l).motor.cp.prec ≤ 15)
    (hgood : ∀ i ∈ pollsIn post, (kit id).limit ≤ i.sct ∨ EndStopPoll ((kit id).after l).motor i)
    (hn : 4 ≤ earlyIn (kit id).limit post)
    -- the valve sends what it reports
    (a : ValveArgs) (r r' : Bytes) (ha : a.valvePC.toNat = reportOf gated ((kit id).after (s.did id))) (x : SentMsg)
    (hx : (s.house.chan.valve e key id a r r').sent = s.house.chan.sent ++ [x])
    -- whatever happens next
    (hr' : HReach false tpm minOn e key ids { s.house with chan := s.house.chan.valve e key id a r r' } h')
    (after : List SentMsg) (hsent : h'.chan.sent = s.house.chan.sent ++ x :: after)
    -- the message arrives at the hub
    (hfresh : ∀ y ∈ x :: after, y.id = x.id → ∀ g ∈ h'.chan.got, g.node = x.id → g.frame ≠ y.frame)
    (c0 cur0 : Bytes) (hgd : BothGood h0.chan.ee x.id c0) (hcur : getLastRXMsgCtr h0.chan.ee x.id = some cur0) (hlt : beVal cur0 < beVal x.ctr)
    (hfind : (getNextMatchingNodeID h0.chan.ee 0 (x.id.take ((x.frame[2]?.getD 0).toNat % 16))).map (rowID h0.chan.ee) = some x.id)
    (hsmall0 : beVal c0 + 255 < 2 ^ 40) (hsmall : beVal x.ctr + 255 < 2 ^ 40)
    (c : HCfg) (hacc : Accepts e c.dec key x) (hkey : c.key = some key) (hscr : 74 ≤ c.scratch) (hsk : 31 ≤ c.stack.length)
    (hop : c.o1 = .boiler ∨ c.o2 = .boiler) (minute : Nat) (s0 : Bool)
    (hquiet : h'.boiler.pin = true ∨
      ∃ pre post, h'.log = pre ++ post ∧ onTicks post = 0 ∧ HubObs.restart ∉ post ∧ min 254 minOn + 2 ≤ minutesSeen post)
    -- and for the minimum on time
    (h2 : House) (hr2 : HReach false tpm minOn e key ids ((h'.hear key c minute (x.frame.drop 1)).tick tpm minOn s0) h2)
    (lg : List HubObs) (hlg : h2.log = ((h'.hear key c minute (x.frame.drop 1)).tick tpm minOn s0).log ++ lg) (hnr : HubObs.restart ∉ lg)
    (htk : ticksSeen lg ≤ minOn * tpm - 2) :
    ((kit id).after (s.did id)).motor.cur = 100 ∧ ((kit id).after (s.did id)).motor.st = .normal ∧ ((kit id).after (s.did id)).mv.calling = true ∧
      h2.boiler.pin = true := by
  obtain ⟨b1, b2, -, b4⟩ := C247_freezing_room_calls (kit id).v hc hg (kit id).prop (kit id).limit (kit id).minDR (kit id).tfo (kit id).trev hk.1 hk.2
    (hmax.imp_right fun h => ⟨h.1, by omega⟩) l post pre es hl (fun z hz => hf z (by simp [hz])) hlong (fun z hz => hf z (by simp [hz])) hst hgood hn
  have hcall := b4 ops y (hf _ (by simp)) hmin hcal
  have hrd : readingsIn (l ++ post ++ [.minute ops y]) = pre ++ (es ++ readingsIn post ++ [(ops, y)]) := by
    rw [readings_append, readings_append, hl]
    simp [readingsIn]
  have hval := (trv_target (kit id).v hc hg (by omega)
    (trv_inv (kit id).v (kit id).prop (kit id).limit (kit id).minDR (kit id).tfo (kit id).trev (l ++ post ++ [.minute ops y])) pre
    (es ++ readingsIn post ++ [(ops, y)]) hrd hf (hlong.imp (fun h => by simp; omega) (fun h => ⟨h.1, by simp; omega⟩))).1
  have hmot : ∀ (t : Trv), (t.minute (kit id).v.p (kit id).v.c (kit id).v.maxPC ops y).motor.cur = t.motor.cur ∧
      (t.minute (kit id).v.p (kit id).v.c (kit id).v.maxPC ops y).motor.st = t.motor.st := by
    intro t
    unfold Trv.minute
    dsimp only
    unfold Trv.setActuator
    split
    · exact ⟨rfl, rfl⟩
    · exact ⟨rfl, rfl⟩
  have hsn := trvAfter_snoc (kit id).v (newTrv (kit id).prop (kit id).limit (kit id).minDR (kit id).tfo (kit id).trev) (l ++ post) (.minute ops y)
  have hmm := hmot (trvAfter (kit id).v (newTrv (kit id).prop (kit id).limit (kit id).minDR (kit id).tfo (kit id).trev) (l ++ post))
  rw [hdid] at ha ⊢
  refine ⟨?_, ?_, hcall, ?_⟩
  · show (trvAfter _ _ _).motor.cur = 100
    rw [hsn]; exact hmm.1.trans b2
  · show (trvAfter _ _ _).motor.st = _
    rw [hsn]; exact hmm.2.trans b1
  have hpc : a.valvePC.toNat = min (kit id).v.maxPC 100 := by
    rw [ha, reportOf, show ((kit id).after (l ++ post ++ [.minute ops y])).mv.calling = true from hcall, Bool.not_true, Bool.and_false]
    exact hval
  have hx' : (sendValve e key id (s.house.chan.tx id) a r r').2 = some x := by
    have := List.append_cancel_left (show s.house.chan.sent ++ (sendValve e key id (s.house.chan.tx id) a r r').2.toList = _ from hx)
    generalize (sendValve e key id (s.house.chan.tx id) a r r').2 = o at this ⊢
    cases o with
    | none => cases this
    | some y => cases this; rfl
  obtain ⟨hO, hbody⟩ := sendValve_body hx'
  rw [if_pos (by omega)] at hbody
  have hreach : HReach false tpm minOn e key ids h0 h' := (HReach.valve a r r' hr.hreach hid).trans hr'
  exact C184_asked_gets_heat tpm minOn ht hm1 hm e hel key ids h0 h' hb hreach s.house.chan.sent after x hsent hfresh hO a.valvePC hbody
    (by omega) (by omega) c0 cur0 hgd hcur hlt hfind hsmall0 hsmall c hacc hkey hscr hsk hop minute s0 hquiet h2 hr2 lg hlg hnr htk

/-! ## Non-vacuity -/

def exKit : Bytes → TrvKit := fun _ => ⟨exSetup, false, 200, 40, 0, 0⟩

theorem exKit_ok (id : Bytes) : (exKit id).Ok := ⟨Nat.zero_le _, Nat.zero_le _⟩

/-- One valve after a history, at the quiet house of C184. -/
def exTrvHome (l : List TrvEv) : TrvHome := ⟨exHouse1, setAt (fun _ => []) exRxID l, []⟩

theorem exTrvHome_reach (gated : Bool) (ok : Bytes → Reading → Prop) (l : List TrvEv) (h : ∀ x ∈ readingsIn l, ok exRxID x) :
    TrvReach exKit gated ok false 30 1 nullEncChecked chKey [exRxID] exHouse0 (exTrvHome l) := by
  have key : ∀ n (l : List TrvEv), l.length = n → (∀ x ∈ readingsIn l, ok exRxID x) →
      TrvReach exKit gated ok false 30 1 nullEncChecked chKey [exRxID] exHouse0 (exTrvHome l) := by
    intro n
    induction n with
    | zero =>
      intro l hl _
      rw [List.length_eq_zero_iff.1 hl]
      have := TrvReach.other (kit := exKit) (gated := gated) (ok := ok) (h0 := exHouse0) .start (HReach.tick (pf := false) (minOn := 1) (tpm := 30) (e := nullEncChecked)
        (key := chKey) (ids := [exRxID]) true (.tick true (.tick true .start))) rfl
      have e : exTrvHome [] = { (⟨exHouse0, fun _ => [], []⟩ : TrvHome) with house := exHouse1 } := by
        unfold exTrvHome
        congr 1
        funext i
        simp [setAt]
      rw [e]; exact this
    | succ n ih =>
      intro l hl h
      have hne : l ≠ [] := by intro h0; rw [h0] at hl; simp at hl
      obtain ⟨l', ev, rfl⟩ : ∃ l' ev, l = l' ++ [ev] := ⟨l.dropLast, l.getLast hne, (List.dropLast_concat_getLast hne).symm⟩
      have hl' : l'.length = n := by simpa using hl
      rw [readings_append] at h
      have := TrvReach.event exRxID ev (ih l' hl' fun x hx => h x (List.mem_append_left _ hx))
        (fun ops x hx => h _ (List.mem_append_right _ (by subst hx; simp [readingsIn])))
      have e : exTrvHome (l' ++ [ev]) = { exTrvHome l' with did := setAt (exTrvHome l').did exRxID ((exTrvHome l').did exRxID ++ [ev]) } := by
        unfold exTrvHome
        congr 1
        funext i
        by_cases hi : i = exRxID
        · simp [setAt, hi]
        · simp [setAt, hi]
      rw [e]; exact this
  exact key l.length l rfl h

/-- The freezing room of C247: from power up, fitted, polled, and read once more. -/
def exWhole : List TrvEv := exA ++ .fitted :: exB ++ exPost ++ [.minute exFreezing.1 exFreezing.2]

theorem exWhole_readings : readingsIn (exA ++ .fitted :: exB) = List.replicate 11 exFreezing ∧ readingsIn exPost = [] ∧
    readingsIn exWhole = List.replicate 12 exFreezing ∧ earlyIn 200 exPost = 4 := by decide +kernel

theorem exWhole_state : ((exKit exRxID).after (exA ++ .fitted :: exB)).motor.st = .normal ∧ ((exKit exRxID).after exWhole).motor.cur = 100 ∧
    reportOf true ((exKit exRxID).after exWhole) = 100 := by decide +kernel

/-- It sends 100%, the hub hears it, and the boiler comes on: the house of C191, now with the motor, and with `C249_boiler_only_for_open_valve`'s hypotheses. -/
theorem exWhole_reach : TrvReach exKit true (fun id => freezingReading (exKit id).v) false 30 1 nullEncChecked chKey [exRxID] exHouse0
    { exTrvHome exWhole with house := exReported 100,
                             told := [] ++ (sendValve nullEncChecked chKey exRxID (exHouse1.chan.tx exRxID) (exValve 100) [] [4, 5, 6]).2.toList.map fun x => (x, exWhole) } := by
  have e : (exTrvHome exWhole).did exRxID = exWhole := by simp [exTrvHome, setAt]
  have := TrvReach.send (id := exRxID) (exValve 100) [] [4, 5, 6] (exTrvHome_reach true (fun id => freezingReading (exKit id).v) exWhole (by
    rw [exWhole_readings.2.2.1]; intro x hx; rw [List.eq_of_mem_replicate hx]; exact exFreezing_ok)) (by simp) (by rw [e, exWhole_state.2.2]; rfl)
  rw [e] at this
  exact this

example : exCold3.boiler.pin = true ∧ ∃ s, TrvReach exKit true (fun id => freezingReading (exKit id).v) false 30 1 nullEncChecked chKey [exRxID] exHouse0 s ∧ s.house = exCold3 := by
  refine ⟨by decide +kernel, _, .other exWhole_reach (h' := exCold3) ?_ (by decide +kernel), rfl⟩
  exact .tick false (.hear (hsCfg (exReported 100)) 20 (exMsgOf (exReported 100)) .start (by decide +kernel) (hsCfg_ok _).2.2.1 (hsCfg_ok _).2.2.2 (hsCfg_ok (exReported 100)).1 (hsCfg_ok _).2.1)

/-- The hypotheses of `C249_freezing_room_heated` on the valve. -/
example : (∀ x ∈ List.replicate 11 exFreezing ++ readingsIn exPost ++ [exFreezing], freezingReading exSetup x) ∧
    (∀ i ∈ pollsIn exPost, EndStopPoll ((exKit exRxID).after (exA ++ .fitted :: exB)).motor i) ∧ exFreezing.2.minOpen ≤ 100 := by
  refine ⟨?_, ?_, by decide⟩
  · intro x hx
    rw [exWhole_readings.2.1] at hx
    have : x = exFreezing := by
      rcases List.mem_append.1 hx with hx | hx
      · exact List.eq_of_mem_replicate (n := 11) (by rw [List.append_nil] at hx; exact hx)
      · simpa using hx
    rw [this]; exact exFreezing_ok
  · intro i hi
    have : pollsIn exPost = List.replicate 4 exStop := by decide +kernel
    rw [this] at hi
    rw [List.eq_of_mem_replicate hi]
    refine ⟨rfl, fun h => ?_⟩
    have hp : ((exKit exRxID).after (exA ++ .fitted :: exB)).motor.prop = false := by decide +kernel
    rw [hp] at h; cases h

end OTR.Props
