import Verif.Props.HouseWarm
/-!
# C232: the whole system keeps the room warm, with the hub's receive queue

C222 in the house of C209: what the radio receives waits in the hub's receive queue until the main loop takes it off.
-/

namespace OTR.Props
open OTR

/-! ## Specification -/

/-- One minute at the hub, in which it does not restart: at most `tpm` ticks of its main loop, at least one of them at the start of a minute; frames arrive and `handle()` is called at any time. -/
def QMinuteOf (mf cap tpm minOn : Nat) (e : EncFn) (key : Bytes) (ids : List Bytes) (s s' : QHouse) : Prop :=
  QReach (fun _ => True) mf cap false tpm minOn e key ids s s' ∧ s'.restarts = s.restarts ∧ ∃ l, s'.house.log = s.house.log ++ l ∧ ticksSeen l ≤ tpm ∧ 1 ≤ minutesSeen l

/-- At some time between `s` and `s'` (at `w`) a message giving the position `pc`, of a node the hub knows, intact and fresh (neither it nor a later one of that node was accepted before or
waits ahead of it), waits in the hub's queue behind `ahead`, and by some later time before `s'` (at `w'`) `handle()` has been called early enough in its cycle once for each message ahead and once
more, without a restart, with the hub set up to drive the boiler. -/
def QHears (mf cap tpm minOn : Nat) (e : EncFn) (key : Bytes) (ids : List Bytes) (s0 s s' : QHouse) (pc : Nat) : Prop :=
  ∃ (ok : HCfg → Prop) (w w' : QHouse) (ahead behind : List Bytes) (x : SentMsg) (before now after : List SentMsg) (b : Byte) (c0 cur0 : Bytes),
    QReach (fun _ => True) mf cap false tpm minOn e key ids s w ∧ QReach ok mf cap false tpm minOn e key ids w w' ∧ QReach (fun _ => True) mf cap false tpm minOn e key ids w' s' ∧
    w'.restarts = w.restarts ∧ w.calls + ahead.length + 1 ≤ w'.calls ∧
    w.waiting = ahead ++ x.frame.drop 1 :: behind ∧ w.house.chan.sent = before ++ x :: now ∧ w'.house.chan.sent = before ++ x :: after ∧
    (∀ y ∈ x :: after, y.id = x.id → y.frame.drop 1 ∉ ahead ∧ ∀ g ∈ w.house.chan.got, g.node = x.id → g.frame ≠ y.frame) ∧
    x.fType = FTS_BasicSensorOrValve ∧ x.body[0]? = some b ∧ b.toNat = pc ∧
    BothGood s0.house.chan.ee x.id c0 ∧ getLastRXMsgCtr s0.house.chan.ee x.id = some cur0 ∧ beVal cur0 < beVal x.ctr ∧
    (getNextMatchingNodeID s0.house.chan.ee 0 (x.id.take ((x.frame[2]?.getD 0).toNat % 16))).map (rowID s0.house.chan.ee) = some x.id ∧
    beVal c0 + 255 < 2 ^ 40 ∧ beVal x.ctr + 255 < 2 ^ 40 ∧
    ∀ c, ok c → Accepts e c.dec key x ∧ 74 ≤ c.scratch ∧ (c.o1 = .boiler ∨ c.o2 = .boiler)

/-! ## Proofs -/

theorem QReach.weaken {ok : HCfg → Prop} {mf cap : Nat} {pf : Bool} {tpm minOn : Nat} {e : EncFn} {key : Bytes} {ids : List Bytes} {s0 s : QHouse}
    (h : QReach ok mf cap pf tpm minOn e key ids s0 s) : QReach (fun _ => True) mf cap pf tpm minOn e key ids s0 s := by
  induction h with
  | start => exact .start
  | valve a r r' _ hid ih => exact .valve a r r' ih hid
  | plain a r r' _ hid ha ih => exact .plain a r r' ih hid ha
  | restart _ hid ih => exact .restart ih hid
  | crash r r' k _ hid hc ih => exact .crash r r' k ih hid hc
  | rx as q' fs _ h1 h2 ih => exact .rx as q' fs ih h1 h2
  | call i o c minute _ a0 a1 a2 ho hst hk hnf hg hok ih => exact .call i o c minute ih a0 a1 a2 ho hst hk hnf hg trivial
  | hubRestart junk _ ih => exact .hubRestart junk ih
  | lose c i o m k junk hpf _ a0 a1 a2 ho hm hb hnf hg hc ih => exact .lose c i o m k junk hpf ih a0 a1 a2 ho hm hb hnf hg hc
  | tick s0' _ ih => exact .tick s0' ih

theorem QReach.append {ok : HCfg → Prop} {mf cap : Nat} {pf : Bool} {tpm minOn : Nat} {e : EncFn} {key : Bytes} {ids : List Bytes} {s0 s s' : QHouse}
    (h0 : QReach ok mf cap pf tpm minOn e key ids s0 s) (h : QReach ok mf cap pf tpm minOn e key ids s s') : QReach ok mf cap pf tpm minOn e key ids s0 s' := by
  induction h with
  | start => exact h0
  | valve a r r' _ hid ih => exact .valve a r r' ih hid
  | plain a r r' _ hid ha ih => exact .plain a r r' ih hid ha
  | restart _ hid ih => exact .restart ih hid
  | crash r r' k _ hid hc ih => exact .crash r r' k ih hid hc
  | rx as q' fs _ h1 h2 ih => exact .rx as q' fs ih h1 h2
  | call i o c minute _ a0 a1 a2 ho hst hk hnf hg hok ih => exact .call i o c minute ih a0 a1 a2 ho hst hk hnf hg hok
  | hubRestart junk _ ih => exact .hubRestart junk ih
  | lose c i o m k junk hpf _ a0 a1 a2 ho hm hb hnf hg hc ih => exact .lose c i o m k junk hpf ih a0 a1 a2 ho hm hb hnf hg hc
  | tick s0' _ ih => exact .tick s0' ih

section
variable {mf cap tpm minOn : Nat} {e : EncFn} {key : Bytes} {ids : List Bytes} {s0 s s' : QHouse}

/-- What is heard through the queue is heard. -/
theorem qhears_hears (ht : tpm = 30 ∨ tpm = 60) (hm : minOn ≤ 255) (hel : EncLen e) (hb : QBegin mf cap ids s0) (hr : QReach (fun _ => True) mf cap false tpm minOn e key ids s0 s) {pc : Nat}
    (hh : QHears mf cap tpm minOn e key ids s0 s s' pc) : Hears tpm minOn e key ids s0.house s.house s'.house pc := by
  obtain ⟨ok, w, w', ahead, behind, x, before, now, after, b, c0, cur0, r1, r2, r3, hno, hc, hw, hin, hsent, hfresh, hO, hbody, hpc, hgood, hcur, hlt, hfind, hs0, hs1, hok⟩ := hh
  have hsz := hb.size
  have hrw := hr.append r1
  have qi0 := qh_inv hsz (qbegin_inv hb) hr
  have qi := qh_inv hsz (qbegin_inv hb) hrw
  have qi' := qh_inv hsz qi r2
  have hH := q_sim hsz (qbegin_inv hb) hrw
  -- the handling of the message, in a history with any configurations before it
  have hb' : ∃ h c minute, HReach false tpm minOn e key ids w.house h ∧ (c.key = some key ∧ 31 ≤ c.stack.length ∧ ok c) ∧ GotFrom w.house h ahead ∧
      HReach false tpm minOn e key ids (h.hear key c minute (x.frame.drop 1)) w'.house := handled_from hsz qi r2 hw hno hc
  obtain ⟨h, c, minute, hr3, ⟨hkey, hst, hokc⟩, hgf, hr4⟩ := hb'
  obtain ⟨hacc, hscr, hop⟩ := hok c hokc
  have hreach := hH.trans hr3
  have inv := hinv (by omega) hm hel hb.house hreach
  have cinv := inv_reach hel hb.house.chan inv.reach
  obtain ⟨⟨la, ha⟩, _⟩ := house_grows hr3
  obtain ⟨⟨lb, hlb⟩, _⟩ := house_grows hr4
  have hlb : w'.house.chan.sent = h.chan.sent ++ lb := hlb
  have hafter : after = (now ++ la) ++ lb := by
    rw [hsent, ha, hin, List.append_assoc, List.append_assoc] at hlb
    have := List.append_cancel_left hlb
    simpa using this
  have hhs : h.chan.sent = before ++ x :: (now ++ la) := by rw [ha, hin]; simp
  refine ⟨h, x, before, now ++ la, b, c0, cur0, c, minute, (q_sim hsz qi0 r1).trans hr3, hr4.trans (q_sim hsz qi' r3), hhs, ?_, hO, hbody, hpc, hgood, hcur, hlt, hfind, hs0, hs1,
    hacc, hkey, hscr, hst, hop⟩
  intro y hy hyid g hg hnode heq
  have hy' : y ∈ x :: after := by
    rw [hafter]
    rcases List.mem_cons.1 hy with h | h
    · exact List.mem_cons.2 (.inl h)
    · exact List.mem_cons.2 (.inr (List.mem_append_left _ h))
  have hys : y ∈ h.chan.sent := by rw [hhs]; exact List.mem_append_right _ hy
  obtain ⟨f1, f2⟩ := hfresh y hy' hyid
  rcases hgf g hg with hg' | ⟨m, hmem, n, hn⟩
  · exact f2 g hg' hnode heq
  · have hml : m.length ≤ 255 := waiting_len qi.holds m (by rw [hw]; exact List.mem_append_left _ hmem)
    have := frame_msg hel (cinv.made y hys).2 hml (hn.symm.trans heq)
    rw [this] at hmem
    exact f1 hmem

theorem qminute_minute (hsz : 1 ≤ mf ∧ mf ≤ 255 ∧ 1 ≤ cap) (qi : QHInv mf s) (h : QMinuteOf mf cap tpm minOn e key ids s s') : MinuteOf tpm minOn e key ids s.house s'.house := by
  obtain ⟨r, hno, l, hl, h1, h2⟩ := h
  obtain ⟨l', e1, nr⟩ := no_restart_seen r
  have : l' = l := List.append_cancel_left (e1.symm.trans hl)
  subst this
  exact ⟨q_sim hsz qi r, l', hl, nr hno, h1, h2⟩

end

/-- **C232** C222 with the hub's receive queue: a valve (set up to open to 66% at least) reads its room once a minute, and at least once in any `D` minutes, `D` at least two minutes less than the
minimum on time, a report of the position it set arrives in the hub's queue and `handle()` is called often enough to reach it, the hub not restarting. The room (when below `t` less 9/16C) does not
cool once the radiator has been fully open, and the boiler on, for `L` minutes. Then whatever else arrives and waits in the queue, whenever, whatever is dropped from it, replayed or made up, whoever else asks for heat,
and whatever user, schedule and occupancy do to the valve, as long as its target is not below `t` the room is never colder than `(12 + L + 2*D + min 254 minOn)/16`C below the lower of where it started and
`t` less 9/16C. -/
theorem C232_room_kept_warm (v : ValveSetup) (es : Nat → Reading) (hv : PlainRoom v es) (h66 : 66 ≤ v.maxPC) (t L D N : Nat) (htar : ∀ k, k ≤ N → t ≤ targetAt v es k)
    (mf cap tpm minOn : Nat) (ht : tpm = 30 ∨ tpm = 60) (hm : minOn ≤ 255) (hD : D + 2 ≤ minOn) (hD1 : 1 ≤ D) (e : EncFn) (hel : EncLen e) (key : Bytes) (ids : List Bytes) (s0 : QHouse)
    (hb : QBegin mf cap ids s0) (S : Nat → QHouse) (hr : QReach (fun _ => True) mf cap false tpm minOn e key ids s0 (S 0))
    (hmin : ∀ k, k < N → QMinuteOf mf cap tpm minOn e key ids (S k) (S (k + 1)))
    (hears : ∀ k, k + D ≤ N → ∃ j, k ≤ j ∧ j < k + D ∧ QHears mf cap tpm minOn e key ids s0 (S j) (S (j + 1)) (posAt v es j))
    (heats : ∀ k, k < N → HeldOpen v es L k → BoilerOnFor (fun i => (S i).house) L k → tempAt es k ≤ 16 * (t : Int) - 9 → tempAt es k ≤ tempAt es (k + 1)) (k : Nat) (hk : k ≤ N) :
    min (tempAt es 0) (16 * (t : Int) - 9) - (12 + L + 2 * D + min 254 minOn : Nat) ≤ tempAt es k := by
  have hsz := hb.size
  have hreach : ∀ k, k ≤ N → QReach (fun _ => True) mf cap false tpm minOn e key ids s0 (S k) := by
    intro k
    induction k with
    | zero => intro _; exact hr
    | succ k ih => intro h; exact (ih (by omega)).append (hmin k (by omega)).1
  refine C222_room_kept_warm v es hv h66 t L D N htar tpm minOn ht hm hD hD1 e hel key ids s0.house hb.house (fun i => (S i).house) (q_sim hsz (qbegin_inv hb) hr)
    (fun k hk => qminute_minute hsz (qh_inv hsz (qbegin_inv hb) (hreach k (by omega))) (hmin k hk)) (fun k hk => ?_) heats k hk
  obtain ⟨j, j1, j2, j3⟩ := hears k hk
  exact ⟨j, j1, j2, qhears_hears ht hm hel hb (hreach j (by omega)) j3⟩

/-! ## Non-vacuity: each minute a stray frame and the report of a fully open valve arrive, and `handle()` is called twice -/

def exQSends (s : QHouse) : QHouse := { s with house := exSends s.house }
def exQArr (s : QHouse) : Arrivals := [([1, 2], 2), (exLast s.house, (exLast s.house).length)]
def exQRx (s : QHouse) : QHouse := match s.q.arrive (exQArr s) with | some r => { s with q := r.1, inb := s.inb ++ r.2 } | none => s
def exQTick (s : QHouse) : QHouse := { s with house := s.house.tick 30 3 true }
def exQMinutes : Nat → QHouse
  | 0 => exQ0
  | k + 1 => exQTick (exCall (exCall (exQRx (exQSends (exQMinutes k)))))

/-- What is needed of the state in which the frames wait (`w`), the state `handle()` was called twice after it, and the minute from `s` to `s'`. -/
def exQWaitOK (w w' : QHouse) : Bool :=
  match w.house.chan.sent.getLast? with
  | none => false
  | some x => decide (w.waiting = [[1, 2]] ++ x.frame.drop 1 :: []) && decide (x.frame.drop 1 ∉ [[(1 : Byte), 2]]) && decide (w.calls + 2 ≤ w'.calls) && decide (w'.restarts = w.restarts)
def exQLogOK (s s' : QHouse) : Bool :=
  decide (s'.house.log = s.house.log ++ s'.house.log.drop s.house.log.length) && decide (ticksSeen (s'.house.log.drop s.house.log.length) ≤ 30) &&
    decide (1 ≤ minutesSeen (s'.house.log.drop s.house.log.length)) && decide (s'.restarts = s.restarts)
def exQOK (s : QHouse) : Bool :=
  let w := exQRx (exQSends s)
  let w' := exCall (exCall w)
  exMsgOK w.house && exQWaitOK w w' && exQLogOK s (exQTick w') && decide ((exLast w.house).length ≤ 64)

theorem exQMinutes_ok : ∀ k, k < 8 → exQOK (exQMinutes k) = true := by decide +kernel

theorem exCall_reach3 {ok : HCfg → Prop} {s0 s : QHouse} (hok : ok (hsCfg s.house)) (h : QReach ok 64 3 false 30 3 nullEncChecked chKey [exRxID] s0 s) :
    QReach ok 64 3 false 30 3 nullEncChecked chKey [exRxID] s0 (exCall s) := by
  have nil : ArrLegal 64 [] := fun _ h => by cases h
  unfold exCall
  cases ho : queueHandle s.q s.serial exHandleIn with
  | none => exact h
  | some o => exact .call exHandleIn o (hsCfg s.house) 20 h nil nil nil ho (hsCfg_ok _).2.2.1 (hsCfg_ok _).2.2.2 (hsCfg_ok s.house).1 (hsCfg_ok _).2.1 hok

theorem exQRx_house (s : QHouse) : (exQRx s).house = s.house := by
  unfold exQRx; cases s.q.arrive (exQArr s) <;> rfl

theorem exQMinute_of (s : QHouse) (hok : exQOK s = true) :
    QMinuteOf 64 3 30 3 nullEncChecked chKey [exRxID] s (exQTick (exCall (exCall (exQRx (exQSends s))))) ∧
    QHears 64 3 30 3 nullEncChecked chKey [exRxID] exQ0 s (exQTick (exCall (exCall (exQRx (exQSends s))))) 100 := by
  have r0 : QReach (fun _ => True) 64 3 false 30 3 nullEncChecked chKey [exRxID] s (exQSends s) := .valve (id := exRxID) (exValve 100) [] [4, 5, 6] .start (by simp)
  unfold exQOK at hok
  simp only [Bool.and_eq_true, decide_eq_true_eq] at hok
  obtain ⟨⟨⟨o1, o2⟩, o3⟩, o4⟩ := hok
  have r1 : QReach (fun _ => True) 64 3 false 30 3 nullEncChecked chKey [exRxID] s (exQRx (exQSends s)) := by
    rw [exQRx_house] at o4
    unfold exQRx
    cases ha : (exQSends s).q.arrive (exQArr (exQSends s)) with
    | none => exact r0
    | some r =>
      refine .rx _ r.1 r.2 r0 ?_ ha
      intro a ha
      rcases List.mem_cons.1 ha with rfl | ha
      · exact ⟨by show 2 ≤ 64; omega, by show 2 ≤ 2; omega⟩
      · rw [List.mem_singleton.1 ha]; exact ⟨o4, Nat.le_refl _⟩
  generalize exQRx (exQSends s) = w at *
  have r2 : ∀ {ok : HCfg → Prop}, ok (hsCfg w.house) → ok (hsCfg (exCall w).house) → QReach ok 64 3 false 30 3 nullEncChecked chKey [exRxID] w (exCall (exCall w)) :=
    fun h1 h2 => exCall_reach3 h2 (exCall_reach3 h1 .start)
  have hsent := exCall_sent2 w
  have hsent1 := exCall_sent w
  have r2' := r2 (ok := fun _ => True) trivial trivial
  unfold exQLogOK at o3
  simp only [Bool.and_eq_true, decide_eq_true_eq] at o3
  obtain ⟨⟨⟨b1, b2⟩, b3⟩, b4⟩ := o3
  refine ⟨⟨.tick true (r1.append r2'), b4, _, b1, b2, b3⟩, ?_⟩
  unfold exMsgOK at o1
  unfold exQWaitOK at o2
  cases hx : w.house.chan.sent.getLast? with
  | none => rw [hx] at o1; cases o1
  | some x =>
    rw [hx] at o1 o2
    simp only [Bool.and_eq_true, decide_eq_true_eq, List.all_eq_true] at o1 o2
    obtain ⟨⟨⟨⟨⟨⟨⟨a1, a2⟩, a3⟩, a4⟩, a5⟩, a6⟩, a7⟩, a8⟩ := o1
    obtain ⟨⟨⟨w1, w2⟩, w3⟩, w4⟩ := o2
    obtain ⟨before, hs⟩ := List.getLast?_eq_some_iff.1 hx
    have hx2 : x ∈ w.house.chan.sent := by rw [hs]; simp
    have hx8 : x.id.length = 8 := by rw [a3]; rfl
    refine ⟨fun c => okAll c ∧ Accepts nullEncChecked c.dec chKey x, w, exCall (exCall w), [[1, 2]], [], x, before, [], [], 100, [0, 0, 0, 0, 0, 0], [0, 0, 0, 0, 0, 0], r1,
      r2 ⟨okAll_hs _, hs_accepts hx2 hx8⟩ ⟨okAll_hs _, hs_accepts (hsent1.symm ▸ hx2) hx8⟩, .tick true .start, w4, w3, w1, hs, hsent.trans hs, ?_, a1, a2, rfl, ?_, ?_, a4, ?_, by decide, a5,
      fun c h => ⟨h.2, h.1.1, h.1.2⟩⟩
    · intro y hy _
      rw [List.mem_singleton.1 hy]
      exact ⟨w2, fun g hg _ => a8 g hg⟩
    · rw [a3]; exact exRx_good
    · rw [a3]; decide +kernel
    · rw [a6, a3]; decide +kernel

/-- All the hypotheses of C232 hold of these 8 minutes (minimum on time 3 minutes); the boiler, off at first, does come on. -/
example : (∀ k, k ≤ 8 → 200 - 22 ≤ tempAt exCooling k) ∧ (exQMinutes 3).house.boiler.pin = false ∧ (exQMinutes 7).house.boiler.pin = true := by
  have hmin : ∀ k, k < 8 → QMinuteOf 64 3 30 3 nullEncChecked chKey [exRxID] (exQMinutes k) (exQMinutes (k + 1)) ∧
      QHears 64 3 30 3 nullEncChecked chKey [exRxID] exQ0 (exQMinutes k) (exQMinutes (k + 1)) (posAt exSetup exCooling k) := fun k hk => by
    rw [(exCooling_open k (by omega)).1]
    exact exQMinute_of _ (exQMinutes_ok k hk)
  refine ⟨fun k hk => ?_, by decide +kernel, by decide +kernel⟩
  have := C232_room_kept_warm exSetup exCooling exCooling_plain (by decide) 19 5 1 8 (fun k hk => by rw [(exCooling_open k (by omega)).2]; omega) 64 3 30 3 (.inl rfl) (by omega) (by omega) (by omega)
    nullEncChecked nullEncChecked_len chKey [exRxID] exQ0 ⟨⟨chBegin, rfl, rfl⟩, by omega, ⟨_, rfl⟩, rfl, rfl⟩ exQMinutes .start (fun k hk => (hmin k hk).1)
    (fun k hk => ⟨k, by omega, by omega, (hmin k (by omega)).2⟩) (fun k hk h1 h2 h3 => by
      have := h1.1
      show (200 - (min k 4 : Nat) : Int) ≤ 200 - (min (k + 1) 4 : Nat)
      omega) k hk
  have h0 : tempAt exCooling 0 = 200 := rfl
  rw [h0] at this
  omega

end OTR.Props
