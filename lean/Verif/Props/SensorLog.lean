import Verif.Props.StatsHolder
import Verif.Props.StatsLog
/-!
# C211: from every sensor of a room to the hub's log
-/

namespace OTR.Props
open OTR OTR.Spec

/-! ## Specification -/

/-- One report of a node to the hub: the house when it is sent, what is sent, the house when it arrives, what was sent meanwhile, and the hub's configuration and time then. -/
structure Report where
  before : House
  a : ValveArgs
  r : Bytes
  r' : Bytes
  x : SentMsg
  arrives : House
  after : List SentMsg
  c : HCfg
  minute : Nat

/-- The house when the hub has handled the report. -/
def Report.heard (p : Report) (key : Bytes) : House := p.arrives.hear key p.c p.minute (p.x.frame.drop 1)

/-- The report carries the text in `mem` in the body of a valve frame of node `id`, is sent in the house `p.before` which came about from `prev`, and arrives intact and fresh, as in C184 and C192. -/
structure Report.Arrives (tpm minOn : Nat) (e : EncFn) (key : Bytes) (ids : List Bytes) (h0 prev : House) (id mem : Bytes) (p : Report) : Prop where
  past : HReach false tpm minOn e key ids prev p.before
  text : ∃ p0 p1, p.a.ptext = p0 :: p1 :: mem
  sent : (p.before.chan.valve e key id p.a p.r p.r').sent = p.before.chan.sent ++ [p.x]
  way : HReach false tpm minOn e key ids { p.before with chan := p.before.chan.valve e key id p.a p.r p.r' } p.arrives
  all : p.arrives.chan.sent = p.before.chan.sent ++ p.x :: p.after
  fresh : ∀ y ∈ p.x :: p.after, y.id = p.x.id → ∀ g ∈ p.arrives.chan.got, g.node = p.x.id → g.frame ≠ y.frame
  known : ∃ c0 cur0, BothGood h0.chan.ee p.x.id c0 ∧ getLastRXMsgCtr h0.chan.ee p.x.id = some cur0 ∧ beVal cur0 < beVal p.x.ctr ∧ beVal c0 + 255 < 2 ^ 40
  find : (getNextMatchingNodeID h0.chan.ee 0 (p.x.id.take ((p.x.frame[2]?.getD 0).toNat % 16))).map (rowID h0.chan.ee) = some p.x.id
  small : beVal p.x.ctr + 255 < 2 ^ 40
  intact : Accepts e p.c.dec key p.x
  cfg : p.c.key = some key ∧ 74 ≤ p.c.scratch ∧ 31 ≤ p.c.stack.length ∧ ((p.c.o1 = .serial ∧ p.c.o2 ≠ .serial) ∨ (p.c.o1 ≠ .serial ∧ p.c.o2 = .serial))
  honest : NoForgery p.c.dec key p.arrives.chan.sent ∧ GivesBack e p.c.dec ∧ p.x.frame.length ≤ 256

/-- **C211** From every sensor to the log. A node refreshes its statistics from its sensors before each frame and sends them; each frame arrives intact and fresh at the hub, with anything else
happening in the house meanwhile. Then in any 4n consecutive frames (n sensors) each sensor of normal priority has its then current value printed by the hub, in a line that is a JSON object with the node's ID. -/
theorem C211_sensors_logged (R : SensorRun) (hO : Shape.OK (R.sensors.map some) []) (hs : HolderReach (R.sensors.map some) [] R.start) (hsys : validKey R.sys = true)
    (hbuf : ∀ k, R.size k ≤ (R.mem k).length ∧ 10 ≤ R.size k ∧ R.size k ≤ 255)
    (hfit : ∀ k, ∀ y ∈ R.sensors, headLen R.start R.sys + (y.1.length + 3 + (decInt (R.val k y.1)).length) + 5 ≤ R.size k)
    (tpm minOn : Nat) (ht : tpm = 30 ∨ tpm = 60) (hm : minOn ≤ 255) (e : EncFn) (hel : EncLen e) (key : Bytes)
    (ids : List Bytes) (h0 : House) (hb : HBegin ids h0) (id : Bytes) (hid : id ∈ ids) (k0 : Nat) (reports : Nat → Report)
    (h1 : (reports 0).Arrives tpm minOn e key ids h0 h0 id (writeJSON (R.table 0) R.sys (R.mem 0) (R.size 0) (R.mx 0) (R.sup 0)).2.2.mem)
    (h2 : ∀ k, k + 1 < k0 + 4 * R.sensors.length → (reports (k + 1)).Arrives tpm minOn e key ids h0 ((reports k).heard key) id
      (writeJSON (R.table (k + 1)) R.sys (R.mem (k + 1)) (R.size (k + 1)) (R.mx (k + 1)) (R.sup (k + 1))).2.2.mem)
    (x : Bytes × Bool) (hx : x ∈ R.sensors) (hlow : x.2 = false) :
    ∃ k, k0 ≤ k ∧ k < k0 + 4 * R.sensors.length ∧ ∃ effs json es, ((reports k).heard key).log = (reports k).arrives.log ++ [.handled effs] ∧
      linesOf effs = [json ++ [0x0d, 0x0a]] ∧ readObj json = some es ∧ ([0x40], JVal.str (id.flatMap printHex)) ∈ es ∧ (x.1, JVal.num (R.val k x.1)) ∈ es := by
  have hq : (0x22 : Byte) ∉ R.sys := by
    intro hc
    unfold validKey at hsys
    rw [List.all_eq_true] at hsys
    have := hsys _ hc
    revert this; decide
  obtain ⟨k, a1, a2, es, a3, a4⟩ := C208_values_sent R hO hs hq hbuf hfit x hx hlow k0
  -- all reports are sent in reachable houses
  have one : ∀ {prev : House} {mem : Bytes} {p : Report}, p.Arrives tpm minOn e key ids h0 prev id mem → HReach false tpm minOn e key ids prev (p.heard key) := by
    intro prev mem p h
    have hx1 := (HReach.valve p.a p.r p.r' h.past hid).trans h.way
    refine .hear p.c p.minute _ hx1 ?_ h.cfg.2.2.1 h.cfg.1 h.honest.1 h.honest.2.1
    rw [List.length_drop]
    have := h.honest.2.2
    omega
  have hreach : ∀ k, k < k0 + 4 * R.sensors.length → ∃ prev, HReach false tpm minOn e key ids h0 prev ∧ (reports k).Arrives tpm minOn e key ids h0 prev id
      (writeJSON (R.table k) R.sys (R.mem k) (R.size k) (R.mx k) (R.sup k)).2.2.mem := by
    intro k
    induction k with
    | zero => exact fun _ => ⟨h0, .start, h1⟩
    | succ k ih =>
      intro hk
      obtain ⟨prev, i1, i2⟩ := ih (by omega)
      exact ⟨_, i1.trans (one i2), h2 k hk⟩
  obtain ⟨prev, hp, hA⟩ := hreach k a2
  obtain ⟨p0, p1, hptext⟩ := hA.text
  obtain ⟨c0, cur0, g1, g2, g3, g4⟩ := hA.known
  obtain ⟨hinv, hall, _⟩ := holder_table R hO hs hbuf hfit k
  have hne : es ≠ [] := fun h => by rw [h] at a4; cases a4
  have hr0 : (writeJSON (R.table k) R.sys (R.mem k) (R.size k) (R.mx k) (R.sup k)).1 ≠ 0 := by
    intro h
    unfold sent at a3
    rw [h, List.take_zero] at a3
    have : readObj [] = none := by decide
    rw [this] at a3
    cases a3
  obtain ⟨b1, effs, es', b2, b3, _, b5⟩ := C192_stats_logged tpm minOn ht hm e hel key ids h0 (reports k).before (reports k).arrives hb (hp.trans hA.past) (R.table k) hinv R.sys (R.mem k) hsys
    (R.size k) (R.mx k) (R.sup k) (hbuf k).1 (.inr hall) _ rfl hr0 id hid (reports k).a (reports k).r (reports k).r' p0 p1 hptext (reports k).x hA.sent hA.way (reports k).after hA.all hA.fresh
    c0 cur0 g1 g2 g3 hA.find g4 hA.small (reports k).c hA.intact hA.cfg.1 hA.cfg.2.1 hA.cfg.2.2.1 hA.cfg.2.2.2 (reports k).minute
  unfold sent at a3
  rw [a3] at b3
  cases b3
  obtain ⟨json, c1, c2⟩ := b5 hne
  exact ⟨k, a1, a2, effs, json, _, b2, c1, c2, by simp, by simp [a4]⟩

/-! ## Non-vacuity: one sensor, a temperature rising from 18.75C, four reports -/

def exTemp : SensorRun := ⟨[(ascii "T|C16", false)], fun k _ => ((300 + k % 5 : Nat) : Int), JOp.run { cap := 1 } (.setID []), [], fun _ => List.replicate 30 0, fun _ => 30, fun _ => true, fun _ => false⟩

def exReport (h : House) (k : Nat) : Report :=
  let a : ValveArgs := ⟨0 :: 0 :: (writeJSON (exTemp.table k) exTemp.sys (exTemp.mem k) (exTemp.size k) (exTemp.mx k) (exTemp.sup k)).2.2.mem, List.replicate 63 0, 4, 80, 284⟩
  let h' : House := { h with chan := h.chan.valve nullEncChecked chKey exRxID a [] [4, 5, 6] }
  ⟨h, a, [], [4, 5, 6], h'.chan.sent.getLast?.getD ⟨[], [], 0, [], []⟩, h', [], { hsCfg h' with o1 := .boiler, o2 := .serial }, 20⟩

def exReports : Nat → Report
  | 0 => exReport exHouse1 0
  | k + 1 => exReport ((exReports k).heard chKey) (k + 1)

/-- The part of `Arrives` to be computed. -/
def exArrived (p : Report) : Bool :=
  decide (p.arrives.chan.sent = p.before.chan.sent ++ [p.x]) && decide (p.x.id = exRxID) && p.arrives.chan.got.all (fun g => !(g.frame == p.x.frame)) &&
    decide (0 < beVal p.x.ctr) && decide (beVal p.x.ctr + 255 < 2 ^ 40) && decide ((p.x.frame[2]?.getD 0).toNat % 16 = 4) && decide (p.x.frame.length ≤ 256)

theorem exArrives {prev h : House} (k : Nat) (hr : HReach false 30 1 nullEncChecked chKey [exRxID] prev h) (hc : exArrived (exReport h k) = true) :
    (exReport h k).Arrives 30 1 nullEncChecked chKey [exRxID] exHouse0 prev exRxID
      (writeJSON (exTemp.table k) exTemp.sys (exTemp.mem k) (exTemp.size k) (exTemp.mx k) (exTemp.sup k)).2.2.mem := by
  unfold exArrived at hc
  simp only [Bool.and_eq_true, decide_eq_true_eq, List.all_eq_true, Bool.not_eq_true', beq_eq_false_iff_ne] at hc
  obtain ⟨⟨⟨⟨⟨⟨c1, c2⟩, c3⟩, c4⟩, c5⟩, c6⟩, c7⟩ := hc
  refine ⟨hr, ⟨0, 0, rfl⟩, c1, .start, c1, ?_, ⟨[0, 0, 0, 0, 0, 0], [0, 0, 0, 0, 0, 0], ?_, ?_, ?_, by decide⟩, ?_, c5, ?_, ?_, ?_⟩
  · intro y hy _ g hg _
    rcases List.mem_cons.1 hy with rfl | hy
    · exact c3 g hg
    · cases hy
  · rw [c2]; exact exRx_good
  · rw [c2]; decide +kernel
  · exact c4
  · rw [c2, c6]; decide +kernel
  · exact idealDec_accepts _ (exReport h k).arrives.chan.sent _ (by rw [c1]; simp) (by rw [c2]; rfl)
  · exact ⟨rfl, (by decide : 74 ≤ 100), (by decide : 31 ≤ (List.replicate 31 (0 : Byte)).length), .inr ⟨(by decide : FrameOp.boiler ≠ FrameOp.serial), rfl⟩⟩
  · exact ⟨idealDec_noForgery _ _, idealDec_givesBack _, c7⟩

/-- All hypotheses of C211 together. -/
example : Shape.OK (exTemp.sensors.map some) [] ∧ HolderReach (exTemp.sensors.map some) [] exTemp.start ∧ validKey exTemp.sys = true ∧
    (∀ k, exTemp.size k ≤ (exTemp.mem k).length ∧ 10 ≤ exTemp.size k ∧ exTemp.size k ≤ 255) ∧
    (∀ k, ∀ y ∈ exTemp.sensors, headLen exTemp.start exTemp.sys + (y.1.length + 3 + (decInt (exTemp.val k y.1)).length) + 5 ≤ exTemp.size k) ∧
    HBegin [exRxID] exHouse0 ∧
    (exReports 0).Arrives 30 1 nullEncChecked chKey [exRxID] exHouse0 exHouse0 exRxID (writeJSON (exTemp.table 0) exTemp.sys (exTemp.mem 0) (exTemp.size 0) (exTemp.mx 0) (exTemp.sup 0)).2.2.mem ∧
    ∀ k, k + 1 < 0 + 4 * exTemp.sensors.length → (exReports (k + 1)).Arrives 30 1 nullEncChecked chKey [exRxID] exHouse0 ((exReports k).heard chKey) exRxID
      (writeJSON (exTemp.table (k + 1)) exTemp.sys (exTemp.mem (k + 1)) (exTemp.size (k + 1)) (exTemp.mx (k + 1)) (exTemp.sup (k + 1))).2.2.mem := by
  refine ⟨⟨by decide, by decide, by decide, by decide⟩, .op (.setID []) trivial trivial .init, rfl, fun k => (by show 30 ≤ (List.replicate 30 (0 : Byte)).length ∧ 10 ≤ 30 ∧ 30 ≤ 255; decide),
    ?_, ⟨chBegin, rfl, rfl⟩, exArrives 0 (.tick true (.tick true (.tick true .start))) (by decide +kernel), fun k hk => exArrives (k + 1) .start ?_⟩
  · intro k y hy
    have hy : y = (ascii "T|C16", false) := by simpa [exTemp] using hy
    subst hy
    show _ + (_ + 3 + (decInt ((300 + k % 5 : Nat) : Int)).length) + 5 ≤ 30
    have : k % 5 = 0 ∨ k % 5 = 1 ∨ k % 5 = 2 ∨ k % 5 = 3 ∨ k % 5 = 4 := by omega
    rcases this with h | h | h | h | h <;> rw [h] <;> decide
  · have hk : k < 3 := by
      have : exTemp.sensors.length = 1 := rfl
      omega
    have : k = 0 ∨ k = 1 ∨ k = 2 := by omega
    rcases this with rfl | rfl | rfl <;> decide +kernel

example : ((exReports 3).heard chKey).log = exHouse1.log ++ [
    .handled [.heat 80, .serial (ascii "{\"@\":\"8081828384858687\",\"+\":7,\"T|C16\":300}\r\n")],
    .handled [.heat 80, .serial (ascii "{\"@\":\"8081828384858687\",\"+\":8,\"T|C16\":301}\r\n")],
    .handled [.heat 80, .serial (ascii "{\"@\":\"8081828384858687\",\"+\":9,\"T|C16\":302}\r\n")],
    .handled [.heat 80, .serial (ascii "{\"@\":\"8081828384858687\",\"+\":10,\"T|C16\":303}\r\n")]] := by
  decide +kernel

end OTR.Props
