import Verif.Model.QueueHandler
import Verif.Proof.RXQueue
import Verif.Props.Messaging
/-! # C166–C167: from radio queue to handlers -/

namespace OTR.Props
open OTR

/-- The radio stores at most `mf` bytes per frame and declares no more than it stored. -/
def ArrLegal (mf : Nat) (as : Arrivals) : Prop := ∀ a ∈ as, a.1.length ≤ mf ∧ a.2 ≤ a.1.length

theorem ArrLegal.append {mf : Nat} {a b : Arrivals} (ha : ArrLegal mf a) (hb : ArrLegal mf b) : ArrLegal mf (a ++ b) := by
  intro x hx
  rcases List.mem_append.mp hx with h | h
  · exact ha x h
  · exact hb x h

/-- The bytes a queue holds, as a list of frames: what taking them off one by one would give. -/
def QHolds (q : VQ) (mf : Nat) (fs : List Bytes) : Prop := QInv q fs ∧ q.mf = mf

theorem arrive_spec {q : VQ} {mf : Nat} {fs : List Bytes} (h : QHolds q mf fs) (as : Arrivals) (hl : ArrLegal mf as) :
    ∃ q' inb, q.arrive as = some (q', inb) ∧ QHolds q' mf (fs ++ inb) := by
  induction as generalizing q fs with
  | nil => exact ⟨q, [], rfl, by simpa using h⟩
  | cons a as ih =>
    obtain ⟨data, len⟩ := a
    have hh := hl (data, len) (by simp)
    have hm := h.2
    obtain ⟨q', out, h1, h2, h3, h4, _⟩ := h.1.isr data len (by rw [hm]; exact hh.1) hh.2
    have hl' : ArrLegal mf as := fun x hx => hl x (by simp [hx])
    cases out with
    | true =>
      obtain ⟨q'', inb, g1, g2⟩ := ih (q := q') (fs := if len = 0 then fs else fs ++ [data.take len]) ⟨h3 rfl, by rw [h2]; exact hm⟩ hl'
      refine ⟨q'', _, by rw [VQ.arrive, h1]; dsimp only; rw [g1], ?_⟩
      by_cases h0 : len = 0
      · rw [if_pos h0] at g2
        rw [if_neg (by simp [h0])]; simpa using g2
      · rw [if_neg h0] at g2
        rw [if_pos ⟨rfl, h0⟩]; simpa using g2
    | false =>
      obtain ⟨hne, rfl⟩ := h4 rfl
      obtain ⟨q'', inb, g1, g2⟩ := ih (q := q') (fs := fs) h hl'
      refine ⟨q'', _, by rw [VQ.arrive, h1]; dsimp only; rw [g1], ?_⟩
      rw [if_neg (by simp)]; simpa using g2

theorem step_isr_oldest (q q' : VQ) (data : Bytes) (len : Nat) (o : QOut) (h : q.step (.isr data len) = some (q', o)) :
    q'.oldest = q.oldest := by
  rw [VQ.step] at h
  by_cases hf : q.isFull = true
  · rw [if_pos hf] at h; simp only [Option.some.injEq, Prod.mk.injEq] at h; rw [h.1]
  · rw [if_neg hf] at h
    cases e1 : q.store (q.next + 1) data with
    | none => rw [e1] at h; cases h
    | some q1 =>
      rw [e1] at h; dsimp only at h
      have ho : q1.oldest = q.oldest := by
        unfold VQ.store at e1; split at e1
        · simp only [Option.some.injEq] at e1; rw [← e1]
        · cases e1
      cases e2 : q1.loadedBuf len with
      | none => rw [e2] at h; cases h
      | some q2 =>
        rw [e2] at h; simp only [Option.some.injEq, Prod.mk.injEq] at h
        rw [← h.1]
        unfold VQ.loadedBuf at e2
        by_cases h0 : len = 0
        · rw [if_pos h0] at e2; simp only [Option.some.injEq] at e2; rw [← e2]; exact ho
        · rw [if_neg h0] at e2
          cases e3 : q1.store q1.next [u8 len] with
          | none => rw [e3] at e2; cases e2
          | some q3 =>
            rw [e3] at e2; simp only [Option.map_some, Option.some.injEq] at e2
            rw [← e2]
            unfold VQ.store at e3; split at e3
            · simp only [Option.some.injEq] at e3; rw [← e3]; exact ho
            · cases e3

theorem arrive_oldest (q q' : VQ) (as : Arrivals) (inb : List Bytes) (h : q.arrive as = some (q', inb)) : q'.oldest = q.oldest := by
  induction as generalizing q inb with
  | nil => rw [VQ.arrive] at h; simp only [Option.some.injEq, Prod.mk.injEq] at h; rw [h.1]
  | cons a as ih =>
    obtain ⟨data, len⟩ := a
    rw [VQ.arrive] at h
    cases e : q.step (.isr data len) with
    | none => rw [e] at h; cases h
    | some p =>
      obtain ⟨q1, o⟩ := p
      rw [e] at h
      have ho := step_isr_oldest q q1 data len o e
      cases o with
      | offered ok =>
        dsimp only at h
        cases e2 : q1.arrive as with
        | none => rw [e2] at h; cases h
        | some p2 =>
          obtain ⟨q2, fs⟩ := p2
          rw [e2] at h; simp only [Option.some.injEq, Prod.mk.injEq] at h
          obtain ⟨rfl, _⟩ := h
          rw [← ho]; exact ih q1 fs e2
      | _ => cases h

theorem arrive_append (q : VQ) (a b : Arrivals) : q.arrive (a ++ b) =
    (q.arrive a).bind fun p => (p.1.arrive b).map fun r => (r.1, p.2 ++ r.2) := by
  induction a generalizing q with
  | nil => simp only [List.nil_append, VQ.arrive, Option.bind_some]; cases q.arrive b <;> rfl
  | cons x a ih =>
    obtain ⟨data, len⟩ := x
    rw [List.cons_append, VQ.arrive, VQ.arrive]
    cases q.step (.isr data len) with
    | none => rfl
    | some p =>
      obtain ⟨q1, o⟩ := p
      cases o with
      | offered ok =>
        dsimp only
        rw [ih]
        cases q1.arrive a with
        | none => rfl
        | some p2 =>
          obtain ⟨q2, fs⟩ := p2
          simp only [Option.bind_some]
          cases q2.arrive b with
          | none => rfl
          | some p3 => simp
      | _ => rfl

/-! ## C166: one call -/

/-- One call of `handle()`, with interrupts anywhere, on a queue holding `fs` (oldest first):
late in the cycle it only returns false; otherwise the oldest message, if there is one, goes to the handlers, intact, and is removed,
frames that arrive meanwhile join the end, true is returned if a message was handled or `pollIO` says so, and serial power
is as before, having been on for the handlers if it could be woken. -/
theorem C166_one_call (q : VQ) (mf : Nat) (fs : List Bytes) (h : QHolds q mf fs) (serial : Bool) (i : HandleIn)
    (h0 : ArrLegal mf i.arr0) (h1 : ArrLegal mf i.arr1) (h2 : ArrLegal mf i.arr2) :
    ∃ o, queueHandle q serial i = some o ∧ o.serial = serial ∧
      (i.sct ≥ 189 → o.ret = false ∧ o.msg = none ∧ QHolds o.q mf (fs ++ o.inb)) ∧
      (i.sct < 189 → ∃ q0 inb0, q.arrive i.arr0 = some (q0, inb0) ∧
        match fs ++ inb0 with
        | [] => o.ret = i.io ∧ o.msg = none ∧ QHolds o.q mf (fs ++ o.inb)
        | f :: _ => o.ret = true ∧ o.msg = some (f, serial || i.wake) ∧ ∃ l, fs ++ o.inb = f :: l ∧ QHolds o.q mf l) := by
  unfold queueHandle
  by_cases hs : i.sct ≥ (255 / 4) * 3
  · rw [if_pos hs]
    obtain ⟨q', inb, e, hq⟩ := arrive_spec h (i.arr0 ++ i.arr1 ++ i.arr2) ((h0.append h1).append h2)
    rw [e]
    exact ⟨_, rfl, rfl, fun _ => ⟨rfl, rfl, hq⟩, fun hh => by omega⟩
  · rw [if_neg hs]
    obtain ⟨q0, inb0, e0, hq0⟩ := arrive_spec h i.arr0 h0
    rw [e0]
    dsimp only
    rw [hq0.1.peek]
    cases hfs : fs ++ inb0 with
    | nil =>
      rw [hfs] at hq0
      obtain ⟨q', f1, e1, hq1⟩ := arrive_spec hq0 (i.arr1 ++ i.arr2) (h1.append h2)
      simp only [List.head?_nil]
      rw [e1]
      refine ⟨_, rfl, rfl, fun hh => by omega, fun _ => ⟨q0, inb0, rfl, ?_⟩⟩
      rw [hfs]
      refine ⟨rfl, rfl, ?_⟩
      dsimp only
      rw [← List.append_assoc, hfs]; exact hq1
    | cons f l =>
      rw [hfs] at hq0
      simp only [List.head?_cons]
      obtain ⟨q1, f1, e1, hq1⟩ := arrive_spec hq0 i.arr1 h1
      rw [e1]
      dsimp only
      have hfr : q1.frameAt q0.oldest = some f := by
        rw [← arrive_oldest q0 q1 i.arr1 f1 e1]
        have hp := hq1.1.peek
        rw [List.cons_append, List.head?_cons] at hp
        rw [VQ.step] at hp
        have hne : q1.isEmpty = false := by
          cases e : q1.isEmpty with
          | false => rfl
          | true => have := hq1.1.empty.1 e; cases this
        rw [hne] at hp
        simp only [Bool.false_eq_true, if_false] at hp
        cases e : q1.frameAt q1.oldest with
        | none => rw [e] at hp; cases hp
        | some g => rw [e] at hp; simp only [Option.some.injEq, Prod.mk.injEq, QOut.frame.injEq, true_and] at hp; rw [hp]
      rw [hfr]
      dsimp only
      obtain ⟨q2, f2, e2, hq2⟩ := arrive_spec hq1 i.arr2 h2
      rw [e2]
      dsimp only
      obtain ⟨q3, e3, hq3, hm3, _⟩ := hq2.1.remove
      rw [e3]
      refine ⟨_, rfl, ?_, fun hh => by omega, fun _ => ⟨q0, inb0, rfl, ?_⟩⟩
      · cases serial <;> cases i.wake <;> rfl
      · rw [hfs]
        refine ⟨rfl, ?_, l ++ (f1 ++ f2), ?_, ?_⟩
        · cases serial <;> cases i.wake <;> rfl
        · show fs ++ (inb0 ++ f1 ++ f2) = f :: (l ++ (f1 ++ f2))
          rw [List.append_assoc, ← List.append_assoc, hfs, List.cons_append]
        · refine ⟨?_, by rw [hm3]; exact hq2.2⟩
          have : (f :: l ++ f1 ++ f2).tail = l ++ (f1 ++ f2) := by simp
          rw [← this]; exact hq3

/-! ## C167: histories -/

/-- All arrivals in an event are legal. -/
def EvLegal (mf : Nat) : HubEv → Prop
  | .rx as => ArrLegal mf as
  | .call i _ _ => ArrLegal mf i.arr0 ∧ ArrLegal mf i.arr1 ∧ ArrLegal mf i.arr2

/-- Over every history of arrivals and calls: no memory outside the queue is touched, and the messages given to the handlers followed by
those still queued are exactly the frames taken in, in order — each handled once, none lost, none invented. Storage, boiler
and actions are those of handling that list of messages one after the other. -/
theorem C167_exactly_once (mf : Nat) (evs : List HubEv) (hl : ∀ e ∈ evs, EvLegal mf e) :
    ∀ (h : Hub) (fs : List Bytes), QHolds h.q mf fs →
    ∃ h' inb dones log, h.run evs = some (h', inb, dones, log) ∧ h'.serial = h.serial ∧
      (∃ rest, QHolds h'.q mf rest ∧ dones.map (·.2.2) ++ rest = fs ++ inb) ∧
      hubRun h.ee h.boiler dones = (h'.ee, h'.boiler, log) := by
  induction evs with
  | nil => intro h fs hq; exact ⟨h, [], [], [], rfl, rfl, ⟨fs, hq, by simp⟩, rfl⟩
  | cons e es ih =>
    intro h fs hq
    have hle := hl e (by simp)
    have hls : ∀ e ∈ es, EvLegal mf e := fun x hx => hl x (by simp [hx])
    rw [Hub.run]
    cases e with
    | rx as =>
      obtain ⟨q', inb, e1, hq1⟩ := arrive_spec hq as hle
      rw [Hub.step, e1]
      dsimp only
      obtain ⟨h', inb2, dones, log, g1, gs, ⟨rest, g2, g3⟩, g4⟩ := ih hls { h with q := q' } (fs ++ inb) hq1
      rw [g1]
      exact ⟨h', inb ++ inb2, dones, log, rfl, gs, ⟨rest, g2, by rw [g3, List.append_assoc]⟩, g4⟩
    | call i c minute =>
      obtain ⟨o, e1, hser, hlate, hearly⟩ := C166_one_call h.q mf fs hq h.serial i hle.1 hle.2.1 hle.2.2
      rw [Hub.step, e1]
      dsimp only
      -- nothing handled
      have hnone : o.msg = none → QHolds o.q mf (fs ++ o.inb) →
          ∃ h' inb dones log, (match (match o.msg with
            | none => some ({ h with q := o.q, serial := o.serial }, o.inb, (none : Option (HCfg × Nat × Bytes)), ([] : List Eff), o.ret)
            | some (msg, _) => some (⟨o.q, o.serial, (handleRaw h.ee c msg).2.1, h.boiler.apply minute (handleRaw h.ee c msg).2.2⟩,
                o.inb, some (c, minute, msg), (handleRaw h.ee c msg).2.2, o.ret)) with
            | none => none
            | some (h1, inb, done, eff, _) =>
              match h1.run es with
              | none => none
              | some (h2, inb2, done2, log2) =>
                match done with
                | none => some (h2, inb ++ inb2, done2, log2)
                | some d => some (h2, inb ++ inb2, d :: done2, (d.2.2, eff) :: log2)) = some (h', inb, dones, log) ∧
            h'.serial = h.serial ∧
            (∃ rest, QHolds h'.q mf rest ∧ dones.map (·.2.2) ++ rest = fs ++ inb) ∧
            hubRun h.ee h.boiler dones = (h'.ee, h'.boiler, log) := by
        intro hm hh
        rw [hm]
        dsimp only
        obtain ⟨h', inb2, dones, log, g1, gs, ⟨rest, g2, g3⟩, g4⟩ := ih hls { h with q := o.q, serial := o.serial } (fs ++ o.inb) hh
        rw [g1]
        exact ⟨h', o.inb ++ inb2, dones, log, rfl, gs.trans hser, ⟨rest, g2, by rw [g3, List.append_assoc]⟩, g4⟩
      by_cases hs : i.sct ≥ 189
      · obtain ⟨_, hm, hh⟩ := hlate hs
        exact hnone hm hh
      · obtain ⟨q0, inb0, _, hr⟩ := hearly (by omega)
        cases hfs : fs ++ inb0 with
        | nil =>
          rw [hfs] at hr
          exact hnone hr.2.1 hr.2.2
        | cons f l =>
          rw [hfs] at hr
          obtain ⟨_, hm, l', hl', hh⟩ := hr
          rw [hm]
          dsimp only
          obtain ⟨h', inb2, dones, log, g1, gs, ⟨rest, g2, g3⟩, g4⟩ := ih hls
            ⟨o.q, o.serial, (handleRaw h.ee c f).2.1, h.boiler.apply minute (handleRaw h.ee c f).2.2⟩ l' hh
          rw [g1]
          refine ⟨h', o.inb ++ inb2, (c, minute, f) :: dones, (f, (handleRaw h.ee c f).2.2) :: log, rfl, gs.trans hser, ⟨rest, g2, ?_⟩, ?_⟩
          · rw [List.map_cons, List.cons_append, g3, ← List.append_assoc, hl', List.cons_append]
          · rw [hubRun]
            dsimp only at g4 ⊢
            rw [g4]

/-- A history from a new hub. -/
theorem C167_from_new (maxRX cap : Nat) (junk : Nat → Byte) (hc : 1 ≤ maxRX ∧ maxRX ≤ 255) (hcap : 1 ≤ cap) (serial : Bool) (ee : EE)
    (b : Boiler) (evs : List HubEv) (hl : ∀ e ∈ evs, EvLegal maxRX e) :
    ∃ h' inb dones log, (Hub.mk (VQ.new maxRX cap junk) serial ee b).run evs = some (h', inb, dones, log) ∧
      (dones.map (·.2.2)) <+: inb ∧ hubRun ee b dones = (h'.ee, h'.boiler, log) := by
  obtain ⟨h', inb, dones, log, g1, _, ⟨rest, _, g3⟩, g4⟩ :=
    C167_exactly_once maxRX evs hl ⟨VQ.new maxRX cap junk, serial, ee, b⟩ [] ⟨QInv.new maxRX cap junk hc hcap, rfl⟩
  exact ⟨h', inb, dones, log, g1, ⟨rest, by simpa using g3⟩, g4⟩

/-- Early calls drain the queue: with nothing more arriving, as many calls as there are messages handle them all, in order. -/
theorem C167_drains (mf : Nat) (calls : List (HandleIn × HCfg × Nat))
    (hc : ∀ x ∈ calls, x.1.sct < 189 ∧ x.1.arr0 = [] ∧ x.1.arr1 = [] ∧ x.1.arr2 = []) :
    ∀ (h : Hub) (fs : List Bytes), QHolds h.q mf fs → fs.length ≤ calls.length →
    ∃ h' dones log, h.run (calls.map fun x => .call x.1 x.2.1 x.2.2) = some (h', [], dones, log) ∧
      dones.map (·.2.2) = fs ∧ QHolds h'.q mf [] := by
  induction calls with
  | nil =>
    intro h fs hq hlen
    have : fs = [] := by cases fs with | nil => rfl | cons _ _ => simp at hlen
    subst this
    exact ⟨h, [], [], rfl, rfl, hq⟩
  | cons x xs ih =>
    intro h fs hq hlen
    obtain ⟨i, c, minute⟩ := x
    obtain ⟨hs, ha0, ha1, ha2⟩ := hc (i, c, minute) (by simp)
    dsimp only at hs ha0 ha1 ha2
    have hcs : ∀ x ∈ xs, x.1.sct < 189 ∧ x.1.arr0 = [] ∧ x.1.arr1 = [] ∧ x.1.arr2 = [] := fun y hy => hc y (by simp [hy])
    have nil : ArrLegal mf [] := fun _ h => (by cases h)
    have hdef : ∃ o, queueHandle h.q h.serial i = some o ∧ o.inb = [] ∧
        match fs with
        | [] => o.msg = none ∧ QHolds o.q mf []
        | f :: l => (∃ b, o.msg = some (f, b)) ∧ QHolds o.q mf l := by
      obtain ⟨o, e1, _, _, he⟩ := C166_one_call h.q mf fs hq h.serial i (by rw [ha0]; exact nil) (by rw [ha1]; exact nil)
        (by rw [ha2]; exact nil)
      have hinb : o.inb = [] := by
        unfold queueHandle at e1
        rw [if_neg (by omega), ha0, ha1, ha2] at e1
        simp only [VQ.arrive, List.append_nil] at e1
        split at e1
        · simp only [Option.some.injEq] at e1; rw [← e1]
        · split at e1
          · cases e1
          · split at e1
            · simp only [Option.some.injEq] at e1; rw [← e1]
            · cases e1
        · cases e1
      obtain ⟨q0, inb0, ea, hr⟩ := he hs
      rw [ha0, VQ.arrive] at ea
      simp only [Option.some.injEq, Prod.mk.injEq] at ea
      rw [← ea.2, List.append_nil] at hr
      refine ⟨o, e1, hinb, ?_⟩
      rw [hinb] at hr
      cases fs with
      | nil => exact ⟨hr.2.1, hr.2.2⟩
      | cons f l =>
        obtain ⟨_, hm, l', hl', hh⟩ := hr
        rw [List.append_nil] at hl'
        injection hl' with _ hl'
        exact ⟨⟨_, hm⟩, by rw [hl']; exact hh⟩
    obtain ⟨o, e1, hinb, hm⟩ := hdef
    rw [List.map_cons, Hub.run, Hub.step, e1]
    dsimp only
    cases fs with
    | nil =>
      rw [hm.1]
      dsimp only
      obtain ⟨h', dones, log, g1, g2, g3⟩ := ih hcs { h with q := o.q, serial := o.serial } [] hm.2 (by simp)
      rw [g1, hinb]
      exact ⟨h', dones, log, rfl, g2, g3⟩
    | cons f l =>
      obtain ⟨⟨b, hb⟩, hh⟩ := hm
      rw [hb]
      dsimp only
      obtain ⟨h', dones, log, g1, g2, g3⟩ := ih hcs
        ⟨o.q, o.serial, (handleRaw h.ee c f).2.1, h.boiler.apply minute (handleRaw h.ee c f).2.2⟩ l hh (by simpa using hlen)
      rw [g1, hinb]
      exact ⟨h', (c, minute, f) :: dones, (f, (handleRaw h.ee c f).2.2) :: log, rfl, by rw [List.map_cons, g2], g3⟩

/-- Example: two frames arrive, the second while the first is being handled; two calls handle both. -/
example : ((Hub.mk (VQ.new 64 2 (fun _ => 0)) false (fun _ => 255) Boiler.init).run
    [.rx [([1, 2, 3], 3)], .call ⟨10, false, true, [], [([4, 5], 2)], []⟩ (exHub .null .null) 7,
     .call ⟨10, false, true, [], [], []⟩ (exHub .null .null) 7]).map (fun r => (r.2.1, r.2.2.1.map (·.2.2))) =
    some ([[1, 2, 3], [4, 5]], [[1, 2, 3], [4, 5]]) := by
  decide +kernel

end OTR.Props
