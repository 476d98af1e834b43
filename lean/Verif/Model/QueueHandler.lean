import Verif.Model.RXQueue
import Verif.Model.Messaging
/-!
# Queued messages to handlers — `OTMessageQueueHandler` in `U/OTRadioLink_Messaging.h`

A radio that puts whole frames on an `ISRRXQueueVarLenMsg` from its interrupt routine (or `poll()`), and the loop that
takes them off. Interrupts may come at any point of `handle()`, also while the handler reads the message in the queue's
own buffer.
-/

namespace OTR

/-- Frames as the radio offers them: the bytes stored and the length then declared. (Vocabulary of histories and observations; it stands for the order in which an application makes calls and has no code of its own in /repo.) -/
abbrev Arrivals := List (Bytes × Nat)

/-- A number of whole receive interrupts. Result: the queue and the frames taken in; `none`: memory outside the buffer touched. (Vocabulary of histories and observations; it stands for the order in which an application makes calls and has no code of its own in /repo.) -/
def VQ.arrive (q : VQ) : Arrivals → Option (VQ × List Bytes)
  | [] => some (q, [])
  | (data, len) :: as =>
    match q.step (.isr data len) with
    | some (q', .offered ok) =>
      match q'.arrive as with
      | some (q'', fs) => some (q'', (if ok = true ∧ len ≠ 0 then [data.take len] else []) ++ fs)
      | none => none
    | _ => none

/-- What happens around one call of `handle()`: time in the cycle, result of `pollIO`, whether serial may be woken, the interrupts
before the look at the queue, before the handler reads the message, and before it is removed — the parameters, observations and effects of OTRadioLink_Messaging.h 475-523. -/
structure HandleIn where
  sct : Nat
  io : Bool
  wake : Bool
  arr0 : Arrivals
  arr1 : Arrivals
  arr2 : Arrivals

/-- What one call does: result, queue, serial power, frames taken in, message given to the handlers with serial power then — the parameters, observations and effects of OTRadioLink_Messaging.h 475-523. -/
structure HandleOut where
  ret : Bool
  q : VQ
  serial : Bool
  inb : List Bytes
  msg : Option (Bytes × Bool)

/-- `OTMessageQueueHandler::handle` — Messaging.h 475-523. -/
def queueHandle (q : VQ) (serial : Bool) (i : HandleIn) : Option HandleOut :=
  if i.sct ≥ (255 / 4) * 3 then                                                 -- 494
    match q.arrive (i.arr0 ++ i.arr1 ++ i.arr2) with
    | none => none
    | some (q', fs) => some ⟨false, q', serial, fs, none⟩
  else
    match q.arrive i.arr0 with                                                  -- 498, 501
    | none => none
    | some (q0, f0) =>
    match q0.step .peek with                                                    -- 504
    | some (_, .frame none) =>                                                  -- 506: nothing queued
      match q0.arrive (i.arr1 ++ i.arr2) with
      | none => none
      | some (q', f1) => some ⟨i.io, q', serial, f0 ++ f1, none⟩
    | some (_, .frame (some _)) =>
      let pb := q0.oldest                                                       -- 504: pointer into the buffer
      let woke := i.wake && !serial                                             -- 509
      match q0.arrive i.arr1 with
      | none => none
      | some (q1, f1) =>
      match q1.frameAt pb with                                                  -- 513
      | none => none
      | some msg =>
      match q1.arrive i.arr2 with
      | none => none
      | some (q2, f2) =>
      match q2.step .remove with                                                -- 514
      | some (q3, .done) =>
        some ⟨true, q3, if woke then false else serial, f0 ++ f1 ++ f2, some (msg, serial || woke)⟩   -- 516, 519, 522
      | _ => none
    | _ => none

/-- A hub: its queue, serial power, storage and boiler driver. (Vocabulary of histories and observations; it stands for the order in which an application makes calls and has no code of its own in /repo.) -/
structure Hub where
  q : VQ
  serial : Bool
  ee : EE
  boiler : Boiler

/-- What happens to a hub: frames arrive, or `handle()` is called with the secure handler first and the dummy second. (Vocabulary of histories and observations; it stands for the order in which an application makes calls and has no code of its own in /repo.) -/
inductive HubEv where
  | rx (as : Arrivals)
  | call (i : HandleIn) (c : HCfg) (minute : Nat)

/-- One event. Also: frames taken in, message handled (with the configuration and time at which it was) and what was done,
result of `handle()`. `handle()` is OTRadioLink_Messaging.h 475-523. -/
def Hub.step (h : Hub) : HubEv → Option (Hub × List Bytes × Option (HCfg × Nat × Bytes) × List Eff × Bool)
  | .rx as =>
    match h.q.arrive as with
    | none => none
    | some (q, fs) => some ({ h with q := q }, fs, none, [], false)
  | .call i c minute =>
    match queueHandle h.q h.serial i with
    | none => none
    | some o =>
      match o.msg with
      | none => some ({ h with q := o.q, serial := o.serial }, o.inb, none, [], o.ret)
      | some (msg, _) =>
        let r := handleRaw h.ee c msg                                           -- 513
        some (⟨o.q, o.serial, r.2.1, h.boiler.apply minute r.2.2⟩, o.inb, some (c, minute, msg), r.2.2, o.ret)

/-- A history. Result: the hub, all frames taken in, all messages handled, with what was done for each. (Vocabulary of histories and observations; it stands for the order in which an application makes calls and has no code of its own in /repo.) -/
def Hub.run (h : Hub) : List HubEv → Option (Hub × List Bytes × List (HCfg × Nat × Bytes) × List (Bytes × List Eff))
  | [] => some (h, [], [], [])
  | e :: es =>
    match h.step e with
    | none => none
    | some (h1, inb, done, eff, _) =>
      match h1.run es with
      | none => none
      | some (h2, inb2, done2, log2) =>
        match done with
        | none => some (h2, inb ++ inb2, done2, log2)
        | some d => some (h2, inb ++ inb2, d :: done2, (d.2.2, eff) :: log2)

end OTR
