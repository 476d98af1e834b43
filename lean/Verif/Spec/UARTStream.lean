/-! # A standard asynchronous serial receiver (8N1)

Specification: written from the usual description of a UART, not from the code. The line is a list of levels, one per time unit. The receiver waits
for a low level; from there it takes the data bits at `h + p`, `h + 2p`, …, `h + 8p`, least significant first, and the stop bit at `h + 9p`, and then
waits for the next low level. A stop bit that is low is a framing error (`none`). The line rests high where the list ends.
-/

namespace OTR.Spec

def uartRx (h p : Nat) : Nat → List Bool → List (Option Nat)
  | 0, _ => []
  | _ + 1, [] => []
  | n + 1, true :: t => uartRx h p n t
  | n + 1, false :: t =>
    let l := false :: t
    let v := (List.range 8).foldl (fun v i => v + (if l[h + (i + 1) * p]?.getD true then 2 ^ i else 0)) 0
    if l[h + 9 * p]?.getD true then some v :: uartRx h p n (l.drop (h + 9 * p)) else none :: uartRx h p n (l.drop (h + 9 * p))

end OTR.Spec
