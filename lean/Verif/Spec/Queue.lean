import Verif.Model.RXQueue
/-! # Specification of an RX queue: a first-in first-out list of frames that may refuse, but not when empty -/

namespace OTR

/-- A trace of operations and observations that a FIFO queue holding `q` may produce. -/
def FifoTrace : List Bytes → List (QOp × QOut) → Prop
  | _, [] => True
  | q, (.isr data len, .offered true) :: t => FifoTrace (if len = 0 then q else q ++ [data.take len]) t
  | q, (.isr _ _, .offered false) :: t => q ≠ [] ∧ FifoTrace q t
  | q, (.peek, .frame f) :: t => f = q.head? ∧ FifoTrace q t
  | q, (.remove, .done) :: t => FifoTrace q.tail t
  | q, (.count, .num n) :: t => n = q.length ∧ FifoTrace q t
  | q, (.isFull, .full b) :: t => (b = true → q ≠ []) ∧ FifoTrace q t
  | _, _ => False

/-- Legal use: the ISR stores at most `mf` bytes and queues no more than it stored. -/
def QOp.legal (mf : Nat) : QOp → Prop
  | .isr data len => data.length ≤ mf ∧ len ≤ data.length
  | _ => True

end OTR
