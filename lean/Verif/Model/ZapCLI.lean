import Verif.Model.Stats
import Verif.Model.Messaging
/-!
# The command that clears the statistics — `U/OTV0P2BASE_CLI.cpp` 570-581

Simplification: the sub-cycle time is read once, when the command starts.
-/
namespace OTR

/-- `msRemainingThisBasicCycle` — OTV0P2BASE_Sleep.h 328-349: 7 ms (2000 / 256, rounded down) a tick. -/
def msLeftOf (sct : Byte) : Nat := 7 * (255 - sct.toNat)

/-- The number of bytes the command allows itself to erase — OTV0P2BASE_CLI.cpp 576. (`int` arithmetic: negative values give 1.) -/
def zapBudget (sct : Byte) : UInt16 := UInt16.ofNat (max 1 (msLeftOf sct / 2 - 20))

/-- `ZapStats::doCommand` — OTV0P2BASE_CLI.cpp 573-581: what it prints. -/
def cliZap (sct : Byte) : EM Bytes :=
  emBind (zapStats (zapBudget sct)) fun done =>
  emRet ((if done then ascii "Zapped." else ascii "Not finished.") ++ [13, 10])

end OTR
