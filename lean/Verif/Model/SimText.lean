import Verif.Model.Sim900
import Verif.Model.JSONStats
import Verif.Model.Messaging
/-!
# The commands of the GPRS link as text — `U/OTSIM900Link_OTSIM900Link.{h,cpp}`

What is written to the modem's serial port for each event of `Sim900`. `println` ends with CR LF. Simplification: the configuration
strings are taken without their terminating NUL (OTSIM900Link.h 634-648).
-/
namespace OTR

/-- Bytes printed for an event: OTSIM900Link.h 693-697, 713-718, 734-735, 769-770, 808-809, 882-885, 957-967, 983-984, 996-1005,
1015 with the strings of OTSIM900Link.cpp 33-48. -/
def SimOut.text : SimOut → Bytes
  | .pinHigh => []
  | .pinLow => []
  | .at => ascii "AT" ++ [13, 10]
  | .pinQ => ascii "AT" ++ ascii "+CPIN" ++ ascii "?" ++ [13, 10]
  | .regQ => ascii "AT" ++ ascii "+CREG" ++ ascii "?" ++ [13, 10]
  | .setApn a => ascii "AT" ++ ascii "+CSTT" ++ ascii "=" ++ a ++ [13, 10]
  | .status => ascii "AT" ++ ascii "+CIPSTATUS" ++ [13, 10]
  | .startGprs => ascii "AT" ++ ascii "+CIICR" ++ [13, 10]
  | .getIp => ascii "AT" ++ ascii "+CIFSR" ++ [13, 10]
  | .startUdp a p => ascii "AT" ++ ascii "+CIPSTART" ++ ascii "=\"UDP\"," ++ ascii "\"" ++ a ++ ascii "\",\"" ++ p ++ ascii "\"" ++ [13, 10]
  | .send n => ascii "AT" ++ ascii "+CIPSEND" ++ ascii "=" ++ decNat n ++ [13, 10]
  | .data d => d
  | .close => ascii "AT" ++ ascii "+CIPCLOSE" ++ [13, 10]

/-- All events of a history, oldest first. (Vocabulary of histories and observations; it stands for the order in which an application
makes calls and has no code of its own in /repo.) -/
def Sim.stream (cfg : SimCfg) : List (Nat × SimOp) → List SimOut
  | [] => []
  | (t, o) :: h => Sim.stream cfg h ++ Sim.outs cfg h t o

/-- All bytes written to the modem in a history. (Vocabulary, as above.) -/
def Sim.wire (cfg : SimCfg) (h : List (Nat × SimOp)) : Bytes := (Sim.stream cfg h).flatMap SimOut.text

end OTR
