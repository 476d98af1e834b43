# Formal model of opentrv/OTRadioLink in Lean 4 — design

All modelled code lives in `/repo/content/OTRadioLink/utility/` (written `U/` below).

## 1. Trusted base

* Lean 4.33.0's kernel. Every theorem depends at most on the three standard axioms
  `propext`, `Classical.choice`, `Quot.sound`. No axiom is added; nothing uses compiled-code
  evaluation as evidence.
* The hand-written model: definitions in `lean/Verif/Model/*.lean`, each of which cites the C++
  file and lines it transcribes and says where it simplifies.
* The small specifications used in theorem statements (`lean/Verif/Spec/*.lean` or at the head of the property file).

### Modelling conventions

* Byte buffers are `List UInt8`; logic on small unsigned integers is done on `Nat` with the C++ truncation written
  out explicitly (`% 256`), on signed ones on `Int`.
* A read outside a buffer, and other undefined behaviour that the C++ could commit, is a distinct outcome
  (`none`/`.ub`), never silently defined.
* EEPROM is a total function from address to byte. One `eeprom_*` library call that changes a cell is one atomic
  step; a power failure may occur between any two such steps. A multi-byte update is a list of
  steps and "a crash" is any prefix of that list. An erase+write of one byte is atomic (simplification).
* Ciphers (AES-GCM, supplied by a sibling library) are function parameters. Theorems about them are for *every*
  function or for every pair satisfying the stated inverse law.
* Random sources are arbitrary input streams.
* Time is discrete: one model step per documented periodic call (poll/read/tick).

### Modelled and not modelled

| Part | Status |
|---|---|
| `OTRadioLink_SecureableFrameType.{h,cpp}` header, nonsecure and secure frame encode/decode, counters | modelled |
| `OTRadioLink_SecureableFrameType_V0p2Impl.cpp` TX/RX persistent counters | modelled, with crash points |
| `OTV0P2BASE_Security.cpp` associations and key | modelled |
| `OTV0P2BASE_CRC`, `_EEPROM` (smart ops, unary encodings), `_Stats` (statistics store, sampler, queries) | modelled |
| `OTRadioLink_ISRRXQueue.h` | modelled at whole-operation granularity (operations run with interrupts off) |
| `OTRadioLink_Messaging.h` (frame handler, serial/relay/boiler operations) | modelled; radio and serial port are output lists |
| `OTRadioLink_JeelabsOemPacket` | modelled |
| `OTRadValve_BoilerDriver`, `_SimpleValveSchedule`, `_ModelledRadValveState`, `_ModelledRadValve`, `_ValveMode`, `_TempControl`, `_ActuatorPhysicalUI`, `_CurrentSenseValveMotorDirect` | control logic modelled; `sleep`/LED waiting abstracted to their observable effect |
| `OTRadValve_FHT8VRadValve` | bit codec and transmission scheduler modelled |
| `OTV0P2BASE_JSONStats`, `_SimpleBinaryStats`, `_RTC`, `_SensorOccupancy`, `_SensorTemperaturePot`, `_ErrorReport`, `_Util` | logic modelled |
| `OTV0P2BASE_SensorAmbientLight.h`, `_SensorAmbientLightOccupancy` | modelled above the ADC |
| `OTV0P2BASE_CLI.cpp` | line input and the state-changing commands modelled; printed output not |
| `OTSIM900Link_OTSIM900Link.h` | state machine, reply parsing and timing modelled; serial driver is input/output lists |
| `OTRFM23BLink_OTRFM23BLink.{h,cpp}`, `OTRadioLink_OTRadioLink.{h,cpp}` | driver modelled above SPI with an assumed model of the chip (registers, FIFOs, status, nIRQ); `preinit` not modelled |
| `OTV0P2BASE_MinOW`, `_SensorDS18B20` | modelled, calls above the bit level and (C234) the bits in time, against an assumed model of 1-Wire devices |
| `OTV0P2BASE_QuickPRNG`, `_Entropy` (secure byte, pool, seed bytes), `_Concurrency` | modelled; noise sources are inputs |
| `OTV0P2BASE_SensorSHT21`, `_SensorTMP112`, `_SensorQM1`, `_ADC` (multi-sample read), `_PowerManagement` (power bits, supply voltage) | modelled above the Wire library and ADC, AVR build |
| `OTRadValve_ValveMotorBase`, `_ValveMotorDirectV1` (driver class), `_ValveMotorDRV8850` (driver class) | modelled above the ADC; port semantics and bridge truth tables assumed |
| `OTV0P2BASE_SoftSerial`, `_SoftSerial2`, `_SoftSerialAsync` | modelled; instruction time outside delay loops is a parameter |
| `OTV0P2BASE_Sleep` | sleepUntilSubCycleTime, nap, sleepUntilNewCycle, busy delays modelled (real sleep lengths and interrupts are inputs); power-down register writes not |
| `OTV0P2BASE_HardwareTests` | modelled; clocks are inputs; entropy capture not |
| `OTMessageQueueHandler` | modelled over the RX queue and the hub; `pollIO` is an input |
| RN2483 link, status line, stats dump, FHT8V house-code storage | `sendRaw`/`begin`, `serialStatusReport`, `DumpStats`, `SetHouseCode`, `nv*HC*`, `populateCoreStats` modelled; serial ports are byte lists |
| OTV0P2BASE_Util.h (MemoryChecks), OTV0P2BASE_Util.cpp (stackCheck), setback lockout of ModelledRadValve.h | marks, warning, profiling tables; not the program counter kept for diagnostics |
| OTV0P2BASE_ADC.cpp, OTV0P2BASE_PowerManagement.cpp (ADC/comparator/PRR bits) | register level, `Model/Analog.lean`; a conversion ends iff the ADC is powered, enabled and its interrupt enabled |
| OTRadValve_AbstractRadValve.h 77-232 | `BinaryRelayDirect`, `BinaryRelayHelper`: `Model/Relay.lean`; pin as port and direction bits |
| OTV0P2BASE_PowerManagement.cpp 72-145, .h 225-269; OTV0P2BASE_Serial_IO.cpp 88-290; OTRadioLink_Messaging.h 509, 519 | serial port power, flushing and printing: `Model/SerialPort.lean`; UART and Arduino core's `HardwareSerial` as environment, ring buffer unbounded |
| OTV0P2BASE_JSONStats.h 185-205, 370-433 | `JSONStatsHolder`: `Model/StatsHolder.lean`; `readAll` cannot be instantiated |
| OTV0P2BASE_ADC.cpp 57, 105-141 | `_analogueNoiseReducedReadM` step by step beside converter and interrupt: `Model/AdcRun.lean` |
| OTV0P2BASE_Entropy.cpp 131-217, OTV0P2BASE_Sleep.cpp 255-315 | `seedPRNGs` and `clockJitterEntropyByte`: `Model/Seed.lean`; noise, time and clocks are inputs |
| OTV0P2BASE_RTC.cpp 313-387, OTV0P2BASE_Sleep.cpp 57-157, OTV0P2BASE_Sleep.h 394-399 | RTC watchdog, naps and forced reset at register level: `Model/Watchdog.lean`; the ATmega watchdog as environment; each C statement one step, the watchdog's interrupt routine one step |
| Model/SPIBus.lean | the RFM23B driver down to SPI bytes: OTRFM23BLink_OTRFM23BLink.h 218-226, 396-535, 570-584, 651-955, .cpp 48-183, 213-263, 361-381, 427-449; SPI power, PowerManagement.h 120-175 |
| Security.h NodeAssociationTable* set/get and generic search (116-201, cpp 236-278) | Model/AssocTable |
| RTC.cpp byte by byte under interrupts (142-273, 331-387) | Model/ClockBytes |
| all EEPROM writers | `Model/EECalls` |
| `SecureableFrameType.h` 1131-1218 | `Model/FixedRx` |
| `MinOW.h` 78-104, 174-225, `MinOW.cpp` 53-87 (pin operations and delays) | `Model/OneWireLine` |
| `SimpleBinaryStats.cpp` 118-170 (printing) | `Model/StatsText` |
| `OTSIM900Link.h` 634-1018 (what is printed), `.cpp` 33-48 | `Model/SimText` |
| `CLI.cpp` 570-581, `Sleep.h` 328-349 | `Model/ZapCLI` |
| `OTRadioLink_SecureableFrameType_V0p2Impl.h` 64, 178, 284-296 | `Model/KeyReset` |
| `OTV0P2BASE_SoftSerial.cpp` 81-109, 194-237; `OTV0P2BASE_Sleep.h` 292-316 (EFR32) | `Model/SoftSerial1` |
| `OTV0P2BASE_Concurrency.h` 86-131 (multi-byte) | `Model/AtomicWord` |
| `silabs_drivers/cppDrivers/i2c_driver.cpp` 149-212, `silabs_drivers/emlib/em_i2c.c` 413-807 (7-bit, write and write-read); `OTV0P2BASE_SensorSHT21.cpp` 97-112, 185-233, 303-349 | `Model/I2C`, `Model/ShtI2C` |
| `OTRN2483Link_OTRN2483Link.cpp` 217-388 (all commands) | `Model/RN2483` |
| `OTRadValve_ModelledRadValve.h` 498-680 | `Model/Target2016` |
| `OTRadValve_ValveMotorDirectV1.h` 209-296 with `OTRadValve_ModelledRadValve.h`, `OTRadValve_CurrentSenseValveMotorDirect` | `Model/Trv` |
| `OTRadValve_SimpleValveSchedule.h` 212-278 | `Model/RamSchedule.lean`: schedule kept in RAM, any number of slots |
| AVR registers beyond those named, other vendor code under `silabs_drivers`, RN2483 chip, AES itself | not modelled (hardware or external) |

## 2. Plan per property

* **C01 Frame header round trip** — pure functions `encodeHeader`/`decodeHeader`; case analysis on every check, list algebra.
* **C02 Header decoder accepts exactly the documented language** — independent predicate `ValidHeader` on byte strings; iff by unfolding and `omega`.
* **C03 Header decoder never reads outside the supplied buffer** — decoder transcribed with checked reads that return a fault; prove the fault unreachable.
* **C04 Header encoding is canonical** — re-encode decoded fields; list extensionality over the header prefix.
* **C05 Non-secure frame round trip** — `encodeNonsecure`/`decodeNonsecure` built on the header model and CRC.
* **C06 Non-secure frame corruption of one bit is rejected** — CRC linearity (XOR homomorphism) + injectivity of one CRC step; header checks only help.
* **C07 Message counter comparison is numeric order** — memcmp as lexicographic compare; big-endian value by positional arithmetic.
* **C08 Message counter addition adds, or fails without rolling over** — ripple-carry loop transcribed; witness refuting the claim, exact characterisation of where it holds.
* **C09 Padding round trip and layout** — list take/drop algebra.
* **C10 Secure raw frame round trip** — cipher as parameters with inverse law; composition of header round trip and padding.
* **C11 Secure frame acceptance binds every byte** — invert every check in decodeRaw.
* **C12 Secure frame wire format** — unfold encodeRaw; byte positions.
* **C13 Secure frame size limits are enforced** — encodeRaw as list of writes; all indices < outbuf size.
* **C14 A secure frame is accepted by a receiver at most once** — receiver as state machine over byte strings; induction over histories using C23.
* **C15 A rejected secure frame changes nothing** — case analysis of decode; state returned unchanged on every failing path.
* **C16 Secure TX then RX through the full stack** — composition of C10, C23 and association lookup.
* **C17 Valve frame body contents** — unfold body construction.
* **C18 Secure beacon generation can succeed** — argument-order bug: prove the function returns 0 for every input (refutation).
* **C19 Encoder failure is reported as zero** — witness refuting it, plus partial for IDs of at most 6 bytes.
* **C20 Transmit counters strictly increase for ever** — EEPROM state machine, induction over list of operations.
* **C21 Transmit counter is never all-zero and never wraps** — same state machine, invariant.
* **C22 Power failure during a transmit-counter update is safe** — list of byte writes, all prefixes; uses CRC-8 injectivity in each byte.
* **C23 Receive counter update is exact** — counter table in EEPROM, storage invariant (base + unary), exactness by case analysis.
* **C24 Power failure during a receive-counter update never lets a counter go backwards** — all prefixes of the write list.
* **C25 One power failure does not lock a node out** — all prefixes from a two-copy-good state.
* **C26 Repeated power failures do not lock a node out** — refuted by a concrete two-crash witness.
* **C27 Node association set and lookup** — table as EEPROM rows refining a list of IDs; induction.
* **C28 Adding an association leaves a fresh counter** — EEPROM row after add: both counter copies erased, decode to zero.
* **C29 Key storage** — EEPROM cells.
* **C30 7-bit CRC detects all single-bit errors and all short bursts** — CRC as linear map over bits; injective step; burst argument.
* **C31 7-bit CRC stays in range and is a polynomial remainder** — bit-serial division specification.
* **C32 Compressed temperature is order preserving with bounded error** — Int arithmetic, omega.
* **C33 Smoothed stat stays between old and new** — Nat arithmetic.
* **C34 Unary counters survive any partial write** — finite table lifted over all 0..16.
* **C35 Quartile queries mean what they say** — loop transcribed; counting spec with List.countP.
* **C36 Min and max of hourly stats** — fold spec.
* **C37 Variable-length RX queue is a FIFO of exact frames** — refinement of index arithmetic to a list of frames; invariant over operations.
* **C38 RX queue never writes outside its buffer** — from the C37 invariant.
* **C39 RX queue honours its declared minimum capacity** — refuted by witness; partial: N-1 (or N when indices at start).
* **C40 Boiler minimum on and off times** — state machine with history variable; invariant.
* **C41 Boiler eventually goes off without calls** — ranking function.
* **C42 Weak calls do not start the boiler** — case analysis.
* **C43 Simple schedule start, end and duration** — mod-1440 arithmetic.
* **C44 Corrupt or absent schedule byte means no schedule** — byte range check.
* **C45 Valve position stays within limits** — case analysis of the control function.
* **C46 No rapid reopen after closing or reclose after opening** — invariant linking countdowns to history.
* **C47 Frost protection: very cold room opens the valve** — case analysis.
* **C48 Overheated room closes the valve** — case analysis.
* **C49 Glacial mode moves at most one percent per minute in the proportional range** — case analysis.
* **C50 Movement direction is never perverse** — case analysis.
* **C51 Cumulative movement counter is exact modulo 1024** — induction over ticks.
* **C52 Target temperature stays within safe bounds** — case analysis over decision function.
* **C53 Energy-saving setback is bounded and never applied when wanted warm** — case analysis.
* **C54 BAKE is bounded in time** — induction over op list.
* **C55 Stored FROST and WARM thresholds are consistent** — EEPROM byte decoding.
* **C56 Temperature dial is monotonic** — monotone staircase, omega.
* **C57 FHT8V bit stream round trip** — encoder as list of half-bits; decoder as a parser; parser inverts printer by induction over the bit list.
* **C58 FHT8V bit stream is terminated and bounded** — run-length argument on the encoded pulse stream; length bound by bit count.
* **C59 FHT8V decoder never reads past the buffer end** — checked reads.
* **C60 FHT8V percent scaling** — arithmetic.
* **C61 Motor position estimate stays in range** — arithmetic with explicit clamps.
* **C62 Valve driver start-up order** — state machine with allowed-transition relation.
* **C63 JSON frame integrity** — CRC algebra from C30.
* **C64 JSON writer never overruns and emits balanced output** — bounded print buffer model, invariant.
* **C65 JSON stats table** — map refinement.
* **C66 Minimal binary stats round trip** — bit-field arithmetic.
* **C67 Full binary stats round trip** — list serializer/parser.
* **C68 Real-time clock counts correctly** — induction over ticks.
* **C69 Clock persistence after restart** — EEPROM unary quarter-hour.
* **C70 Occupancy timeout** — induction over reads.
* **C71 Occupancy updates from interrupt and main loop never corrupt the countdown** — small-step interleaving semantics with CAS.
* **C72 Weak evidence never downgrades strong evidence** — case analysis.
* **C73 Errors take priority over warnings** — state machine.
* **C74 Hex parsing is the inverse of hex printing** — character table lifted over all bytes.
* **C75 Scratch space hand-out is disjoint** — interval arithmetic.
* **C76 Frame handler runs operations only on authenticated, non-trivial bodies** — refuted (constant-true check); partial: authentication always required.
* **C77 JeeLabs packet round trip and length safety** — serializer/parser and CRC16 linearity.
* **C78 EEPROM smart update semantics** — EEPROM function update.
* **C79 At most a quarter of hours are outliers** — counting argument on strict comparisons over `List.countP`.
* **C80 Each hourly statistic is the mean of that hour's samples** — sampler state machine, induction over samples; stale total refuted.
* **C81 EEPROM statistics store is a faithful bounded map** — injective address function, EEPROM update algebra.
* **C82 Schedule drives the mode exactly** — minute-of-day arithmetic over circular intervals.
* **C83 A calling valve never hovers** — case analysis on the control step.
* **C84 A steady room ends with the right valve position** — ranking function per tick, induction on ticks.
* **C85 The dial sensor ignores jitter and follows movement** — reading function; refutations by concrete readings.
* **C86 Longer darkness never makes it warmer** — monotone case analysis over the setback chain.
* **C87 Valve calls for heat only when it should** — case analysis.
* **C88 Frost protection end to end** — composition of target computation and valve step.
* **C89 Minimum 'really open' percentage setting is safe** — EEPROM byte sanity.
* **C90 FHT8V: a corrupted message is rejected** — per-byte parity and modular checksum.
* **C91 FHT8V transmissions are exactly periodic** — half-second scheduler; induction over ticks.
* **C92 FHT8V transmissions carry the current setting** — scheduler state machine.
* **C93 FHT8V driver drives a valve whose house codes are valid** — refutation by induction: never transmits.
* **C94 Clock persistence wear** — count of writes per cell over a day.
* **C95 A replay never causes an action** — composition of C14 with the frame handler.
* **C96 A valve's position reaches the boiler driver** — composition of TX, RX, handler.
* **C97 Received bytes can never cause an out-of-bounds access** — fault outcome unreachable in handler over all buffers.
* **C98 A forwarded object names its sender unambiguously** — injectivity of hex printing.
* **C99–C103 Motor driver** — state machine over arbitrary sensor input streams; invariants and ranking.
* **C104–C107 Statistics rotation** — table state machine; fairness by induction on table scans; refutations.
* **C108 encode() sends exactly when it can** — iff on the success condition.
* **C109–C114 Physical controls** — UI state machine with interrupts as arbitrary events; settling by ranking.
* **C115 Fast response to the user** — case analysis on the valve input preparation.
* **C116–C119 Ambient light** — sensor and detector as state machines over histories of operations; invariants linking
  the state to the list of levels seen.
* **C120–C124 Command line** — input loop over event streams; commands as functions of the line and EEPROM; words by an
  inductive relation; uninitialised stack bytes are an arbitrary argument.
* **C125–C132 SIM900 link** — `poll()` state machine; modem replies, times and the byte past the reply buffer are arbitrary
  inputs; histories newest first; liveness (C130) in a closed loop with a modem model by a ranking function over states.
* **C133 privacy command** — the command as a function of the typed line and the EEPROM; exact effect on one cell and frame property (`Props/Tight2.lean`, which also holds the sharper forms found missing by seeded faults).
* **C134–C137 RFM23B link** — driver calls as functions on the object and a model of the chip (registers, FIFOs, status bits,
  nIRQ; an assumption about hardware); radio events and transmission delays are arbitrary. Invariant over all histories
  (`RInv`), refinement of the queue to a list (`QInv`). Frame helpers by induction on the loops.

* **C138–C141 1-Wire and DS18B20** — devices as state machines in `Spec/OneWire` (data-sheet behaviour, wired-AND line), master and
  driver as functions on the bus; the search loop by an invariant on the agreed code prefix, the enumeration by induction over the
  sorted codes.
* **C142–C144 generator, secure random byte, seed bytes** — generator step injective by cancelling XOR and addition, recurrence by
  finiteness; the secure byte as a GF(2)-linear map whose kernel is computed; erases counted over histories.
* **C145 weak increment/decrement** — threads with a pending load, arbitrary interleavings of loads and exchanges; count by induction.
  The AVR exchange as single instructions with interrupts between them: invariant per program counter.
* **C146–C149, C151, C152 sensors, supply voltage, ADC, voice detector** — bus replies and conversions are inputs; linear arithmetic
  for the conversions, histories by induction.
* **C150 peripheral power** — programs as trees of power blocks; structural induction.
* **C153–C155 motor hardware drivers** — each call as its list of port writes, naps and watched runs, giving a waveform judged by the
  bridge's truth table in `Spec/MotorLines`; invariant over calls. The watched run as loops over arbitrary polls of clock and current.
* **C156–C159 software UARTs** — the line as a function of time against the 8N1 frame of `Spec/UART`; reception by an invariant on the
  phase error; receive buffer refines a queue; poll loops by induction.
* **C160–C162 sleeping and delays** — time in half microseconds, real nap lengths as inputs; induction over naps; interrupts as lists of events
  met awake or asleep; delay loops counted in cycles.
* **C163–C165 clock tests, calibration** — counters as functions of time or try; loops by induction; measurement in CPU cycles; search invariant on the
  distance to the target.
* **C166–C167 queue handler** — the queue model of C37 with interrupts inside `handle()`; the message is read through the pointer after interrupts; induction over
  histories with the queue invariant; joined to the hub of C95.
* **C168 RN2483** — the output stream of `sendRaw` read back by a separate modem parser (`Spec/TextOut`); the refutation is for every message of 128+ bytes.
* **C169–C171 text reports** — the status line and `D` output as byte lists, read back by separate readers; JSON tail joined to C79's readers; histories by an invariant on the stats table.
* **C172–C173 house code commands** — stored bytes and the driver's cache; crash points as prefixes of the write list.
* **C174 core stats** — joins C172 to the encoder/decoder of C67.
* **C175–C176 the secure channel** — transmitters, network and receiver in one transition system; invariant joining C20 (counters strictly increase), the frame layout, C21–C23 (receiver) and the cipher contract; the accepted list is the image of a counter-sorted sublist of the sent list.
* **C177 liveness of the channel** — invariant: the stored counter of a node is the initial one or that of an accepted frame; then C23 progress and the round trip, with the cipher contract only at this one message.
* **C178-C180 stack checks** — call trees with interrupts at four points of each call; mutual induction shows the mark is the minimum of the positions; the check in the main loop follows.
* **C181 profiling tables** — histories folded over the tables.
* **C182 setback lockout** — EEPROM byte model, with the "G" command (C124) and the target computation (C47).
* **C183 boiler only if asked** — the channel of C175 with the handler (C76) and the boiler driver (C40-C42) behind it; invariant: on-time spent plus on-time still to come is at most the number of accepted calls times the minimum on time, and accepted calls inject into sent calls.
* **C184 asked gets heat** — C177 for acceptance, C76 for the action, the driver's cases, and an invariant relating the log of off minutes to the driver's off counter.
* **C185, C186 wear** — `erasesAt` counts writes that set a bit, over the write sequences the models emit; induction over histories with the potential base count (receiver: base count grows by at least 17 per full update; transmitter: distance of the RAM count from its start value).
* **C187–C189 ID creation, interrupted administration, re-association** — `ensureIDCreated` modelled with a list of random bytes and the EEPROM monad; crash points are prefixes of the write sequences. C188 and C189 are false as stated; the parts that hold and the counterexamples are proved.
* **C190–C191 the whole house** — a transition system `HomeReach` of rooms (valve models fed with readings), the air with its attacker, and the boiler hub; the invariant is that each valve's reported position is the one its own reading history gives. C190 by induction over that system, C191 by composing the valve's liveness (C84) with delivery (C184).
* **C192 statistics to the log, C193 heating stops** — compositions over the house transition system of C180–C191 with the JSON writer of C64 and the hub's serial printing of C177; C193 uses the monotone receive counter as a ranking.
* **C194–C197 analogue** — a register-level model of the ADC, comparator and power-reduction bits (`Model/Analog.lean`); an invariant `Rest` (enabled iff powered, interrupt and free running off, comparator off) over arbitrary operation sequences.
* **C198–C201 control loop** — the valve of C44–C52/C88 in a loop with an arbitrary room (`Props/ClosedLoop.lean`): the room is an unconstrained sequence of readings subject only to the stated hypotheses. Potentials (minutes the anti-seek timers have to run, steps the valve has to close, readings it has been held) bound how far the temperature can go before the hypothesis on the room applies.
* **C202–C204 relay heater** — pin registers of `BinaryRelayDirect` (`Model/Relay.lean`), composed with the modelled valve as its physical device, and with the room of C198.
* **C205–C206 serial port** — UART transmitter, ring buffer and interrupt as a concurrent machine under fair schedules; programs as lists of assignments and busy waits (`Model/SerialPort.lean`); invariants and a decreasing measure for termination; the exact converse (stuck states) for C206.
* **C207–C208 sensors to statistics** — `JSONStatsHolder` as a fold of put-or-remove with early exit (`Model/StatsHolder.lean`); invariant over all histories with a pigeonhole argument for capacity; composition with the fairness theorem C106.
* **C209–C210 house with queue** — the relation `QReach`: `HReach` with arrivals and calls instead of direct delivery; simulation onto `HReach`, invariant 'handled ++ waiting = taken in', and a ranking argument for liveness.
* **C211 sensors to log** — C208 (rotation over the holder) composed with C192 (one object through the secure channel to a printed line), by induction over the reports.
* **C212–C214 ADC with its interrupt** — CPU steps, converter and interrupt as events of a schedule; invariants per program point for what the registers hold (ghost numbering of conversions), a ranking function with a helpful event per state for termination under fairness.
* **C215 queued requests** — C210 strengthened with what may be accepted while a message waits (only those ahead of it); boiler readiness and call kept over arbitrary tick positions (invariants on remaining on time); composed with the message handler (C184) and frost (C191).
* **C216 – C218 seeding and jitter** — CRC step shown injective in (high byte, low byte xor data), hence the sweep tells any change within two neighbouring bytes; seeding steps injective (C142). Jitter loop equal to a specification by lists of counts (induction over turns); the byte is linear in the counts, so its effect per place is decided over 256 differences.
* **C219 – C221 watchdogs** — RTC watchdog state characterised by its history (induction from the end). Naps: invariant by program place over a machine of CPU steps, watchdog units and other interrupts, with a bound on the units between turns of the CPU; termination by rank and helpful event.
* **C222 the whole system** — the timeline of C184's house, one state a minute, with C198's valve and room. Boiler histories are abstracted to paths (message / tick); invariants `stays`, `call`, `off` by induction over paths; then over minutes: a report that finds the boiler ready makes it sure for the minimum on time, so the next report finds it on; from any state a report finds it ready after the minimum off time. The room follows by C198's potential argument up to a time.
* **C223 dark and pitch dark** — induction over histories of the light sensor for the last reading; refutations by concrete histories.
* **C224 the SPI bus** — a small language of bus steps (select, byte, deselect, power, interrupt flag) over a chip that follows the SPI protocol; `Runs`, a symbolic execution of a routine from an idle bus, composes along the routine; loops (register tables, FIFO bytes) by induction.
* **C225 interrupts between bytes** — Hoare triples over the bus programs of C224 with a hook before each step. Regimes: interrupts on (only register-level polls and radio events happen: the interrupt routine, itself with radio events before any of its steps, amounts to radio events, one register-level poll and more radio events), interrupts off while receiving (radio events, which commute with everything up to the mode change), standby (nothing happens), transmitting with no interrupt enabled (only the end of the transmission, which commutes with all but status reads and the mode change). Each call is cut at the points where the regime changes.
* **C226 frames are packets** — invariant pairing each frame handed over or waiting with the packet it came from, the packets forming a subsequence of those on the air, plus the packet held in the radio's buffer while its status bit is set; kept by every operation, and carried to the byte level through the refinements of C225 with membership in the schedule in place of the subsequence.
* **C227 SIM900 restart** — invariant over histories: the number of frames announced since the last power pulse is at most the frame counter, except on the way to a pulse; at 255 no retry lock-out is pending, so the next turns go straight to the pulse.
* **C228 node table** — `set` as EEPROM block update (or memcpy), `get` as block read; induction over the history with the last write to each row; search by induction over the rows.
* **C229 clock bytes** — the calls as programs of byte accesses with an interrupt allowed before every step; an atomic block is shown equal to one step at some moment; requests held while interrupts are off are counted.
* **C230 serial text** — an independent receiver (Spec/UARTStream) run on the line made of the frames of C158 with arbitrary pauses; induction over the bytes.
* **C231 EEPROM map** — a separate table of areas (Spec/EEMap), all EEPROM writers of the library as one type of calls (Model/EECalls), a compositional `writes within the area` argument for each, then induction over histories with cuts; the command handlers reduce to such calls.
* **C232 warm through the queue** — the queued house of C209 refines the house of C184 (`q_sim`); a report waiting in the queue with enough calls is a report heard (from C210), so C222 applies.
* **C233 fixed-counter receiver** — the receive path of C14-C16 is generic in the receiver's storage; the fixed storage is another instance; induction over histories.
* **C234 1-Wire timing** — the primitives as sequences of pin operations, delays and interrupt-flag changes; the line in time with slaves that each have their own clock (`Spec/OneWireLine`, from the data sheet, undefined outside it); simulation of the slot-level bus of C138-C141, with the invariant that all slaves not waiting are at the same point of the protocol.
* **C235 remote stats line** — the printing routines as text; a reader of the line (`Spec/StatsText`) written from the comment; composed with the encoder and decoder of C67.
* **C236 SIM900 commands as text** — the text printed for each event; a modem that reads bytes (`Spec/Modem`: lines to CR, data after an accepted AT+CIPSEND); invariant over histories that the modem waits for exactly the data the link is about to write.
* **C237 the Z command** — the command with its time budget; exact count of erasures by induction over the area; termination by the number of bytes left to erase.
* **C238 key changes and the counter** — `Model/KeyReset` (the conditional reset given to the `K` command as callback, the `K` command with it); the invariant of C20 extended: the readable prefix grows by at most one an event, so that within 2^20 events it stays below the threshold and every key clear is a step forward; torn writes of the first initialisation keep the top byte below 16.
* **C239 null transmitter** — the three encoders with a source that always fails.
* **C240 EFR32 sub-cycle** — `Model/SoftSerial1` (second part); induction on the number of interrupts; arithmetic for the period.
* **C241 basic software serial port** — `Model/SoftSerial1`: byte lists through C230's line and receiver, C158's sampling for `read()`.
* **C242 shared variables** — `Model/AtomicWord`: the operations of `OTAtomic_t` as programs of byte accesses, interrupt routines of any effect between any two of them; atomicity stated as the existence of one moment; a locked body is reduced to the body with interrupts off.
* **C243 I2C on the EFR32** — `Model/I2C`: `I2CSPM`, `I2C_TransferInit`, `I2C_Transfer` over a model of the peripheral and an arbitrary slave; the positions a transfer can be in between two polls are enumerated with their exact machine state and the number of bus steps left; each poll keeps to them.
* **C244 SHT21 on the EFR32** — `Model/ShtI2C` over C243; failure handling refuted.
* **C245 LoRa commands** — `Model/RN2483`: every call of the link; `Spec/LoraModem`: a modem's reader of lines, words, numbers and hex data; a history of calls is read as the list of commands asked for.
* **C246 the 2016 policy** — `Model/Target2016`: `computeTargetTemp` and `setupInputState` of `ModelledRadValveComputeTargetTemp2016` and the valve reading with it; compared with the default policy where they agree; monotonicity by that of its three decisions; frost protection through C47 as for C88.
* **C247 the whole valve** — `Model/Trv`: `ModelledRadValve` reading, `ValveMotorDirectV1` (`read`, `set`, pass-through calls) and the motor logic, composed; invariant: each part is in the state its own events lead to, target and position passed on; then the theorems of C52, C62, C87, C99 and `freezing_open` (C191), and an induction over the polls against the end stop.
* **C248 start-up** — the motor model of C61-C62; invariant that the count of polls in a phase never exceeds the count of end-stop reports; two measures (polls to go until withdrawn, and from fitting until normal running), each decreased by every poll that is not too late and kept by every other event.
* **C249 house of whole valves** — the `Trv` of C247 for each valve, of any kind and settings, joined to the house of C183/C184/C190/C191; a ghost log ties each position message to its sender's history. Composition of C183, C184 and C247; warm house as C190.
* **C250 closed loop with the motor** — the `Trv` of C247 minute by minute; a position wanted for M minutes is reached (`reached`), so C198, C199 and C222 apply to the motor's position with L+M-1 for L.
* **C251 schedule histories** — the RAM schedule as a list of bytes; the byte of a slot after a history computed by a fold, equal for RAM and EEPROM; periods by modular arithmetic.
* **C252 mean of readings** — truncating division split by sign; error bounds by linear arithmetic; refuted below zero.
* **C253 turning the dial** — the mode followed through the stages of a read used for C110; wiggle count and the significant-use flag through the same stages.
* **C254 the hand on the controls** — C253 gives the mode, the dial's occupancy event is followed through the stages of the read, and both are handed to the model of `computeTargetTemp`; the lasting part by induction over reads and minutes with the occupancy countdown as the invariant.
* **C255 turning the dial up opens the valve** — the invariant of C254's lasting part carried minute by minute along the valve's own run, which gives the target at each reading; then C47.
* **C256 turning the dial down** — C254 gives the target at the reading, C87 the call for heat from it.
* **C257 the button opens the valve** — the BAKE countdown as the invariant along the valve's own run, which gives the target at each reading; then C47 and C87.

## 3. Defects found while reading (each is proved as a refutation where it touches a property)

* `msgcounteradd` never carries into the top counter byte (loop `for(int8_t i = 5; --i > 0; )`).
* `generateSecureBeacon` passes an empty output buffer: returns 0 for every input.
* `encode()` returns 255 where the documentation says 0.
* `unpad32BBuffer` returns 0, not 0xff, on bad padding, so a badly padded authentic body is accepted as empty.
* ISR RX queue: the declared minimum capacity is not guaranteed once the indices have moved.
* RX counters: two power failures at bad moments leave both copies unreadable: node locked out.
* `FHT8VRadValveBase::isAvailable` condition is inverted.
* JSON: `changedValue()` ignores entry 0; `writeJSON` can emit a leading comma; `checkJSONMsgRXCRC` may read one byte
  past the buffer.
* `decodeAndHandleOTSecureOFrame` tests the buffer capacity, not the decoded length.
* JeeLabs packet encode/decode return negative error codes through an unsigned byte.
* `addNodeAssociation` accepts an ID starting 0xff, which then reads as an empty slot.
* Unary two-byte corruption can decode as a wrong count; quartile queries miscount with unset hours.
* Hourly sampler keeps a stale total when a sensor is unavailable at the first sample of an hour (C80).
* Boiler minimum on-time is one tick short of the documented value.
* `setFROSTTargetC` refuses low frost settings although documented; the hot-water dial is not monotonic (C55, C56).
* Dial sensor: jitter can look like use, slow turns are not followed (C85).
* RTC: a power failure at midnight can restore the wrong day (C69).
* Proportional motor driver: never counts as open when calibration is deferred; end-stop count survives a change of
  direction; low battery can leave it closing (C99–C101).
* Statistics: low-priority entries starve and one over-long entry blocks the others (C106).
* Physical UI: a button press between fetching the result and clearing the flag is lost at the frost end stop (C113).
* FHT8V with the address option needs 48 bytes where 46 are documented (C58).
* Light-based occupancy: a light that dims slowly to darkness is still signalled (C119).
* CLI: "A"/"I" with fewer than eight long or widely spaced words stores uninitialised stack bytes; "K" does not check the
  first key byte; "T" takes numbers modulo 256 and words as zero; "G" is off by one at the end of its area (C121–C124).
* SIM900 link: a frame queued before the first poll is discarded; a dead modem found just before sending is not reset
  (the RESET state is overwritten) and the frame is lost; a frame queued between announcement and writing is sent with the
  old length; replies filling the buffer are read past its end; an unanswered APN command counts as success (`return -1` from
  a bool function); `sendRaw` hangs for ever if started at second 58 or 59 with a silent modem; polls exactly a minute apart
  never finish powering up (C125–C132).
* RFM23B: after `end()` and `begin()`, `listen()` on the same channel as before does nothing and the radio stays deaf; a second
  `begin()` loads channel 0's registers while the driver still believes it is on the other channel, so later frames go out with
  the wrong configuration (C134). `sendRaw()` on a channel that does not exist sends on the current one, and a frame over 64
  bytes is cut by the FIFO but reported sent (C135). A packet received but not yet polled is discarded by `sendRaw()` or a change
  of `listen()` without being counted (C136).
* 1-Wire: a device with family code 0 ends the enumeration (C138). DS18B20: `readMultiple` with a count of 0 stores one value; the
  wait for the conversion ends at once because a device addressed anew does not hold the line, so values are those of the
  conversion before, at first 85 C (C140).
* `getSecureRandomByte`: the clock jitter byte loses 2 bits on its way into the raw byte, 1 into the whitened byte; the ADC byte loses
  1 when whitened (C143).
* SHT21: a failed read leaves the I2C bus powered; the AVR build writes the user register with the read command (0xe7), so the reduced
  resolution is never set (C146); raw humidity below 0% wraps to 250..255 and counts as very damp (C147). TMP112: the timeout test is
  unreachable, an unfinished conversion is returned as a reading; failed reads leave the bus powered (C148).
* ADC: a read started at the end of the cycle returns 1024, which the supply sensor reports as 1.08 V, very low (C151).
* QM1: with no callback set the fourth detection calls a null pointer (C152).
* DRV8850 driver: `motorOff` clears MR twice and never ML (C155); `DRV8850Driver` passes its template arguments in the wrong order.
* `OTSoftSerial::begin` computes delays in bytes: at 9600 baud the half-bit delay wraps to 247, below 977 baud the bit delay wraps (C159).
  `OTSoftSerialAsync` drops the top bit of every character (a known FIXME) and characters beyond 32 until the next write (C156, C157).
* `nap()` and `sleepUntilNewCycle` can miss the wake-up that arrives between their test and `sleep_cpu()` (C161).
* 16 MHz busy delays of multiples of 64 us take 64 us too long; on ARM `_delay_x4cycles(n)` loops 2^32 times for any n but 0 and `delay_ms`
  waits less than half the time (C162).
* The clock ratio test accepts a CPU clock 3.1 times too fast, and calibration steps the wrong way above 1.27 MHz: byte counts wrap (C164, C165).
* **C168** `OTRN2483Link::sendRaw`: `outputLen = 2 * buflen` is kept in a `uint8_t`, so a message of 128 or more bytes is sent without its last 128 bytes and `true` is returned.
* **C170** `serialStatusReport` dereferences the humidity, light and occupancy pointers without a check when the JSON tail is enabled, though they are documented as optional.
* **C173** `SetHouseCode` accepts words that are not numbers (as 0) and numbers above 65535 (wrapped); the two bytes are written separately so a power failure can leave a mixed house code.
* **C179** recordIfMinSP (OTV0P2BASE_Util.h 303-308): the low-stack warning tests `min`, which after a successful exchange is still the previous mark, so the first dive below the limit is not reported; and the difference is unsigned, so once the mark is below the end of the variables no warning is ever reported.
* **C181** fnExit (OTV0P2BASE_Util.h 438): once a call that straddles the end of the sub-cycle is recorded as longest (start + duration > 255), every later call is ignored for ever.
* C188: `clearAllNodeAssociations()` erases the first byte of row 0 first; after a power failure there the table reads as empty, but adding a node makes the rest of the old rows visible again. `setPrimaryBuilding16ByteSecretKey()` interrupted leaves a key that is neither old nor new and reads back as valid.
* C189: clearing associations and adding the same node again resets its receive counter to zero under the same key, so frames recorded earlier are accepted again.
* **C194** `analogueVsBandgapRead` (OTV0P2BASE_ADC.cpp) always switches ADC power off at its end instead of restoring it: the ADC is without power afterwards even if the application had powered it up.
* **C195** `readInternalTemperatureC16`: `(raw-324)*210` overflows a 16-bit int for raw below 168 or above 480, among them the value 1024 returned when the read is started too late in the minor cycle.
* **C197** `powerSetup` writes `ADCSRA = 0`, which also zeroes the ADC clock divider set by the Arduino core; nothing sets it again, so conversions run at 500 kHz instead of 50–200 kHz.
* **C202** `BinaryRelayDirect::set()` before `setup()` is accepted and remembered; `setup()` then drives the relay off without resetting the value, so `isCallingForHeat()` is true with the heater off until the next `set()` (OTRadValve_AbstractRadValve.h 202-220).
* **C206** `flushSerialHW` waits for TXC0, which the hardware sets only when a byte has been sent: on a device that has printed nothing since reset, a flush never returns. Reached by `serialPrintAndFlush("")`, an `RAII_EnableSerial` scope without output, and `OTMessageQueueHandler::handle` with `wakeSerialIfNeeded` for the first frame if nothing is printed for it (PowerManagement.cpp 72-82, Messaging.h 509-519).
* **C214** `_analogueNoiseReducedReadM` with several samples runs the converter in auto-trigger mode and can return with a conversion still running. If the application had powered the converter itself (so that the function does not power it down), a following read with one sample (as `readInternalTemperatureC16` makes) naps with the converter's clock stopped and then takes that old conversion - of the other input - for its own.
* **C217** `clockJitterEntropyByte()` has no bound on its loop: it needs eight counts that differ from the one before, and with clocks that keep step with the CPU (no jitter) it never returns; it is called at start-up by `seedPRNGs()`.
* **C219** Enabling the RTC watchdog again after a time of being disabled, without feeding it first, is answered by a reset at the next tick, which may come at once: `_RTCWatchdogResetNotCalled` is not cleared by `enableRTCWatchdog()`.
* **C220** `nap()` tests `_watchdogFired` and sleeps again in separate steps: a watchdog interrupt in between leaves it asleep with the watchdog off until some other interrupt.
* **C223** `isRoomDark()`/`isRoomVeryDark()` (SensorAmbientLight.h 104-120, `False if unknown`): both true at power-up before any reading; lit and pitch dark can be true together.
* SIM900 `sendRaw()` (C227_sendRaw_unlimited): the frame counter is an 8-bit value compared with 255 only in `poll()`; frames sent with `sendRaw()` can step over it, so the "hard restart every 255 messages" need not happen.
* `NodeAssociationTableV0p2::set()` (C228_untouched, C228_add_erases): replaces the ID of a row but keeps the receive message counters of the node that had it, whereas `addNodeAssociation()` erases the row.
* `getHoursLT()` then `getMinutesLT()` (C229_two_calls): each is atomic, the pair is not; at 7:59 turning 8:00 the pair can read 7:00.
* `V0P2BASE_EE_END_STATS` counts one set too many (15 sets of 24 bytes): `zapStats()` also erases 592-615, which belong to nothing; and the parameter command accepts one index too many (cell 64, see C124). Both stay clear of every other feature (C231).
* `SimpleSecureFrame32or0BodyRXFixedCounter` copies six of the eight ID bytes: the last two of the sender ID it reports are left over in the scratch space (C233).
* The 1-Wire delays are 5 us short to allow for pin operations at 1 MHz; at 16 MHz (a clock `OTV0P2BASE_delay_us` supports) a written 0 is only 55 us long, and `delayG()`, a delay of 0 - 5 us, keeps interrupts off for 16 ms (C234).
* The SIM900 link writes a frame without waiting for the modem's prompt: if the modem refused the announcement the frame's bytes are executed as commands. A `sendRaw()` that timed out leaves the announcement standing, and the restart forced after 255 frames comes between the announcement and the data of the last: in both cases the next commands are sent to the server as a packet (C236).
* C240: `setupEmulated2sSubCycle()` (OTV0P2BASE_Sleep.h 302-305) computes `2000U/256U` in integers, so the EFR32's sub-cycle is 1.792 s, not 2 s (`C240_refuted_two_seconds`).
* C241: `OTSoftSerial::read()` returns 0 for silence, for a missing stop bit and for a received NUL (`C241_refuted_zero`).
* **C244** On the EFR32 the result of `i2c0.read()` is ignored: with no answer from the SHT21 the zeroed buffer is converted, so `read()` returns and keeps -46.9C (not `DEFAULT_INVALID_TEMP`) and a humidity of 250 that sets the high-humidity flag; `SHT21_initialised` is set even if the set-up failed (`C244_refuted_failure`).
* **C245** `setDataRate(n)` and `setTxPower(n)` print the number as the single character `'0' + n`: for any n above 9 the modem gets a line without a number and keeps its old setting (`C245_refuted_number`).
* **C246** `ModelledRadValveComputeTargetTemp2016::setupInputState` calls `occupancy->reportedRecently()`, which `PseudoSensorOccupancyTracker` no longer has (now `reportedNewOccupancyRecently()`): the class does not compile with the library's own tracker. It also leaves `maxTargetTempC` at 0 and does not force glacial mode for a low maximum opening, unlike the default policy.
* **C247** (consequence of C99) A whole valve with the proportional driver in a room that stays dark (or with a low battery) is never let calibrate and therefore never calls for heat, although its controller has opened it fully and the room is freezing.
* **C252** `smallIntMean` adds half the count and then divides truncating towards zero, so below freezing it is 1/16 C too high (sixteen readings of −1/16 C average 0).
