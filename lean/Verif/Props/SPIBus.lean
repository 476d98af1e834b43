import Verif.Proof.SPIBus2
import Verif.Props.RFM23
/-!
# Property C224: the bytes on the SPI bus

`Model/RFM23.lean` takes an access to a register of the radio as one step and the theorems C134–C137 are about that model. Here
the routines are run as the bytes they exchange with the chip over the SPI bus (`Model/SPIBus.lean`), with nothing in between
(`id`), and shown to do just what the register-level operations say, to leave the bus idle, and to leave the interrupt flag as
they found it.
-/

namespace OTR.Props
open OTR Spi

/-- The machine afterwards: link object and chip are `s`, the bus is idle, and the interrupt flag is as before. -/
structure Left (m m' : Wire) (s : Rfm) : Prop where
  link : m'.s = s
  idle : m'.ph = .idle
  ie : m'.ie = m.ie

theorem triv_id : Triv false id := fun m _ => ⟨m.t, rfl⟩

theorem left_of {α : Type} {p : BusP α} {m m' : Wire} {r : α} (h : Runs false p m r m') (hi : m'.ph = .idle) (he : m'.ie = m.ie) :
    (p id m).1 = r ∧ Left m (p id m).2 m'.s := by
  obtain ⟨t, e⟩ := h id triv_id m.t
  have e : p id m = (r, m'.tm t) := e
  rw [e]
  exact ⟨rfl, rfl, hi, he⟩

/-- A register write (address byte with bit 7 set, then the value) writes that register, and a read gives its value and, except
for the status registers, changes nothing (registers below the FIFO's). -/
theorem C224_register (m : Wire) (hi : m.Idle) (a : Nat) (ha : a < 127) (v : Byte) :
    Left m (Spi.writeReg a v id m).2 { m.s with chip := m.s.chip.wr a v } ∧
    (a ≠ 3 → a ≠ 4 → (Spi.readReg a id m).1 = m.s.chip.reg a ∧ Left m (Spi.readReg a id m).2 { m.s with chip := m.s.chip.acc }) ∧
    (Spi.readReg16 3 id m).1 = (m.s.chip.st1, m.s.chip.st2) ∧ Left m (Spi.readReg16 3 id m).2 { m.s with chip := m.s.chip.clrInt } :=
  ⟨(left_of (Spi.r_writeReg hi a ha v (Kq.none _ _) (Kq.none _ _)) hi.1 rfl).2,
   fun h3 h4 => left_of (Spi.r_readReg hi a ha h3 h4 (Kq.none _ _)) hi.1 rfl,
   left_of (Spi.r_readSt hi (Kq.none _ _) (Kq.none _ _) (Kq.none _ _)) hi.1 rfl⟩

/-- Setting up, queueing a frame and emptying the receive FIFO, in bytes. -/
theorem C224_blocks (cfg : RfmCfg) (hl : CfgAddr cfg) (m : Wire) (hi : m.Idle) (buf : Bytes) (n ch : Nat) :
    Left m (Spi.standby id m).2 { m.s with chip := m.s.chip.standbyClear } ∧
    Left m (Spi.setChannel cfg ch id m).2 (m.s.setChannel cfg ch) ∧
    Left m (Spi.queueFrame buf id m).2 { m.s with chip := m.s.chip.queueFrame buf } ∧
    (Spi.rxFifo n id m).1 = (m.s.chip.rxFifo n m.junk).1 ∧
    Left m (Spi.rxFifo n id m).2 { m.s with chip := (m.s.chip.rxFifo n m.junk).2 } :=
  ⟨(left_of (Spi.r_standby hi) hi.1 rfl).2,
   (left_of (Spi.r_setChannel ch (hl ch) (fun h => by cases h) hi (Kq.none _ _) (Kq.none _ _)) hi.1 rfl).2,
   (left_of (Spi.r_queueFrame buf hi (Kq.none _ _)) hi.1 rfl).2,
   left_of (Spi.r_rxFifo n hi) hi.1 rfl⟩

/-- Starting to listen, and handling a received frame (from the interrupt routine or from `poll()`), in bytes. -/
theorem C224_receive (cfg : RfmCfg) (hl : CfgAddr cfg) (m : Wire) (hi : m.Idle) :
    Left m (Spi.dolisten cfg id m).2 (m.s.dolisten cfg) ∧
    Left m (Spi.handler cfg id m).2 (m.s.poll cfg m.junk) ∧
    Left m (Spi.poll cfg id m).2 (m.s.poll cfg m.junk) :=
  ⟨(left_of (Spi.r_dolisten hl hi) hi.1 rfl).2, (left_of (Spi.r_handler hl hi) hi.1 rfl).2, (left_of (Spi.r_poll hl hi) hi.1 rfl).2⟩

/-- `begin()` in bytes: the radio is taken as connected exactly if registers 0 and 1 hold the type and version of an RFM23B. -/
theorem C224_begin (cfg : RfmCfg) (hc : CfgOk cfg) (hl : CfgAddr cfg) (m : Wire) (hi : m.Idle) :
    (Spi.begin cfg id m).1 = (m.s.begin cfg).2 ∧ Left m (Spi.begin cfg id m).2 (m.s.begin cfg).1 := by
  have hcon : Runs false checkConnected m (decide (m.s.chip.reg 0 = 8 ∧ m.s.chip.reg 1 = 6)) (m.onChip fun c => c.withSPI Chip.acc) := by
    refine r_powered (g := Chip.acc) hi (Kq.none _ _) (fun x hx _ => ?_) (Kq.none _ _)
    have hx' : x.Idle ∧ x.s.chip.reg = m.s.chip.reg := by
      rcases hx with rfl | rfl
      · exact ⟨hi, rfl⟩
      · exact ⟨hi, rfl⟩
    refine Runs.bind (r_readReg hx'.1 0 (by omega) (by omega) (by omega) (Kq.none _ _)) ?_
    rw [hx'.2]
    by_cases h0 : m.s.chip.reg 0 = 8
    · refine Runs.ite_pos h0 ?_
      refine Runs.bind (r_readReg (m := x.onChip Chip.acc) hx'.1 1 (by omega) (by omega) (by omega) (Kq.none _ _)) ?_
      have e : (x.onChip Chip.acc).onChip Chip.acc = x.onChip Chip.acc := by
        unfold Wire.onChip; dsimp only; rw [acc_acc]
      rw [e, show (x.onChip Chip.acc).s.chip.reg 1 = m.s.chip.reg 1 from congrFun hx'.2 1]
      simp only [h0, true_and]
      exact Runs.pure _ _
    · refine Runs.ite_neg h0 ?_
      simp only [h0, false_and, decide_false]
      exact Runs.pure _ _
  have key : Runs false (Spi.begin cfg) m (m.s.begin cfg).2 { m with s := (m.s.begin cfg).1 } := by
    refine Runs.bind hcon ?_
    have er : (m.s.chip.withSPI Chip.acc).reg = m.s.chip.reg := by unfold Chip.withSPI; split <;> rfl
    unfold Rfm.begin
    dsimp only
    rw [er]
    by_cases h : m.s.chip.reg 0 = 8 ∧ m.s.chip.reg 1 = 6
    · rw [if_pos h]
      refine Runs.ite_pos (by simp [h]) ?_
      refine Runs.bind (r_regBlock (cfg.regs 0) (hl 0 hc.ch) (fun h => by cases h) (m := m.onChip fun c => c.withSPI Chip.acc) hi (Kq.none _ _)) ?_
      exact Runs.bind (r_standby (m := (m.onChip fun c => c.withSPI Chip.acc).onChip (Chip.regBlock (cfg.regs 0))) hi) (Runs.pure _ _)
    · rw [if_neg h]
      refine Runs.ite_neg (by simpa using h) ?_
      exact Runs.pure _ _
  exact left_of key hi.1 rfl

/-- The tables in the code have such addresses. -/
theorem rfm_tables_addr : TableAddr regsFHT8V ∧ TableAddr regsOOK ∧ TableAddr regsGFSK := by
  unfold TableAddr
  decide

example : CfgAddr ⟨2, fun ch => if ch = 0 then regsGFSK else regsOOK, true, true, none⟩ := by
  intro ch _
  show TableAddr (if ch = 0 then regsGFSK else regsOOK)
  by_cases h : ch = 0
  · rw [if_pos h]; exact rfm_tables_addr.2.2
  · rw [if_neg h]; exact rfm_tables_addr.2.1

/-- A packet of three bytes, in a link that listens, read over the bus by the interrupt routine into the queue. -/
def exWire : Wire where
  s := { chip := { reg := fun x => if x = 0x30 then 0x88 else if x = 0x33 then 2 else if x = 0x4b then 3 else if x = 5 then 2 else if x = 7 then 1 else 0,
                   st1 := 2, rx := [7, 8, 9] },
         lc := some 0, q := VQ.new 64 128 fun _ => 0 }
  junk := fun _ => 0xee

example : exWire.Idle ∧ exWire.s.chip.irq = true := by
  refine ⟨⟨rfl, rfl⟩, ?_⟩; decide +kernel
example : (Spi.rxFifo 4 id exWire).1 = [7, 8, 9, 0xee] ∧ (Spi.rxFifo 4 id exWire).2.s.chip.rx = [] := by decide +kernel
example : (Spi.handler ⟨1, fun _ => regsGFSK, true, true, none⟩ id exWire).2.s.chip.reg 7 = 5 ∧
    (Spi.handler ⟨1, fun _ => regsGFSK, true, true, none⟩ id exWire).2.s.q.count = 1 := by decide +kernel

end OTR.Props
