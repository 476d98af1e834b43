import Verif.Props.Boiler
import Verif.Props.Occupancy
import Verif.Props.TxCounter
import Verif.Props.Security
import Verif.Props.TempControl
import Verif.Props.RadioUtil
import Verif.Props.Sensors
import Verif.Props.Sim900Parse
import Verif.Props.FHT8VDriver
import Verif.Props.Jeelabs
import Verif.Props.SecureTx
import Verif.Props.SecureChannel
import Verif.Props.Entropy
import Verif.Props.AmbientLight
/-!
# Tightening, from automatic mutants
-/

namespace OTR

theorem eraseFrom_eq (k : Nat) : ∀ (a : Nat) (m : EE), (eraseFrom k a m).1 = true ∧
    ∀ x, (eraseFrom k a).post m x = if a ≤ x ∧ x < a + k then 0xff else m x := by
  induction k with
  | zero =>
    intro a m
    refine ⟨rfl, fun x => ?_⟩
    rw [if_neg (by omega)]; rfl
  | succ k ih =>
    intro a m
    have hr : applyW m (smartErase a m).2 a = 0xff := by
      rw [smartErase_eq]; dsimp only [wr1]
      split <;> simp_all [applyW, EE.upd]
    have e : eraseFrom (k + 1) a m = ((eraseFrom k (a + 1) (applyW m (smartErase a m).2)).1,
        (smartErase a m).2 ++ (eraseFrom k (a + 1) (applyW m (smartErase a m).2)).2) := by
      simp only [eraseFrom, emBind, eeRead, emIf, hr, ne_eq, not_true_eq_false, if_false]
    have hw : ∀ x, applyW m (smartErase a m).2 x = if x = a then 0xff else m x := by
      intro x
      rw [smartErase_eq]
      dsimp only [wr1]
      by_cases h : m a = 0xff
      · by_cases hx : x = a
        · simp [h, hx, applyW]
        · simp [h, hx, applyW]
      · by_cases hx : x = a
        · simp [h, hx, applyW, EE.upd]
        · simp [h, hx, applyW, EE.upd]
    obtain ⟨i1, i2⟩ := ih (a + 1) (applyW m (smartErase a m).2)
    refine ⟨by rw [e]; exact i1, fun x => ?_⟩
    show applyW m (eraseFrom (k + 1) a m).2 x = _
    rw [e]
    dsimp only
    rw [applyW_append]
    rw [show applyW (applyW m (smartErase a m).2) _ x = (eraseFrom k (a + 1)).post (applyW m (smartErase a m).2) x from rfl, i2, hw]
    by_cases h1 : x = a
    · rw [if_neg (by omega), if_pos h1, if_pos (by omega)]
    · by_cases h2 : a + 1 ≤ x ∧ x < a + 1 + k
      · rw [if_pos h2, if_pos (by omega)]
      · rw [if_neg h2, if_neg h1, if_neg (by omega)]

namespace Props

/-- **C41.** Without EEPROM the minimum on time is five minutes, and cannot be changed. -/
theorem C41_fixed_minutes (stored mins : Byte) : minBoilerOnMinutes false stored = 5 ∧ setMinBoilerOnMinutes false mins = none := ⟨rfl, rfl⟩

/-- **C70.** The two-bit occupancy value sent with statistics: 3 for the first 17 minutes after evidence, then 2 to the timeout, then 1;
never 0 (unknown) and always two bits. A new sensor reports vacant. -/
theorem C70_two_bit (s : Occ) (n : Nat) :
    (s.markAsOccupied.reads n).twoBit = (if n < occTimeoutM - occLikelyM then 3 else if n < occTimeoutM then 2 else 1) ∧
    (1 ≤ s.twoBit ∧ s.twoBit < 4) ∧ (Occ.init.value = 0 ∧ Occ.init.twoBit = 1 ∧ Occ.init.getVacancyH = 0) := by
  obtain ⟨h1, h2, _⟩ := C70_timeout s n
  refine ⟨?_, ?_, by decide⟩
  · unfold Occ.twoBit
    by_cases a : n < occTimeoutM - occLikelyM
    · rw [if_pos a, h2.2 a]; rfl
    · rw [if_neg a, if_neg (fun h => a (h2.1 h))]
      by_cases b : n < occTimeoutM
      · rw [if_pos b, h1.2 b]; rfl
      · rw [if_neg b, if_neg (fun h => b (h1.1 h))]
  · unfold Occ.twoBit; split <;> (try split) <;> omega

/-- **C20.** Resetting the stored counter to zero succeeds, touches only the counter's eight bytes, and makes the counter read zero. -/
theorem C20_reset_to_zero (m : EE) (r : Bytes) :
    (resetRaw true r m).1 = true ∧ getTXNVCtrPrefix ((resetRaw true r).post m) = some [0, 0, 0] ∧
    ∀ a, a < 104 ∨ 112 ≤ a → (resetRaw true r).post m a = m a := by
  obtain ⟨h1, h2⟩ := eraseFrom_eq 8 EE_TXCTR m
  have e : resetRaw true r = eraseFrom 8 EE_TXCTR := rfl
  rw [e]
  refine ⟨h1, ?_, fun a ha => by rw [h2, if_neg (by omega)]⟩
  have : loadRaw ((eraseFrom 8 EE_TXCTR).post m) = [0, 0, 0, 0, 0, 0, 0, 0] := by
    unfold loadRaw eeBlock
    have hb : ∀ i, i < 8 → (eraseFrom 8 EE_TXCTR).post m (EE_TXCTR + i) = 0xff := by
      intro i hi; rw [h2, if_pos (by omega)]
    simp only [List.range, List.range.loop, List.map_cons, List.map_nil]
    rw [hb 0 (by omega), hb 1 (by omega), hb 2 (by omega), hb 3 (by omega), hb 4 (by omega), hb 5 (by omega), hb 6 (by omega), hb 7 (by omega)]
    decide
  unfold getTXNVCtrPrefix
  rw [this]
  decide +kernel

/-- **C27.** A prefix longer than an ID matches no node. -/
theorem C27_overlong_prefix (m : EE) (start : Nat) (pre : Bytes) (h : 8 < pre.length) : getNextMatchingNodeID m start pre = none := by
  unfold getNextMatchingNodeID
  split
  · rfl
  · first | rfl | rw [if_pos h]

/-- **C137.** The printed length is the decimal numeral; a printed byte is a space and the character itself if that is printable (below '~'),
else two hexadecimal digits. -/
theorem C137_format (n : Nat) (hn : n < 256) (b : Byte) :
    printDec n = (Nat.toDigits 10 n).map (fun c => u8 c.toNat) ∧
    rxByte b = (if 32 ≤ b.toNat ∧ b.toNat < 126 then [32, b] else
      (let d := (Nat.toDigits 16 b.toNat).map fun c => u8 c.toUpper.toNat; if d.length = 1 then 48 :: d else d)) := by
  constructor
  · have : ∀ n : Fin 256, printDec n.val = (Nat.toDigits 10 n.val).map (fun c => u8 c.toNat) := by decide +kernel
    exact this ⟨n, hn⟩
  · revert b; apply forall_byte; decide +kernel

/-- **C149.** Mains is reported exactly when the supply measures at least 3 V. -/
theorem C149_mains (s : Supply) : s.isMains = true ↔ 300 ≤ s.value := by simp [Supply.isMains]

theorem flushLoop_iff (endTime : Nat) (c : Byte) (ts : List FlushTick) :
    flushLoop endTime c ts = some true ↔ ∃ pre x post, ts = pre ++ x :: post ∧ (∀ y ∈ pre, y.1 ≤ endTime ∧ y.2 ≠ c) ∧ x.1 ≤ endTime ∧ x.2 = c := by
  induction ts with
  | nil => simp [flushLoop]
  | cons a t ih =>
    obtain ⟨now, b⟩ := a
    rw [flushLoop]
    constructor
    · intro h
      by_cases h1 : now ≤ endTime
      · rw [if_pos h1] at h
        by_cases h2 : b = c
        · exact ⟨[], (now, b), t, rfl, fun y hy => (List.not_mem_nil hy).elim, h1, h2⟩
        · rw [if_neg h2] at h
          obtain ⟨pre, x, post, e, hp, hx⟩ := ih.1 h
          refine ⟨(now, b) :: pre, x, post, by rw [e]; rfl, fun y hy => ?_, hx⟩
          rcases List.mem_cons.1 hy with rfl | hy
          · exact ⟨h1, h2⟩
          · exact hp y hy
      · rw [if_neg h1] at h; cases h
    · rintro ⟨pre, x, post, e, hp, hx1, hx2⟩
      cases pre with
      | nil =>
        cases e
        dsimp only at hx1 hx2
        rw [if_pos hx1, if_pos hx2]
      | cons p pre =>
        cases e
        have := hp (now, b) (by simp)
        dsimp only at this
        rw [if_pos this.1, if_neg this.2]
        exact ih.2 ⟨pre, x, post, rfl, fun y hy => hp y (by simp [hy]), hx1, hx2⟩

/-- **C132 (exactly when).** `sendRaw` sends the frame bytes and reports success exactly if the modem gives its prompt before the time is up. -/
theorem C132_sendRaw_iff (s : Sim) (m : Bytes) (start : Nat) (ts : List FlushTick) (hs : start ≤ 254) :
    (∃ s' outs, s.sendRaw m start ts = some (s', outs, true)) ↔
      ∃ pre x post, ts = pre ++ x :: post ∧ (∀ y ∈ pre, y.1 ≤ start + 1 ∧ y.2 ≠ 62) ∧ x.1 ≤ start + 1 ∧ x.2 = 62 := by
  have e := flushLoop_iff (start + 1) 62 ts
  rw [← e]
  unfold Sim.sendRaw flushUntil
  rw [show (start + 1) % 256 = start + 1 by omega]
  cases h : flushLoop (start + 1) 62 ts with
  | none => simp
  | some b => cases b <;> simp

/-- **C77.** A unit as configured by default puts group 100 first and, in a broadcast, its node number 5. -/
theorem C77_default_header (body spare : Bytes) (hb : body.length ≤ 250) (hs : 5 ≤ spare.length) :
    ∃ out, JL.default.encode (body ++ spare) body.length 0 false false false = .ok (out, body.length + 5) ∧ out[0]? = some 100 ∧ out[1]? = some 5 := by
  refine ⟨_, jl_encode_eq JL.default body spare 0 (by decide) false false false hb hs, ?_⟩
  unfold jlFrame
  exact ⟨rfl, rfl⟩

/-- **C17.** A valve frame that is sent has type byte 0xcf: 'O', secure. -/
theorem C17_type_byte (p outbuf : Bytes) (il valvePC : Byte) (s : TxSource) (e : EncFn) (scratch : Nat) (key : Option Bytes) (n : Nat) (h : Hdr) (out : Bytes)
    (hel : EncLen e) (he : encodeValveFrame (some p) outbuf il valvePC s e scratch key = .ok (n, h, out)) : out[1]? = some 0xcf := by
  unfold encodeValveFrame at he
  rw [failIf_eq_ok] at he
  obtain ⟨_, he⟩ := he
  split at he
  · simp at he
  simp only [rd_eq_ok] at he
  obtain ⟨h2, he⟩ := he
  split at he
  · simp at he
  simp only [failIf_eq_ok, wrBlock_eq_ok, List.take_zero, List.nil_append, List.length_cons, List.length_nil,
    Nat.zero_add, Nat.reduceAdd] at he
  obtain ⟨hlen, hp2, hil, he⟩ := he
  obtain ⟨k, hb, ct, tag, hiv, hkk, h31, heh, hhl, h4, hfl, hbl, hmax, hltb, hn, hpb, hciph, htag, hct, hout⟩ := encodeRaw_ok hel he
  obtain ⟨idb, t1, t2, hil8, hidc, hbuf, tl1, tl2, hfl2, hh', hhb⟩ := encodeHeader_ok.mp heh
  rw [hout, hhb]
  have : typeByte true FTS_BasicSensorOrValve = 0xcf := by decide
  simp [this]

/-- **C55.** The temperatures of the built-in parameter sets for rooms: FROST 6C (14C when comfort is wanted or the air is humid), WARM 17C
(or 16C) to 21C (or 22C), 18C unless set; the dial goes one degree further either way; BAKE adds 10C; setbacks 1C, 3C and 6C. -/
theorem C55_builtin :
    vcpDefault = ⟨6, 14, 17, 21, 18, 16, 19, 22, 10, 1, 3, 6⟩ ∧ vcpProposed = ⟨6, 14, 16, 22, 18, 15, 19, 23, 10, 1, 3, 6⟩ := by
  decide +kernel

/-- A driver about to send its last sync command: it is not in sync, has all sync commands but the last behind it, and that is due. -/
structure SyncEnding (s : FHT8V.Drv) : Prop where
  synced : s.synced = false
  avail : s.isAvailable = true
  state : s.syncState = 1
  due : 1 ≤ s.hsNext ∧ s.hsNext < 256

theorem syncEnding_doSync (c : FHT8V.Cfg) (hc : c.maxHSC ≤ 3) (s : FHT8V.Drv) (hs : SyncEnding s) (rnd : Byte) (hk : s.hsc ≤ c.maxHSC) :
    (s.hsNext = 1 ∧ (s.doSync c rnd).1 = false ∧ (s.doSync c rnd).2.1.synced = true ∧
      (c.maxHSC + 1) + ((s.doSync c rnd).2.1.hsNext - 1) = s.hsc + (230 + s.hc2.toNat % 8) ∧ ∃ f, (s.doSync c rnd).2.2 = [f]) ∨
    (s.hsNext ≠ 1 ∧ s.doSync c rnd = (true, { s with hsNext := s.hsNext - 1 }, []) ∧ SyncEnding { s with hsNext := s.hsNext - 1 }) := by
  obtain ⟨h1, h2, h3, h4, h5⟩ := hs
  unfold FHT8V.Drv.doSync
  rw [if_neg (by rw [h2]; simp), if_neg (by omega)]
  dsimp only
  rw [if_neg (by omega : ¬ s.syncState = 0), if_neg (by omega : ¬ s.syncState ≥ 2)]
  have hd : FHT8V.dec8 s.hsNext = s.hsNext - 1 := by unfold FHT8V.dec8; omega
  rw [hd]
  by_cases h : s.hsNext = 1
  · left
    rw [if_pos (by omega)]
    refine ⟨h, rfl, rfl, ?_, ?_⟩
    · show c.maxHSC + 1 + (s.hc2.toNat % 8 + 230 - (c.maxHSC - s.hsc) - 1) = _
      omega
    · have hr : s.radio = true := by
        unfold FHT8V.Drv.isAvailable at h2
        simp only [Bool.and_eq_true] at h2
        exact h2.1
      refine ⟨FHT8V.createBody ⟨s.hc1, s.hc2, 0, 0x20, 0⟩, ?_⟩
      · unfold FHT8V.Drv.tx
        dsimp only
        rw [if_neg (body_ne_nil _), if_pos hr]
  · right
    rw [if_neg (by omega)]
    exact ⟨h, rfl, ⟨h1, h2, h3, by dsimp only; omega⟩⟩

theorem syncEnding_nexts (c : FHT8V.Cfg) (hc : c.maxHSC ≤ 3) (rnd : Nat → Byte) (k : Nat) (f : Bytes) : ∀ (j : Nat) (s : FHT8V.Drv), SyncEnding s → s.hsc + j = c.maxHSC →
    (k, f) ∈ (FHT8V.Drv.nexts c rnd j s).2 →
    (FHT8V.Drv.nexts c rnd j s).2 = [(k, f)] ∧ (FHT8V.Drv.nexts c rnd j s).1.synced = true ∧
    (c.maxHSC + 1) + ((FHT8V.Drv.nexts c rnd j s).1.hsNext - 1) = k + (230 + s.hc2.toNat % 8) := by
  intro j
  induction j with
  | zero => intro s _ _ h; exact (List.not_mem_nil h).elim
  | succ j ih =>
    intro s hs hj h
    have hs' : SyncEnding { s with hsc := s.hsc + 1 } := ⟨hs.synced, hs.avail, hs.state, hs.due⟩
    have e : s.pollNext c (rnd (s.hsc + 1)) = FHT8V.Drv.doSync c { s with hsc := s.hsc + 1 } (rnd (s.hsc + 1)) := by
      unfold FHT8V.Drv.pollNext
      simp [hs.synced]
    rw [FHT8V.Drv.nexts] at h ⊢
    dsimp only at h ⊢
    rw [e] at h ⊢
    rcases syncEnding_doSync c hc { s with hsc := s.hsc + 1 } hs' (rnd (s.hsc + 1)) (by dsimp only; omega) with ⟨_, h1, h2, h3, g, h4⟩ | ⟨_, h1, h2⟩
    · rw [h1, h4] at h ⊢
      simp only [Bool.false_eq_true, if_false, List.map_cons, List.map_nil, List.mem_singleton, Prod.mk.injEq] at h ⊢
      refine ⟨by rw [h.1, h.2], h2, ?_⟩
      rw [h.1]; exact h3
    · rw [h1] at h ⊢
      simp only [if_true, List.map_nil, List.nil_append] at h ⊢
      exact ih _ h2 (by dsimp only; omega) h

/-- **C91.** From sync to the first setting: if the last sync command goes out in a minor cycle, at half second `k` of it, that is the only
transmission in that cycle, the driver is then in sync, and its first transmission of the setting (C91) comes exactly one FHT8V interval
after that command. -/
theorem C91_first_after_sync (c : FHT8V.Cfg) (hc : c.maxHSC = 1 ∨ c.maxHSC = 3) (s : FHT8V.Drv) (hs : SyncEnding s) (rnd : Nat → Byte) (k : Nat) (f : Bytes)
    (h : (k, f) ∈ (s.cycle c rnd).2) :
    (s.cycle c rnd).2 = [(k, f)] ∧ (s.cycle c rnd).1.synced = true ∧
    (c.maxHSC + 1) + ((s.cycle c rnd).1.hsNext - 1) = k + (230 + s.hc2.toNat % 8) := by
  have hc3 : c.maxHSC ≤ 3 := by omega
  have hs' : SyncEnding { s with hsc := 0 } := ⟨hs.synced, hs.avail, hs.state, hs.due⟩
  have e : s.pollFirst c (rnd 0) = FHT8V.Drv.doSync c { s with hsc := 0 } (rnd 0) := by
    unfold FHT8V.Drv.pollFirst
    simp [hs.synced]
  unfold FHT8V.Drv.cycle at h ⊢
  dsimp only at h ⊢
  rw [e] at h ⊢
  rcases syncEnding_doSync c hc3 { s with hsc := 0 } hs' (rnd 0) (Nat.zero_le _) with ⟨_, h1, h2, h3, g, h4⟩ | ⟨_, h1, h2⟩
  · rw [h1, h4] at h ⊢
    simp only [Bool.false_eq_true, if_false, List.map_cons, List.map_nil, List.mem_singleton, Prod.mk.injEq] at h ⊢
    refine ⟨by rw [h.1, h.2], h2, ?_⟩
    rw [h.1]; exact h3
  · rw [h1] at h ⊢
    simp only [if_true, List.map_nil, List.nil_append] at h ⊢
    exact syncEnding_nexts c hc3 rnd k f _ _ h2 (by dsimp only; omega) h

/-- Such a state (with an invalid house code, as C93 has it), sending at half second 2 of the cycle; the next is due 232 half seconds later. -/
example : SyncEnding ⟨0xff, 74, true, 1, 3, 0, false, false, 50, []⟩ := ⟨rfl, by decide, rfl, by decide, by decide⟩
example : ((FHT8V.Drv.mk 0xff 74 true 1 3 0 false false 50 []).cycle ⟨3, []⟩ (fun _ => 0)).2.map Prod.fst = [2] ∧
    ((FHT8V.Drv.mk 0xff 74 true 1 3 0 false false 50 []).cycle ⟨3, []⟩ (fun _ => 0)).1.hsNext = 231 := by decide +kernel

/-- **C142.** The random boolean is bit 3 of the next random byte. -/
theorem C142_next_bool (s : Rng) : s.nextBool.1 = s.rand.1.toNat.testBit 3 ∧ s.nextBool.2 = s.rand.2 := by
  refine ⟨?_, rfl⟩
  unfold Rng.nextBool
  dsimp only
  generalize s.rand.1 = b
  revert b
  apply forall_byte
  decide +kernel

/-- **C116.** While the usual range of light levels is not known, light means 16 and dark means 12 or less. -/
theorem C116_default_thresholds (s : Light) (mean mn mx : Nat) (sens : Bool) (h : mn = 255 ∨ mx = 255) :
    (s.recompute mean mn mx sens).lightThr = 16 ∧ (s.recompute mean mn mx sens).darkThr = 12 := by
  unfold Light.recompute
  rw [if_pos h]
  exact ⟨rfl, rfl⟩

end Props
end OTR
