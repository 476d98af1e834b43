import Verif.Proof.TxCounter
/-!
# Properties C20-C22: transmit message counter
-/

namespace OTR.Props
open OTR

/-! ## Specification: what the EEPROM holds, independently of the readers

A *copy* of a 3-byte prefix `b` at address `a` is the three bytes and their CRC-8, all stored inverted. -/

/-- Prefix `b` is stored, with its CRC, at address `a`. -/
def HoldsCopy (m : EE) (a : Nat) (b : Bytes) : Prop :=
  ∀ i, i < 4 → some (~~~ m (a + i)) = (b ++ [crcPrefix b])[i]?

/-- Both copies hold `b`. -/
def BothCopies (m : EE) (b : Bytes) : Prop := b.length = 3 ∧ HoldsCopy m 104 b ∧ HoldsCopy m 108 b

theorem not_eq_xor (b : Byte) : ~~~b = b ^^^ 0xff := by revert b; apply forall_byte; decide +kernel

theorem bothCopies_iff {m : EE} {b : Bytes} : BothCopies m b ↔ b.length = 3 ∧ Synced m b := by
  constructor
  · rintro ⟨h3, h1, h2⟩
    refine ⟨h3, ?_⟩
    obtain ⟨x, y, z, rfl⟩ := len3 h3
    apply List.ext_getElem?
    intro i
    rw [image3]
    by_cases h8 : i < 8
    · rw [loadRaw_get _ _ h8, ← not_eq_xor]
      have a0 := h1 0 (by omega); have a1 := h1 1 (by omega); have a2 := h1 2 (by omega); have a3 := h1 3 (by omega)
      have c0 := h2 0 (by omega); have c1 := h2 1 (by omega); have c2 := h2 2 (by omega); have c3 := h2 3 (by omega)
      have hi : i = 0 ∨ i = 1 ∨ i = 2 ∨ i = 3 ∨ i = 4 ∨ i = 5 ∨ i = 6 ∨ i = 7 := by omega
      rcases hi with h | h | h | h | h | h | h | h <;> subst h
      · exact a0
      · exact a1
      · exact a2
      · exact a3
      · exact c0
      · exact c1
      · exact c2
      · exact c3
    · rw [List.getElem?_eq_none (by rw [loadRaw_length]; omega), List.getElem?_eq_none (by simp; omega)]
  · rintro ⟨h3, hs⟩
    refine ⟨h3, ?_, ?_⟩
    · intro i hi
      have := loadRaw_get m i (by omega)
      rw [hs] at this
      rw [not_eq_xor, ← this]
      obtain ⟨x, y, z, rfl⟩ := len3 h3
      rw [image3]
      have hi' : i = 0 ∨ i = 1 ∨ i = 2 ∨ i = 3 := by omega
      rcases hi' with h | h | h | h <;> subst h <;> rfl
    · intro i hi
      have := loadRaw_get m (4 + i) (by omega)
      rw [hs] at this
      rw [not_eq_xor, show 108 + i = 104 + (4 + i) by omega, ← this]
      obtain ⟨x, y, z, rfl⟩ := len3 h3
      rw [image3]
      have hi' : i = 0 ∨ i = 1 ∨ i = 2 ∨ i = 3 := by omega
      rcases hi' with h | h | h | h <;> subst h <;> rfl

/-- The reader returns what both copies hold (except the reserved end value ff ff ff). -/
theorem read_bothCopies {m : EE} {b : Bytes} (h : BothCopies m b) (hf : b ≠ [0xff, 0xff, 0xff]) :
    getTXNVCtrPrefix m = some b := by
  rw [bothCopies_iff] at h
  rw [synced_read h.1 h.2, if_neg hf]

/-- Erased EEPROM (all 0xff) holds prefix zero in both copies, so every theorem below covers a new device. -/
theorem erased_holds_zero : BothCopies (fun _ => 0xff) [0, 0, 0] := by
  refine ⟨rfl, ?_, ?_⟩ <;> (intro i hi; have hi' : i = 0 ∨ i = 1 ∨ i = 2 ∨ i = 3 := by omega) <;>
    rcases hi' with h | h | h | h <;> subst h <;> decide +kernel

/-! ## C22 -/

/-- **C22a.** Both copies hold `b` (not the end value). Power fails after any number `k` of the byte writes of
`incrementTXNVCtrPrefix`. Then the prefix reads back as `b` or as `b+1`; the sole exception is when `b+1` is the
reserved end value ff ff ff, when it may also be unreadable (as it is after the completed update). -/
theorem C22_tx_crash (m : EE) (b : Bytes) (hb : BothCopies m b) (hf : b ≠ [0xff, 0xff, 0xff]) (k : Nat) :
    let m' := applyW m ((incrementTXNVCtrPrefix m).2.take k)
    (∃ q, getTXNVCtrPrefix m' = some q ∧ (beVal q = beVal b ∨ beVal q = beVal b + 1)) ∨
    (beVal b + 1 = 0xffffff ∧ getTXNVCtrPrefix m' = none) := by
  intro m'
  have hr := read_bothCopies hb hf
  rw [bothCopies_iff] at hb
  have hinc := inc3_spec hb.1
  have hnf : (inc3 b).2 = false := by
    rw [← Bool.not_eq_true]; intro hh; exact hf (hinc.2.1.1 hh)
  have hv := hinc.2.2.1 hnf
  have hm' : m' = applyW m ((incrementTXNVCtrPrefix m).2.take k) := rfl
  rw [increment_eq, hr] at hm'
  simp only at hm'
  obtain ⟨j, hj, he⟩ := smartSeq_prefix m (wlist 104 (image (inc3 b).1)) k
  rw [he] at hm'
  rw [wlist_length, image_length hinc.1] at hj
  rcases crash_read hb.1 hb.2 hf j hj with h | h | ⟨h1, h2⟩
  · left; exact ⟨b, by rw [hm']; exact h, Or.inl rfl⟩
  · left; exact ⟨_, by rw [hm']; exact h, Or.inr hv⟩
  · right
    refine ⟨?_, by rw [hm']; exact h2⟩
    rw [← hv, h1]; decide

/-- **C22b.** Whatever state the EEPROM is in, if the prefix is readable as `q` then the next update succeeds and leaves
both copies holding `q+1`. So after the power failure of C22a further updates work. -/
theorem C22_update_works (m : EE) (q : Bytes) (h : getTXNVCtrPrefix m = some q) :
    (incrementTXNVCtrPrefix m).1 = true ∧
    ∃ q', BothCopies (incrementTXNVCtrPrefix.post m) q' ∧ beVal q' = beVal q + 1 := by
  obtain ⟨h3, hf⟩ := getPrefix_some h
  have hinc := inc3_spec h3
  have hnf : (inc3 q).2 = false := by
    rw [← Bool.not_eq_true]; intro hh; exact hf (hinc.2.1.1 hh)
  rw [EM.post, increment_eq, h]
  refine ⟨rfl, (inc3 q).1, ?_, hinc.2.2.1 hnf⟩
  rw [bothCopies_iff]
  refine ⟨hinc.1, ?_⟩
  simp only
  rw [applyW_smartSeq]
  exact synced_after_save _ _ hinc.1

theorem endval {a b c a' b' c' : Nat} (h : (a' * 256 + b') * 256 + c' = (a * 256 + b) * 256 + c + 1)
    (ha : a' = 255) (hb : b' = 255) (hc : c' = 255) : (a * 256 + b) * 256 + c + 1 = 16777215 := by
  rw [← h, ha, hb, hc]

/-- **C22c (torn write).** As C22a, but the byte being written when power failed holds anything at all: the prefix
reads back as no less than `b` (or, at the very end of its range, not at all) - never smaller. -/
theorem C22_tx_torn (m : EE) (b : Bytes) (hb : BothCopies m b) (hf : b ≠ [0xff, 0xff, 0xff]) (k : Nat) (w : Wr)
    (hw : (incrementTXNVCtrPrefix m).2[k]? = some w) (garbage : Byte) :
    let m' := (applyW m ((incrementTXNVCtrPrefix m).2.take k)).upd w.1 garbage
    (∃ q, getTXNVCtrPrefix m' = some q ∧ beVal b ≤ beVal q) ∨
    (beVal b + 1 = 0xffffff ∧ getTXNVCtrPrefix m' = none) := by
  intro m'
  have hr := read_bothCopies hb hf
  rw [bothCopies_iff] at hb
  have hinc := inc3_spec hb.1
  have hnf : (inc3 b).2 = false := by
    rw [← Bool.not_eq_true]; intro hh; exact hf (hinc.2.1.1 hh)
  have hv := hinc.2.2.1 hnf
  have hm' : m' = (applyW m ((incrementTXNVCtrPrefix m).2.take k)).upd w.1 garbage := rfl
  rw [increment_eq, hr] at hm' hw
  simp only at hm' hw
  obtain ⟨j, hjw, he⟩ := smartSeq_torn m (wlist 104 (image (inc3 b).1)) k w hw
  obtain ⟨hwa, hj⟩ := wlist_get _ _ _ _ hjw
  rw [image_length hinc.1] at hj
  rw [he, hwa, wlist_take] at hm'
  have hload : loadRaw m' = ((image (inc3 b).1).take j ++ (image b).drop j).set j (garbage ^^^ 0xff) := by
    rw [hm', loadRaw_upd, loadRaw_saved m _ (image_length hinc.1) j (by omega), hb.2]
  rw [getTXNVCtrPrefix, hload]
  generalize garbage ^^^ 0xff = X
  obtain ⟨x, y, z, rfl⟩ := len3 hb.1
  have hxyz : ¬ (x = 0xff ∧ y = 0xff ∧ z = 0xff) := by
    rintro ⟨rfl, rfl, rfl⟩; exact hf rfl
  have hsec : readOne [x, y, z, crc8 (crc8 (crc8 0 x) y) z] = some [x, y, z] := by
    rw [readOne4, if_pos ⟨rfl, hxyz⟩]
  obtain ⟨x', y', z', hn⟩ := len3 hinc.1
  rw [hn] at hv
  have lx := byte_lt x; have ly := byte_lt y; have lz := byte_lt z
  have lx' := byte_lt x'; have ly' := byte_lt y'; have lz' := byte_lt z'
  have hvv := hv
  rw [beVal3, beVal3] at hvv
  rw [hn, image3, image3]
  unfold read3
  have hcase : j = 0 ∨ j = 1 ∨ j = 2 ∨ j = 3 ∨ j = 4 ∨ j = 5 ∨ j = 6 ∨ j = 7 := by omega
  rcases hcase with h | h | h | h | h | h | h | h <;> subst h <;>
    simp only [List.take_succ_cons, List.take_zero, List.drop_succ_cons, List.drop_zero, List.cons_append,
      List.nil_append, List.set_cons_zero, List.set_cons_succ]
  · left
    rw [hsec, readOne4]
    by_cases hc : crc8 (crc8 (crc8 0 X) y) z = crc8 (crc8 (crc8 0 x) y) z ∧ ¬(X = 255 ∧ y = 255 ∧ z = 255)
    · have := crc8_inj_right (crc8_inj_left (crc8_inj_left hc.1))
      rw [if_pos hc, this]; exact ⟨_, rfl, Nat.le_refl _⟩
    · rw [if_neg hc]; exact ⟨_, rfl, Nat.le_refl _⟩
  · left
    rw [hsec, readOne4]
    by_cases hc : crc8 (crc8 (crc8 0 x') X) z = crc8 (crc8 (crc8 0 x) y) z ∧ ¬(x' = 255 ∧ X = 255 ∧ z = 255)
    · rw [if_pos hc]
      refine ⟨_, rfl, ?_⟩
      by_cases hx : x' = x
      · have hcc := hc.1
        rw [hx] at hcc
        have := crc8_inj_right (crc8_inj_left hcc)
        rw [hx, this]; exact Nat.le_refl _
      · have hx' : x'.toNat ≠ x.toNat := fun hh => hx (byte_ext hh)
        have lX := byte_lt X
        rw [beVal3, beVal3]; omega
    · rw [if_neg hc]; exact ⟨_, rfl, Nat.le_refl _⟩
  · left
    rw [hsec, readOne4]
    by_cases hc : crc8 (crc8 (crc8 0 x') y') X = crc8 (crc8 (crc8 0 x) y) z ∧ ¬(x' = 255 ∧ y' = 255 ∧ X = 255)
    · rw [if_pos hc]
      refine ⟨_, rfl, ?_⟩
      by_cases hx : x' = x ∧ y' = y
      · have hcc := hc.1
        rw [hx.1, hx.2] at hcc
        have := crc8_inj_right hcc
        rw [hx.1, hx.2, this]; exact Nat.le_refl _
      · have hx' : ¬ (x'.toNat = x.toNat ∧ y'.toNat = y.toNat) :=
          fun hh => hx ⟨byte_ext hh.1, byte_ext hh.2⟩
        have lX := byte_lt X
        rw [beVal3, beVal3]; omega
    · rw [if_neg hc]; exact ⟨_, rfl, Nat.le_refl _⟩
  · left
    rw [hsec, readOne4]
    by_cases hc : crc8 (crc8 (crc8 0 x') y') z' = X ∧ ¬(x' = 255 ∧ y' = 255 ∧ z' = 255)
    · rw [if_pos hc]; exact ⟨_, rfl, by omega⟩
    · rw [if_neg hc]; exact ⟨_, rfl, Nat.le_refl _⟩
  all_goals
    rw [readOne4]
    by_cases hn' : x' = 0xff ∧ y' = 0xff ∧ z' = 0xff
    case neg => left; rw [if_pos ⟨rfl, hn'⟩]; exact ⟨_, rfl, by omega⟩
    rw [if_neg (fun hh => hh.2 hn')]
    have e255 : (255 : Byte).toNat = 255 := by decide
    have hx' := congrArg UInt8.toNat hn'.1
    have hy' := congrArg UInt8.toNat hn'.2.1
    have hz' := congrArg UInt8.toNat hn'.2.2
    rw [e255] at hx' hy' hz'
    have hx : x' = x := byte_ext (by omega)
    have hy : y' = y := byte_ext (by omega)
    have hend : beVal [x, y, z] + 1 = 0xffffff := by rw [beVal3]; exact endval hvv hx' hy' hz'
    simp only [hx, hy]
    rw [readOne4]
  · by_cases hc : crc8 (crc8 (crc8 0 X) y) z = crc8 (crc8 (crc8 0 x) y) z ∧ ¬(X = 255 ∧ y = 255 ∧ z = 255)
    · have := crc8_inj_right (crc8_inj_left (crc8_inj_left hc.1))
      left; rw [if_pos hc, this]; exact ⟨_, rfl, Nat.le_refl _⟩
    · right; rw [if_neg hc]; exact ⟨hend, rfl⟩
  · by_cases hc : crc8 (crc8 (crc8 0 x) X) z = crc8 (crc8 (crc8 0 x) y) z ∧ ¬(x = 255 ∧ X = 255 ∧ z = 255)
    · have := crc8_inj_right (crc8_inj_left hc.1)
      left; rw [if_pos hc, this]; exact ⟨_, rfl, Nat.le_refl _⟩
    · right; rw [if_neg hc]; exact ⟨hend, rfl⟩
  · by_cases hc : crc8 (crc8 (crc8 0 x) y) X = crc8 (crc8 (crc8 0 x) y) z ∧ ¬(x = 255 ∧ y = 255 ∧ X = 255)
    · have := crc8_inj_right hc.1
      left; rw [if_pos hc, this]; exact ⟨_, rfl, Nat.le_refl _⟩
    · right; rw [if_neg hc]; exact ⟨hend, rfl⟩
  · right
    rw [if_neg (fun hh => hh.2 ⟨hx ▸ hn'.1, hy ▸ hn'.2.1, hn'.2.2⟩)]
    exact ⟨hend, rfl⟩

/-- Non-vacuity: 00 01 ff held in both copies; the update performs 5 writes or more (CRCs and carries change). -/
def exTx : EE := applyW (fun _ => 0xff) (wlist 104 (image [0, 1, 0xff]))
example : BothCopies exTx [0, 1, 0xff] ∧ (incrementTXNVCtrPrefix exTx).2.length = 6 := by
  refine ⟨bothCopies_iff.2 ⟨rfl, synced_after_save _ _ rfl⟩, by decide +kernel⟩

/-! ## C20, C21: histories -/

/-- What can happen to a transmitter. -/
inductive TxEvent where
  /-- `getNextTXMsgCtr()` runs to completion with these random bytes. -/
  | call (r r' : Bytes)
  /-- Restart (power cycle) between calls. -/
  | restart
  /-- Power fails after `k` EEPROM byte writes of a `getNextTXMsgCtr()` call, then restart. -/
  | crash (r r' : Bytes) (k : Nat)

/-- Device: EEPROM and the static RAM variables. -/
structure TxDev where
  ee : EE
  ram : TxRam

/-- Effect of one event and the counter handed out, if any. -/
def TxDev.step (d : TxDev) : TxEvent → TxDev × Option Bytes
  | .call r r' =>
    let x := getNextTXMsgCtr d.ram r r' d.ee
    (⟨applyW d.ee x.2, x.1.2⟩, x.1.1)
  | .restart => (⟨d.ee, .boot⟩, none)
  | .crash r r' k => (⟨applyW d.ee ((getNextTXMsgCtr d.ram r r' d.ee).2.take k), .boot⟩, none)

/-- The counters handed out over a history, in order. -/
def TxDev.issued (d : TxDev) : List TxEvent → List Bytes
  | [] => []
  | ev :: t => (d.step ev).2.toList ++ (d.step ev).1.issued t

/-- Power failures in the middle of a call are separated by at least one completed call.
The flag says whether a crash may come now. -/
def CrashSpaced : Bool → List TxEvent → Prop
  | _, [] => True
  | _, .call _ _ :: t => CrashSpaced true t
  | f, .restart :: t => CrashSpaced f t
  | f, .crash _ _ _ :: t => f = true ∧ CrashSpaced false t

theorem noise_spec (r : Bytes) : (noise r).length = 3 ∧ noise r ≠ [0, 0, 0] ∧ noise r ≠ [0xff, 0xff, 0xff] := by
  unfold noise
  simp only
  generalize (r[1]?.getD 0 : Byte) = n1
  generalize (r[2]?.getD 0 : Byte) = n2
  have h15 : ∀ x : Byte, ((0xf : Byte) &&& (x ^^^ (x >>> 4))) ≠ 0xff := by
    apply forall_byte; decide +kernel
  have hn := h15 (r[0]?.getD 0)
  generalize ((0xf : Byte) &&& ((r[0]?.getD 0) ^^^ ((r[0]?.getD 0) >>> 4))) = n0 at *
  have hor : ∀ x : Byte, (x ||| 1) ≠ 0 := by apply forall_byte; decide +kernel
  refine ⟨rfl, ?_, ?_⟩
  · intro h
    simp only [List.cons.injEq, and_true] at h
    obtain ⟨h0, h1, h2⟩ := h
    rw [if_pos ⟨h1, h0⟩] at h2
    exact hor _ h2
  · intro h
    simp only [List.cons.injEq] at h
    exact hn h.1

theorem tmpE_spec (r : Bytes) : (tmpE r).length = 3 ∧ tmpE r ≠ [0xff, 0xff, 0xff] := by
  unfold tmpE
  refine ⟨rfl, ?_⟩
  intro h
  simp only [List.cons.injEq] at h
  have h15 : ∀ x : Byte, ((0xf : Byte) &&& (x ^^^ (x >>> 4))) ≠ 0xff := by
    apply forall_byte; decide +kernel
  exact h15 _ h.1

/-- The last part of a call: advance the persistent prefix if asked, then read it. -/
def lastPart (inc : Bool) (e1 : Bytes) (ram2 : TxRam) : EM (Option Bytes × TxRam) := fun m =>
  if inc then
    match getTXNVCtrPrefix m with
    | none => ((none, ram2), [])
    | some p =>
      ((match getTXNVCtrPrefix (applyW m (wlist 104 (image (inc3 p).1))) with
        | none => none
        | some q => some (q ++ e1), ram2), smartSeq m (wlist 104 (image (inc3 p).1)))
  else (((getTXNVCtrPrefix m).map (· ++ e1), ram2), [])

/-- `getNextTXMsgCtr` by cases. -/
theorem next_eq (ram : TxRam) (r r' : Bytes) (m : EE) : getNextTXMsgCtr ram r r' m =
    if ram.initialised = false then
      match getTXNVCtrPrefix m with
      | none => ((none, ⟨true, ram.ephemeral⟩), [])
      | some p =>
        if p = [0, 0, 0] then
          let ws := smartSeq m (wlist 104 (image (noise r)))
          let x := lastPart false (inc3 (tmpE r')).1 ⟨true, (inc3 (tmpE r')).1⟩ (applyW m (wlist 104 (image (noise r))))
          (x.1, ws ++ x.2)
        else lastPart true (inc3 (tmpE r')).1 ⟨true, (inc3 (tmpE r')).1⟩ m
    else lastPart (inc3 ram.ephemeral).2 (inc3 ram.ephemeral).1 ⟨true, (inc3 ram.ephemeral).1⟩ m := by
  have hfin : ∀ (inc : Bool) (e1 : Bytes) (ram2 : TxRam) (m : EE),
      (if inc = true then
        emBind incrementTXNVCtrPrefix (fun ok => emIf (ok = false) (emRet (none, ram2))
          (fun m => match getTXNVCtrPrefix m with
            | none => ((none, ram2), [])
            | some p => ((some (p ++ e1), ram2), [])))
      else (fun m => match getTXNVCtrPrefix m with
            | none => ((none, ram2), [])
            | some p => ((some (p ++ e1), ram2), []))) m = lastPart inc e1 ram2 m := by
    intro inc e1 ram2 m
    unfold lastPart
    cases inc with
    | false =>
      simp only [Bool.false_eq_true, if_false]
      cases getTXNVCtrPrefix m <;> rfl
    | true =>
      simp only [if_true, emBind, emIf]
      rw [increment_eq]
      cases h : getTXNVCtrPrefix m with
      | none => simp [emRet]
      | some p =>
        simp only [Bool.true_eq_false, if_false, applyW_smartSeq]
        cases getTXNVCtrPrefix (applyW m (wlist 104 (image (inc3 p).1))) <;> simp
  unfold getNextTXMsgCtr
  simp only
  cases hi : ram.initialised with
  | true =>
    simp only [Bool.not_true, Bool.false_eq_true, if_false, Bool.false_or, Bool.true_eq_false]
    exact hfin (inc3 ram.ephemeral).2 _ _ m
  | false =>
    have hw : (inc3 (tmpE r')).2 = false := by
      rw [← Bool.not_eq_true]
      intro hh; exact (tmpE_spec r').2 ((inc3_spec (tmpE_spec r').1).2.1.1 hh)
    simp only [Bool.not_false, if_true]
    cases hp : getTXNVCtrPrefix m with
    | none => rfl
    | some p =>
      simp only
      by_cases h0 : p = [0, 0, 0]
      · rw [if_pos h0, if_pos h0]
        simp only [emBind, emIf, resetRaw, Bool.false_eq_true, if_false]
        rw [show saveRaw (image (noise r)) m = (true, smartSeq m (wlist 104 (image (noise r)))) from saveFrom_eq _ _ _]
        simp only [emRet, List.append_nil, Bool.true_eq_false, if_false, applyW_smartSeq, Bool.false_or, hw]
        have := hfin false (inc3 (tmpE r')).1 ⟨true, (inc3 (tmpE r')).1⟩ (applyW m (wlist 104 (image (noise r))))
        simp only [Bool.false_eq_true, if_false] at this
        rw [← this]
        simp only [Bool.false_eq_true, if_false]
        rfl
      · rw [if_neg h0, if_neg h0]
        have := hfin true (inc3 (tmpE r')).1 ⟨true, (inc3 (tmpE r')).1⟩ m
        simp only [if_true] at this
        simp only [Bool.true_or, if_true]
        exact this

theorem beVal_prefix3 (p e : Bytes) (he : e.length = 3) : beVal (p ++ e) = beVal p * 2 ^ 24 + beVal e := by
  induction p with
  | nil => simp [beVal]
  | cons a t ih =>
    rw [List.cons_append, beVal_cons, beVal_cons, ih, List.length_append, he, Nat.pow_add, Nat.add_mul,
      ← Nat.mul_assoc]
    have : (256 : Nat) ^ 3 = 2 ^ 24 := by decide
    rw [this]; omega

theorem beVal3_lt {e : Bytes} (h : e.length = 3) : beVal e < 2 ^ 24 := by
  have := beVal_lt e
  rw [h] at this
  have h2 : (256 : Nat) ^ 3 = 2 ^ 24 := by decide
  omega

/-- Invariant: every counter handed out so far is below `hi`. -/
def TxInv (d : TxDev) (hi : Nat) (allowed : Bool) : Prop :=
  d.ram.ephemeral.length = 3 ∧
  (getTXNVCtrPrefix d.ee = none ∨
   (d.ram.initialised = false ∧ ∃ q, getTXNVCtrPrefix d.ee = some q ∧ (q = [0, 0, 0] → hi = 0) ∧
      hi ≤ (beVal q + 1) * 2 ^ 24 ∧ (allowed = true → Synced d.ee q)) ∨
   (d.ram.initialised = true ∧ ∃ q, getTXNVCtrPrefix d.ee = some q ∧ q ≠ [0, 0, 0] ∧ Synced d.ee q ∧
      hi ≤ beVal q * 2 ^ 24 + beVal d.ram.ephemeral + 1))

theorem beVal_zero3 {q : Bytes} (h : q.length = 3) : beVal q = 0 ↔ q = [0, 0, 0] := by
  constructor
  · intro h0
    exact beVal_inj (by simp [h]) (by rw [h0]; decide)
  · rintro rfl; decide

/-- A completed call: any counter handed out is at least `hi`, and the invariant is restored above it. -/
theorem inv_call {d : TxDev} {hi : Nat} {allowed : Bool} (h : TxInv d hi allowed) (r r' : Bytes) :
    (∀ c, (d.step (.call r r')).2 = some c → hi ≤ beVal c ∧ TxInv (d.step (.call r r')).1 (beVal c + 1) true) ∧
    ((d.step (.call r r')).2 = none → TxInv (d.step (.call r r')).1 hi true) := by
  obtain ⟨he, hs⟩ := h
  have htm := tmpE_spec r'
  have hti := inc3_spec htm.1
  have htw : (inc3 (tmpE r')).2 = false := by
    rw [← Bool.not_eq_true]; intro hh; exact htm.2 (hti.2.1.1 hh)
  have hei := inc3_spec he
  simp only [TxDev.step]
  rw [next_eq]
  rcases hs with hs | ⟨hini, q, hq, hq0, hhi, hsy⟩ | ⟨hini, q, hq, hq0, hsy, hhi⟩
  · -- unreadable
    by_cases hini : d.ram.initialised = false
    · rw [if_pos hini, hs]
      simp only [applyW_nil, reduceCtorEq, false_implies, implies_true, true_and]
      intro _; exact ⟨he, Or.inl hs⟩
    · rw [if_neg hini]
      unfold lastPart
      rw [hs]
      cases (inc3 d.ram.ephemeral).2 <;>
        simp only [Bool.false_eq_true, if_false, if_true, Option.map_none, applyW_nil, reduceCtorEq, false_implies,
          implies_true, true_and] <;>
        exact fun _ => ⟨hei.1, Or.inl hs⟩
  · -- first call after a restart
    rw [if_pos hini, hq]
    simp only
    obtain ⟨hq3, hqf⟩ := getPrefix_some hq
    by_cases h0 : q = [0, 0, 0]
    · rw [if_pos h0]
      have hn := noise_spec r
      have hsync := synced_after_save d.ee (noise r) hn.1
      have hrd := synced_read hn.1 hsync
      rw [if_neg hn.2.2] at hrd
      simp only [lastPart, Bool.false_eq_true, if_false, List.append_nil, applyW_smartSeq, hrd, Option.map_some,
        Option.some.injEq, reduceCtorEq, false_implies, and_true]
      intro c hc
      have hhi0 := hq0 h0
      refine ⟨by omega, hti.1, Or.inr (Or.inr ⟨rfl, noise r, hrd, hn.2.1, hsync, ?_⟩)⟩
      rw [← hc, beVal_prefix3 _ _ hti.1]; simp only; omega
    · rw [if_neg h0]
      simp only [lastPart, if_true, hq, applyW_smartSeq]
      have hqi := inc3_spec hq3
      have hqw : (inc3 q).2 = false := by
        rw [← Bool.not_eq_true]; intro hh; exact hqf (hqi.2.1.1 hh)
      have hqv := hqi.2.2.1 hqw
      have hsync := synced_after_save d.ee (inc3 q).1 hqi.1
      have hrd := synced_read hqi.1 hsync
      by_cases hff : (inc3 q).1 = [0xff, 0xff, 0xff]
      · rw [if_pos hff] at hrd
        rw [hrd]
        simp only [reduceCtorEq, false_implies, implies_true, true_and]
        intro _; exact ⟨hti.1, Or.inl hrd⟩
      · rw [if_neg hff] at hrd
        rw [hrd]
        simp only [Option.some.injEq, reduceCtorEq, false_implies, and_true]
        intro c hc
        have hcv : beVal c = (beVal q + 1) * 2 ^ 24 + beVal (inc3 (tmpE r')).1 := by
          rw [← hc, beVal_prefix3 _ _ hti.1, hqv]
        refine ⟨by omega, hti.1, Or.inr (Or.inr ⟨rfl, (inc3 q).1, hrd, ?_, hsync, ?_⟩)⟩
        · intro hz; rw [hz] at hqv; have : beVal [0, 0, 0] = 0 := by decide
          omega
        · simp only; rw [hqv]; omega
  · -- later call
    rw [if_neg (by simp [hini])]
    obtain ⟨hq3, hqf⟩ := getPrefix_some hq
    by_cases hw : (inc3 d.ram.ephemeral).2 = true
    · have hev := hei.2.2.2.2 hw
      have hez := hei.2.2.2.1 hw
      simp only [lastPart, hw, if_true, hq, applyW_smartSeq]
      have hqi := inc3_spec hq3
      have hqw : (inc3 q).2 = false := by
        rw [← Bool.not_eq_true]; intro hh; exact hqf (hqi.2.1.1 hh)
      have hqv := hqi.2.2.1 hqw
      have hsync := synced_after_save d.ee (inc3 q).1 hqi.1
      have hrd := synced_read hqi.1 hsync
      by_cases hff : (inc3 q).1 = [0xff, 0xff, 0xff]
      · rw [if_pos hff] at hrd
        rw [hrd]
        simp only [reduceCtorEq, false_implies, implies_true, true_and]
        intro _; exact ⟨hei.1, Or.inl hrd⟩
      · rw [if_neg hff] at hrd
        rw [hrd]
        simp only [Option.some.injEq, reduceCtorEq, false_implies, and_true]
        intro c hc
        have hcv : beVal c = (beVal q + 1) * 2 ^ 24 + beVal (inc3 d.ram.ephemeral).1 := by
          rw [← hc, beVal_prefix3 _ _ hei.1, hqv]
        refine ⟨by omega, hei.1, Or.inr (Or.inr ⟨rfl, (inc3 q).1, hrd, ?_, hsync, ?_⟩)⟩
        · intro hz; rw [hz] at hqv; have : beVal [0, 0, 0] = 0 := by decide
          omega
        · simp only; rw [hqv]; omega
    · have hw' : (inc3 d.ram.ephemeral).2 = false := by simpa using hw
      have hev := hei.2.2.1 hw'
      simp only [lastPart, hw', Bool.false_eq_true, if_false, hq, applyW_nil, Option.map_some,
        Option.some.injEq, reduceCtorEq, false_implies, and_true]
      intro c hc
      have hcv : beVal c = beVal q * 2 ^ 24 + beVal (inc3 d.ram.ephemeral).1 := by
        rw [← hc, beVal_prefix3 _ _ hei.1]
      refine ⟨by omega, hei.1, Or.inr (Or.inr ⟨rfl, q, hq, hq0, hsy, ?_⟩)⟩
      simp only; omega

theorem inv_restart {d : TxDev} {hi : Nat} {allowed : Bool} (h : TxInv d hi allowed) :
    TxInv (d.step .restart).1 hi allowed := by
  obtain ⟨he, hs⟩ := h
  refine ⟨rfl, ?_⟩
  simp only [TxDev.step, TxRam.boot]
  rcases hs with hs | ⟨hini, q, hq, hq0, hhi, hsy⟩ | ⟨hini, q, hq, hq0, hsy, hhi⟩
  · exact Or.inl hs
  · exact Or.inr (Or.inl ⟨by simp, q, hq, hq0, hhi, hsy⟩)
  · have := beVal3_lt he
    exact Or.inr (Or.inl ⟨by simp, q, hq, fun hh => absurd hh hq0, by omega, fun _ => hsy⟩)

/-- The writes of a call, when both copies are in step: none, or those of one of two saves. -/
theorem inv_crash {d : TxDev} {hi : Nat} (h : TxInv d hi true) (r r' : Bytes) (k : Nat) :
    TxInv (d.step (.crash r r' k)).1 hi false := by
  obtain ⟨he, hs⟩ := h
  refine ⟨rfl, ?_⟩
  simp only [TxDev.step, TxRam.boot]
  have hinc : ∀ q, getTXNVCtrPrefix d.ee = some q → Synced d.ee q → q ≠ [0, 0, 0] → hi ≤ (beVal q + 1) * 2 ^ 24 →
      (getTXNVCtrPrefix (applyW d.ee ((smartSeq d.ee (wlist 104 (image (inc3 q).1))).take k)) = none ∨
       ∃ p, getTXNVCtrPrefix (applyW d.ee ((smartSeq d.ee (wlist 104 (image (inc3 q).1))).take k)) = some p ∧
        p ≠ [0, 0, 0] ∧ hi ≤ (beVal p + 1) * 2 ^ 24) := by
    intro q hq hsy hq0 hhi
    obtain ⟨hq3, hqf⟩ := getPrefix_some hq
    have hqi := inc3_spec hq3
    have hqw : (inc3 q).2 = false := by
      rw [← Bool.not_eq_true]; intro hh; exact hqf (hqi.2.1.1 hh)
    have hqv := hqi.2.2.1 hqw
    obtain ⟨j, hj, hje⟩ := smartSeq_prefix d.ee (wlist 104 (image (inc3 q).1)) k
    rw [wlist_length, image_length hqi.1] at hj
    rw [hje]
    rcases crash_read hq3 hsy hqf j hj with hc | hc | ⟨_, hc⟩
    · exact Or.inr ⟨q, hc, hq0, hhi⟩
    · refine Or.inr ⟨_, hc, ?_, Nat.le_trans hhi (Nat.mul_le_mul_right _ (by rw [hqv]; exact Nat.le_succ _))⟩
      intro hz; rw [hz] at hqv; have : beVal [0, 0, 0] = 0 := by decide
      omega
    · exact Or.inl hc
  rw [next_eq]
  rcases hs with hs | ⟨hini, q, hq, hq0, hhi, hsy⟩ | ⟨hini, q, hq, hq0, hsy, hhi⟩
  · left
    by_cases hini : d.ram.initialised = false
    · rw [if_pos hini, hs]; simpa using hs
    · rw [if_neg hini]
      unfold lastPart
      rw [hs]
      cases (inc3 d.ram.ephemeral).2 <;> simpa using hs
  · rw [if_pos hini, hq]
    simp only
    by_cases h0 : q = [0, 0, 0]
    · rw [if_pos h0]
      simp only [lastPart, Bool.false_eq_true, if_false, List.append_nil]
      have hhi0 := hq0 h0
      generalize applyW d.ee (List.take k (smartSeq d.ee (wlist 104 (image (noise r))))) = m'
      cases hm : getTXNVCtrPrefix m' with
      | none => exact Or.inl rfl
      | some p => exact Or.inr (Or.inl ⟨by simp, p, rfl, fun _ => hhi0, by rw [hhi0]; exact Nat.zero_le _, fun hf => by simp at hf⟩)
    · rw [if_neg h0]
      simp only [lastPart, if_true, hq]
      rcases hinc q hq (hsy rfl) h0 hhi with hc | ⟨p, hp, hp0, hph⟩
      · exact Or.inl hc
      · exact Or.inr (Or.inl ⟨by simp, p, hp, fun hz => absurd hz hp0, hph, fun hf => by simp at hf⟩)
  · rw [if_neg (by simp [hini])]
    have hlt := beVal3_lt he
    unfold lastPart
    rw [hq]
    cases (inc3 d.ram.ephemeral).2 with
    | false =>
      simp only [Bool.false_eq_true, if_false, List.take_nil, applyW_nil]
      exact Or.inr (Or.inl ⟨by simp, q, hq, fun hz => absurd hz hq0, by omega, fun hf => by simp at hf⟩)
    | true =>
      simp only [if_true]
      rcases hinc q hq hsy hq0 (by omega) with hc | ⟨p, hp, hp0, hph⟩
      · exact Or.inl hc
      · exact Or.inr (Or.inl ⟨by simp, p, hp, fun hz => absurd hz hp0, hph, fun hf => by simp at hf⟩)

theorem inv_weaken {d : TxDev} {hi : Nat} {a : Bool} (h : TxInv d hi true) : TxInv d hi a := by
  cases a with
  | true => exact h
  | false =>
    obtain ⟨he, hs⟩ := h
    refine ⟨he, ?_⟩
    rcases hs with hs | ⟨hini, q, hq, hq0, hhi, hsy⟩ | hs
    · exact Or.inl hs
    · exact Or.inr (Or.inl ⟨hini, q, hq, hq0, hhi, fun hf => by simp at hf⟩)
    · exact Or.inr (Or.inr hs)

theorem issued_sorted (evs : List TxEvent) : ∀ (d : TxDev) (hi : Nat) (f : Bool), TxInv d hi f → CrashSpaced f evs →
    (∀ c ∈ d.issued evs, hi ≤ beVal c) ∧ (d.issued evs).Pairwise (fun a b => beVal a < beVal b) := by
  induction evs with
  | nil => intro d hi f _ _; simp [TxDev.issued]
  | cons ev t ih =>
    intro d hi f hinv hsp
    rw [TxDev.issued]
    cases ev with
    | call r r' =>
      obtain ⟨hc1, hc2⟩ := inv_call hinv r r'
      cases hout : (d.step (.call r r')).2 with
      | none =>
        have := ih _ _ _ (hc2 hout) hsp
        simpa using this
      | some c =>
        obtain ⟨hle, hinv'⟩ := hc1 c hout
        obtain ⟨i1, i2⟩ := ih _ _ _ hinv' hsp
        simp only [Option.toList_some, List.cons_append, List.nil_append]
        refine ⟨?_, ?_⟩
        · intro x hx
          simp only [List.mem_cons] at hx
          rcases hx with rfl | hx
          · exact hle
          · have := i1 x hx; omega
        · rw [List.pairwise_cons]
          exact ⟨fun x hx => by have := i1 x hx; omega, i2⟩
    | restart =>
      have := ih _ _ _ (inv_restart hinv) hsp
      simpa [TxDev.step] using this
    | crash r r' k =>
      obtain ⟨hf, hsp'⟩ := hsp
      subst hf
      have := ih _ _ _ (inv_crash hinv r r' k) hsp'
      simpa [TxDev.step] using this

/-- **C20.** Start from any device just powered up, with both stored copies of the prefix in step (in particular a new
device with erased EEPROM). For every history of calls, restarts and power failures part-way through a call (any two
such failures separated by at least one completed call), with any random bytes, the counters handed out are strictly
increasing. -/
theorem C20_tx_strictly_increasing (m : EE) (b : Bytes) (hb : BothCopies m b) (evs : List TxEvent)
    (hsp : CrashSpaced true evs) :
    ((⟨m, .boot⟩ : TxDev).issued evs).Pairwise (fun c1 c2 => beVal c1 < beVal c2) := by
  have hb' := bothCopies_iff.1 hb
  have hinv : TxInv ⟨m, .boot⟩ 0 true := by
    refine ⟨rfl, ?_⟩
    by_cases hf : b = [0xff, 0xff, 0xff]
    · left; simp only; rw [synced_read hb'.1 hb'.2, if_pos hf]
    · right; left
      exact ⟨rfl, b, read_bothCopies hb hf, fun _ => rfl, by omega, fun _ => hb'.2⟩
  exact (issued_sorted evs _ 0 true hinv hsp).2

/-- C20 progress: the histories above are not silent. From power-up with both copies holding `b` below the last two
values, a call does hand out a counter. -/
theorem C20_progress (m : EE) (b : Bytes) (hb : BothCopies m b) (hlt : beVal b + 1 < 0xffffff) (r r' : Bytes) :
    ∃ c, ((⟨m, .boot⟩ : TxDev).step (.call r r')).2 = some c ∧ c.length = 6 := by
  have hb' := bothCopies_iff.1 hb
  have hf : b ≠ [0xff, 0xff, 0xff] := by
    rintro rfl; revert hlt; decide
  have hq := read_bothCopies hb hf
  have htm := inc3_spec (tmpE_spec r').1
  simp only [TxDev.step]
  rw [next_eq]
  simp only [TxRam.boot, if_true, hq]
  by_cases h0 : b = [0, 0, 0]
  · rw [if_pos h0]
    have hn := noise_spec r
    have hrd := synced_read hn.1 (synced_after_save m (noise r) hn.1)
    rw [if_neg hn.2.2] at hrd
    simp only [lastPart, Bool.false_eq_true, if_false, hrd, Option.map_some]
    exact ⟨_, rfl, by simp [hn.1, htm.1]⟩
  · rw [if_neg h0]
    simp only [lastPart, if_true, hq]
    have hqi := inc3_spec hb'.1
    have hqw : (inc3 b).2 = false := by
      rw [← Bool.not_eq_true]; intro hh; exact hf (hqi.2.1.1 hh)
    have hqv := hqi.2.2.1 hqw
    have hrd := synced_read hqi.1 (synced_after_save m (inc3 b).1 hqi.1)
    rw [if_neg (by intro hh; rw [hh] at hqv; have : beVal [0xff, 0xff, 0xff] = 0xffffff := by decide
                   omega)] at hrd
    rw [hrd]
    exact ⟨_, rfl, by simp [hqi.1, htm.1]⟩

/-- Non-vacuity of C20: a spaced history with crashes and its (two) counters on a new device. -/
example : CrashSpaced true [.call [1, 2, 3] [4, 5, 6], .crash [] [] 3, .restart, .call [] [7, 8, 9], .crash [] [] 1] ∧
    ((⟨fun _ => 0xff, .boot⟩ : TxDev).issued
      [.call [1, 2, 3] [4, 5, 6], .crash [] [] 3, .restart, .call [] [7, 8, 9], .crash [] [] 1]) =
      [[1, 2, 3, 4, 5, 7], [1, 2, 4, 7, 8, 10]] := by
  refine ⟨by simp [CrashSpaced], by decide +kernel⟩

/-! ## C21 -/

/-- **C21a.** From any EEPROM contents and any RAM state, a counter that is handed out is not all-zero. -/
theorem C21_never_zero (m : EE) (ram : TxRam) (r r' : Bytes) (he : ram.ephemeral.length = 3) (c : Bytes)
    (h : (getNextTXMsgCtr ram r r' m).1.1 = some c) : c.length = 6 ∧ beVal c ≠ 0 := by
  rw [next_eq] at h
  have hlast : ∀ (inc : Bool) (e1 : Bytes) (ram2 : TxRam) (m : EE), e1.length = 3 → (inc = false → beVal e1 ≠ 0) →
      (lastPart inc e1 ram2 m).1.1 = some c → c.length = 6 ∧ beVal c ≠ 0 := by
    intro inc e1 ram2 m he1 hz hh
    unfold lastPart at hh
    cases inc with
    | false =>
      simp only [Bool.false_eq_true, if_false] at hh
      cases hp : getTXNVCtrPrefix m with
      | none => rw [hp] at hh; simp at hh
      | some p =>
        rw [hp] at hh
        simp only [Option.map_some, Option.some.injEq] at hh
        have := hz rfl
        rw [← hh, beVal_prefix3 _ _ he1]
        exact ⟨by simp [(getPrefix_some hp).1, he1], by omega⟩
    | true =>
      simp only [if_true] at hh
      cases hp : getTXNVCtrPrefix m with
      | none => rw [hp] at hh; simp at hh
      | some p =>
        rw [hp] at hh
        simp only at hh
        obtain ⟨hq3, hqf⟩ := getPrefix_some hp
        have hqi := inc3_spec hq3
        have hqw : (inc3 p).2 = false := by
          rw [← Bool.not_eq_true]; intro hh; exact hqf (hqi.2.1.1 hh)
        have hqv := hqi.2.2.1 hqw
        have hrd := synced_read hqi.1 (synced_after_save m (inc3 p).1 hqi.1)
        rw [hrd] at hh
        by_cases hff : (inc3 p).1 = [0xff, 0xff, 0xff]
        · rw [if_pos hff] at hh; simp at hh
        · rw [if_neg hff] at hh
          simp only [Option.some.injEq] at hh
          rw [← hh, beVal_prefix3 _ _ he1, hqv]
          exact ⟨by simp [hqi.1, he1], by omega⟩
  have hnz : ∀ e : Bytes, e.length = 3 → (inc3 e).2 = false → beVal (inc3 e).1 ≠ 0 := by
    intro e h3 hw
    rw [(inc3_spec h3).2.2.1 hw]; omega
  have htm := tmpE_spec r'
  have htw : (inc3 (tmpE r')).2 = false := by
    rw [← Bool.not_eq_true]; intro hh; exact htm.2 ((inc3_spec htm.1).2.1.1 hh)
  split at h
  · split at h
    · simp at h
    · split at h
      · exact hlast _ _ _ _ (inc3_spec htm.1).1 (fun _ => hnz _ htm.1 htw) h
      · exact hlast _ _ _ _ (inc3_spec htm.1).1 (fun _ => hnz _ htm.1 htw) h
  · exact hlast _ _ _ _ (inc3_spec he).1 (fun hw => hnz _ he hw) h

/-- Once the prefix is unreadable nothing is ever handed out again (no wrapping round), whatever happens. -/
theorem dead_forever (evs : List TxEvent) : ∀ (d : TxDev), getTXNVCtrPrefix d.ee = none → d.issued evs = [] := by
  have key : ∀ (ram : TxRam) (r r' : Bytes) (m : EE), getTXNVCtrPrefix m = none →
      (getNextTXMsgCtr ram r r' m).1.1 = none ∧ (getNextTXMsgCtr ram r r' m).2 = [] := by
    intro ram r r' m hm
    rw [next_eq]
    split
    · rw [hm]; exact ⟨rfl, rfl⟩
    · unfold lastPart; rw [hm]
      cases (inc3 ram.ephemeral).2 <;> exact ⟨rfl, rfl⟩
  induction evs with
  | nil => intro d _; rfl
  | cons ev t ih =>
    intro d hd
    rw [TxDev.issued]
    cases ev with
    | call r r' =>
      obtain ⟨k1, k2⟩ := key d.ram r r' d.ee hd
      simp only [TxDev.step, k1, k2, applyW_nil, Option.toList_none, List.nil_append]
      exact ih _ hd
    | restart =>
      simp only [TxDev.step, Option.toList_none, List.nil_append]
      exact ih _ hd
    | crash r r' k =>
      obtain ⟨k1, k2⟩ := key d.ram r r' d.ee hd
      simp only [TxDev.step, k2, List.take_nil, applyW_nil, Option.toList_none, List.nil_append]
      exact ih _ hd

/-- **C21b.** Exhaustion: with the prefix at its last usable value ff ff fe, a power-up call fails and after that no
counter is ever handed out, under any further history: it never wraps round to small values. -/
theorem C21_exhausted_stops (m : EE) (hb : BothCopies m [0xff, 0xff, 0xfe]) (r r' : Bytes) (evs : List TxEvent) :
    (⟨m, .boot⟩ : TxDev).issued (.call r r' :: evs) = [] := by
  have hq := read_bothCopies hb (by decide)
  rw [TxDev.issued]
  have hi : (inc3 [0xff, 0xff, 0xfe]).1 = [0xff, 0xff, 0xff] := by decide
  have hrd := synced_read (b := [0xff, 0xff, 0xff]) rfl (synced_after_save m [0xff, 0xff, 0xff] rfl)
  rw [if_pos rfl] at hrd
  have hx : getNextTXMsgCtr .boot r r' m =
      lastPart true (inc3 (tmpE r')).1 ⟨true, (inc3 (tmpE r')).1⟩ m := by
    rw [next_eq]; simp [TxRam.boot, hq]
  simp only [TxDev.step]
  rw [hx]
  simp only [lastPart, if_true, hq, hi, hrd, Option.toList_none, List.nil_append, applyW_smartSeq]
  exact dead_forever evs _ hrd

/-- Non-vacuity of C21b. -/
example : BothCopies (applyW (fun _ => 0xff) (wlist 104 (image [0xff, 0xff, 0xfe]))) [0xff, 0xff, 0xfe] :=
  bothCopies_iff.2 ⟨rfl, synced_after_save _ _ rfl⟩

end OTR.Props
