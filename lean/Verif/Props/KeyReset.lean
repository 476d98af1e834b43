import Verif.Model.KeyReset
import Verif.Props.TxCounter
import Verif.Props.EEMap
/-! # C238: changing the key does not take the transmit counter back; C239: the null transmitter sends nothing -/

namespace OTR.Props
open OTR

/-! ## Specification -/

/-- What can happen to a transmitter whose key is managed with the `K` command. -/
inductive KeyEvent where
  /-- a counter is asked for, a restart, a power failure while a counter is asked for -/
  | tx (e : TxEvent)
  /-- any line given to the `K` command; `r`: random bytes for a reset -/
  | line (buf r : Bytes)
  /-- power fails after `k` EEPROM byte writes of "K B *", then restart -/
  | clearCrash (r : Bytes) (k : Nat)
  /-- other code writes anything anywhere in the EEPROM except the eight bytes of the counter -/
  | other (f : EE)

/-- Effect of an event on the device, and the counter handed out, if any. -/
def kstep (d : TxDev) : KeyEvent → TxDev × Option Bytes
  | .tx e => d.step e
  | .line buf r => (⟨cliKeyLine buf r d.ee, d.ram⟩, none)
  | .clearCrash r k => (⟨applyW d.ee ((keyClear r d.ee).2.take k), .boot⟩, none)
  | .other f => (⟨fun x => if 104 ≤ x ∧ x < 112 then d.ee x else f x, d.ram⟩, none)

/-- The counters handed out over a history, in order. -/
def kissued (d : TxDev) : List KeyEvent → List Bytes
  | [] => []
  | ev :: t => (kstep d ev).2.toList ++ kissued (kstep d ev).1 t

/-- Power failures in the middle of an update are separated by at least one completed request for a counter. -/
def KSpaced : Bool → List KeyEvent → Prop
  | _, [] => True
  | _, .tx (.call _ _) :: t => KSpaced true t
  | f, .tx .restart :: t => KSpaced f t
  | f, .tx (.crash _ _ _) :: t => f = true ∧ KSpaced false t
  | f, .line _ _ :: t => KSpaced f t
  | f, .clearCrash _ _ :: t => f = true ∧ KSpaced false t
  | f, .other _ :: t => KSpaced f t

/-! ## Proofs -/

theorem loadRaw_congr {m m' : EE} (h : ∀ x, 104 ≤ x → x < 112 → m' x = m x) : loadRaw m' = loadRaw m := by
  apply List.ext_getElem?
  intro i
  by_cases h8 : i < 8
  · rw [loadRaw_get _ _ h8, loadRaw_get _ _ h8, h _ (by omega) (by omega)]
  · rw [List.getElem?_eq_none (by rw [loadRaw_length]; omega), List.getElem?_eq_none (by rw [loadRaw_length]; omega)]

theorem getPrefix_congr {m m' : EE} (h : loadRaw m' = loadRaw m) : getTXNVCtrPrefix m' = getTXNVCtrPrefix m := by
  unfold getTXNVCtrPrefix; rw [h]

theorem txInv_congr {m : EE} {d : TxDev} {hi : Nat} {a : Bool} (h : loadRaw m = loadRaw d.ee) (hd : TxInv d hi a) : TxInv ⟨m, d.ram⟩ hi a := by
  unfold TxInv Synced at *
  simp only [getPrefix_congr h, h]
  exact hd

theorem setKey_cells (k : Option Bytes) (m : EE) (n x : Nat) (hx : 104 ≤ x) (hx' : x < 112) : applyW m ((setKey k m).2.take n) x = m x := by
  have hw : Within (fun a => 112 ≤ a ∧ a < 128) (setKey k) := by
    cases k with
    | none => exact within_bind (within_each _ fun j hj => within_erase (by have := List.mem_range.mp hj; omega)) fun _ => within_ret _
    | some k =>
      unfold setKey
      refine within_bind (within_each _ fun j hj => within_upd ?_) fun _ => fun _ _ h => by cases h
      have := List.mem_range.mp hj
      omega
  have hall : ∀ w ∈ (setKey k m).2.take n, w.1 ≠ x := by
    intro w hw'
    have := hw m w (List.mem_of_mem_take hw')
    omega
  generalize (setKey k m).2.take n = ws at hall
  induction ws generalizing m with
  | nil => rfl
  | cons w t ih =>
    rw [applyW_cons, ih _ (fun w' hw' => hall w' (List.mem_cons_of_mem _ hw'))]
    have := hall w List.mem_cons_self
    simp [EE.upd, Ne.symm this]

theorem setKey_post (k : Option Bytes) (m : EE) : loadRaw ((setKey k).post m) = loadRaw m := by
  apply loadRaw_congr
  intro x h1 h2
  have := setKey_cells k m (setKey k m).2.length x h1 h2
  rw [List.take_length] at this
  exact this

theorem cliKey_raw (buf : Bytes) (m : EE) : loadRaw (cliKey buf m).1 = loadRaw m := by
  unfold cliKey
  split
  · split
    · rfl
    · split
      · split
        · rfl
        · split
          · exact setKey_post _ _
          · split
            · split
              · rfl
              · exact setKey_post _ _
            · rfl
      · rfl
  · rfl

theorem top_lt {q : Bytes} (h : q.length = 3) : q[0]?.getD 0 < 0x20 ↔ beVal q < 0x200000 := by
  obtain ⟨x, y, z, rfl⟩ := len3 h
  rw [beVal3, UInt8.lt_iff_toNat_lt]
  have : ((0x20 : Byte)).toNat = 32 := rfl
  rw [this]
  simp only [List.getElem?_cons_zero, Option.getD_some]
  have := y.toNat_lt; have := z.toNat_lt
  omega

theorem noise_lt (r : Bytes) : beVal (noise r) < 0x100000 := by
  have h15 : ∀ x : Byte, ((0xf : Byte) &&& (x ^^^ (x >>> 4))).toNat < 16 := by
    apply forall_byte; decide +kernel
  have hn := h15 (r[0]?.getD 0)
  unfold noise
  dsimp only
  rw [beVal3]
  have := (r[1]?.getD 0 : Byte).toNat_lt
  have := (if (r[1]?.getD 0 : Byte) = 0 ∧ (0xf : Byte) &&& (r[0]?.getD 0 ^^^ (r[0]?.getD 0) >>> 4) = 0 then (r[2]?.getD 0 : Byte) ||| 1 else r[2]?.getD 0).toNat_lt
  omega

theorem resetCond_eq (r : Bytes) (m : EE) : resetCond r m =
    match getTXNVCtrPrefix m with
    | none => (false, [])
    | some p => (true, smartSeq m (wlist 104 (image (if beVal p < 0x200000 then (inc3 p).1 else noise r)))) := by
  unfold resetCond
  cases h : getTXNVCtrPrefix m with
  | none => rfl
  | some p =>
    dsimp only
    have h3 := (getPrefix_some h).1
    by_cases hp : beVal p < 0x200000
    · rw [if_pos ((top_lt h3).2 hp), increment_eq, h, if_pos hp]
    · rw [if_neg (fun hh => hp ((top_lt h3).1 hh)), if_neg hp]
      simp only [resetRaw, saveRaw, Bool.false_eq_true, if_false, emBind, emRet, saveFrom_eq, List.append_nil]

/-- **C238, one call.** The routine to be called when a key is cleared fails exactly if no counter prefix can be read, and then writes nothing. Otherwise both copies hold the new prefix: the next one if the
old one is below 20 00 00 (hex), else one from 00 00 01 to 0f ff ff, given by the random bytes. -/
theorem C238_one (r : Bytes) (m : EE) :
    ((resetCond r m).1 = false ↔ getTXNVCtrPrefix m = none) ∧
    (getTXNVCtrPrefix m = none → (resetCond r m).2 = []) ∧
    ∀ p, getTXNVCtrPrefix m = some p → ∃ q, BothCopies ((resetCond r).post m) q ∧
      getTXNVCtrPrefix ((resetCond r).post m) = some q ∧
      (beVal p < 0x200000 → beVal q = beVal p + 1) ∧ (0x200000 ≤ beVal p → 0 < beVal q ∧ beVal q < 0x100000) := by
  rw [show (resetCond r).post m = applyW m (resetCond r m).2 from rfl, resetCond_eq]
  cases h : getTXNVCtrPrefix m with
  | none => simp
  | some p =>
    refine ⟨by simp, by simp, ?_⟩
    rintro _ ⟨⟩
    obtain ⟨h3, hf⟩ := getPrefix_some h
    have hi := inc3_spec h3
    have hw : (inc3 p).2 = false := by rw [← Bool.not_eq_true]; intro hh; exact hf (hi.2.1.1 hh)
    have hv := hi.2.2.1 hw
    have hn := noise_spec r
    dsimp only
    rw [applyW_smartSeq]
    by_cases hp : beVal p < 0x200000
    · rw [if_pos hp]
      have hs := synced_after_save m (inc3 p).1 hi.1
      have hff : (inc3 p).1 ≠ [0xff, 0xff, 0xff] := by
        intro hh; rw [hh] at hv; have : beVal [0xff, 0xff, 0xff] = 0xffffff := by decide
        omega
      exact ⟨_, bothCopies_iff.2 ⟨hi.1, hs⟩, by rw [synced_read hi.1 hs, if_neg hff], fun _ => hv, fun hh => by omega⟩
    · rw [if_neg hp]
      have hs := synced_after_save m (noise r) hn.1
      refine ⟨_, bothCopies_iff.2 ⟨hn.1, hs⟩, by rw [synced_read hn.1 hs, if_neg hn.2.2], fun hh => absurd hh hp, fun _ => ⟨?_, noise_lt r⟩⟩
      have := beVal_zero3 hn.1
      rcases Nat.eq_zero_or_pos (beVal (noise r)) with hz | hz
      · exact absurd (this.1 hz) hn.2.1
      · exact hz

/-- Every readable prefix is below `n`. -/
def Below (m : EE) (n : Nat) : Prop := ∀ q, getTXNVCtrPrefix m = some q → beVal q < n

/-- The writes of a request for a counter. -/
theorem call_writes (ram : TxRam) (r r' : Bytes) (m : EE) :
    (getNextTXMsgCtr ram r r' m).2 = [] ∨
    ∃ p, getTXNVCtrPrefix m = some p ∧
      ((p = [0, 0, 0] ∧ ram.initialised = false ∧ (getNextTXMsgCtr ram r r' m).2 = smartSeq m (wlist 104 (image (noise r)))) ∨
       (getNextTXMsgCtr ram r r' m).2 = smartSeq m (wlist 104 (image (inc3 p).1))) := by
  rw [next_eq]
  have last : ∀ inc e1 ram2, (lastPart inc e1 ram2 m).2 = [] ∨ ∃ p, getTXNVCtrPrefix m = some p ∧ (lastPart inc e1 ram2 m).2 = smartSeq m (wlist 104 (image (inc3 p).1)) := by
    intro inc e1 ram2
    unfold lastPart
    cases inc with
    | false => left; rfl
    | true =>
      rw [if_pos rfl]
      cases h : getTXNVCtrPrefix m with
      | none => left; rfl
      | some p => right; exact ⟨p, rfl, rfl⟩
  by_cases hini : ram.initialised = false
  · rw [if_pos hini]
    cases h : getTXNVCtrPrefix m with
    | none => left; rfl
    | some p =>
      dsimp only
      by_cases h0 : p = [0, 0, 0]
      · rw [if_pos h0]
        right
        refine ⟨p, rfl, Or.inl ⟨h0, hini, ?_⟩⟩
        dsimp only [lastPart]
        rw [if_neg (by decide), List.append_nil]
      · rw [if_neg h0]
        rcases last true (inc3 (tmpE r')).1 ⟨true, (inc3 (tmpE r')).1⟩ with hh | ⟨p', hp', hh⟩
        · exact Or.inl hh
        · rw [h] at hp'; cases hp'; exact Or.inr ⟨p, rfl, Or.inr hh⟩
  · rw [if_neg hini]
    rcases last (inc3 ram.ephemeral).2 (inc3 ram.ephemeral).1 ⟨true, (inc3 ram.ephemeral).1⟩ with hh | ⟨p', hp', hh⟩
    · exact Or.inl hh
    · exact Or.inr ⟨p', hp', Or.inr hh⟩

theorem below_saved {m : EE} {b : Bytes} {n : Nat} (hb : b.length = 3) (hn : beVal b < n) : Below (applyW m (wlist 104 (image b))) n := by
  intro q hq
  rw [synced_read hb (synced_after_save m b hb)] at hq
  split at hq
  · cases hq
  · cases hq; exact hn

theorem inc_val {m : EE} {p : Bytes} (h : getTXNVCtrPrefix m = some p) : (inc3 p).1.length = 3 ∧ beVal (inc3 p).1 = beVal p + 1 := by
  obtain ⟨h3, hf⟩ := getPrefix_some h
  have hi := inc3_spec h3
  have hw : (inc3 p).2 = false := by rw [← Bool.not_eq_true]; intro hh; exact hf (hi.2.1.1 hh)
  exact ⟨hi.1, hi.2.2.1 hw⟩

theorem below_call {d : TxDev} {n : Nat} (hn : 0x100000 ≤ n) (h : Below d.ee n) (r r' : Bytes) : Below (d.step (.call r r')).1.ee (n + 1) := by
  show Below (applyW d.ee (getNextTXMsgCtr d.ram r r' d.ee).2) (n + 1)
  rcases call_writes d.ram r r' d.ee with hh | ⟨p, hp, ⟨_, _, hh⟩ | hh⟩
  · rw [hh, applyW_nil]; intro q hq; have := h q hq; omega
  · rw [hh, applyW_smartSeq]; exact below_saved (noise_spec r).1 (by have := noise_lt r; omega)
  · rw [hh, applyW_smartSeq]
    have := h p hp
    exact below_saved (inc_val hp).1 (by have := (inc_val hp).2; omega)

/-- An interrupted step to the next prefix. -/
theorem below_torn_inc {m : EE} {p : Bytes} {n : Nat} (hp : getTXNVCtrPrefix m = some p) (hs : Synced m p) (h : beVal p < n) (k : Nat) :
    Below (applyW m ((smartSeq m (wlist 104 (image (inc3 p).1))).take k)) (n + 1) := by
  obtain ⟨h3, hf⟩ := getPrefix_some hp
  obtain ⟨hi, hv⟩ := inc_val hp
  obtain ⟨j, hj, hje⟩ := smartSeq_prefix m (wlist 104 (image (inc3 p).1)) k
  rw [wlist_length, image_length hi] at hj
  rw [hje]
  intro q hq
  rcases crash_read h3 hs hf j hj with hc | hc | ⟨_, hc⟩ <;> rw [hc] at hq <;> cases hq <;> omega

theorem readOne_top {l b : Bytes} (hl : l.length = 4) (h : readOne l = some b) : b[0]? = l[0]? := by
  rw [(readOne_some hl h).1]
  rw [List.getElem?_take_of_lt (by omega)]

theorem top16 (a b c : Nat) (ha : a < 16) (hb : b < 256) (hc : c < 256) : (a * 256 + b) * 256 + c < 0x100000 := by omega

/-- An interrupted first initialisation. -/
theorem below_torn_noise {m : EE} (hs : Synced m [0, 0, 0]) (r : Bytes) (k : Nat) :
    Below (applyW m ((smartSeq m (wlist 104 (image (noise r)))).take k)) 0x100000 := by
  have hn := noise_spec r
  have hlt := noise_lt r
  obtain ⟨j, hj, hje⟩ := smartSeq_prefix m (wlist 104 (image (noise r))) k
  rw [wlist_length, image_length hn.1] at hj
  rw [hje, wlist_take]
  intro q hq
  have h3 := (getPrefix_some hq).1
  have htop : q[0]? = some 0 ∨ q[0]? = (noise r)[0]? := by
    obtain ⟨x, y, z, he⟩ := len3 hn.1
    have hraw := loadRaw_saved m (image (noise r)) (image_length hn.1) j hj
    unfold getTXNVCtrPrefix at hq
    rw [hraw, hs] at hq
    rw [he] at hq ⊢
    rw [image3, image3] at hq
    have e0 : crc8 (crc8 (crc8 0 0) 0) 0 = 0 := by decide +kernel
    rw [e0] at hq
    generalize crc8 (crc8 (crc8 0 x) y) z = c at hq
    have hcase : j = 0 ∨ j = 1 ∨ j = 2 ∨ j = 3 ∨ j = 4 ∨ j = 5 ∨ j = 6 ∨ j = 7 ∨ j = 8 := by omega
    unfold read3 at hq
    rcases hcase with h | h | h | h | h | h | h | h | h <;> subst h <;>
      simp only [List.take_succ_cons, List.take_zero, List.drop_succ_cons, List.drop_zero, List.cons_append, List.nil_append, List.append_nil] at hq <;>
      (split at hq
       · rename_i b hb; cases hq
         have := readOne_top (by rfl) hb
         simp only [List.getElem?_cons_zero] at this ⊢
         first
           | exact Or.inl this
           | exact Or.inr this
       · have := readOne_top (by rfl) hq
         simp only [List.getElem?_cons_zero] at this ⊢
         first
           | exact Or.inl this
           | exact Or.inr this)
  obtain ⟨x, y, z, rfl⟩ := len3 h3
  obtain ⟨x', y', z', he⟩ := len3 hn.1
  rw [he] at htop hlt
  rw [beVal3] at hlt ⊢
  simp only [List.getElem?_cons_zero, Option.some.injEq] at htop
  have hy := y.toNat_lt; have hz := z.toNat_lt
  have hx : x.toNat < 16 := by
    rcases htop with h | h
    · rw [h]; decide
    · rw [h]; omega
  exact top16 _ _ _ hx hy hz

theorem below_crash {d : TxDev} {hi n : Nat} (hn : 0x100000 ≤ n) (hinv : TxInv d hi true) (h : Below d.ee n) (r r' : Bytes) (k : Nat) :
    Below (d.step (.crash r r' k)).1.ee (n + 1) := by
  show Below (applyW d.ee ((getNextTXMsgCtr d.ram r r' d.ee).2.take k)) (n + 1)
  rcases call_writes d.ram r r' d.ee with hh | ⟨p, hp, hor⟩
  · rw [hh, List.take_nil, applyW_nil]; intro q hq; have := h q hq; omega
  · have hsy : Synced d.ee p := by
      rcases hinv.2 with hx | ⟨_, q, hq, _, _, hsy⟩ | ⟨_, q, hq, _, hsy, _⟩
      · rw [hp] at hx; cases hx
      · rw [hp] at hq; cases hq; exact hsy rfl
      · rw [hp] at hq; cases hq; exact hsy
    rcases hor with ⟨h0, _, hh⟩ | hh
    · rw [hh]
      subst h0
      intro q hq
      have := below_torn_noise hsy r k q hq
      omega
    · rw [hh]; exact below_torn_inc hp hsy (h p hp) k

/-- A completed change of the counter by the `K` command. -/
theorem inv_cond {d : TxDev} {hi n : Nat} {a : Bool} (hinv : TxInv d hi a) (h : Below d.ee n) (hn : n ≤ 0x200000) (r : Bytes) :
    TxInv ⟨(resetCond r).post d.ee, d.ram⟩ hi a ∧ Below ((resetCond r).post d.ee) (n + 1) := by
  rw [show (resetCond r).post d.ee = applyW d.ee (resetCond r d.ee).2 from rfl, resetCond_eq]
  obtain ⟨he, hs⟩ := hinv
  have key : ∀ q, getTXNVCtrPrefix d.ee = some q → getTXNVCtrPrefix (applyW d.ee (wlist 104 (image (inc3 q).1))) = some (inc3 q).1 ∧
      Synced (applyW d.ee (wlist 104 (image (inc3 q).1))) (inc3 q).1 ∧ (inc3 q).1 ≠ [0, 0, 0] := by
    intro q hq
    obtain ⟨hi3, hv⟩ := inc_val hq
    have hlt := h q hq
    have hsy := synced_after_save d.ee (inc3 q).1 hi3
    refine ⟨?_, hsy, ?_⟩
    · rw [synced_read hi3 hsy, if_neg]
      intro hh; rw [hh] at hv; have : beVal [0xff, 0xff, 0xff] = 0xffffff := by decide
      omega
    · intro hh; rw [hh] at hv; have : beVal [0, 0, 0] = 0 := by decide
      omega
  rcases hs with hs | ⟨hini, q, hq, hq0, hhi, hsy⟩ | ⟨hini, q, hq, hq0, hsy, hhi⟩
  · rw [hs]
    dsimp only
    rw [applyW_nil]
    exact ⟨⟨he, Or.inl hs⟩, fun q hq => by rw [hs] at hq; cases hq⟩
  · rw [hq]
    dsimp only
    rw [applyW_smartSeq, if_pos (by have := h q hq; omega)]
    obtain ⟨k1, k2, k3⟩ := key q hq
    have hv := (inc_val hq).2
    refine ⟨⟨he, Or.inr (Or.inl ⟨hini, _, k1, fun hh => absurd hh k3, ?_, fun _ => k2⟩)⟩, below_saved (inc_val hq).1 (by have := h q hq; omega)⟩
    rw [hv]; exact Nat.le_trans hhi (Nat.mul_le_mul_right _ (Nat.le_succ _))
  · rw [hq]
    dsimp only
    rw [applyW_smartSeq, if_pos (by have := h q hq; omega)]
    obtain ⟨k1, k2, k3⟩ := key q hq
    have hv := (inc_val hq).2
    refine ⟨⟨he, Or.inr (Or.inr ⟨hini, _, k1, k3, k2, ?_⟩)⟩, below_saved (inc_val hq).1 (by have := h q hq; omega)⟩
    show hi ≤ beVal (inc3 q).1 * 2 ^ 24 + beVal d.ram.ephemeral + 1
    rw [hv]; exact Nat.le_trans hhi (Nat.add_le_add_right (Nat.add_le_add_right (Nat.mul_le_mul_right _ (Nat.le_succ _)) _) _)

/-- Power fails during "K B *". -/
theorem inv_clearCrash {d : TxDev} {hi n : Nat} (hinv : TxInv d hi true) (h : Below d.ee n) (hn : n ≤ 0x200000) (r : Bytes) (k : Nat) :
    TxInv (kstep d (.clearCrash r k)).1 hi false ∧ Below (kstep d (.clearCrash r k)).1.ee (n + 1) := by
  show TxInv ⟨applyW d.ee ((keyClear r d.ee).2.take k), .boot⟩ hi false ∧ Below (applyW d.ee ((keyClear r d.ee).2.take k)) (n + 1)
  have hks : (keyClear r d.ee).2 = (setKey none d.ee).2 ++ (resetCond r (applyW d.ee (setKey none d.ee).2)).2 := rfl
  rw [hks, List.take_append, applyW_append]
  have hboot := inv_weaken (a := false) (inv_restart hinv)
  have hr1 : loadRaw (applyW d.ee ((setKey none d.ee).2.take k)) = loadRaw d.ee :=
    loadRaw_congr fun x h1 h2 => setKey_cells none d.ee k x h1 h2
  have hr2 : loadRaw (applyW d.ee (setKey none d.ee).2) = loadRaw d.ee := setKey_post none d.ee
  by_cases hk : k ≤ (setKey none d.ee).2.length
  · rw [show k - (setKey none d.ee).2.length = 0 by omega, List.take_zero, applyW_nil]
    refine ⟨txInv_congr (d := ⟨d.ee, .boot⟩) hr1 hboot, ?_⟩
    intro q hq
    rw [getPrefix_congr hr1] at hq
    have := h q hq
    omega
  · rw [List.take_of_length_le (by omega)]
    have hp2 := getPrefix_congr hr2
    have h2 : Synced d.ee = Synced (applyW d.ee (setKey none d.ee).2) := by funext b; unfold Synced; rw [hr2]
    generalize applyW d.ee (setKey none d.ee).2 = m1 at *
    generalize k - (setKey none d.ee).2.length = k'
    rw [resetCond_eq]
    obtain ⟨he, hs⟩ := hinv
    cases hq : getTXNVCtrPrefix m1 with
    | none =>
      dsimp only
      rw [List.take_nil, applyW_nil]
      exact ⟨⟨rfl, Or.inl hq⟩, fun q hq' => by rw [hq] at hq'; cases hq'⟩
    | some p =>
      rw [hq] at hp2
      have hp := hp2.symm
      have hlt := h p hp
      dsimp only
      rw [if_pos (by omega)]
      have hsy : Synced m1 p := by
        rw [← h2]
        rcases hs with hx | ⟨_, q, hq, _, _, hsy⟩ | ⟨_, q, hq, _, hsy, _⟩
        · rw [hp] at hx; cases hx
        · rw [hp] at hq; cases hq; exact hsy rfl
        · rw [hp] at hq; cases hq; exact hsy
      refine ⟨⟨rfl, ?_⟩, below_torn_inc hq hsy hlt k'⟩
      have hhi : hi ≤ (beVal p + 1) * 2 ^ 24 ∧ (p = [0, 0, 0] → hi = 0) := by
        rcases hs with hx | ⟨_, q, hq, h0, hh, _⟩ | ⟨_, q, hq, h0, _, hh⟩
        · rw [hp] at hx; cases hx
        · rw [hp] at hq; cases hq; exact ⟨hh, h0⟩
        · rw [hp] at hq; cases hq
          have := beVal3_lt he
          exact ⟨by omega, fun hz => absurd hz h0⟩
      obtain ⟨h3, hf⟩ := getPrefix_some hq
      obtain ⟨hi3, hv⟩ := inc_val hq
      obtain ⟨j, hj, hje⟩ := smartSeq_prefix m1 (wlist 104 (image (inc3 p).1)) k'
      rw [wlist_length, image_length hi3] at hj
      show getTXNVCtrPrefix (applyW m1 _) = none ∨ _
      rw [hje]
      rcases crash_read h3 hsy hf j hj with hc | hc | ⟨_, hc⟩
      · exact Or.inr (Or.inl ⟨rfl, p, hc, hhi.2, hhi.1, fun hx => by cases hx⟩)
      · refine Or.inr (Or.inl ⟨rfl, _, hc, ?_, ?_, fun hx => by cases hx⟩)
        · intro hz; rw [hz] at hv; have : beVal [0, 0, 0] = 0 := by decide
          omega
        · rw [hv]; omega
      · exact Or.inl hc

theorem kissued_sorted (evs : List KeyEvent) : ∀ (d : TxDev) (hi n : Nat) (f : Bool), TxInv d hi f → Below d.ee n → 0x100000 ≤ n → n + evs.length ≤ 0x200000 → KSpaced f evs →
    (∀ c ∈ kissued d evs, hi ≤ beVal c) ∧ (kissued d evs).Pairwise (fun a b => beVal a < beVal b) := by
  induction evs with
  | nil => intro d hi n f _ _ _ _ _; simp [kissued]
  | cons ev t ih =>
    intro d hi n f hinv hb hn hlen hsp
    rw [List.length_cons] at hlen
    have hb1 : Below d.ee (n + 1) := fun q hq => by have := hb q hq; omega
    rw [kissued]
    cases ev with
    | tx e =>
      cases e with
      | call r r' =>
        obtain ⟨hc1, hc2⟩ := inv_call hinv r r'
        have hb2 := below_call hn hb r r'
        cases hout : (d.step (.call r r')).2 with
        | none =>
          have := ih _ _ (n + 1) _ (hc2 hout) hb2 (by omega) (by omega) hsp
          simp only [kstep, hout]
          exact this
        | some c =>
          obtain ⟨hle, hinv'⟩ := hc1 c hout
          obtain ⟨i1, i2⟩ := ih _ _ (n + 1) _ hinv' hb2 (by omega) (by omega) hsp
          simp only [kstep, hout, Option.toList_some, List.cons_append, List.nil_append]
          refine ⟨?_, ?_⟩
          · intro x hx
            simp only [List.mem_cons] at hx
            rcases hx with rfl | hx
            · exact hle
            · have := i1 x hx; omega
          · rw [List.pairwise_cons]
            exact ⟨fun x hx => by have := i1 x hx; omega, i2⟩
      | restart => exact ih _ _ (n + 1) _ (inv_restart hinv) hb1 (by omega) (by omega) hsp
      | crash r r' k =>
        obtain ⟨hf, hsp'⟩ := hsp
        subst hf
        exact ih _ _ (n + 1) _ (inv_crash hinv r r' k) (below_crash hn hinv hb r r' k) (by omega) (by omega) hsp'
    | line buf r =>
      have hraw := cliKey_raw buf d.ee
      have hinv1 : TxInv ⟨(cliKey buf d.ee).1, d.ram⟩ hi f := txInv_congr hraw hinv
      have hb2 : Below (cliKey buf d.ee).1 n := fun q hq => hb q (by rw [← getPrefix_congr hraw]; exact hq)
      show (∀ c ∈ kissued ⟨cliKeyLine buf r d.ee, d.ram⟩ t, _) ∧ (kissued ⟨cliKeyLine buf r d.ee, d.ram⟩ t).Pairwise _
      unfold cliKeyLine
      by_cases hc : (cliKey buf d.ee).2 = true
      · rw [if_pos hc]
        obtain ⟨h1, h2⟩ := inv_cond hinv1 hb2 (by omega) r
        exact ih _ _ (n + 1) _ h1 h2 (by omega) (by omega) hsp
      · rw [if_neg hc]
        exact ih _ _ n _ hinv1 hb2 hn (by omega) hsp
    | clearCrash r k =>
      obtain ⟨hf, hsp'⟩ := hsp
      subst hf
      obtain ⟨h1, h2⟩ := inv_clearCrash hinv hb (by omega) r k
      exact ih _ _ (n + 1) _ h1 h2 (by omega) (by omega) hsp'
    | other g =>
      have hraw : loadRaw (fun x => if 104 ≤ x ∧ x < 112 then d.ee x else g x) = loadRaw d.ee :=
        loadRaw_congr fun x h1 h2 => by simp only [h1, h2, and_self, if_true]
      exact ih _ _ n _ (txInv_congr hraw hinv) (fun q hq => hb q (by rw [← getPrefix_congr hraw]; exact hq)) hn (by omega) hsp

/-- **C238.** Start from any device just powered up with both copies of the counter prefix in step and below 10 00 00 (hex), such as a new one. In every history of at most 1048576 requests for counters,
restarts, lines given to the `K` command (keys set, cleared, set again), power failures during requests and key clears (any two separated by a completed request), and writes by other code outside
the counter, with any random bytes, the counters handed out strictly increase: setting an old key again never leads to a counter used before. -/
theorem C238_key_changes (m : EE) (b : Bytes) (hb : BothCopies m b) (hlt : beVal b < 0x100000) (evs : List KeyEvent) (hlen : evs.length ≤ 0x100000)
    (hsp : KSpaced true evs) :
    (kissued ⟨m, .boot⟩ evs).Pairwise (fun c1 c2 => beVal c1 < beVal c2) := by
  have hb' := bothCopies_iff.1 hb
  have hf : b ≠ [0xff, 0xff, 0xff] := by
    intro hh; rw [hh] at hlt; revert hlt; decide
  have hread := read_bothCopies hb hf
  have hinv : TxInv ⟨m, .boot⟩ 0 true := ⟨rfl, Or.inr (Or.inl ⟨rfl, b, hread, fun _ => rfl, by omega, fun _ => hb'.2⟩)⟩
  exact (kissued_sorted evs _ 0 0x100000 true hinv (fun q hq => by rw [show getTXNVCtrPrefix m = some b from hread] at hq; cases hq; exact hlt) (Nat.le_refl _) (by omega) hsp).2

/-- After a key clear on a device that can read its counter, the device still sends: a restarted device hands out a counter. -/
theorem C238_progress (m : EE) (p r s s' : Bytes) (hp : getTXNVCtrPrefix m = some p) :
    ∃ c, ((⟨(keyClear r).post m, .boot⟩ : TxDev).step (.call s s')).2 = some c ∧ c.length = 6 := by
  have hpost : (keyClear r).post m = (resetCond r).post ((setKey none).post m) := by
    show applyW m (_ ++ _) = _
    rw [applyW_append]; rfl
  have hraw := setKey_post none m
  obtain ⟨_, _, h3⟩ := C238_one r ((setKey none).post m)
  obtain ⟨q, hq, _, h4, h5⟩ := h3 p (by rw [getPrefix_congr hraw]; exact hp)
  rw [hpost]
  refine C20_progress _ q hq ?_ s s'
  by_cases h : beVal p < 0x200000
  · have := h4 h; omega
  · have := h5 (by omega); omega

/-- Not so after long use: with a prefix of 20 00 00 (hex) or more, a key clear takes the counter back below one already handed out; that it meets no old counter again under the same key then rests on the random bytes. -/
theorem C238_old_goes_back (m : EE) (p r : Bytes) (hp : getTXNVCtrPrefix m = some p) (h : 0x200000 ≤ beVal p) :
    ∃ q, getTXNVCtrPrefix ((keyClear r).post m) = some q ∧ beVal q < beVal p := by
  have hpost : (keyClear r).post m = (resetCond r).post ((setKey none).post m) := by
    show applyW m (_ ++ _) = _
    rw [applyW_append]; rfl
  obtain ⟨_, _, h3⟩ := C238_one r ((setKey none).post m)
  obtain ⟨q, _, hq, _, h5⟩ := h3 p (by rw [getPrefix_congr (setKey_post none m)]; exact hp)
  rw [hpost]
  exact ⟨q, hq, by have := h5 h; omega⟩

/-- Non-vacuity: a new device sends, its key is cleared by command, power fails during a second clear, it sends again: two counters, the second larger. -/
example : BothCopies (fun _ => 0xff) [0, 0, 0] ∧ beVal [0, 0, 0] < 0x100000 ∧
    KSpaced true [.tx (.call [1, 2, 3] [4, 5, 6]), .line (ascii "K B *") [], .clearCrash [] 3, .tx (.call [1, 2, 3] [4, 5, 6])] ∧
    kissued ⟨fun _ => 0xff, .boot⟩ [.tx (.call [1, 2, 3] [4, 5, 6]), .line (ascii "K B *") [], .clearCrash [] 3, .tx (.call [1, 2, 3] [4, 5, 6])]
      = [[1, 2, 3, 4, 5, 7], [1, 2, 6, 4, 5, 7]] := by
  refine ⟨erased_holds_zero, by decide, ⟨rfl, trivial⟩, by decide +kernel⟩

/-! ## C239 -/

/-- **C239.** With the null transmitter, no request to make a secure frame (of any type, body, key, encryption or buffer), beacon or valve frame produces one. -/
theorem C239_silent (fType : Byte) (ptext : Option Bytes) (n : Nat) (out : Bytes) (il pc : Byte) (again : Option Bytes) (e : EncFn) (scratch : Nat) (key : Option Bytes) :
    encode fType ptext n out il nullTx again e scratch key = .ret 0 ∧
    generateSecureBeacon out il nullTx again e scratch key = .ret 0 ∧
    encodeValveFrame ptext out il pc nullTx e scratch key = .fail := by
  have h : ∀ f pt n o, encode f pt n o il nullTx again e scratch key = .ret 0 := by
    intro f pt n o
    unfold encode
    split
    · rfl
    split
    · rfl
    rfl
  refine ⟨h _ _ _ _, h _ _ _ _, ?_⟩
  unfold encodeValveFrame failIf
  split <;> rfl

end OTR.Props
