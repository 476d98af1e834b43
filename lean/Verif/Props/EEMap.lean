import Verif.Model.EECalls
import Verif.Spec.EEMap
import Verif.Proof.RxCounter
import Verif.Proof.TxCounter
/-! # C231: features of the EEPROM never disturb each other -/

namespace OTR.Props
open OTR OTR.Spec OTR.FHT8V

/-- All writes of a routine are in `A`. -/
def Within {α : Type} (A : Nat → Prop) (x : EM α) : Prop := ∀ m w, w ∈ (x m).2 → A w.1

section
variable {α β : Type} {A : Nat → Prop}

theorem within_ret (a : α) : Within A (emRet a) := fun _ _ h => by cases h

theorem within_bind {x : EM α} {f : α → EM β} (hx : Within A x) (hf : ∀ a, Within A (f a)) : Within A (emBind x f) := by
  intro m w h
  rcases List.mem_append.1 h with h | h
  · exact hx m w h
  · exact hf _ _ w h

theorem within_if {c : Prop} [Decidable c] {x y : EM α} (hx : c → Within A x) (hy : ¬ c → Within A y) : Within A (emIf c x y) := by
  intro m w h
  unfold emIf at h
  by_cases hc : c
  · rw [if_pos hc] at h; exact hx hc m w h
  · rw [if_neg hc] at h; exact hy hc m w h

theorem within_read {a : Nat} {k : Byte → EM α} (hk : ∀ b, Within A (k b)) : Within A (eeRead a k) := fun m w h => hk _ m w h

theorem within_write {a : Nat} {v : Byte} (ha : A a) : Within A (eeWrite a v) := by
  intro m w h
  have : w = (a, v) := by simpa [eeWrite] using h
  rw [this]; exact ha

theorem within_erase {a : Nat} (ha : A a) : Within A (smartErase a) :=
  within_read fun _ => within_if (fun _ => within_ret _) fun _ => within_bind (within_write ha) fun _ => within_ret _

theorem within_clear {a : Nat} {v : Byte} (ha : A a) : Within A (smartClearBits a v) :=
  within_read fun _ => within_if (fun _ => within_ret _) fun _ => within_bind (within_write ha) fun _ => within_ret _

theorem within_upd {s : Bool} {a : Nat} {v : Byte} (ha : A a) : Within A (smartUpdate s a v) :=
  within_if (fun _ => within_erase ha) fun _ => within_read fun _ => within_if (fun _ => within_ret _) fun _ =>
    within_if (fun _ => within_clear ha) fun _ => within_bind (within_write ha) fun _ => within_ret _

theorem within_each {f : β → EM α} (l : List β) (hf : ∀ x ∈ l, Within A (f x)) : Within A (emForEach f l) := by
  induction l with
  | nil => exact within_ret _
  | cons x t ih => exact within_bind (hf x (List.mem_cons_self ..)) fun _ => ih fun y hy => hf y (List.mem_cons_of_mem _ hy)

theorem within_save (a : Nat) (img : Bytes) (h : ∀ i, i < img.length → A (a + i)) : Within A (saveFrom a img) := by
  induction img generalizing a with
  | nil => exact within_ret _
  | cons b t ih =>
    refine within_bind (within_upd (h 0 (by simp))) fun _ => within_read fun _ => within_if (fun _ => within_ret _) fun _ => ih (a + 1) fun i hi => ?_
    have := h (i + 1) (by simp; omega)
    rwa [show a + 1 + i = a + (i + 1) by omega]

theorem within_eraseFrom (k a : Nat) (h : ∀ i, i < k → A (a + i)) : Within A (eraseFrom k a) := by
  induction k generalizing a with
  | zero => exact within_ret _
  | succ k ih =>
    refine within_bind (within_erase (h 0 (by omega))) fun _ => within_read fun _ => within_if (fun _ => within_ret _) fun _ => ih (a + 1) fun i hi => ?_
    have := h (i + 1) (by omega)
    rwa [show a + 1 + i = a + (i + 1) by omega]

theorem within_zap (n p : Nat) (b : UInt16) (h : ∀ i, i < n → A (p + i)) : Within A (zapFrom p n b) := by
  induction n generalizing p b with
  | zero => exact within_ret _
  | succ n ih =>
    have next : ∀ i, i < n → A (p + 1 + i) := fun i hi => by
      have := h (i + 1) (by omega)
      rwa [show p + 1 + i = p + (i + 1) by omega]
    exact within_bind (within_erase (h 0 (by omega))) fun _ => within_if (fun _ => within_if (fun _ => within_ret _) fun _ => ih _ _ next) fun _ => ih _ _ next

theorem within_ensure (force : Bool) (k i : Nat) (rnd : Bytes) (h : ∀ j, j < k → A (20 + (i + j))) : Within A (ensureFrom force k i rnd) := by
  induction k generalizing i rnd with
  | zero => exact within_ret _
  | succ k ih =>
    refine within_read fun b => ?_
    generalize (if force ∨ b = 0xff then ensureCell rnd else some (b, rnd)) = q
    cases q with
    | none => exact within_ret _
    | some q =>
      obtain ⟨v, rnd'⟩ := q
      refine within_bind ?_ fun _ => within_read fun _ => within_if (fun _ => within_ret _) fun _ => ih (i + 1) rnd' fun j hj => ?_
      · by_cases c : force ∨ b = 0xff
        · rw [if_pos c]; exact within_upd (h 0 (by omega))
        · rw [if_neg c]; exact within_ret _
      · have := h (j + 1) (by omega)
        rwa [show i + 1 + j = i + (j + 1) by omega]

theorem within_add (id : Bytes) (k i : Nat) (h : ∀ j, i ≤ j → j < i + k → ∀ x, x < 32 → A (768 + j * 32 + x)) : Within A (addFrom id k i) := by
  induction k generalizing i with
  | zero => exact within_ret _
  | succ k ih =>
    refine within_read fun _ => within_if (fun _ => within_bind (within_each _ fun j hj => ?_) fun _ => within_ret _) fun _ =>
      ih (i + 1) fun j h1 h2 => h j (by omega) (by omega)
    have hj' : j < 32 := List.mem_range.mp hj
    have ha : A (assocRow i + j) := h i (Nat.le_refl _) (by omega) j hj'
    by_cases c : j < 8
    · simp only [if_pos c]; exact within_upd ha
    · simp only [if_neg c]; exact within_erase ha

theorem within_updBytes (a : Nat) (c : Bytes) (k : EM Bool) (h : ∀ i, i < c.length → A (a + i)) (hk : Within A k) : Within A (updBytes a c k) := by
  induction c generalizing a with
  | nil => exact hk
  | cons b t ih =>
    refine within_bind (within_upd (h 0 (by simp))) fun _ => within_read fun _ => within_if (fun _ => within_ret _) fun _ => ih (a + 1) fun i hi => ?_
    have := h (i + 1) (by simp; omega)
    rwa [show a + 1 + i = a + (i + 1) by omega]
end

/-- What a call is for. -/
def useOf : EECall → EEUse
  | .seedPRNGs .. => .seed
  | .persistRTC .. | .setHoursMinutes .. => .clock
  | .setSimpleSchedule .. | .clearSimpleSchedule .. => .schedule
  | .setFrost .. | .setWarm .. => .thresholds
  | .houseCode1 .. | .houseCode2 .. | .clearHouseCode .. | .cliHouse .. => .houseCode
  | .setMinBoilerOnMinutes .. => .boilerMins
  | .setMinValvePcReallyOpen .. => .minOpen
  | .ensureIDCreated .. | .storeID .. => .nodeID
  | .privacy .. => .privacy
  | .countDownSetbackLockout .. | .parameter .. => .parameters
  | .resetTXCounter .. | .incrementTXCounter | .getNextTXMsgCtr .. => .txCounter
  | .setKey .. => .key
  | .setStat .. | .zapStats .. => .stats
  | .clearAllNodeAssociations | .addNodeAssociation .. | .tableSet .. | .updateRXCounter .. => .associations

theorem within_fun {α : Type} {A : Nat → Prop} {f : EE → EM α} (h : ∀ m, Within A (f m)) : Within A (fun m => f m m) := fun m w hw => h m m w hw

theorem low2 (b : Byte) : ((3 : Byte) &&& b).toNat < 4 := by
  revert b; apply forall_byte; decide +kernel

theorem image_len (b : Bytes) (h : b.length = 3) : (image b).length = 8 := by
  unfold image; simp [h]

theorem noise_len (r : Bytes) : (noise r).length = 3 := rfl

theorem inc3_len (b : Bytes) : (inc3 b).1.length = 3 := by
  unfold inc3; dsimp only; (repeat' split) <;> rfl

theorem within_saveRaw (img : Bytes) (h : img.length = 8) : Within (EEUse.txCounter.owns) (saveRaw img) :=
  within_save 104 img fun i hi => by show 104 ≤ 104 + i ∧ 104 + i < 112; omega

theorem within_incr : Within (EEUse.txCounter.owns) incrementTXNVCtrPrefix := by
  intro m w h
  unfold incrementTXNVCtrPrefix at h
  cases hi : incrementImage (loadRaw m) with
  | none => rw [hi] at h; cases h
  | some img =>
    rw [hi] at h
    refine within_saveRaw img ?_ m w h
    unfold incrementImage at hi
    cases hr : read3 (loadRaw m) with
    | none => rw [hr] at hi; cases hi
    | some b =>
      rw [hr] at hi
      dsimp only at hi
      by_cases c : (inc3 b).2 = true
      · rw [if_pos c] at hi; cases hi
      · rw [if_neg c] at hi
        rw [← Option.some.inj hi]; exact image_len _ (inc3_len b)

theorem within_reset (z : Bool) (r : Bytes) : Within (EEUse.txCounter.owns) (resetRaw z r) := by
  unfold resetRaw
  cases z with
  | true => exact within_eraseFrom 8 104 fun i hi => by show 104 ≤ 104 + i ∧ 104 + i < 112; omega
  | false => exact within_bind (within_saveRaw _ (image_len _ (noise_len r))) fun _ => within_ret _

theorem within_nextTX (ram : TxRam) (r r' : Bytes) : Within (EEUse.txCounter.owns) (getNextTXMsgCtr ram r r') := by
  have last : ∀ (e : Bytes) (x : TxRam), Within (EEUse.txCounter.owns) (fun m => match getTXNVCtrPrefix m with
      | none => (((none : Option Bytes), x), ([] : List Wr)) | some p => ((some (p ++ e), x), [])) := by
    intro e x m w h
    dsimp only at h
    cases hg : getTXNVCtrPrefix m <;> rw [hg] at h <;> cases h
  intro m w h
  have fin : ∀ (b : Bool) (m : EE) (w : Wr), w ∈ ((if b || (inc3 (if (!ram.initialised) = true then tmpE r' else ram.ephemeral)).2 then
        emBind incrementTXNVCtrPrefix fun ok => emIf (ok = false)
          (emRet (none, ({ initialised := true, ephemeral := (inc3 (if (!ram.initialised) = true then tmpE r' else ram.ephemeral)).1 } : TxRam)))
          (fun m => match getTXNVCtrPrefix m with
            | none => ((none, ({ initialised := true, ephemeral := (inc3 (if (!ram.initialised) = true then tmpE r' else ram.ephemeral)).1 } : TxRam)), [])
            | some p => ((some (p ++ (inc3 (if (!ram.initialised) = true then tmpE r' else ram.ephemeral)).1), { initialised := true, ephemeral := (inc3 (if (!ram.initialised) = true then tmpE r' else ram.ephemeral)).1 }), []))
      else (fun m => match getTXNVCtrPrefix m with
            | none => ((none, ({ initialised := true, ephemeral := (inc3 (if (!ram.initialised) = true then tmpE r' else ram.ephemeral)).1 } : TxRam)), [])
            | some p => ((some (p ++ (inc3 (if (!ram.initialised) = true then tmpE r' else ram.ephemeral)).1), { initialised := true, ephemeral := (inc3 (if (!ram.initialised) = true then tmpE r' else ram.ephemeral)).1 }), [])) : EM (Option Bytes × TxRam)) m).2 →
      EEUse.txCounter.owns w.1 := by
    intro b m w h
    by_cases c : (b || (inc3 (if (!ram.initialised) = true then tmpE r' else ram.ephemeral)).2) = true
    · rw [if_pos c] at h
      exact within_bind within_incr (fun _ => within_if (fun _ => within_ret _) fun _ => last _ _) m w h
    · rw [if_neg c] at h
      exact last _ _ m w h
  unfold getNextTXMsgCtr at h
  dsimp only at h
  by_cases hd : (!ram.initialised) = true
  · rw [if_pos hd] at h
    cases hg : getTXNVCtrPrefix m with
    | none => rw [hg] at h; cases h
    | some p =>
      rw [hg] at h
      dsimp only at h
      by_cases hz : p = [0, 0, 0]
      · rw [if_pos hz] at h
        refine within_bind (within_reset false r) (fun ok => within_if (fun _ => within_ret _) fun _ => ?_) m w h
        exact fun m w h => fin false m w h
      · rw [if_neg hz] at h
        exact fin true m w h
  · rw [if_neg hd] at h
    exact fin false m w h

theorem within_persist (r : RTC) : Within (EEUse.clock.owns) r.persist := by
  have a : EEUse.clock.owns 10 := by show 8 ≤ 10 ∧ 10 < 11; omega
  have b : EEUse.clock.owns 8 := by show 8 ≤ 8 ∧ 8 < 11; omega
  have c : EEUse.clock.owns 9 := by show 8 ≤ 9 ∧ 9 < 11; omega
  refine within_read fun _ => within_if (fun _ => within_bind (within_if (fun _ => within_write a) fun _ => within_bind (within_clear a) fun _ => within_ret _)
    fun _ => within_fun (f := fun m => emIf (dayWord m ≠ r.days) (writeDay r.days) (emRet ())) fun _ => within_if (fun _ => within_bind (within_write b) fun _ => within_write c) fun _ => within_ret _) fun _ => within_ret _

theorem getNext_lt {m : EE} {id : Bytes} {i : Nat} (h : getNextMatchingNodeID m 0 id = some i) : i < 8 := by
  have gen : ∀ k n, findFrom m id k n = some i → i < n + k := by
    intro k
    induction k with
    | zero => intro n h; cases h
    | succ k ih =>
      intro n h
      rw [findFrom] at h
      by_cases c1 : (rowID m n)[0]?.getD 0 = 0xff
      · rw [if_pos c1] at h; cases h
      · rw [if_neg c1] at h
        by_cases c2 : id.length = 0 ∨ memcmp ((rowID m n).take id.length) id = 0
        · rw [if_pos c2] at h
          have := Option.some.inj h
          omega
        · rw [if_neg c2] at h
          have := ih _ h
          omega
  unfold getNextMatchingNodeID at h
  rw [if_neg (show ¬ 0 ≥ 8 by omega)] at h
  by_cases c : id.length > 8
  · rw [if_pos c] at h; cases h
  · rw [if_neg c] at h
    have := gen _ _ h
    omega

/-- **C231** Whatever the call, its arguments and the contents, every cell it writes is in the area of what the call is for. -/
theorem C231_within (c : EECall) (m : EE) (hlen : ∀ id new, c = .updateRXCounter id new → new.length = 6) (w : Wr) (hw : w ∈ c.writes m) :
    (useOf c).owns w.1 := by
  cases c with
  | seedPRNGs p n =>
    have ha : EEUse.seed.owns (2 + ((3 : Byte) &&& p).toNat) := by have := low2 p; show 2 ≤ _ ∧ _ < 6; omega
    exact within_read (fun _ => within_if (fun _ => within_bind (within_erase ha) fun _ => within_ret ()) fun _ => within_bind (within_clear ha) fun _ => within_ret ()) m w hw
  | persistRTC r => exact within_persist r m w hw
  | setHoursMinutes r h mi =>
    dsimp only [EECall.writes] at hw
    by_cases c1 : h > 23 ∨ mi > 59
    · rw [if_pos c1] at hw; cases hw
    · rw [if_neg c1] at hw
      by_cases c2 : 60 * h + mi ≠ r.mins
      · rw [if_pos c2] at hw; exact within_persist _ m w hw
      · rw [if_neg c2] at hw; cases hw
  | setSimpleSchedule s t k =>
    exact within_if (fun _ => within_ret _) (fun hk => within_if (fun _ => within_ret _) fun _ =>
      within_bind (within_upd (by show 12 ≤ 12 + k ∧ 12 + k < 14; omega)) fun _ => within_ret true) m w hw
  | clearSimpleSchedule k =>
    exact within_if (fun _ => within_ret _) (fun hk =>
      within_bind (within_erase (by show 12 ≤ 12 + k ∧ 12 + k < 14; omega)) fun _ => within_ret ()) m w hw
  | setFrost s p t =>
    exact within_if (fun _ => within_ret _) (fun _ => within_if (fun _ => within_ret _) fun _ =>
      within_bind (within_upd (by show 14 ≤ 14 ∧ 14 < 16; omega)) fun _ => within_ret true) m w hw
  | setWarm s p t =>
    exact within_if (fun _ => within_ret _) (fun _ => within_if (fun _ => within_ret _) fun _ =>
      within_bind (within_upd (by show 14 ≤ 15 ∧ 15 < 16; omega)) fun _ => within_ret true) m w hw
  | houseCode1 v hc => exact within_bind (within_upd (by show 16 ≤ 16 ∧ 16 < 18; omega)) (fun _ => within_ret (v.setHC1 hc)) m w hw
  | houseCode2 v hc => exact within_bind (within_upd (by show 16 ≤ 17 ∧ 17 < 18; omega)) (fun _ => within_ret (v.setHC2 hc)) m w hw
  | clearHouseCode v =>
    exact within_bind (within_erase (by show 16 ≤ 16 ∧ 16 < 18; omega)) (fun _ => within_bind (within_erase (by show 16 ≤ 17 ∧ 17 < 18; omega)) fun _ => within_ret v.clearHC) m w hw
  | cliHouse v buf =>
    have h1 : ∀ (v : Drv) hc, Within (EEUse.houseCode.owns) (v.nvSetHC1 hc) := fun v hc =>
      within_bind (within_upd (by show 16 ≤ 16 ∧ 16 < 18; omega)) (fun _ => within_ret _)
    have h2 : ∀ (v : Drv) hc, Within (EEUse.houseCode.owns) (v.nvSetHC2 hc) := fun v hc =>
      within_bind (within_upd (by show 16 ≤ 17 ∧ 17 < 18; omega)) (fun _ => within_ret _)
    have main : Within (EEUse.houseCode.owns) (v.cliHouse buf) := by
      unfold Drv.cliHouse
      split
      · split
        · exact within_ret _
        · exact within_ret _
        · split
          · exact within_ret _
          · exact within_bind (h1 _ _) fun _ => h2 _ _
      · split
        · exact within_bind (within_erase (by show 16 ≤ 16 ∧ 16 < 18; omega)) (fun _ => within_bind (within_erase (by show 16 ≤ 17 ∧ 17 < 18; omega)) fun _ => within_ret _)
        · exact within_ret _
    exact main m w hw
  | setMinBoilerOnMinutes s u x =>
    have main : Within (EEUse.boilerMins.owns) (boilerSave s u x) := by
      unfold boilerSave
      cases OTR.setMinBoilerOnMinutes u x with
      | none => exact within_ret _
      | some b => exact within_bind (within_upd (by show 18 ≤ 18 ∧ 18 < 19; omega)) fun _ => within_ret _
    exact main m w hw
  | setMinValvePcReallyOpen s pc =>
    exact within_if (fun _ => within_bind (within_erase (by show 19 ≤ 19 ∧ 19 < 20; omega)) fun _ => within_ret ())
      (fun _ => within_bind (within_upd (by show 19 ≤ 19 ∧ 19 < 20; omega)) fun _ => within_ret ()) m w hw
  | ensureIDCreated f r => exact within_ensure f 8 0 r (fun j hj => by show 20 ≤ 20 + (0 + j) ∧ 20 + (0 + j) < 28; omega) m w hw
  | storeID id =>
    exact within_each (List.range 8) (fun j hj => within_upd (by have := List.mem_range.mp hj; show 20 ≤ 20 + j ∧ 20 + j < 28; omega)) m w hw
  | privacy v => exact within_upd (by show 28 ≤ 28 ∧ 28 < 29; omega) m w hw
  | countDownSetbackLockout s =>
    have hw' : w ∈ (OTR.countDownSetbackLockout s m).2 := hw
    unfold OTR.countDownSetbackLockout at hw'
    by_cases c : m 32 ≠ 0xff
    · rw [if_pos c] at hw'
      exact within_upd (by show 32 ≤ 32 ∧ 32 < 65; omega) m w hw'
    · rw [if_neg c] at hw'; cases hw'
  | parameter n v =>
    dsimp only [EECall.writes] at hw
    by_cases c : n > 32
    · rw [if_pos c] at hw; cases hw
    · rw [if_neg c] at hw
      exact within_upd (by show 32 ≤ 32 + n ∧ 32 + n < 65; omega) m w hw
  | resetTXCounter z r => exact within_reset z r m w hw
  | incrementTXCounter => exact within_incr m w hw
  | getNextTXMsgCtr ram r r' => exact within_nextTX ram r r' m w hw
  | setKey k =>
    have main : Within (EEUse.key.owns) (OTR.setKey k) := by
      cases k with
      | none => exact within_bind (within_each _ fun j hj => within_erase (by have := List.mem_range.mp hj; show 112 ≤ 112 + j ∧ 112 + j < 128; omega)) fun _ => within_ret _
      | some k =>
        unfold OTR.setKey
        refine within_bind (within_each _ fun j hj => within_upd ?_) fun _ => fun _ _ h => by cases h
        have := List.mem_range.mp hj
        show 112 ≤ 112 + j ∧ 112 + j < 128
        omega
    exact main m w hw
  | setStat s set hh v =>
    exact within_if (fun _ => within_ret _) (fun h1 => within_if (fun _ => within_ret _) fun h2 =>
      within_bind (within_upd (by show 256 ≤ 256 + set * 24 + hh ∧ 256 + set * 24 + hh < 616; omega)) fun _ => within_ret ()) m w hw
  | zapStats n => exact within_zap 360 256 n (fun i hi => by show 256 ≤ 256 + i ∧ 256 + i < 616; omega) m w hw
  | clearAllNodeAssociations =>
    exact within_each (List.range 8) (fun j hj => within_erase (by have := List.mem_range.mp hj; show 768 ≤ 768 + j * 32 ∧ 768 + j * 32 < 1024; omega)) m w hw
  | addNodeAssociation id =>
    exact within_add id 8 0 (fun j h1 h2 x hx => by show 768 ≤ 768 + j * 32 + x ∧ 768 + j * 32 + x < 1024; omega) m w hw
  | tableSet i s =>
    have main : Within (EEUse.associations.owns) (OTR.tableSet i s) := by
      cases s with
      | none => exact within_ret _
      | some id =>
        refine within_if (fun _ => within_ret _) fun hi => within_bind (within_each _ fun j hj => ?_) fun _ => within_ret _
        have := List.mem_range.mp hj
        exact within_read fun _ => within_if (fun _ => within_ret _) fun _ => within_write (by show 768 ≤ 768 + i * 32 + j ∧ 768 + i * 32 + j < 1024; omega)
    exact main m w hw
  | updateRXCounter id new =>
    have h6 := hlen id new rfl
    have hw' : w ∈ (authAndUpdateRXMsgCtr id new m).2 := hw
    unfold authAndUpdateRXMsgCtr at hw'
    cases hl : getLastRXMsgCtr m id with
    | none => rw [hl] at hw'; cases hw'
    | some cur =>
      rw [hl] at hw'
      dsimp only at hw'
      by_cases hgt : msgcountercmp new cur > 0
      · rw [if_pos hgt] at hw'
        cases hg : getNextMatchingNodeID m 0 id with
        | none => rw [hg] at hw'; cases hw'
        | some i =>
          rw [hg] at hw'
          dsimp only at hw'
          have h1 := rowUpdate_confined h6 hw'
          have h2 : i < 8 := getNext_lt hg
          have e : assocRow i = 768 + i * 32 := rfl
          show 768 ≤ w.1 ∧ w.1 < 1024
          omega
      · rw [if_neg hgt] at hw'; cases hw'

/-- **C231** No two areas overlap, and all are within the EEPROM's 1024 bytes. -/
theorem C231_disjoint (u v : EEUse) (a : Nat) (hu : u.owns a) (hv : v.owns a) : u = v ∧ a < 1024 := by
  cases u <;> cases v <;> simp only [EEUse.owns, EEUse.area] at hu hv <;> first | (refine ⟨rfl, ?_⟩; omega) | omega

/-- A call, and after how many of its writes the power failed (if as many as that were made at all). -/
abbrev CutCall := EECall × Option Nat

/-- The contents after a history of calls. -/
def afterCalls (m : EE) : List CutCall → EE
  | [] => m
  | (c, none) :: t => afterCalls (applyW m (c.writes m)) t
  | (c, some n) :: t => afterCalls (applyW m ((c.writes m).take n)) t

theorem applyW_untouched (m : EE) (ws : List Wr) (a : Nat) (h : ∀ w ∈ ws, w.1 ≠ a) : applyW m ws a = m a := by
  induction ws generalizing m with
  | nil => rfl
  | cons w t ih =>
    show applyW (m.upd w.1 w.2) t a = _
    rw [ih _ fun x hx => h x (List.mem_cons_of_mem _ hx)]
    have := h w (List.mem_cons_self ..)
    unfold EE.upd; rw [if_neg (fun e => this e.symm)]

/-- **C231** Over any history of calls, with the power failing in any of them after any number of its writes: an area keeps its contents as long as
no call is made for it, whatever other calls are made. Cells that are in no area never change. -/
theorem C231_undisturbed (m : EE) (h : List CutCall) (hlen : ∀ x ∈ h, ∀ id new, x.1 = .updateRXCounter id new → new.length = 6) (a : Nat)
    (hn : ∀ x ∈ h, ¬ (useOf x.1).owns a) : afterCalls m h a = m a := by
  induction h generalizing m with
  | nil => rfl
  | cons x t ih =>
    have hx : ∀ w ∈ x.1.writes m, w.1 ≠ a := by
      intro w hw e
      have := C231_within x.1 m (hlen x (List.mem_cons_self ..)) w hw
      rw [e] at this
      exact hn x (List.mem_cons_self ..) this
    have ht := fun m' => ih m' (fun y hy => hlen y (List.mem_cons_of_mem _ hy)) (fun y hy => hn y (List.mem_cons_of_mem _ hy))
    obtain ⟨c, k⟩ := x
    cases k with
    | none =>
      show afterCalls _ t a = _
      rw [ht]; exact applyW_untouched _ _ _ hx
    | some k =>
      show afterCalls _ t a = _
      rw [ht]; exact applyW_untouched _ _ _ fun w hw => hx w (List.mem_of_mem_take hw)

/-- For instance the building key: setting times, schedules, temperatures, statistics, IDs, associations and counters leaves it as it is. -/
theorem C231_key_kept (m : EE) (h : List CutCall) (hlen : ∀ x ∈ h, ∀ id new, x.1 = .updateRXCounter id new → new.length = 6)
    (hn : ∀ x ∈ h, ∀ k, x.1 ≠ .setKey k) : getKey (afterCalls m h) = getKey m := by
  have same : ∀ i, i < 16 → afterCalls m h (112 + i) = m (112 + i) := by
    intro i hi
    apply C231_undisturbed m h hlen
    intro x hx hu
    have hk : EEUse.key.owns (112 + i) := by show 112 ≤ 112 + i ∧ 112 + i < 128; omega
    have := (C231_disjoint _ _ _ hu hk).1
    obtain ⟨c, n⟩ := x
    cases c <;> first | (exact hn _ hx _ rfl) | (exact nomatch this)
  have e : eeBlock (afterCalls m h) 112 16 = eeBlock m 112 16 := by
    unfold eeBlock
    apply List.map_congr_left
    intro i hi
    exact same i (List.mem_range.mp hi)
  unfold getKey
  rw [e]

/-- **C231** The commands typed at the command line are such calls: each leaves the EEPROM as some calls for one use do. -/
theorem C231_commands (junk buf : Bytes) (r : RTC) (m : EE) :
    (∃ h : List EECall, cliAssoc junk buf m = afterCalls m (h.map (·, none)) ∧ ∀ c ∈ h, useOf c = .associations ∧ ∀ id new, c ≠ .updateRXCounter id new) ∧
    (∃ h : List EECall, cliParam buf m = afterCalls m (h.map (·, none)) ∧ ∀ c ∈ h, useOf c = .parameters) ∧
    (∃ h : List EECall, cliSetID junk buf m = afterCalls m (h.map (·, none)) ∧ ∀ c ∈ h, useOf c = .nodeID) ∧
    (∃ h : List EECall, (cliKey buf m).1 = afterCalls m (h.map (·, none)) ∧ ∀ c ∈ h, useOf c = .key) ∧
    (∃ h : List EECall, (cliTime buf r m).2 = afterCalls m (h.map (·, none)) ∧ ∀ c ∈ h, useOf c = .clock) ∧
    (∃ h : List EECall, cliPrivacy buf m = afterCalls m (h.map (·, none)) ∧ ∀ c ∈ h, useOf c = .privacy) := by
  have none1 : ∀ (P : EECall → Prop) (m' : EE), m' = m → ∃ h : List EECall, m' = afterCalls m (h.map (·, none)) ∧ ∀ c ∈ h, P c :=
    fun P m' e => ⟨[], e, fun _ h => by cases h⟩
  have one : ∀ (P : EECall → Prop) (c : EECall) (m' : EE), m' = applyW m (c.writes m) → P c → ∃ h : List EECall, m' = afterCalls m (h.map (·, none)) ∧ ∀ c ∈ h, P c :=
    fun P c m' e p => ⟨[c], e, fun x h => by rw [List.mem_singleton.mp h]; exact p⟩
  refine ⟨?_, ?_, ?_, ?_, ?_, ?_⟩
  · unfold cliAssoc
    split
    · split
      · exact none1 _ _ rfl
      · split
        · exact none1 _ _ rfl
        · split
          · exact one _ .clearAllNodeAssociations _ rfl ⟨rfl, fun _ _ h => nomatch h⟩
          · split
            · split
              · exact none1 _ _ rfl
              · rename_i id _
                exact one _ (.addNodeAssociation id) _ rfl ⟨rfl, fun _ _ h => nomatch h⟩
            · exact none1 _ _ rfl
    · exact none1 _ _ rfl
  · unfold cliParam
    split
    · split
      · exact none1 _ _ rfl
      · rename_i t1 ts _
        by_cases c : atoiU8 t1 > 32
        · rw [if_pos c]; exact none1 _ _ rfl
        · rw [if_neg c]
          split
          · exact none1 _ _ rfl
          · rename_i t2 r2 hh
            split
            · exact none1 _ _ rfl
            · refine one _ (.parameter (atoiU8 t1) (u8 (atoi16 t2).toNat)) _ ?_ rfl
              dsimp only [EECall.writes]
              rw [if_neg c]; rfl
    · exact none1 _ _ rfl
  · unfold cliSetID
    split
    · split
      · exact none1 _ _ rfl
      · split
        · exact none1 _ _ rfl
        · rename_i id _
          exact one _ (.storeID id) _ rfl rfl
    · exact none1 _ _ rfl
  · unfold cliKey
    split
    · split
      · exact none1 _ _ rfl
      · split
        · split
          · exact none1 _ _ rfl
          · rename_i t2 rest _
            split
            · exact one _ (.setKey none) _ rfl rfl
            · split
              · split
                · exact none1 _ _ rfl
                · rename_i ks _
                  exact one _ (.setKey (some (u8 (hexTok t2 % 256).toNat :: ks))) _ rfl rfl
              · exact none1 _ _ rfl
        · exact none1 _ _ rfl
    · exact none1 _ _ rfl
  · unfold cliTime
    split
    · split
      · rename_i t1 t2 _ _
        refine one _ (.setHoursMinutes r (atoiU8 t1) (atoiU8 t2)) _ ?_ rfl
        dsimp only [EECall.writes, RTC.setHM]
        by_cases c1 : atoiU8 t1 > 23 ∨ atoiU8 t2 > 59
        · rw [if_pos c1, if_pos c1]; rfl
        · rw [if_neg c1, if_neg c1]
          by_cases c2 : 60 * atoiU8 t1 + atoiU8 t2 ≠ r.mins
          · rw [if_pos c2, if_pos c2]; rfl
          · rw [if_neg c2, if_neg c2]; rfl
      · exact none1 _ _ rfl
    · exact none1 _ _ rfl
  · unfold cliPrivacy
    split
    · split
      · exact none1 _ _ rfl
      · rename_i t1 _ _
        exact one _ (.privacy (u8 (atoiU8 t1))) _ rfl rfl
    · exact none1 _ _ rfl

example : (EECall.setStat true 13 23 7).writes (fun _ => 0xff) = [(591, 7)] ∧ (EECall.parameter 32 7).writes (fun _ => 0xff) = [(64, 7)] ∧
    (EECall.zapStats 2).writes (fun a => if a = 615 then 1 else 0xff) = [(615, 0xff)] := by decide +kernel

end OTR.Props
