import Verif.Model.TextOut
import Verif.Props.CLISet
import Verif.Props.BinaryStats
/-!
# Properties C172-C174: FHT8V house codes and the stats message that carries them
-/

namespace OTR.Props
open OTR OTR.FHT8V

/-- The live codes of the valve object. -/
def live (v : Drv) : Byte × Byte := (v.hc1, v.hc2)
/-- The codes in EEPROM. -/
def stored (m : EE) : Byte × Byte := (m 16, m 17)
/-- A code that can be used. -/
def usable (b : Byte) : Prop := b.toNat ≤ 99

instance (b : Byte) : Decidable (usable b) := inferInstanceAs (Decidable (b.toNat ≤ 99))

theorem validHouse_iff (b : Byte) : validHouse b = true ↔ usable b := by
  unfold validHouse usable
  simp only [decide_eq_true_eq]
  exact UInt8.le_iff_toNat_le

theorem setHC1_live (v : Drv) (b : Byte) : live (v.setHC1 b) = (b, v.hc2) := by
  unfold Drv.setHC1 live
  split
  · rfl
  · rename_i h; rw [Classical.not_not.1 h]

theorem setHC2_live (v : Drv) (b : Byte) : live (v.setHC2 b) = (v.hc1, b) := by
  unfold Drv.setHC2 live
  split
  · rfl
  · rename_i h; rw [Classical.not_not.1 h]

theorem set1_run (v : Drv) (b : Byte) (m : EE) : ((v.nvSetHC1 b) m).1 = v.setHC1 b ∧ (v.nvSetHC1 b).post m = m.upd 16 b := by
  unfold Drv.nvSetHC1
  refine ⟨rfl, ?_⟩
  rw [post_bind, post_update]; rfl

theorem set2_run (v : Drv) (b : Byte) (m : EE) : ((v.nvSetHC2 b) m).1 = v.setHC2 b ∧ (v.nvSetHC2 b).post m = m.upd 17 b := by
  unfold Drv.nvSetHC2
  refine ⟨rfl, ?_⟩
  rw [post_bind, post_update]; rfl

theorem clear_run (v : Drv) (m : EE) : (v.nvClearHC m).1 = v.clearHC ∧ v.nvClearHC.post m = (m.upd 16 0xff).upd 17 0xff := by
  unfold Drv.nvClearHC
  refine ⟨rfl, ?_⟩
  rw [post_bind, post_bind, post_smartErase, post_smartErase]; rfl

theorem both_run (v : Drv) (a b : Byte) (m : EE) :
    (emBind (v.nvSetHC1 a) (fun v' => v'.nvSetHC2 b) m).1 = (v.setHC1 a).setHC2 b ∧
    (emBind (v.nvSetHC1 a) (fun v' => v'.nvSetHC2 b)).post m = (m.upd 16 a).upd 17 b := by
  constructor
  · show ((((v.nvSetHC1 a) m).1).nvSetHC2 b (applyW m ((v.nvSetHC1 a) m).2)).1 = _
    rw [(set2_run _ _ _).1, (set1_run _ _ _).1]
  · rw [post_bind, (set1_run _ _ _).2, (set1_run _ _ _).1, (set2_run _ _ _).2]

/-- What the command does, in terms of the words given. -/
theorem house_cases (v : Drv) (buf : Bytes) :
    (∃ t1 t2 ts, strToks [] (buf.drop 2) = t1 :: t2 :: ts ∧ 5 ≤ buf.length ∧ 0 ≤ atoi16 t1 ∧ atoi16 t1 ≤ 99 ∧ 0 ≤ atoi16 t2 ∧ atoi16 t2 ≤ 99 ∧
      v.cliHouse buf = emBind (v.nvSetHC1 (u8 (atoi16 t1).toNat)) fun v' => v'.nvSetHC2 (u8 (atoi16 t2).toNat)) ∨
    (buf.length < 2 ∧ v.cliHouse buf = v.nvClearHC) ∨ (2 ≤ buf.length ∧ v.cliHouse buf = emRet v) := by
  unfold Drv.cliHouse
  by_cases h5 : buf.length ≥ 5
  · rw [if_pos h5]
    match strToks [] (buf.drop 2) with
    | [] => exact .inr (.inr ⟨by omega, rfl⟩)
    | [_] => exact .inr (.inr ⟨by omega, rfl⟩)
    | t1 :: t2 :: ts =>
      dsimp only
      by_cases hr : atoi16 t1 < 0 ∨ atoi16 t1 > 99 ∨ atoi16 t2 < 0 ∨ atoi16 t2 > 99
      · rw [if_pos hr]; exact .inr (.inr ⟨by omega, rfl⟩)
      · rw [if_neg hr]
        exact .inl ⟨t1, t2, ts, rfl, h5, by omega, by omega, by omega, by omega, rfl⟩
  · rw [if_neg h5]
    by_cases h2 : buf.length < 2
    · rw [if_pos h2]; exact .inr (.inl ⟨h2, rfl⟩)
    · rw [if_neg h2]; exact .inr (.inr ⟨by omega, rfl⟩)

theorem u8_small (x : Int) (h0 : 0 ≤ x) (h : x ≤ 99) : usable (u8 x.toNat) := by
  unfold usable u8
  rw [UInt8.toNat_ofNat']
  omega

/-! ## C172 -/

/-- Loading after a restart gives the codes in EEPROM, those that can be used; others read as not set. -/
theorem load_spec (radio : Bool) (m : EE) :
    live ((Drv.init radio).nvLoadHC m) = (if usable (m 16) then m 16 else 0xff, if usable (m 17) then m 17 else 0xff) := by
  have g1 : ((Drv.init radio).nvGetHC1 m).2 = (if usable (m 16) then (Drv.init radio).setHC1 (m 16) else Drv.init radio) := by
    unfold Drv.nvGetHC1
    have hn : ¬ validHouse (Drv.init radio).hc1 = true := show ¬ validHouse (0xff : Byte) = true by decide
    rw [if_neg hn]
    by_cases h : usable (m 16)
    · rw [if_pos ((validHouse_iff _).2 h), if_pos h]
    · rw [if_neg (fun e => h ((validHouse_iff _).1 e)), if_neg h]
  unfold Drv.nvLoadHC
  rw [g1]
  generalize hd : (if usable (m 16) then (Drv.init radio).setHC1 (m 16) else Drv.init radio) = d
  have hl : live d = (if usable (m 16) then m 16 else 0xff, 0xff) := by
    rw [← hd]
    by_cases h : usable (m 16)
    · rw [if_pos h, if_pos h, setHC1_live]; rfl
    · rw [if_neg h, if_neg h]; rfl
  have h2 : d.hc2 = 0xff := congrArg Prod.snd hl
  have h1 : d.hc1 = if usable (m 16) then m 16 else 0xff := congrArg Prod.fst hl
  unfold Drv.nvGetHC2
  rw [h2, if_neg (show ¬ validHouse 0xff = true by decide)]
  by_cases h : usable (m 17)
  · rw [if_pos ((validHouse_iff _).2 h), if_pos h, setHC2_live, h1]
  · rw [if_neg (fun e => h ((validHouse_iff _).1 e)), if_neg h, ← h1, ← h2]; rfl

/-- **C172** (set): "H hc1 hc2" with two numbers up to 99 makes them the live and the stored codes, changes no other EEPROM cell, and
after a restart they are the codes in use. -/
theorem C172_set (v : Drv) (buf : Bytes) (m : EE) (h0 : ∀ c ∈ buf, c ≠ 0) (w1 w2 : Bytes) (ws : List Bytes) (n1 n2 : Nat)
    (hws : IsWords (buf.drop 2) (w1 :: w2 :: ws)) (hl : 5 ≤ buf.length) (d1 : DecWord w1 n1) (d2 : DecWord w2 n2) (b1 : n1 ≤ 99) (b2 : n2 ≤ 99) :
    live ((v.cliHouse buf) m).1 = (u8 n1, u8 n2) ∧ stored ((v.cliHouse buf).post m) = (u8 n1, u8 n2) ∧
    (∀ a, a ≠ 16 → a ≠ 17 → (v.cliHouse buf).post m a = m a) ∧
    (∀ radio, live ((Drv.init radio).nvLoadHC ((v.cliHouse buf).post m)) = (u8 n1, u8 n2)) := by
  have ht := strToks_words hws (fun c hc => h0 c (List.mem_of_mem_drop hc))
  have a1 := atoi16_dec d1 (by omega)
  have a2 := atoi16_dec d2 (by omega)
  have he : v.cliHouse buf = emBind (v.nvSetHC1 (u8 n1)) fun v' => v'.nvSetHC2 (u8 n2) := by
    unfold Drv.cliHouse
    rw [if_pos hl, ht]
    dsimp only
    rw [a1, a2, if_neg (by omega)]
    simp
  obtain ⟨r1, r2⟩ := both_run v (u8 n1) (u8 n2) m
  have hst : stored (((m.upd 16 (u8 n1)).upd 17 (u8 n2))) = (u8 n1, u8 n2) := by
    unfold stored
    rw [EE.upd_same, EE.upd_other _ _ (by decide), EE.upd_same]
  rw [he]
  refine ⟨?_, by rw [r2, hst], ?_, ?_⟩
  · rw [r1, setHC2_live]
    have := congrArg Prod.fst (setHC1_live v (u8 n1))
    exact Prod.ext this rfl
  · intro a ha hb
    rw [r2, EE.upd_other _ _ hb, EE.upd_other _ _ ha]
  · intro radio
    rw [r2, load_spec]
    have e1 := congrArg Prod.fst hst
    have e2 := congrArg Prod.snd hst
    dsimp only [stored] at e1 e2
    rw [e1, e2, if_pos (show usable (u8 n1) from u8_small (n1 : Int) (by omega) (by omega)), if_pos (show usable (u8 n2) from u8_small (n2 : Int) (by omega) (by omega))]

/-- **C172** (clear): "H" clears the live and the stored codes; after a restart none are in use. -/
theorem C172_clear (v : Drv) (buf : Bytes) (m : EE) (hl : buf.length < 2) :
    live ((v.cliHouse buf) m).1 = (0xff, 0xff) ∧ stored ((v.cliHouse buf).post m) = (0xff, 0xff) ∧
    (∀ a, a ≠ 16 → a ≠ 17 → (v.cliHouse buf).post m a = m a) ∧
    (∀ radio, live ((Drv.init radio).nvLoadHC ((v.cliHouse buf).post m)) = (0xff, 0xff)) := by
  have he : v.cliHouse buf = v.nvClearHC := by
    unfold Drv.cliHouse
    rw [if_neg (by omega), if_pos hl]
  obtain ⟨r1, r2⟩ := clear_run v m
  have e1 : ((m.upd 16 0xff).upd 17 0xff) 16 = 0xff := by rw [EE.upd_other _ _ (by decide), EE.upd_same]
  have e2 : ((m.upd 16 0xff).upd 17 0xff) 17 = 0xff := EE.upd_same _ _ _
  rw [he]
  refine ⟨by rw [r1]; rfl, by rw [r2]; unfold stored; rw [e1, e2], ?_, ?_⟩
  · intro a ha hb
    rw [r2, EE.upd_other _ _ hb, EE.upd_other _ _ ha]
  · intro radio
    rw [r2, load_spec, e1, e2]
    rfl

/-- Setting the codes already live leaves the valve object as it is (no new synchronisation); a changed code drops synchronisation. -/
theorem C172_resync (v : Drv) (a b : Byte) :
    (live v = (a, b) → (v.setHC1 a).setHC2 b = v) ∧
    (live v ≠ (a, b) → ((v.setHC1 a).setHC2 b).synced = false ∧ ((v.setHC1 a).setHC2 b).syncState = 0 ∧ ((v.setHC1 a).setHC2 b).isOpen = false) := by
  constructor
  · intro h
    have h1 : v.hc1 = a := congrArg Prod.fst h
    have h2 : v.hc2 = b := congrArg Prod.snd h
    unfold Drv.setHC1 Drv.setHC2
    rw [if_neg (not_not_intro h1.symm), if_neg (not_not_intro h2.symm)]
  · intro h
    unfold Drv.setHC1
    by_cases h1 : a ≠ v.hc1
    · rw [if_pos h1]
      unfold Drv.setHC2
      split <;> exact ⟨rfl, rfl, rfl⟩
    · rw [if_neg h1]
      unfold Drv.setHC2
      by_cases h2 : b ≠ v.hc2
      · rw [if_pos h2]; exact ⟨rfl, rfl, rfl⟩
      · exfalso; apply h
        rw [Classical.not_not.1 h1, Classical.not_not.1 h2]; rfl

/-- What may happen to the codes: console commands, the non-volatile setters, loading, restarts, and the valve doing its work
(setting positions and running its radio cycles). -/
inductive HOp where
  | cmd (buf : Bytes)
  | set1 (b : Byte)
  | set2 (b : Byte)
  | clear
  | load
  | restart (radio : Bool)
  | position (v : Nat)
  | cycle (rnd : Nat → Byte)

/-- One step of valve object and EEPROM. -/
def HOp.run (c : Cfg) (x : Drv × EE) : HOp → Drv × EE
  | .cmd buf => ((x.1.cliHouse buf x.2).1, (x.1.cliHouse buf).post x.2)
  | .set1 b => ((x.1.nvSetHC1 b x.2).1, (x.1.nvSetHC1 b).post x.2)
  | .set2 b => ((x.1.nvSetHC2 b x.2).1, (x.1.nvSetHC2 b).post x.2)
  | .clear => ((x.1.nvClearHC x.2).1, x.1.nvClearHC.post x.2)
  | .load => (x.1.nvLoadHC x.2, x.2)
  | .restart radio => (Drv.init radio, x.2)
  | .position v => (x.1.set c v, x.2)
  | .cycle rnd => ((x.1.cycle c rnd).1, x.2)

/-- Live codes agree with the stored ones or are unusable. -/
def Agree (v : Drv) (m : EE) : Prop := (usable v.hc1 → v.hc1 = m 16) ∧ (usable v.hc2 → v.hc2 = m 17)

theorem set_live (c : Cfg) (v : Drv) (x : Nat) : live (v.set c x) = live v := by
  unfold Drv.set
  split
  · rfl
  · unfold Drv.createSetFrame live
    first | rfl | (split <;> rfl) | (dsimp only; split <;> rfl)

theorem sync_live (c : Cfg) (v : Drv) (r : Byte) : live (v.doSync c r).2.1 = live v := by
  unfold Drv.doSync live
  repeat' (first | rfl | split | dsimp only [Drv.valveSettingTX])

theorem first_live (c : Cfg) (v : Drv) (r : Byte) : live (v.pollFirst c r).2.1 = live v := by
  have hs := sync_live c
  unfold live at *
  unfold Drv.pollFirst
  repeat' (first | rfl | exact hs _ _ | split | dsimp only [Drv.valveSettingTX])

theorem next_live (c : Cfg) (v : Drv) (r : Byte) : live (v.pollNext c r).2.1 = live v := by
  have hs := sync_live c
  unfold live at *
  unfold Drv.pollNext
  repeat' (first | rfl | exact hs _ _ | split | dsimp only [Drv.valveSettingTX])

theorem nexts_live (c : Cfg) (rnd : Nat → Byte) : ∀ (n : Nat) (v : Drv), live (Drv.nexts c rnd n v).1 = live v
  | 0, v => by
    unfold Drv.nexts; rfl
  | n + 1, v => by
    unfold Drv.nexts
    dsimp only
    split
    · exact (nexts_live c rnd n _).trans (next_live c v _)
    · exact next_live c v _

theorem cycle_live (c : Cfg) (v : Drv) (rnd : Nat → Byte) : live (v.cycle c rnd).1 = live v := by
  unfold Drv.cycle
  dsimp only
  split
  · exact (nexts_live c rnd _ _).trans (first_live c v _)
  · exact first_live c v _

theorem agree_of_live {v w : Drv} {m : EE} (h : live w = live v) (ha : Agree v m) : Agree w m := by
  have h1 : w.hc1 = v.hc1 := congrArg Prod.fst h
  have h2 : w.hc2 = v.hc2 := congrArg Prod.snd h
  unfold Agree; rw [h1, h2]; exact ha

theorem agree_set1 {v : Drv} {m : EE} (b : Byte) (ha : Agree v m) : Agree (v.setHC1 b) (m.upd 16 b) := by
  have h := setHC1_live v b
  have h1 : (v.setHC1 b).hc1 = b := congrArg Prod.fst h
  have h2 : (v.setHC1 b).hc2 = v.hc2 := congrArg Prod.snd h
  unfold Agree
  rw [h1, h2, EE.upd_same, EE.upd_other _ _ (by decide)]
  exact ⟨fun _ => rfl, ha.2⟩

theorem agree_set2 {v : Drv} {m : EE} (b : Byte) (ha : Agree v m) : Agree (v.setHC2 b) (m.upd 17 b) := by
  have h := setHC2_live v b
  have h1 : (v.setHC2 b).hc1 = v.hc1 := congrArg Prod.fst h
  have h2 : (v.setHC2 b).hc2 = b := congrArg Prod.snd h
  unfold Agree
  rw [h1, h2, EE.upd_same, EE.upd_other _ _ (by decide)]
  exact ⟨ha.1, fun _ => rfl⟩

theorem agree_clear (v : Drv) (m : EE) : Agree v.clearHC m := by
  have : ¬ usable 0xff := by decide
  exact ⟨fun h => absurd h this, fun h => absurd h this⟩

theorem agree_init (radio : Bool) (m : EE) : Agree (Drv.init radio) m := by
  have : ¬ usable 0xff := by decide
  exact ⟨fun h => absurd h this, fun h => absurd h this⟩

theorem get_agree {v : Drv} {m : EE} (ha : Agree v m) :
    (v.nvGetHC1 m).1 = m 16 ∧ Agree (v.nvGetHC1 m).2 m ∧ (v.nvGetHC2 m).1 = m 17 ∧ Agree (v.nvGetHC2 m).2 m := by
  have hself : ∀ a, m.upd a (m a) = m := fun a => EE.upd_eq_self m a _ rfl
  unfold Drv.nvGetHC1 Drv.nvGetHC2
  refine ⟨?_, ?_, ?_, ?_⟩
  · by_cases h : validHouse v.hc1 = true
    · rw [if_pos h]; exact ha.1 ((validHouse_iff _).1 h)
    · rw [if_neg h]; split <;> rfl
  · by_cases h : validHouse v.hc1 = true
    · rw [if_pos h]; exact ha
    · rw [if_neg h]; split
      · have := agree_set1 (m 16) ha; rw [hself] at this; exact this
      · exact ha
  · by_cases h : validHouse v.hc2 = true
    · rw [if_pos h]; exact ha.2 ((validHouse_iff _).1 h)
    · rw [if_neg h]; split <;> rfl
  · by_cases h : validHouse v.hc2 = true
    · rw [if_pos h]; exact ha
    · rw [if_neg h]; split
      · have := agree_set2 (m 17) ha; rw [hself] at this; exact this
      · exact ha

theorem agree_step (c : Cfg) (x : Drv × EE) (op : HOp) (ha : Agree x.1 x.2) : Agree (op.run c x).1 (op.run c x).2 := by
  obtain ⟨v, m⟩ := x
  cases op with
  | cmd buf =>
    show Agree (v.cliHouse buf m).1 ((v.cliHouse buf).post m)
    rcases house_cases v buf with ⟨t1, t2, ts, _, _, _, _, _, _, e⟩ | ⟨_, e⟩ | ⟨_, e⟩
    · rw [e, (both_run _ _ _ _).1, (both_run _ _ _ _).2]
      exact agree_set2 _ (agree_set1 _ ha)
    · rw [e, (clear_run _ _).1]; exact agree_clear _ _
    · rw [e]; exact ha
  | set1 b =>
    show Agree (v.nvSetHC1 b m).1 ((v.nvSetHC1 b).post m)
    rw [(set1_run _ _ _).1, (set1_run _ _ _).2]; exact agree_set1 b ha
  | set2 b =>
    show Agree (v.nvSetHC2 b m).1 ((v.nvSetHC2 b).post m)
    rw [(set2_run _ _ _).1, (set2_run _ _ _).2]; exact agree_set2 b ha
  | clear =>
    show Agree (v.nvClearHC m).1 _
    rw [(clear_run _ _).1]; exact agree_clear _ _
  | load => exact (get_agree (get_agree ha).2.1).2.2.2
  | restart radio => exact agree_init radio m
  | position p => exact agree_of_live (set_live c v p) ha
  | cycle rnd => exact agree_of_live (cycle_live c v rnd) ha

/-- **C172** (cache): after any history the codes reported are the ones in EEPROM: the valve object is a transparent cache. -/
theorem C172_transparent (c : Cfg) (radio : Bool) (m : EE) (ops : List HOp) :
    let x := ops.foldl (HOp.run c) (Drv.init radio, m)
    (x.1.nvGetHC1 x.2).1 = x.2 16 ∧ ((x.1.nvGetHC1 x.2).2.nvGetHC2 x.2).1 = x.2 17 ∧ (x.1.nvGetHC2 x.2).1 = x.2 17 := by
  have key : ∀ (ops : List HOp) (x : Drv × EE), Agree x.1 x.2 → Agree (ops.foldl (HOp.run c) x).1 (ops.foldl (HOp.run c) x).2 := by
    intro ops
    induction ops with
    | nil => intro x h; exact h
    | cons o t ih => intro x h; exact ih _ (agree_step c x o h)
  have ha := key ops (Drv.init radio, m) (agree_init radio m)
  obtain ⟨g1, g2, g3, _⟩ := get_agree ha
  exact ⟨g1, (get_agree g2).2.2.1, g3⟩

example : ((Drv.init true).cliHouse "H 12 34".toUTF8.toList (fun _ => 0xff)).2 = [(16, 12), (17, 34)] ∧
    live ((Drv.init true).cliHouse "H 12 34".toUTF8.toList (fun _ => 0xff)).1 = (12, 34) := by decide +kernel

/-! ## C173 -/

/-- Whatever the line, the EEPROM cells of the codes end up unchanged, cleared, or holding two usable codes; nothing else changes. -/
theorem C173_confined_partial (v : Drv) (buf : Bytes) (m : EE) :
    (∀ a, a ≠ 16 → a ≠ 17 → (v.cliHouse buf).post m a = m a) ∧
    (stored ((v.cliHouse buf).post m) = stored m ∨ (buf.length < 2 ∧ stored ((v.cliHouse buf).post m) = (0xff, 0xff)) ∨
      (5 ≤ buf.length ∧ usable ((v.cliHouse buf).post m 16) ∧ usable ((v.cliHouse buf).post m 17) ∧
        live (v.cliHouse buf m).1 = stored ((v.cliHouse buf).post m))) := by
  rcases house_cases v buf with ⟨t1, t2, ts, _, hl, a1, a2, a3, a4, e⟩ | ⟨hl, e⟩ | ⟨_, e⟩
  · rw [e]
    obtain ⟨r1, r2⟩ := both_run v (u8 (atoi16 t1).toNat) (u8 (atoi16 t2).toNat) m
    rw [r1, r2]
    refine ⟨fun a ha hb => by rw [EE.upd_other _ _ hb, EE.upd_other _ _ ha], .inr (.inr ⟨hl, ?_, ?_, ?_⟩)⟩
    · rw [EE.upd_other _ _ (by decide), EE.upd_same]; exact u8_small _ a1 a2
    · rw [EE.upd_same]; exact u8_small _ a3 a4
    · rw [setHC2_live]
      unfold stored
      rw [EE.upd_same, EE.upd_other _ _ (by decide), EE.upd_same]
      have := congrArg Prod.fst (setHC1_live v (u8 (atoi16 t1).toNat))
      exact Prod.ext this rfl
  · obtain ⟨_, r2⟩ := clear_run v m
    rw [e, r2]
    refine ⟨fun a ha hb => by rw [EE.upd_other _ _ hb, EE.upd_other _ _ ha], .inr (.inl ⟨hl, ?_⟩)⟩
    unfold stored
    rw [EE.upd_same, EE.upd_other _ _ (by decide), EE.upd_same]
  · rw [e]; exact ⟨fun _ _ _ => rfl, .inl rfl⟩

/-- A power failure at any point of the command leaves each code either as it was or as it was to be, the first being written
first. -/
theorem C173_crash_partial (v : Drv) (buf : Bytes) (m : EE) (n : Nat) :
    let after := applyW m ((v.cliHouse buf m).2.take n)
    let full := (v.cliHouse buf).post m
    stored after = stored m ∨ stored after = (full 16, m 17) ∨ stored after = stored full := by
  have key : ∀ (a b : Byte) (n : Nat), 
      let w := wr1 m 16 a ++ wr1 (m.upd 16 a) 17 b
      stored (applyW m (w.take n)) = stored m ∨ stored (applyW m (w.take n)) = (a, m 17) ∨ stored (applyW m (w.take n)) = (a, b) := by
    intro a b n
    have u16 : ∀ (m : EE), (m.upd 16 a) 17 = m 17 := fun m => EE.upd_other _ _ (by decide)
    have u17 : ∀ (m : EE) (b : Byte), (m.upd 17 b) 16 = m 16 := fun m b => EE.upd_other _ _ (by decide)
    dsimp only
    unfold wr1 stored
    rw [u16]
    by_cases h1 : m 16 = a
    · rw [if_pos h1]
      by_cases h2 : m 17 = b
      · rw [if_pos h2]; simp
      · rw [if_neg h2]
        match n with
        | 0 => left; rfl
        | n + 1 => right; right; simp [u17, h1]
    · rw [if_neg h1]
      by_cases h2 : m 17 = b
      · rw [if_pos h2]
        match n with
        | 0 => left; rfl
        | n + 1 => right; left; simp [u16]
      · rw [if_neg h2]
        match n with
        | 0 => left; rfl
        | 1 => right; left; simp [u16]
        | n + 2 => right; right; simp [u17]
  rcases house_cases v buf with ⟨t1, t2, ts, _, hl, a1, a2, a3, a4, e⟩ | ⟨hl, e⟩ | ⟨_, e⟩
  · rw [e]
    obtain ⟨_, r2⟩ := both_run v (u8 (atoi16 t1).toNat) (u8 (atoi16 t2).toNat) m
    have hw : (emBind (v.nvSetHC1 (u8 (atoi16 t1).toNat)) (fun v' => v'.nvSetHC2 (u8 (atoi16 t2).toNat)) m).2 =
        wr1 m 16 (u8 (atoi16 t1).toNat) ++ wr1 (m.upd 16 (u8 (atoi16 t1).toNat)) 17 (u8 (atoi16 t2).toNat) := by
      simp only [emBind, Drv.nvSetHC1, Drv.nvSetHC2, smartUpdate_eq, emRet, List.append_nil, applyW_wr1]
    have hk := key (u8 (atoi16 t1).toNat) (u8 (atoi16 t2).toNat) n
    dsimp only at hk ⊢
    rw [r2, hw]
    unfold stored at hk ⊢
    rw [EE.upd_other _ _ (by decide), EE.upd_same, EE.upd_same]
    exact hk
  · rw [e]
    obtain ⟨_, r2⟩ := clear_run v m
    have hw : (v.nvClearHC m).2 = wr1 m 16 0xff ++ wr1 (m.upd 16 0xff) 17 0xff := by
      simp only [emBind, Drv.nvClearHC, smartErase_eq, emRet, List.append_nil, applyW_wr1]
    have hk := key 0xff 0xff n
    dsimp only at hk ⊢
    rw [r2, hw]
    unfold stored at hk ⊢
    rw [EE.upd_other _ _ (by decide), EE.upd_same, EE.upd_same]
    exact hk
  · rw [e]; left
    simp [emRet]

/-- **C173** is false: words that are not numbers set code 0 instead of being refused, and numbers past 65535 wrap round. -/
theorem C173_refuted_words (v : Drv) (m : EE) :
    stored ((v.cliHouse "H xx yy".toUTF8.toList).post m) = (0, 0) ∧ stored ((v.cliHouse "H 65548 3z".toUTF8.toList).post m) = (12, 3) := by
  have run : ∀ (buf t1 t2 : Bytes) (a b : Nat), 5 ≤ buf.length → strToks [] (buf.drop 2) = [t1, t2] → atoi16 t1 = a → atoi16 t2 = b → a ≤ 99 → b ≤ 99 →
      stored ((v.cliHouse buf).post m) = (u8 a, u8 b) := by
    intro buf t1 t2 a b hl ht h1 h2 ha hb
    have he : v.cliHouse buf = emBind (v.nvSetHC1 (u8 a)) fun v' => v'.nvSetHC2 (u8 b) := by
      unfold Drv.cliHouse
      rw [if_pos hl, ht]
      dsimp only
      rw [h1, h2, if_neg (by omega)]
      simp
    rw [he, (both_run _ _ _ _).2]
    unfold stored
    rw [EE.upd_same, EE.upd_other _ _ (by decide), EE.upd_same]
  exact ⟨run _ "xx".toUTF8.toList "yy".toUTF8.toList 0 0 (by decide +kernel) (by decide +kernel) (by decide +kernel) (by decide +kernel) (by decide) (by decide),
    run _ "65548".toUTF8.toList "3z".toUTF8.toList 12 3 (by decide +kernel) (by decide +kernel) (by decide +kernel) (by decide +kernel) (by decide) (by decide)⟩

/-- **C173** is false: a power failure can leave a pair of codes that was never set, and the valve uses it after the restart. -/
theorem C173_refuted_torn : ∃ (v : Drv) (m : EE) (buf : Bytes) (n : Nat),
    stored m = (1, 2) ∧ stored ((v.cliHouse buf).post m) = (3, 4) ∧
    live ((Drv.init true).nvLoadHC (applyW m ((v.cliHouse buf m).2.take n))) = (3, 2) :=
  ⟨Drv.init true, (fun a => if a = 16 then 1 else if a = 17 then 2 else 0xff), "H 3 4".toUTF8.toList, 1,
    by decide +kernel, by decide +kernel, by decide +kernel⟩

/-! ## C174 -/

/-- Ambient light kept within what the message can carry. -/
def clampLight (a : Byte) : Byte := if a.toNat = 0 then 1 else if a.toNat = 255 then 254 else a

theorem clamp_light : ∀ a : Byte, max 1 (min 254 a) = clampLight a ∧ clampLight a ≠ 0 ∧ clampLight a ≠ 0xff := by
  apply forall_byte; decide +kernel

/-- **C174** (valve): with a valve whose stored codes agree (C172), the message built from the sensors is refused if a code is not set; if both
are usable it goes out and a receiver decodes the codes, the temperature (saturated), the power
state, the light level (clamped to 1..254) and, at the all-stats level only, the occupancy. -/
theorem C174_valve (v : Drv) (m : EE) (ha : Agree v m) (temp : Int) (low : Bool) (amb occ : Byte) (buf : Bytes) (buflen : Nat)
    (hb : buflen ≤ buf.length) (hn : 9 ≤ buflen) (sec : Byte) :
    (m 16 = 0xff ∨ m 17 = 0xff → (populateCoreStats (some v) m temp low amb occ).1.encode buf buflen sec false = .fail) ∧
    (usable (m 16) → usable (m 17) → ∃ out, (populateCoreStats (some v) m temp low amb occ).1.encode buf buflen sec false = .ok (out, 8) ∧
      ∀ len, 8 ≤ len → fullDecode out len = .ok (⟨true, true, true, m 16, m 17, ⟨satTemp temp, low⟩, clampLight amb, if sec = 0 then occ &&& 3 else 0⟩, 8)) := by
  have hp : (populateCoreStats (some v) m temp low amb occ).1 = ⟨true, true, true, m 16, m 17, ⟨temp, low⟩, clampLight amb, occ⟩ := by
    unfold populateCoreStats
    dsimp only
    rw [(get_agree ha).1, (get_agree (get_agree ha).2.1).2.2.1, (clamp_light amb).1]
  rw [hp]
  obtain ⟨r1, r2⟩ := C67_round_trip_partial ⟨true, true, true, m 16, m 17, ⟨temp, low⟩, clampLight amb, occ⟩ buf buflen sec false hb
  obtain ⟨_, e2⟩ := encode_eq ⟨true, true, true, m 16, m 17, ⟨temp, low⟩, clampLight amb, occ⟩ buf buflen sec false hb
  refine ⟨fun h => e2 ?_, ?_⟩
  · rintro ⟨_, _, h3, _⟩
    rcases h with h | h
    · exact (h3 rfl).1 h
    · exact (h3 rfl).2.1 h
  · intro u1 u2
    unfold usable at u1 u2
    obtain ⟨out, n, he⟩ := r1.2 ⟨rfl, by show 3 + 2 + 2 + 1 < buflen; omega, fun _ => ⟨by dsimp only; intro h; rw [h] at u1; simp at u1, by dsimp only; intro h; rw [h] at u2; simp at u2, by dsimp only; omega⟩,
      fun _ => (clamp_light amb).2⟩
    obtain ⟨f1, _, _, _, _, _, f7⟩ := r2 out n he
    have h8 : n = 8 := f1
    subst h8
    exact ⟨out, he, fun len hlen => f7 len hlen⟩

/-- **C174** (no valve): the first two bytes of the node's ID are sent instead; they are as the ID generator makes them (128..254). -/
theorem C174_own_id (m : EE) (h1 : 128 ≤ (m 20).toNat ∧ (m 20).toNat ≤ 254) (h2 : 128 ≤ (m 21).toNat ∧ (m 21).toNat ≤ 254) (temp : Int) (low : Bool)
    (amb occ : Byte) (buf : Bytes) (buflen : Nat) (hb : buflen ≤ buf.length) (hn : 9 ≤ buflen) (sec : Byte) :
    ∃ out, (populateCoreStats none m temp low amb occ).1.encode buf buflen sec false = .ok (out, 8) ∧
      ∀ len, 8 ≤ len → fullDecode out len = .ok (⟨true, true, true, m 20, m 21, ⟨satTemp temp, low⟩, clampLight amb, if sec = 0 then occ &&& 3 else 0⟩, 8) := by
  have hp : (populateCoreStats none m temp low amb occ).1 = ⟨true, true, true, m 20, m 21, ⟨temp, low⟩, clampLight amb, occ⟩ := by
    unfold populateCoreStats
    dsimp only
    rw [(clamp_light amb).1]
  rw [hp]
  obtain ⟨r1, r2⟩ := C67_round_trip_partial ⟨true, true, true, m 20, m 21, ⟨temp, low⟩, clampLight amb, occ⟩ buf buflen sec false hb
  obtain ⟨out, n, he⟩ := r1.2 ⟨rfl, by show 3 + 2 + 2 + 1 < buflen; omega, fun _ => ⟨by dsimp only; intro h; rw [h] at h1; simp at h1, by dsimp only; intro h; rw [h] at h2; simp at h2, by dsimp only; omega⟩,
      fun _ => (clamp_light amb).2⟩
  obtain ⟨f1, _, _, _, _, _, f7⟩ := r2 out n he
  have h8 : n = 8 := f1
  subst h8
  exact ⟨out, he, fun len hlen => f7 len hlen⟩

example : Agree (Drv.init true) (fun a => if a = 16 then 12 else 34) ∧ usable 12 ∧ usable 34 :=
  ⟨⟨fun h => absurd h (by decide), fun h => absurd h (by decide)⟩, by decide, by decide⟩

end OTR.Props
