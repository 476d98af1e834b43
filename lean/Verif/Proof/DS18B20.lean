import Verif.Proof.OneWire
/-! # Proofs about the DS18B20 driver -/

namespace OTR

/-- Only the bus may differ, and there only the protocol state of the devices. -/
structure SameBut (o o' : OW) : Prop where
  core : o'.bus.core = o.bus.core
  dev : o'.lastDev = o.lastDev
  disc : o'.lastDisc = o.lastDisc
  addr : o'.addr = o.addr

theorem agree64 {a b : Bytes} (ha : a.length = 8) (hb : b.length = 8) : romAgree 64 a b ↔ a = b :=
  ⟨rom_ext ha hb, fun h => by rw [h]; exact fun _ _ => rfl⟩

/-- Reset and select: the device addressed waits for a function command, the others for the next reset. -/
theorem select_eq {o : OW} (hb : o.bus.Sound) {a : Bytes} (ha : a.length = 8) :
    o.reset.select a = { o with bus := { o.bus with devs := o.bus.devs.map fun x => { x with st := if x.rom = a then .func 0 0 else .idle } } } := by
  unfold OW.select
  rw [romCmd_eq hb.noShort]
  rw [writeAll_traj (ds := o.bus.devs) a
    (fun i x => { x with st := if romAgree i x.rom a then (if i < 64 then OWSt.mtch i else OWSt.func 0 0) else OWSt.idle }) _
    (by exact hb.noShort)]
  · simp only [ha]
    congr 2
    apply List.map_congr_left
    intro x hx
    by_cases e : x.rom = a
    · rw [if_pos e, if_pos ((agree64 (hb.len x hx) ha).2 e)]; rfl
    · rw [if_neg e, if_neg (fun h => e ((agree64 (hb.len x hx) ha).1 h))]
  · apply List.map_congr_left
    intro x _
    have h0 : romAgree 0 x.rom a := fun j hj => by omega
    rw [if_pos h0]; rfl
  · intro i hi x _
    have hi' : i < 64 := by omega
    by_cases h : romAgree i x.rom a
    · simp only [if_pos h, if_pos hi']; rfl
    · simp only [if_neg h]; rfl
  · intro i hi x _
    have hi' : i < 64 := by omega
    simp only [agree_succ]
    by_cases h : romAgree i x.rom a
    · simp only [h, true_and, if_true, if_pos hi', OWDev.slot]
      by_cases e : romBit x.rom i = romBit a i
      · rw [if_pos e.symm, if_pos e]
        by_cases h63 : i < 63
        · rw [if_pos h63, if_pos (by omega)]
        · rw [if_neg h63, if_neg (by omega)]
      · rw [if_neg (fun h => e h.symm), if_neg e]
    · simp only [h, false_and, if_false, OWDev.slot]

/-- The device after a function command. -/
theorem func_write {o : OW} {ds : List OWDev} (hs : o.bus.short = false) {P : OWDev → Prop} [DecidablePred P]
    (h : o.bus.devs = ds.map fun x => { x with st := if P x then .func 0 0 else .idle }) (v : Byte) :
    o.write v = { o with bus := { o.bus with devs := ds.map fun x => if P x then OWDev.funcCmd x v.toNat else { x with st := .idle } } } := by
  rw [write_traj (ds := ds) (o := o) (v := v)
    (fun i x => if P x then (if i < 8 then { x with st := OWSt.func i (v.toNat % 2 ^ i) } else OWDev.funcCmd x v.toNat) else { x with st := .idle }) hs]
  · rfl
  · rw [h]
    apply List.map_congr_left
    intro x _
    by_cases hp : P x
    · simp [hp, Nat.mod_one]
    · simp [hp]
  · intro i hi x _
    by_cases hp : P x
    · simp [hp, hi, OWDev.drive]
    · simp [hp, OWDev.drive]
  · intro i hi x _
    have e : v.toNat % 2 ^ i + (v.toNat.testBit i).toNat * 2 ^ i = v.toNat % 2 ^ (i + 1) := by
      rw [Nat.mod_pow_succ, Nat.toNat_testBit, Nat.mul_comm]
    by_cases hp : P x
    · simp only [if_pos hp, if_pos hi, OWDev.slot, e]
      by_cases h7 : i < 7
      · rw [if_pos h7, if_pos (by omega)]
      · rw [if_neg h7, if_neg (by omega), show i = 7 from by omega, Nat.mod_eq_of_lt (byte_lt v)]; rfl
    · simp only [if_neg hp]; rfl

/-! ## Reading -/

def rdFold (v : Byte) : Nat → Nat → Byte → Byte
  | 0, _, r => r
  | n + 1, i, r => rdFold v n (i + 1) (if v.toNat.testBit i then (r >>> 1) ||| 0x80 else (r >>> 1) &&& 0x7f)

theorem rdFold_eq (v : Byte) : rdFold v 8 0 0 = v := by
  revert v; apply forall_byte; decide +kernel

theorem readLoop_traj {ds : List OWDev} {g : Nat → OWDev → OWDev} {v : Byte}
    (hl : ∀ i, i < 8 → (ds.all fun d => (g i d).drive) = v.toNat.testBit i)
    (hst : ∀ i, i < 8 → ∀ d ∈ ds, (g i d).slot (v.toNat.testBit i) = g (i + 1) d) :
    ∀ n i r (o : OW), n + i = 8 → o.bus.short = false → o.bus.devs = ds.map (g i) →
      OW.readLoop n r o = (rdFold v n i r, { o with bus := { o.bus with devs := ds.map (g 8) } }) := by
  intro n
  induction n with
  | zero =>
    intro i r o hi hs h0
    rw [show i = 8 from by omega] at h0
    simp only [OW.readLoop, rdFold]; rw [← h0]
  | succ n ih =>
    intro i r o hi hs h0
    simp only [OW.readLoop, rdFold]
    rw [readBit_map hs h0, hl i (by omega)]
    rw [ih (i + 1) _ _ (by omega) (by exact hs)]
    exact List.map_congr_left (hst i (by omega))

theorem read_traj {ds : List OWDev} (g : Nat → OWDev → OWDev) {v : Byte} {o : OW} (hs : o.bus.short = false)
    (h0 : o.bus.devs = ds.map (g 0))
    (hl : ∀ i, i < 8 → (ds.all fun d => (g i d).drive) = v.toNat.testBit i)
    (hst : ∀ i, i < 8 → ∀ d ∈ ds, (g i d).slot (v.toNat.testBit i) = g (i + 1) d) :
    o.read = (v, { o with bus := { o.bus with devs := ds.map (g 8) } }) := by
  unfold OW.read
  rw [readLoop_traj hl hst 8 0 0 o rfl hs h0, rdFold_eq]

theorem rom_unique {s : OWBus} (h : s.Sound) {x y : OWDev} (hx : x ∈ s.devs) (hy : y ∈ s.devs) (e : x.rom = y.rom) : x = y := by
  have := h.nodup
  generalize s.devs = l at *
  induction l with
  | nil => cases hx
  | cons z l ih =>
    rw [List.map_cons, List.nodup_cons] at this
    rcases List.mem_cons.1 hx with h1 | h1 <;> rcases List.mem_cons.1 hy with h2 | h2
    · rw [h1, h2]
    · exact absurd (List.mem_map_of_mem (f := OWDev.rom) h2) (by rw [← e, h1]; exact this.1)
    · exact absurd (List.mem_map_of_mem (f := OWDev.rom) h1) (by rw [e, h2]; exact this.1)
    · exact ih h1 h2 this.2

/-- The line in a read slot, when only device `d` is sending. -/
theorem level_one {s : OWBus} (h : s.Sound) {d : OWDev} (hd : d ∈ s.devs) (st : OWSt) :
    (s.devs.all fun x => OWDev.drive { x with st := if x.rom = d.rom then st else .idle }) = OWDev.drive { d with st := st } := by
  cases hv : OWDev.drive { d with st := st }
  · rw [List.all_eq_false]
    exact ⟨d, hd, by simp [hv]⟩
  · rw [List.all_eq_true]
    intro x hx
    by_cases e : x.rom = d.rom
    · rw [rom_unique h hx hd e]; simp [hv]
    · simp only [if_neg e]; rfl

/-- Reading two bytes from the scratchpad of device `d`. -/
theorem fetch_eq {o : OW} (hb : o.bus.Sound) {d : OWDev} (hd : d ∈ o.bus.devs) (hf : d.rom.getD 0 0 = 0x28) :
    DS18.fetch o d.rom = (d.t0, d.t1, o.reset) := by
  have hbit : ∀ i, i < 8 → romBit d.scratch i = d.t0.toNat.testBit i := by
    intro i hi; unfold OWDev.scratch; rw [romBit_cons, if_pos hi]
  have hbit1 : ∀ i, i < 8 → romBit d.scratch (8 + i) = d.t1.toNat.testBit i := by
    intro i hi; unfold OWDev.scratch
    rw [romBit_cons, if_neg (by omega), romBit_cons, if_pos (by omega)]; congr 1; omega
  unfold DS18.fetch
  rw [select_eq hb (hb.len d hd), func_write (ds := o.bus.devs) (P := fun x => x.rom = d.rom) (by exact hb.noShort) rfl]
  have h1 : (o.bus.devs.map fun x => if x.rom = d.rom then OWDev.funcCmd x (UInt8.toNat 0xbe) else { x with st := .idle }) =
      o.bus.devs.map fun x => { x with st := if x.rom = d.rom then .rscr 0 else .idle } := by
    apply List.map_congr_left
    intro x _
    by_cases e : x.rom = d.rom
    · rw [if_pos e, if_pos e]; unfold OWDev.funcCmd; rw [e, hf]; rfl
    · rw [if_neg e, if_neg e]
  rw [h1]
  rw [read_traj (ds := o.bus.devs) (v := d.t0) (fun i x => { x with st := if x.rom = d.rom then OWSt.rscr i else OWSt.idle }) (by exact hb.noShort) rfl]
  · dsimp only
    rw [read_traj (ds := o.bus.devs) (v := d.t1) (fun i x => { x with st := if x.rom = d.rom then OWSt.rscr (8 + i) else OWSt.idle }) (by exact hb.noShort) rfl]
    · unfold OW.reset OWBus.rst; simp
    · intro i hi
      rw [level_one hb hd, ← hbit1 i hi]; rfl
    · intro i hi x hx
      by_cases e : x.rom = d.rom
      · simp only [if_pos e]; rfl
      · simp only [if_neg e]; rfl
  · intro i hi
    rw [level_one hb hd, ← hbit i hi]; rfl
  · intro i hi x hx
    by_cases e : x.rom = d.rom
    · simp only [if_pos e]; rfl
    · simp only [if_neg e]; rfl

theorem core_mem {s t : OWBus} (h : s.core = t.core) {d : OWDev} (hd : d ∈ t.devs) : ∃ st, { d with st := st } ∈ s.devs := by
  have : { d with st := .idle } ∈ s.core.devs := by
    rw [h]; unfold OWBus.core; exact List.mem_map.2 ⟨d, hd, rfl⟩
  unfold OWBus.core at this
  obtain ⟨x, hx, e⟩ := List.mem_map.1 this
  refine ⟨x.st, ?_⟩
  have : x = { d with st := x.st } := by
    cases x; cases d; simp only [OWDev.mk.injEq] at e ⊢; simp_all
  rw [← this]; exact hx

theorem core_sound {s t : OWBus} (h : s.core = t.core) (hb : t.Sound) : s.Sound :=
  sound_roms hb (core_roms h) (core_short h)

/-- The wait ends at once: a device that has just been addressed does not hold the line. -/
theorem wait_eq {o : OW} (hb : o.bus.Sound) {a : Bytes} (ha : a.length = 8) :
    ∃ o', DS18.waitLoop 67 (o.reset.select a) = (true, o') ∧ SameBut o o' := by
  have h := select_eq hb ha
  have hr := readBit_map (o := o.reset.select a) (ds := o.bus.devs)
    (g := fun x => { x with st := if x.rom = a then OWSt.func 0 0 else OWSt.idle }) (by rw [h]; exact hb.noShort) (by rw [h])
  have hall : (o.bus.devs.all fun x => OWDev.drive { x with st := if x.rom = a then OWSt.func 0 0 else OWSt.idle }) = true := by
    rw [List.all_eq_true]
    intro x _
    by_cases e : x.rom = a
    · simp only [if_pos e]; rfl
    · simp only [if_neg e]; rfl
  rw [hall] at hr
  simp only [DS18.waitLoop]
  rw [hr]
  refine ⟨_, rfl, ?_, by rw [h], by rw [h], by rw [h]⟩
  rw [h]
  show OWBus.core _ = _
  unfold OWBus.core
  simp only [List.map_map]
  congr 1
  apply List.map_congr_left
  intro x _
  by_cases e : x.rom = a
  · simp only [Function.comp, if_pos e]; rfl
  · simp only [Function.comp, if_neg e]; rfl

def ds18Fam (d : OWDev) : Bool := d.rom.getD 0 0 == 0x28
def ds18Val (d : OWDev) : Int := DS18.raw d.t0 d.t1

theorem standing_same {S : List Bytes} {o o' : OW} {pre rest : List Bytes} (h1 : o'.lastDev = o.lastDev)
    (h2 : o'.lastDisc = o.lastDisc) (h3 : o'.addr = o.addr) (h : Standing S o pre rest) : Standing S o' pre rest := by
  cases h with
  | fresh _ hf => exact .fresh _ ⟨h1.trans hf.dev, h2.trans hf.disc, by rw [h3]; exact hf.len⟩
  | «at» pre r _ ha => exact .at _ _ _ (searchAt_congr rfl ha h1 h2 h3)

/-- The loop of `readMultiple`. -/
theorem readLoop_eq {B : OWBus} (hB : B.Sound) {count : Nat} : ∀ (R P : List OWDev) (fuel : Nat) (o : OW) (index : Nat) (vs : List Int),
    R.length < fuel → o.bus.core = B.core → (P ++ R).Perm B.devs → (P ++ R).Pairwise (fun a b => romBefore a.rom b.rom) →
    Standing (B.devs.map OWDev.rom) o (P.map OWDev.rom) (R.map OWDev.rom) → vs.length < count →
    ∃ o', DS18.readLoop count fuel o index vs =
        some (o', vs ++ ((((R.filter ds18Fam).drop index).take (count - vs.length)).map ds18Val)) ∧
      o'.bus.core = B.core := by
  intro R
  induction R with
  | nil =>
    intro P fuel o index vs hf hc hp hs hst _
    obtain ⟨f, rfl⟩ : ∃ f, fuel = f + 1 := ⟨fuel - 1, by simp at hf; omega⟩
    have hb := core_sound hc hB
    have hr := core_roms hc
    obtain ⟨o', e, c, -⟩ := (search_sorted hb (pre := P.map OWDev.rom) (rest := []) (by rw [hr]; simpa using hp.map OWDev.rom)
      (by simpa [List.pairwise_map] using hs) (by rw [hr]; exact hst)).2 rfl
    simp only [DS18.readLoop, e]
    exact ⟨o', by simp, c.trans hc⟩
  | cons d R ih =>
    intro P fuel o index vs hf hc hp hs hst hv
    obtain ⟨f, rfl⟩ : ∃ f, fuel = f + 1 := ⟨fuel - 1, by simp at hf; omega⟩
    have hf' : R.length < f := by simp at hf; omega
    have hb := core_sound hc hB
    have hr := core_roms hc
    obtain ⟨o', e, c, ea, hst'⟩ := (search_sorted hb (pre := P.map OWDev.rom) (rest := (d :: R).map OWDev.rom)
      (by rw [hr, ← List.map_append]; exact hp.map OWDev.rom)
      (by rw [← List.map_append, List.pairwise_map]; exact hs) (by rw [hr]; exact hst)).1 d.rom (R.map OWDev.rom) rfl
    have hc' := c.trans hc
    have hp' : (P ++ [d] ++ R).Perm B.devs := by simpa using hp
    have hs' : (P ++ [d] ++ R).Pairwise (fun a b => romBefore a.rom b.rom) := by simpa using hs
    have hst'' : Standing (B.devs.map OWDev.rom) o' ((P ++ [d]).map OWDev.rom) (R.map OWDev.rom) := by
      rw [List.map_append]; rw [hr] at hst'; exact hst'
    have hdm : d ∈ B.devs := hp.mem_iff.1 (by simp)
    simp only [DS18.readLoop, e, ea, Bool.not_true, Bool.false_eq_true, if_false]
    by_cases hfam : d.rom.getD 0 0 = 0x28
    · have hF : ds18Fam d = true := by unfold ds18Fam; rw [hfam]; rfl
      rw [if_neg (by simpa using hfam)]
      by_cases hi : index > 0
      · rw [if_pos hi]
        obtain ⟨o2, e2, c2⟩ := ih (P ++ [d]) f o' (index - 1) vs hf' hc' hp' hs' hst'' hv
        refine ⟨o2, ?_, c2⟩
        rw [e2, List.filter_cons_of_pos hF]
        obtain ⟨k, rfl⟩ : ∃ k, index = k + 1 := ⟨index - 1, by omega⟩
        rw [List.drop_succ_cons]; rfl
      · rw [if_neg hi]
        have hi0 : index = 0 := by omega
        obtain ⟨w, ew, hw⟩ := wait_eq (core_sound hc' hB) (hB.len d hdm)
        obtain ⟨st, hm⟩ := core_mem (hw.core.trans hc') hdm
        have hwb := core_sound (hw.core.trans hc') hB
        have hfe := fetch_eq hwb hm hfam
        simp only [ew, Bool.not_true, Bool.false_eq_true, if_false]
        have hfe' : DS18.fetch w d.rom = (d.t0, d.t1, w.reset) := hfe
        rw [hfe']
        dsimp only
        have hcw : w.reset.bus.core = B.core := by
          show w.bus.rst.core = _
          rw [rst_core]; exact hw.core.trans hc'
        by_cases hcnt : vs.length + 1 ≥ count
        · rw [if_pos hcnt]
          refine ⟨_, ?_, hcw⟩
          rw [List.filter_cons_of_pos hF, hi0, List.drop_zero, show count - vs.length = 1 from by omega, List.take_succ_cons, List.take_zero]
          rfl
        · rw [if_neg hcnt]
          obtain ⟨o2, e2, c2⟩ := ih (P ++ [d]) f w.reset index (vs ++ [DS18.raw d.t0 d.t1]) hf' hcw hp' hs'
            (standing_same hw.dev hw.disc hw.addr hst'') (by simp; omega)
          refine ⟨o2, ?_, c2⟩
          rw [e2, List.filter_cons_of_pos hF, hi0, List.drop_zero, List.drop_zero, List.length_append, List.length_singleton,
            show count - vs.length = (count - (vs.length + 1)) + 1 from by omega, List.take_succ_cons, List.map_cons, List.append_assoc]
          rfl
    · have hF : ds18Fam d = false := by unfold ds18Fam; simpa using hfam
      rw [if_pos (by simpa using hfam)]
      obtain ⟨o2, e2, c2⟩ := ih (P ++ [d]) f o' index vs hf' hc' hp' hs' hst'' hv
      refine ⟨o2, ?_, c2⟩
      rw [e2, List.filter_cons_of_neg (by simp [hF])]


/-! ## Setting up -/

/-- What `init` writes into a DS18B20. -/
def ds18Upd (c : Byte) (x : OWDev) : OWDev := { x with th := 0, tl := 0, cfg := c }

theorem wscr_bits (c : Byte) : ∀ i, i < 24 → romBit [0, 0, c] i = (c.toNat * 65536).testBit i := by
  revert c; apply forall_byte; decide +kernel

theorem setup_eq {o : OW} (hb : o.bus.Sound) {a : Bytes} (ha : a.length = 8) (hf : a.getD 0 0 = 0x28) (p : Nat) :
    DS18.setup p o a = { o with bus := { o.bus with devs := o.bus.devs.map fun x =>
      { (if x.rom = a then ds18Upd (DS18.cfgByte p) x else x) with st := .idle } } } := by
  have hw : (o.reset.select a).write 0x4e = { o with bus := { o.bus with devs := o.bus.devs.map (fun x => if x.rom = a then OWDev.funcCmd x (UInt8.toNat 0x4e) else { x with st := .idle }) } } := by
    rw [select_eq hb ha, func_write (ds := o.bus.devs) (P := fun x => x.rom = a) (by exact hb.noShort) rfl]
  unfold DS18.setup
  rw [hw]
  have h1 : (o.bus.devs.map fun x => if x.rom = a then OWDev.funcCmd x (UInt8.toNat 0x4e) else { x with st := .idle }) =
      o.bus.devs.map fun x => { x with st := if x.rom = a then .wscr 0 0 else .idle } := by
    apply List.map_congr_left
    intro x _
    by_cases e : x.rom = a
    · rw [if_pos e, if_pos e]; unfold OWDev.funcCmd; rw [e, hf]; rfl
    · rw [if_neg e, if_neg e]
  rw [h1]
  generalize DS18.cfgByte p = c
  have e3 : ∀ q : OW, ((q.write 0).write 0).write c = q.writeAll [0, 0, c] := fun q => rfl
  rw [e3, writeAll_traj (ds := o.bus.devs) [0, 0, c]
    (fun i x => if x.rom = a then (if i < 24 then { x with st := OWSt.wscr i ((c.toNat * 65536) % 2 ^ i) } else { ds18Upd c x with st := .idle })
      else { x with st := .idle }) _ (by exact hb.noShort)]
  · have hm : (o.bus.devs.map fun x => if x.rom = a then (if 8 * [0, 0, c].length < 24 then { x with st := OWSt.wscr (8 * [0, 0, c].length) ((c.toNat * 65536) % 2 ^ (8 * [0, 0, c].length)) } else { ds18Upd c x with st := OWSt.idle }) else { x with st := OWSt.idle }) =
        o.bus.devs.map fun x => { (if x.rom = a then ds18Upd c x else x) with st := OWSt.idle } := by
      apply List.map_congr_left
      intro x _
      by_cases e : x.rom = a
      · simp [e]
      · simp [e]
    rw [hm]
  · apply List.map_congr_left
    intro x _
    by_cases e : x.rom = a
    · simp [e, Nat.mod_one]
    · simp [e]
  · intro i hi x _
    have hi' : i < 24 := hi
    by_cases e : x.rom = a
    · simp [e, hi', OWDev.drive]
    · simp [e, OWDev.drive]
  · intro i hi x _
    have hi' : i < 24 := hi
    rw [wscr_bits c i hi']
    have ev : (c.toNat * 65536) % 2 ^ i + ((c.toNat * 65536).testBit i).toNat * 2 ^ i = (c.toNat * 65536) % 2 ^ (i + 1) := by
      rw [Nat.mod_pow_succ, Nat.toNat_testBit, Nat.mul_comm (_ / _ % _)]
    by_cases e : x.rom = a
    · simp only [if_pos e, if_pos hi', OWDev.slot, ev]
      by_cases h7 : i < 23
      · rw [if_pos h7, if_pos (by omega)]
      · rw [if_neg h7, if_neg (by omega), show i = 23 from by omega]
        have hc := byte_lt c
        have m : (c.toNat * 65536) % 2 ^ (23 + 1) = c.toNat * 65536 := Nat.mod_eq_of_lt (by omega)
        rw [m]
        unfold ds18Upd
        congr 1
        · apply byte_ext; rw [u8_toNat]; show _ = 0; omega
        · apply byte_ext; rw [u8_toNat]; show _ = 0; omega
        · apply byte_ext; rw [u8_toNat]; show _ = c.toNat; omega
    · simp only [if_neg e]; rfl

/-- The devices with the first ones set up. -/
def ds18Done (c : Byte) (P : List OWDev) (ds : List OWDev) : List OWDev :=
  ds.map fun x => if ds18Fam x ∧ x.rom ∈ P.map OWDev.rom then ds18Upd c x else x

theorem ds18Done_roms (c : Byte) (P ds : List OWDev) : (ds18Done c P ds).map OWDev.rom = ds.map OWDev.rom := by
  unfold ds18Done
  rw [List.map_map]
  apply List.map_congr_left
  intro x _
  simp only [Function.comp]
  by_cases h : ds18Fam x ∧ x.rom ∈ P.map OWDev.rom
  · rw [if_pos h]; rfl
  · rw [if_neg h]

theorem initLoop_eq {B : OWBus} (hB : B.Sound) {p : Nat} : ∀ (R P : List OWDev) (fuel : Nat) (o : OW) (count : Nat),
    R.length < fuel → o.bus.core = ({ B with devs := ds18Done (DS18.cfgByte p) P B.devs } : OWBus).core →
    (P ++ R).Perm B.devs → (P ++ R).Pairwise (fun a b => romBefore a.rom b.rom) →
    Standing (B.devs.map OWDev.rom) o (P.map OWDev.rom) (R.map OWDev.rom) → count < 256 →
    ∃ o', DS18.initLoop p fuel o count = some (o', (count + (R.filter ds18Fam).length) % 256) ∧
      o'.bus.core = ({ B with devs := ds18Done (DS18.cfgByte p) (P ++ R) B.devs } : OWBus).core := by
  intro R
  induction R with
  | nil =>
    intro P fuel o count hf hc hp hs hst hlt
    obtain ⟨f, rfl⟩ : ∃ f, fuel = f + 1 := ⟨fuel - 1, by simp at hf; omega⟩
    have hr : o.bus.devs.map OWDev.rom = B.devs.map OWDev.rom := by rw [core_roms hc]; exact ds18Done_roms _ _ _
    have hb : o.bus.Sound := sound_roms hB hr (by have := core_short hc; exact this)
    obtain ⟨o', e, c, -⟩ := (search_sorted hb (pre := P.map OWDev.rom) (rest := []) (by rw [hr]; simpa using hp.map OWDev.rom)
      (by simpa [List.pairwise_map] using hs) (by rw [hr]; exact hst)).2 rfl
    simp only [DS18.initLoop, e]
    refine ⟨o', ?_, by rw [List.append_nil]; exact c.trans hc⟩
    simp [Nat.mod_eq_of_lt hlt]
  | cons d R ih =>
    intro P fuel o count hf hc hp hs hst hlt
    obtain ⟨f, rfl⟩ : ∃ f, fuel = f + 1 := ⟨fuel - 1, by simp at hf; omega⟩
    have hf' : R.length < f := by simp at hf; omega
    have hr : o.bus.devs.map OWDev.rom = B.devs.map OWDev.rom := by rw [core_roms hc]; exact ds18Done_roms _ _ _
    have hb : o.bus.Sound := sound_roms hB hr (by have := core_short hc; exact this)
    obtain ⟨o', e, c, ea, hst'⟩ := (search_sorted hb (pre := P.map OWDev.rom) (rest := (d :: R).map OWDev.rom)
      (by rw [hr, ← List.map_append]; exact hp.map OWDev.rom)
      (by rw [← List.map_append, List.pairwise_map]; exact hs) (by rw [hr]; exact hst)).1 d.rom (R.map OWDev.rom) rfl
    have hc' := c.trans hc
    have hp' : (P ++ [d] ++ R).Perm B.devs := by simpa using hp
    have hs' : (P ++ [d] ++ R).Pairwise (fun a b => romBefore a.rom b.rom) := by simpa using hs
    have hst'' : Standing (B.devs.map OWDev.rom) o' ((P ++ [d]).map OWDev.rom) (R.map OWDev.rom) := by
      rw [List.map_append]; rw [hr] at hst'; exact hst'
    have hdm : d ∈ B.devs := hp.mem_iff.1 (by simp)
    have happ : P ++ d :: R = P ++ [d] ++ R := by simp
    simp only [DS18.initLoop, e, ea, Bool.not_true, Bool.false_eq_true, if_false]
    by_cases hfam : d.rom.getD 0 0 = 0x28
    · have hF : ds18Fam d = true := by unfold ds18Fam; rw [hfam]; rfl
      rw [if_neg (by simpa using hfam)]
      have hr' : o'.bus.devs.map OWDev.rom = B.devs.map OWDev.rom := by rw [core_roms hc']; exact ds18Done_roms _ _ _
      have hb' : o'.bus.Sound := sound_roms hB hr' (by have := core_short hc'; exact this)
      have hset := setup_eq hb' (hB.len d hdm) hfam p
      have hcs : (DS18.setup p o' d.rom).bus.core = ({ B with devs := ds18Done (DS18.cfgByte p) (P ++ [d]) B.devs } : OWBus).core := by
        rw [hset]
        have hcd := congrArg OWBus.devs hc'
        have hcs := core_short hc'
        unfold OWBus.core at hcd ⊢
        simp only [List.map_map] at hcd ⊢
        have hsh : o'.bus.short = B.short := hcs
        rw [hsh]
        congr 1
        have key : (o'.bus.devs.map ((fun x : OWDev => { x with st := OWSt.idle }) ∘ fun x => { (if x.rom = d.rom then ds18Upd (DS18.cfgByte p) x else x) with st := .idle })) =
            (o'.bus.devs.map fun x => { x with st := OWSt.idle }).map (fun x => if x.rom = d.rom then ds18Upd (DS18.cfgByte p) x else x) := by
          rw [List.map_map]
          apply List.map_congr_left
          intro x _
          by_cases ex : x.rom = d.rom
          · simp [ex, ds18Upd]
          · simp [ex]
        rw [key, hcd]
        unfold ds18Done
        rw [List.map_map, List.map_map, List.map_map]
        apply List.map_congr_left
        intro x hx
        simp only [Function.comp]
        by_cases ex : x.rom = d.rom
        · have xd : x = d := rom_unique hB hx hdm ex
          subst xd
          by_cases hm : x.rom ∈ P.map OWDev.rom
          · simp [hm, hF, ds18Upd]
          · simp [hm, hF, ds18Upd]
        · by_cases hm : ds18Fam x ∧ x.rom ∈ P.map OWDev.rom
          · have hm2 : ds18Fam x ∧ x.rom ∈ (P ++ [d]).map OWDev.rom := ⟨hm.1, by rw [List.map_append]; exact List.mem_append_left _ hm.2⟩
            rw [if_pos hm, if_pos hm2]; simp [ds18Upd, ex]
          · have hm2 : ¬ (ds18Fam x ∧ x.rom ∈ (P ++ [d]).map OWDev.rom) := by
              rintro ⟨h1, h2⟩
              rw [List.map_append] at h2
              rcases List.mem_append.1 h2 with h | h
              · exact hm ⟨h1, h⟩
              · exact ex (by simpa using h)
            rw [if_neg hm, if_neg hm2]; simp [ex]
      obtain ⟨o2, e2, c2⟩ := ih (P ++ [d]) f (DS18.setup p o' d.rom) ((count + 1) % 256) hf' hcs hp' hs'
        (standing_same (o := o') (by rw [hset]) (by rw [hset]) (by rw [hset]) hst'') (by omega)
      refine ⟨o2, ?_, by rw [happ]; exact c2⟩
      rw [e2, List.filter_cons_of_pos hF, List.length_cons]
      congr 2; omega
    · have hF : ds18Fam d = false := by unfold ds18Fam; simpa using hfam
      rw [if_pos (by simpa using hfam)]
      have hc2 : o'.bus.core = ({ B with devs := ds18Done (DS18.cfgByte p) (P ++ [d]) B.devs } : OWBus).core := by
        rw [hc']
        congr 2
        unfold ds18Done
        apply List.map_congr_left
        intro x hx
        by_cases ex : x.rom = d.rom
        · have xd : x = d := rom_unique hB hx hdm ex
          subst xd; simp [hF]
        · have : x.rom ∈ (P ++ [d]).map OWDev.rom ↔ x.rom ∈ P.map OWDev.rom := by simp [ex]
          simp only [this]
      obtain ⟨o2, e2, c2⟩ := ih (P ++ [d]) f o' count hf' hc2 hp' hs' hst'' hlt
      refine ⟨o2, ?_, by rw [happ]; exact c2⟩
      rw [e2, List.filter_cons_of_neg (by simp [hF])]

end OTR
