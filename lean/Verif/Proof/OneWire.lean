import Verif.Model.OneWire
/-! # Proofs about the 1-Wire master -/

namespace OTR

/-! ## Bits -/

def owMask (k : Nat) : Byte := u8 (2 ^ k)

theorem owMask_shift (k : Nat) (h : k < 8) :
    (owMask k <<< 1 = 0 ↔ k = 7) ∧ (k < 7 → owMask k <<< 1 = owMask (k + 1)) := by
  revert h; revert k; decide +kernel

theorem owMask_bits (b : Byte) : ∀ k, k < 8 →
    ((b &&& owMask k != 0) = b.toNat.testBit k) ∧
    ∀ j, j < 8 → ((b ||| owMask k).toNat.testBit j = (if j = k then true else b.toNat.testBit j)) ∧
      ((b &&& ~~~ owMask k).toNat.testBit j = (if j = k then false else b.toNat.testBit j)) := by
  revert b; apply forall_byte; decide +kernel

theorem byte_bit_shift (v : Byte) : ((v &&& 1 != 0) = v.toNat.testBit 0) ∧
    ∀ i, i < 8 → (v >>> 1).toNat.testBit i = v.toNat.testBit (i + 1) := by
  revert v; apply forall_byte; decide +kernel

theorem setAddrBit_len (a : Bytes) (n : Nat) (m : Byte) (b : Bool) : (setAddrBit a n m b).length = a.length := by
  simp [setAddrBit]

theorem setAddrBit_bit (a : Bytes) (ha : a.length = 8) (i j : Nat) (hi : i < 64) (b : Bool) :
    romBit (setAddrBit a (i / 8) (owMask (i % 8)) b) j = if j = i then b else romBit a j := by
  have h8 : i / 8 < 8 := by omega
  have hk : i % 8 < 8 := by omega
  have hj : j % 8 < 8 := by omega
  unfold romBit setAddrBit
  by_cases hq : j / 8 = i / 8
  · have e1 : (a.set (i / 8) (if b = true then a.getD (i / 8) 0 ||| owMask (i % 8) else a.getD (i / 8) 0 &&& ~~~owMask (i % 8))).getD (j / 8) 0
        = (if b = true then a.getD (i / 8) 0 ||| owMask (i % 8) else a.getD (i / 8) 0 &&& ~~~owMask (i % 8)) := by
      rw [hq]; simp [List.getD, ha, h8]
    rw [e1, hq]
    have m := (owMask_bits (a.getD (i / 8) 0) (i % 8) hk).2 (j % 8) hj
    by_cases hb : b = true
    · rw [if_pos hb, m.1, hb]
      by_cases hji : j = i
      · simp [hji]
      · rw [if_neg hji, if_neg (by omega)]
    · rw [if_neg hb, m.2]
      have hb' : b = false := by simpa using hb
      by_cases hji : j = i
      · simp [hji, hb']
      · rw [if_neg hji, if_neg (by omega)]
  · have hji : ¬ j = i := fun h => hq (by rw [h])
    rw [if_neg hji]
    simp [List.getD, Ne.symm hq]

/-- Two 8-byte codes with the same 64 bits are the same. -/
theorem rom_ext {a b : Bytes} (ha : a.length = 8) (hb : b.length = 8) (h : romAgree 64 a b) : a = b := by
  apply List.ext_getElem (by omega)
  intro n h1 h2
  apply byte_ext
  apply Nat.eq_of_testBit_eq
  intro k
  by_cases hk : k < 8
  · have := h (8 * n + k) (by omega)
    unfold romBit at this
    rw [show (8 * n + k) / 8 = n from by omega, show (8 * n + k) % 8 = k from by omega] at this
    simpa [List.getD, h1, h2] using this
  · have l : ∀ x : Byte, x.toNat.testBit k = false := fun x =>
      Nat.testBit_lt_two_pow (Nat.lt_of_lt_of_le (byte_lt x) (by
        have : 2 ^ 8 ≤ 2 ^ k := Nat.pow_le_pow_right (by omega) (by omega)
        simpa using this))
    rw [l, l]

/-! ## Slots -/

theorem level_quiet {s : OWBus} (hs : s.short = false) (h : ∀ d ∈ s.devs, d.drive = true) (b : Bool) : s.level b = b := by
  have : s.devs.all OWDev.drive = true := by simpa using h
  simp [OWBus.level, hs, this]

theorem writeBit_map {o : OW} {ds : List OWDev} {g : OWDev → OWDev} (hs : o.bus.short = false)
    (h0 : o.bus.devs = ds.map g) (hd : ∀ d ∈ ds, (g d).drive = true) (b : Bool) :
    o.writeBit b = { o with bus := { o.bus with devs := ds.map fun d => (g d).slot b } } := by
  have : o.bus.level b = b := level_quiet hs (by rw [h0]; simpa using hd) b
  unfold OW.writeBit OWBus.slot
  rw [this, h0, List.map_map]; rfl

theorem readBit_map {o : OW} {ds : List OWDev} {g : OWDev → OWDev} (hs : o.bus.short = false)
    (h0 : o.bus.devs = ds.map g) :
    o.readBit = (ds.all fun d => (g d).drive,
      { o with bus := { o.bus with devs := ds.map fun d => (g d).slot (ds.all fun d => (g d).drive) } }) := by
  have : o.bus.level true = ds.all fun d => (g d).drive := by
    unfold OWBus.level; rw [hs, h0, List.all_map]; simp; rfl
  unfold OW.readBit OWBus.slot
  rw [this, h0, List.map_map]; rfl

theorem writeLoop_traj {ds : List OWDev} {g : Nat → OWDev → OWDev} {v : Byte}
    (hd : ∀ i, i < 8 → ∀ d ∈ ds, (g i d).drive = true)
    (hst : ∀ i, i < 8 → ∀ d ∈ ds, (g i d).slot (v.toNat.testBit i) = g (i + 1) d) :
    ∀ n i w (o : OW), n + i = 8 → o.bus.short = false → o.bus.devs = ds.map (g i) →
      (∀ j, j < n → w.toNat.testBit j = v.toNat.testBit (i + j)) →
      OW.writeLoop n w o = { o with bus := { o.bus with devs := ds.map (g 8) } } := by
  intro n
  induction n with
  | zero =>
    intro i w o hi hs h0 _
    rw [show i = 8 from by omega] at h0
    simp only [OW.writeLoop]; rw [← h0]
  | succ n ih =>
    intro i w o hi hs h0 hw
    simp only [OW.writeLoop]
    have b0 : (w &&& 1 != 0) = v.toNat.testBit i := by rw [(byte_bit_shift w).1]; exact hw 0 (by omega)
    rw [b0, writeBit_map hs h0 (hd i (by omega))]
    rw [ih (i + 1) (w >>> 1) _ (by omega) (by exact hs)]
    · exact List.map_congr_left (hst i (by omega))
    · intro j hj
      rw [(byte_bit_shift w).2 j (by omega), hw (j + 1) (by omega)]
      congr 1; omega

/-- Writing a byte, when no device drives the line and `g i d` is where device `d` stands after `i` bits. -/
theorem write_traj {ds : List OWDev} (g : Nat → OWDev → OWDev) {v : Byte} {o : OW} (hs : o.bus.short = false)
    (h0 : o.bus.devs = ds.map (g 0))
    (hd : ∀ i, i < 8 → ∀ d ∈ ds, (g i d).drive = true)
    (hst : ∀ i, i < 8 → ∀ d ∈ ds, (g i d).slot (v.toNat.testBit i) = g (i + 1) d) :
    o.write v = { o with bus := { o.bus with devs := ds.map (g 8) } } :=
  writeLoop_traj hd hst 8 0 v o rfl hs h0 (fun j _ => by rw [Nat.zero_add])

theorem romBit_cons (b : Byte) (bs : Bytes) (i : Nat) :
    romBit (b :: bs) i = if i < 8 then b.toNat.testBit i else romBit bs (i - 8) := by
  unfold romBit
  by_cases h : i < 8
  · rw [if_pos h, show i / 8 = 0 from by omega, show i % 8 = i from by omega]; rfl
  · rw [if_neg h, show i / 8 = (i - 8) / 8 + 1 from by omega, show (i - 8) % 8 = i % 8 from by omega]
    simp [List.getD]

theorem writeAll_traj {ds : List OWDev} : ∀ (bs : Bytes) (g : Nat → OWDev → OWDev) (o : OW), o.bus.short = false →
    o.bus.devs = ds.map (g 0) →
    (∀ i, i < 8 * bs.length → ∀ d ∈ ds, (g i d).drive = true) →
    (∀ i, i < 8 * bs.length → ∀ d ∈ ds, (g i d).slot (romBit bs i) = g (i + 1) d) →
    o.writeAll bs = { o with bus := { o.bus with devs := ds.map (g (8 * bs.length)) } } := by
  intro bs
  induction bs with
  | nil => intro g o hs h0 _ _; simp only [OW.writeAll, List.foldl_nil, List.length_nil, Nat.mul_zero]; rw [← h0]
  | cons b bs ih =>
    intro g o hs h0 hd hst
    have e : OW.writeAll (b :: bs) o = OW.writeAll bs (o.write b) := rfl
    have hl : (b :: bs).length = bs.length + 1 := rfl
    rw [e, write_traj (v := b) g hs h0 (fun i hi => hd i (by omega))
      (fun i hi d hdm => by
        have := hst i (by omega) d hdm
        rw [romBit_cons, if_pos hi] at this; exact this)]
    rw [ih (fun i => g (i + 8)) _ (by exact hs) rfl (fun i hi => hd (i + 8) (by omega))
      (fun i hi d hdm => by
        have := hst (i + 8) (by omega) d hdm
        rw [romBit_cons, if_neg (by omega), show i + 8 - 8 = i from by omega] at this
        rw [this])]
    simp [show 8 * bs.length + 8 = 8 * (bs.length + 1) from by omega]

/-! ## Reset and ROM commands -/

/-- The bus with every device idle: what is left when the protocol state is forgotten. -/
def OWBus.core (s : OWBus) : OWBus := { s with devs := s.devs.map fun d => { d with st := .idle } }

theorem core_short {s t : OWBus} (h : s.core = t.core) : s.short = t.short := by
  have := congrArg OWBus.short h; exact this

theorem core_rst {s t : OWBus} (h : s.core = t.core) : s.rst = t.rst := by
  have h1 := congrArg OWBus.devs h
  have h2 := core_short h
  have e : ∀ u : OWBus, u.rst = { u with devs := u.core.devs.map fun d => { d with st := .cmd 0 0 } } := by
    intro u; unfold OWBus.rst OWBus.core; simp
  rw [e s, e t]
  cases s; cases t; simp only at h1 h2; subst h2; rw [h1]

theorem rst_core (s : OWBus) : s.rst.core = s.core := by
  unfold OWBus.rst OWBus.core; simp

/-- Setting the protocol state of every device does not matter to the core. -/
theorem core_setSt {s : OWBus} {ds : List OWDev} {f : OWDev → OWSt} (h : s.devs = ds) :
    ({ s with devs := ds.map fun d => { d with st := f d } } : OWBus).core = s.core := by
  unfold OWBus.core; simp [h]

/-- Reset and a ROM command. -/
theorem romCmd_eq {o : OW} (hs : o.bus.short = false) (v : Byte) :
    o.reset.write v = { o with bus := { o.bus with devs := o.bus.devs.map fun d => { d with st := OWDev.romCmd v.toNat } } } := by
  rw [write_traj (ds := o.bus.devs) (o := o.reset) (v := v)
    (fun i d => { d with st := if i < 8 then OWSt.cmd i (v.toNat % 2 ^ i) else OWDev.romCmd v.toNat }) (by exact hs)]
  · rfl
  · unfold OW.reset OWBus.rst; simp [Nat.mod_one]
  · intro i hi d _; simp [OWDev.drive, hi]
  · intro i hi d _
    have e : v.toNat % 2 ^ i + (v.toNat.testBit i).toNat * 2 ^ i = v.toNat % 2 ^ (i + 1) := by
      rw [Nat.mod_pow_succ, Nat.toNat_testBit, Nat.mul_comm]
    simp only [OWDev.slot, hi, if_true, e]
    by_cases h7 : i < 7
    · rw [if_pos h7, if_pos (by omega)]
    · rw [if_neg h7, if_neg (by omega), show i = 7 from by omega, Nat.mod_eq_of_lt (byte_lt v)]

/-! ## The search -/

/-- There is a device that agrees with `r` up to bit `i`, where `r` has a 0 and the device a 1. -/
def Branch (S : List Bytes) (r : Bytes) (i : Nat) : Prop :=
  romBit r i = false ∧ ∃ s ∈ S, romAgree i s r ∧ romBit s i = true

/-- `p` is 1 + the last position before `n` at which there is a branch from `r`, or 0. -/
def LastBranch (S : List Bytes) (r : Bytes) (n p : Nat) : Prop :=
  p ≤ n ∧ (p = 0 ∨ Branch S r (p - 1)) ∧ ∀ i, p ≤ i → i < n → ¬ Branch S r i

theorem branch_congr {S : List Bytes} {r r' : Bytes} {i : Nat} (h : romAgree (i + 1) r r') : Branch S r i ↔ Branch S r' i := by
  have hi := h i (by omega)
  have ha : ∀ s, romAgree i s r ↔ romAgree i s r' := fun s =>
    ⟨fun k j hj => by rw [k j hj, h j (by omega)], fun k j hj => by rw [k j hj, h j (by omega)]⟩
  unfold Branch; rw [hi]; simp only [ha]

theorem lastBranch_congr {S : List Bytes} {r r' : Bytes} {n p : Nat} (h : romAgree n r r') (hp : LastBranch S r n p) :
    LastBranch S r' n p := by
  obtain ⟨h1, h2, h3⟩ := hp
  refine ⟨h1, ?_, fun i a b c => h3 i a b ((branch_congr (fun j hj => h j (by omega))).2 c)⟩
  rcases h2 with h2 | h2
  · exact .inl h2
  · by_cases h0 : p = 0
    · exact .inl h0
    · exact .inr ((branch_congr (fun j hj => h j (by omega))).1 h2)

/-- Where the walk through the tree must lead: fresh (`d = 0`), or on from code `r` at its last branch `d`. -/
def Walk (S : List Bytes) (r : Bytes) (d i : Nat) (a : Bytes) : Prop :=
  (i < d → romAgree i a r) ∧ (d ≤ i → 0 < d → romAgree (d - 1) a r ∧ romBit a (d - 1) = true) ∧
  ∀ j, d ≤ j → j < i → romBit a j = true → ∀ s ∈ S, romAgree j s a → romBit s j = true

/-- Protocol state of a device in round `i` of the search for address `a`. -/
def srchSt (i : Nat) (a : Bytes) (d : OWDev) : OWSt :=
  if romAgree i d.rom a then (if i < 64 then .srch i 0 else .func 0 0) else .idle

structure RoundInv (ds : List OWDev) (r : Bytes) (d : Nat) (i : Nat) (o : OW) (l : OWLoc) : Prop where
  short : o.bus.short = false
  devs : o.bus.devs = ds.map fun x => { x with st := srchSt i o.addr x }
  alen : o.addr.length = 8
  disc : o.lastDisc = d
  dev : o.lastDev = false
  byteNo : l.byteNo = i / 8
  mask : l.mask = owMask (i % 8)
  idBit : l.idBit = i + 1
  some : ∃ x ∈ ds, romAgree i x.rom o.addr
  zero : LastBranch (ds.map OWDev.rom) o.addr i l.lastZero
  walk : Walk (ds.map OWDev.rom) r d i o.addr
  /-- bits not yet visited are still those of `r` -/
  rest : 0 < d → ∀ j, i ≤ j → romBit o.addr j = romBit r j

theorem agree_succ {i : Nat} {a b : Bytes} : romAgree (i + 1) a b ↔ romAgree i a b ∧ romBit a i = romBit b i :=
  ⟨fun h => ⟨fun j hj => h j (by omega), h i (by omega)⟩, fun h j hj => by
    by_cases e : j = i
    · rw [e]; exact h.2
    · exact h.1 j (by omega)⟩


/-- A round of the search: the two bits read, and the invariant after it. -/
theorem round_step {ds : List OWDev} {r : Bytes} {d i : Nat} {o : OW} {l : OWLoc} (hi : i < 64)
    (hr : 0 < d → r ∈ ds.map OWDev.rom ∧ LastBranch (ds.map OWDev.rom) r 64 d) (h : RoundInv ds r d i o l) :
    ∃ b1 b2 o1 o2, o.readBit = (b1, o1) ∧ o1.readBit = (b2, o2) ∧ (b1 && b2) = false ∧
      RoundInv ds r d (i + 1) (o2.roundEnd l b1 b2).1 (o2.roundEnd l b1 b2).2 := by
  have hk : i % 8 < 8 := by omega
  refine ⟨_, _, _, _, readBit_map h.short h.devs, readBit_map (ds := ds) (g := fun x => { x with st := if romAgree i x.rom o.addr then .srch i 1 else .idle }) (by exact h.short) ?_, ?_⟩
  · apply List.map_congr_left
    intro x _
    simp only [srchSt]
    by_cases ha : romAgree i x.rom o.addr
    · simp only [if_pos ha, if_pos hi]; rfl
    · simp only [if_neg ha]; rfl
  have hb1 : (ds.all fun x => OWDev.drive { x with st := srchSt i o.addr x }) = true ↔
      ∀ x ∈ ds, romAgree i x.rom o.addr → romBit x.rom i = true := by
    rw [List.all_eq_true]
    refine ⟨fun hh x hx ha => ?_, fun hh x hx => ?_⟩
    · have := hh x hx
      simp only [srchSt, if_pos ha, if_pos hi] at this; exact this
    · simp only [srchSt]
      by_cases ha : romAgree i x.rom o.addr
      · simp only [if_pos ha, if_pos hi]; exact hh x hx ha
      · simp only [if_neg ha]; rfl
  have hb2 : (ds.all fun x => OWDev.drive { x with st := if romAgree i x.rom o.addr then .srch i 1 else .idle }) = true ↔
      ∀ x ∈ ds, romAgree i x.rom o.addr → romBit x.rom i = false := by
    rw [List.all_eq_true]
    refine ⟨fun hh x hx ha => ?_, fun hh x hx => ?_⟩
    · have := hh x hx
      simp only [if_pos ha, OWDev.drive] at this; simpa using this
    · by_cases ha : romAgree i x.rom o.addr
      · simp only [if_pos ha, OWDev.drive]; simpa using hh x hx ha
      · simp only [if_neg ha]; rfl
  generalize (ds.all fun x => OWDev.drive { x with st := srchSt i o.addr x }) = b1 at hb1 ⊢
  generalize hB : (ds.all fun x => OWDev.drive { x with st := if romAgree i x.rom o.addr then .srch i 1 else .idle }) = b2 at hb2 ⊢
  have hsome := h.some
  obtain ⟨x0, hx0, ha0⟩ := hsome
  have hnb : (b1 && b2) = false := by
    cases b1
    · rfl
    cases b2
    · rfl
    exact absurd ((hb1.1 rfl x0 hx0 ha0).symm.trans (hb2.1 rfl x0 hx0 ha0)) (by decide)
  refine ⟨hnb, ?_⟩
  -- the state before the end of the round
  have hdev : (ds.map fun x => OWDev.slot b2 { x with st := if romAgree i x.rom o.addr then .srch i 1 else .idle }) =
      ds.map fun x => { x with st := if romAgree i x.rom o.addr then .srch i 2 else .idle } := by
    apply List.map_congr_left
    intro x _
    by_cases ha : romAgree i x.rom o.addr
    · simp only [if_pos ha]; rfl
    · simp only [if_neg ha]; rfl
  rw [hdev]
  generalize ho2 : ({ o with bus := { o.bus with devs := ds.map fun x => { x with st := if romAgree i x.rom o.addr then OWSt.srch i 2 else OWSt.idle } } } : OW) = o2
  have e2 : o2.addr = o.addr ∧ o2.lastDisc = d ∧ o2.lastDev = false ∧ o2.bus.short = false ∧
      o2.bus.devs = ds.map fun x => { x with st := if romAgree i x.rom o.addr then OWSt.srch i 2 else OWSt.idle } := by
    subst ho2; exact ⟨rfl, h.disc, h.dev, h.short, rfl⟩
  obtain ⟨e2a, e2d, e2l, e2s, e2v⟩ := e2
  -- the direction
  have hdd : o2.dirOnDisc l = if i + 1 < d then romBit o.addr i else i + 1 == d := by
    unfold OW.dirOnDisc
    rw [h.idBit, e2d, e2a, h.byteNo, h.mask, (owMask_bits _ _ hk).1]; rfl
  have hdir : ∃ q, o2.dir l b1 b2 = q ∧ (∃ x ∈ ds, romAgree i x.rom o.addr ∧ romBit x.rom i = q) ∧
      ((q = true → (∀ x ∈ ds, romAgree i x.rom o.addr → romBit x.rom i = true) ∨ i + 1 ≤ d)) ∧
      (i + 1 < d → q = romBit r i) ∧ (i + 1 = d → q = true) ∧
      (o2.newLastZero l b1 b2 = (if q = false ∧ ∃ x ∈ ds, romAgree i x.rom o.addr ∧ romBit x.rom i = true then i + 1 else l.lastZero)) := by
    by_cases hbb : b1 = b2
    · -- discrepancy
      have h1 : b1 = false := by cases b1 <;> simp_all
      have h2 : b2 = false := by cases b2 <;> simp_all
      subst h1; subst h2
      have x1 : ∃ x ∈ ds, romAgree i x.rom o.addr ∧ romBit x.rom i = false := by
        apply Classical.byContradiction
        intro hn
        exact absurd (hb1.2 fun x hx ha => by
          cases hq : romBit x.rom i
          · exact absurd ⟨x, hx, ha, hq⟩ hn
          · rfl) (by decide)
      have x2 : ∃ x ∈ ds, romAgree i x.rom o.addr ∧ romBit x.rom i = true := by
        apply Classical.byContradiction
        intro hn
        exact absurd (hb2.2 fun x hx ha => by
          cases hq : romBit x.rom i
          · rfl
          · exact absurd ⟨x, hx, ha, hq⟩ hn) (by decide)
      refine ⟨_, rfl, ?_, ?_, ?_, ?_, ?_⟩
      · simp only [OW.dir, bne_self_eq_false, Bool.false_eq_true, if_false]
        cases o2.dirOnDisc l
        · exact x1
        · exact x2
      · simp only [OW.dir, bne_self_eq_false, Bool.false_eq_true, if_false, hdd]
        intro hq
        right
        by_cases hlt : i + 1 < d
        · omega
        · rw [if_neg hlt] at hq; simp only [beq_iff_eq] at hq; omega
      · intro hlt
        simp only [OW.dir, bne_self_eq_false, Bool.false_eq_true, if_false, hdd, if_pos hlt]
        exact h.rest (by omega) i (by omega)
      · intro he
        simp only [OW.dir, bne_self_eq_false, Bool.false_eq_true, if_false, hdd]
        rw [if_neg (by omega)]; simp [he]
      · simp only [OW.dir, OW.newLastZero, bne_self_eq_false, Bool.false_eq_true, if_false, h.idBit]
        cases o2.dirOnDisc l
        · rw [if_pos (⟨rfl, x2⟩ : _ ∧ _)]; rfl
        · simp
    · have hq : o2.dir l b1 b2 = b1 := by simp [OW.dir, hbb]
      have hz : o2.newLastZero l b1 b2 = l.lastZero := by simp [OW.newLastZero, hbb]
      have all : ∀ x ∈ ds, romAgree i x.rom o.addr → romBit x.rom i = b1 := by
        intro x hx ha
        cases b1
        · cases b2
          · exact absurd rfl hbb
          · exact hb2.1 rfl x hx ha
        · exact hb1.1 rfl x hx ha
      refine ⟨b1, hq, ⟨x0, hx0, ha0, all x0 hx0 ha0⟩, fun e => .inl (fun x hx ha => by rw [all x hx ha, e]), ?_, ?_, ?_⟩
      · intro hlt
        obtain ⟨hrm, -⟩ := hr (by omega)
        obtain ⟨x, hx, e⟩ := List.mem_map.1 hrm
        have hag := h.walk.1 (by omega)
        rw [← all x hx (by rw [e]; exact fun j hj => (hag j hj).symm), e]
      · intro he
        exfalso
        obtain ⟨hrm, -, hbr, -⟩ := hr (by omega)
        rcases hbr with hbr | ⟨hb0, s, hs, hsa, hs1⟩
        · omega
        have hag := h.walk.1 (by omega)
        obtain ⟨x, hx, e⟩ := List.mem_map.1 hrm
        obtain ⟨y, hy, e'⟩ := List.mem_map.1 hs
        rw [show d - 1 = i from by omega] at hb0 hs1 hsa
        have p1 := all x hx (by rw [e]; exact fun j hj => (hag j hj).symm)
        have p2 := all y hy (by rw [e']; exact fun j hj => (hsa j hj).trans (hag j hj).symm)
        rw [e, hb0] at p1; rw [e', hs1, ← p1] at p2; cases p2
      · rw [hz, if_neg]
        rintro ⟨h1, x, hx, ha, h2⟩
        rw [all x hx ha, h1] at h2; cases h2
  obtain ⟨q, hq, hqs, hqt, hqr, hqd, hqz⟩ := hdir
  have haddr : ∀ j, romBit (setAddrBit o.addr (i / 8) (owMask (i % 8)) q) j = if j = i then q else romBit o.addr j :=
    fun j => setAddrBit_bit o.addr h.alen i j hi q
  have hagr : romAgree i o.addr (setAddrBit o.addr (i / 8) (owMask (i % 8)) q) := fun j hj => by
    rw [haddr, if_neg (by omega)]
  have hbi : romBit (setAddrBit o.addr (i / 8) (owMask (i % 8)) q) i = q := by rw [haddr, if_pos rfl]
  have hag' : ∀ s, romAgree i s (setAddrBit o.addr (i / 8) (owMask (i % 8)) q) ↔ romAgree i s o.addr := fun s =>
    ⟨fun k j hj => by rw [k j hj, hagr j hj], fun k j hj => by rw [k j hj, hagr j hj]⟩
  have hlen := setAddrBit_len o.addr (i / 8) (owMask (i % 8)) q
  unfold OW.roundEnd
  rw [hq, e2a, h.byteNo, h.mask, h.idBit, hqz]
  generalize setAddrBit o.addr (i / 8) (owMask (i % 8)) q = a' at haddr hagr hbi hag' hlen
  rw [writeBit_map (o := { o2 with addr := a' }) (by exact e2s) (by exact e2v)]
  · refine ⟨e2s, ?_, by show a'.length = 8; rw [hlen]; exact h.alen, e2d, e2l, ?_, ?_, rfl, ?_, ?_, ?_, ?_⟩
    · apply List.map_congr_left
      intro x _
      simp only [srchSt, agree_succ, hbi, hag']
      by_cases ha : romAgree i x.rom o.addr
      · simp only [ha, true_and, if_true]
        by_cases hbx : romBit x.rom i = q
        · simp only [hbx, if_true, OWDev.slot]
          by_cases h63 : i < 63
          · rw [if_pos h63, if_pos (by omega)]
          · rw [if_neg h63, if_neg (by omega)]
        · rw [if_neg hbx]
          simp only [OWDev.slot]
          rw [if_neg (fun e => hbx e.symm)]
      · simp only [ha, false_and, if_false, OWDev.slot]
    · show (if owMask (i % 8) <<< 1 = 0 then i / 8 + 1 else i / 8) = (i + 1) / 8
      by_cases h7 : i % 8 = 7
      · rw [if_pos ((owMask_shift _ hk).1.2 h7)]; omega
      · rw [if_neg (fun e => h7 ((owMask_shift _ hk).1.1 e))]; omega
    · show (if owMask (i % 8) <<< 1 = 0 then (1 : Byte) else owMask (i % 8) <<< 1) = owMask ((i + 1) % 8)
      by_cases h7 : i % 8 = 7
      · rw [if_pos ((owMask_shift _ hk).1.2 h7), show (i + 1) % 8 = 0 from by omega]; rfl
      · rw [if_neg (fun e => h7 ((owMask_shift _ hk).1.1 e)), (owMask_shift _ hk).2 (by omega)]
        congr 1; omega
    · obtain ⟨x, hx, ha, hb⟩ := hqs
      refine ⟨x, hx, agree_succ.2 ⟨(hag' _).2 ha, ?_⟩⟩
      show romBit x.rom i = romBit a' i
      rw [hb, hbi]
    · show LastBranch (ds.map OWDev.rom) a' (i + 1)
        (if q = false ∧ ∃ x ∈ ds, romAgree i x.rom o.addr ∧ romBit x.rom i = true then i + 1 else l.lastZero)
      have hz := lastBranch_congr hagr h.zero
      have hbr : Branch (ds.map OWDev.rom) a' i ↔ q = false ∧ ∃ x ∈ ds, romAgree i x.rom o.addr ∧ romBit x.rom i = true := by
        unfold Branch
        rw [hbi]
        simp only [List.mem_map, hag']
        constructor
        · rintro ⟨h1, s, ⟨x, hx, e⟩, h2, h3⟩
          subst e; exact ⟨h1, x, hx, h2, h3⟩
        · rintro ⟨h1, x, hx, h2, h3⟩
          exact ⟨h1, _, ⟨x, hx, rfl⟩, h2, h3⟩
      by_cases hB : q = false ∧ ∃ x ∈ ds, romAgree i x.rom o.addr ∧ romBit x.rom i = true
      · rw [if_pos hB]
        exact ⟨Nat.le_refl _, .inr (hbr.2 hB), fun j h1 h2 => by omega⟩
      · rw [if_neg hB]
        refine ⟨Nat.le_succ_of_le hz.1, hz.2.1, fun j h1 h2 => ?_⟩
        by_cases hj : j = i
        · rw [hj]; exact fun c => hB (hbr.1 c)
        · exact hz.2.2 j h1 (by omega)
    · obtain ⟨w1, w2, w3⟩ := h.walk
      refine ⟨fun hlt => ?_, fun hle hd => ?_, fun j h1 h2 h3 s hs hsa => ?_⟩
      · refine agree_succ.2 ⟨fun j hj => ?_, ?_⟩
        · show romBit a' j = _
          rw [← hagr j hj]; exact w1 (by omega) j hj
        · show romBit a' i = _
          rw [hbi]; exact hqr hlt
      · by_cases he : i + 1 = d
        · have := w1 (by omega)
          refine ⟨fun j hj => ?_, ?_⟩
          · show romBit a' j = _
            rw [← hagr j (by omega)]; exact this j (by omega)
          · show romBit a' (d - 1) = true
            rw [show d - 1 = i from by omega, hbi]; exact hqd he
        · obtain ⟨v1, v2⟩ := w2 (by omega) hd
          refine ⟨fun j hj => ?_, ?_⟩
          · show romBit a' j = _
            rw [← hagr j (by omega)]; exact v1 j hj
          · show romBit a' (d - 1) = true
            rw [← hagr (d - 1) (by omega)]; exact v2
      · by_cases hj : j = i
        · subst hj
          have h3' : romBit a' j = true := h3
          rw [hbi] at h3'
          rcases hqt h3' with hall | hle
          · obtain ⟨x, hx, e⟩ := List.mem_map.1 hs
            rw [← e]; exact hall x hx (by rw [e]; exact (hag' _).1 hsa)
          · omega
        · have h3' : romBit a' j = true := h3
          rw [← hagr j (by omega)] at h3'
          exact w3 j h1 (by omega) h3' s hs (fun k hk => by
            have : romBit s k = romBit a' k := hsa k hk
            have hki : k < i := by clear hs hsa h3; omega
            rw [this, ← hagr k hki])
    · intro hd j hj
      show romBit a' j = _
      rw [haddr, if_neg (by omega)]
      exact h.rest hd j (by omega)
  · intro x _
    by_cases ha : romAgree i x.rom o.addr
    · simp only [if_pos ha]; rfl
    · simp only [if_neg ha]; rfl


theorem searchLoop_inv {ds : List OWDev} {r : Bytes} {d : Nat}
    (hr : 0 < d → r ∈ ds.map OWDev.rom ∧ LastBranch (ds.map OWDev.rom) r 64 d) :
    ∀ n i o l, n + i = 64 → 0 < n → RoundInv ds r d i o l →
      RoundInv ds r d 64 (OW.searchLoop n o l).1 (OW.searchLoop n o l).2 := by
  intro n
  induction n with
  | zero => intro i o l _ h0; omega
  | succ n ih =>
    intro i o l hn _ h
    obtain ⟨b1, b2, o1, o2, e1, e2, hb, hI⟩ := round_step (by omega) hr h
    simp only [OW.searchLoop, e1, e2, hb, Bool.false_eq_true, if_false]
    by_cases hn0 : n = 0
    · have : i + 1 = 64 := by omega
      rw [this] at hI
      rw [if_neg (by rw [hI.byteNo]; omega)]; exact hI
    · rw [if_pos (by rw [hI.byteNo]; omega)]
      exact ih (i + 1) _ _ (by omega) (by omega) hI

/-- State of the search after it has given out code `r`. -/
structure SearchAt (S : List Bytes) (o : OW) (r : Bytes) : Prop where
  addr : o.addr = r
  mem : r ∈ S
  disc : LastBranch S r 64 o.lastDisc
  dev : o.lastDev = decide (o.lastDisc = 0)

/-- State of a search that has not begun. -/
structure SearchFresh (o : OW) : Prop where
  dev : o.lastDev = false
  disc : o.lastDisc = 0
  len : o.addr.length = 8

/-- `d` is 0 (fresh) or the branch to follow from code `r`. -/
theorem searchRun_spec {o : OW} (hb : o.bus.Sound) (hne : o.bus.devs ≠ []) (r : Bytes) (hl : o.addr.length = 8)
    (hd : o.lastDev = false)
    (hr : 0 < o.lastDisc → o.addr = r ∧ r ∈ o.bus.devs.map OWDev.rom ∧ LastBranch (o.bus.devs.map OWDev.rom) r 64 o.lastDisc) :
    ∃ o', o.searchRun = (true, o') ∧ o'.bus.core = o.bus.core ∧ SearchAt (o.bus.devs.map OWDev.rom) o' o'.addr ∧
      o'.addr.length = 8 ∧ Walk (o.bus.devs.map OWDev.rom) r o.lastDisc 64 o'.addr := by
  have h0 : RoundInv o.bus.devs r o.lastDisc 0 (o.reset.write 0xf0) {} := by
    rw [romCmd_eq hb.noShort]
    refine ⟨hb.noShort, ?_, hl, rfl, hd, rfl, rfl, rfl, ?_, ?_, ?_, ?_⟩
    · apply List.map_congr_left
      intro x _
      have h0 : romAgree 0 x.rom o.addr := fun j hj => by omega
      simp only [srchSt]
      rw [if_pos h0]; rfl
    · cases e : o.bus.devs with
      | nil => exact absurd e hne
      | cons x xs => exact ⟨x, by simp, fun j hj => by omega⟩
    · exact ⟨Nat.le_refl _, .inl rfl, fun i _ hi => by omega⟩
    · exact ⟨fun _ j hj => by omega, fun h1 h2 => by omega, fun j _ hj => by omega⟩
    · intro hp j _
      show romBit o.addr j = _
      rw [(hr hp).1]
  have hI := searchLoop_inv (fun hp => (hr hp).2) 64 0 _ _ rfl (by omega) h0
  have hlen : ∀ x ∈ o.bus.devs, x.rom.length = 8 := hb.len
  obtain ⟨i1, i2, i3, i4, i5, i6, i7, i8, ⟨x, hx, hxa⟩, i10, i11, i12⟩ := hI
  unfold OW.searchRun
  simp only
  generalize OW.searchLoop 64 (o.reset.write 0xf0) {} = e at *
  rw [if_pos i8]
  refine ⟨_, rfl, ?_, ⟨rfl, ?_, i10, ?_⟩, i3, i11⟩
  · have : e.1.bus = { e.1.bus with devs := o.bus.devs.map fun x => { x with st := srchSt 64 e.1.addr x } } := by
      rw [← i2]
    show e.1.bus.core = _
    rw [this]
    have hs : e.1.bus.short = o.bus.short := i1.trans hb.noShort.symm
    unfold OWBus.core; simp [hs]
  · show e.1.addr ∈ _
    rw [← rom_ext (hlen x hx) i3 hxa]; exact List.mem_map_of_mem hx
  · show (if e.2.lastZero = 0 then true else e.1.lastDev) = decide (e.2.lastZero = 0)
    rw [i5]; by_cases hz : e.2.lastZero = 0
    · rw [if_pos hz, decide_eq_true hz]
    · rw [if_neg hz, decide_eq_false hz]

theorem romBefore_irrefl (a : Bytes) : ¬ romBefore a a := by
  rintro ⟨i, -, h1, h2, -⟩; rw [h1] at h2; cases h2

theorem romBefore_trans {a b c : Bytes} (h1 : romBefore a b) (h2 : romBefore b c) : romBefore a c := by
  obtain ⟨i, i1, i2, i3, i4⟩ := h1
  obtain ⟨j, j1, j2, j3, j4⟩ := h2
  rcases Nat.lt_trichotomy i j with h | h | h
  · exact ⟨i, i1, i2, by rw [← j4 i h]; exact i3, fun k hk => (i4 k hk).trans (j4 k (by omega))⟩
  · subst h; rw [i3] at j2; cases j2
  · exact ⟨j, j1, by rw [i4 j h]; exact j2, j3, fun k hk => (i4 k (by omega)).trans (j4 k hk)⟩

theorem romBefore_total {a b : Bytes} (ha : a.length = 8) (hb : b.length = 8) (h : a ≠ b) : romBefore a b ∨ romBefore b a := by
  apply Classical.byContradiction
  intro hn
  apply h
  apply rom_ext ha hb
  have : ∀ i, i ≤ 64 → romAgree i a b := by
    intro i
    induction i with
    | zero => intro _ j hj; omega
    | succ i ih =>
      intro hi
      have ih := ih (by omega)
      refine agree_succ.2 ⟨ih, ?_⟩
      cases e1 : romBit a i <;> cases e2 : romBit b i
      · rfl
      · exact absurd (.inl ⟨i, by omega, e1, e2, ih⟩) hn
      · exact absurd (.inr ⟨i, by omega, e2, e1, fun j hj => (ih j hj).symm⟩) hn
      · rfl
  exact this 64 (Nat.le_refl _)

/-- A fresh walk ends at the first code. -/
theorem walk_first {S : List Bytes} {r a : Bytes} (h : Walk S r 0 64 a) : ∀ t ∈ S, ¬ romBefore t a := by
  rintro t ht ⟨i, hi, h1, h2, h3⟩
  have := h.2.2 i (by omega) hi h2 t ht h3
  rw [h1] at this; cases this

/-- A walk on from `r` ends at its successor. -/
theorem walk_next {S : List Bytes} {r a : Bytes} {d : Nat} (hd : 0 < d) (hl : LastBranch S r 64 d) (h : Walk S r d 64 a) :
    romBefore r a ∧ ∀ t ∈ S, romBefore r t → ¬ romBefore t a := by
  obtain ⟨hd64, hbr, hno⟩ := hl
  obtain ⟨ha, ha1⟩ := h.2.1 hd64 hd
  have hr0 : romBit r (d - 1) = false := by
    rcases hbr with e | ⟨e, -⟩
    · omega
    · exact e
  refine ⟨⟨d - 1, by omega, hr0, ha1, fun j hj => (ha j hj).symm⟩, ?_⟩
  rintro t ht ⟨k, hk, k1, k2, k3⟩ ⟨i, hi, h1, h2, h3⟩
  rcases Nat.lt_trichotomy i (d - 1) with hlt | heq | hgt
  · -- t falls below r at i
    have ri : romBit r i = true := by rw [← ha i hlt]; exact h2
    rcases Nat.lt_trichotomy k i with g | g | g
    · have : romBit t k = romBit a k := h3 k g
      rw [k2, ha k (by omega), k1] at this; cases this
    · subst g; rw [k1] at ri; cases ri
    · rw [k3 i g, h1] at ri; cases ri
  · have htr : romAgree (d - 1) t r := fun j hj => by rw [h3 j (by omega), ha j hj]
    rcases Nat.lt_or_ge k d with g | g
    · by_cases gk : k = d - 1
      · rw [gk, ← heq, h1] at k2; cases k2
      · have : romBit t k = romBit r k := htr k (by omega)
        rw [k1, k2] at this; cases this
    · exact hno k g hk ⟨k1, t, ht, fun j hj => (k3 j hj).symm, k2⟩
  · have := h.2.2 i (by omega) hi h2 t ht h3
    rw [h1] at this; cases this

/-- After the last branch nothing comes. -/
theorem last_none {S : List Bytes} {r : Bytes} (h : LastBranch S r 64 0) : ∀ t ∈ S, ¬ romBefore r t := by
  rintro t ht ⟨i, hi, h1, h2, h3⟩
  exact h.2.2 i (by omega) hi ⟨h1, t, ht, fun j hj => (h3 j hj).symm, h2⟩


/-! ## `search` -/

theorem sound_roms {s t : OWBus} (h : s.Sound) (h1 : t.devs.map OWDev.rom = s.devs.map OWDev.rom) (h2 : t.short = s.short) :
    t.Sound := by
  have m : ∀ d ∈ t.devs, ∃ d' ∈ s.devs, d'.rom = d.rom := by
    intro d hd
    have : d.rom ∈ s.devs.map OWDev.rom := by rw [← h1]; exact List.mem_map_of_mem hd
    obtain ⟨d', a, b⟩ := List.mem_map.1 this
    exact ⟨d', a, b⟩
  refine ⟨h2.trans h.noShort, fun d hd => ?_, fun d hd => ?_, by rw [h1]; exact h.nodup⟩
  · obtain ⟨d', a, b⟩ := m d hd; rw [← b]; exact h.len d' a
  · obtain ⟨d', a, b⟩ := m d hd; rw [← b]; exact h.family d' a

theorem core_roms {s t : OWBus} (h : s.core = t.core) : s.devs.map OWDev.rom = t.devs.map OWDev.rom := by
  have e : ∀ u : OWBus, u.core.devs.map OWDev.rom = u.devs.map OWDev.rom := by
    intro u; unfold OWBus.core; simp
  rw [← e s, ← e t, h]

theorem addr0_ne {o : OW} (hb : o.bus.Sound) {a : Bytes} (ha : a ∈ o.bus.devs.map OWDev.rom) : (a.getD 0 0 == 0) = false := by
  obtain ⟨d, hd, e⟩ := List.mem_map.1 ha
  rw [← e]; simpa using hb.family d hd

/-- The first search. -/
theorem search_first {o : OW} (hb : o.bus.Sound) (hf : SearchFresh o) (hne : o.bus.devs ≠ []) :
    ∃ o', o.search = (true, o') ∧ o'.bus.core = o.bus.core ∧ SearchAt (o.bus.devs.map OWDev.rom) o' o'.addr ∧
      ∀ t ∈ o.bus.devs.map OWDev.rom, ¬ romBefore t o'.addr := by
  obtain ⟨o', e, c, s, -, w⟩ := searchRun_spec hb hne [] hf.len hf.dev (fun h => by rw [hf.disc] at h; omega)
  rw [hf.disc] at w
  refine ⟨o', ?_, c, s, walk_first w⟩
  have hp : o.present = true := by
    unfold OW.present OWBus.presence
    cases h : o.bus.devs with
    | nil => exact absurd h hne
    | cons => simp
  unfold OW.search
  rw [hf.dev, hp, e]
  simp only [Bool.not_false, Bool.not_true, Bool.false_eq_true, if_true, if_false, OW.searchEnd, addr0_ne hb s.mem, Bool.or_self]

/-- A search that goes on from code `r` when that is not the last. -/
theorem search_next {o : OW} (hb : o.bus.Sound) {r : Bytes} (ha : SearchAt (o.bus.devs.map OWDev.rom) o r) (hd : o.lastDisc ≠ 0) :
    ∃ o', o.search = (true, o') ∧ o'.bus.core = o.bus.core ∧ SearchAt (o.bus.devs.map OWDev.rom) o' o'.addr ∧
      romBefore r o'.addr ∧ ∀ t ∈ o.bus.devs.map OWDev.rom, romBefore r t → ¬ romBefore t o'.addr := by
  have hdev : o.lastDev = false := by rw [ha.dev]; simpa using hd
  have hne : o.bus.devs ≠ [] := by
    intro h; have := ha.mem; rw [h] at this; cases this
  have hl : o.addr.length = 8 := by
    obtain ⟨d, hd, e⟩ := List.mem_map.1 ha.mem
    rw [ha.addr, ← e]; exact hb.len d hd
  obtain ⟨o', e, c, s, -, w⟩ := searchRun_spec hb hne r hl hdev (fun _ => ⟨ha.addr, ha.mem, ha.disc⟩)
  obtain ⟨n1, n2⟩ := walk_next (by omega) ha.disc w
  refine ⟨o', ?_, c, s, n1, n2⟩
  have hp : o.present = true := by
    unfold OW.present OWBus.presence
    cases h : o.bus.devs with
    | nil => exact absurd h hne
    | cons => simp
  unfold OW.search
  rw [hdev, hp, e]
  simp only [Bool.not_false, Bool.not_true, Bool.false_eq_true, if_true, if_false, OW.searchEnd, addr0_ne hb s.mem, Bool.or_self]

/-- The search after the last device. -/
theorem search_last {S : List Bytes} {o : OW} {r : Bytes} (ha : SearchAt S o r) (hd : o.lastDisc = 0) :
    o.search = (false, { o with lastDev := false, lastDisc := 0 }) := by
  have hdev : o.lastDev = true := by rw [ha.dev]; simpa using hd
  unfold OW.search OW.searchEnd
  rw [hdev]; rfl

theorem search_none {o : OW} (hf : SearchFresh o) (hs : o.bus.short = false) (hne : o.bus.devs = []) :
    o.search = (false, o.reset) := by
  have hp : o.present = false := by unfold OW.present OWBus.presence; simp [hs, hne]
  unfold OW.search
  rw [hf.dev, hp]
  simp only [Bool.not_false, if_true]
  have := hf.dev; have := hf.disc
  cases o; simp_all [OW.reset]

theorem searchAt_congr {S T : List Bytes} (h : S = T) {o o' : OW} {r : Bytes} (ha : SearchAt S o r)
    (h1 : o'.lastDev = o.lastDev) (h2 : o'.lastDisc = o.lastDisc) (h3 : o'.addr = o.addr) : SearchAt T o' r := by
  subst h
  exact ⟨h3.trans ha.addr, ha.mem, by rw [h2]; exact ha.disc, by rw [h1, h2]; exact ha.dev⟩

/-- Where in the sorted list of the codes a search stands: `rest` is what is still to come. -/
inductive Standing (S : List Bytes) (o : OW) : List Bytes → List Bytes → Prop where
  | fresh (L) : SearchFresh o → Standing S o [] L
  | at (pre r rest) : SearchAt S o r → Standing S o (pre ++ [r]) rest

/-- One search against the sorted list of the codes. -/
theorem search_sorted {o : OW} (hb : o.bus.Sound) {pre rest : List Bytes}
    (hp : (pre ++ rest).Perm (o.bus.devs.map OWDev.rom)) (hs : (pre ++ rest).Pairwise romBefore)
    (hst : Standing (o.bus.devs.map OWDev.rom) o pre rest) :
    (∀ r rest', rest = r :: rest' → ∃ o', o.search = (true, o') ∧ o'.bus.core = o.bus.core ∧ o'.addr = r ∧
      Standing (o.bus.devs.map OWDev.rom) o' (pre ++ [r]) rest') ∧
    (rest = [] → ∃ o', o.search = (false, o') ∧ o'.bus.core = o.bus.core ∧ SearchFresh o') := by
  have hlenS : ∀ t ∈ o.bus.devs.map OWDev.rom, t.length = 8 := by
    intro t ht; obtain ⟨d, hd, e⟩ := List.mem_map.1 ht; rw [← e]; exact hb.len d hd
  cases hst with
  | fresh _ hf =>
    simp only [List.nil_append] at hp hs ⊢
    refine ⟨fun r rest' e => ?_, fun e => ?_⟩
    · subst e
      have hne : o.bus.devs ≠ [] := by
        intro h; rw [h] at hp; exact absurd hp.length_eq (by simp)
      obtain ⟨o', e1, c, s, w⟩ := search_first hb hf hne
      have hr : r ∈ o.bus.devs.map OWDev.rom := hp.mem_iff.1 (by simp)
      have hra : o'.addr = r := by
        apply Classical.byContradiction
        intro hne'
        have hm : o'.addr ∈ r :: rest' := hp.mem_iff.2 s.mem
        have hm' : o'.addr ∈ rest' := by
          rcases List.mem_cons.1 hm with h | h
          · exact absurd h hne'
          · exact h
        exact w r hr ((List.pairwise_cons.1 hs).1 _ hm')
      exact ⟨o', e1, c, hra, by rw [← hra]; exact Standing.at [] _ rest' s⟩
    · subst e
      have hd : o.bus.devs = [] := by simpa using hp.length_eq.symm
      exact ⟨_, search_none hf hb.noShort hd, rst_core _, hf.dev, hf.disc, hf.len⟩
  | «at» pre r _ ha =>
    have hpr : (pre ++ [r] ++ rest).Perm (o.bus.devs.map OWDev.rom) := hp
    have hafter : ∀ t ∈ rest, romBefore r t := fun t ht => by
      have := List.pairwise_append.1 hs
      exact this.2.2 r (by simp) t ht
    refine ⟨fun q rest' e => ?_, fun e => ?_⟩
    · subst e
      have hq : q ∈ o.bus.devs.map OWDev.rom := hp.mem_iff.1 (by simp)
      have hd : o.lastDisc ≠ 0 := by
        intro h0
        have := ha.disc; rw [h0] at this
        exact last_none this q hq (hafter q (by simp))
      obtain ⟨o', e1, c, s, w1, w2⟩ := search_next hb ha hd
      have hra : o'.addr = q := by
        apply Classical.byContradiction
        intro hne'
        have hm : o'.addr ∈ pre ++ [r] ++ q :: rest' := hp.mem_iff.2 s.mem
        rcases List.mem_append.1 hm with h | h
        · rcases List.mem_append.1 h with h | h
          · have h1 := List.pairwise_append.1 (List.pairwise_append.1 hs).1
            exact romBefore_irrefl _ (romBefore_trans w1 (h1.2.2 _ h r (by simp)))
          · rw [List.mem_singleton.1 h] at w1; exact romBefore_irrefl _ w1
        · rcases List.mem_cons.1 h with h | h
          · exact hne' h
          · have h2 := (List.pairwise_append.1 hs).2.1
            exact w2 q hq (hafter q (by simp)) ((List.pairwise_cons.1 h2).1 _ h)
      exact ⟨o', e1, c, hra, by rw [← hra]; exact Standing.at (pre ++ [r]) _ rest' s⟩
    · subst e
      have hd : o.lastDisc = 0 := by
        apply Classical.byContradiction
        intro h0
        obtain ⟨o', e1, c, s, w1, w2⟩ := search_next hb ha h0
        have hm : o'.addr ∈ pre ++ [r] ++ [] := hp.mem_iff.2 s.mem
        rw [List.append_nil] at hm
        rcases List.mem_append.1 hm with h | h
        · have h1 := List.pairwise_append.1 (List.pairwise_append.1 hs).1
          exact romBefore_irrefl _ (romBefore_trans w1 (h1.2.2 _ h r (by simp)))
        · rw [List.mem_singleton.1 h] at w1; exact romBefore_irrefl _ w1
      refine ⟨_, search_last ha hd, rfl, rfl, rfl, ?_⟩
      show o.addr.length = 8
      rw [ha.addr]; exact hlenS r ha.mem

/-- A sorted list of the codes exists. -/
theorem exists_sorted (S : List Bytes) (hl : ∀ t ∈ S, t.length = 8) (hn : S.Nodup) :
    ∃ L : List Bytes, L.Perm S ∧ L.Pairwise romBefore := by
  induction S with
  | nil => exact ⟨[], List.Perm.refl _, List.Pairwise.nil⟩
  | cons x S ih =>
    obtain ⟨hx, hn'⟩ := List.nodup_cons.1 hn
    obtain ⟨L, hp, hs⟩ := ih (fun t ht => hl t (by simp [ht])) hn'
    -- insert x
    have ins : ∀ M : List Bytes, (∀ t ∈ M, t.length = 8 ∧ t ≠ x) → M.Pairwise romBefore →
        ∃ N : List Bytes, N.Perm (x :: M) ∧ N.Pairwise romBefore := by
      intro M
      induction M with
      | nil => intro _ _; exact ⟨[x], List.Perm.refl _, List.pairwise_singleton _ _⟩
      | cons y M ih2 =>
        intro hM hpw
        obtain ⟨p1, p2⟩ := List.pairwise_cons.1 hpw
        rcases romBefore_total (hl x (by simp)) (hM y (by simp)).1 (Ne.symm (hM y (by simp)).2) with h | h
        · refine ⟨x :: y :: M, List.Perm.refl _, List.pairwise_cons.2 ⟨fun t ht => ?_, hpw⟩⟩
          rcases List.mem_cons.1 ht with e | e
          · rw [e]; exact h
          · exact romBefore_trans h (p1 t e)
        · obtain ⟨N, n1, n2⟩ := ih2 (fun t ht => hM t (by simp [ht])) p2
          refine ⟨y :: N, (List.Perm.cons y n1).trans (List.Perm.swap x y M), List.pairwise_cons.2 ⟨fun t ht => ?_, n2⟩⟩
          rcases List.mem_cons.1 (n1.mem_iff.1 ht) with e | e
          · rw [e]; exact h
          · exact p1 t e
    obtain ⟨N, n1, n2⟩ := ins L (fun t ht => ⟨hl t (by simp [hp.mem_iff.1 ht]), fun e => hx (by rw [← e]; exact hp.mem_iff.1 ht)⟩) hs
    exact ⟨N, n1.trans (List.Perm.cons x hp), n2⟩

end OTR
