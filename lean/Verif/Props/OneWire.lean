import Verif.Proof.DS18B20
/-!
# Properties C138 (1-Wire search), C139 (1-Wire bytes and selection) and C140, C141 (DS18B20)
-/

namespace OTR.Props
open OTR

/-- `n` calls of `search` in a row: the address for a call that gives true, `none` for one that gives false.
Between calls the application may use the bus in any way (`tr`) that leaves the same devices on it. -/
def searches (tr : OWBus → OWBus) : Nat → OW → List (Option Bytes)
  | 0, _ => []
  | n + 1, o => (if o.search.1 then some o.search.2.addr else none) ::
      searches tr n { o.search.2 with bus := tr o.search.2.bus }

/-- Bus traffic after which the same devices are there. -/
def Traffic (tr : OWBus → OWBus) : Prop :=
  ∀ s, (tr s).devs.map OWDev.rom = s.devs.map OWDev.rom ∧ (tr s).short = s.short

theorem searches_sorted {tr : OWBus → OWBus} (htr : Traffic tr) {S : List Bytes} : ∀ (rest pre : List Bytes) (o : OW) (m : Nat),
    o.bus.Sound → o.bus.devs.map OWDev.rom = S → (pre ++ rest).Perm S → (pre ++ rest).Pairwise romBefore →
    Standing S o pre rest →
    ∃ o', o'.bus.Sound ∧ o'.bus.devs.map OWDev.rom = S ∧ SearchFresh o' ∧
      searches tr (rest.length + 1 + m) o = rest.map some ++ none :: searches tr m o' := by
  intro rest
  induction rest with
  | nil =>
    intro pre o m hb hS hp hs hst
    subst hS
    obtain ⟨o1, e, c, f⟩ := (search_sorted hb hp hs hst).2 rfl
    obtain ⟨t1, t2⟩ := htr o1.bus
    have hr := core_roms c
    refine ⟨{ o1 with bus := tr o1.bus }, sound_roms hb (t1.trans hr) (t2.trans (core_short c)), t1.trans hr, ⟨f.dev, f.disc, f.len⟩, ?_⟩
    rw [List.length_nil, show 0 + 1 + m = m + 1 from by omega]
    simp only [searches, e]; rfl
  | cons r rest ih =>
    intro pre o m hb hS hp hs hst
    subst hS
    obtain ⟨o1, e, c, ea, st⟩ := (search_sorted hb hp hs hst).1 r rest rfl
    obtain ⟨t1, t2⟩ := htr o1.bus
    have hr := core_roms c
    obtain ⟨o', h1, h2, h3, h4⟩ := ih (pre ++ [r]) { o1 with bus := tr o1.bus } m (sound_roms hb (t1.trans hr) (t2.trans (core_short c)))
      (t1.trans hr) (by simpa using hp) (by simpa using hs) (standing_same (o := o1) rfl rfl rfl st)
    refine ⟨o', h1, h2, h3, ?_⟩
    rw [List.length_cons, show rest.length + 1 + 1 + m = (rest.length + 1 + m) + 1 from by omega]
    simp only [searches, e, if_true]
    rw [h4, ea]; rfl

/-- On a bus in working order, from any state of the search, after `reset_search()` the calls of `search()` give every
device once, in the order of the codes, then false; and the next calls start over. -/
theorem C138_search_enumerates (o : OW) (hb : o.bus.Sound) (tr : OWBus → OWBus) (htr : Traffic tr) :
    ∃ L : List Bytes, L.Perm (o.bus.devs.map OWDev.rom) ∧ L.Pairwise romBefore ∧
      searches tr (L.length + 1) o.resetSearch = L.map some ++ [none] ∧
      searches tr (L.length + 1 + (L.length + 1)) o.resetSearch = L.map some ++ none :: (L.map some ++ [none]) := by
  obtain ⟨L, hp, hs⟩ := exists_sorted (o.bus.devs.map OWDev.rom) (fun t ht => by
    obtain ⟨d, hd, e⟩ := List.mem_map.1 ht; rw [← e]; exact hb.len d hd) hb.nodup
  have hf : SearchFresh o.resetSearch := ⟨rfl, rfl, rfl⟩
  refine ⟨L, hp, hs, ?_, ?_⟩
  · obtain ⟨o', -, -, -, h⟩ := searches_sorted htr L [] o.resetSearch 0 hb rfl hp hs (.fresh _ hf)
    rw [Nat.add_zero] at h; exact h
  · obtain ⟨o', h1, h2, h3, h⟩ := searches_sorted htr L [] o.resetSearch (L.length + 1) hb rfl hp hs (.fresh _ hf)
    obtain ⟨o2, -, -, -, h'⟩ := searches_sorted htr L [] o' 0 h1 h2 hp hs (.fresh _ h3)
    rw [Nat.add_zero] at h'
    rw [h, h']; rfl

/-- No device: false at once. -/
theorem C138_no_device (o : OW) (h : o.bus.devs = []) (hs : o.bus.short = false) : o.resetSearch.search.1 = false := by
  rw [search_none (o := o.resetSearch) ⟨rfl, rfl, rfl⟩ hs h]

/-! ### A shorted bus -/

theorem short_level (s : OWBus) (h : s.short = true) (b : Bool) : s.level b = false := by simp [OWBus.level, h]

theorem short_write (o : OW) (v : Byte) (h : o.bus.short = true) :
    (o.write v).bus.short = true ∧ (o.write v).addr = o.addr ∧ (o.write v).lastDisc = o.lastDisc ∧ (o.write v).lastDev = o.lastDev := by
  have : ∀ n v o, o.bus.short = true → (OW.writeLoop n v o).bus.short = true ∧ (OW.writeLoop n v o).addr = o.addr ∧
      (OW.writeLoop n v o).lastDisc = o.lastDisc ∧ (OW.writeLoop n v o).lastDev = o.lastDev := by
    intro n
    induction n with
    | zero => intro v o h; exact ⟨h, rfl, rfl, rfl⟩
    | succ n ih =>
      intro v o h
      simp only [OW.writeLoop]
      exact ih _ _ (by exact h)
  exact this 8 v o h

theorem short_loop : ∀ n i (o : OW) (l : OWLoc), n + i = 64 → 0 < n → o.bus.short = true → o.lastDisc = 0 → o.addr.length = 8 →
    l.byteNo = i / 8 → l.mask = owMask (i % 8) → l.idBit = i + 1 → (∀ j, j < i → romBit o.addr j = false) →
    ∀ j, j < 64 → romBit (OW.searchLoop n o l).1.addr j = false := by
  intro n
  induction n with
  | zero => intro i o l _ h; omega
  | succ n ih =>
    intro i o l hn _ hs hd hl hb hm hi ha j hj
    have hk : i % 8 < 8 := by omega
    have e1 : o.readBit = (false, { o with bus := o.bus.slot true }) := by unfold OW.readBit; rw [short_level _ hs]
    have e2 : OW.readBit { o with bus := o.bus.slot true } = (false, { o with bus := (o.bus.slot true).slot true }) := by
      unfold OW.readBit; rw [short_level _ (by exact hs)]
    simp only [OW.searchLoop, e1, e2, Bool.and_self, Bool.false_eq_true, if_false]
    have hdir : OW.dir { o with bus := (o.bus.slot true).slot true } l false false = false := by
      unfold OW.dir OW.dirOnDisc
      simp only [hd, hi]; simp
    have haddr : ∀ j, romBit (setAddrBit o.addr (i / 8) (owMask (i % 8)) false) j = if j = i then false else romBit o.addr j :=
      fun j => setAddrBit_bit o.addr hl i j (by omega) false
    have hlen := setAddrBit_len o.addr (i / 8) (owMask (i % 8)) false
    unfold OW.roundEnd
    rw [hdir]
    by_cases hn0 : n = 0
    · have h7 : i % 8 = 7 := by omega
      have hz := (owMask_shift _ hk).1.2 h7
      have : ¬ (if l.mask <<< 1 = 0 then l.byteNo + 1 else l.byteNo) < 8 := by
        rw [hm, if_pos hz, hb]; omega
      rw [if_neg this]
      show romBit (setAddrBit o.addr l.byteNo l.mask false) j = false
      rw [hb, hm, haddr]
      by_cases e : j = i
      · rw [if_pos e]
      · rw [if_neg e]; exact ha j (by omega)
    · have hb' : (if l.mask <<< 1 = 0 then l.byteNo + 1 else l.byteNo) = (i + 1) / 8 := by
        rw [hm, hb]
        by_cases h7 : i % 8 = 7
        · rw [if_pos ((owMask_shift _ hk).1.2 h7)]; omega
        · rw [if_neg (fun e => h7 ((owMask_shift _ hk).1.1 e))]; omega
      have hlt : (if l.mask <<< 1 = 0 then l.byteNo + 1 else l.byteNo) < 8 := by rw [hb']; omega
      rw [if_pos hlt]
      refine ih (i + 1) _ _ (by omega) (by omega) (by exact hs) (by exact hd) (by show (setAddrBit _ _ _ _).length = 8; rw [hb, hm, hlen]; exact hl) hb' ?_ (by show l.idBit + 1 = _; rw [hi]) ?_ j hj
      · show (if l.mask <<< 1 = 0 then (1 : Byte) else l.mask <<< 1) = _
        rw [hm]
        by_cases h7 : i % 8 = 7
        · rw [if_pos ((owMask_shift _ hk).1.2 h7), show (i + 1) % 8 = 0 from by omega]; rfl
        · rw [if_neg (fun e => h7 ((owMask_shift _ hk).1.1 e)), (owMask_shift _ hk).2 (by omega)]
          congr 1; omega
      · intro j hj
        show romBit (setAddrBit o.addr l.byteNo l.mask false) j = false
        rw [hb, hm, haddr]
        by_cases e : j = i
        · rw [if_pos e]
        · rw [if_neg e]; exact ha j (by omega)

/-- The line shorted to ground (which looks like presence): `search()` after `reset_search()` gives false. -/
theorem C138_shorted (o : OW) (h : o.bus.short = true) : o.resetSearch.search.1 = false := by
  have hp : o.resetSearch.present = true := by
    show o.bus.presence = true
    unfold OWBus.presence; rw [h]; rfl
  have hd : o.resetSearch.lastDev = false := rfl
  unfold OW.search
  rw [hd, hp]
  simp only [Bool.not_false, Bool.not_true, Bool.false_eq_true, if_true, if_false]
  obtain ⟨w1, w2, w3, w4⟩ := short_write o.resetSearch.reset 0xf0 h
  have hz := short_loop 64 0 (o.resetSearch.reset.write 0xf0) {} rfl (by omega) w1 w3 (by rw [w2]; rfl) rfl rfl rfl (fun j hj => by omega)
  have h0 : (OW.searchLoop 64 (o.resetSearch.reset.write 0xf0) {}).1.addr.getD 0 0 = 0 := by
    apply byte_ext
    apply Nat.eq_of_testBit_eq
    intro k
    by_cases hk : k < 8
    · have := hz k (by omega)
      unfold romBit at this
      rw [show k / 8 = 0 from by omega, show k % 8 = k from by omega] at this
      rw [this]; simp
    · have : 2 ^ 8 ≤ 2 ^ k := Nat.pow_le_pow_right (by omega) (by omega)
      rw [Nat.testBit_lt_two_pow (Nat.lt_of_lt_of_le (byte_lt _) this)]; simp
  unfold OW.searchEnd
  by_cases h65 : (OW.searchLoop 64 (o.resetSearch.reset.write 0xf0) {}).2.idBit = 65
  · have e : (o.resetSearch.searchRun).2.addr.getD 0 0 = 0 := by
      unfold OW.searchRun; simp only [if_pos h65]; exact h0
    rw [e]; simp
  · have e : (o.resetSearch.searchRun).1 = false := by
      unfold OW.searchRun; simp only [if_neg h65]
    simp [e]


/-! ## C139: addressing and bytes -/

/-- After `reset()` and `select(a)` the device with code `a` listens for a function command and no other does;
nothing else about any device changes. -/
theorem C139_select (o : OW) (hb : o.bus.Sound) (a : Bytes) (ha : a.length = 8) :
    (o.reset.select a).bus.devs = o.bus.devs.map fun x => { x with st := if x.rom = a then .func 0 0 else .idle } := by
  rw [select_eq hb ha]

/-- After `reset()` and `skip()` every device listens. -/
theorem C139_skip (o : OW) (hb : o.bus.Sound) :
    o.reset.skip.bus.devs = o.bus.devs.map fun x => { x with st := .func 0 0 } := by
  unfold OW.skip
  rw [romCmd_eq hb.noShort]; rfl

/-- A byte written is the byte that the device listening takes in. -/
theorem C139_byte_written (o : OW) (hb : o.bus.Sound) (a : Bytes) (ha : a.length = 8) (v : Byte) (x : OWDev) (hx : x ∈ o.bus.devs) :
    (x.rom = a → x.funcCmd v.toNat ∈ ((o.reset.select a).write v).bus.devs) ∧
    (x.rom ≠ a → { x with st := .idle } ∈ ((o.reset.select a).write v).bus.devs) := by
  rw [select_eq hb ha, func_write (ds := o.bus.devs) (P := fun x => x.rom = a) (by exact hb.noShort) rfl]
  exact ⟨fun e => List.mem_map.2 ⟨x, hx, by simp [e]⟩, fun e => List.mem_map.2 ⟨x, hx, by simp [e]⟩⟩

/-- Bytes read are the bytes that the device sends (here: the first two of its scratchpad), for every device on the bus. -/
theorem C139_bytes_read (o : OW) (hb : o.bus.Sound) (d : OWDev) (hd : d ∈ o.bus.devs) (hf : d.rom.getD 0 0 = 0x28) :
    (((o.reset.select d.rom).write 0xbe).read).1 = d.t0 ∧
    ((((o.reset.select d.rom).write 0xbe).read).2.read).1 = d.t1 := by
  have := fetch_eq hb hd hf
  unfold DS18.fetch at this
  simp only [Prod.mk.injEq] at this
  exact ⟨this.1, this.2.1⟩

/-! ## C140: reading the DS18B20 -/

def convMark (x : OWDev) : OWDev := if ds18Fam x then { x with st := .conv, pending := true } else { x with st := .idle }

theorem convMark_facts (x : OWDev) : (convMark x).rom = x.rom ∧ ds18Fam (convMark x) = ds18Fam x ∧ ds18Val (convMark x) = ds18Val x := by
  unfold convMark
  by_cases h : ds18Fam x = true
  · rw [if_pos h]; exact ⟨rfl, rfl, rfl⟩
  · rw [if_neg h]; exact ⟨rfl, rfl, rfl⟩

theorem convert_eq (o : OW) (hb : o.bus.Sound) :
    (o.reset.skip.write 0x44) = { o with bus := { o.bus with devs := o.bus.devs.map convMark } } := by
  have h : o.reset.skip = { o with bus := { o.bus with devs := o.bus.devs.map fun x => { x with st := .func 0 0 } } } := by
    unfold OW.skip
    rw [romCmd_eq hb.noShort]; rfl
  rw [h, func_write (ds := o.bus.devs) (P := fun _ => True) (by exact hb.noShort) (by simp)]
  simp only [if_true]
  have : (o.bus.devs.map fun x => x.funcCmd (UInt8.toNat 0x44)) = o.bus.devs.map convMark := by
    apply List.map_congr_left
    intro x _
    unfold OWDev.funcCmd convMark ds18Fam
    by_cases e : x.rom.getD 0 0 = 0x28
    · rw [e]; rfl
    · have e' : (x.rom.getD 0 0 == 0x28) = false := by simpa using e
      rw [if_pos e, e']; rfl
  rw [this]

theorem map_mark_roms (l : List OWDev) : (l.map convMark).map OWDev.rom = l.map OWDev.rom := by
  rw [List.map_map]
  exact List.map_congr_left fun x _ => (convMark_facts x).1

theorem filter_mark (l : List OWDev) : (l.map convMark).filter ds18Fam = (l.filter ds18Fam).map convMark := by
  rw [List.filter_map]
  congr 1
  apply List.filter_congr
  intro x _
  exact (convMark_facts x).2.1

/-- With an initialised driver: `readMultiple` ends, and stores the values held in the scratchpads of the DS18B20s on the
bus, in the order of their codes, without the first `index`, at most `count` of them; other devices on the bus are passed over. -/
theorem C140_read_multiple (d : DS18) (hb : d.ow.bus.Sound) (hi : d.initialised = true) (h0 : d.sensorCount ≠ 0)
    (L : List OWDev) (hp : L.Perm d.ow.bus.devs) (hs : L.Pairwise fun a b => romBefore a.rom b.rom)
    (fuel count index : Nat) (hfuel : L.length < fuel) (hc : 0 < count) :
    ∃ d', d.readMultiple fuel count index = some (d', (((L.filter ds18Fam).drop index).take count).map ds18Val) ∧
      d'.initialised = true ∧ d'.sensorCount = d.sensorCount ∧
      d'.ow.bus.core = ({ d.ow.bus with devs := d.ow.bus.devs.map convMark } : OWBus).core := by
  have hB : ({ d.ow.bus with devs := d.ow.bus.devs.map convMark } : OWBus).Sound :=
    sound_roms hb (by exact map_mark_roms _) rfl
  have hc2 := convert_eq d.ow hb
  obtain ⟨o', e, c⟩ := readLoop_eq hB (count := count) (L.map convMark) [] fuel
    (d.ow.reset.skip.write 0x44).resetSearch index [] (by simpa using hfuel) (by rw [hc2]; rfl)
    (by exact hp.map convMark)
    (by
      rw [List.nil_append, List.pairwise_map]
      apply hs.imp
      intro a b h
      rw [(convMark_facts a).1, (convMark_facts b).1]; exact h)
    (.fresh _ ⟨rfl, rfl, rfl⟩) hc
  unfold DS18.readMultiple DS18.readBody
  rw [if_pos hi, if_neg h0, e]
  refine ⟨{ d with ow := o' }, ?_, hi, rfl, c⟩
  dsimp only
  rw [List.nil_append, List.length_nil, Nat.sub_zero, filter_mark, ← List.map_drop, ← List.map_take, List.map_map]
  have : ds18Val ∘ convMark = ds18Val := funext fun x => (convMark_facts x).2.2
  rw [this]

/-- A `count` of 0 (an array without elements) is treated as 1: a value is stored all the same. -/
theorem C140_count_zero_stores_one (d : DS18) (fuel index : Nat) : d.readMultiple fuel 0 index = d.readMultiple fuel 1 index := by
  have : ∀ fuel o index, DS18.readLoop 0 fuel o index [] = DS18.readLoop 1 fuel o index [] := by
    intro fuel
    induction fuel with
    | zero => intro o index; rfl
    | succ n ih =>
      intro o index
      simp only [DS18.readLoop, ih]
      simp
  unfold DS18.readMultiple DS18.readBody
  simp only [this]

theorem perm_lift {α β : Type} (f : α → β) (l : List α) (M : List β) (h : M.Perm (l.map f)) :
    ∃ N : List α, N.Perm l ∧ N.map f = M := by
  induction M generalizing l with
  | nil =>
    have : l = [] := by simpa using h.length_eq.symm
    exact ⟨[], by rw [this], rfl⟩
  | cons b M ih =>
    obtain ⟨x, hx, e⟩ := List.mem_map.1 (h.mem_iff.1 (List.mem_cons_self ..))
    obtain ⟨s, t, e2⟩ := List.append_of_mem hx
    subst e2
    have hper : (s ++ x :: t).Perm (x :: (s ++ t)) := List.perm_middle
    have h' : M.Perm ((s ++ t).map f) := by
      have := h.trans (hper.map f)
      rw [List.map_cons, e] at this
      exact this.cons_inv
    obtain ⟨N, n1, n2⟩ := ih _ h'
    exact ⟨x :: N, (n1.cons x).trans hper.symm, by rw [List.map_cons, n2, e]⟩

theorem exists_sorted_devs (s : OWBus) (hb : s.Sound) :
    ∃ L : List OWDev, L.Perm s.devs ∧ L.Pairwise fun a b => romBefore a.rom b.rom := by
  obtain ⟨L0, hp0, hs0⟩ := exists_sorted (s.devs.map OWDev.rom) (fun t ht => by
    obtain ⟨x, hx, e⟩ := List.mem_map.1 ht; rw [← e]; exact hb.len x hx) hb.nodup
  obtain ⟨L, hp, hL⟩ := perm_lift OWDev.rom _ _ hp0
  exact ⟨L, hp, by rw [← hL, List.pairwise_map] at hs0; exact hs0⟩

/-- `init`: every DS18B20 gets the precision asked for (and alarm bytes 0), no other device is written to, and the count
is the number of DS18B20s (modulo 256, the counter being a byte). -/
theorem C141_init (d : DS18) (hb : d.ow.bus.Sound) (fuel : Nat) (hfuel : d.ow.bus.devs.length < fuel) :
    ∃ d', d.init fuel = some d' ∧ d'.initialised = true ∧
      d'.sensorCount = (d.ow.bus.devs.filter ds18Fam).length % 256 ∧
      d'.ow.bus.core = ({ d.ow.bus with devs := d.ow.bus.devs.map (fun x => if ds18Fam x then { x with th := 0, tl := 0, cfg := DS18.cfgByte d.precision } else x) } : OWBus).core := by
  obtain ⟨L0, hp0, hs0⟩ := exists_sorted (d.ow.bus.devs.map OWDev.rom) (fun t ht => by
    obtain ⟨x, hx, e⟩ := List.mem_map.1 ht; rw [← e]; exact hb.len x hx) hb.nodup
  obtain ⟨L, hp, hL⟩ := perm_lift OWDev.rom _ _ hp0
  have hs : L.Pairwise fun a b => romBefore a.rom b.rom := by
    rw [← hL, List.pairwise_map] at hs0; exact hs0
  have hinit : d.ow.resetSearch.bus.core = ({ d.ow.bus with devs := ds18Done (DS18.cfgByte d.precision) [] d.ow.bus.devs } : OWBus).core := by
    have : ds18Done (DS18.cfgByte d.precision) [] d.ow.bus.devs = d.ow.bus.devs := by
      unfold ds18Done; simp
    rw [this]; rfl
  obtain ⟨o', e, c⟩ := initLoop_eq hb (p := d.precision) L [] fuel d.ow.resetSearch 0 (by rw [hp.length_eq]; exact hfuel) hinit hp hs
    (.fresh _ ⟨rfl, rfl, rfl⟩) (by omega)
  unfold DS18.init
  rw [e]
  refine ⟨_, rfl, rfl, ?_, ?_⟩
  · show (0 + (L.filter ds18Fam).length) % 256 = _
    rw [Nat.zero_add, (hp.filter ds18Fam).length_eq]
  · show o'.bus.core = _
    rw [c]
    congr 2
    unfold ds18Done
    apply List.map_congr_left
    intro x hx
    have hm : x.rom ∈ ([] ++ L).map OWDev.rom := List.mem_map_of_mem (hp.mem_iff.2 hx)
    simp only [hm, and_true]; rfl

/-- `read()` on a driver set up: the value held in the first DS18B20. -/
theorem C140_read_first (d : DS18) (hb : d.ow.bus.Sound) (hi : d.initialised = true) (h0 : d.sensorCount ≠ 0)
    (x : OWDev) (hx : x ∈ d.ow.bus.devs) (hf : ds18Fam x = true)
    (hfirst : ∀ y ∈ d.ow.bus.devs, ds18Fam y = true → y ≠ x → romBefore x.rom y.rom)
    (fuel : Nat) (hfuel : d.ow.bus.devs.length < fuel) :
    ∃ d', d.readOne fuel = some (d', some (ds18Val x)) := by
  obtain ⟨M, hM, hs⟩ := exists_sorted_devs _ hb
  obtain ⟨d', e, -⟩ := C140_read_multiple d hb hi h0 M hM hs fuel 1 0 (by rw [hM.length_eq]; exact hfuel) (by omega)
  have hsf : (M.filter ds18Fam).Pairwise fun a b => romBefore a.rom b.rom := hs.filter _
  have hxm : x ∈ M.filter ds18Fam := List.mem_filter.2 ⟨hM.mem_iff.2 hx, hf⟩
  have hhead : ∃ T, M.filter ds18Fam = x :: T := by
    cases hF : M.filter ds18Fam with
    | nil => rw [hF] at hxm; cases hxm
    | cons z T =>
      rw [hF] at hxm hsf
      have hz : z ∈ M.filter ds18Fam := by rw [hF]; simp
      obtain ⟨hz1, hz2⟩ := List.mem_filter.1 hz
      by_cases hzx : z = x
      · exact ⟨T, by rw [hzx]⟩
      · rcases List.mem_cons.1 hxm with h' | h'
        · exact absurd h'.symm hzx
        · exact absurd (romBefore_trans (hfirst z (hM.mem_iff.1 hz1) hz2 hzx) ((List.pairwise_cons.1 hsf).1 x h')) (romBefore_irrefl _)
  obtain ⟨T, hT⟩ := hhead
  refine ⟨d', ?_⟩
  unfold DS18.readOne
  rw [e, hT]; rfl

def idleSt (x : OWDev) : OWDev := { x with st := .idle }

theorem ds18Upd_facts (c : Byte) (x : OWDev) : (idleSt (if ds18Fam x then { x with th := 0, tl := 0, cfg := c } else x)).rom = x.rom ∧
    ds18Val (idleSt (if ds18Fam x then { x with th := 0, tl := 0, cfg := c } else x)) = ds18Val x := by
  by_cases h : ds18Fam x = true
  · rw [if_pos h]; exact ⟨rfl, rfl⟩
  · rw [if_neg h]; exact ⟨rfl, rfl⟩

/-- The same with a driver not yet set up, which then is. -/
theorem C140_read_multiple_first_use (d : DS18) (hb : d.ow.bus.Sound) (hi : d.initialised = false)
    (h0 : (d.ow.bus.devs.filter ds18Fam).length % 256 ≠ 0)
    (L : List OWDev) (hp : L.Perm d.ow.bus.devs) (hs : L.Pairwise fun a b => romBefore a.rom b.rom)
    (fuel count index : Nat) (hfuel : L.length < fuel) (hc : 0 < count) :
    ∃ d', d.readMultiple fuel count index = some (d', (((L.filter ds18Fam).drop index).take count).map ds18Val) ∧
      d'.initialised = true := by
  obtain ⟨d1, e1, i1, n1, c1⟩ := C141_init d hb fuel (by rw [← hp.length_eq]; exact hfuel)
  generalize hu : (fun x : OWDev => if ds18Fam x then { x with th := 0, tl := 0, cfg := DS18.cfgByte d.precision } else x) = u at c1
  have cd : d1.ow.bus.devs.map idleSt = d.ow.bus.devs.map (idleSt ∘ u) := by
    have := congrArg OWBus.devs c1
    unfold OWBus.core at this
    simp only [List.map_map] at this; exact this
  have uf : ∀ x, (idleSt (u x)).rom = x.rom ∧ ds18Val (idleSt (u x)) = ds18Val x := by
    intro x; rw [← hu]; exact ds18Upd_facts _ x
  obtain ⟨N, hN, hNL⟩ := perm_lift idleSt d1.ow.bus.devs (L.map (idleSt ∘ u)) (by rw [cd]; exact hp.map _)
  have hrom : d1.ow.bus.devs.map OWDev.rom = d.ow.bus.devs.map OWDev.rom := by
    have := congrArg (List.map OWDev.rom) cd
    rw [List.map_map, List.map_map] at this
    have e2 : OWDev.rom ∘ idleSt ∘ u = OWDev.rom := funext fun x => (uf x).1
    rw [e2] at this; exact this
  have hb1 : d1.ow.bus.Sound := sound_roms hb hrom (by have := core_short c1; exact this)
  have hNs : N.Pairwise fun a b => romBefore a.rom b.rom := by
    have h1 : (N.map OWDev.rom) = L.map OWDev.rom := by
      have := congrArg (List.map OWDev.rom) hNL
      rw [List.map_map, List.map_map] at this
      have e2 : OWDev.rom ∘ idleSt ∘ u = OWDev.rom := funext fun x => (uf x).1
      rw [e2] at this; exact this
    have h2 : (N.map OWDev.rom).Pairwise romBefore := by rw [h1, List.pairwise_map]; exact hs
    rw [List.pairwise_map] at h2; exact h2
  have hNv : (N.filter ds18Fam).map ds18Val = (L.filter ds18Fam).map ds18Val := by
    have g : ∀ (l : List OWDev) (f : OWDev → OWDev), (∀ x, (f x).rom = x.rom ∧ ds18Val (f x) = ds18Val x) →
        ((l.map f).filter ds18Fam).map ds18Val = (l.filter ds18Fam).map ds18Val := by
      intro l f hf
      rw [List.filter_map, List.map_map]
      have e2 : ds18Val ∘ f = ds18Val := funext fun x => (hf x).2
      have e3 : ds18Fam ∘ f = ds18Fam := funext fun x => by simp only [Function.comp, ds18Fam, (hf x).1]
      rw [e2, e3]
    rw [← g N idleSt (fun x => ⟨rfl, rfl⟩), hNL, g L (idleSt ∘ u) uf]
  have hlen : N.length = L.length := by
    have := congrArg List.length hNL; simpa using this
  obtain ⟨d', e, i', -⟩ := C140_read_multiple d1 hb1 i1 (by rw [n1]; exact h0) N hN hNs fuel count index (by omega) hc
  refine ⟨d', ?_, i'⟩
  unfold DS18.readMultiple at e ⊢
  rw [if_pos i1] at e
  rw [if_neg (by simp [hi]), e1]
  show DS18.readBody fuel count index d1 = _
  rw [e, List.map_take, List.map_drop, hNv, List.map_take, List.map_drop]

/-- No DS18B20: nothing is stored, and `read()` gives the invalid value. -/
theorem C140_no_sensor (d : DS18) (hi : d.initialised = true) (h0 : d.sensorCount = 0) (fuel count index : Nat) :
    d.readMultiple fuel count index = some (d, []) ∧ d.readOne fuel = some (d, none) := by
  have h : ∀ count index, d.readMultiple fuel count index = some (d, []) := by
    intro count index
    unfold DS18.readMultiple DS18.readBody
    rw [if_pos hi, if_pos h0]
  refine ⟨h _ _, ?_⟩
  unfold DS18.readOne; rw [h]

/-- A line that is (or goes) stuck low while the driver waits for a conversion: the wait gives up, so that nothing is stored for that sensor. -/
theorem C140_wait_gives_up (n : Nat) : ∀ (o : OW), o.bus.short = true → (DS18.waitLoop n o).1 = false := by
  induction n with
  | zero => intro o _; rfl
  | succ n ih =>
    intro o h
    have hb : o.readBit.1 = false := by simp [OW.readBit, OWBus.level, h]
    simp only [DS18.waitLoop, hb]
    split
    · cases ‹false = true›
    · split
      · rfl
      · exact ih _ h

example : (DS18.waitLoop 67 { bus := { devs := [], short := true } }).1 = false ∧ (DS18.waitLoop 67 { bus := { devs := [] } }).1 = true := by decide

/-- The value is in 1/16 C: a 12-bit two's complement reading of the two bytes, between -32768 and 32767. -/
theorem C140_value (d : OWDev) : ds18Val d = (if d.t1.toNat < 128 then (d.t1.toNat * 256 + d.t0.toNat : Int) else d.t1.toNat * 256 + d.t0.toNat - 65536) := by
  have h0 := byte_lt d.t0
  have h1 := byte_lt d.t1
  have e : (d.t1.toNat <<< 8) ||| d.t0.toNat = d.t1.toNat * 256 + d.t0.toNat := by
    rw [Nat.shiftLeft_add_eq_or_of_lt h0 d.t1.toNat |>.symm, Nat.shiftLeft_eq]
  unfold ds18Val DS18.raw
  simp only [e]
  by_cases h : d.t1.toNat < 128
  · rw [if_pos h, if_pos (by omega)]; omega
  · rw [if_neg h, if_neg (by omega)]; omega

/-! ### A concrete bus -/

/-- Two DS18B20s and a device of another family; the room is at 20.5 C, the sensors have just been powered up. -/
def exBus : OWBus := { devs := [{ rom := [0x28, 1, 2, 3, 4, 5, 6, 7], m0 := 0x48, m1 := 0x01 },
  { rom := [0x10, 9, 2, 3, 4, 5, 6, 8] }, { rom := [0x28, 2, 2, 3, 4, 5, 6, 7], t0 := 0x5e, t1 := 0xff, m0 := 0x48, m1 := 0x01 }] }

theorem exBus_sound : exBus.Sound := by
  refine ⟨rfl, ?_, ?_, ?_⟩ <;> decide +kernel

example : searches id 4 { bus := exBus } =
    [some [0x10, 9, 2, 3, 4, 5, 6, 8], some [0x28, 2, 2, 3, 4, 5, 6, 7], some [0x28, 1, 2, 3, 4, 5, 6, 7], none] := by
  decide +kernel

example : ((DS18.make { bus := exBus } 9).readMultiple 4 5 0).map (·.2) = some [-162, 1360] := by decide +kernel

/-- The comment "wait for the conversion" is not met: after the device has been addressed anew it does not hold the line,
so the first read slot ends the wait and the value is the one from before: here 85 C (the value at power-up) in a room at
20.5 C. -/
theorem C140_refuted_fresh : ∃ d : DS18, d.ow.bus.Sound ∧
    (∀ x ∈ d.ow.bus.devs, DS18.raw x.m0 x.m1 = 328) ∧ (d.readOne 2).map (·.2) = some (some 1360) := by
  refine ⟨DS18.make { bus := { devs := [{ rom := [0x28, 1, 2, 3, 4, 5, 6, 7], m0 := 0x48, m1 := 0x01 }] } } 9, ⟨rfl, ?_, ?_, ?_⟩, ?_, ?_⟩ <;>
    decide +kernel

/-- A device with family code 0 ends the enumeration early: with the others on the bus, none is found. -/
theorem C138_refuted_family_zero : ∃ o : OW, o.bus.short = false ∧ (∀ d ∈ o.bus.devs, d.rom.length = 8) ∧
    (o.bus.devs.map OWDev.rom).Nodup ∧ o.bus.devs.length = 2 ∧ searches id 2 o.resetSearch = [none, none] := by
  refine ⟨{ bus := { devs := [{ rom := [0, 1, 2, 3, 4, 5, 6, 7] }, { rom := [0x28, 1, 2, 3, 4, 5, 6, 7] }] } }, rfl, ?_, ?_, rfl, ?_⟩ <;>
    decide +kernel

/-- The precision asked for, if it is one the device has (9 to 12 bits), else the nearest; and the configuration byte for it as in the data
sheet: bits 6 and 5 give the bits above 9, the others are fixed. -/
theorem C141_precision (ow : OW) (p : Nat) :
    9 ≤ (DS18.make ow p).precision ∧ (DS18.make ow p).precision ≤ 12 ∧
    (9 ≤ p → p ≤ 12 → (DS18.make ow p).precision = p) ∧ (p < 9 → (DS18.make ow p).precision = 9) ∧
    (12 < p → (DS18.make ow p).precision = 12) ∧ (DS18.make ow p).ow = ow ∧
    (DS18.cfgByte (DS18.make ow p).precision).toNat = 0x1f + 32 * ((DS18.make ow p).precision - 9) := by
  have h1 : 9 ≤ (DS18.make ow p).precision := by show 9 ≤ max 9 (min 12 p); omega
  have h2 : (DS18.make ow p).precision ≤ 12 := by show max 9 (min 12 p) ≤ 12; omega
  refine ⟨h1, h2, fun a b => ?_, fun a => ?_, fun a => ?_, rfl, ?_⟩
  · show max 9 (min 12 p) = p; omega
  · show max 9 (min 12 p) = 9; omega
  · show max 9 (min 12 p) = 12; omega
  · generalize (DS18.make ow p).precision = q at h1 h2
    have : q = 9 ∨ q = 10 ∨ q = 11 ∨ q = 12 := by omega
    rcases this with rfl | rfl | rfl | rfl <;> decide

end OTR.Props
