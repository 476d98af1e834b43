import Verif.Model.StatsHolder
import Verif.Props.JSONFair
/-!
# C207, C208: statistics taken from sensors
-/

namespace OTR.Props
open OTR OTR.Spec

/-! ## Specification -/

/-- What the holder was made of: tag and priority of each sensor, `none` for a placeholder. -/
abbrev Shape := List (Option (Bytes × Bool))

/-- The holder's arguments at some moment. -/
def ShapeOf (args : List (Option StatSrc)) : Shape := args.map (Option.map fun x => (x.tag, x.low))

/-- The sensors' names are valid JSON names and all different, and there is a placeholder for each name in `extra`, the names the application itself puts. -/
structure Shape.OK (sh : Shape) (extra : List Bytes) : Prop where
  size : sh.length ≤ 255
  names : ((sh.filterMap id).map (·.1) ++ extra).Nodup
  valid : ∀ x ∈ sh.filterMap id, validKey x.1 = true
  room : extra.length + (sh.filterMap id).length ≤ sh.length

/-- The application itself puts only the names it made room for (and may remove any). -/
def Allowed (extra : List Bytes) : JOp → Prop
  | .put k _ _ => k ∈ extra
  | .putDescriptor k _ => k ∈ extra
  | _ => True

/-- All that can happen to a holder's statistics: refreshing them from the sensors, whatever they say, and other calls. -/
inductive HolderReach (sh : Shape) (extra : List Bytes) : StatSet → Prop
  | init : HolderReach sh extra { cap := sh.length }
  | refresh {s : StatSet} (args : List (Option StatSrc)) (ha : ShapeOf args = sh) (h : HolderReach sh extra s) : HolderReach sh extra (s.putOrRemoveAll args).2
  | op {s : StatSet} (o : JOp) (ho : o.ok) (ha : Allowed extra o) (h : HolderReach sh extra s) : HolderReach sh extra (o.run s)

/-- The entry of a sensor after a refresh, given the entry before: none if the sensor is not available, else its value; marked as changed if it is new or its value is. -/
def refreshed (x : StatSrc) (old : Option Stat) : Option Stat :=
  x.val.map fun v => match old with
    | some o => { o with value := v, changed := o.changed || decide (o.value ≠ v) }
    | none => { key := x.tag, low := x.low, value := v, changed := true }

/-! ## Proofs -/

structure HolderInv (sh : Shape) (extra : List Bytes) (s : StatSet) : Prop where
  tab : TabOK s
  cap : s.cap = sh.length
  keys : ∀ x ∈ s.stats, x.key ∈ (sh.filterMap id).map (·.1) ++ extra
  low : ∀ x ∈ s.stats, ∀ l, (x.key, l) ∈ sh.filterMap id → x.low = l

theorem put_cap (s : StatSet) (k : Bytes) (v : Int) (low : Bool) : (s.put k v low).2.cap = s.cap := by
  unfold StatSet.put
  split
  · rfl
  · split
    · rfl
    · split <;> rfl

/-- There is room for every name foreseen. -/
theorem holder_room {sh : Shape} {extra : List Bytes} (hO : sh.OK extra) {s : StatSet} (h : HolderInv sh extra s) (k : Bytes)
    (hk : k ∈ (sh.filterMap id).map (·.1) ++ extra) (hg : get s k = none) : s.stats.length < s.cap := by
  have hnot : ∀ x ∈ s.stats, x.key ≠ k := (get_none s k).1 hg
  have hnd : (k :: s.stats.map (·.key)).Nodup := by
    refine List.nodup_cons.2 ⟨?_, h.tab.keys⟩
    intro hm
    obtain ⟨x, hx, e⟩ := List.mem_map.1 hm
    exact hnot x hx e
  have hsub : (k :: s.stats.map (·.key)) ⊆ (sh.filterMap id).map (·.1) ++ extra := by
    intro y hy
    rcases List.mem_cons.1 hy with rfl | hy
    · exact hk
    · obtain ⟨x, hx, rfl⟩ := List.mem_map.1 hy
      exact h.keys x hx
  have := (List.subperm_of_subset hnd hsub).length_le
  have h2 := hO.room
  rw [h.cap]
  simp only [List.length_cons, List.length_map, List.length_append] at this
  omega

theorem holder_of_get {sh : Shape} {extra : List Bytes} {s s' : StatSet} (h : HolderInv sh extra s) (ht : TabOK s') (hc : s'.cap = s.cap)
    (hget : ∀ k x, get s' k = some x → (∃ y, get s k = some y ∧ y.low = x.low) ∨
      (k ∈ (sh.filterMap id).map (·.1) ++ extra ∧ ∀ l, (k, l) ∈ sh.filterMap id → x.low = l)) : HolderInv sh extra s' := by
  refine ⟨ht, hc.trans h.cap, ?_, ?_⟩
  · intro x hx
    rcases hget x.key x ((get_iff s' ht _ _).2 ⟨hx, rfl⟩) with ⟨y, hy, _⟩ | ⟨h1, _⟩
    · have := (get_iff s h.tab _ _).1 hy
      rw [← this.2]
      exact h.keys y this.1
    · exact h1
  · intro x hx l hl
    rcases hget x.key x ((get_iff s' ht _ _).2 ⟨hx, rfl⟩) with ⟨y, hy, hlow⟩ | ⟨_, h1⟩
    · have := (get_iff s h.tab _ _).1 hy
      rw [← hlow]
      exact h.low y this.1 l (by rw [this.2]; exact hl)
    · exact h1 l hl

theorem shape_low {sh : Shape} {extra : List Bytes} (hO : sh.OK extra) {k : Bytes} {a b : Bool} (ha : (k, a) ∈ sh.filterMap id) (hb : (k, b) ∈ sh.filterMap id) : a = b := by
  have h1 := (List.nodup_append.1 hO.names).1
  have := List.inj_on_of_nodup_map h1 ha hb rfl
  exact congrArg Prod.snd this

theorem extra_not {sh : Shape} {extra : List Bytes} (hO : sh.OK extra) {k : Bytes} (hk : k ∈ extra) (l : Bool) : (k, l) ∉ sh.filterMap id := fun hl =>
  (List.nodup_append.1 hO.names).2.2 k (List.mem_map.2 ⟨_, hl, rfl⟩) k hk rfl

/-- One sensor. -/
theorem putOrRemove_spec {sh : Shape} {extra : List Bytes} (hO : sh.OK extra) {s : StatSet} (h : HolderInv sh extra s) (x : StatSrc) (hx : (x.tag, x.low) ∈ sh.filterMap id) :
    (s.putOrRemove x).1 = true ∧ HolderInv sh extra (s.putOrRemove x).2 ∧ get (s.putOrRemove x).2 x.tag = refreshed x (get s x.tag) ∧
      ∀ k, k ≠ x.tag → get (s.putOrRemove x).2 k = get s k := by
  have hmem : x.tag ∈ (sh.filterMap id).map (·.1) ++ extra := List.mem_append_left _ (List.mem_map.2 ⟨_, hx, rfl⟩)
  unfold StatSet.putOrRemove refreshed
  cases hv : x.val with
  | none =>
    obtain ⟨_, h2, _⟩ := C65_remove s h.tab x.tag
    refine ⟨rfl, ?_, ?_, ?_⟩
    · refine holder_of_get h (jop_keeps s h.tab (.remove x.tag) trivial).1 (jop_keeps s h.tab (.remove x.tag) trivial).2 fun k y hk => .inl ⟨y, ?_, rfl⟩
      have hk : get (s.remove x.tag).2 k = some y := hk
      rw [h2 k] at hk
      split at hk
      · cases hk
      · exact hk
    · dsimp only
      rw [h2, if_pos rfl]; rfl
    · intro k hk
      dsimp only
      rw [h2, if_neg hk]
  | some v =>
    obtain ⟨h1, _, h3, h4⟩ := C65_put s h.tab x.tag v x.low
    have hok : (s.put x.tag v x.low).1 = true := by
      rw [h1, hO.valid _ hx, Bool.true_and]
      cases hg : get s x.tag with
      | some y => rfl
      | none => simpa using holder_room hO h _ hmem hg
    have h3 := h3 hok
    refine ⟨hok, ?_, ?_, ?_⟩
    · refine holder_of_get h h4 (put_cap ..) fun k y hk => ?_
      rw [h3 k] at hk
      by_cases hkk : k = x.tag
      · subst hkk
        rw [if_pos rfl] at hk
        cases hg : get s x.tag with
        | some o => rw [hg] at hk; cases hk; exact .inl ⟨o, rfl, rfl⟩
        | none =>
          rw [hg] at hk
          cases hk
          exact .inr ⟨hmem, fun l hl => shape_low hO hx hl⟩
      · rw [if_neg hkk] at hk
        exact .inl ⟨y, hk, rfl⟩
    · dsimp only
      rw [h3, if_pos rfl]
      cases get s x.tag <;> rfl
    · intro k hk
      dsimp only
      rw [h3, if_neg hk]

theorem refresh_spec {sh : Shape} {extra : List Bytes} (hO : sh.OK extra) : ∀ (args : List (Option StatSrc)) (s : StatSet), HolderInv sh extra s →
    (∀ x, some x ∈ args → (x.tag, x.low) ∈ sh.filterMap id) → ((ShapeOf args).filterMap id |>.map (·.1)).Nodup →
    (s.putOrRemoveAll args).1 = true ∧ HolderInv sh extra (s.putOrRemoveAll args).2 ∧
      (∀ x, some x ∈ args → get (s.putOrRemoveAll args).2 x.tag = refreshed x (get s x.tag)) ∧
      ∀ k, (∀ x, some x ∈ args → x.tag ≠ k) → get (s.putOrRemoveAll args).2 k = get s k := by
  intro args
  induction args with
  | nil => intro s h _ _; exact ⟨rfl, h, fun x hx => (by cases hx), fun _ _ => rfl⟩
  | cons a t ih =>
    intro s h hm hn
    cases a with
    | none =>
      obtain ⟨a1, a2, a3, a4⟩ := ih s h (fun x hx => hm x (List.mem_cons_of_mem _ hx)) hn
      exact ⟨a1, a2, fun x hx => a3 x (by simpa using hx), fun k hk => a4 k fun x hx => hk x (List.mem_cons_of_mem _ hx)⟩
    | some y =>
      obtain ⟨b1, b2, b3, b4⟩ := putOrRemove_spec hO h y (hm y List.mem_cons_self)
      have hn' : y.tag ∉ ((ShapeOf t).filterMap id).map (·.1) ∧ (((ShapeOf t).filterMap id).map (·.1)).Nodup := by
        have : ((ShapeOf (some y :: t)).filterMap id).map (·.1) = y.tag :: ((ShapeOf t).filterMap id).map (·.1) := by simp [ShapeOf]
        rw [this] at hn
        exact List.nodup_cons.1 hn
      have hne : ∀ x, some x ∈ t → x.tag ≠ y.tag := fun x hx e => hn'.1 (List.mem_map.2 ⟨(x.tag, x.low), by
        simp only [ShapeOf, List.filterMap_map, List.mem_filterMap]
        exact ⟨some x, hx, rfl⟩, e⟩)
      obtain ⟨a1, a2, a3, a4⟩ := ih (s.putOrRemove y).2 b2 (fun x hx => hm x (List.mem_cons_of_mem _ hx)) hn'.2
      have e : s.putOrRemoveAll (some y :: t) = (s.putOrRemove y).2.putOrRemoveAll t := by
        show (match s.putOrRemove y with | (true, s') => s'.putOrRemoveAll t | (false, s') => (false, s')) = _
        rw [show s.putOrRemove y = (true, (s.putOrRemove y).2) from Prod.ext b1 rfl]
      rw [e]
      refine ⟨a1, a2, ?_, ?_⟩
      · intro x hx
        rcases List.mem_cons.1 hx with hx | hx
        · cases hx
          rw [a4 _ hne, b3]
        · rw [a3 x hx, b4 _ (hne x hx)]
      · intro k hk
        rw [a4 k (fun x hx => hk x (List.mem_cons_of_mem _ hx)), b4 k (fun e => hk y List.mem_cons_self e.symm)]

theorem mem_shape {args : List (Option StatSrc)} {x : StatSrc} (h : some x ∈ args) : (x.tag, x.low) ∈ (ShapeOf args).filterMap id := by
  simp only [ShapeOf, List.filterMap_map, List.mem_filterMap]
  exact ⟨some x, h, rfl⟩

theorem holder_inv {sh : Shape} {extra : List Bytes} (hO : sh.OK extra) {s : StatSet} (h : HolderReach sh extra s) : HolderInv sh extra s := by
  induction h with
  | init =>
    refine ⟨(C65_histories sh.length hO.size [] (by simp)).1, rfl, fun x hx => (by cases hx), fun x hx => (by cases hx)⟩
  | refresh args ha _ ih =>
    refine (refresh_spec hO args _ ih (fun x hx => ha ▸ mem_shape hx) ?_).2.1
    rw [ha]
    exact (List.nodup_append.1 hO.names).1
  | @op s o ho ha _ ih =>
    obtain ⟨k1, k2⟩ := jop_keeps s ih.tab o ho
    refine holder_of_get ih k1 k2 fun k x hk => ?_
    cases o with
    | put k' v low =>
      obtain ⟨h1, h2, h3, _⟩ := C65_put s ih.tab k' v low
      cases hb : (s.put k' v low).1 with
      | false => rw [show JOp.run s (.put k' v low) = s from h2 hb] at hk; exact .inl ⟨x, hk, rfl⟩
      | true =>
        rw [show JOp.run s (.put k' v low) = (s.put k' v low).2 from rfl, h3 hb k] at hk
        by_cases hkk : k = k'
        · subst hkk
          exact .inr ⟨List.mem_append_right _ ha, fun l hl => absurd hl (extra_not hO ha l)⟩
        · rw [if_neg hkk] at hk; exact .inl ⟨x, hk, rfl⟩
    | putDescriptor k' low =>
      obtain ⟨h1, h2, h3, _⟩ := C65_putDescriptor s ih.tab k' low
      cases hb : (s.putDescriptor k' low).1 with
      | false => rw [show JOp.run s (.putDescriptor k' low) = s from h2 hb] at hk; exact .inl ⟨x, hk, rfl⟩
      | true =>
        rw [show JOp.run s (.putDescriptor k' low) = (s.putDescriptor k' low).2 from rfl, h3 hb k] at hk
        by_cases hkk : k = k'
        · subst hkk
          exact .inr ⟨List.mem_append_right _ ha, fun l hl => absurd hl (extra_not hO ha l)⟩
        · rw [if_neg hkk] at hk; exact .inl ⟨x, hk, rfl⟩
    | remove k' =>
      obtain ⟨_, h2, _⟩ := C65_remove s ih.tab k'
      rw [show JOp.run s (.remove k') = (s.remove k').2 from rfl, h2 k] at hk
      split at hk
      · cases hk
      · exact .inl ⟨x, hk, rfl⟩
    | setID i =>
      refine .inl ⟨x, ?_, rfl⟩
      rw [← hk]
      show get s k = get (s.setID i).2 k
      unfold StatSet.setID
      split <;> rfl
    | enableCount b => exact .inl ⟨x, hk, rfl⟩
    | writeJSON sys mem bufSize mx sup =>
      have := (C65_write s ih.tab sys mem bufSize mx sup ho.1).2 k
      rw [show JOp.run s (.writeJSON sys mem bufSize mx sup) = (writeJSON s sys mem bufSize mx sup).2.1 from rfl] at hk
      rw [hk] at this
      cases hg : get s k with
      | none => rw [hg] at this; cases this
      | some y =>
        rw [hg] at this
        simp only [Option.map_some, Option.some.injEq, Prod.mk.injEq] at this
        exact .inl ⟨y, rfl, this.2.1.symm⟩

/-- **C207** After any history, refreshing the statistics of a holder succeeds; each available sensor then has an entry with its current value and its own priority,
marked as changed if new or different, each unavailable one has none, and no other entry is affected. -/
theorem C207_refresh (sh : Shape) (extra : List Bytes) (hO : sh.OK extra) (s : StatSet) (hs : HolderReach sh extra s) (args : List (Option StatSrc)) (ha : ShapeOf args = sh) :
    (s.putOrRemoveAll args).1 = true ∧
    (∀ x, some x ∈ args → get (s.putOrRemoveAll args).2 x.tag = refreshed x (get s x.tag) ∧
      (get (s.putOrRemoveAll args).2 x.tag).map (fun e => (e.value, e.low)) = x.val.map fun v => (v, x.low)) ∧
    ∀ k, (∀ x, some x ∈ args → x.tag ≠ k) → get (s.putOrRemoveAll args).2 k = get s k := by
  have hi := holder_inv hO hs
  have hm : ∀ x, some x ∈ args → (x.tag, x.low) ∈ sh.filterMap id := fun x hx => ha ▸ mem_shape hx
  have hn : (((ShapeOf args).filterMap id).map (·.1)).Nodup := by rw [ha]; exact (List.nodup_append.1 hO.names).1
  obtain ⟨a, _, c, d⟩ := refresh_spec hO args s hi hm hn
  refine ⟨a, fun x hx => ⟨c x hx, ?_⟩, d⟩
  rw [c x hx]
  unfold refreshed
  cases x.val with
  | none => rfl
  | some v =>
    cases hg : get s x.tag with
    | none => rfl
    | some o =>
      have := (get_iff s hi.tab _ _).1 hg
      have := hi.low o this.1 x.low (by rw [this.2]; exact hm x hx)
      simp [this]

/-- **C207** The names an application has reserved placeholders for can always be put, with any value. -/
theorem C207_extra_fits (sh : Shape) (extra : List Bytes) (hO : sh.OK extra) (s : StatSet) (hs : HolderReach sh extra s) (k : Bytes) (hk : k ∈ extra) (hv : validKey k = true)
    (v : Int) (low : Bool) : (s.put k v low).1 = true ∧ (get (s.put k v low).2 k).map (·.value) = some v := by
  have hi := holder_inv hO hs
  obtain ⟨h1, _, h3, _⟩ := C65_put s hi.tab k v low
  have hok : (s.put k v low).1 = true := by
    rw [h1, hv, Bool.true_and]
    cases hg : get s k with
    | some y => rfl
    | none => simpa using holder_room hO hi _ (List.mem_append_right _ hk) hg
  refine ⟨hok, ?_⟩
  rw [h3 hok, if_pos rfl]
  cases get s k <;> rfl

/-- **C207** Refuted for a sensor whose name is not a valid one: the refresh fails there, and the sensors after it are not refreshed at all. -/
theorem C207_refuted_bad_name : let bad : StatSrc := ⟨[0x22], false, some 1⟩; let good : StatSrc := ⟨[0x54], false, some 300⟩
    ((⟨2, [], 255, none, false, 0⟩ : StatSet).putOrRemoveAll [some bad, some good]).1 = false ∧
    get ((⟨2, [], 255, none, false, 0⟩ : StatSet).putOrRemoveAll [some bad, some good]).2 good.tag = none := by decide

/-! ## Fairness -/

/-- Values of sensors all available, as arguments of the holder. -/
def allAvail (ps : List (Bytes × Int × Bool)) : List (Option StatSrc) := ps.map fun p => some ⟨p.1, p.2.2, some p.2.1⟩

theorem refresh_putAll : ∀ (ps : List (Bytes × Int × Bool)) (s : StatSet), (s.putOrRemoveAll (allAvail ps)).1 = true → (s.putOrRemoveAll (allAvail ps)).2 = putAll s ps := by
  intro ps
  induction ps with
  | nil => intro s _; rfl
  | cons p t ih =>
    intro s h
    have e : s.putOrRemoveAll (allAvail (p :: t)) = match s.put p.1 p.2.1 p.2.2 with | (true, s') => s'.putOrRemoveAll (allAvail t) | (false, s') => (false, s') := rfl
    rw [e] at h ⊢
    unfold putAll
    rw [List.foldl_cons]
    generalize s.put p.1 p.2.1 p.2.2 = q at h ⊢
    obtain ⟨r, s'⟩ := q
    cases r with
    | false => cases h
    | true => exact ih s' h

/-- A device with sensors that are all available: `val k i` is what sensor `i` says before frame `k`. -/
structure SensorRun where
  sensors : List (Bytes × Bool)
  val : Nat → Bytes → Int
  start : StatSet
  sys : Bytes
  mem : Nat → Bytes
  size : Nat → Nat
  mx : Nat → Bool
  sup : Nat → Bool

/-- The holder's arguments before frame `k`. -/
def SensorRun.args (R : SensorRun) (k : Nat) : List (Option StatSrc) := R.sensors.map fun x => some ⟨x.1, x.2, some (R.val k x.1)⟩

/-- Before each frame the statistics are refreshed: the table when frame `k` is written. -/
def SensorRun.table (R : SensorRun) : Nat → StatSet
  | 0 => (R.start.putOrRemoveAll (R.args 0)).2
  | k + 1 => ((writeJSON (R.table k) R.sys (R.mem k) (R.size k) (R.mx k) (R.sup k)).2.1.putOrRemoveAll (R.args (k + 1))).2

theorem args_all (R : SensorRun) (k : Nat) : R.args k = allAvail (R.sensors.map fun x => (x.1, R.val k x.1, x.2)) := by
  unfold SensorRun.args allAvail
  rw [List.map_map]
  rfl

theorem args_shape (R : SensorRun) (k : Nat) : ShapeOf (R.args k) = R.sensors.map some := by
  unfold SensorRun.args ShapeOf
  rw [List.map_map]
  rfl

/-- Room taken by the ID and count fields of a frame. -/
def headLen (s : StatSet) (sys : Bytes) : Nat := (joinC ((idEntry s sys ++ countEntry s).map entryText)).length

theorem headLen_congr {s s' : StatSet} (sys : Bytes) (h1 : s'.id = s.id) (h2 : s'.enabled = s.enabled) (h3 : s.count < 8) (h4 : s'.count < 8) : headLen s' sys = headLen s sys := by
  have hd : ∀ n : Nat, n < 8 → (decInt (n : Int)).length = 1 := fun n hn => by rw [small_dec _ (by omega) (by omega)]; rfl
  have e1 := hd _ h3
  have e2 := hd _ h4
  unfold headLen idEntry countEntry
  rw [h1, h2]
  cases s.id with
  | none => cases s.enabled <;> simp [joinC, entryText, e1, e2]
  | some i => cases i <;> cases s.enabled <;> simp [joinC, entryText, e1, e2]

theorem remove_cfg (s : StatSet) (k : Bytes) : (s.remove k).2.id = s.id ∧ (s.remove k).2.enabled = s.enabled := by
  unfold StatSet.remove
  split
  · exact ⟨rfl, rfl⟩
  · split
    · exact ⟨rfl, rfl⟩
    · split <;> exact ⟨rfl, rfl⟩

theorem put_cfg' (s : StatSet) (k : Bytes) (v : Int) (low : Bool) : (s.put k v low).2.id = s.id ∧ (s.put k v low).2.enabled = s.enabled := by
  unfold StatSet.put
  split
  · exact ⟨rfl, rfl⟩
  · split
    · exact ⟨rfl, rfl⟩
    · split <;> exact ⟨rfl, rfl⟩

theorem refresh_cfg : ∀ (args : List (Option StatSrc)) (s : StatSet), (s.putOrRemoveAll args).2.id = s.id ∧ (s.putOrRemoveAll args).2.enabled = s.enabled := by
  intro args
  induction args with
  | nil => intro s; exact ⟨rfl, rfl⟩
  | cons a t ih =>
    intro s
    cases a with
    | none => exact ih s
    | some x =>
      have hx : (s.putOrRemove x).2.id = s.id ∧ (s.putOrRemove x).2.enabled = s.enabled := by
        unfold StatSet.putOrRemove
        split
        · exact put_cfg' ..
        · exact remove_cfg ..
      show (match s.putOrRemove x with | (true, s') => s'.putOrRemoveAll t | (false, s') => (false, s')).2.id = _ ∧ (match s.putOrRemove x with | (true, s') => s'.putOrRemoveAll t | (false, s') => (false, s')).2.enabled = _
      generalize s.putOrRemove x = q at hx ⊢
      obtain ⟨r, s'⟩ := q
      cases r with
      | false => exact hx
      | true => exact ⟨(ih s').1.trans hx.1, (ih s').2.trans hx.2⟩

theorem writeJSON_cfg (s : StatSet) (h : TabOK s) (sys mem : Bytes) (bufSize : Nat) (mx sup : Bool) (hm : bufSize ≤ mem.length) :
    (writeJSON s sys mem bufSize mx sup).2.1.id = s.id ∧ (writeJSON s sys mem bufSize mx sup).2.1.enabled = s.enabled := by
  by_cases hb : bufSize < 10
  · rw [writeJSON, if_pos hb]; exact ⟨rfl, rfl⟩
  · obtain ⟨r, s', b, he⟩ : ∃ r s' b, writeJSON s sys mem bufSize mx sup = (r, s', b) := ⟨_, _, _, rfl⟩
    obtain ⟨P, lead, _, _, _, _, _, _, ⟨e3, _, e5⟩, _⟩ := write_spec s sys mem bufSize mx sup (by omega) hm (Nat.le_trans h.len h.cap) h.last r s' b he
    rw [he]
    exact ⟨e3, e5⟩

/-- Reachability, entries and room in a run. -/
theorem run_facts (R : SensorRun) (hO : Shape.OK (R.sensors.map some) []) (hs : HolderReach (R.sensors.map some) [] R.start)
    (hbuf : ∀ k, R.size k ≤ (R.mem k).length ∧ 10 ≤ R.size k ∧ R.size k ≤ 255)
    (hfit : ∀ k, ∀ y ∈ R.sensors, headLen R.start R.sys + (y.1.length + 3 + (decInt (R.val k y.1)).length) + 5 ≤ R.size k) :
    (∀ k, ∃ s, HolderReach (R.sensors.map some) [] s ∧ R.table k = (s.putOrRemoveAll (R.args k)).2 ∧
      (∀ j, k = j + 1 → s = (writeJSON (R.table j) R.sys (R.mem j) (R.size j) (R.mx j) (R.sup j)).2.1)) ∧
    (∀ k, HolderInv (R.sensors.map some) [] (R.table k)) ∧
    (∀ k y, y ∈ R.sensors → (get (R.table k) y.1).map (fun e => (e.value, e.low)) = some (R.val k y.1, y.2)) ∧
    (∀ k y, y ∈ R.sensors → ∃ e ∈ (R.table k).stats, e.key = y.1 ∧ e.value = R.val k y.1 ∧ e.low = y.2) ∧
    ∀ k, AllFit (R.table k) R.sys (R.size k) := by
  have reach : ∀ k, ∃ s, HolderReach (R.sensors.map some) [] s ∧ R.table k = (s.putOrRemoveAll (R.args k)).2 ∧
      (∀ j, k = j + 1 → s = (writeJSON (R.table j) R.sys (R.mem j) (R.size j) (R.mx j) (R.sup j)).2.1) := by
    intro k
    induction k with
    | zero => exact ⟨R.start, hs, rfl, fun j hj => by omega⟩
    | succ k ih =>
      obtain ⟨s, h1, h2, _⟩ := ih
      refine ⟨_, .op (.writeJSON R.sys (R.mem k) (R.size k) (R.mx k) (R.sup k)) ⟨(hbuf k).1, (hbuf k).2.2⟩ trivial (h2 ▸ .refresh (R.args k) (args_shape R k) h1), rfl, ?_⟩
      intro j hj
      cases hj
      rfl
  have hreach : ∀ k, HolderReach (R.sensors.map some) [] (R.table k) := fun k => by
    obtain ⟨s, h1, h2, _⟩ := reach k
    rw [h2]
    exact .refresh _ (args_shape R k) h1
  have hinv := fun k => holder_inv hO (hreach k)
  have hent : ∀ k y, y ∈ R.sensors → (get (R.table k) y.1).map (fun e => (e.value, e.low)) = some (R.val k y.1, y.2) := fun k y hy => by
    obtain ⟨s, h1, h2, _⟩ := reach k
    have := ((C207_refresh _ _ hO s h1 (R.args k) (args_shape R k)).2.1 ⟨y.1, y.2, some (R.val k y.1)⟩ (List.mem_map.2 ⟨y, hy, rfl⟩)).2
    rw [← h2] at this
    exact this
  have hmem : ∀ k y, y ∈ R.sensors → ∃ e ∈ (R.table k).stats, e.key = y.1 ∧ e.value = R.val k y.1 ∧ e.low = y.2 := fun k y hy => by
    have := hent k y hy
    cases hg : get (R.table k) y.1 with
    | none => rw [hg] at this; cases this
    | some e =>
      rw [hg] at this
      simp only [Option.map_some, Option.some.injEq, Prod.mk.injEq] at this
      have h3 := (get_iff _ (hinv k).tab _ _).1 hg
      exact ⟨e, h3.1, h3.2, this⟩
  have hcfg : ∀ k, (R.table k).id = R.start.id ∧ (R.table k).enabled = R.start.enabled := by
    intro k
    induction k with
    | zero => exact refresh_cfg _ _
    | succ k ih =>
      have h1 := refresh_cfg (R.args (k + 1)) (writeJSON (R.table k) R.sys (R.mem k) (R.size k) (R.mx k) (R.sup k)).2.1
      have h2 := writeJSON_cfg (R.table k) (hinv k).tab R.sys (R.mem k) (R.size k) (R.mx k) (R.sup k) (hbuf k).1
      exact ⟨h1.1.trans (h2.1.trans ih.1), h1.2.trans (h2.2.trans ih.2)⟩
  have hfit : ∀ k, AllFit (R.table k) R.sys (R.size k) := by
    intro k i hi
    have hh := headLen_congr R.sys (hcfg k).1 (hcfg k).2 (holder_inv hO hs).tab.count (hinv k).tab.count
    have hst : statAt (R.table k).stats i = (R.table k).stats[i] := by simp [statAt, hi]
    have hkm := (hinv k).keys _ (List.getElem_mem hi)
    have hid : List.filterMap (id : Option (Bytes × Bool) → _) (R.sensors.map some) = R.sensors := by
      rw [List.filterMap_map]; exact List.filterMap_some
    rw [hid, List.append_nil] at hkm
    obtain ⟨y, hy, hyk⟩ := List.mem_map.1 hkm
    have hg := (get_iff _ (hinv k).tab y.1 (R.table k).stats[i]).2 ⟨List.getElem_mem hi, hyk.symm⟩
    have hv := hent k y hy
    rw [hg] at hv
    simp only [Option.map_some, Option.some.injEq, Prod.mk.injEq] at hv
    have hf := hfit k y hy
    rw [← hh] at hf
    have hl : (entryText (statEntry (statAt (R.table k).stats i))).length = y.1.length + 3 + (decInt (R.val k y.1)).length := by
      rw [hst]
      unfold statEntry
      rw [← hyk, hv.1]
      simp [entryText]
      omega
    unfold headLen at hf
    omega
  exact ⟨reach, hinv, hent, hmem, hfit⟩

theorem holder_table (R : SensorRun) (hO : Shape.OK (R.sensors.map some) []) (hs : HolderReach (R.sensors.map some) [] R.start)
    (hbuf : ∀ k, R.size k ≤ (R.mem k).length ∧ 10 ≤ R.size k ∧ R.size k ≤ 255)
    (hfit : ∀ k, ∀ y ∈ R.sensors, headLen R.start R.sys + (y.1.length + 3 + (decInt (R.val k y.1)).length) + 5 ≤ R.size k) (k : Nat) :
    TabOK (R.table k) ∧ AllFit (R.table k) R.sys (R.size k) ∧ True :=
  have h := run_facts R hO hs hbuf hfit
  ⟨(h.2.1 k).tab, h.2.2.2.2 k, trivial⟩

/-- **C208** If every sensor is available and the statistics are refreshed before each frame, and each value fits a frame by itself beside the ID and count fields, then in any 4n consecutive frames (n the number of entries) each sensor that is not of low priority
has the value it has at that moment transmitted at least once, whatever values they all take. -/
theorem C208_values_sent (R : SensorRun) (hO : Shape.OK (R.sensors.map some) []) (hs : HolderReach (R.sensors.map some) [] R.start) (hsys : (0x22 : Byte) ∉ R.sys)
    (hbuf : ∀ k, R.size k ≤ (R.mem k).length ∧ 10 ≤ R.size k ∧ R.size k ≤ 255) (hfit : ∀ k, ∀ y ∈ R.sensors, headLen R.start R.sys + (y.1.length + 3 + (decInt (R.val k y.1)).length) + 5 ≤ R.size k)
    (x : Bytes × Bool) (hx : x ∈ R.sensors) (hlow : x.2 = false) (k0 : Nat) :
    ∃ k, k0 ≤ k ∧ k < k0 + 4 * R.sensors.length ∧
      ∃ es, sent (R.table k) R.sys (R.mem k) (R.size k) (R.mx k) (R.sup k) = some es ∧ (x.1, JVal.num (R.val k x.1)) ∈ es := by
  obtain ⟨reach, hinv, hent, hmem, hfit⟩ := run_facts R hO hs hbuf hfit
  let R' : Run := ⟨R.table, R.sys, R.mem, R.size, R.mx, R.sup⟩
  have hV : R'.Valid := by
    refine ⟨(hinv 0).tab, hsys, fun k => ⟨(hbuf k).1, (hbuf k).2.1⟩, hfit, fun k => ⟨R.sensors.map fun x => (x.1, R.val (k + 1) x.1, x.2), ?_, ?_⟩⟩
    · intro p hp
      obtain ⟨y, hy, rfl⟩ := List.mem_map.1 hp
      obtain ⟨e, h1, h2, _⟩ := hmem k y hy
      exact ⟨e, h1, h2⟩
    · obtain ⟨s, h1, h2, h3⟩ := reach (k + 1)
      have h4 := (C207_refresh _ _ hO s h1 (R.args (k + 1)) (args_shape R (k + 1))).1
      rw [args_all] at h4
      show R.table (k + 1) = _
      rw [h2, args_all, refresh_putAll _ _ h4, h3 k rfl]
  obtain ⟨e0, he0, hk0, _, hl0⟩ := hmem 0 x hx
  obtain ⟨j, hj, hje⟩ := List.getElem_of_mem he0
  have hsj : statAt (R'.set 0).stats j = e0 := by show statAt (R.table 0).stats j = e0; simp [statAt, hj, hje]
  have hlen : (R.table 0).stats.length ≤ R.sensors.length := by
    have := (hinv 0).tab.len
    rw [(hinv 0).cap] at this
    simpa using this
  obtain ⟨k, a1, a2, es, a3, a4⟩ := C106_fair R' hV j hj (by rw [hsj]; exact hl0.trans hlow) k0
  refine ⟨k, a1, ?_, es, a3, ?_⟩
  · have a2 : k < k0 + 4 * (R.table 0).stats.length := a2
    omega
  · obtain ⟨h1, h2, h3, _⟩ := jrun_inv R' hV (by show 0 < (R.table 0).stats.length; omega) k
    have hjk : j < (R.table k).stats.length := by
      have h2 : (R.table k).stats.length = (R.table 0).stats.length := h2
      omega
    have hst : statAt (R.table k).stats j = (R.table k).stats[j] := by simp [statAt, hjk]
    have hkey : (R.table k).stats[j].key = x.1 := by
      rw [← hst]
      exact (h3 j).trans ((congrArg Stat.key hsj).trans hk0)
    have hg := (get_iff _ (hinv k).tab x.1 (R.table k).stats[j]).2 ⟨List.getElem_mem hjk, hkey⟩
    have hv := hent k x hx
    rw [hg] at hv
    simp only [Option.map_some, Option.some.injEq, Prod.mk.injEq] at hv
    have a4 : statEntry (statAt (R.table k).stats j) ∈ es := a4
    rw [hst] at a4
    unfold statEntry at a4
    rw [hkey, hv.1] at a4
    exact a4

/-! ## Non-vacuity -/

/-- A device alternating between two temperatures, with light of low priority, and 40-byte frames. -/
def exSensors : SensorRun := ⟨[([0x54], false), ([0x4c], true)], fun k t => if t = [0x54] then ((k % 2 : Nat) : Int) else 97, { cap := 2 }, [0x41], fun _ => List.replicate 40 0, fun _ => 40, fun _ => false, fun _ => false⟩
example : Shape.OK (exSensors.sensors.map some) [] ∧ HolderReach (exSensors.sensors.map some) [] exSensors.start ∧ (0x22 : Byte) ∉ exSensors.sys ∧
    (∀ k, exSensors.size k ≤ (exSensors.mem k).length ∧ 10 ≤ exSensors.size k ∧ exSensors.size k ≤ 255) ∧
    ∀ k, ∀ y ∈ exSensors.sensors, headLen exSensors.start exSensors.sys + (y.1.length + 3 + (decInt (exSensors.val k y.1)).length) + 5 ≤ exSensors.size k := by
  refine ⟨⟨by decide, by decide, by decide, by decide⟩, .init, by decide, fun k => (by show 40 ≤ (List.replicate 40 (0 : Byte)).length ∧ 10 ≤ 40 ∧ 40 ≤ 255; decide), fun k y hy => ?_⟩
  have hy : y = ([0x54], false) ∨ y = ([0x4c], true) := by simpa [exSensors] using hy
  have h2 : k % 2 = 0 ∨ k % 2 = 1 := by omega
  rcases hy with rfl | rfl
  · rcases h2 with h | h
    · rw [show exSensors.val k [0x54] = ((k % 2 : Nat) : Int) from rfl, h, show exSensors.size k = 40 from rfl]; decide
    · rw [show exSensors.val k [0x54] = ((k % 2 : Nat) : Int) from rfl, h, show exSensors.size k = 40 from rfl]; decide
  · rw [show exSensors.val k [0x4c] = 97 from rfl, show exSensors.size k = 40 from rfl]; decide

/-- Temperature, light (low priority), and a placeholder for a name of the application's own. -/
def exShape : Shape := [some ([0x54], false), none, some ([0x4c], true)]
example : exShape.OK [[0x76]] := ⟨by decide, by decide, by decide, by decide⟩
def exArgs (t : Option Int) : List (Option StatSrc) := [some ⟨[0x54], false, t⟩, none, some ⟨[0x4c], true, some 97⟩]
def exHeld : StatSet := (JOp.run (({ cap := exShape.length } : StatSet).putOrRemoveAll (exArgs (some 300))).2 (.put [0x76] 55 false))
theorem exHeld_reach : HolderReach exShape [[0x76]] exHeld :=
  .op (.put [0x76] 55 false) trivial (by simp [Allowed]) (.refresh (exArgs (some 300)) rfl .init)
example : (exHeld.putOrRemoveAll (exArgs none)).2.stats.map (fun x => (x.key, x.value, x.low)) = [([0x76], 55, false), ([0x4c], 97, true)] := by decide
example : (exHeld.putOrRemoveAll (exArgs (some 301))).2.stats.map (fun x => (x.key, x.value, x.low)) = [([0x54], 301, false), ([0x4c], 97, true), ([0x76], 55, false)] := by decide

end OTR.Props
