import Verif.Model.AmbientLight
/-!
# Properties C116-C119: ambient light sensing and light-based occupancy

Histories of operations are lists with the newest operation first.
-/

namespace OTR.Props
open OTR

/-! ## Specification -/

/-- Two light levels differ by less than the noise floor. -/
def Near (a b : Nat) : Prop := a < b + 4 ∧ b < a + 4

instance (a b : Nat) : Decidable (Near a b) := by unfold Near; infer_instance

/-- For how many readings (newest first) the light has been steady. -/
def steadyRun : List Nat → Nat
  | a :: b :: t => if Near a b then steadyRun (b :: t) + 1 else 0
  | _ => 0

/-- At some reading the light rose by at least the noise floor after being steady for three readings, and since then it
has not fallen by the noise floor or more between two readings. -/
def OnSince : List Nat → Prop
  | a :: b :: t => (b + 4 ≤ a ∧ 3 ≤ steadyRun (b :: t)) ∨ (b < a + 4 ∧ OnSince (b :: t))
  | _ => False

/-- Is an occupancy callback installed? -/
def cbOn : List LightOp → Bool
  | [] => false
  | .setCb b :: _ => b
  | _ :: h => cbOn h

/-- The levels read while the callback was installed, newest first; before the first the room counts as fully bright. -/
def seen : List LightOp → List Nat
  | [] => [254]
  | .read v :: h => if cbOn h then v :: seen h else seen h
  | _ :: h => seen h

/-- The latest statistics given (mean for this time of day, minimum, maximum; 255 is "unknown"). -/
def lastTyp : List LightOp → Nat × Nat × Nat
  | [] => (255, 255, 255)
  | .setTyp mean mn mx _ :: _ => (mean, mn, mx)
  | _ :: h => lastTyp h

/-- The darkest usual level. -/
def floorOf (mn : Nat) : Nat := if mn = 255 then 4 else mn

/-- The least rise that counts as "lights on". -/
def needRise (mean mn : Nat) : Nat := if mean ≠ 255 ∧ mean > floorOf mn then (mean - floorOf mn) / 2 else 8

/-! ## Invariants -/

theorem op_cb (s : Light) (o : LightOp) : (s.op o).1.cb = match o with | .setCb b => b | _ => s.cb := by
  cases o with
  | read v =>
    simp only [Light.op, Light.read]
    (repeat' split) <;> rfl
  | setTyp mean mn mx sens =>
    simp only [Light.op, Light.setTyp, Light.recompute]
    (repeat' split) <;> rfl
  | setCb b => rfl

theorem after_cb (h : List LightOp) : (Light.after h).cb = cbOn h := by
  induction h with
  | nil => rfl
  | cons o h ih =>
    simp only [Light.after, op_cb]
    cases o <;> simp [cbOn, ih]

theorem op_det_setTyp (s : Light) (mean mn mx : Nat) (sens : Bool) :
    (s.op (.setTyp mean mn mx sens)).1.det = { s.det with mean := mean, mn := mn, mx := mx } := by
  simp only [Light.op, Light.setTyp, Light.recompute, LightDet.setTyp]
  (repeat' split) <;> rfl

theorem op_det_read (s : Light) (v : Nat) :
    (s.op (.read v)).1.det = if s.cb = true then (s.det.update v).1 else s.det := by
  simp only [Light.op, Light.read]
  by_cases h1 : v > s.lightThr
  · rw [if_pos h1]; dsimp only; by_cases hc : s.cb = true <;> simp [hc]
  · rw [if_neg h1]
    by_cases h2 : v ≤ s.darkThr
    · rw [if_pos h2]; dsimp only; by_cases hc : s.cb = true <;> simp [hc]
    · rw [if_neg h2]; dsimp only; by_cases hc : s.cb = true <;> simp [hc]

theorem read_callback (s : Light) (v : Nat) :
    (s.op (.read v)).2 = if s.cb = true then
      (if (s.det.update v).2 = .probable then some true
        else if v > s.lightThr ∧ (s.det.update v).2 = .weak then some false else none) else none := by
  simp only [Light.op, Light.read]
  by_cases h1 : v > s.lightThr
  · rw [if_pos h1]; dsimp only; by_cases hc : s.cb = true <;> simp [hc]
  · rw [if_neg h1]
    by_cases h2 : v ≤ s.darkThr
    · rw [if_pos h2]; dsimp only; by_cases hc : s.cb = true <;> simp [hc]
    · rw [if_neg h2]; dsimp only; by_cases hc : s.cb = true <;> simp [hc]

theorem update_typ (d : LightDet) (v : Nat) :
    (d.update v).1.mean = d.mean ∧ (d.update v).1.mn = d.mn ∧ (d.update v).1.mx = d.mx := by
  simp only [LightDet.update]
  (repeat' split) <;> exact ⟨rfl, rfl, rfl⟩

theorem update_prev (d : LightDet) (v : Nat) : (d.update v).1.prev = v := by
  simp only [LightDet.update]
  (repeat' split) <;> rfl

theorem after_typ (h : List LightOp) :
    ((Light.after h).det.mean, (Light.after h).det.mn, (Light.after h).det.mx) = lastTyp h := by
  induction h with
  | nil => rfl
  | cons o h ih =>
    simp only [Light.after]
    cases o with
    | read v =>
      rw [op_det_read]
      simp only [lastTyp]
      rw [← ih]
      split
      · obtain ⟨a, b, c⟩ := update_typ (Light.after h).det v
        rw [a, b, c]
      · rfl
    | setTyp mean mn mx sens => rw [op_det_setTyp]; rfl
    | setCb b => simpa [Light.op, lastTyp] using ih

theorem update_steady (d : LightDet) (v : Nat) :
    (d.update v).1.steady = if Near v d.prev then satTick d.steady else 0 := by
  by_cases hn : Near v d.prev
  · rw [if_pos hn]
    unfold Near at hn
    simp only [LightDet.update]
    (repeat' split) <;> first | rfl | (exfalso; omega)
  · rw [if_neg hn]
    unfold Near at hn
    simp only [LightDet.update]
    (repeat' split) <;> first | rfl | (exfalso; omega)

/-- The detector state after seeing the levels `H`. -/
structure DetInv (d : LightDet) (H : List Nat) : Prop where
  prev : H.head? = some d.prev
  steady : d.steady = min 255 (steadyRun H)
  pending : d.pending = true → OnSince H

theorem steadyRun_cons {H : List Nat} {b : Nat} (hb : H.head? = some b) (v : Nat) :
    steadyRun (v :: H) = if Near v b then steadyRun H + 1 else 0 := by
  cases H with
  | nil => cases hb
  | cons c t => cases hb; rfl

theorem onSince_cons {H : List Nat} {b : Nat} (hb : H.head? = some b) (v : Nat) :
    OnSince (v :: H) ↔ (b + 4 ≤ v ∧ 3 ≤ steadyRun H) ∨ (b < v + 4 ∧ OnSince H) := by
  cases H with
  | nil => cases hb
  | cons c t => cases hb; rfl

theorem update_pending (d : LightDet) (v : Nat) (hp : (d.update v).1.pending = true ∨ (d.update v).2 = .probable) :
    (d.prev + 4 ≤ v ∧ 3 ≤ d.steady) ∨ (d.prev < v + 4 ∧ d.pending = true) := by
  revert hp
  simp only [LightDet.update]
  (repeat' split) <;> simp <;> intros <;> first | omega | (right; constructor; omega; assumption) | skip

theorem det_step {d : LightDet} {H : List Nat} (hi : DetInv d H) (v : Nat) : DetInv (d.update v).1 (v :: H) := by
  refine ⟨by simp [update_prev], ?_, ?_⟩
  · rw [update_steady, steadyRun_cons hi.prev]
    by_cases hn : Near v d.prev
    · simp only [if_pos hn, satTick, hi.steady]; split <;> omega
    · simp [if_neg hn]
  · intro hp
    rw [onSince_cons hi.prev]
    rcases update_pending d v (.inl hp) with ⟨a, b⟩ | ⟨a, b⟩
    · left; exact ⟨a, by have := hi.steady; omega⟩
    · right; exact ⟨a, hi.pending b⟩

theorem after_det (h : List LightOp) : DetInv (Light.after h).det (seen h) := by
  induction h with
  | nil => exact ⟨rfl, rfl, fun h => by cases h⟩
  | cons o h ih =>
    simp only [Light.after]
    cases o with
    | read v =>
      rw [op_det_read, after_cb]
      simp only [seen]
      by_cases hc : cbOn h = true
      · rw [if_pos hc, if_pos hc]; exact det_step ih v
      · rw [if_neg hc, if_neg hc]; exact ih
    | setTyp mean mn mx sens =>
      rw [op_det_setTyp]
      exact ⟨ih.prev, ih.steady, ih.pending⟩
    | setCb b => exact ih

/-- Thresholds and flags, in every reachable state. -/
structure LightInv (s : Light) : Prop where
  order : s.darkThr < s.lightThr
  darkLit : 0 < s.dark → s.lit = false
  narrowDark : s.narrow = true → s.dark = 0
  cap : s.dark ≤ 65535

theorem recompute_thr (s : Light) (mean mn mx : Nat) (sens : Bool) (hmx : mx ≤ 255) :
    (s.recompute mean mn mx sens).darkThr < (s.recompute mean mn mx sens).lightThr := by
  unfold Light.recompute
  by_cases h1 : mn = 255 ∨ mx = 255
  · rw [if_pos h1]; dsimp only; omega
  · rw [if_neg h1]
    by_cases h2 : mn ≥ 254 - 4 ∨ mx ≤ mn ∨ mx - mn ≤ 4
    · rw [if_pos h2]; dsimp only; omega
    · rw [if_neg h2]
      dsimp only
      have hk : ∃ k, (k = 16 ∨ k = 8) ∧ (if sens || decide (mean < mx / 2) then 16 else 8) = k := by
        split
        · exact ⟨16, .inl rfl, rfl⟩
        · exact ⟨8, .inr rfl, rfl⟩
      obtain ⟨k, hk, e⟩ := hk
      rw [e]
      rcases hk with rfl | rfl <;> omega

theorem op_inv {s : Light} (hi : LightInv s) (o : LightOp)
    (ho : ∀ mean mn mx sens, o = .setTyp mean mn mx sens → mx ≤ 255) : LightInv (s.op o).1 := by
  obtain ⟨a, b, c, e⟩ := hi
  cases o with
  | read v =>
    simp only [Light.op, Light.read]
    generalize s.det.update v = r
    by_cases h1 : v > s.lightThr
    · rw [if_pos h1]
      dsimp only
      split <;> exact ⟨a, fun h => absurd h (Nat.lt_irrefl 0), fun _ => rfl, Nat.zero_le _⟩
    · rw [if_neg h1]
      by_cases h2 : v ≤ s.darkThr
      · rw [if_pos h2]
        dsimp only
        have hn : s.narrow = true → (if s.narrow = false ∧ s.dark < 65535 then s.dark + 1 else s.dark) = 0 := by
          intro h; rw [if_neg (by simp [h])]; exact c h
        have hcap : (if s.narrow = false ∧ s.dark < 65535 then s.dark + 1 else s.dark) ≤ 65535 := by
          split <;> omega
        split <;> exact ⟨a, fun _ => rfl, hn, hcap⟩
      · rw [if_neg h2]
        dsimp only
        split <;> exact ⟨a, b, c, e⟩
  | setTyp mean mn mx sens =>
    have ht := recompute_thr s mean mn mx sens (ho _ _ _ _ rfl)
    simp only [Light.op, Light.setTyp]
    refine ⟨ht, ?_, ?_, ?_⟩ <;> simp only [Light.recompute] <;> (repeat' split) <;> simp <;> assumption
  | setCb v => exact ⟨a, b, c, e⟩

/-- All arguments are byte values. -/
def ByteOp : LightOp → Prop
  | .read v => v ≤ 255
  | .setTyp mean mn mx _ => mean ≤ 255 ∧ mn ≤ 255 ∧ mx ≤ 255
  | .setCb _ => True

instance (o : LightOp) : Decidable (ByteOp o) := by cases o <;> unfold ByteOp <;> infer_instance

theorem after_inv (h : List LightOp) (hh : ∀ o ∈ h, ByteOp o) : LightInv (Light.after h) := by
  induction h with
  | nil => exact ⟨by decide, fun h => absurd h (by decide), fun _ => rfl, by decide⟩
  | cons o h ih =>
    refine op_inv (ih fun o ho => hh o (List.mem_cons_of_mem _ ho)) o ?_
    rintro mean mn mx sens rfl
    exact (hh _ List.mem_cons_self).2.2

theorem read_flags (s : Light) (v : Nat) :
    (s.op (.read v)).1.lit = (if v > s.lightThr then true else if v ≤ s.darkThr then false else s.lit) ∧
    (s.op (.read v)).1.narrow = s.narrow := by
  simp only [Light.op, Light.read]
  generalize s.det.update v = r
  by_cases h1 : v > s.lightThr
  · simp only [if_pos h1]; split <;> exact ⟨rfl, rfl⟩
  · simp only [if_neg h1]
    by_cases h2 : v ≤ s.darkThr
    · simp only [if_pos h2]; split <;> exact ⟨rfl, rfl⟩
    · simp only [if_neg h2]; split <;> exact ⟨rfl, rfl⟩

/-! ## C116: lit and dark -/

/-- In every reachable state the room is never reported both lit and dark; a positive dark time means not lit; and when
the sensor's range is too narrow neither is reported and the dark time is zero. -/
theorem C116_flags (h : List LightOp) (hh : ∀ o ∈ h, ByteOp o) :
    ¬ ((Light.after h).isRoomLit = true ∧ (Light.after h).isRoomDark = true) ∧
    (0 < (Light.after h).dark → (Light.after h).isRoomLit = false ∧ (Light.after h).isRoomDark = true) ∧
    ((Light.after h).narrow = true →
      (Light.after h).isRoomLit = false ∧ (Light.after h).isRoomDark = false ∧
      (Light.after h).isRoomVeryDark = false ∧ (Light.after h).dark = 0) := by
  have hi := after_inv h hh
  generalize Light.after h = s at hi
  obtain ⟨a, b, c, e⟩ := hi
  refine ⟨?_, ?_, ?_⟩
  · cases hl : s.lit <;> simp [Light.isRoomLit, Light.isRoomDark, hl]
  · intro hd
    have hl := b hd
    have hn : s.narrow = false := by
      cases hn : s.narrow with
      | false => rfl
      | true => have := c hn; omega
    simp [Light.isRoomLit, Light.isRoomDark, hl, hn]
  · intro hn
    simp [Light.isRoomLit, Light.isRoomDark, Light.isRoomVeryDark, hn, c hn]

/-- The two thresholds are distinct and ordered, in every reachable state: between them a reading changes nothing
(hysteresis); above the upper one it makes the room lit; at or below the lower one, dark. -/
theorem C116_hysteresis (h : List LightOp) (hh : ∀ o ∈ h, ByteOp o) (v : Nat) :
    (Light.after h).darkThr < (Light.after h).lightThr ∧
    ((Light.after (.read v :: h)).lit = true ↔
      (Light.after h).lightThr < v ∨ ((Light.after h).darkThr < v ∧ (Light.after h).lit = true)) ∧
    (Light.after (.read v :: h)).narrow = (Light.after h).narrow := by
  have hi := after_inv h hh
  simp only [Light.after]
  generalize Light.after h = s at hi
  obtain ⟨a, -, -, -⟩ := hi
  obtain ⟨f1, f2⟩ := read_flags s v
  refine ⟨a, ?_, f2⟩
  rw [f1]
  by_cases h1 : v > s.lightThr
  · simp [h1]
  · rw [if_neg h1]
    by_cases h2 : v ≤ s.darkThr
    · rw [if_pos h2]; simp; omega
    · rw [if_neg h2]
      constructor
      · intro h; exact .inr ⟨by omega, h⟩
      · rintro (h | h)
        · omega
        · exact h.2

/-- Once usable minimum and maximum levels are known, the thresholds lie strictly between them, so the usual brightest
level always reads as lit and the usual darkest as dark, whatever came before. -/
theorem C116_reachable (h : List LightOp) (mean mn mx : Nat) (sens : Bool)
    (hmx : mx ≤ 254) (hlow : mn < 250) (hr : mn + 4 < mx) (v : Nat) :
    (mx ≤ v → (Light.after (.read v :: .setTyp mean mn mx sens :: h)).isRoomLit = true) ∧
    (v ≤ mn → (Light.after (.read v :: .setTyp mean mn mx sens :: h)).isRoomDark = true) := by
  simp only [Light.after]
  generalize Light.after h = s
  have ht : mn < (s.recompute mean mn mx sens).darkThr ∧ (s.recompute mean mn mx sens).lightThr < mx ∧
      (s.recompute mean mn mx sens).narrow = false ∧
      (s.recompute mean mn mx sens).darkThr < (s.recompute mean mn mx sens).lightThr := by
    have hk : ∃ k, (k = 16 ∨ k = 8) ∧ (if sens || decide (mean < mx / 2) then 16 else 8) = k := by
      split
      · exact ⟨16, .inl rfl, rfl⟩
      · exact ⟨8, .inr rfl, rfl⟩
    obtain ⟨k, hk, e⟩ := hk
    have hthr := recompute_thr s mean mn mx sens (by omega)
    revert hthr
    unfold Light.recompute
    rw [if_neg (by omega), if_neg (by omega)]
    dsimp only
    rw [e]
    intro hthr
    exact ⟨by omega, by omega, rfl, hthr⟩
  simp only [Light.op, Light.setTyp]
  generalize s.recompute mean mn mx sens = t at ht
  obtain ⟨h1, h2, h3, h4⟩ := ht
  obtain ⟨f1, f2⟩ := read_flags { t with det := t.det.setTyp mean mn mx } v
  simp only [Light.op] at f1 f2
  simp only [Light.isRoomLit, Light.isRoomDark, f1, f2]
  rw [h3]
  constructor
  · intro hv
    rw [if_pos (by omega)]; rfl
  · intro hv
    rw [if_neg (by omega), if_pos (by omega)]; rfl

/-! ## C117: dark time -/

/-- While no reading is above the light threshold, the dark time grows by exactly one for each reading at or below the
dark threshold, up to 65535; a reading above the light threshold makes it zero. -/
theorem C117_dark_minutes (h : List LightOp) (hn : (Light.after h).narrow = false) (vs : List Nat)
    (hd : (Light.after h).dark ≤ 65535)
    (hv : ∀ v ∈ vs, v ≤ (Light.after h).lightThr) :
    (Light.after (vs.map .read ++ h)).dark =
      min 65535 ((Light.after h).dark + vs.countP (fun v => decide (v ≤ (Light.after h).darkThr))) := by
  have key : ∀ vs : List Nat, (∀ v ∈ vs, v ≤ (Light.after h).lightThr) →
      (Light.after (vs.map .read ++ h)).dark =
        min 65535 ((Light.after h).dark + vs.countP (fun v => decide (v ≤ (Light.after h).darkThr))) ∧
      (Light.after (vs.map .read ++ h)).narrow = false ∧
      (Light.after (vs.map .read ++ h)).lightThr = (Light.after h).lightThr ∧
      (Light.after (vs.map .read ++ h)).darkThr = (Light.after h).darkThr := by
    intro vs
    induction vs with
    | nil => intro _; simp [hn]; omega
    | cons v vs ih =>
      intro hv
      obtain ⟨i1, i2, i3, i4⟩ := ih fun v h => hv v (List.mem_cons_of_mem _ h)
      have hv0 := hv v List.mem_cons_self
      simp only [List.map_cons, List.cons_append, Light.after, List.countP_cons]
      generalize Light.after (vs.map .read ++ h) = s at i1 i2 i3 i4
      simp only [Light.op, Light.read]
      generalize s.det.update v = r
      rw [if_neg (by omega : ¬ v > s.lightThr)]
      by_cases h2 : v ≤ s.darkThr
      · rw [if_pos h2]
        dsimp only
        have hc : (if decide (v ≤ (Light.after h).darkThr) = true then 1 else 0) = 1 := by
          rw [if_pos]; simpa [i4] using h2
        rw [hc]
        have hdk : (if s.narrow = false ∧ s.dark < 65535 then s.dark + 1 else s.dark) =
            min 65535 ((Light.after h).dark + (vs.countP (fun v => decide (v ≤ (Light.after h).darkThr)) + 1)) := by
          by_cases hlt : s.dark < 65535
          · rw [if_pos ⟨i2, hlt⟩]; omega
          · rw [if_neg (by omega)]; omega
        split <;> exact ⟨hdk, i2, i3, i4⟩
      · rw [if_neg h2]
        have hc : (if decide (v ≤ (Light.after h).darkThr) = true then 1 else 0) = 0 := by
          rw [if_neg]; simpa [i4] using h2
        rw [hc]
        dsimp only
        split <;> exact ⟨by simpa using i1, i2, i3, i4⟩
  exact (key vs hv).1

/-- A reading above the light threshold makes the dark time zero. -/
theorem C117_light_resets (h : List LightOp) (v : Nat) (hv : (Light.after h).lightThr < v) :
    (Light.after (.read v :: h)).dark = 0 := by
  simp only [Light.after]
  generalize Light.after h = s at hv
  simp only [Light.op, Light.read]
  rw [if_pos hv]
  dsimp only
  split <;> rfl

/-! ## C118: no false occupancy -/

/-- The head of the levels seen is the level the detector compares with. -/
theorem seen_head (h : List LightOp) : (seen h).head? = some (Light.after h).det.prev := (after_det h).prev

/-- Occupancy is never signalled, at any strength, by a reading below the previous one; nor when no callback is
installed. -/
theorem C118_falling (h : List LightOp) (v b : Nat) (hb : (seen h).head? = some b) (hv : v < b) :
    ((Light.after h).op (.read v)).2 = none := by
  rw [read_callback]
  have : (Light.after h).det.prev = b := by
    have := seen_head h; rw [hb] at this; exact (Option.some.inj this).symm
  have hu : ((Light.after h).det.update v).2 = .none := by
    simp only [LightDet.update]
    rw [if_pos (by omega)]
    split <;> rfl
  simp [hu]

/-- The first reading after power-up never signals occupancy, whatever the level and whatever statistics were given. -/
theorem C118_first (h : List LightOp) (hs : seen h = [254]) (v : Nat) (hv : v ≤ 255) :
    ((Light.after h).op (.read v)).2 = none := by
  by_cases hlt : v < 254
  · exact C118_falling h v 254 (by rw [hs]; rfl) hlt
  · have hi := after_det h
    rw [hs] at hi
    have hp : (Light.after h).det.prev = 254 := (Option.some.inj hi.prev).symm
    have hst : (Light.after h).det.steady = 0 := hi.steady
    have hpe : (Light.after h).det.pending = false := by
      cases hq : (Light.after h).det.pending with
      | false => rfl
      | true => exact absurd (hi.pending hq) (by simp [OnSince])
    rw [read_callback]
    have hu : ((Light.after h).det.update v).2 = .none := by
      simp only [LightDet.update]
      rw [if_neg (by omega), if_neg (by simp [hpe]), if_neg (by omega), if_neg]
      rw [hst]
      simp only [satTick]
      split <;> simp
    simp [hu]

/-- A strong signal is always the result of lights coming on: at some reading the light rose by at least the noise floor
after three steady readings, and it has not dropped sharply since. -/
theorem C118_probable_sound (h : List LightOp) (v : Nat)
    (hc : ((Light.after h).op (.read v)).2 = some true) : OnSince (v :: seen h) := by
  have hi := after_det h
  rw [read_callback] at hc
  have hp : ((Light.after h).det.update v).2 = .probable := by
    revert hc
    cases ((Light.after h).det.update v).2 <;> simp <;> (intros; split <;> simp)
  rw [onSince_cons hi.prev]
  rcases update_pending _ v (.inr hp) with ⟨a, b⟩ | ⟨a, b⟩
  · left; exact ⟨a, by have := hi.steady; omega⟩
  · right; exact ⟨a, hi.pending b⟩

/-- A weak signal is given only when the room is clearly lit. -/
theorem C118_weak_lit (h : List LightOp) (v : Nat)
    (hc : ((Light.after h).op (.read v)).2 = some false) :
    (Light.after h).lightThr < v ∧ (Light.after (.read v :: h)).lit = true := by
  have hv : (Light.after h).lightThr < v := by
    rw [read_callback] at hc
    by_cases h1 : (Light.after h).cb = true
    · rw [if_pos h1] at hc
      by_cases h2 : ((Light.after h).det.update v).2 = .probable
      · rw [if_pos h2] at hc; cases hc
      · rw [if_neg h2] at hc
        split at hc
        · rename_i h3; exact h3.1
        · cases hc
    · rw [if_neg h1] at hc; cases hc
  refine ⟨hv, ?_⟩
  simp only [Light.after]
  generalize Light.after h = s at hv
  simp only [Light.op, Light.read]
  rw [if_pos hv]
  dsimp only
  split <;> rfl

/-! ## C119: lights on -/

theorem det_min (h : List LightOp) : (Light.after h).det.minUse = floorOf (lastTyp h).2.1 ∧
    (Light.after h).det.minRise = needRise (lastTyp h).1 (lastTyp h).2.1 := by
  have ht := after_typ h
  rw [← ht]
  exact ⟨rfl, rfl⟩

/-- Nothing is waiting for confirmation once the light has been steady for three readings and the last one was no lower
than the one before. -/
theorem settled_not_pending (h : List LightOp) (b v : Nat) (hcb : cbOn h = true) (hb : (seen h).head? = some b)
    (hle : b ≤ v) (hst : 3 ≤ steadyRun (v :: seen h)) : (Light.after (.read v :: h)).det.pending = false := by
  have hi := after_det h
  have hp : (Light.after h).det.prev = b := by have := hi.prev; rw [hb] at this; exact (Option.some.inj this).symm
  have hn : Near v b := by
    rw [steadyRun_cons hb] at hst
    by_cases hn : Near v b
    · exact hn
    · rw [if_neg hn] at hst; omega
  have hs : 3 ≤ satTick (Light.after h).det.steady := by
    rw [steadyRun_cons hb, if_pos hn] at hst
    have := hi.steady
    unfold satTick
    split <;> omega
  simp only [Light.after]
  rw [op_det_read, after_cb, if_pos hcb]
  unfold Near at hn
  generalize (Light.after h).det = d at hp hs
  simp only [LightDet.update]
  rw [if_neg (by omega), if_pos (by omega : v - d.prev < 4)]
  by_cases hpe : d.pending = true
  · rw [if_pos hpe, if_pos hs]
  · rw [if_neg hpe, if_neg (by omega)]
    have : d.pending = false := by simpa using hpe
    split <;> exact this

/-- Lights on in a room that has been in use (or was not at its darkest): a rise of at least the noise floor and of at
least the usual amount, after the light was steady, signals occupancy at once. -/
theorem C119_lights_on (h : List LightOp) (c b v : Nat) (hcb : cbOn h = true) (hc : (seen h).head? = some c)
    (hle : c ≤ b) (hst : 3 ≤ steadyRun (b :: seen h)) (hrise : b + 4 ≤ v)
    (hneed : needRise (lastTyp h).1 (lastTyp h).2.1 ≤ v - b)
    (hlit : floorOf (lastTyp h).2.1 < b ∨ steadyRun (b :: seen h) < 255) :
    ((Light.after (.read b :: h)).op (.read v)).2 = some true := by
  have hpe := settled_not_pending h c b hcb hc hle hst
  have hi := after_det (.read b :: h)
  have hse : seen (.read b :: h) = b :: seen h := by simp [seen, hcb]
  rw [hse] at hi
  obtain ⟨m1, m2⟩ := det_min (.read b :: h)
  have hlt : lastTyp (.read b :: h) = lastTyp h := rfl
  rw [hlt] at m1 m2
  have hprev : (Light.after (.read b :: h)).det.prev = b := (Option.some.inj hi.prev).symm
  have hsteady := hi.steady
  rw [read_callback, after_cb]
  have hcb' : cbOn (.read b :: h) = true := hcb
  rw [if_pos hcb']
  have hu : ((Light.after (.read b :: h)).det.update v).2 = .probable := by
    generalize (Light.after (.read b :: h)).det = d at *
    simp only [LightDet.update]
    rw [if_neg (by omega), if_neg (by simp [hpe]), if_pos (by omega), if_pos (by omega), if_pos (by omega)]
  simp [hu]

/-- A light switched on in a room that has been at its darkest and steady for 255 readings or more is not signalled
strongly at once; it is then signalled at exactly the third further steady reading. (Readings equal to or a little above
the one before.) -/
theorem C119_confirmed (h : List LightOp) (c b v v1 v2 v3 : Nat) (hcb : cbOn h = true) (hc : (seen h).head? = some c)
    (hle : c ≤ b) (hst : 255 ≤ steadyRun (b :: seen h)) (hrise : b + 4 ≤ v)
    (hneed : needRise (lastTyp h).1 (lastTyp h).2.1 ≤ v - b)
    (hdark : b ≤ floorOf (lastTyp h).2.1)
    (h1 : v ≤ v1 ∧ v1 < v + 4) (h2 : v1 ≤ v2 ∧ v2 < v1 + 4) (h3 : v2 ≤ v3 ∧ v3 < v2 + 4) :
    ((Light.after (.read b :: h)).op (.read v)).2 ≠ some true ∧
    ((Light.after (.read v :: .read b :: h)).op (.read v1)).2 = none ∧
    ((Light.after (.read v1 :: .read v :: .read b :: h)).op (.read v2)).2 = none ∧
    ((Light.after (.read v2 :: .read v1 :: .read v :: .read b :: h)).op (.read v3)).2 = some true := by
  have hpe := settled_not_pending h c b hcb hc hle (by omega)
  have hi := after_det (.read b :: h)
  have hse : seen (.read b :: h) = b :: seen h := by simp [seen, hcb]
  rw [hse] at hi
  obtain ⟨m1, m2⟩ := det_min (.read b :: h)
  have hlt : lastTyp (.read b :: h) = lastTyp h := rfl
  rw [hlt] at m1 m2
  have hprev : (Light.after (.read b :: h)).det.prev = b := (Option.some.inj hi.prev).symm
  have hsteady := hi.steady
  have cbs : ∀ l, cbOn (.read l :: .read b :: h) = true := fun _ => hcb
  have e1 : (Light.after (.read v :: .read b :: h)).det = ((Light.after (.read b :: h)).det.update v).1 := by
    show (((Light.after (.read b :: h)).op (.read v)).1).det = _
    rw [op_det_read, after_cb, if_pos (by exact hcb)]
  have e2 : (Light.after (.read v1 :: .read v :: .read b :: h)).det =
      ((Light.after (.read v :: .read b :: h)).det.update v1).1 := by
    show (((Light.after (.read v :: .read b :: h)).op (.read v1)).1).det = _
    rw [op_det_read, after_cb, if_pos (by exact hcb)]
  have e3 : (Light.after (.read v2 :: .read v1 :: .read v :: .read b :: h)).det =
      ((Light.after (.read v1 :: .read v :: .read b :: h)).det.update v2).1 := by
    show (((Light.after (.read v1 :: .read v :: .read b :: h)).op (.read v2)).1).det = _
    rw [op_det_read, after_cb, if_pos (by exact hcb)]
  have u0 : (Light.after (.read b :: h)).det.update v =
      ({ (Light.after (.read b :: h)).det with steady := 0, pending := true, prev := v }, .weak) := by
    generalize (Light.after (.read b :: h)).det = d at *
    simp only [LightDet.update]
    rw [if_neg (by omega), if_neg (by simp [hpe]), if_pos (by omega), if_pos (by omega), if_neg (by omega),
      if_neg (by omega : ¬ v - d.prev < 4)]
  have u1 : ∀ d : LightDet, d.pending = true → d.steady = 0 → d.prev = v →
      d.update v1 = ({ d with steady := 1, prev := v1 }, .none) := by
    intro d p s q
    simp only [LightDet.update]
    rw [if_neg (by omega), if_pos p, if_pos (by omega : v1 - d.prev < 4), s]
    rfl
  have u2 : ∀ d : LightDet, d.pending = true → d.steady = 1 → d.prev = v1 →
      d.update v2 = ({ d with steady := 2, prev := v2 }, .none) := by
    intro d p s q
    simp only [LightDet.update]
    rw [if_neg (by omega), if_pos p, if_pos (by omega : v2 - d.prev < 4), s]
    rfl
  have u3 : ∀ d : LightDet, d.pending = true → d.steady = 2 → d.prev = v2 → (d.update v3).2 = .probable := by
    intro d p s q
    simp only [LightDet.update]
    rw [if_neg (by omega), if_pos p, if_pos (by omega : v3 - d.prev < 4), s]
    rfl
  rw [u0] at e1
  rw [e1, u1 _ rfl rfl rfl] at e2
  rw [e2, u2 _ rfl rfl rfl] at e3
  refine ⟨?_, ?_, ?_, ?_⟩
  · rw [read_callback, u0]
    split
    · simp
    · simp
  · rw [read_callback, e1, u1 _ rfl rfl rfl]; simp
  · rw [read_callback, e2, u2 _ rfl rfl rfl]; simp
  · rw [read_callback, e3, u3 _ rfl rfl rfl, after_cb, if_pos (by exact hcb)]; simp

/-- A flash: if, before three steady readings have passed, the light drops sharply, nothing is left waiting, and the
signal never comes from that flash: a strong signal needs a new rise (`C118_probable_sound`), since a sharp drop ends
`OnSince`. -/
theorem C119_flash_forgotten (H : List Nat) (b v : Nat) (hb : H.head? = some b) (hdrop : v + 4 ≤ b) :
    ¬ OnSince (v :: H) := by
  rw [onSince_cons hb]
  rintro (⟨a, -⟩ | ⟨a, -⟩) <;> omega

/-- The whole of a flash in a long-dark room: on at `v`, at most two readings later off again (a sharp drop). No strong
signal at any of these readings. -/
theorem C119_flash_silent (h : List LightOp) (c b v v1 w : Nat) (hcb : cbOn h = true) (hc : (seen h).head? = some c)
    (hle : c ≤ b) (hst : 255 ≤ steadyRun (b :: seen h)) (hrise : b + 4 ≤ v)
    (hneed : needRise (lastTyp h).1 (lastTyp h).2.1 ≤ v - b)
    (hdark : b ≤ floorOf (lastTyp h).2.1) (h1 : v ≤ v1 ∧ v1 < v + 4) (hw : w + 4 ≤ v1) :
    ((Light.after (.read b :: h)).op (.read v)).2 ≠ some true ∧
    ((Light.after (.read v :: .read b :: h)).op (.read v1)).2 ≠ some true ∧
    ((Light.after (.read v1 :: .read v :: .read b :: h)).op (.read w)).2 ≠ some true := by
  obtain ⟨a, e, -, -⟩ := C119_confirmed h c b v v1 v1 v1 hcb hc hle hst hrise hneed hdark h1 ⟨by omega, by omega⟩
    ⟨by omega, by omega⟩
  refine ⟨a, by rw [e]; simp, ?_⟩
  rw [C118_falling _ w v1 _ (by omega)]
  · simp
  · have : cbOn (.read v :: .read b :: h) = true := hcb
    simp [seen, hcb, cbOn]

/-- `n` readings of level `v`, then the history. -/
def darkFor (n v : Nat) (h : List LightOp) : List LightOp := List.replicate n (.read v) ++ h

/-- Refutation of "a strong signal means the light is still on": after a long-dark room is lit, a light that dims a
little at each reading until the room is as dark as before is still signalled, in the dark. -/
theorem C119_refuted_dimmed :
    ∃ h : List LightOp, (∀ o ∈ h, ByteOp o) ∧ (Light.after h).isRoomDark = true ∧ (Light.after h).value = 0 ∧
      ((Light.after h).op (.read 0)).2 = some true ∧
      (Light.after (.read 0 :: h)).isRoomDark = true := by
  refine ⟨[.read 0, .read 3, .read 6, .read 9, .read 12, .read 15, .read 18, .read 20] ++
    darkFor 300 0 [.setCb true], ?_, ?_, ?_, ?_, ?_⟩ <;> decide +kernel

/-! ## The hypotheses can be met -/

example : ((Light.after (.read 0 :: darkFor 20 0 [.setCb true])).op (.read 50)).2 = some true :=
  C119_lights_on (darkFor 20 0 [.setCb true]) 0 0 50 (by decide +kernel) (by decide +kernel) (by decide)
    (by decide +kernel) (by decide) (by decide +kernel) (by decide +kernel)

example : cbOn (darkFor 300 0 [.setCb true]) = true ∧ (seen (darkFor 300 0 [.setCb true])).head? = some 0 ∧
    255 ≤ steadyRun (0 :: seen (darkFor 300 0 [.setCb true])) ∧
    needRise (lastTyp (darkFor 300 0 [.setCb true])).1 (lastTyp (darkFor 300 0 [.setCb true])).2.1 ≤ 50 - 0 ∧
    0 ≤ floorOf (lastTyp (darkFor 300 0 [.setCb true])).2.1 := by decide +kernel

example : (Light.after [.read 30, .setTyp 20 1 200 false]).isRoomDark = false ∧
    (Light.after [.read 1, .setTyp 20 1 200 false]).isRoomDark = true ∧
    (Light.after [.read 0, .setTyp 20 1 3 false]).narrow = true ∧
    (Light.after (darkFor 5 0 [.read 100])).dark = 5 := by decide +kernel

/-- A weak signal does occur. -/
example : ((Light.after (darkFor 40 30 [.setTyp 30 1 200 false, .setCb true])).op (.read 30)).2 = some false := by
  decide +kernel

end OTR.Props
