import Verif.Props.JSONStats
/-!
# Properties C106, C107: rotation and changed stats first
-/

namespace OTR.Props
open OTR OTR.Spec

/-- The entries a call wrote, as read back by a JSON reader. -/
def sent (s : StatSet) (sys mem : Bytes) (bufSize : Nat) (mx sup : Bool) : Option (List (Bytes × JVal)) :=
  readObj ((writeJSON s sys mem bufSize mx sup).2.2.mem.take (writeJSON s sys mem bufSize mx sup).1)

/-- Any number of new values put under names already there. -/
def putAll (s : StatSet) (ps : List (Bytes × Int × Bool)) : StatSet := ps.foldl (fun s p => (s.put p.1 p.2.1 p.2.2).2) s

/-- One run of a device: the calls to `writeJSON` with their buffers and flags, and the values put between them. -/
structure Run where
  set : Nat → StatSet
  sys : Bytes
  mem : Nat → Bytes
  size : Nat → Nat
  mx : Nat → Bool
  sup : Nat → Bool

/-- The run is one: each call is given its buffer, and between two calls values are put under names already present. -/
structure Run.Valid (R : Run) : Prop where
  tab : TabOK (R.set 0)
  sys : (0x22 : Byte) ∉ R.sys
  buf : ∀ k, R.size k ≤ (R.mem k).length ∧ 10 ≤ R.size k
  fits : ∀ k, AllFit (R.set k) R.sys (R.size k)
  step : ∀ k, ∃ ps, (∀ p ∈ ps, ∃ x ∈ (R.set k).stats, x.key = p.1) ∧
    R.set (k + 1) = putAll (writeJSON (R.set k) R.sys (R.mem k) (R.size k) (R.mx k) (R.sup k)).2.1 ps

/-- What puts under existing names keep. -/
structure SameShape (s s' : StatSet) : Prop where
  len : s'.stats.length = s.stats.length
  key : ∀ i, (statAt s'.stats i).key = (statAt s.stats i).key
  low : ∀ i, (statAt s'.stats i).low = (statAt s.stats i).low
  rest : s'.lastTXed = s.lastTXed ∧ s'.id = s.id ∧ s'.enabled = s.enabled ∧ s'.count = s.count ∧ s'.cap = s.cap

theorem put_shape (s : StatSet) (k : Bytes) (v : Int) (low : Bool) (hk : ∃ x ∈ s.stats, x.key = k) : SameShape s (s.put k v low).2 := by
  unfold StatSet.put
  split
  · exact ⟨rfl, fun _ => rfl, fun _ => rfl, rfl, rfl, rfl, rfl, rfl⟩
  · cases hf : s.find k with
    | none =>
      obtain ⟨x, hx, hxk⟩ := hk
      exact absurd hxk ((get_none s k).1 ((find_none s k).1 hf) x hx)
    | some i =>
      have hi : i < s.stats.length := by
        obtain ⟨a, x, b, e, hl, _⟩ := find_split s k i hf
        rw [e]; simp; omega
      refine ⟨by simp, ?_, ?_, rfl, rfl, rfl, rfl, rfl⟩ <;>
      · intro j
        dsimp only
        rw [statAt_modify _ _ _ hi]
        split
        · split <;> rfl
        · rfl

theorem SameShape.trans {a b c : StatSet} (h1 : SameShape a b) (h2 : SameShape b c) : SameShape a c :=
  ⟨h2.len.trans h1.len, fun i => (h2.key i).trans (h1.key i), fun i => (h2.low i).trans (h1.low i),
   h2.rest.1.trans h1.rest.1, h2.rest.2.1.trans h1.rest.2.1, h2.rest.2.2.1.trans h1.rest.2.2.1,
   h2.rest.2.2.2.1.trans h1.rest.2.2.2.1, h2.rest.2.2.2.2.trans h1.rest.2.2.2.2⟩

theorem SameShape.keys {s s' : StatSet} (h : SameShape s s') (k : Bytes) : (∃ x ∈ s'.stats, x.key = k) ↔ ∃ x ∈ s.stats, x.key = k := by
  have e := map_key s'.stats s.stats h.len h.key
  have : ∀ l : List Stat, (∃ x ∈ l, x.key = k) ↔ k ∈ l.map (·.key) := by intro l; simp
  rw [this, this, e]

theorem putAll_shape (ps : List (Bytes × Int × Bool)) : ∀ s : StatSet, (∀ p ∈ ps, ∃ x ∈ s.stats, x.key = p.1) → TabOK s →
    SameShape s (putAll s ps) ∧ TabOK (putAll s ps) := by
  induction ps with
  | nil => intro s _ h; exact ⟨⟨rfl, fun _ => rfl, fun _ => rfl, rfl, rfl, rfl, rfl, rfl⟩, h⟩
  | cons p t ih =>
    intro s hp h
    have h1 := put_shape s p.1 p.2.1 p.2.2 (hp p (by simp))
    have h2 := (C65_put s h p.1 p.2.1 p.2.2).2.2.2
    obtain ⟨h3, h4⟩ := ih (s.put p.1 p.2.1 p.2.2).2 (fun q hq => (h1.keys _).2 (hp q (by simp [hq]))) h2
    exact ⟨h1.trans h3, h4⟩

theorem fit_nonzero (s : StatSet) (h : TabOK s) (sys mem : Bytes) (bufSize : Nat) (mx sup : Bool) (hm : bufSize ≤ mem.length) (hb : 10 ≤ bufSize)
    (hf : AllFit s sys bufSize) (hn : 0 < s.stats.length) : (writeJSON s sys mem bufSize mx sup).1 ≠ 0 := by
  intro h0
  rcases (C64_failure s h sys mem bufSize mx sup hm).1.1 h0 with h | h
  · omega
  · have := hf 0 hn; omega

theorem fit_base (s : StatSet) (sys : Bytes) (bufSize : Nat) (hf : AllFit s sys bufSize) :
    ∀ i < s.stats.length, ([0x7b] ++ jsonHeader s sys).length + 1 + (renderStat (statAt s.stats i)).length ≤ bufSize - 3 := by
  intro i hi
  have := hf i hi
  rw [← header_eq] at this
  rw [render_eq]; simp; omega

/-- Distance of index `j` from the position of the rotation. -/
def Dist (n last j d : Nat) : Prop := d < n ∧ j = (effLast n last + 1 + d) % n

theorem dist_exists (n last j : Nat) (hj : j < n) : ∃ d, Dist n last j d := by
  have he : effLast n last < n := by unfold effLast; split <;> omega
  unfold Dist
  generalize effLast n last = e at he
  by_cases h : e + 1 ≤ j
  · exact ⟨j - (e + 1), by omega, by rw [show e + 1 + (j - (e + 1)) = j by omega, Nat.mod_eq_of_lt hj]⟩
  · exact ⟨j + n - (e + 1), by omega, by rw [show e + 1 + (j + n - (e + 1)) = j + n by omega, Nat.add_mod_right, Nat.mod_eq_of_lt hj]⟩

theorem dist_step (n last j d : Nat) (hn : 0 < n) (h255 : n ≤ 255) (hl : last ≤ 255) (pre post : List Nat) (hd : Dist n last j d)
    (e : visit n n last = pre ++ post) (hj : j ∉ pre) : Dist n ((pre.getLast?).getD last) j (d - pre.length) ∧ pre.length ≤ d := by
  rw [visit_eff n last n hn h255 hl] at e
  obtain ⟨d1, d2⟩ := hd
  have hpre : pre = (List.range pre.length).map fun x => (effLast n last + 1 + x) % n := by
    have := congrArg (List.take pre.length) e
    rw [List.take_left, ← List.map_take, List.take_range] at this
    have hle : pre.length ≤ n := by have := congrArg List.length e; simp at this; omega
    rw [show min pre.length n = pre.length by omega] at this
    exact this.symm
  have hle : pre.length ≤ d := by
    apply Nat.le_of_not_lt
    intro hlt
    apply hj
    rw [hpre, List.mem_map]
    exact ⟨d, by simpa using hlt, d2.symm⟩
  refine ⟨?_, hle⟩
  cases hm : pre.length with
  | zero =>
    have : pre = [] := List.length_eq_zero_iff.mp hm
    subst this; exact ⟨by omega, d2⟩
  | succ m =>
    have hlast : pre.getLast? = some ((effLast n last + 1 + m) % n) := by
      rw [List.getLast?_eq_getElem?, hm, hpre]
      simp [hm]
    rw [hlast, Option.getD_some]
    refine ⟨by omega, ?_⟩
    have hlt : (effLast n last + 1 + m) % n < n := Nat.mod_lt _ hn
    rw [show effLast n ((effLast n last + 1 + m) % n) = (effLast n last + 1 + m) % n by
      generalize (effLast n last + 1 + m) % n = z at hlt
      unfold effLast; rw [if_pos hlt]]
    rw [d2, Nat.add_assoc ((effLast n last + 1 + m) % n), Nat.mod_add_mod]
    congr 1; omega

/-- One call: the stat is sent, or its distance does not grow, and shrinks if the count is a multiple of four. -/
theorem fair_call (s : StatSet) (h : TabOK s) (sys mem : Bytes) (hs : (0x22 : Byte) ∉ sys) (bufSize : Nat) (mx sup : Bool) (hm : bufSize ≤ mem.length)
    (hb : 10 ≤ bufSize) (hf : AllFit s sys bufSize) (j d : Nat) (hj : j < s.stats.length) (hlow : (statAt s.stats j).low = false)
    (hd : Dist s.stats.length s.lastTXed j d) :
    (writeJSON s sys mem bufSize mx sup).2.1.count = (s.count + 1) % 8 ∧
    ((∃ es, sent s sys mem bufSize mx sup = some es ∧ statEntry (statAt s.stats j) ∈ es) ∨
     ∃ d', Dist s.stats.length (writeJSON s sys mem bufSize mx sup).2.1.lastTXed j d' ∧ d' ≤ d ∧ (s.count % 4 = 0 → d' < d)) := by
  have h0 := fit_nonzero s h sys mem bufSize mx sup hm hb hf (by omega)
  obtain ⟨r, s', b, he⟩ : ∃ r s' b, writeJSON s sys mem bufSize mx sup = (r, s', b) := ⟨_, _, _, rfl⟩
  unfold sent
  rw [he] at h0 ⊢; dsimp only at h0 ⊢
  obtain ⟨P, n1, n2, t, _, _, hc, _, _, _, hR⟩ := write_text s h sys mem bufSize mx sup hm (.inr hf) r s' b he h0
  refine ⟨hc, ?_⟩
  obtain ⟨pre, post, hR⟩ := hR (by omega)
  by_cases hjP : j ∈ P
  · left
    refine ⟨_, by rw [t]; exact readObj_text _ (clean_all s h sys hs P n2), ?_⟩
    simp only [List.mem_append, List.mem_map]
    exact .inr ⟨j, hjP, rfl⟩
  · right
    have hjpre : j ∉ pre := by
      intro hm
      rcases hR.fair (fit_base s sys bufSize hf) j hm with h | ⟨h, _⟩
      · exact hjP h
      · rw [hlow] at h; simp at h
    obtain ⟨s1, s2⟩ := dist_step _ _ j d (by omega) (Nat.le_trans h.len h.cap) h.last pre post hd hR.split hjpre
    refine ⟨d - pre.length, by rw [hR.lst]; exact s1, by omega, ?_⟩
    intro hc4
    have hdcf : s.dcf = false := by unfold StatSet.dcf; simp [hc4]
    have := (hR.prog (fit_base s sys bufSize hf) hdcf).1
    have : 0 < pre.length := List.length_pos_iff.mpr this
    omega

theorem jrun_inv (R : Run) (hR : R.Valid) (hn : 0 < (R.set 0).stats.length) : ∀ k, TabOK (R.set k) ∧ (R.set k).stats.length = (R.set 0).stats.length ∧
    (∀ i, (statAt (R.set k).stats i).key = (statAt (R.set 0).stats i).key) ∧ (∀ i, (statAt (R.set k).stats i).low = (statAt (R.set 0).stats i).low) := by
  intro k
  induction k with
  | zero => exact ⟨hR.tab, rfl, fun _ => rfl, fun _ => rfl⟩
  | succ k ih =>
    obtain ⟨i1, i2, i3, i4⟩ := ih
    obtain ⟨ps, p1, p2⟩ := hR.step k
    have hw := (C65_write (R.set k) i1 R.sys (R.mem k) (R.size k) (R.mx k) (R.sup k) (hR.buf k).1).1
    have h0 := fit_nonzero (R.set k) i1 R.sys (R.mem k) (R.size k) (R.mx k) (R.sup k) (hR.buf k).1 (hR.buf k).2 (hR.fits k) (by omega)
    obtain ⟨r, s', b, he⟩ : ∃ r s' b, writeJSON (R.set k) R.sys (R.mem k) (R.size k) (R.mx k) (R.sup k) = (r, s', b) := ⟨_, _, _, rfl⟩
    rw [he] at hw h0 p2; dsimp only at hw h0 p2
    obtain ⟨P, _, _, _, e1, e2, _⟩ := write_text (R.set k) i1 R.sys (R.mem k) (R.size k) (R.mx k) (R.sup k) (hR.buf k).1 (.inr (hR.fits k)) r s' b he h0
    have ekey : ∀ i, (statAt s'.stats i).key = (statAt (R.set k).stats i).key := by intro i; rw [e2 i]; split <;> rfl
    have elow : ∀ i, (statAt s'.stats i).low = (statAt (R.set k).stats i).low := by intro i; rw [e2 i]; split <;> rfl
    have hps : ∀ p ∈ ps, ∃ x ∈ s'.stats, x.key = p.1 := by
      intro p hp
      obtain ⟨x, hx, hxk⟩ := p1 p hp
      have hm : p.1 ∈ s'.stats.map (·.key) := by
        rw [map_key s'.stats (R.set k).stats e1 ekey, ← hxk]; exact List.mem_map_of_mem hx
      rw [List.mem_map] at hm; exact hm
    obtain ⟨q1, q2⟩ := putAll_shape ps s' hps hw
    rw [p2]
    exact ⟨q2, by rw [q1.len, e1, i2], fun i => by rw [q1.key, ekey, i3], fun i => by rw [q1.low, elow, i4]⟩

/-- **C106**: whatever values are put and whichever way each object is asked for, every stat of normal priority is in at least one
object out of any `4 n` in a row, `n` being the number of stats, if each stat would fit an object by itself. -/
theorem C106_fair (R : Run) (hR : R.Valid) (j : Nat) (hj : j < (R.set 0).stats.length) (hlow : (statAt (R.set 0).stats j).low = false) (k0 : Nat) :
    ∃ k, k0 ≤ k ∧ k < k0 + 4 * (R.set 0).stats.length ∧
      ∃ es, sent (R.set k) R.sys (R.mem k) (R.size k) (R.mx k) (R.sup k) = some es ∧ statEntry (statAt (R.set k).stats j) ∈ es := by
  have inv := jrun_inv R hR (by omega)
  have hn := (Nat.le_trans (Nat.succ_le_of_lt (Nat.zero_le j |>.trans_lt hj)) (Nat.le_refl _))
  generalize hN : (R.set 0).stats.length = n at *
  apply Classical.byContradiction
  intro hno
  have hno : ∀ k, k0 ≤ k → k < k0 + 4 * n →
      ¬ ∃ es, sent (R.set k) R.sys (R.mem k) (R.size k) (R.mx k) (R.sup k) = some es ∧ statEntry (statAt (R.set k).stats j) ∈ es := by
    intro k h1 h2 h3; exact hno ⟨k, h1, h2, h3⟩
  have step : ∀ k d, k0 ≤ k → k < k0 + 4 * n → Dist n (R.set k).lastTXed j d →
      (R.set (k + 1)).count = ((R.set k).count + 1) % 8 ∧
      ∃ d', Dist n (R.set (k + 1)).lastTXed j d' ∧ d' ≤ d ∧ ((R.set k).count % 4 = 0 → d' < d) := by
    intro k d h1 h2 hd
    obtain ⟨i1, i2, i3, i4⟩ := inv k
    have hw := (C65_write (R.set k) i1 R.sys (R.mem k) (R.size k) (R.mx k) (R.sup k) (hR.buf k).1).1
    have hc := fair_call (R.set k) i1 R.sys (R.mem k) hR.sys (R.size k) (R.mx k) (R.sup k) (hR.buf k).1 (hR.buf k).2 (hR.fits k) j d (by omega)
      (by rw [i4]; exact hlow) (by rw [i2]; exact hd)
    obtain ⟨ps, p1, p2⟩ := hR.step k
    have h0 := fit_nonzero (R.set k) i1 R.sys (R.mem k) (R.size k) (R.mx k) (R.sup k) (hR.buf k).1 (hR.buf k).2 (hR.fits k) (by omega)
    obtain ⟨r, s', b, he⟩ : ∃ r s' b, writeJSON (R.set k) R.sys (R.mem k) (R.size k) (R.mx k) (R.sup k) = (r, s', b) := ⟨_, _, _, rfl⟩
    rw [he] at hw h0 p2 hc; dsimp only at hw h0 p2 hc
    obtain ⟨P, _, _, _, e1, e2, _⟩ := write_text (R.set k) i1 R.sys (R.mem k) (R.size k) (R.mx k) (R.sup k) (hR.buf k).1 (.inr (hR.fits k)) r s' b he h0
    have ekey : ∀ i, (statAt s'.stats i).key = (statAt (R.set k).stats i).key := by intro i; rw [e2 i]; split <;> rfl
    have hps : ∀ p ∈ ps, ∃ x ∈ s'.stats, x.key = p.1 := by
      intro p hp
      obtain ⟨x, hx, hxk⟩ := p1 p hp
      have hm : p.1 ∈ s'.stats.map (·.key) := by
        rw [map_key s'.stats (R.set k).stats e1 ekey, ← hxk]; exact List.mem_map_of_mem hx
      rw [List.mem_map] at hm; exact hm
    obtain ⟨q1, _⟩ := putAll_shape ps s' hps hw
    rw [p2, q1.rest.2.2.2.1, q1.rest.1]
    refine ⟨hc.1, ?_⟩
    rcases hc.2 with hc | hc
    · exact absurd hc (hno k h1 h2)
    · rw [i2] at hc; exact hc
  have four : ∀ q, q ≤ n → ∃ d, Dist n (R.set (k0 + 4 * q)).lastTXed j d ∧ d + q < n := by
    intro q
    induction q with
    | zero =>
      intro _
      obtain ⟨d, hd⟩ := dist_exists n (R.set (k0 + 4 * 0)).lastTXed j hj
      exact ⟨d, hd, by have := hd.1; omega⟩
    | succ q ih =>
      intro hq
      obtain ⟨d, hd, hdq⟩ := ih (by omega)
      obtain ⟨c1, d1, hd1, l1, m1⟩ := step (k0 + 4 * q) d (by omega) (by omega) hd
      obtain ⟨c2, d2, hd2, l2, m2⟩ := step (k0 + 4 * q + 1) d1 (by omega) (by omega) hd1
      obtain ⟨c3, d3, hd3, l3, m3⟩ := step (k0 + 4 * q + 1 + 1) d2 (by omega) (by omega) hd2
      obtain ⟨c4, d4, hd4, l4, m4⟩ := step (k0 + 4 * q + 1 + 1 + 1) d3 (by omega) (by omega) hd3
      refine ⟨d4, by rw [show k0 + 4 * (q + 1) = k0 + 4 * q + 1 + 1 + 1 + 1 by omega]; exact hd4, ?_⟩
      rcases (by omega : (R.set (k0 + 4 * q)).count % 4 = 0 ∨ (R.set (k0 + 4 * q)).count % 4 = 3 ∨ (R.set (k0 + 4 * q)).count % 4 = 2 ∨
        (R.set (k0 + 4 * q)).count % 4 = 1) with h | h | h | h
      · have := m1 h; omega
      · have := m2 (by omega); omega
      · have := m3 (by omega); omega
      · have := m4 (by omega); omega
  obtain ⟨d, _, hd⟩ := four n (Nat.le_refl n)
  omega

/-- A run as assumed: three stats of which one changes all the time and one is of low priority. -/
def exampleRun : Run where
  set := fun k => Nat.rec ⟨3, [⟨[0x61], false, 1, false⟩, ⟨[0x62], false, 1, true⟩, ⟨[0x63], true, 7, false⟩], 255, some [], false, 0⟩
    (fun k s => putAll (writeJSON s [] (List.replicate 40 0) 40 false false).2.1 [([0x62], (k % 2 : Nat), false)]) k
  sys := []
  mem := fun _ => List.replicate 40 0
  size := fun _ => 40
  mx := fun _ => false
  sup := fun _ => false

theorem example_period (k : Nat) : exampleRun.set (k + 2 + 8) = exampleRun.set (k + 2) := by
  induction k with
  | zero => decide +kernel
  | succ k ih =>
    have e : ∀ m, exampleRun.set (m + 1) = putAll (writeJSON (exampleRun.set m) [] (List.replicate 40 0) 40 false false).2.1 [([0x62], (m % 2 : Nat), false)] := fun _ => rfl
    rw [show k + 1 + 2 + 8 = (k + 2 + 8) + 1 by omega, e, ih, show k + 1 + 2 = (k + 2) + 1 by omega, e (k + 2)]
    rw [show (k + 2 + 8) % 2 = (k + 2) % 2 by omega]

theorem example_states (k : Nat) : ∃ m, m < 10 ∧ exampleRun.set k = exampleRun.set m := by
  induction k using Nat.strongRecOn with
  | ind k ih =>
    by_cases h : k < 10
    · exact ⟨k, h, rfl⟩
    · obtain ⟨m, h1, h2⟩ := ih (k - 8) (by omega)
      refine ⟨m, h1, ?_⟩
      rw [← h2]
      have := example_period (k - 10)
      rw [show k - 10 + 2 + 8 = k by omega, show k - 10 + 2 = k - 8 by omega] at this
      exact this

theorem example_valid : exampleRun.Valid := by
  have all10 : ∀ m, m < 10 → ((exampleRun.set m).stats.map (·.key) = [[0x61], [0x62], [0x63]] ∧
      (joinC ((idEntry (exampleRun.set m) [] ++ countEntry (exampleRun.set m)).map entryText)).length = 0 ∧
      ∀ i, i < 3 → (entryText (statEntry (statAt (exampleRun.set m).stats i))).length ≤ 5) := by decide +kernel
  refine ⟨⟨by decide, by decide, by decide, by decide, by decide, ?_, by decide⟩, by decide, fun _ => ⟨(by decide : 40 ≤ (List.replicate 40 (0 : Byte)).length), (by decide : 10 ≤ 40)⟩, ?_, ?_⟩
  · intro i hi
    have : some ([] : Bytes) = some i := hi
    simp at this; subst this; decide
  · intro k i hi
    obtain ⟨m, hm, he⟩ := example_states k
    rw [he] at hi ⊢
    obtain ⟨h1, h2, h3⟩ := all10 m hm
    have hl : (exampleRun.set m).stats.length = 3 := by have := congrArg List.length h1; simpa using this
    have := h3 i (by omega)
    show (joinC ((idEntry (exampleRun.set m) [] ++ countEntry (exampleRun.set m)).map entryText)).length + _ + 5 ≤ 40
    omega
  · intro k
    refine ⟨[([0x62], (k % 2 : Nat), false)], ?_, rfl⟩
    intro p hp
    simp at hp; subst hp
    obtain ⟨m, hm, he⟩ := example_states k
    rw [he]
    obtain ⟨h1, _⟩ := all10 m hm
    have : [0x62] ∈ (exampleRun.set m).stats.map (·.key) := by rw [h1]; simp
    rw [List.mem_map] at this; exact this

/-- **C106** fails for stats of low priority: in this run, which meets the theorem's assumptions, stat `c` is never sent, although every
fourth object disregards changes. -/
theorem C106_refuted_low_priority : exampleRun.Valid ∧
    ∀ k, ∀ es, sent (exampleRun.set k) [] (List.replicate 40 0) 40 false false = some es → ¬ ∃ e ∈ es, e.1 = [0x63] := by
  refine ⟨example_valid, ?_⟩
  intro k
  obtain ⟨m, hm, he⟩ := example_states k
  rw [he]
  have : ∀ m, m < 10 → ((sent (exampleRun.set m) [] (List.replicate 40 0) 40 false false).all fun es => es.all fun e => decide (e.1 ≠ [0x63])) = true := by
    decide +kernel
  intro es hes
  have h := this m hm
  rw [hes] at h
  simp only [Option.all_some, List.all_eq_true, decide_eq_true_eq] at h
  rintro ⟨e, h1, h2⟩
  exact h e h1 h2

/-- A set in which the next stat in rotation is too long for the buffer. -/
def blockedSet (c : Nat) : StatSet := ⟨2, [⟨List.replicate 20 0x61, false, 1, false⟩, ⟨[0x62], false, 1, false⟩], 255, some [0x78], false, c⟩

/-- **C106** fails if one stat is too long: from then on no unchanged stat is sent at all, however many objects are written, not even
those that fit. -/
theorem C106_refuted_long : ∀ k : Nat, ∃ c, (fun s => (writeJSON s [] (List.replicate 24 0) 24 true false).2.1)^[k] (blockedSet 0) = blockedSet c ∧
    sent (blockedSet c) [] (List.replicate 24 0) 24 true false = some [([0x40], .str [0x78])] := by
  have key : ∀ c, c < 8 → (writeJSON (blockedSet c) [] (List.replicate 24 0) 24 true false).2.1 = blockedSet ((c + 1) % 8) ∧
      sent (blockedSet c) [] (List.replicate 24 0) 24 true false = some [([0x40], .str [0x78])] := by decide +kernel
  have : ∀ k : Nat, ∃ c, c < 8 ∧ (fun s => (writeJSON s [] (List.replicate 24 0) 24 true false).2.1)^[k] (blockedSet 0) = blockedSet c := by
    intro k
    induction k with
    | zero => exact ⟨0, by omega, rfl⟩
    | succ k ih =>
      obtain ⟨c, hc, he⟩ := ih
      refine ⟨(c + 1) % 8, by omega, ?_⟩
      rw [Function.iterate_succ_apply', he]
      exact (key c hc).1
  intro k
  obtain ⟨c, hc, he⟩ := this k
  exact ⟨c, he, (key c hc).2⟩

/-- **C107** (partly): three times out of four (`count` not a multiple of four), if some stat other than the first in the table has
changed and each stat fits, the first stat in the object is one that has changed. -/
theorem C107_changed_first_partial (s : StatSet) (h : TabOK s) (sys mem : Bytes) (hs : (0x22 : Byte) ∉ sys) (bufSize : Nat) (mx sup : Bool)
    (hm : bufSize ≤ mem.length) (hb : 10 ≤ bufSize) (hf : AllFit s sys bufSize) (hc : s.count % 4 ≠ 0)
    (i : Nat) (hi : 1 ≤ i) (hin : i < s.stats.length) (hch : (statAt s.stats i).changed = true) :
    ∃ x ∈ s.stats, x.changed = true ∧ ∃ es, sent s sys mem bufSize mx sup = some (idEntry s sys ++ countEntry s ++ statEntry x :: es) := by
  have h0 := fit_nonzero s h sys mem bufSize mx sup hm hb hf (by omega)
  obtain ⟨r, s', b, he⟩ : ∃ r s' b, writeJSON s sys mem bufSize mx sup = (r, s', b) := ⟨_, _, _, rfl⟩
  unfold sent
  rw [he] at h0 ⊢; dsimp only at h0 ⊢
  obtain ⟨P, n1, n2, t, _, _, _, _, _, _, hR⟩ := write_text s h sys mem bufSize mx sup hm (.inr hf) r s' b he h0
  obtain ⟨pre, post, hR⟩ := hR (by omega)
  have hdcf : s.dcf = true := by
    unfold StatSet.dcf StatSet.changedValue
    cases hst : s.stats with
    | nil => rw [hst] at hin; simp at hin
    | cons a t =>
      rw [hst] at hin hch
      have : statAt (a :: t) i ∈ t := by
        obtain ⟨i', rfl⟩ : ∃ i', i = i' + 1 := ⟨i - 1, by omega⟩
        simp at hin
        simp [statAt, hin]
      simp only [hc, ne_eq, not_false_eq_true, decide_true, Bool.true_and, List.any_eq_true]
      exact ⟨_, this, hch⟩
  obtain ⟨x, hx1, hx2⟩ := hR.chg (fit_base s sys bufSize hf) hdcf ⟨i, hin, hch⟩
  cases P with
  | nil => simp at hx1
  | cons p P' =>
    simp at hx1; subst hx1
    refine ⟨statAt s.stats p, statAt_mem _ p (n2 p (by simp)), hx2, P'.map (fun i => statEntry (statAt s.stats i)), ?_⟩
    rw [t, readObj_text _ (clean_all s h sys hs (p :: P') n2)]
    simp

/-- **C107** fails for the first stat in the table: with `a` changed and `b` not, `b` is sent. -/
theorem C107_refuted_first :
    let s : StatSet := ⟨2, [⟨[0x61], false, 1, true⟩, ⟨[0x62], false, 2, false⟩], 0, some [], false, 1⟩
    sent s [] (List.replicate 40 0) 40 false false = some [([0x62], .num 2)] ∧ s.changedValue = .ok false := by
  decide +kernel

/-- **C107**: `changedValue` is true exactly if some stat other than the first in the table has changed; on an empty table it reads
outside the table. -/
theorem C107_changedValue_partial (s : StatSet) :
    (s.stats ≠ [] → ∃ b, s.changedValue = .ok b ∧ (b = true ↔ ∃ i, 1 ≤ i ∧ i < s.stats.length ∧ (statAt s.stats i).changed = true)) ∧
    (s.stats = [] → s.changedValue = .ub) := by
  unfold StatSet.changedValue
  cases hs : s.stats with
  | nil => simp
  | cons a t =>
    refine ⟨fun _ => ⟨_, rfl, ?_⟩, by simp⟩
    simp only [List.any_eq_true]
    constructor
    · rintro ⟨x, hx, hc⟩
      obtain ⟨i, hi, rfl⟩ := List.mem_iff_getElem.mp hx
      exact ⟨i + 1, by omega, by simp; omega, by simpa [statAt, hi] using hc⟩
    · rintro ⟨i, h1, h2, h3⟩
      obtain ⟨i', rfl⟩ : ∃ i', i = i' + 1 := ⟨i - 1, by omega⟩
      simp at h2
      exact ⟨t[i'], List.getElem_mem _, by simpa [statAt, h2] using h3⟩

end OTR.Props
