import Verif.Model.AdcRun
/-!
# C212–C214: reading the ADC under every schedule of its interrupt
-/

namespace OTR

/-! ## Specification -/

/-- The values read, in order: those of the conversions whose numbers were recorded. -/
def Adc.readings (s : Adc) : List Nat := s.seen.map fun i => ((s.past[i]?).map (·.2)).getD 0

end OTR

namespace OTR.Props


/-- The CPU keeps getting its turn and conversions keep ending. -/
def AdcFair (sched : Nat → AdcEv) : Prop := ∀ n, (∃ m b, n ≤ m ∧ sched m = .cpu b) ∧ ∃ m v, n ≤ m ∧ sched m = .conv v

/-- At the call: nobody else is using the converter. Whether it is powered, what the registers and flags hold (even an old conversion's interrupt flag) is free. -/
structure AdcIdle (s : Adc) : Prop where
  pc : s.pc = .up
  conv : s.conv = none
  lock : s.lock = false
  adie : s.adie = false
  awake : s.asleep = false ∧ s.delayed = false
  fresh : s.past = [] ∧ s.seen = []

/-! ## Proofs -/

/-- Steps of the program between which the interrupt is enabled. -/
def _root_.OTR.APc.ie : APc → Bool
  | .adsc | .late | .clear | .check | .slp | .rdL | .rdH | .cmp | .offIE => true
  | _ => false

def _root_.OTR.APc.early : APc → Bool
  | .up | .mux | .adate | .adie | .adsc => true
  | _ => false

structure AInv1 (admux : Byte) (en0 : Bool) (s : Adc) : Prop where
  lock : s.lock = decide (s.pc = .rdH)
  asleep : s.asleep = true → s.pc = .check ∧ (s.conv.isSome = true ∨ s.adif = true)
  adie : s.adie = s.pc.ie
  early : s.pc.early = true → s.conv = none
  mux : s.pc ≠ .up → s.pc ≠ .mux → s.mux = admux
  conv : ∀ c, s.conv = some c → c = admux
  en : if s.pc = .up ∨ s.pc = .done then s.en = en0 else s.en = true ∧ s.needed = !en0
  adate : s.pc = .down ∨ s.pc = .done → s.adate = false
  off : s.pc = .done → en0 = false → s.conv = none

theorem exec_inv1 {admux : Byte} {samples : Nat} {en0 : Bool} {s : Adc} (h : AInv1 admux en0 s) (ha : s.asleep = false) (late : Bool) :
    AInv1 admux en0 (s.exec admux samples late) := by
  obtain ⟨h1, h2, h3, h4, h5, h6, h7, h8, h9⟩ := h
  unfold Adc.exec
  split <;> rename_i hp <;> rw [hp] at h1 h3 h4 h5 h7 h8 h9 <;> simp [APc.ie, APc.early] at h1 h3 h4 h5 h7 h8 h9
  case h_6 => (repeat' split) <;> constructor <;> simp_all [APc.ie, APc.early]
  case h_8 => cases s.flag <;> constructor <;> simp_all [APc.ie, APc.early]
  case h_9 => cases hc : s.conv <;> constructor <;> simp_all [APc.ie, APc.early]
  case h_12 => (repeat' split) <;> constructor <;> simp_all [APc.ie, APc.early]
  case h_15 => split <;> constructor <;> simp_all [APc.ie, APc.early]
  all_goals (constructor <;> simp_all [APc.ie, APc.early])

theorem delayed_inv1 {admux : Byte} {en0 : Bool} {s : Adc} (h : AInv1 admux en0 s) : AInv1 admux en0 { s with delayed := true } :=
  ⟨h.lock, h.asleep, h.adie, h.early, h.mux, h.conv, h.en, h.adate, h.off⟩

theorem isr_inv1 {admux : Byte} {en0 : Bool} {s : Adc} (h : AInv1 admux en0 s) : AInv1 admux en0 s.isr :=
  ⟨h.lock, fun h => (by cases h), h.adie, h.early, h.mux, h.conv, h.en, h.adate, h.off⟩

/-- What can happen: nothing, a step of the program, the interrupt, the end of a conversion, the end of sleep. -/
theorem ev_cases {admux : Byte} {samples : Nat} {s : Adc} (P : Adc → Prop) (e : AdcEv)
    (h0 : P s)
    (h1 : ∀ b, e = .cpu b → s.pending = false → s.asleep = false → P (s.exec admux samples b))
    (h2 : ∀ b, e = .cpu b → s.pending = true → s.asleep = false → s.delayed = false → P { s.exec admux samples b with delayed := true })
    (h3 : ∀ b, e = .cpu b → s.pending = true → (s.asleep || s.delayed) = true → P s.isr)
    (h4 : ∀ v, e = .conv v → ∀ c, s.conv = some c → P (s.ev admux samples (.conv v)))
    (h5 : P { s with asleep := false }) : P (s.ev admux samples e) := by
  cases e with
  | cpu b =>
    unfold Adc.ev
    dsimp only
    by_cases hp : s.pending = true
    · rw [if_pos hp]
      by_cases ha : (s.asleep || s.delayed) = true
      · rw [if_pos ha]; exact h3 b rfl hp ha
      · rw [if_neg ha]
        rw [Bool.or_eq_true, not_or, Bool.not_eq_true, Bool.not_eq_true] at ha
        exact h2 b rfl hp ha.1 ha.2
    · rw [if_neg hp]
      by_cases ha : s.asleep = true
      · rw [if_pos ha]; exact h0
      · rw [if_neg ha]; exact h1 b rfl (by simpa using hp) (by simpa using ha)
  | conv v =>
    cases hc : s.conv with
    | none => unfold Adc.ev; rw [hc]; exact h0
    | some c => exact h4 v rfl c hc
  | wake => exact h5

theorem ev_conv {admux : Byte} {samples : Nat} {s : Adc} {c : Byte} (hc : s.conv = some c) (v : Nat) : s.ev admux samples (.conv v) =
    { s with past := s.past ++ [(c, v % 1024)], reg := if s.lock then s.reg else v % 1024, tag := if s.lock then s.tag else s.past.length,
             adif := true, conv := if s.adate then some s.mux else none } := by
  unfold Adc.ev
  rw [hc]

theorem early_conv {admux : Byte} {en0 : Bool} {s : Adc} (h : AInv1 admux en0 s) {c : Byte} (hc : s.conv = some c) : s.pc.early = false := by
  cases he : s.pc.early with
  | false => rfl
  | true => rw [h.early he] at hc; cases hc

theorem ev_inv1 {admux : Byte} {samples : Nat} {en0 : Bool} {s : Adc} (h : AInv1 admux en0 s) (e : AdcEv) : AInv1 admux en0 (s.ev admux samples e) := by
  refine ev_cases _ e h (fun b _ _ ha => exec_inv1 h ha b) (fun b _ _ ha _ => delayed_inv1 (exec_inv1 h ha b)) (fun _ _ _ _ => isr_inv1 h) ?_
    ⟨h.lock, fun h => (by cases h), h.adie, h.early, h.mux, h.conv, h.en, h.adate, h.off⟩
  intro v _ c hc
  rw [ev_conv hc]
  have he := early_conv h hc
  refine ⟨h.lock, fun ha => ⟨(h.asleep ha).1, .inr rfl⟩, h.adie, fun h' => (by rw [he] at h'; cases h'), h.mux, ?_, h.en, h.adate, fun hd he => (by have := h.off hd he; rw [this] at hc; cases hc)⟩
  intro c' hc'
  dsimp only at hc'
  split at hc'
  · cases hc'
    refine h.mux ?_ ?_ <;> (intro hp; rw [hp] at he; cases he)
  · cases hc'

/-! ### What is read -/

/-- The result registers hold a conversion of this call, later than those read so far. -/
def AdcFresh (admux : Byte) (s : Adc) : Prop := s.past[s.tag]? = some (admux, s.reg) ∧ ∀ i ∈ s.seen, i < s.tag

structure AInv2 (admux : Byte) (s : Adc) : Prop where
  past : ∀ x ∈ s.past, x.1 = admux ∧ x.2 < 1024
  seen : s.seen.Pairwise (· < ·) ∧ ∀ i ∈ s.seen, i < s.past.length
  fresh : match s.pc with
    | .late | .clear | .cmp => s.adif = true → s.delayed = false → AdcFresh admux s
    | .check | .slp => s.adif = true ∨ s.flag = true → AdcFresh admux s
    | .rdL | .rdH => AdcFresh admux s
    | _ => True

/-- Consecutive readings all differ. -/
def NoAgree (l : List Nat) : Prop := ∀ i, i + 1 < l.length → l[i]? ≠ l[i + 1]?

/-- The last two readings agree. -/
def LastAgree (l : List Nat) : Prop := ∃ i, i + 2 = l.length ∧ l[i]? = l[i + 1]?

def AInv3 (samples : Nat) (nl : Prop) (s : Adc) : Prop :=
  match s.pc with
  | .late => s.old = s.readings.getLast?.getD 0xffff ∧ s.result = s.readings.getLast?.getD 1024 ∧ s.readings.length + s.left = samples ∧ NoAgree s.readings
  | .clear | .check | .slp | .rdL => s.old = s.readings.getLast?.getD 0xffff ∧ s.readings.length + 1 + s.left = samples ∧ NoAgree s.readings
  | .rdH => s.old = s.readings.getLast?.getD 0xffff ∧ s.readings.length + 1 + s.left = samples ∧ NoAgree s.readings ∧ s.l = s.reg % 256
  | .cmp => s.readings.getLast? = some s.result ∧ s.l < 256 ∧ s.result < 1024 ∧ s.old = s.readings.dropLast.getLast?.getD 0xffff ∧ s.readings.length + s.left = samples ∧ NoAgree s.readings.dropLast
  | .offIE | .offATE | .down | .done => s.result = s.readings.getLast?.getD 1024 ∧ s.readings.length ≤ samples ∧ NoAgree s.readings.dropLast ∧
      (nl → s.readings.length = samples ∨ LastAgree s.readings)
  | _ => s.seen = []

theorem noAgree_snoc {d : List Nat} {r : Nat} (h : NoAgree d) (hr : r ≠ d.getLast?.getD 0xffff) : NoAgree (d ++ [r]) := by
  intro i hi
  rw [List.length_append, List.length_singleton] at hi
  by_cases h1 : i + 1 < d.length
  · rw [List.getElem?_append_left (by omega), List.getElem?_append_left h1]
    exact h i h1
  · have : i + 1 = d.length := by omega
    rw [List.getElem?_append_left (by omega), this, List.getElem?_append_right (Nat.le_refl _), Nat.sub_self]
    intro h2
    rw [List.getLast?_eq_getElem?, show d.length - 1 = i by omega, h2] at hr
    exact hr rfl

theorem lastAgree_snoc {d : List Nat} {r : Nat} (hr : r = d.getLast?.getD 0xffff) (hlt : r < 1024) : LastAgree (d ++ [r]) := by
  cases hd : d.getLast? with
  | none => rw [hd] at hr; simp at hr; omega
  | some x =>
    rw [hd] at hr
    rw [List.getLast?_eq_getElem?] at hd
    have : d.length - 1 < d.length := (List.getElem?_eq_some_iff.1 hd).1
    refine ⟨d.length - 1, by simp; omega, ?_⟩
    rw [List.getElem?_append_left this, hd, show d.length - 1 + 1 = d.length by omega, List.getElem?_append_right (Nat.le_refl _), Nat.sub_self, hr]
    rfl

theorem noAgree_dropLast {l : List Nat} (h : NoAgree l) : NoAgree l.dropLast := by
  intro i hi
  rw [List.length_dropLast] at hi
  rw [List.getElem?_dropLast, List.getElem?_dropLast, if_pos (by omega), if_pos (by omega)]
  exact h i (by omega)

theorem eq_snoc {l : List Nat} {r : Nat} (h : l.getLast? = some r) : l = l.dropLast ++ [r] := by
  obtain ⟨t, rfl⟩ := List.getLast?_eq_some_iff.1 h
  simp

theorem exec_inv2 {admux : Byte} {samples : Nat} {en0 : Bool} {s : Adc} (h1 : AInv1 admux en0 s) (h : AInv2 admux s) (late d : Bool)
    (hp : (s.pending = false ∧ d = s.delayed) ∨ (s.delayed = false ∧ d = true)) : AInv2 admux { s.exec admux samples late with delayed := d } := by
  obtain ⟨a, b, c⟩ := h
  have hie := h1.adie
  unfold Adc.exec
  unfold Adc.pending at hp
  split <;> rename_i hpc <;> rw [hpc] at c hie <;> simp only [APc.ie] at hie c <;> rw [hie] at hp
  case h_5 => exact ⟨a, b, fun h1 h2 => by dsimp only at h1 h2; subst h2; simp_all⟩
  case h_6 => (repeat' split) <;> refine ⟨a, b, ?_⟩ <;> simp only
              exact fun h1 h2 => c h1 (by subst h2; simp_all)
  case h_7 => exact ⟨a, b, fun h1 => by dsimp only at h1; exact c (by simpa using h1) (by simp_all)⟩
  case h_8 =>
    cases hf : s.flag with
    | true => exact ⟨a, b, c (.inr hf)⟩
    | false => exact ⟨a, b, fun h1 => c (by simpa [hf] using h1)⟩
  case h_9 => exact ⟨a, b, c⟩
  case h_10 => exact ⟨a, b, c⟩
  case h_11 =>
    have ht : s.tag < s.past.length := (List.getElem?_eq_some_iff.1 c.1).1
    refine ⟨a, ⟨List.pairwise_append.2 ⟨b.1, List.pairwise_singleton _ _, fun i hi j hj => ?_⟩, fun i hi => ?_⟩, fun h1 h2 => ?_⟩
    · cases List.mem_singleton.1 hj; exact c.2 i hi
    · rcases List.mem_append.1 hi with hi | hi
      · exact b.2 i hi
      · cases List.mem_singleton.1 hi; exact ht
    · dsimp only at h1 h2; subst h2; simp_all
  case h_12 => split <;> refine ⟨a, b, ?_⟩ <;> simp only
               exact fun h1 h2 => c h1 (by subst h2; simp_all)
  case h_15 => split <;> exact ⟨a, b, trivial⟩
  case h_16 => exact ⟨a, b, by simp only [hpc]⟩
  all_goals exact ⟨a, b, trivial⟩

theorem fresh_conv {admux : Byte} {en0 : Bool} {samples : Nat} {s : Adc} (h1 : AInv1 admux en0 s) (h : AInv2 admux s) {c : Byte} (hc : s.conv = some c) (v : Nat)
    (hf : s.lock = true → AdcFresh admux s) : AdcFresh admux (s.ev admux samples (.conv v)) := by
  rw [ev_conv hc]
  cases hl : s.lock with
  | true =>
    obtain ⟨a, b⟩ := hf hl
    refine ⟨?_, fun i hi => by simpa using b i hi⟩
    simp only [if_true]
    rw [List.getElem?_append_left (List.getElem?_eq_some_iff.1 a).1]
    exact a
  | false =>
    refine ⟨?_, fun i hi => by simpa using h.seen.2 i hi⟩
    simp [h1.conv c hc]

theorem ev_inv2 {admux : Byte} {samples : Nat} {en0 : Bool} {s : Adc} (h1 : AInv1 admux en0 s) (h : AInv2 admux s) (e : AdcEv) : AInv2 admux (s.ev admux samples e) := by
  refine ev_cases _ e h (fun b _ hp _ => ?_) (fun b _ _ _ hd => exec_inv2 h1 h b true (.inr ⟨hd, rfl⟩)) (fun _ _ hp _ => ?_) ?_ ?_
  · have := exec_inv2 (samples := samples) h1 h b s.delayed (.inl ⟨hp, rfl⟩)
    have e : (s.exec admux samples b).delayed = s.delayed := by unfold Adc.exec; (repeat' split) <;> rfl
    rw [← e] at this
    exact this
  · refine ⟨h.past, h.seen, ?_⟩
    have h3 := h.fresh
    unfold Adc.pending at hp
    rw [Bool.and_eq_true] at hp
    unfold Adc.isr
    dsimp only
    cases hpc : s.pc <;> rw [hpc] at h3 <;> simp only at h3 ⊢ <;> first | trivial | exact fun _ => h3 (.inl hp.1) | (intro h; cases h; done) | exact h3
  · intro v _ c hc
    have he := early_conv h1 hc
    have hlk := h1.lock
    have h3 := h.fresh
    have hcc := h1.conv c hc
    have hf := fresh_conv (samples := samples) h1 h hc v (fun hl => by
      rw [hlk, decide_eq_true_eq] at hl
      rw [hl] at h3
      exact h3)
    rw [ev_conv hc] at hf ⊢
    refine ⟨?_, ⟨h.seen.1, fun i hi => ?_⟩, ?_⟩
    · intro x hx
      rcases List.mem_append.1 hx with hx | hx
      · exact h.past x hx
      · cases List.mem_singleton.1 hx
        exact ⟨hcc, Nat.mod_lt _ (by decide)⟩
    · rw [List.length_append]
      have := h.seen.2 i hi
      omega
    · dsimp only
      cases hpc : s.pc <;> simp only <;> first | trivial | exact fun _ _ => hf | exact fun _ => hf | exact hf
  · refine ⟨h.past, h.seen, ?_⟩
    exact h.fresh

theorem readings_conv {admux : Byte} {s : Adc} (h : AInv2 admux s) (x : Byte × Nat) (s' : Adc) (h1 : s'.past = s.past ++ [x]) (h2 : s'.seen = s.seen) : s'.readings = s.readings := by
  unfold Adc.readings
  rw [h1, h2]
  refine List.map_congr_left fun i hi => ?_
  rw [List.getElem?_append_left (h.seen.2 i hi)]

theorem exec_inv3 {admux : Byte} {samples : Nat} {nl : Prop} {s : Adc} (h2 : AInv2 admux s) (h : AInv3 samples nl s) (late : Bool)
    (hl : nl → late = false) : AInv3 samples nl (s.exec admux samples late) := by
  unfold AInv3 at h
  unfold Adc.exec
  split <;> rename_i hpc <;> rw [hpc] at h <;> simp only at h
  case h_5 =>
    have hr : s.readings = [] := by unfold Adc.readings; rw [h]; rfl
    show _ ∧ _ ∧ _ ∧ _
    unfold Adc.readings at hr ⊢
    dsimp only
    rw [hr]
    exact ⟨by simp, by simp [Adc.result], by simp, fun i hi => by simp at hi⟩
  case h_6 =>
    obtain ⟨a, b, c, d⟩ := h
    by_cases hz : s.left = 0
    · rw [if_pos hz]
      exact ⟨b, by show s.readings.length ≤ _; omega, noAgree_dropLast d, fun _ => .inl (by show s.readings.length = _; omega)⟩
    rw [if_neg hz]
    cases late with
    | true => exact ⟨b, by show s.readings.length ≤ _; omega, noAgree_dropLast d, fun hn => by cases hl hn⟩
    | false => exact ⟨a, by show s.readings.length + 1 + (s.left - 1) = _; omega, d⟩
  case h_8 => cases s.flag <;> exact h
  case h_10 => exact ⟨h.1, h.2.1, h.2.2, rfl⟩
  case h_11 =>
    have hf := h2.fresh
    rw [hpc] at hf
    have hr : ({ s with h := s.reg / 256, lock := false, seen := s.seen ++ [s.tag], pc := .cmp } : Adc).readings = s.readings ++ [s.reg] := by
      unfold Adc.readings
      dsimp only
      rw [List.map_append]
      congr 1
      rw [List.map_singleton, hf.1]
      rfl
    have hlt : s.reg < 1024 := (h2.past _ (List.mem_of_getElem? hf.1)).2
    have hres : ({ s with h := s.reg / 256, lock := false, seen := s.seen ++ [s.tag], pc := .cmp } : Adc).result = s.reg := by
      show s.reg / 256 * 256 + s.l = _
      rw [h.2.2.2]; omega
    obtain ⟨a, b, c, d⟩ := h
    show _ ∧ _ ∧ _ ∧ _ ∧ _ ∧ _
    rw [hr, hres]
    refine ⟨by simp, by show s.l < 256; omega, hlt, by rw [List.dropLast_concat]; exact a, ?_, by rw [List.dropLast_concat]; exact c⟩
    rw [List.length_append, List.length_singleton]
    exact b
  case h_12 =>
    obtain ⟨a, a', b, c, d, e⟩ := h
    have hs := eq_snoc a
    by_cases hq : s.h = s.old / 256 ∧ s.l = s.old % 256
    · rw [if_pos hq]
      have : s.result = s.old := by unfold Adc.result; omega
      refine ⟨by show s.result = s.readings.getLast?.getD 1024; rw [a]; rfl, by show s.readings.length ≤ _; omega, e, fun _ => .inr ?_⟩
      show LastAgree s.readings
      rw [hs]
      exact lastAgree_snoc (by rw [← c]; exact this) b
    · rw [if_neg hq]
      have : s.result ≠ s.old := by unfold Adc.result; omega
      refine ⟨by show s.result = s.readings.getLast?.getD 0xffff; rw [a]; rfl, by show s.result = s.readings.getLast?.getD 1024; rw [a]; rfl, d, ?_⟩
      show NoAgree s.readings
      rw [hs]
      exact noAgree_snoc e (by rw [← c]; exact this)
  case h_15 => split <;> exact h
  case h_16 => unfold AInv3; rw [hpc]; exact h
  all_goals exact h

theorem inv3_congr {samples : Nat} {nl : Prop} {s s' : Adc} (h : AInv3 samples nl s) (e1 : s'.pc = s.pc) (e2 : s'.readings = s.readings) (e3 : s'.old = s.old) (e4 : s'.left = s.left)
    (e5 : s'.l = s.l) (e6 : s'.h = s.h) (e7 : s.pc = .rdH → s'.reg = s.reg) (e8 : s.pc.early = true → s'.seen = s.seen) : AInv3 samples nl s' := by
  have e9 : s'.result = s.result := by unfold Adc.result; rw [e5, e6]
  unfold AInv3 at h ⊢
  rw [e1, e2, e3, e4, e5, e9]
  cases hpc : s.pc <;> rw [hpc] at h e7 e8 <;> simp only at h ⊢ <;> first | exact h | (rw [e7 rfl]; exact h) | (rw [e8 rfl]; exact h)

theorem ev_inv3 {admux : Byte} {samples : Nat} {en0 : Bool} {nl : Prop} {s : Adc} (h1 : AInv1 admux en0 s) (h2 : AInv2 admux s) (h : AInv3 samples nl s) (e : AdcEv)
    (hl : nl → e ≠ .cpu true) : AInv3 samples nl (s.ev admux samples e) := by
  refine ev_cases _ e h (fun b he _ _ => exec_inv3 h2 h b fun hn => ?_) (fun b he _ _ _ => exec_inv3 h2 h b fun hn => ?_) (fun _ _ _ _ => h) ?_ h
  · cases b with
    | false => rfl
    | true => exact absurd he (hl hn)
  · cases b with
    | false => rfl
    | true => exact absurd he (hl hn)
  · intro v _ c hc
    rw [ev_conv hc]
    have he := early_conv h1 hc
    have hr := readings_conv h2 (c, v % 1024) { s with past := s.past ++ [(c, v % 1024)], reg := if s.lock then s.reg else v % 1024, tag := if s.lock then s.tag else s.past.length, adif := true, conv := if s.adate then some s.mux else none } rfl rfl
    refine inv3_congr h rfl hr rfl rfl rfl rfl (fun hp => ?_) fun _ => rfl
    have hlk := h1.lock
    rw [hp] at hlk
    show (if s.lock = true then s.reg else _) = s.reg
    rw [if_pos (by simpa using hlk)]

theorem start_inv {admux : Byte} {samples : Nat} {nl : Prop} {s : Adc} (h : AdcIdle s) : AInv1 admux s.en s ∧ AInv2 admux s ∧ AInv3 samples nl s := by
  obtain ⟨h1, h2, h3, h4, h5, h6, h7⟩ := h
  refine ⟨⟨by simp [h3, h1], fun h => by simp [h5] at h, by rw [h4, h1]; rfl, fun _ => h2, fun h => absurd h1 h, fun c hc => by simp [h2] at hc, by simp [h1], fun h => by simp [h1] at h, fun h => by simp [h1] at h⟩,
    ⟨fun x hx => by simp [h6] at hx, by simp [h7], by rw [h1]; trivial⟩, ?_⟩
  unfold AInv3
  rw [h1]
  exact h7

theorem adcRun_inv {admux : Byte} {samples : Nat} {nl : Prop} {s : Adc} (h : AdcIdle s) (sched : Nat → AdcEv) (hl : nl → ∀ n, sched n ≠ .cpu true) (n : Nat) :
    AInv1 admux s.en (s.run admux samples sched n) ∧ AInv2 admux (s.run admux samples sched n) ∧ AInv3 samples nl (s.run admux samples sched n) := by
  induction n with
  | zero => exact start_inv h
  | succ n ih => exact ⟨ev_inv1 ih.1 _, ev_inv2 ih.1 ih.2.1 _, ev_inv3 ih.1 ih.2.1 ih.2.2 _ fun hn => hl hn n⟩

/-- **C213** What the read returns, whenever it ends. -/
theorem C213_genuine_value (admux : Byte) (samples : Nat) (s0 : Adc) (h : AdcIdle s0) (sched : Nat → AdcEv) (n : Nat) (hd : (s0.run admux samples sched n).pc = .done) :
    let s := s0.run admux samples sched n
    -- each value read is the whole of a conversion of the input asked for, that ended during the call, each later than the one before
    (∀ i ∈ s.seen, ∃ v, s.past[i]? = some (admux, v) ∧ v < 1024) ∧ s.seen.Pairwise (· < ·) ∧
    -- the last of them is returned (1024 if there is none), there are at most as many as asked for, and it stops as soon as two in a row agree, ...
    s.result = s.readings.getLast?.getD 1024 ∧ s.readings.length ≤ samples ∧ (∀ i, i + 2 < s.readings.length → s.readings[i]? ≠ s.readings[i + 1]?) ∧
    -- ... or when there were as many as asked for, or when it got late;
    ((∀ k, sched k ≠ .cpu true) → s.readings.length = samples ∨ ∃ i, i + 2 = s.readings.length ∧ s.readings[i]? = s.readings[i + 1]?) ∧
    -- the converter is left powered as it was found, with its interrupt and auto trigger off.
    s.en = s0.en ∧ s.adie = false ∧ s.adate = false ∧ s.lock = false := by
  obtain ⟨h1, h2, h3⟩ := adcRun_inv (admux := admux) (samples := samples) (nl := ∀ k, sched k ≠ .cpu true) h sched id n
  generalize s0.run admux samples sched n = s at hd h1 h2 h3 ⊢
  dsimp only
  unfold AInv3 at h3
  rw [hd] at h3
  obtain ⟨a, b, c, d⟩ := h3
  refine ⟨fun i hi => ?_, h2.seen.1, a, b, fun i hi => ?_, d, ?_, ?_, h1.adate (.inr hd), ?_⟩
  · have hlt := h2.seen.2 i hi
    have := h2.past _ (List.getElem_mem hlt)
    refine ⟨s.past[i].2, ?_, this.2⟩
    rw [List.getElem?_eq_getElem hlt, ← this.1]
  · have := c i (by rw [List.length_dropLast]; omega)
    rw [List.getElem?_dropLast, List.getElem?_dropLast, if_pos (by omega), if_pos (by omega)] at this
    exact this
  · have := h1.en
    rw [if_pos (.inr hd)] at this
    exact this
  · rw [h1.adie, hd]; rfl
  · rw [h1.lock, hd]; rfl

/-! ### It ends -/

/-- Steps left while waiting for `ADC_complete`. -/
def waitRank (check flag asleep pending delayed conv : Bool) : Nat :=
  if flag then
    if asleep then (if pending then 3 else 4)
    else if check then (if pending && delayed then 2 else 1)
    else (if pending && delayed then 6 else 5)
  else if pending then (if delayed then 7 else 8)
  else if conv then 9 else if asleep then 12 else if check then 11 else 10

def adcRank (samples : Nat) (s : Adc) : Nat :=
  let pd := if s.pending && s.delayed then 1 else 0
  match s.pc with
  | .up => 40 * samples + 80
  | .mux => 40 * samples + 78
  | .adate => 40 * samples + 76
  | .adie => 40 * samples + 74
  | .adsc => 40 * samples + 72 + pd
  | .late => 40 * s.left + 8 + pd
  | .clear => 40 * s.left + 30 + pd
  | .check => 40 * s.left + 16 + waitRank true s.flag s.asleep s.pending s.delayed s.conv.isSome
  | .slp => 40 * s.left + 16 + waitRank false s.flag s.asleep s.pending s.delayed s.conv.isSome
  | .rdL => 40 * s.left + 14 + pd
  | .rdH => 40 * s.left + 12 + pd
  | .cmp => 40 * s.left + 10 + pd
  | .offIE => 6 + pd
  | .offATE => 4 + pd
  | .down => 2 + pd
  | .done => 0

/-- What has to happen next: the end of a conversion, or a turn of the CPU. -/
def needsConv (r : Nat) : Prop := r % 40 = 20 ∨ r % 40 = 25

/-- The interrupt can only be waiting if it is there. -/
def DInv (s : Adc) : Prop := s.delayed = true → s.adif = true

theorem exec_adif (admux : Byte) (samples : Nat) (b : Bool) (s : Adc) : (s.exec admux samples b).adif = s.adif ∧ (s.exec admux samples b).delayed = s.delayed := by
  unfold Adc.exec
  (repeat' split) <;> exact ⟨rfl, rfl⟩

theorem ev_dinv {admux : Byte} {samples : Nat} {s : Adc} (h : DInv s) (e : AdcEv) : DInv (s.ev admux samples e) := by
  refine ev_cases _ e h (fun b _ _ _ => ?_) (fun b _ hp _ _ _ => ?_) (fun _ _ _ _ h => by cases h) (fun v _ c hc => ?_) h
  · unfold DInv
    rw [(exec_adif _ _ _ _).1, (exec_adif _ _ _ _).2]
    exact h
  · show (s.exec admux samples b).adif = true
    rw [(exec_adif _ _ _ _).1]
    unfold Adc.pending at hp
    rw [Bool.and_eq_true] at hp
    exact hp.1
  · rw [ev_conv hc]
    exact fun _ => rfl

theorem rank_exec {admux : Byte} {samples : Nat} {en0 : Bool} {s : Adc} (h : AInv1 admux en0 s) (hd : s.pc ≠ .done) (b d : Bool) (ha : s.asleep = false)
    (hp : (s.pending = false ∧ d = s.delayed) ∨ (s.pending = true ∧ s.delayed = false ∧ d = true)) :
    adcRank samples { s.exec admux samples b with delayed := d } < adcRank samples s ∨
      (adcRank samples { s.exec admux samples b with delayed := d } = adcRank samples s ∧ needsConv (adcRank samples s)) := by
  have h3 := h.adie
  unfold needsConv
  rcases s with ⟨en, mux, conv, reg, tag, lock, adate, adie, adif, flag, asleep, delayed, pc, needed, left, old, l, hh, past, seen⟩
  dsimp only at h3 ha hd
  subst h3 ha
  cases pc <;> simp only [Adc.pending, APc.ie, Bool.and_true, Bool.and_false] at hp <;> simp only [Adc.exec, adcRank, Adc.pending, APc.ie, Bool.and_true, Bool.and_false]
  case done => exact absurd rfl hd
  case late =>
    by_cases hz : left = 0
    · simp only [if_pos hz, Bool.and_true]
      cases adif <;> cases delayed <;> cases d <;> simp at hp ⊢ <;> omega
    · simp only [if_neg hz]
      cases b <;> cases adif <;> cases delayed <;> cases d <;> simp at hp ⊢ <;> omega
  case check => cases flag <;> cases adif <;> cases delayed <;> cases d <;> cases conv <;> simp [waitRank] at hp ⊢ <;> omega
  case slp => cases flag <;> cases adif <;> cases delayed <;> cases d <;> cases conv <;> simp [waitRank] at hp ⊢ <;> omega
  case cmp =>
    by_cases hz : hh = old / 256 ∧ l = old % 256
    · simp only [if_pos hz, Bool.and_true]
      cases adif <;> cases delayed <;> cases d <;> simp at hp ⊢ <;> omega
    · simp only [if_neg hz, Bool.and_true]
      cases adif <;> cases delayed <;> cases d <;> simp at hp ⊢ <;> omega
  case down => cases needed <;> simp
  case clear => cases flag <;> cases adif <;> cases delayed <;> cases d <;> cases conv <;> simp [waitRank] at hp ⊢ <;> omega
  all_goals cases adif <;> cases delayed <;> cases d <;> simp at hp ⊢ <;> omega

theorem rank_isr {samples : Nat} {s : Adc} (hp : s.pending = true) (ha : (s.asleep || s.delayed) = true) {admux : Byte} {en0 : Bool} (h : AInv1 admux en0 s) :
    adcRank samples s.isr < adcRank samples s := by
  have h3 := h.adie
  have hs := h.asleep
  rcases s with ⟨en, mux, conv, reg, tag, lock, adate, adie, adif, flag, asleep, delayed, pc, needed, left, old, l, hh, past, seen⟩
  dsimp only at h3 ha hs
  subst h3
  cases pc <;> simp only [Adc.pending, APc.ie, Bool.and_true, Bool.and_false] at hp <;> simp only [Adc.isr, adcRank, Adc.pending, APc.ie, Bool.and_true, Bool.and_false]
  case check => cases flag <;> cases delayed <;> cases asleep <;> simp_all [waitRank]
  case slp => cases flag <;> cases delayed <;> cases asleep <;> simp_all [waitRank]
  all_goals first | (cases hp; done) | (cases delayed <;> cases asleep <;> simp_all)

theorem rank_wake {admux : Byte} {en0 : Bool} {samples : Nat} {s : Adc} (h : AInv1 admux en0 s) : adcRank samples { s with asleep := false } ≤ adcRank samples s := by
  have hs := h.asleep
  rcases s with ⟨en, mux, conv, reg, tag, lock, adate, adie, adif, flag, asleep, delayed, pc, needed, left, old, l, hh, past, seen⟩
  cases pc <;> simp only [adcRank, Adc.pending] <;> try exact Nat.le_refl _
  · cases flag <;> cases asleep <;> cases adif <;> cases adie <;> cases delayed <;> cases conv <;> simp_all [waitRank]
  · cases flag <;> cases asleep <;> cases adif <;> cases adie <;> cases delayed <;> cases conv <;> simp_all [waitRank]

theorem rank_conv {admux : Byte} {en0 : Bool} {samples : Nat} {s : Adc} (h : AInv1 admux en0 s) (h0 : DInv s) {c : Byte} (hc : s.conv = some c) (v : Nat) :
    adcRank samples (s.ev admux samples (.conv v)) < adcRank samples s ∨
      (adcRank samples (s.ev admux samples (.conv v)) = adcRank samples s ∧ ¬ needsConv (adcRank samples s)) := by
  have h3 := h.adie
  have h4 := h.asleep
  have h5 := h.early
  unfold DInv at h0
  rw [ev_conv hc]
  unfold needsConv
  rcases s with ⟨en, mux, conv, reg, tag, lock, adate, adie, adif, flag, asleep, delayed, pc, needed, left, old, l, hh, past, seen⟩
  dsimp only at h3 h4 hc h5 h0
  subst h3 hc
  cases pc <;> simp only [adcRank, Adc.pending, APc.ie, Bool.and_true, Bool.and_false]
  case check => cases adate <;> cases flag <;> cases asleep <;> cases adif <;> cases delayed <;> simp [waitRank] at h0 ⊢ <;> omega
  case slp =>
    have : asleep = false := by
      cases asleep with
      | false => rfl
      | true => cases (h4 rfl).1
    subst this
    cases adate <;> cases flag <;> cases adif <;> cases delayed <;> simp [waitRank] at h0 ⊢ <;> omega
  all_goals first | (cases h5 rfl; done) | (cases adif <;> cases delayed <;> simp at h0 ⊢ <;> omega)

theorem rank_noconv {admux : Byte} {en0 : Bool} {samples : Nat} {s : Adc} (h : AInv1 admux en0 s) (hc : s.conv = none) : ¬ needsConv (adcRank samples s) := by
  have h3 := h.adie
  have h4 := h.asleep
  unfold needsConv
  rcases s with ⟨en, mux, conv, reg, tag, lock, adate, adie, adif, flag, asleep, delayed, pc, needed, left, old, l, hh, past, seen⟩
  dsimp only at h3 h4 hc
  subst h3 hc
  cases pc <;> simp only [adcRank, Adc.pending, APc.ie, Bool.and_true, Bool.and_false]
  case check => cases flag <;> cases asleep <;> cases adif <;> cases delayed <;> simp [waitRank] at h4 ⊢ <;> omega
  case slp => cases flag <;> cases asleep <;> cases adif <;> cases delayed <;> simp [waitRank] at h4 ⊢ <;> omega
  all_goals cases adif <;> cases delayed <;> simp <;> omega

theorem rank_asleep {admux : Byte} {en0 : Bool} {samples : Nat} {s : Adc} (h : AInv1 admux en0 s) (ha : s.asleep = true) (hp : s.pending = false) : needsConv (adcRank samples s) := by
  have h3 := h.adie
  have h4 := h.asleep ha
  unfold needsConv
  rcases s with ⟨en, mux, conv, reg, tag, lock, adate, adie, adif, flag, asleep, delayed, pc, needed, left, old, l, hh, past, seen⟩
  dsimp only at h3 h4 ha
  obtain ⟨h4, h5⟩ := h4
  subst h3 ha h4
  simp only [adcRank, Adc.pending, APc.ie, Bool.and_true] at hp ⊢
  subst hp
  cases conv with
  | none => simp at h5
  | some c => cases flag <;> simp [waitRank] <;> omega

theorem rank_step {admux : Byte} {samples : Nat} {en0 : Bool} {s : Adc} (h : AInv1 admux en0 s) (h0 : DInv s) (hd : s.pc ≠ .done) (e : AdcEv) :
    adcRank samples (s.ev admux samples e) < adcRank samples s ∨ (adcRank samples (s.ev admux samples e) = adcRank samples s ∧
      ((∃ b, e = .cpu b) → needsConv (adcRank samples s)) ∧ ((∃ v, e = .conv v) → ¬ needsConv (adcRank samples s))) := by
  cases e with
  | wake =>
    rcases Nat.lt_or_ge (adcRank samples { s with asleep := false }) (adcRank samples s) with hr | hr
    · exact .inl hr
    · exact .inr ⟨Nat.le_antisymm (rank_wake h) hr, fun ⟨b, h⟩ => (by cases h), fun ⟨b, h⟩ => (by cases h)⟩
  | conv v =>
    cases hc : s.conv with
    | none =>
      have he : s.ev admux samples (.conv v) = s := by unfold Adc.ev; rw [hc]
      exact .inr ⟨by rw [he], fun ⟨b, h⟩ => (by cases h), fun _ => rank_noconv h hc⟩
    | some c =>
      rcases rank_conv (samples := samples) h h0 hc v with hr | hr
      · exact .inl hr
      · exact .inr ⟨hr.1, fun ⟨b, h⟩ => (by cases h), fun _ => hr.2⟩
  | cpu b =>
    have fin : ∀ {s' : Adc}, adcRank samples s' < adcRank samples s ∨ (adcRank samples s' = adcRank samples s ∧ needsConv (adcRank samples s)) →
        adcRank samples s' < adcRank samples s ∨ (adcRank samples s' = adcRank samples s ∧
      ((∃ b', AdcEv.cpu b = .cpu b') → needsConv (adcRank samples s)) ∧ ((∃ v, AdcEv.cpu b = .conv v) → ¬ needsConv (adcRank samples s))) := by
      intro s' hr
      rcases hr with hr | hr
      · exact .inl hr
      · exact .inr ⟨hr.1, fun _ => hr.2, fun ⟨v, h⟩ => (by cases h)⟩
    refine fin ?_
    unfold Adc.ev
    dsimp only
    by_cases hp : s.pending = true
    · rw [if_pos hp]
      by_cases ha : (s.asleep || s.delayed) = true
      · rw [if_pos ha]; exact .inl (rank_isr hp ha h)
      · rw [if_neg ha]
        rw [Bool.or_eq_true, not_or, Bool.not_eq_true, Bool.not_eq_true] at ha
        exact rank_exec h hd b true ha.1 (.inr ⟨hp, ha.2, rfl⟩)
    · rw [if_neg hp]
      by_cases ha : s.asleep = true
      · rw [if_pos ha]; exact .inr ⟨rfl, rank_asleep h ha (by simpa using hp)⟩
      · rw [if_neg ha]
        have := rank_exec (samples := samples) h hd b s.delayed (by simpa using ha) (.inl ⟨by simpa using hp, rfl⟩)
        rw [← (exec_adif admux samples b s).2] at this
        exact this

theorem adcRun_add (admux : Byte) (samples : Nat) (sched : Nat → AdcEv) (s : Adc) (n m : Nat) :
    s.run admux samples sched (n + m) = (s.run admux samples sched n).run admux samples (fun i => sched (n + i)) m := by
  induction m with
  | zero => rfl
  | succ m ih => rw [show n + (m + 1) = n + m + 1 by omega]; unfold Adc.run; rw [ih]

theorem adcFair_shift {sched : Nat → AdcEv} (h : AdcFair sched) (k : Nat) : AdcFair fun i => sched (k + i) := by
  intro n
  obtain ⟨⟨m, b, h1, h2⟩, m', v, h3, h4⟩ := h (k + n)
  exact ⟨⟨m - k, b, by omega, by show sched (k + (m - k)) = _; rw [show k + (m - k) = m by omega]; exact h2⟩,
    ⟨m' - k, v, by omega, by show sched (k + (m' - k)) = _; rw [show k + (m' - k) = m' by omega]; exact h4⟩⟩

theorem adc_ends {admux : Byte} {samples : Nat} {en0 : Bool} : ∀ (r : Nat) (s : Adc) (sched : Nat → AdcEv), adcRank samples s ≤ r → AInv1 admux en0 s → DInv s → AdcFair sched →
    ∃ n, (s.run admux samples sched n).pc = .done := by
  intro r
  induction r with
  | zero =>
    intro s sched hr h h0 hf
    by_cases hd : s.pc = .done
    · exact ⟨0, hd⟩
    · obtain ⟨⟨m, b, h1, h2⟩, _⟩ := hf 0
      have hn : ¬ needsConv (adcRank samples s) := by unfold needsConv; omega
      rcases rank_step (samples := samples) h h0 hd (.cpu b) with hlt | hlt
      · omega
      · exact absurd (hlt.2.1 ⟨b, rfl⟩) hn
  | succ r ih =>
    intro s sched hr h h0 hf
    -- the event waited for comes
    have hev : ∃ m, (needsConv (adcRank samples s) ∧ ∃ v, sched m = .conv v) ∨ (¬ needsConv (adcRank samples s) ∧ ∃ b, sched m = .cpu b) := by
      obtain ⟨⟨m, b, _, h2⟩, m', v, _, h4⟩ := hf 0
      by_cases hn : needsConv (adcRank samples s)
      · exact ⟨m', .inl ⟨hn, v, h4⟩⟩
      · exact ⟨m, .inr ⟨hn, b, h2⟩⟩
    obtain ⟨m, hm⟩ := hev
    -- meanwhile the rank stays, or falls
    have key : ∀ k, k ≤ m → (∃ n, (s.run admux samples sched n).pc = .done) ∨ (AInv1 admux en0 (s.run admux samples sched k) ∧ DInv (s.run admux samples sched k) ∧
        adcRank samples (s.run admux samples sched k) = adcRank samples s) := by
      intro k
      induction k with
      | zero => exact fun _ => .inr ⟨h, h0, rfl⟩
      | succ k ihk =>
        intro hk
        rcases ihk (by omega) with hdone | ⟨i1, i2, i3⟩
        · exact .inl hdone
        by_cases hd : (s.run admux samples sched k).pc = .done
        · exact .inl ⟨k, hd⟩
        have n1 : AInv1 admux en0 (s.run admux samples sched (k + 1)) := ev_inv1 i1 _
        have n2 : DInv (s.run admux samples sched (k + 1)) := ev_dinv i2 _
        rcases rank_step (samples := samples) i1 i2 hd (sched k) with hlt | hlt
        · obtain ⟨n, hn⟩ := ih (s.run admux samples sched (k + 1)) (fun i => sched (k + 1 + i)) (by unfold Adc.run; omega) n1 n2 (adcFair_shift hf _)
          exact .inl ⟨k + 1 + n, by rw [adcRun_add]; exact hn⟩
        · exact .inr ⟨n1, n2, hlt.1.trans i3⟩
    rcases key m (Nat.le_refl _) with hdone | ⟨i1, i2, i3⟩
    · exact hdone
    by_cases hd : (s.run admux samples sched m).pc = .done
    · exact ⟨m, hd⟩
    rcases rank_step (samples := samples) i1 i2 hd (sched m) with hlt | hlt
    · obtain ⟨n, hn⟩ := ih (s.run admux samples sched (m + 1)) (fun i => sched (m + 1 + i)) (by unfold Adc.run; omega) (ev_inv1 i1 _) (ev_dinv i2 _) (adcFair_shift hf _)
      exact ⟨m + 1 + n, by rw [adcRun_add]; exact hn⟩
    · rw [i3] at hlt
      rcases hm with ⟨a, b⟩ | ⟨a, b⟩
      · exact absurd a (hlt.2.2 b)
      · exact absurd (hlt.2.1 b) a

/-- **C212** A read of the ADC always ends: however the end of conversions, their interrupt, other interrupts and the program interleave, also if a conversion ends between the test of `ADC_complete` and going to
sleep, and if an old conversion's flag is still set, as long as the CPU keeps running and conversions take finite time. -/
theorem C212_read_ends (admux : Byte) (samples : Nat) (s0 : Adc) (h : AdcIdle s0) (sched : Nat → AdcEv) (hf : AdcFair sched) : ∃ n, (s0.run admux samples sched n).pc = .done :=
  adc_ends _ s0 sched (Nat.le_refl _) (start_inv (samples := samples) (nl := True) h).1 (fun hd => by rw [h.awake.2] at hd; cases hd) hf

/-- The next call, from what the last one left behind. -/
def _root_.OTR.Adc.nextCall (s : Adc) : Adc := { s with pc := .up, delayed := false, past := [], seen := [] }

/-- **C214** A read that had to power the converter leaves it so that the next read finds it idle, as C212 and C213 ask. -/
theorem C214_next_read (admux : Byte) (samples : Nat) (s0 : Adc) (h : AdcIdle s0) (hoff : s0.en = false) (sched : Nat → AdcEv) (n : Nat)
    (hd : (s0.run admux samples sched n).pc = .done) : AdcIdle (s0.run admux samples sched n).nextCall := by
  obtain ⟨h1, _, _⟩ := adcRun_inv (admux := admux) (samples := samples) (nl := False) h sched (fun h => h.elim) n
  refine ⟨rfl, h1.off hd hoff, ?_, ?_, ⟨?_, rfl⟩, rfl, rfl⟩
  · show (s0.run admux samples sched n).lock = false
    rw [h1.lock, hd]; rfl
  · show (s0.run admux samples sched n).adie = false
    rw [h1.adie, hd]; rfl
  · show (s0.run admux samples sched n).asleep = false
    cases ha : (s0.run admux samples sched n).asleep with
    | false => rfl
    | true => have := (h1.asleep ha).1; rw [hd] at this; cases this

/-! ## Non-vacuity, and what goes wrong if the converter was already on -/

def adcOff : Adc := ⟨false, 3, none, 77, 0, false, false, false, true, true, false, false, .up, false, 0, 0, 0, 0, [], []⟩
example : AdcIdle adcOff := ⟨rfl, rfl, rfl, rfl, ⟨rfl, rfl⟩, rfl, rfl⟩

/-- The CPU and the converter take turns; another interrupt now and then. -/
def adcTurns (n : Nat) : AdcEv := match n % 8 with | 6 => .conv (500 + n / 40) | 7 => .wake | _ => .cpu false
theorem adcTurns_fair : AdcFair adcTurns := fun n =>
  ⟨⟨8 * n, false, by omega, by unfold adcTurns; rw [show 8 * n % 8 = 0 by omega]; rfl⟩, ⟨8 * n + 6, _, by omega, by unfold adcTurns; rw [show (8 * n + 6) % 8 = 6 by omega]; rfl⟩⟩
/-- Three readings asked for: 500, then 500 again: it stops. -/
example : (adcOff.run 0x43 3 adcTurns 60).pc = .done ∧ (adcOff.run 0x43 3 adcTurns 60).readings = [500, 500] ∧ (adcOff.run 0x43 3 adcTurns 60).result = 500 := by decide +kernel

/-- **C214** Refuted if the application keeps the converter powered: a read of several samples can leave a conversion of its own input running, and a following read of one sample then returns that input's value. -/
theorem C214_stays_on_refuted : ∃ (s0 : Adc) (n m : Nat) (sched sched' : Nat → AdcEv), AdcIdle s0 ∧ s0.en = true ∧ (s0.run 0x41 2 sched n).pc = .done ∧
    ((s0.run 0x41 2 sched n).nextCall.run 0xc8 1 sched' m).pc = .done ∧ ((s0.run 0x41 2 sched n).nextCall.run 0xc8 1 sched' m).past = [(0x41, 777)] ∧
    ((s0.run 0x41 2 sched n).nextCall.run 0xc8 1 sched' m).result = 777 := by
  refine ⟨{ adcOff with en := true }, 60, 30, fun n => if n % 10 = 9 ∧ n < 22 then .conv 500 else .cpu false, fun n => if n = 9 then .conv 777 else .cpu false, ⟨rfl, rfl, rfl, rfl, ⟨rfl, rfl⟩, rfl, rfl⟩, rfl, ?_, ?_, ?_, ?_⟩ <;> decide +kernel

end OTR.Props
