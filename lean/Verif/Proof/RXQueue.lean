import Verif.Spec.Queue
/-! # RX queue: helper lemmas -/

namespace OTR

def fsz : List Bytes → Nat
  | [] => 0
  | f :: fs => 1 + f.length + fsz fs

theorem fsz_append (a b : List Bytes) : fsz (a ++ b) = fsz a + fsz b := by
  induction a with
  | nil => simp [fsz]
  | cons f a ih => simp only [List.cons_append, fsz, ih]; omega

/-- Frames `fs` laid out contiguously from index `lo`. -/
def Laid (lui mf : Nat) (b : Nat → Byte) : Nat → List Bytes → Prop
  | _, [] => True
  | lo, f :: fs => lo ≤ lui ∧ 1 ≤ f.length ∧ f.length ≤ mf ∧ (b lo).toNat = f.length ∧
      (∀ j, j < f.length → b (lo + 1 + j) = f.getD j 0) ∧ Laid lui mf b (lo + 1 + f.length) fs

theorem Laid_congr {lui mf : Nat} {b b' : Nat → Byte} {lo : Nat} {fs : List Bytes}
    (h : Laid lui mf b lo fs) (he : ∀ j, lo ≤ j → j < lo + fsz fs → b' j = b j) : Laid lui mf b' lo fs := by
  induction fs generalizing lo with
  | nil => trivial
  | cons f fs ih =>
    obtain ⟨h1, h2, h3, h4, h5, h6⟩ := h
    simp only [fsz] at he
    refine ⟨h1, h2, h3, ?_, ?_, ?_⟩
    · rw [he lo (by omega) (by omega)]; exact h4
    · intro j hj; rw [he _ (by omega) (by omega)]; exact h5 j hj
    · exact ih h6 (fun j h1 h2 => he j (by omega) (by omega))

theorem Laid_append {lui mf : Nat} {b : Nat → Byte} {lo : Nat} {A B : List Bytes} :
    Laid lui mf b lo (A ++ B) ↔ Laid lui mf b lo A ∧ Laid lui mf b (lo + fsz A) B := by
  induction A generalizing lo with
  | nil => simp [Laid, fsz]
  | cons f A ih =>
    simp only [List.cons_append, Laid, fsz, ih]
    have : lo + 1 + f.length + fsz A = lo + (1 + f.length + fsz A) := by omega
    rw [this]; constructor
    · rintro ⟨a, b, c, d, e, f, g⟩; exact ⟨⟨a, b, c, d, e, f⟩, g⟩
    · rintro ⟨⟨a, b, c, d, e, f⟩, g⟩; exact ⟨a, b, c, d, e, f, g⟩

theorem Laid_end {lui mf : Nat} {b : Nat → Byte} {lo : Nat} {A : List Bytes} (h : Laid lui mf b lo A) (hne : A ≠ []) :
    lo + fsz A ≤ lui + 1 + mf := by
  induction A generalizing lo with
  | nil => exact absurd rfl hne
  | cons f A ih =>
    obtain ⟨h1, h2, h3, h4, h5, h6⟩ := h
    cases A with
    | nil => simp only [fsz]; omega
    | cons g A => have := ih h6 (by simp); simp only [fsz] at *; omega

theorem Laid_len {lui mf : Nat} {b : Nat → Byte} {lo : Nat} {A : List Bytes} (h : Laid lui mf b lo A) :
    2 * A.length ≤ fsz A := by
  induction A generalizing lo with
  | nil => simp [fsz]
  | cons f A ih =>
    obtain ⟨h1, h2, h3, h4, h5, h6⟩ := h
    have := ih h6
    simp only [fsz, List.length_cons]; omega

/-- The representation invariant: the buffer holds exactly `fs`, oldest first. -/
structure QInv (q : VQ) (fs : List Bytes) : Prop where
  cfg : 1 ≤ q.mf ∧ q.mf + 1 ≤ q.siz ∧ q.siz ≤ 256
  cnt : q.count = fs.length
  lay : (q.next = q.oldest + fsz fs ∧ q.next ≤ q.siz - 1 - q.mf ∧ Laid (q.siz - 1 - q.mf) q.mf q.b q.oldest fs) ∨
    (∃ A B, fs = A ++ B ∧ A ≠ [] ∧ q.siz - 1 - q.mf < q.oldest + fsz A ∧
      Laid (q.siz - 1 - q.mf) q.mf q.b q.oldest A ∧ Laid (q.siz - 1 - q.mf) q.mf q.b 0 B ∧
      q.next = fsz B ∧ q.next ≤ q.oldest ∧ q.oldest ≤ q.siz - 1 - q.mf)

theorem VQ.lui_eq (q : VQ) (h : 1 ≤ q.mf ∧ q.mf + 1 ≤ q.siz ∧ q.siz ≤ 256) : q.lui = q.siz - 1 - q.mf := by
  unfold VQ.lui; omega

theorem QInv.new (maxRX cap : Nat) (junk : Nat → Byte) (h1 : 1 ≤ maxRX ∧ maxRX ≤ 255) (h2 : 1 ≤ cap) :
    QInv (VQ.new maxRX cap junk) [] := by
  have hm : maxRX * 2 ≤ maxRX * (1 + cap) := Nat.mul_le_mul_left _ (by omega)
  refine ⟨?_, rfl, Or.inl ⟨rfl, ?_, trivial⟩⟩
  · simp only [VQ.new, qBufSiz]; omega
  · simp [VQ.new]

theorem QInv.len {q : VQ} {fs : List Bytes} (h : QInv q fs) : fs.length ≤ 128 := by
  obtain ⟨hc, _, hl | ⟨A, B, rfl, hne, h1, h2, h3, h4, h5, h6⟩⟩ := h
  · have := Laid_len hl.2.2; omega
  · have e1 := Laid_len h2
    have e2 := Laid_len h3
    have e3 := Laid_end h2 hne
    simp only [List.length_append]; omega

theorem QInv.empty {q : VQ} {fs : List Bytes} (h : QInv q fs) : q.isEmpty = true ↔ fs = [] := by
  unfold VQ.isEmpty
  rw [h.cnt]
  simp

/-- What the area offered looks like. -/
theorem QInv.offer {q : VQ} {fs : List Bytes} (h : QInv q fs) (hf : q.isFull = false) :
    q.next ≤ q.siz - 1 - q.mf ∧
    ((q.next = q.oldest + fsz fs ∧ Laid (q.siz - 1 - q.mf) q.mf q.b q.oldest fs) ∨
     (∃ A B, fs = A ++ B ∧ A ≠ [] ∧ q.siz - 1 - q.mf < q.oldest + fsz A ∧
      Laid (q.siz - 1 - q.mf) q.mf q.b q.oldest A ∧ Laid (q.siz - 1 - q.mf) q.mf q.b 0 B ∧
      q.next = fsz B ∧ q.next + q.mf + 1 ≤ q.oldest ∧ q.oldest ≤ q.siz - 1 - q.mf)) := by
  have he := h.empty
  obtain ⟨hc, _, hl | ⟨A, B, e, hne, h1, h2, h3, h4, h5, h6⟩⟩ := h
  · exact ⟨hl.2.1, Or.inl ⟨hl.1, hl.2.2⟩⟩
  · refine ⟨by omega, Or.inr ⟨A, B, e, hne, h1, h2, h3, h4, ?_, h6⟩⟩
    unfold VQ.isFull at hf
    rw [if_neg (by omega)] at hf
    split at hf
    · have : q.isEmpty = true := by simpa using hf
      have := he.1 this
      rw [this] at e
      have : A = [] := by
        cases A with
        | nil => rfl
        | cons => simp at e
      exact absurd this hne
    · simp at hf; omega

theorem QInv.not_full_of_empty {q : VQ} (h : QInv q []) : q.isFull = false := by
  have he := h.empty.2 rfl
  obtain ⟨hc, _, hl | ⟨A, B, e, hne, _⟩⟩ := h
  · unfold VQ.isFull
    have : q.next = q.oldest := by have := hl.1; simp [fsz] at this; exact this
    rw [if_neg (by omega), if_pos this, he]; rfl
  · have : A = [] := by
      cases A with
      | nil => rfl
      | cons => simp at e
    exact absurd this hne

theorem QInv.isr {q : VQ} {fs : List Bytes} (h : QInv q fs) (data : Bytes) (len : Nat)
    (hd : data.length ≤ q.mf) (hlen : len ≤ data.length) :
    ∃ q' out, q.step (.isr data len) = some (q', .offered out) ∧ q'.mf = q.mf ∧
      (out = true → QInv q' (if len = 0 then fs else fs ++ [data.take len])) ∧
      (out = false → fs ≠ [] ∧ q' = q) ∧ (out = !q.isFull) := by
  cases hf : q.isFull with
  | true =>
    refine ⟨q, false, ?_, rfl, by simp, fun _ => ⟨?_, rfl⟩, by simp⟩
    · simp [VQ.step, hf]
    · rintro rfl
      rw [h.not_full_of_empty] at hf; cases hf
  | false =>
    obtain ⟨hn, hlay⟩ := h.offer hf
    have hcfg := h.cfg
    have hcnt := h.cnt
    have hl := VQ.lui_eq q hcfg
    have hfl := h.len
    -- contents after storing the data
    have hst : q.store (q.next + 1) data = some { q with b := fun j => if q.next + 1 ≤ j ∧ j < q.next + 1 + data.length then data.getD (j - (q.next + 1)) 0 else q.b j } := by
      unfold VQ.store; rw [if_pos (by omega)]
    by_cases h0 : len = 0
    · subst h0
      have hstep : q.step (.isr data 0) = some ({ q with b := fun j => if q.next + 1 ≤ j ∧ j < q.next + 1 + data.length then data.getD (j - (q.next + 1)) 0 else q.b j }, .offered true) := by
        simp only [VQ.step, hf, Bool.false_eq_true, if_false, hst, VQ.loadedBuf, if_true]
      refine ⟨_, true, hstep, rfl, fun _ => ?_, by simp, by simp⟩
      · rw [if_pos rfl]
        refine ⟨hcfg, hcnt, ?_⟩
        rcases hlay with ⟨e1, e2⟩ | ⟨A, B, e, hne, h1, h2, h3, h4, h5, h6⟩
        · refine Or.inl ⟨e1, hn, Laid_congr e2 (fun j j1 j2 => ?_)⟩
          dsimp only at j1 j2
          exact if_neg (by omega)
        · refine Or.inr ⟨A, B, e, hne, h1, Laid_congr h2 (fun j j1 j2 => ?_), Laid_congr h3 (fun j j1 j2 => ?_), h4, by simp only; omega, h6⟩
          · dsimp only at j1 j2
            exact if_neg (by omega)
          · exact if_neg (by omega)
    · have hlt : (data.take len).length = len := by rw [List.length_take]; omega
      generalize hb2 : (fun j => if q.next ≤ j ∧ j < q.next + [u8 len].length then [u8 len].getD (j - q.next) 0
            else if q.next + 1 ≤ j ∧ j < q.next + 1 + data.length then data.getD (j - (q.next + 1)) 0 else q.b j) = b2
      have hstep : q.step (.isr data len) =
          some ({ q with b := b2, next := q.newIndex q.next len, count := (q.count + 1) % 256 }, .offered true) := by
        have hs2 : ∀ q' : VQ, q'.siz = q.siz → q'.store q.next [u8 len] = some { q' with b := fun j => if q.next ≤ j ∧ j < q.next + [u8 len].length then [u8 len].getD (j - q.next) 0 else q'.b j } := by
          intro q' e; unfold VQ.store
          rw [if_pos (by simp only [List.length_singleton]; omega)]
        simp only [VQ.step, hf, Bool.false_eq_true, if_false, hst, VQ.loadedBuf, if_neg h0]
        rw [hs2]
        · simp only [Option.map_some, VQ.newIndex, VQ.lui, hb2]; rfl
        · rfl
      -- where things are now
      have hb_old : ∀ j, (j < q.next ∨ q.next + 1 + data.length ≤ j) → b2 j = q.b j := by
        intro j hj
        rw [← hb2]
        show (if _ then _ else if _ then _ else _) = _
        rw [if_neg (by simp only [List.length_singleton]; omega), if_neg (by omega)]
      have hb_len : (b2 q.next).toNat = len := by
        rw [← hb2]
        show (if _ then _ else _ : Byte).toNat = _
        rw [if_pos (by simp)]
        simp only [Nat.sub_self, List.getD_cons_zero, u8_toNat]
        omega
      have hb_new : ∀ j, j < len → b2 (q.next + 1 + j) = (data.take len).getD j 0 := by
        intro j hj
        rw [← hb2]
        show (if _ then _ else if _ then _ else _) = _
        rw [if_neg (by simp only [List.length_singleton]; omega), if_pos (by omega)]
        have : q.next + 1 + j - (q.next + 1) = j := by omega
        rw [this]
        simp [List.getD_eq_getElem?_getD, hj]
      have hframe : Laid (q.siz - 1 - q.mf) q.mf b2 q.next [data.take len] := by
        refine ⟨hn, by omega, by omega, by rw [hb_len, hlt], ?_, trivial⟩
        intro j hj; exact hb_new j (by omega)
      refine ⟨_, true, hstep, rfl, fun _ => ?_, by simp, by simp⟩
      rw [if_neg h0]
      refine ⟨hcfg, ?_, ?_⟩
      · simp only [List.length_append, List.length_singleton]; omega
      · show (_ ∧ _ ∧ _) ∨ _
        rcases hlay with ⟨e1, e2⟩ | ⟨A, B, e, hne, h1, h2, h3, h4, h5, h6⟩
        · have hA : Laid (q.siz - 1 - q.mf) q.mf b2 q.oldest (fs ++ [data.take len]) := by
            rw [Laid_append]
            exact ⟨Laid_congr e2 (fun j j1 j2 => hb_old j (by omega)), by rw [← e1]; exact hframe⟩
          have hsz : fsz (fs ++ [data.take len]) = fsz fs + (1 + len) := by
            rw [fsz_append]; simp [fsz, hlt]
          by_cases hw : 1 + q.next + len > q.lui
          · refine Or.inr ⟨fs ++ [data.take len], [], by simp, by simp, ?_, hA, trivial, ?_, ?_, ?_⟩
            · simp only; omega
            · simp only [VQ.newIndex, if_pos hw, fsz]
            · simp only [VQ.newIndex, if_pos hw]; omega
            · simp only; omega
          · refine Or.inl ⟨?_, ?_, hA⟩
            · simp only [VQ.newIndex, if_neg hw]; omega
            · simp only [VQ.newIndex, if_neg hw]; omega
        · have hw : ¬ (1 + q.next + len > q.lui) := by omega
          have hsz : fsz (B ++ [data.take len]) = fsz B + (1 + len) := by
            rw [fsz_append]; simp [fsz, hlt]
          refine Or.inr ⟨A, B ++ [data.take len], by rw [e, List.append_assoc], hne, h1,
            Laid_congr h2 (fun j j1 j2 => hb_old j (by dsimp only at j1; omega)), ?_, ?_, ?_, h6⟩
          · rw [Laid_append]
            exact ⟨Laid_congr h3 (fun j j1 j2 => hb_old j (by omega)), by rw [Nat.zero_add, ← h4]; exact hframe⟩
          · simp only [VQ.newIndex, if_neg hw]; omega
          · simp only [VQ.newIndex, if_neg hw]; omega

theorem QInv.first {q : VQ} {f : Bytes} {fs : List Bytes} (h : QInv q (f :: fs)) :
    q.oldest ≤ q.siz - 1 - q.mf ∧ 1 ≤ f.length ∧ f.length ≤ q.mf ∧ (q.b q.oldest).toNat = f.length ∧
      (∀ j, j < f.length → q.b (q.oldest + 1 + j) = f.getD j 0) := by
  obtain ⟨hc, _, hl | ⟨A, B, e, hne, h1, h2, h3, h4, h5, h6⟩⟩ := h
  · obtain ⟨a, b, c, d, e, _⟩ := hl.2.2; exact ⟨a, b, c, d, e⟩
  · cases A with
    | nil => exact absurd rfl hne
    | cons g A =>
      simp only [List.cons_append, List.cons.injEq] at e
      obtain ⟨rfl, _⟩ := e
      obtain ⟨a, b, c, d, e, _⟩ := h2; exact ⟨a, b, c, d, e⟩

theorem QInv.peek {q : VQ} {fs : List Bytes} (h : QInv q fs) : q.step .peek = some (q, .frame fs.head?) := by
  cases fs with
  | nil => simp [VQ.step, h.empty.2 rfl]
  | cons f fs =>
    have hne : q.isEmpty = false := by
      cases e : q.isEmpty
      · rfl
      · have := h.empty.1 e; cases this
    obtain ⟨h1, h2, h3, h4, h5⟩ := h.first
    have hcfg := h.cfg
    have hf : q.frameAt q.oldest = some f := by
      unfold VQ.frameAt
      rw [if_pos (by omega), h4]
      congr 1
      apply List.ext_getElem
      · simp
      · intro j j1 j2
        simp only [List.getElem_map, List.getElem_range]
        rw [h5 j j2]
        simp [List.getD_eq_getElem?_getD, j2]
    simp [VQ.step, hne, hf]

theorem QInv.remove {q : VQ} {fs : List Bytes} (h : QInv q fs) :
    ∃ q', q.step .remove = some (q', .done) ∧ QInv q' fs.tail ∧ q'.mf = q.mf ∧ (fs ≠ [] → q.removeBlock = some q') := by
  cases fs with
  | nil => exact ⟨q, by simp [VQ.step, h.empty.2 rfl], h, rfl, by simp⟩
  | cons f fs =>
    have hne : q.isEmpty = false := by
      cases e : q.isEmpty
      · rfl
      · have := h.empty.1 e; cases this
    obtain ⟨h1, h2, h3, h4, h5⟩ := h.first
    have hcfg := h.cfg
    have hl := VQ.lui_eq q hcfg
    have hlen := h.len
    have hcnt := h.cnt
    simp only [List.length_cons] at hlen hcnt
    have hrb : q.removeBlock = some { q with oldest := q.newIndex q.oldest f.length, count := (q.count + 255) % 256 } := by
      unfold VQ.removeBlock; rw [if_pos (by omega), h4]
    have hstep : q.step .remove = some ({ q with oldest := q.newIndex q.oldest f.length, count := (q.count + 255) % 256 }, .done) := by
      simp only [VQ.step, hne, Bool.false_eq_true, if_false, hrb]
    refine ⟨_, hstep, ?_, rfl, fun _ => hrb⟩
    refine ⟨hcfg, ?_, ?_⟩
    · simp only [List.tail_cons]; omega
    · simp only [List.tail_cons]
      obtain ⟨_, _, hl2 | ⟨A, B, e, hneA, w1, w2, w3, w4, w5, w6⟩⟩ := h
      · obtain ⟨e1, e2, e3⟩ := hl2
        simp only [fsz] at e1
        have hw : ¬ (1 + q.oldest + f.length > q.lui) := by omega
        refine Or.inl ⟨?_, e2, ?_⟩
        · simp only [VQ.newIndex, if_neg hw]; omega
        · have := e3.2.2.2.2.2
          simp only [VQ.newIndex, if_neg hw]
          have hh : 1 + q.oldest + f.length = q.oldest + 1 + f.length := by omega
          rw [hh]; exact this
      · cases A with
        | nil => exact absurd rfl hneA
        | cons g A =>
          simp only [List.cons_append, List.cons.injEq] at e
          obtain ⟨rfl, rfl⟩ := e
          have h6 := w2.2.2.2.2.2
          cases A with
          | nil =>
            simp only [fsz] at w1
            have hw : 1 + q.oldest + f.length > q.lui := by omega
            refine Or.inl ⟨?_, by omega, ?_⟩
            · simp only [VQ.newIndex, if_pos hw, List.nil_append]; omega
            · simp only [VQ.newIndex, if_pos hw, List.nil_append]; exact w3
          | cons g A =>
            have hle := h6.1
            have hw : ¬ (1 + q.oldest + f.length > q.lui) := by omega
            have hh : 1 + q.oldest + f.length = q.oldest + 1 + f.length := by omega
            refine Or.inr ⟨g :: A, B, rfl, by simp, ?_, ?_, w3, w4, ?_, ?_⟩
            · simp only [VQ.newIndex, if_neg hw]; simp only [fsz] at w1 ⊢; omega
            · simp only [VQ.newIndex, if_neg hw]; rw [hh]; exact h6
            · simp only [VQ.newIndex, if_neg hw]; omega
            · simp only [VQ.newIndex, if_neg hw]; omega

theorem VQ_run {q : VQ} {fs : List Bytes} (h : QInv q fs) (ops : List QOp) (hl : ∀ op ∈ ops, op.legal q.mf) :
    ∃ q' tr fs', q.run ops = some (q', tr) ∧ FifoTrace fs tr ∧ QInv q' fs' ∧ q'.mf = q.mf := by
  induction ops generalizing q fs with
  | nil => exact ⟨q, [], fs, rfl, trivial, h, rfl⟩
  | cons op ops ih =>
    have hop := hl op (by simp)
    have hrest : ∀ op ∈ ops, op.legal q.mf := fun o ho => hl o (by simp [ho])
    cases op with
    | isr data len =>
      obtain ⟨q1, out, e1, m1, i1, i2, _⟩ := h.isr data len hop.1 hop.2
      cases out with
      | true =>
        obtain ⟨q2, tr, fs2, e2, t2, i3, m2⟩ := ih (i1 rfl) (by rw [m1]; exact hrest)
        exact ⟨q2, (.isr data len, .offered true) :: tr, fs2, by simp only [VQ.run, e1, e2],
          by simpa [FifoTrace] using t2, i3, by rw [m2, m1]⟩
      | false =>
        obtain ⟨hne, rfl⟩ := i2 rfl
        obtain ⟨q2, tr, fs2, e2, t2, i3, m2⟩ := ih h hrest
        exact ⟨q2, (.isr data len, .offered false) :: tr, fs2, by simp only [VQ.run, e1, e2], ⟨hne, t2⟩, i3, m2⟩
    | peek =>
      obtain ⟨q2, tr, fs2, e2, t2, i3, m2⟩ := ih h hrest
      exact ⟨q2, (.peek, .frame fs.head?) :: tr, fs2, by simp only [VQ.run, h.peek, e2], ⟨rfl, t2⟩, i3, m2⟩
    | remove =>
      obtain ⟨q1, e1, i1, m1, _⟩ := h.remove
      obtain ⟨q2, tr, fs2, e2, t2, i3, m2⟩ := ih i1 (by rw [m1]; exact hrest)
      exact ⟨q2, (.remove, .done) :: tr, fs2, by simp only [VQ.run, e1, e2], t2, i3, by rw [m2, m1]⟩
    | count =>
      obtain ⟨q2, tr, fs2, e2, t2, i3, m2⟩ := ih h hrest
      exact ⟨q2, (.count, .num q.count) :: tr, fs2, by simp only [VQ.run, VQ.step, e2], ⟨h.cnt, t2⟩, i3, m2⟩
    | isFull =>
      obtain ⟨q2, tr, fs2, e2, t2, i3, m2⟩ := ih h hrest
      refine ⟨q2, (.isFull, .full q.isFull) :: tr, fs2, by simp only [VQ.run, VQ.step, e2], ⟨?_, t2⟩, i3, m2⟩
      rintro hf rfl
      rw [h.not_full_of_empty] at hf; cases hf

end OTR
