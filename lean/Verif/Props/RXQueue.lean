import Verif.Proof.RXQueue
/-!
# Properties C37-C39: the interrupt-to-main-loop RX queues
-/

namespace OTR.Props
open OTR

/-! ## C37 -/

/-- **C37.** Any sequence of whole operations on a freshly made variable-length queue (any maximum frame size and any
target capacity the template accepts, any junk in its memory) runs without touching memory outside the buffer, and
what is observed is what a first-in first-out list of exact frames allows (`FifoTrace`). -/
theorem C37_fifo (maxRX cap : Nat) (junk : Nat → Byte) (h1 : 1 ≤ maxRX ∧ maxRX ≤ 255) (h2 : 1 ≤ cap)
    (ops : List QOp) (hl : ∀ op ∈ ops, op.legal maxRX) :
    ∃ q tr, (VQ.new maxRX cap junk).run ops = some (q, tr) ∧ FifoTrace [] tr := by
  obtain ⟨q, tr, _, h, t, _⟩ := VQ_run (QInv.new maxRX cap junk h1 h2) ops hl
  exact ⟨q, tr, h, t⟩

/-- The observations are those of the operations requested, in order. -/
theorem C37_trace_ops (q q' : VQ) (ops : List QOp) (tr : List (QOp × QOut)) (h : q.run ops = some (q', tr)) :
    tr.map Prod.fst = ops := by
  induction ops generalizing q tr with
  | nil => simp [VQ.run] at h; simp [← h.2]
  | cons op ops ih =>
    simp only [VQ.run] at h
    split at h
    · cases h
    · split at h
      · cases h
      · rename_i hr
        simp only [Option.some.injEq, Prod.mk.injEq] at h
        obtain ⟨rfl, rfl⟩ := h
        simp [ih _ _ hr]

/-- **C37, interrupted remove.** `removeRXMsg()` tests for emptiness before it blocks interrupts.  If an interrupt
comes in between, the effect is the same as the interrupt coming first (queue not empty at the test) — the test's
answer cannot be invalidated. -/
theorem C37_remove_interrupted (maxRX cap : Nat) (junk : Nat → Byte) (h1 : 1 ≤ maxRX ∧ maxRX ≤ 255) (h2 : 1 ≤ cap)
    (ops : List QOp) (hl : ∀ op ∈ ops, op.legal maxRX) (q : VQ) (tr : List (QOp × QOut))
    (hr : (VQ.new maxRX cap junk).run ops = some (q, tr)) (hne : q.isEmpty = false)
    (data : Bytes) (len : Nat) (hleg : (QOp.isr data len).legal maxRX) (q1 : VQ) (out : QOut)
    (hi : q.step (.isr data len) = some (q1, out)) :
    ∃ q2, q1.removeBlock = some q2 ∧ q1.step .remove = some (q2, .done) := by
  obtain ⟨q0, tr0, fs, h, t, inv, hm⟩ := VQ_run (QInv.new maxRX cap junk h1 h2) ops hl
  rw [hr] at h
  simp only [Option.some.injEq, Prod.mk.injEq] at h
  obtain ⟨rfl, rfl⟩ := h
  have hmf : q.mf = maxRX := hm
  obtain ⟨q1', out', e1, _, i1, i2, _⟩ := inv.isr data len (by rw [hmf]; exact hleg.1) hleg.2
  rw [hi] at e1
  simp only [Option.some.injEq, Prod.mk.injEq] at e1
  obtain ⟨rfl, rfl⟩ := e1
  have hfs : fs ≠ [] := by
    intro e; rw [inv.empty.2 e] at hne; cases hne
  cases out' with
  | true =>
    obtain ⟨q2, e2, _, _, e3⟩ := (i1 rfl).remove
    refine ⟨q2, e3 ?_, e2⟩
    split
    · exact hfs
    · simp
  | false =>
    obtain ⟨_, rfl⟩ := i2 rfl
    obtain ⟨q2, e2, _, _, e3⟩ := inv.remove
    exact ⟨q2, e3 hfs, e2⟩

/-- Representation invariant of the one-deep queue. -/
def OQInv (q : OQ) (fs : List Bytes) : Prop :=
  (fs = [] ∧ q.count = 0) ∨
  (∃ f, fs = [f] ∧ q.count = 1 ∧ f.length ≤ q.mx ∧ (q.b 0).toNat = f.length ∧ ∀ j, j < f.length → q.b (1 + j) = f.getD j 0)

theorem OQ_run {q : OQ} {fs : List Bytes} (h : OQInv q fs) (hmx : q.mx ≤ 255) (ops : List QOp)
    (hl : ∀ op ∈ ops, op.legal q.mx) :
    ∃ q' tr, q.run ops = some (q', tr) ∧ FifoTrace fs tr := by
  induction ops generalizing q fs with
  | nil => exact ⟨q, [], rfl, trivial⟩
  | cons op ops ih =>
    have hop := hl op (by simp)
    have hrest : ∀ op ∈ ops, op.legal q.mx := fun o ho => hl o (by simp [ho])
    cases op with
    | isr data len =>
      rcases h with ⟨rfl, hc⟩ | ⟨f, rfl, hc, hf1, hf2, hf3⟩
      · have hd : 1 + data.length ≤ 1 + q.mx := by have := hop.1; omega
        by_cases h0 : len = 0
        · subst h0
          have e1 : ∃ b1, q.step (.isr data 0) = some ({ q with b := b1 }, .offered true) :=
            ⟨fun j => if 1 ≤ j ∧ j < 1 + data.length then data.getD (j - 1) 0 else q.b j,
              by simp only [OQ.step, hc, ne_eq, not_true_eq_false, if_false, if_pos hd, if_true]⟩
          obtain ⟨b1, e1⟩ := e1
          obtain ⟨q2, tr, e2, t2⟩ := ih (q := { q with b := b1 }) (fs := []) (Or.inl ⟨rfl, hc⟩) hmx hrest
          exact ⟨q2, (.isr data 0, .offered true) :: tr, by simp only [OQ.run, e1, e2], by simpa [FifoTrace] using t2⟩
        · have hlen := hop.2
          have hnl : ¬ len > q.mx := by have := hop.1; omega
          have hlt : (data.take len).length = len := by rw [List.length_take]; omega
          generalize hb : (fun j => if j = 0 then u8 len else if 1 ≤ j ∧ j < 1 + data.length then data.getD (j - 1) 0 else q.b j) = b2
          have e1 : q.step (.isr data len) = some ({ q with b := b2, count := 1 }, .offered true) := by
            simp only [OQ.step, hc, ne_eq, not_true_eq_false, if_false, if_pos hd, if_neg h0, if_neg hnl, hb]
          have inv : OQInv { q with b := b2, count := 1 } [data.take len] := by
            refine Or.inr ⟨data.take len, rfl, rfl, by simp only; omega, ?_, ?_⟩
            · simp only [← hb, if_true, u8_toNat, hlt]; have := hop.1; omega
            · intro j hj
              simp only [← hb]
              rw [if_neg (by omega), if_pos (by omega)]
              have : 1 + j - 1 = j := by omega
              rw [this]
              simp [List.getD_eq_getElem?_getD, show j < len by omega]
          obtain ⟨q2, tr, e2, t2⟩ := ih inv hmx hrest
          exact ⟨q2, (.isr data len, .offered true) :: tr, by simp only [OQ.run, e1, e2], by simpa [FifoTrace, h0] using t2⟩
      · have e1 : q.step (.isr data len) = some (q, .offered false) := by simp [OQ.step, hc]
        obtain ⟨q2, tr, e2, t2⟩ := ih (fs := [f]) (Or.inr ⟨f, rfl, hc, hf1, hf2, hf3⟩) hmx hrest
        exact ⟨q2, (.isr data len, .offered false) :: tr, by simp only [OQ.run, e1, e2], ⟨by simp, t2⟩⟩
    | peek =>
      have e1 : q.step .peek = some (q, .frame fs.head?) := by
        rcases h with ⟨rfl, hc⟩ | ⟨f, rfl, hc, hf1, hf2, hf3⟩
        · simp [OQ.step, hc]
        · have : (List.range f.length).map (fun j => q.b (1 + j)) = f := by
            apply List.ext_getElem
            · simp
            · intro j j1 j2
              simp only [List.getElem_map, List.getElem_range]
              rw [hf3 j j2]
              simp [List.getD_eq_getElem?_getD, j2]
          simp only [OQ.step, hc, hf2, this]
          rw [if_neg (by omega), if_pos (by omega)]; rfl
      obtain ⟨q2, tr, e2, t2⟩ := ih h hmx hrest
      exact ⟨q2, (.peek, .frame fs.head?) :: tr, by simp only [OQ.run, e1, e2], ⟨rfl, t2⟩⟩
    | remove =>
      have inv : OQInv { q with count := 0 } fs.tail := by
        rcases h with ⟨rfl, hc⟩ | ⟨f, rfl, hc, hf1, hf2, hf3⟩ <;> exact Or.inl ⟨rfl, rfl⟩
      obtain ⟨q2, tr, e2, t2⟩ := ih inv hmx hrest
      exact ⟨q2, (.remove, .done) :: tr, by simp only [OQ.run, OQ.step, e2], t2⟩
    | count =>
      obtain ⟨q2, tr, e2, t2⟩ := ih h hmx hrest
      refine ⟨q2, (.count, .num q.count) :: tr, by simp only [OQ.run, OQ.step, e2], ⟨?_, t2⟩⟩
      rcases h with ⟨rfl, hc⟩ | ⟨f, rfl, hc, _⟩ <;> simp [hc]
    | isFull =>
      obtain ⟨q2, tr, e2, t2⟩ := ih h hmx hrest
      refine ⟨q2, (.isFull, .full (decide (q.count ≠ 0))) :: tr, by simp only [OQ.run, OQ.step, e2], ⟨?_, t2⟩⟩
      rcases h with ⟨rfl, hc⟩ | ⟨f, rfl, hc, _⟩ <;> simp [hc]

/-- **C37, one-deep queue.** The one-deep queue meets the same specification. -/
theorem C37_fifo_one_deep (maxRX : Nat) (junk : Nat → Byte) (h1 : maxRX ≤ 255)
    (ops : List QOp) (hl : ∀ op ∈ ops, op.legal maxRX) :
    ∃ q tr, (OQ.new maxRX junk).run ops = some (q, tr) ∧ FifoTrace [] tr :=
  OQ_run (q := OQ.new maxRX junk) (Or.inl ⟨rfl, rfl⟩) h1 ops hl

/-- Non-vacuity: two frames of different lengths, an abandoned upload, read back in order. -/
example : ((VQ.new 4 2 (fun _ => 7)).run
    [.isr [1, 2, 3] 3, .isr [9, 9, 9, 9] 0, .isr [4] 1, .count, .peek, .remove, .peek, .remove, .peek]).map (fun r => r.2.map Prod.snd)
    = some [.offered true, .offered true, .offered true, .num 2, .frame (some [1, 2, 3]), .done,
            .frame (some [4]), .done, .frame none] := by decide +kernel

/-! ## C38 -/

/-- **C38.** In every reachable state, if the queue offers an area, then `mf` bytes from it lie inside the buffer;
`isFull()` says exactly whether an area would be offered; and whatever (up to `mf` bytes) is written to the offered
area and abandoned, everything later seen by the main loop is unchanged: the area overlaps no queued frame. -/
theorem C38_area (maxRX cap : Nat) (junk : Nat → Byte) (h1 : 1 ≤ maxRX ∧ maxRX ≤ 255) (h2 : 1 ≤ cap)
    (ops : List QOp) (hl : ∀ op ∈ ops, op.legal maxRX) (q : VQ) (tr : List (QOp × QOut))
    (hr : (VQ.new maxRX cap junk).run ops = some (q, tr)) :
    q.siz = qBufSiz maxRX cap ∧
    (q.isFull = false → q.next + 1 + maxRX ≤ q.siz) ∧
    (∀ data len, (QOp.isr data len).legal maxRX →
      ∃ q', q.step (.isr data len) = some (q', .offered (!q.isFull))) ∧
    (∀ data, data.length ≤ maxRX → ∃ q', q.step (.isr data 0) = some (q', .offered (!q.isFull)) ∧
      ∀ ops2 : List QOp, (∀ op ∈ ops2, op = .peek ∨ op = .remove ∨ op = .count) →
        (q.run ops2).map Prod.snd = (q'.run ops2).map Prod.snd) := by
  obtain ⟨q0, tr0, fs, h, t, inv, hm⟩ := VQ_run (QInv.new maxRX cap junk h1 h2) ops hl
  rw [hr] at h
  simp only [Option.some.injEq, Prod.mk.injEq] at h
  obtain ⟨rfl, rfl⟩ := h
  have hmf : q.mf = maxRX := hm
  have hsiz : ∀ (ops : List QOp) (a b : VQ) (tr : List (QOp × QOut)), a.run ops = some (b, tr) → b.siz = a.siz := by
    have stp : ∀ (a b : VQ) (op : QOp) (o : QOut), a.step op = some (b, o) → b.siz = a.siz := by
      intro a b op o e
      cases op with
      | isr data len =>
        simp only [VQ.step, VQ.store, VQ.loadedBuf] at e
        split at e
        · cases e; rfl
        · split at e
          · cases e
          · rename_i q1 hq1
            split at hq1
            · cases hq1
              split at e
              · cases e
              · rename_i q2 hq2
                cases e
                split at hq2
                · cases hq2; rfl
                · split at hq2
                  · simp only [Option.map_some, Option.some.injEq] at hq2
                    rw [← hq2]
                  · cases hq2
            · cases hq1
      | peek =>
        simp only [VQ.step] at e
        split at e
        · cases e; rfl
        · split at e <;> cases e; rfl
      | remove =>
        simp only [VQ.step, VQ.removeBlock] at e
        split at e
        · cases e; rfl
        · split at e
          · cases e
          · rename_i q1 hq1
            split at hq1 <;> cases hq1
            cases e; rfl
      | count => simp only [VQ.step] at e; cases e; rfl
      | isFull => simp only [VQ.step] at e; cases e; rfl
    intro ops
    induction ops with
    | nil => intro a b tr e; simp [VQ.run] at e; rw [← e.1]
    | cons op ops ih =>
      intro a b tr e
      simp only [VQ.run] at e
      split at e
      · cases e
      · rename_i q1 o hs
        split at e
        · cases e
        · rename_i q2 tr2 hr2
          simp only [Option.some.injEq, Prod.mk.injEq] at e
          rw [← e.1, ih _ _ _ hr2, stp _ _ _ _ hs]
  have hcons : ∀ (a a' : VQ) (op : QOp) (o : QOut) (ops : List QOp), a.step op = some (a', o) →
      (a.run (op :: ops)).map Prod.snd = ((a'.run ops).map Prod.snd).map (fun t => (op, o) :: t) := by
    intro a a' op o ops e
    simp only [VQ.run, e]
    cases a'.run ops <;> rfl
  have hdet : ∀ (ops2 : List QOp) (a b : VQ) (fs : List Bytes), QInv a fs → QInv b fs →
      (∀ op ∈ ops2, op = .peek ∨ op = .remove ∨ op = .count) → (a.run ops2).map Prod.snd = (b.run ops2).map Prod.snd := by
    intro ops2
    induction ops2 with
    | nil => intros; rfl
    | cons op ops2 ih =>
      intro a b fs ha hb hops
      have hrest : ∀ op ∈ ops2, op = .peek ∨ op = .remove ∨ op = .count := fun o ho => hops o (by simp [ho])
      rcases hops op (by simp) with rfl | rfl | rfl
      · rw [hcons _ _ _ _ _ ha.peek, hcons _ _ _ _ _ hb.peek, ih a b fs ha hb hrest]
      · obtain ⟨a', ea, ia, _⟩ := ha.remove
        obtain ⟨b', eb, ib, _⟩ := hb.remove
        rw [hcons _ _ _ _ _ ea, hcons _ _ _ _ _ eb, ih a' b' fs.tail ia ib hrest]
      · rw [hcons a a .count (.num fs.length) _ (by rw [← ha.cnt]; rfl),
          hcons b b .count (.num fs.length) _ (by rw [← hb.cnt]; rfl), ih a b fs ha hb hrest]
  refine ⟨hsiz _ _ _ _ hr, ?_, ?_, ?_⟩
  · intro hf
    have h := (inv.offer hf).1
    have hc := inv.cfg
    omega
  · intro data len hleg
    obtain ⟨q', out, e, _, _, _, ho⟩ := inv.isr data len (by rw [hmf]; exact hleg.1) hleg.2
    exact ⟨q', by rw [e, ho]⟩
  · intro data hd
    obtain ⟨q', out, e, _, i1, i2, ho⟩ := inv.isr data 0 (by rw [hmf]; exact hd) (by omega)
    refine ⟨q', by rw [e, ho], fun ops2 hops => ?_⟩
    cases out with
    | true => exact hdet ops2 q q' fs inv (by simpa using i1 rfl) hops
    | false => obtain ⟨_, rfl⟩ := i2 rfl; rfl

/-! ## C39 -/

/-- Offer `n` maximum-size frames one after another; are they all accepted? -/
def acceptsAll (q : VQ) (frame : Bytes) : Nat → Bool
  | 0 => true
  | n + 1 => match q.step (.isr frame frame.length) with
    | some (q', .offered true) => acceptsAll q' frame n
    | _ => false

/-- The declared claim: a queue reporting minimum capacity N accepts N maximum-size frames whenever it is empty. -/
def C39_claim : Prop := ∀ (maxRX cap : Nat) (junk : Nat → Byte), 1 ≤ maxRX ∧ maxRX ≤ 255 → 1 ≤ cap →
  ∀ (ops : List QOp), (∀ op ∈ ops, op.legal maxRX) → ∀ q tr, (VQ.new maxRX cap junk).run ops = some (q, tr) →
    q.isEmpty = true → ∀ frame : Bytes, frame.length = maxRX → acceptsAll q frame (qMinCapacity maxRX cap) = true

/-- **C39 is false of the code**: a 64-byte queue reporting capacity 2, after one 63-byte frame has come and gone,
takes one 64-byte frame and then is full. -/
theorem C39_refuted : ¬ C39_claim := by
  intro h
  have hrun := (C37_fifo 64 2 (fun _ => 0) (by decide) (by decide) [.isr (List.replicate 63 1) 63, .remove]
    (by simp [QOp.legal]))
  obtain ⟨q, tr, e, _⟩ := hrun
  have hrunb : ((VQ.new 64 2 (fun _ => 0)).run [.isr (List.replicate 63 1) 63, .remove]).map
      (fun r => (r.1.isEmpty, acceptsAll r.1 (List.replicate 64 0) (qMinCapacity 64 2))) = some (true, false) := by decide +kernel
  rw [e] at hrunb
  simp only [Option.map_some, Option.some.injEq, Prod.mk.injEq] at hrunb
  have := h 64 2 (fun _ => 0) (by decide) (by decide) _ (by simp [QOp.legal]) q tr e hrunb.1 (List.replicate 64 0) (by simp)
  rw [this] at hrunb
  exact absurd hrunb.2 (by decide)

theorem accept_fresh (frame : Bytes) (n k : Nat) (q : VQ) (fs : List Bytes) (h : QInv q fs) (hm : frame.length = q.mf)
    (ho : q.oldest = 0) (hlin : q.next = k * (q.mf + 1)) (hfs : fs.length = k) (hk : (k + n) * (q.mf + 1) ≤ q.siz) :
    acceptsAll q frame n = true := by
  induction n generalizing q fs k with
  | zero => rfl
  | succ n ih =>
    have hc := h.cfg
    have hmul : (k + (n + 1)) * (q.mf + 1) = k * (q.mf + 1) + (n + 1) * (q.mf + 1) := Nat.add_mul _ _ _
    have hmul2 : (n + 1) * (q.mf + 1) = n * (q.mf + 1) + (q.mf + 1) := by rw [Nat.add_mul]; omega
    obtain ⟨q', out, e, hmf, i1, i2, hout⟩ := h.isr frame frame.length (by omega) (by omega)
    have hnf : q.isFull = false := by
      unfold VQ.isFull
      by_cases hk0 : k = 0
      · subst hk0
        have hfe : fs = [] := List.eq_nil_of_length_eq_zero hfs
        subst hfe
        exact h.not_full_of_empty
      · have : 1 * (q.mf + 1) ≤ k * (q.mf + 1) := Nat.mul_le_mul_right _ (by omega)
        rw [if_pos (by omega)]
    rw [hnf] at hout
    subst hout
    simp only [Bool.not_false] at e
    simp only [acceptsAll, e]
    by_cases hn0 : n = 0
    · subst hn0; rfl
    · have hn1 : 1 * (q.mf + 1) ≤ n * (q.mf + 1) := Nat.mul_le_mul_right _ (by omega)
      have hnext : q'.next = q.newIndex q.next frame.length ∧ q'.oldest = q.oldest ∧ q'.siz = q.siz := by
        simp only [VQ.step, hnf, Bool.false_eq_true, if_false, VQ.store, VQ.loadedBuf, if_neg (show ¬ frame.length = 0 by omega)] at e
        split at e
        · cases e
        · rename_i q1 hq1
          split at hq1
          · cases hq1
            split at e
            · cases e
            · rename_i q2 hq2
              cases e
              split at hq2
              · simp only [Option.map_some, Option.some.injEq] at hq2
                rw [← hq2]; exact ⟨rfl, rfl, rfl⟩
              · cases hq2
          · cases hq1
      have hl := VQ.lui_eq q hc
      have hni : q.newIndex q.next frame.length = (k + 1) * (q.mf + 1) := by
        unfold VQ.newIndex
        rw [if_neg (by omega), Nat.add_mul]; omega
      refine ih (k + 1) q' _ (i1 rfl) (by omega) (by omega) (by rw [hnext.1, hni, hmf]) ?_ ?_
      · rw [if_neg (by omega)]; simp [hfs]
      · rw [hmf, hnext.2.2]
        have : k + 1 + n = k + (n + 1) := by omega
        rw [this]; exact hk

/-- **C39 (partial).** A freshly made queue does accept the declared number of maximum-size frames, and an empty queue
in any reachable state accepts at least one frame.  Missing: the declared number from every empty state, which the
code does not provide. -/
theorem C39_capacity_partial (maxRX cap : Nat) (junk : Nat → Byte) (h1 : 1 ≤ maxRX ∧ maxRX ≤ 255) (h2 : 1 ≤ cap)
    (frame : Bytes) (hf : frame.length = maxRX) :
    acceptsAll (VQ.new maxRX cap junk) frame (qMinCapacity maxRX cap) = true ∧
    ∀ (ops : List QOp), (∀ op ∈ ops, op.legal maxRX) → ∀ q tr, (VQ.new maxRX cap junk).run ops = some (q, tr) →
      q.isEmpty = true → acceptsAll q frame 1 = true := by
  refine ⟨?_, ?_⟩
  · refine accept_fresh frame _ 0 _ [] (QInv.new maxRX cap junk h1 h2) hf rfl (by simp [VQ.new]) rfl ?_
    show (0 + qMinCapacity maxRX cap) * (maxRX + 1) ≤ qBufSiz maxRX cap
    unfold qMinCapacity
    rw [Nat.zero_add]
    exact Nat.le_trans (Nat.mul_le_mul_right _ (Nat.mod_le _ _)) (Nat.div_mul_le_self _ _)
  · intro ops hl q tr hr he
    obtain ⟨q0, tr0, fs, h, t, inv, hm⟩ := VQ_run (QInv.new maxRX cap junk h1 h2) ops hl
    rw [hr] at h
    simp only [Option.some.injEq, Prod.mk.injEq] at h
    obtain ⟨rfl, rfl⟩ := h
    have hmf : q.mf = maxRX := hm
    have hfs := inv.empty.1 he
    subst hfs
    obtain ⟨q', out, e, _, _, _, ho⟩ := inv.isr frame frame.length (by omega) (by omega)
    rw [inv.not_full_of_empty] at ho
    subst ho
    simp only [acceptsAll, e, Bool.not_false]

/-- Non-vacuity: the reported capacity of the radio driver's usual configuration. -/
example : qMinCapacity 64 2 = 2 ∧ qMinCapacity 64 3 = 3 := by decide

end OTR.Props
