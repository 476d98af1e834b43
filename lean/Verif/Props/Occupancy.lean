import Verif.Model.Occupancy
/-!
# Properties C70-C72: occupancy tracking
-/

namespace OTR

/-! ## Specification vocabulary -/

/-- How long, in minutes, evidence keeps a room occupied. -/
def Mark.minutes : Mark → Nat
  | .occupied => occTimeoutM
  | .possibly => occLikelyM
  | .justPossibly => occMaybeM

/-- Everything that interrupts did during the read. -/
def ReadGaps.all (g : ReadGaps) : List Mark := g.g1 ++ g.g2 ++ g.g3 ++ g.g4 ++ g.g5 ++ g.g6

/-! ## Lemmas -/

/-- A state the code can be in. -/
def Occ.Ok (s : Occ) : Prop := s.occ ≤ 50 ∧ s.new ≤ 3 ∧ s.vacH ≤ 255 ∧ s.vacM < 60 ∧ s.value ≤ 100

theorem Occ.Ok.mark {s : Occ} (h : s.Ok) (k : Mark) : (s.mark k).Ok ∧ s.occ ≤ (s.mark k).occ ∧
    (s.mark k).vacH = s.vacH ∧ (s.mark k).vacM = s.vacM := by
  obtain ⟨h1, h2, h3, h4, h5⟩ := h
  cases k <;> dsimp only [Occ.mark, Occ.markAsOccupied, Occ.markAsPossiblyOccupied, Occ.markAsJustPossiblyOccupied]
  · refine ⟨⟨by simp, ?_, h3, h4, by simp⟩, h1, rfl, rfl⟩
    dsimp only; split <;> omega
  · refine ⟨⟨by dsimp only; omega, ?_, h3, h4, h5⟩, by omega, rfl, rfl⟩
    dsimp only; split <;> omega
  · split
    · exact ⟨⟨h1, h2, h3, h4, h5⟩, Nat.le_refl _, rfl, rfl⟩
    · exact ⟨⟨by dsimp only; omega, h2, h3, h4, h5⟩, by dsimp only; omega, rfl, rfl⟩

theorem Occ.Ok.isr {s : Occ} (h : s.Ok) (ms : List Mark) : (s.isr ms).Ok ∧ s.occ ≤ (s.isr ms).occ ∧
    (s.isr ms).vacH = s.vacH ∧ (s.isr ms).vacM = s.vacM ∧
    (∀ k ∈ ms, (k = .justPossibly → s.vacH ≤ 2) → k.minutes ≤ (s.isr ms).occ) := by
  induction ms generalizing s with
  | nil => exact ⟨h, Nat.le_refl _, rfl, rfl, by simp⟩
  | cons k ms ih =>
    obtain ⟨h1, h2, h3, h4⟩ := h.mark k
    obtain ⟨i1, i2, i3, i4, i5⟩ := ih h1
    change ((s.mark k).isr ms).Ok ∧ s.occ ≤ ((s.mark k).isr ms).occ ∧ ((s.mark k).isr ms).vacH = _ ∧
      ((s.mark k).isr ms).vacM = _ ∧ ∀ k' ∈ k :: ms, _ → k'.minutes ≤ ((s.mark k).isr ms).occ
    refine ⟨i1, by omega, by rw [i3, h3], by rw [i4, h4], ?_⟩
    intro k' hk' hv
    rcases List.mem_cons.1 hk' with rfl | hk'
    · refine Nat.le_trans ?_ i2
      cases k' with
      | occupied => simp [Occ.mark, Occ.markAsOccupied, Mark.minutes]
      | possibly => simp only [Occ.mark, Occ.markAsPossiblyOccupied, Mark.minutes]; omega
      | justPossibly =>
        have : ¬ s.vacH > 2 := by have := hv rfl; omega
        simp only [Occ.mark, Occ.markAsJustPossiblyOccupied, this, if_false, Mark.minutes]; omega
    · exact i5 k' hk' (by rw [h3]; exact hv)

theorem Occ.Ok.casOcc {s : Occ} (h : s.Ok) (o : Nat) : ((if o = 0 then s else s.casOcc o (o - 1)).Ok) ∧
    s.occ - 1 ≤ (if o = 0 then s else s.casOcc o (o - 1)).occ ∧
    (if o = 0 then s else s.casOcc o (o - 1)).vacH = s.vacH ∧ (if o = 0 then s else s.casOcc o (o - 1)).vacM = s.vacM := by
  obtain ⟨h1, h2, h3, h4, h5⟩ := h
  split
  · exact ⟨⟨h1, h2, h3, h4, h5⟩, by omega, rfl, rfl⟩
  · unfold Occ.casOcc
    split
    · exact ⟨⟨by dsimp only; omega, h2, h3, h4, h5⟩, by dsimp only; omega, rfl, rfl⟩
    · exact ⟨⟨h1, h2, h3, h4, h5⟩, by omega, rfl, rfl⟩

theorem Occ.Ok.casNew {s : Occ} (h : s.Ok) (n : Nat) : ((if n = 0 then s else s.casNew n (n - 1)).Ok) ∧
    (if n = 0 then s else s.casNew n (n - 1)).occ = s.occ ∧
    (if n = 0 then s else s.casNew n (n - 1)).vacH = s.vacH ∧ (if n = 0 then s else s.casNew n (n - 1)).vacM = s.vacM := by
  obtain ⟨h1, h2, h3, h4, h5⟩ := h
  split
  · exact ⟨⟨h1, h2, h3, h4, h5⟩, rfl, rfl, rfl⟩
  · unfold Occ.casNew
    split
    · exact ⟨⟨h1, by dsimp only; omega, h3, h4, h5⟩, rfl, rfl, rfl⟩
    · exact ⟨⟨h1, h2, h3, h4, h5⟩, rfl, rfl, rfl⟩

theorem Occ.Ok.vac {s : Occ} (h : s.Ok) (n : Nat) : (s.vacUpdate n).Ok ∧ (s.vacUpdate n).occ = s.occ ∧
    (s.vacUpdate n).vacH ≤ s.vacH + 1 := by
  obtain ⟨h1, h2, h3, h4, h5⟩ := h
  unfold Occ.vacUpdate
  split
  · exact ⟨⟨h1, h2, by simp, by simp, h5⟩, rfl, by simp⟩
  · split
    · split
      · exact ⟨⟨h1, h2, by dsimp only; omega, by simp, h5⟩, rfl, by simp⟩
      · exact ⟨⟨h1, h2, h3, by dsimp only; omega, h5⟩, rfl, by simp⟩
    · exact ⟨⟨h1, h2, h3, h4, h5⟩, rfl, by simp⟩

theorem occPercent_eq (n : Nat) (h : n ≤ 50) : occPercent n = 2 * n := by
  unfold occPercent; split <;> omega

namespace Props

/-! ## C71 -/

/-- **C71.** Whatever interrupts do at whatever points of a minute read, from any legal state: everything stays in
range (the countdown never wraps), at most one minute is lost from the time that was left, and evidence reported by
an interrupt during the read is kept, all but at most one minute of it.  (Weakest evidence is ignored by design when
the room has been vacant over 2 hours.) -/
theorem C71_read_interrupted (s : Occ) (hs : s.Ok) (g : ReadGaps) :
    (s.readI g).Ok ∧ s.occ - 1 ≤ (s.readI g).occ ∧
    ∀ k ∈ g.all, (k = .justPossibly → s.vacH < weakVacantH) → k.minutes - 1 ≤ (s.readI g).occ := by
  unfold Occ.readI
  dsimp only
  obtain ⟨a1, b1, c1, d1, e1⟩ := hs.isr g.g1
  generalize s.isr g.g1 = s1 at *
  obtain ⟨a2, b2, c2, d2⟩ := a1.casOcc s.occ
  generalize (if s.occ = 0 then s1 else s1.casOcc s.occ (s.occ - 1)) = s2 at *
  obtain ⟨a3, b3, c3, d3, e3⟩ := a2.isr g.g2
  generalize s2.isr g.g2 = s3 at *
  obtain ⟨a4, b4, c4, d4, e4⟩ := a3.isr g.g3
  generalize s3.isr g.g3 = s4 at *
  obtain ⟨a5, b5, c5, d5⟩ := a4.casNew s3.new
  generalize (if s3.new = 0 then s4 else s4.casNew s3.new (s3.new - 1)) = s5 at *
  obtain ⟨a6, b6, c6, d6, e6⟩ := a5.isr g.g4
  generalize s5.isr g.g4 = s6 at *
  obtain ⟨a7, b7, c7, d7, e7⟩ := a6.isr g.g5
  generalize s6.isr g.g5 = s7 at *
  obtain ⟨a8, b8, c8⟩ := a7.vac s6.occ
  generalize s7.vacUpdate s6.occ = s8 at *
  obtain ⟨a9, b9, c9, d9, e9⟩ := a8.isr g.g6
  generalize s8.isr g.g6 = s9 at *
  refine ⟨?_, by omega, ?_⟩
  · obtain ⟨h1, h2, h3, h4, h5⟩ := a9
    refine ⟨h1, h2, h3, h4, ?_⟩
    have := a6.1
    dsimp only
    rw [occPercent_eq _ a6.1]; omega
  · intro k hk hv
    have hv1 : k = .justPossibly → s.vacH ≤ 2 := fun h => by have := hv h; omega
    simp only [ReadGaps.all, List.mem_append] at hk
    rcases hk with ((((hk | hk) | hk) | hk) | hk) | hk
    · have := e1 k hk hv1; omega
    · have := e3 k hk (by rw [c2, c1]; exact hv1); omega
    · have := e4 k hk (by rw [c3, c2, c1]; exact hv1); omega
    · have := e6 k hk (by rw [c5, c4, c3, c2, c1]; exact hv1); omega
    · have := e7 k hk (by rw [c6, c5, c4, c3, c2, c1]; exact hv1); omega
    · have := e9 k hk (fun h => by have := hv h; omega); omega

/-- Without interrupts a read takes exactly one minute off. -/
theorem C71_read_quiet (s : Occ) : s.read.occ = s.occ - 1 ∧ s.read.new = s.new - 1 ∧ (s.occ ≤ 50 → s.read.value = 2 * (s.occ - 1)) := by
  have e : s.read.occ = s.occ - 1 ∧ s.read.new = s.new - 1 ∧ s.read.value = occPercent (s.occ - 1) := by
    obtain ⟨v, o, n, vh, vm⟩ := s
    unfold Occ.read Occ.readI
    simp only [Occ.isr, List.foldl_nil]
    by_cases ho : o = 0 <;> by_cases hn : n = 0 <;> simp [ho, hn, Occ.casOcc, Occ.casNew, Occ.vacUpdate] <;>
      (repeat' split) <;> simp_all
  refine ⟨e.1, e.2.1, fun h => ?_⟩
  rw [e.2.2, occPercent_eq _ (by omega)]

/-- **C71, main loop marks.** When the main loop itself reports evidence and interrupts report more in the middle of
that, the interrupts' evidence and the time already left survive; the main loop's own evidence survives too unless
the countdown was raised under it, and the room is left occupied in every case. -/
theorem C71_mark_interrupted (s : Occ) (hs : s.Ok) (g1 g2 g3 : List Mark) :
    (s.possiblyI g1 g2).Ok ∧ s.occ ≤ (s.possiblyI g1 g2).occ ∧
    (∀ k ∈ g1 ++ g2, (k = .justPossibly → s.vacH ≤ weakVacantH) → k.minutes ≤ (s.possiblyI g1 g2).occ) ∧
    (occLikelyM ≤ (s.possiblyI g1 g2).occ ∨ s.occ < (s.possiblyI g1 g2).occ) ∧
    (s.possiblyI g1 g2).isLikelyOccupied = true ∧
    (s.occupiedI g1 g2 g3).Ok ∧ (s.occupiedI g1 g2 g3).occ = occTimeoutM := by
  have hP : (s.possiblyI g1 g2).Ok ∧ s.occ ≤ (s.possiblyI g1 g2).occ ∧
    (∀ k ∈ g1 ++ g2, (k = .justPossibly → s.vacH ≤ 2) → k.minutes ≤ (s.possiblyI g1 g2).occ) ∧
    (40 ≤ (s.possiblyI g1 g2).occ ∨ s.occ < (s.possiblyI g1 g2).occ) := by
    unfold Occ.possiblyI
    dsimp only
    obtain ⟨a1, b1, c1, d1, e1⟩ := hs.isr g1
    generalize s.isr g1 = s1 at *
    have a2 : (if s.occ = 0 then ({ s1 with new := 3 } : Occ) else s1).Ok ∧
        (if s.occ = 0 then ({ s1 with new := 3 } : Occ) else s1).occ = s1.occ ∧
        (if s.occ = 0 then ({ s1 with new := 3 } : Occ) else s1).vacH = s1.vacH := by
      obtain ⟨h1, h2, h3, h4, h5⟩ := a1
      split
      · exact ⟨⟨h1, by simp, h3, h4, h5⟩, rfl, rfl⟩
      · exact ⟨⟨h1, h2, h3, h4, h5⟩, rfl, rfl⟩
    obtain ⟨a2, b2, c2⟩ := a2
    generalize (if s.occ = 0 then ({ s1 with new := 3 } : Occ) else s1) = s2 at *
    obtain ⟨a3, b3, c3, d3, e3⟩ := a2.isr g2
    generalize s2.isr g2 = s3 at *
    have hmem : ∀ k ∈ g1 ++ g2, (k = .justPossibly → s.vacH ≤ 2) → k.minutes ≤ s3.occ := by
      intro k hk hv
      rcases List.mem_append.1 hk with hk | hk
      · have := e1 k hk hv; omega
      · exact e3 k hk (by rw [c2, c1]; exact hv)
    unfold Occ.casOcc
    obtain ⟨h1, h2, h3, h4, h5⟩ := a3
    split
    · rename_i heq
      refine ⟨⟨by dsimp only; have := hs.1; omega, h2, h3, h4, h5⟩, by dsimp only; omega, ?_, by dsimp only; omega⟩
      intro k hk hv
      have := hmem k hk hv
      dsimp only; omega
    · refine ⟨⟨h1, h2, h3, h4, h5⟩, by omega, hmem, by omega⟩
  refine ⟨hP.1, hP.2.1, hP.2.2.1, hP.2.2.2, ?_, ?_, ?_⟩
  · have := hP.2.2.2
    simp only [Occ.isLikelyOccupied, bne_iff_ne, ne_eq]
    omega
  · unfold Occ.occupiedI
    dsimp only
    have h0 : ({ s with value := 100 } : Occ).Ok := ⟨hs.1, hs.2.1, hs.2.2.1, hs.2.2.2.1, by simp⟩
    obtain ⟨a1, _⟩ := h0.isr g1
    generalize ({ s with value := 100 } : Occ).isr g1 = s1 at *
    obtain ⟨a2, _⟩ := a1.isr g2
    generalize s1.isr g2 = s2 at *
    have a3 : (if s1.occ = 0 then ({ s2 with new := 3 } : Occ) else s2).Ok := by
      obtain ⟨h1, h2, h3, h4, h5⟩ := a2
      split
      · exact ⟨h1, by simp, h3, h4, h5⟩
      · exact ⟨h1, h2, h3, h4, h5⟩
    generalize (if s1.occ = 0 then ({ s2 with new := 3 } : Occ) else s2) = s3 at *
    obtain ⟨⟨h1, h2, h3, h4, h5⟩, _⟩ := a3.isr g3
    exact ⟨by simp, h2, h3, h4, h5⟩
  · rfl

/-- Non-trivial cases: evidence arriving between the load and the compare-and-exchange is kept in full; arriving when
the countdown is already full (the exchange cannot tell) it costs the minute. -/
example :
    ({ Occ.init with occ := 7 }.readI { g1 := [.occupied] }).occ = 50 ∧
    ({ Occ.init with occ := 50 }.readI { g1 := [.occupied] }).occ = 49 ∧
    (Occ.init.readI { g1 := [.possibly] }).occ = 40 ∧
    (Occ.init.possiblyI [.justPossibly] []).occ = 20 := by decide

/-- A percentage stored stale by such a race is put right by the next quiet read. -/
theorem C71_repaired (s : Occ) (hs : s.Ok) (g : ReadGaps) :
    (s.readI g).read.value = 2 * (s.readI g).read.occ ∧
    ((s.readI g).read.occ > 0 → (s.readI g).read.vacH = 0 ∧ (s.readI g).read.getVacancyH = 0) := by
  have h := (C71_read_interrupted s hs g).1
  generalize s.readI g = t at *
  have q := C71_read_quiet t
  refine ⟨by rw [q.2.2 h.1, q.1], fun hp => ?_⟩
  have hv : t.read.vacH = 0 := by
    rw [q.1] at hp
    obtain ⟨v, o, n, vh, vm⟩ := t
    unfold Occ.read Occ.readI
    simp only [Occ.isr, List.foldl_nil]
    dsimp only at hp
    have ho : o ≠ 0 := by omega
    by_cases hn : n = 0 <;> simp [ho, hn, Occ.casOcc, Occ.casNew, Occ.vacUpdate, hp]
  refine ⟨hv, ?_⟩
  unfold Occ.getVacancyH; rw [hv]; split <;> rfl

/-! ## C70 -/

/-- **C70, evidence times out.** With no further evidence a room marked occupied is reported occupied after exactly up
to 49 minute reads (recently so up to 9), and vacant from the 50th; the percentage falls steadily 2% a minute. -/
theorem C70_timeout (s : Occ) (n : Nat) :
    let t := s.markAsOccupied.reads n
    (t.isLikelyOccupied = true ↔ n < occTimeoutM) ∧ (t.isLikelyRecentlyOccupied = true ↔ n < occTimeoutM - occLikelyM) ∧
    t.value = 2 * (occTimeoutM - n) ∧ t.occ = occTimeoutM - n := by
  have key : (s.markAsOccupied.reads n).occ = 50 - n ∧ (s.markAsOccupied.reads n).value = 2 * (50 - n) := by
    induction n with
    | zero => exact ⟨rfl, rfl⟩
    | succ n ih =>
      have q := C71_read_quiet (s.markAsOccupied.reads n)
      simp only [Occ.reads]
      rw [q.1, q.2.2 (by omega), ih.1]
      omega
  dsimp only
  refine ⟨?_, ?_, key.2, key.1⟩
  · simp only [Occ.isLikelyOccupied, key.1, bne_iff_ne, ne_eq]; omega
  · simp only [Occ.isLikelyRecentlyOccupied, key.1, decide_eq_true_eq]; omega

theorem read_vac (s : Occ) : s.read.vacH = (s.vacUpdate (s.occ - 1)).vacH ∧ s.read.vacM = (s.vacUpdate (s.occ - 1)).vacM := by
  obtain ⟨v, o, n, vh, vm⟩ := s
  unfold Occ.read Occ.readI
  simp only [Occ.isr, List.foldl_nil]
  by_cases ho : o = 0 <;> by_cases hn : n = 0 <;> simp [ho, hn, Occ.casOcc, Occ.casNew, Occ.vacUpdate] <;>
    (repeat' split) <;> simp_all

/-- **C70, vacancy hours.** After being marked occupied, with no more evidence, the reported vacancy is zero while
occupied (at once, too) and then the whole hours vacant, stopping for ever at 255. -/
theorem C70_vacancy_hours (s : Occ) (n : Nat) :
    (s.markAsOccupied.reads n).getVacancyH = min 255 ((n - 49) / 60) := by
  have key : 1 ≤ n → (s.markAsOccupied.reads n).vacH = min 255 ((n - 49) / 60) ∧
      ((s.markAsOccupied.reads n).vacH < 255 → (s.markAsOccupied.reads n).vacM = (n - 49) % 60) := by
    induction n with
    | zero => omega
    | succ n ih =>
      intro _
      have ht := (C70_timeout s n).2.2.2
      have e := read_vac (s.markAsOccupied.reads n)
      simp only [Occ.reads]
      rw [e.1, e.2, ht]
      unfold Occ.vacUpdate
      by_cases hn : 50 - n - 1 > 0
      · rw [if_pos hn]
        dsimp only
        omega
      · rw [if_neg hn]
        obtain ⟨i1, i2⟩ := ih (by omega)
        generalize s.markAsOccupied.reads n = t at *
        split
        · rename_i hlt
          have := i2 hlt
          split <;> dsimp only <;> omega
        · omega
  have hv := (C70_timeout s n).2.2.1
  unfold Occ.getVacancyH
  rw [hv]
  by_cases hn : n < 50
  · rw [if_pos (by omega)]; omega
  · rw [if_neg (by omega)]; exact (key (by omega)).1

/-- Vacancy never wraps, from any state: it changes at a read by at most +1 or to zero. -/
theorem C70_vacancy_no_wrap (s : Occ) :
    s.read.vacH = 0 ∨ s.read.vacH = s.vacH ∨ (s.vacH < 255 ∧ s.read.vacH = s.vacH + 1) := by
  rw [(read_vac s).1]
  unfold Occ.vacUpdate
  split
  · left; rfl
  · split
    · split
      · right; right; rename_i h _; exact ⟨h, rfl⟩
      · right; left; rfl
    · right; left; rfl

/-- **C70, marked vacant.** A room the user marks as vacant is at once reported vacant (0%, not occupied, no new occupancy), and so at each reading
from then on without new evidence; vacancy time accumulated before is kept and goes on counting the hours, stopping at 255. -/
theorem C70_marked_vacant (s : Occ) (hM : s.vacM < 60) (hH : s.vacH ≤ 255) (n : Nat) :
    let t := s.markAsVacant.reads n
    t.value = 0 ∧ t.isLikelyOccupied = false ∧ t.isLikelyRecentlyOccupied = false ∧ t.reportedNewOccupancyRecently = false ∧ t.twoBit = 1 ∧
      t.getVacancyH = min 255 (s.vacH + (s.vacM + n) / 60) := by
  have key : (s.markAsVacant.reads n).value = 0 ∧ (s.markAsVacant.reads n).occ = 0 ∧ (s.markAsVacant.reads n).new = 0 ∧
      (s.markAsVacant.reads n).vacH = min 255 (s.vacH + (s.vacM + n) / 60) ∧
      ((s.markAsVacant.reads n).vacH < 255 → (s.markAsVacant.reads n).vacM = (s.vacM + n) % 60) := by
    induction n with
    | zero =>
      refine ⟨rfl, rfl, rfl, ?_, fun _ => ?_⟩
      · show s.vacH = _; omega
      · show s.vacM = _; omega
    | succ n ih =>
      obtain ⟨-, i2, i3, i4, i5⟩ := ih
      have q := C71_read_quiet (s.markAsVacant.reads n)
      have e := read_vac (s.markAsVacant.reads n)
      simp only [Occ.reads]
      rw [q.1, q.2.1, q.2.2 (by omega), e.1, e.2, i2, i3]
      refine ⟨rfl, rfl, rfl, ?_⟩
      generalize s.markAsVacant.reads n = t at *
      unfold Occ.vacUpdate
      rw [if_neg (by omega)]
      by_cases hlt : t.vacH < 255
      · rw [if_pos hlt]
        have := i5 hlt
        by_cases h60 : t.vacM + 1 ≥ 60
        · rw [if_pos h60]; dsimp only; omega
        · rw [if_neg h60]; dsimp only; omega
      · rw [if_neg hlt]
        omega
  obtain ⟨k1, k2, k3, k4, -⟩ := key
  dsimp only
  refine ⟨k1, by simp [Occ.isLikelyOccupied, k2], by simp [Occ.isLikelyRecentlyOccupied, k2], by simp [Occ.reportedNewOccupancyRecently, k3],
    by simp [Occ.twoBit, Occ.isLikelyRecentlyOccupied, Occ.isLikelyOccupied, k2], ?_⟩
  unfold Occ.getVacancyH
  rw [k1, if_neg (by simp), k4]

example : ((Occ.init.markAsOccupied.reads 3).markAsVacant.reads 61).value = 0 ∧ ((Occ.init.markAsOccupied.reads 3).markAsVacant.reads 61).getVacancyH = 1 := by
  decide +kernel

/-- The states meant by "legal" are all those reachable. -/
theorem C70_legal_reachable : Occ.init.Ok ∧ (∀ s : Occ, s.Ok → s.markAsVacant.Ok ∧ s.setHolidayMode.Ok) := by
  refine ⟨by simp [Occ.Ok, Occ.init], fun s h => ?_⟩
  obtain ⟨h1, h2, h3, h4, h5⟩ := h
  exact ⟨⟨by simp [Occ.markAsVacant], by simp [Occ.markAsVacant], h3, h4, by simp [Occ.markAsVacant]⟩,
    ⟨by simp [Occ.setHolidayMode], by simp [Occ.setHolidayMode], by simp [Occ.setHolidayMode], h4,
     by simp [Occ.setHolidayMode]⟩⟩

/-- New occupancy is reported for exactly 3 minute reads after evidence of the two stronger kinds in a vacant room. -/
theorem C70_new_occupancy (s : Occ) (n : Nat) (h0 : s.occ = 0) :
    ((s.markAsOccupied.reads n).reportedNewOccupancyRecently = true ↔ n < occNewM) ∧
    ((s.markAsPossiblyOccupied.reads n).reportedNewOccupancyRecently = true ↔ n < occNewM) := by
  have key : ∀ (t : Occ) n, (t.reads n).new = t.new - n := by
    intro t n
    induction n with
    | zero => rfl
    | succ n ih => simp only [Occ.reads, (C71_read_quiet _).2.1, ih]; omega
  simp only [Occ.reportedNewOccupancyRecently, key, Occ.markAsOccupied, Occ.markAsPossiblyOccupied, h0, if_true,
    bne_iff_ne, ne_eq]
  omega

example : (Occ.init.markAsOccupied.reads 49).twoBit = 2 ∧ (Occ.init.markAsOccupied.reads 50).twoBit = 1 ∧
    (Occ.init.markAsOccupied.reads 169).getVacancyH = 2 := by decide +kernel

/-! ## C72 -/

/-- **C72.** No sequence of evidence ever shortens the time left, and each piece leaves at least its own time
(the weakest only if the room has not been vacant over 2 hours). -/
theorem C72_evidence_monotone (s : Occ) (hs : s.Ok) (ms : List Mark) :
    s.occ ≤ (s.isr ms).occ ∧
    (∀ k ∈ ms, (k = .justPossibly → s.vacH ≤ weakVacantH) → k.minutes ≤ (s.isr ms).occ) ∧
    (s.isr ms).occ ≤ max s.occ occTimeoutM ∧
    (∀ k, (∀ k' ∈ ms, k'.minutes ≤ k) → (s.isr ms).occ ≤ max s.occ k) := by
  have h := hs.isr ms
  refine ⟨h.2.1, h.2.2.2.2, by have := h.1.1; omega, ?_⟩
  intro k hk
  clear h hs
  induction ms generalizing s with
  | nil => exact Nat.le_max_left _ _
  | cons m ms ih =>
    have i := ih (s.mark m) (fun k' h' => hk k' (by simp [h']))
    have hm := hk m (by simp)
    refine Nat.le_trans i ?_
    have : (s.mark m).occ ≤ max s.occ m.minutes := by
      cases m with
      | occupied => exact Nat.le_max_right _ _
      | possibly => exact Nat.le_refl _
      | justPossibly =>
        simp only [Occ.mark, Occ.markAsJustPossiblyOccupied]
        split
        · exact Nat.le_max_left _ _
        · exact Nat.le_refl _
    omega

end Props
end OTR
