import Verif.Props.Tight4
/-!
# Properties C137 (form of the printed frame) and C223 (pitch dark, and dark before any reading)
-/

namespace OTR.Props
open OTR

theorem rxByte_text (b : Byte) : ∀ c ∈ rxByte b, 32 ≤ c.toNat ∧ c.toNat < 126 := by
  revert b; apply forall_byte; decide +kernel

/-- A frame printed for logging is exactly one line: a bar, the length of the frame in decimal, a space, two printable
characters for each byte, and the end of line.  Nothing received over the air can put a control character (so neither a
line break nor an escape) into the log. -/
theorem C137_printed_line (x : Bytes) (hx : x.length < 256) :
    ∃ body : Bytes, printRXMsg x =
      ascii "|" ++ (Nat.toDigits 10 x.length).map (fun c => u8 c.toNat) ++ ascii " " ++ body ++ ascii "\r\n" ∧
      body.length = 2 * x.length ∧ ∀ c ∈ body, 32 ≤ c.toNat ∧ c.toNat < 126 := by
  have hd : ∀ n : Fin 256, printDec n.val = (Nat.toDigits 10 n.val).map (fun c => u8 c.toNat) := by decide +kernel
  have e1 : ascii "|" = [124] := by decide +kernel
  have e2 : ascii " " = [32] := by decide +kernel
  have e3 : ascii "\r\n" = [13, 10] := by decide +kernel
  refine ⟨x.flatMap rxByte, ?_, ?_, ?_⟩
  · rw [← hd ⟨x.length, hx⟩, e1, e2, e3]; rfl
  · clear hx
    induction x with
    | nil => rfl
    | cons b t ih => rw [List.flatMap_cons, List.length_append, ih, rxByte_len, List.length_cons]; omega
  · intro c hc
    obtain ⟨b, -, hb⟩ := List.mem_flatMap.1 hc
    exact rxByte_text b c hb

example : printRXMsg [13, 10, 65] = ascii "|3 0D0A A\r\n" := by decide +kernel

/-! ## C223 -/

/-- The last reading taken in a history (newest first); zero before any. -/
def lastReading : List LightOp → Nat
  | [] => 0
  | .read v :: _ => v
  | _ :: h => lastReading h

theorem value_last (h : List LightOp) : (Light.after h).value = lastReading h := by
  induction h with
  | nil => rfl
  | cons o h ih =>
    cases o with
    | read v =>
      show ((Light.after h).read v).1.value = v
      unfold Light.read
      generalize (Light.after h) = s
      by_cases h1 : v > s.lightThr
      · simp only [h1, if_true]; split <;> rfl
      · by_cases h2 : v ≤ s.darkThr
        · simp only [h1, if_false, h2, if_true]; split <;> rfl
        · simp only [h1, if_false, h2]; split <;> rfl
    | setTyp a b c d =>
      show ((Light.after h).setTyp a b c d).value = _
      rw [show lastReading (.setTyp a b c d :: h) = lastReading h from rfl, ← ih]
      unfold Light.setTyp Light.recompute
      generalize (Light.after h) = s
      dsimp only
      split
      · rfl
      · split <;> rfl
    | setCb b => exact ih

/-- Pitch dark is reported exactly when the sensor's range is good and the last reading was at most 4: no hysteresis. -/
theorem C223_pitch_dark (h : List LightOp) :
    (Light.after h).isRoomVeryDark = true ↔ (Light.after h).narrow = false ∧ lastReading h ≤ 4 := by
  unfold Light.isRoomVeryDark
  rw [value_last]
  cases (Light.after h).narrow <;> simp

/-- Once there has been a reading outside the hysteresis band, lit and dark mean what the reading said. -/
theorem C223_after_reading (h : List LightOp) (v : Nat) (hn : (Light.after h).narrow = false) :
    (v > (Light.after h).lightThr → (Light.after (.read v :: h)).isRoomLit = true) ∧
    (v ≤ (Light.after h).darkThr → v ≤ (Light.after h).lightThr → (Light.after (.read v :: h)).isRoomDark = true) := by
  show (_ → ((Light.after h).read v).1.isRoomLit = true) ∧ (_ → _ → ((Light.after h).read v).1.isRoomDark = true)
  generalize (Light.after h) = s at hn
  unfold Light.read
  constructor
  · intro h1
    dsimp only
    rw [if_pos h1]
    split <;> simp [Light.isRoomLit, hn]
  · intro h1 h2
    dsimp only
    rw [if_neg (show ¬ v > s.lightThr by omega), if_pos h1]
    by_cases hc : s.cb = true <;> simp [Light.isRoomDark, hn, hc]

/-- `isRoomDark()` is documented as false if the light level is unknown.  It is true from power-up, before any reading, and so
is `isRoomVeryDark()`, until a reading says otherwise. -/
theorem C223_unknown_refuted :
    ¬ ∀ h : List LightOp, (∀ v, LightOp.read v ∉ h) → (Light.after h).isRoomDark = false := by
  intro h
  exact absurd (h [] (by simp)) (by decide)

/-- The flags also contradict each other: a room can be reported lit and pitch dark at once, since only the first of the two has
hysteresis. -/
theorem C223_exclusive_refuted :
    ¬ ∀ h : List LightOp, (∀ o ∈ h, ByteOp o) →
      ¬ ((Light.after h).isRoomLit = true ∧ (Light.after h).isRoomVeryDark = true) := by
  intro h
  exact h [.read 3, .read 30, .setTyp 20 0 40 true] (by simp [ByteOp]) (by decide +kernel)

/-- What does hold: before any reading the room is never reported lit. -/
theorem C223_unknown_not_lit (h : List LightOp) (hr : ∀ v, LightOp.read v ∉ h) : (Light.after h).isRoomLit = false := by
  have : (Light.after h).lit = false := by
    induction h with
    | nil => rfl
    | cons o h ih =>
      have ih := ih (fun v hv => hr v (List.mem_cons_of_mem _ hv))
      cases o with
      | read v => exact absurd (List.mem_cons_self ..) (hr v)
      | setTyp a b c d =>
        show ((Light.after h).setTyp a b c d).lit = false
        rw [← ih]
        unfold Light.setTyp Light.recompute
        generalize (Light.after h) = s
        dsimp only
        split
        · rfl
        · split <;> rfl
      | setCb b => exact ih
  simp [Light.isRoomLit, this]

example : (Light.after []).isRoomDark = true ∧ (Light.after []).isRoomVeryDark = true ∧ (Light.after []).isRoomLit = false := by decide
example : (Light.after [.read 5]).isRoomVeryDark = false ∧ (Light.after [.read 4]).isRoomVeryDark = true := by decide

end OTR.Props
