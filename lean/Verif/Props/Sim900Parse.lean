import Verif.Props.Sim900Live

/-!
# C131-C133: the GPRS link's reading of the modem's replies, and the direct send
-/

namespace OTR.Props

theorem getResp_in_reply (n : Nat) (c : Byte) (hc : c ≠ 0) (r : Bytes) (o : Nat) (h : getResp (readMany n r) c = some o) :
    o ≤ n ∧ o ≤ r.length := by
  obtain ⟨pre, rest, h1, _, h3⟩ := getRespFrom_some _ _ _ _ h
  have hl := readMany_length n r
  rw [h1] at hl
  simp at hl
  refine ⟨by omega, ?_⟩
  have hsp : (readMany n r)[pre.length]? = some c := by rw [h1]; simp
  rw [readMany_get n r _ (by omega)] at hsp
  by_cases hx : pre.length < r.length
  · omega
  · rw [if_neg hx] at hsp
    injection hsp with hsp
    exact absurd hsp.symm hc

theorem cutAt_indep (n : Nat) (r : Bytes) (o k : Nat) (a b : Byte) (h : o + k < n) :
    cutAt (readMany n r) o k a = cutAt (readMany n r) o k b := by
  unfold cutAt
  rw [readMany_get n r _ h]; rfl

/-- **C131.** For every reply of at most 60 characters (36 for the PIN query) the link's decision depends only on the reply: no byte
outside the reply buffer is looked at. -/
theorem C131_short_replies (r : Bytes) (a b : Byte) (h : r.length ≤ 60) :
    (r.length ≤ 39 → isPinReady r a = isPinReady r b) ∧ isRegistered r a = isRegistered r b ∧ apnAccepted r a = apnAccepted r b ∧
    udpStatus r a = udpStatus r b ∧ udpOpened r a = udpOpened r b := by
  refine ⟨fun h40 => ?_, ?_, ?_, ?_, ?_⟩
  · unfold isPinReady
    cases hg : getResp (readMany 40 r) 32 with
    | none => rfl
    | some o =>
      have := getResp_in_reply 40 32 (by decide) r o hg
      dsimp only; rw [cutAt_indep 40 r o 0 a b (by omega)]
  · unfold isRegistered
    cases hg : getResp (readMany 64 r) 32 with
    | none => rfl
    | some o =>
      have := getResp_in_reply 64 32 (by decide) r o hg
      dsimp only; rw [cutAt_indep 64 r o 2 a b (by omega)]
  · unfold apnAccepted
    cases hg : getResp (readMany 64 r) 10 with
    | none => rfl
    | some o =>
      have := getResp_in_reply 64 10 (by decide) r o hg
      dsimp only; rw [cutAt_indep 64 r o 2 a b (by omega)]
  · unfold udpStatus
    cases hg : getResp (readMany 64 r) 32 with
    | none => rfl
    | some o =>
      have := getResp_in_reply 64 32 (by decide) r o hg
      dsimp only; rw [cutAt_indep 64 r o 0 a b (by omega), cutAt_indep 64 r o 3 a b (by omega)]
  · unfold udpOpened
    cases hg : getResp (readMany 64 r) 10 with
    | none => rfl
    | some o =>
      have := getResp_in_reply 64 10 (by decide) r o hg
      dsimp only; rw [cutAt_indep 64 r o 0 a b (by omega)]

/-- **C131 (refuted without the length limit).** A 64-character reply whose only space is the last character makes the link read
past its buffer: what lies there decides whether it believes the socket connected. -/
theorem C131_refuted_long_reply :
    udpStatus (List.replicate 63 65 ++ [32]) 67 = 1 ∧ udpStatus (List.replicate 63 65 ++ [32]) 0 = 0 := by decide +kernel

/-- **C131.** What each answer means to the link, for echoes that fit the buffer: PIN ready iff `R` follows the first space. -/
theorem C131_pin_meaning (pre rest : Bytes) (x oob : Byte) (hp : (32 : Byte) ∉ pre) (hl : pre.length ≤ 38) :
    isPinReady (pre ++ 32 :: x :: rest) oob = decide (x = 82) := by
  unfold isPinReady
  rw [getResp_hit 40 32 pre _ hp (by omega)]
  dsimp only
  rw [cutAt_hit 40 32 x pre _ 0 oob (by omega) rfl]
  by_cases h : x = 82 <;> simp [h]

/-- **C131.** Registered iff the third character after the first space is `1` (home) or `5` (roaming). -/
theorem C131_registration_meaning (pre rest : Bytes) (x y z oob : Byte) (hp : (32 : Byte) ∉ pre) (hl : pre.length ≤ 60) :
    isRegistered (pre ++ 32 :: x :: y :: z :: rest) oob = decide (z = 49 ∨ z = 53) := by
  unfold isRegistered
  rw [getResp_hit 64 32 pre _ hp (by omega)]
  dsimp only
  rw [cutAt_hit 64 32 z pre _ 2 oob (by omega) rfl]
  by_cases h : z = 49
  · simp [h]
  · by_cases h' : z = 53 <;> simp [h, h']

/-- **C131 (defect).** When the modem does not answer the APN command at all the link takes it as accepted: `setAPN` returns
`-1`, which is `true`. -/
theorem C131_refuted_silent_apn (oob : Byte) : apnAccepted [] oob = true := by
  unfold apnAccepted; rw [readMany_nil_getResp _ _ (by decide)]

/-! ## C132: the direct send gives up -/

theorem flushLoop_returns (e : Nat) (c : Byte) (ts : List FlushTick) (h : ∃ x ∈ ts, x.1 > e) :
    ∃ b, flushLoop e c ts = some b := by
  induction ts with
  | nil => obtain ⟨x, hx, _⟩ := h; cases hx
  | cons y t ih =>
    obtain ⟨now, b⟩ := y
    unfold flushLoop
    by_cases hn : now ≤ e
    · rw [if_pos hn]
      by_cases hb : b = c
      · rw [if_pos hb]; exact ⟨_, rfl⟩
      · rw [if_neg hb]
        apply ih
        obtain ⟨x, hx, hx'⟩ := h
        rcases List.mem_cons.1 hx with hx | hx
        · rw [hx] at hx'; dsimp only at hx'; omega
        · exact ⟨x, hx, hx'⟩
    · rw [if_neg hn]; exact ⟨_, rfl⟩

theorem flushLoop_stuck (e : Nat) (c : Byte) (ts : List FlushTick) (h : ∀ x ∈ ts, x.1 ≤ e ∧ x.2 ≠ c) :
    flushLoop e c ts = none := by
  induction ts with
  | nil => rfl
  | cons y t ih =>
    obtain ⟨now, b⟩ := y
    have h0 := h (now, b) (by simp)
    unfold flushLoop
    rw [if_pos h0.1, if_neg h0.2]
    exact ih (fun x hx => h x (List.mem_cons_of_mem _ hx))

theorem flushLoop_true (e : Nat) (c : Byte) (ts : List FlushTick) (h : flushLoop e c ts = some true) : ∃ x ∈ ts, x.2 = c := by
  induction ts with
  | nil => cases h
  | cons y t ih =>
    obtain ⟨now, b⟩ := y
    unfold flushLoop at h
    by_cases hn : now ≤ e
    · rw [if_pos hn] at h
      by_cases hb : b = c
      · exact ⟨(now, b), by simp, hb⟩
      · rw [if_neg hb] at h
        obtain ⟨x, hx, hx'⟩ := ih h
        exact ⟨x, List.mem_cons_of_mem _ hx, hx'⟩
    · rw [if_neg hn] at h; cases h

/-- **C132.** Started at second 0 to 57 of a minute, `sendRaw` returns at the latest when the clock shows two seconds later,
whatever the modem does. -/
theorem C132_sendRaw_returns (s : Sim) (m : Bytes) (start : Nat) (ts : List FlushTick) (hs : start ≤ 57)
    (h : ∃ x ∈ ts, x.1 ≥ start + 2) : ∃ r, s.sendRaw m start ts = some r := by
  obtain ⟨b, hb⟩ := flushLoop_returns ((start + 1) % 256) 62 ts (by
    obtain ⟨x, hx, hx'⟩ := h
    exact ⟨x, hx, by omega⟩)
  unfold Sim.sendRaw flushUntil
  rw [hb]
  cases b <;> exact ⟨_, rfl⟩

/-- **C132.** The frame bytes are written only if the modem gave its `>` prompt, and the result says whether they were. -/
theorem C132_sendRaw_result (s s' : Sim) (m : Bytes) (start : Nat) (ts : List FlushTick) (outs : List SimOut) (ok : Bool)
    (h : s.sendRaw m start ts = some (s', outs, ok)) :
    outs = (if ok then [.send m.length, .data m] else [.send m.length]) ∧ (ok = true → ∃ x ∈ ts, x.2 = 62) := by
  unfold Sim.sendRaw at h
  cases hf : flushUntil start 62 ts with
  | none => rw [hf] at h; cases h
  | some b =>
    rw [hf] at h
    cases b
    · injection h with h; injection h with h1 h2; injection h2 with h2 h3
      rw [← h3, ← h2]; simp
    · injection h with h; injection h with h1 h2; injection h2 with h2 h3
      rw [← h3, ← h2]
      exact ⟨rfl, fun _ => flushLoop_true _ _ _ hf⟩

/-- **C132 (refuted for seconds 58 and 59).** Started in the last two seconds of a minute, `sendRaw` has no time-out: the end time
is 59 or 60, which a clock that wraps at 60 never exceeds, so without the prompt it never returns. -/
theorem C132_refuted_end_of_minute (s : Sim) (m : Bytes) (start : Nat) (hs : start = 58 ∨ start = 59) (ts : List FlushTick)
    (h : ∀ x ∈ ts, x.1 ≤ 59 ∧ x.2 ≠ 62) : s.sendRaw m start ts = none := by
  have : flushUntil start 62 ts = none := by
    unfold flushUntil
    apply flushLoop_stuck
    intro x hx
    have := h x hx
    exact ⟨by rcases hs with hs | hs <;> rw [hs] <;> omega, this.2⟩
  unfold Sim.sendRaw; rw [this]

/-- Concrete cases: a prompt at once; none, and the clock moves on. -/
example : (({} : Sim).sendRaw [1, 2] 10 [(10, 255), (10, 62)]).map (·.2) = some ([.send 2, .data [1, 2]], true) ∧
    (({} : Sim).sendRaw [1, 2] 10 [(10, 255), (11, 255), (12, 255)]).map (·.2) = some ([.send 2], false) := by decide +kernel

end OTR.Props
