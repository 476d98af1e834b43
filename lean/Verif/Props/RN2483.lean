import Verif.Model.RN2483
import Verif.Spec.LoraModem
import Verif.Props.TextOut
/-! # C245: the LoRa modem reads the commands that were asked for -/

namespace OTR.Props
open OTR OTR.Spec

/-- What a call asks of the modem. -/
def asked : RnCall → List LoraCmd
  | .reset => [.sysReset]
  | .devAddr => [.devAddr [0x02, 0x01, 0x11, 0x23]]
  | .keys =>
    let k := [0x2B, 0x7E, 0x15, 0x16, 0x28, 0xAE, 0xD2, 0xA6, 0xAB, 0xF7, 0x15, 0x88, 0x09, 0xCF, 0x4F, 0x3C]
    [.appKey k, .netKey k]
  | .join => [.joinABP]
  | .status => [.status]
  | .save => [.save]
  | .dataRate n => [.dataRate n]
  | .adaptive lo hi => [.range 0 lo hi, .range 1 lo hi, .range 2 lo hi, .adrOn]
  | .txPower n => [.power n]
  | .send msg => [.tx 1 msg]

/-- One-digit numbers, messages of at most 127 bytes. -/
def RnSmall : RnCall → Prop
  | .dataRate n => n ≤ 9
  | .adaptive lo hi => lo ≤ 9 ∧ hi ≤ 9
  | .txPower n => n ≤ 9
  | .send msg => msg.length ≤ 127
  | _ => True

theorem linesFrom_cons (cur : Bytes) (c : Byte) (t : Bytes) (h : c ≠ 13) : linesFrom cur (c :: t) = linesFrom (cur ++ [c]) t := by
  rw [linesFrom]
  intro t' e
  cases e
  exact absurd rfl h

theorem linesFrom_line (l : Bytes) : ∀ (cur rest : Bytes), (∀ c ∈ l, c ≠ 13) →
    linesFrom cur (l ++ [13, 10] ++ rest) = (cur ++ l) :: linesFrom [] rest := by
  induction l with
  | nil => intro cur rest _; simp [linesFrom]
  | cons c t ih =>
    intro cur rest h
    have e := ih (cur ++ [c]) rest fun x hx => h x (List.mem_cons_of_mem _ hx)
    show linesFrom cur (c :: (t ++ [13, 10] ++ rest)) = _
    rw [linesFrom_cons _ _ _ (h c (List.mem_cons_self ..)), e]
    simp

theorem wordsFrom_word (l : Bytes) : ∀ cur : Bytes, (∀ c ∈ l, c ≠ 32) → wordsFrom cur l = [cur ++ l] := by
  induction l with
  | nil => intro cur _; simp [wordsFrom]
  | cons c t ih =>
    intro cur h
    rw [wordsFrom]
    · rw [ih _ fun x hx => h x (List.mem_cons_of_mem _ hx)]; simp
    · intro e; exact absurd e (h c (List.mem_cons_self ..))

theorem wordsFrom_sp (l : Bytes) : ∀ cur r : Bytes, (∀ c ∈ l, c ≠ 32) → wordsFrom cur (l ++ 32 :: r) = (cur ++ l) :: wordsFrom [] r := by
  induction l with
  | nil => intro cur r _; simp [wordsFrom]
  | cons c t ih =>
    intro cur r h
    rw [List.cons_append, wordsFrom]
    · rw [ih _ _ fun x hx => h x (List.mem_cons_of_mem _ hx)]; simp
    · intro e; exact absurd e (h c (List.mem_cons_self ..))

/-- The text is made of complete lines which the modem reads as the commands `w`. -/
def Reads (out : Bytes) (w : List LoraCmd) : Prop :=
  ∃ ls : List Bytes, out = ls.flatMap (· ++ [13, 10]) ∧ (∀ l ∈ ls, ∀ c ∈ l, c ≠ 13) ∧ ls.map command = w.map some

theorem Reads.append {a b : Bytes} {v w : List LoraCmd} (h1 : Reads a v) (h2 : Reads b w) : Reads (a ++ b) (v ++ w) := by
  obtain ⟨l1, e1, n1, r1⟩ := h1
  obtain ⟨l2, e2, n2, r2⟩ := h2
  refine ⟨l1 ++ l2, by rw [List.flatMap_append, e1, e2], ?_, by rw [List.map_append, List.map_append, r1, r2]⟩
  intro l hl
  rcases List.mem_append.mp hl with h | h
  · exact n1 l h
  · exact n2 l h

theorem Reads.reads {out : Bytes} {w : List LoraCmd} (h : Reads out w) : modemReads out = w.map some := by
  obtain ⟨ls, e, n, r⟩ := h
  rw [← r, e]
  unfold modemReads
  congr 1
  clear r e
  induction ls with
  | nil => simp [linesFrom]
  | cons l t ih =>
    rw [List.flatMap_cons, linesFrom_line _ _ _ (n l (List.mem_cons_self ..)), ih fun x hx => n x (List.mem_cons_of_mem _ hx)]
    rfl

theorem Reads.line (l : Bytes) (c : LoraCmd) (h : (∀ x ∈ l, x ≠ 13) ∧ command l = some c) : Reads (l ++ [13, 10]) [c] :=
  ⟨[l], by simp, by simpa using h.1, by simp [h.2]⟩

theorem hexData_text (m : Bytes) : hexData (hexText m) = some m := by
  have hb : ∀ b : Byte, modemHexVal (rnDigit (b.toNat / 16)) = some (b.toNat / 16) ∧ modemHexVal (rnDigit (b.toNat % 16)) = some (b.toNat % 16) ∧
      UInt8.ofNat (16 * (b.toNat / 16) + b.toNat % 16) = b := by
    apply forall_byte; decide +kernel
  induction m with
  | nil => rfl
  | cons b t ih =>
    obtain ⟨h1, h2, h3⟩ := hb b
    show hexData (rnDigit (b.toNat / 16) :: rnDigit (b.toNat % 16) :: hexText t) = _
    rw [hexData, h1, h2, ih]
    simp only [h3]

theorem hexText_plain (m : Bytes) : ∀ c ∈ hexText m, c ≠ 13 ∧ c ≠ 32 := by
  have hb : ∀ b : Byte, (rnDigit (b.toNat / 16) ≠ 13 ∧ rnDigit (b.toNat / 16) ≠ 32) ∧ rnDigit (b.toNat % 16) ≠ 13 ∧ rnDigit (b.toNat % 16) ≠ 32 := by
    apply forall_byte; decide +kernel
  intro c hc
  unfold hexText at hc
  rw [List.mem_flatMap] at hc
  obtain ⟨b, _, h⟩ := hc
  simp only [List.mem_cons, List.not_mem_nil, or_false] at h
  rcases h with rfl | rfl
  · exact (hb b).1
  · exact (hb b).2

theorem send_reads (m : Bytes) (h : m.length ≤ 127) : ∃ out, rnSend m = .ok out ∧ Reads out [.tx 1 m] := by
  have hg := rnGetHex_eq m.length m (Nat.le_refl _) (by omega)
  rw [List.take_length] at hg
  refine ⟨(txCommand ++ hexText m) ++ [13, 10], ?_, Reads.line _ _ ⟨?_, ?_⟩⟩
  · unfold rnSend
    rw [show (2 * m.length) % 256 = 2 * m.length by omega, hg]
    dsimp only
    rw [txCommand_eq]
    rfl
  · intro c hc
    rcases List.mem_append.mp hc with h | h
    · have : ∀ c ∈ txCommand, c ≠ 13 := by decide
      exact this c h
    · exact (hexText_plain m c h).1
  · have hw : wordsFrom [] (txCommand ++ hexText m) = [kw "mac", kw "tx", kw "uncnf", kw "1", hexText m] := by
      have e := wordsFrom_word (hexText m) [] fun c hc => (hexText_plain m c hc).2
      have g : txCommand = kw "mac" ++ 32 :: (kw "tx" ++ 32 :: (kw "uncnf" ++ 32 :: (kw "1" ++ [32]))) := by decide +kernel
      rw [g]
      simp only [List.append_assoc, List.cons_append, List.nil_append]
      rw [wordsFrom_sp _ _ _ (by decide +kernel), wordsFrom_sp _ _ _ (by decide +kernel), wordsFrom_sp _ _ _ (by decide +kernel),
        wordsFrom_sp _ _ _ (by decide +kernel), e]
      rfl
    unfold command
    rw [hw]
    have d : decimal (kw "1") = some 1 := by decide +kernel
    simp only [d, hexData_text]
    rfl

theorem dr_reads : ∀ n, n < 10 → (∀ x ∈ ascii "mac " ++ ascii "set " ++ ascii "dr " ++ [u8 (48 + n)], x ≠ 13) ∧
    command (ascii "mac " ++ ascii "set " ++ ascii "dr " ++ [u8 (48 + n)]) = some (.dataRate n) := by decide +kernel

theorem pw_reads : ∀ n, n < 10 → (∀ x ∈ ascii "mac " ++ ascii "set " ++ ascii "pwridx " ++ [u8 (48 + n)], x ≠ 13) ∧
    command (ascii "mac " ++ ascii "set " ++ ascii "pwridx " ++ [u8 (48 + n)]) = some (.power n) := by decide +kernel

theorem range_reads : ∀ i, i < 3 → ∀ lo, lo < 10 → ∀ hi, hi < 10 →
    (∀ x ∈ ascii "mac " ++ ascii "set " ++ ascii "ch " ++ ascii "drrange " ++ [u8 (48 + i)] ++ [32] ++ [u8 (48 + lo)] ++ [32] ++ [u8 (48 + hi)], x ≠ 13) ∧
    command (ascii "mac " ++ ascii "set " ++ ascii "ch " ++ ascii "drrange " ++ [u8 (48 + i)] ++ [32] ++ [u8 (48 + lo)] ++ [32] ++ [u8 (48 + hi)]) =
      some (.range i lo hi) := by decide +kernel

theorem call_reads (c : RnCall) (h : RnSmall c) : ∃ out, rnCall c = .ok out ∧ Reads out (asked c) := by
  cases c with
  | reset => exact ⟨_, rfl, Reads.line _ _ (by decide +kernel)⟩
  | devAddr => exact ⟨_, rfl, Reads.line _ _ (by decide +kernel)⟩
  | keys => exact ⟨_, rfl, (Reads.line _ _ (by decide +kernel)).append (Reads.line _ _ (by decide +kernel))⟩
  | join => exact ⟨_, rfl, Reads.line _ _ (by decide +kernel)⟩
  | status => exact ⟨_, rfl, Reads.line _ _ (by decide +kernel)⟩
  | save => exact ⟨_, rfl, Reads.line _ _ (by decide +kernel)⟩
  | dataRate n => exact ⟨_, rfl, Reads.line _ _ (dr_reads n (Nat.lt_succ_of_le h))⟩
  | txPower n => exact ⟨_, rfl, Reads.line _ _ (pw_reads n (Nat.lt_succ_of_le h))⟩
  | send m => exact send_reads m h
  | adaptive lo hi =>
    refine ⟨rnADR lo hi, rfl, ?_⟩
    have hl := Nat.lt_succ_of_le h.1
    have hh := Nat.lt_succ_of_le h.2
    have r := ((Reads.line _ _ (range_reads 0 (by omega) lo hl hi hh)).append ((Reads.line _ _ (range_reads 1 (by omega) lo hl hi hh)).append
      (Reads.line _ _ (range_reads 2 (by omega) lo hl hi hh)))).append
      (Reads.line (ascii "mac " ++ ascii "set " ++ ascii "adr on") .adrOn (by decide +kernel))
    unfold rnADR
    simp only [List.range, List.range.loop, List.flatMap_cons, List.flatMap_nil, List.append_assoc, List.append_nil, rnEnd] at r ⊢
    exact r

/-- **C245** After any history of calls to the link — with one-digit numbers and messages of at most 127 bytes — the modem has read exactly the
commands asked for, in that order, and nothing it would refuse. -/
theorem C245_reads_partial (cs : List RnCall) (h : ∀ c ∈ cs, RnSmall c) :
    ∃ out, rnCalls cs = .ok out ∧ modemReads out = (cs.flatMap asked).map some := by
  have g : ∃ out, rnCalls cs = .ok out ∧ Reads out (cs.flatMap asked) := by
    induction cs with
    | nil => exact ⟨[], rfl, [], rfl, by simp, rfl⟩
    | cons c t ih =>
      obtain ⟨a, ea, ra⟩ := call_reads c (h c (List.mem_cons_self ..))
      obtain ⟨b, eb, rb⟩ := ih fun x hx => h x (List.mem_cons_of_mem _ hx)
      refine ⟨a ++ b, ?_, ?_⟩
      · rw [rnCalls, ea]; dsimp only; rw [eb]
      · rw [List.flatMap_cons]; exact ra.append rb
  obtain ⟨out, e, r⟩ := g
  exact ⟨out, e, r.reads⟩

/-- **C245** is false for larger numbers: for every other value of the `uint8_t` argument the modem is not told any data rate (or power) at all —
the digit printed is not one. -/
theorem C245_refuted_number (n : Nat) (h1 : 10 ≤ n) (h2 : n ≤ 255) :
    (∃ out, rnCall (.dataRate n) = .ok out ∧ ∀ m, some (LoraCmd.dataRate m) ∉ modemReads out) ∧
    ∃ out, rnCall (.txPower n) = .ok out ∧ ∀ m, some (LoraCmd.power m) ∉ modemReads out := by
  have a : ∀ n, n < 256 → 10 ≤ n → ∀ x ∈ modemReads (ascii "mac " ++ ascii "set " ++ ascii "dr " ++ [u8 (48 + n)] ++ rnEnd), x = none := by
    decide +kernel
  have b : ∀ n, n < 256 → 10 ≤ n → ∀ x ∈ modemReads (ascii "mac " ++ ascii "set " ++ ascii "pwridx " ++ [u8 (48 + n)] ++ rnEnd), x = none := by
    decide +kernel
  refine ⟨⟨_, rfl, ?_⟩, ⟨_, rfl, ?_⟩⟩
  · intro m hm
    cases a n (by omega) h1 _ hm
  · intro m hm
    cases b n (by omega) h1 _ hm

/-- **C245** Starting the link: after the auto-baud character the modem is told the address, both keys, the data rates 1 to 5 for the three default channels
and to adapt, then to join; then it is asked for its status. -/
theorem C245_begin : ∃ t, rnBegin = 0x55 :: t ∧
    modemReads t = ([RnCall.devAddr, .keys, .adaptive 1 5, .join, .status].flatMap asked).map some :=
  ⟨rnBegin.tail, by decide +kernel, by decide +kernel⟩

example : RnSmall (.dataRate 5) ∧ RnSmall (.send [1, 2, 3]) ∧
    modemReads (ascii "mac set dr 5\r\nmac tx uncnf 1 010203\r\n") = [some (.dataRate 5), some (.tx 1 [1, 2, 3])] := by
  refine ⟨by show 5 ≤ 9; omega, by show 3 ≤ 127; omega, by decide +kernel⟩

end OTR.Props
