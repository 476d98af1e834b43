import Verif.Props.SecureFrame
/-!
# Properties C17-C19: valve frame, secure beacon, encoder error value
-/

namespace OTR.Props
open OTR

/-! ## C17 -/

/-- `text` is the C string at the start of the memory `mem`: the bytes before the first NUL. -/
def CString (mem text : Bytes) : Prop := (∀ b ∈ text, b ≠ 0) ∧ ∃ rest, mem = text ++ 0 :: rest

theorem strlen_some {m : Bytes} {n : Nat} (h : strlen m = some n) : CString m (m.take n) ∧ (m.take n).length = n := by
  induction m generalizing n with
  | nil => simp [strlen] at h
  | cons b t ih =>
    simp only [strlen] at h
    split at h
    · rename_i hb
      simp only [Option.some.injEq] at h; subst h; subst hb
      exact ⟨⟨by simp, t, by simp⟩, by simp⟩
    · rename_i hb
      cases hs : strlen t with
      | none => simp [hs] at h
      | some m =>
        simp only [hs, Option.map_some, Option.some.injEq] at h
        subst h
        obtain ⟨⟨i1, rest, i2⟩, i3⟩ := ih hs
        refine ⟨⟨?_, rest, ?_⟩, by simp [i3]⟩
        · intro x hx
          simp only [List.take_succ_cons, List.mem_cons] at hx
          rcases hx with rfl | hx
          · exact hb
          · exact i1 x hx
        · simp only [List.take_succ_cons, List.cons_append]; rw [← i2]

theorem strlen_of_CString {m text : Bytes} (h : CString m text) : strlen m = some text.length := by
  obtain ⟨h1, rest, rfl⟩ := h
  induction text with
  | nil => simp [strlen]
  | cons b t ih =>
    have hb : b ≠ 0 := h1 b (by simp)
    simp only [List.cons_append, strlen, hb, if_false]
    rw [ih (fun x hx => h1 x (by simp [hx]))]; simp

/-- **C17a.** Any valve frame that `encodeValveFrame` produces decodes (with the same key and IV, any cipher pair in
which decryption inverts encryption) to a body that is: valve percentage if 0..100 else 0x7f; then 0x10 if a JSON
object is attached, else 0; then, if attached, the JSON text without its last character. -/
theorem C17_valve_body (p outbuf : Bytes) (il valvePC : Byte) (s : TxSource) (e : EncFn) (d : DecFn) (scratch dscratch : Nat)
    (key : Option Bytes) (n : Nat) (h : Hdr) (out : Bytes) (hel : EncLen e) (hinv : Inverse e d)
    (hds : 32 ≤ dscratch)
    (he : encodeValveFrame (some p) outbuf il valvePC s e scratch key = .ok (n, h, out)) :
    ∃ iv json, computeIVForTX12B s = some iv ∧ decodeHeader out = .ok h ∧
      decodeRaw h out true dscratch d key (some iv) =
        .ok (n, [if valvePC.toNat ≤ 100 then valvePC else 0x7f, if p[2]? = some 0x7b then 0x10 else 0] ++ json) ∧
      (p[2]? ≠ some 0x7b → json = []) ∧
      (p[2]? = some 0x7b → ∃ text, CString (p.drop 2) text ∧ json = text.dropLast) := by
  unfold encodeValveFrame at he
  rw [failIf_eq_ok] at he
  obtain ⟨_, he⟩ := he
  split at he
  · simp at he
  rename_i iv hiv
  simp only [rd_eq_ok] at he
  obtain ⟨h2, he⟩ := he
  have hg : p[2]? = some p[2] := List.getElem?_eq_getElem h2
  split at he
  · simp at he
  rename_i slp1 hsl
  simp only [failIf_eq_ok, wrBlock_eq_ok, List.take_zero, List.nil_append, List.length_cons, List.length_nil,
    Nat.zero_add, Nat.reduceAdd] at he
  obtain ⟨hlen, hp2, hil, he⟩ := he
  obtain ⟨r1, r2⟩ := C10_secure_raw_roundtrip _ _ _ _ _ _ _ _ d _ _ _ _ hel hinv dscratch hds he
  simp only [Option.getD_some, List.cons_append, List.nil_append] at r2
  by_cases hst : p[2] = 0x7b
  · simp only [hst, if_true] at r2 hsl hg
    obtain ⟨c1, c2⟩ := strlen_some hsl
    refine ⟨iv, (p.drop 2).take (slp1 - 1), hiv, r1, ?_, ?_, ?_⟩
    · rw [r2, hg, show 2 + (slp1 - 1) = (slp1 - 1 + 1) + 1 by omega]; simp
    · intro hne; exact absurd hg hne
    · intro _
      refine ⟨_, c1, ?_⟩
      rw [List.dropLast_eq_take, c2, List.take_take, Nat.min_eq_left (by omega)]
  · simp only [hst, if_false] at r2 hsl
    refine ⟨iv, [], hiv, r1, ?_, fun _ => rfl, ?_⟩
    · rw [r2, hg]; simp [hst]
    · intro hh; rw [hg] at hh; simp at hh; exact absurd hh hst

/-- **C17b.** JSON text of more than 30 characters is refused, as is an ID length over 6. -/
theorem C17_valve_refuses (p outbuf : Bytes) (il valvePC : Byte) (s : TxSource) (e : EncFn) (scratch : Nat)
    (key : Option Bytes) (hp : 3 ≤ p.length) (text : Bytes)
    (hbad : (p[2]? = some 0x7b ∧ CString (p.drop 2) text ∧ 30 < text.length) ∨
            (6 < il.toNat ∧ p[2]? ≠ some 0x7b)) :
    encodeValveFrame (some p) outbuf il valvePC s e scratch key = .fail := by
  unfold encodeValveFrame failIf
  split
  · rfl
  split
  · rfl
  simp only
  rw [rd_lt (by omega)]
  have hg : p[2]? = some p[2] := List.getElem?_eq_getElem (by omega)
  rcases hbad with ⟨h1, h2, h3⟩ | ⟨h1, h2⟩
  · rw [hg] at h1
    simp only [Option.some.injEq] at h1
    simp only [h1, if_true]
    rw [strlen_of_CString h2]
    simp only
    rw [if_pos (by omega)]
  · rw [hg] at h2
    have h2' : p[2] ≠ 0x7b := fun h => h2 (by rw [h])
    simp only [h2', if_false]
    rw [if_neg (by omega)]
    have hL : ([if valvePC.toNat ≤ 100 then valvePC else 0x7f, 0] : Bytes).length = 2 := rfl
    generalize ([if valvePC.toNat ≤ 100 then valvePC else 0x7f, 0] : Bytes) = L at hL
    unfold wrBlock
    rw [if_pos (by omega)]
    dsimp only
    rw [if_pos (by omega)]

/-- A concrete transmitter, its example stats `{"b":1` + '}' and a valve at 64%. -/
def exSrc : TxSource := ⟨some [0x80, 0x81, 0x82, 0x83, 0x84, 0x85, 0x86, 0x87], some [0, 0, 42, 0, 3, 25]⟩
def exValveBuf : Bytes := [0, 0] ++ [0x7b, 0x22, 0x62, 0x22, 0x3a, 0x31, 0x7d, 0] ++ List.replicate 22 0

/-- Non-vacuity of C17: the call succeeds with a 32-byte body. -/
example : (match encodeValveFrame (some exValveBuf) (List.replicate 64 0) 4 64 exSrc nullEncChecked 284
    (some (List.replicate 16 7)) with
    | .ok (n, h, _) => n == 63 && h.bl == 32
    | _ => false) = true := by decide +kernel
example : CString (exValveBuf.drop 2) [0x7b, 0x22, 0x62, 0x22, 0x3a, 0x31, 0x7d] :=
  ⟨by decide, List.replicate 22 0, by decide⟩

/-! ## C18 -/

/-- The documented claim: with a valid key, cipher, ID source, ID length and an ample buffer, some beacon is produced. -/
def C18_claim : Prop :=
  ∀ (buf : Bytes) (il : Byte) (s : TxSource) (e : EncFn) (scratch : Nat) (k : Bytes),
    64 ≤ buf.length → il.toNat ≤ 6 → s = exSrc → e = nullEncChecked → 1024 ≤ scratch → k.length = 16 →
    ∃ n h out, generateSecureBeacon buf il s s.txid e scratch (some k) = .frame n h out

/-- **C18 (negative result).** `generateSecureBeacon` can never produce a frame, for any arguments whatever:
it passes the caller's buffer as the plaintext and a NULL, zero-length output buffer to `encode`. -/
theorem C18_beacon_never (buf : Bytes) (il : Byte) (s : TxSource) (txidAgain : Option Bytes) (e : EncFn)
    (scratch : Nat) (key : Option Bytes) :
    ∀ n h out, generateSecureBeacon buf il s txidAgain e scratch key ≠ .frame n h out := by
  intro n h out hh
  have aux : ∀ id iv, EncRet.ofRes (encodeRaw FTS_ALIVE (some buf) 0 [] id il iv e key) ≠ .frame n h out := by
    intro id iv hh
    unfold encodeRaw at hh
    cases key with
    | none => simp [EncRet.ofRes] at hh
    | some k =>
      simp only [failIf, rd] at hh
      split at hh
      · simp [EncRet.ofRes] at hh
      split at hh
      · split at hh
        · simp [EncRet.ofRes] at hh
        · simp [EncRet.ofRes] at hh
        · rename_i heh
          rw [encodeHeader_ok] at heh
          obtain ⟨_, _, _, _, _, h4, _⟩ := heh
          simp at h4
      · simp [EncRet.ofRes] at hh
  unfold generateSecureBeacon encode at hh
  split at hh
  · simp at hh
  split at hh
  · simp at hh
  split at hh
  · simp at hh
  split at hh
  · split at hh
    · simp at hh
    · exact aux _ _ hh
  · exact aux _ _ hh

theorem C18_refuted : ¬ C18_claim := by
  intro hc
  obtain ⟨n, h, out, hh⟩ := hc (List.replicate 64 0) 4 exSrc nullEncChecked 1024 (List.replicate 16 0)
    (by simp) (by decide) rfl rfl (by omega) (by simp)
  exact C18_beacon_never _ _ _ _ _ _ _ _ _ _ hh

/-! ## C19 -/

/-- The documented claim: `encode` returns a frame, or 0. -/
def C19_claim : Prop :=
  ∀ (fType : Byte) (ptext : Option Bytes) (ptextLen : Nat) (outbuf : Bytes) (il : Byte) (s : TxSource)
    (txidAgain : Option Bytes) (e : EncFn) (scratch : Nat) (key : Option Bytes) (v : Nat),
    encode fType ptext ptextLen outbuf il s txidAgain e scratch key = .ret v → v = 0

/-- **C19 is false of the code**: with an ID longer than 6 bytes and the second ID fetch failing, 255 (`uint8_t(-1)`)
is returned, which a caller will take for a frame length. -/
theorem C19_refuted : ¬ C19_claim := by
  intro h
  have := h FTS_BasicSensorOrValve none 0 (List.replicate 64 0) 8 exSrc none nullEncChecked 292 (some []) 255
    (by decide +kernel)
  omega

/-- **C19 (partial).** The claim holds when at most 6 ID bytes are sent, or the second ID fetch succeeds.
Missing: ID length 7-8 with a failing second fetch, where the claim is false. -/
theorem C19_encode_failure_zero_partial (fType : Byte) (ptext : Option Bytes) (ptextLen : Nat) (outbuf : Bytes) (il : Byte)
    (s : TxSource) (txidAgain : Option Bytes) (e : EncFn) (scratch : Nat) (key : Option Bytes) (v : Nat)
    (hil : il.toNat ≤ 6 ∨ txidAgain.isSome)
    (h : encode fType ptext ptextLen outbuf il s txidAgain e scratch key = .ret v) : v = 0 := by
  have aux : ∀ r, EncRet.ofRes r = .ret v → v = 0 := by
    intro r hr; cases r with
    | ok a => obtain ⟨a, b, c⟩ := a; simp [EncRet.ofRes] at hr
    | fail => simp only [EncRet.ofRes, EncRet.ret.injEq] at hr; exact hr.symm
    | ub => simp [EncRet.ofRes] at hr
  unfold encode at h
  split at h
  · simpa using h.symm
  split at h
  · simpa using h.symm
  split at h
  · simpa using h.symm
  split at h
  · split at h
    · rcases hil with hil | hil
      · omega
      · simp at hil
    · exact aux _ h
  · exact aux _ h

/-- Non-vacuity: a failing call with a 4-byte ID (output buffer too small). -/
example : encode FTS_BasicSensorOrValve none 0 (List.replicate 20 0) 4 exSrc none nullEncChecked 292
    (some (List.replicate 16 0)) = .ret 0 := by decide +kernel

end OTR.Props
