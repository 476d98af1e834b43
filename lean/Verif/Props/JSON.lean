import Verif.Model.JSON
import Verif.Props.CRC
/-!
# Property C63: JSON messages on the wire

A message is `'{' :: mid ++ ['}']` with `mid` printable (bytes 32..126): `JMid mid`.
-/

namespace OTR.Props
open OTR

/-- The inside of a raw JSON message: printable bytes, at most 52 of them. -/
def JMid (mid : Bytes) : Prop := mid.length ≤ 52 ∧ ∀ c ∈ mid, 32 ≤ c.toNat ∧ c.toNat ≤ 126

theorem jmid_ne (mid : Bytes) (h : ∀ c ∈ mid, 32 ≤ c.toNat ∧ c.toNat ≤ 126) : ∀ c ∈ mid, c ≠ 0 ∧ c ≠ jCloseTX := by
  intro c hc
  have := h c hc
  constructor <;> rintro rfl <;> simp at this

theorem qv_cont (c : Byte) (h : 32 ≤ c.toNat ∧ c.toNat ≤ 126) (n : Nat) (t : Bytes) (ht : ∃ d r, t = d :: r ∧ d ≠ 0) :
    qvLoop (n + 1) (c :: t) = qvLoop n t := by
  obtain ⟨d, r, rfl, hd⟩ := ht
  rw [qvLoop]
  have : ¬ (c.toNat < 32 ∨ c.toNat > 126) := by omega
  simp only [this, if_false]
  split
  · rw [rd_lt (by simp)]; simp [hd]
  · rfl

theorem qv_accepts (mid : Bytes) : ∀ (n : Nat) (rest : Bytes), mid.length < n → (∀ c ∈ mid, 32 ≤ c.toNat ∧ c.toNat ≤ 126) →
    qvLoop n (mid ++ [jClose, 0] ++ rest) = .ok true := by
  induction mid with
  | nil =>
    intro n rest h _
    obtain ⟨n, rfl⟩ : ∃ k, n = k + 1 := ⟨n - 1, by simp at h; omega⟩
    simp [qvLoop, rd]
  | cons c t ih =>
    intro n rest h hp
    obtain ⟨n, rfl⟩ : ∃ k, n = k + 1 := ⟨n - 1, by simp at h; omega⟩
    have hne : ∃ d r, t ++ [jClose, 0] ++ rest = d :: r ∧ d ≠ 0 := by
      cases t with
      | nil => exact ⟨jClose, 0 :: rest, rfl, by decide⟩
      | cons d r => exact ⟨d, r ++ [jClose, 0] ++ rest, rfl, (jmid_ne _ hp d (by simp)).1⟩
    have := qv_cont c (hp c (by simp)) n _ hne
    simp only [List.cons_append] at this ⊢
    rw [this]
    exact ih n rest (by simp at h; omega) (fun x hx => hp x (by simp [hx]))

theorem qv_sound (n : Nat) : ∀ t : Bytes, qvLoop n t = .ok true →
    ∃ mid rest, t = mid ++ [jClose, 0] ++ rest ∧ mid.length < n ∧ ∀ c ∈ mid, 32 ≤ c.toNat ∧ c.toNat ≤ 126 := by
  induction n with
  | zero => intro t h; simp [qvLoop] at h
  | succ n ih =>
    intro t h
    cases t with
    | nil => simp [qvLoop] at h
    | cons c t =>
      rw [qvLoop] at h
      have hcont : (if c.toNat < 32 ∨ c.toNat > 126 then Res.ok false else qvLoop n t) = .ok true →
          ∃ mid rest, c :: t = mid ++ [jClose, 0] ++ rest ∧ mid.length < n + 1 ∧ ∀ c ∈ mid, 32 ≤ c.toNat ∧ c.toNat ≤ 126 := by
        intro h
        split at h
        · simp at h
        · rename_i hc
          obtain ⟨mid, rest, e, hl, hp⟩ := ih t h
          refine ⟨c :: mid, rest, by simp [e], by simp; omega, ?_⟩
          intro x hx
          rcases List.mem_cons.1 hx with rfl | hx
          · omega
          · exact hp x hx
      split at h
      · rename_i hc
        rw [rd_eq_ok] at h
        obtain ⟨hl, h⟩ := h
        split at h
        · rename_i h0
          refine ⟨[], t.tail, ?_, by simp, by simp⟩
          subst hc
          cases t with
          | nil => simp at hl
          | cons d r => simp at h0; simp [h0]
        · exact hcont h
      · exact hcont h

/-- **C63**: the sender accepts exactly the messages documented: `{`, printable characters, `}` and the terminating null, at most 54
characters in all (whatever follows the null in memory). -/
theorem C63_sender_accepts (buf : Bytes) :
    quickValidateJSON buf = .ok true ↔ ∃ mid rest, buf = jOpen :: mid ++ [jClose, 0] ++ rest ∧ JMid mid := by
  constructor
  · intro h
    cases buf with
    | nil => simp [quickValidateJSON] at h
    | cons c t =>
      rw [quickValidateJSON] at h
      split at h
      · simp at h
      · rename_i hc
        have hc : c = jOpen := Classical.not_not.1 hc
        obtain ⟨mid, rest, e, hl, hp⟩ := qv_sound 53 t h
        exact ⟨mid, rest, by rw [hc, e]; rfl, by omega, hp⟩
  · rintro ⟨mid, rest, rfl, hl, hp⟩
    show (if jOpen ≠ jOpen then Res.ok false else qvLoop 53 (mid ++ [jClose, 0] ++ rest)) = .ok true
    rw [if_neg (by simp)]
    exact qv_accepts mid 53 rest (by omega) hp

/-- Neither of the sender's routines reads outside a buffer that holds a terminating null. -/
theorem qv_no_ub (t : Bytes) (h : (0 : Byte) ∈ t) : ∀ n, qvLoop n t ≠ .ub := by
  induction t with
  | nil => simp at h
  | cons c t ih =>
    intro n
    cases n with
    | zero => simp [qvLoop]
    | succ n =>
      rw [qvLoop]
      by_cases hc0 : c = 0
      · subst hc0; simp
      have ht : (0 : Byte) ∈ t := by
        rcases List.mem_cons.1 h with h | h
        · exact absurd h.symm hc0
        · exact h
      have hcont : (if c.toNat < 32 ∨ c.toNat > 126 then Res.ok false else qvLoop n t) ≠ .ub := by
        split
        · simp
        · exact ih ht n
      split
      · rw [Ne, rd_eq_ub]
        intro hx
        have hl : 0 < t.length := List.length_pos_of_mem ht
        have := hx hl
        split at this
        · simp at this
        · exact hcont this
      · exact hcont

theorem adj_spec (mid : Bytes) : ∀ (crc : Byte) (rest : Bytes), (∀ c ∈ mid, 32 ≤ c.toNat ∧ c.toNat ≤ 126) →
    adjLoop crc (mid ++ [jClose, 0] ++ rest) =
      .ok ((mid ++ [jCloseTX]).foldl crc7_5B_update crc, mid ++ [jCloseTX, 0] ++ rest) := by
  induction mid with
  | nil => intro crc rest _; simp [adjLoop, rd]
  | cons c t ih =>
    intro crc rest hp
    have hc0 := (jmid_ne _ hp c (by simp)).1
    have hnext : ∀ x, rd (t ++ [jClose, 0] ++ rest) 0 (fun d => if d = 0 then x else
        Res.ok ((t ++ [jCloseTX]).foldl crc7_5B_update (crc7_5B_update crc c), c :: (t ++ [jCloseTX, 0] ++ rest))) =
        .ok ((t ++ [jCloseTX]).foldl crc7_5B_update (crc7_5B_update crc c), c :: (t ++ [jCloseTX, 0] ++ rest)) := by
      intro x
      cases t with
      | nil => simp [rd]
      | cons d r =>
        have := (jmid_ne _ hp d (by simp)).1
        simp [rd, this]
    rw [List.cons_append, List.cons_append, adjLoop, ih _ rest (fun x hx => hp x (by simp [hx]))]
    dsimp only
    rw [if_neg hc0]
    split
    · rw [hnext]; simp
    · simp

/-- **C63**: adjusting a message for transmission changes only its last character (to one that appears nowhere else), and gives
the CRC of everything after the `{`, starting from `{`. Anything else is refused with 0xff and left alone. A buffer holding a null
is never read outside. -/
theorem C63_adjust (buf : Bytes) (h0 : (0 : Byte) ∈ buf) :
    (∀ mid rest, buf = jOpen :: mid ++ [jClose, 0] ++ rest → JMid mid →
      adjustJSON buf = .ok ((mid ++ [jCloseTX]).foldl crc7_5B_update jOpen, jOpen :: mid ++ [jCloseTX, 0] ++ rest) ∧
      ((mid ++ [jCloseTX]).foldl crc7_5B_update jOpen).toNat < 128) ∧
    ((¬ ∃ mid rest, buf = jOpen :: mid ++ [jClose, 0] ++ rest ∧ JMid mid) → adjustJSON buf = .ok (0xff, buf)) := by
  constructor
  · rintro mid rest rfl hm
    have hq := (C63_sender_accepts (jOpen :: mid ++ [jClose, 0] ++ rest)).2 ⟨mid, rest, rfl, hm⟩
    unfold adjustJSON
    rw [hq]
    dsimp only
    have := adj_spec mid jOpen rest hm.2
    refine ⟨?_, (C31_range jOpen mid jCloseTX).1⟩
    show (match adjLoop jOpen (mid ++ [jClose, 0] ++ rest) with
      | .ok (r, t) => Res.ok (r, jOpen :: t)
      | .fail => .fail
      | .ub => .ub) = _
    rw [this]
    rfl
  · intro hn
    have hq : quickValidateJSON buf = .ok false := by
      cases hb : buf with
      | nil => rw [hb] at h0; simp at h0
      | cons c t =>
        rw [quickValidateJSON]
        split
        · rfl
        · rename_i hc
          have hc : c = jOpen := Classical.not_not.1 hc
          have ht : (0 : Byte) ∈ t := by
            rw [hb] at h0
            rcases List.mem_cons.1 h0 with h | h
            · rw [hc] at h; exact absurd h (by decide)
            · exact h
          have h1 := qv_no_ub t ht 53
          cases hr : qvLoop 53 t with
          | ub => exact absurd hr h1
          | fail =>
            have : ∀ (n : Nat) (t : Bytes), qvLoop n t ≠ .fail := by
              intro n
              induction n with
              | zero => intro t; simp [qvLoop]
              | succ n ih =>
                intro t
                cases t with
                | nil => simp [qvLoop]
                | cons c t =>
                  rw [qvLoop]
                  have hcont : (if c.toNat < 32 ∨ c.toNat > 126 then Res.ok false else qvLoop n t) ≠ .fail := by
                    split
                    · simp
                    · exact ih t
                  split
                  · unfold rd
                    split
                    · rename_i b _
                      dsimp only
                      by_cases hb0 : b = 0
                      · rw [if_pos hb0]; simp
                      · rw [if_neg hb0]; exact hcont
                    · simp
                  · exact hcont
            exact absurd hr (this 53 t)
          | ok v =>
            cases v with
            | false => rfl
            | true =>
              exfalso
              apply hn
              apply (C63_sender_accepts buf).1
              rw [hb, quickValidateJSON, if_neg (by simp [hc]), hr]
    unfold adjustJSON
    rw [hq]

/-! ## The receiver -/

theorem chk_cont (c : Byte) (h : 32 ≤ c.toNat ∧ c.toNat ≤ 126) (n i : Nat) (crc : Byte) (t : Bytes) (ht : ∃ d r, t = d :: r ∧ (c = jClose → d ≠ 0)) :
    chkLoop (n + 1) i crc (c :: t) = chkLoop n (i + 1) (crc7_5B_update crc c) t := by
  obtain ⟨d, r, rfl, hd⟩ := ht
  rw [chkLoop]
  have : ¬ (c.toNat < 32 ∨ c.toNat > 126) := by omega
  simp only [this, if_false]
  split
  · rename_i hc; rw [rd_lt (by simp)]; simp [hd hc]
  · split
    · rename_i hc; subst hc; simp at h
    · rfl

/-- Walking over printable characters with a non-null after each. -/
theorem chk_walk (mid : Bytes) : ∀ (n i : Nat) (crc : Byte) (d : Byte) (rest : Bytes), mid.length ≤ n → d ≠ 0 →
    (∀ c ∈ mid, 32 ≤ c.toNat ∧ c.toNat ≤ 126) →
    chkLoop n i crc (mid ++ d :: rest) = chkLoop (n - mid.length) (i + mid.length) (mid.foldl crc7_5B_update crc) (d :: rest) := by
  induction mid with
  | nil => intro n i crc d rest _ _ _; rfl
  | cons c t ih =>
    intro n i crc d rest h hd hp
    obtain ⟨n, rfl⟩ : ∃ k, n = k + 1 := ⟨n - 1, by simp at h; omega⟩
    rw [List.cons_append, chk_cont c (hp c (by simp)), ih n (i + 1) _ d rest (by simp at h; omega) hd (fun x hx => hp x (by simp [hx]))]
    · simp only [List.length_cons, List.foldl_cons]
      congr 1 <;> omega
    · cases t with
      | nil => exact ⟨d, rest, rfl, fun _ => hd⟩
      | cons e r => exact ⟨e, _, rfl, fun _ => (jmid_ne _ hp e (by simp)).1⟩

/-- What happens at the closing brace as transmitted. -/
theorem chk_close (n i : Nat) (crc d : Byte) (rest : Bytes) :
    chkLoop (n + 1) i crc (jCloseTX :: d :: rest) =
      if crc7_5B_update crc jCloseTX = d ∨ (crc7_5B_update crc jCloseTX = 0 ∧ d = 0x80) then .ok (i + 1) else .fail := by
  rw [chkLoop]
  have e1 : ¬ jCloseTX = jClose := by decide
  rw [if_neg e1, if_pos rfl, rd_lt (by simp)]
  rfl

/-- **C63**: what the sender's adjustment produces, followed by its CRC (0 sent as 0 or as 0x80), is accepted by the receiver with
exactly its length, whatever follows in memory, and is printed by the receiver as the original message. -/
theorem C63_roundtrip (mid rest : Bytes) (h : JMid mid) (bufLen : Nat) (hb : mid.length + 2 ≤ bufLen) (crc : Byte) (buf : Bytes)
    (ha : adjustJSON (jOpen :: mid ++ [jClose, 0]) = .ok (crc, buf)) (d : Byte) (hd : d = crc ∨ crc = 0 ∧ d = 0x80) :
    buf = jOpen :: mid ++ [jCloseTX, 0] ∧
    checkJSON (jOpen :: mid ++ [jCloseTX] ++ [d] ++ rest) bufLen = .ok (mid.length + 2) ∧
    outputJSON (jOpen :: mid ++ [jCloseTX] ++ [d] ++ rest) bufLen = .ok (some (jOpen :: mid ++ [jClose])) := by
  have hadj := ((C63_adjust (jOpen :: mid ++ [jClose, 0]) (by simp)).1 mid [] (by simp) h).1
  rw [ha] at hadj
  simp only [List.append_nil] at hadj
  injection hadj with hadj
  injection hadj with hcrc hbuf
  refine ⟨hbuf, ?_, ?_⟩
  · show (if jOpen ≠ jOpen then Res.fail else chkLoop (min 55 bufLen - 1) 1 jOpen (mid ++ [jCloseTX] ++ [d] ++ rest)) = _
    rw [if_neg (by simp)]
    have e : mid ++ [jCloseTX] ++ [d] ++ rest = mid ++ jCloseTX :: (d :: rest) := by simp
    rw [e, chk_walk mid _ _ _ _ _ (by have := h.1; omega) (by decide) h.2]
    obtain ⟨k, hk⟩ : ∃ k, min 55 bufLen - 1 - mid.length = k + 1 := ⟨min 55 bufLen - 1 - mid.length - 1, by have := h.1; omega⟩
    rw [hk, chk_close, if_pos]
    · congr 1; omega
    · rw [List.foldl_append] at hcrc
      simp only [List.foldl_cons, List.foldl_nil] at hcrc
      rw [← hcrc]
      rcases hd with hd | hd
      · exact .inl hd.symm
      · exact .inr hd
  · have hout : ∀ (l : Bytes) (n : Nat), l.length < n → (∀ c ∈ l, 32 ≤ c.toNat ∧ c.toNat ≤ 126) →
        outLoop n (l ++ [jCloseTX] ++ [d] ++ rest) = .ok (some (l ++ [jClose])) := by
      intro l
      induction l with
      | nil =>
        intro n hn _
        obtain ⟨n, rfl⟩ : ∃ k, n = k + 1 := ⟨n - 1, by simp at hn; omega⟩
        simp [outLoop]
      | cons c t ih =>
        intro n hn hp
        obtain ⟨n, rfl⟩ : ∃ k, n = k + 1 := ⟨n - 1, by simp at hn; omega⟩
        have hne := jmid_ne _ hp
        have ht := ih n (by simp at hn; omega) (fun x hx => hp x (by simp [hx]))
        simp only [List.cons_append] at ht ⊢
        rw [outLoop, ht]
        dsimp only
        rw [if_neg (hne c (by simp)).2]
        split
        · cases t with
          | nil => simp [rd]
          | cons e r => simp [rd, (hne e (by simp)).1]
        · rfl
    have := hout (jOpen :: mid) bufLen (by simp; omega) (by
      intro c hc
      rcases List.mem_cons.1 hc with rfl | hc
      · decide
      · exact h.2 c hc)
    exact this

/-! ## Corruption -/

/-- Walking over printable characters without a closing brace. -/
theorem chk_walk' (mid : Bytes) : ∀ (n i : Nat) (crc : Byte) (d : Byte) (rest : Bytes), mid.length ≤ n →
    (∀ c ∈ mid, (32 ≤ c.toNat ∧ c.toNat ≤ 126) ∧ c ≠ jClose) →
    chkLoop n i crc (mid ++ d :: rest) = chkLoop (n - mid.length) (i + mid.length) (mid.foldl crc7_5B_update crc) (d :: rest) := by
  induction mid with
  | nil => intro n i crc d rest _ _; rfl
  | cons c t ih =>
    intro n i crc d rest h hp
    obtain ⟨n, rfl⟩ : ∃ k, n = k + 1 := ⟨n - 1, by simp at h; omega⟩
    rw [List.cons_append, chk_cont c (hp c (by simp)).1, ih n (i + 1) _ d rest (by simp at h; omega) (fun x hx => hp x (by simp [hx]))]
    · simp only [List.length_cons, List.foldl_cons]
      congr 1 <;> omega
    · cases t with
      | nil => exact ⟨d, rest, rfl, fun hc => absurd hc (hp c (by simp)).2⟩
      | cons e r => exact ⟨e, _, rfl, fun hc => absurd hc (hp c (by simp)).2⟩

theorem chk_short (l : Bytes) : ∀ (n i : Nat) (crc : Byte) (rest : Bytes), n ≤ l.length →
    (∀ c ∈ l, (32 ≤ c.toNat ∧ c.toNat ≤ 126) ∧ c ≠ jClose) → chkLoop n i crc (l ++ rest) = .fail := by
  induction l with
  | nil => intro n i crc rest h _; simp at h; subst h; rfl
  | cons c t ih =>
    intro n i crc rest h hp
    cases n with
    | zero => rfl
    | succ n =>
      have hc := hp c (by simp)
      have e1 : ¬ c = jCloseTX := by rintro rfl; simp at hc
      have e2 : ¬ (c.toNat < 32 ∨ c.toNat > 126) := by omega
      rw [List.cons_append, chkLoop, if_neg hc.2, if_neg e1, if_neg e2]
      exact ih n _ _ rest (by simp at h; omega) (fun x hx => hp x (by simp [hx]))

theorem flip_ne (x : Byte) (k : Nat) (hk : k < 8) : x ^^^ u8 (2 ^ k) ≠ x := by
  have : k = 0 ∨ k = 1 ∨ k = 2 ∨ k = 3 ∨ k = 4 ∨ k = 5 ∨ k = 6 ∨ k = 7 := by omega
  rcases this with h | h | h | h | h | h | h | h <;> subst h <;> revert x <;> apply forall_byte <;> decide +kernel

theorem flip_not_tx (x : Byte) (k : Nat) (hk : k < 8) (h1 : 32 ≤ x.toNat ∧ x.toNat ≤ 126) (h2 : x ≠ jClose) :
    x ^^^ u8 (2 ^ k) ≠ jCloseTX := by
  have : k = 0 ∨ k = 1 ∨ k = 2 ∨ k = 3 ∨ k = 4 ∨ k = 5 ∨ k = 6 ∨ k = 7 := by omega
  revert h1 h2
  rcases this with h | h | h | h | h | h | h | h <;> subst h <;> revert x <;> apply forall_byte <;> decide +kernel

theorem close_flip (k : Nat) (hk : k < 7) : (jCloseTX ^^^ u8 (2 ^ k)).toNat > 126 ∧ jCloseTX ^^^ u8 (2 ^ k) ≠ jClose ∧
    jCloseTX ^^^ u8 (2 ^ k) ≠ jCloseTX := by
  have : k = 0 ∨ k = 1 ∨ k = 2 ∨ k = 3 ∨ k = 4 ∨ k = 5 ∨ k = 6 := by omega
  rcases this with h | h | h | h | h | h | h <;> subst h <;> decide +kernel

/-- **C63** (part): flipping any one bit of a transmitted message without inner `}` makes the receiver reject it, whatever follows in
memory and whatever buffer length is given — except the top bit of the final brace (`C63_refuted_brace`); and that too if the CRC
is not `}` and the receiver is given no more than the message and its CRC. Missing for the full property: messages with an
inner `}` (`C63_refuted_nested`) and that exception. -/
theorem C63_bit_error_partial (mid rest : Bytes) (h : JMid mid) (hin : jClose ∉ mid) (bufLen : Nat)
    (d : Byte) (hd : d = if (mid ++ [jCloseTX]).foldl crc7_5B_update jOpen = 0 then 0x80 else (mid ++ [jCloseTX]).foldl crc7_5B_update jOpen)
    (pre post : Bytes) (x : Byte) (he : jOpen :: mid ++ [jCloseTX] = pre ++ x :: post) (k : Nat) (hk : k < 8)
    (hexc : post = [] → k = 7 → d ≠ jClose ∧ bufLen ≤ mid.length + 3) :
    checkJSON (pre ++ (x ^^^ u8 (2 ^ k)) :: post ++ d :: rest) bufLen = .fail := by
  have hgood : ∀ c ∈ mid, (32 ≤ c.toNat ∧ c.toNat ≤ 126) ∧ c ≠ jClose :=
    fun c hc => ⟨h.2 c hc, fun e => hin (e ▸ hc)⟩
  have hcrc7 := (C31_range jOpen mid jCloseTX).1
  cases pre with
  | nil =>
    simp at he
    obtain ⟨rfl, -⟩ := he
    have : jOpen ^^^ u8 (2 ^ k) ≠ jOpen := flip_ne _ k hk
    simp [checkJSON, this]
  | cons y pre =>
    simp only [List.cons_append] at he
    injection he with hy he
    subst hy
    show (if jOpen ≠ jOpen then Res.fail else chkLoop (min 55 bufLen - 1) 1 jOpen (pre ++ (x ^^^ u8 (2 ^ k)) :: post ++ d :: rest)) = _
    rw [if_neg (by simp)]
    generalize hN : min 55 bufLen - 1 = N
    -- where the flipped byte is
    rcases List.eq_nil_or_concat post with hp | ⟨post', z, hp⟩
    · -- the closing brace
      subst hp
      rw [List.concat_eq_append.symm, ] at he
      obtain ⟨rfl, rfl⟩ : mid = pre ∧ jCloseTX = x := by
        have := List.append_inj' (s₁ := mid) (t₁ := [jCloseTX]) (s₂ := pre) (t₂ := [x]) (by simpa using he) rfl
        exact ⟨this.1, by simpa using this.2⟩
      rw [List.append_assoc, List.cons_append, List.nil_append]
      by_cases hn : N ≤ mid.length
      · exact chk_short mid N 1 _ _ hn hgood
      rw [chk_walk' mid N 1 _ _ _ (by omega) hgood]
      obtain ⟨r, hr⟩ : ∃ r, N - mid.length = r + 1 := ⟨N - mid.length - 1, by omega⟩
      rw [hr]
      by_cases hk7 : k < 7
      · obtain ⟨a, b, c⟩ := close_flip k hk7
        rw [chkLoop, if_neg b, if_neg c, if_pos (.inr a)]
      · have : k = 7 := by omega
        subst this
        obtain ⟨hdc, hbl⟩ := hexc rfl rfl
        have hd0 : d ≠ 0 := by
          rw [hd]; split
          · decide
          · assumption
        have hfl : jCloseTX ^^^ u8 (2 ^ 7) = jClose := by decide
        rw [hfl, chk_cont jClose (by decide) r _ _ _ ⟨d, rest, rfl, fun _ => hd0⟩]
        have hdtx : d ≠ jCloseTX := by
          rw [hd]; split
          · decide
          · intro e; rw [e] at hcrc7; simp at hcrc7
        cases r with
        | zero => rfl
        | succ r =>
          have : r = 0 := by omega
          subst this
          rw [chkLoop, if_neg hdc, if_neg hdtx]
          split
          · rfl
          · rfl
    · -- inside
      rw [List.concat_eq_append] at hp
      subst hp
      have he' : mid ++ [jCloseTX] = (pre ++ x :: post') ++ [z] := by rw [he]; simp
      have := List.append_inj' he' rfl
      obtain ⟨rfl, hz⟩ := this
      have hz : z = jCloseTX := by simpa using hz.symm
      subst hz
      have hx := hgood x (by simp)
      have hpre : ∀ c ∈ pre, (32 ≤ c.toNat ∧ c.toNat ≤ 126) ∧ c ≠ jClose := fun c hc => hgood c (by simp [hc])
      have hpost : ∀ c ∈ post', (32 ≤ c.toNat ∧ c.toNat ≤ 126) ∧ c ≠ jClose := fun c hc => hgood c (by simp [hc])
      have hne := C30_single_bit jOpen pre (post' ++ [jCloseTX]) x k hk
      have htx := flip_not_tx x k hk hx.1 hx.2
      have e0 : pre ++ x :: post' ++ [jCloseTX] = pre ++ x :: (post' ++ [jCloseTX]) := by simp
      rw [e0] at hd hcrc7
      generalize hx' : x ^^^ u8 (2 ^ k) = x' at *
      have e1 : pre ++ x' :: (post' ++ [jCloseTX]) ++ d :: rest = pre ++ x' :: (post' ++ jCloseTX :: (d :: rest)) := by simp
      rw [e1]
      by_cases hn : N ≤ pre.length
      · exact chk_short pre N 1 _ _ hn hpre
      rw [chk_walk' pre N 1 _ _ _ (by omega) hpre]
      obtain ⟨r, hr⟩ : ∃ r, N - pre.length = r + 1 := ⟨N - pre.length - 1, by omega⟩
      rw [hr]
      by_cases hpr : 32 ≤ x'.toNat ∧ x'.toNat ≤ 126
      · rw [chk_cont x' hpr]
        · by_cases hn2 : r ≤ post'.length
          · exact chk_short post' r _ _ _ hn2 hpost
          rw [chk_walk' post' r _ _ _ _ (by omega) hpost]
          obtain ⟨q, hq⟩ : ∃ q, r - post'.length = q + 1 := ⟨r - post'.length - 1, by omega⟩
          rw [hq, chk_close, if_neg]
          have hA := (C31_range jOpen (pre ++ x' :: post') jCloseTX).1
          have eA : (pre ++ x' :: post' ++ [jCloseTX]) = pre ++ x' :: (post' ++ [jCloseTX]) := by simp
          rw [eA] at hA
          have eB : crc7_5B_update (List.foldl crc7_5B_update (crc7_5B_update (List.foldl crc7_5B_update jOpen pre) x') post') jCloseTX =
              (pre ++ x' :: (post' ++ [jCloseTX])).foldl crc7_5B_update jOpen := by simp [List.foldl_append]
          rw [eB]
          generalize (pre ++ x' :: (post' ++ [jCloseTX])).foldl crc7_5B_update jOpen = A at *
          generalize (pre ++ x :: (post' ++ [jCloseTX])).foldl crc7_5B_update jOpen = B at *
          rw [hd]
          rintro (ha | ⟨ha, hb⟩)
          · split at ha
            · rw [ha] at hA; simp at hA
            · exact hne ha.symm
          · split at hb
            · rename_i hB; exact hne (hB.trans ha.symm)
            · rw [hb] at hcrc7; simp at hcrc7
        · cases post' with
          | nil => exact ⟨jCloseTX, _, rfl, fun _ => by decide⟩
          | cons e t => exact ⟨e, _, rfl, fun _ => (jmid_ne (e :: t) (fun c hc => (hpost c hc).1) e (by simp)).1⟩
      · have hnc : x' ≠ jClose := by rintro rfl; simp at hpr
        rw [chkLoop, if_neg hnc, if_neg htx, if_pos (by omega)]

/-- **C63**: a wrong CRC byte is always rejected, except that a CRC of zero may be sent as either of 0 and 0x80. -/
theorem C63_wrong_crc (mid rest : Bytes) (h : JMid mid) (bufLen : Nat) (d : Byte)
    (hd : d ≠ (mid ++ [jCloseTX]).foldl crc7_5B_update jOpen)
    (hd' : ¬ ((mid ++ [jCloseTX]).foldl crc7_5B_update jOpen = 0 ∧ d = 0x80)) :
    checkJSON (jOpen :: mid ++ [jCloseTX] ++ d :: rest) bufLen = .fail := by
  show (if jOpen ≠ jOpen then Res.fail else chkLoop (min 55 bufLen - 1) 1 jOpen (mid ++ [jCloseTX] ++ d :: rest)) = _
  rw [if_neg (by simp)]
  generalize min 55 bufLen - 1 = N
  have e : mid ++ [jCloseTX] ++ d :: rest = mid ++ jCloseTX :: (d :: rest) := by simp
  rw [e]
  by_cases hn : N ≤ mid.length
  · have hw : ∀ (l : Bytes) (n i : Nat) (crc : Byte) (t : Bytes), n ≤ l.length → (∀ c ∈ l, 32 ≤ c.toNat ∧ c.toNat ≤ 126) →
        chkLoop n i crc (l ++ jCloseTX :: t) = .fail := by
      intro l
      induction l with
      | nil => intro n i crc t h _; simp at h; subst h; rfl
      | cons c l ih =>
        intro n i crc t h hp
        cases n with
        | zero => rfl
        | succ n =>
          rw [List.cons_append, chk_cont c (hp c (by simp))]
          · exact ih n _ _ t (by simp at h; omega) (fun x hx => hp x (by simp [hx]))
          · cases l with
            | nil => exact ⟨jCloseTX, t, rfl, fun _ => by decide⟩
            | cons e r => exact ⟨e, _, rfl, fun _ => (jmid_ne _ hp e (by simp)).1⟩
    exact hw mid N 1 _ _ hn h.2
  · rw [chk_walk mid N 1 _ _ _ (by omega) (by decide) h.2]
    obtain ⟨r, hr⟩ : ∃ r, N - mid.length = r + 1 := ⟨N - mid.length - 1, by omega⟩
    rw [hr, chk_close, if_neg]
    have eB : crc7_5B_update (List.foldl crc7_5B_update jOpen mid) jCloseTX = (mid ++ [jCloseTX]).foldl crc7_5B_update jOpen := by
      simp [List.foldl_append]
    rw [eB]
    rintro (ha | ha)
    · exact hd ha.symm
    · exact hd' ha

/-- `{"L":18}` -/
def exMsg : Bytes := [0x22, 0x4c, 0x22, 0x3a, 0x31, 0x38]

example : JMid exMsg ∧ jClose ∉ exMsg := by unfold JMid exMsg; decide +kernel
example : adjustJSON (jOpen :: exMsg ++ [jClose, 0]) = .ok (0x7d, jOpen :: exMsg ++ [jCloseTX, 0]) := by decide +kernel
example : checkJSON (jOpen :: exMsg ++ [jCloseTX, 0x7d]) 9 = .ok 8 := by decide +kernel

/-- **C63** is false for the top bit of the final brace: `{"L":18}` has a CRC of 0x7d, `}`; with that bit lost in transmission and a
null after the CRC in the receive buffer, the receiver accepts the corrupt message, as `{"L":18}}`. -/
theorem C63_refuted_brace :
    checkJSON (jOpen :: exMsg ++ [jCloseTX ^^^ u8 (2 ^ 7)] ++ [0x7d, 0]) 10 = .ok 9 := by decide +kernel

/-- `{"a":{"b":30},"c":1}` without its braces. -/
def exNest : Bytes := [0x22, 0x61, 0x22, 0x3a, 0x7b, 0x22, 0x62, 0x22, 0x3a, 0x33, 0x30, 0x7d, 0x2c, 0x22, 0x63, 0x22, 0x3a, 0x31]

/-- **C63** is false for messages with an inner brace: `{"a":{"b":30},"c":1}` with one bit of the inner `}` flipped is accepted as the
shorter `{"a":{"b":30}`. -/
theorem C63_refuted_nested :
    JMid exNest ∧ ∃ crc, adjustJSON (jOpen :: exNest ++ [jClose, 0]) = .ok (crc, jOpen :: exNest ++ [jCloseTX, 0]) ∧
    checkJSON (jOpen :: exNest.take 11 ++ [jClose ^^^ u8 (2 ^ 7)] ++ exNest.drop 12 ++ [jCloseTX, crc]) 55 = .ok 13 := by
  refine ⟨by unfold JMid exNest; decide +kernel, 0x7f, ?_⟩
  decide +kernel

/-- The receiver looks at one byte after the buffer length it is given: with a buffer of exactly that size it reads outside. -/
theorem C63_overread : checkJSON [jOpen, jClose] 2 = .ub := by decide +kernel

theorem chk_no_ub (n : Nat) : ∀ (i : Nat) (crc : Byte) (t : Bytes), n < t.length → chkLoop n i crc t ≠ .ub := by
  induction n with
  | zero => intro i crc t _; simp [chkLoop]
  | succ n ih =>
    intro i crc t h
    cases t with
    | nil => simp at h
    | cons c t =>
      have hl : n < t.length := by simpa using h
      have hcont : (if c.toNat < 32 ∨ c.toNat > 126 then Res.fail else chkLoop n (i + 1) (crc7_5B_update crc c) t) ≠ .ub := by
        split
        · simp
        · exact ih _ _ t hl
      rw [chkLoop]
      split
      · rw [rd_lt (by omega)]
        by_cases h0 : t[0] = 0
        · rw [if_pos h0]; simp
        · rw [if_neg h0]; exact hcont
      · split
        · rw [rd_lt (by omega)]
          split
          · simp
          · exact hcont
        · exact hcont

/-- **C63**: with at least one readable byte after the given length (or 56 bytes in all) the receiver never reads outside. -/
theorem C63_check_safe (buf : Bytes) (bufLen : Nat) (h : min 55 bufLen < buf.length) : checkJSON buf bufLen ≠ .ub := by
  cases buf with
  | nil => simp at h
  | cons c t =>
    simp only [checkJSON]
    split
    · simp
    · by_cases h0 : bufLen = 0
      · subst h0; simp [chkLoop]
      · exact chk_no_ub _ _ _ _ (by simp only [List.length_cons] at h; omega)

end OTR.Props
