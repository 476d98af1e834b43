import Verif.Props.CLI
/-!
# Properties C122-C124: key, time, parameter and ID commands
-/

namespace OTR.Props
open OTR

/-! ## C122: the secret key command -/

/-- The first words of `ws` are the bytes `ks` in hex. -/
def HexWords : List Bytes → Bytes → Prop
  | _, [] => True
  | [], _ :: _ => False
  | w :: ws, b :: ks => HexWord w b ∧ HexWords ws ks

theorem keyLoop_good : ∀ (ws : List Bytes) (ks : Bytes), (∀ w ∈ ws, ∀ c ∈ w, c ≠ 0) → HexWords ws ks →
    keyLoop ks.length ws = some ks
  | _, [], _, _ => rfl
  | [], _ :: _, _, h => absurd h (by simp [HexWords])
  | w :: ws, b :: ks, h0, h => by
    have ht := hexTok_word (h0 w List.mem_cons_self) h.1
    rw [List.length_cons, keyLoop, ht, u8_toNat_cast, if_neg (by omega),
      keyLoop_good ws ks (fun w hw => h0 w (List.mem_cons_of_mem _ hw)) h.2]
    rfl

theorem keyLoop_inv : ∀ (n : Nat) (ws : List Bytes) (ks : Bytes), (∀ w ∈ ws, ∀ c ∈ w, c ≠ 0) →
    keyLoop n ws = some ks → ks.length = n ∧ HexWords ws ks
  | 0, ws, ks, _, h => by cases h; exact ⟨rfl, by cases ws <;> exact True.intro⟩
  | n + 1, [], ks, _, h => by cases h
  | n + 1, w :: ws, ks, h0, h => by
    rw [keyLoop] at h
    by_cases hb : hexTok w = -1
    · rw [if_pos hb] at h; cases h
    · rw [if_neg hb] at h
      cases hr : keyLoop n ws with
      | none => rw [hr] at h; cases h
      | some r =>
        rw [hr] at h
        cases h
        obtain ⟨i1, i2⟩ := keyLoop_inv n ws r (fun w hw => h0 w (List.mem_cons_of_mem _ hw)) hr
        rcases hexTok_range w (h0 w List.mem_cons_self) with he | ⟨b, hb1, hb2⟩
        · exact absurd he hb
        · rw [hb2, u8_toNat_cast]
          exact ⟨by simp [i1], hb1, i2⟩

/-- Typing "K B" and sixteen bytes in hex stores exactly that key (unless it is all 0xff, which means "no key"), changes
nothing else, and does not report the keys as cleared. -/
theorem C122_set_key (key : Bytes) (hk : key.length = 16) (a b : Byte) (m : EE) :
    getKey (cliKey (a :: b :: joinWords ([66] :: key.map hexWord)) m).1 = (decide (key ≠ List.replicate 16 0xff), key) ∧
    (cliKey (a :: b :: joinWords ([66] :: key.map hexWord)) m).2 = false ∧
    ∀ x, (x < 112 ∨ 128 ≤ x) → (cliKey (a :: b :: joinWords ([66] :: key.map hexWord)) m).1 x = m x := by
  have hw : ∀ w ∈ [66] :: key.map hexWord, w ≠ [] ∧ ∀ c ∈ w, c ≠ 32 := by
    intro w hw
    rcases List.mem_cons.1 hw with rfl | hw
    · exact ⟨by simp, by simp⟩
    · obtain ⟨x, -, rfl⟩ := List.mem_map.1 hw
      exact ⟨by simp [hexWord], fun c hc => ((hexWord_spec x).2 c hc).2.1⟩
  have hn : ∀ w ∈ [66] :: key.map hexWord, ∀ c ∈ w, c ≠ 0 := by
    intro w hw
    rcases List.mem_cons.1 hw with rfl | hw
    · simp
    · obtain ⟨x, -, rfl⟩ := List.mem_map.1 hw
      exact fun c hc => ((hexWord_spec x).2 c hc).1
  have hst : strToks [] (joinWords ([66] :: key.map hexWord)) = [66] :: key.map hexWord :=
    strToks_words (joinWords_isWords _ hw) (joinWords_no_nul _ hn)
  have hlen : (joinWords ([66] :: key.map hexWord)).length = 49 := by
    have h1 := joinWords_length_two (key.map hexWord) (by
      intro w hw; obtain ⟨x, -, rfl⟩ := List.mem_map.1 hw; rfl) (by intro h; simp at h; simp [h] at hk)
    simp only [List.length_map, hk] at h1
    match key, hk, h1 with
    | x :: t, _, h1 =>
      simp only [List.map_cons, joinWords, List.length_append, List.length_cons, List.length_nil] at h1 ⊢
      omega
  have hidw : ∀ id : Bytes, HexWords (id.map hexWord) id := by
    intro id
    induction id with
    | nil => exact True.intro
    | cons x t ih => exact ⟨(hexWord_spec x).1, ih⟩
  match key, hk, hst, hlen, hn with
  | x :: t, hk, hst, hlen, hn =>
    have hc := (hexWord_spec x).2 (hexDigits x).1 (by simp [hexWord])
    have hx : hexTok (hexWord x) = x.toNat := hexTok_word (fun c hc => ((hexWord_spec x).2 c hc).1) (hexWord_spec x).1
    have hloop : keyLoop 15 (t.map hexWord) = some t := by
      have := keyLoop_good (t.map hexWord) t (fun w hw => hn w (by simp [hw])) (hidw t)
      have ht : t.length = 15 := by simpa using hk
      rw [ht] at this
      exact this
    have heq : cliKey (a :: b :: joinWords ([66] :: (x :: t).map hexWord)) m =
        ((setKey (some (x :: t))).post m, false) := by
      have hd : (a :: b :: joinWords ([66] :: (x :: t).map hexWord)).drop 2 = joinWords ([66] :: (x :: t).map hexWord) := rfl
      unfold cliKey
      have hl : (a :: b :: joinWords ([66] :: (x :: t).map hexWord)).length = 51 := by
        rw [List.length_cons, List.length_cons, hlen]
      rw [hl, if_pos (by decide), hd, hst, List.map_cons]
      dsimp only
      rw [if_pos (by decide), if_neg (by
        have h1 : (hexWord x).head? = some (hexDigits x).1 := rfl
        rw [h1]; simp [hc.2.2.2]), if_pos (by decide), hloop, hx]
      dsimp only
      have : ((x.toNat : Int) % 256).toNat = x.toNat := by have := x.toNat_lt; omega
      rw [this, u8, UInt8.ofNat_toNat]
    obtain ⟨k1, k2, k3, k4⟩ := C29_key_storage m (x :: t) hk
    rw [heq]
    exact ⟨k2, rfl, fun y hy => (k4 y hy).1⟩

/-- "K B *" clears the key and reports it; nothing else in the EEPROM changes. -/
theorem C122_clear_key (a b : Byte) (m : EE) :
    (getKey (cliKey (a :: b :: [66, 32, 42]) m).1).1 = false ∧ (cliKey (a :: b :: [66, 32, 42]) m).2 = true ∧
    ∀ x, (x < 112 ∨ 128 ≤ x) → (cliKey (a :: b :: [66, 32, 42]) m).1 x = m x := by
  have heq : cliKey (a :: b :: [66, 32, 42]) m = ((setKey none).post m, true) := by
    have hst : strToks [] [66, 32, 42] = [[66], [42]] := by decide
    have hd : (a :: b :: [66, 32, 42]).drop 2 = [66, 32, 42] := rfl
    unfold cliKey
    rw [if_pos (by simp), hd, hst]
    rfl
  obtain ⟨k1, k2, k3, k4⟩ := C29_key_storage m (List.replicate 16 0) (by simp)
  rw [heq]
  exact ⟨k3, rfl, fun y hy => (k4 y hy).2⟩

/-- For every line at all: the key changes only for a clear, or for a "B" word followed by at least sixteen words of
which the second to sixteenth are hex bytes; those fifteen bytes are then stored as typed. Nothing outside the key area
ever changes. -/
theorem C122_only_valid_partial (buf : Bytes) (m : EE) (h0 : ∀ c ∈ buf, c ≠ 0) (ws : List Bytes)
    (hws : IsWords (buf.drop 2) ws) :
    (∀ x, (x < 112 ∨ 128 ≤ x) → (cliKey buf m).1 x = m x) ∧
    (cliKey buf m = (m, false) ∨
     (∃ w v t, ws = w :: v :: t ∧ w.head?.map toUpper = some 66 ∧ v.head? = some 42 ∧
        cliKey buf m = ((setKey none).post m, true)) ∨
     (∃ w v t k0 ks, ws = w :: v :: t ∧ w.head?.map toUpper = some 66 ∧ ks.length = 15 ∧ HexWords t ks ∧
        (HexWord v k0 ∨ ((∀ b, ¬ HexWord v b) ∧ k0 = 0xff)) ∧
        cliKey buf m = ((setKey (some (k0 :: ks))).post m, false))) := by
  have h0' : ∀ c ∈ buf.drop 2, c ≠ 0 := fun c hc => h0 c (List.mem_of_mem_drop hc)
  have hst := strToks_words hws h0'
  have hn := words_no_nul hws h0'
  have main : cliKey buf m = (m, false) ∨
     (∃ w v t, ws = w :: v :: t ∧ w.head?.map toUpper = some 66 ∧ v.head? = some 42 ∧
        cliKey buf m = ((setKey none).post m, true)) ∨
     (∃ w v t k0 ks, ws = w :: v :: t ∧ w.head?.map toUpper = some 66 ∧ ks.length = 15 ∧ HexWords t ks ∧
        (HexWord v k0 ∨ ((∀ b, ¬ HexWord v b) ∧ k0 = 0xff)) ∧
        cliKey buf m = ((setKey (some (k0 :: ks))).post m, false)) := by
    unfold cliKey
    rw [hst]
    by_cases hl : buf.length ≥ 5
    · rw [if_pos hl]
      match ws, hn with
      | [], _ => exact .inl rfl
      | [w], _ => dsimp only; split <;> exact .inl rfl
      | w :: v :: t, hn =>
        dsimp only
        by_cases hb : w.head?.map toUpper = some 66
        · rw [if_pos hb]
          by_cases hs : v.head? = some 42
          · rw [if_pos hs]
            exact .inr (.inl ⟨w, v, t, rfl, hb, hs, rfl⟩)
          · rw [if_neg hs]
            by_cases hl2 : buf.length ≥ 3 + 2 * 16
            · rw [if_pos hl2]
              cases hr : keyLoop 15 t with
              | none => exact .inl rfl
              | some ks =>
                obtain ⟨i1, i2⟩ := keyLoop_inv 15 t ks (fun w hw => hn w (by simp [hw])) hr
                refine .inr (.inr ⟨w, v, t, u8 (hexTok v % 256).toNat, ks, rfl, hb, i1, i2, ?_, rfl⟩)
                have hv0 := hn v (by simp)
                by_cases hh : ∃ b, HexWord v b
                · obtain ⟨b, hbw⟩ := hh
                  left
                  rw [hexTok_word hv0 hbw]
                  have : ((b.toNat : Int) % 256).toNat = b.toNat := by have := b.toNat_lt; omega
                  rw [this, u8, UInt8.ofNat_toNat]
                  exact hbw
                · right
                  have hb' : ∀ b, ¬ HexWord v b := fun b hb => hh ⟨b, hb⟩
                  refine ⟨hb', ?_⟩
                  rw [hexTok_bad hv0 hb']
                  rfl
            · rw [if_neg hl2]; exact .inl rfl
        · rw [if_neg hb]; exact .inl rfl
    · rw [if_neg hl]; exact .inl rfl
  refine ⟨?_, main⟩
  intro x hx
  rcases main with h | ⟨w, v, t, -, -, -, h⟩ | ⟨w, v, t, k0, ks, -, -, hks, -, -, h⟩
  · rw [h]
  · rw [h]
    exact ((C29_key_storage m (List.replicate 16 0) (by simp)).2.2.2 x hx).2
  · rw [h]
    exact ((C29_key_storage m (k0 :: ks) (by simp [hks])).2.2.2 x hx).1

/-- Refutation of "a key with a byte that is not hexadecimal is refused": the first byte is not checked, and 0xff is
stored in its place. -/
theorem C122_refuted_first : ∃ buf : Bytes, (∀ c ∈ buf, printable c = true) ∧
    (∀ b, ¬ HexWord ((strToks [] (buf.drop 2))[1]?.getD []) b) ∧
    ∀ m, getKey (cliKey buf m).1 = (true, 0xff :: List.replicate 15 0x11) := by
  refine ⟨[75, 32] ++ joinWords ([66] :: [122, 122] :: (List.replicate 15 0x11).map hexWord), by decide +kernel, ?_, ?_⟩
  · have : (strToks [] (([75, 32] ++ joinWords ([66] :: [122, 122] :: (List.replicate 15 0x11).map hexWord)).drop 2))[1]?.getD []
        = [122, 122] := by decide +kernel
    rw [this]
    rintro b ⟨x, y, h, -⟩
    have hz : hexVal 122 = none := by decide +kernel
    rw [hz] at h
    cases h
  · intro m
    have hst : strToks [] (([75, 32] ++ joinWords ([66] :: [122, 122] :: (List.replicate 15 0x11).map hexWord)).drop 2) =
        [66] :: [122, 122] :: (List.replicate 15 0x11).map hexWord := by decide +kernel
    have hloop : keyLoop 15 ((List.replicate 15 0x11).map hexWord) = some (List.replicate 15 0x11) := by decide +kernel
    have hx : u8 (hexTok [122, 122] % 256).toNat = 0xff := by decide +kernel
    have heq : cliKey ([75, 32] ++ joinWords ([66] :: [122, 122] :: (List.replicate 15 0x11).map hexWord)) m =
        ((setKey (some (0xff :: List.replicate 15 0x11))).post m, false) := by
      unfold cliKey
      rw [if_pos (by decide +kernel), hst]
      dsimp only
      rw [if_pos (by decide +kernel), if_neg (by decide +kernel), if_pos (by decide +kernel), hloop]
      dsimp only
      rw [hx]
    rw [heq]
    have := (C29_key_storage m (0xff :: List.replicate 15 0x11) (by simp)).2.1
    rw [this]
    decide +kernel

/-! ## C123: the time command -/

theorem atoiDigits_dec : ∀ (w : Bytes) (acc : Nat), (∀ c ∈ w, 48 ≤ c ∧ c ≤ 57) →
    atoiDigits w acc = w.foldl (fun a c => 10 * a + (c.toNat - 48)) acc
  | [], acc, _ => rfl
  | c :: t, acc, h => by
    rw [atoiDigits, if_pos (h c List.mem_cons_self), List.foldl_cons,
      atoiDigits_dec t _ fun c hc => h c (List.mem_cons_of_mem _ hc)]

theorem atoi16_dec {w : Bytes} {v : Nat} (h : DecWord w v) (hv : v < 32768) : atoi16 w = v := by
  obtain ⟨h1, h2, h3⟩ := h
  have hd := atoiDigits_dec w 0 h2
  rw [h3] at hd
  match w, h1, h2, hd with
  | c :: t, _, h2, hd =>
    have hc := h2 c List.mem_cons_self
    have n1 : c ≠ 45 := by rintro rfl; exact absurd hc.1 (by decide)
    have n2 : c ≠ 43 := by rintro rfl; exact absurd hc.1 (by decide)
    unfold atoi16
    split
    · rename_i he; cases he; exact absurd rfl n1
    · rename_i he; cases he; exact absurd rfl n2
    · rw [hd]; dsimp only; omega

theorem atoiU8_dec {w : Bytes} {v : Nat} (h : DecWord w v) (hv : v < 32768) : atoiU8 w = v % 256 := by
  unfold atoiU8
  rw [atoi16_dec h hv]
  omega

/-- "T hh mm" with decimal numbers of at most 255 (with any spacing, and whatever follows): the clock is set to exactly
that time of day if it is one, and nothing changes otherwise. -/
theorem C123_set_time (buf : Bytes) (h0 : ∀ c ∈ buf, c ≠ 0) (w v : Bytes) (ws : List Bytes)
    (hws : IsWords (buf.drop 2) (w :: v :: ws)) (hl : 5 ≤ buf.length) (hh mm : Nat) (hw : DecWord w hh) (hv : DecWord v mm)
    (h1 : hh ≤ 255) (h2 : mm ≤ 255) (r : RTC) (m : EE) :
    (hh < 24 ∧ mm < 60 → (cliTime buf r m).1.mins = 60 * hh + mm ∧ (cliTime buf r m).1.days = r.days ∧
      (cliTime buf r m).1.sec = r.sec) ∧
    (¬ (hh < 24 ∧ mm < 60) → cliTime buf r m = (r, m)) := by
  have hst := strToks_words hws fun c hc => h0 c (List.mem_of_mem_drop hc)
  have e1 : atoiU8 w = hh := by rw [atoiU8_dec hw (by omega)]; omega
  have e2 : atoiU8 v = mm := by rw [atoiU8_dec hv (by omega)]; omega
  have heq : cliTime buf r m = ((r.setHM hh mm m).1, (r.setHM hh mm m).2.2) := by
    unfold cliTime
    rw [if_pos hl, hst]
    dsimp only
    rw [e1, e2]
  rw [heq]
  unfold RTC.setHM
  constructor
  · rintro ⟨a, b⟩
    rw [if_neg (by omega)]
    dsimp only
    by_cases hne : 60 * hh + mm ≠ r.mins
    · rw [if_pos hne]; exact ⟨rfl, rfl, rfl⟩
    · rw [if_neg hne]; exact ⟨by dsimp only; omega, rfl, rfl⟩
  · intro h
    rw [if_pos (by omega)]

/-- Every line leaves the clock in a legal state. -/
theorem C123_stays_legal (buf : Bytes) (r : RTC) (hr : RTCLegal r) (m : EE) : RTCLegal (cliTime buf r m).1 := by
  unfold cliTime
  split
  · split
    · dsimp only
      unfold RTC.setHM
      split
      · exact hr
      · dsimp only
        obtain ⟨a, b, c, d⟩ := hr
        split
        · exact ⟨a, b, by dsimp only; omega, d⟩
        · exact ⟨a, b, c, d⟩
    · exact hr
  · exact hr

/-- Refutation of "anything but a time of day is ignored": numbers are taken modulo 256 and words that are not numbers
count as zero, so "T 260 300" sets 04:44 and "T xx yy" sets midnight. -/
theorem C123_refuted (r : RTC) (m : EE) :
    (cliTime "T 260 300".toUTF8.toList r m).1.mins = 4 * 60 + 44 ∧ (cliTime "T xx yy".toUTF8.toList r m).1.mins = 0 := by
  have t1 : strToks [] ("T 260 300".toUTF8.toList.drop 2) = ["260".toUTF8.toList, "300".toUTF8.toList] := by decide +kernel
  have t2 : strToks [] ("T xx yy".toUTF8.toList.drop 2) = ["xx".toUTF8.toList, "yy".toUTF8.toList] := by decide +kernel
  have a1 : atoiU8 "260".toUTF8.toList = 4 := by decide +kernel
  have a2 : atoiU8 "300".toUTF8.toList = 44 := by decide +kernel
  have a3 : atoiU8 "xx".toUTF8.toList = 0 := by decide +kernel
  have a4 : atoiU8 "yy".toUTF8.toList = 0 := by decide +kernel
  have set : ∀ h k, h < 24 → k < 60 → (r.setHM h k m).1.mins = 60 * h + k := by
    intro h k hh hk
    unfold RTC.setHM
    rw [if_neg (by omega)]
    dsimp only
    by_cases hne : 60 * h + k ≠ r.mins
    · rw [if_pos hne]
    · rw [if_neg hne]; dsimp only; omega
  constructor <;> unfold cliTime
  · rw [if_pos (by decide +kernel), t1]; dsimp only; rw [a1, a2, set 4 44 (by decide) (by decide)]
  · rw [if_pos (by decide +kernel), t2]; dsimp only; rw [a3, a4, set 0 0 (by decide) (by decide)]

/-! ## C124: the parameter command -/

theorem post_update (split : Bool) (a : Nat) (v : Byte) (m : EE) : (smartUpdate split a v).post m = m.upd a v := by
  rw [post_smartUpdate]

/-- "G n v" with n below 32 and v at most 255 sets exactly that parameter; "G n" changes nothing. -/
theorem C124_set_param (buf : Bytes) (h0 : ∀ c ∈ buf, c ≠ 0) (w v : Bytes) (ws : List Bytes) (n x : Nat)
    (hw : DecWord w n) (hn : n < 32) (hx : x ≤ 255) (hv : DecWord v x) (m : EE) :
    (IsWords (buf.drop 2) (w :: v :: ws) → ∀ a, cliParam buf m a = if a = 32 + n then u8 x else m a) ∧
    (IsWords (buf.drop 2) [w] → cliParam buf m = m) := by
  have e1 : atoiU8 w = n := by rw [atoiU8_dec hw (by omega)]; omega
  have e2 : atoi16 v = x := atoi16_dec hv (by omega)
  have hlen : ∀ l, IsWords (buf.drop 2) (w :: l) → 3 ≤ buf.length := by
    intro l h
    have hne : buf.drop 2 ≠ [] := by
      intro he
      have := strToks_words h fun c hc => h0 c (List.mem_of_mem_drop hc)
      rw [he] at this
      cases this
    have : 0 < (buf.drop 2).length := List.length_pos_iff.2 hne
    rw [List.length_drop] at this
    omega
  constructor
  · intro hws a
    have hst := strToks_words hws fun c hc => h0 c (List.mem_of_mem_drop hc)
    unfold cliParam
    rw [if_pos (hlen _ hws), hst]
    dsimp only
    rw [if_neg (by omega), if_neg (by omega), post_update, e1, e2]
    rfl
  · intro hws
    have hst := strToks_words hws fun c hc => h0 c (List.mem_of_mem_drop hc)
    unfold cliParam
    rw [if_pos (hlen _ hws), hst]
    dsimp only
    rw [if_neg (by omega)]

/-- No line whatever changes anything but one cell of the area from 32 to 64. The area meant ends at 63. -/
theorem C124_confined_partial (buf : Bytes) (m : EE) : ∃ n, n ≤ 32 ∧ ∀ a, a ≠ 32 + n → cliParam buf m a = m a := by
  have main : cliParam buf m = m ∨ ∃ n v, n ≤ 32 ∧ cliParam buf m = m.upd (32 + n) v := by
    unfold cliParam
    by_cases hl : buf.length ≥ 3
    · rw [if_pos hl]
      cases strToks [] (buf.drop 2) with
      | nil => exact .inl rfl
      | cons t1 ts =>
        dsimp only
        by_cases h : atoiU8 t1 > 32
        · rw [if_pos h]; exact .inl rfl
        · rw [if_neg h]
          cases ts with
          | nil => exact .inl rfl
          | cons t2 r =>
            dsimp only
            split
            · exact .inl rfl
            · exact .inr ⟨atoiU8 t1, _, by omega, post_update _ _ _ _⟩
    · rw [if_neg hl]; exact .inl rfl
  rcases main with h | ⟨n, v, hn, h⟩
  · exact ⟨0, by omega, fun a _ => by rw [h]⟩
  · exact ⟨n, hn, fun a ha => by rw [h]; exact EE.upd_other m v ha⟩

/-- Refutation of "only the 32 inspectable cells can be changed": "G 32 5" changes cell 64, just after the area. Numbers
are also taken modulo 256: "G 256 5" changes parameter 0. -/
theorem C124_refuted_past_end (m : EE) :
    cliParam "G 32 5".toUTF8.toList m 64 = 5 ∧ cliParam "G 256 5".toUTF8.toList m 32 = 5 := by
  have t1 : strToks [] ("G 32 5".toUTF8.toList.drop 2) = ["32".toUTF8.toList, "5".toUTF8.toList] := by decide +kernel
  have t2 : strToks [] ("G 256 5".toUTF8.toList.drop 2) = ["256".toUTF8.toList, "5".toUTF8.toList] := by decide +kernel
  have a1 : atoiU8 "32".toUTF8.toList = 32 := by decide +kernel
  have a2 : atoiU8 "256".toUTF8.toList = 0 := by decide +kernel
  have a3 : atoi16 "5".toUTF8.toList = 5 := by decide +kernel
  constructor <;> unfold cliParam
  · rw [if_pos (by decide +kernel), t1]; dsimp only; rw [a1, a3, if_neg (by decide), if_neg (by decide), post_update]; rfl
  · rw [if_pos (by decide +kernel), t2]; dsimp only; rw [a2, a3, if_neg (by decide), if_neg (by decide), post_update]; rfl

/-! ## Setting the node ID, and what other commands may change -/

theorem post_storeID (id : Bytes) (m : EE) (a : Nat) :
    (storeID id).post m a = if 20 ≤ a ∧ a < 28 then id[a - 20]?.getD 0 else m a := by
  unfold storeID
  exact post_forEach _ 20 (fun i => id[i]?.getD 0) (fun x m => by rw [post_smartUpdate]) 8 m a

/-- "I" and eight valid ID bytes in hex set exactly that node ID and nothing else. -/
theorem C121_set_own_id (junk : Bytes) (hj : junk.length = 8) (buf : Bytes) (m : EE) (h0 : ∀ c ∈ buf, c ≠ 0)
    (hl : 25 ≤ buf.length) (ws : List Bytes) (hws : IsWords (buf.drop 2) ws) (id : Bytes) (hid : id.length = 8)
    (hv : IDWords ws id) :
    eeBlock (cliSetID junk buf m) 20 8 = id ∧ ∀ a, (a < 20 ∨ 28 ≤ a) → cliSetID junk buf m a = m a := by
  have h0' : ∀ c ∈ buf.drop 2, c ≠ 0 := fun c hc => h0 c (List.mem_of_mem_drop hc)
  have hst := strToks_words hws h0'
  have hn := words_no_nul hws h0'
  have hloop := idLoop_good junk ws id (by omega) hn hv
  have heq : cliSetID junk buf m = (storeID id).post m := by
    unfold cliSetID
    rw [if_pos (by omega), hst]
    match ws, hv, hloop with
    | [], hv, _ =>
      match id, hid, hv with
      | _ :: _, _, hv => exact absurd hv (by simp [IDWords])
    | w :: t, _, hloop =>
      dsimp only
      rw [hloop]
  rw [heq]
  constructor
  · apply List.ext_getElem?
    intro i
    by_cases hi : i < 8
    · have : 20 + i - 20 = i := by omega
      rw [eeBlock_get _ _ _ _ hi, post_storeID, if_pos (by omega), this, List.getElem?_eq_getElem (by omega)]
      rfl
    · rw [List.getElem?_eq_none (by rw [eeBlock_length]; omega), List.getElem?_eq_none (by omega)]
  · intro a ha
    rw [post_storeID, if_neg (by omega)]

/-- The association and ID commands never touch anything but their own areas, whatever the line. -/
theorem C121_confined (junk buf : Bytes) (m : EE) (ids : List Bytes) (ht : Table m ids) (hj : junk.length = 8) :
    (∀ a, (a < 768 ∨ 1024 ≤ a) → cliAssoc junk buf m a = m a) ∧
    (∀ a, (a < 20 ∨ 28 ≤ a) → cliSetID junk buf m a = m a) := by
  constructor
  · intro a ha
    have hclr : clearAllNodeAssociations.post m a = m a := by
      unfold clearAllNodeAssociations EM.post
      apply applyW_other
      intro w hw
      have key : ∀ (l : List Nat) (m : EE), (∀ i ∈ l, i < 8) →
          ∀ w ∈ (emForEach (fun i => smartErase (assocRow i)) l m).2, 768 ≤ w.1 ∧ w.1 < 1024 := by
        intro l
        induction l with
        | nil => intro m _ w hw; cases hw
        | cons i l ih =>
          intro m hi w hw
          rw [emForEach, emBind] at hw
          rcases List.mem_append.1 hw with hw | hw
          · rw [smartErase_eq, wr1] at hw
            have := hi i List.mem_cons_self
            split at hw
            · cases hw
            · simp only [List.mem_singleton] at hw
              subst hw
              simp only [assocRow]
              omega
          · exact ih _ (fun i h => hi i (List.mem_cons_of_mem _ h)) w hw
      have := key (List.range 8) m (fun i h => List.mem_range.1 h) w hw
      omega
    have hadd : ∀ id, (addNodeAssociation id).post m a = m a := by
      intro id
      by_cases hlt : ids.length < 8
      · have := add_post ht id hlt a
        rw [this, if_neg]
        simp only [assocRow]
        omega
      · rw [EM.post, addFrom_eq ht id, if_neg hlt]
        rfl
    have main : cliAssoc junk buf m = m ∨ cliAssoc junk buf m = clearAllNodeAssociations.post m ∨
        ∃ id, cliAssoc junk buf m = (addNodeAssociation id).post m := by
      unfold cliAssoc
      by_cases hl : buf.length ≥ 3
      · rw [if_pos hl]
        cases strToks [] (buf.drop 2) with
        | nil => exact .inl rfl
        | cons t1 ts =>
          dsimp only
          by_cases h1 : t1.head? = some 63
          · rw [if_pos h1]; exact .inl rfl
          · rw [if_neg h1]
            by_cases h2 : t1.head? = some 42
            · rw [if_pos h2]; exact .inr (.inl rfl)
            · rw [if_neg h2]
              by_cases h3 : buf.length ≥ 1 + 3 * 8
              · rw [if_pos h3]
                cases idLoop junk (t1 :: ts) with
                | none => exact .inl rfl
                | some id => exact .inr (.inr ⟨id, rfl⟩)
              · rw [if_neg h3]; exact .inl rfl
      · rw [if_neg hl]; exact .inl rfl
    rcases main with h | h | ⟨id, h⟩ <;> rw [h]
    · exact hclr
    · exact hadd id
  · intro a ha
    have main : cliSetID junk buf m = m ∨ ∃ id, cliSetID junk buf m = (storeID id).post m := by
      unfold cliSetID
      by_cases hl : buf.length ≥ 1 + 3 * 8
      · rw [if_pos hl]
        cases strToks [] (buf.drop 2) with
        | nil => exact .inl rfl
        | cons t1 ts =>
          dsimp only
          cases idLoop junk (t1 :: ts) with
          | none => exact .inl rfl
          | some id => exact .inr ⟨id, rfl⟩
      · rw [if_neg hl]; exact .inl rfl
    rcases main with h | ⟨id, h⟩ <;> rw [h]
    rw [post_storeID, if_neg (by omega)]

/-- The CLI stays active for at least one and at most two minutely countdowns after a reset. -/
theorem C120_active_timer : cliActive cliReset = true ∧ cliActive (cliCountDown cliReset) = true ∧
    (∀ t n, t ≤ cliReset → 2 ≤ n → cliActive (Nat.repeat cliCountDown n t) = false) := by
  refine ⟨rfl, rfl, ?_⟩
  have h : ∀ n t, Nat.repeat cliCountDown n t = t - n := by
    intro n
    induction n with
    | zero => intro t; rfl
    | succ n ih => intro t; show cliCountDown (Nat.repeat cliCountDown n t) = _; rw [ih]; unfold cliCountDown; split <;> omega
  intro t n ht hn
  rw [h]
  unfold cliReset at ht
  have : t - n = 0 := by omega
  rw [this]; rfl

/-! ## The hypotheses can be met -/

example : DecWord "07".toUTF8.toList 7 ∧ DecWord "45".toUTF8.toList 45 := by
  refine ⟨⟨by decide +kernel, by decide +kernel, by decide +kernel⟩, ⟨by decide +kernel, by decide +kernel, by decide +kernel⟩⟩

example (r : RTC) (m : EE) : (cliTime "T 07  45 ".toUTF8.toList r m).1.mins = 465 := by
  have hw : IsWords ("T 07  45 ".toUTF8.toList.drop 2) ["07".toUTF8.toList, "45".toUTF8.toList] := by
    have : "T 07  45 ".toUTF8.toList.drop 2 = "07".toUTF8.toList ++ 32 :: 32 :: ("45".toUTF8.toList ++ 32 :: []) := by
      decide +kernel
    rw [this]
    exact .word (by decide +kernel) (by decide +kernel) (.blank (.word (by decide +kernel) (by decide +kernel) .nil))
  exact ((C123_set_time _ (by decide +kernel) _ _ [] hw (by decide +kernel) 7 45
    ⟨by decide +kernel, by decide +kernel, by decide +kernel⟩ ⟨by decide +kernel, by decide +kernel, by decide +kernel⟩
    (by decide) (by decide) r m).1 (by decide)).1

end OTR.Props
