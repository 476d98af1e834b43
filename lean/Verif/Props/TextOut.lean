import Verif.Model.TextOut
import Verif.Spec.TextOut
import Verif.Props.JSONStats
import Verif.Props.CLISet
import Verif.Props.BinaryStats
/-!
# Properties C168-C174: text sent out, FHT8V house codes
-/

namespace OTR.Props
open OTR OTR.Spec

/-! ## C168: LoRa modem -/

theorem rnDigit_up : ∀ b : Byte, hexUp (rnDigit (b.toNat / 16)) = some (b.toNat / 16) ∧ hexUp (rnDigit (b.toNat % 16)) = some (b.toNat % 16) ∧
    rnDigit (b.toNat / 16) ≠ 13 ∧ 32 ≤ (rnDigit (b.toNat / 16)).toNat ∧ 32 ≤ (rnDigit (b.toNat % 16)).toNat := by
  apply forall_byte; decide +kernel

/-- Two upper-case hex digits per byte. -/
def hexText (msg : Bytes) : Bytes := msg.flatMap fun b => [rnDigit (b.toNat / 16), rnDigit (b.toNat % 16)]

theorem rnGetHex_eq : ∀ (k : Nat) (msg : Bytes), k ≤ msg.length → k < 128 → rnGetHex msg (2 * k) = .ok (hexText (msg.take k))
  | 0, msg, _, _ => by cases msg <;> simp [rnGetHex, hexText]
  | k + 1, [], h, _ => by simp at h
  | k + 1, b :: t, h, h2 => by
    rw [rnGetHex, if_neg (by omega), show (2 * (k + 1) + 254) % 256 = 2 * k by omega, rnGetHex_eq k t (by simp at h; omega) (by omega)]
    simp [hexText]

theorem readHexLine_hex (msg : Bytes) : readHexLine (hexText msg ++ rnEnd) = some msg := by
  induction msg with
  | nil => decide
  | cons b t ih =>
    obtain ⟨h1, h2, h3, _⟩ := rnDigit_up b
    show readHexLine (rnDigit (b.toNat / 16) :: rnDigit (b.toNat % 16) :: (hexText t ++ rnEnd)) = _
    rw [readHexLine, if_neg h3, h1, h2, ih]
    have : 16 * (b.toNat / 16) + b.toNat % 16 = b.toNat := by omega
    simp [this]

theorem txCommand_eq : ascii "mac " ++ ascii "tx uncnf 1 " = txCommand := by decide +kernel

/-- What `sendRaw` sends in full: for a message of up to 255 bytes the modem is given a well-formed command whose data is the first
`length mod 128` bytes of it. -/
theorem C168_sent_partial (msg : Bytes) (h : msg.length ≤ 255) :
    ∃ out, rnSend msg = .ok out ∧ modemTX out = some (msg.take (msg.length % 128)) ∧
      (msg.length ≤ 127 → modemTX out = some msg) ∧
      ∃ body, out = body ++ [13, 10] ∧ (∀ c ∈ body, 32 ≤ c.toNat) ∧ out.length = 17 + 2 * (msg.length % 128) := by
  have hk : (2 * msg.length) % 256 = 2 * (msg.length % 128) := by omega
  have hg := rnGetHex_eq (msg.length % 128) msg (Nat.mod_le _ _) (Nat.mod_lt _ (by decide))
  have hm : modemTX (txCommand ++ (hexText (msg.take (msg.length % 128)) ++ rnEnd)) = some (msg.take (msg.length % 128)) := by
    unfold modemTX
    have e : txCommand.length = 15 := rfl
    rw [if_pos (by rw [← e, List.take_left]), ← e, List.drop_left, readHexLine_hex]
  refine ⟨txCommand ++ (hexText (msg.take (msg.length % 128)) ++ rnEnd), ?_, hm, ?_, ?_⟩
  · unfold rnSend
    rw [hk, hg]
    dsimp only
    rw [txCommand_eq]
    simp
  · intro hl
    rw [hm, Nat.mod_eq_of_lt (by omega), List.take_length]
  · refine ⟨txCommand ++ hexText (msg.take (msg.length % 128)), by simp [rnEnd], ?_, ?_⟩
    · intro c hc
      rw [List.mem_append] at hc
      rcases hc with hc | hc
      · have : ∀ c ∈ txCommand, 32 ≤ c.toNat := by decide
        exact this c hc
      · unfold hexText at hc
        rw [List.mem_flatMap] at hc
        obtain ⟨b, _, hb⟩ := hc
        obtain ⟨_, _, _, h4, h5⟩ := rnDigit_up b
        simp only [List.mem_cons, List.not_mem_nil, or_false] at hb
        rcases hb with rfl | rfl
        · exact h4
        · exact h5
    · have hl : ∀ m : Bytes, (hexText m).length = 2 * m.length := by
        intro m; simp [hexText, List.length_flatMap]; omega
      have e : txCommand.length = 15 := rfl
      have e' : rnEnd.length = 2 := rfl
      have := Nat.mod_le msg.length 128
      rw [List.length_append, List.length_append, hl, e, e', List.length_take]
      omega

/-- **C168** is false for longer messages: one of 128 bytes or more (still accepted, still reported as sent) is sent without its last
128 bytes — not at all if it has exactly 128. -/
theorem C168_refuted_long (msg : Bytes) (h1 : 128 ≤ msg.length) (h2 : msg.length ≤ 255) :
    ∃ out, rnSend msg = .ok out ∧ modemTX out = some (msg.take (msg.length - 128)) ∧ modemTX out ≠ some msg := by
  obtain ⟨out, e1, e2, _⟩ := C168_sent_partial msg h2
  have hk : msg.length % 128 = msg.length - 128 := by omega
  rw [hk] at e2
  refine ⟨out, e1, e2, ?_⟩
  rw [e2]
  intro h
  have := congrArg List.length (Option.some.inj h)
  simp at this
  omega

/-- The commands of `begin` are lines, the first after the single auto-baud character. -/
theorem C168_begin : ∃ ls : List Bytes, rnBegin = 0x55 :: ls.flatMap (· ++ [13, 10]) ∧ ls.length = 9 ∧
    (∀ l ∈ ls, l.take 4 = "mac ".toUTF8.toList ∧ ∀ c ∈ l, 32 ≤ c.toNat ∧ c.toNat ≤ 126) ∧
    ls[7]? = some "mac join abp".toUTF8.toList :=
  ⟨["mac set devaddr 02011123", "mac set appskey 2B7E151628AED2A6ABF7158809CF4F3C", "mac set nwkskey 2B7E151628AED2A6ABF7158809CF4F3C",
    "mac set ch drrange 0 1 5", "mac set ch drrange 1 1 5", "mac set ch drrange 2 1 5", "mac set adr on", "mac join abp",
    "mac get status"].map (·.toUTF8.toList), by decide +kernel, by decide +kernel, by decide +kernel, by decide +kernel⟩

example : rnSend [0x0a, 0xff] = .ok "mac tx uncnf 1 0AFF\r\n".toUTF8.toList := by decide +kernel

/-! ## C169: the status line -/

/-- The mode letter. -/
def modeLetter (i : LineIn) : Byte := if i.warm then (if i.bake then 0x42 else 0x57) else 0x46

theorem hexDigitU_up : ∀ n, n < 16 → hexUp (hexDigitU n) = some n ∧ 32 ≤ (hexDigitU n).toNat ∧ (hexDigitU n).toNat ≤ 126 := by decide

theorem decNat_first (n : Nat) : ∃ c t, decNat n = c :: t ∧ isDig c = true := by
  obtain ⟨d1, d2, _⟩ := dec_digits n
  cases h : decNat n with
  | nil => exact absurd h d2
  | cons c t => exact ⟨c, t, rfl, d1 c (by rw [h]; simp)⟩

theorem decInt_nat (n : Nat) : decInt (n : Int) = decNat n := by
  unfold decInt; rw [if_neg (by omega)]; simp

/-- The head of the line reads back, whatever follows that cannot be taken for part of it. -/
theorem head_reads (i : LineIn) (c : Byte) (r : Bytes) (hc : isDig c = false) (hc2 : c ≠ 0x40) :
    readStatus (lineHead i ++ c :: r) = some (modeLetter i, i.valve.map (fun v => (v.toNat : Int)), i.temp, c :: r) := by
  have hT : ∀ rest : Bytes, rest = (match i.temp with | none => [] | some t => [0x40] ++ decInt (t / 16) ++ [0x43] ++ [hexDigitU (t % 16).toNat]) ++ c :: r →
      readTemp rest = some (i.temp, c :: r) := by
    rintro rest rfl
    cases ht : i.temp with
    | none => simp [readTemp, hc2]
    | some t =>
      show readTemp ([0x40] ++ decInt (t / 16) ++ [0x43] ++ [hexDigitU (t % 16).toNat] ++ c :: r) = _
      rw [show [0x40] ++ decInt (t / 16) ++ [0x43] ++ [hexDigitU (t % 16).toNat] ++ c :: r
        = 0x40 :: (decInt (t / 16) ++ 0x43 :: (hexDigitU (t % 16).toNat :: c :: r)) by simp]
      unfold readTemp
      dsimp only
      rw [if_pos rfl, readInt_dec _ 0x43 _ (by decide)]
      dsimp only
      rw [if_pos rfl, (hexDigitU_up (t % 16).toNat (by omega)).1]
      have : 16 * (t / 16) + ((t % 16).toNat : Int) = t := by omega
      dsimp only; rw [this]
  have hV : readValve ((match i.valve with | none => [] | some v => decNat v.toNat ++ [0x25]) ++
      ((match i.temp with | none => [] | some t => [0x40] ++ decInt (t / 16) ++ [0x43] ++ [hexDigitU (t % 16).toNat]) ++ c :: r))
      = some (i.valve.map (fun v => (v.toNat : Int)), (match i.temp with | none => [] | some t => [0x40] ++ decInt (t / 16) ++ [0x43] ++ [hexDigitU (t % 16).toNat]) ++ c :: r) := by
    cases hv : i.valve with
    | none =>
      cases ht : i.temp with
      | none => simp [readValve, hc]
      | some t => simp [readValve, show isDig 0x40 = false by decide]
    | some v =>
      generalize (match i.temp with | none => [] | some t => [0x40] ++ decInt (t / 16) ++ [0x43] ++ [hexDigitU (t % 16).toNat]) ++ c :: r = rest
      obtain ⟨d, t, e, hd⟩ := decNat_first v.toNat
      have hri := readInt_dec (v.toNat : Int) 0x25 rest (by decide)
      rw [decInt_nat] at hri
      show readValve (decNat v.toNat ++ [0x25] ++ rest) = _
      rw [show decNat v.toNat ++ [0x25] ++ rest = decNat v.toNat ++ 0x25 :: rest by simp]
      rw [e] at hri ⊢
      rw [List.cons_append] at hri ⊢
      rw [readValve]
      rw [if_pos hd, hri]
      simp
  have e : lineHead i ++ c :: r = 0x3d :: modeLetter i :: ((match i.valve with | none => [] | some v => decNat v.toNat ++ [0x25]) ++
      ((match i.temp with | none => [] | some t => [0x40] ++ decInt (t / 16) ++ [0x43] ++ [hexDigitU (t % 16).toNat]) ++ c :: r)) := by
    unfold lineHead modeLetter; cases i.valve <;> cases i.temp <;> simp only [List.append_assoc, List.cons_append, List.nil_append]
  rw [e, readStatus]
  rw [if_pos rfl, hV]
  dsimp only
  rw [hT _ rfl]
  rfl

theorem dec_printable (v : Int) : ∀ c ∈ decInt v, 32 ≤ c.toNat ∧ c.toNat ≤ 126 := by
  have hd : ∀ c ∈ decNat v.natAbs, 32 ≤ c.toNat ∧ c.toNat ≤ 126 := by
    intro c hc
    have := (dec_digits v.natAbs).1 c hc
    simp only [isDig, Bool.and_eq_true, decide_eq_true_eq] at this; omega
  intro c hc
  unfold decInt at hc
  split at hc
  · rw [List.mem_cons] at hc
    rcases hc with rfl | hc
    · decide
    · exact hd c hc
  · exact hd c hc

theorem head_printable (i : LineIn) : ∀ c ∈ lineHead i, 32 ≤ c.toNat ∧ c.toNat ≤ 126 := by
  intro c hc
  unfold lineHead at hc
  simp only [List.mem_append, List.mem_cons, List.not_mem_nil, or_false] at hc
  rcases hc with ((rfl | rfl) | hc) | hc
  · decide
  · cases i.warm <;> cases i.bake <;> decide
  · cases hv : i.valve with
    | none => rw [hv] at hc; simp at hc
    | some v =>
      rw [hv] at hc
      simp only [List.mem_append, List.mem_cons, List.not_mem_nil, or_false] at hc
      rcases hc with hc | rfl
      · rw [← decInt_nat] at hc; exact dec_printable _ c hc
      · decide
  · cases ht : i.temp with
    | none => rw [ht] at hc; simp at hc
    | some t =>
      rw [ht] at hc
      simp only [List.mem_append, List.mem_cons, List.not_mem_nil, or_false] at hc
      rcases hc with ((rfl | hc) | rfl) | rfl
      · decide
      · exact dec_printable _ c hc
      · decide
      · exact (hexDigitU_up _ (by omega)).2

/-- **C169** without JSON. One printable line whose mode, valve position and temperature a reader gets back exactly. -/
theorem C169_plain (s : StatSet) (sys mem : Bytes) (i : LineIn) (hj : i.js = false) :
    ∃ out, statusLine s sys mem i = .ok (out ++ [13, 10], s) ∧ (∀ c ∈ out, 32 ≤ c.toNat ∧ c.toNat ≤ 126) ∧
      readStatus (out ++ [13, 10]) = some (modeLetter i, i.valve.map (fun v => (v.toNat : Int)), i.temp, [13, 10]) := by
  refine ⟨lineHead i, ?_, head_printable i, head_reads i 13 [10] (by decide) (by decide)⟩
  unfold statusLine
  rw [if_pos (by simp [hj])]

/-- The report objects that can exist: made with room for three stats, then any number of reports showing three sensors with these
tags. -/
inductive Reports (sys : Bytes) (h a o : Bytes) : StatSet → Prop
  | init : Reports sys h a o { cap := 3 }
  | report {s mem i hv av ov out s'} : Reports sys h a o s → i.humidity = some (h, hv) → i.amb = some (a, av) → i.occ = some (o, ov) →
      mem.length = 40 → statusLine s sys mem i = .ok (out, s') → Reports sys h a o s'

structure LineInv (h a o : Bytes) (s : StatSet) : Prop where
  tab : TabOK s
  cap : s.cap = 3
  id : s.id = none
  en : s.enabled = false
  keys : ∀ x ∈ s.stats, x.key = h ∨ x.key = a ∨ x.key = o

theorem put_cfg (s : StatSet) (k : Bytes) (v : Int) (low : Bool) :
    (s.put k v low).2.cap = s.cap ∧ (s.put k v low).2.id = s.id ∧ (s.put k v low).2.enabled = s.enabled := by
  unfold StatSet.put
  split
  · exact ⟨rfl, rfl, rfl⟩
  · split
    · exact ⟨rfl, rfl, rfl⟩
    · split <;> exact ⟨rfl, rfl, rfl⟩

/-- A key that is one of the three can always be stored. -/
theorem put_line {h a o : Bytes} {s : StatSet} (hi : LineInv h a o s) (hd : h ≠ a ∧ h ≠ o ∧ a ≠ o) (k : Bytes)
    (hk : k = h ∨ k = a ∨ k = o) (hv : validKey k = true) (v : Int) :
    LineInv h a o (s.put k v false).2 ∧ (∀ k', (get (s.put k v false).2 k').map (·.value) = if k' = k then some v else (get s k').map (·.value)) := by
  obtain ⟨c1, c2, c3, c4⟩ := C65_put s hi.tab k v false
  have hroom : (get s k).isSome = true ∨ s.stats.length < s.cap := by
    cases hg : get s k with
    | some _ => exact .inl rfl
    | none =>
      right
      rw [get_none] at hg
      -- at most the two other keys are present
      have hsub : ∃ p q : Bytes, ∀ x ∈ s.stats, x.key = p ∨ x.key = q := by
        rcases hk with rfl | rfl | rfl
        · exact ⟨a, o, fun x hx => (hi.keys x hx).resolve_left (hg x hx)⟩
        · exact ⟨h, o, fun x hx => by
            rcases hi.keys x hx with e | e | e
            · exact .inl e
            · exact absurd e (hg x hx)
            · exact .inr e⟩
        · exact ⟨h, a, fun x hx => by
            rcases hi.keys x hx with e | e | e
            · exact .inl e
            · exact .inr e
            · exact absurd e (hg x hx)⟩
      obtain ⟨p, q, hpq⟩ := hsub
      have hn := hi.tab.keys
      rw [hi.cap]
      match hs : s.stats, hn, hpq with
      | [], _, _ => simp
      | [_], _, _ => simp
      | [_, _], _, _ => simp
      | x :: y :: z :: t, hn, hpq =>
        simp only [List.map_cons, List.nodup_cons, List.mem_cons, not_or] at hn
        have hx := hpq x (by simp)
        have hy := hpq y (by simp)
        have hz := hpq z (by simp)
        obtain ⟨⟨n1, n2, _⟩, ⟨n3, _⟩, _⟩ := hn
        rcases hx with hx | hx <;> rcases hy with hy | hy <;> rcases hz with hz | hz <;>
          first
          | exact absurd (hx.trans hy.symm) n1
          | exact absurd (hx.trans hz.symm) n2
          | exact absurd (hy.trans hz.symm) n3
  have hok : (s.put k v false).1 = true := by
    rw [c1, hv]
    rcases hroom with e | e <;> simp [e]
  have hget := c3 hok
  obtain ⟨p1, p2, p3⟩ := put_cfg s k v false
  refine ⟨⟨c4, by rw [p1, hi.cap], by rw [p2, hi.id], by rw [p3, hi.en], ?_⟩, ?_⟩
  · intro x hx
    have hg := (get_iff _ c4 x.key x).2 ⟨hx, rfl⟩
    rw [hget] at hg
    by_cases hxk : x.key = k
    · rw [hxk]; exact hk
    · rw [if_neg hxk] at hg
      exact hi.keys x ((get_iff s hi.tab _ x).1 hg).1
  · intro k'
    rw [hget]
    by_cases hkk : k' = k
    · rw [if_pos hkk, if_pos hkk]
      cases hg : get s k <;> rfl
    · rw [if_neg hkk, if_neg hkk]

theorem write_cfg (s : StatSet) (h : TabOK s) (sys mem : Bytes) (n : Nat) (mx sup : Bool) (hm : n ≤ mem.length) :
    (writeJSON s sys mem n mx sup).2.1.cap = s.cap ∧ (writeJSON s sys mem n mx sup).2.1.id = s.id ∧
    (writeJSON s sys mem n mx sup).2.1.enabled = s.enabled := by
  unfold writeJSON
  by_cases hb : n < 10
  · rw [if_pos hb]; exact ⟨rfl, rfl, rfl⟩
  · rw [if_neg hb]
    dsimp only
    generalize (if s.stats.length = 0 then _ else _ : JW) = w
    by_cases hf : (w.bp.write 0x7d).isFull = true
    · rw [if_pos hf]; exact ⟨rfl, rfl, rfl⟩
    · rw [if_neg hf]; exact ⟨rfl, rfl, rfl⟩

/-- All characters of the JSON are printable. -/
theorem json_printable (s : StatSet) (h : TabOK s) (sys mem : Bytes) (hs : validKey sys = true) (bufSize : Nat) (mx sup : Bool)
    (hm : bufSize ≤ mem.length) (hlead : idEntry s sys ++ countEntry s ≠ [] ∨ AllFit s sys bufSize) (r : Nat)
    (hr : (writeJSON s sys mem bufSize mx sup).1 = r) (h0 : r ≠ 0) :
    ∀ c ∈ (writeJSON s sys mem bufSize mx sup).2.2.mem.take r, 32 ≤ c.toNat ∧ c.toNat ≤ 126 := by
  obtain ⟨r', s', b, he⟩ : ∃ r s' b, writeJSON s sys mem bufSize mx sup = (r, s', b) := ⟨_, _, _, rfl⟩
  rw [he] at hr ⊢; dsimp only at hr ⊢; subst hr
  obtain ⟨P, n1, n2, t, _⟩ := write_text s h sys mem bufSize mx sup hm hlead r' s' b he h0
  intro c hc
  rw [t] at hc
  simp only [List.mem_append, List.mem_cons, List.not_mem_nil, or_false] at hc
  rcases hc with (rfl | hc) | rfl
  · decide
  · rcases joinC_mem _ c hc with rfl | ⟨f, hf, hcf⟩
    · decide
    · rw [List.mem_map] at hf
      obtain ⟨e, hem, rfl⟩ := hf
      refine text_printable e ?_ c hcf
      simp only [List.mem_append] at hem
      rcases hem with (hem | hem) | hem
      · unfold idEntry at hem
        split at hem
        · simp at hem; subst hem; exact ⟨by decide, hs⟩
        · simp at hem
        · rename_i i _ hi
          simp at hem; subst hem; exact ⟨by decide, h.id _ hi⟩
      · unfold countEntry at hem
        split at hem
        · simp at hem; subst hem; show validKey [0x2b] = true; decide
        · simp at hem
      · rw [List.mem_map] at hem
        obtain ⟨i, hi, rfl⟩ := hem
        exact h.valid _ (statAt_mem _ i (n2 i hi))
  · decide

theorem takeWhile_nul (l : Bytes) (r : Nat) (h1 : ∀ c ∈ l.take r, 32 ≤ c.toNat ∧ c.toNat ≤ 126) (h2 : l[r]? = some 0) :
    l.takeWhile (· ≠ 0) = l.take r := by
  have hlt : r < l.length := by rw [List.getElem?_eq_some_iff] at h2; exact h2.1
  have e : l = l.take r ++ 0 :: l.drop (r + 1) := by
    have h1 := List.take_append_drop r l
    rw [List.drop_eq_getElem_cons hlt] at h1
    rw [List.getElem?_eq_some_iff] at h2
    rw [h2.2] at h1
    exact h1.symm
  have := takeWhile_stop (fun c => decide (c ≠ 0)) (l.take r) 0 (l.drop (r + 1)) (by
    intro c hc
    have := (h1 c hc).1
    simp only [decide_eq_true_eq]
    rintro rfl
    simp at this) (by simp)
  rw [← e] at this
  exact this.1

/-- One report, from any state satisfying the invariant. -/
theorem line_step {h a o : Bytes} {s : StatSet} (hi : LineInv h a o s) (hd : h ≠ a ∧ h ≠ o ∧ a ≠ o)
    (hv : validKey h = true ∧ validKey a = true ∧ validKey o = true) (sys mem : Bytes) (hs : validKey sys = true)
    (hm : mem.length = 40) (i : LineIn) (hj : i.js = true) (x y z : Int)
    (h1 : i.humidity = some (h, x)) (h2 : i.amb = some (a, y)) (h3 : i.occ = some (o, z)) :
    ∃ json s', statusLine s sys mem i = .ok (lineHead i ++ [0x3b] ++ json ++ [13, 10], s') ∧ LineInv h a o s' ∧
      (∀ c ∈ json, 32 ≤ c.toNat ∧ c.toNat ≤ 126) ∧ json.length ≤ 38 ∧ (30 < sys.length → json = []) ∧
      (sys.length ≤ 30 → ∃ es, readObj json = some (([0x40], .str sys) :: es) ∧ (es.map (·.1)).Nodup ∧
        ∀ e ∈ es, e = (h, .num x) ∨ e = (a, .num y) ∨ e = (o, .num z)) := by
  obtain ⟨i1, g1⟩ := put_line hi hd h (.inl rfl) hv.1 x
  obtain ⟨i2, g2⟩ := put_line i1 hd a (.inr (.inl rfl)) hv.2.1 y
  obtain ⟨i3, g3⟩ := put_line i2 hd o (.inr (.inr rfl)) hv.2.2 z
  have hval : ∀ st ∈ (((s.put h x false).2.put a y false).2.put o z false).2.stats, statEntry st = (h, .num x) ∨ statEntry st = (a, .num y) ∨ statEntry st = (o, .num z) := by
    intro st hst
    have hg := (get_iff _ i3.tab st.key st).2 ⟨hst, rfl⟩
    have e3 := g3 st.key
    rw [g2, g1, hg] at e3
    rcases i3.keys st hst with e | e | e
    · left
      rw [e, if_neg hd.2.1, if_neg hd.1, if_pos rfl] at e3
      show (st.key, JVal.num st.value) = _
      rw [e, show st.value = x from Option.some.inj e3]
    · right; left
      rw [e, if_neg hd.2.2, if_pos rfl] at e3
      show (st.key, JVal.num st.value) = _
      rw [e, show st.value = y from Option.some.inj e3]
    · right; right
      rw [e, if_pos rfl] at e3
      show (st.key, JVal.num st.value) = _
      rw [e, show st.value = z from Option.some.inj e3]
  generalize hs3 : (((s.put h x false).2.put a y false).2.put o z false).2 = s3 at hval i3
  have hde : statusLine s sys mem i = .ok (lineHead i ++ [0x3b] ++ (if (writeJSON s3 sys mem 40 true false).1 ≠ 0 then
      (writeJSON s3 sys mem 40 true false).2.2.mem.takeWhile (· ≠ 0) else []) ++ [13, 10], (writeJSON s3 sys mem 40 true false).2.1) := by
    unfold statusLine
    rw [if_neg (by simp [hj]), h1, h2, h3]
    dsimp only
    rw [hs3]
  have hide : idEntry s3 sys = [([0x40], .str sys)] := by unfold idEntry; rw [i3.id]
  have hcnt : countEntry s3 = [] := by unfold countEntry; rw [if_neg (by simp [i3.en])]
  have hlead : idEntry s3 sys ++ countEntry s3 ≠ [] ∨ AllFit s3 sys 40 := .inl (by rw [hide]; simp)
  have hfail := (C64_failure s3 i3.tab sys mem 40 true false (by omega)).1
  have hlen : (joinC ((idEntry s3 sys ++ countEntry s3).map entryText)).length = sys.length + 6 := by
    rw [hide, hcnt]; simp [joinC, entryText]
  rw [hlen] at hfail
  have htab := C65_write s3 i3.tab sys mem 40 true false (by omega)
  obtain ⟨p1, p2, p3⟩ := write_cfg s3 i3.tab sys mem 40 true false (by omega)
  have hinv : LineInv h a o (writeJSON s3 sys mem 40 true false).2.1 := by
    refine ⟨htab.1, by rw [p1, i3.cap], by rw [p2, i3.id], by rw [p3, i3.en], ?_⟩
    intro st hst
    have hg := (get_iff _ htab.1 st.key st).2 ⟨hst, rfl⟩
    have e := htab.2 st.key
    rw [hg] at e
    cases hg' : get s3 st.key with
    | none => rw [hg'] at e; simp at e
    | some st' =>
      have := (get_iff s3 i3.tab _ st').1 hg'
      rw [← this.2]
      exact i3.keys st' this.1
  refine ⟨_, _, hde, hinv, ?_⟩
  by_cases h0 : (writeJSON s3 sys mem 40 true false).1 = 0
  · rw [if_neg (by simp [h0])]
    have := hfail.1 h0
    refine ⟨by simp, by simp, fun _ => rfl, fun hl => by omega⟩
  · rw [if_pos h0]
    obtain ⟨f1, f2, _, f3, f4⟩ := C64_framing s3 i3.tab sys mem 40 true false (by omega) _ rfl h0
    have hp := json_printable s3 i3.tab sys mem hs 40 true false (by omega) hlead _ rfl h0
    rw [takeWhile_nul _ _ hp f2]
    refine ⟨hp, ?_, fun hl => absurd (hfail.2 (by omega)) h0, fun hl => ?_⟩
    · rw [f3]; simp; omega
    · have hq : (0x22 : Byte) ∉ sys := valid_clean sys hs
      obtain ⟨xs, x1, x2, x3⟩ := C64_wellformed_partial s3 i3.tab sys mem hq 40 true false (by omega) hlead _ rfl h0
      refine ⟨xs.map statEntry, by rw [x3, hide, hcnt]; rfl, ?_, ?_⟩
      · rw [List.map_map]; exact x2
      · intro e he
        rw [List.mem_map] at he
        obtain ⟨st, hst, rfl⟩ := he
        exact hval st (x1 st hst)

theorem reports_inv {sys h a o : Bytes} (hd : h ≠ a ∧ h ≠ o ∧ a ≠ o) (hv : validKey h = true ∧ validKey a = true ∧ validKey o = true)
    (hs : validKey sys = true) {s : StatSet} (hr : Reports sys h a o s) : LineInv h a o s := by
  induction hr with
  | init => exact ⟨⟨by simp, by simp, by simp, by simp, by simp, by simp, by simp⟩, rfl, rfl, rfl, by simp⟩
  | @report s mem i x y z out s' _ h1 h2 h3 hm he ih =>
    cases hj : i.js with
    | false =>
      unfold statusLine at he
      rw [if_pos (by simp [hj])] at he
      simp only [Res.ok.injEq, Prod.mk.injEq] at he
      rw [← he.2]; exact ih
    | true =>
      obtain ⟨json, s'', e, i', _⟩ := line_step ih hd hv sys mem hs hm i hj x y z h1 h2 h3
      rw [e] at he
      simp only [Res.ok.injEq, Prod.mk.injEq] at he
      rw [← he.2]; exact i'

/-- **C169.** In any history of reports showing three sensors with distinct valid tags, each report is one printable line from which a
reader gets the mode, valve position and temperature, then a `;`, then a JSON object with the node's ID and some of the three sensors,
none twice, each with the value it has now. -/
theorem C169_report {sys h a o : Bytes} (hd : h ≠ a ∧ h ≠ o ∧ a ≠ o) (hv : validKey h = true ∧ validKey a = true ∧ validKey o = true)
    (hs : validKey sys = true) (hl : sys.length ≤ 30) {s : StatSet} (hr : Reports sys h a o s) (mem : Bytes) (hm : mem.length = 40)
    (i : LineIn) (hj : i.js = true) (x y z : Int) (h1 : i.humidity = some (h, x)) (h2 : i.amb = some (a, y)) (h3 : i.occ = some (o, z)) :
    ∃ text json s', statusLine s sys mem i = .ok (text ++ [13, 10], s') ∧ (∀ c ∈ text, 32 ≤ c.toNat ∧ c.toNat ≤ 126) ∧
      readStatus (text ++ [13, 10]) = some (modeLetter i, i.valve.map (fun v => (v.toNat : Int)), i.temp, [0x3b] ++ json ++ [13, 10]) ∧
      ∃ es, readObj json = some (([0x40], .str sys) :: es) ∧ (es.map (·.1)).Nodup ∧
        ∀ e ∈ es, e = (h, .num x) ∨ e = (a, .num y) ∨ e = (o, .num z) := by
  obtain ⟨json, s', e, _, hp, _, _, hes⟩ := line_step (reports_inv hd hv hs hr) hd hv sys mem hs hm i hj x y z h1 h2 h3
  refine ⟨lineHead i ++ [0x3b] ++ json, json, s', e, ?_, ?_, hes hl⟩
  · intro c hc
    simp only [List.mem_append, List.mem_cons, List.not_mem_nil, or_false] at hc
    rcases hc with (hc | rfl) | hc
    · exact head_printable i c hc
    · decide
    · exact hp c hc
  · have := head_reads i 0x3b (json ++ [13, 10]) (by decide) (by decide)
    rw [show lineHead i ++ [0x3b] ++ json ++ [13, 10] = lineHead i ++ 0x3b :: (json ++ [13, 10]) by simp, this]
    simp

/-- The whole part is the temperature truncated towards zero only above freezing: -0.5C is shown as "-1C8". -/
theorem C169_whole_degrees (s : StatSet) (sys mem : Bytes) :
    (statusLine s sys mem ⟨false, false, none, some (-8), false, none, none, none⟩ = .ok ("=F@-1C8\r\n".toUTF8.toList, s)) ∧
    (statusLine s sys mem ⟨true, true, some 100, some 378, false, none, none, none⟩ = .ok ("=B100%@23CA\r\n".toUTF8.toList, s)) := by
  constructor <;> (unfold statusLine; rw [if_pos (by simp)]; congr 2; decide +kernel)

/-! ## C170: optional sensors -/

/-- With the trailing JSON disabled every sensor is optional; with it enabled the report dereferences NULL exactly when a sensor is
missing. -/
theorem C170_optional_partial (s : StatSet) (sys mem : Bytes) (i : LineIn) :
    statusLine s sys mem i = .ub ↔ i.js = true ∧ (i.humidity = none ∨ i.amb = none ∨ i.occ = none) := by
  unfold statusLine
  cases hj : i.js with
  | false => simp
  | true =>
    cases i.humidity <;> cases i.amb <;> cases i.occ <;> simp

/-- **C170** is false with the default setting: leaving out, say, the humidity sensor makes every report read through NULL. -/
theorem C170_refuted : ∃ i : LineIn, i.js = true ∧ i.humidity = none ∧ ∀ s sys mem, statusLine s sys mem i = .ub :=
  ⟨⟨true, false, some 20, some 320, true, none, some ([0x4c], 30), some ([0x4f], 2)⟩, rfl, rfl, fun _ _ _ => rfl⟩

example : (statusLine { cap := 3 } [0x61, 0x62] (List.replicate 40 7)
    ⟨true, false, some 20, some 320, true, some ([0x48], 55), some ([0x4c], 30), some ([0x4f], 2)⟩) =
    .ok ("=W20%@20C0;{\"@\":\"ab\",\"H\":55,\"L\":30,\"O\":2}\r\n".toUTF8.toList,
      ⟨3, [⟨[0x48], false, 55, false⟩, ⟨[0x4c], false, 30, false⟩, ⟨[0x4f], false, 2, false⟩], 2, none, false, 1⟩) := by
  decide +kernel

end OTR.Props
