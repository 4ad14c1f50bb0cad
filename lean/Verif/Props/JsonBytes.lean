import Verif.Lemmas.JsonBytes
import Verif.Props.JsonGrammar

/-!
# C186: JSON as bytes, and strings that are not valid UTF-8

Go texts and strings are bytes. `json.Unmarshal` reads any bytes as it reads the characters they stand for, a byte that
begins no valid UTF-8 encoding standing for U+FFFD. `json.Marshal` writes valid UTF-8 whatever the bytes of a string
are; a string comes back with U+FFFD for each such byte, so exactly the valid strings survive.
-/

namespace Finmod.Json
open Go Finmod

namespace Spec

/-- The UTF-8 encoding of a text. -/
def utf8 (l : List Char) : List UInt8 := l.flatMap String.utf8EncodeChar

/-- The bytes stand for these characters: one for each valid encoding, U+FFFD for each byte that begins none. -/
inductive Reads : List UInt8 → List Char → Prop
  | nil : Reads [] []
  | char (c : Char) {bs : List UInt8} {l : List Char} (h : Reads bs l) : Reads (String.utf8EncodeChar c ++ bs) (c :: l)
  | bad {b : UInt8} {bs : List UInt8} {l : List Char} (hb : ∀ c r, b :: bs ≠ String.utf8EncodeChar c ++ r)
      (h : Reads bs l) : Reads (b :: bs) ('\uFFFD' :: l)

/-- Valid UTF-8. -/
def ValidUtf8 (bs : List UInt8) : Prop := ∃ l, bs = utf8 l

end Spec
open Spec

theorem raw_injective {a b : List UInt8} (h : raw a = raw b) : a = b := by
  refine List.map_injective_iff.2 ?_ h
  intro x y e
  have hx := UInt8.toNat_lt x
  have hy := UInt8.toNat_lt y
  have := congrArg Char.toNat e
  rw [toNat_ofNat (valid_low (by omega)), toNat_ofNat (valid_low (by omega))] at this
  exact UInt8.toNat_inj.1 this

theorem raw_take (n : Nat) (bs : List UInt8) : (raw bs).take n = raw (bs.take n) := by simp [raw]

theorem raw_drop (n : Nat) (bs : List UInt8) : (raw bs).drop n = raw (bs.drop n) := by simp [raw]

theorem encode_ne_nil (c : Char) : String.utf8EncodeChar c ≠ [] := by
  intro h
  have := decode_encode c []
  rw [h] at this
  obtain ⟨l, hl, hc⟩ := raw_encode c
  rw [h] at hl
  subst hl
  rcases hc with ⟨-, h⟩ | ⟨-, -, a, b, h, -⟩ | ⟨-, -, a, b, d, h, -⟩ | ⟨-, a, b, d, f, h, -⟩ <;> simp [raw] at h

theorem runes_encode (c : Char) (r : List Char) : runes (raw (String.utf8EncodeChar c) ++ r) = c :: runes r := by
  have hd := decode_encode c r
  cases hl : raw (String.utf8EncodeChar c) with
  | nil => exact absurd (raw_injective (b := []) (by rw [hl]; rfl)) (encode_ne_nil c)
  | cons a q =>
    rw [hl, List.cons_append] at hd
    rw [List.cons_append, runes_cons, hd]
    have e : (a :: (q ++ r)).drop (a :: q).length = r := by
      rw [← List.cons_append]; exact List.drop_left' rfl
    show c :: runes _ = _
    rw [e]

theorem rune_bad {b : UInt8} {bs : List UInt8} (hb : ∀ c r, b :: bs ≠ String.utf8EncodeChar c ++ r) :
    decodeRune (raw (b :: bs)) = (replacement, 1) := by
  by_contra h
  have e := encode_decode (Char.ofNat b.toNat) (raw bs) h
  have e' : (raw (b :: bs)).take (decodeRune (raw (b :: bs))).2 = raw (String.utf8EncodeChar (decodeRune (raw (b :: bs))).1) := e
  rw [raw_take] at e'
  have e2 := raw_injective e'
  refine hb (decodeRune (raw (b :: bs))).1 ((b :: bs).drop (decodeRune (raw (b :: bs))).2) ?_
  rw [← e2, List.take_append_drop]

theorem replacement_eq : replacement = '\uFFFD' := by decide

theorem reads_runes {bs : List UInt8} {l : List Char} (h : Reads bs l) : runes (raw bs) = l := by
  induction h with
  | nil => rfl
  | char c h ih => rw [raw_append, runes_encode, ih]
  | @bad b bs l hb h ih =>
    have hd := rune_bad hb
    have e : raw (b :: bs) = Char.ofNat b.toNat :: raw bs := rfl
    rw [e] at hd
    rw [e, runes_cons, hd, ← replacement_eq]
    show replacement :: runes ((Char.ofNat b.toNat :: raw bs).drop 1) = _
    rw [List.drop_one, List.tail_cons, ih]

/-- C186: all bytes stand for exactly one text. -/
theorem C186_reads (bs : List UInt8) : ∃! l, Reads bs l := by
  refine ⟨runes (raw bs), ?_, fun l h => (reads_runes h).symm⟩
  have key : ∀ (n : Nat) (bs : List UInt8), bs.length ≤ n → ∃ l, Reads bs l := by
    intro n
    induction n with
    | zero =>
      intro bs h
      obtain rfl : bs = [] := List.length_eq_zero_iff.1 (by omega)
      exact ⟨[], .nil⟩
    | succ n ih =>
      intro bs h
      cases bs with
      | nil => exact ⟨[], .nil⟩
      | cons b bs =>
        by_cases hb : ∀ c r, b :: bs ≠ String.utf8EncodeChar c ++ r
        · obtain ⟨l, hl⟩ := ih bs (by simpa using h)
          exact ⟨_, .bad hb hl⟩
        · push Not at hb
          obtain ⟨c, r, e⟩ := hb
          obtain ⟨l, hl⟩ := ih r (by
            have := congrArg List.length e
            have := List.length_pos_iff.2 (encode_ne_nil c)
            simp only [List.length_append, List.length_cons] at *
            omega)
          exact ⟨c :: l, by rw [e]; exact .char c hl⟩
  obtain ⟨l, hl⟩ := key _ bs le_rfl
  rw [reads_runes hl]; exact hl

/-- C186: the encoding of a text stands for the text. -/
theorem C186_utf8 (l : List Char) : Reads (utf8 l) l := by
  induction l with
  | nil => exact .nil
  | cons c l ih => exact .char c ih

/-- More fuel does not matter. -/
theorem parse_fuel (s : List Char) {n : Nat} (h : 2 * s.length + 2 ≤ n) :
    (match J.scan n 10000 s with
      | some (v, r) => if skipWs r = [] then some v else none
      | none => none) = J.parse s := by
  ext j
  rw [C170_meaning]
  constructor
  · intro h
    split at h
    · rename_i v r hs
      split_ifs at h with hr
      obtain rfl := Option.some.inj h
      obtain ⟨a, t, h1, h2, h3⟩ := (scan_sound _).1 _ _ _ _ hs
      obtain ⟨b, hb, hbb⟩ := skipWs_sound r
      rw [hr, List.append_nil] at hb
      exact ⟨a, t, b, by rw [h1, hb], h2, h3, hbb⟩
    · simp at h
  · rintro ⟨a, t, b, rfl, h1, h2, h3⟩
    have := scan_complete h2 n a b h1 (by simpa using ends_blank h3 ends_nil)
      (by simp only [List.length_append] at h; omega)
    rw [this]
    simp [skipWs_all h3]

theorem parseB_runes (bs : List UInt8) : J.parseB bs = J.parse (runes (raw bs)) := by
  have hl : (raw bs).length = bs.length := by simp [raw]
  have hr := runes_length _ (raw bs) le_rfl
  rw [← parse_fuel (runes (raw bs)) (n := 2 * bs.length + 2) (by omega), (scan_runes _).1, J.parseB]
  cases J.scanB (2 * bs.length + 2) 10000 (raw bs) with
  | none => rfl
  | some p =>
    obtain ⟨v, r⟩ := p
    simp only [Option.map_some, decRest, skipWs_runes]
    have : skipWs r = [] ↔ runes (skipWs r) = [] := by
      constructor
      · intro h; rw [h]; rfl
      · intro h
        cases hs : skipWs r with
        | nil => rfl
        | cons a q => rw [hs, runes_cons] at h; simp at h
    by_cases h : skipWs r = []
    · rw [if_pos h, if_pos (this.1 h)]
    · rw [if_neg h, if_neg (fun e => h (this.2 e))]

/-- **C186.** Bytes are read as the characters they stand for. -/
theorem C186_unmarshal {α : Type} (c : Codec α) (old : α) {bs : List UInt8} {l : List Char} (h : Reads bs l) :
    c.unmarshalB old bs = c.unmarshal old l := by
  unfold Codec.unmarshalB Codec.unmarshal
  rw [parseB_runes, reads_runes h]
  cases J.parse l <;> rfl

/-! ### Writing strings -/

theorem utf8_append (a b : List Char) : utf8 (a ++ b) = utf8 a ++ utf8 b := by simp [utf8]

theorem raw_ascii {l : List Char} (h : ∀ c ∈ l, c.toNat < 0x80) : raw (utf8 l) = l := by
  induction l with
  | nil => rfl
  | cons c l ih =>
    have e : utf8 (c :: l) = String.utf8EncodeChar c ++ utf8 l := rfl
    obtain ⟨q, hq, hc⟩ := raw_encode c
    have h8 := h c (by simp)
    rw [e, raw_append, ih (fun x hx => h x (by simp [hx])), hq]
    rcases hc with ⟨-, rfl⟩ | ⟨h', -⟩ | ⟨h', -⟩ | ⟨h', -⟩
    · rfl
    all_goals omega

theorem hexDigit_ascii {n : Nat} (h : n < 16) : (hexDigit n).toNat < 0x80 := by
  have : ∀ m < 16, (hexDigit m).toNat < 0x80 := by decide
  exact this n h

theorem escU_ascii {n : Nat} (h : n < 65536) : ∀ c ∈ escU n, c.toNat < 0x80 := by
  intro c hc
  simp only [escU, List.mem_cons, List.not_mem_nil, or_false] at hc
  rcases hc with rfl | rfl | rfl | rfl | rfl | rfl
  · decide
  · decide
  all_goals exact hexDigit_ascii (by omega)

theorem escChar_ascii (short : Bool) {a : Char} (h : a.toNat < 0x80) : ∀ c ∈ escChar short a, c.toNat < 0x80 := by
  intro c hc
  unfold escChar at hc
  split_ifs at hc
  · simp only [List.mem_cons, List.not_mem_nil, or_false] at hc
    rcases hc with rfl | rfl
    · decide
    · exact h
  · simp only [List.mem_cons, List.not_mem_nil, or_false] at hc
    rcases hc with rfl | rfl <;> decide
  · simp only [List.mem_cons, List.not_mem_nil, or_false] at hc
    rcases hc with rfl | rfl <;> decide
  · simp only [List.mem_cons, List.not_mem_nil, or_false] at hc
    rcases hc with rfl | rfl <;> decide
  · simp only [List.mem_cons, List.not_mem_nil, or_false] at hc
    rcases hc with rfl | rfl <;> decide
  · simp only [List.mem_cons, List.not_mem_nil, or_false] at hc
    rcases hc with rfl | rfl <;> decide
  · exact escU_ascii (by omega) c hc
  · obtain rfl := List.mem_singleton.1 hc; exact h

/-- A character outside ASCII is written as it is, but for the two line separators. -/
theorem escChar_high (short : Bool) {c : Char} (h : 0x80 ≤ c.toNat) :
    escChar short c = if c.toNat = 8232 ∨ c.toNat = 8233 then escU c.toNat else [c] := by
  unfold escChar
  rw [if_neg, if_neg, if_neg, if_neg, if_neg, if_neg]
  · have h1 : ¬ c.toNat < 32 := by omega
    simp [h1, ne_of_high h (show ('<' : Char).toNat < 0x80 by decide), ne_of_high h (show ('>' : Char).toNat < 0x80 by decide),
      ne_of_high h (show ('&' : Char).toNat < 0x80 by decide)]
  · rintro ⟨-, h'⟩; omega
  · rintro ⟨-, h'⟩; omega
  · exact ne_of_high h (by decide)
  · exact ne_of_high h (by decide)
  · exact ne_of_high h (by decide)
  · rintro (h' | h')
    · exact ne_of_high h (by decide) h'
    · exact ne_of_high h (by decide) h'

/-- What is written for a string is the encoding of a text, which is read as the string; for a valid string it is the
text of its characters. -/
theorem quote_text (short : Bool) : ∀ (n : Nat) (s : List Char), s.length ≤ n → ∃ t,
    quoteN short n s = raw (utf8 t) ∧
    (∀ r, scanStr none (t ++ r) = (scanStr none r).map fun p => (runes s ++ p.1, p.2)) ∧
    (raw (utf8 (runes s)) = s → t = (runes s).flatMap (escChar short)) := by
  intro n
  induction n with
  | zero =>
    intro s h
    obtain rfl : s = [] := List.length_eq_zero_iff.1 (by omega)
    refine ⟨[], rfl, ?_, fun _ => rfl⟩
    intro r
    simp [runes_nil]
  | succ n ih =>
    intro s h
    match s with
    | [] =>
      refine ⟨[], rfl, ?_, fun _ => rfl⟩
      intro r
      simp [runes_nil]
    | a :: q =>
      simp only [List.length_cons] at h
      -- one character `c` written as `escChar short c`
      have good : ∀ (c : Char) (q' : List Char), runes (a :: q) = c :: runes q' → q'.length ≤ n →
          a :: q = raw (String.utf8EncodeChar c) ++ q' →
          quoteN short (n + 1) (a :: q) = raw (utf8 (escChar short c)) ++ quoteN short n q' →
          ∃ t, quoteN short (n + 1) (a :: q) = raw (utf8 t) ∧
            (∀ r, scanStr none (t ++ r) = (scanStr none r).map fun p => (runes (a :: q) ++ p.1, p.2)) ∧
            (raw (utf8 (runes (a :: q))) = a :: q → t = (runes (a :: q)).flatMap (escChar short)) := by
        intro c q' h1 h2 h3 h4
        obtain ⟨t, ht1, ht2, ht3⟩ := ih q' h2
        refine ⟨escChar short c ++ t, by rw [h4, ht1, utf8_append, raw_append], ?_, ?_⟩
        · intro r
          rw [List.append_assoc, scanStr_escChar, ht2, Option.map_map, h1]; rfl
        · intro hv
          rw [h1, List.flatMap_cons, ← ht3]
          rw [h1, h3] at hv
          have e : utf8 (c :: runes q') = String.utf8EncodeChar c ++ utf8 (runes q') := rfl
          rw [e, raw_append] at hv
          exact List.append_cancel_left hv
      by_cases ha : a.toNat < 0x80
      · refine good a q (runes_ascii ha q) (by omega) ?_ ?_
        · have := raw_ascii (l := [a]) (by simpa using ha)
          simp only [utf8, List.flatMap_cons, List.flatMap_nil, List.append_nil] at this
          rw [this]; rfl
        · rw [quoteN, if_pos ha, raw_ascii (escChar_ascii short ha)]
      · have hw := decodeRune_width a q
        have hd := decodeRune_high (by omega : 0x80 ≤ a.toNat) q
        by_cases hb : decodeRune (a :: q) = (replacement, 1)
        · obtain ⟨t, ht1, ht2, ht3⟩ := ih q (by omega)
          have hr : runes (a :: q) = replacement :: runes q := by rw [runes_cons, hb]; rfl
          have hF : replacement.toNat = 0xFFFD := by decide
          refine ⟨escU 0xFFFD ++ t, ?_, ?_, ?_⟩
          · rw [quoteN, if_neg ha]
            simp only [hb, and_self, if_true]
            rw [ht1, utf8_append, raw_append, raw_ascii (escU_ascii (by decide))]
          · intro r
            rw [List.append_assoc, ← hF, scanStr_escU _ (by rw [hF]; omega), ht2, Option.map_map, hr]; rfl
          · intro hv
            exfalso
            rw [hr] at hv
            have e : utf8 (replacement :: runes q) = String.utf8EncodeChar replacement ++ utf8 (runes q) := rfl
            rw [e, raw_append] at hv
            have hd := decode_encode replacement (raw (utf8 (runes q)))
            rw [hv, hb] at hd
            have := congrArg Prod.snd hd
            simp only at this
            revert this
            decide
        · have hbad : ¬ ((decodeRune (a :: q)).1 = replacement ∧ (decodeRune (a :: q)).2 = 1) := fun h =>
            hb (Prod.ext h.1 h.2)
          have he := encode_decode a q hb
          refine good (decodeRune (a :: q)).1 ((a :: q).drop (decodeRune (a :: q)).2) (runes_cons a q)
            (by simp only [List.length_drop, List.length_cons] at *; omega) (by rw [← he, List.take_append_drop]) ?_
          rw [quoteN, if_neg ha]
          simp only
          rw [if_neg hbad, escChar_high short hd]
          by_cases hl : (decodeRune (a :: q)).1.toNat = 8232 ∨ (decodeRune (a :: q)).1.toNat = 8233
          · rw [if_pos hl, if_pos hl, raw_ascii (escU_ascii (by omega))]
          · rw [if_neg hl, if_neg hl]
            have e : utf8 [(decodeRune (a :: q)).1] = String.utf8EncodeChar (decodeRune (a :: q)).1 := by simp [utf8]
            rw [e, ← he]

theorem unraw_raw (bs : List UInt8) : ((raw bs).map fun c => UInt8.ofNat c.toNat) = bs := by
  induction bs with
  | nil => rfl
  | cons b bs ih =>
    have hb := UInt8.toNat_lt b
    simp only [raw, List.map_cons, List.cons.injEq] at ih ⊢
    refine ⟨?_, ih⟩
    rw [toNat_ofNat (valid_low (by omega))]
    exact UInt8.ofNat_toNat

theorem quoteBytes_text (short : Bool) (bs : List UInt8) : ∃ t, quoteBytes short bs = utf8 ('"' :: (t ++ ['"'])) ∧
    (∀ r, scanStr none (t ++ r) = (scanStr none r).map fun p => (runes (raw bs) ++ p.1, p.2)) ∧
    (utf8 (runes (raw bs)) = bs → t = (runes (raw bs)).flatMap (escChar short)) := by
  obtain ⟨t, h1, h2, h3⟩ := quote_text short _ (raw bs) le_rfl
  refine ⟨t, ?_, h2, fun h => h3 (by rw [h])⟩
  have q : raw (utf8 ['"']) = ['"'] := raw_ascii (by decide)
  unfold quoteBytes quote
  rw [h1, show '"' :: (raw (utf8 t) ++ ['"']) = raw (utf8 ('"' :: (t ++ ['"']))) by
    rw [show '"' :: (t ++ ['"']) = ['"'] ++ (t ++ ['"']) from rfl, utf8_append, utf8_append, raw_append, raw_append, q]
    rfl, unraw_raw]

/-- **C186.** The text written for a string is valid UTF-8; for a valid string it is the encoding of the text of C169. -/
theorem C186_text (short : Bool) (s : List UInt8) :
    ValidUtf8 (quoteBytes short s) ∧ ∀ l, s = utf8 l → quoteBytes short s = utf8 (emitStr short l) := by
  obtain ⟨t, h1, -, h3⟩ := quoteBytes_text short s
  refine ⟨⟨_, h1⟩, ?_⟩
  rintro l rfl
  have e := reads_runes (C186_utf8 l)
  rw [e] at h3
  rw [h1, h3 rfl]; rfl

/-- **C186.** A string comes back as the characters its bytes stand for. -/
theorem C186_string (short : Bool) (old : String) {s : List UInt8} {l : List Char} (h : Reads s l) :
    Codec.str.unmarshalB old (quoteBytes short s) = (String.ofList l, false) := by
  obtain ⟨t, h1, h2, -⟩ := quoteBytes_text short s
  rw [reads_runes h] at h2
  have hq : scanStr none ['"'] = some ([], []) := by decide
  have hs : scanStr none (t ++ ['"']) = some (l, []) := by rw [h2, hq]; simp
  rw [C186_unmarshal _ _ (by rw [h1]; exact C186_utf8 _)]
  have hp : ∃ b, J.parse ('"' :: (t ++ ['"'])) = some (.str l b) := by
    refine ⟨noEscape (t ++ ['"']) [], ?_⟩
    unfold J.parse
    have e : skipWs ('"' :: (t ++ ['"'])) = '"' :: (t ++ ['"']) := skipWs_ne _ (by decide)
    rw [show 2 * ('"' :: (t ++ ['"'])).length + 2 = (2 * ('"' :: (t ++ ['"'])).length + 1) + 1 from rfl, J.scan, e]
    simp only [hs, Option.map_some]
    rfl
  obtain ⟨b, hp⟩ := hp
  simp only [Codec.unmarshal, hp, Codec.str]
  rfl

/-- **C186.** The strings that come back with the bytes they had are those of valid UTF-8. -/
theorem C186_survives {s : List UInt8} {l : List Char} (h : Reads s l) : utf8 l = s ↔ ValidUtf8 s := by
  constructor
  · intro e; exact ⟨l, e.symm⟩
  · rintro ⟨t, rfl⟩
    rw [← reads_runes h, reads_runes (C186_utf8 t)]

/-- The euro sign cut off after two of its three bytes, an overlong slash, a surrogate and a stray byte. -/
example : Reads [0xE2, 0x82, 0x41, 0xC0, 0xAF, 0xED, 0xA0, 0x80, 0xFF, 0xE2, 0x82, 0xAC]
    ['\uFFFD', '\uFFFD', 'A', '\uFFFD', '\uFFFD', '\uFFFD', '\uFFFD', '\uFFFD', '\uFFFD', '€'] := by
  have e : runes (raw [0xE2, 0x82, 0x41, 0xC0, 0xAF, 0xED, 0xA0, 0x80, 0xFF, 0xE2, 0x82, 0xAC]) =
    ['\uFFFD', '\uFFFD', 'A', '\uFFFD', '\uFFFD', '\uFFFD', '\uFFFD', '\uFFFD', '\uFFFD', '€'] := by decide +kernel
  obtain ⟨l, hl, -⟩ := C186_reads [0xE2, 0x82, 0x41, 0xC0, 0xAF, 0xED, 0xA0, 0x80, 0xFF, 0xE2, 0x82, 0xAC]
  rw [← e, reads_runes hl]; exact hl

example : quoteBytes true [0xFF, 0x41, 0xE2, 0x82, 0xAC] = utf8 "\"\\ufffdA€\"".toList := by decide +kernel

example : exampleEnv.candle.unmarshalB exampleEnv.candle.zero (utf8 "{\"\uFFFD\":1,\"open\":2}".toList) =
    (⟨0, .fin 2, .fin 0, .fin 0, .fin 0, .fin 0⟩, false) := by
  rw [C186_unmarshal _ _ (C186_utf8 _)]; decide +kernel

end Finmod.Json
