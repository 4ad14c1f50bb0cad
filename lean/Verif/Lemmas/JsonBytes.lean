import Verif.Go.JsonBytes
import Verif.Lemmas.JsonText

/-!
# Reading JSON from bytes is reading JSON from characters
-/

namespace Go

/-- The width is between 1 and the number of bytes. -/
theorem decodeRune_width (a : Char) (r : List Char) :
    1 ≤ (decodeRune (a :: r)).2 ∧ (decodeRune (a :: r)).2 ≤ (a :: r).length := by
  unfold decodeRune
  dsimp only
  split_ifs
  · simp
  · simp
  · split
    · split_ifs <;> simp
    · simp
  · split
    · split_ifs <;> simp
    · simp
  · split
    · split_ifs <;> simp
    · simp
  · simp

theorem decodeRune_ascii {a : Char} (h : a.toNat < 0x80) (r : List Char) : decodeRune (a :: r) = (a, 1) := by
  simp [decodeRune, h]

theorem toNat_ofNat {n : Nat} (h : n.isValidChar) : (Char.ofNat n).toNat = n := by
  rw [Char.ofNat, dif_pos h]; rfl

theorem valid_low {n : Nat} (h : n < 0xD800) : n.isValidChar := .inl h

theorem valid_high {n : Nat} (h1 : 0xE000 ≤ n) (h2 : n < 0x110000) : n.isValidChar := .inr ⟨by omega, h2⟩

/-- A byte outside ASCII never gives an ASCII character. -/
theorem decodeRune_high {a : Char} (h : 0x80 ≤ a.toNat) (r : List Char) : 0x80 ≤ (decodeRune (a :: r)).1.toNat := by
  have hr : 0x80 ≤ replacement.toNat := by decide
  unfold decodeRune
  dsimp only
  split_ifs with h1 h2 h3 h4 h5
  · omega
  · exact hr
  · split
    · rename_i b r
      split_ifs with hb
      · simp only [contC, Bool.and_eq_true, decide_eq_true_eq] at hb
        rw [toNat_ofNat (valid_low (by omega))]; omega
      · exact hr
    · exact hr
  · split
    · rename_i b c r
      split_ifs with hb
      · simp only [contC, secondC, Bool.and_eq_true, decide_eq_true_eq] at hb
        obtain ⟨⟨h6, h7⟩, h8, h9⟩ := hb
        have hv : ((a.toNat - 0xE0) * 4096 + (b.toNat - 0x80) * 64 + (c.toNat - 0x80)).isValidChar := by
          by_cases e : a.toNat ≤ 0xED
          · apply valid_low
            split_ifs at h7 <;> omega
          · apply valid_high
            · split_ifs at h6 <;> omega
            · split_ifs at h7 <;> omega
        rw [toNat_ofNat hv]
        split_ifs at h6 <;> omega
      · exact hr
    · exact hr
  · split
    · rename_i b c d r
      split_ifs with hb
      · simp only [contC, secondC, Bool.and_eq_true, decide_eq_true_eq] at hb
        obtain ⟨⟨⟨h6, h7⟩, h8, h9⟩, h10, h11⟩ := hb
        have hv : ((a.toNat - 0xF0) * 262144 + (b.toNat - 0x80) * 4096 + (c.toNat - 0x80) * 64 + (d.toNat - 0x80)).isValidChar := by
          apply valid_high
          · split_ifs at h6 <;> omega
          · split_ifs at h7 <;> omega
        rw [toNat_ofNat hv]
        split_ifs at h6 <;> omega
      · exact hr
    · exact hr
  · exact hr

theorem runesN_eq (n : Nat) : ∀ s : List Char, s.length ≤ n → runesN n s = runes s := by
  have key : ∀ (n m : Nat) (s : List Char), s.length ≤ n → s.length ≤ m → runesN n s = runesN m s := by
    intro n
    induction n with
    | zero =>
      intro m s hn hm
      obtain rfl : s = [] := List.length_eq_zero_iff.1 (by omega)
      cases m <;> rfl
    | succ n ih =>
      intro m s hn hm
      cases s with
      | nil => cases m <;> rfl
      | cons a r =>
        cases m with
        | zero => simp at hm
        | succ m =>
          have hw := decodeRune_width a r
          rw [runesN, runesN, ih m]
          · simp only [List.length_drop]; omega
          · simp only [List.length_drop]; omega
  exact fun s h => key n s.length s h le_rfl

theorem runes_nil : runes [] = [] := rfl

theorem runes_cons (a : Char) (r : List Char) :
    runes (a :: r) = (decodeRune (a :: r)).1 :: runes ((a :: r).drop (decodeRune (a :: r)).2) := by
  have hw := decodeRune_width a r
  rw [runes, List.length_cons, runesN, runesN_eq]
  simp only [List.length_drop, List.length_cons] at *; omega

theorem runes_ascii {a : Char} (h : a.toNat < 0x80) (r : List Char) : runes (a :: r) = a :: runes r := by
  rw [runes_cons, decodeRune_ascii h]; rfl

/-- An ASCII character at the front of the characters is the byte at the front. -/
theorem runes_eq_ascii {s C : List Char} {x : Char} (hx : x.toNat < 0x80) (h : runes s = x :: C) :
    ∃ t, s = x :: t ∧ C = runes t := by
  cases s with
  | nil => simp [runes_nil] at h
  | cons a r =>
    by_cases ha : a.toNat < 0x80
    · rw [runes_ascii ha] at h
      obtain ⟨rfl, rfl⟩ := List.cons.inj h
      exact ⟨r, rfl, rfl⟩
    · rw [runes_cons] at h
      have := decodeRune_high (by omega : 0x80 ≤ a.toNat) r
      rw [(List.cons.inj h).1] at this
      omega

theorem runes_length (n : Nat) : ∀ s : List Char, s.length ≤ n → (runes s).length ≤ s.length := by
  induction n with
  | zero =>
    intro s h
    obtain rfl : s = [] := List.length_eq_zero_iff.1 (by omega)
    simp [runes_nil]
  | succ n ih =>
    intro s h
    cases s with
    | nil => simp [runes_nil]
    | cons a r =>
      have hw := decodeRune_width a r
      have := ih ((a :: r).drop (decodeRune (a :: r)).2) (by simp only [List.length_drop]; omega)
      rw [runes_cons]
      simp only [List.length_cons, List.length_drop] at *
      omega

theorem skipWs_runes (s : List Char) : skipWs (runes s) = runes (skipWs s) := by
  induction s with
  | nil => rfl
  | cons a r ih =>
    by_cases ha : a.toNat < 0x80
    · rw [runes_ascii ha, skipWs, skipWs]
      split_ifs
      · exact ih
      · rw [runes_ascii ha]
    · have hd := decodeRune_high (by omega : 0x80 ≤ a.toNat) r
      have e : ∀ c : Char, 0x80 ≤ c.toNat → c ≠ ' ' ∧ c ≠ '\t' ∧ c ≠ '\r' ∧ c ≠ '\n' := by
        intro c hc
        refine ⟨?_, ?_, ?_, ?_⟩ <;> rintro rfl <;> revert hc <;> decide
      rw [skipWs_ne _ (e a (by omega)), runes_cons, skipWs_ne _ (e _ hd)]

/-! ### Numbers -/

theorem digit_ascii {c : Char} (h : digitC c = true) : c.toNat < 0x80 := by
  simp only [digitC, decide_eq_true_eq] at h; omega

/-- The pair with its rest decoded. -/
def decRest {α : Type} (p : α × List Char) : α × List Char := (p.1, runes p.2)

theorem spanDigits_runes (s : List Char) : spanDigits (runes s) = decRest (spanDigits s) := by
  induction s with
  | nil => rfl
  | cons a r ih =>
    by_cases ha : digitC a = true
    · rw [runes_ascii (digit_ascii ha)]
      simp only [spanDigits, decRest, Prod.mk.injEq, List.takeWhile_cons, List.dropWhile_cons, ha, if_true] at ih ⊢
      exact ⟨by rw [ih.1], ih.2⟩
    · have hd : digitC (decodeRune (a :: r)).1 = false := by
        by_cases h8 : a.toNat < 0x80
        · rw [decodeRune_ascii h8]; simpa using ha
        · have := decodeRune_high (by omega : 0x80 ≤ a.toNat) r
          simp only [digitC, decide_eq_false_iff_not]; omega
      rw [runes_cons]
      simp only [spanDigits, decRest, List.takeWhile_cons, List.dropWhile_cons, hd, Bool.not_eq_true _ ▸ ha]
      simp [← runes_cons]

/-- A function of the first character, if that is one of a few ASCII characters, sees the same. -/
theorem runes_head {s : List Char} :
    (s = [] ∧ runes s = []) ∨ (∃ a r, a.toNat < 0x80 ∧ s = a :: r ∧ runes s = a :: runes r) ∨
    ∃ a r d q, 0x80 ≤ a.toNat ∧ 0x80 ≤ d.toNat ∧ s = a :: r ∧ runes s = d :: q := by
  cases s with
  | nil => exact .inl ⟨rfl, rfl⟩
  | cons a r =>
    by_cases ha : a.toNat < 0x80
    · exact .inr (.inl ⟨a, r, ha, rfl, runes_ascii ha r⟩)
    · exact .inr (.inr ⟨a, r, _, _, by omega, decodeRune_high (by omega) r, rfl, runes_cons a r⟩)

theorem ne_of_high {c x : Char} (h : 0x80 ≤ c.toNat) (hx : x.toNat < 0x80) : c ≠ x := by rintro rfl; omega

theorem scanInt_runes (s : List Char) : scanInt (runes s) = (scanInt s).map decRest := by
  have hd := spanDigits_runes s
  have g : ∀ t : List Char, (∀ r, t ≠ '0' :: r) → scanInt t = if (spanDigits t).1 = [] then none else some (spanDigits t) := by
    intro t ht
    rw [scanInt]
    exact fun r h => ht r h
  by_cases h0 : ∃ r, s = '0' :: r
  · obtain ⟨r, rfl⟩ := h0
    rw [runes_ascii (by decide)]; rfl
  · have h1 : ∀ r, s ≠ '0' :: r := fun r h => h0 ⟨r, h⟩
    have h2 : ∀ r, runes s ≠ '0' :: r := fun r h => by
      obtain ⟨t, ht, -⟩ := runes_eq_ascii (by decide) h
      exact h1 t ht
    rw [g _ h1, g _ h2, hd]
    by_cases hp : (spanDigits s).1 = [] <;> simp [decRest, hp]

theorem scanFrac_runes (s : List Char) : scanFrac (runes s) = (scanFrac s).map decRest := by
  by_cases h0 : ∃ r, s = '.' :: r
  · obtain ⟨r, rfl⟩ := h0
    rw [runes_ascii (by decide), scanFrac, scanFrac, spanDigits_runes]
    by_cases hp : (spanDigits r).1 = [] <;> simp [decRest, hp]
  · have h1 : ∀ r, s ≠ '.' :: r := fun r h => h0 ⟨r, h⟩
    have h2 : ∀ r, runes s ≠ '.' :: r := fun r h => by
      obtain ⟨t, ht, -⟩ := runes_eq_ascii (by decide) h
      exact h1 t ht
    rw [scanFrac, scanFrac]
    · rfl
    · exact fun r h => h1 r h
    · exact fun r h => h2 r h

theorem scanSigned_runes (s : List Char) : scanSigned (runes s) = (scanSigned s).map decRest := by
  have plain : ∀ t : List Char, (∀ r, t ≠ '+' :: r) → (∀ r, t ≠ '-' :: r) →
      scanSigned t = if (spanDigits t).1 = [] then none else some (spanDigits t) := by
    intro t h1 h2
    rw [scanSigned]
    · exact fun r h => h1 r h
    · exact fun r h => h2 r h
  by_cases h0 : ∃ r, s = '+' :: r
  · obtain ⟨r, rfl⟩ := h0
    rw [runes_ascii (by decide), scanSigned, scanSigned, spanDigits_runes]
    by_cases hp : (spanDigits r).1 = [] <;> simp [decRest, hp]
  · by_cases h0' : ∃ r, s = '-' :: r
    · obtain ⟨r, rfl⟩ := h0'
      rw [runes_ascii (by decide), scanSigned, scanSigned, spanDigits_runes]
      by_cases hp : (spanDigits r).1 = [] <;> simp [decRest, hp]
    · rw [plain s (fun r h => h0 ⟨r, h⟩) (fun r h => h0' ⟨r, h⟩), plain (runes s)]
      · rw [spanDigits_runes]
        by_cases hp : (spanDigits s).1 = [] <;> simp [decRest, hp]
      · intro r h
        obtain ⟨t, ht, -⟩ := runes_eq_ascii (by decide) h
        exact h0 ⟨t, ht⟩
      · intro r h
        obtain ⟨t, ht, -⟩ := runes_eq_ascii (by decide) h
        exact h0' ⟨t, ht⟩

theorem scanExpo_runes (s : List Char) : scanExpo (runes s) = (scanExpo s).map decRest := by
  by_cases h0 : ∃ r, s = 'e' :: r
  · obtain ⟨r, rfl⟩ := h0
    rw [runes_ascii (by decide), scanExpo, scanExpo, scanSigned_runes, Option.map_map, Option.map_map]; rfl
  · by_cases h0' : ∃ r, s = 'E' :: r
    · obtain ⟨r, rfl⟩ := h0'
      rw [runes_ascii (by decide), scanExpo, scanExpo, scanSigned_runes, Option.map_map, Option.map_map]; rfl
    · rw [scanExpo, scanExpo]
      · rfl
      · exact fun r h => h0 ⟨r, h⟩
      · exact fun r h => h0' ⟨r, h⟩
      · intro r h
        obtain ⟨t, ht, -⟩ := runes_eq_ascii (by decide) h
        exact h0 ⟨t, ht⟩
      · intro r h
        obtain ⟨t, ht, -⟩ := runes_eq_ascii (by decide) h
        exact h0' ⟨t, ht⟩

theorem scanUnsigned_runes (s : List Char) : scanUnsigned (runes s) = (scanUnsigned s).map decRest := by
  unfold scanUnsigned
  rw [scanInt_runes]
  cases scanInt s with
  | none => rfl
  | some i =>
    simp only [Option.map_some, Option.bind_some]
    rw [show (decRest i).2 = runes i.2 from rfl, scanFrac_runes]
    cases scanFrac i.2 with
    | none => rfl
    | some f =>
      simp only [Option.map_some, Option.bind_some]
      rw [show (decRest f).2 = runes f.2 from rfl, scanExpo_runes, Option.map_map, Option.map_map]
      rfl

theorem scanNum_runes (s : List Char) : scanNum (runes s) = (scanNum s).map decRest := by
  by_cases h0 : ∃ r, s = '-' :: r
  · obtain ⟨r, rfl⟩ := h0
    rw [runes_ascii (by decide), scanNum, scanNum, scanUnsigned_runes, Option.map_map, Option.map_map]; rfl
  · rw [scanNum, scanNum]
    · exact scanUnsigned_runes s
    · exact fun r h => h0 ⟨r, h⟩
    · intro r h
      obtain ⟨t, ht, -⟩ := runes_eq_ascii (by decide) h
      exact h0 ⟨t, ht⟩

/-! ### Strings -/

theorem hex_ascii {c : Char} (h : hexC c = true) : c.toNat < 0x80 := by
  unfold hexC at h
  rw [Bool.or_eq_true, decide_eq_true_eq] at h
  rcases h with h | h
  · exact digit_ascii h
  · unfold lowerC at h
    by_cases hc : 65 ≤ c.toNat ∧ c.toNat ≤ 90
    · omega
    · simp only [if_neg hc] at h; omega

theorem hex4_ascii {a b c d : Char} {n : Nat} (h : hex4 a b c d = some n) :
    a.toNat < 0x80 ∧ b.toNat < 0x80 ∧ c.toNat < 0x80 ∧ d.toNat < 0x80 := by
  unfold hex4 at h
  split_ifs at h with hc
  simp only [Bool.and_eq_true] at hc
  exact ⟨hex_ascii hc.1.1.1, hex_ascii hc.1.1.2, hex_ascii hc.1.2, hex_ascii hc.2⟩

theorem unescape_ascii {c x : Char} (h : unescape c = some x) : c.toNat < 0x80 := by
  unfold unescape at h
  split at h <;> first | decide | simp at h

/-- The number after `\u`, and the rest. -/
def u4 : List Char → Option (Nat × List Char)
  | a :: b :: c :: d :: r => (hex4 a b c d).map fun n => (n, r)
  | _ => none

theorem u4_eq_some {X r : List Char} {n : Nat} (h : u4 X = some (n, r)) :
    ∃ a b c d, X = a :: b :: c :: d :: r ∧ hex4 a b c d = some n := by
  unfold u4 at h
  split at h
  · rename_i a b c d r'
    rw [Option.map_eq_some_iff] at h
    obtain ⟨k, hk, he⟩ := h
    simp only [Prod.mk.injEq] at he
    obtain ⟨rfl, rfl⟩ := he
    exact ⟨a, b, c, d, rfl, hk⟩
  · simp at h

theorem u4_runes (t : List Char) : u4 (runes t) = (u4 t).map decRest := by
  cases h : u4 t with
  | some p =>
    obtain ⟨n, r⟩ := p
    obtain ⟨a, b, c, d, rfl, hh⟩ := u4_eq_some h
    obtain ⟨ha, hb, hc, hd⟩ := hex4_ascii hh
    rw [runes_ascii ha, runes_ascii hb, runes_ascii hc, runes_ascii hd]
    simp [u4, hh, decRest]
  | none =>
    cases h' : u4 (runes t) with
    | none => rfl
    | some p =>
      obtain ⟨n, r⟩ := p
      obtain ⟨a, b, c, d, he, hh⟩ := u4_eq_some h'
      obtain ⟨ha, hb, hc, hd⟩ := hex4_ascii hh
      obtain ⟨t1, rfl, e1⟩ := runes_eq_ascii ha he
      obtain ⟨t2, rfl, e2⟩ := runes_eq_ascii hb e1.symm
      obtain ⟨t3, rfl, e3⟩ := runes_eq_ascii hc e2.symm
      obtain ⟨t4, rfl, e4⟩ := runes_eq_ascii hd e3.symm
      simp [u4, hh] at h

/-- What is made of a number after `\u`, given how reading goes on. -/
def stepU (hi : Option Nat) (n : Nat) (k : Option Nat → Option (List Char × List Char)) :
    Option (List Char × List Char) :=
  match hi with
  | some h =>
    if 0xDC00 ≤ n ∧ n < 0xE000 then
      (k none).map fun p => (Char.ofNat (0x10000 + (h - 0xD800) * 1024 + (n - 0xDC00)) :: p.1, p.2)
    else if 0xD800 ≤ n ∧ n < 0xDC00 then (k (some n)).map fun p => (replacement :: p.1, p.2)
    else (k none).map fun p => (replacement :: Char.ofNat n :: p.1, p.2)
  | none =>
    if 0xD800 ≤ n ∧ n < 0xDC00 then k (some n)
    else if 0xDC00 ≤ n ∧ n < 0xE000 then (k none).map fun p => (replacement :: p.1, p.2)
    else (k none).map fun p => (Char.ofNat n :: p.1, p.2)

theorem stepU_map (hi : Option Nat) (n : Nat) (k : Option Nat → Option (List Char × List Char)) :
    stepU hi n (fun h => (k h).map decRest) = (stepU hi n k).map decRest := by
  unfold stepU
  cases hi with
  | none =>
    dsimp only
    by_cases h1 : 0xD800 ≤ n ∧ n < 0xDC00
    · rw [if_pos h1, if_pos h1]
    · rw [if_neg h1, if_neg h1]
      by_cases h2 : 0xDC00 ≤ n ∧ n < 0xE000
      · rw [if_pos h2, if_pos h2, Option.map_map, Option.map_map]; rfl
      · rw [if_neg h2, if_neg h2, Option.map_map, Option.map_map]; rfl
  | some h =>
    dsimp only
    by_cases h2 : 0xDC00 ≤ n ∧ n < 0xE000
    · rw [if_pos h2, if_pos h2, Option.map_map, Option.map_map]; rfl
    · rw [if_neg h2, if_neg h2]
      by_cases h1 : 0xD800 ≤ n ∧ n < 0xDC00
      · rw [if_pos h1, if_pos h1, Option.map_map, Option.map_map]; rfl
      · rw [if_neg h1, if_neg h1, Option.map_map, Option.map_map]; rfl

theorem scanStr_u (hi : Option Nat) (X : List Char) :
    scanStr hi ('\\' :: 'u' :: X) = (u4 X).bind fun p => stepU hi p.1 fun h => scanStr h p.2 := by
  match X with
  | a :: b :: c :: d :: r =>
    rw [scanStr, u4]
    cases hex4 a b c d with
    | none => rfl
    | some n => cases hi <;> rfl
  | [] => rw [scanStr] <;> simp [u4, unescape]
  | [a] => rw [scanStr] <;> simp [u4, unescape]
  | [a, b] => rw [scanStr] <;> simp [u4, unescape]
  | [a, b, c] => rw [scanStr] <;> simp [u4, unescape]

theorem unquote_u (m : Nat) (hi : Option Nat) (X : List Char) :
    unquote (m + 1) hi ('\\' :: 'u' :: X) = (u4 X).bind fun p => stepU hi p.1 fun h => unquote m h p.2 := by
  match X with
  | a :: b :: c :: d :: r =>
    rw [unquote, u4]
    cases hex4 a b c d with
    | none => rfl
    | some n => cases hi <;> rfl
  | [] => rw [unquote] <;> simp [u4, unescape]
  | [a] => rw [unquote] <;> simp [u4, unescape]
  | [a, b] => rw [unquote] <;> simp [u4, unescape]
  | [a, b, c] => rw [unquote] <;> simp [u4, unescape]

theorem scanStr_back (hi : Option Nat) {c : Char} (hc : c ≠ 'u') (r : List Char) :
    scanStr hi ('\\' :: c :: r) =
      (unescape c).bind fun x => (scanStr none r).map fun p => (lone hi (x :: p.1), p.2) := by
  rw [scanStr]
  · cases unescape c <;> rfl
  · intro a b c' d r' h; simp [hc] at h

theorem unquote_back (m : Nat) (hi : Option Nat) {c : Char} (hc : c ≠ 'u') (r : List Char) :
    unquote (m + 1) hi ('\\' :: c :: r) =
      (unescape c).bind fun x => (unquote m none r).map fun p => (lone hi (x :: p.1), p.2) := by
  rw [unquote]
  · cases unescape c <;> rfl
  · intro a b c' d r' h; simp [hc] at h

theorem scanStr_other (hi : Option Nat) {c : Char} (hc : c ≠ '\\') (r : List Char) :
    scanStr hi (c :: r) = if c = '"' then some (lone hi [], r) else if c.toNat < 32 then none
      else (scanStr none r).map fun p => (lone hi (c :: p.1), p.2) := by
  rw [scanStr]
  · simp [hc]
  · intro a b c' d r' h; simp [hc] at h
  · intro c' r' h; simp [hc] at h

theorem unquote_other (m : Nat) (hi : Option Nat) {c : Char} (hc : c ≠ '\\') (r : List Char) :
    unquote (m + 1) hi (c :: r) = if c = '"' then some (lone hi [], r) else if c.toNat < 32 then none
      else if c.toNat < 0x80 then (unquote m none r).map fun p => (lone hi (c :: p.1), p.2)
      else (unquote m none ((c :: r).drop (decodeRune (c :: r)).2)).map fun p =>
        (lone hi ((decodeRune (c :: r)).1 :: p.1), p.2) := by
  rw [unquote]
  · simp [hc]
  · intro a b c' d r' h; simp [hc] at h
  · intro c' r' h; simp [hc] at h

/-- A string read from bytes is the string read from the characters. -/
theorem unquote_runes : ∀ (m : Nat) (hi : Option Nat) (s : List Char), s.length < m →
    scanStr hi (runes s) = (unquote m hi s).map decRest := by
  intro m
  induction m with
  | zero => intro hi s h; omega
  | succ m ih =>
    intro hi s h
    match s with
    | [] => rw [runes_nil, scanStr, unquote]; rfl
    | c :: r =>
      simp only [List.length_cons] at h
      by_cases hc : c = '\\'
      · subst hc
        rw [runes_ascii (by decide)]
        match r with
        | [] => rw [runes_nil, scanStr, unquote] <;> simp
        | x :: X =>
          simp only [List.length_cons] at h
          by_cases hx : x = 'u'
          · subst hx
            rw [runes_ascii (by decide), scanStr_u, unquote_u, u4_runes]
            cases hu : u4 X with
            | none => rfl
            | some p =>
              obtain ⟨n, q⟩ := p
              obtain ⟨a, b, c, d, rfl, -⟩ := u4_eq_some hu
              simp only [List.length_cons] at h
              simp only [Option.map_some, Option.bind_some, decRest]
              rw [show (fun h => scanStr h (runes q)) = fun h => (unquote m h q).map decRest from
                funext fun h => ih h q (by omega)]
              exact stepU_map hi n _
          · by_cases h8 : x.toNat < 0x80
            · rw [runes_ascii h8, scanStr_back hi hx, unquote_back m hi hx]
              cases unescape x with
              | none => rfl
              | some y =>
                simp only [Option.bind_some]
                rw [ih none X (by omega), Option.map_map, Option.map_map]; rfl
            · have hd := decodeRune_high (by omega : 0x80 ≤ x.toNat) X
              rw [unquote_back m hi hx, runes_cons, scanStr_back hi (ne_of_high hd (by decide))]
              cases h1 : unescape x with
              | some y => have := unescape_ascii h1; omega
              | none =>
                cases h2 : unescape (decodeRune (x :: X)).1 with
                | some y => have := unescape_ascii h2; omega
                | none => rfl
      · rw [unquote_other m hi hc]
        by_cases h8 : c.toNat < 0x80
        · rw [runes_ascii h8, scanStr_other hi hc, ih none r (by omega)]
          by_cases h1 : c = '"'
          · rw [if_pos h1, if_pos h1]; rfl
          · rw [if_neg h1, if_neg h1]
            by_cases h2 : c.toNat < 32
            · rw [if_pos h2, if_pos h2]; rfl
            · rw [if_neg h2, if_neg h2, if_pos h8, Option.map_map, Option.map_map]; rfl
        · have hw := decodeRune_width c r
          have hd := decodeRune_high (by omega : 0x80 ≤ c.toNat) r
          rw [runes_cons, scanStr_other hi (ne_of_high hd (by decide)),
            if_neg (ne_of_high hd (by decide)), if_neg (by omega), if_neg (ne_of_high (by omega) (by decide)),
            if_neg (by omega), if_neg h8,
            ih none _ (by simp only [List.length_drop, List.length_cons] at *; omega), Option.map_map, Option.map_map]
          rfl

theorem scanStrB_runes (r : List Char) : scanStr none (runes r) = (scanStrB r).map decRest :=
  unquote_runes _ _ _ (by omega)

/-- An ASCII byte ends whatever is before it. -/
theorem decodeRune_append {x : Char} (hx : x.toNat < 0x80) (a : Char) (t r : List Char) :
    decodeRune (a :: (t ++ x :: r)) = decodeRune (a :: t) := by
  have h1 : contC x = false := by simp only [contC, Bool.and_eq_false_iff, decide_eq_false_iff_not]; omega
  have h2 : ∀ n, secondC n x = false := by
    intro n
    simp only [secondC, Bool.and_eq_false_iff, decide_eq_false_iff_not]
    left
    split_ifs <;> omega
  match t with
  | [] => cases r with
    | nil => simp [decodeRune, h1]
    | cons y r => cases r <;> simp [decodeRune, h1, h2]
  | [b] => cases r with
    | nil => simp [decodeRune, h1]
    | cons y r => simp [decodeRune, h1]
  | [b, c] => simp [decodeRune, h1]
  | b :: c :: d :: t => simp [decodeRune]

theorem runes_append {x : Char} (hx : x.toNat < 0x80) (r : List Char) : ∀ (n : Nat) (t : List Char), t.length ≤ n →
    runes (t ++ x :: r) = runes t ++ x :: runes r := by
  intro n
  induction n with
  | zero =>
    intro t h
    obtain rfl : t = [] := List.length_eq_zero_iff.1 (by omega)
    exact runes_ascii hx r
  | succ n ih =>
    intro t h
    cases t with
    | nil => exact runes_ascii hx r
    | cons a t =>
      have hw := decodeRune_width a t
      rw [List.cons_append, runes_cons, runes_cons a t, decodeRune_append hx, ← List.cons_append,
        List.drop_append_of_le_length hw.2, ih _ (by simp only [List.length_drop, List.length_cons] at *; omega),
        List.cons_append]

/-- The bytes of a character outside ASCII are outside ASCII. -/
theorem decodeRune_take {a : Char} (h : 0x80 ≤ a.toNat) (r : List Char) :
    ∀ c ∈ (a :: r).take (decodeRune (a :: r)).2, 0x80 ≤ c.toNat := by
  have h2 : ∀ n c, secondC n c = true → 0x80 ≤ c.toNat := by
    intro n c hc
    simp only [secondC, Bool.and_eq_true, decide_eq_true_eq] at hc
    have := hc.1
    split_ifs at this <;> omega
  have h1 : ∀ c, contC c = true → 0x80 ≤ c.toNat := by
    intro c hc
    simp only [contC, Bool.and_eq_true, decide_eq_true_eq] at hc
    exact hc.1
  unfold decodeRune
  dsimp only
  split_ifs
  · simpa using h
  · simpa using h
  · split
    · rename_i b r
      split_ifs with hb
      · have := h1 b hb; simpa using ⟨h, this⟩
      · simpa using h
    · simpa using h
  · split
    · rename_i b c r
      split_ifs with hb
      · rw [Bool.and_eq_true] at hb
        have := h2 _ b hb.1; have := h1 c hb.2; simp; omega
      · simpa using h
    · simpa using h
  · split
    · rename_i b c d r
      split_ifs with hb
      · rw [Bool.and_eq_true, Bool.and_eq_true] at hb
        have := h2 _ b hb.1.1; have := h1 c hb.1.2; have := h1 d hb.2; simp; omega
      · simpa using h
    · simpa using h
  · simpa using h

/-- The ASCII characters are the ASCII bytes. -/
theorem mem_runes {x : Char} (hx : x.toNat < 0x80) : ∀ (n : Nat) (t : List Char), t.length ≤ n →
    (x ∈ runes t ↔ x ∈ t) := by
  intro n
  induction n with
  | zero =>
    intro t h
    obtain rfl : t = [] := List.length_eq_zero_iff.1 (by omega)
    simp [runes_nil]
  | succ n ih =>
    intro t h
    cases t with
    | nil => simp [runes_nil]
    | cons a t =>
      simp only [List.length_cons] at h
      by_cases ha : a.toNat < 0x80
      · rw [runes_ascii ha, List.mem_cons, List.mem_cons, ih t (by omega)]
      · have hw := decodeRune_width a t
        have hd := decodeRune_high (by omega : 0x80 ≤ a.toNat) t
        have ht := decodeRune_take (by omega : 0x80 ≤ a.toNat) t
        rw [runes_cons, List.mem_cons, ih _ (by simp only [List.length_drop, List.length_cons] at *; omega)]
        conv_rhs => rw [← List.take_append_drop (decodeRune (a :: t)).2 (a :: t), List.mem_append]
        constructor
        · rintro (h | h)
          · exact absurd h.symm (ne_of_high hd hx)
          · exact .inr h
        · rintro (h | h)
          · exact absurd (ht x h) (by omega)
          · exact .inr h

theorem unquote_rest : ∀ (m : Nat) (hi : Option Nat) (s p rest : List Char), unquote m hi s = some (p, rest) →
    ∃ t, s = t ++ '"' :: rest := by
  intro m
  induction m with
  | zero => intro hi s p rest h; simp [unquote] at h
  | succ m ih =>
    intro hi s p rest h
    match s with
    | [] => simp [unquote] at h
    | c :: r =>
      by_cases hc : c = '\\'
      · subst hc
        match r with
        | [] => simp [unquote] at h
        | x :: X =>
          by_cases hx : x = 'u'
          · subst hx
            rw [unquote_u] at h
            obtain ⟨⟨n, q⟩, hu, hk⟩ := Option.bind_eq_some_iff.1 h
            obtain ⟨a, b, c, d, rfl, -⟩ := u4_eq_some hu
            have : ∃ h' p', unquote m h' q = some (p', rest) := by
              simp only [stepU] at hk
              split at hk
              · split_ifs at hk <;> (obtain ⟨p', h1, h2⟩ := Option.map_eq_some_iff.1 hk; cases h2; exact ⟨_, _, h1⟩)
              · split_ifs at hk
                · exact ⟨_, _, hk⟩
                · obtain ⟨p', h1, h2⟩ := Option.map_eq_some_iff.1 hk; cases h2; exact ⟨_, _, h1⟩
                · obtain ⟨p', h1, h2⟩ := Option.map_eq_some_iff.1 hk; cases h2; exact ⟨_, _, h1⟩
            obtain ⟨h', p', hq⟩ := this
            obtain ⟨t, rfl⟩ := ih _ _ _ _ hq
            exact ⟨'\\' :: 'u' :: a :: b :: c :: d :: t, rfl⟩
          · rw [unquote_back m hi hx] at h
            obtain ⟨y, -, hk⟩ := Option.bind_eq_some_iff.1 h
            obtain ⟨p', h1, h2⟩ := Option.map_eq_some_iff.1 hk
            cases h2
            obtain ⟨t, rfl⟩ := ih _ _ _ _ h1
            exact ⟨'\\' :: x :: t, rfl⟩
      · rw [unquote_other m hi hc] at h
        split_ifs at h with h1 h2 h3
        · cases h; exact ⟨[], by rw [h1]; rfl⟩
        · obtain ⟨p', h1, h2⟩ := Option.map_eq_some_iff.1 h
          cases h2
          obtain ⟨t, rfl⟩ := ih _ _ _ _ h1
          exact ⟨c :: t, rfl⟩
        · obtain ⟨p', h1, h2⟩ := Option.map_eq_some_iff.1 h
          cases h2
          obtain ⟨t, ht⟩ := ih _ _ _ _ h1
          refine ⟨(c :: r).take (decodeRune (c :: r)).2 ++ t, ?_⟩
          rw [List.append_assoc, ← ht, List.take_append_drop]

theorem noEscape_split (t rest : List Char) : noEscape (t ++ '"' :: rest) rest = !t.contains '\\' := by
  have : t ++ '"' :: rest = (t ++ ['"']) ++ rest := by simp
  rw [noEscape, this, List.length_append, Nat.add_sub_cancel, List.take_left' rfl]
  simp

theorem noEscape_runes {r p rest : List Char} (h : scanStrB r = some (p, rest)) :
    noEscape (runes r) (runes rest) = noEscape r rest := by
  obtain ⟨t, rfl⟩ := unquote_rest _ _ _ _ _ h
  rw [runes_append (by decide) rest _ t le_rfl, noEscape_split, noEscape_split]
  have := mem_runes (x := '\\') (by decide) _ t le_rfl
  simp only [List.contains_eq_mem, this]

/-! ### Values -/

theorem scan_runes : ∀ n : Nat,
    (∀ d s, J.scan n d (runes s) = (J.scanB n d s).map decRest) ∧
    (∀ d s, J.scanElems n d (runes s) = (J.scanElemsB n d s).map decRest) ∧
    (∀ d s, J.scanMembers n d (runes s) = (J.scanMembersB n d s).map decRest) := by
  intro n
  induction n with
  | zero => exact ⟨fun _ _ => rfl, fun _ _ => rfl, fun _ _ => rfl⟩
  | succ n ih =>
    obtain ⟨ih1, ih2, ih3⟩ := ih
    refine ⟨?_, ?_, ?_⟩
    · intro d s
      rw [J.scan, J.scanB, skipWs_runes]
      generalize skipWs s = s
      split
      · rename_i h
        obtain rfl : s = [] := by
          cases s with
          | nil => rfl
          | cons a r => rw [runes_cons] at h; simp at h
        rfl
      · rename_i r h
        obtain ⟨t, rfl, rfl⟩ := runes_eq_ascii (by decide) h
        simp only
        rw [scanStrB_runes]
        cases hq : scanStrB t with
        | none => rfl
        | some p =>
          obtain ⟨k, q⟩ := p
          simp only [Option.map_some, decRest]
          rw [noEscape_runes hq]
      · rename_i r h
        obtain ⟨t, rfl, rfl⟩ := runes_eq_ascii (by decide) h
        cases d with
        | zero => rfl
        | succ d =>
          simp only
          rw [skipWs_runes]
          generalize skipWs t = t
          split
          · rename_i r' h
            obtain ⟨u, rfl, rfl⟩ := runes_eq_ascii (by decide) h
            rfl
          · rename_i h
            rw [ih2, Option.map_map]
            split
            · exact absurd (runes_ascii (by decide) _) (h _)
            · rw [Option.map_map]; rfl
      · rename_i r h
        obtain ⟨t, rfl, rfl⟩ := runes_eq_ascii (by decide) h
        cases d with
        | zero => rfl
        | succ d =>
          simp only
          rw [skipWs_runes]
          generalize skipWs t = t
          split
          · rename_i r' h
            obtain ⟨u, rfl, rfl⟩ := runes_eq_ascii (by decide) h
            rfl
          · rename_i h
            rw [ih3, Option.map_map]
            split
            · exact absurd (runes_ascii (by decide) _) (h _)
            · rw [Option.map_map]; rfl
      · rename_i r h
        obtain ⟨t1, rfl, e1⟩ := runes_eq_ascii (by decide) h
        obtain ⟨t2, rfl, e2⟩ := runes_eq_ascii (by decide) e1.symm
        obtain ⟨t3, rfl, e3⟩ := runes_eq_ascii (by decide) e2.symm
        obtain ⟨t4, rfl, rfl⟩ := runes_eq_ascii (by decide) e3.symm
        rfl
      · rename_i r h
        obtain ⟨t1, rfl, e1⟩ := runes_eq_ascii (by decide) h
        obtain ⟨t2, rfl, e2⟩ := runes_eq_ascii (by decide) e1.symm
        obtain ⟨t3, rfl, e3⟩ := runes_eq_ascii (by decide) e2.symm
        obtain ⟨t4, rfl, rfl⟩ := runes_eq_ascii (by decide) e3.symm
        rfl
      · rename_i r h
        obtain ⟨t1, rfl, e1⟩ := runes_eq_ascii (by decide) h
        obtain ⟨t2, rfl, e2⟩ := runes_eq_ascii (by decide) e1.symm
        obtain ⟨t3, rfl, e3⟩ := runes_eq_ascii (by decide) e2.symm
        obtain ⟨t4, rfl, e4⟩ := runes_eq_ascii (by decide) e3.symm
        obtain ⟨t5, rfl, rfl⟩ := runes_eq_ascii (by decide) e4.symm
        rfl
      · rename_i c r h1 h2 h3 h4 h5 h6 h
        rw [← h, scanNum_runes, Option.map_map]
        have asc : ∀ {x : Char}, x.toNat < 0x80 → ∀ t, runes (x :: t) = x :: runes t := fun hx t => runes_ascii hx t
        split
        · simp [runes_nil] at h
        · rw [asc (by decide)] at h
          exact (h1 (List.cons.inj h).1.symm).elim
        · rw [asc (by decide)] at h
          exact (h2 (List.cons.inj h).1.symm).elim
        · rw [asc (by decide)] at h
          exact (h3 (List.cons.inj h).1.symm).elim
        · rw [asc (by decide), asc (by decide), asc (by decide), asc (by decide)] at h
          obtain ⟨rfl, rfl⟩ := List.cons.inj h
          exact (h4 _ rfl rfl).elim
        · rw [asc (by decide), asc (by decide), asc (by decide), asc (by decide)] at h
          obtain ⟨rfl, rfl⟩ := List.cons.inj h
          exact (h5 _ rfl rfl).elim
        · rw [asc (by decide), asc (by decide), asc (by decide), asc (by decide), asc (by decide)] at h
          obtain ⟨rfl, rfl⟩ := List.cons.inj h
          exact (h6 _ rfl rfl).elim
        · rw [Option.map_map]; rfl
    · intro d s
      rw [J.scanElems, J.scanElemsB, ih1]
      cases J.scanB n d s with
      | none => rfl
      | some p =>
        obtain ⟨v, r⟩ := p
        simp only [Option.map_some, decRest]
        rw [skipWs_runes]
        generalize skipWs r = r
        split
        · rename_i r' h
          obtain ⟨t, rfl, rfl⟩ := runes_eq_ascii (by decide) h
          rfl
        · rename_i r' h
          obtain ⟨t, rfl, rfl⟩ := runes_eq_ascii (by decide) h
          simp only
          rw [ih2, Option.map_map, Option.map_map]; rfl
        · rename_i h1 h2
          split
          · exact absurd (runes_ascii (by decide) _) (h1 _)
          · exact absurd (runes_ascii (by decide) _) (h2 _)
          · rfl
    · intro d s
      rw [J.scanMembers, J.scanMembersB, skipWs_runes]
      generalize skipWs s = s
      split
      · rename_i r h
        obtain ⟨t, rfl, rfl⟩ := runes_eq_ascii (by decide) h
        simp only
        rw [scanStrB_runes]
        cases scanStrB t with
        | none => rfl
        | some p =>
          obtain ⟨k, q⟩ := p
          simp only [Option.map_some, decRest]
          rw [skipWs_runes]
          generalize skipWs q = q
          split
          · rename_i r' h
            obtain ⟨t, rfl, rfl⟩ := runes_eq_ascii (by decide) h
            simp only
            rw [ih1]
            cases J.scanB n d t with
            | none => rfl
            | some p =>
              obtain ⟨v, r⟩ := p
              simp only [Option.map_some, decRest]
              rw [skipWs_runes]
              generalize skipWs r = r
              split
              · rename_i r' h
                obtain ⟨t, rfl, rfl⟩ := runes_eq_ascii (by decide) h
                rfl
              · rename_i r' h
                obtain ⟨t, rfl, rfl⟩ := runes_eq_ascii (by decide) h
                simp only
                rw [ih3, Option.map_map, Option.map_map]; rfl
              · rename_i h1 h2
                split
                · exact absurd (runes_ascii (by decide) _) (h1 _)
                · exact absurd (runes_ascii (by decide) _) (h2 _)
                · rfl
          · rename_i h1
            split
            · exact absurd (runes_ascii (by decide) _) (h1 _)
            · rfl
      · rename_i h1
        split
        · exact absurd (runes_ascii (by decide) _) (h1 _)
        · rfl

/-! ### UTF-8 -/

theorem raw_append (a b : List UInt8) : raw (a ++ b) = raw a ++ raw b := by simp [raw]

theorem byte_char {n : Nat} (h : n < 256) : (Char.ofNat (UInt8.ofNat n).toNat).toNat = n := by
  have : (UInt8.ofNat n).toNat = n := by simp [Nat.mod_eq_of_lt h]
  rw [this, toNat_ofNat (valid_low (by omega))]

theorem char_eq {c : Char} {n : Nat} (h : c.toNat = n) : Char.ofNat n = c := by rw [← h, Char.ofNat_toNat]

theorem char_bounds (c : Char) : c.toNat < 0xD800 ∨ (0xE000 ≤ c.toNat ∧ c.toNat < 0x110000) := by
  rcases c.valid with h | h
  · exact .inl h
  · exact .inr ⟨by have := h.1; simp only [Char.toNat] at *; omega, h.2⟩

theorem decodeRune_two {a b : Char} (r : List Char) (h1 : 0xC2 ≤ a.toNat) (h2 : a.toNat < 0xE0) (hb : contC b = true) :
    decodeRune (a :: b :: r) = (Char.ofNat ((a.toNat - 0xC0) * 64 + (b.toNat - 0x80)), 2) := by
  rw [decodeRune, if_neg (by omega), if_neg (by omega), if_pos h2]
  simp only [hb, if_true]

theorem decodeRune_three {a b c : Char} (r : List Char) (h1 : 0xE0 ≤ a.toNat) (h2 : a.toNat < 0xF0)
    (hb : secondC a.toNat b = true) (hc : contC c = true) : decodeRune (a :: b :: c :: r) =
      (Char.ofNat ((a.toNat - 0xE0) * 4096 + (b.toNat - 0x80) * 64 + (c.toNat - 0x80)), 3) := by
  rw [decodeRune, if_neg (by omega), if_neg (by omega), if_neg (by omega), if_pos h2]
  simp only [hb, hc, Bool.and_self, if_true]

theorem decodeRune_four {a b c d : Char} (r : List Char) (h1 : 0xF0 ≤ a.toNat) (h2 : a.toNat < 0xF5)
    (hb : secondC a.toNat b = true) (hc : contC c = true) (hd : contC d = true) : decodeRune (a :: b :: c :: d :: r) =
      (Char.ofNat ((a.toNat - 0xF0) * 262144 + (b.toNat - 0x80) * 4096 + (c.toNat - 0x80) * 64 + (d.toNat - 0x80)), 4) := by
  rw [decodeRune, if_neg (by omega), if_neg (by omega), if_neg (by omega), if_neg (by omega), if_pos h2]
  simp only [hb, hc, hd, Bool.and_self, if_true]

theorem contC_iff {c : Char} : contC c = true ↔ 0x80 ≤ c.toNat ∧ c.toNat ≤ 0xBF := by simp [contC]

theorem secondC_iff {n : Nat} {c : Char} : secondC n c = true ↔
    (if n = 0xE0 then 0xA0 else if n = 0xF0 then 0x90 else 0x80) ≤ c.toNat ∧
    c.toNat ≤ (if n = 0xED then 0x9F else if n = 0xF4 then 0x8F else 0xBF) := by simp [secondC]

/-- The bytes of a character, as characters, by their numbers. -/
theorem raw_encode (c : Char) : ∃ l, raw (String.utf8EncodeChar c) = l ∧
    ((c.toNat < 0x80 ∧ l = [c]) ∨
    (0x80 ≤ c.toNat ∧ c.toNat < 0x800 ∧ ∃ a b, l = [a, b] ∧ a.toNat = c.toNat / 64 + 192 ∧ b.toNat = c.toNat % 64 + 128) ∨
    (0x800 ≤ c.toNat ∧ c.toNat < 0x10000 ∧ ∃ a b d, l = [a, b, d] ∧ a.toNat = c.toNat / 4096 + 224 ∧
      b.toNat = c.toNat / 64 % 64 + 128 ∧ d.toNat = c.toNat % 64 + 128) ∨
    (0x10000 ≤ c.toNat ∧ ∃ a b d f, l = [a, b, d, f] ∧ a.toNat = c.toNat / 262144 + 240 ∧
      b.toNat = c.toNat / 4096 % 64 + 128 ∧ d.toNat = c.toNat / 64 % 64 + 128 ∧ f.toNat = c.toNat % 64 + 128)) := by
  refine ⟨_, rfl, ?_⟩
  have hv := char_bounds c
  have e : c.val.toNat = c.toNat := rfl
  unfold String.utf8EncodeChar
  dsimp only
  rw [e]
  generalize hn : c.toNat = n at *
  have hc := char_eq hn
  split_ifs with h1 h2 h3
  · refine .inl ⟨by omega, ?_⟩
    simp only [raw, List.map_cons, List.map_nil]
    rw [show (UInt8.ofNat n).toNat = n by simp; omega, hc]
  · refine .inr (.inl ⟨by omega, by omega, _, _, rfl, ?_, ?_⟩) <;> rw [byte_char (by omega)]; omega
  · refine .inr (.inr (.inl ⟨by omega, by omega, _, _, _, rfl, ?_, ?_, ?_⟩)) <;> rw [byte_char (by omega)]; omega
  · refine .inr (.inr (.inr ⟨by omega, _, _, _, _, rfl, ?_, ?_, ?_, ?_⟩)) <;> rw [byte_char (by omega)]; omega

/-- `DecodeRune` finds the character that is encoded. -/
theorem decode_encode (c : Char) (r : List Char) :
    decodeRune (raw (String.utf8EncodeChar c) ++ r) = (c, (raw (String.utf8EncodeChar c)).length) := by
  have hv := char_bounds c
  obtain ⟨l, hl, h⟩ := raw_encode c
  rw [hl]
  rcases h with ⟨h, rfl⟩ | ⟨h1, h2, a, b, rfl, ha, hb⟩ | ⟨h1, h2, a, b, d, rfl, ha, hb, hd⟩ | ⟨h1, a, b, d, f, rfl, ha, hb, hd, hf⟩
  · exact decodeRune_ascii h r
  · simp only [List.cons_append, List.nil_append]
    rw [decodeRune_two r (by omega) (by omega) (contC_iff.2 (by omega))]
    rw [char_eq (c := c) (by omega)]; rfl
  · simp only [List.cons_append, List.nil_append]
    rw [decodeRune_three r (by omega) (by omega) (secondC_iff.2 ⟨by split_ifs <;> omega, by split_ifs <;> omega⟩) (contC_iff.2 (by omega))]
    rw [char_eq (c := c) (by omega)]; rfl
  · simp only [List.cons_append, List.nil_append]
    rw [decodeRune_four r (by omega) (by omega) (secondC_iff.2 ⟨by split_ifs <;> omega, by split_ifs <;> omega⟩) (contC_iff.2 (by omega))
      (contC_iff.2 (by omega))]
    rw [char_eq (c := c) (by omega)]; rfl

/-- What `DecodeRune` does not call invalid is the encoding of the character it gives. -/
theorem encode_decode (a : Char) (r : List Char) (h : decodeRune (a :: r) ≠ (replacement, 1)) :
    (a :: r).take (decodeRune (a :: r)).2 = raw (String.utf8EncodeChar (decodeRune (a :: r)).1) := by
  have bad : ∀ {P : Prop}, (replacement, 1) ≠ (replacement, 1) → P := fun h => absurd rfl h
  have inj : ∀ {x y : Char}, x.toNat = y.toNat → x = y := Char.toNat_inj.1
  revert h
  unfold decodeRune
  dsimp only
  by_cases h1 : a.toNat < 0x80
  · rw [if_pos h1]
    intro _
    obtain ⟨l, hl, h⟩ := raw_encode a
    rcases h with ⟨h, rfl⟩ | ⟨h, -⟩ | ⟨h, -⟩ | ⟨h, -⟩
    · rw [hl]; rfl
    all_goals omega
  rw [if_neg h1]
  by_cases h2 : a.toNat < 0xC2
  · rw [if_pos h2]; exact bad
  rw [if_neg h2]
  by_cases h3 : a.toNat < 0xE0
  · rw [if_pos h3]
    match r with
    | [] => exact bad
    | b :: r =>
      by_cases hb : contC b = true
      · simp only [hb, if_true]
        intro _
        rw [contC_iff] at hb
        have ht := toNat_ofNat (n := (a.toNat - 0xC0) * 64 + (b.toNat - 0x80)) (valid_low (by omega))
        obtain ⟨l, hl, h⟩ := raw_encode (Char.ofNat ((a.toNat - 0xC0) * 64 + (b.toNat - 0x80)))
        rw [ht] at h
        rw [hl]
        rcases h with ⟨h, -⟩ | ⟨-, -, x, y, rfl, hx, hy⟩ | ⟨h, -⟩ | ⟨h, -⟩
        · omega
        · rw [inj (x := x) (y := a) (by omega), inj (x := y) (y := b) (by omega)]; rfl
        · omega
        · omega
      · simp only [if_neg hb]; exact bad
  rw [if_neg h3]
  by_cases h4 : a.toNat < 0xF0
  · rw [if_pos h4]
    match r with
    | [] => exact bad
    | [b] => exact bad
    | b :: c :: r =>
      by_cases hb : (secondC a.toNat b && contC c) = true
      · simp only [hb, if_true]
        intro _
        rw [Bool.and_eq_true, contC_iff, secondC_iff] at hb
        obtain ⟨⟨h6, h7⟩, h8, h9⟩ := hb
        have hv : ((a.toNat - 0xE0) * 4096 + (b.toNat - 0x80) * 64 + (c.toNat - 0x80)).isValidChar := by
          by_cases e : a.toNat ≤ 0xED
          · apply valid_low
            split_ifs at h7 <;> omega
          · apply valid_high
            · split_ifs at h6 <;> omega
            · split_ifs at h7 <;> omega
        have ht := toNat_ofNat hv
        have h6' : 128 ≤ b.toNat ∧ (a.toNat = 0xE0 → 160 ≤ b.toNat) := by split_ifs at h6 <;> omega
        have h7' : b.toNat ≤ 191 := by split_ifs at h7 <;> omega
        obtain ⟨l, hl, h⟩ := raw_encode (Char.ofNat ((a.toNat - 0xE0) * 4096 + (b.toNat - 0x80) * 64 + (c.toNat - 0x80)))
        rw [ht] at h
        rw [hl]
        rcases h with ⟨h, -⟩ | ⟨-, h, -⟩ | ⟨-, -, x, y, z, rfl, hx, hy, hz⟩ | ⟨h, -⟩
        · omega
        · omega
        · rw [inj (x := x) (y := a) (by omega), inj (x := y) (y := b) (by omega), inj (x := z) (y := c) (by omega)]; rfl
        · omega
      · simp only [if_neg hb]; exact bad
  rw [if_neg h4]
  by_cases h5 : a.toNat < 0xF5
  · rw [if_pos h5]
    match r with
    | [] => exact bad
    | [b] => exact bad
    | [b, c] => exact bad
    | b :: c :: d :: r =>
      by_cases hb : (secondC a.toNat b && contC c && contC d) = true
      · simp only [hb, if_true]
        intro _
        rw [Bool.and_eq_true, Bool.and_eq_true, contC_iff, contC_iff, secondC_iff] at hb
        obtain ⟨⟨⟨h6, h7⟩, h8, h9⟩, h10, h11⟩ := hb
        have hv : ((a.toNat - 0xF0) * 262144 + (b.toNat - 0x80) * 4096 + (c.toNat - 0x80) * 64 + (d.toNat - 0x80)).isValidChar := by
          apply valid_high
          · split_ifs at h6 <;> omega
          · split_ifs at h7 <;> omega
        have ht := toNat_ofNat hv
        have h6' : 128 ≤ b.toNat ∧ (a.toNat = 0xF0 → 144 ≤ b.toNat) := by split_ifs at h6 <;> omega
        have h7' : b.toNat ≤ 191 := by split_ifs at h7 <;> omega
        obtain ⟨l, hl, h⟩ := raw_encode (Char.ofNat ((a.toNat - 0xF0) * 262144 + (b.toNat - 0x80) * 4096 + (c.toNat - 0x80) * 64 + (d.toNat - 0x80)))
        rw [ht] at h
        rw [hl]
        rcases h with ⟨h, -⟩ | ⟨-, h, -⟩ | ⟨-, h, -⟩ | ⟨-, x, y, z, w, rfl, hx, hy, hz, hw⟩
        · omega
        · omega
        · omega
        · rw [inj (x := x) (y := a) (by omega), inj (x := y) (y := b) (by omega), inj (x := z) (y := c) (by omega),
            inj (x := w) (y := d) (by omega)]; rfl
      · simp only [if_neg hb]; exact bad
  · rw [if_neg h5]; exact bad

end Go
