import Verif.Go.Text
import Mathlib.Tactic.FieldSimp

/-!
# Printed numbers read back
-/

namespace Go

theorem pow10_eq (e : ℤ) : pow10 e = (10 : ℚ) ^ e := by
  cases e with
  | ofNat n => simp [pow10]
  | negSucc n => simp [pow10, zpow_negSucc]

theorem pow10_pos (e : ℤ) : 0 < pow10 e := by rw [pow10_eq]; exact zpow_pos (by norm_num) _

theorem digitC_toDigits {n : Nat} {c : Char} (h : c ∈ Nat.toDigits 10 n) : digitC c = true := by
  have := Nat.isDigit_of_mem_toDigits (by norm_num) (by norm_num) h
  simp only [Char.isDigit, Bool.and_eq_true, decide_eq_true_eq, ge_iff_le] at this
  simp only [digitC, decide_eq_true_eq]
  obtain ⟨a, b⟩ := this
  exact ⟨a, b⟩

theorem digitC_ne {c d : Char} (h : digitC c = true) (hd : digitC d = false) : c ≠ d := by
  rintro rfl; simp [h] at hd

theorem lowerC_digit {c : Char} (h : digitC c = true) : lowerC c = c := by
  simp only [digitC, decide_eq_true_eq] at h
  unfold lowerC
  rw [if_neg (by omega)]

theorem takeSign_digit {c : Char} (h : digitC c = true) (cs : List Char) :
    takeSign (c :: cs) = (false, c :: cs) := by
  have h1 : c ≠ '-' := digitC_ne h (by decide)
  have h2 : c ≠ '+' := digitC_ne h (by decide)
  unfold takeSign
  split
  · rename_i r heq; simp only [List.cons.injEq] at heq; exact absurd heq.1 h1
  · rename_i r heq; simp only [List.cons.injEq] at heq; exact absurd heq.1 h2
  · rfl

/-! ### Integers -/

theorem parseInt_fmtInt {bits : Nat} {n : Int} (h1 : -2 ^ (bits - 1) ≤ n) (h2 : n < 2 ^ (bits - 1)) :
    parseInt bits (fmtInt n) = some n := by
  have hd : ∀ m, (Nat.toDigits 10 m).all digitC = true := fun m => by
    rw [List.all_eq_true]; intro c hc; exact digitC_toDigits hc
  by_cases hn : n < 0
  · have e : takeSign (fmtInt n) = (true, Nat.toDigits 10 n.natAbs) := by
      simp [fmtInt, hn, takeSign]
    have hb : n.natAbs ≤ 2 ^ (bits - 1) := by zify; rw [abs_of_neg hn]; linarith
    simp only [parseInt, e, hd, Nat.toDigits_ne_nil, Nat.ofDigitChars_ten_toDigits, if_pos hb]
    simp only [or_self, if_false, Bool.true_eq_false, if_true, Option.some.injEq]; omega
  · have e : takeSign (fmtInt n) = (false, Nat.toDigits 10 n.natAbs) := by
      simp only [fmtInt, hn, if_false]
      obtain ⟨c, cs, h⟩ := List.exists_cons_of_ne_nil (Nat.toDigits_ne_nil (n := n.natAbs) (b := 10))
      rw [h]; apply takeSign_digit; apply digitC_toDigits (n := n.natAbs); simp [h]
    have hb : n.natAbs < 2 ^ (bits - 1) := by zify; rw [abs_of_nonneg (by omega)]; exact h2
    simp only [parseInt, e, hd, Nat.toDigits_ne_nil, Nat.ofDigitChars_ten_toDigits, if_pos hb]
    simp; omega

theorem parseInt_range {bits : Nat} {s : List Char} {n : Int} (h : parseInt bits s = some n) :
    -2 ^ (bits - 1) ≤ n ∧ n < 2 ^ (bits - 1) := by
  have hp : (0 : Int) < 2 ^ (bits - 1) := by positivity
  simp only [parseInt] at h
  split_ifs at h with a b c d
  · simp only [Option.some.injEq] at h
    have : ((Nat.ofDigitChars 10 (takeSign s).2 0 : Nat) : Int) ≤ 2 ^ (bits - 1) := by exact_mod_cast c
    omega
  · simp only [Option.some.injEq] at h
    have : ((Nat.ofDigitChars 10 (takeSign s).2 0 : Nat) : Int) < 2 ^ (bits - 1) := by exact_mod_cast d
    omega

/-- A printed integer outside the range is refused. -/
theorem parseInt_fmtInt_none {bits : Nat} {n : Int} (h : ¬ (-2 ^ (bits - 1) ≤ n ∧ n < 2 ^ (bits - 1))) :
    parseInt bits (fmtInt n) = none := by
  by_cases hn : n < 0
  · have e : takeSign (fmtInt n) = (true, Nat.toDigits 10 n.natAbs) := by
      simp [fmtInt, hn, takeSign]
    have hp : (0 : Int) < 2 ^ (bits - 1) := by positivity
    have hb : ¬ n.natAbs ≤ 2 ^ (bits - 1) := by zify; rw [abs_of_neg hn]; intro hc; apply h; omega
    simp only [parseInt, e, Nat.ofDigitChars_ten_toDigits, if_neg hb]
    simp
  · have e : takeSign (fmtInt n) = (false, Nat.toDigits 10 n.natAbs) := by
      simp only [fmtInt, hn, if_false]
      obtain ⟨c, cs, h⟩ := List.exists_cons_of_ne_nil (Nat.toDigits_ne_nil (n := n.natAbs) (b := 10))
      rw [h]; apply takeSign_digit; apply digitC_toDigits (n := n.natAbs); simp [h]
    have hp : (0 : Int) < 2 ^ (bits - 1) := by positivity
    have hb : ¬ n.natAbs < 2 ^ (bits - 1) := by zify; rw [abs_of_nonneg (by omega)]; intro hc; apply h; omega
    simp only [parseInt, e, Nat.ofDigitChars_ten_toDigits, if_neg hb]
    simp

/-! ### Mantissa -/

/-- Where a mantissa ends. -/
def Ends (r : List Char) : Prop := r = [] ∨ ∃ c cs, r = c :: cs ∧ (c = 'e' ∨ c = 'E')

theorem scanMant_ends {r : List Char} (h : Ends r) (b : Bool) : scanMant digitC b r = ([], 0, r) := by
  rcases h with rfl | ⟨c, cs, rfl, rfl | rfl⟩
  · simp [scanMant]
  · simp [scanMant, show digitC 'e' = false by decide]
  · simp [scanMant, show digitC 'E' = false by decide]

theorem scanMant_digits {r : List Char} (h : Ends r) (b : Bool) (D : List Char)
    (hD : ∀ c ∈ D, digitC c = true) :
    scanMant digitC b (D ++ r) = (D, (if b then D.length else 0), r) := by
  induction D with
  | nil => simp [scanMant_ends h]
  | cons c cs ih =>
    have hc := hD c (by simp)
    have h1 : c ≠ '_' := digitC_ne hc (by decide)
    have h2 : c ≠ '.' := digitC_ne hc (by decide)
    rw [List.cons_append, scanMant, if_neg h1, if_neg h2, if_pos hc, ih (fun c h => hD c (by simp [h]))]
    cases b <;> simp

theorem scanMant_point {r : List Char} (h : Ends r) (A B : List Char)
    (hA : ∀ c ∈ A, digitC c = true) (hB : ∀ c ∈ B, digitC c = true) :
    scanMant digitC false (A ++ '.' :: (B ++ r)) = (A ++ B, B.length, r) := by
  induction A with
  | nil =>
    rw [List.nil_append, scanMant, if_neg (by decide), if_pos rfl]
    simp [scanMant_digits h true B hB]
  | cons c cs ih =>
    have hc := hA c (by simp)
    have h1 : c ≠ '_' := digitC_ne hc (by decide)
    have h2 : c ≠ '.' := digitC_ne hc (by decide)
    rw [List.cons_append, scanMant, if_neg h1, if_neg h2, if_pos hc, ih (fun c h => hA c (by simp [h]))]
    simp

/-! ### Exponent -/

theorem scanExp_append (a : Nat) (A B : List Char) (hA : ∀ c ∈ A, digitC c = true) :
    scanExp a (A ++ B) = scanExp (scanExp a A).1 B ∧ (scanExp a A).2 = [] := by
  induction A generalizing a with
  | nil => simp [scanExp]
  | cons c cs ih =>
    have hc := hA c (by simp)
    have h1 : c ≠ '_' := digitC_ne hc (by decide)
    simp only [List.cons_append, scanExp, if_neg h1, if_pos hc]
    exact ih _ (fun c h => hA c (by simp [h]))

theorem scanExp_digits (D : List Char) (hD : ∀ c ∈ D, digitC c = true)
    (h : Nat.ofDigitChars 10 D 0 < 100000) : scanExp 0 D = (Nat.ofDigitChars 10 D 0, []) := by
  induction D using List.reverseRecOn with
  | nil => simp [scanExp]
  | append_singleton l c ih =>
    have hc := hD c (by simp)
    have h1 : c ≠ '_' := digitC_ne hc (by decide)
    rw [Nat.ofDigitChars_append, Nat.ofDigitChars_cons, Nat.ofDigitChars_nil] at h ⊢
    have hl : Nat.ofDigitChars 10 l 0 < 10000 := by omega
    rw [(scanExp_append 0 l [c] (fun c h => hD c (by simp [h]))).1,
      ih (fun c h => hD c (by simp [h])) (by omega)]
    simp only [scanExp, if_neg h1, if_pos hc, if_pos hl]
    have : '0'.toNat = 48 := by decide
    rw [this, Nat.mul_comm]

theorem fmtExp_digits (e : ℤ) : ∃ D, fmtExp e = (if e < 0 then '-' else '+') :: D ∧ D ≠ [] ∧
    (∀ c ∈ D, digitC c = true) ∧ Nat.ofDigitChars 10 D 0 = e.natAbs ∧ D.length ≤ (Nat.toDigits 10 e.natAbs).length + 1 := by
  refine ⟨_, rfl, ?_, ?_, ?_, ?_⟩
  · split_ifs
    · simp
    · exact Nat.toDigits_ne_nil
  · intro c hc
    split_ifs at hc
    · simp only [List.mem_cons] at hc
      rcases hc with rfl | hc
      · decide
      · exact digitC_toDigits hc
    · exact digitC_toDigits hc
  · split_ifs
    · rw [Nat.ofDigitChars_cons]; simp
    · simp
  · split_ifs <;> simp

theorem parseExp_fmtExp {e : ℤ} (h : e.natAbs < 100000) :
    parseExp false ('e' :: fmtExp e) = some (e, []) := by
  obtain ⟨D, hD, h0, h1, h2, -⟩ := fmtExp_digits e
  obtain ⟨d, ds, rfl⟩ := List.exists_cons_of_ne_nil h0
  have hd := h1 d (by simp)
  have hs := scanExp_digits (d :: ds) h1 (by omega)
  have key : takeSign (fmtExp e) = (decide (e < 0), d :: ds) := by
    rw [hD]; by_cases he : e < 0 <;> simp [he, takeSign]
  simp only [parseExp, show lowerC 'e' = 'e' by decide, key, hd, hs, h2]
  have hab : (e.natAbs : ℤ) = if e < 0 then -e else e := by split_ifs <;> omega
  simp only [hab]
  by_cases he : e < 0 <;> simp [he]

/-! ### Whole numbers -/

/-- The printed sign. -/
def signText (neg : Bool) : List Char := if neg then ['-'] else []

theorem takeHex_body {A X : List Char} (hA0 : A ≠ []) (hA : ∀ c ∈ A, digitC c = true)
    (hX : ∀ c cs, X = c :: cs → lowerC c ≠ 'x') : takeHex (A ++ X) = (false, A ++ X) := by
  have key : ∀ c cs, (A ++ X) = '0' :: c :: cs → lowerC c ≠ 'x' := by
    intro c cs h
    match A, hA0, hA with
    | [a], _, _ => simp only [List.cons_append, List.nil_append, List.cons.injEq] at h; exact hX _ _ h.2
    | a :: b :: l, _, hA =>
      simp only [List.cons_append, List.cons.injEq] at h
      have := hA b (by simp)
      rw [h.2.1] at this
      rw [lowerC_digit this]; exact digitC_ne this (by decide)
  unfold takeHex
  split
  · rename_i c cs heq
    rw [heq, if_neg (key _ _ heq)]
  · rfl

theorem parse_body_exp (S : FloatSem) (neg : Bool) {A B P r : List Char} {e : ℤ} (hA0 : A ≠ [])
    (hA : ∀ c ∈ A, digitC c = true) (hB : ∀ c ∈ B, digitC c = true)
    (hP : (P = [] ∧ B = []) ∨ P = '.' :: B)
    (hEnds : Ends r) (hexp : parseExp false r = some (e, [])) (hur : '_' ∉ r) :
    parseFloat S (signText neg ++ (A ++ (P ++ r))) =
      finish S neg ((Nat.ofDigitChars 10 (A ++ B) 0 : Nat) * pow10 (e - B.length)) := by
  obtain ⟨a, as, rfl⟩ := List.exists_cons_of_ne_nil hA0
  have ha := hA a (by simp)
  have hsign : takeSign (signText neg ++ ((a :: as) ++ (P ++ r))) =
      (neg, (a :: as) ++ (P ++ r)) := by
    cases neg
    · simp only [signText, Bool.false_eq_true, if_false, List.nil_append, List.cons_append]; exact takeSign_digit ha _
    · simp [takeSign, signText]
  have hX : ∀ c cs, P ++ r = c :: cs → lowerC c ≠ 'x' := by
    intro c cs h
    rcases hP with ⟨rfl, -⟩ | rfl
    · rcases hEnds with rfl | ⟨x, xs, rfl, rfl | rfl⟩
      · simp at h
      · simp only [List.nil_append, List.cons.injEq] at h; rw [← h.1]; decide
      · simp only [List.nil_append, List.cons.injEq] at h; rw [← h.1]; decide
    · simp only [List.cons_append, List.cons.injEq] at h; rw [← h.1]; decide
  have hhex := takeHex_body hA0 hA hX
  have hscan : scanMant digitC false ((a :: as) ++ (P ++ r)) = ((a :: as) ++ B, B.length, r) := by
    rcases hP with ⟨rfl, rfl⟩ | rfl
    · rw [List.nil_append, scanMant_digits hEnds false _ hA]; simp
    · have := scanMant_point hEnds _ _ hA hB
      simpa using this
  have hspec : parseSpecial (signText neg ++ ((a :: as) ++ (P ++ r))) = none := by
    simp only [parseSpecial, hsign]
    have hai : a ≠ 'i' := digitC_ne ha (by decide)
    have han : a ≠ 'n' := digitC_ne ha (by decide)
    rw [if_neg, if_neg]
    · cases neg
      · simp [signText, lowerC_digit ha, han]
      · simp [signText, show lowerC '-' = '-' by decide]
    · simp [lowerC_digit ha, hai]
  have hund : (signText neg ++ ((a :: as) ++ (P ++ r))).contains '_' = false := by
    rw [List.contains_eq_mem, decide_eq_false_iff_not]
    intro hm
    simp only [List.mem_append] at hm
    have nd : ∀ D : List Char, (∀ c ∈ D, digitC c = true) → '_' ∉ D := fun D hD hm => by
      have := hD _ hm; simp [digitC] at this
    rcases hm with hm | hm | hm | hm
    · cases neg <;> simp [signText] at hm
    · exact nd _ hA hm
    · rcases hP with ⟨rfl, -⟩ | rfl
      · simp at hm
      · simp only [List.mem_cons] at hm
        rcases hm with hm | hm
        · simp at hm
        · exact nd _ hB hm
    · exact hur hm
  rw [parseFloat, hspec]
  simp only [hsign, hhex, hscan, hund, Bool.false_eq_true, if_false, hexp, Bool.false_and]
  simp only [List.cons_append, reduceCtorEq, if_false]

theorem fmtExp_no_underscore (e : ℤ) : '_' ∉ fmtExp e := by
  obtain ⟨D, hD, -, h1, -, -⟩ := fmtExp_digits e
  rw [hD]
  simp only [List.mem_cons]
  rintro (hm | hm)
  · split_ifs at hm <;> simp at hm
  · have := h1 _ hm; simp [digitC] at this

theorem parse_body (S : FloatSem) (neg : Bool) {A B P r : List Char} {e : ℤ} (hA0 : A ≠ [])
    (hA : ∀ c ∈ A, digitC c = true) (hB : ∀ c ∈ B, digitC c = true)
    (hP : (P = [] ∧ B = []) ∨ P = '.' :: B)
    (hr : (r = [] ∧ e = 0) ∨ (r = 'e' :: fmtExp e ∧ e.natAbs < 100000)) :
    parseFloat S (signText neg ++ (A ++ (P ++ r))) =
      finish S neg ((Nat.ofDigitChars 10 (A ++ B) 0 : Nat) * pow10 (e - B.length)) := by
  rcases hr with ⟨rfl, rfl⟩ | ⟨rfl, h⟩
  · exact parse_body_exp S neg hA0 hA hB hP (Or.inl rfl) (by simp [parseExp]) (by simp)
  · exact parse_body_exp S neg hA0 hA hB hP (Or.inr ⟨_, _, rfl, Or.inl rfl⟩) (parseExp_fmtExp h)
      (by simp [fmtExp_no_underscore])

/-- The text of `%f` reads back as the decimal it shows. -/
theorem parse_fmtF (S : FloatSem) (neg : Bool) {N : Nat} {e : ℤ} :
    parseFloat S (signText neg ++
      fmtF (Nat.toDigits 10 N) ((Nat.toDigits 10 N).length + e)) = finish S neg (N * pow10 e) := by
  have hN : Nat.ofDigitChars 10 (Nat.toDigits 10 N) 0 = N := Nat.ofDigitChars_ten_toDigits
  have hd : ∀ c ∈ Nat.toDigits 10 N, digitC c = true := fun c => digitC_toDigits
  have h0 : Nat.toDigits 10 N ≠ [] := Nat.toDigits_ne_nil
  generalize Nat.toDigits 10 N = ds at *
  have hz : ∀ n : Nat, ∀ c ∈ List.replicate n '0', digitC c = true := by
    intro n c hc; rw [List.mem_replicate] at hc; rw [hc.2]; decide
  unfold fmtF
  split_ifs with h1 h2
  · have := parse_body S neg (A := ds ++ List.replicate e.toNat '0') (B := []) (P := []) (r := []) (e := 0)
      (by simp [h0]) (by intro c hc; rw [List.mem_append] at hc; rcases hc with hc | hc; exacts [hd c hc, hz _ c hc])
      (by simp) (Or.inl ⟨rfl, rfl⟩) (Or.inl ⟨rfl, rfl⟩)
    simp only [List.append_nil, List.length_nil] at this
    rw [show ((ds.length : ℤ) + e - ds.length).toNat = e.toNat by congr 1; ring, this,
      Nat.ofDigitChars_append, hN, Nat.ofDigitChars_replicate_zero]
    congr 1
    have he0 : 0 ≤ e := by omega
    obtain ⟨k, rfl⟩ := Int.eq_ofNat_of_zero_le he0
    simp [pow10_eq]; ring
  · obtain ⟨k, hk⟩ : ∃ k : Nat, (ds.length : ℤ) + e = k := Int.eq_ofNat_of_zero_le (by omega)
    have hk' : ((ds.length : ℤ) + e).toNat = k := by omega
    have hkl : k < ds.length := by omega
    have := parse_body S neg (A := ds.take k) (B := ds.drop k) (P := '.' :: ds.drop k) (r := []) (e := 0)
      (by rw [Ne, List.take_eq_nil_iff]; simp [h0]; omega) (fun c hc => hd c (List.mem_of_mem_take hc))
      (fun c hc => hd c (List.mem_of_mem_drop hc)) (Or.inr rfl) (Or.inl ⟨rfl, rfl⟩)
    simp only [List.append_nil, List.take_append_drop, hN] at this
    rw [hk', this]
    congr 3
    rw [List.length_drop]; omega
  · have := parse_body S neg (A := ['0']) (B := List.replicate (-((ds.length : ℤ) + e)).toNat '0' ++ ds)
      (P := '.' :: (List.replicate (-((ds.length : ℤ) + e)).toNat '0' ++ ds)) (r := []) (e := 0)
      (by simp) (by intro c hc; simp at hc; subst hc; decide)
      (by intro c hc; rw [List.mem_append] at hc; rcases hc with hc | hc; exacts [hz _ c hc, hd c hc])
      (Or.inr rfl) (Or.inl ⟨rfl, rfl⟩)
    simp only [List.append_nil, List.cons_append, List.nil_append] at this
    rw [this, Nat.ofDigitChars_cons, Nat.ofDigitChars_append, Nat.ofDigitChars_eq_ofDigitChars_zero (l := ds)]
    simp only [Nat.ofDigitChars_replicate_zero, hN, List.length_append, List.length_replicate]
    simp only [Nat.mul_zero, Nat.sub_self, Nat.add_zero, Nat.zero_add]
    congr 3
    push_cast
    omega
/-- The text of `%g` reads back as the decimal it shows. -/
theorem parse_fmtG (S : FloatSem) (neg : Bool) (eprec : ℤ) {N : Nat} {e : ℤ}
    (he : ((Nat.toDigits 10 N).length + e - 1).natAbs < 100000) :
    parseFloat S (signText neg ++
      fmtG eprec (Nat.toDigits 10 N) ((Nat.toDigits 10 N).length + e)) = finish S neg (N * pow10 e) := by
  have hF := parse_fmtF S neg (N := N) (e := e)
  have hN : Nat.ofDigitChars 10 (Nat.toDigits 10 N) 0 = N := Nat.ofDigitChars_ten_toDigits
  have hd : ∀ c ∈ Nat.toDigits 10 N, digitC c = true := fun c => digitC_toDigits
  have h0 : Nat.toDigits 10 N ≠ [] := Nat.toDigits_ne_nil
  generalize Nat.toDigits 10 N = ds at *
  have hz : ∀ n : Nat, ∀ c ∈ List.replicate n '0', digitC c = true := by
    intro n c hc; rw [List.mem_replicate] at hc; rw [hc.2]; decide
  unfold fmtG
  split_ifs with hg
  · match ds, h0 with
    | [d], _ =>
      have := parse_body S neg (A := [d]) (B := []) (P := []) (r := 'e' :: fmtExp (1 + e - 1)) (e := 1 + e - 1)
        (by simp) hd (by simp) (Or.inl ⟨rfl, rfl⟩) (Or.inr ⟨rfl, by simpa using he⟩)
      simp only [List.nil_append, List.append_nil, hN, List.length_nil, List.cons_append] at this
      simp only [fmtE, List.length_cons, List.length_nil]
      norm_num at this ⊢
      rw [this]
    | d :: d' :: rest, _ =>
      have := parse_body S neg (A := [d]) (B := d' :: rest) (P := '.' :: d' :: rest)
        (r := 'e' :: fmtExp (((d :: d' :: rest).length : ℤ) + e - 1)) (e := ((d :: d' :: rest).length : ℤ) + e - 1)
        (by simp) (fun c hc => hd c (by simp at hc; simp [hc])) (fun c hc => hd c (by simp at hc ⊢; right; exact hc))
        (Or.inr rfl) (Or.inr ⟨rfl, he⟩)
      simp only [List.cons_append, List.nil_append, hN] at this
      simp only [fmtE]
      rw [show ∀ l, d :: '.' :: (d' :: rest ++ l) = d :: '.' :: d' :: (rest ++ l) from fun l => rfl, this]
      congr 3
      simp only [List.length_cons]; push_cast; ring
  · exact hF

/-- What the choice of digits must satisfy: the decimal reads back as the number, and is of a
reasonable size. This is the contract documented for `strconv.FormatFloat` with precision -1. -/
structure GoodPick (S : FloatSem) (pick : ℚ → Nat × ℤ) : Prop where
  back : ∀ q, 0 < q → S.rnd q = .fin q → S.rnd ((pick q).1 * pow10 (pick q).2) = .fin q
  size : ∀ q, 0 < q → S.rnd q = .fin q →
    0 < (pick q).1 ∧ (Nat.toDigits 10 (pick q).1).length ≤ 2500 ∧ (pick q).2.natAbs ≤ 5000

/-- A printed float reads back as itself. -/
theorem parseFloat_fmtFloat {S : FloatSem} (hS : Lawful S) {pick : ℚ → Nat × ℤ} (hp : GoodPick S pick)
    (eprec : ℤ) {x : Fl} (hx : ∀ q, x = .fin q → S.rnd q = .fin q) :
    parseFloat S (fmtFloat pick eprec x) = some x := by
  cases x with
  | nan => simp [fmtFloat, parseFloat, parseSpecial, takeSign, lowerC, Char.ofNat]
  | inf b => cases b <;> · simp only [fmtFloat, parseFloat]; rfl
  | negZero =>
    have := parse_body S true (A := ['0']) (B := []) (P := []) (r := []) (e := 0) (by simp)
      (by intro c hc; simp at hc; subst hc; decide) (by simp) (Or.inl ⟨rfl, rfl⟩) (Or.inl ⟨rfl, rfl⟩)
    simpa [fmtFloat, finish, Fl.zero, signText, show Nat.ofDigitChars 10 ['0'] 0 = 0 by decide] using this
  | fin q =>
    have hq := hx q rfl
    by_cases h0 : q = 0
    · subst h0
      have := parse_body S false (A := ['0']) (B := []) (P := []) (r := []) (e := 0) (by simp)
        (by intro c hc; simp at hc; subst hc; decide) (by simp) (Or.inl ⟨rfl, rfl⟩) (Or.inl ⟨rfl, rfl⟩)
      simpa [fmtFloat, finish, Fl.zero, signText, show Nat.ofDigitChars 10 ['0'] 0 = 0 by decide] using this
    · have ha : 0 < |q| := abs_pos.2 h0
      have hr : S.rnd |q| = .fin |q| := by
        rcases abs_cases q with ⟨h, -⟩ | ⟨h, -⟩
        · rw [h, hq]
        · rw [h, hS.r64.odd q h0, hq]; simp [Fl.neg, h0]
      obtain ⟨s1, s2, s3⟩ := hp.size _ ha hr
      have hb := hp.back _ ha hr
      have hpos : (0 : ℚ) < (pick |q|).1 * pow10 (pick |q|).2 :=
        mul_pos (by exact_mod_cast s1) (pow10_pos _)
      have := parse_fmtG S (decide (q < 0)) eprec (N := (pick |q|).1) (e := (pick |q|).2) (by
        have := Nat.length_toDigits_pos (b := 10) (n := (pick |q|).1)
        omega)
      rw [finish, if_neg hpos.ne', hb] at this
      by_cases hn : q < 0
      · simp only [hn, decide_true, if_true, List.cons_append, List.nil_append, signText] at this
        simp only [fmtFloat, h0, if_false, hn, if_true, this, Fl.neg]
        rw [if_neg ha.ne', abs_of_neg hn]; simp
      · simp only [hn, decide_false, Bool.false_eq_true, if_false, List.nil_append, signText] at this
        simp only [fmtFloat, h0, if_false, hn, this]
        rw [abs_of_nonneg (by linarith)]

end Go
