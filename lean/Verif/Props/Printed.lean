import Verif.Model.StringsGo
import Verif.Props.Texts
import Verif.Props.IEEE
import Verif.Props.CandleFloat
import Verif.Lemmas.CandleFile
import Verif.Lemmas.QuotRound
import Verif.Lemmas.Err

/-!
# C173: printed numbers are right to the last digit
-/

namespace Finmod
open Go

namespace Spec

/-- `t` is a number with `k` decimals: a minus sign if `neg`, the digits before the point without
superfluous zeros, the point, and `k` digits; all digits together are the number `n`. -/
def Fixed (k : Nat) (neg : Bool) (n : Nat) (t : List Char) : Prop :=
  ∃ A B : List Char, t = (if neg then ['-'] else []) ++ (A ++ '.' :: B) ∧
    (∀ c ∈ A ++ B, digitC c = true) ∧ A ≠ [] ∧ (A.head? = some '0' → A = ['0']) ∧ B.length = k ∧
    Nat.ofDigitChars 10 (A ++ B) 0 = n

/-- `n` units of the last of `k` decimals are nearest to `q`; of two nearest the even one. -/
def NearestUnits (k : Nat) (q : ℚ) (n : Nat) : Prop :=
  |(n : ℚ) / 10 ^ k - q| ≤ 1 / (2 * 10 ^ k) ∧ (|(n : ℚ) / 10 ^ k - q| = 1 / (2 * 10 ^ k) → n % 2 = 0)

/-- `n` units with a sign. -/
def signed (neg : Bool) (n : Nat) : ℤ := if neg then -(n : ℤ) else n

end Spec
open Spec

/-! ### Digit strings -/

theorem ofDigitChars_cons_zero (c : Char) (cs : List Char) :
    Nat.ofDigitChars 10 (c :: cs) 0 = (c.toNat - 48) * 10 ^ cs.length + Nat.ofDigitChars 10 cs 0 := by
  rw [Nat.ofDigitChars_cons, Nat.ofDigitChars_eq_ofDigitChars_zero]
  have : '0'.toNat = 48 := rfl
  rw [this]; ring

theorem digit_lt {c : Char} (h : digitC c = true) : c.toNat - 48 < 10 ∧ (c.toNat - 48 = 0 → c = '0') ∧ 48 ≤ c.toNat := by
  simp only [digitC, decide_eq_true_eq] at h
  refine ⟨by omega, fun h0 => ?_, h.1⟩
  have : c.toNat = '0'.toNat := by show c.toNat = 48; omega
  exact Char.toNat_inj.1 this

theorem ofDigitChars_lt {A : List Char} (hA : ∀ c ∈ A, digitC c = true) : Nat.ofDigitChars 10 A 0 < 10 ^ A.length := by
  induction A with
  | nil => simp
  | cons c A ih =>
    have h1 := ih fun x hx => hA x (List.mem_cons_of_mem _ hx)
    have h2 := (digit_lt (hA c List.mem_cons_self)).1
    rw [ofDigitChars_cons_zero, List.length_cons, pow_succ]
    have : (c.toNat - 48) * 10 ^ A.length ≤ 9 * 10 ^ A.length := Nat.mul_le_mul_right _ (by omega)
    omega

/-- A digit string is determined by its value and its length. -/
theorem digits_unique {A B : List Char} (hA : ∀ c ∈ A, digitC c = true) (hB : ∀ c ∈ B, digitC c = true)
    (hl : A.length = B.length) (h : Nat.ofDigitChars 10 A 0 = Nat.ofDigitChars 10 B 0) : A = B := by
  induction A generalizing B with
  | nil => simpa using hl.symm
  | cons c A ih =>
    cases B with
    | nil => simp at hl
    | cons d B =>
      have hl' : A.length = B.length := by simpa using hl
      have hA' := fun x hx => hA x (List.mem_cons_of_mem c hx)
      have hB' := fun x hx => hB x (List.mem_cons_of_mem d hx)
      have l1 := ofDigitChars_lt hA'
      have l2 := ofDigitChars_lt hB'
      rw [ofDigitChars_cons_zero, ofDigitChars_cons_zero, ← hl'] at h
      have l1 : Nat.ofDigitChars 10 A 0 < 10 ^ A.length := l1
      rw [← hl'] at l2
      have e1 := congrArg (· / 10 ^ A.length) h
      have e2 := congrArg (· % 10 ^ A.length) h
      have hp : 0 < 10 ^ A.length := by positivity
      simp only [Nat.add_comm ((_) * _), Nat.add_mul_div_right _ _ hp, Nat.div_eq_of_lt l1,
        Nat.div_eq_of_lt l2, Nat.zero_add, Nat.add_mul_mod_self_right, Nat.mod_eq_of_lt l1, Nat.mod_eq_of_lt l2] at e1 e2
      obtain ⟨-, -, c1⟩ := digit_lt (hA c List.mem_cons_self)
      obtain ⟨-, -, d1⟩ := digit_lt (hB d List.mem_cons_self)
      have : c = d := Char.toNat_inj.1 (by omega)
      rw [this, ih hA' hB' hl' e2]

/-- Without superfluous zeros the value gives the length. -/
theorem digits_length {A B : List Char} (hA : ∀ c ∈ A ++ B, digitC c = true) (h0 : A ≠ [])
    (hz : A.head? = some '0' → A = ['0']) {A' B' : List Char} (hA' : ∀ c ∈ A' ++ B', digitC c = true) (h0' : A' ≠ [])
    (hz' : A'.head? = some '0' → A' = ['0']) (hB : B.length = B'.length)
    (h : Nat.ofDigitChars 10 (A ++ B) 0 = Nat.ofDigitChars 10 (A' ++ B') 0) : A.length = A'.length := by
  have key : ∀ {A B A' B' : List Char}, (∀ c ∈ A ++ B, digitC c = true) → A ≠ [] → (A.head? = some '0' → A = ['0']) →
      (∀ c ∈ A' ++ B', digitC c = true) → A' ≠ [] → B.length = B'.length →
      Nat.ofDigitChars 10 (A ++ B) 0 = Nat.ofDigitChars 10 (A' ++ B') 0 → A.length ≤ A'.length := by
    intro A B A' B' hA h0 hz hA' h0' hB h
    by_contra hlt
    have l' := ofDigitChars_lt hA'
    obtain ⟨c, A, rfl⟩ := List.exists_cons_of_ne_nil h0
    have hpos : 0 < A'.length := List.length_pos_iff.2 h0'
    by_cases hc : c = '0'
    · have := hz (by simp [hc])
      rw [this] at hlt; simp only [List.length_singleton] at hlt; omega
    · have hc' : 1 ≤ c.toNat - 48 := by
        have := (digit_lt (hA c (by simp))).2.1
        by_contra h'; exact hc (this (by omega))
      rw [List.cons_append, ofDigitChars_cons_zero, List.length_append] at h
      have : 10 ^ (A' ++ B').length ≤ 10 ^ (A.length + B.length) := by
        refine Nat.pow_le_pow_right (by norm_num) ?_
        rw [List.length_append]; simp only [List.length_cons] at hlt; omega
      have : 1 * 10 ^ (A.length + B.length) ≤ (c.toNat - 48) * 10 ^ (A.length + B.length) := Nat.mul_le_mul_right _ hc'
      omega
  exact le_antisymm (key hA h0 hz hA' h0' hB h) (key hA' h0' hz' hA h0 hB.symm h.symm)

/-- **C173.** A text with `k` decimals shows one number, and there is one text for each. -/
theorem C173_texts_unique {k : Nat} {neg neg' : Bool} {n n' : Nat} {t t' : List Char} (h : Fixed k neg n t)
    (h' : Fixed k neg' n' t') : t = t' ↔ neg = neg' ∧ n = n' := by
  obtain ⟨A, B, rfl, hd, h0, hz, hk, hn⟩ := h
  obtain ⟨A', B', rfl, hd', h0', hz', hk', hn'⟩ := h'
  constructor
  · intro e
    have hneg : neg = neg' := by
      have sgn : ∀ {A B : List Char}, (∀ c ∈ A ++ B, digitC c = true) → A ≠ [] → ∀ X, ['-'] ++ X ≠ A ++ '.' :: B := by
        intro A B hd h0 X he
        obtain ⟨c, A, rfl⟩ := List.exists_cons_of_ne_nil h0
        have := hd c (by simp)
        simp only [List.cons_append, List.nil_append, List.cons.injEq] at he
        rw [← he.1] at this; revert this; decide
      cases neg <;> cases neg'
      · rfl
      · exact absurd e.symm (by simpa using sgn hd h0 _)
      · exact absurd e (by simpa using sgn hd' h0' _)
      · rfl
    subst hneg
    have e := List.append_cancel_left e
    have np : ∀ {A B : List Char}, (∀ c ∈ A ++ B, digitC c = true) → '.' ∉ A := by
      intro A B hd hm
      have := hd '.' (List.mem_append_left _ hm); revert this; decide
    obtain ⟨rfl, rfl⟩ := sep_split (np hd) (np hd') e
    exact ⟨rfl, hn.symm.trans hn'⟩
  · rintro ⟨rfl, rfl⟩
    have hl := digits_length hd h0 hz hd' h0' hz' (hk.trans hk'.symm) (hn.trans hn'.symm)
    have := digits_unique hd hd' (by simp [hl, hk, hk']) (hn.trans hn'.symm)
    obtain ⟨rfl, rfl⟩ := List.append_inj this hl
    rfl

/-! ### The text of `%.kf` -/

theorem toDigits_head {n : Nat} (h : (Nat.toDigits 10 n).head? = some '0') : Nat.toDigits 10 n = ['0'] := by
  by_contra hne
  have hd : ∀ c ∈ Nat.toDigits 10 n, digitC c = true := fun c => digitC_toDigits
  have hN : Nat.ofDigitChars 10 (Nat.toDigits 10 n) 0 = n := Nat.ofDigitChars_ten_toDigits
  have hlen := (Nat.length_toDigits_le_iff (b := 10) (n := n) (k := (Nat.toDigits 10 n).length - 1) (by norm_num))
  generalize Nat.toDigits 10 n = ds at *
  cases ds with
  | nil => simp at h
  | cons c cs =>
    simp only [List.head?_cons, Option.some.injEq] at h
    subst h
    cases cs with
    | nil => exact hne rfl
    | cons d cs =>
      have hlt := ofDigitChars_lt (A := d :: cs) fun x hx => hd x (List.mem_cons_of_mem _ hx)
      rw [ofDigitChars_cons_zero] at hN
      simp only [show '0'.toNat - 48 = 0 from rfl, Nat.zero_mul, Nat.zero_add] at hN
      have := (hlen (by simp)).2 (by rw [← hN]; simpa using hlt)
      simp at this

theorem fixed_fmtF {k : Nat} (hk : 1 ≤ k) (neg : Bool) (n : Nat) :
    Fixed k neg n ((if neg then ['-'] else []) ++ fmtF (Nat.toDigits 10 n) (((Nat.toDigits 10 n).length : ℤ) - k)) := by
  have hN : Nat.ofDigitChars 10 (Nat.toDigits 10 n) 0 = n := Nat.ofDigitChars_ten_toDigits
  have hd : ∀ c ∈ Nat.toDigits 10 n, digitC c = true := fun c => digitC_toDigits
  have h0 : Nat.toDigits 10 n ≠ [] := Nat.toDigits_ne_nil
  have hz := @toDigits_head n
  generalize Nat.toDigits 10 n = ds at *
  have hpos : 0 < ds.length := List.length_pos_iff.2 h0
  unfold fmtF
  rw [if_neg (show ¬ (ds.length : ℤ) ≤ ds.length - k by omega)]
  by_cases h2 : (0 : ℤ) < (ds.length : ℤ) - k
  · rw [if_pos h2]
    have e : ((ds.length : ℤ) - k).toNat = ds.length - k := by omega
    rw [e]
    refine ⟨ds.take (ds.length - k), ds.drop (ds.length - k), rfl, by rw [List.take_append_drop]; exact hd, ?_, ?_, ?_, ?_⟩
    · rw [Ne, List.take_eq_nil_iff]; rintro (h | h) <;> [omega; exact h0 h]
    · intro hh
      have : ds.head? = some '0' := by
        cases ds with
        | nil => simp at h0
        | cons c cs =>
          rw [show (c :: cs).length - k = ((c :: cs).length - k - 1) + 1 by omega, List.take_succ_cons] at hh
          simpa using hh
      have := hz this
      rw [this] at h2; simp at h2; omega
    · rw [List.length_drop]; omega
    · rw [List.take_append_drop]; exact hN
  · rw [if_neg h2]
    have e : (-((ds.length : ℤ) - k)).toNat = k - ds.length := by omega
    rw [e]
    refine ⟨['0'], List.replicate (k - ds.length) '0' ++ ds, rfl, ?_, by simp, fun _ => rfl, ?_, ?_⟩
    · intro c hc
      simp only [List.cons_append, List.nil_append, List.mem_cons, List.mem_append, List.mem_replicate] at hc
      rcases hc with rfl | ⟨-, rfl⟩ | hc
      · decide
      · decide
      · exact hd c hc
    · simp only [List.length_append, List.length_replicate]; omega
    · rw [show ['0'] ++ (List.replicate (k - ds.length) '0' ++ ds) = List.replicate (k - ds.length + 1) '0' ++ ds by
        rw [List.replicate_succ]; simp]
      rw [Nat.ofDigitChars_append, Nat.ofDigitChars_replicate_zero, Nat.mul_zero, hN]

theorem nearest_roundInt (k : Nat) {q : ℚ} (hq : 0 ≤ q) : NearestUnits k q (roundInt (q * 10 ^ k)).toNat := by
  have hp : (0 : ℚ) < 10 ^ k := by positivity
  have hnn : 0 ≤ roundInt (q * 10 ^ k) := int_le_roundInt (by push_cast; positivity)
  have e : (((roundInt (q * 10 ^ k)).toNat : ℕ) : ℚ) = roundInt (q * 10 ^ k) := by
    have : (((roundInt (q * 10 ^ k)).toNat : ℕ) : ℤ) = roundInt (q * 10 ^ k) := Int.toNat_of_nonneg hnn
    exact_mod_cast this
  have e2 : |(((roundInt (q * 10 ^ k)).toNat : ℕ) : ℚ) / 10 ^ k - q| = |(roundInt (q * 10 ^ k) : ℚ) - q * 10 ^ k| / 10 ^ k := by
    rw [e, eq_div_iff hp.ne', ← abs_of_pos hp, ← abs_mul, abs_of_pos hp]
    congr 1; field_simp
  have e3 : (1 : ℚ) / (2 * 10 ^ k) = 1 / 2 / 10 ^ k := by rw [div_div]
  constructor
  · rw [e2, e3]
    exact (div_le_div_iff_of_pos_right hp).2 (roundInt_err _)
  · rw [e2, e3]
    intro h
    have := roundInt_half_even ((div_left_inj' hp.ne').1 h)
    omega

/-- At most one number of units is nearest. -/
theorem nearest_unique {k : Nat} {q : ℚ} {n m : Nat} (hn : NearestUnits k q n) (hm : NearestUnits k q m) : n = m := by
  have hp : (0 : ℚ) < 10 ^ k := by positivity
  have key : ∀ {n m : Nat}, NearestUnits k q n → NearestUnits k q m → n ≤ m := by
    intro n m hn hm
    by_contra hlt
    have h1 : ((m : ℚ) + 1) / 10 ^ k ≤ n / 10 ^ k := by
      rw [div_le_div_iff_of_pos_right hp]; exact_mod_cast (by omega : m + 1 ≤ n)
    have h2 : ((m : ℚ) + 1) / 10 ^ k = m / 10 ^ k + 2 * (1 / (2 * 10 ^ k)) := by field_simp
    have a1 := abs_le.1 hn.1
    have a2 := abs_le.1 hm.1
    have e1 : (n : ℚ) / 10 ^ k - q = 1 / (2 * 10 ^ k) := by linarith
    have e2 : (m : ℚ) / 10 ^ k - q = -(1 / (2 * 10 ^ k)) := by linarith
    have hu : (0 : ℚ) < 1 / (2 * 10 ^ k) := by positivity
    have c1 := hn.2 (by rw [e1, abs_of_pos hu])
    have c2 := hm.2 (by rw [e2, abs_neg, abs_of_pos hu])
    have e3 : (n : ℚ) / 10 ^ k = ((m : ℚ) + 1) / 10 ^ k := by linarith
    have e4 : (n : ℚ) = m + 1 := (div_left_inj' hp.ne').1 e3
    have : n = m + 1 := by exact_mod_cast e4
    omega
  exact le_antisymm (key hn hm) (key hm hn)

/-- **C173.** The text of a finite number: the nearest decimal with `k` places, ties to even. -/
theorem C173_text {k : Nat} (hk : 1 ≤ k) (q : ℚ) (t : List Char) :
    t = fmtFixed k (.fin q) ↔ ∃ n, NearestUnits k |q| n ∧ Fixed k (decide (q < 0)) n t := by
  have hn := nearest_roundInt k (abs_nonneg q)
  have ht : Fixed k (decide (q < 0)) (roundInt (|q| * 10 ^ k)).toNat (fmtFixed k (.fin q)) := by
    have := fixed_fmtF hk (decide (q < 0)) (roundInt (|q| * 10 ^ k)).toNat
    unfold fmtFixed
    by_cases h : q < 0
    · simpa [h] using this
    · simpa [h] using this
  constructor
  · rintro rfl; exact ⟨_, hn, ht⟩
  · rintro ⟨n, h1, h2⟩
    obtain rfl := nearest_unique h1 hn
    exact (C173_texts_unique h2 ht).2 ⟨rfl, rfl⟩

/-- A tie goes to the even digit; a carry runs through; a small negative number keeps its sign. -/
example : fmtFixed 2 (.fin (1 / 8)) = "0.12".toList ∧ fmtFixed 2 (.fin (3 / 8)) = "0.38".toList ∧
    fmtFixed 4 (.fin (-99999999 / 1000000)) = "-100.0000".toList ∧ fmtFixed 3 (.fin (-1 / 10000)) = "-0.000".toList ∧
    Fixed 2 false 12 "0.12".toList ∧ NearestUnits 2 (1 / 8) 12 ∧ ¬ NearestUnits 2 (1 / 8) 13 := by
  refine ⟨by decide +kernel, by decide +kernel, by decide +kernel, by decide +kernel,
    ⟨['0'], ['1', '2'], by decide +kernel, by decide, by decide, by decide, rfl, by decide +kernel⟩, ?_, ?_⟩
  · constructor
    · norm_num [abs_of_neg]
    · intro _; rfl
  · rintro ⟨-, h⟩
    have := h (by norm_num [abs_of_pos])
    omega

/-- **C173.** The other values. -/
theorem C173_special (k : Nat) :
    fmtFixed k .nan = "NaN".toList ∧ fmtFixed k (.inf false) = "+Inf".toList ∧ fmtFixed k (.inf true) = "-Inf".toList ∧
    Fixed k true 0 (fmtFixed k .negZero) := by
  refine ⟨rfl, rfl, rfl, ['0'], List.replicate k '0', rfl, ?_, by simp, fun _ => rfl, by simp, ?_⟩
  · intro c hc
    simp only [List.cons_append, List.nil_append, List.mem_cons, List.mem_replicate] at hc
    rcases hc with rfl | ⟨-, rfl⟩ <;> decide
  · rw [show ['0'] ++ List.replicate k '0' = List.replicate (k + 1) '0' by rw [List.replicate_succ]; rfl,
      Nat.ofDigitChars_replicate_zero, Nat.mul_zero]

/-- **C173.** A larger number is never shown as a smaller one. -/
theorem C173_monotone {k : Nat} (hk : 1 ≤ k) {x y : ℚ} (h : x ≤ y) {a b : Bool} {n m : Nat}
    (hx : Fixed k a n (fmtFixed k (.fin x))) (hy : Fixed k b m (fmtFixed k (.fin y))) : signed a n ≤ signed b m := by
  obtain ⟨n', h1, h2⟩ := (C173_text hk x _).1 rfl
  obtain ⟨m', g1, g2⟩ := (C173_text hk y _).1 rfl
  obtain ⟨rfl, rfl⟩ := (C173_texts_unique hx h2).1 rfl
  obtain ⟨rfl, rfl⟩ := (C173_texts_unique hy g2).1 rfl
  obtain rfl := nearest_unique h1 (nearest_roundInt k (abs_nonneg x))
  obtain rfl := nearest_unique g1 (nearest_roundInt k (abs_nonneg y))
  have hp : (0 : ℚ) < 10 ^ k := by positivity
  have nn : ∀ z : ℚ, 0 ≤ roundInt (|z| * 10 ^ k) := fun z => int_le_roundInt (by push_cast; positivity)
  have n1 := nn x
  have n2 := nn y
  unfold signed
  by_cases hx0 : x < 0 <;> by_cases hy0 : y < 0
  · have : roundInt (|y| * 10 ^ k) ≤ roundInt (|x| * 10 ^ k) :=
      roundInt_mono (mul_le_mul_of_nonneg_right (by rw [abs_of_neg hx0, abs_of_neg hy0]; linarith) hp.le)
    simp only [hx0, hy0, decide_true, if_true]; omega
  · simp only [hx0, hy0, decide_true, decide_false, if_true, Bool.false_eq_true, if_false]; omega
  · exact absurd (lt_of_le_of_lt h hy0) hx0
  · have : roundInt (|x| * 10 ^ k) ≤ roundInt (|y| * 10 ^ k) :=
      roundInt_mono (mul_le_mul_of_nonneg_right (by
        rw [abs_of_nonneg (not_lt.1 hx0), abs_of_nonneg (not_lt.1 hy0)]; exact h) hp.le)
    simp only [hx0, hy0, decide_false, Bool.false_eq_true, if_false]; omega

theorem roundInt_odd (x : ℚ) : roundInt (-x) = -roundInt x := by
  have a := roundInt_err (-x)
  have b := roundInt_err x
  have ha := @roundInt_half_even (-x)
  have hb := @roundInt_half_even x
  generalize roundInt (-x) = m at *
  generalize roundInt x = n at *
  have a' := abs_le.1 a
  have b' := abs_le.1 b
  rcases lt_trichotomy m (-n) with h | h | h
  · have h1 : (m : ℚ) + 1 ≤ -n := by exact_mod_cast h
    have e1 : (m : ℚ) - -x = -(1 / 2) := by linarith
    have e2 : (n : ℚ) - x = -(1 / 2) := by linarith
    have c1 := ha (by rw [e1]; norm_num)
    have c2 := hb (by rw [e2]; norm_num)
    have e3 : (m : ℚ) + n = -1 := by linarith
    have : m + n = -1 := by exact_mod_cast e3
    omega
  · exact h
  · have h1 : -(n : ℚ) + 1 ≤ m := by exact_mod_cast h
    have e1 : (m : ℚ) - -x = 1 / 2 := by linarith
    have e2 : (n : ℚ) - x = 1 / 2 := by linarith
    have c1 := ha (by rw [e1]; norm_num)
    have c2 := hb (by rw [e2]; norm_num)
    have e3 : (m : ℚ) + n = 1 := by linarith
    have : m + n = 1 := by exact_mod_cast e3
    omega

theorem tiny_20 : tiny * 10 ^ 20 ≤ 1 / 2 ^ 60 := by
  have : tiny ≤ 1 / 2 ^ 60 / 10 ^ 20 := by
    rw [tiny_eq]
    calc (2 : ℚ) ^ (-1075 : ℤ) ≤ 2 ^ (-200 : ℤ) := zpow_le_zpow_right₀ (by norm_num) (by norm_num)
      _ ≤ 1 / 2 ^ 60 / 10 ^ 20 := by norm_num
  rwa [le_div_iff₀ (by norm_num)] at this

/-- **C173.** A float64 that stands for a decimal with `k` places and fewer than 2^52 units is shown as that
decimal. -/
theorem C173_decimal {k : Nat} (hk : 1 ≤ k) (hk20 : k ≤ 20) {m : ℤ} (hm : |m| < 2 ^ 52) {t : List Char}
    (ht : Fixed k (decide (m < 0)) m.natAbs t) : fmtFixed k (ieee.rnd (m / 10 ^ k)) = t := by
  have hp : (0 : ℚ) < 10 ^ k := by positivity
  have hp1 : (1 : ℚ) ≤ 10 ^ k := one_le_pow₀ (by norm_num)
  have hm' : |(m : ℚ)| ≤ 2 ^ 52 - 1 := by
    have : |m| ≤ 2 ^ 52 - 1 := by omega
    exact_mod_cast this
  have habs : |(m : ℚ) / 10 ^ k| = |(m : ℚ)| / 10 ^ k := by rw [abs_div, abs_of_pos hp]
  have hle : |(m : ℚ) / 10 ^ k| ≤ huge := by
    rw [habs]
    refine (div_le_self (abs_nonneg _) hp1).trans (hm'.trans ?_)
    rw [huge_eq]
    calc (2 : ℚ) ^ 52 - 1 ≤ 2 ^ (52 : ℤ) := by norm_num
      _ ≤ 2 ^ (1023 : ℤ) := zpow_le_zpow_right₀ (by norm_num) (by norm_num)
  obtain ⟨r, hr, herr⟩ := rnd_near hle
  -- the error in units of the last decimal
  have hu : |r * 10 ^ k - m| ≤ uR * |(m : ℚ)| + 1 / 2 ^ 60 := by
    have e : r * 10 ^ k - m = (r - m / 10 ^ k) * 10 ^ k := by field_simp
    rw [e, abs_mul, abs_of_pos hp]
    calc |r - m / 10 ^ k| * 10 ^ k ≤ (uR * |(m : ℚ) / 10 ^ k| + tiny) * 10 ^ k := mul_le_mul_of_nonneg_right herr hp.le
      _ = uR * |(m : ℚ)| + tiny * 10 ^ k := by rw [habs]; field_simp
      _ ≤ uR * |(m : ℚ)| + 1 / 2 ^ 60 := by
        have h1 : (10 : ℚ) ^ k ≤ 10 ^ 20 := pow_le_pow_right₀ (by norm_num) hk20
        have := mul_le_mul_of_nonneg_left h1 tiny_nonneg
        have := tiny_20
        linarith
  have hhalf : |r * 10 ^ k - m| < 1 / 2 := by
    refine lt_of_le_of_lt hu ?_
    have : uR * |(m : ℚ)| ≤ uR * (2 ^ 52 - 1) := mul_le_mul_of_nonneg_left hm' uR_nonneg
    have e : uR * (2 ^ 52 - 1) + 1 / 2 ^ 60 < 1 / 2 := by norm_num [uR]
    linarith
  by_cases h0 : m = 0
  · subst h0
    have : ieee.rnd ((0 : ℤ) / 10 ^ k) = .fin 0 := by
      have := ieee_lawful.r64.int 0 (by norm_num)
      simpa using this
    rw [this]
    refine ((C173_text hk 0 t).2 ⟨0, ?_, by simpa using ht⟩).symm
    constructor
    · simp
    · simp
  · have hb := abs_lt.1 hhalf
    have hsgn : (0 < m → 0 < r) ∧ (m < 0 → r < 0) := by
      constructor
      · intro h
        have h1 : (1 : ℚ) ≤ m := by exact_mod_cast h
        have : 0 < r * 10 ^ k := by linarith
        exact pos_of_mul_pos_left this hp.le
      · intro h
        have h1 : (m : ℚ) ≤ -1 := by exact_mod_cast (by omega : m ≤ -1)
        have : r * 10 ^ k < 0 := by linarith
        by_contra h'
        have := mul_nonneg (not_lt.1 h') hp.le
        linarith
    have hfin : ieee.rnd (m / 10 ^ k) = .fin r := by
      have hr0 : r ≠ 0 := by
        rcases lt_or_gt_of_ne h0 with h | h
        · exact (hsgn.2 h).ne
        · exact (hsgn.1 h).ne'
      revert hr
      cases ieee.rnd (m / 10 ^ k) with
      | nan => intro h; simp [Fl.Is] at h
      | inf b => intro h; simp [Fl.Is] at h
      | negZero => intro h; simp [Fl.Is] at h; exact absurd h hr0
      | fin q => intro h; simp [Fl.Is] at h; rw [h]
    rw [hfin]
    have hdec : decide (r < 0) = decide (m < 0) := by
      rcases lt_or_gt_of_ne h0 with h | h
      · simp [h, hsgn.2 h]
      · simp [not_lt.2 h.le, not_lt.2 (hsgn.1 h).le]
    refine ((C173_text hk r t).2 ⟨m.natAbs, ?_, by rw [hdec]; exact ht⟩).symm
    have hna : ((m.natAbs : ℕ) : ℚ) = |(m : ℚ)| := by
      rw [Nat.cast_natAbs, Int.cast_abs]
    have hlt : |((m.natAbs : ℕ) : ℚ) / 10 ^ k - (|r|)| < 1 / (2 * 10 ^ k) := by
      have e : ((m.natAbs : ℕ) : ℚ) / 10 ^ k - |r| = (|(m : ℚ)| - |r * 10 ^ k|) / 10 ^ k := by
        rw [hna, abs_mul, abs_of_pos hp]; field_simp
      rw [e, abs_div, abs_of_pos hp, show (1 : ℚ) / (2 * 10 ^ k) = 1 / 2 / 10 ^ k by rw [div_div], div_lt_div_iff_of_pos_right hp]
      refine lt_of_le_of_lt (abs_abs_sub_abs_le _ _) ?_
      rwa [abs_sub_comm]
    exact ⟨hlt.le, fun h => absurd h hlt.ne⟩

/-- 1234.5678 is no float64; the float64 nearest to it is shown as 1234.5678. -/
example : fmtFixed 4 (ieee.rnd (12345678 / 10 ^ 4)) = "1234.5678".toList ∧ |(12345678 : ℤ)| < 2 ^ 52 ∧
    Fixed 4 (decide ((12345678 : ℤ) < 0)) (12345678 : ℤ).natAbs "1234.5678".toList ∧
    ieee.rnd (12345678 / 10 ^ 4) ≠ .fin (12345678 / 10 ^ 4) :=
  have h : Fixed 4 (decide ((12345678 : ℤ) < 0)) (12345678 : ℤ).natAbs "1234.5678".toList :=
    ⟨['1', '2', '3', '4'], ['5', '6', '7', '8'], by decide +kernel, by decide, by decide, by decide, rfl, by decide +kernel⟩
  ⟨by simpa using C173_decimal (m := 12345678) (by norm_num) (by norm_num) (by norm_num) h, by norm_num, h, by decide +kernel⟩

/-- **C173.** Reading the text back: `strconv.ParseFloat(fmt.Sprintf("%.5f", x), 64)` is the function used
for the volumes of resampled candles. -/
theorem C173_reread {S : FloatSem} (hS : Lawful S) (x : Fl) : parseFloat S (fmtFixed 5 x) = fixed5 S x := by
  cases x with
  | nan => simp [parseFloat, fmtFixed, fixed5, show parseSpecial ['N', 'a', 'N'] = some .nan by decide +kernel]
  | inf b =>
    cases b
    · simp [parseFloat, fmtFixed, fixed5, show parseSpecial ['+', 'I', 'n', 'f'] = some (.inf false) by decide +kernel]
    · simp [parseFloat, fmtFixed, fixed5, show parseSpecial ['-', 'I', 'n', 'f'] = some (.inf true) by decide +kernel]
  | negZero =>
    have := parse_fmtF S true (N := 0) (e := -5)
    rw [show fmtFixed 5 .negZero = signText true ++ fmtF (Nat.toDigits 10 0) ((Nat.toDigits 10 0).length + -5) by decide +kernel, this]
    simp [finish, fixed5, Fl.zero]
  | fin q =>
    have key := parse_fmtF S (decide (q < 0)) (N := (roundInt (|q| * 10 ^ 5)).toNat) (e := -5)
    have hnn : 0 ≤ roundInt (|q| * 10 ^ 5) := int_le_roundInt (by push_cast; positivity)
    have ht : fmtFixed 5 (.fin q) = signText (decide (q < 0)) ++ fmtF (Nat.toDigits 10 (roundInt (|q| * 10 ^ 5)).toNat)
        ((Nat.toDigits 10 (roundInt (|q| * 10 ^ 5)).toNat).length + -5) := by
      unfold fmtFixed signText
      by_cases h : q < 0 <;> simp [h, Int.sub_eq_add_neg]
    rw [ht, key]
    have e10 : pow10 (-5) = 1 / 100000 := by rw [show (-5 : ℤ) = Int.negSucc 4 from rfl]; norm_num [pow10]
    have hcast : (((roundInt (|q| * 10 ^ 5)).toNat : ℕ) : ℚ) = roundInt (|q| * 10 ^ 5) := by
      have : (((roundInt (|q| * 10 ^ 5)).toNat : ℕ) : ℤ) = roundInt (|q| * 10 ^ 5) := Int.toNat_of_nonneg hnn
      exact_mod_cast this
    rw [hcast, e10]
    unfold finish fixed5
    by_cases hq : q < 0
    · have e : roundInt (|q| * 10 ^ 5) = -roundInt (q * 100000) := by
        rw [← roundInt_odd, abs_of_neg hq]; congr 1; norm_num
      rw [e]
      simp only [hq, decide_true, if_true]
      by_cases h0 : roundInt (q * 100000) = 0
      · simp [h0]
      · have h1 : ((-roundInt (q * 100000) : ℤ) : ℚ) * (1 / 100000) ≠ 0 := by
          have : (roundInt (q * 100000) : ℚ) ≠ 0 := by exact_mod_cast h0
          push_cast
          intro h'; apply this; linarith
        have h2 : (roundInt (q * 100000) : ℚ) / 100000 = -(((-roundInt (q * 100000) : ℤ) : ℚ) * (1 / 100000)) := by
          push_cast; ring
        rw [if_neg h1, if_neg h0, h2, hS.r64.odd _ h1]
        cases hx : S.rnd (((-roundInt (q * 100000) : ℤ) : ℚ) * (1 / 100000)) with
        | nan => simp [Fl.neg]
        | inf b => simp [Fl.neg]
        | negZero => simp [Fl.neg]
        | fin r => by_cases hr : r = 0 <;> simp [Fl.neg, hr]
    · have e : |q| * 10 ^ 5 = q * 100000 := by rw [abs_of_nonneg (not_lt.1 hq)]; norm_num
      rw [e]
      simp only [hq, decide_false, Bool.false_eq_true, if_false]
      by_cases h0 : roundInt (q * 100000) = 0
      · simp [h0]
      · have h1 : (roundInt (q * 100000) : ℚ) * (1 / 100000) ≠ 0 := by
          have : (roundInt (q * 100000) : ℚ) ≠ 0 := by exact_mod_cast h0
          intro h'; apply this; linarith
        rw [if_neg h1, if_neg h0, show (roundInt (q * 100000) : ℚ) / 100000 = roundInt (q * 100000) * (1 / 100000) by ring]
        cases S.rnd (roundInt (q * 100000) * (1 / 100000)) <;> rfl

example : parseFloat ieee (fmtFixed 5 (.fin (1 / 64))) = ieee.rnd (1562 / 100000) ∧
    fmtFixed 5 (.fin (1 / 64)) = "0.01562".toList := by
  constructor
  · rw [C173_reread ieee_lawful]; decide +kernel
  · decide +kernel

/-- **C173.** The text of a row of an order book. Rows that differ by less than the last digit can have the
same text, so `OrderBookRow.String` does not identify a row (unlike `OrderBook.String`, C174). -/
theorem C173_row (pick : ℚ → Nat × ℤ) (eprec : ℤ) (time unixTime : Int → String) (r : Row) :
    r.string (Fmt.go pick eprec time unixTime) = .ok (bytes (String.ofList ("Price: ".toList ++ fmtFixed 3 r.price ++
      ", Volume: ".toList ++ fmtFixed 3 r.volume ++ ", AccumVolume: ".toList ++ fmtFixed 3 r.accum ++ ['\n']))) := by
  unfold Row.string
  congr 2
  apply String.toList_injective
  simp [Fmt.go, String.toList_append]

example (pick : ℚ → Nat × ℤ) (time unixTime : Int → String) :
    (⟨.fin (1 / 4096), .fin 1, .fin 1⟩ : Row).string (Fmt.go pick 21 time unixTime) =
      (⟨.fin (1 / 8192), .fin 1, .fin 1⟩ : Row).string (Fmt.go pick 21 time unixTime) := by
  rw [C173_row, C173_row]
  have : fmtFixed 3 (.fin (1 / 4096)) = fmtFixed 3 (.fin (1 / 8192)) := by decide +kernel
  simp only [this]

end Finmod
