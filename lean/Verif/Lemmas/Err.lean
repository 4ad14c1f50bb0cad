import Mathlib.Data.List.Forall2
import Verif.Lemmas.Gradual
import Verif.Lemmas.Print5
import Verif.Props.IEEE

/-!
# Rounding errors of binary64 operations

`uR = 2^-53` is the unit roundoff, `tiny = 2^-1075` half the smallest positive float64,
`huge = 2^1023`. Sums and differences of floats have no `tiny` part: floats are multiples of
`2^-1074`.
-/

namespace Finmod
open Go

/-- Unit roundoff of float64, 2^-53. -/
def uR : ℚ := 1 / 9007199254740992
/-- Half the smallest positive float64, 2^-1075. -/
def tiny : ℚ := pow2 (-1075)
/-- 2^1023. -/
def huge : ℚ := pow2 1023

theorem uR_pos : 0 < uR := by norm_num [uR]
theorem uR_nonneg : 0 ≤ uR := uR_pos.le
theorem uR_small : uR ≤ 1 / 1000000000000000 := by norm_num [uR]
theorem uR_eq : uR = 2 ^ (-53 : ℤ) := by norm_num [uR]
theorem tiny_eq : tiny = 2 ^ (-1075 : ℤ) := pow2_eq _
theorem huge_eq : huge = 2 ^ (1023 : ℤ) := pow2_eq _
theorem huge_pos : 0 < huge := pow2_pos _
theorem tiny_pos : 0 < tiny := pow2_pos _
theorem tiny_nonneg : 0 ≤ tiny := tiny_pos.le

theorem pow2_add (a b : ℤ) : pow2 (a + b) = pow2 a * pow2 b := by
  rw [pow2_eq, pow2_eq, pow2_eq, zpow_add₀ (by norm_num)]

theorem pow2_le {a b : ℤ} (h : a ≤ b) : pow2 a ≤ pow2 b := by
  rw [pow2_eq, pow2_eq]; exact zpow_le_zpow_right₀ (by norm_num) h

theorem huge_isFloat : IsFloat 53 (-1074) 1024 huge := by
  refine ⟨2 ^ 52, 971, by norm_num, by norm_num, by norm_num, ?_⟩
  rw [huge_eq, show (1023 : ℤ) = 52 + 971 by norm_num, zpow_add₀ (by norm_num)]
  norm_num

attribute [irreducible] tiny huge uR

theorem huge_float : ieee.rnd huge = .fin huge := by
  change rne 53 (-1074) 1024 huge = _
  rw [rne_pos huge_pos, roundMag_float (by norm_num) huge_pos huge_isFloat, if_neg]
  exact not_le.2 (isFloat_lt huge_isFloat)

/-- No overflow up to 2^1023. -/
theorem rnd_finite {q : ℚ} (h : |q| ≤ huge) : ∃ r, (ieee.rnd q).Is r := by
  have h' := abs_le.1 h
  have m1 := ieee_lawful.r64.mono _ _ h'.2
  have m2 := ieee_lawful.r64.mono _ _ h'.1
  have hneg : ieee.rnd (-huge) = .fin (-huge) := by
    rw [ieee_lawful.r64.odd _ huge_pos.ne', huge_float]; simp [Fl.neg, huge_pos.ne']
  rw [huge_float] at m1
  rw [hneg] at m2
  have hn := ieee_lawful.r64.not_nan q
  cases hx : ieee.rnd q with
  | nan => exact absurd hx hn
  | inf b =>
    rw [hx] at m1 m2
    cases b with
    | true => exact absurd m2 (not_le.2 Ext.bot_lt_ofRat)
    | false => exact absurd m1 (not_le.2 Ext.ofRat_lt_top)
  | fin r => exact ⟨r, Fl.is_fin r⟩
  | negZero => exact ⟨0, Fl.is_negZero⟩

theorem rnd_err {q r : ℚ} (h : (ieee.rnd q).Is r) : |r - q| ≤ uR * |q| + tiny := by
  have key : ∀ q r, ieee.rnd q = .fin r → |r - q| ≤ uR * |q| + tiny := by
    intro q r h
    have := C102_error h
    rw [tiny_eq, uR_eq]
    refine this.trans (max_le ?_ ?_)
    · rw [mul_comm]
      have : (0 : ℚ) ≤ 2 ^ (-1075 : ℤ) := zpow_nonneg (by norm_num) _
      linarith
    · have : (0 : ℚ) ≤ 2 ^ (-53 : ℤ) * |q| := mul_nonneg (zpow_nonneg (by norm_num) _) (abs_nonneg _)
      linarith
  rcases h with h | ⟨h, rfl⟩
  · exact key _ _ h
  · have hq : q ≠ 0 := by
      rintro rfl
      have : ieee.rnd ((0 : ℤ) : ℚ) = .fin ((0 : ℤ) : ℚ) := ieee_lawful.r64.int 0 (by norm_num)
      rw [Int.cast_zero, h] at this; cases this
    have ho := ieee_lawful.r64.odd q hq
    rw [h] at ho
    have := key _ _ ho
    rw [abs_neg] at this
    rw [zero_sub, neg_neg] at this
    rwa [zero_sub, abs_neg]

theorem rnd_near {q : ℚ} (h : |q| ≤ huge) : ∃ r, (ieee.rnd q).Is r ∧ |r - q| ≤ uR * |q| + tiny := by
  obtain ⟨r, hr⟩ := rnd_finite h
  exact ⟨r, hr, rnd_err hr⟩

/-- A multiple of 2^-1074. -/
def Grid (q : ℚ) : Prop := ∃ n : ℤ, q = n * pow2 (-1074)

theorem Grid.add {a b : ℚ} (ha : Grid a) (hb : Grid b) : Grid (a + b) := by
  obtain ⟨n, rfl⟩ := ha; obtain ⟨m, rfl⟩ := hb; exact ⟨n + m, by push_cast; ring⟩
theorem Grid.neg {a : ℚ} (ha : Grid a) : Grid (-a) := by
  obtain ⟨n, rfl⟩ := ha; exact ⟨-n, by push_cast; ring⟩
theorem Grid.sub {a b : ℚ} (ha : Grid a) (hb : Grid b) : Grid (a - b) := by
  rw [sub_eq_add_neg]; exact ha.add hb.neg
theorem Grid.zero : Grid 0 := ⟨0, by simp⟩
theorem Grid.int (n : ℤ) : Grid n := by
  refine ⟨n * 2 ^ 1074, ?_⟩
  have : ((2 : ℤ) ^ 1074 : ℤ) * pow2 (-1074) = 1 := by
    rw [pow2_eq]
    push_cast
    rw [show (2 : ℚ) ^ 1074 = 2 ^ (1074 : ℤ) by rw [← zpow_natCast]; rfl, ← zpow_add₀ (by norm_num)]
    simp
  push_cast at this ⊢
  rw [mul_assoc, this, mul_one]

theorem rnd_grid {q r : ℚ} (h : (ieee.rnd q).Is r) : Grid r := by
  rcases h with h | ⟨_, rfl⟩
  · exact rne_fin_mul h
  · exact Grid.zero

/-- Rounding a multiple of the smallest float has relative error only. -/
theorem rnd_err_rel {q r : ℚ} (hg : Grid q) (h : (ieee.rnd q).Is r) : |r - q| ≤ uR * |q| := by
  have key : ∀ q r : ℚ, 0 < q → Grid q → ieee.rnd q = .fin r → |r - q| ≤ uR * |q| := by
    intro q r hq hg h
    change rne 53 (-1074) 1024 q = .fin r at h
    rw [rne_pos hq] at h
    split_ifs at h
    obtain rfl := Fl.fin.inj h
    rcases le_total (Int.log 2 q - ((53 : ℕ) - 1)) (-1074) with hle | hle
    · have e : ulpExp 53 (-1074) q = -1074 := by unfold ulpExp; exact max_eq_right hle
      obtain ⟨n, hn⟩ := hg
      have := roundMag_of_mul (p := 53) (emin := -1074) (q := q) (n := n) (by rw [e]; exact hn)
      rw [this, sub_self, abs_zero]
      exact mul_nonneg uR_nonneg (abs_nonneg _)
    · have e : ulpExp 53 (-1074) q = Int.log 2 q - ((53 : ℕ) - 1) := by unfold ulpExp; exact max_eq_left hle
      refine (roundMag_err q).trans ?_
      rw [e, uR_eq, abs_of_pos hq]
      have := log_le hq
      rw [pow2_eq] at this ⊢
      calc (2 : ℚ) ^ (Int.log 2 q - ((53 : ℕ) - 1)) / 2 = 2 ^ (-53 : ℤ) * 2 ^ Int.log 2 q := by
            rw [← zpow_add₀ (by norm_num), show -53 + Int.log 2 q = (Int.log 2 q - ((53 : ℕ) - 1)) - 1 by push_cast; ring,
              zpow_sub_one₀ (by norm_num)]
            ring
        _ ≤ 2 ^ (-53 : ℤ) * q := mul_le_mul_of_nonneg_left this (zpow_nonneg (by norm_num) _)
  rcases lt_trichotomy q 0 with hq | hq | hq
  · have ho := ieee_lawful.r64.odd q hq.ne
    have hfin : ∃ r', ieee.rnd (-q) = .fin r' ∧ r' = -r := by
      rcases h with h | ⟨h, rfl⟩
      · rw [h] at ho
        by_cases hr : r = 0
        · subst hr
          rw [show Fl.neg (.fin 0) = .negZero by simp [Fl.neg]] at ho
          exact absurd ho (ieee_lawful.r64.pos _ (by linarith))
        · exact ⟨-r, by rw [ho]; simp [Fl.neg, hr], rfl⟩
      · rw [h] at ho
        exact ⟨0, ho, by simp⟩
    obtain ⟨r', h1, rfl⟩ := hfin
    have := key (-q) _ (by linarith) hg.neg h1
    rw [abs_neg] at this
    rw [← abs_neg]
    have e : -(r - q) = -r - -q := by ring
    rwa [e]
  · subst hq
    have : ieee.rnd ((0 : ℤ) : ℚ) = .fin ((0 : ℤ) : ℚ) := ieee_lawful.r64.int 0 (by norm_num)
    rw [Int.cast_zero] at this
    rw [this] at h
    rw [Fl.is_fin_iff] at h
    subst h
    simp
  · rcases h with h | ⟨h, rfl⟩
    · exact key q r hq hg h
    · exact absurd h (ieee_lawful.r64.pos _ hq)

theorem rnd_near_rel {q : ℚ} (hg : Grid q) (h : |q| ≤ huge) :
    ∃ r, (ieee.rnd q).Is r ∧ Grid r ∧ |r - q| ≤ uR * |q| := by
  obtain ⟨r, hr⟩ := rnd_finite h
  exact ⟨r, hr, rnd_grid hr, rnd_err_rel hg hr⟩

/-- `x` is a float64 with value `a`. -/
def IsF (x : Fl) (a : ℚ) : Prop := x.Is a ∧ Grid a

theorem IsF.is {x : Fl} {a : ℚ} (h : IsF x a) : x.Is a := h.1
theorem IsF.grid {x : Fl} {a : ℚ} (h : IsF x a) : Grid a := h.2

theorem isF_of_rep {x : Fl} {a : ℚ} (h : x.Is a) (hr : ieee.Rep x) : IsF x a := by
  refine ⟨h, ?_⟩
  rcases h with h | ⟨_, rfl⟩
  · exact rnd_grid (Fl.Is.unique (Fl.is_fin a) (Fl.is_fin a) ▸ (hr a h ▸ Fl.is_fin a))
  · exact Grid.zero

theorem isF_zero : IsF (.fin 0) 0 := ⟨Fl.is_fin 0, Grid.zero⟩

theorem isF_int {n : ℤ} (h : |n| ≤ 2 ^ 53) : IsF (ieee.ofInt n) n := by
  have := ieee_lawful.r64.int n h
  refine ⟨?_, Grid.int n⟩
  rw [FloatSem.ofInt, this]; exact Fl.is_fin _

theorem isF_neg {x : Fl} {a : ℚ} (h : IsF x a) : IsF x.neg (-a) := ⟨h.1.neg, h.2.neg⟩

theorem add_near {x y : Fl} {a b : ℚ} (hx : IsF x a) (hy : IsF y b) (h : |a + b| ≤ huge) :
    ∃ r, IsF (ieee.add x y) r ∧ |r - (a + b)| ≤ uR * |a + b| := by
  rcases FloatSem.add_is (S := ieee) hx.1 hy.1 with e | ⟨e, rfl, rfl⟩
  · obtain ⟨r, h1, h2, h3⟩ := rnd_near_rel (hx.2.add hy.2) h
    exact ⟨r, ⟨by rw [e]; exact h1, h2⟩, h3⟩
  · exact ⟨0, ⟨by rw [e]; exact Fl.is_negZero, Grid.zero⟩, by simp⟩

theorem sub_near {x y : Fl} {a b : ℚ} (hx : IsF x a) (hy : IsF y b) (h : |a - b| ≤ huge) :
    ∃ r, IsF (ieee.sub x y) r ∧ |r - (a - b)| ≤ uR * |a - b| := by
  rw [sub_eq_add_neg] at *
  exact add_near hx (isF_neg hy) h

theorem mul_near {x y : Fl} {a b : ℚ} (hx : x.Is a) (hy : y.Is b) (h : |a * b| ≤ huge) :
    ∃ r, IsF (ieee.mul x y) r ∧ |r - a * b| ≤ uR * |a * b| + tiny := by
  rcases FloatSem.mul_is (S := ieee) hx hy with ⟨_, e⟩ | ⟨h0, e⟩
  · obtain ⟨r, h1, h2⟩ := rnd_near h
    exact ⟨r, ⟨by rw [e]; exact h1, rnd_grid h1⟩, h2⟩
  · refine ⟨0, ⟨e, Grid.zero⟩, ?_⟩
    rw [h0]
    simp [tiny_nonneg]

theorem div_near {x y : Fl} {a b : ℚ} (hx : x.Is a) (hy : y.Is b) (hb : b ≠ 0) (h : |a / b| ≤ huge) :
    ∃ r, IsF (ieee.div x y) r ∧ |r - a / b| ≤ uR * |a / b| + tiny := by
  rcases FloatSem.div_is (S := ieee) hx hy hb with ⟨_, e⟩ | ⟨h0, e⟩
  · obtain ⟨r, h1, h2⟩ := rnd_near h
    exact ⟨r, ⟨by rw [e]; exact h1, rnd_grid h1⟩, h2⟩
  · refine ⟨0, ⟨e, Grid.zero⟩, ?_⟩
    rw [h0]
    simp [tiny_nonneg]

/-! ### Sums -/

theorem sum_near_aux {xs : List Fl} {as : List ℚ} (hx : List.Forall₂ IsF xs as) :
    ∀ (acc : Fl) (s t B : ℚ) (k : ℕ), IsF acc s → |s - t| ≤ 2 * k * uR * B → |t| ≤ B →
      2 * ((k + xs.length : ℕ) : ℚ) * uR ≤ 1 → 2 * (B + (as.map abs).sum) ≤ huge →
      ∃ r, IsF (xs.foldl ieee.add acc) r ∧
        |r - (t + as.sum)| ≤ 2 * ((k + xs.length : ℕ) : ℚ) * uR * (B + (as.map abs).sum) := by
  induction hx with
  | nil => intro acc s t B k ha hs _ _ _; exact ⟨s, ha, by simpa using hs⟩
  | @cons x a xs as hxa hrest ih =>
    intro acc s t B k ha hs ht hk hB
    simp only [List.length_cons, List.map_cons, List.sum_cons, List.foldl_cons] at hk hB ⊢
    have hsum : 0 ≤ (as.map abs).sum := List.sum_nonneg (by
      intro y hy; obtain ⟨z, _, rfl⟩ := List.mem_map.1 hy; exact abs_nonneg z)
    have ha0 := abs_nonneg a
    have hB0 : 0 ≤ B := (abs_nonneg t).trans ht
    have hu := uR_pos
    have hk0 : (0 : ℚ) ≤ k := by positivity
    have hkl : 2 * (k : ℚ) * uR ≤ 1 := by
      refine le_trans ?_ hk
      have : (k : ℚ) ≤ ((k + (xs.length + 1) : ℕ) : ℚ) := by exact_mod_cast Nat.le_add_right _ _
      nlinarith
    have b1 : |t + a| ≤ B + |a| := (abs_add_le _ _).trans (by linarith)
    have b2 : 2 * (k : ℚ) * uR * B ≤ B := by nlinarith
    have b3 : |s + a| ≤ (B + |a|) + 2 * k * uR * B := by
      have e : s + a = (t + a) + (s - t) := by ring
      rw [e]
      exact (abs_add_le _ _).trans (by linarith)
    obtain ⟨s', hs', he⟩ := add_near ha hxa (b3.trans (by linarith))
    have step : |s' - (t + a)| ≤ 2 * ((k + 1 : ℕ) : ℚ) * uR * (B + |a|) := by
      have e : s' - (t + a) = (s' - (s + a)) + (s - t) := by ring
      rw [e]
      refine (abs_add_le _ _).trans ?_
      have c1 : uR * |s + a| ≤ uR * (2 * (B + |a|)) := mul_le_mul_of_nonneg_left (by linarith) hu.le
      have c2 : 2 * (k : ℚ) * uR * B ≤ 2 * k * uR * (B + |a|) :=
        mul_le_mul_of_nonneg_left (by linarith) (by positivity)
      push_cast
      nlinarith
    have := ih (ieee.add acc x) s' (t + a) (B + |a|) (k + 1) hs' step b1
      (by rw [show k + 1 + xs.length = k + (xs.length + 1) by ring]; exact hk)
      (by linarith)
    obtain ⟨r, hr, hrr⟩ := this
    refine ⟨r, hr, ?_⟩
    rw [show k + 1 + xs.length = k + (xs.length + 1) by ring] at hrr
    rw [add_assoc t, add_assoc B] at hrr
    exact hrr

/-- A float sum from zero: relative error of the total magnitude at most `2 n 2^-53`. -/
theorem sum_near {xs : List Fl} {as : List ℚ} (hx : List.Forall₂ IsF xs as)
    (hn : 2 * (xs.length : ℚ) * uR ≤ 1) (hB : 2 * (as.map abs).sum ≤ huge) :
    ∃ r, IsF (xs.foldl ieee.add (.fin 0)) r ∧ |r - as.sum| ≤ 2 * (xs.length : ℚ) * uR * (as.map abs).sum := by
  have := sum_near_aux hx (.fin 0) 0 0 0 0 isF_zero (by simp) (by simp) (by simpa using hn) (by simpa using hB)
  simpa using this

theorem sum_abs_le {as : List ℚ} {M : ℚ} (h : ∀ a ∈ as, |a| ≤ M) : (as.map abs).sum ≤ as.length * M := by
  induction as with
  | nil => simp
  | cons a as ih =>
    have h1 := h a (by simp)
    have h2 := ih (fun x hx => h x (by simp [hx]))
    simp only [List.map_cons, List.sum_cons, List.length_cons]
    push_cast
    linarith

theorem abs_sum_le (as : List ℚ) : |as.sum| ≤ (as.map abs).sum := by
  induction as with
  | nil => simp
  | cons a as ih => simp only [List.map_cons, List.sum_cons]; exact (abs_add_le _ _).trans (by linarith)

/-- Error of a product of approximations. -/
theorem mul_err {a a' b b' ea eb A B : ℚ} (ha : |a' - a| ≤ ea) (hb : |b' - b| ≤ eb) (hA : |a'| ≤ A)
    (hB : |b| ≤ B) : |a' * b' - a * b| ≤ A * eb + B * ea := by
  have e : a' * b' - a * b = a' * (b' - b) + b * (a' - a) := by ring
  rw [e]
  refine (abs_add_le _ _).trans ?_
  rw [abs_mul, abs_mul]
  exact add_le_add (mul_le_mul hA hb (abs_nonneg _) ((abs_nonneg _).trans hA))
    (mul_le_mul hB ha (abs_nonneg _) ((abs_nonneg _).trans hB))

end Finmod
