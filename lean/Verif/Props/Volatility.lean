import Mathlib.Algebra.BigOperators.Group.Finset.Basic
import Mathlib.Algebra.BigOperators.Ring.Finset
import Mathlib.Algebra.BigOperators.Intervals
import Mathlib.Tactic.Positivity
import Verif.Model.Averages
import Verif.Lemmas.Nonneg

/-!
# Exponential weighted volatility (C74, C75)
-/

namespace Finmod
open Go

/-- High and low of every candle are finite. -/
def Spec.FiniteRanges (cs : List Candle) : Prop :=
  ∀ c ∈ cs, c.high.isFinite = true ∧ c.low.isFinite = true

/-- The exact range of a candle. -/
def Spec.rangeOf (c : Candle) : ℚ := c.high.toRat - c.low.toRat

theorem ewvStep_exact {beta v : Fl} {b x : ℚ} (hb : beta.Is b) (hv : v.Is x) {c : Candle}
    (h1 : c.high.isFinite = true) (h2 : c.low.isFinite = true) :
    (ewvStep FloatSem.exact beta v c).Is (b * x + (1 - b) * Spec.rangeOf c) :=
  FloatSem.exact_add (FloatSem.exact_mul hb hv)
    (FloatSem.exact_mul (FloatSem.exact_sub (FloatSem.exact_const 1) hb)
      (FloatSem.exact_sub (Fl.isFinite_is h1) (Fl.isFinite_is h2)))

/-- **C74.** In exact arithmetic the volatility of `n` candles is
`Σ_{i<n} (1-beta) * beta^(n-1-i) * (high_i - low_i)`. -/
theorem C74_weighted_sum {cs : List Candle} (hf : Spec.FiniteRanges cs) {beta : Fl} {b : ℚ}
    (hb : beta.Is b) :
    (exponentialWeightedVolatility FloatSem.exact cs beta).Is
      (∑ i ∈ Finset.range cs.length,
        (1 - b) * b ^ (cs.length - 1 - i) * (cs.map Spec.rangeOf).getD i 0) := by
  unfold exponentialWeightedVolatility
  induction cs using List.reverseRecOn with
  | nil => simp
  | append_singleton cs c ih =>
    have ih := ih (fun c hc => hf c (by simp [hc]))
    obtain ⟨h1, h2⟩ := hf c (by simp)
    rw [List.foldl_append]
    have := ewvStep_exact hb ih h1 h2
    simp only [List.foldl_cons, List.foldl_nil]
    convert this using 1
    rw [List.length_append, List.length_singleton, Finset.sum_range_succ, Finset.mul_sum]
    congr 1
    · apply Finset.sum_congr rfl
      intro i hi
      rw [Finset.mem_range] at hi
      have e : cs.length + 1 - 1 - i = (cs.length - 1 - i) + 1 := by omega
      have e2 : (List.map Spec.rangeOf (cs ++ [c])).getD i 0 = (List.map Spec.rangeOf cs).getD i 0 := by
        simp [List.getD_eq_getElem?_getD, List.getElem?_append_left, hi]
      rw [e, e2, pow_succ]
      ring
    · simp

/-- A candle with a high and a low. -/
def exRange (h l : ℚ) : Candle := ⟨0, .fin l, .fin h, .fin l, .fin h, .fin 0⟩

example : Spec.FiniteRanges [exRange 5 1, exRange 8 2] ∧ (Fl.fin (1/2)).Is (1/2) ∧
    exponentialWeightedVolatility FloatSem.exact [exRange 5 1, exRange 8 2] (.fin (1/2)) = .fin 4 := by
  refine ⟨?_, Fl.is_fin _, by decide +kernel⟩
  intro c hc
  simp only [List.mem_cons, List.not_mem_nil, or_false] at hc
  rcases hc with rfl | rfl <;> decide

/-! ### C75 -/

/-- What holds of the running value. -/
def EwvInv (b : ℚ) (v : Fl) : Prop :=
  Fl.le (.fin 0) v = true ∧ (b = 0 → v.isFinite = true)

theorem ewvStep_inv {S : FloatSem} (hS : Lawful S) {beta v : Fl} {b : ℚ} (hb : beta.Is b)
    (h0 : 0 ≤ b) (h1 : b ≤ 1) {c : Candle} (hh : c.high.isFinite = true) (hl : c.low.isFinite = true)
    (hge : Fl.le c.low c.high = true) (hr : (S.sub c.high c.low).isFinite = true)
    (hv : EwvInv b v) : EwvInv b (ewvStep S beta v c) := by
  obtain ⟨hv1, hv2⟩ := hv
  have hrng := sub_ge_nonneg hS hh hl hge
  have hw : ∃ w, (S.sub (S.const 1) beta).Is w ∧ 0 ≤ w ∧ (b = 0 → w = 1) := by
    have h1' : (S.const 1).Is 1 := by
      unfold FloatSem.const; rw [rnd_one hS]; exact Fl.is_fin 1
    unfold FloatSem.sub
    rcases FloatSem.add_is (S := S) h1' hb.neg with h | ⟨_, h, _⟩
    · rw [h]
      have hlo := rnd_nonneg hS (q := 1 + -b) (by linarith)
      have hhi := hS.r64.mono (1 + -b) 1 (by linarith)
      rw [rnd_one hS] at hhi
      rcases nonneg_cases hlo with he | ⟨w, hw, hw0⟩
      · rw [he] at hhi; simp [Fl.key] at hhi
      · refine ⟨w, hw, hw0, ?_⟩
        rintro rfl
        rw [neg_zero, add_zero, rnd_one hS] at hw
        exact (Fl.is_fin_iff.1 hw).symm
    · norm_num at h
  obtain ⟨w, hw, hw0, hw1⟩ := hw
  unfold ewvStep
  constructor
  · exact add_nonneg_fl hS (mul_nonneg_fl hS hb h0 hv1 hv2) (mul_nonneg_fl hS hw hw0 hrng (fun _ => hr))
  · intro hb0
    have hw2 := hw1 hb0
    subst hb0 hw2
    have hvz : (S.mul beta v).Is 0 := by
      rcases FloatSem.mul_is (S := S) hb (Fl.isFinite_is (hv2 rfl)) with ⟨h, _⟩ | ⟨_, h⟩
      · simp at h
      · exact h
    have hrep := sub_rep hS (Fl.isFinite_is hh) (Fl.isFinite_is hl)
    generalize S.sub c.high c.low = r at *
    have hmul : ∃ q, (S.mul (S.sub (S.const 1) beta) r).Is q ∧ (S.rnd q).isFinite = true := by
      rcases FloatSem.mul_is (S := S) hw (Fl.isFinite_is hr) with ⟨h, e⟩ | ⟨_, h⟩
      · rw [one_mul] at e h
        cases r with
        | fin q =>
          simp only [Fl.toRat] at e
          have := hrep q rfl
          rw [e, this]
          exact ⟨q, Fl.is_fin q, by rw [this]; rfl⟩
        | _ => simp [Fl.toRat] at h
      · have h0' : S.rnd ((0 : ℤ) : ℚ) = .fin ((0 : ℤ) : ℚ) := hS.r64.int 0 (by norm_num)
        rw [Int.cast_zero] at h0'
        exact ⟨0, h, by rw [h0']; rfl⟩
    obtain ⟨q, hq, hq'⟩ := hmul
    rcases FloatSem.add_is (S := S) hvz hq with h | ⟨h, _, _⟩
    · rw [h, zero_add]; exact hq'
    · rw [h]; rfl

/-- **C75.** In every lawful float semantics (binary64 included), for `0 ≤ beta ≤ 1` and candles
with finite `high ≥ low` whose range `high - low` does not overflow, the result is a number
`≥ 0` (not NaN). -/
theorem C75_nonneg {S : FloatSem} (hS : Lawful S) {cs : List Candle} {beta : Fl}
    (hb0 : Fl.le (.fin 0) beta = true) (hb1 : Fl.le beta (.fin 1) = true)
    (hc : ∀ c ∈ cs, c.high.isFinite = true ∧ c.low.isFinite = true ∧ Fl.le c.low c.high = true ∧
      (S.sub c.high c.low).isFinite = true) :
    Fl.le (.fin 0) (exponentialWeightedVolatility S cs beta) = true ∧
      exponentialWeightedVolatility S cs beta ≠ .nan := by
  have hb : ∃ b, beta.Is b ∧ 0 ≤ b ∧ b ≤ 1 := by
    rcases nonneg_cases hb0 with rfl | ⟨b, hb, h0⟩
    · simp [Fl.le, Fl.isNaN, Fl.key] at hb1
    · refine ⟨b, hb, h0, ?_⟩
      rw [hb.le (Fl.is_fin 1)] at hb1
      simpa using hb1
  obtain ⟨b, hb, h0, h1⟩ := hb
  have : ∀ (l : List Candle) (v : Fl), (∀ c ∈ l, c ∈ cs) → EwvInv b v →
      EwvInv b (l.foldl (ewvStep S beta) v) := by
    intro l
    induction l with
    | nil => intro v _ hv; exact hv
    | cons c l ih =>
      intro v hl hv
      obtain ⟨a1, a2, a3, a4⟩ := hc c (hl c (by simp))
      exact ih _ (fun c hc => hl c (by simp [hc])) (ewvStep_inv hS hb h0 h1 a1 a2 a3 a4 hv)
  have := this cs (.fin 0) (fun _ h => h) ⟨by decide, fun _ => rfl⟩
  refine ⟨this.1, ?_⟩
  have h := this.1
  rintro e
  unfold exponentialWeightedVolatility at e
  rw [e] at h
  simp [Fl.le, Fl.isNaN] at h

/-- **C75.** For binary64 itself. -/
theorem C75_nonneg_ieee {cs : List Candle} {beta : Fl}
    (hb0 : Fl.le (.fin 0) beta = true) (hb1 : Fl.le beta (.fin 1) = true)
    (hc : ∀ c ∈ cs, c.high.isFinite = true ∧ c.low.isFinite = true ∧ Fl.le c.low c.high = true ∧
      (ieee.sub c.high c.low).isFinite = true) :
    Fl.le (.fin 0) (exponentialWeightedVolatility ieee cs beta) = true ∧
      exponentialWeightedVolatility ieee cs beta ≠ .nan :=
  C75_nonneg ieee_lawful hb0 hb1 hc

example : ∀ c ∈ [exRange 5 1, exRange (17/2) 2], c.high.isFinite = true ∧ c.low.isFinite = true ∧
    Fl.le c.low c.high = true ∧ (ieee.sub c.high c.low).isFinite = true := by decide +kernel

/-- **C75.** In exact arithmetic the result is at most the largest range: it is bounded by every
non-negative bound of the ranges. -/
theorem C75_bounded_exact {cs : List Candle} (hf : Spec.FiniteRanges cs) {beta : Fl} {b M : ℚ}
    (hb : beta.Is b) (h0 : 0 ≤ b) (h1 : b ≤ 1) (hM : 0 ≤ M) (hle : ∀ c ∈ cs, Spec.rangeOf c ≤ M) :
    ∃ v, (exponentialWeightedVolatility FloatSem.exact cs beta).Is v ∧ v ≤ M := by
  unfold exponentialWeightedVolatility
  have : ∀ (l : List Candle) (v : Fl) (x : ℚ), (∀ c ∈ l, c ∈ cs) → v.Is x → x ≤ M →
      ∃ y, (l.foldl (ewvStep FloatSem.exact beta) v).Is y ∧ y ≤ M := by
    intro l
    induction l with
    | nil => intro v x _ hv hx; exact ⟨x, hv, hx⟩
    | cons c l ih =>
      intro v x hl hv hx
      obtain ⟨a1, a2⟩ := hf c (hl c (by simp))
      have hr := hle c (hl c (by simp))
      exact ih _ _ (fun c hc => hl c (by simp [hc])) (ewvStep_exact hb hv a1 a2) (by nlinarith)
  exact this cs _ 0 (fun _ h => h) (Fl.is_fin 0) hM

/-- The non-overflow condition of C75 is needed: with an infinite range and `beta = 1` the code
computes `0 * Inf = NaN`. -/
theorem C75_overflow_needed : ∃ c : Candle, c.high.isFinite = true ∧ c.low.isFinite = true ∧
    Fl.le c.low c.high = true ∧ ieee.Rep c.high ∧ ieee.Rep c.low ∧
    exponentialWeightedVolatility ieee [c] (.fin 1) = .nan := by
  refine ⟨exRange ((2^53 - 1) * 2^971) (-((2^53 - 1) * 2^971)), rfl, rfl, by decide +kernel, ?_, ?_,
    by decide +kernel⟩
  · intro q h; cases h; decide +kernel
  · intro q h; cases h; decide +kernel

end Finmod
