import Verif.Lemmas.Sort

/-!
The two index computations of market/orderbook.go that go through float64 and that the model carries out
on integers. For slices shorter than 2^53 they give the same number.
-/

namespace Finmod
open Go

/-- market/orderbook.go:102 and 121, `int(math.Min(float64(i+1), float64(len-1)))`. -/
theorem startIndex_float {S : FloatSem} (hS : Lawful S) {i len : Nat} (hi : i < len) (hl : len < 2 ^ 53) :
    S.toInt (mathMin (S.ofInt ((i : Int) + 1)) (S.ofInt ((len : Int) - 1))) = (min (i + 1) (len - 1) : Nat) := by
  have h := depthCut_eq hS (len := i + 1) (d := (len : Int) - 1) (by omega) (by omega)
  unfold depthCut at h
  push_cast at h ⊢
  rw [h]
  omega

/-- market/orderbook.go:270 and 279, `int(math.Max(0, float64(k-1)))`. -/
theorem depthIndex_float {S : FloatSem} (hS : Lawful S) {k : Nat} (hk : k < 2 ^ 53) :
    S.toInt (mathMax (.fin 0) (S.ofInt ((k : Int) - 1))) = (k - 1 : Nat) := by
  have hti : ∀ n : Int, 0 ≤ n → n < 2 ^ 53 → S.toInt (.fin (n : ℚ)) = n := by
    intro n h0 h2
    unfold FloatSem.toInt
    simp only [Int.floor_intCast, Int.ceil_intCast, ite_self]
    rw [if_pos (by omega)]
  have h1 : S.ofInt ((k : Int) - 1) = .fin (((k : Int) - 1 : Int) : ℚ) :=
    rnd_ofInt hS (by rw [abs_le]; constructor <;> omega)
  have h0 : S.toInt (.fin 0) = 0 := by simpa using hti 0 (by omega) (by omega)
  rw [h1]
  rcases Nat.lt_trichotomy k 1 with h | h | h
  · have : k = 0 := by omega
    subst this
    simpa [mathMax, Fl.isZero, Fl.lt_fin] using h0
  · subst h
    simpa [mathMax, Fl.isZero, Fl.sgn] using h0
  · have hq : (0 : ℚ) < (((k : Int) - 1 : Int) : ℚ) := by exact_mod_cast (by omega : (0 : Int) < (k : Int) - 1)
    unfold mathMax
    have hz : ¬ (Fl.isZero (.fin 0) = true ∧ Fl.isZero (.fin (((k : Int) - 1 : Int) : ℚ)) = true) := by
      rintro ⟨_, hb⟩
      simp only [Fl.isZero, decide_eq_true_eq] at hb
      exact hq.ne' (by simpa using hb)
    rw [if_neg (by simp), if_neg (by simp), if_neg hz, if_neg (by simp only [Fl.lt_fin, decide_eq_true_eq]; linarith),
      hti _ (by omega) (by omega)]
    omega

example : FloatSem.exact.toInt (mathMin (FloatSem.exact.ofInt 3) (FloatSem.exact.ofInt 2)) = 2 := by decide +kernel

end Finmod
