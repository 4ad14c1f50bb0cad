import Verif.Go.IEEE

/-!
# Non-negative floats: sums, products and differences under rounding
-/

namespace Finmod
open Go

theorem rnd_nonneg {S : FloatSem} (hS : Lawful S) {q : ℚ} (h : 0 ≤ q) :
    Fl.le (.fin 0) (S.rnd q) = true := by
  have := hS.r64.mono 0 q h
  have h0 : S.rnd ((0 : ℤ) : ℚ) = .fin ((0 : ℤ) : ℚ) := hS.r64.int 0 (by norm_num)
  rw [Int.cast_zero] at h0
  rw [h0] at this
  exact Fl.le_iff.2 ⟨by simp, hS.r64.not_nan q, this⟩

theorem is_nonneg {x : Fl} {a : ℚ} (h : x.Is a) (ha : 0 ≤ a) : Fl.le (.fin 0) x = true := by
  rw [(Fl.is_fin 0).le h]; simpa using ha

theorem nonneg_cases {x : Fl} (h : Fl.le (.fin 0) x = true) :
    x = .inf false ∨ ∃ a, x.Is a ∧ 0 ≤ a := by
  cases x with
  | nan => simp [Fl.le, Fl.isNaN] at h
  | inf b => cases b with
    | true => simp [Fl.le, Fl.isNaN, Fl.key] at h
    | false => exact .inl rfl
  | fin q => exact .inr ⟨q, Fl.is_fin q, by simpa using h⟩
  | negZero => exact .inr ⟨0, Fl.is_negZero, le_refl _⟩

theorem add_nonneg_fl {S : FloatSem} (hS : Lawful S) {x y : Fl} (hx : Fl.le (.fin 0) x = true)
    (hy : Fl.le (.fin 0) y = true) : Fl.le (.fin 0) (S.add x y) = true := by
  rcases nonneg_cases hx with rfl | ⟨a, ha, ha0⟩
  · rcases nonneg_cases hy with rfl | ⟨b, hb, hb0⟩
    · simp [FloatSem.add, Fl.le, Fl.isNaN, Fl.key]
    · cases y <;> simp_all [FloatSem.add, Fl.le, Fl.isNaN, Fl.key]
  · rcases nonneg_cases hy with rfl | ⟨b, hb, hb0⟩
    · cases x <;> simp_all [FloatSem.add, Fl.le, Fl.isNaN, Fl.key]
    · rcases FloatSem.add_is (S := S) ha hb with h | ⟨h, _, _⟩
      · rw [h]; exact rnd_nonneg hS (by linarith)
      · rw [h]; exact is_nonneg Fl.is_negZero (le_refl _)

theorem mul_nonneg_fl {S : FloatSem} (hS : Lawful S) {x y : Fl} {a : ℚ} (hx : x.Is a) (ha : 0 ≤ a)
    (hy : Fl.le (.fin 0) y = true) (h0 : a = 0 → y.isFinite = true) :
    Fl.le (.fin 0) (S.mul x y) = true := by
  rcases nonneg_cases hy with rfl | ⟨b, hb, hb0⟩
  · have ha' : a ≠ 0 := fun h => by simpa [Fl.isFinite] using h0 h
    cases x with
    | fin q =>
      simp only [Fl.is_fin_iff] at hx
      subst hx
      have : ¬ q < 0 := not_lt.2 ha
      simp [FloatSem.mul, Fl.isZero, ha', Fl.sgn, this, Fl.le, Fl.isNaN, Fl.key]
    | negZero => simp at hx; exact absurd hx ha'
    | _ => simp at hx
  · rcases FloatSem.mul_is (S := S) hx hb with ⟨_, h⟩ | ⟨_, h⟩
    · rw [h]; exact rnd_nonneg hS (mul_nonneg ha hb0)
    · exact is_nonneg h (le_refl _)

theorem sub_rep {S : FloatSem} (hS : Lawful S) {x y : Fl} {a b : ℚ} (hx : x.Is a) (hy : y.Is b) :
    ∀ q, S.sub x y = .fin q → S.rnd q = .fin q := by
  intro q h
  unfold FloatSem.sub at h
  rcases FloatSem.add_is (S := S) hx hy.neg with h' | ⟨h', _, _⟩
  · rw [h'] at h; exact hS.r64.idem _ _ h
  · rw [h'] at h; cases h

theorem sub_ge_nonneg {S : FloatSem} (hS : Lawful S) {x y : Fl} (hx : x.isFinite = true)
    (hy : y.isFinite = true) (h : Fl.le y x = true) : Fl.le (.fin 0) (S.sub x y) = true := by
  have hx := Fl.isFinite_is hx
  have hy := Fl.isFinite_is hy
  rw [hy.le hx] at h
  have h : y.toRat ≤ x.toRat := by simpa using h
  unfold FloatSem.sub
  rcases FloatSem.add_is (S := S) hx hy.neg with h' | ⟨h', _, _⟩
  · rw [h']; exact rnd_nonneg hS (by linarith)
  · rw [h']; exact is_nonneg Fl.is_negZero (le_refl _)

theorem rnd_one {S : FloatSem} (hS : Lawful S) : S.rnd 1 = .fin 1 := by
  have : S.rnd ((1 : ℤ) : ℚ) = .fin ((1 : ℤ) : ℚ) := hS.r64.int 1 (by norm_num)
  simpa using this

end Finmod
