import Verif.Lemmas.Nonneg

/-!
# Gradual underflow: the difference of two different numbers of the format does not vanish
-/

namespace Finmod
open Go

/-- The difference of two different numbers of the format does not round to zero. -/
def Gradual (S : FloatSem) : Prop :=
  ∀ a b : ℚ, S.rnd a = .fin a → S.rnd b = .fin b → b < a → Fl.lt (.fin 0) (S.rnd (a - b)) = true

theorem exact_gradual : Gradual FloatSem.exact := by
  intro a b _ _ h
  simp only [FloatSem.exact_rnd, Fl.lt_fin]
  simpa using h

theorem roundMag_mul {p : ℕ} {emin : ℤ} (q : ℚ) : ∃ n : ℤ, roundMag p emin q = n * pow2 emin := by
  unfold roundMag
  have h : emin ≤ ulpExp p emin q := le_max_right _ _
  obtain ⟨k, hk⟩ := Int.le.dest h
  have : pow2 (ulpExp p emin q) = ((2 ^ k : ℤ) : ℚ) * pow2 emin := by
    rw [pow2_eq, pow2_eq, ← hk, zpow_add₀ (by norm_num)]; push_cast; rw [zpow_natCast]; ring
  refine ⟨roundInt (q / pow2 (ulpExp p emin q)) * 2 ^ k, ?_⟩
  simp only
  rw [this]
  push_cast
  ring

theorem rne_fin_mul {p emax : ℕ} {emin : ℤ} {q r : ℚ} (h : rne p emin emax q = .fin r) :
    ∃ n : ℤ, r = n * pow2 emin := by
  unfold rne at h
  simp only at h
  obtain ⟨n, hn⟩ := roundMag_mul (p := p) (emin := emin) |q|
  split_ifs at h
  · cases h; exact ⟨0, by simp⟩
  · cases h; exact ⟨-n, by rw [hn]; push_cast; ring⟩
  · cases h; exact ⟨n, hn⟩

theorem pow2_emin_le_roundMag {p : ℕ} {emin : ℤ} (hp : 1 ≤ p) {q : ℚ} (h : pow2 emin ≤ q) :
    pow2 emin ≤ roundMag p emin q := by
  have h0 := pow2_pos emin
  refine le_trans (pow2_le_roundMag ?_ (le_refl _)) (roundMag_mono hp h0 h)
  have hlog : Int.log 2 (pow2 emin) = emin := by
    rw [pow2_eq]; exact_mod_cast Int.log_zpow (R := ℚ) (b := 2) (by norm_num) emin
  unfold ulpExp
  rw [hlog]
  have : (1 : ℤ) ≤ p := by exact_mod_cast hp
  omega

theorem rne_gradual {p emax : ℕ} {emin : ℤ} (hp : 1 ≤ p) {a b : ℚ}
    (ha : rne p emin emax a = .fin a) (hb : rne p emin emax b = .fin b) (h : b < a) :
    Fl.lt (.fin 0) (rne p emin emax (a - b)) = true := by
  obtain ⟨n, hn⟩ := rne_fin_mul ha
  obtain ⟨m, hm⟩ := rne_fin_mul hb
  have h0 := pow2_pos emin
  have hlt : m < n := by
    by_contra hc
    have : (n : ℚ) ≤ m := by exact_mod_cast not_lt.1 hc
    have := mul_le_mul_of_nonneg_right this h0.le
    rw [← hn, ← hm] at this
    linarith
  have hge : pow2 emin ≤ a - b := by
    rw [hn, hm, ← sub_mul]
    have : (1 : ℚ) ≤ (n : ℚ) - m := by
      have : m + 1 ≤ n := hlt
      have : ((m + 1 : ℤ) : ℚ) ≤ n := by exact_mod_cast this
      push_cast at this; linarith
    calc pow2 emin = 1 * pow2 emin := (one_mul _).symm
      _ ≤ _ := mul_le_mul_of_nonneg_right this h0.le
  have hr := pow2_emin_le_roundMag hp hge
  rw [rne_pos (by linarith)]
  split_ifs
  · simp [Fl.lt, Fl.isNaN, Fl.key]
  · simp only [Fl.lt_fin, decide_eq_true_eq]; linarith

theorem ieee_gradual : Gradual ieee := fun _ _ ha hb h => rne_gradual (by norm_num) ha hb h

/-- Any two comparable floats of the format: a strictly larger minus a smaller one is positive. -/
theorem sub_gt_pos {S : FloatSem} (hS : Lawful S) (hG : Gradual S) {x y : Fl} (hx : S.Rep x)
    (hy : S.Rep y) (h : Fl.lt y x = true) : Fl.lt (.fin 0) (S.sub x y) = true := by
  have h0 : S.rnd 0 = .fin 0 := by
    have : S.rnd ((0 : ℤ) : ℚ) = .fin ((0 : ℤ) : ℚ) := hS.r64.int 0 (by norm_num)
    simpa using this
  rcases x with _ | (_ | _) | a | _ <;> rcases y with _ | (_ | _) | b | _ <;>
    first
    | (exfalso; revert h; simp [Fl.lt, Fl.isNaN, Fl.key]; done)
    | skip
  · simp [FloatSem.sub, Fl.neg, FloatSem.add, Fl.lt, Fl.isNaN, Fl.key]
  · by_cases hb : b = 0 <;> simp [FloatSem.sub, Fl.neg, FloatSem.add, Fl.lt, Fl.isNaN, Fl.key, hb]
  · simp [FloatSem.sub, Fl.neg, FloatSem.add, Fl.lt, Fl.isNaN, Fl.key]
  · simp [FloatSem.sub, Fl.neg, FloatSem.add, Fl.lt, Fl.isNaN, Fl.key]
  · have hlt : b < a := by simpa using h
    have := hG a b (hx a rfl) (hy b rfl) hlt
    unfold FloatSem.sub
    rcases FloatSem.add_is (S := S) (Fl.is_fin a) (Fl.is_fin b).neg with e | ⟨_, h1, h2⟩
    · rw [e, ← sub_eq_add_neg]; exact this
    · exfalso; linarith
  · have hlt : 0 < a := by simpa [Fl.lt, Fl.isNaN, Fl.key] using h
    have := hG a 0 (hx a rfl) h0 hlt
    rw [sub_zero] at this
    simpa [FloatSem.sub, Fl.neg, FloatSem.add, Fl.toRat] using this
  · simp [FloatSem.sub, Fl.neg, FloatSem.add, Fl.lt, Fl.isNaN, Fl.key]
  · have hlt : b < 0 := by simpa [Fl.lt, Fl.isNaN, Fl.key] using h
    have := hG 0 b h0 (hy b rfl) hlt
    rw [zero_sub] at this
    simpa [FloatSem.sub, Fl.neg, FloatSem.add, Fl.toRat, hlt.ne] using this

end Finmod
