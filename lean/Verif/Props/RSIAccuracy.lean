import Verif.Props.Accuracy
import Verif.Props.RSI

/-!
# Accuracy of the RSI (C110)

The RSI computed in float64 and stored as float32 is within 0.00001 of Cutler's ratio.
-/

namespace Finmod
open Go Spec

/-! ### The two sums -/

theorem moves_cons {α : Type} (a b : α) (l : List α) :
    (a :: b :: l).zip (a :: b :: l).tail = (a, b) :: (b :: l).zip (b :: l).tail := rfl

theorem rises_near {fs : List Fl} {xs : List ℚ} (h : List.Forall₂ IsF fs xs) {M : ℚ}
    (hM : ∀ x ∈ xs, |x| ≤ M) (hbig : 2 * M ≤ huge) :
    (∃ as, List.Forall₂ IsF (rises ieee fs) as ∧ (as.map abs).sum ≤ (1 + uR) * riseQ xs ∧
      |as.sum - riseQ xs| ≤ uR * riseQ xs ∧ (rises ieee fs).length ≤ fs.length - 1) ∧
    (∃ as, List.Forall₂ IsF (falls ieee fs) as ∧ (as.map abs).sum ≤ (1 + uR) * fallQ xs ∧
      |as.sum - fallQ xs| ≤ uR * fallQ xs ∧ (falls ieee fs).length ≤ fs.length - 1) := by
  have hu := uR_pos
  induction h with
  | nil =>
    exact ⟨⟨[], .nil, by simp [riseQ], by simp [riseQ], by simp [rises, moves]⟩,
      ⟨[], .nil, by simp [fallQ], by simp [fallQ], by simp [falls, moves]⟩⟩
  | @cons f x fs xs hfx hrest ih =>
    cases hrest with
    | nil =>
      exact ⟨⟨[], .nil, by simp [riseQ], by simp [riseQ], by simp [rises, moves]⟩,
        ⟨[], .nil, by simp [fallQ], by simp [fallQ], by simp [falls, moves]⟩⟩
    | @cons g y gs ys hgy hrest =>
      obtain ⟨⟨as, r1, r2, r3, r4⟩, ⟨bs, s1, s2, s3, s4⟩⟩ := ih (fun z hz => hM z (by simp at hz ⊢; tauto))
      have hx := hM x (by simp)
      have hy := hM y (by simp)
      have hd : |y - x| ≤ huge := (abs_sub _ _).trans (by linarith)
      have hd' : |x - y| ≤ huge := (abs_sub _ _).trans (by linarith)
      have eR : riseQ (x :: y :: ys) = max (y - x) 0 + riseQ (y :: ys) := by
        unfold riseQ; rw [moves_cons]; rfl
      have eF : fallQ (x :: y :: ys) = max (x - y) 0 + fallQ (y :: ys) := by
        unfold fallQ; rw [moves_cons]; rfl
      have lt1 := hfx.1.lt hgy.1
      have lt2 := hgy.1.lt hfx.1
      have hRn := riseQ_nonneg (y :: ys)
      have hFn := fallQ_nonneg (y :: ys)
      rw [eR, eF]
      rcases lt_trichotomy x y with hc | hc | hc
      · have e1 : rises ieee (f :: g :: gs) = ieee.sub g f :: rises ieee (g :: gs) := by
          simp [rises, moves, lt1, hc]
        have e2 : falls ieee (f :: g :: gs) = falls ieee (g :: gs) := by
          simp [falls, moves, lt2, not_lt.2 hc.le]
        obtain ⟨d, hd1, hd2⟩ := sub_near hgy hfx hd
        rw [abs_of_pos (by linarith : 0 < y - x)] at hd2
        have hmax : max (y - x) 0 = y - x := max_eq_left (by linarith)
        have hmax' : max (x - y) 0 = 0 := max_eq_right (by linarith)
        rw [e1, e2, hmax, hmax', zero_add]
        refine ⟨⟨d :: as, .cons hd1 r1, ?_, ?_, ?_⟩, ⟨bs, s1, s2, s3, ?_⟩⟩
        · simp only [List.map_cons, List.sum_cons]
          have : |d| ≤ (y - x) + uR * (y - x) := by
            have e : d = (y - x) + (d - (y - x)) := by ring
            rw [e]; refine (abs_add_le _ _).trans ?_
            rw [abs_of_pos (by linarith : 0 < y - x)]; linarith
          linarith
        · rw [List.sum_cons]
          have e : d + as.sum - (y - x + riseQ (y :: ys)) = (d - (y - x)) + (as.sum - riseQ (y :: ys)) := by ring
          rw [e]; refine (abs_add_le _ _).trans ?_
          linarith
        · simp only [List.length_cons] at r4 ⊢; omega
        · simp only [List.length_cons] at s4 ⊢; omega
      · subst hc
        have e1 : rises ieee (f :: g :: gs) = rises ieee (g :: gs) := by
          simp [rises, moves, lt1]
        have e2 : falls ieee (f :: g :: gs) = falls ieee (g :: gs) := by
          simp [falls, moves, lt2]
        rw [e1, e2, sub_self, max_self, zero_add, zero_add]
        exact ⟨⟨as, r1, r2, r3, by simp only [List.length_cons] at r4 ⊢; omega⟩,
          ⟨bs, s1, s2, s3, by simp only [List.length_cons] at s4 ⊢; omega⟩⟩
      · have e1 : rises ieee (f :: g :: gs) = rises ieee (g :: gs) := by
          simp [rises, moves, lt1, not_lt.2 hc.le]
        have e2 : falls ieee (f :: g :: gs) = ieee.sub f g :: falls ieee (g :: gs) := by
          simp [falls, moves, lt2, hc]
        obtain ⟨d, hd1, hd2⟩ := sub_near hfx hgy hd'
        rw [abs_of_pos (by linarith : 0 < x - y)] at hd2
        have hmax : max (y - x) 0 = 0 := max_eq_right (by linarith)
        have hmax' : max (x - y) 0 = x - y := max_eq_left (by linarith)
        rw [e1, e2, hmax, hmax', zero_add]
        refine ⟨⟨as, r1, r2, r3, ?_⟩, ⟨d :: bs, .cons hd1 s1, ?_, ?_, ?_⟩⟩
        · simp only [List.length_cons] at r4 ⊢; omega
        · simp only [List.map_cons, List.sum_cons]
          have : |d| ≤ (x - y) + uR * (x - y) := by
            have e : d = (x - y) + (d - (x - y)) := by ring
            rw [e]; refine (abs_add_le _ _).trans ?_
            rw [abs_of_pos (by linarith : 0 < x - y)]; linarith
          linarith
        · rw [List.sum_cons]
          have e : d + bs.sum - (x - y + fallQ (y :: ys)) = (d - (x - y)) + (bs.sum - fallQ (y :: ys)) := by ring
          rw [e]; refine (abs_add_le _ _).trans ?_
          linarith
        · simp only [List.length_cons] at s4 ⊢; omega

theorem riseQ_le {xs : List ℚ} {M : ℚ} (hM : ∀ x ∈ xs, |x| ≤ M) :
    riseQ xs ≤ xs.length * (2 * M) ∧ fallQ xs ≤ xs.length * (2 * M) := by
  induction xs with
  | nil => simp [riseQ, fallQ]
  | cons x xs ih =>
    have ih := ih (fun z hz => hM z (by simp [hz]))
    have hx := abs_le.1 (hM x (by simp))
    have hM0 : 0 ≤ M := (abs_nonneg x).trans (hM x (by simp))
    cases xs with
    | nil => constructor <;> simp [riseQ, fallQ] <;> linarith
    | cons y ys =>
      have hy := abs_le.1 (hM y (by simp))
      have eR : riseQ (x :: y :: ys) = max (y - x) 0 + riseQ (y :: ys) := by
        unfold riseQ; rw [moves_cons]; rfl
      have eF : fallQ (x :: y :: ys) = max (x - y) 0 + fallQ (y :: ys) := by
        unfold fallQ; rw [moves_cons]; rfl
      have m1 : max (y - x) 0 ≤ 2 * M := max_le (by linarith [hx.1, hy.2]) (by linarith)
      have m2 : max (x - y) 0 ≤ 2 * M := max_le (by linarith [hx.2, hy.1]) (by linarith)
      rw [eR, eF, List.length_cons]
      push_cast
      constructor <;> linarith [ih.1, ih.2]

/-- The float sums of the rises and falls of at most 2^20 changes are accurate to 2^-30. -/
theorem fsums_near {fs : List Fl} {xs : List ℚ} (h : List.Forall₂ IsF fs xs) {M : ℚ}
    (hM : ∀ x ∈ xs, |x| ≤ M) (hbig : M ≤ 2 ^ (900 : ℤ)) (hn : fs.length ≤ 2 ^ 20) :
    (∃ u, IsF (fsum ieee (rises ieee fs)) u ∧ |u - riseQ xs| ≤ 1 / 2 ^ 30 * riseQ xs) ∧
    (∃ d, IsF (fsum ieee (falls ieee fs)) d ∧ |d - fallQ xs| ≤ 1 / 2 ^ 30 * fallQ xs) := by
  by_cases hx0 : xs = []
  · subst hx0
    cases h
    exact ⟨⟨0, isF_zero, by simp [riseQ]⟩, ⟨0, isF_zero, by simp [fallQ]⟩⟩
  have hM0 : 0 ≤ M := by
    obtain ⟨x, l, rfl⟩ := List.exists_cons_of_ne_nil hx0
    exact (abs_nonneg x).trans (hM x (by simp))
  have hlen : xs.length = fs.length := h.length_eq.symm
  have hu := uR_pos
  have hus : uR = 1 / 2 ^ 53 := by rw [uR_eq]; norm_num
  have hbig2 := huge_big (c := 2 ^ 30) (M := M) (by
    calc (2 ^ 30 : ℚ) = 2 ^ (30 : ℤ) := by norm_num
      _ ≤ _ := zpow_two_le (by norm_num)) hM0 hbig
  have hxl : (xs.length : ℚ) ≤ 1048576 := by
    have : (xs.length : ℚ) ≤ ((2 ^ 20 : ℕ) : ℚ) := by rw [hlen]; exact_mod_cast hn
    exact this.trans (by norm_num)
  obtain ⟨⟨as, r1, r2, r3, r4⟩, ⟨bs, s1, s2, s3, s4⟩⟩ := rises_near h hM (by linarith)
  obtain ⟨q1, q2⟩ := riseQ_le hM
  have hlM : (xs.length : ℚ) * (2 * M) ≤ 1048576 * (2 * M) := mul_le_mul_of_nonneg_right hxl (by linarith)
  have core : ∀ (l : List Fl) (as : List ℚ) (Q : ℚ), List.Forall₂ IsF l as → (as.map abs).sum ≤ (1 + uR) * Q →
      |as.sum - Q| ≤ uR * Q → l.length ≤ fs.length - 1 → 0 ≤ Q → Q ≤ 1048576 * (2 * M) →
      ∃ u, IsF (fsum ieee l) u ∧ |u - Q| ≤ 1 / 2 ^ 30 * Q := by
    intro l as Q h1 h2 h3 h4 h5 h6
    have hll : (l.length : ℚ) ≤ 1048576 := by
      have : (l.length : ℚ) ≤ ((2 ^ 20 : ℕ) : ℚ) := by exact_mod_cast (h4.trans (Nat.sub_le _ _)).trans hn
      exact this.trans (by norm_num)
    have h2' : (as.map abs).sum ≤ 2 * Q := by
      have : uR ≤ 1 := by rw [hus]; norm_num
      nlinarith
    obtain ⟨r, hr1, hr2⟩ := sum_near h1 (by rw [hus]; linarith) (by linarith)
    refine ⟨r, hr1, ?_⟩
    have e : r - Q = (r - as.sum) + (as.sum - Q) := by ring
    rw [e]
    refine (abs_add_le _ _).trans ?_
    have h0 : 0 ≤ (as.map abs).sum := (abs_nonneg _).trans (abs_sum_le as)
    have k1 : 2 * (l.length : ℚ) * uR * (as.map abs).sum ≤ 2 * 1048576 * uR * (2 * Q) :=
      mul_le_mul (mul_le_mul_of_nonneg_right (by linarith) hu.le) h2' h0 (by positivity)
    have k2 : 2 * 1048576 * uR * (2 * Q) + uR * Q ≤ 1 / 2 ^ 30 * Q := by
      rw [hus]; nlinarith
    linarith
  exact ⟨core _ _ _ r1 r2 r3 r4 (riseQ_nonneg xs) (q1.trans hlM), core _ _ _ s1 s2 s3 s4 (fallQ_nonneg xs) (q2.trans hlM)⟩

/-! ### Conversion to float32 -/

theorem rnd32_near {q : ℚ} (h : |q| ≤ 128) :
    ∃ r, (ieee.rnd32 q).Is r ∧ |r - q| ≤ |q| / 2 ^ 24 + 1 / 2 ^ 149 := by
  have h' := abs_le.1 h
  have m1 := ieee_lawful.r32.mono q ((128 : ℤ) : ℚ) (by push_cast; exact h'.2)
  have m2 := ieee_lawful.r32.mono ((-128 : ℤ) : ℚ) q (by push_cast; exact h'.1)
  rw [ieee_lawful.r32.int _ (by norm_num)] at m1 m2
  have hn := ieee_lawful.r32.not_nan q
  have key : ∀ q r, ieee.rnd32 q = .fin r → |r - q| ≤ |q| / 2 ^ 24 + 1 / 2 ^ 149 := by
    intro q r h
    have := rne_err (p := 24) (emin := -149) (emax := 128) h
    refine this.trans (max_le ?_ ?_)
    · have e : |q| * (2 : ℚ) ^ (-((24 : ℕ) : ℤ)) = |q| / 2 ^ 24 := by norm_num; ring
      rw [e]
      have : (0 : ℚ) ≤ 1 / 2 ^ 149 := by positivity
      linarith
    · have e : (2 : ℚ) ^ ((-149 : ℤ) - 1) ≤ 1 / 2 ^ 149 := by norm_num
      have : 0 ≤ |q| / 2 ^ 24 := by positivity
      linarith
  cases hx : ieee.rnd32 q with
  | nan => exact absurd hx hn
  | inf b =>
    rw [hx] at m1 m2
    cases b with
    | true => exact absurd m2 (not_le.2 Ext.bot_lt_ofRat)
    | false => exact absurd m1 (not_le.2 Ext.ofRat_lt_top)
  | fin r => exact ⟨r, Fl.is_fin r, key q r hx⟩
  | negZero =>
    refine ⟨0, Fl.is_negZero, ?_⟩
    have hq : q ≠ 0 := by
      rintro rfl
      have : ieee.rnd32 ((0 : ℤ) : ℚ) = .fin ((0 : ℤ) : ℚ) := ieee_lawful.r32.int 0 (by norm_num)
      rw [Int.cast_zero, hx] at this; cases this
    have ho := ieee_lawful.r32.odd q hq
    rw [hx] at ho
    have := key _ _ ho
    rw [zero_sub, neg_neg, abs_neg] at this
    rwa [zero_sub, abs_neg]

theorem to32_near {x : Fl} {q : ℚ} (hx : x.Is q) (h : |q| ≤ 128) :
    ∃ r, (ieee.to32 x).Is r ∧ |r - q| ≤ |q| / 2 ^ 24 + 1 / 2 ^ 149 := by
  rcases hx with rfl | ⟨rfl, rfl⟩
  · unfold FloatSem.to32
    by_cases h0 : q = 0
    · subst h0
      exact ⟨0, by simp, by simp⟩
    · simp only [h0, if_false]
      exact rnd32_near h
  · exact ⟨0, by simp [FloatSem.to32], by simp⟩

/-! ### The index -/

theorem isF_hundred : IsF (ieee.const 100) 100 := by
  have := isF_const_int (n := 100) (by norm_num); simpa using this

/-- A value near a number in 0..100 stays near it after conversion to float32. -/
theorem final32 {x : Fl} {z T : ℚ} (hz : x.Is z) (h : |z - T| ≤ 1 / 1000000) (h0 : 0 ≤ T) (h1 : T ≤ 100) :
    ∃ r, (ieee.to32 x).Is r ∧ |r - T| ≤ 1 / 100000 := by
  have hza : |z| ≤ 101 := by
    have e : z = T + (z - T) := by ring
    rw [e]; refine (abs_add_le _ _).trans ?_
    rw [abs_of_nonneg h0]; linarith
  obtain ⟨r, hr, hre⟩ := to32_near hz (by linarith)
  refine ⟨r, hr, ?_⟩
  have e : r - T = (r - z) + (z - T) := by ring
  rw [e]; refine (abs_add_le _ _).trans ?_
  have h3 : |z| / 2 ^ 24 ≤ 101 / 2 ^ 24 := by gcongr
  have h4 : (101 : ℚ) / 2 ^ 24 + 1 / 2 ^ 149 + 1 / 1000000 ≤ 1 / 100000 := by norm_num
  linarith

/-- `100 - w` for a tiny `w`. -/
theorem sub_tiny {w : Fl} {a : ℚ} (hw : IsF w a) (ha : |a| ≤ 1 / 2 ^ 60) :
    ∃ z, (ieee.sub (ieee.const 100) w).Is z ∧ |z - 100| ≤ 1 / 2 ^ 40 := by
  have hh := huge_big (c := 128) (M := 1) (by
    calc (128 : ℚ) = 2 ^ (7 : ℤ) := by norm_num
      _ ≤ _ := zpow_two_le (by norm_num)) (by norm_num) (by
    calc (1 : ℚ) = 2 ^ (0 : ℤ) := by norm_num
      _ ≤ _ := zpow_two_le (by norm_num))
  have hb : |100 - a| ≤ 101 := by
    refine (abs_sub _ _).trans ?_
    rw [abs_of_pos (by norm_num : (0 : ℚ) < 100)]
    have : (1 : ℚ) / 2 ^ 60 ≤ 1 := by norm_num
    linarith
  obtain ⟨z, hz, hze⟩ := sub_near isF_hundred hw (hb.trans (by linarith))
  refine ⟨z, hz.1, ?_⟩
  have e : z - 100 = (z - (100 - a)) + -a := by ring
  rw [e]; refine (abs_add_le _ _).trans ?_
  rw [abs_neg]
  have h3 : uR * |100 - a| ≤ uR * 101 := mul_le_mul_of_nonneg_left hb uR_nonneg
  have h4 : uR * 101 + 1 / 2 ^ 60 ≤ 1 / 2 ^ 40 := by rw [uR_eq]; norm_num
  linarith

/-- A float that is at least 2^100, or infinite. -/
def BigFl (x : Fl) : Prop := x = .inf false ∨ ∃ a, x.Is a ∧ (2 ^ 100 : ℚ) ≤ a

theorem rnd_pow100 : ieee.rnd (2 ^ 100) = .fin (2 ^ 100) := by
  have hf : IsFloat 53 (-1074) 1024 (2 ^ 100) := ⟨1, 100, by norm_num, by norm_num, by norm_num, by norm_num⟩
  change rne 53 (-1074) 1024 (2 ^ 100) = _
  rw [rne_pos (by norm_num), roundMag_float (by norm_num) (by norm_num) hf, if_neg]
  exact not_le.2 (isFloat_lt hf)

theorem big_rnd {q : ℚ} (h : 2 ^ 100 ≤ q) : BigFl (ieee.rnd q) := by
  have m := ieee_lawful.r64.mono _ _ h
  rw [rnd_pow100] at m
  have hn := ieee_lawful.r64.not_nan q
  cases hx : ieee.rnd q with
  | nan => exact absurd hx hn
  | inf b =>
    rw [hx] at m
    cases b with
    | true => exact absurd m (not_le.2 Ext.bot_lt_ofRat)
    | false => exact .inl rfl
  | fin r =>
    rw [hx] at m
    exact .inr ⟨r, Fl.is_fin r, Ext.ofRat_le.1 m⟩
  | negZero =>
    rw [hx] at m
    have : (2 ^ 100 : ℚ) ≤ 0 := Ext.ofRat_le.1 m
    norm_num at this

theorem big_index {rs : Fl} (h : BigFl rs) :
    ∃ z, (ieee.sub (ieee.const 100) (ieee.div (ieee.const 100) (ieee.add (ieee.const 1) rs))).Is z ∧
      |z - 100| ≤ 1 / 2 ^ 40 := by
  have hc1 : ieee.const 1 = .fin 1 := by
    have := ieee_lawful.r64.int 1 (by norm_num)
    simpa [FloatSem.const] using this
  have hc100 : ieee.const 100 = .fin 100 := by
    have := ieee_lawful.r64.int 100 (by norm_num)
    simpa [FloatSem.const] using this
  have hs : BigFl (ieee.add (ieee.const 1) rs) := by
    rcases h with rfl | ⟨a, ha, hab⟩
    · rw [hc1]; exact .inl rfl
    · rcases FloatSem.add_is (S := ieee) isF_one.1 ha with e | ⟨_, h, _⟩
      · rw [e]; exact big_rnd (by linarith)
      · norm_num at h
  have hw : ∃ a, IsF (ieee.div (ieee.const 100) (ieee.add (ieee.const 1) rs)) a ∧ |a| ≤ 1 / 2 ^ 60 := by
    rcases hs with e | ⟨a, ha, hab⟩
    · rw [e, hc100]
      refine ⟨0, ⟨?_, Grid.zero⟩, by simp⟩
      simp [FloatSem.div]
    · have hapos : 0 < a := lt_of_lt_of_le (by norm_num) hab
      have hq : |100 / a| ≤ 100 / 2 ^ 100 := by
        rw [abs_of_pos (by positivity)]
        exact div_le_div_of_nonneg_left (by norm_num) (by norm_num) hab
      obtain ⟨w, hw, hwe⟩ := div_near isF_hundred.1 ha hapos.ne' (hq.trans (by
        have := huge_one
        have : (100 : ℚ) / 2 ^ 100 ≤ 1 := by norm_num
        linarith))
      refine ⟨w, hw, ?_⟩
      have e : w = 100 / a + (w - 100 / a) := by ring
      rw [e]; refine (abs_add_le _ _).trans ?_
      have h3 : uR * |100 / a| ≤ 1 * |100 / a| := mul_le_mul_of_nonneg_right (by
        rw [uR_eq]; norm_num) (abs_nonneg _)
      have h4 := tiny_small
      have h5 : (100 : ℚ) / 2 ^ 100 + 100 / 2 ^ 100 + 1 / 2 ^ 200 ≤ 1 / 2 ^ 60 := by norm_num
      linarith
  obtain ⟨a, ha1, ha2⟩ := hw
  exact sub_tiny ha1 ha2

/-- 100 - 100 / (1 + r) for a finite ratio `r` near the true ratio. -/
theorem mid_index {rs : Fl} {r R : ℚ} (hrs : IsF rs r) (hR : 0 ≤ R) (hb : r ≤ 2 ^ 101) (hr0 : 0 ≤ r)
    (hd : |r - R| ≤ 1 / 2 ^ 28 * (1 + R)) :
    ∃ z, (ieee.sub (ieee.const 100) (ieee.div (ieee.const 100) (ieee.add (ieee.const 1) rs))).Is z ∧
      |z - (100 - 100 / (1 + R))| ≤ 1 / 1000000 := by
  have hu := uR_nonneg
  have hus : uR = 1 / 2 ^ 53 := by rw [uR_eq]; norm_num
  have hh := huge_big (c := 1) (M := 2 ^ 110) (by
    calc (1 : ℚ) = 2 ^ (0 : ℤ) := by norm_num
      _ ≤ _ := zpow_two_le (by norm_num)) (by norm_num) (by
    calc (2 ^ 110 : ℚ) = 2 ^ (110 : ℤ) := by norm_num
      _ ≤ _ := zpow_two_le (by norm_num))
  have h1r : |1 + r| = 1 + r := abs_of_pos (by linarith)
  obtain ⟨s, hs, hse⟩ := add_near isF_one hrs (by
    rw [h1r]
    have : (1 : ℚ) + 2 ^ 101 ≤ 2 ^ 110 := by norm_num
    linarith)
  rw [h1r] at hse
  have hd' := abs_le.1 hd
  have hR1 : 0 < 1 + R := by linarith
  -- s is near 1 + R
  have hsR : |s - (1 + R)| ≤ 1 / 2 ^ 27 * (1 + R) := by
    have e : s - (1 + R) = (s - (1 + r)) + (r - R) := by ring
    rw [e]; refine (abs_add_le _ _).trans ?_
    have : uR * (1 + r) ≤ 1 / 2 ^ 53 * (2 * (1 + R)) := by
      rw [hus]; apply mul_le_mul_of_nonneg_left _ (by norm_num)
      have : (1 : ℚ) / 2 ^ 28 * (1 + R) ≤ 1 * (1 + R) := mul_le_mul_of_nonneg_right (by norm_num) hR1.le
      linarith [hd'.2]
    have h3 : 1 / 2 ^ 53 * (2 * (1 + R)) + 1 / 2 ^ 28 * (1 + R) ≤ 1 / 2 ^ 27 * (1 + R) := by
      have e : (1 : ℚ) / 2 ^ 53 * (2 * (1 + R)) + 1 / 2 ^ 28 * (1 + R) = (1 / 2 ^ 52 + 1 / 2 ^ 28) * (1 + R) := by ring
      rw [e]; exact mul_le_mul_of_nonneg_right (by norm_num) hR1.le
    linarith
  have hsl := (abs_le.1 hsR).1
  have hs1 : (1 - 1 / 2 ^ 27) * (1 + R) ≤ s := by linarith
  have hspos : 0 < s := lt_of_lt_of_le (mul_pos (by norm_num) hR1) hs1
  have hshalf : 1 / 2 ≤ s := by
    have : (1 - 1 / 2 ^ 27 : ℚ) * 1 ≤ (1 - 1 / 2 ^ 27) * (1 + R) := mul_le_mul_of_nonneg_left (by linarith) (by norm_num)
    have h2 : (1 / 2 : ℚ) ≤ (1 - 1 / 2 ^ 27) * 1 := by norm_num
    linarith
  have hqb : |100 / s| ≤ 200 := by
    rw [abs_of_pos (by positivity), div_le_iff₀ hspos]; linarith
  obtain ⟨w, hw, hwe⟩ := div_near isF_hundred.1 hs.1 hspos.ne' (hqb.trans (by
    have : (200 : ℚ) ≤ 2 ^ 110 := by norm_num
    linarith))
  have hq : |100 / s - 100 / (1 + R)| ≤ 100 * (1 / 2 ^ 27) / (1 - 1 / 2 ^ 27) := by
    have e : 100 / s - 100 / (1 + R) = 100 * ((1 + R) - s) / (s * (1 + R)) := by field_simp
    rw [e, abs_div, abs_of_pos (mul_pos hspos hR1), div_le_div_iff₀ (mul_pos hspos hR1) (by norm_num), abs_mul,
      abs_of_pos (by norm_num : (0 : ℚ) < 100), abs_sub_comm]
    have h1 : 100 * |s - (1 + R)| * (1 - 1 / 2 ^ 27) ≤ 100 * (1 / 2 ^ 27 * (1 + R)) * (1 - 1 / 2 ^ 27) :=
      mul_le_mul_of_nonneg_right (by linarith) (by norm_num)
    have h2 : ((1 - 1 / 2 ^ 27) * (1 + R)) * (1 + R) ≤ s * (1 + R) := mul_le_mul_of_nonneg_right hs1 hR1.le
    have h3 : (1 : ℚ) * (1 + R) ≤ (1 + R) * (1 + R) := mul_le_mul_of_nonneg_right (by linarith) hR1.le
    have h4 : 100 * (1 / 2 ^ 27 * (1 + R)) * (1 - 1 / 2 ^ 27) =
        100 * (1 / 2 ^ 27) * ((1 - 1 / 2 ^ 27) * (1 * (1 + R))) := by ring
    have h5 : 100 * (1 / 2 ^ 27) * ((1 - 1 / 2 ^ 27) * (1 * (1 + R))) ≤
        100 * (1 / 2 ^ 27) * ((1 - 1 / 2 ^ 27) * ((1 + R) * (1 + R))) :=
      mul_le_mul_of_nonneg_left (mul_le_mul_of_nonneg_left h3 (by norm_num)) (by norm_num)
    have h6 : 100 * (1 / 2 ^ 27) * ((1 - 1 / 2 ^ 27) * ((1 + R) * (1 + R))) ≤ 100 * (1 / 2 ^ 27) * (s * (1 + R)) :=
      mul_le_mul_of_nonneg_left (by linarith) (by norm_num)
    linarith
  have hww : |w - 100 / (1 + R)| ≤ 8 / 10000000 := by
    have e : w - 100 / (1 + R) = (w - 100 / s) + (100 / s - 100 / (1 + R)) := by ring
    rw [e]; refine (abs_add_le _ _).trans ?_
    have h1 : uR * |100 / s| ≤ uR * 200 := mul_le_mul_of_nonneg_left hqb hu
    have h2 : uR * 200 + 1 / 2 ^ 200 + 100 * (1 / 2 ^ 27) / (1 - 1 / 2 ^ 27) ≤ 8 / 10000000 := by
      rw [hus]; norm_num
    linarith [tiny_small]
  have hT : |100 - w| ≤ 300 := by
    have : 100 / (1 + R) ≤ 100 := by rw [div_le_iff₀ hR1]; linarith
    have h0 : 0 ≤ 100 / (1 + R) := by positivity
    have := abs_le.1 hww
    rw [abs_le]; constructor <;> linarith
  obtain ⟨z, hz, hze⟩ := sub_near isF_hundred hw (hT.trans (by
    have : (300 : ℚ) ≤ 2 ^ 110 := by norm_num
    linarith))
  refine ⟨z, hz.1, ?_⟩
  have e : z - (100 - 100 / (1 + R)) = (z - (100 - w)) + -(w - 100 / (1 + R)) := by ring
  rw [e]; refine (abs_add_le _ _).trans ?_
  rw [abs_neg]
  have h1 : uR * |100 - w| ≤ uR * 300 := mul_le_mul_of_nonneg_left hT hu
  have h2 : uR * 300 + 8 / 10000000 ≤ 1 / 1000000 := by rw [hus]; norm_num
  linarith

/-- The index of two accurate sums is within 0.00001 of the true index. -/
theorem index_near {up down : Fl} {u d U D : ℚ} (hu : IsF up u) (hd : IsF down d)
    (hU : |u - U| ≤ 1 / 2 ^ 30 * U) (hD : |d - D| ≤ 1 / 2 ^ 30 * D) (hU0 : 0 ≤ U) (hD0 : 0 ≤ D)
    (hne : U + D ≠ 0) :
    ∃ r, (rsiIndex ieee up down).Is r ∧ |r - 100 * U / (U + D)| ≤ 1 / 100000 := by
  have hUD : 0 < U + D := lt_of_le_of_ne (by linarith) (Ne.symm hne)
  have hT0 : 0 ≤ 100 * U / (U + D) := by positivity
  have hT1 : 100 * U / (U + D) ≤ 100 := by rw [div_le_iff₀ hUD]; linarith
  have hU' := abs_le.1 hU
  have hD' := abs_le.1 hD
  unfold rsiIndex
  rcases eq_or_lt_of_le hD0 with hD1 | hD1
  · -- no falls: exactly 100
    have hd0 : d = 0 := by
      rw [← hD1] at hD'; linarith [hD'.1, hD'.2]
    have hUp : 0 < U := by linarith
    have hup : 0 < u := by
      have : (1 - 1 / 2 ^ 30 : ℚ) * U ≤ u := by linarith [hU'.1]
      exact lt_of_lt_of_le (mul_pos (by norm_num) hUp) this
    have hc100 : ieee.const 100 = .fin 100 := by
      have := ieee_lawful.r64.int 100 (by norm_num)
      simpa [FloatSem.const] using this
    have hc1 : ieee.const 1 = .fin 1 := by
      have := ieee_lawful.r64.int 1 (by norm_num)
      simpa [FloatSem.const] using this
    have h100 : ieee.rnd 100 = .fin 100 := by
      have := ieee_lawful.r64.int 100 (by norm_num)
      simpa using this
    apply final32 (z := 100) _ _ hT0 hT1
    · have hue : up = .fin u := by
        rcases hu.1 with e | ⟨_, e⟩
        · exact e
        · rw [e] at hup; exact absurd hup (lt_irrefl _)
      rw [hc1, hc100, hue]
      have hdd := hd.1
      rw [hd0] at hdd
      rcases hdd with e | ⟨e, _⟩
      · rw [e]; simp [Fl.isZero, Fl.sgn, Fl.neg, Fl.toRat, not_lt.2 (by norm_num : (0 : ℚ) ≤ 100), Fl.zero, FloatSem.div, FloatSem.add, FloatSem.sub, hup.ne', not_lt.2 hup.le, h100]
      · rw [e]; simp [Fl.isZero, Fl.sgn, Fl.neg, Fl.toRat, not_lt.2 (by norm_num : (0 : ℚ) ≤ 100), Fl.zero, FloatSem.div, FloatSem.add, FloatSem.sub, hup.ne', not_lt.2 hup.le, h100]
    · rw [← hD1, add_zero, mul_div_assoc, div_self hUp.ne', mul_one, sub_self, abs_zero]; norm_num
  · have hdl : (1 - 1 / 2 ^ 30) * D ≤ d := by linarith [hD'.1]
    have hdp : 0 < d := lt_of_lt_of_le (mul_pos (by norm_num) hD1) hdl
    have hup : 0 ≤ u := by
      have : (1 - 1 / 2 ^ 30 : ℚ) * U ≤ u := by linarith [hU'.1]
      exact (mul_nonneg (by norm_num) hU0).trans this
    have hT : 100 * U / (U + D) = 100 - 100 / (1 + U / D) := by field_simp; ring
    have hρ0 : 0 ≤ u / d := by positivity
    by_cases hbig : u / d ≤ 2 ^ 100
    · have hh := huge_big (c := 1) (M := 2 ^ 110) (by
        calc (1 : ℚ) = 2 ^ (0 : ℤ) := by norm_num
          _ ≤ _ := zpow_two_le (by norm_num)) (by norm_num) (by
        calc (2 ^ 110 : ℚ) = 2 ^ (110 : ℤ) := by norm_num
          _ ≤ _ := zpow_two_le (by norm_num))
      obtain ⟨r, hr, hre⟩ := div_near hu.1 hd.1 hdp.ne' (by
        rw [abs_of_nonneg hρ0]
        have : (2 ^ 100 : ℚ) ≤ 2 ^ 110 := by norm_num
        linarith)
      rw [abs_of_nonneg hρ0] at hre
      have hus : uR = 1 / 2 ^ 53 := by rw [uR_eq]; norm_num
      have hR0 : 0 ≤ U / D := by positivity
      have hρ : |u / d - U / D| ≤ 3 / 2 ^ 30 * (U / D) := by
        have e : u / d - U / D = (u * D - U * d) / (d * D) := by field_simp
        have e2 : 3 / 2 ^ 30 * (U / D) = (3 / 2 ^ 30 * (U * d)) / (d * D) := by field_simp
        rw [e, e2, abs_div, abs_of_pos (mul_pos hdp hD1)]
        apply div_le_div_of_nonneg_right _ (mul_pos hdp hD1).le
        have e3 : u * D - U * d = (u - U) * D + U * (D - d) := by ring
        rw [e3]
        refine (abs_add_le _ _).trans ?_
        rw [abs_mul, abs_mul, abs_of_pos hD1, abs_of_nonneg hU0, abs_sub_comm D d]
        have k1 : |u - U| * D ≤ 1 / 2 ^ 30 * U * D := mul_le_mul_of_nonneg_right hU hD1.le
        have k2 : U * |d - D| ≤ U * (1 / 2 ^ 30 * D) := mul_le_mul_of_nonneg_left hD hU0
        have k3 : U * ((1 - 1 / 2 ^ 30) * D) ≤ U * d := mul_le_mul_of_nonneg_left hdl hU0
        have k4 : 0 ≤ U * D := mul_nonneg hU0 hD1.le
        have k5 : 2 / 2 ^ 30 * (U * D) ≤ 3 / 2 ^ 30 * ((1 - 1 / 2 ^ 30) * (U * D)) := by
          have := mul_le_mul_of_nonneg_right (by norm_num : (2 : ℚ) / 2 ^ 30 ≤ 3 / 2 ^ 30 * (1 - 1 / 2 ^ 30)) k4
          linarith
        have k6 : 3 / 2 ^ 30 * ((1 - 1 / 2 ^ 30) * (U * D)) ≤ 3 / 2 ^ 30 * (U * d) :=
          mul_le_mul_of_nonneg_left (by linarith) (by norm_num)
        linarith
      have hr0 : 0 ≤ r := by
        have := ieee_lawful.r64.mono 0 (u / d) hρ0
        rcases FloatSem.div_is (S := ieee) hu.1 hd.1 hdp.ne' with ⟨_, e⟩ | ⟨h0, e⟩
        · have z0 : ieee.rnd 0 = .fin 0 := by
            have := ieee_lawful.r64.int 0 (by norm_num)
            simpa using this
          have hk := hr.1
          rw [e] at hk
          rw [z0] at this
          rcases hk with hk | ⟨hk, _⟩
          · rw [hk] at this; exact Ext.ofRat_le.1 this
          · linarith
        · exact (hr.1.unique e).ge
      rw [hT]
      obtain ⟨z, hz, hze⟩ := mid_index (R := U / D) hr hR0 (by
          have h1 : r ≤ u / d + (uR * (u / d) + tiny) := by linarith [(abs_le.1 hre).2]
          have h2 : uR * (u / d) ≤ 1 / 2 ^ 53 * 2 ^ 100 := by
            rw [hus]; exact mul_le_mul_of_nonneg_left hbig (by norm_num)
          have h3 : (2 ^ 100 : ℚ) + (1 / 2 ^ 53 * 2 ^ 100 + 1 / 2 ^ 200) ≤ 2 ^ 101 := by norm_num
          linarith [tiny_small]) hr0 (by
          have e : r - U / D = (r - u / d) + (u / d - U / D) := by ring
          rw [e]; refine (abs_add_le _ _).trans ?_
          have h1 : u / d ≤ 2 * (U / D) := by
            have := (abs_le.1 hρ).2
            have h3 : 3 / 2 ^ 30 * (U / D) ≤ 1 * (U / D) := mul_le_mul_of_nonneg_right (by norm_num) hR0
            linarith
          have h2 : uR * (u / d) ≤ 1 / 2 ^ 53 * (2 * (U / D)) := by
            rw [hus]; exact mul_le_mul_of_nonneg_left h1 (by norm_num)
          have h3 : 1 / 2 ^ 53 * (2 * (U / D)) + 3 / 2 ^ 30 * (U / D) ≤ 1 / 2 ^ 28 * (U / D) := by
            have e : (1 : ℚ) / 2 ^ 53 * (2 * (U / D)) + 3 / 2 ^ 30 * (U / D) = (2 / 2 ^ 53 + 3 / 2 ^ 30) * (U / D) := by ring
            rw [e]; exact mul_le_mul_of_nonneg_right (by norm_num) hR0
          have h4 : (1 : ℚ) / 2 ^ 200 ≤ 1 / 2 ^ 28 := by norm_num
          linarith [tiny_small])
      rw [hT] at hT0 hT1
      exact final32 hz hze hT0 hT1
    · push Not at hbig
      have hrs : BigFl (ieee.div up down) := by
        rcases FloatSem.div_is (S := ieee) hu.1 hd.1 hdp.ne' with ⟨_, e⟩ | ⟨h0, e⟩
        · rw [e]; exact big_rnd hbig.le
        · rw [h0] at hbig
          exact absurd hbig (by norm_num)
      obtain ⟨z, hz, hze⟩ := big_index hrs
      apply final32 hz _ hT0 hT1
      have hDU : D ≤ 1 / 2 ^ 98 * U := by
        have h1 : 2 ^ 100 * d < u := by rwa [lt_div_iff₀ hdp] at hbig
        have h2 : u ≤ (1 + 1 / 2 ^ 30) * U := by linarith [hU'.2]
        have h3 : (2 : ℚ) ^ 100 * ((1 - 1 / 2 ^ 30) * D) ≤ 2 ^ 100 * d := mul_le_mul_of_nonneg_left hdl (by norm_num)
        have h4 : (2 : ℚ) ^ 99 * D ≤ 2 ^ 100 * ((1 - 1 / 2 ^ 30) * D) := by
          rw [← mul_assoc]; exact mul_le_mul_of_nonneg_right (by norm_num) hD1.le
        have h5 : (1 + 1 / 2 ^ 30) * U ≤ 2 * U := mul_le_mul_of_nonneg_right (by norm_num) hU0
        have h6 : (2 : ℚ) ^ 99 * D ≤ 2 * U := by linarith
        have h7 : D = 1 / 2 ^ 99 * (2 ^ 99 * D) := by rw [← mul_assoc]; norm_num
        rw [h7]
        have h8 : 1 / 2 ^ 99 * ((2 : ℚ) ^ 99 * D) ≤ 1 / 2 ^ 99 * (2 * U) := mul_le_mul_of_nonneg_left h6 (by norm_num)
        have h9 : (1 : ℚ) / 2 ^ 99 * (2 * U) = 1 / 2 ^ 98 * U := by rw [← mul_assoc]; norm_num
        linarith
      have e : z - 100 * U / (U + D) = (z - 100) + 100 * D / (U + D) := by field_simp; ring
      rw [e]; refine (abs_add_le _ _).trans ?_
      have h0 : 0 ≤ 100 * D / (U + D) := by positivity
      rw [abs_of_nonneg h0]
      have h1 : 100 * D / (U + D) ≤ 100 / 2 ^ 98 := by
        rw [div_le_iff₀ hUD]
        have : 100 * D ≤ 100 * (1 / 2 ^ 98 * U) := by linarith
        have h2 : (100 : ℚ) / 2 ^ 98 * U ≤ 100 / 2 ^ 98 * (U + D) := mul_le_mul_of_nonneg_left (by linarith) (by norm_num)
        linarith
      have h2 : (1 : ℚ) / 2 ^ 40 + 100 / 2 ^ 98 ≤ 1 / 1000000 := by norm_num
      linarith

/-- **C110.** In float64/float32 every value of `RSI` is within 0.00001 of `100 U / (U + D)`, with
`U` and `D` the true totals of the rises and falls of its window, unless the window is flat.  Closes
are numbers a float64 can hold, at most `2^900` in size; the period is below `2^20`. -/
theorem C110_rsi_accurate {cs spare : List Candle} {xs : List ℚ} (h : Closes (cs ++ spare) xs)
    (hr : FloatCloses (cs ++ spare)) (hM : ∀ x ∈ xs, |x| ≤ 2 ^ (900 : ℤ))
    (h14 : 14 ≤ cs.length) (hs : spare ≠ []) (n : Nat) (hn : n ≤ cs.length) (hn2 : n < 2 ^ 20) :
    ∃ out, RSI ieee (some cs) spare n = .ok out ∧ out.length = cs.length - n + 1 ∧
      ∀ k, k < out.length →
        let w := (xs.drop k).take (n + 1)
        (riseQ w + fallQ w = 0 → out[k]? = some .nan) ∧
        (riseQ w + fallQ w ≠ 0 → ∃ y r, out[k]? = some y ∧ y.Is r ∧
          |r - 100 * riseQ w / (riseQ w + fallQ w)| ≤ 1 / 100000) := by
  refine ⟨_, rsi_ok _ cs spare h14 hs n hn, by simp, ?_⟩
  intro k hk
  simp only [List.length_map, List.length_range] at hk
  simp only [List.getElem?_map, List.getElem?_range hk, Option.map_some]
  have hw : Closes (((cs ++ spare).drop k).take (n + 1)) ((xs.drop k).take (n + 1)) :=
    List.forall₂_take (n + 1) (List.forall₂_drop k h)
  have hF := closes_isF hw (fun c hc => hr c (List.mem_of_mem_drop (List.mem_of_mem_take hc)))
  have hMw : ∀ x ∈ (xs.drop k).take (n + 1), |x| ≤ 2 ^ (900 : ℤ) :=
    fun x hx => hM x (List.mem_of_mem_drop (List.mem_of_mem_take hx))
  obtain ⟨⟨u, hu1, hu2⟩, ⟨d, hd1, hd2⟩⟩ := fsums_near hF hMw le_rfl (by simp [closes]; omega)
  rw [calculateRSI_eq]
  refine ⟨?_, ?_⟩
  · intro hz
    have hU := riseQ_nonneg ((xs.drop k).take (n + 1))
    have hD := fallQ_nonneg ((xs.drop k).take (n + 1))
    have eU : riseQ ((xs.drop k).take (n + 1)) = 0 := by linarith
    have eD : fallQ ((xs.drop k).take (n + 1)) = 0 := by linarith
    rw [eU] at hu2; rw [eD] at hd2
    have u0 : u = 0 := by
      rw [mul_zero, sub_zero] at hu2; exact abs_eq_zero.1 (le_antisymm hu2 (abs_nonneg _))
    have d0 : d = 0 := by
      rw [mul_zero, sub_zero] at hd2; exact abs_eq_zero.1 (le_antisymm hd2 (abs_nonneg _))
    have hu1 := hu1.1
    have hd1 := hd1.1
    rw [u0] at hu1; rw [d0] at hd1
    have hc100 : ieee.const 100 = .fin 100 := by
      have := ieee_lawful.r64.int 100 (by norm_num)
      simpa [FloatSem.const] using this
    have hc1 : ieee.const 1 = .fin 1 := by
      have := ieee_lawful.r64.int 1 (by norm_num)
      simpa [FloatSem.const] using this
    change some (rsiIndex ieee (fsum ieee (rises ieee (closes _))) (fsum ieee (falls ieee (closes _)))) = _
    rcases hu1 with e | ⟨e, _⟩ <;> rcases hd1 with e' | ⟨e', _⟩ <;> rw [e, e'] <;>
      simp [rsiIndex, Fl.isZero, Fl.neg, hc1, hc100, FloatSem.div, FloatSem.add, FloatSem.sub, FloatSem.to32]
  · intro hne
    obtain ⟨r, h1, h2⟩ := index_near hu1 hd1 hu2 hd2 (riseQ_nonneg _) (fallQ_nonneg _) hne
    exact ⟨_, r, rfl, h1, h2⟩

/-- The hypotheses of C110 hold of a real window, and the value is rounded there: 200/3 is no
float32. -/
example : Closes (rsiExample ++ [rsiCandle 0])
      [10, 11, 10, 12, 13, 12, 12, 14, 13, 15, 16, 15, 14, 15, 17, 0] ∧
    FloatCloses (rsiExample ++ [rsiCandle 0]) ∧ 14 ≤ rsiExample.length ∧
    RSI ieee (some rsiExample) [rsiCandle 0] 13 =
      .ok [.fin (8738133 / 131072), .fin (275 / 4), .fin (275 / 8)] ∧
    |(8738133 / 131072 : ℚ) - 100 * 10 / (10 + 5)| ≤ 1 / 100000 := by
  refine ⟨?_, ?_, by decide, by decide +kernel, by norm_num [abs_le]⟩
  · repeat first | exact .nil | refine .cons (Fl.is_fin _) ?_
  · intro c hc q hq
    have : ∀ c ∈ rsiExample ++ [rsiCandle 0], ieee.rnd c.close.toRat = .fin c.close.toRat := by decide +kernel
    have h := this c hc
    rw [hq] at h; exact h

end Finmod
