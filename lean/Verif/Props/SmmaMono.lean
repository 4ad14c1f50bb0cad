import Verif.Props.AvgMono
import Verif.Props.IEEE
import Verif.Lemmas.QuotRound

/-!
# C124 for the smoothed average in float64

`prevSMMA*period - prevSMMA` in float64 is not monotone in `prevSMMA`, but it is on the values that
`SmoothedMovingAverage` feeds it: they are quotients by `period`.
-/

namespace Finmod
open Go Spec

/-- A non-negative finite float64 sum divided by `n`. -/
def Quot (n : Nat) (x : Fl) : Prop :=
  ∃ (w : Fl) (z : ℚ), w.Is z ∧ 0 ≤ z ∧ IsFloat64 z ∧ x = ieee.div w (ieee.ofInt n)

theorem isFloat64_zero : IsFloat64 0 := ⟨0, -1074, by simp, le_rfl, by norm_num, by simp⟩

theorem isFloat64_rnd {q r : ℚ} (h : (ieee.rnd q).Is r) : IsFloat64 r := by
  rcases h with h | ⟨_, rfl⟩
  · exact (C102_nearest_even.1.finite q r h).1
  · exact isFloat64_zero

/-- A finite sum of finite floats is a float64. -/
theorem isFloat64_add {x y : Fl} {a b s : ℚ} (hx : x.Is a) (hy : y.Is b) (h : (ieee.add x y).Is s) : IsFloat64 s := by
  rcases FloatSem.add_is (S := ieee) hx hy with e | ⟨e, rfl, rfl⟩
  · rw [e] at h; exact isFloat64_rnd h
  · rw [e, Fl.is_negZero_iff] at h; rw [h]; exact isFloat64_zero

/-- Rounding non-negative numbers, as magnitudes. -/
theorem rnd_is_mag {q r : ℚ} (hq : 0 ≤ q) (h : (ieee.rnd q).Is r) : r = roundMag 53 (-1074) q := by
  rcases eq_or_lt_of_le hq with h0 | h0
  · rw [← h0, rnd_zero ieee_lawful, Fl.is_fin_iff] at h
    rw [← h, ← h0, roundMag_zero]
  · change (rne 53 (-1074) 1024 q).Is r at h
    rw [rne_pos h0] at h
    split_ifs at h
    · simp [Fl.Is] at h
    · rw [Fl.is_fin_iff] at h; exact h.symm

theorem is_of_key {x y : Fl} {r : ℚ} (hk : x.key = y.key) (hy : x.Is r) (hn : y ≠ .nan) : y.Is r := by
  rcases fl_cases hn with rfl | rfl | ⟨q, hq⟩
  · rw [hy.key] at hk; simp [Fl.key] at hk
  · rw [hy.key] at hk; simp [Fl.key] at hk
  · rw [hy.key, hq.key] at hk
    have : r = q := by simpa using hk
    rw [this]; exact hq

theorem mul_is_mag {x y : Fl} {a b r : ℚ} (hx : x.Is a) (hy : y.Is b) (h0 : 0 ≤ a * b) (h : (ieee.mul x y).Is r) :
    r = roundMag 53 (-1074) (a * b) := by
  obtain ⟨-, k1⟩ := mul_key ieee_lawful hx hy
  exact rnd_is_mag h0 (is_of_key k1 h (ieee_lawful.r64.not_nan _))

theorem div_is_mag {x y : Fl} {a b r : ℚ} (hx : x.Is a) (hy : y.Is b) (hb : 0 < b) (h0 : 0 ≤ a) (h : (ieee.div x y).Is r) :
    r = roundMag 53 (-1074) (a / b) := by
  obtain ⟨-, k1⟩ := div_key ieee_lawful hx hy hb.ne'
  exact rnd_is_mag (div_nonneg h0 hb.le) (is_of_key k1 h (ieee_lawful.r64.not_nan _))

theorem inf_not_finite : ¬ (Fl.isFinite (.inf false) = true) := by decide

/-- What a finite next value says about its intermediate results. -/
theorem next_parts {n : Nat} (h1 : 1 ≤ n) (h3 : n < 2 ^ 53) {x c : Fl} {a : ℚ} (hx : x.Is a) (ha : 0 ≤ a)
    (hge : ∀ r, (ieee.mul x (ieee.ofInt n)).Is r → a ≤ r) (hc : Fl.le (.fin 0) c = true)
    (hf : (smmaNext ieee n x c).isFinite = true) :
    ∃ m d s, (ieee.mul x (ieee.ofInt n)).Is m ∧ (ieee.sub (ieee.mul x (ieee.ofInt n)) x).Is d ∧ 0 ≤ d ∧
      (ieee.add (ieee.sub (ieee.mul x (ieee.ofInt n)) x) c).Is s ∧ 0 ≤ s := by
  obtain ⟨hi, hp⟩ := ofInt_pos ieee_lawful h1 h3.le
  obtain ⟨m1, -⟩ := mul_mono_right ieee_lawful hx hx hi hp.le ha le_rfl
  unfold smmaNext at hf
  rcases nonneg_cases m1 with e | ⟨m, hm, hm0⟩
  · exfalso
    have e2 : ieee.sub (.inf false) x = .inf false := by
      rcases hx with rfl | ⟨rfl, rfl⟩
      · by_cases h0 : a = 0 <;> simp [FloatSem.sub, Fl.neg, FloatSem.add, h0]
      · rfl
    rw [e, e2, add_inf_left hc, div_inf_pos hi hp] at hf
    exact inf_not_finite hf
  obtain ⟨k0, k⟩ := sub_key ieee_lawful hm hx
  have d0 : Fl.le (.fin 0) (ieee.sub (ieee.mul x (ieee.ofInt n)) x) = true := by
    refine Fl.le_iff.2 ⟨by simp, k0, ?_⟩
    rw [k]
    exact (Fl.le_iff.1 (rnd_nonneg ieee_lawful (sub_nonneg.2 (hge m hm)))).2.2
  have s0 := add_nonneg_fl ieee_lawful d0 hc
  rcases nonneg_cases d0 with e | ⟨d, hd, hd0⟩
  · exfalso
    rw [e, add_inf_left hc, div_inf_pos hi hp] at hf
    exact inf_not_finite hf
  rcases nonneg_cases s0 with e | ⟨s, hs, hs0⟩
  · exfalso
    rw [e, div_inf_pos hi hp] at hf
    exact inf_not_finite hf
  exact ⟨m, d, s, hm, hd, hd0, hs, hs0⟩

/-- A quotient as a rounded magnitude. -/
theorem Quot.mag {n : Nat} (h1 : 1 ≤ n) (h3 : n < 2 ^ 53) {x : Fl} (h : Quot n x) :
    Fl.le (.fin 0) x = true ∧ (x.isFinite = true → ∃ z, 0 ≤ z ∧ IsFloat64 z ∧ x.Is (roundMag 53 (-1074) (z / n))) := by
  obtain ⟨w, z, hw, hz, fz, rfl⟩ := h
  obtain ⟨hi, hp⟩ := ofInt_pos ieee_lawful h1 h3.le
  refine ⟨(div_mono_nonneg ieee_lawful hi hp (is_nonneg hw hz) (by rw [hw.le hw]; simp)).1, fun hf => ?_⟩
  obtain ⟨r, hr⟩ : ∃ r, (ieee.div w (ieee.ofInt n)).Is r := ⟨_, Fl.isFinite_is hf⟩
  exact ⟨z, hz, fz, by rw [← div_is_mag hw hi hp hz hr]; exact hr⟩

theorem smmaNext_mono {n : Nat} (h1 : 1 ≤ n) (h3 : n < 2 ^ 53) {x x' c c' : Fl} (hq : Quot n x) (hq' : Quot n x')
    (hxx : Fl.le x x' = true) (hc : Fl.le (.fin 0) c = true) (hcc : Fl.le c c' = true)
    (fx : x'.isFinite = true) (fc : c'.isFinite = true) (hf : (smmaNext ieee n x' c').isFinite = true) :
    Quot n (smmaNext ieee n x c) ∧ Quot n (smmaNext ieee n x' c') ∧
    Fl.le (smmaNext ieee n x c) (smmaNext ieee n x' c') = true := by
  obtain ⟨hi, hp⟩ := ofInt_pos ieee_lawful h1 h3.le
  obtain ⟨p0, pm⟩ := hq.mag h1 h3
  obtain ⟨p0', pm'⟩ := hq'.mag h1 h3
  obtain ⟨z', hz', fz', hx'⟩ := pm' fx
  obtain ⟨a, ha, -, -⟩ := le_nonneg_finite p0 hxx hx'
  obtain ⟨z, hz, fz, hx⟩ := pm (by rcases ha with rfl | ⟨rfl, rfl⟩ <;> rfl)
  have hle : roundMag 53 (-1074) (z / n) ≤ roundMag 53 (-1074) (z' / n) := by
    rw [hx.le hx', decide_eq_true_eq] at hxx; exact hxx
  have hr0 : 0 ≤ roundMag 53 (-1074) (z / n) := roundMag_nonneg' (div_nonneg hz hp.le)
  have hr0' : 0 ≤ roundMag 53 (-1074) (z' / n) := hr0.trans hle
  obtain ⟨b1, b2⟩ := back_mono' (p := 53) (emin := -1074) (emax := 1024) (by norm_num) h1 h3 hz hz' fz fz' hle
  have hc' := fl_le_trans hc hcc
  obtain ⟨m', d', s', hm', hd', hd0', hs', hs0'⟩ := next_parts h1 h3 hx' hr0' (by
    intro r hr
    rw [mul_is_mag hx' hi (mul_nonneg hr0' hp.le) hr, mul_comm]
    linarith) hc' hf
  obtain ⟨-, mm⟩ := mul_mono_right ieee_lawful hx hx' hi hp.le hr0 hle
  obtain ⟨mn, -⟩ := mul_mono_right ieee_lawful hx hx' hi hp.le hr0 hle
  obtain ⟨m, hm, hm0, -⟩ := le_nonneg_finite mn mm hm'
  have em : m = _ := mul_is_mag hx hi (mul_nonneg hr0 hp.le) hm
  have em' : m' = _ := mul_is_mag hx' hi (mul_nonneg hr0' hp.le) hm'
  rw [mul_comm] at em em'
  obtain ⟨k0, k⟩ := sub_key ieee_lawful hm hx
  obtain ⟨k0', k'⟩ := sub_key ieee_lawful hm' hx'
  have dd : Fl.le (ieee.sub (ieee.mul x (ieee.ofInt n)) x) (ieee.sub (ieee.mul x' (ieee.ofInt n)) x') = true := by
    refine Fl.le_iff.2 ⟨k0, k0', ?_⟩
    rw [k, k']
    exact ieee_lawful.r64.mono _ _ (by rw [em, em']; exact b2)
  have d0 : Fl.le (.fin 0) (ieee.sub (ieee.mul x (ieee.ofInt n)) x) = true := by
    refine Fl.le_iff.2 ⟨by simp, k0, ?_⟩
    rw [k]
    exact (Fl.le_iff.1 (rnd_nonneg ieee_lawful (by rw [em]; exact b1))).2.2
  obtain ⟨d, hd, hd0, -⟩ := le_nonneg_finite d0 dd hd'
  have ss := add_mono_nonneg ieee_lawful d0 hc dd hcc
  have s0 := add_nonneg_fl ieee_lawful d0 hc
  obtain ⟨s, hs, hs0, -⟩ := le_nonneg_finite s0 ss hs'
  obtain ⟨e, he, -, -⟩ := le_nonneg_finite hc hcc (Fl.isFinite_is fc)
  exact ⟨⟨_, s, hs, hs0, isFloat64_add hd he hs, rfl⟩,
    ⟨_, s', hs', hs0', isFloat64_add hd' (Fl.isFinite_is fc) hs', rfl⟩,
    (div_mono_nonneg ieee_lawful hi hp s0 ss).2⟩

theorem scan_smma_mono {n : Nat} (h1 : 1 ≤ n) (h3 : n < 2 ^ 53) {cs ds : List Candle} (h : Raised cs ds)
    (hd : ∀ d ∈ ds, d.close.isFinite = true) {a b : Fl} (ha : Quot n a) (hb : Quot n b) (hab : Fl.le a b = true)
    (hfin : ∀ y ∈ scan (smmaNext ieee n) b (closes ds), y.isFinite = true) :
    Below (scan (smmaNext ieee n) a (closes cs)) (scan (smmaNext ieee n) b (closes ds)) := by
  unfold Raised at h
  induction h generalizing a b with
  | nil => exact .cons hab .nil
  | @cons c d cs ds hc _ ih =>
    simp only [closes, List.map_cons, scan, List.mem_cons, forall_eq_or_imp] at ih hfin ⊢
    have hf2 : (smmaNext ieee n b d.close).isFinite = true := by
      apply hfin.2
      cases ds <;> simp [scan]
    obtain ⟨s1, s2, s3⟩ := smmaNext_mono h1 h3 ha hb hab hc.1 hc.2 hfin.1 (hd d (by simp)) hf2
    exact .cons hab (ih (fun d hd' => hd d (by simp [hd'])) s1 s2 s3 hfin.2)

theorem pred_is {n : Nat} (h1 : 1 ≤ n) (h3 : n < 2 ^ 53) :
    (ieee.sub (ieee.ofInt n) (ieee.const 1)).Is ((n : ℚ) - 1) ∧ (0 : ℚ) ≤ (n : ℚ) - 1 := by
  obtain ⟨hi, -⟩ := ofInt_pos ieee_lawful h1 h3.le
  have h0 : (0 : ℚ) ≤ (n : ℚ) - 1 := by
    have : (1 : ℚ) ≤ n := by exact_mod_cast h1
    linarith
  refine ⟨?_, h0⟩
  have c1 : ieee.const 1 = .fin 1 := rnd_one ieee_lawful
  obtain ⟨k0, k⟩ := sub_key ieee_lawful hi (Fl.is_fin 1)
  have e : ieee.rnd ((n : ℚ) - 1) = .fin ((n : ℚ) - 1) := by
    have := ieee_lawful.r64.int ((n : ℤ) - 1) (by
      rw [abs_of_nonneg (by omega)]; have : (n : ℤ) < 2 ^ 53 := by exact_mod_cast h3
      omega)
    push_cast at this
    exact this
  rw [c1]
  refine is_of_key (x := .fin ((n : ℚ) - 1)) ?_ (Fl.is_fin _) k0
  rw [k, e]

theorem smmaSecond_mono {n : Nat} (h1 : 1 ≤ n) (h3 : n < 2 ^ 53) {x x' c c' : Fl} (hx : Fl.le (.fin 0) x = true)
    (hxx : Fl.le x x' = true) (hc : Fl.le (.fin 0) c = true) (hcc : Fl.le c c' = true)
    (fx : x'.isFinite = true) (fc : c'.isFinite = true) (hf : (smmaSecond ieee n x' c').isFinite = true) :
    Quot n (smmaSecond ieee n x c) ∧ Quot n (smmaSecond ieee n x' c') ∧
    Fl.le (smmaSecond ieee n x c) (smmaSecond ieee n x' c') = true := by
  obtain ⟨hi, hp⟩ := ofInt_pos ieee_lawful h1 h3.le
  obtain ⟨hq, hq0⟩ := pred_is h1 h3
  have hc' := fl_le_trans hc hcc
  obtain ⟨a, ha, ha0, hle⟩ := le_nonneg_finite hx hxx (Fl.isFinite_is fx)
  obtain ⟨e, he, -, -⟩ := le_nonneg_finite hc hcc (Fl.isFinite_is fc)
  obtain ⟨m1, m2⟩ := mul_mono_right ieee_lawful ha (Fl.isFinite_is fx) hq hq0 ha0 hle
  have ss := add_mono_nonneg ieee_lawful m1 hc m2 hcc
  have s0 := add_nonneg_fl ieee_lawful m1 hc
  have m1' := fl_le_trans m1 m2
  unfold smmaSecond at hf ⊢
  rcases nonneg_cases m1' with e | ⟨m', hm', -⟩
  · exfalso
    rw [e, add_inf_left hc', div_inf_pos hi hp] at hf
    exact inf_not_finite hf
  rcases nonneg_cases (fl_le_trans s0 ss) with e | ⟨s', hs', hs0'⟩
  · exfalso
    rw [e, div_inf_pos hi hp] at hf
    exact inf_not_finite hf
  obtain ⟨m, hm, -, -⟩ := le_nonneg_finite m1 m2 hm'
  obtain ⟨s, hs, hs0, -⟩ := le_nonneg_finite s0 ss hs'
  exact ⟨⟨_, s, hs, hs0, isFloat64_add hm he hs, rfl⟩,
    ⟨_, s', hs', hs0', isFloat64_add hm' (Fl.isFinite_is fc) hs', rfl⟩,
    (div_mono_nonneg ieee_lawful hi hp s0 ss).2⟩

/-- **C124** In float64, too, raising closes does not lower any smoothed average, as long as the
averages of the raised closes do not overflow. -/
theorem C124_smma_monotone_ieee (cs ds : List Candle) (h : Raised cs ds)
    (hd : ∀ d ∈ ds, d.close.isFinite = true) (n : Nat)
    (h1 : 1 ≤ n) (h2 : n ≤ cs.length) (h3 : n < 2 ^ 53) :
    ∃ xs ys, smoothedMovingAverage ieee (some cs) n = .ok xs ∧
      smoothedMovingAverage ieee (some ds) n = .ok ys ∧
      ((∀ y ∈ ys, y.isFinite = true) → Below xs ys) := by
  have hl : cs.length = ds.length := h.length_eq
  refine ⟨_, _, smma_ok ieee cs n h1 h2, smma_ok ieee ds n h1 (hl ▸ h2), ?_⟩
  obtain ⟨hi, hp⟩ := ofInt_pos ieee_lawful h1 h3.le
  have hdrop := h.drop n
  have hmem : ∀ d ∈ ds.drop n, d.close.isFinite = true := fun d h' => hd d (List.mem_of_mem_drop h')
  obtain ⟨s1, s2⟩ := sum_mono ieee_lawful (h.take n) (.fin 0) (.fin 0) (by decide +kernel) (by decide +kernel)
  obtain ⟨a1, a2⟩ := div_mono_nonneg ieee_lawful hi hp s1 s2
  change Fl.le (.fin 0) (smmaFirst ieee cs n) = true at a1
  change Fl.le (smmaFirst ieee cs n) (smmaFirst ieee ds n) = true at a2
  generalize smmaFirst ieee cs n = a at a1 a2
  generalize smmaFirst ieee ds n = b at a2
  generalize cs.drop n = l at hdrop
  generalize ds.drop n = m at hdrop hmem
  cases hdrop with
  | nil => exact fun _ => .cons a2 .nil
  | @cons c d l m hc ht =>
    intro hfin
    simp only [List.mem_cons, forall_eq_or_imp] at hfin
    have hf2 : (smmaSecond ieee n b d.close).isFinite = true := by
      apply hfin.2
      cases m <;> simp [scan, closes]
    obtain ⟨q1, q2, q3⟩ := smmaSecond_mono h1 h3 a1 a2 hc.1 hc.2 hfin.1 (hmem d (by simp)) hf2
    exact .cons a2 (scan_smma_mono h1 h3 ht (fun d h' => hmem d (by simp [h'])) q1 q2 q3 hfin.2)

/-- The difference the code takes is not monotone in general: at a larger number it is smaller. -/
example : ∃ x y : ℚ, x < y ∧ IsFloat64 x ∧ IsFloat64 y ∧
    Fl.lt (ieee.sub (ieee.mul (.fin y) (ieee.ofInt 3)) (.fin y)) (ieee.sub (ieee.mul (.fin x) (ieee.ofInt 3)) (.fin x)) = true :=
  ⟨7223413688153893 / 4503599627370496, 7223413688153894 / 4503599627370496, by norm_num,
    ⟨7223413688153893, -52, by norm_num, by norm_num, by norm_num, by norm_num⟩,
    ⟨7223413688153894, -52, by norm_num, by norm_num, by norm_num, by norm_num⟩, by decide +kernel⟩

example :
    let c (x : ℚ) : Candle := ⟨0, .fin 0, .fin 0, .fin 0, ieee.rnd x, .fin 0⟩
    let cs := [c (1 / 10), c (2 / 10), c (3 / 10), c (4 / 10), c (3 / 10)]
    let ds := [c (1 / 10), c (5 / 10), c (3 / 10), c (4 / 10), c (7 / 10)]
    Raised cs ds ∧ (∀ d ∈ ds, d.close.isFinite = true) ∧
    (∃ ys, smoothedMovingAverage ieee (some ds) 3 = .ok ys ∧ ys.length = 3 ∧ ∀ y ∈ ys, y.isFinite = true) := by
  refine ⟨?_, by decide +kernel, _, rfl, by decide +kernel, by decide +kernel⟩
  exact .cons (by decide +kernel) (.cons (by decide +kernel) (.cons (by decide +kernel)
    (.cons (by decide +kernel) (.cons (by decide +kernel) .nil))))

end Finmod
