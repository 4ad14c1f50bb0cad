import Verif.Lemmas.Err
import Verif.Lemmas.Position

/-!
# Rounding errors of position updates

Multiples of a power of two stay multiples when rounded; one call of `Modify` in binary64.
-/

namespace Finmod
open Go Spec

/-! ### Multiples of a power of two -/

/-- A multiple of `2^g`. -/
def MulOf (g : ℤ) (q : ℚ) : Prop := ∃ n : ℤ, q = n * pow2 g

theorem MulOf.add {g : ℤ} {a b : ℚ} (ha : MulOf g a) (hb : MulOf g b) : MulOf g (a + b) := by
  obtain ⟨n, rfl⟩ := ha; obtain ⟨m, rfl⟩ := hb; exact ⟨n + m, by push_cast; ring⟩
theorem MulOf.neg {g : ℤ} {a : ℚ} (ha : MulOf g a) : MulOf g (-a) := by
  obtain ⟨n, rfl⟩ := ha; exact ⟨-n, by push_cast; ring⟩
theorem MulOf.sub {g : ℤ} {a b : ℚ} (ha : MulOf g a) (hb : MulOf g b) : MulOf g (a - b) := by
  rw [sub_eq_add_neg]; exact ha.add hb.neg
theorem MulOf.zero {g : ℤ} : MulOf g 0 := ⟨0, by simp⟩

theorem MulOf.coarser {g e : ℤ} {q : ℚ} (h : MulOf e q) (hge : g ≤ e) : MulOf g q := by
  obtain ⟨n, rfl⟩ := h
  refine ⟨n * 2 ^ (e - g).toNat, ?_⟩
  have e1 : pow2 e = (2 : ℚ) ^ (e - g).toNat * pow2 g := by
    rw [pow2_eq, pow2_eq, ← zpow_natCast, Int.toNat_of_nonneg (by omega), ← zpow_add₀ (by norm_num)]
    congr 1; ring
  rw [e1]; push_cast; ring

/-- A positive multiple is at least the unit. -/
theorem MulOf.le {g : ℤ} {q : ℚ} (h : MulOf g q) (hq : 0 < q) : pow2 g ≤ q := by
  obtain ⟨n, rfl⟩ := h
  have hg := pow2_pos g
  have hn : 0 < n := by
    by_contra hc
    have : (n : ℚ) ≤ 0 := by exact_mod_cast not_lt.1 hc
    have := mul_nonpos_of_nonpos_of_nonneg this hg.le
    linarith
  have : (1 : ℚ) ≤ n := by exact_mod_cast hn
  nlinarith

theorem roundMag_mulOf {g : ℤ} {q : ℚ} {p : ℕ} {emin : ℤ} (h : MulOf g q) : MulOf g (roundMag p emin q) := by
  rcases le_total (ulpExp p emin q) g with hle | hle
  · obtain ⟨n, hn⟩ := h.coarser hle
    rw [roundMag_of_mul hn]; exact h
  · exact MulOf.coarser ⟨roundInt (q / pow2 (ulpExp p emin q)), rfl⟩ hle

theorem rnd_mulOf {g : ℤ} {q r : ℚ} (h : MulOf g q) (hr : (ieee.rnd q).Is r) : MulOf g r := by
  rcases hr with hr | ⟨_, rfl⟩
  · change rne 53 (-1074) 1024 q = .fin r at hr
    unfold rne at hr
    simp only at hr
    have ha : MulOf g |q| := by
      rcases abs_choice q with e | e <;> rw [e]
      · exact h
      · exact h.neg
    have := roundMag_mulOf (p := 53) (emin := -1074) ha
    split_ifs at hr <;> cases hr
    · exact .zero
    · exact this.neg
    · exact this
  · exact .zero

theorem add_mulOf {g : ℤ} {x y : Fl} {a b r : ℚ} (hx : x.Is a) (hy : y.Is b) (ha : MulOf g a) (hb : MulOf g b)
    (hr : (ieee.add x y).Is r) : MulOf g r := by
  rcases FloatSem.add_is (S := ieee) hx hy with e | ⟨e, _, _⟩
  · rw [e] at hr; exact rnd_mulOf (ha.add hb) hr
  · rw [e, Fl.is_iff] at hr
    have := hr.2
    simp [Fl.toRat] at this
    rw [← this]; exact .zero

/-- A float64 of size at least 2^-100 is a multiple of 2^-152. -/
theorem float_mulOf {x : Fl} {a : ℚ} (hx : x.Is a) (hr : ieee.Rep x) (h : pow2 (-100) ≤ a) : MulOf (-152) a := by
  have hpos : 0 < a := lt_of_lt_of_le (pow2_pos _) h
  have hf : x = .fin a := by
    rcases hx with e | ⟨_, e⟩
    · exact e
    · rw [e] at hpos; exact absurd hpos (lt_irrefl _)
  have hra := hr a hf
  change rne 53 (-1074) 1024 a = .fin a at hra
  rw [rne_pos hpos] at hra
  split_ifs at hra
  have e := Fl.fin.inj hra
  rw [← e]
  refine MulOf.coarser ⟨roundInt (a / pow2 (ulpExp 53 (-1074) a)), rfl⟩ ?_
  unfold ulpExp
  refine le_trans ?_ (le_max_left _ _)
  have : (-100 : ℤ) ≤ Int.log 2 a := by
    have h2 := (Int.zpow_le_iff_le_log (b := 2) (R := ℚ) (by norm_num) hpos (x := -100)).1 (by
      rw [pow2_eq] at h; exact_mod_cast h)
    exact h2
  push_cast
  omega

/-! ### Error algebra -/

theorem scaled_div {x a Q u t : ℚ} (hQ : 0 < Q) (h : |x - a / Q| ≤ u * |a / Q| + t) :
    |x * Q - a| ≤ u * |a| + t * Q := by
  have e : x * Q - a = (x - a / Q) * Q := by field_simp
  rw [e, abs_mul, abs_of_pos hQ]
  have := mul_le_mul_of_nonneg_right h hQ.le
  have e2 : |a / Q| * Q = |a| := by rw [abs_div, abs_of_pos hQ]; field_simp
  calc |x - a / Q| * Q ≤ (u * |a / Q| + t) * Q := this
    _ = u * (|a / Q| * Q) + t * Q := by ring
    _ = _ := by rw [e2]

theorem scaled_mul {x a Q u t : ℚ} (hQ : 0 < Q) (h : |x - a| ≤ u * |a| + t) :
    |x * Q - a * Q| ≤ u * |a * Q| + t * Q := by
  rw [← sub_mul, abs_mul, abs_mul, abs_of_pos hQ]
  have := mul_le_mul_of_nonneg_right h hQ.le
  calc |x - a| * Q ≤ (u * |a| + t) * Q := this
    _ = _ := by ring

/-- Two rounding steps one after the other. -/
theorem err_step {u x y z E F : ℚ} (hu0 : 0 ≤ u) (h1 : |y - z| ≤ E) (h2 : |x - y| ≤ u * |y| + F) :
    |x - z| ≤ E + u * (|z| + E) + F := by
  have hy : |y| ≤ |z| + E := by
    have e : y = z + (y - z) := by ring
    rw [e]; exact (abs_add_le _ _).trans (by linarith)
  have e : x - z = (x - y) + (y - z) := by ring
  rw [e]
  have := mul_le_mul_of_nonneg_left hy hu0
  exact (abs_add_le _ _).trans (by linarith)

/-- The cost basis after `add`, in terms of the one before. -/
theorem add_basis_err {u t b c a1 A2 c1 C2 O Q' : ℚ} (hu0 : 0 ≤ u) (hu1 : u ≤ 1 / 1000) (ht : 0 ≤ t) (hQ : 0 ≤ Q')
    (h1 : |a1 - b| ≤ u * |b| + t) (h2 : |A2 - a1| ≤ u * |a1| + t * Q')
    (h3 : |c1 - c| ≤ u * |c| + t) (h4 : |C2 - c1| ≤ u * |c1| + t * Q')
    (h5 : |O - (A2 + C2)| ≤ u * |A2 + C2|) :
    |O - (b + c)| ≤ 10 * (u * (|b| + |c|)) + 10 * (t * (1 + Q')) := by
  have s1 := err_step hu0 h1 h2
  have s2 := err_step hu0 h3 h4
  have hb := abs_nonneg b
  have hc := abs_nonneg c
  have ub : 0 ≤ u * |b| := mul_nonneg hu0 hb
  have uc : 0 ≤ u * |c| := mul_nonneg hu0 hc
  have tq : 0 ≤ t * Q' := mul_nonneg ht hQ
  have small : ∀ X, 0 ≤ X → u * X ≤ X / 1000 := fun X hX => by
    have := mul_le_mul_of_nonneg_right hu1 hX; linarith
  have k1 := small (u * |b| + t) (by linarith)
  have k2 := small (u * |c| + t) (by linarith)
  have r1 : |A2 - b| ≤ 3 * (u * |b|) + 3 * t + t * Q' := by
    have : u * (|b| + (u * |b| + t)) = u * |b| + u * (u * |b| + t) := by ring
    linarith
  have r2 : |C2 - c| ≤ 3 * (u * |c|) + 3 * t + t * Q' := by
    have : u * (|c| + (u * |c| + t)) = u * |c| + u * (u * |c| + t) := by ring
    linarith
  have r3 : |(A2 + C2) - (b + c)| ≤ 3 * (u * |b|) + 3 * (u * |c|) + 6 * t + 2 * (t * Q') := by
    have e : (A2 + C2) - (b + c) = (A2 - b) + (C2 - c) := by ring
    rw [e]; exact (abs_add_le _ _).trans (by linarith)
  have s3 := err_step (F := 0) hu0 r3 (by linarith)
  have k3 := small (3 * (u * |b|) + 3 * (u * |c|) + 6 * t + 2 * (t * Q')) (by linarith)
  have hbc : u * |b + c| ≤ u * |b| + u * |c| := by
    rw [← mul_add]; exact mul_le_mul_of_nonneg_left (abs_add_le _ _) hu0
  have k4 : u * (|b + c| + (3 * (u * |b|) + 3 * (u * |c|) + 6 * t + 2 * (t * Q'))) =
      u * |b + c| + u * (3 * (u * |b|) + 3 * (u * |c|) + 6 * t + 2 * (t * Q')) := by ring
  have k5 : u * (|b| + |c|) = u * |b| + u * |c| := by ring
  have k6 : t * (1 + Q') = t + t * Q' := by ring
  rw [k5, k6]
  linarith

/-- The cost basis after a reducing trade, in terms of the one before. -/
theorem sub_basis_err {u t b q p c R M D e O Q Q' : ℚ} (hu0 : 0 ≤ u) (hu1 : u ≤ 1 / 1000) (ht : 0 ≤ t)
    (hQ : 0 ≤ Q) (hQ' : 0 ≤ Q') (hp : 0 ≤ p) (hc : c = p * q)
    (h1 : |R - q| ≤ u * |q| + t * Q) (h2 : |M - p * R| ≤ u * |p * R| + t * Q)
    (h3 : |D - (b - M)| ≤ u * |b - M|) (h4 : |e - D| ≤ u * |D| + t) (h5 : |O - e| ≤ u * |e| + t * Q') :
    |O - (b - c)| ≤ 10 * (u * (|b| + |c|)) + 10 * (t * (1 + Q + Q' + p * Q)) := by
  have hb := abs_nonneg b
  have hc0 := abs_nonneg c
  have ub : 0 ≤ u * |b| := mul_nonneg hu0 hb
  have uc : 0 ≤ u * |c| := mul_nonneg hu0 hc0
  have tq : 0 ≤ t * Q := mul_nonneg ht hQ
  have tq' : 0 ≤ t * Q' := mul_nonneg ht hQ'
  have tpq : 0 ≤ t * (p * Q) := mul_nonneg ht (mul_nonneg hp hQ)
  have small : ∀ X, 0 ≤ X → u * X ≤ X / 1000 := fun X hX => by
    have := mul_le_mul_of_nonneg_right hu1 hX; linarith
  have r1 : |p * R - c| ≤ u * |c| + t * (p * Q) := by
    have e1 : p * R - c = p * (R - q) := by rw [hc]; ring
    rw [e1, abs_mul, abs_of_nonneg hp]
    have := mul_le_mul_of_nonneg_left h1 hp
    have e2 : |c| = p * |q| := by rw [hc, abs_mul, abs_of_nonneg hp]
    rw [e2]
    calc p * |R - q| ≤ p * (u * |q| + t * Q) := this
      _ = _ := by ring
  have s1 := err_step hu0 r1 h2
  have k1 := small (u * |c| + t * (p * Q)) (by linarith)
  have r2 : |M - c| ≤ 3 * (u * |c|) + 2 * (t * (p * Q)) + t * Q := by
    have : u * (|c| + (u * |c| + t * (p * Q))) = u * |c| + u * (u * |c| + t * (p * Q)) := by ring
    linarith
  have r3 : |(b - M) - (b - c)| ≤ 3 * (u * |c|) + 2 * (t * (p * Q)) + t * Q := by
    have e1 : (b - M) - (b - c) = -(M - c) := by ring
    rw [e1, abs_neg]; exact r2
  have s2 := err_step (F := 0) hu0 r3 (by linarith)
  have k2 := small (3 * (u * |c|) + 2 * (t * (p * Q)) + t * Q) (by linarith)
  have hbc : u * |b - c| ≤ u * |b| + u * |c| := by
    rw [← mul_add]; exact mul_le_mul_of_nonneg_left (abs_sub _ _) hu0
  have r4 : |D - (b - c)| ≤ 5 * (u * |c|) + u * |b| + 3 * (t * (p * Q)) + 2 * (t * Q) := by
    have : u * (|b - c| + (3 * (u * |c|) + 2 * (t * (p * Q)) + t * Q)) =
      u * |b - c| + u * (3 * (u * |c|) + 2 * (t * (p * Q)) + t * Q) := by ring
    linarith
  have s3 := err_step hu0 r4 h4
  have k3 := small (5 * (u * |c|) + u * |b| + 3 * (t * (p * Q)) + 2 * (t * Q)) (by linarith)
  have r5 : |e - (b - c)| ≤ 7 * (u * |c|) + 3 * (u * |b|) + 4 * (t * (p * Q)) + 3 * (t * Q) + t := by
    have : u * (|b - c| + (5 * (u * |c|) + u * |b| + 3 * (t * (p * Q)) + 2 * (t * Q))) =
      u * |b - c| + u * (5 * (u * |c|) + u * |b| + 3 * (t * (p * Q)) + 2 * (t * Q)) := by ring
    linarith
  have s4 := err_step hu0 r5 h5
  have k4 := small (7 * (u * |c|) + 3 * (u * |b|) + 4 * (t * (p * Q)) + 3 * (t * Q) + t) (by linarith)
  have k5 : u * (|b - c| + (7 * (u * |c|) + 3 * (u * |b|) + 4 * (t * (p * Q)) + 3 * (t * Q) + t)) =
      u * |b - c| + u * (7 * (u * |c|) + 3 * (u * |b|) + 4 * (t * (p * Q)) + 3 * (t * Q) + t) := by ring
  have k6 : u * (|b| + |c|) = u * |b| + u * |c| := by ring
  have k7 : t * (1 + Q + Q' + p * Q) = t + t * Q + t * Q' + t * (p * Q) := by ring
  rw [k6, k7]
  linarith

/-! ### One call of `Modify` in binary64 -/

/-- An absolute error far below anything visible, 2^-800. -/
def eta : ℚ := pow2 (-800)
theorem eta_eq : eta = 2 ^ (-800 : ℤ) := pow2_eq _
theorem eta_pos : 0 < eta := pow2_pos _
theorem tiny_eta : tiny * pow2 260 ≤ eta := by
  rw [tiny_eq, eta_eq, pow2_eq, ← zpow_add₀ (by norm_num)]
  exact zpow_le_zpow_right₀ (by norm_num) (by norm_num)
attribute [irreducible] eta

/-- The float fields of `p` against the true book-keeping of `n` trades: quantity `Q`, basis `B`,
total quantity `V`, turnover `T`. -/
structure PosErr (p : Position) (n Q V B T : ℚ) : Prop where
  qF : IsF p.quantity p.quantity.toRat
  oF : IsF p.openPrice p.openPrice.toRat
  pos : 0 < p.quantity.toRat
  grid : MulOf (-152) p.quantity.toRat
  q_err : |p.quantity.toRat - Q| ≤ 2 * n * uR * V
  absQ : |Q| ≤ V
  V_le : V ≤ n * 2 ^ 100
  b_err : |p.openPrice.toRat * p.quantity.toRat - B| ≤ n * (32 * (uR * T) + eta)
  absB : |B| ≤ T
  T_le : T ≤ n * 2 ^ 200

theorem two100 : (2 : ℚ) ^ (100 : ℤ) = 2 ^ 100 := by norm_num

theorem PosErr.bounds {p : Position} {n Q V B T : ℚ} (h : PosErr p n Q V B T) (hn : n ≤ 2 ^ 40) :
    p.quantity.toRat ≤ 2 * V ∧ p.quantity.toRat ≤ 2 ^ 141 ∧
    |p.openPrice.toRat * p.quantity.toRat| ≤ 2 * T + n * eta ∧
    |p.openPrice.toRat * p.quantity.toRat| ≤ 2 ^ 242 ∧ |p.openPrice.toRat| ≤ 2 ^ 200 * 2 ^ 200 := by
  have hus : uR = 1 / 2 ^ 53 := by rw [uR_eq]; norm_num
  have hu := uR_pos
  have he := eta_pos
  have hV0 : 0 ≤ V := (abs_nonneg _).trans h.absQ
  have hT0 : 0 ≤ T := (abs_nonneg _).trans h.absB
  have hV2 := h.V_le
  have hT2 := h.T_le
  have hVb : V ≤ 2 ^ 140 := by
    have : n * 2 ^ 100 ≤ (2 : ℚ) ^ 40 * 2 ^ 100 := mul_le_mul_of_nonneg_right hn (by norm_num)
    have e : (2 : ℚ) ^ 40 * 2 ^ 100 = 2 ^ 140 := by norm_num
    linarith
  have hTb : T ≤ 2 ^ 240 := by
    have : n * 2 ^ 200 ≤ (2 : ℚ) ^ 40 * 2 ^ 200 := mul_le_mul_of_nonneg_right hn (by norm_num)
    have e : (2 : ℚ) ^ 40 * 2 ^ 200 = 2 ^ 240 := by norm_num
    linarith
  have hnu : n * uR ≤ 1 / 2 ^ 13 := by
    rw [hus]
    have := mul_le_mul_of_nonneg_right hn (by norm_num : (0 : ℚ) ≤ 1 / 2 ^ 53)
    have e : (2 : ℚ) ^ 40 * (1 / 2 ^ 53) = 1 / 2 ^ 13 := by norm_num
    linarith
  have b1 : p.quantity.toRat ≤ 2 * V := by
    have k := (abs_le.1 h.q_err).2
    have k2 := (abs_le.1 h.absQ).2
    have k3 : 2 * n * uR * V ≤ V := by
      have := mul_le_mul_of_nonneg_right hnu hV0
      have e : (2 : ℚ) * n * uR * V = 2 * (n * uR * V) := by ring
      have e2 : (1 : ℚ) / 2 ^ 13 * V ≤ V / 2 := by
        have := mul_le_mul_of_nonneg_right (by norm_num : (1 : ℚ) / 2 ^ 13 ≤ 1 / 2) hV0
        linarith
      linarith
    linarith
  have b3 : |p.openPrice.toRat * p.quantity.toRat| ≤ 2 * T + n * eta := by
    have e : p.openPrice.toRat * p.quantity.toRat = B + (p.openPrice.toRat * p.quantity.toRat - B) := by ring
    rw [e]
    refine (abs_add_le _ _).trans ?_
    have k := h.b_err
    have k2 := h.absB
    have k3 : n * (32 * (uR * T) + eta) = 32 * (n * uR * T) + n * eta := by ring
    have k4 := mul_le_mul_of_nonneg_right hnu hT0
    have k5 : 32 * ((1 : ℚ) / 2 ^ 13 * T) ≤ T := by
      have := mul_le_mul_of_nonneg_right (by norm_num : 32 * ((1 : ℚ) / 2 ^ 13) ≤ 1) hT0
      linarith
    linarith
  have heta1 : eta ≤ 1 := by
    rw [eta_eq]; exact zpow_le_one_of_nonpos₀ (by norm_num) (by norm_num)
  have b4 : |p.openPrice.toRat * p.quantity.toRat| ≤ 2 ^ 242 := by
    have k : n * eta ≤ 2 ^ 40 * 1 := mul_le_mul hn heta1 he.le (by norm_num)
    have e : 2 * (2 : ℚ) ^ 240 + 2 ^ 40 * 1 ≤ 2 ^ 242 := by norm_num
    linarith
  refine ⟨b1, ?_, b3, b4, ?_⟩
  · have e : 2 * (2 : ℚ) ^ 140 = 2 ^ 141 := by norm_num
    linarith
  · have hq := h.grid.le h.pos
    rw [pow2_eq] at hq
    rw [abs_mul, abs_of_pos h.pos] at b4
    by_contra hc
    push Not at hc
    have k : (2 : ℚ) ^ 200 * 2 ^ 200 * 2 ^ (-152 : ℤ) ≤ |p.openPrice.toRat| * p.quantity.toRat :=
      mul_le_mul hc.le hq (zpow_nonneg (by norm_num) _) (abs_nonneg _)
    have e : (2 : ℚ) ^ 242 < 2 ^ 200 * 2 ^ 200 * 2 ^ (-152 : ℤ) := by norm_num
    linarith

/-- The accumulation of basis errors. -/
theorem basis_accum {n b B B' T c x : ℚ} (hn0 : 0 ≤ n) (hn : n ≤ 2 ^ 40) (hc : 0 ≤ c) (hT : 0 ≤ T)
    (h1 : |b - B| ≤ n * (32 * (uR * T) + eta)) (hb : |b| ≤ 2 * T + n * eta) {o : ℚ}
    (hx : |x - B'| ≤ |o - B'| + |x - o|) (ho : |o - B'| = |b - B|)
    (h2 : |x - o| ≤ 10 * (uR * (|b| + |c|)) + eta / 2) :
    |x - B'| ≤ (n + 1) * (32 * (uR * (T + c)) + eta) := by
  have hus : uR = 1 / 2 ^ 53 := by rw [uR_eq]; norm_num
  have hu := uR_pos
  have he := eta_pos
  rw [abs_of_nonneg hc] at h2
  have k1 : uR * (|b| + c) ≤ uR * (2 * T + n * eta + c) := mul_le_mul_of_nonneg_left (by linarith) hu.le
  have k2 : uR * (2 * T + n * eta + c) = 2 * (uR * T) + n * uR * eta + uR * c := by ring
  have k3 : n * uR * eta ≤ eta / 100 := by
    have : n * uR ≤ 1 / 100 := by
      rw [hus]
      have := mul_le_mul_of_nonneg_right hn (by norm_num : (0 : ℚ) ≤ 1 / 2 ^ 53)
      have e : (2 : ℚ) ^ 40 * (1 / 2 ^ 53) ≤ 1 / 100 := by norm_num
      linarith
    have := mul_le_mul_of_nonneg_right this he.le
    linarith
  have k4 : (n + 1) * (32 * (uR * (T + c)) + eta) = n * (32 * (uR * T) + eta) + n * (32 * (uR * c)) +
      32 * (uR * T) + 32 * (uR * c) + eta := by ring
  have k5 : 0 ≤ n * (32 * (uR * c)) := mul_nonneg hn0 (mul_nonneg (by norm_num) (mul_nonneg hu.le hc))
  have k6 : 0 ≤ uR * T := mul_nonneg hu.le hT
  have k7 : 0 ≤ uR * c := mul_nonneg hu.le hc
  rw [k4]
  linarith

theorem q_accum {n q Q V x y x' s : ℚ} (hn0 : 0 ≤ n) (hn : n ≤ 2 ^ 40) (hq : 0 ≤ q) (hV : 0 ≤ V)
    (hs : |s| = q) (h1 : |x - Q| ≤ 2 * n * uR * V) (hQ : |Q| ≤ V) (hy : y = x + s) (h2 : |x' - y| ≤ uR * |y|) :
    |x' - (Q + s)| ≤ 2 * (n + 1) * uR * (V + q) := by
  have hus : uR = 1 / 2 ^ 53 := by rw [uR_eq]; norm_num
  have hu := uR_pos
  have h3 : |y - (Q + s)| ≤ 2 * n * uR * V := by
    have : y - (Q + s) = x - Q := by rw [hy]; ring
    rw [this]; exact h1
  have s1 := err_step (F := 0) hu.le h3 (by linarith)
  have k1 : |Q + s| ≤ V + q := (abs_add_le _ _).trans (by linarith)
  have k2 : uR * (|Q + s| + 2 * n * uR * V) ≤ uR * (V + q + V) := by
    apply mul_le_mul_of_nonneg_left _ hu.le
    have : 2 * n * uR ≤ 1 := by
      rw [hus]
      have := mul_le_mul_of_nonneg_right hn (by norm_num : (0 : ℚ) ≤ 1 / 2 ^ 53)
      have e : 2 * ((2 : ℚ) ^ 40 * (1 / 2 ^ 53)) ≤ 1 := by norm_num
      linarith
    have := mul_le_mul_of_nonneg_right this hV
    linarith
  have k3 : 2 * (n + 1) * uR * (V + q) = 2 * n * uR * V + 2 * n * uR * q + 2 * (uR * V) + 2 * (uR * q) := by ring
  have k4 : 0 ≤ 2 * n * uR * q := by positivity
  have k5 : 0 ≤ uR * q := mul_nonneg hu.le hq
  have k6 : uR * (V + q + V) = 2 * (uR * V) + uR * q := by ring
  rw [k3]
  linarith

/-! Range checks: nothing overflows. -/

theorem huge500 : (2 : ℚ) ^ 250 * 2 ^ 250 ≤ huge := by
  rw [huge_eq]
  calc (2 : ℚ) ^ 250 * 2 ^ 250 = 2 ^ (250 : ℤ) * 2 ^ (250 : ℤ) := by norm_num
    _ = 2 ^ (500 : ℤ) := by rw [← zpow_add₀ (by norm_num)]; norm_num
    _ ≤ _ := zpow_le_zpow_right₀ (by norm_num) (by norm_num)

theorem le_huge {x : ℚ} (h : x ≤ 2 ^ 250 * 2 ^ 250) : x ≤ huge := h.trans huge500

theorem tiny_mul {x : ℚ} (h : x ≤ 2 ^ 250) : 10 * (tiny * x) ≤ eta / 2 := by
  have h1 : tiny * x ≤ tiny * 2 ^ 250 := mul_le_mul_of_nonneg_left h tiny_nonneg
  have h2 := tiny_eta
  have e : pow2 260 = 1024 * 2 ^ 250 := by
    rw [pow2_eq, show (260 : ℤ) = 10 + 250 by norm_num, zpow_add₀ (by norm_num)]; norm_num
  rw [e] at h2
  have := mul_nonneg tiny_nonneg (by norm_num : (0 : ℚ) ≤ 2 ^ 250)
  linarith

theorem Spec.FloatTrade.facts {t : Trade} (h : FloatTrade t) :
    IsF t.price t.price.toRat ∧ IsF t.quantity t.quantity.toRat ∧ 0 < t.quantity.toRat ∧
    MulOf (-152) t.quantity.toRat ∧ t.price.toRat ≤ 2 ^ 100 ∧ t.quantity.toRat ≤ 2 ^ 100 := by
  have h1 := Fl.isFinite_is h.price
  have h2 := Fl.isFinite_is h.qty
  have hp : 0 < t.quantity.toRat := lt_of_lt_of_le (zpow_pos (by norm_num) _) h.qty_ge
  refine ⟨isF_of_rep h1 h.priceRep, isF_of_rep h2 h.qtyRep, hp, ?_, ?_, ?_⟩
  · exact float_mulOf h2 h.qtyRep (by rw [pow2_eq]; exact h.qty_ge)
  · have := h.price_le; rwa [two100] at this
  · have := h.qty_le; rwa [two100] at this

theorem rnd_pos_of_mulOf {x : Fl} {a r : ℚ} (hx : x.Is r) (ha : 0 < a) (hr : |r - a| ≤ uR * |a|) : 0 < r := by
  have _ := hx
  have hus : uR ≤ 1 / 2 := by rw [uR_eq]; norm_num
  rw [abs_of_pos ha] at hr
  have := (abs_le.1 hr).1
  have := mul_le_mul_of_nonneg_right hus ha.le
  linarith

theorem PosErr.add {p : Position} {t : Trade} {n Q V B T : ℚ} (h : PosErr p n Q V B T) (ht : FloatTrade t)
    (hn1 : 1 ≤ n) (hn : n ≤ 2 ^ 40) :
    PosErr (posAdd ieee p t) (n + 1) (Q + t.quantity.toRat) (V + t.quantity.toRat)
      (B + t.price.toRat * t.quantity.toRat) (T + t.price.toRat * t.quantity.toRat) := by
  obtain ⟨tp, tq, tpos, tgrid, tp2, tq2⟩ := ht.facts
  obtain ⟨b1, b2, b3, b4, b5⟩ := h.bounds hn
  have hpos := h.pos
  have hV0 : 0 ≤ V := (abs_nonneg _).trans h.absQ
  have hT0 : 0 ≤ T := (abs_nonneg _).trans h.absB
  have hus : uR ≤ 1 / 1000 := by rw [uR_eq]; norm_num
  set x := p.quantity.toRat
  set o := p.openPrice.toRat
  set q := t.quantity.toRat
  set r := t.price.toRat
  have hr0 : 0 ≤ r := ht.price_nonneg
  have hrq : r * q ≤ 2 ^ 200 := by
    have : r * q ≤ 2 ^ 100 * 2 ^ 100 := mul_le_mul tp2 tq2 tpos.le (by norm_num)
    have e : (2 : ℚ) ^ 100 * 2 ^ 100 = 2 ^ 200 := by norm_num
    linarith
  have hrq0 : 0 ≤ r * q := mul_nonneg hr0 tpos.le
  have hxq : |x + q| = x + q := abs_of_pos (by linarith)
  obtain ⟨Q', hQ', hQe⟩ := add_near h.qF tq (by
    rw [hxq]; apply le_huge
    have : (2 : ℚ) ^ 141 + 2 ^ 100 ≤ 2 ^ 250 * 2 ^ 250 := by norm_num
    linarith)
  have hQpos : 0 < Q' := rnd_pos_of_mulOf hQ'.1 (by linarith) hQe
  have hQgrid : MulOf (-152) Q' := add_mulOf h.qF.1 tq.1 h.grid tgrid hQ'.1
  have hQ1 := hQgrid.le hQpos
  rw [pow2_eq] at hQ1
  have hQb : Q' ≤ 2 ^ 142 := by
    have k := (abs_le.1 hQe).2
    rw [hxq] at k
    have k2 : uR * (x + q) ≤ 1 / 1000 * (x + q) := mul_le_mul_of_nonneg_right hus (by linarith)
    have e : ((2 : ℚ) ^ 141 + 2 ^ 100) * (1001 / 1000) ≤ 2 ^ 142 := by norm_num
    linarith
  have divb : ∀ a : ℚ, |a| ≤ 2 ^ 243 → |a / Q'| ≤ 2 ^ 200 * 2 ^ 200 := by
    intro a ha
    rw [abs_div, abs_of_pos hQpos, div_le_iff₀ hQpos]
    have : (2 : ℚ) ^ 200 * 2 ^ 200 * 2 ^ (-152 : ℤ) ≤ 2 ^ 200 * 2 ^ 200 * Q' :=
      mul_le_mul_of_nonneg_left hQ1 (by norm_num)
    have e : (2 : ℚ) ^ 243 ≤ 2 ^ 200 * 2 ^ 200 * 2 ^ (-152 : ℤ) := by norm_num
    linarith
  have small : ∀ {y z : ℚ}, |y - z| ≤ uR * |z| + tiny → |y| ≤ 2 * |z| + 1 := by
    intro y z hyz
    have e : y = z + (y - z) := by ring
    rw [e]; refine (abs_add_le _ _).trans ?_
    have := mul_le_mul_of_nonneg_right hus (abs_nonneg z)
    have h2 : tiny ≤ 1 := by rw [tiny_eq]; exact zpow_le_one_of_nonpos₀ (by norm_num) (by norm_num)
    linarith [abs_nonneg z]
  obtain ⟨a1, ha1, ha1e⟩ := mul_near h.oF.1 h.qF.1 (le_huge (by
    have : (2 : ℚ) ^ 242 ≤ 2 ^ 250 * 2 ^ 250 := by norm_num
    linarith))
  have ha1b : |a1| ≤ 2 ^ 243 := by
    have := small ha1e
    have e : (2 : ℚ) * 2 ^ 242 = 2 ^ 243 := by norm_num
    have hb3 : |o * x| ≤ 2 ^ 242 - 1 := by
      have hT := h.T_le
      have k : n * 2 ^ 200 ≤ (2 : ℚ) ^ 40 * 2 ^ 200 := mul_le_mul_of_nonneg_right hn (by norm_num)
      have k2 : n * eta ≤ 2 ^ 40 * 1 := mul_le_mul hn (by
        rw [eta_eq]; exact zpow_le_one_of_nonpos₀ (by norm_num) (by norm_num)) eta_pos.le (by norm_num)
      have e : 2 * ((2 : ℚ) ^ 40 * 2 ^ 200) + 2 ^ 40 * 1 ≤ 2 ^ 242 - 1 := by norm_num
      linarith
    linarith
  obtain ⟨a2, ha2, ha2e⟩ := div_near ha1.1 hQ'.1 hQpos.ne' (le_huge (by
    have := divb a1 ha1b
    have : (2 : ℚ) ^ 200 * 2 ^ 200 ≤ 2 ^ 250 * 2 ^ 250 := by norm_num
    linarith))
  obtain ⟨c1, hc1, hc1e⟩ := mul_near tp.1 tq.1 (le_huge (by
    rw [abs_of_nonneg hrq0]
    have : (2 : ℚ) ^ 200 ≤ 2 ^ 250 * 2 ^ 250 := by norm_num
    linarith))
  have hc1b : |c1| ≤ 2 ^ 243 := by
    have := small hc1e
    rw [abs_of_nonneg hrq0] at this
    have e : (2 : ℚ) * 2 ^ 200 + 1 ≤ 2 ^ 243 := by norm_num
    linarith
  obtain ⟨c2, hc2, hc2e⟩ := div_near hc1.1 hQ'.1 hQpos.ne' (le_huge (by
    have := divb c1 hc1b
    have : (2 : ℚ) ^ 200 * 2 ^ 200 ≤ 2 ^ 250 * 2 ^ 250 := by norm_num
    linarith))
  obtain ⟨o', ho', ho'e⟩ := add_near ha2 hc2 (le_huge (by
    refine (abs_add_le _ _).trans ?_
    have k1 := small ha2e
    have k2 := small hc2e
    have k3 := divb a1 ha1b
    have k4 := divb c1 hc1b
    have e : 4 * ((2 : ℚ) ^ 200 * 2 ^ 200) + 2 ≤ 2 ^ 250 * 2 ^ 250 := by norm_num
    linarith))
  have eqQ : (posAdd ieee p t).quantity.toRat = Q' := hQ'.1.toRat
  have eqO : (posAdd ieee p t).openPrice.toRat = o' := ho'.1.toRat
  have hO : |o' * Q' - (o * x + r * q)| ≤ 10 * (uR * (|o * x| + |r * q|)) + 10 * (tiny * (1 + Q')) := by
    refine add_basis_err uR_nonneg hus tiny_nonneg hQpos.le ha1e (scaled_div hQpos ha2e) hc1e (scaled_div hQpos hc2e) ?_
    have := scaled_mul (t := 0) hQpos (by rw [add_zero]; exact ho'e)
    rw [add_mul, zero_mul, add_zero] at this
    exact this
  have htin := tiny_mul (x := 1 + Q') (by
    have : (1 : ℚ) + 2 ^ 142 ≤ 2 ^ 250 := by norm_num
    linarith)
  refine ⟨by rw [eqQ]; exact hQ', by rw [eqO]; exact ho', by rw [eqQ]; exact hQpos, by rw [eqQ]; exact hQgrid,
    ?_, ?_, ?_, ?_, ?_, ?_⟩
  · rw [eqQ]
    exact q_accum (by linarith) hn tpos.le hV0 (abs_of_pos tpos) h.q_err h.absQ rfl hQe
  · exact (abs_add_le _ _).trans (by rw [abs_of_pos tpos]; linarith [h.absQ])
  · linarith [h.V_le]
  · rw [eqO, eqQ]
    refine basis_accum (by linarith) hn hrq0 hT0 h.b_err b3 (o := o * x + r * q) ?_ ?_ (by linarith)
    · have e : o' * Q' - (B + r * q) = (o * x + r * q - (B + r * q)) + (o' * Q' - (o * x + r * q)) := by ring
      rw [e]; exact abs_add_le _ _
    · congr 1; ring
  · exact (abs_add_le _ _).trans (by rw [abs_of_nonneg hrq0]; linarith [h.absB])
  · linarith [h.T_le]

theorem PosErr.shrink {p : Position} {t : Trade} {n Q V B T : ℚ} (h : PosErr p n Q V B T) (ht : FloatTrade t)
    (hn1 : 1 ≤ n) (hn : n ≤ 2 ^ 40) (hle : Fl.le (ieee.sub p.quantity t.quantity) (.fin 0) = false) :
    PosErr (shrunkBy ieee p t) (n + 1) (Q - t.quantity.toRat) (V + t.quantity.toRat)
      (B - t.price.toRat * t.quantity.toRat) (T + t.price.toRat * t.quantity.toRat) := by
  obtain ⟨tp, tq, tpos, tgrid, tp2, tq2⟩ := ht.facts
  obtain ⟨b1, b2, b3, b4, b5⟩ := h.bounds hn
  have hpos := h.pos
  have hV0 : 0 ≤ V := (abs_nonneg _).trans h.absQ
  have hT0 : 0 ≤ T := (abs_nonneg _).trans h.absB
  have hus : uR ≤ 1 / 1000 := by rw [uR_eq]; norm_num
  set x := p.quantity.toRat
  set o := p.openPrice.toRat
  set q := t.quantity.toRat
  set r := t.price.toRat
  have hr0 : 0 ≤ r := ht.price_nonneg
  have hrq : r * q ≤ 2 ^ 200 := by
    have : r * q ≤ 2 ^ 100 * 2 ^ 100 := mul_le_mul tp2 tq2 tpos.le (by norm_num)
    have e : (2 : ℚ) ^ 100 * 2 ^ 100 = 2 ^ 200 := by norm_num
    linarith
  have hrq0 : 0 ≤ r * q := mul_nonneg hr0 tpos.le
  have hx1 := h.grid.le hpos
  rw [pow2_eq] at hx1
  have hxqb : |x - q| ≤ 2 ^ 141 + 2 ^ 100 := (abs_sub _ _).trans (by
    rw [abs_of_pos hpos, abs_of_pos tpos]; linarith)
  obtain ⟨Q', hQ', hQe⟩ := sub_near h.qF tq (le_huge (by
    have : (2 : ℚ) ^ 141 + 2 ^ 100 ≤ 2 ^ 250 * 2 ^ 250 := by norm_num
    linarith))
  have hQpos : 0 < Q' := by
    rw [hQ'.1.le (Fl.is_fin 0)] at hle
    simpa using hle
  have hQgrid : MulOf (-152) Q' := by
    have := hQ'.1
    unfold FloatSem.sub at this
    exact add_mulOf h.qF.1 (isF_neg tq).1 h.grid tgrid.neg this
  have hQ1 := hQgrid.le hQpos
  rw [pow2_eq] at hQ1
  have hQb : Q' ≤ 2 ^ 142 := by
    have k := (abs_le.1 hQe).2
    have k2 : uR * |x - q| ≤ 1 / 1000 * |x - q| := mul_le_mul_of_nonneg_right hus (abs_nonneg _)
    have k3 := (abs_le.1 hxqb).2
    have e : ((2 : ℚ) ^ 141 + 2 ^ 100) * (1001 / 1000) ≤ 2 ^ 142 := by norm_num
    linarith
  have small : ∀ {y z : ℚ}, |y - z| ≤ uR * |z| + tiny → |y| ≤ 2 * |z| + 1 := by
    intro y z hyz
    have e : y = z + (y - z) := by ring
    rw [e]; refine (abs_add_le _ _).trans ?_
    have := mul_le_mul_of_nonneg_right hus (abs_nonneg z)
    have h2 : tiny ≤ 1 := by rw [tiny_eq]; exact zpow_le_one_of_nonpos₀ (by norm_num) (by norm_num)
    linarith [abs_nonneg z]
  -- q / x
  have hqx : |q / x| ≤ 2 ^ 252 := by
    rw [abs_div, abs_of_pos tpos, abs_of_pos hpos, div_le_iff₀ hpos]
    have : (2 : ℚ) ^ 252 * 2 ^ (-152 : ℤ) ≤ 2 ^ 252 * x := mul_le_mul_of_nonneg_left hx1 (by norm_num)
    have e : (2 : ℚ) ^ 100 ≤ 2 ^ 252 * 2 ^ (-152 : ℤ) := by norm_num
    linarith
  obtain ⟨ρ, hρ, hρe⟩ := div_near tq.1 h.qF.1 hpos.ne' (le_huge (by
    have : (2 : ℚ) ^ 252 ≤ 2 ^ 250 * 2 ^ 250 := by norm_num
    linarith))
  have hρb : |ρ| ≤ 2 ^ 254 := by
    have := small hρe
    have e : 2 * (2 : ℚ) ^ 252 + 1 ≤ 2 ^ 254 := by norm_num
    linarith
  have hrρ : |r * ρ| ≤ 2 ^ 100 * 2 ^ 254 := by
    rw [abs_mul, abs_of_nonneg hr0]; exact mul_le_mul tp2 hρb (abs_nonneg _) (by norm_num)
  obtain ⟨m, hm, hme⟩ := mul_near tp.1 hρ.1 (le_huge (by
    have : (2 : ℚ) ^ 100 * 2 ^ 254 ≤ 2 ^ 250 * 2 ^ 250 := by norm_num
    linarith))
  have hmb : |m| ≤ 2 ^ 100 * 2 ^ 256 := by
    have := small hme
    have e : 2 * ((2 : ℚ) ^ 100 * 2 ^ 254) + 1 ≤ 2 ^ 100 * 2 ^ 256 := by norm_num
    linarith
  have hom : |o - m| ≤ 2 ^ 200 * 2 ^ 201 := (abs_sub _ _).trans (by
    have e : (2 : ℚ) ^ 200 * 2 ^ 200 + 2 ^ 100 * 2 ^ 256 ≤ 2 ^ 200 * 2 ^ 201 := by norm_num
    linarith)
  obtain ⟨d, hd, hde⟩ := sub_near h.oF hm (le_huge (by
    have : (2 : ℚ) ^ 200 * 2 ^ 201 ≤ 2 ^ 250 * 2 ^ 250 := by norm_num
    linarith))
  have hR : |ρ * x - q| ≤ uR * |q| + tiny * x := scaled_div hpos hρe
  have hM : |m * x - r * (ρ * x)| ≤ uR * |r * (ρ * x)| + tiny * x := by
    have := scaled_mul hpos hme
    rwa [mul_assoc] at this
  have hD : |d * x - (o * x - m * x)| ≤ uR * |o * x - m * x| := by
    have := scaled_mul (t := 0) hpos (by rw [add_zero]; exact hde)
    rw [sub_mul, zero_mul, add_zero] at this
    exact this
  -- sizes of d * x
  have tx : tiny * x ≤ 1 := by
    have h1 : tiny * x ≤ tiny * 2 ^ 250 := mul_le_mul_of_nonneg_left (by
      have : (2 : ℚ) ^ 141 ≤ 2 ^ 250 := by norm_num
      linarith) tiny_nonneg
    have h2 := tiny_mul (x := 2 ^ 250) le_rfl
    have h3 : eta ≤ 1 := by rw [eta_eq]; exact zpow_le_one_of_nonpos₀ (by norm_num) (by norm_num)
    have := mul_nonneg tiny_nonneg (by norm_num : (0 : ℚ) ≤ 2 ^ 250)
    linarith
  have grow : ∀ {y z : ℚ}, |y - z| ≤ uR * |z| + tiny * x → |y| ≤ 2 * |z| + 1 := by
    intro y z hyz
    have e : y = z + (y - z) := by ring
    rw [e]; refine (abs_add_le _ _).trans ?_
    have := mul_le_mul_of_nonneg_right hus (abs_nonneg z)
    linarith [abs_nonneg z]
  have hRb : |ρ * x| ≤ 2 * q + 1 := by have := grow hR; rwa [abs_of_pos tpos] at this
  have hMb : |m * x| ≤ 2 ^ 204 := by
    have k := grow hM
    have k2 : |r * (ρ * x)| ≤ 2 ^ 100 * (2 * 2 ^ 100 + 1) := by
      rw [abs_mul, abs_of_nonneg hr0]
      exact mul_le_mul tp2 (by linarith) (abs_nonneg _) (by norm_num)
    have e : 2 * ((2 : ℚ) ^ 100 * (2 * 2 ^ 100 + 1)) + 1 ≤ 2 ^ 204 := by norm_num
    linarith
  have hoxm : |o * x - m * x| ≤ 2 ^ 243 := (abs_sub _ _).trans (by
    have e : (2 : ℚ) ^ 242 + 2 ^ 204 ≤ 2 ^ 243 := by norm_num
    linarith)
  have hDb : |d * x| ≤ 2 ^ 245 := by
    have := grow (y := d * x) (z := o * x - m * x) (by
      have := mul_nonneg tiny_nonneg hpos.le
      linarith)
    have e : 2 * (2 : ℚ) ^ 243 + 1 ≤ 2 ^ 245 := by norm_num
    linarith
  obtain ⟨e', he', he'e⟩ := mul_near hd.1 h.qF.1 (le_huge (by
    have : (2 : ℚ) ^ 245 ≤ 2 ^ 250 * 2 ^ 250 := by norm_num
    linarith))
  have heb : |e'| ≤ 2 ^ 247 := by
    have := small he'e
    have e : 2 * (2 : ℚ) ^ 245 + 1 ≤ 2 ^ 247 := by norm_num
    linarith
  obtain ⟨o', ho', ho'e⟩ := div_near he'.1 hQ'.1 hQpos.ne' (le_huge (by
    rw [abs_div, abs_of_pos hQpos, div_le_iff₀ hQpos]
    have : (2 : ℚ) ^ 250 * 2 ^ 250 * 2 ^ (-152 : ℤ) ≤ 2 ^ 250 * 2 ^ 250 * Q' :=
      mul_le_mul_of_nonneg_left hQ1 (by norm_num)
    have e : (2 : ℚ) ^ 247 ≤ 2 ^ 250 * 2 ^ 250 * 2 ^ (-152 : ℤ) := by norm_num
    linarith))
  have eqQ : (shrunkBy ieee p t).quantity.toRat = Q' := hQ'.1.toRat
  have eqO : (shrunkBy ieee p t).openPrice.toRat = o' := ho'.1.toRat
  have hO := sub_basis_err uR_nonneg hus tiny_nonneg hpos.le hQpos.le hr0 (c := r * q) rfl hR hM hD he'e
    (scaled_div hQpos ho'e)
  have hrx : r * x ≤ 2 ^ 100 * 2 ^ 141 := mul_le_mul tp2 b2 hpos.le (by norm_num)
  have hrx0 : 0 ≤ r * x := mul_nonneg hr0 hpos.le
  have htin := tiny_mul (x := 1 + x + Q' + r * x) (by
    have : (1 : ℚ) + 2 ^ 141 + 2 ^ 142 + 2 ^ 100 * 2 ^ 141 ≤ 2 ^ 250 := by norm_num
    linarith)
  refine ⟨by rw [eqQ]; exact hQ', by rw [eqO]; exact ho', by rw [eqQ]; exact hQpos, by rw [eqQ]; exact hQgrid,
    ?_, ?_, ?_, ?_, ?_, ?_⟩
  · rw [eqQ, sub_eq_add_neg Q q]
    exact q_accum (by linarith) hn tpos.le hV0 (by rw [abs_neg, abs_of_pos tpos]) h.q_err h.absQ
      (sub_eq_add_neg x q) hQe
  · exact (abs_sub _ _).trans (by rw [abs_of_pos tpos]; linarith [h.absQ])
  · linarith [h.V_le]
  · rw [eqO, eqQ]
    refine basis_accum (by linarith) hn hrq0 hT0 h.b_err b3 (o := o * x - r * q) ?_ ?_ (by linarith)
    · have e : o' * Q' - (B - r * q) = (o * x - r * q - (B - r * q)) + (o' * Q' - (o * x - r * q)) := by ring
      rw [e]; exact abs_add_le _ _
    · congr 1; ring
  · exact (abs_sub _ _).trans (by rw [abs_of_nonneg hrq0]; linarith [h.absB])
  · linarith [h.T_le]

/-! ### Histories -/

theorem adds_signed {p : Position} {t : Trade} (h : Adds p t) :
    posSign p * units t = t.quantity.toRat ∧ posSign p * cash t = -(t.price.toRat * t.quantity.toRat) := by
  rcases h with ⟨h1, h2⟩ | ⟨h1, h2⟩ <;> simp [posSign, units, cash, h1, h2]

theorem reduces_signed {p : Position} {t : Trade} (h : Reduces p t) :
    posSign p * units t = -t.quantity.toRat ∧ posSign p * cash t = t.price.toRat * t.quantity.toRat := by
  rcases h with ⟨h1, h2⟩ | ⟨h1, h2⟩ <;> simp [posSign, units, cash, h1, h2]

theorem Spec.FloatTrade.abs_units {t : Trade} (h : FloatTrade t) : |units t| = t.quantity.toRat := by
  have := h.facts.2.2.1
  unfold units; split <;> simp [abs_of_pos this]

theorem Spec.FloatTrade.abs_cash {t : Trade} (h : FloatTrade t) :
    |cash t| = t.price.toRat * t.quantity.toRat := by
  have := mul_nonneg h.price_nonneg h.facts.2.2.1.le
  unfold cash; split <;> simp [-abs_mul, abs_of_nonneg this]

theorem posErr_step {p : Position} {t : Trade} {n Q V B T : ℚ} (h : PosErr p n Q V B T) (ht : FloatTrade t)
    (hn1 : 1 ≤ n) (hn : n ≤ 2 ^ 40) (hopen : (modified ieee p t).opened = true) (hacc : Accepts ieee p t) :
    PosErr (modified ieee p t) (n + 1) (Q + posSign p * units t) (V + |units t|)
      (B - posSign p * cash t) (T + |cash t|) ∧ posSign (modified ieee p t) = posSign p := by
  rw [ht.abs_units, ht.abs_cash]
  rcases modified_cases ieee p t with ⟨h', e⟩ | ⟨_, ha, e⟩ | ⟨_, _, _, e⟩ | ⟨_, hr, hle, e⟩
  · exact absurd hacc h'
  · rw [e, (adds_signed ha).1, (adds_signed ha).2, sub_neg_eq_add]
    exact ⟨h.add ht hn1 hn, rfl⟩
  · rw [e] at hopen; simp [closedBy] at hopen
  · rw [e, (reduces_signed hr).1, (reduces_signed hr).2, ← sub_eq_add_neg]
    exact ⟨h.shrink ht hn1 hn hle, rfl⟩

theorem posErr_history {p : Position} {hist : List Trade} {n Q V B T : ℚ} (h : PosErr p n Q V B T)
    (ht : ∀ t ∈ hist, FloatTrade t) (hn1 : 1 ≤ n) (hn : n + (applied ieee p hist).length ≤ 2 ^ 40)
    (hopen : (modifiedAll ieee p hist).opened = true) :
    PosErr (modifiedAll ieee p hist) (n + (applied ieee p hist).length)
      (Q + posSign p * ((applied ieee p hist).map units).sum)
      (V + ((applied ieee p hist).map fun t => |units t|).sum)
      (B - posSign p * ((applied ieee p hist).map cash).sum)
      (T + ((applied ieee p hist).map fun t => |cash t|).sum) ∧
    posSign (modifiedAll ieee p hist) = posSign p := by
  induction hist generalizing p n Q V B T with
  | nil => simpa [modifiedAll, applied] using h
  | cons t ts ih =>
    have ho1 : (modified ieee p t).opened = true := opened_of_modifiedAll (hist := ts) hopen
    by_cases hacc : Accepts ieee p t
    · have hlog : ¬ (modified ieee p t).trades = p.trades := by rw [applied_log]; simpa using hacc
      simp only [applied, if_neg hlog] at hn ⊢
      have hlen : (0 : ℚ) ≤ (applied ieee (modified ieee p t) ts).length := Nat.cast_nonneg _
      simp only [List.length_cons] at hn
      push_cast at hn
      obtain ⟨s1, s2⟩ := posErr_step h (ht t (by simp)) hn1 (by linarith) ho1 hacc
      obtain ⟨i1, i2⟩ := ih s1 (fun t h => ht t (by simp [h])) (by linarith) (by linarith) hopen
      refine ⟨?_, i2.trans s2⟩
      rw [s2] at i1
      simp only [List.map_cons, List.sum_cons, List.length_cons]
      push_cast
      convert i1 using 1 <;> first | rfl | ring1
    · have hlog : (modified ieee p t).trades = p.trades := by rw [applied_log]; exact hacc
      have e : modified ieee p t = p := by
        rcases modified_cases ieee p t with ⟨_, e⟩ | ⟨h', _⟩ | ⟨h', _⟩ | ⟨h', _⟩
        · exact e
        all_goals exact absurd h' hacc
      simp only [applied, if_pos hlog] at hn ⊢
      rw [e] at hn ⊢
      have e2 : modifiedAll ieee p (t :: ts) = modifiedAll ieee p ts := by
        change modifiedAll ieee (modified ieee p t) ts = _
        rw [e]
      rw [e2] at hopen ⊢
      exact ih h (fun t h => ht t (by simp [h])) hn1 hn hopen

theorem posErr_new {id : String} {z : Int} {t : Trade} (ht : FloatTrade t) :
    PosErr (newPosition id z t) 1 t.quantity.toRat t.quantity.toRat (t.price.toRat * t.quantity.toRat)
      (t.price.toRat * t.quantity.toRat) := by
  obtain ⟨tp, tq, tpos, tgrid, tp2, tq2⟩ := ht.facts
  have hc := mul_nonneg ht.price_nonneg tpos.le
  refine ⟨tq, tp, tpos, tgrid, ?_, (abs_of_pos tpos).le, by linarith, ?_, (abs_of_nonneg hc).le, ?_⟩
  · change |t.quantity.toRat - t.quantity.toRat| ≤ _
    rw [sub_self, abs_zero]
    exact mul_nonneg (mul_nonneg (by norm_num) uR_nonneg) tpos.le
  · change |t.price.toRat * t.quantity.toRat - t.price.toRat * t.quantity.toRat| ≤ _
    rw [sub_self, abs_zero]
    have := mul_nonneg uR_nonneg hc
    have := eta_pos
    linarith
  · have : t.price.toRat * t.quantity.toRat ≤ 2 ^ 100 * 2 ^ 100 := mul_le_mul tp2 tq2 tpos.le (by norm_num)
    have e : (2 : ℚ) ^ 100 * 2 ^ 100 = 2 ^ 200 := by norm_num
    linarith

/-- The profit booked by a closing trade, against the exact product. -/
theorem PosErr.closing {p : Position} {t : Trade} {n Q V B T : ℚ} (h : PosErr p n Q V B T) (ht : FloatTrade t)
    (hn : n ≤ 2 ^ 40) (hty : p.type = "long" ∨ p.type = "short") :
    ∃ m, (closedBy ieee p t).profit.Is m ∧
      |m - posSign p * ((t.price.toRat - p.openPrice.toRat) * p.quantity.toRat)| ≤
        3 * (uR * |(t.price.toRat - p.openPrice.toRat) * p.quantity.toRat|) + tiny := by
  obtain ⟨tp, tq, tpos, tgrid, tp2, tq2⟩ := ht.facts
  obtain ⟨b1, b2, b3, b4, b5⟩ := h.bounds hn
  have hus : uR ≤ 1 / 1000 := by rw [uR_eq]; norm_num
  have hpos := h.pos
  have hr0 : 0 ≤ t.price.toRat := ht.price_nonneg
  have key : ∀ {x y : Fl} {a b : ℚ}, IsF x a → IsF y b → |a - b| ≤ 2 ^ 200 * 2 ^ 201 →
      |(a - b) * p.quantity.toRat| ≤ 2 ^ 243 →
      ∃ m, (ieee.mul (ieee.sub x y) p.quantity).Is m ∧ |m - (a - b) * p.quantity.toRat| ≤
        3 * (uR * |(a - b) * p.quantity.toRat|) + tiny := by
    intro x y a b hx hy h1 h2
    obtain ⟨d, hd, hde⟩ := sub_near hx hy (le_huge (by
      have : (2 : ℚ) ^ 200 * 2 ^ 201 ≤ 2 ^ 250 * 2 ^ 250 := by norm_num
      linarith))
    have hD := scaled_mul (t := 0) hpos (by rw [add_zero]; exact hde)
    rw [zero_mul, add_zero] at hD
    have hDb : |d * p.quantity.toRat| ≤ |(a - b) * p.quantity.toRat| + uR * |(a - b) * p.quantity.toRat| := by
      have e : d * p.quantity.toRat = (a - b) * p.quantity.toRat +
        (d * p.quantity.toRat - (a - b) * p.quantity.toRat) := by ring
      rw [e]; exact (abs_add_le _ _).trans (by linarith)
    have k1 := mul_le_mul_of_nonneg_right hus (abs_nonneg ((a - b) * p.quantity.toRat))
    obtain ⟨m, hm, hme⟩ := mul_near hd.1 h.qF.1 (le_huge (by
      have e : (2 : ℚ) ^ 243 * 2 ≤ 2 ^ 250 * 2 ^ 250 := by norm_num
      linarith))
    refine ⟨m, hm.1, ?_⟩
    have e : m - (a - b) * p.quantity.toRat = (m - d * p.quantity.toRat) +
      (d * p.quantity.toRat - (a - b) * p.quantity.toRat) := by ring
    rw [e]
    refine (abs_add_le _ _).trans ?_
    have k2 : uR * |d * p.quantity.toRat| ≤
        uR * (|(a - b) * p.quantity.toRat| + uR * |(a - b) * p.quantity.toRat|) :=
      mul_le_mul_of_nonneg_left hDb uR_nonneg
    have k3 : uR * (uR * |(a - b) * p.quantity.toRat|) ≤ uR * |(a - b) * p.quantity.toRat| :=
      mul_le_mul_of_nonneg_left (by linarith [abs_nonneg ((a - b) * p.quantity.toRat)]) uR_nonneg
    rw [mul_add] at k2
    linarith
  have g1 : |t.price.toRat - p.openPrice.toRat| ≤ 2 ^ 200 * 2 ^ 201 := (abs_sub _ _).trans (by
    rw [abs_of_nonneg hr0]
    have e : (2 : ℚ) ^ 100 + 2 ^ 200 * 2 ^ 200 ≤ 2 ^ 200 * 2 ^ 201 := by norm_num
    linarith)
  have hrx : t.price.toRat * p.quantity.toRat ≤ 2 ^ 100 * 2 ^ 141 := mul_le_mul tp2 b2 hpos.le (by norm_num)
  have g2 : |(t.price.toRat - p.openPrice.toRat) * p.quantity.toRat| ≤ 2 ^ 243 := by
    rw [sub_mul]
    refine (abs_sub _ _).trans ?_
    rw [abs_of_nonneg (mul_nonneg hr0 hpos.le)]
    have e : (2 : ℚ) ^ 100 * 2 ^ 141 + 2 ^ 242 ≤ 2 ^ 243 := by norm_num
    linarith
  rcases hty with hl | hl
  · obtain ⟨m, h1, h2⟩ := key tp h.oF g1 g2
    refine ⟨m, ?_, ?_⟩
    · simpa [closedBy, hl, longPosition] using h1
    · simpa [posSign, hl] using h2
  · obtain ⟨m, h1, h2⟩ := key h.oF tp (by rwa [abs_sub_comm]) (by
      rw [← abs_neg, ← neg_mul, neg_sub]; exact g2)
    refine ⟨m, ?_, ?_⟩
    · simpa [closedBy, hl, longPosition] using h1
    · have e : (p.openPrice.toRat - t.price.toRat) * p.quantity.toRat =
        -((t.price.toRat - p.openPrice.toRat) * p.quantity.toRat) := by ring
      rw [e, abs_neg] at h2
      simpa [posSign, hl] using h2

end Finmod
