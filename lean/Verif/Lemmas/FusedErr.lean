import Verif.Model.Fused
import Verif.Props.Accuracy

/-!
# Error of fused operations

One step of each recurrence, whatever is fused, is as close to the true value as the bounds of
`Props/Accuracy.lean` say.
-/

namespace Finmod
open Go Spec FloatSem

theorem fma_near {x y z : Fl} {a b c : ℚ} (hx : x.Is a) (hy : y.Is b) (hz : z.Is c) (h : |a * b + c| ≤ huge) :
    ∃ r, IsF (ieee.fma x y z) r ∧ |r - (a * b + c)| ≤ uR * |a * b + c| + tiny := by
  rcases FloatSem.fma_is (S := ieee) hx hy hz with ⟨_, e⟩ | ⟨h0, e⟩
  · obtain ⟨r, h1, h2⟩ := rnd_near h
    exact ⟨r, ⟨by rw [e]; exact h1, rnd_grid h1⟩, h2⟩
  · refine ⟨0, ⟨e, Grid.zero⟩, ?_⟩
    rw [h0]
    simp [tiny_nonneg]

/-- `a*b + c*d`, however it is compiled, is a sum with one relative error in each of the three
places and two absolute ones. -/
theorem dot_near (k : Fuse) {x y z w : Fl} {a b c d A B : ℚ} (hx : x.Is a) (hy : y.Is b) (hz : z.Is c) (hw : w.Is d)
    (hA : |a * b| ≤ A) (hB : |c * d| ≤ B) (hbig : 2 * (A + B) + 4 ≤ huge) :
    ∃ m1 m2 t1 t2 t3 r, IsF (ieee.dot k x y z w) r ∧ 0 ≤ t1 ∧ 0 ≤ t2 ∧ 0 ≤ t3 ∧ t1 + t2 + t3 ≤ 2 * tiny ∧
      |m1 - a * b| ≤ uR * |a * b| + t1 ∧ |m2 - c * d| ≤ uR * |c * d| + t2 ∧
      |r - (m1 + m2)| ≤ uR * |m1 + m2| + t3 := by
  have hu := uR_pos
  have hus := uR_small
  have ht := tiny_nonneg
  have ht1 : tiny ≤ 1 := tiny_small.trans (by norm_num)
  have hA0 : 0 ≤ A := (abs_nonneg _).trans hA
  have hB0 : 0 ≤ B := (abs_nonneg _).trans hB
  have size : ∀ {m q Q : ℚ}, |q| ≤ Q → |m - q| ≤ uR * |q| + tiny → |m| ≤ 2 * Q + 1 := by
    intro m q Q h1 h2
    have e : m = q + (m - q) := by ring
    rw [e]; refine (abs_add_le _ _).trans ?_
    have := mul_le_mul_of_nonneg_right (hus.trans (by norm_num : _ ≤ (1 : ℚ))) (abs_nonneg q)
    linarith
  have zero : ∀ q : ℚ, |q - q| ≤ uR * |q| + 0 := by
    intro q; rw [sub_self, abs_zero, add_zero]; positivity
  cases k with
  | no =>
    obtain ⟨m1, h1, e1⟩ := mul_near hx hy (hA.trans (by linarith))
    obtain ⟨m2, h2, e2⟩ := mul_near hz hw (hB.trans (by linarith))
    have s1 := size hA e1
    have s2 := size hB e2
    obtain ⟨r, h3, e3⟩ := add_near h1 h2 ((abs_add_le _ _).trans (by linarith))
    exact ⟨m1, m2, tiny, tiny, 0, r, h3, ht, ht, le_rfl, by linarith, e1, e2, by linarith⟩
  | left =>
    obtain ⟨m2, h2, e2⟩ := mul_near hz hw (hB.trans (by linarith))
    have s2 := size hB e2
    obtain ⟨r, h3, e3⟩ := fma_near hx hy h2.1 ((abs_add_le _ _).trans (by linarith))
    exact ⟨a * b, m2, 0, tiny, tiny, r, h3, le_rfl, ht, ht, by linarith, zero _, e2, e3⟩
  | right =>
    obtain ⟨m1, h1, e1⟩ := mul_near hx hy (hA.trans (by linarith))
    have s1 := size hA e1
    obtain ⟨r, h3, e3⟩ := fma_near hz hw h1.1 ((abs_add_le _ _).trans (by linarith))
    refine ⟨m1, c * d, tiny, 0, tiny, r, h3, ht, le_rfl, ht, by linarith, e1, zero _, ?_⟩
    rw [add_comm m1]; exact e3

theorem emaF_step_near (k : Fuse) {w p e x M E : ℚ} {wp prev c : Fl} {ê : ℚ} (hw0 : 0 ≤ w) (hw1 : w ≤ 1)
    (hp : IsF wp p) (hpe : |p - w| ≤ 2 * uR * w) (hprev : IsF prev ê) (hê : |ê - e| ≤ E) (heM : |e| ≤ M)
    (hc : IsF c x) (hxM : |x| ≤ M) (hbig : 8 * (M + E) + 4 ≤ huge) :
    ∃ r, IsF (emaNextF ieee wp k prev c) r ∧
      |r - (x * w + e * (1 - w))| ≤ (1 - w) * E + 13 * uR * M + 9 * uR * E + 3 * tiny := by
  have hu := uR_pos
  have hus := uR_small
  have ht := tiny_pos
  have ht1 : tiny ≤ 1 := tiny_small.trans (by norm_num)
  have hM0 : 0 ≤ M := (abs_nonneg _).trans hxM
  have hE0 : 0 ≤ E := (abs_nonneg _).trans hê
  have hp2 : |p - w| ≤ 2 * uR := hpe.trans (by nlinarith)
  have hpa : |p| ≤ 1 + 2 * uR := by
    have e1 : p = w + (p - w) := by ring
    rw [e1]; refine (abs_add_le _ _).trans ?_
    rw [abs_of_nonneg hw0]; linarith
  have h1p : |1 - p| ≤ 1 + 2 * uR := by
    have e1 : 1 - p = (1 - w) + -(p - w) := by ring
    rw [e1]; refine (abs_add_le _ _).trans ?_
    rw [abs_neg, abs_of_nonneg (by linarith : (0:ℚ) ≤ 1 - w)]; linarith
  obtain ⟨q, hq, hqe⟩ := sub_near isF_one hp (by linarith)
  have hq2 : |q - (1 - w)| ≤ 4 * uR := by
    have e1 : q - (1 - w) = (q - (1 - p)) + -(p - w) := by ring
    rw [e1]; refine (abs_add_le _ _).trans ?_
    rw [abs_neg]
    have := mul_le_mul_of_nonneg_left h1p hu.le
    nlinarith
  have hqa : |q| ≤ 1 + 4 * uR := by
    have e1 : q = (1 - w) + (q - (1 - w)) := by ring
    rw [e1]; refine (abs_add_le _ _).trans ?_
    rw [abs_of_nonneg (by linarith : (0:ℚ) ≤ 1 - w)]; linarith
  have hêa : |ê| ≤ M + E := by
    have e1 : ê = e + (ê - e) := by ring
    rw [e1]; exact (abs_add_le _ _).trans (by linarith)
  have hxp : |x * p| ≤ (1 + 2 * uR) * M := by
    rw [abs_mul, mul_comm]; exact mul_le_mul hpa hxM (abs_nonneg _) (by linarith)
  have hêq : |ê * q| ≤ (1 + 4 * uR) * (M + E) := by
    rw [abs_mul, mul_comm]; exact mul_le_mul hqa hêa (abs_nonneg _) (by linarith)
  have huM : uR * M ≤ 1 / 100 * M := mul_le_mul_of_nonneg_right (by linarith) hM0
  have huE : uR * E ≤ 1 / 100 * E := mul_le_mul_of_nonneg_right (by linarith) hE0
  obtain ⟨m1, m2, t1, t2, t3, r, hr, z1, z2, z3, zs, hm1e, hm2e, hre⟩ :=
    dot_near k hc.1 hp.1 hprev.1 hq.1 hxp hêq (by linarith)
  have d1 : |m1 - x * w| ≤ 4 * uR * M + t1 := by
    have e1 : m1 - x * w = (m1 - x * p) + x * (p - w) := by ring
    rw [e1]; refine (abs_add_le _ _).trans ?_
    rw [abs_mul]
    have a1 : uR * |x * p| ≤ uR * ((1 + 2 * uR) * M) := mul_le_mul_of_nonneg_left hxp hu.le
    have a2 : |x| * |p - w| ≤ M * (2 * uR) := mul_le_mul hxM hp2 (abs_nonneg _) hM0
    have a3 := mul_le_mul_of_nonneg_left huM hu.le
    have := mul_nonneg hu.le hM0
    linarith
  have d2 : |m2 - e * (1 - w)| ≤ (1 - w) * E + 6 * uR * (M + E) + t2 := by
    have e1 : m2 - e * (1 - w) = (m2 - ê * q) + (ê * q - e * (1 - w)) := by ring
    rw [e1]; refine (abs_add_le _ _).trans ?_
    have a1 : uR * |ê * q| ≤ uR * ((1 + 4 * uR) * (M + E)) := mul_le_mul_of_nonneg_left hêq hu.le
    have a2 := mul_err hê hq2 hêa (le_of_eq (abs_of_nonneg (by linarith : (0:ℚ) ≤ 1 - w)))
    have a3 := mul_le_mul_of_nonneg_left huM hu.le
    have a4 := mul_le_mul_of_nonneg_left huE hu.le
    have := mul_nonneg hu.le hM0
    have := mul_nonneg hu.le hE0
    linarith
  have htrue : |x * w + e * (1 - w)| ≤ M := by
    refine (abs_add_le _ _).trans ?_
    rw [abs_mul, abs_mul, abs_of_nonneg hw0, abs_of_nonneg (by linarith : (0:ℚ) ≤ 1 - w)]
    nlinarith
  have hwE : (1 - w) * E ≤ E := by nlinarith
  have hsum : |m1 + m2| ≤ 2 * (M + E) + 2 * tiny := by
    have e1 : m1 + m2 = (x * w + e * (1 - w)) + (m1 - x * w) + (m2 - e * (1 - w)) := by ring
    rw [e1]
    refine (abs_add_le _ _).trans ((add_le_add_left (abs_add_le _ _) _).trans ?_)
    linarith
  refine ⟨r, hr, ?_⟩
  have e1 : r - (x * w + e * (1 - w)) = (r - (m1 + m2)) + (m1 - x * w) + (m2 - e * (1 - w)) := by ring
  rw [e1]
  refine (abs_add_le _ _).trans ((add_le_add_left (abs_add_le _ _) _).trans ?_)
  have a1 := mul_le_mul_of_nonneg_left hsum hu.le
  have : uR * tiny ≤ tiny / 4 := by nlinarith
  have := mul_nonneg hu.le hM0
  have := mul_nonneg hu.le hE0
  linarith

theorem ewvF_step_near (k : Fuse) {b M E : ℚ} {beta v : Fl} {c : Candle} {x ê hi lo : ℚ} (hb : IsF beta b)
    (hb0 : 0 ≤ b) (hb1 : b < 1) (hv : IsF v ê) (hê : |ê - x| ≤ E) (hxM : |x| ≤ M) (hhi : IsF c.high hi)
    (hlo : IsF c.low lo) (hd : |hi - lo| ≤ M) (hbig : 16 * (M + E) + 4 ≤ huge) :
    ∃ r, IsF (ewvStepF ieee beta k v c) r ∧
      |r - (b * x + (1 - b) * (hi - lo))| ≤ b * E + 10 * uR * M + 3 * uR * E + 3 * tiny := by
  have hu := uR_pos
  have hus := uR_small
  have ht := tiny_pos
  have ht1 : tiny ≤ 1 := tiny_small.trans (by norm_num)
  have hM0 : 0 ≤ M := (abs_nonneg _).trans hxM
  have hE0 : 0 ≤ E := (abs_nonneg _).trans hê
  have hêa : |ê| ≤ M + E := by
    have e1 : ê = x + (ê - x) := by ring
    rw [e1]; exact (abs_add_le _ _).trans (by linarith)
  have hbv : |b * ê| ≤ b * (M + E) := by
    rw [abs_mul, abs_of_nonneg hb0]; exact mul_le_mul_of_nonneg_left hêa hb0
  have hbv2 : b * (M + E) ≤ M + E := by nlinarith
  obtain ⟨cb, hcb, hcbe⟩ := sub_near isF_one hb (by
    rw [abs_of_pos (by linarith)]; have := huge_one; linarith)
  rw [abs_of_pos (by linarith : 0 < 1 - b)] at hcbe
  obtain ⟨d, hdf, hde⟩ := sub_near hhi hlo (hd.trans (by linarith))
  have hde2 : |d - (hi - lo)| ≤ uR * M := hde.trans (mul_le_mul_of_nonneg_left hd hu.le)
  have hcba : |cb| ≤ 2 * (1 - b) := by
    have e1 : cb = (1 - b) + (cb - (1 - b)) := by ring
    rw [e1]; refine (abs_add_le _ _).trans ?_
    rw [abs_of_pos (by linarith : 0 < 1 - b)]; nlinarith
  have hda : |d| ≤ 2 * M := by
    have e1 : d = (hi - lo) + (d - (hi - lo)) := by ring
    rw [e1]; refine (abs_add_le _ _).trans ?_; nlinarith
  have hcd : |cb * d| ≤ 4 * ((1 - b) * M) := by
    rw [abs_mul]
    have := mul_le_mul hcba hda (abs_nonneg _) (by linarith)
    linarith
  have h1bM : (1 - b) * M ≤ M := by nlinarith
  have h1bM0 : 0 ≤ (1 - b) * M := mul_nonneg (by linarith) hM0
  obtain ⟨m1, m2, t1, t2, t3, r, hr, z1, z2, z3, zs, hm1e, hm2e, hre⟩ :=
    dot_near k hb.1 hv.1 hcb.1 hdf.1 hbv hcd (by linarith)
  have d1 : |m1 - b * x| ≤ b * E + uR * (b * (M + E)) + t1 := by
    have e1 : m1 - b * x = (m1 - b * ê) + b * (ê - x) := by ring
    rw [e1]; refine (abs_add_le _ _).trans ?_
    rw [abs_mul, abs_of_nonneg hb0]
    have a1 := mul_le_mul_of_nonneg_left hbv hu.le
    have a2 := mul_le_mul_of_nonneg_left hê hb0
    linarith
  have d2 : |m2 - (1 - b) * (hi - lo)| ≤ 7 * (uR * ((1 - b) * M)) + t2 := by
    have e1 : m2 - (1 - b) * (hi - lo) = (m2 - cb * d) + (cb * d - (1 - b) * (hi - lo)) := by ring
    rw [e1]; refine (abs_add_le _ _).trans ?_
    have a1 := mul_le_mul_of_nonneg_left hcd hu.le
    have a2 := mul_err hcbe hde2 hcba hd
    linarith
  have htrue : |b * x + (1 - b) * (hi - lo)| ≤ M := by
    refine (abs_add_le _ _).trans ?_
    rw [abs_mul, abs_mul, abs_of_nonneg hb0, abs_of_pos (by linarith : 0 < 1 - b)]
    nlinarith
  have hbE : b * E ≤ E := by nlinarith
  have huM : uR * M ≤ 1 / 100 * M := mul_le_mul_of_nonneg_right (by linarith) hM0
  have huE : uR * E ≤ 1 / 100 * E := mul_le_mul_of_nonneg_right (by linarith) hE0
  have u1 : uR * (b * (M + E)) ≤ uR * b * M + uR * E := by nlinarith [mul_nonneg hu.le hE0]
  have u2 : uR * b * M + uR * ((1 - b) * M) = uR * M := by ring
  have u3 : 0 ≤ uR * ((1 - b) * M) := by positivity
  have u4 : 0 ≤ uR * b * M := by positivity
  have hsum : |m1 + m2| ≤ 2 * (M + E) + 2 * tiny := by
    have e1 : m1 + m2 = (b * x + (1 - b) * (hi - lo)) + (m1 - b * x) + (m2 - (1 - b) * (hi - lo)) := by ring
    rw [e1]
    refine (abs_add_le _ _).trans ((add_le_add_left (abs_add_le _ _) _).trans ?_)
    linarith
  refine ⟨r, hr, ?_⟩
  have e1 : r - (b * x + (1 - b) * (hi - lo)) =
    (r - (m1 + m2)) + (m1 - b * x) + (m2 - (1 - b) * (hi - lo)) := by ring
  rw [e1]
  refine (abs_add_le _ _).trans ((add_le_add_left (abs_add_le _ _) _).trans ?_)
  have a1 := mul_le_mul_of_nonneg_left hsum hu.le
  have : uR * tiny ≤ tiny / 4 := by nlinarith
  linarith

theorem smmaSecondF_near (k : Bool) {n : Nat} (h1 : 1 ≤ n) (hn : n ≤ 2 ^ 47) {prev c : Fl} {ê e x M E : ℚ}
    (hp : IsF prev ê) (hê : |ê - e| ≤ E) (heM : |e| ≤ M) (hc : IsF c x) (hxM : |x| ≤ M)
    (hbig : 4 * n * (M + E) + 4 ≤ huge) :
    ∃ r, IsF (smmaSecondF ieee n k prev c) r ∧
      |r - (e * ((n : ℚ) - 1) + x) / n| ≤ (1 - 1 / n) * E + 5 * uR * (M + E) + 4 * tiny := by
  cases k with
  | false => exact smma_second_near h1 hn hp hê heM hc hxM hbig
  | true =>
    have hu := uR_pos
    have hus := uR_small
    have ht := tiny_pos
    have ht1 : tiny ≤ 1 := tiny_small.trans (by norm_num)
    have hM0 : 0 ≤ M := (abs_nonneg _).trans hxM
    have hE0 : 0 ≤ E := (abs_nonneg _).trans hê
    have hq : (1 : ℚ) ≤ n := by exact_mod_cast h1
    have hn0 : (0 : ℚ) < n := by linarith
    have hêa : |ê| ≤ M + E := by
      have e1 : ê = e + (ê - e) := by ring
      rw [e1]; exact (abs_add_le _ _).trans (by linarith)
    have hprod : |ê * ((n : ℚ) - 1)| ≤ (n - 1) * (M + E) := by
      rw [abs_mul, abs_of_nonneg (by linarith : (0 : ℚ) ≤ (n : ℚ) - 1), mul_comm]
      exact mul_le_mul_of_nonneg_left hêa (by linarith)
    set A := M + E with hA
    have hA0 : 0 ≤ A := by linarith
    have hnA : 0 ≤ (n : ℚ) * A := by positivity
    have hsum : |ê * ((n : ℚ) - 1) + x| ≤ n * A := (abs_add_le _ _).trans (by linarith)
    obtain ⟨s, hs, hse⟩ := fma_near hp.1 (isF_pred (hn.trans (by norm_num))).1 hc.1 (hsum.trans (by linarith))
    have hse2 : |s - (ê * ((n : ℚ) - 1) + x)| ≤ uR * (n * A) + tiny :=
      hse.trans (by have := mul_le_mul_of_nonneg_left hsum hu.le; linarith)
    have hunA : uR * (n * A) ≤ 1 / 100 * (n * A) := mul_le_mul_of_nonneg_right (by linarith) hnA
    have hsa : |s| ≤ n * A + (uR * (n * A) + tiny) := by
      have e1 : s = (ê * ((n : ℚ) - 1) + x) + (s - (ê * ((n : ℚ) - 1) + x)) := by ring
      rw [e1]; exact (abs_add_le _ _).trans (add_le_add hsum hse2)
    have hsn : |s / n| ≤ A + (uR * A + tiny) := by
      rw [abs_div, abs_of_pos hn0, div_le_iff₀ hn0]
      have : tiny ≤ tiny * n := by nlinarith
      linarith
    have huA : uR * A ≤ 1 / 100 * A := mul_le_mul_of_nonneg_right (by linarith) hA0
    have hAn : A ≤ n * A := by nlinarith
    obtain ⟨r, hr, hre⟩ := div_near hs.1 (isF_nat (hn.trans (by norm_num))).1 hn0.ne' (hsn.trans (by linarith))
    refine ⟨r, hr, ?_⟩
    have e1 : r - (e * ((n : ℚ) - 1) + x) / n =
        (r - s / n) + ((s - (ê * ((n : ℚ) - 1) + x)) / n + (ê - e) * (1 - 1 / n)) := by
      field_simp; ring
    have h1n : (0 : ℚ) ≤ 1 - 1 / n := by
      have : 1 / (n : ℚ) ≤ 1 := by rw [div_le_one hn0]; exact hq
      linarith
    rw [e1]
    refine (abs_add_le _ _).trans ((add_le_add_right (abs_add_le _ _) _).trans ?_)
    have f1 : |(s - (ê * ((n : ℚ) - 1) + x)) / n| ≤ uR * A + tiny := by
      rw [abs_div, abs_of_pos hn0, div_le_iff₀ hn0]
      have : tiny ≤ tiny * n := by nlinarith
      linarith
    have f2 : |(ê - e) * (1 - 1 / (n : ℚ))| ≤ (1 - 1 / n) * E := by
      rw [abs_mul, abs_of_nonneg h1n, mul_comm]; exact mul_le_mul_of_nonneg_left hê h1n
    have f3 := mul_le_mul_of_nonneg_left hsn hu.le
    have f4 := mul_le_mul_of_nonneg_left huA hu.le
    have f5 : uR * tiny ≤ 1 / 100 * tiny := mul_le_mul_of_nonneg_right (by linarith) ht.le
    have f6 : 0 ≤ uR * A := by positivity
    linarith

theorem smmaNextF_near (k : Bool) {n : Nat} (h1 : 1 ≤ n) (hn : n ≤ 2 ^ 47) {prev c : Fl} {ê e x M E : ℚ}
    (hp : IsF prev ê) (hê : |ê - e| ≤ E) (heM : |e| ≤ M) (hc : IsF c x) (hxM : |x| ≤ M)
    (hbig : 4 * n * (M + E) + 4 ≤ huge) :
    ∃ r, IsF (smmaNextF ieee n k prev c) r ∧
      |r - (e * ((n : ℚ) - 1) + x) / n| ≤ (1 - 1 / n) * E + 5 * uR * (M + E) + 4 * tiny := by
  cases k with
  | false => exact smma_next_near h1 hn hp hê heM hc hxM hbig
  | true =>
    have hu := uR_pos
    have ht := tiny_pos
    have hM0 : 0 ≤ M := (abs_nonneg _).trans hxM
    have hE0 : 0 ≤ E := (abs_nonneg _).trans hê
    have hq : (1 : ℚ) ≤ n := by exact_mod_cast h1
    have hêa : |ê| ≤ M + E := by
      have e1 : ê = e + (ê - e) := by ring
      rw [e1]; exact (abs_add_le _ _).trans (by linarith)
    have hprod : |ê * (n : ℚ) + -ê| ≤ n * (M + E) := by
      have e1 : ê * (n : ℚ) + -ê = ê * ((n : ℚ) - 1) := by ring
      rw [e1, abs_mul, abs_of_nonneg (by linarith : (0 : ℚ) ≤ (n : ℚ) - 1), mul_comm]
      exact mul_le_mul (by linarith) hêa (abs_nonneg _) (by linarith)
    have hnA : 0 ≤ (n : ℚ) * (M + E) := by positivity
    obtain ⟨z, hz, hze⟩ := fma_near hp.1 (isF_nat (hn.trans (by norm_num))).1 hp.1.neg (hprod.trans (by linarith))
    refine smma_tail_near h1 hn hz ?_ hê heM hc hxM hbig
    have e1 : z - ê * ((n : ℚ) - 1) = z - (ê * (n : ℚ) + -ê) := by ring
    rw [e1]
    have := mul_le_mul_of_nonneg_left hprod hu.le
    have h3 : 0 ≤ uR * (n * (M + E)) := by positivity
    linarith

/-! ### The loops -/

theorem emaFFold_before (S : FloatSem) (f : Nat → Fuse) (cs : List Candle) (n : Nat) (p : Fl) (arr : List Fl)
    (l : List Candle) (k : Nat) (h : k + l.length ≤ n) :
    (l.zipIdx k).foldl (emaStepF S f cs n p) arr = arr := by
  induction l generalizing k with
  | nil => rfl
  | cons c l ih =>
    simp only [List.length_cons] at h
    simp only [List.zipIdx_cons, List.foldl_cons]
    rw [show emaStepF S f cs n p arr (c, k) = arr by
      unfold emaStepF; rw [if_pos (by simp only; omega)]]
    exact ih (k + 1) (by omega)

theorem emaFFold_after (S : FloatSem) (f : Nat → Fuse) (cs : List Candle) (n : Nat) (p : Fl) (arr : List Fl) (x : Fl)
    (l : List Candle) (k : Nat) (h : n ≤ k) :
    (l.zipIdx k).foldl (emaStepF S f cs n p) (arr ++ [x]) =
      arr ++ scan (fun x (ci : Candle × Nat) => emaNextF S p (f ci.2) x ci.1.close) x (l.zipIdx k) := by
  induction l generalizing k arr x with
  | nil => rfl
  | cons c l ih =>
    simp only [List.zipIdx_cons, List.foldl_cons]
    have e : emaStepF S f cs n p (arr ++ [x]) (c, k) = (arr ++ [x]) ++ [emaNextF S p (f k) x c.close] := by
      unfold emaStepF
      rw [if_neg (by simp only; omega)]
      simp
    rw [e, ih _ _ _ (by omega)]
    simp [scan]

theorem emaF_ok (S : FloatSem) (f : Nat → Fuse) (cs : List Candle) (n : Nat) (h1 : 1 ≤ n) (h2 : n ≤ cs.length) :
    exponentialMovingAverageF S f (some cs) n = .ok (match cs.drop n with
      | [] => []
      | _ :: rest => scan (fun x (ci : Candle × Nat) => emaNextF S (emaWeight S n) (f ci.2) x ci.1.close)
          (average S (cs.take n)) (rest.zipIdx (n + 1))) := by
  unfold exponentialMovingAverageF
  simp only
  rw [if_neg (by omega), if_neg (by omega)]
  congr 1
  rw [zipIdx_split cs n h2, List.foldl_append, emaFFold_before S f cs n _ [] (cs.take n) 0 (by simp)]
  cases hd : cs.drop n with
  | nil => rfl
  | cons c rest =>
    simp only [List.zipIdx_cons, List.foldl_cons]
    have e : emaStepF S f cs n (emaWeight S n) [] (c, n) = [] ++ [average S (cs.take n)] := by
      unfold emaStepF
      rw [if_neg (by simp only; omega)]
      simp
    rw [e, emaFFold_after _ _ _ _ _ _ _ _ _ (by omega)]
    rfl

theorem smmaFFold_before (S : FloatSem) (f : Nat → Bool) (cs : List Candle) (n : Nat) (arr : List Fl)
    (l : List Candle) (k : Nat) (h : k + l.length + 1 ≤ n) :
    (l.zipIdx k).foldl (smmaStepF S f cs n) (some arr) = some arr := by
  induction l generalizing k with
  | nil => rfl
  | cons c l ih =>
    simp only [List.length_cons] at h
    simp only [List.zipIdx_cons, List.foldl_cons]
    rw [show smmaStepF S f cs n (some arr) (c, k) = some arr by
      unfold smmaStepF; simp only; rw [if_pos (by omega)]]
    exact ih (k + 1) (by omega)

theorem smmaFFold_after (S : FloatSem) (f : Nat → Bool) (cs : List Candle) (n : Nat) (arr : List Fl) (x : Fl)
    (l : List Candle) (k : Nat) (h : n ≤ k + 1) (hk : k + l.length ≤ cs.length) (ha : arr ≠ []) :
    (l.zipIdx k).foldl (smmaStepF S f cs n) (some (arr ++ [x])) =
      some (arr ++ scan (fun x (ci : Candle × Nat) => smmaNextF S n (f ci.2) x ci.1.close) x (l.zipIdx k)) := by
  induction l generalizing k arr x with
  | nil => rfl
  | cons c l ih =>
    simp only [List.length_cons] at hk
    simp only [List.zipIdx_cons, List.foldl_cons]
    have e : smmaStepF S f cs n (some (arr ++ [x])) (c, k) =
        some ((arr ++ [x]) ++ [smmaNextF S n (f k) x c.close]) := by
      unfold smmaStepF
      simp only
      rw [if_neg (by omega)]
      obtain ⟨y, hy⟩ := closingSum_some S (cs.take (k + 1)) n (by simp; omega)
      rw [hy]
      cases arr with
      | nil => exact absurd rfl ha
      | cons a as =>
        cases as with
        | nil => simp
        | cons b bs =>
          have hg : (b :: (bs ++ [x])).getLast? = some x := by
            rw [← List.cons_append]; exact List.getLast?_concat
          simp [hg]
    rw [e, ih _ _ _ (by omega) (by omega) (by simp)]
    simp [scan]

theorem smmaF_ok (S : FloatSem) (f : Nat → Bool) (cs : List Candle) (n : Nat) (h1 : 1 ≤ n) (h2 : n ≤ cs.length) :
    smoothedMovingAverageF S f (some cs) n = .ok (smmaFirst S cs n :: (match cs.drop n with
      | [] => []
      | c :: rest => scan (fun x (ci : Candle × Nat) => smmaNextF S n (f ci.2) x ci.1.close)
          (smmaSecondF S n (f n) (smmaFirst S cs n) c.close) (rest.zipIdx (n + 1)))) := by
  unfold smoothedMovingAverageF
  simp only
  rw [if_neg (by omega), if_neg (by omega)]
  obtain ⟨m, rfl⟩ : ∃ m, n = m + 1 := ⟨n - 1, by omega⟩
  have hfold : cs.zipIdx.foldl (smmaStepF S f cs (m + 1 : Nat)) (some []) =
      some (smmaFirst S cs (m + 1) :: (match cs.drop (m + 1) with
      | [] => []
      | c :: rest => scan (fun x (ci : Candle × Nat) => smmaNextF S (m + 1 : Nat) (f ci.2) x ci.1.close)
          (smmaSecondF S (m + 1 : Nat) (f (m + 1)) (smmaFirst S cs (m + 1)) c.close)
          (rest.zipIdx (m + 1 + 1)))) := by
    rw [zipIdx_split cs m (by omega), List.foldl_append, smmaFFold_before _ _ _ _ _ _ _ (by simp)]
    cases hd : cs.drop m with
    | nil => simp only [List.drop_eq_nil_iff] at hd; omega
    | cons c rest =>
      have hrest : cs.drop (m + 1) = rest := by
        rw [← List.drop_drop, hd]; rfl
      have hlen : rest.length = cs.length - (m + 1) := by rw [← hrest]; simp
      simp only [List.zipIdx_cons, List.foldl_cons]
      have e : smmaStepF S f cs (m + 1 : Nat) (some []) (c, m) = some [smmaFirst S cs (m + 1)] := by
        unfold smmaStepF
        simp only
        rw [if_neg (by omega)]
        unfold closingSum
        rw [if_neg (by simp; omega)]
        simp only [smmaFirst, closes, List.foldl_map]
        congr 5
        have : (cs.take (m + 1)).length - ((m + 1 : Nat) : Int).toNat = 0 := by simp
        rw [this]; rfl
      rw [e, hrest]
      cases rest with
      | nil => rfl
      | cons d rest =>
        simp only [List.length_cons] at hlen
        simp only [List.zipIdx_cons, List.foldl_cons]
        have e2 : smmaStepF S f cs (m + 1 : Nat) (some [smmaFirst S cs (m + 1)]) (d, m + 1) =
            some ([smmaFirst S cs (m + 1)] ++
              [smmaSecondF S (m + 1 : Nat) (f (m + 1)) (smmaFirst S cs (m + 1)) d.close]) := by
          unfold smmaStepF
          simp only
          rw [if_neg (by omega)]
          obtain ⟨y, hy⟩ := closingSum_some S (cs.take (m + 1 + 1)) (m + 1) (by simp; omega)
          rw [hy]
          rfl
        rw [e2, smmaFFold_after _ _ _ _ _ _ _ _ (by omega) (by omega) (by simp)]
        rfl
  rw [hfold]

/-! ### Candles with their indices -/

theorem zipIdx_forall₂ {R : Candle → ℚ → Prop} {l : List Candle} {xs : List ℚ} (h : List.Forall₂ R l xs) (k : Nat) :
    List.Forall₂ (fun (ci : Candle × Nat) x => R ci.1 x) (l.zipIdx k) xs := by
  induction h generalizing k with
  | nil => exact .nil
  | cons h _ ih => exact .cons h (ih (k + 1))

end Finmod
