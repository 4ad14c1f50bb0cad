import Verif.Props.Superpose
import Verif.Props.Forget
import Verif.Props.Accuracy

/-!
# Averages of combined series in float64: C262
-/

namespace Finmod
open Go Spec

/-- How far an average of period `n` over closes up to `M` may be from its exact value. -/
def Spec.avgError (n : Nat) (M : ℚ) : ℚ := 16 * (n + 1) * (2 ^ (-53 : ℤ) * M + 2 ^ (-1075 : ℤ))

/-- Each value of an average is near its exact value. -/
def Spec.NearAll (e : ℚ) (out : List Fl) (qs : List ℚ) : Prop := List.Forall₂ (fun y q => ∃ r, y.Is r ∧ |r - q| ≤ e) out qs

theorem nearAll_mono {e e' : ℚ} {out : List Fl} {qs : List ℚ} (h : NearAll e out qs) (he : e ≤ e') : NearAll e' out qs :=
  List.Forall₂.imp (fun _ _ ⟨r, h1, h2⟩ => ⟨r, h1, h2.trans he⟩) h

theorem ma_near {cs : List Candle} {xs : List ℚ} (hx : Closes cs xs) (hr : FloatCloses cs) {n : Nat} (h1 : 1 ≤ n)
    (hn : n ≤ 2 ^ 47) (h2 : n ≤ cs.length) {M : ℚ} (hM0 : 0 ≤ M) (hM : ∀ x ∈ xs, |x| ≤ M) (hbig : M ≤ 2 ^ (900 : ℤ)) :
    ∃ out, movingAverage ieee (some cs) n = .ok out ∧ NearAll (avgError n M) out (maQ xs n) := by
  obtain ⟨out, e, hl, h⟩ := C107_moving_average_accurate hx hr h1 (hn.trans (by norm_num)) h2
  refine ⟨out, e, ?_⟩
  have hlen : cs.length = xs.length := hx.length_eq
  unfold NearAll
  rw [List.forall₂_iff_get]
  refine ⟨by simp [maQ, hl, hlen], fun k hk hk' => ?_⟩
  obtain ⟨y, r, hy, hr', hb⟩ := h k M (by omega) (fun x hx => hM x (List.mem_of_mem_drop (List.mem_of_mem_take hx))) hbig
  refine ⟨r, ?_, ?_⟩
  · rw [List.getElem?_eq_getElem hk] at hy
    rw [List.get_eq_getElem, Option.some.inj hy]
    exact hr'
  · simp only [List.get_eq_getElem, maQ, List.getElem_map, List.getElem_range]
    refine hb.trans ?_
    unfold avgError
    have p1 : (0 : ℚ) < 2 ^ (-53 : ℤ) := zpow_pos (by norm_num) _
    have p2 : (0 : ℚ) < 2 ^ (-1075 : ℤ) := zpow_pos (by norm_num) _
    have p3 : (0 : ℚ) ≤ n := by positivity
    generalize (2 : ℚ) ^ (-53 : ℤ) = s at *
    generalize (2 : ℚ) ^ (-1075 : ℤ) = t at *
    have q1 : 0 ≤ (n : ℚ) * (s * M) := mul_nonneg p3 (mul_nonneg p1.le hM0)
    have q2 : 0 ≤ s * M := mul_nonneg p1.le hM0
    have q3 : 0 ≤ (n : ℚ) * t := mul_nonneg p3 p2.le
    nlinarith

theorem ema_near {cs : List Candle} {xs : List ℚ} (hx : Closes cs xs) (hr : FloatCloses cs) {n : Nat} (h1 : 1 ≤ n)
    (hn : n ≤ 2 ^ 47) (h2 : n ≤ cs.length) {M : ℚ} (hM : ∀ x ∈ xs, |x| ≤ M) (hbig : M ≤ 2 ^ (900 : ℤ)) :
    ∃ out, exponentialMovingAverage ieee (some cs) n = .ok out ∧ NearAll (avgError n M) out (emaQ xs n) := by
  obtain ⟨out, e, h⟩ := C108_ema_accurate hx hr h1 hn h2 hM hbig
  refine ⟨out, e, nearAll_mono h ?_⟩
  unfold avgError
  have p2 : (0 : ℚ) < 2 ^ (-1075 : ℤ) := zpow_pos (by norm_num) _
  have p3 : (0 : ℚ) ≤ n := by positivity
  generalize (2 : ℚ) ^ (-1075 : ℤ) = t at *
  have q3 : 0 ≤ (n : ℚ) * t := mul_nonneg p3 p2.le
  nlinarith

theorem smma_near {cs : List Candle} {xs : List ℚ} (hx : Closes cs xs) (hr : FloatCloses cs) {n : Nat} (h1 : 1 ≤ n)
    (hn : n ≤ 2 ^ 47) (h2 : n ≤ cs.length) {M : ℚ} (hM0 : 0 ≤ M) (hM : ∀ x ∈ xs, |x| ≤ M) (hbig : M ≤ 2 ^ (900 : ℤ)) :
    ∃ out, smoothedMovingAverage ieee (some cs) n = .ok out ∧ NearAll (avgError n M) out (smmaQ xs n) := by
  obtain ⟨out, e, h⟩ := C108_smma_accurate hx hr h1 hn h2 hM hbig
  refine ⟨out, e, nearAll_mono h ?_⟩
  unfold avgError
  have p1 : (0 : ℚ) < 2 ^ (-53 : ℤ) := zpow_pos (by norm_num) _
  have p2 : (0 : ℚ) < 2 ^ (-1075 : ℤ) := zpow_pos (by norm_num) _
  have p3 : (0 : ℚ) ≤ n := by positivity
  generalize (2 : ℚ) ^ (-53 : ℤ) = s at *
  generalize (2 : ℚ) ^ (-1075 : ℤ) = t at *
  have q1 : 0 ≤ (n : ℚ) * (s * M) := mul_nonneg p3 (mul_nonneg p1.le hM0)
  have q2 : 0 ≤ s * M := mul_nonneg p1.le hM0
  have q3 : 0 ≤ (n : ℚ) * t := mul_nonneg p3 p2.le
  nlinarith

/-- Each value of the third list is near the combination of the values of the other two at its place. -/
def Spec.NearComb (a b δ : ℚ) (xs ys zs : List ℚ) : Prop :=
  xs.length = zs.length ∧ ys.length = zs.length ∧
  ∀ (k : Nat) (x y z : ℚ), xs[k]? = some x → ys[k]? = some y → zs[k]? = some z → |z - (a * x + b * y)| ≤ δ

theorem nearComb_of_bounds {a b δ : ℚ} {xs ys zs : List ℚ} (h1 : xs.length = zs.length) (h2 : ys.length = zs.length)
    (h : ∀ q ∈ List.zipWith (fun z w => 1 * z + -1 * w) zs (List.zipWith (fun x y => a * x + b * y) xs ys), -δ ≤ q ∧ q ≤ δ) :
    NearComb a b δ xs ys zs := by
  refine ⟨h1, h2, fun k x y z hx hy hz => ?_⟩
  have : 1 * z + -1 * (a * x + b * y) ∈
      List.zipWith (fun z w => 1 * z + -1 * w) zs (List.zipWith (fun x y => a * x + b * y) xs ys) := by
    refine List.mem_of_getElem? (i := k) ?_
    simp [List.getElem?_zipWith, hx, hy, hz]
  have := h _ this
  rw [abs_le]
  constructor <;> linarith [this.1, this.2]

theorem bounds_of_nearComb {a b δ : ℚ} {xs ys zs : List ℚ} (h : NearComb a b δ xs ys zs) :
    ∀ q ∈ List.zipWith (fun z w => 1 * z + -1 * w) zs (List.zipWith (fun x y => a * x + b * y) xs ys), -δ ≤ q ∧ q ≤ δ := by
  intro q hq
  obtain ⟨k, hk, rfl⟩ := List.getElem_of_mem hq
  have hl := hk
  simp only [List.length_zipWith] at hl
  have hz : k < zs.length := by omega
  have hx : k < xs.length := by omega
  have hy : k < ys.length := by omega
  have := h.2.2 k _ _ _ (List.getElem?_eq_getElem hx) (List.getElem?_eq_getElem hy) (List.getElem?_eq_getElem hz)
  rw [abs_le] at this
  simp only [List.getElem_zipWith]
  constructor <;> linarith [this.1, this.2]

theorem avg_nearComb {a b δ : ℚ} {xs ys zs : List ℚ} (h : NearComb a b δ xs ys zs) {n : Nat} (h1 : 1 ≤ n)
    (h2 : n ≤ zs.length) :
    NearComb a b δ (maQ xs n) (maQ ys n) (maQ zs n) ∧ NearComb a b δ (emaQ xs n) (emaQ ys n) (emaQ zs n) ∧
    NearComb a b δ (smmaQ xs n) (smmaQ ys n) (smmaQ zs n) := by
  have hb := bounds_of_nearComb h
  obtain ⟨l1, l2, -⟩ := h
  have hxy : xs.length = ys.length := l1.trans l2.symm
  have hw : zs.length = (List.zipWith (fun x y => a * x + b * y) xs ys).length := by simp [l1, l2]
  obtain ⟨i1, i2, i3⟩ := Q_comb hxy n a b
  obtain ⟨j1, j2, j3⟩ := Q_comb hw n 1 (-1)
  rw [i1] at j1
  rw [i2] at j2
  rw [i3] at j3
  have hdl : n ≤ (List.zipWith (fun z w => 1 * z + -1 * w) zs (List.zipWith (fun x y => a * x + b * y) xs ys)).length := by
    simp [l1, l2]; exact h2
  refine ⟨nearComb_of_bounds (by simp [maQ, l1]) (by simp [maQ, l2]) ?_,
    nearComb_of_bounds (by simp [length_emaQ, l1]) (by simp [length_emaQ, l2]) ?_,
    nearComb_of_bounds (by simp [smmaQ, length_scan, l1]) (by simp [smmaQ, length_scan, l2]) ?_⟩
  · rw [← j1]
    intro q hq
    obtain ⟨k, hk, rfl⟩ := List.mem_map.1 hq
    rw [List.mem_range] at hk
    exact mean_bounds (take_ne_nil h1 (by omega)) fun x hx => hb x (List.mem_of_mem_drop (List.mem_of_mem_take hx))
  · rw [← j2]
    exact emaQ_bounds h1 hb
  · rw [← j3]
    exact smmaQ_bounds h1 hdl hb

theorem near_comb {a b δ e : ℚ} {o1 o2 o3 : List Fl} {q1 q2 q3 : List ℚ} (h1 : NearAll e o1 q1) (h2 : NearAll e o2 q2)
    (h3 : NearAll e o3 q3) (hq : NearComb a b δ q1 q2 q3) :
    o1.length = o3.length ∧ o2.length = o3.length ∧
    ∀ k, k < o3.length → ∃ u v w x y z, o1[k]? = some u ∧ o2[k]? = some v ∧ o3[k]? = some w ∧ u.Is x ∧ v.Is y ∧ w.Is z ∧
      |z - (a * x + b * y)| ≤ (1 + |a| + |b|) * e + δ := by
  have e1 := h1.length_eq
  have e2 := h2.length_eq
  have e3 := h3.length_eq
  have l1 : o1.length = o3.length := by rw [e1, e3, hq.1]
  have l2 : o2.length = o3.length := by rw [e2, e3, hq.2.1]
  refine ⟨l1, l2, fun k hk => ?_⟩
  have g1 := List.getElem?_eq_getElem (l := o1) (i := k) (by omega)
  have g2 := List.getElem?_eq_getElem (l := o2) (i := k) (by omega)
  have g3 := List.getElem?_eq_getElem (l := o3) (i := k) hk
  obtain ⟨p1, k1, x, i1, n1⟩ := forall₂_get? h1 g1
  obtain ⟨p2, k2, y, i2, n2⟩ := forall₂_get? h2 g2
  obtain ⟨p3, k3, z, i3, n3⟩ := forall₂_get? h3 g3
  refine ⟨_, _, _, x, y, z, g1, g2, g3, i1, i2, i3, ?_⟩
  have hc := hq.2.2 k p1 p2 p3 k1 k2 k3
  have ha : |a * (x - p1)| ≤ |a| * e := by rw [abs_mul]; exact mul_le_mul_of_nonneg_left n1 (abs_nonneg _)
  have hb : |b * (y - p2)| ≤ |b| * e := by rw [abs_mul]; exact mul_le_mul_of_nonneg_left n2 (abs_nonneg _)
  rw [abs_le] at *
  constructor <;> linarith [ha.1, ha.2, hb.1, hb.2, hc.1, hc.2, n3.1, n3.2]

/-- **C262** In float64, the averages of a series whose closes are within `δ` of `a` times those of one series plus `b` times
those of another are within `δ` and three rounding errors of the same combination of the averages. -/
theorem C262_averages {cs ds es : List Candle} {xs ys zs : List ℚ} {a b δ M : ℚ} (hx : Closes cs xs) (hy : Closes ds ys)
    (hz : Closes es zs) (rx : FloatCloses cs) (ry : FloatCloses ds) (rz : FloatCloses es) (hM0 : 0 ≤ M)
    (mx : ∀ x ∈ xs, |x| ≤ M) (my : ∀ x ∈ ys, |x| ≤ M) (mz : ∀ x ∈ zs, |x| ≤ M) (hbig : M ≤ 2 ^ (900 : ℤ))
    (hc : NearComb a b δ xs ys zs) {n : Nat} (h1 : 1 ≤ n) (hn : n ≤ 2 ^ 47) (h2 : n ≤ cs.length) :
    ∀ f ∈ [movingAverage ieee, exponentialMovingAverage ieee, smoothedMovingAverage ieee],
      ∃ o1 o2 o3, f (some cs) n = .ok o1 ∧ f (some ds) n = .ok o2 ∧ f (some es) n = .ok o3 ∧
        o1.length = o3.length ∧ o2.length = o3.length ∧
        ∀ k, k < o3.length → ∃ u v w x y z, o1[k]? = some u ∧ o2[k]? = some v ∧ o3[k]? = some w ∧
          u.Is x ∧ v.Is y ∧ w.Is z ∧ |z - (a * x + b * y)| ≤ (1 + |a| + |b|) * avgError n M + δ := by
  have hzl : n ≤ zs.length := by rw [← hc.1, ← hx.length_eq]; exact h2
  have hd2 : n ≤ ds.length := by rw [hy.length_eq, hc.2.1]; exact hzl
  have he2 : n ≤ es.length := by rw [hz.length_eq]; exact hzl
  obtain ⟨c1, c2, c3⟩ := avg_nearComb hc h1 hzl
  intro f hf
  simp only [List.mem_cons, List.not_mem_nil, or_false] at hf
  rcases hf with rfl | rfl | rfl
  · obtain ⟨o1, e1, n1⟩ := ma_near hx rx h1 hn h2 hM0 mx hbig
    obtain ⟨o2, e2, n2⟩ := ma_near hy ry h1 hn hd2 hM0 my hbig
    obtain ⟨o3, e3, n3⟩ := ma_near hz rz h1 hn he2 hM0 mz hbig
    exact ⟨o1, o2, o3, e1, e2, e3, near_comb n1 n2 n3 c1⟩
  · obtain ⟨o1, e1, n1⟩ := ema_near hx rx h1 hn h2 mx hbig
    obtain ⟨o2, e2, n2⟩ := ema_near hy ry h1 hn hd2 my hbig
    obtain ⟨o3, e3, n3⟩ := ema_near hz rz h1 hn he2 mz hbig
    exact ⟨o1, o2, o3, e1, e2, e3, near_comb n1 n2 n3 c2⟩
  · obtain ⟨o1, e1, n1⟩ := smma_near hx rx h1 hn h2 hM0 mx hbig
    obtain ⟨o2, e2, n2⟩ := smma_near hy ry h1 hn hd2 hM0 my hbig
    obtain ⟨o3, e3, n3⟩ := smma_near hz rz h1 hn he2 hM0 mz hbig
    exact ⟨o1, o2, o3, e1, e2, e3, near_comb n1 n2 n3 c3⟩

/-- **C262** Closes that are wrong by at most `δ` make the averages wrong by at most `δ` and two rounding errors. -/
theorem C262_noise {cs ds : List Candle} {xs ys : List ℚ} {δ M : ℚ} (hx : Closes cs xs) (hy : Closes ds ys)
    (rx : FloatCloses cs) (ry : FloatCloses ds) (hM0 : 0 ≤ M) (mx : ∀ x ∈ xs, |x| ≤ M) (my : ∀ x ∈ ys, |x| ≤ M)
    (hbig : M ≤ 2 ^ (900 : ℤ)) (hl : xs.length = ys.length)
    (hc : ∀ (k : Nat) (x y : ℚ), xs[k]? = some x → ys[k]? = some y → |y - x| ≤ δ)
    {n : Nat} (h1 : 1 ≤ n) (hn : n ≤ 2 ^ 47) (h2 : n ≤ cs.length) :
    ∀ f ∈ [movingAverage ieee, exponentialMovingAverage ieee, smoothedMovingAverage ieee],
      ∃ o1 o3, f (some cs) n = .ok o1 ∧ f (some ds) n = .ok o3 ∧ o1.length = o3.length ∧
        ∀ k, k < o3.length → ∃ u w x z, o1[k]? = some u ∧ o3[k]? = some w ∧ u.Is x ∧ w.Is z ∧
          |z - x| ≤ 2 * avgError n M + δ := by
  intro f hf
  obtain ⟨o1, o2, o3, e1, -, e3, l1, -, h⟩ := C262_averages (a := 1) (b := 0) (δ := δ) hx hx hy rx rx ry hM0 mx mx my hbig
    ⟨hl, hl, fun k x y z hx' _ hz => by simpa using hc k x z hx' hz⟩ h1 hn h2 f hf
  refine ⟨o1, o3, e1, e3, l1, fun k hk => ?_⟩
  obtain ⟨u, v, w, x, y, z, g1, -, g3, i1, -, i3, hb⟩ := h k hk
  refine ⟨u, w, x, z, g1, g3, i1, i3, ?_⟩
  have e : z - (1 * x + 0 * y) = z - x := by ring
  rw [e, abs_one, abs_zero] at hb
  linarith

/-- How far the volatility with smoothing factor `b` of ranges up to `M` may be from its exact value. -/
def Spec.volError (b M : ℚ) : ℚ := (16 * 2 ^ (-53 : ℤ) * M + 4 * 2 ^ (-1075 : ℤ)) / (1 - b)

theorem weights_sum_le {b : ℚ} (h0 : 0 ≤ b) (n : Nat) : ∑ i ∈ Finset.range n, (1 - b) * b ^ (n - 1 - i) ≤ 1 := by
  rw [← Finset.mul_sum, Finset.sum_range_reflect (fun j => b ^ j) n]
  have e : (1 - b) * ∑ j ∈ Finset.range n, b ^ j = 1 - b ^ n := by
    induction n with
    | zero => simp
    | succ n ih => rw [Finset.sum_range_succ, mul_add, ih, pow_succ]; ring
  have : 0 ≤ b ^ n := pow_nonneg h0 n
  linarith

/-- **C262** The volatility of a series whose ranges are within `δ` of a combination of the ranges of two others. -/
theorem C262_volatility {cs ds es : List Candle} (fc : FiniteRanges cs) (fd : FiniteRanges ds) (fe : FiniteRanges es)
    (rc : FloatRanges cs) (rd : FloatRanges ds) (re : FloatRanges es) {beta : Fl} {b M : ℚ} (hb : beta.Is b)
    (hbr : ieee.Rep beta) (hb0 : 0 ≤ b) (hb1 : 32 * 2 ^ (-53 : ℤ) ≤ 1 - b) (hM0 : 0 ≤ M) (mc : ∀ c ∈ cs, |rangeOf c| ≤ M)
    (md : ∀ c ∈ ds, |rangeOf c| ≤ M) (me : ∀ c ∈ es, |rangeOf c| ≤ M) (hbig : M ≤ 2 ^ (900 : ℤ)) {α β δ : ℚ} (hδ : 0 ≤ δ)
    (hc : NearComb α β δ (cs.map rangeOf) (ds.map rangeOf) (es.map rangeOf)) :
    ∃ x y z, (exponentialWeightedVolatility ieee cs beta).Is x ∧ (exponentialWeightedVolatility ieee ds beta).Is y ∧
      (exponentialWeightedVolatility ieee es beta).Is z ∧ |z - (α * x + β * y)| ≤ (1 + |α| + |β|) * volError b M + δ := by
  obtain ⟨x, i1, n1⟩ := C109_volatility_accurate fc rc hb hbr hb0 hb1 hM0 mc hbig
  obtain ⟨y, i2, n2⟩ := C109_volatility_accurate fd rd hb hbr hb0 hb1 hM0 md hbig
  obtain ⟨z, i3, n3⟩ := C109_volatility_accurate fe re hb hbr hb0 hb1 hM0 me hbig
  refine ⟨x, y, z, i1, i2, i3, ?_⟩
  obtain ⟨l1, l2, h⟩ := hc
  simp only [List.length_map] at l1 l2
  rw [l1] at n1
  rw [l2] at n2
  have h1b : 0 ≤ 1 - b := le_trans (mul_nonneg (by norm_num) (zpow_pos (by norm_num) _).le) hb1
  have key : |(∑ i ∈ Finset.range es.length, (1 - b) * b ^ (es.length - 1 - i) * (es.map rangeOf).getD i 0) -
      (α * (∑ i ∈ Finset.range es.length, (1 - b) * b ^ (es.length - 1 - i) * (cs.map rangeOf).getD i 0) +
       β * (∑ i ∈ Finset.range es.length, (1 - b) * b ^ (es.length - 1 - i) * (ds.map rangeOf).getD i 0))| ≤ δ := by
    rw [Finset.mul_sum, Finset.mul_sum, ← Finset.sum_add_distrib, ← Finset.sum_sub_distrib]
    refine (Finset.abs_sum_le_sum_abs _ _).trans ?_
    have : ∀ i ∈ Finset.range es.length, |(1 - b) * b ^ (es.length - 1 - i) * (es.map rangeOf).getD i 0 -
        (α * ((1 - b) * b ^ (es.length - 1 - i) * (cs.map rangeOf).getD i 0) +
         β * ((1 - b) * b ^ (es.length - 1 - i) * (ds.map rangeOf).getD i 0))| ≤ ((1 - b) * b ^ (es.length - 1 - i)) * δ := by
      intro i hi
      rw [Finset.mem_range] at hi
      have w : 0 ≤ (1 - b) * b ^ (es.length - 1 - i) := mul_nonneg h1b (pow_nonneg hb0 _)
      generalize (1 - b) * b ^ (es.length - 1 - i) = u at w
      have g : ∀ l : List Candle, l.length = es.length → (l.map rangeOf)[i]? = some ((l.map rangeOf).getD i 0) := by
        intro l hl
        rw [List.getD_eq_getElem?_getD, List.getElem?_eq_getElem (by simpa [hl] using hi)]
        rfl
      have := h i _ _ _ (g cs l1) (g ds l2) (g es rfl)
      generalize (cs.map rangeOf).getD i 0 = p at this
      generalize (ds.map rangeOf).getD i 0 = q at this
      generalize (es.map rangeOf).getD i 0 = r at this
      have e : u * r - (α * (u * p) + β * (u * q)) = u * (r - (α * p + β * q)) := by ring
      rw [e, abs_mul, abs_of_nonneg w]
      exact mul_le_mul_of_nonneg_left this w
    refine (Finset.sum_le_sum this).trans ?_
    rw [← Finset.sum_mul]
    have := mul_le_mul_of_nonneg_right (weights_sum_le hb0 es.length) hδ
    linarith
  unfold volError
  generalize (16 * (2 : ℚ) ^ (-53 : ℤ) * M + 4 * 2 ^ (-1075 : ℤ)) / (1 - b) = e at n1 n2 n3 ⊢
  generalize (∑ i ∈ Finset.range es.length, (1 - b) * b ^ (es.length - 1 - i) * (cs.map rangeOf).getD i 0) = p1 at n1 key
  generalize (∑ i ∈ Finset.range es.length, (1 - b) * b ^ (es.length - 1 - i) * (ds.map rangeOf).getD i 0) = p2 at n2 key
  generalize (∑ i ∈ Finset.range es.length, (1 - b) * b ^ (es.length - 1 - i) * (es.map rangeOf).getD i 0) = p3 at n3 key
  have ha : |α * (x - p1)| ≤ |α| * e := by rw [abs_mul]; exact mul_le_mul_of_nonneg_left n1 (abs_nonneg _)
  have hb : |β * (y - p2)| ≤ |β| * e := by rw [abs_mul]; exact mul_le_mul_of_nonneg_left n2 (abs_nonneg _)
  rw [abs_le] at *
  constructor <;> linarith [ha.1, ha.2, hb.1, hb.2, key.1, key.2, n3.1, n3.2]

/-- **Example for C262.** A series, a second one, and a third within a half of twice the first less the second. -/
example : Closes [exClose 1, exClose 2, exClose 6] [1, 2, 6] ∧ Closes [exClose 5, exClose 3, exClose 4] [5, 3, 4] ∧
    Closes [exClose (-3), exClose (3 / 2), exClose 8] [-3, 3 / 2, 8] ∧
    FloatCloses [exClose (-3), exClose (3 / 2), exClose 8] ∧
    NearComb 2 (-1) (1 / 2) [1, 2, 6] [5, 3, 4] [-3, 3 / 2, 8] ∧ ∀ x ∈ ([-3, 3 / 2, 8] : List ℚ), |x| ≤ 8 := by
  refine ⟨?_, ?_, ?_, ?_, ⟨rfl, rfl, ?_⟩, by decide +kernel⟩
  · repeat first | exact .nil | refine .cons (Fl.is_fin _) ?_
  · repeat first | exact .nil | refine .cons (Fl.is_fin _) ?_
  · repeat first | exact .nil | refine .cons (Fl.is_fin _) ?_
  · intro c hc q hq
    have : ∀ c ∈ [exClose (-3), exClose (3 / 2), exClose 8], ieee.rnd c.close.toRat = .fin c.close.toRat := by
      decide +kernel
    have h := this c hc
    rw [hq] at h
    exact h
  · intro k x y z hx hy hz
    rcases k with _ | _ | _ | k <;> simp at hx hy hz <;> subst hx hy hz <;> decide +kernel

/-- **Example for C262.** Ranges of two series, and of a third within a half of their sum. -/
example : NearComb 1 1 (1 / 2) ([exRange 5 1, exRange 8 2].map rangeOf) ([exRange 3 2, exRange 4 1].map rangeOf)
      ([exRange 8 3, exRange 20 (23 / 2)].map rangeOf) ∧
    FiniteRanges [exRange 8 3, exRange 20 (23 / 2)] ∧ (∀ c ∈ [exRange 8 3, exRange 20 (23 / 2)], |rangeOf c| ≤ 9) := by
  refine ⟨⟨rfl, rfl, ?_⟩, by unfold FiniteRanges; decide +kernel, by decide +kernel⟩
  intro k x y z hx hy hz
  rcases k with _ | _ | k <;> simp at hx hy hz <;> subst hx hy hz <;> decide +kernel

end Finmod
