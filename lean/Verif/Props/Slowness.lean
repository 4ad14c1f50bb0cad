import Verif.Props.Lagging

/-!
# C280: how fast an average can move
-/

namespace Finmod
open Go Spec

/-- Neighbouring values are numbers at most `d` apart. -/
def Spec.Moves (d : ℚ) (out : List Fl) : Prop :=
  ∀ i x y, out[i]? = some x → out[i + 1]? = some y → ∃ r s, x.Is r ∧ y.Is s ∧ |s - r| ≤ d

/-- Neighbouring numbers are at most `d` apart. -/
def SmallSteps (d : ℚ) (ys : List ℚ) : Prop := ∀ i (h : i + 1 < ys.length), |ys[i + 1] - ys[i]| ≤ d

theorem near_moves {d E : ℚ} {out : List Fl} {ys : List ℚ} (h : List.Forall₂ (fun y q => ∃ r, y.Is r ∧ |r - q| ≤ E) out ys)
    (hy : SmallSteps d ys) : Moves (d + 2 * E) out := by
  intro i x y hx hy'
  obtain ⟨i1, rfl⟩ := List.getElem?_eq_some_iff.1 hx
  obtain ⟨i2, rfl⟩ := List.getElem?_eq_some_iff.1 hy'
  obtain ⟨hl, hg⟩ := List.forall₂_iff_get.1 h
  obtain ⟨r, hr, hrE⟩ := hg i i1 (hl ▸ i1)
  obtain ⟨s, hs, hsE⟩ := hg (i + 1) i2 (hl ▸ i2)
  have hd := hy i (hl ▸ i2)
  simp only [List.get_eq_getElem] at hr hs hrE hsE
  rw [abs_le] at hrE hsE hd
  exact ⟨r, s, hr, hs, abs_le.2 ⟨by linarith, by linarith⟩⟩

theorem exact_moves {d : ℚ} {out : List Fl} {ys : List ℚ} (h : List.Forall₂ Fl.Is out ys)
    (hy : SmallSteps d ys) : Moves d out := by
  have := near_moves (E := 0) (h.imp fun y q hq => ⟨q, hq, by simp⟩) hy
  simpa using this

theorem scan_steps {lo hi w : ℚ} (hw : 0 ≤ w) (hw1 : w ≤ 1) {f : ℚ → ℚ → ℚ} (hf : ∀ a b, f a b = b * w + a * (1 - w)) {l : List ℚ}
    (hl : ∀ x ∈ l, lo ≤ x ∧ x ≤ hi) {a : ℚ} (ha : lo ≤ a ∧ a ≤ hi) :
    SmallSteps (w * (hi - lo)) (scan f a l) := by
  induction l generalizing a with
  | nil => intro i h; simp [scan] at h
  | cons b bs ih =>
    obtain ⟨b1, b2⟩ := hl b List.mem_cons_self
    have hfa : lo ≤ f a b ∧ f a b ≤ hi := by
      rw [hf]
      have h' : 0 ≤ 1 - w := by linarith
      constructor <;> nlinarith [mul_le_mul_of_nonneg_right b1 hw, mul_le_mul_of_nonneg_right b2 hw,
        mul_le_mul_of_nonneg_right ha.1 h', mul_le_mul_of_nonneg_right ha.2 h']
    have hstep : |f a b - a| ≤ w * (hi - lo) := by
      have e : f a b - a = w * (b - a) := by rw [hf]; ring
      rw [e, abs_mul, abs_of_nonneg hw]
      exact mul_le_mul_of_nonneg_left (abs_le.2 ⟨by linarith [ha.2], by linarith [ha.1]⟩) hw
    intro i h
    cases i with
    | zero =>
      have e : ∀ (l : List ℚ) (c : ℚ) (h : 0 < (scan f c l).length), (scan f c l)[0] = c := by
        intro l c h; cases l <;> rfl
      simp only [scan, zero_add, List.getElem_cons_succ, List.getElem_cons_zero]
      rw [e]
      exact hstep
    | succ i =>
      simp only [scan, List.getElem_cons_succ]
      exact ih (fun x hx => hl x (List.mem_cons_of_mem _ hx)) hfa i (by simpa [scan] using h)

/-- The steps of the three averages of closes from `lo` to `hi`. -/
theorem slow_q {xs : List ℚ} {lo hi : ℚ} (hx : ∀ x ∈ xs, lo ≤ x ∧ x ≤ hi) {n : Nat} (h1 : 1 ≤ n) (h2 : n ≤ xs.length) :
    SmallSteps ((hi - lo) / n) (maQ xs n) ∧
    SmallSteps (2 / ((n : ℚ) + 1) * (hi - lo)) (emaQ xs n) ∧
    SmallSteps ((hi - lo) / n) (smmaQ xs n) := by
  have hn : (0 : ℚ) < n := by exact_mod_cast h1
  have hn1 : (1 : ℚ) ≤ n := by exact_mod_cast h1
  have hseed : lo ≤ mean (xs.take n) ∧ mean (xs.take n) ≤ hi :=
    mean_bounds (by intro e; have := congrArg List.length e; simp only [List.length_take, List.length_nil] at this; omega) fun x hm => hx x (List.mem_of_mem_take hm)
  refine ⟨fun i h => ?_, ?_, ?_⟩
  · simp only [maQ, List.length_map, List.length_range] at h
    simp only [maQ, List.getElem_map, List.getElem_range]
    rw [mean_slide h1 (by omega), add_sub_cancel_left, abs_div, abs_of_pos hn]
    apply div_le_div_of_nonneg_right _ hn.le
    have a1 := hx _ (List.getElem_mem (l := xs) (n := i + n) (by omega))
    have a2 := hx _ (List.getElem_mem (l := xs) (n := i) (by omega))
    exact abs_le.2 ⟨by linarith [a1.1, a2.2], by linarith [a1.2, a2.1]⟩
  · cases hd : xs.drop n with
    | nil =>
      have e : emaQ xs n = [] := by unfold emaQ; rw [hd]
      rw [e]
      intro i h; simp at h
    | cons c rest =>
      have e : emaQ xs n = scan (fun prev x => x * (2 / ((n : ℚ) + 1)) + prev * (1 - 2 / ((n : ℚ) + 1))) (mean (xs.take n)) rest := by
        unfold emaQ; rw [hd]
      have hm : ∀ x ∈ rest, lo ≤ x ∧ x ≤ hi := fun x hm => hx x (List.mem_of_mem_drop (hd ▸ List.mem_cons_of_mem _ hm))
      rw [e]
      exact scan_steps (weight_trend h1).1.le (weight_trend h1).2 (fun a b => rfl) hm hseed
  · unfold smmaQ
    have := scan_steps (w := 1 / n) (f := fun prev x => (prev * ((n : ℚ) - 1) + x) / n) (by positivity)
      (by rw [div_le_one hn]; exact hn1) (fun a b => by field_simp; ring) (l := xs.drop n) (fun x hm => hx x (List.mem_of_mem_drop hm)) hseed
    intro i h
    refine (this i h).trans (le_of_eq ?_)
    ring

/-- **C280, in exact arithmetic** From one value to the next, `MovingAverage` and `SmoothedMovingAverage` of closes from `lo` to `hi` move by at most
`(hi - lo) / n`, `ExponentialMovingAverage` by at most `2 (hi - lo) / (n + 1)`. -/
theorem C280_moves {cs : List Candle} {xs : List ℚ} (hx : Closes cs xs) {lo hi : ℚ} (hr : ∀ x ∈ xs, lo ≤ x ∧ x ≤ hi)
    {n : Nat} (h1 : 1 ≤ n) (h2 : n ≤ cs.length) :
    (∃ out, movingAverage FloatSem.exact (some cs) n = .ok out ∧ Moves ((hi - lo) / n) out) ∧
    (∃ out, exponentialMovingAverage FloatSem.exact (some cs) n = .ok out ∧ Moves (2 / ((n : ℚ) + 1) * (hi - lo)) out) ∧
    (∃ out, smoothedMovingAverage FloatSem.exact (some cs) n = .ok out ∧ Moves ((hi - lo) / n) out) := by
  obtain ⟨q1, q2, q3⟩ := slow_q hr h1 (hx.length ▸ h2)
  obtain ⟨o1, e1, f1⟩ := ma_exact hx h1 h2
  obtain ⟨o2, e2, f2⟩ := ema_exact hx h1 h2
  obtain ⟨o3, e3, f3⟩ := smma_exact hx h1 h2
  exact ⟨⟨o1, e1, exact_moves f1 q1⟩, ⟨o2, e2, exact_moves f2 q2⟩, ⟨o3, e3, exact_moves f3 q3⟩⟩

/-- **C280, in float64** The same up to twice the rounding errors of C107 and C108. -/
theorem C280_near {cs : List Candle} {xs : List ℚ} (hx : Closes cs xs) (hf : FloatCloses cs) {lo hi : ℚ} (hr : ∀ x ∈ xs, lo ≤ x ∧ x ≤ hi)
    {n : Nat} (h1 : 1 ≤ n) (hn : n ≤ 2 ^ 47) (h2 : n ≤ cs.length) {M : ℚ} (hM : ∀ x ∈ xs, |x| ≤ M) (hbig : M ≤ 2 ^ (900 : ℤ)) :
    (∃ out, movingAverage ieee (some cs) n = .ok out ∧
      Moves ((hi - lo) / n + 2 * (2 * (n + 1) * 2 ^ (-53 : ℤ) * M + 2 ^ (-1075 : ℤ))) out) ∧
    (∃ out, exponentialMovingAverage ieee (some cs) n = .ok out ∧
      Moves (2 / ((n : ℚ) + 1) * (hi - lo) + 2 * ((n + 1) * (16 * 2 ^ (-53 : ℤ) * M + 4 * 2 ^ (-1075 : ℤ)))) out) ∧
    (∃ out, smoothedMovingAverage ieee (some cs) n = .ok out ∧
      Moves ((hi - lo) / n + 2 * (8 * n * (2 ^ (-53 : ℤ) * M + 2 ^ (-1075 : ℤ)))) out) := by
  obtain ⟨q1, q2, q3⟩ := slow_q hr h1 (hx.length ▸ h2)
  obtain ⟨o1, e1, f1⟩ := ma_near_all hx hf h1 (hn.trans (by norm_num)) h2 hM hbig
  obtain ⟨o2, e2, f2⟩ := C108_ema_accurate hx hf h1 hn h2 hM hbig
  obtain ⟨o3, e3, f3⟩ := C108_smma_accurate hx hf h1 hn h2 hM hbig
  exact ⟨⟨o1, e1, near_moves f1 q1⟩, ⟨o2, e2, near_moves f2 q2⟩, ⟨o3, e3, near_moves f3 q3⟩⟩

/-- The bound is reached by `MovingAverage` when a close at one end of the range takes the place of one at the other. -/
example : Closes (closeCandles [1, 3, 5]) [1, 3, 5] ∧ FloatCloses (closeCandles [1, 3, 5]) ∧ (∀ x ∈ [(1 : ℚ), 3, 5], 1 ≤ x ∧ x ≤ 5) ∧
    (∀ x ∈ [(1 : ℚ), 3, 5], |x| ≤ 5) ∧ movingAverage ieee (some (closeCandles [1, 3, 5])) 2 = .ok [.fin 2, .fin 4] ∧
    smoothedMovingAverage ieee (some (closeCandles [1, 3, 5])) 2 = .ok [.fin 2, .fin (7 / 2)] := by
  refine ⟨.cons (Fl.is_fin _) (.cons (Fl.is_fin _) (.cons (Fl.is_fin _) .nil)), ?_, by decide +kernel, by decide +kernel,
    by decide +kernel, by decide +kernel⟩
  intro c hc
  simp only [closeCandles, List.map_cons, List.map_nil, List.mem_cons, List.not_mem_nil, or_false] at hc
  rcases hc with rfl | rfl | rfl <;> (intro q hq; cases hq; decide +kernel)

end Finmod
