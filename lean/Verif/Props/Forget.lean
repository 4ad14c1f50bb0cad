import Verif.Props.Accuracy

/-!
# C176: the recursive averages forget old prices
-/

namespace Finmod
open Go Spec

theorem scan_forget {f : ℚ → ℚ → ℚ} {r : ℚ} (hf : ∀ p p' x, f p x - f p' x = r * (p - p'))
    {a a' : ℚ} {l l' : List ℚ} {j : Nat} (hl : ∀ k, j ≤ k → l[k]? = l'[k]?) {z z' : ℚ}
    (hz : (scan f a l)[j]? = some z) (hz' : (scan f a' l')[j]? = some z') (i : Nat) :
    ∀ y y', (scan f a l)[j + i]? = some y → (scan f a' l')[j + i]? = some y' →
      y - y' = r ^ i * (z - z') := by
  induction i with
  | zero =>
    intro y y' hy hy'
    rw [Nat.add_zero] at hy hy'
    rw [hz] at hy; rw [hz'] at hy'
    cases hy; cases hy'
    ring
  | succ i ih =>
    intro y y' hy hy'
    have hlt : j + (i + 1) < (scan f a l).length := by
      by_contra hc; rw [List.getElem?_eq_none (by omega)] at hy; cases hy
    have hlt' : j + (i + 1) < (scan f a' l').length := by
      by_contra hc; rw [List.getElem?_eq_none (by omega)] at hy'; cases hy'
    have hb : j + i < l.length := by rw [length_scan] at hlt; omega
    have hp := List.getElem?_eq_getElem (l := scan f a l) (i := j + i) (by omega)
    have hp' := List.getElem?_eq_getElem (l := scan f a' l') (i := j + i) (by omega)
    have hb1 := List.getElem?_eq_getElem hb
    have s1 := scan_succ f a l (j + i) _ _ hp hb1
    have s2 := scan_succ f a' l' (j + i) _ _ hp' (by rw [← hl (j + i) (by omega)]; exact hb1)
    rw [← Nat.add_assoc] at hy hy'
    rw [s1] at hy; rw [s2] at hy'
    cases hy; cases hy'
    rw [hf, ih _ _ hp hp', pow_succ]
    ring

theorem emaQ_scan {xs : List ℚ} {n : Nat} (h : n < xs.length) :
    emaQ xs n = scan (fun prev x => x * (2 / ((n : ℚ) + 1)) + prev * (1 - 2 / ((n : ℚ) + 1)))
      (mean (xs.take n)) (xs.drop (n + 1)) := by
  unfold emaQ
  rw [List.drop_eq_getElem_cons h]

theorem emaQ_forget {xs xs' : List ℚ} {n j : Nat} (hs : ∀ k, n + j + 1 ≤ k → xs[k]? = xs'[k]?)
    (h : n < xs.length) (h' : n < xs'.length) {z z' : ℚ} (hz : (emaQ xs n)[j]? = some z)
    (hz' : (emaQ xs' n)[j]? = some z') {i : Nat} {y y' : ℚ} (hy : (emaQ xs n)[j + i]? = some y)
    (hy' : (emaQ xs' n)[j + i]? = some y') :
    y - y' = (1 - 2 / ((n : ℚ) + 1)) ^ i * (z - z') := by
  rw [emaQ_scan h] at hz hy
  rw [emaQ_scan h'] at hz' hy'
  refine scan_forget (fun p p' x => by ring) ?_ hz hz' i y y' hy hy'
  intro k hk
  rw [List.getElem?_drop, List.getElem?_drop]
  exact hs _ (by omega)

theorem smmaQ_forget {xs xs' : List ℚ} {n j : Nat} (h1 : 1 ≤ n)
    (hs : ∀ k, n + j ≤ k → xs[k]? = xs'[k]?)
    {z z' : ℚ} (hz : (smmaQ xs n)[j]? = some z)
    (hz' : (smmaQ xs' n)[j]? = some z') {i : Nat} {y y' : ℚ} (hy : (smmaQ xs n)[j + i]? = some y)
    (hy' : (smmaQ xs' n)[j + i]? = some y') :
    y - y' = (1 - 1 / (n : ℚ)) ^ i * (z - z') := by
  unfold smmaQ at *
  have hn : (n : ℚ) ≠ 0 := by positivity
  refine scan_forget (fun p p' x => by field_simp; ring) ?_ hz hz' i y y' hy hy'
  intro k hk
  rw [List.getElem?_drop, List.getElem?_drop]
  exact hs _ (by omega)

theorem emaQ_bounds {xs : List ℚ} {n : Nat} (h1 : 1 ≤ n) {lo hi : ℚ}
    (hb : ∀ x ∈ xs, lo ≤ x ∧ x ≤ hi) : ∀ q ∈ emaQ xs n, lo ≤ q ∧ q ≤ hi := by
  unfold emaQ
  cases hd : xs.drop n with
  | nil => simp
  | cons y ys =>
    simp only
    have hl : n < xs.length := by
      have := congrArg List.length hd
      simp only [List.length_drop, List.length_cons] at this
      omega
    refine scan_all (Q := fun x => lo ≤ x ∧ x ≤ hi) (mean_bounds (by simpa using take_ne_nil (xs := xs) (k := 0) h1 (by omega))
      (fun x hx => hb x (List.mem_of_mem_take hx))) ?_ ?_
    · intro b hb'
      refine hb b (List.mem_of_mem_drop (i := n) ?_)
      rw [hd]; simp [hb']
    · intro x y hx hy
      obtain ⟨w1, w2⟩ := weight_bounds h1
      generalize 2 / ((n : ℚ) + 1) = w at *
      constructor <;> nlinarith [hx.1, hx.2, hy.1, hy.2]

theorem smmaQ_bounds {xs : List ℚ} {n : Nat} (h1 : 1 ≤ n) (h2 : n ≤ xs.length) {lo hi : ℚ}
    (hb : ∀ x ∈ xs, lo ≤ x ∧ x ≤ hi) : ∀ q ∈ smmaQ xs n, lo ≤ q ∧ q ≤ hi := by
  unfold smmaQ
  refine scan_all (Q := fun x => lo ≤ x ∧ x ≤ hi) (mean_bounds (by simpa using take_ne_nil (xs := xs) (k := 0) h1 (by omega))
    (fun x hx => hb x (List.mem_of_mem_take hx))) ?_ ?_
  · intro b hb'
    exact hb b (List.mem_of_mem_drop hb')
  · intro x y hx hy
    have hn : (1 : ℚ) ≤ n := by exact_mod_cast h1
    have hn0 : (0 : ℚ) < n := by linarith
    constructor
    · rw [le_div_iff₀ hn0]; nlinarith [hx.1, hy.1]
    · rw [div_le_iff₀ hn0]; nlinarith [hx.2, hy.2]

theorem getElem?_lt {α : Type} {l : List α} {k : Nat} {x : α} (h : l[k]? = some x) : k < l.length := by
  by_contra hc
  rw [List.getElem?_eq_none (by omega)] at h
  cases h

theorem forall₂_get? {α β : Type} {R : α → β → Prop} {l : List α} {m : List β} (h : List.Forall₂ R l m)
    {k : Nat} {x : α} (hx : l[k]? = some x) : ∃ y, m[k]? = some y ∧ R x y := by
  induction h generalizing k with
  | nil => simp at hx
  | cons hr _ ih =>
    cases k with
    | zero => simp only [List.getElem?_cons_zero, Option.some.injEq] at hx ⊢; subst hx; exact ⟨_, rfl, hr⟩
    | succ k => simp only [List.getElem?_cons_succ] at hx ⊢; exact ih hx

theorem length_emaQ {xs : List ℚ} {n : Nat} : (emaQ xs n).length = xs.length - n := by
  by_cases h : n < xs.length
  · rw [emaQ_scan h, length_scan]; simp; omega
  · unfold emaQ
    rw [List.drop_eq_nil_of_le (by omega)]
    simp; omega

/-- **C176.** Exact arithmetic, exponential average: when two series have the same closes behind
the candle that gave value number `j`, their values number `j + i` differ by
`(1 - 2/(n+1))^i` times the difference of the values number `j`. -/
theorem C176_ema_forgets {cs cs' : List Candle} {xs xs' : List ℚ} (h : Closes cs xs)
    (h' : Closes cs' xs') {n : Nat} (h1 : 1 ≤ n) (h2 : n ≤ cs.length) (h2' : n ≤ cs'.length) {j : Nat}
    (hs : ∀ k, n + j < k → xs[k]? = xs'[k]?) :
    ∃ out out', exponentialMovingAverage FloatSem.exact (some cs) n = .ok out ∧
      exponentialMovingAverage FloatSem.exact (some cs') n = .ok out' ∧
      ∀ i (a a' y y' : Fl), out[j]? = some a → out'[j]? = some a' → out[j + i]? = some y →
        out'[j + i]? = some y' →
        y.toRat - y'.toRat = (1 - 2 / ((n : ℚ) + 1)) ^ i * (a.toRat - a'.toRat) := by
  obtain ⟨out, e, ho⟩ := ema_exact h h1 h2
  obtain ⟨out', e', ho'⟩ := ema_exact h' h1 h2'
  refine ⟨out, out', e, e', ?_⟩
  intro i a a' y y' ha ha' hy hy'
  obtain ⟨qa, qa1, qa2⟩ := forall₂_get? ho ha
  obtain ⟨qa', qa1', qa2'⟩ := forall₂_get? ho' ha'
  obtain ⟨qy, qy1, qy2⟩ := forall₂_get? ho hy
  obtain ⟨qy', qy1', qy2'⟩ := forall₂_get? ho' hy'
  rw [qa2.toRat, qa2'.toRat, qy2.toRat, qy2'.toRat]
  have l1 := getElem?_lt qa1
  have l2 := getElem?_lt qa1'
  rw [length_emaQ] at l1 l2
  exact emaQ_forget (fun k hk => hs k (by omega)) (by omega) (by omega) qa1 qa1' qy1 qy1'

/-- **C176.** Exact arithmetic, smoothed average: the factor is `1 - 1/n` for each later value. -/
theorem C176_smma_forgets {cs cs' : List Candle} {xs xs' : List ℚ} (h : Closes cs xs)
    (h' : Closes cs' xs') {n : Nat} (h1 : 1 ≤ n) (h2 : n ≤ cs.length) (h2' : n ≤ cs'.length) {j : Nat}
    (hs : ∀ k, n + j ≤ k → xs[k]? = xs'[k]?) :
    ∃ out out', smoothedMovingAverage FloatSem.exact (some cs) n = .ok out ∧
      smoothedMovingAverage FloatSem.exact (some cs') n = .ok out' ∧
      ∀ i (a a' y y' : Fl), out[j]? = some a → out'[j]? = some a' → out[j + i]? = some y →
        out'[j + i]? = some y' →
        y.toRat - y'.toRat = (1 - 1 / (n : ℚ)) ^ i * (a.toRat - a'.toRat) := by
  obtain ⟨out, e, ho⟩ := smma_exact h h1 h2
  obtain ⟨out', e', ho'⟩ := smma_exact h' h1 h2'
  refine ⟨out, out', e, e', ?_⟩
  intro i a a' y y' ha ha' hy hy'
  obtain ⟨qa, qa1, qa2⟩ := forall₂_get? ho ha
  obtain ⟨qa', qa1', qa2'⟩ := forall₂_get? ho' ha'
  obtain ⟨qy, qy1, qy2⟩ := forall₂_get? ho hy
  obtain ⟨qy', qy1', qy2'⟩ := forall₂_get? ho' hy'
  rw [qa2.toRat, qa2'.toRat, qy2.toRat, qy2'.toRat]
  exact smmaQ_forget h1 hs qa1 qa1' qy1 qy1'

theorem forget_bound {r z z' lo hi e y y' q q' : ℚ} {i : Nat} (hr0 : 0 ≤ r)
    (hz : lo ≤ z ∧ z ≤ hi) (hz' : lo ≤ z' ∧ z' ≤ hi) (hq : q - q' = r ^ i * (z - z'))
    (hy : |y - q| ≤ e) (hy' : |y' - q'| ≤ e) : |y - y'| ≤ r ^ i * (hi - lo) + 2 * e := by
  have hp : 0 ≤ r ^ i := pow_nonneg hr0 i
  have hd : |z - z'| ≤ hi - lo := by rw [abs_le]; constructor <;> linarith [hz.1, hz.2, hz'.1, hz'.2]
  have h1 : |q - q'| ≤ r ^ i * (hi - lo) := by
    rw [hq, abs_mul, abs_of_nonneg hp]; exact mul_le_mul_of_nonneg_left hd hp
  rw [abs_le] at *
  constructor <;> linarith [hy.1, hy.2, hy'.1, hy'.2, h1.1, h1.2]

theorem ratio_nonneg {n : Nat} (h1 : 1 ≤ n) : (0 : ℚ) ≤ 1 - 2 / ((n : ℚ) + 1) := by
  have := (weight_bounds h1).2
  linarith

theorem ratio_nonneg' {n : Nat} (h1 : 1 ≤ n) : (0 : ℚ) ≤ 1 - 1 / (n : ℚ) := by
  have hn : (1 : ℚ) ≤ n := by exact_mod_cast h1
  have : 1 / (n : ℚ) ≤ 1 := by rw [div_le_one (by linarith)]; exact hn
  linarith

/-- **C176.** In float64: with closes between `lo` and `hi`, `i` values later the exponential
averages of the two series are within `(1 - 2/(n+1))^i * (hi - lo)` of each other, up to the
rounding error of both. -/
theorem C176_ema_float {cs cs' : List Candle} {xs xs' : List ℚ} (h : Closes cs xs)
    (h' : Closes cs' xs') (hr : FloatCloses cs) (hr' : FloatCloses cs') {n : Nat} (h1 : 1 ≤ n)
    (hn : n ≤ 2 ^ 47) (h2 : n ≤ cs.length) (h2' : n ≤ cs'.length) {j : Nat}
    (hs : ∀ k, n + j < k → xs[k]? = xs'[k]?) {lo hi M : ℚ}
    (hb : ∀ x ∈ xs ++ xs', lo ≤ x ∧ x ≤ hi) (hM : ∀ x ∈ xs ++ xs', |x| ≤ M) (hbig : M ≤ 2 ^ (900 : ℤ)) :
    ∃ out out', exponentialMovingAverage ieee (some cs) n = .ok out ∧
      exponentialMovingAverage ieee (some cs') n = .ok out' ∧
      ∀ i (y y' : Fl), out[j + i]? = some y → out'[j + i]? = some y' →
        ∃ r r', y.Is r ∧ y'.Is r' ∧ |r - r'| ≤ (1 - 2 / ((n : ℚ) + 1)) ^ i * (hi - lo) +
          2 * ((n + 1) * (16 * 2 ^ (-53 : ℤ) * M + 4 * 2 ^ (-1075 : ℤ))) := by
  obtain ⟨out, e, ho⟩ := C108_ema_accurate h hr h1 hn h2 (fun x hx => hM x (by simp [hx])) hbig
  obtain ⟨out', e', ho'⟩ := C108_ema_accurate h' hr' h1 hn h2' (fun x hx => hM x (by simp [hx])) hbig
  refine ⟨out, out', e, e', ?_⟩
  intro i y y' hy hy'
  obtain ⟨q, q1, r, r1, r2⟩ := forall₂_get? ho hy
  obtain ⟨q', q1', r', r1', r2'⟩ := forall₂_get? ho' hy'
  have l1 := getElem?_lt q1
  have l2 := getElem?_lt q1'
  have z1 := List.getElem?_eq_getElem (l := emaQ xs n) (i := j) (by omega)
  have z2 := List.getElem?_eq_getElem (l := emaQ xs' n) (i := j) (by omega)
  rw [length_emaQ] at l1 l2
  exact ⟨r, r', r1, r1', forget_bound (ratio_nonneg h1)
    (emaQ_bounds h1 (fun x hx => hb x (by simp [hx])) _ (List.mem_of_getElem? z1))
    (emaQ_bounds h1 (fun x hx => hb x (by simp [hx])) _ (List.mem_of_getElem? z2))
    (emaQ_forget (fun k hk => hs k (by omega)) (by omega) (by omega) z1 z2 q1 q1') r2 r2'⟩

/-- **C176.** In float64, smoothed average. -/
theorem C176_smma_float {cs cs' : List Candle} {xs xs' : List ℚ} (h : Closes cs xs)
    (h' : Closes cs' xs') (hr : FloatCloses cs) (hr' : FloatCloses cs') {n : Nat} (h1 : 1 ≤ n)
    (hn : n ≤ 2 ^ 47) (h2 : n ≤ cs.length) (h2' : n ≤ cs'.length) {j : Nat}
    (hs : ∀ k, n + j ≤ k → xs[k]? = xs'[k]?) {lo hi M : ℚ}
    (hb : ∀ x ∈ xs ++ xs', lo ≤ x ∧ x ≤ hi) (hM : ∀ x ∈ xs ++ xs', |x| ≤ M) (hbig : M ≤ 2 ^ (900 : ℤ)) :
    ∃ out out', smoothedMovingAverage ieee (some cs) n = .ok out ∧
      smoothedMovingAverage ieee (some cs') n = .ok out' ∧
      ∀ i (y y' : Fl), out[j + i]? = some y → out'[j + i]? = some y' →
        ∃ r r', y.Is r ∧ y'.Is r' ∧ |r - r'| ≤ (1 - 1 / (n : ℚ)) ^ i * (hi - lo) +
          2 * (8 * n * (2 ^ (-53 : ℤ) * M + 2 ^ (-1075 : ℤ))) := by
  obtain ⟨out, e, ho⟩ := C108_smma_accurate h hr h1 hn h2 (fun x hx => hM x (by simp [hx])) hbig
  obtain ⟨out', e', ho'⟩ := C108_smma_accurate h' hr' h1 hn h2' (fun x hx => hM x (by simp [hx])) hbig
  refine ⟨out, out', e, e', ?_⟩
  intro i y y' hy hy'
  obtain ⟨q, q1, r, r1, r2⟩ := forall₂_get? ho hy
  obtain ⟨q', q1', r', r1', r2'⟩ := forall₂_get? ho' hy'
  have l1 := getElem?_lt q1
  have l2 := getElem?_lt q1'
  have z1 := List.getElem?_eq_getElem (l := smmaQ xs n) (i := j) (by omega)
  have z2 := List.getElem?_eq_getElem (l := smmaQ xs' n) (i := j) (by omega)
  exact ⟨r, r', r1, r1', forget_bound (ratio_nonneg' h1)
    (smmaQ_bounds h1 (h.length ▸ h2) (fun x hx => hb x (by simp [hx])) _ (List.mem_of_getElem? z1))
    (smmaQ_bounds h1 (h'.length ▸ h2') (fun x hx => hb x (by simp [hx])) _ (List.mem_of_getElem? z2))
    (smmaQ_forget h1 hs z1 z2 q1 q1') r2 r2'⟩

example : Closes [exClose 1, exClose 3, exClose 9, exClose 5, exClose 7] [1, 3, 9, 5, 7] ∧
    Closes [exClose 40, exClose 3, exClose 2, exClose 5, exClose 7] [40, 3, 2, 5, 7] ∧
    (∀ k, 2 + 0 < k → ([1, 3, 9, 5, 7] : List ℚ)[k]? = ([40, 3, 2, 5, 7] : List ℚ)[k]?) ∧
    exponentialMovingAverage FloatSem.exact
      (some [exClose 1, exClose 3, exClose 9, exClose 5, exClose 7]) 2 = .ok [.fin 2, .fin 4, .fin 6] ∧
    exponentialMovingAverage FloatSem.exact
      (some [exClose 40, exClose 3, exClose 2, exClose 5, exClose 7]) 2 =
        .ok [.fin (43 / 2), .fin (21 / 2), .fin (49 / 6)] := by
  refine ⟨?_, ?_, ?_, by decide +kernel, by decide +kernel⟩
  · exact .cons (Fl.is_fin _) (.cons (Fl.is_fin _) (.cons (Fl.is_fin _) (.cons (Fl.is_fin _) (.cons (Fl.is_fin _) .nil))))
  · exact .cons (Fl.is_fin _) (.cons (Fl.is_fin _) (.cons (Fl.is_fin _) (.cons (Fl.is_fin _) (.cons (Fl.is_fin _) .nil))))
  · intro k hk
    match k, hk with
    | k + 3, _ => simp

/-- Hypotheses of the float64 theorems: `accCandles` and the same with another first close. -/
example : FloatCloses (exClose 9 :: accCandles.tail) ∧
    Closes accCandles [2, 3602879701896397 / 36028797018963968, 4, 5] ∧
    Closes (exClose 9 :: accCandles.tail) [9, 3602879701896397 / 36028797018963968, 4, 5] ∧
    (∀ x ∈ ([2, 3602879701896397 / 36028797018963968, 4, 5] ++
      [9, 3602879701896397 / 36028797018963968, 4, 5] : List ℚ), 0 ≤ x ∧ x ≤ 9) := by
  refine ⟨?_, ?_, ?_, by decide +kernel⟩
  · intro c hc q hq
    have : ∀ c ∈ exClose 9 :: accCandles.tail, ieee.rnd c.close.toRat = .fin c.close.toRat := by decide +kernel
    have h := this c hc
    rw [hq] at h; exact h
  · refine .cons ?_ (.cons ?_ (.cons ?_ (.cons ?_ .nil))) <;> exact .inl (by decide +kernel)
  · refine .cons ?_ (.cons ?_ (.cons ?_ (.cons ?_ .nil))) <;> exact .inl (by decide +kernel)

end Finmod
