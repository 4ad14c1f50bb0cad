import Verif.Props.Averages
import Verif.Props.VolatilityMore

/-!
# C217: indicators of combined series
-/

namespace Finmod
open Go Spec

theorem sum_comb (a b : ℚ) : ∀ {xs ys : List ℚ}, xs.length = ys.length →
    (List.zipWith (fun x y => a * x + b * y) xs ys).sum = a * xs.sum + b * ys.sum
  | [], [], _ => by simp
  | x :: xs, y :: ys, h => by
    have ih := sum_comb a b (xs := xs) (ys := ys) (by simpa using h)
    simp only [List.zipWith_cons_cons, List.sum_cons, ih]
    ring

theorem mean_comb (a b : ℚ) {xs ys : List ℚ} (h : xs.length = ys.length) :
    mean (List.zipWith (fun x y => a * x + b * y) xs ys) = a * mean xs + b * mean ys := by
  unfold mean
  rw [sum_comb a b h, List.length_zipWith, h, min_self]
  ring

theorem scan_comb {f g h : ℚ → ℚ → ℚ} {c : ℚ → ℚ → ℚ} (hc : ∀ u v x y, h (c u v) (c x y) = c (f u x) (g v y)) :
    ∀ {xs ys : List ℚ}, xs.length = ys.length → ∀ u v,
      scan h (c u v) (List.zipWith c xs ys) = List.zipWith c (scan f u xs) (scan g v ys)
  | [], [], _, u, v => rfl
  | x :: xs, y :: ys, hl, u, v => by
    simp only [List.zipWith_cons_cons, scan, hc, scan_comb hc (xs := xs) (ys := ys) (by simpa using hl)]

theorem Q_comb {xs ys : List ℚ} (hl : xs.length = ys.length) (n : Nat) (a b : ℚ) :
    maQ (List.zipWith (fun x y => a * x + b * y) xs ys) n =
      List.zipWith (fun x y => a * x + b * y) (maQ xs n) (maQ ys n) ∧
    emaQ (List.zipWith (fun x y => a * x + b * y) xs ys) n =
      List.zipWith (fun x y => a * x + b * y) (emaQ xs n) (emaQ ys n) ∧
    smmaQ (List.zipWith (fun x y => a * x + b * y) xs ys) n =
      List.zipWith (fun x y => a * x + b * y) (smmaQ xs n) (smmaQ ys n) := by
  have hf : mean ((List.zipWith (fun x y => a * x + b * y) xs ys).take n) = a * mean (xs.take n) + b * mean (ys.take n) := by
    rw [List.take_zipWith]
    exact mean_comb a b (by simp [hl])
  refine ⟨?_, ?_, ?_⟩
  · unfold maQ
    rw [List.length_zipWith, hl, min_self, List.zipWith_map, List.zipWith_self]
    refine List.map_congr_left fun k _ => ?_
    rw [List.drop_zipWith, List.take_zipWith]
    exact mean_comb a b (by simp [hl])
  · unfold emaQ
    rw [hf, List.drop_zipWith]
    have hd : (xs.drop n).length = (ys.drop n).length := by simp [hl]
    cases hx : xs.drop n with
    | nil => cases hy : ys.drop n with
      | nil => rfl
      | cons y ys => simp [hx, hy] at hd
    | cons x xs' => cases hy : ys.drop n with
      | nil => simp [hx, hy] at hd
      | cons y ys' =>
        rw [hx, hy] at hd
        simp only [List.zipWith_cons_cons]
        exact scan_comb (c := fun x y => a * x + b * y) (by intro u v x y; ring) (by simpa using hd) _ _
  · unfold smmaQ
    rw [hf, List.drop_zipWith]
    exact scan_comb (c := fun x y => a * x + b * y) (by intro u v x y; ring) (by simp [hl]) _ _

theorem forall₂_comb {o1 o2 o3 : List Fl} {q1 q2 : List ℚ} {a b : ℚ} (h1 : List.Forall₂ Fl.Is o1 q1)
    (h2 : List.Forall₂ Fl.Is o2 q2) (h3 : List.Forall₂ Fl.Is o3 (List.zipWith (fun x y => a * x + b * y) q1 q2))
    (hl : q1.length = q2.length) :
    o3.length = o1.length ∧ o3.length = o2.length ∧
    ∀ (k : Nat) (u v w : Fl), o1[k]? = some u → o2[k]? = some v → o3[k]? = some w → ∃ x y, u.Is x ∧ v.Is y ∧ w.Is (a * x + b * y) := by
  induction h1 generalizing o2 o3 q2 with
  | nil =>
    cases q2 with
    | nil => cases h2; cases h3; simp
    | cons => simp at hl
  | cons hu _ ih =>
    cases h2 with
    | nil => simp at hl
    | cons hv h2 =>
      cases h3 with
      | cons hw h3 =>
        obtain ⟨i1, i2, i3⟩ := ih h2 h3 (by simpa using hl)
        refine ⟨by simp [i1], by simp [i2], ?_⟩
        intro k u v w e1 e2 e3
        cases k with
        | zero =>
          simp only [List.getElem?_cons_zero, Option.some.injEq] at e1 e2 e3
          subst e1 e2 e3
          exact ⟨_, _, hu, hv, hw⟩
        | succ k => exact i3 k u v w (by simpa using e1) (by simpa using e2) (by simpa using e3)

/-- **C217** The averages of a combination of two series are the combination of their averages, value by value: if each
close is `a` times the one of the first series plus `b` times that of the second, so is each value of every average. -/
theorem C217_averages {cs ds es : List Candle} {xs ys : List ℚ} {a b : ℚ} (hx : Closes cs xs) (hy : Closes ds ys)
    (hl : cs.length = ds.length) (he : Closes es (List.zipWith (fun x y => a * x + b * y) xs ys)) {n : Nat}
    (h1 : 1 ≤ n) (h2 : n ≤ cs.length) :
    ∀ f ∈ [movingAverage FloatSem.exact, exponentialMovingAverage FloatSem.exact,
        smoothedMovingAverage FloatSem.exact],
      ∃ o1 o2 o3, f (some cs) n = .ok o1 ∧ f (some ds) n = .ok o2 ∧ f (some es) n = .ok o3 ∧
        o3.length = o1.length ∧ o3.length = o2.length ∧
        ∀ (k : Nat) (u v w : Fl), o1[k]? = some u → o2[k]? = some v → o3[k]? = some w →
          ∃ x y, u.Is x ∧ v.Is y ∧ w.Is (a * x + b * y) := by
  have hq : xs.length = ys.length := by rw [← hx.length, ← hy.length, hl]
  have h2y : n ≤ ds.length := hl ▸ h2
  have h2e : n ≤ es.length := by
    rw [he.length, List.length_zipWith, ← hx.length, ← hy.length]
    omega
  obtain ⟨q1, q2, q3⟩ := Q_comb hq n a b
  intro f hf
  simp only [List.mem_cons, List.not_mem_nil, or_false] at hf
  rcases hf with rfl | rfl | rfl
  · obtain ⟨o1, e1, f1⟩ := ma_exact hx h1 h2
    obtain ⟨o2, e2, f2⟩ := ma_exact hy h1 h2y
    obtain ⟨o3, e3, f3⟩ := ma_exact he h1 h2e
    rw [q1] at f3
    exact ⟨o1, o2, o3, e1, e2, e3, forall₂_comb f1 f2 f3 (by simp [maQ, hq])⟩
  · obtain ⟨o1, e1, f1⟩ := ema_exact hx h1 h2
    obtain ⟨o2, e2, f2⟩ := ema_exact hy h1 h2y
    obtain ⟨o3, e3, f3⟩ := ema_exact he h1 h2e
    rw [q2] at f3
    refine ⟨o1, o2, o3, e1, e2, e3, forall₂_comb f1 f2 f3 ?_⟩
    obtain ⟨p1, z1, l1, -⟩ := C70_ema_float FloatSem.exact cs n h1 h2
    obtain ⟨p2, z2, l2, -⟩ := C70_ema_float FloatSem.exact ds n h1 h2y
    rw [e1] at z1; rw [e2] at z2; cases z1; cases z2
    rw [← f1.length_eq, ← f2.length_eq, l1, l2, hl]
  · obtain ⟨o1, e1, f1⟩ := smma_exact hx h1 h2
    obtain ⟨o2, e2, f2⟩ := smma_exact hy h1 h2y
    obtain ⟨o3, e3, f3⟩ := smma_exact he h1 h2e
    rw [q3] at f3
    refine ⟨o1, o2, o3, e1, e2, e3, forall₂_comb f1 f2 f3 ?_⟩
    obtain ⟨p1, _, z1, l1, -⟩ := C72_smma_exact hx n h1 h2
    obtain ⟨p2, _, z2, l2, -⟩ := C72_smma_exact hy n h1 h2y
    rw [e1] at z1; rw [e2] at z2; cases z1; cases z2
    rw [← f1.length_eq, ← f2.length_eq, l1, l2, hl]

/-- **C217** The same for the volatility of combined highs and lows. -/
theorem C217_volatility {a b : ℚ} {cs ds es : List Candle} (hc : FiniteRanges cs) (hd : FiniteRanges ds)
    (he : FiniteRanges es) (hl : cs.length = ds.length) (hl' : cs.length = es.length)
    (h : ∀ (i : Nat) (c d e : Candle), cs[i]? = some c → ds[i]? = some d → es[i]? = some e →
      e.high.toRat = a * c.high.toRat + b * d.high.toRat ∧ e.low.toRat = a * c.low.toRat + b * d.low.toRat)
    {beta : Fl} (hb : beta.isFinite = true) :
    (exponentialWeightedVolatility FloatSem.exact es beta).toRat =
      a * (exponentialWeightedVolatility FloatSem.exact cs beta).toRat +
      b * (exponentialWeightedVolatility FloatSem.exact ds beta).toRat := by
  have hb := Fl.isFinite_is hb
  have key : ∀ (cs ds es : List Candle), FiniteRanges cs → FiniteRanges ds → FiniteRanges es →
      cs.length = ds.length → cs.length = es.length →
      (∀ (i : Nat) (c d e : Candle), cs[i]? = some c → ds[i]? = some d → es[i]? = some e →
        e.high.toRat = a * c.high.toRat + b * d.high.toRat ∧ e.low.toRat = a * c.low.toRat + b * d.low.toRat) →
      ∀ (x y z : Fl) (u v w : ℚ), x.Is u → y.Is v → z.Is w → w = a * u + b * v →
      ((es.foldl (ewvStep FloatSem.exact beta) z).toRat = a * (cs.foldl (ewvStep FloatSem.exact beta) x).toRat +
        b * (ds.foldl (ewvStep FloatSem.exact beta) y).toRat) := by
    intro cs
    induction cs with
    | nil =>
      intro ds es _ _ _ l1 l2 _ x y z u v w hx hy hz e
      rw [List.length_eq_zero_iff.1 l1.symm, List.length_eq_zero_iff.1 l2.symm]
      simpa [hx.toRat, hy.toRat, hz.toRat] using e
    | cons c cs ih =>
      intro ds es hc hd he l1 l2 h x y z u v w hx hy hz e
      cases ds with
      | nil => simp at l1
      | cons d ds =>
        cases es with
        | nil => simp at l2
        | cons e' es =>
          obtain ⟨f1, f2⟩ := hc _ List.mem_cons_self
          obtain ⟨g1, g2⟩ := hd _ List.mem_cons_self
          obtain ⟨k1, k2⟩ := he _ List.mem_cons_self
          obtain ⟨r1, r2⟩ := h 0 c d e' rfl rfl rfl
          refine ih ds es (fun c hc' => hc c (by simp [hc'])) (fun c hc' => hd c (by simp [hc']))
            (fun c hc' => he c (by simp [hc'])) (by simpa using l1) (by simpa using l2)
            (fun i c d e h1 h2 h3 => h (i + 1) c d e (by simpa using h1) (by simpa using h2) (by simpa using h3))
            _ _ _ _ _ _ (ewvStep_exact hb hx f1 f2) (ewvStep_exact hb hy g1 g2) (ewvStep_exact hb hz k1 k2) ?_
          unfold rangeOf
          rw [r1, r2, e]
          ring
  exact key cs ds es hc hd he hl hl' h _ _ _ 0 0 0 (Fl.is_fin 0) (Fl.is_fin 0) (Fl.is_fin 0) (by simp)

example : Closes [exClose 1, exClose 2, exClose 6] [1, 2, 6] ∧ Closes [exClose 5, exClose 3, exClose 4] [5, 3, 4] ∧
    Closes [exClose (-13), exClose (-5), exClose 0]
      (List.zipWith (fun x y => 2 * x + (-3) * y) [1, 2, 6] [5, 3, 4]) := by
  refine ⟨.cons (Fl.is_fin _) (.cons (Fl.is_fin _) (.cons (Fl.is_fin _) .nil)),
    .cons (Fl.is_fin _) (.cons (Fl.is_fin _) (.cons (Fl.is_fin _) .nil)), ?_⟩
  refine .cons ?_ (.cons ?_ (.cons ?_ .nil)) <;> simp [exClose] <;> norm_num

example := C217_volatility (a := 2) (b := 1) (cs := [exRange 5 1, exRange 8 2]) (ds := [exRange 3 2, exRange 4 1])
  (es := [exRange 13 4, exRange 20 5]) (by unfold FiniteRanges; decide +kernel) (by unfold FiniteRanges; decide +kernel)
  (by unfold FiniteRanges; decide +kernel) rfl rfl
  (by
    intro i c d e h1 h2 h3
    rcases i with _ | _ | i <;> simp at h1 h2 h3 <;> subst h1 h2 h3 <;> decide +kernel)
  (beta := .fin (1/2)) rfl

end Finmod
