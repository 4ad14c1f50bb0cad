import Verif.Props.Volatility
import Verif.Props.AvgMono

/-!
# C155: volatility of longer series, wider candles and other price scales
-/

namespace Finmod
open Go Spec

/-- **C155.** One more candle: `beta * v + (1-beta) * (high - low)` in the arithmetic at hand. -/
theorem C155_append (S : FloatSem) (cs : List Candle) (c : Candle) (beta : Fl) :
    exponentialWeightedVolatility S (cs ++ [c]) beta =
      S.add (S.mul beta (exponentialWeightedVolatility S cs beta))
        (S.mul (S.sub (S.const 1) beta) (S.sub c.high c.low)) := by
  unfold exponentialWeightedVolatility
  rw [List.foldl_append]
  rfl

/-- **C155.** Exact arithmetic: what came before counts `beta^k` after `k` further candles. -/
theorem C155_forgets {xs xs' ys : List Candle} (h : FiniteRanges xs) (h' : FiniteRanges xs')
    (hy : FiniteRanges ys) {beta : Fl} {b : ℚ} (hb : beta.Is b) :
    (exponentialWeightedVolatility FloatSem.exact (xs ++ ys) beta).toRat -
      (exponentialWeightedVolatility FloatSem.exact (xs' ++ ys) beta).toRat =
    b ^ ys.length * ((exponentialWeightedVolatility FloatSem.exact xs beta).toRat -
      (exponentialWeightedVolatility FloatSem.exact xs' beta).toRat) := by
  induction ys using List.reverseRecOn with
  | nil => simp
  | append_singleton ys c ih =>
    have hy0 : FiniteRanges ys := fun c hc => hy c (by simp [hc])
    obtain ⟨h1, h2⟩ := hy c (by simp)
    have ih := ih hy0
    have fin : ∀ {zs : List Candle}, FiniteRanges zs →
        ∃ v, (exponentialWeightedVolatility FloatSem.exact (zs ++ ys) beta).Is v := by
      intro zs hz
      refine ⟨_, C74_weighted_sum (cs := zs ++ ys) ?_ hb⟩
      intro c hc
      rcases List.mem_append.1 hc with hc | hc
      · exact hz c hc
      · exact hy0 c hc
    obtain ⟨u, hu⟩ := fin h
    obtain ⟨v, hv⟩ := fin h'
    have e1 : (exponentialWeightedVolatility FloatSem.exact (xs ++ (ys ++ [c])) beta).Is (b * u + (1 - b) * rangeOf c) := by
      rw [← List.append_assoc, C155_append]; exact ewvStep_exact hb hu h1 h2
    have e2 : (exponentialWeightedVolatility FloatSem.exact (xs' ++ (ys ++ [c])) beta).Is (b * v + (1 - b) * rangeOf c) := by
      rw [← List.append_assoc, C155_append]; exact ewvStep_exact hb hv h1 h2
    rw [hu.toRat, hv.toRat] at ih
    rw [e1.toRat, e2.toRat, List.length_append, List.length_singleton, pow_succ, mul_assoc, mul_left_comm, ← ih]
    ring

/-- **C155.** Exact arithmetic: highs and lows `a*x + k` give `a` times the volatility. -/
theorem C155_scale {a k : ℚ} {cs ds : List Candle} (h : FiniteRanges cs) (h' : FiniteRanges ds)
    (hd : List.Forall₂ (fun c d => d.high.toRat = a * c.high.toRat + k ∧ d.low.toRat = a * c.low.toRat + k) cs ds)
    {beta : Fl} (hb : beta.isFinite = true) :
    (exponentialWeightedVolatility FloatSem.exact ds beta).toRat =
      a * (exponentialWeightedVolatility FloatSem.exact cs beta).toRat := by
  have hb := Fl.isFinite_is hb
  have key : ∀ (x y : Fl) (u v : ℚ), x.Is u → y.Is v → v = a * u →
      ((ds.foldl (ewvStep FloatSem.exact beta) y).toRat = a * (cs.foldl (ewvStep FloatSem.exact beta) x).toRat) := by
    induction hd with
    | nil => intro x y u v hx hy e; simpa [hx.toRat, hy.toRat] using e
    | cons hcd _ ih =>
      intro x y u v hx hy e
      obtain ⟨f1, f2⟩ := h _ List.mem_cons_self
      obtain ⟨g1, g2⟩ := h' _ List.mem_cons_self
      refine ih (fun c hc => h c (by simp [hc])) (fun c hc => h' c (by simp [hc])) _ _ _ _
        (ewvStep_exact hb hx f1 f2) (ewvStep_exact hb hy g1 g2) ?_
      unfold rangeOf
      rw [hcd.1, hcd.2, e]
      ring
  exact key _ _ 0 0 (Fl.is_fin 0) (Fl.is_fin 0) (by simp)

theorem mul_mono_left {S : FloatSem} (hS : Lawful S) {x x' y : Fl} {q : ℚ} (hy : y.Is q) (hq : 0 ≤ q)
    (hx : Fl.le (.fin 0) x = true) (hxx : Fl.le x x' = true) (h0 : q = 0 → x'.isFinite = true) :
    Fl.le (S.mul y x) (S.mul y x') = true := by
  have hx' := fl_le_trans hx hxx
  rcases nonneg_cases hx' with rfl | ⟨a', ha', _⟩
  · have hq' : q ≠ 0 := fun h => by simpa [Fl.isFinite] using h0 h
    have hn := nonneg_num (mul_nonneg_fl (y := x) hS hy hq hx (fun h => absurd h hq'))
    have : S.mul y (.inf false) = .inf false := by
      cases y with
      | fin r =>
        simp only [Fl.is_fin_iff] at hy
        subst hy
        simp [FloatSem.mul, Fl.isZero, hq', Fl.sgn, not_lt.2 hq]
      | negZero => simp at hy; exact absurd hy hq'
      | _ => simp at hy
    rw [this]; exact le_inf hn
  · obtain ⟨a, ha, h0a, h1⟩ := le_nonneg_finite hx hxx ha'
    obtain ⟨n1, k1⟩ := mul_key hS hy ha
    obtain ⟨n2, k2⟩ := mul_key hS hy ha'
    refine Fl.le_iff.2 ⟨n1, n2, ?_⟩
    rw [k1, k2]
    exact hS.r64.mono _ _ (mul_le_mul_of_nonneg_left h1 hq)

/-- A candle within a wider one, everything finite. -/
structure Spec.Within (S : FloatSem) (c d : Candle) : Prop where
  finite : c.high.isFinite = true ∧ c.low.isFinite = true ∧ d.high.isFinite = true ∧ d.low.isFinite = true
  ordered : Fl.le c.low c.high = true
  high : Fl.le c.high d.high = true
  low : Fl.le d.low c.low = true
  range : (S.sub d.high d.low).isFinite = true

theorem Spec.Within.ranges {S : FloatSem} (hS : Lawful S) {c d : Candle} (h : Within S c d) :
    Fl.le (S.sub c.high c.low) (S.sub d.high d.low) = true ∧ Fl.le d.low d.high = true := by
  obtain ⟨⟨f1, f2, f3, f4⟩, ho, hh, hl, _⟩ := h
  refine ⟨?_, fl_le_trans (fl_le_trans hl ho) hh⟩
  obtain ⟨n1, k1⟩ := sub_key hS (Fl.isFinite_is f1) (Fl.isFinite_is f2)
  obtain ⟨n2, k2⟩ := sub_key hS (Fl.isFinite_is f3) (Fl.isFinite_is f4)
  rw [(Fl.isFinite_is f1).le (Fl.isFinite_is f3), decide_eq_true_eq] at hh
  rw [(Fl.isFinite_is f4).le (Fl.isFinite_is f2), decide_eq_true_eq] at hl
  refine Fl.le_iff.2 ⟨n1, n2, ?_⟩
  rw [k1, k2]
  exact hS.r64.mono _ _ (by linarith)

/-- **C155.** In every lawful float semantics: if every candle of `ds` covers the one of `cs` at its place,
the volatility of `ds` is not below that of `cs`. -/
theorem C155_wider {S : FloatSem} (hS : Lawful S) {cs ds : List Candle} (h : List.Forall₂ (Within S) cs ds)
    {beta : Fl} (hb0 : Fl.le (.fin 0) beta = true) (hb1 : Fl.le beta (.fin 1) = true) :
    Fl.le (exponentialWeightedVolatility S cs beta) (exponentialWeightedVolatility S ds beta) = true := by
  have hb : ∃ b, beta.Is b ∧ 0 ≤ b ∧ b ≤ 1 := by
    rcases nonneg_cases hb0 with rfl | ⟨b, hb, h0⟩
    · simp [Fl.le, Fl.isNaN, Fl.key] at hb1
    · refine ⟨b, hb, h0, ?_⟩
      rw [hb.le (Fl.is_fin 1)] at hb1
      simpa using hb1
  obtain ⟨b, hb, h0, h1⟩ := hb
  have hw : ∃ w, (S.sub (S.const 1) beta).Is w ∧ 0 ≤ w := by
    have h1' : (S.const 1).Is 1 := by unfold FloatSem.const; rw [rnd_one hS]; exact Fl.is_fin 1
    obtain ⟨n, k⟩ := sub_key hS h1' hb
    have lo := (Fl.le_iff.1 (rnd_nonneg hS (q := 1 - b) (by linarith))).2.2
    have hi := hS.r64.mono (1 - b) 1 (by linarith)
    rw [rnd_one hS] at hi
    rw [← k] at lo hi
    rcases fl_cases n with e | e | ⟨q, hq⟩
    · rw [e] at lo; simp [Fl.key] at lo
    · rw [e] at hi; simp [Fl.key] at hi
    · refine ⟨q, hq, ?_⟩
      rw [hq.key] at lo
      simpa [Fl.key] using lo
  obtain ⟨w, hw, hw0⟩ := hw
  have key : ∀ x y, EwvInv b x → EwvInv b y → Fl.le x y = true →
      Fl.le (cs.foldl (ewvStep S beta) x) (ds.foldl (ewvStep S beta) y) = true := by
    induction h with
    | nil => intro x y _ _ hxy; exact hxy
    | @cons c d _ _ hcd _ ih =>
      intro x y hx hy hxy
      obtain ⟨r1, r2⟩ := hcd.ranges hS
      have r0 := sub_ge_nonneg hS hcd.finite.1 hcd.finite.2.1 hcd.ordered
      have rf : (S.sub c.high c.low).isFinite = true := by
        obtain ⟨a, ha, _⟩ := le_nonneg_finite r0 r1 (Fl.isFinite_is hcd.range)
        exact (Fl.is_iff.1 ha).1
      refine ih _ _ (ewvStep_inv hS hb h0 h1 hcd.finite.1 hcd.finite.2.1 hcd.ordered rf hx)
        (ewvStep_inv hS hb h0 h1 hcd.finite.2.2.1 hcd.finite.2.2.2 r2 hcd.range hy) ?_
      exact add_mono_nonneg hS (mul_nonneg_fl hS hb h0 hx.1 hx.2) (mul_nonneg_fl hS hw hw0 r0 (fun _ => rf))
        (mul_mono_left hS hb h0 hx.1 hxy hy.2) (mul_mono_left hS hw hw0 r0 r1 (fun _ => hcd.range))
  have z : EwvInv b (.fin 0) := ⟨by decide, fun _ => rfl⟩
  exact key _ _ z z (by decide)

/-- **C155.** For binary64 itself. -/
theorem C155_wider_ieee {cs ds : List Candle} (h : List.Forall₂ (Within ieee) cs ds)
    {beta : Fl} (hb0 : Fl.le (.fin 0) beta = true) (hb1 : Fl.le beta (.fin 1) = true) :
    Fl.le (exponentialWeightedVolatility ieee cs beta) (exponentialWeightedVolatility ieee ds beta) = true :=
  C155_wider ieee_lawful h hb0 hb1

example : List.Forall₂ (Within ieee) [exRange 5 1, exRange 8 2] [exRange 6 1, exRange 8 (3/2)] := by
  refine .cons ⟨?_, ?_, ?_, ?_, ?_⟩ (.cons ⟨?_, ?_, ?_, ?_, ?_⟩ .nil) <;> decide +kernel

example : FiniteRanges [exRange 5 1, exRange 8 2] ∧ FiniteRanges [exRange 13 5, exRange 19 7] ∧
    List.Forall₂ (fun c d => d.high.toRat = 2 * c.high.toRat + 3 ∧ d.low.toRat = 2 * c.low.toRat + 3)
      [exRange 5 1, exRange 8 2] [exRange 13 5, exRange 19 7] := by
  refine ⟨?_, ?_, .cons ?_ (.cons ?_ .nil)⟩
  · unfold FiniteRanges; decide +kernel
  · unfold FiniteRanges; decide +kernel
  · decide +kernel
  · decide +kernel

end Finmod
