import Verif.Props.VolatilityMore

/-!
# Volatility of widening candles: C272
-/

namespace Finmod
open Go Spec

/-- A candle whose range is a finite number that is not negative. -/
structure Spec.Ranged (S : FloatSem) (c : Candle) : Prop where
  high : c.high.isFinite = true
  low : c.low.isFinite = true
  ordered : Fl.le c.low c.high = true
  range : (S.sub c.high c.low).isFinite = true

/-- No candle has a smaller range than one before it. -/
def Spec.Widening (S : FloatSem) (cs : List Candle) : Prop :=
  (∀ c ∈ cs, Ranged S c) ∧ cs.Pairwise fun c d => rangeOf c ≤ rangeOf d

theorem beta_between {beta : Fl} (hb0 : Fl.le (.fin 0) beta = true) (hb1 : Fl.le beta (.fin 1) = true) :
    ∃ b, beta.Is b ∧ 0 ≤ b ∧ b ≤ 1 := by
  rcases nonneg_cases hb0 with rfl | ⟨b, hb, h0⟩
  · simp [Fl.le, Fl.isNaN, Fl.key] at hb1
  · refine ⟨b, hb, h0, ?_⟩
    rw [hb.le (Fl.is_fin 1)] at hb1
    simpa using hb1

theorem beta_rest {S : FloatSem} (hS : Lawful S) {beta : Fl} {b : ℚ} (hb : beta.Is b) (h0 : 0 ≤ b) (h1 : b ≤ 1) :
    ∃ w, (S.sub (S.const 1) beta).Is w ∧ 0 ≤ w := by
  have h1' : (S.const 1).Is 1 := by unfold FloatSem.const; rw [rnd_one hS]; exact Fl.is_fin 1
  obtain ⟨n, k⟩ := sub_key hS h1' hb
  have lo := (Fl.le_iff.1 (rnd_nonneg hS (q := 1 - b) (by linarith))).2.2
  have hi := hS.r64.mono (1 - b) 1 (by linarith)
  rw [rnd_one hS] at hi
  rw [← k] at lo hi
  rcases fl_cases n with e | e | ⟨q, hq⟩
  · rw [e] at lo; simp [Fl.key] at lo
  · rw [e] at hi; simp [Fl.key] at hi
  · refine ⟨q, hq, ?_⟩
    rw [hq.key] at lo
    simpa [Fl.key] using lo

theorem ranged_le {S : FloatSem} (hS : Lawful S) {c d : Candle} (hc : Ranged S c) (hd : Ranged S d) (h : rangeOf c ≤ rangeOf d) :
    Fl.le (S.sub c.high c.low) (S.sub d.high d.low) = true := by
  obtain ⟨n1, k1⟩ := sub_key hS (Fl.isFinite_is hc.high) (Fl.isFinite_is hc.low)
  obtain ⟨n2, k2⟩ := sub_key hS (Fl.isFinite_is hd.high) (Fl.isFinite_is hd.low)
  refine Fl.le_iff.2 ⟨n1, n2, ?_⟩
  rw [k1, k2]
  exact hS.r64.mono _ _ h

/-- More volatile before, and no narrower candles since. -/
theorem ewv_from_mono {S : FloatSem} (hS : Lawful S) {beta : Fl} {b : ℚ} (hb : beta.Is b) (h0 : 0 ≤ b) (h1 : b ≤ 1) {cs ds : List Candle}
    (h : List.Forall₂ (fun c d => Ranged S c ∧ Ranged S d ∧ rangeOf c ≤ rangeOf d) cs ds) :
    ∀ x y, EwvInv b x → EwvInv b y → Fl.le x y = true → Fl.le (cs.foldl (ewvStep S beta) x) (ds.foldl (ewvStep S beta) y) = true := by
  obtain ⟨w, hw, hw0⟩ := beta_rest hS hb h0 h1
  induction h with
  | nil => intro x y _ _ hxy; exact hxy
  | @cons c d _ _ hcd _ ih =>
    intro x y hx hy hxy
    obtain ⟨hc, hd, hle⟩ := hcd
    have r0 := sub_ge_nonneg hS hc.high hc.low hc.ordered
    refine ih _ _ (ewvStep_inv hS hb h0 h1 hc.high hc.low hc.ordered hc.range hx)
      (ewvStep_inv hS hb h0 h1 hd.high hd.low hd.ordered hd.range hy) ?_
    exact add_mono_nonneg hS (mul_nonneg_fl hS hb h0 hx.1 hx.2) (mul_nonneg_fl hS hw hw0 r0 (fun _ => hc.range))
      (mul_mono_left hS hb h0 hx.1 hxy hy.2) (mul_mono_left hS hw hw0 r0 (ranged_le hS hc hd hle) (fun _ => hd.range))

/-- **C272** While the candles never get narrower, the volatility never falls as they come in, in every lawful float semantics. -/
theorem C272_grows {S : FloatSem} (hS : Lawful S) {cs : List Candle} (h : Widening S cs) {beta : Fl}
    (hb0 : Fl.le (.fin 0) beta = true) (hb1 : Fl.le beta (.fin 1) = true) {i j : Nat} (hij : i ≤ j) (hj : j ≤ cs.length) :
    Fl.le (exponentialWeightedVolatility S (cs.take i) beta) (exponentialWeightedVolatility S (cs.take j) beta) = true := by
  obtain ⟨b, hb, h0, h1⟩ := beta_between hb0 hb1
  obtain ⟨hr, hp⟩ := h
  have z : EwvInv b (.fin 0) := ⟨by decide, fun _ => rfl⟩
  have step : ∀ k, k < cs.length →
      Fl.le (exponentialWeightedVolatility S (cs.take k) beta) (exponentialWeightedVolatility S (cs.take (k + 1)) beta) = true := by
    intro k hk
    cases cs with
    | nil => simp at hk
    | cons c cs =>
      have hc := hr c (by simp)
      have inv := ewvStep_inv hS hb h0 h1 hc.high hc.low hc.ordered hc.range z
      unfold exponentialWeightedVolatility
      rw [List.take_succ_cons, List.foldl_cons]
      refine ewv_from_mono hS hb h0 h1 ?_ _ _ z inv inv.1
      rw [List.forall₂_iff_get]
      simp only [List.length_cons] at hk
      refine ⟨by simp; omega, fun n n1 n2 => ?_⟩
      simp only [List.length_take, List.length_cons] at n1 n2
      simp only [List.get_eq_getElem, List.getElem_take]
      refine ⟨hr _ (List.getElem_mem _), hr _ (List.mem_cons_of_mem _ (List.getElem_mem _)), ?_⟩
      have := List.pairwise_iff_getElem.1 hp n (n + 1) (by simp; omega) (by simp; omega) (by omega)
      simpa using this
  induction j, hij using Nat.le_induction with
  | base =>
    have := ewv_from_mono hS hb h0 h1 (cs := cs.take i) (ds := cs.take i) (List.forall₂_same.2 fun c hc =>
      ⟨hr c (List.mem_of_mem_take hc), hr c (List.mem_of_mem_take hc), le_refl _⟩) _ _ z z (by decide)
    exact this
  | succ j hij ih => exact fl_le_trans (ih (by omega)) (step j (by omega))

/-- **C272** In float64. -/
theorem C272_grows_ieee {cs : List Candle} (h : Widening ieee cs) {beta : Fl} (hb0 : Fl.le (.fin 0) beta = true)
    (hb1 : Fl.le beta (.fin 1) = true) {i j : Nat} (hij : i ≤ j) (hj : j ≤ cs.length) :
    Fl.le (exponentialWeightedVolatility ieee (cs.take i) beta) (exponentialWeightedVolatility ieee (cs.take j) beta) = true :=
  C272_grows ieee_lawful h hb0 hb1 hij hj

/-- **C272** Of two series candle by candle, the one whose candles are nowhere narrower is not less volatile, wherever its prices are. -/
theorem C272_wider {S : FloatSem} (hS : Lawful S) {cs ds : List Candle} (hc : ∀ c ∈ cs, Ranged S c) (hd : ∀ d ∈ ds, Ranged S d)
    (h : List.Forall₂ (fun c d => rangeOf c ≤ rangeOf d) cs ds) {beta : Fl} (hb0 : Fl.le (.fin 0) beta = true)
    (hb1 : Fl.le beta (.fin 1) = true) :
    Fl.le (exponentialWeightedVolatility S cs beta) (exponentialWeightedVolatility S ds beta) = true := by
  obtain ⟨b, hb, h0, h1⟩ := beta_between hb0 hb1
  have z : EwvInv b (.fin 0) := ⟨by decide, fun _ => rfl⟩
  refine ewv_from_mono hS hb h0 h1 ?_ _ _ z z (by decide)
  rw [List.forall₂_iff_get] at *
  exact ⟨h.1, fun i i1 i2 => ⟨hc _ (List.get_mem _ _), hd _ (List.get_mem _ _), h.2 i i1 i2⟩⟩

example : Widening ieee [exRange 5 4, exRange 8 6, exRange 11 (17/2)] ∧ Fl.le (.fin 0) (.fin (1/2)) = true ∧
    exponentialWeightedVolatility ieee [exRange 5 4, exRange 8 6] (.fin (1/2)) = .fin (5/4) := by
  refine ⟨⟨?_, ?_⟩, by decide +kernel, by decide +kernel⟩
  · intro c hc
    simp only [List.mem_cons, List.not_mem_nil, or_false] at hc
    rcases hc with rfl | rfl | rfl <;> constructor <;> decide +kernel
  · unfold rangeOf; decide +kernel

end Finmod
