import Verif.Props.Slowness

/-!
# C285: when an average rises
-/

namespace Finmod
open Go Spec

/-- **C285** From one value to the next `MovingAverage` rises exactly when the close that enters the window is above the one that leaves it, the
other two exactly when the next close is above the value before. And they fall exactly when it is below. -/
def Spec.C285_claim (S : FloatSem) : Prop :=
  ∀ (cs : List Candle) (n : Nat), (∀ c ∈ cs, c.close.isFinite = true ∧ S.Rep c.close) → 1 ≤ n → n ≤ cs.length →
    (∀ out, movingAverage S (some cs) n = .ok out → ∀ i x y leaves enters, out[i]? = some x → out[i + 1]? = some y → cs[i]? = some leaves →
      cs[i + n]? = some enters → Fl.lt x y = Fl.lt leaves.close enters.close ∧ Fl.lt y x = Fl.lt enters.close leaves.close) ∧
    (∀ out, exponentialMovingAverage S (some cs) n = .ok out → ∀ i x y next, out[i]? = some x → out[i + 1]? = some y →
      cs[i + n + 1]? = some next → Fl.lt x y = Fl.lt x next.close ∧ Fl.lt y x = Fl.lt next.close x) ∧
    (∀ out, smoothedMovingAverage S (some cs) n = .ok out → ∀ i x y next, out[i]? = some x → out[i + 1]? = some y →
      cs[i + n]? = some next → Fl.lt x y = Fl.lt x next.close ∧ Fl.lt y x = Fl.lt next.close x)

theorem scan_next {f : ℚ → ℚ → ℚ} {l : List ℚ} {a : ℚ} {i : Nat} {u b : ℚ} (hu : (scan f a l)[i]? = some u) (hb : l[i]? = some b) :
    (scan f a l)[i + 1]? = some (f u b) := by
  induction l generalizing a i with
  | nil => simp at hb
  | cons c cs ih =>
    cases i with
    | zero =>
      simp only [scan, List.getElem?_cons_zero, Option.some.injEq] at hu hb
      subst hu hb
      simp only [scan, List.getElem?_cons_succ]
      cases cs <;> rfl
    | succ i =>
      simp only [scan, List.getElem?_cons_succ] at hu hb ⊢
      exact ih hu hb

/-- The steps of the three averages. -/
theorem average_steps {xs : List ℚ} {n : Nat} (h1 : 1 ≤ n) {i : Nat} {u v d : ℚ} :
    (∀ c, (maQ xs n)[i]? = some u → (maQ xs n)[i + 1]? = some v → xs[i]? = some c → xs[i + n]? = some d → v - u = 1 / n * (d - c)) ∧
    ((emaQ xs n)[i]? = some u → (emaQ xs n)[i + 1]? = some v → xs[i + n + 1]? = some d → v - u = 2 / ((n : ℚ) + 1) * (d - u)) ∧
    ((smmaQ xs n)[i]? = some u → (smmaQ xs n)[i + 1]? = some v → xs[i + n]? = some d → v - u = 1 / n * (d - u)) := by
  have hn : (n : ℚ) ≠ 0 := by have : 0 < n := h1; positivity
  refine ⟨fun c hu hv hc hd => ?_, fun hu hv hd => ?_, fun hu hv hd => ?_⟩
  · obtain ⟨l1, rfl⟩ := List.getElem?_eq_some_iff.1 hu
    obtain ⟨l2, rfl⟩ := List.getElem?_eq_some_iff.1 hv
    obtain ⟨l3, rfl⟩ := List.getElem?_eq_some_iff.1 hc
    obtain ⟨l4, rfl⟩ := List.getElem?_eq_some_iff.1 hd
    simp only [maQ, List.getElem_map, List.getElem_range]
    rw [mean_slide h1 l4]
    ring
  · cases hdr : xs.drop n with
    | nil =>
      have e : emaQ xs n = [] := by unfold emaQ; rw [hdr]
      rw [e] at hu; simp at hu
    | cons c rest =>
      have e : emaQ xs n = scan (fun prev x => x * (2 / ((n : ℚ) + 1)) + prev * (1 - 2 / ((n : ℚ) + 1))) (mean (xs.take n)) rest := by
        unfold emaQ; rw [hdr]
      have hb : rest[i]? = some d := by
        have : (xs.drop n)[i + 1]? = some d := by rw [List.getElem?_drop, ← hd]; congr 1; omega
        rw [hdr] at this
        simpa using this
      rw [e] at hu hv
      rw [scan_next hu hb, Option.some.injEq] at hv
      rw [← hv]; ring
  · unfold smmaQ at hu hv
    have hb : (xs.drop n)[i]? = some d := by rw [List.getElem?_drop, ← hd]; congr 1; omega
    rw [scan_next hu hb, Option.some.injEq] at hv
    rw [← hv]; field_simp; ring

theorem forall₂_value {R : Fl → ℚ → Prop} {out : List Fl} {ys : List ℚ} (h : List.Forall₂ R out ys) {i : Nat} {x : Fl} (hx : out[i]? = some x) :
    ∃ u, ys[i]? = some u ∧ R x u := by
  obtain ⟨l1, rfl⟩ := List.getElem?_eq_some_iff.1 hx
  obtain ⟨hl, hg⟩ := List.forall₂_iff_get.1 h
  exact ⟨ys[i]'(hl ▸ l1), List.getElem?_eq_getElem _, hg i l1 (hl ▸ l1)⟩

theorem close_at {cs : List Candle} {i : Nat} {c : Candle} (h : cs[i]? = some c) :
    (cs.map fun c => c.close.toRat)[i]? = some c.close.toRat := by
  rw [List.getElem?_map, h]; rfl

/-- **C285 is false of the code in float64**, of each of the averages: after three closes of 1 one of 1.0000000000000002 changes no average of period 2. -/
theorem C285_direction_violated : ¬ Spec.C285_claim ieee ∧
    movingAverage ieee (some (closeCandles [1, 1, 1, 1 + 2 ^ (-52 : ℤ)])) 2 = .ok [.fin 1, .fin 1, .fin 1] ∧
    exponentialMovingAverage ieee (some (closeCandles [1, 1, 1, 1 + 2 ^ (-52 : ℤ)])) 2 = .ok [.fin 1, .fin 1] ∧
    smoothedMovingAverage ieee (some (closeCandles [1, 1, 1, 1 + 2 ^ (-52 : ℤ)])) 2 = .ok [.fin 1, .fin 1, .fin 1] := by
  have e : movingAverage ieee (some (closeCandles [1, 1, 1, 1 + 2 ^ (-52 : ℤ)])) 2 = .ok [.fin 1, .fin 1, .fin 1] := by decide +kernel
  refine ⟨fun h => ?_, e, by decide +kernel, by decide +kernel⟩
  have := ((h (closeCandles [1, 1, 1, 1 + 2 ^ (-52 : ℤ)]) 2 (by
    intro c hc
    simp only [closeCandles, List.map_cons, List.map_nil, List.mem_cons, List.not_mem_nil, or_false] at hc
    rcases hc with rfl | rfl | rfl | rfl <;> exact ⟨rfl, fun q hq => by cases hq; decide +kernel⟩) (by norm_num) (by decide)).1 _ e 1 _ _ _ _ rfl rfl rfl rfl).1
  revert this
  decide +kernel

/-- **C285, the part that holds of the code**: without rounding. Missing: float64, for which see `C285_near_partial`. -/
theorem C285_direction_partial : Spec.C285_claim FloatSem.exact := by
  intro cs n hf h1 h2
  have hx : Closes cs (cs.map fun c => c.close.toRat) := by
    unfold Closes
    rw [List.forall₂_map_right_iff, List.forall₂_same]
    exact fun c hc => Fl.isFinite_is (hf c hc).1
  have hn : (0 : ℚ) < 1 / n := by have : 0 < n := h1; positivity
  have hw : (0 : ℚ) < 2 / ((n : ℚ) + 1) := by positivity
  have key : ∀ w a b u v : ℚ, 0 < w → v - u = w * (b - a) → (u < v ↔ a < b) ∧ (v < u ↔ b < a) := by
    intro w a b u v hw e
    constructor
    · rw [← sub_pos, e, mul_pos_iff_of_pos_left hw, sub_pos]
    · rw [← sub_pos, ← sub_pos (a := a), show u - v = w * (a - b) by linarith, mul_pos_iff_of_pos_left hw]
  refine ⟨fun out ho i x y c d hx' hy hc hd => ?_, fun out ho i x y d hx' hy hd => ?_, fun out ho i x y d hx' hy hd => ?_⟩
  · obtain ⟨o, e, f⟩ := ma_exact hx h1 h2
    rw [e] at ho; cases ho
    obtain ⟨u, hu, iu⟩ := forall₂_value f hx'
    obtain ⟨v, hv, iv⟩ := forall₂_value f hy
    have fc := Fl.isFinite_is (hf _ (List.mem_of_getElem? hc)).1
    have fd := Fl.isFinite_is (hf _ (List.mem_of_getElem? hd)).1
    rw [iu.lt iv, iv.lt iu, fc.lt fd, fd.lt fc, decide_eq_decide, decide_eq_decide]
    exact key _ _ _ _ _ hn ((average_steps h1).1 _ hu hv (close_at hc) (close_at hd))
  · obtain ⟨o, e, f⟩ := ema_exact hx h1 h2
    rw [e] at ho; cases ho
    obtain ⟨u, hu, iu⟩ := forall₂_value f hx'
    obtain ⟨v, hv, iv⟩ := forall₂_value f hy
    have fd := Fl.isFinite_is (hf _ (List.mem_of_getElem? hd)).1
    rw [iu.lt iv, iv.lt iu, iu.lt fd, fd.lt iu, decide_eq_decide, decide_eq_decide]
    exact key _ _ _ _ _ hw ((average_steps h1).2.1 hu hv (close_at hd))
  · obtain ⟨o, e, f⟩ := smma_exact hx h1 h2
    rw [e] at ho; cases ho
    obtain ⟨u, hu, iu⟩ := forall₂_value f hx'
    obtain ⟨v, hv, iv⟩ := forall₂_value f hy
    have fd := Fl.isFinite_is (hf _ (List.mem_of_getElem? hd)).1
    rw [iu.lt iv, iv.lt iu, iu.lt fd, fd.lt iu, decide_eq_decide, decide_eq_decide]
    exact key _ _ _ _ _ hn ((average_steps h1).2.2 hu hv (close_at hd))

/-- **C285, the part that holds in float64**: the steps are what they are without rounding, up to twice the errors of C107 and C108. So an average
rises when what would make it rise exceeds that. -/
theorem C285_near_partial {cs : List Candle} {xs : List ℚ} (hx : Closes cs xs) (hf : FloatCloses cs) {n : Nat} (h1 : 1 ≤ n) (hn : n ≤ 2 ^ 47)
    (h2 : n ≤ cs.length) {M : ℚ} (hM : ∀ x ∈ xs, |x| ≤ M) (hbig : M ≤ 2 ^ (900 : ℤ)) :
    (∃ out, movingAverage ieee (some cs) n = .ok out ∧ ∀ i x y c d, out[i]? = some x → out[i + 1]? = some y → xs[i]? = some c →
      xs[i + n]? = some d → ∃ r s, x.Is r ∧ y.Is s ∧
        |s - r - 1 / n * (d - c)| ≤ 2 * (2 * (n + 1) * 2 ^ (-53 : ℤ) * M + 2 ^ (-1075 : ℤ))) ∧
    (∃ out, exponentialMovingAverage ieee (some cs) n = .ok out ∧ ∀ i x y d, out[i]? = some x → out[i + 1]? = some y →
      xs[i + n + 1]? = some d → ∃ r s, x.Is r ∧ y.Is s ∧
        |s - r - 2 / ((n : ℚ) + 1) * (d - r)| ≤ 2 * ((n + 1) * (16 * 2 ^ (-53 : ℤ) * M + 4 * 2 ^ (-1075 : ℤ)))) ∧
    (∃ out, smoothedMovingAverage ieee (some cs) n = .ok out ∧ ∀ i x y d, out[i]? = some x → out[i + 1]? = some y →
      xs[i + n]? = some d → ∃ r s, x.Is r ∧ y.Is s ∧
        |s - r - 1 / n * (d - r)| ≤ 2 * (8 * n * (2 ^ (-53 : ℤ) * M + 2 ^ (-1075 : ℤ)))) := by
  have hn1 : (1 : ℚ) ≤ n := by exact_mod_cast h1
  have hn0 : (0 : ℚ) < n := by linarith
  have w0 : (0 : ℚ) ≤ 1 / n := by positivity
  have w1 : (1 : ℚ) / n ≤ 1 := by rw [div_le_one hn0]; exact hn1
  have key : ∀ {w E u v r s d : ℚ}, 0 ≤ w → w ≤ 1 → |r - u| ≤ E → |s - v| ≤ E → v - u = w * (d - u) → |s - r - w * (d - r)| ≤ 2 * E := by
    intro w E u v r s d hw0 hw1 hr hs e
    rw [abs_le] at hr hs
    have hE : 0 ≤ E := by linarith
    have e' : s - r - w * (d - r) = (s - v) - (1 - w) * (r - u) := by linear_combination e
    have h' : 0 ≤ 1 - w := by linarith
    have p1 := mul_le_mul_of_nonneg_left hr.1 h'
    have p2 := mul_le_mul_of_nonneg_left hr.2 h'
    have p3 := mul_nonneg hw0 hE
    rw [e', abs_le]
    constructor <;> linarith
  refine ⟨?_, ?_, ?_⟩
  · obtain ⟨o, e, f⟩ := ma_near_all hx hf h1 (hn.trans (by norm_num)) h2 hM hbig
    refine ⟨o, e, fun i x y c d hx' hy hc hd => ?_⟩
    obtain ⟨u, hu, r, ir, er⟩ := forall₂_value f hx'
    obtain ⟨v, hv, s, is, es⟩ := forall₂_value f hy
    refine ⟨r, s, ir, is, ?_⟩
    rw [← (average_steps h1).1 _ hu hv hc hd]
    rw [abs_le] at er es ⊢
    constructor <;> linarith
  · obtain ⟨o, e, f⟩ := C108_ema_accurate hx hf h1 hn h2 hM hbig
    refine ⟨o, e, fun i x y d hx' hy hd => ?_⟩
    obtain ⟨u, hu, r, ir, er⟩ := forall₂_value f hx'
    obtain ⟨v, hv, s, is, es⟩ := forall₂_value f hy
    exact ⟨r, s, ir, is, key (weight_trend h1).1.le (weight_trend h1).2 er es ((average_steps h1).2.1 hu hv hd)⟩
  · obtain ⟨o, e, f⟩ := C108_smma_accurate hx hf h1 hn h2 hM hbig
    refine ⟨o, e, fun i x y d hx' hy hd => ?_⟩
    obtain ⟨u, hu, r, ir, er⟩ := forall₂_value f hx'
    obtain ⟨v, hv, s, is, es⟩ := forall₂_value f hy
    exact ⟨r, s, ir, is, key w0 w1 er es ((average_steps h1).2.2 hu hv hd)⟩

/-- All three rise, since 5 is above 1 and above the values before. -/
example : (∀ c ∈ closeCandles [1, 3, 4, 5], c.close.isFinite = true) ∧
    movingAverage ieee (some (closeCandles [1, 3, 4, 5])) 3 = .ok [.fin (6004799503160661 / 2251799813685248), .fin 4] ∧
    exponentialMovingAverage ieee (some (closeCandles [1, 3, 4, 5])) 2 = .ok [.fin 2, .fin 4] ∧
    smoothedMovingAverage ieee (some (closeCandles [1, 3, 4, 5])) 2 = .ok [.fin 2, .fin 3, .fin 4] := by
  refine ⟨?_, ?_, ?_, ?_⟩ <;> decide +kernel

end Finmod
