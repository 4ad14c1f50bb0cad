import Verif.Props.Averages
import Verif.Props.RSI
import Verif.Props.Fractals
import Verif.Props.VolatilityMore

/-!
# Indicators of a series computed in two parts: C249
-/

namespace Finmod
open Go Spec

/-- The indicator `f` of period `n` can be computed in two parts that have `k` candles in common: the results one after
the other are that of the whole series. -/
def Spec.InParts (f : Option (List Candle) → Int → Res (List Fl)) (n k : Nat) : Prop :=
  ∀ xs ov ys : List Candle, ov.length = k → xs ≠ [] → ys ≠ [] → ∃ a b,
    f (some (xs ++ ov)) n = .ok a ∧ f (some (ov ++ ys)) n = .ok b ∧ f (some (xs ++ ov ++ ys)) n = .ok (a ++ b)

/-- Full statement of C249 for the averages: with a suitable number of candles in common they can be computed in parts. -/
def Spec.C249_claim (S : FloatSem) : Prop :=
  ∀ f ∈ [movingAverage S, exponentialMovingAverage S, smoothedMovingAverage S], ∀ n, 1 ≤ n → ∃ k, InParts f n k

/-- Full statement of C249 for fractals: they can be found in parts with four candles in common. -/
def Spec.C249_fractals_claim : Prop :=
  ∀ xs ov ys : List Candle, ov.length = 4 →
    williamFractals (xs ++ ov ++ ys) = williamFractals (xs ++ ov) ++ williamFractals (ov ++ ys)

/-- Windows of a series in two parts. -/
theorem windows_parts {α : Type} (g : List Candle → α) {xs ov ys : List Candle} (sp : List Candle) {n w : Nat} (hov : ov.length + 1 = n)
    (hx : xs ≠ []) (hy : ys ≠ []) :
    ((List.range ((xs ++ ov ++ ys).length - n + 1)).map fun k => g (((xs ++ ov ++ ys ++ sp).drop k).take w)) =
      ((List.range ((xs ++ ov).length - n + 1)).map fun k => g ((((xs ++ ov) ++ (ys ++ sp)).drop k).take w)) ++
      ((List.range ((ov ++ ys).length - n + 1)).map fun k => g (((ov ++ ys ++ sp).drop k).take w)) := by
  have h1 := List.length_pos_iff.2 hx
  have h2 := List.length_pos_iff.2 hy
  have e : (xs ++ ov ++ ys).length - n + 1 = xs.length + ys.length := by simp; omega
  have e1 : (xs ++ ov).length - n + 1 = xs.length := by simp; omega
  have e2 : (ov ++ ys).length - n + 1 = ys.length := by simp; omega
  rw [e, e1, e2, List.range_add, List.map_append, List.map_map]
  congr 1
  · simp only [List.append_assoc]
  · apply List.map_congr_left
    intro k _
    show g _ = _
    rw [show xs ++ ov ++ ys ++ sp = xs ++ (ov ++ ys ++ sp) by simp, List.drop_append,
      List.drop_of_length_le (show xs.length ≤ xs.length + k by omega)]
    simp

/-- **C249**, what holds: moving averages of period `n` can be computed in parts with `n - 1` candles in common; every
rounding. -/
theorem C249_moving_average_partial (S : FloatSem) (n : Nat) (h1 : 1 ≤ n) : InParts (movingAverage S) n (n - 1) := by
  intro xs ov ys hov hx hy
  have h1' := List.length_pos_iff.2 hx
  have h2' := List.length_pos_iff.2 hy
  refine ⟨_, _, movingAverage_ok S _ n h1 (by simp; omega), movingAverage_ok S _ n h1 (by simp; omega), ?_⟩
  rw [movingAverage_ok S _ n h1 (by simp; omega)]
  have h := windows_parts (average S) (w := n) [] (show ov.length + 1 = n by omega) hx hy
  simp only [List.append_nil] at h
  rw [h]
  congr 2
  apply List.map_congr_left
  intro k hk
  rw [List.mem_range] at hk
  have hlen : (xs ++ ov).length - n + 1 = xs.length := by simp; omega
  rw [hlen] at hk
  rw [List.drop_append_of_le_length (by simp; omega), List.take_append_of_le_length (by simp; omega)]

/-- **C249**: RSI values can be computed in parts with `n - 1` candles in common, if the parts are slices of the series
(RSI reads the candle behind its slice, C77); every rounding. -/
theorem C249_rsi (S : FloatSem) (xs ov ys spare : List Candle) (n : Nat) (hov : ov.length + 1 = n) (hx : xs ≠ [])
    (hy : ys ≠ []) (h14 : 14 ≤ (xs ++ ov).length) (h14' : 14 ≤ (ov ++ ys).length) (hs : spare ≠ []) :
    ∃ a b, RSI S (some (xs ++ ov)) (ys ++ spare) n = .ok a ∧ RSI S (some (ov ++ ys)) spare n = .ok b ∧
      RSI S (some (xs ++ ov ++ ys)) spare n = .ok (a ++ b) := by
  have h1' := List.length_pos_iff.2 hx
  have h2' := List.length_pos_iff.2 hy
  refine ⟨_, _, rsi_ok S _ _ h14 (by simp [hy]) n (by simp; omega), rsi_ok S _ _ h14' hs n (by simp; omega), ?_⟩
  rw [rsi_ok S _ _ (by simp at h14 ⊢; omega) hs n (by simp; omega)]
  rw [windows_parts (calculateRSI S) spare hov hx hy]

/-- **C249**: fractals can be found in parts with four candles in common, if the first part has no NaN and no ties. -/
theorem C249_fractals_partial {xs ov : List Candle} (ys : List Candle) (hov : ov.length = 4) (hn : NoNaN (xs ++ ov))
    (ht : NoTies (xs ++ ov)) :
    williamFractals (xs ++ ov ++ ys) = williamFractals (xs ++ ov) ++ williamFractals (ov ++ ys) := by
  have hall : ∀ cs : List Candle, 4 ≤ cs.length →
      williamFractals cs = (List.range (cs.length - 4)).flatMap (findFractals cs) := by
    intro cs hc
    unfold williamFractals
    split
    · rw [show cs.length - 4 = 0 by omega]; rfl
    · rfl
  rw [hall _ (by simp; omega), hall (xs ++ ov) (by simp; omega), hall (ov ++ ys) (by simp; omega)]
  rw [show (xs ++ ov ++ ys).length - 4 = xs.length + ys.length by simp; omega,
    show (xs ++ ov).length - 4 = xs.length by simp; omega, show (ov ++ ys).length - 4 = ys.length by simp; omega,
    List.range_add, List.flatMap_append]
  congr 1
  · apply List.flatMap_congr
    intro i hi
    rw [List.mem_range] at hi
    exact findFractals_noTies hn ht i (by simp; omega)
  · rw [List.flatMap_map]
    apply List.flatMap_congr
    intro i _
    have hd : (xs ++ ov ++ ys).drop (xs.length + i) = (ov ++ ys).drop i := by
      rw [List.append_assoc, List.drop_append, List.drop_of_length_le (by omega)]; simp
    unfold findFractals findFractal
    rw [hd]

/-- **C249** is false of fractals with ties: a plateau at the end of the first part is a fractal there, not in the whole. -/
theorem C249_fractals_violated : ¬ Spec.C249_fractals_claim := by
  intro h
  have := h (exTies.take 1) (exTies.drop 1) [exHL 6 6 0] (by decide)
  revert this
  decide +kernel

/-- **C249**: the volatility of a series is that of its second part, plus that of the first times `beta` for every candle
of the second; exact arithmetic. -/
theorem C249_volatility {xs ys : List Candle} (h : FiniteRanges xs) (hy : FiniteRanges ys) {beta : Fl} {b : ℚ}
    (hb : beta.Is b) :
    (exponentialWeightedVolatility FloatSem.exact (xs ++ ys) beta).toRat =
      (exponentialWeightedVolatility FloatSem.exact ys beta).toRat +
        b ^ ys.length * (exponentialWeightedVolatility FloatSem.exact xs beta).toRat := by
  have := C155_forgets h (xs' := []) (by intro c hc; simp at hc) hy hb
  rw [List.nil_append, show (exponentialWeightedVolatility FloatSem.exact [] beta).toRat = 0 from rfl] at this
  linarith

theorem smma_length (S : FloatSem) (cs : List Candle) (n : Nat) (h1 : 1 ≤ n) (h2 : n ≤ cs.length) :
    ∃ out, smoothedMovingAverage S (some cs) n = .ok out ∧ out.length = cs.length - n + 1 := by
  refine ⟨_, smma_ok S cs n h1 h2, ?_⟩
  have hlen : (cs.drop n).length = cs.length - n := by simp
  cases hd : cs.drop n with
  | nil => rw [hd] at hlen; simp at hlen ⊢; omega
  | cons c rest => rw [hd] at hlen; simp [length_scan, closes] at hlen ⊢; omega

/-- An indicator with `len - c` values can only be computed in parts with `c` candles in common. -/
theorem inParts_overlap {f : Option (List Candle) → Int → Res (List Fl)} {n c : Nat} (hcn : c ≤ n)
    (hf : ∀ cs : List Candle, n ≤ cs.length → ∃ out, f (some cs) n = .ok out ∧ out.length = cs.length - c) {k : Nat}
    (h : InParts f n k) : k = c := by
  have hl : ∀ m, (List.replicate m (exClose 0)).length = m := fun m => List.length_replicate
  have hne : List.replicate (n + 1) (exClose 0) ≠ [] := by simp
  obtain ⟨a, b, ea, eb, e⟩ := h (List.replicate (n + 1) (exClose 0)) (List.replicate k (exClose 0))
    (List.replicate (n + 1) (exClose 0)) (hl k) hne hne
  obtain ⟨a', ea', la⟩ := hf (List.replicate (n + 1) (exClose 0) ++ List.replicate k (exClose 0)) (by simp; omega)
  obtain ⟨b', eb', lb⟩ := hf (List.replicate k (exClose 0) ++ List.replicate (n + 1) (exClose 0)) (by simp; omega)
  obtain ⟨o, eo, lo⟩ := hf (List.replicate (n + 1) (exClose 0) ++ List.replicate k (exClose 0) ++
    List.replicate (n + 1) (exClose 0)) (by simp; omega)
  rw [ea] at ea'; rw [eb] at eb'; rw [e] at eo
  cases ea'; cases eb'; cases eo
  rw [List.length_append, la, lb] at lo
  simp at lo
  omega

/-- **C249** is false of the recursive averages: no number of candles in common makes up for the values before. -/
theorem C249_recursive_violated (k : Nat) :
    ¬ InParts (exponentialMovingAverage ieee) 2 k ∧ ¬ InParts (smoothedMovingAverage ieee) 2 k ∧
    ¬ InParts (exponentialMovingAverage FloatSem.exact) 2 k ∧ ¬ InParts (smoothedMovingAverage FloatSem.exact) 2 k := by
  have he : ∀ S (k : Nat), InParts (exponentialMovingAverage S) 2 k → k = 2 := fun S k h =>
    inParts_overlap (c := 2) le_rfl (fun cs hc => by
      obtain ⟨out, e, l, _⟩ := C70_ema_float S cs 2 (by decide) hc
      exact ⟨out, e, l⟩) h
  have hs : ∀ S (k : Nat), InParts (smoothedMovingAverage S) 2 k → k = 1 := fun S k h =>
    inParts_overlap (c := 1) (by decide) (fun cs hc => by
      obtain ⟨out, e, l⟩ := smma_length S cs 2 (by decide) hc
      exact ⟨out, e, by omega⟩) h
  have join : ∀ (f : Option (List Candle) → Int → Res (List Fl)) (xs ov ys : List Candle) (j : Nat),
      ov.length = j → xs ≠ [] → ys ≠ [] → InParts f 2 j → ∃ a b,
      f (some (xs ++ ov)) 2 = .ok a ∧ f (some (ov ++ ys)) 2 = .ok b ∧ f (some (xs ++ ov ++ ys)) 2 = .ok (a ++ b) :=
    fun f xs ov ys j h1 h2 h3 h => h xs ov ys h1 h2 h3
  have wit : ∀ (f : Option (List Candle) → Int → Res (List Fl)) (xs ov ys : List Candle) (a b c : List Fl),
      xs ≠ [] → ys ≠ [] → f (some (xs ++ ov)) 2 = .ok a → f (some (ov ++ ys)) 2 = .ok b →
      f (some (xs ++ ov ++ ys)) 2 = .ok c → c ≠ a ++ b → ¬ InParts f 2 ov.length := by
    intro f xs ov ys a b c h2 h3 e1 e2 e3 hne h
    obtain ⟨a', b', f1, f2, f3⟩ := join f xs ov ys _ rfl h2 h3 h
    rw [e1] at f1; rw [e2] at f2; rw [e3] at f3
    cases f1; cases f2; cases f3
    exact hne rfl
  refine ⟨?_, ?_, ?_, ?_⟩
  · intro h
    obtain rfl := he _ _ h
    exact wit _ [exClose 8] [exClose 2, exClose 4] [exClose 6] _ _ _ (by simp) (by simp) rfl rfl rfl (by decide +kernel) h
  · intro h
    obtain rfl := hs _ _ h
    exact wit _ [exClose 8] [exClose 2] [exClose 4] _ _ _ (by simp) (by simp) rfl rfl rfl (by decide +kernel) h
  · intro h
    obtain rfl := he _ _ h
    exact wit _ [exClose 8] [exClose 2, exClose 4] [exClose 6] _ _ _ (by simp) (by simp) rfl rfl rfl (by decide +kernel) h
  · intro h
    obtain rfl := hs _ _ h
    exact wit _ [exClose 8] [exClose 2] [exClose 4] _ _ _ (by simp) (by simp) rfl rfl rfl (by decide +kernel) h

/-- **C249** is false as a whole. -/
theorem C249_parts_violated : ¬ Spec.C249_claim ieee ∧ ¬ Spec.C249_claim FloatSem.exact := by
  constructor <;> intro h
  · obtain ⟨k, hk⟩ := h (exponentialMovingAverage ieee) (by simp) 2 (by decide)
    exact (C249_recursive_violated k).1 hk
  · obtain ⟨k, hk⟩ := h (exponentialMovingAverage FloatSem.exact) (by simp) 2 (by decide)
    exact (C249_recursive_violated k).2.2.1 hk

/-- **Example for C249.** Moving averages of period 3 in parts with two candles in common. -/
example :
    movingAverage ieee (some ([1, 2, 6].map exClose)) 3 = .ok [.fin 3] ∧
    movingAverage ieee (some ([2, 6, 4, 8].map exClose)) 3 = .ok [.fin 4, .fin 6] ∧
    movingAverage ieee (some ([1, 2, 6, 4, 8].map exClose)) 3 = .ok [.fin 3, .fin 4, .fin 6] := by decide +kernel

/-- **Example for C249.** Fifteen closes, the first fourteen and the last fourteen. -/
example : ∃ a b, RSI ieee (some (rsiExample.take 14)) (rsiExample.drop 14 ++ [rsiCandle 0]) 14 = .ok a ∧
    RSI ieee (some (rsiExample.drop 1)) [rsiCandle 0] 14 = .ok b ∧
    RSI ieee (some rsiExample) [rsiCandle 0] 14 = .ok (a ++ b) :=
  C249_rsi ieee (rsiExample.take 1) ((rsiExample.drop 1).take 13) (rsiExample.drop 14) [rsiCandle 0] 14 (by decide)
    (by simp [rsiExample]) (by simp [rsiExample]) (by decide) (by decide) (by simp)

/-- **Example for C249.** Fractals of seven candles, in parts of five and six. -/
example : NoNaN (exFractals.take 5) ∧ NoTies (exFractals.take 5) ∧
    williamFractals exFractals = williamFractals (exFractals.take 5) ++ williamFractals (exFractals.drop 1) ∧
    williamFractals (exFractals.take 5) ≠ [] ∧ williamFractals (exFractals.drop 1) ≠ [] :=
  ⟨by decide +kernel, noTies_of_check (by decide +kernel), by decide +kernel, by decide +kernel, by decide +kernel⟩

end Finmod
