import Verif.Lemmas.Shared

/-!
# Candles shared between goroutines: C197, C198
-/

namespace Finmod.Spec
open Go Shared

/-- Nobody writes to the elements of `l`: every read of one of them, at any time, finds it. The rest of the memory may
change at any time. -/
def Undisturbed {α : Type} (l : List α) (mem : Nat → Nat → α) : Prop := ∀ t i a, l[i]? = some a → mem t i = a

/-- What RSI gives depends on its candles only, whatever other goroutines write elsewhere. -/
def C198_claim : Prop :=
  ∀ (S : FloatSem) (cs : List Candle) (cap : Nat) (period : Int) (mem mem' : Nat → Nat → Candle), cs.length ≤ cap →
    Undisturbed cs mem → Undisturbed cs mem' →
    (rsiP S (some (cs.length, cap)) period).exec mem 0 = (rsiP S (some (cs.length, cap)) period).exec mem' 0

end Finmod.Spec

namespace Finmod
open Go Spec Shared

variable {S : FloatSem} {cs : List Candle} {mem : Nat → Nat → Candle}

/-- **C197** `MovingAverage` while other goroutines run that do not write to its candles. -/
theorem C197_movingAverage (h : Undisturbed cs mem) (period : Int) (t : Nat) :
    (movingAverageP S (some cs.length) period).exec mem t = movingAverage S (some cs) period :=
  (reads_movingAverage period).exec h t

/-- **C197** `ExponentialMovingAverage`. -/
theorem C197_exponential (h : Undisturbed cs mem) (period : Int) (t : Nat) :
    (exponentialMovingAverageP S (some cs.length) period).exec mem t = exponentialMovingAverage S (some cs) period :=
  (reads_exponential period).exec h t

/-- **C197** `SmoothedMovingAverage`. -/
theorem C197_smoothed (h : Undisturbed cs mem) (period : Int) (t : Nat) :
    (smoothedMovingAverageP S (some cs.length) period).exec mem t = smoothedMovingAverage S (some cs) period :=
  (reads_smoothed period).exec h t

/-- **C197** `ExponentialWeightedVolatility`. -/
theorem C197_volatility (h : Undisturbed cs mem) (beta : Fl) (t : Nat) :
    (volatilityP S cs.length beta).exec mem t = exponentialWeightedVolatility S cs beta :=
  (reads_volatility beta).exec h t

/-- **C197** `WilliamFractals`. -/
theorem C197_fractals (h : Undisturbed cs mem) (t : Nat) :
    (williamFractalsP cs.length).exec mem t = williamFractals cs :=
  reads_williamFractals.exec h t

/-- **C197** `GetMinInterval`. -/
theorem C197_minInterval (h : Undisturbed cs mem) (t : Nat) :
    (getMinIntervalP S cs.length).exec mem t = getMinInterval S cs :=
  reads_getMinInterval.exec h t

/-- **C197** `ModifyInterval` of no candles or more than one. -/
theorem C197_modifyInterval (h : Undisturbed cs mem) (minute : Int → Int) (minuteInterval : Int) (h1 : cs.length ≠ 1)
    (t : Nat) :
    (modifyIntervalP S minute cs.length minuteInterval).exec mem t = some (modifyInterval S minute cs minuteInterval) :=
  (reads_modifyInterval minute minuteInterval h1).exec h t

/-- **C197** `ModifyInterval` of one candle gives back the slice without reading it. -/
theorem C197_modifyInterval_one (minute : Int → Int) (minuteInterval : Int) (t : Nat) :
    (modifyIntervalP S minute 1 minuteInterval).exec mem t = none := rfl

/-- **C197** What `SaveCandlesToFile` writes. -/
theorem C197_save (h : Undisturbed cs mem) (pick : ℚ → Nat × ℤ) (e : ℤ) (accept : Nat → Nat) (t : Nat) :
    (writeP pick e accept 0 cs.length).exec mem t = writeLoop pick e accept 0 cs :=
  (reads_write pick e accept cs.length 0 (by omega)).exec h t

/-- A candle with this close. -/
def closeAt (q : ℚ) : Candle := ⟨0, .fin q, .fin q, .fin q, .fin q, .fin 1⟩

/-- **C198** is false: the last window of `RSI` reaches one candle behind the slice, so a goroutine that appends to the
same array changes the result. -/
theorem C198_rsi_violated : ¬ C198_claim := by
  intro h
  have h1 := h .exact (List.replicate 14 (closeAt 1)) 15 14 (fun _ i => if i < 14 then closeAt 1 else closeAt 2)
    (fun _ i => if i < 14 then closeAt 1 else closeAt 0) (by simp)
    (fun t i a ha => by
      obtain ⟨hi, e⟩ := List.getElem?_eq_some_iff.1 ha
      rw [List.length_replicate] at hi
      beta_reduce
      rw [if_pos hi, ← e, List.getElem_replicate])
    (fun t i a ha => by
      obtain ⟨hi, e⟩ := List.getElem?_eq_some_iff.1 ha
      rw [List.length_replicate] at hi
      beta_reduce
      rw [if_pos hi, ← e, List.getElem_replicate])
  revert h1
  decide +kernel

theorem exec_bind {α R Q : Type} (mem : Nat → Nat → α) (p : Prog α R) (f : R → Prog α Q) (t : Nat) :
    ∃ r t', (p.bind f).exec mem t = (f r).exec mem t' := by
  induction p generalizing t with
  | done r => exact ⟨r, t, rfl⟩
  | read i k ih => exact ih (mem t i) (t + 1)

theorem rsiLoopP_beyond (cap len : Nat) (mem : Nat → Nat → Candle) (fuel : Nat) :
    ∀ i (j : Int) acc t, len < j → (rsiLoopP S cap len fuel i j acc).exec mem t = .panic := by
  induction fuel with
  | zero => intros; rfl
  | succ fuel ih =>
    intro i j acc t hj
    rw [rsiLoopP, if_neg (by omega)]
    split_ifs with h
    · obtain ⟨r, t', e⟩ := exec_bind mem (calculateRSIP S i ((j + 2).toNat - i))
        (fun x => rsiLoopP S cap len fuel (i + 1) (j + 1) (acc ++ [x])) t
      rw [e]
      exact ih _ _ _ _ (by omega)
    · rfl

theorem rsiLoop_beyond (arr : List Candle) (len fuel : Nat) :
    ∀ i (j : Int) acc, len < j → rsiLoop S arr len fuel i j acc = .panic := by
  induction fuel with
  | zero => intros; rfl
  | succ fuel ih =>
    intro i j acc hj
    rw [rsiLoop, if_neg (by omega)]
    split_ifs with h
    · exact ih _ _ _ (by omega)
    · rfl

/-- **C198** (partial) `RSI` is undisturbed if nobody writes to its candles or to the one behind them; if there is none
behind them in the array, writes elsewhere do no harm. -/
theorem C198_rsi_partial {spare : List Candle} (h : Undisturbed ((cs ++ spare).take (cs.length + 1)) mem) (period : Int)
    (t : Nat) :
    (rsiP S (some (cs.length, (cs ++ spare).length)) period).exec mem t = RSI S (some cs) spare period := by
  rw [rsiP, RSI]
  split_ifs with h14
  · rfl
  by_cases hp : period ≤ cs.length + 1
  · exact (reads_rsiLoop _ _ (by simp) _ _ _ _ (by omega)).exec h t
  · rw [rsiLoopP_beyond _ _ _ _ _ _ _ _ (by omega), rsiLoop_beyond _ _ _ _ _ _ (by omega)]

/-- Memory in which the fourth candle changes all the time, and the first three do not. -/
def busy : Nat → Nat → Candle := fun t i => if i < 3 then closeAt (i + 1) else closeAt t

theorem busy_undisturbed : Undisturbed [closeAt 1, closeAt 2, closeAt 3] busy := by
  intro t i a ha
  match i, ha with
  | 0, rfl => simp only [busy]; norm_num [closeAt]
  | 1, rfl => simp only [busy]; norm_num [closeAt]
  | 2, rfl => simp only [busy]; norm_num [closeAt]

example : (movingAverageP .exact (some 3) 2).exec busy 0 = .ok [.fin (3 / 2), .fin (5 / 2)] :=
  (C197_movingAverage busy_undisturbed 2 0).trans (by decide +kernel)

end Finmod
