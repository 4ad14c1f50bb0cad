import Verif.Props.CandleRegular
import Verif.Props.Averages
import Verif.Props.RSI
import Verif.Props.Fractals

/-!
# C213: which fields of the candles the indicators read, and indicators of resampled series
-/

namespace Finmod
open Go Spec

section
variable {S : FloatSem} {g : Candle → Candle}

theorem average_map (hg : ∀ c, (g c).close = c.close) (cs : List Candle) : average S (cs.map g) = average S cs := by
  unfold average
  rw [List.foldl_map, List.length_map]
  simp only [hg]

theorem maLoop_map (hg : ∀ c, (g c).close = c.close) (cs : List Candle) (fuel i j : Nat) :
    maLoop S (cs.map g) fuel i j = maLoop S cs fuel i j := by
  induction fuel generalizing i j with
  | zero => rfl
  | succ n ih =>
    unfold maLoop
    rw [ih, List.length_map, ← List.map_take, ← List.map_drop, average_map hg]

theorem emaFold_map (hg : ∀ c, (g c).close = c.close) (cs : List Candle) (period : Int) (p : Fl) (l : List Candle) (k : Nat)
    (acc : List Fl) : ((l.map g).zipIdx k).foldl (emaStep S (cs.map g) period p) acc =
      (l.zipIdx k).foldl (emaStep S cs period p) acc := by
  induction l generalizing k acc with
  | nil => rfl
  | cons c l ih =>
    rw [List.map_cons, List.zipIdx_cons, List.zipIdx_cons, List.foldl_cons, List.foldl_cons, ih]
    congr 1
    unfold emaStep
    rw [← List.map_take, average_map hg, hg]

theorem closingSum_map (hg : ∀ c, (g c).close = c.close) (cs : List Candle) (period : Int) :
    closingSum S (cs.map g) period = closingSum S cs period := by
  unfold closingSum
  rw [List.length_map, ← List.map_drop, List.foldl_map]
  simp only [hg]

theorem smmaFold_map (hg : ∀ c, (g c).close = c.close) (cs : List Candle) (period : Int) (l : List Candle) (k : Nat)
    (acc : Option (List Fl)) : ((l.map g).zipIdx k).foldl (smmaStep S (cs.map g) period) acc =
      (l.zipIdx k).foldl (smmaStep S cs period) acc := by
  induction l generalizing k acc with
  | nil => rfl
  | cons c l ih =>
    rw [List.map_cons, List.zipIdx_cons, List.zipIdx_cons, List.foldl_cons, List.foldl_cons, ih]
    congr 1
    unfold smmaStep
    rw [← List.map_take, closingSum_map hg, hg]

theorem rsiSums_map (hg : ∀ c, (g c).close = c.close) (up down prev : Fl) (cs : List Candle) :
    rsiSums S up down prev (cs.map g) = rsiSums S up down prev cs := by
  induction cs generalizing up down prev with
  | nil => rfl
  | cons c l ih => simp only [List.map_cons, rsiSums, hg, ih]

theorem calculateRSI_map (hg : ∀ c, (g c).close = c.close) (cs : List Candle) :
    calculateRSI S (cs.map g) = calculateRSI S cs := by
  cases cs with
  | nil => rfl
  | cons c l => simp only [List.map_cons, calculateRSI, hg, rsiSums_map hg]

theorem rsiLoop_map (hg : ∀ c, (g c).close = c.close) (arr : List Candle) (len fuel i : Nat) (j : Int) (acc : List Fl) :
    rsiLoop S (arr.map g) len fuel i j acc = rsiLoop S arr len fuel i j acc := by
  induction fuel generalizing i j acc with
  | zero => rfl
  | succ n ih =>
    unfold rsiLoop
    rw [ih, List.length_map, ← List.map_take, ← List.map_drop, calculateRSI_map hg]

end

/-- A candle with only the close of `c`. -/
def onlyClose (c : Candle) : Candle := { time := 0, opn := .fin 0, close := c.close, high := .fin 0, low := .fin 0, volume := .fin 0 }

theorem onlyClose_eq {cs ds : List Candle} (h : cs.map (·.close) = ds.map (·.close)) : cs.map onlyClose = ds.map onlyClose := by
  have : onlyClose = (fun x => ({ time := 0, opn := .fin 0, close := x, high := .fin 0, low := .fin 0, volume := .fin 0 } : Candle)) ∘ (·.close) := rfl
  rw [this, ← List.map_map, h, List.map_map]

/-- **C213** The averages read the closes and nothing else. -/
theorem C213_averages (S : FloatSem) {cs ds : List Candle} (h : cs.map (·.close) = ds.map (·.close)) (period : Int) :
    movingAverage S (some cs) period = movingAverage S (some ds) period ∧
    exponentialMovingAverage S (some cs) period = exponentialMovingAverage S (some ds) period ∧
    smoothedMovingAverage S (some cs) period = smoothedMovingAverage S (some ds) period := by
  have hl : cs.length = ds.length := by simpa using congrArg List.length h
  have hg : ∀ c, (onlyClose c).close = c.close := fun _ => rfl
  have he := onlyClose_eq h
  refine ⟨?_, ?_, ?_⟩
  · simp only [movingAverage]
    rw [← maLoop_map hg cs, ← maLoop_map hg ds, he, hl]
  · simp only [exponentialMovingAverage]
    rw [← emaFold_map hg cs, ← emaFold_map hg ds, he, hl]
  · simp only [smoothedMovingAverage]
    rw [← smmaFold_map hg cs, ← smmaFold_map hg ds, he, hl]

/-- **C213** `RSI` reads the closes and nothing else, also of the candles behind the slice. -/
theorem C213_rsi (S : FloatSem) {cs ds behind behind' : List Candle} (h : cs.map (·.close) = ds.map (·.close))
    (hb : behind.map (·.close) = behind'.map (·.close)) (period : Int) :
    RSI S (some cs) behind period = RSI S (some ds) behind' period := by
  have hl : cs.length = ds.length := by simpa using congrArg List.length h
  have hl' : (cs ++ behind).length = (ds ++ behind').length := by
    have := congrArg List.length hb
    simp only [List.length_map] at this
    simp [hl, this]
  have hg : ∀ c, (onlyClose c).close = c.close := fun _ => rfl
  simp only [RSI]
  rw [← rsiLoop_map hg (cs ++ behind), ← rsiLoop_map hg (ds ++ behind'), hl', hl, List.map_append, List.map_append,
    onlyClose_eq h, onlyClose_eq hb]

/-- **C213** The volatility reads the highs and lows and nothing else. -/
theorem C213_volatility (S : FloatSem) {cs ds : List Candle}
    (h : cs.map (fun c => (c.high, c.low)) = ds.map (fun c => (c.high, c.low))) (beta : Fl) :
    exponentialWeightedVolatility S cs beta = exponentialWeightedVolatility S ds beta := by
  have key : ∀ l : List Candle, exponentialWeightedVolatility S l beta =
      (l.map (fun c => (c.high, c.low))).foldl
        (fun v x => S.add (S.mul beta v) (S.mul (S.sub (S.const 1) beta) (S.sub x.1 x.2))) (.fin 0) := by
    intro l; rw [List.foldl_map]; rfl
  rw [key, key, h]

theorem rightScan_map {g : Candle → Candle} (hh : ∀ c, (g c).high = c.high) (hl : ∀ c, (g c).low = c.low) (t : FractalType)
    (third : Candle) (n : Nat) (cs : List Candle) : rightScan t (g third) n (cs.map g) = rightScan t third n cs := by
  induction cs generalizing n with
  | nil => rfl
  | cons c l ih => simp only [List.map_cons, rightScan, hh, hl, ih]

theorem findFractal_map {g : Candle → Candle} (ht : ∀ c, (g c).time = c.time) (hh : ∀ c, (g c).high = c.high)
    (hl : ∀ c, (g c).low = c.low) (cs : List Candle) (i : Nat) (t : FractalType) :
    findFractal (cs.map g) i t = findFractal cs i t := by
  unfold findFractal
  rw [← List.map_drop]
  rcases cs.drop i with _ | ⟨a, _ | ⟨b, _ | ⟨c, l⟩⟩⟩ <;> try rfl
  cases t <;> simp only [List.map_cons, rightScan_map hh hl, leftFails, ht, hh, hl]

/-- **C213** The fractals read the times, highs and lows and nothing else. -/
theorem C213_fractals {cs ds : List Candle}
    (h : cs.map (fun c => (c.time, c.high, c.low)) = ds.map (fun c => (c.time, c.high, c.low))) :
    williamFractals cs = williamFractals ds := by
  have hlen : cs.length = ds.length := by simpa using congrArg List.length h
  let k : Int × Fl × Fl → Candle := fun x => { time := x.1, opn := .fin 0, close := .fin 0, high := x.2.1, low := x.2.2, volume := .fin 0 }
  let g : Candle → Candle := fun c => k (c.time, c.high, c.low)
  have he : cs.map g = ds.map g := by
    have := congrArg (List.map k) h
    rw [List.map_map, List.map_map] at this
    exact this
  have key : ∀ l : List Candle, williamFractals (l.map g) = williamFractals l := by
    intro l
    unfold williamFractals findFractals
    simp only [findFractal_map (g := g) (fun _ => rfl) (fun _ => rfl) (fun _ => rfl), List.length_map]
  rw [← key cs, he, key ds]

/-- The last candles of the groups of `m` from index `j` on; the last group ends with the series. -/
def Spec.groupEnds (candles : List Candle) (j m : Nat) : List Candle :=
  (List.range ((candles.length - j + m - 1) / m)).filterMap fun i => candles[min (j + (i + 1) * m) candles.length - 1]?

/-- **C213** The closes of a resampled regular series are those of the last candles of the groups. -/
theorem C213_closes (S : FloatSem) (hS : Lawful S) (minute : Int → Int) (d m : Nat)
    (hd : 1 ≤ d) (hm : 1 ≤ m) (candles : List Candle) (hlen : 2 ≤ candles.length)
    (hr : Regular d candles) (j : Nat) (hj : j < candles.length)
    (hal : Aligned minute (m * d : Nat) candles[j])
    (hna : ∀ i (h : i < j), ¬ Aligned minute (m * d : Nat) candles[i])
    (out : List Candle) (h : modifyInterval S minute candles (m * d : Nat) = .ok out) :
    out.map (·.close) = (groupEnds candles j m).map (·.close) := by
  obtain ⟨hl, hg⟩ := C28_regular S hS minute d m hd hm candles hlen hr j hj hal hna out h
  have hpos : ∀ i, i < out.length → j + i * m < candles.length := by
    intro i hi
    rw [hl] at hi
    have h1 := (Nat.le_div_iff_mul_le (by omega : 0 < m)).1 (show i + 1 ≤ _ from hi)
    have h2 : (i + 1) * m = i * m + m := by ring
    omega
  have key : ∀ i (hi : i < out.length), ∃ c, candles[min (j + (i + 1) * m) candles.length - 1]? = some c ∧ c.close = out[i].close := by
    intro i hi
    have hp := hpos i hi
    have hc := (hg i hi).1.close
    have e : ((candles.drop (j + i * m)).take m).getLast? = candles[min (j + (i + 1) * m) candles.length - 1]? := by
      rw [List.getLast?_eq_getElem?, List.length_take, List.length_drop, List.getElem?_take_of_lt (by omega), List.getElem?_drop]
      congr 1
      have : (i + 1) * m = i * m + m := by ring
      omega
    rw [e] at hc
    cases hx : candles[min (j + (i + 1) * m) candles.length - 1]? with
    | none => rw [hx] at hc; cases hc
    | some c => rw [hx] at hc; exact ⟨c, rfl, by simpa using hc⟩
  unfold groupEnds
  rw [← hl]
  have step : ∀ n, n ≤ out.length → (out.take n).map (·.close) = ((List.range n).filterMap fun i =>
      candles[min (j + (i + 1) * m) candles.length - 1]?).map (·.close) := by
    intro n
    induction n with
    | zero => intro _; rfl
    | succ n ih =>
      intro hn
      obtain ⟨c, h1, h2⟩ := key n (by omega)
      rw [List.take_succ_eq_append_getElem (by omega), List.map_append, ih (by omega), List.range_succ, List.filterMap_append,
        List.map_append]
      congr 1
      simp only [List.filterMap_cons, List.filterMap_nil, h1, List.map_cons, List.map_nil, h2]
  have := step out.length le_rfl
  rwa [List.take_length] at this

/-- **C213** The averages and `RSI` of a resampled regular series are those of the last candles of the groups. -/
theorem C213_resampled (S : FloatSem) (hS : Lawful S) (minute : Int → Int) (d m : Nat)
    (hd : 1 ≤ d) (hm : 1 ≤ m) (candles : List Candle) (hlen : 2 ≤ candles.length)
    (hr : Regular d candles) (j : Nat) (hj : j < candles.length)
    (hal : Aligned minute (m * d : Nat) candles[j])
    (hna : ∀ i (h : i < j), ¬ Aligned minute (m * d : Nat) candles[i])
    (out : List Candle) (h : modifyInterval S minute candles (m * d : Nat) = .ok out) (behind : List Candle) (period : Int) :
    movingAverage S (some out) period = movingAverage S (some (groupEnds candles j m)) period ∧
    exponentialMovingAverage S (some out) period = exponentialMovingAverage S (some (groupEnds candles j m)) period ∧
    smoothedMovingAverage S (some out) period = smoothedMovingAverage S (some (groupEnds candles j m)) period ∧
    RSI S (some out) behind period = RSI S (some (groupEnds candles j m)) behind period := by
  have e := C213_closes S hS minute d m hd hm candles hlen hr j hj hal hna out h
  obtain ⟨h1, h2, h3⟩ := C213_averages S e period
  exact ⟨h1, h2, h3, C213_rsi S e rfl period⟩

/-- Two series with the same closes and nothing else in common. -/
example : (demoCandles.map onlyClose).map (·.close) = demoCandles.map (·.close) ∧ demoCandles.map onlyClose ≠ demoCandles ∧
    movingAverage ieee (some demoCandles) 2 = movingAverage ieee (some (demoCandles.map onlyClose)) 2 :=
  ⟨by decide +kernel, by decide +kernel, (C213_averages ieee (by decide +kernel) 2).1⟩

/-- The four minute candles resampled to two minutes from the second on: the groups end with the third and the fourth. -/
example : groupEnds demoCandles 1 2 = [demoCandles[2], demoCandles[3]] ∧
    ∃ out, modifyInterval ieee utcMinute demoCandles 2 = .ok out ∧
      out.map (·.close) = [demoCandles[2].close, demoCandles[3].close] ∧
      movingAverage ieee (some out) 2 = movingAverage ieee (some [demoCandles[2], demoCandles[3]]) 2 := by
  refine ⟨by decide +kernel, ?_⟩
  obtain ⟨out, h⟩ : ∃ out, modifyInterval ieee utcMinute demoCandles 2 = .ok out :=
    ⟨[⟨120, .fin 2, .fin 5, .fin 0, .fin 1, .fin (5/2)⟩, ⟨240, .fin 1, .fin 2, .fin 1, .fin 2, .fin 1⟩], by decide +kernel⟩
  have hr : Regular 1 demoCandles := by
    refine ⟨by decide, ?_⟩
    intro i hi
    simp only [demoCandles, List.length_cons, List.length_nil] at hi
    interval_cases i <;> rfl
  have e : groupEnds demoCandles 1 2 = [demoCandles[2], demoCandles[3]] := by decide +kernel
  have hc := C213_closes ieee ieee_lawful utcMinute 1 2 (by decide) (by decide) demoCandles (by decide) hr 1 (by decide)
    (by decide) (by decide) out h
  have hm := (C213_resampled ieee ieee_lawful utcMinute 1 2 (by decide) (by decide) demoCandles (by decide) hr 1 (by decide)
    (by decide) (by decide) out h [] 2).1
  rw [e] at hc hm
  exact ⟨out, h, hc, hm⟩

end Finmod
