import Verif.Props.Averages
import Verif.Props.RSI
import Verif.Props.Fractals
import Verif.Props.CandleGroups

/-!
# C177: what one NaN does

A NaN can come in through a candle file (`strconv.ParseFloat` reads "NaN").
-/

namespace Finmod
open Go Spec

section
variable (S : FloatSem)

theorem nan_add (x : Fl) : S.add .nan x = .nan := by cases x <;> rfl
theorem add_nan (x : Fl) : S.add x .nan = .nan := by cases x <;> rfl
theorem nan_mul (x : Fl) : S.mul .nan x = .nan := by cases x <;> rfl
theorem mul_nan (x : Fl) : S.mul x .nan = .nan := by cases x <;> rfl
theorem nan_div (x : Fl) : S.div .nan x = .nan := by cases x <;> rfl
theorem nan_sub (x : Fl) : S.sub .nan x = .nan := by cases x <;> rfl
theorem sub_nan (x : Fl) : S.sub x .nan = .nan := by cases x <;> rfl

theorem foldl_add_nan (l : List Fl) : l.foldl S.add .nan = .nan := by
  induction l with
  | nil => rfl
  | cons x l ih => rw [List.foldl_cons, nan_add]; exact ih

theorem foldl_add_mem_nan {l : List Fl} (h : Fl.nan ∈ l) (a : Fl) : l.foldl S.add a = .nan := by
  induction l generalizing a with
  | nil => cases h
  | cons x l ih =>
    rw [List.foldl_cons]
    rcases List.mem_cons.1 h with rfl | h
    · rw [add_nan]; exact foldl_add_nan S l
    · exact ih h _

end

/-- **C177.** A moving average is NaN when its window holds a NaN close. The other values are those of
any other series with the same closes in that window. -/
theorem C177_moving_average (S : FloatSem) (cs : List Candle) {n : Nat} (h1 : 1 ≤ n)
    (h2 : n ≤ cs.length) :
    ∃ out, movingAverage S (some cs) n = .ok out ∧
      (∀ k i c, k ≤ i → i < k + n → k < out.length → cs[i]? = some c → c.close = .nan →
        out[k]? = some .nan) ∧
      ∀ cs' : List Candle, cs'.length = cs.length → ∃ out', movingAverage S (some cs') n = .ok out' ∧
        ∀ k, (∀ i, k ≤ i → i < k + n → (cs'[i]?).map Candle.close = (cs[i]?).map Candle.close) →
          out'[k]? = out[k]? := by
  obtain ⟨out, e, hl, hv⟩ := C65_moving_average S cs n h1 h2
  refine ⟨out, e, ?_, ?_⟩
  · intro k i c hki hik hk hc hn
    rw [hv k hk]
    congr 1
    rw [foldl_add_mem_nan S, nan_div]
    rw [← hn]
    refine List.mem_map_of_mem (List.mem_of_getElem? (i := i - k) ?_)
    rw [List.getElem?_take_of_lt (by omega), List.getElem?_drop, ← hc]
    congr 1; omega
  · intro cs' hl'
    obtain ⟨out', e', hlo, hv'⟩ := C65_moving_average S cs' n h1 (by omega)
    refine ⟨out', e', ?_⟩
    intro k hk
    by_cases hko : k < out.length
    · rw [hv k hko, hv' k (by omega)]
      congr 3
      apply List.ext_getElem?
      intro i
      rw [List.getElem?_map, List.getElem?_map]
      by_cases hi : i < n
      · rw [List.getElem?_take_of_lt hi, List.getElem?_take_of_lt hi, List.getElem?_drop, List.getElem?_drop]
        exact hk (k + i) (by omega) (by omega)
      · rw [List.getElem?_eq_none (by simp; omega), List.getElem?_eq_none (by simp; omega)]
    · rw [List.getElem?_eq_none (by omega), List.getElem?_eq_none (by omega)]

theorem nan_from {out : List Fl} {j : Nat} (hj : j < out.length → out[j]? = some .nan)
    (hs : ∀ k, out[k]? = some .nan → k + 1 < out.length → out[k + 1]? = some .nan) :
    ∀ i, j ≤ i → i < out.length → out[i]? = some .nan := by
  intro i hi hl
  induction i, hi using Nat.le_induction with
  | base => exact hj hl
  | succ i hi ih => exact hs i (ih (by omega)) hl

/-- **C177.** Exponential average: every value is NaN if one of the first `n` closes is; a NaN close
at position `n + k + 1` makes value `k + 1` and every later one NaN. The close at position `n` is not
used. -/
theorem C177_ema (S : FloatSem) (cs : List Candle) {n : Nat} (h1 : 1 ≤ n) (h2 : n ≤ cs.length) :
    ∃ out, exponentialMovingAverage S (some cs) n = .ok out ∧ out.length = cs.length - n ∧
      (∀ i c, i < n → cs[i]? = some c → c.close = .nan → ∀ k, k < out.length → out[k]? = some .nan) ∧
      (∀ j c, cs[n + j + 1]? = some c → c.close = .nan →
        ∀ k, j + 1 ≤ k → k < out.length → out[k]? = some .nan) ∧
      ∀ c, exponentialMovingAverage S (some (cs.set n c)) n = .ok out := by
  obtain ⟨out, e, hl, h0, hs⟩ := C70_ema_float S cs n h1 h2
  have step : ∀ k, out[k]? = some .nan → k + 1 < out.length → out[k + 1]? = some .nan := by
    intro k hk hk1
    have hlt : n + k + 1 < cs.length := by omega
    rw [hs k .nan _ hk (List.getElem?_eq_getElem hlt), nan_mul, add_nan]
  refine ⟨out, e, hl, ?_, ?_, ?_⟩
  · intro i c hi hc hn k hk
    refine nan_from (j := 0) ?_ step k (by omega) hk
    intro hpos
    have := h0 _ (List.getElem?_eq_getElem hpos)
    rw [List.getElem?_eq_getElem hpos, this, foldl_add_mem_nan S, nan_div]
    rw [← hn]
    refine List.mem_map_of_mem (List.mem_of_getElem? (i := i) ?_)
    rw [List.getElem?_take_of_lt hi, hc]
  · intro j c hc hn k hjk hk
    refine nan_from (j := j + 1) ?_ step k hjk hk
    intro hpos
    have hj : j < out.length := by omega
    rw [hs j _ c (List.getElem?_eq_getElem hj) hc, hn, nan_mul, nan_add]
  · intro c
    rw [← e, ema_ok S cs n h1 h2, ema_ok S _ n h1 (by simpa using h2)]
    congr 1
    by_cases hn : n < cs.length
    · rw [List.drop_eq_getElem_cons hn, List.drop_eq_getElem_cons (by simpa using hn)]
      simp only [List.take_set_of_le (Nat.le_refl n), List.drop_set_of_lt (Nat.lt_succ_self n)]
    · rw [List.set_eq_of_length_le (by omega)]

/-- **C177.** Smoothed average: NaN throughout if one of the first `n` closes is NaN; a NaN close at
position `n + k` makes value `k + 1` and every later one NaN. -/
theorem C177_smma (S : FloatSem) (cs : List Candle) {n : Nat} (h1 : 1 ≤ n) (h2 : n ≤ cs.length) :
    ∃ out, smoothedMovingAverage S (some cs) n = .ok out ∧ out.length = cs.length - n + 1 ∧
      (∀ i c, i < n → cs[i]? = some c → c.close = .nan → ∀ k, k < out.length → out[k]? = some .nan) ∧
      (∀ j c, cs[n + j]? = some c → c.close = .nan →
        ∀ k, j + 1 ≤ k → k < out.length → out[k]? = some .nan) := by
  have hfirst : ∀ i c, i < n → cs[i]? = some c → c.close = .nan → smmaFirst S cs n = .nan := by
    intro i c hi hc hn
    unfold smmaFirst
    rw [foldl_add_mem_nan S, nan_div]
    rw [← hn]
    refine List.mem_map_of_mem (List.mem_of_getElem? (i := i) ?_)
    rw [List.getElem?_take_of_lt hi, hc]
  have sec1 : ∀ x, smmaSecond S n .nan x = .nan := fun x => by
    unfold smmaSecond; rw [nan_mul, nan_add, nan_div]
  have sec2 : ∀ x, smmaSecond S n x .nan = .nan := fun x => by
    unfold smmaSecond; rw [add_nan, nan_div]
  have nxt1 : ∀ x, smmaNext S n .nan x = .nan := fun x => by
    unfold smmaNext; rw [nan_mul, nan_sub, nan_add, nan_div]
  have nxt2 : ∀ x, smmaNext S n x .nan = .nan := fun x => by
    unfold smmaNext; rw [add_nan, nan_div]
  refine ⟨_, smma_ok S cs n h1 h2, ?_⟩
  cases hd : cs.drop n with
  | nil =>
    have hlen : cs.length - n = 0 := by simpa using congrArg List.length hd
    refine ⟨by simp [hlen], ?_, ?_⟩
    · intro i c hi hc hn k hk
      simp only [List.length_singleton] at hk
      obtain rfl : k = 0 := by omega
      simp [hfirst i c hi hc hn]
    · intro j c hc _
      have := (List.getElem?_eq_some_iff.1 hc).1
      omega
  | cons c0 rest =>
    have hlen : cs.length - n = rest.length + 1 := by simpa using congrArg List.length hd
    have hg : ∀ j, cs[n + j]? = (c0 :: rest)[j]? := fun j => by rw [← hd, List.getElem?_drop]
    simp only
    set tl := scan (smmaNext S n) (smmaSecond S n (smmaFirst S cs n) c0.close) (closes rest) with htl
    have hll : tl.length = rest.length + 1 := by rw [htl, length_scan]; simp [closes]
    have step : ∀ k, (smmaFirst S cs n :: tl)[k]? = some .nan → k + 1 < (smmaFirst S cs n :: tl).length →
        (smmaFirst S cs n :: tl)[k + 1]? = some .nan := by
      intro k hk hk1
      simp only [List.length_cons] at hk1
      rw [List.getElem?_cons_succ]
      cases k with
      | zero =>
        simp only [List.getElem?_cons_zero, Option.some.injEq] at hk
        rw [htl, hk, sec1]; exact scan_zero _ _ _
      | succ k =>
        rw [List.getElem?_cons_succ] at hk
        have hb : k < (closes rest).length := by simp only [closes, List.length_map]; omega
        have := scan_succ _ _ _ k _ _ hk (List.getElem?_eq_getElem hb)
        rw [nxt1] at this
        exact this
    refine ⟨by simp [hll]; omega, ?_, ?_⟩
    · intro i c hi hc hn k hk
      refine nan_from (j := 0) (fun _ => ?_) step k (by omega) hk
      simp [hfirst i c hi hc hn]
    · intro j c hc hn k hjk hk
      refine nan_from (j := j + 1) (fun hj => ?_) step k hjk hk
      rw [List.getElem?_cons_succ]
      rw [hg] at hc
      cases j with
      | zero =>
        simp only [List.getElem?_cons_zero, Option.some.injEq] at hc
        subst hc
        rw [htl, hn, sec2]; exact scan_zero _ _ _
      | succ j =>
        rw [List.getElem?_cons_succ] at hc
        simp only [List.length_cons] at hj
        have hp := List.getElem?_eq_getElem (l := tl) (i := j) (by omega)
        have hb : (closes rest)[j]? = some .nan := by
          simp only [closes, List.getElem?_map, hc, Option.map_some, hn]
        have := scan_succ _ _ _ j _ _ hp hb
        rw [nxt2] at this
        exact this

/-- **C177.** The volatility is NaN as soon as one candle has a NaN high or low, or beta is NaN and
there is a candle. -/
theorem C177_volatility (S : FloatSem) {cs : List Candle} {c : Candle} (hc : c ∈ cs) {beta : Fl}
    (h : c.high = .nan ∨ c.low = .nan ∨ beta = .nan) :
    exponentialWeightedVolatility S cs beta = .nan := by
  unfold exponentialWeightedVolatility
  have hstay : ∀ l : List Candle, l.foldl (ewvStep S beta) .nan = .nan := by
    intro l
    induction l with
    | nil => rfl
    | cons d l ih =>
      rw [List.foldl_cons]
      rw [show ewvStep S beta .nan d = .nan by unfold ewvStep; rw [mul_nan, nan_add]]
      exact ih
  generalize Fl.fin 0 = a
  induction cs generalizing a with
  | nil => cases hc
  | cons d l ih =>
    rw [List.foldl_cons]
    rcases List.mem_cons.1 hc with rfl | hc
    · have : ewvStep S beta a c = .nan := by
        unfold ewvStep
        rcases h with h | h | h
        · rw [h, nan_sub, mul_nan, add_nan]
        · rw [h, sub_nan, mul_nan, add_nan]
        · rw [h, nan_mul, nan_add]
      rw [this]; exact hstay l
    · exact ih hc _

theorem moves_append_nan (A B : List Fl) :
    moves (A ++ .nan :: B) = moves A ++ (A.getLast?.map fun a => (a, Fl.nan)).toList ++
      (B.head?.map fun b => (Fl.nan, b)).toList ++ moves B := by
  induction A with
  | nil => cases B <;> simp [moves]
  | cons a A ih =>
    cases A with
    | nil =>
      cases B <;> simp [moves]
    | cons a' A =>
      have e : moves (a :: a' :: A ++ .nan :: B) = (a, a') :: moves (a' :: A ++ .nan :: B) := by
        simp [moves]
      rw [e, ih]
      simp [moves]

theorem rises_nan (S : FloatSem) (A B : List Fl) :
    rises S (A ++ .nan :: B) = rises S A ++ rises S B := by
  unfold rises
  rw [moves_append_nan]
  have e1 : ((A.getLast?.map fun a => (a, Fl.nan)).toList.filter fun m => Fl.lt m.1 m.2) = [] := by
    cases A.getLast? with
    | none => rfl
    | some a => cases a <;> rfl
  have e2 : ((B.head?.map fun b => (Fl.nan, b)).toList.filter fun m => Fl.lt m.1 m.2) = [] := by
    cases B.head? with
    | none => rfl
    | some a => cases a <;> rfl
  simp only [List.filter_append, e1, e2, List.append_nil, List.map_append]

theorem falls_nan (S : FloatSem) (A B : List Fl) :
    falls S (A ++ .nan :: B) = falls S A ++ falls S B := by
  unfold falls
  rw [moves_append_nan]
  have e1 : ((A.getLast?.map fun a => (a, Fl.nan)).toList.filter fun m => Fl.lt m.2 m.1) = [] := by
    cases A.getLast? with
    | none => rfl
    | some a => cases a <;> rfl
  have e2 : ((B.head?.map fun b => (Fl.nan, b)).toList.filter fun m => Fl.lt m.2 m.1) = [] := by
    cases B.head? with
    | none => rfl
    | some a => cases a <;> rfl
  simp only [List.filter_append, e1, e2, List.append_nil, List.map_append]

/-- **C177.** RSI: a NaN close within a window hides the change to it and the change from it, and
nothing else: the value is computed from the rises and falls before and behind it. -/
theorem C177_rsi (S : FloatSem) (cs spare : List Candle) (h14 : 14 ≤ cs.length)
    (hs : spare ≠ []) (n : Nat) (hn : n ≤ cs.length) :
    ∃ out, RSI S (some cs) spare n = .ok out ∧ out.length = cs.length - n + 1 ∧
      ∀ k A B, k < out.length → window (cs ++ spare) k n = A ++ .nan :: B →
        let U := fsum S (rises S A ++ rises S B)
        let D := fsum S (falls S A ++ falls S B)
        out[k]? = some (S.to32 (S.sub (S.const 100)
          (S.div (S.const 100) (S.add (S.const 1) (S.div U D))))) := by
  obtain ⟨out, e, hl, hv⟩ := C78_rsi_windows S cs spare h14 hs n hn
  refine ⟨out, e, hl, ?_⟩
  intro k A B hk hw
  have := hv k hk
  simp only [hw, rises_nan, falls_nan] at this
  exact this

theorem rightScan_nan {t : FractalType} {third : Candle} (h : (match t with | .up => third.high | .down => third.low) = .nan)
    (l : List Candle) : rightScan t third 0 l = true := by
  induction l with
  | nil => rfl
  | cons c l ih =>
    unfold rightScan
    rw [if_neg (by decide)]
    cases t with
    | up =>
      simp only at h ⊢
      rw [h] at *
      have e1 : Fl.gt c.high .nan = false := by cases c.high <;> rfl
      have e2 : Fl.lt c.high .nan = false := by cases c.high <;> rfl
      rw [e1, e2]
      simpa using ih
    | down =>
      simp only at h ⊢
      rw [h] at *
      have e1 : Fl.lt c.low .nan = false := by cases c.low <;> rfl
      have e2 : Fl.gt c.low .nan = false := by cases c.low <;> rfl
      rw [e1, e2]
      simpa using ih

theorem findFractal_nan {cs : List Candle} {i : Nat} {c : Candle} {t : FractalType} (hi : 2 ≤ i)
    (hc : cs[i]? = some c) (h : (match t with | .up => c.high | .down => c.low) = .nan) :
    findFractal cs (i - 2) t = some ⟨c.time, .nan, t⟩ := by
  have hlt := (List.getElem?_eq_some_iff.1 hc).1
  have hci := (List.getElem?_eq_some_iff.1 hc).2
  unfold findFractal
  rw [List.drop_eq_getElem_cons (by omega), List.drop_eq_getElem_cons (by omega),
    List.drop_eq_getElem_cons (by omega)]
  simp only [show i - 2 + 1 + 1 = i by omega, hci]
  have l1 : ∀ d, leftFails t c d = false := by
    intro d
    unfold leftFails
    cases t with
    | up => simp only at h ⊢; rw [h]; cases d.high <;> rfl
    | down => simp only at h ⊢; rw [h]; cases d.low <;> rfl
  rw [l1, l1, rightScan_nan h]
  cases t <;> simp only at h ⊢ <;> rw [h] <;> rfl

/-- **C177.** A candle with a NaN high that has two candles on each side is always reported as an
up fractal with price NaN; one with a NaN low as a down fractal. -/
theorem C177_fractals (cs : List Candle) {i : Nat} {c : Candle} (hi : 2 ≤ i) (hi' : i + 2 < cs.length)
    (hc : cs[i]? = some c) :
    (c.high = .nan → (⟨c.time, .nan, .up⟩ : WilliamFractal) ∈ williamFractals cs) ∧
    (c.low = .nan → (⟨c.time, .nan, .down⟩ : WilliamFractal) ∈ williamFractals cs) := by
  unfold williamFractals
  rw [if_neg (by omega)]
  simp only [List.mem_flatMap, List.mem_range]
  refine ⟨fun h => ⟨i - 2, by omega, ?_⟩, fun h => ⟨i - 2, by omega, ?_⟩⟩
  · unfold findFractals
    rw [mem_sortByTime, findFractal_nan (t := .up) hi hc h]
    simp
  · unfold findFractals
    rw [mem_sortByTime, findFractal_nan (t := .down) hi hc h]
    simp

/-- The candle with a NaN high lowered to minus infinity and a NaN low raised to plus infinity. -/
def Spec.withoutNaN (c : Candle) : Candle :=
  { c with high := if c.high = .nan then .inf true else c.high
           low := if c.low = .nan then .inf false else c.low }

theorem highLoop_withoutNaN (acc : Fl) (l : List Candle) :
    highLoop acc (l.map withoutNaN) = highLoop acc l := by
  induction l generalizing acc with
  | nil => rfl
  | cons v l ih =>
    simp only [List.map_cons, highLoop, ih]
    congr 1
    by_cases h : v.high = .nan
    · have e1 : Fl.gt (.inf true) acc = false := by
        rw [Bool.eq_false_iff]
        intro hc
        obtain ⟨h1, _, h3⟩ := Fl.lt_iff.1 hc
        revert h1 h3
        cases acc <;> simp [Fl.key]
      have e2 : Fl.gt .nan acc = false := by cases acc <;> rfl
      simp [withoutNaN, h, e1, e2]
    · simp only [withoutNaN, h, if_false]

theorem lowLoop_withoutNaN (acc : Fl) (l : List Candle) :
    lowLoop acc (l.map withoutNaN) = lowLoop acc l := by
  induction l generalizing acc with
  | nil => rfl
  | cons v l ih =>
    simp only [List.map_cons, lowLoop, ih]
    congr 1
    by_cases h : v.low = .nan
    · have e1 : Fl.lt (.inf false) acc = false := by
        rw [Bool.eq_false_iff]
        intro hc
        obtain ⟨_, h1, h3⟩ := Fl.lt_iff.1 hc
        revert h1 h3
        cases acc <;> simp [Fl.key]
      have e2 : Fl.lt .nan acc = false := by cases acc <;> rfl
      simp [withoutNaN, h, e1, e2]
    · simp only [withoutNaN, h, if_false]

theorem volumeLoop_withoutNaN (S : FloatSem) (acc : Fl) (l : List Candle) :
    volumeLoop S acc (l.map withoutNaN) = volumeLoop S acc l := by
  induction l generalizing acc with
  | nil => rfl
  | cons v l ih => exact ih _

theorem compressCandle_withoutNaN (S : FloatSem) (cs : List Candle) (a b : Nat) :
    compressCandle S (cs.map withoutNaN) a b = compressCandle S cs a b := by
  unfold compressCandle
  rw [List.getElem?_map, List.getElem?_map]
  cases cs[a]? with
  | none => rfl
  | some x =>
    cases cs[b - 1]? with
    | none => rfl
    | some y =>
      simp only [Option.map_some, List.length_map]
      rw [← List.map_drop, ← List.map_take, highLoop_withoutNaN, lowLoop_withoutNaN,
        volumeLoop_withoutNaN]
      rfl

theorem resampleLoop_withoutNaN (S : FloatSem) (cs : List Candle) (m p : Int) (vs : List Candle)
    (i st : Nat) (acc : List Candle) :
    resampleLoop S (cs.map withoutNaN) m p (vs.map withoutNaN) i st acc = resampleLoop S cs m p vs i st acc := by
  induction vs generalizing i st acc with
  | nil => rfl
  | cons v vs ih =>
    simp only [List.map_cons, resampleLoop]
    rw [show isBoundary S m p (withoutNaN v) = isBoundary S m p v from rfl, compressCandle_withoutNaN]
    cases isBoundary S m p v with
    | none => rfl
    | some b =>
      cases b with
      | false => exact ih _ _ _
      | true =>
        cases compressCandle S cs st i with
        | ok c => exact ih _ _ _
        | err e c => rfl
        | panic => rfl

/-- **C177.** Resampling skips NaN highs and lows: the result is the one with each NaN high replaced by
minus infinity and each NaN low by plus infinity (a single candle is returned as it is). -/
theorem C177_resample (S : FloatSem) (minute : Int → Int) (cs : List Candle) (interval : Int)
    (h1 : cs.length ≠ 1) :
    modifyInterval S minute cs interval = modifyInterval S minute (cs.map withoutNaN) interval := by
  unfold modifyInterval
  rw [List.length_map, if_neg h1, if_neg h1]
  match cs with
  | [] => rfl
  | [_] => exact absurd rfl h1
  | c0 :: c1 :: rest =>
    have hf : findFirstIndex minute ((c0 :: c1 :: rest).map withoutNaN) interval =
        findFirstIndex minute (c0 :: c1 :: rest) interval := by
      unfold findFirstIndex
      rw [List.findIdx?_map]
      rfl
    have hm : (c0 :: c1 :: rest).map withoutNaN =
        withoutNaN c0 :: withoutNaN c1 :: rest.map withoutNaN := rfl
    have e0 : (withoutNaN c0).time = c0.time := rfl
    have e1 : (withoutNaN c1).time = c1.time := rfl
    rw [hm]
    simp only [e0, e1]
    rw [← hm, hf]
    generalize c0 :: c1 :: rest = cs
    simp only [List.getElem?_map, ← List.map_drop]
    split
    · rfl
    split
    · rfl
    split
    · rfl
    cases findFirstIndex minute cs interval with
    | err e v => rfl
    | panic => rfl
    | ok first =>
      simp only
      cases hp : cs[first]? with
      | none => rfl
      | some p =>
        simp only [Option.map_some, show (withoutNaN p).time = p.time from rfl,
          resampleLoop_withoutNaN, compressCandle_withoutNaN]

/-- **C177.** Volumes: the resampled candle of a group with a NaN volume has volume NaN. -/
theorem C177_resample_volume (S : FloatSem) (minute : Int → Int) (cs : List Candle) (interval : Int)
    (out : List Candle) (hlen : 2 ≤ cs.length) (h : modifyInterval S minute cs interval = .ok out) :
    ∃ groups : List (List Candle),
      cs = cs.takeWhile (fun c => decide (¬ Aligned minute interval c)) ++ groups.flatten ∧
      List.Forall₂ (fun g c => Summary S g c ∧ ((∃ d ∈ g, d.volume = .nan) → c.volume = .nan)) groups out := by
  obtain ⟨groups, hs, _, _, hf, _⟩ := C25_retained S minute cs interval out hlen h
  refine ⟨groups, hs, hf.imp ?_⟩
  intro g c hg
  refine ⟨hg, ?_⟩
  rintro ⟨d, hd, hn⟩
  have hv := hg.volume
  have : volumeSum S g = .nan := by
    unfold volumeSum
    refine foldl_add_mem_nan S ?_ _
    rw [← hn]
    exact List.mem_map_of_mem (f := fun c : Candle => c.volume) hd
  rw [this] at hv
  rcases hv with ⟨_, hv⟩ | ⟨hv, _⟩
  · exact hv
  · cases hv

/-- Six candles; the third has a NaN high and a NaN close, the fifth a NaN volume. -/
def nanCandles : List Candle :=
  [⟨0, .fin 1, .fin 4, .fin 1, .fin 2, .fin 1⟩, ⟨60, .fin 1, .fin 5, .fin 1, .fin 3, .fin 1⟩,
   ⟨120, .fin 1, .nan, .fin 1, .nan, .fin 1⟩, ⟨180, .fin 1, .fin 6, .fin 1, .fin 4, .fin 1⟩,
   ⟨240, .fin 1, .fin 3, .fin 1, .fin 5, .nan⟩, ⟨300, .fin 1, .fin 2, .fin 1, .fin 6, .fin 1⟩]

example : movingAverage ieee (some nanCandles) 2 =
      .ok [.fin (5 / 2), .nan, .nan, .fin (9 / 2), .fin (11 / 2)] ∧
    exponentialMovingAverage ieee (some nanCandles) 1 = .ok [.fin 2, .nan, .nan, .nan, .nan] ∧
    exponentialMovingAverage FloatSem.exact (some nanCandles) 2 =
      .ok [.fin (5 / 2), .fin (7 / 2), .fin (9 / 2), .fin (11 / 2)] ∧
    smoothedMovingAverage ieee (some nanCandles) 2 = .ok [.fin (5 / 2), .nan, .nan, .nan, .nan] ∧
    exponentialWeightedVolatility ieee nanCandles (.fin (1 / 2)) = .nan ∧
    williamFractals nanCandles = [⟨120, .nan, .up⟩, ⟨180, .fin 6, .up⟩] ∧
    modifyInterval ieee utcMinute nanCandles 3 =
      .ok [⟨0, .fin 1, .fin 5, .fin 1, .nan, .fin 3⟩, ⟨180, .fin 1, .fin 6, .fin 1, .fin 6, .nan⟩] := by
  decide +kernel

/-- Fifteen candles with one NaN close in the middle, and one spare. -/
def nanRSI : List Candle :=
  (List.range 15).map fun i : Nat => ⟨60 * (i : Int), .fin 1, .fin 1, .fin 1, if i = 7 then .nan else .fin ((i * i % 5 : Nat) : ℚ), .fin 1⟩

example : nanRSI.length = 15 ∧ window (nanRSI ++ [⟨900, .fin 1, .fin 1, .fin 1, .fin 2, .fin 1⟩]) 0 14 =
    window nanRSI 0 6 ++ .nan :: window nanRSI 8 6 ∧
    RSI FloatSem.exact (some nanRSI) [⟨900, .fin 1, .fin 1, .fin 1, .fin 2, .fin 1⟩] 14 =
      .ok [.fin 45, .fin 45] := by
  decide +kernel

end Finmod
