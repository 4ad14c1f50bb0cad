import Verif.Model.Shared

/-!
# Programs that read, against the functions of lists
-/

namespace Finmod.Shared
open Go

/-- The program reads only elements of `l`, and then gives `r`. -/
inductive Reads {α R : Type} (l : List α) : Prog α R → R → Prop
  | done (r : R) : Reads l (.done r) r
  | read {i : Nat} {k : α → Prog α R} {a : α} {r : R} : l[i]? = some a → Reads l (k a) r → Reads l (.read i k) r

variable {α R Q : Type} {l : List α}

theorem Reads.exec {p : Prog α R} {r : R} (h : Reads l p r) {mem : Nat → Nat → α}
    (hm : ∀ t i a, l[i]? = some a → mem t i = a) (t : Nat) : p.exec mem t = r := by
  induction h generalizing t with
  | done r => rfl
  | read ha _ ih => rw [Prog.exec, hm t _ _ ha]; exact ih (t + 1)

theorem Reads.bind {p : Prog α R} {r : R} {f : R → Prog α Q} {q : Q} (h : Reads l p r) (hf : Reads l (f r) q) :
    Reads l (p.bind f) q := by
  induction h with
  | done r => exact hf
  | read ha _ ih => exact .read ha (ih hf)

theorem Reads.to {p : Prog α R} {r r' : R} (h : Reads l p r) (e : r = r') : Reads l p r' := e ▸ h

/-- Reading the element with index `i`. -/
theorem drop_at {i : Nat} (h : i < l.length) : ∃ a, l[i]? = some a ∧ l.drop i = a :: l.drop (i + 1) :=
  ⟨l[i], by simp, by rw [List.drop_eq_getElem_cons h]⟩

variable {S : FloatSem} {cs : List Candle}

theorem reads_sum (n : Nat) : ∀ (acc : Fl) (i : Nat), i + n ≤ cs.length →
    Reads cs (sumP S acc i n) (((cs.drop i).take n).foldl (fun s c => S.add s c.close) acc) := by
  induction n with
  | zero => intro acc i _; exact .done _
  | succ n ih =>
    intro acc i h
    obtain ⟨a, ha, hd⟩ := drop_at (l := cs) (i := i) (by omega)
    refine .read ha ?_
    rw [hd, List.take_succ_cons, List.foldl_cons]
    exact ih _ _ (by omega)

theorem reads_average {i n : Nat} (h : i + n ≤ cs.length) :
    Reads cs (averageP S i n) (average S ((cs.drop i).take n)) := by
  refine (reads_sum n _ i h).bind ((Reads.done _).to ?_)
  rw [average, List.length_take, List.length_drop, min_eq_left (by omega)]

theorem reads_maLoop (fuel : Nat) : ∀ i j, i ≤ j + 1 → Reads cs (maLoopP S cs.length fuel i j) (maLoop S cs fuel i j) := by
  induction fuel with
  | zero => intro i j _; exact .done _
  | succ fuel ih =>
    intro i j hij
    rw [maLoopP, maLoop]
    split_ifs with h1 h2
    · exact .done _
    · exact .done _
    · refine (reads_average (by omega)).bind ((ih (i + 1) (j + 1) (by omega)).bind ((Reads.done _).to ?_))
      rw [List.drop_take]
      cases maLoop S cs fuel (i + 1) (j + 1) <;> rfl

theorem reads_movingAverage (period : Int) :
    Reads cs (movingAverageP S (some cs.length) period) (movingAverage S (some cs) period) := by
  rw [movingAverageP, movingAverage]
  split_ifs with h1 h2
  · exact .done _
  · exact .done _
  · exact reads_maLoop _ _ _ (by omega)

theorem reads_ema {period : Int} (h1 : period ≤ cs.length) (p : Fl) (n : Nat) :
    ∀ i arr, i + n = cs.length → Reads cs (emaLoopP S period p n i arr)
      (((cs.drop i).zipIdx i).foldl (emaStep S cs period p) arr) := by
  induction n with
  | zero =>
    intro i arr h
    rw [List.drop_of_length_le (by omega)]
    exact .done _
  | succ n ih =>
    intro i arr h
    obtain ⟨a, ha, hd⟩ := drop_at (l := cs) (i := i) (by omega)
    rw [emaLoopP, hd, List.zipIdx_cons, List.foldl_cons, emaStep]
    split_ifs with h2
    · exact ih (i + 1) arr (by omega)
    · cases hl : arr.getLast? with
      | none =>
        refine (reads_average (i := 0) (n := period.toNat) (by omega)).bind ?_
        rw [List.drop_zero]
        exact ih (i + 1) _ (by omega)
      | some last => exact .read ha (ih (i + 1) _ (by omega))

theorem reads_exponential (period : Int) :
    Reads cs (exponentialMovingAverageP S (some cs.length) period) (exponentialMovingAverage S (some cs) period) := by
  rw [exponentialMovingAverageP, exponentialMovingAverage]
  split_ifs with h1 h2
  · exact .done _
  · exact .done _
  · exact (reads_ema (by omega) _ _ 0 [] (by omega)).bind ((Reads.done _).to (by rw [List.drop_zero]))

theorem reads_closingSum {len : Nat} (hl : len ≤ cs.length) {period : Int} (hp : 0 < period) :
    Reads cs (closingSumP S len period) (closingSum S (cs.take len) period) := by
  have e : (cs.take len).length = len := by simp; omega
  rw [closingSumP, closingSum, e]
  split_ifs with h
  · exact .done _
  · refine (reads_sum _ _ _ (by omega)).bind ((Reads.done _).to ?_)
    rw [List.drop_take]
    congr 4
    omega

theorem reads_smma {period : Int} (hp : 0 < period) (n : Nat) :
    ∀ i arr, i + n = cs.length → Reads cs (smmaLoopP S period n i arr)
      (((cs.drop i).zipIdx i).foldl (smmaStep S cs period) (some arr)) := by
  have hnone : ∀ l : List (Candle × Nat), l.foldl (smmaStep S cs period) none = none := by
    intro l; induction l with
    | nil => rfl
    | cons x l ih => rw [List.foldl_cons]; exact ih
  induction n with
  | zero =>
    intro i arr h
    rw [List.drop_of_length_le (by omega)]
    exact .done _
  | succ n ih =>
    intro i arr h
    obtain ⟨a, ha, hd⟩ := drop_at (l := cs) (i := i) (by omega)
    rw [smmaLoopP, hd, List.zipIdx_cons, List.foldl_cons, smmaStep]
    split_ifs with h2
    · exact ih (i + 1) arr (by omega)
    · refine (reads_closingSum (len := i + 1) (by omega) hp).bind ?_
      cases closingSum S (cs.take (i + 1)) period with
      | none => exact (Reads.done _).to (hnone _).symm
      | some sum =>
        match arr with
        | [] => exact ih (i + 1) _ (by omega)
        | [_] => exact .read ha (ih (i + 1) _ (by omega))
        | x :: y :: r =>
          simp only
          cases (x :: y :: r).getLast? with
          | none => exact ih (i + 1) _ (by omega)
          | some prev => exact .read ha (ih (i + 1) _ (by omega))

theorem reads_smoothed (period : Int) :
    Reads cs (smoothedMovingAverageP S (some cs.length) period) (smoothedMovingAverage S (some cs) period) := by
  rw [smoothedMovingAverageP, smoothedMovingAverage]
  split_ifs with h1 h2
  · exact .done _
  · exact .done _
  · refine (reads_smma (by omega) _ 0 [] (by omega)).bind ((Reads.done _).to ?_)
    rw [List.drop_zero]
    cases cs.zipIdx.foldl (smmaStep S cs period) (some []) <;> rfl

theorem reads_ewv (beta : Fl) (n : Nat) : ∀ v i, i + n = cs.length →
    Reads cs (ewvLoopP S beta v i n) ((cs.drop i).foldl (ewvStep S beta) v) := by
  induction n with
  | zero =>
    intro v i h
    rw [List.drop_of_length_le (by omega)]
    exact .done _
  | succ n ih =>
    intro v i h
    obtain ⟨a, ha, hd⟩ := drop_at (l := cs) (i := i) (by omega)
    rw [hd, List.foldl_cons]
    exact .read ha (ih _ _ (by omega))

theorem reads_volatility (beta : Fl) :
    Reads cs (volatilityP S cs.length beta) (exponentialWeightedVolatility S cs beta) :=
  (reads_ewv beta cs.length (.fin 0) 0 (by omega)).to (by rw [List.drop_zero]; rfl)

theorem reads_rsiSums (n : Nat) : ∀ (up down : Fl) (i : Nat) (b : Candle), cs[i]? = some b → i + 1 + n ≤ cs.length →
    Reads cs (rsiSumsP S up down (i + 1) n) (rsiSums S up down b.close ((cs.drop (i + 1)).take n)) := by
  induction n with
  | zero => intro up down i b _ _; exact .done _
  | succ n ih =>
    intro up down i b hb h
    obtain ⟨a, ha, hd⟩ := drop_at (l := cs) (i := i + 1) (by omega)
    rw [hd, List.take_succ_cons, rsiSums]
    have hb' : cs[i + 1 - 1]? = some b := hb
    refine .read ha (.read hb' ?_)
    split_ifs with h1 h2
    · exact .read ha (.read hb' (ih _ _ _ _ ha (by omega)))
    · refine .read ha (.read hb' ?_)
      rw [if_pos h2]
      exact .read hb' (.read ha (ih _ _ _ _ ha (by omega)))
    · refine .read ha (.read hb' ?_)
      rw [if_neg h2]
      exact ih _ _ _ _ ha (by omega)

theorem reads_calculateRSI {i n : Nat} (h : i + n ≤ cs.length) :
    Reads cs (calculateRSIP S i n) (calculateRSI S ((cs.drop i).take n)) := by
  cases n with
  | zero => exact Reads.done _
  | succ n =>
    obtain ⟨a, ha, hd⟩ := drop_at (l := cs) (i := i) (by omega)
    refine (reads_rsiSums n _ _ i a ha (by omega)).bind ((Reads.done _).to ?_)
    rw [hd, List.take_succ_cons, calculateRSI]

/-- `RSI` reads one element behind its candles if there is one. -/
theorem reads_rsiLoop (len : Nat) (arr : List Candle) (hl : len ≤ arr.length) (fuel : Nat) :
    ∀ i (j : Int) acc, j ≤ len → Reads (arr.take (len + 1)) (rsiLoopP S arr.length len fuel i j acc)
      (rsiLoop S arr len fuel i j acc) := by
  induction fuel with
  | zero => intro i j acc _; exact .done _
  | succ fuel ih =>
    intro i j acc hj
    rw [rsiLoopP, rsiLoop]
    split_ifs with h1 h2
    · exact .done _
    · have hlen : (arr.take (len + 1)).length = min (len + 1) arr.length := by simp
      refine (reads_calculateRSI (by rw [hlen]; omega)).bind ?_
      have e : ((arr.take (len + 1)).drop i).take ((j + 2).toNat - i) = (arr.take (j + 2).toNat).drop i := by
        rw [List.drop_take, List.drop_take, List.take_take, min_eq_left (by omega)]
      rw [e]
      exact ih _ _ _ (by omega)
    · exact .done _

theorem reads_left (t : FractalType) (third : Candle) {i : Nat} (h : i + 2 ≤ cs.length) :
    ∃ c0 c1, cs.drop i = c0 :: c1 :: cs.drop (i + 2) ∧
      Reads cs (leftP t third i 2) (leftFails t third c0 || leftFails t third c1) := by
  obtain ⟨c0, h0, d0⟩ := drop_at (l := cs) (i := i) (by omega)
  obtain ⟨c1, h1, d1⟩ := drop_at (l := cs) (i := i + 1) (by omega)
  refine ⟨c0, c1, by rw [d0, d1], .read h0 ?_⟩
  cases e0 : leftFails t third c0 with
  | true => exact .done _
  | false =>
    refine .read h1 ?_
    cases e1 : leftFails t third c1 <;> exact .done _

theorem reads_right (t : FractalType) (third : Candle) (n : Nat) : ∀ count i, i + n = cs.length →
    Reads cs (rightP t third count i n) (rightScan t third count (cs.drop i)) := by
  induction n with
  | zero =>
    intro count i h
    rw [List.drop_of_length_le (by omega)]
    exact .done _
  | succ n ih =>
    intro count i h
    obtain ⟨a, ha, hd⟩ := drop_at (l := cs) (i := i) (by omega)
    cases t with
    | up =>
      rw [rightP, hd, rightScan.eq_def]
      dsimp only
      by_cases h2 : count = 2
      · rw [if_pos h2, if_pos h2]; exact .done _
      rw [if_neg h2, if_neg h2]
      refine .read ha ?_
      by_cases g1 : Fl.gt a.high third.high = true
      · rw [if_pos g1, if_pos g1]; exact .done _
      rw [if_neg g1, if_neg g1]
      refine .read ha ?_
      by_cases g2 : Fl.lt a.high third.high = true
      · rw [if_pos g2, if_pos g2]; exact ih _ _ (by omega)
      · rw [if_neg g2, if_neg g2]; exact ih _ _ (by omega)
    | down =>
      rw [rightP, hd, rightScan.eq_def]
      dsimp only
      by_cases h2 : count = 2
      · rw [if_pos h2, if_pos h2]; exact .done _
      rw [if_neg h2, if_neg h2]
      refine .read ha ?_
      by_cases g1 : Fl.lt a.low third.low = true
      · rw [if_pos g1, if_pos g1]; exact .done _
      rw [if_neg g1, if_neg g1]
      refine .read ha ?_
      by_cases g2 : Fl.gt a.low third.low = true
      · rw [if_pos g2, if_pos g2]; exact ih _ _ (by omega)
      · rw [if_neg g2, if_neg g2]; exact ih _ _ (by omega)

theorem reads_findFractal (t : FractalType) {i : Nat} (h : i + 5 ≤ cs.length) :
    Reads cs (findFractalP cs.length i t) (findFractal cs i t) := by
  obtain ⟨third, h2, d2⟩ := drop_at (l := cs) (i := i + 2) (by omega)
  obtain ⟨c0, c1, hd, hl⟩ := reads_left t third (i := i) (cs := cs) (by omega)
  rw [findFractal, hd, d2]
  refine .read h2 (hl.bind ?_)
  simp only
  split_ifs with e g
  · exact .done _
  · exact (reads_right t third _ 0 (i + 3) (by omega)).bind ((Reads.done _).to (by rw [if_pos g]; cases t <;> rfl))
  · exact (reads_right t third _ 0 (i + 3) (by omega)).bind ((Reads.done _).to (by rw [if_neg g]))

theorem reads_findFractals {i : Nat} (h : i + 5 ≤ cs.length) :
    Reads cs (findFractalsP cs.length i) (findFractals cs i) :=
  (reads_findFractal .up h).bind ((reads_findFractal .down h).bind (.done _))

theorem reads_fractalLoop (n : Nat) : ∀ i, i + n + 4 ≤ cs.length →
    Reads cs (fractalLoopP cs.length i n) ((List.range' i n).flatMap (findFractals cs)) := by
  induction n with
  | zero => intro i _; exact .done _
  | succ n ih =>
    intro i h
    rw [List.range'_succ, List.flatMap_cons]
    exact (reads_findFractals (by omega)).bind ((ih (i + 1) (by omega)).bind (.done _))

theorem reads_williamFractals : Reads cs (williamFractalsP cs.length) (williamFractals cs) := by
  rw [williamFractalsP, williamFractals]
  split_ifs with h
  · exact .done _
  · exact (reads_fractalLoop _ 0 (by omega)).to (by rw [List.range_eq_range'])

theorem reads_minDiff (n : Nat) : ∀ (acc : Fl) (k : Nat), k + 1 + n = cs.length →
    Reads cs (minDiffP S acc (k + 1) n) (minDiffLoop S (cs.drop k) acc) := by
  induction n with
  | zero =>
    intro acc k h
    obtain ⟨a, ha, hd⟩ := drop_at (l := cs) (i := k) (by omega)
    rw [hd, List.drop_of_length_le (by omega)]
    exact .done _
  | succ n ih =>
    intro acc k h
    obtain ⟨a, ha, hd⟩ := drop_at (l := cs) (i := k) (by omega)
    obtain ⟨b, hb, hd'⟩ := drop_at (l := cs) (i := k + 1) (by omega)
    rw [hd, hd', minDiffLoop, ← hd']
    exact .read hb (.read (i := k + 1 - 1) ha (ih _ _ (by omega)))

theorem reads_getMinInterval : Reads cs (getMinIntervalP S cs.length) (getMinInterval S cs) := by
  match cs with
  | [] => exact Reads.done _
  | c :: r =>
    exact (reads_minDiff (cs := c :: r) r.length _ 0 (by simp; omega)).bind (.done _)

theorem reads_group (n : Nat) : ∀ (high low vol : Fl) (i : Nat), i + n ≤ cs.length →
    Reads cs (groupP S high low vol i n) (highLoop high ((cs.drop i).take n), lowLoop low ((cs.drop i).take n),
      volumeLoop S vol ((cs.drop i).take n)) := by
  induction n with
  | zero => intro high low vol i _; exact .done _
  | succ n ih =>
    intro high low vol i h
    obtain ⟨a, ha, hd⟩ := drop_at (l := cs) (i := i) (by omega)
    rw [hd, List.take_succ_cons, highLoop, lowLoop, volumeLoop]
    exact .read ha (ih _ _ _ _ (by omega))

theorem reads_compress (start stop : Nat) : Reads cs (compressP S cs.length start stop) (compressCandle S cs start stop) := by
  rw [compressP, compressCandle]
  by_cases h : start < cs.length ∧ stop - 1 < cs.length
  · rw [if_pos h]
    obtain ⟨a, ha, -⟩ := drop_at (l := cs) (i := start) h.1
    obtain ⟨c, hc, -⟩ := drop_at (l := cs) (i := stop - 1) h.2
    rw [ha, hc]
    refine .read ha (.read ha (.read hc ?_))
    dsimp only
    by_cases h' : start ≤ stop ∧ stop ≤ cs.length
    · rw [if_pos h', if_pos h']
      refine (reads_group _ _ _ _ _ (by omega)).bind ((Reads.done _).to ?_)
      dsimp only
      cases fixed5 S (volumeLoop S (.fin 0) ((cs.drop start).take (stop - start))) <;> rfl
    · rw [if_neg h', if_neg h']; exact .done _
  · rw [if_neg h]
    refine (Reads.done _).to ?_
    by_cases h1 : start < cs.length
    · rw [List.getElem?_eq_none (i := stop - 1) (by omega)]
      cases cs[start]? <;> rfl
    · rw [List.getElem?_eq_none (i := start) (by omega)]

theorem reads_first (minute : Int → Int) (mi : Int) (n : Nat) : ∀ i, i + n = cs.length →
    Reads cs (firstP minute mi i n) (((cs.drop i).findIdx? (isAligned minute mi)).map (· + i)) := by
  induction n with
  | zero =>
    intro i h
    rw [List.drop_of_length_le (by omega)]
    exact .done _
  | succ n ih =>
    intro i h
    obtain ⟨a, ha, hd⟩ := drop_at (l := cs) (i := i) (by omega)
    rw [hd, List.findIdx?_cons]
    refine .read ha ?_
    split_ifs with g
    · exact (Reads.done _).to (by simp)
    · refine (ih (i + 1) (by omega)).to ?_
      cases (cs.drop (i + 1)).findIdx? (isAligned minute mi) <;> simp [Nat.add_assoc, Nat.add_comm 1]

theorem reads_resample (mi pivot : Int) (n : Nat) : ∀ (idx start : Nat) (acc : List Candle), idx + n = cs.length →
    Reads cs (resampleP S cs.length mi pivot n idx start acc) (resampleLoop S cs mi pivot (cs.drop idx) idx start acc) := by
  induction n with
  | zero =>
    intro idx start acc h
    rw [List.drop_of_length_le (by omega)]
    exact .done _
  | succ n ih =>
    intro idx start acc h
    obtain ⟨a, ha, hd⟩ := drop_at (l := cs) (i := idx) (by omega)
    rw [hd, resampleLoop]
    refine .read ha ?_
    rcases isBoundary S mi pivot a with _ | _ | _
    · exact .done _
    · exact ih _ _ _ (by omega)
    · refine (reads_compress start idx).bind ?_
      cases compressCandle S cs start idx with
      | ok c => exact ih _ _ _ (by omega)
      | err e v => exact .done _
      | panic => exact .done _

theorem reads_modifyInterval (minute : Int → Int) (mi : Int) (h1 : cs.length ≠ 1) :
    Reads cs (modifyIntervalP S minute cs.length mi) (some (modifyInterval S minute cs mi)) := by
  obtain _ | ⟨c0, _ | ⟨c1, r⟩⟩ := cs
  · exact .done _
  · exact absurd rfl h1
  · unfold modifyIntervalP modifyInterval
    rw [if_neg h1, if_neg h1, if_neg (by simp)]
    refine .read (a := c1) rfl (.read (a := c0) rfl ?_)
    dsimp only
    generalize hcs : c0 :: c1 :: r = cs
    by_cases g1 : idiv (wrap64 (c1.time - c0.time)) 60 ≠ 1 ∧ mi = 1
    · rw [if_pos g1, if_pos g1]; exact .done _
    rw [if_neg g1, if_neg g1]
    by_cases g2 : idiv (wrap64 (c1.time - c0.time)) 60 = 0
    · rw [if_pos g2, if_pos g2]; exact .done _
    rw [if_neg g2, if_neg g2]
    by_cases g3 : imod mi (idiv (wrap64 (c1.time - c0.time)) 60) ≠ 0
    · rw [if_pos g3, if_pos g3]; exact .done _
    · rw [if_neg g3, if_neg g3]
      refine (reads_first minute mi cs.length 0 (by omega)).bind ?_
      rw [List.drop_zero, findFirstIndex]
      cases hf : cs.findIdx? (isAligned minute mi) with
      | none => exact .done _
      | some first =>
        have hlt : first < cs.length := by
          rw [List.findIdx?_eq_some_iff_getElem] at hf; exact hf.1
        obtain ⟨p, hp, -⟩ := drop_at (l := cs) (i := first) hlt
        simp only [Option.map_some, Nat.add_zero, hp]
        refine .read hp ((reads_resample mi p.time _ (first + 1) first [] (by omega)).bind ?_)
        rcases resampleLoop S cs mi p.time (cs.drop (first + 1)) (first + 1) first [] with ⟨acc, start⟩ | ⟨e, v⟩ | _
        · refine (reads_compress start cs.length).bind ((Reads.done _).to ?_)
          dsimp only
          cases compressCandle S cs start cs.length <;> rfl
        · exact .done _
        · exact .done _

theorem reads_write (pick : ℚ → Nat × ℤ) (e : ℤ) (accept : Nat → Nat) (n : Nat) : ∀ i, i + n = cs.length →
    Reads cs (writeP pick e accept i n) (writeLoop pick e accept i (cs.drop i)) := by
  induction n with
  | zero =>
    intro i h
    rw [List.drop_of_length_le (by omega)]
    exact .done _
  | succ n ih =>
    intro i h
    obtain ⟨a, ha, hd⟩ := drop_at (l := cs) (i := i) (by omega)
    rw [hd, writeLoop]
    exact .read ha ((ih (i + 1) (by omega)).bind (.done _))

end Finmod.Shared
