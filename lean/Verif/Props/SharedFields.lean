import Verif.Props.Shared

/-!
# Writes to fields that a function does not look at: C244
-/

namespace Finmod.Shared
open Go Spec

/-- What the program does with an element it does with what `g` leaves of it. -/
def Blind {α R : Type} (g : α → α) : Prog α R → Prop
  | .done _ => True
  | .read _ k => (∀ a, k a = k (g a)) ∧ ∀ a, Blind g (k a)

variable {α R Q : Type} {g : α → α}

theorem Blind.bind {f : R → Prog α Q} (hf : ∀ r, Blind g (f r)) : ∀ {p : Prog α R}, Blind g p → Blind g (p.bind f)
  | .done r, _ => hf r
  | .read _ k, h => ⟨fun a => congrArg (Prog.bind · f) (h.1 a), fun a => Blind.bind hf (h.2 a)⟩

theorem Blind.then {p : Prog α R} {f : R → Q} (h : Blind g p) : Blind g (p.bind fun r => .done (f r)) :=
  Blind.bind (f := fun r => .done (f r)) (fun _ => trivial) h

theorem Blind.exec {mem mem' : Nat → Nat → α} (hm : ∀ s i, g (mem s i) = g (mem' s i)) :
    ∀ {p : Prog α R}, Blind g p → ∀ t, p.exec mem t = p.exec mem' t
  | .done _, _, _ => rfl
  | .read i k, h, t => by
    rw [Prog.exec, Prog.exec, h.1 (mem t i), hm t i, ← h.1 (mem' t i)]
    exact Blind.exec hm (h.2 _) (t + 1)

/-- The memory in which nobody has written to `l`. -/
def restored (l : List α) (mem : Nat → Nat → α) : Nat → Nat → α := fun s i => (l[i]?).getD (mem s i)

theorem restored_undisturbed (l : List α) (mem : Nat → Nat → α) : Undisturbed l (restored l mem) := by
  intro t i a h
  rw [restored, h]; rfl

theorem restored_same {l : List α} {mem : Nat → Nat → α} (h : ∀ t i a, l[i]? = some a → g (mem t i) = g a) (s i : Nat) :
    g (mem s i) = g (restored l mem s i) := by
  unfold restored
  cases e : l[i]? with
  | none => rfl
  | some a => exact h s i a e

/-- Only the close is left. -/
def onlyClose (c : Candle) : Candle := ⟨0, .fin 0, .fin 0, .fin 0, c.close, .fin 0⟩
/-- Only high and low are left. -/
def onlyRange (c : Candle) : Candle := ⟨0, .fin 0, c.high, c.low, .fin 0, .fin 0⟩
/-- Only time, high and low are left. -/
def onlyExtremes (c : Candle) : Candle := ⟨c.time, .fin 0, c.high, c.low, .fin 0, .fin 0⟩
/-- Only the time is left. -/
def onlyTime (c : Candle) : Candle := ⟨c.time, .fin 0, .fin 0, .fin 0, .fin 0, .fin 0⟩

variable {S : FloatSem}

theorem blind_sum : ∀ (n i : Nat) (acc : Fl), Blind onlyClose (sumP S acc i n)
  | 0, _, _ => trivial
  | n + 1, i, _ => ⟨fun _ => rfl, fun _ => blind_sum n (i + 1) _⟩

theorem blind_average (i n : Nat) : Blind onlyClose (averageP S i n) := (blind_sum n i _).then

theorem blind_maLoop {len : Nat} : ∀ (fuel i j : Nat), Blind onlyClose (maLoopP S len fuel i j)
  | 0, _, _ => trivial
  | fuel + 1, i, j => by
    rw [maLoopP]
    split_ifs
    · trivial
    · trivial
    · exact (blind_average i _).bind fun a => (blind_maLoop fuel (i + 1) (j + 1)).then

theorem blind_movingAverage (o : Option Nat) (period : Int) : Blind onlyClose (movingAverageP S o period) := by
  unfold movingAverageP
  split
  · trivial
  · split_ifs
    · trivial
    · trivial
    · exact blind_maLoop ..

theorem blind_emaLoop {period : Int} {p : Fl} : ∀ (n i : Nat) (arr : List Fl), Blind onlyClose (emaLoopP S period p n i arr)
  | 0, _, _ => trivial
  | n + 1, i, arr => by
    rw [emaLoopP]
    split_ifs
    · exact blind_emaLoop n (i + 1) arr
    · split
      · exact (blind_average 0 _).bind fun a => blind_emaLoop n (i + 1) _
      · exact ⟨fun _ => rfl, fun _ => blind_emaLoop n (i + 1) _⟩

theorem blind_exponential (o : Option Nat) (period : Int) : Blind onlyClose (exponentialMovingAverageP S o period) := by
  unfold exponentialMovingAverageP
  split
  · trivial
  · split_ifs
    · trivial
    · trivial
    · exact (blind_emaLoop ..).then

theorem blind_closingSum (len : Nat) (period : Int) : Blind onlyClose (closingSumP S len period) := by
  unfold closingSumP
  split_ifs
  · trivial
  · exact (blind_sum ..).then

theorem blind_smmaLoop {period : Int} : ∀ (n i : Nat) (arr : List Fl), Blind onlyClose (smmaLoopP S period n i arr)
  | 0, _, _ => trivial
  | n + 1, i, arr => by
    rw [smmaLoopP]
    split_ifs
    · exact blind_smmaLoop n (i + 1) arr
    · refine (blind_closingSum _ _).bind fun r => ?_
      split
      · trivial
      · split
        · exact blind_smmaLoop n (i + 1) _
        · exact ⟨fun _ => rfl, fun _ => blind_smmaLoop n (i + 1) _⟩
        · split
          · exact blind_smmaLoop n (i + 1) _
          · exact ⟨fun _ => rfl, fun _ => blind_smmaLoop n (i + 1) _⟩

theorem blind_smoothed (o : Option Nat) (period : Int) : Blind onlyClose (smoothedMovingAverageP S o period) := by
  unfold smoothedMovingAverageP
  split
  · trivial
  · split_ifs
    · trivial
    · trivial
    · exact (blind_smmaLoop ..).then

theorem blind_rsiSums : ∀ (n i : Nat) (up down : Fl), Blind onlyClose (rsiSumsP S up down i n)
  | 0, _, _, _ => trivial
  | n + 1, i, up, down => by
    rw [rsiSumsP]
    refine ⟨fun _ => rfl, fun c => ⟨fun _ => rfl, fun b => ?_⟩⟩
    dsimp only
    split_ifs
    · exact ⟨fun _ => rfl, fun c => ⟨fun _ => rfl, fun b => blind_rsiSums n (i + 1) _ _⟩⟩
    · refine ⟨fun _ => rfl, fun c => ⟨fun _ => rfl, fun b => ?_⟩⟩
      dsimp only
      split_ifs
      · exact ⟨fun _ => rfl, fun c => ⟨fun _ => rfl, fun b => blind_rsiSums n (i + 1) _ _⟩⟩
      · exact blind_rsiSums n (i + 1) _ _

theorem blind_rsiLoop {cap len : Nat} : ∀ (fuel i : Nat) (j : Int) (acc : List Fl), Blind onlyClose (rsiLoopP S cap len fuel i j acc)
  | 0, _, _, _ => trivial
  | fuel + 1, i, j, acc => by
    rw [rsiLoopP]
    split_ifs
    · trivial
    · exact Blind.bind (fun x => blind_rsiLoop fuel (i + 1) (j + 1) _) (blind_rsiSums ..).then
    · trivial

theorem blind_rsi (o : Option (Nat × Nat)) (period : Int) : Blind onlyClose (rsiP S o period) := by
  unfold rsiP
  split
  · trivial
  · split_ifs
    · trivial
    · exact blind_rsiLoop ..

theorem blind_ewv {beta : Fl} : ∀ (n i : Nat) (v : Fl), Blind onlyRange (ewvLoopP S beta v i n)
  | 0, _, _ => trivial
  | n + 1, i, _ => ⟨fun _ => rfl, fun _ => blind_ewv n (i + 1) _⟩

theorem left_only (ty : FractalType) (third : Candle) : ∀ (n i : Nat), leftP ty third i n = leftP ty (onlyExtremes third) i n
  | 0, _ => rfl
  | n + 1, i => by
    rw [leftP, leftP]
    congr 1
    funext c
    rw [left_only ty third n (i + 1)]
    cases ty <;> rfl

theorem right_only (ty : FractalType) (third : Candle) : ∀ (n count i : Nat), rightP ty third count i n = rightP ty (onlyExtremes third) count i n
  | 0, _, _ => rfl
  | n + 1, count, i => by
    rw [rightP, rightP]
    simp only [right_only ty third n]
    rfl

theorem blind_left (ty : FractalType) (third : Candle) : ∀ (n i : Nat), Blind onlyExtremes (leftP ty third i n)
  | 0, _ => trivial
  | n + 1, i => by
    rw [leftP]
    refine ⟨fun c => by cases ty <;> rfl, fun c => ?_⟩
    dsimp only
    split_ifs
    · trivial
    · exact blind_left ty third n (i + 1)

theorem blind_right (ty : FractalType) (third : Candle) : ∀ (n count i : Nat), Blind onlyExtremes (rightP ty third count i n)
  | 0, _, _ => trivial
  | n + 1, count, i => by
    rw [rightP]
    split_ifs
    · trivial
    · refine ⟨fun c => rfl, fun c => ?_⟩
      cases ty
      · dsimp only
        split_ifs
        · trivial
        · exact ⟨fun c => rfl, fun c => blind_right .up third n _ (i + 1)⟩
      · dsimp only
        split_ifs
        · trivial
        · exact ⟨fun c => rfl, fun c => blind_right .down third n _ (i + 1)⟩

theorem blind_find (len start : Nat) (ty : FractalType) : Blind onlyExtremes (findFractalP len start ty) := by
  unfold findFractalP
  refine ⟨fun c => ?_, fun c => (blind_left ..).bind fun l => ?_⟩
  · dsimp only
    rw [left_only, right_only]; rfl
  · split_ifs
    · trivial
    · exact (blind_right ..).then

theorem blind_fractalLoop {len : Nat} : ∀ (n i : Nat), Blind onlyExtremes (fractalLoopP len i n)
  | 0, _ => trivial
  | n + 1, i => by
    rw [fractalLoopP]
    exact ((blind_find ..).bind fun u => (blind_find ..).then).bind fun f => (blind_fractalLoop n (i + 1)).then

theorem blind_fractals (len : Nat) : Blind onlyExtremes (williamFractalsP len) := by
  unfold williamFractalsP
  split_ifs
  · trivial
  · exact blind_fractalLoop ..

theorem blind_minDiff : ∀ (n k : Nat) (acc : Fl), Blind onlyTime (minDiffP S acc k n)
  | 0, _, _ => trivial
  | n + 1, k, _ => ⟨fun _ => rfl, fun _ => ⟨fun _ => rfl, fun _ => blind_minDiff n (k + 1) _⟩⟩

variable {cs spare : List Candle} {mem : Nat → Nat → Candle}

/-- **C244.** The averages, while others write to any fields of the candles but not to the closes. -/
theorem C244_averages (h : ∀ t i c, cs[i]? = some c → (mem t i).close = c.close) (period : Int) (t : Nat) :
    (movingAverageP S (some cs.length) period).exec mem t = movingAverage S (some cs) period ∧
    (exponentialMovingAverageP S (some cs.length) period).exec mem t = exponentialMovingAverage S (some cs) period ∧
    (smoothedMovingAverageP S (some cs.length) period).exec mem t = smoothedMovingAverage S (some cs) period := by
  have hm := restored_same (g := onlyClose) fun t i a e => by rw [onlyClose, h t i a e]; rfl
  rw [(blind_movingAverage _ period).exec hm, (blind_exponential _ period).exec hm, (blind_smoothed _ period).exec hm]
  exact ⟨C197_movingAverage (restored_undisturbed cs mem) period t, C197_exponential (restored_undisturbed cs mem) period t,
    C197_smoothed (restored_undisturbed cs mem) period t⟩

/-- **C244.** `RSI`, while others write to any fields but not to the closes of its candles and of the one behind the slice. -/
theorem C244_rsi (h : ∀ t i c, ((cs ++ spare).take (cs.length + 1))[i]? = some c → (mem t i).close = c.close) (period : Int) (t : Nat) :
    (rsiP S (some (cs.length, (cs ++ spare).length)) period).exec mem t = RSI S (some cs) spare period := by
  have hm := restored_same (g := onlyClose) fun t i a e => by rw [onlyClose, h t i a e]; rfl
  rw [(blind_rsi _ period).exec hm]
  exact C198_rsi_partial (restored_undisturbed _ mem) period t

/-- **C244.** The volatility, while others write to any fields but not to highs and lows. -/
theorem C244_volatility (h : ∀ t i c, cs[i]? = some c → (mem t i).high = c.high ∧ (mem t i).low = c.low) (beta : Fl) (t : Nat) :
    (volatilityP S cs.length beta).exec mem t = exponentialWeightedVolatility S cs beta := by
  have hm := restored_same (g := onlyRange) fun t i a e => by rw [onlyRange, (h t i a e).1, (h t i a e).2]; rfl
  rw [Blind.exec hm (p := volatilityP S cs.length beta) (blind_ewv ..)]
  exact C197_volatility (restored_undisturbed cs mem) beta t

/-- **C244.** `WilliamFractals`, while others write to opens, closes and volumes. -/
theorem C244_fractals (h : ∀ t i c, cs[i]? = some c → (mem t i).time = c.time ∧ (mem t i).high = c.high ∧ (mem t i).low = c.low) (t : Nat) :
    (williamFractalsP cs.length).exec mem t = williamFractals cs := by
  have hm := restored_same (g := onlyExtremes) fun t i a e => by rw [onlyExtremes, (h t i a e).1, (h t i a e).2.1, (h t i a e).2.2]; rfl
  rw [(blind_fractals _).exec hm]
  exact C197_fractals (restored_undisturbed cs mem) t

/-- **C244.** `GetMinInterval`, while others write to any fields but the times. -/
theorem C244_minInterval (h : ∀ t i c, cs[i]? = some c → (mem t i).time = c.time) (t : Nat) :
    (getMinIntervalP S cs.length).exec mem t = getMinInterval S cs := by
  have hm := restored_same (g := onlyTime) fun t i a e => by rw [onlyTime, h t i a e]; rfl
  rw [Blind.exec hm (p := getMinIntervalP S cs.length) (blind_minDiff ..).then]
  exact C197_minInterval (restored_undisturbed cs mem) t

/-- **Example for C244.** Three candles whose open is rewritten all the time. -/
example : (movingAverageP ieee (some 3) 3).exec
    (fun t i => ⟨t, .fin t, .fin 9, .fin 1, .fin (i + 1), .nan⟩) 5 =
    movingAverage ieee (some [⟨0, .fin 0, .fin 9, .fin 1, .fin 1, .fin 0⟩, ⟨0, .fin 0, .fin 9, .fin 1, .fin 2, .fin 0⟩,
      ⟨0, .fin 0, .fin 9, .fin 1, .fin 3, .fin 0⟩]) 3 :=
  (C244_averages (cs := [⟨0, .fin 0, .fin 9, .fin 1, .fin 1, .fin 0⟩, ⟨0, .fin 0, .fin 9, .fin 1, .fin 2, .fin 0⟩,
      ⟨0, .fin 0, .fin 9, .fin 1, .fin 3, .fin 0⟩]) (fun t i c h => by
    match i, h with
    | 0, h => cases h; simp
    | 1, h => cases h; simp; norm_num
    | 2, h => cases h; simp; norm_num
    | n + 3, h => simp at h) 3 5).1

/-- **Example for C244.** Two candles whose close and volume are rewritten all the time; the times are a minute apart. -/
example : (getMinIntervalP ieee 2).exec (fun t i => ⟨60 * i, .fin t, .fin t, .fin t, .fin t, .fin t⟩) 7 =
    getMinInterval ieee [⟨0, .fin 0, .fin 9, .fin 1, .fin 1, .fin 0⟩, ⟨60, .fin 0, .fin 9, .fin 1, .fin 2, .fin 0⟩] :=
  C244_minInterval (cs := [⟨0, .fin 0, .fin 9, .fin 1, .fin 1, .fin 0⟩, ⟨60, .fin 0, .fin 9, .fin 1, .fin 2, .fin 0⟩])
    (fun t i c h => by
      match i, h with
      | 0, h => cases h; rfl
      | 1, h => cases h; rfl
      | n + 2, h => simp at h) 7

/-- **Example for C244.** The same for the volatility, with the times rewritten as well. -/
example : (volatilityP ieee 2 (.fin (1 / 2))).exec (fun t _ => ⟨t, .fin t, .fin 4, .fin 2, .fin t, .fin t⟩) 7 =
    exponentialWeightedVolatility ieee [⟨0, .fin 0, .fin 4, .fin 2, .fin 3, .fin 0⟩, ⟨60, .fin 0, .fin 4, .fin 2, .fin 2, .fin 0⟩]
      (.fin (1 / 2)) :=
  C244_volatility (cs := [⟨0, .fin 0, .fin 4, .fin 2, .fin 3, .fin 0⟩, ⟨60, .fin 0, .fin 4, .fin 2, .fin 2, .fin 0⟩])
    (fun t i c h => by
      match i, h with
      | 0, h => cases h; exact ⟨rfl, rfl⟩
      | 1, h => cases h; exact ⟨rfl, rfl⟩
      | n + 2, h => simp at h) _ 7

/-- **Example for C244.** Six candles, the third with the highest high; opens, closes and volumes are rewritten. -/
example : (williamFractalsP 6).exec
    (fun t i => ⟨60 * i, .fin t, if i = 2 then .fin 9 else .fin 5, .fin 1, .fin t, .nan⟩) 0 =
    williamFractals ((List.range 6).map fun i : Nat => ⟨60 * i, .fin 2, if i = 2 then .fin 9 else .fin 5, .fin 1, .fin 3, .fin 1⟩) :=
  C244_fractals (cs := (List.range 6).map fun i : Nat => ⟨60 * i, .fin 2, if i = 2 then .fin 9 else .fin 5, .fin 1, .fin 3, .fin 1⟩)
    (fun t i c h => by
      rw [List.getElem?_map, Option.map_eq_some_iff] at h
      obtain ⟨j, hj, rfl⟩ := h
      obtain ⟨_, rfl⟩ := List.getElem?_eq_some_iff.1 hj
      simp) 0

/-- **Example for C244.** `RSI` of fifteen candles with one more in the array; times and volumes are rewritten. -/
example : (rsiP ieee (some (15, 16)) 14).exec (fun t i => ⟨t, .fin t, .fin t, .fin t, .fin i, .nan⟩) 3 =
    RSI ieee (some ((List.range 15).map fun i : Nat => ⟨0, .fin 2, .fin 2, .fin 1, .fin i, .fin 1⟩))
      [⟨0, .fin 2, .fin 2, .fin 1, .fin 15, .fin 1⟩] 14 :=
  C244_rsi (cs := (List.range 15).map fun i : Nat => ⟨0, .fin 2, .fin 2, .fin 1, .fin i, .fin 1⟩)
    (spare := [⟨0, .fin 2, .fin 2, .fin 1, .fin 15, .fin 1⟩])
    (fun t i c h => by
      have e : (((List.range 15).map fun i : Nat => (⟨0, .fin 2, .fin 2, .fin 1, .fin i, .fin 1⟩ : Candle)) ++
          [⟨0, .fin 2, .fin 2, .fin 1, .fin 15, .fin 1⟩]) =
          (List.range 16).map fun i : Nat => ⟨0, .fin 2, .fin 2, .fin 1, .fin i, .fin 1⟩ := by
        rw [show 16 = 15 + 1 from rfl, List.range_succ, List.map_append]; rfl
      rw [e, List.take_of_length_le (by simp), List.getElem?_map, Option.map_eq_some_iff] at h
      obtain ⟨j, hj, rfl⟩ := h
      obtain ⟨_, rfl⟩ := List.getElem?_eq_some_iff.1 hj
      simp) 14 3

end Finmod.Shared
