import Verif.Model.Errors
import Verif.Lemmas.Averages
import Verif.Lemmas.CandleFile

/-!
# The functions with error values and those without
-/

namespace Finmod
open Go

variable {α : Type} {S : FloatSem}

theorem plain_tell {f : ErrCode → EzErr} (r : Res α) (hf : ∀ c v, r = .err c v → (f c).code = c) :
    (r.tell f).plain = r := by
  cases r with
  | ok v => rfl
  | err c v => simp only [Res.tell, Out.plain]; rw [hf c v rfl]
  | panic => rfl

theorem tell_err {f : ErrCode → EzErr} {r : Res α} {e : EzErr} {v : α} (h : r.tell f = .err e v) :
    ∃ c, r = .err c v ∧ e = f c := by
  cases r with
  | ok v => cases h
  | err c v => simp only [Res.tell, Out.err.injEq] at h; obtain ⟨rfl, rfl⟩ := h; exact ⟨c, rfl, rfl⟩
  | panic => cases h

theorem err_tell {f : ErrCode → EzErr} {r : Res α} {e : EzErr} {v : α} :
    r.tell f = .err e v ↔ ∃ c, r = .err c v ∧ e = f c := by
  refine ⟨tell_err, ?_⟩
  rintro ⟨c, rfl, rfl⟩; rfl

/-! ### Averages -/

theorem movingAverageE_plain (candles : Option (List Candle)) (period : Int) :
    (movingAverageE S candles period).plain = movingAverage S candles period := by
  unfold movingAverageE movingAverage
  cases candles with
  | none => rfl
  | some cs =>
    simp only
    split_ifs
    · rfl
    · rfl
    · exact plain_tell (f := fun c => .new "" c "") _ fun _ _ _ => rfl

theorem maLoop_not_err (cs : List Candle) (period : Int) (h1 : period ≤ cs.length) (h2 : 0 < period) (c : ErrCode) (v : List Fl) :
    maLoop S cs (cs.length + 1) 0 (period.toNat - 1) ≠ .err c v := by
  rw [maLoop_eq S cs _ _ _ (by omega) (by omega)]; simp

theorem movingAverageE_err {candles : Option (List Candle)} {period : Int} {e : EzErr} {v : List Fl} :
    movingAverageE S candles period = .err e v ↔ v = [] ∧
      (candles = none ∧ e = .new "indicators.MovingAverage" .einvalid "Candle array missing" ∨
       ∃ cs, candles = some cs ∧
        ((cs.length : Int) < period ∧
          e = .new "indicators.MovingAverage" .einvalid "Period argument is larger than the length of candles" ∨
         period ≤ 0 ∧ e = .new "indicators.MovingAverage" .einvalid "Period can't be less than 1")) := by
  unfold movingAverageE
  cases candles with
  | none => simp [eq_comm, and_comm]
  | some cs =>
    simp only [reduceCtorEq, false_and, Option.some.injEq, false_or, exists_eq_left']
    split_ifs with h1 h2
    · have : ¬ period ≤ 0 := by omega
      simp [h1, this, eq_comm, and_comm]
    · simp [h1, h2, eq_comm, and_comm]
    · simp only [h1, h2, false_and, or_self, and_false, iff_false]
      intro h
      obtain ⟨c, hc, -⟩ := tell_err h
      exact maLoop_not_err _ _ (by omega) (by omega) _ _ hc

theorem exponentialMovingAverageE_plain (candles : Option (List Candle)) (period : Int) :
    (exponentialMovingAverageE S candles period).plain = exponentialMovingAverage S candles period := by
  unfold exponentialMovingAverageE exponentialMovingAverage
  cases candles with
  | none => rfl
  | some cs => simp only; split_ifs <;> rfl

theorem exponentialMovingAverageE_err {candles : Option (List Candle)} {period : Int} {e : EzErr} {v : List Fl} :
    exponentialMovingAverageE S candles period = .err e v ↔ v = [] ∧
      (candles = none ∧ e = .new "indicators.ExponentialMovingAverage" .einvalid "Candle array missing" ∨
       ∃ cs, candles = some cs ∧
        ((cs.length : Int) < period ∧
          e = .new "indicators.ExponentialMovingAverage" .einvalid "Period argument is larger than the length of candles" ∨
         period ≤ 0 ∧ e = .new "indicators.ExponentialMovingAverage" .einvalid "Period can't be less than 1")) := by
  unfold exponentialMovingAverageE
  cases candles with
  | none => simp [eq_comm, and_comm]
  | some cs =>
    simp only [reduceCtorEq, false_and, Option.some.injEq, false_or, exists_eq_left']
    split_ifs with h1 h2
    · have : ¬ period ≤ 0 := by omega
      simp [h1, this, eq_comm, and_comm]
    · simp [h1, h2, eq_comm, and_comm]
    · simp [h1, h2]

theorem smoothedMovingAverageE_plain (candles : Option (List Candle)) (period : Int) :
    (smoothedMovingAverageE S candles period).plain = smoothedMovingAverage S candles period := by
  unfold smoothedMovingAverageE smoothedMovingAverage
  cases candles with
  | none => rfl
  | some cs =>
    simp only
    split_ifs
    · rfl
    · rfl
    · cases cs.zipIdx.foldl (smmaStep S cs period) (some []) <;> rfl

theorem smoothedMovingAverageE_err {candles : Option (List Candle)} {period : Int} {e : EzErr} {v : List Fl} :
    smoothedMovingAverageE S candles period = .err e v ↔ v = [] ∧
      (candles = none ∧ e = .new "indicators.SmoothedMovingAverage" .einvalid "Candle array missing" ∨
       ∃ cs, candles = some cs ∧
        ((cs.length : Int) < period ∧
          e = .new "indicators.SmoothedMovingAverage" .einvalid "Period is larger than the amount of candles" ∨
         period ≤ 0 ∧ e = .new "indicators.SmoothedMovingAverage" .einvalid "Period can't be less than 1")) := by
  cases candles with
  | none => simp [smoothedMovingAverageE, eq_comm, and_comm]
  | some cs =>
    simp only [reduceCtorEq, false_and, Option.some.injEq, false_or, exists_eq_left']
    by_cases h1 : (cs.length : Int) < period
    · have : ¬ period ≤ 0 := by omega
      simp [smoothedMovingAverageE, h1, this, eq_comm, and_comm]
    by_cases h2 : period ≤ 0
    · simp [smoothedMovingAverageE, h1, h2, eq_comm, and_comm]
    · simp only [h1, h2, false_and, or_self, and_false, iff_false]
      intro h
      have hp := smoothedMovingAverageE_plain (S := S) (some cs) period
      rw [h] at hp
      obtain ⟨n, rfl⟩ : ∃ n : Nat, period = n := ⟨period.toNat, by omega⟩
      rw [smma_ok S cs n (by omega) (by omega)] at hp
      cases hp

/-! ### RSI -/

theorem rsiLoop_not_err (arr : List Candle) (len : Nat) (c : ErrCode) (v : List Fl) :
    ∀ (fuel i : Nat) (j : Int) (acc : List Fl), rsiLoop S arr len fuel i j acc ≠ .err c v := by
  intro fuel
  induction fuel with
  | zero => intro i j acc; simp [rsiLoop]
  | succ fuel ih =>
    intro i j acc
    unfold rsiLoop
    split_ifs
    · simp
    · exact ih _ _ _
    · simp

theorem RSIE_plain (candles : Option (List Candle)) (spare : List Candle) (period : Int) :
    (RSIE S candles spare period).plain = RSI S candles spare period := by
  unfold RSIE RSI
  cases candles with
  | none => rfl
  | some cs =>
    simp only
    split_ifs
    · rfl
    · exact plain_tell (f := fun c => .new "" c "") _ fun _ _ _ => rfl

theorem RSIE_err {candles : Option (List Candle)} {spare : List Candle} {period : Int} {e : EzErr} {v : List Fl} :
    RSIE S candles spare period = .err e v ↔ v = [] ∧
      (candles = none ∧ e = .new "movingAverage" .einvalid "Candle array missing" ∨
       ∃ cs, candles = some cs ∧ cs.length < 14 ∧
        e = .new "movingAverage" .einvalid "Cannot calculate RSI with less than 14 candles") := by
  unfold RSIE
  cases candles with
  | none => simp [eq_comm, and_comm]
  | some cs =>
    simp only [reduceCtorEq, false_and, Option.some.injEq, false_or, exists_eq_left']
    split_ifs with h1
    · simp [h1, eq_comm, and_comm]
    · simp only [h1, false_and, and_false, iff_false]
      intro h
      obtain ⟨c, hc, -⟩ := tell_err h
      exact rsiLoop_not_err _ _ _ _ _ _ _ _ hc

/-! ### ModifyInterval -/

theorem compressCandle_code {candles : List Candle} {a b : Nat} {c : ErrCode} {v : Candle}
    (h : compressCandle S candles a b = .err c v) : c = .external := by
  unfold compressCandle at h
  split at h
  · split_ifs at h
    · simp only at h
      split at h
      · cases h
      · simp only [Res.err.injEq] at h; exact h.1.symm
  · cases h

theorem resampleLoop_code {candles : List Candle} {mi pivot : Int} {c : ErrCode} {v : List Candle × Nat} :
    ∀ (l : List Candle) (idx start : Nat) (acc : List Candle),
      resampleLoop S candles mi pivot l idx start acc = .err c v → c = .external := by
  intro l
  induction l with
  | nil => intro idx start acc h; cases h
  | cons x l ih =>
    intro idx start acc h
    unfold resampleLoop at h
    split at h
    · cases h
    · split at h
      · exact ih _ _ _ h
      · rename_i e _ he
        simp only [Res.err.injEq] at h
        rw [← h.1]; exact compressCandle_code he
      · cases h
    · exact ih _ _ _ h

theorem findFirstIndex_code {minute : Int → Int} {candles : List Candle} {mi : Int} {c : ErrCode} {v : Nat}
    (h : findFirstIndex minute candles mi = .err c v) : c = .einvalid := by
  unfold findFirstIndex at h
  split at h
  · cases h
  · simp only [Res.err.injEq] at h; exact h.1.symm

theorem modifyIntervalE_plain (minute : Int → Int) (candles : List Candle) (mi : Int) :
    (modifyIntervalE S minute candles mi).plain = modifyInterval S minute candles mi := by
  unfold modifyIntervalE modifyInterval
  split_ifs
  · rfl
  · rcases candles with _ | ⟨c0, _ | ⟨c1, rest⟩⟩
    · rfl
    · rfl
    · simp only
      split_ifs
      · rfl
      · rfl
      · rfl
      · generalize c0 :: c1 :: rest = candles
        cases h1 : findFirstIndex minute candles mi with
        | panic => rfl
        | err c v => rw [findFirstIndex_code h1]; rfl
        | ok first =>
          simp only
          cases candles[first]? with
          | none => rfl
          | some p =>
            simp only
            cases h2 : resampleLoop S candles mi p.time (candles.drop (first + 1)) (first + 1) first [] with
            | panic => rfl
            | err c v => rw [resampleLoop_code _ _ _ _ h2]; rfl
            | ok a =>
              simp only
              cases h3 : compressCandle S candles a.2 candles.length with
              | panic => rfl
              | err c v => rw [compressCandle_code h3]; rfl
              | ok c => rfl

/-! ### Files -/

/-- The outcome for a line, without what was refused. -/
def ParsedE.plain : ParsedE → Parsed
  | .candle c => .candle c
  | .refused _ _ => .refused
  | .panics => .panics

theorem floatFieldE_plain {f : List (List Char)} {i : Nat} {k : Fl → ParsedE} {k' : Fl → Parsed}
    (hk : ∀ x, (k x).plain = k' x) : (floatFieldE S f i k).plain = floatField S f i k' := by
  unfold floatFieldE floatField
  cases f[i]? with
  | none => rfl
  | some t =>
    simp only
    cases parseFloat S t with
    | none => rfl
    | some x => exact hk x

theorem timeFieldE_plain {f : List (List Char)} {k : Int → ParsedE} {k' : Int → Parsed}
    (hk : ∀ x, (k x).plain = k' x) : (timeFieldE f k).plain = timeField f k' := by
  unfold timeFieldE timeField
  cases f[0]? with
  | none => rfl
  | some t =>
    simp only
    cases parseInt 32 t with
    | none => rfl
    | some x => exact hk x

theorem parseLineE_plain (text : List Char) : (parseLineE S text).plain = parseLine S text := by
  unfold parseLineE parseLine
  split_ifs
  · rfl
  · exact timeFieldE_plain fun t => floatFieldE_plain fun o => floatFieldE_plain fun h => floatFieldE_plain fun l =>
      floatFieldE_plain fun c => floatFieldE_plain fun v => rfl

theorem loadLoopE_plain (ls : List (List Char)) (acc : List Candle) : (loadLoopE S acc ls).plain = loadLoop S acc ls := by
  induction ls generalizing acc with
  | nil => rfl
  | cons l ls ih =>
    unfold loadLoopE loadLoop
    split_ifs
    · rfl
    · rw [← parseLineE_plain]
      cases parseLineE S (dropCR l) with
      | candle c => exact ih _
      | refused i t => rfl
      | panics => rfl

theorem loadCandlesE_plain (file : Option (List Char)) : (loadCandlesE S file).plain = loadCandles S file := by
  unfold loadCandlesE loadCandles
  cases file with
  | none => rfl
  | some b => exact loadLoopE_plain _ _

theorem saveCandlesE_plain (pick : ℚ → Nat × ℤ) (eprec : ℤ) (created : Bool) (accept : Nat → Nat)
    (old : Option (List Char)) (cs : List Candle) :
    ((saveCandlesE pick eprec created accept old cs).1.plain, (saveCandlesE pick eprec created accept old cs).2) =
      saveCandles pick eprec created accept old cs := by
  unfold saveCandlesE saveCandles
  split_ifs <;> rfl

/-! ### Order book -/

theorem limit_not_err (b : Book) (c : ErrCode) (v : Book) : b.limit ≠ .err c v := by
  unfold Book.limit
  intro h
  split at h <;> cases h

theorem applyUpdate_err {b : Book} {u : Update} {c : ErrCode} {v : Book} :
    b.applyUpdate u = .err c v ↔ u.side ≠ "ask" ∧ u.side ≠ "bid" ∧ c = .einvalid ∧ v = b := by
  unfold Book.applyUpdate
  constructor
  · intro h
    split_ifs at h with h1 h2 h3 h4
    · exact absurd h (limit_not_err _ _ _)
    · split at h
      · exact absurd h (limit_not_err _ _ _)
      · cases h
    · exact absurd h (limit_not_err _ _ _)
    · split at h
      · exact absurd h (limit_not_err _ _ _)
      · cases h
    · simp only [Res.err.injEq] at h; exact ⟨h1, h3, h.1.symm, h.2.symm⟩
  · rintro ⟨h1, h2, rfl, rfl⟩; simp [h1, h2]

theorem applyUpdateE_plain (b : Book) (u : Update) : (b.applyUpdateE u).plain = b.applyUpdate u :=
  plain_tell _ fun _ _ _ => rfl

theorem getDepth_codes {b : Book} {p : Fl} {c : ErrCode} {v : Fl} (h : b.getDepth p = .err c v) :
    c = .einvalid ∧ Fl.le p (.fin 0) = true ∨ c = .enotfound ∧ Fl.le p (.fin 0) = false := by
  unfold Book.getDepth at h
  split_ifs at h with h1
  · simp only [Res.err.injEq] at h; exact .inl ⟨h.1.symm, h1⟩
  · split at h
    · split_ifs at h
      · split at h
        · split at h <;> cases h
        · cases h
      · split at h
        · split at h <;> cases h
        · cases h
      · simp only [Res.err.injEq] at h; exact .inr ⟨h.1.symm, by simpa using h1⟩
    · cases h

theorem getDepthE_plain (b : Book) (p : Fl) : (b.getDepthE p).plain = b.getDepth p := by
  refine plain_tell _ fun c v h => ?_
  rcases getDepth_codes h with ⟨rfl, -⟩ | ⟨rfl, -⟩ <;> rfl

theorem calculateOverlapE_plain (a b : Book) : (calculateOverlapE S a b).plain = calculateOverlap S a b :=
  plain_tell _ fun _ _ _ => rfl

/-! ### The rest -/

theorem newAssetE_plain (symbol name : String) : (newAssetE symbol name).plain = newAsset symbol name := by
  unfold newAssetE newAsset
  split_ifs <;> rfl

theorem newListedAssetE_plain (op : String) (table : List (String × String)) (symbol : String) :
    (newListedAssetE op table symbol).plain =
      match table.find? (fun e => e.1 = symbol) with
      | some e => newAsset symbol e.2
      | none => .err .enotfound zeroAsset := by
  unfold newListedAssetE
  cases table.find? (fun e => e.1 = symbol) with
  | none => rfl
  | some e => exact newAssetE_plain _ _

theorem newOrderRequestE_plain (pair : Pair) (action orderType : String) (quantity price total : Fl) :
    (newOrderRequestE pair action orderType quantity price total).plain =
      newOrderRequest pair action orderType quantity price total := by
  unfold newOrderRequestE newOrderRequest
  split_ifs <;> rfl

theorem calculateFieldsE_plain (o : OrderRequest) (x : Fl) : (calculateFieldsE S o x).plain = (calculateFields S o x).2 := by
  unfold calculateFieldsE
  split_ifs with h1 h2
  · simp only [Out.plain, EzErr.code, calculateFields]; rw [if_pos h1]
  · simp only [Out.plain, EzErr.code, calculateFields]; rw [if_neg h1, if_pos h2]
  · exact plain_tell _ fun _ _ _ => rfl

theorem rawDate_code {d : List Char} {c : ErrCode} {v : Time} (h : rawDateToRFC3339 d = .err c v) : c = .external := by
  unfold rawDateToRFC3339 at h
  split at h
  · simp only [Res.err.injEq] at h; exact h.1.symm
  · cases h

theorem location_code {zones : String → Bool} {t : Tick} {l : String} {c : ErrCode} {v : Time}
    (h : t.getLocationTime zones l = .err c v) : c = .external := by
  unfold Tick.getLocationTime at h
  split at h
  · simp only [Res.err.injEq] at h; exact h.1.symm
  · split at h <;> cases h

theorem leftErr_none (t : FractalType) (third a b : Candle) :
    leftErr t third [a, b] = none ↔ (leftFails t third a || leftFails t third b) = false := by
  cases t <;> simp only [leftErr, leftFails, true_and, reduceCtorEq, false_and, if_false]
  · cases Fl.ge a.high third.high <;> cases Fl.ge b.high third.high <;> simp
  · cases Fl.le a.low third.low <;> cases Fl.le b.low third.low <;> simp

theorem rightErr_none (t : FractalType) (third : Candle) (l : List Candle) (n : Nat) :
    rightErr t third n l = none ↔ rightScan t third n l = true := by
  induction l generalizing n with
  | nil => simp [rightErr, rightScan]
  | cons c l ih =>
    cases t <;> simp only [rightErr, rightScan] <;> split_ifs <;> simp [ih]

/-- The fractal is found exactly when there is no error. -/
theorem findFractalE_plain (candles : List Candle) (start : Nat) (t : FractalType) (w : WilliamFractal) :
    findFractalE candles start t = .ok w ↔ findFractal candles start t = some w := by
  unfold findFractalE findFractal
  rcases candles.drop start with _ | ⟨c0, _ | ⟨c1, _ | ⟨third, rest⟩⟩⟩
  · simp
  · simp
  · simp
  · simp only
    have h1 := leftErr_none t third c0 c1
    have h2 := rightErr_none t third rest 0
    cases hl : leftErr t third [c0, c1] with
    | some e =>
      have : (leftFails t third c0 || leftFails t third c1) = true := by
        rw [← Bool.not_eq_false]; intro hf; rw [h1.2 hf] at hl; cases hl
      simp [this]
    | none =>
      simp only [h1.1 hl]
      cases hr : rightErr t third 0 rest with
      | some e =>
        have : rightScan t third 0 rest = false := by
          rw [← Bool.not_eq_true]; intro hf; rw [h2.2 hf] at hr; cases hr
        simp [this]
      | none => cases t <;> simp [h2.1 hr]

end Finmod
