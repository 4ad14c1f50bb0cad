import Verif.Props.CandleGroups

/-!
# C156: resampling only compares highs and lows and only looks at time differences
-/

namespace Finmod
open Go Spec

/-- Replaces prices and moves the time. -/
structure Spec.CandleMap where
  shift : Int
  opn : Fl → Fl
  high : Fl → Fl
  low : Fl → Fl
  close : Fl → Fl

namespace Spec.CandleMap

def candle (R : CandleMap) (c : Candle) : Candle :=
  { time := c.time + R.shift, opn := R.opn c.opn, high := R.high c.high, low := R.low c.low,
    close := R.close c.close, volume := c.volume }

def res (R : CandleMap) : Res (List Candle) → Res (List Candle)
  | .ok cs => .ok (cs.map R.candle)
  | .err e cs => .err e (cs.map R.candle)
  | .panic => .panic

/-- Among the candles given, highs compare as before, lows compare as before, and all of them, old and new,
are on the right side of the constants -1e308 and 1e308. -/
structure Keeps (R : CandleMap) (S : FloatSem) (cs : List Candle) : Prop where
  high : ∀ c ∈ cs, ∀ d ∈ cs, Fl.gt (R.high c.high) (R.high d.high) = Fl.gt c.high d.high
  low : ∀ c ∈ cs, ∀ d ∈ cs, Fl.lt (R.low c.low) (R.low d.low) = Fl.lt c.low d.low
  above : ∀ c ∈ cs, Fl.gt c.high (S.const (-10 ^ 308)) = true ∧ Fl.gt (R.high c.high) (S.const (-10 ^ 308)) = true
  below : ∀ c ∈ cs, Fl.lt c.low (S.const (10 ^ 308)) = true ∧ Fl.lt (R.low c.low) (S.const (10 ^ 308)) = true

end Spec.CandleMap

section
variable {R : CandleMap} {S : FloatSem} {cs : List Candle} (hR : R.Keeps S cs)
include hR

theorem highLoop_map {d : Candle} (hd : d ∈ cs) {l : List Candle} (hl : ∀ c ∈ l, c ∈ cs) :
    highLoop (R.high d.high) (l.map R.candle) = R.high (highLoop d.high l) := by
  induction l generalizing d with
  | nil => rfl
  | cons v vs ih =>
    have hv := hl v (by simp)
    have hvs : ∀ c ∈ vs, c ∈ cs := fun c hc => hl c (by simp [hc])
    simp only [List.map_cons, highLoop]
    have : (R.candle v).high = R.high v.high := rfl
    rw [this, hR.high v hv d hd]
    split
    · exact ih hv hvs
    · exact ih hd hvs

theorem lowLoop_map {d : Candle} (hd : d ∈ cs) {l : List Candle} (hl : ∀ c ∈ l, c ∈ cs) :
    lowLoop (R.low d.low) (l.map R.candle) = R.low (lowLoop d.low l) := by
  induction l generalizing d with
  | nil => rfl
  | cons v vs ih =>
    have hv := hl v (by simp)
    have hvs : ∀ c ∈ vs, c ∈ cs := fun c hc => hl c (by simp [hc])
    simp only [List.map_cons, lowLoop]
    have : (R.candle v).low = R.low v.low := rfl
    rw [this, hR.low v hv d hd]
    split
    · exact ih hv hvs
    · exact ih hd hvs

theorem extremes_map {l : List Candle} (hne : l ≠ []) (hl : ∀ c ∈ l, c ∈ cs) :
    highLoop (minHigh S) (l.map R.candle) = R.high (highLoop (minHigh S) l) ∧
    lowLoop (maxLow S) (l.map R.candle) = R.low (lowLoop (maxLow S) l) := by
  cases l with
  | nil => exact absurd rfl hne
  | cons v vs =>
    have hv := hl v (by simp)
    have hvs : ∀ c ∈ vs, c ∈ cs := fun c hc => hl c (by simp [hc])
    have a1 : Fl.gt v.high (minHigh S) = true := (hR.above v hv).1
    have a2 : Fl.gt (R.high v.high) (minHigh S) = true := (hR.above v hv).2
    have b1 : Fl.lt v.low (maxLow S) = true := (hR.below v hv).1
    have b2 : Fl.lt (R.low v.low) (maxLow S) = true := (hR.below v hv).2
    simp only [List.map_cons, highLoop, lowLoop]
    have e1 : (R.candle v).high = R.high v.high := rfl
    have e2 : (R.candle v).low = R.low v.low := rfl
    rw [e1, e2, if_pos a1, if_pos a2, if_pos b1, if_pos b2]
    exact ⟨highLoop_map hR hv hvs, lowLoop_map hR hv hvs⟩

omit hR in
theorem volumeLoop_map (l : List Candle) (acc : Fl) : volumeLoop S acc (l.map R.candle) = volumeLoop S acc l := by
  induction l generalizing acc with
  | nil => rfl
  | cons v vs ih => exact ih _

/-- One group; the value beside an error is left open (the caller drops it). -/
theorem compressCandle_map {start stop : Nat} (h : start < stop) :
    (∃ c, compressCandle S cs start stop = .ok c ∧
      compressCandle S (cs.map R.candle) start stop = .ok (R.candle c)) ∨
    (∃ e c, compressCandle S cs start stop = .err e c ∧
      compressCandle S (cs.map R.candle) start stop = .err e c) ∨
    (compressCandle S cs start stop = .panic ∧ compressCandle S (cs.map R.candle) start stop = .panic) := by
  unfold compressCandle
  rw [List.getElem?_map, List.getElem?_map]
  cases h1 : cs[start]? with
  | none => exact .inr (.inr ⟨rfl, rfl⟩)
  | some first =>
    cases h2 : cs[stop - 1]? with
    | none => exact .inr (.inr ⟨rfl, rfl⟩)
    | some last =>
      simp only [Option.map_some, List.length_map]
      by_cases hb : start ≤ stop ∧ stop ≤ cs.length
      · simp only [if_pos hb]
        rw [← List.map_drop, ← List.map_take, volumeLoop_map]
        have hg : (cs.drop start).take (stop - start) ≠ [] := by
          intro he
          have := congrArg List.length he
          rw [List.length_take, List.length_drop, List.length_nil] at this
          omega
        obtain ⟨e1, e2⟩ := extremes_map hR hg
          (fun c hc => List.mem_of_mem_drop (List.mem_of_mem_take hc))
        rw [e1, e2]
        cases fixed5 S (volumeLoop S (.fin 0) ((cs.drop start).take (stop - start))) with
        | none => exact .inr (.inl ⟨_, _, rfl, rfl⟩)
        | some v => exact .inl ⟨_, rfl, rfl⟩
      · simp only [if_neg hb]; exact .inr (.inr ⟨trivial, trivial⟩)

theorem resampleLoop_map (interval pivot : Int) (vs : List Candle) {idx start : Nat} (h : start < idx)
    (acc : List Candle) :
    (∃ out s, resampleLoop S cs interval pivot vs idx start acc = .ok (out, s) ∧ s < idx + vs.length ∧
      resampleLoop S (cs.map R.candle) interval (pivot + R.shift) (vs.map R.candle) idx start (acc.map R.candle) =
        .ok (out.map R.candle, s)) ∨
    (∃ e, resampleLoop S cs interval pivot vs idx start acc = .err e ([], 0) ∧
      resampleLoop S (cs.map R.candle) interval (pivot + R.shift) (vs.map R.candle) idx start (acc.map R.candle) =
        .err e ([], 0)) ∨
    (resampleLoop S cs interval pivot vs idx start acc = .panic ∧
      resampleLoop S (cs.map R.candle) interval (pivot + R.shift) (vs.map R.candle) idx start (acc.map R.candle) =
        .panic) := by
  induction vs generalizing idx start acc with
  | nil => exact .inl ⟨acc, start, rfl, by simpa using h, rfl⟩
  | cons v vs ih =>
    have hb : isBoundary S interval (pivot + R.shift) (R.candle v) = isBoundary S interval pivot v := by
      unfold isBoundary
      have : (R.candle v).time - (pivot + R.shift) = v.time - pivot := by
        show v.time + R.shift - (pivot + R.shift) = _; ring
      rw [this]
    simp only [List.map_cons, resampleLoop, hb, List.length_cons]
    cases isBoundary S interval pivot v with
    | none => exact .inr (.inr ⟨rfl, rfl⟩)
    | some b =>
      cases b with
      | false =>
        have := ih (idx := idx + 1) (start := start) (by omega) acc
        rw [show idx + 1 + vs.length = idx + (vs.length + 1) by omega] at this
        exact this
      | true =>
        rcases compressCandle_map hR h with ⟨c, e1, e2⟩ | ⟨e, c, e1, e2⟩ | ⟨e1, e2⟩
        · simp only [e1, e2]
          have := ih (idx := idx + 1) (start := idx) (by omega) (acc ++ [c])
          rw [show idx + 1 + vs.length = idx + (vs.length + 1) by omega, List.map_append] at this
          exact this
        · simp only [e1, e2]; exact .inr (.inl ⟨_, rfl, rfl⟩)
        · simp only [e1, e2]; exact .inr (.inr ⟨trivial, trivial⟩)

/-- **C156.** Same outcome, with the output candles replaced likewise. `minute'` is the minute of the hour
in a zone where the moved times show what the old ones showed in `minute`. -/
theorem C156_relabel {minute minute' : Int → Int}
    (hm : ∀ c ∈ cs, minute' (c.time + R.shift) = minute c.time) (interval : Int) :
    modifyInterval S minute' (cs.map R.candle) interval = R.res (modifyInterval S minute cs interval) := by
  match cs, hR, hm with
  | [], _, _ => simp [modifyInterval, CandleMap.res]
  | [c], _, _ => simp [modifyInterval, CandleMap.res]
  | c0 :: c1 :: l, hR, hm =>
    have hd : (c1.time + R.shift) - (c0.time + R.shift) = c1.time - c0.time := by ring
    have hf : findFirstIndex minute' ((c0 :: c1 :: l).map R.candle) interval =
        findFirstIndex minute (c0 :: c1 :: l) interval := by
      unfold findFirstIndex
      have : ((c0 :: c1 :: l).map R.candle).findIdx? (isAligned minute' interval) =
          (c0 :: c1 :: l).findIdx? (isAligned minute interval) := by
        have key : ∀ m : List Candle, (∀ c ∈ m, c ∈ c0 :: c1 :: l) →
            (m.map R.candle).findIdx? (isAligned minute' interval) = m.findIdx? (isAligned minute interval) := by
          intro m
          induction m with
          | nil => intro _; rfl
          | cons x xs ih =>
            intro h
            have hx : isAligned minute' interval (R.candle x) = isAligned minute interval x := by
              unfold isAligned
              have : (R.candle x).time = x.time + R.shift := rfl
              rw [this, hm x (h x (by simp))]
            rw [List.map_cons, List.findIdx?_cons, List.findIdx?_cons, hx, ih (fun c hc => h c (by simp [hc]))]
        exact key _ (fun _ h => h)
      rw [this]
    rw [List.map_cons, List.map_cons] at hf
    unfold modifyInterval
    simp only [List.map_cons, List.length_cons, List.length_map]
    have hne : ¬ (l.length + 1 + 1 = 1) := by omega
    simp only [hne, if_false]
    have t0 : (R.candle c0).time = c0.time + R.shift := rfl
    have t1 : (R.candle c1).time = c1.time + R.shift := rfl
    simp only [t0, t1, hd, hf]
    split
    · rfl
    split
    · rfl
    split
    · rfl
    cases hfi : findFirstIndex minute (c0 :: c1 :: l) interval with
    | panic => rfl
    | err e v => rfl
    | ok first =>
      simp only
      have hg : (R.candle c0 :: R.candle c1 :: l.map R.candle)[first]? =
          ((c0 :: c1 :: l)[first]?).map R.candle := by
        rw [← List.getElem?_map]; rfl
      rw [hg]
      cases hp : (c0 :: c1 :: l)[first]? with
      | none => rfl
      | some p =>
        have hlt : first < (c0 :: c1 :: l).length := (List.getElem?_eq_some_iff.1 hp).1
        have hdr : (R.candle c0 :: R.candle c1 :: l.map R.candle).drop (first + 1) =
            ((c0 :: c1 :: l).drop (first + 1)).map R.candle := by
          rw [List.map_drop]; rfl
        have tp : (R.candle p).time = p.time + R.shift := rfl
        simp only [Option.map_some, hdr, tp]
        rcases resampleLoop_map hR interval p.time ((c0 :: c1 :: l).drop (first + 1)) (Nat.lt_succ_self first) []
          with ⟨out, s, e1, hs, e2⟩ | ⟨e, e1, e2⟩ | ⟨e1, e2⟩
        · simp only [List.map_cons, List.map_nil] at e2
          simp only [Nat.succ_eq_add_one] at e1 e2 hs
          simp only [e1, e2]
          have hs' : s < (c0 :: c1 :: l).length := by
            rw [List.length_drop] at hs
            omega
          rcases compressCandle_map hR hs' with ⟨c, g1, g2⟩ | ⟨e, c, g1, g2⟩ | ⟨g1, g2⟩ <;>
          · simp only [List.map_cons, List.length_cons] at g1 g2
            simp only [g1, g2, CandleMap.res, List.map_append, List.map_cons, List.map_nil]
        · simp only [List.map_cons, List.map_nil] at e2
          simp only [Nat.succ_eq_add_one] at e1 e2
          simp only [e1, e2]
          rfl
        · simp only [List.map_cons, List.map_nil] at e2
          simp only [Nat.succ_eq_add_one] at e1 e2
          simp only [e1, e2]
          rfl

end

/-- Opens forgotten, highs and lows doubled, closes negated, an hour later. -/
def Ex.candleMap : CandleMap :=
  ⟨3600, fun _ => .fin 0, fun x => .fin (2 * x.toRat), fun x => .fin (2 * x.toRat), Fl.neg⟩

example : Ex.candleMap.Keeps ieee demoCandles ∧
    (∀ c ∈ demoCandles, utcMinute (c.time + Ex.candleMap.shift) = utcMinute c.time) ∧
    modifyInterval ieee utcMinute (demoCandles.map Ex.candleMap.candle) 2 = .ok
      [⟨3720, .fin 0, .fin 10, .fin 0, .fin (-1), .fin (5/2)⟩, ⟨3840, .fin 0, .fin 4, .fin 2, .fin (-2), .fin 1⟩] := by
  refine ⟨⟨?_, ?_, ?_, ?_⟩, ?_, ?_⟩ <;> decide +kernel

end Finmod
