import Verif.Props.AvgMono
import Verif.Props.PositionRules

/-!
# Prices of the other sign, in float64: C260
-/

namespace Finmod
open Go Spec

/-- Two floats of opposite value: both NaN, opposite infinities, or opposite numbers (a zero may have either sign). -/
def Spec.OfOtherSign (x y : Fl) : Prop :=
  (x = .nan ∧ y = .nan) ∨ (∃ s, x = .inf s ∧ y = .inf !s) ∨ ∃ q, x.Is q ∧ y.Is (-q)

theorem otherSign_neg_self (x : Fl) : OfOtherSign x (Fl.neg x) := by
  cases x with
  | nan => exact .inl ⟨rfl, rfl⟩
  | inf s => exact .inr (.inl ⟨s, rfl, rfl⟩)
  | fin q => exact .inr (.inr ⟨q, Fl.is_fin q, (Fl.is_fin q).neg⟩)
  | negZero => exact .inr (.inr ⟨0, Fl.is_negZero, Fl.is_negZero.neg⟩)

theorem otherSign_rnd {S : FloatSem} (hS : Lawful S) (q : ℚ) : OfOtherSign (S.rnd q) (S.rnd (-q)) := by
  by_cases h : q = 0
  · subst h
    rw [neg_zero, rnd_zero hS]
    exact .inr (.inr ⟨0, Fl.is_fin 0, by simp⟩)
  · rw [hS.r64.odd q h]
    exact otherSign_neg_self _

theorem otherSign_zero {x y : Fl} (hx : x.Is 0) (hy : y.Is 0) : OfOtherSign x y := .inr (.inr ⟨0, hx, by simpa using hy⟩)

theorem otherSign_neg {x y : Fl} (h : OfOtherSign x y) : OfOtherSign (Fl.neg x) (Fl.neg y) := by
  rcases h with ⟨rfl, rfl⟩ | ⟨s, rfl, rfl⟩ | ⟨q, hx, hy⟩
  · exact .inl ⟨rfl, rfl⟩
  · exact .inr (.inl ⟨_, rfl, rfl⟩)
  · exact .inr (.inr ⟨-q, hx.neg, hy.neg⟩)

theorem inf_add_both {S : FloatSem} {s : Bool} {y : Fl} {q : ℚ} (h : y.Is q) :
    S.add (.inf s) y = .inf s ∧ S.add y (.inf s) = .inf s := by
  cases y <;> simp_all [FloatSem.add]

theorem nan_add_both (S : FloatSem) (y : Fl) : S.add .nan y = .nan ∧ S.add y .nan = .nan := by
  cases y <;> simp [FloatSem.add]

theorem otherSign_add {S : FloatSem} (hS : Lawful S) {x y v w : Fl} (h : OfOtherSign x y) (h' : OfOtherSign v w) :
    OfOtherSign (S.add x v) (S.add y w) := by
  rcases h with ⟨rfl, rfl⟩ | ⟨s, rfl, rfl⟩ | ⟨q, hx, hy⟩
  · rw [(nan_add_both S v).1, (nan_add_both S w).1]; exact .inl ⟨rfl, rfl⟩
  · rcases h' with ⟨rfl, rfl⟩ | ⟨t, rfl, rfl⟩ | ⟨r, hv, hw⟩
    · exact .inl ⟨rfl, rfl⟩
    · cases s <;> cases t
      · exact .inr (.inl ⟨_, rfl, rfl⟩)
      · exact .inl ⟨rfl, rfl⟩
      · exact .inl ⟨rfl, rfl⟩
      · exact .inr (.inl ⟨_, rfl, rfl⟩)
    · rw [(inf_add_both hv).1, (inf_add_both hw).1]; exact .inr (.inl ⟨s, rfl, rfl⟩)
  · rcases h' with ⟨rfl, rfl⟩ | ⟨t, rfl, rfl⟩ | ⟨r, hv, hw⟩
    · rw [(nan_add_both S x).2, (nan_add_both S y).2]; exact .inl ⟨rfl, rfl⟩
    · rw [(inf_add_both hx).2, (inf_add_both hy).2]; exact .inr (.inl ⟨t, rfl, rfl⟩)
    · have h0 := rnd_zero hS
      rcases FloatSem.add_is (S := S) hx hv with e | ⟨e, rfl, rfl⟩ <;>
        rcases FloatSem.add_is (S := S) hy hw with e' | ⟨e', h1, h2⟩
      · rw [e, e', ← neg_add]
        exact otherSign_rnd hS _
      · obtain rfl : q = 0 := by linarith
        obtain rfl : r = 0 := by linarith
        rw [e, e', add_zero, h0]
        exact otherSign_zero (Fl.is_fin 0) Fl.is_negZero
      · rw [e, e', neg_zero, add_zero, h0]
        exact otherSign_zero Fl.is_negZero (Fl.is_fin 0)
      · rw [e, e']
        exact otherSign_zero Fl.is_negZero Fl.is_negZero

theorem otherSign_sub {S : FloatSem} (hS : Lawful S) {x y v w : Fl} (h : OfOtherSign x y) (h' : OfOtherSign v w) :
    OfOtherSign (S.sub x v) (S.sub y w) := otherSign_add hS h (otherSign_neg h')

theorem otherSign_mul {S : FloatSem} (hS : Lawful S) {x y : Fl} (h : OfOtherSign x y) (c : Fl) :
    OfOtherSign (S.mul x c) (S.mul y c) := by
  rcases h with ⟨rfl, rfl⟩ | ⟨s, rfl, rfl⟩ | ⟨q, hx, hy⟩
  · cases c <;> exact .inl ⟨rfl, rfl⟩
  · cases c with
    | nan => exact .inl ⟨rfl, rfl⟩
    | inf t => exact .inr (.inl ⟨xor s t, rfl, by simp [FloatSem.mul]⟩)
    | fin r =>
      simp only [FloatSem.mul]
      split
      · exact .inl ⟨rfl, rfl⟩
      · exact .inr (.inl ⟨_, rfl, by simp⟩)
    | negZero => exact .inl ⟨rfl, rfl⟩
  · by_cases hc : c.isFinite = true
    · obtain ⟨r, hr⟩ : ∃ r, c.Is r := ⟨_, Fl.isFinite_is hc⟩
      rcases FloatSem.mul_is (S := S) hx hr with ⟨n, e⟩ | ⟨n, e⟩ <;>
        rcases FloatSem.mul_is (S := S) hy hr with ⟨n', e'⟩ | ⟨n', e'⟩
      · rw [e, e', neg_mul]; exact otherSign_rnd hS _
      · exact absurd (by linarith) n
      · exact absurd (by linarith) n'
      · exact otherSign_zero e e'
    · cases c with
      | fin r => exact absurd rfl hc
      | negZero => exact absurd rfl hc
      | nan => cases x <;> cases y <;> exact .inl ⟨rfl, rfl⟩
      | inf t =>
        have fx := (Fl.is_iff.1 hx).1
        have fy := (Fl.is_iff.1 hy).1
        rw [mul_inf fx, mul_inf fy, hx.isZero, hy.isZero]
        by_cases hq : q = 0
        · rw [if_pos (by simp [hq]), if_pos (by simp [hq])]; exact .inl ⟨rfl, rfl⟩
        · rw [if_neg (by simp [hq]), if_neg (by simp [hq])]
          refine .inr (.inl ⟨_, rfl, ?_⟩)
          have ex : x = .fin q := by rcases hx with h | h; exact h; exact absurd h.2 hq
          have ey : y = .fin (-q) := by rcases hy with h | h; exact h; exact absurd (by linarith [h.2]) hq
          rw [ex, ey]
          rcases lt_or_gt_of_ne hq with h | h
          · simp [Fl.sgn, h, not_lt.2 h.le]
          · simp [Fl.sgn, h, not_lt.2 h.le]

theorem otherSign_div {S : FloatSem} (hS : Lawful S) {x y : Fl} (h : OfOtherSign x y) (c : Fl) :
    OfOtherSign (S.div x c) (S.div y c) := by
  rcases h with ⟨rfl, rfl⟩ | ⟨s, rfl, rfl⟩ | ⟨q, hx, hy⟩
  · cases c <;> exact .inl ⟨rfl, rfl⟩
  · cases c with
    | nan => exact .inl ⟨rfl, rfl⟩
    | inf t => exact .inl ⟨rfl, rfl⟩
    | fin r => exact .inr (.inl ⟨_, rfl, by simp [FloatSem.div]⟩)
    | negZero => exact .inr (.inl ⟨_, rfl, by simp [FloatSem.div]⟩)
  · by_cases hq : q = 0
    · subst hq
      rw [neg_zero] at hy
      cases c with
      | nan => cases x <;> cases y <;> exact .inl ⟨rfl, rfl⟩
      | inf t => refine otherSign_zero ?_ ?_ <;> [cases x; cases y] <;> simp_all [FloatSem.div]
      | fin r =>
        by_cases hr : r = 0
        · subst hr
          refine .inl ⟨?_, ?_⟩ <;> [cases x; cases y] <;> simp_all [FloatSem.div, Fl.isZero]
        · refine otherSign_zero ?_ ?_ <;> [cases x; cases y] <;> simp_all [FloatSem.div, Fl.isZero]
      | negZero => refine .inl ⟨?_, ?_⟩ <;> [cases x; cases y] <;> simp_all [FloatSem.div, Fl.isZero]
    · obtain rfl : x = .fin q := by rcases hx with h | h; exact h; exact absurd h.2 hq
      obtain rfl : y = .fin (-q) := by rcases hy with h | h; exact h; exact absurd (by linarith [h.2]) hq
      have hsg : Fl.sgn (.fin (-q)) = !Fl.sgn (.fin q) := by
        rcases lt_or_gt_of_ne hq with h | h
        · simp [Fl.sgn, h, not_lt.2 h.le]
        · simp [Fl.sgn, h, not_lt.2 h.le]
      cases c with
      | nan => exact .inl ⟨rfl, rfl⟩
      | inf t => exact otherSign_zero (Fl.zero_is _) (Fl.zero_is _)
      | fin r =>
        by_cases hr : r = 0
        · refine .inr (.inl ⟨xor (Fl.sgn (.fin q)) (Fl.sgn (.fin r)), ?_, ?_⟩)
          · simp [FloatSem.div, Fl.isZero, hr, hq]
          · simp [FloatSem.div, Fl.isZero, hr, hq, hsg]
        · have e1 : S.div (.fin q) (.fin r) = S.rnd (q / r) := by simp [FloatSem.div, Fl.isZero, hr, hq, Fl.toRat]
          have e2 : S.div (.fin (-q)) (.fin r) = S.rnd (-(q / r)) := by
            simp [FloatSem.div, Fl.isZero, hr, hq, Fl.toRat, neg_div]
          rw [e1, e2]
          exact otherSign_rnd hS _
      | negZero =>
        refine .inr (.inl ⟨!(Fl.sgn (.fin q)), ?_, ?_⟩)
        · simp [FloatSem.div, Fl.isZero, hq, Fl.sgn]
        · have : (FloatSem.div S (.fin (-q)) .negZero) = .inf (xor (Fl.sgn (.fin (-q))) true) := by
            simp [FloatSem.div, Fl.isZero, hq, Fl.sgn]
          rw [this, hsg]
          simp

/-- Every close is the opposite of the close at its place. -/
def Spec.OppositeCloses (cs ds : List Candle) : Prop := List.Forall₂ (fun c d => OfOtherSign c.close d.close) cs ds

theorem otherSign_sum {S : FloatSem} (hS : Lawful S) {cs ds : List Candle} (h : OppositeCloses cs ds) {a b : Fl}
    (hab : OfOtherSign a b) : OfOtherSign ((closes cs).foldl S.add a) ((closes ds).foldl S.add b) := by
  unfold OppositeCloses at h
  induction h generalizing a b with
  | nil => exact hab
  | cons hc _ ih => exact ih (otherSign_add hS hab hc)

theorem otherSign_average {S : FloatSem} (hS : Lawful S) {cs ds : List Candle} (h : OppositeCloses cs ds) :
    OfOtherSign (average S cs) (average S ds) := by
  rw [average_eq, average_eq, ← h.length_eq, const_zero hS]
  exact otherSign_div hS (otherSign_sum hS h (otherSign_zero (Fl.is_fin 0) (Fl.is_fin 0))) _

theorem otherSign_closes {cs ds : List Candle} (h : OppositeCloses cs ds) :
    List.Forall₂ OfOtherSign (closes cs) (closes ds) := by
  unfold closes
  rw [List.forall₂_map_left_iff, List.forall₂_map_right_iff]
  exact h

/-- **C260** The three averages of opposite closes are opposite, value by value, in every lawful float arithmetic. -/
theorem C260_averages {S : FloatSem} (hS : Lawful S) (cs ds : List Candle) (h : OppositeCloses cs ds) (n : Nat)
    (h1 : 1 ≤ n) (h2 : n ≤ cs.length) :
    ∀ f ∈ [movingAverage S, exponentialMovingAverage S, smoothedMovingAverage S],
      ∃ xs ys, f (some cs) n = .ok xs ∧ f (some ds) n = .ok ys ∧ List.Forall₂ OfOtherSign xs ys := by
  have hl : cs.length = ds.length := h.length_eq
  have h2' : n ≤ ds.length := hl ▸ h2
  have hdrop : OppositeCloses (cs.drop n) (ds.drop n) := List.forall₂_drop n h
  intro f hf
  simp only [List.mem_cons, List.not_mem_nil, or_false] at hf
  rcases hf with rfl | rfl | rfl
  · refine ⟨_, _, movingAverage_ok S cs n h1 h2, movingAverage_ok S ds n h1 h2', ?_⟩
    rw [← hl, List.forall₂_map_left_iff, List.forall₂_map_right_iff, List.forall₂_same]
    intro k _
    exact otherSign_average hS (List.forall₂_take n (List.forall₂_drop k h))
  · refine ⟨_, _, ema_ok S cs n h1 h2, ema_ok S ds n h1 h2', ?_⟩
    unfold OppositeCloses at hdrop
    generalize cs.drop n = l at hdrop
    generalize ds.drop n = m at hdrop
    cases hdrop with
    | nil => exact .nil
    | cons _ ht =>
      exact scan_forall₂ (otherSign_average hS (List.forall₂_take n h)) (otherSign_closes ht)
        fun x x' y y' hx hy => otherSign_add hS (otherSign_mul hS hy _) (otherSign_mul hS hx _)
  · refine ⟨_, _, smma_ok S cs n h1 h2, smma_ok S ds n h1 h2', ?_⟩
    have hfirst : OfOtherSign (smmaFirst S cs n) (smmaFirst S ds n) :=
      otherSign_div hS (otherSign_sum hS (List.forall₂_take n h) (otherSign_zero (Fl.is_fin 0) (Fl.is_fin 0))) _
    unfold OppositeCloses at hdrop
    generalize cs.drop n = l at hdrop
    generalize ds.drop n = m at hdrop
    refine .cons hfirst ?_
    cases hdrop with
    | nil => exact .nil
    | cons hc ht =>
      exact scan_forall₂ (otherSign_div hS (otherSign_add hS (otherSign_mul hS hfirst _) hc) _) (otherSign_closes ht)
        fun x x' y y' hx hy => otherSign_div hS (otherSign_add hS (otherSign_sub hS (otherSign_mul hS hx _) hx) hy) _

/-- The candle with prices of the other sign: high and low change places. -/
def Spec.otherSign (c : Candle) : Candle :=
  { c with opn := Fl.neg c.opn, high := Fl.neg c.low, low := Fl.neg c.high, close := Fl.neg c.close }

theorem addComm' (S : FloatSem) (x y : Fl) : S.add x y = S.add y x := by
  cases x <;> cases y <;> simp [FloatSem.add, add_comm, eq_comm]
  rename_i a b
  cases a <;> cases b <;> rfl

theorem negNeg' (x : Fl) : Fl.neg (Fl.neg x) = x := by
  cases x with
  | fin q => by_cases h : q = 0 <;> simp [Fl.neg, h]
  | _ => simp [Fl.neg]

/-- **C260** The volatility of prices of the other sign is the same float. -/
theorem C260_volatility (S : FloatSem) (cs : List Candle) (beta : Fl) :
    exponentialWeightedVolatility S (cs.map otherSign) beta = exponentialWeightedVolatility S cs beta := by
  unfold exponentialWeightedVolatility
  rw [List.foldl_map]
  congr 1
  funext v c
  unfold ewvStep otherSign
  simp only [FloatSem.sub, negNeg', addComm' S (Fl.neg c.low) c.high]

/-- A trade at the opposite price. -/
def Spec.OppositeTrade (t t' : Trade) : Prop :=
  OfOtherSign t.price t'.price ∧ t'.quantity = t.quantity ∧ t'.action = t.action ∧ t'.pair = t.pair ∧ t'.id = t.id ∧
    t'.executionTime = t.executionTime

/-- The position with opposite prices and profit, and all else the same. -/
def Spec.OppositePos (p p' : Position) : Prop :=
  p' = { p with openPrice := p'.openPrice, closePrice := p'.closePrice, profit := p'.profit } ∧
    OfOtherSign p.openPrice p'.openPrice ∧ OfOtherSign p.closePrice p'.closePrice ∧ OfOtherSign p.profit p'.profit

theorem otherSign_posAdd {S : FloatSem} (hS : Lawful S) {p p' : Position} {t t' : Trade} (h : OppositePos p p')
    (ht : OppositeTrade t t') : OppositePos (posAdd S p t) (posAdd S p' t') := by
  obtain ⟨e, h1, h2, h3⟩ := h
  obtain ⟨u1, u2, -, -, u5, -⟩ := ht
  have hq : p'.quantity = p.quantity := by rw [e]
  have hl : p'.trades = p.trades := by rw [e]
  refine ⟨?_, ?_, h2, h3⟩
  · simp only [posAdd, hq, hl, u2, u5]
    rw [e]
  · simp only [posAdd, hq, u2]
    exact otherSign_add hS (otherSign_div hS (otherSign_mul hS h1 _) _) (otherSign_div hS (otherSign_mul hS u1 _) _)

theorem otherSign_posSubstract {S : FloatSem} (hS : Lawful S) {p p' : Position} {t t' : Trade} (h : OppositePos p p')
    (ht : OppositeTrade t t') : OppositePos (posSubstract' S p t) (posSubstract' S p' t') := by
  have h0 := h
  obtain ⟨e, h1, h2, h3⟩ := h
  obtain ⟨u1, u2, -, -, u5, u6⟩ := ht
  have hq : p'.quantity = p.quantity := by rw [e]
  have hl : p'.trades = p.trades := by rw [e]
  have hty : p'.type = p.type := by rw [e]
  unfold posSubstract' posSubstract
  simp only [hq, u2]
  by_cases c1 : (Fl.lt (S.sub p.quantity t.quantity) (.fin 0) &&
      Fl.lt (S.sub p.quantity t.quantity) (S.const (-1 / 10000))) = true
  · rw [if_pos c1, if_pos c1]
    exact h0
  · rw [if_neg c1, if_neg c1]
    by_cases c2 : Fl.le (S.sub p.quantity t.quantity) (.fin 0) = true
    · rw [if_pos c2, if_pos c2]
      refine ⟨?_, h1, u1, ?_⟩
      · simp only [hl, u5, u6]
        rw [e]
      · simp only [hty]
        split
        · exact otherSign_mul hS (otherSign_sub hS u1 h1) _
        · exact otherSign_mul hS (otherSign_sub hS h1 u1) _
    · rw [if_neg c2, if_neg c2]
      refine ⟨?_, ?_, h2, h3⟩
      · simp only [hl, u5]
        rw [e]
      · simp only
        have : OfOtherSign (S.mul t.price (S.div t.quantity p.quantity)) (S.mul t'.price (S.div t.quantity p.quantity)) :=
          otherSign_mul hS u1 _
        exact otherSign_div hS (otherSign_mul hS (otherSign_sub hS h1 this) _) _

theorem otherSign_modified {S : FloatSem} (hS : Lawful S) {p p' : Position} {t t' : Trade} (h : OppositePos p p')
    (ht : OppositeTrade t t') : OppositePos (modified S p t) (modified S p' t') := by
  have hty : p'.type = p.type := by rw [h.1]
  have hpr : p'.pair = p.pair := by rw [h.1]
  unfold modified modify
  rw [hty, hpr, ht.2.2.1, ht.2.2.2.1]
  by_cases c0 : p.pair ≠ t.pair
  · rw [if_pos c0, if_pos c0]; exact h
  rw [if_neg c0, if_neg c0]
  by_cases c1 : p.type = longPosition ∧ t.action = buyAction
  · rw [if_pos c1, if_pos c1]; exact otherSign_posAdd hS h ht
  rw [if_neg c1, if_neg c1]
  by_cases c2 : p.type = longPosition ∧ t.action = sellAction
  · rw [if_pos c2, if_pos c2]; exact otherSign_posSubstract hS h ht
  rw [if_neg c2, if_neg c2]
  by_cases c3 : p.type = shortPosition ∧ t.action = buyAction
  · rw [if_pos c3, if_pos c3]; exact otherSign_posSubstract hS h ht
  rw [if_neg c3, if_neg c3]
  by_cases c4 : p.type = shortPosition ∧ t.action = sellAction
  · rw [if_pos c4, if_pos c4]; exact otherSign_posAdd hS h ht
  rw [if_neg c4, if_neg c4]; exact h

/-- **C260** A position traded at opposite prices has the opposite open price, close price and profit, and is otherwise the
same, after any history. -/
theorem C260_position {S : FloatSem} (hS : Lawful S) (id : String) (z : Int) {first first' : Trade}
    (hf : OppositeTrade first first') {hist hist' : List Trade} (hh : List.Forall₂ OppositeTrade hist hist') :
    OppositePos (modifiedAll S (newPosition id z first) hist) (modifiedAll S (newPosition id z first') hist') := by
  have h0 : OppositePos (newPosition id z first) (newPosition id z first') := by
    obtain ⟨u1, u2, u3, u4, u5, u6⟩ := hf
    refine ⟨?_, u1, otherSign_zero (Fl.is_fin 0) (Fl.is_fin 0), otherSign_zero (Fl.is_fin 0) (Fl.is_fin 0)⟩
    simp only [newPosition, u2, u3, u4, u5, u6]
  generalize newPosition id z first = p at h0
  generalize newPosition id z first' = p' at h0
  unfold modifiedAll
  induction hh generalizing p p' with
  | nil => exact h0
  | cons ht _ ih => exact ih _ _ (otherSign_modified hS h0 ht)

/-- **C260** So is what it is worth at an opposite price. -/
theorem C260_unrealized {S : FloatSem} (hS : Lawful S) {p p' : Position} (h : OppositePos p p') {c c' : Fl}
    (hc : OfOtherSign c c') : OfOtherSign (unrealizedProfit S p c) (unrealizedProfit S p' c') := by
  have hty : p'.type = p.type := by rw [h.1]
  have hq : p'.quantity = p.quantity := by rw [h.1]
  unfold unrealizedProfit
  rw [hty, hq]
  split
  · exact otherSign_mul hS (otherSign_sub hS hc h.2.1) _
  · exact otherSign_mul hS (otherSign_sub hS h.2.1 hc) _

/-- **Example for C260.** Float64 is lawful, and the hypotheses hold for closes 0.5, -2, 3. -/
example : Lawful ieee ∧ OppositeCloses
    [⟨0, .fin 0, .fin 0, .fin 0, .fin (1/2), .fin 1⟩, ⟨60, .fin 0, .fin 0, .fin 0, .fin (-2), .fin 1⟩, ⟨120, .fin 0, .fin 0, .fin 0, .fin 3, .fin 1⟩]
    [⟨0, .fin 0, .fin 0, .fin 0, .fin (-1/2), .fin 1⟩, ⟨60, .fin 0, .fin 0, .fin 0, .fin 2, .fin 1⟩, ⟨120, .fin 0, .fin 0, .fin 0, .fin (-3), .fin 1⟩] := by
  refine ⟨ieee_lawful, ?_⟩
  refine .cons (.inr (.inr ⟨1/2, by simp, by norm_num⟩)) (.cons (.inr (.inr ⟨-2, by simp, by simp⟩)) (.cons (.inr (.inr ⟨3, by simp, by simp⟩)) .nil))

/-- **Example for C260.** A buy at 5 and a buy at -5. -/
example : OppositeTrade (newTrade ieee "a" 0 "buy" "market" ⟨⟨"A", "A", "A"⟩, ⟨"B", "B", "B"⟩⟩ (.fin 5) (.fin 2) (.fin 11))
    (newTrade ieee "a" 0 "buy" "market" ⟨⟨"A", "A", "A"⟩, ⟨"B", "B", "B"⟩⟩ (.fin (-5)) (.fin 2) (.fin 11)) :=
  ⟨.inr (.inr ⟨5, by simp [newTrade], by simp [newTrade]⟩), rfl, rfl, rfl, rfl, rfl⟩

end Finmod
