import Verif.Props.PositionMoney

/-!
# Positions: rules that do not depend on exact arithmetic (C44–C49, C51)
-/

namespace Finmod
open Go Spec

/-- **C44.** A trade of another pair (differing in any field of either asset) is rejected with
`EINVALID` and the position is unchanged; a trade of the same pair never gives an error. -/
theorem C44_wrong_pair (S : FloatSem) (p : Position) (t : Trade) :
    (p.pair ≠ t.pair → modify S p t = .err .einvalid p ∧ modified S p t = p) ∧
    (p.pair = t.pair → ∃ p', modify S p t = .ok p') := by
  refine ⟨fun h => ⟨modified_wrongPair h, by simp only [modified, modified_wrongPair h]⟩, fun h => ?_⟩
  by_cases ha : Adds p t
  · exact ⟨_, modify_adds h ha⟩
  by_cases hr : Reduces p t
  · exact ⟨_, modify_reduces h hr⟩
  · exact ⟨_, modify_other h ha hr⟩

example : (newPosition "p" 0 (exTrade "a" "buy" 10 2)).pair ≠
    { exTrade "b" "sell" 10 2 with pair := ⟨⟨"Bitcoin", "BTC", "XBT"⟩, exPair.quote⟩ }.pair := by
  decide

/-- The full claim of C45: an oversized reducing trade changes nothing and is reported. -/
def Spec.C45_claim (S : FloatSem) : Prop :=
  ∀ (p : Position) (t : Trade), Sound p → GoodTrade t → p.pair = t.pair → Reduces p t →
    1 / 10000 < t.quantity.toRat - p.quantity.toRat →
    modified S p t = p ∧ ∃ c v, modify S p t = .err c v

/-- **C45 is false of the code**: `Modify` drops the error of `substract` and returns nil. -/
theorem C45_oversized_reported_violated :
    ¬ Spec.C45_claim FloatSem.exact ∧ ¬ Spec.C45_claim ieee := by
  constructor
  all_goals
    intro h
    obtain ⟨_, c, v, e⟩ := h (newPosition "p" 0 (exTrade "a" "buy" 10 2)) (exTrade "b" "sell" 10 5)
      ⟨by decide +kernel, by decide +kernel, by decide +kernel, by decide +kernel⟩
      (by decide +kernel) (by decide) (by decide) (by decide +kernel)
    rw [modify_reduces (by decide) (by decide)] at e
    cases e

/-- **C45 (partial).** The position is unchanged, in every float semantics, when the computed
difference is below the tolerance; in exact arithmetic that is "larger by more than 0.0001".
Missing: the error report, which the code does not give. -/
theorem C45_oversized_unchanged_partial :
    (∀ (S : FloatSem) (p : Position) (t : Trade), Reduces p t →
      Fl.lt (S.sub p.quantity t.quantity) (.fin 0) = true →
      Fl.lt (S.sub p.quantity t.quantity) (S.const (-1 / 10000)) = true →
      modified S p t = p) ∧
    (∀ (p : Position) (t : Trade), Sound p → GoodTrade t → Reduces p t →
      1 / 10000 < t.quantity.toRat - p.quantity.toRat →
      modified FloatSem.exact p t = p ∧ posSubstract FloatSem.exact p t = .err .einvalid p) := by
  have key : ∀ (S : FloatSem) (p : Position) (t : Trade), Reduces p t →
      Fl.lt (S.sub p.quantity t.quantity) (.fin 0) = true →
      Fl.lt (S.sub p.quantity t.quantity) (S.const (-1 / 10000)) = true →
      modified S p t = p := by
    intro S p t hr h1 h2
    have hna : ¬ Accepts S p t := by
      rintro ⟨_, h | ⟨_, h⟩⟩
      · exact not_adds_and_reduces h hr
      · exact h ⟨h1, h2⟩
    rcases modified_cases S p t with ⟨_, e⟩ | ⟨h, _⟩ | ⟨h, _⟩ | ⟨h, _⟩
    · exact e
    all_goals exact absurd h hna
  refine ⟨key, fun p t hp ht hr h => ?_⟩
  have hs := FloatSem.exact_sub hp.is.2 ht.is.2
  have h1 : Fl.lt (FloatSem.exact.sub p.quantity t.quantity) (.fin 0) = true := by
    rw [hs.lt (Fl.is_fin 0)]; simp; linarith
  have h2 : Fl.lt (FloatSem.exact.sub p.quantity t.quantity)
      (FloatSem.exact.const (-1 / 10000)) = true := by
    rw [hs.lt (FloatSem.exact_const _)]; simp only [decide_eq_true_eq]; linarith
  refine ⟨key _ p t hr h1 h2, ?_⟩
  simp only [posSubstract, h1, h2, Bool.and_self, if_true]

/-- C45: a sale of 3 out of 2 is not applied. -/
example : let p := newPosition "p" 0 (exTrade "a" "buy" 10 2); let t := exTrade "b" "sell" 9 3
    Reduces p t ∧ 1 / 10000 < t.quantity.toRat - p.quantity.toRat ∧ modified ieee p t = p := by
  decide +kernel

/-- The full claim of C46: a closed position is not changed by further trades. -/
def Spec.C46_claim (S : FloatSem) : Prop :=
  ∀ (id : String) (z : Int) (first : Trade) (hist later : List Trade),
    GoodTrade first → BuyOrSell first → (∀ t ∈ hist ++ later, GoodTrade t) →
    (modifiedAll S (newPosition id z first) hist).opened = false →
    modifiedAll S (newPosition id z first) (hist ++ later) =
      modifiedAll S (newPosition id z first) hist

/-- **C46 is false of the code**: `Modify` does not look at `Open`. Buying 2, selling 2 (closed,
profit 4) and then buying 2 more changes the open price and quantity of the closed position; and
a further sell rewrites its profit. -/
theorem C46_closed_unchanged_violated :
    ¬ Spec.C46_claim FloatSem.exact ∧ ¬ Spec.C46_claim ieee := by
  constructor
  all_goals
    intro h
    have := h "p" 0 (exTrade "a" "buy" 10 2) [exTrade "b" "sell" 12 2] [exTrade "c" "sell" 20 2]
      (by decide +kernel) (by decide) (by decide +kernel) (by decide +kernel)
    exact absurd this (by decide +kernel)

/-- **C46 (partial).** After a close, any history leaves the position closed with the same ID,
Type, Pair, OpenTime, TakeProfit, StopLoss; and trades of another pair, trades that are neither
buys nor sells, and oversized trades change nothing at all. Missing: the code does change price,
quantity, profit and the trade log of a closed position. -/
theorem C46_closed_stays_closed_partial (S : FloatSem) (p : Position) (later : List Trade)
    (hc : p.opened = false) :
    (modifiedAll S p later).opened = false ∧
    (modifiedAll S p later).id = p.id ∧
    (modifiedAll S p later).type = p.type ∧
    (modifiedAll S p later).pair = p.pair ∧
    (modifiedAll S p later).openTime = p.openTime ∧
    (modifiedAll S p later).takeProfit = p.takeProfit ∧
    (modifiedAll S p later).stopLoss = p.stopLoss ∧
    ((∀ t ∈ later, ¬ Accepts S p t) → modifiedAll S p later = p) := by
  refine ⟨?_, ?_, ?_, ?_, ?_, ?_, ?_, ?_⟩
  · by_contra h
    rw [opened_of_modifiedAll (by simpa using h)] at hc
    cases hc
  case refine_8 =>
    intro h
    induction later with
    | nil => rfl
    | cons t ts ih =>
      have e : modified S p t = p := by
        rcases modified_cases S p t with ⟨_, e⟩ | ⟨h', _⟩ | ⟨h', _⟩ | ⟨h', _⟩
        · exact e
        all_goals exact absurd h' (h t (by simp))
      have : modifiedAll S p (t :: ts) = modifiedAll S (modified S p t) ts := rfl
      rw [this, e]
      exact ih (fun t ht => h t (by simp [ht]))
  all_goals
    clear hc
    induction later generalizing p with
    | nil => rfl
    | cons t ts ih =>
      refine (ih (modified S p t)).trans ?_
      rcases modified_cases S p t with ⟨_, e⟩ | ⟨_, _, e⟩ | ⟨_, _, _, e⟩ | ⟨_, _, _, e⟩ <;> rw [e] <;> rfl

example : (modifiedAll ieee (newPosition "p" 0 (exTrade "a" "buy" 10 2))
    [exTrade "b" "sell" 12 2]).opened = false := by decide +kernel

/-- **C47.** Along any history: once closed, closed for every longer history; and ID, Type, Pair
and OpenTime are those of the opening. -/
theorem C47_never_reopens (S : FloatSem) (p : Position) (hist later : List Trade) :
    ((modifiedAll S p hist).opened = false → (modifiedAll S p (hist ++ later)).opened = false) ∧
    (modifiedAll S p hist).id = p.id ∧
    (modifiedAll S p hist).type = p.type ∧
    (modifiedAll S p hist).pair = p.pair ∧
    (modifiedAll S p hist).openTime = p.openTime := by
  refine ⟨fun h => ?_, ?_, ?_, ?_, ?_⟩
  · have : modifiedAll S p (hist ++ later) = modifiedAll S (modifiedAll S p hist) later := by
      simp [modifiedAll]
    rw [this]
    exact (C46_closed_stays_closed_partial S _ later h).1
  all_goals
    induction hist generalizing p with
    | nil => rfl
    | cons t ts ih =>
      refine (ih (modified S p t)).trans ?_
      rcases modified_cases S p t with ⟨_, e⟩ | ⟨_, _, e⟩ | ⟨_, _, _, e⟩ | ⟨_, _, _, e⟩ <;> rw [e] <;> rfl

/-- The IDs a history must leave in the log: those of the trades that are accepted in the state
they meet. -/
def Spec.acceptedIds (S : FloatSem) (p : Position) : List Trade → List String
  | [] => []
  | t :: ts =>
    (if Accepts S p t then [t.id] else []) ++ Spec.acceptedIds S (modified S p t) ts

/-- C47: sold out, then bought again. -/
example : (modifiedAll ieee (newPosition "p" 0 (exTrade "a" "buy" 10 2)) [exTrade "b" "sell" 12 2]).opened = false ∧
    (modifiedAll ieee (newPosition "p" 0 (exTrade "a" "buy" 10 2)) ([exTrade "b" "sell" 12 2] ++ [exTrade "c" "buy" 11 4])).opened = false ∧
    (modifiedAll ieee (newPosition "p" 0 (exTrade "a" "buy" 10 2)) ([exTrade "b" "sell" 12 2] ++ [exTrade "c" "buy" 11 4])).quantity = .fin 6 := by
  decide +kernel

/-- **C48.** `Trades` is the opening trade's ID followed, in order, by the IDs of exactly the
trades of the history that were accepted; and a trade that was not accepted changed nothing. -/
theorem C48_trade_log (S : FloatSem) (id : String) (z : Int) (first : Trade) (hist : List Trade) :
    (modifiedAll S (newPosition id z first) hist).trades =
      first.id :: Spec.acceptedIds S (newPosition id z first) hist ∧
    ∀ (p : Position) (t : Trade), ¬ Accepts S p t → modified S p t = p := by
  constructor
  · have key : ∀ (hist : List Trade) (p : Position),
        (modifiedAll S p hist).trades = p.trades ++ Spec.acceptedIds S p hist := by
      intro hist
      induction hist with
      | nil => intro p; simp [modifiedAll, Spec.acceptedIds]
      | cons t ts ih =>
        intro p
        refine (ih (modified S p t)).trans ?_
        have : (modified S p t).trades = p.trades ++ (if Accepts S p t then [t.id] else []) := by
          rcases modified_cases S p t with ⟨h, e⟩ | ⟨h, _, e⟩ | ⟨h, _, _, e⟩ | ⟨h, _, _, e⟩ <;>
            simp [e, h, posAdd, closedBy, shrunkBy]
        rw [this]
        simp [Spec.acceptedIds]
    exact key hist _
  · intro p t h
    rcases modified_cases S p t with ⟨_, e⟩ | ⟨h', _⟩ | ⟨h', _⟩ | ⟨h', _⟩
    · exact e
    all_goals exact absurd h' h

example : (modifiedAll ieee (newPosition "p" 0 (exTrade "a" "buy" 10 2))
    [exTrade "b" "buy" 11 3, exTrade "x" "sell" 9 100, exTrade "y" "hold" 9 1,
      exTrade "c" "sell" 14 1]).trades = ["a", "b", "c"] := by decide +kernel

/-! ### C49 -/

/-- Positive, not NaN, and a value of the format. -/
def PosRep (S : FloatSem) (x : Fl) : Prop := Fl.lt (.fin 0) x = true ∧ S.Rep x

theorem rep_rnd {S : FloatSem} (hS : Lawful S) {q : ℚ} : S.Rep (S.rnd q) :=
  fun r h => hS.r64.idem q r h

theorem posRep_add {S : FloatSem} (hS : Lawful S) {x y : Fl} (hx : PosRep S x) (hy : PosRep S y) :
    PosRep S (S.add x y) := by
  obtain ⟨hx1, hx2⟩ := hx
  obtain ⟨hy1, hy2⟩ := hy
  cases x with
  | nan => simp [Fl.lt, Fl.isNaN] at hx1
  | negZero => simp [Fl.lt, Fl.key] at hx1
  | inf a =>
    cases a with
    | true => simp [Fl.lt, Fl.key] at hx1
    | false =>
      have : S.add (.inf false) y = .inf false := by
        cases y with
        | nan => simp [Fl.lt, Fl.isNaN] at hy1
        | inf b => cases b <;> simp [Fl.lt, Fl.key] at hy1 ⊢; simp [FloatSem.add]
        | _ => rfl
      rw [this]; exact ⟨hx1, hx2⟩
  | fin a =>
    cases y with
    | nan => simp [Fl.lt, Fl.isNaN] at hy1
    | negZero => simp [Fl.lt, Fl.key] at hy1
    | inf b => exact ⟨hy1, hy2⟩
    | fin b =>
      have e : S.add (.fin a) (.fin b) = S.rnd (a + b) := rfl
      rw [e]
      have ha : 0 < a := by simpa using hx1
      have hb : 0 < b := by simpa using hy1
      refine ⟨?_, rep_rnd hS⟩
      rw [Fl.lt_iff]
      refine ⟨by simp, hS.r64.not_nan _, ?_⟩
      have h := hS.r64.mono a (a + b) (by linarith)
      rw [hx2 a rfl] at h
      refine lt_of_lt_of_le ?_ h
      simpa [Fl.key] using ha

theorem sub_num {S : FloatSem} (hS : Lawful S) {x y : Fl} (hx : PosRep S x) (hy : y.isFinite = true) :
    S.sub x y ≠ .nan ∧ S.Rep (S.sub x y) := by
  obtain ⟨hx1, hx2⟩ := hx
  obtain ⟨b, hb⟩ : ∃ b, (Fl.neg y).Is b := ⟨_, (Fl.isFinite_is hy).neg⟩
  unfold FloatSem.sub
  cases x with
  | nan => simp [Fl.lt, Fl.isNaN] at hx1
  | inf a =>
    have : S.add (.inf a) (Fl.neg y) = .inf a := by
      generalize Fl.neg y = w at hb
      cases w <;> simp_all [FloatSem.add]
    rw [this]; exact ⟨by simp, by intro q h; cases h⟩
  | negZero => simp [Fl.lt, Fl.key] at hx1
  | fin a =>
    rcases FloatSem.add_is (S := S) (Fl.is_fin a) hb with e | ⟨e, _, _⟩
    · rw [e]; exact ⟨hS.r64.not_nan _, rep_rnd hS⟩
    · rw [e]; exact ⟨by simp, by intro q h; cases h⟩

/-- **C49.** In every lawful rounding (binary64 included), if the opening quantity and every
later trade's quantity are positive finite format values, the position's quantity is positive
(hence not NaN) after every history. Overflow to `+Inf` is allowed for the position. -/
theorem C49_quantity_positive {S : FloatSem} (hS : Lawful S) (id : String) (z : Int)
    (first : Trade) (hist : List Trade)
    (hpos : ∀ t ∈ first :: hist, Fl.lt (.fin 0) t.quantity = true)
    (hfin : ∀ t ∈ first :: hist, t.quantity.isFinite = true)
    (hrep : ∀ t ∈ first :: hist, S.Rep t.quantity) :
    let q := (modifiedAll S (newPosition id z first) hist).quantity
    q ≠ .nan ∧ Fl.lt (.fin 0) q = true := by
  have key : ∀ (hist : List Trade) (p : Position), PosRep S p.quantity →
      (∀ t ∈ hist, PosRep S t.quantity ∧ t.quantity.isFinite = true) →
      PosRep S (modifiedAll S p hist).quantity := by
    intro hist
    induction hist with
    | nil => intro p hp _; exact hp
    | cons t ts ih =>
      intro p hp ht
      refine ih (modified S p t) ?_ (fun t h => ht t (by simp [h]))
      obtain ⟨ht1, ht2⟩ := ht t (by simp)
      rcases modified_cases S p t with ⟨_, e⟩ | ⟨_, _, e⟩ | ⟨_, _, _, e⟩ | ⟨_, _, hle, e⟩ <;> rw [e]
      · exact hp
      · exact posRep_add hS hp ht1
      · exact hp
      · obtain ⟨h1, h2⟩ := sub_num hS hp ht2
        refine ⟨?_, h2⟩
        change Fl.lt (.fin 0) (S.sub p.quantity t.quantity) = true
        rw [Fl.le_of_num h1 (by simp)] at hle
        rw [Fl.lt_of_num (by simp) h1]
        simpa using hle
  have h := key hist (newPosition id z first)
    ⟨hpos first (by simp), hrep first (by simp)⟩
    (fun t h => ⟨⟨hpos t (by simp [h]), hrep t (by simp [h])⟩, hfin t (by simp [h])⟩)
  exact ⟨(Fl.lt_iff.1 h.1).2.1, h.1⟩

/-- Binary64: a history that grows, is sent an oversized trade and shrinks. -/
example : ∀ t ∈ [exTrade "a" "buy" 1 (2^60), exTrade "b" "buy" 1 3,
      exTrade "c" "sell" 1 (2^62), exTrade "d" "sell" 1 3],
    Fl.lt (.fin 0) t.quantity = true ∧ t.quantity.isFinite = true ∧ ieee.Rep t.quantity := by
  have h1 : ieee.rnd (2^60) = .fin (2^60) := by decide +kernel
  have h2 : ieee.rnd (2^62) = .fin (2^62) := by decide +kernel
  have h3 : ieee.rnd 3 = .fin 3 := by decide +kernel
  intro t ht
  simp only [List.mem_cons, List.not_mem_nil, or_false] at ht
  rcases ht with rfl | rfl | rfl | rfl <;>
  · refine ⟨by decide +kernel, rfl, ?_⟩
    intro q h
    simp only [exTrade, Fl.fin.injEq] at h
    subst h
    assumption

/-! ### C51 -/

/-- Buy and sell swapped. -/
def Spec.mirrorAction (a : String) : String :=
  if a = "buy" then "sell" else if a = "sell" then "buy" else a
/-- Long and short swapped. -/
def Spec.mirrorType (a : String) : String :=
  if a = "long" then "short" else if a = "short" then "long" else a
/-- The mirrored trade. -/
def Spec.mirrorTrade (t : Trade) : Trade := { t with action := mirrorAction t.action }
/-- Opposite profits: negated, except that a zero or NaN profit may also be kept as it is
(`x - x` is `+0` both ways). -/
def Spec.NegRel (a b : Fl) : Prop := b = Fl.neg a ∨ (b = a ∧ (a.isZero = true ∨ a = .nan))
/-- The mirrored position: opposite type, opposite profit, everything else equal. -/
def Spec.Mirrored (p p' : Position) : Prop :=
  p' = { p with type := Spec.mirrorType p.type, profit := p'.profit } ∧ Spec.NegRel p.profit p'.profit

theorem Spec.NegRel.is {a b : Fl} (h : NegRel a b) {x : ℚ} (ha : a.Is x) : b.Is (-x) := by
  rcases h with rfl | ⟨rfl, h | h⟩
  · exact ha.neg
  · rw [ha.isZero] at h
    simp at h; subst h; simpa using ha
  · subst h; simp at ha

theorem rnd_zero {S : FloatSem} (hS : Lawful S) : S.rnd 0 = .fin 0 := by
  have := hS.r64.int 0 (by norm_num)
  simpa using this

theorem negRel_sub {S : FloatSem} (hS : Lawful S) (x y : Fl) :
    NegRel (S.sub x y) (S.sub y x) := by
  have h0 := rnd_zero hS
  have hfin : ∀ a b : ℚ, NegRel (S.rnd (a + -b)) (S.rnd (b + -a)) := by
    intro a b
    by_cases h : a + -b = 0
    · have : b + -a = 0 := by linarith
      rw [h, this, h0]; right; simp [Fl.isZero]
    · left
      rw [← hS.r64.odd _ h]; congr 1; ring
  rcases x with _ | x | x | _ <;> rcases y with _ | y | y | _
  case fin.fin =>
    have h := hfin x y
    by_cases hx : x = 0 <;> by_cases hy : y = 0 <;>
      simp_all [FloatSem.sub, FloatSem.add, Fl.neg, Fl.toRat]
  case fin.negZero =>
    by_cases hx : x = 0
    · subst hx; left; simp [FloatSem.sub, FloatSem.add, Fl.neg, Fl.toRat, h0]
    · have h := hfin x 0; simp_all [FloatSem.sub, FloatSem.add, Fl.neg, Fl.toRat]
  case negZero.fin =>
    by_cases hx : y = 0
    · subst hx; left; simp [FloatSem.sub, FloatSem.add, Fl.neg, Fl.toRat, h0]
    · have h := hfin 0 y; simp_all [FloatSem.sub, FloatSem.add, Fl.neg, Fl.toRat]
  case negZero.negZero =>
    right; simp [FloatSem.sub, FloatSem.add, Fl.neg, Fl.toRat, h0, Fl.isZero]
  case inf.inf =>
    cases x <;> cases y <;> simp [FloatSem.sub, FloatSem.add, Fl.neg, NegRel]
  case inf.fin =>
    left; by_cases hy : y = 0 <;> simp [FloatSem.sub, FloatSem.add, Fl.neg, hy]
  case fin.inf =>
    left; by_cases hx : x = 0 <;> simp [FloatSem.sub, FloatSem.add, Fl.neg, hx]
  all_goals left; simp [FloatSem.sub, FloatSem.add, Fl.neg]

theorem mul_fin {S : FloatSem} {x q : Fl} (hx : x.isFinite = true) (hq : q.isFinite = true) :
    S.mul x q = if x.toRat * q.toRat = 0 then Fl.zero (xor x.sgn q.sgn)
      else S.rnd (x.toRat * q.toRat) := by
  cases x <;> cases q <;> simp_all [FloatSem.mul, Fl.isFinite]

theorem sgn_neg {x : Fl} (h : x ≠ .nan) : (Fl.neg x).sgn = !x.sgn := by
  cases x with
  | nan => exact absurd rfl h
  | inf b => rfl
  | negZero => rfl
  | fin q =>
    rcases lt_trichotomy q 0 with h | h | h
    · simp [Fl.neg, Fl.sgn, h, h.ne, h.le]
    · simp [Fl.neg, Fl.sgn, h]
    · simp [Fl.neg, Fl.sgn, h, h.ne', h.le]

theorem isZero_neg (x : Fl) : (Fl.neg x).isZero = x.isZero := by
  cases x with
  | fin q => by_cases h : q = 0 <;> simp [Fl.neg, Fl.isZero, h]
  | _ => rfl

theorem isFinite_neg (x : Fl) : (Fl.neg x).isFinite = x.isFinite := by
  cases x with
  | fin q => by_cases h : q = 0 <;> simp [Fl.neg, Fl.isFinite, h]
  | _ => rfl

theorem toRat_neg (x : Fl) : (Fl.neg x).toRat = -x.toRat := by
  cases x with
  | fin q => by_cases h : q = 0 <;> simp [Fl.neg, Fl.toRat, h]
  | _ => simp [Fl.neg, Fl.toRat]

theorem neg_zero' (b : Bool) : Fl.neg (Fl.zero b) = Fl.zero (!b) := by
  cases b <;> simp [Fl.neg, Fl.zero]

theorem isFinite_ne_nan {x : Fl} (h : x.isFinite = true) : x ≠ .nan := by
  rintro rfl; cases h

theorem mul_inf {S : FloatSem} {x : Fl} {b : Bool} (hx : x.isFinite = true) :
    S.mul x (.inf b) = if x.isZero then .nan else .inf (xor x.sgn b) := by
  cases x <;> simp_all [FloatSem.mul, Fl.isFinite]

theorem mul_neg_left {S : FloatSem} (hS : Lawful S) (x q : Fl) :
    S.mul (Fl.neg x) q = Fl.neg (S.mul x q) := by
  by_cases hx : x.isFinite = true
  · have hx' : (Fl.neg x).isFinite = true := by rw [isFinite_neg]; exact hx
    by_cases hq : q.isFinite = true
    · rw [mul_fin hx' hq, mul_fin hx hq, toRat_neg, sgn_neg (isFinite_ne_nan hx)]
      by_cases h : x.toRat * q.toRat = 0
      · rw [if_pos (by linarith), if_pos h, neg_zero']
        congr 1
        simp
      · rw [if_neg (by intro h'; apply h; linarith), if_neg h, neg_mul, hS.r64.odd _ h]
    · cases q with
      | nan => generalize Fl.neg x = y; cases y <;> cases x <;> rfl
      | inf b =>
        rw [mul_inf hx', mul_inf hx, isZero_neg, sgn_neg (isFinite_ne_nan hx)]
        split
        · rfl
        · simp [Fl.neg]
      | fin q => exact absurd rfl hq
      | negZero => exact absurd rfl hq
  · cases x with
    | fin q => exact absurd rfl hx
    | negZero => exact absurd rfl hx
    | nan => rfl
    | inf b =>
      cases q with
      | nan => rfl
      | inf c => simp [FloatSem.mul, Fl.neg]
      | fin q => by_cases hq : q = 0 <;> simp [FloatSem.mul, Fl.neg, Fl.isZero, hq]
      | negZero => simp [FloatSem.mul, Fl.neg, Fl.isZero]

theorem negRel_mul {S : FloatSem} (hS : Lawful S) {a b : Fl} (h : NegRel a b) (q : Fl) :
    NegRel (S.mul a q) (S.mul b q) := by
  rcases h with rfl | ⟨rfl, h | h⟩
  · left; exact mul_neg_left hS a q
  · right
    refine ⟨rfl, ?_⟩
    have hb : b.isFinite = true := by cases b <;> simp_all [Fl.isZero, Fl.isFinite]
    have hb0 : b.toRat = 0 := by cases b <;> simp_all [Fl.isZero, Fl.toRat]
    by_cases hq : q.isFinite = true
    · left
      rw [mul_fin hb hq, hb0]
      simp only [zero_mul, if_true]
      cases (xor b.sgn q.sgn) <;> simp [Fl.zero, Fl.isZero]
    · right
      cases q with
      | nan => cases b <;> rfl
      | inf c => rw [mul_inf hb, if_pos h]
      | fin q => exact absurd rfl hq
      | negZero => exact absurd rfl hq
  · subst h; right; refine ⟨rfl, Or.inr ?_⟩; rfl

theorem mirror_adds {p p' : Position} {t : Trade} (h : Mirrored p p') :
    (Adds p' (mirrorTrade t) ↔ Adds p t) ∧ (Reduces p' (mirrorTrade t) ↔ Reduces p t) := by
  have ht : p'.type = mirrorType p.type := by rw [h.1]
  have e : (mirrorTrade t).action = mirrorAction t.action := rfl
  have m1 : mirrorType p.type = "long" ↔ p.type = "short" := by
    unfold mirrorType; split <;> [skip; split] <;> simp_all
  have m2 : mirrorType p.type = "short" ↔ p.type = "long" := by
    unfold mirrorType; split <;> [skip; split] <;> simp_all
  have n1 : mirrorAction t.action = "buy" ↔ t.action = "sell" := by
    unfold mirrorAction; split <;> [skip; split] <;> simp_all
  have n2 : mirrorAction t.action = "sell" ↔ t.action = "buy" := by
    unfold mirrorAction; split <;> [skip; split] <;> simp_all
  unfold Adds Reduces
  rw [ht, e, m1, m2, n1, n2]
  constructor
  · exact or_comm
  · exact or_comm

theorem mirror_step {S : FloatSem} (hS : Lawful S) {p p' : Position} {t : Trade} (h : Mirrored p p') :
    Mirrored (modified S p t) (modified S p' (mirrorTrade t)) := by
  obtain ⟨ha, hr⟩ := mirror_adds (t := t) h
  have hq : p'.quantity = p.quantity := by rw [h.1]
  have hpair : p'.pair = p.pair := by rw [h.1]
  have hop : p'.openPrice = p.openPrice := by rw [h.1]
  have htr : p'.trades = p.trades := by rw [h.1]
  have htq : (mirrorTrade t).quantity = t.quantity := rfl
  have hO : Oversized S p' (mirrorTrade t) ↔ Oversized S p t := by
    unfold Oversized; rw [hq, htq]
  have hacc : Accepts S p' (mirrorTrade t) ↔ Accepts S p t := by
    unfold Accepts; rw [ha, hr, hO, hpair]; rfl
  rcases modified_cases S p t with ⟨h1, e⟩ | ⟨h1, h2, e⟩ | ⟨h1, h2, h3, e⟩ | ⟨h1, h2, h3, e⟩ <;>
  rcases modified_cases S p' (mirrorTrade t) with
    ⟨h1', e'⟩ | ⟨h1', h2', e'⟩ | ⟨h1', h2', h3', e'⟩ | ⟨h1', h2', h3', e'⟩ <;>
  (try rw [hacc] at h1') <;> (try rw [ha] at h2') <;> (try rw [hr] at h2') <;>
  (try rw [hq, htq] at h3') <;>
  first
    | (exfalso; exact h1 h1')
    | (exfalso; exact h1' h1)
    | (exfalso; exact not_adds_and_reduces h2 h2')
    | (exfalso; exact not_adds_and_reduces h2' h2)
    | (exfalso; rw [h3] at h3'; cases h3'; done)
    | skip
  · rw [e, e']; exact h
  · rw [e, e']
    refine ⟨?_, h.2⟩
    rw [h.1]; rfl
  · rw [e, e']
    refine ⟨?_, ?_⟩
    · rw [h.1]; rfl
    · have hx : (mirrorTrade t).price = t.price := rfl
      have ht : p'.type = mirrorType p.type := by rw [h.1]
      unfold closedBy
      simp only [ht, hx, hop, hq]
      rcases h2 with ⟨h2, _⟩ | ⟨h2, _⟩
      · simp only [h2, mirrorType, longPosition, if_true, show ("short" : String) ≠ "long" by decide,
          if_false]
        exact negRel_mul hS (negRel_sub hS _ _) _
      · simp only [h2, mirrorType, longPosition, if_true, show ("short" : String) ≠ "long" by decide,
          if_false]
        exact negRel_mul hS (negRel_sub hS _ _) _
  · rw [e, e']
    refine ⟨?_, h.2⟩
    rw [h.1]; rfl

/-- **C51.** In every lawful float semantics, running the mirrored trades on the mirrored
position gives, field by field, the mirrored position; its profit is the negated one. -/
theorem C51_mirror {S : FloatSem} (hS : Lawful S) {p p' : Position} (h : Mirrored p p')
    (hist : List Trade) :
    Mirrored (modifiedAll S p hist) (modifiedAll S p' (hist.map mirrorTrade)) := by
  induction hist generalizing p p' with
  | nil => exact h
  | cons t ts ih => exact ih (mirror_step hS h)

/-- **C51**, from the opening trades on, in exact arithmetic. -/
theorem C51_mirror_open {id : String} {z : Int} {first : Trade} (hb : BuyOrSell first)
    (hist : List Trade) {x : ℚ}
    (hx : (modifiedAll FloatSem.exact (newPosition id z first) hist).profit.Is x) :
    let p := modifiedAll FloatSem.exact (newPosition id z first) hist
    let p' := modifiedAll FloatSem.exact (newPosition id z (mirrorTrade first)) (hist.map mirrorTrade)
    p' = { p with type := mirrorType p.type, profit := p'.profit } ∧ p'.profit.Is (-x) := by
  intro p p'
  have h0 : Mirrored (newPosition id z first) (newPosition id z (mirrorTrade first)) := by
    refine ⟨?_, ?_⟩
    · rcases hb with h | h <;> simp [newPosition, mirrorTrade, mirrorAction, mirrorType, h, buyAction,
        sellAction, longPosition, shortPosition]
    · right; exact ⟨rfl, Or.inl (by simp [newPosition, Fl.isZero])⟩
  have h := C51_mirror exact_lawful h0 hist
  exact ⟨h.1, h.2.is hx⟩

example : BuyOrSell (exTrade "a" "buy" 10 2) ∧
    (modifiedAll FloatSem.exact (newPosition "p" 0 (exTrade "a" "buy" 10 2))
      [exTrade "b" "buy" 13 1, exTrade "c" "sell" 14 3]).profit = .fin 9 ∧
    (modifiedAll FloatSem.exact (newPosition "p" 0 (exTrade "a" "sell" 10 2))
      [exTrade "b" "sell" 13 1, exTrade "c" "buy" 14 3]).profit = .fin (-9) :=
  ⟨by decide, by decide +kernel, by decide +kernel⟩

end Finmod
