import Verif.Model.Order
import Verif.Props.PositionMoney

/-!
# Trades, order requests and orders (C52–C58)
-/

namespace Finmod
open Go Spec

/-- **C52.** Fee identity in exact arithmetic, and every other field is the argument. -/
theorem C52_fee_identity {id : String} {time : Int} {action orderType : String} {pair : Pair}
    {price quantity cost : Fl} {p q c : ℚ} (hp : price.Is p) (hq : quantity.Is q) (hc : cost.Is c) :
    let t := newTrade FloatSem.exact id time action orderType pair price quantity cost
    t.id = id ∧ t.executionTime = time ∧ t.action = action ∧ t.orderType = orderType ∧
    t.pair = pair ∧ t.price = price ∧ t.quantity = quantity ∧ t.cost = cost ∧
    t.executionID = "" ∧
    ∃ f, t.fee.Is f ∧ (action = "buy" → c = p * q + f) ∧ (action ≠ "buy" → c = p * q - f) := by
  intro t
  refine ⟨rfl, rfl, rfl, rfl, rfl, rfl, rfl, rfl, rfl, ?_⟩
  have hm := FloatSem.exact_mul hp hq
  by_cases h : action = "buy"
  · refine ⟨c - p * q, ?_, fun _ => by ring, fun h' => absurd h h'⟩
    have : t.fee = FloatSem.exact.sub cost (FloatSem.exact.mul price quantity) := by
      simp [t, newTrade, h, buyAction]
    rw [this]; exact FloatSem.exact_sub hc hm
  · refine ⟨p * q - c, ?_, fun h' => absurd h' h, fun _ => by ring⟩
    have : t.fee = FloatSem.exact.sub (FloatSem.exact.mul price quantity) cost := by
      simp [t, newTrade, h, buyAction]
    rw [this]; exact FloatSem.exact_sub hm hc

example : (newTrade FloatSem.exact "x" 0 "buy" "market" exPair (.fin 10) (.fin 3) (.fin 32)).fee = .fin 2 ∧
    (newTrade FloatSem.exact "x" 0 "sell" "market" exPair (.fin 10) (.fin 3) (.fin 28)).fee = .fin 2 := by
  decide +kernel

/-- What `NewOrderRequest` must accept. -/
def Spec.ValidRequest (pair : Pair) (action orderType : String) (quantity price total : Fl) : Prop :=
  pair.base.symbol ≠ "" ∧ action ≠ "" ∧ orderType ≠ "" ∧
  (orderType = "limit" → price.isZero = false) ∧
  (quantity.isZero = false ∨ total.isZero = false)

theorem eq_zero_iff {x : Fl} : Fl.eq x (.fin 0) = x.isZero := by
  cases x with
  | nan => rfl
  | inf b => cases b <;> rfl
  | fin q => simp [Fl.isZero]
  | negZero => simp [Fl.eq, Fl.isNaN, Fl.key, Fl.isZero]

theorem ne_zero_iff {x : Fl} : Fl.ne x (.fin 0) = !x.isZero := by
  rw [Fl.ne, eq_zero_iff]

/-- **C53.** `NewOrderRequest` accepts exactly the valid requests, carries exactly the arguments,
and reports every other request as `EINVALID` with no request. -/
theorem C53_request_validation (pair : Pair) (action orderType : String) (quantity price total : Fl) :
    (ValidRequest pair action orderType quantity price total →
      newOrderRequest pair action orderType quantity price total =
        .ok (some ⟨action, orderType, pair, price, .fin 0, .fin 0, quantity, total⟩)) ∧
    (¬ ValidRequest pair action orderType quantity price total →
      newOrderRequest pair action orderType quantity price total = .err .einvalid none) := by
  unfold newOrderRequest ValidRequest
  simp only [eq_zero_iff, limitOrder]
  constructor
  · rintro ⟨h1, h2, h3, h4, h5⟩
    rw [if_neg h1, if_neg (by tauto), if_neg, if_neg]
    · rintro ⟨a, b⟩; rcases h5 with h5 | h5 <;> simp_all
    · rintro ⟨a, b⟩; rw [h4 a] at b; cases b
  · intro h
    split
    · rfl
    split
    · rfl
    split
    · rfl
    split
    · rfl
    · exfalso
      apply h
      refine ⟨by assumption, by tauto, by tauto, ?_, ?_⟩
      · intro h'; simp_all
      · by_contra hc
        simp_all

example : ValidRequest exPair "buy" "limit" (.fin 5) (.fin 2000) (.fin 0) ∧
    ¬ ValidRequest exPair "buy" "limit" (.fin 5) .negZero (.fin 0) := by
  constructor
  · exact ⟨by decide, by decide, by decide, fun _ => by decide +kernel, .inl (by decide +kernel)⟩
  · intro h; exact absurd (h.2.2.2.1 rfl) (by decide +kernel)

/-- The price a request is filled at: the current price for market orders, its own otherwise. -/
def Spec.effectivePrice (o : OrderRequest) (currentPrice : Fl) : Fl :=
  if o.type = "market" then currentPrice else o.price

/-- Exactly one of total and quantity is given. -/
def Spec.OneGiven (o : OrderRequest) : Prop :=
  (o.total.isZero = true ∧ o.quantity.isZero = false) ∨
  (o.total.isZero = false ∧ o.quantity.isZero = true)

theorem calculateFields_ok {S : FloatSem} {o : OrderRequest} {c : Fl} (h : OneGiven o) :
    calculateFields S o c = (o, .ok (some
      (if o.quantity.isZero = false then { o with total := S.mul o.quantity (effectivePrice o c) }
       else { o with quantity := S.div o.total (effectivePrice o c) }))) := by
  unfold calculateFields effectivePrice
  simp only [eq_zero_iff, ne_zero_iff, marketOrder]
  rcases h with ⟨h1, h2⟩ | ⟨h1, h2⟩ <;> simp only [h1, h2] <;> by_cases ht : o.type = "market" <;>
    simp [ht]

theorem calculateFields_err {S : FloatSem} {o : OrderRequest} {c : Fl} (h : ¬ OneGiven o) :
    calculateFields S o c = (o, .err .einvalid none) := by
  unfold calculateFields
  simp only [eq_zero_iff, ne_zero_iff]
  unfold OneGiven at h
  cases h1 : o.total.isZero <;> cases h2 : o.quantity.isZero <;> simp_all

/-- **C54.** Success iff exactly one of the two fields is non-zero, in every float semantics; the
other calls give `EINVALID` and no request; the receiver is never modified. -/
theorem C54_succeeds_iff (S : FloatSem) (o : OrderRequest) (c : Fl) :
    (calculateFields S o c).1 = o ∧
    (OneGiven o → ∃ r, (calculateFields S o c).2 = .ok (some r)) ∧
    (¬ OneGiven o → (calculateFields S o c).2 = .err .einvalid none) := by
  refine ⟨?_, fun h => ⟨_, by rw [calculateFields_ok h]⟩, fun h => by rw [calculateFields_err h]⟩
  by_cases h : OneGiven o
  · rw [calculateFields_ok h]
  · rw [calculateFields_err h]

/-- **C54.** The completed request: total is quantity times effective price, the given field and
every other field are unchanged. -/
theorem C54_completes {o : OrderRequest} {c : Fl} (h : OneGiven o) {t q p : ℚ}
    (ht : o.total.Is t) (hq : o.quantity.Is q) (hp : (effectivePrice o c).Is p) (hp0 : p ≠ 0) :
    ∃ r t' q', (calculateFields FloatSem.exact o c).2 = .ok (some r) ∧
      r.total.Is t' ∧ r.quantity.Is q' ∧ t' = q' * p ∧ t' ≠ 0 ∧ q' ≠ 0 ∧
      (q ≠ 0 → r.quantity = o.quantity) ∧ (t ≠ 0 → r.total = o.total) ∧
      r = { o with total := r.total, quantity := r.quantity } := by
  rw [calculateFields_ok h]
  rcases h with ⟨h1, h2⟩ | ⟨h1, h2⟩
  · rw [ht.isZero] at h1
    rw [hq.isZero] at h2
    simp only [decide_eq_true_eq, decide_eq_false_iff_not] at h1 h2
    have : o.quantity.isZero = false := by rw [hq.isZero]; simpa using h2
    simp only [this, if_true]
    exact ⟨_, q * p, q, rfl, FloatSem.exact_mul hq hp, hq, rfl, mul_ne_zero h2 hp0, h2,
      fun _ => rfl, fun h => absurd h1 h, rfl⟩
  · rw [ht.isZero] at h1
    rw [hq.isZero] at h2
    simp only [decide_eq_true_eq, decide_eq_false_iff_not] at h1 h2
    have : o.quantity.isZero = true := by rw [hq.isZero]; simpa using h2
    simp only [this]
    exact ⟨_, t, t / p, rfl, ht, FloatSem.exact_div ht hp hp0, by field_simp, h1,
      div_ne_zero h1 hp0, fun h => absurd h2 h, fun _ => rfl, rfl⟩

/-- A market buy for a total of 10000 at 2000. -/
def exRequest : OrderRequest := ⟨"buy", "market", exPair, .fin 0, .fin 0, .fin 0, .fin 0, .fin 10000⟩

example : OneGiven exRequest ∧ exRequest.total.Is 10000 ∧ exRequest.quantity.Is 0 ∧
    (effectivePrice exRequest (.fin 2000)).Is 2000 ∧
    ((calculateFields ieee exRequest (.fin 2000)).2 =
      .ok (some { exRequest with quantity := .fin 5 })) :=
  ⟨.inr ⟨by decide +kernel, by decide +kernel⟩, Fl.is_fin _, Fl.is_fin _, Fl.is_fin _,
    by decide +kernel⟩

/-- The full claim of C55. -/
def Spec.C55_claim (S : FloatSem) : Prop :=
  ∀ (pair : Pair) (action orderType : String) (quantity price total c : Fl) (o r : OrderRequest),
    quantity.isFinite = true → price.isFinite = true → total.isFinite = true → c.isFinite = true →
    0 < c.toRat →
    newOrderRequest pair action orderType quantity price total = .ok (some o) →
    (calculateFields S o c).2 = .ok (some r) → r.total.isFinite = true ∧ r.quantity.isFinite = true

/-- **C55 is false of the code**: a take-profit request for a total, with no price, is accepted
and completed to an infinite quantity. -/
theorem C55_finite_violated : ¬ Spec.C55_claim FloatSem.exact ∧ ¬ Spec.C55_claim ieee := by
  constructor
  all_goals
    intro h
    have := h exPair "sell" "take_profit" (.fin 0) (.fin 0) (.fin 10) (.fin 3)
      ⟨"sell", "take_profit", exPair, .fin 0, .fin 0, .fin 0, .fin 0, .fin 10⟩
      ⟨"sell", "take_profit", exPair, .fin 0, .fin 0, .fin 0, .inf false, .fin 10⟩
      rfl rfl rfl rfl (by decide +kernel) (by decide +kernel) (by decide +kernel)
    simp [Fl.isFinite] at this

/-- **C55 (partial).** With finite fields and a non-zero finite effective price (which market
orders with a positive current price and limit orders always have) the result is finite in exact
arithmetic, and never NaN in any lawful rounding. Missing: requests without a price, and overflow
in binary64. -/
theorem C55_finite_partial {o : OrderRequest} {c : Fl} (h : OneGiven o)
    (ht : o.total.isFinite = true) (hq : o.quantity.isFinite = true)
    (hp : (effectivePrice o c).isFinite = true) (hp0 : (effectivePrice o c).toRat ≠ 0) :
    (∃ r, (calculateFields FloatSem.exact o c).2 = .ok (some r) ∧
      r.total.isFinite = true ∧ r.quantity.isFinite = true) ∧
    ∀ S, Lawful S → ∃ r, (calculateFields S o c).2 = .ok (some r) ∧
      r.total ≠ .nan ∧ r.quantity ≠ .nan := by
  constructor
  · obtain ⟨r, t', q', e, h1, h2, _⟩ := C54_completes h (Fl.isFinite_is ht) (Fl.isFinite_is hq)
      (Fl.isFinite_is hp) hp0
    exact ⟨r, e, (Fl.is_iff.1 h1).1, (Fl.is_iff.1 h2).1⟩
  · intro S hS
    rw [calculateFields_ok h]
    refine ⟨_, rfl, ?_⟩
    by_cases hz : o.quantity.isZero = false
    · rw [if_pos hz]
      refine ⟨?_, (Fl.isFinite_is hq).ne_nan⟩
      rcases FloatSem.mul_is (S := S) (Fl.isFinite_is hq) (Fl.isFinite_is hp) with ⟨_, e⟩ | ⟨_, e⟩
      · rw [e]; exact hS.r64.not_nan _
      · exact e.ne_nan
    · rw [if_neg hz]
      refine ⟨(Fl.isFinite_is ht).ne_nan, ?_⟩
      rcases FloatSem.div_is (S := S) (Fl.isFinite_is ht) (Fl.isFinite_is hp) hp0 with ⟨_, e⟩ | ⟨_, e⟩
      · rw [e]; exact hS.r64.not_nan _
      · exact e.ne_nan

/-- C55: a market order for a total. -/
example : OneGiven exRequest ∧ exRequest.total.isFinite = true ∧ exRequest.quantity.isFinite = true ∧
    (effectivePrice exRequest (.fin 2000)).isFinite = true ∧ (effectivePrice exRequest (.fin 2000)).toRat ≠ 0 := by
  refine ⟨?_, by decide +kernel, by decide +kernel, by decide +kernel, by decide +kernel⟩
  unfold OneGiven; decide +kernel

/-- The full claim of C56. -/
def Spec.C56_claim (S : FloatSem) : Prop :=
  ∀ (o r : OrderRequest) (c : Fl), o.type = "close_position" → o.quantity.isZero = false →
    (calculateFields S o c).2 = .ok (some r) → r.total = S.mul o.quantity c

/-- **C56 is false of the code**: only market orders use the current price. -/
theorem C56_close_price_violated : ¬ Spec.C56_claim FloatSem.exact ∧ ¬ Spec.C56_claim ieee := by
  constructor
  all_goals
    intro h
    have := h ⟨"sell", "close_position", exPair, .fin 0, .fin 0, .fin 0, .fin 2, .fin 0⟩
      ⟨"sell", "close_position", exPair, .fin 0, .fin 0, .fin 0, .fin 2, .fin 0⟩ (.fin 10)
      rfl (by decide +kernel) (by decide +kernel)
    exact absurd this (by decide +kernel)

/-- **C56 (partial).** What the code does instead: every type but `market` uses the request's own
price, so a close-position request is priced at the current price exactly when it carries that
price itself; market orders do use the current price. Missing: close-position requests with
another (or no) price. -/
theorem C56_close_price_partial (S : FloatSem) (o r : OrderRequest) (c : Fl)
    (hq : o.quantity.isZero = false) (h : (calculateFields S o c).2 = .ok (some r)) :
    (o.type = "market" → r.total = S.mul o.quantity c) ∧
    (o.type = "close_position" → r.total = S.mul o.quantity o.price) ∧
    (o.type = "close_position" → o.price = c → r.total = S.mul o.quantity c) := by
  have hO : OneGiven o := by
    by_contra hn
    rw [calculateFields_err hn] at h; cases h
  rw [calculateFields_ok hO, if_pos hq] at h
  simp only [Res.ok.injEq, Option.some.injEq] at h
  subst h
  refine ⟨fun ht => ?_, fun ht => ?_, fun ht he => ?_⟩ <;> simp [effectivePrice, ht]
  rw [he]

/-- C56: a request to close 2 that carries the price 9, at a current price of 10. -/
example : let o : OrderRequest := ⟨"sell", "close_position", exPair, .fin 9, .fin 0, .fin 0, .fin 2, .fin 0⟩
    o.quantity.isZero = false ∧ (calculateFields ieee o (.fin 10)).2 = .ok (some { o with total := .fin 18 }) := by
  decide +kernel

/-- **C57.** A request with both fields non-zero is rejected, in every float semantics; and in
exact arithmetic the request that `CalculateFields` completes (finite fields, non-zero effective
price) is such a request: a second call is rejected whatever the price. -/
theorem C57_not_twice :
    (∀ (S : FloatSem) (o : OrderRequest) (c : Fl), o.total.isZero = false → o.quantity.isZero = false →
      (calculateFields S o c).2 = .err .einvalid none) ∧
    (∀ (o r : OrderRequest) (c c' : Fl), o.total.isFinite = true → o.quantity.isFinite = true →
      (effectivePrice o c).isFinite = true → (effectivePrice o c).toRat ≠ 0 →
      (calculateFields FloatSem.exact o c).2 = .ok (some r) →
      (calculateFields FloatSem.exact r c').2 = .err .einvalid none) := by
  have key : ∀ (S : FloatSem) (o : OrderRequest) (c : Fl), o.total.isZero = false →
      o.quantity.isZero = false → (calculateFields S o c).2 = .err .einvalid none := by
    intro S o c h1 h2
    rw [calculateFields_err]
    rintro (⟨h, _⟩ | ⟨_, h⟩) <;> simp_all
  refine ⟨key, fun o r c c' ht hq hp hp0 h => ?_⟩
  have hO : OneGiven o := by
    by_contra hn
    rw [calculateFields_err hn] at h; cases h
  obtain ⟨r', t', q', e, h1, h2, _, h4, h5, _⟩ := C54_completes hO (Fl.isFinite_is ht) (Fl.isFinite_is hq)
    (Fl.isFinite_is hp) hp0
  rw [e] at h
  simp only [Res.ok.injEq, Option.some.injEq] at h
  subst h
  refine key _ _ _ ?_ ?_
  · rw [h1.isZero]; simpa using h4
  · rw [h2.isZero]; simpa using h5

/-- C57: the request of C54, completed once and once more. -/
example : (calculateFields ieee exRequest (.fin 2000)).2 = .ok (some { exRequest with quantity := .fin 5 }) ∧
    (calculateFields ieee { exRequest with quantity := .fin 5 } (.fin 2000)).2 = .err .einvalid none := by
  decide +kernel

/-- **C58.** Open iff the status is neither `fulfilled` nor `canceled`, whatever the other
fields; in particular a status outside the four known ones counts as open. -/
theorem C58_isOpen (o : Order) :
    (o.isOpen = true ↔ o.status ≠ "fulfilled" ∧ o.status ≠ "canceled") ∧
    (∀ o' : Order, o'.status = o.status → o'.isOpen = o.isOpen) ∧
    (o.status ∉ ["fulfilled", "partial_fill", "unfilled", "canceled"] → o.isOpen = true) := by
  have key : ∀ o : Order, o.isOpen = true ↔ o.status ≠ "fulfilled" ∧ o.status ≠ "canceled" := by
    intro o
    unfold Order.isOpen fulfilledOrder canceledOrder
    split
    · simp; tauto
    · simp_all
  refine ⟨key o, fun o' h => ?_, fun h => ?_⟩
  · rw [Bool.eq_iff_iff, key, key, h]
  · rw [key]
    simp only [List.mem_cons, not_or] at h
    tauto

example : ∃ o : Order, o.status = "rejected" ∧ o.isOpen = true ∧
    { o with status := "canceled" }.isOpen = false :=
  ⟨⟨"", "buy", "limit", none, .fin 1, .fin 1, .fin 0, .fin 0, .fin 0, "rejected", 0, 0, [], .fin 0,
    .fin 0, "", ""⟩, rfl, by decide, by decide⟩

end Finmod
