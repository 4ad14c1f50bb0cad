import Verif.Props.MoreExact

/-!
# C160: what a position records
-/

namespace Finmod
open Go Spec

/-- The trade closes the position: it is accepted, on the other side, and leaves no quantity. -/
def Spec.Closing (S : FloatSem) (p : Position) (t : Trade) : Prop :=
  Accepts S p t ∧ Reduces p t ∧ Fl.le (S.sub p.quantity t.quantity) (.fin 0) = true

instance (S p t) : Decidable (Closing S p t) := by unfold Closing; infer_instance

/-- **C160** `NewPosition` takes pair, price, quantity, time and ID from the trade and the type from
its action; everything else is empty. -/
theorem C160_opening (id : String) (z : Int) (t : Trade) :
    let p := newPosition id z t
    (t.action = "buy" → p.type = "long") ∧ (t.action = "sell" → p.type = "short") ∧
    (t.action ≠ "buy" → t.action ≠ "sell" → p.type = "") ∧
    p.id = id ∧ p.pair = t.pair ∧ p.openPrice = t.price ∧ p.quantity = t.quantity ∧
    p.openTime = t.executionTime ∧ p.trades = [t.id] ∧ p.opened = true ∧
    p.closePrice = .fin 0 ∧ p.closeTime = z ∧ p.profit = .fin 0 ∧
    p.takeProfit = ⟨.fin 0, ""⟩ ∧ p.stopLoss = ⟨.fin 0, ""⟩ ∧ p.executionID = "" ∧ p.data = "" := by
  intro p
  refine ⟨fun h => ?_, fun h => ?_, fun h h' => ?_, rfl, rfl, rfl, rfl, rfl, rfl, rfl, rfl, rfl, rfl, rfl, rfl, rfl, rfl⟩
  · simp [p, newPosition, h, buyAction, longPosition]
  · simp [p, newPosition, h, buyAction, sellAction, shortPosition]
  · simp [p, newPosition, h, h', buyAction, sellAction]

/-- A trade whose action is neither opens a position no trade changes. -/
theorem C160_no_type (S : FloatSem) (id : String) (z : Int) (t : Trade) (h1 : t.action ≠ "buy")
    (h2 : t.action ≠ "sell") (hist : List Trade) :
    modifiedAll S (newPosition id z t) hist = newPosition id z t := by
  have hty := (C160_opening id z t).2.2.1 h1 h2
  induction hist with
  | nil => rfl
  | cons a l ih =>
    have : modified S (newPosition id z t) a = newPosition id z t := by
      by_contra hne
      obtain ⟨-, hA⟩ := (C138_changes_iff S _ a).1.1 hne
      rcases hA with hA | ⟨hR, -⟩
      · rcases hA with ⟨e, -⟩ | ⟨e, -⟩ <;> rw [hty] at e <;> exact absurd e (by decide)
      · rcases hR with ⟨e, -⟩ | ⟨e, -⟩ <;> rw [hty] at e <;> exact absurd e (by decide)
    show modifiedAll S (modified S _ a) l = _
    rw [this]
    exact ih

theorem modifiedAll_append (S : FloatSem) (p : Position) (a b : List Trade) :
    modifiedAll S p (a ++ b) = modifiedAll S (modifiedAll S p a) b := List.foldl_append ..

/-- What a closing trade leaves as profit. -/
theorem closing_trade_profit {S : FloatSem} {p : Position} {t : Trade} (h : Closing S p t) :
    (modified S p t).profit =
      if p.type = "long" then S.mul (S.sub t.price p.openPrice) p.quantity
      else S.mul (S.sub p.openPrice t.price) p.quantity := by
  obtain ⟨hA, hR, hle⟩ := h
  rcases modified_cases S p t with ⟨h', e⟩ | ⟨h', ha, e⟩ | ⟨h', hr, hle', e⟩ | ⟨h', hr, hle', e⟩
  · exact absurd hA h'
  · exact absurd hR (not_adds_and_reduces ha)
  · rw [e]; rfl
  · exact absurd (hle'.symm.trans hle) (by simp)

/-- **C160** After any history: as long as no trade was a closing one the position is open with no
close price, close time or profit. Otherwise it is closed and shows price, time and profit of the
last closing trade. -/
theorem C160_record (S : FloatSem) (id : String) (z : Int) (first : Trade) (hist : List Trade) :
    let at_ := fun h => modifiedAll S (newPosition id z first) h
    let p := at_ hist
    p.openTime = first.executionTime ∧ p.takeProfit = ⟨.fin 0, ""⟩ ∧ p.stopLoss = ⟨.fin 0, ""⟩ ∧
    ((∀ a t b, hist = a ++ t :: b → ¬ Closing S (at_ a) t) →
      p.opened = true ∧ p.closePrice = .fin 0 ∧ p.closeTime = z ∧ p.profit = .fin 0) ∧
    (∀ a t b, hist = a ++ t :: b → Closing S (at_ a) t →
      (∀ a' t' b', b = a' ++ t' :: b' → ¬ Closing S (at_ (a ++ t :: a')) t') →
      p.opened = false ∧ p.closePrice = t.price ∧ p.closeTime = t.executionTime ∧
      p.profit = if (at_ a).type = "long" then S.mul (S.sub t.price (at_ a).openPrice) (at_ a).quantity
        else S.mul (S.sub (at_ a).openPrice t.price) (at_ a).quantity) := by
  intro at_ p
  -- without a closing trade the four fields stay
  have keep : ∀ (l : List Trade) (q : Position),
      (∀ a t b, l = a ++ t :: b → ¬ Closing S (modifiedAll S q a) t) →
      (modifiedAll S q l).opened = q.opened ∧ (modifiedAll S q l).closePrice = q.closePrice ∧
      (modifiedAll S q l).closeTime = q.closeTime ∧ (modifiedAll S q l).profit = q.profit := by
    intro l
    induction l with
    | nil => intro q _; exact ⟨rfl, rfl, rfl, rfl⟩
    | cons x xs ih =>
      intro q h
      obtain ⟨i1, i2, i3, i4⟩ := ih (modified S q x) (fun a t b e => by
        have := h (x :: a) t b (by rw [e]; rfl)
        exact this)
      obtain ⟨c1, c2, c3, c4⟩ := (C138_frame S q x).2.2 (h [] x xs rfl)
      exact ⟨i1.trans c4, i2.trans c1, i3.trans c2, i4.trans c3⟩
  have frame : ∀ (l : List Trade) (q : Position), (modifiedAll S q l).openTime = q.openTime ∧
      (modifiedAll S q l).takeProfit = q.takeProfit ∧ (modifiedAll S q l).stopLoss = q.stopLoss := by
    intro l
    induction l with
    | nil => intro q; exact ⟨rfl, rfl, rfl⟩
    | cons x xs ih =>
      intro q
      obtain ⟨i1, i2, i3⟩ := ih (modified S q x)
      obtain ⟨-, -, -, c1, c2, c3, -⟩ := (C138_frame S q x).1
      exact ⟨i1.trans c1, i2.trans c2, i3.trans c3⟩
  obtain ⟨f1, f2, f3⟩ := frame hist (newPosition id z first)
  refine ⟨f1, f2, f3, fun h => keep hist _ h, fun a t b e hc hb => ?_⟩
  have hp : p = modifiedAll S (modified S (at_ a) t) b := by
    show modifiedAll S _ hist = _
    rw [e, modifiedAll_append]
    rfl
  obtain ⟨k1, k2, k3, k4⟩ := keep b (modified S (at_ a) t) (fun a' t' b' e' => by
    have := hb a' t' b' e'
    have e2 : at_ (a ++ t :: a') = modifiedAll S (modified S (at_ a) t) a' := modifiedAll_append S _ a (t :: a')
    rwa [e2] at this)
  obtain ⟨-, -, c1, c2, c3⟩ := (C138_frame S (at_ a) t).2.1 hc.1 hc.2.1 hc.2.2
  rw [hp]
  exact ⟨k1.trans c3, k2.trans c1, k3.trans c2, k4.trans (closing_trade_profit hc)⟩

/-- Bought twice, sold in two parts: the second sale closes. -/
example : Closing ieee (modifiedAll ieee (newPosition "p" 0 (exTrade "a" "buy" 10 2))
    [exTrade "b" "buy" 12 2, exTrade "c" "sell" 13 1]) (exTrade "d" "sell" 14 3) := by decide +kernel

example : (modifiedAll ieee (newPosition "p" 0 (exTrade "a" "buy" 10 2))
    [exTrade "b" "buy" 12 2, exTrade "c" "sell" 13 1, exTrade "d" "sell" 14 3]).closePrice = .fin 14 := by
  decide +kernel

example : newPosition "p" 0 (exTrade "a" "swap" 10 2) =
    modifiedAll ieee (newPosition "p" 0 (exTrade "a" "swap" 10 2)) [exTrade "b" "sell" 12 2] := by
  decide +kernel

end Finmod
