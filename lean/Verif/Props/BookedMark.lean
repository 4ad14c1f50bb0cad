import Verif.Props.PositionMoney

/-!
# What a closing trade books is the mark: C268
-/

namespace Finmod
open Go Spec

/-- The trade `t` closed `p` and left `p'`: the profit is the mark at the price of the trade, and the marks stay as they were. -/
structure Spec.ClosedBy (S : FloatSem) (p : Position) (t : Trade) (p' : Position) : Prop where
  opened : p'.opened = false
  price : p'.closePrice = t.price
  time : p'.closeTime = t.executionTime
  profit : p'.profit = unrealizedProfit S p t.price
  marks : ∀ x, unrealizedProfit S p' x = unrealizedProfit S p x

/-- Nothing was closed: the fields of the close are as before. -/
structure Spec.NotClosed (p p' : Position) : Prop where
  opened : p'.opened = p.opened
  price : p'.closePrice = p.closePrice
  time : p'.closeTime = p.closeTime
  profit : p'.profit = p.profit

/-- **C268** In any float arithmetic a trade closes a position and books the mark at its price, or leaves the fields of the close. -/
theorem C268_booked (S : FloatSem) (p : Position) (t : Trade) :
    ClosedBy S p t (modified S p t) ∨ NotClosed p (modified S p t) := by
  have hadd : NotClosed p (posAdd S p t) := ⟨rfl, rfl, rfl, rfl⟩
  have hsub : ClosedBy S p t (posSubstract' S p t) ∨ NotClosed p (posSubstract' S p t) := by
    unfold posSubstract' posSubstract
    dsimp only
    split_ifs with h1 h2 h3
    · exact .inr ⟨rfl, rfl, rfl, rfl⟩
    · refine .inl ⟨rfl, rfl, rfl, ?_, fun x => ?_⟩ <;> simp [unrealizedProfit, h3]
    · refine .inl ⟨rfl, rfl, rfl, ?_, fun x => ?_⟩ <;> simp [unrealizedProfit, h3]
    · exact .inr ⟨rfl, rfl, rfl, rfl⟩
  unfold modified modify
  split_ifs
  · exact .inr ⟨rfl, rfl, rfl, rfl⟩
  · exact .inr hadd
  · exact hsub
  · exact hsub
  · exact .inr hadd
  · exact .inr ⟨rfl, rfl, rfl, rfl⟩

/-- **C268** Over a whole history: either no trade closed the position, or its profit is the mark at the price of the last trade that
did, just before that trade. -/
theorem C268_history (S : FloatSem) (p : Position) (hist : List Trade) :
    NotClosed p (modifiedAll S p hist) ∨
    ∃ l t r, hist = l ++ t :: r ∧ ClosedBy S (modifiedAll S p l) t (modifiedAll S p (l ++ [t])) ∧
      NotClosed (modifiedAll S p (l ++ [t])) (modifiedAll S p hist) := by
  induction hist using List.reverseRecOn with
  | nil => exact .inl ⟨rfl, rfl, rfl, rfl⟩
  | append_singleton hist t ih =>
    have e : modifiedAll S p (hist ++ [t]) = modified S (modifiedAll S p hist) t := by
      simp [modifiedAll]
    rcases C268_booked S (modifiedAll S p hist) t with h | h
    · exact .inr ⟨hist, t, [], rfl, by rw [e]; exact h, ⟨rfl, rfl, rfl, rfl⟩⟩
    · rw [← e] at h
      rcases ih with i | ⟨l, u, r, rfl, i1, i2⟩
      · exact .inl ⟨h.1.trans i.1, h.2.trans i.2, h.3.trans i.3, h.4.trans i.4⟩
      · exact .inr ⟨l, u, r ++ [t], by simp, i1, ⟨h.1.trans i2.1, h.2.trans i2.2, h.3.trans i2.3, h.4.trans i2.4⟩⟩

/-- **C268** A position that is open after a history has booked nothing; one that is closed has booked the mark at the price of a
trade of the history. -/
theorem C268_profit (S : FloatSem) (id : String) (z : Int) (first : Trade) (hist : List Trade) :
    let p := modifiedAll S (newPosition id z first) hist
    (p.opened = true → p.profit = .fin 0) ∧
    (p.opened = false → ∃ l t r, hist = l ++ t :: r ∧ p.closePrice = t.price ∧ p.closeTime = t.executionTime ∧
      p.profit = unrealizedProfit S (modifiedAll S (newPosition id z first) l) t.price) := by
  intro p
  rcases C268_history S (newPosition id z first) hist with h | ⟨l, t, r, e, h1, h2⟩
  · refine ⟨fun _ => h.profit.trans rfl, fun hc => ?_⟩
    rw [show p.opened = _ from h.opened] at hc
    exact absurd hc (by simp [newPosition])
  · refine ⟨fun ho => ?_, fun _ => ⟨l, t, r, e, h2.price.trans h1.price, h2.time.trans h1.time, h2.profit.trans h1.profit⟩⟩
    rw [show p.opened = _ from h2.opened, h1.opened] at ho
    cases ho

/-- **Example for C268**: bought at 100, sold within the tolerance at 110: the whole position is booked. -/
example : (modified ieee (newPosition "p" 0 (exTrade "a" "buy" 100 2)) (exTrade "b" "sell" 110 (2 + 1 / 2 ^ 20))).opened = false ∧
    (modified ieee (newPosition "p" 0 (exTrade "a" "buy" 100 2)) (exTrade "b" "sell" 110 (2 + 1 / 2 ^ 20))).profit = .fin 20 ∧
    (modified ieee (newPosition "p" 0 (exTrade "a" "buy" 100 2)) (exTrade "b" "sell" 110 1)).opened = true := by decide +kernel

end Finmod
