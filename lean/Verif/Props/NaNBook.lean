import Verif.Props.NaNSpread
import Verif.Model.OrderBook
import Verif.Lemmas.Position

/-!
# C178, C179: NaN prices in books, NaN trades in positions
-/

namespace Finmod
open Go Spec

theorem limitSide_take (rows : List Row) {d : Int} (h : 0 ≤ d) :
    limitSide rows d = some (rows.take d.toNat) := by
  unfold limitSide sliceTo
  split
  · rw [if_neg (by omega)]
  · rw [List.take_of_length_le (by omega)]

theorem limit_take (b : Book) (h : 0 ≤ b.maxDepth) :
    b.limit = .ok { b with asks := b.asks.take b.maxDepth.toNat, bids := b.bids.take b.maxDepth.toNat } := by
  unfold Book.limit
  rw [limitSide_take _ h, limitSide_take _ h]

theorem eq_nan (x : Fl) : Fl.eq x .nan = false := by cases x <;> rfl
theorem lt_nan (x : Fl) : Fl.lt x .nan = false := by cases x <;> rfl
theorem nan_lt (x : Fl) : Fl.lt .nan x = false := by cases x <;> rfl
theorem gt_nan (x : Fl) : Fl.gt x .nan = false := by cases x <;> rfl
theorem nan_gt (x : Fl) : Fl.gt .nan x = false := by cases x <;> rfl
theorem le_nan (x : Fl) : Fl.le x .nan = false := by cases x <;> rfl
theorem nan_le (x : Fl) : Fl.le .nan x = false := by cases x <;> rfl

theorem findIdx?_false {l : List Row} : l.findIdx? (fun _ => false) = none := by
  rw [List.findIdx?_eq_none_iff]; simp

theorem upsertAsk_nan (rows : List Row) (v : Fl) : upsertAsk rows .nan v = rows ++ [mkRow .nan v] := by
  unfold upsertAsk
  simp only [eq_nan, gt_nan, findIdx?_false]
  split <;> simp

theorem upsertBid_nan (rows : List Row) (v : Fl) : upsertBid rows .nan v = rows ++ [mkRow .nan v] := by
  unfold upsertBid
  simp only [eq_nan, lt_nan, findIdx?_false]
  split <;> simp

/-- All rows but the first, if there are at least two. -/
def Spec.withoutBest (rows : List Row) : List Row := if 2 ≤ rows.length then rows.tail else rows

theorem removeInvalidBid_nan (rows : List Row) : (removeInvalidBid rows .nan).1 = withoutBest rows := by
  unfold removeInvalidBid withoutBest
  match rows with
  | [] => rfl
  | [a] => simp [nan_gt, gt_nan]
  | a :: b :: l => simp [nan_gt, gt_nan, List.findIdx?_cons]

theorem removeInvalidAsk_nan (rows : List Row) : (removeInvalidAsk rows .nan).1 = withoutBest rows := by
  unfold removeInvalidAsk withoutBest
  match rows with
  | [] => rfl
  | [a] => simp [nan_lt, lt_nan]
  | a :: b :: l => simp [nan_lt, lt_nan, List.findIdx?_cons]

/-- **C178.** A NaN-priced update with a volume (anything but zero) adds a row at the far end of its side,
where the depth limit may cut it, and takes the best row of the other side if that has two. With
volume zero it changes nothing. For every book, well-formed or not. -/
theorem C178_update (b : Book) (v : Fl) (hd : 0 ≤ b.maxDepth) :
    let d := b.maxDepth.toNat
    (Fl.ne v (.fin 0) = true →
      b.applyUpdate ⟨.nan, v, "ask"⟩ =
        .ok { b with asks := (b.asks ++ [(⟨.nan, v, .fin 0⟩ : Row)]).take d, bids := (withoutBest b.bids).take d } ∧
      b.applyUpdate ⟨.nan, v, "bid"⟩ =
        .ok { b with asks := (withoutBest b.asks).take d, bids := (b.bids ++ [(⟨.nan, v, .fin 0⟩ : Row)]).take d }) ∧
    (Fl.ne v (.fin 0) = false →
      b.applyUpdate ⟨.nan, v, "ask"⟩ = .ok b ∧ b.applyUpdate ⟨.nan, v, "bid"⟩ = .ok b) := by
  intro d
  refine ⟨fun hv => ⟨?_, ?_⟩, fun hv => ⟨?_, ?_⟩⟩
  · unfold Book.applyUpdate
    simp only [if_true, hv]
    rw [upsertAsk_nan, limit_take]
    · simp only [Book.removeInvalid, removeInvalidBid_nan, if_true]
      rfl
    · exact hd
  · unfold Book.applyUpdate
    simp only [show ¬ ("bid" = "ask") by decide, if_false, if_true, hv]
    rw [upsertBid_nan, limit_take]
    · simp only [Book.removeInvalid, removeInvalidAsk_nan, if_true]
      rfl
    · exact hd
  · unfold Book.applyUpdate
    simp [hv, eq_nan, findIdx?_false]
  · unfold Book.applyUpdate
    simp [hv, eq_nan, findIdx?_false]

theorem filter_removeElement {rows : List Row} {q : Row → Bool} {i : Nat} {r : Row} (h : rows[i]? = some r)
    (hq : q r = false) : (removeElement rows i).filter q = rows.filter q := by
  unfold removeElement
  have hi := (List.getElem?_eq_some_iff.1 h).1
  have hr := (List.getElem?_eq_some_iff.1 h).2
  conv_rhs => rw [← List.take_append_drop i rows, List.drop_eq_getElem_cons hi, hr]
  simp [List.filter_append, hq]

/-- A row without a price that is a number. -/
def Spec.nanRow (r : Row) : Bool := r.price.isNaN

theorem eq_nanRow {r : Row} {p : Fl} (h : Fl.eq r.price p = true) : nanRow r = false := by
  unfold nanRow
  obtain ⟨h1, _, _⟩ := Fl.eq_iff.1 h
  cases hr : r.price <;> simp_all [Fl.isNaN]

theorem findIdx?_get {l : List Row} {q : Row → Bool} {i : Nat} (h : l.findIdx? q = some i) :
    ∃ r, l[i]? = some r ∧ q r = true := by
  obtain ⟨hi, hq, _⟩ := List.findIdx?_eq_some_iff_getElem.1 h
  exact ⟨l[i], List.getElem?_eq_getElem hi, hq⟩

/-- **C178.** A NaN-priced row cannot be deleted: an update with volume zero leaves all of them, whatever
its price. -/
theorem C178_cannot_delete (b : Book) (p v : Fl) (hv : Fl.ne v (.fin 0) = false) (side : String)
    (ha : (b.asks.length : Int) ≤ b.maxDepth) (hb : (b.bids.length : Int) ≤ b.maxDepth) {b' : Book}
    (h : b.applyUpdate ⟨p, v, side⟩ = .ok b') :
    b'.asks.filter nanRow = b.asks.filter nanRow ∧ b'.bids.filter nanRow = b.bids.filter nanRow := by
  have hd : 0 ≤ b.maxDepth := by omega
  have tk : ∀ (rows : List Row) (i : Nat), (rows.length : Int) ≤ b.maxDepth →
      (removeElement rows i).take b.maxDepth.toNat = removeElement rows i := by
    intro rows i hl
    rw [List.take_of_length_le]
    have : (removeElement rows i).length ≤ rows.length := by
      unfold removeElement; simp; omega
    omega
  unfold Book.applyUpdate at h
  simp only [hv, Bool.false_eq_true, if_false] at h
  split at h
  · split at h
    · rename_i i hi
      obtain ⟨r, hr, hq⟩ := findIdx?_get hi
      rw [limit_take _ (by exact hd)] at h
      cases h
      refine ⟨?_, ?_⟩
      · rw [tk _ _ ha]; exact filter_removeElement hr (eq_nanRow hq)
      · show (b.bids.take b.maxDepth.toNat).filter nanRow = _
        rw [List.take_of_length_le (by omega)]
    · cases h; exact ⟨rfl, rfl⟩
  · split at h
    · split at h
      · rename_i i hi
        obtain ⟨r, hr, hq⟩ := findIdx?_get hi
        rw [limit_take _ (by exact hd)] at h
        cases h
        refine ⟨?_, ?_⟩
        · show (b.asks.take b.maxDepth.toNat).filter nanRow = _
          rw [List.take_of_length_le (by omega)]
        · rw [tk _ _ hb]; exact filter_removeElement hr (eq_nanRow hq)
      · cases h; exact ⟨rfl, rfl⟩
    · cases h

/-- **C178.** GetDepth at NaN finds nothing. -/
theorem C178_depth (b : Book) (h1 : b.asks ≠ []) (h2 : b.bids ≠ []) :
    b.getDepth .nan = .err .enotfound (.fin 0) := by
  obtain ⟨a, as, ha⟩ := List.exists_cons_of_ne_nil h1
  obtain ⟨c, cs, hc⟩ := List.exists_cons_of_ne_nil h2
  unfold Book.getDepth
  rw [nan_le]
  simp only [ha, hc, List.head?_cons, List.getLast?_cons, le_nan, nan_le, Bool.and_false,
    Bool.false_eq_true, if_false]

/-- A NaN ask into a book of depth 3: the best bid is gone, the row stays at the end for good. -/
example :
    let b : Book := ⟨0, [mkRow (.fin 11) (.fin 1)], [mkRow (.fin 10) (.fin 1), mkRow (.fin 9) (.fin 2)], 3⟩
    b.applyUpdate ⟨.nan, .fin 5, "ask"⟩ =
      .ok ⟨0, [mkRow (.fin 11) (.fin 1), mkRow .nan (.fin 5)], [mkRow (.fin 9) (.fin 2)], 3⟩ ∧
    b.applyAll [⟨.nan, .fin 5, "ask"⟩, ⟨.nan, .fin 0, "ask"⟩, ⟨.fin 11, .fin 0, "ask"⟩] =
      .ok ⟨0, [mkRow .nan (.fin 5)], [mkRow (.fin 9) (.fin 2)], 3⟩ ∧
    b.getDepth .nan = .err .enotfound (.fin 0) := by
  decide +kernel

/-! ### C179 -/

/-- **C179.** A position whose quantity is NaN keeps it and is never closed or charged a profit, whatever is
traded. -/
theorem C179_quantity_stays (S : FloatSem) (p : Position) (hq : p.quantity = .nan) (history : List Trade) :
    let q := modifiedAll S p history
    q.quantity = .nan ∧ q.opened = p.opened ∧ q.profit = p.profit ∧ q.closePrice = p.closePrice ∧
      q.closeTime = p.closeTime := by
  have step : ∀ (p : Position), p.quantity = .nan → ∀ t, (modified S p t).quantity = .nan ∧
      (modified S p t).opened = p.opened ∧ (modified S p t).profit = p.profit ∧
      (modified S p t).closePrice = p.closePrice ∧ (modified S p t).closeTime = p.closeTime := by
    intro p hq t
    have hsub : posSubstract S p t = .ok { p with
        openPrice := S.div (S.mul (S.sub p.openPrice
          (S.mul t.price (S.div t.quantity p.quantity))) p.quantity) .nan
        quantity := .nan
        trades := p.trades ++ [t.id] } := by
      unfold posSubstract
      simp only [hq, nan_sub, nan_lt, nan_le, Bool.false_and, Bool.false_eq_true, if_false]
    have hadd : (posAdd S p t).quantity = .nan := by
      unfold posAdd; simp only [hq, nan_add]
    unfold modified modify
    split_ifs <;> simp only [posSubstract', hsub, hadd] <;> simp [posAdd, hq]
  induction history generalizing p with
  | nil => exact ⟨hq, rfl, rfl, rfl, rfl⟩
  | cons t ts ih =>
    obtain ⟨s1, s2, s3, s4, s5⟩ := step p hq t
    obtain ⟨i1, i2, i3, i4, i5⟩ := ih (modified S p t) s1
    exact ⟨i1, i2.trans s2, i3.trans s3, i4.trans s4, i5.trans s5⟩

theorem modified_adds {S : FloatSem} {p : Position} {t : Trade} (hp : p.pair = t.pair) (h : Adds p t) :
    modified S p t = posAdd S p t := by
  unfold modified; rw [modify_adds hp h]

theorem modified_reduces {S : FloatSem} {p : Position} {t : Trade} (hp : p.pair = t.pair) (h : Reduces p t) :
    modified S p t = posSubstract' S p t := by
  unfold modified; rw [modify_reduces hp h]

/-- **C179.** One trade with a NaN quantity, buying or selling, makes quantity and open price NaN and
leaves the position as open as it was. -/
theorem C179_nan_quantity (S : FloatSem) (p : Position) (t : Trade) (he : p.pair = t.pair) (h : Adds p t ∨ Reduces p t)
    (hq : t.quantity = .nan) :
    let q := modified S p t
    q.quantity = .nan ∧ q.openPrice = .nan ∧ q.opened = p.opened ∧ q.profit = p.profit ∧
      q.trades = p.trades ++ [t.id] := by
  intro q
  rcases h with h | h
  · simp only [q, modified_adds he h, posAdd, hq, mul_nan, add_nan, nan_div]
    simp
  · have : posSubstract S p t = .ok { p with
        openPrice := S.div (S.mul (S.sub p.openPrice
          (S.mul t.price (S.div t.quantity p.quantity))) p.quantity) .nan
        quantity := .nan
        trades := p.trades ++ [t.id] } := by
      unfold posSubstract
      simp only [hq, sub_nan, nan_lt, nan_le, Bool.false_and, Bool.false_eq_true, if_false]
    simp only [q, modified_reduces he h, posSubstract', this]
    refine ⟨trivial, ?_, trivial, trivial, trivial⟩
    rw [hq, nan_div, mul_nan, sub_nan, nan_mul, nan_div]

/-- **C179.** A NaN price: added or partly reduced at it, the position has a NaN open price and otherwise
the right quantity; closed at it, a NaN profit. -/
theorem C179_nan_price (S : FloatSem) (p : Position) (t : Trade) (he : p.pair = t.pair) (hp : t.price = .nan) :
    (Adds p t → (modified S p t).openPrice = .nan ∧
      (modified S p t).quantity = S.add p.quantity t.quantity) ∧
    (Reduces p t → Fl.le (S.sub p.quantity t.quantity) (.fin 0) = false →
      (modified S p t).openPrice = .nan ∧ (modified S p t).quantity = S.sub p.quantity t.quantity) ∧
    (Reduces p t → Fl.le (S.sub p.quantity t.quantity) (.fin 0) = true →
      Fl.lt (S.sub p.quantity t.quantity) (S.const (-1 / 10000)) = false →
      (modified S p t).profit = .nan ∧ (modified S p t).opened = false) := by
  refine ⟨fun h => ?_, fun h hle => ?_, fun h hle hlt => ?_⟩
  · rw [modified_adds he h]
    simp only [posAdd, hp, nan_mul, nan_div, add_nan, and_self]
  · have hl : Fl.lt (S.sub p.quantity t.quantity) (.fin 0) = false := by
      rw [Bool.eq_false_iff] at hle ⊢
      intro hc
      obtain ⟨a, b, c⟩ := Fl.lt_iff.1 hc
      exact hle (Fl.le_iff.2 ⟨a, b, c.le⟩)
    rw [modified_reduces he h]
    simp only [posSubstract', posSubstract, hl, hle, Bool.false_and, Bool.false_eq_true, if_false]
    rw [hp, nan_mul, sub_nan, nan_mul, nan_div]
    exact ⟨rfl, trivial⟩
  · rw [modified_reduces he h]
    simp only [posSubstract', posSubstract, hle, hlt, Bool.and_false, Bool.false_eq_true, if_false, if_true]
    rw [hp, nan_sub, sub_nan, nan_mul]
    simp

/-- **C179.** A NaN open price is never repaired: it stays, every unrealised profit is NaN, and so is the profit
if the position is closed. -/
theorem C179_open_price_stays (S : FloatSem) (p : Position) (ho : p.openPrice = .nan) (history : List Trade) :
    let q := modifiedAll S p history
    q.openPrice = .nan ∧ (∀ x, unrealizedProfit S q x = .nan) ∧ (p.opened = true → q.opened = false → q.profit = .nan) := by
  have unr : ∀ (q : Position), q.openPrice = .nan → ∀ x, unrealizedProfit S q x = .nan := by
    intro q hq x
    unfold unrealizedProfit
    split
    · rw [hq, sub_nan, nan_mul]
    · rw [hq, nan_sub, nan_mul]
  have sub : ∀ (p : Position), p.openPrice = .nan → ∀ t, (posSubstract' S p t).openPrice = .nan ∧
      ((posSubstract' S p t).opened = p.opened ∧ (posSubstract' S p t).profit = p.profit ∨
        (posSubstract' S p t).profit = .nan) := by
    intro p hp t
    unfold posSubstract' posSubstract
    simp only
    split_ifs <;> simp only [hp, sub_nan, nan_sub, nan_mul, nan_div, true_or, and_self, or_true]
  have step : ∀ (p : Position), p.openPrice = .nan → ∀ t, (modified S p t).openPrice = .nan ∧
      ((modified S p t).opened = p.opened ∧ (modified S p t).profit = p.profit ∨ (modified S p t).profit = .nan) := by
    intro p hp t
    have hadd : (posAdd S p t).openPrice = .nan := by
      unfold posAdd; simp only [hp, nan_mul, nan_div, nan_add]
    unfold modified modify
    split_ifs
    · exact ⟨hp, .inl ⟨rfl, rfl⟩⟩
    · exact ⟨hadd, .inl ⟨rfl, rfl⟩⟩
    · exact sub p hp t
    · exact sub p hp t
    · exact ⟨hadd, .inl ⟨rfl, rfl⟩⟩
    · exact ⟨hp, .inl ⟨rfl, rfl⟩⟩
  have all : ∀ (history : List Trade) (p : Position), p.openPrice = .nan →
      (modifiedAll S p history).openPrice = .nan ∧
      ((modifiedAll S p history).opened = p.opened ∧ (modifiedAll S p history).profit = p.profit ∨
        (modifiedAll S p history).profit = .nan) := by
    intro history
    induction history with
    | nil => intro p hp; exact ⟨hp, .inl ⟨rfl, rfl⟩⟩
    | cons t ts ih =>
      intro p hp
      obtain ⟨s1, s2⟩ := step p hp t
      obtain ⟨i1, i2⟩ := ih (modified S p t) s1
      refine ⟨i1, ?_⟩
      rcases i2 with ⟨a, b⟩ | i2
      · rcases s2 with ⟨c, d⟩ | s2
        · exact .inl ⟨a.trans c, b.trans d⟩
        · exact .inr (b.trans s2)
      · exact .inr i2
  obtain ⟨a1, a2⟩ := all history p ho
  refine ⟨a1, unr _ a1, ?_⟩
  intro h1 h2
  rcases a2 with ⟨a, _⟩ | a
  · rw [h1, h2] at a; cases a
  · exact a

/-- A position of 2 at 10. -/
def nanPosition : Position :=
  ⟨"p", "long", ⟨⟨"a", "a", ""⟩, ⟨"b", "b", ""⟩⟩, true, ⟨.fin 0, ""⟩, ⟨.fin 0, ""⟩, .fin 10, .fin 0, .fin 2, .fin 0,
    0, 0, ["t0"], "", ""⟩

/-- A trade in the same pair. -/
def nanTrade (action : String) (price quantity : Fl) : Trade :=
  ⟨"t1", 5, action, "market", nanPosition.pair, price, quantity, .fin 0, .fin 0, ""⟩

example : nanPosition.pair = (nanTrade "sell" (.fin 12) .nan).pair ∧
    Reduces nanPosition (nanTrade "sell" (.fin 12) .nan) ∧ Adds nanPosition (nanTrade "buy" .nan (.fin 1)) ∧
    (let q := modifiedAll ieee nanPosition [nanTrade "sell" (.fin 12) .nan, nanTrade "sell" (.fin 12) (.fin 2)]
     q.quantity = .nan ∧ q.opened = true ∧ q.openPrice = .nan) ∧
    (let q := modifiedAll ieee nanPosition [nanTrade "buy" .nan (.fin 1), nanTrade "sell" (.fin 12) (.fin 3)]
     q.opened = false ∧ q.profit = .nan) ∧
    Fl.le (ieee.sub nanPosition.quantity (.fin 1)) (.fin 0) = false ∧
    Fl.le (ieee.sub nanPosition.quantity (.fin 2)) (.fin 0) = true := by
  decide +kernel

end Finmod
