import Verif.Props.BookRelabel
import Verif.Model.Position
import Verif.Model.Order

/-!
# C214: which fields of trades, rows, positions and requests are read
-/

namespace Finmod
open Go Spec

/-- Trades with the same id, time, action, pair, price and quantity; order type, fee, cost and execution id may differ. -/
structure Spec.SameDeal (t t' : Trade) : Prop where
  id : t'.id = t.id
  executionTime : t'.executionTime = t.executionTime
  action : t'.action = t.action
  pair : t'.pair = t.pair
  price : t'.price = t.price
  quantity : t'.quantity = t.quantity

/-- **C214** `NewPosition` and `Modify` do not read order type, fee, cost and execution id of a trade. -/
theorem C214_position (S : FloatSem) (id : String) (z : Int) (p : Position) {t t' : Trade} (h : SameDeal t t') :
    newPosition id z t' = newPosition id z t ∧ modify S p t' = modify S p t := by
  obtain ⟨h1, h2, h3, h4, h5, h6⟩ := h
  constructor
  · simp only [newPosition, h1, h2, h3, h4, h5, h6]
  · simp only [modify, posAdd, posSubstract', posSubstract, h1, h2, h3, h4, h5, h6]

/-- **C214** Nor do whole histories. -/
theorem C214_history (S : FloatSem) (id : String) (z : Int) {t t' : Trade} (h : SameDeal t t') {ts ts' : List Trade}
    (hs : List.Forall₂ SameDeal ts ts') :
    modifiedAll S (newPosition id z t') ts' = modifiedAll S (newPosition id z t) ts := by
  rw [(C214_position S id z (newPosition id z t) h).1]
  generalize newPosition id z t = p
  induction hs generalizing p with
  | nil => rfl
  | cons hd _ ih =>
    simp only [modifiedAll, List.foldl_cons] at ih ⊢
    rw [ih, modified, modified, (C214_position S id z p hd).2]

/-- **C214** `UnrealizedProfit` reads type, open price and quantity of the position. -/
theorem C214_unrealized (S : FloatSem) {p p' : Position} (h1 : p'.type = p.type) (h2 : p'.openPrice = p.openPrice)
    (h3 : p'.quantity = p.quantity) (price : Fl) : unrealizedProfit S p' price = unrealizedProfit S p price := by
  simp only [unrealizedProfit, h1, h2, h3]

/-- **C214** What `CalculateFields` fills in depends on type, price, quantity and total of the request and the current price. -/
theorem C214_request (S : FloatSem) {o o' : OrderRequest} (h1 : o'.type = o.type) (h2 : o'.price = o.price)
    (h3 : o'.quantity = o.quantity) (h4 : o'.total = o.total) (current : Fl) :
    ((calculateFields S o current).2 = .err .einvalid none ∧ (calculateFields S o' current).2 = .err .einvalid none) ∨
    ∃ r r', (calculateFields S o current).2 = .ok (some r) ∧ (calculateFields S o' current).2 = .ok (some r') ∧
      r'.quantity = r.quantity ∧ r'.total = r.total := by
  simp only [calculateFields, h1, h2, h3, h4]
  split_ifs <;> simp

theorem accumulate_same_pv (S : FloatSem) {l l' : List Row}
    (h : l.map (fun r => (r.price, r.volume)) = l'.map (fun r => (r.price, r.volume))) (o : Option Fl) :
    accumulate S o l = accumulate S o l' := by
  induction l generalizing l' o with
  | nil => cases l' with
    | nil => rfl
    | cons r' l' => cases h
  | cons r l ih => cases l' with
    | nil => cases h
    | cons r' l' =>
      simp only [List.map_cons, List.cons.injEq, Prod.mk.injEq] at h
      obtain ⟨⟨h1, h2⟩, h3⟩ := h
      obtain ⟨p, v, a⟩ := r
      obtain ⟨p', v', a'⟩ := r'
      simp only at h1 h2
      subst h1 h2
      cases o with
      | none => simp only [accumulate]; rw [ih h3]
      | some b => simp only [accumulate]; rw [ih h3]

theorem sliceStable_same_pv {lt : Fl → Fl → Bool} {l l' : List Row}
    (h : l.map (fun r => (r.price, r.volume)) = l'.map (fun r => (r.price, r.volume))) :
    (sliceStable (fun x y => lt x.price y.price) l).map (fun r => (r.price, r.volume)) =
      (sliceStable (fun x y => lt x.price y.price) l').map (fun r => (r.price, r.volume)) := by
  have key : ∀ m : List Row, (sliceStable (fun x y => lt x.price y.price) m).map (fun r => (r.price, r.volume)) =
      (Go.Sort.sliceStable (fun x y : Fl × Fl => lt x.1 y.1) (m.map (fun r => (r.price, r.volume)))).getD
        (m.map (fun r => (r.price, r.volume))) := by
    intro m
    rw [Go.Sort.sliceStable_map (lt := fun x y : Row => lt x.price y.price) (lt' := fun x y : Fl × Fl => lt x.1 y.1)
      (φ := fun r : Row => (r.price, r.volume)) (fun _ _ => rfl)]
    unfold sliceStable
    cases Go.Sort.sliceStable (fun x y : Row => lt x.price y.price) m <;> rfl
  rw [key, key, h]

theorem sliceTo_same_pv {l l' : List Row} (h : l.map (fun r => (r.price, r.volume)) = l'.map (fun r => (r.price, r.volume))) (n : Int) :
    (sliceTo l n = none ∧ sliceTo l' n = none) ∨ ∃ m m', sliceTo l n = some m ∧ sliceTo l' n = some m' ∧
      m.map (fun r => (r.price, r.volume)) = m'.map (fun r => (r.price, r.volume)) := by
  unfold sliceTo
  split_ifs
  · exact .inl ⟨rfl, rfl⟩
  · exact .inr ⟨_, _, rfl, rfl, by rw [List.map_take, List.map_take, h]⟩

/-- **C214** `NewOrderBook` does not read the `AccumVolume` of the rows it is given. -/
theorem C214_new_book (S : FloatSem) (now d : Int) {asks asks' bids bids' : List Row}
    (ha : asks.map (fun r => (r.price, r.volume)) = asks'.map (fun r => (r.price, r.volume)))
    (hb : bids.map (fun r => (r.price, r.volume)) = bids'.map (fun r => (r.price, r.volume))) :
    newOrderBook S now asks bids d = newOrderBook S now asks' bids' d := by
  have h1 := sliceStable_same_pv (lt := Fl.lt) ha
  have h2 := sliceStable_same_pv (lt := Fl.gt) hb
  have l1 : (sliceStable (fun x y => Fl.lt x.price y.price) asks).length = (sliceStable (fun x y => Fl.lt x.price y.price) asks').length := by
    simpa using congrArg List.length h1
  have l2 : (sliceStable (fun x y => Fl.gt x.price y.price) bids).length = (sliceStable (fun x y => Fl.gt x.price y.price) bids').length := by
    simpa using congrArg List.length h2
  simp only [newOrderBook, Book.sort, l1, l2]
  rcases sliceTo_same_pv h1 (depthCut S (sliceStable (fun x y => Fl.lt x.price y.price) asks').length d) with ⟨e, e'⟩ | ⟨m, m', e, e', hm⟩
  · rw [e, e']
  · rw [e, e']
    rcases sliceTo_same_pv h2 (depthCut S (sliceStable (fun x y => Fl.gt x.price y.price) bids').length d) with ⟨e, e'⟩ | ⟨n, n', e, e', hn⟩
    · rw [e, e']
    · rw [e, e']
      simp only [accumulate_same_pv S hm, accumulate_same_pv S hn]

theorem overlapScan_same_pv (S : FloatSem) {stop : Fl → Bool} {l l' : List Row}
    (h : l.map (fun r => (r.price, r.volume)) = l'.map (fun r => (r.price, r.volume))) (i : Nat) (acc : Fl) :
    overlapScan S (fun r => stop r.price) l i acc = overlapScan S (fun r => stop r.price) l' i acc := by
  induction l generalizing l' i acc with
  | nil => cases l' with
    | nil => rfl
    | cons r' l' => cases h
  | cons r l ih => cases l' with
    | nil => cases h
    | cons r' l' =>
      simp only [List.map_cons, List.cons.injEq, Prod.mk.injEq] at h
      obtain ⟨⟨h1, h2⟩, h3⟩ := h
      simp only [overlapScan, h1, h2, ih h3]

theorem overlapFill_same_pv (S : FloatSem) (target : Fl) {l l' : List Row}
    (h : l.map (fun r => (r.price, r.volume)) = l'.map (fun r => (r.price, r.volume))) (v res : Fl) :
    overlapFill S target l v res = overlapFill S target l' v res := by
  induction l generalizing l' v res with
  | nil => cases l' with
    | nil => rfl
    | cons r' l' => cases h
  | cons r l ih => cases l' with
    | nil => cases h
    | cons r' l' =>
      simp only [List.map_cons, List.cons.injEq, Prod.mk.injEq] at h
      obtain ⟨⟨h1, h2⟩, h3⟩ := h
      simp only [overlapFill, h1, h2, ih h3]

theorem overlapCost_same_pv (S : FloatSem) {l l' : List Row}
    (h : l.map (fun r => (r.price, r.volume)) = l'.map (fun r => (r.price, r.volume))) (res : Fl) :
    overlapCost S l res = overlapCost S l' res := by
  induction l generalizing l' res with
  | nil => cases l' with
    | nil => rfl
    | cons r' l' => cases h
  | cons r l ih => cases l' with
    | nil => cases h
    | cons r' l' =>
      simp only [List.map_cons, List.cons.injEq, Prod.mk.injEq] at h
      obtain ⟨⟨h1, h2⟩, h3⟩ := h
      simp only [overlapCost, h1, h2, ih h3]

theorem overlapCalculation_same_pv (S : FloatSem) {a a' b b' : Book}
    (h1 : a.asks.map (fun r => (r.price, r.volume)) = a'.asks.map (fun r => (r.price, r.volume)))
    (h2 : b.bids.map (fun r => (r.price, r.volume)) = b'.bids.map (fun r => (r.price, r.volume))) :
    overlapCalculation S a b = overlapCalculation S a' b' := by
  unfold overlapCalculation
  revert h1 h2
  rcases a.asks with _ | ⟨x, l⟩ <;> rcases a'.asks with _ | ⟨x', l'⟩ <;> intro h1
  · intro; rfl
  · cases h1
  · cases h1
  rcases b.bids with _ | ⟨y, m⟩ <;> rcases b'.bids with _ | ⟨y', m'⟩ <;> intro h2
  · rfl
  · cases h2
  · cases h2
  have e1 := h1
  have e2 := h2
  simp only [List.map_cons, List.cons.injEq, Prod.mk.injEq] at e1 e2
  have s1 := overlapScan_same_pv S (stop := fun p => Fl.gt p y'.price) h1 0 (.fin 0)
  have s2 := overlapScan_same_pv S (stop := fun p => Fl.lt p x'.price) h2 0 (.fin 0)
  simp only [e1.1.1, e2.1.1, s1, s2]
  rw [overlapFill_same_pv S _ (l' := ((y' :: m').take _).reverse) (by rw [List.map_reverse, List.map_take, h2, ← List.map_take, ← List.map_reverse]),
    overlapCost_same_pv S (l' := (x' :: l').take _) (by rw [List.map_take, h1, ← List.map_take])]

/-- **C214** `CalculateOverlap` reads prices and volumes of the two books and nothing else. -/
theorem C214_overlap (S : FloatSem) {a a' b b' : Book}
    (h1 : a.asks.map (fun r => (r.price, r.volume)) = a'.asks.map (fun r => (r.price, r.volume)))
    (h2 : a.bids.map (fun r => (r.price, r.volume)) = a'.bids.map (fun r => (r.price, r.volume)))
    (h3 : b.asks.map (fun r => (r.price, r.volume)) = b'.asks.map (fun r => (r.price, r.volume)))
    (h4 : b.bids.map (fun r => (r.price, r.volume)) = b'.bids.map (fun r => (r.price, r.volume))) :
    calculateOverlap S a b = calculateOverlap S a' b' := by
  have o1 := overlapCalculation_same_pv S h1 h4
  have o2 := overlapCalculation_same_pv S h3 h2
  unfold calculateOverlap
  rw [o1, o2]
  revert h1 h2 h3 h4
  rcases a.asks with _ | ⟨x, l⟩ <;> rcases a'.asks with _ | ⟨x', l'⟩ <;> intro h1
  · intros; rfl
  · cases h1
  · cases h1
  rcases a.bids with _ | ⟨z, k⟩ <;> rcases a'.bids with _ | ⟨z', k'⟩ <;> intro h2
  any_goals cases h2
  all_goals
    rcases b.asks with _ | ⟨w, q⟩ <;> rcases b'.asks with _ | ⟨w', q'⟩ <;> intro h3
    any_goals cases h3
    all_goals
      rcases b.bids with _ | ⟨y, m⟩ <;> rcases b'.bids with _ | ⟨y', m'⟩ <;> intro h4
      any_goals cases h4
      all_goals
        simp_all only [List.map_cons, List.cons.injEq, Prod.mk.injEq]

/-- **C214** `GetDepth` reads the prices of the book and nothing else. -/
theorem C214_depth {b b' : Book} (h1 : b.asks.map (·.price) = b'.asks.map (·.price))
    (h2 : b.bids.map (·.price) = b'.bids.map (·.price)) (p : Fl) : b.getDepth p = b'.getDepth p := by
  let k : Fl → Row := fun x => ⟨x, .fin 0, .fin 0⟩
  have key : ∀ c : Book, c.getDepth p =
      ({ c with asks := (c.asks.map (·.price)).map k, bids := (c.bids.map (·.price)).map k, time := 0, maxDepth := 0 } : Book).getDepth p := by
    intro c
    simp only [Book.getDepth, List.map_map, List.head?_map, List.getLast?_map, List.findIdx?_map, List.getElem?_map]
    split_ifs
    · rfl
    cases c.asks.head? <;> cases c.asks.getLast? <;> cases c.bids.head? <;> cases c.bids.getLast? <;> try rfl
    simp only [Option.map_some, Function.comp_def, k]
    refine if_congr Iff.rfl ?_ (if_congr Iff.rfl ?_ rfl)
    · cases List.findIdx? (fun r => r.price.gt p) c.asks with
      | none => rfl
      | some i => simp only; cases c.asks[i - 1]? <;> rfl
    · cases List.findIdx? (fun r => r.price.lt p) c.bids with
      | none => rfl
      | some i => simp only; cases c.bids[i - 1]? <;> rfl
  rw [key b, key b', h1, h2]

/-- Trades and rows that differ only in what is not read. -/
example (p : Pair) : SameDeal ⟨"a", 7, "buy", "market", p, .fin 2, .fin 3, .fin 0, .fin 6, ""⟩
      ⟨"a", 7, "buy", "limit", p, .fin 2, .fin 3, .fin 1, .fin 7, "x"⟩ ∧
    [(⟨.fin 2, .fin 3, .fin 99⟩ : Row)].map (fun r => (r.price, r.volume)) =
      [(⟨.fin 2, .fin 3, .nan⟩ : Row)].map (fun r => (r.price, r.volume)) :=
  ⟨⟨rfl, rfl, rfl, rfl, rfl, rfl⟩, rfl⟩

/-- With another volume the overlap is another, so the volumes are read. -/
example : ∃ a b b' : Book, b.bids.map (·.price) = b'.bids.map (·.price) ∧
    calculateOverlap ieee a b ≠ calculateOverlap ieee a b' := by
  refine ⟨⟨0, [⟨.fin 1, .fin 1, .fin 0⟩, ⟨.fin 3, .fin 1, .fin 0⟩], [], 5⟩,
    ⟨0, [], [⟨.fin 2, .fin 1, .fin 0⟩, ⟨.fin (1 / 2), .fin 1, .fin 0⟩], 5⟩,
    ⟨0, [], [⟨.fin 2, .fin (1 / 2), .fin 0⟩, ⟨.fin (1 / 2), .fin 1, .fin 0⟩], 5⟩, rfl, by decide +kernel⟩

end Finmod
