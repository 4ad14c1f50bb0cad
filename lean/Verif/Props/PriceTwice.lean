import Verif.Props.StableSort
import Verif.Lemmas.ListX

/-!
# Order books from rows with a price that occurs twice: C258
-/

namespace Finmod
open Go Spec

/-- The number of rows at a price. -/
def Spec.rowsAt (rows : List Row) (p : Fl) : Nat := rows.countP fun r => Fl.eq r.price p

/-- Full statement of C258: after an update the book has at most one row at its price. -/
def Spec.C258_claim (S : FloatSem) : Prop :=
  ∀ (now : Int) (asks bids : List Row) (d : Int) (b b' : Book) (u : Update), 0 ≤ d → NumPrices asks → NumPrices bids →
    u.price ≠ .nan → u.side = "ask" ∨ u.side = "bid" → newOrderBook S now asks bids d = .ok b → b.applyUpdate u = .ok b' →
    rowsAt (side b' u.side) u.price ≤ 1

theorem rowsAt_pv {l m : List Row} (h : l.map Row.pv = m.map Row.pv) (p : Fl) : rowsAt l p = rowsAt m p := by
  have key : ∀ l : List Row, rowsAt l p = (l.map Row.pv).countP fun x => Fl.eq x.1 p := by
    intro l
    rw [List.countP_map]
    rfl
  rw [key, key, h]

/-- `NewOrderBook` keeps all rows of a price, if there is room. -/
theorem C258_new {S : FloatSem} (hS : Lawful S) (now : Int) {asks bids : List Row} {d : Int} (hd : 0 ≤ d)
    (ha : asks.length < 2 ^ 53) (hb : bids.length < 2 ^ 53) (hra : (asks.length : Int) ≤ d) (hrb : (bids.length : Int) ≤ d) :
    ∃ b, newOrderBook S now asks bids d = .ok b ∧
      ∀ p, rowsAt b.asks p = rowsAt asks p ∧ rowsAt b.bids p = rowsAt bids p := by
  obtain ⟨asks', bids', pa, pb, _, _, b, h, _, _, ea, _, eb, _⟩ := C182_book hS now hd ha hb
  refine ⟨b, h, fun p => ⟨?_, ?_⟩⟩
  · rw [rowsAt_pv ea, List.take_of_length_le (by rw [pa.length_eq]; omega)]
    exact pa.countP_eq _
  · rw [rowsAt_pv eb, List.take_of_length_le (by rw [pb.length_eq]; omega)]
    exact pb.countP_eq _

/-- The first row at a price. -/
theorem first_at {rows : List Row} {p : Fl} (h : 0 < rowsAt rows p) :
    ∃ l x r, rows = l ++ x :: r ∧ (∀ y ∈ l, Fl.eq y.price p = false) ∧ Fl.eq x.price p = true ∧
      rows.findIdx? (fun r => Fl.eq r.price p) = some l.length := by
  induction rows with
  | nil => simp [rowsAt] at h
  | cons y rows ih =>
    by_cases hy : Fl.eq y.price p = true
    · exact ⟨[], y, rows, rfl, by simp, hy, by simp [List.findIdx?_cons, hy]⟩
    · have hy' : Fl.eq y.price p = false := by simpa using hy
      obtain ⟨l, x, r, e, h1, h2, h3⟩ := ih (by simpa [rowsAt, List.countP_cons, hy'] using h)
      refine ⟨y :: l, x, r, by rw [e]; rfl, ?_, h2, by simp [List.findIdx?_cons, hy', h3]⟩
      intro z hz
      rcases List.mem_cons.1 hz with rfl | hz
      · exact hy'
      · exact h1 z hz

/-- One side of an update at a price that is in the book: `x` is the first row at the price. -/
structure Spec.FirstRow (rows : List Row) (p : Fl) (l : List Row) (x : Row) (r : List Row) : Prop where
  rows : rows = l ++ x :: r
  before : ∀ y ∈ l, Fl.eq y.price p = false
  at' : Fl.eq x.price p = true

theorem upsert_first {rows : List Row} {p v : Fl} {l r : List Row} {x : Row} (h : rows = l ++ x :: r)
    (hi : rows.findIdx? (fun r => Fl.eq r.price p) = some l.length) :
    upsertAsk rows p v = l ++ mkRow p v :: r ∧ upsertBid rows p v = l ++ mkRow p v :: r := by
  have e : rows.set l.length (mkRow p v) = l ++ mkRow p v :: r := by rw [h]; simp
  constructor
  · unfold upsertAsk; rw [hi]; exact e
  · unfold upsertBid; rw [hi]; exact e

theorem remove_first {rows l r : List Row} {x : Row} (h : rows = l ++ x :: r) : removeElement rows l.length = l ++ r := by
  rw [h]; simp [removeElement, List.drop_append]

/-- **C258**, what holds: an update of a price with several rows sets the first of them and leaves the others. -/
theorem C258_set_partial (b : Book) (hd : 0 ≤ b.maxDepth) (hb : DepthOk b) (u : Update) (hv : Fl.ne u.volume (.fin 0) = true) :
    (u.side = "ask" → 0 < rowsAt b.asks u.price → ∃ b' l x r, b.applyUpdate u = .ok b' ∧ FirstRow b.asks u.price l x r ∧
      b'.asks = l ++ ⟨u.price, u.volume, .fin 0⟩ :: r) ∧
    (u.side = "bid" → 0 < rowsAt b.bids u.price → ∃ b' l x r, b.applyUpdate u = .ok b' ∧ FirstRow b.bids u.price l x r ∧
      b'.bids = l ++ ⟨u.price, u.volume, .fin 0⟩ :: r) := by
  constructor
  · intro hs hn
    obtain ⟨l, x, r, e, h1, h2, h3⟩ := first_at hn
    have := hb.1
    rw [e] at this
    refine ⟨_, l, x, r, by
      unfold Book.applyUpdate
      rw [if_pos hs, if_pos hv]
      exact limit_eq (by simpa [Book.removeInvalid] using hd), ⟨e, h1, h2⟩, ?_⟩
    simp only [Book.removeInvalid]
    rw [if_neg (by decide), if_pos trivial]
    simp only
    rw [(upsert_first e h3).1, List.take_of_length_le (by simp at this ⊢; omega)]
    rfl
  · intro hs hn
    obtain ⟨l, x, r, e, h1, h2, h3⟩ := first_at hn
    have := hb.2
    rw [e] at this
    refine ⟨_, l, x, r, by
      unfold Book.applyUpdate
      rw [if_neg (by rw [hs]; decide), if_pos hs, if_pos hv]
      exact limit_eq (by simpa [Book.removeInvalid] using hd), ⟨e, h1, h2⟩, ?_⟩
    simp only [Book.removeInvalid]
    rw [if_pos trivial]
    simp only
    rw [(upsert_first e h3).2, List.take_of_length_le (by simp at this ⊢; omega)]
    rfl

/-- **C258**, what holds: an update with volume zero takes away the first row at its price, and nothing else. -/
theorem C258_delete_partial (b : Book) (hd : 0 ≤ b.maxDepth) (hb : DepthOk b) (u : Update) (hv : Fl.eq u.volume (.fin 0) = true) :
    (u.side = "ask" → 0 < rowsAt b.asks u.price → ∃ l x r, FirstRow b.asks u.price l x r ∧
      b.applyUpdate u = .ok { b with asks := l ++ r }) ∧
    (u.side = "bid" → 0 < rowsAt b.bids u.price → ∃ l x r, FirstRow b.bids u.price l x r ∧
      b.applyUpdate u = .ok { b with bids := l ++ r }) := by
  have hv' : Fl.ne u.volume (.fin 0) = false := by simp [Fl.ne, hv]
  have ta := hb.1
  have tb := hb.2
  constructor
  · intro hs hn
    obtain ⟨l, x, r, e, h1, h2, h3⟩ := first_at hn
    refine ⟨l, x, r, ⟨e, h1, h2⟩, ?_⟩
    unfold Book.applyUpdate
    rw [if_pos hs, if_neg (by simp [hv']), h3]
    simp only
    rw [limit_eq (by exact hd), remove_first e]
    rw [e] at ta
    simp only [Res.ok.injEq, Book.mk.injEq, true_and, and_true]
    exact ⟨List.take_of_length_le (by simp at ta ⊢; omega), List.take_of_length_le (by omega)⟩
  · intro hs hn
    obtain ⟨l, x, r, e, h1, h2, h3⟩ := first_at hn
    refine ⟨l, x, r, ⟨e, h1, h2⟩, ?_⟩
    unfold Book.applyUpdate
    rw [if_neg (by rw [hs]; decide), if_pos hs, if_neg (by simp [hv']), h3]
    simp only
    rw [limit_eq (by exact hd), remove_first e]
    rw [e] at tb
    simp only [Res.ok.injEq, Book.mk.injEq, true_and, and_true]
    exact ⟨List.take_of_length_le (by omega), List.take_of_length_le (by simp at tb ⊢; omega)⟩

theorem rowsAt_first {rows : List Row} {p : Fl} {l r : List Row} {x : Row} (h : FirstRow rows p l x r) :
    rowsAt rows p = rowsAt (l ++ r) p + 1 := by
  rw [h.rows]
  simp only [rowsAt, List.countP_append, List.countP_cons, h.at', if_true]
  omega

/-- **C258** A price with several rows is gone after as many updates with volume zero, and not before. -/
theorem C258_gone (b : Book) (hd : 0 ≤ b.maxDepth) (hb : DepthOk b) (u : Update) (hv : Fl.eq u.volume (.fin 0) = true)
    (hs : u.side = "ask" ∨ u.side = "bid") (n : Nat) :
    ∃ b', b.applyAll (List.replicate n u) = .ok b' ∧
      rowsAt (side b' u.side) u.price = rowsAt (side b u.side) u.price - n := by
  induction n generalizing b with
  | zero => exact ⟨b, rfl, rfl⟩
  | succ n ih =>
    have hv' : Fl.ne u.volume (.fin 0) = false := by simp [Fl.ne, hv]
    rw [List.replicate_succ, Book.applyAll]
    by_cases h0 : 0 < rowsAt (side b u.side) u.price
    · rcases hs with hs | hs
      · rw [side, if_pos hs] at h0
        obtain ⟨l, x, r, hf, e⟩ := (C258_delete_partial b hd hb u hv).1 hs h0
        rw [e]
        have hb' : DepthOk { b with asks := l ++ r } := by
          have := hb.1
          rw [hf.rows] at this
          exact ⟨by simp at this ⊢; omega, hb.2⟩
        obtain ⟨b', h1, h2⟩ := ih _ (by exact hd) hb'
        refine ⟨b', h1, ?_⟩
        rw [h2]
        simp only [side, if_pos hs, rowsAt_first hf]
        omega
      · have hna : u.side ≠ "ask" := by rw [hs]; decide
        rw [side, if_neg hna] at h0
        obtain ⟨l, x, r, hf, e⟩ := (C258_delete_partial b hd hb u hv).2 hs h0
        rw [e]
        have hb' : DepthOk { b with bids := l ++ r } := by
          have := hb.2
          rw [hf.rows] at this
          exact ⟨hb.1, by simp at this ⊢; omega⟩
        obtain ⟨b', h1, h2⟩ := ih _ (by exact hd) hb'
        refine ⟨b', h1, ?_⟩
        rw [h2]
        simp only [side, if_neg hna, rowsAt_first hf]
        omega
    · have hnone : ∀ rows : List Row, rowsAt rows u.price = 0 → rows.findIdx? (fun r => Fl.eq r.price u.price) = none := by
        intro rows h
        rw [List.findIdx?_eq_none_iff]
        intro x hx
        have := List.countP_eq_zero.1 h x hx
        simpa using this
      have h0' : rowsAt (side b u.side) u.price = 0 := by omega
      have e : b.applyUpdate u = .ok b := by
        unfold Book.applyUpdate
        rcases hs with hs | hs
        · rw [side, if_pos hs] at h0'
          rw [if_pos hs, if_neg (by simp [hv']), hnone _ h0']
        · have hna : u.side ≠ "ask" := by rw [hs]; decide
          rw [side, if_neg hna] at h0'
          rw [if_neg hna, if_pos hs, if_neg (by simp [hv']), hnone _ h0']
      rw [e]
      obtain ⟨b', h1, h2⟩ := ih b hd hb
      exact ⟨b', h1, by rw [h2]; omega⟩

/-- **C258** is false: of two rows at one price, an update sets one and leaves the other. -/
theorem C258_twice_violated : ¬ Spec.C258_claim ieee := by
  intro h
  have := h 0 [⟨.fin 10, .fin 1, .fin 0⟩, ⟨.fin 10, .fin 2, .fin 0⟩] [] 5
    ⟨0, [⟨.fin 10, .fin 1, .fin 1⟩, ⟨.fin 10, .fin 2, .fin 3⟩], [], 5⟩
    ⟨0, [⟨.fin 10, .fin 7, .fin 0⟩, ⟨.fin 10, .fin 2, .fin 3⟩], [], 5⟩ ⟨.fin 10, .fin 7, "ask"⟩ (by decide) (by decide +kernel)
    (by decide +kernel) (by decide) (by decide) (by decide +kernel) (by decide +kernel)
  revert this
  decide +kernel

/-- A book with two bids at one price. -/
def twiceBook : Book :=
  ⟨0, [⟨.fin 12, .fin 1, .fin 1⟩], [⟨.fin 10, .fin 1, .fin 1⟩, ⟨.fin 9, .fin 2, .fin 3⟩, ⟨.fin 9, .fin 4, .fin 7⟩], 5⟩

/-- **Example for C258.** The hypotheses hold, for an update that sets and one that deletes. -/
example : 0 ≤ twiceBook.maxDepth ∧ DepthOk twiceBook ∧ 0 < rowsAt twiceBook.bids (.fin 9) ∧
    Fl.ne (.fin 5) (.fin 0) = true ∧ Fl.eq .negZero (.fin 0) = true := by decide +kernel

/-- **Example for C258.** After one update with volume zero one row at the price is left. -/
example : ∃ b', twiceBook.applyAll (List.replicate 1 ⟨.fin 9, .fin 0, "bid"⟩) = .ok b' ∧
    rowsAt (side b' "bid") (.fin 9) = 2 - 1 :=
  C258_gone twiceBook (by decide) (by decide +kernel) ⟨.fin 9, .fin 0, "bid"⟩ (by decide +kernel) (.inr rfl) 1

end Finmod
