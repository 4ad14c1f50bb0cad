import Verif.Lemmas.GoSort
import Verif.Model.OrderBook
import Verif.Lemmas.Side

/-!
# C148: asks and bids mirror each other

Swapping the two sides and negating all prices turns the code for asks into the code for bids. All
floats are allowed, including NaN and infinities.
-/

namespace Finmod
open Go

/-- The row at the negated price. -/
def Spec.flipRow (r : Row) : Row := { r with price := Fl.neg r.price }

/-- Asks become bids and bids become asks, at negated prices. -/
def Spec.flipBook (b : Book) : Book :=
  { b with asks := b.bids.map Spec.flipRow, bids := b.asks.map Spec.flipRow }

/-- An update of the other side at the negated price; other side strings stay. -/
def Spec.flipUpdate (u : Update) : Update :=
  { u with price := Fl.neg u.price,
           side := if u.side = "ask" then "bid" else if u.side = "bid" then "ask" else u.side }

/-- The outcome of a call, mirrored. -/
def Spec.flipRes : Res Book → Res Book
  | .ok b => .ok (Spec.flipBook b)
  | .err c b => .err c (Spec.flipBook b)
  | .panic => .panic

open Spec

theorem key_neg_fin (q : ℚ) : (Fl.neg (.fin q)).key = Ext.ofRat (-q) := by
  by_cases hq : q = 0 <;> simp [Fl.neg, Fl.key, hq]

theorem isNaN_neg (x : Fl) : (Fl.neg x).isNaN = x.isNaN := by
  rcases x with _ | (_ | _) | q | _
  all_goals try rfl
  by_cases hq : q = 0 <;> simp [Fl.neg, Fl.isNaN, hq]

theorem lt_neg (x y : Fl) : Fl.lt (Fl.neg x) (Fl.neg y) = Fl.lt y x := by
  unfold Fl.lt
  rw [isNaN_neg, isNaN_neg]
  have h : ∀ x y : Fl, x ≠ .nan → y ≠ .nan →
      ((Fl.neg x).key < (Fl.neg y).key ↔ y.key < x.key) := by
    rintro (_ | (_ | _) | q | _) (_ | (_ | _) | r | _) hx hy <;>
      first
        | exact absurd rfl hx
        | exact absurd rfl hy
        | ((try simp only [key_neg_fin]); try simp [Fl.neg, Fl.key])
  by_cases hx : x = .nan
  · subst hx; simp [Fl.isNaN]
  by_cases hy : y = .nan
  · subst hy; simp [Fl.isNaN]
  rw [decide_eq_decide.2 (h x y hx hy)]
  cases x.isNaN <;> cases y.isNaN <;> rfl

theorem eq_neg (x y : Fl) : Fl.eq (Fl.neg x) (Fl.neg y) = Fl.eq x y := by
  unfold Fl.eq
  rw [isNaN_neg, isNaN_neg]
  have h : ∀ x y : Fl, x ≠ .nan → y ≠ .nan →
      ((Fl.neg x).key = (Fl.neg y).key ↔ x.key = y.key) := by
    rintro (_ | (_ | _) | q | _) (_ | (_ | _) | r | _) hx hy <;>
      first
        | exact absurd rfl hx
        | exact absurd rfl hy
        | ((try simp only [key_neg_fin]); try simp [Fl.neg, Fl.key, eq_comm])
  by_cases hx : x = .nan
  · subst hx; simp [Fl.isNaN]
  by_cases hy : y = .nan
  · subst hy; simp [Fl.isNaN]
  rw [decide_eq_decide.2 (h x y hx hy)]

theorem neg_neg_fl (x : Fl) : Fl.neg (Fl.neg x) = x := by
  rcases x with _ | (_ | _) | q | _
  all_goals try rfl
  by_cases hq : q = 0 <;> simp [Fl.neg, hq]

theorem flipRow_flipRow (r : Row) : flipRow (flipRow r) = r := by
  cases r; simp [flipRow, neg_neg_fl]

theorem flip_list (l : List Row) : (l.map flipRow).map flipRow = l := by
  rw [List.map_map]; simp [Function.comp_def, flipRow_flipRow]

theorem flipBook_flipBook (b : Book) : flipBook (flipBook b) = b := by
  cases b; simp only [flipBook, flip_list]

/-! ## One side -/

section
variable {f g : Fl → Fl → Bool} (hfg : ∀ a b, g (Fl.neg a) (Fl.neg b) = f a b)

theorem findIdx_flip (p q : Row → Bool) (h : ∀ r, q (flipRow r) = p r) (l : List Row) :
    (l.map flipRow).findIdx? q = l.findIdx? p := by
  rw [List.findIdx?_map]
  congr 1; funext r; exact h r

include hfg

theorem gRemove_flip (rows : List Row) (p : Fl) :
    gRemove g (rows.map flipRow) (Fl.neg p) =
      (((gRemove f rows p).1).map flipRow, (gRemove f rows p).2) := by
  cases rows with
  | nil => rfl
  | cons r rs =>
    unfold gRemove
    have h1 : g (Fl.neg p) (flipRow r).price = f p r.price := hfg p r.price
    have h2 := findIdx_flip (fun x => !(f x.price p)) (fun x => !(g x.price (Fl.neg p)))
      (fun x => by show (!(g (Fl.neg x.price) (Fl.neg p))) = _; rw [hfg]) (r :: rs)
    rw [List.map_cons] at h2
    simp only [List.map_cons, h1, h2]
    split
    · rfl
    · cases List.findIdx? (fun x => !(f x.price p)) (r :: rs) with
      | none => rfl
      | some i => simp [List.map_drop]

omit hfg in
theorem shift_flip (rows : List Row) (i : Nat) (hi : i < rows.length) (x : Row) :
    (shiftRight (rows.map flipRow ++ [zeroRow]) i).set i (flipRow x) =
      ((shiftRight (rows ++ [zeroRow]) i).set i x).map flipRow := by
  obtain ⟨l1, y, l2, rfl, rfl⟩ : ∃ l1 y l2, rows = l1 ++ y :: l2 ∧ l1.length = i :=
    ⟨rows.take i, rows[i], rows.drop (i + 1), by simp, by simp; omega⟩
  have h := shiftRight_append (l1.map flipRow) (flipRow y) (l2.map flipRow) zeroRow
  rw [List.length_map] at h
  rw [List.map_append, List.map_cons, h, shiftRight_append, set_append_cons]
  have h' := set_append_cons (l1.map flipRow) (flipRow y) (flipRow x) (flipRow y :: l2.map flipRow)
  rw [List.length_map] at h'
  rw [h']; simp

theorem gUpsert_flip (rows : List Row) (p v : Fl) :
    gUpsert g (rows.map flipRow) (Fl.neg p) v = (gUpsert f rows p v).map flipRow := by
  have hm : mkRow (Fl.neg p) v = flipRow (mkRow p v) := rfl
  have h0 := findIdx_flip (fun x => Fl.eq x.price p) (fun x => Fl.eq x.price (Fl.neg p))
      (fun x => eq_neg _ _) rows
  have h2 := findIdx_flip (fun x => f p x.price) (fun x => g (Fl.neg p) x.price)
      (fun x => hfg p x.price) rows
  unfold gUpsert
  rw [h0, h2, hm]
  cases hE : List.findIdx? (fun x => Fl.eq x.price p) rows with
  | some i => simp [List.map_set]
  | none =>
    match rows, hE with
    | [], _ => rfl
    | [a], _ =>
      have h1 : g (Fl.neg p) (flipRow a).price = f p a.price := hfg p a.price
      simp only [List.map_cons, List.map_nil, h1]
      split <;> rfl
    | a :: b :: l, _ =>
      simp only [List.map_cons]
      cases hG : List.findIdx? (fun x => f p x.price) (a :: b :: l) with
      | none => simp
      | some i =>
        have hi : i < (a :: b :: l).length := by
          have := List.findIdx?_eq_some_iff_getElem.1 hG
          exact this.1
        exact shift_flip (a :: b :: l) i hi _

theorem sliceStable_flip (l : List Row) :
    sliceStable (fun a b => g a.price b.price) (l.map flipRow) =
      (sliceStable (fun a b => f a.price b.price) l).map flipRow := by
  unfold sliceStable
  rw [Go.Sort.sliceStable_map (lt := fun a b : Row => f a.price b.price)
    (lt' := fun a b : Row => g a.price b.price) (φ := flipRow) (fun x y => hfg x.price y.price) l]
  cases Go.Sort.sliceStable (fun a b : Row => f a.price b.price) l <;> rfl

end

theorem accumulate_flip (S : FloatSem) (o : Option Fl) (l : List Row) :
    accumulate S o (l.map flipRow) = (accumulate S o l).map flipRow := by
  induction l generalizing o with
  | nil => cases o <;> rfl
  | cons r rs ih =>
    cases o with
    | none => simp only [List.map_cons, accumulate]; rw [← ih]; rfl
    | some a => simp only [List.map_cons, accumulate]; rw [← ih]; rfl

theorem sliceTo_flip (l : List Row) (n : Int) :
    sliceTo (l.map flipRow) n = (sliceTo l n).map (List.map flipRow) := by
  unfold sliceTo; split <;> simp

theorem limitSide_flip (l : List Row) (n : Int) :
    limitSide (l.map flipRow) n = (limitSide l n).map (List.map flipRow) := by
  unfold limitSide; rw [List.length_map, sliceTo_flip]; split <;> rfl

theorem limit_flip (b : Book) : (flipBook b).limit = flipRes b.limit := by
  unfold Book.limit
  simp only [flipBook, limitSide_flip]
  cases limitSide b.asks b.maxDepth <;> cases limitSide b.bids b.maxDepth <;> rfl

theorem ask_bid (a b : Fl) : (fun x y => Fl.lt y x) (Fl.neg a) (Fl.neg b) = Fl.lt a b := lt_neg b a

theorem bid_ask (a b : Fl) : Fl.lt (Fl.neg a) (Fl.neg b) = (fun x y => Fl.lt y x) a b := lt_neg a b

/-! ## The book -/

/-- C148: `NewOrderBook` of the mirrored sides is the mirrored book. -/
theorem C148_new_mirror (S : FloatSem) (now : Int) (asks bids : List Row) (d : Int) :
    newOrderBook S now (bids.map flipRow) (asks.map flipRow) d =
      flipRes (newOrderBook S now asks bids d) := by
  have h1 : sliceStable (fun a b => Fl.gt a.price b.price) (asks.map flipRow) =
      (sliceStable (fun a b => Fl.lt a.price b.price) asks).map flipRow :=
    sliceStable_flip ask_bid asks
  have h2 : sliceStable (fun a b => Fl.lt a.price b.price) (bids.map flipRow) =
      (sliceStable (fun a b => Fl.gt a.price b.price) bids).map flipRow :=
    sliceStable_flip bid_ask bids
  unfold newOrderBook Book.sort
  simp only [h1, h2, List.length_map, sliceTo_flip]
  cases sliceTo (sliceStable (fun a b => Fl.lt a.price b.price) asks) _ <;>
    cases sliceTo (sliceStable (fun a b => Fl.gt a.price b.price) bids) _ <;>
    simp [flipRes, flipBook, accumulate_flip]

theorem flipBook_asks (b : Book) (l : List Row) :
    flipBook { b with asks := l } = { flipBook b with bids := l.map flipRow } := rfl

theorem flipBook_bids (b : Book) (l : List Row) :
    flipBook { b with bids := l } = { flipBook b with asks := l.map flipRow } := rfl

/-- C148: a mirrored update on a mirrored book is the mirrored outcome. -/
theorem C148_update_mirror (b : Book) (u : Update) :
    (flipBook b).applyUpdate (flipUpdate u) = flipRes (b.applyUpdate u) := by
  have hR1 : ∀ l p, removeInvalidAsk (l.map flipRow) (Fl.neg p) =
      ((removeInvalidBid l p).1.map flipRow, (removeInvalidBid l p).2) := fun l p =>
    gRemove_flip bid_ask l p
  have hR2 : ∀ l p, removeInvalidBid (l.map flipRow) (Fl.neg p) =
      ((removeInvalidAsk l p).1.map flipRow, (removeInvalidAsk l p).2) := fun l p =>
    gRemove_flip ask_bid l p
  have hU1 : ∀ l p v, upsertAsk (l.map flipRow) (Fl.neg p) v = (upsertBid l p v).map flipRow :=
    fun l p v => gUpsert_flip bid_ask l p v
  have hU2 : ∀ l p v, upsertBid (l.map flipRow) (Fl.neg p) v = (upsertAsk l p v).map flipRow :=
    fun l p v => gUpsert_flip (f := Fl.lt) (g := fun x y => Fl.lt y x) ask_bid l p v
  have hE : ∀ (l : List Row) (p : Fl), (l.map flipRow).findIdx? (fun r => Fl.eq r.price (Fl.neg p)) =
      l.findIdx? (fun r => Fl.eq r.price p) := fun l p =>
    findIdx_flip _ _ (fun r => eq_neg _ _) l
  have hD : ∀ (l : List Row) i, removeElement (l.map flipRow) i = (removeElement l i).map flipRow := by
    intro l i; simp [removeElement, List.map_take, List.map_drop]
  have hL : ∀ b : Book, flipRes b.limit = (flipBook b).limit := fun b => (limit_flip b).symm
  by_cases h1 : u.side = "ask"
  · have hs : (flipUpdate u).side = "bid" := by simp [flipUpdate, h1]
    unfold Book.applyUpdate
    rw [if_neg (by rw [hs]; decide), if_pos hs, if_pos h1]
    show (if Fl.ne u.volume (.fin 0) = true then _ else _) = _
    by_cases hv : Fl.ne u.volume (.fin 0) = true
    · rw [if_pos hv, if_pos hv, hL]
      simp only [Book.removeInvalid, if_true, if_neg (show ¬ ("bid" = "ask") by decide)]
      simp only [flipBook, flipUpdate, hR1, hU2]
    · rw [if_neg hv, if_neg hv]
      show (match (b.asks.map flipRow).findIdx? (fun r => Fl.eq r.price (Fl.neg u.price)) with
        | some i => _ | none => _) = _
      rw [hE]
      cases List.findIdx? (fun r => Fl.eq r.price u.price) b.asks with
      | none => rfl
      | some i =>
        rw [hL]
        simp only [flipBook, hD]
  · by_cases h2 : u.side = "bid"
    · have hs : (flipUpdate u).side = "ask" := by simp [flipUpdate, h2]
      unfold Book.applyUpdate
      rw [if_pos hs, if_neg h1, if_pos h2]
      show (if Fl.ne u.volume (.fin 0) = true then _ else _) = _
      by_cases hv : Fl.ne u.volume (.fin 0) = true
      · rw [if_pos hv, if_pos hv, hL]
        simp only [Book.removeInvalid, if_true, if_neg (show ¬ ("bid" = "ask") by decide)]
        simp only [flipBook, flipUpdate, hR2, hU1]
      · rw [if_neg hv, if_neg hv]
        show (match (b.bids.map flipRow).findIdx? (fun r => Fl.eq r.price (Fl.neg u.price)) with
          | some i => _ | none => _) = _
        rw [hE]
        cases List.findIdx? (fun r => Fl.eq r.price u.price) b.bids with
        | none => rfl
        | some i =>
          rw [hL]
          simp only [flipBook, hD]
    · have hs : (flipUpdate u).side = u.side := by simp [flipUpdate, h1, h2]
      unfold Book.applyUpdate
      rw [if_neg (by rw [hs]; exact h1), if_neg (by rw [hs]; exact h2), if_neg h1, if_neg h2]
      rfl

/-- C148: so do whole histories of updates. -/
theorem C148_history_mirror (us : List Update) (b : Book) :
    (flipBook b).applyAll (us.map flipUpdate) = flipRes (b.applyAll us) := by
  induction us generalizing b with
  | nil => rfl
  | cons u us ih =>
    rw [List.map_cons, Book.applyAll, Book.applyAll, C148_update_mirror]
    cases b.applyUpdate u with
    | ok b' => exact ih b'
    | err c b' => exact ih b'
    | panic => rfl

/-- C148: mirroring loses nothing, so each theorem gives the bid half from the ask half and
back. -/
theorem C148_involution (b : Book) (u : Update) :
    flipBook (flipBook b) = b ∧ flipUpdate (flipUpdate u) = u := by
  refine ⟨flipBook_flipBook b, ?_⟩
  obtain ⟨p, v, s⟩ := u
  by_cases h1 : s = "ask"
  · subst h1; simp [flipUpdate, neg_neg_fl]
  · by_cases h2 : s = "bid"
    · subst h2; simp [flipUpdate, neg_neg_fl]
    · simp [flipUpdate, neg_neg_fl, h1, h2]

/-- A bid at 13 into a book with asks 12, 14: both outcomes, the book's and its mirror's. -/
example :
    let b : Book := ⟨0, [mkRow (.fin 12) (.fin 1), mkRow (.fin 14) (.fin 2)],
      [mkRow (.fin 9) (.fin 1), mkRow (.fin 8) (.fin 2)], 5⟩
    let u : Update := ⟨.fin 13, .fin 3, "bid"⟩
    (∃ b', b.applyUpdate u = .ok b' ∧ b'.asks.map (·.price) = [.fin 14] ∧
      b'.bids.map (·.price) = [.fin 13, .fin 9, .fin 8]) ∧
    ∃ b', (flipBook b).applyUpdate (flipUpdate u) = .ok b' ∧
      b'.bids.map (·.price) = [.fin (-14)] ∧
      b'.asks.map (·.price) = [.fin (-13), .fin (-9), .fin (-8)] :=
  ⟨⟨_, rfl, by decide +kernel, by decide +kernel⟩, _, rfl, by decide +kernel, by decide +kernel⟩

end Finmod
