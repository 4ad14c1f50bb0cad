import Verif.Lemmas.GoSort
import Verif.Model.OrderBook
import Verif.Lemmas.Side

/-!
# C153: order books only compare prices and only test volumes for zero

Renaming the prices by a map that keeps their order, and the volumes by a map that keeps zero and
non-zero apart, commutes with `ApplyUpdate`; the price part also with `NewOrderBook` and `GetDepth`.
-/

namespace Finmod
open Go

/-- A renaming of prices and volumes (the cumulative volumes are renamed by their own map). -/
structure Spec.Relabel where
  price : Fl → Fl
  volume : Fl → Fl
  accum : Fl → Fl

/-- Prices compare as before, volumes are zero when they were, 0 stays the cumulative volume 0. -/
structure Spec.Relabel.Keeps (R : Spec.Relabel) : Prop where
  lt : ∀ a b, Fl.lt (R.price a) (R.price b) = Fl.lt a b
  eq : ∀ a b, Fl.eq (R.price a) (R.price b) = Fl.eq a b
  zero : ∀ v, Fl.ne (R.volume v) (.fin 0) = Fl.ne v (.fin 0)
  accum : R.accum (.fin 0) = .fin 0

namespace Spec.Relabel
variable (R : Spec.Relabel)

def row (r : Row) : Row := ⟨R.price r.price, R.volume r.volume, R.accum r.accum⟩

def book (b : Book) : Book := { b with asks := b.asks.map R.row, bids := b.bids.map R.row }

def update (u : Update) : Update := { u with price := R.price u.price, volume := R.volume u.volume }

def res : Res Book → Res Book
  | .ok b => .ok (R.book b)
  | .err c b => .err c (R.book b)
  | .panic => .panic

end Spec.Relabel

open Spec

section
variable {R : Relabel} {f : Fl → Fl → Bool} (hR : R.Keeps) (hf : ∀ a b, f (R.price a) (R.price b) = f a b)

theorem findIdx_relabel (p q : Row → Bool) (h : ∀ r, q (R.row r) = p r) (l : List Row) :
    (l.map R.row).findIdx? q = l.findIdx? p := by
  rw [List.findIdx?_map]
  congr 1; funext r; exact h r

include hf

theorem gRemove_relabel (rows : List Row) (p : Fl) :
    gRemove f (rows.map R.row) (R.price p) = (((gRemove f rows p).1).map R.row, (gRemove f rows p).2) := by
  cases rows with
  | nil => rfl
  | cons r rs =>
    unfold gRemove
    have h1 : f (R.price p) (R.row r).price = f p r.price := hf p r.price
    have h2 := findIdx_relabel (R := R) (fun x => !(f x.price p)) (fun x => !(f x.price (R.price p)))
      (fun x => by show (!(f (R.price x.price) (R.price p))) = _; rw [hf]) (r :: rs)
    rw [List.map_cons] at h2
    simp only [List.map_cons, h1, h2]
    split
    · rfl
    · cases List.findIdx? (fun x => !(f x.price p)) (r :: rs) with
      | none => rfl
      | some i => simp [List.map_drop]

omit hf in
theorem shift_relabel (rows : List Row) (i : Nat) (hi : i < rows.length) (x : Row) :
    (shiftRight (rows.map R.row ++ [zeroRow]) i).set i (R.row x) =
      ((shiftRight (rows ++ [zeroRow]) i).set i x).map R.row := by
  obtain ⟨l1, y, l2, rfl, rfl⟩ : ∃ l1 y l2, rows = l1 ++ y :: l2 ∧ l1.length = i :=
    ⟨rows.take i, rows[i], rows.drop (i + 1), by simp, by simp; omega⟩
  have h := shiftRight_append (l1.map R.row) (R.row y) (l2.map R.row) zeroRow
  rw [List.length_map] at h
  rw [List.map_append, List.map_cons, h, shiftRight_append, set_append_cons]
  have h' := set_append_cons (l1.map R.row) (R.row y) (R.row x) (R.row y :: l2.map R.row)
  rw [List.length_map] at h'
  rw [h']; simp

include hR

theorem gUpsert_relabel (rows : List Row) (p v : Fl) :
    gUpsert f (rows.map R.row) (R.price p) (R.volume v) = (gUpsert f rows p v).map R.row := by
  have hm : mkRow (R.price p) (R.volume v) = R.row (mkRow p v) := by
    simp [mkRow, Relabel.row, hR.accum]
  have h0 := findIdx_relabel (R := R) (fun x => Fl.eq x.price p) (fun x => Fl.eq x.price (R.price p))
      (fun x => hR.eq _ _) rows
  have h2 := findIdx_relabel (R := R) (fun x => f p x.price) (fun x => f (R.price p) x.price)
      (fun x => hf p x.price) rows
  unfold gUpsert
  rw [h0, h2, hm]
  cases hE : List.findIdx? (fun x => Fl.eq x.price p) rows with
  | some i => simp [List.map_set]
  | none =>
    match rows, hE with
    | [], _ => rfl
    | [a], _ =>
      have h1 : f (R.price p) (R.row a).price = f p a.price := hf p a.price
      simp only [List.map_cons, List.map_nil, h1]
      split <;> rfl
    | a :: b :: l, _ =>
      simp only [List.map_cons]
      cases hG : List.findIdx? (fun x => f p x.price) (a :: b :: l) with
      | none => simp
      | some i =>
        have hi : i < (a :: b :: l).length := (List.findIdx?_eq_some_iff_getElem.1 hG).1
        exact shift_relabel (R := R) (a :: b :: l) i hi _

omit hR

theorem sliceStable_relabel (l : List Row) :
    sliceStable (fun a b => f a.price b.price) (l.map R.row) =
      (sliceStable (fun a b => f a.price b.price) l).map R.row := by
  unfold sliceStable
  rw [Go.Sort.sliceStable_map (lt := fun a b : Row => f a.price b.price)
    (lt' := fun a b : Row => f a.price b.price) (φ := R.row) (fun x y => hf x.price y.price) l]
  cases Go.Sort.sliceStable (fun a b : Row => f a.price b.price) l <;> rfl

end

theorem sliceTo_relabel (R : Relabel) (l : List Row) (n : Int) :
    sliceTo (l.map R.row) n = (sliceTo l n).map (List.map R.row) := by
  unfold sliceTo; split <;> simp

theorem limit_relabel (R : Relabel) (b : Book) : (R.book b).limit = R.res b.limit := by
  have h : ∀ (l : List Row) n, limitSide (l.map R.row) n = (limitSide l n).map (List.map R.row) := by
    intro l n
    unfold limitSide; rw [List.length_map, sliceTo_relabel]; split <;> rfl
  unfold Book.limit
  simp only [Relabel.book, h]
  cases limitSide b.asks b.maxDepth <;> cases limitSide b.bids b.maxDepth <;> rfl

/-- **C153.** An update under new names of prices and volumes gives the renamed outcome. -/
theorem C153_update_relabel {R : Relabel} (hR : R.Keeps) (b : Book) (u : Update) :
    (R.book b).applyUpdate (R.update u) = R.res (b.applyUpdate u) := by
  have hgt : ∀ a b, (fun x y => Fl.lt y x) (R.price a) (R.price b) = (fun x y => Fl.lt y x) a b :=
    fun a b => hR.lt b a
  have hR1 : ∀ l p, removeInvalidAsk (l.map R.row) (R.price p) =
      ((removeInvalidAsk l p).1.map R.row, (removeInvalidAsk l p).2) := fun l p => gRemove_relabel hR.lt l p
  have hR2 : ∀ l p, removeInvalidBid (l.map R.row) (R.price p) =
      ((removeInvalidBid l p).1.map R.row, (removeInvalidBid l p).2) := fun l p => gRemove_relabel hgt l p
  have hU1 : ∀ l p v, upsertAsk (l.map R.row) (R.price p) (R.volume v) = (upsertAsk l p v).map R.row :=
    fun l p v => gUpsert_relabel hR hR.lt l p v
  have hU2 : ∀ l p v, upsertBid (l.map R.row) (R.price p) (R.volume v) = (upsertBid l p v).map R.row :=
    fun l p v => gUpsert_relabel (f := fun x y => Fl.lt y x) hR hgt l p v
  have hE : ∀ (l : List Row) (p : Fl), (l.map R.row).findIdx? (fun r => Fl.eq r.price (R.price p)) =
      l.findIdx? (fun r => Fl.eq r.price p) := fun l p => findIdx_relabel _ _ (fun r => hR.eq _ _) l
  have hD : ∀ (l : List Row) i, removeElement (l.map R.row) i = (removeElement l i).map R.row := by
    intro l i; simp [removeElement, List.map_take, List.map_drop]
  have hL : ∀ b : Book, R.res b.limit = (R.book b).limit := fun b => (limit_relabel R b).symm
  have hz : Fl.ne (R.volume u.volume) (.fin 0) = Fl.ne u.volume (.fin 0) := hR.zero _
  unfold Book.applyUpdate
  simp only [show (R.update u).side = u.side from rfl, show (R.update u).volume = R.volume u.volume from rfl,
    show (R.update u).price = R.price u.price from rfl, hz]
  by_cases h1 : u.side = "ask"
  · rw [if_pos h1, if_pos h1]
    by_cases hv : Fl.ne u.volume (.fin 0) = true
    · rw [if_pos hv, if_pos hv, hL]
      simp only [Book.removeInvalid, if_true, if_neg (show ¬ ("bid" = "ask") by decide)]
      simp only [Relabel.book, hR2, hU1]
    · rw [if_neg hv, if_neg hv]
      show (match (b.asks.map R.row).findIdx? (fun r => Fl.eq r.price (R.price u.price)) with
        | some i => _ | none => _) = _
      rw [hE]
      cases List.findIdx? (fun r => Fl.eq r.price u.price) b.asks with
      | none => rfl
      | some i =>
        rw [hL]
        simp only [Relabel.book, hD]
  · rw [if_neg h1, if_neg h1]
    by_cases h2 : u.side = "bid"
    · rw [if_pos h2, if_pos h2]
      by_cases hv : Fl.ne u.volume (.fin 0) = true
      · rw [if_pos hv, if_pos hv, hL]
        simp only [Book.removeInvalid, if_true]
        simp only [Relabel.book, hR1, hU2]
      · rw [if_neg hv, if_neg hv]
        show (match (b.bids.map R.row).findIdx? (fun r => Fl.eq r.price (R.price u.price)) with
          | some i => _ | none => _) = _
        rw [hE]
        cases List.findIdx? (fun r => Fl.eq r.price u.price) b.bids with
        | none => rfl
        | some i =>
          rw [hL]
          simp only [Relabel.book, hD]
    · rw [if_neg h2, if_neg h2]
      rfl

/-- **C153.** So do whole histories. -/
theorem C153_history_relabel {R : Relabel} (hR : R.Keeps) (us : List Update) (b : Book) :
    (R.book b).applyAll (us.map R.update) = R.res (b.applyAll us) := by
  induction us generalizing b with
  | nil => rfl
  | cons u us ih =>
    rw [List.map_cons, Book.applyAll, Book.applyAll, C153_update_relabel hR]
    cases b.applyUpdate u with
    | ok b' => exact ih b'
    | err c b' => exact ih b'
    | panic => rfl

/-- New names for the prices only. -/
def Spec.Relabel.prices (f : Fl → Fl) : Relabel := ⟨f, id, id⟩

theorem accumulate_relabel (S : FloatSem) (f : Fl → Fl) (o : Option Fl) (l : List Row) :
    accumulate S o (l.map (Relabel.prices f).row) = (accumulate S o l).map (Relabel.prices f).row := by
  induction l generalizing o with
  | nil => cases o <;> rfl
  | cons r rs ih =>
    cases o with
    | none => simp only [List.map_cons, accumulate]; rw [← ih]; rfl
    | some a => simp only [List.map_cons, accumulate]; rw [← ih]; rfl

/-- **C153.** `NewOrderBook` under new names of the prices gives the renamed book. -/
theorem C153_new_relabel (S : FloatSem) {f : Fl → Fl} (hf : ∀ a b, Fl.lt (f a) (f b) = Fl.lt a b)
    (now : Int) (asks bids : List Row) (d : Int) :
    newOrderBook S now (asks.map (Relabel.prices f).row) (bids.map (Relabel.prices f).row) d =
      (Relabel.prices f).res (newOrderBook S now asks bids d) := by
  have hgt : ∀ a b, (fun x y => Fl.lt y x) (f a) (f b) = (fun x y => Fl.lt y x) a b := fun a b => hf b a
  have h1 : sliceStable (fun a b => Fl.lt a.price b.price) (asks.map (Relabel.prices f).row) =
      (sliceStable (fun a b => Fl.lt a.price b.price) asks).map (Relabel.prices f).row :=
    sliceStable_relabel (R := Relabel.prices f) hf asks
  have h2 : sliceStable (fun a b => Fl.gt a.price b.price) (bids.map (Relabel.prices f).row) =
      (sliceStable (fun a b => Fl.gt a.price b.price) bids).map (Relabel.prices f).row :=
    sliceStable_relabel (R := Relabel.prices f) (f := fun x y => Fl.lt y x) hgt bids
  unfold newOrderBook Book.sort
  simp only [h1, h2, List.length_map, sliceTo_relabel]
  cases sliceTo (sliceStable (fun a b => Fl.lt a.price b.price) asks) _ <;>
    cases sliceTo (sliceStable (fun a b => Fl.gt a.price b.price) bids) _ <;>
    simp [Relabel.res, Relabel.book, accumulate_relabel]

theorem le_lt_or_eq (a b : Fl) : Fl.le a b = (Fl.lt a b || Fl.eq a b) := by
  unfold Fl.le Fl.lt Fl.eq
  by_cases h : a.key ≤ b.key
  · rcases h.lt_or_eq with h' | h'
    · simp [h, h', h'.ne]
    · simp [h']
  · have h1 : ¬ a.key < b.key := fun h' => h h'.le
    have h2 : ¬ a.key = b.key := fun h' => h h'.le
    simp [h, h1, h2]

/-- A price answer under new names; errors come with the value 0. -/
def Spec.Relabel.depth (R : Relabel) : Res Fl → Res Fl
  | .ok p => .ok (R.price p)
  | .err c v => .err c v
  | .panic => .panic

/-- **C153.** `GetDepth` under new names, if also the sign of prices is kept, gives the renamed price,
the same error, or panics likewise. -/
theorem C153_depth_relabel {R : Relabel} (hR : R.Keeps) (h0 : ∀ a, Fl.le (R.price a) (.fin 0) = Fl.le a (.fin 0))
    (b : Book) (p : Fl) : (R.book b).getDepth (R.price p) = R.depth (b.getDepth p) := by
  have hle : ∀ a b, Fl.le (R.price a) (R.price b) = Fl.le a b := by
    intro a b; rw [le_lt_or_eq, le_lt_or_eq, hR.lt, hR.eq]
  have hA : (b.asks.map R.row).findIdx? (fun r => Fl.gt r.price (R.price p)) =
      b.asks.findIdx? (fun r => Fl.gt r.price p) := findIdx_relabel _ _ (fun r => hR.lt _ _) _
  have hB : (b.bids.map R.row).findIdx? (fun r => Fl.lt r.price (R.price p)) =
      b.bids.findIdx? (fun r => Fl.lt r.price p) := findIdx_relabel _ _ (fun r => hR.lt _ _) _
  unfold Book.getDepth
  simp only [Relabel.book, List.head?_map, List.getLast?_map, hA, hB, h0]
  by_cases hp : Fl.le p (.fin 0) = true
  · rw [if_pos hp, if_pos hp]; rfl
  rw [if_neg hp, if_neg hp]
  cases b.asks.head? <;> try rfl
  cases b.asks.getLast? <;> try rfl
  cases b.bids.head? <;> try rfl
  cases b.bids.getLast? <;> try rfl
  simp only [Option.map_some, Relabel.row, hle]
  split
  · cases b.asks.findIdx? (fun r => Fl.gt r.price p) with
    | none => rfl
    | some k =>
      simp only [List.getElem?_map]
      cases b.asks[k - 1]? <;> rfl
  · split
    · cases b.bids.findIdx? (fun r => Fl.lt r.price p) with
      | none => rfl
      | some k =>
        simp only [List.getElem?_map]
        cases b.bids[k - 1]? <;> rfl
    · rfl

namespace Ex

/-- Twice the number. -/
def twice : Fl → Fl
  | .fin q => .fin (2 * q)
  | x => x

/-- Prices in another unit, volumes ten times as large, cumulative volumes forgotten. -/
def relabel : Relabel := ⟨twice, fun v => match v with | .fin q => .fin (10 * q) | x => x, fun _ => .fin 0⟩

theorem relabel_keeps : relabel.Keeps := by
  refine ⟨?_, ?_, ?_, rfl⟩
  · rintro (_ | (_ | _) | q | _) (_ | (_ | _) | r | _) <;>
      (simp [relabel, twice, Fl.lt, Fl.key, Fl.isNaN]; try (constructor <;> intro h <;> linarith))
  · rintro (_ | (_ | _) | q | _) (_ | (_ | _) | r | _) <;>
      (simp [relabel, twice, Fl.eq, Fl.key, Fl.isNaN]; try exact eq_comm)
  · rintro (_ | (_ | _) | q | _) <;> simp [relabel, Fl.ne, Fl.eq, Fl.key, Fl.isNaN]

end Ex

example :
    let b : Book := ⟨0, [⟨.fin 12, .fin 1, .fin 1⟩, ⟨.fin 14, .fin 2, .fin 3⟩], [⟨.fin 9, .fin 1, .fin 1⟩], 5⟩
    let u : Update := ⟨.fin 13, .fin 3, "ask"⟩
    b.applyUpdate u = .ok ⟨0, [⟨.fin 12, .fin 1, .fin 1⟩, ⟨.fin 13, .fin 3, .fin 0⟩, ⟨.fin 14, .fin 2, .fin 3⟩],
      [⟨.fin 9, .fin 1, .fin 1⟩], 5⟩ ∧
    (Ex.relabel.book b).applyUpdate (Ex.relabel.update u) =
      .ok ⟨0, [⟨.fin 24, .fin 10, .fin 0⟩, ⟨.fin 26, .fin 30, .fin 0⟩, ⟨.fin 28, .fin 20, .fin 0⟩],
        [⟨.fin 18, .fin 10, .fin 0⟩], 5⟩ ∧
    b.getDepth (.fin 13) = .ok (.fin 12) ∧ (Ex.relabel.book b).getDepth (.fin 26) = .ok (.fin 24) := by
  decide +kernel

end Finmod
