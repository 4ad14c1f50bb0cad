import Verif.Model.OrderBook
import Verif.Lemmas.ListX
import Mathlib.Order.OrderDual

/-!
# One side of the book, generically

Asks use `Fl.lt`, bids use the flipped comparison; the two halves of the Go code are the same
program up to that flip, which is what the `_eq` lemmas at the end record.
-/

namespace Finmod
open Go

/-- `lt` compares non-NaN floats like the linear order of their images under `k`. -/
structure SideOrd (lt : Fl → Fl → Bool) {α : Type} [LinearOrder α] (k : Fl → α) : Prop where
  lt_iff : ∀ a b, a ≠ .nan → b ≠ .nan → (lt a b = true ↔ k a < k b)
  eq_iff : ∀ a b, a ≠ .nan → b ≠ .nan → (Fl.eq a b = true ↔ k a = k b)

theorem askOrd : SideOrd Fl.lt Fl.key where
  lt_iff a b ha hb := by rw [Fl.lt_of_num ha hb]; simp
  eq_iff a b ha hb := by rw [Fl.eq_of_num ha hb]; simp

theorem bidOrd : SideOrd (fun a b => Fl.lt b a) (fun x => OrderDual.toDual (Fl.key x)) where
  lt_iff a b ha hb := by rw [Fl.lt_of_num hb ha]; simp
  eq_iff a b ha hb := by rw [Fl.eq_of_num ha hb]; simp

/-- No NaN price. -/
def NoNaN (rows : List Row) : Prop := ∀ r ∈ rows, r.price ≠ .nan

/-- Generic shape of `removeInvalidAsk`/`removeInvalidBid`. -/
def gRemove (lt : Fl → Fl → Bool) (rows : List Row) (price : Fl) : List Row × Int :=
  match rows with
  | [] => (rows, 0)
  | first :: _ =>
    if lt price first.price then (rows, 0)
    else
      match rows.findIdx? (fun r => !(lt r.price price)) with
      | some i => (rows.drop (min (i + 1) (rows.length - 1)), (rows.length : Int) - i)
      | none => ([], 0)

/-- Generic shape of `upsertAsk`/`upsertBid`. -/
def gUpsert (lt : Fl → Fl → Bool) (rows : List Row) (p v : Fl) : List Row :=
  match rows.findIdx? (fun r => Fl.eq r.price p) with
  | some i => rows.set i (mkRow p v)
  | none =>
    match rows with
    | [] => rows ++ [mkRow p v]
    | [a0] =>
      if lt p a0.price then (rows ++ [a0]).set 0 (mkRow p v)
      else rows ++ [mkRow p v]
    | _ =>
      match rows.findIdx? (fun r => lt p r.price) with
      | some i => (shiftRight (rows ++ [zeroRow]) i).set i (mkRow p v)
      | none => rows ++ [mkRow p v]

theorem removeInvalidAsk_eq : removeInvalidAsk = gRemove Fl.lt := rfl
theorem removeInvalidBid_eq : removeInvalidBid = gRemove (fun a b => Fl.lt b a) := rfl
theorem upsertAsk_eq : upsertAsk = gUpsert Fl.lt := rfl
theorem upsertBid_eq : upsertBid = gUpsert (fun a b => Fl.lt b a) := rfl

section
variable {lt : Fl → Fl → Bool}

theorem upsert_split {l1 l2 : List Row} {x : Row} {p v : Fl}
    (h1 : ∀ r ∈ l1, lt r.price p = true) (h1' : ∀ r ∈ l1, lt p r.price = false)
    (hx : lt x.price p = false) (hx' : lt p x.price = false)
    (h2 : ∀ r ∈ l2, lt r.price p = false) (h2' : ∀ r ∈ l2, lt p r.price = true) :
    l1 ++ mkRow p v :: l2 = (l1 ++ x :: l2).filter (fun r => lt r.price p) ++ [mkRow p v] ++
      (l1 ++ x :: l2).filter (fun r => lt p r.price) := by
  have e1 : l1.filter (fun r => lt r.price p) = l1 := List.filter_eq_self.2 h1
  have e2 : l2.filter (fun r => lt r.price p) = [] := by
    rw [List.filter_eq_nil_iff]; intro a ha; simp [h2 a ha]
  have e3 : l1.filter (fun r => lt p r.price) = [] := by
    rw [List.filter_eq_nil_iff]; intro a ha; simp [h1' a ha]
  have e4 : l2.filter (fun r => lt p r.price) = l2 := List.filter_eq_self.2 h2'
  simp [List.filter_append, e1, e2, e3, e4, hx, hx']

theorem upsert_split' {l1 l2 : List Row} {p v : Fl}
    (h1 : ∀ r ∈ l1, lt r.price p = true) (h1' : ∀ r ∈ l1, lt p r.price = false)
    (h2 : ∀ r ∈ l2, lt r.price p = false) (h2' : ∀ r ∈ l2, lt p r.price = true) :
    l1 ++ mkRow p v :: l2 = (l1 ++ l2).filter (fun r => lt r.price p) ++ [mkRow p v] ++
      (l1 ++ l2).filter (fun r => lt p r.price) := by
  have e1 : l1.filter (fun r => lt r.price p) = l1 := List.filter_eq_self.2 h1
  have e2 : l2.filter (fun r => lt r.price p) = [] := by
    rw [List.filter_eq_nil_iff]; intro a ha; simp [h2 a ha]
  have e3 : l1.filter (fun r => lt p r.price) = [] := by
    rw [List.filter_eq_nil_iff]; intro a ha; simp [h1' a ha]
  have e4 : l2.filter (fun r => lt p r.price) = l2 := List.filter_eq_self.2 h2'
  simp [List.filter_append, e1, e2, e3, e4]

end

section
variable {lt : Fl → Fl → Bool} {α : Type} [LinearOrder α] {k : Fl → α} (O : SideOrd lt k)

/-- Strictly sorted, best first. -/
def GSorted (lt : Fl → Fl → Bool) (rows : List Row) : Prop :=
  rows.Pairwise (fun a b => lt a.price b.price = true)

include O

theorem SideOrd.lt_false_iff {a b : Fl} (ha : a ≠ .nan) (hb : b ≠ .nan) :
    lt a b = false ↔ k b ≤ k a := by
  rw [← not_lt, ← O.lt_iff a b ha hb]; simp

theorem SideOrd.eq_false_iff {a b : Fl} (ha : a ≠ .nan) (hb : b ≠ .nan) :
    Fl.eq a b = false ↔ k a ≠ k b := by
  rw [Ne, ← O.eq_iff a b ha hb]; simp

/-- The upsert code is sorted insertion with replacement. -/
theorem gUpsert_eq {rows : List Row} {p v : Fl} (hn : NoNaN rows) (hp : p ≠ .nan)
    (hs : GSorted lt rows) :
    gUpsert lt rows p v =
      rows.filter (fun r => lt r.price p) ++ [mkRow p v] ++ rows.filter (fun r => lt p r.price) := by
  unfold gUpsert
  split
  · rename_i i hi
    obtain ⟨l1, x, l2, rfl, rfl, hx, _⟩ := findIdx?_some_split hi
    rw [set_append_cons]
    have hxn : x.price ≠ .nan := hn x (by simp)
    have hkx := (O.eq_iff _ _ hxn hp).1 hx
    unfold GSorted at hs
    rw [List.pairwise_append, List.pairwise_cons] at hs
    obtain ⟨_, ⟨hs2, _⟩, hs3⟩ := hs
    have a1 : ∀ r ∈ l1, k r.price < k p := by
      intro r hr
      rw [← hkx]; exact (O.lt_iff _ _ (hn r (by simp [hr])) hxn).1 (hs3 r hr x (by simp))
    have a2 : ∀ r ∈ l2, k p < k r.price := by
      intro r hr
      rw [← hkx]; exact (O.lt_iff _ _ hxn (hn r (by simp [hr]))).1 (hs2 r hr)
    apply upsert_split
    · intro r hr; exact (O.lt_iff _ _ (hn r (by simp [hr])) hp).2 (a1 r hr)
    · intro r hr; exact (O.lt_false_iff hp (hn r (by simp [hr]))).2 (a1 r hr).le
    · exact (O.lt_false_iff hxn hp).2 hkx.ge
    · exact (O.lt_false_iff hp hxn).2 hkx.le
    · intro r hr; exact (O.lt_false_iff (hn r (by simp [hr])) hp).2 (a2 r hr).le
    · intro r hr; exact (O.lt_iff _ _ hp (hn r (by simp [hr]))).2 (a2 r hr)
  · rename_i hnone
    have hne : ∀ r ∈ rows, k r.price ≠ k p := fun r hr =>
      (O.eq_false_iff (hn r hr) hp).1 (findIdx?_none_all hnone r hr)
    -- key step: any split at the first row behind `p`
    have fin : ∀ l1 l2 : List Row, rows = l1 ++ l2 → (∀ r ∈ l1, lt p r.price = false) →
        (∀ r ∈ l2, lt p r.price = true) →
        l1 ++ mkRow p v :: l2 =
          rows.filter (fun r => lt r.price p) ++ [mkRow p v] ++ rows.filter (fun r => lt p r.price) := by
      intro l1 l2 hl b1 b2
      subst hl
      apply upsert_split'
      · intro r hr
        have hrn := hn r (by simp [hr])
        rw [O.lt_iff _ _ hrn hp]
        exact lt_of_le_of_ne ((O.lt_false_iff hp hrn).1 (b1 r hr)) (hne r (by simp [hr]))
      · exact b1
      · intro r hr
        have hrn := hn r (by simp [hr])
        rw [O.lt_false_iff hrn hp]
        exact ((O.lt_iff _ _ hp hrn).1 (b2 r hr)).le
      · exact b2
    split
    · simp
    · rename_i a0
      split
      · rename_i hlt
        have := fin [] [a0] rfl (by simp) (by simpa using hlt)
        simpa using this
      · rename_i hlt
        have := fin [a0] [] rfl (by simpa using hlt) (by simp)
        simpa using this
    · split
      · rename_i i hi
        obtain ⟨l1, x, l2, hl, rfl, hx, hall⟩ := findIdx?_some_split hi
        rw [hl, shiftRight_append, set_append_cons, ← hl]
        apply fin l1 (x :: l2) hl hall
        intro r hr
        rcases List.mem_cons.1 hr with rfl | hr
        · exact hx
        · have hxn : x.price ≠ .nan := hn x (by simp [hl])
          have hrn : r.price ≠ .nan := hn r (by simp [hl, hr])
          rw [hl] at hs
          unfold GSorted at hs
          rw [List.pairwise_append, List.pairwise_cons] at hs
          have h3 := (O.lt_iff _ _ hxn hrn).1 (hs.2.1.1 r hr)
          exact (O.lt_iff _ _ hp hrn).2 (lt_trans ((O.lt_iff _ _ hp hxn).1 hx) h3)
      · rename_i hnone2
        have := fin rows [] (by simp) (findIdx?_none_all hnone2) (by simp)
        simpa using this

/-- What `removeInvalid` does: nothing if the best row is behind the price; otherwise drop the
rows before the price and one more row (unless that one is the last). -/
theorem gRemove_cases {rows : List Row} {p : Fl} (hn : NoNaN rows) (hp : p ≠ .nan)
    (hs : GSorted lt rows) :
    ((∀ r ∈ rows, k p < k r.price) ∧ (gRemove lt rows p).1 = rows) ∨
    ((∀ r ∈ rows, k r.price < k p) ∧ (gRemove lt rows p).1 = []) ∨
    (∃ l1 x l2, rows = l1 ++ x :: l2 ∧ (∀ r ∈ l1, k r.price < k p) ∧ k p ≤ k x.price ∧
      (∀ r ∈ l2, k p < k r.price) ∧ (l1 ≠ [] ∨ k x.price = k p) ∧
      (gRemove lt rows p).1 = if l2 = [] then [x] else l2) := by
  cases rows with
  | nil => left; simp [gRemove]
  | cons f rest =>
    have hfn : f.price ≠ .nan := hn f (by simp)
    have hs' := List.pairwise_cons.1 hs
    unfold gRemove
    simp only
    by_cases hlt : lt p f.price = true
    · left
      simp only [hlt, if_true, and_true]
      have h0 := (O.lt_iff _ _ hp hfn).1 hlt
      intro r hr
      rcases List.mem_cons.1 hr with rfl | hr
      · exact h0
      · exact lt_trans h0 ((O.lt_iff _ _ hfn (hn r (by simp [hr]))).1 (hs'.1 r hr))
    · right
      simp only [hlt]
      cases hf : (f :: rest).findIdx? (fun r => !(lt r.price p)) with
      | none =>
        left
        refine ⟨?_, by simp⟩
        intro r hr
        have := findIdx?_none_all hf r hr
        simp only [Bool.not_eq_eq_eq_not, Bool.not_false] at this
        exact (O.lt_iff _ _ (hn r hr) hp).1 this
      | some i =>
        right
        obtain ⟨l1, x, l2, hl, rfl, hx, hall⟩ := findIdx?_some_split hf
        have hxn : x.price ≠ .nan := hn x (by rw [hl]; simp)
        have hx' : k p ≤ k x.price := by
          simp only [Bool.not_eq_eq_eq_not, Bool.not_true] at hx
          exact (O.lt_false_iff hxn hp).1 hx
        have hs2 := hs
        rw [hl] at hs2
        unfold GSorted at hs2
        rw [List.pairwise_append, List.pairwise_cons] at hs2
        refine ⟨l1, x, l2, hl, ?_, hx', ?_, ?_, ?_⟩
        · intro r hr
          have := hall r hr
          simp only [Bool.not_eq_eq_eq_not, Bool.not_false] at this
          exact (O.lt_iff _ _ (hn r (by rw [hl]; simp [hr])) hp).1 this
        · intro r hr
          exact lt_of_le_of_lt hx'
            ((O.lt_iff _ _ hxn (hn r (by rw [hl]; simp [hr]))).1 (hs2.2.1.1 r hr))
        · by_cases h1 : l1 = []
          · right
            subst h1
            simp only [List.nil_append, List.cons.injEq] at hl
            have h2 : k f.price ≤ k p := by
              rw [← not_lt, ← O.lt_iff _ _ hp hfn]; exact hlt
            rw [hl.1] at h2
            exact le_antisymm h2 hx'
          · left; exact h1
        · rw [hl]
          simp only [Bool.false_eq_true, if_false]
          by_cases h2 : l2 = []
          · subst h2; simp
          · have hlen : 0 < l2.length := List.length_pos_iff.2 h2
            have : min (l1.length + 1) ((l1 ++ x :: l2).length - 1) = l1.length + 1 := by
              simp; omega
            rw [this, if_neg h2]
            have e : l1 ++ x :: l2 = (l1 ++ [x]) ++ l2 := by simp
            rw [e]
            have e2 : l1.length + 1 = (l1 ++ [x]).length := by simp
            rw [e2, List.drop_left]

/-- Survivors are a tail of the old rows. -/
theorem gRemove_suffix {rows : List Row} {p : Fl} (hn : NoNaN rows) (hp : p ≠ .nan)
    (hs : GSorted lt rows) : (gRemove lt rows p).1 <:+ rows := by
  rcases gRemove_cases O hn hp hs with ⟨_, h⟩ | ⟨_, h⟩ | ⟨l1, x, l2, hl, _, _, _, _, h⟩
  · rw [h]; exact List.suffix_refl _
  · rw [h]; exact List.nil_suffix
  · rw [h, hl]
    split_ifs with h2
    · subst h2; exact List.suffix_append _ _
    · exact ⟨l1 ++ [x], by simp⟩

/-- Survivors are at or behind the price. -/
theorem gRemove_ge {rows : List Row} {p : Fl} (hn : NoNaN rows) (hp : p ≠ .nan)
    (hs : GSorted lt rows) : ∀ r ∈ (gRemove lt rows p).1, k p ≤ k r.price := by
  rcases gRemove_cases O hn hp hs with ⟨h0, h⟩ | ⟨_, h⟩ | ⟨l1, x, l2, hl, _, hx, h2, _, h⟩
  · rw [h]; exact fun r hr => (h0 r hr).le
  · rw [h]; simp
  · rw [h]
    split_ifs with h3
    · simpa using hx
    · exact fun r hr => (h2 r hr).le

/-- Rows strictly behind the price, other than the first of them, always survive. -/
theorem gRemove_idem {rows : List Row} {p : Fl} (hn : NoNaN rows) (hp : p ≠ .nan)
    (hs : GSorted lt rows) :
    (gRemove lt (gRemove lt rows p).1 p).1 = (gRemove lt rows p).1 := by
  have aux : ∀ rs : List Row, NoNaN rs → (∀ r ∈ rs, k p < k r.price) → (gRemove lt rs p).1 = rs := by
    intro rs hrn hall
    cases rs with
    | nil => rfl
    | cons f rest =>
      have : lt p f.price = true := (O.lt_iff _ _ hp (hrn f (by simp))).2 (hall f (by simp))
      simp [gRemove, this]
  rcases gRemove_cases O hn hp hs with ⟨h0, h⟩ | ⟨_, h⟩ | ⟨l1, x, l2, hl, _, hx, h2, _, h⟩
  · rw [h, h]
  · rw [h]; rfl
  · rw [h]
    split_ifs with h3
    · have hxn : x.price ≠ .nan := hn x (by rw [hl]; simp)
      have a : (lt p x.price = true) ∨ (lt p x.price = false ∧ lt x.price p = false) := by
        rcases eq_or_lt_of_le hx with he | hlt
        · right; exact ⟨(O.lt_false_iff hp hxn).2 he.ge, (O.lt_false_iff hxn hp).2 he.le⟩
        · left; exact (O.lt_iff _ _ hp hxn).2 hlt
      rcases a with a | ⟨a, b⟩
      · simp [gRemove, a]
      · simp [gRemove, a, b, List.findIdx?_cons]
    · exact aux l2 (fun r hr => hn r (by rw [hl]; simp [hr])) h2

end

end Finmod
