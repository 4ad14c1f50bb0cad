import Verif.Spec.OrderBook
import Verif.Lemmas.Side

/-! Lemmas about `applyUpdate`. -/

namespace Finmod
open Go Spec

/-- Generic form of `setAsk`/`setBid`. -/
def gSet (lt : Fl → Fl → Bool) (rows : List Row) (p v : Fl) : List Row :=
  rows.filter (fun r => lt r.price p) ++ [⟨p, v, .fin 0⟩] ++ rows.filter (fun r => lt p r.price)

theorem setAsk_eq : setAsk = gSet Fl.lt := rfl
theorem setBid_eq : setBid = gSet (fun a b => Fl.lt b a) := rfl

theorem gSet_num {lt : Fl → Fl → Bool} {rows : List Row} {p v : Fl} (hn : NoNaN rows) (hp : p ≠ .nan) :
    NoNaN (gSet lt rows p v) := by
  intro r hr
  simp only [gSet, List.mem_append, List.mem_filter, List.mem_singleton] at hr
  rcases hr with (⟨h, _⟩ | rfl) | ⟨h, _⟩
  · exact hn r h
  · exact hp
  · exact hn r h

section generic
variable {lt : Fl → Fl → Bool} {α : Type} [LinearOrder α] {k : Fl → α} (O : SideOrd lt k)
include O

theorem gSet_sorted {rows : List Row} {p v : Fl} (hn : NoNaN rows) (hp : p ≠ .nan)
    (hs : GSorted lt rows) : GSorted lt (gSet lt rows p v) := by
  unfold GSorted gSet
  rw [List.pairwise_append, List.pairwise_append]
  refine ⟨⟨hs.filter _, by simp, ?_⟩, hs.filter _, ?_⟩
  · intro a ha b hb
    simp only [List.mem_filter, List.mem_singleton] at ha hb
    rw [hb]; exact ha.2
  · intro a ha b hb
    simp only [List.mem_append, List.mem_filter, List.mem_singleton] at ha hb
    rcases ha with ha | rfl
    · have h1 := (O.lt_iff _ _ (hn a ha.1) hp).1 ha.2
      have h2 := (O.lt_iff _ _ hp (hn b hb.1)).1 hb.2
      exact (O.lt_iff _ _ (hn a ha.1) (hn b hb.1)).2 (lt_trans h1 h2)
    · exact hb.2

theorem mem_gSet {rows : List Row} {p v : Fl} (hn : NoNaN rows) (hp : p ≠ .nan) {r : Row} :
    r ∈ gSet lt rows p v ↔ r = ⟨p, v, .fin 0⟩ ∨ (r ∈ rows ∧ Fl.eq r.price p = false) := by
  simp only [gSet, List.mem_append, List.mem_filter, List.mem_singleton]
  constructor
  · rintro ((⟨h, h2⟩ | h) | ⟨h, h2⟩)
    · right; refine ⟨h, (O.eq_false_iff (hn r h) hp).2 (ne_of_lt ((O.lt_iff _ _ (hn r h) hp).1 h2))⟩
    · left; exact h
    · right; refine ⟨h, (O.eq_false_iff (hn r h) hp).2 (ne_of_gt ((O.lt_iff _ _ hp (hn r h)).1 h2))⟩
  · rintro (h | ⟨h, h2⟩)
    · left; right; exact h
    · have hne := (O.eq_false_iff (hn r h) hp).1 h2
      rcases lt_or_gt_of_ne hne with h3 | h3
      · left; left; exact ⟨h, (O.lt_iff _ _ (hn r h) hp).2 h3⟩
      · right; exact ⟨h, (O.lt_iff _ _ hp (hn r h)).2 h3⟩

/-- Two strictly sorted sides with the same rows are equal. -/
theorem sorted_ext {l1 l2 : List Row} (h1 : GSorted lt l1) (h2 : GSorted lt l2)
    (hn1 : NoNaN l1) (hn2 : NoNaN l2) (h : ∀ r, r ∈ l1 ↔ r ∈ l2) : l1 = l2 := by
  induction l1 generalizing l2 with
  | nil =>
    cases l2 with
    | nil => rfl
    | cons b l2 => exact absurd ((h b).2 (by simp)) (by simp)
  | cons a l1 ih =>
    cases l2 with
    | nil => exact absurd ((h a).1 (by simp)) (by simp)
    | cons b l2 =>
      have p1 := List.pairwise_cons.1 h1
      have p2 := List.pairwise_cons.1 h2
      have han := hn1 a (by simp)
      have hbn := hn2 b (by simp)
      have irr : ∀ x : Row, x.price ≠ .nan → lt x.price x.price = false := fun x hx =>
        (O.lt_false_iff hx hx).2 le_rfl
      have hab : a = b := by
        by_contra hne
        have h3 : a ∈ l2 := by
          have := (h a).1 (by simp)
          rcases List.mem_cons.1 this with h | h
          · exact absurd h hne
          · exact h
        have h4 : b ∈ l1 := by
          have := (h b).2 (by simp)
          rcases List.mem_cons.1 this with h | h
          · exact absurd h.symm hne
          · exact h
        have h5 := (O.lt_iff _ _ han hbn).1 (p1.1 b h4)
        have h6 := (O.lt_iff _ _ hbn han).1 (p2.1 a h3)
        exact absurd h5 (not_lt.2 h6.le)
      subst hab
      have nm1 : a ∉ l1 := fun hm => by have := p1.1 a hm; rw [irr a han] at this; simp at this
      have nm2 : a ∉ l2 := fun hm => by have := p2.1 a hm; rw [irr a han] at this; simp at this
      congr 1
      apply ih p1.2 p2.2 (fun r hr => hn1 r (by simp [hr])) (fun r hr => hn2 r (by simp [hr]))
      intro r
      have := h r
      simp only [List.mem_cons] at this
      constructor
      · intro hr
        rcases this.1 (Or.inr hr) with rfl | h
        · exact absurd hr nm1
        · exact h
      · intro hr
        rcases this.2 (Or.inr hr) with rfl | h
        · exact absurd hr nm2
        · exact h

/-- Removing the row found at the price is deleting the level. -/
theorem removeElement_eq {rows : List Row} {p : Fl} {i : Nat} (hn : NoNaN rows) (hp : p ≠ .nan)
    (hs : GSorted lt rows) (h : rows.findIdx? (fun r => Fl.eq r.price p) = some i) :
    removeElement rows i = deleteLevel rows p := by
  obtain ⟨l1, x, l2, rfl, rfl, hx, hall⟩ := findIdx?_some_split h
  have hxn : x.price ≠ .nan := hn x (by simp)
  have hkx := (O.eq_iff _ _ hxn hp).1 hx
  unfold GSorted at hs
  rw [List.pairwise_append, List.pairwise_cons] at hs
  have a2 : ∀ r ∈ l2, Fl.eq r.price p = false := by
    intro r hr
    have hrn := hn r (by simp [hr])
    have := (O.lt_iff _ _ hxn hrn).1 (hs.2.1.1 r hr)
    rw [hkx] at this
    exact (O.eq_false_iff hrn hp).2 (ne_of_gt this)
  have e1 : l1.filter (fun r => !(Fl.eq r.price p)) = l1 := by
    rw [List.filter_eq_self]; intro a ha; simp [hall a ha]
  have e2 : l2.filter (fun r => !(Fl.eq r.price p)) = l2 := by
    rw [List.filter_eq_self]; intro a ha; simp [a2 a ha]
  unfold removeElement deleteLevel
  rw [List.filter_append, List.filter_cons]
  simp [hx, e1, e2]

end generic

theorem deleteLevel_none {rows : List Row} {p : Fl}
    (h : rows.findIdx? (fun r => Fl.eq r.price p) = none) : deleteLevel rows p = rows := by
  unfold deleteLevel
  rw [List.filter_eq_self]
  intro a ha
  simp [findIdx?_none_all h a ha]

theorem limitSide_eq {rows : List Row} {d : Int} (hd : 0 ≤ d) :
    limitSide rows d = some (rows.take d.toNat) := by
  unfold limitSide sliceTo
  have h : ¬ d < 0 := by omega
  by_cases h2 : (rows.length : Int) > d
  · simp [h2, h]
  · have : rows.length ≤ d.toNat := by omega
    simp [h2, List.take_of_length_le this]

theorem limit_eq {b : Book} (hd : 0 ≤ b.maxDepth) :
    b.limit = .ok { b with asks := b.asks.take b.maxDepth.toNat,
                           bids := b.bids.take b.maxDepth.toNat } := by
  unfold Book.limit
  rw [limitSide_eq hd, limitSide_eq hd]

theorem gRemove_length {lt : Fl → Fl → Bool} {rows : List Row} {p : Fl} :
    (gRemove lt rows p).1.length ≤ rows.length := by
  unfold gRemove
  split
  · simp
  · split
    · simp
    · split
      · simp
      · simp

/-- Equations of `applyUpdate`, any book with non-negative depth. -/
theorem applyUpdate_ask_set' {b : Book} {u : Update} (hd : 0 ≤ b.maxDepth) (hs : u.side = "ask")
    (hv : Fl.ne u.volume (.fin 0) = true) :
    b.applyUpdate u = .ok { b with
      asks := (upsertAsk b.asks u.price u.volume).take b.maxDepth.toNat,
      bids := (removeInvalidBid b.bids u.price).1.take b.maxDepth.toNat } := by
  simp [Book.applyUpdate, hs, hv, Book.removeInvalid, limit_eq, hd]

theorem applyUpdate_bid_set' {b : Book} {u : Update} (hd : 0 ≤ b.maxDepth) (hs : u.side = "bid")
    (hv : Fl.ne u.volume (.fin 0) = true) :
    b.applyUpdate u = .ok { b with
      asks := (removeInvalidAsk b.asks u.price).1.take b.maxDepth.toNat,
      bids := (upsertBid b.bids u.price u.volume).take b.maxDepth.toNat } := by
  simp [Book.applyUpdate, hs, hv, Book.removeInvalid, limit_eq, hd]

theorem Spec.WellFormed.askSorted {b : Book} (h : WellFormed b) : GSorted Fl.lt b.asks := h.asks_sorted
theorem Spec.WellFormed.bidSorted {b : Book} (h : WellFormed b) :
    GSorted (fun a b => Fl.lt b a) b.bids := h.bids_sorted

/-- A reachable book: well formed and within its depth. -/
structure Good (b : Book) : Prop where
  wf : WellFormed b
  depth : 0 ≤ b.maxDepth
  bound : DepthOk b

theorem removeInvalidBid_take {b : Book} (p : Fl) (hb : DepthOk b) :
    (removeInvalidBid b.bids p).1.take b.maxDepth.toNat = (removeInvalidBid b.bids p).1 := by
  apply List.take_of_length_le
  have := gRemove_length (lt := fun a b => Fl.lt b a) (rows := b.bids) (p := p)
  rw [removeInvalidBid_eq]
  have := hb.2
  omega

theorem removeInvalidAsk_take {b : Book} (p : Fl) (hb : DepthOk b) :
    (removeInvalidAsk b.asks p).1.take b.maxDepth.toNat = (removeInvalidAsk b.asks p).1 := by
  apply List.take_of_length_le
  have := gRemove_length (lt := Fl.lt) (rows := b.asks) (p := p)
  rw [removeInvalidAsk_eq]
  have := hb.1
  omega

theorem upsertAsk_set {b : Book} {p v : Fl} (h : WellFormed b) (hp : p ≠ .nan) :
    upsertAsk b.asks p v = setAsk b.asks p v := by
  rw [upsertAsk_eq, gUpsert_eq askOrd h.asks_num hp h.askSorted]; rfl

theorem upsertBid_set {b : Book} {p v : Fl} (h : WellFormed b) (hp : p ≠ .nan) :
    upsertBid b.bids p v = setBid b.bids p v := by
  rw [upsertBid_eq, gUpsert_eq bidOrd h.bids_num hp h.bidSorted]; rfl

theorem applyUpdate_ask_set {b : Book} {u : Update} (h : Good b) (hs : u.side = "ask")
    (hv : Fl.ne u.volume (.fin 0) = true) (hp : u.price ≠ .nan) :
    b.applyUpdate u = .ok { b with
      asks := (setAsk b.asks u.price u.volume).take b.maxDepth.toNat,
      bids := (removeInvalidBid b.bids u.price).1 } := by
  rw [applyUpdate_ask_set' h.depth hs hv, removeInvalidBid_take _ h.bound, upsertAsk_set h.wf hp]

theorem applyUpdate_bid_set {b : Book} {u : Update} (h : Good b) (hs : u.side = "bid")
    (hv : Fl.ne u.volume (.fin 0) = true) (hp : u.price ≠ .nan) :
    b.applyUpdate u = .ok { b with
      asks := (removeInvalidAsk b.asks u.price).1,
      bids := (setBid b.bids u.price u.volume).take b.maxDepth.toNat } := by
  rw [applyUpdate_bid_set' h.depth hs hv, removeInvalidAsk_take _ h.bound, upsertBid_set h.wf hp]

theorem deleteLevel_length (rows : List Row) (p : Fl) :
    (deleteLevel rows p).length ≤ rows.length := List.length_filter_le _ _

theorem applyUpdate_ask_del {b : Book} {u : Update} (h : Good b) (hs : u.side = "ask")
    (hv : Fl.ne u.volume (.fin 0) = false) (hp : u.price ≠ .nan) :
    b.applyUpdate u = .ok { b with asks := deleteLevel b.asks u.price } := by
  have hb := h.bound
  unfold Book.applyUpdate
  simp only [hs, hv, if_true]
  cases hf : b.asks.findIdx? (fun r => Fl.eq r.price u.price) with
  | none => simp [deleteLevel_none hf]
  | some i =>
    have e := removeElement_eq askOrd h.wf.asks_num hp h.wf.askSorted hf
    have hl := deleteLevel_length b.asks u.price
    simp only [Bool.false_eq_true, if_false]
    rw [limit_eq (by exact h.depth), e]
    simp only
    rw [List.take_of_length_le (by have := hb.1; omega), List.take_of_length_le (by have := hb.2; omega)]

theorem applyUpdate_bid_del {b : Book} {u : Update} (h : Good b) (hs : u.side = "bid")
    (hv : Fl.ne u.volume (.fin 0) = false) (hp : u.price ≠ .nan) :
    b.applyUpdate u = .ok { b with bids := deleteLevel b.bids u.price } := by
  have hb := h.bound
  unfold Book.applyUpdate
  simp only [hs, hv]
  cases hf : b.bids.findIdx? (fun r => Fl.eq r.price u.price) with
  | none => simp [deleteLevel_none hf]
  | some i =>
    have e := removeElement_eq bidOrd h.wf.bids_num hp h.wf.bidSorted hf
    have hl := deleteLevel_length b.bids u.price
    simp only [Bool.false_eq_true, if_false, if_true]
    rw [if_neg (by decide), limit_eq (by exact h.depth), e]
    simp only
    rw [List.take_of_length_le (by have := hb.1; omega), List.take_of_length_le (by have := hb.2; omega)]

theorem applyUpdate_other {b : Book} {u : Update} (h1 : u.side ≠ "ask") (h2 : u.side ≠ "bid") :
    b.applyUpdate u = .err .einvalid b := by
  simp [Book.applyUpdate, h1, h2]

end Finmod
