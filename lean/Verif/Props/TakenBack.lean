import Verif.Lemmas.NewBook
import Verif.Props.BookUpdate

/-!
# A level added and taken away again: C263
-/

namespace Finmod
open Go Spec

section generic
variable {lt : Fl → Fl → Bool} {α : Type} [LinearOrder α] {k : Fl → α} (O : SideOrd lt k)
include O

/-- A sorted side without the price is the rows before it and the rows behind it. -/
theorem split_at_price {rows : List Row} {p : Fl} (hn : NoNaN rows) (hp : p ≠ .nan) (hs : GSorted lt rows)
    (h0 : ∀ r ∈ rows, Fl.eq r.price p = false) :
    rows = rows.filter (fun r => lt r.price p) ++ rows.filter (fun r => lt p r.price) := by
  induction rows with
  | nil => rfl
  | cons r rs ih =>
    have hrn := hn r (by simp)
    unfold GSorted at hs
    rw [List.pairwise_cons] at hs
    have hne := (O.eq_false_iff hrn hp).1 (h0 r (by simp))
    have ih := ih (fun x hx => hn x (by simp [hx])) hs.2 (fun x hx => h0 x (by simp [hx]))
    rcases lt_or_gt_of_ne hne with h | h
    · have h1 := (O.lt_iff _ _ hrn hp).2 h
      have h2 : lt p r.price = false := (O.lt_false_iff hp hrn).2 h.le
      rw [List.filter_cons, List.filter_cons, h1, h2]
      simp only [if_true, Bool.false_eq_true, if_false, List.cons_append]
      rw [← ih]
    · have h1 : lt r.price p = false := (O.lt_false_iff hrn hp).2 h.le
      have h2 := (O.lt_iff _ _ hp hrn).2 h
      have hall : ∀ x ∈ rs, lt x.price p = false ∧ lt p x.price = true := by
        intro x hx
        have hxn := hn x (by simp [hx])
        have := (O.lt_iff _ _ hrn hxn).1 (hs.1 x hx)
        exact ⟨(O.lt_false_iff hxn hp).2 (h.trans this).le, (O.lt_iff _ _ hp hxn).2 (h.trans this)⟩
      have e1 : rs.filter (fun x => lt x.price p) = [] := by
        rw [List.filter_eq_nil_iff]
        intro x hx; simp [(hall x hx).1]
      have e2 : rs.filter (fun x => lt p x.price) = rs := by
        rw [List.filter_eq_self]
        intro x hx; exact (hall x hx).2
      rw [List.filter_cons, List.filter_cons, h1, h2, e1, e2]
      simp

theorem set_delete {rows : List Row} {p v : Fl} {n : Nat} (hn : NoNaN rows) (hp : p ≠ .nan) (hs : GSorted lt rows)
    (h0 : ∀ r ∈ rows, Fl.eq r.price p = false) (hl : rows.length ≤ n) :
    deleteLevel ((gSet lt rows p v).take n) p = if rows.all (fun r => lt r.price p) then rows else rows.take (n - 1) := by
  have hsplit := split_at_price O hn hp hs h0
  have hpp : Fl.eq p p = true := (O.eq_iff _ _ hp hp).2 rfl
  have keep : ∀ l : List Row, (∀ r ∈ l, r ∈ rows) → deleteLevel l p = l := by
    intro l h
    unfold deleteLevel
    rw [List.filter_eq_self]
    intro r hr; simp [h0 r (h r hr)]
  have app : ∀ l m : List Row, deleteLevel (l ++ m) p = deleteLevel l p ++ deleteLevel m p := fun l m => by
    simp [deleteLevel]
  unfold gSet
  have mF : ∀ r ∈ rows.filter (fun r => lt r.price p), r ∈ rows := fun r hr => List.mem_of_mem_filter hr
  have mG : ∀ r ∈ rows.filter (fun r => lt p r.price), r ∈ rows := fun r hr => List.mem_of_mem_filter hr
  by_cases ha : rows.all (fun r => lt r.price p) = true
  · rw [if_pos ha]
    have eF : rows.filter (fun r => lt r.price p) = rows := by
      rw [List.filter_eq_self]; exact List.all_eq_true.1 ha
    have eG : rows.filter (fun r => lt p r.price) = [] := by
      rw [eF] at hsplit
      exact List.append_right_eq_self.1 hsplit.symm
    rw [eF, eG, List.append_nil, List.take_append, List.take_of_length_le hl, app, keep rows fun _ h => h]
    have : deleteLevel ([⟨p, v, .fin 0⟩].take (n - rows.length)) p = [] := by
      unfold deleteLevel
      rw [List.filter_eq_nil_iff]
      intro r hr
      have := List.mem_of_mem_take hr
      simp only [List.mem_singleton] at this
      rw [this]; simp [hpp]
    rw [this, List.append_nil]
  · rw [if_neg ha]
    have hG : 0 < (rows.filter (fun r => lt p r.price)).length := by
      rw [List.length_pos_iff]
      intro e
      rw [e, List.append_nil] at hsplit
      exact ha (List.all_eq_true.2 (List.filter_eq_self.1 hsplit.symm))
    generalize hF : rows.filter (fun r => lt r.price p) = F at *
    generalize hGG : rows.filter (fun r => lt p r.price) = G at *
    have hlen : rows.length = F.length + G.length := by rw [hsplit, List.length_append]
    have e1 : (F ++ [(⟨p, v, .fin 0⟩ : Row)] ++ G).take n = F ++ [⟨p, v, .fin 0⟩] ++ G.take (n - 1 - F.length) := by
      rw [List.take_append, List.take_of_length_le (by simp; omega)]
      have : n - (F ++ [(⟨p, v, .fin 0⟩ : Row)]).length = n - 1 - F.length := by simp; omega
      rw [this]
    have e2 : rows.take (n - 1) = F ++ G.take (n - 1 - F.length) := by
      conv_lhs => rw [hsplit]
      rw [List.take_append, List.take_of_length_le (by omega)]
    rw [e1, e2, app, app, keep F mF, keep _ fun r hr => mG r (List.mem_of_mem_take hr)]
    have : deleteLevel [(⟨p, v, .fin 0⟩ : Row)] p = [] := by simp [deleteLevel, hpp]
    rw [this, List.append_nil]

end generic

/-- **C263** as one would like it: a level that is added and taken away again leaves the book as it was. -/
def Spec.C263_claim : Prop :=
  ∀ (b b' : Book) (u : Update), WellFormed b → 0 ≤ b.maxDepth → DepthOk b → Uncrossed b →
    (u.side = "ask" ∨ u.side = "bid") → u.price ≠ .nan → (∀ r ∈ side b u.side, Fl.eq r.price u.price = false) →
    b.applyUpdate u = .ok b' → b'.applyUpdate { u with volume := .fin 0 } = .ok b

/-- **C263** A new ask above every bid, taken away again: the bids are as before. The asks are as before if the new one
came last, and are cut to one less than `MaxDepth` if it did not. -/
theorem C263_ask_partial (b : Book) (h : WellFormed b) (hd : 0 ≤ b.maxDepth) (hb : DepthOk b) (u : Update)
    (hs : u.side = "ask") (hp : u.price ≠ .nan) (hv : Fl.ne u.volume (.fin 0) = true)
    (h0 : ∀ r ∈ b.asks, Fl.eq r.price u.price = false) (hc : BidBehind b u.price) (z : Fl) (hz : Fl.eq z (.fin 0) = true) :
    ∃ b', b.applyUpdate u = .ok b' ∧ b'.applyUpdate { u with volume := z } = .ok { b with
      asks := if b.asks.all (fun r => Fl.lt r.price u.price) then b.asks else b.asks.take (b.maxDepth.toNat - 1) } := by
  have g : Good b := ⟨h, hd, hb⟩
  have g' := (stepTo_good g hp (.askSet hs hv)).1
  refine ⟨_, applyUpdate_ask_set g hs hv hp, ?_⟩
  rw [applyUpdate_ask_del (u := { u with volume := z }) g' hs (by simpa [Fl.ne] using hz) hp]
  have e := set_delete askOrd (v := u.volume) h.asks_num hp h.askSorted h0 (n := b.maxDepth.toNat) (by have := hb.1; omega)
  rw [← setAsk_eq] at e
  have e2 : (removeInvalidBid b.bids u.price).1 = b.bids := by rw [removeInvalidBid_eq]; exact gRemove_noop hc
  simp only [e, e2]

/-- **C263** The same for a new bid below every ask. -/
theorem C263_bid_partial (b : Book) (h : WellFormed b) (hd : 0 ≤ b.maxDepth) (hb : DepthOk b) (u : Update)
    (hs : u.side = "bid") (hp : u.price ≠ .nan) (hv : Fl.ne u.volume (.fin 0) = true)
    (h0 : ∀ r ∈ b.bids, Fl.eq r.price u.price = false) (hc : AskBehind b u.price) (z : Fl) (hz : Fl.eq z (.fin 0) = true) :
    ∃ b', b.applyUpdate u = .ok b' ∧ b'.applyUpdate { u with volume := z } = .ok { b with
      bids := if b.bids.all (fun r => Fl.gt r.price u.price) then b.bids else b.bids.take (b.maxDepth.toNat - 1) } := by
  have g : Good b := ⟨h, hd, hb⟩
  have g' := (stepTo_good g hp (.bidSet hs hv)).1
  refine ⟨_, applyUpdate_bid_set g hs hv hp, ?_⟩
  rw [applyUpdate_bid_del (u := { u with volume := z }) g' hs (by simpa [Fl.ne] using hz) hp]
  have e := set_delete bidOrd (v := u.volume) h.bids_num hp h.bidSorted h0 (n := b.maxDepth.toNat) (by have := hb.2; omega)
  rw [← setBid_eq] at e
  have e2 : (removeInvalidAsk b.asks u.price).1 = b.asks := by rw [removeInvalidAsk_eq]; exact gRemove_noop hc
  simp only [e, e2]

/-- **C263** While its side has room for one more row, a book is as it was before. -/
theorem C263_room_partial (b : Book) (h : WellFormed b) (hd : 0 ≤ b.maxDepth) (hb : DepthOk b) (u : Update)
    (hp : u.price ≠ .nan) (hv : Fl.ne u.volume (.fin 0) = true)
    (h0 : ∀ r ∈ side b u.side, Fl.eq r.price u.price = false)
    (hc : u.side = "ask" ∧ BidBehind b u.price ∨ u.side = "bid" ∧ AskBehind b u.price)
    (hr : ((side b u.side).length : Int) < b.maxDepth) (z : Fl) (hz : Fl.eq z (.fin 0) = true) :
    ∃ b', b.applyUpdate u = .ok b' ∧ b'.applyUpdate { u with volume := z } = .ok b := by
  rcases hc with ⟨hs, hc⟩ | ⟨hs, hc⟩
  · simp only [side, if_pos hs] at h0 hr
    obtain ⟨b', e1, e2⟩ := C263_ask_partial b h hd hb u hs hp hv h0 hc z hz
    refine ⟨b', e1, e2.trans ?_⟩
    rw [List.take_of_length_le (by omega), ite_self]
  · have hna : u.side ≠ "ask" := by rw [hs]; decide
    simp only [side, if_neg hna] at h0 hr
    obtain ⟨b', e1, e2⟩ := C263_bid_partial b h hd hb u hs hp hv h0 hc z hz
    refine ⟨b', e1, e2.trans ?_⟩
    rw [List.take_of_length_le (by omega), ite_self]

/-- A book with two asks and two bids, with or without room. -/
def takenBook (d : Int) : Book :=
  ⟨0, [⟨.fin 12, .fin 1, .fin 1⟩, ⟨.fin 14, .fin 2, .fin 3⟩], [⟨.fin 10, .fin 1, .fin 1⟩, ⟨.fin 9, .fin 2, .fin 3⟩], d⟩

theorem takenBook_wf (d : Int) : WellFormed (takenBook d) := by
  constructor
  · intro r hr; simp [takenBook] at hr; rcases hr with rfl | rfl <;> decide
  · intro r hr; simp [takenBook] at hr; rcases hr with rfl | rfl <;> decide
  · show List.Pairwise _ _; simp [takenBook]; decide +kernel
  · show List.Pairwise _ _; simp [takenBook]; decide +kernel

/-- **C263** is false: in a full book the worst row is lost. -/
theorem C263_taken_back_violated : ¬ Spec.C263_claim := by
  intro h
  have := h (takenBook 2) ⟨0, [⟨.fin 12, .fin 1, .fin 1⟩, ⟨.fin 13, .fin 5, .fin 0⟩],
    [⟨.fin 10, .fin 1, .fin 1⟩, ⟨.fin 9, .fin 2, .fin 3⟩], 2⟩ ⟨.fin 13, .fin 5, "ask"⟩ (takenBook_wf 2) (by decide)
    ⟨by decide, by decide⟩ (by unfold Uncrossed; decide +kernel) (.inl rfl) (by decide) (by decide +kernel) (by decide +kernel)
  revert this
  decide +kernel

/-- **Example for C263.** A book with room and an ask between its two asks; a full book, and a bid below its bids. -/
example : WellFormed (takenBook 3) ∧ DepthOk (takenBook 3) ∧ BidBehind (takenBook 3) (.fin 13) ∧
    ((side (takenBook 3) "ask").length : Int) < (takenBook 3).maxDepth ∧
    (∀ r ∈ side (takenBook 3) "ask", Fl.eq r.price (.fin 13) = false) ∧
    DepthOk (takenBook 2) ∧ AskBehind (takenBook 2) (.fin 8) ∧ (∀ r ∈ (takenBook 2).bids, Fl.eq r.price (.fin 8) = false) ∧
    Fl.eq .negZero (.fin 0) = true := by
  refine ⟨takenBook_wf 3, ⟨by decide, by decide⟩, ?_, by decide, by decide +kernel, ⟨by decide, by decide⟩, ?_, by decide +kernel,
    by decide⟩
  · intro r hr; simp [takenBook] at hr; subst hr; decide +kernel
  · intro r hr; simp [takenBook] at hr; subst hr; decide +kernel

end Finmod
