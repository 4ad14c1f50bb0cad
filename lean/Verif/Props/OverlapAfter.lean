import Verif.Props.BookOverlap
import Verif.Props.BookUpdate
import Verif.Lemmas.FloatX

/-!
# The overlap of a book with what it was before an update: C259
-/

namespace Finmod
open Go Spec

theorem lt_of_le_absurd {x y : Fl} (h : Fl.le x y = true) (h' : Fl.lt y x = true) : False := by
  cases x <;> cases y <;> simp_all [Fl.le, Fl.lt] <;> grind

/-- **C259** A book does not overlap itself. -/
theorem C259_self (S : FloatSem) (b : Book) (ha : b.asks ≠ []) (hb : b.bids ≠ []) (hx : Uncrossed b) :
    calculateOverlap S b b = .err .enotfound (S.const (-1)) := by
  have h : ¬ Overlaps b b := by
    rintro ⟨a, x, h1, h2, h3⟩
    exact lt_of_le_absurd (hx x (List.mem_of_head? h2) a (List.mem_of_head? h1)) h3
  exact (C20_overlap_decided S b b ⟨ha, hb, ha, hb⟩).2.1 h h

/-- **C259** After an ask the book overlaps what it was before exactly if the ask is below a bid. -/
theorem C259_ask (S : FloatSem) (b b' : Book) (h : WellFormed b) (hd : 0 ≤ b.maxDepth) (hb : DepthOk b) (hx : Uncrossed b)
    (u : Update) (hp : u.price ≠ .nan) (hv : Fl.ne u.volume (.fin 0) = true) (hs : u.side = "ask")
    (hu : b.applyUpdate u = .ok b') (h4 : FourSides b b') :
    ((∃ v, calculateOverlap S b b' = .ok v) ↔ ∃ x ∈ b.bids, Fl.lt u.price x.price = true) ∧
    ((∀ x ∈ b.bids, Fl.le x.price u.price = true) → calculateOverlap S b b' = .err .enotfound (S.const (-1))) := by
  obtain ⟨b1, e1, ha⟩ := (C05_nonzero_update_sets_level b h hd u hp hv).1 hs
  obtain ⟨b2, e2, _, hsuf, _⟩ := (C10_removes_only_crossed_partial b h hd hb u hp hv).1 hs
  obtain rfl : b1 = b' := by rw [hu] at e1; cases e1; rfl
  obtain rfl : b2 = b1 := by rw [hu] at e2; cases e2; rfl
  have hsub : ∀ x ∈ b2.bids, x ∈ b.bids := fun x hx => (List.mem_filter.1 (hsuf.subset hx)).1
  have n1 : ¬ Overlaps b b2 := by
    rintro ⟨a, x, h1, h2, h3⟩
    exact lt_of_le_absurd (hx x (hsub x (List.mem_of_head? h2)) a (List.mem_of_head? h1)) h3
  have hd1 : b.maxDepth.toNat ≠ 0 := by
    have := List.length_pos_iff.2 h4.1
    have := hb.1
    omega
  have key : Overlaps b2 b ↔ ∃ x ∈ b.bids, Fl.lt u.price x.price = true := by
    constructor
    · rintro ⟨a, x, h1, h2, h3⟩
      have hxb := List.mem_of_head? h2
      have hm := List.mem_of_mem_take (ha ▸ List.mem_of_head? h1)
      simp only [setAsk, List.mem_append, List.mem_filter, List.mem_singleton] at hm
      rcases hm with (hm | rfl) | hm
      · exact (lt_of_le_absurd (hx x hxb a hm.1) h3).elim
      · exact ⟨x, hxb, h3⟩
      · exact (lt_of_le_absurd (hx x hxb a hm.1) h3).elim
    · rintro ⟨x, hxm, hlt⟩
      obtain ⟨x0, r, e⟩ := List.exists_cons_of_ne_nil h4.2.1
      have hs0 := h.bids_sorted
      rw [e] at hxm hs0
      have hlt0 : Fl.lt u.price x0.price = true := by
        rcases List.mem_cons.1 hxm with rfl | hm
        · exact hlt
        · exact fl_lt_of_le_of_lt (fl_le_of_lt hlt) ((List.pairwise_cons.1 hs0).1 x hm)
      have hnil : b.asks.filter (fun r => Fl.lt r.price u.price) = [] := by
        rw [List.filter_eq_nil_iff]
        intro y hy hyp
        exact lt_of_le_absurd (hx x0 (by rw [e]; exact List.mem_cons_self) y hy) (fl_lt_of_le_of_lt (fl_le_of_lt hyp) hlt0)
      refine ⟨⟨u.price, u.volume, .fin 0⟩, x0, ?_, by rw [e]; rfl, hlt0⟩
      rw [ha, List.head?_take, if_neg hd1, setAsk, hnil]
      rfl
  obtain ⟨_, d2, d3, _⟩ := C20_overlap_decided S b b2 h4
  constructor
  · rw [← key]
    constructor
    · rintro ⟨v, hv⟩
      by_contra hn
      rw [d2 n1 hn] at hv
      exact nomatch hv
    · intro ho
      obtain ⟨v, hv, _⟩ := d3 (.inr ho)
      exact ⟨v, hv⟩
  · intro hall
    exact d2 n1 fun ho => by
      obtain ⟨x, hxm, hlt⟩ := key.1 ho
      exact lt_of_le_absurd (hall x hxm) hlt

/-- **C259** After a bid the book overlaps what it was before exactly if the bid is above an ask. -/
theorem C259_bid (S : FloatSem) (b b' : Book) (h : WellFormed b) (hd : 0 ≤ b.maxDepth) (hb : DepthOk b) (hx : Uncrossed b)
    (u : Update) (hp : u.price ≠ .nan) (hv : Fl.ne u.volume (.fin 0) = true) (hs : u.side = "bid")
    (hu : b.applyUpdate u = .ok b') (h4 : FourSides b b') :
    ((∃ v, calculateOverlap S b b' = .ok v) ↔ ∃ x ∈ b.asks, Fl.lt x.price u.price = true) ∧
    ((∀ x ∈ b.asks, Fl.le u.price x.price = true) → calculateOverlap S b b' = .err .enotfound (S.const (-1))) := by
  obtain ⟨b1, e1, ha⟩ := (C05_nonzero_update_sets_level b h hd u hp hv).2 hs
  obtain ⟨b2, e2, _, hsuf, _⟩ := (C10_removes_only_crossed_partial b h hd hb u hp hv).2 hs
  obtain rfl : b1 = b' := by rw [hu] at e1; cases e1; rfl
  obtain rfl : b2 = b1 := by rw [hu] at e2; cases e2; rfl
  have hsub : ∀ x ∈ b2.asks, x ∈ b.asks := fun x hx => (List.mem_filter.1 (hsuf.subset hx)).1
  have n1 : ¬ Overlaps b2 b := by
    rintro ⟨a, x, h1, h2, h3⟩
    exact lt_of_le_absurd (hx x (List.mem_of_head? h2) a (hsub a (List.mem_of_head? h1))) h3
  have hd1 : b.maxDepth.toNat ≠ 0 := by
    have := List.length_pos_iff.2 h4.1
    have := hb.1
    omega
  have key : Overlaps b b2 ↔ ∃ x ∈ b.asks, Fl.lt x.price u.price = true := by
    constructor
    · rintro ⟨a, x, h1, h2, h3⟩
      have hab := List.mem_of_head? h1
      have hm := List.mem_of_mem_take (ha ▸ List.mem_of_head? h2)
      simp only [setBid, List.mem_append, List.mem_filter, List.mem_singleton] at hm
      rcases hm with (hm | rfl) | hm
      · exact (lt_of_le_absurd (hx x hm.1 a hab) h3).elim
      · exact ⟨a, hab, h3⟩
      · exact (lt_of_le_absurd (hx x hm.1 a hab) h3).elim
    · rintro ⟨x, hxm, hlt⟩
      obtain ⟨x0, r, e⟩ := List.exists_cons_of_ne_nil h4.1
      have hs0 := h.asks_sorted
      rw [e] at hxm hs0
      have hlt0 : Fl.lt x0.price u.price = true := by
        rcases List.mem_cons.1 hxm with rfl | hm
        · exact hlt
        · exact fl_lt_of_le_of_lt (fl_le_of_lt ((List.pairwise_cons.1 hs0).1 x hm)) hlt
      have hnil : b.bids.filter (fun r => Fl.gt r.price u.price) = [] := by
        rw [List.filter_eq_nil_iff]
        intro y hy hyp
        exact lt_of_le_absurd (hx y hy x0 (by rw [e]; exact List.mem_cons_self)) (fl_lt_of_le_of_lt (fl_le_of_lt hlt0) hyp)
      refine ⟨x0, ⟨u.price, u.volume, .fin 0⟩, by rw [e]; rfl, ?_, hlt0⟩
      rw [ha, List.head?_take, if_neg hd1, setBid, hnil]
      rfl
  obtain ⟨_, d2, d3, _⟩ := C20_overlap_decided S b b2 h4
  constructor
  · rw [← key]
    constructor
    · rintro ⟨v, hv⟩
      by_contra hn
      rw [d2 hn n1] at hv
      exact nomatch hv
    · intro ho
      obtain ⟨v, hv, _⟩ := d3 (.inl ho)
      exact ⟨v, hv⟩
  · intro hall
    exact d2 (fun ho => by
      obtain ⟨x, hxm, hlt⟩ := key.1 ho
      exact lt_of_le_absurd (hall x hxm) hlt) n1

/-- **C259** After a deletion the book does not overlap what it was before. -/
theorem C259_delete (S : FloatSem) (b b' : Book) (h : WellFormed b) (hd : 0 ≤ b.maxDepth) (hb : DepthOk b) (hx : Uncrossed b)
    (u : Update) (hp : u.price ≠ .nan) (hv : Fl.eq u.volume (.fin 0) = true) (hs : u.side = "ask" ∨ u.side = "bid")
    (hu : b.applyUpdate u = .ok b') (h4 : FourSides b b') :
    calculateOverlap S b b' = .err .enotfound (S.const (-1)) := by
  have hsub : (∀ x ∈ b'.asks, x ∈ b.asks) ∧ ∀ x ∈ b'.bids, x ∈ b.bids := by
    obtain ⟨ha, hb'⟩ := C06_zero_update_deletes_level b h hd hb u hp hv
    rcases hs with hs | hs
    · rw [ha hs] at hu
      cases hu
      exact ⟨fun x hx => (List.mem_filter.1 hx).1, fun x hx => hx⟩
    · rw [hb' hs] at hu
      cases hu
      exact ⟨fun x hx => hx, fun x hx => (List.mem_filter.1 hx).1⟩
  refine (C20_overlap_decided S b b' h4).2.1 ?_ ?_
  · rintro ⟨a, x, h1, h2, h3⟩
    exact lt_of_le_absurd (hx x (hsub.2 x (List.mem_of_head? h2)) a (List.mem_of_head? h1)) h3
  · rintro ⟨a, x, h1, h2, h3⟩
    exact lt_of_le_absurd (hx x (List.mem_of_head? h2) a (hsub.1 a (List.mem_of_head? h1))) h3

theorem overlap_first (S : FloatSem) {x y : Book} (h : Overlaps x y) : ∃ v, calculateOverlap S x y = .ok v := by
  obtain ⟨a, c, h1, h2, h3⟩ := h
  obtain ⟨v, hv⟩ := overlapCalculation_ok S x y (by rintro e; rw [e] at h1; exact nomatch h1) (by rintro e; rw [e] at h2; exact nomatch h2)
  obtain ⟨as, ea⟩ := List.head?_eq_some_iff.1 h1
  obtain ⟨cs, ec⟩ := List.head?_eq_some_iff.1 h2
  refine ⟨Fl.abs v, ?_⟩
  unfold calculateOverlap
  rw [ea, ec]
  simp only
  rw [if_pos h3, hv]

theorem overlap_empty (S : FloatSem) {x y : Book} (h : x.asks = [] ∨ y.bids = []) : calculateOverlap S x y = .panic := by
  unfold calculateOverlap
  split
  · rename_i e1 e2
    rcases h with h | h
    · rw [h] at e1; exact nomatch e1
    · rw [h] at e2; exact nomatch e2
  · rfl

/-- **C259** An ask below every bid empties the bids; with the book before as the first argument `CalculateOverlap` then
panics, and with the book after as the first it finds the overlap. -/
theorem C259_ask_below_all (S : FloatSem) (b b' : Book) (h : WellFormed b) (hd : 0 ≤ b.maxDepth) (hb : DepthOk b)
    (hx : Uncrossed b) (hne : b.bids ≠ []) (u : Update) (hp : u.price ≠ .nan) (hv : Fl.ne u.volume (.fin 0) = true)
    (hu : b.applyUpdate u = .ok b') (hs : u.side = "ask") (hall : ∀ r ∈ b.bids, Fl.lt u.price r.price = true) :
    b'.bids = [] ∧ calculateOverlap S b b' = .panic ∧ ∃ v, calculateOverlap S b' b = .ok v := by
  obtain ⟨b2, e2, _, _, hk⟩ := (C10_removes_only_crossed_partial b h hd hb u hp hv).1 hs
  obtain ⟨b1, e1, ha⟩ := (C05_nonzero_update_sets_level b h hd u hp hv).1 hs
  obtain rfl : b2 = b' := by rw [hu] at e2; cases e2; rfl
  obtain rfl : b1 = b2 := by rw [hu] at e1; cases e1; rfl
  have e : b1.bids = [] := by
    rw [hk (.inr (.inl hall)), List.filter_eq_nil_iff]
    intro y hy hlt
    exact lt_of_le_absurd (fl_le_of_lt hlt) (hall y hy)
  refine ⟨e, overlap_empty S (.inr e), overlap_first S ?_⟩
  obtain ⟨x0, r, ex⟩ := List.exists_cons_of_ne_nil hne
  have hx0 : x0 ∈ b.bids := by rw [ex]; exact List.mem_cons_self
  have hnil : b.asks.filter (fun r => Fl.lt r.price u.price) = [] := by
    rw [List.filter_eq_nil_iff]
    intro y hy hyp
    exact lt_of_le_absurd (hx x0 hx0 y hy) (fl_lt_of_le_of_lt (fl_le_of_lt hyp) (hall x0 hx0))
  have hd1 : b.maxDepth.toNat ≠ 0 := by
    have := List.length_pos_iff.2 hne
    have := hb.2
    omega
  refine ⟨⟨u.price, u.volume, .fin 0⟩, x0, ?_, by rw [ex]; rfl, hall x0 hx0⟩
  rw [ha, List.head?_take, if_neg hd1, setAsk, hnil]
  rfl

/-- **C259** A bid above every ask empties the asks; with the book after as the first argument `CalculateOverlap` then
panics, and with the book before as the first it finds the overlap. -/
theorem C259_bid_above_all (S : FloatSem) (b b' : Book) (h : WellFormed b) (hd : 0 ≤ b.maxDepth) (hb : DepthOk b)
    (hx : Uncrossed b) (hne : b.asks ≠ []) (u : Update) (hp : u.price ≠ .nan) (hv : Fl.ne u.volume (.fin 0) = true)
    (hu : b.applyUpdate u = .ok b') (hs : u.side = "bid") (hall : ∀ r ∈ b.asks, Fl.lt r.price u.price = true) :
    b'.asks = [] ∧ calculateOverlap S b' b = .panic ∧ ∃ v, calculateOverlap S b b' = .ok v := by
  obtain ⟨b2, e2, _, _, hk⟩ := (C10_removes_only_crossed_partial b h hd hb u hp hv).2 hs
  obtain ⟨b1, e1, ha⟩ := (C05_nonzero_update_sets_level b h hd u hp hv).2 hs
  obtain rfl : b2 = b' := by rw [hu] at e2; cases e2; rfl
  obtain rfl : b1 = b2 := by rw [hu] at e1; cases e1; rfl
  have e : b1.asks = [] := by
    rw [hk (.inr (.inl hall)), List.filter_eq_nil_iff]
    intro y hy hlt
    exact lt_of_le_absurd (fl_le_of_lt hlt) (hall y hy)
  refine ⟨e, overlap_empty S (.inl e), overlap_first S ?_⟩
  obtain ⟨x0, r, ex⟩ := List.exists_cons_of_ne_nil hne
  have hx0 : x0 ∈ b.asks := by rw [ex]; exact List.mem_cons_self
  have hnil : b.bids.filter (fun r => Fl.gt r.price u.price) = [] := by
    rw [List.filter_eq_nil_iff]
    intro y hy hyp
    exact lt_of_le_absurd (hx y hy x0 hx0) (fl_lt_of_le_of_lt (fl_le_of_lt (hall x0 hx0)) hyp)
  have hd1 : b.maxDepth.toNat ≠ 0 := by
    have := List.length_pos_iff.2 hne
    have := hb.1
    omega
  refine ⟨x0, ⟨u.price, u.volume, .fin 0⟩, by rw [ex]; rfl, ?_, hall x0 hx0⟩
  rw [ha, List.head?_take, if_neg hd1, setBid, hnil]
  rfl

/-- A book with bids 10, 9 and asks 12, 13. -/
def quietBook : Book :=
  ⟨0, [⟨.fin 12, .fin 1, .fin 1⟩, ⟨.fin 13, .fin 2, .fin 3⟩], [⟨.fin 10, .fin 1, .fin 1⟩, ⟨.fin 9, .fin 2, .fin 3⟩], 5⟩

/-- **Example for C259.** The hypotheses hold for an ask at 9.5, which crosses the better bid. -/
example : WellFormed quietBook ∧ DepthOk quietBook ∧ Uncrossed quietBook ∧
    quietBook.applyUpdate ⟨.fin (19/2), .fin 4, "ask"⟩ =
      .ok ⟨0, [⟨.fin (19/2), .fin 4, .fin 0⟩, ⟨.fin 12, .fin 1, .fin 1⟩, ⟨.fin 13, .fin 2, .fin 3⟩], [⟨.fin 9, .fin 2, .fin 3⟩], 5⟩ :=
  ⟨⟨by decide +kernel, by decide +kernel, by decide +kernel, by decide +kernel⟩, by decide +kernel, by decide +kernel,
    by decide +kernel⟩

/-- **Example for C259.** A bid at 14 is above every ask, and the asks are gone. -/
example : quietBook.applyUpdate ⟨.fin 14, .fin 4, "bid"⟩ =
      .ok ⟨0, [], [⟨.fin 14, .fin 4, .fin 0⟩, ⟨.fin 10, .fin 1, .fin 1⟩, ⟨.fin 9, .fin 2, .fin 3⟩], 5⟩ := by decide +kernel

end Finmod
