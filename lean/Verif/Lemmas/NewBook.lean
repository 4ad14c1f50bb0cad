import Verif.Lemmas.Sort
import Verif.Lemmas.Book

/-! `NewOrderBook` and histories. -/

namespace Finmod
open Go Spec

theorem newOrderBook_eq {S : FloatSem} (hS : Lawful S) {now : Int} {asks bids : List Row} {d : Int}
    (hd : 0 ≤ d) (ha : asks.length < 2 ^ 53) (hb : bids.length < 2 ^ 53) :
    newOrderBook S now asks bids d = .ok
      { time := now, maxDepth := d,
        asks := accumulate S none
          ((sliceStable (fun x y => Fl.lt x.price y.price) asks).take d.toNat),
        bids := accumulate S none
          ((sliceStable (fun x y => Fl.gt x.price y.price) bids).take d.toNat) } := by
  have la := (sliceStable_perm (fun x y : Row => Fl.lt x.price y.price) asks).length_eq
  have lb := (sliceStable_perm (fun x y : Row => Fl.gt x.price y.price) bids).length_eq
  have take_min : ∀ l : List Row, l.take (min (l.length : Int) d).toNat = l.take d.toNat := by
    intro l
    by_cases h : (l.length : Int) ≤ d
    · rw [min_eq_left h, List.take_of_length_le (by omega), List.take_of_length_le (by omega)]
    · rw [min_eq_right (by omega)]
  unfold newOrderBook Book.sort
  simp only
  rw [depthCut_eq hS (by omega) hd, depthCut_eq hS (by omega) hd]
  unfold sliceTo
  rw [if_neg (by omega), if_neg (by omega), take_min, take_min]

/-- Histories: an invariant kept by every step holds at the end, and there is no panic. -/
theorem applyAll_inv {P : Book → Prop} {us : List Update}
    (step : ∀ b, P b → ∀ u ∈ us, ∃ b', (b.applyUpdate u = .ok b' ∨ ∃ c, b.applyUpdate u = .err c b') ∧ P b')
    {b : Book} (hb : P b) : ∃ b', b.applyAll us = .ok b' ∧ P b' := by
  induction us generalizing b with
  | nil => exact ⟨b, rfl, hb⟩
  | cons u us ih =>
    obtain ⟨b1, h1, hp⟩ := step b hb u (by simp)
    obtain ⟨b2, h2, hp2⟩ := ih (fun b hb v hv => step b hb v (by simp [hv])) hp
    refine ⟨b2, ?_, hp2⟩
    rcases h1 with h1 | ⟨c, h1⟩ <;> simp [Book.applyAll, h1, h2]

theorem applyAll_append (b : Book) (us vs : List Update) :
    b.applyAll (us ++ vs) = match b.applyAll us with
      | .ok b' => b'.applyAll vs
      | .err _ b' => b'.applyAll vs
      | .panic => .panic := by
  induction us generalizing b with
  | nil => rfl
  | cons u us ih =>
    simp only [List.cons_append, Book.applyAll]
    cases h : b.applyUpdate u with
    | ok b1 => simp [ih]
    | err c b1 => simp [ih]
    | panic => rfl

/-- Histories never end in an error value. -/
theorem applyAll_not_err (b : Book) (us : List Update) (c : ErrCode) (b' : Book) :
    b.applyAll us ≠ .err c b' := by
  induction us generalizing b with
  | nil => simp [Book.applyAll]
  | cons u us ih =>
    simp only [Book.applyAll]
    cases h : b.applyUpdate u <;> simp [ih]

/-- Depth bound and no panic for any book whatsoever. -/
theorem step_depth {b : Book} (hd : 0 ≤ b.maxDepth) (hb : DepthOk b) (u : Update) :
    ∃ b', (b.applyUpdate u = .ok b' ∨ ∃ c, b.applyUpdate u = .err c b') ∧
      b'.maxDepth = b.maxDepth ∧ b'.time = b.time ∧ DepthOk b' := by
  have lim : ∀ c : Book, c.maxDepth = b.maxDepth → c.time = b.time →
      ∃ b', Book.limit c = .ok b' ∧ b'.maxDepth = b.maxDepth ∧ b'.time = b.time ∧ DepthOk b' := by
    intro c hc ht
    refine ⟨_, limit_eq (by omega), hc, ht, ?_, ?_⟩ <;>
    · simp only [List.length_take]; omega
  by_cases h1 : u.side = "ask"
  · by_cases hv : Fl.ne u.volume (.fin 0) = true
    · refine ⟨_, Or.inl (applyUpdate_ask_set' hd h1 hv), rfl, rfl, ?_, ?_⟩ <;>
      · simp only [List.length_take]; omega
    · cases hf : b.asks.findIdx? (fun r => Fl.eq r.price u.price) with
      | none => exact ⟨b, Or.inl (by simp [Book.applyUpdate, h1, hv, hf]), rfl, rfl, hb⟩
      | some i =>
        obtain ⟨b', h, r⟩ := lim { b with asks := removeElement b.asks i } rfl rfl
        exact ⟨b', Or.inl (by simp [Book.applyUpdate, h1, hv, hf, h]), r⟩
  · by_cases h2 : u.side = "bid"
    · by_cases hv : Fl.ne u.volume (.fin 0) = true
      · refine ⟨_, Or.inl (applyUpdate_bid_set' hd h2 hv), rfl, rfl, ?_, ?_⟩ <;>
        · simp only [List.length_take]; omega
      · cases hf : b.bids.findIdx? (fun r => Fl.eq r.price u.price) with
        | none => exact ⟨b, Or.inl (by simp [Book.applyUpdate, h2, hv, hf]), rfl, rfl, hb⟩
        | some i =>
          obtain ⟨b', h, r⟩ := lim { b with bids := removeElement b.bids i } rfl rfl
          exact ⟨b', Or.inl (by simp [Book.applyUpdate, h2, hv, hf, h]), r⟩
    · exact ⟨b, Or.inr ⟨_, applyUpdate_other h1 h2⟩, rfl, rfl, hb⟩

/-! ### The well-formed case -/

theorem WellFormed.mk' {b : Book} (h1 : NoNaN b.asks) (h2 : NoNaN b.bids)
    (h3 : GSorted Fl.lt b.asks) (h4 : GSorted (fun a b => Fl.lt b a) b.bids) : WellFormed b :=
  ⟨h1, h2, h3, h4⟩

theorem take_num {l : List Row} {n : Nat} (h : NoNaN l) : NoNaN (l.take n) :=
  fun r hr => h r (List.mem_of_mem_take hr)

theorem take_sorted {lt : Fl → Fl → Bool} {l : List Row} {n : Nat} (h : GSorted lt l) :
    GSorted lt (l.take n) := List.Pairwise.sublist (List.take_sublist n l) h

theorem suffix_num {l l' : List Row} (h : NoNaN l) (hs : l' <:+ l) : NoNaN l' :=
  fun r hr => h r (hs.subset hr)

theorem suffix_sorted {lt : Fl → Fl → Bool} {l l' : List Row} (h : GSorted lt l) (hs : l' <:+ l) :
    GSorted lt l' := List.Pairwise.sublist hs.sublist h

theorem filter_num {l : List Row} {q : Row → Bool} (h : NoNaN l) : NoNaN (l.filter q) :=
  fun r hr => h r (List.mem_of_mem_filter hr)

/-- The result of a step of a well-formed book, by cases, in specification terms. -/
inductive StepTo (b : Book) (u : Update) : Book → Prop
  | askSet (hs : u.side = "ask") (hv : Fl.ne u.volume (.fin 0) = true) :
      StepTo b u { b with asks := (setAsk b.asks u.price u.volume).take b.maxDepth.toNat,
                          bids := (removeInvalidBid b.bids u.price).1 }
  | askDel (hs : u.side = "ask") (hv : Fl.ne u.volume (.fin 0) = false) :
      StepTo b u { b with asks := deleteLevel b.asks u.price }
  | bidSet (hs : u.side = "bid") (hv : Fl.ne u.volume (.fin 0) = true) :
      StepTo b u { b with asks := (removeInvalidAsk b.asks u.price).1,
                          bids := (setBid b.bids u.price u.volume).take b.maxDepth.toNat }
  | bidDel (hs : u.side = "bid") (hv : Fl.ne u.volume (.fin 0) = false) :
      StepTo b u { b with bids := deleteLevel b.bids u.price }
  | other (h1 : u.side ≠ "ask") (h2 : u.side ≠ "bid") : StepTo b u b

theorem step_to {b : Book} {u : Update} (h : Good b) (hp : u.price ≠ .nan) :
    ∃ b', (b.applyUpdate u = .ok b' ∨ ∃ c, b.applyUpdate u = .err c b') ∧ StepTo b u b' := by
  by_cases h1 : u.side = "ask"
  · cases hv : Fl.ne u.volume (.fin 0) with
    | true => exact ⟨_, Or.inl (applyUpdate_ask_set h h1 hv hp), .askSet h1 hv⟩
    | false => exact ⟨_, Or.inl (applyUpdate_ask_del h h1 hv hp), .askDel h1 hv⟩
  · by_cases h2 : u.side = "bid"
    · cases hv : Fl.ne u.volume (.fin 0) with
      | true => exact ⟨_, Or.inl (applyUpdate_bid_set h h2 hv hp), .bidSet h2 hv⟩
      | false => exact ⟨_, Or.inl (applyUpdate_bid_del h h2 hv hp), .bidDel h2 hv⟩
    · exact ⟨b, Or.inr ⟨_, applyUpdate_other h1 h2⟩, .other h1 h2⟩

theorem stepTo_good {b b' : Book} {u : Update} (h : Good b) (hp : u.price ≠ .nan)
    (hs : StepTo b u b') : Good b' ∧ b'.maxDepth = b.maxDepth ∧ b'.time = b.time := by
  have hd := h.depth
  obtain ⟨hb1, hb2⟩ := h.bound
  have rb : (removeInvalidBid b.bids u.price).1 <:+ b.bids := by
    rw [removeInvalidBid_eq]; exact gRemove_suffix bidOrd h.wf.bids_num hp h.wf.bidSorted
  have ra : (removeInvalidAsk b.asks u.price).1 <:+ b.asks := by
    rw [removeInvalidAsk_eq]; exact gRemove_suffix askOrd h.wf.asks_num hp h.wf.askSorted
  cases hs with
  | askSet h1 hv =>
    refine ⟨⟨⟨take_num ?_, suffix_num h.wf.bids_num rb, take_sorted ?_, suffix_sorted h.wf.bidSorted rb⟩, hd, ?_, ?_⟩, rfl, rfl⟩
    · rw [setAsk_eq]; exact gSet_num h.wf.asks_num hp
    · rw [setAsk_eq]; exact gSet_sorted askOrd h.wf.asks_num hp h.wf.askSorted
    · simp only [List.length_take]; omega
    · have := rb.length_le; simp only; omega
  | askDel h1 hv =>
    refine ⟨⟨⟨filter_num h.wf.asks_num, h.wf.bids_num, h.wf.asks_sorted.filter _, h.wf.bids_sorted⟩, hd, ?_, hb2⟩, rfl, rfl⟩
    have := deleteLevel_length b.asks u.price; simp only; omega
  | bidSet h1 hv =>
    refine ⟨⟨⟨suffix_num h.wf.asks_num ra, take_num ?_, suffix_sorted h.wf.askSorted ra, take_sorted (lt := fun a b => Fl.lt b a) ?_⟩, hd, ?_, ?_⟩, rfl, rfl⟩
    · rw [setBid_eq]; exact gSet_num h.wf.bids_num hp
    · rw [setBid_eq]; exact gSet_sorted bidOrd h.wf.bids_num hp h.wf.bidSorted
    · have := ra.length_le; simp only; omega
    · simp only [List.length_take]; omega
  | bidDel h1 hv =>
    refine ⟨⟨⟨h.wf.asks_num, filter_num h.wf.bids_num, h.wf.asks_sorted, h.wf.bids_sorted.filter _⟩, hd, hb1, ?_⟩, rfl, rfl⟩
    have := deleteLevel_length b.bids u.price; simp only; omega
  | other _ _ => exact ⟨h, rfl, rfl⟩

/-- Invariant induction for well-formed books. -/
theorem applyAll_good {P : Book → Prop} {us : List Update} (hu : NumUpdates us)
    (step : ∀ b b', Good b → P b → ∀ u ∈ us, StepTo b u b' → P b')
    {b : Book} (hg : Good b) (hb : P b) :
    ∃ b', b.applyAll us = .ok b' ∧ Good b' ∧ b'.maxDepth = b.maxDepth ∧ P b' := by
  have := applyAll_inv (P := fun c => Good c ∧ c.maxDepth = b.maxDepth ∧ P c) (us := us) ?_
    (b := b) ⟨hg, rfl, hb⟩
  · obtain ⟨b', h1, h2⟩ := this; exact ⟨b', h1, h2⟩
  · rintro c ⟨h1, h2, h3⟩ u hum
    obtain ⟨c', hc, hst⟩ := step_to h1 (hu u hum)
    obtain ⟨g1, g2, _⟩ := stepTo_good h1 (hu u hum) hst
    exact ⟨c', hc, g1, g2.trans h2, step c c' h1 h3 u hum hst⟩

/-- A fresh book with pairwise different real prices is good. -/
theorem newOrderBook_good {S : FloatSem} (hS : Lawful S) {now : Int} {asks bids : List Row} {d : Int}
    (hd : 0 ≤ d) (ha : asks.length < 2 ^ 53) (hb : bids.length < 2 ^ 53)
    (hna : NumPrices asks) (hnb : NumPrices bids)
    (hda : asks.Pairwise (fun a b => Fl.eq a.price b.price = false))
    (hdb : bids.Pairwise (fun a b => Fl.eq a.price b.price = false)) :
    ∃ b, newOrderBook S now asks bids d = .ok b ∧ Good b ∧ b.maxDepth = d := by
  refine ⟨_, newOrderBook_eq hS hd ha hb, ⟨⟨?_, ?_, ?_, ?_⟩, hd, ?_, ?_⟩, rfl⟩
  · intro r hr
    obtain ⟨r', h1, h2, _⟩ := accumulate_mem_price _ _ _ _ hr
    rw [← h2]
    exact hna r' ((sliceStable_perm _ _).subset (List.mem_of_mem_take h1))
  · intro r hr
    obtain ⟨r', h1, h2, _⟩ := accumulate_mem_price _ _ _ _ hr
    rw [← h2]
    exact hnb r' ((sliceStable_perm _ _).subset (List.mem_of_mem_take h1))
  · refine accumulate_pairwise S (fun x y => Fl.lt x y = true) _ _ ?_
    exact take_sorted (lt := Fl.lt) (sliceStable_strict askOrd hna hda)
  · refine accumulate_pairwise S (fun x y => Fl.gt x y = true) _ _ ?_
    exact take_sorted (lt := fun a b => Fl.lt b a) (sliceStable_strict bidOrd hnb hdb)
  · simp only [accumulate_length, List.length_take]; omega
  · simp only [accumulate_length, List.length_take]; omega

end Finmod
