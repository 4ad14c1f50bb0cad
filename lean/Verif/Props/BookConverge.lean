import Verif.Props.BookHistory

/-!
# C209, C210: which parts of a history a book depends on

C209: without crossing, each side depends on its own updates only, so it does not matter how the
ask and bid updates of a feed are interleaved. C210: with room for everything, the book depends
only on the last update at each price, so feeds that end alike lead to equal books.
-/

namespace Finmod
open Go Spec

/-- The latest update of `side` at price `p`, if there is one. -/
def Spec.lastUpdate (side : String) (p : Fl) (us : List Update) : Option Update :=
  (us.filter (fun u => u.side == side && Fl.eq u.price p)).getLast?

/-- The updates of one side, in order. -/
def Spec.ofSide (s : String) (us : List Update) : List Update := us.filter (fun u => u.side == s)

/-! ### C209 -/

/-- Own side of a step depends on the own side alone. -/
theorem own_side_step {b c b' c' : Book} {u : Update} {s : String}
    (hs : s = "ask" ∨ s = "bid") (hus : u.side = s) (hd : b.maxDepth = c.maxDepth)
    (he : side b s = side c s) (h1 : StepTo b u b') (h2 : StepTo c u c') :
    side b' s = side c' s := by
  have hne : ¬ ("bid" = "ask") := by decide
  subst hus
  cases h1 <;> cases h2 <;> simp_all [side]

theorem side_alone {us : List Update} (hu : NumUpdates us) {s : String}
    (hs : s = "ask" ∨ s = "bid") {b c b' : Book} (hg : Good b) (hc : Good c)
    (hd : b.maxDepth = c.maxDepth) (he : side b s = side c s)
    (hnc : NonCrossing b us) (h : b.applyAll us = .ok b') :
    ∃ c', c.applyAll (ofSide s us) = .ok c' ∧ side b' s = side c' s := by
  induction us generalizing b c with
  | nil =>
    simp only [Book.applyAll, Res.ok.injEq] at h
    subst h
    exact ⟨c, rfl, he⟩
  | cons u us ih =>
    have hp := hu u (by simp)
    have hu' : NumUpdates us := fun w hw => hu w (by simp [hw])
    obtain ⟨b1, hup, hst, g1, hmd, h1⟩ := applyAll_cons hg hp h
    obtain ⟨n1, n2, n3⟩ := hnc
    by_cases hus : u.side = s
    · obtain ⟨c1, hc1, hct⟩ := step_to hc hp
      obtain ⟨g2, g3, _⟩ := stepTo_good hc hp hct
      obtain ⟨c', h3, h4⟩ := ih hu' g1 g2 (by rw [hmd, g3, hd])
        (own_side_step hs hus hd he hst hct) (n3 b1 hup) h1
      refine ⟨c', ?_, h4⟩
      have : ofSide s (u :: us) = u :: ofSide s us := by simp [ofSide, hus]
      rw [this]
      rcases hc1 with hc1 | ⟨e, hc1⟩ <;> simpa [Book.applyAll, hc1] using h3
    · have : ofSide s (u :: us) = ofSide s us := by simp [ofSide, hus]
      rw [this]
      exact ih hu' g1 hc (by rw [hmd, hd]) (by rw [other_side_same hst hs hus n1 n2, he])
        (n3 b1 hup) h1

theorem applyAll_frame {us : List Update} (hu : NumUpdates us) {b b' : Book} (hg : Good b)
    (h : b.applyAll us = .ok b') : Good b' ∧ b'.maxDepth = b.maxDepth ∧ b'.time = b.time := by
  induction us generalizing b with
  | nil =>
    simp only [Book.applyAll, Res.ok.injEq] at h
    subst h
    exact ⟨hg, rfl, rfl⟩
  | cons u us ih =>
    have hp := hu u (by simp)
    obtain ⟨b1, _, hst, g1, hmd, h1⟩ := applyAll_cons hg hp h
    obtain ⟨i1, i2, i3⟩ := ih (fun w hw => hu w (by simp [hw])) g1 h1
    exact ⟨i1, i2.trans hmd, i3.trans (stepTo_good hg hp hst).2.2⟩

/-- **C209** Without crossing, the asks are what the ask updates alone make of them and the bids
what the bid updates alone make of them; time and limit stay. The updates of one side alone may
cross the other side as it was at the beginning: that does not matter. -/
theorem C209_sides_apart (b : Book) (h : WellFormed b) (hd : 0 ≤ b.maxDepth) (hb : DepthOk b)
    (us : List Update) (hu : NumUpdates us) (hnc : NonCrossing b us) :
    ∃ b' a c, b.applyAll us = .ok b' ∧ b.applyAll (ofSide "ask" us) = .ok a ∧
      b.applyAll (ofSide "bid" us) = .ok c ∧
      b' = { time := b.time, maxDepth := b.maxDepth, asks := a.asks, bids := c.bids } := by
  have hg : Good b := ⟨h, hd, hb⟩
  obtain ⟨b', h1, _⟩ := applyAll_good (P := fun _ => True) hu (fun _ _ _ _ _ _ _ => trivial)
    hg trivial
  obtain ⟨_, f2, f3⟩ := applyAll_frame hu hg h1
  obtain ⟨a, ha, ha'⟩ := side_alone hu (Or.inl rfl) hg hg rfl rfl hnc h1
  obtain ⟨c, hc, hc'⟩ := side_alone hu (Or.inr rfl) hg hg rfl rfl hnc h1
  refine ⟨b', a, c, h1, ha, hc, ?_⟩
  have hne : ¬ ("bid" = "ask") := by decide
  simp only [side, if_true] at ha'
  simp only [side, if_neg hne] at hc'
  rw [← ha', ← hc', ← f2, ← f3]

/-- **C209** Two feeds that cross nothing and agree on the asks among themselves and on the bids
among themselves give the same book, however asks and bids are interleaved (and whatever updates
of unknown sides are mixed in). -/
theorem C209_interleaving (b : Book) (h : WellFormed b) (hd : 0 ≤ b.maxDepth) (hb : DepthOk b)
    (us ws : List Update) (hu : NumUpdates us) (hw : NumUpdates ws) (hnu : NonCrossing b us)
    (hnw : NonCrossing b ws) (ha : ofSide "ask" us = ofSide "ask" ws)
    (hbid : ofSide "bid" us = ofSide "bid" ws) :
    ∃ b', b.applyAll us = .ok b' ∧ b.applyAll ws = .ok b' := by
  obtain ⟨b1, a1, c1, h1, h2, h3, h4⟩ := C209_sides_apart b h hd hb us hu hnu
  obtain ⟨b2, a2, c2, k1, k2, k3, k4⟩ := C209_sides_apart b h hd hb ws hw hnw
  rw [ha, k2] at h2
  rw [hbid, k3] at h3
  simp only [Res.ok.injEq] at h2 h3
  refine ⟨b1, h1, ?_⟩
  rw [k1, h4, k4, h2, h3]

/-- **C209** An ask update and a bid update commute if the bid is below the ask, the ask is above
all bids and the bid below all asks; updates with volume 0 of different sides always commute. -/
theorem C209_two_updates (b : Book) (h : WellFormed b) (hd : 0 ≤ b.maxDepth) (hb : DepthOk b)
    (u w : Update) (hpu : u.price ≠ .nan) (hpw : w.price ≠ .nan) (hus : u.side = "ask")
    (hws : w.side = "bid")
    (hua : Fl.ne u.volume (.fin 0) = true → ∀ r ∈ b.bids, Fl.lt r.price u.price = true)
    (hwb : Fl.ne w.volume (.fin 0) = true → ∀ r ∈ b.asks, Fl.lt w.price r.price = true)
    (huw : Fl.ne u.volume (.fin 0) = true → Fl.ne w.volume (.fin 0) = true →
      Fl.lt w.price u.price = true) :
    ∃ b', b.applyAll [u, w] = .ok b' ∧ b.applyAll [w, u] = .ok b' := by
  have hg : Good b := ⟨h, hd, hb⟩
  have hne : ¬ ("bid" = "ask") := by decide
  have hne' : ¬ ("ask" = "bid") := by decide
  have res : ∀ {v : Update} {b' : Book}, v.price ≠ .nan →
      (b.applyUpdate v = .ok b' ∨ ∃ c, b.applyUpdate v = .err c b') → StepTo b v b' := by
    intro v b' hp hv
    obtain ⟨b1, hb1, hst⟩ := step_to hg hp
    have : b1 = b' := by
      rcases hv with hv | ⟨c, hv⟩ <;> rcases hb1 with hb1 | ⟨c', hb1⟩ <;> rw [hv] at hb1 <;>
        simp at hb1
      · exact hb1.symm
      · exact hb1.2.symm
    exact this ▸ hst
  apply C209_interleaving b h hd hb
  · intro v hv; simp only [List.mem_cons, List.not_mem_nil, or_false] at hv
    rcases hv with rfl | rfl <;> assumption
  · intro v hv; simp only [List.mem_cons, List.not_mem_nil, or_false] at hv
    rcases hv with rfl | rfl <;> assumption
  · refine ⟨fun _ => hua, fun h1 => absurd (hus.symm.trans h1) hne', fun b1 hb1 =>
      ⟨fun h1 => absurd (hws.symm.trans h1) hne, fun _ hv r hr => ?_, fun _ _ => trivial⟩⟩
    have := mem_after hg hpu (res hpu hb1) (Or.inl rfl) (s := "ask") (r := r) (by simpa [side] using hr)
    rcases this with ⟨_, h2, h3⟩ | ⟨h2, _⟩
    · rw [h3]; exact huw h2 hv
    · exact hwb hv r (by simpa [side] using h2)
  · refine ⟨fun h1 => absurd (hws.symm.trans h1) hne, fun _ => hwb, fun b1 hb1 =>
      ⟨fun _ hv r hr => ?_, fun h1 => absurd (hus.symm.trans h1) hne', fun _ _ => trivial⟩⟩
    have := mem_after hg hpw (res hpw hb1) (Or.inr rfl) (s := "bid") (r := r) (by simpa [side, hne] using hr)
    rcases this with ⟨_, h2, h3⟩ | ⟨h2, _⟩
    · rw [h3]; exact huw hv h2
    · exact hua hv r (by simpa [side, hne] using h2)
  · simp [ofSide, hus, hws]
  · simp [ofSide, hus, hws]

/-- Crossing updates do not commute: which comes last wins. -/
theorem C209_crossing_matters : ∃ (b : Book) (u w : Update), WellFormed b ∧ DepthOk b ∧
    u.side = "ask" ∧ w.side = "bid" ∧ b.applyAll [u, w] ≠ b.applyAll [w, u] :=
  ⟨{ time := 0, maxDepth := 3, asks := [], bids := [] }, ⟨.fin 10, .fin 1, "ask"⟩,
    ⟨.fin 11, .fin 1, "bid"⟩, by decide +kernel, by decide +kernel, rfl, rfl, by decide +kernel⟩

/-! ### C210 -/

theorem lastUpdate_cons (s : String) (p : Fl) (u : Update) (us : List Update) :
    lastUpdate s p (u :: us) =
      match lastUpdate s p us with
      | some v => some v
      | none => if u.side = s ∧ Fl.eq u.price p = true then some u else none := by
  unfold lastUpdate
  rw [List.filter_cons]
  by_cases h : u.side = s ∧ Fl.eq u.price p = true
  · have h' : (u.side == s && Fl.eq u.price p) = true := by simp [h.1, h.2]
    rw [if_pos h', if_pos h]
    cases hf : List.filter (fun u => u.side == s && u.price.eq p) us with
    | nil => simp
    | cons a l =>
      rw [List.getLast?_cons_cons]
      cases hl : (a :: l).getLast? with
      | none => simp at hl
      | some x => simp
  · have h' : ¬ (u.side == s && Fl.eq u.price p) = true := by
      simpa using h
    rw [if_neg h', if_neg h]
    cases hf : (List.filter (fun u => u.side == s && u.price.eq p) us).getLast? <;> simp

theorem exact_rows {us : List Update} (hu : NumUpdates us) {s : String}
    (hs : s = "ask" ∨ s = "bid") {b b' : Book} (hg : Good b)
    (room : ((side b s).length : Int) + us.length ≤ b.maxDepth)
    (hnc : NonCrossing b us) (h : b.applyAll us = .ok b') (r : Row) :
    r ∈ side b' s ↔
      (∃ u, lastUpdate s r.price us = some u ∧ Fl.ne u.volume (.fin 0) = true ∧
        r = ⟨u.price, u.volume, .fin 0⟩) ∨
      (lastUpdate s r.price us = none ∧ r ∈ side b s) := by
  induction us generalizing b with
  | nil =>
    simp only [Book.applyAll, Res.ok.injEq] at h
    subst h
    simp [lastUpdate]
  | cons u us ih =>
    have hp := hu u (by simp)
    obtain ⟨b1, hup, hst, g1, hmd, h1⟩ := applyAll_cons hg hp h
    obtain ⟨n1, n2, n3⟩ := hnc
    have hlen := side_length_step (s := s) hg hst
    simp only [List.length_cons] at room
    rw [ih (fun w hw => hu w (by simp [hw])) g1 (by rw [hmd]; push_cast at room ⊢; omega)
      (n3 b1 hup) h1, lastUpdate_cons]
    cases hl : lastUpdate s r.price us with
    | some w => simp
    | none =>
      simp only [reduceCtorEq, false_and, exists_false, true_and, false_or]
      by_cases hus : u.side = s
      · have hm := mem_after_own hg hp hst hs hus (by push_cast at room; omega)
        rw [hm]
        by_cases hup' : Fl.eq u.price r.price = true
        · have hc : Fl.eq r.price u.price = true := by rw [fl_eq_comm]; exact hup'
          simp [hus, hup', hc]
        · have hc : Fl.eq r.price u.price = false := by
            rw [fl_eq_comm]; simpa using hup'
          have hr : r ≠ ⟨u.price, u.volume, .fin 0⟩ := by
            intro h2; rw [h2] at hup'; exact hup' (fl_eq_refl hp)
          simp [hus, hup', hc, hr]
      · rw [other_side_same hst hs hus n1 n2]
        simp [hus]

/-- **C210** With room for everything and no crossing, the rows of a side are: for every price
whose latest update has a non-zero volume, the row of that update with accumulated volume 0, and
the initial rows at prices without update, as they were. -/
theorem C210_rows (b : Book) (h : WellFormed b) (hd : 0 ≤ b.maxDepth) (hb : DepthOk b)
    (us : List Update) (hu : NumUpdates us) (s : String) (hs : s = "ask" ∨ s = "bid")
    (room : ((side b s).length : Int) + us.length ≤ b.maxDepth) (hnc : NonCrossing b us) :
    ∃ b', b.applyAll us = .ok b' ∧ ∀ r, r ∈ side b' s ↔
      (∃ u, lastUpdate s r.price us = some u ∧ Fl.ne u.volume (.fin 0) = true ∧
        r = ⟨u.price, u.volume, .fin 0⟩) ∨
      (lastUpdate s r.price us = none ∧ r ∈ side b s) := by
  have hg : Good b := ⟨h, hd, hb⟩
  obtain ⟨b', h1, _⟩ := applyAll_good (P := fun _ => True) hu (fun _ _ _ _ _ _ _ => trivial)
    hg trivial
  exact ⟨b', h1, exact_rows hu hs hg room hnc h1⟩

/-- **C210** Two feeds without crossing and with room, of any lengths and in any orders, whose
latest updates agree at every price of both sides, lead to equal books: same rows, same order, same
accumulated volumes. -/
theorem C210_converge (b : Book) (h : WellFormed b) (hd : 0 ≤ b.maxDepth) (hb : DepthOk b)
    (us ws : List Update) (hu : NumUpdates us) (hw : NumUpdates ws) (hnu : NonCrossing b us)
    (hnw : NonCrossing b ws)
    (room : ∀ s ∈ ["ask", "bid"], ∀ l ∈ [us, ws],
      ((side b s).length : Int) + l.length ≤ b.maxDepth)
    (same : ∀ s ∈ ["ask", "bid"], ∀ p, lastUpdate s p us = lastUpdate s p ws) :
    ∃ b', b.applyAll us = .ok b' ∧ b.applyAll ws = .ok b' := by
  have hg : Good b := ⟨h, hd, hb⟩
  have hne : ¬ ("bid" = "ask") := by decide
  obtain ⟨b1, h1, _⟩ := applyAll_good (P := fun _ => True) hu (fun _ _ _ _ _ _ _ => trivial)
    hg trivial
  obtain ⟨b2, h2, _⟩ := applyAll_good (P := fun _ => True) hw (fun _ _ _ _ _ _ _ => trivial)
    hg trivial
  obtain ⟨g1, d1, t1⟩ := applyAll_frame hu hg h1
  obtain ⟨g2, d2, t2⟩ := applyAll_frame hw hg h2
  have rows : ∀ s, s = "ask" ∨ s = "bid" → ∀ r, r ∈ side b1 s ↔ r ∈ side b2 s := by
    intro s hs r
    have hs' : s ∈ ["ask", "bid"] := by simpa using hs
    rw [exact_rows hu hs hg (room s hs' us (by simp)) hnu h1 r,
      exact_rows hw hs hg (room s hs' ws (by simp)) hnw h2 r, same s hs']
  have ha : b1.asks = b2.asks := sorted_ext askOrd g1.wf.askSorted g2.wf.askSorted
    g1.wf.asks_num g2.wf.asks_num (by simpa [side] using rows "ask" (Or.inl rfl))
  have hbb : b1.bids = b2.bids := sorted_ext bidOrd g1.wf.bidSorted g2.wf.bidSorted
    g1.wf.bids_num g2.wf.bids_num (by simpa [side, hne] using rows "bid" (Or.inr rfl))
  refine ⟨b1, h1, ?_⟩
  rw [h2]
  congr 1
  cases b1; cases b2
  simp only at *
  rw [ha, hbb, d1, d2, t1, t2]

/-- Without room it is false: a row pushed out of the book by one order of updates does not come
back. -/
theorem C210_room_needed : ∃ (b : Book) (us ws : List Update), WellFormed b ∧ DepthOk b ∧
    NumUpdates us ∧ NumUpdates ws ∧ us.Perm ws ∧ b.bids = [] ∧ (∀ u ∈ us, u.side = "ask") ∧
    (∀ s p, lastUpdate s p us = lastUpdate s p ws) ∧ b.applyAll us ≠ b.applyAll ws := by
  refine ⟨{ time := 0, maxDepth := 1, asks := [], bids := [] },
    [⟨.fin 9, .fin 1, "ask"⟩, ⟨.fin 9, .fin 0, "ask"⟩, ⟨.fin 10, .fin 1, "ask"⟩],
    [⟨.fin 10, .fin 1, "ask"⟩, ⟨.fin 9, .fin 1, "ask"⟩, ⟨.fin 9, .fin 0, "ask"⟩],
    by decide +kernel, by decide +kernel, by decide +kernel, by decide +kernel,
    by decide +kernel, rfl, by decide, ?_, by decide +kernel⟩
  intro s p
  by_cases hs : "ask" = s
  · subst hs
    cases h9 : Fl.eq (.fin 9) p <;> cases h10 : Fl.eq (.fin 10) p
    · simp [lastUpdate, h9, h10]
    · simp [lastUpdate, h9, h10]
    · simp [lastUpdate, h9, h10]
    · rw [fl_eq_comm] at h10
      have : Fl.eq (.fin 9) (.fin 10) = true := fl_eq_trans h9 h10
      exact absurd this (by decide +kernel)
  · simp [lastUpdate, hs]

/-! ### Examples -/

/-- A deeper copy of the sample book. -/
def Ex.roomy : Book := { Ex.book with maxDepth := 9 }

/-- An ask that is only possible after the best bid has been withdrawn. -/
def Ex.twoFeeds : List Update :=
  [⟨.fin 10, .fin 0, "bid"⟩, ⟨.fin 9, .fin 2, "ask"⟩, ⟨.fin 7, .fin 1, "bid"⟩, ⟨.fin 9, .fin 5, "ask"⟩]

/-- Another order of the same feed, with the first write at 9 left out. -/
def Ex.twoFeeds' : List Update :=
  [⟨.fin 7, .fin 1, "bid"⟩, ⟨.fin 10, .fin 0, "bid"⟩, ⟨.fin 9, .fin 5, "ask"⟩]

/-- A test for `NonCrossing`, for the examples. -/
def nonCrossingTest : Book → List Update → Bool
  | _, [] => true
  | b, u :: us =>
    (u.side != "ask" || Fl.eq u.volume (.fin 0) || b.bids.all (fun r => Fl.lt r.price u.price)) &&
    (u.side != "bid" || Fl.eq u.volume (.fin 0) || b.asks.all (fun r => Fl.lt u.price r.price)) &&
    match b.applyUpdate u with
    | .ok b' => nonCrossingTest b' us
    | .err _ b' => nonCrossingTest b' us
    | .panic => true

theorem nonCrossing_of_test {b : Book} {us : List Update} (h : nonCrossingTest b us = true) :
    NonCrossing b us := by
  induction us generalizing b with
  | nil => trivial
  | cons u us ih =>
    simp only [nonCrossingTest, Bool.and_eq_true, Bool.or_eq_true, bne_iff_ne, List.all_eq_true] at h
    obtain ⟨⟨h1, h2⟩, h3⟩ := h
    refine ⟨fun hs hv r hr => ?_, fun hs hv r hr => ?_, fun b' hb' => ?_⟩
    · rcases h1 with (h1 | h1) | h1
      · exact absurd hs h1
      · simp [Fl.ne, h1] at hv
      · exact h1 r hr
    · rcases h2 with (h2 | h2) | h2
      · exact absurd hs h2
      · simp [Fl.ne, h2] at hv
      · exact h2 r hr
    · rcases hb' with hb' | ⟨c, hb'⟩ <;> rw [hb'] at h3 <;> exact ih h3

theorem Ex.twoFeeds_ok : NumUpdates Ex.twoFeeds ∧ NonCrossing Ex.roomy Ex.twoFeeds ∧
    NumUpdates Ex.twoFeeds' ∧ NonCrossing Ex.roomy Ex.twoFeeds' :=
  ⟨by decide +kernel, nonCrossing_of_test (by decide +kernel), by decide +kernel,
    nonCrossing_of_test (by decide +kernel)⟩

example := C209_sides_apart Ex.roomy (by decide +kernel) (by decide) (by decide +kernel) Ex.twoFeeds
  Ex.twoFeeds_ok.1 Ex.twoFeeds_ok.2.1

/-- The asks of the feed alone do cross the bids of the book. -/
example : ¬ nonCrossingTest Ex.roomy (ofSide "ask" Ex.twoFeeds) = true := by decide +kernel

example := C209_interleaving Ex.roomy (by decide +kernel) (by decide) (by decide +kernel)
  [⟨.fin 14, .fin 1, "ask"⟩, ⟨.fin 9, .fin 1, "bid"⟩] [⟨.fin 9, .fin 1, "bid"⟩, ⟨.fin 1, .fin 1, "?"⟩, ⟨.fin 14, .fin 1, "ask"⟩]
  (by decide +kernel) (by decide +kernel) (nonCrossing_of_test (by decide +kernel))
  (nonCrossing_of_test (by decide +kernel)) (by decide +kernel) (by decide +kernel)

example := C209_two_updates Ex.book (by decide +kernel) (by decide) (by decide +kernel)
  ⟨.fin (21/2), .fin 1, "ask"⟩ ⟨.fin (41/4), .fin 1, "bid"⟩ (by decide) (by decide) rfl rfl
  (by decide +kernel) (by decide +kernel) (by decide +kernel)

example := C210_rows Ex.roomy (by decide +kernel) (by decide) (by decide +kernel) Ex.twoFeeds
  Ex.twoFeeds_ok.1 "ask" (Or.inl rfl) (by decide) Ex.twoFeeds_ok.2.1

/-- The two feeds of the example end alike, and so do the books. -/
example : ∃ b', Ex.roomy.applyAll Ex.twoFeeds = .ok b' ∧ Ex.roomy.applyAll Ex.twoFeeds' = .ok b' :=
  C210_converge Ex.roomy (by decide +kernel) (by decide) (by decide +kernel) Ex.twoFeeds Ex.twoFeeds'
    Ex.twoFeeds_ok.1 Ex.twoFeeds_ok.2.2.1 Ex.twoFeeds_ok.2.1 Ex.twoFeeds_ok.2.2.2 (by decide) (by
      intro s hs p
      simp only [List.mem_cons, List.not_mem_nil, or_false] at hs
      rcases hs with rfl | rfl
      · cases h9 : Fl.eq (.fin 9) p <;> simp [lastUpdate, Ex.twoFeeds, Ex.twoFeeds', h9]
      · cases h7 : Fl.eq (.fin 7) p <;> cases h10 : Fl.eq (.fin 10) p
        · simp [lastUpdate, Ex.twoFeeds, Ex.twoFeeds', h7, h10]
        · simp [lastUpdate, Ex.twoFeeds, Ex.twoFeeds', h7, h10]
        · simp [lastUpdate, Ex.twoFeeds, Ex.twoFeeds', h7, h10]
        · rw [fl_eq_comm] at h10
          have : Fl.eq (.fin 7) (.fin 10) = true := fl_eq_trans h7 h10
          exact absurd this (by decide +kernel))

end Finmod
