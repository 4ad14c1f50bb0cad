import Verif.Lemmas.FloatX
import Verif.Props.BookConverge

/-!
# C218: a feed brings different books together
-/

namespace Finmod
open Go Spec

/-- **C218** Two books, each fed updates that cross nothing and for which it has room. If the latest updates agree at every
price, and the books agree at every price without update, they show the same rows in the end, whatever they showed before
and whatever their limits. -/
theorem C218_heal (b c : Book) (hb : WellFormed b) (hc : WellFormed c) (db : 0 ≤ b.maxDepth) (dc : 0 ≤ c.maxDepth)
    (kb : DepthOk b) (kc : DepthOk c) (us ws : List Update) (hu : NumUpdates us) (hw : NumUpdates ws)
    (nb : NonCrossing b us) (nc : NonCrossing c ws)
    (room : ∀ s ∈ ["ask", "bid"], ((side b s).length : Int) + us.length ≤ b.maxDepth ∧
      ((side c s).length : Int) + ws.length ≤ c.maxDepth)
    (latest : ∀ s ∈ ["ask", "bid"], ∀ p, lastUpdate s p us = lastUpdate s p ws)
    (rest : ∀ s ∈ ["ask", "bid"], ∀ r, lastUpdate s r.price us = none → (r ∈ side b s ↔ r ∈ side c s)) :
    ∃ b' c', b.applyAll us = .ok b' ∧ c.applyAll ws = .ok c' ∧ b'.asks = c'.asks ∧ b'.bids = c'.bids := by
  have gb : Good b := ⟨hb, db, kb⟩
  have gc : Good c := ⟨hc, dc, kc⟩
  obtain ⟨b1, h1, _⟩ := applyAll_good (P := fun _ => True) hu (fun _ _ _ _ _ _ _ => trivial) gb trivial
  obtain ⟨b2, h2, _⟩ := applyAll_good (P := fun _ => True) hw (fun _ _ _ _ _ _ _ => trivial) gc trivial
  obtain ⟨g1, -, -⟩ := applyAll_frame hu gb h1
  obtain ⟨g2, -, -⟩ := applyAll_frame hw gc h2
  have rows : ∀ s, s = "ask" ∨ s = "bid" → ∀ r, r ∈ side b1 s ↔ r ∈ side b2 s := by
    intro s hs r
    have hs' : s ∈ ["ask", "bid"] := by simpa using hs
    rw [exact_rows hu hs gb (room s hs').1 nb h1 r, exact_rows hw hs gc (room s hs').2 nc h2 r, latest s hs']
    refine or_congr Iff.rfl (and_congr_right fun hn => rest s hs' r ?_)
    rw [latest s hs']
    exact hn
  refine ⟨b1, b2, h1, h2, ?_, ?_⟩
  · exact sorted_ext askOrd g1.wf.askSorted g2.wf.askSorted g1.wf.asks_num g2.wf.asks_num
      (by simpa [side] using rows "ask" (Or.inl rfl))
  · have hne : ¬ ("bid" = "ask") := by decide
    exact sorted_ext bidOrd g1.wf.bidSorted g2.wf.bidSorted g1.wf.bids_num g2.wf.bids_num
      (by simpa [side, hne] using rows "bid" (Or.inr rfl))

theorem lastUpdate_replay (s : String) (p : Fl) (l r : List Update) :
    lastUpdate s p (l ++ (l ++ r)) = lastUpdate s p (l ++ r) := by
  unfold lastUpdate
  simp only [List.filter_append, List.getLast?_append]
  cases (List.filter _ r).getLast? <;> cases (List.filter _ l).getLast? <;> rfl

/-- **C218** A snapshot that is newer than the feed: replaying the updates it already contains before the new ones leads to
the same book as the feed alone, if the replay crosses nothing and there is room. -/
theorem C218_replay (b : Book) (h : WellFormed b) (hd : 0 ≤ b.maxDepth) (hb : DepthOk b) (old new : List Update)
    (ho : NumUpdates old) (hn : NumUpdates new) (n1 : NonCrossing b (old ++ new)) (n2 : NonCrossing b (old ++ (old ++ new)))
    (room : ∀ s ∈ ["ask", "bid"], ((side b s).length : Int) + (2 * old.length + new.length) ≤ b.maxDepth) :
    ∃ snap b', b.applyAll old = .ok snap ∧ snap.applyAll (old ++ new) = .ok b' ∧ b.applyAll (old ++ new) = .ok b' := by
  have hon : NumUpdates (old ++ new) := by
    intro u hu
    rcases List.mem_append.1 hu with hu | hu
    exacts [ho u hu, hn u hu]
  have hoon : NumUpdates (old ++ (old ++ new)) := by
    intro u hu
    rcases List.mem_append.1 hu with hu | hu
    exacts [ho u hu, hon u hu]
  obtain ⟨b', e1, e2⟩ := C210_converge b h hd hb (old ++ new) (old ++ (old ++ new)) hon hoon n1 n2
    (by
      intro s hs l hl
      have := room s hs
      simp only [List.mem_cons, List.not_mem_nil, or_false] at hl
      rcases hl with rfl | rfl <;> simp only [List.length_append] <;> push_cast <;> omega)
    (fun s _ p => (lastUpdate_replay s p old new).symm)
  obtain ⟨snap, h1, _⟩ := applyAll_good (P := fun _ => True) ho (fun _ _ _ _ _ _ _ => trivial) ⟨h, hd, hb⟩ trivial
  refine ⟨snap, b', h1, ?_, e1⟩
  rw [applyAll_append, h1] at e2
  exact e2

/-- All asks of the book are above `m` and all its bids at or below it. -/
def Spec.Around (m : Fl) (b : Book) : Prop :=
  (∀ r ∈ b.asks, Fl.lt m r.price = true) ∧ ∀ r ∈ b.bids, Fl.le r.price m = true

/-- The updates put asks above `m` and bids at or below it; deletions may be anywhere. -/
def Spec.QuotesAround (m : Fl) (us : List Update) : Prop :=
  ∀ u ∈ us, Fl.ne u.volume (.fin 0) = true →
    (u.side = "ask" → Fl.lt m u.price = true) ∧ (u.side = "bid" → Fl.le u.price m = true)

/-- **C218** When nothing is crossed: a price between the asks and the bids of book and feed is enough. -/
theorem C218_around {m : Fl} {b : Book} (h : WellFormed b) (hd : 0 ≤ b.maxDepth) (hb : DepthOk b) (ha : Around m b)
    {us : List Update} (hu : NumUpdates us) (hq : QuotesAround m us) : NonCrossing b us := by
  have hg : Good b := ⟨h, hd, hb⟩
  clear h hd hb
  induction us generalizing b with
  | nil => trivial
  | cons u us ih =>
    have hp := hu u (by simp)
    have hqu := hq u (by simp)
    refine ⟨fun hs hv r hr => fl_lt_of_le_of_lt (ha.2 r hr) ((hqu hv).1 hs),
      fun hs hv r hr => fl_lt_of_le_of_lt ((hqu hv).2 hs) (ha.1 r hr), fun b' hb' => ?_⟩
    obtain ⟨b1, h1, hst⟩ := step_to hg hp
    have e : b' = b1 := by
      rcases hb' with hb' | ⟨c, hb'⟩ <;> rcases h1 with h1 | ⟨d, h1⟩ <;> rw [hb'] at h1 <;> cases h1 <;> rfl
    subst e
    refine ih ?_ (fun w hw => hu w (by simp [hw])) (fun w hw => hq w (by simp [hw])) (stepTo_good hg hp hst).1
    cases hst with
    | askSet hs hv =>
      refine ⟨fun r hr => ?_, fun r hr => ha.2 r (removeInvalidBid_mem hg.wf hp hr).1⟩
      rcases mem_setAsk_take hr with rfl | hr
      exacts [(hqu hv).1 hs, ha.1 r hr]
    | askDel hs hv => exact ⟨fun r hr => ha.1 r (List.mem_filter.1 hr).1, ha.2⟩
    | bidSet hs hv =>
      refine ⟨fun r hr => ha.1 r (removeInvalidAsk_mem hg.wf hp hr).1, fun r hr => ?_⟩
      rcases mem_setBid_take hr with rfl | hr
      exacts [(hqu hv).2 hs, ha.2 r hr]
    | bidDel hs hv => exact ⟨ha.1, fun r hr => ha.2 r (List.mem_filter.1 hr).1⟩
    | other h1 h2 => exact ha

/-! ### Examples -/

/-- A stale book: 11 has another volume than in the sample book, 10 is missing, 7 is still there. -/
def Ex.stale : Book :=
  { time := 3, maxDepth := 20,
    asks := [⟨.fin 11, .fin 6, .nan⟩, ⟨.fin 12, .fin 4, .fin 5⟩, ⟨.fin 13, .fin 2, .fin 7⟩],
    bids := [⟨.fin 8, .fin 1, .fin 4⟩, ⟨.fin 7, .fin 1, .fin 1⟩, ⟨.fin 6, .fin 5, .fin 9⟩] }

/-- Updates at the three prices where they differ. -/
def Ex.repair : List Update := [⟨.fin 7, .fin 0, "bid"⟩, ⟨.fin 11, .fin 2, "ask"⟩, ⟨.fin 10, .fin 3, "bid"⟩]

example : ∃ b' c', Ex.roomy.applyAll Ex.repair = .ok b' ∧ Ex.stale.applyAll Ex.repair = .ok c' ∧
    b'.asks = c'.asks ∧ b'.bids = c'.bids := by
  refine C218_heal Ex.roomy Ex.stale (by decide +kernel) (by decide +kernel) (by decide) (by decide) (by decide +kernel)
    (by decide +kernel) Ex.repair Ex.repair (by decide +kernel) (by decide +kernel)
    (nonCrossing_of_test (by decide +kernel)) (nonCrossing_of_test (by decide +kernel)) (by decide)
    (fun _ _ _ => rfl) ?_
  have key : ∀ s ∈ ["ask", "bid"], ∀ r ∈ side Ex.roomy s ++ side Ex.stale s, lastUpdate s r.price Ex.repair = none →
      (r ∈ side Ex.roomy s ↔ r ∈ side Ex.stale s) := by decide +kernel
  intro s hs r hn
  constructor
  · intro hr
    exact (key s hs r (List.mem_append_left _ hr) hn).1 hr
  · intro hr
    exact (key s hs r (List.mem_append_right _ hr) hn).2 hr

example : Around (.fin (21/2)) Ex.roomy ∧ QuotesAround (.fin (21/2)) Ex.repair := by
  unfold Around QuotesAround
  decide +kernel

example := C218_replay Ex.roomy (by decide +kernel) (by decide) (by decide +kernel)
  [⟨.fin 11, .fin 2, "ask"⟩] [⟨.fin 9, .fin 4, "bid"⟩, ⟨.fin 11, .fin 0, "ask"⟩] (by decide +kernel) (by decide +kernel)
  (nonCrossing_of_test (by decide +kernel)) (nonCrossing_of_test (by decide +kernel)) (by decide)

end Finmod
