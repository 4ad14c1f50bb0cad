import Verif.Props.BookHeal

/-!
# C220: several feeds for one book
-/

namespace Finmod
open Go Spec

/-- Updates of one side at one price come from one feed. -/
def Spec.FeedOfLevel {ι : Type} (feed : Update → ι) : Prop :=
  ∀ u v : Update, u.side = v.side → Fl.eq u.price v.price = true → feed u = feed v

/-- The two sequences have the same updates of each feed, in the same order; they differ in how the feeds are merged. -/
def Spec.SameFeeds {ι : Type} [DecidableEq ι] (feed : Update → ι) (us ws : List Update) : Prop :=
  ∀ i, us.filter (fun u => feed u = i) = ws.filter (fun u => feed u = i)

theorem lastUpdate_feeds {ι : Type} [DecidableEq ι] {feed : Update → ι} (hf : FeedOfLevel feed) {us ws : List Update}
    (h : SameFeeds feed us ws) (s : String) (p : Fl) : lastUpdate s p us = lastUpdate s p ws := by
  have part : ∀ (l : List Update) (u : Update), u.side = s → Fl.eq u.price p = true →
      l.filter (fun v => v.side == s && Fl.eq v.price p) =
        (l.filter fun v => feed v = feed u).filter (fun v => v.side == s && Fl.eq v.price p) := by
    intro l u hs hp
    rw [List.filter_filter]
    refine List.filter_congr fun v _ => ?_
    cases hc : (v.side == s && Fl.eq v.price p) with
    | false => simp
    | true =>
      rw [Bool.and_eq_true, beq_iff_eq] at hc
      have : feed v = feed u := hf v u (hc.1.trans hs.symm) (fl_eq_trans hc.2 (by rw [fl_eq_comm]; exact hp))
      simp [this]
  unfold lastUpdate
  congr 1
  by_cases he : ∃ u : Update, u.side = s ∧ Fl.eq u.price p = true
  · obtain ⟨u, hs, hp⟩ := he
    rw [part us u hs hp, part ws u hs hp, h (feed u)]
  · have none : ∀ l : List Update, l.filter (fun v => v.side == s && Fl.eq v.price p) = [] := by
      intro l
      refine List.filter_eq_nil_iff.2 fun v _ hv => he ⟨v, ?_⟩
      rwa [Bool.and_eq_true, beq_iff_eq] at hv
    rw [none us, none ws]

theorem sameFeeds_length {ι : Type} [DecidableEq ι] {feed : Update → ι} {us ws : List Update}
    (h : SameFeeds feed us ws) : us.Perm ws := by
  classical
  rw [List.perm_iff_count]
  intro u
  have key : ∀ l : List Update, l.count u = (l.filter fun v => feed v = feed u).count u := by
    intro l
    rw [List.count_filter (by simp)]
  rw [key us, key ws, h (feed u)]

/-- **C220** Several feeds update one book, call by call (say under a lock), each price of a side being the business of one
feed. If asks stay above some price and bids at or below it, and there is room, then however the calls of the feeds are
merged the book is the same in the end. -/
theorem C220_feeds {ι : Type} [DecidableEq ι] (feed : Update → ι) (hf : FeedOfLevel feed) (b : Book) (h : WellFormed b)
    (hd : 0 ≤ b.maxDepth) (hb : DepthOk b) {m : Fl} (ha : Around m b) (us ws : List Update) (hu : NumUpdates us)
    (hq : QuotesAround m us)
    (room : ((b.asks.length : Int) + us.length ≤ b.maxDepth) ∧ ((b.bids.length : Int) + us.length ≤ b.maxDepth))
    (same : SameFeeds feed us ws) :
    ∃ b', b.applyAll us = .ok b' ∧ b.applyAll ws = .ok b' := by
  have hperm := sameFeeds_length same
  have hw : NumUpdates ws := fun u hu' => hu u (hperm.mem_iff.2 hu')
  have hqw : QuotesAround m ws := fun u hu' => hq u (hperm.mem_iff.2 hu')
  refine C210_converge b h hd hb us ws hu hw (C218_around h hd hb ha hu hq) (C218_around h hd hb ha hw hqw) ?_
    fun s _ p => lastUpdate_feeds hf same s p
  intro s hs l hl
  have hlen : l.length = us.length := by
    simp only [List.mem_cons, List.not_mem_nil, or_false] at hl
    rcases hl with rfl | rfl
    exacts [rfl, hperm.length_eq.symm]
  rw [hlen]
  simp only [List.mem_cons, List.not_mem_nil, or_false] at hs
  rcases hs with rfl | rfl
  exacts [room.1, room.2]

/-- Two feeds for the same price: the order matters. -/
theorem C220_one_price : ∃ (b : Book) (u w : Update), WellFormed b ∧ DepthOk b ∧ Around (.fin 10) b ∧
    QuotesAround (.fin 10) [u, w] ∧ u.side = w.side ∧ u.price = w.price ∧ b.applyAll [u, w] ≠ b.applyAll [w, u] :=
  ⟨Ex.book, ⟨.fin 12, .fin 1, "ask"⟩, ⟨.fin 12, .fin 3, "ask"⟩, by decide +kernel, by decide +kernel,
    by unfold Around; decide +kernel, by unfold QuotesAround; decide +kernel, rfl, rfl, by decide +kernel⟩

/-! A feed for the asks and one for the bids. -/

example : FeedOfLevel (fun u : Update => decide (u.side = "ask")) := by
  intro u v h _
  simp [h]

example : SameFeeds (fun u : Update => decide (u.side = "ask"))
    [⟨.fin 14, .fin 1, "ask"⟩, ⟨.fin 9, .fin 2, "bid"⟩, ⟨.fin 14, .fin 0, "ask"⟩]
    [⟨.fin 9, .fin 2, "bid"⟩, ⟨.fin 14, .fin 1, "ask"⟩, ⟨.fin 14, .fin 0, "ask"⟩] := by
  intro i
  cases i <;> decide +kernel

example := C220_feeds (fun u : Update => decide (u.side = "ask")) (by intro u v h _; simp [h]) Ex.roomy (by decide +kernel)
  (by decide) (by decide +kernel) (m := .fin 10) (by unfold Around; decide +kernel)
  [⟨.fin 14, .fin 1, "ask"⟩, ⟨.fin 9, .fin 2, "bid"⟩, ⟨.fin 14, .fin 0, "ask"⟩]
  [⟨.fin 9, .fin 2, "bid"⟩, ⟨.fin 14, .fin 1, "ask"⟩, ⟨.fin 14, .fin 0, "ask"⟩] (by decide +kernel)
  (by unfold QuotesAround; decide +kernel) (by decide) (by intro i; cases i <;> decide +kernel)

end Finmod
