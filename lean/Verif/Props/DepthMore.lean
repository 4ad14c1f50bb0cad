import Verif.Props.BookDepth
import Verif.Lemmas.FloatX

/-!
# `GetDepth` is monotone, and exact at the quoted prices (C126)
-/

namespace Finmod
open Go Spec

/-- **C126** On either side of the book `GetDepth` is monotone in the price. -/
theorem C126_monotone (b : Book) (h : WellFormed b) (ha : b.asks ≠ []) (hb : b.bids ≠ [])
    (p q : Fl) (hp : Fl.gt p (.fin 0) = true) (hpq : Fl.le p q = true) :
    (InAsks b p → InAsks b q →
      ∃ x y, b.getDepth p = .ok x ∧ b.getDepth q = .ok y ∧ Fl.le x y = true) ∧
    (¬ InAsks b p → InBids b p → ¬ InAsks b q → InBids b q →
      ∃ x y, b.getDepth p = .ok x ∧ b.getDepth q = .ok y ∧ Fl.le x y = true) := by
  have pos : ∀ x : Fl, Fl.gt x (.fin 0) = true → Fl.le x (.fin 0) = false := by
    intro x hx
    rw [Bool.eq_false_iff]
    intro hl
    rw [Fl.le_iff] at hl
    unfold Fl.gt at hx
    rw [Fl.lt_iff] at hx
    exact absurd hl.2.2 (not_le.2 hx.2.2)
  have cp := (C18_get_depth_level b h ha hb p).2 (pos p hp)
  have cq := (C18_get_depth_level b h ha hb q).2 (pos q (fl_lt_of_lt_of_le hp hpq))
  constructor
  · intro i1 i2
    obtain ⟨r, hr, e, l1, m1⟩ := cp.1 i1
    obtain ⟨r', hr', e', l2, m2⟩ := cq.1 i2
    exact ⟨_, _, e, e', m2 r hr (fl_le_trans l1 hpq)⟩
  · intro n1 i1 n2 i2
    obtain ⟨r, hr, e, l1, m1⟩ := cp.2.1 n1 i1
    obtain ⟨r', hr', e', l2, m2⟩ := cq.2.1 n2 i2
    exact ⟨_, _, e, e', m1 r' hr' (fl_le_trans hpq l2)⟩

/-- In a list whose keys increase, every member lies between the first and the last. -/
theorem between_ends {α : Type} [LinearOrder α] (k : Row → α) :
    ∀ (l : List Row) (f z : Row), l.Pairwise (fun x y => k x < k y) → l.head? = some f →
      l.getLast? = some z → ∀ r ∈ l, k f ≤ k r ∧ k r ≤ k z := by
  intro l f z hs hf hz r hr
  constructor
  · cases l with
    | nil => simp at hr
    | cons a t =>
      simp only [List.head?_cons, Option.some.injEq] at hf
      subst hf
      rcases List.mem_cons.1 hr with rfl | hm
      · exact le_rfl
      · exact ((List.pairwise_cons.1 hs).1 r hm).le
  · obtain ⟨t, rfl⟩ : ∃ t, l = t ++ [z] := by
      have := List.getLast?_eq_some_iff.1 hz
      exact this
    rcases List.mem_append.1 hr with hm | hm
    · exact ((List.pairwise_append.1 hs).2.2 r hm z (by simp)).le
    · simp only [List.mem_singleton] at hm
      subst hm; exact le_rfl

/-- **C126** At a quoted positive price `GetDepth` returns that very price: always for an ask, and
for a bid that is not inside the range of the asks. -/
theorem C126_quoted (b : Book) (h : WellFormed b) (ha : b.asks ≠ []) (hb : b.bids ≠ [])
    (r : Row) (hr0 : Fl.le r.price (.fin 0) = false) :
    (r ∈ b.asks → b.getDepth r.price = .ok r.price) ∧
    (r ∈ b.bids → ¬ InAsks b r.price → b.getDepth r.price = .ok r.price) := by
  obtain ⟨-, c2, c3, -⟩ := getDepth_cases b h ha hb r.price
  constructor
  · intro hr
    have hin : InAsks b r.price := by
      refine ⟨_, _, List.head?_eq_some_head ha, List.getLast?_eq_some_getLast ha, ?_⟩
      have hb' := between_ends (fun r => r.price.key) b.asks _ _
        (h.asks_sorted.imp (fun hxy => (Fl.lt_iff.1 hxy).2.2)) (List.head?_eq_some_head ha)
        (List.getLast?_eq_some_getLast ha) r hr
      exact ⟨(le_key (h.asks_num _ (List.head_mem ha)) (h.asks_num _ hr)).2 hb'.1,
        (le_key (h.asks_num _ hr) (h.asks_num _ (List.getLast_mem ha))).2 hb'.2⟩
    obtain ⟨l1, x, l2, e1, e2, e3, e4, -, e6⟩ := c2 hr0 hin
    rw [e1] at hr
    rcases List.mem_append.1 hr with hm | hm
    · exact absurd e2 (not_le.2 (e3 r hm))
    · rcases List.mem_cons.1 hm with rfl | hm
      · exact e6
      · exact absurd (e4 r hm) (lt_irrefl _)
  · intro hr hna
    have hin : InBids b r.price := by
      refine ⟨_, _, List.head?_eq_some_head hb, List.getLast?_eq_some_getLast hb, ?_⟩
      have hb' := between_ends (fun r => OrderDual.toDual r.price.key) b.bids _ _
        (h.bids_sorted.imp (fun hxy => (Fl.lt_iff.1 hxy).2.2)) (List.head?_eq_some_head hb)
        (List.getLast?_eq_some_getLast hb) r hr
      exact ⟨(le_key (h.bids_num _ (List.getLast_mem hb)) (h.bids_num _ hr)).2 hb'.2,
        (le_key (h.bids_num _ hr) (h.bids_num _ (List.head_mem hb))).2 hb'.1⟩
    obtain ⟨l1, x, l2, e1, e2, e3, e4, -, e6⟩ := c3 hr0 hna hin
    rw [e1] at hr
    rcases List.mem_append.1 hr with hm | hm
    · exact absurd e2 (not_le.2 (e3 r hm))
    · rcases List.mem_cons.1 hm with rfl | hm
      · exact e6
      · exact absurd (e4 r hm) (lt_irrefl _)

example := C126_monotone Ex.book (by decide +kernel) (by decide) (by decide) (.fin (25/2))
  (.fin 13) (by decide +kernel) (by decide +kernel)
example : Ex.book.asks.map (fun r => Ex.book.getDepth r.price) =
    Ex.book.asks.map (fun r => .ok r.price) := by decide +kernel

end Finmod
