import Verif.Props.BookUpdate

/-!
# C12–C16: update histories
-/

namespace Finmod
open Go Spec

theorem fl_eq_comm (x y : Fl) : Fl.eq x y = Fl.eq y x := by
  unfold Fl.eq; rw [Bool.and_comm (!Fl.isNaN x)]; simp [eq_comm]

theorem fl_eq_refl {x : Fl} (h : x ≠ .nan) : Fl.eq x x = true := (eq_key h h).2 rfl

theorem fl_eq_trans {x y z : Fl} (h1 : Fl.eq x y = true) (h2 : Fl.eq y z = true) :
    Fl.eq x z = true := by
  rw [Fl.eq_iff] at *
  exact ⟨h1.1, h2.2.1, h1.2.2.trans h2.2.2⟩

/-- Comparing with equal prices gives equal answers. -/
theorem fl_eq_congr {x p q : Fl} (h : Fl.eq p q = true) : Fl.eq x p = Fl.eq x q := by
  rw [Bool.eq_iff_iff]
  constructor
  · exact fun h1 => fl_eq_trans h1 h
  · intro h1; rw [fl_eq_comm] at h; exact fl_eq_trans h1 h

theorem lastWrite_nil (s : String) (p : Fl) : lastWrite s p [] = none := rfl

theorem lastWrite_cons (s : String) (p : Fl) (u : Update) (us : List Update) :
    lastWrite s p (u :: us) =
      match lastWrite s p us with
      | some v => some v
      | none => if u.side = s ∧ Fl.eq u.price p = true then some u.volume else none := by
  unfold lastWrite
  rw [List.filter_cons]
  by_cases h : u.side = s ∧ Fl.eq u.price p = true
  · have h' : (u.side == s && Fl.eq u.price p) = true := by simp [h.1, h.2]
    rw [if_pos h', if_pos h]
    cases hf : List.filter (fun u => u.side == s && u.price.eq p) us with
    | nil => simp
    | cons a l =>
      rw [List.getLast?_cons_cons]
      cases hl : (a :: l).getLast? with
      | none => simp at hl
      | some x => simp
  · have h' : ¬ (u.side == s && Fl.eq u.price p) = true := by
      simpa using h
    rw [if_neg h', if_neg h]
    cases hf : (List.filter (fun u => u.side == s && u.price.eq p) us).getLast? <;> simp

theorem lastWrite_congr (s : String) {p q : Fl} (h : Fl.eq p q = true) (us : List Update) :
    lastWrite s p us = lastWrite s q us := by
  unfold lastWrite
  congr 2
  apply List.filter_congr
  intro u _
  rw [fl_eq_congr h]

/-- Rows of side `s` after a step: the written row or an old row at another price. -/
theorem mem_after {b b' : Book} {u : Update} {s : String} (h : Good b) (hp : u.price ≠ .nan)
    (hst : StepTo b u b') (hs : s = "ask" ∨ s = "bid") {r : Row} (hr : r ∈ side b' s) :
    (u.side = s ∧ Fl.ne u.volume (.fin 0) = true ∧ r = ⟨u.price, u.volume, .fin 0⟩) ∨
    (r ∈ side b s ∧ (u.side = s → Fl.eq r.price u.price = false)) := by
  have hne : ¬ ("bid" = "ask") := by decide
  have hne' : ¬ ("ask" = "bid") := by decide
  have dl : ∀ rows : List Row, r ∈ deleteLevel rows u.price →
      r ∈ rows ∧ Fl.eq r.price u.price = false := by
    intro rows hr; simpa [deleteLevel] using hr
  cases hst with
  | askSet h1 hv =>
    rcases hs with rfl | rfl
    · simp only [side, if_true] at hr ⊢
      have := List.mem_of_mem_take hr
      rw [setAsk_eq, mem_gSet askOrd h.wf.asks_num hp] at this
      rcases this with h2 | h2
      · exact Or.inl ⟨h1, hv, h2⟩
      · exact Or.inr ⟨h2.1, fun _ => h2.2⟩
    · simp only [side, if_neg hne] at hr ⊢
      exact Or.inr ⟨(removeInvalidBid_mem h.wf hp hr).1, fun h2 => absurd (h1.symm.trans h2) hne'⟩
  | askDel h1 hv =>
    rcases hs with rfl | rfl
    · simp only [side, if_true] at hr ⊢
      exact Or.inr ⟨(dl _ hr).1, fun _ => (dl _ hr).2⟩
    · simp only [side, if_neg hne] at hr ⊢
      exact Or.inr ⟨hr, fun h2 => absurd (h1.symm.trans h2) hne'⟩
  | bidSet h1 hv =>
    rcases hs with rfl | rfl
    · simp only [side, if_true] at hr ⊢
      exact Or.inr ⟨(removeInvalidAsk_mem h.wf hp hr).1, fun h2 => absurd (h1.symm.trans h2) hne⟩
    · simp only [side, if_neg hne] at hr ⊢
      have := List.mem_of_mem_take hr
      rw [setBid_eq, mem_gSet bidOrd h.wf.bids_num hp] at this
      rcases this with h2 | h2
      · exact Or.inl ⟨h1, hv, h2⟩
      · exact Or.inr ⟨h2.1, fun _ => h2.2⟩
  | bidDel h1 hv =>
    rcases hs with rfl | rfl
    · simp only [side, if_true] at hr ⊢
      exact Or.inr ⟨hr, fun h2 => absurd (h1.symm.trans h2) hne⟩
    · simp only [side, if_neg hne] at hr ⊢
      exact Or.inr ⟨(dl _ hr).1, fun _ => (dl _ hr).2⟩
  | other h1 h2 =>
    refine Or.inr ⟨hr, fun h3 => ?_⟩
    rcases hs with rfl | rfl
    · exact absurd h3 h1
    · exact absurd h3 h2

theorem side_num {b : Book} (h : WellFormed b) (s : String) : NumPrices (side b s) := by
  unfold side; split
  · exact h.asks_num
  · exact h.bids_num

/-- Unfolding one step of a history of a good book. -/
theorem applyAll_cons {b b' : Book} {u : Update} {us : List Update} (hg : Good b)
    (hp : u.price ≠ .nan) (h : b.applyAll (u :: us) = .ok b') :
    ∃ b1, (b.applyUpdate u = .ok b1 ∨ ∃ c, b.applyUpdate u = .err c b1) ∧ StepTo b u b1 ∧
      Good b1 ∧ b1.maxDepth = b.maxDepth ∧ b1.applyAll us = .ok b' := by
  obtain ⟨b1, h1, hst⟩ := step_to hg hp
  obtain ⟨g1, g2, _⟩ := stepTo_good hg hp hst
  refine ⟨b1, h1, hst, g1, g2, ?_⟩
  rcases h1 with h1 | ⟨c, h1⟩ <;> simpa [Book.applyAll, h1] using h

theorem latest_write {us : List Update} (hu : NumUpdates us) {s : String}
    (hs : s = "ask" ∨ s = "bid") {b b' : Book} (hg : Good b) (h : b.applyAll us = .ok b') :
    ∀ r ∈ side b' s,
      (∀ v, lastWrite s r.price us = some v →
        r.volume = v ∧ Fl.ne v (.fin 0) = true ∧ r.accum = .fin 0) ∧
      (lastWrite s r.price us = none → r ∈ side b s) := by
  induction us generalizing b with
  | nil =>
    simp only [Book.applyAll, Res.ok.injEq] at h
    subst h
    exact fun r hr => ⟨fun v hv => by simp [lastWrite_nil] at hv, fun _ => hr⟩
  | cons u us ih =>
    have hp := hu u (by simp)
    obtain ⟨b1, _, hst, g1, _, h1⟩ := applyAll_cons hg hp h
    intro r hr
    obtain ⟨i1, i2⟩ := ih (fun v hv => hu v (by simp [hv])) g1 h1 r hr
    rw [lastWrite_cons]
    cases hl : lastWrite s r.price us with
    | some w => exact ⟨fun v hv => i1 v (by rw [hl]; exact hv), by simp⟩
    | none =>
      have hm := mem_after hg hp hst hs (i2 hl)
      by_cases hc : u.side = s ∧ Fl.eq u.price r.price = true
      · simp only [hc, and_self, if_true]
        refine ⟨?_, by simp⟩
        intro v hv
        simp only [Option.some.injEq] at hv
        rcases hm with ⟨_, h3, h4⟩ | ⟨_, h4⟩
        · rw [h4, ← hv]; exact ⟨rfl, h3, rfl⟩
        · have := h4 hc.1
          rw [fl_eq_comm, hc.2] at this
          exact absurd this (by simp)
      · simp only [if_neg hc]
        refine ⟨by simp, fun _ => ?_⟩
        rcases hm with ⟨h2, _, h4⟩ | ⟨h3, _⟩
        · exact absurd ⟨h2, by rw [h4]; exact fl_eq_refl hp⟩ hc
        · exact h3

/-- **C12** After any history each row shows the latest write at its price (an untouched row is
unchanged); a level whose latest write had volume zero is absent. -/
theorem C12_row_is_latest_write (b : Book) (h : WellFormed b) (hd : 0 ≤ b.maxDepth)
    (hb : DepthOk b) (us : List Update) (hu : NumUpdates us) (s : String)
    (hs : s = "ask" ∨ s = "bid") :
    ∃ b', b.applyAll us = .ok b' ∧
      (∀ r ∈ side b' s,
        (∀ v, lastWrite s r.price us = some v → r.volume = v) ∧
        (lastWrite s r.price us = none → r ∈ side b s)) ∧
      (∀ p v, lastWrite s p us = some v → Fl.eq v (.fin 0) = true →
        ∀ r ∈ side b' s, Fl.eq r.price p = false) := by
  have hg : Good b := ⟨h, hd, hb⟩
  obtain ⟨b', h1, _⟩ := applyAll_good (P := fun _ => True) hu (fun _ _ _ _ _ _ _ => trivial)
    hg trivial
  have key := latest_write hu hs hg h1
  refine ⟨b', h1, fun r hr => ⟨fun v hv => ((key r hr).1 v hv).1, (key r hr).2⟩, ?_⟩
  intro p v hv hz r hr
  by_contra hc
  simp only [Bool.not_eq_false] at hc
  have := ((key r hr).1 v (by rw [lastWrite_congr s hc]; exact hv)).2.1
  simp [Fl.ne, hz] at this

example := C12_row_is_latest_write Ex.book (by decide +kernel) (by decide) (by decide +kernel)
  Ex.upd1 (by decide +kernel) "ask" (Or.inl rfl)

/-! ### C13 -/

/-- No update of the history reaches the opposite side as it is at that moment. -/
def Spec.NonCrossing : Book → List Update → Prop
  | _, [] => True
  | b, u :: us =>
    (u.side = "ask" → Fl.ne u.volume (.fin 0) = true → ∀ r ∈ b.bids, Fl.lt r.price u.price = true) ∧
    (u.side = "bid" → Fl.ne u.volume (.fin 0) = true → ∀ r ∈ b.asks, Fl.lt u.price r.price = true) ∧
    ∀ b', (b.applyUpdate u = .ok b' ∨ ∃ c, b.applyUpdate u = .err c b') → NonCrossing b' us

theorem setAsk_length (rows : List Row) (p v : Fl) (hn : NumPrices rows) :
    (setAsk rows p v).length ≤ rows.length + 1 := by
  have : (rows.filter (fun r => Fl.lt r.price p)).length + (rows.filter (fun r => Fl.gt r.price p)).length ≤ rows.length := by
    induction rows with
    | nil => simp
    | cons a l ih =>
      have := ih (fun r hr => hn r (by simp [hr]))
      simp only [List.filter_cons, List.length_cons]
      by_cases h1 : Fl.lt a.price p = true
      · have h2 : Fl.gt a.price p = false := by
          unfold Fl.gt
          by_contra h2
          simp only [Bool.not_eq_false] at h2
          rw [Fl.lt_iff] at h1 h2
          exact absurd h1.2.2 (not_lt.2 h2.2.2.le)
        simp only [h1, h2, if_true, List.length_cons]
        simp only [Bool.false_eq_true, if_false]; omega
      · rw [if_neg h1]
        split
        · simp only [List.length_cons]; omega
        · omega
  simp only [setAsk, List.length_append, List.length_singleton]
  omega

theorem setBid_length (rows : List Row) (p v : Fl) (hn : NumPrices rows) :
    (setBid rows p v).length ≤ rows.length + 1 := by
  have := setAsk_length rows p v hn
  simp only [setAsk, setBid, List.length_append, List.length_singleton] at *
  omega

/-- Own side after a step when there is room. -/
theorem mem_after_own {b b' : Book} {u : Update} {s : String} (h : Good b) (hp : u.price ≠ .nan)
    (hst : StepTo b u b') (hs : s = "ask" ∨ s = "bid") (hus : u.side = s)
    (room : ((side b s).length : Int) + 1 ≤ b.maxDepth) (r : Row) :
    r ∈ side b' s ↔
      (Fl.ne u.volume (.fin 0) = true ∧ r = ⟨u.price, u.volume, .fin 0⟩) ∨
      (r ∈ side b s ∧ Fl.eq r.price u.price = false) := by
  have hne : ¬ ("bid" = "ask") := by decide
  have hne' : ¬ ("ask" = "bid") := by decide
  have la := setAsk_length b.asks u.price u.volume h.wf.asks_num
  have lb := setBid_length b.bids u.price u.volume h.wf.bids_num
  subst hus
  cases hst with
  | askSet h1 hv =>
    simp only [side, h1, if_true] at room ⊢
    rw [List.take_of_length_le (by omega), setAsk_eq, mem_gSet askOrd h.wf.asks_num hp]
    simp [hv]
  | askDel h1 hv =>
    simp only [side, h1, if_true] at room ⊢
    simp [hv, deleteLevel]
  | bidSet h1 hv =>
    simp only [side, h1, if_neg hne] at room ⊢
    rw [List.take_of_length_le (by omega), setBid_eq, mem_gSet bidOrd h.wf.bids_num hp]
    simp [hv]
  | bidDel h1 hv =>
    simp only [side, h1, if_neg hne] at room ⊢
    simp [hv, deleteLevel]
  | other h1 h2 => rcases hs with h3 | h3 <;> contradiction

/-- Other side after a non-crossing step. -/
theorem other_side_same {b b' : Book} {u : Update} {s : String}
    (hst : StepTo b u b') (hs : s = "ask" ∨ s = "bid") (hus : u.side ≠ s)
    (n1 : u.side = "ask" → Fl.ne u.volume (.fin 0) = true → ∀ r ∈ b.bids, Fl.lt r.price u.price = true)
    (n2 : u.side = "bid" → Fl.ne u.volume (.fin 0) = true → ∀ r ∈ b.asks, Fl.lt u.price r.price = true) :
    side b' s = side b s := by
  have hne : ¬ ("bid" = "ask") := by decide
  cases hst with
  | askSet h1 hv =>
    rcases hs with rfl | rfl
    · contradiction
    · simp only [side, if_neg hne]
      rw [removeInvalidBid_eq]
      apply gRemove_noop
      intro r hr
      exact n1 h1 hv r (List.mem_of_head? hr)
  | askDel h1 hv =>
    rcases hs with rfl | rfl
    · contradiction
    · simp only [side, if_neg hne]
  | bidSet h1 hv =>
    rcases hs with rfl | rfl
    · simp only [side, if_true]
      rw [removeInvalidAsk_eq]
      apply gRemove_noop
      intro r hr
      exact n2 h1 hv r (List.mem_of_head? hr)
    · contradiction
  | bidDel h1 hv =>
    rcases hs with rfl | rfl
    · simp only [side, if_true]
    · contradiction
  | other h1 h2 => rfl

theorem side_length_step {b b' : Book} {u : Update} {s : String} (h : Good b)
    (hst : StepTo b u b') :
    (side b' s).length ≤ (side b s).length + 1 := by
  have la := setAsk_length b.asks u.price u.volume h.wf.asks_num
  have lb := setBid_length b.bids u.price u.volume h.wf.bids_num
  have ra := (gRemove_suffix' Fl.lt b.asks u.price).length_le
  have rb := (gRemove_suffix' (fun a b => Fl.lt b a) b.bids u.price).length_le
  have da := deleteLevel_length b.asks u.price
  have db := deleteLevel_length b.bids u.price
  rw [← removeInvalidAsk_eq] at ra
  rw [← removeInvalidBid_eq] at rb
  cases hst <;> unfold side <;> split <;> (try simp only [List.length_take]) <;> omega

theorem exact_map {us : List Update} (hu : NumUpdates us) {s : String}
    (hs : s = "ask" ∨ s = "bid") {b b' : Book} (hg : Good b)
    (room : ((side b s).length : Int) + us.length ≤ b.maxDepth)
    (hnc : NonCrossing b us) (h : b.applyAll us = .ok b') (p v : Fl) :
    (∃ r ∈ side b' s, Fl.eq r.price p = true ∧ r.volume = v) ↔
      (lastWrite s p us = some v ∧ Fl.ne v (.fin 0) = true) ∨
      (lastWrite s p us = none ∧ ∃ r ∈ side b s, Fl.eq r.price p = true ∧ r.volume = v) := by
  induction us generalizing b with
  | nil =>
    simp only [Book.applyAll, Res.ok.injEq] at h
    subst h
    simp [lastWrite_nil]
  | cons u us ih =>
    have hp := hu u (by simp)
    obtain ⟨b1, hup, hst, g1, hmd, h1⟩ := applyAll_cons hg hp h
    obtain ⟨n1, n2, n3⟩ := hnc
    have hlen := side_length_step (s := s) hg hst
    simp only [List.length_cons] at room
    rw [ih (fun w hw => hu w (by simp [hw])) g1 (by rw [hmd]; push_cast at room ⊢; omega)
      (n3 b1 hup) h1, lastWrite_cons]
    cases hl : lastWrite s p us with
    | some w => simp
    | none =>
      simp only [reduceCtorEq, false_and, true_and, false_or]
      by_cases hus : u.side = s
      · have hm := mem_after_own hg hp hst hs hus (by push_cast at room; omega)
        by_cases hup' : Fl.eq u.price p = true
        · simp only [hus, hup', and_self, if_true, Option.some.injEq, reduceCtorEq, false_and, or_false]
          constructor
          · rintro ⟨r, hr, h2, h3⟩
            rcases (hm r).1 hr with ⟨h4, h5⟩ | ⟨_, h5⟩
            · subst h5; simp only at h3; exact ⟨h3, h3 ▸ h4⟩
            · rw [fl_eq_comm] at hup'
              rw [fl_eq_trans h2 hup'] at h5; simp at h5
          · rintro ⟨rfl, h3⟩
            exact ⟨⟨u.price, u.volume, .fin 0⟩, (hm _).2 (Or.inl ⟨h3, rfl⟩), hup', rfl⟩
        · simp only [hus, hup', and_false, if_false, reduceCtorEq, false_and, false_or, true_and]
          constructor
          · rintro ⟨r, hr, h2, h3⟩
            rcases (hm r).1 hr with ⟨_, h5⟩ | ⟨h4, _⟩
            · subst h5; exact absurd h2 hup'
            · exact ⟨r, h4, h2, h3⟩
          · rintro ⟨r, hr, h2, h3⟩
            refine ⟨r, (hm r).2 (Or.inr ⟨hr, ?_⟩), h2, h3⟩
            by_contra hc
            simp only [Bool.not_eq_false] at hc
            rw [fl_eq_comm] at hc
            exact hup' (fl_eq_trans hc h2)
      · rw [other_side_same hst hs hus n1 n2]
        simp [hus]

/-- **C13** With room for everything and no crossing, a side is exactly the map of latest
volumes: it has a row at `p` with volume `v` iff the latest write at `p` (initial rows count as
writes) was `v`, and updates with volume zero count as deletions. -/
theorem C13_book_is_latest_map (b : Book) (h : WellFormed b) (hd : 0 ≤ b.maxDepth)
    (hb : DepthOk b) (us : List Update) (hu : NumUpdates us) (s : String)
    (hs : s = "ask" ∨ s = "bid")
    (room : ((side b s).length : Int) + us.length ≤ b.maxDepth) (hnc : NonCrossing b us) :
    ∃ b', b.applyAll us = .ok b' ∧ ∀ p v,
      ((∃ r ∈ side b' s, Fl.eq r.price p = true ∧ r.volume = v) ↔
        (lastWrite s p us = some v ∧ Fl.ne v (.fin 0) = true) ∨
        (lastWrite s p us = none ∧ ∃ r ∈ side b s, Fl.eq r.price p = true ∧ r.volume = v)) := by
  have hg : Good b := ⟨h, hd, hb⟩
  obtain ⟨b', h1, _⟩ := applyAll_good (P := fun _ => True) hu (fun _ _ _ _ _ _ _ => trivial)
    hg trivial
  exact ⟨b', h1, fun p v => exact_map hu hs hg room hnc h1 p v⟩

/-- `Ex.book` with depth 9 and two updates that cross nothing. -/
example := C13_book_is_latest_map { Ex.book with maxDepth := 9 } (by decide +kernel) (by decide)
  (by decide +kernel) [⟨.fin 14, .fin 1, "ask"⟩, ⟨.fin 11, .fin 0, "ask"⟩] (by decide +kernel)
  "ask" (Or.inl rfl) (by decide)
  ⟨fun _ _ => by decide +kernel, fun h => absurd h (by decide), fun b' _ =>
    ⟨fun _ h => absurd h (by decide +kernel), fun h => absurd h (by decide), fun _ _ => trivial⟩⟩

/-! ### C14 -/

theorem gSet_take_idem {lt : Fl → Fl → Bool} {α : Type} [LinearOrder α] {k : Fl → α}
    (O : SideOrd lt k) {rows : List Row} {p v : Fl} {n : Nat} (hn : NoNaN rows) (hp : p ≠ .nan) :
    (gSet lt ((gSet lt rows p v).take n) p v).take n = (gSet lt rows p v).take n := by
  have irr : lt p p = false := (O.lt_false_iff hp hp).2 le_rfl
  have asym : ∀ x : Fl, x ≠ .nan → lt x p = true → lt p x = false := by
    intro x hx h
    exact (O.lt_false_iff hp hx).2 ((O.lt_iff _ _ hx hp).1 h).le
  have asym' : ∀ x : Fl, x ≠ .nan → lt p x = true → lt x p = false := by
    intro x hx h
    exact (O.lt_false_iff hx hp).2 ((O.lt_iff _ _ hp hx).1 h).le
  set A := rows.filter (fun r => lt r.price p) with hA
  set B := rows.filter (fun r => lt p r.price) with hB
  have fA1 : ∀ m, (A.take m).filter (fun r => lt r.price p) = A.take m := by
    intro m
    rw [List.filter_eq_self]
    intro r hr
    have := List.mem_of_mem_take hr
    rw [hA, List.mem_filter] at this; exact this.2
  have fA2 : ∀ m, (A.take m).filter (fun r => lt p r.price) = [] := by
    intro m
    rw [List.filter_eq_nil_iff]
    intro r hr
    have := List.mem_of_mem_take hr
    rw [hA, List.mem_filter] at this
    simp [asym r.price (hn r this.1) this.2]
  have fB1 : ∀ m, (B.take m).filter (fun r => lt p r.price) = B.take m := by
    intro m
    rw [List.filter_eq_self]
    intro r hr
    have := List.mem_of_mem_take hr
    rw [hB, List.mem_filter] at this; exact this.2
  have fB2 : ∀ m, (B.take m).filter (fun r => lt r.price p) = [] := by
    intro m
    rw [List.filter_eq_nil_iff]
    intro r hr
    have := List.mem_of_mem_take hr
    rw [hB, List.mem_filter] at this
    simp [asym' r.price (hn r this.1) this.2]
  have hset : gSet lt rows p v = A ++ [⟨p, v, .fin 0⟩] ++ B := rfl
  by_cases hc : n ≤ A.length
  · have e : (gSet lt rows p v).take n = A.take n := by
      rw [hset, List.append_assoc, List.take_append_of_le_length hc]
    rw [e]
    unfold gSet
    rw [fA1, fA2, List.append_assoc,
      List.take_append_of_le_length (by simp [hc]), List.take_take, min_self]
  · have e : (gSet lt rows p v).take n = A.take n ++ [⟨p, v, .fin 0⟩] ++ B.take (n - A.length - 1) := by
      rw [hset, List.append_assoc, List.take_append, List.append_assoc]
      congr 1
      obtain ⟨m, hm⟩ : ∃ m, n - A.length = m + 1 := ⟨n - A.length - 1, by omega⟩
      rw [hm]; simp
    have e2 : gSet lt ((gSet lt rows p v).take n) p v = (gSet lt rows p v).take n := by
      rw [e]
      unfold gSet
      rw [List.filter_append, List.filter_append, List.filter_append, List.filter_append,
        fA1, fA2, fB1, fB2]
      simp [irr]
    rw [e2, List.take_take, min_self]

theorem deleteLevel_idem (rows : List Row) (p : Fl) :
    deleteLevel (deleteLevel rows p) p = deleteLevel rows p := by
  simp [deleteLevel, List.filter_filter]

/-- **C14** Applying an update twice is applying it once. -/
theorem C14_update_idempotent (b : Book) (h : WellFormed b) (hd : 0 ≤ b.maxDepth)
    (hb : DepthOk b) (u : Update) (hp : u.price ≠ .nan) :
    ∃ b', (b.applyUpdate u = .ok b' ∧ b'.applyUpdate u = .ok b') ∨
      (b.applyUpdate u = .err .einvalid b' ∧ b'.applyUpdate u = .err .einvalid b') := by
  have hg : Good b := ⟨h, hd, hb⟩
  obtain ⟨b1, h1, hst⟩ := step_to hg hp
  obtain ⟨g1, g2, _⟩ := stepTo_good hg hp hst
  have ra := gRemove_idem askOrd h.asks_num hp h.askSorted
  have rb := gRemove_idem bidOrd h.bids_num hp h.bidSorted
  rw [← removeInvalidAsk_eq] at ra
  rw [← removeInvalidBid_eq] at rb
  have sa := gSet_take_idem askOrd (v := u.volume) (n := b.maxDepth.toNat) h.asks_num hp
  have sb := gSet_take_idem bidOrd (v := u.volume) (n := b.maxDepth.toNat) h.bids_num hp
  rw [← setAsk_eq] at sa
  rw [← setBid_eq] at sb
  cases hst with
  | askSet hs hv =>
    refine ⟨_, Or.inl ⟨applyUpdate_ask_set hg hs hv hp, ?_⟩⟩
    rw [applyUpdate_ask_set g1 hs hv hp]
    simp only [sa, rb]
  | askDel hs hv =>
    refine ⟨_, Or.inl ⟨applyUpdate_ask_del hg hs hv hp, ?_⟩⟩
    rw [applyUpdate_ask_del g1 hs hv hp]
    simp only [deleteLevel_idem]
  | bidSet hs hv =>
    refine ⟨_, Or.inl ⟨applyUpdate_bid_set hg hs hv hp, ?_⟩⟩
    rw [applyUpdate_bid_set g1 hs hv hp]
    simp only [sb, ra]
  | bidDel hs hv =>
    refine ⟨_, Or.inl ⟨applyUpdate_bid_del hg hs hv hp, ?_⟩⟩
    rw [applyUpdate_bid_del g1 hs hv hp]
    simp only [deleteLevel_idem]
  | other h3 h4 =>
    exact ⟨_, Or.inr ⟨applyUpdate_other h3 h4, applyUpdate_other h3 h4⟩⟩

example := C14_update_idempotent Ex.book (by decide +kernel) (by decide) (by decide +kernel)
  ⟨.fin 9, .fin 2, "ask"⟩ (by decide)

/-! ### C15 -/

/-- **C15** Two updates of one side at different prices give the same side in either order when
there is room for both. -/
theorem C15_updates_commute (b : Book) (h : WellFormed b) (hb : DepthOk b) (u w : Update)
    (hpu : u.price ≠ .nan) (hpw : w.price ≠ .nan) (hside : u.side = w.side)
    (hs : u.side = "ask" ∨ u.side = "bid") (hne : Fl.eq u.price w.price = false)
    (room : ((side b u.side).length : Int) + 2 ≤ b.maxDepth) :
    ∃ b1 b2, b.applyAll [u, w] = .ok b1 ∧ b.applyAll [w, u] = .ok b2 ∧
      side b1 u.side = side b2 u.side := by
  have hg : Good b := ⟨h, by omega, hb⟩
  have run : ∀ x y : Update, x.price ≠ .nan → y.price ≠ .nan → x.side = u.side → y.side = u.side →
      ∃ b', b.applyAll [x, y] = .ok b' ∧ Good b' ∧ ∀ r, r ∈ side b' u.side ↔
        (Fl.ne y.volume (.fin 0) = true ∧ r = ⟨y.price, y.volume, .fin 0⟩) ∨
        (((Fl.ne x.volume (.fin 0) = true ∧ r = ⟨x.price, x.volume, .fin 0⟩) ∨
          (r ∈ side b u.side ∧ Fl.eq r.price x.price = false)) ∧ Fl.eq r.price y.price = false) := by
    intro x y hx hy hxs hys
    obtain ⟨c, hc, hst⟩ := step_to hg hx
    obtain ⟨gc, hmd, _⟩ := stepTo_good hg hx hst
    obtain ⟨e, he, hst2⟩ := step_to gc hy
    obtain ⟨ge, _, _⟩ := stepTo_good gc hy hst2
    have hl := side_length_step (s := u.side) hg hst
    refine ⟨e, ?_, ge, ?_⟩
    · rcases hc with hc | ⟨_, hc⟩ <;> rcases he with he | ⟨_, he⟩ <;> simp [Book.applyAll, hc, he]
    · intro r
      rw [mem_after_own gc hy hst2 hs hys (by rw [hmd]; omega) r,
        mem_after_own hg hx hst hs hxs (by omega) r]
  obtain ⟨b1, h1, g1, m1⟩ := run u w hpu hpw rfl hside.symm
  obtain ⟨b2, h2, g2, m2⟩ := run w u hpw hpu hside.symm rfl
  refine ⟨b1, b2, h1, h2, ?_⟩
  have hne' : Fl.eq w.price u.price = false := by rw [fl_eq_comm]; exact hne
  have hmem : ∀ r, r ∈ side b1 u.side ↔ r ∈ side b2 u.side := by
    intro r
    rw [m1, m2]
    constructor
    · rintro (⟨a, rfl⟩ | ⟨(⟨a, rfl⟩ | ⟨a, c⟩), d⟩)
      · exact Or.inr ⟨Or.inl ⟨a, rfl⟩, hne'⟩
      · exact Or.inl ⟨a, rfl⟩
      · exact Or.inr ⟨Or.inr ⟨a, d⟩, c⟩
    · rintro (⟨a, rfl⟩ | ⟨(⟨a, rfl⟩ | ⟨a, c⟩), d⟩)
      · exact Or.inr ⟨Or.inl ⟨a, rfl⟩, hne⟩
      · exact Or.inl ⟨a, rfl⟩
      · exact Or.inr ⟨Or.inr ⟨a, d⟩, c⟩
  rcases hs with hs | hs
  · have e : ∀ c, side c u.side = c.asks := fun c => by simp [side, hs]
    simp only [e] at *
    exact sorted_ext askOrd g1.wf.askSorted g2.wf.askSorted g1.wf.asks_num g2.wf.asks_num hmem
  · have e : ∀ c, side c u.side = c.bids := fun c => by simp [side, hs]
    simp only [e] at *
    exact sorted_ext bidOrd g1.wf.bidSorted g2.wf.bidSorted g1.wf.bids_num g2.wf.bids_num hmem

example := C15_updates_commute { Ex.book with maxDepth := 9 } (by decide +kernel)
  (by decide +kernel) ⟨.fin 9, .fin 2, "ask"⟩ ⟨.fin 11, .fin 0, "ask"⟩ (by decide) (by decide) rfl
  (Or.inl rfl) (by decide +kernel) (by decide +kernel)

/-! ### C16 -/

/-- The full claim of C16. -/
def Spec.C16_claim : Prop :=
  ∀ (S : FloatSem) (b : Book), WellFormed b → 0 ≤ b.maxDepth → DepthOk b →
    AccumOk S b.asks → AccumOk S b.bids → ∀ us, NumUpdates us → ∀ b', b.applyAll us = .ok b' →
      AccumOk S b'.asks ∧ AccumOk S b'.bids

/-- **C16 is false of the code**: a fresh level has `AccumVolume` 0. -/
theorem C16_accum_after_updates_violated : ¬ C16_claim := by
  intro h
  have := (h FloatSem.exact { time := 0, maxDepth := 5, asks := [], bids := [] }
    (by decide +kernel) (by decide) (by decide +kernel) (by intro i hi; simp at hi)
    (by intro i hi; simp at hi) [⟨.fin 10, .fin 2, "ask"⟩] (by decide +kernel)
    { time := 0, maxDepth := 5, asks := [⟨.fin 10, .fin 2, .fin 0⟩], bids := [] }
    (by decide +kernel)).1 0 (by simp)
  revert this
  decide +kernel

/-- **C16, partial**: what the code does maintain. Every row is either an untouched row of the
initial book, `AccumVolume` included, or a written row with `AccumVolume` 0. Missing: the running
volume itself, which the code does not recompute. -/
theorem C16_accum_after_updates_partial (b : Book) (h : WellFormed b) (hd : 0 ≤ b.maxDepth)
    (hb : DepthOk b) (us : List Update) (hu : NumUpdates us) (s : String)
    (hs : s = "ask" ∨ s = "bid") :
    ∃ b', b.applyAll us = .ok b' ∧ ∀ r ∈ side b' s,
      (lastWrite s r.price us = none ∧ r ∈ side b s) ∨
      (lastWrite s r.price us = some r.volume ∧ r.accum = .fin 0) := by
  have hg : Good b := ⟨h, hd, hb⟩
  obtain ⟨b', h1, _⟩ := applyAll_good (P := fun _ => True) hu (fun _ _ _ _ _ _ _ => trivial)
    hg trivial
  refine ⟨b', h1, fun r hr => ?_⟩
  obtain ⟨k1, k2⟩ := latest_write hu hs hg h1 r hr
  cases hl : lastWrite s r.price us with
  | none => exact Or.inl ⟨rfl, k2 hl⟩
  | some v =>
    obtain ⟨a, _, c⟩ := k1 v hl
    exact Or.inr ⟨by rw [a], c⟩

example := C16_accum_after_updates_partial Ex.book (by decide +kernel) (by decide)
  (by decide +kernel) Ex.upd1 (by decide +kernel) "bid" (Or.inr rfl)

end Finmod
