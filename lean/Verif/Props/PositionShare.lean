import Verif.Props.PositionThreads

/-!
# C224, C225: one position used by several goroutines, one of which changes it
-/

namespace Go
section
variable {α R Q : Type}

/-- What a program does when nobody else runs. -/
def HProg.run : HProg α R → Heap α → R × Heap α
  | .done r, h => (r, h)
  | .get a i k, h => (k (h.cell a i)).run h
  | .put a i x k, h => k.run (h.store a i [x])
  | .alloc k, h => (k h.next).run { h with next := h.next + 1 }

theorem safe_run {view : Cells} {post : Heap α → Cells → R → Prop} : ∀ (p : HProg α R) (h : Heap α) (own : Cells),
    Safe view p h own post → ∃ own', post (p.run h).2 own' (p.run h).1
  | .done _, _, own, hs => ⟨own, hs⟩
  | .get a i k, h, _, hs => safe_run (k (h.cell a i)) h _ hs.2
  | .put a i x k, h, _, hs => safe_run k (h.store a i [x]) _ hs.2
  | .alloc k, h, _, hs => safe_run (k h.next) _ _ (hs h (Rely.refl h))

/-- One goroutine runs the first part of its program. -/
theorem threads_run {ι : Type} {R : ι → Type} [DecidableEq ι] (i : ι) : ∀ (p : HProg α Q) (f : Q → HProg α (R i))
    (s : Threads ι α R), s.prog i = p.bind f →
    Relation.ReflTransGen ThreadStep s ⟨(p.run s.heap).2, Function.update s.prog i (f (p.run s.heap).1)⟩
  | .done r, f, s, e => by
    have : Function.update s.prog i (f r) = s.prog := by rw [show f r = s.prog i from e.symm, Function.update_eq_self]
    show Relation.ReflTransGen ThreadStep s ⟨s.heap, Function.update s.prog i (f r)⟩
    rw [this]
  | .get a c k, f, s, e => by
    have h1 := ThreadStep.get s i a c (fun x => (k x).bind f) e
    have h2 := threads_run i (k (s.heap.cell a c)) f
      ⟨s.heap, Function.update s.prog i ((k (s.heap.cell a c)).bind f)⟩ (Function.update_self ..)
    simp only [Function.update_idem] at h2
    exact .head h1 h2
  | .put a c x k, f, s, e => by
    have h1 := ThreadStep.put s i a c x (k.bind f) e
    have h2 := threads_run i k f ⟨s.heap.store a c [x], Function.update s.prog i (k.bind f)⟩ (Function.update_self ..)
    simp only [Function.update_idem] at h2
    exact .head h1 h2
  | .alloc k, f, s, e => by
    have h1 := ThreadStep.alloc s i (fun n => (k n).bind f) e
    have h2 := threads_run i (k s.heap.next) f
      ⟨{ s.heap with next := s.heap.next + 1 }, Function.update s.prog i ((k s.heap.next).bind f)⟩ (Function.update_self ..)
    simp only [Function.update_idem] at h2
    exact .head h1 h2

theorem HProg.bind_assoc {T : Type} : ∀ (p : HProg α R) (f : R → HProg α Q) (g : Q → HProg α T),
    (p.bind f).bind g = p.bind fun x => (f x).bind g
  | .done _, _, _ => rfl
  | .get a i k, f, g => congrArg (HProg.get a i) (funext fun x => bind_assoc (k x) f g)
  | .put a i x k, f, g => congrArg (HProg.put a i x) (bind_assoc k f g)
  | .alloc k, f, g => congrArg HProg.alloc (funext fun x => bind_assoc (k x) f g)

/-- The memory on the way of a program that runs alone: at every moment `C` holds of it for two indices that do not fall, at
the end also `post`. -/
def Path (C : Heap α → Nat → Nat → Prop) : HProg α R → Heap α → Nat → Nat → (Heap α → Nat → Nat → R → Prop) → Prop
  | .done r, h, i, j, post => C h i j ∧ ∃ i' j', i ≤ i' ∧ j ≤ j' ∧ C h i' j' ∧ post h i' j' r
  | .get a c k, h, i, j, post => C h i j ∧ Path C (k (h.cell a c)) h i j post
  | .put a c x k, h, i, j, post => C h i j ∧ ∃ i' j', i ≤ i' ∧ j ≤ j' ∧ Path C k (h.store a c [x]) i' j' post
  | .alloc k, h, i, j, post => C h i j ∧ Path C (k h.next) { h with next := h.next + 1 } i j post

variable {C : Heap α → Nat → Nat → Prop}

theorem path_head {post : Heap α → Nat → Nat → R → Prop} : ∀ {p : HProg α R} {h : Heap α} {i j : Nat},
    Path C p h i j post → C h i j
  | .done _, _, _, _, hp => hp.1
  | .get _ _ _, _, _, _, hp => hp.1
  | .put _ _ _ _, _, _, _, hp => hp.1
  | .alloc _, _, _, _, hp => hp.1

/-- `C` says nothing about the first unused address. -/
def NextFree (C : Heap α → Nat → Nat → Prop) : Prop := ∀ h n i j, C h i j → C { h with next := n } i j

theorem path_raise (hC : NextFree C) {post : Heap α → Nat → Nat → R → Prop} : ∀ {p : HProg α R} {h : Heap α} {i j i' j' : Nat},
    C h i j → i ≤ i' → j ≤ j' → Path C p h i' j' post → Path C p h i j post
  | .done _, _, _, _, _, _, hc, hi, hj, hp => by
    obtain ⟨-, i2, j2, h1, h2, h3⟩ := hp
    exact ⟨hc, i2, j2, hi.trans h1, hj.trans h2, h3⟩
  | .get _ _ _, _, _, _, _, _, hc, hi, hj, hp => ⟨hc, path_raise hC hc hi hj hp.2⟩
  | .put _ _ _ _, _, _, _, _, _, hc, hi, hj, hp => by
    obtain ⟨-, i2, j2, h1, h2, h3⟩ := hp
    exact ⟨hc, i2, j2, hi.trans h1, hj.trans h2, h3⟩
  | .alloc _, _, _, _, _, _, hc, hi, hj, hp => ⟨hc, path_raise hC (hC _ _ _ _ hc) hi hj hp.2⟩

theorem path_bind (hC : NextFree C) {f : R → HProg α Q} {post : Heap α → Nat → Nat → Q → Prop} : ∀ {p : HProg α R} {h : Heap α} {i j : Nat},
    Path C p h i j (fun h i j r => Path C (f r) h i j post) → Path C (p.bind f) h i j post
  | .done _, _, _, _, hp => by
    obtain ⟨h0, i2, j2, h1, h2, -, h3⟩ := hp
    exact path_raise hC h0 h1 h2 h3
  | .get _ _ _, _, _, _, hp => ⟨hp.1, path_bind hC hp.2⟩
  | .put _ _ _ _, _, _, _, hp => by
    obtain ⟨h0, i2, j2, h1, h2, h3⟩ := hp
    exact ⟨h0, i2, j2, h1, h2, path_bind hC h3⟩
  | .alloc _, _, _, _, hp => ⟨hp.1, path_bind hC hp.2⟩

theorem path_mono {post post' : Heap α → Nat → Nat → R → Prop} (hi : ∀ h i j r, C h i j → post h i j r → post' h i j r) :
    ∀ {p : HProg α R} {h : Heap α} {i j : Nat}, Path C p h i j post → Path C p h i j post'
  | .done _, _, _, _, ⟨h0, i2, j2, h1, h2, h3, h4⟩ => ⟨h0, i2, j2, h1, h2, h3, hi _ _ _ _ h3 h4⟩
  | .get _ _ _, _, _, _, hp => ⟨hp.1, path_mono hi hp.2⟩
  | .put _ _ _ _, _, _, _, ⟨h0, i2, j2, h1, h2, h3⟩ => ⟨h0, i2, j2, h1, h2, path_mono hi h3⟩
  | .alloc _, _, _, _, hp => ⟨hp.1, path_mono hi hp.2⟩

/-- A program that does not write to the cells `K` that `C` is about. -/
theorem path_of_safe {view K : Cells} (hC : ∀ h h' i j, (∀ a c, K a c → h'.cell a c = h.cell a c) → C h i j → C h' i j)
    {post : Heap α → Cells → R → Prop} : ∀ {p : HProg α R} {h : Heap α} {own : Cells} {i j : Nat},
    Safe view p h own post → (∀ a c, own a c → ¬ K a c) → (∀ a c, K a c → a < h.next) → C h i j →
    Path C p h i j (fun h' i' j' r => i' = i ∧ j' = j ∧ ∃ own', post h' own' r)
  | .done _, _, own, i, j, hs, _, _, hc => ⟨hc, i, j, le_rfl, le_rfl, hc, rfl, rfl, own, hs⟩
  | .get _ _ _, _, _, _, _, hs, hk, ho, hc => ⟨hc, path_of_safe hC hs.2 hk ho hc⟩
  | .put a c x _, h, _, i, j, hs, hk, ho, hc => by
    refine ⟨hc, i, j, le_rfl, le_rfl, path_of_safe hC hs.2 hk ho (hC _ _ _ _ (fun b d hb => ?_) hc)⟩
    have : ¬ (b = a ∧ d = c) := by rintro ⟨rfl, rfl⟩; exact hk _ _ hs.1 hb
    simp only [Heap.store]
    split
    · rename_i hbd
      obtain ⟨rfl, hd⟩ := hbd
      rw [List.getElem?_eq_none (by simp only [List.length_singleton]; omega)]; rfl
    · rfl
  | .alloc _, h, _, _, _, hs, hk, ho, hc => by
    refine ⟨hc, path_of_safe hC (hs h (Rely.refl h)) ?_ (fun a c hb => Nat.lt_succ_of_lt (ho a c hb))
      (hC h _ _ _ (fun _ _ _ => rfl) hc)⟩
    rintro a c (h1 | rfl) hb
    · exact hk a c h1 hb
    · exact absurd (ho _ _ hb) (lt_irrefl _)

/-- At some moment of a program that runs alone, `C` holds of the memory. -/
def Meets (C : Heap α → Prop) : HProg α R → Heap α → Prop
  | .done _, h => C h
  | .get a c k, h => C h ∨ Meets C (k (h.cell a c)) h
  | .put a c x k, h => C h ∨ Meets C k (h.store a c [x])
  | .alloc k, h => C h ∨ Meets C (k h.next) { h with next := h.next + 1 }

theorem meets_now {C : Heap α → Prop} {h : Heap α} (hc : C h) : ∀ p : HProg α R, Meets C p h
  | .done _ => hc
  | .get _ _ _ => .inl hc
  | .put _ _ _ _ => .inl hc
  | .alloc _ => .inl hc

theorem meets_bind {C : Heap α → Prop} {f : R → HProg α Q} : ∀ {p : HProg α R} {h : Heap α}, Meets C p h → Meets C (p.bind f) h
  | .done _, _, hp => meets_now hp _
  | .get _ _ _, _, hp => hp.imp id meets_bind
  | .put _ _ _ _, _, hp => hp.imp id meets_bind
  | .alloc _, _, hp => hp.imp id meets_bind

theorem threads_meet {ι : Type} {R : ι → Type} [DecidableEq ι] {C : Heap α → Prop} (i : ι) : ∀ (p : HProg α (R i)) (s : Threads ι α R),
    s.prog i = p → Meets C p s.heap → ∃ t : Threads ι α R, Relation.ReflTransGen ThreadStep s t ∧ C t.heap ∧
      ∀ j, j ≠ i → t.prog j = s.prog j := by
  intro p
  induction p with
  | done r => exact fun s _ hm => ⟨s, .refl, hm, fun _ _ => rfl⟩
  | get a c k ih =>
    rintro s e (hm | hm)
    · exact ⟨s, .refl, hm, fun _ _ => rfl⟩
    · obtain ⟨t, h1, h2, h3⟩ := ih (s.heap.cell a c) ⟨s.heap, Function.update s.prog i (k (s.heap.cell a c))⟩ (Function.update_self ..) hm
      exact ⟨t, .head (.get s i a c k e) h1, h2, fun j hj => (h3 j hj).trans (Function.update_of_ne hj ..)⟩
  | put a c x k ih =>
    rintro s e (hm | hm)
    · exact ⟨s, .refl, hm, fun _ _ => rfl⟩
    · obtain ⟨t, h1, h2, h3⟩ := ih ⟨s.heap.store a c [x], Function.update s.prog i k⟩ (Function.update_self ..) hm
      exact ⟨t, .head (.put s i a c x k e) h1, h2, fun j hj => (h3 j hj).trans (Function.update_of_ne hj ..)⟩
  | alloc k ih =>
    rintro s e (hm | hm)
    · exact ⟨s, .refl, hm, fun _ _ => rfl⟩
    · obtain ⟨t, h1, h2, h3⟩ := ih s.heap.next ⟨{ s.heap with next := s.heap.next + 1 }, Function.update s.prog i (k s.heap.next)⟩
        (Function.update_self ..) hm
      exact ⟨t, .head (.alloc s i k e) h1, h2, fun j hj => (h3 j hj).trans (Function.update_of_ne hj ..)⟩

/-- One goroutine does a read. -/
theorem threads_get {ι : Type} {R : ι → Type} [DecidableEq ι] {s : Threads ι α R} {i : ι} {a c : Nat} {k : α → HProg α (R i)}
    (e : s.prog i = .get a c k) {x : α} (hx : s.heap.cell a c = x) : ∃ t : Threads ι α R,
      Relation.ReflTransGen ThreadStep s t ∧ t.heap = s.heap ∧ t.prog i = k x ∧ ∀ j, j ≠ i → t.prog j = s.prog j :=
  ⟨⟨s.heap, Function.update s.prog i (k (s.heap.cell a c))⟩, .single (.get s i a c k e), rfl, by
    simp only [Function.update_self, hx], fun _ hj => Function.update_of_ne hj ..⟩

/-- One goroutine does the first part of its program, which is safe when it runs alone. -/
theorem threads_part {ι : Type} {R : ι → Type} [DecidableEq ι] {s : Threads ι α R} {i : ι} {p : HProg α Q} {f : Q → HProg α (R i)}
    (e : s.prog i = p.bind f) {view own : Cells} {post : Heap α → Cells → Q → Prop} (hs : Safe view p s.heap own post) :
    ∃ (t : Threads ι α R) (own' : Cells) (r : Q), Relation.ReflTransGen ThreadStep s t ∧ post t.heap own' r ∧ t.prog i = f r ∧
      ∀ j, j ≠ i → t.prog j = s.prog j := by
  obtain ⟨own', h1⟩ := safe_run _ _ _ hs
  exact ⟨_, own', _, threads_run i p f s e, h1, Function.update_self .., fun _ hj => Function.update_of_ne hj ..⟩

end
end Go

namespace Finmod
open Go Go.Heap Spec

section
variable {h : Heap PCell} {a : Nat} {p p' : Position} {s : Slice} {S : FloatSem} {grow : Nat → Nat → Nat}
  {ty : String} {P Q : Nat → Fl}

/-- The fields that `UnrealizedProfit` reads hold type `ty`, price `P i` and quantity `Q j`; the price is at most one trade
ahead. -/
def MarkCells (a : Nat) (ty : String) (P Q : Nat → Fl) (h : Heap PCell) (i j : Nat) : Prop :=
  h.cell a fType = .str ty ∧ h.cell a fOpenPrice = .num (P i) ∧ h.cell a fQuantity = .num (Q j) ∧ i ≤ j + 1

/-- Those fields. -/
def MarkKeys (a : Nat) : Cells := fun b c => b = a ∧ (c = fType ∨ c = fOpenPrice ∨ c = fQuantity)

theorem mark_next : NextFree (MarkCells a ty P Q) := fun _ _ _ _ h => h

theorem mark_congr (h h' : Heap PCell) (i j : Nat) (e : ∀ b c, MarkKeys a b c → h'.cell b c = h.cell b c)
    (hc : MarkCells a ty P Q h i j) : MarkCells a ty P Q h' i j := by
  obtain ⟨h1, h2, h3, h4⟩ := hc
  exact ⟨(e _ _ ⟨rfl, .inl rfl⟩).trans h1, (e _ _ ⟨rfl, .inr (.inl rfl)⟩).trans h2,
    (e _ _ ⟨rfl, .inr (.inr rfl)⟩).trans h3, h4⟩

theorem held_mark (hh : Held h a p s) (ht : p.type = ty) {i j : Nat} (hp : p.openPrice = P i) (hq : p.quantity = Q j)
    (hij : i ≤ j + 1) : MarkCells a ty P Q h i j :=
  ⟨by rw [hh.cells fType _ rfl, ht], by rw [hh.cells fOpenPrice _ rfl, hp], by rw [hh.cells fQuantity _ rfl, hq], hij⟩

theorem path_getH {C : Heap PCell → Nat → Nat → Prop} {R : Type} {post : Heap PCell → Nat → Nat → R → Prop} (hh : Held h a p s)
    {f : Nat} {c : PCell} (e : (positionCells p s)[f]? = some c) {k : PCell → HProg PCell R} {i j : Nat}
    (hs : Path C (k c) h i j post) : Path C (.get a f k) h i j post :=
  ⟨path_head hs, by rw [hh.cells f c e]; exact hs⟩

theorem path_putH {C : Heap PCell → Nat → Nat → Prop} {R : Type} {post : Heap PCell → Nat → Nat → R → Prop} (hh : Held h a p s)
    (p' : Position) {f : Nat} {x : PCell} (e : positionCells p' s = (positionCells p s).set f x) (ht : p'.trades = p.trades)
    {k : HProg PCell R} {i j i' j' : Nat} (hc : C h i j) (hi : i ≤ i') (hj : j ≤ j')
    (hs : ∀ h1, Held h1 a p' s → Path C k h1 i' j' post) : Path C (.put a f x k) h i j post :=
  ⟨hc, i', j', hi, hj, hs _ (hh.put e ht)⟩

theorem path_if {C : Heap PCell → Nat → Nat → Prop} {R : Type} {post : Heap PCell → Nat → Nat → R → Prop} {c : Prop} [Decidable c]
    {k l : HProg PCell R} {i j : Nat} (h1 : c → Path C k h i j post) (h2 : ¬ c → Path C l h i j post) :
    Path C (if c then k else l) h i j post := by
  by_cases hc : c
  · rw [if_pos hc]; exact h1 hc
  · rw [if_neg hc]; exact h2 hc

theorem path_log (hh : Held h a p s) (t : Trade) {i j : Nat} (hc : MarkCells a ty P Q h i j)
    {post : Heap PCell → Nat → Nat → Unit → Prop}
    (hp : ∀ h1 s1, Held h1 a { p with trades := p.trades ++ [t.id] } s1 → MarkCells a ty P Q h1 i j →
      Path (MarkCells a ty P Q) (HProg.done () : HProg PCell Unit) h1 i j post) :
    Path (MarkCells a ty P Q) (logP grow a t) h i j post := by
  refine path_getH hh (f := fTrades) rfl (path_bind mark_next ?_)
  have hs : Safe (FieldsOf a) (HProg.append grow s [PCell.str t.id]) h s.Owns (fun h1 _ s1 =>
      ∃ h0 : Heap PCell, Held h0 a p s ∧ (h1, s1) = h0.append grow s [PCell.str t.id]) :=
    safe_append grow hh.wf.1 (fun _ _ ho => ho) _ (by
      rintro b c (⟨rfl, h1, h2⟩ | hb)
      · exact hh.wf.2 (by omega)
      · exact hb.1 ▸ hh.addr) fun h0 own' hr _ _ _ => ⟨h0, hh.rely hr (fun i hi => .inr ⟨rfl, hi⟩) (fun _ _ => .inl), rfl⟩
  refine path_mono ?_ (path_of_safe (K := MarkKeys a) mark_congr hs ?_ ?_ hc)
  · rintro h1 i1 j1 s1 hc1 ⟨rfl, rfl, own', h0, hh0, e⟩
    obtain rfl : h1 = (h0.append grow s [PCell.str t.id]).1 := congrArg Prod.fst e
    obtain rfl : s1 = (h0.append grow s [PCell.str t.id]).2 := congrArg Prod.snd e
    have hl := held_log (grow := grow) hh0 t
    have hc2 : MarkCells a ty P Q ((h0.append grow s [PCell.str t.id]).1.store a fTrades
        [.log (h0.append grow s [PCell.str t.id]).2]) i1 j1 := by
      refine mark_congr _ _ _ _ (fun b c hk => ?_) hc1
      rw [store_cell, if_neg]
      rintro ⟨-, rfl⟩
      rcases hk.2 with h | h | h <;> exact absurd h (by decide)
    exact ⟨hc1, i1, j1, le_rfl, le_rfl, hp _ _ hl hc2⟩
  · rintro b c ho ⟨rfl, -⟩; exact hh.apart c ho
  · rintro b c ⟨rfl, -⟩; exact hh.addr

/-- One call of `Modify` by the only goroutine that writes. -/
theorem path_modify (hh : Held h a p s) (t : Trade) (ht : p.type = ty) {k : Nat} (hP : p.openPrice = P k) (hQ : p.quantity = Q k)
    (hP' : (modified S p t).openPrice = P (k + 1)) (hQ' : (modified S p t).quantity = Q (k + 1)) :
    Path (MarkCells a ty P Q) (modifyP S grow a t) h k k (fun h' i j e => e = errorOf (modify S p t) ∧ i = k + 1 ∧
      j = k + 1 ∧ ∃ s', Held h' a (modified S p t) s') := by
  have c0 := held_mark (P := P) (Q := Q) hh ht hP hQ (Nat.le_succ k)
  -- the end of a call
  have fin : ∀ {R : Type} {h1 : Heap PCell} {s1 : Slice} {i j : Nat} (r : R), i ≤ k + 1 → j ≤ k + 1 → MarkCells a ty P Q h1 i j →
      (modified S p t).type = ty → Held h1 a (modified S p t) s1 →
      Path (MarkCells a ty P Q) (HProg.done r) h1 i j (fun h' i j _ => i = k + 1 ∧ j = k + 1 ∧
        ∃ s', Held h' a (modified S p t) s') := by
    intro R h1 s1 i j r hi hj hc hty hh1
    exact ⟨hc, k + 1, k + 1, hi, hj, held_mark hh1 hty hP' hQ' (Nat.le_succ _), rfl, rfl, s1, hh1⟩
  have last : ∀ (pr : HProg PCell Unit), errorOf (modify S p t) = none →
      Path (MarkCells a ty P Q) pr h k k (fun h' i j _ => i = k + 1 ∧ j = k + 1 ∧ ∃ s', Held h' a (modified S p t) s') →
      Path (MarkCells a ty P Q) (pr.bind fun _ => (.done none : HProg PCell (Option ErrCode))) h k k
        (fun h' i j e => e = errorOf (modify S p t) ∧ i = k + 1 ∧ j = k + 1 ∧ ∃ s', Held h' a (modified S p t) s') := by
    intro pr hn hpr
    refine path_bind mark_next (path_mono ?_ hpr)
    rintro h1 i j - hc ⟨rfl, rfl, s1, hh1⟩
    exact ⟨hc, _, _, le_rfl, le_rfl, hc, hn.symm, rfl, rfl, s1, hh1⟩
  have add : modified S p t = posAdd S p t → Path (MarkCells a ty P Q) (addP S grow a t) h k k
      (fun h' i j _ => i = k + 1 ∧ j = k + 1 ∧ ∃ s', Held h' a (modified S p t) s') := by
    intro em
    refine path_getH hh (f := fQuantity) rfl (path_getH hh (f := fOpenPrice) rfl (path_getH hh (f := fQuantity) rfl ?_))
    refine path_putH hh { p with openPrice := (posAdd S p t).openPrice } rfl rfl c0 (Nat.le_succ k) le_rfl fun h1 hh1 => ?_
    refine path_putH hh1 { p with openPrice := (posAdd S p t).openPrice, quantity := (posAdd S p t).quantity } rfl rfl
      (held_mark hh1 ht (em ▸ hP') hQ le_rfl) le_rfl (Nat.le_succ k) fun h2 hh2 => ?_
    refine path_log hh2 t (held_mark hh2 ht (em ▸ hP') (em ▸ hQ') (Nat.le_succ _)) fun h3 s3 hh3 hc3 => ?_
    exact fin (s1 := s3) () le_rfl le_rfl hc3 (by rw [em]; exact ht) (by rw [em]; exact hh3)
  have sub : modified S p t = posSubstract' S p t → Path (MarkCells a ty P Q) (substractP S grow a t) h k k
      (fun h' i j _ => i = k + 1 ∧ j = k + 1 ∧ ∃ s', Held h' a (modified S p t) s') := by
    intro em
    refine path_getH hh (f := fQuantity) rfl ?_
    unfold posSubstract' posSubstract at em
    simp only at em
    refine path_if (fun hc => ?_) fun hc => ?_ <;> simp only [PCell.asNum] at hc
    · rw [if_pos hc] at em
      exact fin (s1 := s) () (Nat.le_succ k) (Nat.le_succ k) c0 (by rw [em]; exact ht) (by rw [em]; exact hh)
    rw [if_neg hc] at em
    refine path_if (fun hc2 => ?_) fun hc2 => ?_ <;> simp only [PCell.asNum] at hc2
    · rw [if_pos hc2] at em
      have cl : ∀ {h1 : Heap PCell} {p1 : Position}, Held h1 a p1 s → p1.type = p.type → p1.openPrice = p.openPrice →
          p1.quantity = p.quantity → MarkCells a ty P Q h1 k k := fun hh1 e1 e2 e3 =>
        held_mark hh1 (e1.trans ht) (e2.trans hP) (e3.trans hQ) (Nat.le_succ k)
      refine path_putH hh { p with closePrice := t.price } rfl rfl c0 le_rfl le_rfl fun h1 hh1 => ?_
      refine path_getH hh1 (f := fType) rfl (path_if (fun hl => ?_) fun hl => ?_) <;> simp only [PCell.asStr] at hl
      · simp only [if_pos hl] at em
        refine path_getH hh1 (f := fClosePrice) rfl (path_getH hh1 (f := fOpenPrice) rfl (path_getH hh1 (f := fQuantity) rfl ?_))
        refine path_putH hh1 { p with closePrice := t.price, profit := S.mul (S.sub t.price p.openPrice) p.quantity }
          rfl rfl (cl hh1 rfl rfl rfl) le_rfl le_rfl fun h2 hh2 => ?_
        refine path_putH hh2 { p with closePrice := t.price, profit := S.mul (S.sub t.price p.openPrice) p.quantity, opened := false }
          rfl rfl (cl hh2 rfl rfl rfl) le_rfl le_rfl fun h3 hh3 => ?_
        refine path_putH hh3 { p with closePrice := t.price, profit := S.mul (S.sub t.price p.openPrice) p.quantity, opened := false, closeTime := t.executionTime }
          rfl rfl (cl hh3 rfl rfl rfl) le_rfl le_rfl fun h4 hh4 => ?_
        refine path_log hh4 t (cl hh4 rfl rfl rfl) fun h5 s5 hh5 hc5 => ?_
        exact fin (s1 := s5) () (Nat.le_succ k) (Nat.le_succ k) hc5 (by rw [em]; exact ht) (by rw [em]; exact hh5)
      · simp only [if_neg hl] at em
        refine path_getH hh1 (f := fOpenPrice) rfl (path_getH hh1 (f := fClosePrice) rfl (path_getH hh1 (f := fQuantity) rfl ?_))
        refine path_putH hh1 { p with closePrice := t.price, profit := S.mul (S.sub p.openPrice t.price) p.quantity }
          rfl rfl (cl hh1 rfl rfl rfl) le_rfl le_rfl fun h2 hh2 => ?_
        refine path_putH hh2 { p with closePrice := t.price, profit := S.mul (S.sub p.openPrice t.price) p.quantity, opened := false }
          rfl rfl (cl hh2 rfl rfl rfl) le_rfl le_rfl fun h3 hh3 => ?_
        refine path_putH hh3 { p with closePrice := t.price, profit := S.mul (S.sub p.openPrice t.price) p.quantity, opened := false, closeTime := t.executionTime }
          rfl rfl (cl hh3 rfl rfl rfl) le_rfl le_rfl fun h4 hh4 => ?_
        refine path_log hh4 t (cl hh4 rfl rfl rfl) fun h5 s5 hh5 hc5 => ?_
        exact fin (s1 := s5) () (Nat.le_succ k) (Nat.le_succ k) hc5 (by rw [em]; exact ht) (by rw [em]; exact hh5)
    · rw [if_neg hc2] at em
      refine path_getH hh (f := fOpenPrice) rfl (path_getH hh (f := fQuantity) rfl (path_getH hh (f := fQuantity) rfl ?_))
      refine path_putH hh { p with openPrice := S.div (S.mul (S.sub p.openPrice
        (S.mul t.price (S.div t.quantity p.quantity))) p.quantity) (S.sub p.quantity t.quantity) } rfl rfl c0 (Nat.le_succ k) le_rfl fun h1 hh1 => ?_
      refine path_putH hh1 { p with openPrice := S.div (S.mul (S.sub p.openPrice
        (S.mul t.price (S.div t.quantity p.quantity))) p.quantity) (S.sub p.quantity t.quantity), quantity := S.sub p.quantity t.quantity }
        rfl rfl (held_mark hh1 ht (by rw [em] at hP'; exact hP') hQ le_rfl) le_rfl (Nat.le_succ k) fun h2 hh2 => ?_
      refine path_log hh2 t (held_mark hh2 ht (by rw [em] at hP'; exact hP') (by rw [em] at hQ'; exact hQ') (Nat.le_succ _)) fun h3 s3 hh3 hc3 => ?_
      exact fin (s1 := s3) () le_rfl le_rfl hc3 (by rw [em]; exact ht) (by rw [em]; exact hh3)
  refine path_getH hh (f := fPair) rfl (path_if (fun c1 => ?_) fun c1 => ?_) <;> simp only [PCell.asPair] at c1
  · have em : modified S p t = p := by unfold modified modify; rw [if_pos c1]
    obtain ⟨f1, i2, j2, f2, f3, f4, f5⟩ := fin (s1 := s) () (Nat.le_succ k) (Nat.le_succ k) c0 (by rw [em]; exact ht) (by rw [em]; exact hh)
    exact ⟨f1, i2, j2, f2, f3, f4, by unfold modify; rw [if_pos c1]; rfl, f5⟩
  refine path_getH hh (f := fType) rfl (path_if (fun c2 => ?_) fun c2 => ?_) <;> simp only [PCell.asStr] at c2
  · exact last _ (by unfold modify; rw [if_neg c1, if_pos c2]; rfl) (add (by unfold modified modify; rw [if_neg c1, if_pos c2]))
  refine path_getH hh (f := fType) rfl (path_if (fun c3 => ?_) fun c3 => ?_) <;> simp only [PCell.asStr] at c3
  · exact last _ (by unfold modify; rw [if_neg c1, if_neg c2, if_pos c3]; rfl) (sub (by unfold modified modify; rw [if_neg c1, if_neg c2, if_pos c3]))
  refine path_getH hh (f := fType) rfl (path_if (fun c4 => ?_) fun c4 => ?_) <;> simp only [PCell.asStr] at c4
  · exact last _ (by unfold modify; rw [if_neg c1, if_neg c2, if_neg c3, if_pos c4]; rfl) (sub (by unfold modified modify; rw [if_neg c1, if_neg c2, if_neg c3, if_pos c4]))
  refine path_getH hh (f := fType) rfl (path_if (fun c5 => ?_) fun c5 => ?_) <;> simp only [PCell.asStr] at c5
  · exact last _ (by unfold modify; rw [if_neg c1, if_neg c2, if_neg c3, if_neg c4, if_pos c5]; rfl) (add (by unfold modified modify; rw [if_neg c1, if_neg c2, if_neg c3, if_neg c4, if_pos c5]))
  · have em : modified S p t = p := by
      unfold modified modify; rw [if_neg c1, if_neg c2, if_neg c3, if_neg c4, if_neg c5]
    obtain ⟨f1, i2, j2, f2, f3, f4, f5⟩ := fin (s1 := s) () (Nat.le_succ k) (Nat.le_succ k) c0 (by rw [em]; exact ht) (by rw [em]; exact hh)
    exact ⟨f1, i2, j2, f2, f3, f4, by unfold modify; rw [if_neg c1, if_neg c2, if_neg c3, if_neg c4, if_neg c5]; rfl, f5⟩

theorem modified_type (S : FloatSem) (p : Position) (t : Trade) : (modified S p t).type = p.type := by
  unfold modified modify posSubstract' posSubstract posAdd
  simp only
  split_ifs <;> rfl

/-- A history of `Modify` calls, `P` and `Q` being the open price and quantity after each. -/
theorem path_modifyAll : ∀ (ts : List Trade) {h : Heap PCell} {p : Position} {s : Slice} {k : Nat}, Held h a p s → p.type = ty →
    (∀ n, (modifiedAll S p (ts.take n)).openPrice = P (k + n)) → (∀ n, (modifiedAll S p (ts.take n)).quantity = Q (k + n)) →
    Path (MarkCells a ty P Q) (modifyAllP S grow a ts) h k k (fun h' _ _ es => es = errorsOf S p ts ∧ ∃ s', Held h' a (modifiedAll S p ts) s')
  | [], h, p, s, k, hh, ht, hP, hQ => by
    have hc := held_mark (P := P) (Q := Q) hh ht (hP 0) (hQ 0) (Nat.le_succ k)
    exact ⟨hc, k, k, le_rfl, le_rfl, hc, rfl, s, hh⟩
  | t :: ts, h, p, s, k, hh, ht, hP, hQ => by
    have e1 : ∀ n, modifiedAll S (modified S p t) (ts.take n) = modifiedAll S p ((t :: ts).take (n + 1)) := fun n => rfl
    refine path_bind mark_next (path_mono ?_ (path_modify hh t ht (hP 0) (hQ 0) (hP 1) (hQ 1)))
    rintro h1 i j e hc ⟨rfl, rfl, rfl, s1, hh1⟩
    refine path_bind mark_next (path_mono ?_ (path_modifyAll ts hh1 ((modified_type S p t).trans ht)
      (fun n => by rw [e1, hP]; congr 1; omega) (fun n => by rw [e1, hQ]; congr 1; omega)))
    rintro h2 i j es hc2 ⟨rfl, hh2⟩
    exact ⟨hc2, i, j, le_rfl, le_rfl, hc2, rfl, hh2⟩

/-! ## Readers beside one writer -/

/-- What `UnrealizedProfit` computes from an open price and a quantity. -/
def markOf (S : FloatSem) (ty : String) (price x y : Fl) : Fl :=
  if ty = longPosition then S.mul (S.sub price x) y else S.mul (S.sub x price) y

/-- How far a reader has got: the price it has read (if so) is at most `i`. -/
def Reading (S : FloatSem) (a : Nat) (ty : String) (P Q : Nat → Fl) (price : Fl) (i : Nat) (pr : HProg PCell PosAnswer) : Prop :=
  pr = (unrealizedProfitP S a price).bind (fun x => .done (.mark x)) ∨
  pr = .get a fOpenPrice (fun o => .get a fQuantity fun q => .done (.mark (markOf S ty price o.asNum q.asNum))) ∨
  (∃ m, m ≤ i ∧ pr = .get a fQuantity fun q => .done (.mark (markOf S ty price (P m) q.asNum))) ∨
  ∃ m n, m ≤ n + 1 ∧ pr = .done (.mark (markOf S ty price (P m) (Q n)))

theorem reading_raise {price : Fl} {i i' : Nat} (hi : i ≤ i') {pr : HProg PCell PosAnswer} (h : Reading S a ty P Q price i pr) :
    Reading S a ty P Q price i' pr := by
  rcases h with h | h | ⟨m, hm, h⟩ | h
  · exact .inl h
  · exact .inr (.inl h)
  · exact .inr (.inr (.inl ⟨m, hm.trans hi, h⟩))
  · exact .inr (.inr (.inr h))

theorem bind_pos {α R T : Type} {c : Prop} [Decidable c] (hc : c) {k l : HProg α R} {f : R → HProg α T} :
    (if c then k else l).bind f = k.bind f := by rw [if_pos hc]

theorem bind_neg {α R T : Type} {c : Prop} [Decidable c] (hc : ¬ c) {k l : HProg α R} {f : R → HProg α T} :
    (if c then k else l).bind f = l.bind f := by rw [if_neg hc]

theorem reading_get {price : Fl} {i j : Nat} {b c : Nat} {k : PCell → HProg PCell PosAnswer}
    (hr : Reading S a ty P Q price i (.get b c k)) (hc : MarkCells a ty P Q h i j) :
    Reading S a ty P Q price i (k (h.cell b c)) := by
  rcases hr with e | e | ⟨m, hm, e⟩ | ⟨m, n, hm, e⟩
  · injection e with e1 e2 e3
    subst e1 e2 e3
    rw [hc.1]
    refine .inr (.inl ?_)
    by_cases hl : ty = longPosition
    · simp only [markOf, if_pos hl]; exact bind_pos hl
    · simp only [markOf, if_neg hl]; exact bind_neg hl
  · injection e with e1 e2 e3
    subst e1 e2 e3
    rw [hc.2.1]
    exact .inr (.inr (.inl ⟨i, le_rfl, rfl⟩))
  · injection e with e1 e2 e3
    subst e1 e2 e3
    rw [hc.2.2.1]
    exact .inr (.inr (.inr ⟨m, j, hm.trans hc.2.2.2, rfl⟩))
  · cases e

theorem reading_no_put {price : Fl} {i : Nat} {b c : Nat} {x : PCell} {k : HProg PCell PosAnswer} :
    ¬ Reading S a ty P Q price i (.put b c x k) := by
  rintro (e | e | ⟨m, hm, e⟩ | ⟨m, n, hm, e⟩) <;> cases e

theorem reading_no_alloc {price : Fl} {i : Nat} {k : Nat → HProg PCell PosAnswer} :
    ¬ Reading S a ty P Q price i (.alloc k) := by
  rintro (e | e | ⟨m, hm, e⟩ | ⟨m, n, hm, e⟩) <;> cases e

/-- The state of a writer with readers. -/
def Shared {ι : Type} (S : FloatSem) (a : Nat) (ty : String) (P Q : Nat → Fl) (w : ι) (price : ι → Fl)
    (post : Heap PCell → Nat → Nat → PosAnswer → Prop) (t : Threads ι PCell fun _ => PosAnswer) : Prop :=
  ∃ i j, Path (MarkCells a ty P Q) (t.prog w) t.heap i j post ∧ ∀ r, r ≠ w → Reading S a ty P Q (price r) i (t.prog r)

theorem shared_step {ι : Type} [DecidableEq ι] {w : ι} {price : ι → Fl} {post : Heap PCell → Nat → Nat → PosAnswer → Prop}
    {t u : Threads ι PCell fun _ => PosAnswer} (hs : Shared S a ty P Q w price post t) (st : ThreadStep t u) :
    Shared S a ty P Q w price post u := by
  obtain ⟨i, j, hw, hr⟩ := hs
  cases st with
  | get r b c k e =>
    by_cases hrw : r = w
    · subst hrw
      rw [e] at hw
      refine ⟨i, j, ?_, fun q hq => ?_⟩
      · simp only [Function.update_self]; exact hw.2
      · simp only [Function.update_of_ne hq]; exact hr q hq
    · refine ⟨i, j, ?_, fun q hq => ?_⟩
      · simp only [Function.update_of_ne (Ne.symm hrw)]; exact hw
      · by_cases hqr : q = r
        · subst hqr
          have := hr q hq
          rw [e] at this
          simp only [Function.update_self]
          exact reading_get this (path_head hw)
        · simp only [Function.update_of_ne hqr]; exact hr q hq
  | put r b c x k e =>
    by_cases hrw : r = w
    · subst hrw
      rw [e] at hw
      obtain ⟨-, i', j', hi, hj, hw⟩ := hw
      refine ⟨i', j', ?_, fun q hq => ?_⟩
      · simp only [Function.update_self]; exact hw
      · simp only [Function.update_of_ne hq]; exact reading_raise hi (hr q hq)
    · have := hr r hrw
      rw [e] at this
      exact absurd this reading_no_put
  | alloc r k e =>
    by_cases hrw : r = w
    · subst hrw
      rw [e] at hw
      refine ⟨i, j, ?_, fun q hq => ?_⟩
      · simp only [Function.update_self]; exact hw.2
      · simp only [Function.update_of_ne hq]; exact hr q hq
    · have := hr r hrw
      rw [e] at this
      exact absurd this reading_no_alloc

end

section
variable {h : Heap PCell} {a : Nat} {p : Position} {s : Slice} {S : FloatSem} {grow : Nat → Nat → Nat}

theorem meets_getH {C : Heap PCell → Prop} {R : Type} (hh : Held h a p s) {f : Nat} {c : PCell}
    (e : (positionCells p s)[f]? = some c) {k : PCell → HProg PCell R} (hs : Meets C (k c) h) : Meets C (.get a f k) h :=
  .inr (by rw [hh.cells f c e]; exact hs)

theorem meets_if {C : Heap PCell → Prop} {R : Type} {c : Prop} [Decidable c] {k l : HProg PCell R}
    (h1 : c → Meets C k h) (h2 : ¬ c → Meets C l h) : Meets C (if c then k else l) h := by
  by_cases hc : c
  · rw [if_pos hc]; exact h1 hc
  · rw [if_neg hc]; exact h2 hc

/-- The three fields that `UnrealizedProfit` reads. -/
def MarkIs (a : Nat) (ty : String) (x y : Fl) (h : Heap PCell) : Prop :=
  h.cell a fType = .str ty ∧ h.cell a fOpenPrice = .num x ∧ h.cell a fQuantity = .num y

theorem held_is (hh : Held h a p s) : MarkIs a p.type p.openPrice p.quantity h :=
  ⟨hh.cells fType _ rfl, hh.cells fOpenPrice _ rfl, hh.cells fQuantity _ rfl⟩

/-- During a call of `Modify` there is a moment with the new price and the old quantity. -/
theorem meets_modify (hh : Held h a p s) (t : Trade) :
    Meets (MarkIs a p.type (modified S p t).openPrice p.quantity) (modifyP S grow a t) h := by
  by_cases same : (modified S p t).openPrice = p.openPrice
  · exact meets_now (same ▸ held_is hh) _
  have put : ∀ {x : Fl} {k : HProg PCell Unit}, x = (modified S p t).openPrice →
      Meets (MarkIs a p.type (modified S p t).openPrice p.quantity) (.put a fOpenPrice (.num x) k) h := by
    intro x k e
    have h1 : Held (h.store a fOpenPrice [.num x]) a { p with openPrice := x } s := hh.put rfl rfl
    exact .inr (meets_now (e ▸ held_is h1) _)
  have add : modified S p t = posAdd S p t → Meets (MarkIs a p.type (modified S p t).openPrice p.quantity) (addP S grow a t) h := by
    intro em
    refine meets_getH hh (f := fQuantity) rfl (meets_getH hh (f := fOpenPrice) rfl (meets_getH hh (f := fQuantity) rfl (put ?_)))
    rw [em]; rfl
  have sub : modified S p t = posSubstract' S p t →
      Meets (MarkIs a p.type (modified S p t).openPrice p.quantity) (substractP S grow a t) h := by
    intro em
    refine meets_getH hh (f := fQuantity) rfl ?_
    unfold posSubstract' posSubstract at em
    simp only at em
    refine meets_if (fun hc => ?_) fun hc => ?_ <;> simp only [PCell.asNum] at hc
    · rw [if_pos hc] at em; exact absurd (by rw [em]) same
    rw [if_neg hc] at em
    refine meets_if (fun hc2 => ?_) fun hc2 => ?_ <;> simp only [PCell.asNum] at hc2
    · rw [if_pos hc2] at em; exact absurd (by rw [em]) same
    rw [if_neg hc2] at em
    refine meets_getH hh (f := fOpenPrice) rfl (meets_getH hh (f := fQuantity) rfl (meets_getH hh (f := fQuantity) rfl (put ?_)))
    rw [em]; rfl
  refine meets_getH hh (f := fPair) rfl (meets_if (fun c1 => ?_) fun c1 => ?_) <;> simp only [PCell.asPair] at c1
  · exact absurd (by unfold modified modify; rw [if_pos c1]) same
  refine meets_getH hh (f := fType) rfl (meets_if (fun c2 => ?_) fun c2 => ?_) <;> simp only [PCell.asStr] at c2
  · exact meets_bind (add (by unfold modified modify; rw [if_neg c1, if_pos c2]))
  refine meets_getH hh (f := fType) rfl (meets_if (fun c3 => ?_) fun c3 => ?_) <;> simp only [PCell.asStr] at c3
  · exact meets_bind (sub (by unfold modified modify; rw [if_neg c1, if_neg c2, if_pos c3]))
  refine meets_getH hh (f := fType) rfl (meets_if (fun c4 => ?_) fun c4 => ?_) <;> simp only [PCell.asStr] at c4
  · exact meets_bind (sub (by unfold modified modify; rw [if_neg c1, if_neg c2, if_neg c3, if_pos c4]))
  refine meets_getH hh (f := fType) rfl (meets_if (fun c5 => ?_) fun c5 => ?_) <;> simp only [PCell.asStr] at c5
  · exact meets_bind (add (by unfold modified modify; rw [if_neg c1, if_neg c2, if_neg c3, if_neg c4, if_pos c5]))
  · exact absurd (by unfold modified modify; rw [if_neg c1, if_neg c2, if_neg c3, if_neg c4, if_neg c5]) same

/-- All memory in use belongs to one goroutine. -/
theorem held_alone (hh : Held h a p s) : PosHas (fun _ _ => False) h (fun b _ => b < h.next) a p s :=
  ⟨hh, fun _ _ => hh.addr, fun b c ho => (by obtain ⟨rfl, h1, h2⟩ := ho; exact hh.wf.2 (by omega)), fun _ _ hb => hb.elim id False.elim⟩

theorem modifyAllP_append (xs ys : List Trade) : modifyAllP S grow a (xs ++ ys) =
    (modifyAllP S grow a xs).bind fun es => (modifyAllP S grow a ys).bind fun fs => .done (es ++ fs) := by
  induction xs with
  | nil =>
    show modifyAllP S grow a ys = (modifyAllP S grow a ys).bind fun fs => .done fs
    generalize modifyAllP S grow a ys = q
    induction q with
    | done r => rfl
    | get a c k ih => exact congrArg (HProg.get a c) (funext ih)
    | put a c x k ih => exact congrArg (HProg.put a c x) ih
    | alloc k ih => exact congrArg HProg.alloc (funext ih)
  | cons t xs ih =>
    show (modifyP S grow a t).bind (fun e => (modifyAllP S grow a (xs ++ ys)).bind fun es => .done (e :: es)) = _
    rw [ih]
    show _ = ((modifyP S grow a t).bind fun e => (modifyAllP S grow a xs).bind fun es => .done (e :: es)).bind _
    simp only [HProg.bind_assoc]
    rfl

end

/-- One goroutine `w` gives trades to the position at `a`, all others compute its unrealized profit, each at a price of its
own, without any locks. -/
def Spec.oneWriter {ι : Type} [DecidableEq ι] (a : Nat) (w : ι) (ts : List Trade) (price : ι → Fl) (i : ι) : PosTask :=
  if i = w then .modify a ts else .mark a (price i)

/-- The position after the first `n` of the trades. -/
def Spec.after (S : FloatSem) (p : Position) (ts : List Trade) (n : Nat) : Position := modifiedAll S p (ts.take n)

section
variable {ι : Type} [DecidableEq ι] {S : FloatSem} {grow : Nat → Nat → Nat} {F : Fmt} {h : Heap PCell} {a : Nat} {p : Position}
  {s : Slice}

theorem shared_start (hh : Held h a p s) (w : ι) (ts : List Trade) (price : ι → Fl) :
    Shared S a p.type (fun n => (after S p ts n).openPrice) (fun n => (after S p ts n).quantity) w price
      (fun h' _ _ r => r = .modify (errorsOf S p ts) ∧ ∃ s', Held h' a (modifiedAll S p ts) s')
      ⟨h, fun i => (oneWriter a w ts price i).prog S grow F⟩ := by
  refine ⟨0, 0, ?_, fun r hr => .inl ?_⟩
  · simp only [oneWriter, if_true]
    refine path_bind mark_next (path_mono ?_ (path_modifyAll (S := S) (grow := grow) ts hh rfl (fun n => by rw [Nat.zero_add]; rfl)
      (fun n => by rw [Nat.zero_add]; rfl)))
    rintro h1 i j es hc ⟨rfl, hh1⟩
    exact ⟨hc, i, j, le_rfl, le_rfl, hc, rfl, hh1⟩
  · simp only [oneWriter, if_neg hr]; rfl

theorem shared_run (hh : Held h a p s) (w : ι) (ts : List Trade) (price : ι → Fl) {t : Threads ι PCell (fun _ => PosAnswer)}
    (run : Relation.ReflTransGen ThreadStep ⟨h, fun i => (oneWriter a w ts price i).prog S grow F⟩ t) :
    Shared S a p.type (fun n => (after S p ts n).openPrice) (fun n => (after S p ts n).quantity) w price
      (fun h' _ _ r => r = .modify (errorsOf S p ts) ∧ ∃ s', Held h' a (modifiedAll S p ts) s') t := by
  induction run with
  | refl => exact shared_start hh w ts price
  | tail _ st ih => exact shared_step ih st

/-- **C224.** While one goroutine trades on a position, others that compute its unrealized profit can get a value that belongs to
no state of the position, but always one made of the open price after some number `m` of trades and the quantity after some
number `n`, where the price is at most one trade ahead. -/
theorem C224_marks (hh : Held h a p s) (w : ι) (ts : List Trade) (price : ι → Fl) {t : Threads ι PCell (fun _ => PosAnswer)}
    (run : Relation.ReflTransGen ThreadStep ⟨h, fun i => (oneWriter a w ts price i).prog S grow F⟩ t) {i : ι} (hi : i ≠ w)
    {r : PosAnswer} (done : t.prog i = .done r) : ∃ m n, m ≤ n + 1 ∧
      r = .mark (unrealizedProfit S { p with openPrice := (after S p ts m).openPrice, quantity := (after S p ts n).quantity }
        (price i)) := by
  obtain ⟨i', j', -, hr⟩ := shared_run (S := S) (grow := grow) (F := F) hh w ts price run
  have := hr i hi
  rw [done] at this
  rcases this with e | e | ⟨m, hm, e⟩ | ⟨m, n, hm, e⟩
  · cases e
  · cases e
  · cases e
  · injection e with e
    exact ⟨m, n, hm, e⟩

/-- **C224.** The goroutine that trades is not disturbed by them: once done, its position and its errors are those it gets alone. -/
theorem C224_writer (hh : Held h a p s) (w : ι) (ts : List Trade) (price : ι → Fl) {t : Threads ι PCell (fun _ => PosAnswer)}
    (run : Relation.ReflTransGen ThreadStep ⟨h, fun i => (oneWriter a w ts price i).prog S grow F⟩ t)
    {r : PosAnswer} (done : t.prog w = .done r) :
    r = .modify (errorsOf S p ts) ∧ ∃ s', Held t.heap a (modifiedAll S p ts) s' := by
  obtain ⟨i', j', hw, -⟩ := shared_run (S := S) (grow := grow) (F := F) hh w ts price run
  rw [done] at hw
  obtain ⟨-, _, _, -, -, -, h1⟩ := hw
  exact h1

/-- The goroutine that trades gives the first of its trades. -/
theorem writer_goes {u : Threads ι PCell fun _ => PosAnswer} {w : ι} {q : Position} {xs ys : List Trade}
    {g : List (Option ErrCode) → HProg PCell PosAnswer} (e : u.prog w = (modifyAllP S grow a (xs ++ ys)).bind g) (hh : Held u.heap a q s) :
    ∃ (t : Threads ι PCell fun _ => PosAnswer) (s' : Slice) (g' : _ → HProg PCell PosAnswer), Relation.ReflTransGen ThreadStep u t ∧
      Held t.heap a (modifiedAll S q xs) s' ∧ t.prog w = (modifyAllP S grow a ys).bind g' ∧ ∀ j, j ≠ w → t.prog j = u.prog j := by
  rw [modifyAllP_append, HProg.bind_assoc] at e
  obtain ⟨t, own, es, h1, ⟨s', h2⟩, h3, h4⟩ := threads_part e (safe_modifyAll (S := S) (grow := grow) xs (held_alone hh)
    (post := fun h1 _ _ => ∃ s', Held h1 a (modifiedAll S q xs) s') fun _ _ s1 hh1 => ⟨s1, hh1.held⟩)
  exact ⟨t, s', _, h1, h2, h3.trans (HProg.bind_assoc ..), h4⟩

theorem reader_type {u : Threads ι PCell fun _ => PosAnswer} {r : ι} {price : Fl} {ty : String}
    (e : u.prog r = (unrealizedProfitP S a price).bind fun x => .done (.mark x)) (hc : u.heap.cell a fType = .str ty) :
    ∃ t : Threads ι PCell fun _ => PosAnswer, Relation.ReflTransGen ThreadStep u t ∧ t.heap = u.heap ∧
      t.prog r = .get a fOpenPrice (fun o => .get a fQuantity fun q => .done (.mark (markOf S ty price o.asNum q.asNum))) ∧
      ∀ j, j ≠ r → t.prog j = u.prog j := by
  obtain ⟨t, h1, h2, h3, h4⟩ := threads_get e hc
  refine ⟨t, h1, h2, h3.trans ?_, h4⟩
  by_cases hl : ty = longPosition
  · simp only [markOf, if_pos hl]; exact bind_pos hl
  · simp only [markOf, if_neg hl]; exact bind_neg hl

theorem modifiedAll_type (S : FloatSem) (ts : List Trade) : ∀ p : Position, (modifiedAll S p ts).type = p.type := by
  induction ts with
  | nil => exact fun _ => rfl
  | cons t ts ih => exact fun p => (ih (modified S p t)).trans (modified_type S p t)

/-- **C224.** And every such value can be got: for all `m` and `n` with `m ≤ n + 1` there is an interleaving. -/
theorem C224_reached (hh : Held h a p s) {w r : ι} (hr : r ≠ w) (ts : List Trade) (price : ι → Fl) {m n : Nat} (hmn : m ≤ n + 1) :
    ∃ t, Relation.ReflTransGen ThreadStep ⟨h, fun i => (oneWriter a w ts price i).prog S grow F⟩ t ∧
      t.prog r = .done (.mark (unrealizedProfit S
        { p with openPrice := (after S p ts m).openPrice, quantity := (after S p ts n).quantity } (price r))) := by
  have ew : (⟨h, fun i => (oneWriter a w ts price i).prog S grow F⟩ : Threads ι PCell fun _ => PosAnswer).prog w =
      (modifyAllP S grow a ts).bind fun es => .done (.modify es) := by
    simp only [oneWriter, if_true]; rfl
  have er : (⟨h, fun i => (oneWriter a w ts price i).prog S grow F⟩ : Threads ι PCell fun _ => PosAnswer).prog r =
      (unrealizedProfitP S a (price r)).bind fun x => .done (.mark x) := by
    simp only [oneWriter, if_neg hr]; rfl
  obtain ⟨t1, r1, eh1, er1, ow1⟩ := reader_type er (hh.cells fType _ rfl)
  rw [← ow1 w (Ne.symm hr)] at ew
  have hh1 : Held t1.heap a p s := by rw [eh1]; exact hh
  -- the two reads that are left, with the trades in between
  have fin : ∀ (t2 : Threads ι PCell fun _ => PosAnswer) (x y : Fl), Relation.ReflTransGen ThreadStep t1 t2 →
      t2.prog r = t1.prog r → t2.heap.cell a fOpenPrice = .num x → (∀ t2' : Threads ι PCell fun _ => PosAnswer,
        t2'.heap = t2.heap → t2'.prog w = t2.prog w → ∃ t3 : Threads ι PCell fun _ => PosAnswer,
        Relation.ReflTransGen ThreadStep t2' t3 ∧ t3.heap.cell a fQuantity = .num y ∧ t3.prog r = t2'.prog r) →
      ∃ t, Relation.ReflTransGen ThreadStep ⟨h, fun i => (oneWriter a w ts price i).prog S grow F⟩ t ∧
        t.prog r = .done (.mark (unrealizedProfit S { p with openPrice := x, quantity := y } (price r))) := by
    intro t2 x y r2 e2 hx go
    obtain ⟨t2', r2', eh2', er2', ow2'⟩ := threads_get (e2.trans er1) hx
    obtain ⟨t3, r3, hy, er3⟩ := go t2' eh2' (ow2' w (Ne.symm hr))
    obtain ⟨t4, r4, -, er4, -⟩ := threads_get (er3.trans er2') hy
    exact ⟨t4, r1.trans (r2.trans (r2'.trans (r3.trans r4))), er4⟩
  by_cases hm : m ≤ n
  · have hts : ts = ts.take m ++ ((ts.drop m).take (n - m) ++ (ts.drop m).drop (n - m)) := by
      rw [List.take_append_drop, List.take_append_drop]
    rw [hts] at ew
    obtain ⟨t2, s2, g2, r2, hh2, ew2, ow2⟩ := writer_goes ew hh1
    refine fin t2 _ _ r2 (ow2 r hr) (hh2.cells fOpenPrice _ rfl) fun t2' eh ewt => ?_
    obtain ⟨t3, s3, g3, r3, hh3, -, ow3⟩ := writer_goes (ewt.trans ew2) (show Held t2'.heap a _ s2 by rw [eh]; exact hh2)
    refine ⟨t3, r3, ?_, ow3 r hr⟩
    rw [hh3.cells fQuantity _ rfl]
    have : after S p ts n = modifiedAll S (modifiedAll S p (ts.take m)) ((ts.drop m).take (n - m)) := by
      rw [after, modifiedAll, modifiedAll, modifiedAll, ← List.foldl_append, ← List.take_add, Nat.add_sub_cancel' hm]
    rw [this]
  · obtain rfl : m = n + 1 := by omega
    by_cases hn : n < ts.length
    · have hts : ts = ts.take n ++ (ts[n] :: ts.drop (n + 1)) := by
        rw [← List.drop_eq_getElem_cons hn, List.take_append_drop]
      rw [hts] at ew
      obtain ⟨t2, s2, g2, r2, hh2, ew2, ow2⟩ := writer_goes ew hh1
      obtain ⟨t3, r3, ⟨-, hx, hy⟩, ow3⟩ := threads_meet w _ t2 ew2
        (meets_bind (meets_bind (meets_modify (S := S) (grow := grow) hh2 ts[n])))
      have : after S p ts (n + 1) = modified S (modifiedAll S p (ts.take n)) ts[n] := by
        rw [after, modifiedAll, List.take_succ_eq_append_getElem hn, List.foldl_append]; rfl
      rw [this]
      exact fin t3 _ _ (r2.trans r3) ((ow3 r hr).trans (ow2 r hr)) hx fun t2' eh _ => ⟨t2', .refl, by rw [eh, hy]; rfl, rfl⟩
    · have e1 : after S p ts (n + 1) = modifiedAll S p ts := by rw [after, List.take_of_length_le (by omega)]
      have e2 : after S p ts n = modifiedAll S p ts := by rw [after, List.take_of_length_le (by omega)]
      rw [e1, e2]
      rw [← List.append_nil ts] at ew
      obtain ⟨t2, s2, g2, r2, hh2, ew2, ow2⟩ := writer_goes ew hh1
      exact fin t2 _ _ r2 (ow2 r hr) (hh2.cells fOpenPrice _ rfl) fun t2' eh _ =>
        ⟨t2', .refl, by rw [eh, hh2.cells fQuantity _ rfl], rfl⟩

/-- **C225.** Two goroutines that add to the same position without a lock can lose a trade: both calls return nil and both IDs are
logged, but the quantity has grown by one of them only. -/
theorem C225_lost (hh : Held h a p s) (task : ι → PosTask) {i j : ι} (hij : i ≠ j) {t u : Trade} (ei : task i = .modify a [t])
    (ej : task j = .modify a [u]) (hp : p.type = longPosition) (ht : t.action = buyAction) (hu : u.action = buyAction)
    (pt : t.pair = p.pair) (pu : u.pair = p.pair) :
    ∃ x q s', Relation.ReflTransGen ThreadStep ⟨h, fun k => (task k).prog S grow F⟩ x ∧
      x.prog i = .done (.modify [none]) ∧ x.prog j = .done (.modify [none]) ∧ Held x.heap a q s' ∧
      q.quantity = S.add p.quantity t.quantity ∧ q.trades = p.trades ++ [u.id, t.id] := by
  obtain ⟨t1, r1, eh1, ei1, ow1⟩ := threads_get (s := ⟨h, fun k => (task k).prog S grow F⟩) (i := i) (a := a) (c := fPair)
    (x := .pair p.pair) (by simp only [ei]; rfl) (hh.cells fPair _ rfl)
  replace ei1 := ei1.trans (congrArg (HProg.bind · _) (bind_neg (fun hc => hc pt.symm)))
  obtain ⟨t2, r2, eh2, ei2, ow2⟩ := threads_get (s := t1) (i := i) (a := a) (c := fType) (x := .str p.type) ei1
    (by rw [eh1]; exact hh.cells fType _ rfl)
  replace ei2 := ei2.trans (congrArg (HProg.bind · _) (bind_pos ⟨hp, ht⟩))
  obtain ⟨t3, r3, eh3, ei3, ow3⟩ := threads_get (s := t2) (i := i) (a := a) (c := fQuantity) (x := .num p.quantity) ei2
    (by rw [eh2, eh1]; exact hh.cells fQuantity _ rfl)
  have hh3 : Held t3.heap a p s := by rw [eh3, eh2, eh1]; exact hh
  have ej3 : t3.prog j = (modifyAllP S grow a [u]).bind fun es => .done (.modify es) := by
    rw [ow3 j hij.symm, ow2 j hij.symm, ow1 j hij.symm]; simp only [ej]; rfl
  -- the other goroutine does all of its call
  obtain ⟨t4, own4, es4, r4, ⟨⟨s4, hh4⟩, ee4⟩, ej4, ow4⟩ := threads_part ej3 (safe_modifyAll (S := S) (grow := grow) [u] (held_alone hh3)
    (post := fun h1 _ es => (∃ s', Held h1 a (modifiedAll S p [u]) s') ∧ es = errorsOf S p [u]) fun _ _ s1 hh1 => ⟨⟨s1, hh1.held⟩, rfl⟩)
  have em : modifiedAll S p [u] = posAdd S p u := by
    show modified S p u = _
    unfold modified modify; rw [if_neg (fun hc => hc pu.symm), if_pos ⟨hp, hu⟩]
  rw [em] at hh4
  have ee : errorsOf S p [u] = [none] := by
    show [errorOf (modify S p u)] = _
    unfold modify; rw [if_neg (fun hc => hc pu.symm), if_pos ⟨hp, hu⟩]; rfl
  rw [ee] at ee4
  rw [ee4] at ej4
  -- the first goes on
  have ei4 := (ow4 i hij).trans ei3
  replace ei4 := ei4.trans (HProg.bind_assoc _ _ _)
  replace ei4 := ei4.trans (HProg.bind_assoc _ _ _)
  have safe : ∀ x : Fl, Safe (fun _ _ => False) (.put a fOpenPrice (.num x) (.put a fQuantity (.num (S.add p.quantity t.quantity))
      (logP grow a t))) t4.heap (fun b _ => b < t4.heap.next) (fun h1 _ _ => ∃ s', Held h1 a { posAdd S p u with
        openPrice := x, quantity := S.add p.quantity t.quantity, trades := (posAdd S p u).trades ++ [t.id] } s') := fun x =>
    safe_putO (held_alone hh4) { posAdd S p u with openPrice := x } (by decide) rfl rfl fun h1 hh1 =>
      safe_putO hh1 { posAdd S p u with openPrice := x, quantity := S.add p.quantity t.quantity } (by decide) rfl rfl fun h2 hh2 =>
        safe_log hh2 t fun h3 own3 s3 hh3 => ⟨s3, hh3.held⟩
  obtain ⟨t5, own5, es5, r5, ⟨s5, hh5⟩, ei5, ow5⟩ := threads_part ei4
    (safe_getO (held_alone hh4) (i := fOpenPrice) rfl (safe_getO (held_alone hh4) (i := fQuantity) rfl (safe _)))
  exact ⟨t5, _, s5, r1.trans (r2.trans (r3.trans (r4.trans r5))), ei5, (ow5 j hij.symm).trans ej4, hh5, rfl, by simp [posAdd]⟩

end

/-- One goroutine buys one unit at 20 for the position of one unit at 10, another computes its profit at a price of 40: both the
torn value 25 (open price 15, one unit) and the lost update can be seen. -/
def tornTasks : Fin 2 → PosTask := oneWriter 0 0 [tradeOf "t2" "buy" (.fin 20) (.fin 1)] fun _ => .fin 40
/-- See `tornTasks`. -/
def lostTasks : Fin 2 → PosTask
  | 0 => .modify 0 [tradeOf "t2" "buy" (.fin 20) (.fin 1)]
  | 1 => .modify 0 [tradeOf "t3" "buy" (.fin 30) (.fin 5)]

/-- The state after a schedule. -/
def sharedAfter (task : Fin 2 → PosTask) (schedule : List (Fin 2)) : Threads (Fin 2) PCell fun _ => PosAnswer :=
  schedule.foldl Threads.step ⟨positionsHeap, fun i => (task i).prog .exact doubling plainFmt⟩

/-- C224: the open price of after the trade with the quantity of before gives 25; the values before and after are 30 and 50. -/
example : Held positionsHeap 0 (positionsAt 0) ⟨1, 0, 1, 1⟩ ∧
    ((sharedAfter tornTasks (List.replicate 6 0 ++ [1, 1, 1])).prog 1).result = some (.mark (.fin 25)) ∧
    unrealizedProfit .exact (after .exact (positionsAt 0) [tradeOf "t2" "buy" (.fin 20) (.fin 1)] 0) (.fin 40) = .fin 30 ∧
    unrealizedProfit .exact (after .exact (positionsAt 0) [tradeOf "t2" "buy" (.fin 20) (.fin 1)] 1) (.fin 40) = .fin 50 := by
  exact ⟨positionsHeld.1, by decide +kernel, by decide +kernel, by decide +kernel⟩

/-- C225: 1 and 1 are bought, then 5: the quantity is 2 where one after the other give 7. -/
example : (positionsAt 0).type = longPosition ∧ (positionsAt 0).pair = pairUsd ∧
    (sharedAfter lostTasks ([0, 0, 0] ++ List.replicate 30 1 ++ List.replicate 30 0)).heap.cell 0 fQuantity = .num (.fin 2) ∧
    (modifiedAll .exact (positionsAt 0) [tradeOf "t2" "buy" (.fin 20) (.fin 1), tradeOf "t3" "buy" (.fin 30) (.fin 5)]).quantity = .fin 7 := by
  decide +kernel

end Finmod
