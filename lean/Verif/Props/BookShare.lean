import Verif.Model.BookShare
import Verif.Props.HeapBook
import Verif.Props.PositionShare
import Verif.Props.BookThreads
import Verif.Props.BookDepth

/-!
# A book that several goroutines share (C229-C231)
-/

namespace Go
variable {α R Q : Type}

theorem HProg.run_bind : ∀ (p : HProg α R) (f : R → HProg α Q) (h : Heap α), (p.bind f).run h = (f (p.run h).1).run (p.run h).2
  | .done _, _, _ => rfl
  | .get a i k, f, h => run_bind (k (h.cell a i)) f h
  | .put a i x k, f, h => run_bind k f (h.store a i [x])
  | .alloc k, f, h => run_bind (k h.next) f { h with next := h.next + 1 }

theorem HProg.run_readAll (a : Nat) (h : Heap α) : ∀ (n i : Nat),
    (HProg.readAll a i n).run h = ((List.range n).map fun j => h.cell a (i + j), h)
  | 0, _ => rfl
  | n + 1, i => by
    show (((readAll a (i + 1) n).bind fun xs => .done (h.cell a i :: xs) : HProg α (List α)).run h) = _
    rw [run_bind, run_readAll a h n (i + 1), List.range_succ_eq_map]
    simp [HProg.run, Function.comp_def, Nat.add_assoc, Nat.add_comm 1]

theorem HProg.run_load (s : Slice) (h : Heap α) : (HProg.load s).run h = (h.load s, h) := run_readAll ..

theorem HProg.run_writeAll (a : Nat) : ∀ (xs : List α) (h : Heap α) (i : Nat),
    (HProg.writeAll a i xs).run h = ((), h.store a i xs)
  | [], h, i => by rw [store_nil]; rfl
  | x :: xs, h, i => by
    show ((writeAll a (i + 1) xs).run (h.store a i [x])) = _
    rw [run_writeAll a xs, store_cons]

theorem HProg.run_append (grow : Nat → Nat → Nat) (s : Slice) (xs : List α) (h : Heap α) :
    (HProg.append grow s xs).run h = ((h.append grow s xs).2, (h.append grow s xs).1) := by
  unfold HProg.append Heap.append
  simp only
  split
  · rw [run_bind, run_writeAll]; rfl
  · show (((HProg.load s).bind fun old => (writeAll h.next 0 (old ++ xs)).bind fun _ => .done _ : HProg α Slice).run
      { h with next := h.next + 1 }) = _
    rw [run_bind, run_load, run_bind, run_writeAll]
    rfl

/-- A program that runs alone comes to a later point. -/
inductive HProg.Part : HProg α R → Heap α → HProg α R → Heap α → Prop
  | refl (p : HProg α R) (h : Heap α) : Part p h p h
  | get (a i : Nat) (k : α → HProg α R) {h : Heap α} {q : HProg α R} {h' : Heap α} : Part (k (h.cell a i)) h q h' → Part (.get a i k) h q h'
  | put (a i : Nat) (x : α) (k : HProg α R) {h : Heap α} {q : HProg α R} {h' : Heap α} : Part k (h.store a i [x]) q h' → Part (.put a i x k) h q h'
  | alloc (k : Nat → HProg α R) {h : Heap α} {q : HProg α R} {h' : Heap α} : Part (k h.next) { h with next := h.next + 1 } q h' →
      Part (.alloc k) h q h'

theorem HProg.Part.trans {p q r : HProg α R} {h h1 h2 : Heap α} (x : Part p h q h1) (y : Part q h1 r h2) : Part p h r h2 := by
  induction x with
  | refl => exact y
  | get a i k _ ih => exact .get a i k (ih y)
  | put a i x k _ ih => exact .put a i x k (ih y)
  | alloc k _ ih => exact .alloc k (ih y)

theorem HProg.Part.bind {p q : HProg α R} {h h' : Heap α} (x : Part p h q h') (f : R → HProg α Q) : Part (p.bind f) h (q.bind f) h' := by
  induction x with
  | refl => exact .refl _ _
  | get a i k _ ih => exact .get a i _ ih
  | put a i x k _ ih => exact .put a i x _ ih
  | alloc k _ ih => exact .alloc _ ih

theorem HProg.Part.run : ∀ (p : HProg α R) (f : R → HProg α Q) (h : Heap α), Part (p.bind f) h (f (p.run h).1) (p.run h).2
  | .done _, _, _ => .refl _ _
  | .get a i k, f, h => .get a i _ (Part.run (k (h.cell a i)) f h)
  | .put a i x k, f, h => .put a i x _ (Part.run k f (h.store a i [x]))
  | .alloc k, f, h => .alloc _ (Part.run (k h.next) f { h with next := h.next + 1 })

theorem threads_to {ι : Type} {R : ι → Type} [DecidableEq ι] (i : ι) {p q : HProg α (R i)} {h h' : Heap α} (x : HProg.Part p h q h') :
    ∀ (s : Threads ι α R), s.heap = h → s.prog i = p → Relation.ReflTransGen ThreadStep s ⟨h', Function.update s.prog i q⟩ := by
  induction x with
  | refl p h =>
    rintro s rfl rfl
    rw [Function.update_eq_self]
  | get a c k _ ih =>
    rintro s rfl e
    have h2 := ih ⟨s.heap, Function.update s.prog i (k (s.heap.cell a c))⟩ rfl (Function.update_self ..)
    simp only [Function.update_idem] at h2
    exact .head (ThreadStep.get s i a c k e) h2
  | put a c x k _ ih =>
    rintro s rfl e
    have h2 := ih ⟨s.heap.store a c [x], Function.update s.prog i k⟩ rfl (Function.update_self ..)
    simp only [Function.update_idem] at h2
    exact .head (ThreadStep.put s i a c x k e) h2
  | alloc k _ ih =>
    rintro s rfl e
    have h2 := ih ⟨{ s.heap with next := s.heap.next + 1 }, Function.update s.prog i (k s.heap.next)⟩ rfl (Function.update_self ..)
    simp only [Function.update_idem] at h2
    exact .head (ThreadStep.alloc s i k e) h2

theorem HProg.bind_done : ∀ (p : HProg α R), p.bind .done = p
  | .done _ => rfl
  | .get a i k => congrArg (HProg.get a i) (funext fun x => bind_done (k x))
  | .put a i x k => congrArg (HProg.put a i x) (bind_done k)
  | .alloc k => congrArg HProg.alloc (funext fun x => bind_done (k x))

theorem HProg.Part.all (p : HProg α R) (h : Heap α) : Part p h (.done (p.run h).1) (p.run h).2 := by
  have := Part.run p .done h
  rwa [bind_done] at this

/-- One goroutine stops on the way, a second runs to its end, then the first goes on to its end. -/
theorem threads_between {ι : Type} {R : Type} [DecidableEq ι] {i j : ι} (hij : i ≠ j) {P : ι → HProg α R} {h h0 : Heap α} {q : HProg α R}
    (x : HProg.Part (P i) h q h0) : ∃ t : Threads ι α (fun _ => R), Relation.ReflTransGen ThreadStep ⟨h, P⟩ t ∧
      t.heap = (q.run ((P j).run h0).2).2 ∧ t.prog i = .done (q.run ((P j).run h0).2).1 ∧ t.prog j = .done ((P j).run h0).1 := by
  have h1 := threads_to (R := fun _ => R) i x ⟨h, P⟩ rfl rfl
  have h2 := threads_to (R := fun _ => R) j (HProg.Part.all (P j) h0) ⟨h0, Function.update P i q⟩ rfl (Function.update_of_ne hij.symm ..)
  have h3 := threads_to (R := fun _ => R) i (HProg.Part.all q ((P j).run h0).2)
    ⟨((P j).run h0).2, Function.update (Function.update P i q) j (.done ((P j).run h0).1)⟩ rfl (by
      simp only [Function.update_of_ne hij, Function.update_self])
  refine ⟨_, (h1.trans h2).trans h3, rfl, Function.update_self .., ?_⟩
  simp only [Function.update_of_ne hij.symm, Function.update_self]

/-- A program that only reads. -/
inductive HProg.ReadOnly : HProg α R → Prop
  | done (r : R) : ReadOnly (.done r)
  | get (a i : Nat) (k : α → HProg α R) : (∀ x, ReadOnly (k x)) → ReadOnly (.get a i k)

theorem HProg.ReadOnly.bind {p : HProg α R} (hp : p.ReadOnly) {f : R → HProg α Q} (hf : ∀ r, (f r).ReadOnly) : (p.bind f).ReadOnly := by
  induction hp with
  | done r => exact hf r
  | get a i k _ ih => exact .get a i _ ih

theorem HProg.ReadOnly.part {p q : HProg α R} {h h' : Heap α} (x : HProg.Part p h q h') (hp : p.ReadOnly) : q.ReadOnly := by
  induction x with
  | refl => exact hp
  | get a i k _ ih => cases hp with | get _ _ _ hk => exact ih (hk _)
  | put a i x k _ _ => cases hp
  | alloc k _ _ => cases hp

theorem HProg.ReadOnly.run_heap {p : HProg α R} (hp : p.ReadOnly) (h : Heap α) : (p.run h).2 = h := by
  induction hp with
  | done r => rfl
  | get a i k _ ih => exact ih _

/-- Goroutines that only read do not notice each other. -/
theorem threads_readOnly {ι : Type} {R : ι → Type} [DecidableEq ι] {h : Heap α} {P : (i : ι) → HProg α (R i)} (hP : ∀ i, (P i).ReadOnly)
    {t : Threads ι α R} (st : Relation.ReflTransGen ThreadStep ⟨h, P⟩ t) :
    t.heap = h ∧ ∀ i, (t.prog i).ReadOnly ∧ (t.prog i).run h = (P i).run h := by
  induction st with
  | refl => exact ⟨rfl, fun i => ⟨hP i, rfl⟩⟩
  | tail _ st ih =>
    obtain ⟨e, ih⟩ := ih
    cases st with
    | get i a c k ek =>
      refine ⟨e, fun j => ?_⟩
      by_cases hj : j = i
      · subst hj
        obtain ⟨h1, h2⟩ := ih j
        rw [ek] at h1 h2
        cases h1 with
        | get _ _ _ hk =>
          simp only [Function.update_self, e]
          exact ⟨hk _, h2⟩
      · simp only [Function.update_of_ne hj]; exact ih j
    | put i a c x k ek => have := (ih i).1; rw [ek] at this; cases this
    | alloc i k ek => have := (ih i).1; rw [ek] at this; cases this

end Go

namespace Finmod
open Go Go.Heap Spec

/-- The rows in memory, with nothing at the address of the book itself. -/
def rowsOf (a : Nat) (h : Heap BCell) : Heap Row := ⟨fun b i => if b = a then zeroRow else (h.cell b i).asRow, h.next⟩

theorem rowsOf_store_self (a f : Nat) (h : Heap BCell) (xs : List BCell) : rowsOf a (h.store a f xs) = rowsOf a h := by
  unfold rowsOf
  simp only [store, Heap.mk.injEq, and_true]
  funext b i
  by_cases hb : b = a
  · rw [if_pos hb, if_pos hb]
  · rw [if_neg hb, if_neg hb, if_neg (fun h => hb h.1)]

theorem rowsOf_store {a b : Nat} (hb : b ≠ a) (h : Heap BCell) (i : Nat) (xs : List BCell) :
    rowsOf a (h.store b i xs) = (rowsOf a h).store b i (xs.map BCell.asRow) := by
  unfold rowsOf
  simp only [store, Heap.mk.injEq, and_true]
  funext c j
  by_cases hc : c = a
  · subst hc
    rw [if_pos rfl, if_neg (fun h => hb h.1.symm), if_pos rfl]
  · rw [if_neg hc]
    by_cases hcb : c = b ∧ i ≤ j
    · rw [if_pos hcb, if_pos hcb, if_neg hc, List.getElem?_map]
      cases xs[j - i]? <;> rfl
    · rw [if_neg hcb, if_neg hcb, if_neg hc]

/-- A slice that does not reach into the book at `a`. -/
structure Clear (a : Nat) (s : Slice) : Prop where
  wf : s.len ≤ s.cap
  apart : ∀ i, ¬ s.Owns a i

theorem Clear.ne {a : Nat} {s : Slice} (h : Clear a s) (hc : s.cap ≠ 0) : s.arr ≠ a :=
  fun e => h.apart s.off ⟨e.symm, le_rfl, by omega⟩

theorem Clear.empty (a : Nat) : Clear a Slice.empty := ⟨le_rfl, fun _ h => by have := h.2; simp [Slice.empty] at this⟩

theorem Clear.upTo {a : Nat} {s : Slice} (h : Clear a s) {n : Nat} (hn : n ≤ s.cap) : Clear a (s.upTo n) :=
  ⟨hn, fun i ho => h.apart i ho⟩

theorem Clear.since {a : Nat} {s : Slice} (h : Clear a s) (n : Nat) : Clear a (s.since n) :=
  ⟨by have := h.wf; simp only [Slice.since]; omega, fun i ho => h.apart i (by
    obtain ⟨h1, h2, h3⟩ := ho
    simp only [Slice.since] at h1 h2 h3
    exact ⟨h1, by omega, by omega⟩)⟩

theorem rowsOf_load {a : Nat} {s : Slice} (hs : Clear a s) (h : Heap BCell) : (rowsOf a h).load s = (h.load s).map BCell.asRow := by
  unfold load
  rw [List.map_map]
  apply List.map_congr_left
  intro i hi
  rw [List.mem_range] at hi
  have := hs.wf
  simp only [rowsOf, Function.comp]
  rw [if_neg (hs.ne (by omega))]

theorem rowsOf_append {a : Nat} {s : Slice} (hs : Clear a s) {h : Heap BCell} (ha : a < h.next) (grow : Nat → Nat → Nat) (xs : List BCell) :
    rowsOf a (h.append grow s xs).1 = ((rowsOf a h).append grow s (xs.map BCell.asRow)).1 ∧
    (h.append grow s xs).2 = ((rowsOf a h).append grow s (xs.map BCell.asRow)).2 ∧
    Clear a (h.append grow s xs).2 ∧ a < (h.append grow s xs).1.next ∧ ∀ f, (h.append grow s xs).1.cell a f = h.cell a f := by
  unfold Heap.append
  simp only [List.length_map]
  have hw := hs.wf
  split
  · rename_i hc
    by_cases h0 : xs = []
    · subst h0
      simp only [List.map_nil, store_nil, List.length_nil, Nat.add_zero]
      exact ⟨trivial, trivial, ⟨hw, hs.apart⟩, ha, fun _ => trivial⟩
    · have hl : 0 < xs.length := List.length_pos_iff.2 h0
      have hne := hs.ne (by omega)
      refine ⟨rowsOf_store hne .., rfl, ⟨hc, hs.apart⟩, ha, fun f => ?_⟩
      simp only [store]
      rw [if_neg (fun h => hne h.1.symm)]
  · have hne : h.next ≠ a := by omega
    have hr : (rowsOf a h).next = h.next := rfl
    refine ⟨?_, by rw [hr], ⟨by simp, fun i ho => hne ho.1.symm⟩, Nat.lt_succ_of_lt ha, fun f => ?_⟩
    · have := rowsOf_store hne h 0 (h.load s ++ xs)
      rw [List.map_append, ← rowsOf_load hs] at this
      show ({ rowsOf a (h.store h.next 0 (h.load s ++ xs)) with next := h.next + 1 } : Heap Row) = _
      rw [this, hr]
    · simp only [store]
      rw [if_neg (fun h => hne h.1.symm)]

/-- Field `f` of the book at `a` holds the slice `s`. -/
structure SideAt (h : Heap BCell) (a f : Nat) (s : Slice) : Prop where
  cell : h.cell a f = .head s
  clear : Clear a s
  addr : a < h.next

/-- Run alone, the program gives `x`, the rows are then `rows` and the field holds `s`; the other fields are as before. -/
def GivesSide {β : Type} (p : HProg BCell (Option β)) (h : Heap BCell) (a f : Nat) (x : β) (rows : Heap Row) (s : Slice) : Prop :=
  ∃ h', p.run h = (some x, h') ∧ rowsOf a h' = rows ∧ SideAt h' a f s ∧ ∀ g, g ≠ f → h'.cell a g = h.cell a g

theorem run_andThen {β γ : Type} {p : HProg BCell (Option β)} {f : β → HProg BCell (Option γ)} {h h' : Heap BCell} {x : β}
    (e : p.run h = (some x, h')) : (andThen p f).run h = (f x).run h' := by
  unfold andThen
  rw [HProg.run_bind, e]

theorem run_andThen_none {β γ : Type} {p : HProg BCell (Option β)} {f : β → HProg BCell (Option γ)} {h : Heap BCell}
    (e : (p.run h).1 = none) : ((andThen p f).run h).1 = none := by
  unfold andThen
  rw [HProg.run_bind, e]
  rfl

section
variable {h : Heap BCell} {a f : Nat} {s : Slice} {grow : Nat → Nat → Nat}

theorem run_len (hs : SideAt h a f s) : (lenS a f).run h = (some s.len, h) := by
  show (some (h.cell a f).asHead.len, h) = _
  rw [hs.cell]; rfl

theorem run_row (hs : SideAt h a f s) {i : Nat} (hi : i < s.len) :
    (rowS a f i).run h = (some (h.cell s.arr (s.off + i)).asRow, h) := by
  show (if i < (h.cell a f).asHead.len then _ else _ : HProg BCell (Option Row)).run h = _
  rw [hs.cell]
  exact congrArg (fun p : HProg BCell (Option Row) => p.run h) (if_pos hi)

theorem load_row (hs : SideAt h a f s) {i : Nat} (hi : i < s.len) :
    ((rowsOf a h).load s)[i]? = some (h.cell s.arr (s.off + i)).asRow := by
  rw [rowsOf_load hs.clear, List.getElem?_map, getElem?_load, if_pos hi]; rfl

theorem run_findFrom (q : Row → Bool) (hs : SideAt h a f s) : ∀ (n i : Nat), i + n = s.len →
    (findFromS q a f n i).run h = (some ((((rowsOf a h).load s).drop i).findIdx? q |>.map (· + i)), h)
  | 0, i, hi => by
    rw [List.drop_eq_nil_of_le (by rw [length_load]; omega)]; rfl
  | n + 1, i, hi => by
    have hlt : i < s.len := by omega
    rw [findFromS, run_andThen (run_row hs hlt)]
    have hd : ((rowsOf a h).load s).drop i = (h.cell s.arr (s.off + i)).asRow :: ((rowsOf a h).load s).drop (i + 1) := by
      rw [List.drop_eq_getElem_cons (by rw [length_load]; exact hlt)]
      congr 1
      have := load_row hs hlt
      rw [List.getElem?_eq_getElem (by rw [length_load]; exact hlt)] at this
      exact Option.some.inj this
    rw [hd, List.findIdx?_cons]
    by_cases hq : q (h.cell s.arr (s.off + i)).asRow = true
    · rw [if_pos hq, if_pos hq]; simp [HProg.run]
    · rw [if_neg hq, if_neg hq, run_findFrom q hs n (i + 1) (by omega)]
      cases List.findIdx? q (((rowsOf a h).load s).drop (i + 1)) <;> simp [Nat.add_assoc, Nat.add_comm 1]

theorem run_find (q : Row → Bool) (hs : SideAt h a f s) : (findS q a f).run h = (some (((rowsOf a h).load s).findIdx? q), h) := by
  rw [findS, run_andThen (run_len hs), run_findFrom q hs _ _ (Nat.zero_add _)]
  simp

theorem run_setRow (hs : SideAt h a f s) {i : Nat} (hi : i < s.len) (r : Row) :
    GivesSide (setRowS a f i r) h a f () ((rowsOf a h).put s i r) s := by
  have hne := hs.clear.ne (by have := hs.clear.wf; omega)
  refine ⟨h.store s.arr (s.off + i) [.row r], ?_, rowsOf_store hne .., ⟨?_, hs.clear, hs.addr⟩, fun g hg => ?_⟩
  · show (if i < (h.cell a f).asHead.len then _ else _ : HProg BCell (Option Unit)).run h = _
    rw [hs.cell]
    exact congrArg (fun p : HProg BCell (Option Unit) => p.run h) (if_pos hi)
  · simp only [store]
    rw [if_neg (fun h => hne h.1.symm)]; exact hs.cell
  · simp only [store]
    rw [if_neg (fun h => hne h.1.symm)]

/-- Replacing the header in the book. -/
theorem sideAt_put {h : Heap BCell} {a f : Nat} {s : Slice} (hc : Clear a s) (ha : a < h.next) :
    SideAt (h.store a f [.head s]) a f s ∧ rowsOf a (h.store a f [.head s]) = rowsOf a h ∧
    ∀ g, g ≠ f → (h.store a f [.head s]).cell a g = h.cell a g := by
  refine ⟨⟨?_, hc, ha⟩, rowsOf_store_self .., fun g hg => ?_⟩
  · simp [store]
  · simp only [store, true_and]
    split
    · rw [List.getElem?_eq_none (by simp only [List.length_singleton]; omega)]; rfl
    · rfl

theorem run_append_with (hs : SideAt h a f s) (p : HProg BCell (Option Row)) (r : Row) (hp : p.run h = (some r, h)) :
    GivesSide (appendS grow a f p) h a f () ((rowsOf a h).append grow s [r]).1 ((rowsOf a h).append grow s [r]).2 := by
  obtain ⟨e1, e2, e3, e4, e5⟩ := rowsOf_append hs.clear hs.addr grow [.row r]
  obtain ⟨k1, k2, k3⟩ := sideAt_put (f := f) e3 e4
  refine ⟨_, ?_, k2.trans e1, ?_, fun g hg => (k3 g hg).trans (e5 g)⟩
  · show (andThen p fun r => (HProg.append grow (h.cell a f).asHead [.row r]).bind fun s => .put a f (.head s) (.done (some ()))).run h = _
    rw [run_andThen hp, HProg.run_bind, HProg.run_append, hs.cell]
    rfl
  · rw [show ((rowsOf a h).append grow s [r]).2 = _ from e2.symm]; exact k1

theorem run_remove (hs : SideAt h a f s) {i : Nat} (hi : i < s.len) :
    GivesSide (removeS grow a f i) h a f () (hRemoveElement grow (rowsOf a h) s i).1 (hRemoveElement grow (rowsOf a h) s i).2 := by
  have hw := hs.clear.wf
  obtain ⟨e1, e2, e3, e4, e5⟩ := rowsOf_append (hs.clear.upTo (n := i) (by omega)) hs.addr grow (h.load (s.since (i + 1)))
  rw [← rowsOf_load (hs.clear.since _)] at e1 e2
  obtain ⟨k1, k2, k3⟩ := sideAt_put (f := f) e3 e4
  refine ⟨_, ?_, k2.trans e1, ?_, fun g hg => (k3 g hg).trans (e5 g)⟩
  · show (if i + 1 ≤ (h.cell a f).asHead.len then _ else _ : HProg BCell (Option Unit)).run h = _
    rw [hs.cell]
    refine (congrArg (fun p : HProg BCell (Option Unit) => p.run h) (if_pos hi)).trans ?_
    simp only [BCell.asHead]
    rw [HProg.run_bind, HProg.run_load, HProg.run_bind, HProg.run_append]
    rfl
  · show SideAt _ a f ((rowsOf a h).append grow (s.upTo i) ((rowsOf a h).load (s.since (i + 1)))).2
    rw [← e2]; exact k1

theorem run_copy (hs : SideAt h a f s) {i : Nat} (hi : i < s.len) :
    GivesSide (copyS a f i) h a f () ((rowsOf a h).copyShift s i) s := by
  have hw := hs.clear.wf
  have hne := hs.clear.ne (by omega)
  have key : (List.range (s.len - (i + 1))).map (fun j => h.cell s.arr (s.off + i + j)) =
      ((h.load s).drop i).take (s.len - (i + 1)) := by
    apply List.ext_getElem?
    intro j
    rw [List.getElem?_map, List.getElem?_take]
    split
    · rename_i hj
      rw [List.getElem?_range hj, List.getElem?_drop, getElem?_load, if_pos (by omega)]
      simp [Nat.add_assoc]
    · rename_i hj
      rw [List.getElem?_eq_none (by simpa using hj)]; rfl
  refine ⟨h.store s.arr (s.off + (i + 1)) (((h.load s).drop i).take (s.len - (i + 1))), ?_, ?_, ⟨?_, hs.clear, hs.addr⟩, fun g hg => ?_⟩
  · show (if i + 1 ≤ (h.cell a f).asHead.len then _ else _ : HProg BCell (Option Unit)).run h = _
    rw [hs.cell]
    refine (congrArg (fun p : HProg BCell (Option Unit) => p.run h) (if_pos hi)).trans ?_
    show (if i ≤ (h.cell a f).asHead.len then _ else _ : HProg BCell (Option Unit)).run h = _
    rw [hs.cell]
    refine (congrArg (fun p : HProg BCell (Option Unit) => p.run h) (if_pos (le_of_lt hi))).trans ?_
    simp only [BCell.asHead]
    rw [HProg.run_bind, HProg.run_readAll, HProg.run_bind, HProg.run_writeAll,
      show min (s.len - (i + 1)) (s.len - i) = s.len - (i + 1) by omega, key]
    rfl
  · rw [rowsOf_store hne, List.map_take, List.map_drop, ← rowsOf_load hs.clear]; rfl
  · simp only [store]
    rw [if_neg (fun h => hne h.1.symm)]; exact hs.cell
  · simp only [store]
    rw [if_neg (fun h => hne h.1.symm)]

theorem GivesSide.next {β γ : Type} {p : HProg BCell (Option β)} {k : β → HProg BCell (Option γ)} {x : β} {y : γ} {rows rows' : Heap Row}
    {s s' : Slice} (hp : GivesSide p h a f x rows s)
    (hk : ∀ h', rowsOf a h' = rows → SideAt h' a f s → GivesSide (k x) h' a f y rows' s') :
    GivesSide (andThen p k) h a f y rows' s' := by
  obtain ⟨h1, e1, e2, e3, e4⟩ := hp
  obtain ⟨h2, k1, k2, k3, k4⟩ := hk h1 e2 e3
  exact ⟨h2, (run_andThen e1).trans k1, k2, k3, fun g hg => (k4 g hg).trans (e4 g hg)⟩

theorem GivesSide.pure {β γ : Type} {p : HProg BCell (Option β)} {k : β → HProg BCell (Option γ)} {x : β} {y : γ} {rows : Heap Row}
    {s : Slice} (hp : p.run h = (some x, h)) (hk : GivesSide (k x) h a f y rows s) : GivesSide (andThen p k) h a f y rows s := by
  obtain ⟨h2, k1, k2⟩ := hk
  exact ⟨h2, (run_andThen hp).trans k1, k2⟩

theorem GivesSide.done {β : Type} (hs : SideAt h a f s) (x : β) : GivesSide (.done (some x)) h a f x (rowsOf a h) s :=
  ⟨h, rfl, rfl, hs, fun _ _ => rfl⟩

theorem run_upsert (hs : SideAt h a f s) (before : Row → Bool) (p v : Fl) :
    GivesSide (upsertS grow before a f p v) h a f () (hUpsert grow before (rowsOf a h) s p v).1
      (hUpsert grow before (rowsOf a h) s p v).2 := by
  refine GivesSide.pure (run_find _ hs) ?_
  unfold hUpsert
  cases e : ((rowsOf a h).load s).findIdx? (fun r => Fl.eq r.price p) with
  | some i =>
    have hi : i < s.len := by
      have := List.findIdx?_eq_some_iff_findIdx_eq.1 e
      rw [length_load] at this; exact this.1
    exact run_setRow hs hi _
  | none =>
    refine GivesSide.pure (run_len hs) ?_
    simp only
    by_cases h0 : s.len = 0
    · rw [if_pos h0, if_pos h0]
      exact run_append_with hs _ _ rfl
    rw [if_neg h0, if_neg h0]
    refine GivesSide.pure (run_len hs) ?_
    by_cases h1 : s.len = 1
    · rw [if_pos h1, if_pos h1]
      have hr := run_row hs (i := 0) (by omega)
      refine GivesSide.pure hr ?_
      have hl := load_row hs (i := 0) (by omega)
      rw [hl]
      simp only
      by_cases hb : before (h.cell s.arr (s.off + 0)).asRow = true
      · rw [if_pos hb, if_pos hb]
        refine GivesSide.next (run_append_with hs _ _ hr) fun h' e1 e2 => ?_
        have := run_setRow e2 (i := 0) (by unfold Heap.append; simp only; split <;> simp) (mkRow p v)
        rw [e1] at this
        exact this
      · rw [if_neg hb, if_neg hb]
        exact run_append_with hs _ _ rfl
    · rw [if_neg h1, if_neg h1]
      refine GivesSide.pure (run_find _ hs) ?_
      cases e' : ((rowsOf a h).load s).findIdx? before with
      | none => exact run_append_with hs _ _ rfl
      | some i =>
        have hi : i < s.len := by
          have := List.findIdx?_eq_some_iff_findIdx_eq.1 e'
          rw [length_load] at this; exact this.1
        refine GivesSide.next (run_append_with hs _ _ rfl) fun h' e1 e2 => ?_
        have hlen : i < ((rowsOf a h).append grow s [zeroRow]).2.len := by unfold Heap.append; simp only; split <;> simp <;> omega
        have hc := run_copy e2 hlen
        rw [e1] at hc
        refine GivesSide.next hc fun h'' e3 e4 => ?_
        have := run_setRow e4 hlen (mkRow p v)
        rw [e3] at this
        exact this

theorem run_removeInvalid (hs : SideAt h a f s) (outside passes : Row → Bool) :
    GivesSide (removeInvalidS outside passes a f) h a f () (rowsOf a h)
      (match ((rowsOf a h).load s)[0]? with
        | none => s
        | some first =>
          if outside first then s
          else match ((rowsOf a h).load s).findIdx? (fun r => !passes r) with
            | some i => s.since (min (i + 1) (s.len - 1))
            | none => Slice.empty) := by
  refine GivesSide.pure (run_len hs) ?_
  by_cases h0 : s.len = 0
  · rw [if_pos h0, getElem?_load, if_neg (by omega)]
    exact GivesSide.done hs ()
  rw [if_neg h0]
  refine GivesSide.pure (run_row hs (by omega)) ?_
  rw [load_row hs (by omega)]
  simp only
  by_cases ho : outside (h.cell s.arr (s.off + 0)).asRow = true
  · rw [if_pos ho, if_pos ho]
    exact GivesSide.done hs ()
  rw [if_neg ho, if_neg ho]
  refine GivesSide.pure (run_find _ hs) ?_
  cases e : ((rowsOf a h).load s).findIdx? (fun r => !passes r) with
  | none =>
    obtain ⟨k1, k2, k3⟩ := sideAt_put (f := f) (Clear.empty a) hs.addr
    exact ⟨_, rfl, k2, k1, k3⟩
  | some i =>
    refine GivesSide.pure (run_len hs) (GivesSide.pure (run_len hs) ?_)
    obtain ⟨k1, k2, k3⟩ := sideAt_put (f := f) (hs.clear.since (min (i + 1) (s.len - 1))) hs.addr
    refine ⟨_, ?_, k2, k1, k3⟩
    show (if s.len = 0 then _ else if min (i + 1) (s.len - 1) ≤ (h.cell a f).asHead.len then _ else _ : HProg BCell (Option Unit)).run h = _
    rw [if_neg h0, hs.cell]
    refine (congrArg (fun p : HProg BCell (Option Unit) => p.run h) (if_pos ?_)).trans rfl
    simp only [BCell.asHead]; omega

theorem run_limitSide (hs : SideAt h a f s) {d : Int} (hd : h.cell a fMaxDepth = .int d) :
    match hLimitSide s d with
    | some s' => GivesSide (limitSideS a f) h a f () (rowsOf a h) s'
    | none => ((limitSideS a f).run h).1 = none := by
  have e : (limitSideS a f).run h = (if (s.len : Int) > d then (match hSliceTo s d with
        | some s => .put a f (.head s) (.done (some ()))
        | none => .done none) else .done (some ()) : HProg BCell (Option Unit)).run h := by
    show (if ((h.cell a f).asHead.len : Int) > (h.cell a fMaxDepth).asInt then _ else _ : HProg BCell (Option Unit)).run h = _
    rw [hs.cell, hd]
    by_cases hc : (s.len : Int) > d
    · refine (congrArg (fun p : HProg BCell (Option Unit) => p.run h) (if_pos hc)).trans ?_
      rw [if_pos hc]
      show (match hSliceTo (h.cell a f).asHead (h.cell a fMaxDepth).asInt with
        | some s => .put a f (.head s) (.done (some ()))
        | none => .done none : HProg BCell (Option Unit)).run h = _
      rw [hs.cell, hd]
      rfl
    · refine (congrArg (fun p : HProg BCell (Option Unit) => p.run h) (if_neg hc)).trans ?_
      rw [if_neg hc]
  unfold hLimitSide
  by_cases hc : (s.len : Int) > d
  · rw [if_pos hc] at e ⊢
    unfold hSliceTo at e ⊢
    by_cases hb : d < 0 ∨ (s.cap : Int) < d
    · rw [if_pos hb] at e ⊢
      simp only at e ⊢
      rw [e]; rfl
    · rw [if_neg hb] at e ⊢
      simp only at e ⊢
      obtain ⟨k1, k2, k3⟩ := sideAt_put (f := f) (hs.clear.upTo (n := d.toNat) (by omega)) hs.addr
      exact ⟨_, e, k2, k1, k3⟩
  · rw [if_neg hc] at e ⊢
    exact ⟨h, e, rfl, hs, fun _ _ => rfl⟩

end

/-- The book `hb` (headers) is in memory at `a`. -/
structure Spec.SharedAt (h : Heap BCell) (a : Nat) (hb : HBook) : Prop where
  time : h.cell a fTime = .int hb.time
  asks : h.cell a fAsks = .head hb.asks
  bids : h.cell a fBids = .head hb.bids
  depth : h.cell a fMaxDepth = .int hb.maxDepth
  addr : a < h.next
  clearA : Clear a hb.asks
  clearB : Clear a hb.bids

section
variable {h : Heap BCell} {a : Nat} {hb : HBook} {grow : Nat → Nat → Nat}

theorem Spec.SharedAt.askSide (hs : SharedAt h a hb) : SideAt h a fAsks hb.asks := ⟨hs.asks, hs.clearA, hs.addr⟩
theorem Spec.SharedAt.bidSide (hs : SharedAt h a hb) : SideAt h a fBids hb.bids := ⟨hs.bids, hs.clearB, hs.addr⟩

/-- Run alone, the program gives `x`, and then the rows are `rows` and the book is `hb'`. -/
def GivesBook {β : Type} (p : HProg BCell (Option β)) (h : Heap BCell) (a : Nat) (x : β) (rows : Heap Row) (hb' : HBook) : Prop :=
  ∃ h', p.run h = (some x, h') ∧ rowsOf a h' = rows ∧ SharedAt h' a hb'

theorem GivesSide.asks {β : Type} {p : HProg BCell (Option β)} {x : β} {rows : Heap Row} {s : Slice} (hs : SharedAt h a hb)
    (hp : GivesSide p h a fAsks x rows s) : GivesBook p h a x rows { hb with asks := s } := by
  obtain ⟨h', e1, e2, e3, e4⟩ := hp
  exact ⟨h', e1, e2, (e4 fTime (by decide)).trans hs.time, e3.cell, (e4 fBids (by decide)).trans hs.bids,
    (e4 fMaxDepth (by decide)).trans hs.depth, e3.addr, e3.clear, hs.clearB⟩

theorem GivesSide.bids {β : Type} {p : HProg BCell (Option β)} {x : β} {rows : Heap Row} {s : Slice} (hs : SharedAt h a hb)
    (hp : GivesSide p h a fBids x rows s) : GivesBook p h a x rows { hb with bids := s } := by
  obtain ⟨h', e1, e2, e3, e4⟩ := hp
  exact ⟨h', e1, e2, (e4 fTime (by decide)).trans hs.time, (e4 fAsks (by decide)).trans hs.asks, e3.cell,
    (e4 fMaxDepth (by decide)).trans hs.depth, e3.addr, hs.clearA, e3.clear⟩

/-- What a run of `ApplyUpdate` on the book at `a` gives, compared with `HBook.applyUpdate`. -/
def SameRun (a : Nat) (p : HProg BCell (Option (Option ErrCode))) (h : Heap BCell) : Res (Heap Row × HBook) → Prop
  | .ok (rows, hb') => GivesBook p h a none rows hb'
  | .err c (rows, hb') => GivesBook p h a (some c) rows hb'
  | .panic => (p.run h).1 = none

/-- The same for a part without error. -/
def SamePart (a : Nat) (p : HProg BCell (Option Unit)) (h : Heap BCell) : Res (Heap Row × HBook) → Prop
  | .ok (rows, hb') => GivesBook p h a () rows hb'
  | .err _ _ => False
  | .panic => (p.run h).1 = none

theorem SamePart.next {β : Type} {p : HProg BCell (Option β)} {k : β → HProg BCell (Option Unit)} {x : β} {rows : Heap Row}
    {hb' : HBook} {r : Res (Heap Row × HBook)} (hp : GivesBook p h a x rows hb')
    (hk : ∀ h', rowsOf a h' = rows → SharedAt h' a hb' → SamePart a (k x) h' r) : SamePart a (andThen p k) h r := by
  obtain ⟨h1, e1, e2, e3⟩ := hp
  have := hk h1 e2 e3
  match r, this with
  | .ok (rows, hb'), ⟨h2, k1, k2⟩ => exact ⟨h2, (run_andThen e1).trans k1, k2⟩
  | .panic, k1 => show ((andThen p k).run h).1 = none; rw [run_andThen e1]; exact k1

theorem samePart_limit (hs : SharedAt h a hb) : SamePart a (limitS a) h (HBook.limit (rowsOf a h) hb) := by
  unfold HBook.limit limitS
  have h1 := run_limitSide hs.askSide hs.depth
  cases e1 : hLimitSide hb.asks hb.maxDepth with
  | none =>
    rw [e1] at h1
    exact run_andThen_none h1
  | some sa =>
    rw [e1] at h1
    obtain ⟨h', k1, k2, k3⟩ := GivesSide.asks hs h1
    have h2 := run_limitSide k3.bidSide k3.depth
    simp only at h2
    cases e2 : hLimitSide hb.bids hb.maxDepth with
    | none =>
      rw [e2] at h2
      show ((andThen (limitSideS a fAsks) fun _ => limitSideS a fBids).run h).1 = none
      rw [run_andThen k1]; exact h2
    | some sb =>
      rw [e2, k2] at h2
      obtain ⟨h'', l1, l2⟩ := GivesSide.bids k3 h2
      exact ⟨h'', (run_andThen k1).trans l1, l2⟩

theorem sameRun_of_part {p : HProg BCell (Option Unit)} {r : Res (Heap Row × HBook)} (hp : SamePart a p h r) :
    SameRun a (andThen p fun _ => .done (some none)) h r := by
  match r, hp with
  | .ok (rows, hb'), ⟨h', k1, k2⟩ => exact ⟨h', run_andThen k1, k2⟩
  | .panic, k => exact run_andThen_none k

/-- `ApplyUpdate` on the book at `a`, alone, does what `HBook.applyUpdate` does. -/
theorem sameRun_applyUpdate (hs : SharedAt h a hb) (u : Update) :
    SameRun a (applyUpdateS grow a u) h (HBook.applyUpdate grow (rowsOf a h) hb u) := by
  unfold applyUpdateS HBook.applyUpdate
  by_cases h1 : u.side = "ask"
  · rw [if_pos h1, if_pos h1]
    apply sameRun_of_part
    by_cases hv : Fl.ne u.volume (.fin 0) = true
    · rw [if_pos hv, if_pos hv]
      refine SamePart.next (GivesSide.bids hs (run_removeInvalid hs.bidSide _ _)) fun h1 e1 s1 => ?_
      have := run_upsert (grow := grow) s1.askSide (fun r => Fl.gt r.price u.price) u.price u.volume
      rw [e1] at this
      refine SamePart.next (GivesSide.asks s1 this) fun h2 e2 s2 => ?_
      have := samePart_limit s2
      rw [e2] at this
      exact this
    · rw [if_neg hv, if_neg hv]
      unfold deleteS
      refine SamePart.next ⟨h, run_find _ hs.askSide, rfl, hs⟩ fun h1 e1 s1 => ?_
      cases e : ((rowsOf a h).load hb.asks).findIdx? (fun r => Fl.eq r.price u.price) with
      | none => exact ⟨h1, rfl, e1, s1⟩
      | some i =>
        have hi : i < hb.asks.len := by
          have := List.findIdx?_eq_some_iff_findIdx_eq.1 e
          rw [length_load] at this; exact this.1
        have := run_remove (grow := grow) s1.askSide hi
        rw [e1] at this
        refine SamePart.next (GivesSide.asks s1 this) fun h2 e2 s2 => ?_
        have := samePart_limit s2
        rw [e2] at this
        exact this
  rw [if_neg h1, if_neg h1]
  by_cases h2 : u.side = "bid"
  · rw [if_pos h2, if_pos h2]
    apply sameRun_of_part
    by_cases hv : Fl.ne u.volume (.fin 0) = true
    · rw [if_pos hv, if_pos hv]
      refine SamePart.next (GivesSide.asks hs (run_removeInvalid hs.askSide _ _)) fun h1 e1 s1 => ?_
      have := run_upsert (grow := grow) s1.bidSide (fun r => Fl.lt r.price u.price) u.price u.volume
      rw [e1] at this
      refine SamePart.next (GivesSide.bids s1 this) fun h2 e2 s2 => ?_
      have := samePart_limit s2
      rw [e2] at this
      exact this
    · rw [if_neg hv, if_neg hv]
      unfold deleteS
      refine SamePart.next ⟨h, run_find _ hs.bidSide, rfl, hs⟩ fun h1 e1 s1 => ?_
      cases e : ((rowsOf a h).load hb.bids).findIdx? (fun r => Fl.eq r.price u.price) with
      | none => exact ⟨h1, rfl, e1, s1⟩
      | some i =>
        have hi : i < hb.bids.len := by
          have := List.findIdx?_eq_some_iff_findIdx_eq.1 e
          rw [length_load] at this; exact this.1
        have := run_remove (grow := grow) s1.bidSide hi
        rw [e1] at this
        refine SamePart.next (GivesSide.bids s1 this) fun h2 e2 s2 => ?_
        have := samePart_limit s2
        rw [e2] at this
        exact this
  · rw [if_neg h2, if_neg h2]
    exact ⟨h, rfl, rfl, hs⟩

/-- The book at `a` in memory shows the list-level book `b`: headers in the fields, rows in arrays that do not overlap each other or
the fields. -/
structure Spec.SharedShows (h : Heap BCell) (a : Nat) (b : Book) : Prop where
  held : ∃ hb, SharedAt h a hb ∧ Shows (rowsOf a h) hb b

/-- **C229.** `ApplyUpdate` on a book in memory, alone, does what it does with a value: same error, or panic, and the book shows
afterwards the new one. -/
theorem C229_update_alone {b : Book} (hs : SharedShows h a b) (u : Update) :
    match b.applyUpdate u with
    | .ok b' => ∃ h', (applyUpdateS grow a u).run h = (some none, h') ∧ SharedShows h' a b'
    | .err c b' => ∃ h', (applyUpdateS grow a u).run h = (some (some c), h') ∧ SharedShows h' a b'
    | .panic => ((applyUpdateS grow a u).run h).1 = none := by
  obtain ⟨hb, h1, h2⟩ := hs.held
  have r := sameRun_applyUpdate (grow := grow) h1 u
  have c := C100_update_as_value grow h2 u
  revert r c
  cases HBook.applyUpdate grow (rowsOf a h) hb u with
  | ok x =>
    obtain ⟨rows, hb'⟩ := x
    cases b.applyUpdate u with
    | ok b' => rintro ⟨h', e1, e2, e3⟩ c; subst e2; exact ⟨h', e1, ⟨hb', e3, c⟩⟩
    | err _ _ => exact fun _ c => c.elim
    | panic => exact fun _ c => c.elim
  | err e x =>
    obtain ⟨rows, hb'⟩ := x
    cases b.applyUpdate u with
    | ok b' => exact fun _ c => c.elim
    | err e' b' => rintro ⟨h', e1, e2, e3⟩ ⟨rfl, c⟩; subst e2; exact ⟨h', e1, ⟨hb', e3, c⟩⟩
    | panic => exact fun _ c => c.elim
  | panic =>
    cases b.applyUpdate u with
    | ok b' => exact fun _ c => c.elim
    | err _ _ => exact fun _ c => c.elim
    | panic => exact fun r _ => r

/-- What a call that does not change the book comes to: `none` for a panic. -/
def Spec.outcome {β : Type} : Res β → Option (Res β)
  | .ok v => some (.ok v)
  | .err c v => some (.err c v)
  | .panic => none

theorem run_row_none {f : Nat} {s : Slice} (hs : SideAt h a f s) {i : Nat} (hi : s.len ≤ i) : (rowS a f i).run h = (none, h) := by
  show (if i < (h.cell a f).asHead.len then _ else _ : HProg BCell (Option Row)).run h = _
  rw [hs.cell]
  exact congrArg (fun p : HProg BCell (Option Row) => p.run h) (if_neg (Nat.not_lt.2 hi))

theorem run_andThen_stop {β γ : Type} {p : HProg BCell (Option β)} {f : β → HProg BCell (Option γ)} {h h' : Heap BCell}
    (e : p.run h = (none, h')) : (andThen p f).run h = (none, h') := by
  unfold andThen
  rw [HProg.run_bind, e]
  rfl

theorem run_row' {f : Nat} {s : Slice} (hs : SideAt h a f s) (i : Nat) : (rowS a f i).run h = (((rowsOf a h).load s)[i]?, h) := by
  by_cases hi : i < s.len
  · rw [run_row hs hi, load_row hs hi]
  · rw [run_row_none hs (Nat.not_lt.1 hi), getElem?_load, if_neg hi]

theorem run_last {f : Nat} {s : Slice} (hs : SideAt h a f s) : (lastS a f).run h = (((rowsOf a h).load s).getLast?, h) := by
  unfold lastS
  rw [run_andThen (run_len hs), List.getLast?_eq_getElem?, length_load]
  by_cases h0 : s.len = 0
  · rw [if_pos h0, getElem?_load, if_neg (by omega)]; rfl
  · rw [if_neg h0, run_row' hs]

theorem getDepth_side {f : Nat} {s : Slice} (hs : SideAt h a f s) (q : Row → Bool) (last : Row) :
    (andThen (findS q a f) fun o => match o with
      | some k => andThen (rowS a f (k - 1)) fun r => .done (some (.ok r.price))
      | none => .done (some (.ok last.price)) : HProg BCell (Option (Res Fl))).run h =
    (outcome (match ((rowsOf a h).load s).findIdx? q with
      | some k => match ((rowsOf a h).load s)[k - 1]? with
        | some r => .ok r.price
        | none => .panic
      | none => .ok last.price), h) := by
  rw [run_andThen (run_find q hs)]
  cases ((rowsOf a h).load s).findIdx? q with
  | none => rfl
  | some k =>
    simp only
    have hr := run_row' hs (k - 1)
    cases e : ((rowsOf a h).load s)[k - 1]? with
    | none => rw [e] at hr; rw [run_andThen_stop hr]; rfl
    | some r => rw [e] at hr; rw [run_andThen hr]; rfl

/-- **C229.** `GetDepth` on a book in memory, alone, does what it does with a value, and the memory stays as it is. -/
theorem C229_depth_alone {b : Book} (hs : SharedShows h a b) (price : Fl) :
    (getDepthS a price).run h = (outcome (b.getDepth price), h) := by
  obtain ⟨hb, h1, h2⟩ := hs.held
  unfold getDepthS Book.getDepth
  by_cases hp : Fl.le price (.fin 0) = true
  · rw [if_pos hp, if_pos hp]; rfl
  rw [if_neg hp, if_neg hp]
  have a0 := run_row' h1.askSide 0
  have a1 := run_last h1.askSide
  have b0 := run_row' h1.bidSide 0
  have b1 := run_last h1.bidSide
  have da := fun q l => getDepth_side h1.askSide q l
  have db := fun q l => getDepth_side h1.bidSide q l
  rw [h2.asks] at a0 a1 da
  rw [h2.bids] at b0 b1 db
  rw [← List.head?_eq_getElem?] at a0 b0
  cases e1 : b.asks.head? with
  | none =>
    rw [e1] at a0
    rw [run_andThen_stop a0]; rfl
  | some fa =>
    rw [e1] at a0
    rw [run_andThen a0]
    cases e2 : b.asks.getLast? with
    | none =>
      rw [e2] at a1
      rw [run_andThen_stop a1]; rfl
    | some la =>
      rw [e2] at a1
      rw [run_andThen a1]
      cases e3 : b.bids.head? with
      | none =>
        rw [e3] at b0
        rw [run_andThen_stop b0]; rfl
      | some fb =>
        rw [e3] at b0
        rw [run_andThen b0]
        cases e4 : b.bids.getLast? with
        | none =>
          rw [e4] at b1
          rw [run_andThen_stop b1]; rfl
        | some lb =>
          rw [e4] at b1
          rw [run_andThen b1]
          simp only
          by_cases c1 : (Fl.le fa.price price && Fl.le price la.price) = true
          · rw [if_pos c1, if_pos c1]; exact da _ _
          rw [if_neg c1, if_neg c1]
          by_cases c2 : (Fl.le lb.price price && Fl.le price fb.price) = true
          · rw [if_pos c2, if_pos c2]; exact db _ _
          rw [if_neg c2, if_neg c2]; rfl

theorem run_printAsks {s : Slice} (hs : SideAt h a fAsks s) : ∀ (n i : Nat), i + n = s.len →
    (printAsksS a n i).run h = (some ((((rowsOf a h).load s).take n).reverse.map .row), h)
  | 0, i, hi => rfl
  | n + 1, i, hi => by
    rw [printAsksS, run_andThen (run_len hs), if_neg (by omega)]
    have hr := run_row' hs (s.len - 1 - i)
    rw [show s.len - 1 - i = n by omega] at hr ⊢
    have hn : n < ((rowsOf a h).load s).length := by rw [length_load]; omega
    rw [List.getElem?_eq_getElem hn] at hr
    rw [run_andThen hr, run_andThen (run_printAsks hs n (i + 1) (by omega)), List.take_add_one, List.getElem?_eq_getElem hn,
      List.reverse_append, List.map_append]
    rfl

/-- **C229.** `Print` on a book in memory, alone, prints what it prints of a value, and the memory stays as it is. -/
theorem C229_print_alone {b : Book} (hs : SharedShows h a b) : (printS a).run h = (some b.print, h) := by
  obtain ⟨hb, h1, h2⟩ := hs.held
  unfold printS Book.print
  rw [run_andThen (run_len h1.askSide), run_andThen (run_printAsks h1.askSide _ 0 (Nat.zero_add _))]
  show ((HProg.load (h.cell a fBids).asHead).bind fun bids => .done (some _)).run h = _
  rw [h1.bids, HProg.run_bind]
  simp only [BCell.asHead]
  rw [HProg.run_load]
  have e : hb.asks.len = ((rowsOf a h).load hb.asks).length := (length_load ..).symm
  rw [e, List.take_length, h2.asks, print_asks]
  have e2 := rowsOf_load h1.clearB h
  rw [h2.bids] at e2
  simp [HProg.run, e2, Function.comp_def]

theorem readOnly_andThen {β γ : Type} {p : HProg BCell (Option β)} {f : β → HProg BCell (Option γ)} (hp : p.ReadOnly)
    (hf : ∀ x, (f x).ReadOnly) : (andThen p f).ReadOnly := by
  refine hp.bind fun o => ?_
  cases o with
  | none => exact .done _
  | some x => exact hf x

theorem readOnly_len (a f : Nat) : (lenS a f).ReadOnly := .get _ _ _ fun _ => .done _

theorem readOnly_row (a f i : Nat) : (rowS a f i).ReadOnly := .get _ _ _ fun c => by
  split_ifs
  · exact .get _ _ _ fun _ => .done _
  · exact .done _

theorem readOnly_findFrom (q : Row → Bool) (a f : Nat) : ∀ n i, (findFromS q a f n i).ReadOnly
  | 0, _ => .done _
  | n + 1, i => readOnly_andThen (readOnly_row ..) fun r => by
    split_ifs
    · exact .done _
    · exact readOnly_findFrom q a f n _

theorem readOnly_find (q : Row → Bool) (a f : Nat) : (findS q a f).ReadOnly :=
  readOnly_andThen (readOnly_len ..) fun _ => readOnly_findFrom ..

theorem readOnly_last (a f : Nat) : (lastS a f).ReadOnly := readOnly_andThen (readOnly_len ..) fun n => by
  split_ifs
  · exact .done _
  · exact readOnly_row ..

theorem readOnly_getDepth (a : Nat) (price : Fl) : (getDepthS a price).ReadOnly := by
  unfold getDepthS
  split_ifs
  · exact .done _
  · refine readOnly_andThen (readOnly_row ..) fun fa => readOnly_andThen (readOnly_last ..) fun la =>
      readOnly_andThen (readOnly_row ..) fun fb => readOnly_andThen (readOnly_last ..) fun lb => ?_
    split_ifs
    · refine readOnly_andThen (readOnly_find ..) fun o => ?_
      cases o with
      | none => exact .done _
      | some k => exact readOnly_andThen (readOnly_row ..) fun _ => .done _
    · refine readOnly_andThen (readOnly_find ..) fun o => ?_
      cases o with
      | none => exact .done _
      | some k => exact readOnly_andThen (readOnly_row ..) fun _ => .done _
    · exact .done _

theorem readOnly_printAsks (a : Nat) : ∀ n i, (printAsksS a n i).ReadOnly
  | 0, _ => .done _
  | n + 1, i => readOnly_andThen (readOnly_len ..) fun m => by
    split_ifs
    · exact .done _
    · exact readOnly_andThen (readOnly_row ..) fun _ => readOnly_andThen (readOnly_printAsks a n _) fun _ => .done _

theorem readOnly_readAll (b : Nat) : ∀ n i, (HProg.readAll b i n : HProg BCell (List BCell)).ReadOnly
  | 0, _ => .done _
  | n + 1, i => .get _ _ _ fun _ => (readOnly_readAll b n (i + 1)).bind fun _ => .done _

theorem readOnly_print (a : Nat) : (printS a).ReadOnly :=
  readOnly_andThen (readOnly_len ..) fun _ => readOnly_andThen (readOnly_printAsks ..) fun _ =>
    .get _ _ _ fun _ => (readOnly_readAll ..).bind fun _ => .done _

/-- The task only reads, and this is its right answer in `h`. -/
inductive Spec.Reads (h : Heap BCell) : SharedTask → SharedAnswer → Prop
  | depth {a : Nat} {b : Book} (hs : SharedShows h a b) (price : Fl) : Reads h (.depth a price) (.depth (outcome (b.getDepth price)))
  | print {a : Nat} {b : Book} (hs : SharedShows h a b) : Reads h (.print a) (.print (some b.print))

/-- **C229.** Any number of goroutines call `GetDepth` and `Print` on books that they may share, in any order of steps: the memory never
changes, and whoever has come to an end has the answer for the book. -/
theorem C229_readers {ι : Type} [DecidableEq ι] {tasks : ι → SharedTask} {answers : ι → SharedAnswer} (hr : ∀ i, Reads h (tasks i) (answers i))
    {t : Threads ι BCell (fun _ => SharedAnswer)} (st : Relation.ReflTransGen ThreadStep ⟨h, fun i => (tasks i).prog grow⟩ t) :
    t.heap = h ∧ ∀ i x, t.prog i = .done x → x = answers i := by
  have ro : ∀ i, ((tasks i).prog grow).ReadOnly := fun i => by
    have := hr i
    cases ht : tasks i with
    | update a u => rw [ht] at this; cases this
    | depth a price => exact (readOnly_getDepth a price).bind fun _ => .done _
    | print a => exact (readOnly_print a).bind fun _ => .done _
  obtain ⟨e, k⟩ := threads_readOnly ro st
  refine ⟨e, fun i x hx => ?_⟩
  have h1 := (k i).2
  rw [hx] at h1
  have h2 := congrArg Prod.fst h1
  rw [show ((HProg.done x).run h).1 = x from rfl] at h2
  rw [h2]
  have := hr i
  revert this
  generalize tasks i = ta
  generalize answers i = an
  rintro (⟨hs, price⟩ | hs)
  · show ((HProg.bind _ _).run h).1 = _
    rw [HProg.run_bind, C229_depth_alone hs]; rfl
  · show ((HProg.bind _ _).run h).1 = _
    rw [HProg.run_bind, C229_print_alone hs]; rfl

theorem part_andThen {β γ : Type} {p q : HProg BCell (Option β)} {h h' : Heap BCell} (x : HProg.Part p h q h')
    (f : β → HProg BCell (Option γ)) : HProg.Part (andThen p f) h (andThen q f) h' := x.bind _

theorem part_run {β γ : Type} {p : HProg BCell (Option β)} {f : β → HProg BCell (Option γ)} {h h' : Heap BCell} {x : β}
    (e : p.run h = (some x, h')) : HProg.Part (andThen p f) h (f x) h' := by
  have := HProg.Part.run p (fun o => match o with
    | none => .done none
    | some x => f x) h
  rw [e] at this
  exact this

/-- The rest of `ob.Asks = append(ob.Asks, r)` once `ob.Asks` has been read as `s`. -/
def appendRest (grow : Nat → Nat → Nat) (a f : Nat) (s : Slice) (p : HProg BCell (Option Row)) : HProg BCell (Option Unit) :=
  andThen p fun r => (HProg.append grow s [.row r]).bind fun s => .put a f (.head s) (.done (some ()))

theorem part_append {f : Nat} {s : Slice} (hs : SideAt h a f s) (p : HProg BCell (Option Row)) :
    HProg.Part (appendS grow a f p) h (appendRest grow a f s p) h := by
  refine .get a f _ ?_
  rw [hs.cell]
  exact .refl _ _

theorem len_append {α : Type} (h : Heap α) (s : Slice) (xs : List α) : (h.append grow s xs).2.len = s.len + xs.length := by
  unfold Heap.append; simp only; split <;> simp

theorem run_appendRest {f : Nat} {s : Slice} (hc : Clear a s) (ha : a < h.next) {p : HProg BCell (Option Row)} {r : Row}
    (hp : p.run h = (some r, h)) : ∃ h2 s2, (appendRest grow a f s p).run h = (some (), h2) ∧ SideAt h2 a f s2 ∧
      s2.len = s.len + 1 ∧ ∀ g, g ≠ f → h2.cell a g = h.cell a g := by
  obtain ⟨e1, e2, e3, e4, e5⟩ := rowsOf_append hc ha grow [.row r]
  obtain ⟨k1, k2, k3⟩ := sideAt_put (f := f) e3 e4
  refine ⟨_, _, ?_, k1, len_append .., fun g hg => (k3 g hg).trans (e5 g)⟩
  unfold appendRest
  rw [run_andThen hp, HProg.run_bind, HProg.run_append]
  rfl

/-- A new level is being set and `ob.Asks` has just been read for `append`: whatever the others do to the side in the meantime, short of
emptying it, it has in the end one row more than it had at the read. -/
theorem part_upsert {f : Nat} {s : Slice} (hs : SideAt h a f s) (before : Row → Bool) (p v : Fl)
    (hno : ∀ r ∈ (rowsOf a h).load s, Fl.eq r.price p = false) :
    ∃ P', HProg.Part (upsertS grow before a f p v) h P' h ∧ ∀ h1 s1, SideAt h1 a f s1 → s1.len ≠ 0 →
      ∃ h2 s2, P'.run h1 = (some (), h2) ∧ SideAt h2 a f s2 ∧ s2.len = s.len + 1 ∧ ∀ g, g ≠ f → h2.cell a g = h1.cell a g := by
  have e : ((rowsOf a h).load s).findIdx? (fun r => Fl.eq r.price p) = none := by
    rw [List.findIdx?_eq_none_iff]; exact hno
  have p1 := part_run (f := fun o => match o with
    | some i => setRowS a f i (mkRow p v)
    | none =>
      andThen (lenS a f) fun n => if n = 0 then appendS grow a f (.done (some (mkRow p v))) else
      andThen (lenS a f) fun n => if n = 1 then
        andThen (rowS a f 0) fun r0 =>
          if before r0 then andThen (appendS grow a f (rowS a f 0)) fun _ => setRowS a f 0 (mkRow p v)
          else appendS grow a f (.done (some (mkRow p v)))
      else
        andThen (findS before a f) fun o => match o with
          | some i => andThen (appendS grow a f (.done (some zeroRow))) fun _ => andThen (copyS a f i) fun _ =>
              setRowS a f i (mkRow p v)
          | none => appendS grow a f (.done (some (mkRow p v)))) (run_find (fun r => Fl.eq r.price p) hs)
  rw [e] at p1
  have simple : ∀ h1 s1, SideAt h1 a f s1 → s1.len ≠ 0 → ∃ h2 s2, (appendRest grow a f s (.done (some (mkRow p v)))).run h1 = (some (), h2) ∧
      SideAt h2 a f s2 ∧ s2.len = s.len + 1 ∧ ∀ g, g ≠ f → h2.cell a g = h1.cell a g := fun h1 s1 k1 _ =>
    run_appendRest hs.clear k1.addr rfl
  by_cases h0 : s.len = 0
  · refine ⟨_, p1.trans ((part_run (run_len hs)).trans ?_), simple⟩
    simp only [if_pos h0]
    exact part_append hs _
  by_cases h1 : s.len = 1
  · have hr := run_row hs (i := 0) (by omega)
    by_cases hb : before (h.cell s.arr (s.off + 0)).asRow = true
    · refine ⟨andThen (appendRest grow a f s (rowS a f 0)) fun _ => setRowS a f 0 (mkRow p v),
        p1.trans ((part_run (run_len hs)).trans ?_), fun h1 s1 k1 k2 => ?_⟩
      · simp only [if_neg h0]
        refine (part_run (run_len hs)).trans ?_
        rw [if_pos h1]
        refine (part_run hr).trans ?_
        rw [if_pos hb]
        exact part_andThen (part_append hs _) _
      · obtain ⟨h2, s2, e1, e2, e3, e4⟩ := run_appendRest (grow := grow) (f := f) hs.clear k1.addr (run_row k1 (Nat.pos_of_ne_zero k2))
        obtain ⟨h3, f1, _, f3, f4⟩ := run_setRow e2 (i := 0) (by omega) (mkRow p v)
        exact ⟨h3, s2, (run_andThen e1).trans f1, f3, e3, fun g hg => (f4 g hg).trans (e4 g hg)⟩
    · refine ⟨_, p1.trans ((part_run (run_len hs)).trans ?_), simple⟩
      simp only [if_neg h0]
      refine (part_run (run_len hs)).trans ?_
      rw [if_pos h1]
      refine (part_run hr).trans ?_
      rw [if_neg hb]
      exact part_append hs _
  · cases e' : ((rowsOf a h).load s).findIdx? before with
    | none =>
      refine ⟨_, p1.trans ((part_run (run_len hs)).trans ?_), simple⟩
      simp only [if_neg h0]
      refine (part_run (run_len hs)).trans ?_
      rw [if_neg h1]
      have hf := run_find before hs
      rw [e'] at hf
      exact (part_run hf).trans (part_append hs _)
    | some i =>
      have hi : i < s.len := by
        have := List.findIdx?_eq_some_iff_findIdx_eq.1 e'
        rw [length_load] at this; exact this.1
      refine ⟨andThen (appendRest grow a f s (.done (some zeroRow))) fun _ => andThen (copyS a f i) fun _ => setRowS a f i (mkRow p v),
        p1.trans ((part_run (run_len hs)).trans ?_), fun h1 s1 k1 k2 => ?_⟩
      · simp only [if_neg h0]
        refine (part_run (run_len hs)).trans ?_
        rw [if_neg h1]
        have hf := run_find before hs
        rw [e'] at hf
        exact (part_run hf).trans (part_andThen (part_append hs _) _)
      · obtain ⟨h2, s2, e1, e2, e3, e4⟩ := run_appendRest (grow := grow) (f := f) (p := .done (some zeroRow)) hs.clear k1.addr rfl
        obtain ⟨h3, f1, _, f3, f4⟩ := run_copy e2 (i := i) (by omega)
        obtain ⟨h4, g1, _, g3, g4⟩ := run_setRow f3 (i := i) (by omega) (mkRow p v)
        exact ⟨h4, s2, (run_andThen e1).trans ((run_andThen f1).trans g1), g3, e3,
          fun g hg => (g4 g hg).trans ((f4 g hg).trans (e4 g hg))⟩

theorem hLimitSide_ok (s : Slice) {d : Int} (hd : 0 ≤ d) (hw : s.len ≤ s.cap) :
    ∃ s', hLimitSide s d = some s' ∧ ((s.len : Int) ≤ d → s' = s) := by
  unfold hLimitSide hSliceTo
  by_cases hc : (s.len : Int) > d
  · rw [if_pos hc, if_neg (by omega)]
    exact ⟨_, rfl, fun h => absurd h (by omega)⟩
  · rw [if_neg hc]
    exact ⟨_, rfl, fun _ => rfl⟩

theorem run_limit_ok (hs : SharedAt h a hb) (hd : 0 ≤ hb.maxDepth) : ∃ h' hb', (limitS a).run h = (some (), h') ∧ SharedAt h' a hb' ∧
    ((hb.asks.len : Int) ≤ hb.maxDepth → hb'.asks = hb.asks) ∧ ((hb.bids.len : Int) ≤ hb.maxDepth → hb'.bids = hb.bids) := by
  have := samePart_limit hs
  unfold HBook.limit at this
  obtain ⟨sa, ea, ka⟩ := hLimitSide_ok hb.asks hd hs.clearA.wf
  obtain ⟨sb, eb, kb⟩ := hLimitSide_ok hb.bids hd hs.clearB.wf
  rw [ea, eb] at this
  obtain ⟨h', e1, _, e3⟩ := this
  exact ⟨h', _, e1, e3, ka, kb⟩

theorem gUpsert_perm (lt : Fl → Fl → Bool) {rows : List Row} (p v : Fl) (hno : ∀ r ∈ rows, Fl.eq r.price p = false) :
    (gUpsert lt rows p v).Perm (mkRow p v :: rows) := by
  unfold gUpsert
  have e : rows.findIdx? (fun r => Fl.eq r.price p) = none := by rw [List.findIdx?_eq_none_iff]; exact hno
  rw [e]
  simp only
  have last : ∀ l : List Row, (l ++ [mkRow p v]).Perm (mkRow p v :: l) := fun l => List.perm_append_comm
  split
  · exact .refl _
  · split_ifs
    · exact .refl _
    · exact last _
  · split
    · rename_i i hi
      obtain ⟨l1, x, l2, rfl, rfl, hx, _⟩ := findIdx?_some_split hi
      rw [shiftRight_append, set_append_cons]
      exact List.perm_middle
    · exact last _

theorem gUpsert_ne_nil (lt : Fl → Fl → Bool) (rows : List Row) (p v : Fl) : gUpsert lt rows p v ≠ [] := by
  cases e : rows.findIdx? (fun r => Fl.eq r.price p) with
  | none =>
    intro h
    have := (gUpsert_perm lt p v (List.findIdx?_eq_none_iff.1 e)).length_eq
    rw [h] at this
    cases this
  | some i =>
    unfold gUpsert
    rw [e]
    intro h
    simp only [List.set_eq_nil_iff] at h
    rw [h] at e
    cases e

/-- Goroutine one has read the header of the asks for its `append` when the other sets its level from start to end. -/
theorem lost_ask {b : Book} (hs : SharedShows h a b) {u1 u2 : Update} (s1 : u1.side = "ask") (s2 : u2.side = "ask")
    (v1 : Fl.ne u1.volume (.fin 0) = true) (v2 : Fl.ne u2.volume (.fin 0) = true)
    (n1 : ∀ r ∈ b.asks, Fl.eq r.price u1.price = false) (hd : (b.asks.length : Int) < b.maxDepth) :
    ∃ q h0 h1 h3 s, HProg.Part (applyUpdateS grow a u1) h q h0 ∧ (applyUpdateS grow a u2).run h0 = (some none, h1) ∧
      q.run h1 = (some none, h3) ∧ h3.cell a fAsks = .head s ∧ s.len = b.asks.length + 1 := by
  obtain ⟨hb, k1, k2⟩ := hs.held
  have hl : hb.asks.len = b.asks.length := by rw [← k2.asks, length_load]
  obtain ⟨h0, e1, e2, e3⟩ := GivesSide.bids k1 (run_removeInvalid k1.bidSide (fun r => Fl.gt u1.price r.price) (fun r => Fl.gt r.price u1.price))
  obtain ⟨st, sl⟩ := step_removeInvalidBid k2.wfb u1.price
  rw [k2.bids] at sl
  have k0 : SharedShows h0 a { b with bids := (removeInvalidBid b.bids u1.price).1 } := ⟨_, e3, by
    rw [e2]; exact (Shows.bid k2 st sl).1⟩
  obtain ⟨P', f1, f2⟩ := part_upsert (grow := grow) e3.askSide (fun r => Fl.gt r.price u1.price) u1.price u1.volume (by
    rw [e2]; simp only; rw [k2.asks]; exact n1)
  have c := C229_update_alone (grow := grow) k0 u2
  rw [applyUpdate_ask_set' (b := { b with bids := (removeInvalidBid b.bids u1.price).1 }) (show (0 : Int) ≤ b.maxDepth by omega) s2 v2] at c
  obtain ⟨h1, g1, g2⟩ := c
  obtain ⟨hb1, m1, m2⟩ := g2.held
  have hne : hb1.asks.len ≠ 0 := by
    have := congrArg List.length m2.asks
    rw [length_load, List.length_take] at this
    have h2 : (upsertAsk b.asks u2.price u2.volume).length ≠ 0 := by
      intro h0
      rw [List.length_eq_zero_iff] at h0
      exact gUpsert_ne_nil _ _ _ _ h0
    simp only at this
    omega
  obtain ⟨h2, s', p1, p2, p3, p4⟩ := f2 h1 _ m1.askSide hne
  have m3 : SharedAt h2 a { hb1 with asks := s' } := ⟨(p4 _ (by decide)).trans m1.time, p2.cell, (p4 _ (by decide)).trans m1.bids,
    (p4 _ (by decide)).trans m1.depth, p2.addr, p2.clear, m1.clearB⟩
  have md : hb1.maxDepth = b.maxDepth := m2.depth
  obtain ⟨h3, hb3, q1, q2, q3, _⟩ := run_limit_ok m3 (by simp only; omega)
  have q3 := q3 (by simp only at p3 ⊢; rw [p3]; omega)
  refine ⟨andThen (andThen P' fun _ => limitS a) fun _ => .done (some none), h0, h1, h3, s', ?_, g1,
    run_andThen ((run_andThen p1).trans q1), ?_, ?_⟩
  · unfold applyUpdateS
    rw [if_pos s1, if_pos v1]
    exact part_andThen ((part_run e1).trans (part_andThen f1 _)) _
  · rw [q2.asks, q3]
  · rw [p3, ← hl]

theorem seq_ask {b : Book} {u1 u2 : Update} (s1 : u1.side = "ask") (s2 : u2.side = "ask")
    (v1 : Fl.ne u1.volume (.fin 0) = true) (v2 : Fl.ne u2.volume (.fin 0) = true)
    (n1 : ∀ r ∈ b.asks, Fl.eq r.price u1.price = false) (n2 : ∀ r ∈ b.asks, Fl.eq r.price u2.price = false)
    (hne : Fl.eq u1.price u2.price = false) (hd : (b.asks.length : Int) + 2 ≤ b.maxDepth) :
    ∃ b1 b2, b.applyUpdate u1 = .ok b1 ∧ b1.applyUpdate u2 = .ok b2 ∧ b2.asks.length = b.asks.length + 2 := by
  have e1 := applyUpdate_ask_set' (b := b) (show (0 : Int) ≤ b.maxDepth by omega) s1 v1
  have p1 := gUpsert_perm Fl.lt u1.price u1.volume n1
  have t1 : (upsertAsk b.asks u1.price u1.volume).take b.maxDepth.toNat = upsertAsk b.asks u1.price u1.volume :=
    List.take_of_length_le (by rw [upsertAsk_eq, p1.length_eq, List.length_cons]; omega)
  rw [t1] at e1
  have e2 := applyUpdate_ask_set' (b := { b with
    asks := upsertAsk b.asks u1.price u1.volume,
    bids := (removeInvalidBid b.bids u1.price).1.take b.maxDepth.toNat }) (show (0 : Int) ≤ b.maxDepth by omega) s2 v2
  have p2 := gUpsert_perm (rows := upsertAsk b.asks u1.price u1.volume) Fl.lt u2.price u2.volume (fun r hr => by
    rw [upsertAsk_eq] at hr
    rcases List.mem_cons.1 (p1.mem_iff.1 hr) with rfl | hr
    · exact hne
    · exact n2 r hr)
  refine ⟨_, _, e1, e2, ?_⟩
  simp only
  rw [upsertAsk_eq] at p2 ⊢
  rw [List.length_take, p2.length_eq, List.length_cons, p1.length_eq, List.length_cons]
  omega

/-- Goroutine one has read the header of the bids for its `append` when the other sets its level from start to end. -/
theorem lost_bid {b : Book} (hs : SharedShows h a b) {u1 u2 : Update} (s1 : u1.side = "bid") (s2 : u2.side = "bid")
    (v1 : Fl.ne u1.volume (.fin 0) = true) (v2 : Fl.ne u2.volume (.fin 0) = true)
    (n1 : ∀ r ∈ b.bids, Fl.eq r.price u1.price = false) (hd : (b.bids.length : Int) < b.maxDepth) :
    ∃ q h0 h1 h3 s, HProg.Part (applyUpdateS grow a u1) h q h0 ∧ (applyUpdateS grow a u2).run h0 = (some none, h1) ∧
      q.run h1 = (some none, h3) ∧ h3.cell a fBids = .head s ∧ s.len = b.bids.length + 1 := by
  obtain ⟨hb, k1, k2⟩ := hs.held
  have hl : hb.bids.len = b.bids.length := by rw [← k2.bids, length_load]
  obtain ⟨h0, e1, e2, e3⟩ := GivesSide.asks k1 (run_removeInvalid k1.askSide (fun r => Fl.lt u1.price r.price) (fun r => Fl.lt r.price u1.price))
  obtain ⟨st, sl⟩ := step_removeInvalidAsk k2.wfa u1.price
  rw [k2.asks] at sl
  have k0 : SharedShows h0 a { b with asks := (removeInvalidAsk b.asks u1.price).1 } := ⟨_, e3, by
    rw [e2]; exact (Shows.ask k2 st sl).1⟩
  obtain ⟨P', f1, f2⟩ := part_upsert (grow := grow) e3.bidSide (fun r => Fl.lt r.price u1.price) u1.price u1.volume (by
    rw [e2]; simp only; rw [k2.bids]; exact n1)
  have c := C229_update_alone (grow := grow) k0 u2
  rw [applyUpdate_bid_set' (b := { b with asks := (removeInvalidAsk b.asks u1.price).1 }) (show (0 : Int) ≤ b.maxDepth by omega) s2 v2] at c
  obtain ⟨h1, g1, g2⟩ := c
  obtain ⟨hb1, m1, m2⟩ := g2.held
  have hne : hb1.bids.len ≠ 0 := by
    have := congrArg List.length m2.bids
    rw [length_load, List.length_take] at this
    have h2 : (upsertBid b.bids u2.price u2.volume).length ≠ 0 := by
      intro h0
      rw [List.length_eq_zero_iff, upsertBid_eq] at h0
      exact gUpsert_ne_nil _ _ _ _ h0
    simp only at this
    omega
  obtain ⟨h2, s', p1, p2, p3, p4⟩ := f2 h1 _ m1.bidSide hne
  have m3 : SharedAt h2 a { hb1 with bids := s' } := ⟨(p4 _ (by decide)).trans m1.time, (p4 _ (by decide)).trans m1.asks, p2.cell,
    (p4 _ (by decide)).trans m1.depth, p2.addr, m1.clearA, p2.clear⟩
  have md : hb1.maxDepth = b.maxDepth := m2.depth
  obtain ⟨h3, hb3, q1, q2, _, q3⟩ := run_limit_ok m3 (by simp only; omega)
  have q3 := q3 (by simp only at p3 ⊢; rw [p3]; omega)
  refine ⟨andThen (andThen P' fun _ => limitS a) fun _ => .done (some none), h0, h1, h3, s', ?_, g1,
    run_andThen ((run_andThen p1).trans q1), ?_, ?_⟩
  · unfold applyUpdateS
    rw [if_neg (by rw [s1]; decide), if_pos s1, if_pos v1]
    exact part_andThen ((part_run e1).trans (part_andThen f1 _)) _
  · rw [q2.bids, q3]
  · rw [p3, ← hl]

theorem seq_bid {b : Book} {u1 u2 : Update} (s1 : u1.side = "bid") (s2 : u2.side = "bid")
    (v1 : Fl.ne u1.volume (.fin 0) = true) (v2 : Fl.ne u2.volume (.fin 0) = true)
    (n1 : ∀ r ∈ b.bids, Fl.eq r.price u1.price = false) (n2 : ∀ r ∈ b.bids, Fl.eq r.price u2.price = false)
    (hne : Fl.eq u1.price u2.price = false) (hd : (b.bids.length : Int) + 2 ≤ b.maxDepth) :
    ∃ b1 b2, b.applyUpdate u1 = .ok b1 ∧ b1.applyUpdate u2 = .ok b2 ∧ b2.bids.length = b.bids.length + 2 := by
  have e1 := applyUpdate_bid_set' (b := b) (show (0 : Int) ≤ b.maxDepth by omega) s1 v1
  have p1 := gUpsert_perm (fun a b => Fl.lt b a) u1.price u1.volume n1
  have t1 : (upsertBid b.bids u1.price u1.volume).take b.maxDepth.toNat = upsertBid b.bids u1.price u1.volume :=
    List.take_of_length_le (by rw [upsertBid_eq, p1.length_eq, List.length_cons]; omega)
  rw [t1] at e1
  have e2 := applyUpdate_bid_set' (b := { b with
    asks := (removeInvalidAsk b.asks u1.price).1.take b.maxDepth.toNat,
    bids := upsertBid b.bids u1.price u1.volume }) (show (0 : Int) ≤ b.maxDepth by omega) s2 v2
  have p2 := gUpsert_perm (rows := upsertBid b.bids u1.price u1.volume) (fun a b => Fl.lt b a) u2.price u2.volume (fun r hr => by
    rw [upsertBid_eq] at hr
    rcases List.mem_cons.1 (p1.mem_iff.1 hr) with rfl | hr
    · exact hne
    · exact n2 r hr)
  refine ⟨_, _, e1, e2, ?_⟩
  simp only
  rw [upsertBid_eq] at p2 ⊢
  rw [List.length_take, p2.length_eq, List.length_cons, p1.length_eq, List.length_cons]
  omega

theorem Fl.eq_swap (x y : Fl) : Fl.eq x y = Fl.eq y x := by
  unfold Fl.eq
  rw [Bool.and_comm (!x.isNaN)]
  congr 1
  exact decide_eq_decide.2 eq_comm


/-- **C230.** Two goroutines each set a new ask level on one book with room for both: they can end without an error with one level only
added, although either order of the two calls adds both. -/
theorem C230_lost_ask {b : Book} (hs : SharedShows h a b) {u1 u2 : Update} (s1 : u1.side = "ask") (s2 : u2.side = "ask")
    (v1 : Fl.ne u1.volume (.fin 0) = true) (v2 : Fl.ne u2.volume (.fin 0) = true)
    (n1 : ∀ r ∈ b.asks, Fl.eq r.price u1.price = false) (n2 : ∀ r ∈ b.asks, Fl.eq r.price u2.price = false)
    (hne : Fl.eq u1.price u2.price = false) (hd : (b.asks.length : Int) + 2 ≤ b.maxDepth)
    {ι : Type} [DecidableEq ι] {tasks : ι → SharedTask} {i j : ι} (hij : i ≠ j) (ti : tasks i = .update a u1) (tj : tasks j = .update a u2) :
    (∃ b1 b2, b.applyUpdate u1 = .ok b1 ∧ b1.applyUpdate u2 = .ok b2 ∧ b2.asks.length = b.asks.length + 2) ∧
    (∃ b1 b2, b.applyUpdate u2 = .ok b1 ∧ b1.applyUpdate u1 = .ok b2 ∧ b2.asks.length = b.asks.length + 2) ∧
    ∃ (t : Threads ι BCell (fun _ => SharedAnswer)) (s : Slice),
      Relation.ReflTransGen ThreadStep ⟨h, fun i => (tasks i).prog grow⟩ t ∧
      t.prog i = .done (.update (some none)) ∧ t.prog j = .done (.update (some none)) ∧
      t.heap.cell a fAsks = .head s ∧ s.len = b.asks.length + 1 := by
  refine ⟨seq_ask s1 s2 v1 v2 n1 n2 hne hd, seq_ask s2 s1 v2 v1 n2 n1 (by rw [Fl.eq_swap]; exact hne) hd, ?_⟩
  obtain ⟨q, h0, h1, h3, s, p1, p2, p3, p4, p5⟩ := lost_ask (grow := grow) hs s1 s2 v1 v2 n1 (by omega)
  obtain ⟨t, k1, k2, k3, k4⟩ := threads_between hij (P := fun i => (tasks i).prog grow) (h := h) (h0 := h0)
    (q := q.bind fun r => .done (.update r)) (by simp only [ti]; exact p1.bind _)
  have ej : ((tasks j).prog grow).run h0 = (.update (some none), h1) := by
    rw [tj]
    show ((applyUpdateS grow a u2).bind fun r => .done (SharedAnswer.update r)).run h0 = _
    rw [HProg.run_bind, p2]; rfl
  have ei : (q.bind fun r => .done (.update r)).run h1 = (SharedAnswer.update (some none), h3) := by
    rw [HProg.run_bind, p3]; rfl
  simp only [ej, ei] at k2 k3 k4
  exact ⟨t, s, k1, k3, k4, by rw [k2]; exact p4, p5⟩

/-- **C230.** Two goroutines each set a new bid level on one book with room for both: they can end without an error with one level only
added, although either order of the two calls adds both. -/
theorem C230_lost_bid {b : Book} (hs : SharedShows h a b) {u1 u2 : Update} (s1 : u1.side = "bid") (s2 : u2.side = "bid")
    (v1 : Fl.ne u1.volume (.fin 0) = true) (v2 : Fl.ne u2.volume (.fin 0) = true)
    (n1 : ∀ r ∈ b.bids, Fl.eq r.price u1.price = false) (n2 : ∀ r ∈ b.bids, Fl.eq r.price u2.price = false)
    (hne : Fl.eq u1.price u2.price = false) (hd : (b.bids.length : Int) + 2 ≤ b.maxDepth)
    {ι : Type} [DecidableEq ι] {tasks : ι → SharedTask} {i j : ι} (hij : i ≠ j) (ti : tasks i = .update a u1) (tj : tasks j = .update a u2) :
    (∃ b1 b2, b.applyUpdate u1 = .ok b1 ∧ b1.applyUpdate u2 = .ok b2 ∧ b2.bids.length = b.bids.length + 2) ∧
    (∃ b1 b2, b.applyUpdate u2 = .ok b1 ∧ b1.applyUpdate u1 = .ok b2 ∧ b2.bids.length = b.bids.length + 2) ∧
    ∃ (t : Threads ι BCell (fun _ => SharedAnswer)) (s : Slice),
      Relation.ReflTransGen ThreadStep ⟨h, fun i => (tasks i).prog grow⟩ t ∧
      t.prog i = .done (.update (some none)) ∧ t.prog j = .done (.update (some none)) ∧
      t.heap.cell a fBids = .head s ∧ s.len = b.bids.length + 1 := by
  refine ⟨seq_bid s1 s2 v1 v2 n1 n2 hne hd, seq_bid s2 s1 v2 v1 n2 n1 (by rw [Fl.eq_swap]; exact hne) hd, ?_⟩
  obtain ⟨q, h0, h1, h3, s, p1, p2, p3, p4, p5⟩ := lost_bid (grow := grow) hs s1 s2 v1 v2 n1 (by omega)
  obtain ⟨t, k1, k2, k3, k4⟩ := threads_between hij (P := fun i => (tasks i).prog grow) (h := h) (h0 := h0)
    (q := q.bind fun r => .done (.update r)) (by simp only [ti]; exact p1.bind _)
  have ej : ((tasks j).prog grow).run h0 = (.update (some none), h1) := by
    rw [tj]
    show ((applyUpdateS grow a u2).bind fun r => .done (SharedAnswer.update r)).run h0 = _
    rw [HProg.run_bind, p2]; rfl
  have ei : (q.bind fun r => .done (.update r)).run h1 = (SharedAnswer.update (some none), h3) := by
    rw [HProg.run_bind, p3]; rfl
  simp only [ej, ei] at k2 k3 k4
  exact ⟨t, s, k1, k3, k4, by rw [k2]; exact p4, p5⟩

theorem part_findFrom (q : Row → Bool) {f : Nat} {s : Slice} (hs : SideAt h a f s) (m : Nat) : ∀ (k i : Nat), i + k ≤ s.len →
    (∀ j, i ≤ j → j < i + k → ∀ r, ((rowsOf a h).load s)[j]? = some r → q r = false) →
    HProg.Part (findFromS q a f (k + m) i) h (findFromS q a f m (i + k)) h
  | 0, i, _, _ => by rw [Nat.zero_add, Nat.add_zero]; exact .refl _ _
  | k + 1, i, hi, hq => by
    have hlt : i < s.len := by omega
    rw [show k + 1 + m = (k + m) + 1 by omega, findFromS]
    refine (part_run (run_row hs hlt)).trans ?_
    rw [if_neg (by rw [hq i le_rfl (by omega) _ (load_row hs hlt)]; decide), show i + (k + 1) = (i + 1) + k by omega]
    exact part_findFrom q hs m k (i + 1) (by omega) fun j h1 h2 => hq j (by omega) (by omega)

/-- `GetDepth` within the asks comes as far as row `m`, unless a row before it is dearer. -/
theorem part_getDepth {b : Book} (k1 : SharedAt h a hb) (k2 : Shows (rowsOf a h) hb b) {price : Fl} (hp : Fl.le price (.fin 0) = false)
    {first last : Row} (hf : b.asks.head? = some first) (hl : b.asks.getLast? = some last) (c1 : Fl.le first.price price = true)
    (c2 : Fl.le price last.price = true) (hbids : b.bids ≠ []) {m : Nat} (hm : m < b.asks.length)
    (hno : ∀ r ∈ b.asks.take m, Fl.gt r.price price = false) :
    ∃ q, HProg.Part (getDepthS a price) h q h ∧ ∀ h1 s1, SideAt h1 a fAsks s1 → s1.len ≤ m → (q.run h1).1 = none := by
  obtain ⟨fb, hfb⟩ : ∃ r, b.bids.head? = some r := by cases hb : b.bids with
    | nil => exact absurd hb hbids
    | cons r l => exact ⟨r, rfl⟩
  obtain ⟨lb, hlb⟩ : ∃ r, b.bids.getLast? = some r := ⟨_, List.getLast?_eq_getLast_of_ne_nil hbids⟩
  have a0 := run_row' k1.askSide 0
  have a1 := run_last k1.askSide
  have b0 := run_row' k1.bidSide 0
  have b1 := run_last k1.bidSide
  rw [k2.asks] at a0 a1
  rw [k2.bids] at b0 b1
  rw [← List.head?_eq_getElem?] at a0 b0
  rw [hf] at a0
  rw [hl] at a1
  rw [hfb] at b0
  rw [hlb] at b1
  have hlen : hb.asks.len = b.asks.length := by rw [← k2.asks, length_load]
  refine ⟨andThen (findFromS (fun r => Fl.gt r.price price) a fAsks (hb.asks.len - m) m) fun o => match o with
          | some k => andThen (rowS a fAsks (k - 1)) fun r => .done (some (.ok r.price))
          | none => .done (some (.ok last.price)), ?_, fun h1 s1 e1 e2 => ?_⟩
  · unfold getDepthS
    rw [if_neg (by rw [hp]; decide)]
    refine (part_run a0).trans ((part_run a1).trans ((part_run b0).trans ((part_run b1).trans ?_)))
    rw [if_pos (by rw [c1, c2]; rfl)]
    refine part_andThen ((part_run (run_len k1.askSide)).trans ?_) _
    have := part_findFrom (fun r => Fl.gt r.price price) k1.askSide (hb.asks.len - m) m 0 (by omega) fun j _ hj r hr => by
      rw [k2.asks] at hr
      refine hno r (List.mem_of_getElem? (i := j) ?_)
      rw [List.getElem?_take, if_pos (by omega)]; exact hr
    rw [show m + (hb.asks.len - m) = hb.asks.len by omega, Nat.zero_add] at this
    exact this
  · refine run_andThen_none ?_
    rw [show hb.asks.len - m = (hb.asks.len - m - 1) + 1 by omega, findFromS]
    exact run_andThen_none (by rw [run_row_none e1 e2])

/-- **C231.** `GetDepth` at a price within the asks has found no dearer row among the first `m`, and meanwhile another goroutine's
`ApplyUpdate` leaves `m` asks or fewer: then `GetDepth` can panic, although it does not on the book as it was, nor on the book as it is
then unless a side is empty. -/
theorem C231_depth {b b' : Book} (hs : SharedShows h a b) {price : Fl} (hp : Fl.le price (.fin 0) = false)
    {first last : Row} (hf : b.asks.head? = some first) (hl : b.asks.getLast? = some last) (c1 : Fl.le first.price price = true)
    (c2 : Fl.le price last.price = true) (hbids : b.bids ≠ []) {m : Nat} (hm : m < b.asks.length)
    (hno : ∀ r ∈ b.asks.take m, Fl.gt r.price price = false) {u : Update} (hu : b.applyUpdate u = .ok b') (hb' : b'.asks.length ≤ m)
    {ι : Type} [DecidableEq ι] {tasks : ι → SharedTask} {i j : ι} (hij : i ≠ j) (ti : tasks i = .depth a price) (tj : tasks j = .update a u) :
    b.getDepth price ≠ .panic ∧ (b'.asks ≠ [] → b'.bids ≠ [] → b'.getDepth price ≠ .panic) ∧
    ∃ t : Threads ι BCell (fun _ => SharedAnswer), Relation.ReflTransGen ThreadStep ⟨h, fun i => (tasks i).prog grow⟩ t ∧
      t.prog i = .done (.depth none) ∧ t.prog j = .done (.update (some none)) ∧ SharedShows t.heap a b' := by
  refine ⟨C19_get_depth_no_panic_partial _ _ (.inl ⟨fun e => ?_, hbids⟩), fun e1 e2 => C19_get_depth_no_panic_partial _ _ (.inl ⟨e1, e2⟩), ?_⟩
  · rw [e] at hm; cases hm
  obtain ⟨hb, k1, k2⟩ := hs.held
  obtain ⟨q, p1, p2⟩ := part_getDepth k1 k2 hp hf hl c1 c2 hbids hm hno
  have c := C229_update_alone (grow := grow) hs u
  rw [hu] at c
  obtain ⟨h1, g1, g2⟩ := c
  obtain ⟨hb1, m1, m2⟩ := g2.held
  have hlen : hb1.asks.len = b'.asks.length := by rw [← m2.asks, length_load]
  obtain ⟨t, r1, r2, r3, r4⟩ := threads_between hij (P := fun i => (tasks i).prog grow) (h := h) (h0 := h)
    (q := q.bind fun r => .done (.depth r)) (by simp only [ti]; exact p1.bind _)
  have ej : ((tasks j).prog grow).run h = (.update (some none), h1) := by
    rw [tj]
    show ((applyUpdateS grow a u).bind fun r => .done (SharedAnswer.update r)).run h = _
    rw [HProg.run_bind, g1]; rfl
  have ei : (q.bind fun r => .done (.depth r)).run h1 = (SharedAnswer.depth none, h1) := by
    rw [HProg.run_bind, p2 h1 _ m1.askSide (by omega), ((readOnly_getDepth a price).part p1).run_heap]; rfl
  simp only [ej, ei] at r2 r3 r4
  exact ⟨t, r1, r3, r4, by rw [r2]; exact g2⟩

/-- `GetDepth` within the bids comes as far as row `m`, unless a row before it is cheaper. -/
theorem part_getDepth_bids {b : Book} (k1 : SharedAt h a hb) (k2 : Shows (rowsOf a h) hb b) {price : Fl} (hp : Fl.le price (.fin 0) = false)
    {fa la first last : Row} (hfa : b.asks.head? = some fa) (hla : b.asks.getLast? = some la)
    (hout : (Fl.le fa.price price && Fl.le price la.price) = false)
    (hf : b.bids.head? = some first) (hl : b.bids.getLast? = some last) (c1 : Fl.le last.price price = true)
    (c2 : Fl.le price first.price = true) {m : Nat} (hm : m < b.bids.length)
    (hno : ∀ r ∈ b.bids.take m, Fl.lt r.price price = false) :
    ∃ q, HProg.Part (getDepthS a price) h q h ∧ ∀ h1 s1, SideAt h1 a fBids s1 → s1.len ≤ m → (q.run h1).1 = none := by
  have a0 := run_row' k1.askSide 0
  have a1 := run_last k1.askSide
  have b0 := run_row' k1.bidSide 0
  have b1 := run_last k1.bidSide
  rw [k2.asks] at a0 a1
  rw [k2.bids] at b0 b1
  rw [← List.head?_eq_getElem?] at a0 b0
  rw [hfa] at a0
  rw [hla] at a1
  rw [hf] at b0
  rw [hl] at b1
  have hlen : hb.bids.len = b.bids.length := by rw [← k2.bids, length_load]
  refine ⟨andThen (findFromS (fun r => Fl.lt r.price price) a fBids (hb.bids.len - m) m) fun o => match o with
          | some k => andThen (rowS a fBids (k - 1)) fun r => .done (some (.ok r.price))
          | none => .done (some (.ok last.price)), ?_, fun h1 s1 e1 e2 => ?_⟩
  · unfold getDepthS
    rw [if_neg (by rw [hp]; decide)]
    refine (part_run a0).trans ((part_run a1).trans ((part_run b0).trans ((part_run b1).trans ?_)))
    rw [if_neg (by rw [hout]; decide), if_pos (by rw [c1, c2]; rfl)]
    refine part_andThen ((part_run (run_len k1.bidSide)).trans ?_) _
    have := part_findFrom (fun r => Fl.lt r.price price) k1.bidSide (hb.bids.len - m) m 0 (by omega) fun j _ hj r hr => by
      rw [k2.bids] at hr
      refine hno r (List.mem_of_getElem? (i := j) ?_)
      rw [List.getElem?_take, if_pos (by omega)]; exact hr
    rw [show m + (hb.bids.len - m) = hb.bids.len by omega, Nat.zero_add] at this
    exact this
  · refine run_andThen_none ?_
    rw [show hb.bids.len - m = (hb.bids.len - m - 1) + 1 by omega, findFromS]
    exact run_andThen_none (by rw [run_row_none e1 e2])

/-- **C231.** `GetDepth` at a price within the bids, and not within the asks, has found no cheaper row among the first `m`, and meanwhile another goroutine's
`ApplyUpdate` leaves `m` bids or fewer: then `GetDepth` can panic, although it does not on the book as it was, nor on the book as it is
then unless a side is empty. -/
theorem C231_depth_bids {b b' : Book} (hs : SharedShows h a b) {price : Fl} (hp : Fl.le price (.fin 0) = false)
    {fa la first last : Row} (hfa : b.asks.head? = some fa) (hla : b.asks.getLast? = some la)
    (hout : (Fl.le fa.price price && Fl.le price la.price) = false)
    (hf : b.bids.head? = some first) (hl : b.bids.getLast? = some last) (c1 : Fl.le last.price price = true)
    (c2 : Fl.le price first.price = true) {m : Nat} (hm : m < b.bids.length)
    (hno : ∀ r ∈ b.bids.take m, Fl.lt r.price price = false) {u : Update} (hu : b.applyUpdate u = .ok b') (hb' : b'.bids.length ≤ m)
    {ι : Type} [DecidableEq ι] {tasks : ι → SharedTask} {i j : ι} (hij : i ≠ j) (ti : tasks i = .depth a price) (tj : tasks j = .update a u) :
    b.getDepth price ≠ .panic ∧ (b'.asks ≠ [] → b'.bids ≠ [] → b'.getDepth price ≠ .panic) ∧
    ∃ t : Threads ι BCell (fun _ => SharedAnswer), Relation.ReflTransGen ThreadStep ⟨h, fun i => (tasks i).prog grow⟩ t ∧
      t.prog i = .done (.depth none) ∧ t.prog j = .done (.update (some none)) ∧ SharedShows t.heap a b' := by
  refine ⟨C19_get_depth_no_panic_partial _ _ (.inl ⟨fun e => ?_, fun e => ?_⟩), fun e1 e2 => C19_get_depth_no_panic_partial _ _ (.inl ⟨e1, e2⟩), ?_⟩
  · rw [e] at hfa; cases hfa
  · rw [e] at hm; cases hm
  obtain ⟨hb, k1, k2⟩ := hs.held
  obtain ⟨q, p1, p2⟩ := part_getDepth_bids k1 k2 hp hfa hla hout hf hl c1 c2 hm hno
  have c := C229_update_alone (grow := grow) hs u
  rw [hu] at c
  obtain ⟨h1, g1, g2⟩ := c
  obtain ⟨hb1, m1, m2⟩ := g2.held
  have hlen : hb1.bids.len = b'.bids.length := by rw [← m2.bids, length_load]
  obtain ⟨t, r1, r2, r3, r4⟩ := threads_between hij (P := fun i => (tasks i).prog grow) (h := h) (h0 := h)
    (q := q.bind fun r => .done (.depth r)) (by simp only [ti]; exact p1.bind _)
  have ej : ((tasks j).prog grow).run h = (.update (some none), h1) := by
    rw [tj]
    show ((applyUpdateS grow a u).bind fun r => .done (SharedAnswer.update r)).run h = _
    rw [HProg.run_bind, g1]; rfl
  have ei : (q.bind fun r => .done (.depth r)).run h1 = (SharedAnswer.depth none, h1) := by
    rw [HProg.run_bind, p2 h1 _ m1.bidSide (by omega), ((readOnly_getDepth a price).part p1).run_heap]; rfl
  simp only [ej, ei] at r2 r3 r4
  exact ⟨t, r1, r3, r4, by rw [r2]; exact g2⟩

theorem part_printAsks {s : Slice} (hs : SideAt h a fAsks s) : ∀ (k i : Nat), i + (k + 1) = s.len →
    ∃ q, HProg.Part (printAsksS a (k + 1) i) h q h ∧ ∀ h1 s1, SideAt h1 a fAsks s1 → s1.len < s.len → (q.run h1).1 = none
  | 0, i, hi => ⟨_, .refl _ _, fun h1 s1 e1 e2 => by
      rw [printAsksS, run_andThen (run_len e1), if_pos (by omega)]; rfl⟩
  | k + 1, i, hi => by
    obtain ⟨q, p1, p2⟩ := part_printAsks hs k (i + 1) (by omega)
    refine ⟨andThen q fun ls => .done (some (.row (h.cell s.arr (s.off + (s.len - 1 - i))).asRow :: ls)), ?_, fun h1 s1 e1 e2 =>
      run_andThen_none (p2 h1 s1 e1 e2)⟩
    rw [printAsksS]
    refine (part_run (run_len hs)).trans ?_
    rw [if_neg (by omega)]
    exact (part_run (run_row hs (by omega))).trans (part_andThen p1 _)

/-- **C231.** `Print` is at its last ask when another goroutine's `ApplyUpdate` leaves fewer asks than there were: then `Print` can panic,
which it never does on a book that no one else uses (C229). -/
theorem C231_print {b b' : Book} (hs : SharedShows h a b) {u : Update} (hu : b.applyUpdate u = .ok b')
    (hb' : b'.asks.length < b.asks.length)
    {ι : Type} [DecidableEq ι] {tasks : ι → SharedTask} {i j : ι} (hij : i ≠ j) (ti : tasks i = .print a) (tj : tasks j = .update a u) :
    ∃ t : Threads ι BCell (fun _ => SharedAnswer), Relation.ReflTransGen ThreadStep ⟨h, fun i => (tasks i).prog grow⟩ t ∧
      t.prog i = .done (.print none) ∧ t.prog j = .done (.update (some none)) ∧ SharedShows t.heap a b' := by
  obtain ⟨hb, k1, k2⟩ := hs.held
  have hlen0 : hb.asks.len = b.asks.length := by rw [← k2.asks, length_load]
  obtain ⟨q, p1, p2⟩ : ∃ q, HProg.Part (printS a) h q h ∧ ∀ h1 s1, SideAt h1 a fAsks s1 → s1.len < hb.asks.len → (q.run h1).1 = none := by
    obtain ⟨q, p1, p2⟩ := part_printAsks k1.askSide (hb.asks.len - 1) 0 (by omega)
    rw [show hb.asks.len - 1 + 1 = hb.asks.len by omega] at p1
    exact ⟨_, (part_run (run_len k1.askSide)).trans (part_andThen p1 _), fun h1 s1 e1 e2 => run_andThen_none (p2 h1 s1 e1 e2)⟩
  have c := C229_update_alone (grow := grow) hs u
  rw [hu] at c
  obtain ⟨h1, g1, g2⟩ := c
  obtain ⟨hb1, m1, m2⟩ := g2.held
  have hlen : hb1.asks.len = b'.asks.length := by rw [← m2.asks, length_load]
  obtain ⟨t, r1, r2, r3, r4⟩ := threads_between hij (P := fun i => (tasks i).prog grow) (h := h) (h0 := h)
    (q := q.bind fun r => .done (.print r)) (by simp only [ti]; exact p1.bind _)
  have ej : ((tasks j).prog grow).run h = (.update (some none), h1) := by
    rw [tj]
    show ((applyUpdateS grow a u).bind fun r => .done (SharedAnswer.update r)).run h = _
    rw [HProg.run_bind, g1]; rfl
  have ei : (q.bind fun r => .done (.print r)).run h1 = (SharedAnswer.print none, h1) := by
    rw [HProg.run_bind, p2 h1 _ m1.askSide (by omega), ((readOnly_print a).part p1).run_heap]; rfl
  simp only [ej, ei] at r2 r3 r4
  exact ⟨t, r1, r3, r4, by rw [r2]; exact g2⟩

end

/-! ## Examples -/

/-- `exBook` at address 2, its asks at 0 and its bids at 1. -/
def exShared : Heap BCell :=
  ⟨fun a i => if a = 2 then (if i = 1 then .head exHBook.asks else if i = 2 then .head exHBook.bids else if i = 3 then .int 5 else .int 0)
    else .row (exHeap.cell a i), 3⟩

theorem exSharedShows : SharedShows exShared 2 exBook := by
  refine ⟨exHBook, ⟨rfl, rfl, rfl, rfl, by decide, ⟨by decide, ?_⟩, ⟨by decide, ?_⟩⟩, rfl, rfl, ?_, ?_, ⟨by decide, fun _ => by decide⟩,
    ⟨by decide, fun _ => by decide⟩, exShows.sep⟩
  · rintro i ⟨h1, -, -⟩; exact absurd h1 (by decide)
  · rintro i ⟨h1, -, -⟩; exact absurd h1 (by decide)
  · decide +kernel
  · decide +kernel

/-- C229: the update of the only goroutine sets the ask at 4. -/
example : ∃ h', (applyUpdateS (fun c _ => c) 2 ⟨.fin 4, .fin 1, "ask"⟩).run exShared = (some none, h') ∧
    SharedShows h' 2 ⟨0, [⟨.fin 3, .fin 1, .fin 0⟩, ⟨.fin 4, .fin 1, .fin 0⟩, ⟨.fin 5, .fin 2, .fin 0⟩], exBook.bids, 5⟩ := by
  have := C229_update_alone (grow := fun c _ => c) exSharedShows ⟨.fin 4, .fin 1, "ask"⟩
  rw [show exBook.applyUpdate ⟨.fin 4, .fin 1, "ask"⟩ = .ok ⟨0, [⟨.fin 3, .fin 1, .fin 0⟩, ⟨.fin 4, .fin 1, .fin 0⟩, ⟨.fin 5, .fin 2, .fin 0⟩],
    exBook.bids, 5⟩ by decide +kernel] at this
  exact this

example : ((getDepthS 2 (.fin 4)).run exShared).1 = some (.ok (.fin 3)) := by
  rw [C229_depth_alone exSharedShows]; decide +kernel

example : ((printS 2).run exShared).1 = some [.title, .row ⟨.fin 5, .fin 2, .fin 0⟩, .row ⟨.fin 3, .fin 1, .fin 0⟩, .separator,
    .row ⟨.fin 2, .fin 1, .fin 0⟩, .row ⟨.fin 1, .fin 4, .fin 0⟩] := by
  rw [C229_print_alone exSharedShows]; decide +kernel

/-- C229: two readers of one book. -/
example : ∀ i : Bool, Reads exShared (if i then .depth 2 (.fin 4) else .print 2)
    (if i then SharedAnswer.depth (some (.ok (.fin 3))) else SharedAnswer.print (some exBook.print)) := by
  rintro (_ | _)
  · exact .print exSharedShows
  · exact .depth exSharedShows (.fin 4)

/-- C230: asks at 4 and at 6 set at the same time. -/
example : ∃ (t : Threads Bool BCell (fun _ => SharedAnswer)) (s : Slice), Relation.ReflTransGen ThreadStep
    ⟨exShared, fun i => (if i then SharedTask.update 2 ⟨.fin 4, .fin 1, "ask"⟩ else .update 2 ⟨.fin 6, .fin 1, "ask"⟩).prog fun c _ => c⟩ t ∧
    t.prog true = .done (.update (some none)) ∧ t.prog false = .done (.update (some none)) ∧
    t.heap.cell 2 fAsks = .head s ∧ s.len = exBook.asks.length + 1 :=
  (C230_lost_ask (tasks := fun i => if i then SharedTask.update 2 ⟨.fin 4, .fin 1, "ask"⟩ else .update 2 ⟨.fin 6, .fin 1, "ask"⟩)
    (i := true) (j := false) (u1 := ⟨.fin 4, .fin 1, "ask"⟩) (u2 := ⟨.fin 6, .fin 1, "ask"⟩)
    exSharedShows rfl rfl (by decide +kernel) (by decide +kernel) (by decide +kernel) (by decide +kernel) (by decide +kernel)
    (by decide +kernel) (by decide) rfl rfl).2.2

/-- C230: bids at 1.5 and at 0.5 set at the same time. -/
example : ∃ (t : Threads Bool BCell (fun _ => SharedAnswer)) (s : Slice), Relation.ReflTransGen ThreadStep
    ⟨exShared, fun i => (if i then SharedTask.update 2 ⟨.fin (3 / 2), .fin 1, "bid"⟩ else .update 2 ⟨.fin (1 / 2), .fin 1, "bid"⟩).prog fun c _ => c⟩ t ∧
    t.prog true = .done (.update (some none)) ∧ t.prog false = .done (.update (some none)) ∧
    t.heap.cell 2 fBids = .head s ∧ s.len = exBook.bids.length + 1 :=
  (C230_lost_bid (tasks := fun i => if i then SharedTask.update 2 ⟨.fin (3 / 2), .fin 1, "bid"⟩ else .update 2 ⟨.fin (1 / 2), .fin 1, "bid"⟩)
    (i := true) (j := false) (u1 := ⟨.fin (3 / 2), .fin 1, "bid"⟩) (u2 := ⟨.fin (1 / 2), .fin 1, "bid"⟩)
    exSharedShows rfl rfl (by decide +kernel) (by decide +kernel) (by decide +kernel) (by decide +kernel) (by decide +kernel)
    (by decide +kernel) (by decide) rfl rfl).2.2

/-- C231: the ask at 5 is removed while a goroutine looks for the depth at 5. -/
example : ∃ t : Threads Bool BCell (fun _ => SharedAnswer), Relation.ReflTransGen ThreadStep
    ⟨exShared, fun i => (if i then SharedTask.depth 2 (.fin 5) else .update 2 ⟨.fin 5, .fin 0, "ask"⟩).prog fun c _ => c⟩ t ∧
    t.prog true = .done (.depth none) ∧ t.prog false = .done (.update (some none)) ∧
    SharedShows t.heap 2 ⟨0, [⟨.fin 3, .fin 1, .fin 0⟩], exBook.bids, 5⟩ :=
  (C231_depth (tasks := fun i => if i then SharedTask.depth 2 (.fin 5) else .update 2 ⟨.fin 5, .fin 0, "ask"⟩) (i := true) (j := false)
    exSharedShows (price := .fin 5) (m := 1) (by decide +kernel) rfl rfl (by decide +kernel) (by decide +kernel) (by decide) (by decide)
    (by decide +kernel) (by decide +kernel) (by decide) (by decide) rfl rfl).2.2

/-- C231: the bid at 1 is removed while a goroutine looks for the depth at 1. -/
example : ∃ t : Threads Bool BCell (fun _ => SharedAnswer), Relation.ReflTransGen ThreadStep
    ⟨exShared, fun i => (if i then SharedTask.depth 2 (.fin 1) else .update 2 ⟨.fin 1, .fin 0, "bid"⟩).prog (fun c _ => c)⟩ t ∧
    t.prog true = .done (.depth none) :=
  let ⟨t, h1, h2, _⟩ := (C231_depth_bids (tasks := fun i => if i then SharedTask.depth 2 (.fin 1) else .update 2 ⟨.fin 1, .fin 0, "bid"⟩)
    (i := true) (j := false) (b' := ⟨0, exBook.asks, [⟨.fin 2, .fin 1, .fin 0⟩], 5⟩) (m := 1) exSharedShows (by decide +kernel) rfl rfl (by decide +kernel)
    rfl rfl (by decide +kernel) (by decide +kernel) (by decide) (by decide +kernel) (by decide +kernel) (by decide) (by decide) rfl rfl).2.2
  ⟨t, h1, h2⟩

/-- C231: the ask at 5 is removed while a goroutine prints. -/
example : ∃ t : Threads Bool BCell (fun _ => SharedAnswer), Relation.ReflTransGen ThreadStep
    ⟨exShared, fun i => (if i then SharedTask.print 2 else .update 2 ⟨.fin 5, .fin 0, "ask"⟩).prog fun c _ => c⟩ t ∧
    t.prog true = .done (.print none) ∧ t.prog false = .done (.update (some none)) ∧
    SharedShows t.heap 2 ⟨0, [⟨.fin 3, .fin 1, .fin 0⟩], exBook.bids, 5⟩ :=
  C231_print (tasks := fun i => if i then SharedTask.print 2 else .update 2 ⟨.fin 5, .fin 0, "ask"⟩) (i := true) (j := false)
    exSharedShows (by decide +kernel) (by decide) (by decide) rfl rfl

end Finmod
