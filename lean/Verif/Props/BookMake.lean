import Verif.Props.BookThreads

/-!
# C222: `NewOrderBook` called by several goroutines
-/

namespace Finmod
open Go Go.Heap Spec

/-- What each goroutine is given: time, rows and depth. -/
structure Spec.Given where
  now : Int
  asks : Slice
  bids : Slice
  depth : Int

/-- The rows of a goroutine are in separate slices of memory, less than 2^53 of each side, the depth is not negative. -/
structure Spec.Given.Ok (h : Heap Row) (g : Given) : Prop where
  wa : WF h g.asks
  wb : WF h g.bids
  sep : g.asks.Separate g.bids
  la : g.asks.len < 2 ^ 53
  lb : g.bids.len < 2 ^ 53
  depth : 0 ≤ g.depth

/-- The cells behind the rows, spare capacity included. -/
def Spec.Given.Cells (g : Given) : Cells := fun a i => g.asks.Owns a i ∨ g.bids.Owns a i

section
variable {ι : Type} [DecidableEq ι]

/-- **C222.** Goroutines that call `NewOrderBook` at the same time, each with rows of its own: in every interleaving of the
single reads and writes of their sorts and sums, a goroutine that has finished holds the book that `NewOrderBook` makes
of its rows when nobody else runs. -/
theorem C222_own_rows {S : FloatSem} (hS : Lawful S) {h : Heap Row} {g : ι → Given} (hg : ∀ i, (g i).Ok h)
    (sep : ∀ i j, i ≠ j → ∀ a c, (g i).Cells a c → ¬ (g j).Cells a c) {t : Threads ι Row (fun _ => Res HBook)}
    (run : Relation.ReflTransGen ThreadStep
      ⟨h, fun i => newOrderBookP S (g i).now (g i).asks (g i).bids (g i).depth⟩ t) {i : ι} {r : Res HBook}
    (done : t.prog i = .done r) :
    ∃ hb b, r = .ok hb ∧ newOrderBook S (g i).now (h.load (g i).asks) (h.load (g i).bids) (g i).depth = .ok b ∧
      Shows t.heap hb b := by
  have h0 : AllSafe (R := fun _ => Res HBook) (fun _ _ => False)
      (fun i h' own x => SameOutcome (fun _ _ => False) h' own x
        (newOrderBook S (g i).now (h.load (g i).asks) (h.load (g i).bids) (g i).depth))
      ⟨h, fun i => newOrderBookP S (g i).now (g i).asks (g i).bids (g i).depth⟩ (fun i => (g i).Cells) := by
    refine ⟨fun i => ?_, sep, fun _ _ _ _ => id, ?_, fun _ _ => False.elim⟩
    · obtain ⟨h', e, st, -⟩ := hNew_run hS (hg i).wa (hg i).wb (hg i).sep (hg i).la (hg i).lb (hg i).depth (g i).now
      obtain ⟨h2, hb2, b, e2, eb, hsh⟩ := C100_new_as_value hS (hg i).wa (hg i).wb (hg i).sep (hg i).la (hg i).lb (hg i).depth (g i).now
      rw [e] at e2
      cases e2
      refine safe_new (hg i).wa.1 (hg i).wb.1 (fun _ _ => .inl) (fun _ _ => .inr) _ _ ?_
      rw [e]
      rw [eb]
      refine ⟨hsh, fun _ _ => .inl, fun _ _ => .inr, ?_⟩
      rintro a c ((⟨rfl, h1, h2⟩ | ⟨rfl, h1, h2⟩) | hf)
      · exact lt_of_lt_of_le ((hg i).wa.2 (by omega)) st.next
      · exact lt_of_lt_of_le ((hg i).wb.2 (by omega)) st.next
      · exact hf.elim
    · rintro i a c (⟨rfl, h1, h2⟩ | ⟨rfl, h1, h2⟩)
      · exact (hg i).wa.2 (by omega)
      · exact (hg i).wb.2 (by omega)
  obtain ⟨own, hall⟩ := safe_all (fun i => sameOutcome_stable _ _) h0 run
  have := hall.safe i
  rw [done] at this
  change SameOutcome _ _ _ r (newOrderBook S (g i).now (h.load (g i).asks) (h.load (g i).bids) (g i).depth) at this
  obtain ⟨-, -, b, -, eb, -⟩ := C100_new_as_value hS (hg i).wa (hg i).wb (hg i).sep (hg i).la (hg i).lb (hg i).depth (g i).now
  rw [eb] at this
  cases r with
  | ok hb => exact ⟨hb, b, rfl, eb, this.shows⟩
  | err c hb => exact this.elim
  | panic => exact this.elim

/-- **C222.** Every goroutine can come to its end, whatever the others have done. -/
theorem C222_finish (s : Threads ι Row (fun _ => Res HBook)) (i : ι) :
    ∃ t r, Relation.ReflTransGen ThreadStep s t ∧ t.prog i = .done r := by
  obtain ⟨t, r, h1, h2, -⟩ := threads_finish i (s.prog i) s rfl
  exact ⟨t, r, h1, h2⟩

end

/-- Asks 3 and 2, in this order, and the bid 1. -/
def unsortedHeap : Heap Row :=
  ⟨fun a i => if a = 0 then (if i = 0 then ⟨.fin 3, .fin 1, .fin 0⟩ else ⟨.fin 2, .fin 1, .fin 0⟩) else ⟨.fin 1, .fin 1, .fin 0⟩, 2⟩
/-- See `unsortedHeap`. -/
def unsortedGiven : Given := ⟨0, ⟨0, 0, 2, 2⟩, ⟨1, 0, 1, 1⟩, 5⟩
theorem unsortedOk : unsortedGiven.Ok unsortedHeap := by
  refine ⟨⟨by decide, fun _ => by decide⟩, ⟨by decide, fun _ => by decide⟩, ?_, by decide, by decide, by decide⟩
  rintro a i ⟨rfl, -, -⟩ ⟨h1, -, -⟩
  exact absurd h1 (by decide)

/-- **C222.** Rows of one's own are needed: two goroutines that call `NewOrderBook` with the same rows can lose a level, and
both get a book without it. -/
theorem C222_same_rows :
    ∃ (h : Heap Row) (g : Given) (p : Fl) (t : Threads Bool Row (fun _ => Res HBook)) (hb : Bool → HBook), g.Ok h ∧
      p ∈ (h.load g.asks).map (·.price) ∧ 2 ≤ g.depth ∧ g.asks.len = 2 ∧
      Relation.ReflTransGen ThreadStep ⟨h, fun _ => newOrderBookP .exact g.now g.asks g.bids g.depth⟩ t ∧
      ∀ i, t.prog i = .done (.ok (hb i)) ∧ p ∉ (t.heap.load (hb i).asks).map (·.price) := by
  refine ⟨unsortedHeap, unsortedGiven, .fin 3, _, fun _ => ⟨0, ⟨0, 0, 2, 2⟩, ⟨1, 0, 1, 1⟩, 5⟩, unsortedOk, by decide +kernel,
    by decide, by decide,
    Threads.steps_run (List.replicate 3 true ++ List.replicate 13 false ++ List.replicate 10 true) _, ?_⟩
  rintro (_ | _)
  · exact ⟨HProg.result_done (by decide +kernel), by decide +kernel⟩
  · exact ⟨HProg.result_done (by decide +kernel), by decide +kernel⟩

/-- Two goroutines with rows of their own. -/
def twoGiven : Bool → Given
  | true => unsortedGiven
  | false => ⟨7, ⟨2, 0, 3, 3⟩, ⟨3, 0, 2, 4⟩, 2⟩
def twoGivenHeap : Heap Row :=
  ⟨fun a i => if a = 2 then (if i = 0 then ⟨.fin 9, .fin 1, .fin 0⟩ else if i = 1 then ⟨.fin 8, .fin 2, .fin 0⟩ else ⟨.fin 7, .fin 4, .fin 0⟩)
    else if a = 3 then (if i = 0 then ⟨.fin 5, .fin 1, .fin 0⟩ else ⟨.fin 6, .fin 2, .fin 0⟩) else unsortedHeap.cell a i, 4⟩

example : (∀ i, (twoGiven i).Ok twoGivenHeap) ∧ (∀ i j, i ≠ j → ∀ a c, (twoGiven i).Cells a c → ¬ (twoGiven j).Cells a c) := by
  constructor
  · rintro (_ | _) <;>
    · refine ⟨⟨by decide, fun _ => by decide⟩, ⟨by decide, fun _ => by decide⟩, ?_, by decide, by decide, by decide⟩
      rintro a i ⟨rfl, -, -⟩ ⟨h1, -, -⟩
      exact absurd h1 (by decide)
  · rintro (_ | _) (_ | _) hij a c (⟨rfl, -, -⟩ | ⟨rfl, -, -⟩) (⟨h1, -, -⟩ | ⟨h1, -, -⟩) <;>
      first | exact hij rfl | exact absurd h1 (by decide)

/-- In turn, step by step. -/
example : ∃ t, Relation.ReflTransGen ThreadStep ⟨twoGivenHeap, fun i => newOrderBookP .exact (twoGiven i).now (twoGiven i).asks
      (twoGiven i).bids (twoGiven i).depth⟩ t ∧
    t.prog false = .done (.ok ⟨7, ⟨2, 0, 2, 3⟩, ⟨3, 0, 2, 4⟩, 2⟩) ∧
    t.heap.load ⟨2, 0, 2, 3⟩ = [⟨.fin 7, .fin 4, .fin 4⟩, ⟨.fin 8, .fin 2, .fin 6⟩] ∧
    t.heap.load ⟨3, 0, 2, 4⟩ = [⟨.fin 6, .fin 2, .fin 2⟩, ⟨.fin 5, .fin 1, .fin 3⟩] :=
  ⟨_, Threads.steps_run ((List.replicate 40 [true, false]).flatten) _, HProg.result_done (by decide +kernel), by decide +kernel,
    by decide +kernel⟩

end Finmod
