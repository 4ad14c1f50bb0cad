import Verif.Go.Threads
import Verif.Go.Sort

/-!
# `sort.SliceStable`, access by access

The functions of `Verif/Go/Sort.lean` (`src/sort/zsortfunc.go` of the Go standard library) as programs of single
reads and writes of a slice in memory: `data.Less(i, j)` reads the two elements, `data.Swap(i, j)` reads both and
writes both, in the order of `reflect.Swapper`. What is `none` there ends these programs with the result `none`.
-/

namespace Go.Sort
open Go

variable {α R Q : Type}

/-- One program and then another, unless the first ended with `none`. -/
def andThen (p : HProg α (Option R)) (f : R → HProg α (Option Q)) : HProg α (Option Q) :=
  p.bind fun r => match r with
    | some r => f r
    | none => .done none

/-- See `less?`. -/
def lessP (lt : α → α → Bool) (s : Slice) (i j : Nat) : HProg α (Option Bool) :=
  if i < s.len ∧ j < s.len then
    .get s.arr (s.off + i) fun x => .get s.arr (s.off + j) fun y => .done (some (lt x y))
  else .done none

/-- See `swap?`. -/
def swapP (s : Slice) (i j : Nat) : HProg α (Option Unit) :=
  if i < s.len ∧ j < s.len then
    .get s.arr (s.off + i) fun x => .get s.arr (s.off + j) fun y =>
      .put s.arr (s.off + i) y (.put s.arr (s.off + j) x (.done (some ())))
  else .done none

/-- The end of a loop. -/
def fine : HProg α (Option Unit) := .done (some ())

/-- See `sink`. -/
def sinkP (lt : α → α → Bool) (s : Slice) (a : Nat) : Nat → HProg α (Option Unit)
  | 0 => fine
  | j + 1 =>
    if j + 1 > a then
      andThen (lessP lt s (j + 1) j) fun b =>
        if b then andThen (swapP s (j + 1) j) fun _ => sinkP lt s a j else fine
    else fine

/-- See `insertionLoop`. -/
def insertionLoopP (lt : α → α → Bool) (s : Slice) (a : Nat) : Nat → Nat → HProg α (Option Unit)
  | 0, _ => fine
  | k + 1, i => andThen (sinkP lt s a i) fun _ => insertionLoopP lt s a k (i + 1)

/-- See `insertionSort`. -/
def insertionSortP (lt : α → α → Bool) (s : Slice) (a b : Nat) : HProg α (Option Unit) :=
  insertionLoopP lt s a (b - (a + 1)) (a + 1)

/-- See `search`. -/
def searchP (f : Nat → HProg α (Option Bool)) : Nat → Nat → Nat → HProg α (Option Nat)
  | 0, i, j => if i < j then .done none else .done (some i)
  | fuel + 1, i, j =>
    if i < j then
      andThen (f ((i + j) / 2)) fun b =>
        if b then searchP f fuel ((i + j) / 2 + 1) j else searchP f fuel i ((i + j) / 2)
    else .done (some i)

/-- See `swapRange`. -/
def swapRangeP (s : Slice) : Nat → Nat → Nat → HProg α (Option Unit)
  | _, _, 0 => fine
  | a, b, n + 1 => andThen (swapP s a b) fun _ => swapRangeP s (a + 1) (b + 1) n

/-- See `rotateLoop`. -/
def rotateLoopP (s : Slice) (m : Nat) : Nat → Nat → Nat → HProg α (Option Unit)
  | 0, _, _ => .done none
  | fuel + 1, i, j =>
    if i = j then swapRangeP s (m - i) m i
    else if i > j then andThen (swapRangeP s (m - i) m j) fun _ => rotateLoopP s m fuel (i - j) j
    else andThen (swapRangeP s (m - i) (m + j - i) i) fun _ => rotateLoopP s m fuel i (j - i)

/-- See `rotate`. -/
def rotateP (s : Slice) (a m b : Nat) : HProg α (Option Unit) := rotateLoopP s m (b - a) (m - a) (b - m)

/-- See `carryUp`. -/
def carryUpP (s : Slice) : Nat → Nat → HProg α (Option Unit)
  | 0, _ => fine
  | n + 1, k => andThen (swapP s k (k + 1)) fun _ => carryUpP s n (k + 1)

/-- See `carryDown`. -/
def carryDownP (s : Slice) (i : Nat) : Nat → HProg α (Option Unit)
  | 0 => fine
  | k + 1 => if k + 1 > i then andThen (swapP s (k + 1) k) fun _ => carryDownP s i k else fine

/-- The opposite of an answer. -/
def notP (p : HProg α (Option Bool)) : HProg α (Option Bool) := andThen p fun b => .done (some !b)

/-- See `notLessMirror`. -/
def notLessMirrorP (lt : α → α → Bool) (s : Slice) (p c : Nat) : HProg α (Option Bool) :=
  if c ≤ p then notP (lessP lt s (p - c) c) else .done none

/-- See `symMerge`. -/
def symMergeP (lt : α → α → Bool) (s : Slice) : Nat → Nat → Nat → Nat → HProg α (Option Unit)
  | 0, _, _, _ => .done none
  | fuel + 1, a, m, b =>
    if m - a = 1 then
      andThen (searchP (fun h => lessP lt s h a) (b - m) m b) fun i => carryUpP s (i - 1 - a) a
    else if b - m = 1 then
      andThen (searchP (fun h => notP (lessP lt s m h)) (m - a) a m) fun i => carryDownP s i m
    else
      let mid := (a + b) / 2
      let n := mid + m
      let start := if m > mid then n - b else a
      let r := if m > mid then mid else m
      let p := n - 1
      andThen (searchP (notLessMirrorP lt s p) (r - start) start r) fun start =>
        let fin := n - start
        andThen (if start < m ∧ m < fin then rotateP s start m fin else fine) fun _ =>
          andThen (if a < start ∧ start < mid then symMergeP lt s fuel a start mid else fine) fun _ =>
            if mid < fin ∧ fin < b then symMergeP lt s fuel mid fin b else fine

/-- See `sortBlocks`. -/
def sortBlocksP (lt : α → α → Bool) (s : Slice) (bs n : Nat) : Nat → Nat → HProg α (Option Unit)
  | 0, _ => .done none
  | fuel + 1, a =>
    if a + bs ≤ n then andThen (insertionSortP lt s a (a + bs)) fun _ => sortBlocksP lt s bs n fuel (a + bs)
    else insertionSortP lt s a n

/-- See `mergePass`. -/
def mergePassP (lt : α → α → Bool) (s : Slice) (bs n : Nat) : Nat → Nat → HProg α (Option Unit)
  | 0, _ => .done none
  | fuel + 1, a =>
    if a + 2 * bs ≤ n then
      andThen (symMergeP lt s (2 * bs) a (a + bs) (a + 2 * bs)) fun _ => mergePassP lt s bs n fuel (a + 2 * bs)
    else if a + bs < n then symMergeP lt s (n - a) a (a + bs) n
    else fine

/-- See `mergeLoop`. -/
def mergeLoopP (lt : α → α → Bool) (s : Slice) (n : Nat) : Nat → Nat → HProg α (Option Unit)
  | 0, _ => .done none
  | fuel + 1, bs =>
    if bs < n then andThen (mergePassP lt s bs n (n + 1) 0) fun _ => mergeLoopP lt s n fuel (2 * bs) else fine

/-- `sort.SliceStable(x, less)` of the slice `s`, see `sliceStable`. -/
def sliceStableP (lt : α → α → Bool) (s : Slice) : HProg α (Option Unit) :=
  andThen (sortBlocksP lt s 20 s.len (s.len + 1) 0) fun _ => mergeLoopP lt s s.len (s.len + 1) 20

end Go.Sort
