import Mathlib.Data.List.Basic

/-!
# `sort.SliceStable` as the Go library does it

The functions of `src/sort/zsortfunc.go` of the Go standard library (`zfuncversion.go` before Go 1.19, same text),
called from market/orderbook.go:34, 38 and indicators/williams_fractals.go:57. The slice is a list; reading or
swapping outside of it is a panic, `none`. Loops without an obvious bound get fuel; running out of it is `none` too
and is shown never to happen. Indices are natural numbers; where Go could come to a negative index the model
gives `none`, or the note at the definition says why it cannot.
-/

namespace Go.Sort

variable {α : Type}

/-- `data.Less(i, j)`, where the caller's function compares the elements at `i` and `j`. -/
def less? (lt : α → α → Bool) (l : List α) (i j : Nat) : Option Bool :=
  match l[i]?, l[j]? with
  | some x, some y => some (lt x y)
  | _, _ => none

/-- `data.Swap(i, j)`. -/
def swap? (l : List α) (i j : Nat) : Option (List α) :=
  match l[i]?, l[j]? with
  | some x, some y => some ((l.set i y).set j x)
  | _, _ => none

/-- The inner loop of `insertionSort_func`: `for j := i; j > a && data.Less(j, j-1); j-- { data.Swap(j, j-1) }`. -/
def sink (lt : α → α → Bool) (a : Nat) : Nat → List α → Option (List α)
  | 0, l => some l
  | j + 1, l =>
    if j + 1 > a then
      match less? lt l (j + 1) j with
      | none => none
      | some false => some l
      | some true =>
        match swap? l (j + 1) j with
        | none => none
        | some l' => sink lt a j l'
    else some l

/-- The outer loop of `insertionSort_func`, `k` iterations from `i` on. -/
def insertionLoop (lt : α → α → Bool) (a : Nat) : Nat → Nat → List α → Option (List α)
  | 0, _, l => some l
  | k + 1, i, l =>
    match sink lt a i l with
    | none => none
    | some l' => insertionLoop lt a k (i + 1) l'

/-- `insertionSort_func(data, a, b)`: `for i := a + 1; i < b; i++`. -/
def insertionSort (lt : α → α → Bool) (a b : Nat) (l : List α) : Option (List α) :=
  insertionLoop lt a (b - (a + 1)) (a + 1) l

/-- The binary search that occurs three times in `symMerge_func`: `h := int(uint(i+j) >> 1)`, go right if `f h`. -/
def search (f : Nat → Option Bool) : Nat → Nat → Nat → Option Nat
  | 0, i, j => if i < j then none else some i
  | fuel + 1, i, j =>
    if i < j then
      match f ((i + j) / 2) with
      | none => none
      | some true => search f fuel ((i + j) / 2 + 1) j
      | some false => search f fuel i ((i + j) / 2)
    else some i

/-- `swapRange_func(data, a, b, n)`. -/
def swapRange : List α → Nat → Nat → Nat → Option (List α)
  | l, _, _, 0 => some l
  | l, a, b, n + 1 =>
    match swap? l a b with
    | none => none
    | some l' => swapRange l' (a + 1) (b + 1) n

/-- The loop of `rotate_func` and the last `swapRange`. `m - i` and `m + j - i` are not negative: `i` starts at
`m - a` and only falls. -/
def rotateLoop (m : Nat) : Nat → Nat → Nat → List α → Option (List α)
  | 0, _, _, _ => none
  | fuel + 1, i, j, l =>
    if i = j then swapRange l (m - i) m i
    else if i > j then
      match swapRange l (m - i) m j with
      | none => none
      | some l' => rotateLoop m fuel (i - j) j l'
    else
      match swapRange l (m - i) (m + j - i) i with
      | none => none
      | some l' => rotateLoop m fuel i (j - i) l'

/-- `rotate_func(data, a, m, b)`. -/
def rotate (a m b : Nat) (l : List α) : Option (List α) :=
  rotateLoop m (b - a) (m - a) (b - m) l

/-- `for k := a; k < i-1; k++ { data.Swap(k, k+1) }`, `n` iterations from `k` on. -/
def carryUp : Nat → Nat → List α → Option (List α)
  | 0, _, l => some l
  | n + 1, k, l =>
    match swap? l k (k + 1) with
    | none => none
    | some l' => carryUp n (k + 1) l'

/-- `for k := m; k > i; k-- { data.Swap(k, k-1) }`. -/
def carryDown (i : Nat) : Nat → List α → Option (List α)
  | 0, l => some l
  | k + 1, l =>
    if k + 1 > i then
      match swap? l (k + 1) k with
      | none => none
      | some l' => carryDown i k l'
    else some l

/-- `!data.Less(p-c, c)`; a negative index panics. -/
def notLessMirror (lt : α → α → Bool) (l : List α) (p c : Nat) : Option Bool :=
  if c ≤ p then (less? lt l (p - c) c).map (!·) else none

/-- `symMerge_func(data, a, m, b)`. `n - b` is not negative when `m > mid`. -/
def symMerge (lt : α → α → Bool) : Nat → Nat → Nat → Nat → List α → Option (List α)
  | 0, _, _, _, _ => none
  | fuel + 1, a, m, b, l =>
    if m - a = 1 then
      match search (fun h => less? lt l h a) (b - m) m b with
      | none => none
      | some i => carryUp (i - 1 - a) a l
    else if b - m = 1 then
      match search (fun h => (less? lt l m h).map (!·)) (m - a) a m with
      | none => none
      | some i => carryDown i m l
    else
      let mid := (a + b) / 2
      let n := mid + m
      let start := if m > mid then n - b else a
      let r := if m > mid then mid else m
      let p := n - 1
      match search (notLessMirror lt l p) (r - start) start r with
      | none => none
      | some start =>
        let fin := n - start
        match (if start < m ∧ m < fin then rotate start m fin l else some l) with
        | none => none
        | some l1 =>
          match (if a < start ∧ start < mid then symMerge lt fuel a start mid l1 else some l1) with
          | none => none
          | some l2 => if mid < fin ∧ fin < b then symMerge lt fuel mid fin b l2 else some l2

/-- First loop of `stable_func`: blocks of `bs` elements are sorted by insertion, then the rest. -/
def sortBlocks (lt : α → α → Bool) (bs n : Nat) : Nat → Nat → List α → Option (List α)
  | 0, _, _ => none
  | fuel + 1, a, l =>
    if a + bs ≤ n then
      match insertionSort lt a (a + bs) l with
      | none => none
      | some l' => sortBlocks lt bs n fuel (a + bs) l'
    else insertionSort lt a n l

/-- One pass of the second loop of `stable_func`: neighbouring blocks of `bs` elements are merged. -/
def mergePass (lt : α → α → Bool) (bs n : Nat) : Nat → Nat → List α → Option (List α)
  | 0, _, _ => none
  | fuel + 1, a, l =>
    if a + 2 * bs ≤ n then
      match symMerge lt (2 * bs) a (a + bs) (a + 2 * bs) l with
      | none => none
      | some l' => mergePass lt bs n fuel (a + 2 * bs) l'
    else if a + bs < n then symMerge lt (n - a) a (a + bs) n l
    else some l

/-- Second loop of `stable_func`: `for blockSize < n`. -/
def mergeLoop (lt : α → α → Bool) (n : Nat) : Nat → Nat → List α → Option (List α)
  | 0, _, _ => none
  | fuel + 1, bs, l =>
    if bs < n then
      match mergePass lt bs n (n + 1) 0 l with
      | none => none
      | some l' => mergeLoop lt n fuel (2 * bs) l'
    else some l

/-- `sort.SliceStable(x, less)`, that is, `stable_func(lessSwap, n)` with `blockSize := 20`. -/
def sliceStable (lt : α → α → Bool) (l : List α) : Option (List α) :=
  match sortBlocks lt 20 l.length (l.length + 1) 0 l with
  | none => none
  | some l' => mergeLoop lt l.length (l.length + 1) 20 l'

end Go.Sort
