import Verif.Model.Candle
import Verif.Go.Heap

/-!
# ModifyInterval in memory

market/candle.go:36-83 once more, this time with the memory behind the slices: which array the
result lives in, and what is written on the way. Candles hold no pointers, so a cell holds a whole
candle. `grow` is what the runtime adds to the capacity of a reallocated slice, about which nothing
is assumed.
-/

namespace Finmod
open Go

/-- market/candle.go:63-72, see `resampleLoop`: `n` candles of `s` from index `idx` on, `acc` the
slice `modifiedCandles`. Each candle is read when the loop reaches it. -/
def resampleHeap (S : FloatSem) (grow : Nat → Nat → Nat) (s : Slice) (minuteInterval pivot : Int) :
    Nat → Nat → Nat → Heap Candle → Slice → Heap Candle × Res (Slice × Nat)
  | 0, _, start, h, acc => (h, .ok (acc, start))
  | n + 1, idx, start, h, acc =>
    match isBoundary S minuteInterval pivot (h.cell s.arr (s.off + idx)) with
    | none => (h, .panic)
    | some true =>
      match compressCandle S (h.load s) start idx with
      | .ok c =>
        let r := h.append grow acc [c]
        resampleHeap S grow s minuteInterval pivot n (idx + 1) idx r.1 r.2
      | .err e _ => (h, .err e (Slice.empty, 0))
      | .panic => (h, .panic)
    | some false => resampleHeap S grow s minuteInterval pivot n (idx + 1) start h acc

/-- market/candle.go:36-83 `ModifyInterval`: the memory afterwards and the slice returned. Line 41
returns the argument; line 60 declares the nil slice the others are appended to. -/
def modifyIntervalHeap (S : FloatSem) (minute : Int → Int) (grow : Nat → Nat → Nat) (h : Heap Candle)
    (s : Slice) (minuteInterval : Int) : Heap Candle × Res Slice :=
  if s.len = 1 then (h, .ok s)
  else if s.len = 0 then (h, .panic)
  else
    let delta := idiv (wrap64 ((h.cell s.arr (s.off + 1)).time - (h.cell s.arr s.off).time)) 60
    if delta ≠ 1 ∧ minuteInterval = 1 then (h, .err .econflict Slice.empty)
    else if delta = 0 then (h, .panic)
    else if imod minuteInterval delta ≠ 0 then (h, .err .econflict Slice.empty)
    else
      match findFirstIndex minute (h.load s) minuteInterval with
      | .ok first =>
        match resampleHeap S grow s minuteInterval (h.cell s.arr (s.off + first)).time
            (s.len - (first + 1)) (first + 1) first h Slice.empty with
        | (h', .ok (acc, start)) =>
          match compressCandle S (h'.load s) start s.len with
          | .ok c => let r := h'.append grow acc [c]; (r.1, .ok r.2)
          | .err e _ => (h', .err e Slice.empty)
          | .panic => (h', .panic)
        | (h', .err e _) => (h', .err e Slice.empty)
        | (h', .panic) => (h', .panic)
      | .err e _ => (h, .err e Slice.empty)
      | .panic => (h, .panic)

end Finmod
