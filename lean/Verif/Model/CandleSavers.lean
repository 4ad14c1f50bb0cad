import Verif.Model.CandleFile
import Mathlib.Logic.Function.Basic
import Mathlib.Logic.Relation

/-!
# Several processes in `SaveCandlesToFile` with the same path

`os.Create` (market/candle_load.go:16) empties the file and gives each process an offset of its own, 0; every
`fmt.Fprintln` (market/candle_load.go:25) is one `write` at that offset, which it moves behind the bytes written. Bytes
between the end of the file and the offset become zero, as the system fills holes. All writes are taken to succeed
(for failing ones see C137), and each to be one step.
-/

namespace Finmod
open Go

/-- What `write` at an offset makes of a file. -/
def writeAt (file : List Char) (off : Nat) (bytes : List Char) : List Char :=
  let padded := file ++ List.replicate (off - file.length) '\x00'
  padded.take off ++ bytes ++ padded.drop (off + bytes.length)

/-- The file, the offset of each process (`none` before `os.Create`) and the lines it has yet to write. -/
structure Savers (ι : Type) where
  file : List Char
  offset : ι → Option Nat
  todo : ι → List (List Char)

/-- One step of one process. -/
inductive SaveStep {ι : Type} [DecidableEq ι] : Savers ι → Savers ι → Prop
  /-- market/candle_load.go:16 -/
  | create (s : Savers ι) (i : ι) : s.offset i = none →
      SaveStep s ⟨[], Function.update s.offset i (some 0), s.todo⟩
  /-- market/candle_load.go:24-26 -/
  | write (s : Savers ι) (i : ι) (n : Nat) (l : List Char) (ls : List (List Char)) : s.offset i = some n →
      s.todo i = l :: ls →
      SaveStep s ⟨writeAt s.file n l, Function.update s.offset i (some (n + l.length)), Function.update s.todo i ls⟩

/-- The processes before they start: `lines i` are the lines process `i` writes. -/
def savers {ι : Type} (file : List Char) (lines : ι → List (List Char)) : Savers ι := ⟨file, fun _ => none, lines⟩

/-- The lines of `SaveCandlesToFile`, newline included. -/
def candleLines (pick : ℚ → Nat × ℤ) (eprec : ℤ) (cs : List Candle) : List (List Char) :=
  cs.map fun c => candleLine pick eprec c ++ ['\n']

end Finmod
