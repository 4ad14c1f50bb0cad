import Verif.Model.CandleSavers

/-!
# Several processes in `SaveCandlesToFile` with the same path, whose writes may fail

As `Model/CandleSavers.lean`, with two additions. `os.Create` (market/candle_load.go:16) may be refused to a process. And
`fmt.Fprintln` (market/candle_load.go:25) hands its line to `(*os.File).Write`, which calls `write` until the line is
written or a call fails: each call takes a piece of the line, other processes may come in between, and after a failure
the rest of the line is lost, as the code drops the error.
-/

namespace Finmod
open Go

/-- Where a process is. -/
inductive Saver where
  /-- before market/candle_load.go:16 -/
  | waiting
  /-- market/candle_load.go:17-19: `os.Create` returned an error -/
  | refused
  /-- market/candle_load.go:24-26: the bytes the system has taken (their number is the offset of the process), and
  what is left of the line at hand with the lines behind it -/
  | writing (taken : List Char) (todo : List (List Char))
deriving DecidableEq

/-- The file and the processes. -/
structure CutSavers (ι : Type) where
  file : List Char
  proc : ι → Saver

/-- One step of one process; `lines i` are the lines of process `i`. -/
inductive CutStep {ι : Type} [DecidableEq ι] (lines : ι → List (List Char)) : CutSavers ι → CutSavers ι → Prop
  /-- market/candle_load.go:16 -/
  | create (s : CutSavers ι) (i : ι) : s.proc i = .waiting →
      CutStep lines s ⟨[], Function.update s.proc i (.writing [] (lines i))⟩
  /-- market/candle_load.go:17-19 -/
  | refuse (s : CutSavers ι) (i : ι) : s.proc i = .waiting →
      CutStep lines s ⟨s.file, Function.update s.proc i .refused⟩
  /-- market/candle_load.go:25: a call of `write` takes the piece `a` of the line -/
  | piece (s : CutSavers ι) (i : ι) (w a b : List Char) (ls : List (List Char)) : s.proc i = .writing w ((a ++ b) :: ls) →
      CutStep lines s ⟨writeAt s.file w.length a, Function.update s.proc i (.writing (w ++ a) (b :: ls))⟩
  /-- market/candle_load.go:25: `Fprintln` returns, with an error if some of the line is left, and the loop goes on -/
  | next (s : CutSavers ι) (i : ι) (w l : List Char) (ls : List (List Char)) : s.proc i = .writing w (l :: ls) →
      CutStep lines s ⟨s.file, Function.update s.proc i (.writing w ls)⟩

/-- The processes before they start. -/
def cutSavers {ι : Type} (file : List Char) : CutSavers ι := ⟨file, fun _ => .waiting⟩

end Finmod
