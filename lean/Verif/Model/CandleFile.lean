import Verif.Go.Text
import Verif.Model.Candle

/-!
# Model of `market/candle_load.go`

File contents are lists of bytes (one `Char` per byte). `pick` and `eprec` are the digits chosen by
`fmt` for a float and the exponent from which it switches to scientific notation.
-/

namespace Finmod
open Go

/-- Joining with single spaces. -/
def joinSp : List (List Char) → List Char
  | [] => []
  | [w] => w
  | w :: ws => w ++ ' ' :: joinSp ws

/-- market/candle_load.go:25 what `fmt.Fprintln(f, candle)` writes: `String` is declared on
`*Candle` and the loop variable is passed by value, so `fmt` prints the struct, i.e. the fields in
order, in braces, separated by spaces, and a newline (candle.go:13-22). -/
def candleLine (pick : ℚ → Nat × ℤ) (eprec : ℤ) (c : Candle) : List Char :=
  '{' :: (joinSp [fmtInt c.time, fmtFloat pick eprec c.opn, fmtFloat pick eprec c.high,
    fmtFloat pick eprec c.low, fmtFloat pick eprec c.close, fmtFloat pick eprec c.volume] ++ ['}'])

/-- market/candle_load.go:24-26: the bytes of a complete file. -/
def candleText (pick : ℚ → Nat × ℤ) (eprec : ℤ) (cs : List Candle) : List Char :=
  cs.flatMap fun c => candleLine pick eprec c ++ ['\n']

/-- market/candle_load.go:24-26: the loop over a file that accepts `accept i` bytes (all of them if
`accept i` is large enough) of the `i`-th write. A short write makes `Fprintln` return an error, which the code drops. -/
def writeLoop (pick : ℚ → Nat × ℤ) (eprec : ℤ) (accept : Nat → Nat) : Nat → List Candle → List Char
  | _, [] => []
  | i, c :: cs => (candleLine pick eprec c ++ ['\n']).take (accept i) ++ writeLoop pick eprec accept (i + 1) cs

/-- market/candle_load.go:13-29 `SaveCandlesToFile`: the outcome and the contents of the file
afterwards (`os.Create` truncates it). `created` tells whether `os.Create` succeeded; `old` is what
the path held before. The error of the deferred `Close` is dropped too. -/
def saveCandles (pick : ℚ → Nat × ℤ) (eprec : ℤ) (created : Bool) (accept : Nat → Nat) (old : Option (List Char))
    (cs : List Candle) : Res Unit × Option (List Char) :=
  if created then (.ok (), some (writeLoop pick eprec accept 0 cs)) else (.err .external (), old)

/-- `bufio.ScanLines`: pieces ended by newlines; a last piece without one counts if not empty. -/
def rawLines (acc : List Char) : List Char → List (List Char)
  | [] => if acc = [] then [] else [acc.reverse]
  | c :: r => if c = '\n' then acc.reverse :: rawLines [] r else rawLines (c :: acc) r

/-- `bufio.ScanLines` drops one carriage return at the end of a line. -/
def dropCR (l : List Char) : List Char := if l.getLast? = some '\r' then l.dropLast else l

/-- `strings.Split(line, " ")`. -/
def splitSp (acc : List Char) : List Char → List (List Char)
  | [] => [acc.reverse]
  | c :: r => if c = ' ' then acc.reverse :: splitSp [] r else splitSp (c :: acc) r

/-- What one iteration of the loop does with a line. -/
inductive Parsed where
  | candle (c : Candle)
  | refused
  | panics
deriving DecidableEq

/-- market/candle_load.go:55-78: a missing field is an index panic, an unreadable one an error. -/
def floatField (S : FloatSem) (f : List (List Char)) (i : Nat) (k : Fl → Parsed) : Parsed :=
  match f[i]? with
  | none => .panics
  | some s => match parseFloat S s with
    | none => .refused
    | some x => k x

/-- market/candle_load.go:50-53: the time is read as a 32-bit integer. -/
def timeField (f : List (List Char)) (k : Int → Parsed) : Parsed :=
  match f[0]? with
  | none => .panics
  | some s => match parseInt 32 s with
    | none => .refused
    | some x => k x

/-- market/candle_load.go:45-87: one line. `text[1 : len(text)-1]` panics on lines of length 0, 1. -/
def parseLine (S : FloatSem) (text : List Char) : Parsed :=
  if text.length < 2 then .panics
  else
    let f := splitSp [] (text.drop 1).dropLast
    timeField f fun t =>
    floatField S f 1 fun o =>
    floatField S f 2 fun h =>
    floatField S f 3 fun l =>
    floatField S f 4 fun c =>
    floatField S f 5 fun v => .candle ⟨t, o, h, l, c, v⟩

/-- market/candle_load.go:42-91: the loop. `bufio.Scanner` gives up on a line of more than 65535
bytes (its buffer of 64 KiB is full before the newline shows up); `scanner.Err()` is never asked, so
the loop just ends. A read error of the file ends it the same way, at the bytes read so far. -/
def loadLoop (S : FloatSem) (acc : List Candle) : List (List Char) → Res (List Candle)
  | [] => .ok acc
  | l :: ls =>
    if 65535 < l.length then .ok acc
    else match parseLine S (dropCR l) with
      | .candle c => loadLoop S (acc ++ [c]) ls
      | .refused => .err .external []
      | .panics => .panic

/-- market/candle_load.go:31-94 `LoadCandlesFromFile`; `none` is a file that does not open. -/
def loadCandles (S : FloatSem) (file : Option (List Char)) : Res (List Candle) :=
  match file with
  | none => .err .external []
  | some bytes => loadLoop S [] (rawLines [] bytes)

end Finmod
