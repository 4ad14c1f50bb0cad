import Verif.Model.CandleFile

/-!
# `LoadCandlesFromFile` with the buffer of `bufio.Scanner`

`Model/CandleFile.lean` cuts the whole file into lines. Here the scanner of market/candle_load.go:42-44 works as the
Go library has it (`src/bufio/scan.go`): a buffer that starts empty, gets 4096 bytes with the first read and doubles
up to 65536, and reads of whatever size the system likes. C184 shows that both give the same.
-/

namespace Finmod
open Go

/-- The fields of `bufio.Scanner` that matter: `size` is `len(s.buf)`, `data` is `s.buf[s.start:s.end]`, `err` says
whether `s.err` is set. `rest` are the bytes the system has yet to give, up to the end of the file or up to a read
error: `os.File.Read` reports both with the next call and without any bytes, and the scanner treats them the same.
`reads` counts the calls of `Read`. `s.empties` is left out: it counts tokens that use up no bytes, which
`ScanLines` does not return. -/
structure Scanner where
  size : Nat
  start : Nat
  data : List Char
  rest : List Char
  reads : Nat
  err : Bool

/-- `bufio.ScanLines`: how many bytes to advance, and the token (`none` is nil). -/
def scanLines (data : List Char) (atEOF : Bool) : Nat × Option (List Char) :=
  if atEOF ∧ data = [] then (0, none)
  else match data.findIdx? (· == '\n') with
    | some i => (i + 1, some (dropCR (data.take i)))
    | none => if atEOF then (data.length, some (dropCR data)) else (0, none)

/-- `Scan`: data moved to the front of the buffer "if there's lots of empty space or space is needed". -/
def Scanner.shift (s : Scanner) : Scanner :=
  if 0 < s.start ∧ (s.start + s.data.length = s.size ∨ s.start > s.size / 2) then { s with start := 0 } else s

/-- `Scan`: a full buffer is doubled, to at most `MaxScanTokenSize`; `none` is `ErrTooLong`. -/
def Scanner.grow (s : Scanner) : Option Scanner :=
  if s.start + s.data.length = s.size then
    if s.size ≥ 65536 then none
    else some { s with size := min (if s.size * 2 = 0 then 4096 else s.size * 2) 65536, start := 0 }
  else some s

/-- `Scan`: one `Read` into the free part of the buffer. The `k`-th read gives `chunk k` bytes, but at least one, if
there are any, and at most as many as there is room for. -/
def Scanner.read (chunk : Nat → Nat) (s : Scanner) : Scanner :=
  match s.rest with
  | [] => { s with err := true, reads := s.reads + 1 }
  | _ =>
    let n := min (max 1 (chunk s.reads)) (s.size - (s.start + s.data.length))
    { s with data := s.data ++ s.rest.take n, rest := s.rest.drop n, reads := s.reads + 1 }

/-- `Scan`; the token is `none` when it returns false. Without fuel the result is `none`. -/
def Scanner.scan (chunk : Nat → Nat) : Nat → Scanner → Option (Option (List Char) × Scanner)
  | 0, _ => none
  | fuel + 1, s =>
    match (if s.data ≠ [] ∨ s.err then scanLines s.data s.err else (0, none)) with
    | (n, some t) => some (some t, { s with start := s.start + n, data := s.data.drop n })
    | (_, none) =>
      if s.err then some (none, { s with start := 0, data := [] })
      else match s.shift.grow with
        | none => some (none, { s.shift with err := true })
        | some s' => Scanner.scan chunk fuel (s'.read chunk)

/-- market/candle_load.go:43-91: the loop; `none` only without fuel. -/
def loadScan (S : FloatSem) (chunk : Nat → Nat) : Nat → List Candle → Scanner → Option (Res (List Candle))
  | 0, _, _ => none
  | fuel + 1, acc, s =>
    match s.scan chunk (s.rest.length + 2) with
    | none => none
    | some (none, _) => some (.ok acc)
    | some (some t, s') =>
      match parseLine S t with
      | .candle c => loadScan S chunk fuel (acc ++ [c]) s'
      | .refused => some (.err .external [])
      | .panics => some .panic

/-- market/candle_load.go:31-94 `LoadCandlesFromFile`: `given` are the bytes the system gives before the end of the file
or a read error; `none` is a file that does not open. -/
def loadCandlesBy (S : FloatSem) (chunk : Nat → Nat) (given : Option (List Char)) : Option (Res (List Candle)) :=
  match given with
  | none => some (.err .external [])
  | some bytes => loadScan S chunk (bytes.length + 1) [] ⟨0, 0, [], bytes, 0, false⟩

end Finmod
