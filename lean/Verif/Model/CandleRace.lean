import Verif.Model.CandleScan

/-!
# `LoadCandlesFromFile` while another process writes to the file

`Model/CandleScan.lean` has the bytes of the file fixed. Here the file may change between the reads of the scanner:
`file k` is what it holds when the `k`-th call of `Read` (market/candle_load.go:43) reaches the system. The open file
has an offset; a read takes bytes of the current contents from there on, and if there are none it reports the end of
the file, after which the scanner does not read again.
-/

namespace Finmod
open Go

/-- `Scan`: one `Read` of a file that now holds `file s.reads`, at the offset `off`. Sizes as in `Scanner.read`; the
field `rest` is not used. -/
def Scanner.readLive (chunk : Nat → Nat) (file : Nat → List Char) (off : Nat) (s : Scanner) : Nat × Scanner :=
  match (file s.reads).drop off with
  | [] => (off, { s with err := true, reads := s.reads + 1 })
  | there =>
    let got := there.take (min (max 1 (chunk s.reads)) (s.size - (s.start + s.data.length)))
    (off + got.length, { s with data := s.data ++ got, reads := s.reads + 1 })

/-- `Scan`, as `Scanner.scan`, with the offset of the open file. -/
def Scanner.scanLive (chunk : Nat → Nat) (file : Nat → List Char) :
    Nat → Nat → Scanner → Option (Option (List Char) × Nat × Scanner)
  | 0, _, _ => none
  | fuel + 1, off, s =>
    match (if s.data ≠ [] ∨ s.err then scanLines s.data s.err else (0, none)) with
    | (n, some t) => some (some t, off, { s with start := s.start + n, data := s.data.drop n })
    | (_, none) =>
      if s.err then some (none, off, { s with start := 0, data := [] })
      else match s.shift.grow with
        | none => some (none, off, { s.shift with err := true })
        | some s' =>
          match s'.readLive chunk file off with
          | (off', s'') => Scanner.scanLive chunk file fuel off' s''

/-- market/candle_load.go:43-91: the loop, as `loadScan`; `each` is the fuel of one `Scan`. -/
def loadLive (S : FloatSem) (chunk : Nat → Nat) (file : Nat → List Char) (each : Nat) :
    Nat → List Candle → Nat → Scanner → Option (Res (List Candle))
  | 0, _, _, _ => none
  | fuel + 1, acc, off, s =>
    match s.scanLive chunk file each off with
    | none => none
    | some (none, _, _) => some (.ok acc)
    | some (some t, off', s') =>
      match parseLine S t with
      | .candle c => loadLive S chunk file each fuel (acc ++ [c]) off' s'
      | .refused => some (.err .external [])
      | .panics => some .panic

/-- market/candle_load.go:31-94 `LoadCandlesFromFile` of a file that opens and never holds more than `most` bytes. -/
def loadCandlesLive (S : FloatSem) (chunk : Nat → Nat) (file : Nat → List Char) (most : Nat) :
    Option (Res (List Candle)) :=
  loadLive S chunk file (most + 2) (most + 1) [] 0 ⟨0, 0, [], [], 0, false⟩

end Finmod
