# Formal model of Vanclief/finmod in Lean 4 — design

## 1. Shape of the model

All code is modelled as total, computable Lean functions. `lean/Verif/Go/*` models the parts
of Go the code relies on, `lean/Verif/Model/*` models `/repo` function by function (every
definition cites file and lines), `lean/Verif/Spec/*` holds small independent specifications,
`lean/Verif/Lemmas/*` helper lemmas and `lean/Verif/Props/*` the property theorems only.

* **Results.** `Res α = ok v | err code v | panic`: a Go `(value, error)` return with nil error,
  with an `ez` error (its code, plus the value returned next to it), or a run-time panic
  (index/slice out of range, nil dereference, integer division by zero).
* **float64/float32.** `Fl = nan | inf neg | fin q | negZero`, `q : ℚ`. Arithmetic is a
  parameter `S : FloatSem` that holds the rounding functions `rnd : ℚ → Fl` (float64) and
  `rnd32` (float32): every operation computes the exact rational result and rounds it, with the
  IEEE-754 rules for NaN, infinities and signed zeros. Two instances:
  `exact` (no rounding) and `ieee` (round to nearest even, binary64/binary32 with gradual
  underflow and overflow to infinity). `Lawful S` collects monotonicity, exactness on small
  integers, idempotence and sign preservation; it is proved for both.
  A theorem "for every lawful S" therefore speaks about the real machine arithmetic; a theorem
  "in exact arithmetic" is about `exact` and says nothing about rounding error.
* **Integers.** Go `int`/`int64` are `Int`; where the code subtracts timestamps the wrap-around
  of int64 is modelled (`wrap64`). `/` and `%` are Go's truncating versions.
* **Slices** are lists; where capacity or aliasing matters (RSI reading past the end, in-place
  order-book updates, copied `Trades`) the model carries the spare capacity or a full heap of
  arrays with (array, offset, length, capacity) slices and an arbitrary growth policy.
* **Maps** are association lists/functions, strings are `String` (or `List Char` where the code
  works character by character).

## 2. Trusted base

* **Kernel.** Lean 4.33.0's kernel and Mathlib's definitions of the number types used.
* **Axioms.** Only Lean's standard `propext`, `Classical.choice` and `Quot.sound`. No axiom of our
  own, no `sorry`, no `native_decide`/`bv_decide`. Section 7 lists the axioms of each theorem.
* **The reading of the Go source.** The model is hand-written from the text of `/repo`; every
  definition cites file and lines. Section 5 says how the reading was checked.
* **Go language and library behaviour that is assumed, not proved:**
  * `sort.SliceStable` is the insertion sort of blocks and merging by rotations of the library
    (`Go/Sort.lean`); that it is a stable sort is proved (C182). The library is not in the sandbox, the
    algorithm was written down from knowledge of its source. By C182 any other stable sort gives the same
    book unless a price is NaN, so only C183 depends on the details.
  * `fmt`'s `%v` of a float64: sign, digits and exponent layout are modelled; *which* digits are
    printed is a parameter `pick` required to read back to the same float (`strconv`'s documented
    contract). The shortest digits are proved to meet it (`Lemmas/Shortest.lean`). The exponent at
    which `%v` switches to scientific notation is a parameter `eprec ≤ 21`.
  * `strconv.ParseFloat` returns the float nearest to the decimal text (ties to even); this is how
    it is modelled. `strconv.ParseInt`, `strings.Split`, `bufio.Scanner` with its buffer (C184) and
    `time.Parse` for RFC 3339 are modelled at byte level, from their documentation and source.
  * `time.Unix(s, 0).Minute()` is the minute of (s + zone offset), for an arbitrary offset function.
  * `xid.New().String()` is an arbitrary stream of strings; uniqueness is a hypothesis where used.
  * float64 operations round one by one (no fused multiply-add; amd64). `Model/Fused.lean` restates the
    functions in which Go may fuse, with the choice as a parameter (C157-C159). Conversion of an out-of-range
    float to int is a parameter `oor`, `-2^63` for `ieee` (amd64).
  * `encoding/json` (Go/Json.lean): the grammar and escapes, the `%f`/`%e` choice for floats, field
    lookup by name and then by case, duplicate names hiding each other, null and type errors leaving
    the variable as it is, nesting limit 10000. Package time (Model/TimeText.lean): the calendar by
    cycles, digits, fraction and zone of `MarshalJSON`.
  * `append` may grow to any capacity (`Go/Heap.lean` takes an arbitrary growth policy).

## 3. What is modelled and what is not

All 86 functions and methods of the non-test files of `/repo` are modelled, and the literal
`PairMappings` table (1951 rows, generated into `Model/PairMappings.lean` by `tools/gen_pairs.py`).

| file in `/repo` | model | not modelled |
|---|---|---|
| `market/orderbook.go`, `orderbook_types.go` | `Model/OrderBook.lean` (lists), `Model/HeapBook.lean` (slices in memory), `Model/BookThreads.lean` (access by access, for goroutines), `Model/BookShare.lean` (the same with the fields of the book in memory, for `ApplyUpdate`, `GetDepth` and `Print`), `Go/Sort.lean` (the library's sort), `Go/SortThreads.lean` (the same, access by access) | a row and a slice header are read and written whole; in `Model/BookThreads.lean` the slice headers and the depth belong to the goroutine; the order of reads within one Go expression is from left to right |
| `market/candle.go` | `Model/Candle.lean`, `Model/HeapCandle.lean` (`ModifyInterval` with the memory behind its slices) | |
| `market/candle_load.go` | `Model/CandleFile.lean`, `Go/Text.lean`, `Model/CandleScan.lean` (reads of any size, read errors), `Model/CandleRace.lean` (a load while others write), `Model/CandleSavers.lean` (several saves at once), `Model/CandleSaversCut.lean` (the same with writes that fail) | |
| `market/position.go`, `trade.go` | `Model/Position.lean`, `Model/HeapPosition.lean`, `Model/PositionThreads.lean` (field by field, for goroutines; fields are read and written whole) | |
| `market/order.go`, `order_request.go` | `Model/Order.lean` | |
| `market/asset.go`, `asset_helpers.go`, `pair.go`, `pair_mappings.go` | `Model/Asset.lean`, `Model/PairMappings.lean` | |
| `market/balances.go`, `ticker.go` and all `String` methods | `Model/Strings.lean` (how one number or time is written is a parameter), `Model/StringsGo.lean` with `Go/Fixed.lean` (numbers), `Model/TimeString.lean` (times, given offset and abbreviation of the zone) | zone data; the monotonic clock reading that `String` appends to times from `time.Now` |
| `GetSchema`/`GetID`/`Update` of the records, `NewAnnotation` | `Model/Records.lean` | the database behind `interfaces.Schema` |
| `indicators/ma.go`, `ewv.go` | `Model/Averages.lean` | |
| `indicators/rsi.go` | `Model/RSI.lean` (slice with spare capacity) | |
| `indicators/williams_fractals.go` | `Model/Fractals.lean` | |
| `strategy/actions.go`, `order_actions.go`, `position_actions.go` | `Model/Actions.lean`, `Model/HeapActions.lean` (maps and annotations in memory), `Model/ActionThreads.lean` (goroutines, access by access; the arguments are values of the goroutine) | |
| `strategy/strategy.go` | `Model/Tick.lean` | the `Strategy` interface (no code) |
| `utils/date.go` | `Model/Date.lean` | |
| the errors (operation, message, what is wrapped) of all 23 functions that return one | `Model/Errors.lean` | the texts of errors of the standard library; what code and message `ez.Wrap` gives them |
| nil receivers and nil pointer arguments of all functions that take pointers | `Model/Nil.lean`, `Model/PrintPtr.lean` (pointers printed with `fmt`, C257) | whether `xid.New` ran before a `GenerateID` panics |
| wrapping of `int` in `MovingAverage`, `SmoothedMovingAverage`, `RSI` | `Model/MachineInt.lean` | nothing |
| the reads of candles, one by one, by all functions of candles | `Model/Shared.lean` | nothing (reads field by field are the memories of `Spec.Torn`) |
| the `json` tags of 21 structs, and `WilliamFractal`, `Actions`, `AddAnnotationsAction`, `Tick` (no tags) | `Model/Json.lean`, `Model/JsonFractal.lean`, `Model/JsonActions.lean`, `Go/Json.lean` | strings of invalid UTF-8 (those are in `Go/JsonBytes.lean`, C186–C188); how times are written (parameter, instantiated by `Model/TimeText.lean` in C167); whether a time keeps its value when something other than a string is read into it (parameter `keptTime`: Go versions differ); what the memory behind a slice holds is a parameter (`stale`) that depends on the list only, so a list given three times in one object may find there what it had before the first |

Package `ez` is modelled from knowledge of it: `New` keeps operation, code and message, `Wrap` adds an operation.
Not modelled anywhere: the texts of errors made by the standard library,
data races (but for the functions of candles, order books, positions and actions), running out of memory, integer overflow of
lengths and indices (but for the indicators). Two index computations of `orderbook.go` that go through float64 are modelled on
integers; `Lemmas/IndexFloat.lean` proves both agree for slices shorter than 2^53.

## 4. Properties: what is modelled and how it is proved

See `properties.jsonl` for the statements and `MANIFEST.json` for theorem names. Where a property
is false of the code, the full claim is kept as `Spec.Cnn_claim`, its negation is proved from a
concrete witness (`Cnn_..._violated`), and a `_partial` theorem says what does hold.

| ids | model | proof |
|---|---|---|
| C01–C02 | `newOrderBook`: stable sort, cut, prefix sums | sorted + permutation + stability of the library's sort (C182); induction on rows |
| C03–C09, C11–C16 | `applyUpdate`, `removeInvalid`, `limit` | invariants by induction over update lists; equality with a `filter`-based spec; C09, C16 false: witness + partial |
| C10 | `removeInvalid` | false (one row too many goes): witness; partial = exact description |
| C17–C19 | `getDepth` | C17 false (returns a price), C19 false on an empty side: witnesses + partials; C18 search lemma |
| C20–C22 | `calculateOverlap`, `overlapCalculation` | case analysis; list induction; C22 false when a side is fully crossed: witness + partial |
| C23 | `Book.print` | reverse/sortedness |
| C24–C33 | `modifyInterval`, `compressCandle` | loop invariant "groups emitted ++ open group = candles read"; regular series by index arithmetic; C29, C31 false: witnesses + partials |
| C34–C35 | `getMinInterval` | fold minimum; C35 false for short lists: witness + partial |
| C36–C39, C103–C105 | `saveCandles`, `loadCandles` | byte-level print/scan/split/parse, parse∘print = id; crash prefixes; C37–C39, C103, C104 false: witnesses + partials |
| C40–C51 | `newPosition`, `modify` | invariants over trade lists in exact arithmetic (`Fl.Is` calculus), C44–C49, C51 in every (lawful) float semantics; C45, C46 false: witnesses + partials |
| C52–C58 | `newTrade`, `newOrderRequest`, `calculateFields`, `isOpen` | case analysis + rational algebra; C55, C56 false: witnesses + partials |
| C59–C64 | assets, pairs, table | case analysis on strings; whole-table kernel computation; C62, C63 false: witnesses + partials |
| C65–C73 | averages | window lemma for the `i,j` loop; convexity and affine laws by induction; C71 false: witness + non-interference theorem |
| C74–C75 | volatility | fold induction, exact and lawful |
| C76–C82 | RSI | loop lemma; C77, C79, C82 false: witnesses + partials |
| C83–C88 | fractals | scan lemma; C85, C86 false: witnesses + partials |
| C89–C91 | actions with an ID stream | history induction |
| C92–C95, C98 | records, ticks, strings | case analysis; C93, C98 false: witnesses + partials |
| C96–C97 | dates | character-level parsing, civil-day arithmetic |
| C99–C101, C106 | memory with slices | refinement of the memory-level code to the list-level model; C99, C101, C106 false: witnesses + partials |
| C102 | `Go/Float.lean`, `Go/IEEE.lean` | round-to-nearest-even: monotone, nearest, error bound |
| C107–C110 | indicators in binary64 | standard error model derived from C102 (`Lemmas/Err.lean`), then induction over the series |
| C111–C113 | positions in binary64 | every quantity is a multiple of 2^-152 (`MulOf`), so no division blows up; per-call error of the basis, then induction over the log. C113 is false in binary64 |
| C114–C115 | resampling in binary64 | the error of the running volume sum is below half a step of 0.00001, so `%.5f` recovers the exact total; then the grouping lemmas of C28 and C33 |
| C116–C119 | books, continued | the sorted list of distinct prices is unique; `NewOrderBook` on a well-formed book only recomputes `AccumVolume`; set-level commutes with `take`; running-sum error bound of section 3 |
| C120 | fractals and order | the scan only compares highs and lows, so the marked indices are a function of the comparisons |
| C121–C123 | marks, fees, filled fields in binary64 | monotone rounding for any lawful semantics; error bounds of section 3; nearest-float statement from C102 |
| C124–C125 | averages: monotone, flat series | monotone rounding and induction over the scan; `SmoothedMovingAverage` in binary64 rests on `back_mono` (Lemmas/QuotRound: for floats z, R(n·R(z/n)) − R(z/n) does not fall). C125 is false in binary64; partial: exact arithmetic, or closes m·2^e with abs(m)·n < 2^53 |
| C126 | `GetDepth`, continued | from the case analysis behind C18 |
| C127–C128 | texts | a small `Sprintf` (`Spec.fill`) run on the format strings of the source; counting line feeds. How numbers and times are rendered is a parameter (numbers: C173). C128 is false: `Pair.String` and `Asset.String` end with a line feed and are embedded in longer texts |
| C129–C139 | exact conditions | for eleven properties that are false of the code: an if-and-only-if for the inputs on which they fail, or the value the code gives in every case (`Spec.kept`, `Spec.overlapComputed`) |
| C140–C144, C146, C147 | exact conditions | when a fractal is final, when AccumVolume is right, which close the EMA ignores, when a saved file is complete, when plain symbols collide, when candles leave the output intervals, when a copied log goes wrong (`Spec.top`, `Spec.Positive`) |
| C145 | net amounts | an open position is determined by the sums of units and money of its trades; reordering and splitting fills (`Spec.dir`, `Spec.PlainTrades`, `Spec.NeverFlat`, `Spec.Fills`) |
| C148 | asks and bids mirror each other | negation reverses every float comparison, so each ask routine is conjugate to the bid routine (`Spec.flipBook`, `Spec.flipUpdate`) |
| C149 | resampling a growing series | the grouping of an extended list extends the last group only (`splitB_append`) |
| C150 | a copied book after an update | heap model: the shared array after one insertion, overwrite or deletion, compared row by row with the old side |
| C151 | RSI: mirrored prices, higher last close, more candles | rises and falls swap; the sums, their ratio, 100/(1+r) and the float32 conversion are monotone; `rsi_ok` |
| C152 | limited book next to a deeper one, exact condition for C118 | `gRemove` and `deleteLevel` against `take`: which rows move up |
| C153 | order-isomorphic prices, other volumes | every test in the book is `<`, `=` on prices or `≠ 0` on volumes; the map passes through search, insertion, deletion, sort |
| C154 | positions at prices a·x+b | `modified_cases` on both positions takes the same branch; averages of affine images |
| C155 | volatility: append, forgetting, scaling, wider candles | the fold step; float steps are monotone on non-negative values (`EwvInv` excludes 0·Inf) |
| C156 | resampling of replaced prices and moved times | the map passes through alignment test, boundary test, the loops for high and low; non-empty groups start from a candle, not from the constants |
| C157 | averages and volatility under fused multiply-add | one step lemma per way of fusing (`dot_near` covers the three ways for a sum of two products), then the inductions of C108 and C109 |
| C158 | positions and fees under fused multiply-add | fused and unfused positions agree outside open price and profit, so the same trades are accepted; error induction of C111 with the fused step of `substract` |
| C159 | accuracy of `CalculateOverlap` | the loop over the bids split at the row where it stops; stopping a row early or late costs at most the price times the error of the volume sum, since exact proceeds change at most by the highest price per unit |
| C160 | what a position records | induction over the history with the frame conditions of C138; the closing trade is found by splitting the history at it |
| C161 | records survive JSON | a JSON value reads back from its text (`parse_emit`, by the fuel of the parser); a number text reads back by the lemmas of C36; a struct with distinct names whose fields together make it up reads back field by field |
| C162 | the JSON text of a record | the compact text of an object as joined members, instantiated per struct; names contain nothing to escape |
| C163 | JSON objects are read by field name | names are distinct up to case, so a key names at most one field; readings of different fields commute; a time that cannot be read stops the reading (`JErr.stop`), so the members read are those up to the first such one (`ReadPart`) |
| C164 | Records are stored under the key their schema names | the ID is the first field; field names are distinct, and the emitted text parses back to the emitted members |
| C165 | Ticks without a candle | cases on the candle and on the name given to `LoadLocation` |
| C166 | What a new annotation records | by definition; label and tooltip stay apart |
| C167 | Times in JSON | days to date by cycles of 400, 100, 4 and 1 years inverts the day count; digits read back; the zone shown is the offset rounded towards zero to minutes |
| C168 | Maps in JSON | writing sorts the entries, which are distinct, so the order is determined; reading sets one key after the other, so the result is the written entries over the old ones |
| C169 | Strings and numbers in JSON | strings: a relation between characters and their texts, shown equal to the model's function by going through all control characters; numbers: Go looks for the digits from the front, so the first length that works is the shortest, rounding up and down bracket the number so the one taken is closest; the layout follows from counting digits |
| C170 | Which texts are JSON | a grammar given by inductive relations (values, elements, members, string items, surrogates), shown equal to the scanner in both directions by induction on the bound of its recursion; the bound always suffices |
| C171 | When reading JSON is an error, and which number is read | types as a tree (`Shape`, taken from the struct declarations), the relation `Fits`, and one lemma for each kind of type that reading ends without error exactly for the values that fit; the decimal of a number text by the lemmas of C36, now for both cases of the exponent sign and any number of digits; the overflow threshold from the rounding of the last binade |
| C172 | The fractals found, written as JSON | each reported fractal has the time and the high or low of a candle, so C161 for `WilliamFractal` applies to every element; the text from C162 and the slice lemma |
| C173 | printed numbers | a digit string is fixed by its value and its number of decimals (`C173_texts_unique`), and at most one number of units is nearest with ties to even, so the text of `fmtFixed` is characterised by `Spec.Fixed` and `Spec.NearestUnits`; `C173_decimal` from the rounding error 2^-53; `C173_reread` ties it to the model of `%.5f` in `Model/Candle.lean` |
| C174 | printed books | numbers consist of digits and `.-+eNaIf`/`n`, so blanks, braces and brackets separate them (`sep_split`); each reads back as itself (`parseFloat_fmtFloat`) |
| C175 | printed times | the calendar of C167; date, clock and offset have fixed widths, the fraction has no blank (`timeString_prefix`); digits compare like numbers (`dateText_lt`, `clockText_lt`) |
| C176 | forgetting | two scans with a step affine in the previous value: the difference is multiplied by the same factor each time (`scan_forget`); C108 for float64 |
| C177 | NaN in indicators | NaN is absorbed by every float operation and every comparison with it is false, in any rounding; RSI: the moves to and from a NaN are filtered out (`moves_append_nan`); resampling commutes with `withoutNaN` |
| C178 | NaN prices in books | all scans find nothing or stop at row 0 (`upsertAsk_nan`, `removeInvalidBid_nan`) |
| C179 | NaN trades | case split of Modify; invariants over the history |
| C180 | storing and resuming | every result of a float operation is rounded or not finite (`rep_add` …), rows of a book come from the book or the update; then C161 |
| C181 | other units | no step of the book but `accumulate` and the overlap does arithmetic: `findIdx?_units`, `gUpsert_units`, `gRemove_units` for a map that keeps `<` and `==`; overlap: scaling commutes with exact `+`, `-`, `*` on all floats (`times_mul`) |
| C182 | `Go/Sort.lean` | every step on `P ++ A ++ R` with `A` the stretch worked on: rotation by swapping blocks, `SymMerge` by the mirrored binary search (`symMerge_at`: what moves right is greater than what moves left), blocks double; a sorted list is determined by its elements of every key |
| C183 | `Go/Sort.lean` | up to 20 elements only insertion: a NaN row stays (`sink_stays`) and nothing sinks past it (`sink_barrier`) |
| C184 | `Model/CandleScan.lean` | the scanner with its buffer; one `Scan` against the lines of the bytes not yet given out (`scan_spec`), by induction on the bytes not yet read; a full buffer of 65536 bytes without newline is a line of over 65535 bytes |
| C185 | `Go/Json.lean` `decElems`, `Codec.slice` | element `i` of the array is read into element `i` of the old list followed by the hidden memory (`ListRead`), by induction on the array; the fields of a row, balance and annotation by C163 |
| C186 | `Go/JsonBytes.lean` | texts as bytes, strings decoded by `utf8.DecodeRune`; every scanner on bytes goes as the one on the decoded characters (`scan_runes`), since ASCII characters are exactly the ASCII bytes; `decode_encode`, `encode_decode` against Lean's `String.utf8EncodeChar`; the text of a string by induction on its bytes (`quote_text`) |
| C187 | `Go/JsonBytes.lean` (`emitB`, `marshalB`) | the text of a value whose strings are bytes is the UTF-8 of a text of the healed value (`text_value`, strings replaced by what they read as), so the C161 round trips carry over with strings related by `Reads`; times are ASCII (`C187_times`) |
| C188 | `Model/JsonActions.lean`, `Go/JsonBytes.lean` | as C187; storing the entries in key order one after another (`fold_get`): the last entry with a key stays, which is the greatest since the keys are sorted strictly (`readsB_map`) |
| C189 | `Go/JsonBytes.lean`, `Go/Json.lean` | both texts side by side, node by node (`Same`, `rel_mapM`); numbers and names are ASCII; `encode_lt`, `utf8_lt`: smaller characters have smaller bytes, so the sorted entries correspond (`textB_map`) |
| C190 | `Model/Errors.lean` | false: every error of `RSI` has the operation `movingAverage`, `LoadCandlesFromFile` spells itself with a small l, and `ModifyInterval` returns an error of `compressCandle` unwrapped. Proved: the other 20 functions name themselves (`C190_names_partial`), what the three say (`C190_other_names_partial`), and that without operation and message the functions are those of the other model files (`C190_same_functions_partial`) |
| C191 | `Model/Errors.lean` | one equivalence per message, by cases over the tests in the order of the code; `OneOf`: no other message |
| C192 | `Model/Errors.lean` | printed integers hold no space and are injective (`parseInt_fmtInt`), so the message splits uniquely |
| C193 | `Model/Errors.lean` | a line is refused for word k iff words before k are readable and k is not (`parseLineE_refused`), then induction on the lines |
| C194 | `Model/Nil.lean` | pointers are options; each function is read for its first access through the pointer, then by cases on what is tested before (`C194_same`, `C194_same_readers`: on other pointers the functions of the other files) |
| C195 | `Model/Nil.lean` | by computation: the effect comes before the first access |
| C196 | `Model/MachineInt.lean` | equal to the functions on unbounded integers, by induction on the loop: a bound that wraps is negative and panics, as the bound that does not wrap is past the end |
| C197 | `Model/Shared.lean` | each function is a program of reads; each program is proved to read only elements of the slice and to give the result of the function on the list (`Reads`), so memory elsewhere cannot matter |
| C198 | `Model/Shared.lean` | false: the last window of `RSI` includes the candle behind the slice if the capacity allows. Proved: with that candle undisturbed too, `RSI` gives the same as alone (`C198_rsi_partial`) |
| C199 | `Model/Averages.lean` | window by window and value by value: a sum of finite floats is never NaN; for the exponential average the weight `1 - p` is shown positive in binary64 for periods from 2 on, so an infinity stays; in the smoothed average `prev*period - prev` of an infinite `prev` is NaN. Period 1 apart (`C199_period_one`). Example: five closes, two of them `2^1023` |
| C200 | `Model/Order.lean` | the filled-in amount is one rounding (`C123`); `rnd_isZero`: a binary64 rounding is 0 exactly up to `2^-1075`, from the error bound of C102 and monotonicity. Example: half a unit at `2^-1074` |
| C201 | `Model/Position.lean` | case by case over what `Modify` does (`modified_cases`): signs and infinities of the two products, their quotients and the sum; histories by induction, an infinite quantity staying so. Examples: 2 units at `2^1023`, and two trades of `2^1023` units |
| C202 | `Model/CandleRace.lean` | as C184, but with the bytes of the reads found as the scanner goes (`scanLive_spec`, `loadLive_spec`): what one call of `Scan` gives holds for every continuation of the text, until the end of the file was seen. Examples: a save caught in a volume, and a load across `os.Create` that returns a candle of neither list |
| C203 | `Model/CandleSavers.lean` | induction over the interleaving. `saved_rest`: what a process has yet to write is its text from its offset on; `saved_same`: the process that created the file last has filled it up to its offset. Examples: a hole of one zero byte, refused by the load, and a file with a candle of each process |
| C204 | `Model/BookThreads.lean`, `Go/Threads.lean` | the functions are programs of single reads, writes and allocations. `Safe`: a program keeps to cells of its own and ends well whatever happens to the others (rely-guarantee, by recursion on the program); `safe_applyAll` shows it of updates, from the runs of `Model/HeapBook.lean`; `safe_all`: safe goroutines stay so in every interleaving. Example: two goroutines in turn, both of which make new arrays |
| C205 | `Model/BookThreads.lean`, `Go/Threads.lean` | as C204, with cells that nobody writes (`view`); `safe_make`, `safe_getDepth`, `safe_print`, `safe_calculateOverlap`. `C205_sharing` runs a schedule |
| C206 | `Model/TimeText.lean`, `Model/Date.lean` | inversion of the parser, element by element; `nine_digits` for the fraction. Hours of one digit, commas and zones from 24:00 on are accepted by the model's parser (older Go versions) and refused by newer ones: `C206_read` holds for both, `C206_accepted` keeps to texts that both accept |
| C207 | `Model/Candle.lean` | inversion of `modifyInterval`; a sum of floats is a float and `%.5f` of a float reads back in range (`ieee_printSafe`). Volumes by induction on the running sum; the bound because `k·2^971` is a float for `k < 2^53` and rounding is monotone. Example: two volumes of `2^1023` |
| C208 | `Model/Candle.lean` | from C28 (times of the resampled candles) and C34 (smallest gap) |
| C209 | `Model/OrderBook.lean` | induction on the history with two runs side by side: a step changes its own side by a function of that side alone (`own_side_step`) and, not crossing, leaves the other as it is. Counterexample for crossing updates |
| C210 | `Model/OrderBook.lean` | the exact rows by induction as for C13, then two strictly sorted sides with the same rows are the same list. Counterexample with `MaxDepth` 1 for the condition |
| C211 | `Model/OrderBook.lean` | the loops as left folds and a prefix condition, for any arithmetic; then non-negative sums are never NaN, the rest to sell is only computed when the volume is finite and not used up, and the difference of two representable numbers ≥ 0 does not overflow. Example where both sums overflow |
| C212 | `Model/Order.lean`, `Model/Position.lean` | the five calls run one after the other in any lawful arithmetic; the quantity subtracted from itself is a zero, so `Modify` closes; then three roundings, none of them underflowing because the difference of two floats above 2^-100 is a multiple of 2^-152 |
| C213 | `Model/Averages.lean`, `Model/RSI.lean`, `Model/Fractals.lean`, `Model/Candle.lean` | replacing the fields not read by constants changes no loop, by induction on each loop; with C28 the closes of the groups |
| C214 | `Model/Position.lean`, `Model/Order.lean`, `Model/OrderBook.lean` | unfolding for positions and requests; sorting commutes with forgetting AccumVolume (`sliceStable_map`); the overlap loops by induction on two rows lists side by side |
| C215 | `Model/Candle.lean`, `Model/CandleFile.lean` | each field of a summary is copied from its group, a constant or a rounded volume, so representable (C24); then C36 twice |
| C216 | `Model/OrderBook.lean` | C08 with the case split of C20; the scan as takeWhile and any; an update beyond the crossing keeps the near rows (C05, C06) and the truncation keeps them because they fit the depth |
| C217 | `Model/Averages.lean` | linearity of sums and of the recurrences over ℚ, then the exact form of each average (C65, C70, C72) and a joint induction for the volatility |
| C218 | `Model/OrderBook.lean` | both final books have the rows of C210, and strictly sorted sides with the same rows are equal; the replay has the same latest updates; an invariant for the last part |
| C219 | `Model/Fractals.lean`, `Model/Candle.lean` | C24 and C84; the high of a summary beats (is beaten by) a price iff all (some) highs of the group do (are) |
| C220 | `Model/OrderBook.lean` | merges that agree on each feed have the same latest update at each price; then C210 and C218 |
| C221 | `Model/CandleSaversCut` | inductions over the interleaving; the offset of a process is the number of bytes taken from it, so its taken bytes only grow (`cut_grows`) and are beginnings of its lines (`cut_pieces`) |
| C222 | `Model/BookThreads`, `Go/SortThreads` | every function of the library's sort as a program of single accesses does in memory what `Go/Sort` does with a list (`Makes`, `Looks`); then as C204. `C222_same_rows` runs a schedule |
| C223 | `Model/PositionThreads` | every function as a program of single accesses does in memory what `Model/Position` does with a value, using only its own cells (`safe_modify`, …); then the framework of `Go/Threads` |
| C224 | `Model/PositionThreads` | the writer's memory moves along two indices, the price's ahead of the quantity's by at most one (`Path`), and readers go along (`Reading`); the converse builds the schedule (`Meets`) |
| C225 | `Model/PositionThreads` | the schedule is run: the first goroutine stops after reading the quantity, the second does its whole call, the first goes on |
| C226 | `Model/Asset`, `Model/PairMappings` | lookup in a table against a `match` of the specification; the table of pairs is evaluated by the kernel, all rows |
| C227 | `Model/Order` | from C53, and by cases |
| C228 | `Model/HeapActions` | one generic step for a pair of map variables (`TwoMaps`), used for the five maps; annotations by the slice theory of `Go/Heap` |
| C229 | `Model/BookShare` | every read of `ob.Asks`, `ob.Bids` and `ob.MaxDepth` is a step of its own; the run alone is compared function by function with `Model/HeapBook` and then with lists by C100; a program that only reads (`ReadOnly`) gives the same in every interleaving |
| C230 | `Model/BookShare` | the schedule is run: the first goroutine stops once `append` has read the header (`part_upsert`), the second does its whole call, the first goes on; the two orders by `gUpsert_perm` |
| C231 | `Model/BookShare` | the schedule is run: the reader stops before the row at issue (`part_getDepth`, `part_printAsks`), the update does its whole call, the reader goes on |
| C232 | `Model/ActionThreads` | each Add method keeps within the cells of its `Actions` (`safe_runActions`), with the IDs it drew; `run_any` says that the memory then shows what `runActions` of `Model/Actions` gives with these IDs; the numbers of the IDs belong to one goroutine each (`AllSafe.apart`) |
| C233 | `Model/ActionThreads` | the schedule is run: the first goroutine stops once it has read the nil map (the header of the annotations), the second does its whole call, the first goes on; for the map race each goroutine goes up to its first write of the map |
| C234 | `Model/Shared` | `Once`: along every run the element behind `l` is read once, or its value is not used; then the run equals one with a still memory, and C197 says what that gives |
| C235 | `Model/Shared` | induction over the reads |
| C236 | `Model/Shared` | the number of reads before a window is known, so the result is written out for any memory; the replacement is put between two windows |
| C237 | `Model/Shared` | witness run by the kernel, in exact arithmetic and in binary64; partial from C198 and C76 |
| C238 | `Model/Shared` | induction over the reads; each group's extremes bound what was read before |
| C239 | `Model/Shared` | induction over the reads on the right, between a last candle that rules out all it can and one that rules out nothing |
| C240 | `Model/Shared` | as C238; the bounds are between reads at different times only |
| C241 | `Model/Shared` | witness run by the kernel in binary64; partial from C235 |
| C242 | `Model/HeapCandle` | loop invariant with the slice theory of `Go/Heap`; agrees with the function on values; witness of one candle |
| C243 | `Model/Shared` | the run is compared step by step with one on a memory that keeps the mixed candle (`Alike`); witness run by the kernel in binary64 |
| C244 | `Model/Shared` | each program is shown to do the same with a candle and with what is left of it when the other fields are erased (`Blind`); the result then follows from C197, C198 |
| C245 | `Model/Position` | the error state of C111 (`PosErr`) and the rounding of a difference times a quantity (`gain_near`) |
| C246 | `Model/Candle` | from C30, C34 and the cut into groups, in which every candle is a boundary; witness: five-minute candles of which the second is missing |
| C247 | `Model/Candle` | the cut into groups of the whole is that of the parts, since boundaries counted from both pivots are the same; witness run by the kernel |
| C248 | `Model/Candle` | the zone enters only through which candles are aligned (`modifyInterval_zone`); witness run by the kernel |
| C249 | `Model/Averages`, `Model/RSI`, `Model/Fractals` | windows of the whole are windows of a part; the number of values fixes the number of common candles, then a witness |
| C250 | `Model/CandleFile` | lines of joined files are the joined lines when the first is ended; induction over the lines; witness run by the kernel |
| C251 | `Model/Position` | C111 and C245 for both orders: sums over the logs are the same; witness run by the kernel |
| C252 | `Model/Candle`, `Model/Averages`, `Model/RSI`, `Model/Fractals` | windows of a reversed list are reversed windows; rises become falls; C24 for the swapped opens and closes; witness run by the kernel |
| C253 | `Model/Position` | C40 and C52 trade by trade; C112 and C122 for float64 |
| C254 | `Model/Candle` | groups before and after the repeated candle are the same (`splitB_before`, `splitB_after`), maximum and minimum are idempotent; witness in float64 for the violation |
| C255 | `Model/Fractals` | a fractal as a decomposition of the series (`mem_fractals_at`); `rightScan_twice` by induction; witness for the violation |
| C256 | `Model/Position` | case analysis of `modified_cases` twice; witness in both arithmetics for the violation |
| C257 | `Model/PrintPtr` (from knowledge of `fmt`) | C98 and C194 give when the method panics; the texts by evaluation |
| C258 | `Model/OrderBook` | the first row found by the search splits the side; induction on the number of updates |
| C259 | `Model/OrderBook` | C05, C06 and C10 give the best rows after the update, C20 decides |
| C260 | `Model/Averages`, `Model/Position` | a relation between floats of opposite value, kept by each operation because rounding is odd |
| C261 | `Model/RSI` | C110 for both series, whose exact values are equal (C81) or add up to 100 (C151) |
| C262 | `Model/Averages` | C107 and C108 for the three series; the exact averages are linear (C217), and an average of values within d of 0 is within d of 0; volatility: C109 and the weights |
| C263 | `Model/OrderBook` | a sorted side without the price splits into the rows before and behind it; what the cut to `MaxDepth` takes is the last row behind it |
| C264 | `Model/Fractals` | the candle one or two after a fractal does not beat it (the count of weaker ones is still below two), but as a fractal it would have to |
| C265 | `Model/Position` | the quantity is unchanged, so neither an error nor a close; the open price becomes fl(fl(o*q)/q), two roundings from o |
| C266 | `Model/Averages` | without rounding each new value is a weighted mean of the last value and a later close; in float64 MovingAverage compares window with window (C124), the others by their accuracy (C108) |
| C267 | `Model/Position` | C111 and C245 for both histories: the exact units and cash of the fills add up to those of the trade, and so do their sizes |
| C268 | `Model/Position` | case by case over the branches of Modify, in every float arithmetic; induction over the history |
| C269 | `Model/Candle`, `Model/Fractals`, `Model/Averages` | C24: each value is that of a candle of its group, groups come in order; C266 for the averages; for fractals the neighbours on both sides rule every candle out |
| C270 | `Model/Averages` | during the warm-up of the slower average the faster one stays between the mean so far and the next close; from then on both take the same closes, the faster with the greater weight; in float64 by the accuracy of each (C107, C108) |
| C271 | `Model/Averages` | the distance from the smoothed average to the mean of the window is a sum of non-negative parts at every candle; the exponential average takes each close with a greater weight, but one candle late; in float64 by the accuracy of each (C107, C108) |
| C272 | `Model/Averages` | one step is monotone in the value so far and in the range (C155); the series shifted by one candle is nowhere narrower and starts from a value that is not negative |
| C273 | `Model/Averages` | at each candle the range counts more and the value before, which is not above it, counts less; in float64 by the accuracy (C109) |
| C274 | `Model/Averages`, `Model/Candle` | group by group: m candles no wider than R move the volatility no further than one candle of range R with beta^m; groups from C28, float64 from C109 |
| C275 | `Model/Json`, `Model/JsonActions` | maps: induction on the members, last one with the key wins; pointers: the member alone decides |
| C276 | `Model/Position` | exact: C41 and a bound on the cost of trades in a price range, by induction on the log; float64 from C111 |
| C277 | `Model/Position` | the cost bound of C276 with net units zero; profit from C40, float64 from C111 and C112 |
| C278 | `Model/OrderBook` | bounds on cost and proceeds by induction on the rows; the value from C135, float64 from C159 |
| C279 | `Model/Position` | the worth is the sum of (x - price) times units over the log (C41), bounded trade by trade; float64 from C245 |
| C280 | `Model/Averages` | the moving average by one close taking the place of another; the other two by induction over the recurrence, whose weights sum to one; float64 through the accuracy theorems |
| C281 | `Model/Position` | the ranges of C276 and C277 with both ends equal; the counterexample by evaluation |
| C282 | `Model/Averages` | the exact recurrence and its range by induction over the candles; float64 through C74 and C109 |
| C283 | `Model/PairMappings` | the whole table evaluated in the kernel once per fact, the rest from the lookup lemmas |
| C284 | `Model/RSI` | rises less falls telescope to last less first; the values from C78 (exact) and C110 (float64); the counterexample by evaluation |
| C285 | `Model/Averages` | each step is a positive weight times a difference; float64 through the accuracy theorems; the counterexample by evaluation |
| C286 | `Model/Position` | every profit is the net cash of its trades (C40; C112 in float64), and a sum does not depend on the order |
| C287 | `Model/Position` | every profit is the money and the units of its trades (C40, C41; C112 and C245 in float64), and a sum does not depend on the order |
| C288 | `Model/Strings`, `Model/StringsGo`, `Model/TimeString` | the text is cut at the labels, whose first characters the fields do not contain; numbers and times through C175 |
| C289 | `Model/Strings`, `Model/StringsGo`, `Model/TimeString` | the text is cut at the labels, whose first characters the fields do not contain; numbers and times through C175 |
| C290 | `Model/Strings`, `Model/StringsGo` | the text is cut at the labels; a list is cut at its braces, element by element; amounts in a list are written in shortest digits and read back (C174) |

## 5. How the reading of the code was checked

The code cannot be run here, so the model was checked against data in the repository:

* `Conform/*.lean` evaluates the model on the inputs of the repository's own tests and compares
  with the values those tests expect (these are tests, not proofs).
* The 1-minute candle data set resampled by the model to 5, 15 and 60 minutes reproduces the data
  files of the repository.
* One repository test disagrees with the model: `TestExponentialMovingAverage` expects 34483.65
  within 0.4 where the model (and the code, read by hand) gives 34452.05; the test appears to fail
  on the unchanged code.

## 6. Disagreements between the properties and the code

| property | what the code does |
|---|---|
| C09 | an ask at the price of the last bid leaves that bid: the book is locked |
| C10 | clearing the crossed side drops one row too many |
| C16 | after `ApplyUpdate` accumulated volumes are stale or 0 |
| C17 | `GetDepth` returns a price, not a volume |
| C19, C31, C39, C93, C98 | panics: empty side; empty candle list or interval 0; short lines; typed nil; short ID or missing asset |
| C22 | overlap of a fully crossed side is not counted |
| C29 | a candle after a hole joins an older group |
| C35 | `GetMinInterval` of fewer than two candles is a huge negative number |
| C37 | candle times are parsed as 32-bit: files fail to load from 2038 on |
| C38, C103, C104 | torn files may load a wrong last volume; write errors are dropped; a line of 64 KiB ends a load silently |
| C118 | a book limited to `MaxDepth` drops rows for good: after a deletion the next row is missing |
| C125 | the moving average of 0.1, 0.1, 0.1 is 0.10000000000000002 in binary64 |
| C128 | orders, order requests, positions and balances print as two lines, a snapshot of assets as one more line for each asset: the embedded pair or asset text ends with a line feed |
| C113 | buying 0.1 and 0.2 and selling 0.1 and 0.2 leaves a position of 2^-54 units open in binary64 |
| C45, C46 | `Modify` drops the oversize error; a closed position still changes |
| C55, C56 | a priceless request for a total gets an infinite quantity; a close request uses its own price |
| C62, C63 | AB/C and A/BC have the same symbol; `DYDXETH` maps to OOKI/ETH |
| C71 | the exponential average skips the close of candle number `period` |
| C77, C79, C82 | RSI reads one candle past the slice; flat windows give NaN; a period above the length is not reported |
| C85, C86 | a plateau at the end of data counts as a fractal and can vanish later |
| C99, C101, C106 | `NewOrderBook` sorts the caller's slices; copies of positions and books share memory |
| C190 | errors of `RSI`, `LoadCandlesFromFile` and of volumes in `ModifyInterval` name another function |
| C198 | RSI reads one candle behind its slice, so a write there changes the result |
| C237, C241, C243 | `RSI`, the volatility and `ModifyInterval` read a candle in several steps: a candle replaced in between gives values that belong to no moment |
| C242 | `ModifyInterval` of one candle returns the caller's own slice |
| C246 | `ModifyInterval` refuses the interval `GetMinInterval` reports when a candle is missing right after the first |
| C247 | intervals that do not divide the hour are counted from the first aligned candle, so a series resampled in two parts can come out otherwise |
| C248 | the first candle is chosen by the minute on the machine's clock, so the result of ModifyInterval depends on the time zone |
| C249 | exponential and smoothed averages cannot be computed in parts, fractals only without ties |
| C250 | behind a candle file whose last line is not ended, the first candle of the next file can vanish without an error |
| C251 | the quantity of a position depends on the order of its trades in float64 |
| C252 | `ModifyInterval` accepts candles newest first and swaps opens and closes |
| C254 | `ModifyInterval` counts a repeated candle twice in the volume, or makes an additional candle of it |
| C255 | `WilliamFractals` can find a fractal that is there only because a candle is repeated |
| C256 | `Modify` counts a trade delivered twice again, although its ID is in the log |
| C258 | Of two rows at one price given to `NewOrderBook`, an update sets (or deletes) one and leaves the other |
| C263 | A level added to a full book and taken away again costs the book its worst row |
| C265 | A trade of quantity zero can move the open price by a rounding error |
| C266 | The exponential and the smoothed average can fall by a rounding error while no close falls |
| C267 | Fills of an order can add up to a different quantity than the order |
| C270 | With equal closes an average of a longer period can be above one of a shorter period by a rounding error |
| C271 | While prices rise the smoothed average can be above the exponential one, which leaves out a close, and by a rounding error above the moving average |
| C273 | With a greater beta the volatility of equal candles can be above the one with a smaller beta by a rounding error |
| C276 | Partial closes move OpenPrice out of the range of the prices traded, also below zero |
| C278 | In an overlap, asks that find no buyer count with their full cost, so it can exceed the spread times the volume |
| C281 | In float64 a partial close at the price at which the position was opened changes `OpenPrice`: after buying 3 and selling 2 at 5 it is 5.000000000000001, and selling the last one at 5 books a loss of 8.9e-16. |
| C284 | In float64 `RSI` can be exactly 50 although the window rose: closes of 0, 10^9 and then 1 on and on. |
| C285 | In float64 an average can stay where it is although the next close is above it: after closes of 1, one of 1.0000000000000002 changes no average of period 2. |

## 7. Axioms of each theorem

Generated by `tools/axioms.py` from `#print axioms`.

<!-- axioms -->

**none** (5 theorems): `C166_annotation`, `Json.C186_utf8`, `C194_schema`, `C227_names`, `C228_value`.

**propext** (23 theorems): `C58_isOpen`, `C59_newAsset`, `C62_symbol_plain_violated`, `C63_mapping_symbol_violated`, `C92_trade_update`, `C92_order_update`, `C92_position_update`, `C92_annotation_update`, `C93_update_panics_iff_partial`, `C94_schemas`, `C94_id_after_update`, `C98_others_print_partial`, `C165_local`, `C166_injective`, `Json.C187_refused`, `C194_update`, `C194_strings`, `C195_print`, `C204_finish`, `C222_finish`, `C223_finish`, `C226_pair`, `C257_prints`.

**propext, Classical.choice, Quot.sound** (872 theorems): `C01_new_order_book_keeps_best`, `C02_accum_volume_running_sum`, `C03_book_depth_bounded`, `C04_sides_stay_sorted`, `C05_nonzero_update_sets_level`, `C06_zero_update_deletes_level`, `C07_unknown_side_rejected`, `C08_book_never_crossed`, `C08_new_book_never_crossed`, `C09_never_locked_violated`, `C09_never_locked_partial`, `C10_removes_only_crossed_violated`, `C10_removes_only_crossed_partial`, `C11_other_side_untouched`, `C12_row_is_latest_write`, `C13_book_is_latest_map`, `C14_update_idempotent`, `C15_updates_commute`, `C16_accum_after_updates_violated`, `C16_accum_after_updates_partial`, `C17_get_depth_volume_violated`, `C17_get_depth_volume_partial`, `C18_get_depth_level`, `C19_get_depth_no_panic_violated`, `C19_get_depth_no_panic_partial`, `C20_overlap_decided`, `C21_overlap_symmetric`, `C22_overlap_value_violated`, `C22_overlap_value_partial`, `C23_print_ladder`, `C24_groups`, `C25_retained`, `C26_conserved`, `C27_wellFormed`, `C28_regular`, `C28_succeeds`, `C29_span_violated`, `C29_span_partial`, `C30_rejects`, `C30_accepts`, `C31_panic_violated`, `C31_no_panic_partial`, `C32_identity`, `C33_compose`, `C34_minInterval`, `C35_minInterval_violated`, `C35_minInterval_partial`, `C36_roundtrip`, `C36_roundtrip_ieee`, `C36_injective`, `C37_times_partial`, `C37_claim_violated`, `C38_claim_violated`, `C38_misread_violated`, `C38_torn_partial`, `C38_line_boundary_partial`, `C39_claim_violated`, `C39_panics_iff_partial`, `C39_six_words_partial`, `C40_profit_is_net_cash`, `C41_cost_basis`, `C42_trade_at_mark`, `C42_close_at_mark`, `C43_add_averages`, `C44_wrong_pair`, `C45_oversized_reported_violated`, `C45_oversized_unchanged_partial`, `C46_closed_unchanged_violated`, `C46_closed_stays_closed_partial`, `C47_never_reopens`, `C48_trade_log`, `C49_quantity_positive`, `C50_close_decision`, `C51_mirror`, `C51_mirror_open`, `C52_fee_identity`, `C53_request_validation`, `C54_succeeds_iff`, `C54_completes`, `C55_finite_violated`, `C55_finite_partial`, `C56_close_price_violated`, `C56_close_price_partial`, `C57_not_twice`, `C61_symbol_separator`, `C62_symbol_plain_partial`, `C64_mapping_injective`, `C65_moving_average`, `C65_moving_average_exact`, `C66_bad_periods`, `C67_within_range`, `C68_affine`, `C69_slides`, `C70_ema_float`, `C70_ema_exact`, `C71_uses_all_violated`, `C71_uses_all_partial`, `C72_smma_exact`, `C73_look_back`, `C74_weighted_sum`, `C75_nonneg`, `C75_nonneg_ieee`, `C75_bounded_exact`, `C75_overflow_needed`, `C76_rsi_range`, `C76_rsi_range_ieee`, `C77_reads_input_violated`, `C77_reads_input_partial`, `C78_rsi_windows`, `C78_rsi_exact`, `C79_number_violated`, `C79_number_partial`, `C80_rsi_all_rises`, `C80_rsi_all_falls`, `C80_rsi_extremes_ieee`, `C80_rsi_values`, `C81_rsi_affine_window`, `C81_rsi_affine`, `C82_enough_candles_violated`, `C82_enough_candles_partial`, `C83_local_extremes`, `C83_local_extreme_at`, `C84_reported_iff`, `C85_two_after_violated`, `C85_two_after_partial`, `C85_no_ties_partial`, `C86_repaint_violated`, `C86_confirmed_partial`, `C86_no_ties_partial`, `C87_blocks`, `C87_time_order`, `C88_mirror`, `C89_keyed_by_own_id`, `C89_id_is_key`, `C90_nothing_lost`, `C90_entries_kept`, `C91_annotations_in_order`, `C95_location_time`, `C95_known_locations`, `C95_order`, `C96_accepts_exactly_dates`, `C96_unix_midnight`, `C96_refuses_rest`, `C97_order`, `C97_next_day`, `C99_caller_rows_partial`, `C99_untouched_asks_partial`, `C99_caller_rows_violated`, `C100_updates_as_values`, `C100_update_as_value`, `C100_new_as_value`, `C101_own_log`, `C101_copies_violated`, `C101_independent_partial`, `C101_full_copy_partial`, `C101_first_entries_partial`, `C101_one_sided_partial`, `Go.C102_nearest_even`, `Go.C102_laws`, `Go.C102_error`, `C103_claim_violated`, `C103_save_partial`, `C104_claim_violated`, `C104_counts_lines_partial`, `C105_loads_lines`, `C105_loads_prefix`, `C106_copies_violated`, `C106_separate_books_partial`, `C107_moving_average_accurate`, `C108_ema_accurate`, `C108_smma_accurate`, `C109_volatility_accurate`, `C110_rsi_accurate`, `C111_quantity_and_basis`, `C112_profit`, `C113_closes_exact_partial`, `C113_closes_on_grid_partial`, `C113_dust_partial`, `C113_closes_violated`, `C114_volume_nearest`, `C114_total_volume`, `C115_identity`, `C115_compose`, `C116_row_order_irrelevant`, `C117_rebuild_repairs`, `C117_rebuild_idempotent`, `C118_limited_view_violated`, `C118_limited_view_partial`, `C118_rows_partial`, `C119_accum_monotone`, `C119_accum_accurate`, `C120_order_only`, `C120_relabel`, `C121_monotone`, `C121_sign`, `C121_accurate`, `C122_fee_accurate`, `C122_no_fee`, `C123_nearest`, `C124_ma_monotone`, `C124_ema_monotone`, `C124_smma_monotone`, `C124_smma_monotone_ieee`, `C125_flat_violated`, `C125_flat_partial`, `C126_monotone`, `C126_quoted`, `C127_texts_identify`, `C127_texts`, `C129_update_exact`, `C129_only_crossed_iff`, `C130_locks_iff`, `C131_get_depth_panics_iff`, `C132_panics_iff`, `C133_negative_iff`, `C133_short_constant`, `C134_finite_iff`, `C134_finite_iff_exact`, `C135_overlap_computed`, `C135_whole_side`, `C136_nan_iff`, `C137_loads`, `C137_counts_iff`, `C137_error_otherwise`, `C138_changes_iff`, `C138_frame`, `C139_flat_short`, `C140_only_retracts`, `C140_final_iff`, `C141_accum_right_iff`, `C142_ema_ignores`, `C142_ema_uses_iff`, `C143_complete_iff`, `C144_plain_symbols_collide_iff`, `C145_net_amounts`, `C145_order_irrelevant`, `C145_split`, `C146_span_iff`, `C147_original_log_iff`, `C148_new_mirror`, `C148_update_mirror`, `C148_history_mirror`, `C148_involution`, `C149_append`, `C149_range_grows`, `C149_conflict`, `C150_copy_after_set`, `C150_copy_after_delete`, `C150_copy_unchanged_iff`, `C151_last_close`, `C151_mirror`, `C151_more_candles`, `C152_stays_top_iff`, `C153_update_relabel`, `C153_history_relabel`, `C153_new_relabel`, `C153_depth_relabel`, `C154_unrealized`, `C154_affine`, `C155_append`, `C155_forgets`, `C155_scale`, `C155_wider`, `C155_wider_ieee`, `C156_relabel`, `C157_unfused`, `C157_ema_accurate`, `C157_smma_accurate`, `C157_volatility_accurate`, `C157_volatility_nonneg`, `C158_unfused`, `C158_books`, `C158_quantity_and_basis`, `C158_profit`, `C158_fee_accurate`, `C158_fee_of_own_cost`, `C159_unfused`, `C159_overlap_accurate`, `C159_overlap_accurate_plain`, `C159_symmetric`, `C159_overlap_accurate_reversed`, `C159_found_iff`, `C160_opening`, `C160_no_type`, `C160_record`, `Json.C161_row`, `Json.C161_update`, `Json.C161_book`, `Json.C161_candle`, `Json.C161_asset`, `Json.C161_pair`, `Json.C161_ticker`, `Json.C161_balanceSnapshot`, `Json.C161_balance`, `Json.C161_assetsSnapshot`, `Json.C161_trade`, `Json.C161_positionCloseOrder`, `Json.C161_position`, `Json.C161_order`, `Json.C161_orderRequest`, `Json.C161_createOrderAction`, `Json.C161_updateOrderAction`, `Json.C161_cancelOrderAction`, `Json.C161_updatePositionAction`, `Json.C161_closePositionAction`, `Json.C161_annotation`, `Json.C161_fractal`, `Json.C162_fractal`, `Json.C162_row`, `Json.C162_update`, `Json.C162_book`, `Json.C162_candle`, `Json.C162_asset`, `Json.C162_pair`, `Json.C162_ticker`, `Json.C162_balanceSnapshot`, `Json.C162_balance`, `Json.C162_assetsSnapshot`, `Json.C162_trade`, `Json.C162_positionCloseOrder`, `Json.C162_position`, `Json.C162_order`, `Json.C162_orderRequest`, `Json.C162_createOrderAction`, `Json.C162_updateOrderAction`, `Json.C162_cancelOrderAction`, `Json.C162_updatePositionAction`, `Json.C162_closePositionAction`, `Json.C162_annotation`, `Json.C163_actions`, `Json.C163_actions_order`, `Json.C163_addAnnotationsAction`, `Json.C163_addAnnotationsAction_order`, `Json.C163_tick`, `Json.C163_tick_order`, `Json.C163_fractal`, `Json.C163_fractal_order`, `Json.C163_row`, `Json.C163_row_order`, `Json.C163_update`, `Json.C163_update_order`, `Json.C163_book`, `Json.C163_book_order`, `Json.C163_candle`, `Json.C163_candle_order`, `Json.C163_asset`, `Json.C163_asset_order`, `Json.C163_pair`, `Json.C163_pair_order`, `Json.C163_ticker`, `Json.C163_ticker_order`, `Json.C163_balanceSnapshot`, `Json.C163_balanceSnapshot_order`, `Json.C163_balance`, `Json.C163_balance_order`, `Json.C163_assetsSnapshot`, `Json.C163_assetsSnapshot_order`, `Json.C163_trade`, `Json.C163_trade_order`, `Json.C163_positionCloseOrder`, `Json.C163_positionCloseOrder_order`, `Json.C163_position`, `Json.C163_position_order`, `Json.C163_order`, `Json.C163_order_order`, `Json.C163_orderRequest`, `Json.C163_orderRequest_order`, `Json.C163_createOrderAction`, `Json.C163_createOrderAction_order`, `Json.C163_updateOrderAction`, `Json.C163_updateOrderAction_order`, `Json.C163_cancelOrderAction`, `Json.C163_cancelOrderAction_order`, `Json.C163_updatePositionAction`, `Json.C163_updatePositionAction_order`, `Json.C163_closePositionAction`, `Json.C163_closePositionAction_order`, `Json.C163_annotation`, `Json.C163_annotation_order`, `C164_trade`, `C164_order`, `C164_position`, `C164_annotation`, `C165_location`, `C165_unknown`, `C167_written`, `C167_text`, `C167_back`, `C167_same_iff`, `C167_unescaped`, `C167_times`, `C167_trade`, `C167_raw_date`, `C167_zero`, `Json.C168_actions`, `Json.C168_addAnnotationsAction`, `Json.C168_tick`, `Json.C168_actions_text`, `Json.C168_addAnnotationsAction_text`, `Json.C168_tick_text`, `Json.C169_string`, `Json.C169_number`, `Json.C169_zero`, `Json.C170_meaning`, `Json.C170_unique`, `Json.C170_reads`, `Json.C170_rejects`, `Json.C171_row`, `Json.C171_update`, `Json.C171_book`, `Json.C171_candle`, `Json.C171_asset`, `Json.C171_pair`, `Json.C171_ticker`, `Json.C171_balanceSnapshot`, `Json.C171_balance`, `Json.C171_assetsSnapshot`, `Json.C171_trade`, `Json.C171_positionCloseOrder`, `Json.C171_position`, `Json.C171_order`, `Json.C171_orderRequest`, `Json.C171_createOrderAction`, `Json.C171_updateOrderAction`, `Json.C171_cancelOrderAction`, `Json.C171_updatePositionAction`, `Json.C171_closePositionAction`, `Json.C171_annotation`, `Json.C171_actions`, `Json.C171_addAnnotationsAction`, `Json.C171_tick`, `Json.C171_float`, `Json.C171_decimal`, `Json.C171_range`, `Json.C171_int`, `Json.C171_reordered`, `Json.C171_fractal`, `Json.C172_survive`, `Json.C172_text`, `Json.C172_refused`, `Json.C172_error`, `C173_texts_unique`, `C173_text`, `C173_special`, `C173_monotone`, `C173_decimal`, `C173_reread`, `C173_row`, `C173_flat`, `C174_print`, `C174_string`, `C175_text`, `C175_instant`, `C175_order`, `C175_flat`, `C175_close`, `C175_candle`, `C176_ema_forgets`, `C176_smma_forgets`, `C176_ema_float`, `C176_smma_float`, `C177_moving_average`, `C177_ema`, `C177_smma`, `C177_volatility`, `C177_rsi`, `C177_fractals`, `C177_resample`, `C177_resample_volume`, `C178_update`, `C178_cannot_delete`, `C178_depth`, `C179_quantity_stays`, `C179_nan_quantity`, `C179_nan_price`, `C179_open_price_stays`, `Json.C180_book`, `Json.C180_position`, `C181_update`, `C181_history`, `C181_depth`, `C181_new`, `C181_overlap`, `Go.Sort.C182_elements`, `Go.Sort.C182_stable`, `Go.Sort.C182_unique`, `C182_book`, `C183_book`, `C183_unique`, `C183_more_rows`, `C184_any_reads`, `C184_read_error`, `Json.C185_book`, `Json.C185_assets`, `Json.C185_position`, `Json.C185_order`, `Json.C185_annotations`, `Json.C186_reads`, `Json.C186_unmarshal`, `Json.C186_text`, `Json.C186_string`, `Json.C186_survives`, `Json.C187_update`, `Json.C187_asset`, `Json.C187_pair`, `Json.C187_balance`, `Json.C187_assetsSnapshot`, `Json.C187_trade`, `Json.C187_positionCloseOrder`, `Json.C187_position`, `Json.C187_order`, `Json.C187_orderRequest`, `Json.C187_createOrderAction`, `Json.C187_updateOrderAction`, `Json.C187_cancelOrderAction`, `Json.C187_updatePositionAction`, `Json.C187_closePositionAction`, `Json.C187_annotation`, `Json.C187_times`, `Json.C188_actions`, `Json.C188_addAnnotationsAction`, `Json.C188_tick`, `Json.C189_order_of_keys`, `Json.C189_row`, `Json.C189_update`, `Json.C189_book`, `Json.C189_candle`, `Json.C189_asset`, `Json.C189_pair`, `Json.C189_ticker`, `Json.C189_balanceSnapshot`, `Json.C189_balance`, `Json.C189_assetsSnapshot`, `Json.C189_trade`, `Json.C189_positionCloseOrder`, `Json.C189_position`, `Json.C189_order`, `Json.C189_orderRequest`, `Json.C189_createOrderAction`, `Json.C189_updateOrderAction`, `Json.C189_cancelOrderAction`, `Json.C189_updatePositionAction`, `Json.C189_closePositionAction`, `Json.C189_annotation`, `Json.C189_fractal`, `Json.C189_actions`, `Json.C189_addAnnotationsAction`, `Json.C189_tick`, `Json.C189_fractals`, `C190_names_partial`, `C190_other_names_partial`, `C190_names_violated`, `C190_same_fractals_partial`, `C190_same_functions_partial`, `C191_newOrderRequest`, `C191_calculateFields`, `C191_assets`, `C191_books`, `C191_records`, `C191_modifyInterval`, `C191_system`, `C191_averages`, `C192_numbers_back`, `C192_same_refusal`, `C193_refused_word`, `C194_depth`, `C194_applyUpdate`, `C194_locationTime`, `C194_others`, `C194_same`, `C194_same_readers`, `C195_save`, `C196_rsi`, `C196_rsi_extremes`, `C196_movingAverage`, `C196_smoothed`, `C197_movingAverage`, `C197_exponential`, `C197_smoothed`, `C197_volatility`, `C197_fractals`, `C197_minInterval`, `C197_modifyInterval`, `C197_modifyInterval_one`, `C197_save`, `C198_rsi_violated`, `C198_rsi_partial`, `C199_moving_average`, `C199_ema`, `C199_smma`, `C199_period_one`, `C199_volatility`, `C200_underflow`, `C201_infinite_quantity`, `C201_add`, `C201_infinite_price`, `C202_any_changes`, `C202_one_moment`, `C202_during_save`, `C202_across_create`, `C203_same_candles`, `C203_same_candles_load`, `C203_last_alone`, `C204_updates`, `C204_apart`, `C204_no_race`, `C205_answers`, `C205_no_race`, `C205_sharing`, `C206_read`, `C206_accepted`, `C207_codes`, `C207_volume`, `C207_bounded`, `C208_minInterval`, `C209_sides_apart`, `C209_interleaving`, `C209_two_updates`, `C209_crossing_matters`, `C210_rows`, `C210_converge`, `C210_room_needed`, `C211_overlap_value`, `C211_special_values`, `C211_sold_unique`, `C212_steps`, `C212_exact`, `C212_float64`, `C213_averages`, `C213_rsi`, `C213_volatility`, `C213_fractals`, `C213_closes`, `C213_resampled`, `C214_position`, `C214_history`, `C214_unrealized`, `C214_request`, `C214_new_book`, `C214_overlap`, `C214_depth`, `C215_values`, `C215_pipeline`, `C215_float64`, `C216_self`, `C216_far_rows`, `C216_far_update`, `C217_averages`, `C217_volatility`, `C218_heal`, `C218_replay`, `C218_around`, `C219_resampled`, `C220_feeds`, `C220_one_price`, `C221_taken`, `C221_last_alone`, `C221_same_candles`, `C221_full_disk`, `C221_spoiled`, `C222_own_rows`, `C222_same_rows`, `C223_answers`, `C223_no_race`, `C223_apart`, `C224_marks`, `C224_writer`, `C224_reached`, `C225_lost`, `C226_traded`, `C226_missing`, `C227_price`, `C227_total`, `C228_receiver`, `C228_maps`, `C228_annotations`, `C229_update_alone`, `C229_depth_alone`, `C229_print_alone`, `C229_readers`, `C230_lost_ask`, `C230_lost_bid`, `C231_depth`, `C231_depth_bids`, `C231_print`, `C232_alone`, `C232_no_race`, `C232_finish`, `C233_lost`, `C233_map_race`, `C233_lost_annotations`, `C234_movingAverage`, `C234_exponential`, `C234_smoothed`, `C235_volatility`, `C235_save`, `C236_windows`, `C236_mixed`, `C237_rsi_violated`, `C237_rsi_partial`, `C238_modifyInterval`, `C238_covers`, `Shared.C239_sure`, `Shared.C239_possible`, `Shared.C239_steady`, `C240_modifyInterval`, `C240_covers`, `C241_volatility_violated`, `C241_negative`, `C241_volatility_partial`, `C242_memory`, `C242_one_candle`, `C242_result_violated`, `C242_result_partial`, `Shared.C243_modifyInterval_partial`, `Shared.C243_modifyInterval_violated`, `Shared.C243_above`, `Shared.C244_averages`, `Shared.C244_rsi`, `Shared.C244_volatility`, `Shared.C244_fractals`, `Shared.C244_minInterval`, `C245_mark`, `C246_first_gap_partial`, `C246_unchanged`, `C246_gap_violated`, `C247_join_partial`, `C247_within_hour`, `C247_cut_violated`, `C248_hours_partial`, `C248_divides_partial`, `C248_half_hours`, `C248_zone_violated`, `C249_moving_average_partial`, `C249_rsi`, `C249_fractals_partial`, `C249_fractals_violated`, `C249_volatility`, `C249_recursive_violated`, `C249_parts_violated`, `C250_join_partial`, `C250_first_fails`, `C250_long_line`, `C250_saved`, `C250_join_violated`, `C251_near_partial`, `C251_order_violated`, `C252_minInterval`, `C252_moving_average`, `C252_rsi`, `C252_fractals`, `C252_swapped_partial`, `C252_newest_first_violated`, `C253_profit`, `C253_profit_float`, `C254_before`, `C254_twice_partial`, `C254_minInterval`, `C254_first`, `C254_twice_violated`, `C255_kept_partial`, `C255_kept_many`, `C255_new`, `C255_twice_violated`, `C256_unchanged_iff`, `C256_refused`, `C256_closing_partial`, `C256_added`, `C256_reduced`, `C256_twice_violated`, `C258_new`, `C258_set_partial`, `C258_delete_partial`, `C258_gone`, `C258_twice_violated`, `C259_self`, `C259_ask`, `C259_bid`, `C259_delete`, `C259_ask_below_all`, `C259_bid_above_all`, `C260_averages`, `C260_volatility`, `C260_position`, `C260_unrealized`, `C261_units`, `C261_upside_down`, `C262_averages`, `C262_noise`, `C262_volatility`, `C263_ask_partial`, `C263_bid_partial`, `C263_room_partial`, `C263_taken_back_violated`, `C264_apart`, `C264_count`, `C265_logged`, `C265_exact_partial`, `C265_near_partial`, `C265_zero_violated`, `C266_trend_partial`, `C266_near_partial`, `C266_ma_partial`, `C266_trend_violated`, `C267_near_partial`, `C267_fills_violated`, `C268_booked`, `C268_history`, `C268_profit`, `C269_keeps`, `C269_average`, `C269_fractals`, `C270_ahead_partial`, `C270_near_partial`, `C270_ahead_violated`, `C271_lags_partial`, `C271_near_partial`, `C271_lags_violated`, `C272_grows`, `C272_grows_ieee`, `C272_wider`, `C273_memory_partial`, `C273_near_partial`, `C273_memory_violated`, `C274_coarse`, `C274_near`, `Json.C275_actions`, `Json.C275_tick`, `Json.C275_pointers`, `C276_between_violated`, `C276_between_partial`, `C276_adding_partial`, `C276_near_partial`, `C277_profit`, `C277_near`, `C278_spread_violated`, `C278_spread_partial`, `C278_near_partial`, `C279_mark`, `C279_near`, `C280_moves`, `C280_near`, `C281_one_price_violated`, `C281_loss_violated`, `C281_one_price_partial`, `C281_near_partial`, `C282_step`, `C282_near`, `C283_keys`, `C283_quotes`, `C283_reach`, `C284_middle_violated`, `C284_middle_partial`, `C284_near_partial`, `C285_direction_violated`, `C285_direction_partial`, `C285_near_partial`, `C286_divided`, `C286_near`, `C287_together`, `C287_worth`, `C287_near`, `C288_position`, `C288_ticker`, `C288_snapshot`, `C288_request`, `C288_fractal`, `C289_order`, `C289_trade`, `C290_balance`, `C290_close`, `C290_assets`.

**propext, Quot.sound** (23 theorems): `C01_stable_sort_unique`, `C59_constructors`, `C60_names_identify`, `C63_mapping_symbol_partial`, `C91_no_interference`, `C93_update_panics_violated`, `C95_local_time`, `C98_position_string_panics_violated`, `C98_balance_string_panics_violated`, `C98_prints_iff_partial`, `C98_new_position_prints_partial`, `C101_new_log`, `C127_print`, `C127_formats`, `C128_lines_partial`, `C128_annotations_partial`, `C128_one_line_violated`, `C174_lines`, `C203_bytes`, `C221_bytes`, `C226_known`, `C257_position`, `C257_balance`.
<!-- end axioms -->
