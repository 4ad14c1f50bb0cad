{
"C01": "Every lawful float semantics (exact and IEEE); side lengths below 2^53. Uniqueness of the stable sort is proved beside it.",
"C02": "Every float semantics, every book NewOrderBook returns.",
"C03": "Every lawful float semantics; NaN prices allowed; also shows that nothing panics.",
"C04": "From NewOrderBook with distinct non-NaN prices, any history.",
"C05": "Any strictly sorted book.",
"C06": "Strictly sorted book within its depth.",
"C07": "All books, all updates.",
"C08": "Any history, from any good book and from NewOrderBook.",
"C09": "False of the code: an ask at the price of the only (or last) bid leaves that bid, so the book is locked. Counterexample proved; partial theorem covers every update that is not at the opposite side's worst price. What happens in the other cases is C130.",
"C10": "False of the code: removeInvalid drops one extra row. Counterexample proved; partial theorem bounds the survivors and gives the cases where the claim holds. What happens in the other cases is C129.",
"C11": "All books within their depth, sorted or not.",
"C12": "Any history.",
"C13": "Any non-crossing history with room.",
"C14": "All updates on strictly sorted depth-bounded books.",
"C15": "Own side, both orders, with room.",
"C16": "False of the code: ApplyUpdate writes rows with AccumVolume 0 and never recomputes. Counterexample proved; partial theorem says what AccumVolume is after any history. What happens in the other cases is C141.",
"C17": "False of the code: GetDepth returns a price. Counterexample proved; partial theorem: the row it finds carries the documented volume.",
"C18": "All strictly sorted non-empty books.",
"C19": "False of the code: an empty side panics. Counterexample proved; partial theorem for non-empty sides or non-positive price. What happens in the other cases is C131.",
"C20": "Every float semantics for the decision; exact arithmetic for the finite value.",
"C21": "Every float semantics.",
"C22": "False of the code when a whole side is crossed. Counterexample proved; partial theorem (exact arithmetic, non-negative volumes) when both sides also have a row that is not crossed. What happens in the other cases is C135 (exact) and C211 (float64).",
"C23": "All books; fmt's rendering of a row is not modelled.",
"C24": "Every float semantics, every time zone; the fixed starting values -1e308/1e308 and the five-decimal printing are part of the statement.",
"C25": "Every float semantics, every time zone.",
"C26": "Exact arithmetic, finite volumes, prices inside the code's starting values.",
"C27": "Every float semantics.",
"C28": "Every lawful float semantics; times up to 2^53. Success is proved too (exact and IEEE).",
"C29": "False of the code: with a hole over the boundary a candle joins an older group. Counterexample proved; partial theorem for series in which no interval start is missing. What happens in the other cases is C146.",
"C30": "Rejections for every float semantics; that everything else is accepted for exact and IEEE arithmetic.",
"C31": "False of the code: an empty list panics, and interval 0 or two first candles less than a minute apart can. Counterexample proved; partial theorem for the rest. What happens in the other cases is C132.",
"C32": "Exact arithmetic, volumes on the grid.",
"C33": "Exact arithmetic, volumes on the grid, series starting at minute 0.",
"C34": "Every lawful float semantics.",
"C35": "False of the code on amd64: fewer than two candles give a negative number. Counterexample proved; partial theorem for two or more. What happens in the other cases is C133.",
"C36": "All candle lists with 32-bit times, byte level: fmt's %v, bufio.Scanner, strings.Split, ParseInt and ParseFloat are modelled. Any platform, any digit choice that reads back; the shortest digits of a double are proved to qualify.",
"C37": "False of the code: times are parsed as 32-bit, a candle of 2038 or later does not load. Partial: loads back iff every time fits in 32 bits, otherwise an error.",
"C38": "False of the code: a crash after one byte of a line makes the load panic, a crash inside the last volume loads a wrong volume silently. Partial: for every crash point a successful load is a prefix plus at most one candle whose volume alone may be wrong; cuts between lines are exact. What happens in the other cases is C137.",
"C39": "False of the code: an empty line or fewer than six words panics. Partial: the exact condition for a panic, and a sufficient condition for none.",
"C40": "Exact arithmetic; any history (also with ignored or rejected trades) that leaves the position open before the close.",
"C41": "Exact arithmetic, any history that leaves the position open.",
"C42": "Exact arithmetic, any long or short position with positive quantity.",
"C43": "Exact arithmetic.",
"C44": "Every float semantics, every position and trade.",
"C45": "False of the code: Modify drops the error of the oversized case and returns nil. Counterexample proved; partial theorem: the position is unchanged (every float semantics), and the inner helper does report it.",
"C46": "False of the code: Modify does not check Open, a closed position's price, quantity, profit and log still change. Counterexample proved from a reachable state; partial theorem: it stays closed and its identity fields are fixed. What happens in the other cases is C138.",
"C47": "Every float semantics.",
"C48": "Every float semantics; acceptance is spelled out in Spec.Accepts.",
"C49": "Every lawful rounding, overflow allowed.",
"C50": "Exact arithmetic.",
"C51": "Proved for every lawful float semantics (stronger than stated); exact corollary from the opening trade on.",
"C52": "Exact arithmetic.",
"C53": "Every argument, including NaN, infinities and -0.",
"C54": "Success condition in every float semantics; value in exact arithmetic.",
"C55": "False of the code: a priceless take-profit/stop-loss/close request for a total is completed to an infinite quantity. Counterexample proved; partial theorem for a non-zero effective price. What happens in the other cases is C134.",
"C56": "False of the code: close-position requests use their own price. Counterexample proved; partial theorem says what is used.",
"C57": "Rejection of completed requests in every float semantics; that a completed request has both fields non-zero in exact arithmetic (binary64 underflow can make one zero).",
"C58": "All orders and strings.",
"C59": "All strings.",
"C60": "All strings.",
"C61": "All pairs, all one-character separators.",
"C62": "False of the code: AB/C and A/BC coincide. Counterexample proved; partial theorem: it holds among the pairs of PairMappings and for bases of equal length. What happens in the other cases is C144.",
"C63": "False of the code: DYDXETH maps to OOKI/ETH. Counterexample proved; partial theorem for every other key.",
"C64": "All strings; the table facts are about every row of the literal.",
"C65": "Every float semantics (operation order included); mean in exact arithmetic.",
"C66": "Every float semantics, nil slice and every period; never panics.",
"C67": "Exact arithmetic.",
"C68": "Exact arithmetic.",
"C69": "Exact arithmetic.",
"C70": "Every float semantics (operation order included), and the closed recurrence in exact arithmetic.",
"C71": "False of the code: len-period values, and the close of candle number period is never read. Both refuted for exact and binary64; partial theorem: every other close changes the result. What happens in the other cases is C142.",
"C72": "Exact arithmetic.",
"C73": "Every float semantics.",
"C74": "Exact arithmetic.",
"C75": "Non-negativity for every lawful float semantics incl. binary64; the upper bound in exact arithmetic. That ranges must not overflow is shown necessary.",
"C76": "Every lawful float semantics incl. binary64/binary32; any closes (infinite and NaN included), any period, any backing array.",
"C77": "False of the code: candles[i:j+2] reaches one past the slice. Refuted for panics and for dependence on spare capacity; partial theorem gives exactly when it panics and that only the last value depends on the candle behind the slice.",
"C78": "Every float semantics; closed form in exact arithmetic. The last window includes the candle behind the slice (see C77).",
"C79": "False of the code: a flat window gives NaN. Partial: a window with some change gives a number unless both sums overflow. What happens in the other cases is C136.",
"C80": "Every lawful semantics with gradual underflow incl. binary64; overflow does not matter.",
"C81": "Exact arithmetic, whole result, every period.",
"C82": "False of the code: period > len is not reported. EINVALID iff fewer than 14 candles is proved.",
"C83": "No NaN and no tie with the two following candles; whole result and single position.",
"C84": "No NaN; exact characterisation with ties, both directions.",
"C85": "False of the code: a plateau at the end of the data is reported. Partial: two weaker candles, or unbeaten to the end of data; holds without ties. What happens in the other cases is C140.",
"C86": "False of the code: that plateau's fractal vanishes when a higher candle arrives. Partial: verdicts confirmed by two weaker candles never change; without ties the result only grows. What happens in the other cases is C140.",
"C87": "All lists, NaN and ties included.",
"C88": "All lists, NaN and ties included.",
"C89": "Every history, every ID generator (repeating ones too); receiver starts as the zero Actions.",
"C90": "Every history; the ID stream is assumed injective (xid's contract).",
"C91": "Every history, every ID generator.",
"C92": "Non-nil receivers; all dynamic argument types.",
"C93": "False of the code: a typed nil pointer is dereferenced. Partial: it is the only argument that panics.",
"C94": "All records.",
"C95": "All int64 times, arbitrary zone database.",
"C96": "All byte strings: accepted exactly when YYYY-MM-DD with a real date; result is midnight UTC; otherwise an error.",
"C97": "All pairs of accepted strings.",
"C98": "False of the code: printing a position with a short ID or no asset panics. Partial theorems give the exact conditions under which each String method returns.",
"C99": "False of the code: the caller's slices are sorted and totalled in place. Partial: exactly what they hold afterwards, exactly when they are unchanged, nothing else is written.",
"C100": "Any memory, capacities and growth policy, any history; NewOrderBook for every lawful float semantics.",
"C101": "False of the code (four trades under doubling growth). Partial: independent when spare room is not shared (any copy of a full array), first entries kept always, right while only one of the two is modified. What happens in the other cases is C147.",
"C102": "Nearest, ties to even, overflow threshold and error bound against an independent definition of the formats; float64 and float32.",
"C103": "False of the code: write errors are dropped. Partial: what the file holds in every case. What happens in the other cases is C143.",
"C104": "False of the code: a line of 64 KiB ends the load silently. Partial: with no such line, one candle per line. What happens in the other cases is C137.",
"C105": "All byte strings.",
"C106": "False of the code: rows are overwritten in place. Partial: books with separate arrays are independent under any interleaving. What happens in the other cases is C150.",
"C107": "IEEE binary64, window bound M <= 2^900.",
"C108": "IEEE binary64; the bound does not grow with the number of candles.",
"C109": "IEEE binary64; the bound does not grow with the number of candles.",
"C110": "IEEE binary64 and binary32, including overflow of the ratio; NaN exactly on flat windows.",
"C111": "IEEE binary64, including underflow; error constants explicit.",
"C112": "IEEE binary64; any closing trade, also one inside the 0.0001 tolerance.",
"C113": "False of the code in float64: buy 0.1, buy 0.2, sell 0.1, sell 0.2 leaves 2^-54 units open. Partial: always in exact arithmetic; in float64 when quantities are multiples of a power of two with sums up to 2^53 units; otherwise the size of the residue is bounded.",
"C114": "IEEE binary64. Volumes are non-negative; volumes with more decimals are not covered.",
"C115": "IEEE binary64.",
"C116": "Any float semantics, NaN prices excluded.",
"C117": "Any lawful float semantics; MaxDepth below 2^53.",
"C118": "False of the code: after a deletion the limited book has lost the next row. Partial: holds for non-crossing histories without deletions; with deletions, every row of the limited book is a row of the deeper one. What happens in the other cases is C152.",
"C119": "Order: any lawful float semantics; accuracy: IEEE binary64.",
"C120": "All floats including NaN.",
"C121": "Monotone and sign: any lawful float semantics (sign also needs gradual underflow); accuracy: IEEE binary64.",
"C122": "Accuracy: IEEE binary64; zero fee: any lawful float semantics.",
"C123": "IEEE binary64; covers the overflow that C55 reports.",
"C124": "MovingAverage and ExponentialMovingAverage: any lawful float semantics. SmoothedMovingAverage: exact arithmetic (any sign) and IEEE-754 binary64 (non-negative closes, raised values finite, period below 2^53).",
"C125": "False of the code in binary64 (0.1 three times). Partial: exact arithmetic always; binary64 when the close is m*2^e with |m|*n < 2^53. What happens in the other cases is C139 (periods 1 and 2).",
"C126": "Any well-formed book with two non-empty sides.",
"C127": "Rendering of numbers, times and %v of slices is a parameter.",
"C128": "Rendering of numbers and times is a parameter. False of the code: a line feed follows the embedded pair or asset. Partial: exact number of lines of every String method.",
"C140": "First part: any candles. The if-and-only-if needs strict time order, no NaN and a price that is not the unbeatable infinity.",
"C141": "Exact arithmetic, positive volumes; the exact condition for C16.",
"C142": "The exact condition for C71. The second part is exact arithmetic: rounding can hide a change.",
"C143": "The exact condition for C103, in the same model of failing writes.",
"C145": "Exact arithmetic. Rounded histories: C111.",
"C146": "The exact condition for C29.",
"C147": "One trade on each side after the copy, original first; the exact condition for C101 in that case.",
"C148": "GetDepth and CalculateOverlap are not covered: the first rejects prices <= 0, the second treats the two sides differently. The sort is the model of sort.SliceStable, which for NaN prices differs from the library.",
"C149": "Assumes both calls succeed. High and low in IEEE-754 binary64, the rest for any float semantics.",
"C150": "The exact condition for C106, for one update; strictly sorted books without NaN, sides in separate arrays, any growth policy.",
"C151": "Mirrored prices in exact arithmetic; the higher close for any lawful float semantics (IEEE-754 included).",
"C152": "One update of both books; the condition speaks of the deeper book before the update.",
"C153": "No assumption on the books; the relabelling is any function that keeps `<` and `=` of prices.",
"C154": "Exact arithmetic; fee and cost of the trades are free since Modify ignores them.",
"C155": "Wider candles for any lawful float semantics (IEEE-754 included); forgetting and scaling in exact arithmetic.",
"C156": "Any float semantics and any two minute-of-hour functions that agree on the old and the moved times.",
"C157": "Covers the multiply-add places of indicators/ma.go and ewv.go; the other indicators have none.",
"C158": "The multiply-adds of CalculateOverlap are in C159.",
"C159": "Error bound against overlapComputed of C135, not against the documented value of C22.",
"C160": "The empty fields are the Go zero values; the ID is the fresh xid, a parameter.",
"C161": "encoding/json is modelled in Go/Json.lean; the repository declares the tags and leaves the calls to its users. Times are a parameter with a read-back hypothesis.",
"C162": "Number texts are those of jsonFloat, which C161 shows read back.",
"C163": "JErr.stop added: an unreadable time ends the reading; C163_trade, C163_order and C163_position restated over the members read (ReadPart)",
"C164": "Records as in C161: floats finite, times writable.",
"C165": "The tick itself is a non-nil pointer.",
"C166": "The fresh xid is an argument of the model.",
"C167": "Times are compared as instants; the location of the time read is not modelled. The algorithms are those of package time, modelled in Model/TimeText.lean and Model/Date.lean.",
"C168": "Map keys are valid UTF-8 strings and distinct, as always in Go. The model does not tell nil slices from empty ones (isNil).",
"C169": "strings and float64 numbers; assumes the encoder picks the shortest digits as strconv documents (the model computes them)",
"C170": "texts are lists of characters (valid UTF-8); time fields stop reading at once on a bad text, the model goes on",
"C171": "types taken from the struct declarations by a script; no bound on the size or depth of the text",
"C172": "Over candles of any length; the written digits of floats are those of C161.",
"C173": "Numbers only; how a time is written stays a parameter. %f is %.6f.",
"C174": "For any choice of digits that reads back (GoodPick); the shortest digits that Go writes are one (shortest_good).",
"C175": "Offset and abbreviation of the zone at the instant are given; zone data is not modelled. Without whole minutes the text does not show the seconds of the offset (example beside the theorem).",
"C176": "Proved in exact arithmetic and, within the C108 bounds, for float64. The volatility part is C155.",
"C177": "For every float semantics.",
"C178": "For all books, also unsorted ones. NaN prices given to NewOrderBook are not covered (sort.SliceStable with an inconsistent order).",
"C179": "For every float semantics.",
"C180": "For every lawful float semantics with digits that read back (Good).",
"C181": "ApplyUpdate, GetDepth: no arithmetic, so for every platform; NewOrderBook for every float semantics and a g with g x + g y = g (x + y); overlap in exact arithmetic.",
"C182": "The algorithm of src/sort/zsortfunc.go is modelled step by step and is what the model of NewOrderBook and findFractals uses.",
"C183": "Follows the library algorithm; the bound 20 is its block size.",
"C184": "bufio.Scanner is modelled with its buffer, from knowledge of src/bufio/scan.go.",
"C185": "Lists read into old elements and into whatever the backing array holds behind them",
"C186": "Reading any bytes; strings with invalid UTF-8 written and read; single strings only on the writing side",
"C187": "Go strings of arbitrary bytes inside records; marshalB/emitB written from the library source; maps are in C188",
"C188": "as C187; EntriesRead relates each map to its reading entry by entry, MapReadsB says which entry stays",
"C189": "strings of the record written are given as bytes (Spec.*Bytes), the record with characters gives the text; no condition on the numbers",
"C190": "False of the code: RSI reports errors as movingAverage, LoadCandlesFromFile as loadCandlesFromFile, ModifyInterval passes on an error of candle.CompressCandle. Proved for the other 20 functions, and exactly what those three report.",
"C191": "Messages are compared as strings; zero means either signed zero.",
"C192": "The minute of a time is a parameter (time zone).",
"C193": "Readable: as 32-bit integer for the first word, as float64 for the other five (C36-C39 give the grammar).",
"C194": "One theorem per group of methods: what survives (C194_schema, C194_update, C194_depth, C194_applyUpdate, C194_locationTime), what panics (C194_strings, C194_others), and agreement with the other model files on non-nil pointers (C194_same, C194_same_readers).",
"C195": "SaveCandlesToFile and Print: the effect made before the pointer is first read.",
"C196": "Equality with the unbounded-integer model for every width of int; RSI for every period.",
"C197": "Rely-style: the memory may change arbitrarily between any two reads, except for the candles passed.",
"C198": "False of the code: C198_rsi_violated; C198_rsi_partial says what holds (the candle behind the slice must not be written either).",
"C199": "Finite closes only; what NaN closes do is C177. The exponential average for binary64, the rest for every lawful rounding.",
"C200": "Float64 only; NaN and infinite amounts are in C55 and C134.",
"C201": "Open price and quantity of the position are finite or +Inf; NaN amounts are in C179. Negative prices are not covered.",
"C202": "The reads of the operating system are atomic and return bytes of the current contents at the offset of the open file; with os.Create before the first read the hypothesis of C202_during_save holds.",
"C203": "Each Fprintln is one write, and all writes are taken to succeed.",
"C204": "Interleaving of single reads and writes of whole rows, sequentially consistent; since no races exist (C204_no_race) the Go memory model allows no other behaviour. Slice headers and MaxDepth of a book belong to its goroutine.",
"C205": "As C204. C205_sharing shows by a concrete schedule that the condition on shared books cannot be dropped.",
"C206": "Package time is modelled from knowledge of it. The statement is about the text inside the quotes, after JSON unescaping.",
"C207": "Error codes and special volumes of ModifyInterval for all inputs. The classification of C30 is sharpened to every input, without the bounds on times.",
"C208": "Composition of ModifyInterval and GetMinInterval on regular series.",
"C209": "Props/BookConverge.lean. NonCrossing looks at the book at the moment of each update; the updates of one side alone need not be non-crossing.",
"C210": "Props/BookConverge.lean. The latest update at a price is found by comparing prices as floats (0 and -0 are one price); the row shows the price as that update wrote it.",
"C211": "Props/OverlapExtremes.lean. C211_overlap_value holds for every arithmetic, C211_special_values for every lawful one; C211_sold_unique says that the proceeds are determined. NaN arises from +Inf - +Inf and is returned without an error.",
"C212": "Every step is the model of one call; the bound is about the three roundings of the quotient, the difference and the product.",
"C213": "Equality of results for any two series that agree on the fields read, in every arithmetic. RSI also takes the candles behind the slice, of which again only the closes count.",
"C214": "Equality of results for any two arguments that agree on the fields read, in every arithmetic. That ApplyUpdate does not read AccumVolume is C153.",
"C215": "The float64 statement prints with the shortest digits, as fmt does; the statement for other roundings assumes digits that read back.",
"C216": "The condition that a row lies beyond before and after is needed: the code leaves its index at 0 when no row lies beyond (C135), and an example shows the overlap changing when the last such ask is deleted.",
"C217": "Exact arithmetic; the float64 values are within the bounds of C107 to C109 of the exact ones. RSI is not linear.",
"C218": "Room is needed (C210), and so is not crossing (C209).",
"C219": "Prices are equal as numbers: a group with highs 0 and -0 may show either.",
"C220": "The calls do not overlap: the book has no lock of its own, and overlapping calls are what C205 warns of.",
"C221": "A refused os.Create is taken not to change the file.",
"C222": "The code writes only the field AccumVolume where the model writes the whole row as read; with rows of one's own this is the same.",
"C223": "A field of struct or string type is read and written whole; memory is sequentially consistent (without a race Go promises that); the trade given belongs to the goroutine.",
"C224": "There is a data race, and then Go itself does not promise sequentially consistent memory; the claim is about interleavings, as on machines where a word is read and written whole and in order.",
"C225": "See C224 for the data race.",
"C226": "The table of names is written twice, in the model and in the specification.",
"C227": "",
"C228": "AddAnnotations reads its arguments before it writes (as append does).",
"C229": "Unlike in C204 and C205 the slice headers are in memory too.",
"C230": "ApplyUpdate takes no lock; the caller has to.",
"C231": "The loops read the slice header anew in every round but its length only at the start.",
"C232": "xid.New is one step and safe for goroutines; its uniqueness is assumed (injective generator).",
"C233": "The Add methods take no lock; the caller has to.",
"C234": "Only the Close of the candle is used, one machine word.",
"C235": "A candle is read whole; in Go the copy is made word by word.",
"C236": "The caller has to lock the candles or pass a copy.",
"C237": "False of the code: a candle replaced while RSI reads it gives values of no moment. Each access candles[i] of the source is a read of its own; a compiler may merge them.",
"C238": "A read takes one whole candle; times and volumes of growing candles are not restricted.",
"C239": "A read takes one whole candle.",
"C240": "The fields themselves are read whole (64 bits).",
"C241": "False of the code: high and low are read in two steps. The range loop copies the candle, which is more than one machine word.",
"C242": "False of the code: the result for one candle is the caller's slice. Cells hold whole candles; candles contain no pointers.",
"C243": "False of the code: the last candle is read in several steps. With one candle ModifyInterval reads nothing (C242).",
"C244": "ModifyInterval reads every field (C243).",
"C245": "The exact counterparts are C42 and C145.",
"C246": "False of the code: with the second candle missing the interval is refused. Partial: it is accepted whenever the first two candles are that interval apart. For complete series see C32 and C208.",
"C247": "False of the code for intervals that do not divide the hour. Partial: parts whose starts are a multiple of the interval apart. See C149 for a series that grows.",
"C248": "False of the code: two hourly candles, UTC and UTC+5:30. Partial: zones whole hours apart; intervals dividing the hour, zones a multiple of them apart.",
"C249": "False of the code for the recursive averages and for fractals with ties. Partial: moving averages and RSI always, fractals without ties.",
"C250": "False of the code: a first file with its last line not ended. Partial: every file that is empty or ends with a line feed, no line above 65535 bytes.",
"C251": "False of the code in float64. Partial: bounds on the differences.",
"C252": "False of the code: ModifyInterval swaps opens and closes of a descending series without an error. C252_swapped_partial says what it gives.",
"C253": "Trades may have an ExecutionID set later.",
"C254": "False of the code: a repeated candle is counted twice in the volume, or gives an additional output candle. Proved: which of the two happens, and that nothing else changes (C254_twice_partial, C254_before); GetMinInterval is 0; panic when the first candle is repeated.",
"C255": "False of the code: with its third candle repeated, a series of six candles has an up fractal that it has not otherwise. Proved: no fractal is lost (C255_kept_partial, C255_kept_many) and where a new one can be (C255_new).",
"C256": "False of the code: Modify counts a repeated trade again, although it records the IDs. Proved: what exactly the repetition does in each case (C256_unchanged_iff, C256_refused, C256_closing_partial, C256_added, C256_reduced).",
"C257": "fmt's handling of panics is modelled from knowledge of fmt/print.go; the texts of the two run-time errors too.",
"C258": "False of the code: of two rows at one price an update sets one and the other keeps its old volume. Proved: what an update does to the first row, and that the others stay.",
"C259": "The panics with an empty side are those of C20's excluded case.",
"C260": "",
"C261": "",
"C262": "",
"C263": "False of the code: in a full book the worst row is lost. Partial: if the level does not cross the other side, the book is as before when the side had room or the level came last, and its side is cut to MaxDepth - 1 rows otherwise.",
"C264": "",
"C265": "False of the code in float64: 0.1 times 3, divided by 3, is not 0.1, so the open price moves. Partial: exact without rounding; in float64 only the open price and the log change, and the open price by at most 3*2^-53 of itself plus 2^-1075 (1 + 2/q).",
"C266": "False of the code in float64: with all closes 0.1 and period 3 ExponentialMovingAverage falls from 0.10000000000000002 to 0.1, with all closes 0.3 and period 7 SmoothedMovingAverage falls from 0.3 to 0.29999999999999993. Partial: without rounding all three follow the trend, strictly if the closes do, and stay behind it; in float64 MovingAverage does; the other two fall by no more than a rounding error that does not grow with the series.",
"C267": "False of the code in float64: a position of 1 unit that gets 2^-52 units more grows, but not when they come as two fills of 2^-53. Partial: quantities differ by at most 2*n*2^-53 of the quantity traded, where n counts the trades logged on both sides, cost bases by 32*n*2^-53 of the turnover (plus n*2^-800), marks by 38*n*2^-53 of turnover and price times quantity traded (plus n*2^-799).",
"C268": "In every float arithmetic, NaN and infinities included (C42 says it in exact arithmetic, for the exact quantity).",
"C269": "In every float arithmetic; the part on averages for non-negative closes and periods up to 2^53.",
"C270": "False of the code in float64: with all closes 0.1 each of the three averages with period 3 is 0.10000000000000002 and with period 1 it is 0.1. Partial: without rounding it holds for all three, rising and falling; in float64 the shorter average is behind by at most the two rounding errors.",
"C271": "False of the code: ExponentialMovingAverage leaves out a close, so of the closes 1, 1, 3, 3 at period 2 the smoothed averages at the last two candles are 2 and 2.5 and the exponential ones 1 and 2.33; in float64 with all closes 1.3 and period 7 MovingAverage is 1.3 and the second smoothed average is 1.3000000000000003. Partial: without rounding MovingAverage of the same or a shorter period is ahead at every candle, ExponentialMovingAverage one candle later; in float64 MovingAverage is behind by at most the two rounding errors.",
"C272": "",
"C273": "False of the code in float64: of 24 candles from 1 to 4 the volatility with beta 0.1 is 3, with beta 0.2 it is 3.0000000000000004. Partial: without rounding it holds for all betas, and the volatility does not exceed the range of the last candle; in float64 it fails by at most the two rounding errors, which do not grow with the series.",
"C274": "",
"C275": "",
"C276": "False of the code: partial closes move OpenPrice out of the range of the prices, also below zero. C276_between_violated; how far is bounded in C276_between_partial and C276_near_partial, and C276_adding_partial holds without partial closes.",
"C277": "",
"C278": "False of the code: asks without a buyer count with their full cost. C278_spread_violated; C278_spread_partial and C278_near_partial say when the bound holds and what holds always.",
"C279": "",
"C280": "Exact arithmetic and float64; the bound of the moving average is reached (example).",
"C281": "False of the code: in float64 a partial close at the price of the opening changes OpenPrice (C281_one_price_violated); exact arithmetic and the float64 error bound are proved.",
"C282": "Exact arithmetic and float64; the bound is reached by the first candle (example).",
"C283": "The table is finite and the evaluation covers all of it; the lookup is then treated for all strings.",
"C284": "False of the code: in float64 a small net rise after large swings gives exactly 50 (C284_middle_violated); exact arithmetic and the float64 bound are proved.",
"C285": "False of the code: in float64 a small rise is rounded away (C285_direction_violated); exact arithmetic and the float64 bound are proved.",
"C286": "Exact arithmetic, and float64 within the bounds of C112.",
"C287": "Exact arithmetic, and float64 within the bounds of C112 and C245.",
"C288": "A time read from the clock also shows a monotonic reading, which is not modelled.",
"C289": "A time read from the clock also shows a monotonic reading, which is not modelled.",
"C290": "An example shows two assets with a : that print alike."
}
