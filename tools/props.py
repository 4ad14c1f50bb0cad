#!/usr/bin/env python3
"""Source of /verif/properties.jsonl (one entry per property)."""
import json
P=[]
def p(title, statement, quantifier, why, *anchors):
    P.append(dict(id="C%02d"%(len(P)+1), title=title, statement=statement, quantifier=quantifier,
                  why_tests_cant=why, anchors=list(anchors)))
OB="market/orderbook.go:"
# ---------------- order book ----------------
p("NewOrderBook keeps exactly the best MaxDepth rows, in order",
  "NewOrderBook(asks, bids, d) with d >= 0 and no NaN price returns a book whose asks are the d cheapest input asks in ascending price order and whose bids are the d dearest input bids in descending price order; rows with equal prices keep their input order and price/volume pairs are never altered, invented or duplicated.",
  "every list of ask rows and of bid rows shorter than 2^53, every depth d >= 0, every lawful float semantics",
  "the claim is about all permutations and lengths of input rows; the only test prints the book without asserting anything",
  OB+"NewOrderBook", OB+"OrderBook.sort")
p("AccumVolume is the running volume after NewOrderBook",
  "In a book returned by NewOrderBook the AccumVolume of row i on either side is the sum (left to right, in the machine's float addition) of the volumes of rows 0..i of that side.",
  "all input rows and depths, all row indices, every float semantics",
  "a prefix-sum relation over lists of every length", OB+"OrderBook.sort")
p("A book never holds more than MaxDepth rows per side",
  "Starting from NewOrderBook with MaxDepth >= 0, after any sequence of ApplyUpdate calls (valid or not) each side holds at most MaxDepth rows, and no call panics.",
  "all initial rows on sides shorter than 2^53, all MaxDepth >= 0, all finite update histories",
  "quantifies over unbounded histories", OB+"NewOrderBook", OB+"OrderBook.ApplyUpdate", OB+"OrderBook.limit", OB+"OrderBook.removeInvalid")
p("Sides stay strictly sorted under any history",
  "If the initial asks have pairwise different non-NaN prices, likewise the bids, and no update carries a NaN price, then after any sequence of ApplyUpdate calls asks are strictly ascending and bids strictly descending (so best price first, one row per price).",
  "all initial books with distinct prices, sides shorter than 2^53 and MaxDepth >= 0, all update histories",
  "an invariant over unbounded histories", OB+"OrderBook.ApplyUpdate")
p("A non-zero update sets exactly one level on its own side",
  "For a strictly sorted book, ApplyUpdate with side s, price p and volume v != 0 makes side s equal to: the old rows strictly better than p, then a row (p, v), then the old rows strictly worse than p, cut to the first MaxDepth rows.",
  "all strictly sorted books within their MaxDepth >= 0, all prices but NaN, all non-zero volumes, both sides",
  "functional equality with an independent specification for books of any size", OB+"OrderBook.ApplyUpdate", OB+"OrderBook.limit")
p("A zero-volume update deletes exactly that level",
  "For a strictly sorted book within its depth bound, ApplyUpdate with volume 0 removes from side s the row at price p (nothing if absent), keeps every other row of that side unchanged and leaves the other side untouched.",
  "all strictly sorted books within their MaxDepth >= 0, all prices, both sides",
  "functional equality for books of any size", OB+"OrderBook.ApplyUpdate", OB+"removeElement")
p("Unknown side is rejected without effect",
  "ApplyUpdate with a side other than \"ask\" or \"bid\" returns an EINVALID error and leaves the book unchanged; with side \"ask\" or \"bid\" it never returns an error.",
  "all books, all updates, all side strings", "quantifies over every string", OB+"OrderBook.ApplyUpdate")
p("A book is never crossed",
  "If the initial book has no bid above an ask, then after any sequence of ApplyUpdate calls no bid price is above any ask price.",
  "all initial uncrossed books with distinct prices within their MaxDepth >= 0, all update histories, no NaN price",
  "safety invariant over unbounded histories", OB+"OrderBook.ApplyUpdate", OB+"OrderBook.removeInvalid")
p("A book is never locked",
  "If the initial book has every bid strictly below every ask, then after any sequence of ApplyUpdate calls every bid is still strictly below every ask.",
  "all initial books, all update histories",
  "safety invariant over unbounded histories; fails only when the crossing level is the last row", OB+"OrderBook.removeInvalid")
p("An update only removes opposite rows it crosses",
  "ApplyUpdate with a non-zero ask (bid) at price p removes from the other side exactly the bids priced at or above p (asks priced at or below p) and no others.",
  "all strictly sorted books, all prices",
  "needs every relative position of p among the opposite rows", OB+"OrderBook.removeInvalid")
p("Non-crossing updates leave the other side alone",
  "ApplyUpdate with an ask strictly above the best bid (a bid strictly below the best ask), or on an empty opposite side, or with volume 0, leaves the other side exactly as it was; and for any update the rows left on the other side are a tail (worst-priced part) of the rows that were there.",
  "all books within their MaxDepth >= 0, all updates", "all book sizes and prices", OB+"OrderBook.removeInvalid", OB+"OrderBook.ApplyUpdate")
p("Each row shows the latest write at its price",
  "After any update history every row of a side has the volume of the most recent update of that side at that row's price, or of the initial row if no such update happened; a level whose latest update had volume 0 is absent.",
  "all strictly sorted initial books within their MaxDepth >= 0, all update histories without NaN prices, all rows",
  "linearises unbounded histories", OB+"OrderBook.ApplyUpdate")
p("With ample depth and no crossing the book is exactly the map of latest volumes",
  "If MaxDepth is at least the number of initial rows plus the number of updates and no update crosses the opposite side, then after the history the side holds a row for price p with volume v if and only if the latest write at p was v != 0.",
  "all strictly sorted initial books, all non-crossing histories without NaN prices short enough for the depth",
  "refinement to an abstract map over unbounded histories", OB+"OrderBook.ApplyUpdate")
p("ApplyUpdate is idempotent",
  "Applying the same update twice in a row gives the same book as applying it once.",
  "all strictly sorted books within their MaxDepth >= 0, all updates but those at price NaN",
  "all books and updates, including ones that cross, evict or are evicted", OB+"OrderBook.ApplyUpdate")
p("Updates at different prices of one side commute",
  "Two updates of the same side at different prices give the same side in either order whenever MaxDepth leaves room for both.",
  "all strictly sorted books with room, all pairs of updates", "order-independence over all books", OB+"OrderBook.ApplyUpdate")
p("AccumVolume stays correct after updates",
  "After any update history AccumVolume of row i is the running volume of rows 0..i.",
  "all books, all histories", "invariant over histories", OB+"OrderBook.ApplyUpdate", OB+"OrderBook.sort")
p("GetDepth returns the accumulated volume at the price",
  "For a sorted book with correct AccumVolume, GetDepth(price) returns the accumulated volume up to that price as documented.",
  "all books, all prices", "no test calls GetDepth at all", OB+"OrderBook.GetDepth")
p("GetDepth locates the right level",
  "For a strictly sorted, uncrossed book with both sides non-empty: GetDepth(price) selects the dearest ask not above price when price is inside the ask range, otherwise the cheapest bid not below price when inside the bid range, otherwise returns ENOTFOUND; price <= 0 returns EINVALID before anything else.",
  "all sorted books, all prices", "search correctness over all lists", OB+"OrderBook.GetDepth")
p("GetDepth never panics",
  "GetDepth returns a value or an error for every book and price.",
  "all books, all prices", "totality", OB+"OrderBook.GetDepth")
p("CalculateOverlap decides overlap correctly",
  "For books with all four sides non-empty CalculateOverlap returns ENOTFOUND (with value -1) if and only if neither book's best ask is strictly below the other's best bid; otherwise it returns no error, never panics, and on finite prices and volumes the exact value is >= 0.",
  "all pairs of non-empty books", "decision logic for all pairs of books", OB+"CalculateOverlap", OB+"overlapCalculation")
p("CalculateOverlap is symmetric",
  "For books that are not themselves crossed CalculateOverlap(a, b) and CalculateOverlap(b, a) give the same result.",
  "all pairs of uncrossed non-empty books", "all pairs of books; the test tries two", OB+"CalculateOverlap")
p("CalculateOverlap values the crossed region",
  "When book A's best ask is below book B's best bid, the result is the absolute difference between the cost of every ask of A priced at or below B's best bid and the proceeds of selling that volume to the bids of B priced at or above A's best ask, filling the cheapest such bid first.",
  "all pairs of sorted overlapping books", "list sums of every length", OB+"overlapCalculation")
p("Print shows the ladder from dearest to cheapest",
  "Print writes one line per ask in reverse order, then the separator, then one line per bid; for a sorted uncrossed book the prices printed are non-increasing.",
  "all books", "ordering over lists of any length", OB+"OrderBook.Print")
# ---------------- candles ----------------
C="market/candle.go:"
p("ModifyInterval resamples contiguous groups with OHLCV semantics",
  "Whenever ModifyInterval succeeds on two or more candles, the output is obtained by cutting the input, minus a dropped prefix, into consecutive non-empty groups and mapping each to one candle: time and open of the first member, close of the last, highest high and lowest low (counted from -1e308 and 1e308, where the code starts), and the sum of volumes rounded to 5 decimals.",
  "all candle lists, all intervals, all timezones, every float semantics", "grouping of lists of every length",
  C+"ModifyInterval", C+"compressCandle")
p("ModifyInterval loses no candle after the first aligned one",
  "The dropped prefix is exactly the candles before the first candle whose local minute is 0 or a multiple of the interval's minute part; every later candle belongs to exactly one output candle.",
  "all candle lists and intervals for which the call succeeds", "partition claim over all lists", C+"ModifyInterval", C+"findFirstIndex")
p("ModifyInterval conserves volume and price extremes",
  "In exact arithmetic the sum of output volumes differs from the sum of the input volumes after the dropped prefix by at most 0.000005 per output candle; the largest output high and the smallest output low equal those of the same input candles.",
  "all candle lists with values between -1e308 and 1e308", "conservation over lists of any length", C+"compressCandle", C+"ModifyInterval")
p("ModifyInterval output candles are well formed",
  "If every input candle satisfies low <= open, close <= high and highs/lows lie within (-1e308, 1e308), so does every output candle.",
  "all well-formed candle lists", "invariant over arbitrary groupings", C+"compressCandle")
p("Regular series give equal groups of interval/delta candles",
  "On a series with one candle every d minutes, interval = m*d >= 1 and an aligned start within the series, ModifyInterval groups exactly m consecutive candles per output candle (the last group may be shorter), output times are exactly interval minutes apart, and the number of output candles is ceil(n/m).",
  "all regular series with times up to 2^53 in size, all d >= 1, m >= 1, all lengths", "counts for every length", C+"ModifyInterval")
p("No output candle spans more than the interval",
  "Every input candle merged into an output candle starting at time t has a time less than t + interval minutes.",
  "all time-ordered candle lists", "gaps in the data must be considered", C+"ModifyInterval")
p("ModifyInterval rejects impossible intervals",
  "For at least two candles a minute or more apart: asking for 1 minute when the first two candles are not one minute apart, or for an interval that is not a multiple of their spacing, returns ECONFLICT; having no aligned candle returns EINVALID; a single candle is returned unchanged.",
  "all candle lists with times below 2^62 in size, all intervals", "decision logic for all inputs", C+"ModifyInterval", C+"findFirstIndex")
p("ModifyInterval never panics",
  "ModifyInterval returns candles or an error for every list and interval.",
  "all candle lists and intervals", "totality", C+"ModifyInterval", C+"findFirstIndex", C+"compressCandle")
p("Resampling to the native interval is the identity",
  "On an aligned regular series with volumes on the 5-decimal grid, ModifyInterval with the series' own spacing returns the same candles.",
  "all regular series, exact arithmetic", "identity law for all lengths", C+"ModifyInterval")
p("Resampling composes",
  "For a regular minute series starting on the hour boundary of interest with volumes on the 5-decimal grid, resampling to a minutes and then to a*b minutes gives the same candles as resampling to a*b minutes directly.",
  "all regular aligned series, all a, b", "algebraic law for all lengths", C+"ModifyInterval")
p("GetMinInterval is the smallest spacing",
  "For two or more candles GetMinInterval returns the smallest absolute time difference between neighbours, in whole minutes.",
  "all candle lists of length >= 2 with neighbours less than 2^53 seconds apart", "minimum over lists of any length", C+"GetMinInterval")
p("GetMinInterval is meaningful for every list",
  "GetMinInterval returns a non-negative number for every candle list.",
  "all candle lists", "edge cases of every length", C+"GetMinInterval")
L="market/candle_load.go:"
p("Saved candles load back unchanged",
  "Loading a file written by SaveCandlesToFile returns the same candles, bit for bit except that any NaN is a NaN, when every time fits in 32 bits.",
  "all candle lists with 32-bit times", "encode/decode round-trip for every list", L+"SaveCandlesToFile", L+"LoadCandlesFromFile")
p("Round-trip works for every representable time",
  "Loading a saved file returns the same candles for every int64 time.",
  "all candle lists", "times beyond 2038 never appear in tests", L+"LoadCandlesFromFile")
p("A torn candle file is never silently misread",
  "If a save is interrupted and the file holds only a prefix of the bytes, loading it returns an error or a prefix of the saved candles.",
  "all candle lists, all crash points (byte prefixes)", "every crash point", L+"SaveCandlesToFile", L+"LoadCandlesFromFile")
p("Loading never panics",
  "LoadCandlesFromFile returns candles or an error for every file content.",
  "all byte strings", "totality over all files", L+"LoadCandlesFromFile")
# ---------------- positions ----------------
Q="market/position.go:"
p("Realised profit is the net cash flow",
  "In exact arithmetic, for a long position opened by NewPosition and taken through any sequence of buys and reducing sells with positive quantities, closing it by a sell of exactly the open quantity sets Profit to total sale proceeds minus total purchase cost; for a short position Profit is total sales minus total purchases as well.",
  "all finite prices, all positive finite quantities, all trade sequences", "conservation law over unbounded histories", Q+"NewPosition", Q+"Position.Modify", Q+"Position.add", Q+"Position.substract")
p("Cost basis bookkeeping",
  "In exact arithmetic OpenPrice times Quantity of an open position always equals the signed sum of price times quantity of the trades applied (additions minus reductions), and Quantity equals the signed sum of the quantities.",
  "all histories of trades with finite prices and positive finite quantities that keep the position open", "invariant over histories", Q+"Position.add", Q+"Position.substract")
p("Mark-to-market is unaffected by trading at the mark",
  "In exact arithmetic an accepted trade at price c that leaves the position open does not change UnrealizedProfit(c), and a trade at price c for exactly the whole quantity closes the position with Profit equal to the former UnrealizedProfit(c).",
  "all open positions, all finite prices, all positive finite quantities", "algebraic law over all values", Q+"Position.UnrealizedProfit", Q+"Position.Modify")
p("Adding averages the open price",
  "In exact arithmetic adding to a position with positive quantities gives an OpenPrice between the old OpenPrice and the trade price.",
  "all finite prices, all positive finite quantities", "inequality over all values", Q+"Position.add")
p("Wrong-pair trades are rejected without effect",
  "Modify with a trade whose pair differs in any field from the position's pair returns EINVALID and changes nothing; with the same pair it never returns an error.",
  "all positions, all trades", "all field combinations", Q+"Position.Modify")
p("An oversized reducing trade is reported",
  "If a reducing trade exceeds the position quantity by more than the tolerance, Modify leaves the position unchanged and returns an error.",
  "all positions and trades", "all values; the tests never check this path's error", Q+"Position.Modify", Q+"Position.substract")
p("Closed positions stay closed and unchanged",
  "Once a position is closed, further Modify calls do not change it.",
  "all histories after a close", "histories", Q+"Position.Modify")
p("A position never reopens",
  "No sequence of Modify calls turns Open from false to true, and Type, Pair, ID and OpenTime never change.",
  "all positions, all trade histories, every float semantics", "history invariant", Q+"Position.Modify")
p("Trades is an append-only log of applied trades",
  "After any history Trades is the opening trade's ID followed, in order, by the IDs of exactly those trades that were applied (same pair, buy/sell action, not rejected as oversized).",
  "all histories, every float semantics", "history invariant", Q+"Position.Modify", Q+"NewPosition")
p("Quantity stays positive",
  "If the opening and all later trades have positive finite quantities, the position quantity is positive and not NaN after every history, in real IEEE-754 arithmetic including overflow and rounding.",
  "all histories, every lawful rounding (binary64 included)", "floating point edge cases", Q+"Position.add", Q+"Position.substract")
p("Close decision and tolerance",
  "A reducing trade of quantity q on quantity Q closes the position iff -0.0001 <= Q - q <= 0, is ignored iff Q - q < -0.0001, and otherwise shrinks it to Q - q and keeps it open.",
  "all quantities, exact arithmetic", "boundary behaviour for all values", Q+"Position.substract")
p("Long and short mirror each other",
  "In exact arithmetic, running the mirrored trades (buy and sell swapped) on the mirrored position gives the mirrored position with the negated Profit.",
  "all positions, all trade histories", "symmetry over histories", Q+"Position.Modify", Q+"NewPosition")
# ---------------- trades, orders ----------------
p("Trade fee identity",
  "In exact arithmetic NewTrade gives a buy a fee with cost = price*quantity + fee and any other action a fee with cost = price*quantity - fee; all other fields are the arguments and ExecutionID is empty.",
  "all arguments", "identity over all values", "market/trade.go:NewTrade")
p("NewOrderRequest accepts exactly the valid requests",
  "NewOrderRequest succeeds iff the base symbol, action and type are non-empty, a limit order has non-zero price, and quantity and total are not both zero; then the request carries exactly the arguments with zero take profit and stop loss; otherwise it returns EINVALID.",
  "all arguments", "decision table over all strings and floats", "market/order_request.go:NewOrderRequest")
p("CalculateFields completes the missing field",
  "CalculateFields succeeds iff exactly one of total and quantity is non-zero; then total = quantity * price in exact arithmetic for a non-zero effective price (current price for market orders, own price otherwise), the given one of the two is unchanged, and all other fields are unchanged; the receiver is never modified.",
  "all requests, all prices", "algebra over all values", "market/order_request.go:OrderRequest.CalculateFields")
p("CalculateFields output is finite",
  "For a request accepted by NewOrderRequest and a positive current price CalculateFields never returns an infinite or NaN total or quantity.",
  "all accepted requests", "all order types", "market/order_request.go:NewOrderRequest", "market/order_request.go:OrderRequest.CalculateFields")
p("Close-position requests use the current price",
  "CalculateFields prices a ClosePosition order at the current price, as its documentation says.",
  "all close-position requests", "all values", "market/order_request.go:OrderRequest.CalculateFields", "market/order.go:ClosePosition")
p("CalculateFields cannot be applied twice",
  "Applying CalculateFields to a completed request (both fields non-zero) is rejected with EINVALID, so a request is never repriced silently.",
  "all requests and prices", "composition over all values", "market/order_request.go:OrderRequest.CalculateFields")
p("IsOpen is decided by the status alone",
  "An order is open iff its status is neither fulfilled nor canceled; unknown status strings count as open.",
  "all orders, all status strings", "all strings", "market/order.go:Order.IsOpen")
# ---------------- assets and pairs ----------------
p("Asset constructors echo the symbol",
  "NewAsset succeeds iff symbol and name are non-empty and returns exactly them; NewCryptoAsset, NewForexAsset and NewStockAsset either return an asset whose symbol is the argument and whose name is non-empty, or ENOTFOUND with the zero asset, and no symbol is known to two of the three.",
  "all strings", "all strings", "market/asset.go:NewAsset", "market/asset_helpers.go:NewCryptoAsset", "market/asset_helpers.go:NewForexAsset", "market/asset_helpers.go:NewStockAsset")
p("Asset names identify assets",
  "Different symbols known to the asset constructors have different names, so name and symbol determine each other.",
  "all pairs of strings", "all pairs", "market/asset_helpers.go:NewCryptoAsset")
p("Pair symbols are unambiguous with a separator",
  "If the separator is one character that occurs in neither base symbol, two pairs have the same Symbol(separator) iff their base and quote symbols agree.",
  "all pairs of pairs, all separators", "injectivity over all strings", "market/pair.go:Pair.Symbol")
p("Pair symbols are unambiguous without a separator",
  "Two pairs with different base and quote symbols have different Symbol(\"\").",
  "all pairs of pairs", "injectivity over all strings", "market/pair.go:Pair.Symbol")
p("PairMappings keys are the symbols of their pairs",
  "For every key k of PairMappings, PairMappings[k].Symbol(\"\") == k.",
  "all strings k", "1951-entry table no test looks at", "market/pair_mappings.go:PairMappings", "market/pair.go:Pair.Symbol")
p("PairMappings is one-to-one",
  "PairMappings has no duplicate key, no two keys map to the same base and quote, no pair has the same base and quote, and no symbol is empty.",
  "all strings", "table-wide uniqueness", "market/pair_mappings.go:PairMappings")
# ---------------- indicators ----------------
M="indicators/ma.go:"
p("MovingAverage averages every window",
  "For 1 <= period <= len, MovingAverage returns len-period+1 values and value k is the left-to-right float sum of closes k..k+period-1 divided by period; in exact arithmetic it is their mean.",
  "all candle lists, all periods, every float semantics", "windows over lists of any length", M+"MovingAverage", M+"average")
p("Moving averages reject bad periods",
  "MovingAverage, ExponentialMovingAverage and SmoothedMovingAverage return EINVALID iff the list is nil, period > len, or period <= 0, and never panic.",
  "all lists, all integer periods", "totality", M+"MovingAverage", M+"ExponentialMovingAverage", M+"SmoothedMovingAverage")
p("Averages stay within the price range",
  "In exact arithmetic every value of MovingAverage, ExponentialMovingAverage and SmoothedMovingAverage lies between the lowest and highest close of the input.",
  "all lists with finite closes, all periods from 1 to len", "convexity invariant", M+"MovingAverage", M+"ExponentialMovingAverage", M+"SmoothedMovingAverage")
p("Moving averages follow affine changes of the prices",
  "In exact arithmetic replacing every close c by a*c+b replaces every value v of each moving average by a*v+b.",
  "all lists with finite closes, all periods from 1 to len, all a, b", "algebraic law", M+"MovingAverage", M+"ExponentialMovingAverage", M+"SmoothedMovingAverage")
p("MovingAverage slides",
  "In exact arithmetic consecutive values differ by (close entering - close leaving)/period.",
  "all lists with finite closes, all periods from 1 to len, all positions", "relation for every position", M+"MovingAverage")
p("ExponentialMovingAverage follows its recurrence",
  "For 1 <= period <= len it returns len-period values; the first is the mean of the first period closes and each later one is close*2/(period+1) + previous*(1-2/(period+1)).",
  "all lists (finite closes for the exact form), all periods from 1 to len", "recurrence for every length", M+"ExponentialMovingAverage")
p("ExponentialMovingAverage uses every candle",
  "Every close from the first to the last candle influences the result, and there is a value for every full window (len-period+1 values).",
  "all lists", "needs all lists; off-by-one", M+"ExponentialMovingAverage")
p("SmoothedMovingAverage follows its recurrence",
  "For 1 <= period <= len it returns len-period+1 values; the first is the mean of the first period closes and each later one is (previous*(period-1)+close)/period in exact arithmetic.",
  "all lists with finite closes, all periods from 1 to len", "recurrence for every length", M+"SmoothedMovingAverage", M+"closingSum")
p("Averages only look back",
  "Appending candles never changes the values already produced by MovingAverage, ExponentialMovingAverage or SmoothedMovingAverage: the old output is a prefix of the new one, in every float semantics.",
  "all lists and extensions, all periods from 1 to len", "no-lookahead over all lists", M+"MovingAverage", M+"ExponentialMovingAverage", M+"SmoothedMovingAverage")
E_="indicators/ewv.go:"
p("Exponential weighted volatility is the weighted sum",
  "In exact arithmetic ExponentialWeightedVolatility equals the sum over candles i of (1-beta)*beta^(n-1-i)*(high_i-low_i).",
  "all lists with finite highs and lows, all finite beta", "closed form for every length", E_+"ExponentialWeightedVolatility")
p("Volatility is non-negative and bounded",
  "For 0 <= beta <= 1 and finite high >= low everywhere with no range overflowing, the result is >= 0 and not NaN in real IEEE arithmetic, and in exact arithmetic at most the largest range.",
  "all lists", "invariant incl. rounding", E_+"ExponentialWeightedVolatility")
R="indicators/rsi.go:"
p("RSI is between 0 and 100",
  "Every value returned by RSI on finite closes is NaN or between 0 and 100, in real IEEE-754 arithmetic with rounding to float32.",
  "all candle slices, all periods, every lawful rounding", "floating-point edge cases", R+"RSI", R+"calculateRSI")
p("RSI never panics and reads only its input",
  "RSI returns values or an error for every slice and period and the result depends only on the candles in the slice.",
  "all slices with any spare capacity, all periods", "depends on slice capacity", R+"RSI")
p("RSI values are Cutler's ratio over period changes",
  "When RSI returns, there are len-period+1 values and value k is computed from the candles k..k+period: 100 - 100/(1+U/D) with U the sum of rises and D the sum of falls.",
  "all slices of at least 14 candles with spare capacity, all periods up to len", "windows over all lengths", R+"RSI", R+"calculateRSI")
p("RSI is a number for every window",
  "RSI never contains NaN on finite closes.",
  "all slices", "flat windows", R+"calculateRSI")
p("RSI extremes",
  "A window with at least one rise and no fall gives exactly 100, with at least one fall and no rise exactly 0, in real IEEE arithmetic (no overflow).",
  "all windows", "all windows", R+"calculateRSI")
p("RSI ignores price scale and offset",
  "In exact arithmetic replacing every close c by a*c+b with a > 0 leaves RSI unchanged.",
  "all windows with finite closes, all a > 0, b", "algebraic law", R+"calculateRSI")
p("RSI requires enough candles",
  "RSI returns EINVALID iff there are fewer than 14 candles, and for a period larger than the number of candles returns an error.",
  "all slices, all periods", "decision logic", R+"RSI")
F="indicators/williams_fractals.go:"
p("Fractals are local extremes",
  "If no candle's high (low) ties with that of the candidate, WilliamFractals reports an up (down) fractal for candle m iff it has two candles before and after it and its high (low) is strictly above (below) those of the two candles on each side; price and time are that candle's.",
  "all candle lists without ties", "characterisation over all lists", F+"WilliamFractals", F+"findFractal")
p("Reported fractals are strict on the left and unbeaten on the right",
  "Every reported up fractal's candle has two earlier candles with strictly lower highs, and no candle before the second later strictly-lower candle has a higher high; mirrored for down fractals.",
  "all candle lists without NaN", "soundness over all lists", F+"findFractal")
p("Every fractal has two strictly lower candles after it",
  "Every reported up fractal has at least two later candles with strictly lower highs (strictly higher lows for down).",
  "all candle lists", "ties at the end of data", F+"findFractal")
p("Fractals do not repaint",
  "Fractals reported for a list are still reported after more candles are appended.",
  "all lists and extensions", "histories of growing data", F+"WilliamFractals")
p("Fractals come in time order",
  "If candle times are non-decreasing, the reported fractal times are non-decreasing, with the up fractal before the down fractal of the same candle, at most one of each per candle position.",
  "all time-ordered lists", "ordering over all lists", F+"WilliamFractals", F+"findFractals")
p("Up and down fractals mirror each other",
  "Negating all prices and swapping high and low turns up fractals into down fractals at negated prices.",
  "all lists", "symmetry over all lists", F+"findFractal")
# ---------------- strategy ----------------
A="strategy/actions.go:"
p("Added actions are stored under their own ID",
  "After any sequence of Add* calls every map entry's key is the ID of the stored action, and every stored action is one that was passed in with only its ID replaced.",
  "all histories of Add calls, every ID generator", "history invariant", A+"Actions.AddCreateOrders", A+"Actions.AddUpdateOrders", A+"Actions.AddCancelOrders", A+"Actions.AddUpdatePositions", A+"Actions.AddClosePositions")
p("No action is lost",
  "If generated IDs never repeat, the number of entries in each map equals the number of actions added to it, and each call keeps all earlier entries unchanged.",
  "all histories, every injective ID stream", "history invariant under a generator contract", A+"Actions.AddCreateOrders", "strategy/order_actions.go:CreateOrderAction.GenerateID")
p("Action kinds do not interfere",
  "Adding actions of one kind changes no other map and not the annotations; annotations keep insertion order.",
  "all histories", "history invariant", A+"Actions.AddAnnotations", A+"Actions.AddCreateOrders")
p("Record Update copies exactly its own type",
  "Update on Trade, Order, Position and Annotation succeeds iff the argument is a non-nil pointer of the same type and then makes the receiver equal to it; for any other non-nil-pointer value it returns EINVALID and leaves the receiver unchanged.",
  "all receivers, all dynamic argument types", "all interface values", "market/trade.go:Trade.Update", "market/order.go:Order.Update", "market/position.go:Position.Update", "strategy/annotation.go:Annotation.Update")
p("Record Update never panics",
  "Update returns nil or an error for every argument.",
  "all arguments", "typed nil pointers", "market/trade.go:Trade.Update", "market/order.go:Order.Update", "market/position.go:Position.Update", "strategy/annotation.go:Annotation.Update")
p("Record schemas and identity",
  "The four record kinds use pairwise different table names with primary key id, and after a successful Update GetID is the argument's ID.",
  "all records", "all values", "market/trade.go:Trade.GetSchema", "market/order.go:Order.GetSchema", "market/position.go:Position.GetSchema", "strategy/annotation.go:Annotation.GetSchema")
p("Tick times denote the candle's instant",
  "GetLocalTime and GetLocationTime return the instant of the candle whatever the zone; an unknown location returns an error.",
  "all ticks, all locations and zone tables", "all zones", "strategy/strategy.go:Tick.GetLocalTime", "strategy/strategy.go:Tick.GetLocationTime")
# ---------------- dates ----------------
D="utils/date.go:RawDateToRFC3339"
p("Dates parse to midnight UTC of that day",
  "RawDateToRFC3339 succeeds iff the string is YYYY-MM-DD with a real calendar date, and the result is 00:00:00 UTC of that date.",
  "all strings", "all strings incl. injection of extra text", D)
p("Date order is string order",
  "For accepted strings the resulting instants are ordered like the strings; different strings give different instants, and consecutive calendar days are 86400 seconds apart.",
  "all pairs of accepted strings", "all pairs of dates", D)
# ---------------- strings and aliasing ----------------
p("Printing never panics",
  "The String methods return for every value.",
  "all values", "totality", Q+"Position.String", "market/balances.go:Balance.String", "market/order.go:Order.String")
p("NewOrderBook does not touch the caller's rows",
  "After NewOrderBook the slices passed in still hold the same rows in the same order.",
  "all slices", "aliasing", OB+"NewOrderBook", OB+"OrderBook.sort")
p("Books with separate arrays behave as values",
  "As long as the ask and bid slices live in different backing arrays, the in-place slice operations of NewOrderBook and ApplyUpdate (append, copy, reslicing, whatever the spare capacity and growth policy) give the same rows as the list-level description, for any update history.",
  "all heaps, capacities, growth policies, histories", "aliasing and capacity over histories", OB+"NewOrderBook", OB+"OrderBook.ApplyUpdate", OB+"removeElement")
p("Copies of a position have independent trade logs",
  "After copying a position (by value or Update) and modifying both copies, each copy's Trades lists its own trades.",
  "all positions, capacities, histories", "slice aliasing", Q+"Position.Update", Q+"Position.add", Q+"Position.substract")
# ---------------- float semantics ----------------
p("IEEE-754 rounding meets the assumed laws",
  "Round-to-nearest-even to binary64 and binary32 is monotone, exact on representable numbers, sign preserving and never NaN, so every theorem stated for lawful float semantics holds for the machine's float64/float32.",
  "all rationals", "infinite domain", "indicators/rsi.go:calculateRSI", "market/position.go:Position.add")
# ---------------- candle files, continued ----------------
CL="market/candle_load.go:"
p("A save that reports success is on disk",
  "If SaveCandlesToFile returns nil, loading the file gives the saved candles.",
  "all candle lists with 32-bit times, all outcomes of the writes", "write failures at every point", CL+"SaveCandlesToFile")
p("A load that reports success read the whole file",
  "If LoadCandlesFromFile returns a nil error, the number of candles is the number of lines of the file.",
  "all byte strings", "all files, including ones with over-long lines", CL+"LoadCandlesFromFile")
p("A file loads as the candles its lines spell",
  "A file without lines over 65535 bytes loads exactly when each line, without its first and last byte and split at spaces, has a 32-bit decimal time and five floats as its first six words; the result is those candles, one per line, in order.",
  "all byte strings", "all files", CL+"LoadCandlesFromFile")
# ---------------- shared memory, continued ----------------
p("Copies of a book are independent",
  "A copy of an OrderBook value taken before some updates of the original still shows the old rows after them.",
  "all memories, books, growth policies, histories", "slice aliasing", OB+"OrderBook.ApplyUpdate", OB+"removeElement", OB+"OrderBook.removeInvalid")
# ---------------- accuracy in float64 ----------------
p("MovingAverage is accurate in float64",
  "Every value of MovingAverage differs from the true mean of its window of n closes by at most 2(n+1)*2^-53*M + 2^-1075, where M is the largest absolute close of that window.",
  "all float64 closes up to 2^900 in size, all periods up to 2^52, all slices", "rounding error over all inputs", "indicators/ma.go:MovingAverage", "indicators/ma.go:average")
p("Recursive averages do not accumulate rounding error",
  "Every value of ExponentialMovingAverage and SmoothedMovingAverage stays within a bound of the true value that depends on the period and the largest close but not on the number of candles.",
  "all float64 closes up to 2^900 in size, all periods up to 2^47, series of any length", "rounding error over unbounded series", "indicators/ma.go:ExponentialMovingAverage", "indicators/ma.go:SmoothedMovingAverage")
p("Volatility does not accumulate rounding error",
  "ExponentialWeightedVolatility differs from the true weighted sum by at most (16*2^-53*M + 4*2^-1075)/(1-beta), M the largest range, however many candles there are.",
  "all float64 highs and lows with ranges up to 2^900, 0 <= beta <= 1 - 32*2^-53, series of any length", "rounding error over unbounded series", "indicators/ewv.go:ExponentialWeightedVolatility")
p("RSI is accurate to 0.00001",
  "Every value of RSI is within 0.00001 of 100U/(U+D), U and D the true totals of the rises and falls of its window; it is NaN exactly on flat windows.",
  "all float64 closes up to 2^900 in size, all periods below 2^20", "rounding error, overflow of U/D and float32 conversion over all inputs", "indicators/rsi.go:RSI", "indicators/rsi.go:calculateRSI")
# ---------------- positions in float64 ----------------
P_="market/position.go:"
p("Quantity and cost basis are accurate in float64",
  "After any history of n applied trades that leaves the position open, Quantity differs from the signed sum of the applied quantities by at most 2n*2^-53 times the total quantity traded, and OpenPrice*Quantity differs from the net amount paid by at most 32n*2^-53 times the turnover (plus n*2^-800).",
  "all float64 trades with price up to 2^100 and quantity 2^-100..2^100, histories of any length up to 2^40 applied trades", "rounding error over all histories", P_+"Position.add", P_+"Position.substract")
p("Booked profit is accurate in float64",
  "When a trade closes the position, Profit differs from the true net cash flow of the applied trades by at most 32n*2^-53 times the turnover (plus n*2^-800), plus twice the closing price times the gap between the closing quantity and Quantity.",
  "all float64 trades with price up to 2^100 and quantity 2^-100..2^100, histories of any length up to 2^40 applied trades", "rounding error over all histories", P_+"Position.substract", P_+"Position.Modify")
p("Selling back what was bought closes the position",
  "A trade that brings the signed sum of the applied quantities to zero closes the position.",
  "all trade histories", "rounding residue depends on the history", P_+"Position.substract", P_+"Position.Modify")
# ---------------- resampling in float64 ----------------
p("Resampled volumes are correctly rounded",
  "If the input volumes are the float64 readings of decimals with five places, every volume ModifyInterval returns is the float64 nearest to the exact sum of the volumes of its group; the total over the output differs from the exact total of the retained candles by at most 2^-53 of it (plus 2^-1075 per candle).",
  "all lists of n candles with (n+1)*total <= 2^50 steps of 0.00001, all intervals", "rounding error over lists of any length", C+"compressCandle", C+"ModifyInterval")
p("Resampling in two steps equals one step in float64",
  "In float64, for regular series with five-decimal volumes: resampling to the series' own spacing returns it unchanged, and, when the series starts on the hour, resampling to a*d and then to b*a*d minutes returns exactly what resampling to b*a*d minutes returns.",
  "all regular series, all d, a, b >= 1, volumes bounded as above", "float addition is not associative; equality over all series", C+"compressCandle", C+"ModifyInterval")
# ---------------- books, continued ----------------
p("The order in which rows are passed does not matter",
  "NewOrderBook returns the same book for any reordering of the given asks and bids, as long as no price occurs twice on a side.",
  "all row lists with non-NaN distinct prices, all reorderings, all depths, any float semantics", "all permutations", OB+"NewOrderBook", OB+"OrderBook.sort")
p("Rebuilding a book repairs its cumulative volumes",
  "Passing the rows of an updated book to NewOrderBook succeeds, keeps every price and volume, and makes every AccumVolume the running sum; rebuilding a book whose AccumVolumes are right changes only its time.",
  "all well-formed books, all update histories", "unbounded histories", OB+"NewOrderBook", OB+"OrderBook.ApplyUpdate", OB+"OrderBook.sort")
p("A limited book shows the best rows of a deeper one",
  "If a book with a smaller MaxDepth holds the best rows of a deeper book, it still does after both receive the same updates.",
  "all books, all update histories", "unbounded histories of two books", OB+"OrderBook.ApplyUpdate")
p("Cumulative volumes are ordered and accurate",
  "In a book from NewOrderBook with non-negative volumes AccumVolume never decreases going away from the best price, and in float64 the n-th differs from the true running total by at most 2n*2^-53 of it.",
  "all row lists; accuracy: totals up to 2^900 and n up to 2^51", "rounding error over all inputs", OB+"NewOrderBook", OB+"OrderBook.sort")
# ---------------- order, marks, averages, depth ----------------
p("Fractals depend only on the order of highs and lows",
  "Two series whose highs compare alike and whose lows compare alike get fractals of the same types at the same candles; relabelling prices by an order-preserving map changes only the reported prices, by that map.",
  "all candle lists, including NaN and infinite prices, all order-preserving maps", "all pairs of series and all maps", "indicators/williams_fractals.go:WilliamFractals")
p("UnrealizedProfit follows the price",
  "UnrealizedProfit never decreases in the price for a long position and never increases for any other, in float64 as well; it is zero at OpenPrice, has the right sign elsewhere (strictly, if Quantity is at least 1), and is within 3*2^-53 of the true gain (plus 2^-1075).",
  "all positions with finite OpenPrice and positive finite Quantity, all finite prices; accuracy: amounts up to 2^900", "rounding over all pairs of prices", P_+"Position.UnrealizedProfit")
p("Trade fees are accurate in float64",
  "NewTrade's Fee differs from the true difference of cost and price*quantity by at most 2^-53 of it plus 2*2^-53 of price*quantity (plus 2^-1074), and is zero when cost is the rounded product.",
  "all finite prices, quantities and float64 costs, amounts up to 2^900", "cancellation error over all inputs", "market/trade.go:NewTrade")
p("CalculateFields fills in the nearest float64",
  "The Total or Quantity that CalculateFields fills in is the float64 nearest to the exact product or quotient; it is infinite exactly when that value is beyond the float64 range. The other fields are unchanged.",
  "all requests with exactly one of Quantity and Total given, all finite non-zero prices", "rounding over all inputs", "market/order_request.go:OrderRequest.CalculateFields")
p("Averages never fall when closes rise",
  "Raising non-negative closes never lowers a value of MovingAverage, ExponentialMovingAverage or SmoothedMovingAverage, in float64 as well (for the last two when the raised values stay finite); for SmoothedMovingAverage in exact arithmetic closes may have any sign.",
  "all pairs of series, all periods below 2^53", "rounding over all pairs of series", "indicators/ma.go:MovingAverage", "indicators/ma.go:ExponentialMovingAverage", "indicators/ma.go:SmoothedMovingAverage")
p("The average of equal closes is that close",
  "If all closes are the same float64, every value of MovingAverage is that close.",
  "all float64 closes, all periods", "rounding depends on the close and the period", "indicators/ma.go:MovingAverage", "indicators/ma.go:average")
p("GetDepth is monotone and exact at quoted prices",
  "On either side of the book a higher price never gives a lower level; at the price of an ask, or of a bid outside the range of the asks, GetDepth returns that price.",
  "all well-formed books with two non-empty sides, all positive prices", "all books and pairs of prices", OB+"OrderBook.GetDepth")
# ---------------- texts ----------------
ST=["market/asset.go:Asset.String","market/pair.go:Pair.String","market/candle.go:Candle.String","market/ticker.go:Ticker.String","market/trade.go:Trade.String","market/balances.go:BalanceSnapshot.String","market/balances.go:AssetsSnapshot.String","market/balances.go:Balance.String","market/order.go:Order.String","market/order_request.go:OrderRequest.String",P_+"PositionCloseOrder.String",P_+"Position.String","market/orderbook_types.go:OrderBookRow.String",OB+"OrderBook.String","strategy/annotation.go:Annotation.String","indicators/williams_fractals.go:WilliamFractal.String"]
p("String methods print their fields under the right labels",
  "Every String method that returns gives its documented format with the value of the named field after each label; slices are in brackets, their rows and balances in braces; OrderBook.Print writes a heading, the asks from last to first, a line, and the bids from first to last; the text of a pair whose base symbol has no '/' determines both symbols, that of an asset whose name has no ':' determines name and symbol.",
  "all values, any rendering of numbers and times", "all values", *ST)
p("A printed value is one line",
  "Orders, order requests, positions, balances and snapshots of assets print as text with a single line feed, at the end.",
  "all values whose own strings have no line feed", "all values", "market/order.go:Order.String","market/order_request.go:OrderRequest.String",P_+"Position.String","market/balances.go:Balance.String","market/balances.go:AssetsSnapshot.String","strategy/annotation.go:AddAnnotationsAction.String")
# ---------------- exact conditions ----------------
p("A crossing update leaves exactly these opposing rows",
  "A non-zero update sets its own level and leaves Time and MaxDepth alone; an opposing side wholly behind its price is kept, otherwise the rows strictly ahead of the price go and the next row with them unless it is the last. Exactly the reached rows go if and only if none is reached, all are strictly passed, a row other than the last is at the price, or none is at it and just one is behind it.",
  "all well-formed books within their limit, all updates with a numeric price and a non-zero volume", "all books and prices", OB+"OrderBook.ApplyUpdate", OB+"OrderBook.removeInvalid")
p("When an update locks the book",
  "An update turns a book with best bid below best ask into one where they meet if and only if its volume is not zero and its price equals that of the last row of the opposite side.",
  "all well-formed, unlocked books within their limit, all updates with a numeric price", "all books and updates", OB+"OrderBook.ApplyUpdate", OB+"OrderBook.removeInvalid")
p("When GetDepth panics",
  "GetDepth panics if and only if the price is not below or equal to zero and one of the sides is empty.",
  "all books, all prices including NaN", "all books and prices", OB+"OrderBook.GetDepth")
p("When ModifyInterval panics",
  "ModifyInterval panics if and only if there are no candles; or the first two are less than 60 s apart and the interval is not 1; or they are further apart, the interval is 0 and some aligned candle is not the last.",
  "all candle lists with times below 2^62 in magnitude, all intervals, all time zones", "all lists and intervals", "market/candle.go:ModifyInterval", "market/candle.go:findFirstIndex")
p("When GetMinInterval is negative",
  "On amd64 GetMinInterval is negative if and only if it gets fewer than two candles, and then always the same value whatever they hold.",
  "all candle lists with neighbours less than 2^53 s apart", "all lists", "market/candle.go:GetMinInterval")
p("When CalculateFields gives infinite fields",
  "A request with finite fields is completed to finite fields if and only if the quantity is given and quantity times price is within the float64 range, or the total is given, the price is not zero and total over price is within range.",
  "all requests with exactly one of Quantity and Total given, all finite prices", "all inputs", "market/order_request.go:OrderRequest.CalculateFields")
p("What CalculateOverlap computes in every case",
  "The result is |cost - proceeds| of the crossed rows, where the cost counts only if some ask is beyond the other book's best bid and the proceeds only if some bid is beyond the best ask; so two wholly crossed sides give 0.",
  "all pairs of well-formed overlapping books with finite rows and non-negative volumes, exact arithmetic", "all pairs of books", OB+"overlapCalculation", OB+"CalculateOverlap")
p("When an RSI value is NaN",
  "A value of a successful RSI is NaN if and only if no close in its window differs from its predecessor, or both the rises and the falls in the window add up to infinity.",
  "all series of float64 closes (infinite and NaN included), all periods", "all windows", "indicators/rsi.go:RSI", "indicators/rsi.go:calculateRSI")
p("What a candle file loads to",
  "LoadCandlesFromFile succeeds if and only if every line before the first one over 65535 bytes spells a candle, and gives exactly those candles; it has read all lines if and only if no line is that long; the only other outcomes are a panic and an external error with no candles.",
  "all file contents", "all files", "market/candle_load.go:LoadCandlesFromFile")
p("What Modify changes",
  "Modify changes a position, open or closed, if and only if it accepts the trade, and then logs it once. ID, Type, Pair, OpenTime, TakeProfit, StopLoss, ExecutionID and Data never change; ClosePrice, CloseTime, Profit and Open change only on a close, which keeps OpenPrice and Quantity and takes price and time from the trade.",
  "all positions and trades, any float arithmetic", "all states", P_+"Position.Modify", P_+"Position.add", P_+"Position.substract")
p("Flat averages of period 1 and 2 are exact",
  "If all closes are the same float64 x, every value of MovingAverage with period 1 is x, and with period 2 as well if |x| is below 2^1023.",
  "all float64 closes, all list lengths", "rounding for all floats", "indicators/ma.go:MovingAverage", "indicators/ma.go:average")
p("When a fractal is final",
  "Appending candles only takes reported fractals away, without reordering the rest, and adds fractals of the last two old candles or of new ones. A reported fractal stays reported after every extension if and only if two strictly weaker candles have already followed it.",
  "all candle lists and extensions; the if-and-only-if for strict time order, no NaN and a price that can be beaten", "all extensions of all lists", "indicators/williams_fractals.go:WilliamFractals")
p("When AccumVolume is right after updates",
  "After any history of updates the AccumVolume values of a side are the running sums of its volumes if and only if the side is a beginning (possibly all or nothing) of what it was at the start.",
  "all well-formed books with right AccumVolume, all update histories with positive or zero volumes, exact arithmetic", "all histories", OB+"OrderBook.ApplyUpdate", OB+"NewOrderBook")
p("Which close ExponentialMovingAverage ignores",
  "ExponentialMovingAverage reads only closes and never the one at index period; in exact arithmetic changing any other single close changes the values.",
  "all candle lists, all periods; the first part for any float arithmetic", "all series", "indicators/ma.go:ExponentialMovingAverage")
p("When a saved candle file is complete",
  "Once the file is created SaveCandlesToFile reports nil whatever happens; the file is the complete text if and only if every write was taken in full.",
  "all candle lists, all numbers of bytes taken by each write", "all failing writes", "market/candle_load.go:SaveCandlesToFile")
p("When symbols without separator collide",
  "Two pairs have the same symbol without separator if and only if one base symbol continues the other by some text and the quote symbol of the other starts with that text.",
  "all pairs", "all symbols", "market/pair.go:Pair.Symbol")
p("A position is its net amounts",
  "A history of trades of one pair that never brings the net quantity to zero or beyond is applied in full; quantity is the net units and open price the net money per unit. So the order of the trades and splitting one into two fills change neither.",
  "all histories of positive quantities at finite prices that never go flat, exact arithmetic", "all histories and reorderings", P_+"NewPosition", P_+"Position.Modify", P_+"Position.add", P_+"Position.substract")
p("When every candle lies within an output candle's interval",
  "Every candle from the first aligned one on lies within the interval starting at some output candle of ModifyInterval if and only if each candle that is in another interval than its predecessor lies in the first minute of its interval.",
  "all time-ordered series with times up to 2^53, all positive intervals, all time zones", "all gaps", "market/candle.go:ModifyInterval")
p("When a copied position's log goes wrong",
  "A position is copied, the original takes one accepted trade and then the copy another. The copy's Trades are right; the original's are right if and only if the array was full at the copy or both trades have the same ID, and otherwise end with the other trade's ID.",
  "all positions, capacities and accepted trades, any float arithmetic", "aliasing for all capacities", P_+"Position.Modify")
p("Asks and bids mirror each other",
  "Swapping the sides and negating all prices commutes with NewOrderBook, with every ApplyUpdate and with whole update histories: same outcome (ok, error or panic) and the mirrored book.",
  "all books, sorted or not, all floats including NaN and infinities, all depths, all updates and histories", "symmetry over all books and histories", OB+"NewOrderBook", OB+"OrderBook.ApplyUpdate", OB+"OrderBook.removeInvalid")
p("Resampling a growing series only touches the last candle",
  "If ModifyInterval succeeds on a series of at least two candles and on an extension of it, all output candles but the last stay; that one keeps its time and open, its high never falls and its low never rises. Whether the interval is refused with ECONFLICT does not depend on the appended candles.",
  "all series and extensions, all intervals, all time zones; high and low in float64", "all extensions of all series", "market/candle.go:ModifyInterval", "market/candle.go:compressCandle")
p("What a copied book shows after an update of the original",
  "A book is copied and the original takes one update. The copy still shows the old side if and only if the row written was already there, or the level is new and the side's array was full or the level is the worst; for a deletion if and only if there is no such level except possibly the last row.",
  "all strictly sorted books without NaN, all array capacities and growth policies, all updates", "aliasing for all capacities", OB+"OrderBook.ApplyUpdate")
p("RSI under upside-down prices, a higher close and more candles",
  "Replacing every close x by b - x turns each RSI value v into 100 - v and keeps errors and panics. Raising the close of one candle never lowers the value of the window ending with it, in float64 too, and leaves windows without it alone. Growing the slice over its array keeps the values it had.",
  "all series and periods; the first part in exact arithmetic, the second for finite closes and values that are numbers", "all series", R+"RSI", R+"calculateRSI")
p("When a limited book stops showing the best rows of a deeper one",
  "A book shows the best rows of a deeper one and both take one update. It still does if and only if: a non-zero update reaches no row of the opposite side, or is strictly past all of them, or that side had no more rows than the limit, or the limit is 0; a deletion deletes no row shown, or the side had no more rows than the limit.",
  "all strictly sorted books without NaN, all limits, all ask and bid updates", "all books and limits", OB+"OrderBook.ApplyUpdate", OB+"OrderBook.removeInvalid", OB+"OrderBook.limit")
p("Order books only compare prices and only test volumes for zero",
  "Replacing prices by others in the same order, volumes by others that are zero when the old ones are, and AccumVolume values by any others (0 stays 0) commutes with ApplyUpdate and whole update histories; NewOrderBook commutes with order-keeping changes of prices, GetDepth if the sign of prices is kept too.",
  "all books, sorted or not, all floats including NaN and infinities, all updates and histories", "all replacements of prices and volumes", OB+"NewOrderBook", OB+"OrderBook.ApplyUpdate", OB+"OrderBook.GetDepth")
p("Positions follow a change of price scale",
  "Replacing every trade price x by a*x + b does the same to OpenPrice and, once closed, ClosePrice, and multiplies Profit and UnrealizedProfit by a; every other field of the position is unchanged.",
  "all a and b, negative and zero included, all histories of positive quantities at finite prices, exact arithmetic", "all histories and scales", P_+"NewPosition", P_+"Position.Modify", P_+"Position.add", P_+"Position.substract", P_+"Position.UnrealizedProfit")
p("Volatility of longer series, wider candles and other price scales",
  "One more candle turns the volatility v into beta*v + (1-beta)*(high-low). What came before counts beta^k after k further candles. Highs and lows a*x + k give a times the volatility. If every candle covers the one at its place in another series, the volatility is not lower, in float64 too.",
  "all series; first part any float arithmetic, second and third exact arithmetic; last part 0 <= beta <= 1, finite prices, ranges that do not overflow", "all series and beta, rounding included", "indicators/ewv.go:ExponentialWeightedVolatility")
p("Resampling only compares highs and lows and only looks at time differences",
  "Moving all times by a constant (read in a zone where they show the same minutes), replacing highs by others in the same order, lows likewise, and opens and closes by anything commutes with ModifyInterval: same outcome (ok, error or panic), and the output candles are the old ones replaced likewise.",
  "all series, intervals, time zones and float arithmetics; all highs above -1e308 and lows below 1e308 before and after", "all replacements of all series", "market/candle.go:ModifyInterval", "market/candle.go:compressCandle", "market/candle.go:findFirstIndex")
p("Averages and volatility whatever the compiler fuses",
  "A Go compiler may round x*y + z once instead of twice, as on arm64. Whichever products are fused, at every step separately, ExponentialMovingAverage and SmoothedMovingAverage meet the error bounds of C108, ExponentialWeightedVolatility that of C109, and the volatility of candles with high >= low is never negative.",
  "all ways of fusing, all series of finite float64 prices up to 2^900, all periods up to 2^47, 0 <= beta <= 1 - 32*2^-53 (sign: beta <= 1)", "other processors, every choice of the compiler", M+"ExponentialMovingAverage", M+"SmoothedMovingAverage", "indicators/ewv.go:ExponentialWeightedVolatility")
p("Positions and fees whatever the compiler fuses",
  "Fusing multiplications into subtractions can change OpenPrice and Profit of a position but no other field. Quantity, OpenPrice * Quantity and Profit still meet the error bounds of C111 and C112 and the fee of NewTrade that of C122. A trade whose cost is the computed price times quantity, fee 0 without fusing, can have a fee other than 0.",
  "all ways of fusing, call by call; first part any float arithmetic and all histories, the rest float64 with prices up to 2^100 and quantities from 2^-100 to 2^100", "other processors, every choice of the compiler", P_+"Position.Modify", P_+"Position.substract", "market/trade.go:NewTrade")
p("How far the overlap is from its exact value",
  "In float64 the value of CalculateOverlap is finite and within 32 n (2^-53 times the best bid times the crossed volume, plus 2^-1075) of the exact value described in C135, n being the number of crossed rows, whichever multiplications the compiler fuses. What is fused does not decide whether an overlap is found, nor does the order of the arguments if neither book is crossed itself.",
  "all sorted books with finite prices and volumes not below 0, up to 2^40 crossed rows, volume and best bid times volume up to 2^900; all ways of fusing", "rounding can move the row where selling stops", OB+"CalculateOverlap", OB+"overlapCalculation")
p("What a position records",
  "NewPosition takes pair, price, quantity, time and trade ID from the trade, the type from its action (none for an action that is neither buy nor sell; no trade ever changes such a position) and leaves the rest empty. Until a trade closes it, a position is open with no ClosePrice, CloseTime and Profit; afterwards it shows price and time of the last trade that closed it, with Profit the price difference to OpenPrice times Quantity. OpenTime, TakeProfit and StopLoss stay.",
  "all trades and histories, any float arithmetic", "every history, closes after the close included", P_+"NewPosition", P_+"Position.Modify", P_+"Position.substract")
p("Records survive JSON",
  "json.Marshal of a record returns an error if and only if one of its floats is NaN or infinite or one of its times cannot be written. Otherwise, json.Unmarshal of the text into any variable of the type, whatever it holds, leaves exactly the record in it and returns no error. Holds for candles, books, rows, updates, assets, pairs, tickers, balances, trades, orders, order requests, positions, the five order and position actions and annotations.",
  "all records of these 22 structs with finite float64 values, 64-bit integers, valid UTF-8 strings and times whose text reads back; both ways Go versions escape backspace and form feed", "every float must read back from its digits and every string from its escapes", "market/candle.go:Candle", "market/orderbook.go:OrderBook", "market/orderbook_types.go:OrderBookRow", "market/order.go:Order", "market/position.go:Position", "market/trade.go:Trade", "market/ticker.go:Ticker", "market/balances.go:AssetsSnapshot", "strategy/order_actions.go:CreateOrderAction", "strategy/position_actions.go:UpdatePositionAction", "strategy/annotation.go:Annotation", "indicators/williams_fractals.go:WilliamFractal")
p("The JSON text of a record",
  "The text json.Marshal gives for a record is the object with the documented key for each field, in the order of declaration and without spaces; nested records, pointers (null when nil), slices (null when nil) and times are written by the same rules, and a value that cannot be written makes the whole record an error.",
  "all values of the 22 structs", "a wrong, missing or doubled tag shows in one key of one struct", "market/candle.go:Candle", "market/orderbook.go:OrderBook", "market/orderbook_types.go:OrderBookRow", "market/order.go:Order", "market/position.go:Position", "market/trade.go:Trade", "market/ticker.go:Ticker", "market/balances.go:AssetsSnapshot", "strategy/order_actions.go:CreateOrderAction", "strategy/position_actions.go:UpdatePositionAction", "strategy/annotation.go:Annotation", "indicators/williams_fractals.go:WilliamFractal")
p("JSON objects are read by field name",
  "After json.Unmarshal of an object, each field holds what the members with its key, compared without regard to case, leave in it one after the other; without such a member it keeps its value. A member that should be a time and is not one ends the reading: it returns an error and the members behind it are not read; other members of the wrong type do not end it. Unless the reading ends early, reordering members with different keys or removing members with unknown keys changes neither the record nor whether an error is returned.",
  "all texts that are JSON objects, all variables of the 22 structs and of Actions, AddAnnotationsAction and Tick read into", "all orders and all other members", "market/candle.go:Candle", "market/orderbook.go:OrderBook", "market/orderbook_types.go:OrderBookRow", "market/order.go:Order", "market/position.go:Position", "market/trade.go:Trade", "market/ticker.go:Ticker", "market/balances.go:AssetsSnapshot", "strategy/order_actions.go:CreateOrderAction", "strategy/position_actions.go:UpdatePositionAction", "strategy/annotation.go:Annotation", "indicators/williams_fractals.go:WilliamFractal")
p("Records are stored under the key their schema names",
  "The JSON text of a trade, order, position or annotation is an object with exactly one member named like the primary key GetSchema gives, and its value is the string GetID gives.",
  "all trades, orders, positions and annotations that can be written as JSON (C161)", "three declarations in different places have to agree for all IDs", "market/trade.go:Trade.GetSchema", "market/trade.go:Trade.GetID", "market/order.go:Order.GetSchema", "market/order.go:Order.GetID", "market/position.go:Position.GetSchema", "market/position.go:Position.GetID", "strategy/annotation.go:Annotation.GetSchema", "strategy/annotation.go:Annotation.GetID")
p("Ticks without a candle",
  "GetLocalTime panics if and only if the tick has no candle. GetLocationTime panics if and only if the tick has no candle and the location is known; an unknown location gives the error, candle or not.",
  "all ticks, location names and time zone databases", "every name and database", "strategy/strategy.go:Tick.GetLocalTime", "strategy/strategy.go:Tick.GetLocationTime")
p("What a new annotation records",
  "NewAnnotation stores time, price, label and tooltip as given under a fresh ID, which GetID returns, and leaves CreationTime 0 and ExecutionID empty.",
  "all arguments and IDs", "label and tooltip have the same type", "strategy/annotation.go:NewAnnotation", "strategy/annotation.go:Annotation.GetID")
p("Times in JSON",
  "A time.Time of a trade, order or position is written if and only if its year on the clock of its zone is between 0 and 9999. The text has date, time, fraction without trailing zeros, and zone in hours and minutes. Reading it gives the instant plus the seconds of the zone offset beyond whole minutes, so the same instant if and only if the offset is whole minutes. The zero time survives; a date read by RawDateToRFC3339 is written as that date followed by T00:00:00Z.",
  "all times and all zone offsets below 24 hours", "every instant in every zone, all dates of 10000 years", "market/trade.go:Trade", "market/order.go:Order", "market/position.go:Position", "utils/date.go:RawDateToRFC3339")
p("Actions and ticks in JSON",
  "json.Marshal of Actions, AddAnnotationsAction and Tick fails if and only if one of their numbers is NaN or infinite or one of their times cannot be written. Otherwise the text has the Go names of the fields in order, a nil map as null, the entries of a map in ascending order of their keys. json.Unmarshal of the text into any variable gives no error; nil maps become nil, other maps get the written entries and keep the entries they had under other keys, annotations, candle and capital are replaced. So an Actions variable that is used again is merged with what is read, not replaced.",
  "all records with maps of any size and any keys, all earlier contents of the variable", "which entries survive depends on the earlier contents of the variable and on the order of Go's map iteration", "strategy/actions.go:Actions", "strategy/annotation.go:AddAnnotationsAction", "strategy/strategy.go:Tick")
p("Strings and numbers in JSON",
  "json.Marshal writes a string as its characters between quotes: quote and backslash after a backslash, newline, return and tab as \\n, \\r, \\t, other control characters as \\u00xx in lower case hexadecimal (backspace and form feed as \\b and \\f from Go 1.22 on), the characters < > & and U+2028, U+2029 as \\uxxxx, every other character as it is. A float64 is written with the fewest digits that read back as the same float64, and among these with the closest ones, with no superfluous zeros: without exponent from the float 1e-6 up to below 1e21, else with one digit before the point and an exponent without leading zeros. Zeros are 0 and -0; NaN and infinities are errors.",
  "all strings, all float64 values", "which digits are shortest and where the notation changes is decided number by number; a test sees a few numbers", "market/candle.go:Candle", "market/order.go:Order", "strategy/annotation.go:Annotation")
p("Which texts are JSON, and what they mean",
  "json.Unmarshal accepts exactly the texts of the JSON grammar with at most 10000 nested arrays and objects: one value with white space around it; numbers without leading zeros, with digits on both sides of the point and in the exponent; strings without raw control characters and with the eight short escapes and \\uxxxx in either case; no trailing comma. A text has one meaning: members and elements in order, duplicates kept, surrogate pairs in \\u escapes joined, half pairs become U+FFFD. A text outside the grammar is an error and leaves the variable as it was; a text of the grammar is read by its meaning alone, whatever its spacing, and whatever its escapes except in a time, which must be written without any.",
  "all texts, all record types, all earlier contents of the variable", "the texts that must be rejected are infinitely many and differ from accepted ones by one character", "market/candle.go:Candle", "market/trade.go:Trade", "strategy/actions.go:Actions")
p("When reading JSON is an error, and which number is read",
  "json.Unmarshal into a record returns no error if and only if the text is JSON and its value fits the type. Null fits every type; a float64 takes a number whose nearest float64 is finite, that is, below 2^1024 - 2^970 in size; an integer takes a number without fraction and exponent that is within 64 bits; a time takes a string without escapes that reads as a time; a slice takes an array and a map an object all of whose values fit; a struct takes an object whose members named like a field up to case all fit, repeated ones too. So the order of the members does not decide whether there is an error. A number becomes the float64 nearest to the decimal it shows, with its sign, minus zero included; of an exponent only the first five digits after leading zeros count.",
  "all texts, all 22 structs and Actions, AddAnnotationsAction and Tick, all earlier contents of the variable", "errors come from any member at any depth, and numbers differ from accepted ones by one unit in the last place", "market/candle.go:Candle", "market/orderbook.go:OrderBook", "market/order.go:Order", "market/position.go:Position", "market/trade.go:Trade", "strategy/actions.go:Actions", "strategy/strategy.go:Tick", "indicators/williams_fractals.go:WilliamFractal")
p("The fractals found, written as JSON",
  "The fractals WilliamFractals finds in candles with 64-bit times and finite highs and lows are written by json.Marshal and read back by json.Unmarshal as the same fractals in the same order. The text is null if there is no fractal, and otherwise an array with one object for each fractal with the members Time, Price and Type, where Type is up or down. Marshal fails if and only if a reported price is infinite or NaN. Reading an array of fractals fails if and only if the text is not JSON or an element is neither null nor an object whose members fit.",
  "all candle lists; all texts read", "depends on which candles are reported and on every price having digits that read back", "indicators/williams_fractals.go:WilliamFractals", "indicators/williams_fractals.go:WilliamFractal")
p("Printed numbers are right to the last digit",
  "Where a String method prints a number with k decimals, a finite number is shown as the decimal with k places nearest to it, of two nearest the one with an even last digit, with a minus sign if it is negative, and without superfluous zeros before the point. There is one such text for each decimal. A larger number is never shown as a smaller one. A float64 that stands for a decimal of k places with fewer than 2^52 units is shown as that decimal. NaN, +Inf and -Inf are shown as such, minus zero as -0 with k zeros. Reading the text with five decimals back gives the volume that resampling stores. No number is printed with a line feed.",
  "all float64 values, all numbers of decimals from 1 (the fifth sentence: to 20)", "ties and carries occur at single numbers", "market/orderbook_types.go:OrderBookRow.String", "market/candle.go:Candle.String", "market/candle.go:ModifyInterval", "market/ticker.go:Ticker.String", "market/trade.go:Trade.String", "market/order.go:Order.String", "market/position.go:Position.String")
p("A printed order book identifies its rows",
  "Two books for which OrderBook.Print writes the same text have the same asks and the same bids, and two with the same OrderBook.String also the same time. Print writes two lines more than the book has rows.",
  "all books of float64 values", "all pairs of books", "market/orderbook.go:OrderBook.Print", "market/orderbook.go:OrderBook.String")
p("Printed times show the instant",
  "Where a String method prints a time whose year in its zone has four digits, the text shows the real date and the time of day of the clock there, the fraction of the second without trailing zeros, the offset in hours and minutes, and the abbreviation of the zone or, if it has none, the offset again. Two times with the same text are the same instant if the offsets are whole minutes. A text with an earlier second on the clock sorts first, byte by byte. Times are printed without line feeds. Two candles with the same String have the same time, and prices and volumes that differ by at most 0.0001.",
  "all times with years 0 to 9999, all zones with offsets below a day and without line feed in the abbreviation (for candles: without | in it), all candles",
  "all instants and zones; leap days, the last nanosecond of a year",
  "market/candle.go:Candle.String", "market/trade.go:Trade.String", "market/order.go:Order.String", "market/position.go:Position.String")
p("Recursive averages forget old prices",
  "Two series with the same closes from some candle on: in exact arithmetic their exponential averages differ, i values later, by (1-2/(period+1))^i times the difference at that candle, and their smoothed averages by (1-1/period)^i times it. In float64 the same averages of closes between lo and hi are within that factor times hi-lo of each other, plus twice the rounding bound of C108.",
  "all series of finite closes, all periods (float64: periods to 2^47, closes to 2^900)", "two arbitrary histories of any length", "indicators/ma.go:ExponentialMovingAverage", "indicators/ma.go:SmoothedMovingAverage")
p("How far one NaN spreads in the indicators",
  "A moving average is NaN if its window holds a NaN close, and depends on no close outside its window. Exponential and smoothed averages are NaN from the first value that uses a NaN close on; the exponential average does not use the close at index period. The volatility is NaN if any high, low or beta is. A NaN close only hides from RSI the change to it and the change from it. A candle with a NaN high (low) and two candles on either side is always reported as an up (down) fractal of price NaN. ModifyInterval treats a NaN high as minus infinity and a NaN low as plus infinity; a NaN volume makes the volume of its group NaN.",
  "all series, all periods, intervals and zones, every rounding", "NaN is rare in test data; it can come in through a candle file", "indicators/ma.go:MovingAverage", "indicators/ma.go:ExponentialMovingAverage", "indicators/ma.go:SmoothedMovingAverage", "indicators/ewv.go:ExponentialWeightedVolatility", "indicators/rsi.go:RSI", "indicators/williams_fractals.go:WilliamFractals", "market/candle.go:ModifyInterval")
p("What a NaN price does to an order book",
  "ApplyUpdate with price NaN and a volume other than zero appends a row at the far end of its side, then cut off if the side is full, and removes the best row of the other side if that side has at least two. With volume zero it changes nothing. No update with volume zero removes a row with price NaN. GetDepth(NaN) reports ENOTFOUND.",
  "all books with MaxDepth >= 0, sorted or not (a NaN row staying: sides no longer than MaxDepth; GetDepth: rows on both sides), all updates", "any book, any rows", "market/orderbook.go:ApplyUpdate", "market/orderbook.go:GetDepth")
p("What a NaN trade does to a position",
  "One trade of the same pair with quantity NaN, buying or selling, makes quantity and open price NaN and is logged; from then on the quantity stays NaN and the position is never closed and books no profit, whatever is traded. A trade at price NaN makes the open price NaN when it adds or reduces in part, and the profit NaN when it closes. A NaN open price is never repaired: every unrealized profit is NaN, and the profit too if the position is closed.",
  "all positions, trades and histories, every rounding", "all histories after the bad trade", "market/position.go:Modify", "market/position.go:UnrealizedProfit")
p("Books and positions can be stored and taken up again",
  "A book of finite numbers to which any updates of finite numbers have been applied can be written as JSON at any moment, and the book read back, into any variable, gives under any further updates the same results as the original. A position opened and modified by trades of finite numbers can be written as JSON if and only if OpenPrice, ClosePrice, Quantity and Profit are finite; read back it is under any further trades what the original would be.",
  "all books, all positions made by NewPosition, all histories of updates and trades before and after storing; finite float64 values, 64-bit integers, times that JSON can carry (C167)", "every moment of every history", "market/orderbook.go:ApplyUpdate", "market/orderbook.go:OrderBook", "market/position.go:NewPosition", "market/position.go:Modify", "market/position.go:Position")
p("Order books in other units",
  "Let prices and volumes be changed so that the prices that occur keep their order and equalities and the volumes of the updates are zero as before. Then ApplyUpdate, and any history of updates, gives the same result in the new units, errors and panics included; so does GetDepth if price 0 stays 0; and NewOrderBook, if the change of the volumes respects their sums. With prices c times and volumes d times as large, c and d positive, CalculateOverlap is in exact arithmetic c*d times as large, with the same errors and panics; the -1 returned with the error stays.",
  "all books and updates, NaN and infinities included, all changes of units as described", "a change of units concerns every number in the book; a test has fixed numbers", "market/orderbook.go:ApplyUpdate", "market/orderbook.go:GetDepth", "market/orderbook.go:NewOrderBook", "market/orderbook.go:CalculateOverlap")
p("Sorting is stable, never panics and loses nothing",
  "sort.SliceStable, as the Go library does it, reads and swaps no index outside of the slice, ends, and returns the same elements, whatever the comparison function. If the function compares keys in a linear order, the result is sorted by key with elements of equal keys in the order they had, and it is the only such list. NewOrderBook with any prices, NaN too, keeps the caller's rows in some order, cut to MaxDepth; without NaN prices each side is sorted by price, rows of equal prices in the order given.",
  "all slices of any length, all comparison functions; all rows, MaxDepth >= 0, sides below 2^53 rows", "the algorithm changes at 20, 40, 80, ... elements and rotates stretches of all lengths", "market/orderbook.go:NewOrderBook", "market/orderbook.go:sort", "indicators/williams_fractals.go:findFractals")
p("What NewOrderBook does with NaN prices",
  "With at most 20 rows a side, rows with a NaN price keep their places and the stretches between them are sorted, each on its own; this determines the book. With 21 rows a row with a NaN price may move.",
  "all rows with any number of NaN prices, MaxDepth >= 0, every rounding", "NaN prices come in through data, at any place", "market/orderbook.go:NewOrderBook", "market/orderbook.go:sort")
p("Candle files load the same however they are read",
  "Whatever sizes the system's reads have, LoadCandlesFromFile ends, and its outcome depends only on the bytes given before the end of the file or a read error. A read error is not reported: if it comes behind the first k lines of a saved file, the first k candles are returned with a nil error.",
  "all file contents, all sequences of read sizes, a read error at any place (second part: all candle lists with 32-bit times and their saved files)", "read sizes and errors are up to the system; the buffer of bufio.Scanner grows and shifts", "market/candle_load.go:LoadCandlesFromFile")
p("Lists in JSON are read element by element",
  "json.Unmarshal of an object that gives a list of a record once, as an array, leaves as many elements as the array has. Each is read into what stood at its index: the old element, behind the old list what its memory still holds there, beyond that zero. So a field a new order book row, balance or annotation does not mention, or a null, keeps the old element's value, although the element is a new one.",
  "the asks and bids of an OrderBook, the balances of an AssetsSnapshot, the trade IDs of Order and Position, the annotations of Actions and AddAnnotationsAction; all JSON objects (for Order and Position the members before a bad time), all old lists and whatever their memory holds", "reading into a used variable, with any memory behind its list", "market/orderbook.go:OrderBook", "market/orderbook_types.go:OrderBookRow", "market/balances.go:AssetsSnapshot", "market/order.go:Order", "market/position.go:Position", "strategy/actions.go:Actions", "strategy/annotation.go:AddAnnotationsAction")
p("JSON as bytes, and strings that are not valid UTF-8",
  "Any bytes stand for exactly one text: one character for each valid UTF-8 encoding, U+FFFD for each byte that begins none. json.Unmarshal of bytes does what C163, C170 and the other claims say of the text they stand for. json.Marshal writes a string as valid UTF-8 whatever its bytes are, a valid one as C169 says. The string comes back as the text its bytes stand for, so a symbol, ID or label survives JSON if and only if it is valid UTF-8.",
  "all byte sequences as input of json.Unmarshal into all records; all strings, all bytes", "all byte sequences", "market/orderbook.go:OrderBook", "market/candle.go:Candle", "market/order.go:Order", "market/position.go:Position", "market/trade.go:Trade", "market/pair.go:Pair", "market/asset.go:Asset", "strategy/annotation.go:Annotation")
p("Records in JSON with strings of any bytes",
  "Whether json.Marshal writes a record does not depend on the bytes of its strings, and what it writes is valid UTF-8. Reading that back into any variable gives no error and the same numbers, times, flags, pointers and list lengths; each string, in nested records and lists too, holds the text its bytes stood for, with U+FFFD for each byte that is not part of valid UTF-8.",
  "Update, Asset, Pair, Balance, AssetsSnapshot, Trade, Order, OrderRequest, Position, PositionCloseOrder, the five order and position actions, Annotation; all values with finite numbers and writable times, all strings of bytes", "all byte strings in all string fields of nested records", "market/orderbook_types.go:Update", "market/asset.go:Asset", "market/pair.go:Pair", "market/balances.go:AssetsSnapshot", "market/trade.go:Trade", "market/order.go:Order", "market/position.go:Position", "strategy/actions.go:CreateOrderAction", "strategy/annotation.go:Annotation")
p("Maps in JSON with keys and values of any bytes",
  "json.Marshal writes Actions, AddAnnotationsAction and Tick as valid UTF-8 whatever bytes their keys and strings hold, entries in the order of the bytes of their keys. Reading that back gives no error and the values as in C187. Different keys that stand for the same text come back as one entry, the one whose key is the greatest in byte order, wherever it stood in the map; the others are lost without an error. Entries the variable had under other keys stay.",
  "all Actions, AddAnnotationsActions and Ticks with finite numbers and writable times, all byte strings as keys and strings, all variables read into", "all byte strings as keys, and collisions among them", "strategy/actions.go:Actions", "strategy/annotation.go:AddAnnotationsAction", "strategy/strategy.go:Tick")
p("JSON texts are the UTF-8 of what C162 and C169 say",
  "For every record with JSON fields, nested or in lists and maps, whose strings hold valid UTF-8: the bytes json.Marshal gives are the UTF-8 of the text C162, C168 and C169 describe in characters, and it fails exactly when C161 and C168 say. In particular map entries come in the order of their keys' characters, which is the order of their bytes.",
  "all 25 JSON records, all values (finite or not), all strings; times in the format of time.Time", "all strings and map keys", "market/orderbook.go:OrderBook", "market/candle.go:Candle", "market/order.go:Order", "market/position.go:Position", "market/trade.go:Trade", "market/pair.go:Pair", "market/asset.go:Asset", "strategy/actions.go:Actions", "strategy/annotation.go:Annotation", "strategy/strategy.go:Tick")
p("An error names the function that was called",
  "Whenever one of the 23 exported functions that return an error gives one, the operation of the error (what stands behind its last dot) is the name of that function.",
  "all 23 functions, all arguments, files and system errors", "every path to an error, of every function", "indicators/ma.go:MovingAverage", "indicators/rsi.go:RSI", "market/candle.go:ModifyInterval", "market/candle_load.go:LoadCandlesFromFile", "market/candle_load.go:SaveCandlesToFile", "market/orderbook.go:ApplyUpdate", "market/orderbook.go:GetDepth", "market/orderbook.go:CalculateOverlap", "market/asset.go:NewAsset", "market/asset_helpers.go:NewCryptoAsset", "market/order_request.go:NewOrderRequest", "market/order_request.go:CalculateFields", "market/position.go:Modify", "market/trade.go:Update", "strategy/strategy.go:GetLocationTime", "utils/date.go:RawDateToRFC3339")
p("An error says what is wrong",
  "Each message is given exactly for the inputs it describes, the first that applies: for example \"Period can't be less than 1\" if and only if there are candles and the period is below 1, \"LimitOrders must have a priced defined\" if and only if pair and action are given and the type is limit with price 0, \"No depth for the selected price\" if and only if the price is positive (or NaN) and outside the ranges of both sides. No other message occurs, but for errors of the system, of number and of date texts.",
  "MovingAverage, ExponentialMovingAverage, SmoothedMovingAverage, RSI, ModifyInterval, NewOrderRequest, CalculateFields, NewAsset and the three lists of assets, ApplyUpdate, GetDepth, CalculateOverlap (with rows on all four sides), the four Update methods, Modify; all arguments, NaN included", "all combinations of wrong arguments", "indicators/ma.go:MovingAverage", "indicators/ma.go:ExponentialMovingAverage", "indicators/ma.go:SmoothedMovingAverage", "indicators/rsi.go:RSI", "market/candle.go:ModifyInterval", "market/orderbook.go:ApplyUpdate", "market/orderbook.go:GetDepth", "market/orderbook.go:CalculateOverlap", "market/asset.go:NewAsset", "market/asset_helpers.go:NewCryptoAsset", "market/order_request.go:NewOrderRequest", "market/order_request.go:CalculateFields", "market/position.go:Modify", "market/trade.go:Update")
p("The message of a refused interval tells the numbers",
  "The message with which ModifyInterval refuses an interval that is no multiple of the minutes between the candles determines both: two calls refused with the same such message asked for the same interval, of candles with the same gap.",
  "all candles, all intervals, every rounding, every time zone", "all pairs of calls", "market/candle.go:ModifyInterval")
p("A refused candle file: which word is to blame",
  "LoadCandlesFromFile of an existing file gives an error if and only if there is a first line that is not a candle, no line up to it is over-long, and one of its first six words cannot be read, all words before it being readable. The error wraps the complaint of strconv about that word, and no candles are returned.",
  "all file contents, every rounding", "all file contents", "market/candle_load.go:LoadCandlesFromFile")
p("What a nil pointer does",
  "Called on a nil pointer, GetSchema answers as always. Update refuses a value that is not a pointer of the receiver's type with EINVALID, GetDepth a price not above zero, ApplyUpdate a side other than ask and bid; GetLocationTime gives the error of a location that is not known. Every other call of these and of all other exported methods with a pointer receiver panics (for Print see C195), as do NewPosition and Modify with a nil trade, Update with a nil pointer of the right type, and the Add methods of Actions even with nothing to add. Update otherwise stores the value. On pointers that are not nil all of them do what the other claims say.",
  "all exported methods with a pointer receiver, all arguments, every rounding", "nil comes from callers; which methods read the receiver, and when, is spread over the code", "market/orderbook.go:ApplyUpdate", "market/orderbook.go:GetDepth", "market/trade.go:Update", "market/order.go:Update", "market/position.go:Update", "market/position.go:Modify", "market/position.go:NewPosition", "market/order_request.go:CalculateFields", "strategy/annotation.go:Update", "strategy/actions.go:AddCreateOrders", "strategy/strategy.go:GetLocationTime")
p("What is done before a nil pointer panics",
  "SaveCandlesToFile of a nil list empties the file (or makes an empty one) and then panics; if the file cannot be created it gives an error and changes nothing. Print of a nil order book writes its title line and then panics; Print of any other order book does not panic.",
  "all earlier contents of the file, all order books", "an effect before a panic, only visible afterwards", "market/candle_load.go:SaveCandlesToFile", "market/orderbook.go:Print")
p("Periods near the limits of int do no harm",
  "RSI, MovingAverage and SmoothedMovingAverage, computed with integers that wrap around like those of the machine, give exactly what the other claims say of them with unbounded integers. RSI does so even for the least and the greatest int as period, where period-1 and j+2 wrap: it panics there and neither loops on nor answers.",
  "all periods an int can hold, int of any size from 3 bits (64 and 32 among them), all candles and capacities at least two below the greatest int (no machine can hold more), every rounding", "2^64 periods; overflow happens only at extremes", "indicators/rsi.go:RSI", "indicators/ma.go:MovingAverage", "indicators/ma.go:SmoothedMovingAverage")
p("Candles can be shared between goroutines",
  "MovingAverage, ExponentialMovingAverage, SmoothedMovingAverage, ExponentialWeightedVolatility, WilliamFractals, GetMinInterval, ModifyInterval and SaveCandlesToFile give what the other claims say, whatever other goroutines do meanwhile and however they are scheduled, as long as nobody writes to the candles passed. In particular any number of them can run on the same candles, and another goroutine can append behind the slice in the same array. (ModifyInterval of one candle returns the slice passed, unread.)",
  "all candles and arguments, every rounding, every sequence of memory contents between the reads of the function", "all schedules of all other goroutines", "indicators/ma.go:MovingAverage", "indicators/ma.go:ExponentialMovingAverage", "indicators/ma.go:SmoothedMovingAverage", "indicators/ewv.go:ExponentialWeightedVolatility", "indicators/williams_fractals.go:WilliamFractals", "market/candle.go:GetMinInterval", "market/candle.go:ModifyInterval", "market/candle_load.go:SaveCandlesToFile")
p("RSI can run while others write behind its candles",
  "What RSI gives depends only on the candles passed, whatever other goroutines write elsewhere, behind the slice in the same array for example.",
  "all candles, capacities and periods, every rounding, every sequence of memory contents between the reads of RSI", "all schedules of all other goroutines", "indicators/rsi.go:RSI")
p("What closes too large to be added do to the averages",
  "Averages of finite closes: no value of MovingAverage or ExponentialMovingAverage is NaN. Once a value of ExponentialMovingAverage is infinite (because the sum of the first closes is too large for a float64), all later ones are, however small the later closes. Of SmoothedMovingAverage the first two values are not NaN, and a later one is NaN exactly when the value before it is NaN or infinite. With period 1 all three give closes unchanged and none of this happens. ExponentialWeightedVolatility of finite candles with 0 <= low <= high is never NaN for a beta from 0 to 1, and stays infinite once it is.",
  "all series of finite closes of either sign (volatility: 0 <= low <= high), all periods up to 2^53-1; float64 for ExponentialMovingAverage, every lawful rounding for the others", "overflow depends on sums along the whole series", "indicators/ma.go:MovingAverage", "indicators/ma.go:ExponentialMovingAverage", "indicators/ma.go:SmoothedMovingAverage", "indicators/ewv.go:ExponentialWeightedVolatility")
p("When CalculateFields fills in zero",
  "CalculateFields of a request with one of total and quantity given, finite, and a finite price other than 0 fills in zero if and only if the exact amount is at most 2^-1075 in size, half the smallest float64. Only then does CalculateFields accept the completed request again; with the same current price it then returns it unchanged. In all other cases the second call is refused with EINVALID.",
  "all such requests and current prices, float64", "underflow needs extreme amounts", "market/order_request.go:CalculateFields")
p("What amounts too large for a float64 do to a position",
  "Trades with finite amounts, positive quantities and no negative price. If adding a trade overflows the quantity, the open price becomes 0 when both products of price and quantity are finite, and NaN otherwise. If the quantity stays finite the open price does not become NaN, and it becomes +Inf when one of the products overflows. From then on it stays +Inf as long as the quantity is finite, whatever trades follow, and a close books a profit of -Inf for a long and +Inf for a short position. A position with quantity +Inf can no longer be reduced or closed by finite trades; the first trade applied makes its open price NaN.",
  "all positions with finite positive quantity and open price not below 0 (or +Inf in the later claims), all histories of such trades, every lawful rounding", "overflow depends on products and sums along the history", "market/position.go:Modify")
p("Loading a candle file while it changes",
  "LoadCandlesFromFile of a file that other processes write to during the load ends as long as the file does not grow without bound. Its outcome is that of loading some text read off the changing file from front to back: the byte at each position is one the file had there at some moment of the load, and later positions are from the same moment or later. If the file only grows, the outcome is that of a load at one single moment. So a load that starts to read after a concurrent SaveCandlesToFile created the file returns, without an error, a beginning of the saved candles, or such a beginning and one candle whose volume is cut off. A load that started on the old contents sees a beginning of the old text followed by the new text from that position on, and can return a candle that is in neither.",
  "all file contents, all changes between any two reads, all sizes of the reads, every lawful rounding", "all schedules of two processes", "market/candle_load.go:LoadCandlesFromFile", "market/candle_load.go:SaveCandlesToFile")
p("Several processes save to the same file",
  "Any number of processes in SaveCandlesToFile with the same path, interleaved write by write, with no write failing. From the first os.Create on, each byte of the file is one that some process writes at that position, or zero. If they all save the same candles, the file is in the end the one a single save writes, and a load returns these candles if their times fit in 32 bits. If one process creates the file when all others are done, the file is in the end the one it writes. (Two overlapping saves of different candles can leave a file with candles of both, or one that cannot be loaded.)",
  "all numbers of processes, all candles and previous contents, all interleavings", "all schedules of several processes", "market/candle_load.go:SaveCandlesToFile", "market/candle_load.go:LoadCandlesFromFile")
p("Goroutines with order books of their own",
  "Goroutines that update order books, each its own and with no memory in common, do not disturb each other: however their single reads and writes of rows are interleaved, a goroutine that has finished holds exactly the book its updates give when nothing else runs (or has panicked as they do), also where the arrays grow into new memory. Their books still share no memory then, no two of them are ever about to use the same row with one of them writing, and each can always come to its end.",
  "any number of goroutines, all books in separate memory, all lists of updates, all capacities and growth policies, all interleavings", "all schedules of several goroutines", "market/orderbook.go:ApplyUpdate", "market/orderbook.go:limit")
p("Order books shared by goroutines that only read",
  "Goroutines that make (NewOrderBook with a depth that is not negative and less than 2^53 rows a side), update, search (GetDepth), print and compare (CalculateOverlap) order books give the answers they give alone, on the books and rows as they were at the start, in every interleaving of their reads and writes and without races, as long as a book that one of them updates, or the rows that one of them makes a book of, are used by no other; books that are only read may be shared. The condition is needed: Print of a book while another goroutine inserts one level can write rows that the book had neither before nor after.",
  "any number of goroutines, all books, updates, prices and roundings, all capacities and growth policies, all interleavings", "all schedules of several goroutines", "market/orderbook.go:GetDepth", "market/orderbook.go:Print", "market/orderbook.go:CalculateOverlap", "market/orderbook.go:ApplyUpdate")
p("Which texts in JSON are times",
  "A text read into a time.Time field of a trade, order or position is refused unless it is a date of the calendar YYYY-MM-DD, T, an hour below 24 (older versions of Go take one digit too), a minute and a second below 60 (two digits each), maybe a fraction, and Z or a sign with hh:mm; a text that is accepted gives the instant it says. Every text in the form of RFC 3339 is accepted, with fractions of any length, of which nine digits count and the rest is dropped.",
  "all texts", "all dates, clocks, fractions and zones; refusals are rarely tried", "market/trade.go:Trade", "market/order.go:Order", "market/position.go:Position")
p("ModifyInterval never fails over values",
  "A failed ModifyInterval gives no candles and ECONFLICT, when the interval does not fit the spacing of the first two candles, or EINVALID, when no candle starts an interval; the error of reading back a printed volume never occurs, whatever the prices and volumes (NaN and infinities included). If all volumes are numbers of zero or more, so are the resampled ones: none is NaN. A resampled volume is infinite exactly if the running sum of its candles reaches infinity, as it does from any infinite volume; float64 volumes up to 2^971 never do that, in any series shorter than 2^53.",
  "all candles, intervals and time zones, every lawful rounding whose %.5f reads back (float64 does; the bound is for float64)", "overflow and special values are rare inputs; the absence of an error over all floats", "market/candle.go:ModifyInterval", "market/candle.go:compressCandle")
p("A resampled series has the interval asked for",
  "GetMinInterval of candles d minutes apart is d, and of the candles ModifyInterval makes of them for m*d minutes, if they are two or more, m*d.",
  "all regular series, all d and m with m*d < 2^47, all time zones, every lawful rounding", "relation between two functions over all series", "market/candle.go:GetMinInterval", "market/candle.go:ModifyInterval")
p("Asks and bids of a feed can be interleaved in any way",
  "After updates none of which reaches the opposite side as it is at that moment, the asks are those the ask updates alone give and the bids those the bid updates alone give; Time and MaxDepth are unchanged. So two such feeds with the same ask updates in the same order and the same bid updates in the same order give the same book. In particular an ask update and a bid update can be swapped if the ask is above all bids, the bid below all asks and the bid below the ask (updates with volume 0 always). Updates that cross do not commute.",
  "all strictly sorted books within their MaxDepth >= 0, all histories without NaN prices", "all interleavings of two feeds", OB+"OrderBook.ApplyUpdate", OB+"OrderBook.limit")
p("Books that saw the same latest updates are equal",
  "After updates none of which crosses and with room for all of them, the rows of a side are exactly the latest update at each price whose latest update has a non-zero volume (with AccumVolume 0) and the initial rows at the prices without updates. So two such histories, of any lengths and in any order, that have the same latest update at each price of each side give books that are equal row by row. The room is needed: a level pushed out by the limit does not come back.",
  "all strictly sorted books within their MaxDepth >= 0, all histories without NaN prices short enough for the depth", "all pairs of histories", OB+"OrderBook.ApplyUpdate", OB+"OrderBook.limit")
p("The float64 overlap, and when it is NaN or infinite",
  "If the best ask of the first book is below the best bid of the second, CalculateOverlap returns |cost - proceeds| with each step rounded. The cost is the running sum of price times volume over the crossed asks (0 if no ask of the book is beyond the best bid). The proceeds are those of selling the running sum of the crossed asks' volumes into the crossed bids, worst first: bids are used up while the running sum of their volumes stays within the volume to sell, and the first one beyond takes the rest (0 if no bid is beyond the best ask). With finite positive prices and finite volumes of at least 0, neither amount is NaN or negative; the result is NaN, without an error, exactly when both overflow to +Inf, +Inf exactly when one does, and finite otherwise.",
  "all strictly sorted books with rows on all four sides; the value for every arithmetic, the special values for every lawful rounding", "overflow of sums over any number of levels", OB+"CalculateOverlap", OB+"overlapCalculation")
p("A round trip: from a request for a total to the booked profit",
  "Ask for an order by its total (quantity 0, finite total T other than 0, action buy or sell, a base symbol, any non-empty order type), call CalculateFields, open a position with a trade of the computed quantity at price P (the current price for a market order, the price of the request otherwise; finite, not 0, with T/P not overflowing) and call Modify with the opposite trade of that same quantity at price P'. Every step succeeds; the position is closed, with open price P, close price P', the computed quantity, the times of the two trades and both trade ids in order; and the profit does not depend on what the trades cost. With exact arithmetic the profit is T*(P'-P)/P for a buy and T*(P-P')/P for a sell. With float64, for T, P and P' between 2^-100 and 2^100, it is finite and off by at most 2^-51 times that value; in particular its sign is right and it is 0 when P' = P.",
  "all pairs with a base symbol, both actions, all non-empty order types, all totals, prices, costs, ids and times; for the float64 bound all float64 values in the stated range",
  "a bound over all float64 triples through five calls; a test checks single round trips with round numbers",
  "market/order_request.go:NewOrderRequest", "market/order_request.go:OrderRequest.CalculateFields", "market/position.go:NewPosition", "market/position.go:Position.Modify", "market/position.go:Position.substract")
p("What the indicators read, and indicators of resampled series",
  "MovingAverage, ExponentialMovingAverage, SmoothedMovingAverage and RSI give the same result, success, error or panic, for any two series with the same closes, whatever the times, opens, highs, lows and volumes; ExponentialWeightedVolatility for any two series with the same highs and lows; WilliamFractals for any two series with the same times, highs and lows. So on a series with one candle every d minutes resampled by ModifyInterval to m*d minutes, the averages and RSI of the resampled candles are exactly those of the last candles of the groups of m: every m-th candle of the original, the last group ending with the series.",
  "all series, periods and betas, every arithmetic; resampling: all regular series, d >= 1, m >= 1, every lawful arithmetic",
  "independence of five fields of every candle, and two functions composed for every length",
  "indicators/ma.go:MovingAverage", "indicators/ma.go:ExponentialMovingAverage", "indicators/ma.go:SmoothedMovingAverage", "indicators/rsi.go:RSI", "indicators/ewv.go:ExponentialWeightedVolatility", "indicators/williams_fractals.go:WilliamFractals", "market/candle.go:ModifyInterval")
p("What is read of trades, rows, positions and requests",
  "NewPosition and Modify give the same position for trades that differ only in order type, fee, cost and execution id, also over whole histories. UnrealizedProfit reads of a position only its type, open price and quantity. What CalculateFields fills in, or that it refuses, depends only on type, price, quantity and total of the request and on the current price. NewOrderBook does not read the AccumVolume of the rows it is given. CalculateOverlap reads only the prices and volumes of the rows and GetDepth only the prices: two books that agree on them give the same result, error or panic, whatever their AccumVolume, Time and MaxDepth.",
  "all trades, histories, positions, requests, rows and books, every arithmetic",
  "independence of fields over all values of them",
  "market/position.go:NewPosition", "market/position.go:Position.Modify", "market/position.go:Position.UnrealizedProfit", "market/order_request.go:OrderRequest.CalculateFields", OB+"NewOrderBook", OB+"CalculateOverlap", OB+"OrderBook.GetDepth")
p("Resampled series can be stored and read back",
  "If ModifyInterval succeeds on candles whose fields are float64 values, all fields of the resampled candles are float64 values too (a volume is the float64 its five printed places are read as) and every time is the time of one of the candles. So if the times fit in 32 bits, the resampled candles written by SaveCandlesToFile load back unchanged, and storing a series, loading it, resampling it, storing and loading the result gives exactly what ModifyInterval gives on the series itself.",
  "all candle lists with 32-bit times, any field values including NaN and infinities, all intervals and time zones, every previous file content, every lawful rounding with digits that read back (float64 has them)",
  "four calls composed for every series and every field value",
  "market/candle.go:ModifyInterval",
  "market/candle.go:compressCandle",
  "market/candle_load.go:SaveCandlesToFile",
  "market/candle_load.go:LoadCandlesFromFile")
p("What an overlap depends on",
  "A book that started with no bid above an ask does not overlap itself, whatever updates it has had: CalculateOverlap(b, b) fails with ENOTFOUND and value -1, or panics if a side is empty. When the best ask of x is below the best bid of y, CalculateOverlap(x, y) depends only on the asks of x up to that bid, the bids of y down to that ask, and whether there is any ask and any bid beyond them: the rows beyond can be replaced by any other rows beyond, and the bids of x and asks of y by anything. So an ApplyUpdate to an ask above the best bid (or a bid below the best ask), of any volume, leaves the overlap as it was, as long as an ask (a bid) lies beyond before and after.",
  "all histories of updates with prices that are numbers; all books, sorted or not, for the replacement of rows; all sorted books within depth and all updates for the last part; every float arithmetic",
  "an independence property over all books and all possible far rows",
  "market/orderbook.go:CalculateOverlap",
  "market/orderbook.go:overlapCalculation",
  "market/orderbook.go:ApplyUpdate")
p("Indicators of combined series",
  "In exact arithmetic, if every close of a series is a times the close of one series plus b times the close of another, then every value of MovingAverage, ExponentialMovingAverage and SmoothedMovingAverage is a times the value for the first plus b times the value for the second, place by place. If highs and lows are combined like that, so is ExponentialWeightedVolatility.",
  "all pairs of series of the same length with finite prices, all a and b, all periods from 1 to the length, all finite beta",
  "linearity over all pairs of series and all coefficients",
  "indicators/ma.go:MovingAverage",
  "indicators/ma.go:ExponentialMovingAverage",
  "indicators/ma.go:SmoothedMovingAverage",
  "indicators/ewv.go:ExponentialWeightedVolatility")
p("A feed brings different books together",
  "Two order books, each given updates none of which crosses and for which it has room: if the latest updates agree at every price of each side, and the two books agree at the prices without update, they show exactly the same rows in the end, whatever else they showed before and whatever their MaxDepth. So a stale book catches up once every price where it is wrong has had an update. And replaying updates that a book already contains, before the new ones, gives the same book as the new ones alone. It is enough for not crossing that some price has all asks of book and feed above it and all bids at or below it.",
  "all pairs of strictly sorted books within their MaxDepth >= 0, all histories without NaN prices and short enough for the depth",
  "two arbitrary books and two arbitrary histories are compared",
  "market/orderbook.go:ApplyUpdate")
p("Fractals of resampled series",
  "The fractals WilliamFractals reports on the output of ModifyInterval, told by the candles before resampling: cut into the groups of C24, a group has an up fractal iff it has two groups before and after it, its highest high is above all highs of the two groups before, and no high of a later group is above it before two groups have come all whose highs are below it. The fractal has the time of the first candle of the group and the highest high of the group as price. Mirrored for down fractals and lows.",
  "all candle lists with highs above -1e308 and lows below 1e308, all intervals and time zones, every float arithmetic",
  "two calls composed, for every series and interval",
  "indicators/williams_fractals.go:WilliamFractals",
  "market/candle.go:ModifyInterval")
p("Several feeds for one book can be merged in any way",
  "Several feeds update one order book, one ApplyUpdate at a time (for instance under a lock), and each price of a side is updated by one feed only. If all asks of book and feeds are above some price and all bids at or below it, and MaxDepth has room, the book is the same in the end however the calls of the feeds are merged, as long as each feed keeps its own order. If two feeds update the same price this is false.",
  "any number of feeds, all strictly sorted books within their MaxDepth >= 0, all merges of all feeds without NaN prices and short enough for the depth",
  "all interleavings of an arbitrary number of feeds",
  "market/orderbook.go:ApplyUpdate")
p("Several processes save to one candle file and writes fail",
  "Any number of processes run SaveCandlesToFile with the same path, each line is written in any pieces, other processes come in between the pieces, and any os.Create and any write may fail. At every moment each byte of the file is one the system took from some process at that position, or zero; until the first os.Create succeeds the file is as it was. What the system takes of a process that returns is what SaveCandlesToFile alone would leave in the file when some of its writes are cut short, and SaveCandlesToFile reports nil. A process that calls os.Create after all the others have returned leaves the file as it is if refused, and otherwise exactly what it wrote. Processes that save the same candles and are each either refused or write everything leave, unless all are refused, the file a single save writes. If they save the same candles and each stops at its first failing write, the file is never longer than that one and has its bytes or zeros. A process that goes on after a failing write can spoil the file of one that wrote everything after it.",
  "all processes, all interleavings, all cuts of the lines into pieces, all failures, all candle lists and old file contents",
  "Tests neither cut writes nor run several savers; the interleavings, cuts and failures are unbounded.",
  "market/candle_load.go:13-29")
p("NewOrderBook called by several goroutines",
  "Goroutines that call NewOrderBook at the same time, each with rows of its own and a depth that is not negative, do not disturb each other: however the single reads and writes of their stable sorts and running sums are interleaved, a goroutine that has finished holds exactly the book NewOrderBook makes of its rows when nothing else runs, and each can always come to its end. Rows of one's own are needed, because NewOrderBook sorts in place: two goroutines that call it with the same two asks, 3 and 2, can both end with a book that has lost the ask 3, without an error.",
  "any number of goroutines, all rows (less than 2^53 a side), all depths that are not negative, every lawful rounding, all interleavings",
  "Tests run one goroutine; the schedules of the sorts are unbounded in number.",
  "market/orderbook.go:19-63")
p("Positions used by several goroutines",
  "Goroutines that make, modify, update, mark (UnrealizedProfit), name (GetID) and print positions at the same time do not disturb each other as long as a position that one of them changes is used by no other, and the memory of its trades neither if it is modified: however their single reads and writes of fields are interleaved, every call returns what it returns when nothing else runs, every position made, modified or updated ends as it would then, no two goroutines ever access one field at the same moment with one of them writing, positions made or modified by two of them share no memory even for their trades, and every goroutine can always come to its end. Positions that are only read may be shared.",
  "any number of goroutines, all calls, trades and prices, all memories with positions in them, every rounding, every growth rule of append, all interleavings",
  "Tests run one goroutine; the schedules are unbounded in number.",
  "market/position.go:52-73",
  "market/position.go:75-186")
p("Marking a position while another goroutine trades on it",
  "When one goroutine calls Modify with trade after trade and others call UnrealizedProfit on the same position without a lock, a reader gets the value computed with the open price after some number m of the trades and the quantity after some number n, where m is at most n + 1, and for all such m and n there is an interleaving in which it does; so it can be a value that belongs to no state of the position. The goroutine that trades is not disturbed: its errors and its position are those it gets alone.",
  "any number of readers, all positions, lists of trades and prices, every rounding, every growth rule of append, all interleavings",
  "Tests run one goroutine; the torn values need a schedule that stops between two writes.",
  "market/position.go:115-186")
p("Two goroutines that add to one position can lose a trade",
  "When two goroutines call Modify with a buy each on the same long position without a lock, there is an interleaving in which both calls return nil and the position lists the IDs of both trades, but its quantity has grown by the quantity of one of them only.",
  "all long positions, all two buys of its pair, whatever other goroutines are waiting to do, every rounding, every growth rule of append",
  "Tests run one goroutine; the loss needs one particular schedule and leaves no error.",
  "market/position.go:124-155")
p("The assets with a name, and pairs of them",
  "NewCryptoAsset, NewForexAsset and NewStockAsset know exactly the 36 symbols of their switches, each under its name. All of them occur in some pair of PairMappings except AAPL, EWT, EWTB, FILE, USD and ZED; Filecoin and ZCash are traded there under FIL and ZEC, which no constructor knows. NewPair takes the base first: its symbol is the base's symbol, the separator and the quote's symbol, or the base's alone if the quote has none.",
  "all strings, all assets, all separators",
  "Tests look up a few symbols; that no other string is known and no pair has the symbol is a statement about all strings and all 1951 rows.",
  "market/asset_helpers.go:5-104",
  "market/pair.go:14-30",
  "market/pair_mappings.go:3-1955")
p("Which order types need a price",
  "A request with price zero that is valid otherwise is rejected by NewOrderRequest if its type is LimitOrder and accepted for MarketOrder, ClosePosition, TakeProfit and StopLoss, although the last two are documented to execute at a specific price. CalculateFields makes of a request with a quantity and no total one with the total quantity × current price if its type is MarketOrder and quantity × its own price for any other type, ClosePosition included, which is documented to execute at the current price. The named types, statuses, actions and position types are the documented strings.",
  "all pairs with a base symbol, actions, quantities, totals and prices, every rounding",
  "Tests try a limit and a market order.",
  "market/order.go:11-51",
  "market/order_request.go:22-94")
p("A copied Actions shares its maps and its annotations",
  "An Actions in memory (five map variables, nil or a reference, and a slice of annotations) shows after any history of Add calls exactly what C89-C91 say. Copy it, and call Add methods on the original and on the copy in any order. A map that was not nil at the copy is one map: original and copy both show every action that either of them added to it. A map that was nil at the copy belongs to each alone: each shows only the actions that its own calls added, under the IDs given out in the order of all calls. If the original then adds annotations l1 and after it the copy adds annotations l2, the copy shows the old ones followed by l2; the original shows the old ones followed by l1 unless both l1 and l2 fitted in the capacity of the old array, in which case l2 has been written over l1 from its first element on. So the original keeps its annotations if and only if l1 did not fit, or l2 did not fit, or the two begin alike as far as both go.",
  "all memories, all Actions, all interleavings of Add calls on the two copies, all lists of annotations, every growth policy of append, every source of IDs",
  "Sharing depends on which maps were nil and on spare capacity that the runtime chose; tests use one Actions.",
  "strategy/actions.go:4-70")
p("Readers of one book do not disturb each other",
  "On a book in memory that no other goroutine uses, ApplyUpdate, GetDepth and Print do what they do with a book as a value, panics and errors included, and GetDepth and Print leave the memory as it is. Any number of goroutines may call GetDepth and Print on the same books at the same time: the memory never changes, and every call that ends has the answer for its book.",
  "all memories that hold books, all updates and prices, any number of goroutines, every interleaving, every growth rule of append",
  "Tests run one goroutine; that shared reading is safe is a statement about every schedule.",
  "market/orderbook.go:65-131",
  "market/orderbook.go:136-286")
p("Two goroutines that add a level each to one book can lose one",
  "When two goroutines call ApplyUpdate on the same book without a lock, each with a new price on the same side and a volume that is not zero, and there is room for both levels, then there is an interleaving in which both calls return nil and the side is one row longer only, although either order of the two calls, one after the other, makes it two rows longer.",
  "all books in memory, all pairs of updates of one side with different new prices, whatever other goroutines are waiting to do, every growth rule of append",
  "Tests run one goroutine; the loss needs one particular schedule and leaves no error.",
  "market/orderbook.go:136-234")
p("GetDepth and Print can panic while another goroutine updates the book",
  "While a goroutine runs GetDepth at a price within the asks or within the bids, or Print, on a book that another goroutine updates, there is an interleaving in which it panics on an index out of range. For GetDepth it suffices that the first m asks are not above the price (the first m bids not below it) and that the update leaves m asks (bids) or fewer; for Print, that the update leaves fewer asks than there were. The update itself returns nil and the book ends as it should; GetDepth panics neither on the book before nor, unless a side is empty, on the book after.",
  "all books in memory, all prices within the asks or the bids, all updates that shorten that side so far, whatever other goroutines are waiting to do, every growth rule of append",
  "Tests run one goroutine; the panic needs one particular schedule.",
  "market/orderbook.go:79-89",
  "market/orderbook.go:257-286")
p("Goroutines with an Actions each do not disturb each other",
  "When any number of goroutines each fill an Actions of their own by any calls of the Add methods, no goroutine is ever at a memory cell that another is writing, none panics, each can come to its end however far the others have got, and each ends with what its calls alone would have made of its Actions, with IDs of xid.New that are all different, within a goroutine and between goroutines.",
  "all memories in which the goroutines' Actions use different cells, all histories of calls, any number of goroutines, every interleaving, every growth rule of append, every generator that never repeats an ID",
  "Tests run one goroutine; that nothing is shared is a statement about every schedule.",
  "strategy/actions.go:13-70",
  "strategy/order_actions.go:20-22",
  "strategy/position_actions.go:19-21")
p("Goroutines that share an Actions can lose actions",
  "When two goroutines call the same Add method on one Actions without a lock: if the map is nil, there is an interleaving in which both calls return and the map has the actions of one goroutine only, although the calls one after the other leave those of both; for AddAnnotations there is an interleaving in which both calls return and only one goroutine's annotations have been added; and if the map is there and both bring an action, there is an interleaving in which both are about to write to the same map, for which the Go runtime may end the program.",
  "all Actions in memory, all five map methods and AddAnnotations, all arguments, whatever other goroutines are waiting to do, every growth rule of append, every generator that never repeats an ID",
  "Tests run one goroutine; the loss needs one particular schedule and leaves no error.",
  "strategy/actions.go:13-70")
p("An average computed while the last candle changes is right for a moment of the call",
  "While MovingAverage, ExponentialMovingAverage or SmoothedMovingAverage runs, another goroutine may change the last candle at any time and as often as it likes. If the other candles are not changed, the result (errors included) is that for the same candles with the last candle as it was at one moment between the start and the end of the call.",
  "all series, all periods, every memory at every read, all float semantics",
  "Tests run one goroutine; the last candle of a live series is written at any moment.",
  "indicators/ma.go:8-131")
p("Volatility and saving read every candle once",
  "Whatever other goroutines write to the candles during the call, ExponentialWeightedVolatility gives the volatility, and SaveCandlesToFile writes the lines, of a list whose k-th candle is the k-th candle as it was at the k-th moment of the call.",
  "all memories at every read, all lengths, all beta, all float semantics, all numbers of bytes accepted by the file",
  "Tests run one goroutine; a saved file is never checked against candles that change.",
  "indicators/ewv.go:7-17",
  "market/candle_load.go:13-29")
p("MovingAverage can mix the candles before and after a change",
  "Whatever other goroutines write during the call, value k of MovingAverage is the average of the candles k to k+period-1, each as it was when the call came to it for this value. So when one candle that two neighbouring windows share is replaced by one with another close, there is a moment for the replacement such that the result (in exact arithmetic) is neither that for the candles before nor that for the candles after.",
  "all memories at every read and all float semantics for the first part; all series of numbers, all periods, all shared candles and all other closes for the second",
  "Tests run one goroutine; the mixture needs the write at one particular moment.",
  "indicators/ma.go:8-44")
p("RSI stays between 0 and 100 while a candle is replaced",
  "While another goroutine replaces one candle, every value of RSI is NaN or between 0 and 100. This is false: a close that is compared as a rise and then read again after the replacement counts as a negative rise, and the value can be -100. It holds while nobody writes to the candles or to the one behind the slice.",
  "all series, periods, candles replaced and moments; partial: every lawful float semantics",
  "Tests run one goroutine; the value needs the write between two reads of one candle.",
  "indicators/rsi.go:8-21")
p("ModifyInterval of candles that grow while it runs",
  "While another goroutine lets the candles grow (at every moment low <= open, close <= high; a high never falls and a low never rises; close and volume change freely), every candle of a successful ModifyInterval has low <= open, close <= high, and from an aligned candle on every high and low that was there when the call began lies within a candle of the result. This rests on compressCandle reading the close before the highs and lows.",
  "all numbers of candles, intervals, starting moments and growing memories; every lawful float semantics",
  "Tests run one goroutine on slices that do not change.",
  "market/candle.go:36-83",
  "market/candle.go:134-166")
p("WilliamFractals while the last candle changes",
  "While another goroutine changes the last candle and no other, WilliamFractals reports only fractals that it reports for the last candle as it was at some moment of the call, and (if no two candles have the same time) every fractal that it reports for the last candle as it was at each moment of the call; whatever the times, it reports every fractal that it reports whatever the last candle is. A live candle can hide or show the fractals it decides and nothing else.",
  "all series, all changes of the last candle and all moments",
  "Tests run one goroutine on slices that do not change; the last candle is read twice in each comparison.",
  "indicators/williams_fractals.go:30-43",
  "indicators/williams_fractals.go:64-117")
p("ModifyInterval of growing candles read field by field",
  "C238 holds also when a read of a candle is not one step: whatever moment each field of a candle is read at, between the reads before and after it, every candle of a successful ModifyInterval has low <= open, close <= high, and from an aligned candle on the result covers what the candles had reached when the call began.",
  "all growing candles, all moments of the reads of fields, all intervals; every lawful float semantics",
  "Tests run one goroutine; a torn read is a matter of a few nanoseconds.",
  "market/candle.go:36-83",
  "market/candle.go:134-166")
p("Volatility of a candle replaced while its fields are read",
  "When one candle is replaced while ExponentialWeightedVolatility runs, and the fields of a candle are read one after the other, the result is that for the old or that for the new candles. This is false: the old high with the new low gives a value of its own, even a negative one. It is the value for a candle whose high is one of the two and whose low is one of the two.",
  "all series, replacements, betas, moments of the reads of fields; partial: every float semantics",
  "Tests run one goroutine; the write has to fall between two reads of one candle.",
  "indicators/ewv.go:7-17")
p("Whose memory ModifyInterval returns",
  "The slice ModifyInterval returns shares no memory with any slice the caller had: writing to it or appending to it changes none of them, and the other way round. This is false for exactly one candle: the argument itself is returned, so writing to the result changes the argument, and appending to it can overwrite what lies behind the argument in its array. For two candles or more it holds. The call itself never changes the contents of any slice.",
  "all memories, slices and other slices, intervals, zones, growth policies of append, float semantics",
  "Tests compare the returned values and never write to the result afterwards.",
  "market/candle.go:36-83")
p("ModifyInterval while the last candle changes",
  "While another goroutine changes the last candle, but not its time, and no other candle, the result of ModifyInterval (errors included) is that for the last candle as it was at one moment of the call. This is false: the close is read before the high and the low, so that the last candle of the result can close above its high although every candle is in order at every moment. What holds: the result is that for a last candle made of three moments of the call, one after the other: the open of the first, the close of the second, high, low and volume of the third.",
  "all series of two or more candles, all changes and moments, intervals, zones; partial: every float semantics",
  "Tests run one goroutine; the change has to fall between two reads.",
  "market/candle.go:36-83",
  "market/candle.go:134-166")
p("Writes to fields a function does not look at",
  "While other goroutines write to candles of the slice, a call gives exactly the result (errors and panics included) for the candles as they stand, as long as nobody changes the fields that count for it: the close for MovingAverage, ExponentialMovingAverage, SmoothedMovingAverage and RSI (there also the close of the candle behind the slice, which RSI reads), high and low for ExponentialWeightedVolatility, time, high and low for WilliamFractals, the time for GetMinInterval. All other fields may change at any moment, to any value.",
  "all candles, all writes to the other fields at all moments, periods, betas, every float semantics",
  "Tests run one goroutine and pass candles that nobody changes.",
  "indicators/ma.go:MovingAverage",
  "indicators/ma.go:ExponentialMovingAverage",
  "indicators/ma.go:SmoothedMovingAverage",
  "indicators/rsi.go:RSI",
  "indicators/ewv.go:ExponentialWeightedVolatility",
  "indicators/williams_fractals.go:WilliamFractals",
  "market/candle.go:GetMinInterval")
p("What an open position is worth, in float64",
  "After any history of n applied trades that leaves the position open, UnrealizedProfit at a price is finite and differs from the true worth - the money the trades brought in minus what they cost, plus the price times the units bought minus those sold - by at most 38n*2^-53 times the turnover plus the value of all units traded at that price (plus n*2^-799).",
  "all float64 trades with price up to 2^100 and quantity 2^-100..2^100, histories of any length up to 2^40 applied trades, all float64 prices up to 2^100 in size",
  "Tests mark a few positions at round prices; the bound is on the rounding of every history.",
  "market/position.go:UnrealizedProfit",
  "market/position.go:Modify",
  "market/position.go:NewPosition")
p("Resampling a series with gaps to its smallest interval",
  "A series with rising times and some aligned candle can be resampled by ModifyInterval to the interval GetMinInterval reports for it. This is false: if a candle is missing right after the first, the call is refused with ECONFLICT, since ModifyInterval takes the distance of the first two candles for that of all. What holds: the call is refused exactly if the first two candles are further apart than the smallest interval (in whole minutes), wherever else candles are missing. When it succeeds and all times are multiples of the interval apart, each candle from the first aligned one on stays a candle of its own, with its volume rounded to five decimals; gaps are not filled.",
  "all series of two or more candles, a minute or more apart, all gaps, time zones; partial: every lawful rounding; violation: binary64, UTC",
  "Tests use complete series.",
  "market/candle.go:ModifyInterval",
  "market/candle.go:GetMinInterval")
p("Resampling a series in two parts",
  "A series with rising times can be cut before any aligned candle: ModifyInterval of the whole is the result for the first part followed by that for the second, when both succeed (parts of two or more candles). This is false for intervals that do not divide the hour: hourly candles from one o'clock on, made into candles of two hours, are grouped 1-2, 3-4, 5; cut at four o'clock, 1-2, 3 and 4-5. What holds: the results can be joined whenever the second part begins with an aligned candle a multiple of the interval after the first candle of the first result; and for intervals that divide the hour, times at whole minutes and UTC, always.",
  "all pairs of series, all intervals, gaps included; every lawful rounding; joining: every time zone",
  "Tests resample complete series; whether a file per day can be resampled on its own takes two parts of any length.",
  "market/candle.go:ModifyInterval",
  "market/candle.go:findFirstIndex")
p("ModifyInterval on machines in different time zones",
  "The result of ModifyInterval does not depend on the time zone of the machine. This is false: hourly candles that UTC resamples to two hours are refused with EINVALID where the clock is five and a half hours ahead, and candles of full hours of UTC cannot be resampled there to any number of hours. What holds: machines whose zones are whole hours apart, at every moment, give the same result for every interval; if the interval divides the hour, zones a multiple of the interval apart do.",
  "all series, all zones (offsets that change with the time included), every rounding; violation: binary64",
  "Tests run in the zone of one machine.",
  "market/candle.go:ModifyInterval",
  "market/candle.go:findFirstIndex")
p("Indicators of a series computed in two parts",
  "The indicators of a long series can be computed part by part, with some candles in common, and the results put one after the other. For moving averages of period n this is so with n-1 candles in common, for RSI too if the parts are slices of the series. For fractals it takes four candles in common, and is false with ties: a plateau at the end of the first part is a fractal there and may not be one in the whole; without NaN and ties in the first part it holds. For the exponential and the smoothed average it is false with any number of candles in common, already for period 2. The volatility of the whole is that of the second part plus that of the first times beta to the number of candles of the second (exact arithmetic).",
  "all series, all ways to cut them, all periods, every rounding; counterexamples: exact arithmetic and binary64, every number of common candles",
  "Where a series is cut and how much is kept from the part before are unbounded; tests compute one series at once.",
  "indicators/ma.go:MovingAverage",
  "indicators/ma.go:ExponentialMovingAverage",
  "indicators/ma.go:SmoothedMovingAverage",
  "indicators/rsi.go:RSI",
  "indicators/williams_fractals.go:WilliamFractals",
  "indicators/ewv.go:ExponentialWeightedVolatility")
p("Candle files put one after the other",
  "Two candle files that LoadCandlesFromFile reads, put one after the other, load as the candles of the first followed by those of the second. This is false if the last line of the first file is not ended: the first candle of the second file can vanish without an error. What holds: behind a file whose last line is ended and that has no line above 65535 bytes, any file loads as its own candles behind those of the first or fails as it fails alone; if the first file fails, both together fail the same way; behind a line above 65535 bytes the second file is ignored without an error. Files written by SaveCandlesToFile can always be joined.",
  "all byte sequences; saved files: all candles that can be saved and read back, every lawful rounding",
  "Tests load one file that the code saved itself; how a file ends and how long its lines are is unbounded.",
  "market/candle_load.go:LoadCandlesFromFile",
  "market/candle_load.go:SaveCandlesToFile")
p("The order of trades in float64",
  "Two positions on the same side that took the same trades, in different orders, are the same as far as numbers go (C145 in exact arithmetic). In float64 this is false: buying 0.2, 0.1 and 0.3 leaves another quantity than buying 0.2, 0.3 and 0.1. What holds: with n trades in the log, quantities differ by at most 4 n 2^-53 of the quantity traded, cost bases (OpenPrice times Quantity) by 64 n 2^-53 of the turnover, and UnrealizedProfit at any price by 76 n 2^-53 of turnover plus price times quantity traded, each plus a number below n 2^-798.",
  "all histories of float64 trades within the bounds of C111 that leave both positions open, up to 2^40 trades, all orders, also with another trade as the first",
  "Orders of trades are too many to try, and how far rounding errors drift apart takes a proof.",
  "market/position.go:Modify",
  "market/position.go:UnrealizedProfit",
  "market/position.go:NewPosition")
p("Candles given newest first",
  "Given the candles newest first, the functions give the same results newest first. This is false of ModifyInterval, which accepts such a series: every candle it makes shows time and open of the newest and the close of the oldest of its group, and the groups are other ones. What holds: GetMinInterval is the same; moving averages come out in reverse order and RSI values as 100 minus the values, in reverse order (exact arithmetic); without NaN and ties WilliamFractals finds the same fractals.",
  "all series, all periods and intervals, every time zone; every lawful rounding for GetMinInterval, every rounding for ModifyInterval",
  "Tests use ascending series; many exchanges deliver candles newest first.",
  "market/candle.go:ModifyInterval",
  "market/candle.go:GetMinInterval",
  "indicators/ma.go:MovingAverage",
  "indicators/rsi.go:RSI",
  "indicators/williams_fractals.go:WilliamFractals")
p("Profit and the fees of the trades",
  "For a position traded with trades of NewTrade and closed for exactly its quantity, Profit is the money gained (what the sales brought minus what the purchases cost) plus the fees of the trades: Profit does not take fees off. In float64 this holds up to a rounding error, plus twice the closing price times what the closing quantity differs from Quantity.",
  "all histories of trades, all costs; exact arithmetic and float64 (bounds of C112, up to 2^40 trades)",
  "Joins NewTrade, NewPosition and Modify over histories of any length.",
  "market/trade.go:NewTrade",
  "market/position.go:NewPosition",
  "market/position.go:Modify")
p("A candle delivered twice",
  "ModifyInterval returns the same candles when one candle of the series, after the first two, comes twice in a row. (False of the code. What holds: before the first aligned candle the repeated candle changes nothing; after it, a repeated candle that begins an output interval adds one output candle made of it alone, with the same time as the next one; any other repeated candle changes at most the volume of the one output candle it goes into, where it is counted twice. GetMinInterval of such a series is 0. A series that begins with a repeated candle makes ModifyInterval panic for every interval but 1.)",
  "for all series of candles, all positions of the repeated candle after the first two, all intervals other than 0, all hour minutes, all sound rounding rules; times up to 2^53 in absolute value for the two cases after the first aligned candle",
  "The tests resample one file in which every time occurs once. A feed that reconnects and sends its last candle again gives a series with two equal candles; the effect depends on whether the repeated candle begins an interval, and no test contains a repeated candle at any position.",
  "market/candle.go:ModifyInterval",
  "market/candle.go:compressCandle",
  "market/candle.go:GetMinInterval")
p("Fractals of a series with a repeated candle",
  "WilliamFractals returns the same fractals when one candle of the series comes twice in a row. (False of the code: a repeated candle can bring about a fractal that was not there. What holds: however often a candle is repeated, no fractal is lost; and a new fractal is of a candle up to the second one after the repeated candle.)",
  "for all series of candles, all positions of the repeated candle, any number of repetitions",
  "No test has a repeated candle. A repetition shifts the two candles on the left of later candles and counts twice on the right of earlier ones, so the effect depends on the position and on ties.",
  "indicators/williams_fractals.go:WilliamFractals",
  "indicators/williams_fractals.go:findFractal")
p("A trade delivered twice",
  "Passing a trade to Modify a second time changes nothing. (False of the code: a trade that adds is counted twice in Quantity and OpenPrice, and a partial reduction is counted twice too, or closes the position, unless twice its quantity is more than the position's by over 0.0001, when the repetition is dropped without an error. What holds: the repetition changes nothing exactly if it is not accepted; refused trades have no effect however often they come; a closing trade delivered again changes nothing but the log; and the log has the ID twice whenever both deliveries were accepted.)",
  "for all positions and trades; the amounts for exact arithmetic, everything else for all arithmetic",
  "The tests pass every trade once. Exchanges deliver executions again after a reconnect, and Modify keeps the IDs of its trades but does not look at them.",
  "market/position.go:Modify",
  "market/position.go:add",
  "market/position.go:substract")
p("Pointers printed with fmt",
  "Printing a pointer with %v or %s never panics. A nil pointer prints as <nil>. A pointer to a value prints what its String method returns, except that a position whose ID has fewer than eight bytes prints '%!v(PANIC=String method: runtime error: slice bounds out of range [:8] with length n)' and a balance without an asset prints '%!v(PANIC=String method: runtime error: invalid memory address or nil pointer dereference)'.",
  "for all values of the 17 types with a String method, nil pointers to them, and both verbs",
  "The tests print one value of some types. Short IDs, missing assets and nil pointers do not occur in them.",
  "market/position.go:String",
  "market/balances.go:String",
  "market/candle.go:String",
  "market/orderbook.go:String",
  "strategy/annotation.go:String")
p("A price given twice to NewOrderBook",
  "After ApplyUpdate a price has at most one row, and none if the volume was zero, also in a book made by NewOrderBook from rows in which the price occurs more than once. Holds instead: NewOrderBook keeps all rows of a price if there is room; an update of that price sets the first of its rows and leaves the others with their old volumes; an update with volume zero takes away the first only, so k rows are gone after k such updates and not before.",
  "for all rows, depths, books within their depth, updates and numbers of repeated updates",
  "The tests start from rows with different prices. Rows with one price in two places come from exchanges that send a snapshot while an update is applied.",
  "market/orderbook.go:NewOrderBook",
  "market/orderbook.go:ApplyUpdate")
p("The overlap of a book with what it was before an update",
  "CalculateOverlap of a book with itself returns ENOTFOUND and -1. With b the book before an ApplyUpdate and c the book after it, CalculateOverlap(b, c) returns a value exactly if the update is a non-zero ask below some bid of b or a non-zero bid above some ask of b, and ENOTFOUND with -1 if not. If the ask is below every bid, c has no bids, CalculateOverlap(b, c) panics and CalculateOverlap(c, b) returns a value; if the bid is above every ask it is the other way round.",
  "for all uncrossed, strictly sorted books within their depth and all updates whose price is not NaN; four sides that are not empty, except in the last sentence",
  "The tests compare two fixed books. A snapshot and the book it became are compared by programs that watch a feed.",
  "market/orderbook.go:CalculateOverlap",
  "market/orderbook.go:ApplyUpdate")
p("Prices of the other sign, in float64",
  "If every close changes its sign, every value of MovingAverage, ExponentialMovingAverage and SmoothedMovingAverage changes its sign and is otherwise the same float64 (a zero may have either sign, NaN stays NaN). If the prices of the candles change their signs, high and low changing places, ExponentialWeightedVolatility returns the same float64. A position whose trades are at prices of the other sign has an OpenPrice, ClosePrice, Profit and UnrealizedProfit of the other sign and is otherwise the same.",
  "for all series, NaN and infinities included, all periods from 1 to the length, all betas, all trades and histories, in every lawful float arithmetic",
  "The tests have positive prices. Spreads and some futures have negative ones, and the result must not depend on the sign by rounding.",
  "indicators/ma.go:MovingAverage",
  "indicators/ma.go:ExponentialMovingAverage",
  "indicators/ma.go:SmoothedMovingAverage",
  "indicators/ewv.go:ExponentialWeightedVolatility",
  "market/position.go:Modify",
  "market/position.go:UnrealizedProfit")
p("RSI in other units, in float64",
  "If every close x is replaced by a*x + b, all of them float64 values, the values of RSI are NaN in the same places; elsewhere they differ by at most 0.00002 if a is positive and add up to 100 within 0.00002 if a is negative.",
  "for all float64 closes up to 2^900 in size before and after, all a other than 0 and all b, all periods below 2^20",
  "The tests have one series in one unit. Rounding differs between units, and a strategy that compares RSI with a threshold should know by how much.",
  "indicators/rsi.go:RSI",
  "indicators/rsi.go:calculateRSI")
p("Averages of combined series, in float64",
  "If each close of a third series is within d of a times the close of a first series plus b times that of a second, then each value of MovingAverage, EMA and SMMA of the third is within d + (1 + |a| + |b|) * E of the same combination of the values of the first two, where E = 16 (n+1) (2^-53 M + 2^-1075) for period n and closes up to M. In particular closes wrong by at most d make each value wrong by at most d + 2 E. The same holds of ExponentialWeightedVolatility with ranges (high less low) in place of closes and E = (16 * 2^-53 M + 4 * 2^-1075) / (1 - beta).",
  "for all float64 series of one length with closes up to M <= 2^900 in size, all a, b and d, all periods from 1 to 2^47 not above the length",
  "No test compares the averages of two series. That an error in the data is not enlarged by an average (its weights are not negative and add up to 1) concerns every series and every place.",
  "indicators/ewv.go:ExponentialWeightedVolatility", "indicators/ma.go:MovingAverage",
  "indicators/ma.go:ExponentialMovingAverage",
  "indicators/ma.go:SmoothedMovingAverage")
p("A level added and taken away again",
  "An update that adds a level at a new price of its side, followed by an update with volume zero at that price, leaves the book as it was.",
  "for all sorted books within their depth, all new prices and all volumes",
  "The tests apply one update to a fresh book. Whether the pair of updates cancels depends on how full the book is and where the level goes, and what is lost stays lost until the feed repeats it.",
  "market/orderbook.go:ApplyUpdate",
  "market/orderbook.go:limit")
p("Fractals of one kind are apart",
  "The up fractals WilliamFractals reports come, in the order reported, from candles each at least three after the one before, and so do the down fractals. There are at most (n-2)/3 of each kind among n candles.",
  "for all lists of candles without NaN highs and lows, of any length",
  "The tests look for two fractals in one series. That no two neighbouring candles are ever reported as the same kind of extreme concerns every series, with ties and at the end of the data, where a candle is reported before two weaker ones have come.",
  "indicators/williams_fractals.go:WilliamFractals",
  "indicators/williams_fractals.go:findFractal")
p("A trade of quantity zero",
  "A buy or sell trade of quantity zero at a finite price leaves a position with a positive quantity as it is, except that its ID is logged.",
  "for all positions with a finite open price and a positive finite quantity, long or short, buys and sells, every finite price of the trade",
  "The tests trade positive quantities. Exchanges report fills of zero, and whether the open price survives being multiplied and divided by the quantity depends on all 128 bits of the two.",
  "market/position.go:Modify",
  "market/position.go:add",
  "market/position.go:substract")
p("Averages of a rising or falling series",
  "When the closes of a series never fall, no value of MovingAverage, ExponentialMovingAverage or SmoothedMovingAverage is below an earlier one; when they never rise, none is above an earlier one.",
  "for all series with finite non-negative closes in order, all periods from 1 to the length",
  "The tests average one short series. That the averages follow a trend has to hold for every length and period, and in float64 every step rounds.",
  "indicators/ma.go:MovingAverage",
  "indicators/ma.go:ExponentialMovingAverage",
  "indicators/ma.go:SmoothedMovingAverage")
p("Orders filled in parts, in float64",
  "Two positions whose trades are the same except that some trades of the one are fills of several smaller quantities in the other, at the same price and adding up to the same quantity, in any order, have the same quantity.",
  "for all histories of trades with float64 prices and quantities within 2^-100 and 2^100 that leave both positions open, every way of dividing trades into fills",
  "The tests trade in whole units. Exchanges fill orders in parts, and whether the parts add up to the whole depends on the rounding of every addition.",
  "market/position.go:Modify",
  "market/position.go:add",
  "market/position.go:substract",
  "market/position.go:UnrealizedProfit")
p("What a closing trade books is the mark",
  "A trade that closes a position sets Profit to what UnrealizedProfit gave at the trade's price just before, bit for bit in float64, also when the quantity of the trade is not exactly that of the position; UnrealizedProfit then goes on giving what it gave before, at every price. Every other trade leaves Open, ClosePrice, CloseTime and Profit as they are. So after any history an open position has Profit zero, and a closed one the mark at the price of the trade that last closed it.",
  "for all positions, trades and histories, whatever their values",
  "The tests close a position once, with the whole quantity. Mark and booking are written twice in the code, and that they agree to the last bit has to hold for every float64 and every history.",
  "market/position.go:substract",
  "market/position.go:Modify",
  "market/position.go:UnrealizedProfit")
p("Trends survive resampling",
  "If every close of a series stands in some relation to every later one, rising or falling, strictly or not, so do the closes that ModifyInterval returns; the same for opens and times, and for highs and lows between -1e308 and 1e308. So the moving averages of a resampled series of non-negative closes that never fall never fall, in float64 too. A series whose highs and lows rise from candle to candle, or fall, has no fractal, and neither has the resampled series.",
  "for all series of two or more candles, all intervals for which ModifyInterval succeeds, all relations between prices, every time zone",
  "The tests resample one series. That no trend is broken by grouping has to hold wherever the groups begin and end.",
  "market/candle.go:ModifyInterval",
  "indicators/ma.go:MovingAverage",
  "indicators/williams_fractals.go:WilliamFractals")
p("A faster average is ahead of a slower one",
  "While the closes of a series never fall, the value of MovingAverage, ExponentialMovingAverage or SmoothedMovingAverage with a shorter period is never below the value of the same average with a longer period at the same candle; while they never rise, it is never above it.",
  "for all series with finite non-negative closes in order, all pairs of periods from 1 to the length",
  "The tests never compare two periods. Crossovers of a fast and a slow average are what these functions are used for, and the order has to hold for every pair of periods, including the warm-up of the slower one.",
  "indicators/ma.go:MovingAverage",
  "indicators/ma.go:ExponentialMovingAverage",
  "indicators/ma.go:SmoothedMovingAverage")
p("The smoothed average lags most",
  "While the closes of a series never fall, the value of SmoothedMovingAverage is never above the value of MovingAverage or ExponentialMovingAverage of the same period at the same candle; while they never rise, it is never below.",
  "for all series with finite non-negative closes in order, all periods from 1 to the length",
  "The tests never compare two kinds of averages. The order has to hold for every period and length, and whether it does depends on each close being taken at the right candle.",
  "indicators/ma.go:MovingAverage",
  "indicators/ma.go:ExponentialMovingAverage",
  "indicators/ma.go:SmoothedMovingAverage")
p("Volatility of widening candles",
  "While no candle of a series has a smaller range than one before it, ExponentialWeightedVolatility never falls as candles come in. Of two series, the one whose candles are nowhere narrower than those of the other is not less volatile, wherever its prices are.",
  "for all series of candles with finite ranges, all beta from 0 to 1, in float64 and in every lawful arithmetic",
  "The test computes one number from one series. That a market with growing ranges never looks calmer has to hold for every length and beta, with each step rounded twice.",
  "indicators/ewv.go:ExponentialWeightedVolatility")
p("Volatility with a shorter memory",
  "While no candle of a series has a smaller range than one before it, ExponentialWeightedVolatility with a smaller beta is never below the one with a greater beta.",
  "for all series of candles with finite ranges, all pairs of betas from 0 to 1",
  "The test uses one beta. That a smaller beta reacts faster has to hold for every pair of betas and every series.",
  "indicators/ewv.go:ExponentialWeightedVolatility")
p("Volatility of a resampled series",
  "When a regular series is resampled to m times its interval and the last group is full, ExponentialWeightedVolatility of the result with beta^m is not below that of the original candles with beta, except for rounding errors that do not grow with the series.",
  "for all regular series with finite highs and lows, all m, all beta from 0 to 1, in exact arithmetic and in float64",
  "The tests never put resampling and volatility together. That wider candles never hide movement has to hold for every series, every m and every beta.",
  "indicators/ewv.go:ExponentialWeightedVolatility",
  "market/candle.go:ModifyInterval")
p("What JSON does not mention is zero in a new value",
  "When JSON text is read into an Actions or a Tick and names one of its maps of structs once, the entry under a key of that map is what the text of the last member with that key gives in a variable with all fields zero, never a mixture with an entry that was there before; keys the text does not have keep their entry. A pointer that was nil (the candle and the pending actions of a tick, the pair of an order, the asset of a balance) is read the same way.",
  "for all texts, all values read into and all keys; for a tick, where no time inside the map is unreadable",
  "The tests decode no JSON. Whether an old order shines through a partial update depends on how the decoder treats maps, for every text and every old value.",
  "strategy/actions.go:Actions",
  "strategy/strategy.go:Tick",
  "market/position.go:Position",
  "market/order.go:Order")
p("Between which prices OpenPrice lies",
  "While a position is open, OpenPrice lies between the lowest and the highest price of its trades. (False of the code: a partial close takes what it brings in off the cost of what is left, so buying 10 at 10 and selling 9 at 20 leaves an OpenPrice of -80. What holds: OpenPrice leaves the range by at most the width of the range times the quantity traded against the position divided by the quantity left; with no such trade it stays inside. In float64 the same, up to rounding.)",
  "for all histories of trades with finite prices and positive quantities; float64: amounts up to 2^100, at most 2^40 trades",
  "The tests close a position at most in a few steps; how far OpenPrice strays depends on every partial close.",
  "market/position.go:NewPosition",
  "market/position.go:Position.Modify",
  "market/position.go:Position.add",
  "market/position.go:Position.substract")
p("A position gains no more than the range of the prices allows",
  "A position opened, traded and closed for its whole quantity at prices from lo to hi books a profit or loss of at most hi - lo times the units sold; if all prices are the same, none. In float64 the same holds up to rounding relative to the turnover and three times hi times the difference between Quantity and the quantity of the closing trade.",
  "for all histories of trades with finite prices and positive quantities; float64: amounts up to 2^100, at most 2^40 trades",
  "A bound on the booked profit over all histories, although OpenPrice itself leaves the range of the prices (C276).",
  "market/position.go:NewPosition",
  "market/position.go:Position.Modify",
  "market/position.go:Position.add",
  "market/position.go:Position.substract")
p("How large an overlap can be",
  "CalculateOverlap of two books that overlap returns no more than the distance from the best ask to the best bid times the volume of the crossed asks. (False of the code: if the crossed bids hold less volume, the asks that find no buyer count with their full cost: 5 units asked at 10 against 1 bid at 12 give 38. What holds: the bound, if the crossed bids hold that volume and each side has a row beyond; and in every case the best bid times the volume of the crossed asks. In float64 the same up to the rounding of C159.)",
  "for all sorted books with finite prices not below zero and finite volumes not below zero",
  "The tests check one or two pairs of books. A bound on the value of an overlap has to hold for all books, and fails for those with thin bids.",
  "market/orderbook.go:CalculateOverlap",
  "market/orderbook.go:overlapCalculation")
p("What an open position can be worth",
  "If all trades of an open position were at prices from lo to hi, UnrealizedProfit at a price x is at most x - lo for every unit bought plus hi - x for every unit sold, and not below minus hi - x for every unit bought minus x - lo for every unit sold. In float64 the same up to the rounding of C245.",
  "for all histories of trades with finite prices and positive quantities and all finite x; float64: amounts up to 2^100, at most 2^40 trades",
  "A bound on the mark over all histories with partial closes and rejected trades; reached with equality by simple ones.",
  "market/position.go:Position.UnrealizedProfit",
  "market/position.go:NewPosition",
  "market/position.go:Position.Modify")
p("How fast an average can move",
  "From one value to the next, MovingAverage and SmoothedMovingAverage of candles whose closes lie between lo and hi move by at most (hi - lo) / period, ExponentialMovingAverage by at most 2 (hi - lo) / (period + 1). In float64 the same holds up to twice the rounding errors bounded in C107 and C108.",
  "for all lists of candles with finite closes, all bounds lo and hi around them and all periods from 1 to the number of candles (float64: closes up to 2^900 in magnitude, periods up to 2^47)",
  "A test sees the steps of a few series; the claim bounds every step of every series.",
  "indicators/ma.go:MovingAverage",
  "indicators/ma.go:ExponentialMovingAverage",
  "indicators/ma.go:SmoothedMovingAverage")
p("Trading at one price",
  "When all trades of a position are at one price, that is its OpenPrice, and closing it at that price for its whole quantity brings a Profit of zero. Holds instead: this is so without rounding; in float64 buying 3 and selling 2 at 5 gives an OpenPrice of 5.000000000000001 and selling the last one at 5 a loss of 8.9e-16. The error stays within the rounding bounds of C276 and C277.",
  "for all positions opened by a buy or sell, all histories of Modify calls and all closing trades with finite, positive prices and quantities (float64: magnitudes as in C111, up to 2^40 trades)",
  "A test tries a few quantities; whether the price survives depends on how the quotients round.",
  "market/position.go:Modify",
  "market/position.go:add",
  "market/position.go:substract")
p("What one more candle does to the volatility",
  "One more candle moves ExponentialWeightedVolatility by 1 - beta times the difference between the candle's range (high minus low) and the volatility before it: towards that range, not past it, and by at most (1 - beta) M when all ranges lie between 0 and M. In float64 the same holds up to two rounding errors as bounded in C109, whatever the number of candles.",
  "for all lists of candles with finite highs not below their lows, all further candles and all beta from 0 to 1 (float64: ranges up to 2^900, beta at most 1 - 2^-48)",
  "A test appends one candle to a few series; the claim covers every series and every candle, and an error that does not grow with the length.",
  "indicators/ewv.go:ExponentialWeightedVolatility")
p("What PairMappings holds",
  "PairMappings has exactly 1951 keys. Its pairs are priced in 31 assets, with a fixed number of pairs in each (396 in BTC, 391 in USDT, and so on down to one each in DOGE and DOT). Every asset of PairMappings other than BTC can be exchanged for BTC through a pair with BTC or through one asset in between.",
  "for all keys, pairs and symbols of PairMappings",
  "A test looks up some symbols; the claim is about all strings, including those that are not keys.",
  "market/pair_mappings.go:PairMappings")
p("RSI above and below 50",
  "An RSI that is a number is above 50 exactly when the last close of its window is above the first, and below 50 exactly when it is below: it is 50 plus 50 times the way from the first close to the last, divided by all the way the closes went up and down. Holds instead: this is so without rounding; in float64 closes of 0, 10^9 and then 1 on and on have an RSI of exactly 50. The value is within 0.00001 of the formula, so it is on the right side of 50 whenever the net way is more than a five-millionth of the whole way.",
  "for all lists of at least 14 candles with finite closes and spare capacity behind them, all periods up to their number and all windows (float64: closes up to 2^900 in magnitude, periods below 2^20)",
  "Tests compare a few values; the claim ties every value to the two ends of its window.",
  "indicators/rsi.go:RSI",
  "indicators/rsi.go:calculateRSI")
p("When an average rises",
  "From one value to the next MovingAverage rises exactly when the close that enters its window is above the one that leaves it, and ExponentialMovingAverage and SmoothedMovingAverage exactly when the next close is above the value before; they fall exactly when it is below. Holds instead: this is so without rounding; in float64 a close of 1.0000000000000002 after closes of 1 changes none of the averages of period 2. The steps are within twice the errors of C107 and C108 of what they are without rounding.",
  "for all lists of candles with finite closes, all periods from 1 to their number and all neighbouring values (float64: closes up to 2^900 in magnitude, periods up to 2^47)",
  "Tests compare a few values; the claim ties the direction of every step to two numbers.",
  "indicators/ma.go:MovingAverage",
  "indicators/ma.go:ExponentialMovingAverage",
  "indicators/ma.go:SmoothedMovingAverage")
p("Trades divided among positions",
  "However the same trades are divided among positions, in whatever order, if every position is closed at the end then the sum of the Profits is the same, without rounding, when each is closed by a trade of exactly its open quantity. In float64 the sums differ by at most the errors of C112 of all the positions.",
  "for all two lists of closed positions whose applied trades are the same up to order (float64: prices up to 2^100, quantities 2^-100 to 2^100, up to 2^40 trades in a position)",
  "Tests follow one position at a time; the claim relates any two ways of keeping the same trades.",
  "market/position.go:NewPosition",
  "market/position.go:Position.Modify",
  "market/position.go:Position.add",
  "market/position.go:Position.substract")
p("What several positions make together",
  "The UnrealizedProfits of open positions at one price and the Profits of closed ones add up to the money of all their trades plus their units at that price, without rounding, when each closed one is closed by a trade of exactly its open quantity; so however the same trades are divided among positions, open or closed, the total is the same at every price. In float64 the totals differ by at most the errors of C245 and C112 of all the positions and the units the closing trades left over.",
  "for all two collections of open and closed positions whose applied trades are the same up to order, and all finite prices (float64: prices up to 2^100, quantities 2^-100 to 2^100, up to 2^40 trades in a position)",
  "Tests follow one position at a time; the claim relates any two ways of keeping the same trades at any price.",
  "market/position.go:NewPosition",
  "market/position.go:Position.Modify",
  "market/position.go:Position.add",
  "market/position.go:Position.substract",
  "market/position.go:Position.UnrealizedProfit")
p("What the text of a position tells",
  "Two positions whose String is the same agree on the first eight bytes of the ID, on Type, the symbols of the pair, OpenTime, CloseTime, the number of trades and on whether they are open, and differ by at most 0.01 in prices and profit and 0.0001 in quantity. Two Tickers with the same String have the same time and numbers within 0.000001, two BalanceSnapshots numbers within 0.000001, two OrderRequests the same action, type and symbols and numbers within 0.0001, two WilliamFractals the same time and kind and prices within 0.000001.",
  "for all two values, where the words of a position or request have no character of the labels (no space in the type and action, no / in the base symbol, no line feed in the quote symbol), position IDs are at least 8 bytes, and positions' times have four-digit years in a zone of whole minutes whose abbreviation has no l or #",
  "Tests print a few values; the claim is that no two values that differ by more are ever printed alike.",
  "market/position.go:Position.String",
  "market/ticker.go:Ticker.String",
  "market/balances.go:BalanceSnapshot.String",
  "market/order_request.go:OrderRequest.String",
  "indicators/williams_fractals.go:WilliamFractal.String")
p("What the texts of orders and trades tell",
  "Two Orders whose String is the same agree on ID, action, type, the symbols of the pair (or that there is none), status, OpenTime and CloseTime, and differ by at most 0.0001 in price, volumes, fee and cost. Two Trades whose String is the same agree on ID, ExecutionTime, action, type and pair, and differ by at most 0.01 in price, fee and cost and 0.0001 in quantity.",
  "for all two orders whose words have no | (and no / in the base symbol), and all two trades whose ID, action and type have no space, and whose assets have no } and no space in the symbols; times have four-digit years in a zone of whole minutes whose abbreviation has no |, line feed or c",
  "Tests print a few values; the claim is that no two orders or trades that differ by more are ever printed alike.",
  "market/order.go:Order.String",
  "market/trade.go:Trade.String")
p("What the texts of balances tell",
  "Two Balances whose String is the same are of assets with the same name and symbol and differ by at most 0.000001 in amount; two AssetsSnapshots whose String is the same list exactly the same amounts of the same assets in the same order, and their times differ by at most 0.000001; two PositionCloseOrders whose String is the same have the same OrderID, and prices within 0.000001.",
  "for all two values whose asset names have no : and symbols no line feed (in a snapshot, names also no <, and amounts are float64 values), any lawful semantics and any good choice of shortest digits",
  "Tests print a few values; the claim is that no two values that differ by more are ever printed alike.",
  "market/balances.go:Balance.String",
  "market/balances.go:AssetsSnapshot.String",
  "market/position.go:PositionCloseOrder.String")
json_lines="\n".join(json.dumps(x,ensure_ascii=False) for x in P)+"\n"
open("/verif/properties.jsonl","w").write(json_lines)
print(len(P))
