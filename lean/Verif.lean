import Verif.Go.Float
import Verif.Go.IEEE
import Verif.Go.Basic
import Verif.Model.OrderBook
import Verif.Spec.OrderBook
import Verif.Props.BookNew
import Verif.Props.BookUpdate
import Verif.Props.BookHistory
import Verif.Props.BookDepth
import Verif.Props.BookOverlap
import Verif.Model.Candle
import Verif.Spec.Candle
import Verif.Props.CandleGroups
import Verif.Props.CandleRegular
import Verif.Props.CandleCompose
import Verif.Props.CandleFloat
import Verif.Props.BookMore
import Verif.Props.CandleSpacing
import Verif.Model.Position
import Verif.Conform.Position
import Verif.Spec.Position
import Verif.Props.PositionMoney
import Verif.Props.PositionRules
import Verif.Model.Order
import Verif.Model.Asset
import Verif.Model.PairMappings
import Verif.Conform.Order
import Verif.Props.Orders
import Verif.Props.Assets
import Verif.Model.Averages
import Verif.Conform.Averages
import Verif.Spec.Averages
import Verif.Props.Averages
import Verif.Props.Volatility
import Verif.Model.RSI
import Verif.Spec.RSI
import Verif.Props.RSI
import Verif.Model.Fractals
import Verif.Conform.Fractals
import Verif.Spec.Fractals
import Verif.Props.Fractals
import Verif.Go.Map
import Verif.Model.Actions
import Verif.Spec.Actions
import Verif.Props.Actions
import Verif.Model.Records
import Verif.Props.Records
import Verif.Model.Tick
import Verif.Props.Tick
import Verif.Model.Strings
import Verif.Props.Strings
import Verif.Model.Date
import Verif.Spec.Date
import Verif.Props.Date
import Verif.Go.Text
import Verif.Lemmas.Text
import Verif.Lemmas.Shortest
import Verif.Model.CandleFile
import Verif.Conform.Candle
import Verif.Conform.CandleFile
import Verif.Spec.CandleFile
import Verif.Lemmas.CandleFile
import Verif.Props.CandleFile
import Verif.Go.Heap
import Verif.Model.HeapBook
import Verif.Spec.HeapBook
import Verif.Lemmas.HeapBook
import Verif.Props.HeapBook
import Verif.Model.HeapPosition
import Verif.Props.HeapPosition
import Verif.Props.IEEE
import Verif.Lemmas.Err
import Verif.Props.Accuracy
import Verif.Props.RSIAccuracy
import Verif.Lemmas.PosErr
import Verif.Props.PositionAccuracy
import Verif.Props.FractalOrder
import Verif.Props.MarkFloat
import Verif.Props.AvgMono
import Verif.Props.DepthMore
import Verif.Props.Texts
import Verif.Props.BookExact
import Verif.Props.CandleExact
import Verif.Props.OverlapExact
import Verif.Props.MoreExact
import Verif.Props.FractalExact
import Verif.Props.AccumExact
import Verif.Props.SmallExact
import Verif.Props.PositionPath
import Verif.Props.CandleSpan
import Verif.Props.CopyExact
import Verif.Lemmas.QuotRound
import Verif.Props.SmmaMono
import Verif.Props.BookMirror
import Verif.Props.CandleStream
import Verif.Props.BookCopy
import Verif.Props.RSIMore
import Verif.Props.LimitedExact
import Verif.Props.BookRelabel
import Verif.Props.PositionUnits
import Verif.Lemmas.IndexFloat
import Verif.Props.VolatilityMore
import Verif.Props.CandleRelabel
import Verif.Props.Fused
import Verif.Props.FusedPosition
import Verif.Props.OverlapFloat
import Verif.Props.PositionRecord
import Verif.Props.Json
import Verif.Props.JsonLayout
import Verif.Props.JsonRead
import Verif.Props.RecordKeys
import Verif.Props.JsonTime
import Verif.Model.JsonActions
import Verif.Lemmas.JsonMap
import Verif.Props.JsonActions
import Verif.Props.JsonActionsRead
import Verif.Props.JsonLists
import Verif.Props.JsonBytes
import Verif.Props.JsonRecords
import Verif.Props.JsonRecordMaps
import Verif.Props.JsonByteText
import Verif.Lemmas.ShortestBest
import Verif.Props.JsonText
import Verif.Props.JsonGrammar
import Verif.Props.JsonErrors
import Verif.Model.JsonFractal
import Verif.Props.JsonFractal
import Verif.Go.Fixed
import Verif.Model.StringsGo
import Verif.Props.Printed
import Verif.Props.PrintedBook
import Verif.Model.TimeString
import Verif.Props.PrintedTime
import Verif.Props.Forget
import Verif.Props.NaNSpread
import Verif.Props.NaNBook
import Verif.Props.Restart
import Verif.Props.BookUnits
import Verif.Props.StableSort
import Verif.Props.CandleScan
import Verif.Model.Errors
import Verif.Lemmas.Errors
import Verif.Props.Errors
import Verif.Props.ErrorMessages
import Verif.Model.Nil
import Verif.Props.Nil
import Verif.Model.MachineInt
import Verif.Props.MachineInt
import Verif.Model.Shared
import Verif.Lemmas.Shared
import Verif.Props.Shared
import Verif.Props.Overflow
import Verif.Props.Extremes
import Verif.Props.CandleRace
import Verif.Props.CandleSavers
import Verif.Props.BookThreads
import Verif.Props.TimeRead
import Verif.Props.CandleExtremes
import Verif.Props.BookConverge
import Verif.Props.OverlapExtremes
import Verif.Props.RoundTrip
import Verif.Props.FieldsRead
import Verif.Props.FieldsUsed
import Verif.Props.ResampleFile
import Verif.Props.OverlapLocal
import Verif.Props.Superpose
import Verif.Props.BookHeal
import Verif.Props.FractalResample
import Verif.Props.BookFeeds
import Verif.Props.CandleSaversCut
import Verif.Props.BookMake
import Verif.Props.PositionThreads
import Verif.Props.PositionShare
import Verif.Props.Known
import Verif.Props.HeapActions
import Verif.Props.BookShare
import Verif.Props.ActionThreads
import Verif.Props.SharedLive
import Verif.Props.FractalsLive
import Verif.Props.IntervalHeap
import Verif.Props.IntervalLive
import Verif.Props.SharedFields
import Verif.Props.MarkHistory
import Verif.Props.IntervalGaps
import Verif.Props.IntervalJoin
import Verif.Props.IntervalZone
import Verif.Props.IndicatorParts
import Verif.Props.FileJoin
import Verif.Props.OrderFloat
import Verif.Props.NewestFirst
import Verif.Props.ProfitFees
import Verif.Props.CandleTwice
import Verif.Props.FractalTwice
import Verif.Props.TradeTwice
import Verif.Props.PrintPtr
import Verif.Props.PriceTwice
import Verif.Props.OverlapAfter
import Verif.Props.OtherSign
import Verif.Props.RSIUnits
import Verif.Props.SuperposeFloat
import Verif.Props.TakenBack
import Verif.Props.FractalSpacing
import Verif.Props.ZeroTrade
import Verif.Props.Trend
import Verif.Props.FillsFloat
import Verif.Props.BookedMark
import Verif.Props.TrendResample
import Verif.Props.Faster
import Verif.Props.Lagging
import Verif.Props.Widening
import Verif.Props.Memory
import Verif.Props.VolatilityResample
import Verif.Props.JsonFresh
import Verif.Props.OpenPriceRange
import Verif.Props.ProfitRange
import Verif.Props.OverlapBound
import Verif.Props.MarkRange
import Verif.Props.Slowness
import Verif.Props.OnePrice
import Verif.Props.VolatilityStep
import Verif.Props.Quotes
import Verif.Props.RSIMiddle
import Verif.Props.Direction
import Verif.Props.Divided
import Verif.Props.DividedMark
import Verif.Props.PrintedPosition
import Verif.Props.PrintedOrder
import Verif.Props.PrintedBalance
