import Verif.Props.NamePath
import Verif.Props.Changed
import Verif.Props.Catalog
import Verif.Props.Driver
import Verif.Props.Engine
import Verif.Props.EngineScripts
import Verif.Props.Params
import Verif.Props.Prepared
import Verif.Props.TimestampText
import Verif.Props.Logic
import Verif.Props.Merge
import Verif.Props.Like
import Verif.Props.Registry
import Verif.Props.Arith
import Verif.Props.OrderBy
import Verif.Props.Aggregate
import Verif.Props.AggOptions
import Verif.Props.Window
import Verif.Props.WindowNav
import Verif.Props.WindowRank
import Verif.Props.WindowRange
import Verif.Props.DateArith
import Verif.Props.DateTrunc
import Verif.Props.DateDiff
import Verif.Props.DateFields
import Verif.Props.TimeZone
import Verif.Props.Interval
import Verif.Props.StringCut
import Verif.Props.StringTrim
import Verif.Props.StringSplit
import Verif.Props.StringText
import Verif.Props.Translate
import Verif.Props.StringSearch
import Verif.Props.Arrays
import Verif.Props.DateArrays
import Verif.Props.Bucket
import Verif.Props.Net
import Verif.Props.Bits
import Verif.Props.Numeric
import Verif.Props.NullKeys
import Verif.Props.Udf
import Verif.Props.Wildcard
import Verif.Props.Codec
import Verif.Props.TruncLong
import Verif.Props.Cast
import Verif.Props.Rows
import Verif.Props.Literal
import Verif.Props.Current
import Verif.Props.TypeSpec
import Verif.Props.Format
import Verif.Props.TimeFormat
import Verif.Props.TimeElements
import Verif.Props.TimeZoneText
import Verif.Model.Query
import Verif.Model.Schema
import Verif.Lemmas.Query
import Verif.Lemmas.QueryCore
import Verif.Lemmas.QuerySelect
import Verif.Lemmas.QueryNode
import Verif.Lemmas.QueryJoin
import Verif.Lemmas.QueryArray
import Verif.Lemmas.QueryAgg
import Verif.Lemmas.QueryGsets
import Verif.Lemmas.QueryWin
import Verif.Lemmas.QuerySound
import Verif.Lemmas.QueryText
import Verif.Props.Query
import Verif.Props.QueryMore
import Verif.Props.QueryNames
import Verif.Props.QueryOrder
import Verif.Props.QueryRows
import Verif.Props.QuerySets
import Verif.Props.QueryWindow
import Verif.Model.Approx
import Verif.Props.Approx
import Verif.Props.ApproxTop
import Verif.Props.ApproxStat
import Verif.Props.ToJson
import Verif.Props.ToJsonInj
import Verif.Model.JsonFuncs
import Verif.Props.JsonFuncs
import Verif.Props.Schema
import Verif.Model.Dml
import Verif.Lemmas.QueryCongr
import Verif.Lemmas.Dml
import Verif.Props.Dml
import Verif.Props.Float
import Verif.Lemmas.F64Exact
import Verif.Model.WindowStat
import Verif.Props.WindowStat
import Verif.Props.Percentile
import Verif.Props.PercentileDisc
import Verif.Model.WindowAgg
import Verif.Props.WindowAgg
import Verif.Props.WindowText
import Verif.Props.WindowVar
import Verif.Go.RegexpEngine
import Verif.Model.Regexps
import Verif.Spec.Regexps
import Verif.Props.Regexps
import Verif.Props.RegexpReplace
import Verif.Model.Words
import Verif.Lemmas.Utf8Decode
import Verif.Props.Words
import Verif.Props.WordBytes
import Verif.Model.Concurrent
import Verif.Props.ConcurrentAlone
import Verif.Props.Concurrent
import Verif.Props.ConcurrentCalls
import Verif.Props.Crash
import Verif.Go.Netip
import Verif.Spec.Ipv6
import Verif.Props.Ipv6
import Verif.Props.Ipv6Text
import Verif.Spec.CatalogLives
import Verif.Lemmas.CatalogLives
import Verif.Props.CatalogLives
import Verif.Props.CatalogOther
import Verif.Props.EngineCalls
import Verif.Go.RatScan
import Verif.Model.ParseNumeric
import Verif.Props.ParseNumeric
import Verif.Model.NetHost
import Verif.Props.NetHost
import Verif.Model.JavaScript
import Verif.Props.JavaScript
import Verif.Model.View
import Verif.Props.View
import Verif.Props.IfNotExists
import Verif.Props.CurrentStored
import Verif.Model.Templated
import Verif.Props.Templated
import Verif.Model.FloatAgg
import Verif.Props.FloatAgg
import Verif.Model.NumericFuncs
import Verif.Props.NumericFuncs
import Verif.Go.Location
import Verif.Model.Zoned
import Verif.Props.Zoned
import Verif.Model.Structs
import Verif.Props.Structs
import Verif.Model.AggCall
import Verif.Props.AggCall
import Verif.Model.Blank
import Verif.Props.Blank
import Verif.Model.Nulls
import Verif.Props.Nulls
import Verif.Model.WindowArgs
import Verif.Props.WindowArgs
import Verif.Model.Truncate
import Verif.Props.Truncate
import Verif.Model.Result
import Verif.Props.Result
import Verif.Model.Cursors
import Verif.Props.Cursors
import Verif.Model.Keys
import Verif.Props.Keys
import Verif.Props.WindowRankExact
import Verif.Props.WindowStatExact
import Verif.Props.LikeExact
import Verif.Model.LikeVal
import Verif.Props.LikeBytes
import Verif.Props.LogicExact
import Verif.Props.WindowRowsExact
import Verif.Props.TimestampExact
import Verif.Props.WindowCumeExact
import Verif.Props.ParamsExact
import Verif.Props.WindowAvgExact
import Verif.Props.WindowNavExact
import Verif.Props.WindowReversed
import Verif.Props.WindowRangeExact
import Verif.Props.MapParams
import Verif.Model.JsonField
import Verif.Props.JsonField
import Verif.Model.Hash
import Verif.Props.Hash
import Verif.Go.Unquote
import Verif.Model.BytesLit
import Verif.Props.BytesLit
import Verif.Model.MathFuncs
import Verif.Props.MathFuncs
import Verif.Model.Normalize
import Verif.Props.Normalize
import Verif.Model.FloatCodec
import Verif.Props.FloatCodec
import Verif.Model.Assign
import Verif.Props.Assign
import Verif.Props.CastNumeric
import Verif.Props.StringTrimText
import Verif.Props.Once
import Verif.Props.Constraints
import Verif.Props.Printable
import Verif.Props.PrintableText
import Verif.Props.WildcardText
import Verif.Props.WithText
import Verif.Props.CastFormat
import Verif.Props.OrderCollate
import Verif.Props.TypeParams
import Verif.Props.GroupKey
import Verif.Props.Args
import Verif.Props.Ansic
import Verif.Props.SplitEmpty
import Verif.Props.Corr
import Verif.Props.WindowStddev
import Verif.Props.Memory
import Verif.Props.Pool
import Verif.Props.Quantiles
import Verif.Props.RowsInts
