import Verif.Model.Align
import Verif.Model.Apply
import Verif.Model.AttrResolver
import Verif.Model.Broadcasting
import Verif.Model.Caching
import Verif.Model.CallSeq
import Verif.Model.Callback
import Verif.Model.Combine
import Verif.Model.Config
import Verif.Model.ConfigHeap
import Verif.Model.ConfigOps
import Verif.Model.ConfigReset
import Verif.Model.Data
import Verif.Model.DatetimeUtils
import Verif.Model.DeepEqual
import Verif.Model.DeepGetattr
import Verif.Model.Double
import Verif.Model.Download
import Verif.Model.DrawdownStats
import Verif.Model.Engine
import Verif.Model.Factory
import Verif.Model.Flex
import Verif.Model.FlexSim
import Verif.Model.Float
import Verif.Model.FromSignals
import Verif.Model.Gbm
import Verif.Model.Generic
import Verif.Model.Grouping
import Verif.Model.IndexFns
import Verif.Model.Indexing
import Verif.Model.IndicatorRuns
import Verif.Model.Indicators
import Verif.Model.Labels
import Verif.Model.MappedArray
import Verif.Model.Mapping
import Verif.Model.Math
import Verif.Model.Order
import Verif.Model.OrderCallbacks
import Verif.Model.ParamCombs
import Verif.Model.Params
import Verif.Model.PnlMarkers
import Verif.Model.Portfolio
import Verif.Model.RandomPlan
import Verif.Model.RandomSignals
import Verif.Model.RangeStats
import Verif.Model.Ratios
import Verif.Model.Recon
import Verif.Model.Records
import Verif.Model.Reductions
import Verif.Model.Regroup
import Verif.Model.RowIndexing
import Verif.Model.RustColumns
import Verif.Model.RustGeneric
import Verif.Model.RustIndicators
import Verif.Model.RustLabels
import Verif.Model.RustOrder
import Verif.Model.RustRandom
import Verif.Model.RustRecon
import Verif.Model.RustRecords
import Verif.Model.RustReductions
import Verif.Model.RustReturns
import Verif.Model.RustSignalGen
import Verif.Model.RustSignals
import Verif.Model.RustSim
import Verif.Model.RustTrades
import Verif.Model.Schedule
import Verif.Model.SelectOne
import Verif.Model.SignalRules
import Verif.Model.SignalSim
import Verif.Model.SignalStats
import Verif.Model.Signals
import Verif.Model.Sim
import Verif.Model.Splitters
import Verif.Model.StatsBuilder
import Verif.Model.SymThresholds
import Verif.Model.Template
import Verif.Model.TimeOfDay
import Verif.Model.TradeStats
import Verif.Model.Trades
import Verif.Model.TrendLabels
import Verif.Model.Unstack
import Verif.Model.WrapArray
import Verif.Spec.Account
import Verif.Spec.Apply
import Verif.Spec.Books
import Verif.Spec.Broadcast
import Verif.Spec.Broadcasting
import Verif.Spec.Calls
import Verif.Spec.Columns
import Verif.Spec.Config
import Verif.Spec.ConfigOps
import Verif.Spec.ConfigSession
import Verif.Spec.Conflicts
import Verif.Spec.DrawdownSeries
import Verif.Spec.Drawdowns
import Verif.Spec.Drift
import Verif.Spec.Engine
import Verif.Spec.EngineRuns
import Verif.Spec.EngineSignals
import Verif.Spec.Engines
import Verif.Spec.Factory
import Verif.Spec.Fill
import Verif.Spec.Group
import Verif.Spec.Holding
import Verif.Spec.IndexFns
import Verif.Spec.Labels
import Verif.Spec.Ledger
import Verif.Spec.MappedRows
import Verif.Spec.Mapping
import Verif.Spec.Order
import Verif.Spec.Outcome
import Verif.Spec.Params
import Verif.Spec.RandomSignals
import Verif.Spec.Ratios
import Verif.Spec.Regroup
import Verif.Spec.Requested
import Verif.Spec.RustColumns
import Verif.Spec.RustGeneric
import Verif.Spec.RustRecon
import Verif.Spec.RustRecords
import Verif.Spec.RustReductions
import Verif.Spec.RustReturns
import Verif.Spec.RustTrades
import Verif.Spec.Seen
import Verif.Spec.Selection
import Verif.Spec.SignalOrders
import Verif.Spec.SignalStats
import Verif.Spec.Signals
import Verif.Spec.StopExits
import Verif.Spec.TradeStats
import Verif.Spec.Trades
import Verif.Spec.Unstack
import Verif.Spec.Window
import Verif.Lemmas.Apply
import Verif.Lemmas.Broadcasting
import Verif.Lemmas.CallSeq
import Verif.Lemmas.Callback
import Verif.Lemmas.Calls
import Verif.Lemmas.Double
import Verif.Lemmas.Drift
import Verif.Lemmas.DriftRecon
import Verif.Lemmas.Engine
import Verif.Lemmas.Factory
import Verif.Lemmas.FactoryRuns
import Verif.Lemmas.Float
import Verif.Lemmas.FloatOrder
import Verif.Lemmas.FreeCash
import Verif.Lemmas.Holding
import Verif.Lemmas.IndexFns
import Verif.Lemmas.Indexing
import Verif.Lemmas.Ledger
import Verif.Lemmas.LocalSegment
import Verif.Lemmas.LocalSteps
import Verif.Lemmas.MappedArray
import Verif.Lemmas.Mapping
import Verif.Lemmas.Order
import Verif.Lemmas.OrderCallbacks
import Verif.Lemmas.OrderNum
import Verif.Lemmas.OrderNum2
import Verif.Lemmas.OrderNum3
import Verif.Lemmas.PositionColumns
import Verif.Lemmas.Positions
import Verif.Lemmas.RandomPairs
import Verif.Lemmas.RandomSignals
import Verif.Lemmas.Ratios
import Verif.Lemmas.Recon
import Verif.Lemmas.Regroup
import Verif.Lemmas.Requested
import Verif.Lemmas.RustColApply
import Verif.Lemmas.RustColMap
import Verif.Lemmas.RustColMask
import Verif.Lemmas.RustColumns
import Verif.Lemmas.RustDeviations
import Verif.Lemmas.RustGeneric
import Verif.Lemmas.RustGroups
import Verif.Lemmas.RustIndicators
import Verif.Lemmas.RustLabels
import Verif.Lemmas.RustOrder
import Verif.Lemmas.RustRandom
import Verif.Lemmas.RustRatios
import Verif.Lemmas.RustRecon
import Verif.Lemmas.RustRecords
import Verif.Lemmas.RustReductions
import Verif.Lemmas.RustReturns
import Verif.Lemmas.RustSignalGen
import Verif.Lemmas.RustSignalRanges
import Verif.Lemmas.RustSignalRuns
import Verif.Lemmas.RustSignals
import Verif.Lemmas.RustSim
import Verif.Lemmas.RustSimDiv
import Verif.Lemmas.RustTrades
import Verif.Lemmas.RustTrends
import Verif.Lemmas.Scan
import Verif.Lemmas.Seen
import Verif.Lemmas.Selection
import Verif.Lemmas.SigSim
import Verif.Lemmas.SigTwin
import Verif.Lemmas.SigWitness
import Verif.Lemmas.SignalStats
import Verif.Lemmas.Signals
import Verif.Lemmas.Sim
import Verif.Lemmas.Simulated
import Verif.Lemmas.Snap
import Verif.Lemmas.Sound
import Verif.Lemmas.SubPortfolio
import Verif.Lemmas.Timeline
import Verif.Lemmas.TradeColumns
import Verif.Lemmas.TradeDivisions
import Verif.Lemmas.Trades
import Verif.Lemmas.Twin
import Verif.Lemmas.TwoRuns
import Verif.Lemmas.Unstack
import Verif.Lemmas.Valid
import Verif.Lemmas.Window
import Verif.Lemmas.Witness
import Verif.Props.C01
import Verif.Props.C02
import Verif.Props.C03
import Verif.Props.C04
import Verif.Props.C05
import Verif.Props.C06
import Verif.Props.C07
import Verif.Props.C08
import Verif.Props.C09
import Verif.Props.C10
import Verif.Props.C100
import Verif.Props.C101
import Verif.Props.C102
import Verif.Props.C103
import Verif.Props.C104
import Verif.Props.C105
import Verif.Props.C106
import Verif.Props.C107
import Verif.Props.C107Args
import Verif.Props.C108
import Verif.Props.C109
import Verif.Props.C11
import Verif.Props.C110
import Verif.Props.C111
import Verif.Props.C112
import Verif.Props.C113
import Verif.Props.C114
import Verif.Props.C115
import Verif.Props.C116
import Verif.Props.C117
import Verif.Props.C118
import Verif.Props.C119
import Verif.Props.C12
import Verif.Props.C120
import Verif.Props.C121
import Verif.Props.C122
import Verif.Props.C123
import Verif.Props.C124
import Verif.Props.C125
import Verif.Props.C13
import Verif.Props.C14
import Verif.Props.C15
import Verif.Props.C16
import Verif.Props.C17
import Verif.Props.C18
import Verif.Props.C18Within
import Verif.Props.C19
import Verif.Props.C19Within
import Verif.Props.C20
import Verif.Props.C21
import Verif.Props.C22
import Verif.Props.C23
import Verif.Props.C24
import Verif.Props.C25
import Verif.Props.C26
import Verif.Props.C27
import Verif.Props.C28
import Verif.Props.C29
import Verif.Props.C30
import Verif.Props.C31
import Verif.Props.C32
import Verif.Props.C33
import Verif.Props.C34
import Verif.Props.C35
import Verif.Props.C36
import Verif.Props.C37
import Verif.Props.C38
import Verif.Props.C39
import Verif.Props.C40
import Verif.Props.C41
import Verif.Props.C41Groups
import Verif.Props.C42
import Verif.Props.C43
import Verif.Props.C44
import Verif.Props.C45
import Verif.Props.C46
import Verif.Props.C47
import Verif.Props.C48
import Verif.Props.C49
import Verif.Props.C50
import Verif.Props.C51
import Verif.Props.C51Heap
import Verif.Props.C52
import Verif.Props.C52Heap
import Verif.Props.C52Session
import Verif.Props.C53
import Verif.Props.C53Tree
import Verif.Props.C54
import Verif.Props.C55
import Verif.Props.C56
import Verif.Props.C57
import Verif.Props.C58
import Verif.Props.C59
import Verif.Props.C59Extrema
import Verif.Props.C60
import Verif.Props.C61
import Verif.Props.C62
import Verif.Props.C63
import Verif.Props.C64
import Verif.Props.C65
import Verif.Props.C66
import Verif.Props.C67
import Verif.Props.C68
import Verif.Props.C69
import Verif.Props.C70
import Verif.Props.C71
import Verif.Props.C72
import Verif.Props.C73
import Verif.Props.C74
import Verif.Props.C74Within
import Verif.Props.C75
import Verif.Props.C76
import Verif.Props.C77
import Verif.Props.C78
import Verif.Props.C79
import Verif.Props.C80
import Verif.Props.C80Combs
import Verif.Props.C81
import Verif.Props.C82
import Verif.Props.C83
import Verif.Props.C84
import Verif.Props.C85
import Verif.Props.C86
import Verif.Props.C87
import Verif.Props.C88
import Verif.Props.C88Ewm
import Verif.Props.C88Std
import Verif.Props.C89
import Verif.Props.C90
import Verif.Props.C91
import Verif.Props.C92
import Verif.Props.C93
import Verif.Props.C94
import Verif.Props.C95
import Verif.Props.C96
import Verif.Props.C96Trends
import Verif.Props.C97
import Verif.Props.C98
import Verif.Props.C99
