import Verif.Num
import Verif.Kernel
import Verif.Line
import Verif.Spec.Lines
import Verif.Lemmas.Rep
import Verif.Spec.Basic
import Verif.Lemmas.Ewm
import Verif.Lemmas.Calc
import Verif.Lemmas.Causal
import Verif.Expr
import Verif.Props.Lines
import Verif.Holder
import Verif.Props.Lines2
import Verif.Ind.Core
import Verif.Lemmas.Ewm2
import Verif.Spec.Ma
import Verif.Lemmas.Avg
import Verif.Lemmas.Mas
import Verif.Props.Ma
import Verif.Spec.Osc
import Verif.Lemmas.Osc
import Verif.Props.Osc
import Verif.Lemmas.Cum
import Verif.Props.Price
import Verif.Lemmas.Ranges
import Verif.Props.Dm
import Verif.Spec.Stat
import Verif.Lemmas.Stat
import Verif.Props.Stat
import Verif.Props.Cross
import Verif.Spec.Sar
import Verif.Props.Sar
import Verif.Props.Index
import Verif.Props.Kama
import Verif.Ind.Ht
import Verif.Spec.Ht
import Verif.Lemmas.Ht
import Verif.Props.Ht
import Verif.Props.More
import Verif.Props.Mama
import Verif.Meta.Py
import Verif.Meta.Inputs
import Verif.Meta.Errors
import Verif.Props.Inputs
import Verif.Meta.Params
import Verif.Props.Params
import Verif.Meta.LineDefs
import Verif.Props.LineDefs
import Verif.Meta.Table
import Verif.Meta.Registry
import Verif.Props.Registry
import Verif.Meta.Call
import Verif.Meta.Settings
import Verif.Props.Call
import Verif.Props.Library
import Verif.Props.Edit
import Verif.Heap
import Verif.Props.Heap
import Verif.Ind.Catalog
import Verif.Lemmas.Rel
import Verif.Lemmas.RelInst
import Verif.Spec.Catalog
import Verif.Props.Catalog
import Verif.Spec.Formula
import Verif.Props.Missing
import Verif.Props.General
import Verif.Spec.Unit
import Verif.Lemmas.Natural
import Verif.Lemmas.Scale
import Verif.Lemmas.Units
import Verif.Lemmas.Units2
import Verif.Lemmas.Units3
import Verif.Props.Unit
import Verif.Props.Level
import Verif.Align
import Verif.Props.Align
import Verif.Spec.Mirror
import Verif.Lemmas.Sign
import Verif.Lemmas.Mirror
import Verif.Lemmas.Mirror2
import Verif.Lemmas.Mirror3
import Verif.Lemmas.Mirror4
import Verif.Lemmas.Mirror5
import Verif.Props.Mirror
import Verif.Props.Signals
import Verif.Meta.Result
import Verif.Props.Result
import Verif.LineMore
import Verif.WinObj
import Verif.Props.LineMore
import Verif.Props.Columns
import Verif.Lemmas.Late
import Verif.Props.Late
import Verif.Meta.Query
import Verif.Props.Query
import Verif.Props.Module
import Verif.Meta.ParamsObj
import Verif.Props.ParamsObj
import Verif.Props.Memory
import Verif.Props.Memory2
import Verif.LineStd
import Verif.Props.Std
import Verif.Float
import Verif.Lemmas.Rounding
import Verif.Lemmas.Flt
import Verif.Props.Rounding
import Verif.Lemmas.HtNan
import Verif.Lemmas.HtCausal
import Verif.Props.HtNan
import Verif.Spec.Need
import Verif.Lemmas.Need
import Verif.Props.Need
import Verif.Props.Short
import Verif.Props.Scipy
import Verif.Lemmas.Checked
import Verif.Meta.Life
import Verif.Spec.Life
import Verif.Props.Life
import Verif.Props.Access
import Verif.Props.Spread
import Verif.Props.RoundingMfi
import Verif.Props.Flat
import Verif.Props.Ieee
import Verif.Props.Settings
import Verif.Truth
import Verif.Props.Truth
import Verif.Lemmas.Accuracy
import Verif.Props.Accuracy
import Verif.Props.Accuracy2
import Verif.Api
import Verif.Meta.Decls
import Verif.Lemmas.Api
import Verif.Props.Api
import Verif.Props.ApiTalib
import Verif.ApiArgs
import Verif.Props.ApiArgs
import Verif.Lemmas.ApiCalls
import Verif.Props.ApiCalls
import Verif.Props.ApiShort
import Verif.Props.Mavp
import Verif.ApiMavp
import Verif.Props.ApiMavp
import Verif.Props.Family
import Verif.Props.Dtype
import Verif.Props.Errors
import Verif.Props.Periods
import Verif.Props.WinObj
import Verif.Props.Docs
import Verif.Props.Names
import Verif.Props.Follow
import Verif.Props.Item
import Verif.Props.Signs
import Verif.Props.Steady
import Verif.Props.Trend
import Verif.Props.Linear
import Verif.Props.Linear2
import Verif.Props.Pulse
import Verif.Props.Ordinal
import Verif.Props.Resume
import Verif.Props.Adapts
import Verif.Props.Pairs
import Verif.Props.Reach
import Verif.Props.Rising
import Verif.Props.RisingFlt
import Verif.Props.OneBar
import Verif.Props.SteadyDev
import Verif.Props.Season
import Verif.Props.Positions
import Verif.Props.AdaptsMore
import Verif.Props.Compare
import Verif.Props.Filled
import Verif.Props.Running
import Verif.Props.Backwards
import Verif.Props.Flow
import Verif.RunningInd
import Verif.Props.RunningInd
import Verif.Props.Reductions
import Verif.Props.Mirror2
