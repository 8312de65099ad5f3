import Verif.Basic
import Verif.Model.Parser
import Verif.Spec.Script
import Verif.Proofs.Parser
import Verif.Props.Parser
import Verif.Props.Mapping
import Verif.Props.Env
import Verif.Props.Subst
import Verif.Props.Executor
import Verif.Props.Into
import Verif.Props.Value
import Verif.Props.Scalar
import Verif.Props.Aggregate
import Verif.Props.AggregateLaws
import Verif.Props.Reduce
import Verif.Props.ReduceMemory
import Verif.Props.TempMem
import Verif.Props.Window
import Verif.Props.Expr
import Verif.Props.Where
import Verif.Props.StrSearch
import Verif.Props.Json
import Verif.Props.JsonShape
import Verif.Props.JsonEqual
import Verif.Props.Date
import Verif.Props.DateFields
import Verif.Props.Config
import Verif.Props.Limit
import Verif.Props.Join
import Verif.Props.JoinOn
import Verif.Props.JoinMulti
import Verif.Props.Order
import Verif.Props.Select
import Verif.Props.SelectGroup
import Verif.Props.SelectDistinct
import Verif.Props.SelectCases
import Verif.Model.Engine
import Verif.Props.Engine
import Verif.Model.RightJoin
import Verif.Spec.RightJoin
import Verif.Props.RightJoin
import Verif.Spec.JsonAgg
import Verif.Props.JsonAgg
import Verif.Model.WinSelect
import Verif.Spec.WinSelect
import Verif.Proofs.WinSelect
import Verif.Proofs.WinCols
import Verif.Props.WinSelect
import Verif.Props.WinCases
import Verif.Model.Tasks
import Verif.Spec.Tasks
import Verif.Proofs.Tasks
import Verif.Proofs.TasksStore
import Verif.Proofs.TasksBuild
import Verif.Props.Tasks
import Verif.Model.SetOp
import Verif.Spec.SetOp
import Verif.Props.SetOp
import Verif.Model.Literal
import Verif.Spec.Literal
import Verif.Props.Literal
import Verif.Props.AggregateMixed
import Verif.Model.Table
import Verif.Spec.Table
import Verif.Props.Table
import Verif.Model.Correlated
import Verif.Spec.Correlated
import Verif.Props.Correlated
import Verif.Props.MoreFunctions
import Verif.Model.Regexp
import Verif.Spec.Regexp
import Verif.Proofs.Regexp
import Verif.Props.Regexp
import Verif.Model.Greatest
import Verif.Spec.Greatest
import Verif.Props.Greatest
import Verif.Model.Encode
import Verif.Spec.Encode
import Verif.Props.Encode
import Verif.Props.Bits
import Verif.Model.Cte
import Verif.Spec.Cte
import Verif.Props.Cte
import Verif.Model.AggExpr
import Verif.Spec.AggExpr
import Verif.Props.AggExpr
import Verif.Model.SelectList
import Verif.Spec.SelectList
import Verif.Props.SelectList
import Verif.Model.History
import Verif.Spec.History
import Verif.Props.History
import Verif.Model.Calendar
import Verif.Spec.Calendar
import Verif.Props.Calendar
import Verif.Props.Tight
import Verif.Props.Execute
import Verif.Props.Split
import Verif.Model.Load
import Verif.Spec.Load
import Verif.Proofs.Load
import Verif.Props.Load
import Verif.Model.View
import Verif.Spec.View
import Verif.Proofs.View
import Verif.Props.View
import Verif.Model.JoinSelect
import Verif.Spec.JoinSelect
import Verif.Proofs.JoinSelect
import Verif.Proofs.JoinExpr
import Verif.Proofs.JoinEnv
import Verif.Props.JoinSelect
import Verif.Props.JoinSelectCases
import Verif.Model.JoinInner
import Verif.Props.JoinInner
import Verif.Props.JoinDistinct
import Verif.Props.JoinInnerCases
import Verif.Model.Column
import Verif.Spec.Column
import Verif.Props.Column
import Verif.Model.WhereAlias
import Verif.Props.WhereAlias
import Verif.Model.Call
import Verif.Props.Call
import Verif.Model.RowCalc
import Verif.Props.RowCalc
import Verif.Props.NestCases
import Verif.Props.Insert
import Verif.Model.FromList
import Verif.Spec.FromList
import Verif.Props.FromList
import Verif.Props.FromCases
import Verif.Model.UserVar
import Verif.Spec.UserVar
import Verif.Props.UserVar
import Verif.Model.RawSql
import Verif.Spec.RawSql
import Verif.Proofs.RawSql
import Verif.Props.RawSql
import Verif.Props.Tight2
import Verif.Model.Globals
import Verif.Spec.Globals
import Verif.Props.Globals
import Verif.Model.Prompt
import Verif.Spec.Prompt
import Verif.Props.Prompt
import Verif.Props.Examples
import Verif.Props.Tree
import Verif.Props.TreeCases
import Verif.Props.JsonHeap
import Verif.Props.Accepted
import Verif.Props.AcceptedCases
import Verif.Props.Total
import Verif.Props.TotalCases
import Verif.Model.LimitParse
import Verif.Props.LimitParse
import Verif.Model.AggCall
import Verif.Spec.AggCall
import Verif.Props.AggCall
import Verif.Model.TableVar
import Verif.Spec.TableVar
import Verif.Props.TableVar
import Verif.Model.CorrSub
import Verif.Spec.CorrSub
import Verif.Props.CorrSub
import Verif.Props.RightChain
import Verif.Props.SessionCases
import Verif.Props.TreeTotalCases
import Verif.Props.Keys
import Verif.Props.SubOperand
import Verif.Props.TreeSub
import Verif.Props.HavingSub
import Verif.Props.ItemKind
import Verif.Props.Whole
import Verif.Props.GetValue
import Verif.Props.Clock
import Verif.Props.SecondPass
import Verif.Props.VarScript
import Verif.Props.VarScriptCases
import Verif.Props.WinFns
import Verif.Props.Streaming
import Verif.Props.Stop
import Verif.Props.TreeFromCases
import Verif.Props.JsonText
import Verif.Props.TreeHaving
import Verif.Props.UnknownTable
import Verif.Props.HavingTable
import Verif.Props.JsonGrammar
import Verif.Props.JsonWild
import Verif.Props.Hint
import Verif.Props.QueryConfig
import Verif.Props.SubArgs
import Verif.Props.WhereCalls
import Verif.Model.Functions
import Verif.Spec.Functions
import Verif.Props.Functions
import Verif.Props.FunctionsCases
import Verif.Spec.TreeFunctions
import Verif.Props.TreeFunctions
import Verif.Props.TreeFunctionsCases
import Verif.Model.Aggregates
import Verif.Spec.Aggregates
import Verif.Props.Aggregates
import Verif.Props.AggregatesCases
import Verif.Props.AggregatesWin
import Verif.Model.FuncTable
import Verif.Spec.FuncTable
import Verif.Props.FuncTable
