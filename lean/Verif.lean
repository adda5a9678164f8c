import Verif.Model.Types
import Verif.Model.Eval
import Verif.Model.Bits
import Verif.Model.RBTree
import Verif.Model.ExprCmp
import Verif.Model.PredMap
import Verif.Model.Memo
import Verif.Model.Config
import Verif.Model.Pipeline
import Verif.Model.Bounds
import Verif.Model.Boundaries
import Verif.Model.Sub
import Verif.Model.Tree
import Verif.Model.Search
import Verif.Model.Event
import Verif.Model.Api
import Verif.Model.StrMap
import Verif.Model.EqExpr
import Verif.Model.History
import Verif.Spec.Sat
import Verif.Spec.Contents
import Verif.Spec.Event
import Verif.Spec.Range
import Verif.Lemmas.Eval
import Verif.Lemmas.Conserve
import Verif.Lemmas.Event
import Verif.Lemmas.Sort
import Verif.Lemmas.Config
import Verif.Lemmas.Resolve
import Verif.Lemmas.EvalSat
import Verif.Props.Semantics
import Verif.Props.Special
import Verif.Props.Bits
import Verif.Props.StrMap
import Verif.Props.EqExpr
import Verif.Props.Split
import Verif.Props.Conserve
import Verif.Props.Event
import Verif.Props.Lists
import Verif.Props.Report
import Verif.Props.Intern
import Verif.Lemmas.RB
import Verif.Lemmas.ExprKey
import Verif.Lemmas.PredMap
import Verif.Lemmas.World
import Verif.Lemmas.Memo
import Verif.Spec.Same
import Verif.Props.RB
import Verif.Props.Memo
import Verif.Spec.Short
import Verif.Spec.Supported
import Verif.Lemmas.Short
import Verif.Props.Short
import Verif.Spec.Bound
import Verif.Lemmas.Bound
import Verif.Lemmas.Prune
import Verif.Lemmas.PruneTree
import Verif.Lemmas.Widen
import Verif.Lemmas.WorldPrune
import Verif.Spec.Exact
import Verif.Spec.Room
import Verif.Lemmas.Complete
import Verif.Lemmas.AllIds
import Verif.Props.Search
import Verif.Spec.Mention
import Verif.Lemmas.Mention
import Verif.Props.Bounds
import Verif.Props.Boundaries
import Verif.Spec.Capacity
import Verif.Props.Capacity
import Verif.Spec.Caps
import Verif.Props.Constants
import Verif.Spec.FloatLits
import Verif.Props.FloatLits
import Verif.Props.Accept
import Verif.Lemmas.Total
import Verif.Lemmas.TypedPred
import Verif.Props.AcceptTotal
import Verif.Lemmas.Shape
import Verif.Spec.WellTyped
import Verif.Lemmas.TypedEval
import Verif.Lemmas.TypedSearch
import Verif.Props.TypedSearch
import Verif.Spec.Place
import Verif.Spec.Static
import Verif.Lemmas.InsertTotal
import Verif.Lemmas.InsertWorld
import Verif.Lemmas.Static
import Verif.Props.InsertTotal
import Verif.Spec.Alike
import Verif.Lemmas.Alike
import Verif.Lemmas.IntOrder
import Verif.Props.Alike
import Verif.Spec.Limit
import Verif.Lemmas.StrBound
import Verif.Lemmas.StrLimit
import Verif.Props.StrBound
import Verif.Model.LR
import Verif.Model.ParserTables
import Verif.Model.Lexer
import Verif.Model.Parser
import Verif.Lemmas.LR
import Verif.Lemmas.LRRun
import Verif.Lemmas.XxCert
import Verif.Lemmas.ZzCert
import Verif.Spec.Syntax
import Verif.Lemmas.XxSound
import Verif.Lemmas.XxComplete
import Verif.Props.Grammar
import Verif.Spec.Text
import Verif.Lemmas.Lex
import Verif.Props.Text
import Verif.Model.EventParser
import Verif.Spec.EventSyntax
import Verif.Spec.EventText
import Verif.Lemmas.ZzSound
import Verif.Lemmas.ZzComplete
import Verif.Lemmas.EvLex
import Verif.Props.EventText
import Verif.Model.TextApi
import Verif.Spec.Says
import Verif.Lemmas.TextRun
import Verif.Props.EndToEnd
import Verif.Spec.Ordinary
import Verif.Lemmas.Used
import Verif.Props.Ordinary
import Verif.Model.EventObj
import Verif.Spec.EventObj
import Verif.Lemmas.EventObj
import Verif.Props.EventObj
import Verif.Model.Printer
import Verif.Spec.Printed
import Verif.Lemmas.Printed
import Verif.Props.Printed
import Verif.Model.Late
import Verif.Spec.Late
import Verif.Lemmas.Late
import Verif.Lemmas.LateRun
import Verif.Props.Late
import Verif.Model.Flex
import Verif.Model.FlexTables
import Verif.Model.FlexLex
import Verif.Lemmas.Flex
import Verif.Lemmas.FlexReps
import Verif.Lemmas.FlexCheck
import Verif.Props.Flex
import Verif.Props.Helper
import Verif.Model.Clone
import Verif.Spec.Clone
import Verif.Props.Clone
import Verif.Spec.Trained
import Verif.Lemmas.Trained
import Verif.Props.Trained
import Verif.Model.Geo
import Verif.Spec.Geo
import Verif.Lemmas.Geo
import Verif.Props.Geo
import Verif.Model.Memory
import Verif.Model.MemWorld
import Verif.Spec.Memory
import Verif.Spec.MemWorld
import Verif.Lemmas.Memory
import Verif.Lemmas.MemWorld
import Verif.Props.Memory
import Verif.Props.MemoryLost
import Verif.Model.EventMemory
import Verif.Spec.EventMemory
import Verif.Lemmas.EventMemory
import Verif.Lemmas.EventWorld
import Verif.Props.EventMemory
import Verif.Props.Double
import Verif.Props.NodeMemory
import Verif.Lemmas.Kept
import Verif.Lemmas.Cuts
import Verif.Model.ConfigMemory
import Verif.Spec.ConfigMemory
import Verif.Lemmas.RBMap
import Verif.Lemmas.ConfigMemory
import Verif.Lemmas.Filled
import Verif.Props.ConfigMemory
import Verif.Model.Session
import Verif.Lemmas.Session
import Verif.Props.Session
import Verif.Model.ObjMemory
import Verif.Spec.ObjMemory
import Verif.Lemmas.ObjMemory
import Verif.Props.ObjMemory
import Verif.Model.Concurrent
import Verif.Spec.Concurrent
import Verif.Lemmas.Concurrent
import Verif.Lemmas.Machine
import Verif.Props.Concurrent
import Verif.Spec.Use
import Verif.Lemmas.OneText
import Verif.Lemmas.Use
import Verif.Props.Use
import Verif.Model.Phases
import Verif.Spec.Phases
import Verif.Lemmas.Phases
import Verif.Props.Phases
import Verif.Model.ConstMemory
import Verif.Spec.ConstMemory
import Verif.Lemmas.ConstMemory
import Verif.Props.ConstMemory
import Verif.Props.OrdinaryExists
import Verif.Props.EnumBound
import Verif.Model.RBErase
import Verif.Lemmas.RBErase
import Verif.Props.RBErase
import Verif.Model.MapIter
import Verif.Props.MapIter
import Verif.Model.MapFail
import Verif.Props.MapFail
import Verif.Model.RBFail
import Verif.Props.RBFail
import Verif.Lemmas.RBFail
import Verif.Props.RBFailSmall
