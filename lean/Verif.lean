import Verif.Basic.Uni
import Verif.Model.Runes
import Verif.Model.Token
import Verif.Model.Tokenizer
import Verif.Model.Run
import Verif.Spec.Spell
import Verif.Spec.Lex
import Verif.Spec.Position
import Verif.Spec.Open
import Verif.Lemmas.Cursor
import Verif.Lemmas.Loop
import Verif.Lemmas.Lex
import Verif.Lemmas.Next
import Verif.Lemmas.Position
import Verif.Lemmas.Tokens
import Verif.Lemmas.Open
import Verif.Lemmas.Filter
import Verif.Lemmas.Replay
import Verif.Props.C01
import Verif.Props.C02
import Verif.Props.C03
import Verif.Props.C04
import Verif.Props.C05
import Verif.Props.C06
import Verif.Lemmas.Kinds
import Verif.Props.C07
import Verif.Props.C08
import Verif.Lemmas.Shapes
import Verif.Props.C09
import Verif.Props.C10
import Verif.Props.C11
import Verif.Props.C12
import Verif.Props.C13
import Verif.Props.C14
import Verif.Model.Ext
import Verif.Props.C15
import Verif.Props.C16
import Verif.Props.C17
import Verif.Model.DeclMap
import Verif.Spec.Scope
import Verif.Lemmas.DeclMap
import Verif.Lemmas.Case
import Verif.Props.C18
import Verif.Props.C19
import Verif.Props.C20
import Verif.Props.C21
import Verif.Model.Context
import Verif.Model.UnitProc
import Verif.Lemmas.Context
import Verif.Spec.Cmd
import Verif.Lemmas.Scope
import Verif.Lemmas.PScope
import Verif.Props.C22
import Verif.Props.C23
import Verif.Props.C24
import Verif.Props.C25
import Verif.Model.UnitParsers
import Verif.Spec.Topo
import Verif.Props.C26
import Verif.Props.C27
import Verif.Model.Uses
import Verif.Props.C28
import Verif.Model.Walk
import Verif.Props.C29
import Verif.Model.ClassType
import Verif.Props.C30
import Verif.Props.C31
import Verif.Model.TypeClass
import Verif.Props.C32
import Verif.Props.C45
import Verif.Model.Message
import Verif.Model.Parser
import Verif.Model.Expr
import Verif.Spec.Expr
import Verif.Lemmas.Wp
import Verif.Lemmas.ExprSound
import Verif.Lemmas.ExprComplete
import Verif.Model.WorldEnv
import Verif.Lemmas.WorldEnv
import Verif.Lemmas.Stream
import Verif.Props.C33
import Verif.Props.C34
import Verif.Props.C35
import Verif.Props.C37
import Verif.Model.Stmt
import Verif.Spec.Stmt
import Verif.Lemmas.StmtBase
import Verif.Lemmas.StmtSound
import Verif.Lemmas.StmtPieces
import Verif.Lemmas.Go
import Verif.Lemmas.StmtHead
import Verif.Lemmas.StmtComplete
import Verif.Props.C38
import Verif.Props.C39
import Verif.Props.C40
import Verif.Props.C46
import Verif.Model.Types
import Verif.Model.Decls
import Verif.Spec.Type
import Verif.Spec.Decl
import Verif.Lemmas.TypeBase
import Verif.Lemmas.TypeSound
import Verif.Lemmas.TypeAll
import Verif.Lemmas.DeclSound
import Verif.Basic.Kernel
import Verif.Model.DeclEnv
import Verif.Model.TextTokens
import Verif.Lemmas.TextTokens
import Verif.Props.C47
import Verif.Props.C48
import Verif.Model.Goal
import Verif.Spec.Goal
import Verif.Lemmas.GoalSound
import Verif.Lemmas.ProgramSound
import Verif.Props.C49
import Verif.Props.C41
import Verif.Props.C44
import Verif.Props.C50
import Verif.Lemmas.Heap
import Verif.Lemmas.Fine
import Verif.Spec.Panic
import Verif.Lemmas.NoPanic
import Verif.Lemmas.NoPanicProgram
import Verif.Lemmas.NoPanicUnit
import Verif.Lemmas.Rounds
import Verif.Props.C36
import Verif.Spec.TypeIds
import Verif.Spec.Occurs
import Verif.Lemmas.Trace
import Verif.Lemmas.TraceType
import Verif.Lemmas.TraceSection
import Verif.Lemmas.Evolve
import Verif.Lemmas.Forward
import Verif.Props.C42
import Verif.Props.C43
import Verif.Spec.Acyclic
import Verif.Lemmas.Acyclic
import Verif.Lemmas.Routine
import Verif.Props.C23Routine
import Verif.Spec.Accept
import Verif.Lemmas.Agree
import Verif.Lemmas.Elab
import Verif.Lemmas.Acc
import Verif.Lemmas.AccStmt
import Verif.Lemmas.AccType
import Verif.Lemmas.AccProp
import Verif.Lemmas.AccClass
import Verif.Lemmas.AccDecl
import Verif.Lemmas.AccUses
import Verif.Lemmas.AccUnit
import Verif.Spec.AcceptUnits
import Verif.Lemmas.Larger
import Verif.Lemmas.Within
import Verif.Lemmas.Moves
import Verif.Lemmas.Layers
import Verif.Lemmas.AccIntf
import Verif.Lemmas.AccImpl
import Verif.Lemmas.AccLoad
import Verif.Lemmas.AccLoops
import Verif.Lemmas.AccWhole
import Verif.Props.C51
import Verif.Model.Children
import Verif.Spec.Visit
import Verif.Lemmas.Visit
import Verif.Lemmas.VisitStmt
import Verif.Lemmas.VisitType
import Verif.Lemmas.VisitDecl
import Verif.Props.C52
import Verif.Lemmas.Seal
import Verif.Lemmas.SealProgram
import Verif.Props.C53
import Verif.Spec.Canon
import Verif.Lemmas.Rel
import Verif.Lemmas.RelExpr
import Verif.Lemmas.RelStmt
import Verif.Lemmas.RelType
import Verif.Lemmas.RelDecl
import Verif.Lemmas.RelDS
import Verif.Lemmas.RelGoal
import Verif.Lemmas.TrId
import Verif.Lemmas.CaseLex
import Verif.Spec.SameText
import Verif.Lemmas.SpellTok
import Verif.Props.C54
import Verif.Props.C55
import Verif.Spec.Chain
import Verif.Lemmas.SortOne
import Verif.Props.C56
import Verif.Spec.Ranked
import Verif.Lemmas.Named
import Verif.Lemmas.NamedBase
import Verif.Lemmas.NamedGoal
import Verif.Lemmas.Local
import Verif.Lemmas.LocalStmt
import Verif.Lemmas.LocalDecl
import Verif.Lemmas.LocalGoal
import Verif.Lemmas.LocalProgram
import Verif.Lemmas.FrontLex
import Verif.Props.C57
import Verif.Model.Construct
import Verif.Props.C58
import Verif.Spec.Refs
import Verif.Lemmas.TrTwice
import Verif.Lemmas.RefsTr
import Verif.Lemmas.Tidy
import Verif.Lemmas.RefsGoal
import Verif.Spec.AllTypeIds
import Verif.Lemmas.TraceStmt
import Verif.Lemmas.TraceBlock
import Verif.Lemmas.TraceGoal
import Verif.Props.C59
import Verif.Spec.Idents
import Verif.Lemmas.IdentsTr
import Verif.Lemmas.Placed
import Verif.Lemmas.PlacedGoal
import Verif.Props.C60
import Verif.Props.C61
import Verif.Lemmas.Links
import Verif.Props.C62
import Verif.Spec.Members
import Verif.Lemmas.Members
import Verif.Lemmas.ClassProps
import Verif.Lemmas.ClassTypes
import Verif.Props.C63
import Verif.Spec.Declared
import Verif.Lemmas.Restrict
import Verif.Lemmas.RestrictType
import Verif.Lemmas.RestrictStmt
import Verif.Lemmas.RestrictBlock
import Verif.Lemmas.Led
import Verif.Lemmas.LedGoal
import Verif.Props.C64
import Verif.Spec.Ordered
import Verif.Lemmas.Ordered
import Verif.Lemmas.OrderedProgram
import Verif.Props.C65
import Verif.Spec.Offered
import Verif.Lemmas.Zone
import Verif.Lemmas.Apart
import Verif.Lemmas.Reachable
import Verif.Props.C66
import Verif.Props.C67
import Verif.Model.ExtArgs
import Verif.Props.C68
import Verif.Props.C69
import Verif.Tests.RepoTests
import Verif.Tests.RepoTestsExpr
import Verif.Tests.RepoTestsType
import Verif.Tests.RepoTestsStmt
import Verif.Tests.RepoTestsUnits
