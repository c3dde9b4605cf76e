import Verif.Model.Symbolic
import Verif.Model.Cli
import Verif.Proofs.Check
import Verif.Proofs.Info
import Verif.Proofs.LexedUnique
import Verif.Spec.Verdict
import Verif.Props.Examples
import Verif.Props.Verdict
import Verif.Props.Types
import Verif.Props.Laws
import Verif.Props.Lexing
import Verif.Props.Grammar
import Verif.Props.Numerals
import Verif.Props.Quoting
import Verif.Props.Explain
import Verif.Props.Entries
import Verif.Props.Program
import Verif.Spec.Symbolic
import Verif.Proofs.Bytes
import Verif.Proofs.Symbolic
import Verif.Proofs.Solver
import Verif.Proofs.Solver2
import Verif.Proofs.Solver3
import Verif.Props.SymExamples
import Verif.Props.Symbolic
import Verif.Props.SymbolicEx
import Verif.Model.Message
import Verif.Spec.Diagnosis
import Verif.Proofs.Message
import Verif.Proofs.Recognize
import Verif.Proofs.Viable
import Verif.Proofs.AddressMsg
import Verif.Proofs.Blame
import Verif.Proofs.Clean
import Verif.Proofs.Diagnose
import Verif.Props.Diagnosis
import Verif.Spec.TypeError
import Verif.Proofs.TypeFault
import Verif.Props.TypeErrors
import Verif.Spec.Report
import Verif.Proofs.Report
import Verif.Props.Report
import Verif.Spec.Match
import Verif.Proofs.Match
import Verif.Props.Matching
import Verif.Model.Cost
import Verif.Spec.Cost
import Verif.Proofs.Cost
import Verif.Proofs.Cost2
import Verif.Props.Cost
import Verif.Spec.Smallest
import Verif.Proofs.Smallest
import Verif.Props.Smallest
import Verif.Proofs.Locality
import Verif.Props.Locality
import Verif.Spec.Names
import Verif.Proofs.Names
import Verif.Props.Names
import Verif.Model.EntryMessage
import Verif.Spec.EntryFault
import Verif.Proofs.EntryMessage
import Verif.Proofs.IdText
import Verif.Proofs.EntryFault
import Verif.Proofs.Stuck
import Verif.Proofs.Unexplained
import Verif.Proofs.Judge
import Verif.Proofs.EntryReport
import Verif.Props.EntryReport
import Verif.Spec.Slice
import Verif.Proofs.Slice
import Verif.Props.Slice
import Verif.Spec.Signed
import Verif.Spec.Shuffle
import Verif.Proofs.Shuffle
import Verif.Props.Shuffle
import Verif.Spec.Priority
import Verif.Props.Priority
import Verif.Spec.Accept
import Verif.Spec.Compose
import Verif.Proofs.Accept
import Verif.Proofs.Compose
import Verif.Proofs.ComposeVerdict
import Verif.Props.Accept
import Verif.Props.Compose
import Verif.Spec.Packets
import Verif.Spec.Express
import Verif.Proofs.ValueText
import Verif.Proofs.Packets
import Verif.Proofs.Express
import Verif.Props.Packets
import Verif.Props.Express
import Verif.Spec.Violation
import Verif.Proofs.Violation
import Verif.Proofs.Violation2
import Verif.Props.Violation
import Verif.Model.CliText
import Verif.Spec.Cli
import Verif.Proofs.CliText
import Verif.Props.Cli
import Verif.Model.SymMessage
import Verif.Spec.SymFault
import Verif.Proofs.SymMessage
import Verif.Proofs.SymFault
import Verif.Proofs.SymFault2
import Verif.Props.SymFault
import Verif.Spec.Solve
import Verif.Proofs.Solve
import Verif.Props.Solve
import Verif.Model.Status
import Verif.Spec.Status
import Verif.Proofs.Status
import Verif.Props.Status
import Verif.Golden.Base
import Verif.Golden.Invalid
import Verif.Golden.Valid
import Verif.Golden.Interpreter
import Verif.Model.Inet
import Verif.Spec.Ipv6
import Verif.Proofs.Ipv6
import Verif.Proofs.Ipv6Text
import Verif.Props.Instances1
import Verif.Props.Instances2
import Verif.Props.Instances3
import Verif.Props.Instances4
import Verif.Props.Instances5
import Verif.Props.Instances6
import Verif.Props.Instances7
import Verif.Props.Ipv6
import Verif.Golden.Lexer
import Verif.Golden.Parser
import Verif.Golden.Ast
import Verif.Golden.Info
import Verif.Golden.Types
import Verif.Golden.Eval
import Verif.Spec.Evolve
import Verif.Proofs.Evolve
import Verif.Props.Evolve
import Verif.Spec.SolveSigned
import Verif.Proofs.SolveSigned
import Verif.Proofs.Placed
import Verif.Spec.Rename
import Verif.Proofs.Rename
import Verif.Props.Rename
import Verif.Spec.Widen
import Verif.Proofs.Widen
import Verif.Props.Widen
import Verif.Spec.Bounds
import Verif.Proofs.Bounds
import Verif.Proofs.Lines
import Verif.Props.Bounds
import Verif.Golden.Symbolic
import Verif.Spec.SolveLaws
import Verif.Proofs.SolveLaws
import Verif.Props.SolveLaws
import Verif.Proofs.Prefix
import Verif.Props.Prefix
import Verif.Spec.Exchange
import Verif.Proofs.Exchange
import Verif.Props.Exchange
import Verif.Spec.Constant
import Verif.Proofs.Constant
import Verif.Props.Constant
import Verif.Proofs.Again
import Verif.Proofs.Transitive
import Verif.Proofs.AnyPriority
import Verif.Props.AnyPriority
import Verif.Spec.Crash
import Verif.Proofs.Crash
import Verif.Props.Crash
import Verif.Spec.CrashProgram
import Verif.Proofs.CrashProgram
import Verif.Props.CrashProgram
import Verif.Spec.CrashCli
import Verif.Props.CrashCli
import Verif.Spec.Formula
import Verif.Proofs.Formula
import Verif.Props.Formula
import Verif.Spec.CrashSolver
import Verif.Proofs.CrashSolver
import Verif.Props.CrashSolver
import Verif.Spec.Missing
import Verif.Proofs.QuoteAny
import Verif.Proofs.DiagnoseAny
import Verif.Props.DiagnosisAny
import Verif.Model.ParseCost
import Verif.Spec.ParseCost
import Verif.Proofs.ParseCost
import Verif.Props.ParseCost
import Verif.Spec.Widthless
import Verif.Proofs.Widthless
import Verif.Props.Widthless
import Verif.Spec.Weaken
import Verif.Proofs.Weaken
import Verif.Props.Weaken
import Verif.Spec.Negative
import Verif.Proofs.Negative
import Verif.Props.Negative
import Verif.Spec.EvalDepth
import Verif.Proofs.EvalDepth
import Verif.Props.EvalDepth
import Verif.Spec.SolverCost
import Verif.Proofs.SolverCost
import Verif.Props.SolverCost
import Verif.Spec.Obtain
import Verif.Proofs.Obtain
import Verif.Props.Obtain
import Verif.Spec.Independent
import Verif.Proofs.Independent
import Verif.Props.Independent
import Verif.Spec.Enumerate
import Verif.Proofs.Enumerate
import Verif.Props.Enumerate
import Verif.Spec.Moved
import Verif.Proofs.Moved
import Verif.Props.Moved
import Verif.Spec.Skipped
import Verif.Proofs.Skipped
import Verif.Props.Skipped
import Verif.Spec.Runtime
import Verif.Proofs.Runtime
import Verif.Props.Runtime
import Verif.Spec.HandMade
import Verif.Proofs.HandMade
import Verif.Props.HandMade
import Verif.Spec.Sorts
import Verif.Proofs.Sorts
import Verif.Props.Sorts
import Verif.Model.Debug
import Verif.Spec.Debug
import Verif.Proofs.Debug
import Verif.Proofs.Debug2
import Verif.Proofs.Debug3
import Verif.Props.Debug
import Verif.Model.SymCost
import Verif.Proofs.SymCost
import Verif.Props.SymCost
import Verif.Spec.NoConflict
import Verif.Proofs.NoConflict
import Verif.Props.NoConflict
import Verif.Spec.Compare
import Verif.Proofs.Compare
import Verif.Props.Compare
import Verif.Spec.Small
import Verif.Proofs.Small
import Verif.Props.Small
import Verif.Proofs.Found
import Verif.Props.Found
import Verif.Proofs.Fix
import Verif.Props.Fix
import Verif.Proofs.Utility
import Verif.Props.Utility
import Verif.Spec.Guard
import Verif.Proofs.Guard
import Verif.Props.Guard
import Verif.Spec.Valued
import Verif.Proofs.Valued
import Verif.Props.Valued
import Verif.Props.PriorityField
import Verif.Props.Argument
