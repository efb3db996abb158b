import Verif.Sem.Nillable
import Verif.Sem.Candle
import Verif.Sem.TimeTravel
import Verif.Sem.Stepping
import Verif.Sem.Registers
import Verif.Spec.Basic
import Verif.Lemmas.Tup
import Verif.Lemmas.TimeTravel
import Verif.Props.Nillable
import Verif.Props.History
import Verif.Props.Tuples
import Verif.Props.Registers
import Verif.San.Ast
import Verif.San.Value
import Verif.San.Eval
import Verif.San.Run
import Verif.Lemmas.List
import Verif.Props.Steps
import Verif.San.Graph
import Verif.San.Causality
import Verif.Spec.Schedule
import Verif.Spec.Reads
import Verif.Lemmas.Reads
import Verif.Lemmas.Tarjan
import Verif.Lemmas.Schedule
import Verif.Lemmas.Scheduling
import Verif.Lemmas.Requires
import Verif.Props.Schedule
import Verif.Err.Accum
import Verif.Err.Pipeline
import Verif.Err.Span
import Verif.Lemmas.Chk
import Verif.Props.Err
import Verif.San.Options
import Verif.San.Names
import Verif.Syn.Options
import Verif.Spec.Attributes
import Verif.Lemmas.Options
import Verif.Props.Options
import Verif.San.Diag
import Verif.San.Positivity
import Verif.Spec.Depth
import Verif.Lemmas.Positivity
import Verif.Lemmas.Eval
import Verif.Lemmas.Machine
import Verif.Lemmas.NoAgo
import Verif.Lemmas.PositiveNode
import Verif.Props.Positivity
import Verif.San.Typecheck
import Verif.Spec.Types
import Verif.Spec.Typing
import Verif.Lemmas.Unify
import Verif.Lemmas.Typecheck
import Verif.Lemmas.NodeTyping
import Verif.Props.Types
import Verif.Spec.Values
import Verif.Spec.Safety
import Verif.Lemmas.Fine
import Verif.Lemmas.TypeSafety
import Verif.Lemmas.NodeSafety
import Verif.San.ConstExpr
import Verif.Lemmas.ConstExpr
import Verif.Props.Constants
import Verif.Props.Safety
import Verif.Spec.Streams
import Verif.Spec.Solutions
import Verif.Lemmas.Denote
import Verif.Lemmas.Solve
import Verif.Lemmas.SolveNode
import Verif.Lemmas.SolveRun
import Verif.Lemmas.Parts
import Verif.Lemmas.Reorder
import Verif.Lemmas.Passes
import Verif.Lemmas.Ready
import Verif.Props.Solutions
import Verif.Syn.Ast
import Verif.Syn.Translate
import Verif.Syn.Prog
import Verif.Spec.Compile
import Verif.Spec.Reference
import Verif.Spec.Slots
import Verif.Spec.Lustre
import Verif.Spec.Chains
import Verif.Lemmas.Fresh
import Verif.Lemmas.Translate
import Verif.Lemmas.Lustre
import Verif.Lemmas.TranslateNode
import Verif.Props.Translate
import Verif.San.Clockcheck
import Verif.Spec.Clocks
import Verif.Lemmas.Clockcheck
import Verif.Lemmas.ClockReports
import Verif.Props.Clocks
import Verif.Props.Compile
import Verif.Spec.Program
import Verif.Lemmas.Program
import Verif.Lemmas.Link
import Verif.Props.Program
import Verif.Spec.Presence
import Verif.Lemmas.Presence
import Verif.Lemmas.StreamTyping
import Verif.Lemmas.LinkInd
import Verif.Lemmas.PresenceNode
import Verif.Lemmas.SoberCheck
import Verif.Props.Presence
import Verif.Spec.Clocked
import Verif.Lemmas.Clocked
import Verif.Lemmas.ClockedTranslate
import Verif.Lemmas.ClockedNode
import Verif.Lemmas.ClockedPasses
import Verif.Lemmas.StreamCongr
import Verif.Lemmas.ClockedUnique
import Verif.Lemmas.Unclocked
import Verif.Props.Clocked
import Verif.Props.Modes
import Verif.Spec.Panics
import Verif.Lemmas.Quiet
import Verif.Lemmas.QuietClocks
import Verif.Lemmas.QuietTranslate
import Verif.Lemmas.QuietProg
import Verif.Props.Panics
import Verif.Syn.Parse
import Verif.Spec.Grammar
import Verif.Lemmas.Parse
import Verif.Lemmas.ParseWords
import Verif.Lemmas.ParseExpr
import Verif.Lemmas.ParseProg
import Verif.Props.Parse
import Verif.Spec.Legal
import Verif.Lemmas.Comes
import Verif.Lemmas.LegalTypes
import Verif.Lemmas.LegalNames
import Verif.Lemmas.LegalClocks
import Verif.Lemmas.LegalReady
import Verif.Lemmas.LegalParts
import Verif.Lemmas.LegalStmts
import Verif.Lemmas.LegalCausal
import Verif.Lemmas.LegalNode
import Verif.Lemmas.LegalConst
import Verif.Lemmas.LegalEnv
import Verif.Lemmas.LegalProg
import Verif.Lemmas.LegalOrder
import Verif.Lemmas.LegalRun
import Verif.Props.Legal
import Verif.San.Trace
import Verif.Spec.Trace
import Verif.Lemmas.Trace
import Verif.Props.Trace
import Verif.San.Std
import Verif.Spec.Std
import Verif.Props.Std
import Verif.Spec.Replace
import Verif.Lemmas.Replace
import Verif.Props.Replace
import Verif.Lemmas.AnyOrder
import Verif.Props.AnyOrder
import Verif.Props.Text
import Verif.Props.Main
import Verif.San.Twice
import Verif.Lemmas.Twice
import Verif.Props.Twice
import Verif.San.Emit
import Verif.Spec.Emit
import Verif.Lemmas.Closed
import Verif.Lemmas.Emit
import Verif.Props.Emit
import Verif.Spec.Blame
import Verif.Spec.BlameSrc
import Verif.Lemmas.Tells
import Verif.Lemmas.BlameTypes
import Verif.Lemmas.BlameNodes
import Verif.Lemmas.BlameProg
import Verif.Lemmas.BlameClocks
import Verif.Lemmas.BlameCausal
import Verif.Lemmas.BlameFront
import Verif.Lemmas.BlameAll
import Verif.Lemmas.BlameSrc
import Verif.Lemmas.BlameNames
import Verif.Props.Blame
import Verif.Spec.Builds
import Verif.Props.Builds
import Verif.Spec.Parametric
import Verif.Lemmas.Parametric
import Verif.Props.Parametric
import Verif.Lemmas.Follows
import Verif.Spec.Modular
import Verif.Lemmas.Modular
import Verif.Lemmas.ModularLegal
import Verif.Props.Modular
import Verif.Spec.Universal
import Verif.Spec.Guards
import Verif.Lemmas.Universal
import Verif.Lemmas.UniversalDen
import Verif.Lemmas.UniversalNode
import Verif.Lemmas.Guards
import Verif.Props.Universal
import Verif.Props.Refactor
import Verif.Props.Rename
import Verif.Tests.Kinds
import Verif.Tests.Refused
import Verif.Tests.Accepted
import Verif.Tests.Runs
import Verif.Spec.Steady
import Verif.Lemmas.Steady
import Verif.Lemmas.SteadyDen
import Verif.Lemmas.SteadyExpr
import Verif.Lemmas.SteadyReady
import Verif.Lemmas.SteadyNode
import Verif.Lemmas.SteadyProg
import Verif.Props.Steady
import Verif.Spec.Prompt
import Verif.Lemmas.Prompt
import Verif.Lemmas.PromptExpr
import Verif.Lemmas.PromptUnique
import Verif.Lemmas.PromptNode
import Verif.Props.Prompt
import Verif.Spec.Timely
import Verif.Lemmas.TypeMono
import Verif.Lemmas.TimelyExpr
import Verif.Lemmas.TimelyNode
import Verif.Props.Timely
import Verif.Spec.Inline
import Verif.Lemmas.Inline
import Verif.Props.Inline
import Verif.Props.MainUniversal
import Verif.San.Rust
import Verif.San.Quote
import Verif.Spec.Quote
import Verif.Lemmas.Quote
import Verif.Lemmas.QuoteExtern
import Verif.Props.Quote
import Verif.Spec.Split
import Verif.Lemmas.Split
import Verif.Props.Split
import Verif.Spec.EndToEnd
import Verif.Props.EndToEnd
import Verif.Spec.Laws
import Verif.Lemmas.Laws
import Verif.Props.Laws
import Verif.Spec.Relabel
import Verif.Lemmas.Relabel
import Verif.Lemmas.RelabelProg
import Verif.Props.Relabel
import Verif.San.Text
import Verif.San.Read
import Verif.Spec.Text
import Verif.Lemmas.ReadConst
import Verif.Lemmas.ReadExpr
import Verif.Lemmas.ReadNode
import Verif.Lemmas.ReadLink
import Verif.Lemmas.ReadPanic
import Verif.Props.EmittedText
import Verif.Spec.SampleTexts
import Verif.Spec.Samples
import Verif.Lemmas.SampleTrees
import Verif.Lemmas.Samples
import Verif.Lemmas.SampleRefs
import Verif.Lemmas.SampleRuns
import Verif.Lemmas.SampleAdder
import Verif.Lemmas.SampleMain
import Verif.Lemmas.SampleSetup
import Verif.Lemmas.SamplePrev
import Verif.Props.Samples
import Verif.Lemmas.SampleMore
import Verif.Props.SampleMore
import Verif.Spec.SamplePrints
import Verif.Lemmas.SamplePrints
import Verif.Props.SamplePrints
import Verif.Lemmas.SampleConsts
import Verif.Props.SampleConsts
import Verif.Tests.Samples
