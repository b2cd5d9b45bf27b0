import Verif.Model.Base
import Verif.Model.Input
import Verif.Model.Ast
import Verif.Model.Pom
import Verif.Model.Parse
import Verif.Model.Variables
import Verif.Model.Structs
import Verif.Model.Value
import Verif.Model.Hist
import Verif.Model.Decode
import Verif.Model.Definitions
import Verif.Model.Dynamic
import Verif.Model.StructTable
import Verif.Model.Fs
import Verif.Model.Semantics
import Verif.Model.Eval
import Verif.Model.Runtime
import Verif.Spec.Input
import Verif.Spec.Arith
import Verif.Spec.Scopes
import Verif.Spec.Control
import Verif.Lemmas.Arith
import Verif.Lemmas.ValueEq
import Verif.Lemmas.EvalInd
import Verif.Lemmas.Vars
import Verif.Lemmas.Runtime
import Verif.Props.Input
import Verif.Props.Arith
import Verif.Props.Scopes
import Verif.Props.Control
import Verif.Spec.Layout
import Verif.Spec.Ints
import Verif.Spec.Dispatch
import Verif.Lemmas.Decode
import Verif.Lemmas.Laid
import Verif.Lemmas.StructTable
import Verif.Lemmas.DecodeMore
import Verif.Lemmas.Encode
import Verif.Lemmas.Extent
import Verif.Props.Decode
import Verif.Props.Dispatch
import Verif.Props.Cast
import Verif.Spec.Display
import Verif.Spec.Hist
import Verif.Lemmas.Display
import Verif.Lemmas.Hist
import Verif.Lemmas.HistText
import Verif.Props.Display
import Verif.Props.Hist
import Verif.Lemmas.Good
import Verif.Lemmas.ParserRes
import Verif.Props.Good
import Verif.Spec.Analysis
import Verif.Lemmas.Analyzer
import Verif.Lemmas.Errors
import Verif.Lemmas.Accepted
import Verif.Props.Analysis
import Verif.Lemmas.Approx
import Verif.Props.Steps
import Verif.Spec.Constants
import Verif.Props.Builtins
import Verif.Spec.Search
import Verif.Lemmas.Search
import Verif.Lemmas.SearchKernel
import Verif.Props.Search
import Verif.Spec.Grammar
import Verif.Spec.Repeat
import Verif.Lemmas.ParserFuel
import Verif.Lemmas.Lexing
import Verif.Lemmas.Levels
import Verif.Lemmas.KeptScopes
import Verif.Lemmas.Literal
import Verif.Lemmas.RoundTrip
import Verif.Lemmas.Keyword
import Verif.Lemmas.Loose
import Verif.Lemmas.RoundTripStmt
import Verif.Lemmas.Spelling
import Verif.Props.Parser
import Verif.Props.Accept
import Verif.Model.Scripts
import Verif.Spec.Scripts
import Verif.Spec.Reflect
import Verif.Props.Scripts
import Verif.Props.Dist
import Verif.Props.Reflect
import Verif.Props.Rules
import Verif.Spec.Forever
import Verif.Props.Forever
import Verif.Spec.Source
import Verif.Lemmas.Source
import Verif.Props.Source
import Verif.Spec.Session
import Verif.Props.Session
import Verif.Props.Exact
import Verif.Props.ExactFs
import Verif.Props.Reprint
import Verif.Model.Main
import Verif.Model.Message
import Verif.Props.Main
import Verif.Spec.Messages
import Verif.Lemmas.Messages
import Verif.Lemmas.Complaints
import Verif.Lemmas.FailsLhs
import Verif.Lemmas.Failing
import Verif.Props.Messages
import Verif.Spec.Abi
import Verif.Props.Abi
import Verif.Spec.World
import Verif.Lemmas.WorldRead
import Verif.Lemmas.WorldFs
import Verif.Lemmas.WorldSearch
import Verif.Lemmas.WorldHist
import Verif.Lemmas.WorldTransfer
import Verif.Props.World
import Verif.Spec.Streams
import Verif.Lemmas.Prefix
import Verif.Lemmas.Room
import Verif.Lemmas.Process
import Verif.Lemmas.Streams
import Verif.Props.Streams
import Verif.Model.Live
import Verif.Spec.Live
import Verif.Lemmas.Live
import Verif.Lemmas.Honest
import Verif.Props.Live
import Verif.Spec.Moments
import Verif.Lemmas.Moments
import Verif.Lemmas.MomentsExpr
import Verif.Lemmas.MomentsStmt
import Verif.Lemmas.MomentsComes
import Verif.Lemmas.MomentsSafe
import Verif.Spec.LiveSession
import Verif.Lemmas.LiveSession
import Verif.Props.Moments
import Verif.Spec.Unread
import Verif.Lemmas.Unread
import Verif.Props.Unread
import Verif.Props.ExactMore
import Verif.Model.Ioctl
import Verif.Spec.Ioctl
import Verif.Props.Ioctl
import Verif.Model.Debug
import Verif.Spec.Debug
import Verif.Props.Debug
import Verif.Model.Stdin
import Verif.Spec.Stdin
import Verif.Props.Stdin
import Verif.Spec.Pieces
import Verif.Lemmas.Pieces
import Verif.Props.Pieces
import Verif.Spec.Rename
import Verif.Lemmas.Sim
import Verif.Lemmas.Rename
import Verif.Props.Rename
import Verif.Spec.InUse
import Verif.Lemmas.InUse
import Verif.Props.InUse
import Verif.Spec.Slips
import Verif.Lemmas.Slips
import Verif.Props.Blame
import Verif.Model.Handles
import Verif.Spec.Handles
import Verif.Lemmas.Handles
import Verif.Props.Handles
import Verif.Model.Trace
import Verif.Spec.Trace
import Verif.Lemmas.Trace
import Verif.Lemmas.TraceBelow
import Verif.Props.Trace
import Verif.Model.Stderr
import Verif.Spec.Stderr
import Verif.Lemmas.Stderr
import Verif.Props.Stderr
import Verif.Validation.Same
import Verif.Validation.Parse
import Verif.Validation.Eval
import Verif.Validation.Semantics
import Verif.Validation.Rest
import Verif.Spec.Shape
import Verif.Lemmas.Shape
import Verif.Lemmas.Values
import Verif.Lemmas.Lasting
import Verif.Props.Shape
import Verif.Model.ParseCost
import Verif.Lemmas.ParseCost
import Verif.Lemmas.Looks
import Verif.Lemmas.LooksExpr
import Verif.Lemmas.LooksPrim
import Verif.Lemmas.LooksStmt
import Verif.Lemmas.LooksFull
import Verif.Props.Looks
import Verif.Spec.Exchange
import Verif.Lemmas.Exchange
import Verif.Props.Exchange
import Verif.Spec.Changing
import Verif.Lemmas.Changing
import Verif.Props.Requests
import Verif.Props.Changing
import Verif.Spec.Rewrite
import Verif.Lemmas.Merge
import Verif.Lemmas.Rewrite
import Verif.Props.Rewrite
import Verif.Model.Nesting
import Verif.Spec.Nesting
import Verif.Lemmas.Nesting
import Verif.Props.Nesting
import Verif.Lemmas.NestingTree
import Verif.Spec.Propagate
import Verif.Lemmas.Propagate
import Verif.Props.Propagate
import Verif.Spec.Unaware
import Verif.Lemmas.Unaware
import Verif.Props.Unaware
import Verif.Props.Stuck
