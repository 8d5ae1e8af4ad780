import Verif.Model.Str
import Verif.Model.Lexer
import Verif.Model.Ast
import Verif.Model.Grammar
import Verif.Model.Parser
import Verif.Model.State
import Verif.Model.Context
import Verif.Model.Jobs
import Verif.Model.Fd
import Verif.Model.Expand
import Verif.Model.Builtins
import Verif.Model.Eval
import Verif.Model.Main
import Verif.Model.Files
import Verif.Model.Completion
import Verif.Spec.Lexer
import Verif.Proofs.Lexer
import Verif.Props.Lexer
import Verif.Spec.Grammar
import Verif.Spec.Words
import Verif.Spec.Blanks
import Verif.Proofs.Blanks
import Verif.Proofs.Parser
import Verif.Proofs.Line
import Verif.Props.Grammar
import Verif.Proofs.Monad
import Verif.Spec.Context
import Verif.Spec.CtxOps
import Verif.Spec.Demo
import Verif.Proofs.Str
import Verif.Proofs.Context
import Verif.Proofs.Digits
import Verif.Props.Context
import Verif.Props.Scopes
import Verif.Props.Scripts
import Verif.Props.ReadonlyFuncs
import Verif.Props.Children
import Verif.Props.Namespaces
import Verif.Proofs.Frame
import Verif.Proofs.Frames
import Verif.Spec.Session
import Verif.Proofs.Session
import Verif.Spec.Calls
import Verif.Proofs.Calls
import Verif.Props.Calls
import Verif.Spec.Jobs
import Verif.Proofs.Jobs
import Verif.Props.Jobs
import Verif.Props.Kills
import Verif.Props.Printing
import Verif.Props.Current
import Verif.Proofs.Wait
import Verif.Proofs.Child
import Verif.Proofs.Fds
import Verif.Proofs.Pipeline
import Verif.Proofs.Run
import Verif.Proofs.Foreground
import Verif.Proofs.Static
import Verif.Spec.External
import Verif.Proofs.Expand
import Verif.Proofs.Quiet
import Verif.Proofs.External
import Verif.Proofs.Start
import Verif.Spec.Prompt
import Verif.Proofs.Prompt
import Verif.Proofs.Disp
import Verif.Spec.Line
import Verif.Proofs.Typing
import Verif.Proofs.Builtin
import Verif.Props.Words
import Verif.Spec.Alias
import Verif.Proofs.Later
import Verif.Props.Builtins
import Verif.Spec.Lists
import Verif.Props.Lists
import Verif.Spec.Pipes
import Verif.Proofs.Pipes
import Verif.Props.Pipelines
import Verif.Spec.Builtin
import Verif.Proofs.Call
import Verif.Props.Commands
import Verif.Spec.Signals
import Verif.Spec.Waits
import Verif.Props.Signals
import Verif.Spec.Functions
import Verif.Spec.FuncOps
import Verif.Spec.Namespaces
import Verif.Props.Functions
import Verif.Spec.Redirect
import Verif.Proofs.Redirect
import Verif.Spec.Wiring
import Verif.Proofs.Wiring
import Verif.Proofs.Rest
import Verif.Proofs.Substitution
import Verif.Props.Redirections
import Verif.Props.Wiring
import Verif.Props.Lookup
import Verif.Spec.Startup
import Verif.Props.Startup
import Verif.Spec.Splitting
import Verif.Spec.Substitution
import Verif.Spec.Sessions
import Verif.Props.Expansion
import Verif.Spec.Naming
import Verif.Props.Naming
import Verif.Props.Unset
import Verif.Props.Sessions
import Verif.Props.Prompts
import Verif.Spec.Process
import Verif.Props.Process
import Verif.Spec.Inside
import Verif.Props.Inside
import Verif.Spec.Fixed
import Verif.Props.Fixed
import Verif.Props.Interleave
import Verif.Props.Outcomes
import Verif.Props.Layout
import Verif.Props.Depth
import Verif.Props.Crash
import Verif.Spec.Programs
import Verif.Proofs.Started
import Verif.Props.Programs
import Verif.Proofs.Waits
import Verif.Props.Waiting
import Verif.Props.Background
import Verif.Props.VarData
import Verif.Props.Wholes
import Verif.Props.Misuse
import Verif.Props.Handlers
import Verif.Props.Substitutions
import Verif.Spec.Announces
import Verif.Spec.Directory
import Verif.Proofs.Main
import Verif.Props.Announces
import Verif.Props.Directory
import Verif.Spec.Parameters
import Verif.Props.Parameters
import Verif.Spec.StartFiles
import Verif.Props.StartFiles
import Verif.Proofs.Refused
import Verif.Proofs.Leaks
import Verif.Props.Refused
import Verif.Props.Restricted
import Verif.Props.History
import Verif.Props.Touching
import Verif.Props.Interrupt
import Verif.Props.Keys
import Verif.Spec.Listings
import Verif.Props.Listings
import Verif.Model.Unused
import Verif.Spec.Unused
import Verif.Props.Unused
import Verif.Props.Replaced
import Verif.Spec.Exec
import Verif.Props.Exec
import Verif.Spec.CtrlC
import Verif.Props.CtrlC
import Verif.Props.ExportWords
import Verif.Props.Surplus
import Verif.Spec.Rank
import Verif.Proofs.Room
import Verif.Props.Room
import Verif.Props.OnlyNamed
import Verif.Spec.Reference
import Verif.Proofs.Reference
import Verif.Props.Reference
import Verif.Props.Masks
import Verif.Props.Opens
import Verif.Props.Mini
import Verif.Props.Fns
import Verif.Props.FnDepth
import Verif.Props.FnStages
import Verif.Props.FnMissing
import Verif.Props.FnMixed
import Verif.Props.FnTalk
import Verif.Props.FromStart
import Verif.Props.StartFails
import Verif.Props.FgCrash
import Verif.Props.FunRedir
import Verif.Props.NamesOf
