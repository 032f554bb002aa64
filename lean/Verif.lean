import Verif.Basic.Str
import Verif.Check.Decls
import Verif.Check.Project
import Verif.Client.Frame
import Verif.Client.History
import Verif.Client.Inv
import Verif.Client.InvMsg
import Verif.Client.InvReq
import Verif.Client.InvSub
import Verif.Client.Model
import Verif.Client.Text
import Verif.Codegen.Build
import Verif.Codegen.Generate
import Verif.Codegen.Lemmas
import Verif.Codegen.Members
import Verif.Codegen.Register
import Verif.Codegen.Rpc
import Verif.Derive.Docs
import Verif.Derive.DocsLemmas
import Verif.Js.Echo
import Verif.Js.ExprSound
import Verif.Js.LexSound
import Verif.Js.Lexer
import Verif.Js.Num
import Verif.Js.Parser
import Verif.Js.Source
import Verif.Js.SourceSound
import Verif.Js.Uses
import Verif.Js.Value
import Verif.Props.Again
import Verif.Props.Agree
import Verif.Props.Aliases
import Verif.Props.Args
import Verif.Props.Attrs
import Verif.Props.Backlog
import Verif.Props.Boundary
import Verif.Props.Calls
import Verif.Props.Checked
import Verif.Props.Client
import Verif.Props.Codegen
import Verif.Props.Complete
import Verif.Props.Decls
import Verif.Props.Derivable
import Verif.Props.Docs
import Verif.Props.Documented
import Verif.Props.Echo
import Verif.Props.EndToEnd
import Verif.Props.Enums
import Verif.Props.Evolve
import Verif.Props.Expand
import Verif.Props.Fair
import Verif.Props.FairCalls
import Verif.Props.File
import Verif.Props.Grammar
import Verif.Props.Grow
import Verif.Props.Ints
import Verif.Props.Ip
import Verif.Props.Leaks
import Verif.Props.LinkOrder
import Verif.Props.Lost
import Verif.Props.Module
import Verif.Props.Narrower
import Verif.Props.OfModule
import Verif.Props.Options
import Verif.Props.Order
import Verif.Props.Register
import Verif.Props.Rename
import Verif.Props.RenameTypes
import Verif.Props.Reorder
import Verif.Props.ReorderTypes
import Verif.Props.RpcMacro
import Verif.Props.Schema
import Verif.Props.Sentences
import Verif.Props.Server
import Verif.Props.Shuffle
import Verif.Props.ShuffleTypes
import Verif.Props.Sound
import Verif.Props.StandsFor
import Verif.Props.System
import Verif.Props.Table
import Verif.Props.Text
import Verif.Props.Throws
import Verif.Props.TypeWrappers
import Verif.Props.Types
import Verif.Props.TypesGrow
import Verif.Props.Unheard
import Verif.Props.Valid
import Verif.Props.Wider
import Verif.Props.Wire
import Verif.Props.Wrappers
import Verif.Props.Written
import Verif.Rpc.Demo
import Verif.Rpc.Dispatch
import Verif.Rpc.DispatchLemmas
import Verif.Rpc.Grow
import Verif.Rpc.Server
import Verif.Rpc.ServerInv
import Verif.Rpc.ServerInv2
import Verif.Rpc.ServerInv3
import Verif.Rpc.ServerStep
import Verif.Rpc.Wire
import Verif.Rpc.WireLemmas
import Verif.Schema.Bare
import Verif.Schema.Calls
import Verif.Schema.Derive
import Verif.Schema.Eval
import Verif.Schema.Lemmas
import Verif.Schema.Norm
import Verif.Schema.Reorder
import Verif.Schema.Steps
import Verif.Schema.Table
import Verif.Schema.Types
import Verif.Spec.Again
import Verif.Spec.Agree
import Verif.Spec.Args
import Verif.Spec.Backend
import Verif.Spec.Client
import Verif.Spec.Codegen
import Verif.Spec.Decls
import Verif.Spec.Derivable
import Verif.Spec.Dispatch
import Verif.Spec.Docs
import Verif.Spec.Documented
import Verif.Spec.Echo
import Verif.Spec.EnumShape
import Verif.Spec.Evolve
import Verif.Spec.Expand
import Verif.Spec.Fair
import Verif.Spec.File
import Verif.Spec.Grammar
import Verif.Spec.Grow
import Verif.Spec.GrowSystem
import Verif.Spec.Guarded
import Verif.Spec.Ints
import Verif.Spec.Ip
import Verif.Spec.LinkOrder
import Verif.Spec.Lost
import Verif.Spec.Module
import Verif.Spec.ModuleGrammar
import Verif.Spec.ModuleOf
import Verif.Spec.Names
import Verif.Spec.Order
import Verif.Spec.Project
import Verif.Spec.Rename
import Verif.Spec.Reorder
import Verif.Spec.Rfc8259
import Verif.Spec.RpcMacro
import Verif.Spec.Schema
import Verif.Spec.Scope
import Verif.Spec.Sent
import Verif.Spec.Ser
import Verif.Spec.Serde
import Verif.Spec.Server
import Verif.Spec.Shuffle
import Verif.Spec.Sound
import Verif.Spec.StandsFor
import Verif.Spec.Stubs
import Verif.Spec.System
import Verif.Spec.Table
import Verif.Spec.Text
import Verif.Spec.Throws
import Verif.Spec.TsIntent
import Verif.Spec.TsTypes
import Verif.Spec.Typed
import Verif.Spec.Unheard
import Verif.Spec.Wire
import Verif.Spec.Wrappers
import Verif.System.Answers
import Verif.System.Call
import Verif.System.CallOrder
import Verif.System.Calm
import Verif.System.Concrete
import Verif.System.Down
import Verif.System.Drive
import Verif.System.Fair
import Verif.System.FairCall
import Verif.System.FairStages
import Verif.System.FairStream
import Verif.System.Grow
import Verif.System.Inv
import Verif.System.Lemmas
import Verif.System.Lost
import Verif.System.Model
import Verif.System.Order
import Verif.System.Protect
import Verif.System.Result
import Verif.System.Stutter
import Verif.Tests.Doc
import Verif.Tests.Enum
import Verif.Tests.EnumDefault
import Verif.Tests.EnumRename
import Verif.Tests.EnumRenameAll
import Verif.Tests.EnumRenameFields
import Verif.Tests.EnumSkip
import Verif.Tests.StructDefault
import Verif.Tests.StructFlattening
import Verif.Tests.StructNewType
import Verif.Tests.StructRename
import Verif.Tests.StructRenameAll
import Verif.Tests.StructRenameFields
import Verif.Tests.StructSkip
import Verif.Tests.StructTransparent
import Verif.Tests.StructTuple
import Verif.Tests.Ui
import Verif.Tests.Utils
import Verif.Text.Grammar
import Verif.Text.GrammarValues
import Verif.Text.Numbers
import Verif.Text.Parse
import Verif.Text.Print
import Verif.Text.RoundTrip
import Verif.Text.Strings
import Verif.Text.Utf16
import Verif.Ts.Agree
import Verif.Ts.Aliases
import Verif.Ts.Alternatives
import Verif.Ts.Bridge
import Verif.Ts.Decls
import Verif.Ts.Documented
import Verif.Ts.Env
import Verif.Ts.File
import Verif.Ts.FileSound
import Verif.Ts.LinkOrder
import Verif.Ts.Means
import Verif.Ts.Module
import Verif.Ts.ModuleOf
import Verif.Ts.ModuleSound
import Verif.Ts.Names
import Verif.Ts.Parser
import Verif.Ts.ReadMembers
import Verif.Ts.ReadModule
import Verif.Ts.ReadStubs
import Verif.Ts.Rename
import Verif.Ts.Reorder
import Verif.Ts.Scope
import Verif.Ts.Sub
import Verif.Ts.SubDecl
import Verif.Ts.SubProgram
import Verif.Ts.TsOf
import Verif.Ts.TypeSound
import Verif.Ts.Unwrap
import Verif.Ts.Values
import Verif.Ts.Written
import Verif.Zod.Again
import Verif.Zod.Aliases
import Verif.Zod.Args
import Verif.Zod.Bridge
import Verif.Zod.Complete
import Verif.Zod.DeValue
import Verif.Zod.EnumShape
import Verif.Zod.Evals
import Verif.Zod.Evolve
import Verif.Zod.EvolveDe
import Verif.Zod.Expand
import Verif.Zod.ExpandDe
import Verif.Zod.ExpandSer
import Verif.Zod.Ints
import Verif.Zod.Inv
import Verif.Zod.Ip
import Verif.Zod.IpLemmas
import Verif.Zod.Loops
import Verif.Zod.Module
import Verif.Zod.Narrower
import Verif.Zod.NarrowerDe
import Verif.Zod.Parse
import Verif.Zod.Relate
import Verif.Zod.Rename
import Verif.Zod.RenameDe
import Verif.Zod.Reorder
import Verif.Zod.Returned
import Verif.Zod.Schema
import Verif.Zod.Sent
import Verif.Zod.Shuffle
import Verif.Zod.Sound
import Verif.Zod.StandsFor
import Verif.Zod.Term
import Verif.Zod.Throws
import Verif.Zod.Total
import Verif.Zod.Unwrap
import Verif.Zod.Wider
import Verif.Zod.ZOf
