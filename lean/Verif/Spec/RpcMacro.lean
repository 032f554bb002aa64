import Verif.Codegen.Rpc

/-!
# Which functions can be rpc functions
-/

namespace Verif.Spec
open Verif Verif.Schema Verif.Codegen

/-- The first receiver is `&mut self`. -/
def TakesMutSelf (inputs : List FnArg) : Prop :=
  ∃ before after, inputs = before ++ .receiver ⟨true, some none⟩ :: after ∧ ∀ r, FnArg.receiver r ∉ before

/-- The function is `async`, or it returns something (a stream). -/
def HasResult (s : Sig) : Prop := s.isAsync = true ∨ ∃ i t, s.output = .type i t

/-- An `async` function does not return `impl Trait`. -/
def NoAsyncStream (s : Sig) : Prop := s.isAsync = true → ∀ t, s.output ≠ .type true t

/-- All arguments are plain names. -/
def PlainArgs (inputs : List FnArg) : Prop := ∀ p t, FnArg.typed p t ∈ inputs → ∃ n, p = .ident n

/-- The conditions on a function together. -/
structure Acceptable (s : Sig) : Prop where
  result : HasResult s
  self : TakesMutSelf s.inputs
  args : PlainArgs s.inputs
  notBoth : NoAsyncStream s

/-- What is registered for an acceptable function: its name, the names and types of its arguments in order without
`self`, a method if it is `async` and a stream otherwise, and its result type, `()` if it has none. -/
structure RegisteredAs (s : Sig) (i : RpcItem) : Prop where
  name : i.ident = s.ident
  args : s.inputs.filterMap (fun a => match a with | .typed p t => some (p, t) | .receiver _ => none) =
    i.args.map (fun a => (.ident a.1, a.2))
  kind : i.kind = .method ↔ s.isAsync = true
  output : (s.output = .default ∧ i.output = .prim .unit ∧ i.implTrait = false) ∨ s.output = .type i.implTrait i.output

end Verif.Spec
