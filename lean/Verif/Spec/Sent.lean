import Verif.Spec.Sound
import Verif.Spec.Dispatch
import Verif.Codegen.Rpc

/-!
# Validated calls

A generated client function validates its arguments and then sends the arguments themselves, not what
validation returns. What is needed to say that the server accepts them.
-/

namespace Verif.Spec
open Verif Verif.Js Verif.Schema Verif.SchemaSpec Verif.Codegen

/-- No declaration has `deny_unknown_fields`, and no field has an alias: members that are not named like a field are
ignored. -/
def Lax (P : Program) : Prop := ∀ d ∈ P, Decl.deny d = false ∧ ∀ f ∈ allFields d, f.aliases = []

/-- No object has two properties of one name (see `JsVal`). -/
def properJs : JsVal → Bool
  | .arr l => properList l
  | .obj kvs => decide ((kvs.map (·.1)).Nodup) && properObj kvs
  | _ => true
where
  properList : List JsVal → Bool
    | [] => true
    | v :: r => properJs v && properList r
  properObj : List (Str × JsVal) → Bool
    | [] => true
    | (_, v) :: r => properJs v && properObj r

/-- The properties that `JSON.stringify` writes. -/
def written (kvs : List (Str × JsVal)) : List (Str × JsVal) :=
  kvs.filter (fun p => match p.2 with
    | .undefined => false
    | .other => false
    | _ => true)

/-- `Kept v r`, for `r` the result of validating `v`: wherever an object of the result has just one property, so
has the object it was made from. (Validation removes properties that the schema does not mention.) -/
inductive Kept : JsVal → JsVal → Prop where
  | leaf (v : JsVal) : (∀ l, v ≠ .arr l) → (∀ kvs, v ≠ .obj kvs) → Kept v v
  | arr (l l' : List JsVal) : All2 Kept l l' → Kept (.arr l) (.arr l')
  | obj (kvs kvs' : List (Str × JsVal)) : ((written kvs').length = 1 → (written kvs).length = 1) →
      (∀ p ∈ kvs', Kept (objGet kvs p.1) p.2) → Kept (.obj kvs) (.obj kvs')

/-- The method of the backend that the function `f` becomes: it has the name of the function, and for each
argument, in order, a decoder that accepts the documents that serde accepts for the type of the argument. -/
def MethodFor {S V : Type} (P : Program) (f : RpcItem) (m : MethodDef S V) : Prop :=
  m.name = f.ident ∧ All2 (fun a d => ∀ j, De P a.2 j → ∃ v, d j = some v) f.args m.args

end Verif.Spec
