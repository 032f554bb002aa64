import Verif.Spec.Sound

/-!
# Which values documents stand for
-/

namespace Verif.ArgsSpec
open Verif Verif.Js Verif.Schema Verif.SchemaSpec

/-- Values that JSON leaves out: `undefined`, functions, symbols. -/
def absent : JsVal → Bool
  | .undefined => true
  | .other => true
  | _ => false

/-- The value, where properties that are absent are left out and array elements that are absent are `null`. -/
def tidy : JsVal → JsVal
  | .arr l => .arr (tidyList l)
  | .obj kvs => .obj (tidyObj kvs)
  | v => v
where
  tidyList : List JsVal → List JsVal
    | [] => []
    | v :: r => (if absent v then .null else tidy v) :: tidyList r
  tidyObj : List (Str × JsVal) → List (Str × JsVal)
    | [] => []
    | (k, v) :: r => if absent v then tidyObj r else (k, tidy v) :: tidyObj r

/-- No `Map`, no `Set` and no infinite number or `NaN` anywhere in the value. -/
def sendable : JsVal → Bool
  | .num (.fin _) => true
  | .num _ => false
  | .set _ => false
  | .map _ => false
  | .arr l => sendableList l
  | .obj kvs => sendableObj kvs
  | _ => true
where
  sendableList : List JsVal → Bool
    | [] => true
    | v :: r => sendable v && sendableList r
  sendableObj : List (Str × JsVal) → Bool
    | [] => true
    | (_, v) :: r => sendable v && sendableObj r

/-- Types without maps, sets and floating point numbers. -/
inductive Discrete : Ty → Prop where
  | prim (p : Prim) : p ≠ .f32 → p ≠ .f64 → p ≠ .notNanF32 → p ≠ .notNanF64 → Discrete (.prim p)
  | wrap (w : Wrapper) (t : Ty) : Discrete t → Discrete (.wrap w t)
  | option (t : Ty) : Discrete t → Discrete (.option t)
  | vec (t : Ty) : Discrete t → Discrete (.vec t)
  | array (n : Nat) (t : Ty) : Discrete t → Discrete (.array n t)
  | tuple (ts : List Ty) : (∀ t ∈ ts, Discrete t) → Discrete (.tuple ts)
  | result (t e : Ty) : Discrete t → Discrete e → Discrete (.result t e)
  | named (i : Nat) : Discrete (.named i)

/-- No declaration uses others. -/
def DiscreteProgram (P : Program) : Prop := ∀ d ∈ P, ∀ t ∈ declTypes d, Discrete t

end Verif.ArgsSpec
