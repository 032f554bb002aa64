import Verif.Rpc.Wire

/-!
# Measures of JSON documents
-/

namespace Verif.TextSpec
open Verif

/-- How many arrays and objects are nested in each other. -/
def nesting : Json → Nat
  | .arr l => 1 + inList l
  | .obj kvs => 1 + inMembers kvs
  | _ => 0
where
  inList : List Json → Nat
    | [] => 0
    | j :: r => max (nesting j) (inList r)
  inMembers : List (Str × Json) → Nat
    | [] => 0
    | (_, j) :: r => max (nesting j) (inMembers r)

/-- Every number in the document has the property. -/
def AllNums (p : JNum → Prop) : Json → Prop
  | .num n => p n
  | .arr l => inList l
  | .obj kvs => inMembers kvs
  | _ => True
where
  inList : List Json → Prop
    | [] => True
    | j :: r => AllNums p j ∧ inList r
  inMembers : List (Str × Json) → Prop
    | [] => True
    | (_, j) :: r => AllNums p j ∧ inMembers r

end Verif.TextSpec
