import Verif.Spec.Wire

/-!
# What a call names

Specification of dispatch: which method a message names and with which arguments.
-/

namespace Verif.DispatchSpec
open Verif

variable {S V : Type}

/-- Rust rejects a backend with two fields of one type name and an impl with two methods of one
name (duplicate enum variants). -/
def WellFormed (b : BackendDef S V) : Prop :=
  (b.fields.map (·.ident)).Nodup ∧ ∀ n ∈ b.fields, (n.methods.map (·.name)).Nodup

/-- Field number `i` is namespace `n` with a method number `j`, `m`. -/
def HasMethod (b : BackendDef S V) (i : Nat) (n : NamespaceDef S V) (j : Nat)
    (m : MethodDef S V) : Prop :=
  b.fields[i]? = some n ∧ n.methods[j]? = some m

/-- The JSON arguments decode, position by position, to `vs`. -/
inductive ArgsDecode : List (Json → Option V) → List Json → List V → Prop
  | nil : ArgsDecode [] [] []
  | cons {d ds j js v vs} : d j = some v → ArgsDecode ds js vs →
      ArgsDecode (d :: ds) (j :: js) (v :: vs)

/-- The argument value of a message fits a parameter list: no parameters are written `null` (or an
empty object), otherwise an array of exactly the right length whose elements decode. -/
def ArgsFit (ds : List (Json → Option V)) (a : Json) (vs : List V) : Prop :=
  (ds = [] ∧ vs = [] ∧ (a = .null ∨ a = .obj [])) ∨
  (ds ≠ [] ∧ ∃ js, a = .arr js ∧ ArgsDecode ds js vs)

/-- The method tag names method number `j`: by name, or by position. -/
def TagNames (n : NamespaceDef S V) (tag : Json) (j : Nat) (m : MethodDef S V) : Prop :=
  n.methods[j]? = some m ∧ (tag = .str m.name ∨ (tag = .num (.int j) ∧ j < 2 ^ 64))

/-- The value of a request (a map, so no key twice) is a call of method `j` of field `i` with
arguments `vs`. -/
def IsCall (b : BackendDef S V) (kvs : List (Str × Json)) (i j : Nat) (vs : List V) : Prop :=
  ∃ n m tag a, b.fields[i]? = some n ∧ BMap.get (lit "namespace") kvs = some (.str n.ident) ∧
    BMap.get (lit "method") kvs = some tag ∧ TagNames n tag j m ∧
    BMap.get (lit "args") kvs = some a ∧ ArgsFit m.args a vs

end Verif.DispatchSpec
