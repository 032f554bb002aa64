import Verif.Codegen.Generate

/-!
# What the generated module should be, read off the registry
-/

namespace Verif.CodegenSpec
open Verif Verif.Codegen

/-- The registered types of a namespace, in registration order. -/
def typesOf (r : Registry) (ns : Str) : List Member := r.members.filter (fun m => m.ns = ns)

/-- The rpc functions of a namespace, in registration order. -/
def rpcOf (r : Registry) (ns : Str) : List RpcMember := r.rpc.filter (fun m => m.ns = ns)

/-- The namespace has something to show. -/
def Populated (r : Registry) (ns : Str) : Prop :=
  (∃ m ∈ r.members, m.ns = ns) ∨ (∃ m ∈ r.rpc, m.ns = ns)

/-- A registered type: documentation and schema constant, then documentation and type declaration. -/
def typeText (d : Member) : Str :=
  d.docs.getD [] ++ lit "export const " ++ d.name ++ lit "= " ++ d.schema ++ lit "\n" ++
  d.docs.getD [] ++
    (match d.typeDef with
      | .interface body => lit "export interface " ++ d.name ++ lit " " ++ body
      | .type body => lit "export type " ++ d.name ++ lit " = " ++ body ++ lit ";") ++
  lit "\n\n"

/-- A registered type, with these names for its schema constant and for its type. -/
def typeTextAs (schemaName typeName : Str) (d : Member) : Str :=
  d.docs.getD [] ++ lit "export const " ++ schemaName ++ lit "= " ++ d.schema ++ lit "\n" ++
  d.docs.getD [] ++
    (match d.typeDef with
      | .interface body => lit "export interface " ++ typeName ++ lit " " ++ body
      | .type body => lit "export type " ++ typeName ++ lit " = " ++ body ++ lit ";") ++
  lit "\n\n"

/-- The name of the schema constant with these options. -/
def schemaName (o : Options) (d : Member) : Str := o.prefixSchema ++ d.name ++ o.suffixSchema

/-- The name of the type with these options: interfaces and other types have prefixes and suffixes of their own. -/
def typeName (o : Options) (d : Member) : Str :=
  match d.typeDef with
  | .interface _ => o.prefixInterface ++ d.name ++ o.suffixInterface
  | .type _ => o.prefixType ++ d.name ++ o.suffixType

/-- The block of a namespace, with these options. -/
def blockAs (r : Registry) (o : Options) (ns : Str) : Str :=
  lit "export namespace " ++ ns ++ lit " { " ++
    (((typesOf r ns).map (fun d => typeTextAs (schemaName o d) (typeName o d) d)).flatten ++
      ((rpcOf r ns).map RpcMember.decl).flatten) ++ lit " }"

/-- The block of a namespace. -/
def block (r : Registry) (ns : Str) : Str :=
  lit "export namespace " ++ ns ++ lit " { " ++
    (((typesOf r ns).map typeText).flatten ++ ((rpcOf r ns).map RpcMember.decl).flatten) ++ lit " }"

end Verif.CodegenSpec
