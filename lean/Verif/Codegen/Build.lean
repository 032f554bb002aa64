import Verif.Codegen.Rpc

/-!
# Computing the registry of a program (for examples)
-/

namespace Verif.Codegen
open Verif Verif.Schema

/-- The member registered for a declaration: `NamespaceMemberDefinition::new_for`, `core/src/lib.rs:80-105`. -/
def mkMember (P : Program) (n : Nat) (x : Decl × Nat) : Member where
  ns := x.1.ns
  name := x.1.name
  schema := (eval P n .schema (.named x.2)).getD []
  typeDef := tsTypeDef ((kindOf P n (.named x.2)).getD .type) ((eval P n .typeDef (.named x.2)).getD [])
  docs := match derive x.1 with
    | .ok impl => impl.docs
    | .error _ => none

/-- The member registered for a function: `core/src/rpc/codegen/mod.rs:18-47`. -/
def mkRpc (P : Program) (n : Nat) (x : Str × RpcItem) : RpcMember where
  kind := x.2.kind
  ns := x.1
  name := x.2.ident
  args := x.2.args.map (fun a => ⟨a.1, (eval P n .inline a.2).getD [], (eval P n .inlineSchema a.2).getD []⟩)
  res := (eval P n .typeDef x.2.output).getD []

/-- What `inventory` collects: all types and functions. -/
def mkRegistry (P : Program) (impls : List (Str × List RpcItem)) (n : Nat) : Registry where
  members := P.zipIdx.map (mkMember P n)
  rpc := (impls.flatMap (fun b => b.2.map (fun i => (b.1, i)))).map (mkRpc P n)

/-- The derive macro succeeds. -/
def derives (d : Decl) : Bool :=
  match derive d with
  | .ok _ => true
  | .error _ => false

/-- All functions return within `n` nested calls. -/
def checkModule (P : Program) (impls : List (Str × List RpcItem)) (n : Nat) : Bool :=
  P.zipIdx.all (fun x => (eval P n .schema (.named x.2)).isSome && (kindOf P n (.named x.2)).isSome &&
    (eval P n .typeDef (.named x.2)).isSome && derives x.1) &&
  impls.all (fun b => b.2.all (fun f => (eval P n .typeDef f.output).isSome &&
    f.args.all (fun a => (eval P n .inline a.2).isSome && (eval P n .inlineSchema a.2).isSome)))

theorem getD_some {α : Type} {o : Option α} {d : α} (h : o.isSome = true) : o = some (o.getD d) := by
  cases o with
  | none => cases h
  | some a => rfl

theorem mkRegistry_isModule {P : Program} {impls : List (Str × List RpcItem)} {n : Nat} (h : checkModule P impls n = true) :
    IsModule P impls (mkRegistry P impls n) := by
  unfold checkModule at h
  rw [Bool.and_eq_true, List.all_eq_true, List.all_eq_true] at h
  obtain ⟨h1, h2⟩ := h
  refine ⟨⟨P.zipIdx.map (mkMember P n), .refl _, by simp, fun i d m hd hm => ?_⟩, _, .refl _, by simp [mkRegistry], fun k x m hx hm => ?_⟩
  · rw [List.getElem?_map, List.getElem?_zipIdx, hd] at hm
    simp only [Option.map_some, Nat.zero_add, Option.some.injEq] at hm
    subst hm
    have := h1 (d, i) (List.mem_zipIdx_iff_getElem?.2 hd)
    simp only [Bool.and_eq_true] at this
    obtain ⟨⟨⟨e1, e2⟩, e3⟩, e4⟩ := this
    refine ⟨hd, rfl, rfl, ⟨n, getD_some e1⟩, ⟨n, _, _, getD_some e2, ⟨n, getD_some e3⟩, rfl⟩, ?_⟩
    unfold derives at e4
    cases hdv : derive d with
    | error e => rw [hdv] at e4; cases e4
    | ok impl => exact ⟨impl, rfl, by simp [mkMember, hdv]⟩
  · simp only [mkRegistry, List.getElem?_map, hx, Option.map_some, Option.some.injEq] at hm
    subst hm
    obtain ⟨b, hb, hx'⟩ := List.mem_flatMap.1 (List.mem_of_getElem? hx)
    obtain ⟨f, hf, rfl⟩ := List.mem_map.1 hx'
    have := List.all_eq_true.1 (h2 b hb) f hf
    rw [Bool.and_eq_true, List.all_eq_true] at this
    refine ⟨rfl, rfl, rfl, by simp [mkRpc, Function.comp_def], fun k a p ha hp => ?_, ⟨n, getD_some this.1⟩⟩
    simp only [mkRpc, List.getElem?_map] at ha
    simp only at hp
    rw [hp] at ha
    simp only [Option.map_some, Option.some.injEq] at ha
    subst ha
    have := this.2 p (List.mem_of_getElem? hp)
    rw [Bool.and_eq_true] at this
    exact ⟨⟨n, getD_some this.1⟩, ⟨n, getD_some this.2⟩⟩

end Verif.Codegen
