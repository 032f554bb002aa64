import Verif.Check.Decls
import Verif.Spec.Sent
import Verif.Spec.Scope
import Verif.Spec.File
import Verif.Props.File

/-!
# A check for projects

`conforms` computes whether the declarations and functions of a project are of the kind that the theorems are about. None
of this models code of the repository.
-/

namespace Verif.Check
open Verif Verif.Js Verif.Ts Verif.Schema Verif.SchemaSpec Verif.Spec Verif.Codegen

/-- Decides `Called`. -/
def called (P : Program) (impls : List (Str × List RpcItem)) (x : Str) : Bool :=
  P.any (fun d => d.name == x) || impls.any (fun b => b.2.any (fun f => f.ident == x || f.args.any (fun a => a.1 == x)))

theorem called_of {P : Program} {impls : List (Str × List RpcItem)} {x : Str} (h : Called P impls x) : called P impls x = true := by
  simp only [called, Bool.or_eq_true, List.any_eq_true, beq_iff_eq]
  exact h

/-- Decides `GoodFn`. -/
def goodFn (f : RpcItem) : Bool :=
  isIdent f.ident && bindable f.ident && f.args.all (fun a => isIdent a.1 && bindable a.1) && decide (f.args.map (·.1)).Nodup

/-- The text of the module will be valid. -/
def printable (P : Program) (impls : List (Str × List RpcItem)) (n : Nat) : Bool :=
  P.all (fun d => goodDecl d && !typeOperators.contains d.ns && wellStyled d && plain d && declarable d.name &&
    (DocsSpec.docStrings d.attrs).all (fun s => !decide (lit "*/" <:+: s))) &&
  (List.range P.length).all (fun i => unbroken P n (.named i)) &&
  impls.all (fun b => isIdent b.1 && bindable b.1 && b.2.all goodFn)

theorem printable_sound {P : Program} {impls : List (Str × List RpcItem)} {n : Nat} (h : printable P impls n = true) :
    Printable P impls := by
  simp only [printable, Bool.and_eq_true, List.all_eq_true, Bool.not_eq_true', decide_eq_false_iff_not] at h
  obtain ⟨⟨h1, h2⟩, h3⟩ := h
  exact {
    names := fun d hd => (h1 d hd).1.1.1.1.1
    typeNames := fun d hd => (h1 d hd).1.1.1.1.2
    styled := fun d hd => (h1 d hd).1.1.1.2
    plain := fun d hd => plain_sound (h1 d hd).1.1.2
    declarable := fun d hd => (h1 d hd).1.2
    interfaces := fun i => by
      by_cases hi : i < P.length
      · exact unbroken_sound P n _ (h2 i (List.mem_range.2 hi))
      · have hn : P[i]? = none := List.getElem?_eq_none (by omega)
        intro hb
        cases hb with
        | tuple _ s h => rw [hn] at h; cases h
        | flatten _ s f h => rw [hn] at h; cases h
        | enumFrom _ e t h => rw [hn] at h; cases h
    docs := fun d hd => (h1 d hd).2
    rpcNames := fun b hb => (h3 b hb).1
    functions := fun b hb f hf => Props.goodFn_of ((h3 b hb).2 f hf) }

/-- What the theorems require of a project, for the namespaces `names` of the backend. -/
structure Conforms (wide : Bool) (P : Program) (impls : List (Str × List RpcItem)) (names : List Str) : Prop where
  printable : Printable P impls
  namespaces : ∀ d ∈ P, d.ns ∈ names
  implemented : ∀ b ∈ impls, b.1 ∈ names
  once : (impls.map (·.1)).Nodup
  distinct : ∀ x ∈ names, (declaredNames P impls x).Nodup
  notShadowed : ∀ d ∈ P, ¬ Called P impls d.ns
  notOutside : ∀ d ∈ P, d.name ∉ outsideTypes
  clientFree : ∀ x ∈ clientNames, ¬ Called P impls x ∧ (∀ d ∈ P, d.ns ≠ x) ∧ ∀ b ∈ impls, b.1 ≠ x
  topLevel : ∀ x ∈ names, x ∉ Props.clientValues ∧ x ∉ browserValues
  guarded : Guarded P
  noUnion : NoFlattenedUnion P
  lax : Lax P
  noThrow : ∀ d ∈ P, NoThrow d
  sound : ∀ d ∈ P, SoundDecl wide P d
  complete : ∀ d ∈ P, CompleteDecl d
  typed : ∀ d ∈ P, TypedDecl P false false d
  strict : ∀ d ∈ P, StrictDecl P d
  functions : ∀ b ∈ impls, ∀ f ∈ b.2, Typed false f.output ∧ ∀ a ∈ f.args, Sound wide P a.2 ∧ Strict P a.2

/-- The check (`n`: how far types are followed). -/
def conforms (wide : Bool) (P : Program) (impls : List (Str × List RpcItem)) (names : List Str) (n : Nat) : Bool :=
  printable P impls n && checkModule P impls n && guardedAll P n && noFlattenedUnion P n &&
  P.all (fun d => names.contains d.ns && !called P impls d.ns && !outsideTypes.contains d.name && !Decl.deny d && (allFields d).all (fun f => f.aliases.isEmpty) && noThrow d &&
    soundDecl wide P n d && completeDecl n d && typedDecl P false false n d && strictDecl P n d) &&
  impls.all (fun b => names.contains b.1 && b.2.all (fun f => typed false n f.output &&
    f.args.all (fun a => sound wide P n a.2 && strict P n a.2))) &&
  decide (impls.map (·.1)).Nodup &&
  names.all (fun x => decide (declaredNames P impls x).Nodup && !Props.clientValues.contains x && !browserValues.contains x) &&
  clientNames.all (fun x => !called P impls x && P.all (fun d => d.ns != x) && impls.all (fun b => b.1 != x))

theorem conforms_sound {wide : Bool} {P : Program} {impls : List (Str × List RpcItem)} {names : List Str} {n : Nat}
    (h : conforms wide P impls names n = true) : Conforms wide P impls names ∧ checkModule P impls n = true := by
  simp only [conforms, Bool.and_eq_true, List.all_eq_true, Bool.not_eq_true', decide_eq_true_eq, bne_iff_ne,
    List.contains_iff_mem] at h
  obtain ⟨⟨⟨⟨⟨⟨⟨⟨h1, h2⟩, h3⟩, h4⟩, h5⟩, h6⟩, h7⟩, h8⟩, h9⟩ := h
  have nc : ∀ {x}, called P impls x = false → ¬ Called P impls x := fun h hc => by rw [called_of hc] at h; cases h
  have nm : ∀ {l : List Str} {x}, l.contains x = false → x ∉ l := fun h hc => by
    rw [List.contains_iff_mem.2 hc] at h; cases h
  refine ⟨?_, h2⟩
  exact {
    printable := printable_sound h1
    namespaces := fun d hd => (h5 d hd).1.1.1.1.1.1.1.1.1
    implemented := fun b hb => (h6 b hb).1
    once := h7
    distinct := fun x hx => (h8 x hx).1.1
    notShadowed := fun d hd => nc (h5 d hd).1.1.1.1.1.1.1.1.2
    notOutside := fun d hd => nm (h5 d hd).1.1.1.1.1.1.1.2
    clientFree := fun x hx => ⟨nc (h9 x hx).1.1, (h9 x hx).1.2, (h9 x hx).2⟩
    topLevel := fun x hx => ⟨nm (h8 x hx).1.2, nm (h8 x hx).2⟩
    guarded := guardedAll_sound h3
    noUnion := noFlattenedUnion_sound h4
    lax := fun d hd => ⟨(h5 d hd).1.1.1.1.1.1.2, fun f hf => List.isEmpty_iff.1 ((h5 d hd).1.1.1.1.1.2 f hf)⟩
    noThrow := fun d hd => noThrow_sound (h5 d hd).1.1.1.1.2
    sound := fun d hd => soundDecl_sound (h5 d hd).1.1.1.2
    complete := fun d hd => completeDecl_sound (h5 d hd).1.1.2
    typed := fun d hd => typedDecl_sound (h5 d hd).1.2
    strict := fun d hd => strictDecl_sound (h5 d hd).2
    functions := fun b hb f hf => ⟨typed_sound false n _ ((h6 b hb).2 f hf).1,
      fun a ha => ⟨sound_sound wide P n _ (((h6 b hb).2 f hf).2 a ha).1, strict_sound P n _ (((h6 b hb).2 f hf).2 a ha).2⟩⟩ }

end Verif.Check
