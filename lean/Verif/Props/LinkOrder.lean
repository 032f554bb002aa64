import Verif.Ts.LinkOrder
import Verif.Props.Options

/-!
# C89: the order of registration does not matter

`inventory` collects what is registered in an order that the linker chooses. `Verif/Spec/LinkOrder.lean` says which
differences between modules are allowed.
-/

namespace Verif.Props
open Verif Verif.Schema Verif.SchemaSpec Verif.Js Verif.Ts Verif.Spec Verif.Codegen

/-- **C89, what is registered.** All builds of a program register the same types and functions, each as often. -/
theorem C89_registered (P : Program) (impls : List (Str × List RpcItem)) (r r' : Registry) (h : IsModule P impls r)
    (h' : IsModule P impls r') : r.members.Perm r'.members ∧ r.rpc.Perm r'.rpc := registries_perm h h'

/-- **C89.** The modules of two builds of a program have the same namespaces in the same order, and each namespace has the same
declarations: the same constants with the same schemas, the same types, and the same functions. -/
theorem C89_same_module (P : Program) (impls : List (Str × List RpcItem)) (hp : Printable P impls) (o : Options) (ho : GoodAffixes o P)
    (r r' : Registry) (names : List Str) (h : IsModule P impls r) (h' : IsModule P impls r') :
    ∃ M M', WritesWith o r names M ∧ WritesWith o r' names M' ∧ Shuffled M M' := by
  obtain ⟨hm, hf⟩ := registries_perm h h'
  obtain ⟨nss, M, h1, h2, h3, _⟩ := module_blocks hp ho h names
  have h2' : ∀ x, x ∈ nss ↔ x ∈ names ∧ CodegenSpec.Populated r' x := fun x => by rw [h2, populated_perm hm hf]
  obtain ⟨M', hs, h3'⟩ := All2.comp h3 (S := fun N N' : Ns => N'.name = N.name ∧ N.items.Perm N'.items) (T := ReadsNs r' o)
    (fun x _ N _ hn => readsNs_perm hm hf hn)
  refine ⟨M, M', ⟨_, fun client => ?_, read_blocks h3⟩, ⟨_, fun client => ?_, read_blocks h3'⟩, hs⟩
  · obtain ⟨b, b1, b2, b3⟩ := C18_options r names client o
    rw [C18_blocks_unique b1 h1 b2 h2] at b3
    exact b3
  · obtain ⟨b, b1, b2, b3⟩ := C18_options r' names client o
    rw [C18_blocks_unique b1 h1 b2 h2'] at b3
    exact b3

/-- **C89, names.** What a name refers to in a namespace does not depend on the order: each declaration is in the one module iff it
is in the other. -/
theorem C89_declarations (M M' : List Ns) (h : Shuffled M M') (x : Str) (i : Item) :
    (∃ N ∈ M, N.name = x ∧ i ∈ N.items) ↔ ∃ N ∈ M', N.name = x ∧ i ∈ N.items := by
  constructor
  · rintro ⟨N, hN, e, hi⟩
    obtain ⟨N', hN', e', hp⟩ := Zod.All2.mem_left h hN
    exact ⟨N', hN', by rw [e', e], hp.mem_iff.1 hi⟩
  · rintro ⟨N', hN', e, hi⟩
    obtain ⟨N, hN, e', hp⟩ := Zod.All2.mem_right h hN'
    exact ⟨N, hN, by rw [← e', e], hp.mem_iff.2 hi⟩

/-! ## The hypotheses are met -/

/-- The build in which types and functions are registered the other way round. -/
def exLinked : Registry := ⟨(mkRegistry exMod exImpls 9).members.reverse, (mkRegistry exMod exImpls 9).rpc.reverse⟩

theorem exLinked_isModule : IsModule exMod exImpls exLinked := by
  obtain ⟨⟨ms, p, l, hm⟩, fl, pf, lf, hf⟩ := exMod_isModule
  refine ⟨⟨ms, p.trans (List.reverse_perm _).symm, l, hm⟩, fl.reverse, (List.reverse_perm _).trans pf, ?_, ?_⟩
  · show fl.reverse.length = (mkRegistry exMod exImpls 9).rpc.reverse.length
    rw [List.length_reverse, List.length_reverse, lf]
  · intro k x m hx hm
    replace hm : (mkRegistry exMod exImpls 9).rpc.reverse[k]? = some m := hm
    have hk : k < fl.length := by
      have := (List.getElem?_eq_some_iff.1 hx).1
      simpa using this
    rw [List.getElem?_reverse hk] at hx
    rw [List.getElem?_reverse (by omega)] at hm
    rw [← lf] at hm
    exact hf _ _ _ hx hm

/-- The texts of the two modules differ, -/
example : generate (mkRegistry exMod exImpls 9) exNames [] ≠ generate exLinked exNames [] := by decide +kernel

/-- but the modules differ in the order of declarations only. -/
example : ∃ M M', Writes (mkRegistry exMod exImpls 9) exNames M ∧ Writes exLinked exNames M' ∧ Shuffled M M' :=
  C89_same_module exMod exImpls exMod_printable Options.default (goodAffixes_default exMod_printable) _ _ exNames exMod_isModule exLinked_isModule

end Verif.Props
