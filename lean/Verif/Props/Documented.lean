import Verif.Ts.Documented
import Verif.Props.Options

/-!
# C88: documentation changes nothing else

Two programs that differ in the documentation of their types only (`Verif/Spec/Documented.lean`).
-/

namespace Verif.Props
open Verif Verif.Schema Verif.SchemaSpec Verif.Js Verif.Ts Verif.Spec Verif.Codegen

/-- The full property: the modules of two builds that differ in documentation only, with any options, declare the same. -/
def C88_statement : Prop :=
  ∀ (P P' : Program) (impls : List (Str × List RpcItem)) (o : Options) (r r' : Registry) (names : List Str) (M : List Ns),
    Redocumented P P' → IsModule P impls r → IsModule P' impls r' → SameButDocs r r' →
    (WritesWith o r names M ↔ WritesWith o r' names M)

/-- **C88.** The property holds if nothing makes the module of the one program invalid and no documentation of the other
contains an end-of-comment mark. -/
theorem C88_partial (P P' : Program) (impls : List (Str × List RpcItem)) (hp : Printable P impls)
    (hd : ∀ d ∈ P', ∀ s ∈ DocsSpec.docStrings d.attrs, ¬ lit "*/" <:+: s) (o : Options) (ho : GoodAffixes o P)
    (r r' : Registry) (names : List Str) (M : List Ns) (h : IsModule P impls r) (h' : IsModule P' impls r') (hs : SameButDocs r r') :
    WritesWith o r names M ↔ WritesWith o r' names M := by
  obtain ⟨nss, M0, h1, h2, h3, _⟩ := module_blocks hp ho h names
  have h2' : ∀ x, x ∈ nss ↔ x ∈ names ∧ CodegenSpec.Populated r' x := fun x => by rw [h2, populated_redocumented hs]
  have h3' : All2 (ReadsNs r' o) nss M0 := All2.imp h3 (fun _ _ hn => readsNs_redocumented hs (registry_docs hd h'.types) hn)
  have w : WritesWith o r names M0 := by
    refine ⟨_, fun client => ?_, read_blocks h3⟩
    obtain ⟨b, b1, b2, b3⟩ := C18_options r names client o
    rw [C18_blocks_unique b1 h1 b2 h2] at b3
    exact b3
  have w' : WritesWith o r' names M0 := by
    refine ⟨_, fun client => ?_, read_blocks h3'⟩
    obtain ⟨b, b1, b2, b3⟩ := C18_options r' names client o
    rw [C18_blocks_unique b1 h1 b2 h2'] at b3
    exact b3
  exact ⟨fun hw => writesWith_unique w hw ▸ w', fun hw => writesWith_unique w' hw ▸ w⟩

/-- **C88, the builds exist.** Whatever the one program registers, the other registers too, in the same order if the linker
chooses it, with other documentation only. -/
theorem C88_registers (P P' : Program) (hP : Redocumented P P') (hr : ReadableAttrs P') (impls : List (Str × List RpcItem))
    (r : Registry) (h : IsModule P impls r) : ∃ r', IsModule P' impls r' ∧ SameButDocs r r' := registry_redocumented hP hr h

/-- **C88, generation.** All four methods of all types return the same texts. -/
theorem C88_texts (P P' : Program) (hP : Redocumented P P') (hr : ReadableAttrs P) (hr' : ReadableAttrs P') (m : Method) (t : Ty)
    (s : Str) : Returns P m t s ↔ Returns P' m t s :=
  ⟨returns_redocumented hP hr', returns_redocumented (redocumented_symm hP) hr⟩

/-- **C88, compilation.** The derive macro accepts a declaration with any documentation that it can read, or with none. -/
theorem C88_derives (d d' : Decl) (h : RedocumentedDecl d d') (hr : Derive.Attr.unparsable ∉ d.attrs)
    (hr' : Derive.Attr.unparsable ∉ d'.attrs) : (∃ impl, derive d = .ok impl) ↔ ∃ impl, derive d' = .ok impl := by
  have hs : RedocumentedDecl d' d := by
    cases h with
    | struct s attrs => exact .struct { s with attrs := attrs } s.attrs
    | enum e attrs => exact .enum { e with attrs := attrs } e.attrs
  exact ⟨fun ⟨_, hi⟩ => (derive_redocumented h hr' hi).elim (fun _ h => ⟨_, h⟩),
    fun ⟨_, hi⟩ => (derive_redocumented hs hr hi).elim (fun _ h => ⟨_, h⟩)⟩

/-- **C88, the server.** serde accepts the same documents. -/
theorem C88_read (P P' : Program) (hP : Redocumented P P') (t : Ty) (j : Json) : De P t j ↔ De P' t j :=
  ⟨Zod.de_other (redocumented_other hP), Zod.de_other (redocumented_other (redocumented_symm hP))⟩

/-! ## The hypotheses are met -/

/-- The declaration with this documentation. -/
def exWithDocs (attrs : List Derive.Attr) : Decl → Decl
  | .struct s => .struct { s with attrs := attrs }
  | .enum e => .enum { e with attrs := attrs }

theorem exWithDocs_redocumented (attrs : List Derive.Attr) (P : Program) : Redocumented P (P.map (exWithDocs attrs)) := by
  induction P with
  | nil => exact .nil
  | cons d P ih =>
    refine .cons ?_ ih
    cases d with
    | struct s => exact .struct s attrs
    | enum e => exact .enum e attrs

theorem eval_same {P P' : Program} (hP : Redocumented P P') (hr : ReadableAttrs P) (hr' : ReadableAttrs P') (n : Nat) :
    eval P' n = eval P n := by
  funext m t
  refine Option.ext (fun s => ⟨eval_redocumented (redocumented_symm hP) hr n m t s, eval_redocumented hP hr' n m t s⟩)

theorem kindOf_same {P P' : Program} (hP : Redocumented P P') (hr : ReadableAttrs P) (hr' : ReadableAttrs P') (n : Nat) :
    kindOf P' n = kindOf P n := by
  funext t
  refine Option.ext (fun k => ⟨kind_redocumented (redocumented_symm hP) hr n t k, kind_redocumented hP hr' n t k⟩)

theorem zipIdx_redocumented {P P' : Program} (hP : Redocumented P P') (k : Nat) :
    All2 (fun x x' : Decl × Nat => RedocumentedDecl x.1 x'.1 ∧ x'.2 = x.2) (P.zipIdx k) (P'.zipIdx k) := by
  unfold Redocumented at hP
  induction hP generalizing k with
  | nil => exact .nil
  | cons h1 _ ih => exact .cons ⟨h1, rfl⟩ (ih (k + 1))

theorem mkRegistry_same {P P' : Program} (hP : Redocumented P P') (hr : ReadableAttrs P) (hr' : ReadableAttrs P')
    (impls : List (Str × List RpcItem)) (n : Nat) : SameButDocs (mkRegistry P impls n) (mkRegistry P' impls n) := by
  refine ⟨?_, ?_⟩
  · show All2 _ (P.zipIdx.map (mkMember P n)) (P'.zipIdx.map (mkMember P' n))
    have h := zipIdx_redocumented hP 0
    generalize P.zipIdx = l at h
    generalize P'.zipIdx = l' at h
    induction h with
    | nil => exact .nil
    | cons h1 _ ih =>
      refine .cons ⟨(redocumented_names h1.1).1, (redocumented_names h1.1).2, ?_, ?_⟩ ih
      · simp only [mkMember, eval_same hP hr hr', h1.2]
      · simp only [mkMember, eval_same hP hr hr', kindOf_same hP hr hr', h1.2]
  · have : mkRpc P' n = mkRpc P n := by
      funext x
      simp only [mkRpc, eval_same hP hr hr']
    simp only [mkRegistry, this]

/-- Two lines of documentation, with what looks like the start of a comment. -/
def exDocs : List Derive.Attr := [.doc (lit " See /* and `z.never()`."), .other, .doc (lit " export const evil")]

def exNewDocs : Program := exMod.map (exWithDocs exDocs)

theorem exNewDocs_isModule : IsModule exNewDocs exImpls (mkRegistry exNewDocs exImpls 9) := mkRegistry_isModule (by decide +kernel)

theorem exMod_readable : ReadableAttrs exMod := forall_two (by decide +kernel) (by decide +kernel)

theorem exNewDocs_readable : ReadableAttrs exNewDocs := forall_two (by decide +kernel) (by decide +kernel)

theorem exNewDocs_same : SameButDocs (mkRegistry exMod exImpls 9) (mkRegistry exNewDocs exImpls 9) :=
  mkRegistry_same (exWithDocs_redocumented _ _) exMod_readable exNewDocs_readable _ _

theorem exNewDocs_docs : ∀ d ∈ exNewDocs, ∀ s ∈ DocsSpec.docStrings d.attrs, ¬ lit "*/" <:+: s := by
  have key : ∀ s ∈ DocsSpec.docStrings exDocs, ¬ lit "*/" <:+: s := by decide +kernel
  exact forall_two key key

/-- The two modules of the example are the same. -/
example : ∃ M, Writes (mkRegistry exMod exImpls 9) exNames M ∧ Writes (mkRegistry exNewDocs exImpls 9) exNames M := by
  obtain ⟨M, h, _⟩ := exMod_resolved
  exact ⟨M, h, (C88_partial exMod exNewDocs exImpls exMod_printable exNewDocs_docs Options.default (goodAffixes_default exMod_printable)
    _ _ exNames M exMod_isModule exNewDocs_isModule exNewDocs_same).1 h⟩

/-- The texts of the two modules are not: the documentation is there. -/
example : generate (mkRegistry exMod exImpls 9) exNames [] ≠ generate (mkRegistry exNewDocs exImpls 9) exNames [] := by decide +kernel

/-- The hypotheses of the other theorems are met by the same programs. -/
example : Redocumented exMod exNewDocs ∧ ReadableAttrs exMod ∧ ReadableAttrs exNewDocs :=
  ⟨exWithDocs_redocumented _ _, exMod_readable, exNewDocs_readable⟩

/-! ## Documentation can declare something -/

/-- `/// */ export const evil = z.string() /*` -/
def exEvilDocs : List Derive.Attr := [.doc (lit " */ export const evil = z.string() /*")]

def exEvil : Program := exMod.map (exWithDocs exEvilDocs)

/-- The module is valid and declares a constant that no type or function of the program is called. -/
theorem exEvil_declares : (readModule (generate (mkRegistry exEvil exImpls 9) exNames [])).map
      (fun M => M.any (fun N => N.items.any (fun i => i.name == lit "evil"))) = some true := by decide +kernel

theorem exEvil_isModule : IsModule exEvil exImpls (mkRegistry exEvil exImpls 9) := mkRegistry_isModule (by decide +kernel)

theorem exMod_declares_not : (readModule (generate (mkRegistry exMod exImpls 9) exNames [])).map
      (fun M => !M.any (fun N => N.items.any (fun i => i.name == lit "evil"))) = some true := by decide +kernel

/-- C88 is false: documentation with an end-of-comment mark can declare things. -/
theorem C88_violated : ¬ C88_statement := by
  intro h
  obtain ⟨M, hM, _⟩ := exMod_resolved
  have hM' := (h exMod exEvil exImpls Options.default (mkRegistry exMod exImpls 9) (mkRegistry exEvil exImpls 9) exNames M
    (exWithDocs_redocumented _ _) exMod_isModule exEvil_isModule (mkRegistry_same (exWithDocs_redocumented _ _) exMod_readable
      (forall_two (by decide +kernel) (by decide +kernel)) _ _)).1 (writesWith_default.2 hM)
  have h1 := writes_check (writesWith_default.1 hM') exEvil_declares
  have h2 := writes_check hM exMod_declares_not
  rw [h1] at h2
  cases h2

end Verif.Props
