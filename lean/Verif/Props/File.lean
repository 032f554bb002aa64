import Verif.Props.Module
import Verif.Ts.File

/-!
# C59: the generated file as a whole

The client code and the namespaces together.
-/

namespace Verif.Props
open Verif Verif.Schema Verif.SchemaSpec Verif.Js Verif.Ts Verif.Spec Verif.Codegen Verif.Client

/-- The full property: the file made with the client code of the crate can be read as declarations followed by
namespaces; the client code declares what the namespaces use, and no two declarations are in each other's way. -/
def C59_statement : Prop :=
  ∀ (P : Program) (impls : List (Str × List RpcItem)) (r : Registry) (names : List Str), Printable P impls →
    IsModule P impls r →
    ∃ D M, readFile (generate r names clientText) = some (D, M) ∧ ModuleOf P impls names M ∧
      (∀ x ∈ [lit "z", lit "request", lit "subscribe", lit "Store"], x ∈ D.map (·.name)) ∧ TopLevelOk D M

/-- Values the client code declares. -/
def clientValues : List Str :=
  [lit "z", lit "WS_ADDR", lit "reopenTimeouts", lit "websocketStore", lit "CONNECTION", lit "req_id", lit "execute",
   lit "subscribe", lit "request"]

theorem clientDecls_values : (clientDecls.filter TopDecl.isValue).map (·.name) = clientValues := rfl

/-- The browser values that are named in the specification occur in the client code. -/
def usesBrowser : Bool := browserValues.all (fun x => (clientEnd.toks.map (·.1)).contains (.ident x))

set_option maxRecDepth 100000 in
theorem clientText_browser : ∀ x ∈ browserValues, Tok.ident x ∈ clientEnd.toks.map (·.1) := by
  have h : usesBrowser = true := by decide +kernel
  intro x hx
  have := List.all_eq_true.1 h x hx
  exact List.contains_iff_mem.1 this

theorem topLevelOk_iff {P : Program} {impls : List (Str × List RpcItem)} {names : List Str} {M : List Ns}
    (h : ModuleOf P impls names M) :
    TopLevelOk clientDecls M ↔ ∀ x ∈ names, (∃ d ∈ P, d.ns = x) ∨ (∃ b ∈ impls, b.1 = x ∧ b.2 ≠ []) →
      x ∉ clientValues ∧ x ∉ browserValues := by
  constructor
  · intro ⟨h1, h2⟩ x hx hp
    have hm := (h.names x).2 ⟨hx, hp⟩
    rw [clientDecls_values] at h1
    refine ⟨fun hc => (List.nodup_append.1 h1).2.2 x hc x hm rfl, fun hb => ?_⟩
    obtain ⟨N, hN, rfl⟩ := List.mem_map.1 hm
    exact h2 N hN hb
  · intro hx
    constructor
    · rw [clientDecls_values]
      refine List.nodup_append.2 ⟨by decide +kernel, ?_, ?_⟩
      · exact List.Pairwise.imp (fun {a b} (hab : strLt a b) (he : a = b) => strLt_irrefl b (he ▸ hab)) h.sorted
      · intro a ha b hb he
        subst he
        obtain ⟨h1, h2⟩ := (h.names a).1 hb
        exact (hx a h1 h2).1 ha
    · intro N hN hb
      obtain ⟨h1, h2⟩ := (h.names N.name).1 (List.mem_map_of_mem hN)
      exact (hx _ h1 h2).2 hb

theorem file_reads {P : Program} {impls : List (Str × List RpcItem)} (hp : Printable P impls) {r : Registry} (names : List Str)
    (h : IsModule P impls r) : ∃ M, readFile (generate r names clientText) = some (clientDecls, M) ∧ ModuleOf P impls names M := by
  obtain ⟨M, ⟨text, h1, h2⟩, h3⟩ := writes_of hp h names
  refine ⟨M, ?_, h3⟩
  rw [h1 clientText]
  exact client_file h2

/-- **C59.** The file can be read, and its top level is in order exactly if no namespace of the backend (with anything
in it) is called like a value that the client code declares or uses. -/
theorem C59_partial (P : Program) (impls : List (Str × List RpcItem)) (r : Registry) (names : List Str) (hp : Printable P impls)
    (h : IsModule P impls r) :
    ∃ D M, readFile (generate r names clientText) = some (D, M) ∧ ModuleOf P impls names M ∧
      (∀ x ∈ [lit "z", lit "request", lit "subscribe", lit "Store"], x ∈ D.map (·.name)) ∧
      (TopLevelOk D M ↔ ∀ x ∈ names, (∃ d ∈ P, d.ns = x) ∨ (∃ b ∈ impls, b.1 = x ∧ b.2 ≠ []) →
        x ∉ clientValues ∧ x ∉ browserValues) := by
  obtain ⟨M, h1, h2⟩ := file_reads hp names h
  exact ⟨clientDecls, M, h1, h2, by decide +kernel, topLevelOk_iff h2⟩

/-- The example of C52 meets it. -/
theorem exMod_file : ∃ D M, readFile (generate (mkRegistry exMod exImpls 9) exNames clientText) = some (D, M) ∧ TopLevelOk D M := by
  obtain ⟨D, M, h1, _, _, h2⟩ := C59_partial exMod exImpls _ exNames exMod_printable exMod_isModule
  refine ⟨D, M, h1, h2.2 (fun x hx _ => ?_)⟩
  revert x
  decide +kernel

/-- `async fn ping(&mut self)` of a namespace. -/
def exPing (ns : String) : List (Str × List RpcItem) := [(lit ns, [⟨lit "ping", [], .method, .prim .unit, false⟩])]

theorem exPing_bad {ns : String} (h1 : isIdent (lit ns) = true ∧ bindable (lit ns) = true)
    (h2 : lit ns ∈ clientValues ∨ lit ns ∈ browserValues)
    (hm : IsModule [] (exPing ns) (mkRegistry [] (exPing ns) 3)) : ¬ C59_statement := by
  intro h
  have hp : Printable [] (exPing ns) := printable_none h1 (forall_one (goodFn_of (by decide +kernel)))
  obtain ⟨D, M, a1, a2, _, a4⟩ := h [] (exPing ns) _ [lit ns] hp hm
  obtain ⟨M', b1, b2⟩ := file_reads hp [lit ns] hm
  rw [b1] at a1
  injection a1 with a1
  injection a1 with e1 e2
  subst e1; subst e2
  have := (topLevelOk_iff b2).1 a4 (lit ns) (by simp) (Or.inr ⟨_, List.mem_singleton.2 rfl, rfl, by simp⟩)
  rcases h2 with h2 | h2
  · exact this.1 h2
  · exact this.2 h2

/-- C59 is false: a namespace called `CONNECTION` is declared beside the constant of the client code. -/
theorem C59_violated : ¬ C59_statement :=
  exPing_bad (ns := "CONNECTION") (by decide +kernel) (Or.inl (by decide +kernel)) (mkRegistry_isModule (by decide +kernel))

/-- C59 is false: a namespace called `Set` hides the `Set` that the client code makes when it is loaded. -/
theorem C59_violated_browser : ¬ C59_statement :=
  exPing_bad (ns := "Set") (by decide +kernel) (Or.inr (by decide +kernel)) (mkRegistry_isModule (by decide +kernel))

end Verif.Props
