import Verif.Spec.Documented
import Verif.Ts.ModuleOf
import Verif.Ts.Values
import Verif.Zod.RenameDe
import Verif.Props.Codegen

/-!
# Documentation and the generated texts (proof helper)
-/

namespace Verif.Ts
open Verif Verif.Js Verif.Schema Verif.SchemaSpec Verif.Spec Verif.Codegen Verif.Props

theorem redocumented_symm {P P' : Program} (h : Redocumented P P') : Redocumented P' P := by
  refine All2.symm (fun a b hab => ?_) h
  cases hab with
  | struct s attrs => exact .struct { s with attrs := attrs } s.attrs
  | enum e attrs => exact .enum { e with attrs := attrs } e.attrs

theorem redocumented_get {P P' : Program} (h : Redocumented P P') {i : Nat} {d : Decl} (hd : P[i]? = some d) :
    ∃ d', P'[i]? = some d' ∧ RedocumentedDecl d d' := by
  unfold Redocumented at h
  induction h generalizing i with
  | nil => cases hd
  | cons h1 _ ih =>
    cases i with
    | zero => simp only [List.getElem?_cons_zero, Option.some.injEq] at hd ⊢; subst hd; exact ⟨_, rfl, h1⟩
    | succ i => simp only [List.getElem?_cons_succ] at hd ⊢; exact ih hd

theorem redocumented_other {P P' : Program} (h : Redocumented P P') : Zod.OtherNames P P' := by
  intro i d hd
  obtain ⟨d', h1, h2⟩ := redocumented_get h hd
  refine ⟨d', h1, ?_⟩
  cases h2 with
  | struct s attrs => exact .struct s s.ns s.name attrs
  | enum e attrs => exact .enum e e.ns e.name attrs

theorem redocumented_names {d d' : Decl} (h : RedocumentedDecl d d') : d'.ns = d.ns ∧ d'.name = d.name := by
  cases h <;> exact ⟨rfl, rfl⟩

theorem docsText_readable {attrs : List Derive.Attr} (h : Derive.Attr.unparsable ∉ attrs) : ∃ docs, Derive.docsText attrs = some docs := by
  cases hd : Derive.docsText attrs with
  | some docs => exact ⟨docs, rfl⟩
  | none => exact absurd ((C15_fails_iff _).1 hd) h

/-- The derived implementation is the same, but for `docs()`. -/
theorem derive_redocumented {d d' : Decl} (h : RedocumentedDecl d d') (hu : Derive.Attr.unparsable ∉ d'.attrs) {impl : Impl}
    (hi : derive d = .ok impl) : ∃ docs, derive d' = .ok { impl with docs := docs } := by
  cases h with
  | struct s attrs =>
    obtain ⟨docs', hd'⟩ := docsText_readable (attrs := attrs) hu
    have h1 : structSchema { s with attrs := attrs } = structSchema s := rfl
    have h2 : structTypeDef { s with attrs := attrs } = structTypeDef s := rfl
    simp only [derive, deriveStruct, h1, h2, hd'] at hi ⊢
    repeat' split at hi
    all_goals first | (cases hi; done) | skip
    all_goals
      cases hi
      simp only [*]
      exact ⟨_, rfl⟩
  | enum e attrs =>
    obtain ⟨docs', hd'⟩ := docsText_readable (attrs := attrs) hu
    have h1 : enumSchema { e with attrs := attrs } = enumSchema e := rfl
    have h2 : enumTypeDef { e with attrs := attrs } = enumTypeDef e := rfl
    simp only [derive, deriveEnum, h1, h2, hd'] at hi ⊢
    repeat' split at hi
    all_goals first | (cases hi; done) | skip
    all_goals
      cases hi
      simp only [*]
      exact ⟨_, rfl⟩

section
variable {P P' : Program} (hP : Redocumented P P') (hr : ReadableAttrs P')
include hP hr

theorem body_redocumented {m : Method} {t : Ty} {ps : List Piece} (h : body P m t = some ps) : body P' m t = some ps := by
  cases hn : isNamed t with
  | false =>
    rw [← h]
    cases t with
    | named i => cases hn
    | _ => cases m <;> rfl
  | true =>
    cases t with
    | named i =>
      obtain ⟨d, impl, hd, hi, rfl⟩ := body_named h
      obtain ⟨d', hd', hm⟩ := redocumented_get hP hd
      obtain ⟨docs, hi'⟩ := derive_redocumented hm (hr d' (List.mem_of_getElem? hd')) hi
      rw [body_named_eq hd' hi']
      cases m <;> rfl
    | _ => cases hn

theorem eval_redocumented (n : Nat) : ∀ m t s, eval P n m t = some s → eval P' n m t = some s := by
  induction n with
  | zero => intro m t s h; cases h
  | succ n ih =>
    intro m t s h
    obtain ⟨ps, hb, hrun⟩ := eval_succ.1 h
    refine eval_succ.2 ⟨ps, body_redocumented hP hr hb, ?_⟩
    clear hb h
    induction ps generalizing s with
    | nil => exact hrun
    | cons p ps ihp =>
      cases p with
      | txt x =>
        simp only [runPieces, Option.map_eq_some_iff] at hrun ⊢
        obtain ⟨a, ha, e⟩ := hrun
        exact ⟨a, ihp a ha, e⟩
      | call m' t' =>
        simp only [runPieces] at hrun ⊢
        cases hc : eval P n m' t' with
        | none => rw [hc] at hrun; cases hrun
        | some a =>
          rw [hc] at hrun
          rw [ih m' t' a hc]
          simp only [Option.map_eq_some_iff] at hrun ⊢
          obtain ⟨b, hb, e⟩ := hrun
          exact ⟨b, ihp b hb, e⟩

theorem kind_redocumented (n : Nat) : ∀ t k, kindOf P n t = some k → kindOf P' n t = some k := by
  induction n with
  | zero => intro t k h; cases h
  | succ n ih =>
    intro t k h
    cases t with
    | named i =>
      simp only [kindOf] at h ⊢
      cases hd : P[i]? with
      | none => rw [hd] at h; cases h
      | some d =>
        obtain ⟨d', hd', hm⟩ := redocumented_get hP hd
        rw [hd] at h
        rw [hd']
        simp only [Option.map_some] at h ⊢
        cases hi : derive d with
        | error e => rw [hi] at h; cases h
        | ok impl =>
          obtain ⟨docs, hi'⟩ := derive_redocumented hm (hr d' (List.mem_of_getElem? hd')) hi
          rw [hi] at h
          rw [hi']
          simp only at h ⊢
          cases hk : impl.kind with
          | same u => rw [hk] at h; exact ih _ _ h
          | _ => rw [hk] at h; exact h
    | wrap w u => simp only [kindOf] at h ⊢; exact ih _ _ h
    | _ => exact h

theorem returns_redocumented {m : Method} {t : Ty} {s : Str} : Returns P m t s → Returns P' m t s :=
  fun ⟨n, h⟩ => ⟨n, eval_redocumented hP hr n m t s h⟩

theorem member_redocumented {i : Nat} {d : Decl} {m : Member} (h : IsMember P i d m) :
    ∃ d' docs, IsMember P' i d' { m with docs := docs } := by
  obtain ⟨d', hd', hm⟩ := redocumented_get hP h.decl
  obtain ⟨impl, hi, _⟩ := h.docs
  obtain ⟨docs, hi'⟩ := derive_redocumented hm (hr d' (List.mem_of_getElem? hd')) hi
  obtain ⟨n, k, s, h1, h2, h3⟩ := h.typeDef
  refine ⟨d', docs, hd', ?_, ?_, returns_redocumented hP hr h.schema,
    ⟨n, k, s, kind_redocumented hP hr n _ k h1, returns_redocumented hP hr h2, h3⟩, _, hi', rfl⟩
  · rw [(redocumented_names hm).1]; exact h.ns
  · rw [(redocumented_names hm).2]; exact h.name

theorem rpc_redocumented {ns : Str} {i : RpcItem} {m : RpcMember} (h : IsRpcMember P ns i m) : IsRpcMember P' ns i m :=
  ⟨h.kind, h.ns, h.name, h.argNames, fun k a p ha hp =>
    ⟨returns_redocumented hP hr (h.args k a p ha hp).1, returns_redocumented hP hr (h.args k a p ha hp).2⟩,
    returns_redocumented hP hr h.res⟩

/-- The program with the other documentation can register the same things in the same order. -/
theorem registry_redocumented {impls : List (Str × List RpcItem)} {r : Registry} (h : IsModule P impls r) :
    ∃ r', IsModule P' impls r' ∧ SameButDocs r r' := by
  obtain ⟨ms, hperm, hlen, hms⟩ := h.types
  obtain ⟨fl, hfperm, hflen, hfl⟩ := h.rpc
  have hall : All2 (fun (k : Nat) m => ∃ d, IsMember P k d m) (List.range P.length) ms := by
    refine All2.of_get (by simp [hlen]) (fun k x m hx hm => ?_)
    obtain ⟨hk, rfl⟩ : k < P.length ∧ k = x := by
      obtain ⟨hk, e⟩ := List.getElem?_eq_some_iff.1 hx
      exact ⟨by simpa using hk, by simpa using e⟩
    exact ⟨P[k], hms k _ m (List.getElem?_eq_getElem hk) hm⟩
  obtain ⟨ds, hds, hall⟩ := All2.perm hperm hall
  obtain ⟨ms', h1, h2⟩ := All2.comp hall (S := fun m m' : Member => m'.ns = m.ns ∧ m'.name = m.name ∧ m'.schema = m.schema ∧ m'.typeDef = m.typeDef)
    (T := fun k m' => ∃ d', IsMember P' k d' m') (by
      intro k _ m _ ⟨d, hm⟩
      obtain ⟨d', docs, hm'⟩ := member_redocumented hP hr hm
      exact ⟨{ m with docs := docs }, ⟨rfl, rfl, rfl, rfl⟩, d', hm'⟩)
  obtain ⟨ns, hns, hback⟩ := All2.perm hds.symm (All2.symm (S := fun m' k => ∃ d', IsMember P' k d' m') (fun _ _ h => h) h2)
  have hlenP : P'.length = P.length := (Zod.All2.length hP).symm
  refine ⟨⟨ms', r.rpc⟩, ⟨⟨ns, hns.symm, ?_, fun i d m hd hm => ?_⟩, fl, hfperm, hflen, fun k x m hx hm => ?_⟩, h1, rfl⟩
  · rw [hlenP, Zod.All2.length hback, List.length_range]
  · have hi : i < P.length := by rw [← hlenP]; exact (List.getElem?_eq_some_iff.1 hd).1
    obtain ⟨d', hd'⟩ := All2.get hback hm (by rw [List.getElem?_range]; simp [hi])
    have := hd'.decl
    rw [hd] at this
    injection this with this
    exact this ▸ hd'
  · exact rpc_redocumented hP hr (hfl k x m hx hm)

end

/-! ## The module -/

theorem member_docs {P : Program} (hd : ∀ d ∈ P, ∀ s ∈ DocsSpec.docStrings d.attrs, ¬ lit "*/" <:+: s) {i : Nat} {d : Decl} {m : Member}
    (h : IsMember P i d m) : m.docs.getD [] = [] ∨ DocsSpec.OneComment (m.docs.getD []) := by
  obtain ⟨impl, hi, hm⟩ := h.docs
  obtain ⟨docs, h1, h2⟩ := derive_docs hi
  have hun : Derive.Attr.unparsable ∉ d.attrs := fun hu => by
    rw [(C15_fails_iff _).2 hu] at h1; cases h1
  rw [hm, h2]
  rcases C15_one_comment _ hun (hd d (List.mem_of_getElem? h.decl)) with h3 | ⟨text, h3, h4⟩
  · rw [h1] at h3; injection h3 with h3; exact Or.inl h3
  · rw [h1] at h3; injection h3 with h3; exact Or.inr (h3 ▸ h4)

theorem registry_docs {P : Program} (hd : ∀ d ∈ P, ∀ s ∈ DocsSpec.docStrings d.attrs, ¬ lit "*/" <:+: s) {r : Registry}
    (h : IsRegistry P r) : ∀ m ∈ r.members, m.docs.getD [] = [] ∨ DocsSpec.OneComment (m.docs.getD []) := by
  obtain ⟨ms, hperm, hlen, hms⟩ := h
  intro m hm
  obtain ⟨k, hk, e⟩ := List.mem_iff_getElem.1 (hperm.symm.subset hm)
  exact member_docs hd (hms k P[k] m (List.getElem?_eq_getElem (by omega)) (by rw [List.getElem?_eq_getElem hk, e]))

theorem readsType_redocumented {o : Options} {m m' : Member} {l : List Item}
    (e : m'.ns = m.ns ∧ m'.name = m.name ∧ m'.schema = m.schema ∧ m'.typeDef = m.typeDef)
    (hd : m'.docs.getD [] = [] ∨ DocsSpec.OneComment (m'.docs.getD [])) (h : ReadsType o m l) : ReadsType o m' l := by
  obtain ⟨_, e2, e3, e4⟩ := e
  have hs : CodegenSpec.schemaName o m' = CodegenSpec.schemaName o m := by simp only [CodegenSpec.schemaName, e2]
  have ht : CodegenSpec.typeName o m' = CodegenSpec.typeName o m := by simp only [CodegenSpec.typeName, e2, e4]
  refine ⟨by rw [hs]; exact h.schemaName, by rw [ht]; exact h.typeName, hd, ?_⟩
  rw [hs, ht, e3, e4]
  exact h.decls

theorem readsTypes_redocumented {o : Options} {ms ms' : List Member} {ls : List (List Item)}
    (h : All2 (fun m m' : Member => m'.ns = m.ns ∧ m'.name = m.name ∧ m'.schema = m.schema ∧ m'.typeDef = m.typeDef) ms ms')
    (hd : ∀ m ∈ ms', m.docs.getD [] = [] ∨ DocsSpec.OneComment (m.docs.getD [])) (hl : All2 (ReadsType o) ms ls) :
    All2 (ReadsType o) ms' ls := by
  induction h generalizing ls with
  | nil => exact hl
  | cons h1 _ ih =>
    cases hl with
    | cons g1 g2 => exact .cons (readsType_redocumented h1 (hd _ (by simp)) g1) (ih (fun m hm => hd m (by simp [hm])) g2)

theorem readsNs_redocumented {o : Options} {r r' : Registry} (h : SameButDocs r r')
    (hd : ∀ m ∈ r'.members, m.docs.getD [] = [] ∨ DocsSpec.OneComment (m.docs.getD [])) {x : Str} {N : Ns} (hn : ReadsNs r o x N) :
    ReadsNs r' o x N := by
  obtain ⟨h1, h2, ls, fs, h3, h4, e⟩ := hn
  refine ⟨h1, h2, ls, fs, readsTypes_redocumented (All2.filter (p := fun m : Member => decide (m.ns = x))
    (q := fun m : Member => decide (m.ns = x)) (fun a b hab => by rw [hab.1]) h.members)
    (fun m hm => hd m (List.mem_filter.1 hm).1) h3, ?_, e⟩
  show All2 ReadsStub (r'.rpc.filter _) fs
  rw [h.rpc]
  exact h4

theorem populated_redocumented {r r' : Registry} (h : SameButDocs r r') (x : Str) :
    CodegenSpec.Populated r' x ↔ CodegenSpec.Populated r x := by
  unfold CodegenSpec.Populated
  rw [h.rpc]
  refine or_congr ⟨fun ⟨m, hm, e⟩ => ?_, fun ⟨m, hm, e⟩ => ?_⟩ Iff.rfl
  · obtain ⟨m', hm', hs⟩ := Zod.All2.mem_right h.members hm
    exact ⟨m', hm', by rw [← hs.1]; exact e⟩
  · obtain ⟨m', hm', hs⟩ := Zod.All2.mem_left h.members hm
    exact ⟨m', hm', by rw [hs.1]; exact e⟩

end Verif.Ts
