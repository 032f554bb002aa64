import Verif.Ts.Module
import Verif.Spec.Codegen

/-!
# Reading the declarations of a namespace (proof helper)
-/

namespace Verif.Ts
open Verif Verif.Js Verif.Spec Verif.Codegen

/-! ## The states inside expressions and types -/

section
variable {D : List Ns} {N : Str} {I : List Item}

theorem step_constE (n : Str) (e : PState) (t : Tok) (nl : Bool) (e' : PState) (h : pStep e t = some e') :
    mStep ⟨D, N, I, .constE n e⟩ t nl = some ⟨D, N, I, .constE n e'⟩ := by simp only [mStep, h]

theorem step_ifaceT (n : Str) (e : TState) (t : Tok) (nl : Bool) (e' : TState) (h : tStep e t = some e') :
    mStep ⟨D, N, I, .ifaceT n e⟩ t nl = some ⟨D, N, I, .ifaceT n e'⟩ := by simp only [mStep, h]

theorem step_aliasT (n : Str) (e : TState) (t : Tok) (nl : Bool) (e' : TState) (h : tStep e t = some e') :
    mStep ⟨D, N, I, .aliasT n e⟩ t nl = some ⟨D, N, I, .aliasT n e'⟩ := by simp only [mStep, h]

theorem step_paramT (hd : Header) (n : Str) (e : TState) (t : Tok) (nl : Bool) (e' : TState) (h : tStep e t = some e') :
    mStep ⟨D, N, I, .paramT hd n e⟩ t nl = some ⟨D, N, I, .paramT hd n e'⟩ := by simp only [mStep, h]

theorem step_retT (hd : Header) (e : TState) (t : Tok) (nl : Bool) (e' : TState) (h : tStep e t = some e') :
    mStep ⟨D, N, I, .retT hd e⟩ t nl = some ⟨D, N, I, .retT hd e'⟩ := by simp only [mStep, h]

theorem step_exprS (hd : Header) (r : TsType) (b : List Stmt) (i : Bool) (e : PState) (t : Tok) (nl : Bool) (e' : PState)
    (h : pStep e t = some e') : mStep ⟨D, N, I, .exprS hd r b i e⟩ t nl = some ⟨D, N, I, .exprS hd r b i e'⟩ := by
  simp only [mStep, h]

end

/-- The next declaration, or the end of the namespace, can follow. -/
def Ready (D : List Ns) (N : Str) (I : List Item) (A : MState) : Prop :=
  ∀ t nl, t = .ident (lit "export") ∨ t = .p '}' → mStep A t nl = itemStep ⟨D, N, I, .item⟩ t

theorem ready_item (D : List Ns) (N : Str) (I : List Item) : Ready D N I ⟨D, N, I, .item⟩ := fun _ _ _ => rfl

/-- A text up to a keyword after `export`. -/
theorem MTrans.export {s : Str} {kw : List Tok} {D : List Ns} {N : Str} {I : List Item} {A : MState} (hA : Ready D N I A)
    (h : ∀ nl, (xAfter nl s).mode = .code .start ∧ (xAfter nl s).nl = false ∧
      ∃ b, (xAfter nl s).toks.reverse = (.ident (lit "export"), b) :: kw.map (·, false))
    {B : MState} (hB : mRun ⟨D, N, I, .export⟩ (kw.map (·, false)) = some B) : MTrans s none A (some false) B := by
  refine MTrans.const (fun nl => ?_)
  obtain ⟨h1, h2, b, h3⟩ := h nl
  refine ⟨h1, ?_, fun x hx => by injection hx with hx; rw [← hx]; exact h2⟩
  rw [h3, mRun, hA _ _ (Or.inl rfl)]
  show mRun ⟨D, N, I, .export⟩ _ = _
  exact hB

theorem bindable_of {n : Str} (h : declarable n = true) : bindable n = true := by
  simp only [declarable, bindable, Bool.not_eq_true', Bool.or_eq_false_iff] at h ⊢
  exact h.1

/-- What reading a registered type needs and gives. -/
structure ReadsType (o : Options) (m : Member) (l : List Item) : Prop where
  schemaName : isIdent (CodegenSpec.schemaName o m) = true ∧ bindable (CodegenSpec.schemaName o m) = true
  typeName : isIdent (CodegenSpec.typeName o m) = true ∧ declarable (CodegenSpec.typeName o m) = true
  docs : m.docs.getD [] = [] ∨ DocsSpec.OneComment (m.docs.getD [])
  decls : ∃ e d, Denotes m.schema e ∧ Den m.typeDef.text d ∧
    match m.typeDef with
    | .interface body => (∃ r, body = '{' :: r) ∧ ∃ ps, ofDnf d = .obj ps ∧
        l = [.const (CodegenSpec.schemaName o m) e, .interface (CodegenSpec.typeName o m) ps]
    | .type _ => l = [.const (CodegenSpec.schemaName o m) e, .alias (CodegenSpec.typeName o m) (ofDnf d)]

theorem MTrans.docs {s : Str} {n : Option Bool} {A : MState} (h : s = [] ∨ DocsSpec.OneComment s) (hn : n = some true ∨ n = none) :
    MTrans s n A n A := by
  rcases h with rfl | h
  · exact MTrans.nil n A
  · rcases hn with rfl | rfl
    · exact MTrans.comment h
    · exact MTrans.forget (MTrans.comment h)

theorem iface_brace {D : List Ns} {N : Str} {I : List Item} {n : Str} {nl : Bool} {fs : List FTok} :
    mRun ⟨D, N, I, .ifaceOpen n⟩ ((.p '{', nl) :: fs) = mRun ⟨D, N, I, .ifaceT n ([], .need .none)⟩ ((.p '{', nl) :: fs) := rfl

/-- The text after the name of an interface. -/
theorem MTrans.iface {D : List Ns} {N : Str} {I : List Item} {n : Str} {r : Str} {d : Dnf} (h : Den ('{' :: r) d)
    {ps : List (Str × Bool × TsType)} (hps : ofDnf d = .obj ps) :
    ∃ B, MTrans (('{' :: r) ++ lit "\n\n") none ⟨D, N, I, .ifaceOpen n⟩ none B ∧ Ready D N (I ++ [.interface n ps]) B := by
  obtain ⟨hd, ts, hl, h⟩ := h
  obtain ⟨c', h, he⟩ := h [] (.need .none) .none (Or.inl rfl)
  rw [cont_none hd] at he
  have hlx : Lexes (('{' :: r) ++ lit "\n\n") (ts ++ []) := hl.append (lexes_toks (s := lit "\n\n") rfl) ⟨_, _, rfl, rfl⟩
  rw [List.append_nil] at hlx
  have hts : ∃ ts', ts = .p '{' :: ts' := by
    have e1 := hlx.lex
    rw [List.cons_append, show '{' :: (r ++ lit "\n\n") = lit "{" ++ (r ++ lit "\n\n") from rfl,
      lex_append (ta := [.p '{']) (lexes_toks rfl)] at e1
    cases hr : lex (r ++ lit "\n\n") with
    | none => rw [hr] at e1; cases e1
    | some x => rw [hr] at e1; injection e1 with e1; exact ⟨x, e1.symm⟩
  refine ⟨⟨D, N, I, .ifaceT n ([], c')⟩, MTrans.lexes hlx (fun fs hfs => ?_), fun t nl ht => ?_⟩
  · obtain ⟨ts', rfl⟩ := hts
    obtain ⟨f, fs, rfl⟩ : ∃ f r, fs = f :: r := by cases fs with
      | nil => cases hfs
      | cons f r => exact ⟨f, r, rfl⟩
    obtain ⟨t, b⟩ := f
    rw [List.map_cons] at hfs
    obtain ⟨e1, e2⟩ := List.cons.inj hfs
    simp only at e1
    subst e1
    rw [iface_brace]
    exact mRun_type (E := fun x => ⟨D, N, I, .ifaceT n x⟩) (step_ifaceT n) (by rw [List.map_cons, e2]; exact h)
  · have h1 : tStep ([], c') t = none := by
      rcases he with rfl | ⟨o, p, rfl, _⟩ <;> rcases ht with rfl | rfl <;> rfl
    simp only [mStep, h1, typeDone_ends he, hps]
    rcases ht with rfl | rfl <;> rfl

/-- The two declarations of a registered type. -/
theorem MTrans.member {o : Options} {m : Member} {l : List Item} (h : ReadsType o m l) {D : List Ns} {N : Str} {I : List Item} {A : MState}
    (hA : Ready D N I A) : ∃ B, MTrans (CodegenSpec.typeTextAs (CodegenSpec.schemaName o m) (CodegenSpec.typeName o m) m) none A none B ∧ Ready D N (I ++ l) B := by
  obtain ⟨⟨hid, hbind⟩, ⟨htid, hdecl⟩, hdocs, e, d, he, hd, hl⟩ := h
  generalize CodegenSpec.schemaName o m = sn at *
  generalize CodegenSpec.typeName o m = tn at *
  have hconst : MTrans (m.docs.getD [] ++ (lit "export const " ++ (sn ++ (lit "= " ++ (m.schema ++ lit "\n"))))) none A
      (some true) ⟨D, N, I, .constE sn ([], .have_ e)⟩ := by
    refine (MTrans.docs hdocs (Or.inr rfl)).append ((MTrans.export (kw := [.ident (lit "const")]) hA (fun nl => ?_) rfl).append
      (MTrans.ident hid (B := ⟨D, N, I, .constEq sn⟩) (fun nl _ => ?_) ?_ ⟨_, _, rfl, rfl⟩))
    · cases nl <;> exact ⟨rfl, rfl, _, rfl⟩
    · simp [mStep, hbind]
    · refine MTrans.any ((MTrans.const (B := ⟨D, N, I, .constE sn ([], .need)⟩) (n' := none) (fun nl => ?_)).append
        ((MTrans.expr (E := fun x => ⟨D, N, I, .constE sn x⟩) (step_constE sn) (he.trans [] (Or.inl rfl))).append
          (MTrans.const (fun nl => ?_))))
      · cases nl <;> exact ⟨rfl, rfl, knows_none _⟩
      · cases nl <;> exact ⟨rfl, rfl, fun b hb => (by injection hb)⟩
  have hready : ∀ t, t = .ident (lit "export") →
      mStep ⟨D, N, I, .constE sn ([], .have_ e)⟩ t true = itemStep ⟨D, N, I ++ [.const sn e], .item⟩ t := by
    rintro t rfl; rfl
  have hexport : ∀ (kw : List Tok) (s : Str) (B : MState), ((xAfter true s).mode = .code .start ∧ (xAfter true s).nl = false ∧
      (xAfter true s).toks.reverse = (.ident (lit "export"), true) :: kw.map (·, false)) →
      mRun ⟨D, N, I ++ [.const sn e], .export⟩ (kw.map (·, false)) = some B →
      MTrans s (some true) ⟨D, N, I, .constE sn ([], .have_ e)⟩ (some false) B := by
    rintro kw s B ⟨h1, h2, h3⟩ hB
    refine MTrans.constAt true rfl ⟨h1, ?_, fun b hb => by injection hb with hb; rw [← hb]; exact h2⟩
    rw [h3, mRun, hready _ rfl]
    exact hB
  unfold CodegenSpec.typeTextAs
  cases htd : m.typeDef with
  | interface body =>
    rw [htd] at hl hd
    obtain ⟨⟨r, rfl⟩, ps, hps, rfl⟩ := hl
    obtain ⟨B, hB, hBr⟩ := MTrans.iface (D := D) (N := N) (I := I ++ [.const sn e]) (n := tn) hd hps
    refine ⟨B, ?_, by rw [List.append_assoc] at hBr; exact hBr⟩
    have := hconst.append ((MTrans.docs hdocs (Or.inl rfl)).append
      ((hexport [.ident (lit "interface")] (lit "export interface ") _ ⟨rfl, rfl, rfl⟩ rfl).append
        (MTrans.ident htid (B := ⟨D, N, I ++ [.const sn e], .ifaceOpen tn⟩)
          (fun nl hnl => by rw [hnl false rfl]; simp [mStep, hdecl])
          (((MTrans.const (s := lit " ") (n' := none) (fun nl => by cases nl <;> exact ⟨rfl, rfl, knows_none _⟩)).append hB).any)
          ⟨_, _, rfl, rfl⟩)))
    simpa only [List.append_assoc] using this
  | type body =>
    rw [htd] at hl hd
    simp only at hl
    subst hl
    refine ⟨⟨D, N, I ++ [.const sn e, .alias tn (ofDnf d)], .item⟩, ?_, ready_item _ _ _⟩
    have hty : MTrans (body ++ lit ";") none ⟨D, N, I ++ [.const sn e], .aliasT tn ([], .need .none)⟩ none
        ⟨D, N, I ++ [.const sn e, .alias tn (ofDnf d)], .item⟩ := by
      refine MTrans.type (s := body) (b := lit ";") (E := fun x => ⟨D, N, I ++ [.const sn e], .aliasT tn x⟩)
        (step_aliasT tn) hd rfl
        ⟨_, _, rfl, rfl⟩ (fun c fs hc hfs => ?_)
      obtain ⟨nl, rfl⟩ : ∃ nl, fs = [(.p ';', nl)] := by
        cases fs with
        | nil => cases hfs
        | cons f fs =>
          obtain ⟨t, b⟩ := f
          cases fs with
          | nil => injection hfs with h1 _; exact ⟨b, by rw [show t = .p ';' from h1]⟩
          | cons g fs => cases hfs
      have h1 : tStep ([], c) (.p ';') = none := by
        rcases hc with rfl | ⟨o, p, rfl, _⟩ <;> rfl
      rw [mRun]
      simp only [mStep, h1, typeDone_ends hc, decide_true, Bool.true_or, if_true, MState.add, List.append_assoc]
      rfl
    have := hconst.append ((MTrans.docs hdocs (Or.inl rfl)).append
      ((hexport [.ident (lit "type")] (lit "export type ") _ ⟨rfl, rfl, rfl⟩ rfl).append
        (MTrans.ident htid (B := ⟨D, N, I ++ [.const sn e], .aliasEq tn⟩)
          (fun nl hnl => by rw [hnl false rfl]; simp [mStep, hdecl])
          (((MTrans.const (s := lit " = ") (B := ⟨D, N, I ++ [.const sn e], .aliasT tn ([], .need .none)⟩) (n' := none)
            (fun nl => by cases nl <;> exact ⟨rfl, rfl, knows_none _⟩)).append (hty.append (MTrans.const (s := lit "\n\n") (n' := none)
              (fun nl => by cases nl <;> exact ⟨rfl, rfl, knows_none _⟩)))).any)
          (by exact ⟨_, _, rfl, rfl⟩))))
    simpa only [List.append_assoc] using this

end Verif.Ts
