import Verif.Spec.StandsFor
import Verif.Spec.Sound
import Verif.Spec.Wrappers
import Verif.Schema.Norm
import Verif.Zod.Bridge
import Verif.Ts.Bridge
import Verif.Spec.TsTypes

/-!
# Types that stand for another type (proof helper)
-/

namespace Verif.Zod
open Verif Verif.Js Verif.Schema Verif.SchemaSpec Verif.Spec Verif.Ts

/-! ## The texts -/

/-- A text that is called for, and the empty text. -/
theorem returns_call_nil {P : Program} {m m' : Method} {t t' : Ty} (hb : body P m t = some [.call m' t', .txt []]) {s : Str} :
    Returns P m t s ↔ Returns P m' t' s := by
  rw [returns_body hb]
  constructor
  · rintro ⟨n, h⟩
    obtain ⟨x, y, hx, hy, rfl⟩ := runPieces_call_cons.1 h
    have hy := runPieces_txt_some.1 hy
    subst hy
    exact ⟨n, by simpa using hx⟩
  · rintro ⟨n, h⟩
    exact ⟨n, runPieces_call_cons.2 ⟨s, [], h, runPieces_txt_some.2 rfl, by simp⟩⟩

/-- The texts of a struct around one field are those that refer to the type of the field. -/
theorem one_texts {s : StructDecl} {f : Field} (hk : keptFields s.fields = [f]) (hd : f.dflt = false) (hfl : f.flatten = false)
    (ht : s.transparent = true ∨ s.transparent = false ∧ s.style = .tuple ∧ f.named = false) :
    structSchema s = .ok [.call .inlineSchema f.ty, .txt []] ∧ structTypeDef s = .ok [.call .inline f.ty] := by
  have hk : s.fields.filter (fun f => !f.skipDe) = [f] := hk
  rcases ht with ht | ⟨ht, hst, hn⟩
  · unfold structSchema structTypeDef structFields
    rw [hk, ht]
    cases hf : f.named <;>
    simp [SField.ofField, hfl, SField.schema, SField.typeDef, hd, optionalText, hf]
  · unfold structSchema structTypeDef structFields
    rw [hk, ht, hst]
    simp [SField.ofField, hfl, SField.schema, SField.typeDef, hd, optionalText, hn]

/-- The texts of a declaration that stands for a type: as if it were written there or referred to. -/
theorem standsFor_texts {P : Program} (hw : WellStyled P) (hv : ∀ d ∈ P, ∃ impl, derive d = .ok impl) {i : Nat} {t : Ty}
    (h : StandsFor P i t) :
    ((∀ x, Returns P .schema (.named i) x → Returns P .inlineSchema t x) ∨ (∀ x, Returns P .schema (.named i) x → Returns P .schema t x)) ∧
    ((∀ x, Returns P .typeDef (.named i) x → Returns P .inline t x) ∨ (∀ x, Returns P .typeDef (.named i) x → Returns P .typeDef t x)) := by
  have hfrom : ∀ d, P[i]? = some d → (Decl.from_ d).ty? = some t →
      ((∀ x, Returns P .schema (.named i) x → Returns P .inlineSchema t x) ∨ (∀ x, Returns P .schema (.named i) x → Returns P .schema t x)) ∧
      ((∀ x, Returns P .typeDef (.named i) x → Returns P .inline t x) ∨ (∀ x, Returns P .typeDef (.named i) x → Returns P .typeDef t x)) := by
    intro d hd hf
    obtain ⟨impl, hi⟩ := hv d (List.mem_of_getElem? hd)
    cases d with
    | struct s =>
      have hf : s.from_.ty? = some t := hf
      obtain ⟨docs, sch, td, _, _, hs, ht, e⟩ := deriveStruct_ok hi
      rw [hf] at e
      refine ⟨.inl fun x => (returns_single ?_).1, .inl fun x => (returns_single ?_).1⟩ <;> (rw [body_named_eq hd hi, e]; rfl)
    | enum s =>
      have hf : s.from_.ty? = some t := hf
      obtain ⟨docs, sch, td, _, _, _, e⟩ := deriveEnum_ok hi
      rw [hf] at e
      refine ⟨.inr fun x => (returns_single ?_).1, .inr fun x => (returns_single ?_).1⟩ <;> (rw [body_named_eq hd hi, e]; rfl)
  have hone : ∀ (s : StructDecl) (f : Field), P[i]? = some (.struct s) → s.from_ = .none → keptFields s.fields = [f] → f.dflt = false →
      f.flatten = false → (s.transparent = true ∨ s.transparent = false ∧ s.style = .tuple ∧ f.named = false) →
      ((∀ x, Returns P .schema (.named i) x → Returns P .inlineSchema f.ty x) ∨ (∀ x, Returns P .schema (.named i) x → Returns P .schema f.ty x)) ∧
      ((∀ x, Returns P .typeDef (.named i) x → Returns P .inline f.ty x) ∨ (∀ x, Returns P .typeDef (.named i) x → Returns P .typeDef f.ty x)) := by
    intro s f hd hf hk h1 h2 h3
    obtain ⟨impl, hi⟩ := hv _ (List.mem_of_getElem? hd)
    obtain ⟨docs, sch, td, _, _, hs, ht, e⟩ := deriveStruct_ok hi
    obtain ⟨a, b⟩ := one_texts hk h1 h2 h3
    rw [a] at hs
    rw [b] at ht
    cases hs
    cases ht
    rw [hf] at e
    refine ⟨.inl fun x => (returns_call_nil ?_).1, .inl fun x => (returns_single ?_).1⟩ <;> (rw [body_named_eq hd hi, e]; rfl)
  cases h with
  | from_ d _ hd hf => exact hfrom d hd (by rw [hf]; rfl)
  | tryFrom d _ hd hf => exact hfrom d hd (by rw [hf]; rfl)
  | newtype s f hd hf ht hst hfs hsk hdf hfl =>
    refine hone s f hd hf ?_ hdf hfl (.inr ⟨ht, hst, ?_⟩)
    · unfold keptFields; simp [hfs, hsk]
    · have := hw _ (List.mem_of_getElem? hd)
      simpa [wellStyled, hst, hfs] using this
  | transparent s f hd hf ht hk hdf hfl _ => exact hone s f hd hf hk hdf hfl (.inl ht)

/-! ## Written and referred to: schemas -/

/-- The two schemas give the same results. -/
def SameResults (E : ZEnv) (z z' : ZSchema) : Prop :=
  ∀ v, (∀ r, ParsesTo E z v r ↔ ParsesTo E z' v r) ∧ (Rejects E z v ↔ Rejects E z' v)

theorem SameResults.refl (E : ZEnv) (z : ZSchema) : SameResults E z z := fun _ => ⟨fun _ => .rfl, .rfl⟩

/-- `z.lazy` gives the results of the schema it refers to. -/
theorem lazy_same {E : ZEnv} {ns name : Str} {z : ZSchema} (h : E.const ns name = some z) : SameResults E z (.lazy ns name) := by
  have key : ∀ v x, (∃ n, parse E n z v = some x) ↔ ∃ n, parse E n (.lazy ns name) v = some x := by
    intro v x
    constructor
    · rintro ⟨n, hn⟩
      exact ⟨n + 1, by rw [parse]; simp only [h]; exact hn⟩
    · rintro ⟨n, hn⟩
      cases n with
      | zero => cases hn
      | succ n => rw [parse] at hn; simp only [h] at hn; exact ⟨n, hn⟩
  exact fun v => ⟨fun r => key v (some r), key v none⟩

/-- The schema of a type where it is written and where it is referred to. -/
theorem inline_same {P : Program} {E : ZEnv} (hg : GoodNames P) (hw : WellStyled P) (hE : IsModule P E) (n : Nat) :
    ∀ (t : Ty) (s s' : Str) (z z' : ZSchema), Returns P .schema t s → eval P n .inlineSchema t = some s' →
      readSchema s = some z → readSchema s' = some z' → SameResults E z z' := by
  induction n with
  | zero => intro t s s' z z' _ h; cases h
  | succ n ih =>
    intro t s s' z z' hs hs' hz hz'
    have hr := (eval_agree hg hw (n + 1) .inlineSchema t s' (Or.inr rfl) hs').read
    rw [hz'] at hr
    obtain ⟨ps, hb, hrun⟩ := eval_succ.1 hs'
    by_cases hn : ∃ i, t = .named i
    · obtain ⟨i, rfl⟩ := hn
      have hlazy : ∀ d, P[i]? = some d → z' = .lazy d.ns d.name → SameResults E z z' := by
        intro d hd e
        obtain ⟨x, hx, hc⟩ := hE i d hd
        rw [returns_unique hx hs, hz] at hc
        rw [e]
        exact lazy_same hc
      rw [body] at hb
      cases hd : P[i]? with
      | none => rw [hd] at hb; cases hb
      | some d =>
        have hr : some z' = zBody (zOf P n) P .inlineSchema (.named i) := hr
        have hr : some z' = declInlineZ (zOf P n) d := by
          rw [hr]; simp only [zBody, hd]
        cases d with
        | struct st => exact hlazy _ hd (Option.some.inj hr)
        | enum e =>
          cases hf : e.from_.ty? with
          | none => simp only [declInlineZ, hf] at hr; exact hlazy _ hd (Option.some.inj hr)
          | some u =>
            cases hder : derive (.enum e) with
            | error x => rw [hd] at hb; simp [hder] at hb
            | ok impl =>
              obtain ⟨docs, sch, td, _, _, _, e'⟩ := deriveEnum_ok hder
              rw [hf] at e'
              have hb1 : body P .inlineSchema (.named i) = some [.call .inlineSchema u] := by rw [body_named_eq hd hder, e']; rfl
              have hb2 : body P .schema (.named i) = some [.call .schema u] := by rw [body_named_eq hd hder, e']; rfl
              obtain ⟨qs, hq, hrun'⟩ := eval_succ.1 hs'
              rw [hb1] at hq
              cases hq
              exact ih u s s' z z' ((returns_single hb2).1 hs) (runPieces_call_some.1 hrun') hz hz'
    · have hb1 : body P .inlineSchema t = some [.call .schema t] := by
        cases t <;> first | rfl | exact absurd ⟨_, rfl⟩ hn
      have := (returns_single hb1).1 ⟨n + 1, hs'⟩
      have := returns_unique this hs
      subst this
      rw [hz] at hz'
      cases hz'
      exact .refl E z

/-! ## Written and referred to: types -/

/-- The values of a declared type are those of its declaration. -/
theorem inhabits_declared {D : TsEnv} {len : Bool} {ns name : Str} {v : JsVal} (h : Inhabits D len (.name [ns, name]) v) :
    ∃ t, D ns name = some t ∧ Inhabits D len t v := by
  generalize e : TsType.name [ns, name] = T at h
  cases h with
  | ref ns' name' t _ h1 h2 =>
    injection e with e
    injection e with e1 e
    injection e with e2 _
    subst e1 e2
    exact ⟨t, h1, h2⟩
  | _ => simp at e

theorem inline_sameT {P : Program} {D : TsEnv} {len : Bool} (hg : GoodNames P) (hgt : GoodTypeNames P) (hw : WellStyled P)
    (hD : IsTsModule P D) (n : Nat) :
    ∀ (t : Ty) (s s' : Str) (a b : TsType), Returns P .typeDef t s → eval P n .inline t = some s' →
      readType s = some a → readType s' = some b → ∀ v, Inhabits D len a v ↔ Inhabits D len b v := by
  induction n with
  | zero => intro t s s' a b _ h; cases h
  | succ n ih =>
    intro t s s' a b hs hs' ha hb'
    have hr := (eval_agreeT hg hgt hw (n + 1) .inline t s' (Or.inr rfl) hs').read
    rw [hb'] at hr
    obtain ⟨ps, hb, hrun⟩ := eval_succ.1 hs'
    by_cases hn : ∃ i, t = .named i
    · obtain ⟨i, rfl⟩ := hn
      have href : ∀ d, P[i]? = some d → b = .name [d.ns, d.name] → ∀ v, Inhabits D len a v ↔ Inhabits D len b v := by
        intro d hd e v
        obtain ⟨x, hx, hc⟩ := hD i d hd
        rw [returns_unique hx hs, ha] at hc
        rw [e]
        constructor
        · exact .ref _ _ _ _ hc
        · intro h
          obtain ⟨t, h1, h2⟩ := inhabits_declared h
          rw [hc] at h1
          cases h1
          exact h2
      rw [body] at hb
      cases hd : P[i]? with
      | none => rw [hd] at hb; cases hb
      | some d =>
        have hr : some b = some (ofDnf (declInlineD (dOf P n) d)) := by
          rw [hr, dOf]; simp only [tBody, hd]
        have hr := Option.some.inj hr
        cases hder : derive d with
        | error x => rw [hd] at hb; simp [hder] at hb
        | ok impl =>
          cases d with
          | struct st =>
            cases hf : st.from_.ty? with
            | none => simp only [declInlineD, hf] at hr; exact href _ hd hr
            | some u =>
              obtain ⟨docs, sch, td, _, _, _, _, e'⟩ := deriveStruct_ok hder
              rw [hf] at e'
              have hb1 : body P .inline (.named i) = some [.call .inline u] := by rw [body_named_eq hd hder, e']; rfl
              have hb2 : body P .typeDef (.named i) = some [.call .inline u] := by rw [body_named_eq hd hder, e']; rfl
              have := returns_unique ((returns_single hb1).1 ⟨n + 1, hs'⟩) ((returns_single hb2).1 hs)
              subst this
              rw [ha] at hb'
              cases hb'
              exact fun _ => .rfl
          | enum e =>
            cases hf : e.from_.ty? with
            | none => simp only [declInlineD, hf] at hr; exact href _ hd hr
            | some u =>
              obtain ⟨docs, sch, td, _, _, _, e'⟩ := deriveEnum_ok hder
              rw [hf] at e'
              have hb1 : body P .inline (.named i) = some [.call .inline u] := by rw [body_named_eq hd hder, e']; rfl
              have hb2 : body P .typeDef (.named i) = some [.call .typeDef u] := by rw [body_named_eq hd hder, e']; rfl
              obtain ⟨qs, hq, hrun'⟩ := eval_succ.1 hs'
              rw [hb1] at hq
              cases hq
              exact ih u s s' a b ((returns_single hb2).1 hs) (runPieces_call_some.1 hrun') ha hb'
    · have hb1 : body P .inline t = some [.call .typeDef t] := by
        cases t <;> first | rfl | exact absurd ⟨_, rfl⟩ hn
      have := returns_unique ((returns_single hb1).1 ⟨n + 1, hs'⟩) hs
      subst this
      rw [ha] at hb'
      cases hb'
      exact fun _ => .rfl

end Verif.Zod
