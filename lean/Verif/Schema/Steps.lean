import Verif.Schema.Calls

/-!
# Which calls a derived implementation makes, and expansion chains (proof helper)
-/

namespace Verif.Schema
open Verif Verif.SchemaSpec

theorem joinP_mem {sep : Str} {l : List (List Piece)} {p : Piece} {ps : List Piece} (h : ps ∈ l)
    (hp : p ∈ ps) : p ∈ joinP sep l := by
  induction l with
  | nil => cases h
  | cons x r ih =>
    cases r with
    | nil =>
      rcases List.mem_cons.1 h with e | e
      · exact e ▸ hp
      · cases e
    | cons y r =>
      rw [joinP]
      rcases List.mem_cons.1 h with e | e
      · subst e; simp [hp]
      · simp [ih e]

theorem sfield_schema_mem (f : SField) : Piece.call .inlineSchema f.ty ∈ f.schema := by
  unfold SField.schema
  split <;> simp

theorem sfield_typeDef_mem (f : SField) : Piece.call .inline f.ty ∈ f.typeDef := by
  unfold SField.typeDef
  split <;> simp

theorem variantFieldSchema_mem (st : Style) (f : Field) :
    Piece.call .inlineSchema f.ty ∈ variantFieldSchema st f := by
  unfold variantFieldSchema
  split <;> simp

theorem variantFieldTypeDef_mem (st : Style) (f : Field) :
    Piece.call .inline f.ty ∈ variantFieldTypeDef st f := by
  unfold variantFieldTypeDef
  split <;> simp

theorem types_structFields {s : StructDecl} {t : Ty} (h : t ∈ fieldTypes s.fields) :
    ∃ f ∈ structFields s, f.ty = t := by
  unfold fieldTypes at h
  obtain ⟨g, hg, e⟩ := List.mem_map.1 h
  exact ⟨SField.ofField s.transparent g, List.mem_map.2 ⟨g, hg, rfl⟩, e⟩

theorem plain_flatten {s : StructDecl} (hp : Plain (.struct s))
    (h : s.transparent = true ∨ s.style = .tuple) : ∀ f ∈ structFields s, f.flatten = false := by
  intro f hf
  obtain ⟨g, hg, e⟩ := List.mem_map.1 hf
  subst e
  have := List.mem_filter.1 hg
  exact hp.1 h g this.1 (by simpa using this.2)

theorem plain_single {s : StructDecl} (hp : Plain (.struct s)) (h : s.transparent = true) :
    ∃ f, structFields s = [f] := by
  obtain ⟨f, hf⟩ := hp.2 h
  exact ⟨_, by unfold structFields; rw [hf]; rfl⟩

theorem mem_filter_of_false {l : List SField} {f : SField} (h : f ∈ l) (hf : f.flatten = false) :
    f ∈ l.filter (fun f => !f.flatten) := List.mem_filter.2 ⟨h, by simp [hf]⟩

theorem structSchema_mem {s : StructDecl} (hpl : Plain (.struct s)) {ps : List Piece}
    (h : structSchema s = .ok ps) {t : Ty} (ht : t ∈ fieldTypes s.fields) :
    Piece.call .inlineSchema t ∈ ps := by
  obtain ⟨f, hf, e⟩ := types_structFields ht
  subst e
  have hm := sfield_schema_mem f
  unfold structSchema at h
  simp only at h
  split at h
  · rename_i htr
    obtain ⟨g, hg⟩ := plain_single hpl htr
    have hfg : f = g := by rw [hg] at hf; simpa using hf
    have hfl := plain_flatten hpl (.inl htr) g (hg ▸ List.mem_singleton.2 rfl)
    rw [hg] at h
    simp [hfl] at h
    rw [← h, ← hfg]; exact hm
  · rename_i htr hst
    have hfl := plain_flatten hpl (.inr hst) f hf
    have hmem := mem_filter_of_false hf hfl
    split at h
    · cases h
    · rename_i g hg
      rw [hg] at hmem
      cases h
      rw [← List.mem_singleton.1 hmem]; exact hm
    · split at h
      · cases h
      · cases h
        refine List.mem_append_left _ (List.mem_append_right _ (joinP_mem (List.mem_map.2 ⟨f, hmem, rfl⟩) hm))
  · cases h
    cases hfl : f.flatten with
    | false =>
      exact List.mem_append_left _ (List.mem_append_left _ (List.mem_append_right _
        (joinP_mem (List.mem_map.2 ⟨f, mem_filter_of_false hf hfl, rfl⟩) hm)))
    | true =>
      exact List.mem_append_right _ (joinP_mem (List.mem_map.2 ⟨f, List.mem_filter.2 ⟨hf, hfl⟩, rfl⟩) hm)
  · cases h

theorem structTypeDef_mem {s : StructDecl} (hpl : Plain (.struct s)) {ps : List Piece}
    (h : structTypeDef s = .ok ps) {t : Ty} (ht : t ∈ fieldTypes s.fields) :
    Piece.call .inline t ∈ ps := by
  obtain ⟨f, hf, e⟩ := types_structFields ht
  subst e
  have hm := sfield_typeDef_mem f
  unfold structTypeDef at h
  simp only at h
  split at h
  · rename_i htr
    obtain ⟨g, hg⟩ := plain_single hpl htr
    have hfg : f = g := by rw [hg] at hf; simpa using hf
    have hfl := plain_flatten hpl (.inl htr) g (hg ▸ List.mem_singleton.2 rfl)
    rw [hg] at h
    simp [hfl] at h
    rw [← h, ← hfg]; exact hm
  · rename_i htr hst
    have hfl := plain_flatten hpl (.inr hst) f hf
    have hmem := mem_filter_of_false hf hfl
    split at h
    · cases h
    · rename_i g hg
      rw [hg] at hmem
      cases h
      rw [← List.mem_singleton.1 hmem]; exact hm
    · cases h
      refine List.mem_append_left _ (List.mem_append_right _ (joinP_mem (List.mem_map.2 ⟨f, hmem, rfl⟩) hm))
  · cases h
    cases hfl : f.flatten with
    | false =>
      exact List.mem_append_left _ (List.mem_append_left _ (List.mem_append_right _
        (joinP_mem (List.mem_map.2 ⟨f, mem_filter_of_false hf hfl, rfl⟩) hm)))
    | true =>
      exact List.mem_append_right _ (joinP_mem (List.mem_map.2 ⟨f, List.mem_filter.2 ⟨hf, hfl⟩, rfl⟩) hm)
  · cases h

/-- The shape of a variant's text: wrapped or bare. -/
theorem mem_wrap' {a b : Str} {inner : List Piece} {p : Piece} (h : p ∈ inner) :
    p ∈ [Piece.txt a] ++ inner ++ [.txt b] := by simp [h]

theorem variantSchema_mem {tag : Tag} {v : Variant} {ps : List Piece} (hu : v.style = .unit → v.fields = [])
    (h : variantSchema tag v = .ok ps) {t : Ty} (ht : t ∈ fieldTypes v.fields) :
    Piece.call .inlineSchema t ∈ ps := by
  obtain ⟨f, hf, e⟩ := List.mem_map.1 ht
  subst e
  have hf : f ∈ v.kept := hf
  unfold variantSchema at h
  split at h
  · rename_i hst
    have := hu hst
    simp [Variant.kept, this] at hf
  · unfold structVariantSchema at h
    split at h
    · cases h
    · rename_i g gs hk
      injection h with h
      have hin : Piece.call .inlineSchema f.ty ∈
          joinP (lit ", ") ((g :: gs).map (variantFieldSchema .named)) :=
        joinP_mem (List.mem_map.2 ⟨f, hk ▸ hf, rfl⟩) (variantFieldSchema_mem .named f)
      subst h
      split <;> exact mem_wrap' hin
  · injection h with h
    subst h
    unfold tupleVariantSchema
    have hin : Piece.call .inlineSchema f.ty ∈ (match v.kept with
        | [f] => variantFieldSchema .tuple f
        | fs => [Piece.txt (lit "z.tuple([")] ++ joinP (lit ", ") (fs.map (variantFieldSchema .tuple)) ++
            [Piece.txt (lit "])")]) := by
      split
      · rename_i g hk
        rw [hk] at hf
        rw [← List.mem_singleton.1 hf]
        exact variantFieldSchema_mem .tuple f
      · exact mem_wrap' (joinP_mem (List.mem_map.2 ⟨f, hf, rfl⟩) (variantFieldSchema_mem .tuple f))
    simp only
    cases hk : v.kept with
    | nil => rw [hk] at hf; cases hf
    | cons g gs =>
      rw [hk] at hin
      cases tag <;> first | exact hin | exact mem_wrap' hin

theorem variantTypeDef_mem {tag : Tag} {v : Variant} {ps : List Piece} (hu : v.style = .unit → v.fields = [])
    (h : variantTypeDef tag v = .ok ps) {t : Ty} (ht : t ∈ fieldTypes v.fields) :
    Piece.call .inline t ∈ ps := by
  obtain ⟨f, hf, e⟩ := List.mem_map.1 ht
  subst e
  have hf : f ∈ v.kept := hf
  unfold variantTypeDef at h
  split at h
  · rename_i hst
    have := hu hst
    simp [Variant.kept, this] at hf
  · unfold structVariantTypeDef at h
    split at h
    · cases h
    · rename_i g gs hk
      injection h with h
      have hin : Piece.call .inline f.ty ∈
          joinP (lit ", ") ((g :: gs).map (variantFieldTypeDef .named)) :=
        joinP_mem (List.mem_map.2 ⟨f, hk ▸ hf, rfl⟩) (variantFieldTypeDef_mem .named f)
      subst h
      split <;> exact mem_wrap' hin
  · injection h with h
    subst h
    unfold tupleVariantTypeDef
    have hin : Piece.call .inline f.ty ∈ (match v.kept with
        | [f] => variantFieldTypeDef .tuple f
        | fs => [Piece.txt (lit "[")] ++ joinP (lit ", ") (fs.map (variantFieldTypeDef .tuple)) ++
            [Piece.txt (lit "]")]) := by
      split
      · rename_i g hk
        rw [hk] at hf
        rw [← List.mem_singleton.1 hf]
        exact variantFieldTypeDef_mem .tuple f
      · exact mem_wrap' (joinP_mem (List.mem_map.2 ⟨f, hf, rfl⟩) (variantFieldTypeDef_mem .tuple f))
    simp only
    cases hk : v.kept with
    | nil => rw [hk] at hf; cases hf
    | cons g gs =>
      rw [hk] at hin
      cases tag <;> first | exact hin | exact mem_wrap' hin

theorem allOk_of_mem {α ε : Type} {l : List (Except ε α)} {r : List α} (h : allOk l = .ok r) :
    ∀ x ∈ l, ∃ a ∈ r, x = .ok a := by
  induction l generalizing r with
  | nil => cases h; simp
  | cons x l ih =>
    cases x with
    | error e => cases h
    | ok a =>
      rw [allOk] at h
      cases hl : allOk l with
      | error e => rw [hl] at h; cases h
      | ok l' =>
        rw [hl] at h
        cases h
        intro b hb
        rcases List.mem_cons.1 hb with e | hb
        · exact ⟨a, by simp, e⟩
        · obtain ⟨c, hc, e⟩ := ih hl b hb
          exact ⟨c, by simp [hc], e⟩

theorem enumSchema_mem {e : EnumDecl} {ps : List Piece}
    (hu : ∀ v ∈ e.variants, v.style = .unit → v.fields = []) (h : enumSchema e = .ok ps) {t : Ty}
    (ht : t ∈ ((e.variants.filter (fun v => !v.skipDe)).map (fun v => fieldTypes v.fields)).flatten) :
    Piece.call .inlineSchema t ∈ ps := by
  obtain ⟨ts, hts, ht⟩ := List.mem_flatten.1 ht
  obtain ⟨v, hv, e'⟩ := List.mem_map.1 hts
  subst e'
  have hu := hu v (List.mem_filter.1 hv).1
  have hv : v ∈ e.kept := hv
  unfold enumSchema at h
  split at h
  · cases h
  · rename_i w hk
    rw [hk] at hv
    rw [← List.mem_singleton.1 hv] at h
    exact variantSchema_mem hu h ht
  · split at h
    · cases h
    · rename_i vs _ _ schemas hall
      injection h with h
      obtain ⟨a, ha, e2⟩ := allOk_of_mem hall _ (List.mem_map.2 ⟨v, hv, rfl⟩)
      have hm := joinP_mem (sep := lit ", ") ha (variantSchema_mem hu e2 ht)
      subst h
      split <;> exact mem_wrap' hm

theorem enumTypeDef_mem {e : EnumDecl} {ps : List Piece}
    (hu : ∀ v ∈ e.variants, v.style = .unit → v.fields = []) (h : enumTypeDef e = .ok ps) {t : Ty}
    (ht : t ∈ ((e.variants.filter (fun v => !v.skipDe)).map (fun v => fieldTypes v.fields)).flatten) :
    Piece.call .inline t ∈ ps := by
  obtain ⟨ts, hts, ht⟩ := List.mem_flatten.1 ht
  obtain ⟨v, hv, e'⟩ := List.mem_map.1 hts
  subst e'
  have hu := hu v (List.mem_filter.1 hv).1
  have hv : v ∈ e.kept := hv
  unfold enumTypeDef at h
  split at h
  · cases h
  · rename_i w hk
    rw [hk] at hv
    rw [← List.mem_singleton.1 hv] at h
    exact variantTypeDef_mem hu h ht
  · split at h
    · cases h
    · rename_i vs _ _ schemas hall
      injection h with h
      obtain ⟨a, ha, e2⟩ := allOk_of_mem hall _ (List.mem_map.2 ⟨v, hv, rfl⟩)
      subst h
      exact joinP_mem ha (variantTypeDef_mem hu e2 ht)

theorem derive_mem {d : Decl} (hpl : Plain d) (hnf : NoFrom d) {impl : Impl} (h : derive d = .ok impl)
    {t : Ty} (ht : t ∈ declTypes d) :
    Piece.call .inlineSchema t ∈ impl.schema ∧ Piece.call .inline t ∈ impl.typeDef := by
  cases d with
  | struct s =>
    obtain ⟨docs, sch, td, _, _, hs, htd, e⟩ := deriveStruct_ok h
    have hnf : s.from_.ty? = none := hnf
    rw [hnf] at e
    simp only [declTypes, hnf, Option.toList_none, List.append_nil] at ht
    subst e
    exact ⟨structSchema_mem hpl hs ht, structTypeDef_mem hpl htd ht⟩
  | enum s =>
    obtain ⟨docs, sch, td, _, hs, htd, e⟩ := deriveEnum_ok h
    have hnf : s.from_.ty? = none := hnf
    rw [hnf] at e
    simp only [declTypes, hnf, Option.toList_none, List.append_nil] at ht
    subst e
    exact ⟨enumSchema_mem hpl hs ht, enumTypeDef_mem hpl htd ht⟩

theorem derive_refs {d : Decl} (hnf : NoFrom d) {impl : Impl} (h : derive d = .ok impl) :
    impl.inlineSchema = lazyRef d.ns d.name ∧ impl.inline = tsRef d.ns d.name := by
  cases d with
  | struct s =>
    obtain ⟨docs, sch, td, _, _, hs, htd, e⟩ := deriveStruct_ok h
    have hnf : s.from_.ty? = none := hnf
    rw [hnf] at e
    subst e
    exact ⟨rfl, rfl⟩
  | enum s =>
    obtain ⟨docs, sch, td, _, hs, htd, e⟩ := deriveEnum_ok h
    have hnf : s.from_.ty? = none := hnf
    rw [hnf] at e
    subst e
    exact ⟨rfl, rfl⟩

/-- What a method of a derived type without `from` calls. -/
theorem derive_calls_nofrom {d : Decl} (hnf : NoFrom d) {impl : Impl} (h : derive d = .ok impl)
    {m : Method} {t : Ty} :
    (Piece.call m t ∈ impl.schema → m = .inlineSchema) ∧ (Piece.call m t ∈ impl.typeDef → m = .inline) := by
  cases d with
  | struct s =>
    obtain ⟨docs, sch, td, _, _, hs, htd, e⟩ := deriveStruct_ok h
    have hnf : s.from_.ty? = none := hnf
    rw [hnf] at e
    subst e
    exact ⟨fun hm => (structSchema_calls hs hm).1, fun hm => (structTypeDef_calls htd hm).1⟩
  | enum s =>
    obtain ⟨docs, sch, td, _, hs, htd, e⟩ := deriveEnum_ok h
    have hnf : s.from_.ty? = none := hnf
    rw [hnf] at e
    subst e
    exact ⟨fun hm => (enumSchema_calls hs hm).1, fun hm => (enumTypeDef_calls htd hm).1⟩

/-- A returning call's own calls return, with less fuel. -/
theorem eval_sub {P : Program} {n : Nat} {m : Method} {t : Ty} {s : Str} (h : eval P (n + 1) m t = some s)
    {ps : List Piece} (hb : body P m t = some ps) {m' : Method} {t' : Ty} (hc : Piece.call m' t' ∈ ps) :
    ∃ x, eval P n m' t' = some x := by
  obtain ⟨ps', hp, hr⟩ := eval_succ.1 h
  have e : ps' = ps := Option.some.inj (hp.symm.trans hb)
  subst e
  exact runPieces_call_mem hr hc

theorem eval_up {P : Program} {n : Nat} {m : Method} {t : Ty} (h : ∃ s, eval P n m t = some s) :
    ∃ s, eval P (n + 1) m t = some s := by
  obtain ⟨s, h⟩ := h
  exact ⟨s, eval_mono (Nat.le_succ n) h⟩

/-- Descending from a returning call to a call of a built-in type's default method. -/
theorem eval_default {P : Program} {n : Nat} {t : Ty} (hn : isNamed t = false) :
    ((∃ s, eval P n .inlineSchema t = some s) → ∃ s, eval P n .schema t = some s) ∧
      ((∃ s, eval P n .inline t = some s) → ∃ s, eval P n .typeDef t = some s) := by
  cases n with
  | zero => constructor <;> (rintro ⟨s, h⟩; cases h)
  | succ n =>
    constructor
    · rintro ⟨s, h⟩
      refine eval_up (eval_sub h (ps := [.call .schema t]) ?_ (by simp))
      cases t <;> first | rfl | simp [isNamed] at hn
    · rintro ⟨s, h⟩
      refine eval_up (eval_sub h (ps := [.call .typeDef t]) ?_ (by simp))
      cases t <;> first | rfl | simp [isNamed] at hn

theorem named_decl {P : Program} (hv : Valid P) {i : Nat} {d : Decl} (h : P[i]? = some d) :
    ∃ impl, derive d = .ok impl := hv.1 d (List.mem_of_getElem? h)

theorem typeDef_acc {P : Program} (hpl : ∀ d ∈ P, Plain d) (hnf : ∀ d ∈ P, NoFrom d) {n : Nat} {t : Ty}
    {s : Str} (h : eval P n .typeDef t = some s) : Acc (fun b a => TypeExpands P a b) t := by
  induction n generalizing t s with
  | zero => cases h
  | succ n ih =>
    refine Acc.intro _ ?_
    rintro u ⟨hp, hn⟩
    have hlow : ∃ x, eval P n .typeDef u = some x := by
      cases hp with
      | named i d _ hi hd =>
        obtain ⟨ps, hb, _⟩ := eval_succ.1 h
        obtain ⟨d', impl, h1, h2, e⟩ := body_named hb
        have : d' = d := Option.some.inj (h1.symm.trans hi)
        subst this
        have hm := (derive_mem (hpl _ (List.mem_of_getElem? hi)) (hnf _ (List.mem_of_getElem? hi)) h2 hd).2
        have hs := eval_sub h hb (by rw [e]; exact hm)
        exact (eval_default (hn rfl)).2 hs
      | array k t =>
        obtain ⟨x, hx⟩ := eval_sub h (ps := [.call .typeDef (.vec u)]) rfl (List.mem_singleton.2 rfl)
        cases n with
        | zero => cases hx
        | succ n => refine eval_up (eval_sub hx rfl ?_); simp
      | btreeSet t =>
        obtain ⟨x, hx⟩ := eval_sub h (ps := [.call .typeDef (.hashSet u)]) rfl (List.mem_singleton.2 rfl)
        cases n with
        | zero => cases hx
        | succ n => refine eval_up (eval_sub hx rfl ?_); simp
      | btreeMapK k v =>
        obtain ⟨x, hx⟩ := eval_sub h (ps := [.call .typeDef (.hashMap u v)]) rfl (List.mem_singleton.2 rfl)
        cases n with
        | zero => cases hx
        | succ n => refine eval_up (eval_sub hx rfl ?_); simp
      | btreeMapV k v =>
        obtain ⟨x, hx⟩ := eval_sub h (ps := [.call .typeDef (.hashMap k u)]) rfl (List.mem_singleton.2 rfl)
        cases n with
        | zero => cases hx
        | succ n => refine eval_up (eval_sub hx rfl ?_); simp
      | tuple ts _ hu =>
        exact eval_sub h rfl (mem_wrap' (joinP_mem (List.mem_map.2 ⟨u, hu, rfl⟩) (by simp)))
      | _ => exact eval_sub h rfl (by simp)
    obtain ⟨x, hx⟩ := hlow
    exact ih hx

theorem schema_acc {P : Program} (hpl : ∀ d ∈ P, Plain d) (hnf : ∀ d ∈ P, NoFrom d) {n : Nat} {t : Ty}
    {s : Str} (h : eval P n .schema t = some s) : Acc (fun b a => SchemaExpands P a b) t := by
  induction n generalizing t s with
  | zero => cases h
  | succ n ih =>
    refine Acc.intro _ ?_
    rintro u ⟨hp, hn⟩
    have hnn : isWrapOrTuple t = false → isNamed u = false := by
      intro h; cases hc : isNamed u with
      | false => rfl
      | true => rw [hn hc] at h; cases h
    have hlow : ∃ x, eval P n .schema u = some x := by
      cases hp with
      | named i d _ hi hd =>
        obtain ⟨ps, hb, _⟩ := eval_succ.1 h
        obtain ⟨d', impl, h1, h2, e⟩ := body_named hb
        have : d' = d := Option.some.inj (h1.symm.trans hi)
        subst this
        have hm := (derive_mem (hpl _ (List.mem_of_getElem? hi)) (hnf _ (List.mem_of_getElem? hi)) h2 hd).1
        have hs := eval_sub h hb (by rw [e]; exact hm)
        exact (eval_default (hnn rfl)).1 hs
      | array k t =>
        obtain ⟨x, hx⟩ := eval_sub h (ps := [.call .schema (.vec u)]) rfl (List.mem_singleton.2 rfl)
        cases n with
        | zero => cases hx
        | succ n => refine eval_up ((eval_default (hnn rfl)).1 (eval_sub hx rfl ?_)); simp
      | btreeSet t =>
        obtain ⟨x, hx⟩ := eval_sub h (ps := [.call .schema (.hashSet u)]) rfl (List.mem_singleton.2 rfl)
        cases n with
        | zero => cases hx
        | succ n => refine eval_up ((eval_default (hnn rfl)).1 (eval_sub hx rfl ?_)); simp
      | btreeMapK k v =>
        obtain ⟨x, hx⟩ := eval_sub h (ps := [.call .schema (.hashMap u v)]) rfl (List.mem_singleton.2 rfl)
        cases n with
        | zero => cases hx
        | succ n => refine eval_up ((eval_default (hnn rfl)).1 (eval_sub hx rfl ?_)); simp
      | btreeMapV k v =>
        obtain ⟨x, hx⟩ := eval_sub h (ps := [.call .schema (.hashMap k u)]) rfl (List.mem_singleton.2 rfl)
        cases n with
        | zero => cases hx
        | succ n => refine eval_up ((eval_default (hnn rfl)).1 (eval_sub hx rfl ?_)); simp
      | tuple ts _ hu =>
        exact eval_sub h rfl (mem_wrap' (joinP_mem (List.mem_map.2 ⟨u, hu, rfl⟩) (by simp)))
      | wrap w t => exact eval_sub h rfl (by simp)
      | _ => exact (eval_default (hnn rfl)).1 (eval_sub h rfl (by simp))
    obtain ⟨x, hx⟩ := hlow
    exact ih hx

/-- A derived type without `from` is referenced without further calls. -/
theorem ref_returns {P : Program} (hv : Valid P) (hnf : ∀ d ∈ P, NoFrom d) {i : Nat} (hi : i < P.length) :
    (∃ s, Returns P .inlineSchema (.named i) s) ∧ (∃ s, Returns P .inline (.named i) s) := by
  obtain ⟨impl, h⟩ := hv.1 P[i] (List.getElem_mem hi)
  obtain ⟨h1, h2⟩ := derive_refs (hnf _ (List.getElem_mem hi)) h
  constructor
  · refine returns_pieces (body_named_eq (List.getElem?_eq_getElem hi) h) ?_
    intro m' t' hc
    simp [Impl.get, h1, lazyRef] at hc
  · refine returns_pieces (body_named_eq (List.getElem?_eq_getElem hi) h) ?_
    intro m' t' hc
    simp [Impl.get, h2, tsRef] at hc

theorem default_returns {P : Program} {t : Ty} (hn : isNamed t = false) :
    ((∃ s, Returns P .schema t s) → ∃ s, Returns P .inlineSchema t s) ∧
      ((∃ s, Returns P .typeDef t s) → ∃ s, Returns P .inline t s) := by
  constructor
  · intro h
    refine returns_pieces (ps := [.call .schema t]) ?_ ?_
    · cases t <;> first | rfl | simp [isNamed] at hn
    · intro m' t' hc
      simp at hc; rw [hc.1, hc.2]; exact h
  · intro h
    refine returns_pieces (ps := [.call .typeDef t]) ?_ ?_
    · cases t <;> first | rfl | simp [isNamed] at hn
    · intro m' t' hc
      simp at hc; rw [hc.1, hc.2]; exact h

theorem acc_typeDef {P : Program} (hv : Valid P) (hnf : ∀ d ∈ P, NoFrom d) {t : Ty}
    (h : Acc (fun b a => TypeExpands P a b) t) (ht : InScope P t) : ∃ s, Returns P .typeDef t s := by
  induction h with
  | intro t _ ih =>
    have one : ∀ u, isNamed t = false → Part P t u → InScope P u → ∃ s, Returns P .typeDef u s := by
      intro u hn hp hs
      exact ih u ⟨hp, fun h => by rw [hn] at h; cases h⟩ hs
    cases ht with
    | named hi =>
      obtain ⟨ps, hp⟩ := body_some hv (.named hi) .typeDef
      refine returns_pieces hp ?_
      intro m' t' hc
      have hsc := calls_inScope hv (.named hi) hp hc
      obtain ⟨d, impl, h1, h2, e⟩ := body_named hp
      subst e
      have hm := (derive_calls_nofrom (hnf d (List.mem_of_getElem? h1)) h2).2 hc
      subst hm
      cases hn : isNamed t' with
      | true =>
        cases t' with
        | named j => cases hsc with | named hj => exact (ref_returns hv hnf hj).2
        | _ => cases hn
      | false =>
        exact (default_returns hn).2 (ih t' ⟨.named _ d t' h1 (derive_calls (m := .typeDef) h2 hc), fun _ => hn⟩ hsc)
    | prim p => exact returns_pieces rfl (by intro m' t' hc; simp at hc)
    | wrap w h =>
      exact returns_pieces rfl (by intro m' t' hc; simp at hc; rw [hc.1, hc.2]; exact one _ rfl (.wrap w _) h)
    | option h =>
      exact returns_pieces rfl (by intro m' t' hc; simp at hc; rw [hc.1, hc.2]; exact one _ rfl (.option _) h)
    | vec h =>
      exact returns_pieces rfl (by intro m' t' hc; simp at hc; rw [hc.1, hc.2]; exact one _ rfl (.vec _) h)
    | hashSet h =>
      exact returns_pieces rfl (by intro m' t' hc; simp at hc; rw [hc.1, hc.2]; exact one _ rfl (.hashSet _) h)
    | array n h =>
      refine returns_pieces rfl ?_; intro m' t' hc; simp at hc; rw [hc.1, hc.2]
      exact returns_pieces rfl (by intro m' t' hc; simp at hc; rw [hc.1, hc.2]; exact one _ rfl (.array n _) h)
    | btreeSet h =>
      refine returns_pieces rfl ?_; intro m' t' hc; simp at hc; rw [hc.1, hc.2]
      exact returns_pieces rfl (by intro m' t' hc; simp at hc; rw [hc.1, hc.2]; exact one _ rfl (.btreeSet _) h)
    | hashMap h1 h2 =>
      refine returns_pieces rfl ?_; intro m' t' hc; simp at hc
      rcases hc with hc | hc <;> rw [hc.1, hc.2]
      · exact one _ rfl (.hashMapK _ _) h1
      · exact one _ rfl (.hashMapV _ _) h2
    | btreeMap h1 h2 =>
      refine returns_pieces rfl ?_; intro m' t' hc; simp at hc; rw [hc.1, hc.2]
      refine returns_pieces rfl ?_; intro m' t' hc; simp at hc
      rcases hc with hc | hc <;> rw [hc.1, hc.2]
      · exact one _ rfl (.btreeMapK _ _) h1
      · exact one _ rfl (.btreeMapV _ _) h2
    | tuple h =>
      refine returns_pieces rfl ?_; intro m' t' hc
      obtain ⟨u, hu, hc⟩ := mem_map_joinP (mem_wrap hc)
      simp at hc; rw [hc.1, hc.2]; exact one u rfl (.tuple _ u hu) (h u hu)
    | result h1 h2 =>
      refine returns_pieces rfl ?_; intro m' t' hc; simp at hc
      rcases hc with hc | hc <;> rw [hc.1, hc.2]
      · exact one _ rfl (.resultT _ _) h1
      · exact one _ rfl (.resultE _ _) h2

theorem acc_schema {P : Program} (hv : Valid P) (hnf : ∀ d ∈ P, NoFrom d) {t : Ty}
    (h : Acc (fun b a => SchemaExpands P a b) t) (ht : InScope P t) : ∃ s, Returns P .schema t s := by
  induction h with
  | intro t _ ih =>
    have one : ∀ u, isWrapOrTuple t = true → Part P t u → InScope P u → ∃ s, Returns P .schema u s := by
      intro u hn hp hs
      exact ih u ⟨hp, fun _ => hn⟩ hs
    have two : ∀ u, Part P t u → InScope P u → ∃ s, Returns P .inlineSchema u s := by
      intro u hp hs
      cases hn : isNamed u with
      | true =>
        cases u with
        | named j => cases hs with | named hj => exact (ref_returns hv hnf hj).1
        | _ => cases hn
      | false => exact (default_returns hn).1 (ih u ⟨hp, fun h => by rw [hn] at h; cases h⟩ hs)
    cases ht with
    | named hi =>
      obtain ⟨ps, hp⟩ := body_some hv (.named hi) .schema
      refine returns_pieces hp ?_
      intro m' t' hc
      have hsc := calls_inScope hv (.named hi) hp hc
      obtain ⟨d, impl, h1, h2, e⟩ := body_named hp
      subst e
      have hm := (derive_calls_nofrom (hnf d (List.mem_of_getElem? h1)) h2).1 hc
      subst hm
      exact two t' (.named _ d t' h1 (derive_calls (m := .schema) h2 hc)) hsc
    | prim p => exact returns_pieces rfl (by intro m' t' hc; simp at hc)
    | wrap w h =>
      exact returns_pieces rfl (by intro m' t' hc; simp at hc; rw [hc.1, hc.2]; exact one _ rfl (.wrap w _) h)
    | option h =>
      exact returns_pieces rfl (by intro m' t' hc; simp at hc; rw [hc.1, hc.2]; exact two _ (.option _) h)
    | vec h =>
      exact returns_pieces rfl (by intro m' t' hc; simp at hc; rw [hc.1, hc.2]; exact two _ (.vec _) h)
    | hashSet h =>
      exact returns_pieces rfl (by intro m' t' hc; simp at hc; rw [hc.1, hc.2]; exact two _ (.hashSet _) h)
    | array n h =>
      refine returns_pieces rfl ?_; intro m' t' hc; simp at hc; rw [hc.1, hc.2]
      exact returns_pieces rfl (by intro m' t' hc; simp at hc; rw [hc.1, hc.2]; exact two _ (.array n _) h)
    | btreeSet h =>
      refine returns_pieces rfl ?_; intro m' t' hc; simp at hc; rw [hc.1, hc.2]
      exact returns_pieces rfl (by intro m' t' hc; simp at hc; rw [hc.1, hc.2]; exact two _ (.btreeSet _) h)
    | hashMap h1 h2 =>
      refine returns_pieces rfl ?_; intro m' t' hc; simp at hc
      rcases hc with hc | hc <;> rw [hc.1, hc.2]
      · exact two _ (.hashMapK _ _) h1
      · exact two _ (.hashMapV _ _) h2
    | btreeMap h1 h2 =>
      refine returns_pieces rfl ?_; intro m' t' hc; simp at hc; rw [hc.1, hc.2]
      refine returns_pieces rfl ?_; intro m' t' hc; simp at hc
      rcases hc with hc | hc <;> rw [hc.1, hc.2]
      · exact two _ (.btreeMapK _ _) h1
      · exact two _ (.btreeMapV _ _) h2
    | tuple h =>
      refine returns_pieces rfl ?_; intro m' t' hc
      obtain ⟨u, hu, hc⟩ := mem_map_joinP (mem_wrap hc)
      simp at hc; rw [hc.1, hc.2]; exact one u rfl (.tuple _ u hu) (h u hu)
    | result h1 h2 =>
      refine returns_pieces rfl ?_; intro m' t' hc; simp at hc
      rcases hc with hc | hc <;> rw [hc.1, hc.2]
      · exact two _ (.resultT _ _) h1
      · exact two _ (.resultE _ _) h2

theorem acc_iff_not_endless {α : Type} {r : α → α → Prop} {a : α} :
    Acc (fun b a => r a b) a ↔ ¬ Endless r a := by
  constructor
  · intro h; exact not_acc_of_chain h
  · intro h
    refine Classical.byContradiction (fun hn => h ?_)
    exact chain_of_not_acc hn

end Verif.Schema
