import Verif.Schema.Lemmas
import Verif.Spec.Schema

/-!
# The call graph (proof helper)
-/

namespace Verif.Schema
open Verif Verif.SchemaSpec

theorem mem_joinP {sep : Str} {l : List (List Piece)} {m : Method} {t : Ty}
    (h : Piece.call m t ∈ joinP sep l) : ∃ ps ∈ l, Piece.call m t ∈ ps := by
  induction l with
  | nil => simp [joinP] at h
  | cons x r ih =>
    cases r with
    | nil => exact ⟨x, by simp, h⟩
    | cons y r =>
      rw [joinP] at h
      simp only [List.append_assoc, List.mem_append, List.mem_singleton, reduceCtorEq, false_or] at h
      rcases h with h | h
      · exact ⟨x, by simp, h⟩
      · obtain ⟨ps, hp, h'⟩ := ih h
        exact ⟨ps, List.mem_cons_of_mem _ hp, h'⟩

theorem mem_filter_of {α : Type} {p : α → Bool} {l : List α} {a : α} (h : a ∈ l.filter p) : a ∈ l :=
  (List.mem_filter.1 h).1

theorem mem_wrap {a b : Str} {inner : List Piece} {m : Method} {t : Ty}
    (h : Piece.call m t ∈ [.txt a] ++ inner ++ [.txt b]) : Piece.call m t ∈ inner := by
  simpa using h

theorem mem_sfield_schema {f : SField} {m : Method} {t : Ty} (h : Piece.call m t ∈ f.schema) :
    m = .inlineSchema ∧ t = f.ty := by
  unfold SField.schema at h
  split at h <;> simp at h <;> exact h

theorem mem_sfield_typeDef {f : SField} {m : Method} {t : Ty} (h : Piece.call m t ∈ f.typeDef) :
    m = .inline ∧ t = f.ty := by
  unfold SField.typeDef at h
  split at h <;> simp at h <;> exact h

theorem mem_variantFieldSchema {st : Style} {f : Field} {m : Method} {t : Ty}
    (h : Piece.call m t ∈ variantFieldSchema st f) : m = .inlineSchema ∧ t = f.ty := by
  unfold variantFieldSchema at h
  split at h <;> simp at h <;> exact h

theorem mem_variantFieldTypeDef {st : Style} {f : Field} {m : Method} {t : Ty}
    (h : Piece.call m t ∈ variantFieldTypeDef st f) : m = .inline ∧ t = f.ty := by
  unfold variantFieldTypeDef at h
  split at h <;> simp at h <;> exact h

theorem structFields_types {s : StructDecl} {f : SField} (h : f ∈ structFields s) :
    f.ty ∈ fieldTypes s.fields := by
  unfold structFields at h
  obtain ⟨g, hg, e⟩ := List.mem_map.1 h
  subst e
  exact List.mem_map.2 ⟨g, hg, rfl⟩

theorem mem_map_joinP {α : Type} {sep : Str} {l : List α} {g : α → List Piece} {m : Method} {t : Ty}
    (h : Piece.call m t ∈ joinP sep (l.map g)) : ∃ a ∈ l, Piece.call m t ∈ g a := by
  obtain ⟨ps, hp, h'⟩ := mem_joinP h
  obtain ⟨a, ha, e⟩ := List.mem_map.1 hp
  exact ⟨a, ha, e ▸ h'⟩

theorem structSchema_calls {s : StructDecl} {ps : List Piece} (h : structSchema s = .ok ps)
    {m : Method} {t : Ty} (hm : Piece.call m t ∈ ps) :
    m = .inlineSchema ∧ t ∈ fieldTypes s.fields := by
  have key : ∀ f ∈ structFields s, Piece.call m t ∈ f.schema →
      m = .inlineSchema ∧ t ∈ fieldTypes s.fields := by
    intro f hf hc
    obtain ⟨a, b⟩ := mem_sfield_schema hc
    exact ⟨a, b ▸ structFields_types hf⟩
  unfold structSchema at h
  simp only at h
  split at h
  · split at h
    · rename_i f _ hfs
      cases h
      exact key f (mem_filter_of (hfs ▸ List.mem_cons_self ..)) hm
    · cases h
  · split at h
    · cases h
    · rename_i f hfs
      cases h
      exact key f (mem_filter_of (hfs ▸ List.mem_cons_self ..)) hm
    · split at h
      · cases h
      · cases h
        simp only [List.mem_append, List.mem_singleton, reduceCtorEq, false_or, or_false] at hm
        obtain ⟨f, hf, hc⟩ := mem_map_joinP hm
        exact key f (mem_filter_of hf) hc
  · cases h
    simp only [List.mem_append, List.mem_singleton, reduceCtorEq, false_or, or_false] at hm
    rcases hm with hm | hm
    · obtain ⟨f, hf, hc⟩ := mem_map_joinP hm
      exact key f (mem_filter_of hf) hc
    · obtain ⟨f, hf, hc⟩ := mem_map_joinP hm
      exact key f (mem_filter_of hf) hc
  · cases h

theorem structTypeDef_calls {s : StructDecl} {ps : List Piece} (h : structTypeDef s = .ok ps)
    {m : Method} {t : Ty} (hm : Piece.call m t ∈ ps) :
    m = .inline ∧ t ∈ fieldTypes s.fields := by
  have key : ∀ f ∈ structFields s, Piece.call m t ∈ f.typeDef →
      m = .inline ∧ t ∈ fieldTypes s.fields := by
    intro f hf hc
    obtain ⟨a, b⟩ := mem_sfield_typeDef hc
    exact ⟨a, b ▸ structFields_types hf⟩
  unfold structTypeDef at h
  simp only at h
  split at h
  · split at h
    · rename_i f _ hfs
      cases h
      exact key f (mem_filter_of (hfs ▸ List.mem_cons_self ..)) hm
    · cases h
  · split at h
    · cases h
    · rename_i f hfs
      cases h
      exact key f (mem_filter_of (hfs ▸ List.mem_cons_self ..)) hm
    · cases h
      simp only [List.mem_append, List.mem_singleton, reduceCtorEq, false_or, or_false] at hm
      obtain ⟨f, hf, hc⟩ := mem_map_joinP hm
      exact key f (mem_filter_of hf) hc
  · cases h
    simp only [List.mem_append, List.mem_singleton, reduceCtorEq, false_or, or_false] at hm
    rcases hm with hm | hm
    · obtain ⟨f, hf, hc⟩ := mem_map_joinP hm
      exact key f (mem_filter_of hf) hc
    · obtain ⟨f, hf, hc⟩ := mem_map_joinP hm
      exact key f (mem_filter_of hf) hc
  · cases h

theorem unitSchema_no_calls {tag : Tag} {n : Str} {m : Method} {t : Ty} :
    ¬ Piece.call m t ∈ unitSchema tag n := by
  unfold unitSchema
  split <;> simp

theorem unitTypeDef_no_calls {tag : Tag} {n : Str} {m : Method} {t : Ty} :
    ¬ Piece.call m t ∈ unitTypeDef tag n := by
  unfold unitTypeDef
  split <;> simp

theorem kept_types {v : Variant} {f : Field} (h : f ∈ v.kept) : f.ty ∈ fieldTypes v.fields :=
  List.mem_map.2 ⟨f, h, rfl⟩

theorem variantSchema_calls {tag : Tag} {v : Variant} {ps : List Piece}
    (h : variantSchema tag v = .ok ps) {m : Method} {t : Ty} (hm : Piece.call m t ∈ ps) :
    m = .inlineSchema ∧ t ∈ fieldTypes v.fields := by
  have key : ∀ st, ∀ f ∈ v.kept, Piece.call m t ∈ variantFieldSchema st f →
      m = .inlineSchema ∧ t ∈ fieldTypes v.fields := by
    intro st f hf hc
    obtain ⟨a, b⟩ := mem_variantFieldSchema hc
    exact ⟨a, b ▸ kept_types hf⟩
  unfold variantSchema at h
  split at h
  · cases h; exact absurd hm unitSchema_no_calls
  · unfold structVariantSchema at h
    split at h
    · cases h
    · rename_i f fs hk
      injection h with h
      subst h
      have : Piece.call m t ∈ joinP (lit ", ") ((f :: fs).map (variantFieldSchema .named)) := by
        split at hm <;>
          simpa only [List.mem_append, List.mem_singleton, reduceCtorEq, false_or, or_false] using hm
      obtain ⟨g, hg, hc⟩ := mem_map_joinP this
      exact key _ g (hk ▸ hg) hc
  · injection h with h
    subst h
    unfold tupleVariantSchema at hm
    have inner : ∀ ps : List Piece, ps = (match v.kept with
        | [f] => variantFieldSchema .tuple f
        | fs => [.txt (lit "z.tuple([")] ++ joinP (lit ", ") (fs.map (variantFieldSchema .tuple)) ++
            [.txt (lit "])")]) → Piece.call m t ∈ ps → m = .inlineSchema ∧ t ∈ fieldTypes v.fields := by
      intro ps e hc
      subst e
      split at hc
      · rename_i f hk
        exact key _ f (hk ▸ List.mem_singleton.2 rfl) hc
      · simp only [List.mem_append, List.mem_singleton, reduceCtorEq, false_or, or_false] at hc
        obtain ⟨g, hg, hc⟩ := mem_map_joinP hc
        exact key _ g hg hc
    simp only at hm
    split at hm
    · exact absurd hm unitSchema_no_calls
    · rename_i hk
      refine inner _ rfl ?_
      rw [hk] at hm ⊢
      split at hm <;>
        first
        | exact hm
        | exact mem_wrap hm

theorem variantTypeDef_calls {tag : Tag} {v : Variant} {ps : List Piece}
    (h : variantTypeDef tag v = .ok ps) {m : Method} {t : Ty} (hm : Piece.call m t ∈ ps) :
    m = .inline ∧ t ∈ fieldTypes v.fields := by
  have key : ∀ st, ∀ f ∈ v.kept, Piece.call m t ∈ variantFieldTypeDef st f →
      m = .inline ∧ t ∈ fieldTypes v.fields := by
    intro st f hf hc
    obtain ⟨a, b⟩ := mem_variantFieldTypeDef hc
    exact ⟨a, b ▸ kept_types hf⟩
  unfold variantTypeDef at h
  split at h
  · cases h; exact absurd hm unitTypeDef_no_calls
  · unfold structVariantTypeDef at h
    split at h
    · cases h
    · rename_i f fs hk
      injection h with h
      subst h
      have : Piece.call m t ∈ joinP (lit ", ") ((f :: fs).map (variantFieldTypeDef .named)) := by
        split at hm <;>
          simpa only [List.mem_append, List.mem_singleton, reduceCtorEq, false_or, or_false] using hm
      obtain ⟨g, hg, hc⟩ := mem_map_joinP this
      exact key _ g (hk ▸ hg) hc
  · injection h with h
    subst h
    unfold tupleVariantTypeDef at hm
    have inner : ∀ ps : List Piece, ps = (match v.kept with
        | [f] => variantFieldTypeDef .tuple f
        | fs => [.txt (lit "[")] ++ joinP (lit ", ") (fs.map (variantFieldTypeDef .tuple)) ++
            [.txt (lit "]")]) → Piece.call m t ∈ ps → m = .inline ∧ t ∈ fieldTypes v.fields := by
      intro ps e hc
      subst e
      split at hc
      · rename_i f hk
        exact key _ f (hk ▸ List.mem_singleton.2 rfl) hc
      · simp only [List.mem_append, List.mem_singleton, reduceCtorEq, false_or, or_false] at hc
        obtain ⟨g, hg, hc⟩ := mem_map_joinP hc
        exact key _ g hg hc
    simp only at hm
    split at hm
    · exact absurd hm unitTypeDef_no_calls
    · rename_i hk
      refine inner _ rfl ?_
      rw [hk] at hm ⊢
      split at hm <;>
        first
        | exact hm
        | exact mem_wrap hm

theorem allOk_mem {α ε : Type} {l : List (Except ε α)} {r : List α} (h : allOk l = .ok r) :
    ∀ a ∈ r, .ok a ∈ l := by
  induction l generalizing r with
  | nil => cases h; simp
  | cons x l ih =>
    cases x with
    | error e => cases h
    | ok a =>
      rw [allOk] at h
      cases hl : allOk l with
      | error e => rw [hl] at h; cases h
      | ok l' =>
        rw [hl] at h
        cases h
        intro b hb
        rcases List.mem_cons.1 hb with e | hb
        · subst e; simp
        · exact List.mem_cons_of_mem _ (ih hl b hb)

theorem kept_variant_types {e : EnumDecl} {v : Variant} (hv : v ∈ e.kept) {t : Ty}
    (ht : t ∈ fieldTypes v.fields) :
    t ∈ ((e.variants.filter (fun v => !v.skipDe)).map (fun v => fieldTypes v.fields)).flatten :=
  List.mem_flatten.2 ⟨_, List.mem_map.2 ⟨v, hv, rfl⟩, ht⟩

theorem enumSchema_calls {e : EnumDecl} {ps : List Piece} (h : enumSchema e = .ok ps)
    {m : Method} {t : Ty} (hm : Piece.call m t ∈ ps) :
    m = .inlineSchema ∧
      t ∈ ((e.variants.filter (fun v => !v.skipDe)).map (fun v => fieldTypes v.fields)).flatten := by
  unfold enumSchema at h
  split at h
  · cases h
  · rename_i v hk
    obtain ⟨a, b⟩ := variantSchema_calls h hm
    exact ⟨a, kept_variant_types (hk ▸ List.mem_singleton.2 rfl) b⟩
  · split at h
    · cases h
    · rename_i vs _ _ schemas hall
      injection h with h
      subst h
      have : Piece.call m t ∈ joinP (lit ", ") schemas := by
        split at hm <;>
          simpa only [List.mem_append, List.mem_singleton, reduceCtorEq, false_or, or_false] using hm
      obtain ⟨ps, hp, hc⟩ := mem_joinP this
      obtain ⟨v, hv, e'⟩ := List.mem_map.1 (allOk_mem hall ps hp)
      obtain ⟨a, b⟩ := variantSchema_calls e' hc
      exact ⟨a, kept_variant_types hv b⟩

theorem enumTypeDef_calls {e : EnumDecl} {ps : List Piece} (h : enumTypeDef e = .ok ps)
    {m : Method} {t : Ty} (hm : Piece.call m t ∈ ps) :
    m = .inline ∧
      t ∈ ((e.variants.filter (fun v => !v.skipDe)).map (fun v => fieldTypes v.fields)).flatten := by
  unfold enumTypeDef at h
  split at h
  · cases h
  · rename_i v hk
    obtain ⟨a, b⟩ := variantTypeDef_calls h hm
    exact ⟨a, kept_variant_types (hk ▸ List.mem_singleton.2 rfl) b⟩
  · split at h
    · cases h
    · rename_i vs _ _ schemas hall
      injection h with h
      subst h
      obtain ⟨ps, hp, hc⟩ := mem_joinP hm
      obtain ⟨v, hv, e'⟩ := List.mem_map.1 (allOk_mem hall ps hp)
      obtain ⟨a, b⟩ := variantTypeDef_calls e' hc
      exact ⟨a, kept_variant_types hv b⟩

/-- The body of a method of a derived implementation. -/
def Impl.get (impl : Impl) : Method → List Piece
  | .schema => impl.schema
  | .inlineSchema => impl.inlineSchema
  | .typeDef => impl.typeDef
  | .inline => impl.inline

/-- The successful derivations of a struct. -/
theorem deriveStruct_ok {s : StructDecl} {impl : Impl} (h : deriveStruct s = .ok impl) :
    ∃ docs sch td, Derive.docsText s.attrs = some docs ∧ s.style ≠ .unit ∧ structSchema s = .ok sch ∧
      structTypeDef s = .ok td ∧
      impl = (match s.from_.ty? with
        | some t => { schema := [.call .inlineSchema t], inlineSchema := lazyRef s.ns s.name,
                      typeDef := [.call .inline t], kind := .type, inline := [.call .inline t],
                      docs := some docs }
        | none => { schema := sch, inlineSchema := lazyRef s.ns s.name, typeDef := td,
                    kind := structKind s, inline := tsRef s.ns s.name, docs := some docs }) := by
  unfold deriveStruct at h
  split at h
  · cases h
  · rename_i docs hd
    split at h
    · cases h
    · rename_i hst
      split at h
      · cases h
      · rename_i sch hs
        split at h
        · cases h
        · rename_i td ht
          refine ⟨docs, sch, td, hd, hst, hs, ht, ?_⟩
          split at h
          · rename_i t hf; rw [hf]; cases h; rfl
          · rename_i hf; rw [hf]; cases h; rfl

theorem deriveEnum_ok {s : EnumDecl} {impl : Impl} (h : deriveEnum s = .ok impl) :
    ∃ docs sch td, Derive.docsText s.attrs = some docs ∧ enumSchema s = .ok sch ∧
      enumTypeDef s = .ok td ∧
      impl = (match s.from_.ty? with
        | some t => { schema := [.call .schema t], inlineSchema := [.call .inlineSchema t],
                      typeDef := [.call .typeDef t], kind := .same t, inline := [.call .inline t],
                      docs := some docs }
        | none => { schema := sch, inlineSchema := lazyRef s.ns s.name, typeDef := td,
                    kind := .type, inline := tsRef s.ns s.name, docs := some docs }) := by
  unfold deriveEnum at h
  split at h
  · cases h
  · rename_i docs hd
    split at h
    · cases h
    · rename_i sch hs
      split at h
      · cases h
      · rename_i td ht
        refine ⟨docs, sch, td, hd, hs, ht, ?_⟩
        split at h
        · rename_i t hf; rw [hf]; cases h; rfl
        · rename_i hf; rw [hf]; cases h; rfl

theorem derive_calls {d : Decl} {impl : Impl} (h : derive d = .ok impl) {m m' : Method} {t : Ty}
    (hm : Piece.call m' t ∈ impl.get m) : t ∈ declTypes d := by
  cases d with
  | struct s =>
    obtain ⟨docs, sch, td, _, _, hs, ht, e⟩ := deriveStruct_ok h
    unfold declTypes
    cases hf : s.from_.ty? with
    | some u =>
      rw [hf] at e
      subst e
      cases m <;> simp [Impl.get, lazyRef] at hm <;> simp [hf, hm]
    | none =>
      rw [hf] at e
      subst e
      cases m
      · simp [(structSchema_calls hs hm).2]
      · simp [Impl.get, lazyRef] at hm
      · simp [(structTypeDef_calls ht hm).2]
      · simp [Impl.get, tsRef] at hm
  | enum s =>
    obtain ⟨docs, sch, td, _, hs, ht, e⟩ := deriveEnum_ok h
    unfold declTypes
    cases hf : s.from_.ty? with
    | some u =>
      rw [hf] at e
      subst e
      cases m <;> simp [Impl.get] at hm <;> simp [hf, hm]
    | none =>
      rw [hf] at e
      subst e
      cases m
      · exact List.mem_append_left _ (enumSchema_calls hs hm).2
      · simp [Impl.get, lazyRef] at hm
      · exact List.mem_append_left _ (enumTypeDef_calls ht hm).2
      · simp [Impl.get, tsRef] at hm

theorem body_named {P : Program} {i : Nat} {m : Method} {ps : List Piece}
    (h : body P m (.named i) = some ps) :
    ∃ d impl, P[i]? = some d ∧ derive d = .ok impl ∧ ps = impl.get m := by
  rw [body] at h
  cases hd : P[i]? with
  | none => rw [hd] at h; simp at h
  | some d =>
    rw [hd] at h
    simp only [Option.map_some] at h
    cases hi : derive d with
    | error e => rw [hi] at h; simp at h
    | ok impl =>
      rw [hi] at h
      simp only [Option.some.injEq] at h
      exact ⟨d, impl, rfl, hi, by rw [← h]; cases m <;> rfl⟩

theorem body_named_eq {P : Program} {i : Nat} {m : Method} {d : Decl} {impl : Impl}
    (h : P[i]? = some d) (hi : derive d = .ok impl) : body P m (.named i) = some (impl.get m) := by
  rw [body, h]
  simp only [Option.map_some]
  rw [hi]
  cases m <;> rfl

/-- In a valid program every function in scope has a body. -/
theorem body_some {P : Program} (hv : Valid P) {t : Ty} (ht : InScope P t) (m : Method) :
    ∃ ps, body P m t = some ps := by
  cases ht with
  | named hi =>
    rename_i i
    obtain ⟨impl, h⟩ := hv.1 P[i] (List.getElem_mem hi)
    exact ⟨_, body_named_eq (List.getElem?_eq_getElem hi) h⟩
  | _ => cases m <;> exact ⟨_, rfl⟩

/-- Calls stay in scope. -/
theorem calls_inScope {P : Program} (hv : Valid P) {t : Ty} (ht : InScope P t) {m : Method}
    {ps : List Piece} (hb : body P m t = some ps) {m' : Method} {t' : Ty}
    (hc : Piece.call m' t' ∈ ps) : InScope P t' := by
  cases ht with
  | named hi =>
    rename_i i
    obtain ⟨d, impl, h1, h2, e⟩ := body_named hb
    subst e
    exact hv.2 d (List.mem_of_getElem? h1) t' (derive_calls h2 hc)
  | prim p => cases m <;> cases hb <;> simp at hc <;> (rw [hc.2]; exact .prim p)
  | wrap w h => cases m <;> cases hb <;> simp at hc <;> (rw [hc.2]; first | exact h | exact .wrap w h)
  | option h => cases m <;> cases hb <;> simp at hc <;> (rw [hc.2]; first | exact h | exact .option h)
  | vec h => cases m <;> cases hb <;> simp at hc <;> (rw [hc.2]; first | exact h | exact .vec h)
  | array n h =>
    cases m <;> cases hb <;> simp at hc <;> (rw [hc.2]; first | exact .vec h | exact .array n h)
  | hashSet h => cases m <;> cases hb <;> simp at hc <;> (rw [hc.2]; first | exact h | exact .hashSet h)
  | btreeSet h =>
    cases m <;> cases hb <;> simp at hc <;> (rw [hc.2]; first | exact .hashSet h | exact .btreeSet h)
  | hashMap h1 h2 =>
    cases m <;> cases hb <;> simp at hc
    · rcases hc with hc | hc <;> (rw [hc.2]; assumption)
    · rw [hc.2]; exact .hashMap h1 h2
    · rcases hc with hc | hc <;> (rw [hc.2]; assumption)
    · rw [hc.2]; exact .hashMap h1 h2
  | btreeMap h1 h2 =>
    cases m <;> cases hb <;> simp at hc <;>
      (rw [hc.2]; first | exact .hashMap h1 h2 | exact .btreeMap h1 h2)
  | tuple h =>
    cases m <;> cases hb
    · simp only [List.mem_append, List.mem_singleton, reduceCtorEq, false_or, or_false] at hc
      obtain ⟨u, hu, hc⟩ := mem_map_joinP hc
      simp at hc; rw [hc.2]; exact h u hu
    · simp at hc; rw [hc.2]; exact .tuple h
    · simp only [List.mem_append, List.mem_singleton, reduceCtorEq, false_or, or_false] at hc
      obtain ⟨u, hu, hc⟩ := mem_map_joinP hc
      simp at hc; rw [hc.2]; exact h u hu
    · simp at hc; rw [hc.2]; exact .tuple h
  | result h1 h2 =>
    cases m <;> cases hb <;> simp at hc
    · rcases hc with hc | hc <;> (rw [hc.2]; assumption)
    · rw [hc.2]; exact .result h1 h2
    · rcases hc with hc | hc <;> (rw [hc.2]; assumption)
    · rw [hc.2]; exact .result h1 h2

/-- Not accessible: an endless chain. -/
theorem chain_of_not_acc {α : Type} {r : α → α → Prop} {a : α} (h : ¬ Acc r a) :
    ∃ c : Nat → α, c 0 = a ∧ ∀ i, r (c (i + 1)) (c i) := by
  have step : ∀ x : { x : α // ¬ Acc r x }, ∃ y : { x : α // ¬ Acc r x }, r y.1 x.1 := by
    rintro ⟨x, hx⟩
    refine Classical.byContradiction (fun hn => hx (Acc.intro x ?_))
    intro y hy
    refine Classical.byContradiction (fun hny => hn ⟨⟨y, hny⟩, hy⟩)
  let next : { x : α // ¬ Acc r x } → { x : α // ¬ Acc r x } := fun x => Classical.choose (step x)
  let c : Nat → { x : α // ¬ Acc r x } := fun n => Nat.rec ⟨a, h⟩ (fun _ x => next x) n
  exact ⟨fun n => (c n).1, rfl, fun i => Classical.choose_spec (step (c i))⟩

theorem not_acc_of_chain {α : Type} {r : α → α → Prop} {a : α} (h : Acc r a) :
    ¬ ∃ c : Nat → α, c 0 = a ∧ ∀ i, r (c (i + 1)) (c i) := by
  induction h with
  | intro a _ ih =>
    rintro ⟨c, h0, hs⟩
    refine ih (c 1) (h0 ▸ hs 0) ⟨fun i => c (i + 1), rfl, fun i => hs (i + 1)⟩

theorem returns_acc {P : Program} {n : Nat} {m : Method} {t : Ty} {s : Str}
    (h : eval P n m t = some s) : Acc (fun b a => Calls P a b) (m, t) := by
  induction n generalizing m t s with
  | zero => cases h
  | succ n ih =>
    obtain ⟨ps, hp, hr⟩ := eval_succ.1 h
    refine Acc.intro _ ?_
    rintro ⟨m', t'⟩ ⟨ps', hp', hc⟩
    have e : ps = ps' := Option.some.inj (hp.symm.trans hp')
    subst e
    obtain ⟨x, hx⟩ := runPieces_call_mem hr hc
    exact ih hx

theorem acc_returns {P : Program} (hv : Valid P) {a : Method × Ty}
    (h : Acc (fun b a => Calls P a b) a) (ht : InScope P a.2) : ∃ s, Returns P a.1 a.2 s := by
  induction h with
  | intro a _ ih =>
    obtain ⟨ps, hp⟩ := body_some hv ht a.1
    refine returns_pieces hp ?_
    intro m' t' hc
    exact ih (m', t') ⟨ps, hp, hc⟩ (calls_inScope hv ht hp hc)

theorem nonrec_returns {P : Program} (hv : Valid P) {t : Ty} (h : Acc (fun b a => Part P a b) t)
    (ht : InScope P t) : ∀ m, ∃ s, Returns P m t s := by
  induction h with
  | intro t _ ih =>
    have two : ∀ (u : Ty), (∀ ps, body P .inlineSchema u = some ps → ps = [.call .schema u]) →
        (∀ ps, body P .inline u = some ps → ps = [.call .typeDef u]) → InScope P u →
        (∃ s, Returns P .schema u s) → (∃ s, Returns P .typeDef u s) → ∀ m, ∃ s, Returns P m u s := by
      intro u h1 h2 hu hs htd m
      cases m with
      | schema => exact hs
      | typeDef => exact htd
      | inlineSchema =>
        obtain ⟨ps, hp⟩ := body_some hv hu .inlineSchema
        refine returns_pieces hp ?_
        intro m' t' hc
        rw [h1 ps hp] at hc; simp at hc; rw [hc.1, hc.2]; exact hs
      | inline =>
        obtain ⟨ps, hp⟩ := body_some hv hu .inline
        refine returns_pieces hp ?_
        intro m' t' hc
        rw [h2 ps hp] at hc; simp at hc; rw [hc.1, hc.2]; exact htd
    cases ht with
    | named hi =>
      rename_i i
      intro m
      obtain ⟨ps, hp⟩ := body_some hv (.named hi) m
      refine returns_pieces hp ?_
      intro m' t' hc
      obtain ⟨d, impl, h1, h2, e⟩ := body_named hp
      subst e
      exact ih t' (.named _ d t' h1 (derive_calls h2 hc)) (calls_inScope hv (.named hi) hp hc) m'
    | prim p =>
      refine two _ (by intro ps h; cases h; rfl) (by intro ps h; cases h; rfl) (.prim p) ?_ ?_ <;>
        exact returns_pieces rfl (by intro m' t' hc; simp at hc)
    | wrap w h =>
      have ih' := ih _ (.wrap w _) h
      refine two _ (by intro ps h; cases h; rfl) (by intro ps h; cases h; rfl) (.wrap w h) ?_ ?_ <;>
        exact returns_pieces rfl (by intro m' t' hc; simp at hc; rw [hc.1, hc.2]; exact ih' _)
    | option h =>
      have ih' := ih _ (.option _) h
      refine two _ (by intro ps h; cases h; rfl) (by intro ps h; cases h; rfl) (.option h) ?_ ?_ <;>
        exact returns_pieces rfl (by intro m' t' hc; simp at hc; rw [hc.1, hc.2]; exact ih' _)
    | vec h =>
      have ih' := ih _ (.vec _) h
      refine two _ (by intro ps h; cases h; rfl) (by intro ps h; cases h; rfl) (.vec h) ?_ ?_ <;>
        exact returns_pieces rfl (by intro m' t' hc; simp at hc; rw [hc.1, hc.2]; exact ih' _)
    | hashSet h =>
      have ih' := ih _ (.hashSet _) h
      refine two _ (by intro ps h; cases h; rfl) (by intro ps h; cases h; rfl) (.hashSet h) ?_ ?_ <;>
        exact returns_pieces rfl (by intro m' t' hc; simp at hc; rw [hc.1, hc.2]; exact ih' _)
    | array n h =>
      have ih' := ih _ (.array n _) h
      refine two _ (by intro ps h; cases h; rfl) (by intro ps h; cases h; rfl) (.array n h) ?_ ?_ <;>
        (refine returns_pieces rfl ?_; intro m' t' hc; simp at hc; rw [hc.1, hc.2];
         exact returns_pieces rfl (by intro m' t' hc; simp at hc; rw [hc.1, hc.2]; exact ih' _))
    | btreeSet h =>
      have ih' := ih _ (.btreeSet _) h
      refine two _ (by intro ps h; cases h; rfl) (by intro ps h; cases h; rfl) (.btreeSet h) ?_ ?_ <;>
        (refine returns_pieces rfl ?_; intro m' t' hc; simp at hc; rw [hc.1, hc.2];
         exact returns_pieces rfl (by intro m' t' hc; simp at hc; rw [hc.1, hc.2]; exact ih' _))
    | hashMap h1 h2 =>
      have ihk := ih _ (.hashMapK _ _) h1
      have ihv := ih _ (.hashMapV _ _) h2
      refine two _ (by intro ps h; cases h; rfl) (by intro ps h; cases h; rfl) (.hashMap h1 h2) ?_ ?_ <;>
        (refine returns_pieces rfl ?_; intro m' t' hc; simp at hc;
         rcases hc with hc | hc <;> (rw [hc.1, hc.2]; first | exact ihk _ | exact ihv _))
    | btreeMap h1 h2 =>
      have ihk := ih _ (.btreeMapK _ _) h1
      have ihv := ih _ (.btreeMapV _ _) h2
      refine two _ (by intro ps h; cases h; rfl) (by intro ps h; cases h; rfl) (.btreeMap h1 h2) ?_ ?_ <;>
        (refine returns_pieces rfl ?_; intro m' t' hc; simp at hc; rw [hc.1, hc.2]
         refine returns_pieces rfl ?_; intro m' t' hc; simp at hc;
         rcases hc with hc | hc <;> (rw [hc.1, hc.2]; first | exact ihk _ | exact ihv _))
    | tuple h =>
      refine two _ (by intro ps h; cases h; rfl) (by intro ps h; cases h; rfl) (.tuple h) ?_ ?_ <;>
        (refine returns_pieces rfl ?_; intro m' t' hc
         simp only [List.mem_append, List.mem_singleton, reduceCtorEq, false_or, or_false] at hc
         obtain ⟨u, hu, hc⟩ := mem_map_joinP hc
         simp at hc; rw [hc.1, hc.2]; exact ih u (.tuple _ u hu) (h u hu) _)
    | result h1 h2 =>
      have ihk := ih _ (.resultT _ _) h1
      have ihv := ih _ (.resultE _ _) h2
      refine two _ (by intro ps h; cases h; rfl) (by intro ps h; cases h; rfl) (.result h1 h2) ?_ ?_ <;>
        (refine returns_pieces rfl ?_; intro m' t' hc; simp at hc;
         rcases hc with hc | hc <;> (rw [hc.1, hc.2]; first | exact ihk _ | exact ihv _))

end Verif.Schema
