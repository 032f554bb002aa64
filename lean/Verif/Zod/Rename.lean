import Verif.Spec.Rename
import Verif.Zod.Reorder

/-!
# The names of types and the meaning of schemas
-/

namespace Verif.Zod
open Verif Verif.Js Verif.Schema Verif.Spec Verif.SchemaSpec

/-- The schema with other references. -/
def renamed (f : Str → Str → Str × Str) : ZSchema → ZSchema
  | .string cs => .string cs
  | .number cs => .number cs
  | .null => .null
  | .literal s => .literal s
  | .array z => .array (renamed f z)
  | .set z => .set (renamed f z)
  | .map k v => .map (renamed f k) (renamed f v)
  | .tuple zs => .tuple (zs.map (fun z => renamed f z))
  | .object sh => .object (sh.map (fun p => (p.1, renamed f p.2)))
  | .union zs => .union (zs.map (fun z => renamed f z))
  | .discUnion t o => .discUnion t (o.map (fun p => (p.1, renamed f p.2)))
  | .optional z => .optional (renamed f z)
  | .lazy ns name => .lazy (f ns name).1 (f ns name).2
  | .broken => .broken
decreasing_by
  all_goals first
  | (rename_i h; have := List.sizeOf_lt_of_mem h; cases p; simp only [ZSchema.object.sizeOf_spec, ZSchema.discUnion.sizeOf_spec, Prod.mk.sizeOf_spec] at this ⊢; omega)
  | (rename_i h; have := List.sizeOf_lt_of_mem h; simp only [ZSchema.tuple.sizeOf_spec, ZSchema.union.sizeOf_spec]; omega)
  | (simp only [ZSchema.array.sizeOf_spec, ZSchema.set.sizeOf_spec, ZSchema.map.sizeOf_spec, ZSchema.optional.sizeOf_spec]; omega)

variable {f : Str → Str → Str × Str} {E E' : ZEnv} {Q : Str → Str → Prop}

/-! ## Validation -/

/-- All references are among these. -/
def RefsIn (Q : Str → Str → Prop) (z : ZSchema) : Prop := ∃ z', Reord False Q z z'

/-- What is referred to is the same under the other name. -/
def LinkedRen (f : Str → Str → Str × Str) (Q : Str → Str → Prop) (E E' : ZEnv) : Prop :=
  ∀ ns name, Q ns name → E'.const (f ns name).1 (f ns name).2 = (E.const ns name).map (renamed f) ∧
    ∀ z, E.const ns name = some z → RefsIn Q z

theorem find_renamed (o : List (Str × ZSchema)) (s : Str) :
    (o.map (fun p => (p.1, renamed f p.2))).find? (fun p => decide (p.1 = s)) = (o.find? (fun p => decide (p.1 = s))).map (fun p => (p.1, renamed f p.2)) := by
  induction o with
  | nil => rfl
  | cons a r ih =>
    rw [List.map_cons, List.find?_cons, List.find?_cons]
    cases decide (a.1 = s) with
    | true => rfl
    | false => exact ih

theorem zipWith_renamed {g g' : ZSchema → JsVal → Res JsVal} (zs : List ZSchema) (l : List JsVal)
    (h : ∀ z ∈ zs, ∀ v, g' (renamed f z) v = g z v) : List.zipWith g' (zs.map (fun z => renamed f z)) l = List.zipWith g zs l := by
  induction zs generalizing l with
  | nil => rfl
  | cons z r ih =>
    cases l with
    | nil => rfl
    | cons v l =>
      rw [List.map_cons, List.zipWith_cons_cons, List.zipWith_cons_cons, h z List.mem_cons_self,
        ih l (fun a ha => h a (List.mem_cons_of_mem _ ha))]

theorem parse_renamed (hL : LinkedRen f Q E E') (n : Nat) : ∀ z, RefsIn Q z → ∀ v, parse E' n (renamed f z) v = parse E n z v := by
  induction n with
  | zero => intro z _ v; rfl
  | succ n ih =>
    rintro z ⟨z', h⟩ v
    cases h with
    | string cs => rw [renamed]; rfl
    | number cs => rw [renamed]; rfl
    | null => rw [renamed]; rfl
    | literal s => rw [renamed]; rfl
    | broken => rw [renamed]; rfl
    | lazy ns name hq =>
      obtain ⟨h1, h2⟩ := hL ns name hq
      rw [renamed, parse, parse, h1]
      cases hc : E.const ns name with
      | none => rfl
      | some z => exact ih z (h2 z hc) v
    | array h =>
      rw [renamed]
      cases v with
      | arr l => rw [parse, parse, List.map_congr_left (fun v _ => ih _ ⟨_, h⟩ v)]
      | _ => rfl
    | set h =>
      rw [renamed]
      cases v with
      | set l => rw [parse, parse, List.map_congr_left (fun v _ => ih _ ⟨_, h⟩ v)]
      | _ => rfl
    | optional h =>
      rw [renamed]
      cases v <;> first | rfl | exact ih _ ⟨_, h⟩ _
    | map h h' =>
      rw [renamed]
      cases v with
      | map kvs =>
        have e1 : kvs.map (fun p => parse E' n (renamed f _) p.1) = kvs.map (fun p => parse E n _ p.1) :=
          List.map_congr_left (fun p _ => ih _ ⟨_, h⟩ p.1)
        have e2 : kvs.map (fun p => parse E' n (renamed f _) p.2) = kvs.map (fun p => parse E n _ p.2) :=
          List.map_congr_left (fun p _ => ih _ ⟨_, h'⟩ p.2)
        rw [parse, parse, e1, e2]
      | _ => rfl
    | tuple l h =>
      rw [renamed]
      cases v with
      | arr vs =>
        rw [parse, parse, zipWith_renamed _ vs (fun z hz v => by
          obtain ⟨p, hp, rfl⟩ := List.mem_map.1 hz
          exact ih _ ⟨_, h p hp⟩ v), List.length_map]
      | _ => rfl
    | union l l' _ _ h =>
      rw [renamed, parse, parse, List.map_map]
      exact congrArg _ (List.map_congr_left (fun z hz => by
        obtain ⟨p, hp, rfl⟩ := List.mem_map.1 hz
        exact ih _ ⟨_, h p hp⟩ v))
    | object l l' _ _ h =>
      rw [renamed]
      cases v with
      | obj kvs =>
        have e1 : ((l.map (fun p => (p.1, p.2.1))).map (fun p : Str × ZSchema => (p.1, renamed f p.2))).map (fun p => parse E' n p.2 (objGet kvs p.1)) =
            (l.map (fun p => (p.1, p.2.1))).map (fun p => parse E n p.2 (objGet kvs p.1)) := by
          rw [List.map_map]
          exact List.map_congr_left (fun z hz => by
            obtain ⟨p, hp, rfl⟩ := List.mem_map.1 hz
            exact ih _ ⟨_, h p hp⟩ _)
        have e2 : ((l.map (fun p => (p.1, p.2.1))).map (fun p : Str × ZSchema => (p.1, renamed f p.2))).map (·.1) =
            (l.map (fun p => (p.1, p.2.1))).map (·.1) := by
          rw [List.map_map]; rfl
        rw [parse, parse, e1, e2]
      | _ => rfl
    | disc tag l l' _ _ h =>
      rw [renamed]
      cases v with
      | obj kvs =>
        rw [parse, parse]
        cases hg : objGet kvs tag with
        | str s =>
          simp only [find_renamed]
          cases hf : (l.map (fun p => (p.1, p.2.1))).find? (fun p => decide (p.1 = s)) with
          | none => rfl
          | some x =>
            obtain ⟨p, hp, rfl⟩ := List.mem_map.1 (List.mem_of_find?_eq_some hf)
            exact ih _ ⟨_, h p hp⟩ _
        | _ => rfl
      | _ => rfl

/-! ## Schemas of the renamed program -/

theorem allSome_renamed {α β γ : Type} (g : β → γ) (F : α → Option β) (l : List α) :
    allSome (l.map (fun a => (F a).map g)) = (allSome (l.map F)).map (List.map g) := by
  induction l with
  | nil => rfl
  | cons a r ih =>
    rw [List.map_cons, List.map_cons]
    cases F a with
    | none => rfl
    | some b =>
      simp only [Option.map_some, allSome, ih]
      cases allSome (r.map F) <;> rfl

theorem optZ_renamed (b : Bool) (x : Option ZSchema) : optZ b (x.map (renamed f)) = (optZ b x).map (renamed f) := by
  cases b with
  | false => rfl
  | true => cases x <;> simp [optZ, renamed]

theorem objZ_renamed (kvs : List (Str × Option ZSchema)) :
    objZ (kvs.map (fun p => (p.1, p.2.map (renamed f)))) = (objZ kvs).map (renamed f) := by
  unfold objZ
  have e1 : (kvs.map (fun p => (p.1, p.2.map (renamed f)))).map (·.1) = kvs.map (·.1) := by rw [List.map_map]; rfl
  have e2 : (kvs.map (fun p => (p.1, p.2.map (renamed f)))).map (·.2) = kvs.map (fun p => p.2.map (renamed f)) := by rw [List.map_map]; rfl
  rw [e1, e2, allSome_renamed (renamed f) (fun p : Str × Option ZSchema => p.2)]
  cases allSome (kvs.map (·.2)) with
  | none => rfl
  | some zs =>
    simp only [Option.map_some]
    split
    · rw [Option.map_some, renamed, List.zip_map_right]
      rfl
    · rfl

theorem extendZ_renamed (z : Option ZSchema) (l : List (Option ZSchema)) :
    extendZ (z.map (renamed f)) (l.map (Option.map (renamed f))) = (extendZ z l).map (renamed f) := by
  induction l generalizing z with
  | nil => rfl
  | cons x r ih =>
    cases x with
    | none => rfl
    | some a =>
      rw [List.map_cons, Option.map_some, extendZ, extendZ, ← ih]
      cases z with
      | none => rfl
      | some b => simp only [Option.map_some, renamed]

theorem discriminator_renamed (t : Str) (z : ZSchema) : discriminator t (renamed f z) = discriminator t z := by
  cases z with
  | object sh =>
    rw [renamed, discriminator, discriminator, find_renamed]
    cases sh.find? (fun p => decide (p.1 = t)) with
    | none => rfl
    | some p =>
      obtain ⟨k, z⟩ := p
      cases z <;> simp only [Option.map_some, renamed]
  | _ => simp only [renamed, discriminator]

theorem discOptions_renamed (t : Str) (zs : List ZSchema) :
    discOptions t (zs.map (renamed f)) = (discOptions t zs).map (List.map (fun p => (p.1, renamed f p.2))) := by
  induction zs with
  | nil => rfl
  | cons z r ih =>
    rw [List.map_cons, discOptions, discOptions, discriminator_renamed, ih]
    cases discriminator t z with
    | none => rfl
    | some s =>
      cases discOptions t r with
      | none => rfl
      | some l =>
        simp only [Option.map_some, List.any_map]
        have : l.any ((fun p : Str × ZSchema => decide (p.1 = s)) ∘ fun p => (p.1, renamed f p.2)) = l.any (fun p => decide (p.1 = s)) := rfl
        rw [this]
        split <;> rfl

theorem discZ_renamed {α : Type} (t : Str) (F : α → Option ZSchema) (l : List α) :
    discZ t (l.map (fun a => (F a).map (renamed f))) = (discZ t (l.map F)).map (renamed f) := by
  unfold discZ
  rw [allSome_renamed]
  cases allSome (l.map F) with
  | none => rfl
  | some zs =>
    simp only [Option.map_some, discOptions_renamed]
    cases discOptions t zs with
    | none => rfl
    | some o => simp only [Option.map_some, renamed]

theorem tupleOf_renamed {α : Type} (F : α → Option ZSchema) (l : List α) :
    (allSome (l.map (fun a => (F a).map (renamed f)))).map ZSchema.tuple = ((allSome (l.map F)).map .tuple).map (renamed f) := by
  rw [allSome_renamed]
  cases allSome (l.map F) with
  | none => rfl
  | some zs => simp only [Option.map_some, renamed]

theorem unionOf_renamed {α : Type} (F : α → Option ZSchema) (l : List α) :
    (allSome (l.map (fun a => (F a).map (renamed f)))).map ZSchema.union = ((allSome (l.map F)).map .union).map (renamed f) := by
  rw [allSome_renamed]
  cases allSome (l.map F) with
  | none => rfl
  | some zs => simp only [Option.map_some, renamed]

section
variable {rec rec' : Method → Ty → Option ZSchema} (H : ∀ m t, rec' m t = (rec m t).map (renamed f))
include H

theorem sfieldZ_renamed (x : SField) : sfieldZ rec' x = (sfieldZ rec x).map (renamed f) := by
  unfold sfieldZ; rw [H]; exact optZ_renamed _ _

theorem vfieldZ_renamed (x : Field) : vfieldZ rec' x = (vfieldZ rec x).map (renamed f) := by
  unfold vfieldZ; rw [H]; exact optZ_renamed _ _

theorem structZ_renamed (s : StructDecl) : structZ rec' s = (structZ rec s).map (renamed f) := by
  have h1 := fun x => sfieldZ_renamed H x
  unfold structZ
  simp only
  split
  · split
    · exact h1 _
    · rfl
  · split
    · rfl
    · exact h1 _
    · rw [← tupleOf_renamed, List.map_congr_left (fun x _ => h1 x)]
  · rw [← extendZ_renamed, ← objZ_renamed, List.map_map, List.map_map, List.map_congr_left (fun x _ => h1 x)]
    have : (fun x : SField => (x.name.getD [], sfieldZ rec' x)) = (fun p => (p.1, p.2.map (renamed f))) ∘ fun x => (x.name.getD [], sfieldZ rec x) := by
      funext x; simp [h1]
    rw [this]
    rfl
  · rfl

omit H in
theorem unitZ_renamed (tag : Tag) (n : Str) : unitZ tag n = (unitZ tag n).map (renamed f) := by
  cases tag with
  | external => simp [unitZ, renamed]
  | untagged => simp [unitZ, renamed]
  | internal t => rw [unitZ, ← objZ_renamed]; simp [renamed]
  | adjacent t c => rw [unitZ, ← objZ_renamed]; simp [renamed]

theorem tupleFieldsZ_renamed (fs : List Field) : tupleFieldsZ rec' fs = (tupleFieldsZ rec fs).map (renamed f) := by
  have h1 := fun x => vfieldZ_renamed H x
  unfold tupleFieldsZ
  split
  · exact h1 _
  · rw [← tupleOf_renamed, List.map_congr_left (fun x _ => h1 x)]

theorem variantZ_renamed (tag : Tag) (v : Variant) : variantZ rec' tag v = (variantZ rec tag v).map (renamed f) := by
  have h1 := fun x => vfieldZ_renamed H x
  unfold variantZ
  cases v.style with
  | unit => exact unitZ_renamed tag v.name
  | tuple =>
    simp only [tupleVariantZ]
    split
    · exact unitZ_renamed tag v.name
    · cases tag <;> simp only [← objZ_renamed, tupleFieldsZ_renamed H, List.map_cons, List.map_nil, Option.map_some, renamed]
  | named =>
    simp only [structVariantZ]
    have e : v.kept.map (fun x => (x.name, vfieldZ rec' x)) = (v.kept.map (fun x => (x.name, vfieldZ rec x))).map (fun p => (p.1, p.2.map (renamed f))) := by
      rw [List.map_map]
      exact List.map_congr_left (fun x _ => by simp [h1])
    cases tag <;> simp only [e, ← objZ_renamed, List.map_cons, List.map_nil, Option.map_some, renamed]

theorem enumZ_renamed (e : EnumDecl) : enumZ rec' e = (enumZ rec e).map (renamed f) := by
  have h1 := fun v => variantZ_renamed H e.tag v
  unfold enumZ
  split
  · rfl
  · exact h1 _
  · cases ht : e.tag <;> simp only [ht] at h1 ⊢ <;> rw [List.map_congr_left (fun v _ => h1 v)] <;>
      first | exact unionOf_renamed _ _ | exact discZ_renamed _ _ _

end

theorem zOf_renamed (P : Program) (n : Nat) : ∀ m t, zOf (renameProgram f P) n m t = (zOf P n m t).map (renamed f) := by
  induction n with
  | zero => intro m t; rfl
  | succ n H =>
    intro m t
    show zBody (zOf (renameProgram f P) n) (renameProgram f P) m t = (zBody (zOf P n) P m t).map (renamed f)
    cases t with
    | named i =>
      rw [zBody, zBody]
      have e : (renameProgram f P)[i]? = (P[i]?).map (renameDecl f) := by unfold renameProgram; rw [List.getElem?_map]
      rw [e]
      cases P[i]? with
      | none => rfl
      | some d =>
        cases m with
        | schema =>
          cases d with
          | struct s =>
            simp only [Option.map_some, renameDecl, declZ]
            cases s.from_.ty? with
            | some t => exact H _ _
            | none => exact structZ_renamed H s
          | enum e =>
            simp only [Option.map_some, renameDecl, declZ]
            cases e.from_.ty? with
            | some t => exact H _ _
            | none => exact enumZ_renamed H e
        | inlineSchema =>
          cases d with
          | struct s => simp only [Option.map_some, renameDecl, declInlineZ, renamed]
          | enum e =>
            simp only [Option.map_some, renameDecl, declInlineZ]
            cases e.from_.ty? with
            | some t => exact H _ _
            | none => simp only [Option.map_some, renamed]
        | _ => rfl
    | prim p =>
      cases m with
      | schema => show primZ p = (primZ p).map (renamed f); cases p <;> simp [primZ, renamed]
      | inlineSchema => exact H _ _
      | _ => rfl
    | wrap w t => cases m <;> first | exact H _ _ | rfl
    | array k t => cases m <;> first | exact H _ _ | rfl
    | btreeSet t => cases m <;> first | exact H _ _ | rfl
    | btreeMap t t' => cases m <;> first | exact H _ _ | rfl
    | option t =>
      cases m with
      | schema => simp only [zBody, H]; cases zOf P n .inlineSchema t <;> simp [renamed]
      | inlineSchema => exact H _ _
      | _ => rfl
    | vec t =>
      cases m with
      | schema => simp only [zBody, H]; cases zOf P n .inlineSchema t <;> simp [renamed]
      | inlineSchema => exact H _ _
      | _ => rfl
    | hashSet t =>
      cases m with
      | schema => simp only [zBody, H]; cases zOf P n .inlineSchema t <;> simp [renamed]
      | inlineSchema => exact H _ _
      | _ => rfl
    | hashMap k t =>
      cases m with
      | schema =>
        simp only [zBody, H]
        cases zOf P n .inlineSchema k <;> cases zOf P n .inlineSchema t <;> simp [renamed]
      | inlineSchema => exact H _ _
      | _ => rfl
    | tuple ts =>
      cases m with
      | schema =>
        simp only [zBody]
        rw [← tupleOf_renamed, List.map_congr_left (fun x _ => H _ x)]
      | inlineSchema => exact H _ _
      | _ => rfl
    | result t e =>
      cases m with
      | schema =>
        simp only [zBody, H]
        have h1 := objZ_renamed (f := f) [(lit "Ok", zOf P n .inlineSchema t)]
        have h2 := objZ_renamed (f := f) [(lit "Err", zOf P n .inlineSchema e)]
        simp only [List.map_cons, List.map_nil] at h1 h2
        rw [h1, h2]
        cases objZ [(lit "Ok", zOf P n .inlineSchema t)] <;> cases objZ [(lit "Err", zOf P n .inlineSchema e)] <;> simp [renamed]
      | inlineSchema => exact H _ _
      | _ => rfl

theorem shuffled_refl (P : Program) : ShuffledProgram (fun _ => False) P P := by
  unfold ShuffledProgram
  induction P with
  | nil => exact .nil
  | cons d r ih => exact .cons (.fields (.same d)) ih

theorem zOf_refs {P : Program} {n : Nat} {m : Method} {t : Ty} {z : ZSchema} (h : zOf P n m t = some z) : RefsIn (Declared P) z := by
  obtain ⟨z', _, hr⟩ := reord_zOf (u := False) (fun _ h => absurd h id) (shuffled_refl P) n m t z h
  exact ⟨z', hr⟩

section
variable {P : Program} (hg : GoodNames P) (hw : WellStyled P) (hg' : GoodNames (renameProgram f P)) (hw' : WellStyled (renameProgram f P))
include hg hw hg' hw'

/-- What the two texts mean. -/
theorem renamed_texts {m : Method} (hm : m = .schema ∨ m = .inlineSchema) {t : Ty} {s s' : Str} (h : Schema.Returns P m t s)
    (h' : Schema.Returns (renameProgram f P) m t s') :
    readSchema s' = (readSchema s).map (renamed f) ∧ ∀ z, readSchema s = some z → RefsIn (Declared P) z := by
  obtain ⟨n, hn⟩ := h
  obtain ⟨n', hn'⟩ := h'
  have h1 := eval_mono (Nat.le_max_left n n') hn
  have h2 := eval_mono (Nat.le_max_right n n') hn'
  rw [(eval_agree hg hw _ m t s hm h1).read, (eval_agree hg' hw' _ m t s' hm h2).read]
  exact ⟨zOf_renamed P _ m t, fun z hz => zOf_refs hz⟩

theorem renamed_linked (hE : IsModule P E) (hE' : IsModule (renameProgram f P) E') : LinkedRen f (Declared P) E E' := by
  rintro ns name ⟨d, hd, rfl, rfl⟩
  obtain ⟨i, hi⟩ := List.getElem?_of_mem hd
  have hi' : (renameProgram f P)[i]? = some (renameDecl f d) := by unfold renameProgram; rw [List.getElem?_map, hi]; rfl
  obtain ⟨s, hs, hc⟩ := hE i d hi
  obtain ⟨s', hs', hc'⟩ := hE' i _ hi'
  have e1 : (renameDecl f d).ns = (f d.ns d.name).1 := by cases d <;> rfl
  have e2 : (renameDecl f d).name = (f d.ns d.name).2 := by cases d <;> rfl
  rw [e1, e2] at hc'
  rw [hc, hc']
  exact renamed_texts hg hw hg' hw' (.inl rfl) hs hs'

end

end Verif.Zod
