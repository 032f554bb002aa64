import Verif.Spec.Args
import Verif.Zod.Module

/-!
# Documents determine the values they were made from
-/

namespace Verif.Zod
open Verif Verif.Js Verif.Schema Verif.Spec Verif.SchemaSpec Verif.ArgsSpec

/-- The value of a document, numbers taken exactly. -/
def exactly : Json → JsVal
  | .null => .null
  | .bool b => .bool b
  | .num (.int i) => .num (.fin i)
  | .num (.flt q) => .num (.fin q)
  | .str s => .str s
  | .arr l => .arr (exactlyList l)
  | .obj kvs => .obj (exactlyObj kvs)
where
  exactlyList : List Json → List JsVal
    | [] => []
    | j :: r => exactly j :: exactlyList r
  exactlyObj : List (Str × Json) → List (Str × JsVal)
    | [] => []
    | (k, j) :: r => (k, exactly j) :: exactlyObj r

theorem exactly_num (q : Rat) : exactly (numJson q) = .num (.fin q) := by
  unfold numJson
  split
  · rename_i h
    rw [exactly]
    rw [← rat_of_den_one h]
  · rfl

theorem stringify_absent {v : JsVal} : stringify v = some none ↔ absent v = true := by
  cases v with
  | num n => cases n <;> simp [stringify, absent]
  | arr l => simp [stringify, absent]
  | obj l => simp [stringify, absent]
  | _ => simp [stringify, absent]

mutual
theorem tidy_exactly : ∀ (v : JsVal) (j : Json), sendable v = true → stringify v = some (some j) → tidy v = exactly j
  | .undefined, j, _, h => by simp [stringify] at h
  | .null, j, _, h => by simp [stringify] at h; subst h; rfl
  | .bool b, j, _, h => by simp [stringify] at h; subst h; rfl
  | .num (.fin q), j, _, h => by
    simp [stringify] at h; subst h; rw [exactly_num]; rfl
  | .num .posInf, j, hs, h => by simp [sendable] at hs
  | .num .negInf, j, hs, h => by simp [sendable] at hs
  | .num .nan, j, hs, h => by simp [sendable] at hs
  | .str s, j, _, h => by simp [stringify] at h; subst h; rfl
  | .badStr u, j, _, h => by simp [stringify] at h
  | .set l, j, hs, h => by simp [sendable] at hs
  | .map l, j, hs, h => by simp [sendable] at hs
  | .other, j, _, h => by simp [stringify] at h
  | .arr l, j, hs, h => by
    simp only [stringify, Option.map_eq_some_iff, Option.some.injEq] at h
    obtain ⟨js, hj, rfl⟩ := h
    rw [tidy, exactly, tidyList_exactly l js hs hj]
  | .obj kvs, j, hs, h => by
    simp only [stringify, Option.map_eq_some_iff, Option.some.injEq] at h
    obtain ⟨js, hj, rfl⟩ := h
    rw [tidy, exactly, tidyObj_exactly kvs js hs hj]
theorem tidyList_exactly : ∀ (l : List JsVal) (js : List Json), sendable.sendableList l = true →
    stringify.stringifyList l = some js → tidy.tidyList l = exactly.exactlyList js
  | [], js, _, h => by simp [stringify.stringifyList] at h; subst h; rfl
  | v :: r, js, hs, h => by
    simp only [sendable.sendableList, Bool.and_eq_true] at hs
    rw [stringify.stringifyList] at h
    cases hv : stringify v with
    | none => rw [hv] at h; cases h
    | some o =>
      cases hr : stringify.stringifyList r with
      | none => rw [hv, hr] at h; cases h
      | some js' =>
        rw [hv, hr] at h
        injection h with h
        subst h
        rw [tidy.tidyList, exactly.exactlyList, tidyList_exactly r js' hs.2 hr]
        cases o with
        | none => rw [stringify_absent.1 hv]; rfl
        | some j =>
          have : absent v = false := by
            cases ha : absent v with
            | false => rfl
            | true => rw [stringify_absent.2 ha] at hv; cases hv
          rw [this, tidy_exactly v j hs.1 hv]
          rfl
theorem tidyObj_exactly : ∀ (l : List (Str × JsVal)) (js : List (Str × Json)), sendable.sendableObj l = true →
    stringify.stringifyObj l = some js → tidy.tidyObj l = exactly.exactlyObj js
  | [], js, _, h => by simp [stringify.stringifyObj] at h; subst h; rfl
  | (k, v) :: r, js, hs, h => by
    simp only [sendable.sendableObj, Bool.and_eq_true] at hs
    rw [stringify.stringifyObj] at h
    cases hv : stringify v with
    | none => rw [hv] at h; cases h
    | some o =>
      cases hr : stringify.stringifyObj r with
      | none => rw [hv, hr] at h; cases o <;> cases h
      | some js' =>
        rw [hv, hr] at h
        cases o with
        | none =>
          injection h with h
          subst h
          rw [tidy.tidyObj, if_pos (stringify_absent.1 hv), tidyObj_exactly r js' hs.2 hr]
        | some j =>
          injection h with h
          subst h
          have : absent v = false := by
            cases ha : absent v with
            | false => rfl
            | true => rw [stringify_absent.2 ha] at hv; cases hv
          rw [tidy.tidyObj, this, exactly.exactlyObj, tidy_exactly v j hs.1 hv, tidyObj_exactly r js' hs.2 hr]
          rfl
end

/-! ## Schemas of types without maps, sets and floating point numbers -/

/-- Schemas without `z.map` and `z.set`, whose numbers are finite, and which refer to declarations of the program. -/
inductive CleanZ (P : Program) : ZSchema → Prop where
  | string (cs) : CleanZ P (.string cs)
  | number (cs) : NumCheck.finite ∈ cs → CleanZ P (.number cs)
  | null : CleanZ P .null
  | literal (s) : CleanZ P (.literal s)
  | array (z) : CleanZ P z → CleanZ P (.array z)
  | tuple (zs : List ZSchema) : (∀ z ∈ zs, CleanZ P z) → CleanZ P (.tuple zs)
  | object (sh : List (Str × ZSchema)) : (∀ p ∈ sh, CleanZ P p.2) → CleanZ P (.object sh)
  | union (zs : List ZSchema) : (∀ z ∈ zs, CleanZ P z) → CleanZ P (.union zs)
  | disc (t : Str) (os : List (Str × ZSchema)) : (∀ p ∈ os, CleanZ P p.2) → CleanZ P (.discUnion t os)
  | optional (z) : CleanZ P z → CleanZ P (.optional z)
  | lazy (i : Nat) (d : Decl) : P[i]? = some d → CleanZ P (.lazy d.ns d.name)
  | broken : CleanZ P .broken

section
variable {P : Program}

theorem clean_opt {b : Bool} {x : Option ZSchema} {z : ZSchema} (h : optZ b x = some z) (hx : ∀ a, x = some a → CleanZ P a) :
    CleanZ P z := by
  unfold optZ at h
  cases b with
  | false => exact hx z h
  | true =>
    simp only [if_true, Option.map_eq_some_iff] at h
    obtain ⟨a, ha, rfl⟩ := h
    exact .optional _ (hx a ha)

theorem clean_all {α : Type} {f : α → Option ZSchema} {l : List α} {zs : List ZSchema} (h : allSome (l.map f) = some zs)
    (hf : ∀ a ∈ l, ∀ z, f a = some z → CleanZ P z) : ∀ z ∈ zs, CleanZ P z := by
  intro z hz
  obtain ⟨a, ha, e⟩ := All2.mem_right (allSome_all2 h) hz
  exact hf a ha z e

theorem clean_obj {l : List (Str × Option ZSchema)} {z : ZSchema} (h : objZ l = some z)
    (hl : ∀ p ∈ l, ∀ a, p.2 = some a → CleanZ P a) : CleanZ P z := by
  obtain ⟨zs, rfl, _, ha⟩ := objZ_some h
  refine .object _ fun p hp => ?_
  obtain ⟨q, hq, e⟩ := All2.mem_right ha (List.of_mem_zip hp).2
  exact hl q hq _ e

theorem clean_extend {x : Option ZSchema} {l : List (Option ZSchema)} {z : ZSchema} (h : extendZ x l = some z)
    (hx : ∀ a, x = some a → CleanZ P a) : CleanZ P z := by
  induction l generalizing x with
  | nil => exact hx z h
  | cons y l ih =>
    cases y with
    | none => cases h
    | some b =>
      refine ih h fun a ha => ?_
      simp only [Option.map_eq_some_iff] at ha
      obtain ⟨_, _, rfl⟩ := ha
      exact .broken

theorem clean_disc {t : Str} {zs : List ZSchema} {os : List (Str × ZSchema)} (h : discOptions t zs = some os)
    (hz : ∀ z ∈ zs, CleanZ P z) : ∀ p ∈ os, CleanZ P p.2 := by
  induction zs generalizing os with
  | nil => cases h; simp
  | cons z zs ih =>
    rw [discOptions] at h
    cases hd : discriminator t z with
    | none => rw [hd] at h; cases h
    | some s =>
      cases hr : discOptions t zs with
      | none => rw [hd, hr] at h; cases h
      | some l =>
        rw [hd, hr] at h
        simp only at h
        split at h
        · cases h
        · injection h with h
          subst h
          intro p hp
          rcases List.mem_cons.1 hp with rfl | hp
          · exact hz z List.mem_cons_self
          · exact ih hr (fun z hz' => hz z (List.mem_cons_of_mem _ hz')) p hp

variable {g : Method → Ty → Option ZSchema} (hg : ∀ m t z, Discrete t → g m t = some z → CleanZ P z)

include hg in
theorem clean_struct {s : StructDecl} (hs : ∀ t ∈ fieldTypes s.fields, Discrete t) {z : ZSchema}
    (h : structZ g s = some z) : CleanZ P z := by
  have hf : ∀ f ∈ structFields s, ∀ z, sfieldZ g f = some z → CleanZ P z := by
    intro f hf z hz
    obtain ⟨f', hf', rfl⟩ := List.mem_map.1 hf
    exact clean_opt hz fun a ha => hg _ _ a (hs _ (List.mem_map.2 ⟨f', hf', rfl⟩)) ha
  have hf1 : ∀ f ∈ (structFields s).filter (fun f => !f.flatten), ∀ z, sfieldZ g f = some z → CleanZ P z :=
    fun f h => hf f (List.mem_filter.1 h).1
  unfold structZ at h
  simp only at h
  generalize (structFields s).filter (fun f => !f.flatten) = fields at h hf1
  split at h
  · split at h
    · exact hf1 _ List.mem_cons_self z h
    · cases h
  · split at h
    · cases h
    · exact hf1 _ List.mem_cons_self z h
    · simp only [Option.map_eq_some_iff] at h
      obtain ⟨zs, hzs, rfl⟩ := h
      exact .tuple _ (clean_all hzs hf1)
  · refine clean_extend h fun a ha => clean_obj ha fun p hp b hb => ?_
    obtain ⟨f, hf', rfl⟩ := List.mem_map.1 hp
    exact hf1 f hf' b hb
  · cases h

include hg in
theorem clean_variant {tag : Tag} {v : Variant} (hs : ∀ t ∈ fieldTypes v.fields, Discrete t) {z : ZSchema}
    (h : variantZ g tag v = some z) : CleanZ P z := by
  have hf : ∀ f ∈ v.kept, ∀ z, vfieldZ g f = some z → CleanZ P z := by
    intro f hf z hz
    exact clean_opt hz fun a ha => hg _ _ a (hs _ (List.mem_map.2 ⟨f, hf, rfl⟩)) ha
  have ht : ∀ fs, (∀ f ∈ fs, ∀ z, vfieldZ g f = some z → CleanZ P z) → ∀ z, tupleFieldsZ g fs = some z → CleanZ P z := by
    intro fs hfs z hz
    unfold tupleFieldsZ at hz
    split at hz
    · exact hfs _ List.mem_cons_self z hz
    · simp only [Option.map_eq_some_iff] at hz
      obtain ⟨zs, hzs, rfl⟩ := hz
      exact .tuple _ (clean_all hzs hfs)
  have hu : ∀ z, unitZ tag v.name = some z → CleanZ P z := by
    intro z hz
    unfold unitZ at hz
    split at hz
    · cases hz; exact .literal _
    · exact clean_obj hz (by simp; exact .literal _)
    · exact clean_obj hz (by simp; exact .literal _)
    · cases hz; exact .null
  unfold variantZ at h
  split at h
  · exact hu z h
  · have hkv : ∀ p ∈ v.kept.map (fun f => (f.name, vfieldZ g f)), ∀ a, p.2 = some a → CleanZ P a := by
      intro p hp a ha
      obtain ⟨f, hf', rfl⟩ := List.mem_map.1 hp
      exact hf f hf' a ha
    have hlit : ∀ (a : ZSchema) s, (some (.literal s) : Option ZSchema) = some a → CleanZ P a := by
      intro a s ha; cases ha; exact .literal _
    unfold structVariantZ at h
    simp only at h
    split at h
    · refine clean_obj h fun p hp a ha => ?_
      rw [List.mem_singleton] at hp
      subst hp
      exact clean_obj ha hkv
    · refine clean_obj h fun p hp a ha => ?_
      rcases List.mem_cons.1 hp with rfl | hp
      · exact hlit a _ ha
      · exact hkv p hp a ha
    · refine clean_obj h fun p hp a ha => ?_
      rcases List.mem_cons.1 hp with rfl | hp
      · exact hlit a _ ha
      · rw [List.mem_singleton] at hp
        subst hp
        exact clean_obj ha hkv
    · exact clean_obj h hkv
  · have hlit : ∀ (a : ZSchema) s, (some (.literal s) : Option ZSchema) = some a → CleanZ P a := by
      intro a s ha; cases ha; exact .literal _
    unfold tupleVariantZ at h
    generalize v.kept = fs at h hf
    split at h
    · exact hu z h
    · split at h
      · refine clean_obj h fun p hp a ha => ?_
        rw [List.mem_singleton] at hp
        subst hp
        exact ht _ hf a ha
      · refine clean_obj h fun p hp a ha => ?_
        rw [List.mem_singleton] at hp
        subst hp
        exact ht _ hf a ha
      · refine clean_obj h fun p hp a ha => ?_
        rcases List.mem_cons.1 hp with rfl | hp
        · exact hlit a _ ha
        · rw [List.mem_singleton] at hp
          subst hp
          exact ht _ hf a ha
      · exact ht _ hf z h

include hg in
theorem clean_enum {e : EnumDecl} (hs : ∀ v ∈ e.kept, ∀ t ∈ fieldTypes v.fields, Discrete t) {z : ZSchema}
    (h : enumZ g e = some z) : CleanZ P z := by
  have hv : ∀ v ∈ e.kept, ∀ z, variantZ g e.tag v = some z → CleanZ P z := fun v hv z hz =>
    clean_variant hg (hs v hv) hz
  have hdisc : ∀ t zs z, discZ t zs = some z → (∀ l, allSome zs = some l → ∀ z ∈ l, CleanZ P z) → CleanZ P z := by
    intro t zs z hz hl
    unfold discZ at hz
    split at hz
    · rename_i l hzs
      simp only [Option.map_eq_some_iff] at hz
      obtain ⟨os, hos, rfl⟩ := hz
      exact .disc _ _ (clean_disc hos (hl _ hzs))
    · cases hz
  unfold enumZ at h
  generalize e.kept = vs at h hv
  split at h
  · cases h
  · exact hv _ List.mem_cons_self z h
  · split at h
    · simp only [Option.map_eq_some_iff] at h
      obtain ⟨zs, hzs, rfl⟩ := h
      exact .union _ (clean_all hzs (by assumption))
    · exact hdisc _ _ z h fun l hl => clean_all hl (by assumption)
    · exact hdisc _ _ z h fun l hl => clean_all hl (by assumption)
    · simp only [Option.map_eq_some_iff] at h
      obtain ⟨zs, hzs, rfl⟩ := h
      exact .union _ (clean_all hzs (by assumption))

end

theorem clean_prim {P : Program} {p : Prim} (h : Discrete (.prim p)) {z : ZSchema} (hz : primZ p = some z) : CleanZ P z := by
  cases h with
  | prim _ h1 h2 h3 h4 =>
    cases p <;> simp only [primZ, Option.some.injEq, reduceCtorEq] at hz <;>
      first
        | (subst hz; exact .string _)
        | (subst hz; exact .null)
        | (subst hz; refine .number _ ?_; simp; done)
        | (exact absurd rfl h1; done)
        | (exact absurd rfl h2; done)
        | (exact absurd rfl h3; done)
        | (exact absurd rfl h4; done)

theorem clean_zOf {P : Program} (hP : DiscreteProgram P) : ∀ (n : Nat) (m : Method) (t : Ty) (z : ZSchema), Discrete t →
    zOf P n m t = some z → CleanZ P z := by
  intro n
  induction n with
  | zero => intro m t z _ h; cases h
  | succ n ih =>
    intro m t z ht h
    rw [zOf] at h
    cases ht with
    | named i =>
      cases hd : P[i]? with
      | none => simp [zBody, hd] at h
      | some d =>
        have hdt := hP d (List.mem_of_getElem? hd)
        cases m with
        | schema =>
          simp only [zBody, hd] at h
          cases d with
          | struct s =>
            simp only [declZ] at h
            split at h
            · rename_i u hu
              exact ih _ _ _ (hdt u (by simp [declTypes, hu])) h
            · exact clean_struct ih (fun t ht => hdt t (by simp [declTypes, ht])) h
          | enum e =>
            simp only [declZ] at h
            split at h
            · rename_i u hu
              exact ih _ _ _ (hdt u (by simp [declTypes, hu])) h
            · refine clean_enum ih (fun v hv t ht => hdt t ?_) h
              refine List.mem_append_left _ (List.mem_flatten.2 ⟨_, List.mem_map.2 ⟨v, hv, rfl⟩, ht⟩)
        | inlineSchema =>
          simp only [zBody, hd] at h
          cases d with
          | struct s => simp only [declInlineZ] at h; cases h; exact .lazy i (.struct s) hd
          | enum e =>
            simp only [declInlineZ] at h
            split at h
            · rename_i u hu
              exact ih _ _ _ (hdt u (by simp [declTypes, hu])) h
            · cases h; exact .lazy i (.enum e) hd
        | typeDef => simp [zBody, hd] at h
        | inline => simp [zBody, hd] at h
    | prim p h1 h2 h3 h4 =>
      cases m with
      | schema => exact clean_prim (.prim p h1 h2 h3 h4) h
      | inlineSchema => exact ih _ _ _ (.prim p h1 h2 h3 h4) h
      | typeDef => cases h
      | inline => cases h
    | wrap w t ht =>
      cases m with
      | schema => exact ih _ _ _ ht h
      | inlineSchema => exact ih _ _ _ (.wrap w t ht) h
      | typeDef => cases h
      | inline => cases h
    | option t ht =>
      cases m with
      | schema =>
        simp only [zBody, Option.map_eq_some_iff] at h
        obtain ⟨a, ha, rfl⟩ := h
        exact .optional _ (ih _ _ _ ht ha)
      | inlineSchema => exact ih _ _ _ (.option t ht) h
      | typeDef => cases h
      | inline => cases h
    | vec t ht =>
      cases m with
      | schema =>
        simp only [zBody, Option.map_eq_some_iff] at h
        obtain ⟨a, ha, rfl⟩ := h
        exact .array _ (ih _ _ _ ht ha)
      | inlineSchema => exact ih _ _ _ (.vec t ht) h
      | typeDef => cases h
      | inline => cases h
    | array k t ht =>
      cases m with
      | schema => exact ih _ _ _ (.vec t ht) h
      | inlineSchema => exact ih _ _ _ (.array k t ht) h
      | typeDef => cases h
      | inline => cases h
    | tuple ts ht =>
      cases m with
      | schema =>
        simp only [zBody, Option.map_eq_some_iff] at h
        obtain ⟨zs, hzs, rfl⟩ := h
        exact .tuple _ (clean_all hzs fun t ht' z hz => ih _ _ _ (ht t ht') hz)
      | inlineSchema => exact ih _ _ _ (.tuple ts ht) h
      | typeDef => cases h
      | inline => cases h
    | result t e ht he =>
      cases m with
      | schema =>
        simp only [zBody] at h
        split at h
        · rename_i a b ha hb
          cases h
          refine .union _ fun z hz => ?_
          simp only [List.mem_cons, List.not_mem_nil, or_false] at hz
          rcases hz with rfl | rfl
          · refine clean_obj ha fun p hp a ha => ?_
            rw [List.mem_singleton] at hp
            subst hp
            exact ih _ _ _ ht ha
          · refine clean_obj hb fun p hp a ha => ?_
            rw [List.mem_singleton] at hp
            subst hp
            exact ih _ _ _ he ha
        · cases h
      | inlineSchema => exact ih _ _ _ (.result t e ht he) h
      | typeDef => cases h
      | inline => cases h

theorem sendableList_of {l : List JsVal} (h : ∀ v ∈ l, sendable v = true) : sendable.sendableList l = true := by
  induction l with
  | nil => rfl
  | cons v l ih =>
    rw [sendable.sendableList, h v List.mem_cons_self, ih fun v hv => h v (List.mem_cons_of_mem _ hv)]
    rfl

theorem sendableObj_of {l : List (Str × JsVal)} (h : ∀ p ∈ l, sendable p.2 = true) : sendable.sendableObj l = true := by
  induction l with
  | nil => rfl
  | cons v l ih =>
    rw [sendable.sendableObj, h v List.mem_cons_self, ih fun v hv => h v (List.mem_cons_of_mem _ hv)]
    rfl

theorem number_finite {E : ZEnv} {k : Nat} {cs : List NumCheck} {v r : JsVal} (hc : NumCheck.finite ∈ cs)
    (h : parse E (k + 1) (.number cs) v = some (some r)) : ∃ q, r = .num (.fin q) := by
  obtain ⟨rfl, x, rfl, hx⟩ := parse_number h
  have ha : cs.all (NumCheck.ok x) = true := by
    cases x with
    | nan => exact absurd rfl hx
    | _ =>
      simp only [parse, Option.some.injEq] at h
      split at h
      · assumption
      · cases h
  have := List.all_eq_true.1 ha _ hc
  cases x with
  | fin q => exact ⟨q, rfl⟩
  | _ => cases this

/-- What such a schema returns contains no map, set or infinite number. -/
theorem clean_parse {P : Program} {E : ZEnv} (hE : EnvOk P E) (hP : DiscreteProgram P) : ∀ (k : Nat) (z : ZSchema)
    (v r : JsVal), CleanZ P z → parse E k z v = some (some r) → sendable r = true := by
  intro k
  induction k with
  | zero => intro z v r _ h; cases h
  | succ k ih =>
    intro z v r hz h
    cases hz with
    | string cs =>
      rcases parse_string h with ⟨s, _, rfl, _⟩ | ⟨u, _, rfl⟩ <;> rfl
    | number cs hc =>
      obtain ⟨q, rfl⟩ := number_finite hc h
      rfl
    | null => obtain ⟨_, rfl⟩ := parse_null h; rfl
    | literal s => obtain ⟨_, rfl⟩ := parse_literal h; rfl
    | array z hz =>
      obtain ⟨l, rs, _, rfl, ha⟩ := parse_array h
      refine sendableList_of fun r hr => ?_
      obtain ⟨a, _, h'⟩ := All2.mem_right ha hr
      exact ih z a r hz h'
    | tuple zs hz =>
      obtain ⟨l, rs, _, rfl, _, ha⟩ := parse_tuple h
      refine sendableList_of fun r hr => ?_
      obtain ⟨p, hp, h'⟩ := All2.mem_right ha hr
      exact ih p.1 p.2 r (hz _ (List.of_mem_zip hp).1) h'
    | object sh hz =>
      obtain ⟨kvs, rs, _, rfl, ha⟩ := parse_object h
      refine sendableObj_of fun p hp => ?_
      have hp' := (List.mem_filter.1 hp).1
      obtain ⟨q, hq, h'⟩ := All2.mem_right ha (List.of_mem_zip hp').2
      exact ih q.2 _ _ (hz q hq) h'
    | union zs hz =>
      obtain ⟨z, hz', h'⟩ := parse_union h
      exact ih z v r (hz z hz') h'
    | disc t os hz =>
      obtain ⟨kvs, s, z, _, _, hm, h'⟩ := parse_disc h
      exact ih z v r (hz _ hm) h'
    | optional z hz =>
      rcases parse_optional h with ⟨_, rfl⟩ | ⟨_, h'⟩
      · rfl
      · exact ih z v r hz h'
    | lazy i d hd =>
      obtain ⟨z, hc, h'⟩ := parse_lazy h
      obtain ⟨n, hn⟩ := hE i d z hd hc
      exact ih z v r (clean_zOf hP n _ _ z (.named i) hn) h'
    | broken => cases h

end Verif.Zod
