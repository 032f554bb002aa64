import Verif.Zod.Sound
import Verif.Spec.Guarded
import Verif.Schema.Steps

/-!
# Parsing terminates
-/

namespace Verif.Zod
open Verif Verif.Js Verif.Schema Verif.Spec Verif.SchemaSpec

/-- Parsing ends, with a result or an error. -/
def Ends (E : ZEnv) (z : ZSchema) (v : JsVal) : Prop := ∃ n x, parse E n z v = some x

section
variable {E : ZEnv}

/-- One number of steps is enough for all elements of a list. -/
theorem common {α : Type} {l : List α} {z : α → ZSchema} {v : α → JsVal} (h : ∀ a ∈ l, Ends E (z a) (v a)) :
    ∃ n, ∀ a ∈ l, ∃ x, parse E n (z a) (v a) = some x := by
  induction l with
  | nil => exact ⟨0, by simp⟩
  | cons a l ih =>
    obtain ⟨n, x, hx⟩ := h a List.mem_cons_self
    obtain ⟨m, hm⟩ := ih fun b hb => h b (List.mem_cons_of_mem _ hb)
    refine ⟨max n m, fun b hb => ?_⟩
    rcases List.mem_cons.1 hb with rfl | hb
    · exact ⟨x, parse_mono (Nat.le_max_left n m) hx⟩
    · obtain ⟨y, hy⟩ := hm b hb
      exact ⟨y, parse_mono (Nat.le_max_right n m) hy⟩

theorem allRes_ends {α β : Type} {f : α → Res β} {l : List α} (h : ∀ a ∈ l, ∃ x, f a = some x) :
    ∃ x, allRes (l.map f) = some x := by
  induction l with
  | nil => exact ⟨_, rfl⟩
  | cons a l ih =>
    obtain ⟨x, hx⟩ := h a List.mem_cons_self
    obtain ⟨y, hy⟩ := ih fun b hb => h b (List.mem_cons_of_mem _ hb)
    rw [List.map_cons, hx, allRes, hy]
    exact ⟨_, rfl⟩

theorem firstRes_ends {α β : Type} {f : α → Res β} {l : List α} (h : ∀ a ∈ l, ∃ x, f a = some x) :
    ∃ x, firstRes (l.map f) = some x := by
  induction l with
  | nil => exact ⟨_, rfl⟩
  | cons a l ih =>
    obtain ⟨x, hx⟩ := h a List.mem_cons_self
    rw [List.map_cons, hx]
    cases x with
    | none => exact ih fun b hb => h b (List.mem_cons_of_mem _ hb)
    | some b => exact ⟨_, rfl⟩

theorem ends_array {z : ZSchema} {v : JsVal} (h : ∀ l, v = .arr l → ∀ a ∈ l, Ends E z a) :
    Ends E (.array z) v := by
  cases v with
  | arr l =>
    obtain ⟨n, hn⟩ := common (z := fun _ => z) (v := fun a => a) (h l rfl)
    obtain ⟨x, hx⟩ := allRes_ends (f := parse E n z) hn
    exact ⟨n + 1, _, by rw [parse, hx]; rfl⟩
  | _ => exact ⟨1, _, rfl⟩

theorem ends_set {z : ZSchema} {v : JsVal} (h : ∀ l, v = .set l → ∀ a ∈ l, Ends E z a) : Ends E (.set z) v := by
  cases v with
  | set l =>
    obtain ⟨n, hn⟩ := common (z := fun _ => z) (v := fun a => a) (h l rfl)
    obtain ⟨x, hx⟩ := allRes_ends (f := parse E n z) hn
    exact ⟨n + 1, _, by rw [parse, hx]; rfl⟩
  | _ => exact ⟨1, _, rfl⟩

theorem ends_map {a b : ZSchema} {v : JsVal}
    (h : ∀ l, v = .map l → ∀ p ∈ l, Ends E a p.1 ∧ Ends E b p.2) : Ends E (.map a b) v := by
  cases v with
  | map l =>
    obtain ⟨n, hn⟩ := common (z := fun _ => a) (v := fun p : JsVal × JsVal => p.1) fun p hp => (h l rfl p hp).1
    obtain ⟨m, hm⟩ := common (z := fun _ => b) (v := fun p : JsVal × JsVal => p.2) fun p hp => (h l rfl p hp).2
    obtain ⟨x, hx⟩ := allRes_ends (f := fun p : JsVal × JsVal => parse E (max n m) a p.1) (l := l) fun p hp =>
      (hn p hp).imp fun _ => parse_mono (Nat.le_max_left n m)
    obtain ⟨y, hy⟩ := allRes_ends (f := fun p : JsVal × JsVal => parse E (max n m) b p.2) (l := l) fun p hp =>
      (hm p hp).imp fun _ => parse_mono (Nat.le_max_right n m)
    exact ⟨max n m + 1, _, by rw [parse, hx, hy]⟩
  | _ => exact ⟨1, _, rfl⟩

theorem ends_tuple {zs : List ZSchema} {v : JsVal} (h : ∀ l, v = .arr l → ∀ z ∈ zs, ∀ a ∈ l, Ends E z a) :
    Ends E (.tuple zs) v := by
  cases v with
  | arr l =>
    obtain ⟨n, hn⟩ := common (l := zs.zip l) (z := fun p => p.1) (v := fun p => p.2) fun p hp =>
      h l rfl p.1 (List.of_mem_zip hp).1 p.2 (List.of_mem_zip hp).2
    obtain ⟨x, hx⟩ := allRes_ends (f := fun p : ZSchema × JsVal => parse E n p.1 p.2) hn
    refine ⟨n + 1, ?_⟩
    rw [parse]
    split
    · exact ⟨_, rfl⟩
    · rw [show List.zipWith (parse E n) zs l = (zs.zip l).map (fun p => parse E n p.1 p.2) by
        rw [List.zip, List.map_zipWith], hx]
      exact ⟨_, rfl⟩
  | _ => exact ⟨1, _, rfl⟩

theorem ends_object {shape : List (Str × ZSchema)} {v : JsVal}
    (h : ∀ kvs, v = .obj kvs → ∀ p ∈ shape, Ends E p.2 (objGet kvs p.1)) : Ends E (.object shape) v := by
  cases v with
  | obj kvs =>
    obtain ⟨n, hn⟩ := common (z := fun p : Str × ZSchema => p.2) (v := fun p => objGet kvs p.1) (h kvs rfl)
    obtain ⟨x, hx⟩ := allRes_ends (f := fun p : Str × ZSchema => parse E n p.2 (objGet kvs p.1)) hn
    exact ⟨n + 1, _, by rw [parse, hx]; rfl⟩
  | _ => exact ⟨1, _, rfl⟩

theorem ends_union {zs : List ZSchema} {v : JsVal} (h : ∀ z ∈ zs, Ends E z v) : Ends E (.union zs) v := by
  obtain ⟨n, hn⟩ := common (z := fun z : ZSchema => z) (v := fun _ => v) h
  obtain ⟨x, hx⟩ := firstRes_ends (f := fun z => parse E n z v) hn
  exact ⟨n + 1, x, by rw [parse, hx]⟩

theorem ends_disc {t : Str} {os : List (Str × ZSchema)} {v : JsVal} (h : ∀ o ∈ os, Ends E o.2 v) :
    Ends E (.discUnion t os) v := by
  cases v with
  | obj kvs =>
    cases hg : objGet kvs t with
    | str s =>
      cases ho : os.find? (fun p => decide (p.1 = s)) with
      | none => exact ⟨1, none, by rw [parse, hg]; simp only; rw [ho]⟩
      | some o =>
        obtain ⟨n, x, hx⟩ := h o (List.mem_of_find?_eq_some ho)
        exact ⟨n + 1, x, by rw [parse, hg]; simp only; rw [ho]; exact hx⟩
    | _ => exact ⟨1, none, by rw [parse, hg]⟩
  | _ => exact ⟨1, none, rfl⟩

theorem ends_optional {z : ZSchema} {v : JsVal} (h : Ends E z v) : Ends E (.optional z) v := by
  obtain ⟨n, x, hx⟩ := h
  cases v with
  | undefined => exact ⟨1, _, rfl⟩
  | _ => exact ⟨n + 1, x, hx⟩

theorem ends_lazy {ns name : Str} {v : JsVal} (h : ∀ z, E.const ns name = some z → Ends E z v) :
    Ends E (.lazy ns name) v := by
  cases hc : E.const ns name with
  | none => exact ⟨1, none, by rw [parse, hc]⟩
  | some z =>
    obtain ⟨n, x, hx⟩ := h z hc
    exact ⟨n + 1, x, by rw [parse, hc]; exact hx⟩

theorem ends_objZ {l : List (Str × Option ZSchema)} {z : ZSchema} (hz : objZ l = some z) {v : JsVal}
    (h : ∀ kvs, v = .obj kvs → ∀ p ∈ l, ∀ z, p.2 = some z → Ends E z (objGet kvs p.1)) : Ends E z v := by
  obtain ⟨zs, rfl, hnd, ha⟩ := objZ_some hz
  clear hnd
  refine ends_object fun kvs hv p hp => ?_
  have : ∀ p ∈ (l.map (·.1)).zip zs, ∃ q ∈ l, q.1 = p.1 ∧ q.2 = some p.2 := by
    clear h hz hp hv
    induction ha with
    | nil => simp
    | cons h1 _ ih =>
      intro p hp
      rw [List.map_cons, List.zip_cons_cons] at hp
      rcases List.mem_cons.1 hp with rfl | hp
      · exact ⟨_, List.mem_cons_self, rfl, h1⟩
      · obtain ⟨q, hq, h⟩ := ih p hp
        exact ⟨q, List.mem_cons_of_mem _ hq, h⟩
  obtain ⟨q, hq, h1, h2⟩ := this p hp
  rw [← h1]
  exact h kvs hv q hq p.2 h2

theorem ends_extend : ∀ (l : List (Option ZSchema)) (o : Option ZSchema) {v : JsVal}, (∀ a, o = some a → Ends E a v) →
    ∀ z, extendZ o l = some z → Ends E z v := by
  intro l
  induction l with
  | nil => intro o v ho z hz; exact ho z hz
  | cons x l ihl =>
    intro o v ho z hz
    cases x with
    | none => cases hz
    | some a =>
      refine ihl _ ?_ z hz
      intro b hb
      cases o with
      | none => cases hb
      | some c => injection hb with hb; subst hb; exact ⟨1, none, rfl⟩

theorem ends_opt {b : Bool} {o : Option ZSchema} {z : ZSchema} (hz : optZ b o = some z) {v : JsVal}
    (h : ∀ z, o = some z → Ends E z v) : Ends E z v := by
  unfold optZ at hz
  cases b with
  | false => exact h z hz
  | true =>
    cases o with
    | none => cases hz
    | some a => injection hz with hz; subst hz; exact ends_optional (h a rfl)

variable {rec : Method → Ty → Option ZSchema}

theorem ends_tupleFields {fs : List Field} {z : ZSchema} {v : JsVal} (hz : tupleFieldsZ rec fs = some z)
    (h1 : ∀ f, fs = [f] → ∀ z, vfieldZ rec f = some z → Ends E z v)
    (h2 : ∀ l, v = .arr l → ∀ f ∈ fs, ∀ z, vfieldZ rec f = some z → ∀ a ∈ l, Ends E z a) : Ends E z v := by
  have gen : ∀ l : List Field, (∀ f ∈ l, f ∈ fs) → (allSome (l.map (vfieldZ rec))).map ZSchema.tuple = some z →
      Ends E z v := by
    intro l hl hz
    cases ha : allSome (l.map (vfieldZ rec)) with
    | none => rw [ha] at hz; cases hz
    | some zs =>
      rw [ha] at hz
      injection hz with hz
      subst hz
      refine ends_tuple fun vs hv z hz a ha' => ?_
      obtain ⟨f, hf, hz⟩ := All2.mem_right (allSome_all2 ha) hz
      exact h2 vs hv f (hl f hf) z hz a ha'
  match fs, hz, h1, gen with
  | [], hz, _, gen => exact gen [] (by simp) hz
  | [f], hz, h1, _ => exact h1 f rfl z hz
  | a :: b :: l, hz, _, gen => exact gen _ (fun _ h => h) hz

theorem ends_literal {s : Str} {v : JsVal} : Ends E (.literal s) v := by
  cases v <;> exact ⟨1, _, rfl⟩

theorem ends_unit {tag : Tag} {name : Str} {z : ZSchema} (hz : unitZ tag name = some z) {v : JsVal} :
    Ends E z v := by
  have ob : ∀ t : Str, objZ [(t, some (.literal name))] = some z → Ends E z v := by
    intro t hz
    refine ends_objZ hz fun kvs _ p hp z hz => ?_
    rw [List.mem_singleton] at hp; subst hp
    injection hz with hz; subst hz
    exact ends_literal
  cases tag with
  | external => injection hz with hz; subst hz; exact ends_literal
  | internal t => exact ob t hz
  | adjacent t c => exact ob t hz
  | untagged => injection hz with hz; subst hz; cases v <;> exact ⟨1, _, rfl⟩

/-- Values inside of a value. -/
theorem objGet_lt (kvs : List (Str × JsVal)) (k : Str) : sizeOf (objGet kvs k) < sizeOf (JsVal.obj kvs) := by
  unfold objGet
  cases h : kvs.find? (fun p => decide (p.1 = k)) with
  | none =>
    have : 0 < sizeOf kvs := by cases kvs <;> simp <;> omega
    simp only [JsVal.undefined.sizeOf_spec, JsVal.obj.sizeOf_spec]
    omega
  | some p =>
    have := List.sizeOf_lt_of_mem (List.mem_of_find?_eq_some h)
    obtain ⟨a, b⟩ := p
    simp only [JsVal.obj.sizeOf_spec, Prod.mk.sizeOf_spec] at this ⊢
    omega

theorem arr_lt {l : List JsVal} {a : JsVal} (h : a ∈ l) : sizeOf a < sizeOf (JsVal.arr l) := by
  have := List.sizeOf_lt_of_mem h
  simp only [JsVal.arr.sizeOf_spec]
  omega

/-- The schema of the fields of a variant or struct, for a value `v`: it is enough if the schemas of fields
end for smaller values, and that of an only unnamed field for `v`. -/
theorem ends_variant {tag : Tag} {w : Variant} {z : ZSchema} {v : JsVal} (hz : variantZ rec tag w = some z)
    (h1 : tag = .untagged → w.style = .tuple → ∀ f, w.kept = [f] → ∀ z, vfieldZ rec f = some z → Ends E z v)
    (h2 : ∀ f z a, vfieldZ rec f = some z → sizeOf a < sizeOf v → Ends E z a) : Ends E z v := by
  have nested : ∀ l : List (Str × Option ZSchema), (∀ p ∈ l, ∀ z a, p.2 = some z → sizeOf a < sizeOf v →
      Ends E z a) → objZ l = some z → Ends E z v := by
    intro l h hz
    refine ends_objZ hz fun kvs hv p hp z hz => ?_
    subst hv
    exact h p hp z _ hz (objGet_lt kvs p.1)
  have hlit : ∀ s : Str, ∀ z a, some (ZSchema.literal s) = some z → sizeOf a < sizeOf v → Ends E z a := by
    intro s z a hz _
    injection hz with hz; subst hz; exact ends_literal
  have hobj : ∀ z a, objZ (w.kept.map (fun f => (f.name, vfieldZ rec f))) = some z → sizeOf a < sizeOf v →
      Ends E z a := by
    intro z a hz ha
    refine ends_objZ hz fun kvs hv p hp z hz => ?_
    obtain ⟨f, _, rfl⟩ := List.mem_map.1 hp
    subst hv
    exact h2 f z _ hz (Nat.lt_trans (objGet_lt kvs _) ha)
  have htup : ∀ fs z a, tupleFieldsZ rec fs = some z → sizeOf a < sizeOf v → Ends E z a := by
    intro fs z a hz ha
    refine ends_tupleFields hz (fun f _ z hz => h2 f z a hz ha) fun l hl f _ z hz b hb => ?_
    subst hl
    exact h2 f z b hz (Nat.lt_trans (arr_lt hb) ha)
  have one : ∀ (a : Str) (o : Option ZSchema), (∀ z a, o = some z → sizeOf a < sizeOf v → Ends E z a) →
      objZ [(a, o)] = some z → Ends E z v := by
    intro a o h hz
    refine nested _ (fun p hp => ?_) hz
    rw [List.mem_singleton] at hp; subst hp; exact h
  have two : ∀ (a b : Str) (s : Str) (o : Option ZSchema), (∀ z a, o = some z → sizeOf a < sizeOf v → Ends E z a) →
      objZ [(a, some (.literal s)), (b, o)] = some z → Ends E z v := by
    intro a b s o h hz
    refine nested _ (fun p hp => ?_) hz
    simp only [List.mem_cons, List.not_mem_nil, or_false] at hp
    rcases hp with rfl | rfl
    · exact hlit s
    · exact h
  unfold variantZ at hz
  cases hs : w.style with
  | unit => rw [hs] at hz; exact ends_unit hz
  | named =>
    rw [hs] at hz
    simp only [structVariantZ] at hz
    cases tag with
    | external => exact one _ _ hobj hz
    | adjacent t c => exact two _ _ _ _ hobj hz
    | internal t =>
      refine nested _ (fun p hp => ?_) hz
      rcases List.mem_cons.1 hp with rfl | hp
      · exact hlit _
      · obtain ⟨f, _, rfl⟩ := List.mem_map.1 hp
        exact fun z a hz ha => h2 f z a hz ha
    | untagged =>
      refine nested _ (fun p hp => ?_) hz
      obtain ⟨f, _, rfl⟩ := List.mem_map.1 hp
      exact fun z a hz ha => h2 f z a hz ha
  | tuple =>
    rw [hs] at hz
    simp only [tupleVariantZ] at hz
    cases hk : w.kept with
    | nil => rw [hk] at hz; exact ends_unit hz
    | cons f fs =>
      rw [hk] at hz
      simp only at hz
      cases tag with
      | external => exact one _ _ (htup _) hz
      | internal t => exact one _ _ (htup _) hz
      | adjacent t c => exact two _ _ _ _ (htup _) hz
      | untagged =>
        refine ends_tupleFields hz (fun f' hf' => h1 rfl hs f' (hk.trans hf')) fun l hl f _ z hz b hb => ?_
        subst hl
        exact h2 f z b hz (arr_lt hb)

theorem ends_enum {e : EnumDecl} {z : ZSchema} {v : JsVal} (hz : enumZ rec e = some z)
    (h : ∀ w ∈ e.kept, ∀ z, variantZ rec e.tag w = some z → Ends E z v) : Ends E z v := by
  have hun : ∀ vs : List Variant, (∀ v ∈ vs, v ∈ e.kept) →
      (allSome (vs.map (variantZ rec e.tag))).map ZSchema.union = some z → Ends E z v := by
    intro vs hvs hz
    cases ha : allSome (vs.map (variantZ rec e.tag)) with
    | none => rw [ha] at hz; cases hz
    | some zs =>
      rw [ha] at hz
      injection hz with hz
      subst hz
      refine ends_union fun z hm => ?_
      obtain ⟨w, hw, hz⟩ := All2.mem_right (allSome_all2 ha) hm
      exact h w (hvs w hw) z hz
  have hdi : ∀ (t : Str) (vs : List Variant), (∀ v ∈ vs, v ∈ e.kept) →
      discZ t (vs.map (variantZ rec e.tag)) = some z → Ends E z v := by
    intro t vs hvs hz
    unfold discZ at hz
    split at hz
    · rename_i zs ha
      cases ho : discOptions t zs with
      | none => rw [ho] at hz; cases hz
      | some os =>
        rw [ho] at hz; injection hz with hz; subst hz
        refine ends_disc fun o hm => ?_
        have hm' : o.2 ∈ zs := discOptions_mem ho (s := o.1) (z := o.2) hm
        obtain ⟨w, hw, hz⟩ := All2.mem_right (allSome_all2 ha) hm'
        exact h w (hvs w hw) _ hz
    · cases hz
  unfold enumZ at hz
  match hk : e.kept, hz with
  | [w], hz => exact h w (by rw [hk]; exact List.mem_cons_self) z hz
  | a :: b :: l, hz =>
    simp only at hz
    rw [← hk] at hz
    cases ht : e.tag with
    | external => rw [ht] at hz hun; exact hun _ (fun v h => h) hz
    | untagged => rw [ht] at hz hun; exact hun _ (fun v h => h) hz
    | internal t => rw [ht] at hz hdi; exact hdi t _ (fun v h => h) hz
    | adjacent t c => rw [ht] at hz hdi; exact hdi t _ (fun v h => h) hz

end

/-- Every type can be followed down through types of the same value. -/
theorem guarded_acc {P : Program} (h : Guarded P) (t : Ty) : Acc (fun u t => SameValue P t u) t := by
  have one : ∀ t u : Ty, (∀ u', SameValue P t u' → u' = u) → Acc (fun u t => SameValue P t u) u →
      Acc (fun u t => SameValue P t u) t := by
    intro t u h hu
    exact ⟨_, fun u' hu' => h u' hu' ▸ hu⟩
  have leaf : ∀ t : Ty, (∀ u, ¬ SameValue P t u) → Acc (fun u t => SameValue P t u) t :=
    fun t h => ⟨_, fun u hu => absurd hu (h u)⟩
  have go : ∀ (n : Nat) (t : Ty), sizeOf t < n → Acc (fun u t => SameValue P t u) t := by
    intro n
    induction n with
    | zero => intro t h; omega
    | succ n ih =>
      intro t hn
      cases t with
      | named i => exact acc_iff_not_endless.2 (h i)
      | wrap w t =>
        refine one _ t (fun u hu => by cases hu; rfl) (ih t ?_)
        simp only [Ty.wrap.sizeOf_spec] at hn; omega
      | option t =>
        refine one _ t (fun u hu => by cases hu; rfl) (ih t ?_)
        simp only [Ty.option.sizeOf_spec] at hn; omega
      | _ => exact leaf _ (fun u hu => by cases hu)
  exact go _ t (Nat.lt_succ_self _)

/-- It is enough to consider `schema()`. -/
theorem inline_reduce {P : Program} {E : ZEnv} (hE : EnvOk P E) {t : Ty} {Q : ZSchema → Prop}
    (hlazy : ∀ ns name, (∀ z, E.const ns name = some z → Q z) → Q (.lazy ns name))
    (h : ∀ n z, zOf P n .schema t = some z → Q z)
    (hf : ∀ u, SameValue P t u → ∀ n z, zOf P n .inlineSchema u = some z → Q z) :
    ∀ (n : Nat) (m : Method) (z : ZSchema), zOf P n m t = some z → Q z := by
  intro n m z hz
  cases n with
  | zero => cases hz
  | succ n =>
    cases m with
    | schema => exact h _ z hz
    | inlineSchema =>
      cases t with
      | named i =>
        have hz' : zBody (zOf P n) P .inlineSchema (.named i) = some z := hz
        obtain ⟨d, hd, ⟨e, _⟩ | ⟨_, hz'⟩⟩ := zBody_some hz'
        · cases e
        · have lz : z = .lazy d.ns d.name → Q z := by
            rintro rfl
            refine hlazy _ _ fun z hc => ?_
            obtain ⟨n', hn'⟩ := hE i d z hd hc
            exact h n' z hn'
          cases d with
          | struct s => injection hz' with hz'; exact lz hz'.symm
          | enum e =>
            simp only [declInlineZ] at hz'
            cases hu : e.from_.ty? with
            | none => rw [hu] at hz'; injection hz' with hz'; exact lz hz'.symm
            | some u => rw [hu] at hz'; exact hf u (.from_ i _ u hd hu) n z hz'
      | _ => exact h n z hz
    | typeDef => cases t with
      | named i =>
        have hz' : zBody (zOf P n) P .typeDef (.named i) = some z := hz
        obtain ⟨d, hd, ⟨e, _⟩ | ⟨e, _⟩⟩ := zBody_some hz' <;> cases e
      | _ => cases hz
    | inline => cases t with
      | named i =>
        have hz' : zBody (zOf P n) P .inline (.named i) = some z := hz
        obtain ⟨d, hd, ⟨e, _⟩ | ⟨e, _⟩⟩ := zBody_some hz' <;> cases e
      | _ => cases hz

/-- Validation ends for every value if no type is validated by validating the same value against itself. -/
theorem ends {P : Program} {E : ZEnv} (hE : EnvOk P E) (hw : WellStyled P) (hpl : ∀ d ∈ P, Plain d)
    (hg : Guarded P) : ∀ (v : JsVal) (t : Ty) (n : Nat) (m : Method) (z : ZSchema), zOf P n m t = some z →
      Ends E z v := by
  have main : ∀ (k : Nat) (v : JsVal), sizeOf v < k → ∀ (t : Ty) (n : Nat) (m : Method) (z : ZSchema),
      zOf P n m t = some z → Ends E z v := by
    intro k
    induction k with
    | zero => intro v hv; omega
    | succ k ihk =>
    intro v hv t
    -- smaller values
    have small : ∀ a : JsVal, sizeOf a < sizeOf v → ∀ (t : Ty) (n : Nat) (m : Method) (z : ZSchema),
        zOf P n m t = some z → Ends E z a := fun a ha => ihk a (by omega)
    have smallF : ∀ n (f : Field) (z : ZSchema) (a : JsVal), vfieldZ (zOf P n) f = some z → sizeOf a < sizeOf v →
        Ends E z a := fun n f z a hz ha => ends_opt hz fun z hz => small a ha f.ty n _ z hz
    induction guarded_acc hg t with
    | intro t _ ih =>
    have ih : ∀ u, SameValue P t u → ∀ (n : Nat) (m : Method) (z : ZSchema), zOf P n m u = some z → Ends E z v := ih
    refine inline_reduce hE (fun ns name h => ends_lazy h) ?_ fun u hu n z => ih u hu n _ z
    intro n z hz
    cases n with
    | zero => cases hz
    | succ n =>
    have arr : ∀ n u z, zOf P n .schema (.vec u) = some z → Ends E z v := by
      intro n u z hz
      cases n with
      | zero => cases hz
      | succ n =>
        have hz : (zOf P n .inlineSchema u).map ZSchema.array = some z := hz
        cases hu : zOf P n .inlineSchema u with
        | none => rw [hu] at hz; cases hz
        | some a =>
          rw [hu] at hz; injection hz with hz; subst hz
          refine ends_array fun l hl b hb => ?_
          subst hl
          exact small b (arr_lt hb) u n _ a hu
    have set : ∀ n u z, zOf P n .schema (.hashSet u) = some z → Ends E z v := by
      intro n u z hz
      cases n with
      | zero => cases hz
      | succ n =>
        have hz : (zOf P n .inlineSchema u).map ZSchema.set = some z := hz
        cases hu : zOf P n .inlineSchema u with
        | none => rw [hu] at hz; cases hz
        | some a =>
          rw [hu] at hz; injection hz with hz; subst hz
          refine ends_set fun l hl b hb => ?_
          subst hl
          refine small b ?_ u n _ a hu
          have := List.sizeOf_lt_of_mem hb
          simp only [JsVal.set.sizeOf_spec]; omega
    have map : ∀ n a b z, zOf P n .schema (.hashMap a b) = some z → Ends E z v := by
      intro n a b z hz
      cases n with
      | zero => cases hz
      | succ n =>
        have hz : ((zOf P n .inlineSchema a).bind fun a => (zOf P n .inlineSchema b).bind fun b =>
          some (ZSchema.map a b)) = some z := hz
        cases ha : zOf P n .inlineSchema a with
        | none => rw [ha] at hz; cases hz
        | some x =>
          cases hb : zOf P n .inlineSchema b with
          | none => rw [ha, hb] at hz; cases hz
          | some y =>
            rw [ha, hb] at hz; injection hz with hz; subst hz
            refine ends_map fun l hl p hp => ?_
            subst hl
            obtain ⟨p1, p2⟩ := p
            have := List.sizeOf_lt_of_mem hp
            simp only [Prod.mk.sizeOf_spec] at this
            have e := JsVal.map.sizeOf_spec l
            exact ⟨small p1 (by omega) a n _ x ha, small p2 (by omega) b n _ y hb⟩
    cases t with
    | prim p =>
      have hz : primZ p = some z := hz
      cases p <;> simp only [primZ, Option.some.injEq, reduceCtorEq] at hz <;> subst hz <;> exact ⟨1, _, rfl⟩
    | wrap w u => exact ih u (.wrap w u) n .schema z hz
    | option u =>
      have hz : (zOf P n .inlineSchema u).map ZSchema.optional = some z := hz
      cases hu : zOf P n .inlineSchema u with
      | none => rw [hu] at hz; cases hz
      | some a =>
        rw [hu] at hz; injection hz with hz; subst hz
        exact ends_optional (ih u (.option u) n _ a hu)
    | vec u => exact arr (n + 1) u z hz
    | hashSet u => exact set (n + 1) u z hz
    | hashMap a b => exact map (n + 1) a b z hz
    | array l u => exact arr n u z hz
    | btreeSet u => exact set n u z hz
    | btreeMap a b => exact map n a b z hz
    | tuple ts =>
      have hz : (allSome (ts.map (zOf P n .schema))).map ZSchema.tuple = some z := hz
      cases ha : allSome (ts.map (zOf P n .schema)) with
      | none => rw [ha] at hz; cases hz
      | some zs =>
        rw [ha] at hz; injection hz with hz; subst hz
        refine ends_tuple fun l hl z hz a hal => ?_
        subst hl
        obtain ⟨u, _, hz⟩ := All2.mem_right (allSome_all2 ha) hz
        exact small a (arr_lt hal) u n _ z hz
    | result t e =>
      have hz : (match objZ [(lit "Ok", zOf P n .inlineSchema t)], objZ [(lit "Err", zOf P n .inlineSchema e)] with
        | some a, some b => some (ZSchema.union [a, b])
        | _, _ => none) = some z := hz
      have ob : ∀ (k : Str) (u : Ty) z, objZ [(k, zOf P n .inlineSchema u)] = some z → Ends E z v := by
        intro k u z hz
        refine ends_objZ hz fun kvs hv p hp z hz => ?_
        rw [List.mem_singleton] at hp; subst hp; subst hv
        exact small _ (objGet_lt _ _) u n _ z hz
      split at hz
      · rename_i a b ha hb
        injection hz with hz; subst hz
        refine ends_union fun z hm => ?_
        rcases List.mem_cons.1 hm with rfl | hm
        · exact ob _ t _ ha
        · rw [List.mem_singleton] at hm; subst hm; exact ob _ e _ hb
      · cases hz
    | named i =>
      have hz : zBody (zOf P n) P .schema (.named i) = some z := hz
      obtain ⟨d, hd, hz⟩ : ∃ d, P[i]? = some d ∧ declZ (zOf P n) d = some z := by
        obtain ⟨d, hd, ⟨_, hz⟩ | ⟨e, _⟩⟩ := zBody_some hz
        · exact ⟨d, hd, hz⟩
        · cases e
      have hp := hpl _ (List.mem_of_getElem? hd)
      have hws := hw _ (List.mem_of_getElem? hd)
      cases d with
      | enum e =>
        simp only [declZ] at hz
        cases hf : e.from_.ty? with
        | some u => rw [hf] at hz; exact ih u (.from_ i _ u hd hf) n _ z hz
        | none =>
          rw [hf] at hz
          refine ends_enum hz fun w hwk z hz => ?_
          refine ends_variant hz (fun ht hs f hk z hz => ?_) (fun f z a hz ha => smallF n f z a hz ha)
          have hv1 := List.mem_filter.1 hwk
          exact ends_opt hz fun z hz => ih f.ty (.untagged i e w f hd hf ht hv1.1 (by simpa using hv1.2) hs hk) n _ z hz
      | struct s =>
        simp only [declZ] at hz
        cases hf : s.from_.ty? with
        | some u => rw [hf] at hz; exact ih u (.from_ i _ u hd hf) n _ z hz
        | none =>
          rw [hf] at hz
          simp only at hz
          have direct : (s.transparent = true ∨ s.style = .tuple) → ∀ f, keptFields s.fields = [f] →
              ∀ z, vfieldZ (zOf P n) f = some z → Ends E z v := by
            intro hts f hk z hz
            exact ends_opt hz fun z hz => ih f.ty (.struct i s f hd hf hts hk) n _ z hz
          cases htr : s.transparent with
          | true =>
            obtain ⟨f, hk⟩ := hp.2 htr
            have hmem : f ∈ s.fields.filter (fun f => !f.skipDe) := by rw [hk]; exact List.mem_cons_self
            have hff := hp.1 (Or.inl htr) f (List.mem_filter.1 hmem).1 (by simpa using (List.mem_filter.1 hmem).2)
            rw [structZ_transparent hk hff htr] at hz
            exact direct (Or.inl htr) f hk z hz
          | false =>
            cases hst : s.style with
            | unit => unfold structZ at hz; rw [htr, hst] at hz; cases hz
            | tuple =>
              have hfl : ∀ f ∈ keptFields s.fields, f.flatten = false := fun f hf' =>
                hp.1 (Or.inr hst) f (List.mem_filter.1 hf').1 (by simpa using (List.mem_filter.1 hf').2)
              have hne : keptFields s.fields ≠ [] := by
                intro hnil
                obtain ⟨h1, _⟩ := sfields_eq hfl
                unfold structZ at hz
                simp only [h1, hnil, htr, hst] at hz
                cases hz
              rw [structZ_body hws hfl htr (fun _ => hne), hst] at hz
              refine ends_tupleFields hz (fun f hk => direct (Or.inr hst) f hk) fun l hl f _ z hz b hb => ?_
              subst hl
              exact smallF n f z b hz (arr_lt hb)
            | named =>
              unfold structZ at hz
              simp only [htr, hst] at hz
              refine ends_extend _ _ (fun a ha => ?_) z hz
              refine ends_objZ ha fun kvs hv p hp z hz => ?_
              obtain ⟨f, _, rfl⟩ := List.mem_map.1 hp
              subst hv
              exact ends_opt hz fun z hz => small _ (objGet_lt _ _) f.ty n _ z hz
  exact fun v => main _ v (Nat.lt_succ_self _)

end Verif.Zod
