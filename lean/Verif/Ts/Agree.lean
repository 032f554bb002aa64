import Verif.Spec.Agree
import Verif.Ts.Means
import Verif.Zod.Module

/-!
# What the schema accepts is a value of the type
-/

namespace Verif.Ts
open Verif Verif.Js Verif.Schema Verif.SchemaSpec Verif.Spec Verif.Zod

/-- The value is one of the type. -/
abbrev Inh (D : TsEnv) (len : Bool) (d : Dnf) (v : JsVal) : Prop := Inhabits D len (ofDnf d) v

/-- What the schema accepts in `k` steps, and what it returns for it, are values of the type. -/
def Ok (E : ZEnv) (D : TsEnv) (len : Bool) (k : Nat) (z : ZSchema) (T : TsType) : Prop :=
  ∀ v r, parse E k z v = some (some r) → Inhabits D len T v ∧ Inhabits D len T r

variable {E : ZEnv} {D : TsEnv} {len : Bool} {k : Nat}

theorem Ok.le {k' : Nat} {z : ZSchema} {T : TsType} (h : Ok E D len k z T) (hk : k' ≤ k) : Ok E D len k' z T :=
  fun v r hp => h v r (parse_mono hk hp)

theorem Ok.pred {z : ZSchema} {T : TsType} (h : Ok E D len (k + 1) z T) : Ok E D len k z T := h.le (Nat.le_succ k)

theorem ok_zero {z : ZSchema} {T : TsType} : Ok E D len 0 z T := fun _ _ h => by cases h

/-- Extend a claim about the next step to all earlier ones. -/
theorem ok_of_succ {z : ZSchema} {T : TsType} (h : Ok E D len (k + 1) z T) : Ok E D len k z T := h.pred

theorem ok_union {z : ZSchema} {ds : List Dnf} {d : Dnf} (h : Ok E D len k z (ofDnf d)) (hd : d ∈ ds) :
    Ok E D len k z (ofDnf ds.flatten) := by
  have up : ∀ v, Inhabits D len (ofDnf d) v → Inhabits D len (ofDnf ds.flatten) v := fun v hv =>
    (same_flatten ds D len v).2 (.union _ _ _ (List.mem_map.2 ⟨d, hd, rfl⟩) hv)
  exact fun v r hp => ⟨up _ (h v r hp).1, up _ (h v r hp).2⟩

theorem ok_opt {z : ZSchema} {d : Dnf} (h : Ok E D len k z (ofDnf d)) :
    Ok E D len (k + 1) (.optional z) (ofDnf (d ++ undefD)) := by
  have hu : Inhabits D len (ofDnf (d ++ undefD)) .undefined := (same_append d undefD D len _).2
    (.union _ _ _ (List.mem_cons_of_mem _ List.mem_cons_self) .undefined)
  have up : ∀ v, Inhabits D len (ofDnf d) v → Inhabits D len (ofDnf (d ++ undefD)) v := fun v hv =>
    (same_append d undefD D len v).2 (.union _ _ _ List.mem_cons_self hv)
  intro v r hp
  rcases parse_optional hp with ⟨rfl, rfl⟩ | ⟨_, hp⟩
  · exact ⟨hu, hu⟩
  · exact ⟨up _ (h v r hp).1, up _ (h v r hp).2⟩

/-- A field with its default. -/
theorem ok_optZ {b : Bool} {x : Option ZSchema} {z : ZSchema} {d : Dnf} (hz : optZ b x = some z)
    (h : ∀ z, x = some z → Ok E D len k z (ofDnf d)) : Ok E D len k z (ofDnf (optD b d)) := by
  cases b with
  | false => exact h z hz
  | true =>
    cases x with
    | none => cases hz
    | some y =>
      injection hz with hz
      subst hz
      exact (ok_opt (h y rfl)).pred

theorem ok_array {z : ZSchema} {T : TsType} (h : Ok E D len k z T) :
    Ok E D len (k + 1) (.array z) (.app [lit "Array"] [T]) := by
  intro v r hp
  obtain ⟨l, rs, rfl, rfl, ha⟩ := parse_array hp
  refine ⟨.array _ _ fun x hx => ?_, .array _ _ fun x hx => ?_⟩
  · obtain ⟨y, _, hy⟩ := All2.mem_left ha hx
    exact (h _ _ hy).1
  · obtain ⟨y, _, hy⟩ := All2.mem_right ha hx
    exact (h _ _ hy).2

theorem ok_set {z : ZSchema} {T : TsType} (h : Ok E D len k z T) :
    Ok E D len (k + 1) (.set z) (.app [lit "Set"] [T]) := by
  intro v r hp
  obtain ⟨l, rs, rfl, rfl, ha⟩ := parse_set hp
  refine ⟨.set _ _ fun x hx => ?_, .set _ _ fun x hx => ?_⟩
  · obtain ⟨y, _, hy⟩ := All2.mem_left ha hx
    exact (h _ _ hy).1
  · obtain ⟨y, _, hy⟩ := All2.mem_right ha hx
    exact (h _ _ hy).2

theorem parse_map_all {a b : ZSchema} {v r : JsVal} (h : parse E (k + 1) (.map a b) v = some (some r)) :
    ∃ l ks vs, v = .map l ∧ r = .map (ks.zip vs) ∧ All2 (fun p r => parse E k a p.1 = some (some r)) l ks ∧
      All2 (fun p r => parse E k b p.2 = some (some r)) l vs := by
  cases v with
  | map l =>
    rw [parse] at h
    cases hr : allRes (l.map (fun p => parse E k a p.1)) with
    | none => rw [hr] at h; cases h
    | some x =>
      rw [hr] at h
      cases hr' : allRes (l.map (fun p => parse E k b p.2)) with
      | none => rw [hr'] at h; cases h
      | some y =>
        rw [hr'] at h
        cases x with
        | none => cases h
        | some ks =>
          cases y with
          | none => cases h
          | some vs =>
            injection h with h; injection h with h
            exact ⟨l, ks, vs, rfl, h.symm, allRes_some hr, allRes_some hr'⟩
  | _ => simp [parse] at h

theorem ok_map {a b : ZSchema} {T U : TsType} (h : Ok E D len k a T) (h' : Ok E D len k b U) :
    Ok E D len (k + 1) (.map a b) (.app [lit "Map"] [T, U]) := by
  intro v r hp
  obtain ⟨l, ks, vs, rfl, rfl, ha, hb⟩ := parse_map_all hp
  refine ⟨.map _ _ _ (fun x hx => ?_) (fun x hx => ?_), .map _ _ _ (fun x hx => ?_) (fun x hx => ?_)⟩
  · obtain ⟨y, _, hy⟩ := All2.mem_left ha hx
    exact (h _ _ hy).1
  · obtain ⟨y, _, hy⟩ := All2.mem_left hb hx
    exact (h' _ _ hy).1
  · obtain ⟨y, _, hy⟩ := All2.mem_right ha (List.of_mem_zip (a := x.1) (b := x.2) hx).1
    exact (h _ _ hy).2
  · obtain ⟨y, _, hy⟩ := All2.mem_right hb (List.of_mem_zip (a := x.1) (b := x.2) hx).2
    exact (h' _ _ hy).2

theorem ok_tuple {zs : List ZSchema} {Ts : List TsType} (h : All2 (fun z T => Ok E D len k z T) zs Ts) :
    Ok E D len (k + 1) (.tuple zs) (.tuple Ts) := by
  intro v r hp
  obtain ⟨l, rs, rfl, rfl, hl, ha⟩ := parse_tuple hp
  have key : All2 (Inhabits D len) Ts l ∧ All2 (Inhabits D len) Ts rs := by
    clear hp
    induction h generalizing l rs with
    | nil =>
      cases l with
      | nil => cases ha; exact ⟨.nil, .nil⟩
      | cons => simp at hl
    | cons h1 _ ih =>
      cases l with
      | nil => simp at hl
      | cons x l =>
        cases ha with
        | cons h3 h4 =>
          have := ih l _ (by simpa using hl) h4
          exact ⟨.cons (h1 _ _ h3).1 this.1, .cons (h1 _ _ h3).2 this.2⟩
  exact ⟨.tuple _ _ (All2.length key.1).symm fun i t x ht hx => All2.get key.1 ht hx,
    .tuple _ _ (All2.length key.2).symm fun i t x ht hx => All2.get key.2 ht hx⟩

/-! ## Objects -/

theorem objHas_false {kvs : List (Str × JsVal)} {key : Str} (h : objHas kvs key = false) :
    objGet kvs key = .undefined := by
  unfold objGet
  rw [List.find?_eq_none.2 fun p hp => ?_]
  unfold objHas at h
  rw [List.any_eq_false] at h
  exact h p hp

theorem mkObj_get {kvs : List (Str × JsVal)} : ∀ {keys : List Str} {rs : List JsVal}, keys.Nodup → ∀ {key : Str}
    {x : JsVal}, (key, x) ∈ keys.zip rs →
    (objHas (mkObj kvs keys rs) key = true → objGet (mkObj kvs keys rs) key = x) ∧
    (objHas (mkObj kvs keys rs) key = false → x = .undefined ∧ objHas kvs key = false) := by
  intro keys
  induction keys with
  | nil => intro rs _ key x h; simp at h
  | cons a keys ih =>
    intro rs hd key x h
    cases rs with
    | nil => simp at h
    | cons y rs =>
      rw [List.nodup_cons] at hd
      rw [List.zip_cons_cons] at h
      have hne : ∀ {key x}, (key, x) ∈ keys.zip rs → ¬ a = key := fun hm e =>
        hd.1 (e ▸ (List.of_mem_zip hm).1)
      rcases List.mem_cons.1 h with e | h
      · cases e
        have hno : objHas (mkObj kvs keys rs) a = false := by
          unfold objHas mkObj
          rw [List.any_eq_false]
          intro p hp e
          have := List.of_mem_zip (a := p.1) (b := p.2) (List.mem_filter.1 hp).1
          have e : p.1 = a := by simpa using e
          exact hd.1 (e ▸ this.1)
        clear h
        by_cases hk : (objHas kvs a || (match x with | .undefined => false | _ => true)) = true
        · have e : mkObj kvs (a :: keys) (x :: rs) = (a, x) :: mkObj kvs keys rs := by
            unfold mkObj
            rw [List.zip_cons_cons, List.filter_cons]
            exact if_pos hk
          rw [e]
          constructor
          · intro _; simp [objGet]
          · intro hh; simp [objHas] at hh
        · have e : mkObj kvs (a :: keys) (x :: rs) = mkObj kvs keys rs := by
            unfold mkObj
            rw [List.zip_cons_cons, List.filter_cons]
            exact if_neg hk
          rw [e]
          constructor
          · intro hh; rw [hno] at hh; cases hh
          · intro _
            rw [Bool.or_eq_true] at hk
            have h1 : ¬ objHas kvs a = true := fun hh => hk (Or.inl hh)
            have h2 : x = .undefined := by
              cases x <;> first | rfl | exact absurd (Or.inr rfl) hk
            exact ⟨h2, by simpa using h1⟩
      · have ihh := ih hd.2 h
        have hak := hne h
        have e : objHas (mkObj kvs (a :: keys) (y :: rs)) key = objHas (mkObj kvs keys rs) key ∧
            objGet (mkObj kvs (a :: keys) (y :: rs)) key = objGet (mkObj kvs keys rs) key := by
          have alt : mkObj kvs (a :: keys) (y :: rs) = (a, y) :: mkObj kvs keys rs ∨
              mkObj kvs (a :: keys) (y :: rs) = mkObj kvs keys rs := by
            unfold mkObj
            rw [List.zip_cons_cons, List.filter_cons]
            by_cases hc : (fun p : Str × JsVal => objHas kvs p.1 ||
                (match p.2 with | .undefined => false | _ => true)) (a, y) = true
            · exact Or.inl (if_pos hc)
            · exact Or.inr (if_neg hc)
          rcases alt with e | e
          · rw [e]
            constructor
            · simp [objHas, hak]
            · simp [objGet, hak]
          · rw [e]; exact ⟨rfl, rfl⟩
        rw [e.1, e.2]
        exact ihh

/-- A property and its schema. -/
def OkProp (E : ZEnv) (D : TsEnv) (len : Bool) (k : Nat) (l : Str × Option ZSchema) (p : Str × Bool × TsType) : Prop :=
  l.1 = p.1 ∧ ∀ z, l.2 = some z → Ok E D len k z p.2.2 ∧
    (p.2.1 = true ∨ len = true ∨ ∀ r, parse E k z .undefined ≠ some (some r))

theorem ok_obj {l : List (Str × Option ZSchema)} {ps : List (Str × Bool × TsType)} {z : ZSchema}
    (hz : objZ l = some z) (h : All2 (OkProp E D len k) l ps) : Ok E D len (k + 1) z (.obj ps) := by
  intro v r hp
  obtain ⟨kvs, rs, rfl, hd, rfl, ha⟩ := objZ_parse hz hp
  -- every property has a schema and a result
  have key : ∀ p ∈ ps, ∃ z x, (p.1, x) ∈ (l.map (·.1)).zip rs ∧ parse E k z (objGet kvs p.1) = some (some x) ∧
      Ok E D len k z p.2.2 ∧ (p.2.1 = true ∨ len = true ∨ ∀ r, parse E k z .undefined ≠ some (some r)) := by
    clear hp hz hd
    induction h generalizing rs with
    | nil => intro p hp; cases hp
    | cons h1 _ ih =>
      cases ha with
      | cons h3 h4 =>
        intro p hp
        rcases List.mem_cons.1 hp with rfl | hp
        · obtain ⟨z, hz, h3⟩ := h3
          obtain ⟨e, h1⟩ := h1
          refine ⟨z, _, ?_, e ▸ h3, h1 z hz⟩
          rw [List.map_cons, List.zip_cons_cons, ← e]
          exact List.mem_cons_self
        · obtain ⟨z, x, hm, hr⟩ := ih _ h4 p hp
          exact ⟨z, x, by rw [List.map_cons, List.zip_cons_cons]; exact List.mem_cons_of_mem _ hm, hr⟩
  constructor
  · rw [inhabits_obj]
    refine ⟨_, rfl, fun p hpm => ?_⟩
    obtain ⟨z, x, hm, hx, ho, hs⟩ := key p hpm
    refine ⟨fun _ => (ho _ _ hx).1, fun hh hop => ?_⟩
    rw [objHas_false hh] at hx
    rcases hs with hs | hs | hs
    · rw [hop] at hs; cases hs
    · exact ⟨hs, (ho _ _ hx).1⟩
    · exact absurd hx (hs x)
  · rw [inhabits_obj]
    refine ⟨_, rfl, fun p hpm => ?_⟩
    obtain ⟨z, x, hm, hx, ho, hs⟩ := key p hpm
    have hg := mkObj_get (kvs := kvs) hd hm
    refine ⟨fun hh => by rw [hg.1 hh]; exact (ho _ _ hx).2, fun hh hop => ?_⟩
    obtain ⟨e, hh⟩ := hg.2 hh
    rw [objHas_false hh] at hx
    rcases hs with hs | hs | hs
    · rw [hop] at hs; cases hs
    · exact ⟨hs, by rw [← e]; exact (ho _ _ hx).2⟩
    · exact absurd hx (hs x)

theorem ok_lit {s : Str} : Ok E D len (k + 1) (.literal s) (.str s) := by
  intro v r hp
  obtain ⟨rfl, rfl⟩ := parse_literal hp
  exact ⟨.literal _, .literal _⟩

theorem ok_prim {p : Prim} {z : ZSchema} (h : primZ p = some z) : Ok E D len (k + 1) z (.name [p.typeDef]) := by
  intro v r hp
  have str : ∀ {cs}, parse E (k + 1) (.string cs) v = some (some r) →
      Inhabits D len (.name [lit "string"]) v ∧ Inhabits D len (.name [lit "string"]) r := by
    intro cs hp
    rcases parse_string hp with ⟨s, rfl, rfl, _⟩ | ⟨u, rfl, rfl⟩
    · exact ⟨.string _, .string _⟩
    · exact ⟨.badString _, .badString _⟩
  have num : ∀ {cs}, parse E (k + 1) (.number cs) v = some (some r) →
      Inhabits D len (.name [lit "number"]) v ∧ Inhabits D len (.name [lit "number"]) r := by
    intro cs hp
    obtain ⟨rfl, x, rfl, _⟩ := parse_number hp
    exact ⟨.number _, .number _⟩
  have kinds : (∃ cs, z = .string cs ∧ p.typeDef = lit "string") ∨ (∃ cs, z = .number cs ∧ p.typeDef = lit "number") ∨
      (z = .null ∧ p.typeDef = lit "null") := by
    cases p <;> simp only [primZ, Option.some.injEq, reduceCtorEq] at h <;> subst h <;> first
      | (refine Or.inl ⟨_, rfl, ?_⟩; rfl)
      | (refine Or.inr (Or.inl ⟨_, rfl, ?_⟩); rfl)
      | exact Or.inr (Or.inr ⟨rfl, rfl⟩)
  rcases kinds with ⟨cs, rfl, e⟩ | ⟨cs, rfl, e⟩ | ⟨rfl, e⟩
  · rw [e]; exact str hp
  · rw [e]; exact num hp
  · rw [e]; obtain ⟨rfl, rfl⟩ := parse_null hp; exact ⟨.null, .null⟩

/-! ## Structs and enums -/

/-- The claim for all types, for parses of up to `k` steps and schemas computed to depth `n`. -/
def Claim (P : Program) (E : ZEnv) (D : TsEnv) (len : Bool) (k n : Nat) : Prop :=
  ∀ m mz mt t z s, isT mt → (len = true ∨ Strict P t) → zOf P n mz t = some z → eval P m mt t = some s →
    Ok E D len k z (ofDnf (dOf P m mt t))

/-- The claim for the types of fields. -/
def FieldOk (E : ZEnv) (D : TsEnv) (len : Bool) (k : Nat) (rz : Method → Ty → Option ZSchema)
    (rd : Method → Ty → Dnf) (f : Field) : Prop :=
  ∀ z, rz .inlineSchema f.ty = some z → Ok E D len k z (ofDnf (rd .inline f.ty))

/-- A field that is written as a property is there if the property is not optional. -/
def FieldReq (E : ZEnv) (len : Bool) (k : Nat) (rz : Method → Ty → Option ZSchema) (f : Field) : Prop :=
  f.dflt = true ∨ len = true ∨ ∀ z, rz .inlineSchema f.ty = some z → ∀ r, parse E k z .undefined ≠ some (some r)

variable {rz : Method → Ty → Option ZSchema} {rd : Method → Ty → Dnf}

theorem ok_vfield {f : Field} (h : FieldOk E D len k rz rd f) {z : ZSchema} (hz : vfieldZ rz f = some z) :
    Ok E D len k z (ofDnf (vfieldD rd f)) := ok_optZ hz h

theorem ok_fields {fs : List Field} (h : ∀ f ∈ fs, FieldOk E D len k rz rd f) {zs : List ZSchema}
    (hz : allSome (fs.map (vfieldZ rz)) = some zs) :
    Ok E D len (k + 1) (.tuple zs) (.tuple ((fs.map (vfieldD rd)).map ofDnf)) := by
  apply ok_tuple
  have ha := allSome_all2 hz
  clear hz
  induction ha with
  | nil => exact .nil
  | cons h1 _ ih =>
    exact .cons (ok_vfield (h _ List.mem_cons_self) h1) (ih fun f hf => h f (List.mem_cons_of_mem _ hf))

theorem ok_vprops {fs : List Field} (h : ∀ f ∈ fs, FieldOk E D len k rz rd f)
    (hr : ∀ f ∈ fs, FieldReq E len k rz f) :
    All2 (OkProp E D len k) (fs.map (fun f => (f.name, vfieldZ rz f))) ((fs.map (vfieldP rd)).map propT) := by
  induction fs with
  | nil => exact .nil
  | cons f fs ih =>
    refine .cons ⟨rfl, fun z hz => ⟨ok_vfield (h f List.mem_cons_self) hz, ?_⟩⟩
      (ih (fun f hf => h f (List.mem_cons_of_mem _ hf)) (fun f hf => hr f (List.mem_cons_of_mem _ hf)))
    cases hd : f.dflt with
    | true => exact Or.inl hd
    | false =>
      rcases hr f List.mem_cons_self with h' | h' | h'
      · exact Or.inl h'
      · exact Or.inr (Or.inl h')
      · refine Or.inr (Or.inr (h' z ?_))
        simpa [vfieldZ, optZ, hd] using hz

theorem ok_unit {tag : Tag} {name : Str} {z : ZSchema} (hz : unitZ tag name = some z) :
    Ok E D len (k + 2) z (unitD tag name) := by
  have lit1 : ∀ t : Str, All2 (OkProp E D len (k + 1)) [(t, some (.literal name))] [(t, false, .str name)] := fun t =>
    .cons ⟨rfl, fun z hz => by
      injection hz with hz
      subst hz
      exact ⟨ok_lit, Or.inr (Or.inr fun r h => by obtain ⟨e, _⟩ := parse_literal h; cases e)⟩⟩ .nil
  cases tag with
  | external => injection hz with hz; subst hz; exact ok_lit
  | internal t => simp only [unitZ] at hz; exact ok_obj hz (lit1 t)
  | adjacent t c => simp only [unitZ] at hz; exact ok_obj hz (lit1 t)
  | untagged =>
    injection hz with hz
    subst hz
    intro v r hp
    obtain ⟨rfl, rfl⟩ := parse_null hp
    exact ⟨.null, .null⟩

theorem ok_payload {fs : List Field} (h : ∀ f ∈ fs, FieldOk E D len k rz rd f) {z : ZSchema}
    (hz : tupleFieldsZ rz fs = some z) : Ok E D len k z (ofDnf (tupleFieldsD rd fs)) := by
  have many : ∀ fs : List Field, (∀ f ∈ fs, FieldOk E D len k rz rd f) → ∀ z,
      (allSome (fs.map (vfieldZ rz))).map .tuple = some z →
      Ok E D len k z (.tuple ((fs.map (vfieldD rd)).map ofDnf)) := by
    intro fs h z hz
    cases ha : allSome (fs.map (vfieldZ rz)) with
    | none => rw [ha] at hz; cases hz
    | some zs =>
      rw [ha] at hz
      injection hz with hz
      subst hz
      exact (ok_fields h ha).pred
  match fs, h, hz with
  | [], h, hz => exact many [] h z hz
  | [f], h, hz => exact ok_vfield (h f List.mem_cons_self) hz
  | a :: b :: fs, h, hz => exact many (a :: b :: fs) h z hz

theorem never_payload {fs : List Field} {z : ZSchema} (hz : tupleFieldsZ rz fs = some z)
    (h : ∀ f, fs = [f] → f.dflt = false ∧
      ∀ z, rz .inlineSchema f.ty = some z → ∀ r, parse E k z .undefined ≠ some (some r)) (r : JsVal) :
    parse E k z .undefined ≠ some (some r) := by
  have many : ∀ l : List (Option ZSchema), (allSome l).map .tuple = some z → parse E k z .undefined ≠ some (some r) := by
    intro l hl hp
    cases ha : allSome l with
    | none => rw [ha] at hl; cases hl
    | some zs =>
      rw [ha] at hl
      injection hl with hl
      subst hl
      cases k with
      | zero => cases hp
      | succ k => obtain ⟨_, _, e, _⟩ := parse_tuple hp; cases e
  match fs, hz, h with
  | [], hz, _ => exact many [] hz
  | [f], hz, h =>
    obtain ⟨h1, h2⟩ := h f rfl
    refine h2 z ?_ r
    simpa [tupleFieldsZ, vfieldZ, optZ, h1] using hz
  | a :: b :: fs, hz, _ => exact many ((a :: b :: fs).map (vfieldZ rz)) hz

theorem ok_litProp (t name : Str) : OkProp E D len k (t, some (.literal name)) (t, false, .str name) := by
  refine ⟨rfl, fun z hz => ?_⟩
  injection hz with hz
  subst hz
  refine ⟨ok_lit.pred, Or.inr (Or.inr fun r h => ?_)⟩
  cases k with
  | zero => cases h
  | succ k => obtain ⟨e, _⟩ := parse_literal h; cases e

theorem ok_variant {tag : Tag} {v : Variant} (h : ∀ f ∈ keptFields v.fields, FieldOk E D len k rz rd f)
    (hr : v.style = .named → ∀ f ∈ keptFields v.fields, FieldReq E len k rz f)
    (ht : len = true ∨ (tag ≠ .untagged → v.style = .tuple → ∀ f, keptFields v.fields = [f] → f.dflt = false ∧
      ∀ z, rz .inlineSchema f.ty = some z → ∀ r, parse E k z .undefined ≠ some (some r)))
    {z : ZSchema} (hz : variantZ rz tag v = some z) : Ok E D len k z (ofDnf (variantD rd tag v)) := by
  unfold variantZ at hz
  unfold variantD
  cases hst : v.style with
  | unit => rw [hst] at hz; exact (ok_unit hz).pred.pred
  | named =>
    rw [hst] at hz
    have hp := ok_vprops h (hr hst)
    have hobj : ∀ z, objZ ((keptFields v.fields).map (fun f => (f.name, vfieldZ rz f))) = some z →
        Ok E D len k z (.obj (((keptFields v.fields).map (vfieldP rd)).map propT)) := fun z hz => (ok_obj hz hp).pred
    have hpr : ∀ c : Str, OkProp E D len k (c, objZ ((keptFields v.fields).map (fun f => (f.name, vfieldZ rz f))))
        (c, false, .obj (((keptFields v.fields).map (vfieldP rd)).map propT)) := fun c =>
      ⟨rfl, fun z hz => ⟨hobj z hz, Or.inr (Or.inr fun r => never_obj hz)⟩⟩
    simp only [structVariantZ] at hz
    cases tag with
    | external => exact (ok_obj hz (.cons (hpr _) .nil)).pred
    | internal t => exact (ok_obj hz (.cons (ok_litProp t v.name) hp)).pred
    | adjacent t c => exact (ok_obj hz (.cons (ok_litProp t v.name) (.cons (hpr _) .nil))).pred
    | untagged => exact hobj z hz
  | tuple =>
    rw [hst] at hz
    simp only [tupleVariantZ] at hz
    show Ok E D len k z (ofDnf (tupleVariantD rd tag v))
    have hkk : v.kept = keptFields v.fields := rfl
    unfold tupleVariantD
    rw [hkk] at hz ⊢
    cases hk : keptFields v.fields with
    | nil => rw [hk] at hz; exact (ok_unit hz).pred.pred
    | cons f fs =>
      rw [hk] at hz h
      have hpr : tag ≠ .untagged → ∀ c : Str, OkProp E D len k (c, tupleFieldsZ rz (f :: fs))
          (c, false, ofDnf (tupleFieldsD rd (f :: fs))) := by
        intro hu c
        refine ⟨rfl, fun z hz => ⟨ok_payload h hz, ?_⟩⟩
        rcases ht with ht | ht
        · exact Or.inr (Or.inl ht)
        · refine Or.inr (Or.inr (never_payload hz fun x hx => ht hu hst x ?_))
          rw [hk, hx]
      cases tag with
      | external => exact (ok_obj hz (.cons (hpr (by simp) _) .nil)).pred
      | internal t => exact (ok_obj hz (.cons (hpr (by simp) _) .nil)).pred
      | adjacent t c => exact (ok_obj hz (.cons (ok_litProp t v.name) (.cons (hpr (by simp) _) .nil))).pred
      | untagged => exact ok_payload h hz

theorem ok_enum {e : EnumDecl}
    (h : ∀ v ∈ e.kept, ∀ z, variantZ rz e.tag v = some z → Ok E D len k z (ofDnf (variantD rd e.tag v)))
    {z : ZSchema} (hz : enumZ rz e = some z) : Ok E D len k z (ofDnf (enumD rd e)) := by
  have one : ∀ v ∈ e.kept, ∀ z, variantZ rz e.tag v = some z → Ok E D len k z (ofDnf (enumD rd e)) :=
    fun v hv z hz => ok_union (h v hv z hz) (List.mem_map.2 ⟨v, hv, rfl⟩)
  have many : ∀ zs, allSome (e.kept.map (variantZ rz e.tag)) = some zs → ∀ z ∈ zs, Ok E D len k z (ofDnf (enumD rd e)) := by
    intro zs hzs z hm
    obtain ⟨v, hv, hz⟩ := All2.mem_right (allSome_all2 hzs) hm
    exact one v hv z hz
  have uni : (allSome (e.kept.map (variantZ rz e.tag))).map .union = some z → Ok E D len k z (ofDnf (enumD rd e)) := by
    intro hz
    cases ha : allSome (e.kept.map (variantZ rz e.tag)) with
    | none => rw [ha] at hz; cases hz
    | some zs =>
      rw [ha] at hz
      injection hz with hz
      subst hz
      intro v r hp
      cases k with
      | zero => cases hp
      | succ k =>
        obtain ⟨z, hm, hp⟩ := parse_union hp
        exact (many zs ha z hm).pred v r hp
  have disc : ∀ t, discZ t (e.kept.map (variantZ rz e.tag)) = some z → Ok E D len k z (ofDnf (enumD rd e)) := by
    intro t hz
    unfold discZ at hz
    cases ha : allSome (e.kept.map (variantZ rz e.tag)) with
    | none => rw [ha] at hz; cases hz
    | some zs =>
      rw [ha] at hz
      simp only at hz
      cases ho : discOptions t zs with
      | none => rw [ho] at hz; cases hz
      | some os =>
        rw [ho] at hz
        injection hz with hz
        subst hz
        intro v r hp
        cases k with
        | zero => cases hp
        | succ k =>
          obtain ⟨_, _, z, _, _, hm, hp⟩ := parse_disc hp
          exact (many zs ha z (discOptions_mem ho hm)).pred v r hp
  unfold enumZ at hz
  split at hz
  · cases hz
  · rename_i v hk
    exact one v (by rw [hk]; exact List.mem_singleton.2 rfl) z hz
  · split at hz
    · exact uni hz
    · exact disc _ hz
    · exact disc _ hz
    · exact uni hz

theorem sfield_eq (tr : Bool) (f : Field) :
    sfieldZ rz (SField.ofField tr f) = vfieldZ rz f ∧ sfieldD rd (SField.ofField tr f) = vfieldD rd f := ⟨rfl, rfl⟩

theorem extendZ_broken {x : Option ZSchema} {l : List (Option ZSchema)} {z : ZSchema} (hl : l ≠ [])
    (h : extendZ x l = some z) : z = .broken := by
  induction l generalizing x with
  | nil => exact absurd rfl hl
  | cons a l ih =>
    cases a with
    | none => cases h
    | some y =>
      rw [extendZ] at h
      cases l with
      | nil =>
        rw [extendZ] at h
        cases x with
        | none => cases h
        | some x => injection h with h; exact h.symm
      | cons b l => exact ih (by simp) h

theorem ok_struct {s : StructDecl} (hpl : Plain (.struct s)) (hw : wellStyled (.struct s) = true)
    (h : ∀ f ∈ keptFields s.fields, FieldOk E D len k rz rd f)
    (hr : s.transparent = false → s.style = .named → ∀ f ∈ keptFields s.fields, FieldReq E len k rz f)
    {z : ZSchema} (hz : structZ rz s = some z) : Ok E D len k z (ofDnf (structD rd s)) := by
  unfold structZ at hz
  unfold structD
  simp only at hz ⊢
  rw [structFields_filter s (·.flatten) (·.flatten) (fun _ => rfl),
    structFields_filter s (fun f => !f.flatten) (fun f => !f.flatten) (fun _ => rfl)] at *
  have noFl : s.transparent = true ∨ s.style = .tuple →
      (keptFields s.fields).filter (fun f => !f.flatten) = keptFields s.fields := by
    intro hts
    rw [List.filter_eq_self]
    intro fd hfd
    have hm := List.mem_filter.1 hfd
    simp [hpl.1 hts fd hm.1 (by simpa using hm.2)]
  cases htr : s.transparent with
  | true =>
    obtain ⟨fd, hk⟩ := hpl.2 htr
    have hk : keptFields s.fields = [fd] := hk
    rw [htr, noFl (Or.inl htr), hk] at hz
    rw [noFl (Or.inl htr), hk]
    exact ok_vfield (h fd (by rw [hk]; exact List.mem_singleton.2 rfl)) hz
  | false =>
    rw [htr] at hz
    cases hst : s.style with
    | unit => rw [hst] at hz; cases hz
    | tuple =>
      rw [noFl (Or.inr hst), hst] at hz
      rw [noFl (Or.inr hst)]
      rcases hk : keptFields s.fields with _ | ⟨fd, _ | ⟨b, r⟩⟩
      · rw [hk] at hz; cases hz
      · rw [hk] at hz
        exact ok_vfield (h fd (by rw [hk]; exact List.mem_singleton.2 rfl)) hz
      · rw [hk] at hz h
        have hz : (allSome (((fd :: b :: r).map (SField.ofField false)).map (sfieldZ rz))).map .tuple = some z := hz
        have e : ((fd :: b :: r).map (SField.ofField false)).map (sfieldZ rz) = (fd :: b :: r).map (vfieldZ rz) := by
          rw [List.map_map]; rfl
        have e' : ((fd :: b :: r).map (SField.ofField false)).map (sfieldD rd) = (fd :: b :: r).map (vfieldD rd) := by
          rw [List.map_map]; rfl
        show Ok E D len k z (.tuple ((((fd :: b :: r).map (SField.ofField false)).map (sfieldD rd)).map ofDnf))
        rw [e] at hz
        rw [e']
        cases ha : allSome ((fd :: b :: r).map (vfieldZ rz)) with
        | none => rw [ha] at hz; cases hz
        | some zs =>
          rw [ha] at hz
          injection hz with hz
          subst hz
          exact (ok_fields h ha).pred
    | named =>
      rw [hst] at hz
      simp only at hz ⊢
      have hnm : ∀ fd ∈ keptFields s.fields, fd.named = true := by
        intro fd hfd
        simp only [wellStyled, hst] at hw
        exact List.all_eq_true.1 hw fd (List.mem_filter.1 hfd).1
      cases hfl : (keptFields s.fields).filter (fun f => f.flatten) with
      | cons a l =>
        rw [hfl] at hz
        have := extendZ_broken (by simp) hz
        subst this
        intro v r hp
        cases k <;> cases hp
      | nil =>
        rw [hfl] at hz
        simp only [List.map_nil, extendZ, List.foldl_nil] at hz ⊢
        have e : (((keptFields s.fields).filter (fun f => !f.flatten)).map (SField.ofField false)).map
            (fun f => (f.name.getD [], sfieldZ rz f)) = ((keptFields s.fields).filter (fun f => !f.flatten)).map
              (fun f => (f.name, vfieldZ rz f)) := by
          rw [List.map_map]
          apply List.map_congr_left
          intro fd hfd
          have := hnm fd (List.mem_filter.1 hfd).1
          simp [SField.ofField, this, sfieldZ, vfieldZ]
        have e' : (((keptFields s.fields).filter (fun f => !f.flatten)).map (SField.ofField false)).map
            (sfieldP rd) = ((keptFields s.fields).filter (fun f => !f.flatten)).map (vfieldP rd) := by
          rw [List.map_map]
          apply List.map_congr_left
          intro fd hfd
          have := hnm fd (List.mem_filter.1 hfd).1
          simp [SField.ofField, this, sfieldP, vfieldP, sfieldD, vfieldD]
        rw [e] at hz
        rw [e']
        exact (ok_obj hz (ok_vprops (fun f hf => h f (List.mem_filter.1 hf).1)
          (fun f hf => hr htr hst f (List.mem_filter.1 hf).1))).pred

/-! ## All types -/

section
variable {P : Program}

/-- A reference to a declared type has the values of its definition. -/
theorem ok_ref (hg : GoodNames P) (hgt : GoodTypeNames P) (hw : WellStyled P) (hD : IsTsModule P D) {i : Nat}
    {d : Decl} (hd : P[i]? = some d) {z : ZSchema}
    (h : ∀ m s, eval P m .typeDef (.named i) = some s → Ok E D len k z (ofDnf (dOf P m .typeDef (.named i)))) :
    Ok E D len k z (.name [d.ns, d.name]) := by
  obtain ⟨s, ⟨m, hm⟩, e⟩ := hD i d hd
  rw [(eval_agreeT hg hgt hw m _ _ _ (Or.inl rfl) hm).read] at e
  exact fun v r hp => ⟨.ref _ _ _ _ e (h m s hm v r hp).1, .ref _ _ _ _ e (h m s hm v r hp).2⟩

/-- Built-in types. -/
theorem ok_builtin {n m : Nat} (hn : Claim P E D len (k + 1) n)
    (hE : EnvOk P E) (hw : WellStyled P) (hpl : ∀ d ∈ P, Plain d) {t : Ty} (hnm : isNamed t = false) {z : ZSchema}
    {s : Str} (hst : len = true ∨ Strict P t) (hz : zBody (zOf P n) P .schema t = some z)
    (hev : eval P (m + 1) .typeDef t = some s) : Ok E D len (k + 1) z (ofDnf (dOf P (m + 1) .typeDef t)) := by
  obtain ⟨ps, hb, h⟩ := eval_succ.1 hev
  cases t with
  | named i => cases hnm
  | prim p => exact ok_prim hz
  | wrap w u =>
    injection hb with hb; subst hb
    exact hn m .schema .typeDef u z s (Or.inl rfl) (hst.imp id fun h => by cases h with | wrap _ _ h => exact h) hz
      (runPieces_call_some.1 h)
  | option u =>
    injection hb with hb; subst hb
    obtain ⟨x, hx⟩ := runPieces_call_mem h (m := .typeDef) (t := u) (by simp)
    obtain ⟨y, hy, rfl⟩ := Option.map_eq_some_iff.1 hz
    exact (ok_opt (hn _ _ _ _ _ _ (Or.inl rfl) (hst.imp id fun h => by cases h with | option _ h => exact h) hy hx)).pred
  | vec u =>
    injection hb with hb; subst hb
    obtain ⟨x, hx⟩ := runPieces_call_mem h (m := .typeDef) (t := u) (by simp)
    obtain ⟨y, hy, rfl⟩ := Option.map_eq_some_iff.1 hz
    exact (ok_array (hn _ _ _ _ _ _ (Or.inl rfl) (hst.imp id fun h => by cases h with | vec _ h => exact h) hy hx)).pred
  | hashSet u =>
    injection hb with hb; subst hb
    obtain ⟨x, hx⟩ := runPieces_call_mem h (m := .typeDef) (t := u) (by simp)
    obtain ⟨y, hy, rfl⟩ := Option.map_eq_some_iff.1 hz
    exact (ok_set (hn _ _ _ _ _ _ (Or.inl rfl) (hst.imp id fun h => by cases h with | hashSet _ h => exact h) hy hx)).pred
  | hashMap a b =>
    injection hb with hb; subst hb
    obtain ⟨x, hx⟩ := runPieces_call_mem h (m := .typeDef) (t := a) (by simp)
    obtain ⟨x', hx'⟩ := runPieces_call_mem h (m := .typeDef) (t := b) (by simp)
    obtain ⟨y, hy, hz⟩ := Option.bind_eq_some_iff.1 hz
    obtain ⟨y', hy', hz⟩ := Option.bind_eq_some_iff.1 hz
    injection hz with hz
    subst hz
    exact (ok_map (hn _ _ _ _ _ _ (Or.inl rfl) (hst.imp id fun h => by cases h with | hashMap _ _ h _ => exact h) hy hx)
      (hn _ _ _ _ _ _ (Or.inl rfl) (hst.imp id fun h => by cases h with | hashMap _ _ _ h => exact h) hy' hx')).pred
  | array c u =>
    injection hb with hb; subst hb
    exact hn m .schema .typeDef (.vec u) z s (Or.inl rfl) (hst.imp id fun h => by cases h with | array _ _ h => exact .vec _ h) hz
      (runPieces_call_some.1 h)
  | btreeSet u =>
    injection hb with hb; subst hb
    exact hn m .schema .typeDef (.hashSet u) z s (Or.inl rfl) (hst.imp id fun h => by cases h with | btreeSet _ h => exact .hashSet _ h) hz
      (runPieces_call_some.1 h)
  | btreeMap a b =>
    injection hb with hb; subst hb
    exact hn m .schema .typeDef (.hashMap a b) z s (Or.inl rfl) (hst.imp id fun h => by cases h with | btreeMap _ _ h h' => exact .hashMap _ _ h h') hz
      (runPieces_call_some.1 h)
  | tuple ts =>
    injection hb with hb; subst hb
    obtain ⟨zs, hzs, rfl⟩ := Option.map_eq_some_iff.1 hz
    refine (ok_tuple (Ts := (ts.map (dOf P m .typeDef)).map ofDnf) ?_).pred
    have ha := allSome_all2 hzs
    have hall : ∀ t ∈ ts, ∀ z, zOf P n .schema t = some z → Ok E D len (k + 1) z (ofDnf (dOf P m .typeDef t)) := by
      intro t ht z hz
      obtain ⟨x, hx⟩ := runPieces_call_mem h (m := .typeDef) (t := t)
        (mem_wrap' (joinP_mem (List.mem_map.2 ⟨t, ht, rfl⟩) (List.mem_singleton.2 rfl)))
      exact hn _ _ _ _ _ _ (Or.inl rfl) (hst.imp id fun h => by cases h with | tuple _ h => exact h t ht) hz hx
    clear h hzs hz hst hev
    induction ha with
    | nil => exact .nil
    | cons h1 _ ih =>
      exact .cons (hall _ List.mem_cons_self _ h1) (ih rfl fun t ht => hall t (List.mem_cons_of_mem _ ht))
  | result u e =>
    injection hb with hb; subst hb
    obtain ⟨x, hx⟩ := runPieces_call_mem h (m := .typeDef) (t := u) (by simp)
    obtain ⟨x', hx'⟩ := runPieces_call_mem h (m := .typeDef) (t := e) (by simp)
    simp only [zBody] at hz
    have hok : ∀ (key : Str) (u : Ty) (x : Str), (len = true ∨ (Strict P u ∧ NeverUndef P u)) →
        eval P m .typeDef u = some x → ∀ a, objZ [(key, zOf P n .inlineSchema u)] = some a →
        Ok E D len (k + 1) a (.obj [(key, false, ofDnf (dOf P m .typeDef u))]) := by
      intro key u x hs hx a ha
      refine (ok_obj ha (.cons ⟨rfl, fun z hz => ⟨hn _ _ _ _ _ _ (Or.inl rfl) (hs.imp id And.left) hz hx, ?_⟩⟩ .nil)).pred
      exact Or.inr (hs.imp id fun h r => never_undef hE hw hpl h.2 _ _ _ _ r hz)
    cases ha : objZ [(lit "Ok", zOf P n .inlineSchema u)] with
    | none => rw [ha] at hz; cases hz
    | some a =>
      rw [ha] at hz
      cases hb : objZ [(lit "Err", zOf P n .inlineSchema e)] with
      | none => rw [hb] at hz; cases hz
      | some b =>
        rw [hb] at hz
        injection hz with hz
        subst hz
        have h1 := hok _ u x (hst.imp id fun h => by cases h with | result _ _ h _ h' _ => exact ⟨h, h'⟩) hx a ha
        have h2 := hok _ e x' (hst.imp id fun h => by cases h with | result _ _ _ h _ h' => exact ⟨h, h'⟩) hx' b hb
        intro v r hp
        obtain ⟨z, hm, hp'⟩ := parse_union hp
        clear hp
        have hl : ∀ T ∈ [TsType.obj [(lit "Ok", false, ofDnf (dOf P m .typeDef u))],
            TsType.obj [(lit "Err", false, ofDnf (dOf P m .typeDef e))]], ∀ v, Inhabits D len T v →
            Inhabits D len (ofDnf (dOf P (m + 1) .typeDef (.result u e))) v := fun T hT v hv => .union _ T _ hT hv
        rcases List.mem_cons.1 hm with rfl | hm
        · have := h1.pred v r hp'
          exact ⟨hl _ List.mem_cons_self _ this.1, hl _ List.mem_cons_self _ this.2⟩
        · rw [List.mem_singleton] at hm
          subst hm
          have := h2.pred v r hp'
          exact ⟨hl _ (List.mem_cons_of_mem _ List.mem_cons_self) _ this.1,
            hl _ (List.mem_cons_of_mem _ List.mem_cons_self) _ this.2⟩

theorem claim_step (hg : GoodNames P) (hgt : GoodTypeNames P) (hw : WellStyled P) (hpl : ∀ d ∈ P, Plain d)
    (hE : EnvOk P E) (hD : IsTsModule P D) (hs : len = true ∨ ∀ d ∈ P, StrictDecl P d) {n : Nat}
    (hk : ∀ n, Claim P E D len k n) (hn : Claim P E D len (k + 1) n) : Claim P E D len (k + 1) (n + 1) := by
  intro m mz mt t z s hmt hst hz hev
  cases hnm : isNamed t with
  | false =>
    rw [zOf] at hz
    cases m with
    | zero => cases hev
    | succ m =>
    have hz' : mz = .schema ∨ mz = .inlineSchema := by
      cases mz with
      | schema => exact Or.inl rfl
      | inlineSchema => exact Or.inr rfl
      | _ => cases t <;> first | (cases hnm; done) | (cases hz; done)
    rcases hz' with rfl | rfl
    · rcases hmt with rfl | rfl
      · exact ok_builtin hn hE hw hpl hnm hst hz hev
      · have e : eval P m .typeDef t = some s ∧ dOf P (m + 1) .inline t = dOf P m .typeDef t := by
          obtain ⟨ps, hb, h⟩ := eval_succ.1 hev
          cases t <;> first
            | (cases hnm; done)
            | (injection hb with hb; subst hb; exact ⟨runPieces_call_some.1 h, rfl⟩)
        rw [e.2]
        cases m with
        | zero => cases e.1
        | succ m => exact ok_builtin hn hE hw hpl hnm hst hz e.1
    · have e : zOf P n .schema t = some z := by cases t <;> first | (cases hnm; done) | exact hz
      exact hn _ _ _ _ _ _ hmt hst e hev
  | true =>
  cases m with
  | zero => cases hev
  | succ m =>
  rw [zOf] at hz
  cases t with
  | named i =>
    -- the definition of a declared type, for its schema
    have defn : ∀ z, zOf P (n + 1) .schema (.named i) = some z → ∀ d, P[i]? = some d → NoFrom d → ∀ m s,
        eval P m .typeDef (.named i) = some s → Ok E D len (k + 1) z (ofDnf (dOf P m .typeDef (.named i))) := by
      intro z hz d hd hnf m s hev
      cases m with
      | zero => cases hev
      | succ m =>
      rw [zOf, zBody_named P _ i hd] at hz
      rw [dOf, tBody_named P _ i hd]
      obtain ⟨ps, hb, hr⟩ := eval_succ.1 hev
      obtain ⟨d', impl, hd', hi, rfl⟩ := body_named hb
      rw [hd] at hd'
      injection hd' with hd'
      subst hd'
      have hmem := List.mem_of_getElem? hd
      have hwd := hw d hmem
      have hpd := hpl d hmem
      have hsd : len = true ∨ StrictDecl P d := hs.imp id fun h => h d hmem
      cases d with
      | struct sd =>
        obtain ⟨docs, sch, td, _, _, _, hs', e⟩ := deriveStruct_ok hi
        have hf : sd.from_.ty? = none := hnf
        rw [hf] at e
        subst e
        simp only [declD, declZ, hf] at hz ⊢
        have hcall : ∀ fd ∈ keptFields sd.fields, ∃ x, eval P m .inline fd.ty = some x := fun fd hfd =>
          runPieces_call_mem hr (structTypeDef_mem hpd hs' (List.mem_map.2 ⟨fd, hfd, rfl⟩))
        refine ok_struct hpd hwd (fun fd hfd z hz => ?_) (fun htr hsty fd hfd => ?_) hz
        · obtain ⟨x, hx⟩ := hcall fd hfd
          exact hn _ _ _ _ _ _ (Or.inr rfl) (hsd.imp id fun h => (h.2 fd hfd).1) hz hx
        · rcases hsd with h | h
          · exact Or.inr (Or.inl h)
          · rcases (h.2 fd hfd).2 (by rw [htr]; exact hsty) with h | h
            · exact Or.inl h
            · exact Or.inr (Or.inr fun z hz r => never_undef hE hw hpl h _ _ _ _ r hz)
      | enum ed =>
        obtain ⟨docs, sch, td, _, _, hs', e⟩ := deriveEnum_ok hi
        have hf : ed.from_.ty? = none := hnf
        rw [hf] at e
        subst e
        simp only [declD, declZ, hf] at hz ⊢
        have hcall : ∀ v ∈ ed.kept, ∀ fd ∈ keptFields v.fields, ∃ x, eval P m .inline fd.ty = some x := fun v hv fd hfd =>
          runPieces_call_mem hr (enumTypeDef_mem hpd hs' (List.mem_flatten.2
            ⟨_, List.mem_map.2 ⟨v, hv, rfl⟩, List.mem_map.2 ⟨fd, hfd, rfl⟩⟩))
        refine ok_enum (fun v hv z hz => ?_) hz
        have hvm := List.mem_filter.1 hv
        have hsv : len = true ∨ (StrictFields P v.style v.fields ∧ (ed.tag ≠ .untagged → v.style = .tuple →
            ∀ f, keptFields v.fields = [f] → f.dflt = false ∧ NeverUndef P f.ty)) :=
          hsd.imp id fun h => h.2 v hvm.1 (by simpa using hvm.2)
        refine ok_variant (fun fd hfd z hz => ?_) (fun hsty fd hfd => ?_) ?_ hz
        · obtain ⟨x, hx⟩ := hcall v hv fd hfd
          exact hn _ _ _ _ _ _ (Or.inr rfl) (hsv.imp id fun h => (h.1 fd hfd).1) hz hx
        · rcases hsv with h | h
          · exact Or.inr (Or.inl h)
          · rcases (h.1 fd hfd).2 hsty with h | h
            · exact Or.inl h
            · exact Or.inr (Or.inr fun z hz r => never_undef hE hw hpl h _ _ _ _ r hz)
        · refine hsv.imp id fun h ht hsty f hf => ?_
          obtain ⟨h1, h2⟩ := h.2 ht hsty f hf
          exact ⟨h1, fun z hz r => never_undef hE hw hpl h2 _ _ _ _ r hz⟩
    obtain ⟨d, hd, hz'⟩ := zBody_some hz
    have hmem := List.mem_of_getElem? hd
    have hsd : len = true ∨ StrictDecl P d := hs.imp id fun h => h d hmem
    -- a lazy reference is resolved by the environment
    have lazyCase : z = .lazy d.ns d.name → Ok E D len (k + 1) z (ofDnf (dOf P (m + 1) mt (.named i))) := by
      intro e
      subst e
      intro v r hp
      obtain ⟨z, hc, hp⟩ := parse_lazy hp
      obtain ⟨n', hz⟩ := hE i d z hd hc
      exact hk n' _ _ _ _ _ _ hmt hst hz hev v r hp
    obtain ⟨ps, hb, hr⟩ := eval_succ.1 hev
    obtain ⟨d', impl, hd', hi, rfl⟩ := body_named hb
    rw [hd] at hd'
    injection hd' with hd'
    subst hd'
    cases hfr : (Decl.from_ d).ty? with
    | some u =>
      have hsu : len = true ∨ Strict P u := hsd.imp id fun h => by
        cases d with
        | struct sd => exact h.1 u hfr
        | enum ed => exact h.1 u hfr
      cases d with
      | struct sd =>
        have hf : sd.from_.ty? = some u := hfr
        obtain ⟨docs, sch, td, _, _, _, _, e⟩ := deriveStruct_ok hi
        rw [hf] at e
        subst e
        rcases hz' with ⟨rfl, hz'⟩ | ⟨rfl, hz'⟩
        · simp only [declZ, hf] at hz'
          rw [dOf, tBody_named P _ i hd]
          rcases hmt with rfl | rfl
          · simp only [Impl.get, runPieces_call_some] at hr
            simp only [declD, hf]
            exact hn _ _ _ _ _ _ (Or.inr rfl) hsu hz' hr
          · simp only [Impl.get, runPieces_call_some] at hr
            simp only [declInlineD, hf]
            exact hn _ _ _ _ _ _ (Or.inr rfl) hsu hz' hr
        · simp only [declInlineZ, Option.some.injEq] at hz'
          exact lazyCase hz'.symm
      | enum ed =>
        have hf : ed.from_.ty? = some u := hfr
        obtain ⟨docs, sch, td, _, _, _, e⟩ := deriveEnum_ok hi
        rw [hf] at e
        subst e
        rw [dOf, tBody_named P _ i hd]
        rcases hz' with ⟨rfl, hz'⟩ | ⟨rfl, hz'⟩
        · simp only [declZ, hf] at hz'
          rcases hmt with rfl | rfl
          · simp only [Impl.get, runPieces_call_some] at hr
            simp only [declD, hf]
            exact hn _ _ _ _ _ _ (Or.inl rfl) hsu hz' hr
          · simp only [Impl.get, runPieces_call_some] at hr
            simp only [declInlineD, hf]
            exact hn _ _ _ _ _ _ (Or.inr rfl) hsu hz' hr
        · simp only [declInlineZ, hf] at hz'
          rcases hmt with rfl | rfl
          · simp only [Impl.get, runPieces_call_some] at hr
            simp only [declD, hf]
            exact hn _ _ _ _ _ _ (Or.inl rfl) hsu hz' hr
          · simp only [Impl.get, runPieces_call_some] at hr
            simp only [declInlineD, hf]
            exact hn _ _ _ _ _ _ (Or.inr rfl) hsu hz' hr
    | none =>
      have hnf : NoFrom d := by cases d <;> exact hfr
      rcases hz' with ⟨rfl, hz'⟩ | ⟨rfl, hz'⟩
      · rcases hmt with rfl | rfl
        · exact defn z hz d hd hnf _ _ hev
        · have hdd : ofDnf (dOf P (m + 1) .inline (.named i)) = .name [d.ns, d.name] := by
            rw [dOf, tBody_named P _ i hd]
            cases d with
            | struct sd => have hf : sd.from_.ty? = none := hnf; simp only [declInlineD, hf]; rfl
            | enum ed => have hf : ed.from_.ty? = none := hnf; simp only [declInlineD, hf]; rfl
          rw [hdd]
          exact ok_ref hg hgt hw hD hd (defn z hz d hd hnf)
      · refine lazyCase ?_
        cases d with
        | struct sd => simp only [declInlineZ, Option.some.injEq] at hz'; exact hz'.symm
        | enum ed =>
          have hf : ed.from_.ty? = none := hnf
          simp only [declInlineZ, hf, Option.some.injEq] at hz'; exact hz'.symm
  | _ => cases hnm

theorem claim (hg : GoodNames P) (hgt : GoodTypeNames P) (hw : WellStyled P) (hpl : ∀ d ∈ P, Plain d)
    (hE : EnvOk P E) (hD : IsTsModule P D) (hs : len = true ∨ ∀ d ∈ P, StrictDecl P d) :
    ∀ k n, Claim P E D len k n := by
  intro k
  induction k with
  | zero => intro n m mz mt t z s _ _ _ _; exact ok_zero
  | succ k ih =>
    intro n
    induction n with
    | zero => intro m mz mt t z s _ _ hz _; cases hz
    | succ n ihn => exact claim_step hg hgt hw hpl hE hD hs ih ihn

end

end Verif.Ts
