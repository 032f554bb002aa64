import Verif.Schema.Steps

/-!
# Wrappers and look-alike collections (proof helper)
-/

namespace Verif.Schema
open Verif Verif.SchemaSpec

/-! ## Monotone composition of results -/

theorem returns_body {P : Program} {m : Method} {t : Ty} {s : Str} {ps : List Piece}
    (hb : body P m t = some ps) : Returns P m t s ↔ ∃ n, runPieces (eval P n) ps = some s := by
  constructor
  · rintro ⟨n, h⟩
    cases n with
    | zero => cases h
    | succ n =>
      obtain ⟨ps', hp, hr⟩ := eval_succ.1 h
      have e : ps' = ps := Option.some.inj (hp.symm.trans hb)
      exact ⟨n, e ▸ hr⟩
  · rintro ⟨n, h⟩
    exact ⟨n + 1, eval_succ.2 ⟨ps, hb, h⟩⟩

/-- Two texts with calls give the same results when their constant parts agree and their calls do. -/
inductive PieceSim (R : Method → Ty → Method → Ty → Prop) : List Piece → List Piece → Prop where
  | nil : PieceSim R [] []
  | txt (s : Str) {a b : List Piece} : PieceSim R a b → PieceSim R (.txt s :: a) (.txt s :: b)
  | call {m m' : Method} {t t' : Ty} {a b : List Piece} : R m t m' t' → PieceSim R a b →
      PieceSim R (.call m t :: a) (.call m' t' :: b)

theorem PieceSim.append {R : Method → Ty → Method → Ty → Prop} {a b a' b' : List Piece}
    (h : PieceSim R a b) (h' : PieceSim R a' b') : PieceSim R (a ++ a') (b ++ b') := by
  induction h with
  | nil => exact h'
  | txt s _ ih => exact .txt s ih
  | call r _ ih => exact .call r ih

theorem PieceSim.join {R : Method → Ty → Method → Ty → Prop} {sep : Str} {α : Type} {l : List α}
    {f g : α → List Piece} (h : ∀ a ∈ l, PieceSim R (f a) (g a)) :
    PieceSim R (joinP sep (l.map f)) (joinP sep (l.map g)) := by
  induction l with
  | nil => exact .nil
  | cons x r ih =>
    cases r with
    | nil => exact h x (by simp)
    | cons y r =>
      simp only [List.map_cons, joinP]
      refine PieceSim.append (PieceSim.append (h x (by simp)) (.txt sep .nil)) ?_
      exact ih (fun a ha => h a (List.mem_cons_of_mem _ ha))

theorem pieceSim_run {P Q : Program} {R : Method → Ty → Method → Ty → Prop} {n : Nat}
    (hR : ∀ m t m' t', R m t m' t' → ∀ s, eval P n m t = some s → Returns Q m' t' s)
    {a b : List Piece} (h : PieceSim R a b) {s : Str} (hs : runPieces (eval P n) a = some s) :
    ∃ k, runPieces (eval Q k) b = some s := by
  induction h generalizing s with
  | nil => exact ⟨0, hs⟩
  | txt u _ ih =>
    obtain ⟨y, hy, e⟩ := runPieces_txt_cons.1 hs
    obtain ⟨k, hk⟩ := ih hy
    exact ⟨k, runPieces_txt_cons.2 ⟨y, hk, e⟩⟩
  | call r _ ih =>
    obtain ⟨x, y, hx, hy, e⟩ := runPieces_call_cons.1 hs
    obtain ⟨k, hk⟩ := ih hy
    obtain ⟨k', hk'⟩ := hR _ _ _ _ r x hx
    refine ⟨max k k', runPieces_call_cons.2 ⟨x, y, eval_mono (Nat.le_max_right _ _) hk', ?_, e⟩⟩
    exact runPieces_congr (fun m t _ z hz => eval_mono (Nat.le_max_left _ _) hz) hk

/-- A simulation between calls: the bodies correspond, possibly after unfolding on either side. -/
theorem sim_returns {P Q : Program} {R : Method → Ty → Method → Ty → Prop}
    (hsim : ∀ m t m' t', R m t m' t' → ∀ ps, body P m t = some ps →
      (∃ qs, body Q m' t' = some qs ∧ PieceSim R ps qs) ∨
      (∃ m1 t1, ps = [.call m1 t1] ∧ R m1 t1 m' t') )
    {n : Nat} {m m' : Method} {t t' : Ty} (hR : R m t m' t') {s : Str}
    (h : eval P n m t = some s) : Returns Q m' t' s := by
  induction n generalizing m t m' t' s with
  | zero => cases h
  | succ n ih =>
    obtain ⟨ps, hp, hr⟩ := eval_succ.1 h
    rcases hsim m t m' t' hR ps hp with ⟨qs, hq, hs⟩ | ⟨m1, t1, e, hR'⟩
    · exact (returns_body hq).2 (pieceSim_run (fun m t m' t' r s hs => ih r hs) hs hr)
    · subst e
      exact ih hR' (runPieces_call_some.1 hr)

/-- Unfolding a body that is a single call. -/
theorem returns_single {P : Program} {m m' : Method} {t t' : Ty} (hb : body P m t = some [.call m' t'])
    {s : Str} : Returns P m t s ↔ Returns P m' t' s := by
  rw [returns_body hb]
  constructor
  · rintro ⟨n, h⟩; exact ⟨n, runPieces_call_some.1 h⟩
  · rintro ⟨n, h⟩; exact ⟨n, runPieces_call_some.2 h⟩

/-! ## Equality of calls up to results -/

/-- The two calls return the same texts. -/
def SameCall (P Q : Program) (m : Method) (t : Ty) (m' : Method) (t' : Ty) : Prop :=
  ∀ s, Returns P m t s ↔ Returns Q m' t' s

theorem sameCall_pieces {P Q : Program} {a b : List Piece} (h : PieceSim (SameCall P Q) a b) {s : Str} :
    (∃ n, runPieces (eval P n) a = some s) ↔ (∃ n, runPieces (eval Q n) b = some s) := by
  constructor
  · rintro ⟨n, hn⟩
    exact pieceSim_run (R := SameCall P Q) (fun m t m' t' r s hs => (r s).1 ⟨n, hs⟩) h hn
  · rintro ⟨n, hn⟩
    have h' : PieceSim (SameCall Q P) b a := by
      clear hn
      induction h with
      | nil => exact .nil
      | txt s _ ih => exact .txt s ih
      | call r _ ih => exact .call (fun s => (r s).symm) ih
    exact pieceSim_run (R := SameCall Q P) (fun m t m' t' r s hs => (r s).1 ⟨n, hs⟩) h' hn

theorem sameCall_body {P Q : Program} {m m' : Method} {t t' : Ty} {a b : List Piece}
    (ha : body P m t = some a) (hb : body Q m' t' = some b) (h : PieceSim (SameCall P Q) a b) :
    SameCall P Q m t m' t' := by
  intro s
  rw [returns_body ha, returns_body hb]
  exact sameCall_pieces h

theorem isNamed_default {P : Program} {t : Ty} (hn : isNamed t = false) :
    body P .inlineSchema t = some [.call .schema t] ∧ body P .inline t = some [.call .typeDef t] := by
  cases t <;> first | exact ⟨rfl, rfl⟩ | cases hn

/-! ## Wrappers -/

/-- Removing all wrappers keeps the TypeScript type, whatever the nesting. -/
theorem strip_typeDef (P : Program) (t : Ty) : SameCall P P .typeDef t .typeDef (strip t) := by
  match t with
  | .prim p => exact fun s => by rw [strip]
  | .named i => exact fun s => by rw [strip]
  | .wrap w t =>
    rw [strip]
    intro s
    rw [returns_single (m' := .typeDef) (t' := t) rfl]
    exact strip_typeDef P t s
  | .option t =>
    rw [strip]
    exact sameCall_body rfl rfl (.txt _ (.call (strip_typeDef P t) (.txt _ .nil)))
  | .vec t =>
    rw [strip]
    exact sameCall_body rfl rfl (.txt _ (.call (strip_typeDef P t) (.txt _ .nil)))
  | .hashSet t =>
    rw [strip]
    exact sameCall_body rfl rfl (.txt _ (.call (strip_typeDef P t) (.txt _ .nil)))
  | .array n t =>
    rw [strip]
    intro s
    rw [returns_single (m' := .typeDef) (t' := .vec t) rfl,
      returns_single (t := .array n (strip t)) (m' := .typeDef) (t' := .vec (strip t)) rfl]
    exact sameCall_body rfl rfl (.txt _ (.call (strip_typeDef P t) (.txt _ .nil))) s
  | .btreeSet t =>
    rw [strip]
    intro s
    rw [returns_single (m' := .typeDef) (t' := .hashSet t) rfl,
      returns_single (t := .btreeSet (strip t)) (m' := .typeDef) (t' := .hashSet (strip t)) rfl]
    exact sameCall_body rfl rfl (.txt _ (.call (strip_typeDef P t) (.txt _ .nil))) s
  | .hashMap k v =>
    rw [strip]
    exact sameCall_body rfl rfl
      (.txt _ (.call (strip_typeDef P k) (.txt _ (.call (strip_typeDef P v) (.txt _ .nil)))))
  | .btreeMap k v =>
    rw [strip]
    intro s
    rw [returns_single (m' := .typeDef) (t' := .hashMap k v) rfl,
      returns_single (t := .btreeMap (strip k) (strip v)) (m' := .typeDef) (t' := .hashMap (strip k) (strip v)) rfl]
    exact sameCall_body rfl rfl
      (.txt _ (.call (strip_typeDef P k) (.txt _ (.call (strip_typeDef P v) (.txt _ .nil))))) s
  | .tuple ts =>
    rw [strip]
    refine sameCall_body rfl rfl ?_
    rw [List.map_map]
    conv => arg 2; rw [← List.attach_map_subtype_val ts, List.map_map]
    refine PieceSim.append (PieceSim.append (.txt _ .nil) (PieceSim.join ?_)) (.txt _ .nil)
    rintro ⟨u, hu⟩ _
    exact .call (strip_typeDef P u) .nil
  | .result t e =>
    rw [strip]
    exact sameCall_body rfl rfl
      (.txt _ (.call (strip_typeDef P t) (.txt _ (.call (strip_typeDef P e) (.txt _ .nil)))))
termination_by t

theorem strip_isNamed {t : Ty} (h : wrapsNamed t = false) : isNamed (strip t) = isNamed t := by
  match t with
  | .wrap w t =>
    rw [strip]
    simp only [wrapsNamed, Bool.or_eq_false_iff] at h
    rw [strip_isNamed h.1, h.2]; rfl
  | .prim _ | .option _ | .vec _ | .array _ _ | .hashSet _ | .btreeSet _ | .hashMap _ _
  | .btreeMap _ _ | .tuple _ | .result _ _ | .named _ => simp [strip, isNamed]

theorem strip_inline (P : Program) {t : Ty} (hw : wrapsNamed t = false)
    (h : SameCall P P .schema t .schema (strip t)) :
    SameCall P P .inlineSchema t .inlineSchema (strip t) := by
  intro s
  cases hn : isNamed t with
  | true =>
    cases t with
    | named i => rw [strip]
    | _ => cases hn
  | false =>
    rw [returns_single (isNamed_default hn).1, h s,
      returns_single (isNamed_default (P := P) (by rw [strip_isNamed hw, hn])).1]

/-- Removing wrappers keeps the schema where no wrapper stands around a derived type. -/
theorem strip_schema (P : Program) {t : Ty} (h : NoWrappedRef t) :
    SameCall P P .schema t .schema (strip t) := by
  induction h with
  | prim p => exact fun s => by rw [strip]
  | named i => exact fun s => by rw [strip]
  | wrap w _ ih =>
    rw [strip]
    intro s
    rw [returns_single (P := P) (m := .schema) (m' := .schema) rfl]
    exact ih s
  | option hw _ ih =>
    rw [strip]
    exact sameCall_body rfl rfl (.call (strip_inline P hw ih) (.txt _ .nil))
  | vec hw _ ih =>
    rw [strip]
    exact sameCall_body rfl rfl (.txt _ (.call (strip_inline P hw ih) (.txt _ .nil)))
  | hashSet hw _ ih =>
    rw [strip]
    exact sameCall_body rfl rfl (.txt _ (.call (strip_inline P hw ih) (.txt _ .nil)))
  | array n hw _ ih =>
    rename_i t _
    rw [strip]
    intro s
    rw [returns_single (m' := .schema) (t' := .vec t) rfl,
      returns_single (t := .array n (strip t)) (m' := .schema) (t' := .vec (strip t)) rfl]
    exact sameCall_body rfl rfl (.txt _ (.call (strip_inline P hw ih) (.txt _ .nil))) s
  | btreeSet hw _ ih =>
    rename_i t _
    rw [strip]
    intro s
    rw [returns_single (m' := .schema) (t' := .hashSet t) rfl,
      returns_single (t := .btreeSet (strip t)) (m' := .schema) (t' := .hashSet (strip t)) rfl]
    exact sameCall_body rfl rfl (.txt _ (.call (strip_inline P hw ih) (.txt _ .nil))) s
  | hashMap hk hv _ _ ihk ihv =>
    rw [strip]
    exact sameCall_body rfl rfl
      (.txt _ (.call (strip_inline P hk ihk) (.txt _ (.call (strip_inline P hv ihv) (.txt _ .nil)))))
  | btreeMap hk hv _ _ ihk ihv =>
    rename_i k v _ _
    rw [strip]
    intro s
    rw [returns_single (m' := .schema) (t' := .hashMap k v) rfl,
      returns_single (t := .btreeMap (strip k) (strip v)) (m' := .schema) (t' := .hashMap (strip k) (strip v)) rfl]
    exact sameCall_body rfl rfl
      (.txt _ (.call (strip_inline P hk ihk) (.txt _ (.call (strip_inline P hv ihv) (.txt _ .nil))))) s
  | tuple _ ih =>
    rename_i ts _
    rw [strip]
    refine sameCall_body rfl rfl ?_
    rw [List.map_map]
    conv => arg 2; rw [← List.attach_map_subtype_val ts, List.map_map]
    refine PieceSim.append (PieceSim.append (.txt _ .nil) (PieceSim.join ?_)) (.txt _ .nil)
    rintro ⟨u, hu⟩ _
    exact .call (ih u hu) .nil
  | result hk hv _ _ ihk ihv =>
    rw [strip]
    exact sameCall_body rfl rfl
      (.txt _ (.call (strip_inline P hk ihk) (.txt _ (.call (strip_inline P hv ihv) (.txt _ .nil)))))

/-! ## Look-alike collections, in the whole program -/

/-- Changes the types a piece of text mentions. -/
def Piece.mapTy (f : Ty → Ty) : Piece → Piece
  | .txt s => .txt s
  | .call m t => .call m (f t)

/-- Changes the types of a kind. -/
def Kind.mapTy (f : Ty → Ty) : Kind → Kind
  | .same t => .same (f t)
  | k => k

/-- Changes the types of an implementation. -/
def Impl.mapTy (f : Ty → Ty) (i : Impl) : Impl where
  schema := i.schema.map (Piece.mapTy f)
  inlineSchema := i.inlineSchema.map (Piece.mapTy f)
  typeDef := i.typeDef.map (Piece.mapTy f)
  kind := Kind.mapTy f i.kind
  inline := i.inline.map (Piece.mapTy f)
  docs := i.docs

theorem joinP_mapTy (f : Ty → Ty) (sep : Str) (l : List (List Piece)) :
    (joinP sep l).map (Piece.mapTy f) = joinP sep (l.map (List.map (Piece.mapTy f))) := by
  induction l with
  | nil => rfl
  | cons x r ih =>
    cases r with
    | nil => rfl
    | cons y r =>
      simp only [joinP, List.map_append, List.map_cons, List.map_nil, Piece.mapTy]
      rw [ih]
      rfl

/-- Changes the type of a field. -/
def SField.mapTy (f : Ty → Ty) (x : SField) : SField := { x with ty := f x.ty }

theorem SField.schema_mapTy (f : Ty → Ty) (x : SField) :
    (SField.mapTy f x).schema = x.schema.map (Piece.mapTy f) := by
  unfold SField.schema SField.mapTy
  rcases x with ⟨n, t, o, tr, fl⟩
  cases fl <;> cases n <;> cases tr <;> rfl

theorem SField.typeDef_mapTy (f : Ty → Ty) (x : SField) :
    (SField.mapTy f x).typeDef = x.typeDef.map (Piece.mapTy f) := by
  unfold SField.typeDef SField.mapTy
  rcases x with ⟨n, t, o, tr, fl⟩
  cases fl <;> cases n <;> cases tr <;> cases o <;> rfl

theorem filter_mapTy {l : List Field} (f : Ty → Ty) :
    (l.map (Field.mapTy f)).filter (fun x => !x.skipDe) = (l.filter (fun x => !x.skipDe)).map (Field.mapTy f) := by
  induction l with
  | nil => rfl
  | cons x r ih =>
    simp only [List.map_cons, List.filter_cons, ih]
    cases h : x.skipDe <;> simp [Field.mapTy, h]

theorem filter_mapTyS {l : List SField} (f : Ty → Ty) (p : SField → Bool)
    (hp : ∀ x, p (SField.mapTy f x) = p x) :
    (l.map (SField.mapTy f)).filter p = (l.filter p).map (SField.mapTy f) := by
  induction l with
  | nil => rfl
  | cons x r ih =>
    simp only [List.map_cons, List.filter_cons, ih, hp]
    cases p x <;> simp

/-- Changes the types of a struct. -/
def StructDecl.mapTy (f : Ty → Ty) (s : StructDecl) : StructDecl :=
  { s with fields := s.fields.map (Field.mapTy f), from_ := From.mapTy f s.from_ }

theorem structFields_mapTy (f : Ty → Ty) (s : StructDecl) :
    structFields (StructDecl.mapTy f s) = (structFields s).map (SField.mapTy f) := by
  unfold structFields StructDecl.mapTy
  simp only [filter_mapTy, List.map_map]
  rfl

theorem dropWhile_mapTyS {l : List SField} (f : Ty → Ty) (p : SField → Bool)
    (hp : ∀ x, p (SField.mapTy f x) = p x) :
    (l.map (SField.mapTy f)).dropWhile p = (l.dropWhile p).map (SField.mapTy f) := by
  induction l with
  | nil => rfl
  | cons x r ih =>
    simp only [List.map_cons, List.dropWhile_cons, ih, hp]
    cases p x <;> simp

theorem badDefault_mapTy (f : Ty → Ty) (l : List SField) :
    (badDefault (l.map (SField.mapTy f))).isSome = (badDefault l).isSome := by
  unfold badDefault
  rw [dropWhile_mapTyS f _ (fun x => rfl)]
  induction l.dropWhile (fun f => !f.optional) with
  | nil => rfl
  | cons x r ih =>
    simp only [List.map_cons, List.find?_cons]
    cases h : x.optional <;> simp [SField.mapTy, h] at ih ⊢
    exact ih

theorem mapOk_ok {ε α β : Type} {f : α → β} {a : α} :
    Except.map f (Except.ok a : Except ε α) = Except.ok (f a) := rfl

theorem mapSchema_list (f : Ty → Ty) (l : List SField) :
    (l.map (SField.mapTy f)).map SField.schema = (l.map SField.schema).map (List.map (Piece.mapTy f)) := by
  simp [SField.schema_mapTy]

theorem mapTypeDef_list (f : Ty → Ty) (l : List SField) :
    (l.map (SField.mapTy f)).map SField.typeDef = (l.map SField.typeDef).map (List.map (Piece.mapTy f)) := by
  simp [SField.typeDef_mapTy]

theorem structSchema_mapTy (f : Ty → Ty) (s : StructDecl) :
    structSchema (StructDecl.mapTy f s) = (structSchema s).map (List.map (Piece.mapTy f)) := by
  have e1 := filter_mapTyS (l := structFields s) f (·.flatten) (fun x => rfl)
  have e2 := filter_mapTyS (l := structFields s) f (fun x => !x.flatten) (fun x => rfl)
  unfold structSchema
  simp only [structFields_mapTy, e1, e2]
  generalize (structFields s).filter (·.flatten) = flat
  generalize (structFields s).filter (fun x => !x.flatten) = fields
  have h1 : (StructDecl.mapTy f s).transparent = s.transparent := rfl
  have h2 : (StructDecl.mapTy f s).style = s.style := rfl
  rw [h1, h2]
  cases s.transparent <;> cases s.style <;> simp only
  · simp [mapOk_ok, joinP_mapTy, SField.schema_mapTy, Piece.mapTy, Function.comp_def]
  · match fields with
    | [] => rfl
    | [g] => simp [mapOk_ok, SField.schema_mapTy]
    | g :: g' :: r =>
      simp only [List.map_cons]
      have hb := badDefault_mapTy f (g :: g' :: r)
      simp only [List.map_cons] at hb
      rw [hb]
      cases (badDefault (g :: g' :: r)).isSome with
      | true => rfl
      | false => simp [mapOk_ok, joinP_mapTy, SField.schema_mapTy, Piece.mapTy, Function.comp_def]
  · rfl
  all_goals
    match fields with
    | [] => rfl
    | g :: r => simp [mapOk_ok, SField.schema_mapTy]

theorem structTypeDef_mapTy (f : Ty → Ty) (s : StructDecl) :
    structTypeDef (StructDecl.mapTy f s) = (structTypeDef s).map (List.map (Piece.mapTy f)) := by
  have e1 := filter_mapTyS (l := structFields s) f (·.flatten) (fun x => rfl)
  have e2 := filter_mapTyS (l := structFields s) f (fun x => !x.flatten) (fun x => rfl)
  unfold structTypeDef
  simp only [structFields_mapTy, e1, e2]
  generalize (structFields s).filter (·.flatten) = flat
  generalize (structFields s).filter (fun x => !x.flatten) = fields
  have h1 : (StructDecl.mapTy f s).transparent = s.transparent := rfl
  have h2 : (StructDecl.mapTy f s).style = s.style := rfl
  rw [h1, h2]
  cases s.transparent <;> cases s.style <;> simp only
  · simp [mapOk_ok, joinP_mapTy, SField.typeDef_mapTy, Piece.mapTy, Function.comp_def]
  · match fields with
    | [] => rfl
    | [g] => simp [mapOk_ok, SField.typeDef_mapTy]
    | g :: g' :: r => simp [mapOk_ok, joinP_mapTy, SField.typeDef_mapTy, Piece.mapTy, Function.comp_def]
  · rfl
  all_goals
    match fields with
    | [] => rfl
    | g :: r => simp [mapOk_ok, SField.typeDef_mapTy]

theorem variantFieldSchema_mapTy (f : Ty → Ty) (st : Style) (x : Field) :
    variantFieldSchema st (Field.mapTy f x) = (variantFieldSchema st x).map (Piece.mapTy f) := by
  cases st <;> rfl

theorem variantFieldTypeDef_mapTy (f : Ty → Ty) (st : Style) (x : Field) :
    variantFieldTypeDef st (Field.mapTy f x) = (variantFieldTypeDef st x).map (Piece.mapTy f) := by
  unfold variantFieldTypeDef
  rcases x with ⟨n, nm, ty, sk, df, fl, sn, ss, sin⟩
  cases st <;> cases df <;> rfl

/-- Changes the types of a variant. -/
def Variant.mapTy (f : Ty → Ty) (v : Variant) : Variant := { v with fields := v.fields.map (Field.mapTy f) }

theorem kept_mapTy (f : Ty → Ty) (v : Variant) : (Variant.mapTy f v).kept = v.kept.map (Field.mapTy f) := by
  unfold Variant.kept Variant.mapTy
  exact filter_mapTy f

theorem unitSchema_mapTy (f : Ty → Ty) (tag : Tag) (n : Str) :
    (unitSchema tag n).map (Piece.mapTy f) = unitSchema tag n := by cases tag <;> rfl

theorem unitTypeDef_mapTy (f : Ty → Ty) (tag : Tag) (n : Str) :
    (unitTypeDef tag n).map (Piece.mapTy f) = unitTypeDef tag n := by cases tag <;> rfl

theorem variantSchema_mapTy (f : Ty → Ty) (tag : Tag) (v : Variant) :
    variantSchema tag (Variant.mapTy f v) = (variantSchema tag v).map (List.map (Piece.mapTy f)) := by
  unfold variantSchema
  have h2 : (Variant.mapTy f v).style = v.style := rfl
  have h3 : (Variant.mapTy f v).name = v.name := rfl
  rw [h2]
  cases v.style <;> simp only
  · unfold structVariantSchema
    rw [kept_mapTy, h3]
    cases v.kept with
    | nil => rfl
    | cons g r =>
      cases tag <;>
        simp [mapOk_ok, joinP_mapTy, variantFieldSchema_mapTy, Piece.mapTy, Function.comp_def]
  · unfold tupleVariantSchema
    rw [kept_mapTy, h3]
    match v.kept with
    | [] => simp [mapOk_ok, unitSchema_mapTy]
    | [g] => cases tag <;> simp [mapOk_ok, variantFieldSchema_mapTy, Piece.mapTy]
    | g :: g' :: r =>
      cases tag <;>
        simp [mapOk_ok, joinP_mapTy, variantFieldSchema_mapTy, Piece.mapTy, Function.comp_def]
  · simp [mapOk_ok, unitSchema_mapTy, h3]

theorem variantTypeDef_mapTy (f : Ty → Ty) (tag : Tag) (v : Variant) :
    variantTypeDef tag (Variant.mapTy f v) = (variantTypeDef tag v).map (List.map (Piece.mapTy f)) := by
  unfold variantTypeDef
  have h2 : (Variant.mapTy f v).style = v.style := rfl
  have h3 : (Variant.mapTy f v).name = v.name := rfl
  rw [h2]
  cases v.style <;> simp only
  · unfold structVariantTypeDef
    rw [kept_mapTy, h3]
    cases v.kept with
    | nil => rfl
    | cons g r =>
      cases tag <;>
        simp [mapOk_ok, joinP_mapTy, variantFieldTypeDef_mapTy, Piece.mapTy, Function.comp_def]
  · unfold tupleVariantTypeDef
    rw [kept_mapTy, h3]
    match v.kept with
    | [] => simp [mapOk_ok, unitTypeDef_mapTy]
    | [g] => cases tag <;> simp [mapOk_ok, variantFieldTypeDef_mapTy, Piece.mapTy]
    | g :: g' :: r =>
      cases tag <;>
        simp [mapOk_ok, joinP_mapTy, variantFieldTypeDef_mapTy, Piece.mapTy, Function.comp_def]
  · simp [mapOk_ok, unitTypeDef_mapTy, h3]

/-- Changes the types of an enum. -/
def EnumDecl.mapTy (f : Ty → Ty) (e : EnumDecl) : EnumDecl :=
  { e with
      from_ := From.mapTy f e.from_
      variants := e.variants.map (Variant.mapTy f) }

theorem ekept_mapTy (f : Ty → Ty) (e : EnumDecl) :
    (EnumDecl.mapTy f e).kept = e.kept.map (Variant.mapTy f) := by
  unfold EnumDecl.kept EnumDecl.mapTy
  simp only
  induction e.variants with
  | nil => rfl
  | cons x r ih =>
    simp only [List.map_cons, List.filter_cons, ih]
    cases h : x.skipDe <;> simp [Variant.mapTy, h]

theorem allOk_map {α β : Type} (g : α → β) (l : List (Except DeriveErr α)) :
    allOk (l.map (Except.map g)) = (allOk l).map (List.map g) := by
  induction l with
  | nil => rfl
  | cons x r ih =>
    cases x with
    | error e => rfl
    | ok a =>
      simp only [List.map_cons, mapOk_ok, allOk, ih]
      cases allOk r <;> rfl

theorem enumSchema_mapTy (f : Ty → Ty) (e : EnumDecl) :
    enumSchema (EnumDecl.mapTy f e) = (enumSchema e).map (List.map (Piece.mapTy f)) := by
  unfold enumSchema
  rw [ekept_mapTy]
  have ht : (EnumDecl.mapTy f e).tag = e.tag := rfl
  rw [ht]
  match e.kept with
  | [] => rfl
  | [v] => exact variantSchema_mapTy f e.tag v
  | v :: v' :: r =>
    have hl : ((v :: v' :: r).map (Variant.mapTy f)).map (variantSchema e.tag) =
        ((v :: v' :: r).map (variantSchema e.tag)).map (Except.map (List.map (Piece.mapTy f))) := by
      simp [variantSchema_mapTy]
    simp only [List.map_cons] at hl ⊢
    rw [hl]
    have := allOk_map (List.map (Piece.mapTy f)) ((v :: v' :: r).map (variantSchema e.tag))
    simp only [List.map_cons] at this
    rw [this]
    cases allOk (variantSchema e.tag v :: variantSchema e.tag v' :: r.map (variantSchema e.tag)) with
    | error err => rfl
    | ok schemas => cases e.tag <;> simp [mapOk_ok, joinP_mapTy, Piece.mapTy]

theorem enumTypeDef_mapTy (f : Ty → Ty) (e : EnumDecl) :
    enumTypeDef (EnumDecl.mapTy f e) = (enumTypeDef e).map (List.map (Piece.mapTy f)) := by
  unfold enumTypeDef
  rw [ekept_mapTy]
  have ht : (EnumDecl.mapTy f e).tag = e.tag := rfl
  rw [ht]
  match e.kept with
  | [] => rfl
  | [v] => exact variantTypeDef_mapTy f e.tag v
  | v :: v' :: r =>
    have hl : ((v :: v' :: r).map (Variant.mapTy f)).map (variantTypeDef e.tag) =
        ((v :: v' :: r).map (variantTypeDef e.tag)).map (Except.map (List.map (Piece.mapTy f))) := by
      simp [variantTypeDef_mapTy]
    simp only [List.map_cons] at hl ⊢
    rw [hl]
    have := allOk_map (List.map (Piece.mapTy f)) ((v :: v' :: r).map (variantTypeDef e.tag))
    simp only [List.map_cons] at this
    rw [this]
    cases allOk (variantTypeDef e.tag v :: variantTypeDef e.tag v' :: r.map (variantTypeDef e.tag)) with
    | error err => rfl
    | ok schemas => simp [mapOk_ok, joinP_mapTy]

theorem fromTy_mapTy (f : Ty → Ty) (x : From) : (From.mapTy f x).ty? = x.ty?.map f := by
  cases x <;> rfl

/-- Deriving commutes with replacing types. -/
theorem derive_mapTy (f : Ty → Ty) (d : Decl) :
    derive (Decl.mapTy f d) = (derive d).map (Impl.mapTy f) := by
  cases d with
  | struct s =>
    show deriveStruct (StructDecl.mapTy f s) = (deriveStruct s).map (Impl.mapTy f)
    unfold deriveStruct
    have h1 : (StructDecl.mapTy f s).attrs = s.attrs := rfl
    have h2 : (StructDecl.mapTy f s).style = s.style := rfl
    have h3 : (StructDecl.mapTy f s).from_.ty? = s.from_.ty?.map f := fromTy_mapTy f s.from_
    have h4 : (StructDecl.mapTy f s).ns = s.ns := rfl
    have h5 : (StructDecl.mapTy f s).name = s.name := rfl
    have h6 : structKind (StructDecl.mapTy f s) = Kind.mapTy f (structKind s) := by
      unfold structKind
      rw [structFields_mapTy, List.length_map, h2]
      have h7 : (StructDecl.mapTy f s).transparent = s.transparent := rfl
      rw [h7]
      cases decide ((structFields s).length = 1) <;> cases s.style <;> cases s.transparent <;> rfl
    rw [h1, h2, h3, h4, h5, h6, structSchema_mapTy, structTypeDef_mapTy]
    cases Derive.docsText s.attrs with
    | none => rfl
    | some docs =>
      simp only
      split
      · rfl
      · cases structSchema s with
        | error e => rfl
        | ok sch =>
          cases structTypeDef s with
          | error e => rfl
          | ok td =>
            cases s.from_.ty? <;> rfl
  | enum s =>
    show deriveEnum (EnumDecl.mapTy f s) = (deriveEnum s).map (Impl.mapTy f)
    unfold deriveEnum
    have h1 : (EnumDecl.mapTy f s).attrs = s.attrs := rfl
    have h3 : (EnumDecl.mapTy f s).from_.ty? = s.from_.ty?.map f := fromTy_mapTy f s.from_
    have h4 : (EnumDecl.mapTy f s).ns = s.ns := rfl
    have h5 : (EnumDecl.mapTy f s).name = s.name := rfl
    rw [h1, h3, h4, h5, enumSchema_mapTy, enumTypeDef_mapTy]
    cases Derive.docsText s.attrs with
    | none => rfl
    | some docs =>
      cases enumSchema s with
      | error e => rfl
      | ok sch =>
        cases enumTypeDef s with
        | error e => rfl
        | ok td =>
          cases s.from_.ty? <;> rfl

theorem body_named_mapTy (f : Ty → Ty) (P : Program) (m : Method) (i : Nat) :
    body (P.map (Decl.mapTy f)) m (.named i) = (body P m (.named i)).map (List.map (Piece.mapTy f)) := by
  simp only [body, List.getElem?_map]
  cases P[i]? with
  | none => rfl
  | some d =>
    simp only [Option.map_some, derive_mapTy]
    cases derive d with
    | error e => rfl
    | ok impl => cases m <;> rfl

theorem unshadow_tuple (ts : List Ty) : unshadow (.tuple ts) = .tuple (ts.map unshadow) := by
  rw [unshadow]
  congr 1
  conv => rhs; rw [← List.attach_map_subtype_val ts, List.map_map]
  rfl

/-- Corresponding calls before and after replacing look-alike collections. -/
def UnshadowRel (m : Method) (t : Ty) (m' : Method) (t' : Ty) : Prop := m' = m ∧ t' = unshadow t

theorem pieceSim_map {f : Ty → Ty} {R : Method → Ty → Method → Ty → Prop} (h : ∀ m t, R m t m (f t))
    (ps : List Piece) : PieceSim R ps (ps.map (Piece.mapTy f)) := by
  induction ps with
  | nil => exact .nil
  | cons p ps ih =>
    cases p with
    | txt s => exact .txt s ih
    | call m t => exact .call (h m t) ih

theorem pieceSim_map' {f : Ty → Ty} {R : Method → Ty → Method → Ty → Prop} (h : ∀ m t, R m (f t) m t)
    (ps : List Piece) : PieceSim R (ps.map (Piece.mapTy f)) ps := by
  induction ps with
  | nil => exact .nil
  | cons p ps ih =>
    cases p with
    | txt s => exact .txt s ih
    | call m t => exact .call (h m t) ih

theorem unshadow_isNamed (t : Ty) : isNamed (unshadow t) = isNamed t := by
  cases t <;> simp [unshadow, isNamed]

theorem unshadow_fwd {P : Program} {n : Nat} {m : Method} {t : Ty} {s : Str}
    (h : eval P n m t = some s) : Returns (P.map (Decl.mapTy unshadow)) m (unshadow t) s := by
  refine sim_returns (R := UnshadowRel) ?_ ⟨rfl, rfl⟩ h
  rintro m t m' t' ⟨rfl, rfl⟩ ps hb
  have hr : ∀ m t, UnshadowRel m t m (unshadow t) := fun m t => ⟨rfl, rfl⟩
  cases hn : isNamed t with
  | true =>
    cases t with
    | named i =>
      left
      rw [unshadow, body_named_mapTy, hb]
      exact ⟨_, rfl, pieceSim_map hr ps⟩
    | _ => cases hn
  | false =>
    have hn' : isNamed (unshadow t) = false := by rw [unshadow_isNamed, hn]
    cases m' with
    | inlineSchema =>
      left
      rw [(isNamed_default hn).1] at hb
      cases hb
      exact ⟨_, (isNamed_default hn').1, .call (hr _ _) .nil⟩
    | inline =>
      left
      rw [(isNamed_default hn).2] at hb
      cases hb
      exact ⟨_, (isNamed_default hn').2, .call (hr _ _) .nil⟩
    | schema =>
      cases t with
      | named i => cases hn
      | array k t => cases hb; right; exact ⟨_, _, rfl, rfl, by simp [unshadow]⟩
      | btreeSet t => cases hb; right; exact ⟨_, _, rfl, rfl, by simp [unshadow]⟩
      | btreeMap k v => cases hb; right; exact ⟨_, _, rfl, rfl, by simp [unshadow]⟩
      | tuple ts =>
        cases hb; left
        rw [unshadow_tuple]
        refine ⟨_, rfl, ?_⟩
        rw [List.map_map]
        refine PieceSim.append (PieceSim.append (.txt _ .nil) (PieceSim.join ?_)) (.txt _ .nil)
        intro u _
        exact .call (hr _ _) .nil
      | prim p => cases hb; left; rw [unshadow]; exact ⟨_, rfl, .txt _ .nil⟩
      | wrap w t => cases hb; left; rw [unshadow]; exact ⟨_, rfl, .call (hr _ _) .nil⟩
      | option t => cases hb; left; rw [unshadow]; exact ⟨_, rfl, .call (hr _ _) (.txt _ .nil)⟩
      | vec t => cases hb; left; rw [unshadow]; exact ⟨_, rfl, .txt _ (.call (hr _ _) (.txt _ .nil))⟩
      | hashSet t => cases hb; left; rw [unshadow]; exact ⟨_, rfl, .txt _ (.call (hr _ _) (.txt _ .nil))⟩
      | hashMap k v =>
        cases hb; left; rw [unshadow]
        exact ⟨_, rfl, .txt _ (.call (hr _ _) (.txt _ (.call (hr _ _) (.txt _ .nil))))⟩
      | result t e =>
        cases hb; left; rw [unshadow]
        exact ⟨_, rfl, .txt _ (.call (hr _ _) (.txt _ (.call (hr _ _) (.txt _ .nil))))⟩
    | typeDef =>
      cases t with
      | named i => cases hn
      | array k t => cases hb; right; exact ⟨_, _, rfl, rfl, by simp [unshadow]⟩
      | btreeSet t => cases hb; right; exact ⟨_, _, rfl, rfl, by simp [unshadow]⟩
      | btreeMap k v => cases hb; right; exact ⟨_, _, rfl, rfl, by simp [unshadow]⟩
      | tuple ts =>
        cases hb; left
        rw [unshadow_tuple]
        refine ⟨_, rfl, ?_⟩
        rw [List.map_map]
        refine PieceSim.append (PieceSim.append (.txt _ .nil) (PieceSim.join ?_)) (.txt _ .nil)
        intro u _
        exact .call (hr _ _) .nil
      | prim p => cases hb; left; rw [unshadow]; exact ⟨_, rfl, .txt _ .nil⟩
      | wrap w t => cases hb; left; rw [unshadow]; exact ⟨_, rfl, .call (hr _ _) .nil⟩
      | option t => cases hb; left; rw [unshadow]; exact ⟨_, rfl, .txt _ (.call (hr _ _) (.txt _ .nil))⟩
      | vec t => cases hb; left; rw [unshadow]; exact ⟨_, rfl, .txt _ (.call (hr _ _) (.txt _ .nil))⟩
      | hashSet t => cases hb; left; rw [unshadow]; exact ⟨_, rfl, .txt _ (.call (hr _ _) (.txt _ .nil))⟩
      | hashMap k v =>
        cases hb; left; rw [unshadow]
        exact ⟨_, rfl, .txt _ (.call (hr _ _) (.txt _ (.call (hr _ _) (.txt _ .nil))))⟩
      | result t e =>
        cases hb; left; rw [unshadow]
        exact ⟨_, rfl, .txt _ (.call (hr _ _) (.txt _ (.call (hr _ _) (.txt _ .nil))))⟩

theorem unshadow_bwd {P : Program} {n : Nat} {m : Method} {t : Ty} {s : Str}
    (h : eval (P.map (Decl.mapTy unshadow)) n m (unshadow t) = some s) : Returns P m t s := by
  induction n generalizing m t s with
  | zero => cases h
  | succ n ih =>
    obtain ⟨qs, hb, hr⟩ := eval_succ.1 h
    let R : Method → Ty → Method → Ty → Prop := fun m t m' t' => m = m' ∧ t = unshadow t'
    have hR : ∀ m t, R m (unshadow t) m t := fun m t => ⟨rfl, rfl⟩
    have step : ∀ m' t', ∀ ps, body P m' t' = some ps → PieceSim R qs ps → Returns P m' t' s := by
      intro m' t' ps hp hs
      refine (returns_body hp).2 (pieceSim_run (R := R) ?_ hs hr)
      rintro m1 t1 m2 t2 ⟨rfl, rfl⟩ s' hs'
      exact ih hs'
    cases hn : isNamed t with
    | true =>
      cases t with
      | named i =>
        rw [unshadow, body_named_mapTy] at hb
        cases hp : body P m (.named i) with
        | none => rw [hp] at hb; cases hb
        | some ps =>
          rw [hp] at hb
          cases hb
          exact step m (.named i) ps hp (pieceSim_map' hR ps)
      | _ => cases hn
    | false =>
      have hn' : isNamed (unshadow t) = false := by rw [unshadow_isNamed, hn]
      cases m with
      | inlineSchema =>
        rw [(isNamed_default hn').1] at hb
        cases hb
        exact step _ _ _ (isNamed_default hn).1 (.call (hR _ _) .nil)
      | inline =>
        rw [(isNamed_default hn').2] at hb
        cases hb
        exact step _ _ _ (isNamed_default hn).2 (.call (hR _ _) .nil)
      | schema =>
        cases t with
        | named i => cases hn
        | array k t =>
          rw [returns_single (m' := .schema) (t' := .vec t) rfl]
          rw [unshadow] at hb; cases hb; exact step _ _ _ rfl (.txt _ (.call (hR _ _) (.txt _ .nil)))
        | btreeSet t =>
          rw [returns_single (m' := .schema) (t' := .hashSet t) rfl]
          rw [unshadow] at hb; cases hb; exact step _ _ _ rfl (.txt _ (.call (hR _ _) (.txt _ .nil)))
        | btreeMap k v =>
          rw [returns_single (m' := .schema) (t' := .hashMap k v) rfl]
          rw [unshadow] at hb; cases hb
          exact step _ _ _ rfl (.txt _ (.call (hR _ _) (.txt _ (.call (hR _ _) (.txt _ .nil)))))
        | tuple ts =>
          rw [unshadow_tuple] at hb; cases hb
          refine step _ _ _ rfl ?_
          rw [List.map_map]
          refine PieceSim.append (PieceSim.append (.txt _ .nil) (PieceSim.join ?_)) (.txt _ .nil)
          intro u _
          exact .call (hR _ _) .nil
        | prim p => rw [unshadow] at hb; cases hb; exact step _ _ _ rfl (.txt _ .nil)
        | wrap w t => rw [unshadow] at hb; cases hb; exact step _ _ _ rfl (.call (hR _ _) .nil)
        | option t => rw [unshadow] at hb; cases hb; exact step _ _ _ rfl (.call (hR _ _) (.txt _ .nil))
        | vec t => rw [unshadow] at hb; cases hb; exact step _ _ _ rfl (.txt _ (.call (hR _ _) (.txt _ .nil)))
        | hashSet t =>
          rw [unshadow] at hb; cases hb; exact step _ _ _ rfl (.txt _ (.call (hR _ _) (.txt _ .nil)))
        | hashMap k v =>
          rw [unshadow] at hb; cases hb
          exact step _ _ _ rfl (.txt _ (.call (hR _ _) (.txt _ (.call (hR _ _) (.txt _ .nil)))))
        | result t e =>
          rw [unshadow] at hb; cases hb
          exact step _ _ _ rfl (.txt _ (.call (hR _ _) (.txt _ (.call (hR _ _) (.txt _ .nil)))))
      | typeDef =>
        cases t with
        | named i => cases hn
        | array k t =>
          rw [returns_single (m' := .typeDef) (t' := .vec t) rfl]
          rw [unshadow] at hb; cases hb; exact step _ _ _ rfl (.txt _ (.call (hR _ _) (.txt _ .nil)))
        | btreeSet t =>
          rw [returns_single (m' := .typeDef) (t' := .hashSet t) rfl]
          rw [unshadow] at hb; cases hb; exact step _ _ _ rfl (.txt _ (.call (hR _ _) (.txt _ .nil)))
        | btreeMap k v =>
          rw [returns_single (m' := .typeDef) (t' := .hashMap k v) rfl]
          rw [unshadow] at hb; cases hb
          exact step _ _ _ rfl (.txt _ (.call (hR _ _) (.txt _ (.call (hR _ _) (.txt _ .nil)))))
        | tuple ts =>
          rw [unshadow_tuple] at hb; cases hb
          refine step _ _ _ rfl ?_
          rw [List.map_map]
          refine PieceSim.append (PieceSim.append (.txt _ .nil) (PieceSim.join ?_)) (.txt _ .nil)
          intro u _
          exact .call (hR _ _) .nil
        | prim p => rw [unshadow] at hb; cases hb; exact step _ _ _ rfl (.txt _ .nil)
        | wrap w t => rw [unshadow] at hb; cases hb; exact step _ _ _ rfl (.call (hR _ _) .nil)
        | option t =>
          rw [unshadow] at hb; cases hb; exact step _ _ _ rfl (.txt _ (.call (hR _ _) (.txt _ .nil)))
        | vec t => rw [unshadow] at hb; cases hb; exact step _ _ _ rfl (.txt _ (.call (hR _ _) (.txt _ .nil)))
        | hashSet t =>
          rw [unshadow] at hb; cases hb; exact step _ _ _ rfl (.txt _ (.call (hR _ _) (.txt _ .nil)))
        | hashMap k v =>
          rw [unshadow] at hb; cases hb
          exact step _ _ _ rfl (.txt _ (.call (hR _ _) (.txt _ (.call (hR _ _) (.txt _ .nil)))))
        | result t e =>
          rw [unshadow] at hb; cases hb
          exact step _ _ _ rfl (.txt _ (.call (hR _ _) (.txt _ (.call (hR _ _) (.txt _ .nil)))))

end Verif.Schema
