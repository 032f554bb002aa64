import Verif.Spec.Shuffle
import Verif.Schema.Bare

/-!
# Generation and the order of fields (proof helper)
-/

namespace Verif.Schema
open Verif Verif.Js Verif.SchemaSpec Verif.Spec Verif.Zod

/-- The calls of the second list are calls of the first. -/
def Fewer (ps ps' : List Piece) : Prop := ∀ m t, Piece.call m t ∈ ps' → Piece.call m t ∈ ps

theorem Fewer.refl (ps : List Piece) : Fewer ps ps := fun _ _ h => h

theorem fewer_append {a b c d : List Piece} (h : Fewer a b) (h' : Fewer c d) : Fewer (a ++ c) (b ++ d) := by
  intro m t hm
  rcases List.mem_append.1 hm with hm | hm
  · exact List.mem_append_left _ (h m t hm)
  · exact List.mem_append_right _ (h' m t hm)

theorem call_mem_join {sep : Str} {l : List (List Piece)} {m : Method} {t : Ty} {ps : List Piece} (hp : ps ∈ l) (h : Piece.call m t ∈ ps) :
    Piece.call m t ∈ joinP sep l := by
  induction l with
  | nil => cases hp
  | cons x r ih =>
    cases r with
    | nil =>
      rw [List.mem_singleton] at hp
      subst hp
      exact h
    | cons y r =>
      rw [joinP]
      simp only [List.append_assoc, List.mem_append, List.mem_singleton, reduceCtorEq, false_or]
      rcases List.mem_cons.1 hp with rfl | hp
      · exact .inl h
      · exact .inr (ih hp)

theorem fewer_join {sep : Str} {l l' : List (List Piece)} (h : ∀ ps' ∈ l', ∃ ps ∈ l, Fewer ps ps') : Fewer (joinP sep l) (joinP sep l') := by
  intro m t hm
  obtain ⟨ps', h1, h2⟩ := mem_joinP hm
  obtain ⟨ps, h3, h4⟩ := h ps' h1
  exact call_mem_join h3 (h4 m t h2)

theorem fewer_map {α : Type} {sep : Str} {f : α → List Piece} {l l' : List α} (h : l.Perm l') :
    Fewer (joinP sep (l.map f)) (joinP sep (l'.map f)) := by
  refine fewer_join (fun ps' hp => ?_)
  obtain ⟨a, ha, rfl⟩ := List.mem_map.1 hp
  exact ⟨_, List.mem_map.2 ⟨a, h.mem_iff.2 ha, rfl⟩, .refl _⟩

/-- The second succeeds if the first does, with fewer calls. -/
def Follows (x x' : Except DeriveErr (List Piece)) : Prop := ∀ ps, x = .ok ps → ∃ ps', x' = .ok ps' ∧ Fewer ps ps'

theorem Follows.refl (x : Except DeriveErr (List Piece)) : Follows x x := fun ps h => ⟨ps, h, .refl ps⟩

theorem follows_structSchema (s : StructDecl) {fs : List Field} (ht : s.transparent = false) (hs : s.style = .named) (hp : s.fields.Perm fs) :
    Follows (structSchema s) (structSchema { s with fields := fs }) := by
  have hp' : (structFields s).Perm (structFields { s with fields := fs }) := (hp.filter _).map _
  unfold structSchema
  simp only
  generalize structFields { s with fields := fs } = l' at hp' ⊢
  rw [ht, hs]
  intro ps h
  cases h
  exact ⟨_, rfl, fewer_append (fewer_append (fewer_append (.refl _) (fewer_map (hp'.filter _))) (.refl _)) (fewer_map (hp'.filter _))⟩

theorem follows_structTypeDef (s : StructDecl) {fs : List Field} (ht : s.transparent = false) (hs : s.style = .named) (hp : s.fields.Perm fs) :
    Follows (structTypeDef s) (structTypeDef { s with fields := fs }) := by
  have hp' : (structFields s).Perm (structFields { s with fields := fs }) := (hp.filter _).map _
  unfold structTypeDef
  simp only
  generalize structFields { s with fields := fs } = l' at hp' ⊢
  rw [ht, hs]
  intro ps h
  cases h
  exact ⟨_, rfl, fewer_append (fewer_append (fewer_append (.refl _) (fewer_map (hp'.filter _))) (.refl _)) (fewer_map (hp'.filter _))⟩

theorem follows_variantSchema (tag : Tag) {v v' : Variant} (h : ReorderedVariant v v') :
    Follows (variantSchema tag v) (variantSchema tag v') := by
  cases h with
  | same => exact .refl _
  | fields fs hs hp =>
    have hk : v.kept.Perm (Variant.kept { v with fields := fs }) := hp.filter _
    unfold variantSchema
    simp only [hs]
    unfold structVariantSchema
    generalize hl' : Variant.kept { v with fields := fs } = l' at hk
    have hl'' : Variant.kept { v with style := .named, fields := fs } = l' := hl'
    simp only [hl'']
    generalize v.kept = l at hk
    cases l with
    | nil => intro ps h; cases h
    | cons f r =>
      cases l' with
      | nil => exact absurd hk.symm.nil_eq nofun
      | cons f' r' =>
        intro ps h
        cases h
        refine ⟨_, rfl, ?_⟩
        cases tag <;> exact fewer_append (fewer_append (.refl _) (fewer_map hk)) (.refl _)

theorem follows_variantTypeDef (tag : Tag) {v v' : Variant} (h : ReorderedVariant v v') :
    Follows (variantTypeDef tag v) (variantTypeDef tag v') := by
  cases h with
  | same => exact .refl _
  | fields fs hs hp =>
    have hk : v.kept.Perm (Variant.kept { v with fields := fs }) := hp.filter _
    unfold variantTypeDef
    simp only [hs]
    unfold structVariantTypeDef
    generalize hl' : Variant.kept { v with fields := fs } = l' at hk
    have hl'' : Variant.kept { v with style := .named, fields := fs } = l' := hl'
    simp only [hl'']
    generalize v.kept = l at hk
    cases l with
    | nil => intro ps h; cases h
    | cons f r =>
      cases l' with
      | nil => exact absurd hk.symm.nil_eq nofun
      | cons f' r' =>
        intro ps h
        cases h
        refine ⟨_, rfl, ?_⟩
        cases tag <;> exact fewer_append (fewer_append (.refl _) (fewer_map hk)) (.refl _)

theorem follows_allOk {f : Variant → Except DeriveErr (List Piece)} (hf : ∀ v v', ReorderedVariant v v' → Follows (f v) (f v'))
    {l l' : List Variant} (h : All2 ReorderedVariant l l') {r : List (List Piece)} (hr : allOk (l.map f) = .ok r) :
    ∃ r', allOk (l'.map f) = .ok r' ∧ ∀ sep, Fewer (joinP sep r) (joinP sep r') := by
  have : ∃ r', allOk (l'.map f) = .ok r' ∧ ∀ ps' ∈ r', ∃ ps ∈ r, Fewer ps ps' := by
    induction h generalizing r with
    | nil => cases hr; exact ⟨[], rfl, fun _ h => by cases h⟩
    | @cons a b _ _ h _ ih =>
      rw [List.map_cons] at hr ⊢
      cases ha : f a with
      | error e => rw [ha] at hr; cases hr
      | ok ps =>
        obtain ⟨ps', hb, hps⟩ := hf a b h ps ha
        rw [ha, allOk] at hr
        rw [hb, allOk]
        split at hr
        · rename_i l1 hl1
          cases hr
          obtain ⟨r', e, hr'⟩ := ih hl1
          rw [e]
          refine ⟨_, rfl, fun q hq => ?_⟩
          rcases List.mem_cons.1 hq with rfl | hq
          · exact ⟨ps, List.mem_cons_self, hps⟩
          · obtain ⟨p, h1, h2⟩ := hr' q hq
            exact ⟨p, List.mem_cons_of_mem _ h1, h2⟩
        · cases hr
  obtain ⟨r', h1, h2⟩ := this
  exact ⟨r', h1, fun sep => fewer_join h2⟩

theorem kept_reordered {l l' : List Variant} (h : All2 ReorderedVariant l l') :
    All2 ReorderedVariant (l.filter (fun v => !v.skipDe)) (l'.filter (fun v => !v.skipDe)) := by
  induction h with
  | nil => exact .nil
  | @cons a b _ _ h _ ih =>
    have hs : b.skipDe = a.skipDe := by cases h <;> rfl
    rw [List.filter_cons, List.filter_cons, hs]
    cases a.skipDe
    · exact .cons h ih
    · exact ih

theorem follows_enumSchema (e : EnumDecl) {vs : List Variant} (h : All2 ReorderedVariant e.variants vs) :
    Follows (enumSchema e) (enumSchema { e with variants := vs }) := by
  have hk : All2 ReorderedVariant e.kept (EnumDecl.kept { e with variants := vs }) := kept_reordered h
  unfold enumSchema
  generalize EnumDecl.kept { e with variants := vs } = k' at hk ⊢
  generalize e.kept = k at hk ⊢
  match k, k', hk with
  | [], [], _ => exact .refl _
  | [v], [v'], .cons h _ => exact follows_variantSchema e.tag h
  | a :: b :: r, a' :: b' :: r', hk =>
    intro ps hps
    simp only at hps ⊢
    split at hps
    · cases hps
    · rename_i r1 hr1
      obtain ⟨r2, h2, h3⟩ := follows_allOk (fun _ _ => follows_variantSchema e.tag) hk hr1
      simp only [h2]
      cases hps
      refine ⟨_, rfl, ?_⟩
      cases e.tag <;> exact fewer_append (fewer_append (.refl _) (h3 _)) (.refl _)

theorem follows_enumTypeDef (e : EnumDecl) {vs : List Variant} (h : All2 ReorderedVariant e.variants vs) :
    Follows (enumTypeDef e) (enumTypeDef { e with variants := vs }) := by
  have hk : All2 ReorderedVariant e.kept (EnumDecl.kept { e with variants := vs }) := kept_reordered h
  unfold enumTypeDef
  generalize EnumDecl.kept { e with variants := vs } = k' at hk ⊢
  generalize e.kept = k at hk ⊢
  match k, k', hk with
  | [], [], _ => exact .refl _
  | [v], [v'], .cons h _ => exact follows_variantTypeDef e.tag h
  | a :: b :: r, a' :: b' :: r', hk =>
    intro ps hps
    simp only at hps ⊢
    split at hps
    · cases hps
    · rename_i r1 hr1
      obtain ⟨r2, h2, h3⟩ := follows_allOk (fun _ _ => follows_variantTypeDef e.tag) hk hr1
      simp only [h2]
      cases hps
      exact ⟨_, rfl, h3 _⟩

theorem allOk_perm {l l' : List (Except DeriveErr (List Piece))} (h : l.Perm l') : ∀ {r : List (List Piece)}, allOk l = .ok r →
    ∃ r', allOk l' = .ok r' ∧ r.Perm r' := by
  induction h with
  | nil => intro r h; exact ⟨r, h, .refl r⟩
  | cons x _ ih =>
    intro r h
    cases x with
    | error e => cases h
    | ok a =>
      rw [allOk] at h ⊢
      split at h
      · rename_i l1 hl1
        cases h
        obtain ⟨r', e, hp⟩ := ih hl1
        rw [e]
        exact ⟨_, rfl, hp.cons a⟩
      · cases h
  | swap x y l =>
    intro r h
    cases x with
    | error e => cases y <;> cases h
    | ok a =>
      cases y with
      | error e => cases h
      | ok b =>
        simp only [allOk] at h ⊢
        cases hl : allOk l with
        | error e => rw [hl] at h; cases h
        | ok l1 =>
          rw [hl] at h
          cases h
          exact ⟨_, rfl, .swap a b l1⟩
  | trans _ _ h1 h2 =>
    intro r h
    obtain ⟨r1, e1, p1⟩ := h1 h
    obtain ⟨r2, e2, p2⟩ := h2 e1
    exact ⟨r2, e2, p1.trans p2⟩

theorem fewer_join_perm {sep : Str} {l l' : List (List Piece)} (h : l.Perm l') : Fewer (joinP sep l) (joinP sep l') :=
  fewer_join (fun ps' hp => ⟨ps', h.mem_iff.2 hp, .refl _⟩)

theorem follows_enumSchema_perm (e : EnumDecl) {vs : List Variant} (h : e.variants.Perm vs) :
    Follows (enumSchema e) (enumSchema { e with variants := vs }) := by
  have hk : e.kept.Perm (EnumDecl.kept { e with variants := vs }) := h.filter _
  unfold enumSchema
  generalize EnumDecl.kept { e with variants := vs } = k' at hk ⊢
  generalize e.kept = k at hk ⊢
  match k, k', hk with
  | [], k', hk => intro ps h; cases h
  | [v], k', hk => obtain rfl := hk.symm.eq_singleton; exact .refl _
  | a :: b :: r, [], hk => exact absurd hk.length_eq (by simp)
  | a :: b :: r, [_], hk => exact absurd hk.length_eq (by simp)
  | a :: b :: r, a' :: b' :: r', hk =>
    intro ps hps
    simp only at hps ⊢
    split at hps
    · cases hps
    · rename_i r1 hr1
      obtain ⟨r2, h2, h3⟩ := allOk_perm (hk.map _) hr1
      simp only [h2]
      cases hps
      refine ⟨_, rfl, ?_⟩
      cases e.tag <;> exact fewer_append (fewer_append (.refl _) (fewer_join_perm h3)) (.refl _)

theorem follows_enumTypeDef_perm (e : EnumDecl) {vs : List Variant} (h : e.variants.Perm vs) :
    Follows (enumTypeDef e) (enumTypeDef { e with variants := vs }) := by
  have hk : e.kept.Perm (EnumDecl.kept { e with variants := vs }) := h.filter _
  unfold enumTypeDef
  generalize EnumDecl.kept { e with variants := vs } = k' at hk ⊢
  generalize e.kept = k at hk ⊢
  match k, k', hk with
  | [], k', hk => intro ps h; cases h
  | [v], k', hk => obtain rfl := hk.symm.eq_singleton; exact .refl _
  | a :: b :: r, [], hk => exact absurd hk.length_eq (by simp)
  | a :: b :: r, [_], hk => exact absurd hk.length_eq (by simp)
  | a :: b :: r, a' :: b' :: r', hk =>
    intro ps hps
    simp only at hps ⊢
    split at hps
    · cases hps
    · rename_i r1 hr1
      obtain ⟨r2, h2, h3⟩ := allOk_perm (hk.map _) hr1
      simp only [h2]
      cases hps
      exact ⟨_, rfl, fewer_join_perm h3⟩

theorem follows_deriveEnum (e : EnumDecl) (vs : List Variant) (h1 : Follows (enumSchema e) (enumSchema { e with variants := vs }))
    (h2 : Follows (enumTypeDef e) (enumTypeDef { e with variants := vs })) {impl : Impl} (hi : derive (.enum e) = .ok impl) :
    ∃ impl', derive (.enum { e with variants := vs }) = .ok impl' ∧ ∀ m, Fewer (impl.get m) (impl'.get m) := by
  simp only [derive, deriveEnum] at hi ⊢
  cases hd : Derive.docsText e.attrs with
  | none => rw [hd] at hi; cases hi
  | some docs =>
    simp only [hd] at hi ⊢
    split at hi
    · cases hi
    · rename_i p1 e1
      obtain ⟨q1, e1', f1⟩ := h1 _ e1
      split at hi
      · cases hi
      · rename_i p2 e2
        obtain ⟨q2, e2', f2⟩ := h2 _ e2
        simp only [e1', e2']
        cases hf : e.from_.ty? with
        | some t =>
          simp only [hf] at hi
          cases hi
          exact ⟨_, rfl, fun m => .refl _⟩
        | none =>
          simp only [hf] at hi
          cases hi
          refine ⟨_, rfl, fun m => ?_⟩
          cases m with
          | schema => exact f1
          | typeDef => exact f2
          | inlineSchema => exact .refl _
          | inline => exact .refl _

/-- The macro accepts the reordered declaration too; no method calls more. -/
theorem follows_derive {d d' : Decl} (h : ReorderedDecl d d') {impl : Impl} (hi : derive d = .ok impl) :
    ∃ impl', derive d' = .ok impl' ∧ ∀ m, Fewer (impl.get m) (impl'.get m) := by
  cases h with
  | same => exact ⟨impl, hi, fun m => .refl _⟩
  | struct s fs ht hs hp =>
    have h1 := follows_structSchema s ht hs hp
    have h2 := follows_structTypeDef s ht hs hp
    simp only [derive, deriveStruct] at hi ⊢
    cases hd : Derive.docsText s.attrs with
    | none => rw [hd] at hi; cases hi
    | some docs =>
      simp only [hd] at hi ⊢
      split at hi
      · cases hi
      · rename_i hu
        rw [if_neg hu]
        split at hi
        · cases hi
        · rename_i p1 e1
          obtain ⟨q1, e1', f1⟩ := h1 _ e1
          split at hi
          · cases hi
          · rename_i p2 e2
            obtain ⟨q2, e2', f2⟩ := h2 _ e2
            simp only [e1', e2']
            cases hf : s.from_.ty? with
            | some t =>
              simp only [hf] at hi
              cases hi
              exact ⟨_, rfl, fun m => .refl _⟩
            | none =>
              simp only [hf] at hi
              cases hi
              refine ⟨_, rfl, fun m => ?_⟩
              cases m with
              | schema => exact f1
              | typeDef => exact f2
              | inlineSchema => exact .refl _
              | inline => exact .refl _
  | enum e vs h => exact follows_deriveEnum e vs (follows_enumSchema e h) (follows_enumTypeDef e h) hi

/-- The same for variants in another order. -/
theorem follows_shuffled {T : Tag → Prop} {d d' : Decl} (h : ShuffledDecl T d d') {impl : Impl} (hi : derive d = .ok impl) :
    ∃ impl', derive d' = .ok impl' ∧ ∀ m, Fewer (impl.get m) (impl'.get m) := by
  cases h with
  | fields h => exact follows_derive h hi
  | variants e vs _ hp => exact follows_deriveEnum e vs (follows_enumSchema_perm e hp) (follows_enumTypeDef_perm e hp) hi

theorem shuffled_get {T : Tag → Prop} {P P' : Program} (h : ShuffledProgram T P P') {i : Nat} {d : Decl} (hd : P[i]? = some d) :
    ∃ d', P'[i]? = some d' ∧ ShuffledDecl T d d' := by
  unfold ShuffledProgram at h
  induction h generalizing i with
  | nil => simp at hd
  | @cons x y r r' h _ ih =>
    cases i with
    | zero => simp at hd; subst hd; exact ⟨y, rfl, h⟩
    | succ i => simp only [List.getElem?_cons_succ] at hd ⊢; exact ih hd

/-- What returns for a program returns for the reordered program. -/
theorem shuffled_returns {T : Tag → Prop} {P P' : Program} (hP : ShuffledProgram T P P') (n : Nat) :
    ∀ m t s, eval P n m t = some s → ∃ s', Returns P' m t s' := by
  induction n with
  | zero => intro m t s h; cases h
  | succ n ih =>
    intro m t s h
    obtain ⟨ps, hb, hr⟩ := eval_succ.1 h
    have calls : ∀ m' t', Piece.call m' t' ∈ ps → ∃ s', Returns P' m' t' s' := fun m' t' hm => by
      obtain ⟨x, hx⟩ := runPieces_call_mem hr hm
      exact ih m' t' x hx
    cases hn : isNamed t with
    | false =>
      refine returns_of_calls (m := m) (t := t) (ps := ps) ?_ calls
      rw [← hb]
      cases t with
      | named i => cases hn
      | _ => cases m <;> rfl
    | true =>
      cases t with
      | named i =>
        obtain ⟨d, impl, hd, hi, rfl⟩ := body_named hb
        obtain ⟨d', hd', hm⟩ := shuffled_get hP hd
        obtain ⟨impl', hi', hf⟩ := follows_shuffled hm hi
        exact returns_of_calls (body_named_eq hd' hi') (fun m' t' h => calls m' t' (hf m m' t' h))
      | _ => cases hn

end Verif.Schema
