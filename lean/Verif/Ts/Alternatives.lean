import Verif.Ts.Means
import Verif.Zod.Unwrap

/-!
# Without wrappers, no type has more alternatives (proof helper)
-/

namespace Verif.Ts
open Verif Verif.Js Verif.Schema Verif.Spec Verif.SchemaSpec Verif.Zod

theorem and_len (d e : Dnf) : (andDnf d e).length = if d.length = 0 ∨ e.length = 0 then 0 else d.length + e.length - 1 := by
  cases d with
  | nil => simp [andDnf]
  | cons x d =>
    cases e with
    | nil => simp [andDnf]
    | cons c r => simp [andDnf]; omega

theorem and_le {d e d' e' : Dnf} (h : d'.length ≤ d.length) (h' : e'.length ≤ e.length) :
    (andDnf d' e').length ≤ (andDnf d e).length := by
  rw [and_len, and_len]
  split
  · omega
  · split <;> omega

theorem foldl_le {l l' : List Dnf} (hs : All2 (fun a b : Dnf => b.length ≤ a.length) l l') : ∀ {d d' : Dnf}, d'.length ≤ d.length →
    (l'.foldl andDnf d').length ≤ (l.foldl andDnf d).length := by
  induction hs with
  | nil => exact id
  | cons h1 _ ih => exact fun h => ih (and_le h h1)

theorem flatten_le {l l' : List Dnf} (hs : All2 (fun a b : Dnf => b.length ≤ a.length) l l') : l'.flatten.length ≤ l.flatten.length := by
  induction hs with
  | nil => exact Nat.le_refl _
  | cons h1 _ ih => simp only [List.flatten_cons, List.length_append]; omega

theorem opt_le (b : Bool) {d d' : Dnf} (h : d'.length ≤ d.length) : (optD b d').length ≤ (optD b d).length := by
  cases b
  · exact h
  · simp only [optD, if_true, List.length_append]; omega

theorem all2_maps {α β γ δ : Type} {R : γ → δ → Prop} {f : α → γ} {g : β → δ} {k : α → β} {l : List α} (h : ∀ a ∈ l, R (f a) (g (k a))) :
    All2 R (l.map f) ((l.map k).map g) := by
  induction l with
  | nil => exact .nil
  | cons a l ih => exact .cons (h a List.mem_cons_self) (ih (fun b hb => h b (List.mem_cons_of_mem _ hb)))

section
variable {g g' : Method → Ty → Dnf}

/-- No more alternatives for the type where it is used. -/
abbrev Fewer (g g' : Method → Ty → Dnf) (u : Ty) : Prop := (g' .inline (strip u)).length ≤ (g .inline u).length

theorem structD_le {s : StructDecl} (H : ∀ f ∈ structFields s, Fewer g g' f.ty) :
    (structD g' (StructDecl.mapTy strip s)).length ≤ (structD g s).length := by
  unfold structD
  simp only [structFields_mapTy]
  rw [filter_mapTyS strip (·.flatten) (fun _ => rfl), filter_mapTyS strip (fun f => !f.flatten) (fun _ => rfl)]
  have e1 : (StructDecl.mapTy strip s).transparent = s.transparent := rfl
  have e2 : (StructDecl.mapTy strip s).style = s.style := rfl
  rw [e1, e2]
  have hs : ∀ f ∈ (structFields s).filter (fun f => !f.flatten), (sfieldD g' (SField.mapTy strip f)).length ≤ (sfieldD g f).length :=
    fun f hf => opt_le f.optional (H f (List.mem_filter.1 hf).1)
  have hfl : ∀ f ∈ (structFields s).filter (fun f => f.flatten), (flatD g' (SField.mapTy strip f)).length ≤ (flatD g f).length := by
    intro f hf
    have := H f (List.mem_filter.1 hf).1
    have e : (SField.mapTy strip f).optional = f.optional := rfl
    unfold flatD
    rw [e]
    cases f.optional
    · exact this
    · exact Nat.le_refl _
  generalize (structFields s).filter (fun f => !f.flatten) = fields at *
  generalize (structFields s).filter (fun f => f.flatten) = flat at *
  cases s.transparent with
  | true =>
    cases fields with
    | nil => exact Nat.le_refl _
    | cons f r => exact hs f List.mem_cons_self
  | false =>
    cases s.style with
    | unit => exact Nat.le_refl _
    | tuple =>
      match fields with
      | [] => exact Nat.le_refl _
      | [f] => exact hs f List.mem_cons_self
      | _ :: _ :: _ => exact Nat.le_refl _
    | named => exact foldl_le (all2_maps hfl) (Nat.le_refl _)

theorem enumD_le {e : EnumDecl} (H : ∀ v ∈ e.kept, ∀ f ∈ v.kept, Fewer g g' f.ty) :
    (enumD g' (EnumDecl.mapTy strip e)).length ≤ (enumD g e).length := by
  unfold enumD
  rw [ekept_mapTy]
  refine flatten_le (all2_maps (fun v hv => ?_))
  have hk : (Variant.mapTy strip v).kept = v.kept.map (Field.mapTy strip) := kept_mapTy strip v
  have et : (EnumDecl.mapTy strip e).tag = e.tag := rfl
  have es : (Variant.mapTy strip v).style = v.style := rfl
  rw [et]
  unfold variantD
  rw [es]
  have H := H v hv
  cases v.style with
  | unit => exact Nat.le_refl _
  | named => cases e.tag <;> exact Nat.le_refl _
  | tuple =>
    simp only
    unfold tupleVariantD
    rw [hk]
    generalize v.kept = fs at *
    match fs with
    | [] => exact Nat.le_refl _
    | f :: fs =>
      cases e.tag with
      | untagged =>
        match fs with
        | [] => exact opt_le f.dflt (H f List.mem_cons_self)
        | _ :: _ => exact Nat.le_refl _
      | _ => exact Nat.le_refl _

end

variable {P : Program}

theorem inline_other {n : Nat} {t : Ty} (hn : isNamed t = false) : dOf P (n + 1) .inline t = dOf P n .typeDef t := by
  cases t with
  | named i => cases hn
  | _ => rfl

theorem eval_inline_other {n : Nat} {t : Ty} (hn : isNamed t = false) {s : Str} (h : eval P (n + 1) .inline t = some s) :
    eval P n .typeDef t = some s := by
  obtain ⟨ps, hb, hr⟩ := eval_succ.1 h
  have : body P .inline t = some [.call .typeDef t] := by
    cases t with
    | named i => cases hn
    | _ => rfl
  rw [this] at hb
  cases hb
  simpa [runPieces_call_some] using hr

theorem alternatives_bare (hg : GoodNames P) (hgt : GoodTypeNames P) (hw : WellStyled P) (hpl : ∀ d ∈ P, Plain d) (n : Nat) :
    (∀ m t s, isT m → eval P n m t = some s → ∀ n', (dOf (bare P) n' m (strip t)).length ≤ (dOf P n m t).length) ∧
    (∀ t s, eval P n .typeDef t = some s → ∀ n', (dOf (bare P) n' .inline (strip t)).length ≤ (dOf P n .typeDef t).length) := by
  induction n with
  | zero => exact ⟨fun m t s _ h => (by cases h), fun t s h => (by cases h)⟩
  | succ n ih =>
    obtain ⟨ih1, ih2⟩ := ih
    -- declarations, written out
    have hdecl : ∀ i d, P[i]? = some d → ∀ s, eval P (n + 1) .typeDef (.named i) = some s → ∀ n',
        (declD (dOf (bare P) n') (Decl.mapTy strip d)).length ≤ (declD (dOf P n) d).length := by
      intro i d hd s h n'
      obtain ⟨ps, hb, hr⟩ := eval_succ.1 h
      obtain ⟨d', impl, hd', hi, rfl⟩ := body_named hb
      rw [hd] at hd'
      cases hd'
      have hpl := hpl d (List.mem_of_getElem? hd)
      cases d with
      | struct sd =>
        obtain ⟨docs, sch, td, _, _, _, hs, e⟩ := deriveStruct_ok hi
        have ef : (StructDecl.mapTy strip sd).from_.ty? = sd.from_.ty?.map strip := from_mapTy strip sd.from_
        show (declD _ (.struct (StructDecl.mapTy strip sd))).length ≤ _
        simp only [declD, ef]
        cases hf : sd.from_.ty? with
        | some u =>
          rw [hf] at e; subst e
          simp only [Impl.get, runPieces_call_some] at hr
          exact ih1 _ _ _ (.inr rfl) hr n'
        | none =>
          rw [hf] at e; subst e
          refine structD_le (fun f hf => ?_)
          obtain ⟨fd, hfd, rfl⟩ := List.mem_map.1 hf
          obtain ⟨x, hx⟩ := runPieces_call_mem hr (structTypeDef_mem hpl hs (List.mem_map.2 ⟨fd, hfd, rfl⟩))
          exact ih1 _ _ _ (.inr rfl) hx n'
      | enum ed =>
        obtain ⟨docs, sch, td, _, _, hs, e⟩ := deriveEnum_ok hi
        have ef : (EnumDecl.mapTy strip ed).from_.ty? = ed.from_.ty?.map strip := from_mapTy strip ed.from_
        show (declD _ (.enum (EnumDecl.mapTy strip ed))).length ≤ _
        simp only [declD, ef]
        cases hf : ed.from_.ty? with
        | some u =>
          rw [hf] at e; subst e
          simp only [Impl.get, runPieces_call_some] at hr
          exact ih1 _ _ _ (.inl rfl) hr n'
        | none =>
          rw [hf] at e; subst e
          refine enumD_le (fun v hv f hf => ?_)
          obtain ⟨x, hx⟩ := runPieces_call_mem hr (enumTypeDef_mem hpl hs (List.mem_flatten.2
            ⟨_, List.mem_map.2 ⟨v, hv, rfl⟩, List.mem_map.2 ⟨f, hf, rfl⟩⟩))
          exact ih1 _ _ _ (.inr rfl) hx n'
    -- a reference has one alternative
    have href : ∀ i d, P[i]? = some d → ∀ s, eval P (n + 1) .typeDef (.named i) = some s → ∀ n',
        (declInlineD (dOf (bare P) n') (Decl.mapTy strip d)).length ≤ (dOf P (n + 1) .typeDef (.named i)).length := by
      intro i d hd s h n'
      have hne := (eval_agreeT hg hgt hw (n + 1) .typeDef (.named i) s (.inl rfl) h).1
      have hpos : 1 ≤ (dOf P (n + 1) .typeDef (.named i)).length := by
        cases hx : dOf P (n + 1) .typeDef (.named i) with
        | nil => exact absurd hx hne
        | cons a b => simp
      have hD : dOf P (n + 1) .typeDef (.named i) = declD (dOf P n) d := tBody_named P .typeDef i hd
      obtain ⟨ps, hb, hr⟩ := eval_succ.1 h
      obtain ⟨d', impl, hd', hi, rfl⟩ := body_named hb
      rw [hd] at hd'
      cases hd'
      cases d with
      | struct sd =>
        obtain ⟨docs, sch, td, _, _, _, hs, e⟩ := deriveStruct_ok hi
        have ef : (StructDecl.mapTy strip sd).from_.ty? = sd.from_.ty?.map strip := from_mapTy strip sd.from_
        show (declInlineD _ (.struct (StructDecl.mapTy strip sd))).length ≤ _
        rw [hD] at hpos ⊢
        simp only [declD, declInlineD, ef] at hpos ⊢
        cases hf : sd.from_.ty? with
        | some u =>
          rw [hf] at e; subst e
          simp only [Impl.get, runPieces_call_some] at hr
          exact ih1 _ _ _ (.inr rfl) hr n'
        | none => rw [hf] at hpos; exact hpos
      | enum ed =>
        obtain ⟨docs, sch, td, _, _, hs, e⟩ := deriveEnum_ok hi
        have ef : (EnumDecl.mapTy strip ed).from_.ty? = ed.from_.ty?.map strip := from_mapTy strip ed.from_
        show (declInlineD _ (.enum (EnumDecl.mapTy strip ed))).length ≤ _
        rw [hD] at hpos ⊢
        simp only [declD, declInlineD, ef] at hpos ⊢
        cases hf : ed.from_.ty? with
        | some u =>
          rw [hf] at e; subst e
          simp only [Impl.get, runPieces_call_some] at hr
          exact ih2 _ _ hr n'
        | none => rw [hf] at hpos; exact hpos
    -- other types, written out
    have hother : ∀ t s, isNamed t = false → eval P (n + 1) .typeDef t = some s → ∀ n',
        (dOf (bare P) n' .typeDef (strip t)).length ≤ (dOf P (n + 1) .typeDef t).length ∧
        (dOf (bare P) n' .inline (strip t)).length ≤ (dOf P (n + 1) .typeDef t).length := by
      intro t s hn h n'
      obtain ⟨ps, hb, hr⟩ := eval_succ.1 h
      have hstep : ∀ u, isNamed u = false → (∀ k, (dOf (bare P) k .typeDef u).length ≤ (dOf P (n + 1) .typeDef t).length) →
          (dOf (bare P) n' .typeDef u).length ≤ (dOf P (n + 1) .typeDef t).length ∧
          (dOf (bare P) n' .inline u).length ≤ (dOf P (n + 1) .typeDef t).length := by
        intro u hu hk
        refine ⟨hk n', ?_⟩
        cases n' with
        | zero => exact Nat.zero_le _
        | succ k => rw [inline_other hu]; exact hk k
      cases t with
      | named i => cases hn
      | wrap w u =>
        cases hb
        rw [runPieces_call_some] at hr
        rw [strip]
        exact ⟨ih1 _ _ _ (.inl rfl) hr n', ih2 _ _ hr n'⟩
      | array k u =>
        cases hb
        rw [runPieces_call_some] at hr
        have := ih1 _ _ _ (.inl rfl) hr
        simp only [strip] at this ⊢
        refine hstep _ rfl (fun k => ?_)
        cases k with
        | zero => exact Nat.zero_le _
        | succ k => exact this k
      | btreeSet u =>
        cases hb
        rw [runPieces_call_some] at hr
        have := ih1 _ _ _ (.inl rfl) hr
        simp only [strip] at this ⊢
        refine hstep _ rfl (fun k => ?_)
        cases k with
        | zero => exact Nat.zero_le _
        | succ k => exact this k
      | btreeMap u v =>
        cases hb
        rw [runPieces_call_some] at hr
        have := ih1 _ _ _ (.inl rfl) hr
        simp only [strip] at this ⊢
        refine hstep _ rfl (fun k => ?_)
        cases k with
        | zero => exact Nat.zero_le _
        | succ k => exact this k
      | tuple ts =>
        rw [strip_tuple]
        refine hstep _ rfl (fun k => ?_)
        cases k with
        | zero => exact Nat.zero_le _
        | succ k => exact Nat.le_refl _
      | _ =>
        rw [strip]
        refine hstep _ rfl (fun k => ?_)
        cases k with
        | zero => exact Nat.zero_le _
        | succ k => exact Nat.le_refl _
    refine ⟨fun m t s hm h n' => ?_, fun t s h n' => ?_⟩
    · cases hn : isNamed t with
      | false =>
        rcases hm with rfl | rfl
        · exact (hother t s hn h n').1
        · have h := eval_inline_other hn h
          rw [inline_other hn]
          exact ih2 t s h n'
      | true =>
        cases t with
        | named i =>
          cases n' with
          | zero => exact Nat.zero_le _
          | succ k =>
            obtain ⟨ps, hb, hr⟩ := eval_succ.1 h
            obtain ⟨d, impl, hd, hi, rfl⟩ := body_named hb
            rw [strip]
            show (tBody _ _ _ _).length ≤ (tBody _ _ _ _).length
            rw [tBody_named _ m i hd, tBody_named _ m i (bare_get hd)]
            rcases hm with rfl | rfl
            · exact hdecl i d hd s h k
            · cases d with
              | struct sd =>
                obtain ⟨docs, sch, td, _, _, _, hs, e⟩ := deriveStruct_ok hi
                have ef : (StructDecl.mapTy strip sd).from_.ty? = sd.from_.ty?.map strip := from_mapTy strip sd.from_
                show (declInlineD _ (.struct (StructDecl.mapTy strip sd))).length ≤ _
                simp only [declInlineD, ef]
                cases hf : sd.from_.ty? with
                | some u =>
                  rw [hf] at e; subst e
                  simp only [Impl.get, runPieces_call_some] at hr
                  exact ih1 _ _ _ (.inr rfl) hr k
                | none => exact Nat.le_refl _
              | enum ed =>
                obtain ⟨docs, sch, td, _, _, hs, e⟩ := deriveEnum_ok hi
                have ef : (EnumDecl.mapTy strip ed).from_.ty? = ed.from_.ty?.map strip := from_mapTy strip ed.from_
                show (declInlineD _ (.enum (EnumDecl.mapTy strip ed))).length ≤ _
                simp only [declInlineD, ef]
                cases hf : ed.from_.ty? with
                | some u =>
                  rw [hf] at e; subst e
                  simp only [Impl.get, runPieces_call_some] at hr
                  exact ih1 _ _ _ (.inr rfl) hr k
                | none => exact Nat.le_refl _
        | _ => cases hn
    · cases hn : isNamed t with
      | false => exact (hother t s hn h n').2
      | true =>
        cases t with
        | named i =>
          cases n' with
          | zero => exact Nat.zero_le _
          | succ k =>
            obtain ⟨ps, hb, hr⟩ := eval_succ.1 h
            obtain ⟨d, impl, hd, hi, rfl⟩ := body_named hb
            rw [strip]
            have e : dOf (bare P) (k + 1) .inline (.named i) = declInlineD (dOf (bare P) k) (Decl.mapTy strip d) :=
              tBody_named _ .inline i (bare_get hd)
            rw [e]
            exact href i d hd s h k
        | _ => cases hn

end Verif.Ts
