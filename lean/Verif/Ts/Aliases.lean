import Verif.Zod.StandsFor
import Verif.Ts.Values
import Verif.Schema.Steps

/-!
# TypeScript types of types that are the same up to aliases (proof helper)
-/

namespace Verif.Ts
open Verif Verif.Js Verif.Schema Verif.SchemaSpec Verif.Spec Verif.Zod

variable {P : Program} {D : TsEnv} {ln : Bool}

/-- What the text of the method is read as. -/
def Tys (P : Program) (m : Method) (t : Ty) (T : TsType) : Prop := ∃ s, Returns P m t s ∧ readType s = some T

theorem Tys.unique {m : Method} {t : Ty} {T U : TsType} (h : Tys P m t T) (h' : Tys P m t U) : T = U := by
  obtain ⟨s, hs, hz⟩ := h
  obtain ⟨s', hs', hz'⟩ := h'
  rw [returns_unique hs hs', hz'] at hz
  exact (Option.some.inj hz).symm

/-- One unfolding. -/
theorem Tys.inv (hg : GoodNames P) (hgt : GoodTypeNames P) (hw : WellStyled P) {t : Ty} {T : TsType}
    (h : Tys P .typeDef t T) : ∃ n ps, body P .typeDef t = some ps ∧ T = ofDnf (tBody (dOf P n) P .typeDef t) ∧
      ∀ t', Piece.call .typeDef t' ∈ ps → Tys P .typeDef t' (ofDnf (dOf P n .typeDef t')) := by
  obtain ⟨s, ⟨n, hn⟩, hz⟩ := h
  cases n with
  | zero => cases hn
  | succ n =>
    have hr := (eval_agreeT hg hgt hw (n + 1) .typeDef t s (.inl rfl) hn).read
    rw [hz] at hr
    obtain ⟨ps, hb, hrun⟩ := eval_succ.1 hn
    refine ⟨n, ps, hb, Option.some.inj hr, fun t' hc => ?_⟩
    obtain ⟨x, hx⟩ := runPieces_call_mem hrun hc
    exact ⟨x, ⟨n, hx⟩, (eval_agreeT hg hgt hw n .typeDef t' x (.inl rfl) hx).read⟩

/-- What is referred to has a type. -/
theorem Tys.referred (hg : GoodNames P) (hgt : GoodTypeNames P) (hw : WellStyled P) (hD : IsTsModule P D) {t : Ty} {T : TsType}
    (h : Tys P .inline t T) : ∃ U, Tys P .typeDef t U ∧ ∀ v, Inhabits D ln U v ↔ Inhabits D ln T v := by
  obtain ⟨s, ⟨n, hn⟩, hz⟩ := h
  by_cases hi : ∃ i, t = .named i
  · obtain ⟨i, rfl⟩ := hi
    cases n with
    | zero => cases hn
    | succ n =>
      obtain ⟨ps, hb, hrun⟩ := eval_succ.1 hn
      rw [body] at hb
      cases hd : P[i]? with
      | none => rw [hd] at hb; cases hb
      | some d =>
        obtain ⟨s0, hs0, hc⟩ := hD i d hd
        obtain ⟨k, hk⟩ := hs0
        have h0 := (eval_agreeT hg hgt hw k .typeDef _ s0 (.inl rfl) hk).read
        exact ⟨_, ⟨s0, ⟨k, hk⟩, h0⟩, inline_sameT hg hgt hw hD (n + 1) _ s0 s _ T ⟨k, hk⟩ hn h0 hz⟩
  · have hb1 : body P .inline t = some [.call .typeDef t] := by
      cases t <;> first | rfl | exact absurd ⟨_, rfl⟩ hi
    exact ⟨T, ⟨s, (returns_single hb1).1 ⟨n, hn⟩, hz⟩, fun _ => .rfl⟩

theorem mem_tupleT {ts : List Ty} {t : Ty} (h : t ∈ ts) : Piece.call .typeDef t ∈ [Piece.txt (lit "[")] ++
    joinP (lit ", ") (ts.map (fun t => [.call .typeDef t])) ++ [.txt (lit "]")] := by
  refine List.mem_append_left _ (List.mem_append_right _ ?_)
  exact joinP_mem (List.mem_map.2 ⟨t, h, rfl⟩) List.mem_cons_self

/-- Types that are the same up to aliases have TypeScript types with the same values. -/
theorem aliases_sameT (hv : ∀ d ∈ P, ∃ impl, derive d = .ok impl) (hg : GoodNames P) (hgt : GoodTypeNames P) (hw : WellStyled P)
    (hD : IsTsModule P D) {t u : Ty} (h : UpToAliases P t u) :
    ∀ T U, Tys P .typeDef t T → Tys P .typeDef u U → ∀ v, Inhabits D ln T v ↔ Inhabits D ln U v := by
  have alias : ∀ {i : Nat} {t : Ty} {T : TsType}, StandsFor P i t → Tys P .typeDef (.named i) T →
      ∃ U, Tys P .typeDef t U ∧ ∀ v, Inhabits D ln U v ↔ Inhabits D ln T v := by
    rintro i t T hs ⟨s, hr, hz⟩
    rcases (standsFor_texts hw hv hs).2 with hx | hx
    · exact Tys.referred hg hgt hw hD ⟨s, hx s hr, hz⟩
    · exact ⟨T, ⟨s, hx s hr, hz⟩, fun _ => .rfl⟩
  have single : ∀ {t t' : Ty} {T : TsType}, body P .typeDef t = some [.call .typeDef t'] → Tys P .typeDef t T → Tys P .typeDef t' T := by
    rintro t t' T hb ⟨s, hr, hz⟩
    exact ⟨s, (returns_single hb).1 hr, hz⟩
  have vec : ∀ {t u : Ty}, (∀ T U, Tys P .typeDef t T → Tys P .typeDef u U → ∀ v, Inhabits D ln T v ↔ Inhabits D ln U v) →
      ∀ T U, Tys P .typeDef (.vec t) T → Tys P .typeDef (.vec u) U → ∀ v, Inhabits D ln T v ↔ Inhabits D ln U v := by
    intro t u ih T U hT hU v
    obtain ⟨n, ps, hb, rfl, hc⟩ := hT.inv hg hgt hw
    obtain ⟨n', ps', hb', rfl, hc'⟩ := hU.inv hg hgt hw
    cases hb
    cases hb'
    have := ih _ _ (hc _ (by simp)) (hc' _ (by simp))
    show Inhabits D ln (.app [lit "Array"] [_]) v ↔ Inhabits D ln (.app [lit "Array"] [_]) v
    simp only [inhabits_array, this]
  have set : ∀ {t u : Ty}, (∀ T U, Tys P .typeDef t T → Tys P .typeDef u U → ∀ v, Inhabits D ln T v ↔ Inhabits D ln U v) →
      ∀ T U, Tys P .typeDef (.hashSet t) T → Tys P .typeDef (.hashSet u) U → ∀ v, Inhabits D ln T v ↔ Inhabits D ln U v := by
    intro t u ih T U hT hU v
    obtain ⟨n, ps, hb, rfl, hc⟩ := hT.inv hg hgt hw
    obtain ⟨n', ps', hb', rfl, hc'⟩ := hU.inv hg hgt hw
    cases hb
    cases hb'
    have := ih _ _ (hc _ (by simp)) (hc' _ (by simp))
    show Inhabits D ln (.app [lit "Set"] [_]) v ↔ Inhabits D ln (.app [lit "Set"] [_]) v
    simp only [inhabits_set, this]
  have map : ∀ {k t u : Ty}, (∀ T U, Tys P .typeDef t T → Tys P .typeDef u U → ∀ v, Inhabits D ln T v ↔ Inhabits D ln U v) →
      ∀ T U, Tys P .typeDef (.hashMap k t) T → Tys P .typeDef (.hashMap k u) U → ∀ v, Inhabits D ln T v ↔ Inhabits D ln U v := by
    intro k t u ih T U hT hU v
    obtain ⟨n, ps, hb, rfl, hc⟩ := hT.inv hg hgt hw
    obtain ⟨n', ps', hb', rfl, hc'⟩ := hU.inv hg hgt hw
    cases hb
    cases hb'
    have hk := (hc k (by simp)).unique (hc' k (by simp))
    have := ih _ _ (hc t (by simp)) (hc' u (by simp))
    show Inhabits D ln (.app [lit "Map"] [_, _]) v ↔ Inhabits D ln (.app [lit "Map"] [_, _]) v
    simp only [inhabits_map, this, hk]
  induction h with
  | refl t => intro T U h h' v; rw [h.unique h']
  | left i t u hs _ ih =>
    intro T U h h' v
    obtain ⟨A, ha, h1⟩ := alias hs h
    exact (h1 v).symm.trans (ih A U ha h' v)
  | right i t u hs _ ih =>
    intro T U h h' v
    obtain ⟨A, ha, h1⟩ := alias hs h'
    exact (ih T A h ha v).trans (h1 v)
  | wrap w t u _ ih => intro T U h h'; exact ih T U (single rfl h) (single rfl h')
  | option t u _ ih =>
    intro T U hT hU v
    obtain ⟨n, ps, hb, rfl, hc⟩ := hT.inv hg hgt hw
    obtain ⟨n', ps', hb', rfl, hc'⟩ := hU.inv hg hgt hw
    cases hb
    cases hb'
    have := ih _ _ (hc _ (by simp)) (hc' _ (by simp)) v
    show Inhabits D ln (ofDnf (_ ++ undefD)) v ↔ Inhabits D ln (ofDnf (_ ++ undefD)) v
    rw [same_append _ _ D ln v, same_append _ _ D ln v]
    simp only [inhabits_union, List.mem_cons, List.not_mem_nil, or_false, exists_eq_or_imp, exists_eq_left, this]
  | vec t u _ ih => exact vec ih
  | array n t u _ ih => intro T U h h'; exact vec ih T U (single rfl h) (single rfl h')
  | hashSet t u _ ih => exact set ih
  | btreeSet t u _ ih => intro T U h h'; exact set ih T U (single rfl h) (single rfl h')
  | hashMap k t u _ ih => exact map ih
  | btreeMap k t u _ ih => intro T U h h'; exact map ih T U (single rfl h) (single rfl h')
  | tuple l _ ih =>
    intro T U hT hU v
    obtain ⟨n, ps, hb, rfl, hc⟩ := hT.inv hg hgt hw
    obtain ⟨n', ps', hb', rfl, hc'⟩ := hU.inv hg hgt hw
    simp only [body] at hb hb'
    cases hb
    cases hb'
    have this : ∀ p ∈ l, ∀ v, Inhabits D ln (ofDnf (dOf P n .typeDef p.1)) v ↔ Inhabits D ln (ofDnf (dOf P n' .typeDef p.2)) v :=
      fun p hp => ih p hp _ _ (hc _ (mem_tupleT (List.mem_map.2 ⟨p, hp, rfl⟩))) (hc' _ (mem_tupleT (List.mem_map.2 ⟨p, hp, rfl⟩)))
    show Inhabits D ln (.tuple _) v ↔ Inhabits D ln (.tuple _) v
    rw [inhabits_tuple, inhabits_tuple]
    simp only [List.length_map, List.getElem?_map, Option.map_map]
    constructor
    · rintro ⟨r, rfl, h1, h2⟩
      refine ⟨r, rfl, h1, fun i T x hT hx => ?_⟩
      cases hp : l[i]? with
      | none => rw [hp] at hT; cases hT
      | some p =>
        rw [hp] at hT
        cases hT
        exact (this p (List.mem_of_getElem? hp) x).1 (h2 i _ x (by rw [hp]; rfl) hx)
    · rintro ⟨r, rfl, h1, h2⟩
      refine ⟨r, rfl, h1, fun i T x hT hx => ?_⟩
      cases hp : l[i]? with
      | none => rw [hp] at hT; cases hT
      | some p =>
        rw [hp] at hT
        cases hT
        exact (this p (List.mem_of_getElem? hp) x).2 (h2 i _ x (by rw [hp]; rfl) hx)
  | result t u e f _ _ ih1 ih2 =>
    intro T U hT hU v
    obtain ⟨n, ps, hb, rfl, hc⟩ := hT.inv hg hgt hw
    obtain ⟨n', ps', hb', rfl, hc'⟩ := hU.inv hg hgt hw
    cases hb
    cases hb'
    have h1 := ih1 _ _ (hc t (by simp)) (hc' u (by simp))
    have h2 := ih2 _ _ (hc e (by simp)) (hc' f (by simp))
    show Inhabits D ln (.union [.obj _, .obj _]) v ↔ Inhabits D ln (.union [.obj _, .obj _]) v
    simp only [inhabits_union, List.mem_cons, List.not_mem_nil, or_false, exists_eq_or_imp, exists_eq_left, inhabits_obj,
      forall_eq, h1, h2]

end Verif.Ts
