import Verif.Zod.StandsFor
import Verif.Zod.Unwrap

/-!
# Types that are the same up to aliases (proof helper)
-/

namespace Verif.Zod
open Verif Verif.Js Verif.Schema Verif.SchemaSpec Verif.Spec Verif.Ts

variable {P : Program} {E : ZEnv}

theorem SameResults.symm {z z' : ZSchema} (h : SameResults E z z') : SameResults E z' z :=
  fun v => ⟨fun r => ((h v).1 r).symm, (h v).2.symm⟩

theorem SameResults.trans {a b c : ZSchema} (h : SameResults E a b) (h' : SameResults E b c) : SameResults E a c :=
  fun v => ⟨fun r => ((h v).1 r).trans ((h' v).1 r), (h v).2.trans (h' v).2⟩

theorem SameResults.forward {z z' : ZSchema} (h : SameResults E z z') (n : Nat) (v : JsVal) (x : Option JsVal)
    (hx : parse E n z v = some x) : ∃ n', parse E n' z' v = some x := by
  cases x with
  | none => exact (h v).2.1 ⟨n, hx⟩
  | some r => exact ((h v).1 r).1 ⟨n, hx⟩

/-- Schemas built in the same way from schemas with the same results have the same results. -/
theorem cong_same {z z' : ZSchema} (h : Cong (SameResults E) z z') : SameResults E z z' := by
  have one : ∀ {z z' : ZSchema}, Cong (SameResults E) z z' → ∀ v x, (∃ n, parse E n z v = some x) → ∃ n, parse E n z' v = some x := by
    rintro z z' h v x ⟨n, hn⟩
    cases n with
    | zero => cases hn
    | succ n => exact cong_parse h (fun a b hs v x hx => hs.forward n v x hx) v x hn
  have back : Cong (SameResults E) z' z := by
    have := Cong.symm h
    have e : (fun a b => SameResults E b a) = SameResults E := by
      funext a b; exact propext ⟨.symm, .symm⟩
    rw [e] at this
    exact this
  exact fun v => ⟨fun r => ⟨one h v (some r), one back v (some r)⟩, ⟨one h v none, one back v none⟩⟩

/-- What the text of the method is read as. -/
def Zs (P : Program) (m : Method) (t : Ty) (z : ZSchema) : Prop := ∃ s, Returns P m t s ∧ readSchema s = some z

theorem Zs.unique {m : Method} {t : Ty} {z z' : ZSchema} (h : Zs P m t z) (h' : Zs P m t z') : z = z' := by
  obtain ⟨s, hs, hz⟩ := h
  obtain ⟨s', hs', hz'⟩ := h'
  rw [returns_unique hs hs', hz'] at hz
  exact (Option.some.inj hz).symm

/-- One unfolding. -/
theorem Zs.inv (hg : GoodNames P) (hw : WellStyled P) {m : Method} (hm : m = .schema ∨ m = .inlineSchema) {t : Ty} {z : ZSchema}
    (h : Zs P m t z) : ∃ n ps, body P m t = some ps ∧ zBody (zOf P n) P m t = some z ∧
      ∀ m' t', Piece.call m' t' ∈ ps → m' = .schema ∨ m' = .inlineSchema → ∀ a, zOf P n m' t' = some a → Zs P m' t' a := by
  obtain ⟨s, ⟨n, hn⟩, hz⟩ := h
  cases n with
  | zero => cases hn
  | succ n =>
    have hr := (eval_agree hg hw (n + 1) m t s hm hn).read
    rw [hz] at hr
    obtain ⟨ps, hb, hrun⟩ := eval_succ.1 hn
    refine ⟨n, ps, hb, hr.symm, fun m' t' hc hm' a ha => ?_⟩
    obtain ⟨x, hx⟩ := runPieces_call_mem hrun hc
    exact ⟨x, ⟨n, hx⟩, by rw [(eval_agree hg hw n m' t' x hm' hx).read, ha]⟩

/-- What is referred to has a schema. -/
theorem Zs.referred (hg : GoodNames P) (hw : WellStyled P) (hE : IsModule P E) (hl : Loads P E) {t : Ty} {z : ZSchema}
    (h : Zs P .inlineSchema t z) : ∃ z0, Zs P .schema t z0 ∧ SameResults E z0 z := by
  obtain ⟨s, ⟨n, hn⟩, hz⟩ := h
  by_cases hi : ∃ i, t = .named i
  · obtain ⟨i, rfl⟩ := hi
    cases n with
    | zero => cases hn
    | succ n =>
      obtain ⟨ps, hb, hrun⟩ := eval_succ.1 hn
      rw [body] at hb
      cases hd : P[i]? with
      | none => rw [hd] at hb; cases hb
      | some d =>
        obtain ⟨s0, hs0, hc⟩ := hE i d hd
        cases h0 : readSchema s0 with
        | none => rw [h0] at hc; exact absurd hc (hl d (List.mem_of_getElem? hd))
        | some z0 => exact ⟨z0, ⟨s0, hs0, h0⟩, inline_same hg hw hE (n + 1) _ s0 s z0 z hs0 hn h0 hz⟩
  · have hb1 : body P .inlineSchema t = some [.call .schema t] := by
      cases t <;> first | rfl | exact absurd ⟨_, rfl⟩ hi
    exact ⟨z, ⟨s, (returns_single hb1).1 ⟨n, hn⟩, hz⟩, .refl E z⟩

/-- An object with one member. -/
theorem objZ_single {k : Str} {x : Option ZSchema} {z : ZSchema} (h : objZ [(k, x)] = some z) : ∃ a, x = some a ∧ z = .object [(k, a)] := by
  cases x with
  | none => simp [objZ, allSome] at h
  | some a =>
    simp only [objZ, allSome, List.map_cons, List.map_nil, Option.map_some, List.zip_cons_cons, List.zip_nil_left] at h
    split at h
    · exact ⟨a, rfl, (Option.some.inj h).symm⟩
    · cases h

theorem mem_tuple {ts : List Ty} {t : Ty} (h : t ∈ ts) : Piece.call .schema t ∈ [Piece.txt (lit "z.tuple([")] ++
    joinP (lit ", ") (ts.map (fun t => [.call .schema t])) ++ [.txt (lit "])")] := by
  refine List.mem_append_left _ (List.mem_append_right _ ?_)
  exact joinP_mem (List.mem_map.2 ⟨t, h, rfl⟩) List.mem_cons_self

/-- Types that are the same up to aliases have schemas with the same results. -/
theorem aliases_same (hv : ∀ d ∈ P, ∃ impl, derive d = .ok impl) (hg : GoodNames P) (hw : WellStyled P) (hE : IsModule P E)
    (hl : Loads P E) {t u : Ty} (h : UpToAliases P t u) : ∀ z z', Zs P .schema t z → Zs P .schema u z' → SameResults E z z' := by
  -- from the types to where they are referred to
  have lift : ∀ {t u : Ty}, (∀ z z', Zs P .schema t z → Zs P .schema u z' → SameResults E z z') →
      ∀ z z', Zs P .inlineSchema t z → Zs P .inlineSchema u z' → SameResults E z z' := by
    intro t u h z z' hz hz'
    obtain ⟨a, ha, h1⟩ := hz.referred hg hw hE hl
    obtain ⟨b, hb, h2⟩ := hz'.referred hg hw hE hl
    exact h1.symm.trans ((h a b ha hb).trans h2)
  have alias : ∀ {i : Nat} {t : Ty} {z : ZSchema}, StandsFor P i t → Zs P .schema (.named i) z →
      ∃ z0, Zs P .schema t z0 ∧ SameResults E z0 z := by
    rintro i t z hs ⟨s, hr, hz⟩
    rcases (standsFor_texts hw hv hs).1 with hx | hx
    · exact Zs.referred hg hw hE hl ⟨s, hx s hr, hz⟩
    · exact ⟨z, ⟨s, hx s hr, hz⟩, .refl E z⟩
  have single : ∀ {t t' : Ty} {z : ZSchema}, body P .schema t = some [.call .schema t'] → Zs P .schema t z → Zs P .schema t' z := by
    rintro t t' z hb ⟨s, hr, hz⟩
    exact ⟨s, (returns_single hb).1 hr, hz⟩
  have vec : ∀ {t u : Ty}, (∀ z z', Zs P .schema t z → Zs P .schema u z' → SameResults E z z') →
      ∀ z z', Zs P .schema (.vec t) z → Zs P .schema (.vec u) z' → SameResults E z z' := by
    intro t u ih z z' hz hz'
    obtain ⟨n, ps, hb, hr, hc⟩ := hz.inv hg hw (.inl rfl)
    obtain ⟨n', ps', hb', hr', hc'⟩ := hz'.inv hg hw (.inl rfl)
    cases hb
    cases hb'
    simp only [zBody, Option.map_eq_some_iff] at hr hr'
    obtain ⟨a, ha, rfl⟩ := hr
    obtain ⟨b, hb, rfl⟩ := hr'
    exact cong_same (.array (lift ih a b (hc _ _ (by simp) (.inr rfl) a ha) (hc' _ _ (by simp) (.inr rfl) b hb)))
  have set : ∀ {t u : Ty}, (∀ z z', Zs P .schema t z → Zs P .schema u z' → SameResults E z z') →
      ∀ z z', Zs P .schema (.hashSet t) z → Zs P .schema (.hashSet u) z' → SameResults E z z' := by
    intro t u ih z z' hz hz'
    obtain ⟨n, ps, hb, hr, hc⟩ := hz.inv hg hw (.inl rfl)
    obtain ⟨n', ps', hb', hr', hc'⟩ := hz'.inv hg hw (.inl rfl)
    cases hb
    cases hb'
    simp only [zBody, Option.map_eq_some_iff] at hr hr'
    obtain ⟨a, ha, rfl⟩ := hr
    obtain ⟨b, hb, rfl⟩ := hr'
    exact cong_same (.set (lift ih a b (hc _ _ (by simp) (.inr rfl) a ha) (hc' _ _ (by simp) (.inr rfl) b hb)))
  have map : ∀ {k t u : Ty}, (∀ z z', Zs P .schema t z → Zs P .schema u z' → SameResults E z z') →
      ∀ z z', Zs P .schema (.hashMap k t) z → Zs P .schema (.hashMap k u) z' → SameResults E z z' := by
    intro k t u ih z z' hz hz'
    obtain ⟨n, ps, hb, hr, hc⟩ := hz.inv hg hw (.inl rfl)
    obtain ⟨n', ps', hb', hr', hc'⟩ := hz'.inv hg hw (.inl rfl)
    cases hb
    cases hb'
    simp only [zBody, Option.bind_eq_some_iff, Option.some.injEq] at hr hr'
    obtain ⟨a, ha, b, hb, rfl⟩ := hr
    obtain ⟨a', ha', b', hb', rfl⟩ := hr'
    have hk := (hc _ _ (by simp) (.inr rfl) a ha).unique (hc' _ _ (by simp) (.inr rfl) a' ha')
    subst hk
    exact cong_same (.map (.refl E a) (lift ih b b' (hc _ _ (by simp) (.inr rfl) b hb) (hc' _ _ (by simp) (.inr rfl) b' hb')))
  induction h with
  | refl t => intro z z' h h'; rw [h.unique h']; exact .refl E z'
  | left i t u hs _ ih =>
    intro z z' h h'
    obtain ⟨a, ha, h1⟩ := alias hs h
    exact h1.symm.trans (ih a z' ha h')
  | right i t u hs _ ih =>
    intro z z' h h'
    obtain ⟨a, ha, h1⟩ := alias hs h'
    exact (ih z a h ha).trans h1
  | wrap w t u _ ih => intro z z' h h'; exact ih z z' (single rfl h) (single rfl h')
  | option t u _ ih =>
    intro z z' hz hz'
    obtain ⟨n, ps, hb, hr, hc⟩ := hz.inv hg hw (.inl rfl)
    obtain ⟨n', ps', hb', hr', hc'⟩ := hz'.inv hg hw (.inl rfl)
    cases hb
    cases hb'
    simp only [zBody, Option.map_eq_some_iff] at hr hr'
    obtain ⟨a, ha, rfl⟩ := hr
    obtain ⟨b, hb, rfl⟩ := hr'
    exact cong_same (.optional (lift ih a b (hc _ _ (by simp) (.inr rfl) a ha) (hc' _ _ (by simp) (.inr rfl) b hb)))
  | vec t u _ ih => exact vec ih
  | array n t u _ ih => intro z z' h h'; exact vec ih z z' (single rfl h) (single rfl h')
  | hashSet t u _ ih => exact set ih
  | btreeSet t u _ ih => intro z z' h h'; exact set ih z z' (single rfl h) (single rfl h')
  | hashMap k t u _ ih => exact map ih
  | btreeMap k t u _ ih => intro z z' h h'; exact map ih z z' (single rfl h) (single rfl h')
  | tuple l _ ih =>
    intro z z' hz hz'
    obtain ⟨n, ps, hb, hr, hc⟩ := hz.inv hg hw (.inl rfl)
    obtain ⟨n', ps', hb', hr', hc'⟩ := hz'.inv hg hw (.inl rfl)
    simp only [zBody, Option.map_eq_some_iff, List.map_map] at hr hr'
    obtain ⟨zs, hzs, rfl⟩ := hr
    obtain ⟨zs', hzs', rfl⟩ := hr'
    simp only [body] at hb hb'
    cases hb
    cases hb'
    obtain ⟨qs, rfl, rfl, _, hq⟩ := allSome_pairs (R := SameResults E) l
      (fun p hp a b ha hb => ih p hp a b (hc _ _ (mem_tuple (List.mem_map.2 ⟨p, hp, rfl⟩)) (.inl rfl) a ha) (hc' _ _ (mem_tuple (List.mem_map.2 ⟨p, hp, rfl⟩)) (.inl rfl) b hb)) hzs hzs'
    exact cong_same (.tuple qs hq)
  | result t u e f _ _ ih1 ih2 =>
    intro z z' hz hz'
    obtain ⟨n, ps, hb, hr, hc⟩ := hz.inv hg hw (.inl rfl)
    obtain ⟨n', ps', hb', hr', hc'⟩ := hz'.inv hg hw (.inl rfl)
    cases hb
    cases hb'
    simp only [zBody] at hr hr'
    split at hr
    · rename_i x y hx hy
      split at hr'
      · rename_i x' y' hx' hy'
        cases hr
        cases hr'
        obtain ⟨a, ha, rfl⟩ := objZ_single hx
        obtain ⟨b, hb, rfl⟩ := objZ_single hy
        obtain ⟨a', ha', rfl⟩ := objZ_single hx'
        obtain ⟨b', hb', rfl⟩ := objZ_single hy'
        refine cong_same (.union [(_, _), (_, _)] (fun p hp => ?_))
        simp only [List.mem_cons, List.not_mem_nil, or_false] at hp
        rcases hp with rfl | rfl
        · refine cong_same (.object [(_, _, _)] (fun p hp => ?_))
          rw [List.mem_singleton] at hp
          subst hp
          exact lift ih1 a a' (hc _ _ (by simp) (.inr rfl) a ha) (hc' _ _ (by simp) (.inr rfl) a' ha')
        · refine cong_same (.object [(_, _, _)] (fun p hp => ?_))
          rw [List.mem_singleton] at hp
          subst hp
          exact lift ih2 b b' (hc _ _ (by simp) (.inr rfl) b hb) (hc' _ _ (by simp) (.inr rfl) b' hb')
      · cases hr'
    · cases hr

end Verif.Zod
