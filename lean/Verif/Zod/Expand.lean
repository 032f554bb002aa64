import Verif.Zod.Relate
import Verif.Zod.StandsFor
import Verif.Spec.Expand

/-!
# Writing a type instead of the alias for it (proof helper)
-/

namespace Verif.Zod
open Verif Verif.Js Verif.Schema Verif.Spec Verif.SchemaSpec

variable {Q : Str → Str → Prop} {E E' : ZEnv}

/-- The relation in the other direction. -/
def Unfolded (Q : Str → Str → Prop) (E : ZEnv) (z z' : ZSchema) : Prop := Folded Q E z' z

theorem folded_cong {z z' : ZSchema} (h : Cong (Folded Q E) z z') : Folded Q E z z' := by
  cases h with
  | string cs => exact .string cs
  | number cs => exact .number cs
  | null => exact .null
  | literal s => exact .literal s
  | broken => exact .broken
  | array h => exact .array h
  | set h => exact .set h
  | optional h => exact .optional h
  | map h h' => exact .map h h'
  | tuple l h => exact .tuple l h
  | union l h => exact .union l h
  | object l h => exact .object l h
  | disc tag l h => exact .disc tag l h

instance : Closed (Unfolded Q E) where
  cong _ _ h := folded_cong (Cong.symm h)
  disc h h1 h2 := (folded_discriminator h h2 h1).symm

theorem expand_tuple (a : Nat) (u : Ty) (ts : List Ty) : expand a u (.tuple ts) = .tuple (ts.map (expand a u)) := by
  rw [expand]
  congr 1
  exact List.attach_map_val (f := expand a u)

theorem expand_named_ne {a i : Nat} {u : Ty} (h : i ≠ a) : expand a u (.named i) = .named i := by rw [expand, if_neg h]

theorem expand_alias {a : Nat} {u : Ty} : expand a u (.named a) = u := by rw [expand, if_pos rfl]

theorem expand_not_named {a : Nat} {u t : Ty} (hn : ∀ i, t ≠ .named i) (i : Nat) : expand a u t ≠ .named i := by
  cases t with
  | named i => exact absurd rfl (hn i)
  | _ => simp [expand]

theorem notIn_ne {a : Nat} {u : Ty} (h : NotIn a u) : u ≠ .named a := by
  rintro rfl
  have := h (.prim .bool)
  rw [expand_alias] at this
  cases this

theorem expandAll_get {P : Program} {a i : Nat} {u : Ty} {d : Decl} (h : P[i]? = some d) :
    (expandAll a u P)[i]? = some (Decl.mapTy (expand a u) d) := by
  unfold expandAll
  rw [List.getElem?_map, h]
  rfl

/-- The schema of an alias. -/
theorem standsFor_zOf {P : Program} {a : Nat} {u : Ty} (h : StandsFor P a u) : ∃ d, P[a]? = some d ∧
    (((∀ n, zOf P (n + 1) .schema (.named a) = zOf P n .inlineSchema u) ∧
        (∀ n, zOf P (n + 1) .inlineSchema (.named a) = some (.lazy d.ns d.name))) ∨
      ((∀ n, zOf P (n + 1) .schema (.named a) = zOf P n .schema u) ∧
        ∀ n, zOf P (n + 1) .inlineSchema (.named a) = zOf P n .inlineSchema u)) := by
  have hfrom : ∀ d, P[a]? = some d → (Decl.from_ d).ty? = some u → ∃ d, P[a]? = some d ∧
    (((∀ n, zOf P (n + 1) .schema (.named a) = zOf P n .inlineSchema u) ∧
        (∀ n, zOf P (n + 1) .inlineSchema (.named a) = some (.lazy d.ns d.name))) ∨
      ((∀ n, zOf P (n + 1) .schema (.named a) = zOf P n .schema u) ∧
        ∀ n, zOf P (n + 1) .inlineSchema (.named a) = zOf P n .inlineSchema u)) := by
    intro d hd hf
    refine ⟨d, hd, ?_⟩
    cases d with
    | struct s =>
      have hf : s.from_.ty? = some u := hf
      refine .inl ⟨fun n => ?_, fun n => ?_⟩
      · show zBody (zOf P n) P .schema (.named a) = _
        rw [zBody_named _ _ _ hd]; simp only [declZ, hf]
      · show zBody (zOf P n) P .inlineSchema (.named a) = _
        rw [zBody_named _ _ _ hd]; rfl
    | enum s =>
      have hf : s.from_.ty? = some u := hf
      refine .inr ⟨fun n => ?_, fun n => ?_⟩
      · show zBody (zOf P n) P .schema (.named a) = _
        rw [zBody_named _ _ _ hd]; simp only [declZ, hf]
      · show zBody (zOf P n) P .inlineSchema (.named a) = _
        rw [zBody_named _ _ _ hd]; simp only [declInlineZ, hf]
  have hone : ∀ (s : StructDecl) (f : Field), P[a]? = some (.struct s) → s.from_ = .none → keptFields s.fields = [f] → f.dflt = false →
      f.flatten = false → (s.transparent = true ∨ s.transparent = false ∧ s.style = .tuple) → f.ty = u → ∃ d, P[a]? = some d ∧
    (((∀ n, zOf P (n + 1) .schema (.named a) = zOf P n .inlineSchema u) ∧
        (∀ n, zOf P (n + 1) .inlineSchema (.named a) = some (.lazy d.ns d.name))) ∨
      ((∀ n, zOf P (n + 1) .schema (.named a) = zOf P n .schema u) ∧
        ∀ n, zOf P (n + 1) .inlineSchema (.named a) = zOf P n .inlineSchema u)) := by
    rintro s f hd hf hk h1 h2 h3 rfl
    have hk : s.fields.filter (fun f => !f.skipDe) = [f] := hk
    refine ⟨_, hd, .inl ⟨fun n => ?_, fun n => ?_⟩⟩
    · show zBody (zOf P n) P .schema (.named a) = _
      rw [zBody_named _ _ _ hd]
      simp only [declZ, hf, From.ty?]
      unfold structZ structFields
      rcases h3 with ht | ⟨ht, hst⟩
      · rw [hk, ht]
        simp [SField.ofField, h2, h1, sfieldZ, optZ]
      · rw [hk, ht, hst]
        simp [SField.ofField, h2, h1, sfieldZ, optZ]
    · show zBody (zOf P n) P .inlineSchema (.named a) = _
      rw [zBody_named _ _ _ hd]; rfl
  cases h with
  | from_ d _ hd hf => exact hfrom d hd (by rw [hf]; rfl)
  | tryFrom d _ hd hf => exact hfrom d hd (by rw [hf]; rfl)
  | newtype s f hd hf ht hst hfs hsk hdf hfl =>
    exact hone s f hd hf (by unfold keptFields; simp [hfs, hsk]) hdf hfl (.inr ⟨ht, hst⟩) rfl
  | transparent s f hd hf ht hk hdf hfl _ => exact hone s f hd hf hk hdf hfl (.inl ht) rfl

section
variable {P : Program} {a : Nat} {u : Ty}

theorem expand_decl {n : Nat} (H : ∀ n', AlikeR (Unfolded Q E) (expand a u) (zOf P n') (zOf (expandAll a u P) n)) {d : Decl} {n' : Nat}
    {z z' : ZSchema} (hz : declZ (zOf P n') d = some z) (hz' : declZ (zOf (expandAll a u P) n) (Decl.mapTy (expand a u) d) = some z') :
    Folded Q E z' z := by
  cases d with
  | struct s =>
    simp only [Decl.mapTy, declZ, from_mapTy] at hz hz'
    cases hf : s.from_.ty? with
    | some t => rw [hf] at hz hz'; exact H n' .inlineSchema t z z' hz hz'
    | none => rw [hf] at hz hz'; exact struct_rel (S := Unfolded Q E) (H n') s hz hz'
  | enum e =>
    simp only [Decl.mapTy, declZ, from_mapTy] at hz hz'
    cases hf : e.from_.ty? with
    | some t => rw [hf] at hz hz'; exact H n' .schema t z z' hz hz'
    | none => rw [hf] at hz hz'; exact enum_rel (S := Unfolded Q E) (H n') e hz hz'

theorem prim_unfolded {p : Prim} {z z' : ZSchema} (hz : primZ p = some z) (hz' : primZ p = some z') : Folded Q E z' z := by
  rw [hz] at hz'; cases hz'
  exact prim_folded hz hz

/-- The schemas of the program with the type itself and of the program with the alias are alike. -/
theorem expand_claims (hs : StandsFor P a u) (hu : NotIn a u) (hE : EnvOk P E) (hl : ∀ d ∈ P, E.const d.ns d.name ≠ none) (n : Nat) :
    (∀ i n' z z', zOf P n' .schema (.named i) = some z → zOf (expandAll a u P) n .schema (.named i) = some z' →
      Folded (Declared P) E z' z) ∧
    (∀ t n' z z', zOf P n' .schema t = some z → zOf (expandAll a u P) n .schema (expand a u t) = some z' → Folded (Declared P) E z' z) ∧
    (∀ t n' z z', zOf P n' .inlineSchema t = some z → zOf (expandAll a u P) n .inlineSchema (expand a u t) = some z' →
      Folded (Declared P) E z' z) ∧
    (∀ t n' z z', zOf P n' .inlineSchema t = some z → zOf (expandAll a u P) n .schema (expand a u t) = some z' →
      Folded (Declared P) E z' z) := by
  obtain ⟨da, hda, halias⟩ := standsFor_zOf hs
  have uself : expand a u u = u := hu u
  -- a reference to a declared type
  have fold : ∀ {i d z'}, P[i]? = some d → (∀ m b, zOf P m .schema (.named i) = some b → Folded (Declared P) E z' b) →
      Folded (Declared P) E z' (.lazy d.ns d.name) := by
    intro i d z' hd h
    cases hc : E.const d.ns d.name with
    | none => exact absurd hc (hl d (List.mem_of_getElem? hd))
    | some b =>
      obtain ⟨m, hm⟩ := hE i d b hd hc
      exact .fold _ _ hc (h m b hm)
  induction n with
  | zero => refine ⟨?_, ?_, ?_, ?_⟩ <;> intro _ _ _ _ _ h <;> cases h
  | succ k ih =>
    obtain ⟨_, hA, hB, hD⟩ := ih
    have H : ∀ n', AlikeR (Unfolded (Declared P) E) (expand a u) (zOf P n') (zOf (expandAll a u P) k) := by
      intro n' m t z z' h h'
      cases m with
      | schema => exact hA t n' z z' h h'
      | inlineSchema => exact hB t n' z z' h h'
      | typeDef => exact absurd h (zOf_other (Or.inl rfl))
      | inline => exact absurd h (zOf_other (Or.inr rfl))
    have hN' : ∀ i n' z z', zOf P n' .schema (.named i) = some z → zOf (expandAll a u P) (k + 1) .schema (.named i) = some z' →
        Folded (Declared P) E z' z := by
      intro i n' z z' h h'
      cases n' with
      | zero => cases h
      | succ n =>
      have h : zBody (zOf P n) P .schema (.named i) = some z := h
      have h' : zBody (zOf (expandAll a u P) k) (expandAll a u P) .schema (.named i) = some z' := h'
      obtain ⟨d, hd, ⟨_, h⟩ | ⟨c, _⟩⟩ := zBody_some h
      · rw [zBody_named _ _ i (expandAll_get hd)] at h'
        exact expand_decl H h h'
      · cases c
    have hAnon : ∀ t n' z z', t ≠ .named a → zOf P n' .schema t = some z → zOf (expandAll a u P) (k + 1) .schema (expand a u t) = some z' →
        Folded (Declared P) E z' z := by
      intro t n' z z' hne h h'
      have vec : ∀ t n z z', zOf P (n + 1) .schema (.vec t) = some z → zOf (expandAll a u P) (k + 1) .schema (.vec (expand a u t)) = some z' →
          Folded (Declared P) E z' z := by
        intro t n z z' h h'
        simp only [zOf, zBody, Option.map_eq_some_iff] at h h'
        obtain ⟨a, ha, rfl⟩ := h
        obtain ⟨b, hb, rfl⟩ := h'
        exact .array (hB t n a b ha hb)
      cases n' with
      | zero => cases h
      | succ n =>
      cases t with
      | wrap w t => rw [expand] at h'; exact hA t n z z' h h'
      | prim p => rw [expand] at h'; exact prim_unfolded h h'
      | option t =>
        simp only [expand, zOf, zBody, Option.map_eq_some_iff] at h h'
        obtain ⟨a, ha, rfl⟩ := h
        obtain ⟨b, hb, rfl⟩ := h'
        exact .optional (hB t n a b ha hb)
      | vec t => rw [expand] at h'; exact vec t n z z' h h'
      | hashSet t =>
        simp only [expand, zOf, zBody, Option.map_eq_some_iff] at h h'
        obtain ⟨a, ha, rfl⟩ := h
        obtain ⟨b, hb, rfl⟩ := h'
        exact .set (hB t n a b ha hb)
      | hashMap t v =>
        simp only [expand, zOf, zBody, Option.bind_eq_some_iff, Option.some.injEq] at h h'
        obtain ⟨a, ha, b, hb, rfl⟩ := h
        obtain ⟨a', ha', b', hb', rfl⟩ := h'
        exact .map (hB t n a a' ha ha') (hB v n b b' hb hb')
      | array m t => rw [expand] at h'; exact hA (.vec t) n z z' h (by rw [expand]; exact h')
      | btreeSet t => rw [expand] at h'; exact hA (.hashSet t) n z z' h (by rw [expand]; exact h')
      | btreeMap t v => rw [expand] at h'; exact hA (.hashMap t v) n z z' h (by rw [expand]; exact h')
      | tuple ts =>
        rw [expand_tuple] at h'
        simp only [zOf, zBody, Option.map_eq_some_iff] at h h'
        obtain ⟨zs, hzs, rfl⟩ := h
        obtain ⟨zs', hzs', rfl⟩ := h'
        rw [List.map_map] at hzs'
        obtain ⟨ps, rfl, rfl, _, hp⟩ := allSome_pairs (R := Unfolded (Declared P) E) ts (fun t _ z z' h h' => hA t n z z' h h') hzs hzs'
        exact Closed.cong (S := Unfolded (Declared P) E) _ _ (.tuple ps hp)
      | result t v =>
        simp only [expand, zOf, zBody] at h h'
        cases h1 : objZ [(lit "Ok", zOf P n .inlineSchema t)] with
        | none => rw [h1] at h; cases h
        | some a =>
          cases h2 : objZ [(lit "Err", zOf P n .inlineSchema v)] with
          | none => rw [h1, h2] at h; cases h
          | some b =>
            cases h3 : objZ [(lit "Ok", zOf (expandAll _ u P) k .inlineSchema (expand _ u t))] with
            | none => rw [h3] at h'; cases h'
            | some a' =>
              cases h4 : objZ [(lit "Err", zOf (expandAll _ u P) k .inlineSchema (expand _ u v))] with
              | none => rw [h3, h4] at h'; cases h'
              | some b' =>
                rw [h1, h2] at h; rw [h3, h4] at h'
                cases h; cases h'
                refine .union [(a', a), (b', b)] (fun p hp => ?_)
                simp only [List.mem_cons, List.not_mem_nil, or_false] at hp
                rcases hp with rfl | rfl
                · exact objZ_one_rel (S := Unfolded (Declared P) E) (fun z z' h h' => hB t n z z' h h') h1 h3
                · exact objZ_one_rel (S := Unfolded (Declared P) E) (fun z z' h h' => hB v n z z' h h') h2 h4
      | named i =>
        rw [expand_named_ne (fun e => hne (by rw [e]))] at h'
        exact hN' i (n + 1) z z' h h'
    have hDnon : ∀ t n' z z', t ≠ .named a → zOf P n' .inlineSchema t = some z →
        zOf (expandAll a u P) (k + 1) .schema (expand a u t) = some z' → Folded (Declared P) E z' z := by
      intro t n' z z' hne h h'
      cases n' with
      | zero => cases h
      | succ n =>
      by_cases hn : ∃ i, t = .named i
      · obtain ⟨i, rfl⟩ := hn
        rw [expand_named_ne (fun e => hne (by rw [e]))] at h'
        have hz : zBody (zOf P n) P .inlineSchema (.named i) = some z := h
        obtain ⟨d, hd, ⟨c, _⟩ | ⟨_, hz⟩⟩ := zBody_some hz
        · cases c
        · have hf : z = .lazy d.ns d.name → Folded (Declared P) E z' z := by
            rintro rfl
            exact fold hd (fun m b hb => hN' i m b z' hb h')
          cases d with
          | struct s => cases hz; exact hf rfl
          | enum e =>
            simp only [declInlineZ] at hz
            cases hfr : e.from_.ty? with
            | none => rw [hfr] at hz; cases hz; exact hf rfl
            | some t =>
              rw [hfr] at hz
              have h' : zBody (zOf (expandAll a u P) k) (expandAll a u P) .schema (.named i) = some z' := h'
              rw [zBody_named _ _ i (expandAll_get hd)] at h'
              simp only [Decl.mapTy, declZ, from_mapTy, hfr, Option.map_some] at h'
              exact hD t n z z' hz h'
      · rw [zOf_inline (fun i e => hn ⟨i, e⟩)] at h
        exact hAnon t n z z' hne h h'
    have hBnon : ∀ t n' z z', t ≠ .named a → zOf P n' .inlineSchema t = some z →
        zOf (expandAll a u P) (k + 1) .inlineSchema (expand a u t) = some z' → Folded (Declared P) E z' z := by
      intro t n' z z' hne h h'
      cases n' with
      | zero => cases h
      | succ n =>
      by_cases hn : ∃ i, t = .named i
      · obtain ⟨i, rfl⟩ := hn
        rw [expand_named_ne (fun e => hne (by rw [e]))] at h'
        have hz : zBody (zOf P n) P .inlineSchema (.named i) = some z := h
        have h' : zBody (zOf (expandAll a u P) k) (expandAll a u P) .inlineSchema (.named i) = some z' := h'
        obtain ⟨d, hd, ⟨c, _⟩ | ⟨_, hz⟩⟩ := zBody_some hz
        · cases c
        · rw [zBody_named _ _ i (expandAll_get hd)] at h'
          have hm := List.mem_of_getElem? hd
          cases d with
          | struct s => cases hz; cases h'; exact .lazy _ _ ⟨_, hm, rfl, rfl⟩
          | enum e =>
            simp only [Decl.mapTy, declInlineZ, from_mapTy] at hz h'
            cases hf : e.from_.ty? with
            | some t => rw [hf] at hz h'; exact hB t n z z' hz h'
            | none => rw [hf] at hz h'; cases hz; cases h'; exact .lazy _ _ ⟨_, hm, rfl, rfl⟩
      · rw [zOf_inline (fun i e => hn ⟨i, e⟩)] at h
        rw [zOf_inline (expand_not_named (fun i e => hn ⟨i, e⟩))] at h'
        exact hA t n z z' h h'
    have hAa : ∀ n' z z', zOf P n' .schema (.named a) = some z → zOf (expandAll a u P) (k + 1) .schema u = some z' →
        Folded (Declared P) E z' z := by
      intro n' z z' h h'
      cases n' with
      | zero => cases h
      | succ n =>
      rcases halias with ⟨h1, _⟩ | ⟨h1, _⟩
      · rw [h1] at h; exact hDnon u n z z' (notIn_ne hu) h (by rw [uself]; exact h')
      · rw [h1] at h; exact hAnon u n z z' (notIn_ne hu) h (by rw [uself]; exact h')
    have hBa : ∀ n' z z', zOf P n' .inlineSchema (.named a) = some z → zOf (expandAll a u P) (k + 1) .inlineSchema u = some z' →
        Folded (Declared P) E z' z := by
      intro n' z z' h h'
      cases n' with
      | zero => cases h
      | succ n =>
      rcases halias with ⟨h1, h2⟩ | ⟨_, h2⟩
      · rw [h2] at h
        cases h
        refine fold hda (fun m b hb => ?_)
        cases m with
        | zero => cases hb
        | succ m => rw [h1] at hb; exact hBnon u m b z' (notIn_ne hu) hb (by rw [uself]; exact h')
      · rw [h2] at h; exact hBnon u n z z' (notIn_ne hu) h (by rw [uself]; exact h')
    have hDa : ∀ n' z z', zOf P n' .inlineSchema (.named a) = some z → zOf (expandAll a u P) (k + 1) .schema u = some z' →
        Folded (Declared P) E z' z := by
      intro n' z z' h h'
      cases n' with
      | zero => cases h
      | succ n =>
      rcases halias with ⟨_, h2⟩ | ⟨_, h2⟩
      · rw [h2] at h
        cases h
        exact fold hda (fun m b hb => hAa m b z' hb h')
      · rw [h2] at h; exact hDnon u n z z' (notIn_ne hu) h (by rw [uself]; exact h')
    refine ⟨hN', ?_, ?_, ?_⟩ <;> intro t n' z z' h h' <;> by_cases e : t = .named a
    · subst e; rw [expand_alias] at h'; exact hAa n' z z' h h'
    · exact hAnon t n' z z' e h h'
    · subst e; rw [expand_alias] at h'; exact hBa n' z z' h h'
    · exact hBnon t n' z z' e h h'
    · subst e; rw [expand_alias] at h'; exact hDa n' z z' h h'
    · exact hDnon t n' z z' e h h'

/-- What the two modules export under the same name is related in the same way. -/
theorem expand_linked (hs : StandsFor P a u) (hu : NotIn a u) (hE : EnvOk P E) (hE' : EnvOk (expandAll a u P) E')
    (hl : ∀ d ∈ P, E.const d.ns d.name ≠ none) (hl' : ∀ d ∈ P, E'.const d.ns d.name ≠ none) : Linked (Declared P) E' E := by
  rintro ns name ⟨d, hd, rfl, rfl⟩
  obtain ⟨i, hi⟩ := List.getElem?_of_mem hd
  cases hc : E.const d.ns d.name with
  | none => exact absurd hc (hl d hd)
  | some b =>
    cases hc' : E'.const d.ns d.name with
    | none => exact absurd hc' (hl' d hd)
    | some b' =>
      obtain ⟨n, hn⟩ := hE i d b hi hc
      have hnm := decl_mapTy_names (expand a u) d
      obtain ⟨m, hm⟩ := hE' i (Decl.mapTy (expand a u) d) b' (expandAll_get hi) (by rw [hnm.1, hnm.2]; exact hc')
      exact ⟨b', b, rfl, rfl, (expand_claims hs hu hE hl m).1 i n b b' hn hm⟩

end

end Verif.Zod
