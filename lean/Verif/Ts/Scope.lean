import Verif.Ts.ModuleOf

/-!
# References in the module of a program (proof helper)
-/

namespace Verif.Ts
open Verif Verif.Js Verif.Schema Verif.SchemaSpec Verif.Spec Verif.Codegen Verif.Zod

section
variable {P : Program} {impls : List (Str × List RpcItem)}

theorem schema_uses (hp : Printable P impls) {m : Method} (hm : m = .schema ∨ m = .inlineSchema) {t : Ty} {s : Str} {e : JsExpr}
    (h : Returns P m t s) (he : readExpr s = some e) : UsesOk (Declared P) e := by
  obtain ⟨n, hn⟩ := h
  obtain ⟨e', h1, _, h2⟩ := Zod.eval_agree hp.names hp.styled n m t s hm hn
  rw [h1.read] at he
  injection he with he
  exact he ▸ h2

theorem type_names (hp : Printable P impls) {m : Method} (hm : m = .typeDef ∨ m = .inline) {t : Ty} {s : Str} {T : TsType}
    (h : Returns P m t s) (hT : readType s = some T) : NamesIn (TypeNames P) T := by
  obtain ⟨n, hn⟩ := h
  have h1 := eval_agreeT hp.names hp.typeNames hp.styled n m t s hm hn
  rw [h1.read] at hT
  injection hT with hT
  exact hT ▸ namesIn_dnf (dOf_names P n m t)

/-- What can be referred to in a declaration of the program's module. -/
def ItemOk (P : Program) (i : Item) : Prop :=
  (∀ x ∈ i.exprs, ∀ u ∈ x.2.uses, OfClient u ∨ OfArgs x.1 u ∨ ∃ y, u.2 = some y ∧ Declared P u.1 y) ∧
  ∀ t ∈ i.types, NamesIn (fun p => TypeNames P p ∨ p = [lit "Promise"] ∨ p = [lit "Store"]) t

theorem uses_client {Q : Str → Str → Prop} {e : JsExpr} (h : UsesOk Q e) {ps : Option (List Str)} {u : Str × Option Str} (hu : u ∈ e.uses) :
    OfClient u ∨ OfArgs ps u ∨ ∃ y, u.2 = some y ∧ Q u.1 y := by
  rcases h u hu with h | h
  · exact Or.inl (Or.inl h)
  · exact Or.inr (Or.inr h)

theorem typeItems_ok (hp : Printable P impls) {x : Decl × Nat} {l : List Item} (h : TypeItems P x l) : ∀ i ∈ l, ItemOk P i := by
  obtain ⟨s, e, t, T, j, h1, h2, h3, h4, h5, rfl⟩ := h
  have hT := NamesIn.mono (type_names hp (Or.inl rfl) h3 h4) (R := fun p => TypeNames P p ∨ p = [lit "Promise"] ∨ p = [lit "Store"])
    (fun _ h => Or.inl h)
  intro i hi
  simp only [List.mem_cons, List.not_mem_nil, or_false] at hi
  rcases hi with rfl | rfl
  · refine ⟨fun x hx u hu => ?_, fun t ht => by cases ht⟩
    simp only [Item.exprs, List.mem_singleton] at hx
    subst hx
    exact uses_client (schema_uses hp (Or.inl rfl) h1 h2) hu
  · cases h5 with
    | alias =>
      refine ⟨fun x hx => (by cases hx), fun t ht => ?_⟩
      simp only [Item.types, List.mem_singleton] at ht
      exact ht ▸ hT
    | interface ps e =>
      refine ⟨fun x hx => (by cases hx), fun t ht => ?_⟩
      simp only [Item.types, List.mem_singleton] at ht
      exact ht ▸ e ▸ hT

theorem stubItem_ok (hp : Printable P impls) {ns : Str} {f : RpcItem} {i : Item} (h : StubItem P ns f i) : ItemOk P i := by
  obtain ⟨ps, es, t, T, h1, h2, h3, h4, rfl⟩ := h
  have hlift : ∀ {T : TsType}, NamesIn (TypeNames P) T → NamesIn (fun p => TypeNames P p ∨ p = [lit "Promise"] ∨ p = [lit "Store"]) T :=
    fun h => NamesIn.mono h (fun _ h => Or.inl h)
  have harg : ∀ o : Option Str, o = none → OfArgs (some (ps.map (·.1))) (lit "arguments", o) :=
    fun o ho => ⟨_, rfl, ho, Or.inr rfl⟩
  refine ⟨fun x hx u hu => ?_, fun t ht => ?_⟩
  · simp only [Item.exprs, stub, List.mem_map] at hx
    obtain ⟨st, hst, rfl⟩ := hx
    rw [List.mem_append] at hst
    rcases hst with hst | hst
    · obtain ⟨p, hpm, rfl⟩ := List.mem_map.1 hst
      simp only [Stmt.e, JsExpr.uses, List.mem_singleton] at hu
      subst hu
      exact Or.inr (Or.inl ⟨_, rfl, rfl, Or.inl (List.mem_map_of_mem hpm)⟩)
    · simp only [List.mem_cons, List.not_mem_nil, or_false] at hst
      rcases hst with rfl | rfl
      · simp only [Stmt.e, validation, JsExpr.uses, JsExpr.uses.usesL, List.mem_append, List.mem_cons, List.append_nil,
          List.not_mem_nil, or_false] at hu
        rcases hu with (rfl | hu) | rfl
        · exact Or.inl (Or.inl rfl)
        · obtain ⟨e, he, hu⟩ := mem_usesL.1 hu
          obtain ⟨a, _, s, hs, hr⟩ := All2.mem_right h2 he
          exact uses_client (schema_uses hp (Or.inr rfl) hs hr) hu
        · exact Or.inr (Or.inl (harg _ rfl))
      · simp only [Stmt.e, transmission, JsExpr.uses, JsExpr.uses.usesL, List.append_nil, List.nil_append, List.mem_append,
          List.mem_cons, List.not_mem_nil, or_false] at hu
        rcases hu with rfl | rfl
        · refine Or.inl (Or.inr ?_)
          cases f.kind
          · exact Or.inl rfl
          · exact Or.inr rfl
        · exact Or.inr (Or.inl (harg _ rfl))
  · simp only [Item.types, stub, List.mem_cons] at ht
    rcases ht with rfl | ht
    · refine .app _ _ (Or.inr ?_) (fun t ht => ?_)
      · cases f.kind
        · exact Or.inl rfl
        · exact Or.inr rfl
      · rw [List.mem_singleton] at ht
        exact ht ▸ hlift (type_names hp (Or.inl rfl) h3 h4)
    · obtain ⟨p, hpm, rfl⟩ := List.mem_map.1 ht
      obtain ⟨a, _, _, s, hs, hr⟩ := All2.mem_right h1 hpm
      exact hlift (type_names hp (Or.inr rfl) hs hr)

/-- What the items of a namespace are called. -/
theorem item_names {names : List Str} {M : List Ns} (h : ModuleOf P impls names M) {N : Ns} (hN : N ∈ M) {i : Item} (hi : i ∈ N.items) :
    (∃ d ∈ P, d.ns = N.name ∧ i.name = d.name ∧ (∀ f, i ≠ .func f)) ∨
    ∃ b ∈ impls, b.1 = N.name ∧ ∃ f ∈ b.2, ∃ g, i = .func g ∧ g.name = f.ident ∧ g.params.map (·.1) = f.args.map (·.1) := by
  obtain ⟨ds, fs, ls, is, h1, h2, h3, h4, h5⟩ := h.items N hN
  rw [h5, List.mem_append] at hi
  rcases hi with hi | hi
  · obtain ⟨l, hl, hi⟩ := List.mem_flatten.1 hi
    obtain ⟨x, hx, s, e, t, T, j, _, _, _, _, h6, rfl⟩ := All2.mem_right h3 hl
    have hx := List.mem_filter.1 (h1.subset hx)
    have hd : x.1 ∈ P := List.mem_of_getElem? (List.mem_zipIdx_iff_getElem?.1 hx.1)
    refine Or.inl ⟨x.1, hd, by simpa using hx.2, ?_⟩
    simp only [List.mem_cons, List.not_mem_nil, or_false] at hi
    rcases hi with rfl | rfl
    · exact ⟨rfl, fun f hf => by cases hf⟩
    · cases h6 with
      | alias => exact ⟨rfl, fun f hf => by cases hf⟩
      | interface => exact ⟨rfl, fun f hf => by cases hf⟩
  · obtain ⟨f, hf, ps, es, t, T, hps, _, _, _, rfl⟩ := All2.mem_right h4 hi
    obtain ⟨b, hb, hf⟩ := List.mem_flatMap.1 (h2.subset hf)
    have hb := List.mem_filter.1 hb
    refine Or.inr ⟨b, hb.1, by simpa using hb.2, f, hf, _, rfl, rfl, ?_⟩
    show ps.map (·.1) = _
    clear h4 hf hi
    generalize f.args = as at hps
    induction hps with
    | nil => rfl
    | cons h1 _ ih => rw [List.map_cons, List.map_cons, ih, h1.1]

theorem item_ok (hp : Printable P impls) {names : List Str} {M : List Ns} (h : ModuleOf P impls names M) {N : Ns} (hN : N ∈ M)
    {i : Item} (hi : i ∈ N.items) : ItemOk P i := by
  obtain ⟨ds, fs, ls, is, h1, h2, h3, h4, h5⟩ := h.items N hN
  rw [h5, List.mem_append] at hi
  rcases hi with hi | hi
  · obtain ⟨l, hl, hi⟩ := List.mem_flatten.1 hi
    obtain ⟨x, hx, hx'⟩ := All2.mem_right h3 hl
    exact typeItems_ok hp hx' i hi
  · obtain ⟨f, hf, hf'⟩ := All2.mem_right h4 hi
    exact stubItem_ok hp hf'

theorem isValue_name {x : Str} {i : Item} (h : i.isValue x = true) : i.name = x := by
  cases i with
  | const n e => exact of_decide_eq_true h
  | func f => exact of_decide_eq_true h
  | interface _ _ => cases h
  | alias _ _ => cases h

theorem isType_name {x : Str} {i : Item} (h : i.isType x = true) : i.name = x ∧ ∀ f, i ≠ .func f := by
  cases i with
  | const n e => cases h
  | func f => cases h
  | interface _ _ => exact ⟨of_decide_eq_true h, fun f hf => by cases hf⟩
  | alias _ _ => exact ⟨of_decide_eq_true h, fun f hf => by cases hf⟩

theorem params_names {names : List Str} {M : List Ns} (h : ModuleOf P impls names M) {N : Ns} (hN : N ∈ M) {i : Item} (hi : i ∈ N.items)
    {x : Option (List Str) × JsExpr} (hx : x ∈ i.exprs) {y : Str} (hy : y ∈ x.1.getD []) : Called P impls y := by
  rcases item_names h hN hi with ⟨d, _, _, _, hnf⟩ | ⟨b, hb, _, f, hf, g, rfl, _, hps⟩
  · cases i with
    | const n e => simp only [Item.exprs, List.mem_singleton] at hx; subst hx; cases hy
    | func f => exact absurd rfl (hnf f)
    | interface _ _ => cases hx
    | alias _ _ => cases hx
  · obtain ⟨st, _, rfl⟩ := List.mem_map.1 hx
    simp only [Option.getD_some, hps] at hy
    obtain ⟨a, ha, e⟩ := List.mem_map.1 hy
    exact Or.inr ⟨b, hb, f, hf, Or.inr ⟨a, ha, e⟩⟩

/-- A name nothing is called refers to a namespace or to something outside. -/
theorem target_free {names : List Str} {M : List Ns} (h : ModuleOf P impls names M) {N : Ns} (hN : N ∈ M) {i : Item} (hi : i ∈ N.items)
    {x : Option (List Str) × JsExpr} (hx : x ∈ i.exprs) {y : Str} (hy : ¬ Called P impls y) :
    target M N (x.1.getD []) y = if M.any (fun R => R.name = y) then .namespace else .outside := by
  have h1 : (x.1.getD []).contains y = false := by
    rw [Bool.eq_false_iff]
    intro hc
    exact hy (params_names h hN hi hx (by simpa using hc))
  have h2 : N.items.any (Item.isValue y) = false := by
    rw [Bool.eq_false_iff]
    intro hc
    obtain ⟨j, hj, hv⟩ := List.any_eq_true.1 hc
    have hn := isValue_name hv
    rcases item_names h hN hj with ⟨d, hd, _, e, _⟩ | ⟨b, hb, _, f, hf, g, rfl, e, _⟩
    · exact hy (Or.inl ⟨d, hd, by rw [← e, hn]⟩)
    · exact hy (Or.inr ⟨b, hb, f, hf, Or.inl (by rw [← e]; exact hn)⟩)
  simp only [target, h1, h2]
  rfl

/-- Declared types are in the module. -/
theorem declared_mem {names : List Str} {M : List Ns} (h : ModuleOf P impls names M) {d : Decl} (hd : d ∈ P) (hn : d.ns ∈ names) :
    ∃ R ∈ M, R.name = d.ns ∧ R.items.any (Item.isConst d.name) = true ∧ R.items.any (Item.isType d.name) = true := by
  obtain ⟨R, hR, e⟩ := List.mem_map.1 ((h.names d.ns).2 ⟨hn, Or.inl ⟨d, hd, rfl⟩⟩)
  refine ⟨R, hR, e, ?_⟩
  obtain ⟨ds, fs, ls, is, h1, _, h3, _, h5⟩ := h.items R hR
  obtain ⟨k, hk, hk'⟩ := List.mem_iff_getElem.1 hd
  have hm : (d, k) ∈ ds := h1.symm.subset (List.mem_filter.2 ⟨List.mem_zipIdx_iff_getElem?.2 (by
    rw [List.getElem?_eq_getElem hk, hk']), by simpa using e.symm⟩)
  obtain ⟨l, hl, s, e, t, T, j, _, _, _, _, hj, rfl⟩ := All2.mem_left h3 hm
  have hsub : ∀ i ∈ [Item.const d.name e, j], i ∈ R.items := fun i hi => by
    rw [h5]; exact List.mem_append_left _ (List.mem_flatten.2 ⟨_, hl, hi⟩)
  refine ⟨List.any_eq_true.2 ⟨.const d.name e, hsub _ (by simp), decide_eq_true rfl⟩, List.any_eq_true.2 ⟨j, hsub _ (by simp), ?_⟩⟩
  cases hj with
  | alias => exact decide_eq_true rfl
  | interface => exact decide_eq_true rfl

theorem resolved (hp : Printable P impls) {names : List Str} {M : List Ns} (h : ModuleOf P impls names M)
    (hns : ∀ d ∈ P, d.ns ∈ names) (hsh : ∀ d ∈ P, ¬ Called P impls d.ns) (hout : ∀ d ∈ P, d.name ∉ outsideTypes) : AllResolved M := by
  intro N hN i hi
  obtain ⟨h1, h2⟩ := item_ok hp h hN hi
  refine ⟨fun x hx u hu => ?_, fun t ht => NamesIn.mono (h2 t ht) (fun p hpn => ?_)⟩
  · rcases h1 x hx u hu with hc | ha | ⟨y, hy, d, hd, e1, e2⟩
    · exact Or.inl hc
    · exact Or.inr (Or.inl ha)
    · refine Or.inr (Or.inr ⟨y, hy, ?_⟩)
      obtain ⟨R, hR, e, hconst, _⟩ := declared_mem h hd (hns d hd)
      rw [← e1, ← e2]
      refine ⟨?_, R, hR, e, hconst⟩
      rw [target_free h hN hi hx (hsh d hd), if_pos (List.any_eq_true.2 ⟨R, hR, by simpa using e⟩)]
  · have hfree : ∀ x ∈ outsideTypes, N.items.any (Item.isType x) = false := by
      intro x hx
      rw [Bool.eq_false_iff]
      intro hc
      obtain ⟨j, hj, hv⟩ := List.any_eq_true.1 hc
      obtain ⟨hn, hnf⟩ := isType_name hv
      rcases item_names h hN hj with ⟨d, hd, _, e, _⟩ | ⟨b, hb, _, f, hf, g, rfl, _⟩
      · exact hout d hd (by rw [← e, hn]; exact hx)
      · exact hnf _ rfl
    have hone : ∀ x ∈ outsideTypes, TypeNameOk M N [x] := fun x hx => Or.inr ⟨hx, hfree x hx⟩
    rcases hpn with (⟨x, rfl, hx | hx⟩ | ⟨d, hd, rfl⟩) | rfl | rfl
    · exact Or.inl hx
    · refine hone x ?_
      simp only [List.mem_cons, List.not_mem_nil, or_false] at hx
      rcases hx with rfl | rfl | rfl <;> simp [outsideTypes]
    · obtain ⟨R, hR, e, _, htype⟩ := declared_mem h hd (hns d hd)
      exact ⟨R, hR, e, htype⟩
    · exact hone _ (by simp [outsideTypes])
    · exact hone _ (by simp [outsideTypes])

theorem client_reached {names : List Str} {M : List Ns} (h : ModuleOf P impls names M)
    (hfree : ∀ x ∈ clientNames, ¬ Called P impls x ∧ (∀ d ∈ P, d.ns ≠ x) ∧ ∀ b ∈ impls, b.1 ≠ x) : ClientReached M := by
  intro N hN i hi x hx u hu hc
  have hu1 : u.1 ∈ clientNames := by
    rcases hc with e | e | e <;> simp [clientNames, e]
  obtain ⟨h1, h2, h3⟩ := hfree _ hu1
  rw [target_free h hN hi hx h1, if_neg]
  intro hany
  obtain ⟨R, hR, e⟩ := List.any_eq_true.1 hany
  have e : R.name = u.1 := by simpa using e
  rcases ((h.names u.1).1 (List.mem_map.2 ⟨R, hR, e⟩)).2 with ⟨d, hd, e⟩ | ⟨b, hb, e, _⟩
  · exact h2 d hd e
  · exact h3 b hb e

/-! ## Names declared twice -/

theorem filter_le_one {α β : Type} [DecidableEq β] {g : α → β} {l : List α} (h : (l.map g).Nodup) (k : β) :
    (l.filter (fun a => g a = k)).length ≤ 1 := by
  induction l with
  | nil => simp
  | cons a l ih =>
    rw [List.map_cons, List.nodup_cons] at h
    rw [List.filter_cons]
    split
    · rename_i e
      have : l.filter (fun a => decide (g a = k)) = [] := by
        rw [List.filter_eq_nil_iff]
        intro b hb e'
        refine h.1 ?_
        rw [of_decide_eq_true e, ← of_decide_eq_true e']
        exact List.mem_map_of_mem hb
      simp [this]
    · exact ih h.2

theorem typeItems_filter {ds : List (Decl × Nat)} {ls : List (List Item)} (h : All2 (TypeItems P) ds ls) (x : Str) :
    (ls.flatten.filter (Item.isValue x)).length = (ds.filter (fun y => y.1.name = x)).length ∧
    (ls.flatten.filter (Item.isType x)).length = (ds.filter (fun y => y.1.name = x)).length := by
  induction h with
  | nil => exact ⟨rfl, rfl⟩
  | @cons a b l l' h1 _ ih =>
    obtain ⟨s, e, t, T, j, _, _, _, _, hj, rfl⟩ := h1
    obtain ⟨ih1, ih2⟩ := ih
    rw [List.flatten_cons, List.filter_append, List.filter_append, List.length_append, List.length_append, ih1, ih2]
    by_cases hx : a.1.name = x
    · cases hj with
      | alias => simp [Item.isValue, Item.isType, hx]; omega
      | interface => simp [Item.isValue, Item.isType, hx]; omega
    · cases hj with
      | alias => simp [Item.isValue, Item.isType, hx]
      | interface => simp [Item.isValue, Item.isType, hx]

theorem stubItems_filter {ns : Str} {fs : List RpcItem} {is : List Item} (h : All2 (StubItem P ns) fs is) (x : Str) :
    (is.filter (Item.isValue x)).length = (fs.filter (fun f => f.ident = x)).length ∧ (is.filter (Item.isType x)).length = 0 := by
  induction h with
  | nil => exact ⟨rfl, rfl⟩
  | @cons a b l l' h1 _ ih =>
    obtain ⟨ps, es, t, T, _, _, _, _, rfl⟩ := h1
    obtain ⟨ih1, ih2⟩ := ih
    have e1 : Item.isValue x (.func (stub a.kind ns a.ident ps es T)) = decide (a.ident = x) := rfl
    have e2 : Item.isType x (.func (stub a.kind ns a.ident ps es T)) = false := rfl
    rw [List.filter_cons, List.filter_cons, List.filter_cons, e1, e2]
    by_cases hx : a.ident = x
    · simp only [hx, decide_true, if_true, List.length_cons, ih1]; exact ⟨trivial, ih2⟩
    · simp only [hx, decide_false]; exact ⟨ih1, ih2⟩

theorem no_clash {names : List Str} {M : List Ns} (h : ModuleOf P impls names M)
    (ht : (P.map (fun d => (d.ns, d.name))).Nodup)
    (hf : ∀ x, (((impls.filter (fun b => b.1 = x)).flatMap (·.2)).map (·.ident)).Nodup)
    (hd : ∀ d ∈ P, ∀ b ∈ impls, b.1 = d.ns → ∀ f ∈ b.2, f.ident ≠ d.name) : NoClash M := by
  refine ⟨?_, fun N hN x => ?_⟩
  · have := h.sorted
    refine this.imp (fun {a b} hab e => ?_)
    subst e
    exact strLt_irrefl a hab
  · obtain ⟨ds, fs, ls, is, h1, h2, h3, h4, h5⟩ := h.items N hN
    rw [h5, List.filter_append, List.filter_append, List.length_append, List.length_append, (typeItems_filter h3 x).1,
      (typeItems_filter h3 x).2, (stubItems_filter h4 x).1, (stubItems_filter h4 x).2]
    have hl1 : (ds.filter (fun y => y.1.name = x)).length ≤ 1 := by
      rw [(h1.filter _).length_eq, List.filter_filter]
      have : (P.zipIdx.map (fun y => (y.1.ns, y.1.name))).Nodup := by
        have e : P.zipIdx.map (fun y => (y.1.ns, y.1.name)) = P.map (fun d => (d.ns, d.name)) := by
          rw [show (fun y : Decl × Nat => (y.1.ns, y.1.name)) = (fun d : Decl => (d.ns, d.name)) ∘ Prod.fst from rfl, ← List.map_map,
            List.zipIdx_map_fst]
        rw [e]; exact ht
      have := filter_le_one this (N.name, x)
      refine Nat.le_trans (Nat.le_of_eq (congrArg List.length (List.filter_congr (fun y _ => ?_)))) this
      simp [and_comm]
    have hl2 : (fs.filter (fun f => f.ident = x)).length ≤ 1 := by
      rw [(h2.filter _).length_eq]
      exact filter_le_one (hf N.name) x
    refine ⟨?_, by omega⟩
    by_cases h0 : fs.filter (fun f => f.ident = x) = []
    · rw [h0]; simpa using hl1
    · suffices ds.filter (fun y => y.1.name = x) = [] by rw [this]; simpa using hl2
      obtain ⟨f, hf⟩ := List.exists_mem_of_ne_nil _ h0
      obtain ⟨hf, e⟩ := List.mem_filter.1 hf
      obtain ⟨b, hb, hf⟩ := List.mem_flatMap.1 (h2.subset hf)
      obtain ⟨hb, e1⟩ := List.mem_filter.1 hb
      rw [List.filter_eq_nil_iff]
      intro y hy e2
      obtain ⟨hy, e3⟩ := List.mem_filter.1 (h1.subset hy)
      have hdP : y.1 ∈ P := List.mem_of_getElem? (List.mem_zipIdx_iff_getElem?.1 hy)
      simp only [decide_eq_true_eq] at e e1 e2 e3
      exact hd y.1 hdP b hb (by rw [e1, e3]) f hf (by rw [e, e2])

theorem count_map_filter {α : Type} (g : α → Str) (l : List α) (k : Str) :
    (l.map g).count k = (l.filter (fun a => g a = k)).length := by
  rw [List.count, List.countP_map, List.countP_eq_length_filter]
  congr 1
  refine List.filter_congr (fun a _ => ?_)
  rw [Function.comp_apply, Bool.eq_iff_iff, beq_iff_eq, decide_eq_true_eq]

theorem no_clash_iff {names : List Str} {M : List Ns} (h : ModuleOf P impls names M) :
    NoClash M ↔ ∀ x ∈ names, (declaredNames P impls x).Nodup := by
  have hcount : ∀ N ∈ M, ∀ x, (N.items.filter (Item.isValue x)).length = (declaredNames P impls N.name).count x ∧
      (N.items.filter (Item.isType x)).length ≤ (declaredNames P impls N.name).count x := by
    intro N hN x
    obtain ⟨ds, fs, ls, is, h1, h2, h3, h4, h5⟩ := h.items N hN
    rw [h5, List.filter_append, List.filter_append, List.length_append, List.length_append, (typeItems_filter h3 x).1,
      (typeItems_filter h3 x).2, (stubItems_filter h4 x).1, (stubItems_filter h4 x).2, declaredNames, List.count_append,
      count_map_filter, count_map_filter, (h1.filter _).length_eq, (h2.filter _).length_eq, List.filter_filter, List.filter_filter]
    have e : (P.zipIdx.filter (fun y => decide (y.1.name = x) && decide (y.1.ns = N.name))).length =
        (P.filter (fun d => decide (d.name = x) && decide (d.ns = N.name))).length := by
      conv => rhs; rw [← List.zipIdx_map_fst 0 P, List.filter_map, List.length_map]
      rfl
    rw [e]
    exact ⟨rfl, by omega⟩
  refine ⟨fun hc x hx => ?_, fun hd => ⟨?_, fun N hN x => ?_⟩⟩
  · by_cases hm : x ∈ M.map (·.name)
    · obtain ⟨N, hN, rfl⟩ := List.mem_map.1 hm
      rw [List.nodup_iff_count]
      intro a
      rw [← (hcount N hN a).1]
      exact (hc.2 N hN a).1
    · have hn := fun hh => hm ((h.names x).2 ⟨hx, hh⟩)
      have e1 : P.filter (fun d => d.ns = x) = [] := by
        rw [List.filter_eq_nil_iff]
        intro d hd hdx
        exact hn (.inl ⟨d, hd, by simpa using hdx⟩)
      have e2 : (impls.filter (fun b => b.1 = x)).flatMap (·.2) = [] := by
        rw [List.flatMap_eq_nil_iff]
        intro b hb
        obtain ⟨hb, e⟩ := List.mem_filter.1 hb
        exact Classical.byContradiction fun hne => hn (.inr ⟨b, hb, by simpa using e, hne⟩)
      rw [declaredNames, e1, e2]
      exact .nil
  · refine h.sorted.imp (fun {a b} hab e => ?_)
    subst e
    exact strLt_irrefl a hab
  · have hn : N.name ∈ names := ((h.names N.name).1 (List.mem_map.2 ⟨N, hN, rfl⟩)).1
    have := List.nodup_iff_count.1 (hd N.name hn) x
    have hx := hcount N hN x
    omega

end

end Verif.Ts
