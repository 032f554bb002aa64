import Verif.Ts.ReadModule
import Verif.Ts.Names
import Verif.Ts.Values
import Verif.Ts.Decls
import Verif.Spec.ModuleOf
import Verif.Props.Docs
import Verif.Props.Codegen

/-!
# From registered texts to the declarations of the module (proof helper)
-/

namespace Verif.Ts
open Verif Verif.Js Verif.Schema Verif.SchemaSpec Verif.Spec Verif.Codegen Verif.Zod Verif.Props

/-! ## Lists -/

theorem All2.of_get {α β : Type} {R : α → β → Prop} {l : List α} {r : List β} (hl : l.length = r.length)
    (h : ∀ (k : Nat) a b, l[k]? = some a → r[k]? = some b → R a b) : All2 R l r := by
  induction l generalizing r with
  | nil => cases r with
    | nil => exact .nil
    | cons b r => cases hl
  | cons a l ih => cases r with
    | nil => cases hl
    | cons b r =>
      exact .cons (h 0 a b rfl rfl) (ih (by simpa using hl) (fun k a' b' ha hb => h (k + 1) a' b' (by simpa using ha) (by simpa using hb)))

theorem All2.perm {α β : Type} {R : α → β → Prop} {r r' : List β} (hp : r.Perm r') {l : List α} (h : All2 R l r) :
    ∃ l', l.Perm l' ∧ All2 R l' r' := by
  induction hp generalizing l with
  | nil => cases h; exact ⟨[], .refl _, .nil⟩
  | cons b _ ih =>
    cases h with
    | cons h1 h2 =>
      obtain ⟨l', hl, h'⟩ := ih h2
      exact ⟨_ :: l', hl.cons _, .cons h1 h'⟩
  | swap b c r =>
    cases h with
    | cons h1 h2 => cases h2 with
      | cons h2 h3 => exact ⟨_, .swap _ _ _, .cons h2 (.cons h1 h3)⟩
  | trans _ _ ih1 ih2 =>
    obtain ⟨l1, hl1, h1⟩ := ih1 h
    obtain ⟨l2, hl2, h2⟩ := ih2 h1
    exact ⟨l2, hl1.trans hl2, h2⟩

theorem All2.filter {α β : Type} {R : α → β → Prop} {p : α → Bool} {q : β → Bool} (hpq : ∀ a b, R a b → p a = q b) {l : List α}
    {r : List β} (h : All2 R l r) : All2 R (l.filter p) (r.filter q) := by
  induction h with
  | nil => exact .nil
  | cons h1 _ ih =>
    rw [List.filter_cons, List.filter_cons, hpq _ _ h1]
    split
    · exact .cons h1 ih
    · exact ih

theorem All2.map_left {α β γ : Type} {R : β → γ → Prop} {f : α → β} {l : List α} {r : List γ}
    (h : All2 (fun a c => R (f a) c) l r) : All2 R (l.map f) r := by
  induction h with
  | nil => exact .nil
  | cons h1 _ ih => exact .cons h1 ih

theorem All2.imp {α β : Type} {R S : α → β → Prop} {l : List α} {r : List β} (h : All2 R l r)
    (hi : ∀ a b, R a b → S a b) : All2 S l r := by
  induction h with
  | nil => exact .nil
  | cons h1 _ ih => exact .cons (hi _ _ h1) ih

/-- Composition through functions that exist for related pairs. -/
theorem All2.comp {α β γ : Type} {R : α → β → Prop} {S : β → γ → Prop} {T : α → γ → Prop} {l : List α} {r : List β}
    (h : All2 R l r) (hi : ∀ a ∈ l, ∀ b ∈ r, R a b → ∃ c, S b c ∧ T a c) : ∃ cs, All2 S r cs ∧ All2 T l cs := by
  induction h with
  | nil => exact ⟨[], .nil, .nil⟩
  | cons h1 _ ih =>
    obtain ⟨cs, hs, ht⟩ := ih (fun a ha b hb => hi a (by simp [ha]) b (by simp [hb]))
    obtain ⟨c, hs1, ht1⟩ := hi _ (by simp) _ (by simp) h1
    exact ⟨c :: cs, .cons hs1 hs, .cons ht1 ht⟩

/-! ## Registered types and functions -/

section
variable {P : Program} {impls : List (Str × List RpcItem)}

theorem derive_docs {d : Decl} {impl : Impl} (h : derive d = .ok impl) :
    ∃ docs, Derive.docsText d.attrs = some docs ∧ impl.docs = some docs := by
  cases d with
  | struct s =>
    obtain ⟨docs, sch, td, hd, _, _, _, e⟩ := deriveStruct_ok h
    refine ⟨docs, hd, ?_⟩
    rw [e]; split <;> rfl
  | enum s =>
    obtain ⟨docs, sch, td, hd, _, _, e⟩ := deriveEnum_ok h
    refine ⟨docs, hd, ?_⟩
    rw [e]; split <;> rfl

theorem good_parts (hg : GoodNames P) {d : Decl} (hd : d ∈ P) : goodNs d.ns = true ∧ isIdent d.name = true := by
  have hgd := hg d hd
  cases d with
  | struct s => unfold goodDecl at hgd; simp only [Bool.and_eq_true] at hgd; exact hgd.1
  | enum e => unfold goodDecl at hgd; simp only [Bool.and_eq_true] at hgd; exact hgd.1.1

theorem member_reads (hp : Printable P impls) {o : Options} (ho : GoodAffixes o P) {d : Decl} {i : Nat} {m : Member} (h : IsMember P i d m) :
    ∃ l, ReadsType o m l ∧ TypeItemsWith o P (d, i) l := by
  have hd := List.mem_of_getElem? h.decl
  obtain ⟨n, hs⟩ := h.schema
  obtain ⟨e, he, _⟩ := Zod.eval_agree hp.names hp.styled n .schema (.named i) m.schema (Or.inl rfl) hs
  obtain ⟨n', k, s, hk, ⟨f, hf⟩, htd⟩ := h.typeDef
  have hden := eval_agreeT hp.names hp.typeNames hp.styled f .typeDef (.named i) s (Or.inl rfl) hf
  have hdocs : m.docs.getD [] = [] ∨ DocsSpec.OneComment (m.docs.getD []) := by
    obtain ⟨impl, hi, hm⟩ := h.docs
    obtain ⟨docs, h1, h2⟩ := derive_docs hi
    have hun : Derive.Attr.unparsable ∉ d.attrs := fun hu => by
      rw [(C15_fails_iff _).2 hu] at h1; cases h1
    rw [hm, h2]
    rcases C15_one_comment _ hun (hp.docs d hd) with h3 | ⟨text, h3, h4⟩
    · rw [h1] at h3; injection h3 with h3; exact Or.inl h3
    · rw [h1] at h3; injection h3 with h3; exact Or.inr (h3 ▸ h4)
  have hsn : CodegenSpec.schemaName o m = constName o d.name := by rw [CodegenSpec.schemaName, h.name]; rfl
  rcases kind_text hp.names hp.typeNames hp.styled hp.plain n' _ k hk f s hf with ⟨hne, _⟩ | ⟨hke, _, ⟨r, hr⟩, props, hread⟩ | ⟨_, hb, _⟩
  · have htd' : m.typeDef = .type s := by
      rw [htd]
      cases k with
      | interface => exact absurd rfl hne
      | _ => rfl
    have htn : CodegenSpec.typeName o m = o.prefixType ++ d.name ++ o.suffixType := by rw [CodegenSpec.typeName, htd', h.name]
    refine ⟨[.const (constName o d.name) e, .alias (o.prefixType ++ d.name ++ o.suffixType) (ofDnf (dOf P f .typeDef (.named i)))],
      ⟨hsn ▸ ho.consts d hd, htn ▸ ho.aliases d hd, hdocs, e, dOf P f .typeDef (.named i), he, ?_, ?_⟩, ?_⟩
    · rw [htd']; exact hden
    · rw [hsn, htn, htd']
    · exact ⟨_, e, s, _, _, h.schema, he.read, ⟨f, hf⟩, hden.read, .alias, rfl⟩
  · have htd' : m.typeDef = .interface s := by rw [htd, hke]; rfl
    have hobj : ofDnf (dOf P f .typeDef (.named i)) = .obj props := by
      have := hden.read; rw [hread] at this; injection this with this; exact this.symm
    have htn : CodegenSpec.typeName o m = o.prefixInterface ++ d.name ++ o.suffixInterface := by
      rw [CodegenSpec.typeName, htd', h.name]
    refine ⟨[.const (constName o d.name) e, .interface (o.prefixInterface ++ d.name ++ o.suffixInterface) props],
      ⟨hsn ▸ ho.consts d hd, htn ▸ ho.interfaces d hd, hdocs, e, dOf P f .typeDef (.named i), he, ?_, ?_⟩, ?_⟩
    · rw [htd']; exact hden
    · rw [hsn, htn, htd']; exact ⟨⟨r, hr⟩, props, hobj, rfl⟩
    · exact ⟨_, e, s, _, _, h.schema, he.read, ⟨f, hf⟩, hden.read, .interface props hobj, rfl⟩
  · exact absurd hb (hp.interfaces i)

theorem All2.exists_right {α β : Type} {R : α → β → Prop} {l : List α} (h : ∀ a ∈ l, ∃ b, R a b) : ∃ r, All2 R l r := by
  induction l with
  | nil => exact ⟨[], .nil⟩
  | cons a l ih =>
    obtain ⟨r, hr⟩ := ih (fun x hx => h x (by simp [hx]))
    obtain ⟨b, hb⟩ := h a (by simp)
    exact ⟨b :: r, .cons hb hr⟩

theorem function_reads (hp : Printable P impls) {ns : Str} {i : RpcItem} {m : RpcMember} (hns : isIdent ns = true) (hi : GoodFn i)
    (h : IsRpcMember P ns i m) : ∃ f, ReadsStub m f ∧ StubItem P ns i (.func f) := by
  have hlen : i.args.length = m.args.length := by
    have := congrArg List.length h.argNames
    simpa using this.symm
  have hall : All2 (fun (p : Str × Ty) (a : RpcArg) => a.name = p.1 ∧ p ∈ i.args ∧ Returns P .inline p.2 a.typeDef ∧
      Returns P .inlineSchema p.2 a.schema) i.args m.args := by
    refine All2.of_get hlen (fun k p a hpk hak => ?_)
    have hn : (m.args.map (·.name))[k]? = (i.args.map (·.1))[k]? := by rw [h.argNames]
    rw [List.getElem?_map, List.getElem?_map, hpk, hak] at hn
    injection hn with hn
    exact ⟨hn, List.mem_of_getElem? hpk, h.args k a p hak hpk⟩
  obtain ⟨ps, hps, hps'⟩ := All2.comp hall (S := ArgOk) (T := ParamOf P) (by
    intro p _ a _ ⟨hn, hmem, ⟨n, hin⟩, _⟩
    have hden := eval_agreeT hp.names hp.typeNames hp.styled n .inline p.2 a.typeDef (Or.inr rfl) hin
    have hgood := hi.args p hmem
    exact ⟨(p.1, ofDnf (dOf P n .inline p.2)), ⟨hn.symm, hn ▸ hgood.1, hn ▸ hgood.2, _, hden, rfl⟩, rfl, _, ⟨n, hin⟩, hden.read⟩)
  obtain ⟨es, hes, hes'⟩ := All2.comp hall (S := fun a e => Denotes a.schema e) (T := SchemaOf P) (by
    intro p _ a _ ⟨_, _, _, n, hsc⟩
    obtain ⟨e, he, _⟩ := Zod.eval_agree hp.names hp.styled n .inlineSchema p.2 a.schema (Or.inr rfl) hsc
    exact ⟨e, he, _, ⟨n, hsc⟩, he.read⟩)
  obtain ⟨n, hres⟩ := h.res
  have hden := eval_agreeT hp.names hp.typeNames hp.styled n .typeDef i.output m.res (Or.inl rfl) hres
  refine ⟨stub m.kind m.ns m.name ps es (ofDnf (dOf P n .typeDef i.output)),
    ⟨by rw [h.name]; exact hi.name.1, by rw [h.name]; exact hi.name.2, by rw [h.ns]; exact isIdent_quotable hns,
      ps, es, _, hps, by rw [h.argNames]; exact hi.nodup, All2.map_left hes, hden, rfl⟩,
    ps, es, m.res, _, hps', hes', ⟨n, hres⟩, hden.read, by rw [h.kind, h.ns, h.name]⟩

theorem zipIdx_get {α : Type} {l : List α} {k : Nat} {x : α × Nat} (h : l.zipIdx[k]? = some x) : l[k]? = some x.1 ∧ x.2 = k := by
  rw [List.getElem?_zipIdx] at h
  cases hl : l[k]? with
  | none => rw [hl] at h; cases h
  | some a => rw [hl] at h; simp only [Option.map_some, Nat.zero_add, Option.some.injEq] at h; subst h; exact ⟨rfl, rfl⟩

theorem flatMap_filter (ns : Str) (impls : List (Str × List RpcItem)) :
    ((impls.flatMap (fun b => b.2.map (fun i => (b.1, i)))).filter (fun x => x.1 = ns)).map (·.2) =
      (impls.filter (fun b => b.1 = ns)).flatMap (·.2) := by
  induction impls with
  | nil => rfl
  | cons b l ih =>
    rw [List.flatMap_cons, List.filter_append, List.map_append, ih, List.filter_cons]
    by_cases h : b.1 = ns
    · rw [if_pos (by simpa using h), List.flatMap_cons]
      congr 1
      rw [List.filter_map, List.map_map]
      have : List.filter ((fun x : Str × RpcItem => decide (x.1 = ns)) ∘ fun i => (b.1, i)) b.2 = b.2 := by
        rw [List.filter_eq_self]; intro a _; simpa using h
      rw [this]
      exact List.map_id _
    · rw [if_neg (by simpa using h)]
      rw [List.filter_map]
      have : List.filter ((fun x : Str × RpcItem => decide (x.1 = ns)) ∘ fun i => (b.1, i)) b.2 = [] := by
        rw [List.filter_eq_nil_iff]; intro a _; simpa using h
      rw [this]; rfl

theorem module_blocks (hp : Printable P impls) {o : Options} (ho : GoodAffixes o P) {r : Registry} (h : IsModule P impls r)
    (names : List Str) : ∃ nss M, nss.Pairwise strLt ∧ (∀ x, x ∈ nss ↔ x ∈ names ∧ CodegenSpec.Populated r x) ∧
      All2 (ReadsNs r o) nss M ∧ ModuleWith o P impls names M := by
  obtain ⟨nss, hsort, hmem, hgen⟩ := C18_options r names [] o
  obtain ⟨ms, hperm, hlen, hms⟩ := h.types
  obtain ⟨fl, hfperm, hflen, hfl⟩ := h.rpc
  -- types, in the order of registration
  have hall : All2 (fun (x : Decl × Nat) m => IsMember P x.2 x.1 m) P.zipIdx ms := by
    refine All2.of_get (by simp [hlen]) (fun k x m hx hm => ?_)
    obtain ⟨h1, h2⟩ := zipIdx_get hx
    rw [h2]
    exact hms k x.1 m h1 hm
  obtain ⟨ds, hds, hall⟩ := All2.perm hperm hall
  -- functions
  have hallf : All2 (fun (x : Str × RpcItem) m => IsRpcMember P x.1 x.2 m) fl r.rpc := All2.of_get hflen hfl
  have hin : ∀ x ∈ fl, ∃ b ∈ impls, b.1 = x.1 ∧ x.2 ∈ b.2 := by
    intro x hx
    obtain ⟨b, hb, hx⟩ := List.mem_flatMap.1 (hfperm.subset hx)
    obtain ⟨i, hi, rfl⟩ := List.mem_map.1 hx
    exact ⟨b, hb, rfl, hi⟩
  have hpop : ∀ x, CodegenSpec.Populated r x ↔ (∃ d ∈ P, d.ns = x) ∨ ∃ b ∈ impls, b.1 = x ∧ b.2 ≠ [] := by
    intro x
    unfold CodegenSpec.Populated
    refine or_congr ⟨fun ⟨m, hm, e⟩ => ?_, fun ⟨d, hd, e⟩ => ?_⟩ ⟨fun ⟨m, hm, e⟩ => ?_, fun ⟨b, hb, e, hne⟩ => ?_⟩
    · obtain ⟨y, _, hy⟩ := All2.mem_right hall hm
      exact ⟨y.1, List.mem_of_getElem? hy.decl, by rw [← hy.ns, e]⟩
    · obtain ⟨k, hk, hk'⟩ := List.mem_iff_getElem.1 hd
      have : (d, k) ∈ ds := hds.subset (List.mem_zipIdx_iff_getElem?.2 (by rw [List.getElem?_eq_getElem hk, hk']))
      obtain ⟨m, hm, hy⟩ := All2.mem_left hall this
      exact ⟨m, hm, by rw [hy.ns, e]⟩
    · obtain ⟨y, hy, hm'⟩ := All2.mem_right hallf hm
      obtain ⟨b, hb, e1, e2⟩ := hin y hy
      exact ⟨b, hb, by rw [e1, ← hm'.ns, e], fun h0 => by rw [h0] at e2; cases e2⟩
    · obtain ⟨i, l, hl⟩ : ∃ i l, b.2 = i :: l := by
        cases hb2 : b.2 with
        | nil => exact absurd hb2 hne
        | cons i l => exact ⟨i, l, rfl⟩
      have : (b.1, i) ∈ fl := hfperm.symm.subset (List.mem_flatMap.2 ⟨b, hb, by rw [hl]; simp⟩)
      obtain ⟨m, hm, hy⟩ := All2.mem_left hallf this
      exact ⟨m, hm, by rw [hy.ns, e]⟩
  -- one namespace
  have key : ∀ x ∈ nss, ∃ N, ReadsNs r o x N ∧ N.name = x ∧ ∃ ds fs ls is, ds.Perm (P.zipIdx.filter (fun y => y.1.ns = x)) ∧
      fs.Perm ((impls.filter (fun b => b.1 = x)).flatMap (·.2)) ∧
      All2 (TypeItemsWith o P) ds ls ∧ All2 (StubItem P x) fs is ∧ N.items = ls.flatten ++ is := by
    intro x hx
    have hident : isIdent x = true ∧ bindable x = true := by
      rcases (hpop x).1 ((hmem x).1 hx).2 with ⟨d, hd, e⟩ | ⟨b, hb, e, _⟩
      · have := (good_parts hp.names hd).1
        rw [e] at this
        unfold goodNs at this
        simp only [Bool.and_eq_true] at this
        exact this.1
      · rw [← e]; exact hp.rpcNames b hb
    have h1 := All2.filter (p := fun y : Decl × Nat => decide (y.1.ns = x)) (q := fun m => decide (m.ns = x))
      (fun a b hab => by rw [hab.ns]) hall
    obtain ⟨ls, hls, hls'⟩ := All2.comp h1 (S := ReadsType o) (T := TypeItemsWith o P) (fun a _ m _ hm => member_reads hp ho hm)
    have h2 := All2.filter (p := fun y : Str × RpcItem => decide (y.1 = x)) (q := fun m => decide (m.ns = x))
      (fun a b hab => by rw [hab.ns]) hallf
    obtain ⟨fs, hfs, hfs'⟩ := All2.comp h2 (S := ReadsStub) (T := fun y f => StubItem P x y.2 (.func f)) (by
      intro y hy m _ hm
      have hy1 : y.1 = x := by simpa using (List.mem_filter.1 hy).2
      obtain ⟨b, hb, _, e2⟩ := hin y (List.mem_filter.1 hy).1
      rw [hy1] at hm
      exact function_reads hp hident.1 (hp.functions b hb _ e2) hm)
    refine ⟨⟨x, ls.flatten ++ fs.map .func⟩, ⟨hident.1, hident.2, ls, fs, hls, hfs, rfl⟩, rfl, _,
      (fl.filter (fun y => decide (y.1 = x))).map (·.2), ls, fs.map .func, (hds.symm.filter _), ?_, hls', ?_, rfl⟩
    · rw [← flatMap_filter]
      exact (hfperm.filter _).map _
    · refine All2.map_left ?_
      clear hfs h2
      generalize fl.filter (fun y => decide (y.1 = x)) = fl' at hfs'
      induction hfs' with
      | nil => exact .nil
      | cons h1 _ ih => exact .cons h1 ih
  obtain ⟨M, hM⟩ := All2.exists_right key
  have hnames : M.map (·.name) = nss := by
    clear hgen hsort hmem key
    induction hM with
    | nil => rfl
    | cons h1 _ ih => rw [List.map_cons, h1.2.1, ih]
  refine ⟨nss, M, hsort, hmem, All2.imp hM (fun _ _ hx => hx.1), ⟨hnames ▸ hsort, fun x => ?_, fun N hN => ?_⟩⟩
  · rw [hnames, hmem, hpop]
  · obtain ⟨x, _, _, hx, hitems⟩ := All2.mem_right hM hN
    rw [hx]
    exact hitems

theorem module_reads_with (hp : Printable P impls) {o : Options} (ho : GoodAffixes o P) {r : Registry} (h : IsModule P impls r)
    (names : List Str) (client : Str) :
    ∃ text M, generateWithOptions r names client o = client ++ text ∧ readModule text = some M ∧ ModuleWith o P impls names M := by
  obtain ⟨nss, M, h1, h2, h3, h4⟩ := module_blocks hp ho h names
  obtain ⟨nss', g1, g2, g3⟩ := C18_options r names client o
  rw [C18_blocks_unique g1 h1 g2 h2] at g3
  exact ⟨_, M, g3, read_blocks h3, h4⟩

theorem declaresType_default {n : Str} {T : TsType} {i : Item} : DeclaresTypeAs Options.default n T i ↔ DeclaresType n T i := by
  constructor
  · intro h
    cases h with
    | alias =>
      show DeclaresType n T (.alias ([] ++ n ++ []) T)
      rw [List.nil_append, List.append_nil]; exact .alias
    | interface ps e =>
      show DeclaresType n T (.interface ([] ++ n ++ []) ps)
      rw [List.nil_append, List.append_nil]; exact .interface ps e
  · intro h
    cases h with
    | alias =>
      have h : DeclaresTypeAs Options.default n T (.alias ([] ++ n ++ []) T) := .alias
      rwa [List.nil_append, List.append_nil] at h
    | interface ps e =>
      have h : DeclaresTypeAs Options.default n T (.interface ([] ++ n ++ []) ps) := .interface ps e
      rwa [List.nil_append, List.append_nil] at h

theorem constName_default (n : Str) : constName Options.default n = n := by
  show [] ++ n ++ [] = n
  rw [List.nil_append, List.append_nil]

theorem typeItems_default {x : Decl × Nat} {l : List Item} : TypeItemsWith Options.default P x l ↔ TypeItems P x l := by
  simp only [TypeItemsWith, TypeItems, declaresType_default, constName_default]

theorem moduleWith_default {names : List Str} {M : List Ns} :
    ModuleWith Options.default P impls names M ↔ ModuleOf P impls names M := by
  have e : TypeItemsWith Options.default P = TypeItems P := by
    funext x l; exact propext typeItems_default
  exact ⟨fun ⟨a, b, c⟩ => ⟨a, b, e ▸ c⟩, fun ⟨a, b, c⟩ => ⟨a, b, e ▸ c⟩⟩

theorem goodAffixes_default (hp : Printable P impls) : GoodAffixes Options.default P := by
  have e : ∀ d ∈ P, isIdent ([] ++ d.name ++ []) = true ∧ declarable ([] ++ d.name ++ []) = true := fun d hd => by
    rw [List.nil_append, List.append_nil]
    exact ⟨(good_parts hp.names hd).2, hp.declarable d hd⟩
  exact ⟨fun d hd => ⟨(e d hd).1, bindable_of (e d hd).2⟩, e, e⟩

theorem module_reads (hp : Printable P impls) {r : Registry} (h : IsModule P impls r) (names : List Str) (client : Str) :
    ∃ text M, generate r names client = client ++ text ∧ readModule text = some M ∧ ModuleOf P impls names M := by
  obtain ⟨text, M, h1, h2, h3⟩ := module_reads_with hp (goodAffixes_default hp) h names client
  exact ⟨text, M, h1, h2, moduleWith_default.1 h3⟩

end

end Verif.Ts
