import Verif.Zod.ZOf
import Verif.Schema.Lemmas
import Verif.Js.Uses

/-!
# Evaluating texts to schemas, piece by piece
-/

namespace Verif.Zod
open Verif Verif.Js Verif.Schema

/-- The text is an expression; evaluating it gives this schema, or throws if there is none; it refers to `z` and
names allowed by `Q` only. -/
def EvalsR (Q : Str → Str → Prop) (s : Str) (z : Option ZSchema) : Prop :=
  ∃ e, Denotes s e ∧ evalE e = z.map V.schema ∧ UsesOk Q e

variable {Q : Str → Str → Prop}
local notation "Evals" => EvalsR Q

theorem EvalsR.read {s : Str} {z : Option ZSchema} (h : Evals s z) : readSchema s = z := by
  obtain ⟨e, h1, h2, _⟩ := h
  unfold readSchema
  rw [h1.read]
  simp only [h2]
  cases z <;> rfl

theorem EvalsR.denotes {s : Str} {z : Option ZSchema} (h : Evals s z) : ∃ e, readExpr s = some e := by
  obtain ⟨e, h1, _⟩ := h
  exact ⟨e, h1.read⟩

/-- Constant texts. -/
theorem denotes_const {s : Str} {e : JsExpr} (h : (lexRun ⟨[], .start⟩ s).mode = .start)
    (h' : ∀ k c, Starts c → pRun (k, c) (toks s) = some (k, .have_ e)) : Denotes s e :=
  ⟨_, lexes_toks h, h'⟩

theorem evals_optional {s : Str} {z : Option ZSchema} (h : Evals s z) :
    Evals (s ++ lit ".optional()") (z.map .optional) := by
  obtain ⟨e, h1, h2, hu⟩ := h
  refine ⟨_, h1.method (m := lit "optional") (fun _ => rfl), ?_, (hu.member _).call (by simp)⟩
  simp only [evalE, h2, evalE.evalEs]
  cases z with
  | none => rfl
  | some a => cases a <;> rfl

theorem evals_optZ {s : Str} {z : Option ZSchema} (b : Bool) (h : Evals s z) :
    Evals (s ++ optionalText b) (optZ b z) := by
  cases b with
  | false => simpa [optionalText, optZ] using h
  | true => exact evals_optional h

/-- `z.f` -/
def zm (f : Str) : JsExpr := .member (.var (lit "z")) f

theorem evals_array {s : Str} {z : Option ZSchema} (h : Evals s z) :
    Evals (lit "z.array(" ++ s ++ lit ")") (z.map .array) := by
  obtain ⟨e, h1, h2, hu⟩ := h
  refine ⟨_, Denotes.call1 (f := zm (lit "array"))
    (fun k c hc => Trans.const rfl (by rcases hc with rfl | rfl <;> rfl)) h1, ?_, (UsesOk.z _).call hu.one⟩
  simp only [evalE, h2, evalE.evalEs, zm]
  cases z <;> rfl

theorem evals_set {s : Str} {z : Option ZSchema} (h : Evals s z) :
    Evals (lit "z.set(" ++ s ++ lit ")") (z.map .set) := by
  obtain ⟨e, h1, h2, hu⟩ := h
  refine ⟨_, Denotes.call1 (f := zm (lit "set"))
    (fun k c hc => Trans.const rfl (by rcases hc with rfl | rfl <;> rfl)) h1, ?_, (UsesOk.z _).call hu.one⟩
  simp only [evalE, h2, evalE.evalEs, zm]
  cases z <;> rfl

theorem evals_map {s s' : Str} {z z' : Option ZSchema} (h : Evals s z) (h' : Evals s' z') :
    Evals (lit "z.map(" ++ (s ++ (lit ", " ++ (s' ++ lit ")")))) (z.bind fun a => z'.bind fun b => some (.map a b)) := by
  obtain ⟨e, h1, h2, hu⟩ := h
  obtain ⟨e', h1', h2', hu'⟩ := h'
  refine ⟨.call (zm (lit "map")) [e, e'], Denotes.of_trans fun k c hc => ?_, ?_, (UsesOk.z _).call (hu.two hu')⟩
  · refine Trans.append (B := (.call (zm (lit "map")) [] :: k, .needOrClose))
      (Trans.const rfl (by rcases hc with rfl | rfl <;> rfl)) ?_
    refine (h1.trans _ (Or.inr rfl)).append ?_
    refine Trans.append (B := (.call (zm (lit "map")) [e] :: k, .need)) (Trans.const rfl rfl) ?_
    exact (h1'.trans _ (Or.inl rfl)).append (Trans.const rfl rfl)
  · simp only [evalE, h2, h2', evalE.evalEs, zm]
    cases z <;> cases z' <;> rfl

theorem evalEs_all {es : List JsExpr} {zs : List (Option ZSchema)}
    (h : All2 (fun e z => evalE e = z.map V.schema) es zs) :
    evalE.evalEs es = (allSome zs).map (fun l => l.map V.schema) := by
  induction h with
  | nil => rfl
  | @cons e z es zs h1 _ ih =>
    rw [evalE.evalEs, h1, ih]
    cases z with
    | none => rfl
    | some a => cases h : allSome zs <;> simp [allSome, h]

theorem schemas_map (zs : List ZSchema) : schemas (zs.map V.schema) = some zs := by
  induction zs with
  | nil => rfl
  | cons z zs ih => simp [schemas, ih]

theorem all2_evals {ss : List Str} {zs : List (Option ZSchema)} (h : All2 Evals ss zs) :
    ∃ es, All2 Denotes ss es ∧ All2 (fun e z => evalE e = z.map V.schema) es zs ∧ ∀ e ∈ es, UsesOk Q e := by
  induction h with
  | nil => exact ⟨[], .nil, .nil, by simp⟩
  | cons h1 _ ih =>
    obtain ⟨e, a, b, hu⟩ := h1
    obtain ⟨es, c, d, hus⟩ := ih
    exact ⟨e :: es, .cons a c, .cons b d, by simpa using ⟨hu, hus⟩⟩

/-- A list of schemas in a call of one argument. -/
theorem denotes_list {f : JsExpr} {p : Str} {ss : List Str} {es : List JsExpr}
    (hp : ∀ k c, Starts c → Trans p (k, c) (.call f [] :: k, .needOrClose)) (h : All2 Denotes ss es) :
    Denotes (p ++ (lit "[" ++ join (lit ", ") ss ++ lit "]") ++ lit ")") (.call f [.arr es]) :=
  Denotes.call1 hp (Denotes.arr sep_comma h)

theorem evals_tuple {ss : List Str} {zs : List (Option ZSchema)} (h : All2 Evals ss zs) :
    Evals (lit "z.tuple([" ++ join (lit ", ") ss ++ lit "])") ((allSome zs).map .tuple) := by
  obtain ⟨es, h1, h2, hu⟩ := all2_evals h
  refine ⟨.call (zm (lit "tuple")) [.arr es], ?_, ?_, (UsesOk.z _).call (UsesOk.arr hu).one⟩
  · have := denotes_list (f := zm (lit "tuple")) (p := lit "z.tuple(")
      (fun k c hc => Trans.const rfl (by rcases hc with rfl | rfl <;> rfl)) h1
    simp only [List.append_assoc] at this ⊢
    exact this
  · simp only [evalE, evalE.evalEs, evalEs_all h2, zm]
    cases allSome zs with
    | none => rfl
    | some l =>
      show applyMeth .zod .tuple [.list (l.map V.schema)] = _
      simp [applyMeth, schemas_map]

theorem evals_union {ss : List Str} {zs : List (Option ZSchema)} (h : All2 Evals ss zs) :
    Evals (lit "z.union([" ++ join (lit ", ") ss ++ lit "])") ((allSome zs).map .union) := by
  obtain ⟨es, h1, h2, hu⟩ := all2_evals h
  refine ⟨.call (zm (lit "union")) [.arr es], ?_, ?_, (UsesOk.z _).call (UsesOk.arr hu).one⟩
  · have := denotes_list (f := zm (lit "union")) (p := lit "z.union(")
      (fun k c hc => Trans.const rfl (by rcases hc with rfl | rfl <;> rfl)) h1
    simp only [List.append_assoc] at this ⊢
    exact this
  · simp only [evalE, evalE.evalEs, evalEs_all h2, zm]
    cases allSome zs with
    | none => rfl
    | some l =>
      show applyMeth .zod .union [.list (l.map V.schema)] = _
      simp [applyMeth, schemas_map]

theorem evals_disc {t : Str} (ht : isQuotable t = true) {ss : List Str} {zs : List (Option ZSchema)}
    (h : All2 Evals ss zs) :
    Evals (lit "z.discriminatedUnion(\"" ++ t ++ lit "\", [" ++ join (lit ", ") ss ++ lit "])")
      (discZ t zs) := by
  obtain ⟨es, h1, h2, hu⟩ := all2_evals h
  refine ⟨.call (zm (lit "discriminatedUnion")) [.str t, .arr es], Denotes.of_trans fun k c hc => ?_, ?_,
    (UsesOk.z _).call ((UsesOk.str t).two (UsesOk.arr hu))⟩
  · have : lit "z.discriminatedUnion(\"" ++ t ++ lit "\", [" ++ join (lit ", ") ss ++ lit "])" =
        lit "z.discriminatedUnion(" ++ ((lit "\"" ++ t ++ lit "\"") ++ (lit ", " ++
          ((lit "[" ++ join (lit ", ") ss ++ lit "]") ++ lit ")"))) := by
      simp only [List.append_assoc]; rfl
    rw [this]
    refine Trans.append (B := (.call (zm (lit "discriminatedUnion")) [] :: k, .needOrClose))
      (Trans.const rfl (by rcases hc with rfl | rfl <;> rfl)) ?_
    refine Trans.append (Trans.quoted ht rfl) ?_
    refine Trans.append (B := (.call (zm (lit "discriminatedUnion")) [.str t] :: k, .need))
      (Trans.const rfl rfl) ?_
    exact ((Denotes.arr sep_comma h1).trans _ (Or.inl rfl)).append (Trans.const rfl rfl)
  · simp only [evalE, evalE.evalEs, evalEs_all h2, zm, discZ]
    cases allSome zs with
    | none => rfl
    | some l =>
      show applyMeth .zod .discriminatedUnion [.str t, .list (l.map V.schema)] = _
      simp only [applyMeth, schemas_map]
      cases discOptions t l <;> rfl

theorem evals_literal {w : Str} (h : isQuotable w = true) :
    Evals (lit "z.literal(\"" ++ w ++ lit "\")") (some (.literal w)) := by
  refine ⟨.call (zm (lit "literal")) [.str w], Denotes.of_trans fun k c hc => ?_, rfl,
    (UsesOk.z _).call (UsesOk.str w).one⟩
  have : lit "z.literal(\"" ++ w ++ lit "\")" =
      lit "z.literal(" ++ ((lit "\"" ++ w ++ lit "\"") ++ lit ")") := by simp only [List.append_assoc]; rfl
  rw [this]
  refine Trans.append (B := (.call (zm (lit "literal")) [] :: k, .needOrClose))
    (Trans.const rfl (by rcases hc with rfl | rfl <;> rfl)) ?_
  exact Trans.append (Trans.quoted h rfl) (Trans.const rfl rfl)

theorem denotes_lazy {ns name : Str} (h1 : isIdent ns = true) (h2 : reserved.contains ns = false) (h4 : isIdent name = true) :
    Denotes (lit "z.lazy(() => " ++ ns ++ lit "." ++ name ++ lit ")") (.call (zm (lit "lazy")) [.arrow (.member (.var ns) name)]) := by
  refine Denotes.of_trans fun k c hc => ?_
  have : lit "z.lazy(() => " ++ ns ++ lit "." ++ name ++ lit ")" =
      lit "z.lazy(() => " ++ (ns ++ (lit "." ++ (name ++ lit ")"))) := by simp only [List.append_assoc]
  rw [this]
  refine Trans.append (B := (.arrow :: .call (zm (lit "lazy")) [] :: k, .body))
    (Trans.const rfl (by rcases hc with rfl | rfl <;> rfl)) ?_
  refine Trans.ident (B := (.arrow :: .call (zm (lit "lazy")) [] :: k, .have_ (.var ns))) h1
    (by show (if reserved.contains ns then none else _) = _; rw [h2]; rfl) ?_ ⟨'.', _, rfl, rfl⟩
  refine Trans.append (B := (.arrow :: .call (zm (lit "lazy")) [] :: k, .dot (.var ns)))
    (Trans.const rfl rfl) ?_
  exact Trans.ident h4 rfl (Trans.const rfl rfl) ⟨')', _, rfl, rfl⟩

theorem evals_lazy {ns name : Str} (h1 : isIdent ns = true) (h2 : reserved.contains ns = false)
    (h3 : ns ≠ lit "z") (h4 : isIdent name = true) (hq : Q ns name) :
    Evals (lit "z.lazy(() => " ++ ns ++ lit "." ++ name ++ lit ")") (some (.lazy ns name)) := by
  refine ⟨.call (zm (lit "lazy")) [.arrow (.member (.var ns) name)], denotes_lazy h1 h2 h4, ?_,
    (UsesOk.z _).call (UsesOk.ref hq).one⟩
  simp only [evalE, evalE.evalEs, zm, if_neg h3]
  rfl

/-- A property of an object of schemas. -/
def EvEntryR (Q : Str → Str → Prop) (s : Str) (kz : Str × Option ZSchema) : Prop :=
  isIdent kz.1 = true ∧ ∃ v, s = kz.1 ++ (lit ": " ++ v) ∧ EvalsR Q v kz.2

local notation "EvEntry" => EvEntryR Q

theorem all2_entries {ss : List Str} {kzs : List (Str × Option ZSchema)} (h : All2 EvEntry ss kzs) :
    ∃ kes : List (Str × JsExpr), All2 Entry ss kes ∧ kes.map (·.1) = kzs.map (·.1) ∧
      All2 (fun e z => evalE e = z.map V.schema) (kes.map (·.2)) (kzs.map (·.2)) ∧
      ∀ e ∈ kes.map (·.2), UsesOk Q e := by
  induction h with
  | nil => exact ⟨[], .nil, rfl, .nil, by simp⟩
  | @cons s kz ss kzs h1 _ ih =>
    obtain ⟨hi, v, rfl, e, hd, he, hu⟩ := h1
    obtain ⟨kes, a, b, c, hus⟩ := ih
    exact ⟨(kz.1, e) :: kes, .cons ⟨hi, v, rfl, hd⟩ a, by simp [b], .cons he c, by
      rw [List.map_cons]
      intro x hx
      rcases List.mem_cons.1 hx with rfl | hx
      · exact hu
      · exact hus x hx⟩

theorem shapeOf_zip (keys : List Str) (zs : List ZSchema) :
    shapeOf (keys.zip (zs.map V.schema)) = some (keys.zip zs) := by
  induction keys generalizing zs with
  | nil => rfl
  | cons k keys ih =>
    cases zs with
    | nil => rfl
    | cons z zs => simp [shapeOf, ih]

theorem evals_object {sep op fin : Str} (hsep : Sep sep) (hop : Lexes op [.p '{'])
    (hfin : Lexes fin [.p '}']) {ss : List Str} {kzs : List (Str × Option ZSchema)}
    (h : All2 EvEntry ss kzs) :
    Evals (lit "z.object(" ++ (op ++ join sep ss ++ fin) ++ lit ")") (objZ kzs) := by
  obtain ⟨kes, h1, h2, h3, hu⟩ := all2_entries h
  refine ⟨_, Denotes.call1 (f := zm (lit "object"))
    (fun k c hc => Trans.const rfl (by rcases hc with rfl | rfl <;> rfl)) (Denotes.obj hsep hop hfin h1), ?_,
    (UsesOk.z _).call (UsesOk.obj hu).one⟩
  simp only [evalE, evalE.evalEs, evalEs_all h3, zm, objZ, h2]
  cases allSome (kzs.map (·.2)) with
  | none => rfl
  | some l =>
    simp only [Option.map_some, recordOf]
    cases hd : (distinct (kzs.map (·.1)) && !(kzs.map (·.1)).contains (lit "__proto__")) with
    | false => rfl
    | true =>
      show applyMeth .zod .object [.record ((kzs.map (·.1)).zip (l.map V.schema))] = _
      simp [applyMeth, shapeOf_zip]

theorem evals_extend {s p : Str} {z y : Option ZSchema} (hs : Evals s z) (hp : Evals p y)
    (hz : ∀ a, z = some a → a = .broken ∨ ∃ sh, a = .object sh) :
    Evals (s ++ (lit ".extend(" ++ (p ++ lit ")"))) (y.bind fun _ => z.map (fun _ => .broken)) := by
  obtain ⟨e, h1, h2, hu⟩ := hs
  obtain ⟨e', h1', h2', hu'⟩ := hp
  refine ⟨.call (.member e (lit "extend")) [e'], Denotes.of_trans fun k c hc => ?_, ?_,
    (hu.member _).call hu'.one⟩
  · refine (h1.trans _ hc).append ?_
    refine Trans.append (B := (.call (.member e (lit "extend")) [] :: k, .needOrClose)) (Trans.const rfl rfl) ?_
    exact (h1'.trans _ (Or.inr rfl)).append (Trans.const rfl rfl)
  · simp only [evalE, evalE.evalEs, h2, h2']
    cases y with
    | none => cases z <;> rfl
    | some b =>
      cases z with
      | none => rfl
      | some a =>
        rcases hz a rfl with rfl | ⟨sh, rfl⟩ <;> rfl

set_option maxRecDepth 10000 in
theorem evals_prim (p : Prim) : Evals p.schema (primZ p) := by
  have key : ∀ s : Str, (lexRun ⟨[], .start⟩ s).mode = .start → ∀ (e : JsExpr) (z : Option ZSchema),
      (∀ k, pRun (k, .need) (toks s) = some (k, .have_ e)) →
      (∀ k, pRun (k, .needOrClose) (toks s) = some (k, .have_ e)) →
      evalE e = z.map V.schema → e.uses.all (fun u => u.1 = lit "z") = true → Evals s z := by
    intro s hs e z h1 h2 h3 h4
    refine ⟨e, denotes_const hs ?_, h3, fun u hu => Or.inl (by simpa using List.all_eq_true.1 h4 u hu)⟩
    intro k c hc
    rcases hc with rfl | rfl
    · exact h1 k
    · exact h2 k
  cases p <;> exact key _ rfl _ _ (fun k => rfl) (fun k => rfl) rfl rfl

end Verif.Zod
