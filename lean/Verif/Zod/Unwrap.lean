import Verif.Zod.Module
import Verif.Schema.Norm

/-!
# Wrappers and the meaning of schemas

Around a derived type a wrapper replaces the reference `z.lazy(() => NS.NAME)` by the schema of the type. Here: schemas that differ
in this way only give the same results.
-/

namespace Verif.Zod
open Verif Verif.Js Verif.Schema Verif.Spec Verif.SchemaSpec

/-! ## Schemas that are alike except for their parts -/

/-- Schemas with the same outermost construction, whose parts are related by `S`. -/
inductive Cong (S : ZSchema → ZSchema → Prop) : ZSchema → ZSchema → Prop where
  | string (cs : List StrCheck) : Cong S (.string cs) (.string cs)
  | number (cs : List NumCheck) : Cong S (.number cs) (.number cs)
  | null : Cong S .null .null
  | literal (s : Str) : Cong S (.literal s) (.literal s)
  | broken : Cong S .broken .broken
  | array {a b : ZSchema} : S a b → Cong S (.array a) (.array b)
  | set {a b : ZSchema} : S a b → Cong S (.set a) (.set b)
  | optional {a b : ZSchema} : S a b → Cong S (.optional a) (.optional b)
  | map {a b c d : ZSchema} : S a b → S c d → Cong S (.map a c) (.map b d)
  | tuple (l : List (ZSchema × ZSchema)) : (∀ p ∈ l, S p.1 p.2) → Cong S (.tuple (l.map (·.1))) (.tuple (l.map (·.2)))
  | union (l : List (ZSchema × ZSchema)) : (∀ p ∈ l, S p.1 p.2) → Cong S (.union (l.map (·.1))) (.union (l.map (·.2)))
  | object (l : List (Str × ZSchema × ZSchema)) : (∀ p ∈ l, S p.2.1 p.2.2) →
      Cong S (.object (l.map (fun p => (p.1, p.2.1)))) (.object (l.map (fun p => (p.1, p.2.2))))
  | disc (tag : Str) (l : List (Str × ZSchema × ZSchema)) : (∀ p ∈ l, S p.2.1 p.2.2) →
      Cong S (.discUnion tag (l.map (fun p => (p.1, p.2.1)))) (.discUnion tag (l.map (fun p => (p.1, p.2.2))))

theorem Cong.symm {S : ZSchema → ZSchema → Prop} {z z' : ZSchema} (h : Cong S z z') : Cong (fun a b => S b a) z' z := by
  have e1 : ∀ l : List (ZSchema × ZSchema), l.map (·.2) = (l.map Prod.swap).map (·.1) ∧ l.map (·.1) = (l.map Prod.swap).map (·.2) := by
    intro l; constructor <;> (rw [List.map_map]; rfl)
  have e2 : ∀ l : List (Str × ZSchema × ZSchema),
      l.map (fun p => (p.1, p.2.2)) = (l.map (fun p => (p.1, p.2.2, p.2.1))).map (fun p => (p.1, p.2.1)) ∧
      l.map (fun p => (p.1, p.2.1)) = (l.map (fun p => (p.1, p.2.2, p.2.1))).map (fun p => (p.1, p.2.2)) := by
    intro l; constructor <;> (rw [List.map_map]; rfl)
  cases h with
  | string cs => exact .string cs
  | number cs => exact .number cs
  | null => exact .null
  | literal s => exact .literal s
  | broken => exact .broken
  | array h => exact .array h
  | set h => exact .set h
  | optional h => exact .optional h
  | map h h' => exact .map h h'
  | tuple l h =>
    rw [(e1 l).1, (e1 l).2]
    refine .tuple _ (fun p hp => ?_)
    obtain ⟨q, hq, rfl⟩ := List.mem_map.1 hp
    exact h q hq
  | union l h =>
    rw [(e1 l).1, (e1 l).2]
    refine .union _ (fun p hp => ?_)
    obtain ⟨q, hq, rfl⟩ := List.mem_map.1 hp
    exact h q hq
  | object l h =>
    rw [(e2 l).1, (e2 l).2]
    refine .object _ (fun p hp => ?_)
    obtain ⟨q, hq, rfl⟩ := List.mem_map.1 hp
    exact h q hq
  | disc tag l h =>
    rw [(e2 l).1, (e2 l).2]
    refine .disc tag _ (fun p hp => ?_)
    obtain ⟨q, hq, rfl⟩ := List.mem_map.1 hp
    exact h q hq

theorem allRes_lift {α β : Type} {f : α → Res β} {g : Nat → α → Res β}
    (mono : ∀ a n m x, n ≤ m → g n a = some x → g m a = some x) (l : List α)
    (h : ∀ a ∈ l, ∀ x, f a = some x → ∃ n, g n a = some x) {x : Option (List β)} (hx : allRes (l.map f) = some x) :
    ∃ n, allRes (l.map (g n)) = some x := by
  induction l generalizing x with
  | nil => exact ⟨0, hx⟩
  | cons a r ih =>
    simp only [List.map_cons] at hx ⊢
    cases hf : f a with
    | none => rw [hf] at hx; cases hx
    | some y =>
      rw [hf, allRes] at hx
      cases hr : allRes (r.map f) with
      | none => rw [hr] at hx; cases hx
      | some z =>
        rw [hr] at hx
        obtain ⟨n₁, h₁⟩ := h a List.mem_cons_self y hf
        obtain ⟨n₂, h₂⟩ := ih (fun b hb => h b (List.mem_cons_of_mem _ hb)) hr
        refine ⟨max n₁ n₂, ?_⟩
        rw [mono a n₁ _ _ (Nat.le_max_left _ _) h₁, allRes,
          allRes_mono (g := g (max n₁ n₂)) (fun b x hb => mono b n₂ _ x (Nat.le_max_right _ _) hb) r h₂]
        exact hx

theorem firstRes_lift {α β : Type} {f : α → Res β} {g : Nat → α → Res β}
    (mono : ∀ a n m x, n ≤ m → g n a = some x → g m a = some x) (l : List α)
    (h : ∀ a ∈ l, ∀ x, f a = some x → ∃ n, g n a = some x) {x : Option β} (hx : firstRes (l.map f) = some x) :
    ∃ n, firstRes (l.map (g n)) = some x := by
  induction l generalizing x with
  | nil => exact ⟨0, hx⟩
  | cons a r ih =>
    simp only [List.map_cons] at hx ⊢
    cases hf : f a with
    | none => rw [hf] at hx; cases hx
    | some y =>
      rw [hf] at hx
      obtain ⟨n₁, h₁⟩ := h a List.mem_cons_self y hf
      cases y with
      | some b => exact ⟨n₁, by rw [h₁]; exact hx⟩
      | none =>
        obtain ⟨n₂, h₂⟩ := ih (fun b hb => h b (List.mem_cons_of_mem _ hb)) hx
        refine ⟨max n₁ n₂, ?_⟩
        rw [mono a n₁ _ _ (Nat.le_max_left _ _) h₁]
        exact firstRes_mono (g := g (max n₁ n₂)) (fun b x hb => mono b n₂ _ x (Nat.le_max_right _ _) hb) r h₂

theorem find_pairs {l : List (Str × ZSchema × ZSchema)} {s : Str} :
    (∃ p ∈ l, (l.map (fun p => (p.1, p.2.1))).find? (fun p => decide (p.1 = s)) = some (p.1, p.2.1) ∧
      (l.map (fun p => (p.1, p.2.2))).find? (fun p => decide (p.1 = s)) = some (p.1, p.2.2)) ∨
    ((l.map (fun p => (p.1, p.2.1))).find? (fun p => decide (p.1 = s)) = none ∧
      (l.map (fun p => (p.1, p.2.2))).find? (fun p => decide (p.1 = s)) = none) := by
  induction l with
  | nil => exact .inr ⟨rfl, rfl⟩
  | cons q r ih =>
    by_cases h : q.1 = s
    · exact .inl ⟨q, List.mem_cons_self, by simp [h], by simp [h]⟩
    · simp only [List.map_cons, List.find?_cons, h, decide_false]
      rcases ih with ⟨p, hp, h1, h2⟩ | h
      · exact .inl ⟨p, List.mem_cons_of_mem _ hp, h1, h2⟩
      · exact .inr h

/-- A property of values that carries over to their parts. -/
structure Inherited (W : JsVal → Prop) : Prop where
  arr : ∀ l, W (.arr l) → ∀ v ∈ l, W v
  set : ∀ l, W (.set l) → ∀ v ∈ l, W v
  key : ∀ l, W (.map l) → ∀ p ∈ l, W p.1
  val : ∀ l, W (.map l) → ∀ p ∈ l, W p.2
  get : ∀ kvs, W (.obj kvs) → ∀ k, W (objGet kvs k)

/-- If the parts give the same results for the values with a property, so do the schemas. -/
theorem cong_parse_on {W : JsVal → Prop} (hW : Inherited W) {E E' : ZEnv} {S : ZSchema → ZSchema → Prop} {n : Nat} {z z' : ZSchema}
    (h : Cong S z z') (hS : ∀ a b, S a b → ∀ v x, W v → parse E n a v = some x → ∃ n', parse E' n' b v = some x) (v : JsVal)
    (x : Option JsVal) (hv : W v) (hx : parse E (n + 1) z v = some x) : ∃ n', parse E' n' z' v = some x := by
  cases h with
  | string cs => exact ⟨1, hx⟩
  | number cs => exact ⟨1, hx⟩
  | null => exact ⟨1, hx⟩
  | literal s => exact ⟨1, hx⟩
  | broken => exact ⟨1, hx⟩
  | @array a b h =>
    cases v with
    | arr l =>
      rw [parse] at hx
      cases hr : allRes (l.map (parse E n a)) with
      | none => rw [hr] at hx; cases hx
      | some y =>
        rw [hr] at hx
        obtain ⟨n', h'⟩ := allRes_lift (g := fun n' => parse E' n' b) (fun a n m x hn => parse_mono hn) l
          (fun v hm x hx => hS a b h v x (hW.arr l hv v hm) hx) hr
        exact ⟨n' + 1, by rw [parse, h']; exact hx⟩
    | _ => exact ⟨1, hx⟩
  | @set a b h =>
    cases v with
    | set l =>
      rw [parse] at hx
      cases hr : allRes (l.map (parse E n a)) with
      | none => rw [hr] at hx; cases hx
      | some y =>
        rw [hr] at hx
        obtain ⟨n', h'⟩ := allRes_lift (g := fun n' => parse E' n' b) (fun a n m x hn => parse_mono hn) l
          (fun v hm x hx => hS a b h v x (hW.set l hv v hm) hx) hr
        exact ⟨n' + 1, by rw [parse, h']; exact hx⟩
    | _ => exact ⟨1, hx⟩
  | @optional a b h =>
    cases v with
    | undefined => exact ⟨1, hx⟩
    | _ =>
      obtain ⟨n', h'⟩ := hS a b h _ x hv hx
      exact ⟨n' + 1, h'⟩
  | @map a b c d h h' =>
    cases v with
    | map kvs =>
      rw [parse] at hx
      cases hk : allRes (kvs.map (fun p => parse E n a p.1)) with
      | none => rw [hk] at hx; cases hx
      | some y =>
        rw [hk] at hx
        cases hw : allRes (kvs.map (fun p => parse E n c p.2)) with
        | none => rw [hw] at hx; cases hx
        | some y' =>
          rw [hw] at hx
          obtain ⟨n₁, h₁⟩ := allRes_lift (g := fun n' (p : JsVal × JsVal) => parse E' n' b p.1) (fun a n m x hn => parse_mono hn) kvs
            (fun p hp x hx => hS a b h p.1 x (hW.key kvs hv p hp) hx) hk
          obtain ⟨n₂, h₂⟩ := allRes_lift (g := fun n' (p : JsVal × JsVal) => parse E' n' d p.2) (fun a n m x hn => parse_mono hn) kvs
            (fun p hp x hx => hS c d h' p.2 x (hW.val kvs hv p hp) hx) hw
          refine ⟨max n₁ n₂ + 1, ?_⟩
          rw [parse, allRes_mono (g := fun p : JsVal × JsVal => parse E' (max n₁ n₂) b p.1)
              (fun p x hx => parse_mono (Nat.le_max_left _ _) hx) _ h₁,
            allRes_mono (g := fun p : JsVal × JsVal => parse E' (max n₁ n₂) d p.2)
              (fun p x hx => parse_mono (Nat.le_max_right _ _) hx) _ h₂]
          exact hx
    | _ => exact ⟨1, hx⟩
  | tuple l h =>
    cases v with
    | arr vs =>
      have e : ∀ (f : ZSchema → JsVal → Res JsVal) (π : ZSchema × ZSchema → ZSchema),
          List.zipWith f (l.map π) vs = (l.zip vs).map (fun p => f (π p.1) p.2) := by
        intro f π
        rw [List.zip, List.map_zipWith, List.zipWith_map_left]
      rw [parse, List.length_map] at hx
      by_cases hl : vs.length < l.length
      · rw [if_pos hl] at hx
        exact ⟨1, by rw [parse, List.length_map, if_pos hl]; exact hx⟩
      · rw [if_neg hl, e] at hx
        cases hr : allRes ((l.zip vs).map (fun p => parse E n p.1.1 p.2)) with
        | none => rw [hr] at hx; cases hx
        | some y =>
          rw [hr] at hx
          obtain ⟨n', h'⟩ := allRes_lift (g := fun n' (p : (ZSchema × ZSchema) × JsVal) => parse E' n' p.1.2 p.2)
            (fun a n m x hn => parse_mono hn) (l.zip vs)
            (fun p hp x hx => hS _ _ (h p.1 (List.of_mem_zip hp).1) p.2 x (hW.arr vs hv p.2 (List.of_mem_zip hp).2) hx) hr
          exact ⟨n' + 1, by rw [parse, List.length_map, if_neg hl, e, h']; exact hx⟩
    | _ => exact ⟨1, hx⟩
  | object l h =>
    cases v with
    | obj kvs =>
      rw [parse, List.map_map (l := l), List.map_map (l := l)] at hx
      cases hr : allRes (l.map ((fun p => parse E n p.2 (objGet kvs p.1)) ∘ fun p => (p.1, p.2.1))) with
      | none => rw [hr] at hx; cases hx
      | some y =>
        rw [hr] at hx
        obtain ⟨n', h'⟩ := allRes_lift (g := fun n' (p : Str × ZSchema × ZSchema) => parse E' n' p.2.2 (objGet kvs p.1))
          (fun a n m x hn => parse_mono hn) l (fun p hp x hx => hS _ _ (h p hp) _ x (hW.get kvs hv p.1) hx) hr
        refine ⟨n' + 1, ?_⟩
        rw [parse, List.map_map (l := l), List.map_map (l := l), show ((fun p : Str × ZSchema => parse E' n' p.2 (objGet kvs p.1)) ∘ fun p : Str × ZSchema × ZSchema => (p.1, p.2.2)) =
          (fun p => parse E' n' p.2.2 (objGet kvs p.1)) from rfl, h']
        exact hx
    | _ => exact ⟨1, hx⟩
  | union l h =>
    rw [parse, List.map_map] at hx
    obtain ⟨n', h'⟩ := firstRes_lift (g := fun n' (p : ZSchema × ZSchema) => parse E' n' p.2 v)
      (fun a n m x hn => parse_mono hn) l (fun p hp x hx => hS _ _ (h p hp) _ x hv hx) hx
    exact ⟨n' + 1, by rw [parse, List.map_map]; exact h'⟩
  | disc tag l h =>
    cases v with
    | obj kvs =>
      rw [parse] at hx
      cases hg : objGet kvs tag with
      | str s =>
        rw [hg] at hx
        rcases find_pairs (l := l) (s := s) with ⟨p, hp, h1, h2⟩ | ⟨h1, h2⟩
        · simp only [h1] at hx
          obtain ⟨n', h'⟩ := hS _ _ (h p hp) _ _ hv hx
          exact ⟨n' + 1, by rw [parse, hg]; simp only [h2]; exact h'⟩
        · simp only [h1] at hx
          exact ⟨1, by rw [parse, hg]; simp only [h2]; exact hx⟩
      | _ => rw [hg] at hx; exact ⟨1, by rw [parse, hg]; exact hx⟩
    | _ => exact ⟨1, hx⟩

/-- If the parts give the same results, so do the schemas. -/
theorem cong_parse {E E' : ZEnv} {S : ZSchema → ZSchema → Prop} {n : Nat} {z z' : ZSchema} (h : Cong S z z')
    (hS : ∀ a b, S a b → ∀ v x, parse E n a v = some x → ∃ n', parse E' n' b v = some x) (v : JsVal) (x : Option JsVal)
    (hx : parse E (n + 1) z v = some x) : ∃ n', parse E' n' z' v = some x :=
  cong_parse_on (W := fun _ => True) ⟨fun _ _ _ _ => trivial, fun _ _ _ _ => trivial, fun _ _ _ _ => trivial, fun _ _ _ _ => trivial,
    fun _ _ _ => trivial⟩ h (fun a b h v x _ => hS a b h v x) v x trivial hx

/-! ## Schemas in which references are replaced by what they refer to -/

/-- The second schema is the first one with some schemas replaced by references to them. `Q` tells which names may be referred to. -/
inductive Folded (Q : Str → Str → Prop) (E' : ZEnv) : ZSchema → ZSchema → Prop where
  | string (cs : List StrCheck) : Folded Q E' (.string cs) (.string cs)
  | number (cs : List NumCheck) : Folded Q E' (.number cs) (.number cs)
  | null : Folded Q E' .null .null
  | literal (s : Str) : Folded Q E' (.literal s) (.literal s)
  | broken : Folded Q E' .broken .broken
  | array {a b : ZSchema} : Folded Q E' a b → Folded Q E' (.array a) (.array b)
  | set {a b : ZSchema} : Folded Q E' a b → Folded Q E' (.set a) (.set b)
  | optional {a b : ZSchema} : Folded Q E' a b → Folded Q E' (.optional a) (.optional b)
  | map {a b c d : ZSchema} : Folded Q E' a b → Folded Q E' c d → Folded Q E' (.map a c) (.map b d)
  | tuple (l : List (ZSchema × ZSchema)) : (∀ p ∈ l, Folded Q E' p.1 p.2) → Folded Q E' (.tuple (l.map (·.1))) (.tuple (l.map (·.2)))
  | union (l : List (ZSchema × ZSchema)) : (∀ p ∈ l, Folded Q E' p.1 p.2) → Folded Q E' (.union (l.map (·.1))) (.union (l.map (·.2)))
  | object (l : List (Str × ZSchema × ZSchema)) : (∀ p ∈ l, Folded Q E' p.2.1 p.2.2) →
      Folded Q E' (.object (l.map (fun p => (p.1, p.2.1)))) (.object (l.map (fun p => (p.1, p.2.2))))
  | disc (tag : Str) (l : List (Str × ZSchema × ZSchema)) : (∀ p ∈ l, Folded Q E' p.2.1 p.2.2) →
      Folded Q E' (.discUnion tag (l.map (fun p => (p.1, p.2.1)))) (.discUnion tag (l.map (fun p => (p.1, p.2.2))))
  | lazy (ns name : Str) : Q ns name → Folded Q E' (.lazy ns name) (.lazy ns name)
  | fold {a b : ZSchema} (ns name : Str) : E'.const ns name = some b → Folded Q E' a b → Folded Q E' a (.lazy ns name)

/-- What is referred to is related in the same way. -/
def Linked (Q : Str → Str → Prop) (E E' : ZEnv) : Prop :=
  ∀ ns name, Q ns name → ∃ a b, E.const ns name = some a ∧ E'.const ns name = some b ∧ Folded Q E' a b

variable {Q : Str → Str → Prop} {E E' : ZEnv}

theorem folded_forward (hL : Linked Q E E') (n : Nat) : ∀ z z', Folded Q E' z z' → ∀ v x, parse E n z v = some x →
    ∃ n', parse E' n' z' v = some x := by
  induction n with
  | zero => intro z z' _ v x h; cases h
  | succ n ih =>
    intro z z' h
    induction h with
    | string cs => exact cong_parse (.string cs) ih
    | number cs => exact cong_parse (.number cs) ih
    | null => exact cong_parse .null ih
    | literal s => exact cong_parse (.literal s) ih
    | broken => exact cong_parse .broken ih
    | array h _ => exact cong_parse (.array h) ih
    | set h _ => exact cong_parse (.set h) ih
    | optional h _ => exact cong_parse (.optional h) ih
    | map h h' _ _ => exact cong_parse (.map h h') ih
    | tuple l h _ => exact cong_parse (.tuple l h) ih
    | union l h _ => exact cong_parse (.union l h) ih
    | object l h _ => exact cong_parse (.object l h) ih
    | disc tag l h _ => exact cong_parse (.disc tag l h) ih
    | lazy ns name hq =>
      intro v x hx
      obtain ⟨a, b, ha, hb, hab⟩ := hL ns name hq
      rw [parse, ha] at hx
      obtain ⟨n', h'⟩ := ih a b hab v x hx
      exact ⟨n' + 1, by rw [parse, hb]; exact h'⟩
    | fold ns name hb _ ihb =>
      intro v x hx
      obtain ⟨n', h'⟩ := ihb v x hx
      exact ⟨n' + 1, by rw [parse, hb]; exact h'⟩

theorem folded_backward (hL : Linked Q E E') (n : Nat) : ∀ z' z, Folded Q E' z z' → ∀ v x, parse E' n z' v = some x →
    ∃ n', parse E n' z v = some x := by
  induction n with
  | zero => intro z z' _ v x h; cases h
  | succ n ih =>
    intro z' z h
    cases h with
    | string cs => exact cong_parse (Cong.symm (.string cs)) ih
    | number cs => exact cong_parse (Cong.symm (.number cs)) ih
    | null => exact cong_parse (Cong.symm .null) ih
    | literal s => exact cong_parse (Cong.symm (.literal s)) ih
    | broken => exact cong_parse (Cong.symm .broken) ih
    | array h => exact cong_parse (Cong.symm (.array h)) ih
    | set h => exact cong_parse (Cong.symm (.set h)) ih
    | optional h => exact cong_parse (Cong.symm (.optional h)) ih
    | map h h' => exact cong_parse (Cong.symm (.map h h')) ih
    | tuple l h => exact cong_parse (Cong.symm (.tuple l h)) ih
    | union l h => exact cong_parse (Cong.symm (.union l h)) ih
    | object l h => exact cong_parse (Cong.symm (.object l h)) ih
    | disc tag l h => exact cong_parse (Cong.symm (.disc tag l h)) ih
    | lazy ns name hq =>
      intro v x hx
      obtain ⟨a, b, ha, hb, hab⟩ := hL ns name hq
      rw [parse, hb] at hx
      obtain ⟨n', h'⟩ := ih b a hab v x hx
      exact ⟨n' + 1, by rw [parse, ha]; exact h'⟩
    | fold ns name hb h =>
      intro v x hx
      rw [parse, hb] at hx
      exact ih _ _ h v x hx

theorem folded_parse (hL : Linked Q E E') {z z' : ZSchema} (h : Folded Q E' z z') (v : JsVal) (x : Option JsVal) :
    (∃ n, parse E n z v = some x) ↔ ∃ n, parse E' n z' v = some x :=
  ⟨fun ⟨n, hn⟩ => folded_forward hL n z z' h v x hn, fun ⟨n, hn⟩ => folded_backward hL n z' z h v x hn⟩

/-! ## The schemas of a program with and without wrappers -/

theorem allSome_pairs {α : Type} {R : ZSchema → ZSchema → Prop} {f g : α → Option ZSchema} (l : List α) {zs zs' : List ZSchema}
    (h : ∀ a ∈ l, ∀ z z', f a = some z → g a = some z' → R z z') (hf : allSome (l.map f) = some zs)
    (hg : allSome (l.map g) = some zs') :
    ∃ ps : List (ZSchema × ZSchema), zs = ps.map (·.1) ∧ zs' = ps.map (·.2) ∧ ps.length = l.length ∧ ∀ p ∈ ps, R p.1 p.2 := by
  induction l generalizing zs zs' with
  | nil =>
    cases hf; cases hg
    exact ⟨[], rfl, rfl, rfl, fun p hp => by cases hp⟩
  | cons a r ih =>
    rw [List.map_cons] at hf hg
    cases h1 : f a with
    | none => rw [h1] at hf; cases hf
    | some z =>
      cases h2 : g a with
      | none => rw [h2] at hg; cases hg
      | some z' =>
        rw [h1, allSome] at hf
        rw [h2, allSome] at hg
        cases h3 : allSome (r.map f) with
        | none => rw [h3] at hf; cases hf
        | some y =>
          cases h4 : allSome (r.map g) with
          | none => rw [h4] at hg; cases hg
          | some y' =>
            rw [h3] at hf; rw [h4] at hg
            cases hf; cases hg
            obtain ⟨ps, rfl, rfl, e, hp⟩ := ih (fun b hb => h b (List.mem_cons_of_mem _ hb)) h3 h4
            refine ⟨(z, z') :: ps, rfl, rfl, by simp [e], fun p hp' => ?_⟩
            rcases List.mem_cons.1 hp' with rfl | hp'
            · exact h a List.mem_cons_self z z' h1 h2
            · exact hp p hp'

theorem zip_keys {ks : List Str} {ps : List (ZSchema × ZSchema)} (h : ps.length = ks.length) :
    ks.zip (ps.map (·.1)) = (ks.zip ps).map (fun p => (p.1, p.2.1)) ∧
    ks.zip (ps.map (·.2)) = (ks.zip ps).map (fun p => (p.1, p.2.2)) := by
  induction ks generalizing ps with
  | nil => exact ⟨rfl, rfl⟩
  | cons k r ih =>
    cases ps with
    | nil => cases h
    | cons p ps =>
      have := ih (ps := ps) (by simpa using h)
      simp [this.1, this.2]

theorem objZ_eq {l : List (Str × Option ZSchema)} {z : ZSchema} (h : objZ l = some z) :
    ∃ zs, allSome (l.map (·.2)) = some zs ∧ z = .object ((l.map (·.1)).zip zs) := by
  unfold objZ at h
  split at h
  · rename_i zs hzs
    split at h
    · injection h with h; exact ⟨zs, hzs, h.symm⟩
    · cases h
  · cases h

theorem objZ_folded {α : Type} {k : α → Str} {f g : α → Option ZSchema} (l : List α) {z z' : ZSchema}
    (h : ∀ a ∈ l, ∀ z z', f a = some z → g a = some z' → Folded Q E' z z')
    (hz : objZ (l.map (fun a => (k a, f a))) = some z) (hz' : objZ (l.map (fun a => (k a, g a))) = some z') : Folded Q E' z z' := by
  obtain ⟨zs, h1, rfl⟩ := objZ_eq hz
  obtain ⟨zs', h1', rfl⟩ := objZ_eq hz'
  rw [List.map_map] at h1 h1'
  obtain ⟨ps, rfl, rfl, e, hp⟩ := allSome_pairs l h h1 h1'
  rw [List.map_map, List.map_map]
  have := zip_keys (ks := l.map k) (ps := ps) (by rw [List.length_map, e])
  show Folded Q E' (.object ((l.map k).zip _)) (.object ((l.map k).zip _))
  rw [this.1, this.2]
  exact .object _ (fun p hp' => hp p.2 (List.of_mem_zip hp').2)

theorem optZ_folded {b : Bool} {x y : Option ZSchema} {z z' : ZSchema}
    (h : ∀ z z', x = some z → y = some z' → Folded Q E' z z') (hz : optZ b x = some z) (hz' : optZ b y = some z') : Folded Q E' z z' := by
  cases b with
  | false => exact h z z' hz hz'
  | true =>
    cases x with
    | none => cases hz
    | some a => cases y with
      | none => cases hz'
      | some b => cases hz; cases hz'; exact .optional (h a b rfl rfl)

theorem extendZ_result {l : List (Option ZSchema)} : ∀ {z : Option ZSchema} {w : ZSchema}, extendZ z l = some w →
    (l = [] ∧ z = some w) ∨ (l ≠ [] ∧ w = .broken) := by
  induction l with
  | nil => intro z w h; exact .inl ⟨rfl, h⟩
  | cons a r ih =>
    intro z w h
    cases a with
    | none => cases h
    | some a =>
      rcases ih h with ⟨rfl, h⟩ | ⟨_, h⟩
      · cases z with
        | none => cases h
        | some z => injection h with h; exact .inr ⟨by simp, h.symm⟩
      · exact .inr ⟨by simp, h⟩

theorem folded_literal {z z' : ZSchema} {s : Str} (h : Folded Q E' z z') (e : z' = .literal s) : z = .literal s := by
  cases h <;> cases e
  rfl

theorem folded_object {z z' : ZSchema} {sh : List (Str × ZSchema)} (h : Folded Q E' z z') (e : z' = .object sh) :
    ∃ l : List (Str × ZSchema × ZSchema), z = .object (l.map (fun p => (p.1, p.2.1))) ∧ sh = l.map (fun p => (p.1, p.2.2)) ∧
      ∀ p ∈ l, Folded Q E' p.2.1 p.2.2 := by
  cases h with
  | object l h => cases e; exact ⟨l, rfl, rfl, h⟩
  | _ => cases e

theorem folded_discriminator {t : Str} {z z' : ZSchema} {s s' : Str} (h : Folded Q E' z z') (hz : discriminator t z = some s)
    (hz' : discriminator t z' = some s') : s = s' := by
  cases z' with
  | object sh =>
    obtain ⟨l, rfl, rfl, hl⟩ := folded_object h rfl
    simp only [discriminator] at hz hz'
    rcases find_pairs (l := l) (s := t) with ⟨p, hp, h1, h2⟩ | ⟨h1, h2⟩
    · rw [h1] at hz; rw [h2] at hz'
      have hf := hl p hp
      revert hz hz' hf
      generalize p.2.1 = a
      generalize p.2.2 = b
      cases b with
      | literal s'' =>
        intro hz hz' hf
        have := folded_literal hf rfl
        subst this
        exact (Option.some.inj (hz.symm.trans hz')).symm
      | _ => intros; contradiction
    · rw [h1] at hz; cases hz
  | _ => cases hz'

theorem discOptions_folded {t : Str} : ∀ (ps : List (ZSchema × ZSchema)) {l l' : List (Str × ZSchema)},
    (∀ p ∈ ps, Folded Q E' p.1 p.2) → discOptions t (ps.map (·.1)) = some l → discOptions t (ps.map (·.2)) = some l' →
    ∃ ts : List (Str × ZSchema × ZSchema), l = ts.map (fun p => (p.1, p.2.1)) ∧ l' = ts.map (fun p => (p.1, p.2.2)) ∧
      ∀ p ∈ ts, Folded Q E' p.2.1 p.2.2
  | [], l, l', _, h, h' => by
    cases h; cases h'
    exact ⟨[], rfl, rfl, fun p hp => by cases hp⟩
  | p :: ps, l, l', hp, h, h' => by
    simp only [List.map_cons, discOptions] at h h'
    cases h1 : discriminator t p.1 with
    | none => rw [h1] at h; cases h
    | some s =>
      cases h2 : discOptions t (ps.map (·.1)) with
      | none => rw [h1, h2] at h; cases h
      | some m =>
        cases h3 : discriminator t p.2 with
        | none => rw [h3] at h'; cases h'
        | some s' =>
          cases h4 : discOptions t (ps.map (·.2)) with
          | none => rw [h3, h4] at h'; cases h'
          | some m' =>
            rw [h1, h2] at h; rw [h3, h4] at h'
            obtain ⟨ts, rfl, rfl, ht⟩ := discOptions_folded ps (fun q hq => hp q (List.mem_cons_of_mem _ hq)) h2 h4
            have e := folded_discriminator (hp p List.mem_cons_self) h1 h3
            subst e
            simp only at h h'
            split at h
            · cases h
            · split at h'
              · cases h'
              · cases h; cases h'
                refine ⟨(s, p.1, p.2) :: ts, rfl, rfl, fun q hq => ?_⟩
                rcases List.mem_cons.1 hq with rfl | hq
                · exact hp p List.mem_cons_self
                · exact ht q hq

section
variable {rec rec' : Method → Ty → Option ZSchema} {f : Ty → Ty}

/-- The schemas of a type and of the changed type are alike. -/
def Alike (Q : Str → Str → Prop) (E' : ZEnv) (f : Ty → Ty) (rec rec' : Method → Ty → Option ZSchema) : Prop :=
  ∀ m t z z', rec m t = some z → rec' m (f t) = some z' → Folded Q E' z z'

theorem sfield_folded (H : Alike Q E' f rec rec') (x : SField) {z z' : ZSchema} (hz : sfieldZ rec x = some z)
    (hz' : sfieldZ rec' (SField.mapTy f x) = some z') : Folded Q E' z z' :=
  optZ_folded (fun z z' h h' => H _ _ z z' h h') hz hz'

theorem vfield_folded (H : Alike Q E' f rec rec') (x : Field) {z z' : ZSchema} (hz : vfieldZ rec x = some z)
    (hz' : vfieldZ rec' (Field.mapTy f x) = some z') : Folded Q E' z z' :=
  optZ_folded (fun z z' h h' => H _ _ z z' h h') hz hz'

theorem struct_folded (H : Alike Q E' f rec rec') (s : StructDecl) {z z' : ZSchema} (hz : structZ rec s = some z)
    (hz' : structZ rec' (StructDecl.mapTy f s) = some z') : Folded Q E' z z' := by
  unfold structZ at hz hz'
  rw [structFields_mapTy, filter_mapTyS f (·.flatten) (fun _ => rfl), filter_mapTyS f (fun x => !x.flatten) (fun _ => rfl)] at hz'
  simp only at hz hz'
  generalize (structFields s).filter (·.flatten) = flat at hz hz'
  generalize (structFields s).filter (fun x => !x.flatten) = fields at hz hz'
  rw [show (StructDecl.mapTy f s).transparent = s.transparent from rfl, show (StructDecl.mapTy f s).style = s.style from rfl] at hz'
  cases ht : s.transparent with
  | true =>
    rw [ht] at hz hz'
    cases fields with
    | nil => cases hz
    | cons x r => exact sfield_folded H x hz hz'
  | false =>
    rw [ht] at hz hz'
    cases hs : s.style with
    | unit => rw [hs] at hz; cases hz
    | tuple =>
      rw [hs] at hz hz'
      match fields, hz, hz' with
      | [], hz, _ => cases hz
      | [x], hz, hz' => exact sfield_folded H x hz hz'
      | x :: y :: r, hz, hz' =>
        simp only [List.map_cons] at hz hz'
        have hz : (allSome ((x :: y :: r).map (sfieldZ rec))).map ZSchema.tuple = some z := hz
        have hz' : (allSome ((x :: y :: r).map (sfieldZ rec' ∘ SField.mapTy f))).map ZSchema.tuple = some z' := by
          rw [← hz', ← List.map_map]; rfl
        cases h1 : allSome ((x :: y :: r).map (sfieldZ rec)) with
        | none => rw [h1] at hz; cases hz
        | some zs =>
          cases h2 : allSome ((x :: y :: r).map (sfieldZ rec' ∘ SField.mapTy f)) with
          | none => rw [h2] at hz'; cases hz'
          | some zs' =>
            rw [h1] at hz; rw [h2] at hz'
            cases hz; cases hz'
            obtain ⟨ps, rfl, rfl, _, hp⟩ := allSome_pairs _ (fun a _ z z' h h' => sfield_folded H a h h') h1 h2
            exact .tuple ps hp
    | named =>
      rw [hs] at hz hz'
      simp only at hz hz'
      rcases extendZ_result hz with ⟨e, h⟩ | ⟨e, rfl⟩
      · rcases extendZ_result hz' with ⟨_, h'⟩ | ⟨e', _⟩
        · rw [List.map_map] at h'
          exact objZ_folded (k := fun x : SField => x.name.getD []) fields (fun a _ z z' h h' => sfield_folded H a h h') h h'
        · rw [List.map_map] at e'
          have : flat = [] := List.map_eq_nil_iff.1 e
          subst this
          exact absurd rfl e'
      · rcases extendZ_result hz' with ⟨e', _⟩ | ⟨_, rfl⟩
        · rw [List.map_map] at e'
          have : flat = [] := List.map_eq_nil_iff.1 e'
          subst this
          exact absurd rfl e
        · exact .broken

theorem unit_folded (tag : Tag) (n : Str) {z z' : ZSchema} (hz : unitZ tag n = some z) (hz' : unitZ tag n = some z') :
    Folded Q E' z z' := by
  have one : ∀ t : Str, objZ [(t, some (ZSchema.literal n))] = some z → objZ [(t, some (.literal n))] = some z' → Folded Q E' z z' := by
    intro t h h'
    refine objZ_folded (k := fun _ : Unit => t) (f := fun _ => some (.literal n)) (g := fun _ => some (.literal n)) [()] ?_ h h'
    intro _ _ z z' h h'
    cases h; cases h'; exact .literal n
  cases tag with
  | external => cases hz; cases hz'; exact .literal n
  | internal t => exact one t hz hz'
  | adjacent t c => exact one t hz hz'
  | untagged => cases hz; cases hz'; exact .null

theorem objZ_one {k : Str} {a b : Option ZSchema} {z z' : ZSchema} (h : ∀ z z', a = some z → b = some z' → Folded Q E' z z')
    (hz : objZ [(k, a)] = some z) (hz' : objZ [(k, b)] = some z') : Folded Q E' z z' :=
  objZ_folded (k := fun _ : Unit => k) (f := fun _ => a) (g := fun _ => b) [()] (fun _ _ z z' h1 h2 => h z z' h1 h2) hz hz'

theorem objZ_more {k l : Str} {α : Type} {kk : α → Str} {fa fb : α → Option ZSchema} (as : List α) {z z' : ZSchema}
    (h : ∀ a ∈ as, ∀ z z', fa a = some z → fb a = some z' → Folded Q E' z z')
    (hz : objZ ((k, some (.literal l)) :: as.map (fun a => (kk a, fa a))) = some z)
    (hz' : objZ ((k, some (.literal l)) :: as.map (fun a => (kk a, fb a))) = some z') : Folded Q E' z z' := by
  refine objZ_folded (k := fun o : Option α => (o.map kk).getD k) (f := fun o => match o with | none => some (.literal l) | some a => fa a)
    (g := fun o => match o with | none => some (.literal l) | some a => fb a) (none :: as.map some) ?_ ?_ ?_
  · intro o ho z z' h1 h2
    cases o with
    | none => cases h1; cases h2; exact .literal l
    | some a =>
      refine h a ?_ z z' h1 h2
      simpa using ho
  · rw [List.map_cons, List.map_map]; exact hz
  · rw [List.map_cons, List.map_map]; exact hz'

theorem tupleFields_folded (H : Alike Q E' f rec rec') (fs : List Field) {z z' : ZSchema} (hz : tupleFieldsZ rec fs = some z)
    (hz' : tupleFieldsZ rec' (fs.map (Field.mapTy f)) = some z') : Folded Q E' z z' := by
  have many : ∀ l : List Field, (allSome (l.map (vfieldZ rec))).map ZSchema.tuple = some z →
      (allSome (l.map (vfieldZ rec' ∘ Field.mapTy f))).map ZSchema.tuple = some z' → Folded Q E' z z' := by
    intro l hz hz'
    cases h1 : allSome (l.map (vfieldZ rec)) with
    | none => rw [h1] at hz; cases hz
    | some zs =>
      cases h2 : allSome (l.map (vfieldZ rec' ∘ Field.mapTy f)) with
      | none => rw [h2] at hz'; cases hz'
      | some zs' =>
        rw [h1] at hz; rw [h2] at hz'
        cases hz; cases hz'
        obtain ⟨ps, rfl, rfl, _, hp⟩ := allSome_pairs _ (fun a _ z z' h h' => vfield_folded H a h h') h1 h2
        exact .tuple ps hp
  match fs, hz, hz' with
  | [], hz, hz' => exact many [] hz hz'
  | [x], hz, hz' => exact vfield_folded H x hz hz'
  | x :: y :: r, hz, hz' =>
    refine many (x :: y :: r) hz ?_
    rw [← List.map_map]
    exact hz'

theorem variant_folded (H : Alike Q E' f rec rec') (tag : Tag) (v : Variant) {z z' : ZSchema} (hz : variantZ rec tag v = some z)
    (hz' : variantZ rec' tag (Variant.mapTy f v) = some z') : Folded Q E' z z' := by
  unfold variantZ at hz hz'
  rw [show (Variant.mapTy f v).style = v.style from rfl, show (Variant.mapTy f v).name = v.name from rfl] at hz'
  cases hs : v.style with
  | unit => rw [hs] at hz hz'; exact unit_folded tag v.name hz hz'
  | named =>
    rw [hs] at hz hz'
    simp only [structVariantZ] at hz hz'
    rw [kept_mapTy, show (Variant.mapTy f v).name = v.name from rfl, List.map_map] at hz'
    have hobj : ∀ z z', objZ (v.kept.map (fun f => (f.name, vfieldZ rec f))) = some z →
        objZ (v.kept.map ((fun f => (f.name, vfieldZ rec' f)) ∘ Field.mapTy f)) = some z' → Folded Q E' z z' := by
      intro z z' h h'
      exact objZ_folded (k := fun f : Field => f.name) v.kept (fun a _ z z' h h' => vfield_folded H a h h') h h'
    cases tag with
    | external => exact objZ_one hobj hz hz'
    | internal t =>
      exact objZ_more (kk := fun f : Field => f.name) v.kept (fun a _ z z' h h' => vfield_folded H a h h') hz hz'
    | adjacent t c =>
      exact objZ_more (kk := fun _ : Unit => c) (fa := fun _ => objZ (v.kept.map (fun f => (f.name, vfieldZ rec f))))
        (fb := fun _ => objZ (v.kept.map ((fun f => (f.name, vfieldZ rec' f)) ∘ Field.mapTy f))) [()]
        (fun _ _ z z' h h' => hobj z z' h h') hz hz'
    | untagged => exact hobj z z' hz hz'
  | tuple =>
    rw [hs] at hz hz'
    simp only [tupleVariantZ] at hz hz'
    rw [kept_mapTy, show (Variant.mapTy f v).name = v.name from rfl] at hz'
    cases hk : v.kept with
    | nil => rw [hk] at hz hz'; exact unit_folded tag v.name hz hz'
    | cons x r =>
      rw [hk] at hz hz'
      have hin : ∀ z z', tupleFieldsZ rec (x :: r) = some z → tupleFieldsZ rec' ((x :: r).map (Field.mapTy f)) = some z' →
          Folded Q E' z z' := fun z z' h h' => tupleFields_folded H (x :: r) h h'
      cases tag with
      | external => exact objZ_one hin hz hz'
      | internal t => exact objZ_one hin hz hz'
      | adjacent t c =>
        exact objZ_more (kk := fun _ : Unit => c) (fa := fun _ => tupleFieldsZ rec (x :: r))
          (fb := fun _ => tupleFieldsZ rec' ((x :: r).map (Field.mapTy f))) [()] (fun _ _ z z' h h' => hin z z' h h') hz hz'
      | untagged => exact hin z z' hz hz'

/-- An enum with changed types. -/
def EnumDecl.mapTyZ (f : Ty → Ty) (e : EnumDecl) : EnumDecl :=
  { e with from_ := From.mapTy f e.from_, variants := e.variants.map (Variant.mapTy f) }

theorem enum_kept (f : Ty → Ty) (e : EnumDecl) : (EnumDecl.mapTyZ f e).kept = e.kept.map (Variant.mapTy f) := by
  unfold EnumDecl.kept EnumDecl.mapTyZ
  induction e.variants with
  | nil => rfl
  | cons v r ih =>
    simp only [List.map_cons, List.filter_cons, ih]
    cases h : v.skipDe <;> simp [Variant.mapTy, h]

theorem enum_folded (H : Alike Q E' f rec rec') (e : EnumDecl) {z z' : ZSchema} (hz : enumZ rec e = some z)
    (hz' : enumZ rec' (EnumDecl.mapTyZ f e) = some z') : Folded Q E' z z' := by
  unfold enumZ at hz hz'
  rw [enum_kept, show (EnumDecl.mapTyZ f e).tag = e.tag from rfl] at hz'
  have pairs : ∀ l : List Variant, ∀ zs zs', allSome (l.map (variantZ rec e.tag)) = some zs →
      allSome (l.map (variantZ rec' e.tag ∘ Variant.mapTy f)) = some zs' →
      ∃ ps : List (ZSchema × ZSchema), zs = ps.map (·.1) ∧ zs' = ps.map (·.2) ∧ ps.length = l.length ∧ ∀ p ∈ ps, Folded Q E' p.1 p.2 :=
    fun l zs zs' h1 h2 => allSome_pairs _ (fun a _ z z' h h' => variant_folded H e.tag a h h') h1 h2
  have hu : ∀ l : List Variant, (allSome (l.map (variantZ rec e.tag))).map ZSchema.union = some z →
      (allSome (l.map (variantZ rec' e.tag ∘ Variant.mapTy f))).map ZSchema.union = some z' → Folded Q E' z z' := by
    intro l h h'
    cases h1 : allSome (l.map (variantZ rec e.tag)) with
    | none => rw [h1] at h; cases h
    | some zs =>
      cases h2 : allSome (l.map (variantZ rec' e.tag ∘ Variant.mapTy f)) with
      | none => rw [h2] at h'; cases h'
      | some zs' =>
        rw [h1] at h; rw [h2] at h'
        cases h; cases h'
        obtain ⟨ps, rfl, rfl, _, hp⟩ := pairs l _ _ h1 h2
        exact .union ps hp
  have hd : ∀ (t : Str) (l : List Variant), discZ t (l.map (variantZ rec e.tag)) = some z →
      discZ t (l.map (variantZ rec' e.tag ∘ Variant.mapTy f)) = some z' → Folded Q E' z z' := by
    intro t l h h'
    unfold discZ at h h'
    cases h1 : allSome (l.map (variantZ rec e.tag)) with
    | none => rw [h1] at h; cases h
    | some zs =>
      cases h2 : allSome (l.map (variantZ rec' e.tag ∘ Variant.mapTy f)) with
      | none => rw [h2] at h'; cases h'
      | some zs' =>
        rw [h1] at h; rw [h2] at h'
        obtain ⟨ps, rfl, rfl, _, hp⟩ := pairs l _ _ h1 h2
        simp only at h h'
        cases h3 : discOptions t (ps.map (·.1)) with
        | none => rw [h3] at h; cases h
        | some o =>
          cases h4 : discOptions t (ps.map (·.2)) with
          | none => rw [h4] at h'; cases h'
          | some o' =>
            rw [h3] at h; rw [h4] at h'
            cases h; cases h'
            obtain ⟨ts, rfl, rfl, ht⟩ := discOptions_folded ps hp h3 h4
            exact .disc t ts ht
  match hk : e.kept, hz, hz' with
  | [], hz, _ => cases hz
  | [v], hz, hz' => exact variant_folded H e.tag v hz hz'
  | v :: w :: r, hz, hz' =>
    simp only [List.map_cons] at hz hz'
    have e1 : ∀ g : Variant → Option ZSchema, g (Variant.mapTy f v) :: g (Variant.mapTy f w) :: (r.map (Variant.mapTy f)).map g =
        (v :: w :: r).map (g ∘ Variant.mapTy f) := by intro g; simp
    rw [e1] at hz'
    cases ht : e.tag with
    | external => rw [ht] at hz hz' hu; exact hu (v :: w :: r) hz hz'
    | untagged => rw [ht] at hz hz' hu; exact hu (v :: w :: r) hz hz'
    | internal t => rw [ht] at hz hz' hd; exact hd t (v :: w :: r) hz hz'
    | adjacent t c => rw [ht] at hz hz' hd; exact hd t (v :: w :: r) hz hz'

end

theorem strip_not_named {t : Ty} (hn : ∀ i, t ≠ .named i) (hw : ∀ w u, t ≠ .wrap w u) (i : Nat) : strip t ≠ .named i := by
  cases t with
  | named i => exact absurd rfl (hn i)
  | wrap w u => exact absurd rfl (hw w u)
  | _ => simp [strip]

theorem decl_mapTy_names (f : Ty → Ty) (d : Decl) : (Decl.mapTy f d).ns = d.ns ∧ (Decl.mapTy f d).name = d.name := by
  cases d <;> exact ⟨rfl, rfl⟩

theorem from_mapTy (f : Ty → Ty) (x : From) : (From.mapTy f x).ty? = x.ty?.map f := by cases x <;> rfl

/-- The program without wrappers. -/
def bare (P : Program) : Program := P.map (Decl.mapTy strip)

theorem bare_get {P : Program} {i : Nat} {d : Decl} (h : P[i]? = some d) : (bare P)[i]? = some (Decl.mapTy strip d) := by
  unfold bare
  rw [List.getElem?_map, h]
  rfl

theorem strip_tuple (ts : List Ty) : strip (.tuple ts) = .tuple (ts.map strip) := by
  rw [strip]
  congr 1
  exact List.attach_map_val (f := strip)

section
variable {P : Program} {n : Nat}

theorem prim_folded {p : Prim} {z z' : ZSchema} (hz : primZ p = some z) (hz' : primZ p = some z') : Folded Q E' z z' := by
  cases p <;> cases hz <;> cases hz' <;> constructor

theorem claim_decl (H : ∀ n', Alike Q E' strip (zOf P n) (zOf (bare P) n')) {d : Decl} {n' : Nat} {z z' : ZSchema}
    (hz : declZ (zOf P n) d = some z) (hz' : declZ (zOf (bare P) n') (Decl.mapTy strip d) = some z') : Folded Q E' z z' := by
  cases d with
  | struct s =>
    simp only [Decl.mapTy, declZ, from_mapTy] at hz hz'
    cases hf : s.from_.ty? with
    | some t => rw [hf] at hz hz'; exact H n' .inlineSchema t z z' hz hz'
    | none => rw [hf] at hz hz'; exact struct_folded (H n') s hz hz'
  | enum e =>
    simp only [Decl.mapTy, declZ, from_mapTy] at hz hz'
    cases hf : e.from_.ty? with
    | some t => rw [hf] at hz hz'; exact H n' .schema t z z' hz hz'
    | none => rw [hf] at hz hz'; exact enum_folded (H n') e hz hz'

theorem zOf_other {m : Method} {t : Ty} {z : ZSchema} (hm : m = .typeDef ∨ m = .inline) : zOf P n m t ≠ some z := by
  intro h
  cases n with
  | zero => cases h
  | succ n =>
    cases t with
    | named i =>
      have h : zBody (zOf P n) P m (.named i) = some z := h
      obtain ⟨d, _, ⟨e, _⟩ | ⟨e, _⟩⟩ := zBody_some h <;> subst e <;> rcases hm with hm | hm <;> cases hm
    | _ => rcases hm with rfl | rfl <;> cases h

/-- The schemas of a program and of the program without wrappers are alike. -/
theorem claims (hE' : EnvOk (bare P) E') (hl : ∀ d ∈ P, E'.const d.ns d.name ≠ none) (n : Nat) :
    (∀ t n' z z', zOf P n .schema t = some z → zOf (bare P) n' .schema (strip t) = some z' → Folded (Declared P) E' z z') ∧
    (∀ t n' z z', zOf P n .schema t = some z → zOf (bare P) n' .inlineSchema (strip t) = some z' → Folded (Declared P) E' z z') ∧
    (∀ t n' z z', zOf P n .inlineSchema t = some z → zOf (bare P) n' .inlineSchema (strip t) = some z' → Folded (Declared P) E' z z') := by
  induction n with
  | zero =>
    refine ⟨?_, ?_, ?_⟩ <;> intro _ _ _ _ h <;> cases h
  | succ n ih =>
    obtain ⟨hA, hC, hB⟩ := ih
    have H : ∀ n', Alike (Declared P) E' strip (zOf P n) (zOf (bare P) n') := by
      intro n' m t z z' h h'
      cases m with
      | schema => exact hA t n' z z' h h'
      | inlineSchema => exact hB t n' z z' h h'
      | typeDef => exact absurd h (zOf_other (Or.inl rfl))
      | inline => exact absurd h (zOf_other (Or.inr rfl))
    have hA' : ∀ t n' z z', zOf P (n + 1) .schema t = some z → zOf (bare P) n' .schema (strip t) = some z' →
        Folded (Declared P) E' z z' := by
      intro t n' z z' h h'
      cases n' with
      | zero => cases h'
      | succ k =>
      cases t with
      | wrap w t => rw [strip] at h'; exact hA t (k + 1) z z' h h'
      | prim p => rw [strip] at h'; exact prim_folded h h'
      | option t =>
        simp only [strip, zOf, zBody, Option.map_eq_some_iff] at h h'
        obtain ⟨a, ha, rfl⟩ := h
        obtain ⟨b, hb, rfl⟩ := h'
        exact .optional (hB t k a b ha hb)
      | vec t =>
        simp only [strip, zOf, zBody, Option.map_eq_some_iff] at h h'
        obtain ⟨a, ha, rfl⟩ := h
        obtain ⟨b, hb, rfl⟩ := h'
        exact .array (hB t k a b ha hb)
      | hashSet t =>
        simp only [strip, zOf, zBody, Option.map_eq_some_iff] at h h'
        obtain ⟨a, ha, rfl⟩ := h
        obtain ⟨b, hb, rfl⟩ := h'
        exact .set (hB t k a b ha hb)
      | hashMap t u =>
        simp only [strip, zOf, zBody, Option.bind_eq_some_iff, Option.some.injEq] at h h'
        obtain ⟨a, ha, b, hb, rfl⟩ := h
        obtain ⟨a', ha', b', hb', rfl⟩ := h'
        exact .map (hB t k a a' ha ha') (hB u k b b' hb hb')
      | array m t => rw [strip] at h'; exact hA (.vec t) k z z' h (by rw [strip]; exact h')
      | btreeSet t => rw [strip] at h'; exact hA (.hashSet t) k z z' h (by rw [strip]; exact h')
      | btreeMap t u => rw [strip] at h'; exact hA (.hashMap t u) k z z' h (by rw [strip]; exact h')
      | tuple ts =>
        rw [strip_tuple] at h'
        simp only [zOf, zBody, Option.map_eq_some_iff] at h h'
        obtain ⟨zs, hzs, rfl⟩ := h
        obtain ⟨zs', hzs', rfl⟩ := h'
        rw [List.map_map] at hzs'
        obtain ⟨ps, rfl, rfl, _, hp⟩ := allSome_pairs ts (fun t _ z z' h h' => hA t k z z' h h') hzs hzs'
        exact .tuple ps hp
      | result t u =>
        simp only [strip, zOf, zBody] at h h'
        cases h1 : objZ [(lit "Ok", zOf P n .inlineSchema t)] with
        | none => rw [h1] at h; cases h
        | some a =>
          cases h2 : objZ [(lit "Err", zOf P n .inlineSchema u)] with
          | none => rw [h1, h2] at h; cases h
          | some b =>
            cases h3 : objZ [(lit "Ok", zOf (bare P) k .inlineSchema (strip t))] with
            | none => rw [h3] at h'; cases h'
            | some a' =>
              cases h4 : objZ [(lit "Err", zOf (bare P) k .inlineSchema (strip u))] with
              | none => rw [h3, h4] at h'; cases h'
              | some b' =>
                rw [h1, h2] at h; rw [h3, h4] at h'
                cases h; cases h'
                refine .union [(a, a'), (b, b')] (fun p hp => ?_)
                simp only [List.mem_cons, List.not_mem_nil, or_false] at hp
                rcases hp with rfl | rfl
                · exact objZ_one (fun z z' h h' => hB t k z z' h h') h1 h3
                · exact objZ_one (fun z z' h h' => hB u k z z' h h') h2 h4
      | named i =>
        have h : zBody (zOf P n) P .schema (.named i) = some z := h
        rw [strip] at h'
        have h' : zBody (zOf (bare P) k) (bare P) .schema (.named i) = some z' := h'
        obtain ⟨d, hd, ⟨_, h⟩ | ⟨c, _⟩⟩ := zBody_some h
        · rw [zBody_named _ _ i (bare_get hd)] at h'
          exact claim_decl H h h'
        · cases c
    refine ⟨hA', ?_, ?_⟩
    · intro t n' z z' h h'
      cases n' with
      | zero => cases h'
      | succ k =>
      by_cases hn : ∃ i, t = .named i
      · obtain ⟨i, rfl⟩ := hn
        have hz : zBody (zOf P n) P .schema (.named i) = some z := h
        rw [strip] at h'
        have h' : zBody (zOf (bare P) k) (bare P) .inlineSchema (.named i) = some z' := h'
        obtain ⟨d, hd, ⟨_, hz⟩ | ⟨c, _⟩⟩ := zBody_some hz
        · rw [zBody_named _ _ i (bare_get hd)] at h'
          have fold : Folded (Declared P) E' z (.lazy d.ns d.name) := by
            cases hc : E'.const d.ns d.name with
            | none => exact absurd hc (hl d (List.mem_of_getElem? hd))
            | some b =>
              have hnm := decl_mapTy_names strip d
              obtain ⟨m, hm⟩ := hE' i (Decl.mapTy strip d) b (bare_get hd) (by rw [hnm.1, hnm.2]; exact hc)
              exact .fold _ _ hc (hA' (.named i) m z b h (by rw [strip]; exact hm))
          cases d with
          | struct s => cases h'; exact fold
          | enum e =>
            simp only [Decl.mapTy, declZ, declInlineZ, from_mapTy] at hz h'
            cases hf : e.from_.ty? with
            | some t => rw [hf] at hz h'; exact hC t k z z' hz h'
            | none => rw [hf] at h'; cases h'; exact fold
        · cases c
      · by_cases hw : ∃ w u, t = .wrap w u
        · obtain ⟨w, u, rfl⟩ := hw
          rw [strip] at h'; exact hC u (k + 1) z z' h h'
        · rw [zOf_inline (strip_not_named (fun i e => hn ⟨i, e⟩) (fun w u e => hw ⟨w, u, e⟩))] at h'
          exact hA' t k z z' h h'
    · intro t n' z z' h h'
      by_cases hn : ∃ i, t = .named i
      · obtain ⟨i, rfl⟩ := hn
        cases n' with
        | zero => cases h'
        | succ k =>
        have hz : zBody (zOf P n) P .inlineSchema (.named i) = some z := h
        rw [strip] at h'
        have h' : zBody (zOf (bare P) k) (bare P) .inlineSchema (.named i) = some z' := h'
        obtain ⟨d, hd, ⟨c, _⟩ | ⟨_, hz⟩⟩ := zBody_some hz
        · cases c
        · rw [zBody_named _ _ i (bare_get hd)] at h'
          have hm := List.mem_of_getElem? hd
          cases d with
          | struct s => cases hz; cases h'; exact .lazy _ _ ⟨_, hm, rfl, rfl⟩
          | enum e =>
            simp only [Decl.mapTy, declInlineZ, from_mapTy] at hz h'
            cases hf : e.from_.ty? with
            | some t => rw [hf] at hz h'; exact hB t k z z' hz h'
            | none => rw [hf] at hz h'; cases hz; cases h'; exact .lazy _ _ ⟨_, hm, rfl, rfl⟩
      · rw [zOf_inline (fun i e => hn ⟨i, e⟩)] at h
        exact hC t n' z z' h h'

/-- What the two modules export under the same name is related in the same way. -/
theorem linked (hE : EnvOk P E) (hE' : EnvOk (bare P) E') (hl : ∀ d ∈ P, E.const d.ns d.name ≠ none)
    (hl' : ∀ d ∈ P, E'.const d.ns d.name ≠ none) : Linked (Declared P) E E' := by
  rintro ns name ⟨d, hd, rfl, rfl⟩
  obtain ⟨i, hi⟩ := List.getElem?_of_mem hd
  cases hc : E.const d.ns d.name with
  | none => exact absurd hc (hl d hd)
  | some a =>
    cases hc' : E'.const d.ns d.name with
    | none => exact absurd hc' (hl' d hd)
    | some b =>
      obtain ⟨n, hn⟩ := hE i d a hi hc
      have hnm := decl_mapTy_names strip d
      obtain ⟨m, hm⟩ := hE' i (Decl.mapTy strip d) b (bare_get hi) (by rw [hnm.1, hnm.2]; exact hc')
      exact ⟨a, b, rfl, rfl, (claims hE' hl' n).1 (.named i) m a b hn (by rw [strip]; exact hm)⟩

end

end Verif.Zod
