import Verif.Spec.Shuffle
import Verif.Zod.Evolve

/-!
# The order of fields and the meaning of schemas
-/

namespace Verif.Zod
open Verif Verif.Js Verif.Schema Verif.Spec Verif.SchemaSpec

/-- The schema with the keys of objects and the options of discriminated unions in another order, and, if `u` holds, those of
other unions as well. -/
inductive Reord (u : Prop) (Q : Str → Str → Prop) : ZSchema → ZSchema → Prop where
  | string (cs : List StrCheck) : Reord u Q (.string cs) (.string cs)
  | number (cs : List NumCheck) : Reord u Q (.number cs) (.number cs)
  | null : Reord u Q .null .null
  | literal (s : Str) : Reord u Q (.literal s) (.literal s)
  | broken : Reord u Q .broken .broken
  | lazy (ns name : Str) : Q ns name → Reord u Q (.lazy ns name) (.lazy ns name)
  | array {a b : ZSchema} : Reord u Q a b → Reord u Q (.array a) (.array b)
  | set {a b : ZSchema} : Reord u Q a b → Reord u Q (.set a) (.set b)
  | optional {a b : ZSchema} : Reord u Q a b → Reord u Q (.optional a) (.optional b)
  | map {a b c d : ZSchema} : Reord u Q a b → Reord u Q c d → Reord u Q (.map a c) (.map b d)
  | tuple (l : List (ZSchema × ZSchema)) : (∀ p ∈ l, Reord u Q p.1 p.2) → Reord u Q (.tuple (l.map (·.1))) (.tuple (l.map (·.2)))
  | union (l l' : List (ZSchema × ZSchema)) : l.Perm l' → (¬ u → l = l') → (∀ p ∈ l, Reord u Q p.1 p.2) →
      Reord u Q (.union (l.map (·.1))) (.union (l'.map (·.2)))
  | object (l l' : List (Str × ZSchema × ZSchema)) : l.Perm l' → (l.map (·.1)).Nodup → (∀ p ∈ l, Reord u Q p.2.1 p.2.2) →
      Reord u Q (.object (l.map (fun p => (p.1, p.2.1)))) (.object (l'.map (fun p => (p.1, p.2.2))))
  | disc (tag : Str) (l l' : List (Str × ZSchema × ZSchema)) : l.Perm l' → (l.map (·.1)).Nodup → (∀ p ∈ l, Reord u Q p.2.1 p.2.2) →
      Reord u Q (.discUnion tag (l.map (fun p => (p.1, p.2.1)))) (.discUnion tag (l'.map (fun p => (p.1, p.2.2))))

/-- What is referred to is related in the same way, or missing in both. -/
def LinkedReord (u : Prop) (Q : Str → Str → Prop) (E E' : ZEnv) : Prop :=
  ∀ ns name, Q ns name → (E.const ns name = none ∧ E'.const ns name = none) ∨
    ∃ a b, E.const ns name = some a ∧ E'.const ns name = some b ∧ Reord u Q a b

variable {u : Prop} {Q : Str → Str → Prop} {E E' : ZEnv}

/-! ## Results -/

/-- Lists of results. -/
inductive SameList {α β : Type} (R : α → β → Prop) : Res α → Res β → Prop where
  | running : SameList R none none
  | error : SameList R (some none) (some none)
  | result {a : α} {b : β} : R a b → SameList R (some (some a)) (some (some b))

theorem sameOutcome_iff {x y : Res JsVal} : SameOutcome x y ↔ SameList SameProps x y := by
  constructor
  · intro h
    cases h with
    | running => exact .running
    | error => exact .error
    | result h => exact .result h
  · intro h
    cases h with
    | running => exact .running
    | error => exact .error
    | result h => exact .result h

theorem sameList_map {α β γ δ : Type} {R : α → β → Prop} {S : γ → δ → Prop} {f : α → γ} {g : β → δ} {x : Res α} {y : Res β}
    (h : SameList R x y) (hf : ∀ a b, R a b → S (f a) (g b)) : SameList S (x.map (·.map f)) (y.map (·.map g)) := by
  cases h with
  | running => exact .running
  | error => exact .error
  | result h => exact .result (hf _ _ h)

/-- Pairs of results, in the order of the list. -/
def Pairs (a b : List JsVal) : Prop := ∃ l : List (JsVal × JsVal), a = l.map (·.1) ∧ b = l.map (·.2) ∧ ∀ p ∈ l, SameProps p.1 p.2

theorem allRes_same {α : Type} {f g : α → Res JsVal} (l : List α) (h : ∀ a ∈ l, SameOutcome (f a) (g a)) :
    SameList Pairs (allRes (l.map f)) (allRes (l.map g)) := by
  induction l with
  | nil => exact .result ⟨[], rfl, rfl, fun p hp => by cases hp⟩
  | cons a r ih =>
    have h1 := h a List.mem_cons_self
    have h2 := ih (fun b hb => h b (List.mem_cons_of_mem _ hb))
    rw [List.map_cons, List.map_cons]
    generalize f a = x at h1
    generalize g a = y at h1
    cases h1 with
    | running => exact .running
    | error =>
      rw [allRes, allRes]
      generalize allRes (r.map f) = u at h2
      generalize allRes (r.map g) = w at h2
      cases h2 with
      | running => exact .running
      | error => exact .error
      | result h => exact .error
    | result h1 =>
      rw [allRes, allRes]
      generalize allRes (r.map f) = u at h2
      generalize allRes (r.map g) = w at h2
      cases h2 with
      | running => exact .running
      | error => exact .error
      | result h =>
        obtain ⟨l, rfl, rfl, hl⟩ := h
        refine .result ⟨(_, _) :: l, rfl, rfl, fun p hp => ?_⟩
        rcases List.mem_cons.1 hp with rfl | hp
        · exact h1
        · exact hl p hp

theorem firstRes_same {α : Type} {f g : α → Res JsVal} (l : List α) (h : ∀ a ∈ l, SameOutcome (f a) (g a)) :
    SameOutcome (firstRes (l.map f)) (firstRes (l.map g)) := by
  induction l with
  | nil => exact .error
  | cons a r ih =>
    have h1 := h a List.mem_cons_self
    have h2 := ih (fun b hb => h b (List.mem_cons_of_mem _ hb))
    rw [List.map_cons, List.map_cons]
    generalize f a = x at h1
    generalize g a = y at h1
    cases h1 with
    | running => exact .running
    | error => exact h2
    | result h => exact .result h

theorem sameProps_undefined {v w : JsVal} (h : SameProps v w) : v = .undefined ↔ w = .undefined := by
  cases h <;> simp

/-- The properties of two results: related values in the same order, then another order. -/
def PropPairs (a b : List (Str × JsVal)) : Prop :=
  ∃ l : List (Str × JsVal × JsVal), a = l.map (fun p => (p.1, p.2.1)) ∧ b = l.map (fun p => (p.1, p.2.2)) ∧ ∀ p ∈ l, SameProps p.2.1 p.2.2

theorem shapeRes_same {kvs : List (Str × JsVal)} {f g : Str × ZSchema → Res JsVal} (l : List (Str × ZSchema × ZSchema))
    (h : ∀ p ∈ l, SameOutcome (f (p.1, p.2.1)) (g (p.1, p.2.2))) :
    SameList PropPairs (shapeRes kvs f (l.map (fun p => (p.1, p.2.1)))) (shapeRes kvs g (l.map (fun p => (p.1, p.2.2)))) := by
  induction l with
  | nil => exact .result ⟨[], rfl, rfl, fun p hp => by cases hp⟩
  | cons a r ih =>
    have h1 := h a List.mem_cons_self
    have h2 := ih (fun b hb => h b (List.mem_cons_of_mem _ hb))
    rw [List.map_cons, List.map_cons, shapeRes_cons, shapeRes_cons]
    generalize f (a.1, a.2.1) = x at h1
    generalize g (a.1, a.2.2) = y at h1
    generalize shapeRes kvs f (r.map (fun p => (p.1, p.2.1))) = u at h2
    generalize shapeRes kvs g (r.map (fun p => (p.1, p.2.2))) = w at h2
    cases h1 with
    | running => exact .running
    | error =>
      cases h2 with
      | running => exact .running
      | error => exact .error
      | result h => exact .error
    | @result r r' h1 =>
      cases h2 with
      | running => exact .running
      | error => exact .error
      | result h =>
        obtain ⟨l, rfl, rfl, hl⟩ := h
        have key : ∀ c c' : Bool, c = c' → PropPairs ((if c then [(a.1, r)] else []) ++ l.map (fun p => (p.1, p.2.1)))
            ((if c' then [(a.1, r')] else []) ++ l.map (fun p => (p.1, p.2.2))) := by
          rintro c _ rfl
          cases c with
          | false => exact ⟨l, rfl, rfl, hl⟩
          | true =>
            refine ⟨(a.1, r, r') :: l, rfl, rfl, fun p hp => ?_⟩
            rcases List.mem_cons.1 hp with rfl | hp
            · exact h1
            · exact hl p hp
        refine .result (key _ _ ?_)
        clear key
        cases h1 <;> rfl

theorem sameList_perm_refl {α : Type} (x : Res (List α)) : SameList List.Perm x x := by
  cases x with
  | none => exact .running
  | some x => cases x with
    | none => exact .error
    | some x => exact .result (.refl x)

theorem shapeRes_perm {kvs : List (Str × JsVal)} {f : Str × ZSchema → Res JsVal} {l l' : List (Str × ZSchema)} (h : l.Perm l') :
    SameList List.Perm (shapeRes kvs f l) (shapeRes kvs f l') := by
  induction h with
  | nil => exact sameList_perm_refl _
  | cons a _ ih =>
    rw [shapeRes_cons, shapeRes_cons]
    generalize shapeRes kvs f _ = u at ih
    generalize shapeRes kvs f _ = w at ih
    generalize f a = x
    cases x with
    | none => exact .running
    | some x =>
      cases ih with
      | running => exact .running
      | error => cases x <;> exact .error
      | result h =>
        cases x with
        | none => exact .error
        | some v => exact .result (h.append_left _)
  | swap a b l =>
    rw [shapeRes_cons, shapeRes_cons, shapeRes_cons, shapeRes_cons]
    generalize shapeRes kvs f l = w
    generalize f a = x
    generalize f b = y
    cases x with
    | none => cases y <;> exact .running
    | some x =>
      cases y with
      | none => cases w <;> exact .running
      | some y =>
        cases w with
        | none => exact .running
        | some w =>
          cases w with
          | none => cases x <;> cases y <;> exact .error
          | some w =>
            cases x with
            | none => cases y <;> exact .error
            | some x =>
              cases y with
              | none => exact .error
              | some y =>
                refine .result ?_
                rw [← List.append_assoc, ← List.append_assoc]
                exact List.perm_append_comm.append_right w
  | trans _ _ h1 h2 =>
    generalize shapeRes kvs f _ = x at h1
    generalize shapeRes kvs f _ = y at h1 h2
    generalize shapeRes kvs f _ = z at h2
    cases h1 with
    | running => exact h2
    | error => exact h2
    | result h =>
      cases h2 with
      | result h' => exact .result (h.trans h')

theorem find_perm {l l' : List (Str × ZSchema × ZSchema)} (hp : l.Perm l') (nd : (l.map (·.1)).Nodup) (s : Str) :
    (∃ p ∈ l, (l.map (fun p => (p.1, p.2.1))).find? (fun p => decide (p.1 = s)) = some (p.1, p.2.1) ∧
      (l'.map (fun p => (p.1, p.2.2))).find? (fun p => decide (p.1 = s)) = some (p.1, p.2.2)) ∨
    ((l.map (fun p => (p.1, p.2.1))).find? (fun p => decide (p.1 = s)) = none ∧
      (l'.map (fun p => (p.1, p.2.2))).find? (fun p => decide (p.1 = s)) = none) := by
  by_cases h : ∃ p ∈ l, p.1 = s
  · obtain ⟨p, hm, rfl⟩ := h
    refine .inl ⟨p, hm, find_nodup ?_ (List.mem_map.2 ⟨p, hm, rfl⟩), find_nodup ?_ (List.mem_map.2 ⟨p, hp.mem_iff.1 hm, rfl⟩)⟩
    · rw [List.map_map]; exact nd
    · rw [List.map_map]; exact (hp.map (·.1)).nodup_iff.1 nd
  · refine .inr ⟨?_, ?_⟩
    · rw [List.find?_eq_none]
      intro q hq
      obtain ⟨p, hm, rfl⟩ := List.mem_map.1 hq
      simpa using fun e => h ⟨p, hm, e⟩
    · rw [List.find?_eq_none]
      intro q hq
      obtain ⟨p, hm, rfl⟩ := List.mem_map.1 hq
      simpa using fun e => h ⟨p, hp.mem_iff.2 hm, e⟩

/-- Related schemas give related results, in the same number of steps. -/
theorem reord_parse (hu : ¬ u) (hL : LinkedReord u Q E E') (n : Nat) : ∀ z z', Reord u Q z z' → ∀ v, SameOutcome (parse E n z v) (parse E' n z' v) := by
  induction n with
  | zero => intro z z' _ v; exact .running
  | succ n ih =>
    have same : ∀ x : Res JsVal, SameOutcome x x := by
      intro x
      cases x with
      | none => exact .running
      | some x => cases x with
        | none => exact .error
        | some x => exact .result (.same x)
    intro z z' h v
    cases h with
    | string cs => exact same _
    | number cs => exact same _
    | null => exact same _
    | literal s => exact same _
    | broken => exact same _
    | lazy ns name hq =>
      rcases hL ns name hq with ⟨h1, h2⟩ | ⟨a, b, h1, h2, hab⟩
      · rw [parse, parse, h1, h2]; exact .error
      · rw [parse, parse, h1, h2]; exact ih a b hab v
    | @array a b h =>
      cases v with
      | arr l =>
        rw [parse, parse]
        refine sameOutcome_iff.2 (sameList_map (allRes_same l (fun u _ => ih a b h u)) ?_)
        rintro _ _ ⟨l, rfl, rfl, hl⟩
        exact .arr l hl
      | _ => exact .error
    | @set a b h =>
      cases v with
      | set l =>
        rw [parse, parse]
        refine sameOutcome_iff.2 (sameList_map (allRes_same l (fun u _ => ih a b h u)) ?_)
        rintro _ _ ⟨l, rfl, rfl, hl⟩
        exact .set l hl
      | _ => exact .error
    | @optional a b h =>
      cases v with
      | undefined => exact same _
      | _ => exact ih a b h _
    | @map a b c d h h' =>
      cases v with
      | map kvs =>
        rw [parse, parse]
        have h1 := allRes_same (f := fun p : JsVal × JsVal => parse E n a p.1) (g := fun p => parse E' n b p.1) kvs (fun p _ => ih a b h p.1)
        have h2 := allRes_same (f := fun p : JsVal × JsVal => parse E n c p.2) (g := fun p => parse E' n d p.2) kvs (fun p _ => ih c d h' p.2)
        generalize allRes (kvs.map (fun p => parse E n a p.1)) = x at h1
        generalize allRes (kvs.map (fun p => parse E' n b p.1)) = x' at h1
        generalize allRes (kvs.map (fun p => parse E n c p.2)) = y at h2
        generalize allRes (kvs.map (fun p => parse E' n d p.2)) = y' at h2
        cases h1 with
        | running => exact .running
        | error => cases h2 <;> first | exact .running | exact .error
        | result h1 =>
          cases h2 with
          | running => exact .running
          | error => exact .error
          | result h2 =>
            obtain ⟨l, rfl, rfl, hl⟩ := h1
            obtain ⟨l', rfl, rfl, hl'⟩ := h2
            exact .result (.map l l' hl hl')
      | _ => exact .error
    | tuple l h =>
      cases v with
      | arr vs =>
        have e : ∀ (f : ZSchema → JsVal → Res JsVal) (π : ZSchema × ZSchema → ZSchema),
            List.zipWith f (l.map π) vs = (l.zip vs).map (fun p => f (π p.1) p.2) := by
          intro f π
          rw [List.zip, List.map_zipWith, List.zipWith_map_left]
        rw [parse, parse, List.length_map, List.length_map, e, e]
        by_cases hl : vs.length < l.length
        · rw [if_pos hl, if_pos hl]; exact .error
        · rw [if_neg hl, if_neg hl]
          have h1 := allRes_same (f := fun p : (ZSchema × ZSchema) × JsVal => parse E n p.1.1 p.2) (g := fun p => parse E' n p.1.2 p.2)
            (l.zip vs) (fun p hp => ih _ _ (h p.1 (List.of_mem_zip hp).1) p.2)
          generalize allRes ((l.zip vs).map (fun p => parse E n p.1.1 p.2)) = x at h1
          generalize allRes ((l.zip vs).map (fun p => parse E' n p.1.2 p.2)) = x' at h1
          cases h1 with
          | running => exact .running
          | error =>
            by_cases hl' : l.length < vs.length
            · simp only [if_pos hl']; exact .error
            · simp only [if_neg hl']; exact .error
          | result h1 =>
            obtain ⟨l', rfl, rfl, hl'⟩ := h1
            by_cases hc : l.length < vs.length
            · simp only [if_pos hc]; exact .error
            · simp only [if_neg hc]; exact .result (.arr l' hl')
      | _ => exact .error
    | union l l' _ he h =>
      obtain rfl := he hu
      rw [parse, parse, List.map_map, List.map_map]
      exact firstRes_same l (fun p hp => ih _ _ (h p hp) v)
    | object l l' hp nd h =>
      cases v with
      | obj kvs =>
        rw [parse_shape, parse_shape]
        have h1 := shapeRes_same (kvs := kvs) (f := fun p => parse E n p.2 (objGet kvs p.1)) (g := fun p => parse E' n p.2 (objGet kvs p.1)) l
          (fun p hp => ih _ _ (h p hp) _)
        have h2 := shapeRes_perm (kvs := kvs) (f := fun p => parse E' n p.2 (objGet kvs p.1)) (hp.map (fun p => (p.1, p.2.2)))
        generalize shapeRes kvs (fun p => parse E n p.2 (objGet kvs p.1)) (l.map (fun p => (p.1, p.2.1))) = x at h1
        generalize shapeRes kvs (fun p => parse E' n p.2 (objGet kvs p.1)) (l.map (fun p => (p.1, p.2.2))) = y at h1 h2
        generalize shapeRes kvs (fun p => parse E' n p.2 (objGet kvs p.1)) (l'.map (fun p => (p.1, p.2.2))) = w at h2
        cases h1 with
        | running => cases h2; exact .running
        | error => cases h2; exact .error
        | result h1 =>
          obtain ⟨q, rfl, rfl, hq⟩ := h1
          cases h2 with
          | result h2 => exact .result (.obj q _ hq h2)
      | _ => exact .error
    | disc tag l l' hp nd h =>
      cases v with
      | obj kvs =>
        rw [parse, parse]
        cases hg : objGet kvs tag with
        | str s =>
          rcases find_perm hp nd s with ⟨p, hp, h1, h2⟩ | ⟨h1, h2⟩
          · simp only [h1, h2]
            exact ih _ _ (h p hp) _
          · simp only [h1, h2]
            exact .error
        | _ => exact .error
      | _ => exact .error

/-! ## Schemas of the two programs -/

/-- If the first exists, so does the second, and they are related. -/
def Fwd (u : Prop) (Q : Str → Str → Prop) (x x' : Option ZSchema) : Prop := ∀ z, x = some z → ∃ z', x' = some z' ∧ Reord u Q z z'

theorem fwd_opt {b : Bool} {x x' : Option ZSchema} (h : Fwd u Q x x') : Fwd u Q (optZ b x) (optZ b x') := by
  cases b with
  | false => exact h
  | true =>
    intro z hz
    simp only [optZ, if_true, Option.map_eq_some_iff] at hz ⊢
    obtain ⟨a, ha, rfl⟩ := hz
    obtain ⟨b, hb, hab⟩ := h a ha
    exact ⟨_, ⟨b, hb, rfl⟩, .optional hab⟩

theorem allSome_getD {α : Type} {f : α → Option ZSchema} {l : List α} (h : ∀ a ∈ l, ∃ z, f a = some z) :
    allSome (l.map f) = some (l.map (fun a => (f a).getD .broken)) := by
  induction l with
  | nil => rfl
  | cons a r ih =>
    obtain ⟨z, hz⟩ := h a List.mem_cons_self
    rw [List.map_cons, List.map_cons, hz, allSome, ih (fun b hb => h b (List.mem_cons_of_mem _ hb))]
    rfl

theorem allSome_mem {α : Type} {f : α → Option ZSchema} {l : List α} {zs : List ZSchema} (h : allSome (l.map f) = some zs) :
    ∀ a ∈ l, ∃ z, f a = some z := by
  induction l generalizing zs with
  | nil => intro a ha; cases ha
  | cons a r ih =>
    rw [List.map_cons] at h
    obtain ⟨z, zs', h1, h2, rfl⟩ := allSome_cons h
    intro b hb
    rcases List.mem_cons.1 hb with rfl | hb
    · exact ⟨z, h1⟩
    · exact ih h2 b hb

/-- All schemas of a list. -/
theorem fwd_all {l : List (Option ZSchema × Option ZSchema)} (h : ∀ p ∈ l, Fwd u Q p.1 p.2) {zs : List ZSchema}
    (hz : allSome (l.map (·.1)) = some zs) : ∃ q : List (ZSchema × ZSchema), zs = q.map (·.1) ∧ allSome (l.map (·.2)) = some (q.map (·.2)) ∧
      ∀ p ∈ q, Reord u Q p.1 p.2 := by
  have hm := allSome_mem hz
  refine ⟨l.map (fun p => (p.1.getD .broken, p.2.getD .broken)), ?_, ?_, fun p hp => ?_⟩
  · rw [allSome_getD hm] at hz
    cases hz
    rw [List.map_map]
    rfl
  · rw [allSome_getD (f := fun p : Option ZSchema × Option ZSchema => p.2), List.map_map]
    · rfl
    · intro a ha
      obtain ⟨z, hz⟩ := hm a ha
      obtain ⟨z', h', _⟩ := h a ha z hz
      exact ⟨z', h'⟩
  · obtain ⟨a, ha, rfl⟩ := List.mem_map.1 hp
    obtain ⟨z, hz⟩ := hm a ha
    obtain ⟨z', h', hr⟩ := h a ha z hz
    simp only [hz, h', Option.getD_some]
    exact hr

/-- Objects, with the keys in another order. -/
theorem fwd_obj {l l' : List (Str × Option ZSchema × Option ZSchema)} (hp : l.Perm l') (h : ∀ p ∈ l, Fwd u Q p.2.1 p.2.2) :
    Fwd u Q (objZ (l.map (fun p => (p.1, p.2.1)))) (objZ (l'.map (fun p => (p.1, p.2.2)))) := by
  intro z hz
  have nd := objZ_nodup hz
  unfold objZ at hz ⊢
  simp only [List.map_map] at hz nd ⊢
  have k1 : l.map ((fun x => x.1) ∘ fun p : Str × Option ZSchema × Option ZSchema => (p.1, p.2.1)) = l.map (·.1) := rfl
  have k2 : l'.map ((fun x => x.1) ∘ fun p : Str × Option ZSchema × Option ZSchema => (p.1, p.2.2)) = l'.map (·.1) := rfl
  have k3 : l.map ((fun x => x.2) ∘ fun p : Str × Option ZSchema × Option ZSchema => (p.1, p.2.1)) = l.map (·.2.1) := rfl
  have k4 : l'.map ((fun x => x.2) ∘ fun p : Str × Option ZSchema × Option ZSchema => (p.1, p.2.2)) = l'.map (·.2.2) := rfl
  rw [k1] at nd
  rw [k1, k3] at hz
  rw [k2, k4]
  cases ha : allSome (l.map (·.2.1)) with
  | none => rw [ha] at hz; cases hz
  | some zs =>
    rw [ha] at hz
    have hm := allSome_mem ha
    simp only at hz
    split at hz
    · rename_i hc
      cases hz
      rw [allSome_getD hm] at ha
      cases ha
      have hm' : ∀ p ∈ l', ∃ z, p.2.2 = some z := by
        intro p hp'
        have hp := hp.mem_iff.2 hp'
        obtain ⟨z, hz⟩ := hm p hp
        obtain ⟨z', h', _⟩ := h p hp z hz
        exact ⟨z', h'⟩
      rw [allSome_getD hm']
      have pk : (l.map (·.1)).Perm (l'.map (·.1)) := hp.map _
      have hc' : (distinct (l'.map (·.1)) && !(l'.map (·.1)).contains (lit "__proto__")) = true := by
        rw [Bool.and_eq_true] at hc ⊢
        refine ⟨(distinct_iff _).2 (pk.nodup_iff.1 ((distinct_iff _).1 hc.1)), ?_⟩
        have := hc.2
        simp only [Bool.not_eq_true', ← Bool.not_eq_true, List.contains_iff_mem] at this ⊢
        exact fun hm => this (pk.mem_iff.2 hm)
      simp only [if_pos hc', List.zip_map', Option.some.injEq, exists_eq_left']
      have := Reord.object (u := u) (Q := Q) (l.map (fun p => (p.1, p.2.1.getD .broken, p.2.2.getD .broken)))
        (l'.map (fun p => (p.1, p.2.1.getD .broken, p.2.2.getD .broken))) (hp.map _)
        (by rw [List.map_map]; exact nd)
        (by
          intro p hp'
          obtain ⟨a, ha, rfl⟩ := List.mem_map.1 hp'
          obtain ⟨z, hz⟩ := hm a ha
          obtain ⟨z', h', hr⟩ := h a ha z hz
          simp only [hz, h', Option.getD_some]
          exact hr)
      rw [List.map_map, List.map_map] at this
      exact this
    · cases hz

/-- Objects with the keys in the same order. -/
theorem fwd_obj_same {α : Type} {k : α → Str} {f g : α → Option ZSchema} (l : List α) (h : ∀ a ∈ l, Fwd u Q (f a) (g a)) :
    Fwd u Q (objZ (l.map (fun a => (k a, f a)))) (objZ (l.map (fun a => (k a, g a)))) := by
  have := fwd_obj (u := u) (Q := Q) (List.Perm.refl (l.map (fun a => (k a, f a, g a)))) (fun p hp => by
    obtain ⟨a, ha, rfl⟩ := List.mem_map.1 hp
    exact h a ha)
  rw [List.map_map, List.map_map] at this
  exact this

theorem fwd_obj_perm {α : Type} {k : α → Str} {f g : α → Option ZSchema} {l l' : List α} (hp : l.Perm l') (h : ∀ a ∈ l, Fwd u Q (f a) (g a)) :
    Fwd u Q (objZ (l.map (fun a => (k a, f a)))) (objZ (l'.map (fun a => (k a, g a)))) := by
  have := fwd_obj (u := u) (Q := Q) (hp.map (fun a => (k a, f a, g a))) (fun p hp => by
    obtain ⟨a, ha, rfl⟩ := List.mem_map.1 hp
    exact h a ha)
  rw [List.map_map, List.map_map] at this
  exact this

theorem fwd_literal (s : Str) : Fwd u Q (some (.literal s)) (some (.literal s)) := by
  intro z hz; cases hz; exact ⟨_, rfl, .literal s⟩

theorem extendZ_eq {z : Option ZSchema} {l : List (Option ZSchema)} {w : ZSchema} :
    extendZ z l = some w ↔ (l = [] ∧ z = some w) ∨ (l ≠ [] ∧ (∀ x ∈ l, ∃ a, x = some a) ∧ (∃ a, z = some a) ∧ w = .broken) := by
  induction l generalizing z with
  | nil => simp [extendZ]
  | cons x r ih =>
    cases x with
    | none => simp [extendZ]
    | some a =>
      rw [extendZ, ih]
      cases r with
      | nil => cases z <;> simp [eq_comm]
      | cons b r => cases z <;> simp

section
variable {rec rec' : Method → Ty → Option ZSchema}

theorem fwd_extend {x x' : Option ZSchema} {l l' : List (Option ZSchema × Option ZSchema)} (hp : l.Perm l') (h : ∀ p ∈ l, Fwd u Q p.1 p.2)
    (hx : Fwd u Q x x') : Fwd u Q (extendZ x (l.map (·.1))) (extendZ x' (l'.map (·.2))) := by
  intro z hz
  rcases extendZ_eq.1 hz with ⟨h1, h2⟩ | ⟨h1, h2, ⟨a, ha⟩, rfl⟩
  · obtain ⟨z', h3, h4⟩ := hx z h2
    refine ⟨z', extendZ_eq.2 (.inl ⟨?_, h3⟩), h4⟩
    rw [List.map_eq_nil_iff] at h1 ⊢
    subst h1
    exact hp.nil_eq.symm
  · obtain ⟨b, hb, _⟩ := hx a ha
    refine ⟨_, extendZ_eq.2 (.inr ⟨?_, ?_, ⟨b, hb⟩, rfl⟩), .broken⟩
    · intro e
      apply h1
      rw [List.map_eq_nil_iff] at e ⊢
      subst e
      exact hp.eq_nil
    · intro y hy
      obtain ⟨p, hp', rfl⟩ := List.mem_map.1 hy
      have hpl := hp.mem_iff.2 hp'
      obtain ⟨c, hc⟩ := h2 p.1 (List.mem_map.2 ⟨p, hpl, rfl⟩)
      obtain ⟨d, hd, _⟩ := h p hpl c hc
      exact ⟨d, hd⟩

/-- Each type. -/
def FwdTypes (u : Prop) (Q : Str → Str → Prop) (rec rec' : Method → Ty → Option ZSchema) : Prop := ∀ m t, Fwd u Q (rec m t) (rec' m t)

variable (H : FwdTypes u Q rec rec')
include H

theorem fwd_sfield (f : SField) : Fwd u Q (sfieldZ rec f) (sfieldZ rec' f) := fwd_opt (H _ _)

theorem fwd_vfield (f : Field) : Fwd u Q (vfieldZ rec f) (vfieldZ rec' f) := fwd_opt (H _ _)

omit H in
theorem fwd_tupleOf {α : Type} {f g : α → Option ZSchema} (l : List α) (h : ∀ a ∈ l, Fwd u Q (f a) (g a)) :
    Fwd u Q ((allSome (l.map f)).map .tuple) ((allSome (l.map g)).map .tuple) := by
  intro z hz
  obtain ⟨zs, h1, rfl⟩ := Option.map_eq_some_iff.1 hz
  obtain ⟨q, rfl, h2, h3⟩ := fwd_all (u := u) (Q := Q) (l := l.map (fun a => (f a, g a))) (fun p hp => by
    obtain ⟨a, ha, rfl⟩ := List.mem_map.1 hp; exact h a ha) (zs := zs) (by rw [List.map_map]; exact h1)
  rw [List.map_map] at h2
  exact ⟨_, Option.map_eq_some_iff.2 ⟨_, h2, rfl⟩, .tuple q h3⟩

theorem fwd_struct_same (s : StructDecl) : Fwd u Q (structZ rec s) (structZ rec' s) := by
  unfold structZ
  simp only
  cases ht : s.transparent with
  | true =>
    simp only
    cases (structFields s).filter (fun f => !f.flatten) with
    | nil => intro z hz; cases hz
    | cons f r => exact fwd_sfield H f
  | false =>
    cases hs : s.style with
    | tuple =>
      simp only
      generalize (structFields s).filter (fun f => !f.flatten) = fields
      match fields with
      | [] => intro z hz; cases hz
      | [f] => exact fwd_sfield H f
      | f :: g :: r => exact fwd_tupleOf (f :: g :: r) (fun a _ => fwd_sfield H a)
    | named =>
      simp only
      have := fwd_extend (u := u) (Q := Q) (List.Perm.refl (((structFields s).filter (·.flatten)).map (fun f => (sfieldZ rec f, sfieldZ rec' f))))
        (fun p hp => by obtain ⟨a, _, rfl⟩ := List.mem_map.1 hp; exact fwd_sfield H a)
        (fwd_obj_same (k := fun f : SField => f.name.getD []) ((structFields s).filter (fun f => !f.flatten)) (fun f _ => fwd_sfield H f))
      rw [List.map_map, List.map_map] at this
      exact this
    | unit => intro z hz; cases hz

theorem fwd_struct (s : StructDecl) {fs : List Field} (ht : s.transparent = false) (hs : s.style = .named) (hp : s.fields.Perm fs) :
    Fwd u Q (structZ rec s) (structZ rec' { s with fields := fs }) := by
  have hp' : (structFields s).Perm (structFields { s with fields := fs }) := (hp.filter _).map _
  have e1 : structZ rec s = extendZ (objZ (((structFields s).filter (fun f => !f.flatten)).map (fun f => (f.name.getD [], sfieldZ rec f))))
      (((structFields s).filter (·.flatten)).map (sfieldZ rec)) := by
    unfold structZ
    simp only
    split
    · rename_i h; rw [ht] at h; cases h
    · rename_i h; rw [hs] at h; cases h
    · rfl
    · rename_i h; rw [hs] at h; cases h
  have e2 : structZ rec' { s with fields := fs } =
      extendZ (objZ (((structFields { s with fields := fs }).filter (fun f => !f.flatten)).map (fun f => (f.name.getD [], sfieldZ rec' f))))
        (((structFields { s with fields := fs }).filter (·.flatten)).map (sfieldZ rec')) := by
    unfold structZ
    simp only
    split
    · rename_i h; rw [ht] at h; cases h
    · rename_i h; rw [hs] at h; cases h
    · rfl
    · rename_i h; rw [hs] at h; cases h
  rw [e1, e2]
  have := fwd_extend (u := u) (Q := Q) ((hp'.filter (·.flatten)).map (fun f => (sfieldZ rec f, sfieldZ rec' f)))
    (fun p hp => by obtain ⟨a, _, rfl⟩ := List.mem_map.1 hp; exact fwd_sfield H a)
    (fwd_obj_perm (k := fun f : SField => f.name.getD []) (hp'.filter (fun f => !f.flatten)) (fun f _ => fwd_sfield H f))
  rw [List.map_map, List.map_map] at this
  exact this

omit H in
theorem fwd_one {k : Str} {x x' : Option ZSchema} (h : Fwd u Q x x') : Fwd u Q (objZ [(k, x)]) (objZ [(k, x')]) :=
  fwd_obj (l := [(k, x, x')]) (.refl _) (fun p hp => by
    rw [List.mem_singleton] at hp; subst hp; exact h)

omit H in
theorem fwd_two {k k' : Str} {x x' y y' : Option ZSchema} (h : Fwd u Q x x') (h' : Fwd u Q y y') :
    Fwd u Q (objZ [(k, x), (k', y)]) (objZ [(k, x'), (k', y')]) :=
  fwd_obj (l := [(k, x, x'), (k', y, y')]) (.refl _) (fun p hp => by
    simp only [List.mem_cons, List.not_mem_nil, or_false] at hp
    rcases hp with rfl | rfl
    · exact h
    · exact h')

omit H in
theorem fwd_unit (tag : Tag) (name : Str) : Fwd u Q (unitZ tag name) (unitZ tag name) := by
  cases tag with
  | external => exact fwd_literal name
  | internal t => exact fwd_one (fwd_literal name)
  | adjacent t c => exact fwd_one (fwd_literal name)
  | untagged => intro z hz; cases hz; exact ⟨_, rfl, .null⟩

theorem fwd_tupleFields (fs : List Field) : Fwd u Q (tupleFieldsZ rec fs) (tupleFieldsZ rec' fs) := by
  match fs with
  | [] => exact fwd_tupleOf [] (fun a _ => fwd_vfield H a)
  | [f] => exact fwd_vfield H f
  | f :: g :: r => exact fwd_tupleOf (f :: g :: r) (fun a _ => fwd_vfield H a)

theorem fwd_tupleVariant (tag : Tag) (v : Variant) : Fwd u Q (tupleVariantZ rec tag v) (tupleVariantZ rec' tag v) := by
  unfold tupleVariantZ
  cases v.kept with
  | nil => exact fwd_unit tag v.name
  | cons f fs =>
    cases tag with
    | external => exact fwd_one (fwd_tupleFields H _)
    | internal t => exact fwd_one (fwd_tupleFields H _)
    | adjacent t c => exact fwd_two (fwd_literal _) (fwd_tupleFields H _)
    | untagged => exact fwd_tupleFields H _

theorem fwd_structVariant (tag : Tag) (v : Variant) {fs : List Field} (hp : v.fields.Perm fs) :
    Fwd u Q (structVariantZ rec tag v) (structVariantZ rec' tag { v with fields := fs }) := by
  have hk : v.kept.Perm (Variant.kept { v with fields := fs }) := hp.filter _
  have ho := fwd_obj_perm (k := fun f : Field => f.name) hk (fun f _ => fwd_vfield H f)
  unfold structVariantZ
  cases tag with
  | external => exact fwd_one ho
  | internal t =>
    have := fwd_obj (u := u) (Q := Q) ((hk.map (fun f => (f.name, vfieldZ rec f, vfieldZ rec' f))).cons (t, some (.literal v.name), some (.literal v.name)))
      (fun p hp => by
        rcases List.mem_cons.1 hp with rfl | hp
        · exact fwd_literal _
        · obtain ⟨a, _, rfl⟩ := List.mem_map.1 hp
          exact fwd_vfield H a)
    rw [List.map_cons, List.map_cons, List.map_map, List.map_map] at this
    exact this
  | adjacent t c => exact fwd_two (fwd_literal _) ho
  | untagged => exact ho

theorem fwd_variant (tag : Tag) {v v' : Variant} (h : ReorderedVariant v v') : Fwd u Q (variantZ rec tag v) (variantZ rec' tag v') := by
  cases h with
  | same =>
    unfold variantZ
    cases v.style with
    | unit => exact fwd_unit tag v.name
    | named => exact fwd_structVariant H tag v (.refl _)
    | tuple => exact fwd_tupleVariant H tag v
  | fields fs hs hp =>
    unfold variantZ
    simp only [hs]
    exact fwd_structVariant H tag v hp

omit H in
theorem reord_discriminator {t s : Str} {z z' : ZSchema} (h : Reord u Q z z') (hd : discriminator t z = some s) : discriminator t z' = some s := by
  obtain ⟨sh, rfl, hm, _⟩ := discriminator_mem hd
  generalize he : ZSchema.object sh = z at h
  cases h with
  | object l l' hp nd hr =>
    cases he
    obtain ⟨p, hpm, e⟩ := List.mem_map.1 hm
    obtain ⟨rfl, e2⟩ := Prod.mk.injEq _ _ _ _ ▸ e
    have hr' := hr p hpm
    rw [e2] at hr'
    have hl : p.2.2 = .literal s := by
      generalize p.2.2 = b at hr'
      cases hr'
      rfl
    have nd' : ((l'.map (fun p => (p.1, p.2.2))).map (·.1)).Nodup := by
      rw [List.map_map]
      exact (hp.map (·.1)).nodup_iff.1 nd
    have hf := find_nodup nd' (List.mem_map.2 ⟨p, hp.mem_iff.1 hpm, rfl⟩)
    rw [discriminator, hf]
    simp only [hl]
  | _ => cases he

omit H in
theorem fwd_discOptions {t : Str} (q : List (ZSchema × ZSchema)) (h : ∀ p ∈ q, Reord u Q p.1 p.2) {o : List (Str × ZSchema)}
    (ho : discOptions t (q.map (·.1)) = some o) : ∃ l : List (Str × ZSchema × ZSchema), o = l.map (fun p => (p.1, p.2.1)) ∧
      discOptions t (q.map (·.2)) = some (l.map (fun p => (p.1, p.2.2))) ∧ ∀ p ∈ l, Reord u Q p.2.1 p.2.2 := by
  induction q generalizing o with
  | nil => cases ho; exact ⟨[], rfl, rfl, fun p hp => by cases hp⟩
  | cons a r ih =>
    rw [List.map_cons] at ho
    obtain ⟨s, m, h1, h2, rfl, hn⟩ := discOptions_cons ho
    obtain ⟨l, rfl, h3, hl⟩ := ih (fun b hb => h b (List.mem_cons_of_mem _ hb)) h2
    have ha := h a List.mem_cons_self
    refine ⟨(s, a.1, a.2) :: l, rfl, ?_, fun p hp => ?_⟩
    · rw [List.map_cons, discOptions, reord_discriminator ha h1, h3]
      have : ¬ s ∈ (l.map (fun p => (p.1, p.2.2))).map (·.1) := by
        rw [List.map_map] at hn ⊢
        exact hn
      simp [List.map_map] at this ⊢
      exact this
    · rcases List.mem_cons.1 hp with rfl | hp
      · exact ha
      · exact hl p hp

theorem fwd_enum (e : EnumDecl) {vs : List Variant} (hv : All2 ReorderedVariant e.variants vs) :
    Fwd u Q (enumZ rec e) (enumZ rec' { e with variants := vs }) := by
  have hk : All2 ReorderedVariant e.kept (EnumDecl.kept { e with variants := vs }) := by
    unfold EnumDecl.kept
    simp only
    generalize e.variants = l at hv
    induction hv with
    | nil => exact .nil
    | @cons a b _ _ h _ ih =>
      have hs : b.skipDe = a.skipDe := by cases h <;> rfl
      rw [List.filter_cons, List.filter_cons, hs]
      cases a.skipDe
      · exact .cons h ih
      · exact ih
  unfold enumZ
  generalize EnumDecl.kept { e with variants := vs } = k' at hk
  generalize e.kept = k at hk
  have pairs : ∀ l l', All2 ReorderedVariant l l' → ∃ q : List (Option ZSchema × Option ZSchema),
      l.map (variantZ rec e.tag) = q.map (·.1) ∧ l'.map (variantZ rec' e.tag) = q.map (·.2) ∧ ∀ p ∈ q, Fwd u Q p.1 p.2 := by
    intro l l' h
    induction h with
    | nil => exact ⟨[], rfl, rfl, fun p hp => by cases hp⟩
    | @cons a b _ _ h _ ih =>
      obtain ⟨q, e1, e2, hq⟩ := ih
      refine ⟨(_, _) :: q, by rw [List.map_cons, List.map_cons, e1], by rw [List.map_cons, List.map_cons, e2], fun p hp => ?_⟩
      rcases List.mem_cons.1 hp with rfl | hp
      · exact fwd_variant H e.tag h
      · exact hq p hp
  have hu : ∀ l l', All2 ReorderedVariant l l' →
      Fwd u Q ((allSome (l.map (variantZ rec e.tag))).map .union) ((allSome (l'.map (variantZ rec' e.tag))).map .union) := by
    intro l l' h z hz
    obtain ⟨q, e1, e2, hq⟩ := pairs l l' h
    rw [e1] at hz
    rw [e2]
    obtain ⟨zs, h1, rfl⟩ := Option.map_eq_some_iff.1 hz
    obtain ⟨q', rfl, h2, h3⟩ := fwd_all hq h1
    exact ⟨_, Option.map_eq_some_iff.2 ⟨_, h2, rfl⟩, .union q' q' (.refl _) (fun _ => rfl) h3⟩
  have hd : ∀ t l l', All2 ReorderedVariant l l' → Fwd u Q (discZ t (l.map (variantZ rec e.tag))) (discZ t (l'.map (variantZ rec' e.tag))) := by
    intro t l l' h z hz
    obtain ⟨q, e1, e2, hq⟩ := pairs l l' h
    rw [e1] at hz
    rw [e2]
    unfold discZ at hz ⊢
    cases h1 : allSome (q.map (·.1)) with
    | none => rw [h1] at hz; cases hz
    | some zs =>
      rw [h1] at hz
      obtain ⟨o, ho, rfl⟩ := Option.map_eq_some_iff.1 hz
      obtain ⟨q', rfl, h2, h3⟩ := fwd_all hq h1
      obtain ⟨r, rfl, h4, h5⟩ := fwd_discOptions q' h3 ho
      rw [h2]
      refine ⟨_, Option.map_eq_some_iff.2 ⟨_, h4, rfl⟩, .disc t r r (.refl _) ?_ h5⟩
      have := discOptions_nodup ho
      rw [List.map_map] at this
      exact this
  match k, k', hk with
  | [], [], _ => intro z hz; cases hz
  | [v], [v'], .cons h _ => exact fwd_variant H e.tag h
  | a :: b :: r, a' :: b' :: r', hk =>
    simp only
    cases ht : e.tag with
    | external => have := hu _ _ hk; rw [ht] at this; exact this
    | internal t => have := hd t _ _ hk; rw [ht] at this; exact this
    | adjacent t c => have := hd t _ _ hk; rw [ht] at this; exact this
    | untagged => have := hu _ _ hk; rw [ht] at this; exact this

omit H in
/-- The options of a discriminated union: each has a discriminator, no two the same. -/
theorem discOptions_iff {t : Str} {zs : List ZSchema} {o : List (Str × ZSchema)} : discOptions t zs = some o ↔
    (∀ z ∈ zs, ∃ s, discriminator t z = some s) ∧ o = zs.map (fun z => ((discriminator t z).getD [], z)) ∧ (o.map (·.1)).Nodup := by
  induction zs generalizing o with
  | nil =>
    constructor
    · intro h; cases h; exact ⟨fun z hz => (by cases hz), rfl, .nil⟩
    · rintro ⟨_, rfl, _⟩; rfl
  | cons z r ih =>
    constructor
    · intro h
      have nd := discOptions_nodup h
      obtain ⟨s, m, h1, h2, rfl, hn⟩ := discOptions_cons h
      obtain ⟨h3, h4, _⟩ := ih.1 h2
      refine ⟨fun y hy => ?_, ?_, nd⟩
      · rcases List.mem_cons.1 hy with rfl | hy
        · exact ⟨s, h1⟩
        · exact h3 y hy
      · rw [List.map_cons, h1, ← h4]; rfl
    · rintro ⟨h1, rfl, nd⟩
      obtain ⟨s, hs⟩ := h1 z List.mem_cons_self
      rw [List.map_cons, List.map_cons, List.nodup_cons] at nd
      have := ih.2 ⟨fun y hy => h1 y (List.mem_cons_of_mem _ hy), rfl, nd.2⟩
      rw [discOptions, hs, this]
      have hn := nd.1
      rw [hs] at hn
      simp only [Option.getD_some] at hn
      simp [hs] at hn ⊢
      exact hn

omit H in
theorem discOptions_perm {t : Str} {zs zs' : List ZSchema} (hp : zs.Perm zs') {o : List (Str × ZSchema)} (h : discOptions t zs = some o) :
    discOptions t zs' = some (zs'.map (fun z => ((discriminator t z).getD [], z))) := by
  obtain ⟨h1, rfl, h3⟩ := discOptions_iff.1 h
  refine discOptions_iff.2 ⟨fun z hz => h1 z (hp.mem_iff.2 hz), rfl, ?_⟩
  exact ((hp.map _).map _).nodup_iff.1 h3

/-- Enums with variants in another order. -/
theorem fwd_enum_perm (e : EnumDecl) {vs : List Variant} (hv : e.variants.Perm vs) (ht : u ∨ HasTag e.tag) :
    Fwd u Q (enumZ rec e) (enumZ rec' { e with variants := vs }) := by
  have hk : e.kept.Perm (EnumDecl.kept { e with variants := vs }) := hv.filter _
  unfold enumZ
  generalize EnumDecl.kept { e with variants := vs } = k' at hk
  generalize e.kept = k at hk
  have pairs : ∀ l l' : List Variant, l.Perm l' → ∀ zs, allSome (l.map (variantZ rec e.tag)) = some zs →
      ∃ q q' : List (ZSchema × ZSchema), q.Perm q' ∧ zs = q.map (·.1) ∧ allSome (l'.map (variantZ rec' e.tag)) = some (q'.map (·.2)) ∧
        ∀ p ∈ q, Reord u Q p.1 p.2 := by
    intro l l' hp zs hz
    have hm := allSome_mem hz
    have hf : ∀ v ∈ l, ∃ z z', variantZ rec e.tag v = some z ∧ variantZ rec' e.tag v = some z' ∧ Reord u Q z z' := by
      intro v hv
      obtain ⟨z, hz⟩ := hm v hv
      obtain ⟨z', h1, h2⟩ := fwd_variant H e.tag (.same v) z hz
      exact ⟨z, z', hz, h1, h2⟩
    refine ⟨l.map (fun v => ((variantZ rec e.tag v).getD .broken, (variantZ rec' e.tag v).getD .broken)),
      l'.map (fun v => ((variantZ rec e.tag v).getD .broken, (variantZ rec' e.tag v).getD .broken)), hp.map _, ?_, ?_, fun p hp => ?_⟩
    · rw [allSome_getD hm] at hz
      cases hz
      rw [List.map_map]
      rfl
    · rw [allSome_getD (fun v hv => ?_), List.map_map]
      · rfl
      · obtain ⟨_, z', _, h, _⟩ := hf v (hp.mem_iff.2 hv)
        exact ⟨z', h⟩
    · obtain ⟨v, hv, rfl⟩ := List.mem_map.1 hp
      obtain ⟨z, z', h1, h2, h3⟩ := hf v hv
      simp only [h1, h2, Option.getD_some]
      exact h3
  have hu : u → ∀ l l' : List Variant, l.Perm l' →
      Fwd u Q ((allSome (l.map (variantZ rec e.tag))).map .union) ((allSome (l'.map (variantZ rec' e.tag))).map .union) := by
    intro hu l l' h z hz
    obtain ⟨zs, h1, rfl⟩ := Option.map_eq_some_iff.1 hz
    obtain ⟨q, q', hq, rfl, h2, h3⟩ := pairs l l' h zs h1
    exact ⟨_, Option.map_eq_some_iff.2 ⟨_, h2, rfl⟩, .union q q' hq (fun h => absurd hu h) h3⟩
  have hd : ∀ t, ∀ l l' : List Variant, l.Perm l' →
      Fwd u Q (discZ t (l.map (variantZ rec e.tag))) (discZ t (l'.map (variantZ rec' e.tag))) := by
    intro t l l' h z hz
    unfold discZ at hz ⊢
    cases h1 : allSome (l.map (variantZ rec e.tag)) with
    | none => rw [h1] at hz; cases hz
    | some zs =>
      rw [h1] at hz
      obtain ⟨o, ho, rfl⟩ := Option.map_eq_some_iff.1 hz
      obtain ⟨q, q', hq, rfl, h2, h3⟩ := pairs l l' h zs h1
      obtain ⟨r, rfl, h4, h5⟩ := fwd_discOptions q h3 ho
      have hw := discOptions_perm (hq.map (·.2)) h4
      have hr := (discOptions_iff.1 h4).2.1
      have hr' := (discOptions_iff.1 ho).2.1
      rw [h2]
      simp only [hw]
      refine ⟨_, rfl, ?_⟩
      have key : r = q.map (fun p => ((discriminator t p.2).getD [], p.1, p.2)) := by
        have e1 : r.map (fun p => (p.1, p.2.1, p.2.2)) = r := by simp
        have e2 : r.length = q.length := by
          have := congrArg List.length hr
          simpa using this
        refine List.ext_getElem (by rw [List.length_map, e2]) (fun i h1 h2 => ?_)
        have a1 := List.getElem_of_eq hr (i := i) (by simpa using h1)
        have a2 := List.getElem_of_eq hr' (i := i) (by simpa using h1)
        simp only [List.getElem_map, Prod.mk.injEq] at a1 a2 ⊢
        exact Prod.ext a1.1 (Prod.ext a2.2 a1.2)
      have := Reord.disc (u := u) (Q := Q) t r (q'.map (fun p => ((discriminator t p.2).getD [], p.1, p.2)))
        (by rw [key]; exact hq.map _) (by
          have := discOptions_nodup ho
          rw [List.map_map] at this
          exact this) h5
      rw [List.map_map] at this
      rw [List.map_map]
      exact this
  match k, k', hk with
  | [], k', hk =>
    intro z hz; cases hz
  | [v], k', hk =>
    obtain rfl := hk.symm.eq_singleton
    exact fwd_variant H e.tag (.same v)
  | a :: b :: r, [], hk => exact absurd hk.length_eq (by simp)
  | a :: b :: r, [_], hk => exact absurd hk.length_eq (by simp)
  | a :: b :: r, a' :: b' :: r', hk =>
    simp only
    cases htag : e.tag with
    | external =>
      have hu' : u := ht.resolve_right (by rw [htag]; rintro (⟨t, h⟩ | ⟨t, c, h⟩) <;> cases h)
      have := hu hu' _ _ hk; rw [htag] at this; exact this
    | internal t => have := hd t _ _ hk; rw [htag] at this; exact this
    | adjacent t c => have := hd t _ _ hk; rw [htag] at this; exact this
    | untagged =>
      have hu' : u := ht.resolve_right (by rw [htag]; rintro (⟨t, h⟩ | ⟨t, c, h⟩) <;> cases h)
      have := hu hu' _ _ hk; rw [htag] at this; exact this

omit H in
theorem all2_same (l : List Variant) : All2 ReorderedVariant l l := by
  induction l with
  | nil => exact .nil
  | cons v r ih => exact .cons (.same v) ih

theorem fwd_decl {d d' : Decl} (h : ReorderedDecl d d') : Fwd u Q (declZ rec d) (declZ rec' d') := by
  cases h with
  | same =>
    cases d with
    | struct s =>
      simp only [declZ]
      cases s.from_.ty? with
      | some t => exact H _ t
      | none => exact fwd_struct_same H s
    | enum e =>
      simp only [declZ]
      cases e.from_.ty? with
      | some t => exact H _ t
      | none => exact fwd_enum H e (all2_same _)
  | struct s fs h1 h2 h3 =>
    simp only [declZ]
    cases s.from_.ty? with
    | some t => exact H _ t
    | none => exact fwd_struct H s h1 h2 h3
  | enum e vs h =>
    simp only [declZ]
    cases e.from_.ty? with
    | some t => exact H _ t
    | none => exact fwd_enum H e h

theorem fwd_declInline {d d' : Decl} (hq : Q d.ns d.name) (h : ReorderedDecl d d') : Fwd u Q (declInlineZ rec d) (declInlineZ rec' d') := by
  have one : ∀ ns name, Q ns name → Fwd u Q (some (.lazy ns name)) (some (.lazy ns name)) := by
    intro ns name h z hz; cases hz; exact ⟨_, rfl, .lazy ns name h⟩
  cases h with
  | same =>
    cases d with
    | struct s => exact one _ _ hq
    | enum e =>
      simp only [declInlineZ]
      cases e.from_.ty? with
      | some t => exact H _ t
      | none => exact one _ _ hq
  | struct s fs h1 h2 h3 => exact one _ _ hq
  | enum e vs h =>
    simp only [declInlineZ]
    cases e.from_.ty? with
    | some t => exact H _ t
    | none => exact one _ _ hq

theorem fwd_shuffled {T : Tag → Prop} (hT : ∀ tag, T tag → u ∨ HasTag tag) {d d' : Decl} (h : ShuffledDecl T d d') :
    Fwd u Q (declZ rec d) (declZ rec' d') := by
  cases h with
  | fields h => exact fwd_decl H h
  | variants e vs ht hp =>
    simp only [declZ]
    cases e.from_.ty? with
    | some t => exact H _ t
    | none => exact fwd_enum_perm H e hp (hT _ ht)

theorem fwd_shuffledInline {T : Tag → Prop} {d d' : Decl} (hq : Q d.ns d.name) (h : ShuffledDecl T d d') :
    Fwd u Q (declInlineZ rec d) (declInlineZ rec' d') := by
  cases h with
  | fields h => exact fwd_declInline H hq h
  | variants e vs ht hp =>
    simp only [declInlineZ]
    cases e.from_.ty? with
    | some t => exact H _ t
    | none => intro z hz; cases hz; exact ⟨_, rfl, .lazy _ _ hq⟩

end

theorem fwd_refl_prim (p : Prim) : Fwd u Q (primZ p) (primZ p) := by
  intro z hz
  refine ⟨z, hz, ?_⟩
  cases p <;> cases hz <;> constructor

theorem fwd_map {x x' : Option ZSchema} {c : ZSchema → ZSchema} (h : Fwd u Q x x') (hc : ∀ a b, Reord u Q a b → Reord u Q (c a) (c b)) :
    Fwd u Q (x.map c) (x'.map c) := by
  intro z hz
  obtain ⟨a, ha, rfl⟩ := Option.map_eq_some_iff.1 hz
  obtain ⟨b, hb, hab⟩ := h a ha
  exact ⟨_, Option.map_eq_some_iff.2 ⟨b, hb, rfl⟩, hc a b hab⟩

theorem fwd_none {x : Option ZSchema} : Fwd u Q none x := by intro z hz; cases hz

/-- The schemas of the two programs are related, at each depth. -/
theorem reord_zOf {T : Tag → Prop} (hT : ∀ tag, T tag → u ∨ HasTag tag) {P P' : Program} (hP : ShuffledProgram T P P') (n : Nat) : FwdTypes u (Declared P) (zOf P n) (zOf P' n) := by
  induction n with
  | zero => intro m t z h; cases h
  | succ n H =>
    intro m t
    cases t with
    | named i =>
      intro z h
      have h : zBody (zOf P n) P m (.named i) = some z := h
      obtain ⟨d, hd, h2⟩ := zBody_some h
      obtain ⟨d', hd', hm⟩ := all2_get hP hd
      show ∃ z', zBody (zOf P' n) P' m (.named i) = some z' ∧ _
      rw [zBody_named _ _ i hd']
      rcases h2 with ⟨rfl, h2⟩ | ⟨rfl, h2⟩
      · exact fwd_shuffled H hT hm z h2
      · exact fwd_shuffledInline H ⟨d, List.mem_of_getElem? hd, rfl, rfl⟩ hm z h2
    | prim p =>
      cases m with
      | schema => exact fwd_refl_prim p
      | inlineSchema => exact H .schema (.prim p)
      | _ => exact fwd_none
    | wrap w t =>
      cases m with
      | schema => exact H .schema t
      | inlineSchema => exact H .schema (.wrap w t)
      | _ => exact fwd_none
    | option t =>
      cases m with
      | schema => exact fwd_map (H .inlineSchema t) (fun _ _ => .optional)
      | inlineSchema => exact H .schema (.option t)
      | _ => exact fwd_none
    | vec t =>
      cases m with
      | schema => exact fwd_map (H .inlineSchema t) (fun _ _ => .array)
      | inlineSchema => exact H .schema (.vec t)
      | _ => exact fwd_none
    | hashSet t =>
      cases m with
      | schema => exact fwd_map (H .inlineSchema t) (fun _ _ => .set)
      | inlineSchema => exact H .schema (.hashSet t)
      | _ => exact fwd_none
    | hashMap t u =>
      cases m with
      | schema =>
        intro z h
        simp only [zOf, zBody, Option.bind_eq_some_iff, Option.some.injEq] at h ⊢
        obtain ⟨a, ha, b, hb, rfl⟩ := h
        obtain ⟨a', ha', ra⟩ := H _ t a ha
        obtain ⟨b', hb', rb⟩ := H _ u b hb
        exact ⟨_, ⟨a', ha', b', hb', rfl⟩, .map ra rb⟩
      | inlineSchema => exact H .schema (.hashMap t u)
      | _ => exact fwd_none
    | array m' t =>
      cases m with
      | schema => exact H .schema (.vec t)
      | inlineSchema => exact H .schema (.array m' t)
      | _ => exact fwd_none
    | btreeSet t =>
      cases m with
      | schema => exact H .schema (.hashSet t)
      | inlineSchema => exact H .schema (.btreeSet t)
      | _ => exact fwd_none
    | btreeMap t u =>
      cases m with
      | schema => exact H .schema (.hashMap t u)
      | inlineSchema => exact H .schema (.btreeMap t u)
      | _ => exact fwd_none
    | tuple ts =>
      cases m with
      | schema => exact fwd_tupleOf ts (fun t _ => H .schema t)
      | inlineSchema => exact H .schema (.tuple ts)
      | _ => exact fwd_none
    | result t u =>
      cases m with
      | schema =>
        intro z h
        simp only [zOf, zBody] at h ⊢
        cases h1 : objZ [(lit "Ok", zOf P n .inlineSchema t)] with
        | none => rw [h1] at h; cases h
        | some a =>
          cases h2 : objZ [(lit "Err", zOf P n .inlineSchema u)] with
          | none => rw [h1, h2] at h; cases h
          | some b =>
            rw [h1, h2] at h
            cases h
            obtain ⟨a', h3, ra⟩ := fwd_one (H _ t) a h1
            obtain ⟨b', h4, rb⟩ := fwd_one (H _ u) b h2
            rw [h3, h4]
            refine ⟨_, rfl, .union [(a, a'), (b, b')] _ (.refl _) (fun _ => rfl) (fun p hp => ?_)⟩
            simp only [List.mem_cons, List.not_mem_nil, or_false] at hp
            rcases hp with rfl | rfl
            · exact ra
            · exact rb
      | inlineSchema => exact H .schema (.result t u)
      | _ => exact fwd_none

/-! ## Both directions -/

theorem reorderedVariant_symm {v v' : Variant} (h : ReorderedVariant v v') : ReorderedVariant v' v := by
  cases h with
  | same => exact .same _
  | fields fs hs hp => exact .fields { v with fields := fs } v.fields hs hp.symm

theorem reorderedDecl_symm {d d' : Decl} (h : ReorderedDecl d d') : ReorderedDecl d' d := by
  cases h with
  | same => exact .same _
  | struct s fs h1 h2 h3 => exact .struct { s with fields := fs } s.fields h1 h2 h3.symm
  | enum e vs h =>
    refine .enum { e with variants := vs } e.variants ?_
    simp only
    generalize e.variants = l at h
    induction h with
    | nil => exact .nil
    | cons h _ ih => exact .cons (reorderedVariant_symm h) ih

theorem reorderedProgram_symm {P P' : Program} (h : ReorderedProgram P P') : ReorderedProgram P' P := by
  unfold ReorderedProgram at h ⊢
  induction h with
  | nil => exact .nil
  | cons h _ ih => exact .cons (reorderedDecl_symm h) ih

theorem shuffledProgram_symm {T : Tag → Prop} {P P' : Program} (h : ShuffledProgram T P P') : ShuffledProgram T P' P := by
  unfold ShuffledProgram at h ⊢
  induction h with
  | nil => exact .nil
  | cons h _ ih =>
    refine .cons ?_ ih
    cases h with
    | fields h => exact .fields (reorderedDecl_symm h)
    | variants e vs ht hp => exact .variants { e with variants := vs } e.variants ht hp.symm

theorem shuffled_of_reordered {T : Tag → Prop} {P P' : Program} (h : ReorderedProgram P P') : ShuffledProgram T P P' := by
  unfold ReorderedProgram at h
  unfold ShuffledProgram
  induction h with
  | nil => exact .nil
  | cons h _ ih => exact .cons (.fields h) ih

theorem shuffledDecl_names {T : Tag → Prop} {d d' : Decl} (h : ShuffledDecl T d d') : d'.ns = d.ns ∧ d'.name = d.name := by
  cases h with
  | fields h => cases h <;> exact ⟨rfl, rfl⟩
  | variants e vs _ _ => exact ⟨rfl, rfl⟩

section
variable {T : Tag → Prop} (hT : ∀ tag, T tag → u ∨ HasTag tag) {P P' : Program} (hP : ShuffledProgram T P P')
include hT hP

/-- At the same depth, both programs have a schema or neither has. -/
theorem reord_zOf_both (n : Nat) (m : Method) (t : Ty) :
    (zOf P n m t = none ∧ zOf P' n m t = none) ∨ ∃ z z', zOf P n m t = some z ∧ zOf P' n m t = some z' ∧ Reord u (Declared P) z z' := by
  cases h : zOf P n m t with
  | some z =>
    obtain ⟨z', h', hr⟩ := reord_zOf hT hP n m t z h
    exact .inr ⟨z, z', rfl, h', hr⟩
  | none =>
    cases h' : zOf P' n m t with
    | none => exact .inl ⟨rfl, rfl⟩
    | some z' =>
      obtain ⟨z, hz, _⟩ := reord_zOf hT (shuffledProgram_symm hP) n m t z' h'
      rw [h] at hz
      cases hz

/-- The same for what the two texts mean. -/
theorem reord_texts (hg : GoodNames P) (hw : WellStyled P) (hg' : GoodNames P')
    (hw' : WellStyled P') {m : Method} (hm : m = .schema ∨ m = .inlineSchema) {t : Ty} {s s' : Str} (h : Schema.Returns P m t s)
    (h' : Schema.Returns P' m t s') :
    (readSchema s = none ∧ readSchema s' = none) ∨ ∃ z z', readSchema s = some z ∧ readSchema s' = some z' ∧ Reord u (Declared P) z z' := by
  obtain ⟨n, hn⟩ := h
  obtain ⟨n', hn'⟩ := h'
  have h1 := eval_mono (Nat.le_max_left n n') hn
  have h2 := eval_mono (Nat.le_max_right n n') hn'
  rw [(eval_agree hg hw _ m t s hm h1).read, (eval_agree hg' hw' _ m t s' hm h2).read]
  exact reord_zOf_both hT hP _ m t

/-- What the two modules export under a name is related. -/
theorem reord_linked (hg : GoodNames P) (hw : WellStyled P) (hg' : GoodNames P')
    (hw' : WellStyled P') (hE : IsModule P E) (hE' : IsModule P' E') : LinkedReord u (Declared P) E E' := by
  rintro ns name ⟨d, hd, rfl, rfl⟩
  obtain ⟨i, hi⟩ := List.getElem?_of_mem hd
  obtain ⟨d', hi', hm⟩ := all2_get hP hi
  obtain ⟨e1, e2⟩ := shuffledDecl_names hm
  obtain ⟨s, hs, hc⟩ := hE i d hi
  obtain ⟨s', hs', hc'⟩ := hE' i d' hi'
  rw [e1, e2] at hc'
  rw [hc, hc']
  exact reord_texts hT hP hg hw hg' hw' (.inl rfl) hs hs'

end

end Verif.Zod
