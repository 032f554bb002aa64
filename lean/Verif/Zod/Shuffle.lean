import Verif.Zod.Reorder

/-!
# The order of variants and the acceptance of values
-/

namespace Verif.Zod
open Verif Verif.Js Verif.Schema Verif.Spec Verif.SchemaSpec

variable {u : Prop} {Q : Str → Str → Prop} {E E' : ZEnv}

/-- If both have finished, both have accepted or both have rejected. -/
def Agreeing {α β : Type} (x : Res α) (y : Res β) : Prop := ∀ p q, x = some p → y = some q → p.isSome = q.isSome

theorem allRes_all {α β : Type} {f : α → Res β} {l : List α} {x : Option (List β)} (h : allRes (l.map f) = some x) :
    x.isSome = true ↔ ∀ a ∈ l, ∃ r, f a = some (some r) := by
  induction l generalizing x with
  | nil => cases h; simp
  | cons a r ih =>
    rw [List.map_cons] at h
    cases hf : f a with
    | none => rw [hf] at h; cases h
    | some o =>
      rw [hf, allRes] at h
      cases hr : allRes (r.map f) with
      | none => rw [hr] at h; cases h
      | some rs =>
        rw [hr] at h
        have := ih hr
        cases o with
        | none => cases h; simp [hf]
        | some v =>
          cases rs with
          | none =>
            cases h
            simp only [Option.isSome_none, Bool.false_eq_true, false_iff, List.mem_cons, forall_eq_or_imp, not_and] at this ⊢
            exact fun _ => this
          | some l =>
            cases h
            simp only [Option.isSome_some, true_iff, List.mem_cons, forall_eq_or_imp] at this ⊢
            exact ⟨⟨v, hf⟩, this⟩

theorem bool_iff {a b : Bool} (h : a = true ↔ b = true) : a = b := by cases a <;> cases b <;> simp_all

theorem isSome_ex {α : Type} {o : Option α} (h : o.isSome = true) : ∃ a, o = some a := by
  cases o with
  | none => cases h
  | some a => exact ⟨a, rfl⟩

theorem allRes_alike {α β γ δ : Type} {f : α → Res γ} {g : β → Res δ} {l : List α} {l' : List β}
    (h1 : ∀ a ∈ l, ∃ b ∈ l', Agreeing (f a) (g b)) (h2 : ∀ b ∈ l', ∃ a ∈ l, Agreeing (f a) (g b)) :
    Agreeing (allRes (l.map f)) (allRes (l'.map g)) := by
  intro x y hx hy
  refine bool_iff ?_
  rw [allRes_all hx, allRes_all hy]
  constructor
  · intro h b hb
    obtain ⟨a, ha, hab⟩ := h2 b hb
    obtain ⟨r, hr⟩ := h a ha
    obtain ⟨o, ho⟩ := allRes_runs hy b hb
    obtain ⟨r', rfl⟩ := isSome_ex ((hab _ _ hr ho).symm.trans rfl)
    exact ⟨r', ho⟩
  · intro h a ha
    obtain ⟨b, hb, hab⟩ := h1 a ha
    obtain ⟨r, hr⟩ := h b hb
    obtain ⟨o, ho⟩ := allRes_runs hx a ha
    obtain ⟨r', rfl⟩ := isSome_ex ((hab _ _ ho hr).trans rfl)
    exact ⟨r', ho⟩

theorem firstRes_found {α : Type} {l : List (Res α)} {a : α} (h : firstRes l = some (some a)) : some (some a) ∈ l := by
  induction l with
  | nil => cases h
  | cons x r ih =>
    cases x with
    | none => cases h
    | some o =>
      cases o with
      | none => exact List.mem_cons_of_mem _ (ih h)
      | some b => cases h; exact List.mem_cons_self

theorem firstRes_nothing {α : Type} {l : List (Res α)} (h : firstRes l = some none) : ∀ x ∈ l, x = some none := by
  induction l with
  | nil => intro x hx; cases hx
  | cons x r ih =>
    cases x with
    | none => cases h
    | some o =>
      cases o with
      | none =>
        intro y hy
        rcases List.mem_cons.1 hy with rfl | hy
        · rfl
        · exact ih h y hy
      | some b => cases h

theorem firstRes_alike {α β γ δ : Type} {f : α → Res γ} {g : β → Res δ} {l : List α} {l' : List β}
    (h1 : ∀ a ∈ l, ∃ b ∈ l', Agreeing (f a) (g b)) (h2 : ∀ b ∈ l', ∃ a ∈ l, Agreeing (f a) (g b)) :
    Agreeing (firstRes (l.map f)) (firstRes (l'.map g)) := by
  intro x y hx hy
  cases x with
  | none =>
    cases y with
    | none => rfl
    | some b =>
      obtain ⟨c, hc, e⟩ := List.mem_map.1 (firstRes_found hy)
      obtain ⟨a, ha, hab⟩ := h2 c hc
      have := hab none (some b) (firstRes_nothing hx _ (List.mem_map.2 ⟨a, ha, rfl⟩)) e
      cases this
  | some a =>
    cases y with
    | some b => rfl
    | none =>
      obtain ⟨c, hc, e⟩ := List.mem_map.1 (firstRes_found hx)
      obtain ⟨b, hb, hab⟩ := h1 c hc
      have := hab (some a) none e (firstRes_nothing hy _ (List.mem_map.2 ⟨b, hb, rfl⟩))
      cases this

theorem alike_map {α β γ δ : Type} {x : Res α} {y : Res β} {f : α → γ} {g : β → δ} (h : Agreeing x y) :
    Agreeing (x.map (·.map f)) (y.map (·.map g)) := by
  intro p q hp hq
  obtain ⟨a, ha, rfl⟩ := Option.map_eq_some_iff.1 hp
  obtain ⟨b, hb, rfl⟩ := Option.map_eq_some_iff.1 hq
  simpa using h a b ha hb

theorem alike_same (x : Res JsVal) : Agreeing x x := by
  intro p q hp hq
  rw [hp] at hq
  cases hq
  rfl

/-- A value that one of two related schemas accepts is not rejected by the other. -/
theorem reord_alike (hL : LinkedReord u Q E E') (n : Nat) : ∀ n' z z', Reord u Q z z' → ∀ v, Agreeing (parse E n z v) (parse E' n' z' v) := by
  induction n with
  | zero => intro n' z z' _ v p q hp; cases hp
  | succ n IH =>
    intro n' z z' h v
    cases n' with
    | zero => intro p q _ hq; cases hq
    | succ n' =>
    have ih := IH n'
    have err : Agreeing (some none : Res JsVal) (some none : Res JsVal) := alike_same _
    cases h with
    | string cs => exact alike_same _
    | number cs => exact alike_same _
    | null => exact alike_same _
    | literal s => exact alike_same _
    | broken => exact alike_same _
    | lazy ns name hq =>
      rcases hL ns name hq with ⟨h1, h2⟩ | ⟨a, b, h1, h2, hab⟩
      · rw [parse, parse, h1, h2]; exact err
      · rw [parse, parse, h1, h2]; exact ih a b hab v
    | @array a b h =>
      cases v with
      | arr l =>
        rw [parse, parse]
        exact alike_map (allRes_alike (fun v hv => ⟨v, hv, ih a b h v⟩) (fun v hv => ⟨v, hv, ih a b h v⟩))
      | _ => exact err
    | @set a b h =>
      cases v with
      | set l =>
        rw [parse, parse]
        exact alike_map (allRes_alike (fun v hv => ⟨v, hv, ih a b h v⟩) (fun v hv => ⟨v, hv, ih a b h v⟩))
      | _ => exact err
    | @optional a b h =>
      cases v with
      | undefined => exact alike_same _
      | _ => exact ih a b h _
    | @map a b c d h h' =>
      cases v with
      | map kvs =>
        rw [parse, parse]
        have h1 : Agreeing (allRes (kvs.map (fun p => parse E n a p.1))) (allRes (kvs.map (fun p => parse E' n' b p.1))) :=
          allRes_alike (fun v hv => ⟨v, hv, ih a b h v.1⟩) (fun v hv => ⟨v, hv, ih a b h v.1⟩)
        have h2 : Agreeing (allRes (kvs.map (fun p => parse E n c p.2))) (allRes (kvs.map (fun p => parse E' n' d p.2))) :=
          allRes_alike (fun v hv => ⟨v, hv, ih c d h' v.2⟩) (fun v hv => ⟨v, hv, ih c d h' v.2⟩)
        generalize allRes (kvs.map (fun p => parse E n a p.1)) = x at h1
        generalize allRes (kvs.map (fun p => parse E' n' b p.1)) = x' at h1
        generalize allRes (kvs.map (fun p => parse E n c p.2)) = y at h2
        generalize allRes (kvs.map (fun p => parse E' n' d p.2)) = y' at h2
        intro p q hp hq
        rcases x with _ | x <;> rcases y with _ | y <;> rcases x' with _ | x' <;> rcases y' with _ | y' <;> first | (cases hp; done) | (cases hq; done) | skip
        have e1 := h1 x x' rfl rfl
        have e2 := h2 y y' rfl rfl
        cases x <;> cases x' <;> cases y <;> cases y' <;> first | (cases e1; done) | (cases e2; done) | (cases hp; cases hq; rfl)
      | _ => exact err
    | tuple l h =>
      cases v with
      | arr vs =>
        have e : ∀ (f : ZSchema → JsVal → Res JsVal) (π : ZSchema × ZSchema → ZSchema),
            List.zipWith f (l.map π) vs = (l.zip vs).map (fun p => f (π p.1) p.2) := by
          intro f π
          rw [List.zip, List.map_zipWith, List.zipWith_map_left]
        rw [parse, parse, List.length_map, List.length_map, e, e]
        by_cases hl : vs.length < l.length
        · rw [if_pos hl, if_pos hl]; exact err
        · rw [if_neg hl, if_neg hl]
          have hi : ∀ p ∈ l.zip vs, Agreeing (parse E n p.1.1 p.2) (parse E' n' p.1.2 p.2) :=
            fun p hp => ih _ _ (h p.1 (List.of_mem_zip hp).1) p.2
          have h1 : Agreeing (allRes ((l.zip vs).map (fun p => parse E n p.1.1 p.2))) (allRes ((l.zip vs).map (fun p => parse E' n' p.1.2 p.2))) :=
            allRes_alike (fun p hp => ⟨p, hp, hi p hp⟩) (fun p hp => ⟨p, hp, hi p hp⟩)
          generalize allRes ((l.zip vs).map (fun p => parse E n p.1.1 p.2)) = x at h1
          generalize allRes ((l.zip vs).map (fun p => parse E' n' p.1.2 p.2)) = x' at h1
          intro p q hp hq
          rcases x with _ | x <;> rcases x' with _ | x' <;> first | (cases hp; done) | (cases hq; done) | skip
          have e1 := h1 x x' rfl rfl
          by_cases hl' : l.length < vs.length
          · simp only [if_pos hl'] at hp hq
            cases hp; cases hq; rfl
          · simp only [if_neg hl'] at hp hq
            cases x <;> cases x' <;> first | (cases e1; done) | (cases hp; cases hq; rfl)
      | _ => exact err
    | union l l' hp _ h =>
      rw [parse, parse, List.map_map, List.map_map]
      exact firstRes_alike (fun p hm => ⟨p, hp.mem_iff.1 hm, ih _ _ (h p hm) v⟩) (fun p hm => ⟨p, hp.mem_iff.2 hm, ih _ _ (h p (hp.mem_iff.2 hm)) v⟩)
    | object l l' hp nd h =>
      cases v with
      | obj kvs =>
        rw [parse_shape, parse_shape]
        refine alike_map ?_
        unfold shapeRes
        refine alike_map ?_
        rw [List.map_map, List.map_map]
        exact allRes_alike (fun p hm => ⟨p, hp.mem_iff.1 hm, ih _ _ (h p hm) _⟩) (fun p hm => ⟨p, hp.mem_iff.2 hm, ih _ _ (h p (hp.mem_iff.2 hm)) _⟩)
      | _ => exact err
    | disc tag l l' hp nd h =>
      cases v with
      | obj kvs =>
        rw [parse, parse]
        cases hg : objGet kvs tag with
        | str s =>
          rcases find_perm hp nd s with ⟨p, hp, h1, h2⟩ | ⟨h1, h2⟩
          · simp only [h1, h2]
            exact ih _ _ (h p hp) _
          · simp only [h1, h2]
            exact err
        | _ => exact err
      | _ => exact err

end Verif.Zod
