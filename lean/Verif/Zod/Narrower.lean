import Verif.Zod.Wider

/-!
# Schemas of the program without the new fields

What the schema with the new fields accepts is accepted by the one without them.
-/

namespace Verif.Zod
open Verif Verif.Js Verif.Schema Verif.Spec Verif.SchemaSpec

variable {K : Str → Prop} {Q : Str → Str → Prop} {E E' : ZEnv} {gr : Growth}

theorem anything_inherited : Inherited (fun _ => True) := ⟨by simp, by simp, by simp, by simp, by simp⟩

/-- What is accepted with the new fields is not rejected without them. -/
theorem narrower_never (hg : gr ≠ .variants) (hL : LinkedGrown gr Q K E E') (m : Nat) : ∀ n z' z, Grown gr Q K z z' → ∀ v r, True →
    parse E' n z' v = some (some r) → parse E m z v ≠ some none := by
  induction m with
  | zero => intro n z' z _ v r _ _ h; cases h
  | succ m ih =>
    intro n z' z h v r _ hx hy
    cases n with
    | zero => cases hx
    | succ n =>
    cases h with
    | cong h => exact cong_never anything_inherited h.symm ih n v r trivial hx hy
    | lazy ns name hq =>
      obtain ⟨a, b, ha, hb, hab⟩ := hL ns name hq
      rw [parse, hb] at hx
      rw [parse, ha] at hy
      exact ih n b a hab v r trivial hx hy
    | object l nd hs hn =>
      cases v with
      | obj kvs =>
        rw [parse] at hx hy
        obtain ⟨ys, hx⟩ := map_map_some hx
        obtain ⟨⟨k, a⟩, hq, h⟩ := allRes_rejected (map_map_none hy)
        obtain ⟨b, hb⟩ := mem_oldShape hq
        obtain ⟨y, _, h'⟩ := All2.mem_left (allRes_some hx) (List.mem_map.2 ⟨_, hb, rfl⟩)
        exact ih n b a (hs _ hb a rfl) _ y trivial h' h
      | _ => cases hx
    | union _ _ h => exact hg h
    | one _ h => exact hg h
    | disc _ _ _ h => exact hg h
    | oneDisc _ _ _ h => exact hg h

/-! ## Validating ends -/

theorem allRes_ends {α β : Type} {f : α → Res β} {l : List α} (h : ∀ a ∈ l, ∃ x, f a = some x) : ∃ y, allRes (l.map f) = some y := by
  induction l with
  | nil => exact ⟨_, rfl⟩
  | cons a r ih =>
    obtain ⟨x, hx⟩ := h a List.mem_cons_self
    obtain ⟨y, hy⟩ := ih (fun b hb => h b (List.mem_cons_of_mem _ hb))
    rw [List.map_cons, hx, allRes, hy]
    cases x with
    | none => cases y <;> exact ⟨_, rfl⟩
    | some x => cases y <;> exact ⟨_, rfl⟩

theorem allRes_ends_mono {α : Type} {g : Nat → α → Res JsVal} (mono : ∀ a n m x, n ≤ m → g n a = some x → g m a = some x) (l : List α)
    (h : ∀ a ∈ l, ∃ n x, g n a = some x) : ∃ n y, allRes (l.map (g n)) = some y := by
  obtain ⟨n, hn⟩ := steps_all (C := fun n a => ∃ x, g n a = some x) (fun a n m hnm ⟨x, hx⟩ => ⟨x, mono a n m x hnm hx⟩) l h
  obtain ⟨y, hy⟩ := allRes_ends hn
  exact ⟨n, y, hy⟩

theorem firstRes_ends_mono {α : Type} {f : α → Res JsVal} {g : Nat → α → Res JsVal}
    (mono : ∀ a n m x, n ≤ m → g n a = some x → g m a = some x) (l : List α)
    (h : ∀ a ∈ l, ∀ x, f a = some x → ∃ n y, g n a = some y ∧ (x ≠ none → y ≠ none)) {x : Option JsVal}
    (hx : firstRes (l.map f) = some x) : ∃ n y, firstRes (l.map (g n)) = some y := by
  induction l with
  | nil => exact ⟨0, none, rfl⟩
  | cons a r ih =>
    rw [List.map_cons] at hx
    cases hf : f a with
    | none => rw [hf] at hx; cases hx
    | some w =>
      obtain ⟨n, y, h1, h2⟩ := h a List.mem_cons_self w hf
      cases y with
      | some y => exact ⟨n, some y, by rw [List.map_cons, h1]; rfl⟩
      | none =>
        cases w with
        | some w => exact absurd rfl (h2 nofun)
        | none =>
          rw [hf] at hx
          obtain ⟨n', y', h3⟩ := ih (fun b hb => h b (List.mem_cons_of_mem _ hb)) hx
          refine ⟨max n n', y', ?_⟩
          rw [List.map_cons, mono a n _ none (Nat.le_max_left _ _) h1]
          exact firstRes_mono (fun b x hx => mono b n' _ x (Nat.le_max_right _ _) hx) r h3

/-- If validating with the parts ends, so it does with the schemas. -/
theorem cong_ends {S : ZSchema → ZSchema → Prop} {n : Nat} {z z' : ZSchema} (h : Cong S z z')
    (hS : ∀ a b, S a b → ∀ v x, parse E n a v = some x → ∃ m y, parse E' m b v = some y ∧ (x ≠ none → y ≠ none)) (v : JsVal)
    (x : Option JsVal) (hx : parse E (n + 1) z v = some x) : ∃ m y, parse E' m z' v = some y := by
  have hE : ∀ a b, S a b → ∀ v x, parse E n a v = some x → ∃ m y, parse E' m b v = some y := by
    intro a b h v x hx
    obtain ⟨m, y, h1, _⟩ := hS a b h v x hx
    exact ⟨m, y, h1⟩
  cases h with
  | string cs => exact ⟨1, x, hx⟩
  | number cs => exact ⟨1, x, hx⟩
  | null => exact ⟨1, x, hx⟩
  | literal s => exact ⟨1, x, hx⟩
  | broken => exact ⟨1, x, hx⟩
  | @array a b h =>
    cases v with
    | arr l =>
      rw [parse] at hx
      cases hr : allRes (l.map (parse E n a)) with
      | none => rw [hr] at hx; cases hx
      | some y =>
        obtain ⟨m, w, hw⟩ := allRes_ends_mono (g := fun m => parse E' m b) (fun a n m x hn => parse_mono hn) l
          (fun u hu => by obtain ⟨x, hx⟩ := allRes_runs hr u hu; exact hE a b h u x hx)
        exact ⟨m + 1, _, by rw [parse, hw]; rfl⟩
    | _ => exact ⟨1, x, hx⟩
  | @set a b h =>
    cases v with
    | set l =>
      rw [parse] at hx
      cases hr : allRes (l.map (parse E n a)) with
      | none => rw [hr] at hx; cases hx
      | some y =>
        obtain ⟨m, w, hw⟩ := allRes_ends_mono (g := fun m => parse E' m b) (fun a n m x hn => parse_mono hn) l
          (fun u hu => by obtain ⟨x, hx⟩ := allRes_runs hr u hu; exact hE a b h u x hx)
        exact ⟨m + 1, _, by rw [parse, hw]; rfl⟩
    | _ => exact ⟨1, x, hx⟩
  | @optional a b h =>
    cases v with
    | undefined => exact ⟨1, x, hx⟩
    | _ =>
      obtain ⟨m, y, h'⟩ := hE a b h _ x hx
      exact ⟨m + 1, y, h'⟩
  | @map a b c d h h' =>
    cases v with
    | map kvs =>
      rw [parse] at hx
      cases hk : allRes (kvs.map (fun p => parse E n a p.1)) with
      | none => rw [hk] at hx; cases hx
      | some y =>
        rw [hk] at hx
        cases hw : allRes (kvs.map (fun p => parse E n c p.2)) with
        | none => rw [hw] at hx; cases hx
        | some y' =>
          obtain ⟨n₁, y₁, h₁⟩ := allRes_ends_mono (g := fun n' (p : JsVal × JsVal) => parse E' n' b p.1) (fun a n m x hn => parse_mono hn) kvs
            (fun p hp => by obtain ⟨x, hx⟩ := allRes_runs hk p hp; exact hE a b h p.1 x hx)
          obtain ⟨n₂, y₂, h₂⟩ := allRes_ends_mono (g := fun n' (p : JsVal × JsVal) => parse E' n' d p.2) (fun a n m x hn => parse_mono hn) kvs
            (fun p hp => by obtain ⟨x, hx⟩ := allRes_runs hw p hp; exact hE c d h' p.2 x hx)
          refine ⟨max n₁ n₂ + 1, ?_⟩
          rw [parse, allRes_mono (g := fun p : JsVal × JsVal => parse E' (max n₁ n₂) b p.1)
              (fun p x hx => parse_mono (Nat.le_max_left _ _) hx) _ h₁,
            allRes_mono (g := fun p : JsVal × JsVal => parse E' (max n₁ n₂) d p.2)
              (fun p x hx => parse_mono (Nat.le_max_right _ _) hx) _ h₂]
          cases y₁ <;> cases y₂ <;> exact ⟨_, rfl⟩
    | _ => exact ⟨1, x, hx⟩
  | tuple l h =>
    cases v with
    | arr vs =>
      have e : ∀ (f : ZSchema → JsVal → Res JsVal) (π : ZSchema × ZSchema → ZSchema),
          List.zipWith f (l.map π) vs = (l.zip vs).map (fun p => f (π p.1) p.2) := by
        intro f π
        rw [List.zip, List.map_zipWith, List.zipWith_map_left]
      rw [parse, List.length_map] at hx
      by_cases hl : vs.length < l.length
      · rw [if_pos hl] at hx
        exact ⟨1, x, by rw [parse, List.length_map, if_pos hl]; exact hx⟩
      · rw [if_neg hl, e] at hx
        cases hr : allRes ((l.zip vs).map (fun p => parse E n p.1.1 p.2)) with
        | none => rw [hr] at hx; cases hx
        | some y =>
          obtain ⟨n', y', h'⟩ := allRes_ends_mono (g := fun n' (p : (ZSchema × ZSchema) × JsVal) => parse E' n' p.1.2 p.2)
            (fun a n m x hn => parse_mono hn) (l.zip vs)
            (fun p hp => by obtain ⟨x, hx⟩ := allRes_runs hr p hp; exact hE _ _ (h p.1 (List.of_mem_zip hp).1) p.2 x hx)
          refine ⟨n' + 1, ?_⟩
          rw [parse, List.length_map, if_neg hl, e, h']
          simp only
          by_cases hl' : l.length < vs.length
          · rw [if_pos hl']; exact ⟨_, rfl⟩
          · rw [if_neg hl']; exact ⟨_, rfl⟩
    | _ => exact ⟨1, x, hx⟩
  | object l h =>
    cases v with
    | obj kvs =>
      rw [parse, List.map_map (l := l), List.map_map (l := l)] at hx
      cases hr : allRes (l.map ((fun p => parse E n p.2 (objGet kvs p.1)) ∘ fun p => (p.1, p.2.1))) with
      | none => rw [hr] at hx; cases hx
      | some y =>
        obtain ⟨n', y', h'⟩ := allRes_ends_mono (g := fun n' (p : Str × ZSchema × ZSchema) => parse E' n' p.2.2 (objGet kvs p.1))
          (fun a n m x hn => parse_mono hn) l (fun p hp => by
            obtain ⟨x, hx⟩ := allRes_runs hr p hp
            exact hE _ _ (h p hp) _ x hx)
        refine ⟨n' + 1, y'.map (fun o => .obj (mkObj kvs (l.map (·.1)) o)), ?_⟩
        rw [parse, List.map_map (l := l), List.map_map (l := l), show ((fun p : Str × ZSchema => parse E' n' p.2 (objGet kvs p.1)) ∘
          fun p : Str × ZSchema × ZSchema => (p.1, p.2.2)) = (fun p => parse E' n' p.2.2 (objGet kvs p.1)) from rfl, h']
        rfl
    | _ => exact ⟨1, x, hx⟩
  | union l h =>
    rw [parse, List.map_map] at hx
    obtain ⟨n', y, h'⟩ := firstRes_ends_mono (g := fun n' (p : ZSchema × ZSchema) => parse E' n' p.2 v)
      (fun a n m x hn => parse_mono hn) l (fun p hp x hx => hS _ _ (h p hp) _ x hx) hx
    exact ⟨n' + 1, y, by rw [parse, List.map_map]; exact h'⟩
  | disc tag l h =>
    cases v with
    | obj kvs =>
      rw [parse] at hx
      cases hg : objGet kvs tag with
      | str s =>
        rw [hg] at hx
        rcases find_pairs (l := l) (s := s) with ⟨p, hp, h1, h2⟩ | ⟨h1, h2⟩
        · simp only [h1] at hx
          obtain ⟨m, y, h'⟩ := hE _ _ (h p hp) _ x hx
          exact ⟨m + 1, y, by rw [parse, hg]; simp only [h2]; exact h'⟩
        · exact ⟨1, none, by rw [parse, hg]; simp only [h2]⟩
      | _ => exact ⟨1, none, by rw [parse, hg]⟩
    | _ => exact ⟨1, x, hx⟩

/-- If validating with the new fields ends, so it does without them. -/
theorem narrower_ends (hg : gr ≠ .variants) (hL : LinkedGrown gr Q K E E') (n : Nat) : ∀ z' z, Grown gr Q K z z' → ∀ v x,
    parse E' n z' v = some x → ∃ m y, parse E m z v = some y := by
  induction n with
  | zero => intro z' z _ v x h; cases h
  | succ n ih =>
    intro z' z h v x hx
    cases h with
    | cong h =>
      refine cong_ends (S := fun b a => Grown gr Q K a b) h.symm ?_ v x hx
      intro b a hab v x hx
      obtain ⟨m, y, hy⟩ := ih b a hab v x hx
      refine ⟨m, y, hy, ?_⟩
      rintro hxn rfl
      cases x with
      | none => exact hxn rfl
      | some r => exact narrower_never hg hL m n b a hab v r trivial hx hy
    | lazy ns name hq =>
      obtain ⟨a, b, ha, hb, hab⟩ := hL ns name hq
      rw [parse, hb] at hx
      obtain ⟨m, y, h'⟩ := ih b a hab v x hx
      exact ⟨m + 1, y, by rw [parse, ha]; exact h'⟩
    | object l nd hs hn =>
      cases v with
      | obj kvs =>
        rw [parse_shape] at hx
        cases hr : shapeRes kvs (fun p => parse E' n p.2 (objGet kvs p.1)) (newShape l) with
        | none => rw [hr] at hx; cases hx
        | some y =>
          obtain ⟨m, w, hw⟩ := allRes_ends_mono (g := fun m (p : Str × ZSchema) => parse E m p.2 (objGet kvs p.1))
            (fun a n m x hn => parse_mono hn) (oldShape l) (by
              rintro ⟨k, a⟩ hp
              obtain ⟨b, hb⟩ := mem_oldShape hp
              obtain ⟨x, hx⟩ := shapeRes_runs hr (k, b) (List.mem_map.2 ⟨_, hb, rfl⟩)
              exact ih b a (hs _ hb a rfl) _ x hx)
          refine ⟨m + 1, (w.map (mkObj kvs ((oldShape l).map (·.1)))).map .obj, ?_⟩
          rw [parse_shape, shapeRes, hw]
          rfl
      | _ => exact ⟨1, x, hx⟩
    | union _ _ h => exact absurd h hg
    | one _ h => exact absurd h hg
    | disc _ _ _ h => exact absurd h hg
    | oneDisc _ _ _ h => exact absurd h hg

theorem narrower_accepts (hg : gr ≠ .variants) (hL : LinkedGrown gr Q K E E') {z z' : ZSchema} (h : Grown gr Q K z z') {v : JsVal}
    (ha : Accepts E' z' v) : Accepts E z v := by
  obtain ⟨r, n, hn⟩ := ha
  obtain ⟨m, y, hm⟩ := narrower_ends hg hL n z' z h v _ hn
  cases y with
  | some y => exact ⟨y, m, hm⟩
  | none => exact absurd hm (narrower_never hg hL m n z' z h v r trivial hn)

end Verif.Zod
