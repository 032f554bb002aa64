import Verif.Zod.Evolve
import Verif.Zod.Inv

/-!
# New variants and the meaning of schemas

What a schema accepts is not rejected by the schema of the program with new fields and new variants.
-/

namespace Verif.Zod
open Verif Verif.Js Verif.Schema Verif.Spec Verif.SchemaSpec

variable {K : Str → Prop} {Q : Str → Str → Prop} {E E' : ZEnv} {gr : Growth}

theorem allRes_rejected {α β : Type} {f : α → Res β} {l : List α} (h : allRes (l.map f) = some none) : ∃ a ∈ l, f a = some none := by
  induction l with
  | nil => cases h
  | cons a r ih =>
    rw [List.map_cons] at h
    cases h1 : f a with
    | none => rw [h1] at h; cases h
    | some x =>
      cases x with
      | none => exact ⟨a, List.mem_cons_self, h1⟩
      | some x =>
        rw [h1, allRes] at h
        cases h2 : allRes (r.map f) with
        | none => rw [h2] at h; cases h
        | some y =>
          rw [h2] at h
          cases y with
          | none =>
            obtain ⟨b, hb, h⟩ := ih h2
            exact ⟨b, List.mem_cons_of_mem _ hb, h⟩
          | some y => cases h

theorem firstRes_rejected {α β : Type} {f : α → Res β} {l : List α} (h : firstRes (l.map f) = some none) : ∀ a ∈ l, f a = some none := by
  induction l with
  | nil => intro a ha; cases ha
  | cons a r ih =>
    rw [List.map_cons] at h
    cases h1 : f a with
    | none => rw [h1] at h; cases h
    | some x =>
      cases x with
      | some x => rw [h1] at h; cases h
      | none =>
        rw [h1] at h
        intro b hb
        rcases List.mem_cons.1 hb with rfl | hb
        · exact h1
        · exact ih h b hb

/-- A list of results: what is accepted on the left is not rejected on the right. -/
theorem allRes_clash {α β γ : Type} {f : α → Res β} {g : α → Res γ} {l : List α} {x : Res (List β)} {y : Res (List γ)} {ys : List β}
    (hx : allRes (l.map f) = x) (hy : allRes (l.map g) = y) (ex : x = some (some ys)) (ey : y = some none)
    (h : ∀ a ∈ l, ∀ r, f a = some (some r) → g a ≠ some none) : False := by
  subst ex ey
  obtain ⟨a, ha, h1⟩ := allRes_rejected hy
  obtain ⟨r, _, h2⟩ := All2.mem_left (allRes_some hx) ha
  exact h a ha r h2 h1

theorem map_map_some {β γ : Type} {x : Res β} {f : β → γ} {r : γ} (h : x.map (·.map f) = some (some r)) : ∃ b, x = some (some b) := by
  cases x with
  | none => cases h
  | some x => cases x with
    | none => cases h
    | some b => exact ⟨b, rfl⟩

theorem map_map_none {β γ : Type} {x : Res β} {f : β → γ} (h : x.map (·.map f) = some none) : x = some none := by
  cases x with
  | none => cases h
  | some x => cases x with
    | none => rfl
    | some b => cases h

/-- If the parts do not reject what the parts accept, neither do the schemas. -/
theorem cong_never {W : JsVal → Prop} (hW : Inherited W) {S : ZSchema → ZSchema → Prop} {m : Nat} {z z' : ZSchema} (h : Cong S z z')
    (hS : ∀ n a b, S a b → ∀ v r, W v → parse E n a v = some (some r) → parse E' m b v ≠ some none) (n : Nat) (v r : JsVal) (hv : W v)
    (hx : parse E (n + 1) z v = some (some r)) (hy : parse E' (m + 1) z' v = some none) : False := by
  have clash : ∀ {x : Res JsVal}, x = some (some r) → x = some none → False := by
    intro x h1 h2; rw [h1] at h2; cases h2
  cases h with
  | string cs => exact clash hx hy
  | number cs => exact clash hx hy
  | null => exact clash hx hy
  | literal s => exact clash hx hy
  | broken => exact clash hx hy
  | @array a b h =>
    cases v with
    | arr l =>
      rw [parse] at hx hy
      obtain ⟨ys, hx⟩ := map_map_some hx
      exact allRes_clash rfl rfl hx (map_map_none hy) (fun u hu r => hS n a b h u r (hW.arr l hv u hu))
    | _ => exact clash hx hy
  | @set a b h =>
    cases v with
    | set l =>
      rw [parse] at hx hy
      obtain ⟨ys, hx⟩ := map_map_some hx
      exact allRes_clash rfl rfl hx (map_map_none hy) (fun u hu r => hS n a b h u r (hW.set l hv u hu))
    | _ => exact clash hx hy
  | @optional a b h =>
    cases v with
    | undefined => exact clash hx hy
    | _ => exact hS n a b h _ r hv hx hy
  | @map a b c d h h' =>
    cases v with
    | map kvs =>
      rw [parse] at hx hy
      cases hk : allRes (kvs.map (fun p => parse E n a p.1)) with
      | none => rw [hk] at hx; cases hx
      | some y =>
        rw [hk] at hx
        cases hw : allRes (kvs.map (fun p => parse E n c p.2)) with
        | none => rw [hw] at hx; cases hx
        | some y' =>
          rw [hw] at hx
          cases y with
          | none => cases hx
          | some y =>
          cases y' with
          | none => cases hx
          | some y' =>
          cases hk' : allRes (kvs.map (fun p => parse E' m b p.1)) with
          | none => rw [hk'] at hy; cases hy
          | some w =>
            rw [hk'] at hy
            cases hw' : allRes (kvs.map (fun p => parse E' m d p.2)) with
            | none => rw [hw'] at hy; cases hy
            | some w' =>
              rw [hw'] at hy
              cases w with
              | none => exact allRes_clash hk hk' rfl rfl (fun p hp r => hS n a b h p.1 r (hW.key kvs hv p hp))
              | some w =>
                cases w' with
                | none => exact allRes_clash hw hw' rfl rfl (fun p hp r => hS n c d h' p.2 r (hW.val kvs hv p hp))
                | some w' => cases hy
    | _ => exact clash hx hy
  | tuple l h =>
    cases v with
    | arr vs =>
      have e : ∀ (f : ZSchema → JsVal → Res JsVal) (π : ZSchema × ZSchema → ZSchema),
          List.zipWith f (l.map π) vs = (l.zip vs).map (fun p => f (π p.1) p.2) := by
        intro f π
        rw [List.zip, List.map_zipWith, List.zipWith_map_left]
      rw [parse, List.length_map, e] at hx hy
      by_cases hl : vs.length < l.length
      · rw [if_pos hl] at hx; cases hx
      · rw [if_neg hl] at hx hy
        cases h1 : allRes ((l.zip vs).map (fun p => parse E n p.1.1 p.2)) with
        | none => rw [h1] at hx; cases hx
        | some y =>
          cases h2 : allRes ((l.zip vs).map (fun p => parse E' m p.1.2 p.2)) with
          | none => rw [h2] at hy; cases hy
          | some w =>
            rw [h1] at hx; rw [h2] at hy
            simp only at hx hy
            by_cases hl' : l.length < vs.length
            · rw [if_pos hl'] at hx; cases hx
            · rw [if_neg hl'] at hx hy
              cases y with
              | none => cases hx
              | some y =>
                cases w with
                | some w => cases hy
                | none =>
                  exact allRes_clash h1 h2 rfl rfl
                    (fun p hp r => hS n _ _ (h p.1 (List.of_mem_zip hp).1) p.2 r (hW.arr vs hv p.2 (List.of_mem_zip hp).2))
    | _ => exact clash hx hy
  | object l h =>
    cases v with
    | obj kvs =>
      rw [parse, List.map_map (l := l), List.map_map (l := l)] at hx hy
      obtain ⟨ys, hx⟩ := map_map_some hx
      exact allRes_clash rfl rfl hx (map_map_none hy) (fun p hp r => hS n _ _ (h p hp) _ r (hW.get kvs hv p.1))
    | _ => exact clash hx hy
  | union l h =>
    rw [parse, List.map_map] at hx hy
    obtain ⟨p, hp, hx⟩ := firstRes_some hx
    exact hS n _ _ (h p hp) v r hv hx (firstRes_rejected hy p hp)
  | disc tag l h =>
    cases v with
    | obj kvs =>
      rw [parse] at hx hy
      cases hg : objGet kvs tag with
      | str s =>
        rw [hg] at hx hy
        rcases find_pairs (l := l) (s := s) with ⟨p, hp, h1, h2⟩ | ⟨h1, h2⟩
        · simp only [h1] at hx
          simp only [h2] at hy
          exact hS n _ _ (h p hp) _ r hv hx hy
        · simp only [h1] at hx
          cases hx
      | _ => rw [hg] at hx; cases hx
    | _ => exact clash hx hy

/-- What an object with a tag accepts has this tag. -/
theorem tagged_value {tag s : Str} {a : ZSchema} (hd : discriminator tag a = some s) {n : Nat} {v r : JsVal}
    (hx : parse E n a v = some (some r)) : ∃ kvs, v = .obj kvs ∧ objGet kvs tag = .str s := by
  obtain ⟨sh, rfl, hm, _⟩ := discriminator_mem hd
  cases n with
  | zero => cases hx
  | succ n =>
    cases v with
    | obj kvs =>
      refine ⟨kvs, rfl, ?_⟩
      rw [parse] at hx
      obtain ⟨ys, hx⟩ := map_map_some hx
      obtain ⟨y, _, h⟩ := All2.mem_left (allRes_some hx) hm
      cases n with
      | zero => cases h
      | succ n =>
        simp only [parse] at h
        cases hg : objGet kvs tag with
        | str s' =>
          rw [hg] at h
          simp only at h
          by_cases e : s' = s
          · rw [e]
          · rw [if_neg e] at h; cases h
        | _ => rw [hg] at h; cases h
    | _ => cases hx

/-- What is accepted is not rejected by the other schema. -/
theorem grown_never (hg : gr ≠ .any) (hL : LinkedGrown gr Q K E E') (m : Nat) : ∀ n z z', Grown gr Q K z z' → ∀ v r, Lacks K v →
    parse E n z v = some (some r) → parse E' m z' v ≠ some none := by
  induction m with
  | zero => intro n z z' _ v r _ _ h; cases h
  | succ m ih =>
    intro n z z' h v r hv hx hy
    cases n with
    | zero => cases hx
    | succ n =>
    cases h with
    | cong h => exact cong_never (lacks_inherited K) h ih n v r hv hx hy
    | lazy ns name hq =>
      obtain ⟨a, b, ha, hb, hab⟩ := hL ns name hq
      rw [parse, ha] at hx
      rw [parse, hb] at hy
      exact ih n a b hab v r hv hx hy
    | object l nd hs hn =>
      cases v with
      | obj kvs =>
        rw [parse] at hx hy
        obtain ⟨ys, hx⟩ := map_map_some hx
        obtain ⟨q, hq, h⟩ := allRes_rejected (map_map_none hy)
        obtain ⟨p, hp, rfl⟩ := List.mem_map.1 hq
        obtain ⟨k, o, b⟩ := p
        cases o with
        | some a =>
          obtain ⟨y, _, h'⟩ := All2.mem_left (allRes_some hx) (oldShape_mem hp)
          exact ih n a b (hs _ hp a rfl) _ y (lacks_get hv k) h' h
        | none =>
          obtain ⟨hk, hc⟩ := hn _ hp rfl
          obtain ⟨c, rfl⟩ := hc.resolve_left hg
          simp only [(lacks_absent hv hk).1] at h
          cases m with
          | zero => cases h
          | succ m => cases h
      | _ => cases hx
    | union ps zs _ h1 h2 =>
      rw [parse, List.map_map] at hx
      rw [parse] at hy
      obtain ⟨p, hp, hx⟩ := firstRes_some hx
      exact ih n _ _ (h1 p hp) v r hv hx (firstRes_rejected hy _ (h2 p hp))
    | one zs _ hb h =>
      rw [parse] at hy
      exact ih _ _ _ h v r hv hx (firstRes_rejected hy _ hb)
    | disc tag ps l _ h1 h2 =>
      cases v with
      | obj kvs =>
        rw [parse] at hx hy
        cases hg : objGet kvs tag with
        | str s =>
          rw [hg] at hx hy
          simp only at hx hy
          cases hf : (ps.map (fun p => (p.1, p.2.1))).find? (fun p => decide (p.1 = s)) with
          | none => rw [hf] at hx; cases hx
          | some q =>
            have e := List.find?_some hf
            obtain ⟨p, hp, rfl⟩ := List.mem_map.1 (List.mem_of_find?_eq_some hf)
            simp only [decide_eq_true_eq] at e
            subst e
            rw [hf] at hx
            rw [h2 p hp] at hy
            exact ih n _ _ (h1 p hp) _ r hv hx hy
        | _ => rw [hg] at hx; cases hx
      | _ => cases hx
    | oneDisc tag s l _ hd hf h =>
      obtain ⟨kvs, rfl, hg⟩ := tagged_value hd hx
      rw [parse, hg] at hy
      simp only at hy
      rw [hf] at hy
      exact ih _ _ _ h _ r hv hx hy

end Verif.Zod
