import Verif.Zod.Total
import Verif.Zod.Ints

/-!
# What a successful parse says about the value
-/

namespace Verif.Zod
open Verif Verif.Js Verif.Schema Verif.Spec

theorem allRes_some {α β : Type} {f : α → Res β} {l : List α} {rs : List β}
    (h : allRes (l.map f) = some (some rs)) : All2 (fun a r => f a = some (some r)) l rs := by
  induction l generalizing rs with
  | nil => cases h; exact .nil
  | cons a l ih =>
    rw [List.map_cons] at h
    cases hf : f a with
    | none => rw [hf] at h; cases h
    | some x =>
      rw [hf, allRes] at h
      cases hr : allRes (l.map f) with
      | none => rw [hr] at h; cases h
      | some y =>
        rw [hr] at h
        cases x with
        | none => cases h
        | some b =>
          cases y with
          | none => cases h
          | some bs =>
            injection h with h
            injection h with h
            subst h
            exact .cons hf (ih hr)

theorem allRes_of_all2 {α β : Type} {f : α → Res β} {l : List α} {rs : List β}
    (h : All2 (fun a r => f a = some (some r)) l rs) : allRes (l.map f) = some (some rs) := by
  induction h with
  | nil => rfl
  | cons h1 _ ih => rw [List.map_cons, h1, allRes, ih]

theorem firstRes_some {α β : Type} {f : α → Res β} {l : List α} {r : β}
    (h : firstRes (l.map f) = some (some r)) : ∃ a ∈ l, f a = some (some r) := by
  induction l with
  | nil => cases h
  | cons a l ih =>
    rw [List.map_cons] at h
    cases hf : f a with
    | none => rw [hf] at h; cases h
    | some x =>
      rw [hf] at h
      cases x with
      | some b => exact ⟨a, List.mem_cons_self, by rw [hf]; exact h⟩
      | none =>
        obtain ⟨b, hb, h⟩ := ih h
        exact ⟨b, List.mem_cons_of_mem _ hb, h⟩

variable {E : ZEnv} {k : Nat} {v r : JsVal}

theorem parse_string {cs : List StrCheck} (h : parse E (k + 1) (.string cs) v = some (some r)) :
    (∃ s, v = .str s ∧ r = .str s ∧ cs.all (StrCheck.ok s) = true) ∨
      (∃ u, v = .badStr u ∧ r = .badStr u) := by
  cases v with
  | str s =>
    cases hc : cs.all (StrCheck.ok s) with
    | false => simp [parse, hc] at h
    | true => simp [parse, hc] at h; exact Or.inl ⟨s, rfl, h.symm, hc⟩
  | badStr u =>
    cases hc : cs.all (StrCheck.okBad u) with
    | false => simp [parse, hc] at h
    | true => simp [parse, hc] at h; exact Or.inr ⟨u, rfl, h.symm⟩
  | _ => simp [parse] at h

theorem parse_number {cs : List NumCheck} (h : parse E (k + 1) (.number cs) v = some (some r)) :
    r = v ∧ ∃ x, v = .num x ∧ x ≠ .nan := by
  cases v with
  | num x =>
    cases x with
    | nan => simp [parse] at h
    | _ =>
      first
        | (refine ⟨?_, _, rfl, by simp⟩
           simp only [parse] at h
           split at h
           · injection h with h; injection h with h; exact h.symm
           · cases h)
  | _ => simp [parse] at h

theorem parse_null (h : parse E (k + 1) .null v = some (some r)) : v = .null ∧ r = .null := by
  cases v with
  | null => simp [parse] at h; exact ⟨rfl, h.symm⟩
  | _ => simp [parse] at h

theorem parse_literal {s : Str} (h : parse E (k + 1) (.literal s) v = some (some r)) :
    v = .str s ∧ r = .str s := by
  cases v with
  | str s' =>
    by_cases e : s' = s
    · subst e; simp [parse] at h; exact ⟨rfl, h.symm⟩
    · simp [parse, e] at h
  | _ => simp [parse] at h

theorem parse_array {z : ZSchema} (h : parse E (k + 1) (.array z) v = some (some r)) :
    ∃ l rs, v = .arr l ∧ r = .arr rs ∧ All2 (fun a r => parse E k z a = some (some r)) l rs := by
  cases v with
  | arr l =>
    rw [parse] at h
    cases hr : allRes (l.map (parse E k z)) with
    | none => rw [hr] at h; cases h
    | some y =>
      rw [hr] at h
      cases y with
      | none => cases h
      | some rs =>
        injection h with h; injection h with h
        exact ⟨l, rs, rfl, h.symm, allRes_some hr⟩
  | _ => simp [parse] at h

theorem parse_set {z : ZSchema} (h : parse E (k + 1) (.set z) v = some (some r)) :
    ∃ l rs, v = .set l ∧ r = .set rs ∧ All2 (fun a r => parse E k z a = some (some r)) l rs := by
  cases v with
  | set l =>
    rw [parse] at h
    cases hr : allRes (l.map (parse E k z)) with
    | none => rw [hr] at h; cases h
    | some y =>
      rw [hr] at h
      cases y with
      | none => cases h
      | some rs =>
        injection h with h; injection h with h
        exact ⟨l, rs, rfl, h.symm, allRes_some hr⟩
  | _ => simp [parse] at h

theorem parse_map {a b : ZSchema} (h : parse E (k + 1) (.map a b) v = some (some r)) :
    ∃ l rs, v = .map l ∧ r = .map rs := by
  cases v with
  | map l =>
    rw [parse] at h
    cases hr : allRes (l.map (fun p => parse E k a p.1)) with
    | none => rw [hr] at h; cases h
    | some x =>
      rw [hr] at h
      cases hr' : allRes (l.map (fun p => parse E k b p.2)) with
      | none => rw [hr'] at h; cases h
      | some y =>
        rw [hr'] at h
        cases x with
        | none => cases h
        | some ks =>
          cases y with
          | none => cases h
          | some vs =>
            injection h with h; injection h with h
            exact ⟨l, _, rfl, h.symm⟩
  | _ => simp [parse] at h

/-- Elements of two lists that go together. -/
theorem all2_zip {α β γ : Type} {S : β × γ → γ → Prop} {R : α → β → Prop} {Q : α → γ → Prop} {ts : List α}
    {zs : List β} {l rs : List γ} (h1 : All2 R ts zs) (hl : l.length = zs.length) (h2 : All2 S (zs.zip l) rs)
    (h : ∀ t ∈ ts, ∀ z a r, R t z → S (z, a) r → Q t r) : All2 Q ts rs := by
  induction h1 generalizing l rs with
  | nil => cases h2; exact .nil
  | cons hr _ ih =>
    cases l with
    | nil => simp at hl
    | cons a l =>
      cases h2 with
      | cons hs h2 =>
        exact .cons (h _ List.mem_cons_self _ _ _ hr hs)
          (ih (by simpa using hl) h2 fun t ht => h t (List.mem_cons_of_mem _ ht))

theorem parse_tuple {zs : List ZSchema} (h : parse E (k + 1) (.tuple zs) v = some (some r)) :
    ∃ l rs, v = .arr l ∧ r = .arr rs ∧ l.length = zs.length ∧
      All2 (fun p r => parse E k p.1 p.2 = some (some r)) (zs.zip l) rs := by
  cases v with
  | arr l =>
    rw [parse] at h
    split at h
    · cases h
    · rename_i hlt
      rw [show List.zipWith (parse E k) zs l = (zs.zip l).map (fun p => parse E k p.1 p.2) by
        rw [List.zip, List.map_zipWith]] at h
      cases hr : allRes ((zs.zip l).map (fun p => parse E k p.1 p.2)) with
      | none => rw [hr] at h; cases h
      | some y =>
        rw [hr] at h
        simp only at h
        split at h
        · cases h
        · cases y with
          | none => cases h
          | some rs =>
            injection h with h; injection h with h
            exact ⟨l, rs, rfl, h.symm, by omega, allRes_some hr⟩
  | _ => simp [parse] at h

theorem parse_object {shape : List (Str × ZSchema)} (h : parse E (k + 1) (.object shape) v = some (some r)) :
    ∃ kvs rs, v = .obj kvs ∧ r = .obj (mkObj kvs (shape.map (·.1)) rs) ∧
      All2 (fun p r => parse E k p.2 (objGet kvs p.1) = some (some r)) shape rs := by
  cases v with
  | obj kvs =>
    rw [parse] at h
    cases hr : allRes (shape.map (fun p => parse E k p.2 (objGet kvs p.1))) with
    | none => rw [hr] at h; cases h
    | some y =>
      rw [hr] at h
      cases y with
      | none => cases h
      | some rs =>
        injection h with h; injection h with h
        exact ⟨kvs, rs, rfl, h.symm, allRes_some hr⟩
  | _ => simp [parse] at h

theorem parse_union {zs : List ZSchema} (h : parse E (k + 1) (.union zs) v = some (some r)) :
    ∃ z ∈ zs, parse E k z v = some (some r) := firstRes_some h

theorem parse_disc {tag : Str} {os : List (Str × ZSchema)}
    (h : parse E (k + 1) (.discUnion tag os) v = some (some r)) :
    ∃ kvs s z, v = .obj kvs ∧ objGet kvs tag = .str s ∧ (s, z) ∈ os ∧ parse E k z v = some (some r) := by
  cases v with
  | obj kvs =>
    rw [parse] at h
    cases hg : objGet kvs tag with
    | str s =>
      rw [hg] at h
      simp only at h
      cases ho : os.find? (fun p => decide (p.1 = s)) with
      | none => rw [ho] at h; cases h
      | some o =>
        rw [ho] at h
        have h1 := List.mem_of_find?_eq_some ho
        have h2 := List.find?_some ho
        have h2 : o.1 = s := by simpa using h2
        exact ⟨kvs, s, o.2, rfl, hg, h2 ▸ h1, h⟩
    | _ => rw [hg] at h; cases h
  | _ => simp [parse] at h

theorem parse_optional {z : ZSchema} (h : parse E (k + 1) (.optional z) v = some (some r)) :
    (v = .undefined ∧ r = .undefined) ∨ (v ≠ .undefined ∧ parse E k z v = some (some r)) := by
  cases v with
  | undefined => simp [parse] at h; exact Or.inl ⟨rfl, h.symm⟩
  | _ => exact Or.inr ⟨by simp, h⟩

theorem parse_lazy {ns name : Str} (h : parse E (k + 1) (.lazy ns name) v = some (some r)) :
    ∃ z, E.const ns name = some z ∧ parse E k z v = some (some r) := by
  rw [parse] at h
  cases hc : E.const ns name with
  | none => rw [hc] at h; cases h
  | some z => rw [hc] at h; exact ⟨z, rfl, h⟩

/-- Only `undefined` is parsed to `undefined`. -/
theorem parse_undefined : ∀ (k : Nat) (z : ZSchema) (v : JsVal), parse E k z v = some (some .undefined) →
    v = .undefined := by
  intro k
  induction k with
  | zero => intro z v h; cases h
  | succ k ih =>
    intro z v h
    cases z with
    | string cs => rcases parse_string h with ⟨s, _, e, _⟩ | ⟨u, _, e⟩ <;> cases e
    | number cs => exact (parse_number h).1.symm
    | null => obtain ⟨_, e⟩ := parse_null h; cases e
    | literal s => obtain ⟨_, e⟩ := parse_literal h; cases e
    | array z => obtain ⟨_, _, _, e, _⟩ := parse_array h; cases e
    | set z => obtain ⟨_, _, _, e, _⟩ := parse_set h; cases e
    | map a b => obtain ⟨_, _, _, e⟩ := parse_map h; cases e
    | tuple zs => obtain ⟨_, _, _, e, _⟩ := parse_tuple h; cases e
    | object sh => obtain ⟨_, _, _, e, _⟩ := parse_object h; cases e
    | union zs => obtain ⟨z, _, h⟩ := parse_union h; exact ih z v h
    | discUnion t os => obtain ⟨_, _, z, _, _, _, h⟩ := parse_disc h; exact ih z v h
    | optional z =>
      rcases parse_optional h with ⟨e, _⟩ | ⟨_, h⟩
      · exact e
      · exact ih z v h
    | lazy ns name => obtain ⟨z, _, h⟩ := parse_lazy h; exact ih z v h
    | broken => cases h

/-! ## Objects built by `objZ` -/

theorem objZ_some {l : List (Str × Option ZSchema)} {z : ZSchema} (h : objZ l = some z) :
    ∃ zs, z = .object ((l.map (·.1)).zip zs) ∧ (l.map (·.1)).Nodup ∧ All2 (fun p z => p.2 = some z) l zs := by
  unfold objZ at h
  split at h
  · rename_i zs hzs
    split at h
    · rename_i hd
      injection h with h
      rw [Bool.and_eq_true] at hd
      exact ⟨zs, h.symm, (distinct_iff _).1 hd.1, allSome_all2 hzs⟩
    · cases h
  · cases h

theorem All2.length {α β : Type} {R : α → β → Prop} {l : List α} {r : List β} (h : All2 R l r) :
    l.length = r.length := by
  induction h with
  | nil => rfl
  | cons _ _ ih => simp [ih]

theorem objZ_parse {l : List (Str × Option ZSchema)} {z : ZSchema} (hz : objZ l = some z)
    (h : parse E (k + 1) z v = some (some r)) :
    ∃ kvs rs, v = .obj kvs ∧ (l.map (·.1)).Nodup ∧ r = .obj (mkObj kvs (l.map (·.1)) rs) ∧
      All2 (fun p r => ∃ z, p.2 = some z ∧ parse E k z (objGet kvs p.1) = some (some r)) l rs := by
  obtain ⟨zs, rfl, hd, ha⟩ := objZ_some hz
  obtain ⟨kvs, rs, rfl, rfl, hr⟩ := parse_object h
  have hlen := All2.length ha
  refine ⟨kvs, rs, rfl, hd, ?_, ?_⟩
  · rw [List.map_fst_zip (by simp [hlen])]
  · clear h hd hlen hz
    induction ha generalizing rs with
    | nil => cases hr; exact .nil
    | cons h1 _ ih =>
      simp only [List.map_cons, List.zip_cons_cons] at hr
      cases hr with
      | cons h3 h4 => exact .cons ⟨_, h1, h3⟩ (ih _ h4)

theorem All2.of_map_left {α β γ : Type} {R : β → γ → Prop} {f : α → β} {l : List α} {r : List γ}
    (h : All2 R (l.map f) r) : All2 (fun a c => R (f a) c) l r := by
  induction l generalizing r with
  | nil => cases h; exact .nil
  | cons a l ih => cases h with | cons h1 h2 => exact .cons h1 (ih h2)

theorem All2.mem_left {α β : Type} {R : α → β → Prop} {l : List α} {r : List β} (h : All2 R l r) {a : α}
    (ha : a ∈ l) : ∃ b ∈ r, R a b := by
  induction h with
  | nil => cases ha
  | cons h1 _ ih =>
    rcases List.mem_cons.1 ha with rfl | ha
    · exact ⟨_, List.mem_cons_self, h1⟩
    · obtain ⟨b, hb, h⟩ := ih ha
      exact ⟨b, List.mem_cons_of_mem _ hb, h⟩

theorem All2.mem_right {α β : Type} {R : α → β → Prop} {l : List α} {r : List β} (h : All2 R l r) {b : β}
    (hb : b ∈ r) : ∃ a ∈ l, R a b := by
  induction h with
  | nil => cases hb
  | cons h1 _ ih =>
    rcases List.mem_cons.1 hb with rfl | hb
    · exact ⟨_, List.mem_cons_self, h1⟩
    · obtain ⟨a, ha, h⟩ := ih hb
      exact ⟨a, List.mem_cons_of_mem _ ha, h⟩

end Verif.Zod
