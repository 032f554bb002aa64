import Verif.Spec.Backend
import Verif.Ts.Scope
import Verif.Ts.Written
import Verif.Zod.DeValue

/-!
# The types and schemas of the module of a program (proof helper)
-/

namespace Verif.Ts
open Verif Verif.Js Verif.Schema Verif.SchemaSpec Verif.Spec Verif.Codegen Verif.Zod

/-! ## Values that went through `to_value` -/

theorem scalar_value {j : Json} (h1 : ∀ l, fromJson j ≠ .arr l) (h2 : ∀ kvs, fromJson j ≠ .obj kvs) : j.toValue = j := by
  cases j with
  | arr js => exact absurd (fromJson_arr js) (h1 _)
  | obj kvs => exact absurd (fromJson_obj kvs) (h2 _)
  | null => rfl
  | bool => rfl
  | num => rfl
  | str => rfl

theorem fromJson_arr_inv {j : Json} {l : List JsVal} (h : fromJson j = .arr l) : ∃ js, j = .arr js ∧ l = js.map fromJson := by
  cases j with
  | arr js =>
    rw [fromJson_arr] at h
    injection h with h
    exact ⟨js, rfl, h.symm⟩
  | num n => cases n <;> cases h
  | obj kvs => rw [fromJson_obj] at h; cases h
  | null => cases h
  | bool => cases h
  | str => cases h

theorem fromJson_obj_inv {j : Json} {l : List (Str × JsVal)} (h : fromJson j = .obj l) :
    ∃ kvs, j = .obj kvs ∧ l = kvs.map (fun p => (p.1, fromJson p.2)) := by
  cases j with
  | obj kvs =>
    rw [fromJson_obj] at h
    injection h with h
    exact ⟨kvs, rfl, h.symm⟩
  | num n => cases n <;> cases h
  | arr js => rw [fromJson_arr] at h; cases h
  | null => cases h
  | bool => cases h
  | str => cases h

theorem value_obj (kvs : List (Str × Json)) : Json.toValue (.obj kvs) = .obj (Json.ofPairs (Json.toValuePairs kvs)) := by
  rw [Json.toValue]

theorem jget_some_iff (kvs : List (Str × Json)) (k : Str) : (jget kvs k).isSome = true ↔ k ∈ kvs.map (·.1) := by
  induction kvs with
  | nil => simp [jget]
  | cons p l ih =>
    obtain ⟨a, j⟩ := p
    rw [jget_cons]
    by_cases e : a = k
    · simp [e]
    · rw [if_neg e, ih, List.map_cons, List.mem_cons]
      exact ⟨.inr, fun h => h.resolve_left (fun h => e h.symm)⟩

theorem inhabits_value {D : TsEnv} {len : Bool} {T : TsType} {v : JsVal} (h : Inhabits D len T v) :
    ∀ j, v = fromJson j → DistinctKeys j → Inhabits D len T (fromJson j.toValue) := by
  induction h with
  | string s => intro j e hd; rw [scalar_value (by rw [← e]; simp) (by rw [← e]; simp), ← e]; exact .string s
  | badString s => intro j e hd; rw [scalar_value (by rw [← e]; simp) (by rw [← e]; simp), ← e]; exact .badString s
  | number s => intro j e hd; rw [scalar_value (by rw [← e]; simp) (by rw [← e]; simp), ← e]; exact .number s
  | boolean s => intro j e hd; rw [scalar_value (by rw [← e]; simp) (by rw [← e]; simp), ← e]; exact .boolean s
  | null => intro j e hd; rw [scalar_value (by rw [← e]; simp) (by rw [← e]; simp), ← e]; exact .null
  | undefined => intro j e hd; rw [scalar_value (by rw [← e]; simp) (by rw [← e]; simp), ← e]; exact .undefined
  | literal s => intro j e hd; rw [scalar_value (by rw [← e]; simp) (by rw [← e]; simp), ← e]; exact .literal s
  | ref ns name t v hD _ ih => intro j e hd; exact .ref ns name t _ hD (ih j e hd)
  | array t l h ih =>
    intro j e hd
    obtain ⟨js, rfl, rfl⟩ := fromJson_arr_inv e.symm
    rw [value_arr, fromJson_arr]
    cases hd with
    | arr _ hd =>
      refine .array t _ (fun x hx => ?_)
      obtain ⟨y, hy, rfl⟩ := List.mem_map.1 hx
      obtain ⟨z, hz, rfl⟩ := List.mem_map.1 hy
      exact ih (fromJson z) (List.mem_map_of_mem hz) z rfl (hd z hz)
  | set t l h ih => intro j e hd; rw [scalar_value (by rw [← e]; simp) (by rw [← e]; simp), ← e]; exact .set t l h
  | map t u l h1 h2 _ _ => intro j e hd; rw [scalar_value (by rw [← e]; simp) (by rw [← e]; simp), ← e]; exact .map t u l h1 h2
  | tuple ts l hl h ih =>
    intro j e hd
    obtain ⟨js, rfl, rfl⟩ := fromJson_arr_inv e.symm
    rw [value_arr, fromJson_arr]
    cases hd with
    | arr _ hd =>
      refine .tuple ts _ (by simpa using hl) (fun i t x ht hx => ?_)
      rw [List.getElem?_map, List.getElem?_map] at hx
      cases hz : js[i]? with
      | none => rw [hz] at hx; cases hx
      | some z =>
        rw [hz] at hx
        cases hx
        exact ih i t (fromJson z) ht (by rw [List.getElem?_map, hz]; rfl) z rfl (hd z (List.mem_of_getElem? hz))
  | obj ps kvs h1 h2 h3 ih1 ih3 =>
    intro j e hd
    obtain ⟨m, rfl, rfl⟩ := fromJson_obj_inv e.symm
    rw [value_obj, fromJson_obj]
    cases hd with
    | obj _ hn hd =>
      have key : ∀ k, objHas ((Json.ofPairs (Json.toValuePairs m)).map (fun p => (p.1, fromJson p.2))) k =
          objHas (m.map (fun p => (p.1, fromJson p.2))) k := by
        intro k
        rw [Bool.eq_iff_iff, objHas_json, objHas_json, ← jget_some_iff, ← jget_some_iff, value_jget hn]
        cases jget m k <;> simp
      refine .obj ps _ (fun p hp hh => ?_) (fun p hp hh => h2 p hp (by rw [← key]; exact hh))
        (fun p hp hh => h3 p hp (by rw [← key]; exact hh))
      rw [key] at hh
      rw [objGet_json, value_jget hn]
      have ih := ih1 p hp hh
      rw [objGet_json] at ih
      rw [objHas_json, ← jget_some_iff] at hh
      cases hj : jget m p.1 with
      | none => rw [hj] at hh; cases hh
      | some z =>
        rw [hj] at ih
        exact ih z rfl (hd _ (Zod.jget_mem hj))
  | union ts t v ht _ ih => intro j e hd; exact .union ts t _ ht (ih j e hd)
  | inter ts v _ ih => intro j e hd; exact .inter ts _ (fun t ht => ih t ht j e hd)

/-! ## The environments -/

theorem findSome_unique {α β : Type} {p : α → Option β} {l : List α} {i : α} {y : β} (hi : i ∈ l) (h : p i = some y)
    (hu : ∀ j ∈ l, ∀ z, p j = some z → z = y) : l.findSome? p = some y := by
  induction l with
  | nil => cases hi
  | cons a l ih =>
    rw [List.findSome?_cons]
    cases ha : p a with
    | some z => rw [hu a List.mem_cons_self z ha]
    | none =>
      rcases List.mem_cons.1 hi with rfl | hi
      · rw [ha] at h; cases h
      · exact ih hi (fun j hj => hu j (List.mem_cons_of_mem _ hj))

theorem eq_of_filter {α : Type} {p : α → Bool} {l : List α} (h : (l.filter p).length ≤ 1) {i j : α} (hi : i ∈ l) (hj : j ∈ l)
    (pi : p i = true) (pj : p j = true) : i = j := by
  have h1 := List.mem_filter.2 ⟨hi, pi⟩
  have h2 := List.mem_filter.2 ⟨hj, pj⟩
  match hl : l.filter p, h with
  | [], _ => rw [hl] at h1; cases h1
  | [a], _ =>
    rw [hl] at h1 h2
    rw [List.mem_singleton.1 h1, List.mem_singleton.1 h2]

theorem itemsOf_eq {M : List Ns} (h : (M.map (·.name)).Nodup) {N : Ns} (hN : N ∈ M) : itemsOf M N.name = N.items := by
  unfold itemsOf
  have : M.filter (fun R => R.name = N.name) = [N] := by
    induction M with
    | nil => cases hN
    | cons R M ih =>
      rw [List.map_cons, List.nodup_cons] at h
      rw [List.filter_cons]
      rcases List.mem_cons.1 hN with rfl | hN
      · rw [if_pos (by simp)]
        congr 1
        rw [List.filter_eq_nil_iff]
        intro R hR e
        exact h.1 (List.mem_map.2 ⟨R, hR, by simpa using e⟩)
      · rw [if_neg]
        · exact ih h.2 hN
        · intro e
          exact h.1 (List.mem_map.2 ⟨N, hN, by simpa using Eq.symm (of_decide_eq_true e)⟩)
  rw [this]
  simp

theorem type_isType {x : Str} {i : Item} {T : TsType} (h : i.type? x = some T) : i.isType x = true := by
  cases i <;> simp only [Item.type?] at h
  · cases h
  · split at h
    · rename_i e; simp [Item.isType, e]
    · cases h
  · split at h
    · rename_i e; simp [Item.isType, e]
    · cases h
  · cases h

theorem const_isValue {x : Str} {i : Item} {e : JsExpr} (h : i.const? x = some e) : i.isValue x = true := by
  cases i <;> simp only [Item.const?] at h
  · split at h
    · rename_i e; simp [Item.isValue, e]
    · cases h
  · cases h
  · cases h
  · cases h

theorem moduleTypes_eq {M : List Ns} (hc : NoClash M) {N : Ns} (hN : N ∈ M) {i : Item} (hi : i ∈ N.items) {x : Str} {T : TsType}
    (h : i.type? x = some T) : moduleTypes M N.name x = some T := by
  unfold moduleTypes
  rw [itemsOf_eq hc.1 hN]
  refine findSome_unique hi h (fun j hj z hz => ?_)
  have := eq_of_filter (hc.2 N hN x).2 hi hj (type_isType h) (type_isType hz)
  subst this
  rw [h] at hz
  injection hz with hz
  exact hz.symm

theorem moduleConst_eq {M : List Ns} (hc : NoClash M) {N : Ns} (hN : N ∈ M) {i : Item} (hi : i ∈ N.items) {x : Str} {e : JsExpr}
    (h : i.const? x = some e) : (itemsOf M N.name).findSome? (Item.const? x) = some e := by
  rw [itemsOf_eq hc.1 hN]
  refine findSome_unique hi h (fun j hj z hz => ?_)
  have := eq_of_filter (hc.2 N hN x).1 hi hj (const_isValue h) (const_isValue hz)
  subst this
  rw [h] at hz
  injection hz with hz
  exact hz.symm

section
variable {P : Program} {impls : List (Str × List RpcItem)} {names : List Str} {M : List Ns}

/-- The declarations of a type of the program. -/
theorem declared_items (h : ModuleOf P impls names M) (hns : ∀ d ∈ P, d.ns ∈ names) {i : Nat} {d : Decl} (hd : P[i]? = some d) :
    ∃ N ∈ M, N.name = d.ns ∧ ∃ l, TypeItems P (d, i) l ∧ ∀ x ∈ l, x ∈ N.items := by
  have hm := List.mem_of_getElem? hd
  obtain ⟨N, hN, e⟩ := List.mem_map.1 ((h.names d.ns).2 ⟨hns d hm, .inl ⟨d, hm, rfl⟩⟩)
  obtain ⟨ds, fs, ls, is, h1, _, h3, _, h5⟩ := h.items N hN
  have : (d, i) ∈ ds := h1.symm.subset (List.mem_filter.2 ⟨List.mem_zipIdx_iff_getElem?.2 hd, by simpa using e.symm⟩)
  obtain ⟨l, hl, ht⟩ := Zod.All2.mem_left h3 this
  exact ⟨N, hN, e, l, ht, fun x hx => by
    rw [h5]; exact List.mem_append_left _ (List.mem_flatten.2 ⟨l, hl, hx⟩)⟩

theorem types_of_module (h : ModuleOf P impls names M) (hc : NoClash M) (hns : ∀ d ∈ P, d.ns ∈ names) :
    IsTsModule P (moduleTypes M) := by
  intro i d hd
  obtain ⟨N, hN, e, l, ⟨s, e', t, T, j, _, _, h3, h4, h5, rfl⟩, hl⟩ := declared_items h hns hd
  refine ⟨t, h3, ?_⟩
  rw [h4, ← e]
  refine moduleTypes_eq hc hN (hl j (by simp)) ?_
  cases h5 with
  | alias => simp [Item.type?]
  | interface ps e => simp [Item.type?, e]

theorem schemas_of_module (h : ModuleOf P impls names M) (hc : NoClash M) (hns : ∀ d ∈ P, d.ns ∈ names)
    : Spec.IsModule P (moduleSchemas M) := by
  intro i d hd
  obtain ⟨N, hN, e, l, ⟨s, e', t, T, j, h1, h2, _, _, _, rfl⟩, hl⟩ := declared_items h hns hd
  refine ⟨s, h1, ?_⟩
  show (match ((itemsOf M d.ns).findSome? (Item.const? d.name)).bind evalE with
    | some (.schema z) => some z
    | _ => none) = _
  rw [← e, moduleConst_eq (e := e') hc hN (hl (.const d.name e') (by simp)) (by simp [Item.const?])]
  unfold readSchema
  rw [h2]
  rfl

end

end Verif.Ts
