import Verif.Spec.Wire

/-!
# Decoding lemmas (proof helpers)
-/

namespace Verif
open WireSpec

theorem asUsize_iff (j : Json) (n : Nat) : j.asUsize = some n ↔ IsId j n := by
  unfold Json.asUsize IsId
  cases j with
  | num m =>
    cases m with
    | int k =>
      simp only
      constructor
      · intro h
        split at h
        · rename_i hk
          injection h with h
          have : (n : Int) = k := by omega
          refine ⟨by rw [this], by omega⟩
        · cases h
      · rintro ⟨h, hn⟩
        injection h with h
        injection h with h
        subst h
        have : (0 : Int) ≤ n ∧ (n : Int) < 2 ^ 64 := by omega
        rw [if_pos this]; simp
    | flt q => simp
  | _ => simp

namespace Json

theorem toValuePairs_map (kvs : List (Str × Json)) :
    toValuePairs kvs = kvs.map (fun p => (p.1, toValue p.2)) := by
  induction kvs with
  | nil => rfl
  | cons p r ih => obtain ⟨k, x⟩ := p; simp [toValuePairs, ih]

theorem toValues_map (l : List Json) : toValues l = l.map toValue := by
  induction l with
  | nil => rfl
  | cons p r ih => simp [toValues, ih]

theorem foldl_insert_sorted (kvs : List (Str × Json)) (m : BMap Json) (h : BMap.Sorted m) :
    BMap.Sorted (kvs.foldl (fun m p => BMap.insert p.1 p.2 m) m) := by
  induction kvs generalizing m with
  | nil => exact h
  | cons p r ih => exact ih _ (BMap.sorted_alter _ _ h)

theorem ofPairs_sorted (kvs : List (Str × Json)) : BMap.Sorted (ofPairs kvs) :=
  foldl_insert_sorted _ _ BMap.sorted_nil

theorem foldl_insert_get (kvs : List (Str × Json)) (m : BMap Json) (h : BMap.Sorted m) (k : Str) :
    BMap.get k (kvs.foldl (fun m p => BMap.insert p.1 p.2 m) m) =
      match lastOf k kvs with
      | some v => some v
      | none => BMap.get k m := by
  induction kvs generalizing m with
  | nil => simp [lastOf]
  | cons p r ih =>
    simp only [List.foldl_cons]
    rw [ih (BMap.insert p.1 p.2 m) (BMap.sorted_alter _ _ h)]
    have e : lastOf k (p :: r) = match lastOf k r with
        | some v => some v
        | none => if p.1 = k then some p.2 else none := by
      unfold lastOf
      by_cases hp : p.1 = k
      · simp only [List.filter_cons, hp, decide_true, if_true]
        rw [List.getLast?_cons]
        cases hl : (r.filter (fun p => decide (p.1 = k))).getLast? <;> simp
      · simp only [List.filter_cons, hp, decide_false, Bool.false_eq_true, if_false]
        cases hl : (r.filter (fun p => decide (p.1 = k))).getLast? <;> simp
    rw [e]
    cases lastOf k r with
    | some v => rfl
    | none =>
      simp only
      by_cases hp : p.1 = k
      · subst hp
        simp only [if_true]
        unfold BMap.insert
        rw [BMap.get_alter_self _ _ h]
      · simp only [hp, if_false]
        exact BMap.get_alter_ne (fun e => hp e.symm) _ _

theorem ofPairs_get (kvs : List (Str × Json)) (k : Str) :
    BMap.get k (ofPairs kvs) = lastOf k kvs := by
  unfold ofPairs
  rw [foldl_insert_get _ _ BMap.sorted_nil]
  cases lastOf k kvs <;> simp [BMap.get]

theorem lastOf_map (kvs : List (Str × Json)) (k : Str) (f : Json → Json) :
    lastOf k (kvs.map (fun p => (p.1, f p.2))) = (lastOf k kvs).map f := by
  unfold lastOf
  rw [List.filter_map]
  simp only [Function.comp_def, List.getLast?_map]
  cases (List.filter (fun x => decide (x.fst = k)) kvs).getLast? <;> rfl

end Json

theorem lastOf_filter_ne (kvs : List (Str × Json)) (k a : Str) (h : k ≠ a) :
    lastOf k (kvs.filter (fun p => p.1 ≠ a)) = lastOf k kvs := by
  unfold lastOf
  rw [List.filter_filter]
  congr 3
  funext p
  by_cases hp : p.1 = k
  · subst hp; simp [h]
  · simp [hp]

theorem lastOf_filter_self (kvs : List (Str × Json)) (a : Str) :
    lastOf a (kvs.filter (fun p => p.1 ≠ a)) = none := by
  unfold lastOf
  rw [List.filter_filter]
  have : (kvs.filter fun p => decide (p.1 = a) && decide (p.1 ≠ a)) = [] := by
    rw [List.filter_eq_nil_iff]; intro p _; simp
  rw [this]; rfl

/-- `execFields` read as a specification. -/
theorem execFields_ok (kvs : List (Str × Json)) (o : Option Nat) (rest : List (Str × Json))
    (id : Nat) (out : List (Str × Json)) :
    Request.execFields kvs o rest = .ok (id, out) ↔
      out = rest ++ kvs.filter (fun p => p.1 ≠ lit "id") ∧
      ((o = some id ∧ kvs.filter (fun p => p.1 = lit "id") = []) ∨ (o = none ∧ HasId kvs id)) := by
  induction kvs generalizing o rest with
  | nil =>
    cases o with
    | none => simp [Request.execFields, HasId]
    | some n =>
      simp only [Request.execFields, List.filter_nil, List.append_nil, Except.ok.injEq,
        Prod.mk.injEq]
      constructor
      · rintro ⟨rfl, rfl⟩; exact ⟨rfl, .inl ⟨rfl, trivial⟩⟩
      · rintro ⟨rfl, h | h⟩
        · exact ⟨Option.some.inj h.1, rfl⟩
        · exact absurd h.1 (by simp)
  | cons p r ih =>
    obtain ⟨k, v⟩ := p
    simp only [Request.execFields]
    by_cases hk : k = lit "id"
    · subst hk
      simp only [if_true]
      cases o with
      | some n =>
        simp
      | none =>
        simp only
        cases hv : v.asUsize with
        | none =>
          simp only [reduceCtorEq, false_and, true_and, false_or, false_iff, not_and]
          intro _ h
          obtain ⟨j, h1, h2⟩ := h
          simp only [List.filter_cons, decide_true, if_true, List.cons.injEq, Prod.mk.injEq,
            true_and] at h1
          rw [← h1.1, ← asUsize_iff, hv] at h2
          cases h2
        | some n =>
          simp only
          rw [ih]
          have hn := (asUsize_iff v n).1 hv
          simp only [List.filter_cons, decide_not, decide_true, Bool.not_true, Bool.false_eq_true,
            if_false, Option.some.injEq, reduceCtorEq, false_and, or_false, true_and, false_or]
          constructor
          · rintro ⟨rfl, rfl, h⟩
            refine ⟨rfl, v, ?_, hn⟩
            simp [h]
          · rintro ⟨rfl, j, h1, h2⟩
            simp only [List.filter_cons, decide_true, if_true, List.cons.injEq, Prod.mk.injEq,
              true_and] at h1
            have : v.asUsize = some id := (asUsize_iff v id).2 (h1.1 ▸ h2)
            rw [hv] at this
            exact ⟨rfl, Option.some.inj this, h1.2⟩
    · simp only [hk, if_false]
      rw [ih]
      simp [HasId, hk]

theorem cancelFields_ok (kvs : List (Str × Json)) (o : Option Nat) (id : Nat) :
    Request.cancelFields kvs o = .ok id ↔
      ((o = some id ∧ kvs.filter (fun p => p.1 = lit "id") = []) ∨ (o = none ∧ HasId kvs id)) := by
  induction kvs generalizing o with
  | nil => cases o <;> simp [Request.cancelFields, HasId]
  | cons p r ih =>
    obtain ⟨k, v⟩ := p
    simp only [Request.cancelFields]
    by_cases hk : k = lit "id"
    · subst hk
      simp only [if_true]
      cases o with
      | some n => simp
      | none =>
        simp only
        cases hv : v.asUsize with
        | none =>
          simp only [reduceCtorEq, false_and, true_and, false_or, false_iff]
          intro h
          obtain ⟨j, h1, h2⟩ := h
          simp only [List.filter_cons, decide_true, if_true, List.cons.injEq, Prod.mk.injEq,
            true_and] at h1
          rw [← h1.1, ← asUsize_iff, hv] at h2
          cases h2
        | some n =>
          simp only
          rw [ih]
          have hn := (asUsize_iff v n).1 hv
          simp only [Option.some.injEq, reduceCtorEq, false_and, or_false, true_and, false_or]
          constructor
          · rintro ⟨rfl, h⟩
            refine ⟨v, ?_, hn⟩
            simp [h]
          · rintro ⟨j, h1, h2⟩
            simp only [List.filter_cons, decide_true, if_true, List.cons.injEq, Prod.mk.injEq,
              true_and] at h1
            have : v.asUsize = some id := (asUsize_iff v id).2 (h1.1 ▸ h2)
            rw [hv] at this
            exact ⟨Option.some.inj this, h1.2⟩
    · simp only [hk, if_false]
      rw [ih]
      simp [HasId, hk]

theorem get_ofPairs_value (kvs : List (Str × Json)) (k : Str) :
    BMap.get k (Json.ofPairs (Json.toValuePairs kvs)) = (lastOf k kvs).map Json.toValue := by
  rw [Json.ofPairs_get, Json.toValuePairs_map, Json.lastOf_map]

/-- The decoder accepts exactly the documented shapes. -/
theorem decode_iff (doc : Json) (r : Request) :
    Request.decode doc = .ok r ↔ IsRequest doc r := by
  constructor
  · intro h
    unfold Request.decode at h
    split at h
    · rename_i k body
      split at h
      · rename_i hk; subst hk
        split at h
        · rename_i kvs
          split at h
          · rename_i id rest he
            have := (execFields_ok _ _ _ _ _).1 he
            simp only [List.nil_append, reduceCtorEq, false_and, true_and, false_or] at this
            obtain ⟨rfl, hid⟩ := this
            injection h with h
            subst h
            simp only [Json.toValue]
            refine .exec hid (Json.ofPairs_sorted _) ?_ ?_
            · intro k hk
              rw [get_ofPairs_value, lastOf_filter_ne _ _ _ hk]
            · rw [get_ofPairs_value, lastOf_filter_self]; rfl
          · cases h
        · cases h
      · split at h
        · rename_i hk; subst hk
          split at h
          · rename_i kvs
            split at h
            · rename_i id he
              have := (cancelFields_ok _ _ _).1 he
              simp only [reduceCtorEq, false_and, true_and, false_or] at this
              injection h with h
              subst h
              exact .cancel this
            · cases h
          · rename_i v
            split at h
            · rename_i n hn
              injection h with h
              subst h
              exact .cancelSeq ((asUsize_iff _ _).1 hn)
            · cases h
          · cases h
          · cases h
        · cases h
    · cases h
    · split at h <;> cases h
    · cases h
  · intro h
    cases h with
    | @exec kvs id m hid hs hg hn =>
      have he : Request.execFields kvs none [] =
          .ok (id, [] ++ kvs.filter (fun p => p.1 ≠ lit "id")) :=
        (execFields_ok _ _ _ _ _).2 ⟨rfl, .inr ⟨rfl, hid⟩⟩
      simp only [Request.decode, if_true, he, List.nil_append, Json.toValue]
      congr 3
      refine BMap.ext_of_sorted (Json.ofPairs_sorted _) hs ?_
      intro k
      by_cases hk : k = lit "id"
      · subst hk
        rw [get_ofPairs_value, lastOf_filter_self, hn]; rfl
      · rw [get_ofPairs_value, lastOf_filter_ne _ _ _ hk, hg k hk]
    | @cancel kvs id hid =>
      have he : Request.cancelFields kvs none = .ok id :=
        (cancelFields_ok _ _ _).2 (.inr ⟨rfl, hid⟩)
      have hne : lit "cancelStream" ≠ lit "exec" := by decide
      simp only [Request.decode, if_true, hne, if_false, he]
    | @cancelSeq j id hid =>
      have hne : lit "cancelStream" ≠ lit "exec" := by decide
      simp only [Request.decode, if_true, hne, if_false, (asUsize_iff _ _).2 hid]

end Verif
