import Verif.Spec.Codegen

/-!
# Grouping by namespace (proof helper)
-/

namespace Verif.Codegen
open Verif Verif.CodegenSpec

theorem push_sorted {α : Type} (k : Str) (x : α) {m : BMap (List α)} (h : m.Sorted) :
    (push k x m).Sorted := BMap.sorted_alter _ _ h

/-- `group` by key. -/
theorem group_get {α β : Type} (key : α → Str) (val : α → β) (l : List α) (m : BMap (List β))
    (h : m.Sorted) (k : Str) :
    (l.foldl (fun m x => push (key x) (val x) m) m).get k =
      if (l.filter (fun x => key x = k)).isEmpty then m.get k
      else some ((m.get k).getD [] ++ (l.filter (fun x => key x = k)).map val) := by
  induction l generalizing m with
  | nil => rfl
  | cons x l ih =>
    rw [List.foldl_cons, ih _ (push_sorted _ _ h)]
    by_cases e : key x = k
    · have : (push (key x) (val x) m).get k = some ((m.get k).getD [] ++ [val x]) := by
        rw [← e]; exact BMap.get_alter_self _ _ h
      rw [this]
      simp only [e, List.filter_cons, decide_true, if_true, List.isEmpty_cons, Option.getD_some]
      split
      · rename_i h1
        rw [List.isEmpty_iff] at h1
        simp [h1]
      · simp
    · have : (push (key x) (val x) m).get k = m.get k := BMap.get_alter_ne (Ne.symm e) _ _
      rw [this]
      simp [List.filter_cons, e]

theorem group_sorted {α β : Type} (key : α → Str) (val : α → β) (l : List α) (m : BMap (List β))
    (h : m.Sorted) : (l.foldl (fun m x => push (key x) (val x) m) m).Sorted := by
  induction l generalizing m with
  | nil => exact h
  | cons x l ih => exact ih _ (push_sorted _ _ h)

theorem collect_get (r : Registry) (k : Str) :
    (collect r).get k = if (typesOf r k).isEmpty then none else some (typesOf r k) := by
  unfold collect
  rw [group_get (fun d : Member => d.ns) (fun d => d) r.members [] BMap.sorted_nil k]
  simp [BMap.get, typesOf]

theorem collect_sorted (r : Registry) : (collect r).Sorted :=
  group_sorted (fun d : Member => d.ns) (fun d => d) r.members [] BMap.sorted_nil

/-- `BTreeMap` from sorted pairs. -/
theorem toBMap_get {α : Type} (l : List (Str × α)) (m : BMap α) (hm : m.Sorted)
    (h : l.Pairwise (fun a b => strLt a.1 b.1)) (k : Str) :
    (l.foldl (fun m p => m.insert p.1 p.2) m).get k =
      ((BMap.get k l : Option α).or (m.get k)) ∧ (l.foldl (fun m p => m.insert p.1 p.2) m).Sorted := by
  induction l generalizing m with
  | nil => exact ⟨rfl, hm⟩
  | cons p l ih =>
    rw [List.pairwise_cons] at h
    obtain ⟨a, b⟩ := ih (BMap.insert p.1 p.2 m) (BMap.sorted_alter _ _ hm) h.2
    refine ⟨?_, b⟩
    rw [List.foldl_cons, a]
    by_cases e : p.1 = k
    · subst e
      have hn : BMap.get p.1 l = none := by
        refine BMap.get_eq_none_of_not_mem ?_
        intro hk
        obtain ⟨q, hq, he⟩ := List.mem_map.1 hk
        have := h.1 q hq
        rw [he] at this
        exact strLt_irrefl _ this
      rw [hn, BMap.insert, BMap.get_alter_self _ _ hm]
      simp [BMap.get]
    · rw [BMap.insert, BMap.get_alter_ne (Ne.symm e)]
      simp [BMap.get, e]

theorem get_filter_map {α β : Type} (l : List (Str × α)) (names : List Str) (f : α → β) (k : Str)
    (h : l.Pairwise (fun a b => strLt a.1 b.1)) :
    BMap.get k ((l.filter (fun p => p.1 ∈ names)).map (fun p => (p.1, f p.2))) =
      if k ∈ names then (BMap.get k l).map f else none := by
  induction l with
  | nil => simp [BMap.get]
  | cons p l ih =>
    rw [List.pairwise_cons] at h
    by_cases hp : p.1 ∈ names
    · simp only [List.filter_cons, hp, decide_true, if_true, List.map_cons, BMap.get]
      by_cases e : p.1 = k
      · subst e; simp [hp]
      · simp only [e, if_false]; exact ih h.2
    · simp only [List.filter_cons, hp, decide_false, BMap.get]
      by_cases e : p.1 = k
      · subst e
        have := ih h.2
        simp only [hp, if_false] at this
        simpa [hp] using this
      · simp only [e, if_false]; exact ih h.2

theorem sorted_filter_map {α β : Type} (l : List (Str × α)) (names : List Str) (f : α → β)
    (h : l.Pairwise (fun a b => strLt a.1 b.1)) :
    ((l.filter (fun p => p.1 ∈ names)).map (fun p => (p.1, f p.2))).Pairwise
      (fun a b => strLt a.1 b.1) := by
  rw [List.pairwise_map]
  exact List.Pairwise.filter _ h

theorem typeRecords_get (r : Registry) (names : List Str) (o : Options) (k : Str) :
    (typeRecords r names o).get k =
      if k ∈ names ∧ (typesOf r k) ≠ [] then some ((typesOf r k).map (Member.text o)).flatten
      else none := by
  unfold typeRecords toBMap
  rw [(toBMap_get _ [] BMap.sorted_nil
    (sorted_filter_map _ names (fun l => (l.map (Member.text o)).flatten) (collect_sorted r)) k).1,
    get_filter_map _ names (fun l => (l.map (Member.text o)).flatten) k (collect_sorted r),
    collect_get]
  by_cases h1 : k ∈ names <;> by_cases h2 : typesOf r k = []
  all_goals simp [h1, h2, BMap.get]

theorem typeRecords_sorted (r : Registry) (names : List Str) (o : Options) :
    (typeRecords r names o).Sorted := by
  unfold typeRecords toBMap
  exact (toBMap_get _ [] BMap.sorted_nil
    (sorted_filter_map _ names (fun l => (l.map (Member.text o)).flatten) (collect_sorted r)) []).2

/-- Appending texts to records. -/
theorem append_get {α : Type} (key : α → Str) (val : α → Str) (l : List α) (m : BMap Str)
    (h : m.Sorted) (k : Str) :
    ((l.map (fun x => (key x, val x))).foldl
        (fun recs p => BMap.alter p.1 (fun s => s.getD [] ++ p.2) recs) m).get k =
      (if (l.filter (fun x => key x = k)) = [] then m.get k
      else some ((m.get k).getD [] ++ ((l.filter (fun x => key x = k)).map val).flatten)) ∧
    ((l.map (fun x => (key x, val x))).foldl
        (fun recs p => BMap.alter p.1 (fun s => s.getD [] ++ p.2) recs) m).Sorted := by
  induction l generalizing m with
  | nil => exact ⟨rfl, h⟩
  | cons x l ih =>
    rw [List.map_cons, List.foldl_cons]
    obtain ⟨a, b⟩ := ih (BMap.alter (key x) (fun s => s.getD [] ++ val x) m)
      (BMap.sorted_alter _ _ h)
    refine ⟨?_, b⟩
    rw [a]
    by_cases e : key x = k
    · subst e
      rw [BMap.get_alter_self _ _ h]
      by_cases hn : l.filter (fun y => key y = key x) = []
      · simp [hn]
      · simp [hn]
    · rw [BMap.get_alter_ne (Ne.symm e)]
      simp [List.filter_cons, e]

theorem records_spec (r : Registry) (names : List Str) (o : Options) (k : Str) :
    (records r names o).get k =
      (if k ∈ names ∧ (typesOf r k ≠ [] ∨ rpcOf r k ≠ []) then
        some (((typesOf r k).map (Member.text o)).flatten ++ ((rpcOf r k).map RpcMember.decl).flatten)
      else none) ∧ (records r names o).Sorted := by
  unfold records
  obtain ⟨a, b⟩ := append_get (fun m : RpcMember => m.ns) RpcMember.decl
    (r.rpc.filter (fun m => m.ns ∈ names)) (typeRecords r names o) (typeRecords_sorted r names o) k
  refine ⟨?_, b⟩
  rw [a, typeRecords_get, List.filter_filter]
  by_cases h1 : k ∈ names
  · have hf : List.filter (fun m : RpcMember => decide (m.ns = k) && decide (m.ns ∈ names)) r.rpc =
        rpcOf r k := by
      unfold rpcOf
      refine List.filter_congr ?_
      intro m _
      by_cases e : m.ns = k
      · subst e; simp [h1]
      · simp [e]
    rw [hf]
    by_cases h2 : rpcOf r k = []
    · by_cases h3 : typesOf r k = [] <;> simp [h1, h2, h3]
    · by_cases h3 : typesOf r k = [] <;> simp [h1, h2, h3]
  · have hf : List.filter (fun m : RpcMember => decide (m.ns = k) && decide (m.ns ∈ names)) r.rpc =
        [] := by
      rw [List.filter_eq_nil_iff]
      intro m _
      by_cases e : m.ns = k
      · subst e; simp [h1]
      · simp [e]
    simp [hf, h1]

theorem filter_ns_ne_nil {α : Type} (key : α → Str) (l : List α) (k : Str) :
    l.filter (fun m => key m = k) ≠ [] ↔ ∃ m ∈ l, key m = k := by
  rw [Ne, List.filter_eq_nil_iff]
  simp

theorem populated_iff (r : Registry) (k : Str) :
    (typesOf r k ≠ [] ∨ rpcOf r k ≠ []) ↔ Populated r k := by
  unfold typesOf rpcOf Populated
  rw [filter_ns_ne_nil (fun m : Member => m.ns), filter_ns_ne_nil (fun m : RpcMember => m.ns)]

theorem foldl_text (l : List (Str × Str)) (c : Str) :
    l.foldl (fun code p => code ++ lit "export namespace " ++ p.1 ++ lit " { " ++ p.2 ++ lit " }") c =
      c ++ (l.map (fun p => lit "export namespace " ++ p.1 ++ lit " { " ++ p.2 ++ lit " }")).flatten := by
  induction l generalizing c with
  | nil => simp
  | cons p l ih => rw [List.foldl_cons, ih]; simp [List.append_assoc]

theorem member_text_default (d : Member) : Member.text Options.default d = typeText d := by
  unfold Member.text typeText Options.default
  cases d.typeDef <;> simp [List.append_assoc]

/-- The shape of the output with any options. -/
theorem generateWithOptions_spec (r : Registry) (names : List Str) (client : Str) (o : Options) :
    ∃ nss : List Str, nss.Pairwise strLt ∧ (∀ x, x ∈ nss ↔ x ∈ names ∧ Populated r x) ∧
      generateWithOptions r names client o = client ++ (nss.map (fun ns =>
        lit "export namespace " ++ ns ++ lit " { " ++
          (((typesOf r ns).map (Member.text o)).flatten ++
            ((rpcOf r ns).map RpcMember.decl).flatten) ++ lit " }")).flatten := by
  have hs := (records_spec r names o []).2
  refine ⟨(records r names o).keys, ?_, ?_, ?_⟩
  · unfold BMap.keys; rw [List.pairwise_map]; exact hs
  · intro x
    rw [← BMap.get_isSome_iff, (records_spec r names o x).1, ← populated_iff]
    split <;> simp_all
  · unfold generateWithOptions
    rw [foldl_text]
    congr 2
    unfold BMap.keys
    rw [List.map_map]
    refine List.map_congr_left ?_
    intro p hp
    have hg := BMap.get_of_mem_sorted hs (k := p.1) (v := p.2) hp
    rw [(records_spec r names o p.1).1] at hg
    split at hg
    · simp only [Option.some.injEq] at hg
      simp only [Function.comp]
      rw [← hg]
    · cases hg

theorem nss_unique {a b : List Str} (ha : a.Pairwise strLt) (hb : b.Pairwise strLt)
    (h : ∀ x, x ∈ a ↔ x ∈ b) : a = b := by
  induction a generalizing b with
  | nil =>
    cases b with
    | nil => rfl
    | cons y b => exact absurd ((h y).2 (by simp)) (by simp)
  | cons x a ih =>
    cases b with
    | nil => exact absurd ((h x).1 (by simp)) (by simp)
    | cons y b =>
      rw [List.pairwise_cons] at ha hb
      have hxy : x = y := by
        rcases List.mem_cons.1 ((h x).1 (by simp)) with e | hx
        · exact e
        · rcases List.mem_cons.1 ((h y).2 (by simp)) with e | hy
          · exact e.symm
          · exact absurd (ha.1 y hy) (strLt_asymm (hb.1 x hx))
      subst hxy
      congr 1
      refine ih ha.2 hb.2 ?_
      intro z
      constructor
      · intro hz
        rcases List.mem_cons.1 ((h z).1 (List.mem_cons_of_mem _ hz)) with e | h'
        · subst e; exact absurd (ha.1 z hz) (strLt_irrefl z)
        · exact h'
      · intro hz
        rcases List.mem_cons.1 ((h z).2 (List.mem_cons_of_mem _ hz)) with e | h'
        · subst e; exact absurd (hb.1 z hz) (strLt_irrefl z)
        · exact h'

end Verif.Codegen
