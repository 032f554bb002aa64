import Verif.Rpc.WireLemmas
import Verif.Spec.Dispatch

/-!
# Dispatch lemmas (proof helpers)
-/

namespace Verif
open WireSpec DispatchSpec

variable {S V : Type}

theorem decodeTuple_iff (ds : List (Json → Option V)) (js : List Json) (vs : List V) :
    decodeTuple ds js = .ok vs ↔ ArgsDecode ds js vs := by
  induction ds generalizing js vs with
  | nil =>
    cases js with
    | nil =>
      simp only [decodeTuple, Except.ok.injEq]
      constructor
      · rintro rfl; exact .nil
      · rintro ⟨⟩; rfl
    | cons j js => simp only [decodeTuple]; constructor <;> (intro h; cases h)
  | cons d ds ih =>
    cases js with
    | nil => simp only [decodeTuple]; constructor <;> (intro h; cases h)
    | cons j js =>
      simp only [decodeTuple]
      constructor
      · intro h
        split at h
        · cases h
        · rename_i v hv
          split at h
          · rename_i vs' hvs
            injection h with h; subst h
            exact .cons hv ((ih _ _).1 hvs)
          · cases h
      · intro h
        cases h with
        | cons hv hvs => simp only [hv, (ih _ _).2 hvs]

theorem decodeArgs_iff (ds : List (Json → Option V)) (a : Json) (vs : List V) :
    decodeArgs ds a = .ok vs ↔ ArgsFit ds a vs := by
  unfold decodeArgs ArgsFit
  cases ds with
  | nil =>
    simp only [ne_eq, not_true, false_and, or_false, true_and]
    split
    · simp [eq_comm]
    · simp [eq_comm]
    · rename_i h1 h2
      simp only [reduceCtorEq, false_iff, not_and, not_or]
      intro _; exact ⟨h1, h2⟩
  | cons d ds =>
    simp only [reduceCtorEq, false_and, ne_eq, not_false_eq_true, true_and, false_or]
    split
    · rename_i js
      rw [decodeTuple_iff]
      constructor
      · intro h; exact ⟨js, rfl, h⟩
      · rintro ⟨js', h1, h2⟩; cases h1; exact h2
    · rename_i h1
      simp only [reduceCtorEq, false_iff, not_exists, not_and]
      intro js h; exact absurd h (h1 js)

theorem findIdx?_nodup {names : List Str} (hn : names.Nodup) (s : Str) (i : Nat) :
    variantIndex names s = some i ↔ names[i]? = some s := by
  unfold variantIndex
  induction names generalizing i with
  | nil => simp
  | cons a r ih =>
    rw [List.nodup_cons] at hn
    rw [List.findIdx?_cons]
    by_cases ha : a = s
    · subst ha
      simp only [decide_true, if_true, Option.some.injEq]
      cases i with
      | zero => simp
      | succ i =>
        simp only [List.getElem?_cons_succ]
        constructor
        · intro h; cases h
        · intro h; exact absurd (List.mem_of_getElem? h) hn.1
    · simp only [ha, decide_false, Bool.false_eq_true, if_false]
      cases i with
      | zero => simp [ha]
      | succ i =>
        simp only [List.getElem?_cons_succ]
        rw [← ih hn.2]
        cases List.findIdx? (fun x => decide (x = s)) r <;> simp

/-- In a map a key occurs at most once. -/
theorem filter_of_sorted {m : BMap Json} (h : BMap.Sorted m) (k : Str) :
    m.filter (fun p => p.1 = k) =
      match BMap.get k m with
      | some v => [(k, v)]
      | none => [] := by
  induction m with
  | nil => rfl
  | cons p r ih =>
    unfold BMap.Sorted at h
    rw [List.pairwise_cons] at h
    by_cases hp : p.1 = k
    · subst hp
      have hnot : p.1 ∉ BMap.keys r := by
        intro hm
        obtain ⟨q, hq, hq'⟩ := List.mem_map.1 hm
        have := h.1 q hq
        rw [hq'] at this
        exact strLt_irrefl _ this
      have := ih h.2
      rw [BMap.get_eq_none_of_not_mem hnot] at this
      simp [List.filter_cons, BMap.get, this]
    · simp only [List.filter_cons, hp, decide_false, Bool.false_eq_true, if_false, BMap.get]
      exact ih h.2

theorem sorted_filter {m : BMap Json} (h : BMap.Sorted m) (p : Str × Json → Bool) :
    BMap.Sorted (m.filter p) := h.sublist List.filter_sublist

theorem get_filter_ne {m : BMap Json} (k a : Str) (h : k ≠ a) :
    BMap.get k (m.filter (fun p => p.1 ≠ a)) = BMap.get k m := by
  induction m with
  | nil => rfl
  | cons p r ih =>
    by_cases hp : p.1 = a
    · have : p.1 ≠ k := fun e => h (e.symm.trans hp)
      simp only [List.filter_cons, hp, ne_eq, not_true, decide_false, Bool.false_eq_true, if_false,
        BMap.get]
      rw [if_neg (fun e => h e.symm)]
      exact ih
    · simp only [List.filter_cons, ne_eq, hp, not_false_eq_true, decide_true, if_true, BMap.get]
      rw [ih]

theorem takeTag_map_iff {m : BMap Json} (hs : BMap.Sorted m) (tag : Str) (t : Json) (r : Rest) :
    takeTag tag (.map m) = .ok (t, r) ↔
      BMap.get tag m = some t ∧ r = .map (m.filter (fun p => p.1 ≠ tag)) := by
  unfold takeTag
  simp only
  rw [filter_of_sorted hs]
  cases BMap.get tag m with
  | none => simp
  | some v => simp [eq_comm]

theorem takeArgs_map_iff {m : BMap Json} (hs : BMap.Sorted m) (a : Json) :
    takeArgs (.map m) = .ok a ↔ BMap.get (lit "args") m = some a := by
  unfold takeArgs
  simp only
  rw [filter_of_sorted hs]
  cases BMap.get (lit "args") m with
  | none => simp
  | some v => simp

theorem outerVariant_iff {names : List Str} (hn : names.Nodup) (t : Json) (i : Nat) :
    outerVariant names t = .ok i ↔ ∃ s, t = .str s ∧ names[i]? = some s := by
  unfold outerVariant
  cases t with
  | str s =>
    simp only [Json.str.injEq]
    cases h : variantIndex names s with
    | none =>
      simp only [reduceCtorEq, false_iff, not_exists, not_and]
      rintro s' rfl h'
      rw [← findIdx?_nodup hn, h] at h'
      cases h'
    | some k =>
      simp only [Except.ok.injEq]
      constructor
      · rintro rfl; exact ⟨s, rfl, (findIdx?_nodup hn _ _).1 h⟩
      · rintro ⟨s', rfl, h'⟩
        rw [← findIdx?_nodup hn, h] at h'
        exact Option.some.inj h'
  | _ => simp

theorem innerVariant_iff {names : List Str} (hn : names.Nodup) (t : Json) (i : Nat) :
    innerVariant names t = .ok i ↔ (∃ s, t = .str s ∧ names[i]? = some s) ∨
      (t = .num (.int i) ∧ i < 2 ^ 64 ∧ i < names.length) := by
  unfold innerVariant
  cases t with
  | str s =>
    simp only [Json.str.injEq, reduceCtorEq, false_and, or_false]
    cases h : variantIndex names s with
    | none =>
      simp only [reduceCtorEq, false_iff, not_exists, not_and]
      rintro s' rfl h'
      rw [← findIdx?_nodup hn, h] at h'
      cases h'
    | some k =>
      simp only [Except.ok.injEq]
      constructor
      · rintro rfl; exact ⟨s, rfl, (findIdx?_nodup hn _ _).1 h⟩
      · rintro ⟨s', rfl, h'⟩
        rw [← findIdx?_nodup hn, h] at h'
        exact Option.some.inj h'
  | num m =>
    cases m with
    | int n =>
      simp only [reduceCtorEq, false_and, exists_false, false_or]
      constructor
      · intro h
        split at h
        · split at h
          · injection h with h
            have : n = (i : Int) := by omega
            subst this
            exact ⟨rfl, by omega, by omega⟩
          · cases h
        · cases h
      · rintro ⟨h1, h2, h3⟩
        injection h1 with h1
        injection h1 with h1
        subst h1
        rw [if_pos (by omega), if_pos (by omega)]
        simp
    | flt q => simp
  | _ => simp

theorem bind_ok_iff {α β ε : Type} (x : Except ε α) (f : α → Except ε β) (y : β) :
    (x >>= f) = .ok y ↔ ∃ a, x = .ok a ∧ f a = .ok y := by
  cases x with
  | error e => simp [bind, Except.bind]
  | ok a => simp [bind, Except.bind]

/-- Dispatch finds exactly the calls of the specification. -/
theorem decodeCall_iff {b : BackendDef S V} (hw : WellFormed b) {m : BMap Json}
    (hs : BMap.Sorted m) (c : Call V) :
    decodeCall b (.obj m) = .ok c ↔ IsCall b m c.ns c.method c.args := by
  have hs1 := sorted_filter hs (fun p => decide (p.1 ≠ lit "namespace"))
  have hs2 := sorted_filter hs1 (fun p => decide (p.1 ≠ lit "method"))
  have hm : BMap.get (lit "method") (m.filter fun p => decide (p.1 ≠ lit "namespace")) =
      BMap.get (lit "method") m := get_filter_ne _ _ (by decide)
  have ha : BMap.get (lit "args") ((m.filter fun p => decide (p.1 ≠ lit "namespace")).filter
      fun p => decide (p.1 ≠ lit "method")) = BMap.get (lit "args") m := by
    rw [get_filter_ne _ _ (by decide), get_filter_ne _ _ (by decide)]
  unfold decodeCall decodeMethod
  simp only [bind_ok_iff]
  constructor
  · rintro ⟨r, hr, ⟨t, r1⟩, h1, i, h2, h3⟩
    injection hr with hr; subst hr
    rw [takeTag_map_iff hs] at h1
    obtain ⟨h1, rfl⟩ := h1
    rw [outerVariant_iff hw.1] at h2
    obtain ⟨s, rfl, h2⟩ := h2
    simp only at h3
    split at h3
    · cases h3
    · rename_i n hn
      obtain ⟨⟨mm, vs⟩, h4, h5⟩ := (bind_ok_iff _ _ _).1 h3
      obtain ⟨⟨t2, r2⟩, h6, h7⟩ := (bind_ok_iff _ _ _).1 h4
      rw [takeTag_map_iff hs1] at h6
      obtain ⟨h6, rfl⟩ := h6
      obtain ⟨j, h8, h9⟩ := (bind_ok_iff _ _ _).1 h7
      simp only at h9
      split at h9
      · cases h9
      · rename_i md hmd
        obtain ⟨a, h10, h11⟩ := (bind_ok_iff _ _ _).1 h9
        obtain ⟨vs', h12, h13⟩ := (bind_ok_iff _ _ _).1 h11
        rw [takeArgs_map_iff hs2, ha] at h10
        rw [decodeArgs_iff] at h12
        simp only [pure, Except.pure, Except.ok.injEq, Prod.mk.injEq] at h13 h5
        obtain ⟨rfl, rfl⟩ := h13
        subst h5
        simp only [List.getElem?_map, hn, Option.map_some, Option.some.injEq] at h2
        subst h2
        refine ⟨n, md, t2, a, hn, h1, by rw [← hm]; exact h6, ⟨hmd, ?_⟩, h10, h12⟩
        simp only at h8
        rw [innerVariant_iff (hw.2 n (List.mem_of_getElem? hn))] at h8
        rcases h8 with ⟨s, rfl, h8⟩ | ⟨rfl, h8, _⟩
        · simp only [List.getElem?_map, hmd, Option.map_some, Option.some.injEq] at h8
          subst h8; exact .inl rfl
        · exact .inr ⟨rfl, h8⟩
  · rintro ⟨n, md, tag, a, hn, h1, h2, ⟨hmd, h3⟩, h4, h5⟩
    refine ⟨.map m, rfl, (.str n.ident, .map (m.filter fun p => decide (p.1 ≠ lit "namespace"))),
      (takeTag_map_iff hs _ _ _).2 ⟨h1, rfl⟩, c.ns, ?_, ?_⟩
    · simp only
      rw [outerVariant_iff hw.1]
      exact ⟨_, rfl, by simp [hn]⟩
    · simp only [hn]
      rw [bind_ok_iff]
      refine ⟨(c.method, c.args), ?_, rfl⟩
      rw [bind_ok_iff]
      refine ⟨_, (takeTag_map_iff hs1 _ _ _).2 ⟨by rw [hm]; exact h2, rfl⟩, ?_⟩
      rw [bind_ok_iff]
      refine ⟨c.method, ?_, ?_⟩
      · simp only
        rw [innerVariant_iff (hw.2 n (List.mem_of_getElem? hn))]
        rcases h3 with rfl | ⟨rfl, h3⟩
        · exact .inl ⟨_, rfl, by simp [hmd]⟩
        · exact .inr ⟨rfl, h3, by
            have := (List.getElem?_eq_some_iff.1 hmd).1; simpa using this⟩
      · simp only [hmd]
        rw [bind_ok_iff]
        refine ⟨a, (takeArgs_map_iff hs2 _).2 (by rw [ha]; exact h4), ?_⟩
        rw [bind_ok_iff]
        exact ⟨c.args, (decodeArgs_iff _ _ _).2 h5, rfl⟩

/-- The same for a value that is an array (which only Rust code can put into a `Request`). -/
theorem decodeCall_arr_iff {b : BackendDef S V} (hw : WellFormed b) (l : List Json) (c : Call V) :
    decodeCall b (.arr l) = .ok c ↔ ∃ n md tag a, b.fields[c.ns]? = some n ∧ l = [.str n.ident, tag, a] ∧
      TagNames n tag c.method md ∧ ArgsFit md.args a c.args := by
  unfold decodeCall decodeMethod
  simp only [bind_ok_iff]
  constructor
  · rintro ⟨r, hr, ⟨t, r1⟩, h1, i, h2, h3⟩
    injection hr with hr; subst hr
    match l, h1 with
    | x :: l, h1 =>
      simp only [takeTag, Except.ok.injEq, Prod.mk.injEq] at h1
      obtain ⟨rfl, rfl⟩ := h1
      rw [outerVariant_iff hw.1] at h2
      obtain ⟨s, rfl, h2⟩ := h2
      simp only at h3
      split at h3
      · cases h3
      · rename_i n hn
        obtain ⟨⟨mm, vs⟩, h4, h5⟩ := (bind_ok_iff _ _ _).1 h3
        obtain ⟨⟨t2, r2⟩, h6, h7⟩ := (bind_ok_iff _ _ _).1 h4
        match l, h6 with
        | y :: l, h6 =>
          simp only [takeTag, Except.ok.injEq, Prod.mk.injEq] at h6
          obtain ⟨rfl, rfl⟩ := h6
          obtain ⟨j, h8, h9⟩ := (bind_ok_iff _ _ _).1 h7
          simp only at h9
          split at h9
          · cases h9
          · rename_i md hmd
            obtain ⟨a, h10, h11⟩ := (bind_ok_iff _ _ _).1 h9
            obtain ⟨vs', h12, h13⟩ := (bind_ok_iff _ _ _).1 h11
            match l, h10 with
            | [z], h10 =>
              simp only [takeArgs, Except.ok.injEq] at h10
              subst h10
              rw [decodeArgs_iff] at h12
              simp only [pure, Except.pure, Except.ok.injEq, Prod.mk.injEq] at h13 h5
              obtain ⟨rfl, rfl⟩ := h13
              subst h5
              simp only [List.getElem?_map, hn, Option.map_some, Option.some.injEq] at h2
              subst h2
              refine ⟨n, md, y, z, hn, rfl, ⟨hmd, ?_⟩, h12⟩
              simp only at h8
              rw [innerVariant_iff (hw.2 n (List.mem_of_getElem? hn))] at h8
              rcases h8 with ⟨s, rfl, h8⟩ | ⟨rfl, h8, _⟩
              · simp only [List.getElem?_map, hmd, Option.map_some, Option.some.injEq] at h8
                subst h8; exact .inl rfl
              · exact .inr ⟨rfl, h8⟩
  · rintro ⟨n, md, tag, a, hn, rfl, ⟨hmd, h3⟩, h5⟩
    refine ⟨.seq [.str n.ident, tag, a], rfl, (.str n.ident, .seq [tag, a]), rfl, c.ns, ?_, ?_⟩
    · simp only
      rw [outerVariant_iff hw.1]
      exact ⟨_, rfl, by simp [hn]⟩
    · simp only [hn]
      rw [bind_ok_iff]
      refine ⟨(c.method, c.args), ?_, rfl⟩
      rw [bind_ok_iff]
      refine ⟨(tag, .seq [a]), rfl, ?_⟩
      rw [bind_ok_iff]
      refine ⟨c.method, ?_, ?_⟩
      · simp only
        rw [innerVariant_iff (hw.2 n (List.mem_of_getElem? hn))]
        rcases h3 with rfl | ⟨rfl, h3⟩
        · exact .inl ⟨_, rfl, by simp [hmd]⟩
        · exact .inr ⟨rfl, h3, by
            have := (List.getElem?_eq_some_iff.1 hmd).1; simpa using this⟩
      · simp only [hmd]
        rw [bind_ok_iff]
        refine ⟨a, rfl, ?_⟩
        rw [bind_ok_iff]
        exact ⟨c.args, (decodeArgs_iff _ _ _).2 h5, rfl⟩

theorem callValue_sorted (ns method : Str) (args : List Json) :
    BMap.Sorted [(lit "args", Json.arr args), (lit "method", .str method),
      (lit "namespace", .str ns)] := by
  unfold BMap.Sorted
  rw [List.pairwise_cons, List.pairwise_cons]
  refine ⟨?_, ?_, by simp⟩
  · intro a ha
    simp only [List.mem_cons, List.not_mem_nil, or_false] at ha
    rcases ha with rfl | rfl <;> (simp only [strLt]; decide)
  · intro a ha
    simp only [List.mem_cons, List.not_mem_nil, or_false] at ha
    subst ha; simp only [strLt]; decide

end Verif
