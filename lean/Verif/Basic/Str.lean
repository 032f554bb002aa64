/-!
# Strings and ordered maps

Rust strings are modelled as lists of Unicode scalar values.  Rust compares `&str` bytewise on
UTF-8, which is the lexicographic order on scalar values, i.e. the order of `List Char`.
-/

namespace Verif

/-- Rust `String` / `&str`. -/
abbrev Str := List Char

/-- String literal. -/
abbrev lit (x : String) : Str := x.toList

/-- `[a, b, c].join(sep)` of the Rust standard library. -/
def join (sep : Str) : List Str → Str
  | [] => []
  | [x] => x
  | x :: y :: r => x ++ sep ++ join sep (y :: r)

@[simp] theorem join_nil (sep : Str) : join sep [] = [] := rfl
@[simp] theorem join_singleton (sep x : Str) : join sep [x] = x := rfl
theorem join_cons_cons (sep x y : Str) (r : List Str) :
    join sep (x :: y :: r) = x ++ sep ++ join sep (y :: r) := rfl

/-- Rust's `str` order. -/
def strLt (a b : Str) : Prop := a < b

instance (a b : Str) : Decidable (strLt a b) := inferInstanceAs (Decidable (a < b))

theorem strLt_irrefl (a : Str) : ¬ strLt a a := List.lt_irrefl a
theorem strLt_trans {a b c : Str} (h₁ : strLt a b) (h₂ : strLt b c) : strLt a c :=
  List.lt_trans h₁ h₂
theorem strLt_asymm {a b : Str} (h : strLt a b) : ¬ strLt b a := fun h' =>
  strLt_irrefl a (strLt_trans h h')
theorem strLt_trichotomy {a b : Str} (h₁ : ¬ strLt a b) (h₂ : ¬ strLt b a) : a = b :=
  List.le_antisymm (List.not_lt.mp h₂) (List.not_lt.mp h₁)

/-- `std::collections::BTreeMap<&str, α>`: an association list kept sorted by key. -/
abbrev BMap (α : Type u) := List (Str × α)

namespace BMap
variable {α : Type u}

/-- Update the entry of `k` (`entry(k)` followed by a write): `f` sees the old value, if any. -/
def alter (k : Str) (f : Option α → α) : BMap α → BMap α
  | [] => [(k, f none)]
  | (k', v) :: r =>
      if strLt k k' then (k, f none) :: (k', v) :: r
      else if strLt k' k then (k', v) :: alter k f r
      else (k', f (some v)) :: r

/-- `BTreeMap::insert`. -/
def insert (k : Str) (v : α) (m : BMap α) : BMap α := alter k (fun _ => v) m

/-- `BTreeMap::get`. -/
def get (k : Str) : BMap α → Option α
  | [] => none
  | (k', v) :: r => if k' = k then some v else get k r

/-- The keys of a map. -/
def keys (m : BMap α) : List Str := m.map (·.1)

/-- Keys strictly increasing. -/
def Sorted (m : BMap α) : Prop := m.Pairwise (fun a b => strLt a.1 b.1)

theorem sorted_nil : Sorted ([] : BMap α) := List.Pairwise.nil

theorem mem_keys_alter (k : Str) (f : Option α → α) (m : BMap α) (x : Str) :
    x ∈ keys (alter k f m) ↔ x = k ∨ x ∈ keys m := by
  induction m with
  | nil => simp [alter, keys]
  | cons p r ih =>
    obtain ⟨k', v⟩ := p
    unfold alter
    split
    · simp [keys]
    · split
      · simp only [keys, List.map_cons, List.mem_cons] at *
        rw [ih]; grind
      · rename_i h₁ h₂
        have := strLt_trichotomy h₁ h₂
        subst this
        simp [keys]

theorem sorted_alter (k : Str) (f : Option α → α) {m : BMap α} (h : Sorted m) :
    Sorted (alter k f m) := by
  induction m with
  | nil => simp [alter, Sorted]
  | cons p r ih =>
    obtain ⟨k', v⟩ := p
    unfold Sorted at h ih ⊢
    rw [List.pairwise_cons] at h
    unfold alter
    split
    · rename_i hk
      rw [List.pairwise_cons]
      refine ⟨?_, List.pairwise_cons.2 h⟩
      intro a ha
      rcases List.mem_cons.1 ha with rfl | ha
      · exact hk
      · exact strLt_trans hk (h.1 a ha)
    · split
      · rename_i h₁ h₂
        rw [List.pairwise_cons]
        refine ⟨?_, ih h.2⟩
        intro a ha
        have hx : a.1 ∈ keys (alter k f r) := List.mem_map.2 ⟨a, ha, rfl⟩
        rw [mem_keys_alter] at hx
        rcases hx with hx | hx
        · rw [hx]; exact h₂
        · obtain ⟨b, hb, hb'⟩ := List.mem_map.1 hx
          rw [← hb']; exact h.1 b hb
      · rw [List.pairwise_cons]
        exact ⟨h.1, h.2⟩

theorem get_eq_none_of_not_mem {m : BMap α} {k : Str} (h : k ∉ keys m) : get k m = none := by
  induction m with
  | nil => rfl
  | cons p r ih =>
    simp only [keys, List.map_cons, List.mem_cons, not_or] at h
    unfold get
    rw [if_neg (fun e => h.1 e.symm)]
    exact ih h.2

theorem get_isSome_iff {m : BMap α} {k : Str} : (get k m).isSome ↔ k ∈ keys m := by
  induction m with
  | nil => simp [get, keys]
  | cons p r ih =>
    unfold get
    split
    · rename_i h; simp [keys, h]
    · rename_i h
      simp only [keys, List.map_cons, List.mem_cons]
      rw [ih]
      constructor
      · exact fun h' => .inr h'
      · rintro (h' | h')
        · exact absurd h'.symm h
        · exact h'

theorem get_alter_self (k : Str) (f : Option α → α) {m : BMap α} (h : Sorted m) :
    get k (alter k f m) = some (f (get k m)) := by
  induction m with
  | nil => simp [alter, get]
  | cons p r ih =>
    obtain ⟨k', v⟩ := p
    unfold Sorted at h
    rw [List.pairwise_cons] at h
    unfold alter
    split
    · rename_i hk
      have hne : k' ≠ k := fun e => strLt_irrefl k (e ▸ hk)
      have hnr : k ∉ keys r := by
        intro hm
        obtain ⟨b, hb, hb'⟩ := List.mem_map.1 hm
        exact strLt_irrefl k (strLt_trans hk (hb' ▸ h.1 b hb))
      simp [get, hne, get_eq_none_of_not_mem hnr]
    · split
      · rename_i h₁ h₂
        have hne : k' ≠ k := fun e => strLt_irrefl k (e ▸ h₂)
        simp only [get, hne, if_false]
        exact ih h.2
      · rename_i h₁ h₂
        have := strLt_trichotomy h₁ h₂
        subst this
        simp [get]

theorem get_alter_ne {k x : Str} (hx : x ≠ k) (f : Option α → α) (m : BMap α) :
    get x (alter k f m) = get x m := by
  induction m with
  | nil => simp [alter, get, Ne.symm hx]
  | cons p r ih =>
    obtain ⟨k', v⟩ := p
    unfold alter
    split
    · simp [get, Ne.symm hx]
    · split
      · simp only [get]; rw [ih]
      · rename_i h₁ h₂
        have := strLt_trichotomy h₁ h₂
        subst this
        simp [get, Ne.symm hx]

/-- A sorted map is determined by its lookups. -/
theorem ext_of_sorted {m₁ m₂ : BMap α} (h₁ : Sorted m₁) (h₂ : Sorted m₂)
    (h : ∀ k, get k m₁ = get k m₂) : m₁ = m₂ := by
  induction m₁ generalizing m₂ with
  | nil =>
    cases m₂ with
    | nil => rfl
    | cons p r => have := h p.1; simp [get] at this
  | cons p r ih =>
    cases m₂ with
    | nil => have := h p.1; simp [get] at this
    | cons q s =>
      unfold Sorted at h₁ h₂
      rw [List.pairwise_cons] at h₁ h₂
      have hpr : p.1 ∉ keys r := by
        intro hm
        obtain ⟨b, hb, hb'⟩ := List.mem_map.1 hm
        exact strLt_irrefl p.1 (by have := h₁.1 b hb; rwa [hb'] at this)
      have hqs : q.1 ∉ keys s := by
        intro hm
        obtain ⟨b, hb, hb'⟩ := List.mem_map.1 hm
        exact strLt_irrefl q.1 (by have := h₂.1 b hb; rwa [hb'] at this)
      have hkey : p.1 = q.1 := by
        apply Classical.byContradiction
        intro hne
        have hp : p.1 ∈ keys s := by
          have := h p.1
          simp only [get, if_true, if_neg (Ne.symm hne)] at this
          exact get_isSome_iff.1 (by rw [← this]; rfl)
        have hq : q.1 ∈ keys r := by
          have := h q.1
          simp only [get, if_true, if_neg hne] at this
          exact get_isSome_iff.1 (by rw [this]; rfl)
        obtain ⟨b, hb, hb'⟩ := List.mem_map.1 hp
        obtain ⟨c, hc, hc'⟩ := List.mem_map.1 hq
        have e₁ := h₂.1 b hb
        have e₂ := h₁.1 c hc
        rw [hb'] at e₁; rw [hc'] at e₂
        exact strLt_asymm e₁ e₂
      have hval : p.2 = q.2 := by
        have := h p.1
        simp only [get, if_true, hkey] at this
        exact Option.some.inj this
      have hpq : p = q := Prod.ext hkey hval
      subst hpq
      congr 1
      apply ih h₁.2 h₂.2
      intro k
      have hk := h k
      by_cases e : p.1 = k
      · subst e
        rw [get_eq_none_of_not_mem hpr, get_eq_none_of_not_mem hqs]
      · simpa only [get, if_neg e] using hk

theorem get_of_mem_sorted {m : BMap α} (h : Sorted m) {k : Str} {v : α} (hm : (k, v) ∈ m) :
    get k m = some v := by
  induction m with
  | nil => cases hm
  | cons p r ih =>
    unfold Sorted at h
    rw [List.pairwise_cons] at h
    rcases List.mem_cons.1 hm with rfl | hm
    · simp [get]
    · have : strLt p.1 k := h.1 _ hm
      have hne : p.1 ≠ k := fun e => strLt_irrefl k (e ▸ this)
      simp only [get, if_neg hne]
      exact ih h.2 hm

theorem mem_of_get {m : BMap α} {k : Str} {v : α} (h : get k m = some v) : (k, v) ∈ m := by
  induction m with
  | nil => simp [get] at h
  | cons p r ih =>
    unfold get at h
    split at h
    · rename_i e
      have := Option.some.inj h
      subst this; subst e
      exact List.mem_cons_self
    · exact List.mem_cons_of_mem _ (ih h)

end BMap
end Verif
