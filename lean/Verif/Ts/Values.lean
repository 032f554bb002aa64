import Verif.Spec.TsIntent
import Verif.Zod.Inv

/-!
# Values of types: inversion and congruence (proof helper)
-/

namespace Verif.Ts
open Verif Verif.Js Verif.Schema Verif.Spec Verif.Zod

variable {D : TsEnv} {ln : Bool} {v : JsVal}

theorem inhabits_union {ts : List TsType} : Inhabits D ln (.union ts) v ↔ ∃ t ∈ ts, Inhabits D ln t v := by
  constructor
  · intro h; cases h with | union _ t _ hm h => exact ⟨t, hm, h⟩
  · rintro ⟨t, hm, h⟩; exact .union _ _ _ hm h

theorem inhabits_inter {ts : List TsType} : Inhabits D ln (.inter ts) v ↔ ∀ t ∈ ts, Inhabits D ln t v := by
  constructor
  · intro h; cases h with | inter _ _ h => exact h
  · exact .inter _ _

theorem inhabits_conj {c : List TsType} : Inhabits D ln (ofConj c) v ↔ ∀ t ∈ c, Inhabits D ln t v := by
  unfold ofConj
  split
  · simp
  · exact inhabits_inter

/-- The values of a type given by its alternatives. -/
theorem inhabits_dnf {d : Dnf} : Inhabits D ln (ofDnf d) v ↔ ∃ c ∈ d, ∀ t ∈ c, Inhabits D ln t v := by
  unfold ofDnf
  split
  · simp [inhabits_conj]
  · rw [inhabits_union]
    constructor
    · rintro ⟨t, hm, h⟩
      obtain ⟨c, hc, rfl⟩ := List.mem_map.1 hm
      exact ⟨c, hc, inhabits_conj.1 h⟩
    · rintro ⟨c, hc, h⟩
      exact ⟨_, List.mem_map.2 ⟨c, hc, rfl⟩, inhabits_conj.2 h⟩

theorem inhabits_array {t : TsType} : Inhabits D ln (.app [lit "Array"] [t]) v ↔
    ∃ l, v = .arr l ∧ ∀ x ∈ l, Inhabits D ln t x := by
  constructor
  · generalize he : TsType.app [lit "Array"] [t] = T
    intro h
    cases h <;> try cases he
    rename_i l h
    exact ⟨l, rfl, h⟩
  · rintro ⟨l, rfl, h⟩; exact .array _ _ h

theorem inhabits_set {t : TsType} : Inhabits D ln (.app [lit "Set"] [t]) v ↔
    ∃ l, v = .set l ∧ ∀ x ∈ l, Inhabits D ln t x := by
  constructor
  · generalize he : TsType.app [lit "Set"] [t] = T
    intro h
    cases h <;> try cases he
    rename_i l h
    exact ⟨l, rfl, h⟩
  · rintro ⟨l, rfl, h⟩; exact .set _ _ h

theorem inhabits_map {t u : TsType} : Inhabits D ln (.app [lit "Map"] [t, u]) v ↔
    ∃ l, v = .map l ∧ (∀ p ∈ l, Inhabits D ln t p.1) ∧ ∀ p ∈ l, Inhabits D ln u p.2 := by
  constructor
  · generalize he : TsType.app [lit "Map"] [t, u] = T
    intro h
    cases h <;> try cases he
    rename_i l h1 h2
    exact ⟨l, rfl, h1, h2⟩
  · rintro ⟨l, rfl, h1, h2⟩; exact .map _ _ _ h1 h2

theorem inhabits_tuple {ts : List TsType} : Inhabits D ln (.tuple ts) v ↔
    ∃ l, v = .arr l ∧ l.length = ts.length ∧
      ∀ (i : Nat) t x, ts[i]? = some t → l[i]? = some x → Inhabits D ln t x := by
  constructor
  · intro h; cases h with | tuple _ l h1 h2 => exact ⟨l, rfl, h1, h2⟩
  · rintro ⟨l, rfl, h1, h2⟩; exact .tuple _ _ h1 h2

theorem inhabits_obj {ps : List (Str × Bool × TsType)} : Inhabits D ln (.obj ps) v ↔
    ∃ kvs, v = .obj kvs ∧ ∀ p ∈ ps, (objHas kvs p.1 = true → Inhabits D ln p.2.2 (objGet kvs p.1)) ∧
      (objHas kvs p.1 = false → p.2.1 = false → ln = true ∧ Inhabits D ln p.2.2 .undefined) := by
  constructor
  · intro h
    cases h with
    | obj _ kvs h1 h2 h3 => exact ⟨kvs, rfl, fun p hp => ⟨h1 p hp, fun a b => ⟨h2 p hp a b, h3 p hp a b⟩⟩⟩
  · rintro ⟨kvs, rfl, h⟩
    exact .obj _ _ (fun p hp => (h p hp).1) (fun p hp a b => ((h p hp).2 a b).1) (fun p hp a b => ((h p hp).2 a b).2)

theorem inhabits_undefined : Inhabits D ln undefinedT v ↔ v = .undefined := by
  unfold undefinedT
  constructor
  · generalize he : TsType.name [lit "undefined"] = T
    intro h
    cases h <;> first
      | rfl
      | (cases he; done)
      | (injection he with he; injection he with he he'; first | (cases he'; done) | exact absurd he (by decide))
  · rintro rfl; exact .undefined

/-! ## Types with the same values -/

theorem same_refl (T : TsType) : SameValues T T := fun _ _ _ => Iff.rfl

theorem SameValues.symm {T U : TsType} (h : SameValues T U) : SameValues U T := fun D l v => (h D l v).symm

theorem SameValues.trans {T U V : TsType} (h : SameValues T U) (h' : SameValues U V) : SameValues T V :=
  fun D l v => (h D l v).trans (h' D l v)

theorem same_array {T U : TsType} (h : SameValues T U) :
    SameValues (.app [lit "Array"] [T]) (.app [lit "Array"] [U]) := fun D l v => by
  simp only [inhabits_array, h D l]

theorem same_set {T U : TsType} (h : SameValues T U) :
    SameValues (.app [lit "Set"] [T]) (.app [lit "Set"] [U]) := fun D l v => by
  simp only [inhabits_set, h D l]

theorem same_map {T U T' U' : TsType} (h : SameValues T U) (h' : SameValues T' U') :
    SameValues (.app [lit "Map"] [T, T']) (.app [lit "Map"] [U, U']) := fun D l v => by
  simp only [inhabits_map, h D l, h' D l]

theorem All2.get {α β : Type} {R : α → β → Prop} {l : List α} {r : List β} (h : All2 R l r) {i : Nat} {a : α} {b : β}
    (ha : l[i]? = some a) (hb : r[i]? = some b) : R a b := by
  induction h generalizing i with
  | nil => cases ha
  | cons h1 _ ih =>
    cases i with
    | zero =>
      simp only [List.getElem?_cons_zero, Option.some.injEq] at ha hb
      exact ha ▸ hb ▸ h1
    | succ i => exact ih (by simpa using ha) (by simpa using hb)

theorem All2.symm {α β : Type} {R : α → β → Prop} {S : β → α → Prop} (hRS : ∀ a b, R a b → S b a) {l : List α}
    {r : List β} (h : All2 R l r) : All2 S r l := by
  induction h with
  | nil => exact .nil
  | cons h1 _ ih => exact .cons (hRS _ _ h1) ih

theorem same_tuple {Ts Us : List TsType} (h : All2 SameValues Ts Us) : SameValues (.tuple Ts) (.tuple Us) := by
  have one : ∀ {Ts Us : List TsType}, All2 SameValues Ts Us → ∀ D l v, Inhabits D l (.tuple Ts) v →
      Inhabits D l (.tuple Us) v := by
    intro Ts Us h D l v hv
    rw [inhabits_tuple] at hv ⊢
    obtain ⟨vs, rfl, hl, he⟩ := hv
    refine ⟨vs, rfl, hl.trans (All2.length h), fun i t x ht hx => ?_⟩
    have hi : i < Ts.length := by
      have := (List.getElem?_eq_some_iff.1 ht).1
      rwa [(All2.length h)]
    obtain ⟨t', ht'⟩ : ∃ t', Ts[i]? = some t' := ⟨_, List.getElem?_eq_getElem hi⟩
    exact (All2.get h ht' ht D l x).1 (he i t' x ht' hx)
  exact fun D l v => ⟨one h D l v, one (All2.symm (fun _ _ h => SameValues.symm h) h) D l v⟩

/-- Properties with the same values. -/
def SameProp (p q : Str × Bool × TsType) : Prop := p.1 = q.1 ∧ p.2.1 = q.2.1 ∧ SameValues p.2.2 q.2.2

theorem same_obj {ps qs : List (Str × Bool × TsType)} (h : All2 SameProp ps qs) : SameValues (.obj ps) (.obj qs) := by
  have one : ∀ {ps qs : List (Str × Bool × TsType)}, All2 SameProp ps qs → ∀ D l v, Inhabits D l (.obj ps) v →
      Inhabits D l (.obj qs) v := by
    intro ps qs h D l v hv
    rw [inhabits_obj] at hv ⊢
    obtain ⟨kvs, rfl, hk⟩ := hv
    refine ⟨kvs, rfl, fun q hq => ?_⟩
    obtain ⟨p, hp, e1, e2, e3⟩ := All2.mem_right h hq
    have := hk p hp
    rw [e1, e2, e3 D l, e3 D l] at this
    exact this
  exact fun D l v => ⟨one h D l v, one (All2.symm (fun _ _ h => ⟨h.1.symm, h.2.1.symm, SameValues.symm h.2.2⟩) h) D l v⟩

theorem same_union {Ts Us : List TsType} (h : All2 SameValues Ts Us) : SameValues (.union Ts) (.union Us) := by
  intro D l v
  simp only [inhabits_union]
  constructor
  · rintro ⟨t, ht, hv⟩
    obtain ⟨u, hu, e⟩ := All2.mem_left h ht
    exact ⟨u, hu, (e D l v).1 hv⟩
  · rintro ⟨t, ht, hv⟩
    obtain ⟨u, hu, e⟩ := All2.mem_right h ht
    exact ⟨u, hu, (e D l v).2 hv⟩

theorem same_inter {Ts Us : List TsType} (h : All2 SameValues Ts Us) : SameValues (.inter Ts) (.inter Us) := by
  intro D l v
  simp only [inhabits_inter]
  constructor
  · intro hv u hu
    obtain ⟨t, ht, e⟩ := All2.mem_right h hu
    exact (e D l v).1 (hv t ht)
  · intro hv u hu
    obtain ⟨t, ht, e⟩ := All2.mem_left h hu
    exact (e D l v).2 (hv t ht)

/-- Alternatives of alternatives. -/
theorem same_flatten (ds : List Dnf) : SameValues (ofDnf ds.flatten) (.union (ds.map ofDnf)) := by
  intro D l v
  rw [inhabits_dnf, inhabits_union]
  constructor
  · rintro ⟨c, hc, h⟩
    obtain ⟨d, hd, hc⟩ := List.mem_flatten.1 hc
    exact ⟨_, List.mem_map.2 ⟨d, hd, rfl⟩, inhabits_dnf.2 ⟨c, hc, h⟩⟩
  · rintro ⟨t, ht, h⟩
    obtain ⟨d, hd, rfl⟩ := List.mem_map.1 ht
    obtain ⟨c, hc, h⟩ := inhabits_dnf.1 h
    exact ⟨c, List.mem_flatten.2 ⟨d, hd, hc⟩, h⟩

theorem same_append (d e : Dnf) : SameValues (ofDnf (d ++ e)) (.union [ofDnf d, ofDnf e]) := by
  have := same_flatten [d, e]
  simpa using this

/-- A single group. -/
theorem same_and {c : List TsType} (cs : List (List TsType)) :
    SameValues (ofDnf ((cs.map (fun c => [c])).foldl andDnf [c])) (.inter (ofConj c :: cs.map ofConj)) := by
  have : (cs.map (fun c => [c])).foldl andDnf [c] = [c ++ cs.flatten] := by
    induction cs generalizing c with
    | nil => simp
    | cons a cs ih => simp [andDnf, ih]
  intro D l v
  rw [this, inhabits_dnf, inhabits_inter]
  simp only [List.mem_singleton, exists_eq_left]
  simp only [List.mem_append, List.mem_flatten, List.mem_cons, List.mem_map]
  constructor
  · rintro h t (rfl | ⟨c', hc', rfl⟩)
    · exact inhabits_conj.2 fun t ht => h t (Or.inl ht)
    · exact inhabits_conj.2 fun t ht => h t (Or.inr ⟨c', hc', ht⟩)
  · rintro h t (ht | ⟨c', hc', ht⟩)
    · exact inhabits_conj.1 (h _ (Or.inl rfl)) t ht
    · exact inhabits_conj.1 (h _ (Or.inr ⟨c', hc', rfl⟩)) t ht

end Verif.Ts
