import Verif.Spec.Evolve
import Verif.Zod.Sent
import Verif.Zod.Total
import Verif.Zod.Unwrap

/-!
# New fields and the meaning of schemas

Schemas of a program and of the program with new fields give the same results for values without properties of these names.
-/

namespace Verif.Zod
open Verif Verif.Js Verif.Schema Verif.Spec Verif.SchemaSpec

variable {K : Str → Prop}

theorem lacks_get {kvs : List (Str × JsVal)} (h : Lacks K (.obj kvs)) (k : Str) : Lacks K (objGet kvs k) := by
  cases h with
  | obj _ _ h =>
    rcases objGet_cases kvs k with ⟨e, _⟩ | ⟨p, hp, _, e⟩
    · rw [e]; exact .undefined
    · rw [e]; exact h p hp

theorem lacks_absent {kvs : List (Str × JsVal)} (h : Lacks K (.obj kvs)) {k : Str} (hk : K k) :
    objGet kvs k = .undefined ∧ objHas kvs k = false := by
  cases h with
  | obj _ h _ =>
    rcases objGet_cases kvs k with h' | ⟨p, hp, rfl, _⟩
    · exact h'
    · exact absurd hk (h p hp)

theorem lacks_inherited (K : Str → Prop) : Inherited (Lacks K) where
  arr l h := by cases h with | arr _ h => exact h
  set l h := by cases h with | set _ h => exact h
  key l h := by cases h with | map _ h _ => exact h
  val l h := by cases h with | map _ _ h => exact h
  get kvs h k := lacks_get h k

/-! ## Objects with new keys -/

/-- The entries of a shape and of the shape with new keys: the old schema, if there is one, and the new one. -/
abbrev Entries := List (Str × Option ZSchema × ZSchema)

/-- The properties before. -/
def oldShape : Entries → List (Str × ZSchema)
  | [] => []
  | (k, some a, _) :: r => (k, a) :: oldShape r
  | (_, none, _) :: r => oldShape r

/-- The properties after. -/
def newShape (l : Entries) : List (Str × ZSchema) := l.map (fun p => (p.1, p.2.2))

theorem mem_oldShape {l : Entries} {k : Str} {a : ZSchema} (h : (k, a) ∈ oldShape l) : ∃ b, (k, some a, b) ∈ l := by
  induction l with
  | nil => cases h
  | cons p r ih =>
    obtain ⟨k', o, b⟩ := p
    cases o with
    | none =>
      obtain ⟨b, hb⟩ := ih h
      exact ⟨b, List.mem_cons_of_mem _ hb⟩
    | some a' =>
      rcases List.mem_cons.1 h with e | h
      · cases e; exact ⟨b, List.mem_cons_self⟩
      · obtain ⟨b, hb⟩ := ih h
        exact ⟨b, List.mem_cons_of_mem _ hb⟩

theorem oldShape_mem {l : Entries} {k : Str} {a b : ZSchema} (h : (k, some a, b) ∈ l) : (k, a) ∈ oldShape l := by
  induction l with
  | nil => cases h
  | cons p r ih =>
    rcases List.mem_cons.1 h with rfl | h'
    · exact List.mem_cons_self
    · obtain ⟨k', o, b'⟩ := p
      cases o with
      | none => exact ih h'
      | some a' => exact List.mem_cons_of_mem _ (ih h')

/-- The result for an object, from the results for its entries. -/
def shapeRes (kvs : List (Str × JsVal)) (f : Str × ZSchema → Res JsVal) (sh : List (Str × ZSchema)) : Res (List (Str × JsVal)) :=
  (allRes (sh.map f)).map (·.map (mkObj kvs (sh.map (·.1))))

theorem shapeRes_cons (kvs : List (Str × JsVal)) (f : Str × ZSchema → Res JsVal) (p : Str × ZSchema) (r : List (Str × ZSchema)) :
    shapeRes kvs f (p :: r) = match f p, shapeRes kvs f r with
      | some x, some y => some (match x, y with
        | some v, some o => some ((if objHas kvs p.1 || (match v with | .undefined => false | _ => true) then [(p.1, v)] else []) ++ o)
        | _, _ => none)
      | _, _ => none := by
  unfold shapeRes
  rw [List.map_cons, List.map_cons]
  generalize f p = fp
  cases fp with
  | none => rfl
  | some x =>
    rw [allRes]
    generalize allRes (r.map f) = fr
    cases fr with
    | none => rfl
    | some y =>
      cases x with
      | none => cases y <;> rfl
      | some v =>
        cases y with
        | none => rfl
        | some vs =>
          simp only [Option.map_some, mkObj, List.zip_cons_cons, List.filter_cons]
          cases v <;> cases objHas kvs p.1 <;> rfl

theorem shapeRes_grown {kvs : List (Str × JsVal)} {f g : Str × ZSchema → Res JsVal} (l : Entries)
    (hs : ∀ p ∈ l, ∀ a, p.2.1 = some a → f (p.1, a) = g (p.1, p.2.2))
    (hn : ∀ p ∈ l, p.2.1 = none → g (p.1, p.2.2) = some (some .undefined) ∧ objHas kvs p.1 = false) :
    shapeRes kvs f (oldShape l) = shapeRes kvs g (newShape l) := by
  induction l with
  | nil => rfl
  | cons p r ih =>
    have ih := ih (fun q hq => hs q (List.mem_cons_of_mem _ hq)) (fun q hq => hn q (List.mem_cons_of_mem _ hq))
    obtain ⟨k, o, b⟩ := p
    cases o with
    | some a =>
      have h := hs _ List.mem_cons_self a rfl
      show shapeRes kvs f ((k, a) :: oldShape r) = shapeRes kvs g ((k, b) :: newShape r)
      rw [shapeRes_cons, shapeRes_cons, ih, h]
    | none =>
      have h := hn _ List.mem_cons_self rfl
      show shapeRes kvs f (oldShape r) = shapeRes kvs g ((k, b) :: newShape r)
      rw [shapeRes_cons, ih]
      simp only at h
      rw [h.1]
      cases shapeRes kvs g (newShape r) with
      | none => rfl
      | some y =>
        cases y with
        | none => rfl
        | some o => simp [h.2]

theorem parse_shape (E : ZEnv) (n : Nat) (sh : List (Str × ZSchema)) (kvs : List (Str × JsVal)) :
    parse E (n + 1) (.object sh) (.obj kvs) = (shapeRes kvs (fun p => parse E n p.2 (objGet kvs p.1)) sh).map (·.map .obj) := by
  rw [parse, shapeRes]
  cases allRes (sh.map (fun p => parse E n p.2 (objGet kvs p.1))) with
  | none => rfl
  | some y => cases y <;> rfl

theorem allRes_runs {α β : Type} {f : α → Res β} {l : List α} {y : Option (List β)} (h : allRes (l.map f) = some y) :
    ∀ a ∈ l, ∃ x, f a = some x := by
  induction l generalizing y with
  | nil => intro a ha; cases ha
  | cons a r ih =>
    rw [List.map_cons] at h
    cases h1 : f a with
    | none => rw [h1] at h; cases h
    | some x =>
      rw [h1, allRes] at h
      cases h2 : allRes (r.map f) with
      | none => rw [h2] at h; cases h
      | some y =>
        intro b hb
        rcases List.mem_cons.1 hb with rfl | hb
        · exact ⟨x, h1⟩
        · exact ih h2 b hb

theorem shapeRes_runs {kvs : List (Str × JsVal)} {f : Str × ZSchema → Res JsVal} {sh : List (Str × ZSchema)}
    {y : Option (List (Str × JsVal))} (h : shapeRes kvs f sh = some y) : ∀ p ∈ sh, ∃ x, f p = some x := by
  unfold shapeRes at h
  cases h1 : allRes (sh.map f) with
  | none => rw [h1] at h; cases h
  | some y => exact allRes_runs h1

/-- A number of steps that is enough for all elements. -/
theorem steps_all {α : Type} {C : Nat → α → Prop} (mono : ∀ a n m, n ≤ m → C n a → C m a) (l : List α) (h : ∀ a ∈ l, ∃ n, C n a) :
    ∃ n, ∀ a ∈ l, C n a := by
  induction l with
  | nil => exact ⟨0, fun a ha => by cases ha⟩
  | cons a r ih =>
    obtain ⟨n, hn⟩ := h a List.mem_cons_self
    obtain ⟨m, hm⟩ := ih (fun b hb => h b (List.mem_cons_of_mem _ hb))
    refine ⟨max n m, fun b hb => ?_⟩
    rcases List.mem_cons.1 hb with rfl | hb
    · exact mono _ _ _ (Nat.le_max_left _ _) hn
    · exact mono _ _ _ (Nat.le_max_right _ _) (hm b hb)

/-! ## Schemas with new keys -/

/-- How a program grows: by fields with a default, by these and variants, or by any fields. -/
inductive Growth where
  | fields | variants | any

/-- Whether new fields may be required. -/
def Growth.req : Growth → Bool
  | .any => true
  | _ => false


/-- The second schema is the first one with new optional keys in `K`, and depending on `gr`, with new alternatives in unions or new keys that are not optional.
`Q` tells which names may be referred to. -/
inductive Grown (gr : Growth) (Q : Str → Str → Prop) (K : Str → Prop) : ZSchema → ZSchema → Prop where
  | cong {z z' : ZSchema} : Cong (Grown gr Q K) z z' → Grown gr Q K z z'
  | lazy (ns name : Str) : Q ns name → Grown gr Q K (.lazy ns name) (.lazy ns name)
  | object (l : Entries) : (l.map (·.1)).Nodup → (∀ p ∈ l, ∀ a, p.2.1 = some a → Grown gr Q K a p.2.2) →
      (∀ p ∈ l, p.2.1 = none → K p.1 ∧ (gr = .any ∨ ∃ b, p.2.2 = .optional b)) → Grown gr Q K (.object (oldShape l)) (.object (newShape l))
  | union (ps : List (ZSchema × ZSchema)) (zs : List ZSchema) : gr = .variants → (∀ p ∈ ps, Grown gr Q K p.1 p.2) →
      (∀ p ∈ ps, p.2 ∈ zs) → Grown gr Q K (.union (ps.map (·.1))) (.union zs)
  | one {a b : ZSchema} (zs : List ZSchema) : gr = .variants → b ∈ zs → Grown gr Q K a b → Grown gr Q K a (.union zs)
  | disc (tag : Str) (ps : List (Str × ZSchema × ZSchema)) (l : List (Str × ZSchema)) : gr = .variants →
      (∀ p ∈ ps, Grown gr Q K p.2.1 p.2.2) → (∀ p ∈ ps, l.find? (fun q => decide (q.1 = p.1)) = some (p.1, p.2.2)) →
      Grown gr Q K (.discUnion tag (ps.map (fun p => (p.1, p.2.1)))) (.discUnion tag l)
  | oneDisc {a b : ZSchema} (tag s : Str) (l : List (Str × ZSchema)) : gr = .variants → discriminator tag a = some s →
      l.find? (fun q => decide (q.1 = s)) = some (s, b) → Grown gr Q K a b → Grown gr Q K a (.discUnion tag l)

/-- What is referred to is related in the same way. -/
def LinkedGrown (gr : Growth) (Q : Str → Str → Prop) (K : Str → Prop) (E E' : ZEnv) : Prop :=
  ∀ ns name, Q ns name → ∃ a b, E.const ns name = some a ∧ E'.const ns name = some b ∧ Grown gr Q K a b

variable {gr : Growth} {Q : Str → Str → Prop} {E E' : ZEnv}

theorem grown_forward (hL : LinkedGrown .fields Q K E E') (n : Nat) : ∀ z z', Grown .fields Q K z z' → ∀ v x, Lacks K v → parse E n z v = some x →
    ∃ n', parse E' n' z' v = some x := by
  induction n with
  | zero => intro z z' _ v x _ h; cases h
  | succ n ih =>
    intro z z' h v x hv hx
    cases h with
    | cong h => exact cong_parse_on (lacks_inherited K) h ih v x hv hx
    | lazy ns name hq =>
      obtain ⟨a, b, ha, hb, hab⟩ := hL ns name hq
      rw [parse, ha] at hx
      obtain ⟨n', h'⟩ := ih a b hab v x hv hx
      exact ⟨n' + 1, by rw [parse, hb]; exact h'⟩
    | object l nd hs hn =>
      cases v with
      | obj kvs =>
        rw [parse_shape] at hx
        cases hr : shapeRes kvs (fun p => parse E n p.2 (objGet kvs p.1)) (oldShape l) with
        | none => rw [hr] at hx; cases hx
        | some y =>
          obtain ⟨m, hm⟩ := steps_all (C := fun m (p : Str × Option ZSchema × ZSchema) => ∀ a, p.2.1 = some a →
              ∃ x, parse E n a (objGet kvs p.1) = some x ∧ parse E' m p.2.2 (objGet kvs p.1) = some x)
            (fun p n m hnm h a e => by obtain ⟨x, h1, h2⟩ := h a e; exact ⟨x, h1, parse_mono hnm h2⟩) l
            (by
              rintro ⟨k, o, b⟩ hp
              cases o with
              | none => exact ⟨0, fun a e => by cases e⟩
              | some a =>
                obtain ⟨x, hx⟩ := shapeRes_runs hr _ (oldShape_mem hp)
                obtain ⟨m, hm⟩ := ih a b (hs _ hp a rfl) _ x (lacks_get hv k) hx
                exact ⟨m, fun a' e => by cases e; exact ⟨x, hx, hm⟩⟩)
          refine ⟨m + 1 + 1, ?_⟩
          rw [parse_shape, ← shapeRes_grown (f := fun p => parse E n p.2 (objGet kvs p.1)) l, hx]
          · intro p hp a e
            obtain ⟨x, h1, h2⟩ := hm p hp a e
            simp only [h1, parse_mono (Nat.le_succ m) h2]
          · intro p hp e
            obtain ⟨hk, hc⟩ := hn p hp e
            obtain ⟨b, hb⟩ := hc.resolve_left nofun
            obtain ⟨h1, h2⟩ := lacks_absent hv hk
            refine ⟨?_, h2⟩
            simp only [hb, h1]
            rfl
      | _ => exact ⟨1, hx⟩
    | union _ _ h => cases h
    | one _ h => cases h
    | disc _ _ _ h => cases h
    | oneDisc _ _ _ h => cases h

theorem grown_backward (hL : LinkedGrown .fields Q K E E') (n : Nat) : ∀ z' z, Grown .fields Q K z z' → ∀ v x, Lacks K v →
    parse E' n z' v = some x → ∃ n', parse E n' z v = some x := by
  induction n with
  | zero => intro z z' _ v x _ h; cases h
  | succ n ih =>
    intro z' z h v x hv hx
    cases h with
    | cong h => exact cong_parse_on (lacks_inherited K) h.symm ih v x hv hx
    | lazy ns name hq =>
      obtain ⟨a, b, ha, hb, hab⟩ := hL ns name hq
      rw [parse, hb] at hx
      obtain ⟨n', h'⟩ := ih b a hab v x hv hx
      exact ⟨n' + 1, by rw [parse, ha]; exact h'⟩
    | object l nd hs hn =>
      cases v with
      | obj kvs =>
        rw [parse_shape] at hx
        cases hr : shapeRes kvs (fun p => parse E' n p.2 (objGet kvs p.1)) (newShape l) with
        | none => rw [hr] at hx; cases hx
        | some y =>
          obtain ⟨m, hm⟩ := steps_all (C := fun m (p : Str × Option ZSchema × ZSchema) => ∀ a, p.2.1 = some a →
              ∃ x, parse E' n p.2.2 (objGet kvs p.1) = some x ∧ parse E m a (objGet kvs p.1) = some x)
            (fun p n m hnm h a e => by obtain ⟨x, h1, h2⟩ := h a e; exact ⟨x, h1, parse_mono hnm h2⟩) l
            (by
              rintro ⟨k, o, b⟩ hp
              cases o with
              | none => exact ⟨0, fun a e => by cases e⟩
              | some a =>
                obtain ⟨x, hx⟩ := shapeRes_runs hr (k, b) (List.mem_map.2 ⟨_, hp, rfl⟩)
                obtain ⟨m, hm⟩ := ih b a (hs _ hp a rfl) _ x (lacks_get hv k) hx
                exact ⟨m, fun a' e => by cases e; exact ⟨x, hx, hm⟩⟩)
          refine ⟨m + 1, ?_⟩
          rw [parse_shape, shapeRes_grown (g := fun p => parse E' n p.2 (objGet kvs p.1)) l, hx]
          · intro p hp a e
            obtain ⟨x, h1, h2⟩ := hm p hp a e
            simp only [h1, h2]
          · intro p hp e
            obtain ⟨hk, hc⟩ := hn p hp e
            obtain ⟨b, hb⟩ := hc.resolve_left nofun
            obtain ⟨h1, h2⟩ := lacks_absent hv hk
            refine ⟨?_, h2⟩
            obtain ⟨x, hx⟩ := shapeRes_runs hr (p.1, p.2.2) (List.mem_map.2 ⟨_, hp, rfl⟩)
            simp only [hb, h1] at hx ⊢
            cases n with
            | zero => cases hx
            | succ n => rfl
      | _ => exact ⟨1, hx⟩
    | union _ _ h => cases h
    | one _ h => cases h
    | disc _ _ _ h => cases h
    | oneDisc _ _ _ h => cases h

theorem grown_parse (hL : LinkedGrown .fields Q K E E') {z z' : ZSchema} (h : Grown .fields Q K z z') {v : JsVal} (hv : Lacks K v) (x : Option JsVal) :
    (∃ n, parse E n z v = some x) ↔ ∃ n, parse E' n z' v = some x :=
  ⟨fun ⟨n, hn⟩ => grown_forward hL n z z' h v x hv hn, fun ⟨n, hn⟩ => grown_backward hL n z' z h v x hv hn⟩

/-! ## Shapes of programs with new fields -/

/-- The properties of an object, and those of the object with new ones. -/
inductive MoreEntries (gr : Growth) (K : Str → Prop) (R : ZSchema → ZSchema → Prop) : List (Str × Option ZSchema) → List (Str × Option ZSchema) → Prop where
  | nil : MoreEntries gr K R [] []
  | same (k : Str) {a b : Option ZSchema} {l l' : List (Str × Option ZSchema)} : (∀ z z', a = some z → b = some z' → R z z') →
      MoreEntries gr K R l l' → MoreEntries gr K R ((k, a) :: l) ((k, b) :: l')
  | new (k : Str) {b : Option ZSchema} {l l' : List (Str × Option ZSchema)} : K k → (∀ z, b = some z → gr = .any ∨ ∃ c, z = .optional c) →
      MoreEntries gr K R l l' → MoreEntries gr K R l ((k, b) :: l')

theorem moreEntries_pairs {R : ZSchema → ZSchema → Prop} {l l' : List (Str × Option ZSchema)} (h : MoreEntries gr K R l l') :
    ∀ {zs zs' : List ZSchema}, allSome (l.map (·.2)) = some zs → allSome (l'.map (·.2)) = some zs' →
    ∃ ts : Entries, (l.map (·.1)).zip zs = oldShape ts ∧ (l'.map (·.1)).zip zs' = newShape ts ∧ ts.map (·.1) = l'.map (·.1) ∧
      (∀ p ∈ ts, ∀ a, p.2.1 = some a → R a p.2.2) ∧ (∀ p ∈ ts, p.2.1 = none → K p.1 ∧ (gr = .any ∨ ∃ b, p.2.2 = .optional b)) := by
  induction h with
  | nil =>
    intro zs zs' h1 h2
    cases h1; cases h2
    exact ⟨[], rfl, rfl, rfl, (fun p hp => by cases hp), (fun p hp => by cases hp)⟩
  | @same k a b l l' hR _ ih =>
    intro zs zs' h1 h2
    rw [List.map_cons] at h1 h2
    cases a with
    | none => cases h1
    | some a =>
      cases b with
      | none => cases h2
      | some b =>
        rw [allSome] at h1 h2
        cases e1 : allSome (l.map (·.2)) with
        | none => rw [e1] at h1; cases h1
        | some y =>
          cases e2 : allSome (l'.map (·.2)) with
          | none => rw [e2] at h2; cases h2
          | some y' =>
            rw [e1] at h1; rw [e2] at h2
            cases h1; cases h2
            obtain ⟨ts, t1, t2, t3, t4, t5⟩ := ih e1 e2
            refine ⟨(k, some a, b) :: ts, ?_, ?_, ?_, ?_, ?_⟩
            · rw [List.map_cons, List.zip_cons_cons, t1]; rfl
            · rw [List.map_cons, List.zip_cons_cons, t2]; rfl
            · rw [List.map_cons, List.map_cons, t3]
            · intro p hp
              rcases List.mem_cons.1 hp with rfl | hp
              · intro a' e; cases e; exact hR a b rfl rfl
              · exact t4 p hp
            · intro p hp
              rcases List.mem_cons.1 hp with rfl | hp
              · intro e; cases e
              · exact t5 p hp
  | @new k b l l' hk ho _ ih =>
    intro zs zs' h1 h2
    rw [List.map_cons] at h2
    cases b with
    | none => cases h2
    | some b =>
      rw [allSome] at h2
      cases e2 : allSome (l'.map (·.2)) with
      | none => rw [e2] at h2; cases h2
      | some y' =>
        rw [e2] at h2
        cases h2
        obtain ⟨ts, t1, t2, t3, t4, t5⟩ := ih h1 e2
        refine ⟨(k, none, b) :: ts, t1, ?_, ?_, ?_, ?_⟩
        · rw [List.map_cons, List.zip_cons_cons, t2]; rfl
        · rw [List.map_cons, List.map_cons, t3]
        · intro p hp
          rcases List.mem_cons.1 hp with rfl | hp
          · intro a e; cases e
          · exact t4 p hp
        · intro p hp
          rcases List.mem_cons.1 hp with rfl | hp
          · intro _; exact ⟨hk, ho b rfl⟩
          · exact t5 p hp

theorem objZ_nodup {l : List (Str × Option ZSchema)} {z : ZSchema} (h : objZ l = some z) : (l.map (·.1)).Nodup := by
  unfold objZ at h
  split at h
  · split at h
    · rename_i hd
      rw [Bool.and_eq_true] at hd
      exact (distinct_iff _).1 hd.1
    · cases h
  · cases h

theorem objZ_grown {l l' : List (Str × Option ZSchema)} (h : MoreEntries gr K (Grown gr Q K) l l') {z z' : ZSchema} (hz : objZ l = some z)
    (hz' : objZ l' = some z') : Grown gr Q K z z' := by
  obtain ⟨zs, h1, rfl⟩ := objZ_eq hz
  obtain ⟨zs', h1', rfl⟩ := objZ_eq hz'
  obtain ⟨ts, e1, e2, e3, h2, h3⟩ := moreEntries_pairs h h1 h1'
  rw [e1, e2]
  exact .object ts (by rw [e3]; exact objZ_nodup hz') h2 h3

theorem moreEntries_map {α : Type} {R : ZSchema → ZSchema → Prop} {k : α → Str} {f g : α → Option ZSchema} (l : List α)
    (h : ∀ a ∈ l, ∀ z z', f a = some z → g a = some z' → R z z') :
    MoreEntries gr K R (l.map (fun a => (k a, f a))) (l.map (fun a => (k a, g a))) := by
  induction l with
  | nil => exact .nil
  | cons a r ih => exact .same _ (h a List.mem_cons_self) (ih (fun b hb => h b (List.mem_cons_of_mem _ hb)))

theorem grown_literal {z z' : ZSchema} {s : Str} (h : Grown gr Q K z z') (e : z' = .literal s) : z = .literal s := by
  cases h with
  | cong h => cases h <;> cases e; rfl
  | _ => cases e

theorem entries_unique {l : Entries} (nd : (l.map (·.1)).Nodup) {p q : Str × Option ZSchema × ZSchema} (hp : p ∈ l) (hq : q ∈ l)
    (e : p.1 = q.1) : p = q := by
  induction l with
  | nil => cases hp
  | cons a r ih =>
    rw [List.map_cons, List.nodup_cons] at nd
    rcases List.mem_cons.1 hp with rfl | hp'
    · rcases List.mem_cons.1 hq with rfl | hq'
      · rfl
      · exact absurd (List.mem_map.2 ⟨q, hq', e.symm⟩) nd.1
    · rcases List.mem_cons.1 hq with rfl | hq'
      · exact absurd (List.mem_map.2 ⟨p, hp', e⟩) nd.1
      · exact ih nd.2 hp' hq'

/-- Where `discriminator` finds the literal. -/
theorem discriminator_mem {t s : Str} {z : ZSchema} (h : discriminator t z = some s) :
    ∃ sh, z = .object sh ∧ (t, .literal s) ∈ sh ∧ sh.find? (fun p => decide (p.1 = t)) = some (t, .literal s) := by
  cases z with
  | object sh =>
    refine ⟨sh, rfl, ?_⟩
    simp only [discriminator] at h
    cases hf : sh.find? (fun p => decide (p.1 = t)) with
    | none => rw [hf] at h; cases h
    | some p =>
      obtain ⟨k, w⟩ := p
      have hk := List.find?_some hf
      have hm := List.mem_of_find?_eq_some hf
      simp only [decide_eq_true_eq] at hk
      subst hk
      rw [hf] at h
      cases w with
      | literal s' => cases h; exact ⟨hm, rfl⟩
      | _ => cases h
  | _ => cases h

theorem oldShape_keys {l : Entries} {k : Str} (h : k ∈ (oldShape l).map (·.1)) : k ∈ l.map (·.1) := by
  obtain ⟨p, hp, rfl⟩ := List.mem_map.1 h
  obtain ⟨b, hb⟩ := mem_oldShape hp
  exact List.mem_map.2 ⟨_, hb, rfl⟩

theorem oldShape_nodup {l : Entries} (nd : (l.map (·.1)).Nodup) : ((oldShape l).map (·.1)).Nodup := by
  induction l with
  | nil => exact .nil
  | cons p r ih =>
    obtain ⟨k, o, b⟩ := p
    rw [List.map_cons, List.nodup_cons] at nd
    cases o with
    | none => exact ih nd.2
    | some a =>
      show (((k, a) :: oldShape r).map (·.1)).Nodup
      rw [List.map_cons, List.nodup_cons]
      exact ⟨fun h => nd.1 (oldShape_keys h), ih nd.2⟩

theorem find_nodup {α : Type} {l : List (Str × α)} (nd : (l.map (·.1)).Nodup) {k : Str} {a : α} (h : (k, a) ∈ l) :
    l.find? (fun p => decide (p.1 = k)) = some (k, a) := by
  induction l with
  | nil => cases h
  | cons p r ih =>
    rw [List.map_cons, List.nodup_cons] at nd
    rw [List.find?_cons]
    rcases List.mem_cons.1 h with rfl | h'
    · simp
    · have : p.1 ≠ k := fun e => nd.1 (List.mem_map.2 ⟨_, h', e.symm⟩)
      simp only [this, decide_false]
      exact ih nd.2 h'

/-- A schema with the literal of a tag has grown from one with the same. -/
theorem grown_discriminator {t : Str} {z z' : ZSchema} {s : Str} (hg : gr ≠ .any) (h : Grown gr Q K z z') (hz' : discriminator t z' = some s) :
    discriminator t z = some s := by
  obtain ⟨sh', rfl, hm', hf'⟩ := discriminator_mem hz'
  have key : ∀ (z z' : ZSchema), Grown gr Q K z z' → z' = .object sh' → discriminator t z = some s := by
    intro z z' h e'
    cases h with
    | cong h =>
      cases h with
      | object l hl =>
        cases e'
        rcases find_pairs (l := l) (s := t) with ⟨p, hp, h1, h2⟩ | ⟨h1, h2⟩
        · rw [h2] at hf'
          have hr := hl p hp
          obtain ⟨k, a, b⟩ := p
          cases hf'
          have := grown_literal hr rfl
          simp only at this
          subst this
          simp only [discriminator, h1]
        · rw [h2] at hf'; cases hf'
      | _ => cases e'
    | object l nd hs hn =>
      cases e'
      obtain ⟨q, hq, e⟩ := List.mem_map.1 hm'
      obtain ⟨k, o, b'⟩ := q
      cases e
      cases o with
      | none =>
        obtain ⟨_, hc⟩ := hn _ hq rfl
        obtain ⟨b, hb⟩ := hc.resolve_left hg
        cases hb
      | some a =>
        have := grown_literal (hs _ hq _ rfl) rfl
        subst this
        have hf := find_nodup (oldShape_nodup nd) (oldShape_mem hq)
        simp only [discriminator, hf]
    | _ => cases e'
  exact key _ _ h rfl

/-- If both have a literal for the tag, it is the same. -/
theorem grown_same_tag {t : Str} {z z' : ZSchema} {s s' : Str} (h : Grown gr Q K z z') (hz : discriminator t z = some s)
    (hz' : discriminator t z' = some s') : s' = s := by
  obtain ⟨sh, rfl, hm, hf⟩ := discriminator_mem hz
  obtain ⟨sh', rfl, hm', hf'⟩ := discriminator_mem hz'
  have key : ∀ (z z' : ZSchema), Grown gr Q K z z' → z = .object sh → z' = .object sh' → s' = s := by
    intro z z' h e e'
    cases h with
    | cong h =>
      cases h with
      | object l hl =>
        cases e; cases e'
        rcases find_pairs (l := l) (s := t) with ⟨p, hp, h1, h2⟩ | ⟨h1, h2⟩
        · rw [h1] at hf; rw [h2] at hf'
          have hr := hl p hp
          obtain ⟨k, a, b⟩ := p
          cases hf; cases hf'
          have := grown_literal hr rfl
          cases this
          rfl
        · rw [h2] at hf'; cases hf'
      | _ => cases e'
    | object l nd hs hn =>
      cases e; cases e'
      obtain ⟨b, hb⟩ := mem_oldShape hm
      obtain ⟨q, hq, e⟩ := List.mem_map.1 hm'
      have := entries_unique nd hb hq (congrArg Prod.fst e).symm
      subst this
      cases e
      have := grown_literal (hs _ hb _ rfl) rfl
      cases this
      rfl
    | _ => cases e'
  exact key _ _ h rfl rfl

/-- The elements of two lists are related in order; if `gr` is `variants`, the second one may have others in between. -/
inductive Sub2 {α β : Type} (gr : Growth) (R : α → β → Prop) : List α → List β → Prop where
  | nil : Sub2 gr R [] []
  | cons {a : α} {b : β} {l : List α} {l' : List β} : R a b → Sub2 gr R l l' → Sub2 gr R (a :: l) (b :: l')
  | skip (b : β) {l : List α} {l' : List β} : gr = .variants → Sub2 gr R l l' → Sub2 gr R l (b :: l')

theorem sub2_pairs {α β : Type} {R : α → β → Prop} {l : List α} {l' : List β} (h : Sub2 gr R l l') :
    ∃ ps : List (α × β), l = ps.map (·.1) ∧ (∀ p ∈ ps, R p.1 p.2) ∧ (∀ p ∈ ps, p.2 ∈ l') ∧ (gr ≠ .variants → l' = ps.map (·.2)) := by
  induction h with
  | nil => exact ⟨[], rfl, (fun p hp => by cases hp), (fun p hp => by cases hp), fun _ => rfl⟩
  | @cons a b _ _ h _ ih =>
    obtain ⟨ps, rfl, h1, h2, h3⟩ := ih
    refine ⟨(a, b) :: ps, rfl, ?_, ?_, ?_⟩
    · intro p hp
      rcases List.mem_cons.1 hp with rfl | hp
      · exact h
      · exact h1 p hp
    · intro p hp
      rcases List.mem_cons.1 hp with rfl | hp
      · exact List.mem_cons_self
      · exact List.mem_cons_of_mem _ (h2 p hp)
    · intro e; rw [h3 e]; rfl
  | skip b hm _ ih =>
    obtain ⟨ps, rfl, h1, h2, h3⟩ := ih
    exact ⟨ps, rfl, h1, fun p hp => List.mem_cons_of_mem _ (h2 p hp), fun e => absurd hm e⟩

theorem union_grown {zs zs' : List ZSchema} (h : Sub2 gr (Grown gr Q K) zs zs') : Grown gr Q K (.union zs) (.union zs') := by
  obtain ⟨ps, rfl, h1, h2, h3⟩ := sub2_pairs h
  by_cases hg : gr = .variants
  · exact .union ps zs' hg h1 h2
  · rw [h3 hg]; exact .cong (.union ps h1)

theorem discOptions_cons {t : Str} {z : ZSchema} {zs : List ZSchema} {l : List (Str × ZSchema)} (h : discOptions t (z :: zs) = some l) :
    ∃ s m, discriminator t z = some s ∧ discOptions t zs = some m ∧ l = (s, z) :: m ∧ s ∉ m.map (·.1) := by
  simp only [discOptions] at h
  cases h1 : discriminator t z with
  | none => rw [h1] at h; cases h
  | some s =>
    cases h2 : discOptions t zs with
    | none => rw [h1, h2] at h; cases h
    | some m =>
      rw [h1, h2] at h
      simp only at h
      split at h
      · cases h
      · rename_i hn
        cases h
        refine ⟨s, m, rfl, rfl, rfl, ?_⟩
        intro hm
        apply hn
        simpa using hm

theorem discOptions_nodup {t : Str} : ∀ {zs : List ZSchema} {l : List (Str × ZSchema)}, discOptions t zs = some l → (l.map (·.1)).Nodup
  | [], l, h => by cases h; exact .nil
  | z :: zs, l, h => by
    obtain ⟨s, m, _, h2, rfl, hn⟩ := discOptions_cons h
    exact List.nodup_cons.2 ⟨hn, discOptions_nodup h2⟩

theorem discOptions_has {t : Str} : ∀ {zs : List ZSchema} {l : List (Str × ZSchema)}, discOptions t zs = some l → ∀ z ∈ zs,
    ∃ s, discriminator t z = some s ∧ (s, z) ∈ l
  | [], l, _, z, hz => by cases hz
  | y :: zs, l, h, z, hz => by
    obtain ⟨s, m, h1, h2, rfl, hn⟩ := discOptions_cons h
    rcases List.mem_cons.1 hz with rfl | hz
    · exact ⟨s, h1, List.mem_cons_self⟩
    · obtain ⟨s', h3, h4⟩ := discOptions_has h2 z hz
      exact ⟨s', h3, List.mem_cons_of_mem _ h4⟩

theorem discOptions_grown {t : Str} {zs zs' : List ZSchema} (h : Sub2 gr (Grown gr Q K) zs zs') : ∀ {l l' : List (Str × ZSchema)},
    discOptions t zs = some l → discOptions t zs' = some l' →
    Sub2 gr (fun p q => p.1 = q.1 ∧ Grown gr Q K p.2 q.2) l l' := by
  induction h with
  | nil => intro l l' h h'; cases h; cases h'; exact .nil
  | cons hab _ ih =>
    intro l l' h h'
    obtain ⟨s, m, h1, h2, rfl, _⟩ := discOptions_cons h
    obtain ⟨s', m', h1', h2', rfl, _⟩ := discOptions_cons h'
    have := grown_same_tag hab h1 h1'
    subst this
    exact .cons ⟨rfl, hab⟩ (ih h2 h2')
  | skip b hm _ ih =>
    intro l l' h h'
    obtain ⟨s', m', h1', h2', rfl, _⟩ := discOptions_cons h'
    exact .skip _ hm (ih h h2')

theorem disc_grown {t : Str} {zs zs' : List ZSchema} (h : Sub2 gr (Grown gr Q K) zs zs') {l l' : List (Str × ZSchema)}
    (hl : discOptions t zs = some l) (hl' : discOptions t zs' = some l') : Grown gr Q K (.discUnion t l) (.discUnion t l') := by
  obtain ⟨ps, rfl, h1, h2, h3⟩ := sub2_pairs (discOptions_grown h hl hl')
  have e : ps.map (·.1) = (ps.map (fun p => (p.1.1, p.1.2, p.2.2))).map (fun p => (p.1, p.2.1)) := by rw [List.map_map]; rfl
  rw [e]
  have hg : ∀ p ∈ ps.map (fun p => (p.1.1, p.1.2, p.2.2)), Grown gr Q K p.2.1 p.2.2 := by
    intro p hp
    obtain ⟨q, hq, rfl⟩ := List.mem_map.1 hp
    exact (h1 q hq).2
  by_cases hgr : gr = .variants
  · refine .disc t _ l' hgr hg (fun p hp => ?_)
    obtain ⟨q, hq, rfl⟩ := List.mem_map.1 hp
    refine find_nodup (discOptions_nodup hl') ?_
    have := h2 q hq
    show (q.1.1, q.2.2) ∈ l'
    rw [(h1 q hq).1]
    exact this
  · have e' : l' = (ps.map (fun p => (p.1.1, p.1.2, p.2.2))).map (fun p => (p.1, p.2.2)) := by
      rw [h3 hgr, List.map_map]
      refine List.map_congr_left (fun p hp => ?_)
      show p.2 = (p.1.1, p.2.2)
      rw [(h1 p hp).1]
    rw [e']
    exact .cong (.disc t _ hg)

section
variable {rec rec' : Method → Ty → Option ZSchema}

/-- The schemas of each type are related. -/
def GrownTypes (gr : Growth) (Q : Str → Str → Prop) (K : Str → Prop) (rec rec' : Method → Ty → Option ZSchema) : Prop :=
  ∀ m t z z', rec m t = some z → rec' m t = some z' → Grown gr Q K z z'

theorem optZ_grown {b : Bool} {x y : Option ZSchema} {z z' : ZSchema} (h : ∀ z z', x = some z → y = some z' → Grown gr Q K z z')
    (hz : optZ b x = some z) (hz' : optZ b y = some z') : Grown gr Q K z z' := by
  cases b with
  | false => exact h z z' hz hz'
  | true =>
    cases x with
    | none => cases hz
    | some a => cases y with
      | none => cases hz'
      | some b => cases hz; cases hz'; exact .cong (.optional (h a b rfl rfl))

theorem sfield_grown (H : GrownTypes gr Q K rec rec') (x : SField) {z z' : ZSchema} (hz : sfieldZ rec x = some z)
    (hz' : sfieldZ rec' x = some z') : Grown gr Q K z z' :=
  optZ_grown (fun z z' h h' => H _ _ z z' h h') hz hz'

theorem vfield_grown (H : GrownTypes gr Q K rec rec') (x : Field) {z z' : ZSchema} (hz : vfieldZ rec x = some z)
    (hz' : vfieldZ rec' x = some z') : Grown gr Q K z z' :=
  optZ_grown (fun z z' h h' => H _ _ z z' h h') hz hz'

theorem optZ_new {x : Option ZSchema} {z : ZSchema} (h : optZ true x = some z) : ∃ c, z = .optional c := by
  cases x with
  | none => cases h
  | some a => cases h; exact ⟨a, rfl⟩

theorem req_any (h : gr.req = true) : gr = .any := by cases gr <;> first | rfl | cases h

/-- What the struct macro sees of fields. -/
def sfieldsOf (fs : List Field) : List SField := (fs.filter (fun f => !f.skipDe)).map (SField.ofField false)

theorem sfieldsOf_cons (f : Field) (fs : List Field) :
    sfieldsOf (f :: fs) = (if f.skipDe then [] else [SField.ofField false f]) ++ sfieldsOf fs := by
  unfold sfieldsOf
  rw [List.filter_cons]
  cases f.skipDe <;> simp

theorem moreFields_struct (H : GrownTypes gr Q K rec rec') {l l' : List Field} (h : MoreFields gr.req K l l') :
    (sfieldsOf l').filter (·.flatten) = (sfieldsOf l).filter (·.flatten) ∧
    MoreEntries gr K (Grown gr Q K) (((sfieldsOf l).filter (fun f => !f.flatten)).map (fun f => (f.name.getD [], sfieldZ rec f)))
      (((sfieldsOf l').filter (fun f => !f.flatten)).map (fun f => (f.name.getD [], sfieldZ rec' f))) := by
  induction h with
  | nil => exact ⟨rfl, .nil⟩
  | same f _ ih =>
    rw [sfieldsOf_cons, sfieldsOf_cons]
    cases hs : f.skipDe with
    | true => exact ih
    | false =>
      cases hf : (SField.ofField false f).flatten with
      | true => simp [hf, ih.1]; simpa using ih.2
      | false =>
        simp [hf, ih.1]
        exact .same _ (fun z z' h h' => sfield_grown H _ h h') (by simpa using ih.2)
  | new f hn hd hf hs hk _ ih =>
    rw [sfieldsOf_cons]
    have hf' : (SField.ofField false f).flatten = false := hf
    simp [hf', hs, ih.1]
    refine .new _ ?_ ?_ (by simpa using ih.2)
    · simpa [SField.ofField, hn] using hk f.name List.mem_cons_self
    · intro z hz
      rcases hd with hd | hd
      · exact .inl (req_any hd)
      · have : optZ true (rec' .inlineSchema f.ty) = some z := by rw [← hd]; exact hz
        exact .inr (optZ_new this)

theorem moreFields_variant (H : GrownTypes gr Q K rec rec') {l l' : List Field} (h : MoreFields gr.req K l l') :
    MoreEntries gr K (Grown gr Q K) ((l.filter (fun f => !f.skipDe)).map (fun f => (f.name, vfieldZ rec f)))
      ((l'.filter (fun f => !f.skipDe)).map (fun f => (f.name, vfieldZ rec' f))) := by
  induction h with
  | nil => exact .nil
  | same f _ ih =>
    simp only [List.filter_cons]
    cases hs : f.skipDe with
    | true => exact ih
    | false => exact .same _ (fun z z' h h' => vfield_grown H _ h h') ih
  | new f hn hd hf hs hk _ ih =>
    simp only [List.filter_cons, hs]
    refine .new _ (hk f.name List.mem_cons_self) (fun z hz => ?_) ih
    rcases hd with hd | hd
    · exact .inl (req_any hd)
    · unfold vfieldZ at hz
      rw [hd] at hz
      exact .inr (optZ_new hz)

theorem moreFields_refl (fs : List Field) : MoreFields gr.req K fs fs := by
  induction fs with
  | nil => exact .nil
  | cons f r ih => exact .same f ih

theorem named_grown (H : GrownTypes gr Q K rec rec') (s : StructDecl) {fs : List Field} (ht : s.transparent = false) (hs : s.style = .named)
    (hf : MoreFields gr.req K s.fields fs) {z z' : ZSchema} (hz : structZ rec s = some z)
    (hz' : structZ rec' { s with fields := fs } = some z') : Grown gr Q K z z' := by
  have e1 : structFields s = sfieldsOf s.fields := by unfold structFields sfieldsOf; rw [ht]
  have e2 : structFields { s with fields := fs } = sfieldsOf fs := by unfold structFields sfieldsOf; simp only [ht]
  obtain ⟨h1, h2⟩ := moreFields_struct H hf
  unfold structZ at hz hz'
  rw [e2, h1] at hz'
  rw [e1] at hz
  simp only [ht, hs] at hz hz'
  rcases extendZ_result hz with ⟨e, h⟩ | ⟨e, rfl⟩
  · rcases extendZ_result hz' with ⟨_, h'⟩ | ⟨e', _⟩
    · exact objZ_grown h2 h h'
    · rw [List.map_eq_nil_iff] at e
      rw [e] at e'
      exact absurd rfl e'
  · rcases extendZ_result hz' with ⟨e', _⟩ | ⟨_, rfl⟩
    · rw [List.map_eq_nil_iff] at e'
      rw [e'] at e
      exact absurd rfl e
    · exact .cong .broken

theorem struct_grown (H : GrownTypes gr Q K rec rec') (s : StructDecl) {z z' : ZSchema} (hz : structZ rec s = some z)
    (hz' : structZ rec' s = some z') : Grown gr Q K z z' := by
  cases ht : s.transparent with
  | true =>
    unfold structZ at hz hz'
    simp only at hz hz'
    generalize (structFields s).filter (fun x => !x.flatten) = fields at hz hz'
    rw [ht] at hz hz'
    cases fields with
    | nil => cases hz
    | cons x r => exact sfield_grown H x hz hz'
  | false =>
    cases hs : s.style with
    | unit => unfold structZ at hz; simp only [ht, hs] at hz; cases hz
    | named => exact named_grown H s ht hs (moreFields_refl _) hz hz'
    | tuple =>
      unfold structZ at hz hz'
      simp only at hz hz'
      generalize (structFields s).filter (fun x => !x.flatten) = fields at hz hz'
      rw [ht, hs] at hz hz'
      match fields, hz, hz' with
      | [], hz, _ => cases hz
      | [x], hz, hz' => exact sfield_grown H x hz hz'
      | x :: y :: r, hz, hz' =>
        have hz : (allSome ((x :: y :: r).map (sfieldZ rec))).map ZSchema.tuple = some z := hz
        have hz' : (allSome ((x :: y :: r).map (sfieldZ rec'))).map ZSchema.tuple = some z' := hz'
        obtain ⟨zs, h1, rfl⟩ := Option.map_eq_some_iff.1 hz
        obtain ⟨zs', h2, rfl⟩ := Option.map_eq_some_iff.1 hz'
        obtain ⟨ps, rfl, rfl, _, hp⟩ := allSome_pairs _ (fun a _ z z' h h' => sfield_grown H a h h') h1 h2
        exact .cong (.tuple ps hp)

theorem entry_one {k : Str} {a b : Option ZSchema} (h : ∀ z z', a = some z → b = some z' → Grown gr Q K z z') {l l' : List (Str × Option ZSchema)}
    (hl : MoreEntries gr K (Grown gr Q K) l l') : MoreEntries gr K (Grown gr Q K) ((k, a) :: l) ((k, b) :: l') := .same k h hl

theorem literal_same {s : Str} : ∀ z z', some (ZSchema.literal s) = some z → some (ZSchema.literal s) = some z' → Grown gr Q K z z' := by
  intro z z' h h'
  cases h; cases h'
  exact .cong (.literal s)

theorem unit_grown (tag : Tag) (n : Str) {z z' : ZSchema} (hz : unitZ tag n = some z) (hz' : unitZ tag n = some z') :
    Grown gr Q K z z' := by
  cases tag with
  | external => exact literal_same z z' hz hz'
  | internal t => exact objZ_grown (entry_one literal_same .nil) hz hz'
  | adjacent t c => exact objZ_grown (entry_one literal_same .nil) hz hz'
  | untagged => cases hz; cases hz'; exact .cong .null

theorem tupleFields_grown (H : GrownTypes gr Q K rec rec') (fs : List Field) {z z' : ZSchema} (hz : tupleFieldsZ rec fs = some z)
    (hz' : tupleFieldsZ rec' fs = some z') : Grown gr Q K z z' := by
  have many : ∀ l : List Field, (allSome (l.map (vfieldZ rec))).map ZSchema.tuple = some z →
      (allSome (l.map (vfieldZ rec'))).map ZSchema.tuple = some z' → Grown gr Q K z z' := by
    intro l hz hz'
    obtain ⟨zs, h1, rfl⟩ := Option.map_eq_some_iff.1 hz
    obtain ⟨zs', h2, rfl⟩ := Option.map_eq_some_iff.1 hz'
    obtain ⟨ps, rfl, rfl, _, hp⟩ := allSome_pairs _ (fun a _ z z' h h' => vfield_grown H a h h') h1 h2
    exact .cong (.tuple ps hp)
  match fs, hz, hz' with
  | [], hz, hz' => exact many [] hz hz'
  | [x], hz, hz' => exact vfield_grown H x hz hz'
  | x :: y :: r, hz, hz' => exact many (x :: y :: r) hz hz'

theorem namedVariant_grown (H : GrownTypes gr Q K rec rec') (tag : Tag) (v : Variant) {fs : List Field} (hf : MoreFields gr.req K v.fields fs)
    {z z' : ZSchema} (hz : structVariantZ rec tag v = some z) (hz' : structVariantZ rec' tag { v with fields := fs } = some z') :
    Grown gr Q K z z' := by
  have hm := moreFields_variant H hf
  have ho : ∀ z z', objZ (v.kept.map (fun f => (f.name, vfieldZ rec f))) = some z →
      objZ ((Variant.kept { v with fields := fs }).map (fun f => (f.name, vfieldZ rec' f))) = some z' → Grown gr Q K z z' :=
    fun z z' h h' => objZ_grown hm h h'
  simp only [structVariantZ] at hz hz'
  cases tag with
  | external => exact objZ_grown (entry_one ho .nil) hz hz'
  | internal t => exact objZ_grown (entry_one literal_same hm) hz hz'
  | adjacent t c => exact objZ_grown (entry_one literal_same (entry_one ho .nil)) hz hz'
  | untagged => exact ho z z' hz hz'

theorem variant_grown (H : GrownTypes gr Q K rec rec') (tag : Tag) {v v' : Variant} (h : MoreVariant gr.req K v v') {z z' : ZSchema}
    (hz : variantZ rec tag v = some z) (hz' : variantZ rec' tag v' = some z') : Grown gr Q K z z' := by
  cases h with
  | fields fs hs hf =>
    unfold variantZ at hz hz'
    simp only [hs] at hz hz'
    exact namedVariant_grown H tag v hf hz hz'
  | same =>
    unfold variantZ at hz hz'
    cases hs : v.style with
    | unit => rw [hs] at hz hz'; exact unit_grown tag v.name hz hz'
    | named => rw [hs] at hz hz'; exact namedVariant_grown H tag v (moreFields_refl _) hz hz'
    | tuple =>
      rw [hs] at hz hz'
      simp only [tupleVariantZ] at hz hz'
      cases hk : v.kept with
      | nil => rw [hk] at hz hz'; exact unit_grown tag v.name hz hz'
      | cons x r =>
        rw [hk] at hz hz'
        have hin : ∀ z z', tupleFieldsZ rec (x :: r) = some z → tupleFieldsZ rec' (x :: r) = some z' → Grown gr Q K z z' :=
          fun z z' h h' => tupleFields_grown H (x :: r) h h'
        cases tag with
        | external => exact objZ_grown (entry_one hin .nil) hz hz'
        | internal t => exact objZ_grown (entry_one hin .nil) hz hz'
        | adjacent t c => exact objZ_grown (entry_one literal_same (entry_one hin .nil)) hz hz'
        | untagged => exact hin z z' hz hz'

theorem moreVariant_skip {v v' : Variant} (h : MoreVariant gr.req K v v') : v'.skipDe = v.skipDe := by cases h <;> rfl

theorem moreVariants_kept {vs vs' : List Variant} (h : Sub2 gr (MoreVariant gr.req K) vs vs') :
    Sub2 gr (MoreVariant gr.req K) (vs.filter (fun v => !v.skipDe)) (vs'.filter (fun v => !v.skipDe)) := by
  induction h with
  | nil => exact .nil
  | @cons v v' _ _ h _ ih =>
    rw [List.filter_cons, List.filter_cons, moreVariant_skip h]
    cases v.skipDe with
    | true => exact ih
    | false => exact .cons h ih
  | skip v hm _ ih =>
    rw [List.filter_cons]
    cases v.skipDe with
    | true => exact ih
    | false => exact .skip v hm ih

theorem moreVariants_refl (vs : List Variant) : Sub2 gr (MoreVariant gr.req K) vs vs := by
  induction vs with
  | nil => exact .nil
  | cons v r ih => exact .cons (.same v) ih

theorem allSome_cons {x : Option ZSchema} {l : List (Option ZSchema)} {zs : List ZSchema} (h : allSome (x :: l) = some zs) :
    ∃ z y, x = some z ∧ allSome l = some y ∧ zs = z :: y := by
  cases x with
  | none => cases h
  | some z =>
    rw [allSome] at h
    obtain ⟨y, e, rfl⟩ := Option.map_eq_some_iff.1 h
    exact ⟨z, y, rfl, e, rfl⟩

theorem allSome_alike {α β : Type} {R : α → β → Prop} {S : ZSchema → ZSchema → Prop} {f : α → Option ZSchema} {g : β → Option ZSchema}
    {l : List α} {l' : List β} (h : Sub2 gr R l l') (hR : ∀ a b, R a b → ∀ z z', f a = some z → g b = some z' → S z z') :
    ∀ {zs zs' : List ZSchema}, allSome (l.map f) = some zs → allSome (l'.map g) = some zs' → Sub2 gr S zs zs' := by
  induction h with
  | nil =>
    intro zs zs' h1 h2
    cases h1; cases h2
    exact .nil
  | @cons a b r r' h _ ih =>
    intro zs zs' h1 h2
    obtain ⟨z, y, e1, e2, rfl⟩ := allSome_cons h1
    obtain ⟨z', y', e1', e2', rfl⟩ := allSome_cons h2
    exact .cons (hR a b h z z' e1 e1') (ih e2 e2')
  | skip b hm _ ih =>
    intro zs zs' h1 h2
    obtain ⟨z', y', e1', e2', rfl⟩ := allSome_cons h2
    exact .skip _ hm (ih h1 e2')

theorem enum_grown (H : GrownTypes gr Q K rec rec') (e : EnumDecl) {vs : List Variant} (hvs : Sub2 gr (MoreVariant gr.req K) e.variants vs)
    {z z' : ZSchema} (hz : enumZ rec e = some z) (hz' : enumZ rec' { e with variants := vs } = some z') : Grown gr Q K z z' := by
  have hk : Sub2 gr (MoreVariant gr.req K) e.kept (EnumDecl.kept { e with variants := vs }) := moreVariants_kept hvs
  have hR : ∀ v v', MoreVariant gr.req K v v' → ∀ z z', variantZ rec e.tag v = some z → variantZ rec' e.tag v' = some z' → Grown gr Q K z z' :=
    fun v v' h z z' h1 h2 => variant_grown H e.tag h h1 h2
  unfold enumZ at hz hz'
  generalize EnumDecl.kept { e with variants := vs } = k' at hk hz'
  generalize e.kept = k at hk hz
  have hu : ∀ l l', Sub2 gr (MoreVariant gr.req K) l l' → (allSome (l.map (variantZ rec e.tag))).map ZSchema.union = some z →
      (allSome (l'.map (variantZ rec' e.tag))).map ZSchema.union = some z' → Grown gr Q K z z' := by
    intro l l' hl h h'
    obtain ⟨zs, h1, rfl⟩ := Option.map_eq_some_iff.1 h
    obtain ⟨zs', h2, rfl⟩ := Option.map_eq_some_iff.1 h'
    exact union_grown (allSome_alike hl hR h1 h2)
  have discZ_some : ∀ (t : Str) (l : List (Option ZSchema)) (z : ZSchema), discZ t l = some z →
      ∃ zs o, allSome l = some zs ∧ discOptions t zs = some o ∧ z = .discUnion t o := by
    intro t l z h
    unfold discZ at h
    cases h1 : allSome l with
    | none => rw [h1] at h; cases h
    | some zs =>
      rw [h1] at h
      obtain ⟨o, h3, rfl⟩ := Option.map_eq_some_iff.1 h
      exact ⟨zs, o, rfl, h3, rfl⟩
  have hd : ∀ (t : Str) l l', Sub2 gr (MoreVariant gr.req K) l l' → discZ t (l.map (variantZ rec e.tag)) = some z →
      discZ t (l'.map (variantZ rec' e.tag)) = some z' → Grown gr Q K z z' := by
    intro t l l' hl h h'
    obtain ⟨zs, o, h1, h3, rfl⟩ := discZ_some t _ _ h
    obtain ⟨zs', o', h2, h4, rfl⟩ := discZ_some t _ _ h'
    exact disc_grown (allSome_alike hl hR h1 h2) h3 h4
  have hu1 : ∀ v l', gr = .variants → Sub2 gr (MoreVariant gr.req K) [v] l' → variantZ rec e.tag v = some z →
      (allSome (l'.map (variantZ rec' e.tag))).map ZSchema.union = some z' → Grown gr Q K z z' := by
    intro v l' hm hl h h'
    obtain ⟨zs', h2, rfl⟩ := Option.map_eq_some_iff.1 h'
    obtain ⟨ps, e1, h3, h4, _⟩ := sub2_pairs (allSome_alike hl hR (zs := [z]) (by simp [h, allSome]) h2)
    match ps, e1, h3, h4 with
    | [(a, b)], e1, h3, h4 =>
      cases e1
      exact .one zs' hm (h4 _ List.mem_cons_self) (h3 _ List.mem_cons_self)
  have hd1 : ∀ (t : Str) v l', gr = .variants → Sub2 gr (MoreVariant gr.req K) [v] l' → variantZ rec e.tag v = some z →
      discZ t (l'.map (variantZ rec' e.tag)) = some z' → Grown gr Q K z z' := by
    intro t v l' hm hl h h'
    obtain ⟨zs', o', h2, h5, rfl⟩ := discZ_some t _ _ h'
    obtain ⟨ps, e1, h3, h4, _⟩ := sub2_pairs (allSome_alike hl hR (zs := [z]) (by simp [h, allSome]) h2)
    match ps, e1, h3, h4 with
    | [(a, b)], e1, h3, h4 =>
      cases e1
      have hab := h3 _ List.mem_cons_self
      obtain ⟨s, hs, hm'⟩ := discOptions_has h5 b (h4 _ List.mem_cons_self)
      exact .oneDisc t s o' hm (grown_discriminator (by rw [hm]; nofun) hab hs) (find_nodup (discOptions_nodup h5) hm') hab
  match k, k', hz, hz', hk with
  | [], _, hz, _, _ => cases hz
  | [v], [v'], hz, hz', hk =>
    have : MoreVariant gr.req K v v' := by
      cases hk with
      | cons h _ => exact h
      | skip _ _ h => cases h
    exact hR v v' this z z' hz hz'
  | [v], a :: b :: r, hz, hz', hk =>
    have hm : gr = .variants := by
      cases hk with
      | cons _ h => cases h with | skip _ h _ => exact h
      | skip _ h _ => exact h
    simp only at hz hz'
    cases ht : e.tag with
    | external => rw [ht] at hz hz' hu1; exact hu1 _ _ hm hk hz hz'
    | untagged => rw [ht] at hz hz' hu1; exact hu1 _ _ hm hk hz hz'
    | internal t => rw [ht] at hz hz' hd1; exact hd1 t _ _ hm hk hz hz'
    | adjacent t c => rw [ht] at hz hz' hd1; exact hd1 t _ _ hm hk hz hz'
  | v :: w :: r, [], hz, hz', hk => cases hk
  | v :: w :: r, [a], hz, hz', hk =>
    cases hk with
    | cons _ h => cases h
    | skip _ _ h => cases h
  | v :: w :: r, a :: b :: r', hz, hz', hk =>
    simp only at hz hz'
    cases ht : e.tag with
    | external => rw [ht] at hz hz' hu; exact hu _ _ hk hz hz'
    | untagged => rw [ht] at hz hz' hu; exact hu _ _ hk hz hz'
    | internal t => rw [ht] at hz hz' hd; exact hd t _ _ hk hz hz'
    | adjacent t c => rw [ht] at hz hz' hd; exact hd t _ _ hk hz hz'

end

section
variable {P P' : Program}

theorem all2_get {α β : Type} {R : α → β → Prop} {l : List α} {l' : List β} (h : All2 R l l') {i : Nat} {a : α} (ha : l[i]? = some a) :
    ∃ b, l'[i]? = some b ∧ R a b := by
  induction h generalizing i with
  | nil => simp at ha
  | @cons x y r r' h _ ih =>
    cases i with
    | zero => simp at ha; subst ha; exact ⟨y, rfl, h⟩
    | succ i => simp only [List.getElem?_cons_succ] at ha ⊢; exact ih ha

/-- A declaration and the declaration with new fields, and depending on `gr`, new variants. -/
inductive GrownDecl (gr : Growth) (K : Str → Prop) : Decl → Decl → Prop where
  | same (d : Decl) : GrownDecl gr K d d
  | struct (s : StructDecl) (fs : List Field) : s.transparent = false → s.style = .named → MoreFields gr.req K s.fields fs →
      GrownDecl gr K (.struct s) (.struct { s with fields := fs })
  | enum (e : EnumDecl) (vs : List Variant) : Sub2 gr (MoreVariant gr.req K) e.variants vs →
      GrownDecl gr K (.enum e) (.enum { e with variants := vs })

/-- The same for programs, with new declarations at the end. -/
def GrownProgram (gr : Growth) (K : Str → Prop) (P P' : Program) : Prop :=
  ∀ (i : Nat) (d : Decl), P[i]? = some d → ∃ d', P'[i]? = some d' ∧ GrownDecl gr K d d'

theorem sub2_of_all2 {α β : Type} {R : α → β → Prop} {l : List α} {l' : List β} (h : All2 R l l') : Sub2 gr R l l' := by
  induction h with
  | nil => exact .nil
  | cons h _ ih => exact .cons h ih

theorem moreDecl_grown {d d' : Decl} (h : MoreDecl gr.req K d d') : GrownDecl gr K d d' := by
  cases h with
  | same => exact .same _
  | struct s fs h1 h2 h3 => exact .struct s fs h1 h2 h3
  | enum e vs h => exact .enum e vs (sub2_of_all2 h)

theorem moreProgram_grown (h : MoreProgram K P P') : GrownProgram .fields K P P' := by
  intro i d hd
  obtain ⟨d', h1, h2⟩ := all2_get h hd
  exact ⟨d', h1, moreDecl_grown h2⟩

theorem largerProgram_grown (h : LargerProgram P P') : GrownProgram .any (fun _ => True) P P' := by
  intro i d hd
  obtain ⟨d', h1, h2⟩ := h i d hd
  exact ⟨d', h1, moreDecl_grown h2⟩

theorem moreVariants_sub {vs vs' : List Variant} (h : MoreVariants K vs vs') : Sub2 .variants (MoreVariant Growth.variants.req K) vs vs' := by
  induction h with
  | nil => exact .nil
  | same h _ ih => exact .cons h ih
  | new v _ ih => exact .skip v rfl ih

theorem widerProgram_grown (h : WiderProgram K P P') : GrownProgram .variants K P P' := by
  intro i d hd
  obtain ⟨d', h1, h2⟩ := h i d hd
  refine ⟨d', h1, ?_⟩
  cases h2 with
  | fields h => exact moreDecl_grown h
  | variants e vs h => exact .enum e vs (moreVariants_sub h)

theorem moreDecl_names {d d' : Decl} (h : GrownDecl gr K d d') : d'.ns = d.ns ∧ d'.name = d.name := by cases h <;> exact ⟨rfl, rfl⟩

theorem decl_grown {rec rec' : Method → Ty → Option ZSchema} (H : GrownTypes gr Q K rec rec') {d d' : Decl} (h : GrownDecl gr K d d')
    {z z' : ZSchema} (hz : declZ rec d = some z) (hz' : declZ rec' d' = some z') : Grown gr Q K z z' := by
  cases h with
  | same =>
    cases d with
    | struct s =>
      simp only [declZ] at hz hz'
      cases hf : s.from_.ty? with
      | some t => rw [hf] at hz hz'; exact H _ t z z' hz hz'
      | none => rw [hf] at hz hz'; exact struct_grown H s hz hz'
    | enum e =>
      simp only [declZ] at hz hz'
      cases hf : e.from_.ty? with
      | some t => rw [hf] at hz hz'; exact H _ t z z' hz hz'
      | none => rw [hf] at hz hz'; exact enum_grown H e (moreVariants_refl _) hz hz'
  | struct s fs ht hs hm =>
    simp only [declZ] at hz hz'
    cases hf : s.from_.ty? with
    | some t => rw [hf] at hz hz'; exact H _ t z z' hz hz'
    | none => rw [hf] at hz hz'; exact named_grown H s ht hs hm hz hz'
  | enum e vs hm =>
    simp only [declZ] at hz hz'
    cases hf : e.from_.ty? with
    | some t => rw [hf] at hz hz'; exact H _ t z z' hz hz'
    | none => rw [hf] at hz hz'; exact enum_grown H e hm hz hz'

theorem declInline_grown {rec rec' : Method → Ty → Option ZSchema} (H : GrownTypes gr (Declared P) K rec rec') {d d' : Decl} (hd : d ∈ P)
    (h : GrownDecl gr K d d') {z z' : ZSchema} (hz : declInlineZ rec d = some z) (hz' : declInlineZ rec' d' = some z') :
    Grown gr (Declared P) K z z' := by
  have one : ∀ e e' : EnumDecl, Decl.enum e ∈ P → e'.from_ = e.from_ → e'.ns = e.ns → e'.name = e.name →
      declInlineZ rec (.enum e) = some z → declInlineZ rec' (.enum e') = some z' → Grown gr (Declared P) K z z' := by
    intro e e' hm h1 h2 h3 hz hz'
    simp only [declInlineZ, h1, h2, h3] at hz hz'
    cases hf : e.from_.ty? with
    | some t => rw [hf] at hz hz'; exact H _ t z z' hz hz'
    | none => rw [hf] at hz hz'; cases hz; cases hz'; exact .lazy _ _ ⟨_, hm, rfl, rfl⟩
  cases h with
  | same =>
    cases d with
    | struct s => cases hz; cases hz'; exact .lazy _ _ ⟨_, hd, rfl, rfl⟩
    | enum e => exact one e e hd rfl rfl rfl hz hz'
  | struct s fs _ _ _ => cases hz; cases hz'; exact .lazy _ _ ⟨_, hd, rfl, rfl⟩
  | enum e vs _ => exact one e _ hd rfl rfl rfl hz hz'

theorem prim_grown {p : Prim} {z z' : ZSchema} (hz : primZ p = some z) (hz' : primZ p = some z') : Grown gr Q K z z' := by
  cases p <;> cases hz <;> cases hz' <;> exact .cong (by constructor)

/-- The schemas of a program and of the program with new fields are related. -/
theorem grown_zOf (hP : GrownProgram gr K P P') (n : Nat) : ∀ n', GrownTypes gr (Declared P) K (zOf P n) (zOf P' n') := by
  induction n with
  | zero => intro n' m t z z' h; cases h
  | succ n ih =>
    intro n' m t z z' h h'
    cases n' with
    | zero => cases h'
    | succ k =>
    have H := ih k
    cases t with
    | named i =>
      have h : zBody (zOf P n) P m (.named i) = some z := h
      have h' : zBody (zOf P' k) P' m (.named i) = some z' := h'
      obtain ⟨d, hd, h2⟩ := zBody_some h
      obtain ⟨d', hd', hm⟩ := hP _ _ hd
      rw [zBody_named _ _ i hd'] at h'
      rcases h2 with ⟨rfl, h2⟩ | ⟨rfl, h2⟩
      · exact decl_grown H hm h2 h'
      · exact declInline_grown H (List.mem_of_getElem? hd) hm h2 h'
    | prim p =>
      cases m with
      | schema => exact prim_grown h h'
      | inlineSchema => exact H _ _ z z' h h'
      | _ => cases h
    | wrap w t =>
      cases m with
      | schema => exact H _ _ z z' h h'
      | inlineSchema => exact H _ _ z z' h h'
      | _ => cases h
    | option t =>
      cases m with
      | schema =>
        simp only [zOf, zBody, Option.map_eq_some_iff] at h h'
        obtain ⟨a, ha, rfl⟩ := h
        obtain ⟨b, hb, rfl⟩ := h'
        exact .cong (.optional (H _ t a b ha hb))
      | inlineSchema => exact H _ _ z z' h h'
      | _ => cases h
    | vec t =>
      cases m with
      | schema =>
        simp only [zOf, zBody, Option.map_eq_some_iff] at h h'
        obtain ⟨a, ha, rfl⟩ := h
        obtain ⟨b, hb, rfl⟩ := h'
        exact .cong (.array (H _ t a b ha hb))
      | inlineSchema => exact H _ _ z z' h h'
      | _ => cases h
    | hashSet t =>
      cases m with
      | schema =>
        simp only [zOf, zBody, Option.map_eq_some_iff] at h h'
        obtain ⟨a, ha, rfl⟩ := h
        obtain ⟨b, hb, rfl⟩ := h'
        exact .cong (.set (H _ t a b ha hb))
      | inlineSchema => exact H _ _ z z' h h'
      | _ => cases h
    | hashMap t u =>
      cases m with
      | schema =>
        simp only [zOf, zBody, Option.bind_eq_some_iff, Option.some.injEq] at h h'
        obtain ⟨a, ha, b, hb, rfl⟩ := h
        obtain ⟨a', ha', b', hb', rfl⟩ := h'
        exact .cong (.map (H _ t a a' ha ha') (H _ u b b' hb hb'))
      | inlineSchema => exact H _ _ z z' h h'
      | _ => cases h
    | array m' t =>
      cases m with
      | schema => exact H _ _ z z' h h'
      | inlineSchema => exact H _ _ z z' h h'
      | _ => cases h
    | btreeSet t =>
      cases m with
      | schema => exact H _ _ z z' h h'
      | inlineSchema => exact H _ _ z z' h h'
      | _ => cases h
    | btreeMap t u =>
      cases m with
      | schema => exact H _ _ z z' h h'
      | inlineSchema => exact H _ _ z z' h h'
      | _ => cases h
    | tuple ts =>
      cases m with
      | schema =>
        simp only [zOf, zBody, Option.map_eq_some_iff] at h h'
        obtain ⟨zs, hzs, rfl⟩ := h
        obtain ⟨zs', hzs', rfl⟩ := h'
        obtain ⟨ps, rfl, rfl, _, hp⟩ := allSome_pairs ts (fun t _ z z' h h' => H _ t z z' h h') hzs hzs'
        exact .cong (.tuple ps hp)
      | inlineSchema => exact H _ _ z z' h h'
      | _ => cases h
    | result t u =>
      cases m with
      | schema =>
        simp only [zOf, zBody] at h h'
        cases h1 : objZ [(lit "Ok", zOf P n .inlineSchema t)] with
        | none => rw [h1] at h; cases h
        | some a =>
          cases h2 : objZ [(lit "Err", zOf P n .inlineSchema u)] with
          | none => rw [h1, h2] at h; cases h
          | some b =>
            cases h3 : objZ [(lit "Ok", zOf P' k .inlineSchema t)] with
            | none => rw [h3] at h'; cases h'
            | some a' =>
              cases h4 : objZ [(lit "Err", zOf P' k .inlineSchema u)] with
              | none => rw [h3, h4] at h'; cases h'
              | some b' =>
                rw [h1, h2] at h; rw [h3, h4] at h'
                cases h; cases h'
                refine .cong (.union [(a, a'), (b, b')] (fun p hp => ?_))
                simp only [List.mem_cons, List.not_mem_nil, or_false] at hp
                rcases hp with rfl | rfl
                · exact objZ_grown (entry_one (fun z z' h h' => H _ t z z' h h') .nil) h1 h3
                · exact objZ_grown (entry_one (fun z z' h h' => H _ u z z' h h') .nil) h2 h4
      | inlineSchema => exact H _ _ z z' h h'
      | _ => cases h

/-- What the two modules export under the same name is related in the same way. -/
theorem grown_linked (hP : GrownProgram gr K P P') (hE : EnvOk P E) (hE' : EnvOk P' E') (hl : Loads P E) (hl' : Loads P' E') :
    LinkedGrown gr (Declared P) K E E' := by
  rintro ns name ⟨d, hd, rfl, rfl⟩
  obtain ⟨i, hi⟩ := List.getElem?_of_mem hd
  obtain ⟨d', hi', hm⟩ := hP _ _ hi
  obtain ⟨e1, e2⟩ := moreDecl_names hm
  cases hc : E.const d.ns d.name with
  | none => exact absurd hc (hl d hd)
  | some a =>
    cases hc' : E'.const d.ns d.name with
    | none => exact absurd (by rw [e1, e2]; exact hc') (hl' d' (List.mem_of_getElem? hi'))
    | some b =>
      obtain ⟨n, hn⟩ := hE i d a hi hc
      obtain ⟨m, hm⟩ := hE' i d' b hi' (by rw [e1, e2]; exact hc')
      exact ⟨a, b, rfl, rfl, grown_zOf hP n m _ _ a b hn hm⟩

end

end Verif.Zod
