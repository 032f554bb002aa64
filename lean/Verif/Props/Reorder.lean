import Verif.Zod.Reorder
import Verif.Schema.Reorder
import Verif.Zod.EvolveDe
import Verif.Props.Evolve

/-!
# C85: the order of named fields does not matter
-/

namespace Verif.Props
open Verif Verif.Schema Verif.SchemaSpec Verif.Js Verif.Spec Verif.Zod

/-- **C85.** Let the named fields of structs and of variants of enums be written in another order. Then evaluating the schema
of a type throws for both programs or for neither. If it throws for neither, the two schemas accept the same values, the results
are the same up to the order of properties, and they reject the same values. -/
theorem C85_same_values (P P' : Program) (hP : ReorderedProgram P P') (hg : GoodNames P) (hw : WellStyled P) (hg' : GoodNames P')
    (hw' : WellStyled P') (E E' : ZEnv) (hE : IsModule P E) (hE' : IsModule P' E') (m : Method) (hm : m = .schema ∨ m = .inlineSchema)
    (t : Ty) (s s' : Str) (h : Returns P m t s) (h' : Returns P' m t s') :
    (readSchema s = none ↔ readSchema s' = none) ∧
    ∀ z z', readSchema s = some z → readSchema s' = some z' → ∀ v,
      (∀ r, ParsesTo E z v r → ∃ r', ParsesTo E' z' v r' ∧ SameProps r r') ∧
      (∀ r', ParsesTo E' z' v r' → ∃ r, ParsesTo E z v r ∧ SameProps r r') ∧
      (Rejects E z v ↔ Rejects E' z' v) := by
  have hT : ∀ tag, (fun _ : Tag => False) tag → False ∨ HasTag tag := fun _ h => absurd h id
  have hS := shuffled_of_reordered (T := fun _ => False) hP
  have hL := reord_linked hT hS hg hw hg' hw' hE hE'
  rcases reord_texts hT hS hg hw hg' hw' hm h h' with ⟨e, e'⟩ | ⟨z, z', e, e', hr⟩
  · refine ⟨by simp [e, e'], fun z z' hz => ?_⟩
    rw [e] at hz
    cases hz
  · refine ⟨by simp [e, e'], fun a a' ha ha' v => ?_⟩
    cases e.symm.trans ha
    cases e'.symm.trans ha'
    have hp := fun n => reord_parse id hL n z z' hr v
    refine ⟨?_, ?_, ?_, ?_⟩
    · rintro r ⟨n, hn⟩
      have := hp n
      rw [hn] at this
      generalize hx : parse E' n z' v = x at this
      cases this with
      | result h => exact ⟨_, ⟨n, hx⟩, h⟩
    · rintro r ⟨n, hn⟩
      have := hp n
      rw [hn] at this
      generalize hx : parse E n z v = x at this
      cases this with
      | result h => exact ⟨_, ⟨n, hx⟩, h⟩
    · rintro ⟨n, hn⟩
      have := hp n
      rw [hn] at this
      generalize hx : parse E' n z' v = x at this
      cases this with
      | error => exact ⟨n, hx⟩
    · rintro ⟨n, hn⟩
      have := hp n
      rw [hn] at this
      generalize hx : parse E n z v = x at this
      cases this with
      | error => exact ⟨n, hx⟩

/-- **C85, generation.** Whether generating the text of a type returns does not depend on the order either. This is about all four
methods, the TypeScript types included. -/
theorem C85_returns (P P' : Program) (hP : ReorderedProgram P P') (m : Method) (t : Ty) :
    (∃ s, Returns P m t s) ↔ ∃ s, Returns P' m t s :=
  ⟨fun ⟨s, n, hn⟩ => shuffled_returns (T := fun _ => False) (shuffled_of_reordered hP) n m t s hn,
    fun ⟨s, n, hn⟩ => shuffled_returns (T := fun _ => False) (shuffled_of_reordered (reorderedProgram_symm hP)) n m t s hn⟩

/-- **C85, compilation.** The derive macro accepts a declaration in both orders or in neither. -/
theorem C85_derives (d d' : Decl) (h : ReorderedDecl d d') : (∃ impl, derive d = .ok impl) ↔ ∃ impl, derive d' = .ok impl :=
  ⟨fun ⟨_, hi⟩ => (follows_derive h hi).imp (fun _ h => h.1), fun ⟨_, hi⟩ => (follows_derive (reorderedDecl_symm h) hi).imp (fun _ h => h.1)⟩

theorem reordered_same {P P' : Program} (h : ReorderedProgram P P') : All2 (SameDecl (fun _ => False)) P P' := by
  have fields : ∀ {l l' : List Field}, l.Perm l' → SameFields (fun _ => False) l l' := fun h =>
    ⟨fun f hf => .inl (h.mem_iff.1 hf), fun f hf => .inl (h.mem_iff.2 hf)⟩
  refine All2.imp_mem h (fun d d' _ h => ?_)
  cases h with
  | same => exact .same _
  | struct s fs h1 h2 h3 => exact .struct _ _ h1 h1 h2 h2 rfl rfl rfl (fields h3)
  | enum e vs h =>
    refine .enum _ _ rfl rfl rfl (All2.imp_mem h (fun v v' _ h => ?_))
    cases h with
    | same => exact .same _
    | fields fs h1 h2 => exact .fields _ _ rfl rfl h1 h1 (fields h2)

theorem lacks_nothing : ∀ v : JsVal, Lacks (fun _ => False) v
  | .undefined => .undefined
  | .null => .null
  | .bool b => .bool b
  | .num n => .num n
  | .str s => .str s
  | .badStr n => .badStr n
  | .other => .other
  | .arr l => .arr l (fun v _ => lacks_nothing v)
  | .set l => .set l (fun v _ => lacks_nothing v)
  | .map l => .map l (fun p _ => lacks_nothing p.1) (fun p _ => lacks_nothing p.2)
  | .obj kvs => .obj kvs (fun _ _ h => h) (fun p _ => lacks_nothing p.2)
decreasing_by
  all_goals
    rename_i hm
    have := List.sizeOf_lt_of_mem hm
    first
    | (cases p; simp only [JsVal.arr.sizeOf_spec, JsVal.set.sizeOf_spec, JsVal.map.sizeOf_spec, JsVal.obj.sizeOf_spec, Prod.mk.sizeOf_spec] at this ⊢; omega)
    | (simp only [JsVal.arr.sizeOf_spec, JsVal.set.sizeOf_spec]; omega)

/-- **C85, the server.** serde accepts the same documents for both programs, where structs and variants with named fields
are read from objects. (From arrays serde reads such fields in their order.) -/
theorem C85_read (P P' : Program) (hP : ReorderedProgram P P') (t : Ty) (j : Json) : De P t j ↔ De P' t j :=
  ⟨fun h => de_more (all2_fwd (reordered_same hP)) h (lacks_nothing _),
    fun h => de_more (all2_fwd (reordered_same (reorderedProgram_symm hP))) h (lacks_nothing _)⟩

/-! ## The hypotheses are met -/

/-- `struct User { last: Event, nick: String, id: u32 }` and `enum Event { Start, Move { y: i32, x: i32 } }`, with defaults. -/
def exTurned : Program :=
  [ .struct (exStruct "User" [exField "last" (.named 1), { exField "nick" (.prim .string) with dflt := true }, exField "id" (.prim .u32)]),
    .enum (exEnum "Event" (.internal (lit "type")) [exVariant "Start" .unit [],
      exVariant "Move" .named [{ exField "y" (.prim .i32) with dflt := true }, exField "x" (.prim .i32)]]) ]

theorem exAfter_turned : ReorderedProgram exAfter exTurned := by
  refine .cons ?_ (.cons ?_ .nil)
  · refine .struct (exStruct "User" [exField "id" (.prim .u32), { exField "nick" (.prim .string) with dflt := true }, exField "last" (.named 1)])
      _ rfl rfl ?_
    exact (List.reverse_perm _).symm
  · refine .enum (exEnum "Event" (.internal (lit "type")) [exVariant "Start" .unit [],
      exVariant "Move" .named [exField "x" (.prim .i32), { exField "y" (.prim .i32) with dflt := true }]]) _ ?_
    refine .cons (.same _) (.cons ?_ .nil)
    exact .fields (exVariant "Move" .named [exField "x" (.prim .i32), { exField "y" (.prim .i32) with dflt := true }]) _ rfl (.swap _ _ _)

theorem exTurned_good : GoodNames exTurned := by
  intro d hd
  simp only [exTurned, List.mem_cons, List.not_mem_nil, or_false] at hd
  rcases hd with rfl | rfl <;> decide +kernel

theorem exTurned_styled : WellStyled exTurned := by
  intro d hd
  simp only [exTurned, List.mem_cons, List.not_mem_nil, or_false] at hd
  rcases hd with rfl | rfl <;> decide +kernel

theorem exTurned_module : IsModule exTurned (moduleEnv exTurned 9) := by
  refine moduleEnv_isModule exTurned_good exTurned_styled (by unfold DistinctDecls; decide +kernel) ?_
  intro i d hd
  match i, hd with
  | 0, _ => exact ⟨_, rfl⟩
  | 1, _ => exact ⟨_, rfl⟩
  | n + 2, hd => simp [exTurned] at hd

/-- The user without `nick` is accepted before, hence after. -/
example : ∃ s s' z z' r r', Returns exAfter .schema (.named 0) s ∧ Returns exTurned .schema (.named 0) s' ∧
    readSchema s = some z ∧ readSchema s' = some z' ∧ ParsesTo (moduleEnv exAfter 9) z exOldUser r ∧
    ParsesTo (moduleEnv exTurned 9) z' exOldUser r' ∧ SameProps r r' ∧ r ≠ r' := by
  have h0 : ∃ s, eval exAfter 9 .schema (.named 0) = some s := ⟨_, rfl⟩
  have h0' : ∃ s, eval exTurned 9 .schema (.named 0) = some s := ⟨_, rfl⟩
  obtain ⟨s, hs⟩ := h0
  obtain ⟨s', hs'⟩ := h0'
  have hz := (eval_agree exAfter_good exAfter_styled 9 .schema (.named 0) s (Or.inl rfl) hs).read
  have hz' := (eval_agree exTurned_good exTurned_styled 9 .schema (.named 0) s' (Or.inl rfl) hs').read
  have h1 : ∃ z, zOf exAfter 9 .schema (.named 0) = some z ∧ parse (moduleEnv exAfter 9) 9 z exOldUser = some (some exOldUser) :=
    ⟨_, rfl, rfl⟩
  have h2 : ∃ z' r', zOf exTurned 9 .schema (.named 0) = some z' ∧ parse (moduleEnv exTurned 9) 9 z' exOldUser = some (some r') ∧
    ∃ x y, r' = .obj [(lit "last", x), y] := ⟨_, _, rfl, rfl, _, _, rfl⟩
  obtain ⟨z, e, hr⟩ := h1
  obtain ⟨z', r', e', hr', x, y, rfl⟩ := h2
  rw [e] at hz; rw [e'] at hz'
  obtain ⟨r'', ⟨k, hk⟩, hsame⟩ := ((C85_same_values exAfter exTurned exAfter_turned exAfter_good exAfter_styled exTurned_good exTurned_styled _ _
      exAfter_module exTurned_module .schema (Or.inl rfl) (.named 0) s s' ⟨9, hs⟩ ⟨9, hs'⟩).2 z z' hz hz' exOldUser).1 _ ⟨9, hr⟩
  have hu := parsesTo_unique ⟨k, hk⟩ ⟨9, hr'⟩
  subst hu
  refine ⟨s, s', z, z', _, _, ⟨9, hs⟩, ⟨9, hs'⟩, hz, hz', ⟨9, hr⟩, ⟨9, hr'⟩, hsame, ?_⟩
  unfold exOldUser
  intro h
  injection h with h
  injection h with h
  injection h with h
  revert h
  decide

example : De exTurned (.named 0) exOldDoc :=
  (C85_read exAfter exTurned exAfter_turned (.named 0) exOldDoc).1
    ((C78_read exNew exBefore exAfter exBefore_after (.named 0) exOldDoc exOldDoc_lacks).1 exOldDoc_read)

end Verif.Props
