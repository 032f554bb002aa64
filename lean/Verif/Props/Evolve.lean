import Verif.Zod.EvolveDe
import Verif.Props.Wrappers

/-!
# C78: new fields with a default make no difference to values without them
-/

namespace Verif.Props
open Verif Verif.Schema Verif.SchemaSpec Verif.Js Verif.Spec Verif.Zod

/-- **C78.** Let fields with a default be added to a program, at any places in structs and in variants of enums. If the
modules of both programs load, then a type accepts the same values in both, returns the same for each of them, and rejects
the same, among the values in which no object has a property with the name of a new field. -/
theorem C78_same_values (K : Str → Prop) (P P' : Program) (hP : MoreProgram K P P') (hg : GoodNames P) (hw : WellStyled P)
    (hg' : GoodNames P') (hw' : WellStyled P') (E E' : ZEnv) (hE : IsModule P E) (hE' : IsModule P' E') (hl : Loads P E)
    (hl' : Loads P' E') (m : Method) (hm : m = .schema ∨ m = .inlineSchema) (t : Ty) (s s' : Str) (h : Returns P m t s)
    (h' : Returns P' m t s') (z z' : ZSchema) (hz : readSchema s = some z) (hz' : readSchema s' = some z') (v : JsVal)
    (hv : Lacks K v) : (∀ r, ParsesTo E z v r ↔ ParsesTo E' z' v r) ∧ (Rejects E z v ↔ Rejects E' z' v) := by
  obtain ⟨n, hn⟩ := h
  obtain ⟨n', hn'⟩ := h'
  rw [(eval_agree hg hw n m t s hm hn).read] at hz
  rw [(eval_agree hg' hw' n' m t s' hm hn').read] at hz'
  have hL := grown_linked (moreProgram_grown hP) (envOk_of_module hg hw hE) (envOk_of_module hg' hw' hE') hl hl'
  have hG := grown_zOf  (moreProgram_grown hP) n n' m t z z' hz hz'
  exact ⟨fun r => grown_parse hL hG hv (some r), grown_parse hL hG hv none⟩

/-- **C78, the server.** Among the documents in which no object has a member with the name or an alias of a new field, serde
accepts the same for both programs. -/
theorem C78_read (K : Str → Prop) (P P' : Program) (hP : MoreProgram K P P') (t : Ty) (j : Json) (hj : Lacks K (fromJson j)) :
    De P t j ↔ De P' t j :=
  de_evolve hP hj

/-! ## The hypotheses are met -/

/-- `struct User { id: u32, last: Event }` and `#[serde(tag = "type")] enum Event { Start, Move { x: i32 } }`. -/
def exBefore : Program :=
  [ .struct (exStruct "User" [exField "id" (.prim .u32), exField "last" (.named 1)]),
    .enum (exEnum "Event" (.internal (lit "type")) [exVariant "Start" .unit [], exVariant "Move" .named [exField "x" (.prim .i32)]]) ]

/-- `#[serde(default)] nick: String` and `#[serde(default)] y: i32` are new. -/
def exAfter : Program :=
  [ .struct (exStruct "User" [exField "id" (.prim .u32), { exField "nick" (.prim .string) with dflt := true }, exField "last" (.named 1)]),
    .enum (exEnum "Event" (.internal (lit "type")) [exVariant "Start" .unit [],
      exVariant "Move" .named [exField "x" (.prim .i32), { exField "y" (.prim .i32) with dflt := true }]]) ]

def exNew (k : Str) : Prop := k = lit "nick" ∨ k = lit "y"

theorem exBefore_after : MoreProgram exNew exBefore exAfter := by
  refine .cons ?_ (.cons ?_ .nil)
  · refine .struct (exStruct "User" [exField "id" (.prim .u32), exField "last" (.named 1)]) _ rfl rfl ?_
    refine .same _ (.new _ rfl (.inr rfl) rfl rfl ?_ (.same _ .nil))
    intro a ha
    simp only [exField, List.mem_cons, List.not_mem_nil, or_false] at ha
    exact .inl ha
  · refine .enum (exEnum "Event" (.internal (lit "type")) [exVariant "Start" .unit [], exVariant "Move" .named [exField "x" (.prim .i32)]]) _ ?_
    refine .cons (.same _) (.cons ?_ .nil)
    refine .fields (exVariant "Move" .named [exField "x" (.prim .i32)]) _ rfl (.same _ (.new _ rfl (.inr rfl) rfl rfl ?_ .nil))
    intro a ha
    simp only [exField, List.mem_cons, List.not_mem_nil, or_false] at ha
    exact .inr ha

theorem exBefore_good : GoodNames exBefore := by
  intro d hd
  simp only [exBefore, List.mem_cons, List.not_mem_nil, or_false] at hd
  rcases hd with rfl | rfl <;> decide +kernel

theorem exBefore_styled : WellStyled exBefore := by
  intro d hd
  simp only [exBefore, List.mem_cons, List.not_mem_nil, or_false] at hd
  rcases hd with rfl | rfl <;> decide +kernel

theorem exAfter_good : GoodNames exAfter := by
  intro d hd
  simp only [exAfter, List.mem_cons, List.not_mem_nil, or_false] at hd
  rcases hd with rfl | rfl <;> decide +kernel

theorem exAfter_styled : WellStyled exAfter := by
  intro d hd
  simp only [exAfter, List.mem_cons, List.not_mem_nil, or_false] at hd
  rcases hd with rfl | rfl <;> decide +kernel

theorem exBefore_module : IsModule exBefore (moduleEnv exBefore 9) := by
  refine moduleEnv_isModule exBefore_good exBefore_styled (by unfold DistinctDecls; decide +kernel) ?_
  intro i d hd
  match i, hd with
  | 0, _ => exact ⟨_, rfl⟩
  | 1, _ => exact ⟨_, rfl⟩
  | n + 2, hd => simp [exBefore] at hd

theorem exAfter_module : IsModule exAfter (moduleEnv exAfter 9) := by
  refine moduleEnv_isModule exAfter_good exAfter_styled (by unfold DistinctDecls; decide +kernel) ?_
  intro i d hd
  match i, hd with
  | 0, _ => exact ⟨_, rfl⟩
  | 1, _ => exact ⟨_, rfl⟩
  | n + 2, hd => simp [exAfter] at hd

theorem exBefore_loads : Loads exBefore (moduleEnv exBefore 9) := by
  intro d hd
  simp only [exBefore, List.mem_cons, List.not_mem_nil, or_false] at hd
  rcases hd with rfl | rfl <;> exact fun h => by cases h

theorem exAfter_loads : Loads exAfter (moduleEnv exAfter 9) := by
  intro d hd
  simp only [exAfter, List.mem_cons, List.not_mem_nil, or_false] at hd
  rcases hd with rfl | rfl <;> exact fun h => by cases h

/-- A user written before the fields were added. -/
def exOldUser : JsVal :=
  .obj [(lit "id", .num (.fin (7 : Int))), (lit "last", .obj [(lit "type", .str (lit "Move")), (lit "x", .num (.fin (1 : Int)))])]

theorem exOldUser_lacks : Lacks exNew exOldUser := by
  refine .obj _ ?_ ?_
  · intro p hp
    simp only [List.mem_cons, List.not_mem_nil, or_false] at hp
    rcases hp with rfl | rfl <;> rintro (h | h) <;> revert h <;> decide
  · intro p hp
    simp only [List.mem_cons, List.not_mem_nil, or_false] at hp
    rcases hp with rfl | rfl
    · exact .num _
    · refine .obj _ ?_ ?_
      · intro p hp
        simp only [List.mem_cons, List.not_mem_nil, or_false] at hp
        rcases hp with rfl | rfl <;> rintro (h | h) <;> revert h <;> decide
      · intro p hp
        simp only [List.mem_cons, List.not_mem_nil, or_false] at hp
        rcases hp with rfl | rfl
        · exact .str _
        · exact .num _

/-- Both programs accept this user and return the same. -/
example : ∃ s s' z z' r, Returns exBefore .schema (.named 0) s ∧ Returns exAfter .schema (.named 0) s' ∧
    readSchema s = some z ∧ readSchema s' = some z' ∧ ParsesTo (moduleEnv exBefore 9) z exOldUser r ∧
    ParsesTo (moduleEnv exAfter 9) z' exOldUser r := by
  have h0 : ∃ s, eval exBefore 9 .schema (.named 0) = some s := ⟨_, rfl⟩
  have h0' : ∃ s, eval exAfter 9 .schema (.named 0) = some s := ⟨_, rfl⟩
  obtain ⟨s, hs⟩ := h0
  obtain ⟨s', hs'⟩ := h0'
  have hz := (eval_agree exBefore_good exBefore_styled 9 .schema (.named 0) s (Or.inl rfl) hs).read
  have hz' := (eval_agree exAfter_good exAfter_styled 9 .schema (.named 0) s' (Or.inl rfl) hs').read
  have h1 : ∃ z, zOf exBefore 9 .schema (.named 0) = some z ∧ ∃ r, parse (moduleEnv exBefore 9) 9 z exOldUser = some (some r) :=
    ⟨_, rfl, _, rfl⟩
  have h2 : ∃ z', zOf exAfter 9 .schema (.named 0) = some z' := ⟨_, rfl⟩
  obtain ⟨z, e, r, hr⟩ := h1
  obtain ⟨z', e'⟩ := h2
  rw [e] at hz; rw [e'] at hz'
  exact ⟨s, s', z, z', r, ⟨9, hs⟩, ⟨9, hs'⟩, hz, hz', ⟨9, hr⟩,
    ((C78_same_values exNew exBefore exAfter exBefore_after exBefore_good exBefore_styled exAfter_good exAfter_styled _ _
      exBefore_module exAfter_module exBefore_loads exAfter_loads .schema (Or.inl rfl) (.named 0) s s' ⟨9, hs⟩ ⟨9, hs'⟩ z z' hz hz'
      exOldUser exOldUser_lacks).1 r).1 ⟨9, hr⟩⟩

/-- Without the condition on the value the statement would be false: unknown properties are dropped, those of a field are
validated. -/
theorem C78_condition_needed : ∃ (z z' : ZSchema) (v r : JsVal), zOf exBefore 9 .schema (.named 1) = some z ∧
    zOf exAfter 9 .schema (.named 1) = some z' ∧ ParsesTo (moduleEnv exBefore 9) z v r ∧ Rejects (moduleEnv exAfter 9) z' v :=
  ⟨_, _, .obj [(lit "type", .str (lit "Move")), (lit "x", .num (.fin (1 : Int))), (lit "y", .str (lit "up"))], _, rfl, rfl,
    ⟨9, rfl⟩, ⟨9, rfl⟩⟩

/-- The document that serde reads as a `User`, before and after. -/
def exOldDoc : Json :=
  .obj [(lit "id", .num (.int 7)), (lit "last", .obj [(lit "type", .str (lit "Start"))])]

theorem exOldDoc_lacks : Lacks exNew (fromJson exOldDoc) := by
  unfold exOldDoc
  rw [fromJson_obj]
  refine .obj _ ?_ ?_
  · intro p hp
    simp only [List.map_cons, List.map_nil, List.mem_cons, List.not_mem_nil, or_false] at hp
    rcases hp with rfl | rfl <;> rintro (h | h) <;> revert h <;> decide
  · intro p hp
    simp only [List.map_cons, List.map_nil, List.mem_cons, List.not_mem_nil, or_false] at hp
    rcases hp with rfl | rfl
    · exact .num _
    · rw [fromJson_obj]
      refine .obj _ ?_ ?_
      · intro p hp
        simp only [List.map_cons, List.map_nil, List.mem_cons, List.not_mem_nil, or_false] at hp
        subst hp
        rintro (h | h) <;> revert h <;> decide
      · intro p hp
        simp only [List.map_cons, List.map_nil, List.mem_cons, List.not_mem_nil, or_false] at hp
        subst hp
        exact .str _

theorem exOldDoc_read : De exBefore (.named 0) exOldDoc := by
  refine .struct 0 _ _ rfl rfl rfl (.named _ _ _ (by decide) (fun names h => by cases h) ?_ ?_)
  · intro f hf _ _
    have hf : f ∈ [exField "id" (.prim .u32), exField "last" (.named 1)] := hf
    simp only [List.mem_cons, List.not_mem_nil, or_false] at hf
    rcases hf with rfl | rfl
    · exact .present _ _ (.num (.int 7)) rfl rfl (fun a ha => by cases ha)
        (.int .u32 0 4294967295 7 rfl (by decide) (by decide))
    · exact .present _ _ (.obj [(lit "type", .str (lit "Start"))]) rfl rfl (fun a ha => by cases ha)
        (.internalUnit 1 _ (exVariant "Start" .unit []) (lit "type") _ rfl rfl rfl rfl rfl (by decide) rfl)
  · intro f hf _ hfl
    have hf : f ∈ [exField "id" (.prim .u32), exField "last" (.named 1)] := hf
    simp only [List.mem_cons, List.not_mem_nil, or_false] at hf
    rcases hf with rfl | rfl <;> cases hfl

example : De exAfter (.named 0) exOldDoc :=
  (C78_read exNew exBefore exAfter exBefore_after _ _ exOldDoc_lacks).1 exOldDoc_read

end Verif.Props
