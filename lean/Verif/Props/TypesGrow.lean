import Verif.Ts.SubProgram
import Verif.Props.Narrower
import Verif.Props.Agree

/-!
# C82: TypeScript types when a program grows
-/

namespace Verif.Props
open Verif Verif.Schema Verif.SchemaSpec Verif.Js Verif.Spec Verif.Zod Verif.Ts

/-- **C82, results.** Let new fields, required or not, and new types be added to a program, at any places. Every value of a type
of the new module is a value of the type of that name in the old one: code written for the old types can use the values it
gets. This holds for both readings of missing properties. -/
theorem C82_new_is_old (P P' : Program) (hP : LargerProgram P P') (hs : ∀ d ∈ P, ∀ u ∈ declTypes d, InScope P u)
    (hg : GoodNames P) (hgt : GoodTypeNames P) (hw : WellStyled P) (hg' : GoodNames P') (hgt' : GoodTypeNames P') (hw' : WellStyled P')
    (D D' : TsEnv) (hD : IsTsModule P D) (hD' : IsTsModule P' D') (m : Method) (hm : m = .typeDef ∨ m = .inline) (t : Ty)
    (ht : InScope P t) (s s' : Str) (h : Returns P m t s) (h' : Returns P' m t s') (T T' : TsType) (hT : readType s = some T)
    (hT' : readType s' = some T') (lenient : Bool) (v : JsVal) (hv : Inhabits D' lenient T' v) : Inhabits D lenient T v := by
  have hS : ProgramSub False P (fun _ => False) (Names P) P' P := programSub_backward hP hs
  have hL : LinkedT (fun _ => False) D' D (Names P) := by
    refine linkedT_of hS ?_ ?_ hg' hgt' hw' hg hgt hw hD' hD
    · intro i d₀ d h₀ h₁
      obtain ⟨d', e, hd⟩ := hP i d₀ h₀
      rw [h₁] at e; cases e
      exact moreDecl_names hd
    · intro i d₀ d h₀ h₁
      rw [h₀] at h₁; cases h₁
      exact ⟨rfl, rfl⟩
  exact sub_values hL hv (lacks_nothing v) T (read_sub hS hg' hgt' hw' hg hgt hw hm ht h' h hT' hT)

/-- **C82, arguments.** Let new fields with a default, new variants and new types be added to a program, at any places. Every
value of a type of the old module, in which no object has a property with the name of a new field, is a value of the type of
that name in the new one: code written for the old types still passes what the new types ask for. -/
theorem C82_old_is_new (K : Str → Prop) (P P' : Program) (hP : WiderProgram K P P') (hs : ∀ d ∈ P, ∀ u ∈ declTypes d, InScope P u)
    (hg : GoodNames P) (hgt : GoodTypeNames P) (hw : WellStyled P) (hg' : GoodNames P') (hgt' : GoodTypeNames P') (hw' : WellStyled P')
    (D D' : TsEnv) (hD : IsTsModule P D) (hD' : IsTsModule P' D') (m : Method) (hm : m = .typeDef ∨ m = .inline) (t : Ty)
    (ht : InScope P t) (s s' : Str) (h : Returns P m t s) (h' : Returns P' m t s') (T T' : TsType) (hT : readType s = some T)
    (hT' : readType s' = some T') (lenient : Bool) (v : JsVal) (hk : Lacks K v) (hv : Inhabits D lenient T v) :
    Inhabits D' lenient T' v := by
  have hS : ProgramSub False P K (Names P) P P' := programSub_forward hP hs
  have hL : LinkedT K D D' (Names P) := by
    refine linkedT_of hS ?_ ?_ hg hgt hw hg' hgt' hw' hD hD'
    · intro i d₀ d h₀ h₁
      rw [h₀] at h₁; cases h₁
      exact ⟨rfl, rfl⟩
    · intro i d₀ d h₀ h₁
      obtain ⟨d', e, hd⟩ := hP i d₀ h₀
      rw [h₁] at e; cases e
      exact widerDecl_names hd
  exact sub_values hL hv hk T' (read_sub hS hg hgt hw hg' hgt' hw' hm ht h h' hT hT')

/-! ## The hypotheses are met -/

theorem exBefore_types : GoodTypeNames exBefore := by
  intro d hd
  simp only [exBefore, List.mem_cons, List.not_mem_nil, or_false] at hd
  rcases hd with rfl | rfl <;> decide +kernel

theorem exWider_types : GoodTypeNames exWider := by
  intro d hd
  simp only [exWider, List.mem_cons, List.not_mem_nil, or_false] at hd
  rcases hd with rfl | rfl | rfl <;> decide +kernel

theorem exLarger_types : GoodTypeNames exLarger := by
  intro d hd
  simp only [exLarger, List.mem_cons, List.not_mem_nil, or_false] at hd
  rcases hd with rfl | rfl | rfl <;> decide +kernel

theorem exBefore_tsModule : IsTsModule exBefore (tsModule exBefore 9) := by
  refine tsModule_ok (by unfold DistinctDecls; decide +kernel) ?_
  intro i d hd
  match i, hd with
  | 0, _ => exact ⟨_, rfl⟩
  | 1, _ => exact ⟨_, rfl⟩
  | n + 2, hd => simp [exBefore] at hd

theorem exWider_tsModule : IsTsModule exWider (tsModule exWider 9) := by
  refine tsModule_ok (by unfold DistinctDecls; decide +kernel) ?_
  intro i d hd
  match i, hd with
  | 0, _ => exact ⟨_, rfl⟩
  | 1, _ => exact ⟨_, rfl⟩
  | 2, _ => exact ⟨_, rfl⟩
  | n + 3, hd => simp [exWider] at hd

theorem exLarger_tsModule : IsTsModule exLarger (tsModule exLarger 9) := by
  refine tsModule_ok (by unfold DistinctDecls; decide +kernel) ?_
  intro i d hd
  match i, hd with
  | 0, _ => exact ⟨_, rfl⟩
  | 1, _ => exact ⟨_, rfl⟩
  | 2, _ => exact ⟨_, rfl⟩
  | n + 3, hd => simp [exLarger] at hd

theorem exBefore_scope : ∀ d ∈ exBefore, ∀ u ∈ declTypes d, InScope exBefore u := by
  intro d hd u hu
  simp only [exBefore, List.mem_cons, List.not_mem_nil, or_false] at hd
  rcases hd with rfl | rfl
  · simp [declTypes, fieldTypes, exStruct, exField] at hu
    rcases hu with rfl | rfl | hu
    · exact .prim _
    · exact .named (by decide)
    · cases hu
  · simp [declTypes, fieldTypes, exEnum, exVariant, exField] at hu
    rcases hu with rfl | hu
    · exact .prim _
    · cases hu

def exUserT : TsType := .obj [(lit "id", false, .name [lit "number"]), (lit "last", false, .name [lit "Ns", lit "Event"])]

def exEventT : TsType :=
  .union [.obj [(lit "type", false, .str (lit "Start"))],
    .obj [(lit "type", false, .str (lit "Move")), (lit "x", false, .name [lit "number"])]]

def exWiderUserT : TsType :=
  .obj [(lit "id", false, .name [lit "number"]), (lit "nick", true, .union [.name [lit "string"], .name [lit "undefined"]]),
    (lit "last", false, .name [lit "Ns", lit "Event"])]

def exWiderEventT : TsType :=
  .union [.obj [(lit "type", false, .str (lit "Stop")), (lit "why", false, .name [lit "Ns", lit "Reason"])],
    .obj [(lit "type", false, .str (lit "Start"))],
    .obj [(lit "type", false, .str (lit "Move")), (lit "x", false, .name [lit "number"]),
      (lit "y", true, .union [.name [lit "number"], .name [lit "undefined"]])],
    .obj [(lit "type", false, .str (lit "Pause"))]]

def exLargerUserT : TsType :=
  .obj [(lit "id", false, .name [lit "number"]), (lit "nick", false, .name [lit "string"]),
    (lit "last", false, .name [lit "Ns", lit "Event"]), (lit "name", false, .name [lit "Ns", lit "Name"])]

def exLargerEventT : TsType :=
  .union [.obj [(lit "type", false, .str (lit "Start"))],
    .obj [(lit "type", false, .str (lit "Move")), (lit "x", false, .name [lit "number"]), (lit "y", false, .name [lit "number"])]]

theorem exBefore_user : Returns exBefore .typeDef (.named 0) (lit "{id: number,\nlast: Ns.Event}") ∧
    readType (lit "{id: number,\nlast: Ns.Event}") = some exUserT :=
  ⟨⟨9, rfl⟩, rfl⟩

theorem exWider_user : Returns exWider .typeDef (.named 0) (lit "{id: number,\nnick?: string | undefined,\nlast: Ns.Event}") ∧
    readType (lit "{id: number,\nnick?: string | undefined,\nlast: Ns.Event}") = some exWiderUserT :=
  ⟨⟨9, rfl⟩, rfl⟩

theorem exLarger_user : Returns exLarger .typeDef (.named 0) (lit "{id: number,\nnick: string,\nlast: Ns.Event,\nname: Ns.Name}") ∧
    readType (lit "{id: number,\nnick: string,\nlast: Ns.Event,\nname: Ns.Name}") = some exLargerUserT :=
  ⟨⟨9, rfl⟩, rfl⟩

theorem exOldUser_inhabits : Inhabits (tsModule exBefore 9) false exUserT exOldUser := by
  refine .obj _ _ (fun p hp _ => ?_) (fun p hp h _ => ?_) (fun p hp h _ => ?_)
  · simp only [List.mem_cons, List.not_mem_nil, or_false] at hp
    rcases hp with rfl | rfl
    · exact .number _
    · refine .ref _ _ exEventT _ rfl (.union _ _ _ (List.mem_cons_of_mem _ List.mem_cons_self) ?_)
      refine .obj _ _ (fun p hp _ => ?_) (fun p hp h _ => ?_) (fun p hp h _ => ?_) <;>
        simp only [List.mem_cons, List.not_mem_nil, or_false] at hp <;> rcases hp with rfl | rfl <;> first
          | exact .literal _
          | exact .number _
          | cases h
  all_goals
    simp only [List.mem_cons, List.not_mem_nil, or_false] at hp
    rcases hp with rfl | rfl <;> cases h

theorem exLargerUser_inhabits : Inhabits (tsModule exLarger 9) false exLargerUserT exLargerUser := by
  refine .obj _ _ (fun p hp _ => ?_) (fun p hp h _ => ?_) (fun p hp h _ => ?_)
  · simp only [List.mem_cons, List.not_mem_nil, or_false] at hp
    rcases hp with rfl | rfl | rfl | rfl
    · exact .number _
    · exact .string _
    · refine .ref _ _ exLargerEventT _ rfl (.union _ _ _ (List.mem_cons_of_mem _ List.mem_cons_self) ?_)
      refine .obj _ _ (fun p hp _ => ?_) (fun p hp h _ => ?_) (fun p hp h _ => ?_) <;>
        simp only [List.mem_cons, List.not_mem_nil, or_false] at hp <;> rcases hp with rfl | rfl | rfl <;> first
          | exact .literal _
          | exact .number _
          | cases h
    · exact .ref _ _ (.name [lit "string"]) _ rfl (.string _)
  all_goals
    simp only [List.mem_cons, List.not_mem_nil, or_false] at hp
    rcases hp with rfl | rfl | rfl | rfl <;> cases h

/-- A user written for the old types is one of the new types. -/
example : Inhabits (tsModule exWider 9) false exWiderUserT exOldUser :=
  C82_old_is_new exNew exBefore exWider exBefore_wider exBefore_scope exBefore_good exBefore_types exBefore_styled exWider_good
    exWider_types exWider_styled _ _ exBefore_tsModule exWider_tsModule .typeDef (Or.inl rfl) (.named 0) (.named (by decide)) _ _
    exBefore_user.1 exWider_user.1 _ _ exBefore_user.2 exWider_user.2 false exOldUser exOldUser_lacks exOldUser_inhabits

/-- A user of the new types is one of the old types. -/
example : Inhabits (tsModule exBefore 9) false exUserT exLargerUser :=
  C82_new_is_old exBefore exLarger exBefore_larger exBefore_scope exBefore_good exBefore_types exBefore_styled exLarger_good
    exLarger_types exLarger_styled _ _ exBefore_tsModule exLarger_tsModule .typeDef (Or.inl rfl) (.named 0) (.named (by decide)) _ _
    exBefore_user.1 exLarger_user.1 _ _ exBefore_user.2 exLarger_user.2 false exLargerUser exLargerUser_inhabits

/-! ## What is needed -/

/-- Values of the old types are not values of the new ones if a new field is required. -/
theorem C82_default_needed : LargerProgram exBefore exLarger ∧ Inhabits (tsModule exBefore 9) false exUserT exOldUser ∧
    ∀ lenient, ¬ Inhabits (tsModule exLarger 9) lenient exLargerUserT exOldUser := by
  refine ⟨exBefore_larger, exOldUser_inhabits, fun l h => ?_⟩
  rw [exLargerUserT, inhabits_obj] at h
  obtain ⟨kvs, e, h⟩ := h
  injection e with e
  subst e
  have := ((h _ (List.mem_cons_of_mem _ List.mem_cons_self)).2 rfl rfl).2
  cases this

set_option maxRecDepth 20000 in
theorem exWider_event : tsModule exWider 9 (lit "Ns") (lit "Event") = some exWiderEventT := rfl

/-- `{ id: 7, last: { type: "Pause" } }` -/
def exPaused : JsVal := .obj [(lit "id", .num (.fin (7 : Int))), (lit "last", .obj [(lit "type", .str (lit "Pause"))])]

/-- Values of the new types are not values of the old ones if there are new variants. -/
theorem C82_no_new_variants : WiderProgram exNew exBefore exWider ∧ Inhabits (tsModule exWider 9) false exWiderUserT exPaused ∧
    ∀ lenient, ¬ Inhabits (tsModule exBefore 9) lenient exUserT exPaused := by
  refine ⟨exBefore_wider, ?_, fun l h => ?_⟩
  · refine .obj _ _ (fun p hp hx => ?_) (fun p hp h h' => ?_) (fun p hp h h' => ?_)
    · simp only [List.mem_cons, List.not_mem_nil, or_false] at hp
      rcases hp with rfl | rfl | rfl
      · exact .number _
      · cases hx
      · refine .ref _ _ exWiderEventT _ exWider_event (.union _ (.obj [(lit "type", false, .str (lit "Pause"))]) _ (by simp) ?_)
        refine .obj _ _ (fun p hp _ => ?_) (fun p hp h _ => ?_) (fun p hp h _ => ?_) <;> rw [List.mem_singleton.1 hp] at *
        · exact .literal _
        · cases h
        · cases h
    all_goals
      simp only [List.mem_cons, List.not_mem_nil, or_false] at hp
      rcases hp with rfl | rfl | rfl <;> first | (cases h; done) | (cases h'; done)
  · rw [exUserT, inhabits_obj] at h
    obtain ⟨kvs, e, h⟩ := h
    injection e with e
    subst e
    have h1 := (h _ (List.mem_cons_of_mem _ List.mem_cons_self)).1 rfl
    have e' : tsModule exBefore 9 (lit "Ns") (lit "Event") = some exEventT := rfl
    cases h1 with
    | ref _ _ t _ ht hv =>
      rw [e'] at ht
      cases ht
      rw [exEventT, inhabits_union] at hv
      obtain ⟨t, ht, hv⟩ := hv
      simp only [List.mem_cons, List.not_mem_nil, or_false] at ht
      rcases ht with rfl | rfl
      all_goals
        rw [inhabits_obj] at hv
        obtain ⟨kvs, e, hv⟩ := hv
        injection e with e
        subst e
        have := (hv _ List.mem_cons_self).1 rfl
        cases this

/-- `{ id: 7, nick: 5, last: { type: "Start" } }` -/
def exExtra : JsVal :=
  .obj [(lit "id", .num (.fin (7 : Int))), (lit "nick", .num (.fin (5 : Int))), (lit "last", .obj [(lit "type", .str (lit "Start"))])]

/-- Values of the old types that have a property of the name of a new field need not be values of the new ones. -/
theorem C82_names_needed : WiderProgram exNew exBefore exWider ∧ Inhabits (tsModule exBefore 9) false exUserT exExtra ∧
    ∀ lenient, ¬ Inhabits (tsModule exWider 9) lenient exWiderUserT exExtra := by
  refine ⟨exBefore_wider, ?_, fun l h => ?_⟩
  · refine .obj _ _ (fun p hp hx => ?_) (fun p hp h h' => ?_) (fun p hp h h' => ?_)
    · simp only [List.mem_cons, List.not_mem_nil, or_false] at hp
      rcases hp with rfl | rfl
      · exact .number _
      · refine .ref _ _ exEventT _ rfl (.union _ _ _ List.mem_cons_self ?_)
        refine .obj _ _ (fun p hp _ => ?_) (fun p hp h _ => ?_) (fun p hp h _ => ?_) <;> rw [List.mem_singleton.1 hp] at *
        · exact .literal _
        · cases h
        · cases h
    all_goals
      simp only [List.mem_cons, List.not_mem_nil, or_false] at hp
      rcases hp with rfl | rfl <;> cases h
  · rw [exWiderUserT, inhabits_obj] at h
    obtain ⟨kvs, e, h⟩ := h
    injection e with e
    subst e
    have h1 := (h _ (List.mem_cons_of_mem _ List.mem_cons_self)).1 rfl
    rw [inhabits_union] at h1
    obtain ⟨t, ht, hv⟩ := h1
    simp only [List.mem_cons, List.not_mem_nil, or_false] at ht
    rcases ht with rfl | rfl <;> cases hv

end Verif.Props
