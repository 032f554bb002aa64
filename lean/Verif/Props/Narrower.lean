import Verif.Zod.Narrower
import Verif.Zod.NarrowerDe
import Verif.Props.Wider

/-!
# C81: what is valid with new fields is valid without them
-/

namespace Verif.Props
open Verif Verif.Schema Verif.SchemaSpec Verif.Js Verif.Spec Verif.Zod

/-- **C81.** Let new fields, required or not, and new types be added to a program, at any places. If the modules of both
programs load, then what the new schema of a type accepts is accepted by the schema it had before. -/
theorem C81_accepted (P P' : Program) (hP : LargerProgram P P') (hg : GoodNames P) (hw : WellStyled P) (hg' : GoodNames P')
    (hw' : WellStyled P') (E E' : ZEnv) (hE : IsModule P E) (hE' : IsModule P' E') (hl : Loads P E) (hl' : Loads P' E') (m : Method)
    (hm : m = .schema ∨ m = .inlineSchema) (t : Ty) (s s' : Str) (h : Returns P m t s) (h' : Returns P' m t s') (z z' : ZSchema)
    (hz : readSchema s = some z) (hz' : readSchema s' = some z') (v : JsVal) (ha : Accepts E' z' v) : Accepts E z v := by
  obtain ⟨n, hn⟩ := h
  obtain ⟨n', hn'⟩ := h'
  rw [(eval_agree hg hw n m t s hm hn).read] at hz
  rw [(eval_agree hg' hw' n' m t s' hm hn').read] at hz'
  have hG := largerProgram_grown hP
  have hL := grown_linked hG (envOk_of_module hg hw hE) (envOk_of_module hg' hw' hE') hl hl'
  exact narrower_accepts (gr := .any) nofun hL (grown_zOf hG n n' m t z z' hz hz') ha

/-- **C81, the other way around.** What the schema rejected before is not accepted with new fields. -/
theorem C81_rejected (P P' : Program) (hP : LargerProgram P P') (hg : GoodNames P) (hw : WellStyled P) (hg' : GoodNames P')
    (hw' : WellStyled P') (E E' : ZEnv) (hE : IsModule P E) (hE' : IsModule P' E') (hl : Loads P E) (hl' : Loads P' E') (m : Method)
    (hm : m = .schema ∨ m = .inlineSchema) (t : Ty) (s s' : Str) (h : Returns P m t s) (h' : Returns P' m t s') (z z' : ZSchema)
    (hz : readSchema s = some z) (hz' : readSchema s' = some z') (v : JsVal) (hr : Rejects E z v) : ¬ Accepts E' z' v := by
  intro ha
  obtain ⟨r, k, hk⟩ := C81_accepted P P' hP hg hw hg' hw' E E' hE hE' hl hl' m hm t s s' h h' z z' hz hz' v ha
  obtain ⟨k', hk'⟩ := hr
  have h1 := parse_mono (Nat.le_max_left k k') hk
  rw [parse_mono (Nat.le_max_right k k') hk'] at h1
  cases h1

/-- **C81, the server.** If declarations with `deny_unknown_fields` or flattened fields get no new fields, serde accepts
without the new fields the documents it accepts with them. -/
theorem C81_read (P P' : Program) (hP : LargerProgram P P') (hs : ∀ d ∈ P, ∀ u ∈ declTypes d, InScope P u)
    (hk : ∀ (i : Nat) (d : Decl), P[i]? = some d → (Spec.Decl.deny d = true ∨ ∃ f ∈ allFields d, f.flatten = true) → P'[i]? = some d)
    (t : Ty) (ht : InScope P t) (j : Json) (h : De P' t j) : De P t j := by
  refine de_less (fun i d hd => ?_) hs ht h
  obtain ⟨d', h1, h2⟩ := hP i d hd
  by_cases hc : Spec.Decl.deny d = true ∨ ∃ f ∈ allFields d, f.flatten = true
  · exact ⟨d, hk i d hd hc, .same d⟩
  · refine ⟨d', h1, moreDecl_less h2 ?_ ?_⟩
    · cases hx : Spec.Decl.deny d with
      | false => rfl
      | true => exact absurd (.inl hx) hc
    · intro f hf
      cases hx : f.flatten with
      | false => rfl
      | true => exact absurd (.inr ⟨f, hf, hx⟩) hc

/-! ## The hypotheses are met -/

/-- `exBefore` with the new fields `nick: String`, `name: Name` of the struct and `y: i32` of a variant, and the new type
`struct Name(String)`. -/
def exLarger : Program :=
  [ .struct (exStruct "User" [exField "id" (.prim .u32), exField "nick" (.prim .string), exField "last" (.named 1), exField "name" (.named 2)]),
    .enum (exEnum "Event" (.internal (lit "type")) [exVariant "Start" .unit [],
      exVariant "Move" .named [exField "x" (.prim .i32), exField "y" (.prim .i32)]]),
    .struct (exTuple "Name" [exPos (.prim .string)]) ]

theorem exBefore_larger : LargerProgram exBefore exLarger := by
  intro i d hd
  match i, hd with
  | 0, hd =>
    cases hd
    exact ⟨_, rfl, .struct (exStruct "User" [exField "id" (.prim .u32), exField "last" (.named 1)]) _ rfl rfl
      (.same _ (.new _ rfl (.inl rfl) rfl rfl (fun _ _ => trivial) (.same _ (.new _ rfl (.inl rfl) rfl rfl (fun _ _ => trivial) .nil))))⟩
  | 1, hd =>
    cases hd
    exact ⟨_, rfl, .enum (exEnum "Event" (.internal (lit "type")) [exVariant "Start" .unit [],
        exVariant "Move" .named [exField "x" (.prim .i32)]]) _
      (.cons (.same _) (.cons (.fields (exVariant "Move" .named [exField "x" (.prim .i32)]) _ rfl
        (.same _ (.new _ rfl (.inl rfl) rfl rfl (fun _ _ => trivial) .nil))) .nil))⟩
  | n + 2, hd => simp [exBefore] at hd

theorem exLarger_good : GoodNames exLarger := by
  intro d hd
  simp only [exLarger, List.mem_cons, List.not_mem_nil, or_false] at hd
  rcases hd with rfl | rfl | rfl <;> decide +kernel

theorem exLarger_styled : WellStyled exLarger := by
  intro d hd
  simp only [exLarger, List.mem_cons, List.not_mem_nil, or_false] at hd
  rcases hd with rfl | rfl | rfl <;> decide +kernel

theorem exLarger_module : IsModule exLarger (moduleEnv exLarger 9) := by
  refine moduleEnv_isModule exLarger_good exLarger_styled (by unfold DistinctDecls; decide +kernel) ?_
  intro i d hd
  match i, hd with
  | 0, _ => exact ⟨_, rfl⟩
  | 1, _ => exact ⟨_, rfl⟩
  | 2, _ => exact ⟨_, rfl⟩
  | n + 3, hd => simp [exLarger] at hd

theorem exLarger_loads : Loads exLarger (moduleEnv exLarger 9) := by
  intro d hd
  simp only [exLarger, List.mem_cons, List.not_mem_nil, or_false] at hd
  rcases hd with rfl | rfl | rfl <;> exact fun h => by cases h

/-- `{ id: 7, nick: "z", last: { type: "Move", x: 1, y: 2 }, name: "n" }` -/
def exLargerUser : JsVal :=
  .obj [(lit "id", .num (.fin (7 : Int))), (lit "nick", .str (lit "z")),
    (lit "last", .obj [(lit "type", .str (lit "Move")), (lit "x", .num (.fin (1 : Int))), (lit "y", .num (.fin (2 : Int)))]),
    (lit "name", .str (lit "n"))]

/-- The schema of before accepts the user of the new program. -/
example : ∃ s s' z z', Returns exBefore .schema (.named 0) s ∧ Returns exLarger .schema (.named 0) s' ∧
    readSchema s = some z ∧ readSchema s' = some z' ∧ Accepts (moduleEnv exLarger 9) z' exLargerUser ∧
    Accepts (moduleEnv exBefore 9) z exLargerUser := by
  have h0 : ∃ s, eval exBefore 9 .schema (.named 0) = some s := ⟨_, rfl⟩
  have h0' : ∃ s, eval exLarger 9 .schema (.named 0) = some s := ⟨_, rfl⟩
  obtain ⟨s, hs⟩ := h0
  obtain ⟨s', hs'⟩ := h0'
  have hz := (eval_agree exBefore_good exBefore_styled 9 .schema (.named 0) s (Or.inl rfl) hs).read
  have hz' := (eval_agree exLarger_good exLarger_styled 9 .schema (.named 0) s' (Or.inl rfl) hs').read
  have h1 : ∃ z, zOf exBefore 9 .schema (.named 0) = some z := ⟨_, rfl⟩
  have h2 : ∃ z', zOf exLarger 9 .schema (.named 0) = some z' ∧ ∃ r, parse (moduleEnv exLarger 9) 9 z' exLargerUser = some (some r) :=
    ⟨_, rfl, _, rfl⟩
  obtain ⟨z, e⟩ := h1
  obtain ⟨z', e', r, hr⟩ := h2
  rw [e] at hz; rw [e'] at hz'
  exact ⟨s, s', z, z', ⟨9, hs⟩, ⟨9, hs'⟩, hz, hz', ⟨r, 9, hr⟩,
    C81_accepted exBefore exLarger exBefore_larger exBefore_good exBefore_styled exLarger_good exLarger_styled _ _ exBefore_module
      exLarger_module exBefore_loads exLarger_loads .schema (Or.inl rfl) (.named 0) s s' ⟨9, hs⟩ ⟨9, hs'⟩ z z' hz hz' exLargerUser
      ⟨r, 9, hr⟩⟩

/-- `{"id": 7, "nick": "z", "last": {"type": "Move", "x": 1, "y": 2}, "name": "n"}` -/
def exLargerDoc : Json :=
  .obj [(lit "id", .num (.int 7)), (lit "nick", .str (lit "z")),
    (lit "last", .obj [(lit "type", .str (lit "Move")), (lit "x", .num (.int 1)), (lit "y", .num (.int 2))]), (lit "name", .str (lit "n"))]

theorem exLargerDoc_read : De exLarger (.named 0) exLargerDoc := by
  refine .struct 0 (exStruct "User" [exField "id" (.prim .u32), exField "nick" (.prim .string), exField "last" (.named 1),
    exField "name" (.named 2)]) _ rfl rfl rfl ?_
  refine .named none _ _ (by decide +kernel) (fun _ h => by cases h) ?_ ?_
  · intro f hf _ _
    simp only [StructDecl.deFields, exStruct, Bool.false_eq_true, if_false, List.mem_cons, List.not_mem_nil, or_false] at hf
    rcases hf with rfl | rfl | rfl | rfl
    · exact .present _ _ (.num (.int 7)) rfl rfl (by simp [exField]) (.int .u32 0 4294967295 7 rfl (by decide) (by decide))
    · exact .present _ _ (.str (lit "z")) rfl rfl (by simp [exField]) (.string _)
    · refine .present _ _ (.obj [(lit "type", .str (lit "Move")), (lit "x", .num (.int 1)), (lit "y", .num (.int 2))]) rfl rfl
        (by simp [exField]) ?_
      refine .internal 1 _ (exVariant "Move" .named [exField "x" (.prim .i32), exField "y" (.prim .i32)]) (lit "type") _ rfl rfl rfl rfl
        rfl rfl ?_
      refine .named none _ _ (by decide +kernel) (fun _ h => by cases h) ?_ ?_
      · intro f hf _ _
        simp only [exVariant, List.mem_cons, List.not_mem_nil, or_false] at hf
        rcases hf with rfl | rfl
        · exact .present _ _ (.num (.int 1)) rfl rfl (by simp [exField]) (.int .i32 (-2147483648) 2147483647 1 rfl (by decide) (by decide))
        · exact .present _ _ (.num (.int 2)) rfl rfl (by simp [exField]) (.int .i32 (-2147483648) 2147483647 2 rfl (by decide) (by decide))
      · intro f hf _ hfl
        simp only [exVariant, List.mem_cons, List.not_mem_nil, or_false] at hf
        rcases hf with rfl | rfl <;> cases hfl
    · exact .present _ _ (.str (lit "n")) rfl rfl (by simp [exField])
        (.struct 2 (exTuple "Name" [exPos (.prim .string)]) _ rfl rfl rfl (.newtype none (exPos (.prim .string)) _ rfl (.string _)))
  · intro f hf _ hfl
    simp only [StructDecl.deFields, exStruct, Bool.false_eq_true, if_false, List.mem_cons, List.not_mem_nil, or_false] at hf
    rcases hf with rfl | rfl | rfl | rfl <;> cases hfl

example : De exBefore (.named 0) exLargerDoc := by
  refine C81_read exBefore exLarger exBefore_larger ?_ ?_ (.named 0) (.named (by decide)) exLargerDoc exLargerDoc_read
  · intro d hd u hu
    simp only [exBefore, List.mem_cons, List.not_mem_nil, or_false] at hd
    rcases hd with rfl | rfl <;>
      simp [declTypes, fieldTypes, exStruct, exEnum, exVariant, exField, From.ty?] at hu
    · rcases hu with rfl | rfl
      · exact .prim _
      · exact .named (by decide)
    · subst hu
      exact .prim _
  · intro i d hd hc
    match i, hd with
    | 0, hd => cases hd; simp [Spec.Decl.deny, exStruct, allFields, exField] at hc
    | 1, hd => cases hd; simp [Spec.Decl.deny, exEnum, exVariant, allFields, exField] at hc
    | n + 2, hd => simp [exBefore] at hd

/-! ## What is not the same -/

/-- Values without a new required field are rejected by the new schema, so the other direction does not hold. -/
theorem C81_converse_fails : LargerProgram exBefore exLarger ∧ ∃ (z z' : ZSchema),
    zOf exBefore 9 .schema (.named 0) = some z ∧ zOf exLarger 9 .schema (.named 0) = some z' ∧
    Accepts (moduleEnv exBefore 9) z exOldUser ∧ Rejects (moduleEnv exLarger 9) z' exOldUser :=
  ⟨exBefore_larger, _, _, rfl, rfl, ⟨_, 9, rfl⟩, ⟨9, rfl⟩⟩

/-- What is returned is not the same: the schema of before drops the new fields. -/
theorem C81_result_changes : ∃ (z z' : ZSchema), zOf exBefore 9 .schema (.named 0) = some z ∧ zOf exLarger 9 .schema (.named 0) = some z' ∧
    ParsesTo (moduleEnv exLarger 9) z' exLargerUser exLargerUser ∧
    ParsesTo (moduleEnv exBefore 9) z exLargerUser
      (.obj [(lit "id", .num (.fin (7 : Int))), (lit "last", .obj [(lit "type", .str (lit "Move")), (lit "x", .num (.fin (1 : Int)))])]) :=
  ⟨_, _, rfl, rfl, ⟨9, rfl⟩, ⟨9, rfl⟩⟩

/-- `#[serde(deny_unknown_fields)] struct S { a: u8 }`, and with the new field `b: u8`. -/
def exDenied : Program := [.struct { exStruct "S" [exField "a" (.prim .u8)] with deny := true }]

def exDeniedMore : Program := [.struct { exStruct "S" [exField "a" (.prim .u8), exField "b" (.prim .u8)] with deny := true }]

/-- With `deny_unknown_fields` serde rejects the members of new fields. -/
theorem C81_deny_needed : LargerProgram exDenied exDeniedMore ∧
    De exDeniedMore (.named 0) (.obj [(lit "a", .num (.int 1)), (lit "b", .num (.int 2))]) ∧
    ¬ De exDenied (.named 0) (.obj [(lit "a", .num (.int 1)), (lit "b", .num (.int 2))]) := by
  refine ⟨?_, ?_, ?_⟩
  · intro i d hd
    match i, hd with
    | 0, hd =>
      cases hd
      exact ⟨_, rfl, .struct { exStruct "S" [exField "a" (.prim .u8)] with deny := true } _ rfl rfl
        (.same _ (.new _ rfl (.inl rfl) rfl rfl (fun _ _ => trivial) .nil))⟩
    | n + 1, hd => simp [exDenied] at hd
  · refine .struct 0 { exStruct "S" [exField "a" (.prim .u8), exField "b" (.prim .u8)] with deny := true } _ rfl rfl rfl ?_
    refine .named _ _ _ (by decide +kernel) ?_ ?_ ?_
    · intro names h p hp
      cases h
      simp only [List.mem_cons, List.not_mem_nil, or_false] at hp
      rcases hp with rfl | rfl <;> decide +kernel
    · intro f hf _ _
      simp only [StructDecl.deFields, exStruct, Bool.false_eq_true, if_false, List.mem_cons, List.not_mem_nil, or_false] at hf
      rcases hf with rfl | rfl
      · exact .present _ _ (.num (.int 1)) rfl rfl (by simp [exField]) (.int .u8 0 255 1 rfl (by decide) (by decide))
      · exact .present _ _ (.num (.int 2)) rfl rfl (by simp [exField]) (.int .u8 0 255 2 rfl (by decide) (by decide))
    · intro f hf _ hfl
      simp only [StructDecl.deFields, exStruct, Bool.false_eq_true, if_false, List.mem_cons, List.not_mem_nil, or_false] at hf
      rcases hf with rfl | rfl <;> cases hfl
  · intro h
    generalize hj : Json.obj [(lit "a", .num (.int 1)), (lit "b", .num (.int 2))] = j at h
    cases h with
    | from_ _ d t _ hd hf => cases hd; cases hf
    | transparent _ s f _ hd _ ht => cases hd; cases ht
    | struct _ s _ hd _ _ hb =>
      cases hd
      cases hb with
      | named _ _ kvs _ hm =>
        cases hj
        have := hm [] rfl (lit "b", .num (.int 2)) (by simp)
        revert this
        decide +kernel
    | externalUnit _ e _ hd => cases hd
    | external _ e _ _ hd => cases hd
    | internalUnit _ e _ _ _ hd => cases hd
    | internal _ e _ _ _ hd => cases hd
    | internalNewtype _ e _ _ _ _ hd => cases hd
    | adjacentUnit _ e _ _ _ _ hd => cases hd
    | adjacent _ e _ _ _ _ _ hd => cases hd
    | untaggedUnit _ e _ hd => cases hd
    | untagged _ e _ _ hd => cases hd

end Verif.Props
