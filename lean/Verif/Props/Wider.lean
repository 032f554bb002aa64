import Verif.Zod.Wider
import Verif.Props.Evolve
import Verif.Props.Complete

/-!
# C79: what was valid stays valid when a program grows
-/

namespace Verif.Props
open Verif Verif.Schema Verif.SchemaSpec Verif.Js Verif.Spec Verif.Zod

/-- **C79.** Let new variants, new fields with a default and new types be added to a program, at any places. If the
modules of both programs load, then what a schema accepts is not rejected by the new schema of the type, if no object
inside of the value has a property with the name of a new field. -/
theorem C79_not_rejected (K : Str → Prop) (P P' : Program) (hP : WiderProgram K P P') (hg : GoodNames P) (hw : WellStyled P)
    (hg' : GoodNames P') (hw' : WellStyled P') (E E' : ZEnv) (hE : IsModule P E) (hE' : IsModule P' E') (hl : Loads P E)
    (hl' : Loads P' E') (m : Method) (hm : m = .schema ∨ m = .inlineSchema) (t : Ty) (s s' : Str) (h : Returns P m t s)
    (h' : Returns P' m t s') (z z' : ZSchema) (hz : readSchema s = some z) (hz' : readSchema s' = some z') (v : JsVal)
    (hv : Lacks K v) (ha : Accepts E z v) : ¬ Rejects E' z' v := by
  rintro ⟨k', hk'⟩
  obtain ⟨r, k, hk⟩ := ha
  obtain ⟨n, hn⟩ := h
  obtain ⟨n', hn'⟩ := h'
  rw [(eval_agree hg hw n m t s hm hn).read] at hz
  rw [(eval_agree hg' hw' n' m t s' hm hn').read] at hz'
  have hG := widerProgram_grown hP
  have hL := grown_linked hG (envOk_of_module hg hw hE) (envOk_of_module hg' hw' hE') hl hl'
  exact grown_never (gr := .variants) nofun hL k' k z z' (grown_zOf hG n n' m t z z' hz hz') v r hv hk hk'

/-- **C79, accepted.** If in addition no type of the new program is made of itself through nothing but boxes, newtypes,
options, conversions and untagged enums, so that validating ends, then the new schema accepts the value. -/
theorem C79_accepted (K : Str → Prop) (P P' : Program) (hP : WiderProgram K P P') (hg : GoodNames P) (hw : WellStyled P)
    (hg' : GoodNames P') (hw' : WellStyled P') (hpl : ∀ d ∈ P', Plain d) (hG : Guarded P') (E E' : ZEnv) (hE : IsModule P E)
    (hE' : IsModule P' E') (hl : Loads P E) (hl' : Loads P' E') (m : Method) (hm : m = .schema ∨ m = .inlineSchema) (t : Ty)
    (s s' : Str) (h : Returns P m t s) (h' : Returns P' m t s') (z z' : ZSchema) (hz : readSchema s = some z)
    (hz' : readSchema s' = some z') (v : JsVal) (hv : Lacks K v) (ha : Accepts E z v) : Accepts E' z' v := by
  obtain ⟨n, x, hx⟩ := C50_partial P' E' hg' hw' hpl hG hE' m hm t s' h' z' hz' v
  cases x with
  | some r => exact ⟨r, n, hx⟩
  | none => exact absurd ⟨n, hx⟩ (C79_not_rejected K P P' hP hg hw hg' hw' E E' hE hE' hl hl' m hm t s s' h h' z z' hz hz' v hv ha)

/-- **C79, the server.** serde goes on to accept the documents it accepts, if the variants of each enum have different names
and no object in the document has a member with the name or an alias of a new field. -/
theorem C79_read (K : Str → Prop) (P P' : Program) (hP : WiderProgram K P P')
    (hn : ∀ e, Decl.enum e ∈ P' → (e.variants.map (·.name)).Nodup) (t : Ty) (j : Json) (hj : Lacks K (fromJson j)) (h : De P t j) :
    De P' t j :=
  de_wider hP hn hj h

/-! ## The hypotheses are met -/

/-- `exAfter` with new variants `Stop { why: Reason }`, which comes first, and `Pause`, and the new type
`enum Reason { Hit, Other(String) }`. -/
def exWider : Program :=
  [ .struct (exStruct "User" [exField "id" (.prim .u32), { exField "nick" (.prim .string) with dflt := true }, exField "last" (.named 1)]),
    .enum (exEnum "Event" (.internal (lit "type")) [exVariant "Stop" .named [exField "why" (.named 2)], exVariant "Start" .unit [],
      exVariant "Move" .named [exField "x" (.prim .i32), { exField "y" (.prim .i32) with dflt := true }], exVariant "Pause" .unit []]),
    .enum (exEnum "Reason" .external [exVariant "Hit" .unit [], exVariant "Other" .tuple [exPos (.prim .string)]]) ]

theorem exBefore_wider : WiderProgram exNew exBefore exWider := by
  intro i d hd
  match i, hd with
  | 0, hd =>
    cases hd
    refine ⟨_, rfl, .fields (.struct (exStruct "User" [exField "id" (.prim .u32), exField "last" (.named 1)]) _ rfl rfl ?_)⟩
    refine .same _ (.new _ rfl (.inr rfl) rfl rfl ?_ (.same _ .nil))
    intro a ha
    simp only [exField, List.mem_cons, List.not_mem_nil, or_false] at ha
    exact .inl ha
  | 1, hd =>
    cases hd
    refine ⟨_, rfl, .variants (exEnum "Event" (.internal (lit "type")) [exVariant "Start" .unit [],
      exVariant "Move" .named [exField "x" (.prim .i32)]]) _ ?_⟩
    refine .new _ (.same (.same _) (.same ?_ (.new _ .nil)))
    refine .fields (exVariant "Move" .named [exField "x" (.prim .i32)]) _ rfl (.same _ (.new _ rfl (.inr rfl) rfl rfl ?_ .nil))
    intro a ha
    simp only [exField, List.mem_cons, List.not_mem_nil, or_false] at ha
    exact .inr ha
  | n + 2, hd => simp [exBefore] at hd

theorem exWider_good : GoodNames exWider := by
  intro d hd
  simp only [exWider, List.mem_cons, List.not_mem_nil, or_false] at hd
  rcases hd with rfl | rfl | rfl <;> decide +kernel

theorem exWider_styled : WellStyled exWider := by
  intro d hd
  simp only [exWider, List.mem_cons, List.not_mem_nil, or_false] at hd
  rcases hd with rfl | rfl | rfl <;> decide +kernel

theorem exWider_plain : ∀ d ∈ exWider, Plain d := by
  intro d hd
  simp only [exWider, List.mem_cons, List.not_mem_nil, or_false] at hd
  rcases hd with e | e | e <;> subst e <;> simp [Plain, exTuple, exStruct, exEnum, exVariant, exPos, exField]

theorem exWider_module : IsModule exWider (moduleEnv exWider 9) := by
  refine moduleEnv_isModule exWider_good exWider_styled (by unfold DistinctDecls; decide +kernel) ?_
  intro i d hd
  match i, hd with
  | 0, _ => exact ⟨_, rfl⟩
  | 1, _ => exact ⟨_, rfl⟩
  | 2, _ => exact ⟨_, rfl⟩
  | n + 3, hd => simp [exWider] at hd

theorem exWider_loads : Loads exWider (moduleEnv exWider 9) := by
  intro d hd
  simp only [exWider, List.mem_cons, List.not_mem_nil, or_false] at hd
  rcases hd with rfl | rfl | rfl <;> exact fun h => by cases h

theorem exWider_guarded : Guarded exWider := by
  intro i
  rw [← acc_iff_not_endless]
  refine ⟨_, fun u hu => ?_⟩
  exfalso
  cases hu with
  | from_ _ d t hd ht =>
    match i, hd with
    | 0, hd => cases hd; cases ht
    | 1, hd => cases hd; cases ht
    | 2, hd => cases hd; cases ht
    | n + 3, hd => simp [exWider] at hd
  | struct _ s f hd _ ht hk =>
    match i, hd with
    | 0, hd => cases hd; rcases ht with ht | ht <;> cases ht
    | 1, hd => cases hd
    | 2, hd => cases hd
    | n + 3, hd => simp [exWider] at hd
  | untagged _ e v f hd _ ht =>
    match i, hd with
    | 0, hd => cases hd
    | 1, hd => cases hd; cases ht
    | 2, hd => cases hd; cases ht
    | n + 3, hd => simp [exWider] at hd

/-- The new program accepts the user written before. -/
example : ∃ s s' z z', Returns exBefore .schema (.named 0) s ∧ Returns exWider .schema (.named 0) s' ∧
    readSchema s = some z ∧ readSchema s' = some z' ∧ Accepts (moduleEnv exBefore 9) z exOldUser ∧
    Accepts (moduleEnv exWider 9) z' exOldUser := by
  have h0 : ∃ s, eval exBefore 9 .schema (.named 0) = some s := ⟨_, rfl⟩
  have h0' : ∃ s, eval exWider 9 .schema (.named 0) = some s := ⟨_, rfl⟩
  obtain ⟨s, hs⟩ := h0
  obtain ⟨s', hs'⟩ := h0'
  have hz := (eval_agree exBefore_good exBefore_styled 9 .schema (.named 0) s (Or.inl rfl) hs).read
  have hz' := (eval_agree exWider_good exWider_styled 9 .schema (.named 0) s' (Or.inl rfl) hs').read
  have h1 : ∃ z, zOf exBefore 9 .schema (.named 0) = some z ∧ ∃ r, parse (moduleEnv exBefore 9) 9 z exOldUser = some (some r) :=
    ⟨_, rfl, _, rfl⟩
  have h2 : ∃ z', zOf exWider 9 .schema (.named 0) = some z' := ⟨_, rfl⟩
  obtain ⟨z, e, r, hr⟩ := h1
  obtain ⟨z', e'⟩ := h2
  rw [e] at hz; rw [e'] at hz'
  exact ⟨s, s', z, z', ⟨9, hs⟩, ⟨9, hs'⟩, hz, hz', ⟨r, 9, hr⟩,
    C79_accepted exNew exBefore exWider exBefore_wider exBefore_good exBefore_styled exWider_good exWider_styled exWider_plain
      exWider_guarded _ _ exBefore_module exWider_module exBefore_loads exWider_loads .schema (Or.inl rfl) (.named 0) s s' ⟨9, hs⟩
      ⟨9, hs'⟩ z z' hz hz' exOldUser exOldUser_lacks ⟨r, 9, hr⟩⟩

example : De exWider (.named 0) exOldDoc := by
  refine C79_read exNew exBefore exWider exBefore_wider ?_ _ _ exOldDoc_lacks exOldDoc_read
  intro e he
  simp only [exWider, List.mem_cons, List.not_mem_nil, or_false, reduceCtorEq, false_or, Decl.enum.injEq] at he
  rcases he with rfl | rfl <;> decide +kernel

/-! ## What is not the same -/

/-- `#[serde(untagged)] enum U { A { x: u8 } }`, then with the new variant `B { y: Option<u8> }` in front. -/
def exOpen : Program :=
  [.enum (exEnum "U" .untagged [exVariant "A" .named [exField "x" (.prim .u8)]])]

def exOpened : Program :=
  [.enum (exEnum "U" .untagged [exVariant "B" .named [exField "y" (.option (.prim .u8))], exVariant "A" .named [exField "x" (.prim .u8)]])]

theorem exOpen_wider : WiderProgram (fun _ => False) exOpen exOpened := by
  intro i d hd
  match i, hd with
  | 0, hd =>
    cases hd
    exact ⟨_, rfl, .variants (exEnum "U" .untagged [exVariant "A" .named [exField "x" (.prim .u8)]]) _ (.new _ (.same (.same _) .nil))⟩
  | n + 1, hd => simp [exOpen] at hd

/-- The new schema may return something else: here it drops the field. -/
theorem C79_result_changes : WiderProgram (fun _ => False) exOpen exOpened ∧ ∃ (z z' : ZSchema) (v : JsVal),
    zOf exOpen 9 .schema (.named 0) = some z ∧ zOf exOpened 9 .schema (.named 0) = some z' ∧
    ParsesTo (moduleEnv exOpen 9) z v v ∧ ParsesTo (moduleEnv exOpened 9) z' v (.obj []) ∧ v ≠ .obj [] :=
  ⟨exOpen_wider, _, _, .obj [(lit "x", .num (.fin (1 : Int)))], rfl, rfl, ⟨9, rfl⟩, ⟨9, rfl⟩, by simp⟩

/-- `#[serde(untagged)] enum U { Y(u8) }`; `exLoop` has the new variant `X(B)` in front and the new type `struct B(Box<U>)`. -/
def exPlainBox : Program :=
  [.enum (exEnum "U" .untagged [exVariant "Y" .tuple [exPos (.prim .u8)]])]

theorem exFine_wider : WiderProgram (fun _ => False) exPlainBox exLoop := by
  intro i d hd
  match i, hd with
  | 0, hd =>
    cases hd
    exact ⟨_, rfl, .variants (exEnum "U" .untagged [exVariant "Y" .tuple [exPos (.prim .u8)]]) _ (.new _ (.same (.same _) .nil))⟩
  | n + 1, hd => simp [exPlainBox] at hd

/-- The condition for `C79_accepted` is needed: validating may not end any more. -/
theorem C79_condition_needed : WiderProgram (fun _ => False) exPlainBox exLoop ∧ ∃ (z z' : ZSchema) (v : JsVal),
    zOf exPlainBox 8 .schema (.named 0) = some z ∧ zOf exLoop 8 .schema (.named 0) = some z' ∧
    Accepts (moduleEnv exPlainBox 8) z v ∧ ¬ Accepts (moduleEnv exLoop 8) z' v := by
  refine ⟨exFine_wider, _, .union [.lazy (lit "Ns") (lit "B"), .number [.finite, .int, .gte 0, .lte 255]], .num (.fin (1 : Int)),
    rfl, rfl, ⟨_, 8, rfl⟩, ?_⟩
  rintro ⟨r, n, h⟩
  rw [(exLoop_never n).2] at h
  cases h

end Verif.Props
