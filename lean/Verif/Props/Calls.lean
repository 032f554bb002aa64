import Verif.Zod.Sent
import Verif.Zod.DeValue
import Verif.Props.Sound
import Verif.Props.Wire
import Verif.Spec.ModuleOf

/-!
# C57: calls that pass validation reach the method

Specifications: `Verif/Spec/Sent.lean` (what is sent), `Verif/Spec/Serde.lean` (what serde accepts),
`Verif/Spec/Stubs.lean` (what a client function does), `Verif/Spec/Dispatch.lean` (what a call names).
-/

namespace Verif.Props
open Verif Verif.Schema Verif.SchemaSpec Verif.Js Verif.Zod Verif.Spec Verif.Codegen
open Verif.WireSpec Verif.DispatchSpec Verif.ServerSpec

/-- The message sent for these arguments is decoded to a call of method `j` of field `i`, with as arguments what
the decoders of the method make of them. -/
def Delivered {S V : Type} (b : BackendDef S V) (i j : Nat) (n : NamespaceDef S V) (m : MethodDef S V) (f : RpcItem)
    (id : Nat) (l : List JsVal) (vs : List V) : Prop :=
  ∃ js value, stringify (.arr l) = some (some (.arr js)) ∧
    Request.decode (clientMessage id n.nsName f.ident js) = .ok (.exec id value) ∧
    ArgsDecode m.args (js.map Json.toValue) vs ∧ b.service.decode value = .ok ⟨i, j, vs⟩

/-- The full property: if the arguments of a client function pass its validation, the server decodes the message
to a call of the method with these arguments. `es` are the schemas in the client function (see `StubItem`), `zs` what
they evaluate to; `z.tuple([..]).parse([...arguments])` is `C22_validation`. -/
def C57_statement : Prop :=
  ∀ (P : Program) (E : ZEnv), Valid P → GoodNames P → WellStyled P → IsModule P E →
    ∀ (f : RpcItem) (es : List JsExpr) (zs : List ZSchema), All2 (SchemaOf P) f.args es →
    All2 (fun e z => evalE e = some (.schema z)) es zs →
    ∀ (S V : Type) (b : BackendDef S V), WellFormed b → ∀ i j n m, HasMethod b i n j m → MethodFor P f m →
    ∀ (l : List JsVal) (r : JsVal), ParsesTo E (.tuple zs) (.arr l) r → properJs (.arr l) = true →
    ∀ id, id < 2 ^ 64 → ∃ vs, Delivered b i j n m f id l vs

theorem argsDecode_of {S V : Type} {P : Program} {f : RpcItem} {m : MethodDef S V} (hm : MethodFor P f m)
    {js : List Json} (h : All2 (De P) (f.args.map (·.2)) js) :
    ∃ vs, ArgsDecode m.args (js.map Json.toValue) vs := by
  obtain ⟨_, hm⟩ := hm
  generalize m.args = ds at hm
  generalize f.args = as at hm h
  induction hm generalizing js with
  | nil => cases h; exact ⟨[], .nil⟩
  | cons h1 _ ih =>
    cases h with
    | cons h2 h3 =>
      obtain ⟨vs, hv⟩ := ih h3
      obtain ⟨v, h1⟩ := h1 _ (de_value h2)
      exact ⟨v :: vs, .cons h1 hv⟩

theorem schemas_zOf {P : Program} (hg : GoodNames P) (hw : WellStyled P) {as : List (Str × Ty)} {es : List JsExpr}
    {zs : List ZSchema} (h1 : All2 (SchemaOf P) as es) (h2 : All2 (fun e z => evalE e = some (.schema z)) es zs) :
    All2 (fun t z => ∃ n m, zOf P n m t = some z) (as.map (·.2)) zs := by
  induction h1 generalizing zs with
  | nil => cases h2; exact .nil
  | cons h _ ih =>
    cases h2 with
    | cons h2 h3 =>
      obtain ⟨s, ⟨n, hs⟩, he⟩ := h
      refine .cons ⟨n, .inlineSchema, ?_⟩ (ih h3)
      have hr := (eval_agree hg hw n .inlineSchema _ s (Or.inr rfl) hs).read
      rw [← hr]
      unfold readSchema
      rw [he]
      simp only [h2]

theorem exZod_lax : Lax exZod := by
  unfold Lax exZod
  simp [Decl.deny, allFields, exStruct, exEnum, exVariant, exTuple, exPos, exField]

/-- **C57.** If the types of the arguments (at least one) and of the program are among those of C04, the namespace is
not renamed (C27), no declaration has `deny_unknown_fields`, no field has an alias, the arguments contain no infinite number and no lone surrogate (and, with 64 bit integers, no
number beyond `±2^53`), and validation did not remove
anything from an object of which it kept one property, then the server decodes the message to a call of the method,
with as arguments what the decoders of the method make of the arguments. -/
theorem C57_partial (wide : Bool) (P : Program) (E : ZEnv) (hg : GoodNames P) (hw : WellStyled P)
    (hpl : ∀ d ∈ P, Plain d) (hs : ∀ d ∈ P, SoundDecl wide P d) (hlax : Lax P) (hE : IsModule P E)
    (f : RpcItem) (ht : ∀ a ∈ f.args, Sound wide P a.2) (hne : f.args ≠ []) (es : List JsExpr) (zs : List ZSchema)
    (hes : All2 (SchemaOf P) f.args es) (hzs : All2 (fun e z => evalE e = some (.schema z)) es zs)
    {S V : Type} {b : BackendDef S V} (hb : WellFormed b) {i j : Nat} {n : NamespaceDef S V} {m : MethodDef S V}
    (hm : HasMethod b i n j m) (hf : MethodFor P f m) (hname : n.nsName = n.ident)
    (l : List JsVal) (r : JsVal) (hp : ParsesTo E (.tuple zs) (.arr l) r) (hprop : properJs (.arr l) = true)
    (hplain : plainJs wide (.arr l) = true) (hkept : Kept (.arr l) r) {id : Nat} (hid : id < 2 ^ 64) :
    ∃ vs, Delivered b i j n m f id l vs := by
  obtain ⟨k, hk⟩ := hp
  cases k with
  | zero => cases hk
  | succ k =>
    obtain ⟨js, hj, hd⟩ := tuple_sent (sent (envOk_of_module hg hw hE) hw hpl hs hlax k) (schemas_zOf hg hw hes hzs)
      (by intro t h; obtain ⟨a, ha, rfl⟩ := List.mem_map.1 h; exact ht a ha) hk ⟨hplain, hprop, hkept⟩
    obtain ⟨vs, hv⟩ := argsDecode_of hf hd
    have hargs : m.args ≠ [] := by
      intro h0
      have := hf.2
      rw [h0] at this
      cases hfa : f.args with
      | nil => exact hne hfa
      | cons _ _ => rw [hfa] at this; cases this
    obtain ⟨value, h1, h2⟩ := C27_partial hb hm hname hargs hv hid
    rw [hf.1] at h1
    exact ⟨vs, js, value, hj, h1, hv, h2⟩

/-- C57, executed: a method runs once on the state of its namespace with the decoded arguments, and the reply to the
message is its result. -/
theorem C57_method_partial (wide : Bool) (P : Program) (E : ZEnv) (hg : GoodNames P) (hw : WellStyled P)
    (hpl : ∀ d ∈ P, Plain d) (hs : ∀ d ∈ P, SoundDecl wide P d) (hlax : Lax P) (hE : IsModule P E)
    (f : RpcItem) (ht : ∀ a ∈ f.args, Sound wide P a.2) (hne : f.args ≠ []) (es : List JsExpr) (zs : List ZSchema)
    (hes : All2 (SchemaOf P) f.args es) (hzs : All2 (fun e z => evalE e = some (.schema z)) es zs)
    {S V : Type} {b : BackendDef S V} (hb : WellFormed b) {i j : Nat} {n : NamespaceDef S V} {m : MethodDef S V}
    (hm : HasMethod b i n j m) (hf : MethodFor P f m) (hname : n.nsName = n.ident)
    {run : S → List V → S × Except SerdeErr Json} (hbody : m.body = .method run)
    (l : List JsVal) (r : JsVal) (hp : ParsesTo E (.tuple zs) (.arr l) r) (hprop : properJs (.arr l) = true)
    (hplain : plainJs wide (.arr l) = true) (hkept : Kept (.arr l) r) {id : Nat} (hid : id < 2 ^ 64)
    (st : List S) {s : S} (hst : st[i]? = some s) :
    ∃ js req vs, stringify (.arr l) = some (some (.arr js)) ∧
      Request.decode (clientMessage id n.nsName f.ident js) = .ok req ∧
      ArgsDecode m.args (js.map Json.toValue) vs ∧
      exec1 b.service st (.ok req) = (st.set i (run s vs).1,
        some (match (run s vs).2 with
          | .ok data => .method id data
          | .error e => .error (some id) e)) := by
  obtain ⟨vs, js, value, h1, h2, h3, h4⟩ := C57_partial wide P E hg hw hpl hs hlax hE f ht hne es zs hes hzs hb hm hf hname l r hp
    hprop hplain hkept hid
  have hargs : m.args ≠ [] := by
    intro h0
    have := hf.2
    rw [h0] at this
    cases hfa : f.args with
    | nil => exact hne hfa
    | cons _ _ => rw [hfa] at this; cases this
  refine ⟨js, _, vs, h1, h2, h3, ?_⟩
  have e := Except.ok.inj (h2.symm.trans (C23_client_message id n.nsName f.ident js hid))
  have hx := (C25_method hb hm hbody hargs h3 st hst id).1
  rw [e, hname, ← hf.1, hx]
  cases (run s vs).2 <;> rfl

/-! ## The property is false -/

/-- `fn draw(shape: Shape)` -/
def exDraw : RpcItem where
  ident := lit "draw"
  args := [(lit "shape", .named 1)]
  kind := .method
  output := .prim .unit
  implTrait := false

/-- A backend with this method; it accepts what serde accepts. -/
noncomputable def exDrawMethod : MethodDef Unit Unit where
  name := lit "draw"
  args := [fun j => open Classical in if De exZod (.named 1) j then some () else none]
  body := .method fun s _ => (s, .ok .null)

noncomputable def exDrawNs : NamespaceDef Unit Unit :=
  { ident := lit "Ns", nsName := lit "Ns", methods := [exDrawMethod] }

noncomputable def exDrawBackend : BackendDef Unit Unit := ⟨[exDrawNs]⟩

theorem exDraw_wellFormed : WellFormed exDrawBackend := by
  refine ⟨by simp [exDrawBackend], fun n hn => ?_⟩
  simp only [exDrawBackend, List.mem_singleton] at hn
  subst hn
  simp [exDrawNs]

theorem exDraw_method : MethodFor exZod exDraw exDrawMethod :=
  ⟨rfl, .cons (fun _ h => ⟨(), if_pos h⟩) .nil⟩

theorem exZod_valid : Valid exZod := by
  have n1 : InScope exZod (.named 1) := .named (by decide)
  have n4 : InScope exZod (.named 4) := .named (by decide)
  have np : ∀ p, InScope exZod (.prim p) := .prim
  have nt : InScope exZod (.vec (.tuple [.prim .i32, .prim .i32])) :=
    .vec (.tuple (by intro t ht; simp at ht; subst ht; exact np _))
  have nv : InScope exZod (.vec (.named 0)) := .vec (.named (by decide))
  constructor
  · intro d hd
    simp only [exZod, List.mem_cons, List.not_mem_nil, or_false] at hd
    rcases hd with e | e | e | e | e | e <;> subst e <;> exact ⟨_, rfl⟩
  · intro d hd
    simp only [exZod, List.mem_cons, List.not_mem_nil, or_false] at hd
    rcases hd with e | e | e | e | e | e <;> subst e <;>
      simp [declTypes, fieldTypes, From.ty?, exStruct, exTuple, exEnum, exVariant, exPos, exField, n1, n4, np, nt, nv]

/-- The text of the schema in the client function, and the schema. -/
theorem exDraw_schema : ∃ e, SchemaOf exZod (lit "shape", .named 1) e ∧
    evalE e = some (.schema (.lazy (lit "Ns") (lit "Shape"))) :=
  ⟨_, ⟨_, ⟨1, rfl⟩, rfl⟩, rfl⟩

/-- serde does not accept two members for an externally tagged enum. -/
theorem not_two {a b : Str} {x y : Json} : ¬ De exZod (.named 1) (.obj [(a, x), (b, y)]) := by
  intro h
  have key : ∀ d, exZod[1]? = some d → (∀ s, d ≠ .struct s) ∧ (Decl.from_ d = .none) ∧
      ∀ e, d = .enum e → e.tag = .external := by
    intro d hd
    injection hd with hd
    subst hd
    exact ⟨by simp, rfl, by rintro e ⟨⟩; rfl⟩
  cases h with
  | from_ _ d t _ h1 h2 => have := (key d h1).2.1; rw [h2] at this; cases this
  | transparent _ s f _ h1 => exact (key _ h1).1 s rfl
  | struct _ s _ h1 => exact (key _ h1).1 s rfl
  | internalUnit _ e v tag _ h1 _ h3 => have := (key _ h1).2.2 e rfl; rw [h3] at this; cases this
  | internal _ e v tag _ h1 _ h3 => have := (key _ h1).2.2 e rfl; rw [h3] at this; cases this
  | internalNewtype _ e v tag f _ h1 _ h3 => have := (key _ h1).2.2 e rfl; rw [h3] at this; cases this
  | adjacentUnit _ e v tag c _ h1 _ h3 => have := (key _ h1).2.2 e rfl; rw [h3] at this; cases this
  | adjacent _ e v tag c _ _ h1 _ h3 => have := (key _ h1).2.2 e rfl; rw [h3] at this; cases this
  | untagged _ e v _ h1 _ h3 => have := (key _ h1).2.2 e rfl; rw [h3] at this; cases this

/-- C57 is false: `draw({Circle: 3, color: "red"})` passes validation, which ignores the unknown property, but it is
sent with it, and serde insists on exactly one. -/
theorem C57_violated : ¬ C57_statement := by
  intro h
  obtain ⟨e, he, hz⟩ := exDraw_schema
  obtain ⟨vs, js, value, h1, _, h2, _⟩ := h exZod (moduleEnv exZod 6) exZod_valid exZod_good exZod_styled exZod_module exDraw
    [e] [_] (.cons he .nil) (.cons hz .nil) Unit Unit exDrawBackend exDraw_wellFormed 0 0 exDrawNs exDrawMethod ⟨rfl, rfl⟩
    exDraw_method [.obj [(lit "Circle", .num (.fin (3 : Int))), (lit "color", .str (lit "red"))]] _ ⟨12, rfl⟩
    (by decide +kernel) 1 (by decide)
  injection h1 with h1
  injection h1 with h1
  injection h1 with h1
  subst h1
  cases h2 with
  | cons h2 _ =>
    have h2 : (open Classical in if De exZod (.named 1) (.obj [(lit "Circle", .num (.int 3)), (lit "color", .str (lit "red"))])
      then some () else none) = some _ := h2
    rw [if_neg not_two] at h2
    cases h2

/-! ## A case that is covered -/

/-- `fn meet(shape: Shape, user: User)` -/
def exMeet : RpcItem where
  ident := lit "meet"
  args := [(lit "shape", .named 1), (lit "user", .named 0)]
  kind := .method
  output := .prim .unit
  implTrait := false

/-- What it is called with: `{Circle: 3}` and a user with a property that is not declared. -/
def exMeetArgs : List JsVal :=
  [.obj [(lit "Circle", .num (.fin (3 : Int)))],
   .obj [(lit "name", .str (lit "a")), (lit "id", .num (.fin (7 : Int))), (lit "color", .str (lit "red")),
     (lit "friends", .arr []), (lit "shape", .str (lit "Empty"))]]

/-- What validation makes of it. -/
def exMeetResult : JsVal :=
  .arr [.obj [(lit "Circle", .num (.fin (3 : Int)))],
    .obj [(lit "id", .num (.fin (7 : Int))), (lit "name", .str (lit "a")), (lit "friends", .arr []),
      (lit "shape", .str (lit "Empty"))]]

noncomputable def exMeetMethod : MethodDef Nat Json where
  name := lit "meet"
  args := [fun j => open Classical in if De exZod (.named 1) j then some j else none,
    fun j => open Classical in if De exZod (.named 0) j then some j else none]
  body := .method fun s a => (s + a.length, .ok (.num (.int s)))

noncomputable def exMeetNs : NamespaceDef Nat Json :=
  { ident := lit "Ns", nsName := lit "Ns", methods := [exMeetMethod] }

noncomputable def exMeetBackend : BackendDef Nat Json := ⟨[exMeetNs]⟩

theorem exMeet_kept : Kept (.arr exMeetArgs) exMeetResult := by
  refine .arr _ _ (.cons (.obj _ _ (fun _ => rfl) ?_) (.cons (.obj _ _ (fun h => ?_) ?_) .nil))
  · intro p hp
    rw [List.mem_singleton] at hp
    subst hp
    exact .leaf _ (fun _ h => nomatch h) (fun _ h => nomatch h)
  · cases h
  · intro p hp
    simp only [List.mem_cons, List.not_mem_nil, or_false] at hp
    rcases hp with rfl | rfl | rfl | rfl
    · exact .leaf (.num (.fin (7 : Int))) (fun _ h => nomatch h) (fun _ h => nomatch h)
    · exact .leaf (.str (lit "a")) (fun _ h => nomatch h) (fun _ h => nomatch h)
    · exact .arr [] [] .nil
    · exact .leaf (.str (lit "Empty")) (fun _ h => nomatch h) (fun _ h => nomatch h)

/-- The call is delivered. -/
example : ∃ vs, Delivered exMeetBackend 0 0 exMeetNs exMeetMethod exMeet 1 exMeetArgs vs := by
  obtain ⟨e, he, hz⟩ := exDraw_schema
  obtain ⟨e', he', hz'⟩ : ∃ e, SchemaOf exZod (lit "user", .named 0) e ∧
      evalE e = some (.schema (.lazy (lit "Ns") (lit "User"))) := ⟨_, ⟨_, ⟨1, rfl⟩, rfl⟩, rfl⟩
  refine C57_partial true exZod (moduleEnv exZod 6) exZod_good exZod_styled exZod_plain (exZod_sound _) exZod_lax exZod_module exMeet ?_
    (by simp [exMeet]) [e, e'] _ (.cons he (.cons he' .nil)) (.cons hz (.cons hz' .nil)) ?_ ⟨rfl, rfl⟩ ?_ rfl exMeetArgs
    exMeetResult ⟨12, rfl⟩ (by decide +kernel) (by decide +kernel) exMeet_kept (by decide)
  · intro a ha
    simp only [exMeet, List.mem_cons, List.not_mem_nil, or_false] at ha
    rcases ha with rfl | rfl <;> exact .named _
  · refine ⟨by simp [exMeetBackend], fun n hn => ?_⟩
    simp only [exMeetBackend, List.mem_singleton] at hn
    subst hn
    simp [exMeetNs]
  · exact ⟨rfl, .cons (fun j h => ⟨j, if_pos h⟩) (.cons (fun j h => ⟨j, if_pos h⟩) .nil)⟩

end Verif.Props
