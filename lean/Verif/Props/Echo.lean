import Verif.Zod.Returned
import Verif.Props.Text
import Verif.Props.Ints

/-!
# C70: values that are handed back

Specifications: `Verif/Spec/Echo.lean` (what the same document is), `Verif/Spec/Ser.lean` and `Verif/Spec/Serde.lean`
(what serde writes and reads).
-/

namespace Verif.Props
open Verif Verif.Text Verif.TextSpec Verif.JsonSpec Verif.Js Verif.Zod Verif.Schema Verif.SchemaSpec Verif.Spec Verif.EchoSpec

/-- C70: what serde writes for a value, the client reads, and passes the validation of an argument of the same type, is
sent back as the same document. -/
def C70_statement : Prop :=
  ∀ (P : Program) (E : ZEnv), GoodNames P → WellStyled P → IsModule P E → ∀ (t : Ty) (s : Str) (z : ZSchema) (j : Json),
    Returns P .schema t s → readSchema s = some z → Ser P false t j → DistinctKeys j → Accepts E z (fromJson j) →
    ∃ j', stringify (fromJson j) = some (some j') ∧ SameDoc j j'

/-- It is false: `u64`. The server sends 9007199254740993 and gets 9007199254740992 back, which it accepts. -/
theorem C70_violated : ¬ C70_statement := by
  intro h
  have hE : IsModule [] exEnv0 := by intro i d hd; simp at hd
  obtain ⟨s, z, h1, _, h2, h3⟩ := C02_complete [] exEnv0 .u64 0 (2 ^ 64 - 1) rfl
  obtain ⟨j', e, hs⟩ := h [] exEnv0 (by simp [GoodNames]) (by simp [WellStyled]) hE (.prim .u64) s z
    (.num (.int 9007199254740993)) h1 h2 (.int _ 0 (2 ^ 64 - 1) _ (Or.inr rfl) (by decide) (by decide)) (.num _)
    (h3 _ (by decide) (by decide))
  rw [stringify_fromJson] at e
  injection e with e
  injection e with e
  subst e
  have e : echo (.num (.int 9007199254740993)) = .num (.int 9007199254740992) := by
    show numJson ((roundInt 9007199254740993 : Int) : Rat) = _
    rw [numJson_int, show roundInt 9007199254740993 = 9007199254740992 by decide]
  rw [e] at hs
  have hs : ((9007199254740993 : Int) : Rat) = ((9007199254740992 : Int) : Rat) := hs
  rw [Rat.intCast_inj] at hs
  exact absurd hs (by decide)

/-- The server does not notice. -/
theorem C70_unnoticed : stringify (fromJson (.num (.int 9007199254740993))) = some (some (.num (.int 9007199254740992))) ∧
    De [] (.prim .u64) (.num (.int 9007199254740992)) := by
  refine ⟨?_, .wide _ 0 (2 ^ 64 - 1) _ (Or.inl rfl) rfl (by decide) (by decide)⟩
  show some (some (numJson ((roundInt 9007199254740993 : Int) : Rat))) = _
  rw [numJson_int, show roundInt 9007199254740993 = 9007199254740992 by decide]

/-- **C70, documents.** A document whose integers (and whose floating point numbers, if they are integers) are at most
`2^53` comes back as the same document. -/
theorem C70_document (j : Json) (_ : DistinctKeys j) (h : AllNums Exact j) :
    ∃ j', stringify (fromJson j) = some (some j') ∧ SameDoc j j' :=
  ⟨echo j, stringify_fromJson j, echo_same j h⟩

/-- **C70, types.** Values of types without integers of more than 32 bits come back as the same document, if their
floating point numbers are at most `2^53` or not integers. -/
theorem C70_narrow (P : Program) (odd : Bool) (hP : NarrowProgram P) (t : Ty) (ht : Narrow t) (j : Json) (h : Ser P odd t j)
    (_ : DistinctKeys j) (hf : AllNums FloatsExact j) : ∃ j', stringify (fromJson j) = some (some j') ∧ SameDoc j j' :=
  ⟨echo j, stringify_fromJson j, echo_same j (exact_of (ser_small hP h ht) hf)⟩

/-- **C70, accepted.** For the types of C05 that can be read again: the value passes the validation of the client, comes
back as the same document, and the server accepts it as a value of the type. -/
theorem C70_partial (P : Program) (E : ZEnv) (hn : GoodNames P) (hw : WellStyled P) (hpl : ∀ d ∈ P, Plain d)
    (hnt : ∀ d ∈ P, NoThrow d) (hg : Guarded P) (hc : ∀ d ∈ P, CompleteDecl d) (hr : ∀ d ∈ P, ReadableDecl d)
    (hE : IsModule P E) (m : Method) (hm : m = .schema ∨ m = .inlineSchema) (t : Ty) (ht : Complete t) (htr : Readable t)
    (s : Str) (h : Returns P m t s) (z : ZSchema) (hz : readSchema s = some z) (j : Json) (hj : Ser P false t j)
    (hx : AllNums Exact j) :
    Accepts E z (fromJson j) ∧ ∃ j', stringify (fromJson j) = some (some j') ∧ SameDoc j j' ∧ De P t j' :=
  ⟨C05_partial P E hn hw hpl hnt hg hc hE m hm t ht s h z hz j hj,
    echo j, stringify_fromJson j, echo_same j hx, ser_back hc hr hj ht htr hx⟩

/-! ## Texts -/

/-- Numbers the client writes: integers, and the doubles that are none as `fmt` says. -/
def BackNum (fmt : Rat → Str) (round : Rat → Option Rat) : JNum → Prop
  | .int _ => True
  | .flt q => q.den ≠ 1 → WritesDouble fmt round q

theorem echoNum_client {fmt : Rat → Str} {round : Rat → Option Rat} {n : JNum} (h : Exact n) (hb : BackNum fmt round n) :
    AllNums (ClientNum fmt round) (echoNum n) := by
  cases n with
  | int i => rw [echoNum_int h]; exact h
  | flt q =>
    rw [echoNum, numJson]
    split
    · next hd => exact h hd
    · next hd => exact hb hd

mutual
theorem echo_client {fmt : Rat → Str} {round : Rat → Option Rat} : ∀ j : Json, AllNums Exact j →
    AllNums (BackNum fmt round) j → AllNums (ClientNum fmt round) (echo j)
  | .null, _, _ => trivial
  | .bool _, _, _ => trivial
  | .num _, h, hb => echoNum_client h hb
  | .str _, _, _ => trivial
  | .arr l, h, hb => echo_clientList l h hb
  | .obj kvs, h, hb => echo_clientObj kvs h hb

theorem echo_clientList {fmt : Rat → Str} {round : Rat → Option Rat} : ∀ l : List Json, AllNums.inList Exact l →
    AllNums.inList (BackNum fmt round) l → AllNums.inList (ClientNum fmt round) (echo.echoList l)
  | [], _, _ => trivial
  | j :: r, h, hb => ⟨echo_client j h.1 hb.1, echo_clientList r h.2 hb.2⟩

theorem echo_clientObj {fmt : Rat → Str} {round : Rat → Option Rat} : ∀ l : List (Str × Json), AllNums.inMembers Exact l →
    AllNums.inMembers (BackNum fmt round) l → AllNums.inMembers (ClientNum fmt round) (echo.echoObj l)
  | [], _, _ => trivial
  | (_, j) :: r, h, hb => ⟨echo_client j h.1 hb.1, echo_clientObj r h.2 hb.2⟩
end

theorem nesting_echoNum (n : JNum) : nesting (echoNum n) = 0 := by
  cases n <;> (simp only [echoNum, numJson]; split <;> rfl)

mutual
theorem nesting_echo : ∀ j : Json, nesting (echo j) = nesting j
  | .null => rfl
  | .bool _ => rfl
  | .num n => nesting_echoNum n
  | .str _ => rfl
  | .arr l => by rw [echo, nesting, nesting, nesting_echoList l]
  | .obj kvs => by rw [echo, nesting, nesting, nesting_echoObj kvs]

theorem nesting_echoList : ∀ l : List Json, nesting.inList (echo.echoList l) = nesting.inList l
  | [] => rfl
  | j :: r => by rw [echo.echoList, nesting.inList, nesting.inList, nesting_echo j, nesting_echoList r]

theorem nesting_echoObj : ∀ l : List (Str × Json), nesting.inMembers (echo.echoObj l) = nesting.inMembers l
  | [] => rfl
  | (_, j) :: r => by rw [echo.echoObj, nesting.inMembers, nesting.inMembers, nesting_echo j, nesting_echoObj r]
end

/-- **C70, texts.** The client reads the text of a document of the server, and the text of a request in which it hands
the document back is read by the server as a request with the same document (if no more than 124 arrays and objects are
nested in each other, C65). -/
theorem C70_text (fmt fmt' : Rat → Str) (round round' : Rat → Option Rat) (j : Json) (_ : DistinctKeys j)
    (h : AllNums Exact j) (hw : AllNums (ServerNum fmt round) j) (hb : AllNums (BackNum fmt' round') j)
    (hd : nesting j ≤ 124) (id : Nat) (hid : id ≤ 2 ^ 53) (ns method : Str) :
    (jsReader round (print fmt j)).read (print fmt j) = some j ∧
    ∃ j', stringify (fromJson j) = some (some j') ∧ SameDoc j j' ∧
      (serdeReader round').read (print fmt' (WireSpec.clientMessage id ns method [j'])) =
        some (WireSpec.clientMessage id ns method [j']) := by
  refine ⟨C66_exact fmt round j hw, echo j, stringify_fromJson j, echo_same j h, ?_⟩
  have := C65_partial fmt' round' ⟨id, ns, method, [echo j]⟩ hid (by
    intro x hx; rw [List.mem_singleton.1 hx]; exact echo_client j h hb)
  rw [if_pos (by intro x hx; rw [List.mem_singleton.1 hx, nesting_echo]; exact hd)] at this
  injection this

/-! ## Untagged enums -/

/-- Values of untagged enums are read as the variant they were written for. -/
def C70_variants : Prop :=
  ∀ (P : Program) (e : EnumDecl), Decl.enum e ∈ P → e.tag = .untagged → ∀ (n : Nat) (v : Variant) (j : Json),
    e.variants[n]? = some v → SerBody P false (serStyle v) v.fields j → TakesVariant P e n j →
    ∃ j', stringify (fromJson j) = some (some j') ∧ TakesVariant P e n j'

/-- `#[serde(untagged)] enum Num { Whole(u8), Real(f64) }` -/
def exNum : EnumDecl := exEnum "Num" .untagged [exVariant "Whole" .tuple [exPos (.prim .u8)], exVariant "Real" .tuple [exPos (.prim .f64)]]

theorem not_flt_u8 {P : Program} {more : Option (List Str)} {q : Rat} : ¬ DeBody P more .tuple [exPos (.prim .u8)] (.num (.flt q)) := by
  intro h
  generalize e : Json.num (.flt q) = j at h
  cases h with
  | newtype _ _ _ _ h =>
    subst e
    generalize e : Json.num (.flt q) = j at h
    have h : De P (.prim .u8) j := h
    match h with
    | .int _ _ _ _ _ _ _ => injection e with e; cases e
    | .wide _ _ _ _ _ _ _ _ => injection e with e; cases e
    | .float _ _ hp => rcases hp with hp | hp | hp | hp <;> cases hp
    | .ipv4 _ _ _ _ _ _ => cases e
    | .ipv6 _ _ _ _ => cases e
  | tuple _ _ _ h => exact absurd rfl h
  | short _ _ _ _ _ h => exact absurd rfl h

/-- It is false, although the document that comes back is the same: the server sends `Num::Real(5.0)` and gets
`Num::Whole(5)` back. -/
theorem C70_violated_untagged : ¬ C70_variants := by
  intro h
  have five : De [.enum exNum] (.prim .f64) (.num (.flt 5)) := .float _ _ (Or.inr (Or.inl rfl))
  obtain ⟨j', e, ht⟩ := h [.enum exNum] exNum (List.mem_singleton.2 rfl) rfl 1 (exVariant "Real" .tuple [exPos (.prim .f64)])
    (.num (.flt 5)) rfl (.newtype (exPos (.prim .f64)) _ (.float _ _ (Or.inr (Or.inl rfl))))
    ⟨⟨_, rfl, .newtype _ (exPos (.prim .f64)) _ rfl five⟩, by
      intro m hm v hv
      have : m = 0 := by omega
      subst this
      injection hv with hv
      subst hv
      exact not_flt_u8⟩
  have e' : stringify (fromJson (.num (.flt 5))) = some (some (.num (.int 5))) := by with_unfolding_all rfl
  rw [e'] at e
  injection e with e
  injection e with e
  subst e
  exact ht.2 0 (by decide) _ rfl (.newtype _ (exPos (.prim .u8)) _ rfl (.int _ 0 255 5 rfl (by decide) (by decide)))

/-- The document is the same. -/
example : SameDoc (.num (.flt 5)) (.num (.int 5)) := by with_unfolding_all rfl

/-! ## The hypotheses are met -/

theorem exZod_readable : ∀ d ∈ exZod, ReadableDecl d := by
  have hp : ∀ p : Prim, p = .u8 ∨ p = .u16 ∨ p = .u32 ∨ p = .i32 ∨ p = .string → Readable (.prim p) := by
    rintro p (rfl | rfl | rfl | rfl | rfl) <;> exact .prim _ (by decide) (by decide) (by decide)
  have h1 := hp .u8 (by simp)
  have h2 := hp .u16 (by simp)
  have h3 := hp .u32 (by simp)
  have h4 := hp .i32 (by simp)
  have h5 := hp .string (by simp)
  have hpts : Readable (.vec (.tuple [.prim .i32, .prim .i32])) := .vec _ (.tuple _ (by simp [h4]))
  intro d hd
  simp only [exZod, List.mem_cons, List.not_mem_nil, or_false] at hd
  rcases hd with e | e | e | e | e | e <;> subst e
  · refine ⟨?_, by intro t; rintro ⟨⟩, by rintro ⟨⟩, by simp [FreeAliases, exStruct, exTuple, exPos, exField, keptFields], by rintro ⟨⟩⟩
    simp [writtenTypes, exStruct, exField, h3, h5, Readable.vec _ (.named 0), Readable.named 1]
  · refine ⟨?_, by intro t; rintro ⟨⟩, by rintro ⟨⟩, ?_, by intro tag; rintro ⟨⟩⟩
    · simp [writtenTypes, exEnum, exVariant, exPos, exField, h1, h2, h3, hpts]
    · unfold FirstNamed FreeAliases; simp [exEnum, exVariant, exPos, exField, keptFields]
  · refine ⟨?_, by intro t; rintro ⟨⟩, by rintro ⟨⟩, ?_, ?_⟩
    · simp [writtenTypes, exEnum, exVariant, exField, h4]
    · unfold FirstNamed FreeAliases; simp [exEnum, exVariant, exPos, exField, keptFields]
    · intro tag ht
      injection ht with ht
      subst ht
      simp [exEnum, exVariant, exField, keptFields]
      decide +kernel
  · refine ⟨?_, by intro t; rintro ⟨⟩, by rintro ⟨⟩, ?_, by intro tag; rintro ⟨⟩⟩
    · simp [writtenTypes, exEnum, exVariant, exPos, exField, h5, Readable.named 4]
    · unfold FirstNamed FreeAliases; simp [exEnum, exVariant, exPos, exField, keptFields]
  · refine ⟨?_, by intro t; rintro ⟨⟩, by rintro ⟨⟩, by simp [FreeAliases, exStruct, exTuple, exPos, exField, keptFields], by rintro ⟨⟩⟩
    simp [writtenTypes, exTuple, exStruct, exPos, exField, h1, h5]
  · refine ⟨?_, by intro t; rintro ⟨⟩, by rintro ⟨⟩, by simp [FreeAliases, exStruct, exTuple, exPos, exField, keptFields], by rintro ⟨⟩⟩
    simp [writtenTypes, exTuple, exStruct, exPos, exField, h3]

theorem exact_chain (n : Nat) : AllNums Exact (chain n) := by
  have h0 : Exact (.int 0) := by constructor <;> decide
  induction n with
  | zero => exact ⟨h0, trivial, trivial, trivial, trivial⟩
  | succ n ih => exact ⟨h0, trivial, ⟨ih, trivial⟩, trivial, trivial⟩

/-- Users with friends come back, and are accepted. -/
example (n : Nat) : ∃ j', stringify (fromJson (chain n)) = some (some j') ∧ SameDoc (chain n) j' ∧ De exZod (.named 0) j' := by
  obtain ⟨s, hs⟩ := exZod_returns 0 _ rfl
  have hr := (eval_agree exZod_good exZod_styled 6 .schema (.named 0) s (Or.inl rfl) hs).read
  obtain ⟨z, hz⟩ : ∃ z, zOf exZod 6 .schema (.named 0) = some z := ⟨_, rfl⟩
  rw [hz] at hr
  exact (C70_partial exZod _ exZod_good exZod_styled exZod_plain exZod_noThrow exZod_guarded exZod_complete exZod_readable
    exZod_module .schema (Or.inl rfl) _ (.named 0) (.named 0) s ⟨6, hs⟩ z hr _ (chain_ser n) (exact_chain n)).2

/-- The document of C65 comes back. -/
example : stringify (fromJson exDoc) = some (some exDoc) := by with_unfolding_all rfl

end Verif.Props
