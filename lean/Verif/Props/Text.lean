import Verif.Text.GrammarValues
import Verif.System.Model
import Verif.Props.Complete
import Verif.Props.Calls

/-!
# C65, C66: the texts of messages
-/

namespace Verif.Props
open Verif Verif.Text Verif.TextSpec Verif.JsonSpec Verif.Js Verif.Zod Verif.Schema Verif.SchemaSpec Verif.Spec

/-! ## Numbers -/

/-- `fmt` writes the double `q` as a number with fraction or exponent (or as `-0`), which `round` reads as `q`. -/
def WritesDouble (fmt : Rat → Str) (round : Rat → Option Rat) (q : Rat) : Prop :=
  ∃ x, IsNumber (fmt q) x none ∧ round x = some q

theorem writesDouble_read {fmt : Rat → Str} {round : Rat → Option Rat} {q : Rat} (h : WritesDouble fmt round q) :
    ∃ m, readNumeral (fmt q) = some (m, []) ∧ m.asInt = none ∧ round m.value = some q := by
  obtain ⟨x, h1, h2⟩ := h
  obtain ⟨m, hm, rfl, e⟩ := numeral_complete h1
  have := hm [] Stop.nil
  rw [List.append_nil] at this
  exact ⟨m, this, e, h2⟩

theorem asInt_none {m : Numeral} (h : m.asInt = none) : (m.whole && !(m.neg && Text.digitsVal m.int == 0)) = false := by
  unfold Numeral.asInt at h
  split at h
  · exact absurd h (by simp)
  · next hn => simpa using hn

/-- Numbers in documents that JavaScript writes: integers up to `2^53`, and doubles. -/
def ClientNum (fmt : Rat → Str) (round : Rat → Option Rat) : JNum → Prop
  | .int i => -(2 ^ 53) ≤ i ∧ i ≤ 2 ^ 53
  | .flt q => WritesDouble fmt round q

/-- Numbers in documents that serde_json writes. -/
def ServerNum (fmt : Rat → Str) (round : Rat → Option Rat) : JNum → Prop
  | .int _ => True
  | .flt q => WritesDouble fmt round q

theorem clientNum_ok {fmt : Rat → Str} {round : Rat → Option Rat} {n : JNum} (h : ClientNum fmt round n) :
    NumOk (serdeReader round) fmt n := by
  cases n with
  | int i =>
    obtain ⟨m, h1, h2, h3, h4⟩ := readNumeral_printInt i
    refine ⟨m, h1, ?_⟩
    have h : -(2 ^ 53) ≤ i ∧ i ≤ 2 ^ 53 := h
    simp only [serdeReader, serdeNum, h2, h4, h3, Bool.not_false, Bool.and_self, Bool.true_and]
    rw [if_pos]
    simp only [Bool.and_eq_true, decide_eq_true_eq]
    omega
  | flt q =>
    obtain ⟨m, h1, h2, h3⟩ := writesDouble_read h
    refine ⟨m, h1, ?_⟩
    simp only [serdeReader, serdeNum, asInt_none h2, Bool.false_and, h3]
    rfl

theorem serverNum_ok {fmt : Rat → Str} {round : Rat → Option Rat} {n : JNum} (h : ServerNum fmt round n) (s : Str) :
    NumOk (jsReader round s) fmt n := by
  cases n with
  | int i =>
    obtain ⟨m, h1, h2, h3, h4⟩ := readNumeral_printInt i
    refine ⟨m, h1, ?_⟩
    simp only [jsReader, h2, h4, h3, Bool.not_false, Bool.and_self, if_true]
  | flt q =>
    obtain ⟨m, h1, h2, h3⟩ := writesDouble_read h
    refine ⟨m, h1, ?_⟩
    simp only [jsReader, asInt_none h2, h3]
    rfl

theorem allNums_mono {p q : JNum → Prop} (h : ∀ n, p n → q n) (j : Json) (hj : AllNums p j) : AllNums q j := by
  match j, hj with
  | .null, _ => trivial
  | .bool _, _ => trivial
  | .str _, _ => trivial
  | .num n, hj => exact h n hj
  | .arr l, hj =>
    exact allNums_list.2 (fun x hx => allNums_mono h x (allNums_list.1 hj x hx))
  | .obj l, hj =>
    exact allNums_members.2 (fun x hx => allNums_mono h x.2 (allNums_members.1 hj x hx))
termination_by sizeOf j
decreasing_by
  · have := List.sizeOf_lt_of_mem hx
    simp; omega
  · have := List.sizeOf_lt_of_mem hx
    have : sizeOf x.2 < sizeOf x := by obtain ⟨a, b⟩ := x; simp; omega
    simp; omega

/-! ## C65: from the client to the server -/

/-- C65: whatever document the client sends as a text, the server receives that document. -/
def C65_statement : Prop :=
  ∀ (fmt : Rat → Str) (round : Rat → Option Rat) (j : Json), AllNums (ClientNum fmt round) j →
    (serdeReader round).read (print fmt j) = some j

/-- **C65, exactly.** The server receives the document that was sent if no 128 arrays and objects are nested in
each other, and otherwise rejects the text. -/
theorem C65_exact (fmt : Rat → Str) (round : Rat → Option Rat) (j : Json) (h : AllNums (ClientNum fmt round) j) :
    (serdeReader round).read (print fmt j) = if nesting j < 128 then some j else none :=
  read_print (allNums_mono (fun _ => clientNum_ok) j h) (by decide : 0 < 128)

/-- Arrays in each other. -/
def boxes : Nat → Json
  | 0 => .arr []
  | n + 1 => .arr [boxes n]

theorem nesting_boxes (n : Nat) : nesting (boxes n) = n + 1 := by
  induction n with
  | zero => rfl
  | succ n ih => simp only [boxes, nesting, nesting.inList, ih]; omega

theorem allNums_boxes (p : JNum → Prop) (n : Nat) : AllNums p (boxes n) := by
  induction n with
  | zero => trivial
  | succ n ih => exact ⟨ih, trivial⟩

theorem C65_violated : ¬ C65_statement := by
  intro h
  have h1 := h (fun _ => []) some (boxes 127) (allNums_boxes _ _)
  rw [C65_exact _ _ _ (allNums_boxes _ _), nesting_boxes, if_neg (by decide)] at h1
  exact absurd h1 (by simp)

/-- **C65, messages.** The text of a request of the client is received as the request (the frame of the model of the
system), if no more than 124 arrays and objects are nested in each other in any of its arguments; otherwise as a
text that is no document. -/
theorem C65_partial (fmt : Rat → Str) (round : Rat → Option Rat) (m : Client.Msg) (hid : m.id ≤ 2 ^ 53)
    (h : ∀ j ∈ m.args, AllNums (ClientNum fmt round) j) :
    Server.Frame.text ((serdeReader round).read (print fmt (WireSpec.clientMessage m.id m.ns m.method m.args))) =
      if (∀ j ∈ m.args, nesting j ≤ 124) then System.frameOf m else .text none := by
  have hn : AllNums (ClientNum fmt round) (WireSpec.clientMessage m.id m.ns m.method m.args) := by
    refine ⟨⟨?_, trivial, trivial, ⟨allNums_list.2 h, trivial⟩⟩, trivial⟩
    show -(2 ^ 53) ≤ (m.id : Int) ∧ (m.id : Int) ≤ 2 ^ 53
    omega
  rw [C65_exact _ _ _ hn]
  have e : nesting (WireSpec.clientMessage m.id m.ns m.method m.args) = 3 + nesting.inList m.args := by
    simp only [WireSpec.clientMessage, nesting, nesting.inMembers]
    omega
  rw [e]
  have : (3 + nesting.inList m.args < 128) ↔ ∀ j ∈ m.args, nesting j ≤ 124 := by
    rw [← nesting_list_le]; omega
  by_cases hh : ∀ j ∈ m.args, nesting j ≤ 124
  · rw [if_pos (this.2 hh), if_pos hh]; rfl
  · rw [if_neg (fun x => hh (this.1 x)), if_neg hh]

/-- Every argument that serde itself writes for a value of the type of the argument, and that passes the validation of
the client, can be sent. -/
def C65_arguments : Prop :=
  ∀ (P : Program) (E : ZEnv), GoodNames P → WellStyled P → IsModule P E → ∀ (t : Ty) (s : Str) (z : ZSchema)
    (j : Json), Returns P .schema t s → readSchema s = some z → Ser P false t j → Accepts E z (fromJson j) →
    ∀ (fmt : Rat → Str) (round : Rat → Option Rat), AllNums (ClientNum fmt round) j → ∀ (id : Nat) (ns method : Str), id ≤ 2 ^ 53 →
    (serdeReader round).read (print fmt (WireSpec.clientMessage id ns method [j])) ≠ none

/-- A user with a friend, who has a friend, and so on (`exZod`). -/
def chain : Nat → Json
  | 0 => .obj [(lit "id", .num (.int 0)), (lit "name", .str []), (lit "friends", .arr []), (lit "shape", .str (lit "Empty"))]
  | n + 1 => .obj [(lit "id", .num (.int 0)), (lit "name", .str []), (lit "friends", .arr [chain n]),
      (lit "shape", .str (lit "Empty"))]

theorem chain_ser (n : Nat) : Ser exZod false (.named 0) (chain n) := by
  have user : ∀ fr, (∀ j ∈ fr, Ser exZod false (.named 0) j) → Ser exZod false (.named 0)
      (.obj [(lit "id", .num (.int 0)), (lit "name", .str []), (lit "friends", .arr fr), (lit "shape", .str (lit "Empty"))]) := by
    intro fr h3
    refine .struct 0 _ _ rfl rfl rfl (.named _ _ ?_)
    refine .field (exField "id" (.prim .u32)) _ _ _ rfl rfl rfl (.int _ 0 (2 ^ 32 - 1) 0 (Or.inl rfl) (by omega) (by omega)) ?_
    refine .field (exField "name" (.prim .string)) _ _ _ rfl rfl rfl (.string []) ?_
    refine .field (exField "friends" (.vec (.named 0))) _ _ _ rfl rfl rfl (.vec _ _ h3) ?_
    exact .field (exField "shape" (.named 1)) _ _ _ rfl rfl rfl
      (.externalUnit 1 _ (exVariant "Empty" .unit []) rfl rfl rfl (by simp [exEnum]) rfl rfl) .nil
  induction n with
  | zero => exact user [] (by simp)
  | succ n ih => exact user [chain n] (by intro j hj; rw [List.mem_singleton.1 hj]; exact ih)

theorem nesting_chain (n : Nat) : nesting (chain n) = 2 * n + 2 := by
  induction n with
  | zero => rfl
  | succ n ih => simp only [chain, nesting, nesting.inMembers, nesting.inList, ih]; omega

theorem allNums_chain (fmt : Rat → Str) (round : Rat → Option Rat) (n : Nat) : AllNums (ClientNum fmt round) (chain n) := by
  have h0 : ClientNum fmt round (.int 0) := by constructor <;> decide
  induction n with
  | zero => exact ⟨h0, trivial, trivial, trivial, trivial⟩
  | succ n ih => exact ⟨h0, trivial, ⟨ih, trivial⟩, trivial, trivial⟩

/-- It is false: values of recursive types. A user with a chain of 62 friends passes the validation, but cannot be
sent. -/
theorem C65_violated_arguments : ¬ C65_arguments := by
  intro h
  obtain ⟨s, hs⟩ := exZod_returns 0 _ rfl
  have hr := (eval_agree exZod_good exZod_styled 6 .schema (.named 0) s (Or.inl rfl) hs).read
  obtain ⟨z, hz⟩ : ∃ z, zOf exZod 6 .schema (.named 0) = some z := ⟨_, rfl⟩
  rw [hz] at hr
  have acc := C05_partial exZod _ exZod_good exZod_styled exZod_plain exZod_noThrow exZod_guarded
    exZod_complete exZod_module .schema (Or.inl rfl) _ (.named 0) s ⟨6, hs⟩ z hr _ (chain_ser 62)
  refine h exZod _ exZod_good exZod_styled exZod_module (.named 0) s z (chain 62) ⟨6, hs⟩ hr (chain_ser 62) acc
    (fun _ => []) some (allNums_chain _ _ _) 0 [] [] (by decide) ?_
  have := C65_partial (fun _ => []) some ⟨0, [], [], [chain 62]⟩ (by decide) (by
    intro j hj; rw [List.mem_singleton.1 hj]; exact allNums_chain _ _ _)
  rw [if_neg] at this
  · injection this
  · intro h
    have := h (chain 62) (List.mem_singleton.2 rfl)
    rw [nesting_chain] at this
    omega

/-- With a chain of 61 friends it can. -/
theorem C65_chain (n : Nat) (h : n ≤ 61) (fmt : Rat → Str) (round : Rat → Option Rat) (id : Nat) (hid : id ≤ 2 ^ 53) (ns method : Str) :
    (serdeReader round).read (print fmt (WireSpec.clientMessage id ns method [chain n])) =
      some (WireSpec.clientMessage id ns method [chain n]) := by
  have := C65_partial fmt round ⟨id, ns, method, [chain n]⟩ hid (by
    intro j hj; rw [List.mem_singleton.1 hj]; exact allNums_chain _ _ _)
  rw [if_pos] at this
  · injection this
  · intro j hj
    rw [List.mem_singleton.1 hj, nesting_chain]
    omega

theorem frameInput_ok {doc : Json} {r : Request} (h : Request.decode doc = .ok r) : Server.frameInput (some doc) = .ok r := by
  simp only [Server.frameInput, h]

/-- **C65, calls.** What C57 says about the document of a call is true of its text: the server reads the text, and decodes it
to a call of the method with the arguments. -/
theorem C65_delivered (fmt : Rat → Str) (round : Rat → Option Rat) {S V : Type} {b : BackendDef S V} {i j : Nat}
    {n : NamespaceDef S V} {m : MethodDef S V} {f : Codegen.RpcItem} {id : Nat} {l : List JsVal} {vs : List V}
    (hd : Delivered b i j n m f id l vs) (hid : id ≤ 2 ^ 53)
    (hl : ∀ js, stringify (.arr l) = some (some (.arr js)) →
      ∀ x ∈ js, AllNums (ClientNum fmt round) x ∧ nesting x ≤ 124) :
    ∃ js value, stringify (.arr l) = some (some (.arr js)) ∧
      Server.frameInput ((serdeReader round).read (print fmt (WireSpec.clientMessage id n.nsName f.ident js))) =
        .ok (.exec id value) ∧
      DispatchSpec.ArgsDecode m.args (js.map Json.toValue) vs ∧ b.service.decode value = .ok ⟨i, j, vs⟩ := by
  obtain ⟨js, value, h1, h2, h3, h4⟩ := hd
  refine ⟨js, value, h1, ?_, h3, h4⟩
  have e : Server.Frame.text ((serdeReader round).read (print fmt (WireSpec.clientMessage id n.nsName f.ident js))) =
      .text (some (WireSpec.clientMessage id n.nsName f.ident js)) := by
    rw [C65_partial fmt round ⟨id, n.nsName, f.ident, js⟩ hid (fun x hx => (hl js h1 x hx).1)]
    exact if_pos (fun x hx => (hl js h1 x hx).2)
  rw [Server.Frame.text.inj e]
  exact frameInput_ok h2

/-- **C65, strings.** A string of JavaScript (any code units) is received as a text exactly if it is one; a string with a
surrogate without partner makes the server reject the whole message. -/
theorem C65_string (round : Rat → Option Rat) (us : List Nat) (h : ∀ u ∈ us, u < 2 ^ 16) (j : Json) :
    (serdeReader round).read (jsQuote us) = some j ↔ ∃ s, us = utf16 s ∧ j = .str s := by
  have e : jsQuote us = '"' :: (quoteUnits us ++ ['"']) := rfl
  have hv : value (serdeReader round) (127 + 1) (jsQuote us) = (decode16 us).map (fun x => (.str x, [])) := by
    rw [e, value_str, readStr_quoteUnits h []]
    cases decode16 us <;> rfl
  have hr : (serdeReader round).read (jsQuote us) = (decode16 us).map .str := by
    unfold Reader.read
    have : (serdeReader round).limit = 127 + 1 := rfl
    rw [this, hv]
    cases decode16 us <;> rfl
  rw [hr]
  constructor
  · intro h
    cases hd : decode16 us with
    | none => rw [hd] at h; exact absurd h (by simp)
    | some s =>
      rw [hd] at h
      exact ⟨s, (decode16_iff us s).1 hd, (Option.some.inj h).symm⟩
  · rintro ⟨s, rfl, rfl⟩
    rw [decode16_utf16]
    rfl

/-- Client and server write the same text for the same string. -/
theorem C65_alike (s : Str) : serdeQuote s = jsQuote (utf16 s) := serdeQuote_eq s

/-! ## C66: from the server to the client -/

theorem nesting_print {R : Reader} {fmt : Rat → Str} (j : Json) (h : AllNums (NumOk R fmt) j) :
    nesting j ≤ (print fmt j).length := by
  have list : ∀ l : List Json, (∀ x ∈ l, nesting x ≤ (print fmt x).length) →
      nesting.inList l ≤ (print.printList fmt l).length := by
    intro l
    induction l with
    | nil => intro _; exact Nat.le_refl 0
    | cons j r ih =>
      intro h
      have h1 := h j List.mem_cons_self
      have h2 := ih (fun x hx => h x (List.mem_cons_of_mem _ hx))
      cases r with
      | nil => simpa [nesting.inList, print.printList] using h1
      | cons j' r =>
        rw [nesting.inList, print.printList]
        simp only [List.length_append, List.length_cons]
        omega
  have mems : ∀ l : List (Str × Json), (∀ x ∈ l, nesting x.2 ≤ (print fmt x.2).length) →
      nesting.inMembers l ≤ (print.printMembers fmt l).length := by
    intro l
    induction l with
    | nil => intro _; exact Nat.le_refl 0
    | cons p r ih =>
      intro h
      obtain ⟨k, j⟩ := p
      have h1 : nesting j ≤ (print fmt j).length := h _ List.mem_cons_self
      have h2 := ih (fun x hx => h x (List.mem_cons_of_mem _ hx))
      cases r with
      | nil =>
        rw [print.printMembers, nesting.inMembers, nesting.inMembers]
        simp only [List.length_append, List.length_cons]
        omega
      | cons p r =>
        rw [nesting.inMembers, print.printMembers]
        simp only [List.length_append, List.length_cons]
        omega
  match j, h with
  | .null, _ => exact Nat.zero_le _
  | .bool _, _ => exact Nat.zero_le _
  | .num _, _ => exact Nat.zero_le _
  | .str _, _ => exact Nat.zero_le _
  | .arr l, h =>
    have := list l (fun x hx => nesting_print x (allNums_list.1 h x hx))
    simp only [nesting, print, List.length_append, List.length_cons]
    omega
  | .obj l, h =>
    have := mems l (fun x hx => nesting_print x.2 (allNums_members.1 h x hx))
    simp only [nesting, print, List.length_append, List.length_cons]
    omega
termination_by sizeOf j
decreasing_by
  · have := List.sizeOf_lt_of_mem hx
    simp; omega
  · have := List.sizeOf_lt_of_mem hx
    have : sizeOf x.2 < sizeOf x := by obtain ⟨a, b⟩ := x; simp; omega
    simp; omega

/-- **C66.** Whatever document the server sends as a text, the client reads that document, however deeply it is nested. -/
theorem C66_exact (fmt : Rat → Str) (round : Rat → Option Rat) (j : Json) (h : AllNums (ServerNum fmt round) j) :
    (jsReader round (print fmt j)).read (print fmt j) = some j := by
  have hn := allNums_mono (fun _ h => serverNum_ok h (print fmt j)) j h
  rw [read_print hn (Nat.succ_pos _), if_pos]
  exact Nat.lt_succ_of_le (nesting_print j hn)

/-- **C66, strings.** The client gets the code units of each text. -/
theorem C66_string (s rest : Str) : strBody (s.flatMap escChar ++ '"' :: rest) = some (utf16 s, rest) := by
  rw [← quoteUnits_utf16]
  exact strBody_quoteUnits _ (utf16_lt s) rest

/-! ## The hypotheses are met -/

/-- One half, written as JavaScript writes it. -/
def exFmt : Rat → Str := fun _ => lit "0.5"

theorem exFmt_half : WritesDouble exFmt some (1 / 2) :=
  ⟨5 / 10, ⟨[], 1, lit "0", 0, lit ".5", 5 / 10, [], 1, rfl, .none, ⟨.one 0 (by decide), Or.inl rfl⟩,
    .some (lit "5") 5 (.one 5 (by decide)), .none, by decide +kernel, Or.inr ⟨Or.inl (by decide), rfl⟩⟩, by decide +kernel⟩

/-- A document with every kind of value, with text that needs escapes. -/
def exDoc : Json := .obj [(lit "a\"\\\n", .arr [.null, .bool true, .num (.int (-12)), .num (.flt (1 / 2))]),
  (lit "b", .str ['\x01', '\u00e9', '😀'])]

theorem exDoc_nums : AllNums (ClientNum exFmt some) exDoc :=
  ⟨⟨trivial, trivial, ⟨by decide, by decide⟩, exFmt_half, trivial⟩, trivial, trivial⟩

example : (serdeReader some).read (print exFmt exDoc) = some exDoc := by
  rw [C65_exact _ _ _ exDoc_nums, if_pos (by decide +kernel)]

example : print exFmt exDoc =
    lit "{\"a\\\"\\\\\\n\":[null,true,-12,0.5],\"b\":\"\\u0001é😀\"}" := by decide +kernel

example : (jsReader some (print exFmt exDoc)).read (print exFmt exDoc) = some exDoc := by
  apply C66_exact
  refine allNums_mono ?_ _ exDoc_nums
  intro n h
  cases n with
  | int _ => trivial
  | flt _ => exact h

/-- `"\ud83d"` in JavaScript: one half of a pair. -/
example (round : Rat → Option Rat) (j : Json) : (serdeReader round).read (jsQuote [0xD83D]) ≠ some j := by
  intro h
  obtain ⟨s, hs, _⟩ := (C65_string round [0xD83D] (by simp) j).1 h
  have := (decode16_iff [0xD83D] s).2 hs
  exact absurd this (by simp [decode16, isHigh])

end Verif.Props
