import Verif.Schema.Table
import Verif.Spec.Table
import Verif.Props.Agree

/-!
# C64: the type table of the documentation
-/

namespace Verif.Props
open Verif Verif.Schema Verif.TableSpec

/-- C64: every row of the table shows, with `T` and `U` replaced by the schemas of two types, the
schema of the type of this row at these two types. -/
def C64_statement : Prop :=
  ∀ row ∈ table, ∀ (P : Program) (t u : Ty) (a b : Str), Returns P .schema t a →
    Returns P .schema u b → Returns P .schema (inst t u row.ty) (fill a b false row.text)

/-- Which text of its parameters the schema of a type is made of: smart pointers pass the schema on,
all others contain the inline schema. -/
def via : Ty → Method
  | .wrap _ _ => .schema
  | _ => .inlineSchema

private theorem ret_wrap {P : Program} {w : Wrapper} {t : Ty} {a : Str} (h : Returns P .schema t a) :
    Returns P .schema (.wrap w t) a := (returns_single (by simp only [body])).2 h

private theorem ret_pieces {P : Program} {m : Method} {t : Ty} {ps : List Piece} {s : Str}
    (hb : body P m t = some ps) (h : ∃ n, runPieces (eval P n) ps = some s) : Returns P m t s :=
  (returns_body hb).2 h

private theorem ret1 {P : Program} {m : Method} {t t' : Ty} {m' : Method} {x y a : Str}
    (hb : body P m t = some [.txt x, .call m' t', .txt y]) (h : Returns P m' t' a) :
    Returns P m t (x ++ (a ++ y)) := by
  obtain ⟨n, hn⟩ := h
  exact ret_pieces hb ⟨n, by simp [runPieces, hn]⟩

private theorem ret2 {P : Program} {m : Method} {t t' t'' : Ty} {m' : Method} {x y z a b : Str}
    (hb : body P m t = some [.txt x, .call m' t', .txt y, .call m' t'', .txt z])
    (h : Returns P m' t' a) (h' : Returns P m' t'' b) :
    Returns P m t (x ++ (a ++ (y ++ (b ++ z)))) := by
  obtain ⟨n, hn⟩ := h
  obtain ⟨n', hn'⟩ := h'
  have h1 := eval_mono (Nat.le_max_left n n') hn
  have h2 := eval_mono (Nat.le_max_right n n') hn'
  exact ret_pieces hb ⟨max n n', by simp [runPieces, h1, h2]⟩

private theorem ret_prim {P : Program} {p : Prim} : Returns P .schema (.prim p) p.schema :=
  ⟨1, by simp [eval, body, runPieces]⟩

private theorem ret_option {P : Program} {t : Ty} {a : Str} (h : Returns P .inlineSchema t a) :
    Returns P .schema (.option t) (a ++ lit ".optional()") := by
  obtain ⟨n, hn⟩ := h
  exact ret_pieces (ps := [.call .inlineSchema t, .txt (lit ".optional()")]) rfl
    ⟨n, by simp [runPieces, hn]⟩

private theorem ret_result {P : Program} {t u : Ty} {a b : Str} (h : Returns P .inlineSchema t a)
    (h' : Returns P .inlineSchema u b) : Returns P .schema (.result t u)
      (lit "z.union([z.object({ Ok: " ++ (a ++ (lit " }), z.object({ Err: " ++ (b ++ lit " })])")))) :=
  ret2 (by simp only [body]) h h'

private theorem ret_vec {P : Program} {t : Ty} {a : Str} (h : Returns P .inlineSchema t a) :
    Returns P .schema (.vec t) (lit "z.array(" ++ (a ++ lit ")")) := ret1 (by simp only [body]) h

private theorem ret_set {P : Program} {t : Ty} {a : Str} (h : Returns P .inlineSchema t a) :
    Returns P .schema (.hashSet t) (lit "z.set(" ++ (a ++ lit ")")) := ret1 (by simp only [body]) h

private theorem ret_map {P : Program} {t u : Ty} {a b : Str} (h : Returns P .inlineSchema t a)
    (h' : Returns P .inlineSchema u b) :
    Returns P .schema (.hashMap t u) (lit "z.map(" ++ (a ++ (lit ", " ++ (b ++ lit ")")))) :=
  ret2 (by simp only [body]) h h'

set_option maxRecDepth 4000 in
/-- **C64, every row.** The schema of the type of a row, at any two types of any program, is the text
of the row with `T` and `U` replaced by the schemas (for smart pointers) or inline schemas (for all
other types) of the two types. -/
theorem C64_partial : ∀ row ∈ table, ∀ (P : Program) (t u : Ty) (a b : Str),
    Returns P (via row.ty) t a → Returns P (via row.ty) u b →
    Returns P .schema (inst t u row.ty) (fill a b false row.text) := by
  intro row hrow P t u a b ht hu
  have hprim : ∀ (p : Prim) (n : Str) (l : Option Str), p.schema = fill a b false p.schema →
      Returns P .schema (inst t u (Ty.prim p)) (fill a b false (Row.text ⟨.prim p, n, l⟩)) := by
    intro p n l h
    have e : Row.text ⟨.prim p, n, l⟩ = p.schema := by
      simp [Row.text, evalDoc, body, runPieces]
    rw [e, ← h]
    simp only [inst]
    exact ret_prim
  have hwrap : ∀ (w : Wrapper) (n : Str) (l : Option Str), Returns P .schema t a →
      Returns P .schema (inst t u (Ty.wrap w tyT)) (fill a b false (Row.text ⟨.wrap w tyT, n, l⟩)) := by
    intro w n l h
    have e : fill a b false (Row.text ⟨.wrap w tyT, n, l⟩) = a := by
      have : Row.text ⟨.wrap w tyT, n, l⟩ = ['T'] := rfl
      rw [this]; simp [fill]
    rw [e]
    simp only [inst, tyT]
    exact ret_wrap h
  simp only [table, List.mem_cons, List.not_mem_nil, or_false] at hrow
  rcases hrow with rfl | rfl | rfl | rfl | rfl | rfl | rfl | rfl | rfl | rfl | rfl | rfl | rfl | rfl |
    rfl | rfl | rfl | rfl | rfl | rfl | rfl | rfl | rfl | rfl | rfl | rfl | rfl | rfl | rfl | rfl |
    rfl | rfl | rfl | rfl | rfl | rfl
  all_goals first
    | exact hprim _ _ _ rfl
    | exact hwrap _ _ _ ht
    | (simp only [inst, Row.withLink, tyT, tyU]; exact ret_option ht)
    | (simp only [inst, Row.withLink, tyT, tyU]; exact ret_result ht hu)
    | (simp only [inst, Row.withLink, tyT, tyU]; exact ret_vec ht)
    | (simp only [inst, Row.withLink, tyT, tyU]; exact ret_set ht)
    | (simp only [inst, Row.withLink, tyT, tyU]; exact ret_map ht hu)
    | (simp only [inst, Row.withLink, tyT, tyU];
       exact (returns_single (by simp only [body])).2 (ret_set ht))
    | (simp only [inst, Row.withLink, tyT, tyU];
       exact (returns_single (by simp only [body])).2 (ret_map ht hu))

private theorem inline_builtin {P : Program} {t : Ty} (hb : builtin t) {m : Method} {a : Str}
    (h : Returns P .schema t a) (hm : m = .schema ∨ m = .inlineSchema) : Returns P m t a := by
  rcases hm with rfl | rfl
  · exact h
  · cases t with
    | named i => exact hb.elim
    | _ => exact (returns_single (by simp only [body])).2 h

/-- **C64, types that are not derived.** For these the table is right as it stands: the schema of the
type of a row at two built-in types (nested as you like, derived types inside) is the text of the row
with `T` and `U` replaced by their schemas. -/
theorem C64_partial_builtin : ∀ row ∈ table, ∀ (P : Program) (t u : Ty) (a b : Str),
    builtin t → builtin u → Returns P .schema t a → Returns P .schema u b →
    Returns P .schema (inst t u row.ty) (fill a b false row.text) := by
  intro row hrow P t u a b ht hu ha hb
  have hm : via row.ty = .schema ∨ via row.ty = .inlineSchema := by
    unfold via; split <;> simp
  exact C64_partial row hrow P t u a b (inline_builtin ht ha hm) (inline_builtin hu hb hm)

set_option maxRecDepth 4000 in
/-- It is false for derived types: `Vec<S>` does not contain the schema of `S`, but a reference. -/
theorem C64_violated : ¬ C64_statement := by
  intro h
  have hr : Row.withLink (.vec tyT) "Vec<T>" "Vec" ∈ table := by simp [table]
  have hS : Returns exMissing .schema (.named 0)
    ((eval exMissing 6 .schema (.named 0)).getD []) := ⟨6, rfl⟩
  have hV : Returns exMissing .schema (.vec (.named 0))
    ((eval exMissing 7 .schema (.vec (.named 0))).getD []) := ⟨7, rfl⟩
  have := h _ hr exMissing (.named 0) (.named 0) _ _ hS hS
  simp only [inst, Row.withLink, tyT] at this
  exact absurd (returns_unique this hV) (by decide +kernel)

/-- Every type that can be used without deriving is shown. -/
def C64_complete : Prop := ∀ p : Prim, ∃ row ∈ table, row.ty = .prim p

/-- It is false. Exactly these built-in types without parameters are not in the table: the three types
of IP addresses, `SmolStr`, and the two `NotNan` types. -/
theorem C64_missing (p : Prim) : (∃ row ∈ table, row.ty = .prim p) ↔
    p ≠ .ipv4 ∧ p ≠ .ipv6 ∧ p ≠ .ip ∧ p ≠ .smolStr ∧ p ≠ .notNanF32 ∧ p ≠ .notNanF64 := by
  cases p <;> simp [table, Row.new, Row.withLink]

theorem C64_violated_complete : ¬ C64_complete := fun h =>
  ((C64_missing .ip).1 (h .ip)).2.2.1 rfl

/-- Arrays and tuples are not in the table either. -/
theorem C64_missing_shapes : (∀ row ∈ table, ∀ n t, row.ty ≠ .array n t) ∧
    ∀ row ∈ table, ∀ ts, row.ty ≠ .tuple ts := by
  constructor <;> simp [table, Row.new, Row.withLink]

/-- **C64, titles.** Every row is titled with the name that Rust has for the type of the row, with `T`, `T1` or `U`, `U2`, `E`
for its parameters. -/
theorem C64_titles : ∀ row ∈ table, ∃ x ∈ [lit "T", lit "T1"], ∃ y ∈ [lit "U", lit "U2", lit "E"],
    nameWith x y row.ty = some row.name := by
  have key : ∀ row ∈ table, ([lit "T", lit "T1"].any (fun x => [lit "U", lit "U2", lit "E"].any (fun y =>
      decide (nameWith x y row.ty = some row.name)))) = true := List.all_eq_true.1 (by decide +kernel)
  intro row hrow
  obtain ⟨x, hx, h⟩ := List.any_eq_true.1 (key row hrow)
  obtain ⟨y, hy, h⟩ := List.any_eq_true.1 h
  exact ⟨x, hx, y, hy, of_decide_eq_true h⟩

/-- The names of a schema in the table are the parameters in the name of the type. -/
def C64_named : Prop := ∀ row ∈ table, ∀ x ∈ ['T', 'U'],
  mentions x false row.text = true → mentions x false row.name = true

/-- It is false: the schema shown for `Result<T, E>` mentions `U`, and not `E`, and the schemas of
`HashMap<T1, U2>` and `BTreeMap<T1, U2>` mention neither `T1` nor `U2`. -/
theorem C64_violated_named : ¬ C64_named := by
  intro h
  have hr : Row.withLink (.result tyT tyU) "Result<T, E>" "Result" ∈ table := by simp [table]
  exact absurd (h _ hr 'U' (by simp) (by decide +kernel)) (by decide +kernel)

/-- For all other rows it is true. -/
theorem C64_named_partial : ∀ row ∈ table, (∀ t u, row.ty ≠ .result t u) → (∀ t u, row.ty ≠ .hashMap t u) →
    (∀ t u, row.ty ≠ .btreeMap t u) → ∀ x ∈ ['T', 'U'],
    mentions x false row.text = true → mentions x false row.name = true := by
  intro row hrow h1 h2 h3 x hx
  have key : ∀ row ∈ table, (match row.ty with
      | .result _ _ | .hashMap _ _ | .btreeMap _ _ => true
      | _ => ['T', 'U'].all (fun x => !mentions x false row.text || mentions x false row.name)) = true :=
    List.all_eq_true.1 (by decide +kernel)
  have := key row hrow
  split at this
  · next e => exact absurd e (h1 _ _)
  · next e => exact absurd e (h2 _ _)
  · next e => exact absurd e (h3 _ _)
  · have := List.all_eq_true.1 this x hx
    intro h
    simpa [h] using this

set_option maxRecDepth 20000 in
/-- **C64, the document.** The Markdown document consists of one heading and one block for each row, in
order; the heading is a link that shows the name of the type, and the block contains the schema. -/
theorem C64_document : (blocks (linesOf generateTable)).map (fun b => ((linkText b.1).bind shown, b.2)) =
    table.map (fun r => (some r.name, r.text)) := by
  decide +kernel

set_option maxRecDepth 20000 in
/-- **C64, links.** The heading of each row leads to the page of the type of the row: the target of the
link ends with the name of the type without its parameters, or is a web address, which only the row of
`()` has. -/
theorem C64_links : (blocks (linesOf generateTable)).length = table.length ∧
    ∀ p ∈ (blocks (linesOf generateTable)).zip table, ∃ target, linkTarget p.1.1 = some target ∧
      LeadsTo (p.2.name.takeWhile (· != '<')) target ∧
      ((lit "https://").isPrefixOf target = true ↔ p.2.name = lit "()") := by
  have key : ∀ p ∈ (blocks (linesOf generateTable)).zip table, (match linkTarget p.1.1 with
      | none => false
      | some target => decide (LeadsTo (p.2.name.takeWhile (· != '<')) target ∧
        ((lit "https://").isPrefixOf target = true ↔ p.2.name = lit "()"))) = true :=
    List.all_eq_true.1 (by decide +kernel)
  refine ⟨by decide +kernel, fun p hp => ?_⟩
  have := key p hp
  cases h : linkTarget p.1.1 with
  | none => rw [h] at this; exact absurd this (by simp)
  | some t => rw [h] at this; exact ⟨t, rfl, of_decide_eq_true this⟩

/-! ## The hypotheses are met -/

/-- `HashMap<u8, Option<String>>`: the row of `HashMap`. -/
example : Returns [] .schema (.hashMap (.prim .u8) (.option (.prim .string)))
    (lit "z.map(z.number().finite().int().nonnegative().lte(255), z.string().optional())") := by
  have hr : Row.withLink (.hashMap tyT tyU) "HashMap<T1, U2>" "std::collections::HashMap" ∈ table := by
    simp [table]
  have := C64_partial_builtin _ hr [] (.prim .u8) (.option (.prim .string)) _ _ trivial trivial
    ⟨5, rfl⟩ ⟨5, rfl⟩
  simp only [inst, Row.withLink, tyT, tyU] at this
  exact this

/-- `Vec<S>` for a derived type: the row of `Vec` with the inline schema of `S`. -/
example : Returns exMissing .schema (.vec (.named 0)) (lit "z.array(z.lazy(() => Ns.S))") := by
  have hr : Row.withLink (.vec tyT) "Vec<T>" "Vec" ∈ table := by simp [table]
  have := C64_partial _ hr exMissing (.named 0) (.named 0) _ _ ⟨6, rfl⟩ ⟨6, rfl⟩
  simp only [inst, Row.withLink, tyT, tyU] at this
  exact this

end Verif.Props
