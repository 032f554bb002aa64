import Verif.Zod.Schema
import Verif.Zod.Ip

/-!
# Parsing with a zod schema
-/

namespace Verif.Zod
open Verif Verif.Js

/-- What a schema refers to: the schemas of the generated module. -/
structure ZEnv where
  const : Str → Str → Option ZSchema

/-- A check on strings (zod `ZodString._parse`). -/
def StrCheck.ok (s : Str) : StrCheck → Bool
  | .length n => (units s : Int) = n
  | .ip => ipv4Regex.test s || ipv6Regex.test s
  | .ipv4 => ipv4Regex.test s
  | .ipv6 => ipv6Regex.test s

/-- The checks on a string with a lone surrogate: such a string is not an IP address. -/
def StrCheck.okBad (units : Nat) : StrCheck → Bool
  | .length n => (units : Int) = n
  | _ => false

/-- A check on numbers (zod `ZodNumber._parse`). -/
def NumCheck.ok (n : JsNum) : NumCheck → Bool
  | .finite => match n with
    | .fin _ => true
    | _ => false
  | .int => match n with
    | .fin q => q.den = 1
    | _ => false
  | .gte i => match n with
    | .fin q => (i : Rat) ≤ q
    | .posInf => true
    | .negInf => false
    | .nan => true
  | .lte i => match n with
    | .fin q => q ≤ (i : Rat)
    | .posInf => false
    | .negInf => true
    | .nan => true

/-- The result of parsing: `none`, still running; `some none`, an error; `some (some r)`, the result. -/
abbrev Res (α : Type) := Option (Option α)

/-- Parses that all run. -/
def allRes {α : Type} : List (Res α) → Res (List α)
  | [] => some (some [])
  | none :: _ => none
  | some x :: r => match allRes r with
    | none => none
    | some rs => some (match x, rs with
      | some a, some l => some (a :: l)
      | _, _ => none)

/-- The first success. -/
def firstRes {α : Type} : List (Res α) → Res α
  | [] => some none
  | none :: _ => none
  | some (some a) :: _ => some (some a)
  | some none :: r => firstRes r

/-- The result object: a property is set if the key was present or the value is not `undefined`. -/
def mkObj (kvs : List (Str × JsVal)) (keys : List Str) (vs : List JsVal) : List (Str × JsVal) :=
  (keys.zip vs).filter (fun p => objHas kvs p.1 || (match p.2 with | .undefined => false | _ => true))

/-- `schema.safeParse`, with a bound on the number of nested steps. -/
def parse (E : ZEnv) : Nat → ZSchema → JsVal → Res JsVal
  | 0, _, _ => none
  | n + 1, z, v => match z with
    | .string cs => some (match v with
      | .str s => if cs.all (StrCheck.ok s) then some v else none
      | .badStr u => if cs.all (StrCheck.okBad u) then some v else none
      | _ => none)
    | .number cs => some (match v with
      | .num .nan => none
      | .num x => if cs.all (NumCheck.ok x) then some v else none
      | _ => none)
    | .null => some (match v with
      | .null => some .null
      | _ => none)
    | .literal s => some (match v with
      | .str s' => if s' = s then some v else none
      | _ => none)
    | .array z => match v with
      | .arr l => (allRes (l.map (parse E n z))).map (·.map .arr)
      | _ => some none
    | .set z => match v with
      | .set l => (allRes (l.map (parse E n z))).map (·.map .set)
      | _ => some none
    | .map zk zv => match v with
      | .map kvs =>
        match allRes (kvs.map (fun p => parse E n zk p.1)), allRes (kvs.map (fun p => parse E n zv p.2)) with
        | some rk, some rv => some (match rk, rv with
          | some ks, some vs => some (.map (ks.zip vs))
          | _, _ => none)
        | _, _ => none
      | _ => some none
    | .tuple zs => match v with
      | .arr l =>
        if l.length < zs.length then some none
        else match allRes (List.zipWith (parse E n) zs l) with
          | none => none
          | some r => some (if zs.length < l.length then none else r.map .arr)
      | _ => some none
    | .object shape => match v with
      | .obj kvs =>
        (allRes (shape.map (fun p => parse E n p.2 (objGet kvs p.1)))).map
          (·.map (fun vs => .obj (mkObj kvs (shape.map (·.1)) vs)))
      | _ => some none
    | .union zs => firstRes (zs.map (fun z => parse E n z v))
    | .discUnion tag options => match v with
      | .obj kvs => match objGet kvs tag with
        | .str s => match options.find? (fun p => p.1 = s) with
          | some (_, z) => parse E n z v
          | none => some none
        | _ => some none
      | _ => some none
    | .optional z => match v with
      | .undefined => some (some .undefined)
      | _ => parse E n z v
    | .lazy ns name => match E.const ns name with
      | some z => parse E n z v
      | none => some none
    | .broken => some none

/-- Parsing succeeds with this result. -/
def ParsesTo (E : ZEnv) (z : ZSchema) (v r : JsVal) : Prop := ∃ n, parse E n z v = some (some r)

/-- The schema accepts the value. -/
def Accepts (E : ZEnv) (z : ZSchema) (v : JsVal) : Prop := ∃ r, ParsesTo E z v r

/-! ## More steps do not change a result -/

theorem allRes_mono {α β : Type} {f g : α → Res β} (h : ∀ a x, f a = some x → g a = some x) (l : List α)
    {x : Option (List β)} (hx : allRes (l.map f) = some x) : allRes (l.map g) = some x := by
  induction l generalizing x with
  | nil => exact hx
  | cons a l ih =>
    simp only [List.map_cons] at hx ⊢
    cases hf : f a with
    | none => rw [hf] at hx; cases hx
    | some y =>
      rw [hf, allRes] at hx
      rw [h _ _ hf, allRes]
      cases hr : allRes (l.map f) with
      | none => rw [hr] at hx; cases hx
      | some z => rw [hr] at hx; rw [ih hr]; exact hx

theorem firstRes_mono {α β : Type} {f g : α → Res β} (h : ∀ a x, f a = some x → g a = some x) (l : List α)
    {x : Option β} (hx : firstRes (l.map f) = some x) : firstRes (l.map g) = some x := by
  induction l generalizing x with
  | nil => exact hx
  | cons a l ih =>
    simp only [List.map_cons] at hx ⊢
    cases hf : f a with
    | none => rw [hf] at hx; cases hx
    | some y =>
      rw [hf] at hx
      rw [h _ _ hf]
      cases y with
      | some b => exact hx
      | none => exact ih hx

theorem parse_mono_succ (E : ZEnv) (n : Nat) : ∀ (z : ZSchema) (v : JsVal) (x : Option JsVal),
    parse E n z v = some x → parse E (n + 1) z v = some x := by
  induction n with
  | zero => intro z v x h; cases h
  | succ n ih =>
    intro z v x h
    have zipw : ∀ (zs : List ZSchema) (l : List JsVal) (x : Option (List JsVal)),
        allRes (List.zipWith (parse E n) zs l) = some x →
        allRes (List.zipWith (parse E (n + 1)) zs l) = some x := by
      intro zs l x h
      have e : ∀ f : ZSchema → JsVal → Res JsVal,
          List.zipWith f zs l = (zs.zip l).map (fun p => f p.1 p.2) := by
        intro f; rw [List.zip, List.map_zipWith]
      rw [e] at h ⊢
      exact allRes_mono (fun p x hx => ih p.1 p.2 x hx) _ h
    cases z with
    | string cs => exact h
    | number cs => exact h
    | null => exact h
    | literal s => exact h
    | broken => exact h
    | array z =>
      cases v with
      | arr l =>
        rw [parse] at h ⊢
        cases hr : allRes (l.map (parse E n z)) with
        | none => rw [hr] at h; cases h
        | some y => rw [hr] at h; rw [allRes_mono (fun a x hx => ih z a x hx) _ hr]; exact h
      | _ => exact h
    | set z =>
      cases v with
      | set l =>
        rw [parse] at h ⊢
        cases hr : allRes (l.map (parse E n z)) with
        | none => rw [hr] at h; cases h
        | some y => rw [hr] at h; rw [allRes_mono (fun a x hx => ih z a x hx) _ hr]; exact h
      | _ => exact h
    | map zk zv =>
      cases v with
      | map kvs =>
        rw [parse] at h ⊢
        cases hk : allRes (kvs.map (fun p => parse E n zk p.1)) with
        | none => rw [hk] at h; cases h
        | some y =>
          rw [hk] at h
          cases hv : allRes (kvs.map (fun p => parse E n zv p.2)) with
          | none => rw [hv] at h; cases h
          | some y' =>
            rw [hv] at h
            rw [allRes_mono (g := fun p : JsVal × JsVal => parse E (n + 1) zk p.1)
                (fun p x hx => ih zk p.1 x hx) _ hk,
              allRes_mono (g := fun p : JsVal × JsVal => parse E (n + 1) zv p.2)
                (fun p x hx => ih zv p.2 x hx) _ hv]
            exact h
      | _ => exact h
    | tuple zs =>
      cases v with
      | arr l =>
        rw [parse] at h ⊢
        by_cases hl : l.length < zs.length
        · rw [if_pos hl] at h ⊢; exact h
        · rw [if_neg hl] at h ⊢
          cases hr : allRes (List.zipWith (parse E n) zs l) with
          | none => rw [hr] at h; cases h
          | some y => rw [hr] at h; rw [zipw _ _ _ hr]; exact h
      | _ => exact h
    | object shape =>
      cases v with
      | obj kvs =>
        rw [parse] at h ⊢
        cases hr : allRes (shape.map (fun p => parse E n p.2 (objGet kvs p.1))) with
        | none => rw [hr] at h; cases h
        | some y =>
          rw [hr] at h
          rw [allRes_mono (g := fun p : Str × ZSchema => parse E (n + 1) p.2 (objGet kvs p.1))
            (fun p x hx => ih p.2 _ x hx) _ hr]
          exact h
      | _ => exact h
    | union zs =>
      rw [parse] at h ⊢
      exact firstRes_mono (fun z x hx => ih z v x hx) _ h
    | discUnion tag options =>
      cases v with
      | obj kvs =>
        rw [parse] at h ⊢
        cases hg : objGet kvs tag with
        | str s =>
          rw [hg] at h
          simp only at h ⊢
          cases ho : options.find? (fun p => decide (p.1 = s)) with
          | none => rw [ho] at h; exact h
          | some o => rw [ho] at h; exact ih _ _ _ h
        | _ => rw [hg] at h; exact h
      | _ => exact h
    | optional z =>
      cases v with
      | undefined => exact h
      | _ => exact ih _ _ _ h
    | lazy ns name =>
      rw [parse] at h ⊢
      cases hc : E.const ns name with
      | none => rw [hc] at h; exact h
      | some z => rw [hc] at h; exact ih _ _ _ h

theorem parse_mono {E : ZEnv} {n m : Nat} (hn : n ≤ m) {z : ZSchema} {v : JsVal} {x : Option JsVal}
    (h : parse E n z v = some x) : parse E m z v = some x := by
  induction hn with
  | refl => exact h
  | step _ ih => exact parse_mono_succ E _ z v x ih

theorem parsesTo_unique {E : ZEnv} {z : ZSchema} {v r r' : JsVal} (h : ParsesTo E z v r)
    (h' : ParsesTo E z v r') : r = r' := by
  obtain ⟨n, h⟩ := h
  obtain ⟨n', h'⟩ := h'
  have a := parse_mono (Nat.le_max_left n n') h
  have b := parse_mono (Nat.le_max_right n n') h'
  rw [a] at b
  injection b with b
  injection b

end Verif.Zod
