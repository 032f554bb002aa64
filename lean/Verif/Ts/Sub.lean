import Verif.Ts.Values
import Verif.Ts.TsOf
import Verif.Zod.Evolve

/-!
# Types whose values are values of other types

`SubT K Q T U`: every value of `T`, in which no object has a property with a name in `K`, is a value of `U`. The names of declared types
may mean something else on the right than on the left; then this has to hold for what they mean.
-/

namespace Verif.Ts
open Verif Verif.Js Verif.Schema Verif.Spec Verif.SchemaSpec Verif.Zod

/-- Every value of the first type is one of the second, up to properties with names in `K`. -/
inductive SubT (K : Str → Prop) (D D' : TsEnv) (Q : Str → Str → Prop) : TsType → TsType → Prop where
  | word (w : Str) : SubT K D D' Q (.name [w]) (.name [w])
  | ref (ns name : Str) : Q ns name → SubT K D D' Q (.name [ns, name]) (.name [ns, name])
  | unfoldLeft (ns name : Str) (t u : TsType) : D ns name = some t → SubT K D D' Q t u → SubT K D D' Q (.name [ns, name]) u
  | unfoldRight (ns name : Str) (t u : TsType) : D' ns name = some u → SubT K D D' Q t u → SubT K D D' Q t (.name [ns, name])
  | str (s : Str) : SubT K D D' Q (.str s) (.str s)
  | app (p : List Str) (ts us : List TsType) : ts.length = us.length →
      (∀ (i : Nat) t u, ts[i]? = some t → us[i]? = some u → SubT K D D' Q t u) → SubT K D D' Q (.app p ts) (.app p us)
  | tuple (ts us : List TsType) : ts.length = us.length →
      (∀ (i : Nat) t u, ts[i]? = some t → us[i]? = some u → SubT K D D' Q t u) → SubT K D D' Q (.tuple ts) (.tuple us)
  | obj (ps qs : List (Str × Bool × TsType)) (src : Str × Bool × TsType → Option (Str × Bool × TsType)) :
      (∀ q ∈ qs, src q = none → K q.1 ∧ q.2.1 = true) →
      (∀ q ∈ qs, ∀ p, src q = some p → p ∈ ps ∧ p.1 = q.1 ∧ p.2.1 = q.2.1) →
      (∀ q ∈ qs, ∀ p, src q = some p → SubT K D D' Q p.2.2 q.2.2) → SubT K D D' Q (.obj ps) (.obj qs)
  | unionLeft (ts : List TsType) (u : TsType) : (∀ t ∈ ts, SubT K D D' Q t u) → SubT K D D' Q (.union ts) u
  | unionRight (t u : TsType) (us : List TsType) : u ∈ us → SubT K D D' Q t u → SubT K D D' Q t (.union us)
  | interLeft (ts : List TsType) (t u : TsType) : t ∈ ts → SubT K D D' Q t u → SubT K D D' Q (.inter ts) u
  | interRight (t : TsType) (us : List TsType) : (∀ u ∈ us, SubT K D D' Q t u) → SubT K D D' Q t (.inter us)

section
variable {K : Str → Prop} {D D' : TsEnv} {Q : Str → Str → Prop}

/-- Declared types have values of the types declared by the same name. -/
def LinkedT (K : Str → Prop) (D D' : TsEnv) (Q : Str → Str → Prop) : Prop :=
  ∀ ns name, Q ns name → ∀ t, D ns name = some t → ∃ u, D' ns name = some u ∧ SubT K D D' Q t u

theorem lacks_has {kvs : List (Str × JsVal)} (h : Lacks K (.obj kvs)) {k : Str} (hk : K k) : objHas kvs k = false := by
  cases h with
  | obj _ h _ =>
    unfold objHas
    rw [List.any_eq_false]
    intro p hp
    simp only [decide_eq_true_eq]
    rintro rfl
    exact h p hp hk

theorem lacks_get {kvs : List (Str × JsVal)} (h : Lacks K (.obj kvs)) {k : Str} : Lacks K (objGet kvs k) := by
  cases h with
  | obj _ _ h =>
    unfold objGet
    cases hf : kvs.find? (fun p => p.1 = k) with
    | none => exact .undefined
    | some p => exact h p (List.mem_of_find?_eq_some hf)

/-- Values of the type on the left are values of the one on the right. -/
theorem sub_values (hL : LinkedT K D D' Q) {len : Bool} {T : TsType} {v : JsVal} (h : Inhabits D len T v) :
    Lacks K v → ∀ U, SubT K D D' Q T U → Inhabits D' len U v := by
  induction h with
  | string s =>
    intro hk U hs
    generalize hT : TsType.name [lit "string"] = T at hs
    induction hs with
    | unfoldRight ns name t u hd _ ih => exact .ref ns name u _ hd (ih hT)
    | unionRight t u us hm _ ih => exact .union us u _ hm (ih hT)
    | interRight t us _ ih => exact .inter us _ (fun u hu => ih u hu hT)
    | word w => cases hT; exact .string s
    | _ => cases hT
  | badString n =>
    intro hk U hs
    generalize hT : TsType.name [lit "string"] = T at hs
    induction hs with
    | unfoldRight ns name t u hd _ ih => exact .ref ns name u _ hd (ih hT)
    | unionRight t u us hm _ ih => exact .union us u _ hm (ih hT)
    | interRight t us _ ih => exact .inter us _ (fun u hu => ih u hu hT)
    | word w => cases hT; exact .badString n
    | _ => cases hT
  | number x =>
    intro hk U hs
    generalize hT : TsType.name [lit "number"] = T at hs
    induction hs with
    | unfoldRight ns name t u hd _ ih => exact .ref ns name u _ hd (ih hT)
    | unionRight t u us hm _ ih => exact .union us u _ hm (ih hT)
    | interRight t us _ ih => exact .inter us _ (fun u hu => ih u hu hT)
    | word w => cases hT; exact .number x
    | _ => cases hT
  | boolean b =>
    intro hk U hs
    generalize hT : TsType.name [lit "boolean"] = T at hs
    induction hs with
    | unfoldRight ns name t u hd _ ih => exact .ref ns name u _ hd (ih hT)
    | unionRight t u us hm _ ih => exact .union us u _ hm (ih hT)
    | interRight t us _ ih => exact .inter us _ (fun u hu => ih u hu hT)
    | word w => cases hT; exact .boolean b
    | _ => cases hT
  | null =>
    intro hk U hs
    generalize hT : TsType.name [lit "null"] = T at hs
    induction hs with
    | unfoldRight ns name t u hd _ ih => exact .ref ns name u _ hd (ih hT)
    | unionRight t u us hm _ ih => exact .union us u _ hm (ih hT)
    | interRight t us _ ih => exact .inter us _ (fun u hu => ih u hu hT)
    | word w => cases hT; exact .null
    | _ => cases hT
  | undefined =>
    intro hk U hs
    generalize hT : TsType.name [lit "undefined"] = T at hs
    induction hs with
    | unfoldRight ns name t u hd _ ih => exact .ref ns name u _ hd (ih hT)
    | unionRight t u us hm _ ih => exact .union us u _ hm (ih hT)
    | interRight t us _ ih => exact .inter us _ (fun u hu => ih u hu hT)
    | word w => cases hT; exact .undefined
    | _ => cases hT
  | literal s =>
    intro hk U hs
    generalize hT : TsType.str s = T at hs
    induction hs with
    | unfoldRight ns name t u hd _ ih => exact .ref ns name u _ hd (ih hT)
    | unionRight t u us hm _ ih => exact .union us u _ hm (ih hT)
    | interRight t us _ ih => exact .inter us _ (fun u hu => ih u hu hT)
    | str w => cases hT; exact .literal s
    | _ => cases hT
  | ref ns' name' t' v hd' _ ihv =>
    intro hk U hs
    generalize hT : TsType.name [ns', name'] = T at hs
    induction hs with
    | unfoldRight ns name t u hd _ ih => exact .ref ns name u _ hd (ih hT)
    | unionRight t u us hm _ ih => exact .union us u _ hm (ih hT)
    | interRight t us _ ih => exact .inter us _ (fun u hu => ih u hu hT)
    | ref ns name hq =>
      cases hT
      obtain ⟨u, hu, hs⟩ := hL _ _ hq _ hd'
      exact .ref _ _ u _ hu (ihv hk u hs)
    | unfoldLeft ns name t u hd hs _ =>
      cases hT
      rw [hd'] at hd
      cases hd
      exact ihv hk u hs
    | _ => cases hT
  | array t l _ ihv =>
    intro hk U hs
    generalize hT : TsType.app [lit "Array"] [t] = T at hs
    induction hs with
    | unfoldRight ns name t u hd _ ih => exact .ref ns name u _ hd (ih hT)
    | unionRight t u us hm _ ih => exact .union us u _ hm (ih hT)
    | interRight t us _ ih => exact .inter us _ (fun u hu => ih u hu hT)
    | app p ts us hl ht _ =>
      cases hT
      match us, hl with
      | [u], _ =>
        have hs := ht 0 t u rfl rfl
        exact .array u l (fun x hx => ihv x hx ((lacks_inherited K).arr _ hk x hx) u hs)
    | _ => cases hT
  | set t l _ ihv =>
    intro hk U hs
    generalize hT : TsType.app [lit "Set"] [t] = T at hs
    induction hs with
    | unfoldRight ns name t u hd _ ih => exact .ref ns name u _ hd (ih hT)
    | unionRight t u us hm _ ih => exact .union us u _ hm (ih hT)
    | interRight t us _ ih => exact .inter us _ (fun u hu => ih u hu hT)
    | app p ts us hl ht _ =>
      cases hT
      match us, hl with
      | [u], _ =>
        have hs := ht 0 t u rfl rfl
        exact .set u l (fun x hx => ihv x hx ((lacks_inherited K).set _ hk x hx) u hs)
    | _ => cases hT
  | map t t' l _ _ ihk ihv =>
    intro hk U hs
    generalize hT : TsType.app [lit "Map"] [t, t'] = T at hs
    induction hs with
    | unfoldRight ns name t u hd _ ih => exact .ref ns name u _ hd (ih hT)
    | unionRight t u us hm _ ih => exact .union us u _ hm (ih hT)
    | interRight t us _ ih => exact .inter us _ (fun u hu => ih u hu hT)
    | app p ts us hl ht _ =>
      cases hT
      match us, hl with
      | [u, u'], _ =>
        have hs := ht 0 t u rfl rfl
        have hs' := ht 1 t' u' rfl rfl
        cases hk with
        | map _ h1 h2 => exact .map u u' l (fun x hx => ihk x hx (h1 x hx) u hs) (fun x hx => ihv x hx (h2 x hx) u' hs')
    | _ => cases hT
  | tuple ts l hl' _ ihv =>
    intro hk U hs
    generalize hT : TsType.tuple ts = T at hs
    induction hs with
    | unfoldRight ns name t u hd _ ih => exact .ref ns name u _ hd (ih hT)
    | unionRight t u us hm _ ih => exact .union us u _ hm (ih hT)
    | interRight t us _ ih => exact .inter us _ (fun u hu => ih u hu hT)
    | tuple ts us hl ht _ =>
      cases hT
      refine .tuple us l (hl'.trans hl) (fun i u x hu hx => ?_)
      cases hti : ts[i]? with
      | none =>
        rw [List.getElem?_eq_none_iff] at hti
        have := (List.getElem?_eq_some_iff.1 hu).1
        omega
      | some t => exact ihv i t x hti hx ((lacks_inherited K).arr _ hk x (List.mem_of_getElem? hx)) u (ht i t u hti hu)
    | _ => cases hT
  | obj ps kvs h1 h2 h3 ih1 ih3 =>
    intro hk U hs
    generalize hT : TsType.obj ps = T at hs
    induction hs with
    | unfoldRight ns name t u hd _ ih => exact .ref ns name u _ hd (ih hT)
    | unionRight t u us hm _ ih => exact .union us u _ hm (ih hT)
    | interRight t us _ ih => exact .inter us _ (fun u hu => ih u hu hT)
    | obj ps qs src hn hp ht _ =>
      cases hT
      refine .obj qs kvs (fun q hq hh => ?_) (fun q hq hh ho => ?_) (fun q hq hh ho => ?_)
      · cases hsrc : src q with
        | none =>
          rw [lacks_has hk (hn q hq hsrc).1] at hh
          cases hh
        | some p =>
          obtain ⟨hm, e1, e2⟩ := hp q hq p hsrc
          rw [← e1] at hh ⊢
          exact ih1 p hm hh (lacks_get hk) _ (ht q hq p hsrc)
      · cases hsrc : src q with
        | none =>
          rw [(hn q hq hsrc).2] at ho
          cases ho
        | some p =>
          obtain ⟨hm, e1, e2⟩ := hp q hq p hsrc
          rw [← e1] at hh
          rw [← e2] at ho
          exact h2 p hm hh ho
      · cases hsrc : src q with
        | none =>
          rw [(hn q hq hsrc).2] at ho
          cases ho
        | some p =>
          obtain ⟨hm, e1, e2⟩ := hp q hq p hsrc
          rw [← e1] at hh
          rw [← e2] at ho
          exact ih3 p hm hh ho .undefined _ (ht q hq p hsrc)
    | _ => cases hT
  | union ts t v hm _ ihv =>
    intro hk U hs
    generalize hT : TsType.union ts = T at hs
    induction hs with
    | unfoldRight ns name t u hd _ ih => exact .ref ns name u _ hd (ih hT)
    | unionRight t u us hm _ ih => exact .union us u _ hm (ih hT)
    | interRight t us _ ih => exact .inter us _ (fun u hu => ih u hu hT)
    | unionLeft ts u hs _ => cases hT; exact ihv hk u (hs t hm)
    | _ => cases hT
  | inter ts v _ ihv =>
    intro hk U hs
    generalize hT : TsType.inter ts = T at hs
    induction hs with
    | unfoldRight ns name t u hd _ ih => exact .ref ns name u _ hd (ih hT)
    | unionRight t u us hm _ ih => exact .union us u _ hm (ih hT)
    | interRight t us _ ih => exact .inter us _ (fun u hu => ih u hu hT)
    | interLeft ts t u hm hs _ => cases hT; exact ihv t hm hk u hs
    | _ => cases hT

end

end Verif.Ts
