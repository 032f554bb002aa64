import Verif.Spec.Rename
import Verif.Ts.Reorder
import Verif.Zod.Rename

/-!
# The names of types and the values of TypeScript types
-/

namespace Verif.Ts
open Verif Verif.Js Verif.Schema Verif.Spec Verif.SchemaSpec Verif.Zod

/-- The type with other references. -/
def renamedT (f : Str → Str → Str × Str) : TsType → TsType
  | .name [ns, name] => .name [(f ns name).1, (f ns name).2]
  | .name p => .name p
  | .app p ts => .app p (ts.map (fun t => renamedT f t))
  | .str s => .str s
  | .tuple ts => .tuple (ts.map (fun t => renamedT f t))
  | .obj ps => .obj (ps.map (fun p => (p.1, p.2.1, renamedT f p.2.2)))
  | .union ts => .union (ts.map (fun t => renamedT f t))
  | .inter ts => .inter (ts.map (fun t => renamedT f t))
decreasing_by
  all_goals first
  | (rename_i h; have := List.sizeOf_lt_of_mem h; obtain ⟨a, b, c⟩ := p; simp only [TsType.obj.sizeOf_spec, Prod.mk.sizeOf_spec] at this ⊢; omega)
  | (rename_i h; have := List.sizeOf_lt_of_mem h; simp only [TsType.app.sizeOf_spec, TsType.tuple.sizeOf_spec, TsType.union.sizeOf_spec, TsType.inter.sizeOf_spec]; omega)

variable {f : Str → Str → Str × Str}

/-- The same for alternatives. -/
def renD (f : Str → Str → Str × Str) (d : Dnf) : Dnf := d.map (List.map (renamedT f))

theorem renamedT_word (w : Str) : renamedT f (.name [w]) = .name [w] := by
  rw [renamedT]; intro a b h; cases h

theorem ofConj_renamed (c : List TsType) : ofConj (c.map (renamedT f)) = renamedT f (ofConj c) := by
  match c with
  | [] => simp [ofConj, renamedT]
  | [t] => rfl
  | a :: b :: r => simp [ofConj, renamedT]

theorem ofDnf_renamed (d : Dnf) : ofDnf (renD f d) = renamedT f (ofDnf d) := by
  match d with
  | [] => simp [ofDnf, renD, renamedT]
  | [c] => exact ofConj_renamed c
  | a :: b :: r => simp [ofDnf, renD, renamedT, ofConj_renamed]

/-! ## Values -/

/-- What is referred to is the same under the other name. -/
def LinkedRenT (f : Str → Str → Str × Str) (D D' : TsEnv) : Prop :=
  ∀ ns name, D' (f ns name).1 (f ns name).2 = (D ns name).map (renamedT f)

theorem renamed_values {D D' : TsEnv} (hL : LinkedRenT f D D') {len : Bool} {T : TsType} {v : JsVal} (h : Inhabits D len T v) :
    Inhabits D' len (renamedT f T) v := by
  induction h with
  | string s => rw [renamedT_word]; exact .string s
  | badString n => rw [renamedT_word]; exact .badString n
  | number x => rw [renamedT_word]; exact .number x
  | boolean b => rw [renamedT_word]; exact .boolean b
  | null => rw [renamedT_word]; exact .null
  | undefined => rw [renamedT_word]; exact .undefined
  | literal s => rw [renamedT]; exact .literal s
  | ref ns name t v hd _ ih => rw [renamedT]; exact .ref _ _ _ v (by rw [hL, hd]; rfl) ih
  | array t l _ ih => rw [renamedT]; exact .array _ l ih
  | set t l _ ih => rw [renamedT]; exact .set _ l ih
  | map t u l _ _ ih1 ih2 => rw [renamedT]; exact .map _ _ l ih1 ih2
  | tuple ts l hl _ ih =>
    rw [renamedT]
    refine .tuple _ l (by simpa using hl) (fun i t x ht hx => ?_)
    rw [List.getElem?_map, Option.map_eq_some_iff] at ht
    obtain ⟨t, ht, rfl⟩ := ht
    exact ih i t x ht hx
  | obj ps kvs _ h2 _ ih1 ih3 =>
    rw [renamedT]
    refine .obj _ kvs (fun p hp hk => ?_) (fun p hp hk ho => ?_) (fun p hp hk ho => ?_) <;>
      obtain ⟨q, hq, rfl⟩ := List.mem_map.1 hp
    · exact ih1 q hq hk
    · exact h2 q hq hk ho
    · exact ih3 q hq hk ho
  | union ts t v hm _ ih => rw [renamedT]; exact .union _ _ v (List.mem_map.2 ⟨t, hm, rfl⟩) ih
  | inter ts v _ ih =>
    rw [renamedT]
    refine .inter _ v (fun t ht => ?_)
    obtain ⟨t, hm, rfl⟩ := List.mem_map.1 ht
    exact ih t hm

theorem renamedT_name {T : TsType} {p : List Str} (h : renamedT f T = .name p) :
    (∃ ns name, T = .name [ns, name] ∧ p = [(f ns name).1, (f ns name).2]) ∨ (T = .name p ∧ p.length ≠ 2) := by
  cases T with
  | name q =>
    match q, h with
    | [ns, name], h => rw [renamedT] at h; cases h; exact .inl ⟨ns, name, rfl, rfl⟩
    | [], h => rw [renamedT] at h <;> first | (cases h; exact .inr ⟨rfl, by simp⟩) | simp
    | [_], h => rw [renamedT_word] at h; cases h; exact .inr ⟨rfl, by simp⟩
    | _ :: _ :: _ :: _, h => rw [renamedT] at h <;> first | (cases h; exact .inr ⟨rfl, by simp⟩) | simp
  | _ => rw [renamedT] at h; cases h

theorem renamedT_wordBack {T : TsType} {w : Str} (h : renamedT f T = .name [w]) : T = .name [w] := by
  rcases renamedT_name h with ⟨_, _, _, h⟩ | ⟨h, _⟩
  · simp at h
  · exact h

theorem renamedT_app {T : TsType} {p : List Str} {us : List TsType} (h : renamedT f T = .app p us) :
    ∃ ts, T = .app p ts ∧ us = ts.map (renamedT f) := by
  cases T with
  | app q ts => rw [renamedT] at h; cases h; exact ⟨ts, rfl, rfl⟩
  | name q =>
    unfold renamedT at h
    split at h <;> cases h <;> contradiction
  | _ => rw [renamedT] at h; cases h

theorem renamedT_tuple {T : TsType} {us : List TsType} (h : renamedT f T = .tuple us) : ∃ ts, T = .tuple ts ∧ us = ts.map (renamedT f) := by
  cases T with
  | tuple ts => rw [renamedT] at h; cases h; exact ⟨ts, rfl, rfl⟩
  | name q =>
    unfold renamedT at h
    split at h <;> cases h <;> contradiction
  | _ => rw [renamedT] at h; cases h

theorem renamedT_union {T : TsType} {us : List TsType} (h : renamedT f T = .union us) : ∃ ts, T = .union ts ∧ us = ts.map (renamedT f) := by
  cases T with
  | union ts => rw [renamedT] at h; cases h; exact ⟨ts, rfl, rfl⟩
  | name q =>
    unfold renamedT at h
    split at h <;> cases h <;> contradiction
  | _ => rw [renamedT] at h; cases h

theorem renamedT_inter {T : TsType} {us : List TsType} (h : renamedT f T = .inter us) : ∃ ts, T = .inter ts ∧ us = ts.map (renamedT f) := by
  cases T with
  | inter ts => rw [renamedT] at h; cases h; exact ⟨ts, rfl, rfl⟩
  | name q =>
    unfold renamedT at h
    split at h <;> cases h <;> contradiction
  | _ => rw [renamedT] at h; cases h

theorem renamedT_obj {T : TsType} {qs : List (Str × Bool × TsType)} (h : renamedT f T = .obj qs) :
    ∃ ps, T = .obj ps ∧ qs = ps.map (fun p => (p.1, p.2.1, renamedT f p.2.2)) := by
  cases T with
  | obj ps => rw [renamedT] at h; cases h; exact ⟨ps, rfl, rfl⟩
  | name q =>
    unfold renamedT at h
    split at h <;> cases h <;> contradiction
  | _ => rw [renamedT] at h; cases h

theorem renamedT_str {T : TsType} {s : Str} (h : renamedT f T = .str s) : T = .str s := by
  cases T with
  | str s => rw [renamedT] at h; exact h
  | name q =>
    unfold renamedT at h
    split at h <;> cases h <;> contradiction
  | _ => rw [renamedT] at h; cases h

theorem renamed_valuesBack {D D' : TsEnv} (hL : LinkedRenT f D D') {len : Bool} {U : TsType} {v : JsVal} (h : Inhabits D' len U v) :
    ∀ T, renamedT f T = U → Inhabits D len T v := by
  induction h with
  | string s => intro T h; rw [renamedT_wordBack h]; exact .string s
  | badString n => intro T h; rw [renamedT_wordBack h]; exact .badString n
  | number x => intro T h; rw [renamedT_wordBack h]; exact .number x
  | boolean b => intro T h; rw [renamedT_wordBack h]; exact .boolean b
  | null => intro T h; rw [renamedT_wordBack h]; exact .null
  | undefined => intro T h; rw [renamedT_wordBack h]; exact .undefined
  | literal s => intro T h; rw [renamedT_str h]; exact .literal s
  | ref ns name t v hd _ ih =>
    intro T h
    rcases renamedT_name h with ⟨a, b, rfl, e⟩ | ⟨_, h⟩
    · simp only [List.cons.injEq, and_true] at e
      rw [e.1, e.2, hL, Option.map_eq_some_iff] at hd
      obtain ⟨u, hu, rfl⟩ := hd
      exact .ref a b u v hu (ih u rfl)
    · exact absurd rfl h
  | array t l _ ih =>
    intro T h
    obtain ⟨ts, rfl, e⟩ := renamedT_app h
    match ts, e with
    | [u], e => exact .array u l (fun x hx => ih x hx u (by simpa using e.symm))
  | set t l _ ih =>
    intro T h
    obtain ⟨ts, rfl, e⟩ := renamedT_app h
    match ts, e with
    | [u], e => exact .set u l (fun x hx => ih x hx u (by simpa using e.symm))
  | map t u l _ _ ih1 ih2 =>
    intro T h
    obtain ⟨ts, rfl, e⟩ := renamedT_app h
    match ts, e with
    | [a, b], e =>
      simp only [List.map_cons, List.map_nil, List.cons.injEq, and_true] at e
      exact .map a b l (fun x hx => ih1 x hx a e.1.symm) (fun x hx => ih2 x hx b e.2.symm)
  | tuple us l hl _ ih =>
    intro T h
    obtain ⟨ts, rfl, rfl⟩ := renamedT_tuple h
    exact .tuple ts l (by simpa using hl) (fun i t x ht hx => ih i _ x (by rw [List.getElem?_map, ht]; rfl) hx t rfl)
  | obj qs kvs _ h2 _ ih1 ih3 =>
    intro T h
    obtain ⟨ps, rfl, rfl⟩ := renamedT_obj h
    exact .obj ps kvs (fun p hp hk => ih1 _ (List.mem_map.2 ⟨p, hp, rfl⟩) hk _ rfl)
      (fun p hp hk ho => h2 _ (List.mem_map.2 ⟨p, hp, rfl⟩) hk ho) (fun p hp hk ho => ih3 _ (List.mem_map.2 ⟨p, hp, rfl⟩) hk ho _ rfl)
  | union us u v hm _ ih =>
    intro T h
    obtain ⟨ts, rfl, rfl⟩ := renamedT_union h
    obtain ⟨t, ht, rfl⟩ := List.mem_map.1 hm
    exact .union ts t v ht (ih t rfl)
  | inter us v _ ih =>
    intro T h
    obtain ⟨ts, rfl, rfl⟩ := renamedT_inter h
    exact .inter ts v (fun t ht => ih _ (List.mem_map.2 ⟨t, ht, rfl⟩) t rfl)

/-! ## Types of the renamed program -/

theorem renD_append (d e : Dnf) : renD f (d ++ e) = renD f d ++ renD f e := List.map_append

theorem undefD_renamed : renD f undefD = undefD := by simp [renD, undefD, renamedT_word]

theorem optD_renamed (b : Bool) (d : Dnf) : optD b (renD f d) = renD f (optD b d) := by
  cases b with
  | false => rfl
  | true => simp only [optD, if_true, renD_append, undefD_renamed]

theorem andDnf_renamed (d e : Dnf) : andDnf (renD f d) (renD f e) = renD f (andDnf d e) := by
  match d, e with
  | [], _ => rfl
  | _ :: _, [] => rfl
  | x :: d, c :: r =>
    show ((x :: d).map (List.map (renamedT f))).dropLast ++ [(((x :: d).map (List.map (renamedT f))).getLast?).getD [] ++ c.map (renamedT f)] ++
      r.map (List.map (renamedT f)) = ((x :: d).dropLast ++ [((x :: d).getLast?).getD [] ++ c] ++ r).map (List.map (renamedT f))
    rw [List.getLast?_map, ← List.map_dropLast, List.map_append, List.map_append]
    cases h : (x :: d).getLast? with
    | none => simp at h
    | some y => simp

theorem foldl_renamed (l : List Dnf) (d : Dnf) : (l.map (renD f)).foldl andDnf (renD f d) = renD f (l.foldl andDnf d) := by
  induction l generalizing d with
  | nil => rfl
  | cons a r ih => rw [List.map_cons, List.foldl_cons, List.foldl_cons, andDnf_renamed, ih]

theorem single_renamed (T : TsType) : renD f [[T]] = [[renamedT f T]] := rfl

section
variable {rec rec' : Method → Ty → Dnf} (H : ∀ m t, rec' m t = renD f (rec m t))
include H

theorem sfieldD_renamed (x : SField) : sfieldD rec' x = renD f (sfieldD rec x) := by
  unfold sfieldD; rw [H]; exact optD_renamed _ _

theorem vfieldD_renamed (x : Field) : vfieldD rec' x = renD f (vfieldD rec x) := by
  unfold vfieldD; rw [H]; exact optD_renamed _ _

theorem flatD_renamed (x : SField) : flatD rec' x = renD f (flatD rec x) := by
  unfold flatD
  rw [H]
  split
  · rw [single_renamed, ← ofDnf_renamed, renD_append, undefD_renamed]
  · rfl

theorem tupleT_renamed {α : Type} {F F' : α → Dnf} (h : ∀ a, F' a = renD f (F a)) (l : List α) :
    [[TsType.tuple ((l.map F').map ofDnf)]] = renD f [[.tuple ((l.map F).map ofDnf)]] := by
  rw [single_renamed, renamedT, List.map_map, List.map_map, List.map_map]
  rw [List.map_congr_left (fun a _ => show (ofDnf ∘ F') a = ((fun t => renamedT f t) ∘ ofDnf ∘ F) a by simp [h, ofDnf_renamed])]
  rfl

theorem structD_renamed (s : StructDecl) : structD rec' s = renD f (structD rec s) := by
  have h1 := fun x => sfieldD_renamed H x
  unfold structD
  simp only
  split
  · split
    · exact h1 _
    · rfl
  · split
    · rfl
    · exact h1 _
    · exact tupleT_renamed H h1 _
  · rw [← foldl_renamed, single_renamed, renamedT, List.map_map, List.map_congr_left (fun x _ => flatD_renamed H x)]
    rw [List.map_map, List.map_map, List.map_map]
    have : propT ∘ sfieldP rec' = (fun p => (p.1, p.2.1, renamedT f p.2.2)) ∘ propT ∘ sfieldP rec := by
      funext x; simp [propT, sfieldP, h1, ofDnf_renamed]
    rw [this]
    rfl
  · rfl

omit H in
theorem unitD_renamed (tag : Tag) (n : Str) : renamedT f (unitD tag n) = unitD tag n := by
  cases tag <;> simp [unitD, renamedT, renamedT_word]

theorem tupleFieldsD_renamed (fs : List Field) : tupleFieldsD rec' fs = renD f (tupleFieldsD rec fs) := by
  have h1 := fun x => vfieldD_renamed H x
  unfold tupleFieldsD
  split
  · exact h1 _
  · exact tupleT_renamed H h1 _

theorem variantD_renamed (tag : Tag) (v : Variant) : variantD rec' tag v = renD f (variantD rec tag v) := by
  have h1 := fun x => vfieldD_renamed H x
  unfold variantD
  cases v.style with
  | unit => simp only; rw [single_renamed, unitD_renamed]
  | tuple =>
    simp only [tupleVariantD]
    split
    · rw [single_renamed, unitD_renamed]
    · cases tag <;> simp only [tupleFieldsD_renamed H, ofDnf_renamed, single_renamed, renamedT, List.map_cons, List.map_nil]
  | named =>
    simp only [structVariantD]
    have e : (v.kept.map (vfieldP rec')).map propT = ((v.kept.map (vfieldP rec)).map propT).map (fun p => (p.1, p.2.1, renamedT f p.2.2)) := by
      rw [List.map_map, List.map_map, List.map_map]
      exact List.map_congr_left (fun x _ => by simp [propT, vfieldP, h1, ofDnf_renamed])
    cases tag <;> simp only [e, single_renamed, renamedT, List.map_cons, List.map_nil]

theorem enumD_renamed (e : EnumDecl) : enumD rec' e = renD f (enumD rec e) := by
  unfold enumD
  rw [List.map_congr_left (fun v _ => variantD_renamed H e.tag v)]
  unfold renD
  rw [List.map_flatten, List.map_map]
  rfl

end

theorem dOf_renamed (P : Program) (n : Nat) : ∀ m t, dOf (renameProgram f P) n m t = renD f (dOf P n m t) := by
  induction n with
  | zero => intro m t; rfl
  | succ n H =>
    intro m t
    show tBody (dOf (renameProgram f P) n) (renameProgram f P) m t = renD f (tBody (dOf P n) P m t)
    cases t with
    | named i =>
      rw [tBody, tBody]
      have e : (renameProgram f P)[i]? = (P[i]?).map (renameDecl f) := by unfold renameProgram; rw [List.getElem?_map]
      rw [e]
      cases P[i]? with
      | none => rfl
      | some d =>
        cases m with
        | typeDef =>
          cases d with
          | struct s =>
            simp only [Option.map_some, renameDecl, declD]
            cases s.from_.ty? with
            | some t => exact H _ _
            | none => exact structD_renamed H s
          | enum e =>
            simp only [Option.map_some, renameDecl, declD]
            cases e.from_.ty? with
            | some t => exact H _ _
            | none => exact enumD_renamed H e
        | inline =>
          cases d with
          | struct s =>
            simp only [Option.map_some, renameDecl, declInlineD]
            cases s.from_.ty? with
            | some t => exact H _ _
            | none => simp only [single_renamed, renamedT]
          | enum e =>
            simp only [Option.map_some, renameDecl, declInlineD]
            cases e.from_.ty? with
            | some t => exact H _ _
            | none => simp only [single_renamed, renamedT]
        | _ => rfl
    | prim p =>
      cases m with
      | typeDef => simp only [tBody, single_renamed, renamedT_word]
      | inline => exact H _ _
      | _ => rfl
    | wrap w t => cases m <;> first | exact H _ _ | rfl
    | array k t => cases m <;> first | exact H _ _ | rfl
    | btreeSet t => cases m <;> first | exact H _ _ | rfl
    | btreeMap t t' => cases m <;> first | exact H _ _ | rfl
    | option t =>
      cases m with
      | typeDef => simp only [tBody, H, single_renamed, ← ofDnf_renamed, renD_append, undefD_renamed]
      | inline => exact H _ _
      | _ => rfl
    | vec t =>
      cases m with
      | typeDef => simp only [tBody, H, single_renamed, renamedT, ofDnf_renamed, List.map_cons, List.map_nil]
      | inline => exact H _ _
      | _ => rfl
    | hashSet t =>
      cases m with
      | typeDef => simp only [tBody, H, single_renamed, renamedT, ofDnf_renamed, List.map_cons, List.map_nil]
      | inline => exact H _ _
      | _ => rfl
    | hashMap k t =>
      cases m with
      | typeDef => simp only [tBody, H, single_renamed, renamedT, ofDnf_renamed, List.map_cons, List.map_nil]
      | inline => exact H _ _
      | _ => rfl
    | tuple ts =>
      cases m with
      | typeDef => exact tupleT_renamed H (fun t => H .typeDef t) ts
      | inline => exact H _ _
      | _ => rfl
    | result t e =>
      cases m with
      | typeDef =>
        simp only [tBody, H, ofDnf_renamed]
        simp only [renD, renamedT, List.map_cons, List.map_nil]
      | inline => exact H _ _
      | _ => rfl

/-! ## The declared types and no others -/

open Classical in
/-- The types of this module with these names. -/
noncomputable def onlyNames (Q : Str → Str → Prop) (D : TsEnv) : TsEnv := fun ns name => if Q ns name then D ns name else none

open Classical in
/-- The names of the program are changed; all others become the empty name, which no declaration has. -/
noncomputable def onlyDeclared (f : Str → Str → Str × Str) (P : Program) : Str → Str → Str × Str :=
  fun ns name => if Names P ns name then f ns name else ([], [])

theorem onlyDeclared_program (f : Str → Str → Str × Str) (P : Program) : renameProgram (onlyDeclared f P) P = renameProgram f P := by
  unfold renameProgram
  refine List.map_congr_left (fun d hd => ?_)
  have : onlyDeclared f P d.ns d.name = f d.ns d.name := if_pos ⟨d, hd, rfl, rfl⟩
  cases d with
  | struct s => simp only [Decl.ns, Decl.name] at this; simp only [renameDecl, this]
  | enum e => simp only [Decl.ns, Decl.name] at this; simp only [renameDecl, this]

theorem onlyNames_module {P : Program} {D : TsEnv} (h : IsTsModule P D) : IsTsModule P (onlyNames (Names P) D) := by
  intro i d hd
  obtain ⟨s, h1, h2⟩ := h i d hd
  exact ⟨s, h1, by unfold onlyNames; rw [if_pos ⟨d, List.mem_of_getElem? hd, rfl, rfl⟩]; exact h2⟩

theorem names_nonempty {P : Program} (hg : GoodNames P) : ¬ Names P [] [] := by
  rintro ⟨d, hd, h1, h2⟩
  have := hg d hd
  cases d with
  | struct s =>
    simp only [Decl.ns] at h1
    simp [goodDecl, goodNs, h1, isIdent] at this
  | enum e =>
    simp only [Decl.ns] at h1
    simp [goodDecl, goodNs, h1, isIdent] at this

section
variable {P : Program} (hg : GoodNames P) (hgt : GoodTypeNames P) (hw : WellStyled P) (hg' : GoodNames (renameProgram f P))
  (hgt' : GoodTypeNames (renameProgram f P)) (hw' : WellStyled (renameProgram f P))
include hg hgt hw hg' hgt' hw'

theorem renamed_types {m : Method} (hm : m = .typeDef ∨ m = .inline) {t : Ty} {s s' : Str} (h : Returns P m t s)
    (h' : Returns (renameProgram f P) m t s') : readType s' = (readType s).map (renamedT f) := by
  obtain ⟨n, hn⟩ := h
  obtain ⟨n', hn'⟩ := h'
  have h1 := (eval_agreeT hg hgt hw (max n n') m t s hm (eval_mono (Nat.le_max_left _ _) hn)).read
  have h2 := (eval_agreeT hg' hgt' hw' (max n n') m t s' hm (eval_mono (Nat.le_max_right _ _) hn')).read
  rw [h1, h2, dOf_renamed, ofDnf_renamed]
  rfl

end

theorem inScope_length {P P' : Program} (hl : P.length = P'.length) {t : Ty} (h : InScope P t) : InScope P' t := by
  induction h with
  | prim p => exact .prim p
  | wrap w _ ih => exact .wrap w ih
  | option _ ih => exact .option ih
  | vec _ ih => exact .vec ih
  | array n _ ih => exact .array n ih
  | hashSet _ ih => exact .hashSet ih
  | btreeSet _ ih => exact .btreeSet ih
  | hashMap _ _ i1 i2 => exact .hashMap i1 i2
  | btreeMap _ _ i1 i2 => exact .btreeMap i1 i2
  | tuple _ ih => exact .tuple ih
  | result _ _ i1 i2 => exact .result i1 i2
  | named h => exact .named (hl ▸ h)

/-- The types of both programs have the same values. -/
theorem renamed_same {P : Program} (hs : ∀ d ∈ P, ∀ u ∈ declTypes d, InScope P u)
    (hg : GoodNames P) (hgt : GoodTypeNames P) (hw : WellStyled P) (hg' : GoodNames (renameProgram f P))
    (hgt' : GoodTypeNames (renameProgram f P)) (hw' : WellStyled (renameProgram f P))
    {D D' : TsEnv} (hD : IsTsModule P D) (hD' : IsTsModule (renameProgram f P) D') {m : Method} (hm : m = .typeDef ∨ m = .inline) {t : Ty}
    (ht : InScope P t) {s s' : Str} (h : Returns P m t s) (h' : Returns (renameProgram f P) m t s') {T T' : TsType} (hT : readType s = some T)
    (hT' : readType s' = some T') (lenient : Bool) (v : JsVal) : Inhabits D lenient T v ↔ Inhabits D' lenient T' v := by
  have e := onlyDeclared_program f P
  have hL : LinkedRenT (onlyDeclared f P) (onlyNames (Names P) D) (onlyNames (Names (renameProgram f P)) D') := by
    intro ns name
    by_cases hn : Names P ns name
    · obtain ⟨d, hd, rfl, rfl⟩ := id hn
      obtain ⟨i, hi⟩ := List.getElem?_of_mem hd
      have hi' : (renameProgram f P)[i]? = some (renameDecl f d) := by unfold renameProgram; rw [List.getElem?_map, hi]; rfl
      obtain ⟨x, hx, hc⟩ := hD i d hi
      obtain ⟨x', hx', hc'⟩ := hD' i _ hi'
      have e1 : (renameDecl f d).ns = (f d.ns d.name).1 := by cases d <;> rfl
      have e2 : (renameDecl f d).name = (f d.ns d.name).2 := by cases d <;> rfl
      rw [e1, e2] at hc'
      have eg : onlyDeclared f P d.ns d.name = f d.ns d.name := if_pos hn
      have hn' : Names (renameProgram f P) (f d.ns d.name).1 (f d.ns d.name).2 := ⟨_, List.mem_of_getElem? hi', e1, e2⟩
      unfold onlyNames
      rw [eg, if_pos hn, if_pos hn', hc, hc']
      exact renamed_types (f := onlyDeclared f P) hg hgt hw (by rw [e]; exact hg') (by rw [e]; exact hgt') (by rw [e]; exact hw') (.inl rfl) hx
        (by rw [e]; exact hx')
    · have eg : onlyDeclared f P ns name = ([], []) := if_neg hn
      unfold onlyNames
      rw [eg, if_neg hn, if_neg (names_nonempty hg')]
      rfl
  have hr := renamed_types (f := onlyDeclared f P) hg hgt hw (by rw [e]; exact hg') (by rw [e]; exact hgt') (by rw [e]; exact hw') hm h
    (by rw [e]; exact h')
  rw [hT, hT', Option.map_some] at hr
  cases hr
  have hlen : P.length = (renameProgram f P).length := by simp [renameProgram]
  have hs' : ∀ d ∈ renameProgram f P, ∀ u ∈ declTypes d, InScope (renameProgram f P) u := by
    intro d hd u hu
    obtain ⟨d, hm, rfl⟩ := List.mem_map.1 hd
    have : declTypes (renameDecl f d) = declTypes d := by cases d <;> rfl
    rw [this] at hu
    exact inScope_length hlen (hs d hm u hu)
  have a := shuffled_values (w := False) (T₀ := fun _ => False) (fun _ h => h) (shuffled_refl P) rfl False.elim hs hg hgt hw hg hgt hw hD
    (onlyNames_module hD) hm ht h h hT hT lenient v
  have b := shuffled_values (w := False) (T₀ := fun _ => False) (fun _ h => h) (shuffled_refl (renameProgram f P)) rfl False.elim hs' hg' hgt' hw'
    hg' hgt' hw' hD' (onlyNames_module hD') hm (inScope_length hlen ht) h' h' hT' hT' lenient v
  rw [a, b]
  exact ⟨fun hv => renamed_values hL hv, fun hv => renamed_valuesBack hL hv T rfl⟩

end Verif.Ts
