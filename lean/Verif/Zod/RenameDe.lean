import Verif.Spec.Rename
import Verif.Schema.Reorder
import Verif.Zod.EvolveDe

/-!
# serde and generation, when types have other names (proof helper)
-/

namespace Verif.Zod
open Verif Verif.Js Verif.Schema Verif.SchemaSpec Verif.Spec

/-- The same declaration with another name and other documentation. -/
inductive OtherName : Decl → Decl → Prop where
  | struct (s : StructDecl) (ns name : Str) (attrs : List Derive.Attr) :
      OtherName (.struct s) (.struct { s with ns := ns, name := name, attrs := attrs })
  | enum (e : EnumDecl) (ns name : Str) (attrs : List Derive.Attr) :
      OtherName (.enum e) (.enum { e with ns := ns, name := name, attrs := attrs })

/-- The same declarations with other names and other documentation. -/
def OtherNames (P P' : Program) : Prop := ∀ (i : Nat) (d : Decl), P[i]? = some d → ∃ d', P'[i]? = some d' ∧ OtherName d d'

theorem otherName_from {d d' : Decl} (h : OtherName d d') : Decl.from_ d' = Decl.from_ d := by cases h <;> rfl

theorem otherNames_rename (f : Str → Str → Str × Str) (P : Program) : OtherNames P (renameProgram f P) := by
  intro i d hd
  refine ⟨renameDecl f d, by simp [renameProgram, hd], ?_⟩
  cases d with
  | struct s => exact .struct s _ _ s.attrs
  | enum e => exact .enum e _ _ e.attrs

theorem attrs_rename (f : Str → Str → Str × Str) (P : Program) (i : Nat) (d d' : Decl) (h : P[i]? = some d)
    (h' : (renameProgram f P)[i]? = some d') : d'.attrs = d.attrs := by
  simp only [renameProgram, List.getElem?_map, h, Option.map_some, Option.some.injEq] at h'
  subst h'
  cases d <;> rfl

theorem otherNames_back (f : Str → Str → Str × Str) (P : Program) : OtherNames (renameProgram f P) P := by
  intro i d hd
  simp only [renameProgram, List.getElem?_map, Option.map_eq_some_iff] at hd
  obtain ⟨d', hd', rfl⟩ := hd
  refine ⟨d', hd', ?_⟩
  cases d' with
  | struct s => exact .struct { s with ns := (f s.ns s.name).1, name := (f s.ns s.name).2 } s.ns s.name s.attrs
  | enum e => exact .enum { e with ns := (f e.ns e.name).1, name := (f e.ns e.name).2 } e.ns e.name e.attrs

section
variable {P P' : Program} (hP : OtherNames P P')
include hP

theorem otherNames_struct {i : Nat} {s : StructDecl} (h : P[i]? = some (.struct s)) :
    ∃ ns name attrs, P'[i]? = some (.struct { s with ns := ns, name := name, attrs := attrs }) := by
  obtain ⟨d', h1, h2⟩ := hP _ _ h
  cases h2 with
  | struct _ ns name attrs => exact ⟨ns, name, attrs, h1⟩

theorem otherNames_enum {i : Nat} {e : EnumDecl} (h : P[i]? = some (.enum e)) :
    ∃ ns name attrs, P'[i]? = some (.enum { e with ns := ns, name := name, attrs := attrs }) := by
  obtain ⟨d', h1, h2⟩ := hP _ _ h
  cases h2 with
  | enum _ ns name attrs => exact ⟨ns, name, attrs, h1⟩

theorem missing_other {t : Ty} (h : MissingOk P t) : MissingOk P' t := by
  induction h with
  | option t => exact .option t
  | wrap w t hw _ ih => exact .wrap w t hw ih
  | from_ i d t hd hf _ ih =>
    obtain ⟨d', hd', hs⟩ := hP _ _ hd
    exact .from_ i d' t hd' (by rw [otherName_from hs]; exact hf) ih
  | transparent i s f hd hf ht hi _ ih =>
    obtain ⟨ns, name, attrs, hd'⟩ := otherNames_struct hP hd
    exact .transparent i _ f hd' hf ht hi ih

mutual
theorem de_other : ∀ {t : Ty} {j : Json}, De P t j → De P' t j
  | _, _, .string s => .string s
  | _, _, .smolStr s => .smolStr s
  | _, _, .char c => .char c
  | _, _, .bool b => .bool b
  | _, _, .unit => .unit
  | _, _, .int p lo hi i h1 h2 h3 => .int p lo hi i h1 h2 h3
  | _, _, .wide p lo hi i h1 h2 h3 h4 => .wide p lo hi i h1 h2 h3 h4
  | _, _, .float p n h => .float p n h
  | _, _, .ipv4 p a b c d h => .ipv4 p a b c d h
  | _, _, .ipv6 p s h hs => .ipv6 p s h hs
  | _, _, .wrap w t j hw h => .wrap w t _ hw (de_other h)
  | _, _, .phantom t => .phantom t
  | _, _, .none t => .none t
  | _, _, .some t j h => .some t _ (de_other h)
  | _, _, .vec t js h => .vec t js (fun j hm => de_other (h j hm))
  | _, _, .array n t js hl h => .array n t js hl (fun j hm => de_other (h j hm))
  | _, _, .hashSet t js h => .hashSet t js (fun j hm => de_other (h j hm))
  | _, _, .btreeSet t js h => .btreeSet t js (fun j hm => de_other (h j hm))
  | _, _, .hashMap p t kvs hp h => .hashMap p t kvs hp (fun kv hm => de_other (h kv hm))
  | _, _, .btreeMap p t kvs hp h => .btreeMap p t kvs hp (fun kv hm => de_other (h kv hm))
  | _, _, .tuple ts js h => .tuple ts js (des_other h)
  | _, _, .ok t e j h => .ok t e j (de_other h)
  | _, _, .err t e j h => .err t e j (de_other h)
  | _, _, .from_ i d t j h1 h2 h => by
    have ih := de_other h
    obtain ⟨d', hd', hs⟩ := hP _ _ h1
    exact .from_ i d' t j hd' (by rw [otherName_from hs]; exact h2) ih
  | _, _, .transparent i s f j h1 h2 h3 h4 h => by
    have ih := de_other h
    obtain ⟨ns, name, attrs, hd'⟩ := otherNames_struct hP h1
    exact .transparent i _ f j hd' h2 h3 h4 ih
  | _, _, .struct i s j h1 h2 h3 h => by
    have ih := bodyDe_other h
    obtain ⟨ns, name, attrs, hd'⟩ := otherNames_struct hP h1
    exact .struct i _ j hd' h2 h3 ih
  | _, _, .externalUnit i e v h1 h2 h3 h4 h5 => by
    obtain ⟨ns, name, attrs, hd'⟩ := otherNames_enum hP h1
    exact .externalUnit i _ v hd' h2 h3 h4 h5
  | _, _, .external i e v j h1 h2 h3 h4 h => by
    have ih := bodyDe_other h
    obtain ⟨ns, name, attrs, hd'⟩ := otherNames_enum hP h1
    exact .external i _ v j hd' h2 h3 h4 ih
  | _, _, .internalUnit i e v tag kvs h1 h2 h3 h4 h5 h6 h7 => by
    obtain ⟨ns, name, attrs, hd'⟩ := otherNames_enum hP h1
    exact .internalUnit i _ v tag kvs hd' h2 h3 h4 h5 h6 h7
  | _, _, .internal i e v tag kvs h1 h2 h3 h4 h5 h6 h => by
    have ih := bodyDe_other h
    obtain ⟨ns, name, attrs, hd'⟩ := otherNames_enum hP h1
    exact .internal i _ v tag kvs hd' h2 h3 h4 h5 h6 ih
  | _, _, .internalNewtype i e v tag f kvs h1 h2 h3 h4 h5 h6 h7 h8 h => by
    have ih := de_other h
    obtain ⟨ns, name, attrs, hd'⟩ := otherNames_enum hP h1
    exact .internalNewtype i _ v tag f kvs hd' h2 h3 h4 h5 h6 h7 h8 ih
  | _, _, .adjacentUnit i e v tag content kvs h1 h2 h3 h4 h5 h6 h7 h8 h9 => by
    obtain ⟨ns, name, attrs, hd'⟩ := otherNames_enum hP h1
    exact .adjacentUnit i _ v tag content kvs hd' h2 h3 h4 h5 h6 h7 h8 h9
  | _, _, .adjacent i e v tag content kvs j h1 h2 h3 h4 h5 h6 h7 h8 h => by
    have ih := bodyDe_other h
    obtain ⟨ns, name, attrs, hd'⟩ := otherNames_enum hP h1
    exact .adjacent i _ v tag content kvs j hd' h2 h3 h4 h5 h6 h7 h8 ih
  | _, _, .untaggedUnit i e v h1 h2 h3 h4 h5 h6 => by
    obtain ⟨ns, name, attrs, hd'⟩ := otherNames_enum hP h1
    exact .untaggedUnit i _ v hd' h2 h3 h4 h5 h6
  | _, _, .untagged i e v j h1 h2 h3 h4 h5 h => by
    have ih := bodyDe_other h
    obtain ⟨ns, name, attrs, hd'⟩ := otherNames_enum hP h1
    exact .untagged i _ v j hd' h2 h3 h4 h5 ih

theorem des_other : ∀ {ts : List Ty} {js : List Json}, All2 (De P) ts js → All2 (De P') ts js
  | _, _, .nil => .nil
  | _, _, .cons h1 h2 => .cons (de_other h1) (des_other h2)

theorem bodyDe_other : ∀ {more : Option (List Str)} {st : Style} {fs : List Field} {j : Json}, DeBody P more st fs j → DeBody P' more st fs j
  | _, _, _, _, .newtype more f j hk h => .newtype more f j hk (de_other h)
  | _, _, _, _, .tuple more fs js hl h => .tuple more fs js hl (des_other h)
  | _, _, _, _, .short more fs gs hs js hl hk hd h => .short more fs gs hs js hl hk hd (des_other h)
  | _, _, _, _, .named more fs kvs hd hmore h hfl =>
    .named more fs kvs hd hmore (fun f hf hs hn => fieldDe_other (h f hf hs hn)) (fun f hf hs hn => de_other (hfl f hf hs hn))

theorem fieldDe_other : ∀ {f : Field} {kvs : List (Str × Json)}, DeField P f kvs → DeField P' f kvs
  | _, _, .present f kvs j hf hj ha h => .present f kvs j hf hj ha (de_other h)
  | _, _, .alias f kvs a j hf ha hj hb h => .alias f kvs a j hf ha hj hb (de_other h)
  | _, _, .default f kvs hf hj h => .default f kvs hf hj h
  | _, _, .missing f kvs hf hj h => .missing f kvs hf hj (missing_other hP h)
end

end

/-- The macro accepts the declaration with the other name too; no method calls more. -/
theorem derive_other {d d' : Decl} (h : OtherName d d') (ha : d'.attrs = d.attrs) {impl : Impl} (hi : derive d = .ok impl) :
    ∃ impl', derive d' = .ok impl' ∧ ∀ m, Fewer (impl.get m) (impl'.get m) := by
  cases h with
  | struct s ns name attrs =>
    have ha : attrs = s.attrs := ha
    subst ha
    have h1 : structSchema { s with ns := ns, name := name } = structSchema s := rfl
    have h2 : structTypeDef { s with ns := ns, name := name } = structTypeDef s := rfl
    simp only [derive, deriveStruct, h1, h2] at hi ⊢
    repeat' split at hi
    all_goals first | (cases hi; done) | skip
    all_goals
      cases hi
      simp only [*]
      refine ⟨_, rfl, fun m => ?_⟩
      cases m
      all_goals first | exact .refl _ | skip
      all_goals
        intro m t hm
        simp [Impl.get, lazyRef, tsRef] at hm
  | enum e ns name attrs =>
    have ha : attrs = e.attrs := ha
    subst ha
    have h1 : enumSchema { e with ns := ns, name := name } = enumSchema e := rfl
    have h2 : enumTypeDef { e with ns := ns, name := name } = enumTypeDef e := rfl
    simp only [derive, deriveEnum, h1, h2] at hi ⊢
    cases hd : Derive.docsText e.attrs with
    | none => rw [hd] at hi; cases hi
    | some docs =>
      simp only [hd] at hi ⊢
      split at hi
      · cases hi
      · rename_i p1 e1
        split at hi
        · cases hi
        · rename_i p2 e2
          cases hf : e.from_.ty? with
          | some t =>
            simp only [hf] at hi
            cases hi
            exact ⟨_, rfl, fun m => .refl _⟩
          | none =>
            simp only [hf] at hi
            cases hi
            refine ⟨_, rfl, fun m => ?_⟩
            cases m with
            | schema => exact .refl _
            | typeDef => exact .refl _
            | inlineSchema => intro m t hm; simp [Impl.get, lazyRef] at hm
            | inline => intro m t hm; simp [Impl.get, tsRef] at hm

/-- What returns for a program returns for the program with other names. -/
theorem returns_other {P P' : Program} (hP : OtherNames P P')
    (ha : ∀ (i : Nat) d d', P[i]? = some d → P'[i]? = some d' → d'.attrs = d.attrs) (n : Nat) :
    ∀ m t s, eval P n m t = some s → ∃ s', Returns P' m t s' := by
  induction n with
  | zero => intro m t s h; cases h
  | succ n ih =>
    intro m t s h
    obtain ⟨ps, hb, hr⟩ := eval_succ.1 h
    have calls : ∀ m' t', Piece.call m' t' ∈ ps → ∃ s', Returns P' m' t' s' := fun m' t' hm => by
      obtain ⟨x, hx⟩ := runPieces_call_mem hr hm
      exact ih m' t' x hx
    cases hn : isNamed t with
    | false =>
      refine returns_of_calls (m := m) (t := t) (ps := ps) ?_ calls
      rw [← hb]
      cases t with
      | named i => cases hn
      | _ => cases m <;> rfl
    | true =>
      cases t with
      | named i =>
        obtain ⟨d, impl, hd, hi, rfl⟩ := body_named hb
        obtain ⟨d', hd', hm⟩ := hP _ _ hd
        obtain ⟨impl', hi', hf⟩ := derive_other hm (ha _ _ _ hd hd') hi
        exact returns_of_calls (body_named_eq hd' hi') (fun m' t' h => calls m' t' (hf m m' t' h))
      | _ => cases hn

end Verif.Zod
