import Verif.Zod.Aliases
import Verif.Ts.Aliases
import Verif.Props.StandsFor

/-!
# C91: inside of a type, aliases and what they stand for are interchangeable

`Vec<Option<UserId>>` and `Vec<Option<u32>>`.
-/

namespace Verif.Props
open Verif Verif.Schema Verif.SchemaSpec Verif.Js Verif.Spec Verif.Zod Verif.Ts

/-- **C91, schemas.** The schemas of two types that are the same up to aliases give the same results for every value. -/
theorem C91_schema (P : Program) (hv : Valid P) (hg : GoodNames P) (hw : WellStyled P) (E : ZEnv) (hE : IsModule P E) (hl : Loads P E)
    (t u : Ty) (h : UpToAliases P t u) (s s' : Str) (hs : Returns P .schema t s) (hs' : Returns P .schema u s') (z z' : ZSchema)
    (hz : readSchema s = some z) (hz' : readSchema s' = some z') (v : JsVal) :
    (∀ r, ParsesTo E z v r ↔ ParsesTo E z' v r) ∧ (Rejects E z v ↔ Rejects E z' v) :=
  aliases_same hv.1 hg hw hE hl h z z' ⟨s, hs, hz⟩ ⟨s', hs', hz'⟩ v

/-- **C91, types.** Their TypeScript types have the same values. -/
theorem C91_type (P : Program) (hv : Valid P) (hg : GoodNames P) (hgt : GoodTypeNames P) (hw : WellStyled P) (D : TsEnv)
    (hD : IsTsModule P D) (t u : Ty) (h : UpToAliases P t u) (s s' : Str) (hs : Returns P .typeDef t s)
    (hs' : Returns P .typeDef u s') (T U : TsType) (hT : readType s = some T) (hU : readType s' = some U) (len : Bool) (v : JsVal) :
    Inhabits D len T v ↔ Inhabits D len U v :=
  aliases_sameT hv.1 hg hgt hw hD h T U ⟨s, hs, hT⟩ ⟨s', hs', hU⟩ v

theorem all2_pairs {α β : Type} {R : α → β → Prop} {l : List (α × α)} (h : ∀ p ∈ l, ∀ b, R p.1 b → R p.2 b) {bs : List β}
    (hl : All2 R (l.map (·.1)) bs) : All2 R (l.map (·.2)) bs := by
  induction l generalizing bs with
  | nil => cases hl; exact .nil
  | cons p l ih =>
    cases hl with
    | cons h1 h2 => exact .cons (h p List.mem_cons_self _ h1) (ih (fun q hq => h q (List.mem_cons_of_mem _ hq)) h2)

theorem all2_pairs' {α β : Type} {R : α → β → Prop} {l : List (α × α)} (h : ∀ p ∈ l, ∀ b, R p.2 b → R p.1 b) {bs : List β}
    (hl : All2 R (l.map (·.2)) bs) : All2 R (l.map (·.1)) bs := by
  induction l generalizing bs with
  | nil => cases hl; exact .nil
  | cons p l ih =>
    cases hl with
    | cons h1 h2 => exact .cons (h p List.mem_cons_self _ h1) (ih (fun q hq => h q (List.mem_cons_of_mem _ hq)) h2)

/-- **C91, serde.** serde reads the same documents as both types, unless conversions may fail. -/
theorem C91_serde (P : Program) (hf : ∀ d ∈ P, ∀ u, Decl.from_ d ≠ .tryFrom u) (t u : Ty) (h : UpToAliases P t u) :
    ∀ j, De P t j ↔ De P u j := by
  have hf' : ∀ i d u, P[i]? = some d → Decl.from_ d ≠ .tryFrom u := fun i d u hd => hf d (List.mem_of_getElem? hd) u
  induction h with
  | refl t => exact fun _ => .rfl
  | left i t u hs _ ih => exact fun j => (C90_serde P i t hs (hf' i) j).trans (ih j)
  | right i t u hs _ ih => exact fun j => (ih j).trans (C90_serde P i u hs (hf' i) j).symm
  | wrap w t u _ ih =>
    intro j
    constructor
    · intro h; cases h with
      | wrap _ _ _ hw h => exact .wrap _ _ _ hw ((ih _).1 h)
      | phantom => exact .phantom _
    · intro h; cases h with
      | wrap _ _ _ hw h => exact .wrap _ _ _ hw ((ih _).2 h)
      | phantom => exact .phantom _
  | option t u _ ih =>
    intro j
    constructor
    · intro h; cases h with
      | none => exact .none _
      | some _ _ h => exact .some _ _ ((ih _).1 h)
    · intro h; cases h with
      | none => exact .none _
      | some _ _ h => exact .some _ _ ((ih _).2 h)
  | vec t u _ ih =>
    intro j
    constructor
    · intro h; cases h with | vec _ js h => exact .vec _ js fun j hj => (ih j).1 (h j hj)
    · intro h; cases h with | vec _ js h => exact .vec _ js fun j hj => (ih j).2 (h j hj)
  | array n t u _ ih =>
    intro j
    constructor
    · intro h; cases h with | array _ _ js hl h => exact .array _ _ js hl fun j hj => (ih j).1 (h j hj)
    · intro h; cases h with | array _ _ js hl h => exact .array _ _ js hl fun j hj => (ih j).2 (h j hj)
  | hashSet t u _ ih =>
    intro j
    constructor
    · intro h; cases h with | hashSet _ js h => exact .hashSet _ js fun j hj => (ih j).1 (h j hj)
    · intro h; cases h with | hashSet _ js h => exact .hashSet _ js fun j hj => (ih j).2 (h j hj)
  | btreeSet t u _ ih =>
    intro j
    constructor
    · intro h; cases h with | btreeSet _ js h => exact .btreeSet _ js fun j hj => (ih j).1 (h j hj)
    · intro h; cases h with | btreeSet _ js h => exact .btreeSet _ js fun j hj => (ih j).2 (h j hj)
  | hashMap k t u _ ih =>
    intro j
    constructor
    · intro h; cases h with | hashMap p _ kvs hp h => exact .hashMap p _ kvs hp fun kv hk => (ih _).1 (h kv hk)
    · intro h; cases h with | hashMap p _ kvs hp h => exact .hashMap p _ kvs hp fun kv hk => (ih _).2 (h kv hk)
  | btreeMap k t u _ ih =>
    intro j
    constructor
    · intro h; cases h with | btreeMap p _ kvs hp h => exact .btreeMap p _ kvs hp fun kv hk => (ih _).1 (h kv hk)
    · intro h; cases h with | btreeMap p _ kvs hp h => exact .btreeMap p _ kvs hp fun kv hk => (ih _).2 (h kv hk)
  | tuple l _ ih =>
    intro j
    constructor
    · intro h; cases h with | tuple _ js h => exact .tuple _ js (all2_pairs (fun p hp b => (ih p hp b).1) h)
    · intro h; cases h with | tuple _ js h => exact .tuple _ js (all2_pairs' (fun p hp b => (ih p hp b).2) h)
  | result t u e f _ _ ih1 ih2 =>
    intro j
    constructor
    · intro h; cases h with
      | ok _ _ j h => exact .ok _ _ j ((ih1 j).1 h)
      | err _ _ j h => exact .err _ _ j ((ih2 j).1 h)
    · intro h; cases h with
      | ok _ _ j h => exact .ok _ _ j ((ih1 j).2 h)
      | err _ _ j h => exact .err _ _ j ((ih2 j).2 h)

/-- **C91, what serde writes.** If for every alias the attributes for writing are the counterparts of those for reading, serde writes the
same documents for both types. -/
theorem C91_written (P : Program)
    (hi : ∀ i t d, StandsFor P i t → P[i]? = some d → Decl.into d = some t ∨ (Decl.from_ d = .none ∧ Decl.into d = none))
    (hser : ∀ i t s, StandsFor P i t → P[i]? = some (.struct s) → serFields s.fields = keptFields s.fields) (odd : Bool) (t u : Ty)
    (h : UpToAliases P t u) : ∀ j, Ser P odd t j ↔ Ser P odd u j := by
  induction h with
  | refl t => exact fun _ => .rfl
  | left i t u hs _ ih => exact fun j => (C90_written P i t hs (fun d => hi i t d hs) (fun s => hser i t s hs) odd j).trans (ih j)
  | right i t u hs _ ih => exact fun j => (ih j).trans (C90_written P i u hs (fun d => hi i u d hs) (fun s => hser i u s hs) odd j).symm
  | wrap w t u _ ih =>
    intro j
    constructor
    · intro h; cases h with
      | wrap _ _ _ hw h => exact .wrap _ _ _ hw ((ih _).1 h)
      | phantom => exact .phantom _
      | weak => exact .weak _
    · intro h; cases h with
      | wrap _ _ _ hw h => exact .wrap _ _ _ hw ((ih _).2 h)
      | phantom => exact .phantom _
      | weak => exact .weak _
  | option t u _ ih =>
    intro j
    constructor
    · intro h; cases h with
      | none => exact .none _
      | some _ _ h => exact .some _ _ ((ih _).1 h)
    · intro h; cases h with
      | none => exact .none _
      | some _ _ h => exact .some _ _ ((ih _).2 h)
  | vec t u _ ih =>
    intro j
    constructor
    · intro h; cases h with | vec _ js h => exact .vec _ js fun j hj => (ih j).1 (h j hj)
    · intro h; cases h with | vec _ js h => exact .vec _ js fun j hj => (ih j).2 (h j hj)
  | array n t u _ ih =>
    intro j
    constructor
    · intro h; cases h with | array _ _ js hl h => exact .array _ _ js hl fun j hj => (ih j).1 (h j hj)
    · intro h; cases h with | array _ _ js hl h => exact .array _ _ js hl fun j hj => (ih j).2 (h j hj)
  | hashSet t u _ ih =>
    intro j
    constructor
    · intro h; cases h with | hashSet _ js h => exact .hashSet _ js fun j hj => (ih j).1 (h j hj)
    · intro h; cases h with | hashSet _ js h => exact .hashSet _ js fun j hj => (ih j).2 (h j hj)
  | btreeSet t u _ ih =>
    intro j
    constructor
    · intro h; cases h with | btreeSet _ js h => exact .btreeSet _ js fun j hj => (ih j).1 (h j hj)
    · intro h; cases h with | btreeSet _ js h => exact .btreeSet _ js fun j hj => (ih j).2 (h j hj)
  | hashMap k t u _ ih =>
    intro j
    constructor
    · intro h; cases h with | hashMap p _ kvs hp h => exact .hashMap p _ kvs hp fun kv hk => (ih _).1 (h kv hk)
    · intro h; cases h with | hashMap p _ kvs hp h => exact .hashMap p _ kvs hp fun kv hk => (ih _).2 (h kv hk)
  | btreeMap k t u _ ih =>
    intro j
    constructor
    · intro h; cases h with | btreeMap p _ kvs hp h => exact .btreeMap p _ kvs hp fun kv hk => (ih _).1 (h kv hk)
    · intro h; cases h with | btreeMap p _ kvs hp h => exact .btreeMap p _ kvs hp fun kv hk => (ih _).2 (h kv hk)
  | tuple l _ ih =>
    intro j
    constructor
    · intro h; cases h with | tuple _ js h => exact .tuple _ js (all2_pairs (fun p hp b => (ih p hp b).1) h)
    · intro h; cases h with | tuple _ js h => exact .tuple _ js (all2_pairs' (fun p hp b => (ih p hp b).2) h)
  | result t u e f _ _ ih1 ih2 =>
    intro j
    constructor
    · intro h; cases h with
      | ok _ _ j h => exact .ok _ _ j ((ih1 j).1 h)
      | err _ _ j h => exact .err _ _ j ((ih2 j).1 h)
    · intro h; cases h with
      | ok _ _ j h => exact .ok _ _ j ((ih1 j).2 h)
      | err _ _ j h => exact .err _ _ j ((ih2 j).2 h)

/-! ## An example -/

/-- `Vec<Option<Account>>` and `Vec<Option<User>>`, where `Account` is a `transparent` struct around a `User`. -/
theorem exStand_alike : UpToAliases exStand (.vec (.option (.named 2))) (.vec (.option (.named 0))) :=
  .vec _ _ (.option _ _ (.left 2 _ _ (.transparent 2 _ (exField "user" (.named 0)) rfl rfl rfl rfl rfl rfl rfl) (.refl _)))

theorem exStand_loads : Loads exStand (moduleEnv exStand 9) := by
  intro d hd
  simp only [exStand, List.mem_cons, List.not_mem_nil, or_false] at hd
  rcases hd with rfl | rfl | rfl | rfl | rfl <;> decide +kernel

/-- The texts differ. -/
theorem exStand_deep : Returns exStand .schema (.vec (.option (.named 2))) (lit "z.array(z.lazy(() => Ns.Account).optional())") ∧
    Returns exStand .schema (.vec (.option (.named 0))) (lit "z.array(z.lazy(() => Ns.User).optional())") :=
  ⟨⟨9, rfl⟩, ⟨9, rfl⟩⟩

/-- Both schemas give the same results. -/
example (v : JsVal) (r : JsVal) :
    ParsesTo (moduleEnv exStand 9) (.array (.optional (.lazy (lit "Ns") (lit "Account")))) v r ↔
    ParsesTo (moduleEnv exStand 9) (.array (.optional (.lazy (lit "Ns") (lit "User")))) v r :=
  (C91_schema exStand exStand_valid exStand_good exStand_styled _ exStand_module exStand_loads _ _ exStand_alike _ _ exStand_deep.1
    exStand_deep.2 _ _ (eval_agree exStand_good exStand_styled 9 .schema (.vec (.option (.named 2))) _ (.inl rfl) rfl).read
    (eval_agree exStand_good exStand_styled 9 .schema (.vec (.option (.named 0))) _ (.inl rfl) rfl).read v).1 r

example : ParsesTo (moduleEnv exStand 9) (.array (.optional (.lazy (lit "Ns") (lit "User"))))
    (.arr [.undefined, .obj [(lit "id", .num (.fin (1 : Int)))]]) (.arr [.undefined, .obj [(lit "id", .num (.fin (1 : Int)))]]) :=
  ⟨9, rfl⟩

/-- `struct Id(u32);`: serde reads `[1, 2]` as a `Vec<Id>`. -/
example : De [.struct (exTuple "Id" [exPos (.prim .u32)])] (.vec (.named 0)) (.arr [.num (.int 1), .num (.int 2)]) := by
  refine (C91_serde _ ?_ (.vec (.named 0)) (.vec (.prim .u32)) (.vec _ _ (.left 0 _ _
    (.newtype 0 _ (exPos (.prim .u32)) rfl rfl rfl rfl rfl rfl rfl rfl) (.refl _))) _).2 (.vec _ _ ?_)
  · intro d hd u h
    rw [List.mem_singleton] at hd
    subst hd
    cases h
  · intro j hj
    simp only [List.mem_cons, List.not_mem_nil, or_false] at hj
    rcases hj with rfl | rfl
    · exact .int .u32 _ _ 1 rfl (by decide) (by decide)
    · exact .int .u32 _ _ 2 rfl (by decide) (by decide)

/-- ... and writes it as `[1]`. -/
example : Ser [.struct (exTuple "Id" [exPos (.prim .u32)])] false (.vec (.named 0)) (.arr [.num (.int 1)]) := by
  refine (C91_written _ ?_ ?_ false (.vec (.named 0)) (.vec (.prim .u32)) (.vec _ _ (.left 0 _ _
    (.newtype 0 _ (exPos (.prim .u32)) rfl rfl rfl rfl rfl rfl rfl rfl) (.refl _))) _).2 (.vec _ _ ?_)
  · intro i t d _ hd
    match i, hd with
    | 0, hd => cases hd; exact .inr ⟨rfl, rfl⟩
    | i + 1, hd => simp at hd
  · intro i t s _ hd
    match i, hd with
    | 0, hd => cases hd; rfl
    | i + 1, hd => simp at hd
  · intro j hj
    rw [List.mem_singleton] at hj
    subst hj
    exact .int .u32 _ _ 1 (.inl rfl) (by decide) (by decide)

end Verif.Props
