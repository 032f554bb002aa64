import Verif.Zod.Evals
import Verif.Schema.Calls
import Verif.Spec.Names

/-!
# The generated texts evaluate to the schemas of `Verif/Zod/ZOf.lean`
-/

namespace Verif.Zod
open Verif Verif.Js Verif.Schema Verif.Spec

/-- The functions that give schemas. -/
def isZ (m : Method) : Prop := m = .schema ∨ m = .inlineSchema

/-- The texts `f` returns evaluate to the schemas `g` gives, and refer to names allowed by `Q` only. -/
def AgreeR (Q : Str → Str → Prop) (f : Method → Ty → Option Str) (g : Method → Ty → Option ZSchema) : Prop :=
  ∀ m t s, isZ m → f m t = some s → EvalsR Q s (g m t)

variable {Q : Str → Str → Prop}
local notation "Evals" => EvalsR Q
local notation "EvEntry" => EvEntryR Q
local notation "Agree" => AgreeR Q

variable {f : Method → Ty → Option Str} {g : Method → Ty → Option ZSchema}

theorem runAll_all2 {α β : Type} {R : Str → β → Prop} {p : α → List Piece} {z : α → β} (l : List α)
    (h : ∀ a ∈ l, ∀ s, runPieces f (p a) = some s → R s (z a)) {ss : List Str}
    (hr : RunAll f (l.map p) ss) : All2 R ss (l.map z) := by
  induction l generalizing ss with
  | nil => cases hr; exact .nil
  | cons a l ih =>
    rw [List.map_cons] at hr ⊢
    cases hr with
    | cons h1 h2 =>
      exact .cons (h a (List.mem_cons_self) _ h1) (ih (fun b hb => h b (List.mem_cons_of_mem _ hb)) h2)

theorem call_opt (H : Agree f g) {t : Ty} {b : Bool} {s : Str}
    (h : runPieces f [.call .inlineSchema t, .txt (optionalText b)] = some s) :
    Evals s (optZ b (g .inlineSchema t)) := by
  rw [runPieces_call_cons] at h
  obtain ⟨x, y, hx, hy, rfl⟩ := h
  rw [runPieces_txt_some] at hy
  subst hy
  exact evals_optZ b (H _ _ _ (Or.inr rfl) hx)

theorem entry_opt (H : Agree f g) {name : Str} (hn : isIdent name = true) {t : Ty} {b : Bool} {s : Str}
    (h : runPieces f [.txt (name ++ lit ": "), .call .inlineSchema t, .txt (optionalText b)] = some s) :
    EvEntry s (name, optZ b (g .inlineSchema t)) := by
  rw [runPieces_txt_cons] at h
  obtain ⟨y, hy, rfl⟩ := h
  exact ⟨hn, y, by simp only [List.append_assoc], call_opt H hy⟩

theorem sfield_evals (H : Agree f g) {fd : SField} (hf : fd.flatten = false)
    (hn : fd.name = none ∨ fd.transparent = true) {s : Str} (h : runPieces f fd.schema = some s) :
    Evals s (sfieldZ g fd) := by
  unfold SField.schema at h
  unfold sfieldZ
  rw [hf] at h
  rcases hn with hn | hn
  · rw [hn] at h; exact call_opt H h
  · rw [hn] at h
    cases hm : fd.name with
    | none => rw [hm] at h; exact call_opt H h
    | some n => rw [hm] at h; exact call_opt H h

theorem sfield_entry (H : Agree f g) {fd : SField} (hf : fd.flatten = false) {name : Str}
    (hn : fd.name = some name) (ht : fd.transparent = false) (hi : isIdent name = true) {s : Str}
    (h : runPieces f fd.schema = some s) : EvEntry s (fd.name.getD [], sfieldZ g fd) := by
  unfold SField.schema at h
  unfold sfieldZ
  rw [hf, hn, ht] at h
  rw [hn]
  exact entry_opt H hi h

theorem sfield_flat (H : Agree f g) {fd : SField} (hf : fd.flatten = true) {s : Str}
    (h : runPieces f fd.schema = some s) :
    ∃ p, s = lit ".extend(" ++ (p ++ lit ")") ∧ Evals p (sfieldZ g fd) := by
  unfold SField.schema at h
  unfold sfieldZ
  rw [hf] at h
  simp only at h
  rw [runPieces_txt_cons] at h
  obtain ⟨y, hy, rfl⟩ := h
  rw [runPieces_call_cons] at hy
  obtain ⟨x, w, hx, hw, rfl⟩ := hy
  rw [runPieces_txt_some] at hw
  subst hw
  exact ⟨x ++ optionalText fd.optional, by simp only [List.append_assoc],
    evals_optZ _ (H _ _ _ (Or.inr rfl) hx)⟩

theorem objZ_kind {kvs : List (Str × Option ZSchema)} {a : ZSchema} (h : objZ kvs = some a) :
    ∃ sh, a = .object sh := by
  unfold objZ at h
  split at h
  · split at h
    · injection h with h; exact ⟨_, h.symm⟩
    · cases h
  · cases h

theorem extend_evals (H : Agree f g) (l : List SField) (hl : ∀ fd ∈ l, fd.flatten = true) {ss : List Str}
    (hr : RunAll f (l.map SField.schema) ss) {s : Str} {z : Option ZSchema} (hs : Evals s z)
    (hz : ∀ a, z = some a → a = .broken ∨ ∃ sh, a = .object sh) :
    Evals (s ++ join [] ss) (extendZ z (l.map (sfieldZ g))) := by
  induction l generalizing ss s z with
  | nil =>
    cases hr
    simpa [extendZ] using hs
  | cons fd l ih =>
    rw [List.map_cons] at hr
    cases hr with
    | @cons _ s1 _ ss h1 h2 =>
      obtain ⟨p, rfl, hp⟩ := sfield_flat H (hl fd List.mem_cons_self) h1
      have hj : join [] ((lit ".extend(" ++ (p ++ lit ")")) :: ss) =
          (lit ".extend(" ++ (p ++ lit ")")) ++ join [] ss := by
        cases ss with
        | nil => simp
        | cons a b => rw [join_cons_cons, List.append_nil]
      rw [hj, ← List.append_assoc, List.map_cons]
      have key := evals_extend hs hp hz
      cases hy : sfieldZ g fd with
      | none =>
        rw [hy] at key
        have hz' : ∀ a, (none : Option ZSchema) = some a → a = .broken ∨ ∃ sh, a = .object sh := by
          intro a ha; cases ha
        have := ih (fun b hb => hl b (List.mem_cons_of_mem _ hb)) h2 key hz'
        have e : ∀ r : List (Option ZSchema), extendZ none r = none := by
          intro r
          induction r with
          | nil => rfl
          | cons a r ih => cases a with
            | none => rfl
            | some b => exact ih
        rw [Option.bind_none, e] at this
        exact this
      | some b =>
        rw [hy] at key
        refine ih (fun b hb => hl b (List.mem_cons_of_mem _ hb)) h2 key ?_
        intro a ha
        cases z with
        | none => simp at ha
        | some c => simp at ha; exact Or.inl ha.symm

theorem structFields_mem {s : StructDecl} {fd : SField} (h : fd ∈ structFields s) :
    ∃ x ∈ s.fields, x.skipDe = false ∧ fd = SField.ofField s.transparent x := by
  unfold structFields at h
  rw [List.mem_map] at h
  obtain ⟨x, hx, rfl⟩ := h
  rw [List.mem_filter] at hx
  exact ⟨x, hx.1, by simpa using hx.2, rfl⟩

theorem struct_evals (H : Agree f g) {s : StructDecl} (hg : goodDecl (.struct s) = true)
    (hw : wellStyled (.struct s) = true) {ps : List Piece} (hps : structSchema s = .ok ps) {t : Str}
    (h : runPieces f ps = some t) : Evals t (structZ g s) := by
  unfold structSchema at hps
  unfold structZ
  simp only at hps ⊢
  have hflat : ∀ fd ∈ (structFields s).filter (·.flatten), fd.flatten = true := by
    intro fd hfd; simpa using (List.mem_filter.1 hfd).2
  have hfields : ∀ fd ∈ (structFields s).filter (fun f => !f.flatten), fd.flatten = false := by
    intro fd hfd; simpa using (List.mem_filter.1 hfd).2
  have hmem : ∀ fd ∈ (structFields s).filter (fun f => !f.flatten),
      ∃ x ∈ s.fields, x.skipDe = false ∧ fd = SField.ofField s.transparent x := by
    intro fd hfd; exact structFields_mem (List.mem_filter.1 hfd).1
  generalize (structFields s).filter (fun f => !f.flatten) = fields at *
  generalize (structFields s).filter (·.flatten) = flat at *
  cases htr : s.transparent with
  | true =>
    rw [htr] at hps
    simp only at hps ⊢
    cases fields with
    | nil => cases hps
    | cons fd r =>
      injection hps with hps
      subst hps
      obtain ⟨x, _, _, rfl⟩ := hmem _ List.mem_cons_self
      exact sfield_evals H (hfields _ List.mem_cons_self) (Or.inr htr) h
  | false =>
    rw [htr] at hps
    cases hst : s.style with
    | unit => rw [hst] at hps; cases hps
    | tuple =>
      rw [hst] at hps
      simp only at hps ⊢
      have hnone : ∀ fd ∈ fields, fd.name = none := by
        intro fd hfd
        obtain ⟨x, hx, _, rfl⟩ := hmem fd hfd
        have : x.named = false := by
          simp only [wellStyled, hst] at hw
          simpa using List.all_eq_true.1 hw x hx
        simp [SField.ofField, this]
      rcases fields with _ | ⟨fd, _ | ⟨b, r⟩⟩
      · cases hps
      · injection hps with hps
        subst hps
        exact sfield_evals H (hfields _ List.mem_cons_self) (Or.inl (hnone _ List.mem_cons_self)) h
      · simp only at hps
        split at hps
        · cases hps
        · injection hps with hps
          subst hps
          rw [List.append_assoc, List.singleton_append, runPieces_txt_cons] at h
          obtain ⟨y, hy, rfl⟩ := h
          rw [runPieces_append_some] at hy
          obtain ⟨x, w, hx, hw', rfl⟩ := hy
          rw [runPieces_txt_some] at hw'
          subst hw'
          rw [runPieces_join] at hx
          obtain ⟨ss, hss, rfl⟩ := hx
          rw [← List.append_assoc]
          exact evals_tuple (runAll_all2 _
            (fun fd hfd s hs => sfield_evals H (hfields fd hfd) (Or.inl (hnone fd hfd)) hs) hss)
    | named =>
      rw [hst] at hps
      simp only at hps ⊢
      injection hps with hps
      subst hps
      have hsome : ∀ fd ∈ fields, ∃ n, fd.name = some n ∧ isIdent n = true ∧ fd.transparent = false := by
        intro fd hfd
        obtain ⟨x, hx, hsk, rfl⟩ := hmem fd hfd
        have hnm : x.named = true := by
          simp only [wellStyled, hst] at hw
          simpa using List.all_eq_true.1 hw x hx
        have hid : isIdent x.name = true := by
          unfold goodDecl at hg
          rw [Bool.and_eq_true] at hg
          have := List.all_eq_true.1 hg.2 x hx
          simpa [hsk, hnm] using this
        exact ⟨x.name, by simp [SField.ofField, hnm], hid, htr⟩
      rw [runPieces_append_some] at h
      obtain ⟨a, b, ha, hb, rfl⟩ := h
      rw [List.append_assoc, List.singleton_append, runPieces_txt_cons] at ha
      obtain ⟨y, hy, rfl⟩ := ha
      rw [runPieces_append_some] at hy
      obtain ⟨x, w, hx, hw', rfl⟩ := hy
      rw [runPieces_txt_some] at hw'
      subst hw'
      rw [runPieces_join] at hx hb
      obtain ⟨ss, hss, rfl⟩ := hx
      obtain ⟨ss', hss', rfl⟩ := hb
      refine extend_evals H flat hflat hss' ?_ ?_
      · have := evals_object (sep := lit ",\n") (op := lit "{") (fin := lit "}") sep_newline (fun _ => rfl)
          (fun _ => rfl) (runAll_all2 (R := EvEntry) (z := fun fd => (fd.name.getD [], sfieldZ g fd)) fields
            (fun fd hfd s hs => by
              obtain ⟨n, hn, hi, ht⟩ := hsome fd hfd
              exact sfield_entry H (hfields fd hfd) hn ht hi hs) hss)
        simp only [List.append_assoc] at this ⊢
        exact this
      · intro a ha; exact Or.inr (objZ_kind ha)

/-! ## Enums -/

theorem vfield_evals (H : Agree f g) {fd : Field} {s : Str}
    (h : runPieces f (variantFieldSchema .tuple fd) = some s) : Evals s (vfieldZ g fd) := call_opt H h

theorem vfield_entry (H : Agree f g) {fd : Field} (hi : isIdent fd.name = true) {s : Str}
    (h : runPieces f (variantFieldSchema .named fd) = some s) : EvEntry s (fd.name, vfieldZ g fd) :=
  entry_opt H hi h

/-- `z.object({ k: v })`. -/
theorem evals_obj1 {k v : Str} {z : Option ZSchema} (hk : isIdent k = true) (hv : Evals v z) :
    Evals (lit "z.object({ " ++ (k ++ (lit ": " ++ (v ++ lit " })")))) (objZ [(k, z)]) := by
  have := evals_object (sep := lit ", ") (op := lit "{ ") (fin := lit " }") sep_comma (fun _ => rfl)
    (fun _ => rfl) (.cons (b := (k, z)) ⟨hk, v, rfl, hv⟩ .nil)
  simp only [List.append_assoc, join_singleton] at this
  exact this

/-- `z.object({ k: v, k': v' })`. -/
theorem evals_obj2 {k v k' v' : Str} {z z' : Option ZSchema} (hk : isIdent k = true) (hv : Evals v z)
    (hk' : isIdent k' = true) (hv' : Evals v' z') :
    Evals (lit "z.object({ " ++ (k ++ (lit ": " ++ (v ++ (lit ", " ++ (k' ++ (lit ": " ++ (v' ++ lit " })"))))))))
      (objZ [(k, z), (k', z')]) := by
  have := evals_object (sep := lit ", ") (op := lit "{ ") (fin := lit " }") sep_comma (fun _ => rfl)
    (fun _ => rfl) (.cons (b := (k, z)) ⟨hk, v, rfl, hv⟩ (.cons (b := (k', z')) ⟨hk', v', rfl, hv'⟩ .nil))
  simp only [List.append_assoc, join_cons_cons, join_singleton] at this
  exact this

/-- `z.object({ k: v, .. })`. -/
theorem evals_objList {ss : List Str} {kzs : List (Str × Option ZSchema)} (h : All2 EvEntry ss kzs) :
    Evals (lit "z.object({ " ++ (join (lit ", ") ss ++ lit " })")) (objZ kzs) := by
  have := evals_object (sep := lit ", ") (op := lit "{ ") (fin := lit " }") sep_comma (fun _ => rfl)
    (fun _ => rfl) h
  simp only [List.append_assoc] at this
  exact this

theorem unit_evals {tag : Tag} {name : Str} (ht : goodTag tag = true) (hn : isQuotable name = true) {s : Str}
    (h : runPieces f (unitSchema tag name) = some s) : Evals s (unitZ tag name) := by
  cases tag with
  | external =>
    simp only [unitSchema, runPieces_txt_some] at h
    subst h
    exact evals_literal hn
  | internal t =>
    simp only [unitSchema, runPieces_txt_some] at h
    subst h
    have := evals_obj1 (Q := Q) ht (evals_literal hn)
    simp only [List.append_assoc] at this ⊢
    exact this
  | adjacent t c =>
    simp only [unitSchema, runPieces_txt_some] at h
    subst h
    simp only [goodTag, Bool.and_eq_true] at ht
    have := evals_obj1 (Q := Q) ht.1 (evals_literal hn)
    simp only [List.append_assoc] at this ⊢
    exact this
  | untagged =>
    simp only [unitSchema, runPieces_txt_some] at h
    subst h
    exact evals_prim .unit

theorem kept_mem {v : Variant} {fd : Field} (h : fd ∈ v.kept) : fd ∈ v.fields ∧ fd.skipDe = false := by
  have := List.mem_filter.1 h
  exact ⟨this.1, by simpa using this.2⟩

theorem tuple_inner_evals (H : Agree f g) (fs : List Field) {s : Str}
    (h : runPieces f (match fs with
      | [fd] => variantFieldSchema .tuple fd
      | fs => [.txt (lit "z.tuple([")] ++ joinP (lit ", ") (fs.map (variantFieldSchema .tuple)) ++
          [.txt (lit "])")]) = some s) : Evals s (tupleFieldsZ g fs) := by
  have gen : ∀ fs : List Field, runPieces f ([.txt (lit "z.tuple([")] ++
      joinP (lit ", ") (fs.map (variantFieldSchema .tuple)) ++ [.txt (lit "])")]) = some s →
      Evals s ((allSome (fs.map (vfieldZ g))).map .tuple) := by
    intro fs h
    rw [List.append_assoc, List.singleton_append, runPieces_txt_cons] at h
    obtain ⟨y, hy, rfl⟩ := h
    rw [runPieces_append_some] at hy
    obtain ⟨x, w, hx, hw', rfl⟩ := hy
    rw [runPieces_txt_some] at hw'
    subst hw'
    rw [runPieces_join] at hx
    obtain ⟨ss, hss, rfl⟩ := hx
    rw [← List.append_assoc]
    exact evals_tuple (runAll_all2 _ (fun fd _ s hs => vfield_evals H hs) hss)
  match fs, h with
  | [], h => exact gen [] h
  | [fd], h => exact vfield_evals H h
  | a :: b :: r, h => exact gen _ h

/-- Text around a text. -/
theorem runPieces_around {a b : Str} {ps : List Piece} {s : Str}
    (h : runPieces f ([.txt a] ++ ps ++ [.txt b]) = some s) :
    ∃ x, runPieces f ps = some x ∧ s = a ++ (x ++ b) := by
  rw [List.append_assoc, List.singleton_append, runPieces_txt_cons] at h
  obtain ⟨y, hy, rfl⟩ := h
  rw [runPieces_append_some] at hy
  obtain ⟨x, w, hx, hw, rfl⟩ := hy
  rw [runPieces_txt_some] at hw
  subst hw
  exact ⟨x, hx, rfl⟩

theorem tupleVariant_evals (H : Agree f g) {tag : Tag} {v : Variant} (ht : goodTag tag = true)
    (hn : if keyed tag .tuple then isIdent v.name = true else isQuotable v.name = true) {s : Str}
    (h : runPieces f (tupleVariantSchema tag v) = some s) : Evals s (tupleVariantZ g tag v) := by
  unfold tupleVariantSchema at h
  unfold tupleVariantZ
  simp only at h
  have hq : isQuotable v.name = true := by
    split at hn
    · exact isIdent_quotable hn
    · exact hn
  cases hk : v.kept with
  | nil =>
    rw [hk] at h
    exact unit_evals ht hq h
  | cons fd fs =>
    rw [hk] at h
    simp only at h ⊢
    cases tag with
    | untagged => exact tuple_inner_evals H (fd :: fs) h
    | external =>
      obtain ⟨x, hx, rfl⟩ := runPieces_around h
      have := evals_obj1 (k := v.name) (by simpa [keyed] using hn) (tuple_inner_evals H (fd :: fs) hx)
      simp only [List.append_assoc] at this ⊢
      exact this
    | internal t =>
      obtain ⟨x, hx, rfl⟩ := runPieces_around h
      have := evals_obj1 (k := v.name) (by simpa [keyed] using hn) (tuple_inner_evals H (fd :: fs) hx)
      simp only [List.append_assoc] at this ⊢
      exact this
    | adjacent t c =>
      obtain ⟨x, hx, rfl⟩ := runPieces_around h
      simp only [goodTag, Bool.and_eq_true] at ht
      have := evals_obj2 (Q := Q) ht.1 (evals_literal hq) ht.2 (tuple_inner_evals H (fd :: fs) hx)
      simp only [List.append_assoc] at this ⊢
      exact this

theorem structVariant_evals (H : Agree f g) {tag : Tag} {v : Variant} (ht : goodTag tag = true)
    (hn : if keyed tag .named then isIdent v.name = true else isQuotable v.name = true)
    (hf : ∀ fd ∈ v.kept, isIdent fd.name = true) {ps : List Piece}
    (hps : structVariantSchema tag v = .ok ps) {s : Str}
    (h : runPieces f ps = some s) : Evals s (structVariantZ g tag v) := by
  unfold structVariantSchema at hps
  unfold structVariantZ
  simp only
  have hq : isQuotable v.name = true := by
    split at hn
    · exact isIdent_quotable hn
    · exact hn
  have hent : ∀ ss, RunAll f (v.kept.map (variantFieldSchema .named)) ss →
      All2 EvEntry ss (v.kept.map (fun fd => (fd.name, vfieldZ g fd))) := fun ss hss =>
    runAll_all2 (R := EvEntry) (z := fun fd : Field => (fd.name, vfieldZ g fd)) _
      (fun fd hfd s hs => vfield_entry H (hf fd hfd) hs) hss
  cases hk : v.kept with
  | nil => rw [hk] at hps; cases hps
  | cons fd fs =>
    rw [hk] at hps hent
    simp only at hps
    injection hps with hps
    cases tag with
    | untagged =>
      subst hps
      obtain ⟨x, hx, rfl⟩ := runPieces_around h
      obtain ⟨ss, hss, rfl⟩ := runPieces_join.1 hx
      exact evals_objList (hent ss hss)
    | external =>
      subst hps
      obtain ⟨x, hx, rfl⟩ := runPieces_around h
      obtain ⟨ss, hss, rfl⟩ := runPieces_join.1 hx
      have := evals_obj1 (k := v.name) (by simpa [keyed] using hn) (evals_objList (hent ss hss))
      simp only [List.append_assoc] at this ⊢
      exact this
    | internal t =>
      subst hps
      obtain ⟨x, hx, rfl⟩ := runPieces_around h
      obtain ⟨ss, hss, rfl⟩ := runPieces_join.1 hx
      have := evals_objList (.cons (a := t ++ (lit ": " ++ (lit "z.literal(\"" ++ v.name ++ lit "\")")))
        (b := (t, some (.literal v.name))) ⟨ht, _, rfl, evals_literal hq⟩ (hent ss hss))
      cases hss with
      | cons h1 h2 =>
        rw [join_cons_cons] at this
        simp only [List.append_assoc] at this ⊢
        exact this
    | adjacent t c =>
      subst hps
      obtain ⟨x, hx, rfl⟩ := runPieces_around h
      obtain ⟨ss, hss, rfl⟩ := runPieces_join.1 hx
      simp only [goodTag, Bool.and_eq_true] at ht
      have := evals_obj2 (Q := Q) ht.1 (evals_literal hq) ht.2 (evals_objList (hent ss hss))
      simp only [List.append_assoc] at this ⊢
      exact this

theorem variant_evals (H : Agree f g) {tag : Tag} {v : Variant} (ht : goodTag tag = true)
    (hv : goodVariant tag v = true) {ps : List Piece} (hps : variantSchema tag v = .ok ps) {s : Str}
    (h : runPieces f ps = some s) : Evals s (variantZ g tag v) := by
  unfold variantSchema at hps
  unfold variantZ
  unfold goodVariant at hv
  rw [Bool.and_eq_true] at hv
  obtain ⟨hn, hf⟩ := hv
  cases hst : v.style with
  | unit =>
    rw [hst] at hps hn
    injection hps with hps
    subst hps
    refine unit_evals ht ?_ h
    cases tag <;> simpa [keyed] using hn
  | tuple =>
    rw [hst] at hps hn
    injection hps with hps
    subst hps
    refine tupleVariant_evals H ht ?_ h
    revert hn
    split <;> exact id
  | named =>
    rw [hst] at hps hn hf
    refine structVariant_evals H ht ?_ ?_ hps h
    · revert hn
      split <;> exact id
    · intro fd hfd
      obtain ⟨h1, h2⟩ := kept_mem hfd
      simp only [bne_self_eq_false, Bool.false_or] at hf
      have := List.all_eq_true.1 hf fd h1
      simpa [h2] using this

theorem allOk_mem {α β ε : Type} {p : α → Except ε β} {l : List α} {r : List β}
    (h : allOk (l.map p) = .ok r) : All2 (fun a b => p a = .ok b) l r := by
  induction l generalizing r with
  | nil => cases h; exact .nil
  | cons a l ih =>
    rw [List.map_cons] at h
    cases hp : p a with
    | error e => rw [hp] at h; cases h
    | ok b =>
      rw [hp, allOk] at h
      cases hr : allOk (l.map p) with
      | error e => rw [hr] at h; cases h
      | ok bs =>
        rw [hr] at h
        injection h with h
        subst h
        exact .cons hp (ih hr)

theorem runAll_all2' {α β : Type} {R : Str → β → Prop} {p : α → List Piece → Prop} {z : α → β} {l : List α}
    {r : List (List Piece)} (hl : All2 p l r)
    (h : ∀ a ∈ l, ∀ ps s, p a ps → runPieces f ps = some s → R s (z a)) {ss : List Str}
    (hr : RunAll f r ss) : All2 R ss (l.map z) := by
  induction hl generalizing ss with
  | nil => cases hr; exact .nil
  | cons h1 _ ih =>
    cases hr with
    | cons h3 h4 =>
      exact .cons (h _ List.mem_cons_self _ _ h1 h3) (ih (fun b hb => h b (List.mem_cons_of_mem _ hb)) h4)

theorem enum_evals (H : Agree f g) {e : EnumDecl} (hg : goodDecl (.enum e) = true)
    {ps : List Piece} (hps : enumSchema e = .ok ps) {t : Str}
    (h : runPieces f ps = some t) : Evals t (enumZ g e) := by
  unfold enumSchema at hps
  unfold enumZ
  unfold goodDecl at hg
  simp only [Bool.and_eq_true] at hg
  have hv : ∀ v ∈ e.kept, goodVariant e.tag v = true := by
    intro v hv
    have hm := List.mem_filter.1 hv
    have := List.all_eq_true.1 hg.2 v hm.1
    have h2 : v.skipDe = false := by simpa using hm.2
    simpa [h2] using this
  have ht : goodTag e.tag = true := hg.1.2
  match hk : e.kept, hps with
  | [v], hps =>
    exact variant_evals H ht (hv v (by rw [hk]; exact List.mem_cons_self)) hps h
  | a :: b :: r, hps =>
    simp only at hps ⊢
    cases ha : allOk ((a :: b :: r).map (variantSchema e.tag)) with
    | error err => rw [ha] at hps; cases hps
    | ok schs =>
      rw [ha] at hps
      simp only at hps
      injection hps with hps
      have hall : ∀ ss, RunAll f schs ss →
          All2 Evals ss ((a :: b :: r).map (variantZ g e.tag)) := fun ss hss =>
        runAll_all2' (R := Evals) (allOk_mem ha) (fun v hvm ps s hp hs =>
          variant_evals H ht (hv v (by rw [hk]; exact hvm)) hp hs) hss
      cases htag : e.tag with
      | external =>
        rw [htag] at hps hall
        subst hps
        obtain ⟨x, hx, rfl⟩ := runPieces_around h
        obtain ⟨ss, hss, rfl⟩ := runPieces_join.1 hx
        rw [← List.append_assoc]
        exact evals_union (hall ss hss)
      | untagged =>
        rw [htag] at hps hall
        subst hps
        obtain ⟨x, hx, rfl⟩ := runPieces_around h
        obtain ⟨ss, hss, rfl⟩ := runPieces_join.1 hx
        rw [← List.append_assoc]
        exact evals_union (hall ss hss)
      | internal t =>
        rw [htag] at hps hall ht
        subst hps
        obtain ⟨x, hx, rfl⟩ := runPieces_around h
        obtain ⟨ss, hss, rfl⟩ := runPieces_join.1 hx
        rw [← List.append_assoc]
        exact evals_disc (isIdent_quotable ht) (hall ss hss)
      | adjacent t c =>
        rw [htag] at hps hall ht
        subst hps
        obtain ⟨x, hx, rfl⟩ := runPieces_around h
        obtain ⟨ss, hss, rfl⟩ := runPieces_join.1 hx
        rw [← List.append_assoc]
        simp only [goodTag, Bool.and_eq_true] at ht
        exact evals_disc (isIdent_quotable ht.1) (hall ss hss)

/-! ## All types -/

theorem lazy_evals {ns name : Str} (h1 : goodNs ns = true) (h2 : isIdent name = true) (hq : Q ns name) {s : Str}
    (h : runPieces f (lazyRef ns name) = some s) : Evals s (some (.lazy ns name)) := by
  simp only [lazyRef, runPieces_txt_some] at h
  subst h
  simp only [goodNs, Bool.and_eq_true] at h1
  exact evals_lazy h1.1.1 (by simpa using h1.1.2) (by simpa using h1.2) h2 hq

theorem zBody_named (P : Program) (m : Method) (i : Nat) {d : Decl} (h : P[i]? = some d) :
    zBody g P m (.named i) = match m with
      | .schema => declZ g d
      | .inlineSchema => declInlineZ g d
      | _ => none := by
  rw [zBody]
  simp only [h]
  cases m <;> rfl

theorem body_agree {P : Program} (hg : GoodNames P) (hw : WellStyled P) (hQ : ∀ d ∈ P, Q d.ns d.name)
    (H : Agree f g) {m : Method} {t : Ty} (hm : isZ m) {ps : List Piece} (hb : body P m t = some ps) {s : Str} (h : runPieces f ps = some s) :
    Evals s (zBody g P m t) := by
  cases t with
  | named i =>
    obtain ⟨d, impl, hd, hi, rfl⟩ := body_named hb
    rw [zBody_named P m i hd]
    have hgd := hg d (List.mem_of_getElem? hd)
    have hwd := hw d (List.mem_of_getElem? hd)
    have hqd := hQ d (List.mem_of_getElem? hd)
    cases d with
    | struct sd =>
      obtain ⟨docs, sch, td, _, _, hs, _, e⟩ := deriveStruct_ok hi
      have hns : goodNs sd.ns = true ∧ isIdent sd.name = true := by
        unfold goodDecl at hgd
        simp only [Bool.and_eq_true] at hgd
        exact hgd.1
      rcases hm with rfl | rfl
      · simp only [declZ]
        cases hf : sd.from_.ty? with
        | some u =>
          rw [hf] at e; subst e
          simp only [Impl.get, runPieces_call_some] at h
          exact H _ _ _ (Or.inr rfl) h
        | none =>
          rw [hf] at e; subst e
          exact struct_evals H hgd hwd hs h
      · simp only [declInlineZ]
        cases hf : sd.from_.ty? with
        | some u => rw [hf] at e; subst e; exact lazy_evals hns.1 hns.2 hqd h
        | none => rw [hf] at e; subst e; exact lazy_evals hns.1 hns.2 hqd h
    | enum ed =>
      obtain ⟨docs, sch, td, _, hs, _, e⟩ := deriveEnum_ok hi
      have hns : goodNs ed.ns = true ∧ isIdent ed.name = true := by
        unfold goodDecl at hgd
        simp only [Bool.and_eq_true] at hgd
        exact hgd.1.1
      rcases hm with rfl | rfl
      · simp only [declZ]
        cases hf : ed.from_.ty? with
        | some u =>
          rw [hf] at e; subst e
          simp only [Impl.get, runPieces_call_some] at h
          exact H _ _ _ (Or.inl rfl) h
        | none =>
          rw [hf] at e; subst e
          exact enum_evals H hgd hs h
      · simp only [declInlineZ]
        cases hf : ed.from_.ty? with
        | some u =>
          rw [hf] at e; subst e
          simp only [Impl.get, runPieces_call_some] at h
          exact H _ _ _ (Or.inr rfl) h
        | none => rw [hf] at e; subst e; exact lazy_evals hns.1 hns.2 hqd h
  | prim p =>
    rcases hm with rfl | rfl
    · injection hb with hb; subst hb
      simp only [runPieces_txt_some] at h
      subst h
      exact evals_prim p
    · injection hb with hb; subst hb
      exact H _ _ _ (Or.inl rfl) (runPieces_call_some.1 h)
  | wrap w u =>
    rcases hm with rfl | rfl
    · injection hb with hb; subst hb
      exact H _ _ _ (Or.inl rfl) (runPieces_call_some.1 h)
    · injection hb with hb; subst hb
      exact H _ _ _ (Or.inl rfl) (runPieces_call_some.1 h)
  | option u =>
    rcases hm with rfl | rfl
    · injection hb with hb; subst hb
      rw [runPieces_call_cons] at h
      obtain ⟨x, y, hx, hy, rfl⟩ := h
      rw [runPieces_txt_some] at hy
      subst hy
      exact evals_optional (H _ _ _ (Or.inr rfl) hx)
    · injection hb with hb; subst hb
      exact H _ _ _ (Or.inl rfl) (runPieces_call_some.1 h)
  | vec u =>
    rcases hm with rfl | rfl
    · injection hb with hb; subst hb
      obtain ⟨x, hx, rfl⟩ := runPieces_around (ps := [.call .inlineSchema u]) h
      rw [← List.append_assoc]
      exact evals_array (H _ _ _ (Or.inr rfl) (runPieces_call_some.1 hx))
    · injection hb with hb; subst hb
      exact H _ _ _ (Or.inl rfl) (runPieces_call_some.1 h)
  | hashSet u =>
    rcases hm with rfl | rfl
    · injection hb with hb; subst hb
      obtain ⟨x, hx, rfl⟩ := runPieces_around (ps := [.call .inlineSchema u]) h
      rw [← List.append_assoc]
      exact evals_set (H _ _ _ (Or.inr rfl) (runPieces_call_some.1 hx))
    · injection hb with hb; subst hb
      exact H _ _ _ (Or.inl rfl) (runPieces_call_some.1 h)
  | hashMap k v =>
    rcases hm with rfl | rfl
    · injection hb with hb; subst hb
      obtain ⟨x, hx, rfl⟩ := runPieces_around
        (ps := [.call .inlineSchema k, .txt (lit ", "), .call .inlineSchema v]) h
      rw [runPieces_call_cons] at hx
      obtain ⟨a, y, ha, hy, rfl⟩ := hx
      rw [runPieces_txt_cons] at hy
      obtain ⟨b, hb, rfl⟩ := hy
      have := evals_map (H _ _ _ (Or.inr rfl) ha) (H _ _ _ (Or.inr rfl) (runPieces_call_some.1 hb))
      simp only [List.append_assoc]
      exact this
    · injection hb with hb; subst hb
      exact H _ _ _ (Or.inl rfl) (runPieces_call_some.1 h)
  | array n u =>
    rcases hm with rfl | rfl
    · injection hb with hb; subst hb
      exact H _ _ _ (Or.inl rfl) (runPieces_call_some.1 h)
    · injection hb with hb; subst hb
      exact H _ _ _ (Or.inl rfl) (runPieces_call_some.1 h)
  | btreeSet u =>
    rcases hm with rfl | rfl
    · injection hb with hb; subst hb
      exact H _ _ _ (Or.inl rfl) (runPieces_call_some.1 h)
    · injection hb with hb; subst hb
      exact H _ _ _ (Or.inl rfl) (runPieces_call_some.1 h)
  | btreeMap k v =>
    rcases hm with rfl | rfl
    · injection hb with hb; subst hb
      exact H _ _ _ (Or.inl rfl) (runPieces_call_some.1 h)
    · injection hb with hb; subst hb
      exact H _ _ _ (Or.inl rfl) (runPieces_call_some.1 h)
  | tuple ts =>
    rcases hm with rfl | rfl
    · injection hb with hb; subst hb
      obtain ⟨x, hx, rfl⟩ := runPieces_around h
      obtain ⟨ss, hss, rfl⟩ := runPieces_join.1 hx
      rw [← List.append_assoc]
      exact evals_tuple (runAll_all2 (p := fun t => [.call .schema t]) (z := g .schema) _
        (fun t _ s hs => H _ _ _ (Or.inl rfl) (runPieces_call_some.1 hs)) hss)
    · injection hb with hb; subst hb
      exact H _ _ _ (Or.inl rfl) (runPieces_call_some.1 h)
  | result u e =>
    rcases hm with rfl | rfl
    · injection hb with hb; subst hb
      rw [runPieces_txt_cons] at h
      obtain ⟨y, hy, rfl⟩ := h
      rw [runPieces_call_cons] at hy
      obtain ⟨a, y, ha, hy, rfl⟩ := hy
      rw [runPieces_txt_cons] at hy
      obtain ⟨y, hy, rfl⟩ := hy
      rw [runPieces_call_cons] at hy
      obtain ⟨b, y, hb, hy, rfl⟩ := hy
      rw [runPieces_txt_some] at hy
      subst hy
      have h1 := evals_obj1 (k := lit "Ok") rfl (H _ _ _ (Or.inr rfl) ha)
      have h2 := evals_obj1 (k := lit "Err") rfl (H _ _ _ (Or.inr rfl) hb)
      have := evals_union (.cons h1 (.cons h2 .nil))
      simp only [join_cons_cons, join_singleton, List.append_assoc] at this
      have e : (allSome [objZ [(lit "Ok", g .inlineSchema u)], objZ [(lit "Err", g .inlineSchema e)]]).map
          ZSchema.union = zBody g P .schema (.result u e) := by
        rw [zBody]
        cases objZ [(lit "Ok", g .inlineSchema u)] with
        | none => rfl
        | some a => cases objZ [(lit "Err", g .inlineSchema e)] <;> rfl
      rw [e] at this
      exact this
    · injection hb with hb; subst hb
      exact H _ _ _ (Or.inl rfl) (runPieces_call_some.1 h)

/-- A type of the program is called `name` in namespace `ns`. -/
def Declared (P : Program) (ns name : Str) : Prop := ∃ d ∈ P, d.ns = ns ∧ d.name = name

/-- The texts of `schema()` and `inline_schema()` are expressions that evaluate to the schemas `zOf` gives,
and throw where it gives none. -/
theorem eval_agree {P : Program} (hg : GoodNames P) (hw : WellStyled P) (n : Nat) :
    AgreeR (Declared P) (eval P n) (zOf P n) := by
  induction n with
  | zero => intro m t s _ h; cases h
  | succ n ih =>
    intro m t s hm h
    obtain ⟨ps, hb, hr⟩ := eval_succ.1 h
    rw [zOf]
    exact body_agree hg hw (fun d hd => ⟨d, hd, rfl, rfl⟩) ih hm hb hr

end Verif.Zod
