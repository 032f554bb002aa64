import Verif.Ts.TsOf
import Verif.Zod.Bridge
import Verif.Spec.TsTypes

/-!
# The generated texts are read as the types of `Verif/Ts/TsOf.lean`
-/

namespace Verif.Ts
open Verif Verif.Js Verif.Schema Verif.Spec Verif.Zod

/-- The functions that give types. -/
def isT (m : Method) : Prop := m = .typeDef ∨ m = .inline

/-- The texts `f` returns are read as the types `g` gives. -/
def AgreeT (f : Method → Ty → Option Str) (g : Method → Ty → Dnf) : Prop :=
  ∀ m t s, isT m → f m t = some s → Den s (g m t)

variable {f : Method → Ty → Option Str} {g : Method → Ty → Dnf}

theorem den_undefined : Den (lit "undefined") undefD := Den.word (w := lit "undefined") rfl rfl

theorem den_optional {s : Str} {d : Dnf} (h : Den s d) : Den (s ++ lit " | undefined") (d ++ undefD) :=
  h.or den_undefined

/-- ` | undefined` or nothing. -/
def undefText (b : Bool) : Str := if b then lit " | undefined" else []

theorem den_opt {s : Str} {d : Dnf} (b : Bool) (h : Den s d) : Den (s ++ undefText b) (optD b d) := by
  cases b with
  | false => simpa [undefText, optD] using h
  | true => exact den_optional h

/-- A call, followed by `| undefined` if there is a default. -/
theorem call_opt_den (H : AgreeT f g) {t : Ty} {b : Bool} {s : Str}
    (h : runPieces f (if b then [.call .inline t, .txt (lit " | undefined")] else [.call .inline t]) = some s) :
    Den s (optD b (g .inline t)) := by
  cases b with
  | false => exact H _ _ _ (Or.inr rfl) (runPieces_call_some.1 h)
  | true =>
    simp only [if_true] at h
    rw [runPieces_call_cons] at h
    obtain ⟨x, y, hx, hy, rfl⟩ := h
    rw [runPieces_txt_some] at hy
    subst hy
    exact den_optional (H _ _ _ (Or.inr rfl) hx)

/-- A property. -/
theorem prop_opt_den (H : AgreeT f g) {name : Str} (hn : isIdent name = true) {t : Ty} {b : Bool} {s : Str}
    (h : runPieces f (if b then [.txt (name ++ lit "?: "), .call .inline t, .txt (lit " | undefined")]
      else [.txt (name ++ lit ": "), .call .inline t]) = some s) :
    DenProp s (name, b, optD b (g .inline t)) := by
  cases b with
  | false =>
    simp only [Bool.false_eq_true, if_false] at h
    rw [runPieces_txt_cons] at h
    obtain ⟨y, hy, rfl⟩ := h
    exact ⟨hn, y, by simp [List.append_assoc], call_opt_den (b := false) H hy⟩
  | true =>
    simp only [if_true] at h
    rw [runPieces_txt_cons] at h
    obtain ⟨y, hy, rfl⟩ := h
    exact ⟨hn, y, by simp [List.append_assoc], call_opt_den (b := true) H hy⟩

theorem sfield_den (H : AgreeT f g) {fd : SField} (hf : fd.flatten = false)
    (hn : fd.name = none ∨ fd.transparent = true) {s : Str} (h : runPieces f fd.typeDef = some s) :
    Den s (sfieldD g fd) := by
  unfold SField.typeDef at h
  unfold sfieldD
  rw [hf] at h
  refine call_opt_den H ?_
  rw [← h]
  congr 1
  rcases hn with hn | hn
  · rw [hn]; cases fd.optional <;> cases fd.transparent <;> rfl
  · rw [hn]; cases fd.optional <;> cases fd.name <;> rfl

theorem sfield_prop (H : AgreeT f g) {fd : SField} (hf : fd.flatten = false) {name : Str}
    (hn : fd.name = some name) (ht : fd.transparent = false) (hi : isIdent name = true) {s : Str}
    (h : runPieces f fd.typeDef = some s) : DenProp s (sfieldP g fd) := by
  unfold SField.typeDef at h
  unfold sfieldP sfieldD
  rw [hf, hn, ht] at h
  rw [hn]
  refine prop_opt_den H hi ?_
  rw [← h]
  cases fd.optional <;> rfl

/-- A flattened field: the operator and its operand. -/
theorem sfield_flat_den (H : AgreeT f g) {fd : SField} (hf : fd.flatten = true) {name : Str}
    (hn : fd.name = some name) (ht : fd.transparent = false) {s : Str} (h : runPieces f fd.typeDef = some s) :
    ∃ amp p, (lexRun ⟨[], .start⟩ amp).mode = .start ∧ toks amp = [.p '&'] ∧
      (∃ c r, amp = c :: r ∧ isWordChar c = false) ∧ s = amp ++ p ∧ Den p (flatD g fd) := by
  unfold SField.typeDef at h
  unfold flatD
  rw [hf, hn, ht] at h
  cases ho : fd.optional with
  | false =>
    rw [ho] at h
    simp only at h
    rw [runPieces_txt_cons] at h
    obtain ⟨y, hy, rfl⟩ := h
    exact ⟨lit " & ", y, rfl, rfl, ⟨_, _, rfl, rfl⟩, rfl, H _ _ _ (Or.inr rfl) (runPieces_call_some.1 hy)⟩
  | true =>
    rw [ho] at h
    simp only at h
    obtain ⟨x, hx, rfl⟩ := runPieces_around (ps := [.call .inline fd.ty]) h
    have := (den_optional (H _ _ _ (Or.inr rfl) (runPieces_call_some.1 hx))).paren
    refine ⟨lit "& ", lit "(" ++ (x ++ lit " | undefined" ++ lit ")"), rfl, rfl, ⟨_, _, rfl, rfl⟩, ?_, this⟩
    simp only [List.append_assoc]
    rfl

theorem flat_den (H : AgreeT f g) (l : List SField)
    (hl : ∀ fd ∈ l, fd.flatten = true ∧ fd.transparent = false ∧ ∃ n, fd.name = some n) {ss : List Str}
    (hr : RunAll f (l.map SField.typeDef) ss) {s : Str} {d : Dnf} (hs : Den s d) :
    Den (s ++ join [] ss) ((l.map (flatD g)).foldl andDnf d) := by
  induction l generalizing ss s d with
  | nil =>
    cases hr
    simpa using hs
  | cons fd l ih =>
    rw [List.map_cons] at hr
    cases hr with
    | @cons _ s1 _ ss h1 h2 =>
      obtain ⟨hf, ht, n, hn⟩ := hl fd List.mem_cons_self
      obtain ⟨amp, p, e1, e2, e3, rfl, hp⟩ := sfield_flat_den H hf hn ht h1
      have hj : join [] ((amp ++ p) :: ss) = (amp ++ p) ++ join [] ss := by
        cases ss with
        | nil => simp
        | cons a b => rw [join_cons_cons, List.append_nil]
      rw [hj, ← List.append_assoc, List.map_cons, List.foldl_cons]
      exact ih (fun b hb => hl b (List.mem_cons_of_mem _ hb)) h2 (hs.and hp e1 e2 e3)

/-- `{ .. }` -/
theorem den_obj {ss : List Str} {ds : List (Str × Bool × Dnf)} (h : All2 DenProp ss ds) :
    Den (lit "{ " ++ (join (lit ", ") ss ++ lit " }")) [[.obj (ds.map propT)]] :=
  Den.obj tsSep_comma rfl rfl rfl ⟨_, _, rfl, rfl⟩ rfl h

theorem struct_den (H : AgreeT f g) {s : StructDecl} (hg : goodDecl (.struct s) = true)
    (hw : wellStyled (.struct s) = true) {ps : List Piece} (hps : structTypeDef s = .ok ps) {t : Str}
    (h : runPieces f ps = some t) : Den t (structD g s) := by
  unfold structTypeDef at hps
  unfold structD
  simp only at hps ⊢
  have hflat : ∀ fd ∈ (structFields s).filter (·.flatten), fd.flatten = true ∧
      ∃ x ∈ s.fields, x.skipDe = false ∧ fd = SField.ofField s.transparent x := by
    intro fd hfd
    exact ⟨by simpa using (List.mem_filter.1 hfd).2, structFields_mem (List.mem_filter.1 hfd).1⟩
  have hfields : ∀ fd ∈ (structFields s).filter (fun f => !f.flatten), fd.flatten = false := by
    intro fd hfd; simpa using (List.mem_filter.1 hfd).2
  have hmem : ∀ fd ∈ (structFields s).filter (fun f => !f.flatten),
      ∃ x ∈ s.fields, x.skipDe = false ∧ fd = SField.ofField s.transparent x := by
    intro fd hfd; exact structFields_mem (List.mem_filter.1 hfd).1
  generalize (structFields s).filter (fun f => !f.flatten) = fields at *
  generalize (structFields s).filter (·.flatten) = flat at *
  cases htr : s.transparent with
  | true =>
    rw [htr] at hps
    simp only at hps ⊢
    cases fields with
    | nil => cases hps
    | cons fd r =>
      injection hps with hps
      subst hps
      obtain ⟨x, _, _, rfl⟩ := hmem _ List.mem_cons_self
      exact sfield_den H (hfields _ List.mem_cons_self) (Or.inr htr) h
  | false =>
    rw [htr] at hps
    cases hst : s.style with
    | unit => rw [hst] at hps; cases hps
    | tuple =>
      rw [hst] at hps
      simp only at hps ⊢
      have hnone : ∀ fd ∈ fields, fd.name = none := by
        intro fd hfd
        obtain ⟨x, hx, _, rfl⟩ := hmem fd hfd
        have : x.named = false := by
          simp only [wellStyled, hst] at hw
          simpa using List.all_eq_true.1 hw x hx
        simp [SField.ofField, this]
      rcases fields with _ | ⟨fd, _ | ⟨b, r⟩⟩
      · cases hps
      · injection hps with hps
        subst hps
        exact sfield_den H (hfields _ List.mem_cons_self) (Or.inl (hnone _ List.mem_cons_self)) h
      · simp only at hps
        injection hps with hps
        subst hps
        obtain ⟨x, hx, rfl⟩ := runPieces_around h
        rw [runPieces_join] at hx
        obtain ⟨ss, hss, rfl⟩ := hx
        exact Den.tuple (runAll_all2 _
          (fun fd hfd s hs => sfield_den H (hfields fd hfd) (Or.inl (hnone fd hfd)) hs) hss)
    | named =>
      rw [hst] at hps
      simp only at hps ⊢
      injection hps with hps
      subst hps
      have hname : ∀ x ∈ s.fields, x.skipDe = false → x.named = true ∧ isIdent x.name = true := by
        intro x hx hsk
        have hnm : x.named = true := by
          simp only [wellStyled, hst] at hw
          simpa using List.all_eq_true.1 hw x hx
        refine ⟨hnm, ?_⟩
        unfold goodDecl at hg
        rw [Bool.and_eq_true] at hg
        have := List.all_eq_true.1 hg.2 x hx
        simpa [hsk, hnm] using this
      have hsome : ∀ fd ∈ fields, ∃ n, fd.name = some n ∧ isIdent n = true ∧ fd.transparent = false := by
        intro fd hfd
        obtain ⟨x, hx, hsk, rfl⟩ := hmem fd hfd
        obtain ⟨hnm, hid⟩ := hname x hx hsk
        exact ⟨x.name, by simp [SField.ofField, hnm], hid, htr⟩
      have hsome' : ∀ fd ∈ flat, fd.flatten = true ∧ fd.transparent = false ∧ ∃ n, fd.name = some n := by
        intro fd hfd
        obtain ⟨hfl, x, hx, hsk, rfl⟩ := hflat fd hfd
        obtain ⟨hnm, _⟩ := hname x hx hsk
        exact ⟨hfl, htr, x.name, by simp [SField.ofField, hnm]⟩
      rw [runPieces_append_some] at h
      obtain ⟨a, b, ha, hb, rfl⟩ := h
      obtain ⟨x, hx, rfl⟩ := runPieces_around ha
      rw [runPieces_join] at hx hb
      obtain ⟨ss, hss, rfl⟩ := hx
      obtain ⟨ss', hss', rfl⟩ := hb
      refine flat_den H flat hsome' hss' ?_
      exact Den.obj (sep := lit ",\n") (op := lit "{") (fin := lit "}") tsSep_newline rfl rfl rfl ⟨_, _, rfl, rfl⟩ rfl
        (runAll_all2 (R := DenProp) (z := sfieldP g) fields
          (fun fd hfd s hs => by
            obtain ⟨n, hn, hi, ht⟩ := hsome fd hfd
            exact sfield_prop H (hfields fd hfd) hn ht hi hs) hss)

/-! ## Enums -/

theorem vfield_den (H : AgreeT f g) {fd : Field} {s : Str}
    (h : runPieces f (variantFieldTypeDef .tuple fd) = some s) : Den s (vfieldD g fd) := by
  refine call_opt_den H ?_
  rw [← h]
  unfold variantFieldTypeDef
  cases fd.dflt <;> rfl

theorem vfield_prop (H : AgreeT f g) {fd : Field} (hi : isIdent fd.name = true) {s : Str}
    (h : runPieces f (variantFieldTypeDef .named fd) = some s) : DenProp s (vfieldP g fd) := by
  refine prop_opt_den H hi ?_
  rw [← h]
  unfold variantFieldTypeDef
  cases fd.dflt <;> rfl

/-- A property with a string literal type. -/
theorem prop_literal {k w : Str} (hk : isIdent k = true) (hw : isQuotable w = true) :
    DenProp (k ++ (lit ": " ++ (lit "\"" ++ w ++ lit "\""))) (k, false, [[.str w]]) :=
  ⟨hk, _, rfl, Den.literal hw⟩

theorem unit_den {tag : Tag} {name : Str} (ht : goodTag tag = true) (hn : isQuotable name = true) {s : Str}
    (h : runPieces f (unitTypeDef tag name) = some s) : Den s [[unitD tag name]] := by
  cases tag with
  | external =>
    simp only [unitTypeDef, runPieces_txt_some] at h
    subst h
    exact Den.literal hn
  | internal t =>
    simp only [unitTypeDef, runPieces_txt_some] at h
    subst h
    have := den_obj (.cons (prop_literal ht hn) .nil)
    simp only [List.append_assoc, join_singleton] at this ⊢
    exact this
  | adjacent t c =>
    simp only [unitTypeDef, runPieces_txt_some] at h
    subst h
    simp only [goodTag, Bool.and_eq_true] at ht
    have := den_obj (.cons (prop_literal ht.1 hn) .nil)
    simp only [List.append_assoc, join_singleton] at this ⊢
    exact this
  | untagged =>
    simp only [unitTypeDef, runPieces_txt_some] at h
    subst h
    exact Den.word (w := lit "null") rfl rfl

theorem tuple_inner_den (H : AgreeT f g) (fs : List Field) {s : Str}
    (h : runPieces f (match fs with
      | [fd] => variantFieldTypeDef .tuple fd
      | fs => [.txt (lit "[")] ++ joinP (lit ", ") (fs.map (variantFieldTypeDef .tuple)) ++
          [.txt (lit "]")]) = some s) : Den s (tupleFieldsD g fs) := by
  have gen : ∀ fs : List Field, runPieces f ([.txt (lit "[")] ++
      joinP (lit ", ") (fs.map (variantFieldTypeDef .tuple)) ++ [.txt (lit "]")]) = some s →
      Den s [[.tuple ((fs.map (vfieldD g)).map ofDnf)]] := by
    intro fs h
    obtain ⟨x, hx, rfl⟩ := runPieces_around h
    rw [runPieces_join] at hx
    obtain ⟨ss, hss, rfl⟩ := hx
    exact Den.tuple (runAll_all2 _ (fun fd _ s hs => vfield_den H hs) hss)
  match fs, h with
  | [], h => exact gen [] h
  | [fd], h => exact vfield_den H h
  | a :: b :: r, h => exact gen _ h

theorem tupleVariant_den (H : AgreeT f g) {tag : Tag} {v : Variant} (ht : goodTag tag = true)
    (hn : if keyed tag .tuple then isIdent v.name = true else isQuotable v.name = true) {s : Str}
    (h : runPieces f (tupleVariantTypeDef tag v) = some s) : Den s (tupleVariantD g tag v) := by
  unfold tupleVariantTypeDef at h
  unfold tupleVariantD
  simp only at h
  have hq : isQuotable v.name = true := by
    split at hn
    · exact isIdent_quotable hn
    · exact hn
  cases hk : v.kept with
  | nil =>
    rw [hk] at h
    exact unit_den ht hq h
  | cons fd fs =>
    rw [hk] at h
    simp only at h ⊢
    cases tag with
    | untagged => exact tuple_inner_den H (fd :: fs) h
    | external =>
      obtain ⟨x, hx, rfl⟩ := runPieces_around h
      have hp : DenProp (v.name ++ (lit ": " ++ x)) (v.name, false, tupleFieldsD g (fd :: fs)) :=
        ⟨by simpa [keyed] using hn, x, rfl, tuple_inner_den H (fd :: fs) hx⟩
      have := den_obj (.cons hp .nil)
      simp only [List.append_assoc, join_singleton] at this ⊢
      exact this
    | internal t =>
      obtain ⟨x, hx, rfl⟩ := runPieces_around h
      have hp : DenProp (v.name ++ (lit ": " ++ x)) (v.name, false, tupleFieldsD g (fd :: fs)) :=
        ⟨by simpa [keyed] using hn, x, rfl, tuple_inner_den H (fd :: fs) hx⟩
      have := den_obj (.cons hp .nil)
      simp only [List.append_assoc, join_singleton] at this ⊢
      exact this
    | adjacent t c =>
      obtain ⟨x, hx, rfl⟩ := runPieces_around h
      simp only [goodTag, Bool.and_eq_true] at ht
      have hp : DenProp (c ++ (lit ": " ++ x)) (c, false, tupleFieldsD g (fd :: fs)) :=
        ⟨ht.2, x, rfl, tuple_inner_den H (fd :: fs) hx⟩
      have := den_obj (.cons (prop_literal ht.1 hq) (.cons hp .nil))
      simp only [List.append_assoc, join_cons_cons, join_singleton] at this ⊢
      exact this

theorem structVariant_den (H : AgreeT f g) {tag : Tag} {v : Variant} (ht : goodTag tag = true)
    (hn : if keyed tag .named then isIdent v.name = true else isQuotable v.name = true)
    (hf : ∀ fd ∈ v.kept, isIdent fd.name = true) {ps : List Piece}
    (hps : structVariantTypeDef tag v = .ok ps) {s : Str}
    (h : runPieces f ps = some s) : Den s (structVariantD g tag v) := by
  unfold structVariantTypeDef at hps
  unfold structVariantD
  simp only
  have hq : isQuotable v.name = true := by
    split at hn
    · exact isIdent_quotable hn
    · exact hn
  have hent : ∀ ss, RunAll f (v.kept.map (variantFieldTypeDef .named)) ss →
      All2 DenProp ss (v.kept.map (vfieldP g)) := fun ss hss =>
    runAll_all2 (R := DenProp) (z := vfieldP g) _ (fun fd hfd s hs => vfield_prop H (hf fd hfd) hs) hss
  cases hk : v.kept with
  | nil => rw [hk] at hps; cases hps
  | cons fd fs =>
    rw [hk] at hps hent
    simp only at hps
    injection hps with hps
    cases tag with
    | untagged =>
      subst hps
      obtain ⟨x, hx, rfl⟩ := runPieces_around h
      obtain ⟨ss, hss, rfl⟩ := runPieces_join.1 hx
      exact den_obj (hent ss hss)
    | external =>
      subst hps
      obtain ⟨x, hx, rfl⟩ := runPieces_around h
      obtain ⟨ss, hss, rfl⟩ := runPieces_join.1 hx
      have hp : DenProp (v.name ++ (lit ": " ++ _)) (v.name, false, _) :=
        ⟨by simpa [keyed] using hn, _, rfl, den_obj (hent ss hss)⟩
      have := den_obj (.cons hp .nil)
      simp only [List.append_assoc, join_singleton] at this ⊢
      exact this
    | internal t =>
      subst hps
      obtain ⟨x, hx, rfl⟩ := runPieces_around h
      obtain ⟨ss, hss, rfl⟩ := runPieces_join.1 hx
      have hent' := hent ss hss
      have := den_obj (.cons (prop_literal ht hq) hent')
      cases hent' with
      | cons h1 h2 =>
        rw [join_cons_cons] at this
        simp only [List.append_assoc] at this ⊢
        exact this
    | adjacent t c =>
      subst hps
      obtain ⟨x, hx, rfl⟩ := runPieces_around h
      obtain ⟨ss, hss, rfl⟩ := runPieces_join.1 hx
      simp only [goodTag, Bool.and_eq_true] at ht
      have hp : DenProp (c ++ (lit ": " ++ _)) (c, false, _) := ⟨ht.2, _, rfl, den_obj (hent ss hss)⟩
      have := den_obj (.cons (prop_literal ht.1 hq) (.cons hp .nil))
      simp only [List.append_assoc, join_cons_cons, join_singleton] at this ⊢
      exact this

theorem variant_den (H : AgreeT f g) {tag : Tag} {v : Variant} (ht : goodTag tag = true)
    (hv : goodVariant tag v = true) {ps : List Piece} (hps : variantTypeDef tag v = .ok ps) {s : Str}
    (h : runPieces f ps = some s) : Den s (variantD g tag v) := by
  unfold variantTypeDef at hps
  unfold variantD
  unfold goodVariant at hv
  rw [Bool.and_eq_true] at hv
  obtain ⟨hn, hf⟩ := hv
  cases hst : v.style with
  | unit =>
    rw [hst] at hps hn
    injection hps with hps
    subst hps
    refine unit_den ht ?_ h
    cases tag <;> simpa [keyed] using hn
  | tuple =>
    rw [hst] at hps hn
    injection hps with hps
    subst hps
    refine tupleVariant_den H ht ?_ h
    revert hn
    split <;> exact id
  | named =>
    rw [hst] at hps hn hf
    refine structVariant_den H ht ?_ ?_ hps h
    · revert hn
      split <;> exact id
    · intro fd hfd
      obtain ⟨h1, h2⟩ := kept_mem hfd
      simp only [bne_self_eq_false, Bool.false_or] at hf
      have := List.all_eq_true.1 hf fd h1
      simpa [h2] using this

theorem den_alternatives {ss : List Str} {ds : List Dnf} (h : All2 Den ss ds) (hne : ss ≠ []) :
    Den (join (lit " | ") ss) ds.flatten := by
  induction h with
  | nil => exact absurd rfl hne
  | @cons s d ss ds h1 h2 ih =>
    cases h2 with
    | nil => simpa using h1
    | cons h2 h3 =>
      rw [join_cons_cons, List.flatten_cons, List.append_assoc]
      exact h1.or (ih (by simp))

theorem enum_den (H : AgreeT f g) {e : EnumDecl} (hg : goodDecl (.enum e) = true)
    {ps : List Piece} (hps : enumTypeDef e = .ok ps) {t : Str}
    (h : runPieces f ps = some t) : Den t (enumD g e) := by
  unfold enumTypeDef at hps
  unfold enumD
  unfold goodDecl at hg
  simp only [Bool.and_eq_true] at hg
  have hv : ∀ v ∈ e.kept, goodVariant e.tag v = true := by
    intro v hv
    have hm := List.mem_filter.1 hv
    have := List.all_eq_true.1 hg.2 v hm.1
    have h2 : v.skipDe = false := by simpa using hm.2
    simpa [h2] using this
  have ht : goodTag e.tag = true := hg.1.2
  match hk : e.kept, hps with
  | [v], hps =>
    have := variant_den H ht (hv v (by rw [hk]; exact List.mem_cons_self)) hps h
    simpa using this
  | a :: b :: r, hps =>
    simp only at hps ⊢
    cases ha : allOk ((a :: b :: r).map (variantTypeDef e.tag)) with
    | error err => rw [ha] at hps; cases hps
    | ok defs =>
      rw [ha] at hps
      simp only at hps
      injection hps with hps
      subst hps
      obtain ⟨ss, hss, rfl⟩ := runPieces_join.1 h
      have hall := runAll_all2' (R := Den) (z := variantD g e.tag) (allOk_mem ha) (fun v hvm ps s hp hs =>
          variant_den H ht (hv v (by rw [hk]; exact hvm)) hp hs) hss
      refine den_alternatives hall ?_
      intro hn
      rw [hn] at hall
      cases hall

/-! ## All types -/

theorem ref_den {ns name : Str} (h1 : goodNs ns = true) (h1' : typeOperators.contains ns = false)
    (h2 : isIdent name = true) {s : Str} (h : runPieces f (tsRef ns name) = some s) : Den s [[.name [ns, name]]] := by
  simp only [tsRef, runPieces_txt_some] at h
  subst h
  simp only [goodNs, Bool.and_eq_true] at h1
  rw [List.append_assoc]
  refine Den.ref h1.1.1 ?_ h2
  have h3 : reserved.contains ns = false := by simpa using h1.1.2
  simp only [startsType, h3, h1', Bool.or_self, Bool.not_false, Bool.or_true]

theorem tBody_named (P : Program) (m : Method) (i : Nat) {d : Decl} (h : P[i]? = some d) :
    tBody g P m (.named i) = match m with
      | .typeDef => declD g d
      | .inline => declInlineD g d
      | _ => [] := by
  rw [tBody]
  simp only [h]
  cases m <;> rfl

theorem prim_den (p : Prim) : Den p.typeDef [[.name [p.typeDef]]] := by
  cases p <;> exact Den.word rfl rfl

theorem array_op (k : List TFrame) (c : TCur) (o : Ops) (hc : TStarts c o) :
    TTrans (lit "Array<") (k, c) (.app o [lit "Array"] [] :: k, .need .none) :=
  TTrans.const rfl (by rcases hc with rfl | ⟨rfl, rfl⟩ <;> rfl)

theorem set_op (k : List TFrame) (c : TCur) (o : Ops) (hc : TStarts c o) :
    TTrans (lit "Set<") (k, c) (.app o [lit "Set"] [] :: k, .need .none) :=
  TTrans.const rfl (by rcases hc with rfl | ⟨rfl, rfl⟩ <;> rfl)

theorem map_op (k : List TFrame) (c : TCur) (o : Ops) (hc : TStarts c o) :
    TTrans (lit "Map<") (k, c) (.app o [lit "Map"] [] :: k, .need .none) :=
  TTrans.const rfl (by rcases hc with rfl | ⟨rfl, rfl⟩ <;> rfl)

theorem body_agreeT {P : Program} (hg : GoodNames P) (hgt : GoodTypeNames P) (hw : WellStyled P) (H : AgreeT f g)
    {m : Method} {t : Ty} (hm : isT m) {ps : List Piece} (hb : body P m t = some ps) {s : Str}
    (h : runPieces f ps = some s) : Den s (tBody g P m t) := by
  cases t with
  | named i =>
    obtain ⟨d, impl, hd, hi, rfl⟩ := body_named hb
    rw [tBody_named P m i hd]
    have hgd := hg d (List.mem_of_getElem? hd)
    have hgt := hgt d (List.mem_of_getElem? hd)
    have hwd := hw d (List.mem_of_getElem? hd)
    cases d with
    | struct sd =>
      obtain ⟨docs, sch, td, _, _, _, hs, e⟩ := deriveStruct_ok hi
      have hns : goodNs sd.ns = true ∧ isIdent sd.name = true := by
        unfold goodDecl at hgd
        simp only [Bool.and_eq_true] at hgd
        exact hgd.1
      rcases hm with rfl | rfl
      · simp only [declD]
        cases hf : sd.from_.ty? with
        | some u =>
          rw [hf] at e; subst e
          simp only [Impl.get, runPieces_call_some] at h
          exact H _ _ _ (Or.inr rfl) h
        | none =>
          rw [hf] at e; subst e
          exact struct_den H hgd hwd hs h
      · simp only [declInlineD]
        cases hf : sd.from_.ty? with
        | some u =>
          rw [hf] at e; subst e
          simp only [Impl.get, runPieces_call_some] at h
          exact H _ _ _ (Or.inr rfl) h
        | none => rw [hf] at e; subst e; exact ref_den hns.1 hgt hns.2 h
    | enum ed =>
      obtain ⟨docs, sch, td, _, _, hs, e⟩ := deriveEnum_ok hi
      have hns : goodNs ed.ns = true ∧ isIdent ed.name = true := by
        unfold goodDecl at hgd
        simp only [Bool.and_eq_true] at hgd
        exact hgd.1.1
      rcases hm with rfl | rfl
      · simp only [declD]
        cases hf : ed.from_.ty? with
        | some u =>
          rw [hf] at e; subst e
          simp only [Impl.get, runPieces_call_some] at h
          exact H _ _ _ (Or.inl rfl) h
        | none =>
          rw [hf] at e; subst e
          exact enum_den H hgd hs h
      · simp only [declInlineD]
        cases hf : ed.from_.ty? with
        | some u =>
          rw [hf] at e; subst e
          simp only [Impl.get, runPieces_call_some] at h
          exact H _ _ _ (Or.inr rfl) h
        | none => rw [hf] at e; subst e; exact ref_den hns.1 hgt hns.2 h
  | prim p =>
    rcases hm with rfl | rfl
    · injection hb with hb; subst hb
      simp only [runPieces_txt_some] at h
      subst h
      exact prim_den p
    · injection hb with hb; subst hb
      exact H _ _ _ (Or.inl rfl) (runPieces_call_some.1 h)
  | wrap w u =>
    rcases hm with rfl | rfl <;>
    · injection hb with hb; subst hb
      exact H _ _ _ (Or.inl rfl) (runPieces_call_some.1 h)
  | option u =>
    rcases hm with rfl | rfl
    · injection hb with hb; subst hb
      obtain ⟨x, hx, rfl⟩ := runPieces_around (ps := [.call .typeDef u]) h
      have := (den_optional (H _ _ _ (Or.inl rfl) (runPieces_call_some.1 hx))).paren
      simp only [List.append_assoc] at this
      exact this
    · injection hb with hb; subst hb
      exact H _ _ _ (Or.inl rfl) (runPieces_call_some.1 h)
  | vec u =>
    rcases hm with rfl | rfl
    · injection hb with hb; subst hb
      obtain ⟨x, hx, rfl⟩ := runPieces_around (ps := [.call .typeDef u]) h
      exact Den.app array_op (.cons (H _ _ _ (Or.inl rfl) (runPieces_call_some.1 hx)) .nil) (by simp)
    · injection hb with hb; subst hb
      exact H _ _ _ (Or.inl rfl) (runPieces_call_some.1 h)
  | hashSet u =>
    rcases hm with rfl | rfl
    · injection hb with hb; subst hb
      obtain ⟨x, hx, rfl⟩ := runPieces_around (ps := [.call .typeDef u]) h
      exact Den.app set_op (.cons (H _ _ _ (Or.inl rfl) (runPieces_call_some.1 hx)) .nil) (by simp)
    · injection hb with hb; subst hb
      exact H _ _ _ (Or.inl rfl) (runPieces_call_some.1 h)
  | hashMap k v =>
    rcases hm with rfl | rfl
    · injection hb with hb; subst hb
      obtain ⟨x, hx, rfl⟩ := runPieces_around
        (ps := [.call .typeDef k, .txt (lit ", "), .call .typeDef v]) h
      rw [runPieces_call_cons] at hx
      obtain ⟨a, y, ha, hy, rfl⟩ := hx
      rw [runPieces_txt_cons] at hy
      obtain ⟨b, hb, rfl⟩ := hy
      have := Den.app map_op (.cons (H _ _ _ (Or.inl rfl) ha)
        (.cons (H _ _ _ (Or.inl rfl) (runPieces_call_some.1 hb)) .nil)) (by simp)
      simp only [join_cons_cons, join_singleton, List.append_assoc] at this ⊢
      exact this
    · injection hb with hb; subst hb
      exact H _ _ _ (Or.inl rfl) (runPieces_call_some.1 h)
  | array n u =>
    rcases hm with rfl | rfl <;>
    · injection hb with hb; subst hb
      exact H _ _ _ (Or.inl rfl) (runPieces_call_some.1 h)
  | btreeSet u =>
    rcases hm with rfl | rfl <;>
    · injection hb with hb; subst hb
      exact H _ _ _ (Or.inl rfl) (runPieces_call_some.1 h)
  | btreeMap k v =>
    rcases hm with rfl | rfl <;>
    · injection hb with hb; subst hb
      exact H _ _ _ (Or.inl rfl) (runPieces_call_some.1 h)
  | tuple ts =>
    rcases hm with rfl | rfl
    · injection hb with hb; subst hb
      obtain ⟨x, hx, rfl⟩ := runPieces_around h
      obtain ⟨ss, hss, rfl⟩ := runPieces_join.1 hx
      exact Den.tuple (runAll_all2 (p := fun t => [.call .typeDef t]) (z := g .typeDef) _
        (fun t _ s hs => H _ _ _ (Or.inl rfl) (runPieces_call_some.1 hs)) hss)
    · injection hb with hb; subst hb
      exact H _ _ _ (Or.inl rfl) (runPieces_call_some.1 h)
  | result u e =>
    rcases hm with rfl | rfl
    · injection hb with hb; subst hb
      rw [runPieces_txt_cons] at h
      obtain ⟨y, hy, rfl⟩ := h
      rw [runPieces_call_cons] at hy
      obtain ⟨a, y, ha, hy, rfl⟩ := hy
      rw [runPieces_txt_cons] at hy
      obtain ⟨y, hy, rfl⟩ := hy
      rw [runPieces_call_cons] at hy
      obtain ⟨b, y, hb, hy, rfl⟩ := hy
      rw [runPieces_txt_some] at hy
      subst hy
      have p1 : DenProp (lit "Ok" ++ (lit ": " ++ a)) (lit "Ok", false, g .typeDef u) :=
        ⟨rfl, a, rfl, H _ _ _ (Or.inl rfl) ha⟩
      have p2 : DenProp (lit "Err" ++ (lit ": " ++ b)) (lit "Err", false, g .typeDef e) :=
        ⟨rfl, b, rfl, H _ _ _ (Or.inl rfl) hb⟩
      have := (den_obj (.cons p1 .nil)).or (den_obj (.cons p2 .nil))
      simp only [join_singleton, List.append_assoc] at this
      exact this
    · injection hb with hb; subst hb
      exact H _ _ _ (Or.inl rfl) (runPieces_call_some.1 h)

/-- The texts of `type_def()` and `inline()` are read as the types `dOf` gives. -/
theorem eval_agreeT {P : Program} (hg : GoodNames P) (hgt : GoodTypeNames P) (hw : WellStyled P) (n : Nat) :
    AgreeT (eval P n) (dOf P n) := by
  induction n with
  | zero => intro m t s _ h; cases h
  | succ n ih =>
    intro m t s hm h
    obtain ⟨ps, hb, hr⟩ := eval_succ.1 h
    rw [dOf]
    exact body_agreeT hg hgt hw ih hm hb hr

end Verif.Ts
