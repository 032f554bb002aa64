import Verif.Ts.Bridge
import Verif.Zod.Bridge
import Verif.Spec.Decls
import Verif.Ts.Module
import Verif.Codegen.Members
import Verif.Schema.Steps

/-!
# Reading the declarations of registered types (proof helper)
-/

namespace Verif.Ts
open Verif Verif.Js Verif.Schema Verif.SchemaSpec Verif.Spec Verif.Zod

/-! ## No empty operand lists -/

/-- No intersection is empty. -/
def OpsOk (o : Ops) : Prop := ∀ c ∈ o.alts, c ≠ []
/-- Neither the union nor an intersection is empty. -/
def DnfOk (d : Dnf) : Prop := d ≠ [] ∧ ∀ c ∈ d, c ≠ []

/-- `OpsOk` and `DnfOk` for what precedes a bracket. -/
def FrameOk : TFrame → Prop
  | .paren o => OpsOk o
  | .tuple o _ => OpsOk o
  | .app o _ _ => OpsOk o
  | .objKey o _ => OpsOk o
  | .objVal o _ _ _ => OpsOk o

/-- `OpsOk` and `DnfOk` for what has been read last. -/
def CurOk : TCur → Prop
  | .need o => OpsOk o
  | .named o _ => OpsOk o
  | .dot o _ => OpsOk o
  | .have_ d => DnfOk d
  | _ => True

/-- `OpsOk` and `DnfOk` for all that has been read. -/
def StateOk (s : TState) : Prop := (∀ f ∈ s.1, FrameOk f) ∧ CurOk s.2

theorem opsOk_none : OpsOk .none := by intro c h; cases h

theorem add_ok {o : Ops} (h : OpsOk o) (t : TsType) : DnfOk (o.add t) := by
  refine ⟨by simp [Ops.add], fun c hc => ?_⟩
  simp only [Ops.add, List.mem_append, List.mem_singleton] at hc
  rcases hc with hc | rfl
  · exact h c hc
  · simp

theorem needT_ok {k : List TFrame} {o : Ops} {t : Tok} {s : TState} (hk : ∀ f ∈ k, FrameOk f) (ho : OpsOk o)
    (h : needT k o t = some s) : StateOk s := by
  have push : ∀ f, FrameOk f → ∀ g ∈ f :: k, FrameOk g := by
    intro f hf g hg
    rcases List.mem_cons.1 hg with rfl | hg
    · exact hf
    · exact hk g hg
  unfold needT at h
  split at h
  · split at h
    · injection h with h; subst h; exact ⟨hk, ho⟩
    · cases h
  · injection h with h; subst h; exact ⟨hk, add_ok ho _⟩
  · injection h with h; subst h; exact ⟨push _ ho, opsOk_none⟩
  · injection h with h; subst h; exact ⟨push _ ho, trivial⟩
  · injection h with h; subst h; exact ⟨push _ ho, trivial⟩
  · cases h

theorem haveT_ok {k : List TFrame} {d : Dnf} {t : Tok} {s : TState} (hk : ∀ f ∈ k, FrameOk f) (hd : DnfOk d)
    (h : haveT k d t = some s) : StateOk s := by
  have repl : ∀ {f : TFrame} {r : List TFrame}, k = f :: r → FrameOk f ∧ ∀ g ∈ r, FrameOk g := by
    intro f r e; subst e
    exact ⟨hk f List.mem_cons_self, fun g hg => hk g (List.mem_cons_of_mem _ hg)⟩
  have push : ∀ {f : TFrame} {r : List TFrame}, FrameOk f → (∀ g ∈ r, FrameOk g) → ∀ g ∈ f :: r, FrameOk g := by
    intro f r hf hr g hg
    rcases List.mem_cons.1 hg with rfl | hg
    · exact hf
    · exact hr g hg
  unfold haveT at h
  split at h
  · injection h with h; subst h; exact ⟨hk, fun c hc => hd.2 c hc⟩
  · injection h with h; subst h; exact ⟨hk, fun c hc => hd.2 c (List.dropLast_subset _ hc)⟩
  · split at h
    · injection h with h; subst h; obtain ⟨a, b⟩ := repl rfl; exact ⟨push a b, opsOk_none⟩
    · injection h with h; subst h; obtain ⟨a, b⟩ := repl rfl; exact ⟨push a b, opsOk_none⟩
    · injection h with h; subst h; obtain ⟨a, b⟩ := repl rfl; exact ⟨push a b, trivial⟩
    · cases h
  · split at h
    · injection h with h; subst h; obtain ⟨a, b⟩ := repl rfl; exact ⟨b, add_ok a _⟩
    · cases h
  · split at h
    · injection h with h; subst h; obtain ⟨a, b⟩ := repl rfl; exact ⟨b, add_ok a _⟩
    · cases h
  · split at h
    · injection h with h; subst h; obtain ⟨a, b⟩ := repl rfl; exact ⟨b, add_ok a _⟩
    · cases h
  · split at h
    · injection h with h; subst h; obtain ⟨a, b⟩ := repl rfl; exact ⟨b, add_ok a _⟩
    · cases h
  · cases h

theorem tStep_ok {A B : TState} {t : Tok} (hA : StateOk A) (h : tStep A t = some B) : StateOk B := by
  obtain ⟨k, c⟩ := A
  obtain ⟨hk, hc⟩ := hA
  simp only at hk hc
  have repl : ∀ {f : TFrame} {r : List TFrame}, k = f :: r → FrameOk f ∧ ∀ g ∈ r, FrameOk g := by
    intro f r e; subst e
    exact ⟨hk f List.mem_cons_self, fun g hg => hk g (List.mem_cons_of_mem _ hg)⟩
  have push : ∀ {f : TFrame} {r : List TFrame}, FrameOk f → (∀ g ∈ r, FrameOk g) → ∀ g ∈ f :: r, FrameOk g := by
    intro f r hf hr g hg
    rcases List.mem_cons.1 hg with rfl | hg
    · exact hf
    · exact hr g hg
  cases c with
  | need o => exact needT_ok hk hc h
  | needOrClose =>
    simp only [tStep] at h
    split at h
    · split at h
      · injection h with h; subst h; obtain ⟨a, b⟩ := repl rfl; exact ⟨b, add_ok a _⟩
      · cases h
    · exact needT_ok hk opsOk_none h
  | named o p =>
    simp only [tStep] at h
    split at h
    · injection h with h; subst h; exact ⟨hk, hc⟩
    · injection h with h; subst h; exact ⟨push hc hk, opsOk_none⟩
    · exact haveT_ok hk (add_ok hc _) h
  | dot o p =>
    simp only [tStep] at h
    split at h
    · injection h with h; subst h; exact ⟨hk, hc⟩
    · cases h
  | have_ d => exact haveT_ok hk hc h
  | key =>
    simp only [tStep] at h
    split at h
    · injection h with h; subst h; exact ⟨hk, trivial⟩
    · cases h
  | keyOrClose =>
    simp only [tStep] at h
    split at h
    · injection h with h; subst h; exact ⟨hk, trivial⟩
    · split at h
      · injection h with h; subst h; obtain ⟨a, b⟩ := repl rfl; exact ⟨b, add_ok a _⟩
      · cases h
    · cases h
  | afterKey w =>
    simp only [tStep] at h
    split at h
    · injection h with h; subst h; exact ⟨hk, trivial⟩
    · split at h
      · injection h with h; subst h; obtain ⟨a, b⟩ := repl rfl; exact ⟨push a b, opsOk_none⟩
      · cases h
    · cases h
  | colon w =>
    simp only [tStep] at h
    split at h
    · split at h
      · injection h with h; subst h; obtain ⟨a, b⟩ := repl rfl; exact ⟨push a b, opsOk_none⟩
      · cases h
    · cases h

theorem tRun_ok {A B : TState} {ts : List Tok} (hA : StateOk A) (h : tRun A ts = some B) : StateOk B := by
  induction ts generalizing A with
  | nil => injection h with h; subst h; exact hA
  | cons t r ih =>
    rw [tRun] at h
    cases hs : tStep A t with
    | none => rw [hs] at h; cases h
    | some A' => rw [hs] at h; exact ih (tStep_ok hA hs) h

theorem Den.ok {s : Str} {d : Dnf} (h : Den s d) : DnfOk d := by
  obtain ⟨hne, ts, _, h⟩ := h
  obtain ⟨c', h, he⟩ := h [] (.need .none) .none (Or.inl rfl)
  rw [cont_none hne] at he
  have := (tRun_ok (A := ([], .need .none)) ⟨fun f hf => (by cases hf), opsOk_none⟩ h).2
  rcases he with rfl | ⟨o, p, rfl, he⟩
  · exact this
  · rw [← he]
    exact add_ok this _

theorem andDnf_cons {d : Dnf} (hd : d ≠ []) (c : List TsType) (r : Dnf) :
    andDnf d (c :: r) = d.dropLast ++ [(d.getLast?).getD [] ++ c] ++ r := by
  cases d with
  | nil => exact absurd rfl hd
  | cons => rfl

/-- An intersection is not an object type. -/
theorem ofDnf_and_ne {d e : Dnf} (hd : DnfOk d) (he : DnfOk e) (ps : List (Str × Bool × TsType)) :
    ofDnf (andDnf d e) ≠ .obj ps := by
  obtain ⟨he, hec⟩ := he
  obtain ⟨hd, hdc⟩ := hd
  cases e with
  | nil => exact absurd rfl he
  | cons c r =>
    have hc := hec c List.mem_cons_self
    obtain ⟨l, x, rfl⟩ := List.eq_nil_or_concat d |>.resolve_left hd
    have hx : x ≠ [] := hdc x (by simp)
    have e : andDnf (l.concat x) (c :: r) = l ++ ((x ++ c) :: r) := by
      rw [andDnf_cons hd]
      simp [List.concat_eq_append, List.getLast?_append]
    rw [e]
    cases c with
    | nil => exact absurd rfl hc
    | cons c0 c1 =>
      cases x with
      | nil => exact absurd rfl hx
      | cons x0 x1 =>
        cases l with
        | nil =>
          cases r with
          | nil => cases x1 <;> simp [ofDnf, ofConj]
          | cons => simp [ofDnf]
        | cons l0 l1 => cases l1 <;> simp [ofDnf]

theorem andDnf_ok {d e : Dnf} (hd : DnfOk d) (he : DnfOk e) : DnfOk (andDnf d e) := by
  obtain ⟨hen, hec⟩ := he
  cases e with
  | nil => exact absurd rfl hen
  | cons c r =>
    rw [andDnf_cons hd.1]
    refine ⟨by simp, fun x hx => ?_⟩
    simp only [List.mem_append, List.mem_singleton] at hx
    rcases hx with (hx | rfl) | hx
    · exact hd.2 x (List.dropLast_subset _ hx)
    · simp [hec c List.mem_cons_self]
    · exact hec x (List.mem_cons_of_mem _ hx)

theorem foldl_and_ok {d : Dnf} (hd : DnfOk d) (l : List Dnf) (hl : ∀ e ∈ l, DnfOk e) : DnfOk (l.foldl andDnf d) := by
  induction l generalizing d with
  | nil => exact hd
  | cons e r ih =>
    exact ih (andDnf_ok hd (hl e List.mem_cons_self)) (fun x hx => hl x (List.mem_cons_of_mem _ hx))

theorem foldl_and_ne {d : Dnf} (hd : DnfOk d) (l : List Dnf) (hne : l ≠ []) (hl : ∀ e ∈ l, DnfOk e)
    (ps : List (Str × Bool × TsType)) : ofDnf (l.foldl andDnf d) ≠ .obj ps := by
  obtain ⟨l, x, rfl⟩ := List.eq_nil_or_concat l |>.resolve_left hne
  rw [List.concat_eq_append, List.foldl_append]
  exact ofDnf_and_ne (foldl_and_ok hd l (fun e he => hl e (by simp [he]))) (hl x (by simp)) ps

/-! ## Structs -/

variable {f : Method → Ty → Option Str} {g : Method → Ty → Dnf}

/-- The type text of a struct with named fields and nothing flattened is an object type in braces. -/
theorem struct_object {s : StructDecl} (hst : s.style = .named) (htr : s.transparent = false)
    (hfl : ∀ x ∈ s.fields, x.skipDe = false → x.flatten = false) {ps : List Piece} (hps : structTypeDef s = .ok ps)
    {t : Str} (h : runPieces f ps = some t) :
    (∃ r, t = lit "{" ++ r) ∧ ∃ props, ofDnf (structD g s) = .obj props := by
  have hflat : (structFields s).filter (·.flatten) = [] := by
    rw [List.filter_eq_nil_iff]
    intro fd hfd
    obtain ⟨x, hx, hsk, rfl⟩ := structFields_mem hfd
    simp [SField.ofField, hfl x hx hsk]
  unfold structTypeDef at hps
  simp only [hst, htr, hflat] at hps
  injection hps with hps
  subst hps
  constructor
  · simp only [List.append_assoc] at h
    simp only [List.singleton_append] at h
    rw [runPieces_txt_cons] at h
    obtain ⟨r, _, rfl⟩ := h
    exact ⟨r, rfl⟩
  · refine ⟨(((structFields s).filter (fun f => !f.flatten)).map (sfieldP g)).map propT, ?_⟩
    unfold structD
    simp only [hst, htr, hflat, List.map_nil, List.foldl_nil]
    rfl

/-- With a flattened field it is not an object type. -/
theorem struct_flat {s : StructDecl} (H : AgreeT f g) (hst : s.style = .named) (htr : s.transparent = false) {x : Field}
    (hx : x ∈ s.fields) (hsk : x.skipDe = false) (hfl : x.flatten = true) {ps : List Piece}
    (hps : structTypeDef s = .ok ps) {t : Str} (h : runPieces f ps = some t) (props : List (Str × Bool × TsType)) :
    ofDnf (structD g s) ≠ .obj props := by
  have hpl : Plain (.struct s) := ⟨fun h => by rcases h with h | h <;> simp_all, fun h => by simp_all⟩
  have hok : ∀ fd ∈ (structFields s).filter (·.flatten), DnfOk (flatD g fd) := by
    intro fd hfd
    obtain ⟨y, hy, hys, rfl⟩ := structFields_mem (List.mem_filter.1 hfd).1
    have hm : y.ty ∈ fieldTypes s.fields := by
      unfold fieldTypes
      exact List.mem_map.2 ⟨y, List.mem_filter.2 ⟨hy, by simp [hys]⟩, rfl⟩
    obtain ⟨u, hu⟩ := runPieces_call_mem h (structTypeDef_mem hpl hps hm)
    have hd := (H .inline y.ty u (Or.inr rfl) hu).ok
    unfold flatD
    split
    · exact ⟨by simp, by simp⟩
    · exact hd
  have hne : (structFields s).filter (·.flatten) ≠ [] := by
    intro e
    have : SField.ofField s.transparent x ∈ (structFields s).filter (·.flatten) := by
      refine List.mem_filter.2 ⟨List.mem_map.2 ⟨x, List.mem_filter.2 ⟨hx, by simp [hsk]⟩, rfl⟩, ?_⟩
      simp [SField.ofField, hfl]
    rw [e] at this
    cases this
  unfold structD
  simp only [hst, htr]
  generalize ((structFields s).filter (fun f => !f.flatten)).map (sfieldP g) = props0
  generalize (structFields s).filter (·.flatten) = flat at hok hne
  have hall : ∀ e ∈ flat.map (flatD g), DnfOk e := by
    intro e he
    obtain ⟨fd, hfd, rfl⟩ := List.mem_map.1 he
    exact hok fd hfd
  have hne' : flat.map (flatD g) ≠ [] := by simpa using hne
  exact foldl_and_ne (by exact ⟨by simp, by simp⟩) _ hne' hall props

/-! ## Which declarations are broken -/

theorem broken_struct {P : Program} {i : Nat} {s : StructDecl} (hd : P[i]? = some (.struct s))
    (h : BrokenInterface P (.named i)) : s.from_.ty? = none ∧ s.transparent = false ∧
      ((s.style = .tuple ∧ (s.fields.filter (fun f => !f.skipDe)).length ≠ 1) ∨
        (s.style = .named ∧ ∃ f ∈ s.fields, f.skipDe = false ∧ f.flatten = true)) := by
  cases h with
  | tuple _ s' h1 h2 h3 h4 h5 =>
    rw [hd] at h1; injection h1 with h1; injection h1 with h1; subst h1
    exact ⟨h2, h3, Or.inl ⟨h4, h5⟩⟩
  | flatten _ s' f h1 h2 h3 h4 h5 h6 h7 =>
    rw [hd] at h1; injection h1 with h1; injection h1 with h1; subst h1
    exact ⟨h2, h3, Or.inr ⟨h4, f, h5, h6, h7⟩⟩
  | enumFrom _ e t h1 => rw [hd] at h1; injection h1 with h1; cases h1

theorem broken_enum {P : Program} {i : Nat} {e : EnumDecl} (hd : P[i]? = some (.enum e))
    (h : BrokenInterface P (.named i)) : ∃ t, e.from_.ty? = some t ∧ BrokenInterface P t := by
  cases h with
  | tuple _ s' h1 => rw [hd] at h1; injection h1 with h1; cases h1
  | flatten _ s' f h1 => rw [hd] at h1; injection h1 with h1; cases h1
  | enumFrom _ e' t h1 h2 h3 =>
    rw [hd] at h1; injection h1 with h1; injection h1 with h1; subst h1
    exact ⟨t, h2, h3⟩

/-- How the text of a type relates to the keyword it is declared with. -/
def KindText (P : Program) (t : Ty) (k : Kind) (s : Str) : Prop :=
  (k ≠ .interface ∧ ¬ BrokenInterface P t) ∨
  (k = .interface ∧ ¬ BrokenInterface P t ∧ (∃ r, s = lit "{" ++ r) ∧ ∃ props, readType s = some (.obj props)) ∨
  (k = .interface ∧ BrokenInterface P t ∧ ∀ props, readType s ≠ some (.obj props))

theorem kindText_map {P : Program} {t u : Ty} {k : Kind} {s : Str} (h : KindText P t k s)
    (hi : BrokenInterface P u ↔ BrokenInterface P t) : KindText P u k s := by
  unfold KindText at h ⊢
  rw [hi]
  exact h

theorem kind_text {P : Program} (hg : GoodNames P) (hgt : GoodTypeNames P) (hw : WellStyled P)
    (hpl : ∀ d ∈ P, Plain d) (n : Nat) (t : Ty) (k : Kind) (hk : kindOf P n t = some k) (m : Nat) (s : Str)
    (hs : eval P m .typeDef t = some s) : KindText P t k s := by
  induction n generalizing t k m s with
  | zero => cases hk
  | succ n ih =>
    cases m with
    | zero => cases hs
    | succ m =>
      have hread := (eval_agreeT hg hgt hw (m + 1) .typeDef t s (Or.inl rfl) hs).read
      obtain ⟨ps, hb, hr⟩ := eval_succ.1 hs
      cases t with
      | named i =>
        obtain ⟨d, impl, hd, hi, rfl⟩ := body_named hb
        have hmem := List.mem_of_getElem? hd
        simp only [kindOf, hd, Option.map_some, hi] at hk
        cases d with
        | struct sd =>
          obtain ⟨docs, sch, td, _, hun, _, htd, e⟩ := deriveStruct_ok hi
          cases hf : sd.from_.ty? with
          | some u =>
            rw [hf] at e
            subst e
            simp only at hk
            injection hk with hk
            subst hk
            refine Or.inl ⟨by simp, fun hB => ?_⟩
            rw [(broken_struct hd hB).1] at hf
            cases hf
          | none =>
            rw [hf] at e
            subst e
            have hD : dOf P (m + 1) .typeDef (.named i) = structD (dOf P m) sd := by
              simp only [dOf, tBody, hd, declD, hf]
            rw [hD] at hread
            have hagree : AgreeT (eval P m) (dOf P m) := eval_agreeT hg hgt hw m
            have hkeep : (structFields sd).length = (sd.fields.filter (fun f => !f.skipDe)).length := by
              simp [structFields]
            cases htr : sd.transparent with
            | true =>
              have : structKind sd = .type := by
                unfold structKind
                split <;> simp_all
              simp only [this] at hk
              injection hk with hk
              subst hk
              refine Or.inl ⟨by simp, fun hB => ?_⟩
              have := (broken_struct hd hB).2.1
              rw [htr] at this
              cases this
            | false =>
              cases hst : sd.style with
              | unit => exact absurd hst hun
              | tuple =>
                by_cases hlen : (sd.fields.filter (fun f => !f.skipDe)).length = 1
                · have : structKind sd = .type := by
                    unfold structKind
                    rw [hst, hkeep]
                    simp [hlen]
                  simp only [this] at hk
                  injection hk with hk
                  subst hk
                  refine Or.inl ⟨by simp, fun hB => ?_⟩
                  rcases (broken_struct hd hB).2.2 with h | h
                  · exact h.2 hlen
                  · rw [hst] at h; cases h.1
                · have : structKind sd = .interface := by
                    unfold structKind
                    rw [hst, hkeep, htr]
                    simp [hlen]
                  simp only [this] at hk
                  injection hk with hk
                  subst hk
                  refine Or.inr (Or.inr ⟨rfl, .tuple i sd hd hf htr hst hlen, fun props hp => ?_⟩)
                  rw [hread] at hp
                  injection hp with hp
                  have hfl : (structFields sd).filter (fun f => !f.flatten) = structFields sd := by
                    rw [List.filter_eq_self]
                    intro fd hfd
                    obtain ⟨y, hy, hys, rfl⟩ := structFields_mem hfd
                    simp [SField.ofField, (hpl _ hmem).1 (Or.inr hst) y hy hys]
                  unfold structD at hp
                  simp only [hst, htr, hfl] at hp
                  unfold structTypeDef at htd
                  simp only [hst, htr, hfl] at htd
                  rw [← hkeep] at hlen
                  generalize structFields sd = l at hp hlen htd
                  rcases l with _ | ⟨a, _ | ⟨b, r⟩⟩
                  · cases htd
                  · exact hlen rfl
                  · cases hp
              | named =>
                have hkind : structKind sd = .interface := by
                  unfold structKind
                  rw [hst, htr]
                simp only [hkind] at hk
                injection hk with hk
                subst hk
                by_cases hfl : ∃ f ∈ sd.fields, f.skipDe = false ∧ f.flatten = true
                · obtain ⟨x, hx, hsk, hfx⟩ := hfl
                  refine Or.inr (Or.inr ⟨rfl, .flatten i sd x hd hf htr hst hx hsk hfx, fun props hp => ?_⟩)
                  rw [hread] at hp
                  injection hp with hp
                  exact struct_flat hagree hst htr hx hsk hfx htd hr props hp
                · have hno : ∀ x ∈ sd.fields, x.skipDe = false → x.flatten = false := by
                    intro x hx hsk
                    cases hfx : x.flatten with
                    | false => rfl
                    | true => exact absurd ⟨x, hx, hsk, hfx⟩ hfl
                  obtain ⟨h1, props, h2⟩ := struct_object (g := dOf P m) hst htr hno htd hr
                  refine Or.inr (Or.inl ⟨rfl, fun hB => ?_, h1, props, by rw [hread, h2]⟩)
                  rcases (broken_struct hd hB).2.2 with h | h
                  · rw [hst] at h; cases h.1
                  · exact hfl h.2
        | enum ed =>
          obtain ⟨docs, sch, td, _, _, htd, e⟩ := deriveEnum_ok hi
          cases hf : ed.from_.ty? with
          | some u =>
            rw [hf] at e
            subst e
            simp only at hk
            simp only [Impl.get] at hr
            refine kindText_map (ih u k hk m s (runPieces_call_some.1 hr)) ⟨fun hB => ?_, fun hB => ?_⟩
            · obtain ⟨t, ht, hB⟩ := broken_enum hd hB
              rw [hf] at ht
              injection ht with ht
              subst ht
              exact hB
            · exact .enumFrom i ed u hd hf hB
          | none =>
            rw [hf] at e
            subst e
            simp only at hk
            injection hk with hk
            subst hk
            refine Or.inl ⟨by simp, fun hB => ?_⟩
            obtain ⟨t, ht, _⟩ := broken_enum hd hB
            rw [hf] at ht
            cases ht
      | wrap w u =>
        simp only [kindOf] at hk
        injection hb with hb
        subst hb
        refine kindText_map (ih u k hk m s (runPieces_call_some.1 hr)) ⟨fun hB => ?_, fun hB => .wrap w u hB⟩
        cases hB
        assumption
      | _ =>
        simp only [kindOf] at hk
        injection hk with hk
        subst hk
        exact Or.inl ⟨by simp, fun hB => by cases hB⟩

/-! ## Declarations -/

open Verif.Codegen

theorem export_lexes {kw n : Str} {ts : List Tok} (hk : Lexes (lit "export " ++ kw ++ lit " ") ts) (hn : isIdent n = true)
    {b : Str} {tb : List Tok} (hb : Lexes b tb) (hne : ∃ c r, b = c :: r ∧ isWordChar c = false) :
    Lexes ((lit "export " ++ kw ++ lit " ") ++ (n ++ b)) (ts ++ .ident n :: tb) :=
  hk.append (ident_then hn hb hne)

theorem read_const {n s : Str} (hn : isIdent n = true) (hd : declarable n = true) {e : JsExpr} (h : readExpr s = some e) :
    readDecl (lit "export const " ++ n ++ lit "= " ++ s) = some (.const n e) := by
  have hl : Lexes (lit "export const " ++ (n ++ lit "= ")) [.ident (lit "export"), .ident (lit "const"), .ident n, .p '='] :=
    Lexes.append (ta := [.ident (lit "export"), .ident (lit "const")]) (lexes_toks rfl)
      (ident_then hn (tb := [.p '=']) (lexes_toks rfl) ⟨_, _, rfl, rfl⟩)
  unfold readExpr at h
  cases hs : lex s with
  | none => rw [hs] at h; cases h
  | some ts =>
    rw [hs] at h
    simp only at h
    unfold readDecl
    rw [List.append_assoc (lit "export const "), lex_append hl, hs]
    have h1 : (lit "const" = lit "interface") = False := by simp; decide
    simp [parseDecl, hd, h, h1]

theorem read_interface {n s : Str} (hn : isIdent n = true) (hd : declarable n = true) :
    readDecl (lit "export interface " ++ n ++ lit " " ++ s) =
      (match lex s with
        | some ts => (parseInterface ts).map (.interface n)
        | none => none) := by
  have hl : Lexes (lit "export interface " ++ (n ++ lit " ")) [.ident (lit "export"), .ident (lit "interface"), .ident n] :=
    Lexes.append (ta := [.ident (lit "export"), .ident (lit "interface")]) (lexes_toks rfl)
      (ident_then hn (tb := []) (lexes_toks rfl) ⟨_, _, rfl, rfl⟩)
  unfold readDecl
  rw [List.append_assoc (lit "export interface "), lex_append hl]
  cases lex s with
  | none => rfl
  | some ts => simp [parseDecl, hd]

theorem read_alias {n s : Str} (hn : isIdent n = true) (hd : declarable n = true) {d : Dnf} (h : Den s d) :
    readDecl (lit "export type " ++ n ++ lit " = " ++ s ++ lit ";") = some (.alias n (ofDnf d)) := by
  have hl : Lexes (lit "export type " ++ (n ++ lit " = ")) [.ident (lit "export"), .ident (lit "type"), .ident n, .p '='] :=
    Lexes.append (ta := [.ident (lit "export"), .ident (lit "type")]) (lexes_toks rfl)
      (ident_then hn (tb := [.p '=']) (lexes_toks rfl) ⟨_, _, rfl, rfl⟩)
  have hread := h.read
  obtain ⟨_, ts, hts, _⟩ := h
  have hsemi : Lexes (s ++ lit ";") (ts ++ [.p ';']) := hts.append (lexes_toks rfl) ⟨_, _, rfl, rfl⟩
  unfold readType at hread
  rw [hts.lex] at hread
  simp only at hread
  unfold readDecl
  rw [List.append_assoc (lit "export type "), List.append_assoc _ s, lex_append hl, hsemi.lex]
  have h1 : (lit "type" = lit "interface") = False := by simp; decide
  have h2 : (lit "type" = lit "const") = False := by simp; decide
  simp [parseDecl, hd, hread, h1, h2]

end Verif.Ts
