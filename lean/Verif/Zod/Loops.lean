import Verif.Zod.Term
import Verif.Spec.Wrappers

/-!
# Validation that does not terminate (proof helper)
-/

namespace Verif.Zod
open Verif Verif.Js Verif.Schema Verif.Spec Verif.SchemaSpec

theorem firstRes_none {α β : Type} {f : α → Res β} {l : List α} (h : ∀ a ∈ l, ∀ r, f a ≠ some (some r)) {a : α} (ha : a ∈ l) (hf : f a = none) :
    firstRes (l.map f) = none := by
  induction l with
  | nil => cases ha
  | cons b l ih =>
    rw [List.map_cons]
    cases hb : f b with
    | none => rfl
    | some x =>
      cases x with
      | some r => exact absurd hb (h b List.mem_cons_self r)
      | none =>
        rw [firstRes]
        rcases List.mem_cons.1 ha with rfl | ha
        · rw [hf] at hb; cases hb
        · exact ih (fun a ha => h a (List.mem_cons_of_mem _ ha)) ha

/-- No schema accepts `NaN`. -/
theorem never_nan {E : ZEnv} : ∀ (n : Nat) (z : ZSchema) (r : JsVal), parse E n z (.num .nan) ≠ some (some r) := by
  intro n
  induction n with
  | zero => intro z r h; cases h
  | succ n ih =>
    intro z r h
    cases z with
    | optional z => exact ih z r h
    | lazy ns name =>
      rw [parse] at h
      cases hc : E.const ns name with
      | none => rw [hc] at h; cases h
      | some z => rw [hc] at h; exact ih z r h
    | union zs =>
      rw [parse] at h
      have : ∀ l : List ZSchema, firstRes (l.map fun z => parse E n z (.num .nan)) ≠ some (some r) := by
        intro l
        induction l with
        | nil => intro h; cases h
        | cons z l ihl =>
          intro h
          rw [List.map_cons] at h
          cases hz : parse E n z (.num .nan) with
          | none => rw [hz] at h; cases h
          | some x =>
            rw [hz] at h
            cases x with
            | some r => exact ih z r hz
            | none => exact ihl h
      exact this zs h
    | _ => cases h

theorem opt_nan {E : ZEnv} {b : Bool} {o : Option ZSchema} {z : ZSchema} (hz : optZ b o = some z) {n : Nat}
    (h : ∀ a, o = some a → ∀ n' ≤ n, parse E n' a (.num .nan) = none) : parse E n z (.num .nan) = none := by
  cases b with
  | false => exact h z hz n (Nat.le_refl n)
  | true =>
    cases o with
    | none => cases hz
    | some a =>
      cases hz
      cases n with
      | zero => rfl
      | succ n => exact h a rfl n (Nat.le_succ n)

theorem loops {P : Program} {E : ZEnv} (hE : EnvOk P E) (hpl : ∀ d ∈ P, Plain d) (hl : Loads P E) {c : Nat → Ty}
    (hc : ∀ k, SameValue P (c k) (c (k + 1))) : ∀ (n d k : Nat) (m : Method) (z : ZSchema), zOf P d m (c k) = some z →
      parse E n z (.num .nan) = none := by
  intro n
  induction n using Nat.strongRecOn with
  | ind n ihn =>
  intro d
  induction d with
  | zero => intro k m z h; cases h
  | succ d ihd =>
  intro k m z h
  have key : ∀ m z, zOf P d m (c (k + 1)) = some z → ∀ n' ≤ n, parse E n' z (.num .nan) = none := by
    intro m z hz n' hn'
    rcases Nat.lt_or_eq_of_le hn' with hlt | rfl
    · exact ihn n' hlt d (k + 1) m z hz
    · exact ihd (k + 1) m z hz
  have lazy : ∀ i d', c k = .named i → P[i]? = some d' → parse E n (.lazy d'.ns d'.name) (.num .nan) = none := by
    intro i d' e hd'
    cases n with
    | zero => rfl
    | succ n =>
      rw [parse]
      cases hz : E.const d'.ns d'.name with
      | none => exact absurd hz (hl d' (List.mem_of_getElem? hd'))
      | some z =>
        obtain ⟨n', hn'⟩ := hE i d' z hd' hz
        exact ihn n (Nat.lt_succ_self n) n' k .schema z (by rw [e]; exact hn')
  have hs := hc k
  rw [zOf] at h
  have named : ∀ i d', c k = .named i → P[i]? = some d' →
      (∀ z, declZ (zOf P d) d' = some z → parse E n z (.num .nan) = none) →
      (∀ z, declInlineZ (zOf P d) d' = some z → parse E n z (.num .nan) = none) → parse E n z (.num .nan) = none := by
    intro i d' e hd' h1 h2
    rw [e] at h
    obtain ⟨d'', hd'', ⟨_, hz⟩ | ⟨_, hz⟩⟩ := zBody_some h
    · rw [hd'] at hd''; cases hd''; exact h1 z hz
    · rw [hd'] at hd''; cases hd''; exact h2 z hz
  generalize hu : c (k + 1) = u at hs key
  generalize ht : c k = t at hs h lazy named
  cases hs with
  | wrap w =>
    cases m with
    | schema => exact key .schema z h n (Nat.le_refl n)
    | inlineSchema => exact ihd k .schema z (by rw [ht]; exact h)
    | typeDef => cases h
    | inline => cases h
  | option =>
    cases m with
    | schema => exact opt_nan (b := true) (o := zOf P d .inlineSchema u) h (fun a ha => key .inlineSchema a ha)
    | inlineSchema => exact ihd k .schema z (by rw [ht]; exact h)
    | typeDef => cases h
    | inline => cases h
  | from_ i d' _ hd' hf =>
    refine named i d' rfl hd' (fun z hz => ?_) (fun z hz => ?_)
    · cases d' with
      | struct s =>
        have hf : s.from_.ty? = some u := hf
        simp only [declZ, hf] at hz
        exact key _ z hz n (Nat.le_refl n)
      | enum e =>
        have hf : e.from_.ty? = some u := hf
        simp only [declZ, hf] at hz
        exact key _ z hz n (Nat.le_refl n)
    · cases d' with
      | struct s => cases hz; exact lazy i _ rfl hd'
      | enum e =>
        have hf : e.from_.ty? = some u := hf
        simp only [declInlineZ, hf] at hz
        exact key _ z hz n (Nat.le_refl n)
  | struct i s f hd' hf hst hk =>
    refine named i _ rfl hd' (fun z hz => ?_) (fun z hz => ?_)
    · simp only [declZ, hf] at hz
      have hfl := plain_flatten (hpl _ (List.mem_of_getElem? hd')) hst
      have hsf : structFields s = [SField.ofField s.transparent f] := by
        have : structFields s = (keptFields s.fields).map (SField.ofField s.transparent) := rfl
        rw [this, hk]; rfl
      have hfi : (structFields s).filter (fun f => !f.flatten) = [SField.ofField s.transparent f] := by
        rw [List.filter_eq_self.2 (fun g hg => by simp [hfl g hg]), hsf]
      have hz' : sfieldZ (zOf P d) (SField.ofField s.transparent f) = some z := by
        unfold structZ at hz
        simp only [hfi] at hz
        cases htr : s.transparent with
        | true => rw [htr] at hz; exact hz
        | false =>
          rw [htr] at hz
          rcases hst with e | e
          · rw [htr] at e; cases e
          · rw [e] at hz; exact hz
      exact opt_nan hz' (fun a ha => key _ a ha)
    · cases hz; exact lazy i _ rfl hd'
  | untagged i e v f hd' hf ht' hv hsk hst hk =>
    refine named i _ rfl hd' (fun z hz => ?_) (fun z hz => ?_)
    · simp only [declZ, hf] at hz
      have hvk : v ∈ e.kept := List.mem_filter.2 ⟨hv, by simp [hsk]⟩
      have hvz : ∀ z, variantZ (zOf P d) e.tag v = some z → ∀ n' ≤ n, parse E n' z (.num .nan) = none := by
        intro z hz n' hn'
        have hkk : v.kept = [f] := hk
        unfold variantZ at hz
        rw [hst] at hz
        simp only [tupleVariantZ, hkk, ht'] at hz
        exact opt_nan (o := zOf P d .inlineSchema f.ty) hz (fun a ha n'' hn'' => key _ a ha n'' (Nat.le_trans hn'' hn'))
      unfold enumZ at hz
      match hkk : e.kept, hz with
      | [], hz => cases hz
      | [w], hz =>
        rw [hkk, List.mem_singleton] at hvk
        subst hvk
        exact hvz z hz n (Nat.le_refl n)
      | a :: b :: l, hz =>
        rw [ht'] at hz hvz
        simp only at hz
        cases ha : allSome ((a :: b :: l).map (variantZ (zOf P d) .untagged)) with
        | none => rw [ha] at hz; cases hz
        | some zs =>
          rw [ha] at hz
          cases hz
          cases n with
          | zero => rfl
          | succ n =>
            rw [parse]
            obtain ⟨zv, hm, hzv⟩ := All2.mem_left (allSome_all2 ha) (hkk ▸ hvk)
            exact firstRes_none (fun a _ r => never_nan n a r) hm (hvz zv hzv n (Nat.le_succ n))
    · simp only [declInlineZ, hf] at hz
      cases hz; exact lazy i _ rfl hd'

end Verif.Zod
