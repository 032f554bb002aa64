import Verif.Spec.Agree
import Verif.Spec.Guarded
import Verif.Spec.Typed
import Verif.Spec.TsIntent
import Verif.Spec.ModuleOf
import Verif.Codegen.Build
import Verif.Schema.Steps

/-!
# A check for declarations

The theorems about schemas, types and calls hold for programs whose declarations have certain properties (`Sound`,
`Complete`, `Typed`, `Strict`, ..., in `Verif/Spec`). Here these properties are tested by computing: if the function of the
same name returns `true`, the property holds. None of this models code of the repository.

`n` bounds how far types are followed.
-/

namespace Verif.Check
open Verif Verif.Js Verif.Schema Verif.SchemaSpec Verif.Spec Verif.Ts

/-- If just one field is not skipped, it passes. -/
def oneField (fs : List Field) (p : Field → Bool) : Bool :=
  match keptFields fs with
  | [f] => p f
  | _ => true

theorem oneField_sound {fs : List Field} {p : Field → Bool} (h : oneField fs p = true) : ∀ f, keptFields fs = [f] → p f = true := by
  intro f hf
  unfold oneField at h
  rw [hf] at h
  exact h

/-- Exactly one field is not skipped, and it passes. -/
def onlyField (fs : List Field) (p : Field → Bool) : Bool :=
  match keptFields fs with
  | [f] => p f
  | _ => false

theorem onlyField_sound {fs : List Field} {p : Field → Bool} (h : onlyField fs p = true) : ∃ f, keptFields fs = [f] ∧ p f = true := by
  unfold onlyField at h
  split at h
  · rename_i f hf; exact ⟨f, hf, h⟩
  · cases h

/-! ## `NeverUndef`, `MissingOk` -/

/-- Decides `NeverUndef`, looking `n` declarations deep. -/
def neverUndef (P : Program) : Nat → Ty → Bool
  | 0, _ => false
  | n + 1, .wrap _ t => neverUndef P n t
  | _ + 1, .option _ => false
  | n + 1, .named i =>
      match P[i]? with
      | none => false
      | some d =>
        match (Decl.from_ d).ty? with
        | some t => neverUndef P n t
        | none =>
          match d with
          | .struct s => (!s.transparent && s.style != .tuple) || oneField s.fields (fun f => !f.dflt && neverUndef P n f.ty)
          | .enum e => e.tag != .untagged || e.variants.all (fun v => v.skipDe || v.style != .tuple ||
              oneField v.fields (fun f => !f.dflt && neverUndef P n f.ty))
  | _ + 1, _ => true

theorem neverUndef_sound (P : Program) : ∀ n t, neverUndef P n t = true → NeverUndef P t := by
  intro n
  induction n with
  | zero => intro t h; cases h
  | succ n ih =>
    intro t h
    cases t with
    | prim p => exact .prim p
    | wrap w t => exact .wrap w t (ih t h)
    | option t => cases h
    | vec t => exact .vec t
    | array k t => exact .array k t
    | hashSet t => exact .hashSet t
    | btreeSet t => exact .btreeSet t
    | hashMap k v => exact .hashMap k v
    | btreeMap k v => exact .btreeMap k v
    | tuple ts => exact .tuple ts
    | result t e => exact .result t e
    | named i =>
      simp only [neverUndef] at h
      cases hd : P[i]? with
      | none => rw [hd] at h; cases h
      | some d =>
        rw [hd] at h
        simp only at h
        cases ht : (Decl.from_ d).ty? with
        | some t => rw [ht] at h; exact .from_ i d t hd ht (ih t h)
        | none =>
          rw [ht] at h
          simp only at h
          cases d with
          | struct s =>
            simp only [Bool.or_eq_true, Bool.and_eq_true, Bool.not_eq_true', bne_iff_ne] at h
            have key : s.transparent = true ∨ s.style = .tuple → ∀ f, keptFields s.fields = [f] →
                f.dflt = false ∧ NeverUndef P f.ty := by
              intro hs f hf
              rcases h with h | h
              · rcases hs with hs | hs
                · rw [hs] at h; cases h.1
                · exact absurd hs h.2
              · have := oneField_sound h f hf
                simp only [Bool.and_eq_true, Bool.not_eq_true'] at this
                exact ⟨this.1, ih _ this.2⟩
            exact .struct i s hd ht (fun hs f hf => (key hs f hf).1) (fun hs f hf => (key hs f hf).2)
          | enum e =>
            simp only [Bool.or_eq_true, bne_iff_ne, List.all_eq_true] at h
            have key : e.tag = .untagged → ∀ v ∈ e.variants, v.skipDe = false → v.style = .tuple → ∀ f,
                keptFields v.fields = [f] → f.dflt = false ∧ NeverUndef P f.ty := by
              intro he v hv h1 h2 f hf
              rcases h with h | h
              · exact absurd he h
              · rcases h v hv with (h | h) | h
                · rw [h1] at h; cases h
                · exact absurd h2 h
                · have := oneField_sound h f hf
                  simp only [Bool.and_eq_true, Bool.not_eq_true'] at this
                  exact ⟨this.1, ih _ this.2⟩
            exact .enum i e hd ht (fun he v hv h1 h2 f hf => (key he v hv h1 h2 f hf).1)
              (fun he v hv h1 h2 f hf => (key he v hv h1 h2 f hf).2)

/-- Decides `MissingOk`, looking `n` declarations deep. -/
def missingOk (P : Program) : Nat → Ty → Bool
  | 0, _ => false
  | _ + 1, .option _ => true
  | n + 1, .wrap w t => w != .phantomData && missingOk P n t
  | n + 1, .named i =>
      match P[i]? with
      | none => false
      | some d =>
        match Decl.from_ d with
        | .from_ t => missingOk P n t
        | .tryFrom _ => false
        | .none =>
          match d with
          | .struct s => s.transparent && onlyField s.fields (fun f => !f.dflt && missingOk P n f.ty)
          | .enum _ => false
  | _ + 1, _ => false

theorem missingOk_phantom {P : Program} {t : Ty} (h : MissingOk P t) : isPhantom t = false := by
  cases h with
  | wrap w t hw _ => cases w <;> first | rfl | exact absurd rfl hw
  | _ => rfl

theorem missingOk_sound (P : Program) : ∀ n t, missingOk P n t = true → MissingOk P t := by
  intro n
  induction n with
  | zero => intro t h; cases h
  | succ n ih =>
    intro t h
    cases t with
    | option t => exact .option t
    | wrap w t =>
      simp only [missingOk, Bool.and_eq_true, bne_iff_ne] at h
      exact .wrap w t h.1 (ih t h.2)
    | named i =>
      simp only [missingOk] at h
      cases hd : P[i]? with
      | none => rw [hd] at h; cases h
      | some d =>
        rw [hd] at h
        simp only at h
        cases ht : Decl.from_ d with
        | from_ t => rw [ht] at h; exact .from_ i d t hd ht (ih t h)
        | tryFrom t => rw [ht] at h; cases h
        | none =>
          rw [ht] at h
          simp only at h
          cases d with
          | enum e => cases h
          | struct s =>
            simp only [Bool.and_eq_true] at h
            obtain ⟨f, hf, h2⟩ := onlyField_sound h.2
            rw [Bool.and_eq_true, Bool.not_eq_true'] at h2
            have h3 := ih _ h2.2
            exact .transparent i s f hd ht h.1 (innerFields_only hf h2.1 (missingOk_phantom h3)) h3
    | _ => cases h

/-! ## `Sound` -/

/-- Keys that are texts. -/
def textKey : Ty → Bool
  | .prim p => p == .string || p == .smolStr
  | _ => false

theorem textKey_sound {k : Ty} (h : textKey k = true) : ∃ p, k = .prim p ∧ (p = .string ∨ p = .smolStr) := by
  unfold textKey at h
  split at h
  · simp only [Bool.or_eq_true, beq_iff_eq] at h
    exact ⟨_, rfl, h⟩
  · cases h

/-- Decides `Sound`, looking `n` declarations deep. -/
def sound (wide : Bool) (P : Program) : Nat → Ty → Bool
  | 0, _ => false
  | _ + 1, .prim p => soundPrim wide p
  | n + 1, .wrap w t => w != .phantomData && sound wide P n t
  | n + 1, .option t => sound wide P n t
  | n + 1, .vec t => sound wide P n t
  | _ + 1, .hashMap k _ => textKey k
  | _ + 1, .btreeMap k _ => textKey k
  | n + 1, .tuple ts => ts.all (sound wide P n)
  | n + 1, .result t e => sound wide P n t && sound wide P n e && neverUndef P n t && neverUndef P n e
  | _ + 1, .named _ => true
  | _ + 1, _ => false

theorem sound_sound (wide : Bool) (P : Program) : ∀ n t, sound wide P n t = true → Sound wide P t := by
  intro n
  induction n with
  | zero => intro t h; cases h
  | succ n ih =>
    intro t h
    cases t with
    | prim p => exact .prim p h
    | wrap w t =>
      simp only [sound, Bool.and_eq_true, bne_iff_ne] at h
      exact .wrap w t h.1 (ih t h.2)
    | option t => exact .option t (ih t h)
    | vec t => exact .vec t (ih t h)
    | hashMap k v =>
      obtain ⟨p, rfl, hp⟩ := textKey_sound h
      exact .hashMap p v hp
    | btreeMap k v =>
      obtain ⟨p, rfl, hp⟩ := textKey_sound h
      exact .btreeMap p v hp
    | tuple ts => exact .tuple ts (fun t ht => ih t (List.all_eq_true.1 h t ht))
    | result t e =>
      simp only [sound, Bool.and_eq_true] at h
      exact .result t e (ih t h.1.1.1) (ih e h.1.1.2) (neverUndef_sound P n t h.1.2) (neverUndef_sound P n e h.2)
    | named i => exact .named i
    | _ => cases h

/-- Skipping fields does not leave just one of several. -/
def fewFields (fs : List Field) : Bool :=
  (fs.length == 1 && (keptFields fs).length == 1) || (fs.length != 1 && decide (2 ≤ (keptFields fs).length))

theorem fewFields_sound {fs : List Field} (h : fewFields fs = true) :
    (fs.length = 1 ∧ (keptFields fs).length = 1) ∨ (fs.length ≠ 1 ∧ 2 ≤ (keptFields fs).length) := by
  simpa [fewFields] using h

/-- Decides `SoundFields`. -/
def soundFields (wide : Bool) (P : Program) (n : Nat) : Style → List Field → Bool
  | .tuple, fs => fewFields fs && (keptFields fs).all (fun f => !f.dflt && sound wide P n f.ty)
  | .named, fs => (keptFields fs).all (fun f => !f.flatten && sound wide P n f.ty &&
      (f.dflt || neverUndef P n f.ty || missingOk P n f.ty) && f.aliases.all (fun a => !((keptFields fs).map (·.name)).contains a))
  | .unit, _ => true

theorem soundFields_sound {wide : Bool} {P : Program} {n : Nat} {style : Style} {fs : List Field}
    (h : soundFields wide P n style fs = true) : SoundFields wide P style fs := by
  cases style with
  | tuple =>
    simp only [soundFields, Bool.and_eq_true, List.all_eq_true, Bool.not_eq_true'] at h
    exact ⟨fewFields_sound h.1, fun f hf => ⟨(h.2 f hf).1, sound_sound wide P n _ (h.2 f hf).2⟩⟩
  | named =>
    simp only [soundFields, List.all_eq_true, Bool.and_eq_true, Bool.or_eq_true, Bool.not_eq_true'] at h
    refine fun f hf => ⟨(h f hf).1.1.1, sound_sound wide P n _ (h f hf).1.1.2, ?_, fun a ha => by simpa using (h f hf).2 a ha⟩
    rcases (h f hf).1.2 with (h | h) | h
    · exact .inl h
    · exact .inr (.inl (neverUndef_sound P n _ h))
    · exact .inr (.inr (missingOk_sound P n _ h))
  | unit => trivial

/-- Decides `SoundVariant`. -/
def soundVariant (wide : Bool) (P : Program) (n : Nat) (tag : Tag) (v : Variant) : Bool :=
  soundFields wide P n (deStyle v) v.fields &&
  match tag with
  | .internal t => deStyle v != .tuple && (keptFields v.fields).all (fun f => !f.aliases.contains t)
  | .untagged => true
  | .external => deStyle v != .tuple || oneField v.fields (fun f => neverUndef P n f.ty)
  | .adjacent t c => t != c && (deStyle v != .tuple || oneField v.fields (fun f => neverUndef P n f.ty))

theorem soundVariant_sound {wide : Bool} {P : Program} {n : Nat} {tag : Tag} {v : Variant}
    (h : soundVariant wide P n tag v = true) : SoundVariant wide P tag v := by
  simp only [soundVariant, Bool.and_eq_true] at h
  refine ⟨soundFields_sound h.1, ?_⟩
  have h := h.2
  have key : (deStyle v != .tuple || oneField v.fields (fun f => neverUndef P n f.ty)) = true →
      deStyle v = .tuple → ∀ f, keptFields v.fields = [f] → NeverUndef P f.ty := by
    intro h e f hf
    simp only [Bool.or_eq_true, bne_iff_ne] at h
    rcases h with h | h
    · exact absurd e h
    · exact neverUndef_sound P n _ (oneField_sound h f hf)
  cases tag with
  | internal t => simpa using h
  | untagged => trivial
  | external => exact key h
  | adjacent t c =>
    rw [Bool.and_eq_true, bne_iff_ne] at h
    exact ⟨h.1, key h.2⟩

/-- Decides `SoundDecl`. -/
def soundDecl (wide : Bool) (P : Program) (n : Nat) : Decl → Bool
  | .struct s => match s.from_ with
    | .from_ t => sound wide P n t
    | .tryFrom _ => false
    | .none =>
      if s.transparent then onlyField s.fields (fun f => !f.dflt && !f.flatten && sound wide P n f.ty)
      else s.style != .unit && soundFields wide P n s.style s.fields && (keptFields s.fields).all (fun f => !f.flatten)
  | .enum e => match e.from_ with
    | .from_ t => sound wide P n t
    | .tryFrom _ => false
    | .none => decide ((e.variants.filter (fun v => !v.skipDe)).map (·.name)).Nodup &&
        e.variants.all (fun v => v.skipDe || soundVariant wide P n e.tag v)

theorem soundDecl_sound {wide : Bool} {P : Program} {n : Nat} {d : Decl} (h : soundDecl wide P n d = true) : SoundDecl wide P d := by
  cases d with
  | struct s =>
    simp only [soundDecl, SoundDecl] at h ⊢
    cases hf : s.from_ with
    | from_ t => rw [hf] at h; exact sound_sound wide P n t h
    | tryFrom t => rw [hf] at h; cases h
    | none =>
      rw [hf] at h
      simp only at h ⊢
      split
      · rename_i ht
        rw [if_pos ht] at h
        obtain ⟨f, h1, h2⟩ := onlyField_sound h
        simp only [Bool.and_eq_true, Bool.not_eq_true'] at h2
        exact ⟨f, h1, h2.1.1, h2.1.2, sound_sound wide P n _ h2.2⟩
      · rename_i ht
        rw [if_neg ht] at h
        simp only [Bool.and_eq_true, bne_iff_ne, List.all_eq_true, Bool.not_eq_true'] at h
        exact ⟨h.1.1, soundFields_sound h.1.2, h.2⟩
  | enum e =>
    simp only [soundDecl, SoundDecl] at h ⊢
    cases hf : e.from_ with
    | from_ t => rw [hf] at h; exact sound_sound wide P n t h
    | tryFrom t => rw [hf] at h; cases h
    | none =>
      rw [hf] at h
      simp only [Bool.and_eq_true, decide_eq_true_eq, List.all_eq_true, Bool.or_eq_true] at h ⊢
      refine ⟨h.1, fun v hv hs => ?_⟩
      rcases h.2 v hv with h | h
      · rw [hs] at h; cases h
      · exact soundVariant_sound h

/-! ## `Typed` -/

/-- Decides `floatPrim`. -/
def isFloat : Prim → Bool
  | .f32 | .f64 | .notNanF32 | .notNanF64 => true
  | _ => false

/-- Decides `Typed`, looking `n` types deep. -/
def typed (odd : Bool) : Nat → Ty → Bool
  | 0, _ => false
  | _ + 1, .prim p => !isFloat p || !odd
  | n + 1, .wrap w t => w != .phantomData && w != .weak && typed odd n t
  | n + 1, .vec t => typed odd n t
  | n + 1, .array _ t => typed odd n t
  | n + 1, .tuple ts => ts.all (typed odd n)
  | n + 1, .result t e => typed odd n t && typed odd n e
  | _ + 1, .named _ => true
  | _ + 1, _ => false

theorem typed_sound (odd : Bool) : ∀ n t, typed odd n t = true → Typed odd t := by
  intro n
  induction n with
  | zero => intro t h; cases h
  | succ n ih =>
    intro t h
    cases t with
    | prim p =>
      refine .prim p (fun hp => ?_)
      have : isFloat p = true := by rcases hp with rfl | rfl | rfl | rfl <;> rfl
      simp only [typed, this] at h
      simpa using h
    | wrap w t =>
      simp only [typed, Bool.and_eq_true, bne_iff_ne] at h
      exact .wrap w t h.1.1 h.1.2 (ih t h.2)
    | vec t => exact .vec t (ih t h)
    | array k t => exact .array k t (ih t h)
    | tuple ts => exact .tuple ts (fun t ht => ih t (List.all_eq_true.1 h t ht))
    | result t e =>
      simp only [typed, Bool.and_eq_true] at h
      exact .result t e (ih t h.1) (ih e h.2)
    | named i => exact .named i
    | _ => cases h

/-- No field may be left out by `skip_serializing_if`. -/
def alwaysWritten (fs : List Field) : Bool := (keptFields fs).all (fun f => !f.skipSer && !f.skipIfNone && !f.skipIf)

theorem alwaysWritten_sound {fs : List Field} (h : alwaysWritten fs = true) : AlwaysWritten fs := by
  simp only [alwaysWritten, List.all_eq_true, Bool.and_eq_true, Bool.not_eq_true'] at h
  exact fun f hf => ⟨(h f hf).1.1, (h f hf).1.2, (h f hf).2⟩

/-- Decides `Solid`, looking `n` declarations deep. -/
def solid (P : Program) : Nat → Ty → Bool
  | 0, _ => false
  | n + 1, .wrap _ t => solid P n t
  | _ + 1, .result _ _ => true
  | n + 1, .named i =>
      match P[i]? with
      | none => false
      | some d =>
        match Decl.into d with
        | some t => solid P n t
        | none =>
          match d with
          | .struct s =>
              if s.transparent || s.style == .tuple then onlyField s.fields (fun f => solid P n f.ty)
              else s.style == .named && alwaysWritten s.fields
          | .enum e => e.variants.all (fun v =>
              (v.style != .named || !(e.tag == .untagged || (match e.tag with | .internal _ => true | _ => false)) ||
                alwaysWritten v.fields) &&
              (v.style != .tuple || e.tag != .untagged || oneField v.fields (fun f => solid P n f.ty)))
  | _ + 1, _ => false

theorem solid_sound (P : Program) : ∀ n t, solid P n t = true → Solid P t := by
  intro n
  induction n with
  | zero => intro t h; cases h
  | succ n ih =>
    intro t h
    cases t with
    | wrap w t => exact .wrap w t (ih t h)
    | result t e => exact .result t e
    | named i =>
      simp only [solid] at h
      cases hd : P[i]? with
      | none => rw [hd] at h; cases h
      | some d =>
        rw [hd] at h
        simp only at h
        cases ht : Decl.into d with
        | some t => rw [ht] at h; exact .into i d t hd ht (ih t h)
        | none =>
          rw [ht] at h
          simp only at h
          cases d with
          | struct s =>
            simp only at h
            split at h
            · rename_i hs
              simp only [Bool.or_eq_true, beq_iff_eq] at hs
              obtain ⟨f, hf, h2⟩ := onlyField_sound h
              exact .newtype i s f hd ht hs hf (ih _ h2)
            · rename_i hs
              simp only [Bool.or_eq_true, beq_iff_eq, not_or, Bool.not_eq_true] at hs
              simp only [Bool.and_eq_true, beq_iff_eq] at h
              exact .struct i s hd ht hs.1 h.1 (alwaysWritten_sound h.2)
          | enum e =>
            simp only [List.all_eq_true, Bool.and_eq_true, Bool.or_eq_true, bne_iff_ne, Bool.not_eq_true', Bool.or_eq_false_iff,
              beq_eq_false_iff_ne] at h
            refine .enum i e hd ht (fun v hv h1 h2 => ?_) (fun v hv h1 h2 f hf => ?_)
            · rcases (h v hv).1 with (h | h) | h
              · exact absurd h1 h
              · rcases h2 with h2 | ⟨t, h2⟩
                · exact absurd h2 h.1
                · rw [h2] at h; cases h.2
              · exact alwaysWritten_sound h
            · rcases (h v hv).2 with (h | h) | h
              · exact absurd h1 h
              · exact absurd h2 h
              · exact ih _ (oneField_sound h f hf)
    | _ => cases h

/-- Decides `PlainNames`: the fields that are written have different names and none is flattened. -/
def plainNames (fs : List Field) : Bool :=
  decide ((serFields fs).map (·.serName)).Nodup && (serFields fs).all (fun g => !g.flatten)

theorem plainNames_sound {fs : List Field} (h : plainNames fs = true) : PlainNames fs := by
  simp only [plainNames, Bool.and_eq_true, decide_eq_true_eq, List.all_eq_true, Bool.not_eq_true'] at h
  exact h

/-- An `Option` of such a type. -/
def optionOf (p : Ty → Bool) : Ty → Bool
  | .option t => p t
  | _ => false

theorem optionOf_sound {p : Ty → Bool} {t : Ty} (h : optionOf p t = true) : ∃ u, t = .option u ∧ p u = true := by
  unfold optionOf at h
  split at h
  · exact ⟨_, rfl, h⟩
  · cases h

/-- Decides `TypedField`. -/
def typedField (P : Program) (odd lenient : Bool) (n : Nat) (fs : List Field) (f : Field) : Bool :=
  (f.skipSer && !f.flatten && f.dflt && plainNames fs && !((serFields fs).map (·.serName)).contains f.name) ||
  (!f.skipSer && !f.flatten && f.serName == f.name && !f.skipIfNone && !f.skipIf && typed odd n f.ty) ||
  (!f.skipSer && !f.flatten && f.serName == f.name && f.skipIfNone && !f.skipIf && optionOf (typed odd n) f.ty &&
    (f.dflt || lenient) && plainNames fs) ||
  (!f.skipSer && !f.flatten && f.serName == f.name && !f.skipIfNone && f.skipIf && typed odd n f.ty && f.dflt && plainNames fs) ||
  (!f.skipSer && f.flatten && !f.skipIfNone && !f.skipIf && typed odd n f.ty && solid P n f.ty)

theorem typedField_sound {P : Program} {odd lenient : Bool} {n : Nat} {fs : List Field} {f : Field}
    (h : typedField P odd lenient n fs f = true) : TypedField P odd lenient fs f := by
  simp only [typedField, Bool.or_eq_true, Bool.and_eq_true, Bool.not_eq_true', beq_iff_eq] at h
  rcases h with (((h | h) | h) | h) | h
  · exact .inl ⟨h.1.1.1.1, h.1.1.1.2, h.1.1.2, plainNames_sound h.1.2, by simpa using h.2⟩
  · exact .inr (.inl ⟨h.1.1.1.1.1, h.1.1.1.1.2, h.1.1.1.2, h.1.1.2, h.1.2, typed_sound odd n _ h.2⟩)
  · obtain ⟨t, e, ht⟩ := optionOf_sound h.1.1.2
    exact .inr (.inr (.inl ⟨h.1.1.1.1.1.1.1, h.1.1.1.1.1.1.2, h.1.1.1.1.1.2, h.1.1.1.1.2, h.1.1.1.2,
      ⟨t, e, typed_sound odd n _ ht⟩, h.1.2, plainNames_sound h.2⟩))
  · exact .inr (.inr (.inr (.inl ⟨h.1.1.1.1.1.1.1, h.1.1.1.1.1.1.2, h.1.1.1.1.1.2, h.1.1.1.1.2, h.1.1.1.2,
      typed_sound odd n _ h.1.1.2, h.1.2, plainNames_sound h.2⟩)))
  · exact .inr (.inr (.inr (.inr ⟨h.1.1.1.1.1, h.1.1.1.1.2, h.1.1.1.2, h.1.1.2, typed_sound odd n _ h.1.2, solid_sound P n _ h.2⟩)))

/-- Decides `TypedFields`. -/
def typedFields (P : Program) (odd lenient : Bool) (n : Nat) : Style → List Field → Bool
  | .tuple, fs => fewFields fs && fs.all (fun f => f.skipSer == f.skipDe) &&
      (keptFields fs).all (fun f => typed odd n f.ty && (fs.length == 1 || !f.skipIf))
  | .named, fs => (keptFields fs).all (typedField P odd lenient n fs)
  | .unit, fs => (keptFields fs).isEmpty

theorem typedFields_sound {P : Program} {odd lenient : Bool} {n : Nat} {style : Style} {fs : List Field}
    (h : typedFields P odd lenient n style fs = true) : TypedFields P odd lenient style fs := by
  cases style with
  | tuple =>
    simp only [typedFields, Bool.and_eq_true, List.all_eq_true, beq_iff_eq, Bool.or_eq_true, Bool.not_eq_true'] at h
    exact ⟨fewFields_sound h.1.1, h.1.2, fun f hf => ⟨typed_sound odd n _ (h.2 f hf).1, fun hl => (h.2 f hf).2.resolve_left hl⟩⟩
  | named => exact fun f hf => typedField_sound (List.all_eq_true.1 h f hf)
  | unit => exact List.isEmpty_iff.1 h

/-- Decides `TypedVariant`. -/
def typedVariant (P : Program) (odd lenient : Bool) (n : Nat) (tag : Tag) (v : Variant) : Bool :=
  !v.skipDe && v.serName == v.name && typedFields P odd lenient n (serStyle v) v.fields && v.fields.all (fun f => !f.flatten) &&
  match tag with
  | .internal t => serStyle v != .tuple && !((keptFields v.fields).map (·.name)).contains t
  | .adjacent t c => t != c
  | _ => true

theorem typedVariant_sound {P : Program} {odd lenient : Bool} {n : Nat} {tag : Tag} {v : Variant}
    (h : typedVariant P odd lenient n tag v = true) : TypedVariant P odd lenient tag v := by
  simp only [typedVariant, Bool.and_eq_true, Bool.not_eq_true', beq_iff_eq, List.all_eq_true] at h
  refine ⟨h.1.1.1.1, h.1.1.1.2, typedFields_sound h.1.1.2, h.1.2, ?_⟩
  have h := h.2
  cases tag with
  | internal t => simpa using h
  | adjacent t c => simpa using h
  | _ => trivial

/-- The same fields are skipped in both directions. -/
def bothSkipped (fs : List Field) : Bool := fs.all (fun f => f.skipSer == f.skipDe)

theorem bothSkipped_sound {fs : List Field} (h : bothSkipped fs = true) : serFields fs = keptFields fs := by
  unfold serFields keptFields
  refine List.filter_congr (fun f hf => ?_)
  have := List.all_eq_true.1 h f hf
  rw [beq_iff_eq] at this
  rw [this]

/-- Decides `TypedDecl`. -/
def typedDecl (P : Program) (odd lenient : Bool) (n : Nat) : Decl → Bool
  | .struct s => s.into.isNone && s.from_.ty?.isNone &&
      if s.transparent then bothSkipped s.fields && onlyField s.fields (fun f => typed odd n f.ty)
      else typedFields P odd lenient n s.style s.fields
  | .enum e => e.into.isNone && e.from_.ty?.isNone && e.variants.all (fun v => v.skipSer || typedVariant P odd lenient n e.tag v)

theorem typedDecl_sound {P : Program} {odd lenient : Bool} {n : Nat} {d : Decl} (h : typedDecl P odd lenient n d = true) :
    TypedDecl P odd lenient d := by
  cases d with
  | struct s =>
    simp only [typedDecl, Bool.and_eq_true, Option.isNone_iff_eq_none] at h
    simp only [TypedDecl, h.1.1]
    refine ⟨h.1.2, ?_⟩
    have h := h.2
    split
    · rename_i ht
      rw [if_pos ht, Bool.and_eq_true] at h
      obtain ⟨f, h1, h2⟩ := onlyField_sound h.2
      exact ⟨f, h1, (bothSkipped_sound h.1).trans h1, typed_sound odd n _ h2⟩
    · rename_i ht
      rw [if_neg ht] at h
      exact typedFields_sound h
  | enum e =>
    simp only [typedDecl, Bool.and_eq_true, Option.isNone_iff_eq_none, List.all_eq_true, Bool.or_eq_true] at h
    simp only [TypedDecl, h.1.1]
    refine ⟨h.1.2, fun v hv hs => ?_⟩
    rcases h.2 v hv with h | h
    · rw [hs] at h; cases h
    · exact typedVariant_sound h

/-! ## `Complete` -/

/-- Decides `Complete`, looking `n` types deep. -/
def complete : Nat → Ty → Bool
  | 0, _ => false
  | _ + 1, .prim p => completePrim p
  | n + 1, .wrap w t => w != .phantomData && w != .weak && complete n t
  | n + 1, .vec t => complete n t
  | n + 1, .array _ t => complete n t
  | n + 1, .tuple ts => ts.all (complete n)
  | n + 1, .result t e => complete n t && complete n e
  | _ + 1, .named _ => true
  | _ + 1, _ => false

theorem complete_sound : ∀ n t, complete n t = true → Complete t := by
  intro n
  induction n with
  | zero => intro t h; cases h
  | succ n ih =>
    intro t h
    cases t with
    | prim p => exact .prim p h
    | wrap w t =>
      simp only [complete, Bool.and_eq_true, bne_iff_ne] at h
      exact .wrap w t h.1.1 h.1.2 (ih t h.2)
    | vec t => exact .vec t (ih t h)
    | array k t => exact .array k t (ih t h)
    | tuple ts => exact .tuple ts (fun t ht => ih t (List.all_eq_true.1 h t ht))
    | result t e =>
      simp only [complete, Bool.and_eq_true] at h
      exact .result t e (ih t h.1) (ih e h.2)
    | named i => exact .named i
    | _ => cases h

/-- Decides `CompleteField`. -/
def completeField (n : Nat) (fs : List Field) (f : Field) : Bool :=
  !f.flatten && (f.skipSer || f.serName == f.name) &&
  (!f.skipSer || (f.dflt && !((serFields fs).map (·.serName)).contains f.name)) &&
  ((complete n f.ty && !f.skipIfNone && (!f.skipIf || f.dflt)) || (optionOf (complete n) f.ty && f.skipIfNone && !f.skipIf))

theorem completeField_sound {n : Nat} {fs : List Field} {f : Field} (h : completeField n fs f = true) : CompleteField fs f := by
  simp only [completeField, Bool.or_eq_true, Bool.and_eq_true, Bool.not_eq_true', beq_iff_eq] at h
  obtain ⟨⟨⟨h1, h2⟩, h3⟩, h4⟩ := h
  refine ⟨h1, fun e => h2.resolve_left (by rw [e]; simp), fun e => ?_, ?_⟩
  · have := h3.resolve_left (by rw [e]; simp)
    exact ⟨this.1, by simpa using this.2⟩
  · rcases h4 with h | h
    · exact .inl ⟨complete_sound n _ h.1.1, h.1.2, fun e => h.2.resolve_left (by rw [e]; simp)⟩
    · obtain ⟨t, e, ht⟩ := optionOf_sound h.1.1
      exact .inr ⟨t, e, complete_sound n _ ht, h.1.2, h.2⟩

/-- Decides `CompleteFields`. -/
def completeFields (n : Nat) : Style → List Field → Bool
  | .tuple, fs => fewFields fs && fs.all (fun f => f.skipSer == f.skipDe) &&
      (keptFields fs).all (fun f => complete n f.ty && (fs.length == 1 || !f.skipIf))
  | .named, fs => (keptFields fs).all (completeField n fs) && plainNames fs
  | .unit, fs => (keptFields fs).isEmpty

theorem completeFields_sound {n : Nat} {style : Style} {fs : List Field} (h : completeFields n style fs = true) :
    CompleteFields style fs := by
  cases style with
  | tuple =>
    simp only [completeFields, Bool.and_eq_true, List.all_eq_true, beq_iff_eq, Bool.or_eq_true, Bool.not_eq_true'] at h
    exact ⟨fewFields_sound h.1.1, h.1.2, fun f hf => ⟨complete_sound n _ (h.2 f hf).1, fun hl => (h.2 f hf).2.resolve_left hl⟩⟩
  | named =>
    simp only [completeFields, Bool.and_eq_true, List.all_eq_true] at h
    exact ⟨fun f hf => completeField_sound (h.1 f hf), plainNames_sound h.2⟩
  | unit => exact List.isEmpty_iff.1 h

/-- Decides `CompleteVariant`. -/
def completeVariant (n : Nat) (tag : Tag) (v : Variant) : Bool :=
  !v.skipDe && v.serName == v.name && completeFields n (serStyle v) v.fields &&
  match tag with
  | .internal t => serStyle v != .tuple && !((serFields v.fields).map (·.serName)).contains t
  | .adjacent t c => t != c
  | _ => true

theorem completeVariant_sound {n : Nat} {tag : Tag} {v : Variant} (h : completeVariant n tag v = true) : CompleteVariant tag v := by
  simp only [completeVariant, Bool.and_eq_true, Bool.not_eq_true', beq_iff_eq] at h
  refine ⟨h.1.1.1, h.1.1.2, completeFields_sound h.1.2, ?_⟩
  have h := h.2
  cases tag with
  | internal t => simpa using h
  | adjacent t c => simpa using h
  | _ => trivial

/-- Decides `CompleteDecl`. -/
def completeDecl (n : Nat) : Decl → Bool
  | .struct s => s.into.isNone && s.from_.ty?.isNone &&
      if s.transparent then bothSkipped s.fields && onlyField s.fields (fun f => !f.flatten && complete n f.ty)
      else s.style != .unit && completeFields n s.style s.fields && (keptFields s.fields).all (fun f => !f.flatten)
  | .enum e => e.into.isNone && e.from_.ty?.isNone && e.variants.all (fun v => v.skipSer || completeVariant n e.tag v)

theorem completeDecl_sound {n : Nat} {d : Decl} (h : completeDecl n d = true) : CompleteDecl d := by
  cases d with
  | struct s =>
    simp only [completeDecl, Bool.and_eq_true, Option.isNone_iff_eq_none] at h
    simp only [CompleteDecl, h.1.1]
    refine ⟨h.1.2, ?_⟩
    have h := h.2
    split
    · rename_i ht
      rw [if_pos ht, Bool.and_eq_true] at h
      obtain ⟨f, h1, h2⟩ := onlyField_sound h.2
      rw [Bool.and_eq_true, Bool.not_eq_true'] at h2
      exact ⟨f, h1, (bothSkipped_sound h.1).trans h1, h2.1, complete_sound n _ h2.2⟩
    · rename_i ht
      rw [if_neg ht] at h
      simp only [Bool.and_eq_true, bne_iff_ne, List.all_eq_true, Bool.not_eq_true'] at h
      exact ⟨h.1.1, completeFields_sound h.1.2, h.2⟩
  | enum e =>
    simp only [completeDecl, Bool.and_eq_true, Option.isNone_iff_eq_none, List.all_eq_true, Bool.or_eq_true] at h
    simp only [CompleteDecl, h.1.1]
    refine ⟨h.1.2, fun v hv hs => ?_⟩
    rcases h.2 v hv with h | h
    · rw [hs] at h; cases h
    · exact completeVariant_sound h

/-! ## `Strict` -/

/-- Decides `Strict`, looking `n` declarations deep. -/
def strict (P : Program) : Nat → Ty → Bool
  | 0, _ => false
  | _ + 1, .prim _ => true
  | n + 1, .wrap _ t => strict P n t
  | n + 1, .option t => strict P n t
  | n + 1, .vec t => strict P n t
  | n + 1, .array _ t => strict P n t
  | n + 1, .hashSet t => strict P n t
  | n + 1, .btreeSet t => strict P n t
  | n + 1, .hashMap k v => strict P n k && strict P n v
  | n + 1, .btreeMap k v => strict P n k && strict P n v
  | n + 1, .tuple ts => ts.all (strict P n)
  | n + 1, .result t e => strict P n t && strict P n e && neverUndef P n t && neverUndef P n e
  | _ + 1, .named _ => true

theorem strict_sound (P : Program) : ∀ n t, strict P n t = true → Strict P t := by
  intro n
  induction n with
  | zero => intro t h; cases h
  | succ n ih =>
    intro t h
    cases t with
    | prim p => exact .prim p
    | wrap w t => exact .wrap w t (ih t h)
    | option t => exact .option t (ih t h)
    | vec t => exact .vec t (ih t h)
    | array k t => exact .array k t (ih t h)
    | hashSet t => exact .hashSet t (ih t h)
    | btreeSet t => exact .btreeSet t (ih t h)
    | hashMap k v =>
      simp only [strict, Bool.and_eq_true] at h
      exact .hashMap k v (ih k h.1) (ih v h.2)
    | btreeMap k v =>
      simp only [strict, Bool.and_eq_true] at h
      exact .btreeMap k v (ih k h.1) (ih v h.2)
    | tuple ts => exact .tuple ts (fun t ht => ih t (List.all_eq_true.1 h t ht))
    | result t e =>
      simp only [strict, Bool.and_eq_true] at h
      exact .result t e (ih t h.1.1.1) (ih e h.1.1.2) (neverUndef_sound P n t h.1.2) (neverUndef_sound P n e h.2)
    | named i => exact .named i

/-- Decides `StrictFields`. -/
def strictFields (P : Program) (n : Nat) (style : Style) (fs : List Field) : Bool :=
  (keptFields fs).all (fun f => strict P n f.ty && (style != .named || f.dflt || neverUndef P n f.ty))

theorem strictFields_sound {P : Program} {n : Nat} {style : Style} {fs : List Field} (h : strictFields P n style fs = true) :
    StrictFields P style fs := by
  simp only [strictFields, List.all_eq_true, Bool.and_eq_true, Bool.or_eq_true, bne_iff_ne] at h
  refine fun f hf => ⟨strict_sound P n _ (h f hf).1, fun e => ?_⟩
  rcases (h f hf).2 with (h | h) | h
  · exact absurd e h
  · exact .inl h
  · exact .inr (neverUndef_sound P n _ h)

/-- The type of `from`, if there is one, passes. -/
def fromTy (p : Ty → Bool) : From → Bool
  | .none => true
  | .from_ t => p t
  | .tryFrom t => p t

theorem fromTy_sound {p : Ty → Bool} {f : From} (h : fromTy p f = true) : ∀ t, f.ty? = some t → p t = true := by
  intro t ht
  cases f <;> cases ht <;> exact h

/-- Decides `StrictDecl`. -/
def strictDecl (P : Program) (n : Nat) : Decl → Bool
  | .struct s => fromTy (strict P n) s.from_ && strictFields P n (if s.transparent then .tuple else s.style) s.fields
  | .enum e => fromTy (strict P n) e.from_ && e.variants.all (fun v => v.skipDe || (strictFields P n v.style v.fields &&
      (e.tag == .untagged || v.style != .tuple || oneField v.fields (fun f => !f.dflt && neverUndef P n f.ty))))

theorem strictDecl_sound {P : Program} {n : Nat} {d : Decl} (h : strictDecl P n d = true) : StrictDecl P d := by
  cases d with
  | struct s =>
    simp only [strictDecl, Bool.and_eq_true] at h
    exact ⟨fun t ht => strict_sound P n t (fromTy_sound h.1 t ht), strictFields_sound h.2⟩
  | enum e =>
    simp only [strictDecl, Bool.and_eq_true, List.all_eq_true, Bool.or_eq_true, bne_iff_ne, beq_iff_eq] at h
    refine ⟨fun t ht => strict_sound P n t (fromTy_sound h.1 t ht), fun v hv hs => ?_⟩
    rcases h.2 v hv with h | h
    · rw [hs] at h; cases h
    · refine ⟨strictFields_sound h.1, fun h1 h2 f hf => ?_⟩
      rcases h.2 with (h | h) | h
      · exact absurd h h1
      · exact absurd h2 h
      · have := oneField_sound h f hf
        simp only [Bool.and_eq_true, Bool.not_eq_true'] at this
        exact ⟨this.1, neverUndef_sound P n _ this.2⟩

/-! ## `NoThrow` -/

/-- Keys differ and none is `__proto__`. -/
def goodKeysB (ks : List Str) : Bool := decide ks.Nodup && !ks.contains (lit "__proto__")

theorem goodKeysB_sound {ks : List Str} (h : goodKeysB ks = true) : goodKeys ks := by
  simpa [goodKeysB, goodKeys] using h

/-- The variant gives an option that zod accepts. -/
def okVariant (tag : Tag) (v : Variant) : Bool :=
  (v.style != .named || goodKeysB (keptNames v.fields)) &&
  match tag with
  | .external => v.name != lit "__proto__"
  | .internal t => goodKeysB [t] && v.name != lit "__proto__" && (v.style != .named || !(keptNames v.fields).contains t)
  | .adjacent t c => goodKeysB [t, c]
  | .untagged => true

theorem okVariant_sound {tag : Tag} {v : Variant} (h : okVariant tag v = true) : OkVariant tag v := by
  simp only [okVariant, Bool.and_eq_true, Bool.or_eq_true, bne_iff_ne] at h
  refine ⟨fun e => goodKeysB_sound (h.1.resolve_left (fun h => h e)), ?_⟩
  have h := h.2
  cases tag with
  | external => simpa using h
  | internal t =>
    simp only [Bool.and_eq_true, Bool.or_eq_true, bne_iff_ne] at h
    exact ⟨goodKeysB_sound h.1.1, h.1.2, fun e => by simpa using h.2.resolve_left (fun h => h e)⟩
  | adjacent t c => exact goodKeysB_sound h
  | untagged => trivial

/-- No internally tagged enum has a tuple variant. -/
def noTaggedTuple (e : EnumDecl) : Bool :=
  match e.tag with
  | .internal _ => decide ((e.variants.filter (fun v => !v.skipDe)).length ≤ 1) ||
      e.variants.all (fun v => v.skipDe || v.style != .tuple || (fieldTypes v.fields).isEmpty)
  | _ => true

theorem noTaggedTuple_sound {e : EnumDecl} (h : noTaggedTuple e = true) : NoTaggedTuple e := by
  unfold noTaggedTuple at h
  unfold NoTaggedTuple
  cases ht : e.tag with
  | internal t =>
    rw [ht] at h
    simp only [Bool.or_eq_true, decide_eq_true_eq, List.all_eq_true, bne_iff_ne, List.isEmpty_iff] at h
    refine h.imp id (fun h v hv h1 h2 => ?_)
    rcases h v hv with (h | h) | h
    · rw [h1] at h; cases h
    · exact absurd h2 h
    · exact h
  | _ => trivial

/-- Building the schema of the declaration does not throw. -/
def noThrow (d : Decl) : Bool :=
  (declTypes d).all noBool &&
  match d with
  | .struct s => s.transparent || s.style != .named || goodKeysB (keptNames (s.fields.filter (fun f => !f.flatten)))
  | .enum e => e.variants.all (fun v => v.skipDe || okVariant e.tag v) && noTaggedTuple e &&
      decide ((e.variants.filter (fun v => !v.skipDe)).map (·.name)).Nodup

theorem noThrow_sound {d : Decl} (h : noThrow d = true) : NoThrow d := by
  simp only [noThrow, Bool.and_eq_true, List.all_eq_true] at h
  refine ⟨h.1, ?_⟩
  have h := h.2
  cases d with
  | struct s =>
    simp only [Bool.or_eq_true, bne_iff_ne] at h
    intro h1 h2
    rcases h with (h | h) | h
    · rw [h1] at h; cases h
    · exact absurd h2 h
    · exact goodKeysB_sound h
  | enum e =>
    simp only [Bool.and_eq_true, List.all_eq_true, Bool.or_eq_true, decide_eq_true_eq] at h
    refine ⟨fun v hv hs => ?_, noTaggedTuple_sound h.1.2, h.2⟩
    rcases h.1.1 v hv with h | h
    · rw [hs] at h; cases h
    · exact okVariant_sound h

/-! ## `Plain`, `BrokenInterface` -/

/-- Decides `Plain` for a declaration. -/
def plain : Decl → Bool
  | .struct s => (!(s.transparent || s.style == .tuple) || s.fields.all (fun f => f.skipDe || !f.flatten)) &&
      (!s.transparent || onlyField s.fields (fun _ => true))
  | .enum e => e.variants.all (fun v => v.style != .unit || v.fields.isEmpty)

theorem plain_sound {d : Decl} (h : plain d = true) : Plain d := by
  cases d with
  | struct s =>
    simp only [plain, Bool.and_eq_true, Bool.or_eq_true, Bool.not_eq_true', Bool.or_eq_false_iff, List.all_eq_true,
      beq_eq_false_iff_ne] at h
    refine ⟨fun hs f hf hd => ?_, fun ht => ?_⟩
    · rcases h.1 with h | h
      · rcases hs with hs | hs
        · rw [hs] at h; cases h.1
        · exact absurd hs h.2
      · rcases h f hf with h | h
        · rw [hd] at h; cases h
        · exact h
    · rcases h.2 with h | h
      · rw [ht] at h; cases h
      · obtain ⟨f, hf, _⟩ := onlyField_sound h
        exact ⟨f, hf⟩
  | enum e =>
    simp only [plain, List.all_eq_true, Bool.or_eq_true, bne_iff_ne, List.isEmpty_iff] at h
    intro v hv hs
    exact (h v hv).resolve_left (fun h => h hs)

/-- Decides that the text of the type does not fall apart behind `&`, looking `n` declarations deep. -/
def unbroken (P : Program) : Nat → Ty → Bool
  | 0, _ => false
  | n + 1, .wrap _ t => unbroken P n t
  | n + 1, .named i =>
      match P[i]? with
      | none => true
      | some (.struct s) => s.from_.ty?.isSome || s.transparent ||
          ((s.style != .tuple || (s.fields.filter (fun f => !f.skipDe)).length == 1) &&
           (s.style != .named || s.fields.all (fun f => f.skipDe || !f.flatten)))
      | some (.enum e) => fromTy (unbroken P n) e.from_
  | _ + 1, _ => true

theorem unbroken_sound (P : Program) : ∀ n t, unbroken P n t = true → ¬ BrokenInterface P t := by
  intro n
  induction n with
  | zero => intro t h; cases h
  | succ n ih =>
    intro t h hb
    cases hb with
    | tuple i s h1 h2 h3 h4 h5 =>
      simp only [unbroken, h1, h2, h3, h4] at h
      simp only [Option.isSome_none, Bool.false_or, Bool.and_eq_true, Bool.or_eq_true, bne_iff_ne, ne_eq, not_true,
        beq_iff_eq, false_or] at h
      exact h5 h.1
    | flatten i s f h1 h2 h3 h4 h5 h6 h7 =>
      simp only [unbroken, h1, h2, h3, h4] at h
      simp only [Option.isSome_none, Bool.false_or, Bool.and_eq_true, Bool.or_eq_true, bne_iff_ne, ne_eq, not_true,
        List.all_eq_true, Bool.not_eq_true', false_or] at h
      rcases h.2 f h5 with h | h
      · rw [h6] at h; cases h
      · rw [h7] at h; cases h
    | wrap w t hb => exact ih t h hb
    | enumFrom i e t h1 h2 hb =>
      simp only [unbroken, h1] at h
      exact ih t (fromTy_sound h t h2) hb

/-! ## `Guarded` -/

/-- Decides `Guarded`, looking `n` declarations deep. -/
def guarded (P : Program) : Nat → Ty → Bool
  | 0, _ => false
  | n + 1, .wrap _ t => guarded P n t
  | n + 1, .option t => guarded P n t
  | n + 1, .named i =>
      match P[i]? with
      | none => true
      | some d =>
        fromTy (guarded P n) (Decl.from_ d) &&
        match d with
        | .struct s => s.from_.ty?.isSome || !(s.transparent || s.style == .tuple) || oneField s.fields (fun f => guarded P n f.ty)
        | .enum e => e.from_.ty?.isSome || e.tag != .untagged || e.variants.all (fun v => v.skipDe || v.style != .tuple ||
            oneField v.fields (fun f => guarded P n f.ty))
  | _ + 1, _ => true

theorem guarded_sound (P : Program) : ∀ n t, guarded P n t = true → Acc (fun u t => SameValue P t u) t := by
  intro n
  induction n with
  | zero => intro t h; cases h
  | succ n ih =>
    intro t h
    refine ⟨_, fun u hu => ih u ?_⟩
    cases hu with
    | wrap w => exact h
    | option => exact h
    | from_ i d _ hd ht =>
      simp only [guarded, hd, Bool.and_eq_true] at h
      exact fromTy_sound h.1 _ ht
    | struct i s f hd hf hs hk =>
      simp only [guarded, hd, Bool.and_eq_true, hf, Option.isSome_none, Bool.false_or, Bool.or_eq_true, Bool.not_eq_true',
        Bool.or_eq_false_iff, beq_eq_false_iff_ne] at h
      rcases h.2 with h | h
      · rcases hs with hs | hs
        · rw [hs] at h; cases h.1
        · exact absurd hs h.2
      · exact oneField_sound h f hk
    | untagged i e v f hd hf he hv h1 h2 hk =>
      simp only [guarded, hd, Bool.and_eq_true, hf, Option.isSome_none, Bool.false_or, Bool.or_eq_true, bne_iff_ne,
        List.all_eq_true] at h
      rcases h.2 with h | h
      · exact absurd he h
      · rcases h v hv with (h | h) | h
        · rw [h1] at h; cases h
        · exact absurd h2 h
        · exact oneField_sound h f hk

/-- All declarations pass. -/
def guardedAll (P : Program) (n : Nat) : Bool := (List.range P.length).all (fun i => guarded P n (.named i))

theorem guardedAll_sound {P : Program} {n : Nat} (h : guardedAll P n = true) : Guarded P := by
  intro i
  rw [← acc_iff_not_endless]
  by_cases hi : i < P.length
  · exact guarded_sound P n _ (List.all_eq_true.1 h i (List.mem_range.2 hi))
  · have hn : P[i]? = none := List.getElem?_eq_none (by omega)
    refine ⟨_, fun u hu => ?_⟩
    exfalso
    cases hu with
    | from_ _ d _ hd => rw [hn] at hd; cases hd
    | struct _ s f hd => rw [hn] at hd; cases hd
    | untagged _ e v f hd => rw [hn] at hd; cases hd

/-! ## `NoFlattenedUnion` -/

/-- No flattened field without default has a text that falls apart. -/
def noFlattenedUnion (P : Program) (n : Nat) : Bool :=
  P.all (fun d => match d with
    | .struct s => s.from_.ty?.isSome || s.fields.all (fun f => f.skipDe || !f.flatten || f.dflt ||
        match eval P n .inline f.ty with
        | some text => match readType (lit "null & " ++ text) with
          | some (.union _) => false
          | _ => true
        | none => false)
    | .enum _ => true)

theorem noFlattenedUnion_sound {P : Program} {n : Nat} (h : noFlattenedUnion P n = true) : NoFlattenedUnion P := by
  rintro s hs h0 f hf h1 h2 h3 text hr ⟨ts, he⟩
  have := List.all_eq_true.1 h _ hs
  simp only [h0, Option.isSome_none, Bool.false_or, List.all_eq_true] at this
  have := this f hf
  simp only [h1, h2, h3, Bool.false_or, Bool.not_true] at this
  split at this
  · rename_i text' ht
    have e := returns_unique hr ⟨n, ht⟩
    subst e
    rw [he] at this
    cases this
  · cases this

end Verif.Check
