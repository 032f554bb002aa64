import Verif.Zod.Sound
import Verif.Spec.Sent

/-!
# Schemas accept only what serde accepts, for the value that was validated

Like `Verif/Zod/Sound.lean`, for the value itself instead of the result of parsing it.
-/

namespace Verif.Zod
open Verif Verif.Js Verif.Schema Verif.Spec Verif.SchemaSpec

variable {wd : Bool}

/-- A value that can be sent, and the result of validating it. -/
def Sent (wd : Bool) (v r : JsVal) : Prop := plainJs wd v = true ∧ properJs v = true ∧ Kept v r

theorem properList_mem {l : List JsVal} (h : properJs.properList l = true) : ∀ v ∈ l, properJs v = true := by
  induction l with
  | nil => simp
  | cons a l ih =>
    simp only [properJs.properList, Bool.and_eq_true] at h
    intro v hv
    rcases List.mem_cons.1 hv with rfl | hv
    · exact h.1
    · exact ih h.2 v hv

theorem properObj_mem {l : List (Str × JsVal)} (h : properJs.properObj l = true) :
    ∀ p ∈ l, properJs p.2 = true := by
  induction l with
  | nil => simp
  | cons a l ih =>
    simp only [properJs.properObj, Bool.and_eq_true] at h
    intro v hv
    rcases List.mem_cons.1 hv with rfl | hv
    · exact h.1
    · exact ih h.2 v hv

theorem sent_arr {l rs : List JsVal} (h : Sent wd (.arr l) (.arr rs)) : All2 (Sent wd) l rs := by
  obtain ⟨h1, h2, h3⟩ := h
  replace h1 := plainList_mem h1
  replace h2 := properList_mem h2
  cases h3 with
  | leaf _ h => exact absurd rfl (h l)
  | arr _ _ h3 =>
    induction h3 with
    | nil => exact .nil
    | cons h _ ih =>
      exact .cons ⟨h1 _ List.mem_cons_self, h2 _ List.mem_cons_self, h⟩
        (ih (fun v hv => h1 v (List.mem_cons_of_mem _ hv)) (fun v hv => h2 v (List.mem_cons_of_mem _ hv)))

theorem objGet_cases (kvs : List (Str × JsVal)) (k : Str) :
    objGet kvs k = .undefined ∧ objHas kvs k = false ∨ ∃ p ∈ kvs, p.1 = k ∧ objGet kvs k = p.2 := by
  unfold objGet
  cases hf : kvs.find? (fun p => p.1 = k) with
  | none =>
    refine Or.inl ⟨rfl, ?_⟩
    unfold objHas
    rw [List.any_eq_false]
    exact List.find?_eq_none.1 hf
  | some p =>
    refine Or.inr ⟨p, List.mem_of_find?_eq_some hf, ?_, rfl⟩
    simpa using List.find?_some hf

theorem sent_get {kvs : List (Str × JsVal)} (h1 : plainJs wd (.obj kvs) = true) (h2 : properJs (.obj kvs) = true)
    (k : Str) : plainJs wd (objGet kvs k) = true ∧ properJs (objGet kvs k) = true := by
  rw [properJs, Bool.and_eq_true] at h2
  rcases objGet_cases kvs k with ⟨e, _⟩ | ⟨p, hp, _, e⟩
  · rw [e]; exact ⟨rfl, rfl⟩
  · rw [e]; exact ⟨plainObj_mem h1 p hp, properObj_mem h2.2 p hp⟩

theorem sent_obj {kvs : List (Str × JsVal)} {keys : List Str} {rs : List JsVal}
    (h : Sent wd (.obj kvs) (.obj (mkObj kvs keys rs))) (hl : keys.length = rs.length) :
    All2 (fun k r => Sent wd (objGet kvs k) r) keys rs := by
  obtain ⟨h1, h2, h3⟩ := h
  have key : ∀ p ∈ keys.zip rs, Kept (objGet kvs p.1) p.2 := by
    intro p hp
    generalize hv0 : mkObj kvs keys rs = kvs' at h3
    cases h3 with
    | leaf _ _ h => exact absurd rfl (h kvs)
    | obj _ _ _ h3 =>
      subst hv0
      by_cases hm : p ∈ mkObj kvs keys rs
      · exact h3 p hm
      · have : ¬ (_ = true) := fun hq => hm (List.mem_filter.2 ⟨hp, hq⟩)
        cases hv : p.2 with
        | undefined =>
          rw [hv] at this
          rcases objGet_cases kvs p.1 with ⟨e, _⟩ | ⟨q, hq, e, _⟩
          · rw [e]; exact .leaf _ (by simp) (by simp)
          · exfalso
            apply this
            have : objHas kvs p.1 = true := List.any_eq_true.2 ⟨q, hq, by simpa using e⟩
            simp [this]
        | _ => exfalso; apply this; rw [hv]; simp
  clear h3
  induction keys generalizing rs with
  | nil => cases rs with
    | nil => exact .nil
    | cons _ _ => cases hl
  | cons k keys ih =>
    cases rs with
    | nil => cases hl
    | cons r rs =>
      obtain ⟨a, b⟩ := sent_get h1 h2 k
      exact .cons ⟨a, b, key (k, r) List.mem_cons_self⟩
        (ih (by simpa using hl) fun p hp => key p (List.mem_cons_of_mem _ hp))

/-! ## Printing -/

theorem stringifyList_some {l : List JsVal} (h : ∀ v ∈ l, ∃ o, stringify v = some o) :
    ∃ js, stringify.stringifyList l = some js := by
  induction l with
  | nil => exact ⟨[], rfl⟩
  | cons v l ih =>
    obtain ⟨o, ho⟩ := h v List.mem_cons_self
    obtain ⟨js, hj⟩ := ih fun v hv => h v (List.mem_cons_of_mem _ hv)
    exact ⟨o.getD .null :: js, by rw [stringify.stringifyList, ho, hj]⟩

theorem stringifyObj_some {l : List (Str × JsVal)} (h : ∀ p ∈ l, ∃ o, stringify p.2 = some o) :
    ∃ js, stringify.stringifyObj l = some js := by
  induction l with
  | nil => exact ⟨[], rfl⟩
  | cons p l ih =>
    obtain ⟨k, v⟩ := p
    obtain ⟨o, ho⟩ := h (k, v) List.mem_cons_self
    obtain ⟨js, hj⟩ := ih fun v hv => h v (List.mem_cons_of_mem _ hv)
    cases o with
    | none => exact ⟨js, by rw [stringify.stringifyObj]; simp only at ho; rw [ho, hj]⟩
    | some j => exact ⟨(k, j) :: js, by rw [stringify.stringifyObj]; simp only at ho; rw [ho, hj]⟩

mutual
theorem plain_stringify : ∀ v : JsVal, plainJs wd v = true → ∃ o, stringify v = some o
  | .undefined, _ => ⟨_, rfl⟩
  | .null, _ => ⟨_, rfl⟩
  | .bool _, _ => ⟨_, rfl⟩
  | .num (.fin _), _ => ⟨_, rfl⟩
  | .num .posInf, _ => ⟨_, rfl⟩
  | .num .negInf, _ => ⟨_, rfl⟩
  | .num .nan, _ => ⟨_, rfl⟩
  | .str _, _ => ⟨_, rfl⟩
  | .badStr _, h => by cases h
  | .arr l, h => by
    obtain ⟨js, hj⟩ := stringifyList_some (plain_list l h)
    exact ⟨_, stringify_arr hj⟩
  | .obj kvs, h => by
    obtain ⟨js, hj⟩ := stringifyObj_some (plain_obj kvs h)
    exact ⟨_, stringify_obj hj⟩
  | .set _, _ => ⟨_, rfl⟩
  | .map _, _ => ⟨_, rfl⟩
  | .other, _ => ⟨_, rfl⟩
theorem plain_list : ∀ l : List JsVal, plainJs.plainList wd l = true → ∀ v ∈ l, ∃ o, stringify v = some o
  | [], _ => by simp
  | a :: l, h => by
    simp only [plainJs.plainList, Bool.and_eq_true] at h
    intro v hv
    rcases List.mem_cons.1 hv with e | hv
    · rw [e]; exact plain_stringify a h.1
    · exact plain_list l h.2 v hv
theorem plain_obj : ∀ l : List (Str × JsVal), plainJs.plainObj wd l = true → ∀ p ∈ l, ∃ o, stringify p.2 = some o
  | [], _ => by simp
  | (k, a) :: l, h => by
    simp only [plainJs.plainObj, Bool.and_eq_true] at h
    intro v hv
    rcases List.mem_cons.1 hv with e | hv
    · rw [e]; exact plain_stringify a h.1
    · exact plain_obj l h.2 v hv
end

theorem stringify_none {v : JsVal} (h : stringify v = some none) : v = .undefined ∨ v = .other := by
  cases v with
  | undefined => exact Or.inl rfl
  | other => exact Or.inr rfl
  | num x => cases x <;> simp [stringify] at h
  | _ => simp [stringify] at h

theorem objGet_cons (k : Str) (v : JsVal) (l : List (Str × JsVal)) (k' : Str) :
    objGet ((k, v) :: l) k' = if k = k' then v else objGet l k' := by
  unfold objGet
  rw [List.find?_cons]
  by_cases h : k = k'
  · simp [h]
  · simp [h]

theorem objGet_none {l : List (Str × JsVal)} {k : Str} (h : k ∉ l.map (·.1)) : objGet l k = .undefined := by
  rcases objGet_cases l k with ⟨e, _⟩ | ⟨p, hp, e, _⟩
  · exact e
  · exact absurd (List.mem_map.2 ⟨p, hp, e⟩) h

theorem kvs_printed {kvs : List (Str × JsVal)} (hd : (kvs.map (·.1)).Nodup)
    (h : ∀ p ∈ kvs, ∃ o, stringify p.2 = some o) :
    ∃ out, stringify.stringifyObj kvs = some out ∧ (out.map (·.1)).Nodup ∧
      (∀ k ∈ out.map (·.1), k ∈ kvs.map (·.1)) ∧ out.length = (written kvs).length ∧
      ∀ k, stringify (objGet kvs k) = some (jget out k) := by
  induction kvs with
  | nil => exact ⟨[], rfl, by simp, by simp, rfl, fun k => rfl⟩
  | cons p l ih =>
    obtain ⟨k, v⟩ := p
    rw [List.map_cons, List.nodup_cons] at hd
    obtain ⟨out, ho, hn, hm, hl, hg⟩ := ih hd.2 fun p hp => h p (List.mem_cons_of_mem _ hp)
    have hk : k ∉ out.map (·.1) := fun hk => hd.1 (hm k hk)
    obtain ⟨o, hv⟩ := h (k, v) List.mem_cons_self
    simp only at hv
    cases o with
    | none =>
      refine ⟨out, by rw [stringify.stringifyObj, hv, ho], hn, fun k hk => List.mem_cons_of_mem _ (hm k hk), ?_, ?_⟩
      · rw [hl]
        rcases stringify_none hv with rfl | rfl <;> simp [written]
      · intro k'
        rw [objGet_cons]
        by_cases e : k = k'
        · subst e; rw [if_pos rfl, jget_none hk, hv]
        · rw [if_neg e]; exact hg k'
    | some j =>
      refine ⟨(k, j) :: out, by rw [stringify.stringifyObj, hv, ho], ?_, ?_, ?_, ?_⟩
      · rw [List.map_cons, List.nodup_cons]; exact ⟨hk, hn⟩
      · intro k' hk'
        rw [List.map_cons] at hk' ⊢
        rcases List.mem_cons.1 hk' with e | hk'
        · rw [e]; exact List.mem_cons_self
        · exact List.mem_cons_of_mem _ (hm _ hk')
      · have : written ((k, v) :: l) = (k, v) :: written l := by
          unfold written
          rw [List.filter_cons]
          cases v with
          | undefined => cases hv
          | other => cases hv
          | _ => rfl
        rw [this]; simp [hl]
      · intro k'
        rw [objGet_cons, jget_cons]
        by_cases e : k = k'
        · rw [if_pos e, if_pos e, hv]
        · rw [if_neg e, if_neg e]; exact hg k'

/-- The printed object. -/
theorem obj_printed {kvs : List (Str × JsVal)} {r : JsVal} (h : Sent wd (.obj kvs) r) :
    ∃ out, stringify (.obj kvs) = some (some (.obj out)) ∧ (out.map (·.1)).Nodup ∧
      out.length = (written kvs).length ∧ ∀ k, stringify (objGet kvs k) = some (jget out k) := by
  have h2 := h.2.1
  rw [properJs, Bool.and_eq_true] at h2
  obtain ⟨out, ho, hn, _, hl, hg⟩ := kvs_printed (by simpa using h2.1) (plain_obj kvs h.1)
  exact ⟨out, stringify_obj ho, hn, hl, hg⟩

/-- If the result has just one property, so has the printed object. -/
theorem one_printed {kvs : List (Str × JsVal)} {a : Str} {r1 : JsVal}
    (h : Sent wd (.obj kvs) (.obj (mkObj kvs [a] [r1]))) {j : Json} (hj : stringify (objGet kvs a) = some (some j)) :
    stringify (.obj kvs) = some (some (.obj [(a, j)])) := by
  obtain ⟨out, ho, hn, hl, hg⟩ := obj_printed h
  have hm : All2 (fun k r => Sent wd (objGet kvs k) r) [a] [r1] := sent_obj h rfl
  have hr : r1 ≠ .undefined ∧ r1 ≠ .other := by
    cases hm with
    | cons hs _ =>
      have := hs.2.2
      constructor
      · rintro rfl
        generalize objGet kvs a = x at this hj
        cases this with
        | leaf => cases hj
      · rintro rfl
        generalize objGet kvs a = x at this hj
        cases this with
        | leaf => cases hj
  have hw : (written (mkObj kvs [a] [r1])).length = 1 := by
    obtain ⟨h1, h2⟩ := hr
    unfold written mkObj
    cases r1 <;> simp_all
  have h1 : (written kvs).length = 1 := by
    have h3 := h.2.2
    generalize mkObj kvs [a] [r1] = kvs' at h3 hw
    cases h3 with
    | leaf _ _ h => exact absurd rfl (h kvs)
    | obj _ _ h3 _ => exact h3 hw
  rw [h1] at hl
  have hga := hg a
  rw [hj] at hga
  injection hga with hga
  rcases out with _ | ⟨⟨k, j'⟩, _ | ⟨_, _⟩⟩
  · cases hl
  · rw [jget_cons] at hga
    by_cases e : k = a
    · rw [if_pos e] at hga
      injection hga with hga
      rw [ho, e, hga]
    · rw [if_neg e] at hga
      cases hga
  · simp at hl

/-! ## Soundness -/

/-- The claim for schemas parsed with `k` steps. -/
def SentAt (wd : Bool) (P : Program) (E : ZEnv) (k : Nat) : Prop :=
  ∀ (n : Nat) (m : Method) (t : Ty) (z : ZSchema) (v r : JsVal), Sound wd P t → zOf P n m t = some z →
    parse E k z v = some (some r) → Sent wd v r → Outcome P t v

theorem all2_zip_sent {α : Type} {R : α → ZSchema → Prop} {S : ZSchema × JsVal → JsVal → Prop} {Q : α → JsVal → Prop}
    {ts : List α} {zs : List ZSchema} {l rs : List JsVal} (h1 : All2 R ts zs) (hl : l.length = zs.length)
    (h2 : All2 S (zs.zip l) rs) (h3 : All2 (Sent wd) l rs)
    (h : ∀ t ∈ ts, ∀ z a r, R t z → S (z, a) r → Sent wd a r → Q t a) : All2 Q ts l := by
  induction h1 generalizing l rs with
  | nil => cases l with
    | nil => exact .nil
    | cons _ _ => cases hl
  | cons hr _ ih =>
    cases l with
    | nil => cases hl
    | cons a l =>
      cases h2 with
      | cons hs h2 =>
        cases h3 with
        | cons h3 h4 =>
          exact .cons (h _ List.mem_cons_self _ _ _ hr hs h3)
            (ih (by simpa using hl) h2 h4 fun t ht => h t (List.mem_cons_of_mem _ ht))

theorem tuple_sent {P : Program} {E : ZEnv} {k : Nat} (ih : SentAt wd P E k) {ts : List Ty} {zs : List ZSchema}
    (hz : All2 (fun t z => ∃ n m, zOf P n m t = some z) ts zs) (hs : ∀ t ∈ ts, Sound wd P t) {v r : JsVal}
    (h : parse E (k + 1) (.tuple zs) v = some (some r)) (hp : Sent wd v r) :
    ∃ js, stringify v = some (some (.arr js)) ∧ All2 (De P) ts js := by
  obtain ⟨l, rs, rfl, rfl, hl, ha⟩ := parse_tuple h
  have hout : All2 (Outcome P) ts l := by
    refine all2_zip_sent hz hl ha (sent_arr hp) ?_
    rintro t ht z a r ⟨n, m, hz⟩ hpa hpr
    exact ih n m t z a r (hs t ht) hz hpa hpr
  obtain ⟨js, hj, hd⟩ := outcome_list hout
  exact ⟨js, stringify_arr hj, hd⟩

/-- A named field. -/
theorem field_sent {P : Program} {E : ZEnv} (hE : EnvOk P E) (hw : WellStyled P) (hpl : ∀ d ∈ P, Plain d)
    {k n : Nat} (ih : SentAt wd P E k) {f : Field} (hs : f.flatten = false ∧ Sound wd P f.ty ∧
      (f.dflt = true ∨ NeverUndef P f.ty ∨ MissingOk P f.ty)) (hal : f.aliases = []) {z : ZSchema}
    (hz : vfieldZ (zOf P n) f = some z) {v r : JsVal} (h : parse E k z v = some (some r))
    (hp : Sent wd v r) :
    ∀ out, stringify v = some (jget out f.name) → DeField P f out := by
  obtain ⟨hfl, hsd, hu⟩ := hs
  have all : ∀ {out : List (Str × Json)}, jget out f.name = none → ∀ a ∈ f.name :: f.aliases, jget out a = none := by
    intro out h a ha
    rw [hal, List.mem_singleton] at ha
    rw [ha, h]
  have fin : Outcome P f.ty v → (v = .undefined → f.dflt = true ∨ MissingOk P f.ty) →
      ∀ out, stringify v = some (jget out f.name) → DeField P f out := by
    intro ho hund out hout
    rcases ho with ⟨rfl, _⟩ | ⟨j, hj, hde⟩
    · have hout : jget out f.name = none := by
        have : some (none : Option Json) = some (jget out f.name) := hout
        injection this with this
        exact this.symm
      rcases hund rfl with hd | hm
      · exact .default f out hfl (all hout) hd
      · exact .missing f out hfl (all hout) hm
    · rw [hj] at hout
      injection hout with hout
      exact .present f out j hfl hout.symm (by rw [hal]; simp) hde
  unfold vfieldZ optZ at hz
  cases hd : f.dflt with
  | true =>
    rw [hd] at hz
    rw [if_pos rfl] at hz
    cases hz0 : zOf P n .inlineSchema f.ty with
    | none => rw [hz0] at hz; cases hz
    | some z0 =>
      rw [hz0] at hz
      injection hz with hz
      subst hz
      cases k with
      | zero => cases h
      | succ k =>
        rcases parse_optional h with ⟨rfl, _⟩ | ⟨_, h⟩
        · intro out hout
          have : some (none : Option Json) = some (jget out f.name) := hout
          injection this with this
          exact .default f out hfl (all this.symm) hd
        · exact fin (ih n _ _ _ v r hsd hz0 (parse_mono_succ _ _ _ _ _ h) hp) (fun _ => Or.inl hd)
  | false =>
    rw [hd] at hz
    rw [if_neg (by simp)] at hz
    refine fin (ih n _ _ _ v r hsd hz h hp) fun hv => ?_
    subst hv
    rcases hu with hu | hu | hu
    · exact Or.inl (hd ▸ hu)
    · exact absurd h (never_undef hE hw hpl hu k n _ z _ hz)
    · exact Or.inr hu

/-- Named fields, among possibly other properties of an object. -/
theorem fields_sent {P : Program} {E : ZEnv} (hE : EnvOk P E) (hw : WellStyled P) (hpl : ∀ d ∈ P, Plain d)
    {k n : Nat} (ih : SentAt wd P E k) {fs : List Field} (hs : SoundFields wd P .named fs)
    (hal : ∀ f ∈ fs, f.aliases = []) {kvs : List (Str × JsVal)}
    {rs : List JsVal} (h : All2 (fun f r => ∃ z, vfieldZ (zOf P n) f = some z ∧
      parse E k z (objGet kvs f.name) = some (some r)) (keptFields fs) rs)
    (hp : All2 (fun f r => Sent wd (objGet kvs (Field.name f)) r) (keptFields fs) rs) {out : List (Str × Json)}
    (hg : ∀ k, stringify (objGet kvs k) = some (jget out k)) : ∀ f ∈ keptFields fs, DeField P f out := by
  have hs : ∀ f ∈ keptFields fs, f.flatten = false ∧ Sound wd P f.ty ∧
      (f.dflt = true ∨ NeverUndef P f.ty ∨ MissingOk P f.ty) :=
    fun f hf => ⟨(hs f hf).1, (hs f hf).2.1, (hs f hf).2.2.1⟩
  have hal : ∀ f ∈ keptFields fs, f.aliases = [] := fun f hf => hal f (List.mem_filter.1 hf).1
  generalize keptFields fs = l at h hs hal hp ⊢
  induction h with
  | nil => simp
  | cons h1 _ ihl =>
    cases hp with
    | cons hp1 hp2 =>
      obtain ⟨z, hz, h1⟩ := h1
      intro f hf
      rcases List.mem_cons.1 hf with e | hf
      · subst e
        exact field_sent hE hw hpl ih (hs _ List.mem_cons_self) (hal _ List.mem_cons_self) hz h1 hp1 out (hg _)
      · exact ihl (fun f hf => hs f (List.mem_cons_of_mem _ hf)) (fun f hf => hal f (List.mem_cons_of_mem _ hf)) hp2 f hf

/-- The schema of the fields of a struct or variant. -/
theorem body_sent {P : Program} {E : ZEnv} (hE : EnvOk P E) (hw : WellStyled P) (hpl : ∀ d ∈ P, Plain d)
    {k n : Nat} (ih : SentAt wd P E k)
    (ihn : ∀ (m : Method) (t : Ty) (z : ZSchema) (v r : JsVal), Sound wd P t → zOf P n m t = some z →
      parse E (k + 1) z v = some (some r) → Sent wd v r → Outcome P t v)
    {style : Style} {fs : List Field} (hs : SoundFields wd P style fs) (hal : ∀ f ∈ fs, f.aliases = []) {z : ZSchema}
    (hz : bodyZ (zOf P n) style (keptFields fs) = some z) {v r : JsVal}
    (h : parse E (k + 1) z v = some (some r)) (hp : Sent wd v r) : BodyOutcome P none style fs v := by
  cases style with
  | unit => cases hz
  | named =>
    obtain ⟨kvs, rs, rfl, hd, rfl, ha⟩ := objZ_parse hz h
    have hlen := All2.length ha
    have ha := All2.of_map_left ha
    have hp2 := sent_obj hp (by simpa using hlen)
    rw [List.map_map] at hp2
    have hp2 := All2.of_map_left hp2
    obtain ⟨out, ho, hn, _, hg⟩ := obj_printed hp
    exact Or.inr ⟨.obj out, ho, .named none fs out hn (fun _ h => by cases h) (fun f hf hsk _ =>
      fields_sent hE hw hpl ih hs hal ha hp2 hg f (kept_keep hf hsk))
      (fun f hf hsk hfl => absurd hfl (by rw [(hs f (kept_keep hf hsk)).1]; simp))⟩
  | tuple =>
    obtain ⟨hlen, hfs⟩ := hs
    rcases hlen with ⟨h1, h2⟩ | ⟨h1, h2⟩
    · -- newtype
      obtain ⟨f, rfl⟩ : ∃ f, fs = [f] := by
        rcases fs with _ | ⟨f, _ | ⟨b, r⟩⟩ <;> simp at h1
        exact ⟨f, rfl⟩
      have hk : f.skipDe = false := by
        cases hk : f.skipDe with
        | false => rfl
        | true => simp [keptFields, hk] at h2
      have hkf : keptFields [f] = [f] := by simp [keptFields, hk]
      rw [hkf] at hz hfs
      obtain ⟨hd, hsd⟩ := hfs f List.mem_cons_self
      simp only [bodyZ, tupleFieldsZ, vfieldZ, optZ, hd] at hz
      rcases ihn _ _ _ _ _ hsd hz h hp with ⟨rfl, hde⟩ | ⟨j, hj, hde⟩
      · exact Or.inl ⟨rfl, .newtype none f _ hk hde⟩
      · exact Or.inr ⟨j, hj, .newtype none f _ hk hde⟩
    · -- tuple
      have hz' : ∃ zs, allSome ((keptFields fs).map (vfieldZ (zOf P n))) = some zs ∧ z = .tuple zs := by
        simp only [bodyZ] at hz
        generalize keptFields fs = l at *
        rcases l with _ | ⟨a, _ | ⟨b, r⟩⟩
        · simp at h2
        · simp at h2
        · simp only [tupleFieldsZ] at hz
          cases ha : allSome (List.map (vfieldZ (zOf P n)) (a :: b :: r)) with
          | none => rw [ha] at hz; cases hz
          | some zs => rw [ha] at hz; injection hz with hz; exact ⟨zs, rfl, hz.symm⟩
      obtain ⟨zs, ha, rfl⟩ := hz'
      have hz2 : All2 (fun t z => ∃ n m, zOf P n m t = some z) ((keptFields fs).map (·.ty)) zs := by
        refine all2_map_left (All2.imp_mem (allSome_all2 ha) fun f hf z hz => ?_)
        simp only [vfieldZ, optZ, (hfs f hf).1] at hz
        exact ⟨n, .inlineSchema, hz⟩
      obtain ⟨js, hj, hde⟩ := tuple_sent ih hz2 (by
        intro t ht
        obtain ⟨f, hf, rfl⟩ := List.mem_map.1 ht
        exact (hfs f hf).2) h hp
      exact Or.inr ⟨.arr js, hj, .tuple none fs js h1 hde⟩

theorem body_defined' {P : Program} {E : ZEnv} (hE : EnvOk P E) (hw : WellStyled P) (hpl : ∀ d ∈ P, Plain d)
    {k n : Nat} {style : Style} {fs : List Field} (hs : SoundFields wd P style fs)
    (hn : style = .tuple → ∀ f, keptFields fs = [f] → NeverUndef P f.ty) {z : ZSchema}
    (hz : bodyZ (zOf P n) style (keptFields fs) = some z) {r : JsVal} :
    parse E k z .undefined ≠ some (some r) := by
  intro h
  cases style with
  | unit => cases hz
  | named => exact never_obj hz h
  | tuple =>
    refine never_tupleFields hz (fun f hk z hz k r => ?_) k _ h
    have hd := (hs.2 f (by rw [hk]; exact List.mem_cons_self)).1
    simp only [vfieldZ, optZ, hd] at hz
    exact never_undef hE hw hpl (hn rfl f hk) k n _ z r hz

theorem lit_sent {E : ZEnv} {k : Nat} {s : Str} {v r : JsVal}
    (h : parse E k (.literal s) v = some (some r)) : v = .str s := by
  cases k with
  | zero => cases h
  | succ k => obtain ⟨rfl, _⟩ := parse_literal h; rfl

theorem variant_sent {P : Program} {E : ZEnv} (hE : EnvOk P E) (hw : WellStyled P) (hpl : ∀ d ∈ P, Plain d)
    {k n : Nat} (ih : SentAt wd P E k)
    (ihn : ∀ (m : Method) (t : Ty) (z : ZSchema) (v r : JsVal), Sound wd P t → zOf P n m t = some z →
      parse E (k + 1) z v = some (some r) → Sent wd v r → Outcome P t v)
    {i : Nat} {e : EnumDecl} (hi : P[i]? = some (.enum e)) (hdn : e.deny = false)
    (hal : ∀ v ∈ e.variants, ∀ f ∈ v.fields, f.aliases = []) (hf : e.from_ = .none)
    (hdv : DistinctVariants e)
    {v : Variant} (hv : v ∈ e.kept) (hsv : SoundVariant wd P e.tag v) {z : ZSchema}
    (hz : variantZ (zOf P n) e.tag v = some z) {a r : JsVal}
    (h : parse E (k + 1) z a = some (some r)) (hp : Sent wd a r) : Outcome P (.named i) a := by
  have hfn := firstNamed hdv hv
  have hvm := List.mem_filter.1 hv
  have hvk : v.skipDe = false := by simpa using hvm.2
  obtain ⟨hsf, hst⟩ := hsv
  have hoth : ∀ l, others e.deny l = none := fun l => by rw [hdn]; rfl
  -- the body, inside of an object
  have inner : ∀ z a r, bodyZ (zOf P n) (deStyle v) (keptFields v.fields) = some z →
      parse E k z a = some (some r) → Sent wd a r → BodyOutcome P none (deStyle v) v.fields a :=
    fun z a r hz h hp => body_sent hE hw hpl ih ihn hsf (hal v hvm.1) hz (parse_mono_succ _ _ _ _ _ h) hp
  have defd : ((deStyle v) = .tuple → ∀ f, keptFields v.fields = [f] → NeverUndef P f.ty) → ∀ z a r,
      bodyZ (zOf P n) (deStyle v) (keptFields v.fields) = some z →
      parse E k z a = some (some r) → Sent wd a r →
      ∃ j, stringify a = some (some j) ∧ DeBody P none (deStyle v) v.fields j := by
    intro hne z a r hz h hp
    rcases inner z a r hz h hp with ⟨rfl, _⟩ | h'
    · exact absurd h (body_defined' hE hw hpl hsf hne hz)
    · exact h'
  -- the schema of a variant with fields
  have tup : (deStyle v) = .tuple → ∃ f fs, v.kept = f :: fs := by
    intro ht
    cases hk : v.kept with
    | nil => exact absurd hk (payload_ne hsf ht)
    | cons f fs => exact ⟨f, fs, rfl⟩
  cases htag : e.tag with
  | external =>
    rw [htag] at hz hst
    have pay : objZ [(v.name, bodyZ (zOf P n) (deStyle v) (keptFields v.fields))] = some z →
        Outcome P (.named i) a := by
      intro hz
      obtain ⟨kvs, rs, rfl, hd, rfl, ha⟩ := objZ_parse hz h
      cases ha with
      | cons h1 h2 =>
        cases h2
        obtain ⟨z, hz, h1⟩ := h1
        have hs1 := sent_obj hp rfl
        cases hs1 with
        | cons hs1 _ =>
          obtain ⟨j, hj, hb⟩ := defd hst z _ _ hz h1 hs1
          exact Or.inr ⟨_, one_printed hp hj, .external i e v j hi hf htag hfn (hoth _ ▸ hb)⟩
    rw [variantZ_de] at hz
    cases hs : (deStyle v) with
    | unit =>
      rw [hs] at hz
      injection hz with hz
      subst hz
      obtain ⟨rfl, _⟩ := parse_literal h
      exact Or.inr ⟨_, rfl, .externalUnit i e v hi hf htag hfn hs⟩
    | tuple =>
      obtain ⟨f, fs, hk⟩ := tup hs
      rw [hs] at hz pay
      simp only [tupleVariantZ, hk] at hz
      exact pay (by rw [show keptFields v.fields = v.kept from rfl, hk]; exact hz)
    | named =>
      rw [hs] at hz pay
      exact pay hz
  | internal t =>
    rw [htag] at hz hst
    rw [variantZ_de] at hz
    cases hs : (deStyle v) with
    | tuple => exact absurd hs hst.1
    | unit =>
      rw [hs] at hz
      have hz : objZ [(t, some (.literal v.name))] = some z := hz
      obtain ⟨kvs, rs, rfl, hd, rfl, ha⟩ := objZ_parse hz h
      cases ha with
      | cons h1 h2 =>
        obtain ⟨z, hz, h1⟩ := h1
        injection hz with hz
        subst hz
        have ht := lit_sent h1
        obtain ⟨out, ho, hn, _, hg⟩ := obj_printed hp
        have hgt := hg t
        simp only at ht
        rw [ht] at hgt
        injection hgt with hgt
        exact Or.inr ⟨_, ho, .internalUnit i e v t out hi hf htag hfn hs hn hgt.symm⟩
    | named =>
      rw [hs] at hz hsf
      have hz : objZ ((t, some (.literal v.name)) :: (keptFields v.fields).map
        (fun f => (f.name, vfieldZ (zOf P n) f))) = some z := hz
      obtain ⟨kvs, rs, rfl, hd, rfl, ha⟩ := objZ_parse hz h
      have hlen := All2.length ha
      cases ha with
      | @cons _ r0 _ rs h1 h2 =>
        have hp2 := sent_obj hp (by simpa using hlen)
        obtain ⟨z, hz, h1⟩ := h1
        injection hz with hz
        subst hz
        have h2 := All2.of_map_left h2
        rw [List.map_cons, List.map_map] at hp2
        cases hp2 with
        | cons _ hp2 =>
          have hp2 := All2.of_map_left hp2
          have ht := lit_sent h1
          obtain ⟨out, ho, hn, _, hg⟩ := obj_printed hp
          have hgt := hg t
          simp only at ht
          rw [ht] at hgt
          injection hgt with hgt
          have hfo := fields_sent hE hw hpl ih hsf (hal v hvm.1) h2 hp2 hg
          refine Or.inr ⟨_, ho, .internal i e v t out hi hf htag hfn hs hgt.symm ?_⟩
          rw [hs]
          rw [hoth]
          exact .named _ _ _ hn (fun _ h => by cases h) (fun f hf hsk _ => hfo f (kept_keep hf hsk))
            (fun f hf hsk hfl => absurd hfl (by rw [(hsf f (kept_keep hf hsk)).1]; simp))
  | adjacent t c =>
    rw [htag] at hz hst
    have pay : objZ [(t, some (.literal v.name)), (c, bodyZ (zOf P n) (deStyle v) (keptFields v.fields))] = some z →
        Outcome P (.named i) a := by
      intro hz
      obtain ⟨kvs, rs, rfl, hd, rfl, ha⟩ := objZ_parse hz h
      cases ha with
      | @cons _ r0 _ rs h1 h2 =>
        cases h2 with
        | @cons _ r1 _ rs h2 h3 =>
          cases h3
          obtain ⟨z, hz, h1⟩ := h1
          injection hz with hz
          subst hz
          obtain ⟨z, hz, h2⟩ := h2
          have hp2 := sent_obj hp rfl
          cases hp2 with
          | cons _ hp2 =>
            cases hp2 with
            | cons hp2 _ =>
              obtain ⟨j, hj, hb⟩ := defd hst.2 z _ _ hz h2 hp2
              have ht := lit_sent h1
              obtain ⟨out, ho, hn, _, hg⟩ := obj_printed hp
              have hgt := hg t
              have hgc := hg c
              simp only at ht hj
              rw [ht] at hgt
              rw [hj] at hgc
              injection hgt with hgt
              injection hgc with hgc
              exact Or.inr ⟨_, ho, .adjacent i e v t c out j hi hf htag hfn hn hgt.symm hgc.symm
                (fun h => by rw [hdn] at h; cases h) (hoth _ ▸ hb)⟩
    rw [variantZ_de] at hz
    cases hs : (deStyle v) with
    | unit =>
      rw [hs] at hz
      have hz : objZ [(t, some (.literal v.name))] = some z := hz
      obtain ⟨kvs, rs, rfl, hd, rfl, ha⟩ := objZ_parse hz h
      cases ha with
      | cons h1 h2 =>
        cases h2
        obtain ⟨z, hz, h1⟩ := h1
        injection hz with hz
        subst hz
        have ht := lit_sent h1
        have ho := one_printed (j := .str v.name) hp (by simp only at ht; rw [ht]; rfl)
        refine Or.inr ⟨_, ho, .adjacentUnit i e v t c _ hi hf htag hfn hs (by simp)
          (by rw [jget_cons, if_pos rfl]) ?_ (fun h => by rw [hdn] at h; cases h)⟩
        rw [jget_cons, if_neg hst.1]
        rfl
    | tuple =>
      obtain ⟨f, fs, hk⟩ := tup hs
      rw [hs] at hz pay
      simp only [tupleVariantZ, hk] at hz
      exact pay (by rw [show keptFields v.fields = v.kept from rfl, hk]; exact hz)
    | named =>
      rw [hs] at hz pay
      exact pay hz
  | untagged =>
    rw [htag] at hz hst
    have pay : bodyZ (zOf P n) (deStyle v) (keptFields v.fields) = some z → Outcome P (.named i) a := by
      intro hz
      rcases body_sent hE hw hpl ih ihn hsf (hal v hvm.1) hz h hp with ⟨rfl, hb⟩ | ⟨j, hj, hb⟩
      · exact Or.inl ⟨rfl, .untagged i e v _ hi hf htag hvm.1 hvk (hoth _ ▸ hb)⟩
      · exact Or.inr ⟨j, hj, .untagged i e v _ hi hf htag hvm.1 hvk (hoth _ ▸ hb)⟩
    rw [variantZ_de] at hz
    cases hs : (deStyle v) with
    | unit =>
      rw [hs] at hz
      injection hz with hz
      subst hz
      obtain ⟨rfl, _⟩ := parse_null h
      exact Or.inr ⟨_, rfl, .untaggedUnit i e v hi hf htag hvm.1 hvk hs⟩
    | tuple =>
      obtain ⟨f, fs, hk⟩ := tup hs
      rw [hs] at hz pay
      simp only [tupleVariantZ, hk] at hz
      exact pay (by rw [show keptFields v.fields = v.kept from rfl, hk]; exact hz)
    | named =>
      rw [hs] at hz pay
      exact pay hz

/-- Built-in types: the result is the value. -/
theorem prim_same {E : ZEnv} {p : Prim} (hs : soundPrim wd p = true) {z : ZSchema} (hz : primZ p = some z) {k : Nat}
    {v r : JsVal} (h : parse E (k + 1) z v = some (some r)) : r = v := by
  cases p <;> simp only [soundPrim, Bool.false_eq_true] at hs <;> injection hz with hz <;> subst hz <;>
    first
      | exact (parse_number h).1
      | (obtain ⟨rfl, rfl⟩ := parse_null h; rfl)
      | (rcases parse_string h with ⟨_, rfl, rfl, _⟩ | ⟨_, rfl, rfl⟩ <;> rfl)

theorem sent {P : Program} {E : ZEnv} (hE : EnvOk P E) (hw : WellStyled P) (hpl : ∀ d ∈ P, Plain d)
    (hs : ∀ d ∈ P, SoundDecl wd P d) (hlax : Lax P) : ∀ k, SentAt wd P E k := by
  intro k
  induction k with
  | zero => intro n m t z v r _ _ h; cases h
  | succ k ih =>
    intro n
    induction n with
    | zero => intro m t z v r _ hz; cases hz
    | succ n ihn =>
      intro m t z v r hst hz h hp
      cases t with
      | named i =>
        obtain ⟨d, hd, hz1⟩ := zBody_some (rec := zOf P n) hz
        clear hz
        have hsd := hs d (List.mem_of_getElem? hd)
        have hpd := hpl d (List.mem_of_getElem? hd)
        have hdn := hlax d (List.mem_of_getElem? hd)
        have hwd := hw d (List.mem_of_getElem? hd)
        have lz : z = .lazy d.ns d.name → Outcome P (.named i) v := by
          rintro rfl
          obtain ⟨z, hc, h⟩ := parse_lazy h
          obtain ⟨n', hn'⟩ := hE i d z hd hc
          exact ih n' _ _ z v r hst hn' h hp
        have fr : ∀ u, Decl.from_ d = .from_ u → Outcome P u v → Outcome P (.named i) v := by
          intro u hu ho
          rcases ho with ⟨rfl, ho⟩ | ⟨j, hj, ho⟩
          · exact Or.inl ⟨rfl, .from_ i d u _ hd hu ho⟩
          · exact Or.inr ⟨j, hj, .from_ i d u _ hd hu ho⟩
        cases d with
        | struct s =>
          rcases hz1 with ⟨rfl, hz⟩ | ⟨rfl, hz⟩
          · simp only [declZ] at hz
            simp only [SoundDecl] at hsd
            cases hf : s.from_ with
            | from_ u =>
              rw [hf] at hz hsd
              exact fr u hf (ihn _ _ z v r hsd hz h hp)
            | tryFrom u => rw [hf] at hsd; exact hsd.elim
            | none =>
              rw [hf] at hz hsd
              simp only [From.ty?] at hz hsd
              cases ht : s.transparent with
              | true =>
                rw [ht, if_pos rfl] at hsd
                obtain ⟨f, hk, hdf, hfl, hsf⟩ := hsd
                rw [structZ_transparent hk hfl ht] at hz
                simp only [vfieldZ, optZ, hdf] at hz
                rcases ihn _ _ z v r hsf hz h hp with ⟨rfl, ho⟩ | ⟨j, hj, ho⟩
                · exact Or.inl ⟨rfl, .transparent i s f _ hd hf ht (innerFields_only hk hdf (sound_phantom hsf)) ho⟩
                · exact Or.inr ⟨j, hj, .transparent i s f _ hd hf ht (innerFields_only hk hdf (sound_phantom hsf)) ho⟩
              | false =>
                rw [ht, if_neg (by simp)] at hsd
                obtain ⟨hsu, hsf, hfl⟩ := hsd
                rw [structZ_body hwd hfl ht (by
                  intro htu hnil
                  rw [htu] at hsf
                  have := hsf.1
                  rw [hnil] at this
                  simp at this)] at hz
                rcases body_sent hE hw hpl ih ihn hsf hdn.2 hz h hp with ⟨rfl, ho⟩ | ⟨j, hj, ho⟩
                · exact Or.inl ⟨rfl, .struct i s _ hd hf ht (by rw [show s.deny = false from hdn.1]; exact body_deFields ho)⟩
                · exact Or.inr ⟨j, hj, .struct i s _ hd hf ht (by rw [show s.deny = false from hdn.1]; exact body_deFields ho)⟩
          · injection hz with hz; exact lz hz.symm
        | enum e =>
          simp only [SoundDecl] at hsd
          rcases hz1 with ⟨rfl, hz⟩ | ⟨rfl, hz⟩
          · simp only [declZ] at hz
            cases hf : e.from_ with
            | from_ u =>
              rw [hf] at hz hsd
              exact fr u hf (ihn _ _ z v r hsd hz h hp)
            | tryFrom u => rw [hf] at hsd; exact hsd.elim
            | none =>
              rw [hf] at hz hsd
              simp only [From.ty?] at hz hsd
              obtain ⟨x, hx, z', hz', h'⟩ := enum_parse hz h
              have hxm := List.mem_filter.1 hx
              exact variant_sent hE hw hpl ih ihn hd hdn.1 (fun v hv f hf => hdn.2 f (List.mem_flatMap.2 ⟨v, hv, hf⟩)) hf hsd.1 hx
                (hsd.2 x hxm.1 (by simpa using hxm.2)) hz' h' hp
          · simp only [declInlineZ] at hz
            cases hf : e.from_ with
            | from_ u =>
              rw [hf] at hz hsd
              exact fr u hf (ihn _ _ z v r hsd hz h hp)
            | tryFrom u => rw [hf] at hsd; exact hsd.elim
            | none =>
              rw [hf] at hz
              injection hz with hz
              exact lz hz.symm
      | prim p =>
        cases hst with
        | prim _ hpr =>
          cases m with
          | schema =>
            have e := prim_same hpr hz h
            subst e
            exact prim_outcome hpr hz h hp.1
          | inlineSchema => exact ihn .schema _ z v r (.prim p hpr) hz h hp
          | typeDef => cases hz
          | inline => cases hz
      | wrap w u =>
        cases m with
        | schema =>
          cases hst with
          | wrap _ _ hwp hsu =>
            rcases ihn .schema u z v r hsu hz h hp with ⟨rfl, ho⟩ | ⟨j, hj, ho⟩
            · exact Or.inl ⟨rfl, .wrap w u _ hwp ho⟩
            · exact Or.inr ⟨j, hj, .wrap w u _ hwp ho⟩
        | inlineSchema => exact ihn .schema _ z v r hst hz h hp
        | typeDef => cases hz
        | inline => cases hz
      | option u =>
        cases m with
        | schema =>
          cases hst with
          | option _ hsu =>
            have hz : (zOf P n .inlineSchema u).map ZSchema.optional = some z := hz
            cases hu : zOf P n .inlineSchema u with
            | none => rw [hu] at hz; cases hz
            | some z0 =>
              rw [hu] at hz
              injection hz with hz
              subst hz
              rcases parse_optional h with ⟨rfl, _⟩ | ⟨_, h⟩
              · exact Or.inl ⟨rfl, .none u⟩
              · rcases ih n _ u z0 v r hsu hu h hp with ⟨rfl, _⟩ | ⟨j, hj, ho⟩
                · exact Or.inl ⟨rfl, .none u⟩
                · exact Or.inr ⟨j, hj, .some u j ho⟩
        | inlineSchema => exact ihn .schema _ z v r hst hz h hp
        | typeDef => cases hz
        | inline => cases hz
      | vec u =>
        cases m with
        | schema =>
          cases hst with
          | vec _ hsu =>
            have hz : (zOf P n .inlineSchema u).map ZSchema.array = some z := hz
            cases hu : zOf P n .inlineSchema u with
            | none => rw [hu] at hz; cases hz
            | some z0 =>
              rw [hu] at hz
              injection hz with hz
              subst hz
              obtain ⟨l, rs, rfl, rfl, ha⟩ := parse_array h
              have hpl := sent_arr hp
              have ho : All2 (Outcome P) (l.map (fun _ => u)) l := by
                clear h hp
                induction ha with
                | nil => exact .nil
                | cons h1 _ ihl =>
                  cases hpl with
                  | cons hp1 hp2 => exact .cons (ih n _ u z0 _ _ hsu hu h1 hp1) (ihl hp2)
              obtain ⟨js, hj, hd⟩ := outcome_list ho
              refine Or.inr ⟨.arr js, stringify_arr hj, .vec u js fun j hm => ?_⟩
              obtain ⟨t', ht', hde⟩ := All2.mem_right hd hm
              obtain ⟨_, _, rfl⟩ := List.mem_map.1 ht'
              exact hde
        | inlineSchema => exact ihn .schema _ z v r hst hz h hp
        | typeDef => cases hz
        | inline => cases hz
      | tuple ts =>
        cases m with
        | schema =>
          cases hst with
          | tuple _ hts =>
            have hz : (allSome (ts.map (zOf P n .schema))).map ZSchema.tuple = some z := hz
            cases ha : allSome (ts.map (zOf P n .schema)) with
            | none => rw [ha] at hz; cases hz
            | some zs =>
              rw [ha] at hz
              injection hz with hz
              subst hz
              obtain ⟨js, hj, hd⟩ := tuple_sent ih
                (All2.imp_mem (allSome_all2 ha) fun t _ z hz => ⟨n, .schema, hz⟩) hts h hp
              exact Or.inr ⟨.arr js, hj, .tuple ts js hd⟩
        | inlineSchema => exact ihn .schema _ z v r hst hz h hp
        | typeDef => cases hz
        | inline => cases hz
      | result t e =>
        cases m with
        | schema =>
          cases hst with
          | result _ _ hs1 hs2 hn1 hn2 =>
            have hz : (match objZ [(lit "Ok", zOf P n .inlineSchema t)], objZ [(lit "Err", zOf P n .inlineSchema e)] with
              | some a, some b => some (ZSchema.union [a, b])
              | _, _ => none) = some z := hz
            have one : ∀ (key : Str) (u : Ty), Sound wd P u → NeverUndef P u →
                ∀ z', objZ [(key, zOf P n .inlineSchema u)] = some z' → parse E k z' v = some (some r) →
                ∃ j, stringify v = some (some (.obj [(key, j)])) ∧ De P u j := by
              intro key u hsu hnu z' hz' h'
              cases k with
              | zero => cases h'
              | succ k' =>
                obtain ⟨kvs, rs, rfl, hd, rfl, ha⟩ := objZ_parse hz' h'
                cases ha with
                | cons h1 h2 =>
                  cases h2
                  obtain ⟨z0, hz0, h1⟩ := h1
                  have hp1 := sent_obj hp rfl
                  cases hp1 with
                  | cons hp1 _ =>
                    have hp1 : Sent wd (objGet kvs key) _ := hp1
                    have h1 : parse E k' z0 (objGet kvs key) = some (some _) := h1
                    rcases ih n _ u z0 _ _ hsu hz0 (parse_mono_succ _ _ _ _ _ h1) hp1 with ⟨hu, _⟩ | ⟨j, hj, hde⟩
                    · rw [hu] at h1
                      exact absurd h1 (never_undef hE hw hpl hnu _ n _ z0 _ hz0)
                    · exact ⟨j, one_printed hp hj, hde⟩
            split at hz
            · rename_i a b ha hb
              injection hz with hz
              subst hz
              obtain ⟨z', hm, h'⟩ := parse_union h
              rcases List.mem_cons.1 hm with rfl | hm
              · obtain ⟨j, hj, hde⟩ := one _ t hs1 hn1 _ ha h'
                exact Or.inr ⟨_, hj, .ok t e j hde⟩
              · rw [List.mem_singleton] at hm
                subst hm
                obtain ⟨j, hj, hde⟩ := one _ e hs2 hn2 _ hb h'
                exact Or.inr ⟨_, hj, .err t e j hde⟩
            · cases hz
        | inlineSchema => exact ihn .schema _ z v r hst hz h hp
        | typeDef => cases hz
        | inline => cases hz
      | array _ _ => cases hst
      | hashSet _ => cases hst
      | btreeSet _ => cases hst
      | hashMap _ t =>
        cases m with
        | schema =>
          match hst with
          | .hashMap p _ ht =>
            simp only [zOf, zBody, Option.bind_eq_some_iff, Option.some.injEq] at hz
            obtain ⟨a, _, b, _, rfl⟩ := hz
            obtain ⟨_, _, rfl, _⟩ := parse_map h
            exact Or.inr ⟨.obj [], rfl, .hashMap p t [] ht (by simp)⟩
        | inlineSchema => exact ihn .schema _ z v r hst hz h hp
        | typeDef => cases hz
        | inline => cases hz
      | btreeMap _ t =>
        cases m with
        | schema =>
          match hst with
          | .btreeMap p _ ht =>
            rcases ihn .schema (.hashMap (.prim p) t) z v r (.hashMap p t ht) hz h hp with ⟨_, hd⟩ | ⟨j, hj, hd⟩
            · cases hd
            · match hd with
              | .hashMap _ _ kvs _ hk => exact Or.inr ⟨_, hj, .btreeMap p t kvs ht hk⟩
        | inlineSchema => exact ihn .schema _ z v r hst hz h hp
        | typeDef => cases hz
        | inline => cases hz

end Verif.Zod
