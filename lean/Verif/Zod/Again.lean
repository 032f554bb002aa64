import Verif.Ts.Agree
import Verif.Zod.Term
import Verif.Zod.Unwrap
import Verif.Spec.Again

/-!
# Parsing the result of parsing (proof helper)
-/

namespace Verif.Zod
open Verif Verif.Js Verif.Schema Verif.Spec Verif.SchemaSpec Verif.Ts

/-- No schema of the list accepts what a later one returns. -/
def Apart (E : ZEnv) (zs : List ZSchema) : Prop :=
  zs.Pairwise (fun a b => ∀ k v r n r', parse E k b v = some (some r) → parse E n a r ≠ some (some r'))

/-- Schemas whose unions are of schemas that are apart. -/
inductive Steady (Q : Str → Str → Prop) (E : ZEnv) : ZSchema → Prop where
  | string (cs : List StrCheck) : Steady Q E (.string cs)
  | number (cs : List NumCheck) : Steady Q E (.number cs)
  | null : Steady Q E .null
  | literal (s : Str) : Steady Q E (.literal s)
  | broken : Steady Q E .broken
  | array {z : ZSchema} : Steady Q E z → Steady Q E (.array z)
  | set {z : ZSchema} : Steady Q E z → Steady Q E (.set z)
  | optional {z : ZSchema} : Steady Q E z → Steady Q E (.optional z)
  | map {a b : ZSchema} : Steady Q E a → Steady Q E b → Steady Q E (.map a b)
  | tuple (zs : List ZSchema) : (∀ z ∈ zs, Steady Q E z) → Steady Q E (.tuple zs)
  | union (zs : List ZSchema) : (∀ z ∈ zs, Steady Q E z) → Apart E zs → Steady Q E (.union zs)
  | object (sh : List (Str × ZSchema)) : (sh.map (·.1)).Nodup → (∀ p ∈ sh, Steady Q E p.2) → Steady Q E (.object sh)
  | disc (tag : Str) (os : List (Str × ZSchema)) : (∀ p ∈ os, Steady Q E p.2) → (∀ p ∈ os, discriminator tag p.2 = some p.1) →
      Steady Q E (.discUnion tag os)
  | lazy (ns name : Str) : Q ns name → Steady Q E (.lazy ns name)

variable {Q : Str → Str → Prop} {E : ZEnv}

theorem parse_det {n m : Nat} {z : ZSchema} {v : JsVal} {x y : Option JsVal} (h : parse E n z v = some x) (h' : parse E m z v = some y) :
    x = y := by
  have h1 := parse_mono (Nat.le_max_left n m) h
  have h2 := parse_mono (Nat.le_max_right n m) h'
  exact Option.some.inj (h1.symm.trans h2)

theorem allRes_again {α β : Type} {g : α → Res β} {l : List α} {rs : List β} {x : Option (List β)}
    (h : All2 (fun a r => ∀ y, g a = some y → y = some r) l rs) (hx : allRes (l.map g) = some x) : x = some rs := by
  induction h generalizing x with
  | nil => cases hx; rfl
  | @cons a r l rs h1 _ ih =>
    rw [List.map_cons] at hx
    cases hg : g a with
    | none => rw [hg] at hx; cases hx
    | some y =>
      rw [hg, allRes] at hx
      cases hr : allRes (l.map g) with
      | none => rw [hr] at hx; cases hx
      | some y' =>
        rw [hr] at hx
        have e1 := h1 y hg
        have e2 := ih hr
        subst e1; subst e2
        simpa using hx.symm

theorem all2_self {α β : Type} {R : α → β → Prop} {S : β → β → Prop} {l : List α} {rs : List β} (h : All2 R l rs)
    (hs : ∀ a r, R a r → S r r) : All2 S rs rs := by
  induction h with
  | nil => exact .nil
  | cons h1 _ ih => exact .cons (hs _ _ h1) ih

theorem zip_unique {keys : List Str} : ∀ {rs : List JsVal}, keys.Nodup → ∀ {key : Str} {x y : JsVal}, (key, x) ∈ keys.zip rs →
    (key, y) ∈ keys.zip rs → x = y := by
  induction keys with
  | nil => intro rs _ key x y h; simp at h
  | cons a keys ih =>
    intro rs hd key x y hx hy
    cases rs with
    | nil => simp at hx
    | cons b rs =>
      rw [List.nodup_cons] at hd
      rw [List.zip_cons_cons] at hx hy
      rcases List.mem_cons.1 hx with e | hx'
      · rcases List.mem_cons.1 hy with e' | hy'
        · cases e; cases e'; rfl
        · have e1 := congrArg Prod.fst e; simp only at e1; subst e1; exact absurd (List.of_mem_zip hy').1 hd.1
      · rcases List.mem_cons.1 hy with e' | hy'
        · have e1 := congrArg Prod.fst e'; simp only at e1; subst e1; exact absurd (List.of_mem_zip hx').1 hd.1
        · exact ih hd.2 hx' hy'

theorem mkObj_again {kvs : List (Str × JsVal)} {keys : List Str} {rs : List JsVal} (hd : keys.Nodup) :
    mkObj (mkObj kvs keys rs) keys rs = mkObj kvs keys rs := by
  unfold mkObj
  apply List.filter_congr
  intro p hp
  have hg := mkObj_get (kvs := kvs) hd hp
  cases hh : objHas (mkObj kvs keys rs) p.1 with
  | false =>
    have hh' := hh
    unfold mkObj at hh'
    rw [hh', (hg.2 hh).1, (hg.2 hh).2]
  | true =>
    have hh' := hh
    unfold mkObj at hh'
    rw [hh', Bool.true_or]
    unfold objHas at hh
    rw [List.any_eq_true] at hh
    obtain ⟨q, hq, e⟩ := hh
    obtain ⟨hq, hk⟩ := List.mem_filter.1 hq
    have e : q.1 = p.1 := by simpa using e
    have hq' : (p.1, q.2) ∈ keys.zip rs := by rw [← e]; exact hq
    have e2 := zip_unique hd hq' hp
    rw [e, e2] at hk
    exact hk.symm

theorem firstRes_split {α β : Type} {f : α → Res β} {l : List α} {r : β}
    (h : firstRes (l.map f) = some (some r)) : ∃ pre a post, l = pre ++ a :: post ∧ f a = some (some r) := by
  obtain ⟨a, ha, hf⟩ := firstRes_some h
  obtain ⟨pre, post, e⟩ := List.append_of_mem ha
  exact ⟨pre, a, post, e, hf⟩

theorem firstRes_skip {α β : Type} {g : α → Res β} {pre post : List α} {x : Option β}
    (h : ∀ a ∈ pre, ∀ r, g a ≠ some (some r)) (hx : firstRes ((pre ++ post).map g) = some x) : firstRes (post.map g) = some x := by
  induction pre with
  | nil => exact hx
  | cons a pre ih =>
    rw [List.cons_append, List.map_cons] at hx
    cases hg : g a with
    | none => rw [hg] at hx; cases hx
    | some y =>
      cases y with
      | some b => exact absurd hg (h a List.mem_cons_self b)
      | none => rw [hg] at hx; exact ih (fun b hb => h b (List.mem_cons_of_mem _ hb)) hx

theorem all2_zip_again {g : ZSchema → JsVal → Res JsVal} {f : ZSchema × JsVal → JsVal → Prop} {zs : List ZSchema} {l rs : List JsVal} (hl : l.length = zs.length)
    (h : All2 f (zs.zip l) rs) (hf : ∀ z ∈ zs, ∀ a r, f (z, a) r → ∀ y, g z r = some y → y = some r) :
    rs.length = zs.length ∧ All2 (fun (p : ZSchema × JsVal) r => ∀ y, g p.1 p.2 = some y → y = some r) (zs.zip rs) rs := by
  induction zs generalizing l rs with
  | nil => simp at h; cases h; exact ⟨rfl, .nil⟩
  | cons z zs ih =>
    cases l with
    | nil => simp at hl
    | cons a l =>
      rw [List.zip_cons_cons] at h
      cases h with
      | cons h1 h2 =>
        obtain ⟨e, h3⟩ := ih (by simpa using hl) h2 (fun z hz => hf z (List.mem_cons_of_mem _ hz))
        exact ⟨by simp [e], .cons (hf z List.mem_cons_self _ _ h1) h3⟩

theorem zipWith_zip {α β γ : Type} (f : α → β → γ) (l : List α) (r : List β) : List.zipWith f l r = (l.zip r).map (fun p => f p.1 p.2) := by
  induction l generalizing r with
  | nil => simp
  | cons a l ih => cases r <;> simp [ih]

theorem parse_map_parts {k : Nat} {a b : ZSchema} {v r : JsVal} (h : parse E (k + 1) (.map a b) v = some (some r)) :
    ∃ l rs, v = .map l ∧ r = .map rs ∧
      All2 (fun p q => parse E k a p.1 = some (some q.1) ∧ parse E k b p.2 = some (some q.2)) l rs := by
  obtain ⟨l, ks, vs, rfl, rfl, h1, h2⟩ := parse_map_all h
  refine ⟨l, _, rfl, rfl, ?_⟩
  clear h
  induction h1 generalizing vs with
  | nil => cases h2; exact .nil
  | cons a1 _ ih =>
    cases h2 with
    | cons b1 b2 => exact .cons ⟨a1, b1⟩ (ih _ b2)

theorem all2_map_right {α β γ : Type} {R : α → γ → Prop} {f : β → γ} {l : List α} {rs : List β} (h : All2 (fun a b => R a (f b)) l rs) :
    All2 R l (rs.map f) := by
  induction h with
  | nil => exact .nil
  | cons h1 _ ih => exact .cons h1 ih

theorem all2_and_mem {R : Str × ZSchema → JsVal → Prop} {sh : List (Str × ZSchema)} {rs : List JsVal} (h : All2 R sh rs) :
    All2 (fun p r => R p r ∧ p ∈ sh ∧ (p.1, r) ∈ (sh.map (·.1)).zip rs) sh rs := by
  induction h with
  | nil => exact .nil
  | cons h1 _ ih =>
    refine .cons ⟨h1, List.mem_cons_self, List.mem_cons_self⟩ (all2_imp (fun p r h => ?_) ih)
    exact ⟨h.1, List.mem_cons_of_mem _ h.2.1, List.mem_cons_of_mem _ h.2.2⟩

theorem parse_disc_find {k : Nat} {v r : JsVal} {tag : Str} {os : List (Str × ZSchema)}
    (h : parse E (k + 1) (.discUnion tag os) v = some (some r)) :
    ∃ kvs s z, v = .obj kvs ∧ objGet kvs tag = .str s ∧ os.find? (fun p => decide (p.1 = s)) = some (s, z) ∧
      parse E k z v = some (some r) := by
  cases v with
  | obj kvs =>
    rw [parse] at h
    cases hg : objGet kvs tag with
    | str s =>
      rw [hg] at h
      simp only at h
      cases ho : os.find? (fun p => decide (p.1 = s)) with
      | none => rw [ho] at h; cases h
      | some o =>
        rw [ho] at h
        have h2 : o.1 = s := by simpa using List.find?_some ho
        obtain ⟨a, b⟩ := o
        simp only at h2
        subst h2
        exact ⟨kvs, a, b, rfl, hg, ho, h⟩
    | _ => rw [hg] at h; cases h
  | _ => simp [parse] at h

/-- Parsing a result gives the result back, if it ends. -/
theorem again (hE : ∀ ns name z, Q ns name → E.const ns name = some z → Steady Q E z) (k : Nat) : ∀ z v r, Steady Q E z → parse E k z v = some (some r) →
    ∀ n x, parse E n z r = some x → x = some r := by
  induction k with
  | zero => intro z v r _ h; cases h
  | succ k ih =>
    intro z v r hs h n x hx
    cases n with
    | zero => cases hx
    | succ n =>
    cases hs with
    | string cs =>
      rcases parse_string h with ⟨s, rfl, rfl, _⟩ | ⟨s, rfl, rfl⟩ <;> exact parse_det hx h
    | number cs => obtain ⟨rfl, _⟩ := parse_number h; exact parse_det hx h
    | null => obtain ⟨rfl, rfl⟩ := parse_null h; exact parse_det hx h
    | literal s => obtain ⟨rfl, rfl⟩ := parse_literal h; exact parse_det hx h
    | broken => cases h
    | @array z hz =>
      obtain ⟨l, rs, rfl, rfl, hl⟩ := parse_array h
      rw [parse] at hx
      cases hr : allRes (rs.map (parse E n z)) with
      | none => rw [hr] at hx; cases hx
      | some y =>
        have := allRes_again (all2_self hl (fun a r ha y hy => ih z a r hz ha n y hy)) hr
        subst this
        rw [hr] at hx
        exact (Option.some.inj hx).symm
    | @set z hz =>
      obtain ⟨l, rs, rfl, rfl, hl⟩ := parse_set h
      rw [parse] at hx
      cases hr : allRes (rs.map (parse E n z)) with
      | none => rw [hr] at hx; cases hx
      | some y =>
        have := allRes_again (all2_self hl (fun a r ha y hy => ih z a r hz ha n y hy)) hr
        subst this
        rw [hr] at hx
        exact (Option.some.inj hx).symm
    | @optional z hz =>
      rcases parse_optional h with ⟨rfl, rfl⟩ | ⟨_, h'⟩
      · exact parse_det hx h
      · cases hr : r with
        | undefined => subst hr; simp [parse] at hx; exact hx.symm
        | _ => subst hr; exact ih z v _ hz h' n x hx
    | @map a b ha hb =>
      obtain ⟨l, rs, rfl, rfl, hp⟩ := parse_map_parts h
      rw [parse] at hx
      cases h1 : allRes (rs.map (fun p => parse E n a p.1)) with
      | none => rw [h1] at hx; cases hx
      | some y1 =>
        cases h2 : allRes (rs.map (fun p => parse E n b p.2)) with
        | none => rw [h1, h2] at hx; cases hx
        | some y2 =>
          have e1 := allRes_again (rs := rs.map (·.1)) (all2_map_right (all2_self hp (S := fun p q => ∀ y, parse E n a p.1 = some y → y = some q.1)
            (fun p q hpq y hy => ih a p.1 q.1 ha hpq.1 n y hy))) h1
          have e2 := allRes_again (rs := rs.map (·.2)) (all2_map_right (all2_self hp (S := fun p q => ∀ y, parse E n b p.2 = some y → y = some q.2)
            (fun p q hpq y hy => ih b p.2 q.2 hb hpq.2 n y hy))) h2
          subst e1; subst e2
          rw [h1, h2] at hx
          have hz : (rs.map (·.1)).zip (rs.map (·.2)) = rs := by
            clear hp h h1 h2 hx
            induction rs with
            | nil => rfl
            | cons p r ih => simp [ih]
          simp only [hz] at hx
          exact (Option.some.inj hx).symm
    | tuple zs hz =>
      obtain ⟨l, rs, rfl, rfl, hl, h⟩ := parse_tuple h
      obtain ⟨e, h'⟩ := all2_zip_again (g := parse E n) hl h (fun z hm a r ha y hy => ih z a r (hz z hm) ha n y hy)
      rw [parse] at hx
      simp only [e, Nat.lt_irrefl, if_false] at hx
      rw [zipWith_zip] at hx
      cases hr : allRes ((zs.zip rs).map (fun p => parse E n p.1 p.2)) with
      | none => rw [hr] at hx; cases hx
      | some y =>
        have := allRes_again h' hr
        subst this
        rw [hr] at hx
        exact (Option.some.inj hx).symm
    | union zs hz hap =>
      obtain ⟨pre, z, post, rfl, h'⟩ := firstRes_split (f := fun z => parse E k z v) h
      have hx : firstRes ((pre ++ z :: post).map (fun z => parse E n z r)) = some x := hx
      have hx := firstRes_skip (fun a ha r' => (List.pairwise_append.1 hap).2.2 a ha z List.mem_cons_self k v r n r' h') hx
      rw [List.map_cons] at hx
      cases hy : parse E n z r with
      | none => rw [hy] at hx; cases hx
      | some y =>
        have := ih z v r (hz z (by simp)) h' n y hy
        subst this
        rw [hy] at hx
        exact (Option.some.inj hx).symm
    | object sh hd hz =>
      obtain ⟨kvs, rs, rfl, rfl, h'⟩ := parse_object h
      rw [parse] at hx
      cases hr : allRes (sh.map (fun p => parse E n p.2 (objGet (mkObj kvs (sh.map (·.1)) rs) p.1))) with
      | none => rw [hr] at hx; cases hx
      | some y =>
        have key : All2 (fun (p : Str × ZSchema) r => ∀ y, parse E n p.2 (objGet (mkObj kvs (sh.map (·.1)) rs) p.1) = some y → y = some r) sh rs := by
          refine all2_imp (fun p r hh y hy => ?_) (all2_and_mem h')
          obtain ⟨hpr, hps, hm⟩ := hh
          have hg := mkObj_get (kvs := kvs) hd hm
          have hget : objGet (mkObj kvs (sh.map (·.1)) rs) p.1 = r := by
            cases hh : objHas (mkObj kvs (sh.map (·.1)) rs) p.1 with
            | true => exact hg.1 hh
            | false => rw [objHas_false hh, (hg.2 hh).1]
          rw [hget] at hy
          exact ih p.2 _ r (hz p hps) hpr n y hy
        have := allRes_again key hr
        subst this
        rw [hr] at hx
        simp only [Option.map_some, mkObj_again hd] at hx
        exact (Option.some.inj hx).symm
    | disc tag os hz hd =>
      obtain ⟨kvs, s, z, rfl, hg, hf, h'⟩ := parse_disc_find h
      have hmem := List.mem_of_find?_eq_some hf
      have hdz := hd _ hmem
      -- the tag is kept
      have ht : ∃ kvs', r = .obj kvs' ∧ objGet kvs' tag = .str s := by
        cases k with
        | zero => cases h'
        | succ k =>
        cases z with
        | object sh =>
          have hst := hz _ hmem
          cases hst with
          | object _ hnd _ =>
            obtain ⟨kvs', rs, e, rfl, ha⟩ := parse_object h'
            cases e
            refine ⟨_, rfl, ?_⟩
            simp only [discriminator] at hdz
            cases hfi : sh.find? (fun p => decide (p.1 = tag)) with
            | none => rw [hfi] at hdz; cases hdz
            | some q =>
              obtain ⟨qk, qz⟩ := q
              rw [hfi] at hdz
              have hqm := List.mem_of_find?_eq_some hfi
              have hqk : qk = tag := by simpa using List.find?_some hfi
              subst hqk
              cases qz with
              | literal s' =>
                have e : s' = s := Option.some.inj hdz
                subst e
                obtain ⟨x, _, hx2, _, hx1⟩ := All2.mem_left (all2_and_mem ha) hqm
                cases k with
                | zero => cases hx2
                | succ k =>
                  obtain ⟨_, rfl⟩ := parse_literal hx2
                  have hgg := mkObj_get (kvs := kvs) hnd hx1
                  cases hh : objHas (mkObj kvs (sh.map (·.1)) rs) qk with
                  | true => exact hgg.1 hh
                  | false => exact absurd (hgg.2 hh).1 (by simp)
              | _ => cases hdz
        | _ => cases hdz
      obtain ⟨kvs', rfl, hg'⟩ := ht
      rw [parse, hg'] at hx
      simp only [hf] at hx
      exact ih z _ _ (hz _ hmem) h' n x hx
    | lazy ns name hq =>
      obtain ⟨z, hc, h'⟩ := parse_lazy h
      rw [parse, hc] at hx
      exact ih z v r (hE ns name z hq hc) h' n x hx

/-! ## The schemas of a program -/

theorem apart_named {n1 n2 : Str} {a b : ZSchema} (hne : n1 ≠ n2)
    (ha : a = .literal n1 ∨ ∃ p, a = .object [(n1, p)] ∧ ∀ n r, parse E n p .undefined ≠ some (some r))
    (hb : b = .literal n2 ∨ ∃ q, b = .object [(n2, q)]) (k : Nat) (v r : JsVal) (n : Nat) (r' : JsVal)
    (h : parse E k b v = some (some r)) : parse E n a r ≠ some (some r') := by
  intro h'
  cases k with
  | zero => cases h
  | succ k =>
  cases n with
  | zero => cases h'
  | succ n =>
  rcases hb with rfl | ⟨q, rfl⟩
  · obtain ⟨rfl, rfl⟩ := parse_literal h
    rcases ha with rfl | ⟨p, rfl, _⟩
    · obtain ⟨e, _⟩ := parse_literal h'
      injection e with e
      exact hne e.symm
    · obtain ⟨_, _, e, _⟩ := parse_object h'
      cases e
  · obtain ⟨kvs, rs, rfl, rfl, hrs⟩ := parse_object h
    rcases ha with rfl | ⟨p, rfl, hp⟩
    · obtain ⟨e, _⟩ := parse_literal h'
      cases e
    · obtain ⟨kvs', rs', e, _, h2⟩ := parse_object h'
      injection e with e
      subst e
      cases h2 with
      | cons h3 _ =>
        have hno : objHas (mkObj kvs ([(n2, q)].map (·.1)) rs) n1 = false := by
          unfold objHas mkObj
          rw [List.any_eq_false]
          intro p hp e
          have hz := List.of_mem_zip (a := p.1) (b := p.2) (List.mem_filter.1 hp).1
          have e : p.1 = n1 := by simpa using e
          rw [e] at hz
          simp only [List.map_cons, List.map_nil, List.mem_singleton] at hz
          exact hne hz.1
        rw [objHas_false hno] at h3
        exact hp n _ h3

/-- How a variant of an externally tagged enum is written. -/
def NamedForm (E : ZEnv) (name : Str) (z : ZSchema) : Prop :=
  z = .literal name ∨ ∃ p, z = .object [(name, p)] ∧ ∀ n r, parse E n p .undefined ≠ some (some r)

theorem apart_all {vs : List Variant} {zs : List ZSchema} (hd : (vs.map (·.name)).Nodup) (h : All2 (fun v z => NamedForm E v.name z) vs zs) :
    Apart E zs := by
  unfold Apart
  induction h with
  | nil => exact .nil
  | @cons v z vs zs h1 h2 ih =>
    rw [List.map_cons, List.nodup_cons] at hd
    refine List.Pairwise.cons ?_ (ih hd.2)
    intro b hb k x r n r' hx
    obtain ⟨w, hw, hbw⟩ := All2.mem_right h2 hb
    refine apart_named (n1 := v.name) (n2 := w.name) (fun e => hd.1 (e ▸ List.mem_map.2 ⟨w, hw, rfl⟩)) h1 ?_ k x r n r' hx
    rcases hbw with e | ⟨p, e, _⟩
    · exact .inl e
    · exact .inr ⟨p, e⟩

theorem objZ_one_eq {k : Str} {a : Option ZSchema} {z : ZSchema} (h : objZ [(k, a)] = some z) : ∃ p, a = some p ∧ z = .object [(k, p)] := by
  obtain ⟨zs, rfl, _, ha⟩ := objZ_some h
  cases ha with
  | cons h1 h2 => cases h2; exact ⟨_, h1, rfl⟩

theorem steady_obj {l : List (Str × Option ZSchema)} {z : ZSchema} (h : ∀ p ∈ l, ∀ z, p.2 = some z → Steady Q E z) (hz : objZ l = some z) :
    Steady Q E z := by
  obtain ⟨zs, rfl, hd, ha⟩ := objZ_some hz
  have hlen := All2.length ha
  refine .object _ (by rw [List.map_fst_zip (by simp [hlen])]; exact hd) ?_
  intro p hp
  have hm := (List.of_mem_zip (a := p.1) (b := p.2) hp).2
  obtain ⟨q, hq, e⟩ := All2.mem_right ha hm
  exact h q hq _ e

theorem steady_list {α : Type} {f : α → Option ZSchema} {l : List α} {zs : List ZSchema} (h : ∀ a ∈ l, ∀ z, f a = some z → Steady Q E z)
    (hz : allSome (l.map f) = some zs) : ∀ z ∈ zs, Steady Q E z := by
  intro z hm
  obtain ⟨a, ha, e⟩ := All2.mem_right (allSome_all2 hz) hm
  exact h a ha z e

theorem steady_opt {b : Bool} {x : Option ZSchema} {z : ZSchema} (h : ∀ z, x = some z → Steady Q E z) (hz : optZ b x = some z) :
    Steady Q E z := by
  cases b with
  | false => exact h z hz
  | true =>
    cases x with
    | none => cases hz
    | some y => cases hz; exact .optional (h y rfl)

section
variable {rec : Method → Ty → Option ZSchema}

theorem steady_struct {s : StructDecl} (h : ∀ f ∈ keptFields s.fields, ∀ z, rec .inlineSchema f.ty = some z → Steady Q E z) {z : ZSchema}
    (hz : structZ rec s = some z) : Steady Q E z := by
  have hf : ∀ x ∈ structFields s, ∀ z, sfieldZ rec x = some z → Steady Q E z := by
    intro x hx z hz
    obtain ⟨f, hm, rfl⟩ := List.mem_map.1 hx
    exact steady_opt (h f hm) hz
  have hf' : ∀ x ∈ (structFields s).filter (fun f => !f.flatten), ∀ z, sfieldZ rec x = some z → Steady Q E z :=
    fun x hx => hf x (List.mem_filter.1 hx).1
  unfold structZ at hz
  simp only at hz
  generalize (structFields s).filter (fun f => !f.flatten) = fields at hz hf'
  cases ht : s.transparent with
  | true =>
    rw [ht] at hz
    cases fields with
    | nil => cases hz
    | cons x r => exact hf' x List.mem_cons_self z hz
  | false =>
    rw [ht] at hz
    cases hs : s.style with
    | unit => rw [hs] at hz; cases hz
    | tuple =>
      rw [hs] at hz
      match fields, hz, hf' with
      | [], hz, _ => cases hz
      | [x], hz, hf' => exact hf' x List.mem_cons_self z hz
      | x :: y :: r, hz, hf' =>
        cases ha : allSome ((x :: y :: r).map (sfieldZ rec)) with
        | none => simp only [ha] at hz; cases hz
        | some zs =>
          simp only [ha] at hz
          cases hz
          exact .tuple _ (steady_list hf' ha)
    | named =>
      rw [hs] at hz
      simp only at hz
      rcases extendZ_result hz with ⟨_, hz⟩ | ⟨_, rfl⟩
      · refine steady_obj ?_ hz
        intro p hp z hz
        obtain ⟨x, hx, rfl⟩ := List.mem_map.1 hp
        exact hf' x hx z hz
      · exact .broken

theorem steady_unit {tag : Tag} {name : Str} {z : ZSchema} (hz : unitZ tag name = some z) : Steady Q E z := by
  have one : ∀ t : Str, objZ [(t, some (ZSchema.literal name))] = some z → Steady Q E z := by
    intro t h
    refine steady_obj ?_ h
    intro p hp z hz
    simp only [List.mem_singleton] at hp
    subst hp
    cases hz
    exact .literal _
  cases tag with
  | external => cases hz; exact .literal _
  | internal t => exact one t hz
  | adjacent t c => exact one t hz
  | untagged => cases hz; exact .null

theorem steady_payload {fs : List Field} (h : ∀ f ∈ fs, ∀ z, rec .inlineSchema f.ty = some z → Steady Q E z) {z : ZSchema}
    (hz : tupleFieldsZ rec fs = some z) : Steady Q E z := by
  have hf : ∀ f ∈ fs, ∀ z, vfieldZ rec f = some z → Steady Q E z := fun f hf z hz => steady_opt (h f hf) hz
  have gen : (allSome (fs.map (vfieldZ rec))).map ZSchema.tuple = some z → Steady Q E z := by
    intro hz
    cases ha : allSome (fs.map (vfieldZ rec)) with
    | none => rw [ha] at hz; cases hz
    | some zs => rw [ha] at hz; cases hz; exact .tuple _ (steady_list hf ha)
  match fs, hz, hf, gen with
  | [], hz, _, gen => exact gen hz
  | [x], hz, hf, _ => exact hf x List.mem_cons_self z hz
  | x :: y :: r, hz, _, gen => exact gen hz

theorem steady_variant {tag : Tag} {v : Variant} (h : ∀ f ∈ keptFields v.fields, ∀ z, rec .inlineSchema f.ty = some z → Steady Q E z) {z : ZSchema}
    (hz : variantZ rec tag v = some z) : Steady Q E z := by
  have two : ∀ (l : List (Str × Option ZSchema)) z, (∀ p ∈ l, ∀ z, p.2 = some z → Steady Q E z) → objZ l = some z → Steady Q E z :=
    fun l z hl hz => steady_obj hl hz
  have lit : ∀ (t : Str) (l : List (Str × Option ZSchema)), (∀ p ∈ l, ∀ z, p.2 = some z → Steady Q E z) →
      objZ ((t, some (.literal v.name)) :: l) = some z → Steady Q E z := by
    intro t l hl hz
    refine two _ z ?_ hz
    intro p hp
    rcases List.mem_cons.1 hp with rfl | hp
    · intro z hz; cases hz; exact .literal _
    · exact hl p hp
  have one : ∀ (n : Str) (x : Option ZSchema), (∀ z, x = some z → Steady Q E z) → ∀ p ∈ [(n, x)], ∀ z, p.2 = some z → Steady Q E z := by
    intro n x hx p hp
    simp only [List.mem_singleton] at hp
    subst hp
    exact hx
  unfold variantZ at hz
  cases hs : v.style with
  | unit => rw [hs] at hz; exact steady_unit hz
  | named =>
    rw [hs] at hz
    simp only [structVariantZ] at hz
    have hk : ∀ p ∈ v.kept.map (fun f => (f.name, vfieldZ rec f)), ∀ z, p.2 = some z → Steady Q E z := by
      intro p hp z hz
      obtain ⟨f, hf, rfl⟩ := List.mem_map.1 hp
      exact steady_opt (h f hf) hz
    cases tag with
    | external => exact two _ z (one _ _ (fun z hz => two _ z hk hz)) hz
    | internal t => exact lit t _ hk hz
    | adjacent t c => exact lit t _ (one _ _ (fun z hz => two _ z hk hz)) hz
    | untagged => exact two _ z hk hz
  | tuple =>
    rw [hs] at hz
    simp only [tupleVariantZ] at hz
    cases hk : v.kept with
    | nil => rw [hk] at hz; exact steady_unit hz
    | cons f fs =>
      rw [hk] at hz
      have hp : ∀ z, tupleFieldsZ rec (f :: fs) = some z → Steady Q E z :=
        fun z hz => steady_payload (fun g hg => h g (by show g ∈ v.kept; rw [hk]; exact hg)) hz
      cases tag with
      | external => exact two _ z (one _ _ hp) hz
      | internal t => exact two _ z (one _ _ hp) hz
      | adjacent t c => exact lit t _ (one _ _ hp) hz
      | untagged => exact hp z hz

theorem variant_form {v : Variant} {z : ZSchema}
    (h : v.style = .tuple → ∀ f, keptFields v.fields = [f] → f.dflt = false ∧ ∀ z, rec .inlineSchema f.ty = some z →
      ∀ n r, parse E n z .undefined ≠ some (some r))
    (hz : variantZ rec .external v = some z) : NamedForm E v.name z := by
  unfold variantZ at hz
  cases hs : v.style with
  | unit => rw [hs] at hz; cases hz; exact .inl rfl
  | named =>
    rw [hs] at hz
    simp only [structVariantZ] at hz
    obtain ⟨p, hp, rfl⟩ := objZ_one_eq hz
    exact .inr ⟨p, rfl, fun n r => never_obj hp⟩
  | tuple =>
    rw [hs] at hz
    simp only [tupleVariantZ] at hz
    match hk : v.kept, hz with
    | [], hz => cases hz; exact .inl rfl
    | [f], hz =>
      obtain ⟨p, hp, rfl⟩ := objZ_one_eq hz
      obtain ⟨hd, hn⟩ := h hs f hk
      refine .inr ⟨p, rfl, hn p ?_⟩
      have hp : optZ f.dflt (rec .inlineSchema f.ty) = some p := hp
      rw [hd] at hp
      exact hp
    | f :: g :: r, hz =>
      obtain ⟨p, hp, rfl⟩ := objZ_one_eq hz
      refine .inr ⟨p, rfl, ?_⟩
      have hp : (allSome ((f :: g :: r).map (vfieldZ rec))).map ZSchema.tuple = some p := hp
      cases ha : allSome ((f :: g :: r).map (vfieldZ rec)) with
      | none => rw [ha] at hp; cases hp
      | some zs => rw [ha] at hp; cases hp; exact fun n r => never_tuple

theorem discOptions_names {t : Str} : ∀ {zs : List ZSchema} {os : List (Str × ZSchema)}, discOptions t zs = some os →
    ∀ p ∈ os, discriminator t p.2 = some p.1
  | [], os, h, p, hp => by cases h; cases hp
  | z :: zs, os, h, p, hp => by
    rw [discOptions] at h
    split at h
    · rename_i s os' hs hos'
      split at h
      · cases h
      · cases h
        rcases List.mem_cons.1 hp with rfl | hp
        · exact hs
        · exact discOptions_names hos' p hp
    · cases h

theorem steady_enum {e : EnumDecl}
    (h : ∀ v ∈ e.kept, ∀ f ∈ keptFields v.fields, ∀ z, rec .inlineSchema f.ty = some z → Steady Q E z)
    (hu : 2 ≤ e.kept.length → e.tag ≠ .untagged)
    (hx : 2 ≤ e.kept.length → e.tag = .external → (e.kept.map (·.name)).Nodup ∧ ∀ v ∈ e.kept, v.style = .tuple → ∀ f, keptFields v.fields = [f] →
      f.dflt = false ∧ ∀ z, rec .inlineSchema f.ty = some z → ∀ n r, parse E n z .undefined ≠ some (some r)) {z : ZSchema}
    (hz : enumZ rec e = some z) : Steady Q E z := by
  unfold enumZ at hz
  have hv : ∀ v ∈ e.kept, ∀ z, variantZ rec e.tag v = some z → Steady Q E z := fun v hv z hz => steady_variant (h v hv) hz
  have disc : ∀ (t : Str) (vs : List Variant), (∀ v ∈ vs, ∀ z, variantZ rec e.tag v = some z → Steady Q E z) →
      discZ t (vs.map (variantZ rec e.tag)) = some z → Steady Q E z := by
    intro t vs hvs hz
    unfold discZ at hz
    cases ha : allSome (vs.map (variantZ rec e.tag)) with
    | none => rw [ha] at hz; cases hz
    | some zs =>
      rw [ha] at hz
      simp only at hz
      cases ho : discOptions t zs with
      | none => rw [ho] at hz; cases hz
      | some os =>
        rw [ho] at hz
        cases hz
        refine .disc t os (fun p hp => ?_) (fun p hp => ?_)
        · exact steady_list hvs ha p.2 (discOptions_mem (s := p.1) ho hp)
        · exact discOptions_names ho p hp
  match hk : e.kept, hz, hv, hu, hx with
  | [], hz, _, _, _ => cases hz
  | [v], hz, hv, _, _ => exact hv v List.mem_cons_self z hz
  | v :: w :: r, hz, hv, hu, hx =>
    have hl : 2 ≤ (v :: w :: r).length := by simp
    cases ht : e.tag with
    | untagged => exact absurd ht (hu hl)
    | internal t => rw [ht] at hz hv disc; exact disc t _ hv hz
    | adjacent t c => rw [ht] at hz hv disc; exact disc t _ hv hz
    | external =>
      obtain ⟨hd, hf⟩ := hx hl ht
      rw [ht] at hz hv
      cases ha : allSome ((v :: w :: r).map (variantZ rec .external)) with
      | none => simp only [ha] at hz; cases hz
      | some zs =>
        simp only [ha] at hz
        cases hz
        refine .union zs (steady_list hv ha) (apart_all hd ?_)
        exact All2.imp_mem (allSome_all2 ha) (fun v hm z hz => variant_form (hf v hm) hz)

end

theorem steady_zOf {P : Program} (hE : EnvOk P E) (hw : WellStyled P) (hpl : ∀ d ∈ P, Plain d) (hP : ∀ d ∈ P, SteadyDecl P d) :
    ∀ (n : Nat) (m : Method) (t : Ty) (z : ZSchema), SteadyTy P t → zOf P n m t = some z → Steady (Declared P) E z := by
  intro n
  induction n with
  | zero => intro m t z _ h; cases h
  | succ n ih =>
    intro m t z ht h
    rw [zOf] at h
    cases ht with
    | named i =>
      cases hd : P[i]? with
      | none => simp [zBody, hd] at h
      | some d =>
        have hm := List.mem_of_getElem? hd
        obtain ⟨hdt, hen⟩ := hP d hm
        cases m with
        | schema =>
          simp only [zBody, hd] at h
          cases d with
          | struct s =>
            simp only [declZ] at h
            split at h
            · rename_i u hu
              exact ih _ _ _ (hdt u (by simp [declTypes, hu])) h
            · refine steady_struct (fun f hf z hz => ih _ _ _ (hdt _ ?_) hz) h
              exact List.mem_append_left _ (List.mem_map.2 ⟨f, hf, rfl⟩)
          | enum e =>
            simp only [declZ] at h
            split at h
            · rename_i u hu
              exact ih _ _ _ (hdt u (by simp [declTypes, hu])) h
            · rename_i hu
              refine steady_enum (fun v hv f hf z hz => ih _ _ _ (hdt _ ?_) hz) (fun hl => (hen e rfl hu hl).1) (fun hl ht => ?_) h
              · refine List.mem_append_left _ (List.mem_flatten.2 ⟨_, List.mem_map.2 ⟨v, hv, rfl⟩, ?_⟩)
                exact List.mem_map.2 ⟨f, hf, rfl⟩
              · obtain ⟨hdv, hx⟩ := (hen e rfl hu hl).2 ht
                refine ⟨hdv, fun v hv hs f hf => ?_⟩
                have hv' := List.mem_filter.1 hv
                obtain ⟨h1, h2⟩ := hx v hv'.1 (by simpa using hv'.2) hs f hf
                exact ⟨h1, fun z hz k r => never_undef hE hw hpl h2 k n .inlineSchema z r hz⟩
        | inlineSchema =>
          simp only [zBody, hd] at h
          cases d with
          | struct s => simp only [declInlineZ] at h; cases h; exact .lazy _ _ ⟨_, hm, rfl, rfl⟩
          | enum e =>
            simp only [declInlineZ] at h
            split at h
            · rename_i u hu
              exact ih _ _ _ (hdt u (by simp [declTypes, hu])) h
            · cases h; exact .lazy _ _ ⟨_, hm, rfl, rfl⟩
        | typeDef => simp [zBody, hd] at h
        | inline => simp [zBody, hd] at h
    | prim p =>
      cases m with
      | schema =>
        have h : primZ p = some z := h
        cases p <;> simp only [primZ, Option.some.injEq, reduceCtorEq] at h <;> subst h <;>
          first
            | exact .string _
            | exact .null
            | exact .number _
      | inlineSchema => exact ih _ _ _ (.prim p) h
      | typeDef => cases h
      | inline => cases h
    | wrap w t ht =>
      cases m with
      | schema => exact ih _ _ _ ht h
      | inlineSchema => exact ih _ _ _ (.wrap w t ht) h
      | typeDef => cases h
      | inline => cases h
    | option t ht =>
      cases m with
      | schema =>
        simp only [zBody, Option.map_eq_some_iff] at h
        obtain ⟨a, ha, rfl⟩ := h
        exact .optional (ih _ _ _ ht ha)
      | inlineSchema => exact ih _ _ _ (.option t ht) h
      | typeDef => cases h
      | inline => cases h
    | vec t ht =>
      cases m with
      | schema =>
        simp only [zBody, Option.map_eq_some_iff] at h
        obtain ⟨a, ha, rfl⟩ := h
        exact .array (ih _ _ _ ht ha)
      | inlineSchema => exact ih _ _ _ (.vec t ht) h
      | typeDef => cases h
      | inline => cases h
    | hashSet t ht =>
      cases m with
      | schema =>
        simp only [zBody, Option.map_eq_some_iff] at h
        obtain ⟨a, ha, rfl⟩ := h
        exact .set (ih _ _ _ ht ha)
      | inlineSchema => exact ih _ _ _ (.hashSet t ht) h
      | typeDef => cases h
      | inline => cases h
    | hashMap k v hk hv =>
      cases m with
      | schema =>
        simp only [zBody, Option.bind_eq_some_iff] at h
        obtain ⟨a, ha, b, hb, h⟩ := h
        cases h
        exact .map (ih _ _ _ hk ha) (ih _ _ _ hv hb)
      | inlineSchema => exact ih _ _ _ (.hashMap k v hk hv) h
      | typeDef => cases h
      | inline => cases h
    | array k t ht =>
      cases m with
      | schema => exact ih _ _ _ (.vec t ht) h
      | inlineSchema => exact ih _ _ _ (.array k t ht) h
      | typeDef => cases h
      | inline => cases h
    | btreeSet t ht =>
      cases m with
      | schema => exact ih _ _ _ (.hashSet t ht) h
      | inlineSchema => exact ih _ _ _ (.btreeSet t ht) h
      | typeDef => cases h
      | inline => cases h
    | btreeMap k v hk hv =>
      cases m with
      | schema => exact ih _ _ _ (.hashMap k v hk hv) h
      | inlineSchema => exact ih _ _ _ (.btreeMap k v hk hv) h
      | typeDef => cases h
      | inline => cases h
    | tuple ts ht =>
      cases m with
      | schema =>
        simp only [zBody, Option.map_eq_some_iff] at h
        obtain ⟨zs, hzs, rfl⟩ := h
        exact .tuple _ (steady_list (fun t ht' z hz => ih _ _ _ (ht t ht') hz) hzs)
      | inlineSchema => exact ih _ _ _ (.tuple ts ht) h
      | typeDef => cases h
      | inline => cases h
    | result t e ht he hn =>
      cases m with
      | schema =>
        simp only [zBody] at h
        split at h
        · rename_i a b ha hb
          cases h
          obtain ⟨p, hp, rfl⟩ := objZ_one_eq ha
          obtain ⟨q, hq, rfl⟩ := objZ_one_eq hb
          refine .union _ (fun z hz => ?_) ?_
          · simp only [List.mem_cons, List.not_mem_nil, or_false] at hz
            rcases hz with rfl | rfl
            · refine .object _ (by simp) fun x hx => ?_
              rw [List.mem_singleton] at hx
              subst hx
              exact ih _ _ _ ht hp
            · refine .object _ (by simp) fun x hx => ?_
              rw [List.mem_singleton] at hx
              subst hx
              exact ih _ _ _ he hq
          · refine List.pairwise_pair.2 fun k v r n' r' hr => ?_
            exact apart_named (n1 := lit "Ok") (n2 := lit "Err") (by decide)
              (.inr ⟨p, rfl, fun k r => never_undef hE hw hpl hn k n .inlineSchema p r hp⟩) (.inr ⟨q, rfl⟩) k v r n' r' hr
        · cases h
      | inlineSchema => exact ih _ _ _ (.result t e ht he hn) h
      | typeDef => cases h
      | inline => cases h

theorem steady_env {P : Program} (hE : EnvOk P E) (hw : WellStyled P) (hpl : ∀ d ∈ P, Plain d) (hP : ∀ d ∈ P, SteadyDecl P d) :
    ∀ ns name z, Declared P ns name → E.const ns name = some z → Steady (Declared P) E z := by
  rintro _ _ z ⟨d, hd, rfl, rfl⟩ hc
  obtain ⟨i, hi, rfl⟩ := List.mem_iff_getElem.1 hd
  obtain ⟨n, hn⟩ := hE i _ z (List.getElem?_eq_getElem hi) hc
  exact steady_zOf hE hw hpl hP n _ _ z (.named i) hn

end Verif.Zod
