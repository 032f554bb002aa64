import Verif.Js.Echo
import Verif.Zod.IpLemmas
import Verif.Zod.Complete
import Verif.Ts.Written

/-!
# serde reads what it has written, after it has been through JavaScript
-/

namespace Verif.Zod
open Verif Verif.Js Verif.Schema Verif.Spec Verif.SchemaSpec Verif.EchoSpec Verif.TextSpec Verif.Text Verif.Ts

/-! ## IP addresses -/

theorem hex16_isGroup (n : Fin 65536) : IsGroup (hex16 n) := by
  have h := hex16_group n
  refine ⟨h.1, h.2.1, fun c hc => ?_⟩
  have all : ∀ c ∈ ['a', 'b', 'c', 'd', 'e', 'f', '0', '1', '2', '3', '4', '5', '6', '7', '8', '9'], IsHex c := by
    unfold IsHex
    decide +kernel
  exact all c (h.2.2 c hc)

theorem map_hex_isGroup (g : List (Fin 65536)) : ∀ s ∈ g.map hex16, IsGroup s := by
  intro s hs
  obtain ⟨n, _, rfl⟩ := List.mem_map.1 hs
  exact hex16_isGroup n

/-- Rust reads the IPv6 addresses it writes. -/
theorem showV6_read (old : Bool) (g : List (Fin 65536)) (hg : g.length = 8) : V6Text (showV6 old g) := by
  have gen : ∀ g : List (Fin 65536), g.length = 8 →
      V6Text (if 1 < (longestRun g 0 0 0 0 0).2 then
        joinColon ((g.take (longestRun g 0 0 0 0 0).1).map hex16) ++ lit "::" ++
          joinColon ((g.drop ((longestRun g 0 0 0 0 0).1 + (longestRun g 0 0 0 0 0).2)).map hex16)
        else joinColon (g.map hex16)) := by
    intro g hg
    have hle := longestRun_le g 0 0 0 0 0 (.inl rfl) (by simp)
    generalize longestRun g 0 0 0 0 0 = r at hle ⊢
    split
    · refine .inr ⟨_, _, _, map_hex_isGroup _, ?_, .inl ⟨_, map_hex_isGroup _, rfl, rfl⟩, rfl⟩
      simp only [List.length_map, List.length_take, List.length_drop]
      omega
    · exact .inl (.inl ⟨_, map_hex_isGroup _, by rw [List.length_map, hg], rfl⟩)
  have mapped : ∀ a b c d : Fin 256, V6Text (lit "::ffff:" ++ dotted a b c d) := by
    intro a b c d
    refine .inr ⟨[], 3, joinColon ([lit "ffff"] ++ [dotted a b c d]), by simp, by simp,
      .inr ⟨[lit "ffff"], a, b, c, d, ?_, rfl, rfl⟩, rfl⟩
    intro g hg
    rw [List.mem_singleton.1 hg]
    exact hex16_isGroup 0xffff
  unfold showV6
  split
  · exact mapped _ _ _ _
  · split
    · rename_i x y _
      split
      · exact .inr ⟨[], 0, [], by simp, by simp, .inl ⟨[], by simp, rfl, rfl⟩, rfl⟩
      · split
        · refine .inr ⟨[], 1, lit "1", by simp, by simp, .inl ⟨[lit "1"], ?_, rfl, rfl⟩, rfl⟩
          intro g hg
          rw [List.mem_singleton.1 hg]
          exact hex16_isGroup 1
        · exact .inr ⟨[], 2, _, by simp, by simp, .inr ⟨[], _, _, _, _, by simp, rfl, rfl⟩, rfl⟩
    · exact gen g hg

/-! ## Members -/

theorem jget_echo (kvs : List (Str × Json)) (k : Str) :
    jget (kvs.map (fun p => (p.1, echo p.2))) k = (jget kvs k).map echo := by
  induction kvs with
  | nil => rfl
  | cons p r ih =>
    obtain ⟨k', j⟩ := p
    rw [List.map_cons, jget_cons, jget_cons]
    split
    · rfl
    · exact ih

theorem keys_echo (kvs : List (Str × Json)) : (kvs.map (fun p => (p.1, echo p.2))).map (·.1) = kvs.map (·.1) := by
  rw [List.map_map]; rfl

theorem fieldsOf_sublist {R : Ty → Json → Prop} {fs : List Field} {kvs : List (Str × Json)} (h : FieldsOf R fs kvs)
    (hfl : ∀ f ∈ serFields fs, f.flatten = false) : (kvs.map (·.1)).Sublist ((serFields fs).map (·.serName)) := by
  induction h with
  | nil => exact .slnil
  | skip g fs kvs hg _ ih =>
    rw [serFields_cons, if_pos hg] at hfl ⊢
    exact ih hfl
  | absent g fs kvs t hg _ _ _ ih =>
    rw [serFields_cons, if_neg (by simp [hg])] at hfl ⊢
    exact .cons _ (ih fun f hf => hfl f (List.mem_cons_of_mem _ hf))
  | omitted g fs kvs hg _ _ ih =>
    rw [serFields_cons, if_neg (by simp [hg])] at hfl ⊢
    exact .cons _ (ih fun f hf => hfl f (List.mem_cons_of_mem _ hf))
  | present g fs kvs t j hg _ _ _ _ _ ih =>
    rw [serFields_cons, if_neg (by simp [hg])] at hfl ⊢
    exact .cons_cons _ (ih fun f hf => hfl f (List.mem_cons_of_mem _ hf))
  | field g fs kvs j hg _ _ _ _ ih =>
    rw [serFields_cons, if_neg (by simp [hg])] at hfl ⊢
    exact .cons_cons _ (ih fun f hf => hfl f (List.mem_cons_of_mem _ hf))
  | flat g fs kvs' kvs hg hg' _ _ _ =>
    rw [serFields_cons, if_neg (by simp [hg])] at hfl
    rw [hfl g List.mem_cons_self] at hg'; cases hg'
  | flatNone g fs kvs t hg hg' _ _ _ =>
    rw [serFields_cons, if_neg (by simp [hg])] at hfl
    rw [hfl g List.mem_cons_self] at hg'; cases hg'

/-! ## Values -/

section
variable {P : Program} (hc : ∀ d ∈ P, CompleteDecl d) (hr : ∀ d ∈ P, ReadableDecl d)

/-- The document can be read after it has been through JavaScript. -/
def Back (P : Program) (t : Ty) (j : Json) : Prop :=
  Complete t → Readable t → AllNums Exact j → De P t (echo j)

/-- Named fields; `pre` is the tag. -/
theorem fields_back {fs : List Field} {kvs : List (Str × Json)} (h : FieldsOf (Back P) fs kvs)
    (hcf : CompleteFields .named fs) (hrf : ∀ f ∈ fs, Readable f.ty) (hn : AllNums.inMembers Exact kvs)
    (pre : List (Str × Json)) (hpre : (pre.map (·.1)).Nodup) (hs : ∀ k ∈ pre.map (·.1), k ∉ (serFields fs).map (·.serName))
    (hk : ∀ k ∈ pre.map (·.1), k ∉ (keptFields fs).map (·.name)) (hal : FreeAliases fs)
    (hpa : ∀ k ∈ pre.map (·.1), ∀ f ∈ keptFields fs, k ∉ f.aliases) {more : Option (List Str)}
    (hm : ∀ names, more = some names → (∀ k ∈ pre.map (·.1), k ∈ names) ∧
      ∀ f ∈ fs, f.skipSer = false → f.skipDe = false) :
    DeBody P more .named fs (.obj (pre ++ kvs.map (fun p => (p.1, echo p.2)))) := by
  obtain ⟨h1, h2, h3⟩ := hcf
  have hsub := fieldsOf_sublist h h3
  have hnd : (kvs.map (·.1)).Nodup := h2.sublist hsub
  have hn' : ∀ p ∈ kvs, AllNums Exact p.2 := allNums_members.1 hn
  have get : ∀ f ∈ keptFields fs, jget (pre ++ kvs.map (fun p => (p.1, echo p.2))) f.name = (jget kvs f.name).map echo := by
    intro f hf
    rw [← jget_echo]
    have : ∀ k ∈ pre.map (·.1), k ≠ f.name := fun k hk' e => hk k hk' (e ▸ List.mem_map.2 ⟨f, hf, rfl⟩)
    clear hpre hs hk hm hpa
    induction pre with
    | nil => rfl
    | cons p r ih =>
      obtain ⟨k, j⟩ := p
      rw [List.cons_append, jget_cons, if_neg (this k List.mem_cons_self)]
      exact ih fun k hk => this k (List.mem_cons_of_mem _ hk)
  have free : ∀ f ∈ keptFields fs, ∀ a ∈ f.aliases, jget (pre ++ kvs.map (fun p => (p.1, echo p.2))) a = none := by
    intro f hf a ha
    refine jget_none fun hk' => ?_
    rw [List.map_append, keys_echo, List.mem_append] at hk'
    rcases hk' with hk' | hk'
    · exact hpa a hk' f hf ha
    · exact hal f hf a ha (hsub.subset hk')
  refine .named _ _ _ ?_ ?_ ?_ ?_
  · rw [List.map_append, keys_echo, List.nodup_append]
    refine ⟨hpre, hnd, ?_⟩
    rintro a ha b hb rfl
    exact hs a ha (hsub.subset hb)
  · intro names e p hp
    obtain ⟨m1, m2⟩ := hm names e
    rcases List.mem_append.1 hp with hp | hp
    · exact List.mem_append_left _ (m1 _ (List.mem_map.2 ⟨p, hp, rfl⟩))
    · obtain ⟨q, hq, rfl⟩ := List.mem_map.1 hp
      obtain ⟨f, hf, e⟩ := List.mem_map.1 (hsub.subset (List.mem_map.2 ⟨q, hq, rfl⟩))
      have hf' := List.mem_filter.1 hf
      have hss : f.skipSer = false := by simpa using hf'.2
      have hkf : f ∈ keptFields fs := List.mem_filter.2 ⟨hf'.1, by simp [m2 f hf'.1 hss]⟩
      obtain ⟨c1, c2, _⟩ := h1 f hkf
      refine List.mem_append_right _ (plainNames_kept (fun f hf => (h1 f hf).1) (List.mem_map.2 ⟨f, hkf, ?_⟩))
      rw [← c2 hss]
      exact e
  · intro f hf hd hfl
    have hkf : f ∈ keptFields fs := List.mem_filter.2 ⟨hf, by simp [hd]⟩
    obtain ⟨c1, c2, c3, c4⟩ := h1 f hkf
    have hg := get f hkf
    cases hss : f.skipSer with
    | true =>
      obtain ⟨d1, d2⟩ := c3 hss
      refine .default _ _ hfl (List.forall_mem_cons.2 ⟨?_, free f hkf⟩) d1
      rw [hg, jget_none fun hk => d2 (hsub.subset hk)]
      rfl
    | false =>
      have e := c2 hss
      rcases c4 with ⟨hct, hsi, hdf⟩ | ⟨t, ht, hct, hsi, hsf⟩
      · rcases h.maybe ⟨h2, h3⟩ hf hss hsi with hb | ⟨j, hj, hb⟩
        · cases hsf : f.skipIf with
          | true =>
            refine .default _ _ hfl (List.forall_mem_cons.2 ⟨?_, free f hkf⟩) (hdf hsf)
            rw [hg, jget_none (e ▸ hb)]
            rfl
          | false =>
            obtain ⟨j, hj, _⟩ := h.always hf hss hfl hsi hsf
            exact absurd (List.mem_map.2 ⟨_, hj, rfl⟩) hb
        have hj' := Ts.jget_mem hnd hj
        rw [e] at hj'
        refine .present _ _ (echo j) hfl (by rw [hg, hj']; rfl) (free f hkf) (hb hct (hrf f hf) (hn' _ hj))
      · obtain ⟨t', ht', hb⟩ := h.optional ⟨h2, h3⟩ hf hss hsi hsf
        rw [ht] at ht'
        injection ht' with ht'
        subst ht'
        rcases hb with hb | ⟨j, hj, hb⟩
        · refine .missing _ _ hfl (List.forall_mem_cons.2 ⟨?_, free f hkf⟩) (ht ▸ .option t)
          rw [hg, jget_none (e ▸ hb)]
          rfl
        · have hj' := Ts.jget_mem hnd hj
          rw [e] at hj'
          have hrd : Readable t := by
            have := hrf f hf
            rw [ht] at this
            cases this; assumption
          refine .present _ _ (echo j) hfl (by rw [hg, hj']; rfl) (free f hkf) ?_
          rw [ht]
          exact .some _ _ (hb hct hrd (hn' _ hj))
  · intro f hf hd hfl
    have := (h1 f (List.mem_filter.2 ⟨hf, by simp [hd]⟩)).1
    rw [this] at hfl; cases hfl

theorem serFields_eq {fs : List Field} (h : ∀ f ∈ fs, f.skipSer = f.skipDe) : serFields fs = keptFields fs := by
  unfold serFields keptFields
  exact List.filter_congr fun f hf => by rw [h f hf]

theorem list_back {ts : List Ty} {js : List Json} (h : All2 (Back P) ts js) (hct : ∀ t ∈ ts, Complete t)
    (hrt : ∀ t ∈ ts, Readable t) (hn : ∀ j ∈ js, AllNums Exact j) : All2 (De P) ts (js.map echo) := by
  induction h with
  | nil => exact .nil
  | cons h _ ih =>
    exact .cons (h (hct _ List.mem_cons_self) (hrt _ List.mem_cons_self) (hn _ List.mem_cons_self))
      (ih (fun t ht => hct t (List.mem_cons_of_mem _ ht)) (fun t ht => hrt t (List.mem_cons_of_mem _ ht))
        (fun j hj => hn j (List.mem_cons_of_mem _ hj)))

theorem body_back {st : Style} {fs : List Field} {j : Json} (h : BodyOf (Back P) st fs j) (hcf : CompleteFields st fs)
    (hrf : ∀ f ∈ fs, Readable f.ty) (hn : AllNums Exact j) {deny : Bool}
    (hm : deny = true → ∀ f ∈ fs, f.skipSer = false → f.skipDe = false) (hal : FreeAliases fs) : DeBody P (others deny []) st fs (echo j) := by
  cases h with
  | newtype f j h =>
    obtain ⟨h1, h2, h3⟩ := hcf
    have hk : f.skipDe = false := by
      rcases h1 with ⟨_, h1⟩ | ⟨h1, _⟩
      · cases hd : f.skipDe with
        | false => rfl
        | true => simp [keptFields, hd] at h1
      · exact absurd rfl h1
    exact .newtype _ _ _ hk (h (h3 f (by simp [keptFields, hk])).1 (hrf f List.mem_cons_self) hn)
  | tuple fs gs js hl hch h =>
    obtain ⟨h1, h2, h3⟩ := hcf
    rw [echo_arr]
    rw [serFields_eq h2] at hch
    have hgs := chosen_all hch fun f hf => ⟨(h3 f hf).2 hl, fun t ht => by have := (h3 f hf).1; rw [ht] at this; cases this⟩
    subst hgs
    refine .tuple _ _ _ hl (list_back h ?_ ?_ (allNums_list.1 hn))
    · intro t ht
      obtain ⟨f, hf, rfl⟩ := List.mem_map.1 ht
      exact (h3 f hf).1
    · intro t ht
      obtain ⟨f, hf, rfl⟩ := List.mem_map.1 ht
      exact hrf f (List.mem_filter.1 hf).1
  | named fs kvs h =>
    rw [echo_obj]
    refine fields_back h hcf hrf hn [] .nil (by simp) (by simp) hal (by simp) fun names e => ?_
    cases deny with
    | false => cases e
    | true => exact ⟨by simp, hm rfl⟩

/-- A built-in type. -/
theorem prim_back {p : Prim} {j : Json} (h : Ser P false (.prim p) j) (hp : Readable (.prim p)) (hn : AllNums Exact j) :
    De P (.prim p) (echo j) := by
  cases hp with
  | prim _ n1 n2 n3 =>
  cases h with
  | string s => exact .string s
  | strRef s => exact absurd rfl n1
  | smolStr s => exact .smolStr s
  | char c _ => exact .char c
  | bool b => exact .bool b
  | unit => exact .unit
  | ipv4 _ a b c d h => exact .ipv4 _ a b c d h
  | ipv6 _ o g h hg _ => exact .ipv6 _ _ h (showV6_read o g hg)
  | int _ lo hi i h1 h2 h3 =>
    show De P (.prim p) (echoNum (.int i))
    rw [echoNum_int hn]
    rcases h1 with h1 | h1
    · exact .int _ lo hi i h1 h2 h3
    · refine .wide _ lo hi i ?_ h1 h2 h3
      cases p <;> simp [wideRange] at h1 n2 n3 ⊢
  | float _ q h =>
    show De P (.prim p) (numJson q)
    unfold numJson
    split <;> exact .float _ _ h
  | nonFinite _ _ h => cases h

theorem from_none {f : From} (h : f.ty? = none) : f = .none := by
  cases f with
  | none => rfl
  | from_ _ => cases h
  | tryFrom _ => cases h

include hc hr

theorem into_back {i : Nat} {d : Decl} {t : Ty} {j : Json} (hi : P[i]? = some d) (hin : Decl.into d = some t)
    (h : Back P t j) (hn : AllNums Exact j) : De P (.named i) (echo j) := by
  have hd := List.mem_of_getElem? hi
  obtain ⟨r1, r2, _⟩ := hr d hd
  have c := hc d hd
  have key : (Decl.from_ d).ty? = some t ∧ Complete t ∧ t ∈ writtenTypes d := by
    cases d with
    | struct s =>
      have hin : s.into = some t := hin
      simp only [CompleteDecl, hin] at c
      exact ⟨c.1, c.2, by simp [writtenTypes, hin]⟩
    | enum e =>
      have hin : e.into = some t := hin
      simp only [CompleteDecl, hin] at c
      exact ⟨c.1, c.2, by simp [writtenTypes, hin]⟩
  obtain ⟨k1, k2, k3⟩ := key
  refine .from_ i d t _ hi ?_ (h k2 (r1 t k3) hn)
  cases hf : Decl.from_ d with
  | none => rw [hf] at k1; cases k1
  | from_ t' => rw [hf] at k1; injection k1 with k1; rw [k1]
  | tryFrom t' => exact absurd hf (r2 t')

theorem struct_facts {i : Nat} {s : StructDecl} (hi : P[i]? = some (.struct s)) (hin : s.into = none) :
    s.from_ = .none ∧ (∀ f ∈ s.fields, Readable f.ty) ∧
      (s.deny = true → ∀ f ∈ s.fields, f.skipSer = false → f.skipDe = false) ∧
      (FreeAliases s.fields ∧ (s.transparent = true → ∀ f ∈ s.fields, f.dflt = false)) ∧
      if s.transparent then ∃ f, keptFields s.fields = [f] ∧ serFields s.fields = [f] ∧ f.flatten = false ∧
        Complete f.ty
      else CompleteFields s.style s.fields := by
  have hd := List.mem_of_getElem? hi
  have c := hc _ hd
  simp only [CompleteDecl, hin] at c
  refine ⟨from_none c.1, fun f hf => (hr _ hd).1 _ ?_, (hr _ hd).2.2.1, (hr _ hd).2.2.2, ?_⟩
  · simp only [writtenTypes, List.mem_append, List.mem_map]
    exact .inr ⟨f, hf, rfl⟩
  · have c := c.2
    split
    · next h => rw [if_pos h] at c; exact c
    · next h => rw [if_neg h] at c; exact c.2.1

theorem variant_facts {i : Nat} {e : EnumDecl} {v : Variant} (hi : P[i]? = some (.enum e)) (hin : e.into = none)
    (hv : v ∈ e.variants) (hs : v.skipSer = false) :
    e.from_ = .none ∧ ((∀ f ∈ v.fields, Readable f.ty) ∧
      (e.deny = true → ∀ f ∈ v.fields, f.skipSer = false → f.skipDe = false) ∧ FreeAliases v.fields) ∧ FirstNamed e v ∧ v.skipDe = false ∧ v.serName = v.name ∧
      CompleteFields (serStyle v) v.fields ∧ deStyle v = serStyle v ∧
      (match e.tag with
        | .internal t => serStyle v ≠ .tuple ∧ t ∉ (serFields v.fields).map (·.serName) ∧
            t ∉ (keptFields v.fields).map (·.name) ∧ ∀ f ∈ keptFields v.fields, t ∉ f.aliases
        | .adjacent t c => t ≠ c
        | _ => True) := by
  have hd := List.mem_of_getElem? hi
  have c := hc _ hd
  simp only [CompleteDecl, hin] at c
  obtain ⟨r1, r2, r5, r3, r4⟩ := hr _ hd
  obtain ⟨c1, c2, c3, c4⟩ := c.2 v hv hs
  refine ⟨from_none c.1, ⟨fun f hf => r1 _ ?_, fun h f hf => r5 h f (List.mem_flatMap.2 ⟨v, hv, hf⟩), (r3 v hv hs).2⟩, (r3 v hv hs).1, c1, c2, c3, ?_, ?_⟩
  · simp only [writtenTypes, List.mem_append, List.mem_flatMap, List.mem_map]
    exact .inr ⟨v, hv, f, hf, rfl⟩
  · cases hst : v.style with
    | unit => simp [serStyle, deStyle, hst]
    | named => simp [serStyle, deStyle, hst]
    | tuple =>
      cases hfs : v.fields with
      | nil => simp [serStyle, deStyle, hst, hfs]
      | cons f r =>
        cases r with
        | cons g r => simp [serStyle, deStyle, hst, hfs]
        | nil =>
          have e : f.skipDe = f.skipSer := by
            cases hss : f.skipSer with
            | true =>
              simp only [serStyle, hst, hfs, hss, if_true, CompleteFields, keptFields] at c3
              cases hdd : f.skipDe with
              | true => rfl
              | false => simp [hdd] at c3
            | false =>
              simp only [serStyle, hst, hfs, hss, CompleteFields] at c3
              have := c3.2.1 f List.mem_cons_self
              rw [hss] at this
              exact this.symm
          simp [serStyle, deStyle, hst, hfs, e]
  · cases ht : e.tag with
    | external => trivial
    | untagged => trivial
    | adjacent t c => rw [ht] at c4; exact c4
    | internal t => rw [ht] at c4; exact ⟨c4.1, c4.2, r4 t ht v hv⟩

theorem transparent_back {i : Nat} {s : StructDecl} {f : Field} {j : Json} (hi : P[i]? = some (.struct s))
    (hin : s.into = none) (htr : s.transparent = true) (hf : innerSer s.fields = [f]) (h : Back P f.ty j)
    (hn : AllNums Exact j) : De P (.named i) (echo j) := by
  obtain ⟨f1, f2, f4, f5, f3⟩ := struct_facts hc hr hi hin
  rw [if_pos htr] at f3
  obtain ⟨g, g1, g2, g3, g4⟩ := f3
  cases innerSer_only g2 hf
  have hm : f ∈ s.fields := by
    have : f ∈ serFields s.fields := by rw [g2]; exact List.mem_cons_self
    exact (List.mem_filter.1 this).1
  refine .transparent i s f _ hi f1 htr (innerFields_only g1 (f5.2 htr f hm) ?_) (h g4 (f2 f hm) hn)
  have := (List.mem_filter.1 (show f ∈ innerSer s.fields by rw [hf]; exact List.mem_cons_self)).2
  simpa using this

theorem struct_back {i : Nat} {s : StructDecl} {j : Json} (hi : P[i]? = some (.struct s))
    (hin : s.into = none) (htr : s.transparent = false) (h : BodyOf (Back P) s.style s.fields j)
    (hn : AllNums Exact j) : De P (.named i) (echo j) := by
  obtain ⟨f1, f2, f4, f5, f3⟩ := struct_facts hc hr hi hin
  rw [if_neg (by simp [htr])] at f3
  exact .struct i s _ hi f1 htr (body_deFields (body_back h f3 f2 hn f4 f5.1))

theorem internal_back {i : Nat} {e : EnumDecl} {v : Variant} {tag : Str} {kvs : List (Str × Json)}
    (hi : P[i]? = some (.enum e)) (hin : e.into = none) (ht : e.tag = .internal tag) (hv : v ∈ e.variants)
    (hs : v.skipSer = false) (hst : serStyle v = .named) (h : FieldsOf (Back P) v.fields kvs)
    (hn : AllNums.inMembers Exact kvs) : De P (.named i) (echo (.obj ((tag, .str v.serName) :: kvs))) := by
  obtain ⟨v1, v2, v3, v4, v5, v6, v7, v8⟩ := variant_facts hc hr hi hin hv hs
  rw [ht] at v8
  rw [echo_obj, List.map_cons]
  refine .internal i e v tag _ hi v1 ht v3 (v7.trans hst) ?_ ?_
  · rw [jget_cons, if_pos rfl, v5]; rfl
  · rw [v7, hst]
    rw [hst] at v6
    refine fields_back h v6 v2.1 hn [(tag, echo (.str v.serName))] (by simp)
      (by intro k hk; rw [List.map_cons, List.map_nil, List.mem_singleton] at hk; subst hk; exact v8.2.1)
      (by intro k hk; rw [List.map_cons, List.map_nil, List.mem_singleton] at hk; subst hk; exact v8.2.2.1) v2.2.2
      (by intro k hk; rw [List.map_cons, List.map_nil, List.mem_singleton] at hk; subst hk; exact v8.2.2.2) fun names hm => ?_
    cases hdn : e.deny with
    | false => rw [hdn] at hm; cases hm
    | true =>
      rw [hdn] at hm
      injection hm with hm
      exact ⟨fun k hk => hm ▸ hk, v2.2.1 hdn⟩

mutual

theorem ser_back : ∀ {t : Ty} {j : Json}, Ser P false t j → Back P t j
  | _, _, .string s => fun _ hp hn => prim_back (.string s) hp hn
  | _, _, .strRef s => fun _ hp hn => prim_back (.strRef s) hp hn
  | _, _, .smolStr s => fun _ hp hn => prim_back (.smolStr s) hp hn
  | _, _, .char c h => fun _ hp hn => prim_back (.char c h) hp hn
  | _, _, .bool b => fun _ hp hn => prim_back (.bool b) hp hn
  | _, _, .unit => fun _ hp hn => prim_back .unit hp hn
  | _, _, .ipv4 p a b c d h => fun _ hp hn => prim_back (.ipv4 p a b c d h) hp hn
  | _, _, .ipv6 p o g h hg hs => fun _ hp hn => prim_back (.ipv6 p o g h hg hs) hp hn
  | _, _, .int p lo hi i h1 h2 h3 => fun _ hp hn => prim_back (.int p lo hi i h1 h2 h3) hp hn
  | _, _, .float p q h => fun _ hp hn => prim_back (.float p q h) hp hn
  | _, _, .nonFinite p h h' => fun _ hp hn => prim_back (.nonFinite p h h') hp hn
  | _, _, .wrap w t j hw h => by
    have ih := ser_back h
    intro ht hp hn
    cases ht with
    | wrap _ _ _ _ ht =>
    cases hp with
    | wrap _ _ _ _ hp => exact .wrap _ _ _ hw (ih ht hp hn)
  | _, _, .phantom t => by
    intro ht
    cases ht with
    | wrap _ _ h => exact absurd rfl h
  | _, _, .weak t => by
    intro ht
    cases ht with
    | wrap _ _ _ h => exact absurd rfl h
  | _, _, .none t => by rintro ⟨⟩
  | _, _, .some t j _ => by rintro ⟨⟩
  | _, _, .vec t js h => by
    have ih := fun j hj => ser_back (h j hj)
    intro ht hp hn
    cases ht with
    | vec _ ht =>
    cases hp with
    | vec _ hp =>
    rw [echo_arr]
    refine .vec _ _ fun j hj => ?_
    obtain ⟨j, hj', rfl⟩ := List.mem_map.1 hj
    exact ih j hj' ht hp (allNums_list.1 hn j hj')
  | _, _, .array n t js hl h => by
    have ih := fun j hj => ser_back (h j hj)
    intro ht hp hn
    cases ht with
    | array _ _ ht =>
    cases hp with
    | array _ _ hp =>
    rw [echo_arr]
    refine .array _ _ _ (by rw [List.length_map, hl]) fun j hj => ?_
    obtain ⟨j, hj', rfl⟩ := List.mem_map.1 hj
    exact ih j hj' ht hp (allNums_list.1 hn j hj')
  | _, _, .hashSet t js h => by rintro ⟨⟩
  | _, _, .btreeSet t js h => by rintro ⟨⟩
  | _, _, .hashMap p t kvs hp h => by rintro ⟨⟩
  | _, _, .btreeMap p t kvs hp h => by rintro ⟨⟩
  | _, _, .tuple ts js h => by
    have ih := all2_back h
    intro ht hp hn
    cases ht with
    | tuple _ ht =>
    cases hp with
    | tuple _ hp =>
    rw [echo_arr]
    exact .tuple _ _ (list_back ih ht hp (allNums_list.1 hn))
  | _, _, .ok t e j h => by
    have ih := ser_back h
    intro ht hp hn
    cases ht with
    | result _ _ ht he =>
    cases hp with
    | result _ _ hp hpe => exact .ok _ _ _ (ih ht hp hn.1)
  | _, _, .err t e j h => by
    have ih := ser_back h
    intro ht hp hn
    cases ht with
    | result _ _ ht he =>
    cases hp with
    | result _ _ hp hpe => exact .err _ _ _ (ih he hpe hn.1)
  | _, _, .into i d t j hi hin h => by
    have ih := ser_back h
    exact fun _ _ hn => into_back hc hr hi hin ih hn
  | _, _, .transparent i s f j hi hin htr hf h => by
    have ih := ser_back h
    exact fun _ _ hn => transparent_back hc hr hi hin htr hf ih hn
  | _, _, .struct i s j hi hin htr h => by
    have ih := bodyOf_back h
    exact fun _ _ hn => struct_back hc hr hi hin htr ih hn
  | _, _, .externalUnit i e w hi hin htag hw hs hst => by
    intro _ _ _
    obtain ⟨v1, v2, v3, v4, v5, v6, v7, v8⟩ := variant_facts hc hr hi hin hw hs
    rw [v5]
    exact .externalUnit i e w hi v1 htag v3 (v7.trans hst)
  | _, _, .external i e w j hi hin htag hw hs h => by
    have ih := bodyOf_back h
    intro _ _ hn
    obtain ⟨v1, v2, v3, v4, v5, v6, v7, v8⟩ := variant_facts hc hr hi hin hw hs
    rw [v5]
    exact .external i e w _ hi v1 htag v3 (v7 ▸ body_back ih v6 v2.1 hn.1 v2.2.1 v2.2.2)
  | _, _, .internalUnit i e w t hi hin htag hw hs hst => by
    intro _ _ _
    obtain ⟨v1, v2, v3, v4, v5, v6, v7, v8⟩ := variant_facts hc hr hi hin hw hs
    exact .internalUnit i e w t _ hi v1 htag v3 (v7.trans hst) (by simp [echo.echoObj])
      (by rw [v5]; simp [echo.echoObj, jget, echo])
  | _, _, .internal i e w t kvs hi hin htag hw hs hst h => by
    have ih := fieldsOf_back h
    exact fun _ _ hn => internal_back hc hr hi hin htag hw hs hst ih hn.2
  | _, _, .internalNewtype i e w t f kvs hi hin htag hw hs hst hf h => by
    intro _ _ _
    obtain ⟨v1, v2, v3, v4, v5, v6, v7, v8⟩ := variant_facts hc hr hi hin hw hs
    rw [htag] at v8
    exact absurd hst v8.1
  | _, _, .adjacentUnit i e w t c hi hin htag hw hs hst => by
    intro _ _ _
    obtain ⟨v1, v2, v3, v4, v5, v6, v7, v8⟩ := variant_facts hc hr hi hin hw hs
    rw [htag] at v8
    exact .adjacentUnit i e w t c _ hi v1 htag v3 (v7.trans hst) (by simp [echo.echoObj])
      (by rw [v5]; simp [echo.echoObj, jget, echo]) (by
        have : t ≠ c := v8
        simp [echo.echoObj, jget, this]) (fun _ p hp => by simp [echo.echoObj] at hp; rw [hp])
  | _, _, .adjacent i e w t c j hi hin htag hw hs h => by
    have ih := bodyOf_back h
    intro _ _ hn
    obtain ⟨v1, v2, v3, v4, v5, v6, v7, v8⟩ := variant_facts hc hr hi hin hw hs
    rw [htag] at v8
    have hne : t ≠ c := v8
    exact .adjacent i e w t c _ (echo j) hi v1 htag v3 (by simp [echo.echoObj, hne])
      (by rw [v5]; simp [echo.echoObj, jget, echo]) (by simp [echo.echoObj, jget, hne])
      (fun _ p hp => by simp [echo.echoObj] at hp; rcases hp with hp | hp <;> simp [hp])
      (v7 ▸ body_back ih v6 v2.1 hn.2.1 v2.2.1 v2.2.2)
  | _, _, .untaggedUnit i e w hi hin htag hw hs hst => by
    intro _ _ _
    obtain ⟨v1, v2, v3, v4, v5, v6, v7, v8⟩ := variant_facts hc hr hi hin hw hs
    exact .untaggedUnit i e w hi v1 htag hw v4 (v7.trans hst)
  | _, _, .untagged i e w j hi hin htag hw hs h => by
    have ih := bodyOf_back h
    intro _ _ hn
    obtain ⟨v1, v2, v3, v4, v5, v6, v7, v8⟩ := variant_facts hc hr hi hin hw hs
    exact .untagged i e w _ hi v1 htag hw v4 (v7 ▸ body_back ih v6 v2.1 hn v2.2.1 v2.2.2)

theorem bodyOf_back : ∀ {st : Style} {fs : List Field} {j : Json}, SerBody P false st fs j → BodyOf (Back P) st fs j
  | _, _, _, .newtype f j h => .newtype f j (ser_back h)
  | _, _, _, .tuple fs gs js hl hch h => .tuple fs gs js hl hch (all2_back h)
  | _, _, _, .named fs kvs h => .named fs kvs (fieldsOf_back h)

theorem fieldsOf_back : ∀ {fs : List Field} {kvs : List (Str × Json)}, SerFields P false fs kvs → FieldsOf (Back P) fs kvs
  | _, _, .nil => .nil
  | _, _, .skip f fs kvs h1 h => .skip f fs kvs h1 (fieldsOf_back h)
  | _, _, .absent f fs kvs t h1 h2 h3 h => .absent f fs kvs t h1 h2 h3 (fieldsOf_back h)
  | _, _, .omitted f fs kvs h1 h2 h => .omitted f fs kvs h1 h2 (fieldsOf_back h)
  | _, _, .present f fs kvs t j h1 h2 h3 h4 h5 h => .present f fs kvs t j h1 h2 h3 h4 (ser_back h5) (fieldsOf_back h)
  | _, _, .field f fs kvs j h1 h2 h3 h4 h => .field f fs kvs j h1 h2 h3 (ser_back h4) (fieldsOf_back h)
  | _, _, .flat f fs kvs' kvs h1 h2 h3 h => .flat f fs kvs' kvs h1 h2 (ser_back h3) (fieldsOf_back h)
  | _, _, .flatNone f fs kvs t h1 h2 h3 h => .flatNone f fs kvs t h1 h2 h3 (fieldsOf_back h)

theorem all2_back : ∀ {ts : List Ty} {js : List Json}, All2 (Ser P false) ts js → All2 (Back P) ts js
  | _, _, .nil => .nil
  | _, _, .cons h hs => .cons (ser_back h) (all2_back hs)

end

end

/-! ## The numbers of narrow types -/

section
variable {P : Program} {odd : Bool} (hN : NarrowProgram P)

/-- The integers in the document are exact. -/
def IntsExact : JNum → Prop
  | .int i => -(2 ^ 53) ≤ i ∧ i ≤ 2 ^ 53
  | .flt _ => True

/-- Documents of narrow types contain only integers that doubles represent. -/
def Small (t : Ty) (j : Json) : Prop := Narrow t → AllNums IntsExact j

theorem fields_small {fs : List Field} {kvs : List (Str × Json)} (h : FieldsOf Small fs kvs)
    (hf : ∀ f ∈ fs, Narrow f.ty) : AllNums.inMembers IntsExact kvs := by
  have app : ∀ {a b : List (Str × Json)}, AllNums.inMembers IntsExact a → AllNums.inMembers IntsExact b →
      AllNums.inMembers IntsExact (a ++ b) := by
    intro a b ha hb
    refine allNums_members.2 fun p hp => ?_
    rcases List.mem_append.1 hp with hp | hp
    · exact allNums_members.1 ha p hp
    · exact allNums_members.1 hb p hp
  induction h with
  | nil => trivial
  | skip f fs kvs _ _ ih => exact ih fun f h => hf f (List.mem_cons_of_mem _ h)
  | absent f fs kvs t _ _ _ _ ih => exact ih fun f h => hf f (List.mem_cons_of_mem _ h)
  | omitted f fs kvs _ _ _ ih => exact ih fun f h => hf f (List.mem_cons_of_mem _ h)
  | present f fs kvs t j _ _ ht _ h _ ih =>
    refine ⟨h ?_, ih fun f h => hf f (List.mem_cons_of_mem _ h)⟩
    have := hf f List.mem_cons_self
    rw [ht] at this
    cases this; assumption
  | field f fs kvs j _ _ _ h _ ih => exact ⟨h (hf f List.mem_cons_self), ih fun f h => hf f (List.mem_cons_of_mem _ h)⟩
  | flat f fs kvs' kvs _ _ h _ ih =>
    exact app (h (hf f List.mem_cons_self)) (ih fun f h => hf f (List.mem_cons_of_mem _ h))
  | flatNone f fs kvs t _ _ _ _ ih => exact ih fun f h => hf f (List.mem_cons_of_mem _ h)

theorem list_small {ts : List Ty} {js : List Json} (h : All2 Small ts js) (ht : ∀ t ∈ ts, Narrow t) :
    AllNums.inList IntsExact js := by
  induction h with
  | nil => trivial
  | cons h _ ih => exact ⟨h (ht _ List.mem_cons_self), ih fun t h => ht t (List.mem_cons_of_mem _ h)⟩

theorem body_small {st : Style} {fs : List Field} {j : Json} (h : BodyOf Small st fs j) (hf : ∀ f ∈ fs, Narrow f.ty) :
    AllNums IntsExact j := by
  cases h with
  | newtype f j h => exact h (hf f List.mem_cons_self)
  | tuple fs gs js _ hch h =>
    refine list_small h fun t ht => ?_
    obtain ⟨f, h, rfl⟩ := List.mem_map.1 ht
    exact hf f (List.mem_filter.1 (chosen_mem hch f h)).1
  | named fs kvs h => exact fields_small h hf

include hN

theorem into_narrow {i : Nat} {d : Decl} {t : Ty} (hi : P[i]? = some d) (hin : Decl.into d = some t) : Narrow t := by
  refine hN d (List.mem_of_getElem? hi) t ?_
  cases d with
  | struct s => have hin : s.into = some t := hin; simp [writtenTypes, hin]
  | enum e => have hin : e.into = some t := hin; simp [writtenTypes, hin]

theorem struct_narrow {i : Nat} {s : StructDecl} (hi : P[i]? = some (.struct s)) : ∀ f ∈ s.fields, Narrow f.ty := by
  intro f hf
  refine hN _ (List.mem_of_getElem? hi) _ ?_
  simp only [writtenTypes, List.mem_append, List.mem_map]
  exact .inr ⟨f, hf, rfl⟩

theorem variant_narrow {i : Nat} {e : EnumDecl} {v : Variant} (hi : P[i]? = some (.enum e)) (hv : v ∈ e.variants) :
    ∀ f ∈ v.fields, Narrow f.ty := by
  intro f hf
  refine hN _ (List.mem_of_getElem? hi) _ ?_
  simp only [writtenTypes, List.mem_append, List.mem_flatMap, List.mem_map]
  exact .inr ⟨v, hv, f, hf, rfl⟩

mutual

theorem ser_small : ∀ {t : Ty} {j : Json}, Ser P odd t j → Small t j
  | _, _, .string s => fun _ => trivial
  | _, _, .strRef s => fun _ => trivial
  | _, _, .smolStr s => fun _ => trivial
  | _, _, .char c h => fun _ => trivial
  | _, _, .bool b => fun _ => trivial
  | _, _, .unit => fun _ => trivial
  | _, _, .ipv4 p a b c d h => fun _ => trivial
  | _, _, .ipv6 p o g h hg hs => fun _ => trivial
  | _, _, .int p lo hi i h1 h2 h3 => by
    intro hp
    cases hp with
    | prim _ hp =>
    rw [hp] at h1
    have h1 : smallRange p = some (lo, hi) := by
      rcases h1 with h1 | h1
      · exact h1
      · cases h1
    show -(2 ^ 53) ≤ i ∧ i ≤ 2 ^ 53
    cases p <;> simp only [smallRange, Option.some.injEq, Prod.mk.injEq, reduceCtorEq] at h1 <;> omega
  | _, _, .float p q h => fun _ => trivial
  | _, _, .nonFinite p h h' => fun _ => trivial
  | _, _, .wrap w t j hw h => by
    have ih := ser_small h
    intro hp
    cases hp with
    | wrap _ _ hp => exact ih hp
  | _, _, .phantom t => fun _ => trivial
  | _, _, .weak t => fun _ => trivial
  | _, _, .none t => fun _ => trivial
  | _, _, .some t j h => by
    have ih := ser_small h
    intro hp
    cases hp with
    | option _ hp => exact ih hp
  | _, _, .vec t js h => by
    have ih := fun j hj => ser_small (h j hj)
    intro hp
    cases hp with
    | vec _ hp => exact allNums_list.2 fun j hj => ih j hj hp
  | _, _, .array n t js hl h => by
    have ih := fun j hj => ser_small (h j hj)
    intro hp
    cases hp with
    | array _ _ hp => exact allNums_list.2 fun j hj => ih j hj hp
  | _, _, .hashSet t js h => by
    have ih := fun j hj => ser_small (h j hj)
    intro hp
    cases hp with
    | hashSet _ hp => exact allNums_list.2 fun j hj => ih j hj hp
  | _, _, .btreeSet t js h => by
    have ih := fun j hj => ser_small (h j hj)
    intro hp
    cases hp with
    | btreeSet _ hp => exact allNums_list.2 fun j hj => ih j hj hp
  | _, _, .hashMap p t kvs hp h => by
    have ih := fun kv hkv => ser_small (h kv hkv)
    intro hp
    cases hp with
    | hashMap _ _ _ hp => exact allNums_members.2 fun kv hkv => ih kv hkv hp
  | _, _, .btreeMap p t kvs hp h => by
    have ih := fun kv hkv => ser_small (h kv hkv)
    intro hp
    cases hp with
    | btreeMap _ _ _ hp => exact allNums_members.2 fun kv hkv => ih kv hkv hp
  | _, _, .tuple ts js h => by
    have ih := all2_small h
    intro hp
    cases hp with
    | tuple _ hp => exact list_small ih hp
  | _, _, .ok t e j h => by
    have ih := ser_small h
    intro hp
    cases hp with
    | result _ _ hp _ => exact ⟨ih hp, trivial⟩
  | _, _, .err t e j h => by
    have ih := ser_small h
    intro hp
    cases hp with
    | result _ _ _ hp => exact ⟨ih hp, trivial⟩
  | _, _, .into i d t j hi hin h => by
    have ih := ser_small h
    exact fun _ => ih (into_narrow hN hi hin)
  | _, _, .transparent i s f j hi hin htr hf h => by
    have ih := ser_small h
    refine fun _ => ih (struct_narrow hN hi f ?_)
    have : f ∈ innerSer s.fields := by rw [hf]; exact List.mem_cons_self
    exact (List.mem_filter.1 (List.mem_filter.1 this).1).1
  | _, _, .struct i s j hi hin htr h => by
    have ih := bodyOf_small h
    exact fun _ => body_small ih (struct_narrow hN hi)
  | _, _, .externalUnit i e w hi hin htag hw hs hst => fun _ => trivial
  | _, _, .external i e w j hi hin htag hw hs h => by
    have ih := bodyOf_small h
    exact fun _ => ⟨body_small ih (variant_narrow hN hi hw), trivial⟩
  | _, _, .internalUnit i e w t hi hin htag hw hs hst => fun _ => ⟨trivial, trivial⟩
  | _, _, .internal i e w t kvs hi hin htag hw hs hst h => by
    have ih := fieldsOf_small h
    exact fun _ => ⟨trivial, fields_small ih (variant_narrow hN hi hw)⟩
  | _, _, .internalNewtype i e w t f kvs hi hin htag hw hs hst hf h => by
    have ih := ser_small h
    exact fun _ => ⟨trivial, ih (variant_narrow hN hi hw f (by rw [hf]; exact List.mem_cons_self))⟩
  | _, _, .adjacentUnit i e w t c hi hin htag hw hs hst => fun _ => ⟨trivial, trivial⟩
  | _, _, .adjacent i e w t c j hi hin htag hw hs h => by
    have ih := bodyOf_small h
    exact fun _ => ⟨trivial, body_small ih (variant_narrow hN hi hw), trivial⟩
  | _, _, .untaggedUnit i e w hi hin htag hw hs hst => fun _ => trivial
  | _, _, .untagged i e w j hi hin htag hw hs h => by
    have ih := bodyOf_small h
    exact fun _ => body_small ih (variant_narrow hN hi hw)

theorem bodyOf_small : ∀ {st : Style} {fs : List Field} {j : Json}, SerBody P odd st fs j → BodyOf Small st fs j
  | _, _, _, .newtype f j h => .newtype f j (ser_small h)
  | _, _, _, .tuple fs gs js hl hch h => .tuple fs gs js hl hch (all2_small h)
  | _, _, _, .named fs kvs h => .named fs kvs (fieldsOf_small h)

theorem fieldsOf_small : ∀ {fs : List Field} {kvs : List (Str × Json)}, SerFields P odd fs kvs → FieldsOf Small fs kvs
  | _, _, .nil => .nil
  | _, _, .skip f fs kvs h1 h => .skip f fs kvs h1 (fieldsOf_small h)
  | _, _, .absent f fs kvs t h1 h2 h3 h => .absent f fs kvs t h1 h2 h3 (fieldsOf_small h)
  | _, _, .omitted f fs kvs h1 h2 h => .omitted f fs kvs h1 h2 (fieldsOf_small h)
  | _, _, .present f fs kvs t j h1 h2 h3 h4 h5 h => .present f fs kvs t j h1 h2 h3 h4 (ser_small h5) (fieldsOf_small h)
  | _, _, .field f fs kvs j h1 h2 h3 h4 h => .field f fs kvs j h1 h2 h3 (ser_small h4) (fieldsOf_small h)
  | _, _, .flat f fs kvs' kvs h1 h2 h3 h => .flat f fs kvs' kvs h1 h2 (ser_small h3) (fieldsOf_small h)
  | _, _, .flatNone f fs kvs t h1 h2 h3 h => .flatNone f fs kvs t h1 h2 h3 (fieldsOf_small h)

theorem all2_small : ∀ {ts : List Ty} {js : List Json}, All2 (Ser P odd) ts js → All2 Small ts js
  | _, _, .nil => .nil
  | _, _, .cons h hs => .cons (ser_small h) (all2_small hs)

end

end

theorem exact_of {j : Json} (h1 : AllNums IntsExact j) (h2 : AllNums FloatsExact j) : AllNums Exact j := by
  match j, h1, h2 with
  | .null, _, _ => trivial
  | .bool _, _, _ => trivial
  | .str _, _, _ => trivial
  | .num (.int _), h, _ => exact h
  | .num (.flt _), _, h => exact h
  | .arr l, h1, h2 =>
    exact allNums_list.2 fun x hx => exact_of (allNums_list.1 h1 x hx) (allNums_list.1 h2 x hx)
  | .obj l, h1, h2 =>
    exact allNums_members.2 fun x hx => exact_of (allNums_members.1 h1 x hx) (allNums_members.1 h2 x hx)
termination_by sizeOf j
decreasing_by
  · have := List.sizeOf_lt_of_mem hx
    simp; omega
  · have := List.sizeOf_lt_of_mem hx
    have : sizeOf x.2 < sizeOf x := by obtain ⟨a, b⟩ := x; simp; omega
    simp; omega

end Verif.Zod
