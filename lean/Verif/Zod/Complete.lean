import Verif.Zod.Term
import Verif.Zod.IpLemmas
import Verif.Zod.Module
import Verif.Spec.Ser

/-!
# Schemas accept what serde writes
-/

namespace Verif.Zod
open Verif Verif.Js Verif.Schema Verif.Spec Verif.SchemaSpec

section
variable {E : ZEnv}

theorem Accepts.ends {z : ZSchema} {v : JsVal} (h : Accepts E z v) : Ends E z v := by
  obtain ⟨r, n, h⟩ := h
  exact ⟨n, _, h⟩

theorem commonA {α : Type} {l : List α} {z : α → ZSchema} {v : α → JsVal} (h : ∀ a ∈ l, Accepts E (z a) (v a)) :
    ∃ n, ∀ a ∈ l, ∃ r, parse E n (z a) (v a) = some (some r) := by
  induction l with
  | nil => exact ⟨0, by simp⟩
  | cons a l ih =>
    obtain ⟨x, n, hx⟩ := h a List.mem_cons_self
    obtain ⟨m, hm⟩ := ih fun b hb => h b (List.mem_cons_of_mem _ hb)
    refine ⟨max n m, fun b hb => ?_⟩
    rcases List.mem_cons.1 hb with rfl | hb
    · exact ⟨x, parse_mono (Nat.le_max_left n m) hx⟩
    · obtain ⟨y, hy⟩ := hm b hb
      exact ⟨y, parse_mono (Nat.le_max_right n m) hy⟩

theorem allRes_accepts {α β : Type} {f : α → Res β} {l : List α} (h : ∀ a ∈ l, ∃ x, f a = some (some x)) :
    ∃ x, allRes (l.map f) = some (some x) := by
  induction l with
  | nil => exact ⟨_, rfl⟩
  | cons a l ih =>
    obtain ⟨x, hx⟩ := h a List.mem_cons_self
    obtain ⟨y, hy⟩ := ih fun b hb => h b (List.mem_cons_of_mem _ hb)
    rw [List.map_cons, hx, allRes, hy]
    exact ⟨_, rfl⟩

theorem accepts_array {z : ZSchema} {l : List JsVal} (h : ∀ a ∈ l, Accepts E z a) : Accepts E (.array z) (.arr l) := by
  obtain ⟨n, hn⟩ := commonA (z := fun _ => z) (v := fun a => a) h
  obtain ⟨x, hx⟩ := allRes_accepts (f := parse E n z) hn
  exact ⟨.arr x, n + 1, by rw [parse, hx]; rfl⟩

theorem accepts_tuple {zs : List ZSchema} {l : List JsVal} (h : All2 (Accepts E) zs l) :
    Accepts E (.tuple zs) (.arr l) := by
  have hl := All2.length h
  obtain ⟨n, hn⟩ := commonA (l := zs.zip l) (z := fun p => p.1) (v := fun p => p.2) (E := E) (by
    clear hl
    induction h with
    | nil => simp
    | cons h1 _ ih =>
      intro p hp
      rcases List.mem_cons.1 hp with rfl | hp
      · exact h1
      · exact ih p hp)
  obtain ⟨x, hx⟩ := allRes_accepts (f := fun p : ZSchema × JsVal => parse E n p.1 p.2) hn
  refine ⟨.arr x, n + 1, ?_⟩
  rw [parse, if_neg (by omega), show List.zipWith (parse E n) zs l = (zs.zip l).map (fun p => parse E n p.1 p.2) by
        rw [List.zip, List.map_zipWith], hx]
  simp only
  rw [if_neg (by omega)]
  rfl

theorem accepts_objZ {l : List (Str × Option ZSchema)} {z : ZSchema} (hz : objZ l = some z)
    {kvs : List (Str × JsVal)} (h : ∀ p ∈ l, ∀ z, p.2 = some z → Accepts E z (objGet kvs p.1)) :
    Accepts E z (.obj kvs) := by
  obtain ⟨zs, rfl, hnd, ha⟩ := objZ_some hz
  clear hnd
  have : ∀ p ∈ (l.map (·.1)).zip zs, ∃ q ∈ l, q.1 = p.1 ∧ q.2 = some p.2 := by
    clear h hz
    induction ha with
    | nil => simp
    | cons h1 _ ih =>
      intro p hp
      rw [List.map_cons, List.zip_cons_cons] at hp
      rcases List.mem_cons.1 hp with rfl | hp
      · exact ⟨_, List.mem_cons_self, rfl, h1⟩
      · obtain ⟨q, hq, h⟩ := ih p hp
        exact ⟨q, List.mem_cons_of_mem _ hq, h⟩
  obtain ⟨n, hn⟩ := commonA (E := E) (l := (l.map (·.1)).zip zs) (z := fun p => p.2) (v := fun p => objGet kvs p.1) (by
    intro p hp
    obtain ⟨q, hq, h1, h2⟩ := this p hp
    rw [← h1]
    exact h q hq p.2 h2)
  obtain ⟨x, hx⟩ := allRes_accepts (f := fun p : Str × ZSchema => parse E n p.2 (objGet kvs p.1)) hn
  exact ⟨_, n + 1, by rw [parse, hx]; rfl⟩

theorem firstRes_accepts {α β : Type} {f : α → Res β} {l : List α} (h : ∀ a ∈ l, ∃ x, f a = some x) {a : α}
    (ha : a ∈ l) {r : β} (hr : f a = some (some r)) : ∃ x, firstRes (l.map f) = some (some x) := by
  induction l with
  | nil => cases ha
  | cons b l ih =>
    obtain ⟨x, hx⟩ := h b List.mem_cons_self
    rw [List.map_cons, hx]
    cases x with
    | some y => exact ⟨_, rfl⟩
    | none =>
      rcases List.mem_cons.1 ha with rfl | ha
      · rw [hr] at hx; cases hx
      · exact ih (fun c hc => h c (List.mem_cons_of_mem _ hc)) ha

theorem accepts_union {zs : List ZSchema} {v : JsVal} (h : ∀ z ∈ zs, Ends E z v) {z : ZSchema} (hz : z ∈ zs)
    (ha : Accepts E z v) : Accepts E (.union zs) v := by
  obtain ⟨n, hn⟩ := common (z := fun z : ZSchema => z) (v := fun _ => v) h
  obtain ⟨r, m, hr⟩ := ha
  obtain ⟨x, hx⟩ := firstRes_accepts (f := fun z => parse E (max n m) z v)
    (fun a ha => (hn a ha).imp fun _ => parse_mono (Nat.le_max_left n m)) hz (parse_mono (Nat.le_max_right n m) hr)
  exact ⟨x, max n m + 1, by rw [parse, hx]⟩

theorem accepts_disc {t : Str} {os : List (Str × ZSchema)} {kvs : List (Str × JsVal)} {s : Str} {z : ZSchema}
    (hg : objGet kvs t = .str s) (ho : os.find? (fun p => decide (p.1 = s)) = some (s, z))
    (h : Accepts E z (.obj kvs)) : Accepts E (.discUnion t os) (.obj kvs) := by
  obtain ⟨r, n, h⟩ := h
  exact ⟨r, n + 1, by rw [parse, hg]; simp only; rw [ho]; exact h⟩

theorem accepts_optional {z : ZSchema} {v : JsVal} (h : v = .undefined ∨ Accepts E z v) :
    Accepts E (.optional z) v := by
  rcases h with rfl | ⟨r, n, h⟩
  · exact ⟨.undefined, 1, rfl⟩
  · cases v with
    | undefined => exact ⟨.undefined, 1, rfl⟩
    | _ => exact ⟨r, n + 1, h⟩

theorem accepts_lazy {ns name : Str} {z : ZSchema} (hz : E.const ns name = some z) {v : JsVal}
    (h : Accepts E z v) : Accepts E (.lazy ns name) v := by
  obtain ⟨r, n, h⟩ := h
  exact ⟨r, n + 1, by rw [parse, hz]; exact h⟩

theorem accepts_opt {b : Bool} {o : Option ZSchema} {z : ZSchema} (hz : optZ b o = some z) {v : JsVal}
    (h : ∀ z, o = some z → Accepts E z v) : Accepts E z v := by
  unfold optZ at hz
  cases b with
  | false => exact h z hz
  | true =>
    cases o with
    | none => cases hz
    | some a => injection hz with hz; subst hz; exact accepts_optional (Or.inr (h a rfl))

theorem accepts_literal {s : Str} : Accepts E (.literal s) (.str s) := ⟨.str s, 1, by simp [parse]⟩

variable {rec : Method → Ty → Option ZSchema}

theorem accepts_enum {e : EnumDecl} {z : ZSchema} {v : JsVal} (hz : enumZ rec e = some z)
    (hnt : NoThrow (.enum e)) (he : ∀ w ∈ e.kept, ∀ z, variantZ rec e.tag w = some z → Ends E z v)
    {w : Variant} (hw : w ∈ e.kept) (ha : ∀ z, variantZ rec e.tag w = some z → Accepts E z v)
    (ht : ∀ t, (e.tag = .internal t ∨ ∃ c, e.tag = .adjacent t c) → ∃ kvs, v = .obj kvs ∧ objGet kvs t = .str w.name) :
    Accepts E z v := by
  obtain ⟨_, _, htt, hdv⟩ := hnt
  have hmem : ∀ v ∈ e.kept, v ∈ e.variants ∧ v.skipDe = false := by
    intro v hv
    have := List.mem_filter.1 hv
    exact ⟨this.1, by simpa using this.2⟩
  have hun : (allSome (e.kept.map (variantZ rec e.tag))).map ZSchema.union = some z → Accepts E z v := by
    intro hz
    cases hs : allSome (e.kept.map (variantZ rec e.tag)) with
    | none => rw [hs] at hz; cases hz
    | some zs =>
      rw [hs] at hz
      injection hz with hz
      subst hz
      obtain ⟨z, hz, hzw⟩ := All2.mem_left (allSome_all2 hs) hw
      refine accepts_union (fun z hm => ?_) hz (ha z hzw)
      obtain ⟨w', hw', hz⟩ := All2.mem_right (allSome_all2 hs) hm
      exact he w' hw' z hz
  have hdi : ∀ t, 2 ≤ e.kept.length → (e.tag = .internal t ∨ ∃ c, e.tag = .adjacent t c) →
      discZ t (e.kept.map (variantZ rec e.tag)) = some z → Accepts E z v := by
    intro t hlen htag hz
    obtain ⟨kvs, rfl, hg⟩ := ht t htag
    unfold discZ at hz
    split at hz
    · rename_i zs hs
      have h2 : All2 (fun v z => discriminator t z = some v.name) e.kept zs := by
        refine All2.imp_mem (allSome_all2 hs) ?_
        intro v hvm z hz
        refine variant_disc htag ?_ hz
        rintro ⟨t', ht'⟩ hst
        unfold NoTaggedTuple at htt
        rw [ht'] at htt
        simp only at htt
        rcases htt with hl | hl
        · exfalso
          have : e.kept.length ≤ 1 := hl
          omega
        · exact List.map_eq_nil_iff.1 (hl v (hmem v hvm).1 (hmem v hvm).2 hst)
      rw [discOptions_total h2 hdv] at hz
      injection hz with hz; subst hz
      have h3 : ∀ z, variantZ rec e.tag w = some z →
          ((e.kept.map (·.name)).zip zs).find? (fun p => decide (p.1 = w.name)) = some (w.name, z) := by
        intro z hzw
        have hdv : (e.kept.map (·.name)).Nodup := hdv
        have hs2 := allSome_all2 hs
        clear hs hz h2 htag hmem hun hlen he ha
        generalize e.kept = l at hs2 hw hdv
        induction hs2 with
        | nil => cases hw
        | @cons w' z' l zs h1 _ ih =>
          rw [List.map_cons, List.nodup_cons] at hdv
          rw [List.map_cons, List.zip_cons_cons, List.find?_cons]
          rcases List.mem_cons.1 hw with rfl | hw
          · rw [h1] at hzw
            injection hzw with hzw
            subst hzw
            simp
          · have : w'.name ≠ w.name := fun e => hdv.1 (e ▸ List.mem_map.2 ⟨w, hw, rfl⟩)
            simp only [this, decide_false]
            exact ih hw hdv.2
      obtain ⟨z, hz, hzw⟩ := All2.mem_left (allSome_all2 hs) hw
      exact accepts_disc hg (h3 z hzw) (ha z hzw)
    · cases hz
  unfold enumZ at hz
  match hk : e.kept, hz with
  | [w'], hz =>
    rw [hk, List.mem_singleton] at hw
    subst hw
    exact ha z hz
  | a :: b :: l, hz =>
    simp only at hz
    rw [← hk] at hz
    have hlen : 2 ≤ e.kept.length := by rw [hk]; simp
    cases htag : e.tag with
    | external => rw [htag] at hz hun; exact hun hz
    | untagged => rw [htag] at hz hun; exact hun hz
    | internal t => rw [htag] at hz hdi; exact hdi t hlen (Or.inl rfl) hz
    | adjacent t c => rw [htag] at hz hdi; exact hdi t hlen (Or.inr ⟨c, rfl⟩) hz

end

/-! ## Documents -/

/-- A member, or `undefined` if it is absent. -/
def jsOf : Option Json → JsVal
  | some j => fromJson j
  | none => .undefined

theorem objGet_json (kvs : List (Str × Json)) (k : Str) :
    objGet (kvs.map (fun p => (p.1, fromJson p.2))) k = jsOf (jget kvs k) := by
  induction kvs with
  | nil => rfl
  | cons p l ih =>
    obtain ⟨k', j⟩ := p
    rw [jget_cons]
    unfold objGet at ih ⊢
    rw [List.map_cons, List.find?_cons]
    by_cases h : k' = k
    · simp [h, jsOf]
    · simp only [h, decide_false, if_false]
      exact ih

theorem jget_mem {kvs : List (Str × Json)} {k : Str} {j : Json} (h : jget kvs k = some j) : (k, j) ∈ kvs := by
  induction kvs with
  | nil => cases h
  | cons p l ih =>
    obtain ⟨k', j'⟩ := p
    rw [jget_cons] at h
    by_cases e : k' = k
    · rw [if_pos e] at h; injection h with h; subst h e; exact List.mem_cons_self
    · rw [if_neg e] at h; exact List.mem_cons_of_mem _ (ih h)

theorem jget_lt {kvs : List (Str × Json)} {k : Str} {j : Json} (h : jget kvs k = some j) :
    sizeOf j < sizeOf (Json.obj kvs) := by
  have := List.sizeOf_lt_of_mem (jget_mem h)
  simp only [Prod.mk.sizeOf_spec, Json.obj.sizeOf_spec] at this ⊢
  omega

theorem jarr_lt {l : List Json} {j : Json} (h : j ∈ l) : sizeOf j < sizeOf (Json.arr l) := by
  have := List.sizeOf_lt_of_mem h
  simp only [Json.arr.sizeOf_spec]
  omega

/-- It is enough to consider `schema()`. -/
theorem inline_reduceT {P : Program} {E : ZEnv} (hE : EnvOk P E)
    (hT : ∀ (i : Nat) (d : Decl), P[i]? = some d → ∃ z, E.const d.ns d.name = some z) {t : Ty} {Q : ZSchema → Prop}
    (hlazy : ∀ ns name z, E.const ns name = some z → Q z → Q (.lazy ns name))
    (h : ∀ n z, zOf P n .schema t = some z → Q z)
    (hf : ∀ i d u, t = .named i → P[i]? = some d → (Decl.from_ d).ty? = some u →
      ∀ n z, zOf P n .inlineSchema u = some z → Q z) :
    ∀ (n : Nat) (m : Method) (z : ZSchema), zOf P n m t = some z → Q z := by
  intro n m z hz
  cases n with
  | zero => cases hz
  | succ n =>
    cases m with
    | schema => exact h _ z hz
    | inlineSchema =>
      cases t with
      | named i =>
        have hz' : zBody (zOf P n) P .inlineSchema (.named i) = some z := hz
        obtain ⟨d, hd, ⟨e, _⟩ | ⟨_, hz'⟩⟩ := zBody_some hz'
        · cases e
        · have lz : z = .lazy d.ns d.name → Q z := by
            rintro rfl
            obtain ⟨z, hc⟩ := hT i d hd
            obtain ⟨n', hn'⟩ := hE i d z hd hc
            exact hlazy _ _ z hc (h n' z hn')
          cases d with
          | struct s => injection hz' with hz'; exact lz hz'.symm
          | enum e =>
            simp only [declInlineZ] at hz'
            cases hu : e.from_.ty? with
            | none => rw [hu] at hz'; injection hz' with hz'; exact lz hz'.symm
            | some u => rw [hu] at hz'; exact hf i _ u rfl hd hu n z hz'
      | _ => exact h n z hz
    | typeDef => cases t with
      | named i =>
        have hz' : zBody (zOf P n) P .typeDef (.named i) = some z := hz
        obtain ⟨d, hd, ⟨e, _⟩ | ⟨e, _⟩⟩ := zBody_some hz' <;> cases e
      | _ => cases hz
    | inline => cases t with
      | named i =>
        have hz' : zBody (zOf P n) P .inline (.named i) = some z := hz
        obtain ⟨d, hd, ⟨e, _⟩ | ⟨e, _⟩⟩ := zBody_some hz' <;> cases e
      | _ => cases hz

/-! ## Fields -/

theorem serFields_keys {P : Program} {odd : Bool} {fs : List Field} {kvs : List (Str × Json)}
    (h : SerFields P odd fs kvs) (hfl : ∀ f ∈ serFields fs, f.flatten = false) :
    ∀ k ∈ kvs.map (·.1), k ∈ (serFields fs).map (·.serName) := by
  have keep : ∀ (f : Field) (fs : List Field), f.skipSer = false → serFields (f :: fs) = f :: serFields fs := by
    intro f fs h; simp [serFields, h]
  have mono : ∀ (f : Field) (fs : List Field) k, k ∈ (serFields fs).map (·.serName) →
      k ∈ (serFields (f :: fs)).map (·.serName) := by
    intro f fs k hk
    cases hf : f.skipSer with
    | true => simpa [serFields, hf] using hk
    | false => rw [keep f fs hf]; exact List.mem_cons_of_mem _ hk
  generalize hfs : fs = fs' at h
  induction fs generalizing kvs fs' with
  | nil => subst hfs; cases h; simp
  | cons f fs ih =>
    subst hfs
    have hfl' : ∀ f ∈ serFields fs, f.flatten = false := fun g hg => hfl g (by
      cases hf : f.skipSer with
      | true => simpa [serFields, hf] using hg
      | false => rw [keep f fs hf]; exact List.mem_cons_of_mem _ hg)
    have hf0 : f.skipSer = false → f.flatten = false := fun h => hfl f (by rw [keep f fs h]; exact List.mem_cons_self)
    have ih := fun {kvs} => @ih kvs hfl'
    cases h with
    | flat _ _ _ _ h1 h2 => rw [hf0 h1] at h2; cases h2
    | flatNone _ _ _ _ h1 h2 => rw [hf0 h1] at h2; cases h2
    | skip _ _ _ _ h => exact fun k hk => mono f fs k (ih fs rfl h k hk)
    | absent _ _ _ _ _ _ _ h => exact fun k hk => mono f fs k (ih fs rfl h k hk)
    | omitted _ _ _ _ _ h => exact fun k hk => mono f fs k (ih fs rfl h k hk)
    | present _ _ _ _ _ h1 _ _ _ _ h =>
      intro k hk
      rcases List.mem_cons.1 hk with rfl | hk
      · rw [keep f fs h1]; exact List.mem_cons_self
      · exact mono f fs k (ih fs rfl h k hk)
    | field _ _ _ _ h1 _ _ _ h =>
      intro k hk
      rcases List.mem_cons.1 hk with rfl | hk
      · rw [keep f fs h1]; exact List.mem_cons_self
      · exact mono f fs k (ih fs rfl h k hk)

/-- The member for a field that is written. -/
theorem serFields_get {P : Program} {odd : Bool} {fs : List Field} {kvs : List (Str × Json)}
    (h : SerFields P odd fs kvs) (hn : ((serFields fs).map (·.serName)).Nodup)
    (hfl : ∀ f ∈ serFields fs, f.flatten = false) {f : Field} (hf : f ∈ fs) (hs : f.skipSer = false) :
    (f.skipIfNone = false ∧ ∃ j, jget kvs f.serName = some j ∧ Ser P odd f.ty j) ∨
    (f.skipIfNone = true ∧ ∃ t, f.ty = .option t ∧ (jget kvs f.serName = none ∨
      ∃ j, jget kvs f.serName = some j ∧ Ser P odd t j)) ∨
    (f.skipIf = true ∧ jget kvs f.serName = none) := by
  induction fs generalizing kvs with
  | nil => cases hf
  | cons g fs ih =>
    have hn' : ((serFields fs).map (·.serName)).Nodup := by
      cases hg : g.skipSer with
      | true => simpa [serFields, hg] using hn
      | false => simp only [serFields, List.filter_cons, hg] at hn; exact (List.nodup_cons.1 hn).2
    have hg : g.skipSer = false → g.serName ∉ (serFields fs).map (·.serName) := by
      intro hg
      simp only [serFields, List.filter_cons, hg] at hn
      exact (List.nodup_cons.1 hn).1
    have hne : f ∈ fs → g.skipSer = false → g.serName ≠ f.serName := by
      intro hm h e
      exact hg h (e ▸ List.mem_map.2 ⟨f, List.mem_filter.2 ⟨hm, by simp [hs]⟩, rfl⟩)
    have hfl' : ∀ f ∈ serFields fs, f.flatten = false := fun f hf => by
      refine hfl f (List.mem_filter.2 ⟨List.mem_cons_of_mem _ (List.mem_filter.1 hf).1, (List.mem_filter.1 hf).2⟩)
    have hf0 : g.skipSer = false → g.flatten = false := fun h =>
      hfl g (List.mem_filter.2 ⟨List.mem_cons_self, by simp [h]⟩)
    have ih := fun {kvs} h hn => @ih kvs h hn hfl'
    cases h with
    | flat _ _ _ _ h1 h2 => rw [hf0 h1] at h2; cases h2
    | flatNone _ _ _ _ h1 h2 => rw [hf0 h1] at h2; cases h2
    | skip _ _ _ h1 h =>
      rcases List.mem_cons.1 hf with rfl | hf
      · rw [hs] at h1; cases h1
      · exact ih h hn' hf
    | absent _ _ _ t h1 h2 h3 h =>
      rcases List.mem_cons.1 hf with rfl | hf
      · refine Or.inr (Or.inl ⟨h2, t, h3, Or.inl (jget_none fun hk => hg h1 (serFields_keys h hfl' _ hk))⟩)
      · exact ih h hn' hf
    | omitted _ _ _ h1 h2 h =>
      rcases List.mem_cons.1 hf with rfl | hf
      · exact Or.inr (Or.inr ⟨h2, jget_none fun hk => hg h1 (serFields_keys h hfl' _ hk)⟩)
      · exact ih h hn' hf
    | present _ _ kvs t j h1 h2 h3 h4 h5 h =>
      rw [jget_cons]
      rcases List.mem_cons.1 hf with rfl | hf
      · exact Or.inr (Or.inl ⟨h2, t, h3, Or.inr ⟨j, if_pos rfl, h5⟩⟩)
      · rw [if_neg (hne hf h1)]
        exact ih h hn' hf
    | field _ _ kvs j h1 h2 h3 h4 h =>
      rw [jget_cons]
      rcases List.mem_cons.1 hf with rfl | hf
      · exact Or.inl ⟨h2, j, if_pos rfl, h4⟩
      · rw [if_neg (hne hf h1)]
        exact ih h hn' hf

/-! ## Primitive types -/

theorem units_single {c : Char} (h : c.toNat < 65536) : units [c] = 1 := by
  simp [units]
  omega

set_option maxRecDepth 10000 in
theorem prim_complete {P : Program} {E : ZEnv} {p : Prim} (hcp : completePrim p = true) {z : ZSchema} (hz : primZ p = some z)
    {j : Json} (h : Ser P false (.prim p) j) : Accepts E z (fromJson j) := by
  have bnd : ∀ lo hi i : Int, lo ≤ i → i ≤ hi → roundInt lo ≤ roundInt i ∧ roundInt i ≤ roundInt hi :=
    fun lo hi i h1 h2 => ⟨roundInt_mono h1, roundInt_mono h2⟩
  cases h with
  | string s => injection hz with hz; subst hz; exact ⟨_, 1, rfl⟩
  | strRef s => injection hz with hz; subst hz; exact ⟨_, 1, rfl⟩
  | smolStr s => injection hz with hz; subst hz; exact ⟨_, 1, rfl⟩
  | char c hc =>
    injection hz with hz; subst hz
    have hc : c.toNat < 65536 := by rcases hc with hc | hc; cases hc; exact hc
    refine ⟨.str [c], 1, ?_⟩
    simp [parse, fromJson, StrCheck.ok, units_single hc]
  | bool b => cases hz
  | ipv4 _ a b c d h =>
    have h4 := (Rx.test_iff _ _).2 (dotted_lang a b c d)
    rcases h with rfl | rfl <;> injection hz with hz <;> subst hz <;>
      exact ⟨.str (dotted a b c d), 1, by simp [parse, fromJson, StrCheck.ok, h4]⟩
  | ipv6 _ old g h hg hs =>
    have hs := hs.resolve_left (by simp)
    have h6 := (Rx.test_iff _ _).2 ((showV6_accepted old g hg).2 hs)
    rcases h with rfl | rfl <;> injection hz with hz <;> subst hz <;>
      exact ⟨.str (showV6 old g), 1, by simp [parse, fromJson, StrCheck.ok, h6]⟩
  | unit => injection hz with hz; subst hz; exact ⟨_, 1, rfl⟩
  | float _ q hp =>
    have : z = .number [] := by
      rcases hp with rfl | rfl | rfl | rfl <;> (injection hz with hz; exact hz.symm)
    subst this
    exact accepts_number.2 ⟨.fin q, rfl, by simp, rfl⟩
  | nonFinite _ hp ho => cases ho
  | int _ lo hi i hr h1 h2 =>
    rcases hr with hr | hr
    · cases p <;> simp only [smallRange, Option.some.injEq, Prod.mk.injEq, reduceCtorEq] at hr <;>
        obtain ⟨rfl, rfl⟩ := hr <;> simp only [primZ, Option.some.injEq] at hz <;> subst hz
      · exact accepts_unsigned.2 ⟨roundInt i, bnd 0 _ i h1 h2, rfl⟩
      · exact accepts_unsigned.2 ⟨roundInt i, bnd 0 _ i h1 h2, rfl⟩
      · exact accepts_unsigned.2 ⟨roundInt i, bnd 0 _ i h1 h2, rfl⟩
      · exact accepts_signed.2 ⟨roundInt i, bnd _ _ i h1 h2, rfl⟩
      · exact accepts_signed.2 ⟨roundInt i, bnd _ _ i h1 h2, rfl⟩
      · exact accepts_signed.2 ⟨roundInt i, bnd _ _ i h1 h2, rfl⟩
    · cases p <;> simp only [wideRange, Option.some.injEq, Prod.mk.injEq, reduceCtorEq] at hr <;>
        obtain ⟨rfl, rfl⟩ := hr <;> simp only [primZ, Option.some.injEq] at hz <;> subst hz
      · exact accepts_unsigned.2 ⟨roundInt i, bnd 0 _ i h1 h2, rfl⟩
      · exact accepts_unsigned.2 ⟨roundInt i, bnd 0 _ i h1 h2, rfl⟩
      · exact accepts_natural.2 ⟨roundInt i, roundInt_nonneg h1, rfl⟩
      · exact accepts_signed.2 ⟨roundInt i, bnd _ _ i h1 h2, rfl⟩
      · exact accepts_signed.2 ⟨roundInt i, bnd _ _ i h1 h2, rfl⟩
      · exact accepts_integer.2 ⟨roundInt i, trivial, rfl⟩

/-! ## Bodies -/

theorem chosen_mem {fs gs : List Field} (h : Chosen fs gs) : ∀ f ∈ gs, f ∈ fs := by
  induction h with
  | nil => exact fun f hf => hf
  | keep f fs gs _ ih =>
    intro g hg
    rcases List.mem_cons.1 hg with rfl | hg
    · exact List.mem_cons_self
    · exact List.mem_cons_of_mem _ (ih g hg)
  | drop f fs gs _ _ ih => exact fun g hg => List.mem_cons_of_mem _ (ih g hg)

theorem chosen_all {fs gs : List Field} (h : Chosen fs gs) (hn : ∀ f ∈ fs, f.skipIf = false ∧ ∀ t, f.ty ≠ .option t) :
    gs = fs := by
  induction h with
  | nil => rfl
  | keep f fs gs _ ih => rw [ih fun f hf => hn f (List.mem_cons_of_mem _ hf)]
  | drop f fs gs h _ _ =>
    obtain ⟨h1, h2⟩ := hn f List.mem_cons_self
    rcases h with h | ⟨_, t, ht⟩
    · rw [h1] at h; cases h
    · exact absurd ht (h2 t)

/-- The environment has a schema for every declaration. -/
def EnvTotal (P : Program) (E : ZEnv) : Prop := ∀ (i : Nat) (d : Decl), P[i]? = some d → ∃ z, E.const d.ns d.name = some z

section
variable {P : Program} {E : ZEnv} {n : Nat}

/-- Everything written for a part of the document is accepted. -/
def CompleteBelow (P : Program) (E : ZEnv) (size : Nat) : Prop :=
  ∀ (j : Json) (t : Ty) (n : Nat) (m : Method) (z : ZSchema), sizeOf j < size → Complete t → Ser P false t j →
    zOf P n m t = some z → Accepts E z (fromJson j)

/-- One named field. -/
theorem field_complete {fs : List Field} {kvs : List (Str × Json)} (h : SerFields P false fs kvs)
    (hn : ((serFields fs).map (·.serName)).Nodup ∧ ∀ f ∈ serFields fs, f.flatten = false) {f : Field}
    (hf : f ∈ keptFields fs) (hc : CompleteField fs f)
    (hb : CompleteBelow P E (sizeOf (Json.obj kvs))) {z : ZSchema}
    (hz : vfieldZ (zOf P n) f = some z) : Accepts E z (jsOf (jget kvs f.name)) := by
  obtain ⟨_, hname, hskip, hty⟩ := hc
  have undef : f.dflt = true → Accepts E z .undefined := by
    intro hd
    simp only [vfieldZ, optZ, hd] at hz
    cases hu : zOf P n .inlineSchema f.ty with
    | none => rw [hu] at hz; cases hz
    | some a =>
      rw [hu] at hz; injection hz with hz; subst hz
      exact accepts_optional (Or.inl rfl)
  cases hs : f.skipSer with
  | true =>
    obtain ⟨hd, hk⟩ := hskip hs
    rw [jget_none fun h' => hk (serFields_keys h hn.2 _ h')]
    exact undef hd
  | false =>
    rw [← hname hs]
    rcases serFields_get h hn.1 hn.2 (List.mem_filter.1 hf).1 hs with ⟨h1, j, hj, hser⟩ | ⟨h1, t, ht, hj⟩ | ⟨h1, hj⟩
    · rw [hj]
      rcases hty with ⟨hc, _⟩ | ⟨_, _, _, h2⟩
      · exact accepts_opt hz fun z hz => hb j f.ty n _ z (jget_lt hj) hc hser hz
      · rw [h1] at h2; cases h2.1
    · rcases hty with ⟨_, h2, _⟩ | ⟨t', ht', hc, _⟩
      · rw [h1] at h2; cases h2
      · rw [ht] at ht'
        injection ht' with ht'
        subst ht'
        refine accepts_opt hz fun z hz => ?_
        rw [ht] at hz
        -- the schema of an option
        obtain ⟨a, n', rfl, ha⟩ : ∃ a n', z = .optional a ∧ zOf P n' .inlineSchema t = some a := by
          cases n with
          | zero => cases hz
          | succ n =>
            have hz : zOf P n .schema (.option t) = some z := hz
            cases n with
            | zero => cases hz
            | succ n =>
              have hz : (zOf P n .inlineSchema t).map ZSchema.optional = some z := hz
              cases hu : zOf P n .inlineSchema t with
              | none => rw [hu] at hz; cases hz
              | some a => rw [hu] at hz; injection hz with hz; exact ⟨a, n, hz.symm, hu⟩
        rcases hj with hj | ⟨j, hj, hser⟩
        · rw [hj]; exact accepts_optional (Or.inl rfl)
        · rw [hj]; exact accepts_optional (Or.inr (hb j t n' _ a (jget_lt hj) hc hser ha))
    · rw [hj]
      rcases hty with ⟨_, _, h2⟩ | ⟨_, _, _, _, h2⟩
      · exact undef (h2 h1)
      · rw [h1] at h2; cases h2

/-- The fields of a struct or variant, unless there is just one unnamed one. -/
theorem body_complete {style : Style} {fs : List Field} {j : Json} (h : SerBody P false style fs j)
    (hc : CompleteFields style fs) (hb : CompleteBelow P E (sizeOf j)) {z : ZSchema}
    (hz : bodyZ (zOf P n) style (keptFields fs) = some z)
    (h1 : ∀ f, style = .tuple → fs = [f] → keptFields fs = [f] → Ser P false f.ty j → Complete f.ty →
      ∀ z, vfieldZ (zOf P n) f = some z → Accepts E z (fromJson j)) : Accepts E z (fromJson j) := by
  cases h with
  | newtype f _ hser =>
    obtain ⟨hl, _, hcs⟩ := hc
    have hk : keptFields [f] = [f] := by
      cases hk : f.skipDe with
      | false => simp [keptFields, hk]
      | true => simp [keptFields, hk] at hl
    rw [hk] at hz hcs
    exact h1 f rfl rfl hk hser (hcs f List.mem_cons_self).1 z hz
  | tuple _ gs js hl hch hser =>
    obtain ⟨hlen0, hsk, hcs⟩ := hc
    have hlen : 2 ≤ (keptFields fs).length := by
      rcases hlen0 with ⟨h, _⟩ | ⟨_, h⟩
      · exact absurd h hl
      · exact h
    have he : serFields fs = keptFields fs := by
      unfold serFields keptFields
      apply List.filter_congr
      intro f hf
      rw [hsk f hf]
    rw [he] at hch
    have hgs := chosen_all hch fun f hf => ⟨(hcs f hf).2 hl, fun t ht => by have := (hcs f hf).1; rw [ht] at this; cases this⟩
    subst hgs
    replace hcs := fun f hf => (hcs f hf).1
    have hz' : ∃ zs, allSome ((keptFields fs).map (vfieldZ (zOf P n))) = some zs ∧ z = .tuple zs := by
      simp only [bodyZ] at hz
      clear he hser hcs hb h1 hlen0
      generalize keptFields fs = l at *
      rcases l with _ | ⟨a, _ | ⟨b, r⟩⟩
      · simp at hlen
      · simp at hlen
      · simp only [tupleFieldsZ] at hz
        cases ha : allSome (List.map (vfieldZ (zOf P n)) (a :: b :: r)) with
        | none => rw [ha] at hz; cases hz
        | some zs => rw [ha] at hz; injection hz with hz; exact ⟨zs, rfl, hz.symm⟩
    obtain ⟨zs, ha, rfl⟩ := hz'
    rw [fromJson_arr]
    apply accepts_tuple
    have hser2 := All2.of_map_left hser
    clear hser
    have ha2 := allSome_all2 ha
    clear ha
    have hb2 : ∀ j ∈ js, ∀ (t : Ty) (n : Nat) (m : Method) (z : ZSchema), Complete t → Ser P false t j →
      zOf P n m t = some z → Accepts E z (fromJson j) := fun j hj t n m z => hb j t n m z (jarr_lt hj)
    clear hb hz h1 hlen hlen0 he hch
    generalize keptFields fs = l at *
    induction ha2 generalizing js with
    | nil => cases hser2; exact .nil
    | cons h1 _ ih =>
      cases hser2 with
      | cons h2 h3 =>
        refine .cons (accepts_opt h1 fun z hz => hb2 _ List.mem_cons_self _ n _ z (hcs _ List.mem_cons_self) h2 hz) ?_
        exact ih _ (fun j hj => hb2 j (List.mem_cons_of_mem _ hj)) (fun f hf => hcs f (List.mem_cons_of_mem _ hf)) h3
  | named _ kvs hser =>
    rw [fromJson_obj]
    refine accepts_objZ hz fun p hp z hz => ?_
    obtain ⟨f, hf, rfl⟩ := List.mem_map.1 hp
    rw [objGet_json]
    exact field_complete hser hc.2 hf (hc.1 f hf) hb hz

end

theorem types_complete {P : Program} {E : ZEnv} {n : Nat} {ts : List Ty} {zs : List ZSchema} {js : List Json}
    (h1 : All2 (fun t z => zOf P n .schema t = some z) ts zs) (h2 : All2 (Ser P false) ts js)
    (hc : ∀ t ∈ ts, Complete t) (hb : ∀ j ∈ js, ∀ (t : Ty) (n : Nat) (m : Method) (z : ZSchema), Complete t →
      Ser P false t j → zOf P n m t = some z → Accepts E z (fromJson j)) :
    All2 (Accepts E) zs (js.map fromJson) := by
  induction h1 generalizing js with
  | nil => cases h2; exact .nil
  | cons h1 _ ih =>
    cases h2 with
    | cons h2 h3 =>
      exact .cons (hb _ List.mem_cons_self _ n _ _ (hc _ List.mem_cons_self) h2 h1)
        (ih h3 (fun t ht => hc t (List.mem_cons_of_mem _ ht)) (fun j hj => hb j (List.mem_cons_of_mem _ hj)))

theorem sizeOf_member {k : Str} {j : Json} {kvs : List (Str × Json)} (h : (k, j) ∈ kvs) :
    sizeOf j < sizeOf (Json.obj kvs) := by
  have := List.sizeOf_lt_of_mem h
  simp only [Prod.mk.sizeOf_spec, Json.obj.sizeOf_spec] at this ⊢
  omega

/-- What is written inside of an object or array is accepted. -/
theorem CompleteBelow.mono {P : Program} {E : ZEnv} {a b : Nat} (h : CompleteBelow P E b) (hab : a ≤ b) :
    CompleteBelow P E a := fun j t n m z hj => h j t n m z (by omega)

/-- A body inside of an object. -/
theorem inner_complete {P : Program} {E : ZEnv} {n : Nat} {style : Style} {fs : List Field} {j : Json}
    {size : Nat} (hj : sizeOf j < size) (h : SerBody P false style fs j) (hc : CompleteFields style fs)
    (hb : CompleteBelow P E size) {z : ZSchema} (hz : bodyZ (zOf P n) style (keptFields fs) = some z) :
    Accepts E z (fromJson j) := by
  refine body_complete h hc (hb.mono (by omega)) hz fun f _ _ _ hser hcf z hz => ?_
  exact accepts_opt hz fun z hz => hb j f.ty n _ z hj hcf hser hz

/-- The schema of a variant that has a body. -/
theorem variant_body {rec : Method → Ty → Option ZSchema} {v : Variant} (hu : v.style ≠ .unit)
    (hk : v.style = .tuple → keptFields v.fields ≠ []) (tag : Tag) :
    (tag = .external → variantZ rec tag v = objZ [(v.name, bodyZ rec v.style (keptFields v.fields))]) ∧
    (∀ t c, tag = .adjacent t c → variantZ rec tag v =
      objZ [(t, some (.literal v.name)), (c, bodyZ rec v.style (keptFields v.fields))]) ∧
    (tag = .untagged → variantZ rec tag v = bodyZ rec v.style (keptFields v.fields)) := by
  have hkk : v.kept = keptFields v.fields := rfl
  unfold variantZ
  cases hs : v.style with
  | unit => exact absurd hs hu
  | named =>
    refine ⟨?_, ?_, ?_⟩
    · rintro rfl; simp only [structVariantZ, hkk, bodyZ]
    · rintro t c rfl; simp only [structVariantZ, hkk, bodyZ]
    · rintro rfl; simp only [structVariantZ, hkk, bodyZ]
  | tuple =>
    have := hk hs
    cases hf : keptFields v.fields with
    | nil => exact absurd hf this
    | cons f fs =>
      refine ⟨?_, ?_, ?_⟩
      · rintro rfl; simp only [tupleVariantZ, hkk, hf, bodyZ]
      · rintro t c rfl; simp only [tupleVariantZ, hkk, hf, bodyZ]
      · rintro rfl; simp only [tupleVariantZ, hkk, hf, bodyZ]

theorem completeFields_ne {style : Style} {fs : List Field} (hc : CompleteFields style fs) (hs : style = .tuple) :
    keptFields fs ≠ [] := by
  subst hs
  obtain ⟨hl, _⟩ := hc
  intro h
  rw [h] at hl
  simp at hl

theorem serBody_not_unit {P : Program} {odd : Bool} {style : Style} {fs : List Field} {j : Json}
    (h : SerBody P odd style fs j) : style ≠ .unit := by
  cases h <;> simp

theorem serStyle_eq {v : Variant} (h : serStyle v ≠ .unit) : serStyle v = v.style := by
  unfold serStyle at h ⊢
  split
  · rename_i f hs hf
    rw [hs, hf] at h
    simp only at h
    split at h
    · exact absurd rfl h
    · rename_i hk; rw [if_neg hk, hs]
  · rfl

/-- A variant that is written like a unit variant has the schema of one. -/
theorem variantZ_unit {rec : Method → Ty → Option ZSchema} {tag : Tag} {v : Variant} (hs : serStyle v = .unit)
    (hk : keptFields v.fields = []) : variantZ rec tag v = unitZ tag v.name := by
  unfold variantZ
  cases h : v.style with
  | unit => rfl
  | named => rw [serStyle, h] at hs; cases hs
  | tuple => simp only [tupleVariantZ, show v.kept = [] from hk]

theorem complete {P : Program} {E : ZEnv} (hE : EnvOk P E) (hT : EnvTotal P E) (hw : WellStyled P)
    (hpl : ∀ d ∈ P, Plain d) (hnt : ∀ d ∈ P, NoThrow d) (hg : Guarded P) (hc : ∀ d ∈ P, CompleteDecl d) :
    ∀ (j : Json) (t : Ty) (n : Nat) (m : Method) (z : ZSchema), Complete t → Ser P false t j →
      zOf P n m t = some z → Accepts E z (fromJson j) := by
  have main : ∀ (k : Nat) (j : Json), sizeOf j < k → ∀ (t : Ty) (n : Nat) (m : Method) (z : ZSchema), Complete t →
      Ser P false t j → zOf P n m t = some z → Accepts E z (fromJson j) := by
    intro k
    induction k with
    | zero => intro j hj; omega
    | succ k ihk =>
    intro j hj t
    have below : CompleteBelow P E (sizeOf j) := fun j' t n m z hlt h1 h2 h3 => ihk j' (by omega) t n m z h1 h2 h3
    induction guarded_acc hg t with
    | intro t _ ih =>
    have ih : ∀ u, SameValue P t u → ∀ (n : Nat) (m : Method) (z : ZSchema), Complete u → Ser P false u j →
        zOf P n m u = some z → Accepts E z (fromJson j) := ih
    intro n m z hct hser
    -- `from` and `into`
    have conv : ∀ i d u, t = .named i → P[i]? = some d → Decl.into d = some u → Ser P false u j →
        (Decl.from_ d).ty? = some u ∧ Complete u := by
      intro i d u _ hd hu _
      have hcd := hc d (List.mem_of_getElem? hd)
      cases d with
      | struct s => simp only [CompleteDecl, show s.into = some u from hu] at hcd; exact hcd
      | enum e => simp only [CompleteDecl, show e.into = some u from hu] at hcd; exact hcd
    have hfrom : ∀ i d u, t = .named i → P[i]? = some d → (Decl.from_ d).ty? = some u →
        Complete u ∧ Ser P false u j := by
      rintro i d u rfl hd hu
      have hcd := hc d (List.mem_of_getElem? hd)
      have hinto : Decl.into d = some u ∧ Complete u := by
        cases d with
        | struct s =>
          simp only [CompleteDecl] at hcd
          cases hi : s.into with
          | some u' =>
            rw [hi] at hcd
            have e := hcd.1.symm.trans hu
            injection e with e
            subst e
            exact ⟨hi, hcd.2⟩
          | none =>
            rw [hi] at hcd
            have e := hcd.1.symm.trans hu
            cases e
        | enum s =>
          simp only [CompleteDecl] at hcd
          cases hi : s.into with
          | some u' =>
            rw [hi] at hcd
            have e := hcd.1.symm.trans hu
            injection e with e
            subst e
            exact ⟨hi, hcd.2⟩
          | none =>
            rw [hi] at hcd
            have e := hcd.1.symm.trans hu
            cases e
      refine ⟨hinto.2, ?_⟩
      have no : ∀ d', P[i]? = some d' → Decl.into d' = none → Ser P false u j := by
        intro d' hd' hn
        rw [hd] at hd'; injection hd' with hd'; subst hd'
        rw [hinto.1] at hn; cases hn
      cases hser with
      | into _ d' u' _ hd' hu' h =>
        rw [hd] at hd'; injection hd' with hd'; subst hd'
        rw [hinto.1] at hu'; injection hu' with hu'; subst hu'
        exact h
      | transparent _ _ _ _ h1 h2 => exact no _ h1 h2
      | struct _ _ _ h1 h2 => exact no _ h1 h2
      | externalUnit _ _ _ h1 h2 => exact no _ h1 h2
      | external _ _ _ _ h1 h2 => exact no _ h1 h2
      | internalUnit _ _ _ _ h1 h2 => exact no _ h1 h2
      | internal _ _ _ _ _ h1 h2 => exact no _ h1 h2
      | internalNewtype _ _ _ _ _ _ h1 h2 => exact no _ h1 h2
      | adjacentUnit _ _ _ _ _ h1 h2 => exact no _ h1 h2
      | adjacent _ _ _ _ _ _ h1 h2 => exact no _ h1 h2
      | untaggedUnit _ _ _ h1 h2 => exact no _ h1 h2
      | untagged _ _ _ _ h1 h2 => exact no _ h1 h2
    refine inline_reduceT hE hT (Q := fun z => Accepts E z (fromJson j)) (fun ns name z h1 h2 => accepts_lazy h1 h2)
      ?_ (by
        intro i d u e hd hu n z hz
        subst e
        obtain ⟨h1, h2⟩ := hfrom i d u rfl hd hu
        exact ih u (.from_ i d u hd hu) n _ z h1 h2 hz) n m z
    clear n m z
    intro n z hz
    cases n with
    | zero => cases hz
    | succ n =>
    have arr : ∀ n u js z, j = .arr js → Complete u → (∀ j ∈ js, Ser P false u j) →
        zOf P n .schema (.vec u) = some z → Accepts E z (fromJson j) := by
      rintro n u js z rfl hcu hs hz
      cases n with
      | zero => cases hz
      | succ n =>
        have hz : (zOf P n .inlineSchema u).map ZSchema.array = some z := hz
        cases hu : zOf P n .inlineSchema u with
        | none => rw [hu] at hz; cases hz
        | some a =>
          rw [hu] at hz; injection hz with hz; subst hz
          rw [fromJson_arr]
          refine accepts_array fun v hv => ?_
          obtain ⟨j', hj', rfl⟩ := List.mem_map.1 hv
          exact below j' u n _ a (jarr_lt hj') hcu (hs j' hj') hu
    cases hct with
    | prim p hc => exact prim_complete hc hz hser
    | wrap w u h1 h2 hcu =>
      cases hser with
      | wrap _ _ _ _ hs => exact ih u (.wrap w u) n .schema z hcu hs hz
      | phantom => exact absurd rfl h1
      | weak => exact absurd rfl h2
    | vec u hcu =>
      cases hser with
      | vec _ js hs => exact arr (n + 1) u js z rfl hcu hs hz
    | array l u hcu =>
      cases hser with
      | array _ _ js _ hs => exact arr n u js z rfl hcu hs hz
    | tuple ts hcs =>
      cases hser with
      | tuple _ js hs =>
        have hz : (allSome (ts.map (zOf P n .schema))).map ZSchema.tuple = some z := hz
        cases ha : allSome (ts.map (zOf P n .schema)) with
        | none => rw [ha] at hz; cases hz
        | some zs =>
          rw [ha] at hz; injection hz with hz; subst hz
          rw [fromJson_arr]
          apply accepts_tuple
          exact types_complete (allSome_all2 ha) hs hcs fun j hj t n m z => below j t n m z (jarr_lt hj)
    | result t e hct hce =>
      have hz : (match objZ [(lit "Ok", zOf P n .inlineSchema t)], objZ [(lit "Err", zOf P n .inlineSchema e)] with
        | some a, some b => some (ZSchema.union [a, b])
        | _, _ => none) = some z := hz
      split at hz
      · rename_i a b ha hb
        injection hz with hz; subst hz
        have ob : ∀ (k : Str) (u : Ty) (z : ZSchema), objZ [(k, zOf P n .inlineSchema u)] = some z → Ends E z (fromJson j) := by
          intro k u z hz
          refine ends_objZ hz fun kvs hv p hp z hz => ?_
          rw [List.mem_singleton] at hp; subst hp
          exact ends hE hw hpl hg _ u n _ z hz
        have hends : ∀ z ∈ [a, b], Ends E z (fromJson j) := by
          intro z hz
          rcases List.mem_cons.1 hz with rfl | hz
          · exact ob _ _ _ ha
          · rw [List.mem_singleton] at hz; subst hz; exact ob _ _ _ hb
        have acc : ∀ (k : Str) (u : Ty) (z : ZSchema) (j' : Json), j = .obj [(k, j')] → Complete u →
            Ser P false u j' → objZ [(k, zOf P n .inlineSchema u)] = some z → Accepts E z (fromJson j) := by
          rintro k u z j' rfl hcu hs hz
          rw [fromJson_obj]
          refine accepts_objZ hz fun p hp z hz => ?_
          rw [List.mem_singleton] at hp; subst hp
          rw [objGet_json, jget_cons, if_pos rfl]
          exact below j' u n _ z (sizeOf_member List.mem_cons_self) hcu hs hz
        cases hser with
        | ok _ _ j' hs => exact accepts_union hends List.mem_cons_self (acc _ t a j' rfl hct hs ha)
        | err _ _ j' hs => exact accepts_union hends (List.mem_cons_of_mem _ List.mem_cons_self) (acc _ e b j' rfl hce hs hb)
      · cases hz
    | named i =>
      have hz : zBody (zOf P n) P .schema (.named i) = some z := hz
      obtain ⟨d, hd, hz⟩ : ∃ d, P[i]? = some d ∧ declZ (zOf P n) d = some z := by
        obtain ⟨d, hd, ⟨_, hz⟩ | ⟨e, _⟩⟩ := zBody_some hz
        · exact ⟨d, hd, hz⟩
        · cases e
      have hmem := List.mem_of_getElem? hd
      cases hfr : (Decl.from_ d).ty? with
      | some u =>
        obtain ⟨h1, h2⟩ := hfrom i d u rfl hd hfr
        cases d with
        | struct s =>
          simp only [declZ, show s.from_.ty? = some u from hfr] at hz
          exact ih u (.from_ i _ u hd hfr) n _ z h1 h2 hz
        | enum e =>
          simp only [declZ, show e.from_.ty? = some u from hfr] at hz
          exact ih u (.from_ i _ u hd hfr) n _ z h1 h2 hz
      | none =>
      have hcd := hc d hmem
      have hp := hpl d hmem
      have hws := hw d hmem
      have hnd := hnt d hmem
      cases d with
      | struct s =>
        have hf : s.from_.ty? = none := hfr
        have hinto : s.into = none := by
          cases hi : s.into with
          | none => rfl
          | some u => simp only [CompleteDecl, hi] at hcd; rw [hf] at hcd; cases hcd.1
        simp only [CompleteDecl, hinto] at hcd
        simp only [declZ, hf] at hz
        have hcd := hcd.2
        have eqd : ∀ s', P[i]? = some (.struct s') → s' = s := by
          intro s' h; rw [hd] at h; injection h with h; injection h with h; exact h.symm
        have noenum : ∀ e, P[i]? = some (.enum e) → False := by
          intro e h; rw [hd] at h; cases h
        have tr : ∀ f, s.transparent = true → innerSer s.fields = [f] → Ser P false f.ty j →
            Accepts E z (fromJson j) := by
          intro f ht hsf hs
          rw [if_pos ht] at hcd
          obtain ⟨f', hk, hsf', hfl, hcf⟩ := hcd
          cases innerSer_only hsf' hsf
          rw [structZ_transparent hk hfl ht] at hz
          exact accepts_opt hz fun z hz => ih f.ty (.struct i s f hd hf (Or.inl ht) hk) n _ z hcf hs hz
        have st : s.transparent = false → SerBody P false s.style s.fields j → Accepts E z (fromJson j) := by
          intro ht hs
          rw [if_neg (by simp [ht])] at hcd
          obtain ⟨_, hcf, hfl⟩ := hcd
          rw [structZ_body hws hfl ht (completeFields_ne hcf)] at hz
          refine body_complete hs hcf below hz fun f hst hfs hk hs hcf z hz => ?_
          exact accepts_opt hz fun z hz => ih f.ty (.struct i s f hd hf (Or.inr hst) hk) n _ z hcf hs hz
        cases hser with
        | into _ d' u' _ hd' hu' h =>
          rw [hd] at hd'; injection hd' with hd'; subst hd'
          rw [show Decl.into (Decl.struct s) = s.into from rfl, hinto] at hu'; cases hu'
        | transparent _ _ f _ h1 h2 h3 h4 h5 => cases eqd _ h1; exact tr f h3 h4 h5
        | struct _ _ _ h1 h2 h3 h4 => cases eqd _ h1; exact st h3 h4
        | externalUnit _ _ _ h1 => exact (noenum _ h1).elim
        | external _ _ _ _ h1 => exact (noenum _ h1).elim
        | internalUnit _ _ _ _ h1 => exact (noenum _ h1).elim
        | internal _ _ _ _ _ h1 => exact (noenum _ h1).elim
        | internalNewtype _ _ _ _ _ _ h1 => exact (noenum _ h1).elim
        | adjacentUnit _ _ _ _ _ h1 => exact (noenum _ h1).elim
        | adjacent _ _ _ _ _ _ h1 => exact (noenum _ h1).elim
        | untaggedUnit _ _ _ h1 => exact (noenum _ h1).elim
        | untagged _ _ _ _ h1 => exact (noenum _ h1).elim
      | enum e =>
        have hf : e.from_.ty? = none := hfr
        have hinto : e.into = none := by
          cases hi : e.into with
          | none => rfl
          | some u => simp only [CompleteDecl, hi] at hcd; rw [hf] at hcd; cases hcd.1
        simp only [CompleteDecl, hinto] at hcd
        simp only [declZ, hf] at hz
        have hcd := hcd.2
        have eqd : ∀ e', P[i]? = some (.enum e') → e' = e := by
          intro s' h; rw [hd] at h; injection h with h; injection h with h; exact h.symm
        have nostruct : ∀ e, P[i]? = some (.struct e) → False := by
          intro e h; rw [hd] at h; cases h
        have hends : ∀ w ∈ e.kept, ∀ z, variantZ (zOf P n) e.tag w = some z → Ends E z (fromJson j) := by
          intro w _ z hz
          refine ends_variant hz (fun _ _ f _ z hz => ?_) (fun f z a hz _ => ?_)
          · exact ends_opt hz fun z hz => ends hE hw hpl hg _ f.ty n _ z hz
          · exact ends_opt hz fun z hz => ends hE hw hpl hg _ f.ty n _ z hz
        have hkept : ∀ v ∈ e.variants, v.skipSer = false → v ∈ e.kept := fun v hv hs =>
          List.mem_filter.2 ⟨hv, by simp [(hcd v hv hs).1]⟩
        have untag : e.tag = .external ∨ e.tag = .untagged → ∀ v : Variant, ∀ t, (e.tag = .internal t ∨ ∃ c, e.tag = .adjacent t c) →
            ∃ kvs, fromJson j = .obj kvs ∧ objGet kvs t = .str v.name := by
          rintro (h | h) v t (h' | ⟨c, h'⟩) <;> rw [h] at h' <;> cases h'
        have tagd : ∀ (v : Variant) (tag : Str) (kvs : List (Str × Json)), j = .obj kvs → jget kvs tag = some (.str v.name) →
            (∀ t, (e.tag = .internal t ∨ ∃ c, e.tag = .adjacent t c) → t = tag) → ∀ t, (e.tag = .internal t ∨ ∃ c, e.tag = .adjacent t c) →
            ∃ kvs, fromJson j = .obj kvs ∧ objGet kvs t = .str v.name := by
          rintro v tag kvs rfl hk ht t h
          rw [ht t h, fromJson_obj]
          exact ⟨_, rfl, by rw [objGet_json, hk]; rfl⟩
        cases hser with
        | into _ d' u' _ hd' hu' h =>
          rw [hd] at hd'; injection hd' with hd'; subst hd'
          rw [show Decl.into (Decl.enum e) = e.into from rfl, hinto] at hu'; cases hu'
        | transparent _ _ _ _ h1 => exact (nostruct _ h1).elim
        | struct _ _ _ h1 => exact (nostruct _ h1).elim
        | externalUnit _ _ v h1 _ htag hv hsk hst =>
          cases eqd _ h1
          obtain ⟨_, hname, hcf, _⟩ := hcd v hv hsk
          rw [hst] at hcf
          refine accepts_enum hz hnd hends (hkept v hv hsk) (fun z hz => ?_) (untag (Or.inl htag) v)
          rw [variantZ_unit hst hcf, htag] at hz
          simp only [unitZ] at hz
          injection hz with hz; subst hz
          rw [hname]
          exact accepts_literal
        | external _ _ v j' h1 _ htag hv hsk hs =>
          cases eqd _ h1
          obtain ⟨_, hname, hcf, _⟩ := hcd v hv hsk
          have hss := serStyle_eq (serBody_not_unit hs)
          rw [hss] at hs hcf
          refine accepts_enum hz hnd hends (hkept v hv hsk) (fun z hz => ?_) (untag (Or.inl htag) v)
          rw [(variant_body (serBody_not_unit hs) (completeFields_ne hcf) e.tag).1 htag] at hz
          rw [fromJson_obj, hname]
          refine accepts_objZ hz fun p hp z hz => ?_
          rw [List.mem_singleton] at hp; subst hp
          rw [objGet_json, jget_cons, if_pos rfl]
          exact inner_complete (sizeOf_member List.mem_cons_self) hs hcf below hz
        | internalUnit _ _ v tag h1 _ htag hv hsk hst =>
          cases eqd _ h1
          obtain ⟨_, hname, hcf, _⟩ := hcd v hv hsk
          rw [hst] at hcf
          have hget : jget [(tag, Json.str v.serName)] tag = some (.str v.name) := by
            rw [jget_cons, if_pos rfl, hname]
          refine accepts_enum hz hnd hends (hkept v hv hsk) (fun z hz => ?_)
            (tagd v tag _ rfl hget (by rintro t (h | ⟨c, h⟩) <;> rw [htag] at h <;> cases h; rfl))
          rw [variantZ_unit hst hcf, htag] at hz
          simp only [unitZ] at hz
          rw [fromJson_obj]
          refine accepts_objZ hz fun p hp z hz => ?_
          rw [List.mem_singleton] at hp; subst hp
          injection hz with hz; subst hz
          rw [objGet_json, hget]
          exact accepts_literal
        | internal _ _ v tag kvs h1 _ htag hv hsk hst hs =>
          cases eqd _ h1
          obtain ⟨_, hname, hcf, hct⟩ := hcd v hv hsk
          rw [htag] at hct
          obtain ⟨_, hct⟩ := hct
          have hst' : v.style = .named := by rw [← serStyle_eq (by rw [hst]; intro h; cases h)]; exact hst
          have hget : jget ((tag, Json.str v.serName) :: kvs) tag = some (.str v.name) := by
            rw [jget_cons, if_pos rfl, hname]
          refine accepts_enum hz hnd hends (hkept v hv hsk) (fun z hz => ?_)
            (tagd v tag _ rfl hget (by rintro t (h | ⟨c, h⟩) <;> rw [htag] at h <;> cases h; rfl))
          simp only [variantZ, hst', htag, structVariantZ] at hz
          rw [fromJson_obj]
          obtain ⟨_, _, hdist, _⟩ := objZ_some hz
          refine accepts_objZ hz fun p hp z hz => ?_
          rw [objGet_json]
          rcases List.mem_cons.1 hp with rfl | hp
          · injection hz with hz; subst hz
            rw [hget]
            exact accepts_literal
          · obtain ⟨f, hfk, rfl⟩ := List.mem_map.1 hp
            have hne : tag ≠ f.name := by
              rintro rfl
              rw [List.map_cons, List.nodup_cons] at hdist
              exact hdist.1 (List.mem_map.2 ⟨_, List.mem_map.2 ⟨f, hfk, rfl⟩, rfl⟩)
            rw [jget_cons, if_neg hne]
            rw [hst] at hcf
            refine field_complete hs hcf.2 hfk (hcf.1 f hfk) (below.mono ?_) hz
            simp only [Json.obj.sizeOf_spec, List.cons.sizeOf_spec]
            omega
        | internalNewtype _ _ v tag f kvs h1 _ htag hv hsk hst =>
          cases eqd _ h1
          have := (hcd v hv hsk).2.2.2
          rw [htag] at this
          exact absurd hst this.1
        | adjacentUnit _ _ v tag content h1 _ htag hv hsk hst =>
          cases eqd _ h1
          obtain ⟨_, hname, hcf, _⟩ := hcd v hv hsk
          rw [hst] at hcf
          have hget : jget [(tag, Json.str v.serName)] tag = some (.str v.name) := by
            rw [jget_cons, if_pos rfl, hname]
          refine accepts_enum hz hnd hends (hkept v hv hsk) (fun z hz => ?_)
            (tagd v tag _ rfl hget (by rintro t (h | ⟨c, h⟩) <;> rw [htag] at h <;> cases h; rfl))
          rw [variantZ_unit hst hcf, htag] at hz
          simp only [unitZ] at hz
          rw [fromJson_obj]
          refine accepts_objZ hz fun p hp z hz => ?_
          rw [List.mem_singleton] at hp; subst hp
          injection hz with hz; subst hz
          rw [objGet_json, hget]
          exact accepts_literal
        | adjacent _ _ v tag content j' h1 _ htag hv hsk hs =>
          cases eqd _ h1
          obtain ⟨_, hname, hcf, hct⟩ := hcd v hv hsk
          have hss := serStyle_eq (serBody_not_unit hs)
          rw [hss] at hs hcf
          rw [htag] at hct
          have hct : tag ≠ content := hct
          have hget : jget [(tag, Json.str v.serName), (content, j')] tag = some (.str v.name) := by
            rw [jget_cons, if_pos rfl, hname]
          refine accepts_enum hz hnd hends (hkept v hv hsk) (fun z hz => ?_)
            (tagd v tag _ rfl hget (by rintro t (h | ⟨c, h⟩) <;> rw [htag] at h <;> cases h; rfl))
          rw [(variant_body (serBody_not_unit hs) (completeFields_ne hcf) e.tag).2.1 tag content htag] at hz
          rw [fromJson_obj]
          refine accepts_objZ hz fun p hp z hz => ?_
          rw [objGet_json]
          simp only [List.mem_cons, List.not_mem_nil, or_false] at hp
          rcases hp with rfl | rfl
          · injection hz with hz; subst hz
            rw [hget]
            exact accepts_literal
          · rw [jget_cons, if_neg hct, jget_cons, if_pos rfl]
            exact inner_complete (sizeOf_member (List.mem_cons_of_mem _ List.mem_cons_self)) hs hcf below hz
        | untaggedUnit _ _ v h1 _ htag hv hsk hst =>
          cases eqd _ h1
          obtain ⟨_, _, hcf, _⟩ := hcd v hv hsk
          rw [hst] at hcf
          refine accepts_enum hz hnd hends (hkept v hv hsk) (fun z hz => ?_) (untag (Or.inr htag) v)
          rw [variantZ_unit hst hcf, htag] at hz
          simp only [unitZ] at hz
          injection hz with hz; subst hz
          exact ⟨.null, 1, rfl⟩
        | untagged _ _ v _ h1 _ htag hv hsk hs =>
          cases eqd _ h1
          obtain ⟨hsd, hname, hcf, _⟩ := hcd v hv hsk
          have hss := serStyle_eq (serBody_not_unit hs)
          rw [hss] at hs hcf
          refine accepts_enum hz hnd hends (hkept v hv hsk) (fun z hz => ?_) (untag (Or.inr htag) v)
          rw [(variant_body (serBody_not_unit hs) (completeFields_ne hcf) e.tag).2.2 htag] at hz
          refine body_complete hs hcf below hz fun f hst hfs hk hs hcf z hz => ?_
          exact accepts_opt hz fun z hz => ih f.ty (.untagged i e v f hd hf htag hv hsd hst hk) n _ z hcf hs hz
  exact fun j => main _ j (Nat.lt_succ_self _)

end Verif.Zod
