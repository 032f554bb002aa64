import Verif.Rpc.WireLemmas
import Verif.Zod.Sound

/-!
# serde accepts a document read into a `Value`
-/

namespace Verif.Zod
open Verif Verif.Js Verif.Schema Verif.Spec Verif.SchemaSpec

theorem jget_get (m : List (Str × Json)) (k : Str) : jget m k = BMap.get k m := by
  induction m with
  | nil => rfl
  | cons p l ih =>
    obtain ⟨a, j⟩ := p
    rw [jget_cons, BMap.get, ih]

theorem lastOf_jget {m : List (Str × Json)} (h : (m.map (·.1)).Nodup) (k : Str) : WireSpec.lastOf k m = jget m k := by
  induction m with
  | nil => rfl
  | cons p l ih =>
    obtain ⟨a, j⟩ := p
    rw [List.map_cons, List.nodup_cons] at h
    rw [jget_cons, ← ih h.2]
    unfold WireSpec.lastOf
    rw [List.filter_cons]
    by_cases e : a = k
    · subst e
      have hn : l.filter (fun p => decide (p.1 = a)) = [] := by
        rw [List.filter_eq_nil_iff]
        intro p hp hq
        exact h.1 (List.mem_map.2 ⟨p, hp, by simpa using hq⟩)
      simp [hn]
    · simp [e]

theorem value_nodup (m : List (Str × Json)) : ((Json.ofPairs (Json.toValuePairs m)).map (·.1)).Nodup := by
  have h := Json.ofPairs_sorted (Json.toValuePairs m)
  rw [List.Nodup, List.pairwise_map]
  exact List.Pairwise.imp (fun {a b} hlt e => by rw [e] at hlt; exact strLt_irrefl _ hlt) h

theorem value_jget {m : List (Str × Json)} (h : (m.map (·.1)).Nodup) (k : Str) :
    jget (Json.ofPairs (Json.toValuePairs m)) k = (jget m k).map Json.toValue := by
  rw [jget_get, Json.ofPairs_get, Json.toValuePairs_map, Json.lastOf_map, lastOf_jget h]

theorem value_filter {m : List (Str × Json)} (h : (m.map (·.1)).Nodup) (p : Str → Bool) :
    Json.ofPairs (Json.toValuePairs (m.filter (fun x => p x.1))) = (Json.ofPairs (Json.toValuePairs m)).filter (fun x => p x.1) := by
  have hn : ((m.filter (fun x => p x.1)).map (·.1)).Nodup := List.Nodup.sublist (List.Sublist.map _ List.filter_sublist) h
  have jf : ∀ (l : List (Str × Json)) (k : Str), jget (l.filter (fun x => p x.1)) k = if p k then jget l k else none := by
    intro l k
    induction l with
    | nil => simp [jget]
    | cons a l ih =>
      obtain ⟨k', j⟩ := a
      rw [List.filter_cons]
      by_cases hp : p k' = true
      · rw [if_pos hp, jget_cons, jget_cons, ih]
        by_cases e : k' = k
        · subst e; simp [hp]
        · simp [e]
      · rw [if_neg hp, ih, jget_cons]
        by_cases e : k' = k
        · subst e; simp [hp]
        · simp [e]
  refine BMap.ext_of_sorted (Json.ofPairs_sorted _) (List.Pairwise.filter _ (Json.ofPairs_sorted _)) fun k => ?_
  rw [← jget_get, ← jget_get, value_jget hn, jf, jf, value_jget h]
  split <;> rfl

/-- The members of the map are read from members of the document. -/
theorem value_mem {m : List (Str × Json)} {kv : Str × Json} (h : kv ∈ Json.ofPairs (Json.toValuePairs m)) :
    ∃ p ∈ m, kv.1 = p.1 ∧ kv.2 = p.2.toValue := by
  have hg := BMap.get_of_mem_sorted (Json.ofPairs_sorted _) (k := kv.1) (v := kv.2) h
  rw [Json.ofPairs_get, Json.toValuePairs_map] at hg
  unfold WireSpec.lastOf at hg
  simp only [Option.map_eq_some_iff] at hg
  obtain ⟨q, hq, e⟩ := hg
  have hm := (List.mem_filter.1 (List.mem_of_getLast? hq)).1
  have hk := (List.mem_filter.1 (List.mem_of_getLast? hq)).2
  obtain ⟨p, hp, rfl⟩ := List.mem_map.1 hm
  exact ⟨p, hp, (by simpa using hk : p.1 = kv.1).symm, e.symm⟩

theorem value_one (k : Str) (j : Json) : Json.toValue (.obj [(k, j)]) = .obj [(k, j.toValue)] := rfl

theorem value_arr (js : List Json) : Json.toValue (.arr js) = .arr (js.map Json.toValue) := by
  rw [Json.toValue, Json.toValues_map]

theorem mem_values {R : Json → Prop} {js : List Json} (h : ∀ j ∈ js, R j.toValue) :
    ∀ j ∈ js.map Json.toValue, R j := by
  intro j hj
  obtain ⟨a, ha, rfl⟩ := List.mem_map.1 hj
  exact h a ha

theorem body_nodup {P : Program} {fs : List Field} {kvs : List (Str × Json)} {more : Option (List Str)}
    (h : DeBody P more .named fs (.obj kvs)) :
    (kvs.map (·.1)).Nodup := by
  cases h with
  | named _ _ _ h => exact h

section
variable {P : Program}

mutual
theorem de_value : ∀ {t : Ty} {j : Json}, De P t j → De P t j.toValue
  | _, _, .string s => .string s
  | _, _, .smolStr s => .smolStr s
  | _, _, .char c => .char c
  | _, _, .bool b => .bool b
  | _, _, .unit => .unit
  | _, _, .int p lo hi i h1 h2 h3 => .int p lo hi i h1 h2 h3
  | _, _, .wide p lo hi i h1 h2 h3 h4 => .wide p lo hi i h1 h2 h3 h4
  | _, _, .float p n h => .float p n h
  | _, _, .ipv4 p a b c d h => .ipv4 p a b c d h
  | _, _, .ipv6 p s h hs => .ipv6 p s h hs
  | _, _, .wrap w t j hw h => .wrap w t _ hw (de_value h)
  | _, _, .phantom t => .phantom t
  | _, _, .none t => .none t
  | _, _, .some t j h => .some t _ (de_value h)
  | _, _, .vec t js h => by
    rw [value_arr]
    exact .vec t _ (mem_values fun j hj => de_value (h j hj))
  | _, _, .array n t js hl h => by
    rw [value_arr]
    exact .array n t _ (by simpa using hl) (mem_values fun j hj => de_value (h j hj))
  | _, _, .hashSet t js h => by
    rw [value_arr]
    exact .hashSet t _ (mem_values fun j hj => de_value (h j hj))
  | _, _, .btreeSet t js h => by
    rw [value_arr]
    exact .btreeSet t _ (mem_values fun j hj => de_value (h j hj))
  | _, _, .hashMap p t kvs hp h => by
    have ih := fun kv hkv => de_value (h kv hkv)
    refine .hashMap p t _ hp fun kv hkv => ?_
    obtain ⟨q, hq, _, e⟩ := value_mem hkv
    rw [e]
    exact ih q hq
  | _, _, .btreeMap p t kvs hp h => by
    have ih := fun kv hkv => de_value (h kv hkv)
    refine .btreeMap p t _ hp fun kv hkv => ?_
    obtain ⟨q, hq, _, e⟩ := value_mem hkv
    rw [e]
    exact ih q hq
  | _, _, .tuple ts js h => by
    rw [value_arr]
    exact .tuple ts _ (de_values h)
  | _, _, .ok t e j h => .ok t e _ (de_value h)
  | _, _, .err t e j h => .err t e _ (de_value h)
  | _, _, .from_ i d t j h1 h2 h => .from_ i d t _ h1 h2 (de_value h)
  | _, _, .transparent i s f j h1 h2 h3 h4 h => .transparent i s f _ h1 h2 h3 h4 (de_value h)
  | _, _, .struct i s j h1 h2 h3 h => .struct i s _ h1 h2 h3 (body_value h)
  | _, _, .externalUnit i e v h1 h2 h3 h4 h5 => .externalUnit i e v h1 h2 h3 h4 h5
  | _, _, .external i e v j h1 h2 h3 h4 h => .external i e v _ h1 h2 h3 h4 (body_value h)
  | _, _, .internalUnit i e v tag kvs h1 h2 h3 h4 h5 h6 h7 =>
    .internalUnit i e v tag _ h1 h2 h3 h4 h5 (value_nodup kvs) (by rw [value_jget h6, h7]; rfl)
  | _, _, .internal i e v tag kvs h1 h2 h3 h4 h5 h6 h => by
    have ih := body_value h
    refine .internal i e v tag _ h1 h2 h3 h4 h5 ?_ ih
    rw [h5] at h
    rw [value_jget (body_nodup h), h6]
    rfl
  | _, _, .internalNewtype i e v tag f kvs h1 h2 h3 h4 h5 h6 h7 h8 h => by
    have ih := de_value h
    refine .internalNewtype i e v tag f _ h1 h2 h3 h4 h5 h6 (value_nodup kvs) (by rw [value_jget h7, h8]; rfl) ?_
    rw [Json.toValue, value_filter h7 (fun k => decide (k ≠ tag))] at ih
    exact ih
  | _, _, .adjacentUnit i e v tag content kvs h1 h2 h3 h4 h5 h6 h7 h8 h9 =>
    .adjacentUnit i e v tag content _ h1 h2 h3 h4 h5 (value_nodup kvs) (by rw [value_jget h6, h7]; rfl)
      (by rw [value_jget h6, h8]; rfl) (fun hd p hp => by
        obtain ⟨q, hq, e, _⟩ := value_mem hp
        rw [e]; exact h9 hd q hq)
  | _, _, .adjacent i e v tag content kvs j h1 h2 h3 h4 h5 h6 h7 h8 h =>
    .adjacent i e v tag content _ _ h1 h2 h3 h4 (value_nodup kvs) (by rw [value_jget h5, h6]; rfl)
      (by rw [value_jget h5, h7]; rfl) (fun hd p hp => by
        obtain ⟨q, hq, e, _⟩ := value_mem hp
        rw [e]; exact h8 hd q hq) (body_value h)
  | _, _, .untaggedUnit i e v h1 h2 h3 h4 h5 h6 => .untaggedUnit i e v h1 h2 h3 h4 h5 h6
  | _, _, .untagged i e v j h1 h2 h3 h4 h5 h => .untagged i e v _ h1 h2 h3 h4 h5 (body_value h)

theorem de_values : ∀ {ts : List Ty} {js : List Json}, All2 (De P) ts js → All2 (De P) ts (js.map Json.toValue)
  | _, _, .nil => .nil
  | _, _, .cons h1 h2 => .cons (de_value h1) (de_values h2)

theorem body_value : ∀ {more : Option (List Str)} {st : Style} {fs : List Field} {j : Json},
    DeBody P more st fs j → DeBody P more st fs j.toValue
  | _, _, _, _, .newtype more f j hk h => .newtype more f _ hk (de_value h)
  | _, _, _, _, .tuple more fs js hl h => by
    rw [value_arr]
    exact .tuple more fs _ hl (de_values h)
  | _, _, _, _, .short more fs gs hs js hl hk hd h => by
    rw [value_arr]
    exact .short more fs gs hs _ hl hk hd (de_values h)
  | _, _, _, _, .named more fs kvs hd hmore h hfl =>
    .named more fs _ (value_nodup kvs) (fun names hm p hp => by
      obtain ⟨q, hq, e, _⟩ := value_mem hp
      rw [e]; exact hmore names hm q hq) (fun f hf hs hn => field_value (h f hf hs hn) hd) (fun f hf hs hn => by
      have ih := de_value (hfl f hf hs hn)
      rw [Json.toValue, value_filter hd (fun k => decide (k ∉ plainNames fs))] at ih
      exact ih)

theorem field_value : ∀ {f : Field} {kvs : List (Str × Json)}, DeField P f kvs → (kvs.map (·.1)).Nodup →
    DeField P f (Json.ofPairs (Json.toValuePairs kvs))
  | _, _, .present f kvs j hf hj ha h, hd => .present f _ _ hf (by rw [value_jget hd, hj]; rfl)
      (fun a h => by rw [value_jget hd, ha a h]; rfl) (de_value h)
  | _, _, .alias f kvs a j hf ha hj hb h, hd => .alias f _ a _ hf ha (by rw [value_jget hd, hj]; rfl)
      (fun b h1 h2 => by rw [value_jget hd, hb b h1 h2]; rfl) (de_value h)
  | _, _, .default f kvs hf hj h, hd => .default f _ hf (fun a h => by rw [value_jget hd, hj a h]; rfl) h
  | _, _, .missing f kvs hf hj h, hd => .missing f _ hf (fun a h => by rw [value_jget hd, hj a h]; rfl) h
end
end

end Verif.Zod
