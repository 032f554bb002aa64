import Verif.Text.Grammar

/-!
# The readers read what RFC 8259 says: values
-/

namespace Verif.Text
open Verif Verif.JsonSpec

/-- What a number is to the reader depends on what it denotes alone. -/
structure Agrees (R : Reader) (num : Str → JNum → Prop) : Prop where
  sound : ∀ t m x, IsNumber t m.value m.asInt → R.num m = some x → num t x
  complete : ∀ t x, num t x → ∃ m, (∀ rest, Stop rest → readNumeral (t ++ rest) = some (m, rest)) ∧ R.num m = some x

variable {R : Reader} {num : Str → JNum → Prop}

theorem value_skip {w : Str} (hw : Ws w) (d : Nat) (s : Str) : value R d (w ++ s) = value R d s := by
  cases d with
  | zero => rfl
  | succ d => simp only [value, skip_ws hw]

theorem value_skip' (d : Nat) (s : Str) : value R d (skip s) = value R d s := by
  obtain ⟨w, hw, e⟩ := skip_split s
  have := value_skip (R := R) hw d (skip s)
  rw [← e] at this
  exact this.symm

theorem elements_skip (d n : Nat) (s : Str) : elements (value R d) n (skip s) = elements (value R d) n s := by
  cases n with
  | zero => rfl
  | succ n => simp only [elements, value_skip']

theorem members_skip (f : Str → Option (Json × Str)) (n : Nat) (s : Str) : members f n (skip s) = members f n s := by
  cases n with
  | zero => rfl
  | succ n => simp only [members, skip_skip]

/-! ## Soundness -/

theorem elements_sound {d : Nat} (ih : ∀ s j r, value R (d + 1) s = some (j, r) →
      ∃ w t, s = w ++ t ++ r ∧ Ws w ∧ Value num d t j) :
    ∀ n s l r, elements (value R (d + 1)) n s = some (l, r) → ∃ t, s = t ++ [']'] ++ r ∧ Elements num d t l
  | 0, _, _, _, h => by simp [elements] at h
  | n + 1, s, l, r, h => by
    simp only [elements] at h
    cases hv : value R (d + 1) s with
    | none => rw [hv] at h; exact absurd h (by simp)
    | some p =>
      obtain ⟨j, r1⟩ := p
      rw [hv] at h
      simp only at h
      obtain ⟨w, t, rfl, hw, ht⟩ := ih s j r1 hv
      obtain ⟨w', hw', e'⟩ := skip_split r1
      split at h
      · next r2 e =>
        cases h
        rw [e] at e'
        exact ⟨w ++ t ++ w', by rw [e']; simp, .last d w t w' j hw ht hw'⟩
      · next r2 e =>
        rw [e] at e'
        cases he : elements (value R (d + 1)) n r2 with
        | none => rw [he] at h; exact absurd h (by simp)
        | some p =>
          rw [he] at h
          cases h
          obtain ⟨t2, e2, h2⟩ := elements_sound ih n r2 p.1 p.2 he
          exact ⟨w ++ t ++ w' ++ [','] ++ t2, by rw [e', e2]; simp, .more d w t w' t2 j p.1 hw ht hw' h2⟩
      · exact absurd h (by simp)

theorem members_sound {d : Nat} (ih : ∀ s j r, value R (d + 1) s = some (j, r) →
      ∃ w t, s = w ++ t ++ r ∧ Ws w ∧ Value num d t j) :
    ∀ n s l r, members (value R (d + 1)) n s = some (l, r) → ∃ t, s = t ++ ['}'] ++ r ∧ Members num d t l
  | 0, _, _, _, h => by simp [members] at h
  | n + 1, s, l, r, h => by
    simp only [members] at h
    obtain ⟨w0, hw0, e0⟩ := skip_split s
    split at h
    · next r0 hs =>
      rw [hs] at e0
      cases hk : readStr r0 with
      | none => rw [hk] at h; exact absurd h (by simp)
      | some p =>
        obtain ⟨k, rk⟩ := p
        rw [hk] at h
        simp only at h
        obtain ⟨b, eb, hb⟩ := readStr_sound hk
        rw [eb] at e0
        obtain ⟨w1, hw1, e1⟩ := skip_split rk
        split at h
        · next r1 hc =>
          rw [hc] at e1
          cases hv : value R (d + 1) r1 with
          | none => rw [hv] at h; exact absurd h (by simp)
          | some p =>
            obtain ⟨j, rj⟩ := p
            rw [hv] at h
            simp only at h
            obtain ⟨w, t, er, hw, ht⟩ := ih r1 j rj hv
            obtain ⟨w', hw', e'⟩ := skip_split rj
            split at h
            · next r2 e =>
              cases h
              rw [e] at e'
              exact ⟨_, by rw [e0, e1, er, e']; simp, .last d w0 b w1 w t w' k j hw0 hb hw1 hw ht hw'⟩
            · next r2 e =>
              rw [e] at e'
              cases he : members (value R (d + 1)) n r2 with
              | none => rw [he] at h; exact absurd h (by simp)
              | some p =>
                rw [he] at h
                cases h
                obtain ⟨t2, e2, h2⟩ := members_sound ih n r2 p.1 p.2 he
                exact ⟨_, by rw [e0, e1, er, e', e2]; simp, .more d w0 b w1 w t w' t2 k j p.1 hw0 hb hw1 hw ht hw' h2⟩
            · exact absurd h (by simp)
        · exact absurd h (by simp)
    · exact absurd h (by simp)

theorem value_sound (H : Agrees R num) : ∀ (d : Nat) (s : Str) (j : Json) (r : Str), value R (d + 1) s = some (j, r) →
    ∃ w t, s = w ++ t ++ r ∧ Ws w ∧ Value num d t j := by
  intro d
  induction d with
  | zero =>
    intro s j r h
    obtain ⟨w, hw, e⟩ := skip_split s
    simp only [value] at h
    split at h
    · next hs => cases h; rw [hs] at e; exact ⟨w, _, by rw [e]; simp [lit], hw, .null 0⟩
    · next hs => cases h; rw [hs] at e; exact ⟨w, _, by rw [e]; simp [lit], hw, .true 0⟩
    · next hs => cases h; rw [hs] at e; exact ⟨w, _, by rw [e]; simp [lit], hw, .false 0⟩
    · next r0 hs =>
      rw [hs] at e
      cases hk : readStr r0 with
      | none => rw [hk] at h; exact absurd h (by simp)
      | some p =>
        rw [hk] at h
        cases h
        obtain ⟨b, eb, hb⟩ := readStr_sound hk
        rw [eb] at e
        exact ⟨w, b, by rw [e]; simp, hw, .str 0 b _ hb⟩
    · exact absurd h (by simp)
    · exact absurd h (by simp)
    · cases hn : readNumeral (skip s) with
      | none => rw [hn] at h; exact absurd h (by simp)
      | some p =>
        obtain ⟨m, rn⟩ := p
        rw [hn] at h
        simp only at h
        cases hm : R.num m with
        | none => rw [hm] at h; exact absurd h (by simp)
        | some x =>
          rw [hm] at h
          cases h
          obtain ⟨t, et, ht⟩ := numeral_sound hn
          rw [et] at e
          exact ⟨w, t, by rw [e]; simp, hw, .num 0 t x (H.sound t m x ht hm)⟩
  | succ d ih =>
    intro s j r h
    obtain ⟨w, hw, e⟩ := skip_split s
    rw [value] at h
    split at h
    · next hs => cases h; rw [hs] at e; exact ⟨w, _, by rw [e]; simp [lit], hw, .null _⟩
    · next hs => cases h; rw [hs] at e; exact ⟨w, _, by rw [e]; simp [lit], hw, .true _⟩
    · next hs => cases h; rw [hs] at e; exact ⟨w, _, by rw [e]; simp [lit], hw, .false _⟩
    · next r0 hs =>
      rw [hs] at e
      cases hk : readStr r0 with
      | none => rw [hk] at h; exact absurd h (by simp)
      | some p =>
        rw [hk] at h
        cases h
        obtain ⟨b, eb, hb⟩ := readStr_sound hk
        rw [eb] at e
        exact ⟨w, b, by rw [e]; simp, hw, .str _ b _ hb⟩
    · next r0 hs =>
      rw [hs] at e
      rw [if_neg (by omega)] at h
      obtain ⟨w1, hw1, e1⟩ := skip_split r0
      split at h
      · next r1 h1 =>
        cases h
        rw [h1] at e1
        exact ⟨w, ['['] ++ w1 ++ [']'], by rw [e, e1]; simp, hw, .emptyArr d w1 hw1⟩
      · rw [elements_skip] at h
        cases he : elements (value R (d + 1)) (skip r0).length r0 with
        | none => rw [he] at h; exact absurd h (by simp)
        | some p =>
          rw [he] at h
          cases h
          obtain ⟨t, et, ht⟩ := elements_sound ih _ _ p.1 p.2 he
          exact ⟨w, ['['] ++ t ++ [']'], by rw [e, et]; simp, hw, .arr d t _ ht⟩
    · next r0 hs =>
      rw [hs] at e
      rw [if_neg (by omega)] at h
      obtain ⟨w1, hw1, e1⟩ := skip_split r0
      split at h
      · next r1 h1 =>
        cases h
        rw [h1] at e1
        exact ⟨w, ['{'] ++ w1 ++ ['}'], by rw [e, e1]; simp, hw, .emptyObj d w1 hw1⟩
      · rw [members_skip] at h
        cases he : members (value R (d + 1)) (skip r0).length r0 with
        | none => rw [he] at h; exact absurd h (by simp)
        | some p =>
          rw [he] at h
          cases h
          obtain ⟨t, et, ht⟩ := members_sound ih _ _ p.1 p.2 he
          exact ⟨w, ['{'] ++ t ++ ['}'], by rw [e, et]; simp, hw, .obj d t _ ht⟩
    · cases hn : readNumeral (skip s) with
      | none => rw [hn] at h; exact absurd h (by simp)
      | some p =>
        obtain ⟨m, rn⟩ := p
        rw [hn] at h
        simp only at h
        cases hm : R.num m with
        | none => rw [hm] at h; exact absurd h (by simp)
        | some x =>
          rw [hm] at h
          cases h
          obtain ⟨t, et, ht⟩ := numeral_sound hn
          rw [et] at e
          exact ⟨w, t, by rw [e]; simp, hw, .num _ t x (H.sound t m x ht hm)⟩

/-! ## Completeness -/

theorem isString_head {n k : Str} (h : IsString n k) : ∃ t, n = '"' :: t := by
  obtain ⟨b, us, rfl, _⟩ := h
  exact ⟨b ++ ['"'], by simp⟩

/-- A value begins with a character that is no white space and ends no array or object. -/
theorem value_head (H : Agrees R num) {d : Nat} {t : Str} {j : Json} (h : Value num d t j) :
    ∃ c r, t = c :: r ∧ isWs c = false ∧ c ≠ ']' ∧ c ≠ '}' := by
  match h with
  | .null _ => exact ⟨'n', _, rfl, by decide, by decide, by decide⟩
  | .true _ => exact ⟨'t', _, rfl, by decide, by decide, by decide⟩
  | .false _ => exact ⟨'f', _, rfl, by decide, by decide, by decide⟩
  | .num _ t x h =>
    obtain ⟨m, hm, _⟩ := H.complete t x h
    have := hm [] Stop.nil
    rw [List.append_nil] at this
    obtain ⟨c, r, e, hc⟩ := readNumeral_head this
    refine ⟨c, r, e, (digit_not_ws hc).1, (digit_not_ws hc).2.1, ?_⟩
    rcases hc with hc | rfl
    · rintro rfl; exact absurd hc (by decide)
    · decide
  | .str _ t s h =>
    obtain ⟨r, e⟩ := isString_head h
    exact ⟨'"', r, e, by decide, by decide, by decide⟩
  | .emptyArr d w _ => exact ⟨'[', _, rfl, by decide, by decide, by decide⟩
  | .arr d t l _ => exact ⟨'[', _, rfl, by decide, by decide, by decide⟩
  | .emptyObj d w _ => exact ⟨'{', _, rfl, by decide, by decide, by decide⟩
  | .obj d t l _ => exact ⟨'{', _, rfl, by decide, by decide, by decide⟩

theorem elements_head (H : Agrees R num) {d : Nat} {t : Str} {l : List Json} (h : Elements num d t l) :
    ∃ c r, (∀ rest, skip (t ++ rest) = c :: (r ++ rest)) ∧ c ≠ ']' := by
  match h with
  | .last _ w t w' j hw ht _ =>
    obtain ⟨c, r, rfl, h1, h2, _⟩ := value_head H ht
    refine ⟨c, r ++ w', ?_, h2⟩
    intro rest
    rw [List.append_assoc, List.append_assoc, skip_ws hw, List.cons_append, skip_cons h1, List.append_assoc]
  | .more _ w t w' r0 j l hw ht _ _ =>
    obtain ⟨c, r, rfl, h1, h2, _⟩ := value_head H ht
    refine ⟨c, r ++ w' ++ [','] ++ r0, ?_, h2⟩
    intro rest
    simp only [List.append_assoc]
    rw [skip_ws hw, List.cons_append, skip_cons h1]

theorem members_head {d : Nat} {t : Str} {l : List (Str × Json)} (h : Members num d t l) :
    ∃ r, ∀ rest, skip (t ++ rest) = '"' :: (r ++ rest) := by
  match h with
  | .last _ w n w' v t w'' k j hw hn _ _ _ _ =>
    obtain ⟨r, rfl⟩ := isString_head hn
    refine ⟨r ++ w' ++ [':'] ++ v ++ t ++ w'', ?_⟩
    intro rest
    simp only [List.append_assoc]
    rw [skip_ws hw, List.cons_append, skip_cons (by decide)]
  | .more _ w n w' v t w'' r0 k j l hw hn _ _ _ _ _ =>
    obtain ⟨r, rfl⟩ := isString_head hn
    refine ⟨r ++ w' ++ [':'] ++ v ++ t ++ w'' ++ [','] ++ r0, ?_⟩
    intro rest
    simp only [List.append_assoc]
    rw [skip_ws hw, List.cons_append, skip_cons (by decide)]

theorem elements_count (H : Agrees R num) {d : Nat} {t : Str} {l : List Json} (h : Elements num d t l) :
    l.length ≤ t.length := by
  match h with
  | .last _ w t w' j hw ht _ =>
    obtain ⟨c, r, rfl, _⟩ := value_head H ht
    simp; omega
  | .more _ w t w' r0 j l hw ht _ hr =>
    have := elements_count H hr
    simp; omega

theorem members_count {d : Nat} {t : Str} {l : List (Str × Json)} (h : Members num d t l) : l.length ≤ t.length := by
  match h with
  | .last _ w n w' v t w'' k j _ _ _ _ _ _ => simp; omega
  | .more _ w n w' v t w'' r0 k j l _ _ _ _ _ _ hr =>
    have := members_count hr
    simp; omega

/-- The number of elements does not exceed what is left of the text after the white space. -/
theorem elements_room (H : Agrees R num) {d : Nat} {t : Str} {l : List Json} (h : Elements num d t l) (rest : Str) :
    l.length ≤ (skip (t ++ rest)).length := by
  match h with
  | .last _ w t w' j hw ht _ =>
    obtain ⟨c, r, rfl, h1, _⟩ := value_head H ht
    rw [List.append_assoc, List.append_assoc, skip_ws hw, List.cons_append, skip_cons h1]
    simp
  | .more _ w t w' r0 j l hw ht _ hr =>
    obtain ⟨c, r, rfl, h1, _⟩ := value_head H ht
    have := elements_count H hr
    simp only [List.append_assoc]
    rw [skip_ws hw, List.cons_append, skip_cons h1]
    simp; omega

theorem members_room {d : Nat} {t : Str} {l : List (Str × Json)} (h : Members num d t l) (rest : Str) :
    l.length ≤ (skip (t ++ rest)).length := by
  match h with
  | .last _ w n w' v t w'' k j hw hn _ _ _ _ =>
    obtain ⟨r, rfl⟩ := isString_head hn
    simp only [List.append_assoc]
    rw [skip_ws hw, List.cons_append, skip_cons (by decide)]
    simp
  | .more _ w n w' v t w'' r0 k j l hw hn _ _ _ _ hr =>
    obtain ⟨r, rfl⟩ := isString_head hn
    have := members_count hr
    simp only [List.append_assoc]
    rw [skip_ws hw, List.cons_append, skip_cons (by decide)]
    simp; omega

theorem stop_ws {w : Str} (hw : Ws w) {rest : Str} (h : Stop rest) : Stop (w ++ rest) := by
  cases w with
  | nil => exact h
  | cons c w =>
    have hc := hw c List.mem_cons_self
    simp only [List.mem_cons, List.not_mem_nil, or_false] at hc
    exact stop_cons (by rcases hc with rfl | rfl | rfl | rfl <;> decide) _

mutual

theorem value_complete (H : Agrees R num) {d : Nat} {t : Str} {j : Json} (h : Value num d t j) (rest : Str)
    (hr : Stop rest) : value R (d + 1) (t ++ rest) = some (j, rest) := by
  match h with
  | .null _ => simp only [lit]; rfl
  | .true _ => simp only [lit]; rfl
  | .false _ => simp only [lit]; rfl
  | .num _ t x hx =>
    obtain ⟨m, hm, hR⟩ := H.complete t x hx
    have h1 := hm rest hr
    obtain ⟨c, r, e, hc⟩ := readNumeral_head h1
    rw [e] at h1 ⊢
    rw [value_numeral hc, h1]
    simp [hR]
  | .str _ t s hs =>
    obtain ⟨b, rfl, hb⟩ := readStr_complete hs
    rw [List.cons_append, value_str, hb]
    rfl
  | .emptyArr d w hw =>
    have e : ['['] ++ w ++ [']'] ++ rest = '[' :: (w ++ ']' :: rest) := by simp
    rw [e, value_arr, if_neg (by omega), skip_ws hw, skip_cons (by decide)]
    rfl
  | .arr d t l hl =>
    have e : ['['] ++ t ++ [']'] ++ rest = '[' :: (t ++ ']' :: rest) := by simp
    have h1 := elements_complete H hl rest _ (elements_room H hl (']' :: rest))
    obtain ⟨c, r, hs, hc⟩ := elements_head H hl
    rw [← elements_skip] at h1
    rw [e, value_arr, if_neg (by omega)]
    rw [hs] at h1 ⊢
    split
    · next e => injection e with e _; exact absurd e hc
    · rw [h1]; rfl
  | .emptyObj d w hw =>
    have e : ['{'] ++ w ++ ['}'] ++ rest = '{' :: (w ++ '}' :: rest) := by simp
    rw [e, value_obj, if_neg (by omega), skip_ws hw, skip_cons (by decide)]
    rfl
  | .obj d t l hl =>
    have e : ['{'] ++ t ++ ['}'] ++ rest = '{' :: (t ++ '}' :: rest) := by simp
    have h1 := members_complete H hl rest _ (members_room hl ('}' :: rest))
    obtain ⟨r, hs⟩ := members_head hl
    rw [← members_skip] at h1
    rw [e, value_obj, if_neg (by omega)]
    rw [hs] at h1 ⊢
    split
    · next e => injection e with e _; exact absurd e (by decide)
    · rw [h1]; rfl

theorem elements_complete (H : Agrees R num) {d : Nat} {t : Str} {l : List Json} (h : Elements num d t l) (rest : Str)
    (n : Nat) (hn : l.length ≤ n) : elements (value R (d + 1)) n (t ++ ']' :: rest) = some (l, rest) := by
  match h, n, hn with
  | .last _ w t w' j hw ht hw', n + 1, hn =>
    have h1 := value_complete H ht (w' ++ ']' :: rest) (stop_ws hw' (stop_rbrack rest))
    have e : w ++ t ++ w' ++ ']' :: rest = w ++ (t ++ (w' ++ ']' :: rest)) := by simp
    rw [e, elements, value_skip hw, h1]
    simp only
    rw [skip_ws hw', skip_cons (by decide)]
    rfl
  | .more _ w t w' r0 j l hw ht hw' hr, n + 1, hn =>
    have h1 := value_complete H ht (w' ++ ',' :: (r0 ++ ']' :: rest)) (stop_ws hw' (stop_comma _))
    have h2 := elements_complete H hr rest n (by simp at hn; exact hn)
    have e : w ++ t ++ w' ++ [','] ++ r0 ++ ']' :: rest = w ++ (t ++ (w' ++ ',' :: (r0 ++ ']' :: rest))) := by simp
    rw [e, elements, value_skip hw, h1]
    simp only
    rw [skip_ws hw', skip_cons (by decide)]
    simp only [h2, Option.map_some]

theorem members_complete (H : Agrees R num) {d : Nat} {t : Str} {l : List (Str × Json)} (h : Members num d t l)
    (rest : Str) (n : Nat) (hn : l.length ≤ n) :
    members (value R (d + 1)) n (t ++ '}' :: rest) = some (l, rest) := by
  match h, n, hn with
  | .last _ w k w' v t w'' x j hw hk hw' hv ht hw'', n + 1, hn =>
    obtain ⟨b, rfl, hb⟩ := readStr_complete hk
    have h1 := value_complete H ht (w'' ++ '}' :: rest) (stop_ws hw'' (stop_rbrace rest))
    have e : w ++ '"' :: b ++ w' ++ [':'] ++ v ++ t ++ w'' ++ '}' :: rest =
        w ++ '"' :: (b ++ (w' ++ ':' :: (v ++ (t ++ (w'' ++ '}' :: rest))))) := by simp
    rw [e, members, skip_ws hw, skip_cons (by decide)]
    simp only [hb]
    rw [skip_ws hw', skip_cons (by decide)]
    simp only
    rw [value_skip hv, h1]
    simp only
    rw [skip_ws hw'', skip_cons (by decide)]
    rfl
  | .more _ w k w' v t w'' r0 x j l hw hk hw' hv ht hw'' hr, n + 1, hn =>
    obtain ⟨b, rfl, hb⟩ := readStr_complete hk
    have h1 := value_complete H ht (w'' ++ ',' :: (r0 ++ '}' :: rest)) (stop_ws hw'' (stop_comma _))
    have h2 := members_complete H hr rest n (by simp at hn; exact hn)
    have e : w ++ '"' :: b ++ w' ++ [':'] ++ v ++ t ++ w'' ++ [','] ++ r0 ++ '}' :: rest =
        w ++ '"' :: (b ++ (w' ++ ':' :: (v ++ (t ++ (w'' ++ ',' :: (r0 ++ '}' :: rest)))))) := by simp
    rw [e, members, skip_ws hw, skip_cons (by decide)]
    simp only [hb]
    rw [skip_ws hw', skip_cons (by decide)]
    simp only
    rw [value_skip hv, h1]
    simp only
    rw [skip_ws hw'', skip_cons (by decide)]
    simp only [h2, Option.map_some]

end

/-- **Reading is what the RFC says**, both ways. -/
theorem read_iff (H : Agrees R num) {d : Nat} (hl : R.limit = d + 1) (t : Str) (j : Json) :
    R.read t = some j ↔ IsText num d t j := by
  unfold Reader.read
  rw [hl]
  constructor
  · intro h
    cases hv : value R (d + 1) t with
    | none => rw [hv] at h; exact absurd h (by simp)
    | some p =>
      obtain ⟨j', r⟩ := p
      rw [hv] at h
      simp only at h
      split at h
      · next he =>
        cases h
        obtain ⟨w, v, e, hw, hj⟩ := value_sound H d t j r hv
        exact ⟨w, v, r, e, hw, hj, skip_nil (by simpa using he)⟩
      · exact absurd h (by simp)
  · rintro ⟨w, v, w', rfl, hw, hv, hw'⟩
    rw [List.append_assoc, value_skip hw, value_complete H hv w' (by
      have := stop_ws hw' Stop.nil
      rwa [List.append_nil] at this)]
    simp only [skip_of_ws hw']
    rfl

/-! ## Depth -/

mutual

theorem value_deep {d : Nat} {t : Str} {j : Json} (h : Value num d t j) {d' : Nat} (hd : t.length ≤ d' ∨ d ≤ d') :
    Value num d' t j := by
  match h with
  | .null _ => exact .null _
  | .true _ => exact .true _
  | .false _ => exact .false _
  | .num _ t x hx => exact .num _ t x hx
  | .str _ t s hs => exact .str _ t s hs
  | .emptyArr d w hw =>
    obtain ⟨e, rfl⟩ : ∃ e, d' = e + 1 := ⟨d' - 1, by simp at hd; omega⟩
    exact .emptyArr e w hw
  | .arr d t l hl =>
    obtain ⟨e, rfl⟩ : ∃ e, d' = e + 1 := ⟨d' - 1, by simp at hd; omega⟩
    exact .arr e t l (elements_deep hl (by simp at hd; omega))
  | .emptyObj d w hw =>
    obtain ⟨e, rfl⟩ : ∃ e, d' = e + 1 := ⟨d' - 1, by simp at hd; omega⟩
    exact .emptyObj e w hw
  | .obj d t l hl =>
    obtain ⟨e, rfl⟩ : ∃ e, d' = e + 1 := ⟨d' - 1, by simp at hd; omega⟩
    exact .obj e t l (members_deep hl (by simp at hd; omega))

theorem elements_deep {d : Nat} {t : Str} {l : List Json} (h : Elements num d t l) {d' : Nat} (hd : t.length ≤ d' ∨ d ≤ d') :
    Elements num d' t l := by
  match h with
  | .last _ w t w' j hw ht hw' => exact .last _ w t w' j hw (value_deep ht (by simp at hd; omega)) hw'
  | .more _ w t w' r0 j l hw ht hw' hr =>
    exact .more _ w t w' r0 j l hw (value_deep ht (by simp at hd; omega)) hw' (elements_deep hr (by simp at hd; omega))

theorem members_deep {d : Nat} {t : Str} {l : List (Str × Json)} (h : Members num d t l) {d' : Nat}
    (hd : t.length ≤ d' ∨ d ≤ d') : Members num d' t l := by
  match h with
  | .last _ w k w' v t w'' x j hw hk hw' hv ht hw'' =>
    exact .last _ w k w' v t w'' x j hw hk hw' hv (value_deep ht (by simp at hd; omega)) hw''
  | .more _ w k w' v t w'' r0 x j l hw hk hw' hv ht hw'' hr =>
    exact .more _ w k w' v t w'' r0 x j l hw hk hw' hv (value_deep ht (by simp at hd; omega)) hw''
      (members_deep hr (by simp at hd; omega))

end

/-- No text is nested more deeply than it is long. -/
theorem text_deep {d : Nat} {t : Str} {j : Json} (h : IsText num d t j) : IsText num t.length t j := by
  obtain ⟨w, v, w', rfl, hw, hv, hw'⟩ := h
  exact ⟨w, v, w', rfl, hw, value_deep hv (Or.inl (by simp; omega)), hw'⟩

/-! ## The numbers of the two readers -/

theorem serde_agrees (round : Rat → Option Rat) : Agrees (serdeReader round) (ServerNumber round) := by
  have key : ∀ m : Numeral, ∀ x, serdeNum round m = some x ↔
      (∃ i, m.asInt = some i ∧ -(2 ^ 63) ≤ i ∧ i < 2 ^ 64 ∧ x = .int i) ∨
      ((∀ n, m.asInt = some n → ¬ (-(2 ^ 63) ≤ n ∧ n < 2 ^ 64)) ∧ ∃ r, round m.value = some r ∧ x = .flt r) := by
    intro m x
    unfold serdeNum Numeral.asInt
    by_cases hw : (m.whole && !(m.neg && digitsVal m.int == 0)) = true
    · rw [if_pos hw]
      simp only [hw, Bool.true_and]
      by_cases hr : -(2 ^ 63) ≤ m.intVal ∧ m.intVal < 2 ^ 64
      · rw [if_pos (by simpa using hr)]
        constructor
        · intro h; cases h; exact Or.inl ⟨_, rfl, hr.1, hr.2, rfl⟩
        · rintro (⟨i, h, _, _, rfl⟩ | ⟨h, _⟩)
          · cases h; rfl
          · exact absurd hr (h _ rfl)
      · rw [if_neg (by simpa using hr)]
        constructor
        · intro h
          refine Or.inr ⟨?_, ?_⟩
          · intro n hn; cases hn; exact hr
          · cases hq : round m.value with
            | none => rw [hq] at h; exact absurd h (by simp)
            | some r => rw [hq] at h; cases h; exact ⟨r, rfl, rfl⟩
        · rintro (⟨i, h, h1, h2, rfl⟩ | ⟨_, r, h, rfl⟩)
          · cases h; exact absurd ⟨h1, h2⟩ hr
          · rw [h]; rfl
    · rw [if_neg hw, if_neg (by
        intro h
        rw [Bool.and_eq_true] at h
        exact hw h.1)]
      constructor
      · intro h
        refine Or.inr ⟨by simp, ?_⟩
        cases hq : round m.value with
        | none => rw [hq] at h; exact absurd h (by simp)
        | some r => rw [hq] at h; cases h; exact ⟨r, rfl, rfl⟩
      · rintro (⟨i, h, _⟩ | ⟨_, r, h, rfl⟩)
        · exact absurd h (by simp)
        · rw [h]; rfl
  constructor
  · intro t m x ht hx
    rcases (key m x).1 hx with ⟨i, h1, h2, h3, rfl⟩ | ⟨h1, r, h2, rfl⟩
    · rw [h1] at ht
      exact ⟨_, ht, h2, h3⟩
    · exact ⟨_, _, ht, h1, h2⟩
  · intro t x hx
    cases x with
    | int i =>
      obtain ⟨q, h1, h2, h3⟩ := hx
      obtain ⟨m, hm, _, e⟩ := numeral_complete h1
      exact ⟨m, hm, (key m _).2 (Or.inl ⟨i, e, h2, h3, rfl⟩)⟩
    | flt r =>
      obtain ⟨q, i, h1, h2, h3⟩ := hx
      obtain ⟨m, hm, rfl, rfl⟩ := numeral_complete h1
      exact ⟨m, hm, (key m _).2 (Or.inr ⟨h2, r, h3, rfl⟩)⟩

theorem js_agrees (round : Rat → Option Rat) (s : Str) : Agrees (jsReader round s) (ClientNumber round) := by
  have key : ∀ m : Numeral, ∀ x, (jsReader round s).num m = some x ↔
      (∃ i, m.asInt = some i ∧ x = .int i) ∨ (m.asInt = none ∧ ∃ r, round m.value = some r ∧ x = .flt r) := by
    intro m x
    simp only [jsReader]
    unfold Numeral.asInt
    by_cases hw : (m.whole && !(m.neg && digitsVal m.int == 0)) = true
    · rw [if_pos hw, if_pos hw]
      constructor
      · intro h; cases h; exact Or.inl ⟨_, rfl, rfl⟩
      · rintro (⟨i, h, rfl⟩ | ⟨h, _⟩)
        · cases h; rfl
        · exact absurd h (by simp)
    · rw [if_neg hw, if_neg hw]
      constructor
      · intro h
        cases hq : round m.value with
        | none => rw [hq] at h; exact absurd h (by simp)
        | some r => rw [hq] at h; cases h; exact Or.inr ⟨rfl, r, rfl, rfl⟩
      · rintro (⟨i, h, _⟩ | ⟨_, r, h, rfl⟩)
        · exact absurd h (by simp)
        · rw [h]; rfl
  constructor
  · intro t m x ht hx
    rcases (key m x).1 hx with ⟨i, h1, rfl⟩ | ⟨h1, r, h2, rfl⟩
    · rw [h1] at ht
      exact ⟨_, ht⟩
    · rw [h1] at ht
      exact ⟨_, ht, h2⟩
  · intro t x hx
    cases x with
    | int i =>
      obtain ⟨q, h1⟩ := hx
      obtain ⟨m, hm, _, e⟩ := numeral_complete h1
      exact ⟨m, hm, (key m _).2 (Or.inl ⟨i, e, rfl⟩)⟩
    | flt r =>
      obtain ⟨q, h1, h3⟩ := hx
      obtain ⟨m, hm, rfl, e⟩ := numeral_complete h1
      exact ⟨m, hm, (key m _).2 (Or.inr ⟨e, r, h3, rfl⟩)⟩

end Verif.Text
