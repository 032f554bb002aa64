import Verif.Text.RoundTrip
import Verif.Spec.Rfc8259

/-!
# The readers read what RFC 8259 says
-/

namespace Verif.Text
open Verif Verif.JsonSpec

/-! ## White space -/

theorem isWs_iff (c : Char) : isWs c = true ↔ c ∈ [' ', '\t', '\n', '\r'] := by
  simp [isWs, or_assoc]

theorem ws_nil : Ws [] := by intro c h; simp at h

theorem skip_ws {w : Str} (h : Ws w) (s : Str) : skip (w ++ s) = skip s := by
  induction w with
  | nil => rfl
  | cons c w ih =>
    have hc := (isWs_iff c).2 (h c List.mem_cons_self)
    have := ih (fun x hx => h x (List.mem_cons_of_mem _ hx))
    rw [List.cons_append]
    unfold skip at this ⊢
    rw [List.dropWhile_cons, if_pos hc]
    exact this

theorem skip_split : ∀ s : Str, ∃ w, Ws w ∧ s = w ++ skip s
  | [] => ⟨[], ws_nil, rfl⟩
  | c :: s => by
    by_cases hc : isWs c = true
    · obtain ⟨w, hw, e⟩ := skip_split s
      refine ⟨c :: w, ?_, ?_⟩
      · intro x hx
        rcases List.mem_cons.1 hx with rfl | hx
        · exact (isWs_iff _).1 hc
        · exact hw x hx
      · have : skip (c :: s) = skip s := by unfold skip; rw [List.dropWhile_cons, if_pos hc]
        rw [this, List.cons_append, ← e]
    · refine ⟨[], ws_nil, ?_⟩
      rw [skip_cons (by simpa using hc)]
      rfl

theorem skip_skip (s : Str) : skip (skip s) = skip s := by
  obtain ⟨w, hw, e⟩ := skip_split s
  have := skip_ws hw (skip s)
  rw [← e] at this
  exact this.symm

theorem skip_nil {s : Str} (h : skip s = []) : Ws s := by
  obtain ⟨w, hw, e⟩ := skip_split s
  rw [h, List.append_nil] at e
  rw [e]; exact hw

theorem skip_of_ws {w : Str} (h : Ws w) : skip w = [] := by
  have := skip_ws h []
  rw [List.append_nil] at this
  rw [this]; rfl

/-! ## Strings -/

theorem utf16_char (c : Char) (us : List Nat) : Utf16 c us ↔ us = units16 c := by
  have hc := char_range c
  constructor
  · intro h
    cases h with
    | one h => simp [units16, h]
    | two hi lo h1 h2 =>
      unfold units16
      rw [if_neg (by omega)]
      have e1 : (c.toNat - 0x10000) / 1024 = hi := by omega
      have e2 : (c.toNat - 0x10000) % 1024 = lo := by omega
      rw [e1, e2]
  · rintro rfl
    unfold units16
    split
    · next h => exact .one c h
    · next h => exact .two c _ _ (by omega) (by omega)

theorem units_iff (s : Str) (us : List Nat) : Units s us ↔ us = utf16 s := by
  constructor
  · intro h
    induction h with
    | nil => rfl
    | cons c us s vs hc _ ih => rw [utf16_cons, (utf16_char c us).1 hc, ih]
  · rintro rfl
    induction s with
    | nil => exact .nil
    | cons c s ih => exact .cons c _ s _ ((utf16_char c _).2 rfl) ih

theorem hex_iff (c : Char) (n : Nat) : hexVal c = some n ↔ Hex c n := by
  constructor
  · intro h
    have hb : c.toNat < 128 := by
      simp only [hexVal] at h
      split at h
      · omega
      split at h
      · omega
      split at h
      · omega
      · exact absurd h (by simp)
    have key : ∀ k : Fin 128, ∀ m : Nat, hexVal (Char.ofNat k.1) = some m → Hex (Char.ofNat k.1) m := by
      have : ∀ k : Fin 128, (hexVal (Char.ofNat k.1)).all (fun m => decide ((Char.ofNat k.1, m) ∈ [('0', 0), ('1', 1),
          ('2', 2), ('3', 3), ('4', 4), ('5', 5), ('6', 6), ('7', 7), ('8', 8), ('9', 9),
          ('a', 10), ('b', 11), ('c', 12), ('d', 13), ('e', 14), ('f', 15),
          ('A', 10), ('B', 11), ('C', 12), ('D', 13), ('E', 14), ('F', 15)])) = true := by decide +kernel
      intro k m hm
      have := this k
      rw [hm, Option.all_some, decide_eq_true_eq] at this
      exact this
    have := key ⟨c.toNat, hb⟩ n
    simp only [ofNat_toNat] at this
    exact this h
  · intro h
    have key : ∀ p ∈ [('0', 0), ('1', 1), ('2', 2), ('3', 3), ('4', 4), ('5', 5), ('6', 6),
              ('7', 7), ('8', 8), ('9', 9),
              ('a', 10), ('b', 11), ('c', 12), ('d', 13), ('e', 14), ('f', 15),
              ('A', 10), ('B', 11), ('C', 12), ('D', 13), ('E', 14), ('F', 15)], hexVal p.1 = some p.2 := by decide
    exact key (c, n) h

theorem hex4_some {a b c d : Char} {u : Nat} (h : hex4 a b c d = some u) :
    ∃ w x y z, Hex a w ∧ Hex b x ∧ Hex c y ∧ Hex d z ∧ u = w * 0x1000 + x * 0x100 + y * 0x10 + z := by
  unfold hex4 at h
  split at h
  · next h1 h2 h3 h4 =>
    cases h
    exact ⟨_, _, _, _, (hex_iff _ _).1 h1, (hex_iff _ _).1 h2, (hex_iff _ _).1 h3, (hex_iff _ _).1 h4, rfl⟩
  · exact absurd h (by simp)

theorem escape_iff (c : Char) (u : Nat) : shortEscape c = some u ↔ ∃ d, Escape c d ∧ u = d.toNat := by
  constructor
  · intro h
    unfold shortEscape at h
    repeat' split at h
    all_goals first
      | (cases h; subst_vars; first
          | exact ⟨'"', by simp [Escape], rfl⟩
          | exact ⟨'\\', by simp [Escape], rfl⟩
          | exact ⟨'/', by simp [Escape], rfl⟩
          | exact ⟨'\x08', by simp [Escape], rfl⟩
          | exact ⟨'\x0c', by simp [Escape], rfl⟩
          | exact ⟨'\n', by simp [Escape], rfl⟩
          | exact ⟨'\r', by simp [Escape], rfl⟩
          | exact ⟨'\t', by simp [Escape], rfl⟩)
      | exact absurd h (by simp)
  · rintro ⟨d, h, rfl⟩
    have key : ∀ p ∈ [('"', '"'), ('\\', '\\'), ('/', '/'), ('b', '\x08'), ('f', '\x0c'), ('n', '\n'), ('r', '\r'),
        ('t', '\t')], shortEscape p.1 = some p.2.toNat := by decide
    exact key (c, d) h

theorem strBody_sound : ∀ (s : Str) (us : List Nat) (r : Str), strBody s = some (us, r) →
    ∃ body, s = body ++ '"' :: r ∧ Chars body us := by
  intro s
  induction s using strBody.induct with
  | case1 => intro us r h; simp [strBody] at h
  | case2 r' =>
    intro us r h
    simp only [strBody] at h
    cases h
    exact ⟨[], rfl, .nil⟩
  | case3 a b c d s u hu ih =>
    intro us r h
    simp only [strBody, hu] at h
    cases hs : strBody s with
    | none => rw [hs] at h; exact absurd h (by simp)
    | some p =>
      rw [hs] at h
      cases h
      obtain ⟨body, e, hb⟩ := ih p.1 p.2 hs
      obtain ⟨w, x, y, z, h1, h2, h3, h4, rfl⟩ := hex4_some hu
      exact ⟨_, by rw [e]; rfl, .hex a b c d w x y z body p.1 h1 h2 h3 h4 hb⟩
  | case4 a b c d s hu =>
    intro us r h
    simp [strBody, hu] at h
  | case5 c s hn u hu ih =>
    intro us r h
    rw [strBody] at h
    · simp only [hu] at h
      cases hs : strBody s with
      | none => rw [hs] at h; exact absurd h (by simp)
      | some p =>
        rw [hs] at h
        cases h
        obtain ⟨body, e, hb⟩ := ih p.1 p.2 hs
        obtain ⟨d, hd, rfl⟩ := (escape_iff c u).1 hu
        exact ⟨_, by rw [e]; rfl, .escaped c d body p.1 hd hb⟩
    · exact hn
  | case6 c s hn hu =>
    intro us r h
    rw [strBody] at h
    · simp [hu] at h
    · exact hn
  | case7 c s h1 h2 h3 hc =>
    intro us r h
    rw [strBody] at h
    · rw [if_pos hc] at h; exact absurd h (by simp)
    · exact h1
    · exact h2
    · exact h3
  | case8 c s h1 h2 h3 hc ih =>
    intro us r h
    rw [strBody] at h
    · rw [if_neg hc] at h
      cases hs : strBody s with
      | none => rw [hs] at h; exact absurd h (by simp)
      | some p =>
        rw [hs] at h
        cases h
        obtain ⟨body, e, hb⟩ := ih p.1 p.2 hs
        refine ⟨c :: body, by rw [e]; rfl, .unescaped c _ body p.1 ?_ h1 ?_ ((utf16_char c _).2 rfl) hb⟩
        · exact Nat.le_of_not_lt (fun h => hc (Or.inl h))
        · exact fun h => hc (Or.inr h)
    · exact h1
    · exact h2
    · exact h3

theorem strBody_complete {body : Str} {us : List Nat} (h : Chars body us) (r : Str) :
    strBody (body ++ '"' :: r) = some (us, r) := by
  induction h with
  | nil => simp [strBody]
  | unescaped c us t vs h1 h2 h3 h4 _ ih =>
    rw [List.cons_append, strBody_char h1 h2 h3, ih, (utf16_char c us).1 h4]
    rfl
  | escaped c d t vs h _ ih =>
    have hs := (escape_iff c d.toNat).2 ⟨d, h, rfl⟩
    rw [List.cons_append, List.cons_append, strBody]
    · simp only [hs, ih]
      rfl
    · intro a b c' d' r' e _
      subst e
      exact absurd h (by unfold Escape; simp)
  | hex a b c d w x y z t vs h1 h2 h3 h4 _ ih =>
    have e : hex4 a b c d = some (w * 0x1000 + x * 0x100 + y * 0x10 + z) := by
      unfold hex4
      rw [(hex_iff _ _).2 h1, (hex_iff _ _).2 h2, (hex_iff _ _).2 h3, (hex_iff _ _).2 h4]
    simp only [List.cons_append, strBody, e, ih, Option.map_some]

theorem readStr_sound {s t r : Str} (h : readStr s = some (t, r)) : ∃ b, '"' :: s = b ++ r ∧ IsString b t := by
  unfold readStr at h
  cases hs : strBody s with
  | none => rw [hs] at h; exact absurd h (by simp)
  | some p =>
    obtain ⟨us, r'⟩ := p
    rw [hs] at h
    simp only at h
    cases hd : decode16 us with
    | none => rw [hd] at h; exact absurd h (by simp)
    | some x =>
      rw [hd] at h
      cases h
      obtain ⟨body, e, hb⟩ := strBody_sound s us r hs
      exact ⟨['"'] ++ body ++ ['"'], by rw [e]; simp, body, us, rfl, hb, (units_iff _ _).2 ((decode16_iff _ _).1 hd)⟩

theorem readStr_complete {b t : Str} (h : IsString b t) : ∃ b', b = '"' :: b' ∧ ∀ r, readStr (b' ++ r) = some (t, r) := by
  obtain ⟨body, us, rfl, hb, hu⟩ := h
  refine ⟨body ++ ['"'], by simp, ?_⟩
  intro r
  unfold readStr
  rw [List.append_assoc, List.singleton_append, strBody_complete hb r]
  simp only
  rw [(decode16_iff us t).2 ((units_iff _ _).1 hu)]
  rfl

/-! ## Numbers -/

theorem digit_char {n : Nat} (h : n < 10) : isDigit (Char.ofNat (48 + n)) = true := by
  unfold isDigit
  rw [digit_toNat h]
  simp
  omega

theorem digits_iff (w : Str) (n : Nat) : Digits w n ↔ w ≠ [] ∧ (∀ c ∈ w, isDigit c = true) ∧ n = digitsVal w := by
  constructor
  · intro h
    induction h with
    | one n h =>
      refine ⟨by simp, ?_, ?_⟩
      · intro c hc; rw [List.mem_singleton.1 hc]; exact digit_char h
      · simp [digitsVal, digit_toNat h]
    | more w m n _ h ih =>
      refine ⟨by simp, ?_, ?_⟩
      · intro c hc
        rcases List.mem_append.1 hc with hc | hc
        · exact ih.2.1 c hc
        · rw [List.mem_singleton.1 hc]; exact digit_char h
      · rw [digitsVal_snoc, digit_toNat h, ← ih.2.2]
        omega
  · rintro ⟨hne, hd, rfl⟩
    have last : ∀ c, isDigit c = true → ∃ n, n < 10 ∧ c = Char.ofNat (48 + n) ∧ c.toNat - 48 = n := by
      intro c hc
      simp only [isDigit, Bool.and_eq_true, decide_eq_true_eq] at hc
      refine ⟨c.toNat - 48, by omega, ?_, rfl⟩
      have : 48 + (c.toNat - 48) = c.toNat := by omega
      rw [this, ofNat_toNat]
    have key : ∀ (k : Nat) (w : Str), w.length = k → w ≠ [] → (∀ c ∈ w, isDigit c = true) → Digits w (digitsVal w) := by
      intro k
      induction k with
      | zero => intro w hl hne _; exact absurd (List.eq_nil_of_length_eq_zero hl) hne
      | succ k ih =>
        intro w hl hne hd
        have e := List.dropLast_concat_getLast hne
        obtain ⟨n, hn, hc, hv⟩ := last (w.getLast hne) (hd _ (List.getLast_mem hne))
        by_cases h0 : w.dropLast = []
        · rw [h0, List.nil_append, hc] at e
          rw [← e]
          have : digitsVal [Char.ofNat (48 + n)] = n := by simp [digitsVal, digit_toNat hn]
          rw [this]
          exact .one n hn
        · have hlen : w.dropLast.length = k := by simp [hl]
          have := ih w.dropLast hlen h0 (fun c hc => hd c ((List.dropLast_sublist w).subset hc))
          have h' := Digits.more w.dropLast _ n this hn
          rw [← hc, e] at h'
          have e2 : digitsVal w = 10 * digitsVal w.dropLast + n := by
            rw [← hv, ← digitsVal_snoc, e]
          rw [e2]
          exact h'
    exact key _ w rfl hne hd

theorem takeWhile_span {p : Char → Bool} : ∀ (s : Str), s = s.takeWhile p ++ s.dropWhile p ∧
    (∀ c ∈ s.takeWhile p, p c = true) ∧ (∀ c, (s.dropWhile p).head? = some c → p c = false)
  | [] => ⟨rfl, by simp, by simp⟩
  | c :: s => by
    obtain ⟨h1, h2, h3⟩ := takeWhile_span (p := p) s
    rw [List.takeWhile_cons, List.dropWhile_cons]
    split
    · next hc =>
      refine ⟨by rw [List.cons_append, ← h1], ?_, h3⟩
      intro x hx
      rcases List.mem_cons.1 hx with rfl | hx
      · exact hc
      · exact h2 x hx
    · next hc =>
      refine ⟨rfl, by simp, ?_⟩
      intro x hx
      cases hx
      simpa using hc

theorem digits1_sound {s w r : Str} (h : digits1 s = some (w, r)) :
    s = w ++ r ∧ Digits w (digitsVal w) ∧ (∀ c, r.head? = some c → isDigit c = false) := by
  unfold digits1 at h
  obtain ⟨h1, h2, h3⟩ := takeWhile_span (p := isDigit) s
  split at h
  · exact absurd h (by simp)
  · next hn =>
    cases h
    exact ⟨h1, (digits_iff _ _).2 ⟨by simpa using hn, h2, rfl⟩, h3⟩

theorem digits1_complete {w r : Str} {n : Nat} (h : Digits w n) (hr : ∀ c, r.head? = some c → isDigit c = false) :
    digits1 (w ++ r) = some (w, r) ∧ n = digitsVal w := by
  obtain ⟨h1, h2, h3⟩ := (digits_iff w n).1 h
  refine ⟨?_, h3⟩
  unfold digits1
  rw [takeWhile_append_stop hr, dropWhile_append_stop hr, (takeWhile_all h2).1, (takeWhile_all h2).2, List.nil_append, if_neg]
  simpa using h1

theorem digits_pos {w : Str} {n : Nat} (h : Digits w n) (h0 : w.head? ≠ some '0') : 0 < n := by
  induction h with
  | one n hn =>
    cases n with
    | zero => exact absurd rfl h0
    | succ n => omega
  | more w m n hw hn ih =>
    have : w ≠ [] := ((digits_iff w m).1 hw).1
    have : 0 < m := ih (by cases w with
      | nil => exact absurd rfl this
      | cons c w => simpa using h0)
    omega

theorem intPart_zero {w : Str} {n : Nat} (h : IntPart w n) : n = 0 ↔ w = ['0'] := by
  constructor
  · rintro rfl
    rcases h.2 with h' | h'
    · exact h'
    · exact absurd (digits_pos h.1 h') (by omega)
  · rintro rfl
    exact ((digits_iff _ _).1 h.1).2.2

theorem readInt_sound {s w r : Str} (h : readInt s = some (w, r)) : s = w ++ r ∧ IntPart w (digitsVal w) := by
  unfold readInt at h
  cases hd : digits1 s with
  | none => rw [hd] at h; exact absurd h (by simp)
  | some p =>
    obtain ⟨w', r'⟩ := p
    rw [hd] at h
    simp only at h
    split at h
    · exact absurd h (by simp)
    · next hn =>
      cases h
      obtain ⟨h1, h2, _⟩ := digits1_sound hd
      refine ⟨h1, h2, ?_⟩
      by_cases h0 : w.head? = some '0'
      · left
        have hl : ¬ 1 < w.length := fun h => hn ⟨h0, h⟩
        match w, h0, hl with
        | [c], h0, _ => simp at h0; rw [h0]
        | _ :: _ :: _, _, hl => simp at hl
      · exact Or.inr h0

theorem readInt_complete {w r : Str} {n : Nat} (h : IntPart w n) (hr : ∀ c, r.head? = some c → isDigit c = false) :
    readInt (w ++ r) = some (w, r) ∧ n = digitsVal w := by
  obtain ⟨h1, h2⟩ := digits1_complete h.1 hr
  refine ⟨?_, h2⟩
  unfold readInt
  rw [h1]
  simp only
  rw [if_neg]
  rintro ⟨h3, h4⟩
  rcases h.2 with h' | h'
  · subst h'; simp at h4
  · exact h' h3

theorem readFrac_sound {s r : Str} {o : Option Str} (h : readFrac s = some (o, r)) :
    ∃ t, s = t ++ r ∧ FracPart t ((digitsVal (o.getD []) : Rat) / (10 : Rat) ^ (o.getD []).length) ∧ (t = [] ↔ o = none) := by
  by_cases hd : ∃ t, s = '.' :: t
  · obtain ⟨t, rfl⟩ := hd
    simp only [readFrac] at h
    cases ht : digits1 t with
    | none => rw [ht] at h; exact absurd h (by simp)
    | some p =>
      rw [ht] at h
      cases h
      obtain ⟨h1, h2, _⟩ := digits1_sound ht
      exact ⟨'.' :: p.1, by rw [h1]; rfl, .some _ _ h2, by simp⟩
  · rw [readFrac_other (fun r e => hd ⟨r, e⟩)] at h
    cases h
    refine ⟨[], rfl, ?_, by simp⟩
    have : ((digitsVal ((none : Option Str).getD []) : Rat) / (10 : Rat) ^ ((none : Option Str).getD []).length) = 0 := by
      decide +kernel
    rw [this]
    exact .none

theorem readFrac_complete {t : Str} {f : Rat} (h : FracPart t f) :
    ∃ o, (∀ r : Str, (∀ c, r.head? = some c → isDigit c = false ∧ c ≠ '.') → readFrac (t ++ r) = some (o, r)) ∧
      f = (digitsVal (o.getD []) : Rat) / (10 : Rat) ^ (o.getD []).length ∧ (t = [] ↔ o = none) := by
  cases h with
  | none =>
    refine ⟨none, ?_, by decide +kernel, by simp⟩
    intro r hr
    exact readFrac_other (fun r' e => (hr '.' (by rw [List.nil_append] at e; rw [e]; rfl)).2 rfl)
  | some w n h =>
    refine ⟨some w, ?_, ?_, by simp⟩
    · intro r hr
      rw [List.cons_append]
      simp only [readFrac]
      rw [(digits1_complete h (fun c hc => (hr c hc).1)).1]
      rfl
    · rw [(digits1_complete (r := []) h (by simp)).2]
      rfl

/-- The factor of an exponent. -/
def expFactor : Option (Bool × Str) → Rat
  | none => 1
  | some (true, w) => 1 / (10 : Rat) ^ digitsVal w
  | some (false, w) => (10 : Rat) ^ digitsVal w

theorem readExp_sound {s r : Str} {o : Option (Bool × Str)} (h : readExp s = some (o, r)) :
    ∃ t, s = t ++ r ∧ ExpPart t (expFactor o) ∧ (t = [] ↔ o = none) := by
  cases s with
  | nil =>
    cases h
    exact ⟨[], rfl, .none, by simp⟩
  | cons c s =>
    by_cases hc : c = 'e' ∨ c = 'E'
    · have hc' : c ∈ ['e', 'E'] := by simpa using hc
      rw [readExp_e hc] at h
      have key : ∀ (b : Bool) (t : Str), (digits1 t).map (fun p => (some (b, p.1), p.2)) = some (o, r) →
          ∃ w, t = w ++ r ∧ o = some (b, w) ∧ Digits w (digitsVal w) := by
        intro b t ht
        cases hd : digits1 t with
        | none => rw [hd] at ht; exact absurd ht (by simp)
        | some p =>
          rw [hd] at ht
          cases ht
          obtain ⟨h1, h2, _⟩ := digits1_sound hd
          exact ⟨p.1, h1, rfl, h2⟩
      unfold expTail at h
      split at h
      · obtain ⟨w, rfl, rfl, hw⟩ := key _ _ h
        exact ⟨c :: '-' :: w, rfl, .minus c w _ hc' hw, by simp⟩
      · obtain ⟨w, rfl, rfl, hw⟩ := key _ _ h
        exact ⟨c :: '+' :: w, rfl, .plus c w _ hc' hw, by simp⟩
      · obtain ⟨w, rfl, rfl, hw⟩ := key _ _ h
        exact ⟨c :: w, rfl, .plain c w _ hc' hw, by simp⟩
    · simp only [readExp] at h
      rw [if_neg hc] at h
      cases h
      exact ⟨[], rfl, .none, by simp⟩

theorem digits_head {w : Str} {n : Nat} (h : Digits w n) : ∃ c t, w = c :: t ∧ isDigit c = true := by
  obtain ⟨h1, h2, _⟩ := (digits_iff w n).1 h
  cases w with
  | nil => exact absurd rfl h1
  | cons c t => exact ⟨c, t, rfl, h2 c List.mem_cons_self⟩

theorem expTail_digit {c : Char} (h : isDigit c = true) (t : Str) :
    expTail (c :: t) = (digits1 (c :: t)).map (fun p => (some (false, p.1), p.2)) := by
  unfold expTail
  split
  · next e => injection e with e _; subst e; exact absurd h (by decide)
  · next e => injection e with e _; subst e; exact absurd h (by decide)
  · rfl

theorem readExp_complete {t : Str} {x : Rat} (h : ExpPart t x) :
    ∃ o, (∀ r : Str, Stop r → readExp (t ++ r) = some (o, r)) ∧ x = expFactor o ∧ (t = [] ↔ o = none) := by
  have em : ∀ e : Char, e ∈ ['e', 'E'] → e = 'e' ∨ e = 'E' := by intro e he; simpa using he
  cases h with
  | none => exact ⟨none, fun r hr => readExp_none (fun c hc => (hr c hc).2.2), rfl, by simp⟩
  | plain e w n he h =>
    refine ⟨some (false, w), ?_, ?_, by simp⟩
    · intro r hr
      rw [List.cons_append, readExp_e (em e he)]
      obtain ⟨c, t, rfl, hc⟩ := digits_head h
      rw [List.cons_append, expTail_digit hc, ← List.cons_append, (digits1_complete h hr.digit).1]
      rfl
    · rw [(digits1_complete (r := []) h (by simp)).2]; rfl
  | plus e w n he h =>
    refine ⟨some (false, w), ?_, ?_, by simp⟩
    · intro r hr
      rw [List.cons_append, List.cons_append, readExp_e (em e he)]
      simp only [expTail]
      rw [(digits1_complete h hr.digit).1]
      rfl
    · rw [(digits1_complete (r := []) h (by simp)).2]; rfl
  | minus e w n he h =>
    refine ⟨some (true, w), ?_, ?_, by simp⟩
    · intro r hr
      rw [List.cons_append, List.cons_append, readExp_e (em e he)]
      simp only [expTail]
      rw [(digits1_complete h hr.digit).1]
      rfl
    · rw [(digits1_complete (r := []) h (by simp)).2]; rfl

/-- The integer a numeral is, unless it has a fraction or an exponent or is `-0`. -/
def Numeral.asInt (n : Numeral) : Option Int :=
  if n.whole && !(n.neg && digitsVal n.int == 0) then some n.intVal else none

theorem value_eq (n : Numeral) : n.value = (if n.neg then -((digitsVal n.int : Rat) + (digitsVal (n.frac.getD []) : Rat) /
    (10 : Rat) ^ (n.frac.getD []).length) else ((digitsVal n.int : Rat) + (digitsVal (n.frac.getD []) : Rat) /
    (10 : Rat) ^ (n.frac.getD []).length)) * expFactor n.exp := by
  obtain ⟨neg, w, f, e⟩ := n
  match e with
  | none => rfl
  | some (true, _) => rfl
  | some (false, _) => rfl

theorem sign_cases {t : Str} {s : Int} (h : SignPart t s) : (t = [] ∧ s = 1) ∨ (t = ['-'] ∧ s = -1) := by
  cases h
  · exact Or.inl ⟨rfl, rfl⟩
  · exact Or.inr ⟨rfl, rfl⟩

theorem numeral_meaning (neg : Bool) (w : Str) (o : Option Str) (e : Option (Bool × Str)) (hw : IntPart w (digitsVal w))
    (frac exp : Str) (hf : frac = [] ↔ o = none) (he : exp = [] ↔ e = none) (q : Rat) (i : Option Int) :
    (q = ((if neg then -1 else 1 : Int) : Rat) * ((digitsVal w : Rat) + (digitsVal (o.getD []) : Rat) /
        (10 : Rat) ^ (o.getD []).length) * expFactor e ∧
      ((frac = [] ∧ exp = [] ∧ (if neg then ['-'] else []) ++ w ++ frac ++ exp ≠ ['-', '0'] ∧
          i = some ((if neg then -1 else 1) * (digitsVal w : Int))) ∨
        ((frac ≠ [] ∨ exp ≠ [] ∨ (if neg then ['-'] else []) ++ w ++ frac ++ exp = ['-', '0']) ∧ i = none))) ↔
    (q = (Numeral.mk neg w o e).value ∧ i = (Numeral.mk neg w o e).asInt) := by
  have hv : (Numeral.mk neg w o e).value = ((if neg then -1 else 1 : Int) : Rat) * ((digitsVal w : Rat) + (digitsVal (o.getD []) : Rat) /
        (10 : Rat) ^ (o.getD []).length) * expFactor e := by
    rw [value_eq]
    cases neg
    · simp
    · simp [Rat.neg_mul]
  rw [hv]
  apply and_congr Iff.rfl
  have hz := intPart_zero hw
  by_cases h1 : frac = []
  · by_cases h2 : exp = []
    · have o0 := hf.1 h1
      have e0 := he.1 h2
      subst h1 h2 o0 e0
      cases neg
      · have : w ≠ ['-', '0'] := by
          rintro rfl
          have := ((digits_iff _ _).1 hw.1).2.1 '-' (by simp)
          exact absurd this (by decide)
        simp [Numeral.asInt, Numeral.whole, Numeral.intVal, this]
      · by_cases h0 : w = ['0']
        · subst h0
          simp [Numeral.asInt, Numeral.whole, digitsVal]
        · have hn : digitsVal w ≠ 0 := fun h => h0 (hz.1 h)
          simp [Numeral.asInt, Numeral.whole, Numeral.intVal, hn, h0]
    · have : e ≠ none := fun h => h2 (he.2 h)
      cases e with
      | none => exact absurd rfl this
      | some _ => simp [Numeral.asInt, Numeral.whole, h2]
  · have : o ≠ none := fun h => h1 (hf.2 h)
    cases o with
    | none => exact absurd rfl this
    | some _ => simp [Numeral.asInt, Numeral.whole, h1]

theorem numeral_sound {s r : Str} {m : Numeral} (h : readNumeral s = some (m, r)) :
    ∃ t, s = t ++ r ∧ IsNumber t m.value m.asInt := by
  unfold readNumeral at h
  have hsign : s = (if (readSign s).1 then ['-'] else []) ++ (readSign s).2 := by
    unfold readSign
    split <;> rfl
  cases h1 : readInt (readSign s).2 with
  | none => rw [h1] at h; exact absurd h (by simp)
  | some p =>
    obtain ⟨w, r1⟩ := p
    rw [h1] at h
    simp only at h
    cases h2 : readFrac r1 with
    | none => rw [h2] at h; exact absurd h (by simp)
    | some p =>
      obtain ⟨f, r2⟩ := p
      rw [h2] at h
      simp only at h
      cases h3 : readExp r2 with
      | none => rw [h3] at h; exact absurd h (by simp)
      | some p =>
        obtain ⟨e, r3⟩ := p
        rw [h3] at h
        cases h
        obtain ⟨e1, i1⟩ := readInt_sound h1
        obtain ⟨frac, e2, i2, z2⟩ := readFrac_sound h2
        obtain ⟨exp, e3, i3, z3⟩ := readExp_sound h3
        have hm := (numeral_meaning (readSign s).1 w f e i1 frac exp z2 z3 _ _).2 ⟨rfl, rfl⟩
        refine ⟨(if (readSign s).1 then ['-'] else []) ++ w ++ frac ++ exp, ?_,
          _, (if (readSign s).1 then -1 else 1), w, digitsVal w, frac, _, exp, _, rfl, ?_, i1, i2, i3, hm⟩
        · rw [e1, e2, e3] at hsign
          simpa using hsign
        · cases (readSign s).1
          · exact .none
          · exact .minus

theorem numeral_complete {t : Str} {q : Rat} {i : Option Int} (h : IsNumber t q i) :
    ∃ m, (∀ rest, Stop rest → readNumeral (t ++ rest) = some (m, rest)) ∧ m.value = q ∧ m.asInt = i := by
  obtain ⟨sign, s, int, n, frac, f, exp, x, rfl, hs, hi, hf, hx, hq, hor⟩ := h
  -- what may follow each part
  have f1 : ∀ rest, Stop rest → ∀ c, (exp ++ rest).head? = some c → isDigit c = false ∧ c ≠ '.' := by
    intro rest hrest c hc
    cases hx with
    | none => exact ⟨(hrest c hc).1, (hrest c hc).2.1⟩
    | plain _ _ _ he => cases hc; simp at he; rcases he with rfl | rfl <;> decide
    | plus _ _ _ he => cases hc; simp at he; rcases he with rfl | rfl <;> decide
    | minus _ _ _ he => cases hc; simp at he; rcases he with rfl | rfl <;> decide
  have f2 : ∀ rest, Stop rest → ∀ c, (frac ++ (exp ++ rest)).head? = some c → isDigit c = false := by
    intro rest hrest c hc
    cases hf with
    | none => exact (f1 rest hrest c hc).1
    | some _ _ _ => cases hc; decide
  obtain ⟨o, o1, o2, o3⟩ := readFrac_complete hf
  obtain ⟨e, e1, e2, e3⟩ := readExp_complete hx
  have hn : n = digitsVal int := ((digits_iff _ _).1 hi.1).2.2
  subst hn
  obtain ⟨neg, hneg, hsv⟩ : ∃ neg : Bool, sign = (if neg then ['-'] else []) ∧ s = (if neg then -1 else 1) := by
    rcases sign_cases hs with ⟨rfl, rfl⟩ | ⟨rfl, rfl⟩
    · exact ⟨false, rfl, rfl⟩
    · exact ⟨true, rfl, rfl⟩
  subst hneg hsv o2 e2
  obtain ⟨hv, hi'⟩ := (numeral_meaning neg int o e hi frac exp o3 e3 q i).1 ⟨hq, hor⟩
  refine ⟨⟨neg, int, o, e⟩, ?_, hv.symm, hi'.symm⟩
  intro rest hrest
  have hsign : readSign ((if neg then ['-'] else []) ++ int ++ frac ++ exp ++ rest) = (neg, int ++ (frac ++ (exp ++ rest))) := by
    cases neg
    · obtain ⟨c, t, rfl, hc⟩ := digits_head hi.1
      simp only [Bool.false_eq_true, if_false, List.nil_append, List.append_assoc, List.cons_append]
      rw [readSign]
      intro r e
      injection e with e _
      subst e
      exact absurd hc (by decide)
    · simp [readSign]
  unfold readNumeral
  rw [hsign]
  simp only [(readInt_complete hi (f2 rest hrest)).1, o1 _ (f1 rest hrest), e1 _ hrest]

end Verif.Text
