import Verif.Text.Print
import Verif.Text.Parse

/-!
# Strings survive being written and read
-/

namespace Verif.Text
open Verif

theorem hexVal_hexDigit {n : Nat} (h : n < 16) : hexVal (hexDigit n) = some n := by
  have : ∀ n : Fin 16, hexVal (hexDigit n) = some n.1 := by decide +kernel
  exact this ⟨n, h⟩

theorem strBody_uEscape {u : Nat} (h : u < 0x10000) (r : Str) :
    strBody (uEscape u ++ r) = (strBody r).map (fun p => (u :: p.1, p.2)) := by
  have e : hex4 (hexDigit (u / 4096)) (hexDigit (u / 256 % 16)) (hexDigit (u / 16 % 16)) (hexDigit (u % 16)) =
      some u := by
    unfold hex4
    rw [hexVal_hexDigit (by omega), hexVal_hexDigit (by omega), hexVal_hexDigit (by omega),
      hexVal_hexDigit (by omega)]
    simp only [Option.some.injEq]
    omega
  simp only [uEscape, List.cons_append, List.nil_append, strBody, e]

theorem strBody_char {c : Char} (h : 32 ≤ c.toNat) (h1 : c ≠ '"') (h2 : c ≠ '\\') (r : Str) :
    strBody (c :: r) = (strBody r).map (fun p => (units16 c ++ p.1, p.2)) := by
  rw [strBody]
  · have : ¬ (c.toNat < 32 ∨ c = '\\') := by
      intro h'; rcases h' with h' | h'
      · omega
      · exact h2 h'
    rw [if_neg this]
  · exact fun e => h1 e
  · intro a b c' d r' e; exact absurd e h2
  · intro c' r' e; exact absurd e h2

theorem strBody_unit {u : Nat} (h : u < 0x10000) (r : Str) :
    strBody (quoteUnit u ++ r) = (strBody r).map (fun p => (u :: p.1, p.2)) := by
  unfold quoteUnit
  split
  · next e => subst e; simp [strBody, shortEscape]
  split
  · next e => subst e; simp [strBody, shortEscape]
  split
  · next e => subst e; simp [strBody, shortEscape]
  split
  · next e => subst e; simp [strBody, shortEscape]
  split
  · next e => subst e; simp [strBody, shortEscape]
  split
  · next e => subst e; simp [strBody, shortEscape]
  split
  · next e => subst e; simp [strBody, shortEscape]
  split
  · exact strBody_uEscape h r
  · next h34 h92 hs =>
    simp only [isHigh, isLow, Bool.or_eq_true, Bool.and_eq_true, decide_eq_true_eq] at hs
    have hn : (Char.ofNat u).toNat = u := toNat_ofNat (by omega)
    have h1 : Char.ofNat u ≠ '"' := by
      intro e; rw [e] at hn; exact h34 hn.symm
    have h2 : Char.ofNat u ≠ '\\' := by
      intro e; rw [e] at hn; exact h92 hn.symm
    rw [List.singleton_append, strBody_char (by rw [hn]; omega) h1 h2]
    have : units16 (Char.ofNat u) = [u] := by
      unfold units16; rw [hn, if_pos h]
    rw [this]; rfl

theorem pairChar_toNat {u v : Nat} (h : isHigh u = true) (h' : isLow v = true) :
    (pairChar u v).toNat = 0x10000 + (u - 0xD800) * 1024 + (v - 0xDC00) := by
  simp only [isHigh, isLow, Bool.and_eq_true, decide_eq_true_eq] at h h'
  exact toNat_ofNat (Or.inr (by omega))

theorem pairChar_units {u v : Nat} (h : isHigh u = true) (h' : isLow v = true) :
    units16 (pairChar u v) = [u, v] := by
  have hn := pairChar_toNat h h'
  simp only [isHigh, isLow, Bool.and_eq_true, decide_eq_true_eq] at h h'
  unfold units16
  rw [hn, if_neg (by omega)]
  have e1 : 0xD800 + (0x10000 + (u - 0xD800) * 1024 + (v - 0xDC00) - 0x10000) / 1024 = u := by omega
  have e2 : 0xDC00 + (0x10000 + (u - 0xD800) * 1024 + (v - 0xDC00) - 0x10000) % 1024 = v := by omega
  rw [e1, e2]

theorem strBody_pair {u v : Nat} (h : isHigh u = true) (h' : isLow v = true) (r : Str) :
    strBody (pairChar u v :: r) = (strBody r).map (fun p => (u :: v :: p.1, p.2)) := by
  have hn := pairChar_toNat h h'
  have h1 : pairChar u v ≠ '"' := by
    intro e
    rw [e] at hn
    have : ('"' : Char).toNat = 34 := rfl
    omega
  have h2 : pairChar u v ≠ '\\' := by
    intro e
    rw [e] at hn
    have : ('\\' : Char).toNat = 92 := rfl
    omega
  rw [strBody_char (by omega) h1 h2, pairChar_units h h']
  rfl

/-- Every string of code units is read as it was written. -/
theorem strBody_quoteUnits : ∀ (us : List Nat), (∀ u ∈ us, u < 0x10000) → ∀ r,
    strBody (quoteUnits us ++ '"' :: r) = some (us, r)
  | [], _, r => by simp [quoteUnits, strBody]
  | [u], h, r => by
    rw [quoteUnits, strBody_unit (h u List.mem_cons_self)]
    simp [strBody]
  | u :: v :: l, h, r => by
    rw [quoteUnits]
    split
    · next hp =>
      rw [Bool.and_eq_true] at hp
      rw [List.cons_append, strBody_pair hp.1 hp.2,
        strBody_quoteUnits l (fun x hx => h x (List.mem_cons_of_mem _ (List.mem_cons_of_mem _ hx))) r]
      rfl
    · rw [List.append_assoc, strBody_unit (h u List.mem_cons_self),
        strBody_quoteUnits (v :: l) (fun x hx => h x (List.mem_cons_of_mem _ hx)) r]
      rfl

/-- What serde_json makes of a string JavaScript has written: the text, if it is one. -/
theorem readStr_quoteUnits {us : List Nat} (h : ∀ u ∈ us, u < 0x10000) (r : Str) :
    readStr (quoteUnits us ++ '"' :: r) = (decode16 us).map (fun x => (x, r)) := by
  unfold readStr
  rw [strBody_quoteUnits us h r]

theorem units16_lt (c : Char) : ∀ u ∈ units16 c, u < 0x10000 := by
  have := char_range c
  unfold units16
  split
  · intro u hu; simp only [List.mem_singleton] at hu; omega
  · intro u hu
    simp only [List.mem_cons, List.not_mem_nil, or_false] at hu
    omega

theorem utf16_lt (s : Str) : ∀ u ∈ utf16 s, u < 0x10000 := by
  intro u hu
  obtain ⟨c, _, h⟩ := List.mem_flatMap.1 hu
  exact units16_lt c u h

theorem quoteUnits_cons {u : Nat} (h : isHigh u = false) (r : List Nat) :
    quoteUnits (u :: r) = quoteUnit u ++ quoteUnits r := by
  cases r with
  | nil => simp [quoteUnits]
  | cons v r => rw [quoteUnits, h]; rfl

/-- serde_json and JavaScript write texts alike. -/
theorem quoteUnits_utf16 (s : Str) : quoteUnits (utf16 s) = s.flatMap escChar := by
  induction s with
  | nil => rfl
  | cons c s ih =>
    rw [utf16_cons, List.flatMap_cons, ← ih]
    have hc := char_range c
    unfold units16
    split
    · next hl =>
      have h1 : isHigh c.toNat = false := by simp [isHigh]; omega
      have h2 : isLow c.toNat = false := by simp [isLow]; omega
      rw [List.singleton_append, quoteUnits_cons h1]
      congr 1
      unfold quoteUnit escChar
      have e34 : c.toNat = 34 ↔ c = '"' := ⟨fun h => by rw [← ofNat_toNat c, h], fun h => by rw [h]; rfl⟩
      have e92 : c.toNat = 92 ↔ c = '\\' := ⟨fun h => by rw [← ofNat_toNat c, h], fun h => by rw [h]; rfl⟩
      simp only [e34, e92, h1, h2, Bool.or_false, decide_eq_true_eq, ofNat_toNat]
      by_cases h32 : c.toNat < 32
      · have : uEscape c.toNat = ['\\', 'u', '0', '0', hexDigit (c.toNat / 16), hexDigit (c.toNat % 16)] := by
          unfold uEscape
          have a1 : c.toNat / 4096 = 0 := by omega
          have a2 : c.toNat / 256 % 16 = 0 := by omega
          have a3 : c.toNat / 16 % 16 = c.toNat / 16 := by omega
          rw [a1, a2, a3]; rfl
        simp only [h32, if_true, this]
      · simp only [h32, if_false]
    · next hl =>
      have hm : (c.toNat - 0x10000) % 1024 < 1024 := Nat.mod_lt _ (by omega)
      have h1 : isHigh (0xD800 + (c.toNat - 0x10000) / 1024) = true := by simp [isHigh]; omega
      have h2 : isLow (0xDC00 + (c.toNat - 0x10000) % 1024) = true := by simp [isLow]; omega
      have e : pairChar (0xD800 + (c.toNat - 0x10000) / 1024) (0xDC00 + (c.toNat - 0x10000) % 1024) = c := by
        have hn : 0x10000 + (0xD800 + (c.toNat - 0x10000) / 1024 - 0xD800) * 1024 +
            (0xDC00 + (c.toNat - 0x10000) % 1024 - 0xDC00) = c.toNat := by omega
        unfold pairChar
        rw [hn, ofNat_toNat]
      rw [List.cons_append, List.singleton_append, quoteUnits, h1, h2, e]
      have : escChar c = [c] := by
        unfold escChar
        have n1 : c ≠ '"' := by
          intro e
          rw [e] at hl
          exact hl (by decide)
        have n2 : c ≠ '\\' := by
          intro e
          rw [e] at hl
          exact hl (by decide)
        rw [if_neg (by omega), if_neg (by omega), if_neg (by omega), if_neg (by omega), if_neg (by omega),
          if_neg n1, if_neg n2, if_neg (by omega)]
      rw [this]
      rfl

theorem serdeQuote_eq (s : Str) : serdeQuote s = jsQuote (utf16 s) := by
  unfold serdeQuote jsQuote
  rw [quoteUnits_utf16]

/-- Every text is read as it was written. -/
theorem readStr_quote (s r : Str) : readStr (s.flatMap escChar ++ '"' :: r) = some (s, r) := by
  rw [← quoteUnits_utf16, readStr_quoteUnits (utf16_lt s), decode16_utf16]
  rfl

end Verif.Text
