import Verif.Basic.Str

/-!
# Strings of JavaScript

A JavaScript string is a list of UTF-16 code units, any numbers below `2^16`. Models the strings that pass
through `src/rpc/clients/static/websocket_client.ts:57,104`.
-/

namespace Verif.Text
open Verif

/-- High (leading) surrogates. -/
def isHigh (u : Nat) : Bool := 0xD800 ≤ u && u < 0xDC00
/-- Low (trailing) surrogates. -/
def isLow (u : Nat) : Bool := 0xDC00 ≤ u && u < 0xE000

/-- The code units of a character. -/
def units16 (c : Char) : List Nat :=
  if c.toNat < 0x10000 then [c.toNat]
  else [0xD800 + (c.toNat - 0x10000) / 1024, 0xDC00 + (c.toNat - 0x10000) % 1024]

/-- The code units of a text. -/
def utf16 (s : Str) : List Nat := s.flatMap units16

/-- The character of a surrogate pair. -/
def pairChar (u v : Nat) : Char := Char.ofNat (0x10000 + (u - 0xD800) * 1024 + (v - 0xDC00))

/-- The text with these code units; `none` if there is none (a surrogate without its partner). -/
def decode16 : List Nat → Option Str
  | [] => some []
  | [u] => if isHigh u || isLow u || 0x10000 ≤ u then none else some [Char.ofNat u]
  | u :: v :: r =>
    if isHigh u then
      if isLow v then (decode16 r).map (pairChar u v :: ·) else none
    else if isLow u || 0x10000 ≤ u then none
    else (decode16 (v :: r)).map (Char.ofNat u :: ·)

theorem char_range (c : Char) : c.toNat < 0xD800 ∨ (0xDFFF < c.toNat ∧ c.toNat < 0x110000) := by
  have := c.valid
  simp only [UInt32.isValidChar, Nat.isValidChar] at this
  exact this

theorem ofNat_toNat (c : Char) : Char.ofNat c.toNat = c := Char.ofNat_toNat c

theorem toNat_ofNat {n : Nat} (h : n < 0xD800 ∨ (0xDFFF < n ∧ n < 0x110000)) : (Char.ofNat n).toNat = n := by
  have hv : n.isValidChar := h
  simp [Char.ofNat, hv, Char.toNat, Char.ofNatAux]

theorem utf16_cons (c : Char) (s : Str) : utf16 (c :: s) = units16 c ++ utf16 s := rfl

theorem decode16_utf16 (s : Str) : decode16 (utf16 s) = some s := by
  induction s with
  | nil => rfl
  | cons c s ih =>
    rw [utf16_cons]
    have hc := char_range c
    unfold units16
    split
    · next h =>
      have h1 : isHigh c.toNat = false := by simp [isHigh]; omega
      have h2 : isLow c.toNat = false := by simp [isLow]; omega
      have h3 : ¬ (0x10000 ≤ c.toNat) := by omega
      cases hs : utf16 s with
      | nil =>
        rw [hs] at ih
        have e : some ([] : Str) = some s := ih
        cases e
        simp [decode16, h1, h2, h3]
      | cons v r =>
        rw [hs] at ih
        simp [decode16, h1, h2, h3, ih]
    · next h =>
      have hm : (c.toNat - 0x10000) % 1024 < 1024 := Nat.mod_lt _ (by omega)
      have hd := Nat.div_add_mod (c.toNat - 0x10000) 1024
      have h1 : isHigh (0xD800 + (c.toNat - 0x10000) / 1024) = true := by simp [isHigh]; omega
      have h2 : isLow (0xDC00 + (c.toNat - 0x10000) % 1024) = true := by simp [isLow]; omega
      have e : pairChar (0xD800 + (c.toNat - 0x10000) / 1024) (0xDC00 + (c.toNat - 0x10000) % 1024) = c := by
        have hn : 0x10000 + (0xD800 + (c.toNat - 0x10000) / 1024 - 0xD800) * 1024 +
            (0xDC00 + (c.toNat - 0x10000) % 1024 - 0xDC00) = c.toNat := by omega
        unfold pairChar
        rw [hn, ofNat_toNat]
      simp [decode16, h1, h2, e, ih]

theorem utf16_decode16 : ∀ (us : List Nat) (s : Str), decode16 us = some s → us = utf16 s
  | [], s, h => by cases h; rfl
  | [u], s, h => by
    simp only [decode16] at h
    split at h
    · exact absurd h (by simp)
    · next hu =>
      cases h
      have : u < 0xD800 ∨ 0xDFFF < u ∧ u < 0x110000 := by simp [isHigh, isLow] at hu; omega
      have hl : u < 0x10000 := by simp at hu; omega
      simp [utf16, units16, toNat_ofNat this, hl]
  | u :: v :: r, s, h => by
    simp only [decode16] at h
    split at h
    · next hu =>
      split at h
      · next hv =>
        cases hr : decode16 r with
        | none => rw [hr] at h; exact absurd h (by simp)
        | some t =>
          rw [hr] at h
          cases h
          have ih := utf16_decode16 r t hr
          rw [utf16_cons, ← ih]
          simp only [isHigh, isLow, Bool.and_eq_true, decide_eq_true_eq] at hu hv
          have hn : (pairChar u v).toNat = 0x10000 + (u - 0xD800) * 1024 + (v - 0xDC00) :=
            toNat_ofNat (Or.inr (by omega))
          unfold units16
          rw [hn]
          rw [if_neg (by omega)]
          have e1 : 0xD800 + (0x10000 + (u - 0xD800) * 1024 + (v - 0xDC00) - 0x10000) / 1024 = u := by omega
          have e2 : 0xDC00 + (0x10000 + (u - 0xD800) * 1024 + (v - 0xDC00) - 0x10000) % 1024 = v := by omega
          rw [e1, e2]
          rfl
      · exact absurd h (by simp)
    · next hu =>
      split at h
      · exact absurd h (by simp)
      · next hl =>
        cases hr : decode16 (v :: r) with
        | none => rw [hr] at h; exact absurd h (by simp)
        | some t =>
          rw [hr] at h
          cases h
          have ih := utf16_decode16 (v :: r) t hr
          rw [utf16_cons, ← ih]
          simp only [isHigh, isLow, Bool.and_eq_true, Bool.or_eq_true, decide_eq_true_eq] at hu hl
          have : u < 0xD800 ∨ 0xDFFF < u ∧ u < 0x110000 := by omega
          have hl : u < 0x10000 := by omega
          simp [units16, toNat_ofNat this, hl]

/-- Decoding is the inverse of encoding, and fails exactly on what is not an encoding. -/
theorem decode16_iff (us : List Nat) (s : Str) : decode16 us = some s ↔ us = utf16 s :=
  ⟨utf16_decode16 us s, fun h => by rw [h, decode16_utf16]⟩

end Verif.Text
