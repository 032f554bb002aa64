import Verif.Text.Print
import Verif.Text.Parse

/-!
# Numbers survive being written and read
-/

namespace Verif.Text
open Verif

/-- What may follow a number: nothing that could be part of it. -/
def Stop (rest : Str) : Prop := ∀ c, rest.head? = some c → isDigit c = false ∧ c ≠ '.' ∧ c ≠ 'e' ∧ c ≠ 'E'

theorem Stop.nil : Stop [] := by intro c h; simp at h

theorem Stop.digit {rest : Str} (h : Stop rest) : ∀ c, rest.head? = some c → isDigit c = false :=
  fun c hc => (h c hc).1

theorem takeWhile_append_stop {p : Char → Bool} {rest : Str} (h : ∀ c, rest.head? = some c → p c = false) :
    ∀ s : Str, (s ++ rest).takeWhile p = s.takeWhile p
  | [] => by
    cases rest with
    | nil => rfl
    | cons c r => simp [h c rfl]
  | c :: s => by
    rw [List.cons_append, List.takeWhile_cons, List.takeWhile_cons, takeWhile_append_stop h s]

theorem dropWhile_append_stop {p : Char → Bool} {rest : Str} (h : ∀ c, rest.head? = some c → p c = false) :
    ∀ s : Str, (s ++ rest).dropWhile p = s.dropWhile p ++ rest
  | [] => by
    cases rest with
    | nil => rfl
    | cons c r => simp [h c rfl]
  | c :: s => by
    rw [List.cons_append, List.dropWhile_cons, List.dropWhile_cons, dropWhile_append_stop h s]
    split <;> rfl

theorem digits1_append {s w r rest : Str} (hr : Stop rest) (h : digits1 s = some (w, r)) :
    digits1 (s ++ rest) = some (w, r ++ rest) := by
  have hs := hr.digit
  unfold digits1 at h ⊢
  rw [takeWhile_append_stop hs, dropWhile_append_stop hs]
  split at h
  · exact absurd h (by simp)
  · next hn =>
    rw [if_neg hn]
    cases h
    rfl

theorem digits1_ne {s w r : Str} (h : digits1 s = some (w, r)) : s ≠ [] := by
  intro e; subst e; simp [digits1] at h

theorem readInt_append {s w r rest : Str} (hr : Stop rest) (h : readInt s = some (w, r)) :
    readInt (s ++ rest) = some (w, r ++ rest) := by
  unfold readInt at h ⊢
  cases hd : digits1 s with
  | none => rw [hd] at h; exact absurd h (by simp)
  | some p =>
    obtain ⟨w', r'⟩ := p
    rw [hd] at h
    rw [digits1_append hr hd]
    simp only at h ⊢
    split at h
    · exact absurd h (by simp)
    · next hn =>
      rw [if_neg hn]
      cases h
      rfl

theorem readSign_append {s rest : Str} (h : s ≠ []) :
    readSign (s ++ rest) = ((readSign s).1, (readSign s).2 ++ rest) := by
  cases s with
  | nil => exact absurd rfl h
  | cons c s =>
    by_cases hc : c = '-'
    · subst hc; rfl
    · have e1 : ∀ t : Str, readSign (c :: t) = (false, c :: t) := by
        intro t
        rw [readSign]
        intro r e
        injection e with e _
        exact hc e
      rw [List.cons_append, e1, e1]
      rfl

theorem readFrac_other {s : Str} (h : ∀ r, s ≠ '.' :: r) : readFrac s = some (none, s) := by
  rw [readFrac]
  exact fun r e => h r e

theorem readFrac_append {s r rest : Str} {f : Option Str} (hr : Stop rest) (h : readFrac s = some (f, r)) :
    readFrac (s ++ rest) = some (f, r ++ rest) := by
  by_cases hd : ∃ t, s = '.' :: t
  · obtain ⟨t, rfl⟩ := hd
    simp only [readFrac] at h
    rw [List.cons_append]
    simp only [readFrac]
    cases ht : digits1 t with
    | none => rw [ht] at h; exact absurd h (by simp)
    | some p =>
      obtain ⟨w, r'⟩ := p
      rw [ht] at h
      rw [digits1_append hr ht]
      cases h
      rfl
  · have hd' : ∀ r, s ≠ '.' :: r := fun r e => hd ⟨r, e⟩
    rw [readFrac_other hd'] at h
    cases h
    apply readFrac_other
    intro r e
    cases s with
    | nil =>
      rw [List.nil_append] at e
      exact (hr '.' (by rw [e]; rfl)).2.1 rfl
    | cons c s =>
      rw [List.cons_append] at e
      injection e with e _
      exact hd' s (by rw [e])

theorem readExp_none {s : Str} (h : ∀ c, s.head? = some c → c ≠ 'e' ∧ c ≠ 'E') : readExp s = some (none, s) := by
  cases s with
  | nil => rfl
  | cons c s =>
    have := h c rfl
    simp only [readExp]
    rw [if_neg (fun h => h.elim this.1 this.2)]

/-- The exponent after `e`. -/
def expTail (s : Str) : Option (Option (Bool × Str) × Str) :=
  match s with
  | '-' :: r => (digits1 r).map (fun p => (some (true, p.1), p.2))
  | '+' :: r => (digits1 r).map (fun p => (some (false, p.1), p.2))
  | r => (digits1 r).map (fun p => (some (false, p.1), p.2))

theorem readExp_e {c : Char} (h : c = 'e' ∨ c = 'E') (s : Str) : readExp (c :: s) = expTail s := by
  simp only [readExp]
  rw [if_pos h]
  rfl

theorem expTail_append {s r rest : Str} {e : Option (Bool × Str)} (hr : Stop rest)
    (h : expTail s = some (e, r)) : expTail (s ++ rest) = some (e, r ++ rest) := by
  have key : ∀ (b : Bool) (t : Str), (digits1 t).map (fun p => (some (b, p.1), p.2)) = some (e, r) →
      (digits1 (t ++ rest)).map (fun p => (some (b, p.1), p.2)) = some (e, r ++ rest) := by
    intro b t ht
    cases hd : digits1 t with
    | none => rw [hd] at ht; exact absurd ht (by simp)
    | some p =>
      obtain ⟨w, r'⟩ := p
      rw [hd] at ht
      rw [digits1_append hr hd]
      simp only [Option.map_some, Option.some.injEq, Prod.mk.injEq] at ht ⊢
      exact ⟨ht.1, by rw [ht.2]⟩
  cases s with
  | nil => exact absurd h (by simp [expTail, digits1])
  | cons c s =>
    by_cases h1 : c = '-'
    · subst h1
      exact key true s h
    · by_cases h2 : c = '+'
      · subst h2
        exact key false s h
      · have e1 : ∀ t : Str, expTail (c :: t) = (digits1 (c :: t)).map (fun p => (some (false, p.1), p.2)) := by
          intro t
          unfold expTail
          split
          · next e => injection e with e _; exact absurd e h1
          · next e => injection e with e _; exact absurd e h2
          · rfl
        rw [e1] at h
        rw [List.cons_append, e1]
        exact key false (c :: s) h

theorem readExp_append {s r rest : Str} {e : Option (Bool × Str)} (hr : Stop rest)
    (h : readExp s = some (e, r)) : readExp (s ++ rest) = some (e, r ++ rest) := by
  cases s with
  | nil =>
    have : readExp ([] : Str) = some (none, []) := rfl
    rw [this] at h
    cases h
    apply readExp_none
    intro c hc
    exact (hr c hc).2.2
  | cons c s =>
    by_cases hc : c = 'e' ∨ c = 'E'
    · rw [readExp_e hc] at h
      rw [List.cons_append, readExp_e hc]
      exact expTail_append hr h
    · have hn : ∀ t : Str, readExp (c :: t) = some (none, c :: t) := by
        intro t
        simp only [readExp]
        rw [if_neg hc]
      rw [hn] at h
      cases h
      rw [List.cons_append, hn]

/-- A number is read alike whatever follows. -/
theorem readNumeral_append {s r rest : Str} {n : Numeral} (hr : Stop rest) (h : readNumeral s = some (n, r)) :
    readNumeral (s ++ rest) = some (n, r ++ rest) := by
  unfold readNumeral at h ⊢
  have hs : s ≠ [] := by
    intro e; subst e
    exact absurd h (by simp [readSign, readInt, digits1])
  rw [readSign_append hs]
  cases h1 : readInt (readSign s).2 with
  | none => rw [h1] at h; exact absurd h (by simp)
  | some p =>
    obtain ⟨w, r1⟩ := p
    rw [h1] at h
    rw [readInt_append hr h1]
    simp only at h ⊢
    cases h2 : readFrac r1 with
    | none => rw [h2] at h; exact absurd h (by simp)
    | some p =>
      obtain ⟨f, r2⟩ := p
      rw [h2] at h
      rw [readFrac_append hr h2]
      simp only at h ⊢
      cases h3 : readExp r2 with
      | none => rw [h3] at h; exact absurd h (by simp)
      | some p =>
        obtain ⟨e, r3⟩ := p
        rw [h3] at h
        rw [readExp_append hr h3]
        cases h
        rfl

/-- A number begins with a digit or a minus sign. -/
theorem readNumeral_head {s r : Str} {n : Numeral} (h : readNumeral s = some (n, r)) :
    ∃ c t, s = c :: t ∧ (isDigit c = true ∨ c = '-') := by
  cases s with
  | nil => exact absurd h (by simp [readNumeral, readSign, readInt, digits1])
  | cons c t =>
    refine ⟨c, t, rfl, ?_⟩
    by_cases hc : c = '-'
    · exact Or.inr hc
    · left
      have e1 : readSign (c :: t) = (false, c :: t) := by
        rw [readSign]
        intro r e
        injection e with e _
        exact hc e
      unfold readNumeral at h
      rw [e1] at h
      cases hd : isDigit c with
      | true => rfl
      | false =>
        have : readInt (c :: t) = none := by
          simp [readInt, digits1, hd]
        rw [this] at h
        exact absurd h (by simp)

/-! ## Integers -/

theorem digit_toNat {n : Nat} (h : n < 10) : (Char.ofNat (48 + n)).toNat = 48 + n := toNat_ofNat (by omega)

theorem decimal_small {n : Nat} (h : n < 10) : decimal n = [Char.ofNat (48 + n)] := by
  rw [decimal, dif_pos h]

theorem decimal_big {n : Nat} (h : ¬ n < 10) : decimal n = decimal (n / 10) ++ [Char.ofNat (48 + n % 10)] := by
  rw [decimal, dif_neg h]

theorem decimal_digits (n : Nat) : ∀ c ∈ decimal n, isDigit c = true := by
  induction n using Nat.strongRecOn with
  | _ n ih =>
    have one : ∀ m, m < 10 → isDigit (Char.ofNat (48 + m)) = true := by
      intro m hm
      unfold isDigit
      rw [digit_toNat hm]
      simp
      omega
    by_cases h : n < 10
    · rw [decimal_small h]
      intro c hc
      rw [List.mem_singleton.1 hc]
      exact one n h
    · rw [decimal_big h]
      intro c hc
      rcases List.mem_append.1 hc with hc | hc
      · exact ih _ (by omega) c hc
      · rw [List.mem_singleton.1 hc]
        exact one _ (by omega)

theorem decimal_ne (n : Nat) : decimal n ≠ [] := by
  by_cases h : n < 10
  · rw [decimal_small h]; simp
  · rw [decimal_big h]; simp

theorem digitsVal_snoc (w : Str) (c : Char) : digitsVal (w ++ [c]) = 10 * digitsVal w + (c.toNat - 48) := by
  simp [digitsVal, List.foldl_append]

theorem digitsVal_decimal (n : Nat) : digitsVal (decimal n) = n := by
  induction n using Nat.strongRecOn with
  | _ n ih =>
    by_cases h : n < 10
    · rw [decimal_small h]
      simp [digitsVal, digit_toNat h]
    · rw [decimal_big h, digitsVal_snoc, ih _ (by omega), digit_toNat (by omega)]
      omega

theorem decimal_head {n : Nat} (h : 0 < n) : (decimal n).head? ≠ some '0' := by
  induction n using Nat.strongRecOn with
  | _ n ih =>
    by_cases h10 : n < 10
    · rw [decimal_small h10]
      intro e
      simp only [List.head?_cons, Option.some.injEq] at e
      have := digit_toNat h10
      rw [e] at this
      have h0 : ('0' : Char).toNat = 48 := rfl
      omega
    · rw [decimal_big h10]
      have hne := decimal_ne (n / 10)
      cases hd : decimal (n / 10) with
      | nil => exact absurd hd hne
      | cons c r =>
        have := ih (n / 10) (by omega) (by omega)
        rw [hd] at this
        simpa using this

theorem takeWhile_all {p : Char → Bool} : ∀ {s : Str}, (∀ c ∈ s, p c = true) → s.takeWhile p = s ∧ s.dropWhile p = []
  | [], _ => ⟨rfl, rfl⟩
  | c :: s, h => by
    have hc := h c List.mem_cons_self
    have ih := takeWhile_all (s := s) (fun x hx => h x (List.mem_cons_of_mem _ hx))
    rw [List.takeWhile_cons, List.dropWhile_cons, if_pos hc, if_pos hc, ih.1, ih.2]
    exact ⟨rfl, rfl⟩

theorem readInt_decimal (n : Nat) : readInt (decimal n) = some (decimal n, []) := by
  obtain ⟨h1, h2⟩ := takeWhile_all (p := isDigit) (decimal_digits n)
  have hd : digits1 (decimal n) = some (decimal n, []) := by
    unfold digits1
    rw [h1, h2]
    have := decimal_ne n
    cases he : decimal n with
    | nil => exact absurd he this
    | cons c r => rfl
  unfold readInt
  rw [hd]
  simp only
  rw [if_neg]
  intro h
  by_cases h0 : 0 < n
  · exact decimal_head h0 h.1
  · have : n = 0 := by omega
    subst this
    rw [decimal_small (by omega)] at h
    simp at h

theorem decimal_not_minus (n : Nat) : readSign (decimal n) = (false, decimal n) := by
  have hne := decimal_ne n
  cases hd : decimal n with
  | nil => exact absurd hd hne
  | cons c r =>
    have hc := decimal_digits n c (by rw [hd]; exact List.mem_cons_self)
    rw [readSign]
    intro r e
    injection e with e _
    rw [e] at hc
    exact absurd hc (by decide)

theorem readNumeral_printInt (i : Int) :
    ∃ n, readNumeral (printInt i) = some (n, []) ∧ n.whole = true ∧ n.intVal = i ∧
      (n.neg && digitsVal n.int == 0) = false := by
  unfold printInt
  split
  · next h =>
    refine ⟨⟨true, decimal (-i).toNat, none, none⟩, ?_, rfl, ?_, ?_⟩
    · unfold readNumeral
      have : readSign ('-' :: decimal (-i).toNat) = (true, decimal (-i).toNat) := rfl
      rw [this, readInt_decimal]
      rfl
    · simp only [Numeral.intVal, if_true, digitsVal_decimal]
      omega
    · simp only [digitsVal_decimal, Bool.true_and, beq_eq_false_iff_ne]
      omega
  · next h =>
    refine ⟨⟨false, decimal i.toNat, none, none⟩, ?_, rfl, ?_, rfl⟩
    · unfold readNumeral
      rw [decimal_not_minus, readInt_decimal]
      rfl
    · simp only [Numeral.intVal, digitsVal_decimal]
      rw [if_neg (by simp)]
      omega

end Verif.Text
