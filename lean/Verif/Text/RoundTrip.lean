import Verif.Text.Numbers
import Verif.Text.Strings
import Verif.Spec.Text

/-!
# Documents survive being written and read
-/

namespace Verif.Text
open Verif Verif.TextSpec

/-- The number is read as it was written. -/
def NumOk (R : Reader) (fmt : Rat → Str) (n : JNum) : Prop :=
  ∃ m, readNumeral (print fmt (.num n)) = some (m, []) ∧ R.num m = some n

theorem nesting_list_le {l : List Json} {d : Nat} : nesting.inList l ≤ d ↔ ∀ x ∈ l, nesting x ≤ d := by
  induction l with
  | nil => simp [nesting.inList]
  | cons j r ih => simp only [nesting.inList, Nat.max_le, ih, List.mem_cons, forall_eq_or_imp]

theorem nesting_members_le {l : List (Str × Json)} {d : Nat} :
    nesting.inMembers l ≤ d ↔ ∀ x ∈ l, nesting x.2 ≤ d := by
  induction l with
  | nil => simp [nesting.inMembers]
  | cons j r ih =>
    obtain ⟨k, j⟩ := j
    simp only [nesting.inMembers, Nat.max_le, ih, List.mem_cons, forall_eq_or_imp]

theorem allNums_list {p : JNum → Prop} {l : List Json} : AllNums.inList p l ↔ ∀ x ∈ l, AllNums p x := by
  induction l with
  | nil => simp [AllNums.inList]
  | cons j r ih => simp only [AllNums.inList, ih, List.mem_cons, forall_eq_or_imp]

theorem allNums_members {p : JNum → Prop} {l : List (Str × Json)} :
    AllNums.inMembers p l ↔ ∀ x ∈ l, AllNums p x.2 := by
  induction l with
  | nil => simp [AllNums.inMembers]
  | cons j r ih =>
    obtain ⟨k, j⟩ := j
    simp only [AllNums.inMembers, ih, List.mem_cons, forall_eq_or_imp]

theorem skip_cons {c : Char} (h : isWs c = false) (s : Str) : skip (c :: s) = c :: s := by
  simp [skip, h]

theorem digit_not_ws {c : Char} (h : isDigit c = true ∨ c = '-') : isWs c = false ∧ c ≠ ']' ∧ c ≠ 'n' ∧ c ≠ 't' ∧
    c ≠ 'f' ∧ c ≠ '"' ∧ c ≠ '[' ∧ c ≠ '{' := by
  rcases h with h | rfl
  · simp only [isDigit, Bool.and_eq_true, decide_eq_true_eq] at h
    have key : ∀ x : Char, (x.toNat < 48 ∨ 57 < x.toNat) → c ≠ x := by
      intro x hx e; subst e; omega
    refine ⟨?_, key _ (by decide), key _ (by decide), key _ (by decide), key _ (by decide), key _ (by decide),
      key _ (by decide), key _ (by decide)⟩
    simp only [isWs, Bool.or_eq_false_iff, decide_eq_false_iff_not]
    exact ⟨⟨⟨key _ (by decide), key _ (by decide)⟩, key _ (by decide)⟩, key _ (by decide)⟩
  · decide

/-- A written document begins with a character that is no white space and ends no array. -/
theorem print_head {R : Reader} {fmt : Rat → Str} {j : Json} (h : AllNums (NumOk R fmt) j) :
    ∃ c t, print fmt j = c :: t ∧ isWs c = false ∧ c ≠ ']' := by
  match j with
  | .null => exact ⟨'n', _, rfl, by decide, by decide⟩
  | .bool true => exact ⟨'t', _, rfl, by decide, by decide⟩
  | .bool false => exact ⟨'f', _, rfl, by decide, by decide⟩
  | .num n =>
    obtain ⟨m, hm, _⟩ := h
    obtain ⟨c, t, e, hc⟩ := readNumeral_head hm
    have := digit_not_ws hc
    exact ⟨c, t, e, this.1, this.2.1⟩
  | .str s => exact ⟨'"', s.flatMap escChar ++ ['"'], by simp [print, serdeQuote], by decide, by decide⟩
  | .arr l => exact ⟨'[', print.printList fmt l ++ [']'], by simp [print], by decide, by decide⟩
  | .obj l => exact ⟨'{', print.printMembers fmt l ++ ['}'], by simp [print], by decide, by decide⟩

theorem value_numeral {R : Reader} {d : Nat} {c : Char} {t : Str} (h : isDigit c = true ∨ c = '-') :
    value R (d + 1) (c :: t) = match readNumeral (c :: t) with
      | none => none
      | some (n, r) => (R.num n).map (fun x => (.num x, r)) := by
  obtain ⟨hw, _, h1, h2, h3, h4, h5, h6⟩ := digit_not_ws h
  simp only [value, skip_cons hw]
  split
  · next e => injection e with e _; exact absurd e h1
  · next e => injection e with e _; exact absurd e h2
  · next e => injection e with e _; exact absurd e h3
  · next e => injection e with e _; exact absurd e h4
  · next e => injection e with e _; exact absurd e h5
  · next e => injection e with e _; exact absurd e h6
  · rfl

theorem value_arr {R : Reader} {d : Nat} {r : Str} :
    value R (d + 1) ('[' :: r) = if d = 0 then none else match skip r with
      | ']' :: r => some (.arr [], r)
      | r => (elements (value R d) r.length r).map (fun p => (.arr p.1, p.2)) := by
  simp only [value, skip_cons (show isWs '[' = false by decide)]
  rfl

theorem value_obj {R : Reader} {d : Nat} {r : Str} :
    value R (d + 1) ('{' :: r) = if d = 0 then none else match skip r with
      | '}' :: r => some (.obj [], r)
      | r => (members (value R d) r.length r).map (fun p => (.obj p.1, p.2)) := by
  simp only [value, skip_cons (show isWs '{' = false by decide)]
  rfl

theorem value_str {R : Reader} {d : Nat} {r : Str} :
    value R (d + 1) ('"' :: r) = (readStr r).map (fun p => (.str p.1, p.2)) := by
  simp only [value, skip_cons (show isWs '"' = false by decide)]

/-- What is to be shown of a document. -/
def Reads (R : Reader) (fmt : Rat → Str) (d : Nat) (j : Json) : Prop :=
  ∀ rest, Stop rest → value R (d + 1) (print fmt j ++ rest) = if nesting j ≤ d then some (j, rest) else none

theorem stop_cons {c : Char} (h : isDigit c = false ∧ c ≠ '.' ∧ c ≠ 'e' ∧ c ≠ 'E') (r : Str) : Stop (c :: r) := by
  intro x hx
  cases hx
  exact h

theorem stop_comma (r : Str) : Stop (',' :: r) := stop_cons (by decide) r
theorem stop_rbrack (r : Str) : Stop (']' :: r) := stop_cons (by decide) r
theorem stop_rbrace (r : Str) : Stop ('}' :: r) := stop_cons (by decide) r

theorem elements_print {R : Reader} {fmt : Rat → Str} {d : Nat} :
    ∀ (l : List Json), l ≠ [] → (∀ x ∈ l, Reads R fmt d x) → ∀ n, l.length ≤ n → ∀ rest,
      elements (value R (d + 1)) n (print.printList fmt l ++ ']' :: rest) =
        if nesting.inList l ≤ d then some (l, rest) else none
  | [], h, _, _, _, _ => absurd rfl h
  | [j], _, h, n, hn, rest => by
    cases n with
    | zero => simp at hn
    | succ n =>
      simp only [elements, print.printList, h j List.mem_cons_self _ (stop_rbrack rest), nesting.inList,
        Nat.max_zero]
      by_cases hj : nesting j ≤ d
      · simp [hj, skip_cons (show isWs ']' = false by decide)]
      · simp [hj]
  | j :: j' :: r, _, h, n, hn, rest => by
    cases n with
    | zero => simp at hn
    | succ n =>
      have ih := elements_print (j' :: r) (by simp) (fun x hx => h x (List.mem_cons_of_mem _ hx)) n
        (by simp at hn ⊢; omega) rest
      have e : print.printList fmt (j :: j' :: r) ++ ']' :: rest =
          print fmt j ++ ',' :: (print.printList fmt (j' :: r) ++ ']' :: rest) := by
        rw [print.printList]; simp
      rw [e, elements, h j List.mem_cons_self _ (stop_comma _)]
      have e2 : nesting.inList (j :: j' :: r) = max (nesting j) (nesting.inList (j' :: r)) := rfl
      rw [e2]
      by_cases hj : nesting j ≤ d
      · simp only [hj, if_true, skip_cons (show isWs ',' = false by decide), ih, Nat.max_le, true_and]
        by_cases hr : nesting.inList (j' :: r) ≤ d
        · simp [hr]
        · simp [hr]
      · rw [if_neg hj, if_neg (by rw [Nat.max_le]; exact fun h => hj h.1)]

theorem members_print {R : Reader} {fmt : Rat → Str} {d : Nat} :
    ∀ (l : List (Str × Json)), l ≠ [] → (∀ x ∈ l, Reads R fmt d x.2) → ∀ n, l.length ≤ n → ∀ rest,
      members (value R (d + 1)) n (print.printMembers fmt l ++ '}' :: rest) =
        if nesting.inMembers l ≤ d then some (l, rest) else none
  | [], h, _, _, _, _ => absurd rfl h
  | [(k, j)], _, h, n, hn, rest => by
    cases n with
    | zero => simp at hn
    | succ n =>
      have e : print.printMembers fmt [(k, j)] ++ '}' :: rest =
          '"' :: (k.flatMap escChar ++ '"' :: (':' :: (print fmt j ++ '}' :: rest))) := by
        rw [print.printMembers, serdeQuote]; simp
      rw [e]
      simp only [members, skip_cons (show isWs '"' = false by decide), readStr_quote,
        skip_cons (show isWs ':' = false by decide), h _ List.mem_cons_self _ (stop_rbrace rest), nesting.inMembers,
        Nat.max_zero]
      by_cases hj : nesting j ≤ d
      · simp [hj, skip_cons (show isWs '}' = false by decide)]
      · simp [hj]
  | (k, j) :: p :: r, _, h, n, hn, rest => by
    cases n with
    | zero => simp at hn
    | succ n =>
      have ih := members_print (p :: r) (by simp) (fun x hx => h x (List.mem_cons_of_mem _ hx)) n
        (by simp at hn ⊢; omega) rest
      have e : print.printMembers fmt ((k, j) :: p :: r) ++ '}' :: rest =
          '"' :: (k.flatMap escChar ++ '"' ::
            (':' :: (print fmt j ++ ',' :: (print.printMembers fmt (p :: r) ++ '}' :: rest)))) := by
        rw [print.printMembers, serdeQuote]; simp
      have e2 : nesting.inMembers ((k, j) :: p :: r) = max (nesting j) (nesting.inMembers (p :: r)) := rfl
      rw [e, e2]
      simp only [members, skip_cons (show isWs '"' = false by decide), readStr_quote,
        skip_cons (show isWs ':' = false by decide), h _ List.mem_cons_self _ (stop_comma _)]
      by_cases hj : nesting j ≤ d
      · simp only [hj, if_true, skip_cons (show isWs ',' = false by decide), ih, Nat.max_le, true_and]
        by_cases hr : nesting.inMembers (p :: r) ≤ d
        · simp [hr]
        · simp [hr]
      · rw [if_neg hj, if_neg (by rw [Nat.max_le]; exact fun h => hj h.1)]

theorem printList_length {R : Reader} {fmt : Rat → Str} : ∀ (l : List Json), (∀ x ∈ l, AllNums (NumOk R fmt) x) →
    l.length ≤ (print.printList fmt l).length
  | [], _ => by simp
  | [j], h => by
    obtain ⟨c, t, e, _⟩ := print_head (h j List.mem_cons_self)
    rw [print.printList, e]; simp
  | j :: j' :: r, h => by
    have := printList_length (j' :: r) (fun x hx => h x (List.mem_cons_of_mem _ hx))
    rw [print.printList]
    simp at this ⊢
    omega

theorem printMembers_length {fmt : Rat → Str} : ∀ (l : List (Str × Json)),
    l.length ≤ (print.printMembers fmt l).length
  | [] => by simp
  | [(k, j)] => by rw [print.printMembers]; simp; omega
  | (k, j) :: p :: r => by
    have := printMembers_length (fmt := fmt) (p :: r)
    rw [print.printMembers]
    simp at this ⊢
    omega

theorem printList_head {R : Reader} {fmt : Rat → Str} {l : List Json} (hl : l ≠ [])
    (h : ∀ x ∈ l, AllNums (NumOk R fmt) x) :
    ∃ c t, print.printList fmt l = c :: t ∧ isWs c = false ∧ c ≠ ']' := by
  match l, hl with
  | [j], _ => exact print_head (h j List.mem_cons_self)
  | j :: j' :: r, _ =>
    obtain ⟨c, t, e, h1, h2⟩ := print_head (h j List.mem_cons_self)
    exact ⟨c, _, by rw [print.printList, e]; rfl, h1, h2⟩

theorem printMembers_head {fmt : Rat → Str} {l : List (Str × Json)} (hl : l ≠ []) :
    ∃ t, print.printMembers fmt l = '"' :: t := by
  match l, hl with
  | [(k, j)], _ => exact ⟨_, by rw [print.printMembers, serdeQuote]; rfl⟩
  | (k, j) :: p :: r, _ => exact ⟨_, by rw [print.printMembers, serdeQuote]; rfl⟩

/-- **A document that was written is read as it was**, whatever follows, unless it is nested too deeply; then it is
rejected. -/
theorem value_print {R : Reader} {fmt : Rat → Str} (j : Json) (h : AllNums (NumOk R fmt) j) (d : Nat) :
    Reads R fmt d j := by
  intro rest hr
  match j, h with
  | .null, _ =>
    have e : print fmt .null ++ rest = 'n' :: 'u' :: 'l' :: 'l' :: rest := by rw [print]; rfl
    rw [e]
    simp only [value, skip_cons (show isWs 'n' = false by decide), nesting, Nat.zero_le, if_true]
  | .bool true, _ =>
    have e : print fmt (.bool true) ++ rest = 't' :: 'r' :: 'u' :: 'e' :: rest := by rw [print]; rfl
    rw [e]
    simp only [value, skip_cons (show isWs 't' = false by decide), nesting, Nat.zero_le, if_true]
  | .bool false, _ =>
    have e : print fmt (.bool false) ++ rest = 'f' :: 'a' :: 'l' :: 's' :: 'e' :: rest := by rw [print]; rfl
    rw [e]
    simp only [value, skip_cons (show isWs 'f' = false by decide), nesting, Nat.zero_le, if_true]
  | .num n, h =>
    obtain ⟨m, hm, hR⟩ := h
    obtain ⟨c, t, e, hc⟩ := readNumeral_head hm
    have := readNumeral_append hr hm
    rw [e] at this ⊢
    rw [List.cons_append, value_numeral hc, ← List.cons_append, this]
    simp [hR, nesting]
  | .str s, _ =>
    have e : print fmt (.str s) ++ rest = '"' :: (s.flatMap escChar ++ '"' :: rest) := by
      simp [print, serdeQuote]
    rw [e, value_str, readStr_quote]
    simp [nesting]
  | .arr l, h =>
    have hl : ∀ x ∈ l, AllNums (NumOk R fmt) x := allNums_list.1 h
    have e : print fmt (.arr l) ++ rest = '[' :: (print.printList fmt l ++ ']' :: rest) := by
      simp [print]
    have en : nesting (.arr l) = 1 + nesting.inList l := by simp only [nesting]
    rw [e, value_arr, en]
    cases d with
    | zero => rw [if_pos rfl, if_neg (by omega)]
    | succ d =>
      rw [if_neg (by omega)]
      have hle : (1 + nesting.inList l ≤ d + 1) = (nesting.inList l ≤ d) := propext (by omega)
      simp only [hle]
      by_cases hne : l = []
      · subst hne
        simp [print.printList, skip_cons (show isWs ']' = false by decide), nesting.inList]
      · obtain ⟨c, t, ec, hw, hb⟩ := printList_head hne hl
        have ih : ∀ x ∈ l, Reads R fmt d x := fun x hx => value_print x (hl x hx) d
        have hlen := printList_length l hl
        have key := elements_print l hne ih ((print.printList fmt l ++ ']' :: rest).length)
          (by rw [List.length_append]; omega) rest
        have hs : skip (print.printList fmt l ++ ']' :: rest) = print.printList fmt l ++ ']' :: rest := by
          rw [ec, List.cons_append, skip_cons hw]
        rw [hs]
        split
        · next r' er =>
          rw [ec, List.cons_append] at er
          injection er with er _
          exact absurd er hb
        · rw [key]
          by_cases hj : nesting.inList l ≤ d
          · simp [hj]
          · simp [hj]
  | .obj l, h =>
    have hl : ∀ x ∈ l, AllNums (NumOk R fmt) x.2 := allNums_members.1 h
    have e : print fmt (.obj l) ++ rest = '{' :: (print.printMembers fmt l ++ '}' :: rest) := by
      simp [print]
    have en : nesting (.obj l) = 1 + nesting.inMembers l := by simp only [nesting]
    rw [e, value_obj, en]
    cases d with
    | zero => rw [if_pos rfl, if_neg (by omega)]
    | succ d =>
      rw [if_neg (by omega)]
      have hle : (1 + nesting.inMembers l ≤ d + 1) = (nesting.inMembers l ≤ d) := propext (by omega)
      simp only [hle]
      by_cases hne : l = []
      · subst hne
        simp [print.printMembers, skip_cons (show isWs '}' = false by decide), nesting.inMembers]
      · obtain ⟨t, ec⟩ := printMembers_head (fmt := fmt) hne
        have ih : ∀ x ∈ l, Reads R fmt d x.2 := fun x hx => value_print x.2 (hl x hx) d
        have hlen := printMembers_length (fmt := fmt) l
        have key := members_print l hne ih ((print.printMembers fmt l ++ '}' :: rest).length)
          (by rw [List.length_append]; omega) rest
        have hs : skip (print.printMembers fmt l ++ '}' :: rest) = print.printMembers fmt l ++ '}' :: rest := by
          rw [ec, List.cons_append, skip_cons (by decide)]
        rw [hs]
        split
        · next r' er =>
          rw [ec, List.cons_append] at er
          injection er with er _
          exact absurd er (by decide)
        · rw [key]
          by_cases hj : nesting.inMembers l ≤ d
          · simp [hj]
          · simp [hj]
termination_by sizeOf j
decreasing_by
  · have := List.sizeOf_lt_of_mem hx
    simp; omega
  · have := List.sizeOf_lt_of_mem hx
    have : sizeOf x.2 < sizeOf x := by obtain ⟨a, b⟩ := x; simp; omega
    simp; omega

theorem read_print {R : Reader} {fmt : Rat → Str} {j : Json} (h : AllNums (NumOk R fmt) j) (hR : 0 < R.limit) :
    R.read (print fmt j) = if nesting j < R.limit then some j else none := by
  obtain ⟨d, hd⟩ : ∃ d, R.limit = d + 1 := ⟨R.limit - 1, by omega⟩
  unfold Reader.read
  have := value_print j h d [] Stop.nil
  rw [List.append_nil] at this
  rw [hd, this]
  by_cases hj : nesting j ≤ d
  · rw [if_pos hj, if_pos (by omega)]; rfl
  · rw [if_neg hj, if_neg (by omega)]

end Verif.Text
