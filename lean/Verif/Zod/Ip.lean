import Verif.Basic.Str

/-!
# zod's regular expressions for IP addresses

zod 3.20.6 (`examples/axum/web/package-lock.json:931-933`), `src/types.ts`, `ipv4Regex` and `ipv6Regex`. Regular
expressions without `*` and `+` are enough.
-/

namespace Verif.Zod
open Verif

/-- Regular expressions without unbounded repetition. -/
inductive Rx where
  | eps
  | cls (l : List Char)
  | seq (a b : Rx)
  | alt (a b : Rx)

namespace Rx

/-- What may be left of the text after a match at its beginning. -/
def rest : Rx → Str → List Str
  | eps, s => [s]
  | cls _, [] => []
  | cls l, c :: s => if c ∈ l then [s] else []
  | seq a b, s => (a.rest s).flatMap b.rest
  | alt a b, s => a.rest s ++ b.rest s

/-- `/^r$/.test(s)` -/
def test (r : Rx) (s : Str) : Bool := (r.rest s).any List.isEmpty

/-- `r{n}` -/
def times (r : Rx) : Nat → Rx
  | 0 => eps
  | n + 1 => seq r (times r n)

/-- `r{0,n}` -/
def upto (r : Rx) : Nat → Rx
  | 0 => eps
  | n + 1 => alt eps (seq r (upto r n))

/-- The texts an expression stands for. -/
inductive Lang : Rx → Str → Prop where
  | eps : Lang eps []
  | cls (l : List Char) (c : Char) : c ∈ l → Lang (cls l) [c]
  | seq (a b : Rx) (s t : Str) : Lang a s → Lang b t → Lang (seq a b) (s ++ t)
  | left (a b : Rx) (s : Str) : Lang a s → Lang (alt a b) s
  | right (a b : Rx) (s : Str) : Lang b s → Lang (alt a b) s

theorem mem_rest (r : Rx) (s t : Str) : t ∈ r.rest s ↔ ∃ u, s = u ++ t ∧ Lang r u := by
  induction r generalizing s t with
  | eps =>
    constructor
    · intro h
      simp only [rest, List.mem_singleton] at h
      exact ⟨[], by simp [h], .eps⟩
    · rintro ⟨u, rfl, h⟩
      cases h
      simp [rest]
  | cls l =>
    constructor
    · intro h
      cases s with
      | nil => simp [rest] at h
      | cons c s =>
        simp only [rest] at h
        split at h
        · rename_i hc
          simp only [List.mem_singleton] at h
          exact ⟨[c], by simp [h], .cls l c hc⟩
        · simp at h
    · rintro ⟨u, rfl, h⟩
      cases h with
      | cls _ c hc => simp [rest, hc]
  | seq a b iha ihb =>
    constructor
    · intro h
      simp only [rest, List.mem_flatMap] at h
      obtain ⟨m, hm, ht⟩ := h
      obtain ⟨u, rfl, hu⟩ := (iha _ _).1 hm
      obtain ⟨w, rfl, hw⟩ := (ihb _ _).1 ht
      exact ⟨u ++ w, by simp, .seq a b u w hu hw⟩
    · rintro ⟨u, rfl, h⟩
      cases h with
      | seq _ _ x y hx hy =>
        simp only [rest, List.mem_flatMap]
        exact ⟨y ++ t, (iha _ _).2 ⟨x, by simp, hx⟩, (ihb _ _).2 ⟨y, rfl, hy⟩⟩
  | alt a b iha ihb =>
    simp only [rest, List.mem_append, iha, ihb]
    constructor
    · rintro (⟨u, e, h⟩ | ⟨u, e, h⟩)
      · exact ⟨u, e, .left _ _ _ h⟩
      · exact ⟨u, e, .right _ _ _ h⟩
    · rintro ⟨u, e, h⟩
      cases h with
      | left _ _ _ h => exact .inl ⟨u, e, h⟩
      | right _ _ _ h => exact .inr ⟨u, e, h⟩

theorem test_iff (r : Rx) (s : Str) : r.test s = true ↔ Lang r s := by
  unfold test
  rw [List.any_eq_true]
  constructor
  · rintro ⟨t, ht, he⟩
    cases t with
    | nil =>
      obtain ⟨u, e, hu⟩ := (mem_rest r s []).1 ht
      rw [List.append_nil] at e
      exact e ▸ hu
    | cons _ _ => cases he
  · intro h
    exact ⟨[], (mem_rest r s []).2 ⟨s, by simp, h⟩, rfl⟩

/-- All texts of an expression. -/
def words : Rx → List Str
  | eps => [[]]
  | cls l => l.map (fun c => [c])
  | seq a b => a.words.flatMap (fun x => b.words.map (fun y => x ++ y))
  | alt a b => a.words ++ b.words

theorem mem_words (r : Rx) (s : Str) : s ∈ r.words ↔ Lang r s := by
  induction r generalizing s with
  | eps =>
    constructor
    · intro h
      simp only [words, List.mem_singleton] at h
      exact h ▸ .eps
    · intro h
      cases h
      simp [words]
  | cls l =>
    constructor
    · intro h
      simp only [words, List.mem_map] at h
      obtain ⟨c, hc, rfl⟩ := h
      exact .cls l c hc
    · intro h
      cases h with
      | cls _ c hc => exact List.mem_map.2 ⟨c, hc, rfl⟩
  | seq a b iha ihb =>
    constructor
    · intro h
      simp only [words, List.mem_flatMap, List.mem_map] at h
      obtain ⟨x, hx, y, hy, rfl⟩ := h
      exact .seq a b x y ((iha _).1 hx) ((ihb _).1 hy)
    · intro h
      cases h with
      | seq _ _ x y hx hy =>
        simp only [words, List.mem_flatMap, List.mem_map]
        exact ⟨x, (iha _).2 hx, y, (ihb _).2 hy, rfl⟩
  | alt a b iha ihb =>
    simp only [words, List.mem_append, iha, ihb]
    constructor
    · rintro (h | h)
      · exact .left _ _ _ h
      · exact .right _ _ _ h
    · intro h
      cases h with
      | left _ _ _ h => exact .inl h
      | right _ _ _ h => exact .inr h

end Rx

open Rx

/-- `[0-9]` -/
def digit : Rx := cls ['0', '1', '2', '3', '4', '5', '6', '7', '8', '9']

/-- `[a-f0-9]` -/
def hexDigit : Rx := cls ['a', 'b', 'c', 'd', 'e', 'f', '0', '1', '2', '3', '4', '5', '6', '7', '8', '9']

/-- `(25[0-5])|(2[0-4][0-9])|(1[0-9]{2})|([0-9]{1,2})` -/
def octet : Rx :=
  alt (seq (cls ['2']) (seq (cls ['5']) (cls ['0', '1', '2', '3', '4', '5'])))
    (alt (seq (cls ['2']) (seq (cls ['0', '1', '2', '3', '4']) digit))
      (alt (seq (cls ['1']) (times digit 2)) (seq digit (upto digit 1))))

/-- `/^(((25[0-5])|(2[0-4][0-9])|(1[0-9]{2})|([0-9]{1,2}))\.){3}((25[0-5])|(2[0-4][0-9])|(1[0-9]{2})|([0-9]{1,2}))$/` -/
def ipv4Regex : Rx := seq (times (seq octet (cls ['.'])) 3) octet

/-- `[a-f0-9]{1,4}` -/
def hexGroup : Rx := seq hexDigit (upto hexDigit 3)

/-- `[a-f0-9]{1,4}:` -/
def hexPart : Rx := seq hexGroup (cls [':'])

/-- `([a-f0-9]{1,4}:){k}:([a-f0-9]{1,4}:){0,6-k}` -/
def hexGap (k : Nat) : Rx := seq (times hexPart k) (seq (cls [':']) (upto hexPart (6 - k)))

/-- `/^(([a-f0-9]{1,4}:){7}|::([a-f0-9]{1,4}:){0,6}|([a-f0-9]{1,4}:){1}:([a-f0-9]{1,4}:){0,5}|...|`
`([a-f0-9]{1,4}:){5}:([a-f0-9]{1,4}:){0,1})([a-f0-9]{1,4}|(octet\.){3}octet)$/` -/
def ipv6Regex : Rx :=
  seq (alt (times hexPart 7)
      (alt (seq (cls [':']) (seq (cls [':']) (upto hexPart 6)))
        (alt (hexGap 1) (alt (hexGap 2) (alt (hexGap 3) (alt (hexGap 4) (hexGap 5)))))))
    (alt hexGroup ipv4Regex)

example : ipv4Regex.test (lit "192.168.0.10") = true := by decide +kernel
example : ipv4Regex.test (lit "01.2.3.4") = true := by decide +kernel
example : ipv4Regex.test (lit "256.2.3.4") = false := by decide +kernel
example : ipv4Regex.test (lit "1.2.3") = false := by decide +kernel
example : ipv6Regex.test (lit "::1") = true := by decide +kernel
example : ipv6Regex.test (lit "2001:db8::8a2e:370:7334") = true := by decide +kernel
example : ipv6Regex.test (lit "1:2:3:4:5:6:7:8") = true := by decide +kernel
example : ipv6Regex.test (lit "::ffff:1.2.3.4") = true := by decide +kernel
example : ipv6Regex.test (lit "::") = false := by decide +kernel
example : ipv6Regex.test (lit "FE80::1") = false := by decide +kernel
example : ipv6Regex.test (lit "1:2:3:4:5:6:7:8:9") = false := by decide +kernel

end Verif.Zod
