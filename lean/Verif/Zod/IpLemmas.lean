import Verif.Zod.Ip
import Verif.Spec.Ip

/-!
# zod's IP addresses and Rust's
-/

namespace Verif.Zod
open Verif Verif.Spec Rx

/-- Two digits, the first one zero. -/
def zeroed (s : Str) : Prop := ∃ c, s = ['0', c]

/-! ## IPv4 -/

theorem octet_repr (a : Fin 256) : Lang octet (Nat.repr a).toList := by
  have h : ∀ a : Fin 256, octet.test (Nat.repr a).toList = true := by decide +kernel
  exact (test_iff _ _).1 (h a)

theorem octet_cases {s : Str} (h : Lang octet s) : (∃ a : Fin 256, s = (Nat.repr a).toList) ∨ zeroed s := by
  have all : ∀ w ∈ octet.words, (List.finRange 256).any (fun a => decide (w = (Nat.repr a).toList)) = true ∨
      (w.head? = some '0' ∧ w.length = 2) := by decide +kernel
  rcases all s ((mem_words _ _).2 h) with h | ⟨h1, h2⟩
  · rw [List.any_eq_true] at h
    obtain ⟨a, _, h⟩ := h
    exact .inl ⟨a, of_decide_eq_true h⟩
  · right
    match s, h1, h2 with
    | [c, d], h1, _ =>
      simp only [List.head?_cons, Option.some.injEq] at h1
      exact ⟨d, by rw [h1]⟩

theorem seq_inv {a b : Rx} {s : Str} (h : Lang (seq a b) s) : ∃ x y, s = x ++ y ∧ Lang a x ∧ Lang b y := by
  cases h with
  | seq _ _ x y hx hy => exact ⟨x, y, rfl, hx, hy⟩

theorem eps_inv {s : Str} (h : Lang Rx.eps s) : s = [] := by cases h; rfl

theorem alt_inv {a b : Rx} {s : Str} (h : Lang (alt a b) s) : Lang a s ∨ Lang b s := by
  cases h with
  | left _ _ _ h => exact .inl h
  | right _ _ _ h => exact .inr h

theorem cls_inv {l : List Char} {s : Str} (h : Lang (cls l) s) : ∃ c ∈ l, s = [c] := by
  cases h with
  | cls _ c hc => exact ⟨c, hc, rfl⟩

theorem dot_inv {c : Char} {s : Str} (h : Lang (cls [c]) s) : s = [c] := by
  obtain ⟨d, hd, rfl⟩ := cls_inv h
  rw [List.mem_singleton.1 hd]

/-- The texts of zod's expression: four octets. -/
theorem ipv4_iff (s : Str) : Lang ipv4Regex s ↔ ∃ a b c d, Lang octet a ∧ Lang octet b ∧ Lang octet c ∧ Lang octet d ∧
    s = a ++ lit "." ++ b ++ lit "." ++ c ++ lit "." ++ d := by
  constructor
  · intro h
    obtain ⟨x, d, rfl, hx, hd⟩ := seq_inv h
    obtain ⟨p, x, rfl, hp, hx⟩ := seq_inv hx
    obtain ⟨q, x, rfl, hq, hx⟩ := seq_inv hx
    obtain ⟨r, x, rfl, hr, hx⟩ := seq_inv hx
    obtain rfl := eps_inv hx
    obtain ⟨a, y, rfl, ha, hy⟩ := seq_inv hp
    obtain rfl := dot_inv hy
    obtain ⟨b, y, rfl, hb, hy⟩ := seq_inv hq
    obtain rfl := dot_inv hy
    obtain ⟨c, y, rfl, hc, hy⟩ := seq_inv hr
    obtain rfl := dot_inv hy
    exact ⟨a, b, c, d, ha, hb, hc, hd, by simp [lit]⟩
  · rintro ⟨a, b, c, d, ha, hb, hc, hd, rfl⟩
    have dot : ∀ {x : Str}, Lang octet x → Lang (seq octet (cls ['.'])) (x ++ lit ".") :=
      fun h => .seq _ _ _ _ h (.cls _ _ (.head _))
    have := Lang.seq _ _ _ _ (Lang.seq _ _ _ _ (dot ha) (.seq _ _ _ _ (dot hb) (.seq _ _ _ _ (dot hc) .eps))) hd
    simpa [ipv4Regex, times] using this

theorem dotted_lang (a b c d : Fin 256) : Lang ipv4Regex (dotted a b c d) :=
  (ipv4_iff _).2 ⟨_, _, _, _, octet_repr a, octet_repr b, octet_repr c, octet_repr d, rfl⟩

/-! ## IPv6 -/

/-- A group that zod accepts. -/
def lowerGroup (g : Str) : Prop := 1 ≤ g.length ∧ g.length ≤ 4 ∧
  ∀ c ∈ g, c ∈ ['a', 'b', 'c', 'd', 'e', 'f', '0', '1', '2', '3', '4', '5', '6', '7', '8', '9']

theorem lang_upto_cls (l : List Char) (n : Nat) (s : Str) : Lang (upto (cls l) n) s ↔ s.length ≤ n ∧ ∀ c ∈ s, c ∈ l := by
  induction n generalizing s with
  | zero =>
    constructor
    · intro h; rw [eps_inv h]; simp
    · rintro ⟨h, _⟩
      have : s = [] := by cases s with | nil => rfl | cons _ _ => simp at h
      rw [this]; exact .eps
  | succ n ih =>
    constructor
    · intro h
      rcases alt_inv h with h | h
      · rw [eps_inv h]; simp
      · obtain ⟨x, y, rfl, hx, hy⟩ := seq_inv h
        obtain ⟨c, hc, rfl⟩ := cls_inv hx
        have := (ih y).1 hy
        refine ⟨by simp only [List.length_append, List.length_cons, List.length_nil]; omega, ?_⟩
        intro d hd
        simp only [List.cons_append, List.nil_append, List.mem_cons] at hd
        rcases hd with rfl | hd
        · exact hc
        · exact this.2 d hd
    · rintro ⟨h1, h2⟩
      cases s with
      | nil => exact .left _ _ _ .eps
      | cons c s =>
        exact .right _ _ _ (.seq _ _ [c] s (.cls _ _ (h2 c (by simp))) ((ih s).2 ⟨by simpa using h1, fun d hd => h2 d (by simp [hd])⟩))

theorem lang_hexGroup (s : Str) : Lang hexGroup s ↔ lowerGroup s := by
  constructor
  · intro h
    obtain ⟨x, y, rfl, hx, hy⟩ := seq_inv h
    obtain ⟨c, hc, rfl⟩ := cls_inv hx
    have := (lang_upto_cls _ _ _).1 hy
    refine ⟨by simp, by simp only [List.length_append, List.length_cons, List.length_nil]; omega, ?_⟩
    intro d hd
    simp only [List.cons_append, List.nil_append, List.mem_cons] at hd
    rcases hd with rfl | hd
    · exact hc
    · exact this.2 d hd
  · rintro ⟨h1, h2, h3⟩
    cases s with
    | nil => simp at h1
    | cons c s =>
      exact .seq _ _ [c] s (.cls _ _ (h3 c (by simp)))
        ((lang_upto_cls _ _ _).2 ⟨by simp at h2; omega, fun d hd => h3 d (by simp [hd])⟩)

/-- Groups, each followed by a colon. -/
def parts (gs : List Str) : Str := gs.flatMap (fun g => g ++ lit ":")

theorem parts_append (a b : List Str) : parts (a ++ b) = parts a ++ parts b := by simp [parts]

theorem lang_hexPart (s : Str) : Lang hexPart s ↔ ∃ g, lowerGroup g ∧ s = g ++ lit ":" := by
  constructor
  · intro h
    obtain ⟨x, y, rfl, hx, hy⟩ := seq_inv h
    exact ⟨x, (lang_hexGroup x).1 hx, by rw [dot_inv hy]; rfl⟩
  · rintro ⟨g, hg, rfl⟩
    exact .seq _ _ _ _ ((lang_hexGroup g).2 hg) (.cls _ _ (.head _))

theorem lang_times_hexPart (n : Nat) (s : Str) : Lang (times hexPart n) s ↔
    ∃ gs : List Str, gs.length = n ∧ (∀ g ∈ gs, lowerGroup g) ∧ s = parts gs := by
  induction n generalizing s with
  | zero =>
    constructor
    · intro h; exact ⟨[], rfl, by simp, by rw [eps_inv h]; rfl⟩
    · rintro ⟨gs, h, _, rfl⟩
      rw [List.length_eq_zero_iff.1 h]
      exact .eps
  | succ n ih =>
    constructor
    · intro h
      obtain ⟨x, y, rfl, hx, hy⟩ := seq_inv h
      obtain ⟨g, hg, rfl⟩ := (lang_hexPart x).1 hx
      obtain ⟨gs, h1, h2, rfl⟩ := (ih y).1 hy
      refine ⟨g :: gs, by simp [h1], ?_, rfl⟩
      intro g' hg'
      rcases List.mem_cons.1 hg' with rfl | h'
      · exact hg
      · exact h2 g' h'
    · rintro ⟨gs, h1, h2, rfl⟩
      cases gs with
      | nil => simp at h1
      | cons g gs =>
        exact .seq _ _ _ _ ((lang_hexPart _).2 ⟨g, h2 g (by simp), rfl⟩)
          ((ih _).2 ⟨gs, by simpa using h1, fun g' hg' => h2 g' (by simp [hg']), rfl⟩)

theorem lang_upto_hexPart (n : Nat) (s : Str) : Lang (upto hexPart n) s ↔
    ∃ gs : List Str, gs.length ≤ n ∧ (∀ g ∈ gs, lowerGroup g) ∧ s = parts gs := by
  induction n generalizing s with
  | zero =>
    constructor
    · intro h; exact ⟨[], by simp, by simp, by rw [eps_inv h]; rfl⟩
    · rintro ⟨gs, h, _, rfl⟩
      rw [List.length_eq_zero_iff.1 (by omega : gs.length = 0)]
      exact .eps
  | succ n ih =>
    constructor
    · intro h
      rcases alt_inv h with h | h
      · exact ⟨[], by simp, by simp, by rw [eps_inv h]; rfl⟩
      obtain ⟨x, y, rfl, hx, hy⟩ := seq_inv h
      obtain ⟨g, hg, rfl⟩ := (lang_hexPart x).1 hx
      obtain ⟨gs, h1, h2, rfl⟩ := (ih y).1 hy
      refine ⟨g :: gs, by simp [h1], ?_, rfl⟩
      intro g' hg'
      rcases List.mem_cons.1 hg' with rfl | h'
      · exact hg
      · exact h2 g' h'
    · rintro ⟨gs, h1, h2, rfl⟩
      cases gs with
      | nil => exact .left _ _ _ .eps
      | cons g gs =>
        exact .right _ _ _ (.seq _ _ _ _ ((lang_hexPart _).2 ⟨g, h2 g (by simp), rfl⟩)
          ((ih _).2 ⟨gs, by simpa using h1, fun g' hg' => h2 g' (by simp [hg']), rfl⟩))

/-- How the address begins: seven groups, or `k ≤ 5` groups, `::`, and at most `6 - k` groups. -/
def V6Start (s : Str) : Prop :=
  (∃ gs : List Str, gs.length = 7 ∧ (∀ g ∈ gs, lowerGroup g) ∧ s = parts gs) ∨
  ∃ gs hs : List Str, gs.length ≤ 5 ∧ gs.length + hs.length ≤ 6 ∧ (∀ g ∈ gs, lowerGroup g) ∧ (∀ h ∈ hs, lowerGroup h) ∧
    s = (if gs = [] then lit ":" else parts gs) ++ lit ":" ++ parts hs

theorem lang_gap (k : Nat) (hk : k ≤ 6) (s : Str) : Lang (hexGap k) s ↔
    ∃ gs hs : List Str, gs.length = k ∧ gs.length + hs.length ≤ 6 ∧ (∀ g ∈ gs, lowerGroup g) ∧ (∀ h ∈ hs, lowerGroup h) ∧
      s = parts gs ++ lit ":" ++ parts hs := by
  constructor
  · intro h
    obtain ⟨x, y, rfl, hx, hy⟩ := seq_inv h
    obtain ⟨c, z, rfl, hc, hz⟩ := seq_inv hy
    obtain ⟨gs, h1, h2, rfl⟩ := (lang_times_hexPart _ _).1 hx
    obtain ⟨hs, h3, h4, rfl⟩ := (lang_upto_hexPart _ _).1 hz
    exact ⟨gs, hs, h1, by omega, h2, h4, by rw [dot_inv hc]; simp [lit]⟩
  · rintro ⟨gs, hs, h1, h2, h3, h4, rfl⟩
    rw [List.append_assoc]
    exact .seq _ _ _ _ ((lang_times_hexPart _ _).2 ⟨gs, h1, h3, rfl⟩)
      (.seq _ _ _ _ (.cls _ _ (.head _)) ((lang_upto_hexPart _ _).2 ⟨hs, by omega, h4, rfl⟩))

theorem ipv6_iff (s : Str) : Lang ipv6Regex s ↔ ∃ x y, s = x ++ y ∧ V6Start x ∧ (lowerGroup y ∨ Lang ipv4Regex y) := by
  have gap : ∀ k, 1 ≤ k → k ≤ 5 → ∀ x, Lang (hexGap k) x → V6Start x := by
    intro k h1 h2 x h
    obtain ⟨gs, hs, e, hle, hg, hh, rfl⟩ := (lang_gap k (by omega) x).1 h
    have hne : gs ≠ [] := by intro h; subst h; simp at e; omega
    exact .inr ⟨gs, hs, by omega, hle, hg, hh, by rw [if_neg hne]⟩
  constructor
  · intro h
    obtain ⟨x, y, rfl, hx, hy⟩ := seq_inv h
    refine ⟨x, y, rfl, ?_, ?_⟩
    · rcases alt_inv hx with hx | hx
      · exact .inl ((lang_times_hexPart _ _).1 hx)
      rcases alt_inv hx with hx | hx
      · obtain ⟨c, z, rfl, hc, hz⟩ := seq_inv hx
        obtain ⟨d, z, rfl, hd, hz⟩ := seq_inv hz
        obtain ⟨hs, h1, h2, rfl⟩ := (lang_upto_hexPart _ _).1 hz
        exact .inr ⟨[], hs, by simp, by simpa using h1, by simp, h2, by rw [dot_inv hc, dot_inv hd]; simp [lit]⟩
      rcases alt_inv hx with hx | hx
      · exact gap 1 (by omega) (by omega) x hx
      rcases alt_inv hx with hx | hx
      · exact gap 2 (by omega) (by omega) x hx
      rcases alt_inv hx with hx | hx
      · exact gap 3 (by omega) (by omega) x hx
      rcases alt_inv hx with hx | hx
      · exact gap 4 (by omega) (by omega) x hx
      · exact gap 5 (by omega) (by omega) x hx
    · rcases alt_inv hy with hy | hy
      · exact .inl ((lang_hexGroup _).1 hy)
      · exact .inr hy
  · rintro ⟨x, y, rfl, hx, hy⟩
    refine .seq _ _ _ _ ?_ ?_
    · rcases hx with hx | ⟨gs, hs, h5, hle, hg, hh, rfl⟩
      · exact .left _ _ _ ((lang_times_hexPart _ _).2 hx)
      · refine .right _ _ _ ?_
        by_cases hn : gs = []
        · subst hn
          refine .left _ _ _ ?_
          rw [if_pos rfl, List.append_assoc]
          exact .seq _ _ _ _ (.cls _ _ (.head _)) (.seq _ _ _ _ (.cls _ _ (.head _))
            ((lang_upto_hexPart _ _).2 ⟨hs, by simpa using hle, hh, rfl⟩))
        · refine .right _ _ _ ?_
          rw [if_neg hn]
          have hg : ∀ k, gs.length = k → k ≤ 5 → Lang (hexGap k) (parts gs ++ lit ":" ++ parts hs) :=
            fun k e hk => (lang_gap k (by omega) _).2 ⟨gs, hs, e, hle, hg, hh, rfl⟩
          have hpos : 1 ≤ gs.length := by cases gs with | nil => exact absurd rfl hn | cons _ _ => simp
          rcases (by omega : gs.length = 1 ∨ gs.length = 2 ∨ gs.length = 3 ∨ gs.length = 4 ∨ gs.length = 5) with e | e | e | e | e
          · exact .left _ _ _ (hg 1 e (by omega))
          · exact .right _ _ _ (.left _ _ _ (hg 2 e (by omega)))
          · exact .right _ _ _ (.right _ _ _ (.left _ _ _ (hg 3 e (by omega))))
          · exact .right _ _ _ (.right _ _ _ (.right _ _ _ (.left _ _ _ (hg 4 e (by omega)))))
          · exact .right _ _ _ (.right _ _ _ (.right _ _ _ (.right _ _ _ (hg 5 e (by omega)))))
    · rcases hy with hy | hy
      · exact .left _ _ _ ((lang_hexGroup _).2 hy)
      · exact .right _ _ _ hy

/-! ## What Rust writes -/

theorem hexChar_mem {n : Nat} (h : n < 16) :
    hexChar n ∈ ['a', 'b', 'c', 'd', 'e', 'f', '0', '1', '2', '3', '4', '5', '6', '7', '8', '9'] := by
  have : ∀ n : Fin 16, hexChar n.val ∈ ['a', 'b', 'c', 'd', 'e', 'f', '0', '1', '2', '3', '4', '5', '6', '7', '8', '9'] := by
    decide +kernel
  exact this ⟨n, h⟩

theorem hex16_group (n : Fin 65536) : lowerGroup (hex16 n) := by
  have hlt := n.isLt
  unfold hex16 lowerGroup
  have m : ∀ k, k < 16 → hexChar k ∈ _ := fun k hk => hexChar_mem hk
  split
  · refine ⟨by simp, by simp, ?_⟩
    intro c hc
    rw [List.mem_singleton.1 hc]
    exact m _ (by assumption)
  split
  · refine ⟨by simp, by simp, ?_⟩
    intro c hc
    simp only [List.mem_cons, List.not_mem_nil, or_false] at hc
    rcases hc with rfl | rfl <;> exact m _ (by omega)
  split
  · refine ⟨by simp, by simp, ?_⟩
    intro c hc
    simp only [List.mem_cons, List.not_mem_nil, or_false] at hc
    rcases hc with rfl | rfl | rfl <;> exact m _ (by omega)
  · refine ⟨by simp, by simp, ?_⟩
    intro c hc
    simp only [List.mem_cons, List.not_mem_nil, or_false] at hc
    rcases hc with rfl | rfl | rfl | rfl <;> exact m _ (by omega)

theorem split_last {α : Type} {l : List α} (h : l ≠ []) : ∃ a b, l = a ++ [b] :=
  ⟨_, _, (List.dropLast_concat_getLast h).symm⟩

theorem joinColon_snoc (gs : List Str) (g : Str) : joinColon (gs ++ [g]) = parts gs ++ g := by
  induction gs with
  | nil => rfl
  | cons a gs ih =>
    cases gs with
    | nil => simp [joinColon, parts]
    | cons b gs =>
      simp only [List.cons_append, joinColon] at ih ⊢
      rw [ih]
      simp [parts]

theorem parts_join {gs : List Str} (h : gs ≠ []) : parts gs = joinColon gs ++ lit ":" := by
  obtain ⟨l, g, rfl⟩ := split_last h
  rw [joinColon_snoc, parts_append]
  simp [parts]

/-- The longest run lies within the segments. -/
theorem longestRun_le (g : List (Fin 65536)) : ∀ i cs cl ls ll, (cl = 0 ∨ cs + cl = i) → ls + ll ≤ i →
    (longestRun g i cs cl ls ll).1 + (longestRun g i cs cl ls ll).2 ≤ i + g.length := by
  induction g with
  | nil => intro i cs cl ls ll _ h; simpa [longestRun] using h
  | cons x g ih =>
    intro i cs cl ls ll hc hl
    simp only [longestRun]
    have e : i + (x :: g).length = i + 1 + g.length := by simp; omega
    rw [e]
    split
    · have hcur : (if cl = 0 then i else cs) + (cl + 1) = i + 1 := by
        split
        · omega
        · rcases hc with hc | hc <;> omega
      split
      · exact ih _ _ _ _ _ (.inr hcur) (by omega)
      · exact ih _ _ _ _ _ (.inr hcur) (by omega)
    · exact ih _ _ _ _ _ (.inl rfl) (by omega)

theorem map_hex_groups (g : List (Fin 65536)) : ∀ s ∈ g.map hex16, lowerGroup s := by
  intro s hs
  obtain ⟨n, _, rfl⟩ := List.mem_map.1 hs
  exact hex16_group n

/-- `a::b`, at least two groups being left out, and at least one after the gap. -/
theorem gap_accepted {a b : List Str} (ha : ∀ g ∈ a, lowerGroup g) (hb : ∀ g ∈ b, lowerGroup g) (hn : b ≠ [])
    (hle : a.length + b.length ≤ 6) : Lang ipv6Regex (joinColon a ++ lit "::" ++ joinColon b) := by
  obtain ⟨hs, y, rfl⟩ := split_last hn
  rw [joinColon_snoc]
  refine (ipv6_iff _).2 ⟨joinColon a ++ lit "::" ++ parts hs, y, by simp, ?_, .inl (hb y (by simp))⟩
  simp only [List.length_append, List.length_cons, List.length_nil] at hle
  refine .inr ⟨a, hs, by omega, by omega, ha, fun h hh => hb h (by simp [hh]), ?_⟩
  by_cases e : a = []
  · subst e; rfl
  · rw [if_neg e, parts_join e]; simp [lit]

/-- `::` and groups, then an IPv4 address. -/
theorem mapped_accepted (gs : List Str) (h : ∀ g ∈ gs, lowerGroup g) (hl : gs.length ≤ 6) (a b c d : Fin 256) :
    Lang ipv6Regex (lit "::" ++ parts gs ++ dotted a b c d) :=
  (ipv6_iff _).2 ⟨_, _, rfl, .inr ⟨[], gs, by simp, by simpa using hl, by simp, h, rfl⟩, .inr (dotted_lang a b c d)⟩

/-! ## Texts that end with a colon are rejected -/

theorem lowerGroup_last {g : Str} (h : lowerGroup g) {s : Str} : ¬ (lit ":" <:+ s ++ g) := by
  rintro ⟨p, hp⟩
  have hne : g ≠ [] := by intro e; subst e; simp [lowerGroup] at h
  obtain ⟨x, c, rfl⟩ := split_last hne
  rw [← List.append_assoc] at hp
  have := List.append_inj_right' hp rfl
  simp only [lit, List.cons.injEq] at this
  have hc := h.2.2 c (by simp)
  have : c = ':' := by simpa using this.symm
  subst this
  revert hc
  decide

theorem octet_last {g : Str} (h : Lang octet g) {s : Str} : ¬ (lit ":" <:+ s ++ g) := by
  have all : ∀ w ∈ octet.words, lowerGroup w := by
    unfold lowerGroup
    decide +kernel
  exact lowerGroup_last (all g ((mem_words _ _).2 h))

theorem ipv6_not_colon {s : Str} (h : Lang ipv6Regex s) : ¬ (lit ":" <:+ s) := by
  obtain ⟨x, y, rfl, _, hy | hy⟩ := (ipv6_iff s).1 h
  · exact lowerGroup_last hy
  · obtain ⟨a, b, c, d, _, _, _, hd, rfl⟩ := (ipv4_iff y).1 hy
    rw [show x ++ (a ++ lit "." ++ b ++ lit "." ++ c ++ lit "." ++ d) = (x ++ (a ++ lit "." ++ b ++ lit "." ++ c ++ lit ".")) ++ d by simp]
    exact octet_last hd

theorem suffix_trans_colon {s : Str} (h : lit "::" <:+ s) : lit ":" <:+ s := by
  obtain ⟨p, rfl⟩ := h
  exact ⟨p ++ lit ":", by simp [lit]⟩

/-- What Rust writes is accepted iff it does not end with `::`. -/
theorem showV6_accepted (old : Bool) (g : List (Fin 65536)) (hg : g.length = 8) :
    Lang ipv6Regex (showV6 old g) ↔ ¬ (lit "::" <:+ showV6 old g) := by
  constructor
  · intro h hs
    exact ipv6_not_colon h (suffix_trans_colon hs)
  have gen : ∀ g : List (Fin 65536), g.length = 8 →
      ¬ (lit "::" <:+ (if 1 < (longestRun g 0 0 0 0 0).2 then
        joinColon ((g.take (longestRun g 0 0 0 0 0).1).map hex16) ++ lit "::" ++
          joinColon ((g.drop ((longestRun g 0 0 0 0 0).1 + (longestRun g 0 0 0 0 0).2)).map hex16)
        else joinColon (g.map hex16))) →
      Lang ipv6Regex (if 1 < (longestRun g 0 0 0 0 0).2 then
        joinColon ((g.take (longestRun g 0 0 0 0 0).1).map hex16) ++ lit "::" ++
          joinColon ((g.drop ((longestRun g 0 0 0 0 0).1 + (longestRun g 0 0 0 0 0).2)).map hex16)
        else joinColon (g.map hex16)) := by
    intro g hg
    have hle := longestRun_le g 0 0 0 0 0 (.inl rfl) (by simp)
    generalize longestRun g 0 0 0 0 0 = r at hle ⊢
    split
    · rename_i h1
      intro hs
      have hne : (g.drop (r.1 + r.2)).map hex16 ≠ [] := by
        intro e
        rw [e] at hs
        exact hs ⟨_, (List.append_nil _).symm⟩
      refine gap_accepted (map_hex_groups _) (map_hex_groups _) hne ?_
      simp only [List.length_map, List.length_take, List.length_drop]
      omega
    · intro _
      have hne : g.map hex16 ≠ [] := by intro e; have := congrArg List.length e; simp only [List.length_map, List.length_nil] at this; omega
      obtain ⟨hs, y, e⟩ := split_last hne
      have hall := map_hex_groups g
      rw [e] at hall ⊢
      have hl := congrArg List.length e
      simp only [List.length_map, List.length_append, List.length_cons, List.length_nil] at hl
      rw [joinColon_snoc]
      exact (ipv6_iff _).2 ⟨_, _, rfl, .inl ⟨hs, by omega, fun h hh => hall h (by simp [hh]), rfl⟩, .inl (hall y (by simp))⟩
  unfold showV6
  split
  · rename_i x y
    intro _
    have := mapped_accepted [lit "ffff"] (by unfold lowerGroup; decide +kernel) (by simp)
    exact this _ _ _ _
  · split
    · rename_i x y _
      split
      · intro h; exact absurd ⟨[], rfl⟩ h
      · split
        · intro _; exact (test_iff _ _).1 (by decide +kernel)
        · intro _; exact mapped_accepted [] (by simp) (by simp) _ _ _ _
    · exact gen g hg

end Verif.Zod
