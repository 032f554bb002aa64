import Verif.Props.Complete
import Verif.Zod.IpLemmas

/-!
# C04 and C05 for IP addresses
-/

namespace Verif.Props
open Verif Verif.Js Verif.Schema Verif.Spec Verif.SchemaSpec Verif.Zod Verif.Zod.Rx

/-! ## The schemas -/

theorem returns_prim {P : Program} {p : Prim} {s : Str} (h : Returns P .schema (.prim p) s) : s = p.schema := by
  obtain ⟨n, hn⟩ := h
  cases n with
  | zero => cases hn
  | succ n =>
    simp only [eval, body, runPieces, List.append_nil, Option.some.injEq] at hn
    simpa using hn.symm

theorem ip_schema {P : Program} {p : Prim} {c : StrCheck}
    (hp : p = .ipv4 ∧ c = .ipv4 ∨ p = .ipv6 ∧ c = .ipv6 ∨ p = .ip ∧ c = .ip) {s : Str}
    (h : Returns P .schema (.prim p) s) {z : ZSchema} (hz : readSchema s = some z) : z = .string [c] := by
  rw [returns_prim h] at hz
  rcases hp with ⟨rfl, rfl⟩ | ⟨rfl, rfl⟩ | ⟨rfl, rfl⟩
  · have : readSchema (Prim.schema .ipv4) = some (.string [.ipv4]) := rfl
    rw [this] at hz; injection hz with hz; exact hz.symm
  · have : readSchema (Prim.schema .ipv6) = some (.string [.ipv6]) := rfl
    rw [this] at hz; injection hz with hz; exact hz.symm
  · have : readSchema (Prim.schema .ip) = some (.string [.ip]) := rfl
    rw [this] at hz; injection hz with hz; exact hz.symm

theorem accepts_check {E : ZEnv} {c : StrCheck} (hc : c = .ipv4 ∨ c = .ipv6 ∨ c = .ip) (v : JsVal) :
    Accepts E (.string [c]) v ↔ ∃ s, v = .str s ∧ StrCheck.ok s c = true := by
  constructor
  · rintro ⟨r, n, h⟩
    cases n with
    | zero => cases h
    | succ n =>
      cases v with
      | str s =>
        refine ⟨s, rfl, ?_⟩
        cases hk : StrCheck.ok s c with
        | true => rfl
        | false => simp [parse, hk] at h
      | badStr u => rcases hc with rfl | rfl | rfl <;> simp [parse, StrCheck.okBad] at h
      | _ => simp [parse] at h
  · rintro ⟨s, rfl, h⟩
    exact ⟨.str s, 1, by simp [parse, h]⟩

theorem check_ok {E : ZEnv} {c : StrCheck} {s : Str} (h : StrCheck.ok s c = true) :
    parse E 1 (.string [c]) (.str s) = some (some (.str s)) := by simp [parse, h]

/-! ## C04: what the schemas accept -/

/-- A number up to 255, written without leading zeros, or one digit with a zero in front. -/
def IsOctet (o : Str) : Prop := (∃ n : Fin 256, o = (Nat.repr n).toList) ∨ ∃ n : Fin 10, o = '0' :: (Nat.repr n).toList

theorem octet_iff (o : Str) : Lang octet o ↔ IsOctet o := by
  have all : ∀ w ∈ octet.words, (List.finRange 256).any (fun a => decide (w = (Nat.repr a).toList)) = true ∨
      (List.finRange 10).any (fun a => decide (w = '0' :: (Nat.repr a).toList)) = true := by decide +kernel
  have back : ∀ n : Fin 10, octet.test ('0' :: (Nat.repr n).toList) = true := by decide +kernel
  constructor
  · intro h
    rcases all o ((mem_words _ _).2 h) with h | h
    · obtain ⟨a, _, h⟩ := List.any_eq_true.1 h
      exact .inl ⟨a, of_decide_eq_true h⟩
    · obtain ⟨a, _, h⟩ := List.any_eq_true.1 h
      exact .inr ⟨a, of_decide_eq_true h⟩
  · rintro (⟨n, rfl⟩ | ⟨n, rfl⟩)
    · exact octet_repr n
    · exact (test_iff _ _).1 (back n)

/-- **C04 for IPv4 addresses, exactly.** The schema accepts four octets, each of which may have a leading zero if it
has only one more digit; serde accepts (`De`) those without. -/
theorem C04_ipv4_exact (P : Program) (E : ZEnv) (s : Str) (h : Returns P .schema (.prim .ipv4) s) (z : ZSchema)
    (hz : readSchema s = some z) (v : JsVal) :
    (Accepts E z v ↔ ∃ a b c d : Str, IsOctet a ∧ IsOctet b ∧ IsOctet c ∧ IsOctet d ∧
      v = .str (a ++ lit "." ++ b ++ lit "." ++ c ++ lit "." ++ d)) ∧
    ∀ t, De P (.prim .ipv4) (.str t) ↔ ∃ a b c d : Fin 256, t = (Nat.repr a).toList ++ lit "." ++ (Nat.repr b).toList ++
      lit "." ++ (Nat.repr c).toList ++ lit "." ++ (Nat.repr d).toList := by
  obtain rfl := ip_schema (.inl ⟨rfl, rfl⟩) h hz
  constructor
  · rw [accepts_check (.inl rfl)]
    constructor
    · rintro ⟨t, rfl, ht⟩
      obtain ⟨a, b, c, d, ha, hb, hc, hd, rfl⟩ := (ipv4_iff t).1 ((test_iff _ _).1 ht)
      exact ⟨a, b, c, d, (octet_iff _).1 ha, (octet_iff _).1 hb, (octet_iff _).1 hc, (octet_iff _).1 hd, rfl⟩
    · rintro ⟨a, b, c, d, ha, hb, hc, hd, rfl⟩
      exact ⟨_, rfl, (test_iff _ _).2 ((ipv4_iff _).2 ⟨a, b, c, d, (octet_iff _).2 ha, (octet_iff _).2 hb,
        (octet_iff _).2 hc, (octet_iff _).2 hd, rfl⟩)⟩
  · intro t
    constructor
    · intro h
      generalize e : Json.str t = j at h
      cases h with
      | ipv4 _ a b c d _ => injection e with e; exact ⟨a, b, c, d, e⟩
      | ipv6 _ _ hp => rcases hp with hp | hp <;> cases hp
      | _ => cases e
    · rintro ⟨a, b, c, d, rfl⟩
      exact .ipv4 _ a b c d (.inl rfl)

theorem takeWhile_dot {a r : Str} (h : ∀ c ∈ a, c ≠ '.') : (a ++ '.' :: r).takeWhile (fun c => decide (c ≠ '.')) = a := by
  induction a with
  | nil => simp
  | cons c a ih =>
    have := h c (by simp)
    simp only [List.cons_append, List.takeWhile_cons]
    rw [ih (fun d hd => h d (by simp [hd]))]
    simp [this]

theorem dotted_first {a b c d : Fin 256} : (dotted a b c d).takeWhile (fun c => decide (c ≠ '.')) = (Nat.repr a).toList := by
  have nodot : ∀ a : Fin 256, ∀ c ∈ (Nat.repr a).toList, c ≠ '.' := by decide +kernel
  have e : dotted a b c d = (Nat.repr a).toList ++ '.' ::
      ((Nat.repr b).toList ++ lit "." ++ (Nat.repr c).toList ++ lit "." ++ (Nat.repr d).toList) := by
    simp only [dotted, List.append_assoc]
    rfl
  rw [e]
  exact takeWhile_dot (nodot a)

/-- C04 is false: the schema of `Ipv4Addr` accepts `01.2.3.4`. -/
theorem C04_violated_ipv4 : ¬ C04_statement := by
  refine C04_refute (.prim .ipv4) 1 _ (.str (lit "01.2.3.4")) (.str (lit "01.2.3.4")) (.str (lit "01.2.3.4")) (.prim _) rfl ⟨_, rfl⟩
    ⟨1, check_ok (by decide +kernel)⟩ rfl ?_
  intro h
  generalize e : Json.str (lit "01.2.3.4") = j at h
  cases h with
  | ipv4 _ a b c d _ =>
    injection e with e
    have := congrArg (List.takeWhile (fun c => decide (c ≠ '.'))) e
    rw [dotted_first] at this
    have no : ∀ a : Fin 256, lit "01" ≠ (Nat.repr a).toList := by decide +kernel
    exact no a this
  | ipv6 _ _ hp => rcases hp with hp | hp <;> cases hp
  | _ => cases e

/-! ## IPv6 -/

theorem lower_isGroup {g : Str} (h : lowerGroup g) : IsGroup g := by
  refine ⟨h.1, h.2.1, fun c hc => ?_⟩
  have all : ∀ c ∈ ['a', 'b', 'c', 'd', 'e', 'f', '0', '1', '2', '3', '4', '5', '6', '7', '8', '9'], IsHex c := by
    unfold IsHex
    decide +kernel
  exact all c (h.2.2 c hc)

theorem ipv6_plain {s : Str} (h : Lang ipv6Regex s) (hd : '.' ∉ s) : V6Text s := by
  obtain ⟨x, y, rfl, hx, hy | hy⟩ := (ipv6_iff s).1 h
  · rcases hx with ⟨gs, hl, hg, rfl⟩ | ⟨gs, hs, h5, hle, hg, hh, rfl⟩
    · refine .inl (.inl ⟨gs ++ [y], ?_, by simp [hl], (joinColon_snoc gs y).symm⟩)
      intro g hg'
      simp only [List.mem_append, List.mem_singleton] at hg'
      rcases hg' with hg' | rfl
      · exact lower_isGroup (hg g hg')
      · exact lower_isGroup hy
    · refine .inr ⟨gs, hs.length + 1, joinColon (hs ++ [y]), fun g h => lower_isGroup (hg g h), by omega,
        .inl ⟨hs ++ [y], ?_, by simp, rfl⟩, ?_⟩
      · intro g hg'
        simp only [List.mem_append, List.mem_singleton] at hg'
        rcases hg' with hg' | rfl
        · exact lower_isGroup (hh g hg')
        · exact lower_isGroup hy
      · rw [joinColon_snoc]
        by_cases e : gs = []
        · subst e; simp [joinColon, lit]
        · rw [if_neg e, parts_join e]; simp [lit]
  · obtain ⟨a, b, c, d, _, _, _, _, rfl⟩ := (ipv4_iff y).1 hy
    exact absurd (by simp [lit]) hd

/-- **C04 for IPv6 addresses.** What the schema of `Ipv6Addr` accepts is a text, and serde accepts it if it has no IPv4
address in it. (Missing: texts with an IPv4 address, for which this is false.) -/
theorem C04_ipv6_partial (P : Program) (E : ZEnv) (s : Str) (h : Returns P .schema (.prim .ipv6) s) (z : ZSchema)
    (hz : readSchema s = some z) (v : JsVal) (hv : Accepts E z v) :
    ∃ t, v = .str t ∧ ('.' ∉ t → De P (.prim .ipv6) (.str t)) := by
  obtain rfl := ip_schema (.inr (.inl ⟨rfl, rfl⟩)) h hz
  obtain ⟨t, rfl, ht⟩ := (accepts_check (.inr (.inl rfl)) v).1 hv
  exact ⟨t, rfl, fun hd => .ipv6 _ _ (.inl rfl) (ipv6_plain ((test_iff _ _).1 ht) hd)⟩

theorem group_no {g : Str} (h : IsGroup g) : '.' ∉ g ∧ ':' ∉ g := by
  have aux : ∀ c, IsHex c → c ≠ '.' ∧ c ≠ ':' := by
    intro c hc
    constructor <;> rintro rfl <;> (revert hc; unfold IsHex; decide)
  exact ⟨fun hc => (aux _ (h.2.2 _ hc)).1 rfl, fun hc => (aux _ (h.2.2 _ hc)).2 rfl⟩

theorem join_dot {gs : List Str} (h : ∀ g ∈ gs, IsGroup g) : '.' ∉ joinColon gs := by
  induction gs with
  | nil => simp [joinColon]
  | cons g gs ih =>
    cases gs with
    | nil => exact (group_no (h g (by simp))).1
    | cons g' gs =>
      simp only [joinColon, List.mem_append, not_or]
      exact ⟨⟨(group_no (h g (by simp))).1, by decide +kernel⟩, ih (fun x hx => h x (by simp [hx]))⟩

theorem parts_colons {gs : List Str} (h : ∀ g ∈ gs, IsGroup g) : (parts gs).count ':' = gs.length := by
  induction gs with
  | nil => rfl
  | cons g gs ih =>
    have hg : g.count ':' = 0 := List.count_eq_zero.2 (group_no (h g (by simp))).2
    have e : parts (g :: gs) = g ++ lit ":" ++ parts gs := by simp [parts]
    rw [e, List.count_append, List.count_append, hg, ih (fun x hx => h x (by simp [hx]))]
    have : (lit ":").count ':' = 1 := by decide +kernel
    rw [this, List.length_cons]
    omega

theorem dotted_colons (a b c d : Fin 256) : (dotted a b c d).count ':' = 0 := by
  have no : ∀ a : Fin 256, (Nat.repr a).toList.count ':' = 0 := by decide +kernel
  have dot : (lit ".").count ':' = 0 := by decide +kernel
  simp only [dotted, List.count_append, no, dot]

/-- C04 is false: the schema of `Ipv6Addr` accepts an IPv4 address in place of the last group, instead of the last two. -/
theorem C04_violated_ipv6 : ¬ C04_statement := by
  refine C04_refute (.prim .ipv6) 1 _ (.str (lit "1:2:3:4:5:6:7:1.2.3.4")) (.str (lit "1:2:3:4:5:6:7:1.2.3.4")) (.str (lit "1:2:3:4:5:6:7:1.2.3.4")) (.prim _) rfl
    ⟨_, rfl⟩ ⟨1, check_ok (by decide +kernel)⟩ rfl ?_
  intro h
  generalize e : Json.str (lit "1:2:3:4:5:6:7:1.2.3.4") = j at h
  cases h with
  | ipv4 _ a b c d hp => rcases hp with hp | hp <;> cases hp
  | ipv6 _ t hp ht =>
    injection e with e
    rcases ht with (⟨gs, hg, _, rfl⟩ | ⟨gs, a, b, c, d, hg, hl, rfl⟩) | ⟨gs, n, t', _, _, _, rfl⟩
    · have := join_dot hg
      rw [← e] at this
      exact this (by decide +kernel)
    · have := congrArg (List.count ':') e
      rw [joinColon_snoc, List.count_append, parts_colons hg, dotted_colons] at this
      have seven : (lit "1:2:3:4:5:6:7:1.2.3.4").count ':' = 7 := by decide +kernel
      omega
    · have : lit "::" <:+: lit "1:2:3:4:5:6:7:1.2.3.4" := ⟨joinColon gs, t', e.symm⟩
      revert this
      decide +kernel
  | _ => cases e

/-- A case of `C04_ipv6_partial`. -/
example : Accepts exEnv0 (.string [.ipv6]) (.str (lit "fe80::1")) ∧ '.' ∉ lit "fe80::1" :=
  ⟨(accepts_check (.inr (.inl rfl)) _).2 ⟨_, rfl, by decide +kernel⟩, by decide +kernel⟩

/-! ## C05 -/

/-- **C05 for IPv6 addresses, exactly.** What serde writes for an `Ipv6Addr` is accepted by its schema iff it does not
end with `::`. -/
theorem C05_ipv6_exact (P : Program) (E : ZEnv) (s : Str) (h : Returns P .schema (.prim .ipv6) s) (z : ZSchema)
    (hz : readSchema s = some z) (old : Bool) (g : List (Fin 65536)) (hg : g.length = 8) :
    Ser P true (.prim .ipv6) (.str (showV6 old g)) ∧
    (Accepts E z (fromJson (.str (showV6 old g))) ↔ ¬ lit "::" <:+ showV6 old g) := by
  refine ⟨.ipv6 _ old g (.inl rfl) hg (.inl rfl), ?_⟩
  obtain rfl := ip_schema (.inr (.inl ⟨rfl, rfl⟩)) h hz
  rw [accepts_check (.inr (.inl rfl)), ← showV6_accepted old g hg, ← test_iff]
  constructor
  · rintro ⟨t, ht, h⟩
    simp only [fromJson, JsVal.str.injEq] at ht
    rw [ht]
    exact h
  · intro h
    exact ⟨_, rfl, h⟩

/-- C05 is false: the schema of `Ipv6Addr` rejects `fe80::`. -/
theorem C05_violated_ipv6 : ¬ C05_statement := by
  have e : showV6 false [0xfe80, 0, 0, 0, 0, 0, 0, 0] = lit "fe80::" := by decide +kernel
  refine C05_refute (.prim .ipv6) 5 _ (.str (lit "fe80::")) (.prim _) rfl ⟨_, rfl⟩
    (e ▸ .ipv6 _ false _ (Or.inl rfl) rfl (Or.inl rfl)) ?_
  intro h
  obtain ⟨t, ht, h⟩ := (accepts_check (.inr (.inl rfl)) _).1 h
  simp only [fromJson, JsVal.str.injEq] at ht
  subst ht
  revert h
  decide +kernel

/-- Rust reads the addresses it writes. -/
example : V6Text (lit "2001:db8::8a2e:370:7334") := ipv6_plain ((test_iff _ _).1 (by decide +kernel)) (by decide +kernel)

end Verif.Props
