import Verif.Schema.Eval
import Verif.Spec.Ints
import Verif.Zod.Ints

/-!
# C01, C02: integer schemas
-/

namespace Verif.Props
open Verif Verif.Schema Verif.Js Verif.Zod Verif.Spec

theorem prim_schema_returns (P : Program) (p : Prim) : Returns P .schema (.prim p) p.schema :=
  ⟨1, by simp [eval, body, runPieces]⟩

theorem prim_inline_returns (P : Program) (p : Prim) : Returns P .inlineSchema (.prim p) p.schema :=
  ⟨2, by simp [eval, body, runPieces]⟩

/-- **C01.** For the integer types of at most 32 bits, `schema()` (and `inline_schema()`) returns a text
that evaluates to a schema, and that schema accepts a JavaScript value iff it is a number that is an integer
in the range of the type. -/
theorem C01_exact (P : Program) (E : ZEnv) (p : Prim) (lo hi : Int) (hp : smallRange p = some (lo, hi)) :
    ∃ s z, Returns P .schema (.prim p) s ∧ Returns P .inlineSchema (.prim p) s ∧ readSchema s = some z ∧
      ∀ v, Accepts E z v ↔ ∃ i : Int, (lo ≤ i ∧ i ≤ hi) ∧ v = .num (.fin (i : Rat)) := by
  refine ⟨p.schema, ?_⟩
  cases p <;> simp only [smallRange, Option.some.injEq, Prod.mk.injEq, reduceCtorEq] at hp <;>
    obtain ⟨rfl, rfl⟩ := hp <;>
    refine ⟨_, prim_schema_returns P _, prim_inline_returns P _, rfl, fun v => ?_⟩ <;>
    first
    | exact accepts_unsigned
    | exact accepts_signed

/-- The accepted value is passed on unchanged. -/
theorem C01_result (P : Program) (E : ZEnv) (p : Prim) (lo hi : Int) (hp : smallRange p = some (lo, hi))
    (s : Str) (hs : Returns P .schema (.prim p) s) (z : ZSchema) (hz : readSchema s = some z)
    (i : Int) (h : lo ≤ i ∧ i ≤ hi) (r : JsVal) :
    ParsesTo E z (.num (.fin (i : Rat))) r ↔ r = .num (.fin (i : Rat)) := by
  obtain ⟨s', z', h1, _, h2, h3⟩ := C01_exact P E p lo hi hp
  have e : s = s' := by
    obtain ⟨n, hn⟩ := hs
    obtain ⟨m, hm⟩ := h1
    cases n with
    | zero => cases hn
    | succ n =>
      cases m with
      | zero => cases hm
      | succ m =>
        simp only [eval, body, runPieces, Option.map_some, Option.some.injEq] at hn hm
        rw [← hn, ← hm]
  subst e
  rw [hz] at h2
  injection h2 with h2
  subst h2
  have key : ∀ r, ParsesTo E z (.num (.fin (i : Rat))) r → r = .num (.fin (i : Rat)) := by
    have hn : ∃ cs, z = .number cs := by
      have hps : s = p.schema := by
        obtain ⟨n, hn⟩ := hs
        cases n with
        | zero => cases hn
        | succ n =>
          simp only [eval, body, runPieces, Option.map_some, Option.some.injEq, List.append_nil] at hn
          exact hn.symm
      rw [hps] at hz
      cases p <;> simp only [smallRange, reduceCtorEq] at hp <;> exact ⟨_, (Option.some.inj hz).symm⟩
    obtain ⟨cs, rfl⟩ := hn
    rintro r ⟨n, hn⟩
    cases n with
    | zero => cases hn
    | succ n =>
      simp only [parse] at hn
      split at hn
      · injection hn with hn; injection hn with hn; exact hn.symm
      · simp at hn
  constructor
  · exact key r
  · rintro rfl
    obtain ⟨r, hr⟩ := (h3 (.num (.fin (i : Rat)))).2 ⟨i, h, rfl⟩
    rw [key r hr] at hr
    exact hr

example : smallRange .u8 = some (0, 255) ∧ smallRange .i32 = some (-2147483648, 2147483647) := by
  simp [smallRange]

set_option maxRecDepth 10000 in
/-- **C02.** For the wider integer types, every integer of the type is accepted after `JSON.parse` has
rounded it to a double. -/
theorem C02_complete (P : Program) (E : ZEnv) (p : Prim) (lo hi : Int) (hp : wideRange p = some (lo, hi)) :
    ∃ s z, Returns P .schema (.prim p) s ∧ Returns P .inlineSchema (.prim p) s ∧ readSchema s = some z ∧
      ∀ i : Int, lo ≤ i → i ≤ hi → Accepts E z (fromJson (.num (.int i))) := by
  have bnd : ∀ lo hi i : Int, lo ≤ i → i ≤ hi → roundInt lo ≤ roundInt i ∧ roundInt i ≤ roundInt hi :=
    fun lo hi i h1 h2 => ⟨roundInt_mono h1, roundInt_mono h2⟩
  refine ⟨p.schema, ?_⟩
  cases p <;> simp only [wideRange, Option.some.injEq, Prod.mk.injEq, reduceCtorEq] at hp <;>
    obtain ⟨rfl, rfl⟩ := hp <;>
    refine ⟨_, prim_schema_returns P _, prim_inline_returns P _, rfl, fun i h1 h2 => ?_⟩
  · exact accepts_unsigned.2 ⟨roundInt i, bnd 0 _ i h1 h2, rfl⟩
  · exact accepts_unsigned.2 ⟨roundInt i, bnd 0 _ i h1 h2, rfl⟩
  · exact accepts_natural.2 ⟨roundInt i, roundInt_nonneg h1, rfl⟩
  · exact accepts_signed.2 ⟨roundInt i, bnd _ _ i h1 h2, rfl⟩
  · exact accepts_signed.2 ⟨roundInt i, bnd _ _ i h1 h2, rfl⟩
  · exact accepts_integer.2 ⟨roundInt i, trivial, rfl⟩

set_option maxRecDepth 10000 in
/-- How much more than the range of the type is accepted: exactly the integers up to the rounded bounds,
which for `u64` and `i64` is one more than the greatest value. For `usize` and `isize` there is no upper
bound. -/
theorem C02_exact (P : Program) (E : ZEnv) (p : Prim) :
    (p = .u64 → ∃ s z, Returns P .schema (.prim p) s ∧ readSchema s = some z ∧ ∀ v,
      Accepts E z v ↔ ∃ i : Int, (0 ≤ i ∧ i ≤ 2 ^ 64) ∧ v = .num (.fin (i : Rat))) ∧
    (p = .i64 → ∃ s z, Returns P .schema (.prim p) s ∧ readSchema s = some z ∧ ∀ v,
      Accepts E z v ↔ ∃ i : Int, (-2 ^ 63 ≤ i ∧ i ≤ 2 ^ 63) ∧ v = .num (.fin (i : Rat))) ∧
    (p = .u128 → ∃ s z, Returns P .schema (.prim p) s ∧ readSchema s = some z ∧ ∀ v,
      Accepts E z v ↔ ∃ i : Int, (0 ≤ i ∧ i ≤ 2 ^ 128) ∧ v = .num (.fin (i : Rat))) ∧
    (p = .i128 → ∃ s z, Returns P .schema (.prim p) s ∧ readSchema s = some z ∧ ∀ v,
      Accepts E z v ↔ ∃ i : Int, (-2 ^ 127 ≤ i ∧ i ≤ 2 ^ 127) ∧ v = .num (.fin (i : Rat))) ∧
    (p = .usize → ∃ s z, Returns P .schema (.prim p) s ∧ readSchema s = some z ∧ ∀ v,
      Accepts E z v ↔ ∃ i : Int, (0 ≤ i) ∧ v = .num (.fin (i : Rat))) ∧
    (p = .isize → ∃ s z, Returns P .schema (.prim p) s ∧ readSchema s = some z ∧ ∀ v,
      Accepts E z v ↔ ∃ i : Int, v = .num (.fin (i : Rat))) := by
  refine ⟨?_, ?_, ?_, ?_, ?_, ?_⟩ <;> rintro rfl <;> refine ⟨_, _, prim_schema_returns P _, rfl, fun v => ?_⟩
  · exact accepts_unsigned
  · exact accepts_signed
  · exact accepts_unsigned
  · exact accepts_signed
  · exact accepts_natural
  · exact accepts_integer.trans (by simp)

example : wideRange .u64 = some (0, 18446744073709551615) := by simp [wideRange]
/-- The greatest `u64` is rounded up, to a value the schema accepts. -/
example : fromJson (.num (.int 18446744073709551615)) = .num (.fin ((2 ^ 64 : Int) : Rat)) := by
  show JsVal.num (.fin ((roundInt 18446744073709551615 : Int) : Rat)) = _
  rw [show roundInt 18446744073709551615 = 2 ^ 64 from by decide]

end Verif.Props
