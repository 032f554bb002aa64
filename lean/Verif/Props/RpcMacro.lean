import Verif.Spec.RpcMacro
import Verif.Js.Parser

/-!
# C54: the `#[rpc]` macro accepts exactly the functions it can serve
-/

namespace Verif.Props
open Verif Verif.Schema Verif.Codegen Verif.Spec Verif.Js

theorem allOk_map_iff {α β ε : Type} {g : α → Except ε β} {l : List α} {r : List β} :
    allOk (l.map g) = .ok r ↔ All2 (fun a b => g a = .ok b) l r := by
  induction l generalizing r with
  | nil =>
    constructor
    · intro h; cases h; exact .nil
    · intro h; cases h; rfl
  | cons a l ih =>
    rw [List.map_cons]
    constructor
    · intro h
      cases hg : g a with
      | error e => rw [hg] at h; cases h
      | ok b =>
        rw [hg] at h
        unfold allOk at h
        cases hr : allOk (l.map g) with
        | error e => rw [hr] at h; cases h
        | ok r' => rw [hr] at h; cases h; exact .cons hg (ih.1 hr)
    · intro h
      cases h with
      | cons h1 h2 =>
        unfold allOk
        rw [h1]
        simp only [ih.2 h2]

theorem firstReceiver_iff {inputs : List FnArg} {r : Receiver} :
    firstReceiver inputs = some r ↔ ∃ before after, inputs = before ++ .receiver r :: after ∧ ∀ r', FnArg.receiver r' ∉ before := by
  induction inputs with
  | nil => simp [firstReceiver]
  | cons a l ih =>
    cases a with
    | receiver r' =>
      simp only [firstReceiver, Option.some.injEq]
      constructor
      · rintro rfl; exact ⟨[], l, rfl, by simp⟩
      · rintro ⟨before, after, h1, h2⟩
        cases before with
        | nil => simp only [List.nil_append, List.cons.injEq, FnArg.receiver.injEq] at h1; exact h1.1
        | cons b before =>
          simp only [List.cons_append, List.cons.injEq] at h1
          exact absurd (by rw [h1.1]; exact List.mem_cons_self) (h2 r')
    | typed p t =>
      rw [firstReceiver, ih]
      constructor
      · rintro ⟨before, after, h1, h2⟩
        exact ⟨.typed p t :: before, after, by rw [h1]; rfl, by simpa using h2⟩
      · rintro ⟨before, after, h1, h2⟩
        cases before with
        | nil => cases h1
        | cons b before =>
          simp only [List.cons_append, List.cons.injEq] at h1
          exact ⟨before, after, h1.2, fun r' hr => h2 r' (by simp [hr])⟩

theorem checkReceiver_iff {inputs : List FnArg} : checkReceiver inputs = .ok () ↔ TakesMutSelf inputs := by
  unfold TakesMutSelf
  rw [← firstReceiver_iff]
  unfold checkReceiver
  cases h : firstReceiver inputs with
  | none => simp
  | some r =>
    obtain ⟨m, ref⟩ := r
    cases m <;> cases ref with
    | none => simp
    | some l => cases l <;> simp

theorem argTypes_iff {inputs : List FnArg} {args : List (Str × Ty)} : argTypes inputs = .ok args ↔
    inputs.filterMap (fun a => match a with | .typed p t => some (p, t) | .receiver _ => none) =
      args.map (fun a => (Pat.ident a.1, a.2)) := by
  induction inputs generalizing args with
  | nil => cases args <;> simp [argTypes]
  | cons a l ih =>
    cases a with
    | receiver r => simp only [argTypes, List.filterMap_cons]; exact ih
    | typed p t =>
      cases p with
      | other =>
        simp only [argTypes, List.filterMap_cons]
        cases args <;> simp
      | ident n =>
        simp only [argTypes, List.filterMap_cons]
        cases hr : argTypes l with
        | ok r =>
          have := (ih (args := r)).1 hr
          simp only [Except.ok.injEq]
          constructor
          · rintro rfl; simp [this]
          · intro h
            cases args with
            | nil => cases h
            | cons b args =>
              simp only [List.map_cons, List.cons.injEq, Prod.mk.injEq, Pat.ident.injEq] at h
              obtain ⟨⟨h1, h2⟩, h3⟩ := h
              have := ih.2 h3
              rw [hr] at this
              injection this with this
              rw [this, h1, h2]
        | error e =>
          constructor
          · intro h; cases h
          · intro h
            cases args with
            | nil => cases h
            | cons b args =>
              simp only [List.map_cons, List.cons.injEq] at h
              have := ih.2 h.2
              rw [hr] at this
              cases this

theorem plainArgs_iff {inputs : List FnArg} : PlainArgs inputs ↔ ∃ args : List (Str × Ty),
    inputs.filterMap (fun a => match a with | .typed p t => some (p, t) | .receiver _ => none) =
      args.map (fun a => (Pat.ident a.1, a.2)) := by
  unfold PlainArgs
  induction inputs with
  | nil => simp
  | cons a l ih =>
    cases a with
    | receiver r => simpa [List.filterMap_cons] using ih
    | typed p t =>
      constructor
      · intro h
        obtain ⟨n, rfl⟩ := h p t (by simp)
        obtain ⟨args, ha⟩ := ih.1 (fun p t hm => h p t (by simp [hm]))
        exact ⟨(n, t) :: args, by simp [ha]⟩
      · rintro ⟨args, ha⟩ p' t' hm
        cases args with
        | nil => simp at ha
        | cons b args =>
          simp only [List.filterMap_cons, List.map_cons, List.cons.injEq, Prod.mk.injEq] at ha
          rcases List.mem_cons.1 hm with e | hm
          · cases e; exact ⟨_, ha.1.1⟩
          · exact ih.2 ⟨args, ha.2⟩ p' t' hm

/-- One function. -/
theorem item_iff {s : Sig} {i : RpcItem} : (RpcItem.fromAst s = .ok i ∧ i.check = .ok i) ↔ Acceptable s ∧ RegisteredAs s i := by
  obtain ⟨ident, isAsync, output, inputs⟩ := s
  obtain ⟨iident, iargs, ikind, ioutput, iimpl⟩ := i
  constructor
  · rintro ⟨h, hc⟩
    unfold RpcItem.fromAst at h
    simp only at h
    cases ho : outputOf (if isAsync = true then RpcKind.method else RpcKind.stream) output with
    | error e => rw [ho] at h; cases h
    | ok it =>
      obtain ⟨im, t⟩ := it
      rw [ho] at h
      simp only at h
      cases hr : checkReceiver inputs with
      | error e => rw [hr] at h; cases h
      | ok u =>
        rw [hr] at h
        simp only at h
        cases ha : argTypes inputs with
        | error e => rw [ha] at h; cases h
        | ok args =>
          rw [ha] at h
          simp only [Except.ok.injEq, RpcItem.mk.injEq] at h
          obtain ⟨rfl, rfl, rfl, rfl, rfl⟩ := h
          have hself := checkReceiver_iff.1 hr
          have hargs := argTypes_iff.1 ha
          unfold RpcItem.check at hc
          simp only at hc
          cases isAsync with
          | true =>
            simp only [if_true, true_and] at hc ho ⊢
            cases output with
            | default =>
              simp only [outputOf, Except.ok.injEq, Prod.mk.injEq] at ho
              obtain ⟨rfl, rfl⟩ := ho
              exact ⟨⟨Or.inl rfl, hself, plainArgs_iff.2 ⟨_, hargs⟩, fun _ t h => by cases h⟩,
                rfl, hargs, by simp, Or.inl ⟨rfl, rfl, rfl⟩⟩
            | type i' t' =>
              simp only [outputOf, Except.ok.injEq, Prod.mk.injEq] at ho
              obtain ⟨rfl, rfl⟩ := ho
              cases i' with
              | true => simp at hc
              | false =>
                exact ⟨⟨Or.inl rfl, hself, plainArgs_iff.2 ⟨_, hargs⟩, fun _ t h => by cases h⟩,
                  rfl, hargs, by simp, Or.inr rfl⟩
          | false =>
            cases output with
            | default => cases ho
            | type i' t' =>
              simp only [outputOf, Bool.false_eq_true, if_false, Except.ok.injEq, Prod.mk.injEq] at ho
              obtain ⟨rfl, rfl⟩ := ho
              exact ⟨⟨Or.inr ⟨_, _, rfl⟩, hself, plainArgs_iff.2 ⟨_, hargs⟩, fun h => by cases h⟩,
                rfl, hargs, by simp, Or.inr rfl⟩
  · rintro ⟨⟨h1, h2, h3, h4⟩, ⟨r1, r2, r3, r4⟩⟩
    simp only at r1 r2 r3 r4 h1 h2 h3 h4
    have hr := checkReceiver_iff.2 h2
    have ha := argTypes_iff.2 r2
    have hk : ikind = if isAsync = true then RpcKind.method else RpcKind.stream := by
      cases isAsync with
      | true => simpa using r3
      | false => cases ikind with
        | method => simp at r3
        | stream => rfl
    have ho : outputOf (if isAsync = true then RpcKind.method else RpcKind.stream) output = .ok (iimpl, ioutput) := by
      rcases r4 with ⟨rfl, rfl, rfl⟩ | rfl
      · rcases h1 with h1 | ⟨_, _, h1⟩
        · simp only at h1; subst h1; rfl
        · cases h1
      · cases isAsync <;> rfl
    refine ⟨?_, ?_⟩
    · unfold RpcItem.fromAst
      simp only [ho, hr, ha, hk, r1]
    · unfold RpcItem.check
      rw [if_neg]
      rintro ⟨e1, e2⟩
      simp only at e1 e2
      subst e2
      rcases r4 with ⟨_, _, e⟩ | rfl
      · cases e
      · exact h4 (r3.1 e1) _ rfl

/-- **C54.** The macro accepts an `impl` block if and only if it accepts each of its functions, and then registers
them in order. -/
theorem C54_accepts_iff (items : List ImplItem) (l : List RpcItem) :
    rpcItems items = .ok l ↔
      (∀ s, .method s ∈ items → Acceptable s) ∧
      All2 RegisteredAs (items.filterMap (fun i => match i with | .method s => some s | .other => none)) l := by
  have key : rpcItems items = .ok l ↔ All2 (fun s i => RpcItem.fromAst s = .ok i ∧ i.check = .ok i) (methodsOf items) l := by
    unfold rpcItems fromAst
    constructor
    · intro h
      cases hf : allOk ((methodsOf items).map RpcItem.fromAst) with
      | error e => rw [hf] at h; cases h
      | ok l' =>
        rw [hf] at h
        have h1 := allOk_map_iff.1 hf
        have h2 := allOk_map_iff.1 h
        clear h hf
        generalize methodsOf items = ms at h1
        induction h1 generalizing l with
        | nil => cases h2; exact .nil
        | cons h1 _ ih =>
          cases h2 with
          | cons h2 h3 =>
            have hc : ∀ {i j : RpcItem}, i.check = .ok j → i = j := by
              intro i j h
              unfold RpcItem.check at h
              split at h
              · cases h
              · injection h
            have := hc h2
            subst this
            exact .cons ⟨h1, h2⟩ (ih _ h3)
    · intro h
      have h1 : allOk ((methodsOf items).map RpcItem.fromAst) = .ok l := by
        refine allOk_map_iff.2 ?_
        generalize methodsOf items = ms at h
        induction h with
        | nil => exact .nil
        | cons h1 _ ih => exact .cons h1.1 ih
      rw [h1]
      refine allOk_map_iff.2 ?_
      clear h1
      generalize methodsOf items = ms at h
      induction h with
      | nil => exact .nil
      | cons h1 _ ih => exact .cons h1.2 ih
  rw [key]
  have hm : ∀ s, s ∈ methodsOf items ↔ .method s ∈ items := by
    intro s
    unfold methodsOf
    rw [List.mem_filterMap]
    constructor
    · rintro ⟨i, hi, e⟩
      cases i with
      | method s' => simp only [Option.some.injEq] at e; exact e ▸ hi
      | other => cases e
    · intro h; exact ⟨_, h, rfl⟩
  constructor
  · intro h
    refine ⟨fun s hs => ?_, ?_⟩
    · have hs := (hm s).2 hs
      clear hm key
      generalize methodsOf items = ms at h hs
      induction h with
      | nil => cases hs
      | cons h1 _ ih =>
        rcases List.mem_cons.1 hs with rfl | hs
        · exact (item_iff.1 h1).1
        · exact ih hs
    · show All2 RegisteredAs (methodsOf items) l
      clear hm key
      generalize methodsOf items = ms at h
      induction h with
      | nil => exact .nil
      | cons h1 _ ih => exact .cons (item_iff.1 h1).2 ih
  · rintro ⟨h0, h3⟩
    have h1 : ∀ s ∈ methodsOf items, Acceptable s := fun s hs => h0 s ((hm s).1 hs)
    have h2 : All2 RegisteredAs (methodsOf items) l := h3
    clear hm key h0 h3
    generalize methodsOf items = ms at h1 h2
    induction h2 with
    | nil => exact .nil
    | cons h _ ih => exact .cons (item_iff.2 ⟨h1 _ (by simp), h⟩) (ih (fun s hs => h1 s (by simp [hs])))

/-- It does accept every block of acceptable functions. -/
theorem C54_accepts (items : List ImplItem) (h : ∀ s, .method s ∈ items → Acceptable s) : ∃ l, rpcItems items = .ok l := by
  have : ∀ s, Acceptable s → ∃ i, RegisteredAs s i := by
    intro s hs
    obtain ⟨args, ha⟩ := plainArgs_iff.1 hs.args
    cases ho : s.output with
    | default =>
      refine ⟨⟨s.ident, args, if s.isAsync then .method else .stream, .prim .unit, false⟩, rfl, ha, ?_, Or.inl ⟨ho, rfl, rfl⟩⟩
      cases s.isAsync <;> simp
    | type i t =>
      refine ⟨⟨s.ident, args, if s.isAsync then .method else .stream, t, i⟩, rfl, ha, ?_, Or.inr ho⟩
      cases s.isAsync <;> simp
  have hex : ∀ ms : List Sig, (∀ s ∈ ms, Acceptable s) → ∃ l, All2 RegisteredAs ms l := by
    intro ms hms
    induction ms with
    | nil => exact ⟨[], .nil⟩
    | cons s ms ih =>
      obtain ⟨l, hl⟩ := ih (fun s hs => hms s (by simp [hs]))
      obtain ⟨i, hi⟩ := this s (hms s (by simp))
      exact ⟨i :: l, .cons hi hl⟩
  obtain ⟨l, hl⟩ := hex (items.filterMap (fun i => match i with | .method s => some s | .other => none)) (by
    intro s hs
    obtain ⟨i, hi, e⟩ := List.mem_filterMap.1 hs
    cases i with
    | method s' => simp only [Option.some.injEq] at e; exact h s (e ▸ hi)
    | other => cases e)
  exact ⟨l, (C54_accepts_iff items l).2 ⟨h, hl⟩⟩

/-- `async fn get(&mut self, id: u32) -> String` and `fn watch(&mut self) -> impl Stream<Item = u32>` are accepted. -/
example : rpcItems [.method ⟨lit "get", true, .type false (.prim .string), [.receiver ⟨true, some none⟩, .typed (.ident (lit "id")) (.prim .u32)]⟩,
      .other, .method ⟨lit "watch", false, .type true (.prim .u32), [.receiver ⟨true, some none⟩]⟩] =
    .ok [⟨lit "get", [(lit "id", .prim .u32)], .method, .prim .string, false⟩, ⟨lit "watch", [], .stream, .prim .u32, true⟩] := rfl

example : rpcItems [.method ⟨lit "f", false, .default, [.receiver ⟨true, some none⟩]⟩] = .error .notAsyncNoStream := rfl
example : rpcItems [.method ⟨lit "f", true, .default, [.receiver ⟨false, some none⟩]⟩] = .error .gotRefSelf := rfl
example : rpcItems [.method ⟨lit "f", true, .default, []⟩] = .error .noSelf := rfl
example : rpcItems [.method ⟨lit "f", true, .type true (.prim .u32), [.receiver ⟨true, some none⟩]⟩] = .error .asyncStream := rfl

end Verif.Props
