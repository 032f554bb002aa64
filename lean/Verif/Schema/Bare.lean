import Verif.Schema.Norm

/-!
# Programs without wrappers: what they need to return (proof helper)
-/

namespace Verif.Schema
open Verif Verif.SchemaSpec

theorem run_of_calls {Q : Program} {ps : List Piece} (h : ∀ m t, Piece.call m t ∈ ps → ∃ s, Returns Q m t s) :
    ∃ k s, runPieces (eval Q k) ps = some s := by
  induction ps with
  | nil => exact ⟨0, _, rfl⟩
  | cons p r ih =>
    obtain ⟨k, s, hs⟩ := ih (fun m t hm => h m t (List.mem_cons_of_mem _ hm))
    cases p with
    | txt u => exact ⟨k, _, runPieces_txt_cons.2 ⟨s, hs, rfl⟩⟩
    | call m t =>
      obtain ⟨x, k', hx⟩ := h m t List.mem_cons_self
      exact ⟨max k k', _, runPieces_call_cons.2 ⟨x, s, eval_mono (Nat.le_max_right _ _) hx,
        runPieces_congr (fun m t _ z hz => eval_mono (Nat.le_max_left _ _) hz) hs, rfl⟩⟩

theorem returns_of_calls {Q : Program} {m : Method} {t : Ty} {ps : List Piece} (hb : body Q m t = some ps)
    (h : ∀ m t, Piece.call m t ∈ ps → ∃ s, Returns Q m t s) : ∃ s, Returns Q m t s := by
  obtain ⟨k, s, hs⟩ := run_of_calls h
  exact ⟨s, (returns_body hb).2 ⟨k, hs⟩⟩

theorem strip_tuple' (ts : List Ty) : strip (.tuple ts) = .tuple (ts.map strip) := by
  rw [strip]
  congr 1
  exact List.attach_map_val (f := strip)

theorem joinP_calls (f : Ty → Ty) (m : Method) (sep : Str) (ts : List Ty) :
    joinP sep ((ts.map f).map (fun t => [Piece.call m t])) = (joinP sep (ts.map (fun t => [Piece.call m t]))).map (Piece.mapTy f) := by
  rw [joinP_mapTy, List.map_map, List.map_map]
  rfl

/-- Except at wrappers, the text of a type without wrappers has the same calls. -/
theorem body_bare (P : Program) (m : Method) {t : Ty} (hw : ∀ w u, t ≠ .wrap w u) :
    body (P.map (Decl.mapTy strip)) m (strip t) = (body P m t).map (List.map (Piece.mapTy strip)) := by
  cases t with
  | wrap w u => exact absurd rfl (hw w u)
  | named i => rw [strip]; exact body_named_mapTy strip P m i
  | tuple ts =>
    cases m with
    | schema =>
      rw [strip_tuple']
      simp only [body, joinP_calls, Option.map_some, List.map_append, List.map_cons, List.map_nil, Piece.mapTy]
    | typeDef =>
      rw [strip_tuple']
      simp only [body, joinP_calls, Option.map_some, List.map_append, List.map_cons, List.map_nil, Piece.mapTy]
    | inlineSchema => rw [strip]; simp only [body, Option.map_some, List.map_cons, List.map_nil, Piece.mapTy, strip]
    | inline => rw [strip]; simp only [body, Option.map_some, List.map_cons, List.map_nil, Piece.mapTy, strip]
  | _ => cases m <;> simp only [strip, body, Option.map_some, List.map_cons, List.map_nil, Piece.mapTy]

theorem bare_isNamed {t : Ty} (hn : isNamed t = false) (hw : ∀ w u, t ≠ .wrap w u) : isNamed (strip t) = false := by
  cases t with
  | named i => cases hn
  | wrap w u => exact absurd rfl (hw w u)
  | _ => simp [strip, isNamed]

theorem mem_mapTy {f : Ty → Ty} {ps : List Piece} {m : Method} {t : Ty} (h : Piece.call m t ∈ ps.map (Piece.mapTy f)) :
    ∃ u, Piece.call m u ∈ ps ∧ t = f u := by
  obtain ⟨p, hp, e⟩ := List.mem_map.1 h
  cases p with
  | txt s => cases e
  | call m u => cases e; exact ⟨u, hp, rfl⟩

theorem run_lazyRef (f : Method → Ty → Option Str) (ns name : Str) : ∃ s, runPieces f (lazyRef ns name) = some s := by
  simp [lazyRef, runPieces]

theorem run_tsRef (f : Method → Ty → Option Str) (ns name : Str) : ∃ s, runPieces f (tsRef ns name) = some s := by
  simp [tsRef, runPieces]

/-- Whatever returns with wrappers returns without them, also where a reference takes the place of the text. -/
theorem bare_returns (P : Program) (n : Nat) :
    (∀ m t s, eval P n m t = some s → ∃ s', Returns (P.map (Decl.mapTy strip)) m (strip t) s') ∧
    (∀ t s, eval P n .schema t = some s → ∃ s', Returns (P.map (Decl.mapTy strip)) .inlineSchema (strip t) s') ∧
    (∀ t s, eval P n .typeDef t = some s → ∃ s', Returns (P.map (Decl.mapTy strip)) .inline (strip t) s') := by
  induction n with
  | zero => refine ⟨?_, ?_, ?_⟩ <;> intros <;> contradiction
  | succ n ih =>
    obtain ⟨h1, h2, h3⟩ := ih
    have h1' : ∀ m t s, eval P (n + 1) m t = some s → ∃ s', Returns (P.map (Decl.mapTy strip)) m (strip t) s' := by
      intro m t s h
      obtain ⟨ps, hb, hr⟩ := eval_succ.1 h
      by_cases hw : ∃ w u, t = .wrap w u
      · obtain ⟨w, u, rfl⟩ := hw
        have one : ∀ m' t', ps = [.call m' t'] → ∃ x, eval P n m' t' = some x := by
          rintro m' t' rfl
          exact ⟨s, runPieces_call_some.1 hr⟩
        cases m with
        | schema => cases hb; obtain ⟨x, hx⟩ := one _ _ rfl; rw [strip]; exact h1 _ _ x hx
        | typeDef => cases hb; obtain ⟨x, hx⟩ := one _ _ rfl; rw [strip]; exact h1 _ _ x hx
        | inlineSchema => cases hb; obtain ⟨x, hx⟩ := one _ _ rfl; exact h2 _ x hx
        | inline => cases hb; obtain ⟨x, hx⟩ := one _ _ rfl; exact h3 _ x hx
      · have hb' := body_bare P m (t := t) (fun w u e => hw ⟨w, u, e⟩)
        rw [hb] at hb'
        refine returns_of_calls hb' (fun m' t' hm => ?_)
        obtain ⟨u, hu, rfl⟩ := mem_mapTy hm
        obtain ⟨x, hx⟩ := runPieces_call_mem hr hu
        exact h1 m' u x hx
    have named : ∀ (m : Method) (i : Nat) (ps : List Piece), body P m (.named i) = some ps → (∃ s, runPieces (eval P n) ps = some s) →
        ∃ s', Returns (P.map (Decl.mapTy strip)) m (.named i) s' := by
      intro m i ps hb hr
      obtain ⟨s, hs⟩ := hr
      have := h1' m (.named i) s (eval_succ.2 ⟨ps, hb, hs⟩)
      rw [strip] at this
      exact this
    refine ⟨h1', ?_, ?_⟩
    · intro t s h
      obtain ⟨ps, hb, hr⟩ := eval_succ.1 h
      by_cases hw : ∃ w u, t = .wrap w u
      · obtain ⟨w, u, rfl⟩ := hw
        cases hb
        rw [strip]
        exact h2 u s (runPieces_call_some.1 hr)
      · cases hn : isNamed t with
        | false =>
          have := isNamed_default (P := P.map (Decl.mapTy strip)) (bare_isNamed hn (fun w u e => hw ⟨w, u, e⟩))
          refine returns_of_calls this.1 (fun m' t' hm => ?_)
          simp only [List.mem_cons, Piece.call.injEq, List.not_mem_nil, or_false] at hm
          obtain ⟨rfl, rfl⟩ := hm
          exact h1' _ t s h
        | true =>
          cases t with
          | named i =>
            rw [strip]
            obtain ⟨d, impl, hd, hi, rfl⟩ := body_named hb
            cases d with
            | struct sd =>
              obtain ⟨_, sch, td, _, _, _, _, rfl⟩ := deriveStruct_ok hi
              refine named _ i _ (body_named_eq hd hi) ?_
              cases hf : sd.from_.ty? <;> exact run_lazyRef _ _ _
            | enum sd =>
              obtain ⟨_, sch, td, _, _, _, rfl⟩ := deriveEnum_ok hi
              cases hf : sd.from_.ty? with
              | none =>
                refine named _ i _ (body_named_eq hd hi) ?_
                rw [hf]
                exact run_lazyRef _ _ _
              | some u =>
                have hb' := body_named_mapTy strip P .inlineSchema i
                rw [body_named_eq hd hi] at hb'
                rw [hf] at hb' hr
                refine returns_of_calls hb' (fun m' t' hm => ?_)
                obtain ⟨u', hu, rfl⟩ := mem_mapTy hm
                simp only [Impl.get, List.mem_cons, Piece.call.injEq, List.not_mem_nil, or_false] at hu
                obtain ⟨rfl, rfl⟩ := hu
                exact h2 u' s (runPieces_call_some.1 hr)
          | _ => cases hn
    · intro t s h
      obtain ⟨ps, hb, hr⟩ := eval_succ.1 h
      by_cases hw : ∃ w u, t = .wrap w u
      · obtain ⟨w, u, rfl⟩ := hw
        cases hb
        rw [strip]
        exact h3 u s (runPieces_call_some.1 hr)
      · cases hn : isNamed t with
        | false =>
          have := isNamed_default (P := P.map (Decl.mapTy strip)) (bare_isNamed hn (fun w u e => hw ⟨w, u, e⟩))
          refine returns_of_calls this.2 (fun m' t' hm => ?_)
          simp only [List.mem_cons, Piece.call.injEq, List.not_mem_nil, or_false] at hm
          obtain ⟨rfl, rfl⟩ := hm
          exact h1' _ t s h
        | true =>
          cases t with
          | named i =>
            rw [strip]
            obtain ⟨d, impl, hd, hi, rfl⟩ := body_named hb
            cases d with
            | struct sd =>
              obtain ⟨_, sch, td, _, _, _, _, rfl⟩ := deriveStruct_ok hi
              refine named _ i _ (body_named_eq hd hi) ?_
              cases hf : sd.from_.ty? with
              | none => exact run_tsRef _ _ _
              | some u => rw [hf] at hr; exact ⟨_, hr⟩
            | enum sd =>
              obtain ⟨_, sch, td, _, _, _, rfl⟩ := deriveEnum_ok hi
              cases hf : sd.from_.ty? with
              | none =>
                refine named _ i _ (body_named_eq hd hi) ?_
                rw [hf]
                exact run_tsRef _ _ _
              | some u =>
                have hb' := body_named_mapTy strip P .inline i
                rw [body_named_eq hd hi] at hb'
                rw [hf] at hb' hr
                refine returns_of_calls hb' (fun m' t' hm => ?_)
                obtain ⟨u', hu, rfl⟩ := mem_mapTy hm
                simp only [Impl.get, List.mem_cons, Piece.call.injEq, List.not_mem_nil, or_false] at hu
                obtain ⟨rfl, rfl⟩ := hu
                exact h3 u' s (runPieces_call_some.1 hr)
          | _ => cases hn

end Verif.Schema
