import Verif.Schema.Eval

/-!
# Lemmas on executing texts with calls (proof helper)
-/

namespace Verif.Schema
open Verif

theorem runPieces_append (f : Method → Ty → Option Str) (a b : List Piece) :
    runPieces f (a ++ b) = match runPieces f a with
      | some x => (runPieces f b).map (x ++ ·)
      | none => none := by
  induction a with
  | nil => simp [runPieces]
  | cons p a ih =>
    cases p with
    | txt s =>
      simp only [List.cons_append, runPieces, ih]
      cases runPieces f a with
      | none => rfl
      | some x => cases runPieces f b <;> simp
    | call m t =>
      simp only [List.cons_append, runPieces, ih]
      cases f m t with
      | none => rfl
      | some y =>
        cases runPieces f a with
        | none => rfl
        | some x => cases runPieces f b <;> simp

theorem runPieces_append_some {f : Method → Ty → Option Str} {a b : List Piece} {s : Str} :
    runPieces f (a ++ b) = some s ↔
      ∃ x y, runPieces f a = some x ∧ runPieces f b = some y ∧ s = x ++ y := by
  rw [runPieces_append]
  cases runPieces f a with
  | none => simp
  | some x => cases runPieces f b <;> simp [eq_comm]

@[simp] theorem runPieces_txt_some {f : Method → Ty → Option Str} {t s : Str} :
    runPieces f [.txt t] = some s ↔ s = t := by
  simp [runPieces, eq_comm]

@[simp] theorem runPieces_call_some {f : Method → Ty → Option Str} {m : Method} {t : Ty} {s : Str} :
    runPieces f [.call m t] = some s ↔ f m t = some s := by
  cases h : f m t <;> simp [runPieces, h]

theorem runPieces_txt_cons {f : Method → Ty → Option Str} {t s : Str} {r : List Piece} :
    runPieces f (.txt t :: r) = some s ↔ ∃ y, runPieces f r = some y ∧ s = t ++ y := by
  simp only [runPieces]
  cases runPieces f r <;> simp [eq_comm]

theorem runPieces_call_cons {f : Method → Ty → Option Str} {m : Method} {t : Ty} {s : Str}
    {r : List Piece} :
    runPieces f (.call m t :: r) = some s ↔
      ∃ x y, f m t = some x ∧ runPieces f r = some y ∧ s = x ++ y := by
  simp only [runPieces]
  cases f m t with
  | none => simp
  | some x => cases runPieces f r <;> simp [eq_comm]

theorem runPieces_nil_some {f : Method → Ty → Option Str} {s : Str} :
    runPieces f [] = some s ↔ s = [] := by
  simp [runPieces, eq_comm]

/-- Executing each text of a list. -/
inductive RunAll (f : Method → Ty → Option Str) : List (List Piece) → List Str → Prop where
  | nil : RunAll f [] []
  | cons {p : List Piece} {s : Str} {ps : List (List Piece)} {ss : List Str} :
      runPieces f p = some s → RunAll f ps ss → RunAll f (p :: ps) (s :: ss)

theorem runPieces_join {f : Method → Ty → Option Str} {sep : Str} {l : List (List Piece)} {s : Str} :
    runPieces f (joinP sep l) = some s ↔ ∃ ss, RunAll f l ss ∧ s = join sep ss := by
  induction l generalizing s with
  | nil =>
    rw [joinP, runPieces_nil_some]
    constructor
    · intro h; exact ⟨[], .nil, h⟩
    · rintro ⟨ss, h, e⟩; cases h; exact e
  | cons x r ih =>
    cases r with
    | nil =>
      rw [joinP]
      constructor
      · intro h; exact ⟨[s], .cons h .nil, rfl⟩
      · rintro ⟨ss, h, e⟩
        cases h with
        | cons h1 h2 => cases h2; rw [e]; exact h1
    | cons y r =>
      rw [joinP, List.append_assoc, runPieces_append_some]
      constructor
      · rintro ⟨a, b, ha, hb, e⟩
        rw [List.singleton_append, runPieces_txt_cons] at hb
        obtain ⟨c, hc, e'⟩ := hb
        obtain ⟨ss, hss, e''⟩ := ih.1 hc
        refine ⟨a :: ss, .cons ha hss, ?_⟩
        cases hss with
        | cons h1 h2 => rw [join_cons_cons, e, e', e'']; simp
      · rintro ⟨ss, h, e⟩
        cases h with
        | cons h1 h2 =>
          rename_i a ss
          refine ⟨a, sep ++ join sep ss, h1, ?_, ?_⟩
          · rw [List.singleton_append, runPieces_txt_cons]
            exact ⟨_, ih.2 ⟨ss, h2, rfl⟩, rfl⟩
          · cases h2 with
            | cons => rw [e, join_cons_cons]; simp

/-- What the pieces' calls return is all that matters. -/
theorem runPieces_congr {f g : Method → Ty → Option Str} {ps : List Piece} {s : Str}
    (h : ∀ m t, Piece.call m t ∈ ps → ∀ x, f m t = some x → g m t = some x)
    (hs : runPieces f ps = some s) : runPieces g ps = some s := by
  induction ps generalizing s with
  | nil => exact hs
  | cons p ps ih =>
    have ih' := fun s => ih (s := s) (fun m t hm => h m t (List.mem_cons_of_mem _ hm))
    cases p with
    | txt t =>
      rw [runPieces_txt_cons] at hs ⊢
      obtain ⟨y, hy, e⟩ := hs
      exact ⟨y, ih' y hy, e⟩
    | call m t =>
      rw [runPieces_call_cons] at hs ⊢
      obtain ⟨x, y, hx, hy, e⟩ := hs
      exact ⟨x, y, h m t (by simp) x hx, ih' y hy, e⟩

theorem runPieces_call_mem {f : Method → Ty → Option Str} {ps : List Piece} {s : Str}
    (hs : runPieces f ps = some s) {m : Method} {t : Ty} (h : Piece.call m t ∈ ps) :
    ∃ x, f m t = some x := by
  induction ps generalizing s with
  | nil => simp at h
  | cons p ps ih =>
    cases p with
    | txt u =>
      rw [runPieces_txt_cons] at hs
      obtain ⟨y, hy, e⟩ := hs
      rcases List.mem_cons.1 h with h' | h'
      · cases h'
      · exact ih hy h'
    | call m' t' =>
      rw [runPieces_call_cons] at hs
      obtain ⟨x, y, hx, hy, e⟩ := hs
      rcases List.mem_cons.1 h with h' | h'
      · cases h'; exact ⟨x, hx⟩
      · exact ih hy h'

theorem runPieces_total {f : Method → Ty → Option Str} {ps : List Piece}
    (h : ∀ m t, Piece.call m t ∈ ps → ∃ x, f m t = some x) : ∃ s, runPieces f ps = some s := by
  induction ps with
  | nil => exact ⟨[], rfl⟩
  | cons p ps ih =>
    obtain ⟨y, hy⟩ := ih (fun m t hm => h m t (List.mem_cons_of_mem _ hm))
    cases p with
    | txt u => exact ⟨u ++ y, by rw [runPieces_txt_cons]; exact ⟨y, hy, rfl⟩⟩
    | call m t =>
      obtain ⟨x, hx⟩ := h m t (by simp)
      exact ⟨x ++ y, by rw [runPieces_call_cons]; exact ⟨x, y, hx, hy, rfl⟩⟩

theorem eval_succ {P : Program} {n : Nat} {m : Method} {t : Ty} {s : Str} :
    eval P (n + 1) m t = some s ↔ ∃ ps, body P m t = some ps ∧ runPieces (eval P n) ps = some s := by
  rw [eval]
  cases body P m t <;> simp

/-- More fuel does not change a result. -/
theorem eval_mono {P : Program} {n n' : Nat} (hn : n ≤ n') {m : Method} {t : Ty} {s : Str}
    (h : eval P n m t = some s) : eval P n' m t = some s := by
  induction n generalizing n' m t s with
  | zero => cases h
  | succ n ih =>
    cases n' with
    | zero => exact absurd hn (by omega)
    | succ n' =>
      rw [eval_succ] at h ⊢
      obtain ⟨ps, hp, hr⟩ := h
      exact ⟨ps, hp, runPieces_congr (fun m t _ x hx => ih (by omega) hx) hr⟩

/-- A call returns one text. -/
theorem returns_unique {P : Program} {m : Method} {t : Ty} {s s' : Str} (h : Returns P m t s)
    (h' : Returns P m t s') : s = s' := by
  obtain ⟨n, hn⟩ := h
  obtain ⟨n', hn'⟩ := h'
  have a := eval_mono (Nat.le_max_left n n') hn
  have b := eval_mono (Nat.le_max_right n n') hn'
  rw [a] at b
  exact Option.some.inj b

/-- The calls of a text return. -/
theorem returns_pieces {P : Program} {m : Method} {t : Ty} {ps : List Piece}
    (hb : body P m t = some ps) (h : ∀ m' t', Piece.call m' t' ∈ ps → ∃ s, Returns P m' t' s) :
    ∃ s, Returns P m t s := by
  have : ∃ n, ∀ m' t', Piece.call m' t' ∈ ps → ∃ s, eval P n m' t' = some s := by
    clear hb
    induction ps with
    | nil => exact ⟨0, by simp⟩
    | cons p ps ih =>
      obtain ⟨n, hn⟩ := ih (fun m' t' hm => h m' t' (List.mem_cons_of_mem _ hm))
      cases p with
      | txt u =>
        refine ⟨n, ?_⟩
        intro m' t' hm
        rcases List.mem_cons.1 hm with e | hm
        · cases e
        · exact hn m' t' hm
      | call m0 t0 =>
        obtain ⟨s0, n0, h0⟩ := h m0 t0 (by simp)
        refine ⟨max n n0, ?_⟩
        intro m' t' hm
        rcases List.mem_cons.1 hm with e | hm
        · cases e; exact ⟨s0, eval_mono (Nat.le_max_right _ _) h0⟩
        · obtain ⟨s, hs⟩ := hn m' t' hm
          exact ⟨s, eval_mono (Nat.le_max_left _ _) hs⟩
  obtain ⟨n, hn⟩ := this
  obtain ⟨s, hs⟩ := runPieces_total hn
  exact ⟨s, n + 1, eval_succ.2 ⟨ps, hb, hs⟩⟩

theorem runPieces_combine {P : Program} {ps : List Piece}
    {f : Method → Ty → Str} (h : ∀ m' t', Piece.call m' t' ∈ ps → Returns P m' t' (f m' t')) :
    ∃ n, ∀ m' t', Piece.call m' t' ∈ ps → eval P n m' t' = some (f m' t') := by
  induction ps with
  | nil => exact ⟨0, by simp⟩
  | cons p ps ih =>
    obtain ⟨n, hn⟩ := ih (fun m' t' hm => h m' t' (List.mem_cons_of_mem _ hm))
    cases p with
    | txt u =>
      refine ⟨n, ?_⟩
      intro m' t' hm
      rcases List.mem_cons.1 hm with e | hm
      · cases e
      · exact hn m' t' hm
    | call m0 t0 =>
      obtain ⟨n0, h0⟩ := h m0 t0 (by simp)
      refine ⟨max n n0, ?_⟩
      intro m' t' hm
      rcases List.mem_cons.1 hm with e | hm
      · cases e; exact eval_mono (Nat.le_max_right _ _) h0
      · exact eval_mono (Nat.le_max_left _ _) (hn m' t' hm)

end Verif.Schema
