import Verif.Js.LexSound

/-!
# The expression reader accepts exactly the expression grammar
-/

namespace Verif.Js
open Verif

/-- The brackets are those of arrow functions. -/
def IsArrow : List Frame → Prop
  | .arrow :: _ => True
  | _ => False

/-- Elements, or arguments, go here. -/
def IsList : List Frame → Prop
  | .arr _ :: _ => True
  | .call _ _ :: _ => True
  | _ => False

/-- Elements, each followed by a comma; last first. -/
inductive DoneElems : List Tok → List JsExpr → Prop
  | nil : DoneElems [] []
  | some {ts es} : Elements ts es → DoneElems (ts ++ [.p ',']) es.reverse

/-- Complete properties, each followed by a comma. -/
inductive DoneProps : List Tok → List Str → List JsExpr → Prop
  | nil : DoneProps [] [] []
  | some {ts ks vs} : Properties ts ks vs → DoneProps (ts ++ [.p ',']) ks.reverse vs.reverse

/-- The tokens that have led to these frames. -/
inductive Opened : List Frame → List Tok → Prop
  | nil : Opened [] []
  | arr {k ts d td} : Opened k ts → ¬ IsArrow k → DoneElems td d → Opened (.arr d :: k) (ts ++ .p '[' :: td)
  | call {k ts f tf d td} : Opened k ts → Operand tf f → (IsArrow k → ∃ w r, tf = .ident w :: r ∧ w ∉ reserved) → DoneElems td d →
      Opened (.call f d :: k) (ts ++ tf ++ .p '(' :: td)
  | objKey {k ts ks vs td} : Opened k ts → ¬ IsArrow k → DoneProps td ks vs → Opened (.objKey ks vs :: k) (ts ++ .p '{' :: td)
  | objVal {k ts ks vs td w} : Opened k ts → ¬ IsArrow k → DoneProps td ks vs →
      Opened (.objVal ks vs w :: k) (ts ++ .p '{' :: td ++ [.ident w, .p ':'])
  | arrow {k ts} : Opened k ts → ¬ IsArrow k → Opened (.arrow :: k) (ts ++ [.p '(', .p ')', .arrow])
  | spread {k ts} : Opened k ts → IsList k → Opened (.spread :: k) (ts ++ [.p '.', .p '.', .p '.'])

/-- The tokens read so far, in terms of the state of the reader. -/
def Inv (s : PState) (ts : List Tok) : Prop :=
  match s.2 with
  | .need => Opened s.1 ts ∧ ¬ IsArrow s.1
  | .needOrClose => Opened s.1 ts ∧ ((∃ k, s.1 = .arr [] :: k) ∨ ∃ f k, s.1 = .call f [] :: k)
  | .have_ e => ∃ t0 te, ts = t0 ++ te ∧ Opened s.1 t0 ∧ Operand te e ∧ (IsArrow s.1 → ∃ w r, te = .ident w :: r ∧ w ∉ reserved)
  | .closed e => ∃ t0 te, ts = t0 ++ te ∧ Opened s.1 t0 ∧ Expression te e ∧ ¬ IsArrow s.1
  | .dot e => ∃ t0 te, ts = t0 ++ te ++ [.p '.'] ∧ Opened s.1 t0 ∧ Operand te e ∧ (IsArrow s.1 → ∃ w r, te = .ident w :: r ∧ w ∉ reserved)
  | .key => Opened s.1 ts ∧ ∃ ks vs k, s.1 = .objKey ks vs :: k
  | .keyOrClose => Opened s.1 ts ∧ ∃ k, s.1 = .objKey [] [] :: k
  | .colon w => ∃ t0, ts = t0 ++ [.ident w] ∧ Opened s.1 t0
  | .neg => ∃ t0, ts = t0 ++ [.p '-'] ∧ Opened s.1 t0 ∧ ¬ IsArrow s.1
  | .paren => ∃ t0, ts = t0 ++ [.p '('] ∧ Opened s.1 t0 ∧ ¬ IsArrow s.1
  | .parenClose => ∃ t0, ts = t0 ++ [.p '(', .p ')'] ∧ Opened s.1 t0 ∧ ¬ IsArrow s.1
  | .body => Opened s.1 ts
  | .dots1 => ∃ t0, ts = t0 ++ [.p '.'] ∧ Opened s.1 t0 ∧ IsList s.1
  | .dots2 => ∃ t0, ts = t0 ++ [.p '.', .p '.'] ∧ Opened s.1 t0 ∧ IsList s.1

theorem DoneElems.add {td te : List Tok} {d : List JsExpr} {e : JsExpr} (h : DoneElems td d) (he : Element te e) :
    Elements (td ++ te) (e :: d).reverse := by
  cases h with
  | nil => exact .one he
  | some h => rw [List.reverse_cons, List.reverse_reverse, List.append_assoc]; exact .more h he

theorem DoneElems.next {td te : List Tok} {d : List JsExpr} {e : JsExpr} (h : DoneElems td d) (he : Element te e) :
    DoneElems (td ++ te ++ [.p ',']) (e :: d) := by
  have := DoneElems.some (h.add he)
  rwa [List.reverse_reverse] at this

theorem DoneProps.add {td te : List Tok} {ks : List Str} {vs : List JsExpr} {w : Str} {e : JsExpr} (h : DoneProps td ks vs)
    (he : Expression te e) : Properties (td ++ .ident w :: .p ':' :: te) (w :: ks).reverse (e :: vs).reverse := by
  cases h with
  | nil => exact .one he
  | some h => simp only [List.reverse_cons, List.reverse_reverse, List.append_assoc]; exact .more h he

theorem DoneProps.next {td te : List Tok} {ks : List Str} {vs : List JsExpr} {w : Str} {e : JsExpr} (h : DoneProps td ks vs)
    (he : Expression te e) : DoneProps (td ++ .ident w :: .p ':' :: te ++ [.p ',']) (w :: ks) (e :: vs) := by
  have := DoneProps.some (h.add (w := w) he)
  rwa [List.reverse_reverse, List.reverse_reverse] at this

theorem DoneElems.of_nil {td : List Tok} (h : DoneElems td []) : td = [] := by
  generalize hd : ([] : List JsExpr) = d at h
  cases h with
  | nil => rfl
  | some h =>
    cases h with
    | one => simp at hd
    | more => simp at hd

theorem DoneProps.of_nil {td : List Tok} {vs : List JsExpr} (h : DoneProps td [] vs) : td = [] := by
  generalize hd : ([] : List Str) = d at h
  cases h with
  | nil => rfl
  | some h =>
    cases h with
    | one => simp at hd
    | more => simp at hd

theorem IsList.notArrow {k : List Frame} (h : IsList k) : ¬ IsArrow k := by
  cases k with
  | nil => exact fun h => h
  | cons f k => cases f <;> first | exact h.elim | exact fun h => h

theorem closeStep_arr {d k e t s} (h : closeStep (.arr d :: k) e t = some s) :
    (t = .p ',' ∧ s = (.arr (e :: d) :: k, .need)) ∨ (t = .p ']' ∧ s = (k, .have_ (.arr (e :: d).reverse))) := by
  rw [closeStep.eq_def] at h
  split at h <;> simp_all
theorem closeStep_call {f d k e t s} (h : closeStep (.call f d :: k) e t = some s) :
    (t = .p ',' ∧ s = (.call f (e :: d) :: k, .need)) ∨ (t = .p ')' ∧ s = (k, .have_ (.call f (e :: d).reverse))) := by
  rw [closeStep.eq_def] at h
  split at h <;> simp_all
theorem closeStep_obj {ks vs w k e t s} (h : closeStep (.objVal ks vs w :: k) e t = some s) :
    (t = .p ',' ∧ s = (.objKey (w :: ks) (e :: vs) :: k, .key)) ∨
      (t = .p '}' ∧ s = (k, .have_ (.obj (w :: ks).reverse (e :: vs).reverse))) := by
  rw [closeStep.eq_def] at h
  split at h <;> simp_all
theorem needStep_inv {k t s} (h : needStep k t = some s) :
    (∃ w, t = .ident w ∧ notExpr w = false ∧ s = (k, .have_ (.var w))) ∨ (∃ n : Nat, t = .num n ∧ s = (k, .have_ (.num n))) ∨
    (∃ w, t = .str w ∧ s = (k, .have_ (.str w))) ∨ (t = .p '[' ∧ s = (.arr [] :: k, .needOrClose)) ∨
    (t = .p '{' ∧ s = (.objKey [] [] :: k, .keyOrClose)) ∨ (t = .p '(' ∧ s = (k, .paren)) ∨ (t = .p '-' ∧ s = (k, .neg)) ∨
    (t = .p '.' ∧ s = (k, .dots1) ∧ ((∃ d k', k = .arr d :: k') ∨ (∃ f d k', k = .call f d :: k'))) := by
  unfold needStep at h
  split at h
  · split at h
    · cases h
    · simp_all
  all_goals try simp_all
  split at h <;> simp_all
/-- After an element. -/
theorem close_element {k : List Frame} {t0 te : List Tok} {e : JsExpr} {t : Tok} {s : PState} (hk : Opened k t0) (hl : IsList k)
    (he : Element te e) (h : closeStep k e t = some s) : Inv s (t0 ++ te ++ [t]) := by
  cases hk with
  | @arr k ts d td hk hn hd =>
    rcases closeStep_arr h with ⟨rfl, rfl⟩ | ⟨rfl, rfl⟩
    · refine ⟨?_, fun h => h⟩
      have := Opened.arr hk hn (hd.next he)
      simpa using this
    · exact ⟨ts, .p '[' :: (td ++ te) ++ [.p ']'], by simp, hk, .arr (hd.add he), fun h => absurd h hn⟩
  | @call k ts f tf d td hk hf hn hd =>
    rcases closeStep_call h with ⟨rfl, rfl⟩ | ⟨rfl, rfl⟩
    · refine ⟨?_, fun h => h⟩
      have := Opened.call hk hf hn (hd.next he)
      simpa using this
    · refine ⟨ts, tf ++ .p '(' :: (td ++ te) ++ [.p ')'], by simp, hk, .call hf (hd.add he), fun h => ?_⟩
      obtain ⟨w, r, rfl, hw⟩ := hn h
      exact ⟨w, _, rfl, hw⟩
  | nil => exact hl.elim
  | objKey => exact hl.elim
  | objVal => exact hl.elim
  | arrow => exact hl.elim
  | spread => exact hl.elim

/-- After an expression that is not the body of an arrow function. -/
theorem close_expression {k : List Frame} {t0 te : List Tok} {e : JsExpr} {t : Tok} {s : PState} (hk : Opened k t0) (hn : ¬ IsArrow k)
    (he : Expression te e) (h : closeStep k e t = some s) : Inv s (t0 ++ te ++ [t]) := by
  cases hk with
  | arr h1 h2 h3 => exact close_element (.arr h1 h2 h3) trivial (.expr he) h
  | call h1 h2 h3 h4 => exact close_element (.call h1 h2 h3 h4) trivial (.expr he) h
  | nil => simp [closeStep] at h
  | objKey => simp [closeStep] at h
  | @objVal k ts ks vs td w hk hn' hd =>
    rcases closeStep_obj h with ⟨rfl, rfl⟩ | ⟨rfl, rfl⟩
    · refine ⟨?_, _, _, _, rfl⟩
      have := Opened.objKey hk hn' (hd.next (w := w) he)
      simpa using this
    · exact ⟨ts, .p '{' :: (td ++ .ident w :: .p ':' :: te) ++ [.p '}'], by simp, hk, .obj (hd.add he), fun h => absurd h hn'⟩
  | arrow => exact absurd trivial hn
  | @spread k ts hk hl =>
    rw [closeStep] at h
    have := close_element hk hl (.spread he) h
    simpa using this

theorem notExpr_iff {w : Str} : notExpr w = false ↔ w ∉ reserved ∨ w = lit "arguments" := by
  unfold notExpr
  by_cases h : w ∈ reserved <;> simp [h]

theorem needStep_sound {k : List Frame} {t : Tok} {s : PState} {ts : List Tok} (hk : Opened k ts) (hn : ¬ IsArrow k)
    (h : needStep k t = some s) : Inv s (ts ++ [t]) := by
  rcases needStep_inv h with ⟨w, rfl, hw, rfl⟩ | ⟨n, rfl, rfl⟩ | ⟨w, rfl, rfl⟩ | ⟨rfl, rfl⟩ | ⟨rfl, rfl⟩ | ⟨rfl, rfl⟩ | ⟨rfl, rfl⟩ | ⟨rfl, rfl, hl⟩
  · exact ⟨ts, _, rfl, hk, .var (notExpr_iff.1 hw), fun h => absurd h hn⟩
  · exact ⟨ts, _, rfl, hk, .num, fun h => absurd h hn⟩
  · exact ⟨ts, _, rfl, hk, .str, fun h => absurd h hn⟩
  · exact ⟨.arr hk hn .nil, .inl ⟨_, rfl⟩⟩
  · exact ⟨.objKey hk hn .nil, _, rfl⟩
  · exact ⟨ts, rfl, hk, hn⟩
  · exact ⟨ts, rfl, hk, hn⟩
  · refine ⟨ts, rfl, hk, ?_⟩
    rcases hl with ⟨_, _, rfl⟩ | ⟨_, _, _, rfl⟩ <;> trivial

theorem have_sound {k : List Frame} {t0 te : List Tok} {e : JsExpr} {t : Tok} {s : PState} (hk : Opened k t0) (he : Operand te e)
    (ha : IsArrow k → ∃ w r, te = .ident w :: r ∧ w ∉ reserved) (h : pStep (k, .have_ e) t = some s) : Inv s (t0 ++ te ++ [t]) := by
  have key : (t = .p '.' ∧ s = (k, .dot e)) ∨ (t = .p '(' ∧ s = (.call e [] :: k, .needOrClose)) ∨ closeStep k e t = some s := by
    unfold pStep at h
    simp only at h
    split at h <;> simp_all
  rcases key with ⟨rfl, rfl⟩ | ⟨rfl, rfl⟩ | h
  · exact ⟨t0, te, rfl, hk, he, ha⟩
  · exact ⟨.call hk he ha .nil, .inr ⟨_, _, rfl⟩⟩
  · by_cases hn : IsArrow k
    · obtain ⟨w, r, rfl, hw⟩ := ha hn
      cases hk with
      | @arrow k ts hk hn' =>
        rw [closeStep] at h
        have := close_expression hk hn' (.arrow hw he) h
        simpa using this
      | nil => exact hn.elim
      | arr => exact hn.elim
      | call => exact hn.elim
      | objKey => exact hn.elim
      | objVal => exact hn.elim
      | spread => exact hn.elim
    · exact close_expression hk hn (.operand he) h

theorem pStep_sound {s s' : PState} {t : Tok} {ts : List Tok} (hi : Inv s ts) (h : pStep s t = some s') : Inv s' (ts ++ [t]) := by
  obtain ⟨k, c⟩ := s
  cases c with
  | need => exact needStep_sound hi.1 hi.2 h
  | needOrClose =>
    obtain ⟨ho, hk⟩ := hi
    have hn : ¬ IsArrow k := by
      rcases hk with ⟨_, e⟩ | ⟨_, _, e⟩ <;> (simp only at e; subst e; exact fun h => h)
    have key : (∃ d k', t = .p ']' ∧ k = .arr d :: k' ∧ s' = (k', .have_ (.arr d.reverse))) ∨
        (∃ f d k', t = .p ')' ∧ k = .call f d :: k' ∧ s' = (k', .have_ (.call f d.reverse))) ∨ needStep k t = some s' := by
      unfold pStep at h
      simp only at h
      split at h
      · split at h
        · cases h
          exact .inl ⟨_, _, rfl, rfl, rfl⟩
        · cases h
      · split at h
        · cases h
          exact .inr (.inl ⟨_, _, _, rfl, rfl, rfl⟩)
        · cases h
      · exact .inr (.inr h)
    rcases key with ⟨d, k', rfl, rfl, rfl⟩ | ⟨f, d, k', rfl, rfl, rfl⟩ | h
    · rcases hk with ⟨_, e⟩ | ⟨_, _, e⟩ <;> cases e
      cases ho with
      | @arr k ts d td hk hn hd =>
        obtain rfl := hd.of_nil
        exact ⟨ts, [.p '[', .p ']'], by simp, hk, .arr0, fun h => absurd h hn⟩
    · rcases hk with ⟨_, e⟩ | ⟨_, _, e⟩ <;> cases e
      cases ho with
      | @call k ts f tf d td hk hf hn hd =>
        obtain rfl := hd.of_nil
        refine ⟨ts, tf ++ [.p '(', .p ')'], by simp, hk, .call0 hf, fun h => ?_⟩
        obtain ⟨w, r, rfl, hw⟩ := hn h
        exact ⟨w, _, rfl, hw⟩
    · exact needStep_sound ho hn h
  | have_ e =>
    obtain ⟨t0, te, rfl, hk, he, ha⟩ := hi
    exact have_sound hk he ha h
  | closed e =>
    obtain ⟨t0, te, rfl, hk, he, hn⟩ := hi
    exact close_expression hk hn he h
  | dot e =>
    obtain ⟨t0, te, rfl, hk, he, ha⟩ := hi
    unfold pStep at h
    simp only at h
    split at h
    · cases h
      refine ⟨t0, _, by rw [List.append_assoc, List.append_assoc]; rfl, hk, .member he, fun h => ?_⟩
      obtain ⟨w, r, rfl, hw⟩ := ha h
      exact ⟨w, _, rfl, hw⟩
    · cases h
  | key =>
    obtain ⟨ho, _⟩ := hi
    unfold pStep at h
    simp only at h
    split at h
    · cases h
      exact ⟨ts, rfl, ho⟩
    · cases h
  | keyOrClose =>
    obtain ⟨ho, k', e⟩ := hi
    simp only at e
    subst e
    unfold pStep at h
    simp only at h
    split at h
    · cases h
      exact ⟨ts, rfl, ho⟩
    · cases h
      cases ho with
      | @objKey k ts ks vs td hk hn hd =>
        obtain rfl := hd.of_nil
        exact ⟨ts, [.p '{', .p '}'], by simp, hk, .obj0, fun h => absurd h hn⟩
    · cases h
  | colon w =>
    obtain ⟨t0, rfl, ho⟩ := hi
    unfold pStep at h
    simp only at h
    split at h
    · split at h
      · cases h
        cases ho with
        | @objKey k ts ks vs td hk hn hd =>
          have := Opened.objVal (w := w) hk hn hd
          exact ⟨by simpa using this, fun h => h⟩
      · cases h
    · cases h
  | neg =>
    obtain ⟨t0, rfl, ho, hn⟩ := hi
    unfold pStep at h
    simp only at h
    split at h
    · cases h
      exact ⟨t0, _, by rw [List.append_assoc]; rfl, ho, .neg, hn⟩
    · cases h
  | paren =>
    obtain ⟨t0, rfl, ho, hn⟩ := hi
    unfold pStep at h
    simp only at h
    split at h
    · cases h
      exact ⟨t0, by rw [List.append_assoc]; rfl, ho, hn⟩
    · cases h
  | parenClose =>
    obtain ⟨t0, rfl, ho, hn⟩ := hi
    unfold pStep at h
    simp only at h
    split at h
    · cases h
      have := Opened.arrow ho hn
      rw [List.append_assoc]
      exact this
    · cases h
  | body =>
    unfold pStep at h
    simp only at h
    split at h
    · rename_i w
      split at h
      · cases h
      · rename_i hw
        cases h
        have hw : w ∉ reserved := by simpa using hw
        exact ⟨ts, _, rfl, hi, .var (.inl hw), fun _ => ⟨w, [], rfl, hw⟩⟩
    · cases h
  | dots1 =>
    obtain ⟨t0, rfl, ho, hn⟩ := hi
    unfold pStep at h
    simp only at h
    split at h
    · cases h
      exact ⟨t0, by rw [List.append_assoc]; rfl, ho, hn⟩
    · cases h
  | dots2 =>
    obtain ⟨t0, rfl, ho, hn⟩ := hi
    unfold pStep at h
    simp only at h
    split at h
    · cases h
      refine ⟨?_, fun h => h⟩
      rw [List.append_assoc]
      exact Opened.spread ho hn
    · cases h

theorem pRun_sound (ts : List Tok) : ∀ {s s' : PState} {t0 : List Tok}, Inv s t0 → pRun s ts = some s' → Inv s' (t0 ++ ts) := by
  induction ts with
  | nil => intro s s' t0 hi h; cases h; simpa using hi
  | cons t r ih =>
    intro s s' t0 hi h
    rw [pRun] at h
    cases hs : pStep s t with
    | none => rw [hs] at h; cases h
    | some x =>
      rw [hs] at h
      have := ih (pStep_sound hi hs) h
      simpa using this

theorem parseExpr_sound {ts : List Tok} {e : JsExpr} (h : parseExpr ts = some e) : Operand ts e := by
  unfold parseExpr at h
  split at h
  · rename_i e' hr
    cases h
    obtain ⟨t0, te, e, ho, he, _⟩ := pRun_sound ts (s := ([], .need)) (t0 := []) ⟨.nil, fun h => h⟩ hr
    cases ho
    rw [List.nil_append, List.nil_append] at e
    rw [e]
    exact he
  · cases h

/-! ## Everything the grammar derives is read -/

theorem pRun_app {s s' s'' : PState} {a b : List Tok} (h : pRun s a = some s') (h' : pRun s' b = some s'') : pRun s (a ++ b) = some s'' := by
  rw [pRun_append_some h, h']

/-- What is read leads to a state in which the next token is treated like after `e`, in `k`. -/
def ReadsIn (k : List Frame) (c : Cur) (ts : List Tok) (e : JsExpr) : Prop :=
  ∃ s, pRun (k, c) ts = some s ∧ ∀ t, t = .p ',' ∨ t = .p ']' ∨ t = .p ')' ∨ t = .p '}' → pStep s t = closeStep k e t

theorem ReadsIn.then {k : List Frame} {c : Cur} {ts : List Tok} {e : JsExpr} (h : ReadsIn k c ts e) {t : Tok}
    (ht : t = .p ',' ∨ t = .p ']' ∨ t = .p ')' ∨ t = .p '}') : pRun (k, c) (ts ++ [t]) = closeStep k e t := by
  obtain ⟨s, h1, h2⟩ := h
  rw [pRun_append_some h1, pRun, h2 t ht]
  cases closeStep k e t <;> rfl

theorem reads_operand {k : List Frame} {c : Cur} {ts : List Tok} {e : JsExpr} (h : pRun (k, c) ts = some (k, .have_ e)) :
    ReadsIn k c ts e := by
  refine ⟨_, h, fun t ht => ?_⟩
  rcases ht with rfl | rfl | rfl | rfl <;> rfl

/-- Elements are added to the list being read. -/
def ReadsElems (ts : List Tok) (es : List JsExpr) : Prop :=
  ∀ (f : List JsExpr → Frame), (f = Frame.arr ∨ ∃ g, f = Frame.call g) → ∀ (d : List JsExpr) (k : List Frame) (c : Cur), Starts c →
    ∃ e l, es = l ++ [e] ∧ ReadsIn' f (l.reverse ++ d) k d c ts e
where
  /-- the last element follows the others -/
  ReadsIn' (f : List JsExpr → Frame) (d' : List JsExpr) (k : List Frame) (d : List JsExpr) (c : Cur) (ts : List Tok) (e : JsExpr) : Prop :=
    ∃ s, pRun (f d :: k, c) ts = some s ∧
      ∀ t, t = .p ',' ∨ t = .p ']' ∨ t = .p ')' ∨ t = .p '}' → pStep s t = closeStep (f d' :: k) e t

/-- Properties are added to the object being read. -/
def ReadsProps (ts : List Tok) (ks : List Str) (vs : List JsExpr) : Prop :=
  ∀ (ks0 : List Str) (vs0 : List JsExpr) (k : List Frame) (c : Cur), (c = .key ∨ c = .keyOrClose) →
    ∃ w lk e lv s, ks = lk ++ [w] ∧ vs = lv ++ [e] ∧ pRun (.objKey ks0 vs0 :: k, c) ts = some s ∧
      ∀ t, t = .p ',' ∨ t = .p ']' ∨ t = .p ')' ∨ t = .p '}' →
        pStep s t = closeStep (.objVal (lk.reverse ++ ks0) (lv.reverse ++ vs0) w :: k) e t

theorem pRun_one {s s' : PState} {t : Tok} (h : pStep s t = some s') : pRun s [t] = some s' := by rw [pRun, h]; rfl

theorem pRun_cons {s s' : PState} {t : Tok} {r : List Tok} (h : pStep s t = some s') : pRun s (t :: r) = pRun s' r := by rw [pRun, h]

theorem starts_step {k : List Frame} {c : Cur} {t : Tok} (hc : Starts c) (h1 : t ≠ .p ']') (h2 : t ≠ .p ')') :
    pStep (k, c) t = needStep k t := by
  rcases hc with rfl | rfl
  · rfl
  · unfold pStep
    simp only

/-- Wherever its first token is read as the start of an expression, the operand is read. -/
def ReadsOperand (ts : List Tok) (e : JsExpr) : Prop :=
  ∃ t r, ts = t :: r ∧ t ≠ .p ']' ∧ t ≠ .p ')' ∧ ∀ s k, pStep s t = needStep k t → pRun s ts = some (k, .have_ e)

theorem ReadsOperand.at {ts : List Tok} {e : JsExpr} (h : ReadsOperand ts e) {k : List Frame} {c : Cur} (hc : Starts c) :
    pRun (k, c) ts = some (k, .have_ e) := by
  obtain ⟨t, r, _, h1, h2, h⟩ := h
  exact h _ _ (starts_step hc h1 h2)

/-- More tokens after the operand. -/
theorem ReadsOperand.more {ts ts' : List Tok} {e e' : JsExpr} (h : ReadsOperand ts e)
    (h' : ∀ k, pRun (k, .have_ e) ts' = some (k, .have_ e')) : ReadsOperand (ts ++ ts') e' := by
  obtain ⟨t, r, rfl, h1, h2, h⟩ := h
  exact ⟨t, r ++ ts', rfl, h1, h2, fun s k hs => pRun_app (h s k hs) (h' k)⟩

/-- More tokens after the first. -/
theorem ReadsOperand.bracket {t : Tok} {r : List Tok} {e : JsExpr} (h1 : t ≠ .p ']') (h2 : t ≠ .p ')')
    (h : ∀ k, ∃ s, needStep k t = some s ∧ pRun s r = some (k, .have_ e)) : ReadsOperand (t :: r) e := by
  refine ⟨t, r, rfl, h1, h2, fun s k hs => ?_⟩
  obtain ⟨s', h3, h4⟩ := h k
  rw [pRun_cons (hs.trans h3), h4]

theorem operand_read {ts : List Tok} {e : JsExpr} (h : Operand ts e) : ReadsOperand ts e := by
  refine Operand.rec (motive_1 := fun ts e _ => ReadsOperand ts e) (motive_2 := fun ts e _ => ∀ k c, Starts c → ReadsIn k c ts e)
    (motive_3 := fun ts e _ => ∀ f : List JsExpr → Frame, (f = Frame.arr ∨ ∃ g, f = Frame.call g) → ∀ d k c, Starts c → ReadsIn (f d :: k) c ts e)
    (motive_4 := fun ts es _ => ReadsElems ts es) (motive_5 := fun ts ks vs _ => ReadsProps ts ks vs)
    ?var ?num ?str ?arr0 ?arr ?obj0 ?obj ?member ?call0 ?call ?operand ?neg ?arrow ?expr ?spread ?one ?more ?pone ?pmore h
  case var =>
    intro w hw
    refine .bracket (by simp) (by simp) fun k => ⟨_, ?_, rfl⟩
    simp [needStep, notExpr_iff.2 hw]
  case num => intro n; exact .bracket (by simp) (by simp) fun k => ⟨_, rfl, rfl⟩
  case str => intro n; exact .bracket (by simp) (by simp) fun k => ⟨_, rfl, rfl⟩
  case arr0 => exact .bracket (by simp) (by simp) fun k => ⟨_, rfl, rfl⟩
  case obj0 => exact .bracket (by simp) (by simp) fun k => ⟨_, rfl, rfl⟩
  case arr =>
    intro ts es _ ih
    refine .bracket (by simp) (by simp) fun k => ⟨_, rfl, ?_⟩
    obtain ⟨e, l, rfl, s, h1, h2⟩ := ih Frame.arr (.inl rfl) [] k .needOrClose (.inr rfl)
    refine pRun_app h1 (pRun_one ?_)
    rw [h2 _ (by simp)]
    simp [closeStep]
  case obj =>
    intro ts ks vs _ ih
    refine .bracket (by simp) (by simp) fun k => ⟨_, rfl, ?_⟩
    obtain ⟨w, lk, e, lv, s, rfl, rfl, h1, h2⟩ := ih [] [] k .keyOrClose (.inr rfl)
    refine pRun_app h1 (pRun_one ?_)
    rw [h2 _ (by simp)]
    simp [closeStep]
  case member => intro ts e w _ ih; exact ih.more fun k => rfl
  case call0 => intro ts e _ ih; exact ih.more fun k => rfl
  case call =>
    intro ts f as es _ _ ih ih'
    rw [List.append_assoc]
    refine ih.more fun k => ?_
    obtain ⟨e, l, rfl, s, h1, h2⟩ := ih' (Frame.call f) (.inr ⟨_, rfl⟩) [] k .needOrClose (.inr rfl)
    rw [List.cons_append, pRun_cons (s' := (.call f [] :: k, .needOrClose)) rfl]
    refine pRun_app h1 (pRun_one ?_)
    rw [h2 _ (by simp)]
    simp [closeStep]
  case operand => intro ts e _ ih k c hc; exact reads_operand (ih.at hc)
  case neg =>
    intro n k c hc
    refine ⟨(k, .closed (.num (-(n : Int)))), ?_, fun t _ => rfl⟩
    rw [pRun_cons ((starts_step hc (by simp) (by simp)).trans rfl)]
    rfl
  case arrow =>
    intro w ts e hw _ ih k c hc
    refine ⟨(.arrow :: k, .have_ e), ?_, fun t ht => ?_⟩
    · rw [pRun_cons ((starts_step hc (by simp) (by simp)).trans rfl), pRun_cons (s' := (k, .parenClose)) rfl,
        pRun_cons (s' := (.arrow :: k, .body)) rfl]
      obtain ⟨t, r, e, _, _, h⟩ := ih
      injection e with e1 e2
      subst e1
      refine h _ _ ?_
      show (if reserved.contains w then none else some _) = (if notExpr w then none else some _)
      simp [notExpr, hw]
    · rcases ht with rfl | rfl | rfl | rfl <;> (show closeStep _ _ _ = _; rw [closeStep])
  case expr => intro ts e _ ih f _ d k c hc; exact ih _ c hc
  case spread =>
    intro ts e _ ih f hf d k c hc
    obtain ⟨s, h1, h2⟩ := ih (.spread :: f d :: k) .need (.inl rfl)
    refine ⟨s, ?_, fun t ht => ?_⟩
    · have h0 : pStep (f d :: k, c) (.p '.') = some (f d :: k, .dots1) := by
        rw [starts_step hc (by simp) (by simp)]
        rcases hf with rfl | ⟨g, rfl⟩ <;> rfl
      rw [pRun_cons h0, pRun_cons (s' := (f d :: k, .dots2)) rfl, pRun_cons (s' := (.spread :: f d :: k, .need)) rfl, h1]
    · rw [h2 t ht, closeStep]
  case one =>
    intro ts e _ ih f hf d k c hc
    obtain ⟨s, h1, h2⟩ := ih f hf d k c hc
    exact ⟨e, [], rfl, s, h1, h2⟩
  case more =>
    intro ts es ts' e _ _ ih ih' f hf d k c hc
    obtain ⟨e', l, rfl, s, h1, h2⟩ := ih f hf d k c hc
    obtain ⟨s', h3, h4⟩ := ih' f hf (e' :: (l.reverse ++ d)) k .need (.inl rfl)
    refine ⟨e, l ++ [e'], rfl, s', ?_, ?_⟩
    · refine pRun_app h1 ?_
      have : pStep s (.p ',') = some (f (e' :: (l.reverse ++ d)) :: k, .need) := by
        rw [h2 _ (by simp)]
        rcases hf with rfl | ⟨g, rfl⟩ <;> rfl
      rw [pRun_cons this, h3]
    · intro t ht
      rw [h4 t ht]
      simp
  case pone =>
    intro w ts e _ ih ks0 vs0 k c hc
    obtain ⟨s, h1, h2⟩ := ih (.objVal ks0 vs0 w :: k) .need (.inl rfl)
    refine ⟨w, [], e, [], s, rfl, rfl, ?_, h2⟩
    have : pStep (.objKey ks0 vs0 :: k, c) (.ident w) = some (.objKey ks0 vs0 :: k, .colon w) := by rcases hc with rfl | rfl <;> rfl
    rw [pRun_cons this, pRun_cons (s' := (.objVal ks0 vs0 w :: k, .need)) rfl, h1]
  case pmore =>
    intro ts ks vs w ts' e _ _ ih ih' ks0 vs0 k c hc
    obtain ⟨w', lk, e', lv, s, rfl, rfl, h1, h2⟩ := ih ks0 vs0 k c hc
    obtain ⟨s', h3, h4⟩ := ih' (.objVal (w' :: (lk.reverse ++ ks0)) (e' :: (lv.reverse ++ vs0)) w :: k) .need (.inl rfl)
    refine ⟨w, lk ++ [w'], e, lv ++ [e'], s', rfl, rfl, ?_, ?_⟩
    · refine pRun_app h1 ?_
      have : pStep s (.p ',') = some (.objKey (w' :: (lk.reverse ++ ks0)) (e' :: (lv.reverse ++ vs0)) :: k, .key) := by
        rw [h2 _ (by simp)]
        rfl
      rw [pRun_cons this, pRun_cons (s' := (.objKey (w' :: (lk.reverse ++ ks0)) (e' :: (lv.reverse ++ vs0)) :: k, .colon w)) rfl,
        pRun_cons (s' := (.objVal (w' :: (lk.reverse ++ ks0)) (e' :: (lv.reverse ++ vs0)) w :: k, .need)) rfl, h3]
    · intro t ht
      rw [h4 t ht]
      simp

/-- Tokens are read as this expression exactly if the grammar derives it. -/
theorem parseExpr_iff (ts : List Tok) (e : JsExpr) : parseExpr ts = some e ↔ Operand ts e := by
  refine ⟨parseExpr_sound, fun h => ?_⟩
  unfold parseExpr
  rw [(operand_read h).at (.inl rfl)]

/-- A text is read as this expression exactly if the grammar says so. -/
theorem readExpr_iff (s : Str) (e : JsExpr) : readExpr s = some e ↔ ∃ ts, Spells s ts ∧ Operand ts e := by
  unfold readExpr
  constructor
  · intro h
    cases hl : lex s with
    | none => rw [hl] at h; cases h
    | some ts => rw [hl] at h; exact ⟨ts, (lex_iff s ts).1 hl, (parseExpr_iff ts e).1 h⟩
  · rintro ⟨ts, h1, h2⟩
    rw [(lex_iff s ts).2 h1]
    exact (parseExpr_iff ts e).2 h2

end Verif.Js
