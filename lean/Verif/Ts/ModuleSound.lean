import Verif.Spec.ModuleGrammar
import Verif.Js.SourceSound
import Verif.Js.ExprSound
import Verif.Ts.TypeSound
import Verif.Ts.ReadMembers

/-!
# The reader of modules accepts exactly the grammar of modules
-/

namespace Verif.Spec
open Verif Verif.Js Verif.Ts

theorem unmark_append (a b : List FTok) : unmark (a ++ b) = unmark a ++ unmark b := List.map_append

theorem bindable_iff {w : Str} : bindable w = true ↔ w ∉ reserved := by simp [bindable]

theorem declarable_iff {w : Str} : declarable w = true ↔ w ∉ reserved ∧ w ∉ predefinedTypes := by simp [declarable]

theorem endsBefore_append {a b : List FTok} (h : EndsBefore (a ++ b)) (ha : a ≠ []) : EndsBefore a := by
  cases a with
  | nil => exact absurd rfl ha
  | cons x a =>
    cases h with
    | semicolon => exact .semicolon
    | brace => exact .brace
    | line h => exact .line h

theorem inserts_ends {t : Tok} {nl : Bool} {r : List FTok} (h : (t = .p ';' || inserts t nl) = true) : EndsBefore ((t, nl) :: r) := by
  simp only [Bool.or_eq_true, decide_eq_true_eq] at h
  rcases h with rfl | h
  · exact .semicolon
  · unfold inserts at h
    split at h
    · simp only [Bool.and_eq_true, Bool.not_eq_true', List.contains_eq_mem, decide_eq_false_iff_not] at h
      obtain ⟨rfl, h⟩ := h
      exact .line h
    · exact .brace
    · cases h

theorem exprDone_sound {x : PState} {ts : List Tok} {e : JsExpr} (hi : Inv x ts) (h : exprDone x = some e) : Operand ts e := by
  unfold exprDone at h
  split at h
  · cases h
    obtain ⟨t0, te, e, ho, he, _⟩ := hi
    cases ho
    rw [List.nil_append] at e
    rw [e]
    exact he
  · cases h

theorem typeDone_sound {x : TState} {ts : List Tok} {T : TsType} (hi : TInv x ts) (h : typeDone x = some T) :
    ∃ d, Alternatives ts d ∧ T = ofDnf d := by
  unfold typeDone at h
  split at h
  · cases h
    obtain ⟨t0, td, e, hk, hd⟩ := hi
    cases hk
    rw [List.nil_append] at e
    exact ⟨_, e ▸ hd, rfl⟩
  · cases h
    obtain ⟨t0, to_, tn, e, hk, ho, hn⟩ := hi
    cases hk
    rw [List.nil_append] at e
    exact ⟨_, e ▸ ho _ _ (.name hn), rfl⟩
  · cases h

theorem alternatives_ne {ts : List Tok} {d : Dnf} (h : Alternatives ts d) : d ≠ [] := by
  cases h <;> simp

theorem operands_ne {ts : List Tok} {c : List TsType} (h : Operands ts c) : c ≠ [] := by
  cases h <;> simp

/-- An object type that stands alone. -/
theorem alternatives_obj {ts : List Tok} {d : Dnf} {ps : List (Str × Bool × TsType)} (h : Alternatives ts d) (e : ofDnf d = .obj ps) :
    Primary ts (.obj ps) := by
  cases h with
  | one h =>
    cases h with
    | one h =>
      have e : _ = TsType.obj ps := e
      rw [← e]
      exact h
    | and_ h _ =>
      have := operands_ne h
      rename_i c _ _ _
      cases c with
      | nil => exact absurd rfl this
      | cons x c => cases c <;> simp [ofDnf, ofConj] at e
  | or_ h _ =>
    have := alternatives_ne h
    rename_i d _ _ _
    cases d with
    | nil => exact absurd rfl this
    | cons x c => cases c <;> simp [ofDnf] at e

/-! ## What the rest of a text is -/

/-- The tokens are the namespaces that are left. -/
def RestTop (out done : List Ns) (fts : List FTok) : Prop := ∃ M, Namespaces fts M ∧ out = done ++ M

/-- In a namespace. -/
def RestItem (out done : List Ns) (ns : Str) (items : List Item) (fts : List FTok) : Prop :=
  ∃ ts is rest, fts = ts ++ rest ∧ Declarations ts is ∧ RestTop out (done ++ [⟨ns, items ++ is⟩]) rest

/-- In the body of a function, which is followed by `K`. -/
def RestStmts (K : List Stmt → List FTok → Prop) (body : List Stmt) (fts : List FTok) : Prop :=
  ∃ ts ss rest, fts = ts ++ rest ∧ Statements ts ss ∧ K (body ++ ss) rest

/-- The tokens complete an expression, then satisfy `K`. -/
def RestExpr (K : JsExpr → List FTok → Prop) (x : PState) (fts : List FTok) : Prop :=
  ∀ pre, Inv x (unmark pre) → ∃ ts rest e, fts = ts ++ rest ∧ Operand (unmark (pre ++ ts)) e ∧ EndsBefore rest ∧ K e rest

/-- The tokens complete a type, then satisfy `K`. -/
def RestType (K : Dnf → List FTok → Prop) (x : TState) (fts : List FTok) : Prop :=
  ∀ pre, TInv x (unmark pre) → ∃ ts rest d, fts = ts ++ rest ∧ Alternatives (unmark (pre ++ ts)) d ∧ K d rest

/-- After the parameters of a function. -/
def RestFn (out done : List Ns) (ns : Str) (items : List Item) (h : Header) (fts : List FTok) : Prop :=
  ∃ n5 ts d n6 rest, fts = (.p ':', n5) :: ts ++ (.p '{', n6) :: rest ∧ Alternatives (unmark ts) d ∧
    RestStmts (fun body => RestItem out done ns (items ++ [.func ⟨h.isAsync, h.name, h.params, ofDnf d, body⟩])) [] rest

/-- Before a parameter, or the parenthesis. -/
def RestParam (out done : List Ns) (ns : Str) (items : List Item) (first : Bool) (h : Header) (fts : List FTok) : Prop :=
  ∃ ts ps n4 rest, fts = ts ++ (.p ')', n4) :: rest ∧ (Parameters ts ps ∨ first = true ∧ ts = [] ∧ ps = []) ∧
    ((h.params.map (·.1)).Nodup → ((h.params ++ ps).map (·.1)).Nodup) ∧
    RestFn out done ns items { h with params := h.params ++ ps } rest

/-- The tokens complete a function whose name comes next. -/
def RestFnName (out done : List Ns) (ns : Str) (items : List Item) (isAsync : Bool) (fts : List FTok) : Prop :=
  ∃ w n2 n3 rest, fts = (.ident w, n2) :: (.p '(', n3) :: rest ∧ w ∉ reserved ∧ RestParam out done ns items true ⟨isAsync, w, []⟩ rest

/-- The tokens complete what the reader has read. -/
def Rest (out : List Ns) (s : MState) (fts : List FTok) : Prop :=
  match s.cur with
  | .top => RestTop out s.done fts
  | .topExport => ∀ n, RestTop out s.done ((.ident (lit "export"), n) :: fts)
  | .nsName => ∀ n n', RestTop out s.done ((.ident (lit "export"), n) :: (.ident (lit "namespace"), n') :: fts)
  | .nsOpen => ∃ n r, fts = (.p '{', n) :: r ∧ RestItem out s.done s.ns [] r
  | .item => RestItem out s.done s.ns s.items fts
  | .export => ∀ n, RestItem out s.done s.ns s.items ((.ident (lit "export"), n) :: fts)
  | .constName => ∀ n n', RestItem out s.done s.ns s.items ((.ident (lit "export"), n) :: (.ident (lit "const"), n') :: fts)
  | .constEq w => ∃ n r, fts = (.p '=', n) :: r ∧ RestExpr (fun e => RestItem out s.done s.ns (s.items ++ [.const w e])) ([], .need) r
  | .constE w x => RestExpr (fun e => RestItem out s.done s.ns (s.items ++ [.const w e])) x fts
  | .ifaceName => ∀ n n', RestItem out s.done s.ns s.items ((.ident (lit "export"), n) :: (.ident (lit "interface"), n') :: fts)
  | .ifaceOpen w => ∃ n ts rest ps, fts = (.p '{', n) :: ts ++ rest ∧ Primary (.p '{' :: unmark ts) (.obj ps) ∧
      RestItem out s.done s.ns (s.items ++ [.interface w ps]) rest
  | .ifaceT w x => RestType (fun d rest => ∃ ps, ofDnf d = .obj ps ∧ RestItem out s.done s.ns (s.items ++ [.interface w ps]) rest) x fts
  | .aliasName => ∀ n n', RestItem out s.done s.ns s.items ((.ident (lit "export"), n) :: (.ident (lit "type"), n') :: fts)
  | .aliasEq w => ∃ n r, fts = (.p '=', n) :: r ∧
      RestType (fun d rest => EndsBefore rest ∧ RestItem out s.done s.ns (s.items ++ [.alias w (ofDnf d)]) rest) ([], .need .none) r
  | .aliasT w x => RestType (fun d rest => EndsBefore rest ∧ RestItem out s.done s.ns (s.items ++ [.alias w (ofDnf d)]) rest) x fts
  | .async => ∃ r, fts = (.ident (lit "function"), false) :: r ∧ RestFnName out s.done s.ns s.items true r
  | .fnName a => RestFnName out s.done s.ns s.items a fts
  | .fnOpen h => ∃ n r, fts = (.p '(', n) :: r ∧ RestParam out s.done s.ns s.items true h r
  | .param first h => RestParam out s.done s.ns s.items first h fts
  | .paramColon h p => ∃ n r, fts = (.p ':', n) :: r ∧ RestType (fun d rest =>
      (∃ n r, rest = (.p ',', n) :: r ∧ RestParam out s.done s.ns s.items false { h with params := h.params ++ [(p, ofDnf d)] } r) ∨
      (∃ n r, rest = (.p ')', n) :: r ∧ RestFn out s.done s.ns s.items { h with params := h.params ++ [(p, ofDnf d)] } r)) ([], .need .none) r
  | .paramT h p x => RestType (fun d rest =>
      (∃ n r, rest = (.p ',', n) :: r ∧ RestParam out s.done s.ns s.items false { h with params := h.params ++ [(p, ofDnf d)] } r) ∨
      (∃ n r, rest = (.p ')', n) :: r ∧ RestFn out s.done s.ns s.items { h with params := h.params ++ [(p, ofDnf d)] } r)) x fts
  | .fnColon h => RestFn out s.done s.ns s.items h fts
  | .retT h x => RestType (fun d rest => ∃ n r, rest = (.p '{', n) :: r ∧
      RestStmts (fun body => RestItem out s.done s.ns (s.items ++ [.func ⟨h.isAsync, h.name, h.params, ofDnf d, body⟩])) [] r) x fts
  | .stmts h T body =>
      RestStmts (fun body => RestItem out s.done s.ns (s.items ++ [.func ⟨h.isAsync, h.name, h.params, T, body⟩])) body fts
  | .ret h T body => ∀ n,
      RestStmts (fun body => RestItem out s.done s.ns (s.items ++ [.func ⟨h.isAsync, h.name, h.params, T, body⟩])) body
        ((.ident (lit "return"), n) :: fts)
  | .exprS h T body isRet x => RestExpr (fun e =>
      RestStmts (fun body => RestItem out s.done s.ns (s.items ++ [.func ⟨h.isAsync, h.name, h.params, T, body⟩]))
        (addStmt body isRet e)) x fts

theorem declarations_ne {ts : List FTok} {is : List Item} (h : Declarations ts is) : ts ≠ [] := by
  cases h <;> simp

theorem statements_ne {ts : List FTok} {ss : List Stmt} (h : Statements ts ss) : ts ≠ [] := by
  cases h <;> simp

/-- A declaration and the rest of the namespace. -/
theorem RestItem.cons {out done : List Ns} {ns : Str} {items : List Item} {i : Item} {pre fts : List FTok}
    (hp : ∀ ts is, Declarations ts is → (EndsBefore fts → EndsBefore ts) → Declarations (pre ++ ts) (i :: is))
    (h : RestItem out done ns (items ++ [i]) fts) : RestItem out done ns items (pre ++ fts) := by
  obtain ⟨ts, is, rest, rfl, h1, h2⟩ := h
  refine ⟨pre ++ ts, i :: is, rest, by simp, hp _ _ h1 (fun h => endsBefore_append h (declarations_ne h1)), ?_⟩
  rw [show items ++ i :: is = items ++ [i] ++ is from by simp]
  exact h2

theorem RestStmts.cons {K : List Stmt → List FTok → Prop} {body : List Stmt} {i : Stmt} {pre fts : List FTok}
    (hp : ∀ ts is, Statements ts is → (EndsBefore fts → EndsBefore ts) → Statements (pre ++ ts) (i :: is))
    (h : RestStmts K (body ++ [i]) fts) : RestStmts K body (pre ++ fts) := by
  obtain ⟨ts, is, rest, rfl, h1, h2⟩ := h
  refine ⟨pre ++ ts, i :: is, rest, by simp, hp _ _ h1 (fun h => endsBefore_append h (statements_ne h1)), ?_⟩
  rw [show body ++ i :: is = body ++ [i] ++ is from by simp]
  exact h2

theorem restItem_step {out : List Ns} {s s' : MState} {t : Tok} {nl : Bool} {r : List FTok} (hs : itemStep s t = some s')
    (h : Rest out s' r) : RestItem out s.done s.ns s.items ((t, nl) :: r) := by
  unfold itemStep at hs
  split at hs
  · split at hs
    · rename_i hw
      cases hs
      subst hw
      exact h nl
    · cases hs
  · cases hs
    obtain ⟨ts, is, rest, rfl, h1, h2⟩ := h
    exact ⟨_, is, rest, rfl, .empty h1, h2⟩
  · cases hs
    exact ⟨[(.p '}', nl)], [], r, rfl, .close, by simpa [Rest] using h⟩
  · cases hs

theorem restStmts_step {out : List Ns} {s s' : MState} {hd : Header} {T : TsType} {body : List Stmt} {t : Tok} {nl : Bool}
    {r : List FTok} (hs : stmtStep s hd T body t = some s') (h : Rest out s' r) :
    RestStmts (fun body => RestItem out s.done s.ns (s.items ++ [.func ⟨hd.isAsync, hd.name, hd.params, T, body⟩])) body ((t, nl) :: r) := by
  unfold stmtStep at hs
  split at hs
  · rename_i w
    split at hs
    · rename_i hw
      cases hs
      subst hw
      exact h nl
    · simp only [Option.map_eq_some_iff] at hs
      obtain ⟨x, hx, rfl⟩ := hs
      have hi : Inv x (unmark [(.ident w, nl)]) := needStep_sound (ts := []) .nil (fun h => h) hx
      obtain ⟨ts, rest, e, rfl, h1, h2, h3⟩ := h _ hi
      refine RestStmts.cons (pre := (.ident w, nl) :: ts) ?_ h3
      intro ts' ss' h4 h5
      exact .expr h1 (h5 h2) h4
  · cases hs
    obtain ⟨ts, is, rest, rfl, h1, h2⟩ := h
    exact ⟨_, is, rest, rfl, .empty h1, h2⟩
  · cases hs
    exact ⟨[(.p '}', nl)], [], r, rfl, .close, by simpa [Rest, MState.add] using h⟩
  · cases hs

/-- A function. -/
theorem RestFnName.item {out done : List Ns} {ns : Str} {items : List Item} {isAsync : Bool} {fts fn : List FTok}
    (h : RestFnName out done ns items isAsync fts) (hf : FunctionWord isAsync fn) (n1 : Bool) :
    RestItem out done ns items ((.ident (lit "export"), n1) :: fn ++ fts) := by
  obtain ⟨w, n2, n3, rest, rfl, hw, ts, ps, n4, rest', rfl, hp, hn, n5, tr, d, n6, rest'', rfl, hd, tb, ss, rest3, rfl, hb, hk⟩ := h
  have hp : OptParameters ts ps := by
    rcases hp with hp | ⟨_, rfl, rfl⟩
    · exact .some hp
    · exact .none
  have hk : RestItem out done ns (items ++ [.func ⟨isAsync, w, ps, ofDnf d, ss⟩]) rest3 := by simpa using hk
  have := RestItem.cons (pre := (.ident (lit "export"), n1) :: fn ++ (.ident w, n2) :: (.p '(', n3) :: ts ++ (.p ')', n4) :: (.p ':', n5) ::
        tr ++ (.p '{', n6) :: tb) (fun ts is h _ => by
          have := Declarations.func (n1 := n1) (n2 := n2) (n3 := n3) (n4 := n4) (n5 := n5) (n6 := n6) hw hf hp (by simpa using hn) hd hb h
          simpa using this) hk
  simpa using this

/-- A step that continues an expression. -/
theorem RestExpr.step {K : JsExpr → List FTok → Prop} {x x' : PState} {t : Tok} {nl : Bool} {r : List FTok} (hs : pStep x t = some x')
    (h : RestExpr K x' r) : RestExpr K x ((t, nl) :: r) := by
  intro pre hi
  obtain ⟨ts, rest, e, rfl, h1, h2, h3⟩ := h (pre ++ [(t, nl)]) (by rw [unmark_append]; exact pStep_sound hi hs)
  exact ⟨(t, nl) :: ts, rest, e, rfl, by simpa using h1, h2, h3⟩

theorem RestExpr.done {K : JsExpr → List FTok → Prop} {x : PState} {e : JsExpr} {r : List FTok} (hs : exprDone x = some e)
    (he : EndsBefore r) (h : K e r) : RestExpr K x r := by
  intro pre hi
  exact ⟨[], r, e, rfl, by rw [List.append_nil]; exact exprDone_sound hi hs, he, h⟩

theorem RestType.step {K : Dnf → List FTok → Prop} {x x' : TState} {t : Tok} {nl : Bool} {r : List FTok} (hs : tStep x t = some x')
    (h : RestType K x' r) : RestType K x ((t, nl) :: r) := by
  intro pre hi
  obtain ⟨ts, rest, e, rfl, h1, h2⟩ := h (pre ++ [(t, nl)]) (by rw [unmark_append]; exact tStep_sound hi hs)
  exact ⟨(t, nl) :: ts, rest, e, rfl, by simpa using h1, h2⟩

theorem RestType.done {K : Dnf → List FTok → Prop} {x : TState} {T : TsType} {r : List FTok} (hs : typeDone x = some T)
    (h : ∀ d, T = ofDnf d → K d r) : RestType K x r := by
  intro pre hi
  obtain ⟨d, h1, h2⟩ := typeDone_sound hi hs
  exact ⟨[], r, d, rfl, by rw [List.append_nil]; exact h1, h d h2⟩

theorem inv_nil : Inv ([], .need) (unmark []) := ⟨.nil, fun h => h⟩
theorem tinv_nil : TInv ([], .need .none) (unmark []) := ⟨[], [], rfl, .nil, .none⟩

theorem nodup_snoc {l : List (Str × TsType)} {p : Str × TsType} {ps : List (Str × TsType)} (hp : p.1 ∉ l.map (·.1))
    (h : ((l ++ [p]).map (·.1)).Nodup → ((l ++ [p] ++ ps).map (·.1)).Nodup) (hl : (l.map (·.1)).Nodup) :
    ((l ++ p :: ps).map (·.1)).Nodup := by
  have := h (by
    rw [List.map_append, List.nodup_append]
    refine ⟨hl, by simp, ?_⟩
    rintro a ha b hb rfl
    simp only [List.map_cons, List.map_nil, List.mem_singleton] at hb
    subst hb
    exact hp ha)
  simpa using this

theorem mStep_sound {out : List Ns} {s s' : MState} {t : Tok} {nl : Bool} {r : List FTok} (hs : mStep s t nl = some s')
    (h : Rest out s' r) : Rest out s ((t, nl) :: r) := by
  obtain ⟨done, ns, items, cur⟩ := s
  unfold mStep at hs
  cases cur with
  | top =>
    simp only at hs
    split at hs
    · split at hs
      · rename_i hw
        cases hs
        subst hw
        exact h nl
      · cases hs
    · cases hs
  | topExport =>
    simp only at hs
    split at hs
    · split at hs
      · rename_i hw
        cases hs
        subst hw
        exact fun n => h n nl
      · cases hs
    · cases hs
  | nsName =>
    simp only at hs
    split at hs
    · split at hs
      · rename_i w hw
        cases hs
        simp only [Bool.and_eq_true, Bool.not_eq_true'] at hw
        obtain ⟨hw, rfl⟩ := hw
        obtain ⟨n3, r', rfl, ts, is, rest, rfl, h1, M, h2, rfl⟩ := h
        intro n n'
        exact ⟨_, .more (bindable_iff.1 hw) h1 h2, by simp⟩
      · cases hs
    · cases hs
  | nsOpen =>
    simp only at hs
    split at hs
    · cases hs
      exact ⟨nl, r, rfl, h⟩
    · cases hs
  | item => exact restItem_step hs h
  | «export» =>
    simp only at hs
    split at hs
    · rename_i w
      split at hs
      · rename_i hw; cases hs; subst hw; exact fun n => h n nl
      · split at hs
        · rename_i hw; cases hs; subst hw; exact fun n => h n nl
        · split at hs
          · rename_i hw; cases hs; subst hw; exact fun n => h n nl
          · split at hs
            · rename_i hw
              cases hs
              subst hw
              obtain ⟨r', rfl, h⟩ := h
              exact fun n => h.item .async n
            · split at hs
              · rename_i hw
                cases hs
                subst hw
                exact fun n => RestFnName.item h .plain n
              · cases hs
    · cases hs
  | constName =>
    simp only at hs
    split at hs
    · split at hs
      · rename_i w hw
        cases hs
        obtain ⟨n4, r', rfl, h⟩ := h
        obtain ⟨ts, rest, e, rfl, h1, h2, h3⟩ := h [] inv_nil
        intro n n'
        exact RestItem.cons (pre := (.ident (lit "export"), n) :: (.ident (lit "const"), n') :: (.ident w, nl) :: (.p '=', n4) :: ts)
          (fun ts' is h4 h5 => .const (bindable_iff.1 hw) h1 (h5 h2) h4) h3
      · cases hs
    · cases hs
  | constEq w =>
    simp only at hs
    split at hs
    · cases hs
      exact ⟨nl, r, rfl, h⟩
    · cases hs
  | constE w x =>
    simp only at hs
    split at hs
    · rename_i x' hx
      cases hs
      exact RestExpr.step hx h
    · split at hs
      · rename_i e he
        split at hs
        · rename_i hi
          exact RestExpr.done he (inserts_ends hi) (restItem_step hs h)
        · cases hs
      · cases hs
  | ifaceName =>
    simp only at hs
    split at hs
    · split at hs
      · rename_i w hw
        cases hs
        simp only [Bool.and_eq_true, Bool.not_eq_true'] at hw
        obtain ⟨hw, rfl⟩ := hw
        obtain ⟨n3, ts, rest, ps, rfl, h1, h2⟩ := h
        intro n n'
        exact RestItem.cons (pre := (.ident (lit "export"), n) :: (.ident (lit "interface"), n') :: (.ident w, false) :: (.p '{', n3) :: ts)
          (fun ts' is h4 h5 => .interface (declarable_iff.1 hw).1 (declarable_iff.1 hw).2 h1 h4) h2
      · cases hs
    · cases hs
  | ifaceOpen w =>
    simp only at hs
    split at hs
    · simp only [Option.map_eq_some_iff] at hs
      obtain ⟨x, hx, rfl⟩ := hs
      obtain ⟨ts, rest, d, rfl, h1, ps, h2, h3⟩ := h [(.p '{', nl)] (tStep_sound (ts := []) tinv_nil hx)
      exact ⟨nl, ts, rest, ps, rfl, alternatives_obj h1 h2, h3⟩
    · cases hs
  | ifaceT w x =>
    simp only at hs
    split at hs
    · rename_i x' hx
      cases hs
      exact RestType.step hx h
    · split at hs
      · rename_i ps he
        exact RestType.done he (fun d hd => ⟨ps, hd.symm, restItem_step hs h⟩)
      · cases hs
  | aliasName =>
    simp only at hs
    split at hs
    · split at hs
      · rename_i w hw
        cases hs
        simp only [Bool.and_eq_true, Bool.not_eq_true'] at hw
        obtain ⟨hw, rfl⟩ := hw
        obtain ⟨n4, r', rfl, h⟩ := h
        obtain ⟨ts, rest, e, rfl, h1, h2, h3⟩ := h [] tinv_nil
        intro n n'
        exact RestItem.cons (pre := (.ident (lit "export"), n) :: (.ident (lit "type"), n') :: (.ident w, false) :: (.p '=', n4) :: ts)
          (fun ts' is h4 h5 => .alias (declarable_iff.1 hw).1 (declarable_iff.1 hw).2 h1 (h5 h2) h4) h3
      · cases hs
    · cases hs
  | aliasEq w =>
    simp only at hs
    split at hs
    · cases hs
      exact ⟨nl, r, rfl, h⟩
    · cases hs
  | aliasT w x =>
    simp only at hs
    split at hs
    · rename_i x' hx
      cases hs
      exact RestType.step hx h
    · split at hs
      · rename_i T he
        split at hs
        · rename_i hi
          refine RestType.done he (fun d hd => ⟨inserts_ends hi, ?_⟩)
          subst hd
          exact restItem_step hs h
        · cases hs
      · cases hs
  | async =>
    simp only at hs
    split at hs
    · split at hs
      · rename_i hw
        cases hs
        simp only [Bool.and_eq_true, Bool.not_eq_true', decide_eq_true_eq] at hw
        obtain ⟨rfl, rfl⟩ := hw
        exact ⟨r, rfl, h⟩
      · cases hs
    · cases hs
  | fnName a =>
    simp only at hs
    split at hs
    · split at hs
      · rename_i w hw
        cases hs
        obtain ⟨n, r', rfl, h⟩ := h
        exact ⟨w, nl, n, r', rfl, bindable_iff.1 hw, h⟩
      · cases hs
    · cases hs
  | fnOpen hd =>
    simp only at hs
    split at hs
    · cases hs
      exact ⟨nl, r, rfl, h⟩
    · cases hs
  | param first hd =>
    simp only at hs
    split at hs
    · split at hs
      · rename_i w hw
        cases hs
        simp only [Bool.and_eq_true, Bool.not_eq_true', List.contains_eq_mem, decide_eq_false_iff_not] at hw
        obtain ⟨n, r', rfl, h⟩ := h
        obtain ⟨ts, rest, d, rfl, h1, h2⟩ := h [] tinv_nil
        rcases h2 with ⟨n', r', rfl, ts', ps, n4, rest, rfl, h3, h4, h5⟩ | ⟨n', r', rfl, h5⟩
        · rcases h3 with h3 | ⟨h3, _⟩
          · refine ⟨(.ident w, nl) :: (.p ':', n) :: ts ++ (.p ',', n') :: ts', (w, ofDnf d) :: ps, n4, rest, ?_,
              .inl (.more (bindable_iff.1 hw.1) h1 h3), nodup_snoc (p := (w, ofDnf d)) hw.2 h4, ?_⟩
            · simp
            · simpa using h5
          · cases h3
        · refine ⟨(.ident w, nl) :: (.p ':', n) :: ts, [(w, ofDnf d)], n', r', ?_, .inl (.one (bindable_iff.1 hw.1) h1),
            nodup_snoc (p := (w, ofDnf d)) hw.2 (fun h => ?_), h5⟩
          · simp
          · simpa using h
      · cases hs
    · split at hs
      · rename_i hf
        cases hs
        exact ⟨[], [], nl, r, rfl, .inr ⟨hf, rfl, rfl⟩, fun h => (by simpa using h), by simpa [Rest] using h⟩
      · cases hs
    · cases hs
  | paramColon hd p =>
    simp only at hs
    split at hs
    · cases hs
      exact ⟨nl, r, rfl, h⟩
    · cases hs
  | paramT hd p x =>
    simp only at hs
    split at hs
    · rename_i x' hx
      cases hs
      exact RestType.step hx h
    · split at hs
      · rename_i T he
        cases hs
        refine RestType.done (by assumption) (fun d hd => .inl ⟨nl, r, rfl, ?_⟩)
        subst hd
        exact h
      · rename_i T he
        cases hs
        refine RestType.done (by assumption) (fun d hd => .inr ⟨nl, r, rfl, ?_⟩)
        subst hd
        exact h
      · cases hs
  | fnColon hd =>
    simp only at hs
    split at hs
    · cases hs
      obtain ⟨ts, rest, d, rfl, h1, n, r', rfl, h2⟩ := h [] tinv_nil
      exact ⟨nl, ts, d, n, r', rfl, h1, h2⟩
    · cases hs
  | retT hd x =>
    simp only at hs
    split at hs
    · rename_i x' hx
      cases hs
      exact RestType.step hx h
    · split at hs
      · rename_i T he
        cases hs
        refine RestType.done (by assumption) (fun d hd => ⟨nl, r, rfl, ?_⟩)
        subst hd
        exact h
      · cases hs
  | stmts hd T body => exact restStmts_step hs h
  | ret hd T body =>
    simp only at hs
    split at hs
    · cases hs
    · rename_i hn
      simp only [Option.map_eq_some_iff] at hs
      obtain ⟨x, hx, rfl⟩ := hs
      have hn : nl = false := by simpa using hn
      subst hn
      obtain ⟨ts, rest, e, rfl, h1, h2, h3⟩ := h [(t, false)] (needStep_sound (ts := []) .nil (fun h => h) hx)
      intro n
      refine RestStmts.cons (pre := (.ident (lit "return"), n) :: (t, false) :: ts) ?_ h3
      intro ts' ss' h4 h5
      exact .ret h1 (h5 h2) h4
  | exprS hd T body isRet x =>
    simp only at hs
    split at hs
    · rename_i x' hx
      cases hs
      exact RestExpr.step hx h
    · split at hs
      · rename_i e he
        split at hs
        · rename_i hi
          exact RestExpr.done he (inserts_ends hi) (restStmts_step hs h)
        · cases hs
      · cases hs

theorem mRun_sound {out : List Ns} (fts : List FTok) : ∀ {s : MState} {n i}, mRun s fts = some ⟨out, n, i, .top⟩ → Rest out s fts := by
  induction fts with
  | nil =>
    intro s n i h
    cases h
    exact ⟨[], .nil, by simp⟩
  | cons t r ih =>
    intro s n i h
    rw [mRun] at h
    split at h
    · rename_i s' hs
      exact mStep_sound hs (ih h)
    · cases h

theorem readModule_sound {s : Str} {M : List Ns} (h : readModule s = some M) : IsModuleText s M := by
  unfold readModule at h
  split at h
  · rename_i ts hs
    split at h
    · rename_i hr
      cases h
      obtain ⟨M', h1, h2⟩ := mRun_sound ts hr
      have h2 : M = M' := h2
      subst h2
      exact ⟨ts, (source_iff _ _).1 hs, h1⟩
    · cases h
  · cases h

/-! ## Everything the grammar derives is read -/

theorem ends_inserts {t : Tok} {nl : Bool} {r : List FTok} (h : EndsBefore ((t, nl) :: r)) :
    (t = .p ';' || inserts t nl) = true ∧ (t = .p ';' ∨ t = .p '}' ∨ ∃ w, t = .ident w) := by
  cases h with
  | semicolon => exact ⟨rfl, .inl rfl⟩
  | brace => exact ⟨rfl, .inr (.inl rfl)⟩
  | line h => exact ⟨by simp [inserts, h], .inr (.inr ⟨_, rfl⟩)⟩

theorem endsBefore_cons {r : List FTok} (h : EndsBefore r) : ∃ t nl r', r = (t, nl) :: r' := by
  cases h <;> exact ⟨_, _, _, rfl⟩

theorem pStep_ends {e : JsExpr} {t : Tok} (h : t = .p ';' ∨ t = .p '}' ∨ ∃ w, t = .ident w) : pStep ([], .have_ e) t = none := by
  rcases h with rfl | rfl | ⟨w, rfl⟩ <;> rfl

theorem tStep_ends {c : TCur} {d : Dnf} {t : Tok} (hc : TEnds c d)
    (h : t = .p ';' ∨ t = .p '}' ∨ (∃ w, t = .ident w) ∨ t = .p ',' ∨ t = .p ')' ∨ t = .p '{') : tStep ([], c) t = none := by
  rcases hc with rfl | ⟨o, p, rfl, _⟩ <;> rcases h with rfl | rfl | ⟨w, rfl⟩ | rfl | rfl | rfl <;> rfl

theorem pRun_operand {ts : List Tok} {e : JsExpr} (h : Operand ts e) : pRun ([], .need) ts = some ([], .have_ e) :=
  (operand_read h).at (.inl rfl)

theorem tRun_alternatives {ts : List Tok} {d : Dnf} (h : Alternatives ts d) :
    ∃ c, tRun ([], .need .none) ts = some ([], c) ∧ TEnds c d := by
  obtain ⟨hne, h⟩ := alternatives_read h
  obtain ⟨c', h1, h2⟩ := h [] (.need .none) .none (.inl rfl)
  simp only [cont_none hne] at h2
  exact ⟨c', h1, h2⟩

/-- The expression of a constant, which ends before the rest. -/
theorem mRun_const {D : List Ns} {N : Str} {I : List Item} {n : Str} {ts rest : List FTok} {e : JsExpr} (h : Operand (unmark ts) e)
    (hr : EndsBefore rest) : mRun ⟨D, N, I, .constE n ([], .need)⟩ (ts ++ rest) = mRun ⟨D, N, I ++ [.const n e], .item⟩ rest := by
  rw [mRun_append (mRun_expr (E := fun x => ⟨D, N, I, .constE n x⟩) (step_constE n) (pRun_operand h))]
  obtain ⟨t, nl, r, rfl⟩ := endsBefore_cons hr
  obtain ⟨h1, h2⟩ := ends_inserts hr
  rw [mRun, mRun]
  simp only [mStep, pStep_ends h2, exprDone, h1, if_true]
  rfl

theorem mRun_alias {D : List Ns} {N : Str} {I : List Item} {n : Str} {ts rest : List FTok} {d : Dnf} (h : Alternatives (unmark ts) d)
    (hr : EndsBefore rest) : mRun ⟨D, N, I, .aliasT n ([], .need .none)⟩ (ts ++ rest) = mRun ⟨D, N, I ++ [.alias n (ofDnf d)], .item⟩ rest := by
  obtain ⟨c, h1, h2⟩ := tRun_alternatives h
  rw [mRun_append (mRun_type (E := fun x => ⟨D, N, I, .aliasT n x⟩) (step_aliasT n) h1)]
  obtain ⟨t, nl, r, rfl⟩ := endsBefore_cons hr
  obtain ⟨h3, h4⟩ := ends_inserts hr
  rw [mRun, mRun]
  have h5 : tStep ([], c) t = none := tStep_ends h2 (by rcases h4 with h | h | h <;> simp [h])
  simp only [mStep, h5, typeDone_ends h2, h3, if_true]
  rfl

theorem mRun_exprS {D : List Ns} {N : Str} {I : List Item} {hd : Header} {T : TsType} {body : List Stmt} {isRet : Bool}
    {t : Tok} {nl : Bool} {x : PState} {ts rest : List FTok} {e : JsExpr} (h : Operand (t :: unmark ts) e) (hx : needStep [] t = some x) (hr : EndsBefore rest) :
    mRun ⟨D, N, I, .exprS hd T body isRet x⟩ (ts ++ rest) = mRun ⟨D, N, I, .stmts hd T (addStmt body isRet e)⟩ rest := by
  have hp := pRun_operand h
  rw [pRun_cons (s := ([], .need)) (s' := x) hx] at hp
  rw [mRun_append (mRun_expr (E := fun x => ⟨D, N, I, .exprS hd T body isRet x⟩) (step_exprS hd T body isRet) hp)]
  obtain ⟨t, nl, r, rfl⟩ := endsBefore_cons hr
  obtain ⟨h1, h2⟩ := ends_inserts hr
  rw [mRun, mRun]
  simp only [mStep, pStep_ends h2, exprDone, h1, if_true]
  rfl

theorem operand_needStep {t : Tok} {ts : List Tok} {e : JsExpr} (h : Operand (t :: ts) e) : ∃ x, needStep [] t = some x := by
  have hp := pRun_operand h
  rw [pRun] at hp
  cases hs : needStep [] t with
  | some x => exact ⟨x, rfl⟩
  | none =>
    have : pStep ([], .need) t = none := hs
    rw [this] at hp
    cases hp

theorem statements_read {ts : List FTok} {ss : List Stmt} (h : Statements ts ss) {D : List Ns} {N : Str} {I : List Item} {hd : Header} {T : TsType} :
    ∀ (body : List Stmt) (rest : List FTok), mRun ⟨D, N, I, .stmts hd T body⟩ (ts ++ rest) =
      mRun ⟨D, N, I ++ [.func ⟨hd.isAsync, hd.name, hd.params, T, body ++ ss⟩], .item⟩ rest := by
  induction h with
  | close => intro body rest; rw [List.append_nil]; rfl
  | empty _ ih => intro body rest; exact ih body rest
  | @expr w nl ts e rest ss he hr _ ih =>
    intro body rest'
    obtain ⟨x, hx⟩ := operand_needStep he
    have hw : w ≠ lit "return" := by
      rintro rfl
      have : needStep [] (.ident (lit "return")) = none := rfl
      rw [this] at hx
      cases hx
    have h1 : mStep ⟨D, N, I, .stmts hd T body⟩ (.ident w) nl = some ⟨D, N, I, .exprS hd T body false x⟩ := by
      simp only [mStep, stmtStep, hw, if_false, hx]
      rfl
    have hr' : EndsBefore (rest ++ rest') := by cases hr <;> constructor; assumption
    rw [List.append_assoc, List.cons_append, mRun]
    simp only [h1]
    rw [mRun_exprS (nl := nl) he hx hr', ih]
    simp [addStmt]
  | @ret nl t ts e rest ss he hr _ ih =>
    intro body rest'
    obtain ⟨x, hx⟩ := operand_needStep he
    have h1 : mStep ⟨D, N, I, .stmts hd T body⟩ (.ident (lit "return")) nl = some ⟨D, N, I, .ret hd T body⟩ := by
      simp only [mStep, stmtStep, if_true]
    have h2 : mStep ⟨D, N, I, .ret hd T body⟩ t false = some ⟨D, N, I, .exprS hd T body true x⟩ := by
      simp [mStep, hx]
    have hr' : EndsBefore (rest ++ rest') := by cases hr <;> constructor; assumption
    rw [List.append_assoc, List.cons_append, List.cons_append, mRun]
    simp only [h1]
    rw [mRun]
    simp only [h2]
    rw [mRun_exprS (nl := nl) he hx hr', ih]
    simp [addStmt]

theorem parameters_read {ts : List FTok} {ps : List (Str × TsType)} (h : Parameters ts ps) {D : List Ns} {N : Str} {I : List Item} :
    ∀ (first : Bool) (hd : Header) (n : Bool) (rest : List FTok), ((hd.params ++ ps).map (·.1)).Nodup →
      mRun ⟨D, N, I, .param first hd⟩ (ts ++ (.p ')', n) :: rest) = mRun ⟨D, N, I, .fnColon { hd with params := hd.params ++ ps }⟩ rest := by
  have notin : ∀ {l ps : List (Str × TsType)} {p : Str} {T : TsType}, ((l ++ (p, T) :: ps).map (·.1)).Nodup → (l.map (·.1)).contains p = false := by
    intro l ps p T h
    rw [List.map_append, List.nodup_append] at h
    simp only [List.contains_eq_mem, decide_eq_false_iff_not]
    intro hp
    exact h.2.2 p hp p (by simp) rfl
  induction h with
  | @one p nl nl' ts d hp hd =>
    intro first h n rest hn
    obtain ⟨c, h1, h2⟩ := tRun_alternatives hd
    have e1 : mStep ⟨D, N, I, .param first h⟩ (.ident p) nl = some ⟨D, N, I, .paramColon h p⟩ := by
      simp only [mStep, bindable_iff.2 hp, notin hn, Bool.not_false, Bool.and_self, if_true]
    rw [List.cons_append, List.cons_append, mRun]
    simp only [e1]
    show mRun ⟨D, N, I, .paramT h p ([], .need .none)⟩ _ = _
    rw [mRun_append (mRun_type (E := fun x => ⟨D, N, I, .paramT h p x⟩) (step_paramT h p) h1), mRun]
    simp only [mStep, tStep_ends h2 (t := .p ')') (by simp), typeDone_ends h2]
  | @more p nl nl' nl'' ts d rest' ps hp hd _ ih =>
    intro first h n rest hn
    obtain ⟨c, h1, h2⟩ := tRun_alternatives hd
    have e1 : mStep ⟨D, N, I, .param first h⟩ (.ident p) nl = some ⟨D, N, I, .paramColon h p⟩ := by
      simp only [mStep, bindable_iff.2 hp, notin hn, Bool.not_false, Bool.and_self, if_true]
    rw [List.append_assoc, List.cons_append, List.cons_append, mRun]
    simp only [e1]
    show mRun ⟨D, N, I, .paramT h p ([], .need .none)⟩ _ = _
    rw [mRun_append (mRun_type (E := fun x => ⟨D, N, I, .paramT h p x⟩) (step_paramT h p) h1), List.cons_append, mRun]
    simp only [mStep, tStep_ends h2 (t := .p ',') (by simp), typeDone_ends h2]
    rw [ih false { h with params := h.params ++ [(p, ofDnf d)] } n rest (by simpa using hn)]
    simp

theorem declarations_head {ts : List FTok} {is : List Item} (h : Declarations ts is) :
    ∃ t nl r, ts = (t, nl) :: r ∧ (t = .p ';' ∨ t = .p '}' ∨ t = .ident (lit "export")) := by
  cases h with
  | close => exact ⟨_, _, _, rfl, by simp⟩
  | empty => exact ⟨_, _, _, rfl, by simp⟩
  | const => exact ⟨_, _, _, rfl, by simp⟩
  | interface => exact ⟨_, _, _, rfl, by simp⟩
  | alias => exact ⟨_, _, _, rfl, by simp⟩
  | func => exact ⟨_, _, _, rfl, by simp⟩

theorem declarations_read {ts : List FTok} {is : List Item} (h : Declarations ts is) {D : List Ns} {N : Str} :
    ∀ (I : List Item) (rest : List FTok), mRun ⟨D, N, I, .item⟩ (ts ++ rest) = mRun ⟨D ++ [⟨N, I ++ is⟩], [], [], .top⟩ rest := by
  induction h with
  | close => intro I rest; rw [List.append_nil]; rfl
  | empty _ ih => intro I rest; exact ih I rest
  | @const n n1 n2 n3 n4 ts e rest is hn he hr _ ih =>
    intro I rest'
    have e1 : mStep ⟨D, N, I, .constName⟩ (.ident n) n3 = some ⟨D, N, I, .constEq n⟩ := by
      simp only [mStep, bindable_iff.2 hn, if_true]
    rw [List.append_assoc]
    show mRun ⟨D, N, I, .constName⟩ ((.ident n, n3) :: (.p '=', n4) :: (ts ++ (rest ++ rest'))) = _
    rw [mRun]
    simp only [e1]
    show mRun ⟨D, N, I, .constE n ([], .need)⟩ (ts ++ (rest ++ rest')) = _
    rw [mRun_const he (by cases hr <;> constructor; assumption), ih]
    simp
  | @interface n n1 n2 n3 ts ps rest is hn hn' hp hr ih =>
    intro I rest'
    have e1 : mStep ⟨D, N, I, .ifaceName⟩ (.ident n) false = some ⟨D, N, I, .ifaceOpen n⟩ := by
      simp only [mStep, declarable_iff.2 ⟨hn, hn'⟩, Bool.not_false, Bool.and_self, if_true]
    rw [List.append_assoc]
    show mRun ⟨D, N, I, .ifaceName⟩ ((.ident n, false) :: (.p '{', n3) :: (ts ++ (rest ++ rest'))) = _
    rw [mRun]
    simp only [e1]
    rw [iface_brace]
    obtain ⟨c, h1, h2⟩ := tRun_alternatives (ts := unmark ((.p '{', n3) :: ts)) (.one (.one hp))
    rw [← List.cons_append, mRun_append (mRun_type (E := fun x => ⟨D, N, I, .ifaceT n x⟩) (step_ifaceT n) h1)]
    have ih := ih (I ++ [.interface n ps]) rest'
    obtain ⟨t, nl, r, rfl, ht⟩ := declarations_head hr
    rw [show I ++ Item.interface n ps :: is = I ++ [.interface n ps] ++ is from by simp, ← ih, List.cons_append, mRun, mRun]
    have h3 : tStep ([], c) t = none := tStep_ends h2 (by rcases ht with h | h | h <;> simp [h])
    simp only [mStep, h3, typeDone_ends h2]
    rfl
  | @alias n n1 n2 n3 ts d rest is hn hn' hd hr _ ih =>
    intro I rest'
    have e1 : mStep ⟨D, N, I, .aliasName⟩ (.ident n) false = some ⟨D, N, I, .aliasEq n⟩ := by
      simp only [mStep, declarable_iff.2 ⟨hn, hn'⟩, Bool.not_false, Bool.and_self, if_true]
    rw [List.append_assoc]
    show mRun ⟨D, N, I, .aliasName⟩ ((.ident n, false) :: (.p '=', n3) :: (ts ++ (rest ++ rest'))) = _
    rw [mRun]
    simp only [e1]
    show mRun ⟨D, N, I, .aliasT n ([], .need .none)⟩ (ts ++ (rest ++ rest')) = _
    rw [mRun_alias hd (by cases hr <;> constructor; assumption), ih]
    simp
  | @func n n1 n2 n3 n4 n5 n6 isAsync fn tp ps tr d tb ss rest is hn hf hp hnd hd hb _ ih =>
    intro I rest'
    have e0 : ∀ r, mRun ⟨D, N, I, .item⟩ ((.ident (lit "export"), n1) :: fn ++ r) = mRun ⟨D, N, I, .fnName isAsync⟩ r := by
      intro r
      cases hf <;> rfl
    have e1 : mStep ⟨D, N, I, .fnName isAsync⟩ (.ident n) n2 = some ⟨D, N, I, .fnOpen ⟨isAsync, n, []⟩⟩ := by
      simp only [mStep, bindable_iff.2 hn, if_true]
    have e2 : ∀ r, mRun ⟨D, N, I, .param true ⟨isAsync, n, []⟩⟩ (tp ++ (.p ')', n4) :: r) = mRun ⟨D, N, I, .fnColon ⟨isAsync, n, ps⟩⟩ r := by
      intro r
      cases hp with
      | none => rfl
      | some hp => exact parameters_read hp true ⟨isAsync, n, []⟩ n4 r (by simpa using hnd)
    obtain ⟨c, h1, h2⟩ := tRun_alternatives hd
    have e : (.ident (lit "export"), n1) :: fn ++ (.ident n, n2) :: (.p '(', n3) :: tp ++ (.p ')', n4) :: (.p ':', n5) ::
        tr ++ (.p '{', n6) :: tb ++ rest ++ rest' = (.ident (lit "export"), n1) :: fn ++ ((.ident n, n2) :: (.p '(', n3) :: (tp ++ (.p ')', n4) ::
          ((.p ':', n5) :: (tr ++ (.p '{', n6) :: (tb ++ (rest ++ rest')))))) := by simp
    rw [e, e0, mRun]
    simp only [e1]
    show mRun ⟨D, N, I, .param true ⟨isAsync, n, []⟩⟩ _ = _
    rw [e2]
    show mRun ⟨D, N, I, .retT ⟨isAsync, n, ps⟩ ([], .need .none)⟩ _ = _
    rw [mRun_append (mRun_type (E := fun x => ⟨D, N, I, .retT ⟨isAsync, n, ps⟩ x⟩) (step_retT _) h1), mRun]
    simp only [mStep, tStep_ends h2 (t := .p '{') (by simp), typeDone_ends h2]
    rw [statements_read hb, ih]
    simp

theorem namespaces_read {ts : List FTok} {M : List Ns} (h : Namespaces ts M) :
    ∀ (D : List Ns), mRun ⟨D, [], [], .top⟩ ts = some ⟨D ++ M, [], [], .top⟩ := by
  induction h with
  | nil => intro D; rw [List.append_nil]; rfl
  | @more n n1 n2 n3 ts is rest M hn hd _ ih =>
    intro D
    have e1 : mStep ⟨D, [], [], .nsName⟩ (.ident n) false = some ⟨D, n, [], .nsOpen⟩ := by
      simp only [mStep, bindable_iff.2 hn, Bool.not_false, Bool.and_self, if_true]
    show mRun ⟨D, [], [], .nsName⟩ ((.ident n, false) :: (.p '{', n3) :: (ts ++ rest)) = _
    rw [mRun]
    simp only [e1]
    show mRun ⟨D, n, [], .item⟩ (ts ++ rest) = _
    rw [declarations_read hd, ih]
    simp

/-- A text is read as these namespaces exactly if the grammar says so. -/
theorem readModule_iff (s : Str) (M : List Ns) : readModule s = some M ↔ IsModuleText s M := by
  refine ⟨readModule_sound, ?_⟩
  rintro ⟨ts, h1, h2⟩
  unfold readModule
  simp only [(source_iff s ts).2 h1, namespaces_read h2 [], List.nil_append]

end Verif.Spec
