import Verif.Ts.ReadMembers
import Verif.Spec.Stubs

/-!
# Reading client stubs and whole modules (proof helper)
-/

namespace Verif.Ts
open Verif Verif.Js Verif.Spec Verif.Codegen

/-- An argument is read as this parameter. -/
def ArgOk (a : RpcArg) (p : Str × TsType) : Prop :=
  p.1 = a.name ∧ isIdent a.name = true ∧ bindable a.name = true ∧ ∃ d, Den a.typeDef d ∧ p.2 = ofDnf d

/-- A parameter with its type: `core/src/rpc/codegen/mod.rs:72-76`. -/
def argText (a : RpcArg) : Str := a.name ++ lit ": " ++ a.typeDef

section
variable {D : List Ns} {N : Str} {I : List Item}

/-- One parameter and the separator after it. -/
theorem MTrans.param {a : RpcArg} {p : Str × TsType} (h : ArgOk a p) {hd : Header} (hn : p.1 ∉ hd.params.map (·.1))
    (first : Bool) :
    MTrans (argText a ++ lit ",") none ⟨D, N, I, .param first hd⟩ none
      ⟨D, N, I, .param false { hd with params := hd.params ++ [p] }⟩ ∧
    MTrans (argText a ++ lit ")") none ⟨D, N, I, .param first hd⟩ none
      ⟨D, N, I, .fnColon { hd with params := hd.params ++ [p] }⟩ := by
  obtain ⟨h1, h2, h3, d, h4, h5⟩ := h
  obtain ⟨pn, pt⟩ := p
  simp only at h1 h5 hn
  subst h1 h5
  have key : ∀ (x : Char) (B : MState), (x = ',' ∨ x = ')') →
      (∀ nl c, TEnds c d → mStep ⟨D, N, I, .paramT hd a.name ([], c)⟩ (.p x) nl = some B) →
      MTrans (argText a ++ [x]) none ⟨D, N, I, .param first hd⟩ none B := by
    intro x B hx hB
    unfold argText
    rw [List.append_assoc, List.append_assoc]
    refine MTrans.ident h2 (B := ⟨D, N, I, .paramColon hd a.name⟩) (fun nl _ => ?_) (MTrans.any ?_) ⟨_, _, rfl, rfl⟩
    · have : (hd.params.map (·.1)).contains a.name = false := by simpa using hn
      simp only [mStep, h3, this]
      rfl
    · refine (MTrans.const (s := lit ": ") (B := ⟨D, N, I, .paramT hd a.name ([], .need .none)⟩) (n' := none)
        (fun nl => by cases nl <;> exact ⟨rfl, rfl, knows_none _⟩)).append ?_
      have hlex : (lexRun ⟨[], .start⟩ [x]).mode = .start := by rcases hx with rfl | rfl <;> rfl
      have htok : toks [x] = [.p x] := by rcases hx with rfl | rfl <;> rfl
      refine MTrans.type (s := a.typeDef) (b := [x]) (E := fun y => ⟨D, N, I, .paramT hd a.name y⟩) (step_paramT hd a.name) h4 hlex
        ⟨x, [], rfl, by rcases hx with rfl | rfl <;> rfl⟩ (fun c fs hc hfs => ?_)
      rw [htok] at hfs
      obtain ⟨nl, rfl⟩ : ∃ nl, fs = [(.p x, nl)] := by
        cases fs with
        | nil => cases hfs
        | cons f fs =>
          obtain ⟨t, b⟩ := f
          cases fs with
          | nil => injection hfs with h1 _; exact ⟨b, by rw [show t = .p x from h1]⟩
          | cons g fs => cases hfs
      rw [mRun, hB nl c hc]
      rfl
  refine ⟨key ',' _ (Or.inl rfl) (fun nl c hc => ?_), key ')' _ (Or.inr rfl) (fun nl c hc => ?_)⟩
  · have h1 : tStep ([], c) (.p ',') = none := by
      rcases hc with rfl | ⟨o, p, rfl, _⟩ <;> rfl
    simp only [mStep, h1, typeDone_ends hc]
  · have h1 : tStep ([], c) (.p ')') = none := by
      rcases hc with rfl | ⟨o, p, rfl, _⟩ <;> rfl
    simp only [mStep, h1, typeDone_ends hc]

/-- The parameter list. -/
theorem MTrans.params {args : List RpcArg} {ps : List (Str × TsType)} (h : All2 ArgOk args ps) (hne : args ≠ [])
    {hd : Header} (hn : ((hd.params ++ ps).map (·.1)).Nodup) (first : Bool) :
    MTrans (join (lit ",") (args.map argText) ++ lit ")") none ⟨D, N, I, .param first hd⟩ none
      ⟨D, N, I, .fnColon { hd with params := hd.params ++ ps }⟩ := by
  induction h generalizing hd first with
  | nil => exact absurd rfl hne
  | @cons a p args ps h1 h2 ih =>
    have hp : p.1 ∉ hd.params.map (·.1) := by
      rw [List.map_append, List.map_cons, List.nodup_append] at hn
      exact fun hm => hn.2.2 _ hm p.1 (by simp) rfl
    cases h2 with
    | nil => exact (MTrans.param h1 hp first).2
    | cons h3 h4 =>
      have := ih (by simp) (hd := { hd with params := hd.params ++ [p] }) (by simpa using hn) false
      rw [List.map_cons, List.map_cons, join_cons_cons, ← List.map_cons]
      have h5 := (MTrans.param h1 hp first).1.append this
      simpa only [List.append_assoc, List.singleton_append] using h5

theorem MTrans.paramList {args : List RpcArg} {ps : List (Str × TsType)} (h : All2 ArgOk args ps) {a : Bool} {n : Str}
    (hn : (ps.map (·.1)).Nodup) :
    MTrans (join (lit ",") (args.map argText) ++ lit ")") none ⟨D, N, I, .param true ⟨a, n, []⟩⟩ none
      ⟨D, N, I, .fnColon ⟨a, n, ps⟩⟩ := by
  cases h with
  | nil => exact MTrans.const (n' := none) (fun nl => by cases nl <;> exact ⟨rfl, rfl, knows_none _⟩)
  | cons h1 h2 => exact MTrans.params (.cons h1 h2) (by simp) (hd := ⟨a, n, []⟩) (by simpa using hn) true

/-- The next statement, starting with `z` on a new line, can follow. -/
def SReady (D : List Ns) (N : Str) (I : List Item) (hd : Header) (r : TsType) (body : List Stmt) (A : MState) : Prop :=
  mStep A (.ident (lit "z")) true = stmtStep ⟨D, N, I, .item⟩ hd r body (.ident (lit "z"))

/-- Mentioning the parameters. -/
theorem MTrans.names {names : List Str} (hn : ∀ n ∈ names, isIdent n = true ∧ bindable n = true) (hne : names ≠ []) {hd : Header}
    {r : TsType} {body : List Stmt} :
    ∃ B, MTrans (join (lit ";\n") names ++ lit "\n") none ⟨D, N, I, .stmts hd r body⟩ (some true) B ∧
      SReady D N I hd r (body ++ names.map (fun n => .expr (.var n))) B := by
  induction names generalizing body with
  | nil => exact absurd rfl hne
  | cons n names ih =>
    obtain ⟨h1, h2⟩ := hn n (by simp)
    have hs : ∀ nl, mStep ⟨D, N, I, .stmts hd r body⟩ (.ident n) nl = some ⟨D, N, I, .exprS hd r body false ([], .have_ (.var n))⟩ := by
      intro nl
      have h3 : reserved.contains n = false := by simpa [bindable] using h2
      have h4 : n ≠ lit "return" := by rintro rfl; revert h3; decide +kernel
      simp only [mStep, stmtStep, if_neg h4, needStep, notExpr, h3, Bool.false_and]
      rfl
    cases names with
    | nil =>
      refine ⟨⟨D, N, I, .exprS hd r body false ([], .have_ (.var n))⟩, ?_, rfl⟩
      exact MTrans.ident h1 (fun nl _ => hs nl)
        (MTrans.any (MTrans.const (fun nl => by cases nl <;> exact ⟨rfl, rfl, fun b hb => (by injection hb)⟩)))
        ⟨_, _, rfl, rfl⟩
    | cons n' names =>
      obtain ⟨B, hB, hr⟩ := ih (fun x hx => hn x (List.mem_cons_of_mem _ hx)) (by simp) (body := body ++ [.expr (.var n)])
      refine ⟨B, ?_, by simpa using hr⟩
      rw [join_cons_cons, List.append_assoc, List.append_assoc]
      exact MTrans.ident h1 (fun nl _ => hs nl)
        (MTrans.any (MTrans.append (MTrans.const (s := lit ";\n") (n' := none)
          (fun nl => by cases nl <;> exact ⟨rfl, rfl, knows_none _⟩)) hB)) ⟨_, _, rfl, rfl⟩

/-- The texts between the opening brace and the validation. -/
theorem MTrans.phantom {args : List RpcArg} (hn : ∀ a ∈ args, isIdent a.name = true ∧ bindable a.name = true) {hd : Header} {r : TsType} :
    ∃ B, MTrans (indent ++ phantomArgNames args ++ lit "\n") none ⟨D, N, I, .stmts hd r []⟩ (some true) B ∧
      SReady D N I hd r (args.map (fun a => .expr (.var a.name))) B := by
  unfold phantomArgNames
  cases args with
  | nil => exact ⟨⟨D, N, I, .stmts hd r []⟩, MTrans.const (fun nl => by cases nl <;> exact ⟨rfl, rfl, fun b hb => (by injection hb)⟩), rfl⟩
  | cons a args =>
    obtain ⟨B, hB, hr⟩ := MTrans.names (D := D) (N := N) (I := I) (names := (a :: args).map (·.name)) (hd := hd) (r := r) (body := [])
      (by simpa using hn) (by simp)
    refine ⟨B, ?_, by rw [List.map_map] at hr; exact hr⟩
    have := (MTrans.const (s := indent ++ lit "// phantom usage\n") (A := ⟨D, N, I, .stmts hd r []⟩)
      (B := ⟨D, N, I, .stmts hd r []⟩) (n' := none)
      (fun nl => by cases nl <;> exact ⟨rfl, rfl, knows_none _⟩)).append hB
    show MTrans (indent ++ (lit "// phantom usage\n" ++ join (lit ";\n") ((a :: args).map (·.name))) ++ lit "\n") none _ _ _
    simpa only [List.append_assoc] using this

end

/-- What reading a client stub needs and gives. -/
structure ReadsStub (m : RpcMember) (f : Fn) : Prop where
  name : isIdent m.name = true
  bindable : bindable m.name = true
  ns : isQuotable m.ns = true
  parts : ∃ ps es d, All2 ArgOk m.args ps ∧ (m.args.map (·.name)).Nodup ∧ All2 Denotes (m.args.map (·.schema)) es ∧
    Den m.res d ∧ f = stub m.kind m.ns m.name ps es (ofDnf d)

theorem sep_bare : Sep (lit ",") := fun _ => rfl

theorem argOk_names {args : List RpcArg} {ps : List (Str × TsType)} (h : All2 ArgOk args ps) :
    ps.map (·.1) = args.map (·.name) := by
  induction h with
  | nil => rfl
  | cons h1 _ ih => rw [List.map_cons, List.map_cons, ih, h1.1]

theorem argOk_mem {args : List RpcArg} {ps : List (Str × TsType)} (h : All2 ArgOk args ps) :
    ∀ a ∈ args, isIdent a.name = true ∧ bindable a.name = true := by
  induction h with
  | nil => intro a ha; cases ha
  | cons h1 _ ih =>
    intro a ha
    rcases List.mem_cons.1 ha with rfl | ha
    · exact ⟨h1.2.1, h1.2.2.1⟩
    · exact ih a ha

theorem tuple_elems {ss : List Str} {es : List JsExpr} (h : All2 Denotes ss es) (k : List Frame) :
    Trans (join (lit ",") ss ++ lit "]") (.arr [] :: k, .needOrClose) (k, .have_ (.arr es)) := by
  cases h with
  | nil => exact Trans.const rfl rfl
  | cons h1 h2 => exact Trans.elems sep_bare (.cons h1 h2) k [] (Or.inr rfl) (by simp)

set_option maxRecDepth 4000 in
/-- A client stub. -/
theorem MTrans.stub {m : RpcMember} {f : Fn} (h : ReadsStub m f) {D : List Ns} {N : Str} {I : List Item} {A : MState}
    (hA : Ready D N I A) : MTrans m.decl none A none ⟨D, N, I ++ [.func f], .item⟩ := by
  obtain ⟨hid, hbind, hns, ps, es, d, hargs, hnd, hes, hres, rfl⟩ := h
  obtain ⟨kind, ns, name, args, res⟩ := m
  simp only at *
  have hnd' : (ps.map (·.1)).Nodup := by rw [argOk_names hargs]; exact hnd
  have hphbody : args.map (fun a => Stmt.expr (.var a.name)) = ps.map (fun p => Stmt.expr (.var p.1)) := by
    have := congrArg (List.map (fun x => Stmt.expr (.var x))) (argOk_names hargs)
    rw [List.map_map, List.map_map] at this
    exact this.symm
  obtain ⟨P, hP, hPr⟩ := MTrans.phantom (D := D) (N := N) (I := I) (args := args) (argOk_mem hargs)
    (hd := ⟨kind = .method, name, ps⟩) (r := .app [container kind] [ofDnf d])
  rw [hphbody] at hPr
  -- the validation
  have hval : MTrans (indent ++ lit "z.tuple([") (some true) P none
      ⟨D, N, I, .exprS ⟨kind = .method, name, ps⟩ (.app [container kind] [ofDnf d]) (ps.map (fun p => Stmt.expr (.var p.1))) false
        ([.arr [], .call (.member (.var (lit "z")) (lit "tuple")) []], .needOrClose)⟩ := by
    refine MTrans.constAt true rfl ⟨rfl, ?_, knows_none _⟩
    have : (xAfter true (indent ++ lit "z.tuple([")).toks.reverse =
      [(.ident (lit "z"), true), (.p '.', false), (.ident (lit "tuple"), false), (.p '(', false), (.p '[', false)] := rfl
    rw [this, mRun, hPr]
    rfl
  -- the transmission
  have hsend : ∀ body : List Stmt, MTrans (lit "\"" ++ ns ++ lit "\"" ++ (lit ", " ++ (lit "\"" ++ name ++ lit "\"" ++
      (lit ", arguments);" ++ lit "\n                };")))) none
      ⟨D, N, I, .exprS ⟨kind = .method, name, ps⟩ (.app [container kind] [ofDnf d]) body true
        ([.call (.var (transport kind)) []], .needOrClose)⟩ none
      ⟨D, N, I ++ [.func ⟨kind = .method, name, ps, .app [container kind] [ofDnf d], body ++ [.ret (transmission kind ns name)]⟩], .item⟩ := by
    intro body
    refine (MTrans.expr (E := fun x => ⟨D, N, I, .exprS ⟨kind = .method, name, ps⟩ (.app [container kind] [ofDnf d]) body true x⟩)
      (step_exprS _ _ _ _) (Trans.quoted (B := ([.call (.var (transport kind)) []], .have_ (.str ns))) hns rfl)).append ?_
    refine (MTrans.const (s := lit ", ") (n' := none)
      (B := ⟨D, N, I, .exprS ⟨kind = .method, name, ps⟩ (.app [container kind] [ofDnf d]) body true
        ([.call (.var (transport kind)) [.str ns]], .need)⟩)
      (fun nl => by cases nl <;> exact ⟨rfl, rfl, knows_none _⟩)).append ?_
    refine (MTrans.expr (E := fun x => ⟨D, N, I, .exprS ⟨kind = .method, name, ps⟩ (.app [container kind] [ofDnf d]) body true x⟩)
      (step_exprS _ _ _ _) (Trans.quoted (B := ([.call (.var (transport kind)) [.str ns]], .have_ (.str name)))
        (isIdent_quotable hid) rfl)).append ?_
    exact MTrans.const (n' := none) (fun nl => by cases nl <;> exact ⟨rfl, rfl, knows_none _⟩)
  have hel := fun (b : List Stmt) => MTrans.expr (n := none)
    (E := fun x => ⟨D, N, I, .exprS ⟨kind = .method, name, ps⟩ (.app [container kind] [ofDnf d]) b false x⟩)
    (step_exprS _ _ _ _) (tuple_elems hes [.call (.member (.var (lit "z")) (lit "tuple")) []])
  have hopen : ∀ a : Bool, MTrans (name ++ (lit "(" ++ (join (lit ",") (args.map argText) ++ lit ")"))) (some false)
      ⟨D, N, I, .fnName a⟩ none ⟨D, N, I, .fnColon ⟨a, name, ps⟩⟩ := by
    intro a
    exact MTrans.ident hid (B := ⟨D, N, I, .fnOpen ⟨a, name, []⟩⟩) (fun nl _ => by simp [mStep, hbind])
      (MTrans.any ((MTrans.const (s := lit "(") (n' := none) (fun nl => by cases nl <;> exact ⟨rfl, rfl, knows_none _⟩)).append
        (MTrans.paramList hargs hnd'))) ⟨_, _, rfl, rfl⟩
  have hret : ∀ c : Str, MTrans (res ++ lit "> {") none ⟨D, N, I, .retT ⟨kind = .method, name, ps⟩ ([.app .none [c] []], .need .none)⟩ none
      ⟨D, N, I, .stmts ⟨kind = .method, name, ps⟩ (.app [c] [ofDnf d]) []⟩ := by
    intro c
    have h1 : TTrans (res ++ lit ">") ([.app .none [c] []], .need .none) ([], .have_ [[.app [c] [ofDnf d]]]) := by
      refine Den.then hres (Or.inl rfl) rfl ⟨_, _, rfl, rfl⟩ rfl ?_
      rw [cont_none hres.1]
      rfl
    have h2 := (MTrans.ttrans (n := none) (E := fun x => ⟨D, N, I, .retT ⟨kind = .method, name, ps⟩ x⟩) (step_retT _) h1).append
      (MTrans.const (s := lit " {") (n' := none) (B := ⟨D, N, I, .stmts ⟨kind = .method, name, ps⟩ (.app [c] [ofDnf d]) []⟩)
        (fun nl => by cases nl <;> exact ⟨rfl, rfl, knows_none _⟩))
    rw [List.append_assoc] at h2
    exact h2
  have hat : argText = fun a => a.name ++ (lit ": " ++ a.typeDef) := by funext a; simp [argText]
  unfold RpcMember.decl
  cases kind with
  | method =>
    have e1 : ∀ X : Str, lit "): Promise<" ++ X = lit ")" ++ (lit ": Promise<" ++ X) := fun _ => rfl
    have e2 : ∀ X : Str, lit "]).parse([...arguments]);" ++ X = lit "]" ++ (lit ").parse([...arguments]);" ++ X) := fun _ => rfl
    have e3 : ∀ X : Str, lit "return request(\"" ++ X = lit "return request(" ++ (lit "\"" ++ X) := fun _ => rfl
    have e4 : ∀ X : Str, lit "\", \"" ++ X = lit "\"" ++ (lit ", " ++ (lit "\"" ++ X)) := fun _ => rfl
    have e5 : ∀ X : Str, lit "\", arguments);" ++ X = lit "\"" ++ (lit ", arguments);" ++ X) := fun _ => rfl
    have := (MTrans.export (s := indent ++ lit "// @ts-ignore" ++ indent ++ lit "export async function ")
        (kw := [.ident (lit "async"), .ident (lit "function")]) hA (fun nl => by cases nl <;> exact ⟨rfl, rfl, _, rfl⟩) rfl).append
      ((hopen true).append
        ((MTrans.const (s := lit ": Promise<") (n' := none)
          (B := ⟨D, N, I, .retT ⟨true, name, ps⟩ ([.app .none [lit "Promise"] []], .need .none)⟩)
          (fun nl => by cases nl <;> exact ⟨rfl, rfl, knows_none _⟩)).append
        ((hret (lit "Promise")).append (hP.append (hval.append ((hel _).append
          ((MTrans.const (s := lit ").parse([...arguments]);" ++ indent ++ lit "return request(") (n' := none)
            (B := ⟨D, N, I, .exprS ⟨true, name, ps⟩ (.app [lit "Promise"] [ofDnf d])
              (ps.map (fun p => Stmt.expr (.var p.1)) ++ [.expr (validation es)]) true ([.call (.var (lit "request")) []], .needOrClose)⟩)
            (fun nl => by cases nl <;> exact ⟨rfl, rfl, knows_none _⟩)).append (hsend _))))))))
    simp only [List.append_assoc, hat] at this
    simp only [List.append_assoc, e1, e2, e3, e4, e5, Spec.stub]
    exact this
  | stream =>
    have e1 : ∀ X : Str, lit "): Store<" ++ X = lit ")" ++ (lit ": Store<" ++ X) := fun _ => rfl
    have e2 : ∀ X : Str, lit "]).parse([...arguments]);" ++ X = lit "]" ++ (lit ").parse([...arguments]);" ++ X) := fun _ => rfl
    have e3 : ∀ X : Str, lit "return subscribe(\"" ++ X = lit "return subscribe(" ++ (lit "\"" ++ X) := fun _ => rfl
    have e4 : ∀ X : Str, lit "\", \"" ++ X = lit "\"" ++ (lit ", " ++ (lit "\"" ++ X)) := fun _ => rfl
    have e5 : ∀ X : Str, lit "\", arguments);" ++ X = lit "\"" ++ (lit ", arguments);" ++ X) := fun _ => rfl
    have := (MTrans.export (s := indent ++ lit "// @ts-ignore" ++ indent ++ lit "export function ")
        (kw := [.ident (lit "function")]) hA (fun nl => by cases nl <;> exact ⟨rfl, rfl, _, rfl⟩) rfl).append
      ((hopen false).append
        ((MTrans.const (s := lit ": Store<") (n' := none)
          (B := ⟨D, N, I, .retT ⟨false, name, ps⟩ ([.app .none [lit "Store"] []], .need .none)⟩)
          (fun nl => by cases nl <;> exact ⟨rfl, rfl, knows_none _⟩)).append
        ((hret (lit "Store")).append (hP.append (hval.append ((hel _).append
          ((MTrans.const (s := lit ").parse([...arguments]);" ++ indent ++ lit "return subscribe(") (n' := none)
            (B := ⟨D, N, I, .exprS ⟨false, name, ps⟩ (.app [lit "Store"] [ofDnf d])
              (ps.map (fun p => Stmt.expr (.var p.1)) ++ [.expr (validation es)]) true ([.call (.var (lit "subscribe")) []], .needOrClose)⟩)
            (fun nl => by cases nl <;> exact ⟨rfl, rfl, knows_none _⟩)).append (hsend _))))))))
    simp only [List.append_assoc, hat] at this
    simp only [List.append_assoc, e1, e2, e3, e4, e5, Spec.stub]
    exact this

end Verif.Ts
