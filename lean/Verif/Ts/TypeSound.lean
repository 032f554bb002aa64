import Verif.Js.ExprSound

/-!
# The type reader accepts exactly the type grammar
-/

namespace Verif.Ts
open Verif Verif.Js

/-- With one more operand, what has been read since the last bracket are alternatives. -/
def OpsText (o : Ops) (ts : List Tok) : Prop := ∀ tp T, Primary tp T → Alternatives (ts ++ tp) (o.add T)

theorem OpsText.none : OpsText .none [] := fun _ _ h => .one (.one h)

theorem OpsText.or_ {d : Dnf} {td : List Tok} (h : Alternatives td d) : OpsText ⟨d, []⟩ (td ++ [.p '|']) := by
  intro tp T ht
  rw [List.append_assoc]
  exact .or_ h (.one ht)

theorem OpsText.and_ {d : Dnf} {td : List Tok} (h : Alternatives td d) : OpsText ⟨d.dropLast, (d.getLast?).getD []⟩ (td ++ [.p '&']) := by
  intro tp T ht
  cases h with
  | one h =>
    rw [List.append_assoc]
    exact .one (.and_ h ht)
  | @or_ ts d ts' c h h' =>
    have : Ops.add ⟨(d ++ [c]).dropLast, ((d ++ [c]).getLast?).getD []⟩ T = d ++ [c ++ [T]] := by simp [Ops.add]
    rw [this, List.append_assoc, List.append_assoc]
    exact .or_ h (.and_ h' ht)

/-- Complete types, each followed by a comma. -/
inductive DoneTypes : List Tok → List TsType → Prop
  | nil : DoneTypes [] []
  | some {ts l} : Types ts l → DoneTypes (ts ++ [.p ',']) l

/-- Complete members, each followed by a comma. -/
inductive DoneMembers : List Tok → List (Str × Bool × TsType) → Prop
  | nil : DoneMembers [] []
  | some {ts l} : Members ts l → DoneMembers (ts ++ [.p ',']) l

theorem DoneTypes.add {td te : List Tok} {l : List TsType} {d : Dnf} (h : DoneTypes td l) (he : Alternatives te d) :
    Types (td ++ te) (l ++ [ofDnf d]) := by
  cases h with
  | nil => exact .one he
  | some h => rw [List.append_assoc]; exact .more h he

theorem DoneMembers.add {td te : List Tok} {l : List (Str × Bool × TsType)} {p : Str × Bool × TsType} (h : DoneMembers td l)
    (he : Member te p) : Members (td ++ te) (l ++ [p]) := by
  cases h with
  | nil => exact .one he
  | some h => rw [List.append_assoc]; exact .more h he

theorem DoneTypes.of_nil {td : List Tok} (h : DoneTypes td []) : td = [] := by
  generalize hd : ([] : List TsType) = d at h
  cases h with
  | nil => rfl
  | some h =>
    cases h with
    | one => simp at hd
    | more => simp at hd

theorem DoneMembers.of_nil {td : List Tok} (h : DoneMembers td []) : td = [] := by
  generalize hd : ([] : List (Str × Bool × TsType)) = d at h
  cases h with
  | nil => rfl
  | some h =>
    cases h with
    | one => simp at hd
    | more => simp at hd

/-- What stands between a property's name and its type. -/
def colonToks (opt : Bool) : List Tok := if opt then [.p '?', .p ':'] else [.p ':']

theorem member_of {w : Str} {opt : Bool} {te : List Tok} {d : Dnf} (h : Alternatives te d) :
    Member (.ident w :: colonToks opt ++ te) (w, opt, ofDnf d) := by
  cases opt with
  | false => exact .required h
  | true => exact .optional h

/-- The tokens that have led to these frames. -/
inductive TOpened : List TFrame → List Tok → Prop
  | nil : TOpened [] []
  | paren {k ts o to_} : TOpened k ts → OpsText o to_ → TOpened (.paren o :: k) (ts ++ to_ ++ [.p '('])
  | tuple {k ts o to_ l td} : TOpened k ts → OpsText o to_ → DoneTypes td l → TOpened (.tuple o l :: k) (ts ++ to_ ++ .p '[' :: td)
  | app {k ts o to_ tn p l td} : TOpened k ts → OpsText o to_ → TypeName tn p → DoneTypes td l →
      TOpened (.app o p l :: k) (ts ++ to_ ++ tn ++ .p '<' :: td)
  | objKey {k ts o to_ ps td} : TOpened k ts → OpsText o to_ → DoneMembers td ps → TOpened (.objKey o ps :: k) (ts ++ to_ ++ .p '{' :: td)
  | objVal {k ts o to_ ps td w opt} : TOpened k ts → OpsText o to_ → DoneMembers td ps →
      TOpened (.objVal o ps w opt :: k) (ts ++ to_ ++ .p '{' :: td ++ .ident w :: colonToks opt)

/-- Invariant: the tokens read so far. -/
def TInv (s : TState) (ts : List Tok) : Prop :=
  match s.2 with
  | .need o => ∃ t0 to_, ts = t0 ++ to_ ∧ TOpened s.1 t0 ∧ OpsText o to_
  | .needOrClose => TOpened s.1 ts ∧ ∃ o k, s.1 = .tuple o [] :: k
  | .named o p => ∃ t0 to_ tn, ts = t0 ++ to_ ++ tn ∧ TOpened s.1 t0 ∧ OpsText o to_ ∧ TypeName tn p
  | .dot o p => ∃ t0 to_ tn, ts = t0 ++ to_ ++ tn ++ [.p '.'] ∧ TOpened s.1 t0 ∧ OpsText o to_ ∧ TypeName tn p
  | .have_ d => ∃ t0 td, ts = t0 ++ td ∧ TOpened s.1 t0 ∧ Alternatives td d
  | .key => TOpened s.1 ts
  | .keyOrClose => TOpened s.1 ts ∧ ∃ o k, s.1 = .objKey o [] :: k
  | .afterKey w => ∃ t0, ts = t0 ++ [.ident w] ∧ TOpened s.1 t0
  | .colon w => ∃ t0, ts = t0 ++ [.ident w, .p '?'] ∧ TOpened s.1 t0

theorem needT_inv {k : List TFrame} {o : Ops} {t : Tok} {s : TState} (h : needT k o t = some s) :
    (∃ w, t = .ident w ∧ startsType w = true ∧ s = (k, .named o [w])) ∨ (∃ w, t = .str w ∧ s = (k, .have_ (o.add (.str w)))) ∨
    (t = .p '(' ∧ s = (.paren o :: k, .need .none)) ∨ (t = .p '[' ∧ s = (.tuple o [] :: k, .needOrClose)) ∨
    (t = .p '{' ∧ s = (.objKey o [] :: k, .keyOrClose)) := by
  unfold needT at h
  split at h
  · split at h
    · simp_all
    · cases h
  all_goals simp_all

theorem needT_sound {k : List TFrame} {o : Ops} {t : Tok} {s : TState} {t0 to_ : List Tok} (hk : TOpened k t0) (ho : OpsText o to_)
    (h : needT k o t = some s) : TInv s (t0 ++ to_ ++ [t]) := by
  rcases needT_inv h with ⟨w, rfl, hw, rfl⟩ | ⟨w, rfl, rfl⟩ | ⟨rfl, rfl⟩ | ⟨rfl, rfl⟩ | ⟨rfl, rfl⟩
  · exact ⟨t0, to_, _, rfl, hk, ho, .one hw⟩
  · exact ⟨t0, _, by rw [List.append_assoc], hk, ho _ _ .str⟩
  · exact ⟨_, [], by rw [List.append_nil], .paren hk ho, .none⟩
  · exact ⟨.tuple hk ho .nil, _, _, rfl⟩
  · exact ⟨.objKey hk ho .nil, _, _, rfl⟩

theorem haveT_inv {k : List TFrame} {d : Dnf} {t : Tok} {s : TState} (h : haveT k d t = some s) :
    (t = .p '|' ∧ s = (k, .need ⟨d, []⟩)) ∨ (t = .p '&' ∧ s = (k, .need ⟨d.dropLast, (d.getLast?).getD []⟩)) ∨
    (∃ o l k', t = .p ',' ∧ k = .tuple o l :: k' ∧ s = (.tuple o (l ++ [ofDnf d]) :: k', .need .none)) ∨
    (∃ o p l k', t = .p ',' ∧ k = .app o p l :: k' ∧ s = (.app o p (l ++ [ofDnf d]) :: k', .need .none)) ∨
    (∃ o ps w opt k', t = .p ',' ∧ k = .objVal o ps w opt :: k' ∧ s = (.objKey o (ps ++ [(w, opt, ofDnf d)]) :: k', .key)) ∨
    (∃ o k', t = .p ')' ∧ k = .paren o :: k' ∧ s = (k', .have_ (o.add (ofDnf d)))) ∨
    (∃ o l k', t = .p ']' ∧ k = .tuple o l :: k' ∧ s = (k', .have_ (o.add (.tuple (l ++ [ofDnf d]))))) ∨
    (∃ o p l k', t = .p '>' ∧ k = .app o p l :: k' ∧ s = (k', .have_ (o.add (.app p (l ++ [ofDnf d]))))) ∨
    (∃ o ps w opt k', t = .p '}' ∧ k = .objVal o ps w opt :: k' ∧ s = (k', .have_ (o.add (.obj (ps ++ [(w, opt, ofDnf d)]))))) := by
  unfold haveT at h
  split at h
  · simp_all
  · simp_all
  · split at h
    · cases h; exact .inr (.inr (.inl ⟨_, _, _, rfl, rfl, rfl⟩))
    · cases h; exact .inr (.inr (.inr (.inl ⟨_, _, _, _, rfl, rfl, rfl⟩)))
    · cases h; exact .inr (.inr (.inr (.inr (.inl ⟨_, _, _, _, _, rfl, rfl, rfl⟩))))
    · cases h
  · split at h
    · cases h; exact .inr (.inr (.inr (.inr (.inr (.inl ⟨_, _, rfl, rfl, rfl⟩)))))
    · cases h
  · split at h
    · cases h; exact .inr (.inr (.inr (.inr (.inr (.inr (.inl ⟨_, _, _, rfl, rfl, rfl⟩))))))
    · cases h
  · split at h
    · cases h; exact .inr (.inr (.inr (.inr (.inr (.inr (.inr (.inl ⟨_, _, _, _, rfl, rfl, rfl⟩)))))))
    · cases h
  · split at h
    · cases h; exact .inr (.inr (.inr (.inr (.inr (.inr (.inr (.inr ⟨_, _, _, _, _, rfl, rfl, rfl⟩)))))))
    · cases h
  · cases h

theorem haveT_sound {k : List TFrame} {d : Dnf} {t : Tok} {s : TState} {t0 td : List Tok} (hk : TOpened k t0) (hd : Alternatives td d)
    (h : haveT k d t = some s) : TInv s (t0 ++ td ++ [t]) := by
  rcases haveT_inv h with ⟨rfl, rfl⟩ | ⟨rfl, rfl⟩ | ⟨o, l, k', rfl, rfl, rfl⟩ | ⟨o, p, l, k', rfl, rfl, rfl⟩ |
    ⟨o, ps, w, opt, k', rfl, rfl, rfl⟩ | ⟨o, k', rfl, rfl, rfl⟩ | ⟨o, l, k', rfl, rfl, rfl⟩ | ⟨o, p, l, k', rfl, rfl, rfl⟩ |
    ⟨o, ps, w, opt, k', rfl, rfl, rfl⟩
  · exact ⟨t0, _, by rw [List.append_assoc], hk, .or_ hd⟩
  · exact ⟨t0, _, by rw [List.append_assoc], hk, .and_ hd⟩
  · cases hk with
    | tuple h1 h2 h3 => exact ⟨_, [], by simp, .tuple h1 h2 (.some (h3.add hd)), .none⟩
  · cases hk with
    | app h1 h2 h3 h4 => exact ⟨_, [], by simp, .app h1 h2 h3 (.some (h4.add hd)), .none⟩
  · cases hk with
    | objVal h1 h2 h3 =>
      have := TOpened.objKey h1 h2 (.some (h3.add (member_of (w := w) (opt := opt) hd)))
      show TOpened _ _
      simpa using this
  · cases hk with
    | @paren k ts o to_ h1 h2 => exact ⟨ts, _, by simp, h1, h2 _ _ (.paren hd)⟩
  · cases hk with
    | @tuple k ts o to_ l td h1 h2 h3 => exact ⟨ts, _, by simp, h1, h2 _ _ (.tuple (h3.add hd))⟩
  · cases hk with
    | @app k ts o to_ tn p l td h1 h2 h3 h4 => exact ⟨ts, _, by simp, h1, h2 _ _ (.app h3 (h4.add hd))⟩
  · cases hk with
    | @objVal k ts o to_ ps td w opt h1 h2 h3 =>
      exact ⟨ts, _, by simp, h1, h2 _ _ (.obj (h3.add (member_of (w := w) (opt := opt) hd)))⟩

theorem tStep_sound {s s' : TState} {t : Tok} {ts : List Tok} (hi : TInv s ts) (h : tStep s t = some s') : TInv s' (ts ++ [t]) := by
  obtain ⟨k, c⟩ := s
  cases c with
  | need o =>
    obtain ⟨t0, to_, rfl, hk, ho⟩ := hi
    exact needT_sound hk ho h
  | needOrClose =>
    obtain ⟨hk, o, k', e⟩ := hi
    have key : (t = .p ']' ∧ s' = (k', .have_ (o.add (.tuple [])))) ∨ needT k .none t = some s' := by
      simp only at e
      subst e
      unfold tStep at h
      simp only at h
      split at h
      · cases h; exact .inl ⟨rfl, rfl⟩
      · exact .inr h
    rcases key with ⟨rfl, rfl⟩ | h
    · simp only at e
      subst e
      cases hk with
      | @tuple k ts o to_ l td h1 h2 h3 =>
        obtain rfl := h3.of_nil
        exact ⟨ts, _, by simp, h1, h2 _ _ .tuple0⟩
    · have := needT_sound hk OpsText.none h
      simpa using this
  | named o p =>
    obtain ⟨t0, to_, tn, rfl, hk, ho, hn⟩ := hi
    have key : (t = .p '.' ∧ s' = (k, .dot o p)) ∨ (t = .p '<' ∧ s' = (.app o p [] :: k, .need .none)) ∨
        haveT k (o.add (.name p)) t = some s' := by
      unfold tStep at h
      simp only at h
      split at h <;> simp_all
    rcases key with ⟨rfl, rfl⟩ | ⟨rfl, rfl⟩ | h
    · exact ⟨t0, to_, tn, rfl, hk, ho, hn⟩
    · exact ⟨_, [], by rw [List.append_nil], .app hk ho hn .nil, .none⟩
    · have := haveT_sound hk (ho _ _ (.name hn)) h
      simpa using this
  | dot o p =>
    obtain ⟨t0, to_, tn, rfl, hk, ho, hn⟩ := hi
    unfold tStep at h
    simp only at h
    split at h
    · cases h
      exact ⟨t0, to_, _, by simp, hk, ho, .dot hn⟩
    · cases h
  | have_ d =>
    obtain ⟨t0, td, rfl, hk, hd⟩ := hi
    exact haveT_sound hk hd h
  | key =>
    unfold tStep at h
    simp only at h
    split at h
    · cases h
      exact ⟨ts, rfl, hi⟩
    · cases h
  | keyOrClose =>
    obtain ⟨hk, o, k', e⟩ := hi
    simp only at e
    subst e
    unfold tStep at h
    simp only at h
    split at h
    · cases h
      exact ⟨ts, rfl, hk⟩
    · cases h
      cases hk with
      | @objKey k ts o to_ ps td h1 h2 h3 =>
        obtain rfl := h3.of_nil
        exact ⟨ts, _, by simp, h1, h2 _ _ .obj0⟩
    · cases h
  | afterKey w =>
    obtain ⟨t0, rfl, hk⟩ := hi
    unfold tStep at h
    simp only at h
    split at h
    · cases h
      exact ⟨t0, by rw [List.append_assoc]; rfl, hk⟩
    · split at h
      · cases h
        cases hk with
        | objKey h1 h2 h3 => exact ⟨_, [], by simp [colonToks], .objVal (w := w) (opt := false) h1 h2 h3, .none⟩
      · cases h
    · cases h
  | colon w =>
    obtain ⟨t0, rfl, hk⟩ := hi
    unfold tStep at h
    simp only at h
    split at h
    · split at h
      · cases h
        cases hk with
        | objKey h1 h2 h3 => exact ⟨_, [], by simp [colonToks], .objVal (w := w) (opt := true) h1 h2 h3, .none⟩
      · cases h
    · cases h

theorem tRun_sound (ts : List Tok) : ∀ {s s' : TState} {t0 : List Tok}, TInv s t0 → tRun s ts = some s' → TInv s' (t0 ++ ts) := by
  induction ts with
  | nil => intro s s' t0 hi h; cases h; simpa using hi
  | cons t r ih =>
    intro s s' t0 hi h
    rw [tRun] at h
    cases hs : tStep s t with
    | none => rw [hs] at h; cases h
    | some x =>
      rw [hs] at h
      have := ih (tStep_sound hi hs) h
      simpa using this

theorem parseType_sound {ts : List Tok} {T : TsType} (h : parseType ts = some T) : ∃ d, Alternatives ts d ∧ T = ofDnf d := by
  have hs : TInv ([], .need .none) [] := ⟨[], [], rfl, .nil, .none⟩
  unfold parseType at h
  split at h
  · rename_i d hr
    cases h
    obtain ⟨t0, td, e, hk, hd⟩ := tRun_sound ts hs hr
    cases hk
    rw [List.nil_append, List.nil_append] at e
    exact ⟨d, e ▸ hd, rfl⟩
  · rename_i o p hr
    cases h
    obtain ⟨t0, to_, tn, e, hk, ho, hn⟩ := tRun_sound ts hs hr
    cases hk
    rw [List.nil_append, List.nil_append] at e
    exact ⟨_, e ▸ ho _ _ (.name hn), rfl⟩
  · cases h

/-! ## Everything the grammar derives is read -/

theorem tRun_cons {s s' : TState} {t : Tok} {r : List Tok} (h : tStep s t = some s') : tRun s (t :: r) = tRun s' r := by rw [tRun, h]

theorem tRun_one {s s' : TState} {t : Tok} (h : tStep s t = some s') : tRun s [t] = some s' := by rw [tRun, h]; rfl

theorem tRun_app {s s' s'' : TState} {a b : List Tok} (h : tRun s a = some s') (h' : tRun s' b = some s'') : tRun s (a ++ b) = some s'' := by
  rw [tRun_append_some h, h']

theorem starts_stepT {k : List TFrame} {c : TCur} {o : Ops} {t : Tok} (hc : TStarts c o) (h : t ≠ .p ']') :
    tStep (k, c) t = needT k o t := by
  rcases hc with rfl | ⟨rfl, rfl⟩
  · rfl
  · unfold tStep
    simp only

theorem ends_stepT {k : List TFrame} {c : TCur} {d : Dnf} {t : Tok} (hc : TEnds c d) (h : t ≠ .p '.') (h' : t ≠ .p '<') :
    tStep (k, c) t = haveT k d t := by
  rcases hc with rfl | ⟨o, p, rfl, rfl⟩
  · rfl
  · unfold tStep
    simp only

/-- The tokens are read wherever a type may start; `r` is what they are, given the operands before. -/
def ReadsT (ts : List Tok) (r : Ops → Dnf) : Prop :=
  ∀ k c o, TStarts c o → ∃ c', tRun (k, c) ts = some (k, c') ∧ TEnds c' (r o)

theorem typeName_read {ts : List Tok} {p : List Str} (h : TypeName ts p) :
    ∀ k c o, TStarts c o → tRun (k, c) ts = some (k, .named o p) := by
  induction h with
  | one hw =>
    intro k c o hc
    refine tRun_one ((starts_stepT hc (by simp)).trans ?_)
    simp [needT, hw]
  | dot _ ih =>
    intro k c o hc
    exact tRun_app (ih k c o hc) rfl

/-- The types of a list are added to the list being read; the last one is still open. -/
def ReadsTypes (ts : List Tok) (Ts : List TsType) : Prop :=
  ∀ f : List TsType → TFrame, ((∃ o, f = TFrame.tuple o) ∨ ∃ o p, f = TFrame.app o p) → ∀ done k c, TStarts c .none →
    ∃ l d c', Ts = l ++ [ofDnf d] ∧ tRun (f done :: k, c) ts = some (f (done ++ l) :: k, c') ∧ TEnds c' d

/-- The tokens are read as a member. -/
def ReadsMember (ts : List Tok) (p : Str × Bool × TsType) : Prop :=
  ∀ o ps k c, (c = .key ∨ c = .keyOrClose) →
    ∃ w opt d c', p = (w, opt, ofDnf d) ∧ tRun (.objKey o ps :: k, c) ts = some (.objVal o ps w opt :: k, c') ∧ TEnds c' d

/-- The tokens are read as members. -/
def ReadsMembers (ts : List Tok) (l : List (Str × Bool × TsType)) : Prop :=
  ∀ o ps k c, (c = .key ∨ c = .keyOrClose) →
    ∃ l' w opt d c', l = l' ++ [(w, opt, ofDnf d)] ∧
      tRun (.objKey o ps :: k, c) ts = some (.objVal o (ps ++ l') w opt :: k, c') ∧ TEnds c' d

theorem alternatives_read {ts : List Tok} {d : Dnf} (h : Alternatives ts d) : d ≠ [] ∧ ReadsT ts (fun o => o.cont d) := by
  refine Alternatives.rec (motive_1 := fun ts T _ => ReadsT ts (fun o => o.add T))
    (motive_2 := fun ts c _ => ReadsT ts (fun o => o.alts ++ [o.conj ++ c]))
    (motive_3 := fun ts d _ => d ≠ [] ∧ ReadsT ts (fun o => o.cont d))
    (motive_4 := fun ts Ts _ => ReadsTypes ts Ts) (motive_5 := fun ts p _ => ReadsMember ts p)
    (motive_6 := fun ts l _ => ReadsMembers ts l)
    ?name ?app ?str ?tuple0 ?tuple ?obj0 ?obj ?paren ?one ?and_ ?aone ?or_ ?tone ?tmore ?required ?optional ?mone ?mmore h
  case name =>
    intro ts p hn k c o hc
    exact ⟨_, typeName_read hn k c o hc, .inr ⟨o, p, rfl, rfl⟩⟩
  case app =>
    intro ts p as Ts hn _ ih k c o hc
    obtain ⟨l, d, c', rfl, h1, h2⟩ := ih (TFrame.app o p) (.inr ⟨o, p, rfl⟩) [] k (.need .none) (.inl rfl)
    refine ⟨_, ?_, .inl rfl⟩
    rw [List.append_assoc]
    refine tRun_app (typeName_read hn k c o hc) ?_
    rw [List.cons_append, tRun_cons (s' := (.app o p [] :: k, .need .none)) rfl]
    refine tRun_app h1 (tRun_one ?_)
    rw [ends_stepT h2 (by simp) (by simp)]
    rfl
  case str =>
    intro s k c o hc
    exact ⟨_, tRun_one ((starts_stepT hc (by simp)).trans rfl), .inl rfl⟩
  case tuple0 =>
    intro k c o hc
    refine ⟨_, ?_, .inl rfl⟩
    rw [tRun_cons ((starts_stepT hc (by simp)).trans rfl)]
    rfl
  case tuple =>
    intro ts Ts _ ih k c o hc
    obtain ⟨l, d, c', rfl, h1, h2⟩ := ih (TFrame.tuple o) (.inl ⟨o, rfl⟩) [] k .needOrClose (.inr ⟨rfl, rfl⟩)
    refine ⟨_, ?_, .inl rfl⟩
    rw [List.cons_append, tRun_cons ((starts_stepT hc (by simp)).trans rfl)]
    refine tRun_app h1 (tRun_one ?_)
    rw [ends_stepT h2 (by simp) (by simp)]
    rfl
  case obj0 =>
    intro k c o hc
    refine ⟨_, ?_, .inl rfl⟩
    rw [tRun_cons ((starts_stepT hc (by simp)).trans rfl)]
    rfl
  case obj =>
    intro ts ps _ ih k c o hc
    obtain ⟨l, w, opt, d, c', rfl, h1, h2⟩ := ih o [] k .keyOrClose (.inr rfl)
    refine ⟨_, ?_, .inl rfl⟩
    rw [List.cons_append, tRun_cons ((starts_stepT hc (by simp)).trans rfl)]
    refine tRun_app h1 (tRun_one ?_)
    rw [ends_stepT h2 (by simp) (by simp)]
    rfl
  case paren =>
    intro ts d _ ih k c o hc
    obtain ⟨c', h1, h2⟩ := ih.2 (.paren o :: k) (.need .none) .none (.inl rfl)
    refine ⟨_, ?_, .inl rfl⟩
    rw [List.cons_append, tRun_cons ((starts_stepT hc (by simp)).trans rfl)]
    refine tRun_app h1 (tRun_one ?_)
    rw [ends_stepT h2 (by simp) (by simp)]
    show haveT _ (Ops.none.cont d) _ = _
    rw [cont_none ih.1]
    rfl
  case one => intro ts T _ ih; exact ih
  case and_ =>
    intro ts cj ts' T _ _ ih ih' k c o hc
    obtain ⟨c1, h1, h2⟩ := ih k c o hc
    obtain ⟨c2, h3, h4⟩ := ih' k (.need ⟨o.alts, o.conj ++ cj⟩) _ (.inl rfl)
    refine ⟨c2, tRun_app h1 ?_, ?_⟩
    · rw [tRun_cons (s' := (k, .need ⟨o.alts, o.conj ++ cj⟩)), h3]
      rw [ends_stepT h2 (by simp) (by simp)]
      simp [haveT]
    · simpa [Ops.add] using h4
  case aone =>
    intro ts c _ ih
    refine ⟨by simp, fun k cu o hc => ?_⟩
    obtain ⟨c1, h1, h2⟩ := ih k cu o hc
    exact ⟨c1, h1, by simpa [Ops.cont] using h2⟩
  case or_ =>
    intro ts d ts' c _ _ ih ih'
    refine ⟨by simp, fun k cu o hc => ?_⟩
    obtain ⟨c1, h1, h2⟩ := ih.2 k cu o hc
    obtain ⟨c2, h3, h4⟩ := ih' k (.need ⟨o.cont d, []⟩) _ (.inl rfl)
    refine ⟨c2, tRun_app h1 ?_, ?_⟩
    · rw [tRun_cons (s' := (k, .need ⟨o.cont d, []⟩)), h3]
      rw [ends_stepT h2 (by simp) (by simp)]
      rfl
    · obtain ⟨x, r, rfl⟩ := List.exists_cons_of_ne_nil ih.1
      simpa [Ops.cont] using h4
  case tone =>
    intro ts d _ ih f hf done k c hc
    obtain ⟨c', h1, h2⟩ := ih.2 (f done :: k) c .none hc
    refine ⟨[], d, c', rfl, by simpa using h1, ?_⟩
    simpa only [cont_none ih.1] using h2
  case tmore =>
    intro ts Ts ts' d _ _ ih ih' f hf done k c hc
    obtain ⟨l, d', c1, rfl, h1, h2⟩ := ih f hf done k c hc
    obtain ⟨c2, h3, h4⟩ := ih'.2 (f (done ++ (l ++ [ofDnf d'])) :: k) (.need .none) .none (.inl rfl)
    refine ⟨l ++ [ofDnf d'], d, c2, rfl, tRun_app h1 ?_, ?_⟩
    · rw [tRun_cons (s' := (f (done ++ (l ++ [ofDnf d'])) :: k, .need .none)), h3]
      rw [ends_stepT h2 (by simp) (by simp)]
      rcases hf with ⟨o, rfl⟩ | ⟨o, p, rfl⟩ <;> simp [haveT]
    · simpa only [cont_none ih'.1] using h4
  case required =>
    intro w ts d _ ih o ps k c hc
    obtain ⟨c', h1, h2⟩ := ih.2 (.objVal o ps w false :: k) (.need .none) .none (.inl rfl)
    refine ⟨w, false, d, c', rfl, ?_, ?_⟩
    · have : tStep (.objKey o ps :: k, c) (.ident w) = some (.objKey o ps :: k, .afterKey w) := by rcases hc with rfl | rfl <;> rfl
      rw [tRun_cons this, tRun_cons (s' := (.objVal o ps w false :: k, .need .none)) rfl, h1]
    · simpa only [cont_none ih.1] using h2
  case optional =>
    intro w ts d _ ih o ps k c hc
    obtain ⟨c', h1, h2⟩ := ih.2 (.objVal o ps w true :: k) (.need .none) .none (.inl rfl)
    refine ⟨w, true, d, c', rfl, ?_, ?_⟩
    · have : tStep (.objKey o ps :: k, c) (.ident w) = some (.objKey o ps :: k, .afterKey w) := by rcases hc with rfl | rfl <;> rfl
      rw [tRun_cons this, tRun_cons (s' := (.objKey o ps :: k, .colon w)) rfl,
        tRun_cons (s' := (.objVal o ps w true :: k, .need .none)) rfl, h1]
    · simpa only [cont_none ih.1] using h2
  case mone =>
    intro ts p _ ih o ps k c hc
    obtain ⟨w, opt, d, c', rfl, h1, h2⟩ := ih o ps k c hc
    exact ⟨[], w, opt, d, c', rfl, by simpa using h1, h2⟩
  case mmore =>
    intro ts l ts' p _ _ ih ih' o ps k c hc
    obtain ⟨l', w, opt, d, c1, rfl, h1, h2⟩ := ih o ps k c hc
    obtain ⟨w', opt', d', c2, rfl, h3, h4⟩ := ih' o (ps ++ (l' ++ [(w, opt, ofDnf d)])) k .key (.inl rfl)
    refine ⟨l' ++ [(w, opt, ofDnf d)], w', opt', d', c2, rfl, tRun_app h1 ?_, h4⟩
    rw [tRun_cons (s' := (.objKey o (ps ++ (l' ++ [(w, opt, ofDnf d)])) :: k, .key)), h3]
    rw [ends_stepT h2 (by simp) (by simp)]
    simp [haveT]

/-- Tokens are read as this type exactly if the grammar derives it. -/
theorem parseType_iff (ts : List Tok) (T : TsType) : parseType ts = some T ↔ ∃ d, Alternatives ts d ∧ T = ofDnf d := by
  refine ⟨parseType_sound, ?_⟩
  rintro ⟨d, h, rfl⟩
  obtain ⟨hne, h⟩ := alternatives_read h
  obtain ⟨c', h1, h2⟩ := h [] (.need .none) .none (.inl rfl)
  simp only [cont_none hne] at h2
  unfold parseType
  simp only [h1]
  rcases h2 with rfl | ⟨o, p, rfl, e⟩
  · rfl
  · simp only [e]

/-- A text is read as this type exactly if the grammar says so. -/
theorem readType_iff (s : Str) (T : TsType) : readType s = some T ↔ ∃ ts d, Spells s ts ∧ Alternatives ts d ∧ T = ofDnf d := by
  unfold readType
  constructor
  · intro h
    cases hl : lex s with
    | none => rw [hl] at h; cases h
    | some ts =>
      rw [hl] at h
      obtain ⟨d, hd, e⟩ := (parseType_iff ts T).1 h
      exact ⟨ts, d, (lex_iff s ts).1 hl, hd, e⟩
  · rintro ⟨ts, d, h1, h2, h3⟩
    rw [(lex_iff s ts).2 h1]
    exact (parseType_iff ts T).2 ⟨d, h2, h3⟩

end Verif.Ts
