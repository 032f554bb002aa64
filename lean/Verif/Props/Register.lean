import Verif.Codegen.Register
import Verif.Props.Module

/-!
# C58: duplicate types are rejected at compile time
-/

namespace Verif.Props
open Verif Verif.Schema Verif.SchemaSpec Verif.Js Verif.Zod Verif.Spec Verif.Codegen

/-- The declarations of the program have the namespaces and names that are registered for the types of the crate. -/
def ProgramOf (c : Crate) (P : Program) : Prop := All2 (fun t d => c.Registers t d.ns d.name) c.types P

/-- Everything but the constants of the macro is in order: different structs have different paths, and the
namespaces that are referred to exist. -/
def OtherwiseFine (c : Crate) : Prop :=
  (c.namespaces.map (·.path) ++ c.namespaces.map NsStruct.register).Nodup ∧
    ∀ t ∈ c.types, t.nsPath ∈ c.namespaces.map (·.path)

/-- The full property: the compiler rejects a crate iff two types of a namespace have the same name in the generated
module. -/
def C58_statement : Prop :=
  ∀ (c : Crate) (P : Program), OtherwiseFine c → ProgramOf c P →
    (c.Compiles ↔ (P.map (fun d => (d.ns, d.name))).Nodup)

theorem all2_nodup {α β γ δ : Type} {R : α → β → Prop} {f : α → γ} {g : β → δ} {l : List α} {r : List β}
    (h : All2 R l r) (hi : ∀ a ∈ l, ∀ a' ∈ l, ∀ b b', R a b → R a' b' → g b = g b' → f a = f a')
    (hn : (l.map f).Nodup) : (r.map g).Nodup := by
  induction h with
  | nil => simp
  | @cons a b l r h1 h2 ih =>
    rw [List.map_cons, List.nodup_cons] at hn ⊢
    refine ⟨?_, ih (fun x hx y hy => hi x (List.mem_cons_of_mem _ hx) y (List.mem_cons_of_mem _ hy)) hn.2⟩
    intro hm
    obtain ⟨b', hb', e⟩ := List.mem_map.1 hm
    apply hn.1
    clear ih hn hm
    have key : ∃ a' ∈ l, R a' b' := by
      clear hi
      induction h2 with
      | nil => cases hb'
      | cons h _ ih =>
        rcases List.mem_cons.1 hb' with rfl | hb'
        · exact ⟨_, List.mem_cons_self, h⟩
        · obtain ⟨a', h1, h2⟩ := ih hb'
          exact ⟨a', List.mem_cons_of_mem _ h1, h2⟩
    obtain ⟨a', ha', hr⟩ := key
    exact List.mem_map.2 ⟨a', ha', (hi a List.mem_cons_self a' (List.mem_cons_of_mem _ ha') b b' h1 hr e.symm).symm⟩

theorem register_inj {p q : Path} (h : formatIdentForRegistration p = formatIdentForRegistration q) : p = q := by
  obtain ⟨m, l⟩ := p
  obtain ⟨m', l'⟩ := q
  simp only [formatIdentForRegistration, Path.mk.injEq, List.append_cancel_left_eq] at h
  rw [h.1, h.2]

theorem nodup_inj {α β : Type} {f : α → β} {l : List α} (h : (l.map f).Nodup) {n m : α} (hn : n ∈ l) (hm : m ∈ l)
    (e : f n = f m) : n = m := by
  induction l with
  | nil => cases hn
  | cons a l ih =>
    rw [List.map_cons, List.nodup_cons] at h
    rcases List.mem_cons.1 hn with e1 | hn' <;> rcases List.mem_cons.1 hm with e2 | hm'
    · rw [e1, e2]
    · exact absurd (List.mem_map.2 ⟨m, hm', by rw [← e, e1]⟩) h.1
    · exact absurd (List.mem_map.2 ⟨n, hn', by rw [e, e2]⟩) h.1
    · exact ih h.2 hn' hm'

/-- **C58.** The property holds if no type is renamed with `#[serde(rename)]` and no two namespaces have the same
`NAME`. -/
theorem C58_partial (c : Crate) (P : Program) (hc : OtherwiseFine c) (hP : ProgramOf c P)
    (hr : ∀ t ∈ c.types, t.rename = none) (hn : (c.namespaces.map NsStruct.NAME).Nodup) :
    c.Compiles ↔ (P.map (fun d => (d.ns, d.name))).Nodup := by
  have hpath := (List.nodup_append.1 hc.1).1
  constructor
  · intro h
    refine all2_nodup hP ?_ h.consts
    rintro a ha a' ha' b b' ⟨n, h1, h2, h3, h4⟩ ⟨n', h1', h2', h3', h4'⟩ e
    injection e with e1 e2
    have e := nodup_inj hn h1 h1' (by rw [← h3, ← h3', e1])
    subst e
    rw [h4, h4', DerivedType.name, DerivedType.name, hr a ha, hr a' ha'] at e2
    unfold expandTypeRegistration
    rw [← h2, ← h2']
    exact congrArg _ e2
  · intro h
    refine ⟨hc.1, fun t ht => ⟨hc.2 t ht, ?_⟩, ?_⟩
    · obtain ⟨n, hn, e⟩ := List.mem_map.1 (hc.2 t ht)
      exact List.mem_map.2 ⟨n, hn, by rw [NsStruct.register, e]; rfl⟩
    · have hP' : All2 (fun d t => c.Registers t d.ns d.name ∧ t ∈ c.types) P c.types := by
        have : ∀ (l : List DerivedType) (P : Program), (∀ t ∈ l, t ∈ c.types) →
            All2 (fun t d => c.Registers t d.ns d.name) l P →
            All2 (fun d t => c.Registers t d.ns d.name ∧ t ∈ c.types) P l := by
          intro l P hl h
          induction h with
          | nil => exact .nil
          | cons h _ ih =>
            exact .cons ⟨h, hl _ List.mem_cons_self⟩ (ih fun t ht => hl t (List.mem_cons_of_mem _ ht))
        exact this _ _ (fun _ h => h) hP
      refine all2_nodup hP' ?_ h
      rintro d _ d' _ t t' ⟨⟨n, h1, h2, h3, h4⟩, ht⟩ ⟨⟨n', h1', h2', h3', h4'⟩, ht'⟩ e
      injection e with e1 e2
      have e3 := register_inj e1
      have e := nodup_inj hpath h1 h1' (by rw [h2, h2', e3])
      subst e
      rw [h3, h3', h4, h4', DerivedType.name, DerivedType.name, hr t ht, hr t' ht', e2]

/-- With C55: if such a crate compiles, and no function is called like a type of its namespace, nothing is declared
twice in the generated module. -/
theorem C58_module_partial (c : Crate) (P : Program) (hc : c.Compiles) (hP : ProgramOf c P)
    (hr : ∀ t ∈ c.types, t.rename = none) (hn : (c.namespaces.map NsStruct.NAME).Nodup)
    (impls : List (Str × List RpcItem)) (r : Registry) (names : List Str) (hp : Printable P impls)
    (h : Codegen.IsModule P impls r)
    (hf : ∀ x, (((impls.filter (fun b => b.1 = x)).flatMap (·.2)).map (·.ident)).Nodup)
    (hd : ∀ d ∈ P, ∀ b ∈ impls, b.1 = d.ns → ∀ f ∈ b.2, f.ident ≠ d.name) :
    ∃ M, Writes r names M ∧ NoClash M :=
  C55_partial P impls r names hp h ((C58_partial c P ⟨hc.structs, fun t ht => (hc.exists_ t ht).1⟩ hP hr hn).1 hc) hf hd

/-! ## The property is false -/

/-- `struct Ns;` and `#[namespace(name = "Ns")] struct Other;` -/
def exNsPath : Path := ⟨[lit "crate"], lit "Ns"⟩
def exOtherPath : Path := ⟨[lit "crate"], lit "Other"⟩

/-- `struct User { .. }` and `#[serde(rename = "User")] struct UserV2 { .. }` -/
def exRenamed : Crate := ⟨[⟨exNsPath, none⟩], [⟨lit "User", exNsPath, none⟩, ⟨lit "UserV2", exNsPath, some (lit "User")⟩]⟩

/-- `a::User` and `b::User`, renamed to `UserA` and `UserB`. -/
def exApart : Crate :=
  ⟨[⟨exNsPath, none⟩], [⟨lit "User", exNsPath, some (lit "UserA")⟩, ⟨lit "User", exNsPath, some (lit "UserB")⟩]⟩

/-- `a::User` in namespace `Ns` and `b::User` in namespace `Other`, which is also called `Ns`. -/
def exSameName : Crate :=
  ⟨[⟨exNsPath, none⟩, ⟨exOtherPath, some (lit "Ns")⟩], [⟨lit "User", exNsPath, none⟩, ⟨lit "User", exOtherPath, none⟩]⟩

def exUser (name : String) : Decl :=
  .struct { ns := lit "Ns", name := lit name, attrs := [], style := .named, transparent := false, from_ := .none, into := none,
            fields := [] }

theorem C58_violated : ¬ C58_statement := by
  intro h
  have hc : OtherwiseFine exRenamed := ⟨by decide +kernel, by decide +kernel⟩
  have hP : ProgramOf exRenamed [exUser "User", exUser "User"] :=
    .cons ⟨_, List.mem_cons_self, rfl, rfl, rfl⟩ (.cons ⟨_, List.mem_cons_self, rfl, rfl, rfl⟩ .nil)
  have := (h exRenamed _ hc hP).1 ⟨hc.1, by decide +kernel, by decide +kernel⟩
  revert this
  decide +kernel

/-- Two namespaces with one `NAME`. -/
theorem C58_violated_name : ¬ C58_statement := by
  intro h
  have hc : OtherwiseFine exSameName := ⟨by decide +kernel, by decide +kernel⟩
  have hP : ProgramOf exSameName [exUser "User", exUser "User"] :=
    .cons ⟨_, List.mem_cons_self, rfl, rfl, rfl⟩
      (.cons ⟨_, List.mem_cons_of_mem _ List.mem_cons_self, rfl, rfl, rfl⟩ .nil)
  have := (h exSameName _ hc hP).1 ⟨hc.1, by decide +kernel, by decide +kernel⟩
  revert this
  decide +kernel

/-- Types with different names in the generated module are rejected. -/
theorem C58_violated_rejected : ¬ C58_statement := by
  intro h
  have hc : OtherwiseFine exApart := ⟨by decide +kernel, by decide +kernel⟩
  have hP : ProgramOf exApart [exUser "UserA", exUser "UserB"] :=
    .cons ⟨_, List.mem_cons_self, rfl, rfl, rfl⟩ (.cons ⟨_, List.mem_cons_self, rfl, rfl, rfl⟩ .nil)
  have := ((h exApart _ hc hP).2 (by decide +kernel)).consts
  revert this
  decide +kernel

/-- `a::User` and `b::User` without renaming are rejected, `User` and `Kind` are not. -/
example : ¬ (Crate.mk [⟨exNsPath, none⟩] [⟨lit "User", exNsPath, none⟩, ⟨lit "User", exNsPath, none⟩]).Compiles := by
  intro h
  have := (C58_partial _ [exUser "User", exUser "User"] ⟨h.structs, fun t ht => (h.exists_ t ht).1⟩
    (.cons ⟨_, List.mem_cons_self, rfl, rfl, rfl⟩ (.cons ⟨_, List.mem_cons_self, rfl, rfl, rfl⟩ .nil))
    (by simp) (by decide +kernel)).1 h
  revert this
  decide +kernel

def exFine : Crate :=
  ⟨[⟨exNsPath, none⟩, ⟨exOtherPath, none⟩],
   [⟨lit "User", exNsPath, none⟩, ⟨lit "Kind", exNsPath, none⟩, ⟨lit "User", exOtherPath, none⟩]⟩

def exFineProgram : Program :=
  [exUser "User", exUser "Kind",
   .struct { ns := lit "Other", name := lit "User", attrs := [], style := .named, transparent := false, from_ := .none,
             into := none, fields := [] }]

example : exFine.Compiles := by
  have hP : ProgramOf exFine exFineProgram :=
    .cons ⟨_, List.mem_cons_self, rfl, rfl, rfl⟩ (.cons ⟨_, List.mem_cons_self, rfl, rfl, rfl⟩
      (.cons ⟨_, List.mem_cons_of_mem _ List.mem_cons_self, rfl, rfl, rfl⟩ .nil))
  exact (C58_partial exFine _ ⟨by decide +kernel, by decide +kernel⟩ hP (by simp [exFine]) (by decide +kernel)).2
    (by decide +kernel)

end Verif.Props
