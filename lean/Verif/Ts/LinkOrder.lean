import Verif.Spec.LinkOrder
import Verif.Ts.ModuleOf
import Verif.Ts.Values
import Verif.Props.Codegen

/-!
# The order of registration (proof helper)
-/

namespace Verif.Ts
open Verif Verif.Js Verif.Schema Verif.SchemaSpec Verif.Spec Verif.Codegen Verif.Props

theorem kindOf_mono {P : Program} {n : Nat} : ∀ {n' : Nat} {t : Ty} {k : Kind}, n ≤ n' → kindOf P n t = some k → kindOf P n' t = some k := by
  induction n with
  | zero => intro n' t k _ h; cases h
  | succ n ih =>
    intro n' t k hn h
    cases n' with
    | zero => omega
    | succ n' =>
      have hn : n ≤ n' := by omega
      cases t with
      | named i =>
        simp only [kindOf] at h ⊢
        cases hd : (P[i]?).map derive with
        | none => rw [hd] at h; cases h
        | some x =>
          rw [hd] at h
          cases x with
          | error e => cases h
          | ok impl =>
            simp only at h ⊢
            cases hk : impl.kind with
            | same u => rw [hk] at h; exact ih hn h
            | _ => rw [hk] at h; exact h
      | wrap w u => simp only [kindOf] at h ⊢; exact ih hn h
      | _ => exact h

theorem kindOf_unique {P : Program} {n n' : Nat} {t : Ty} {k k' : Kind} (h : kindOf P n t = some k) (h' : kindOf P n' t = some k') :
    k = k' := by
  have h1 := kindOf_mono (Nat.le_max_left n n') h
  rw [kindOf_mono (Nat.le_max_right n n') h'] at h1
  injection h1 with h1
  exact h1.symm

theorem member_unique {P : Program} {i : Nat} {d d' : Decl} {m m' : Member} (h : IsMember P i d m) (h' : IsMember P i d' m') : m = m' := by
  have e : d = d' := by have := h.decl; rw [h'.decl] at this; injection this with this; exact this.symm
  subst e
  obtain ⟨n, k, s, h1, h2, h3⟩ := h.typeDef
  obtain ⟨n', k', s', g1, g2, g3⟩ := h'.typeDef
  obtain ⟨impl, a1, a2⟩ := h.docs
  obtain ⟨impl', b1, b2⟩ := h'.docs
  have ed : m.docs = m'.docs := by
    rw [a2, b2]; rw [a1] at b1; injection b1 with b1; rw [b1]
  have et : m.typeDef = m'.typeDef := by rw [h3, g3, kindOf_unique h1 g1, Schema.returns_unique h2 g2]
  have es := Schema.returns_unique h.schema h'.schema
  have en : m.ns = m'.ns := by rw [h.ns, h'.ns]
  have em : m.name = m'.name := by rw [h.name, h'.name]
  cases m; cases m'
  simp only at ed et es en em
  subst ed et es en em
  rfl

theorem rpcMember_unique {P : Program} {ns : Str} {i : RpcItem} {m m' : RpcMember} (h : IsRpcMember P ns i m) (h' : IsRpcMember P ns i m') :
    m = m' := by
  have hl : m.args.length = i.args.length := by simpa using congrArg List.length h.argNames
  have hl' : m'.args.length = i.args.length := by simpa using congrArg List.length h'.argNames
  have ea : m.args = m'.args := by
    refine List.ext_getElem (by omega) (fun k hk hk' => ?_)
    have hp : i.args[k]? = some i.args[k] := List.getElem?_eq_getElem (by omega)
    have ha := h.args k _ _ (List.getElem?_eq_getElem hk) hp
    have ha' := h'.args k _ _ (List.getElem?_eq_getElem hk') hp
    have hn : (m.args.map (·.name))[k]? = (m'.args.map (·.name))[k]? := by rw [h.argNames, h'.argNames]
    rw [List.getElem?_map, List.getElem?_map, List.getElem?_eq_getElem hk, List.getElem?_eq_getElem hk'] at hn
    simp only [Option.map_some, Option.some.injEq] at hn
    have e1 := Schema.returns_unique ha.1 ha'.1
    have e2 := Schema.returns_unique ha.2 ha'.2
    revert hn e1 e2
    generalize m.args[k] = a
    generalize m'.args[k] = b
    intro hn e1 e2
    cases a; cases b
    simp only at hn e1 e2
    subst hn e1 e2
    rfl
  have er := Schema.returns_unique h.res h'.res
  have ek : m.kind = m'.kind := by rw [h.kind, h'.kind]
  have en : m.ns = m'.ns := by rw [h.ns, h'.ns]
  have em : m.name = m'.name := by rw [h.name, h'.name]
  cases m; cases m'
  simp only at ea er ek en em
  subst ea er ek en em
  rfl

/-- What is related to the same things is the same. -/
theorem All2.eq_of {α β : Type} {R : α → β → Prop} (hR : ∀ a b b', R a b → R a b' → b = b') {l : List α} {r r' : List β}
    (h : All2 R l r) (h' : All2 R l r') : r = r' := by
  induction h generalizing r' with
  | nil => cases h'; rfl
  | cons h1 _ ih =>
    cases h' with
    | cons g1 g2 => rw [hR _ _ _ h1 g1, ih g2]

/-- Related to the same things in another order. -/
theorem All2.perm_of {α β : Type} {R : α → β → Prop} (hR : ∀ a b b', R a b → R a b' → b = b') {l l' : List α} {r r' : List β}
    (hp : l.Perm l') (h : All2 R l r) (h' : All2 R l' r') : r.Perm r' := by
  obtain ⟨r0, h1, h2⟩ := All2.perm hp (All2.symm (S := fun b a => R a b) (fun _ _ h => h) h)
  have : r0 = r' := All2.eq_of hR (All2.symm (S := R) (fun _ _ h => h) h2) h'
  exact this ▸ h1

theorem registries_perm {P : Program} {impls : List (Str × List RpcItem)} {r r' : Registry} (h : IsModule P impls r)
    (h' : IsModule P impls r') : r.members.Perm r'.members ∧ r.rpc.Perm r'.rpc := by
  constructor
  · obtain ⟨ms, p1, l1, m1⟩ := h.types
    obtain ⟨ms', p2, l2, m2⟩ := h'.types
    have e : ms = ms' := by
      refine List.ext_getElem (by omega) (fun k hk hk' => ?_)
      have hd : P[k]? = some P[k] := List.getElem?_eq_getElem (by omega)
      exact member_unique (m1 k _ _ hd (List.getElem?_eq_getElem hk)) (m2 k _ _ hd (List.getElem?_eq_getElem hk'))
    subst e
    exact p1.symm.trans p2
  · obtain ⟨fl, p1, l1, m1⟩ := h.rpc
    obtain ⟨fl', p2, l2, m2⟩ := h'.rpc
    exact All2.perm_of (R := fun (x : Str × RpcItem) m => IsRpcMember P x.1 x.2 m) (fun _ _ _ => rpcMember_unique) (p1.trans p2.symm)
      (All2.of_get l1 m1) (All2.of_get l2 m2)

theorem readsNs_perm {o : Options} {r r' : Registry} (hm : r.members.Perm r'.members) (hf : r.rpc.Perm r'.rpc) {x : Str} {N : Ns}
    (h : ReadsNs r o x N) : ∃ N', (N'.name = N.name ∧ N.items.Perm N'.items) ∧ ReadsNs r' o x N' := by
  obtain ⟨h1, h2, ls, fs, h3, h4, rfl⟩ := h
  obtain ⟨ls', p3, h3'⟩ := All2.perm (hm.filter (fun m : Member => decide (m.ns = x)))
    (All2.symm (S := fun l m => ReadsType o m l) (fun _ _ h => h) h3)
  obtain ⟨fs', p4, h4'⟩ := All2.perm (hf.filter (fun m : RpcMember => decide (m.ns = x)))
    (All2.symm (S := fun f m => ReadsStub m f) (fun _ _ h => h) h4)
  exact ⟨⟨x, ls'.flatten ++ fs'.map .func⟩, ⟨rfl, p3.flatten.append (p4.map _)⟩, h1, h2, ls', fs',
    All2.symm (fun _ _ h => h) h3', All2.symm (fun _ _ h => h) h4', rfl⟩

theorem populated_perm {r r' : Registry} (hm : r.members.Perm r'.members) (hf : r.rpc.Perm r'.rpc) (x : Str) :
    CodegenSpec.Populated r' x ↔ CodegenSpec.Populated r x := by
  unfold CodegenSpec.Populated
  refine or_congr ⟨fun ⟨m, h, e⟩ => ⟨m, hm.mem_iff.2 h, e⟩, fun ⟨m, h, e⟩ => ⟨m, hm.mem_iff.1 h, e⟩⟩
    ⟨fun ⟨m, h, e⟩ => ⟨m, hf.mem_iff.2 h, e⟩, fun ⟨m, h, e⟩ => ⟨m, hf.mem_iff.1 h, e⟩⟩

end Verif.Ts
