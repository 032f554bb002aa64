import Verif.Codegen.Lemmas

/-!
# Properties C17 to C20: the code generator
-/

namespace Verif.Props
open Verif Verif.Codegen Verif.CodegenSpec

/-- A registry with two namespaces, registered interleaved and out of order. -/
def exReg : Registry :=
  { members := [⟨lit "Zoo", lit "A", lit "z.string()", .type (lit "string"), none⟩,
      ⟨lit "Api", lit "B", lit "z.number()", .interface (lit "{ x: A }"), some (lit "/**\n* doc\n*/\n")⟩,
      ⟨lit "Zoo", lit "C", lit "z.null()", .type (lit "null"), none⟩,
      ⟨lit "Other", lit "D", lit "z.null()", .type (lit "null"), none⟩]
    rpc := [⟨.method, lit "Only", lit "go", [], lit "null"⟩,
      ⟨.stream, lit "Zoo", lit "watch", [⟨lit "n", lit "number", lit "z.number()"⟩], lit "string"⟩] }

/-- C17: the output is the client prelude followed by the blocks of the populated backend namespaces,
each once, by strictly increasing name. -/
theorem C17_blocks_sorted (r : Registry) (names : List Str) (client : Str) :
    ∃ (nss : List Str) (body : Str → Str), nss.Pairwise strLt ∧
      (∀ x, x ∈ nss ↔ x ∈ names ∧ Populated r x) ∧
      generate r names client = client ++
        (nss.map (fun ns => lit "export namespace " ++ ns ++ lit " { " ++ body ns ++ lit " }")).flatten := by
  obtain ⟨nss, h1, h2, h3⟩ := generateWithOptions_spec r names client Options.default
  exact ⟨nss, _, h1, h2, h3⟩

/-- C18: each block holds exactly the registered types of its namespace followed by exactly its rpc
functions, in registration order. -/
theorem C18_block_contents (r : Registry) (names : List Str) (client : Str) :
    ∃ nss : List Str, nss.Pairwise strLt ∧ (∀ x, x ∈ nss ↔ x ∈ names ∧ Populated r x) ∧
      generate r names client = client ++ (nss.map (block r)).flatten := by
  obtain ⟨nss, h1, h2, h3⟩ := generateWithOptions_spec r names client Options.default
  refine ⟨nss, h1, h2, ?_⟩
  unfold generate
  rw [h3]
  congr 2
  refine List.map_congr_left ?_
  intro ns _
  unfold block
  rw [show Member.text Options.default = typeText from funext member_text_default]

/-- C18 with options: the same blocks, in which the names of the declared constants, types and interfaces carry the
prefixes and suffixes of the options. -/
theorem C18_options (r : Registry) (names : List Str) (client : Str) (o : Options) :
    ∃ nss : List Str, nss.Pairwise strLt ∧ (∀ x, x ∈ nss ↔ x ∈ names ∧ Populated r x) ∧
      generateWithOptions r names client o = client ++ (nss.map (fun ns =>
        lit "export namespace " ++ ns ++ lit " { " ++
          (((typesOf r ns).map (fun d => typeTextAs (schemaName o d) (typeName o d) d)).flatten ++
            ((rpcOf r ns).map RpcMember.decl).flatten) ++ lit " }")).flatten := by
  obtain ⟨nss, h1, h2, h3⟩ := generateWithOptions_spec r names client o
  refine ⟨nss, h1, h2, ?_⟩
  rw [h3, show Member.text o = fun d => typeTextAs (schemaName o d) (typeName o d) d from ?_]
  funext d
  unfold Member.text typeTextAs schemaName typeName
  cases d.typeDef <;> simp [List.append_assoc]

/-- With options the declared names change, the references to them in schemas and types do not. -/
example : generateWithOptions { exReg with rpc := [] } [lit "Api"] [] ⟨lit "s", [], [], [], lit "I", lit "_"⟩ =
    lit "export namespace Api { /**\n* doc\n*/\nexport const sB= z.number()\n/**\n* doc\n*/\nexport interface IB_ { x: A }\n\n }" := by
  decide +kernel

/-- C18, the list of blocks is determined. -/
theorem C18_blocks_unique {r : Registry} {names : List Str} {a b : List Str}
    (ha : a.Pairwise strLt) (hb : b.Pairwise strLt)
    (ha' : ∀ x, x ∈ a ↔ x ∈ names ∧ Populated r x) (hb' : ∀ x, x ∈ b ↔ x ∈ names ∧ Populated r x) :
    a = b :=
  nss_unique ha hb (fun x => (ha' x).trans (hb' x).symm)

/-- C18, nothing else: what is registered outside the backend's namespaces does not influence the
output. -/
theorem C18_outside_ignored (r : Registry) (names : List Str) (client : Str) :
    generate r names client =
      generate ⟨r.members.filter (fun m => m.ns ∈ names), r.rpc.filter (fun m => m.ns ∈ names)⟩
        names client := by
  obtain ⟨a, a1, a2, a3⟩ := C18_block_contents r names client
  obtain ⟨b, b1, b2, b3⟩ := C18_block_contents
    ⟨r.members.filter (fun m => m.ns ∈ names), r.rpc.filter (fun m => m.ns ∈ names)⟩ names client
  have hab : a = b := by
    refine nss_unique a1 b1 ?_
    intro x
    rw [a2, b2]
    constructor
    · rintro ⟨h, (⟨m, hm, e⟩ | ⟨m, hm, e⟩)⟩
      · exact ⟨h, Or.inl ⟨m, List.mem_filter.2 ⟨hm, by rw [e]; simpa using h⟩, e⟩⟩
      · exact ⟨h, Or.inr ⟨m, List.mem_filter.2 ⟨hm, by rw [e]; simpa using h⟩, e⟩⟩
    · rintro ⟨h, (⟨m, hm, e⟩ | ⟨m, hm, e⟩)⟩
      · exact ⟨h, Or.inl ⟨m, (List.mem_filter.1 hm).1, e⟩⟩
      · exact ⟨h, Or.inr ⟨m, (List.mem_filter.1 hm).1, e⟩⟩
  rw [a3, b3, hab]
  congr 2
  refine List.map_congr_left ?_
  intro ns hns
  have hn : ns ∈ names := ((b2 ns).1 hns).1
  have key : ∀ {α : Type} (k : α → Str) (l : List α),
      (l.filter (fun m => k m ∈ names)).filter (fun m => k m = ns) = l.filter (fun m => k m = ns) := by
    intro α k l
    rw [List.filter_filter]
    refine List.filter_congr ?_
    intro m _
    by_cases e : k m = ns
    · simp [e, hn]
    · simp [e]
  unfold block typesOf rpcOf
  rw [key (fun m : Member => m.ns), key (fun m : RpcMember => m.ns)]

/-- C19: the output depends only on the order inside each namespace, and on the backend's namespaces
as a set. -/
theorem C19_order_independent (r r' : Registry) (names names' : List Str) (client : Str)
    (hn : ∀ x, x ∈ names ↔ x ∈ names')
    (ht : ∀ ns, r.members.filter (fun m => m.ns = ns) = r'.members.filter (fun m => m.ns = ns))
    (hr : ∀ ns, r.rpc.filter (fun m => m.ns = ns) = r'.rpc.filter (fun m => m.ns = ns)) :
    generate r names client = generate r' names' client := by
  obtain ⟨a, a1, a2, a3⟩ := C18_block_contents r names client
  obtain ⟨b, b1, b2, b3⟩ := C18_block_contents r' names' client
  have hab : a = b := by
    refine nss_unique a1 b1 ?_
    intro x
    rw [a2, b2, hn, ← populated_iff, ← populated_iff]
    unfold typesOf rpcOf
    rw [ht, hr]
  rw [a3, b3, hab]
  congr 2
  refine List.map_congr_left ?_
  intro ns _
  unfold block typesOf rpcOf
  rw [ht, hr]

/-- C20: `collect` gives each namespace its members in registration order, and knows no other
namespace. -/
theorem C20_collect (r : Registry) (ns : Str) :
    (collect r).get ns =
      if ∃ m ∈ r.members, m.ns = ns then some (r.members.filter (fun m => m.ns = ns)) else none := by
  rw [collect_get]
  unfold typesOf
  by_cases h : ∃ m ∈ r.members, m.ns = ns
  · have := (filter_ns_ne_nil (fun m : Member => m.ns) r.members ns).2 h
    simp [h, this]
  · have : r.members.filter (fun m => m.ns = ns) = [] := by
      rw [List.filter_eq_nil_iff]
      intro m hm e
      exact h ⟨m, hm, of_decide_eq_true e⟩
    simp [h, this]

theorem push_flatten {α : Type} (k : Str) (x : α) (m : BMap (List α)) :
    ((push k x m).map (·.2)).flatten.Perm (x :: (m.map (·.2)).flatten) := by
  unfold push
  induction m with
  | nil => simp [BMap.alter]
  | cons p m ih =>
    unfold BMap.alter
    split
    · simp
    · split
      · simp only [List.map_cons, List.flatten_cons]
        exact (ih.append_left _).trans List.perm_middle
      · simp only [List.map_cons, List.flatten_cons, Option.getD_some, List.append_assoc,
          List.singleton_append]
        exact List.perm_middle

/-- C20: nothing is lost or duplicated: the groups together are the registry. -/
theorem C20_partition (r : Registry) :
    ((collect r).map (·.2)).flatten.Perm r.members := by
  suffices h : ∀ (l : List Member) (m : BMap (List Member)),
      ((l.foldl (fun out d => push d.ns d out) m).map (·.2)).flatten.Perm
        ((m.map (·.2)).flatten ++ l) by
    simpa [collect] using h r.members []
  intro l
  induction l with
  | nil => intro m; simp
  | cons d l ih =>
    intro m
    rw [List.foldl_cons]
    refine (ih _).trans ?_
    refine ((push_flatten d.ns d m).append_right l).trans ?_
    exact List.perm_middle.symm

/-- C20: the views of a namespace or a backend agree with the registry. -/
theorem C20_views (r : Registry) (names : List Str) (ns : Str) :
    nsMembers r ns = r.members.filter (fun m => m.ns = ns) ∧
    nsRpcMembers r ns = r.rpc.filter (fun m => m.ns = ns) ∧
    (backendNamespaces r names).get ns =
      (if ns ∈ names ∧ ∃ m ∈ r.members, m.ns = ns then
        some (r.members.filter (fun m => m.ns = ns)) else none) ∧
    (backendRpcMembers r names).get ns =
      (if ns ∈ names ∧ ∃ m ∈ r.rpc, m.ns = ns then
        some ((r.rpc.filter (fun m => m.ns = ns)).map RpcMember.decl) else none) := by
  have key : ∀ {α β : Type} (k : α → Str) (v : α → β) (l : List α),
      ((l.filter (fun m => k m ∈ names)).foldl (fun out m => push (k m) (v m) out) []).get ns =
        if ns ∈ names ∧ ∃ m ∈ l, k m = ns then some ((l.filter (fun m => k m = ns)).map v)
        else none := by
    intro α β k v l
    rw [group_get k v _ [] BMap.sorted_nil, List.filter_filter]
    by_cases hn : ns ∈ names
    · have hf : l.filter (fun m => decide (k m = ns) && decide (k m ∈ names)) =
          l.filter (fun m => k m = ns) := by
        refine List.filter_congr ?_
        intro m _
        by_cases e : k m = ns
        · simp [e, hn]
        · simp [e]
      rw [hf]
      by_cases h : ∃ m ∈ l, k m = ns
      · have := (filter_ns_ne_nil k l ns).2 h
        simp [h, this, hn, BMap.get]
      · have : l.filter (fun m => k m = ns) = [] := by
          rw [List.filter_eq_nil_iff]
          intro m hm e
          exact h ⟨m, hm, of_decide_eq_true e⟩
        simp [h, this, BMap.get]
    · have hf : l.filter (fun m => decide (k m = ns) && decide (k m ∈ names)) = [] := by
        rw [List.filter_eq_nil_iff]
        intro m _
        by_cases e : k m = ns
        · simp [e, hn]
        · simp [e]
      simp [hf, hn, BMap.get]
  refine ⟨rfl, rfl, ?_, ?_⟩
  · have := key (fun m : Member => m.ns) (fun m => m) r.members
    simpa [backendNamespaces] using this
  · exact key (fun m : RpcMember => m.ns) RpcMember.decl r.rpc

/-! ## The statements at work -/

example : Populated exReg (lit "Zoo") ∧ Populated exReg (lit "Only") ∧
    ¬ Populated exReg (lit "None") := by
  unfold Populated exReg
  decide

example : generate exReg [lit "Only", lit "Zoo", lit "None", lit "Api"] (lit "CLIENT;") =
    lit "CLIENT;" ++ ([lit "Api", lit "Only", lit "Zoo"].map (block exReg)).flatten := by
  decide +kernel

example : (collect exReg).get (lit "Zoo") = some (typesOf exReg (lit "Zoo")) ∧
    (typesOf exReg (lit "Zoo")).length = 2 := by
  decide +kernel

/-- Another registration order with the same order inside each namespace. -/
def exReg' : Registry :=
  { members := [⟨lit "Other", lit "D", lit "z.null()", .type (lit "null"), none⟩,
      ⟨lit "Zoo", lit "A", lit "z.string()", .type (lit "string"), none⟩,
      ⟨lit "Zoo", lit "C", lit "z.null()", .type (lit "null"), none⟩,
      ⟨lit "Api", lit "B", lit "z.number()", .interface (lit "{ x: A }"), some (lit "/**\n* doc\n*/\n")⟩]
    rpc := [⟨.stream, lit "Zoo", lit "watch", [⟨lit "n", lit "number", lit "z.number()"⟩], lit "string"⟩,
      ⟨.method, lit "Only", lit "go", [], lit "null"⟩] }

example : exReg.members ≠ exReg'.members ∧
    (∀ ns ∈ [lit "Zoo", lit "Api", lit "Other", lit "Only"],
      exReg.members.filter (fun m => m.ns = ns) = exReg'.members.filter (fun m => m.ns = ns) ∧
      exReg.rpc.filter (fun m => m.ns = ns) = exReg'.rpc.filter (fun m => m.ns = ns)) := by
  decide +kernel

end Verif.Props
