import Verif.Rpc.Server
import Verif.Spec.Dispatch

/-!
# Backends that grow (specification)
-/

namespace Verif.DispatchSpec
open Verif Verif.Server

variable {S V : Type}

/-- The second backend is the first one with new functions in its namespaces and with new namespaces, at any places. The
namespaces both have are in the same states. -/
inductive Extends : List (NamespaceDef S V) → List S → List (NamespaceDef S V) → List S → Prop where
  | nil : Extends [] [] [] []
  | same {n n' : NamespaceDef S V} {fs fs' : List (NamespaceDef S V)} {st st' : List S} (s : S) : n'.ident = n.ident →
      n.methods.Sublist n'.methods → Extends fs st fs' st' → Extends (n :: fs) (s :: st) (n' :: fs') (s :: st')
  | new (n : NamespaceDef S V) (s : S) {fs fs' : List (NamespaceDef S V)} {st st' : List S} :
      Extends fs st fs' st' → Extends fs st (n :: fs') (s :: st')

/-- If the document is a call, then it names a function of the backend and the namespace it is in. The arguments may be
anything. -/
def Asks (b : BackendDef S V) (doc : Json) : Prop :=
  ∀ (id : Nat) (value : Json), Request.decode doc = .ok (.exec id value) → ∃ m n f, value = .obj m ∧ n ∈ b.fields ∧ f ∈ n.methods ∧
    BMap.get (lit "namespace") m = some (.str n.ident) ∧ BMap.get (lit "method") m = some (.str f.name)

/-- The two servers cannot be told apart: the same connections with the same responses produced, queued and written, the
same requests waiting, accepted and finished, the same streams. -/
structure Alike {σ C : Type} (s s' : State σ C) : Prop where
  conns : s'.conns = s.conns
  nconn : s'.nconn = s.nconn
  queue : s'.queue = s.queue
  tasks : s'.tasks = s.tasks
  ntask : s'.ntask = s.ntask
  subs : s'.subs = s.subs
  held : s'.held = s.held
  accepted : s'.accepted = s.accepted
  log : s'.log = s.log
  idle : s'.loop = .idle ↔ s.loop = .idle
  dead : s'.loop = .dead ↔ s.loop = .dead

end Verif.DispatchSpec
