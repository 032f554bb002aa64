import Verif.Spec.Grow
import Verif.System.Model

/-!
# Projects whose backend grows (specification)
-/

namespace Verif.System
open Verif Verif.DispatchSpec

variable {S V : Type}

/-- The backend has a function with these names. -/
def HasFunction (b : BackendDef S V) (ns method : Str) : Prop := ∃ n ∈ b.fields, ns = n.ident ∧ ∃ f ∈ n.methods, method = f.name

/-- The client calls functions of the backend, with any arguments; frames of foreign clients are calls of functions of the
backend, cancellations, or no requests. -/
def Label.asks (b : BackendDef S V) : Label → Prop
  | .client _ (.request ns method _) => HasFunction b ns method
  | .client _ (.subscribe ns method _) => HasFunction b ns method
  | .foreignFrame _ (.text (some doc)) => Asks b doc
  | _ => True

/-- The two systems cannot be told apart. The clients are the same in every respect: what they have got, what they wait for,
their sockets and timers. -/
structure AlikeSystems {σ C : Type} (s s' : State σ C) : Prop where
  clients : s'.clients = s.clients
  owner : s'.owner = s.owner
  up : s'.up = s.up
  down : s'.down = s.down
  server : Alike s.server s'.server

end Verif.System
