import Verif.Spec.Lost

/-!
# Streams nobody listens to
-/

namespace Verif.SystemSpec
open Verif Verif.System

variable {σ C : Type}

/-- Nobody listens to the store with this id on client `i`: no callback is attached to it. -/
def Unheard (s : State σ C) (i id : Nat) : Prop :=
  ∀ j ∈ (s.clients i).live, ((s.clients i).subs j).id ≠ id

/-- Every connection of the server belongs to a generated client. -/
def OnlyClients (s : State σ C) : Prop := ∀ c, c < s.server.nconn → ∃ i k, s.owner c = some (i, k)

/-- The server is done with what has happened on connection `c` of socket `k` of client `i`: every message has
arrived, nothing waits to be executed, and if the socket is gone, the server has noticed. -/
structure Settled (s : State σ C) (i k c : Nat) : Prop where
  arrived : s.up c = (sentOn (s.clients i) k).length
  queue : s.server.queue = []
  idle : s.server.loop = .idle
  noticed : LostAt s i k → (s.server.conns c).alive = false

/-- The task of the stream started by the request that comes after `before`. -/
def taskAfter (sv : Service σ C) (b : σ) (before : List (Nat × Server.Input)) : Nat :=
  (ServerSpec.streams sv b before).length

/-- How many items the server has taken from the stream of this task. -/
def taken (s : State σ C) (t : Nat) : Nat := (s.server.tasks t).pos

end Verif.SystemSpec
