import Verif.Spec.System

/-!
# Lost connections
-/

namespace Verif.SystemSpec
open Verif Verif.System

variable {σ C : Type}

/-- The connection of socket `k` of client `i` is lost: the socket is closing or closed. -/
def LostAt (s : State σ C) (i k : Nat) : Prop :=
  ((s.clients i).socks k).st = .closing ∨ ((s.clients i).socks k).st = .closed

/-- The client has connected again: its socket is another one, and it is open. -/
def Reconnected (s : State σ C) (i k : Nat) : Prop :=
  ∃ k', k' ≠ k ∧ (s.clients i).socket = some k' ∧ ((s.clients i).socks k').st = .opened

/-- The client is not in the middle of handing a message to its subscriptions. -/
def AtRest (s : State σ C) (i : Nat) : Prop := (s.clients i).phase = .idle

/-- The server has no request (waiting or being executed) of a connection that has ended. -/
def NoOrphans (s : State σ C) : Prop :=
  (∀ p ∈ s.server.queue, (s.server.conns p.1).alive = true) ∧
  ∀ c id call inp, s.server.loop = .busy c id call inp → (s.server.conns c).alive = true

end Verif.SystemSpec
