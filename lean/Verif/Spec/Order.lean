import Verif.Spec.System

/-!
# Specification: the order of calls
-/

namespace Verif.SystemSpec
open Verif Verif.System Verif.ServerSpec

variable {σ C : Type}

/-- On backend state `st` the request gives `d`: it returns `d`, or it starts a stream that has the item `d`. -/
def Gives (sv : Service σ C) (st : σ) (inp : Server.Input) (d : Json) : Prop :=
  Returns sv st inp d ∨ ∃ items n, Streams sv st inp items ∧ items n = some (.ok d)

/-- The requests of client `i` that the server has executed, in the order of execution. -/
def executedOf (s : State σ C) (i : Nat) : List Server.Input :=
  (s.server.log.filter (fun p => (s.owner p.1).map (·.1) == some i)).map (·.2)

/-- The requests of connection `c` that the server has executed, in the order of execution. -/
def executedOn (s : State σ C) (c : Nat) : List Server.Input :=
  (s.server.log.filter (fun p => p.1 == c)).map (·.2)

/-- The calls that client `i` has made, in the order in which it made them. -/
def callsOf (s : State σ C) (i : Nat) : List Server.Input :=
  (s.clients i).calls.map (fun m => requestOf m.id m.ns m.method m.args)

/-- In the history `ls`, the promise of the request that client `i` makes in step `p` has resolved with `d` before step `n`. -/
def Resolved (sv : Service σ C) (b : σ) (ls : List Label) (p i n : Nat) (d : Json) : Prop :=
  p < n ∧ ∃ s₁ s, run sv (init b) (ls.take p) = some s₁ ∧ run sv (init b) (ls.take n) = some s ∧ d ∈ promise s₁ i s

end Verif.SystemSpec
