import Verif.Client.Model

/-!
# What client histories mean, read off the history itself

These definitions look only at the labels (user calls and network events) of a history, or at the
observable histories recorded in a state.
-/

namespace Verif.ClientSpec
open Verif Verif.Client

/-- The calls a history makes: namespace, method, arguments, in order. -/
def callsOf : List Label → List (Str × Str × List Json)
  | [] => []
  | .request ns m a :: ls => (ns, m, a) :: callsOf ls
  | .subscribe ns m a :: ls => (ns, m, a) :: callsOf ls
  | _ :: ls => callsOf ls

/-- The method and stream responses a history receives, in order. -/
def messagesOf : List Label → List (Nat × Json)
  | [] => []
  | .message _ (.method id d) :: ls => (id, d) :: messagesOf ls
  | .message _ (.stream id d) :: ls => (id, d) :: messagesOf ls
  | _ :: ls => messagesOf ls

/-- The message being delivered at this very moment, if any. -/
def inFlight (s : State) : List (Nat × Json) :=
  match s.phase with
  | .idle => []
  | .delivering id d _ _ => [(id, d)]

/-- Data of the messages bearing `id`. -/
def dataOf (id : Nat) (l : List (Nat × Json)) : List Json :=
  (l.filter (fun p => p.1 = id)).map (·.2)

/-- The id a server message answers. -/
def answers : Incoming → Option Nat
  | .method id _ => some id
  | .stream id _ => some id
  | .error id => id
  | .garbage => none

/-- The promise of request subscription `k` has settled. -/
def Settled (s : State) (k : Nat) : Prop := (s.subs k).got ≠ []

/-- Number of waits since the last open. -/
def waitsSinceOpen (l : List Tick) : Nat :=
  l.foldl (fun n t => match t with | .opened => 0 | .wait _ => n + 1) 0

/-- The advertised delay of the `n`-th (from 0) consecutive reconnect attempt. -/
def backoff : Nat → Nat
  | 0 => 100
  | 1 => 200
  | 2 => 1000
  | _ => 3000

end Verif.ClientSpec
