import Verif.Rpc.Server

/-!
# What a server should do, said without channels, tasks and schedules

The reference: requests form one sequence `List (connection × request)`; they are executed one after
the other by `exec1`.
-/

namespace Verif.ServerSpec

open Verif Verif.Server

variable {σ C : Type}

/-- One request executed alone on backend state `b`: the next state and the direct reply, if the
request has one. -/
def exec1 (sv : Service σ C) (b : σ) : Input → σ × Option Response
  | .error r => (b, some r)
  | .ok (.cancelStream _) => (b, none)
  | .ok (.exec id value) =>
    match sv.decode value with
    | .error e => (b, some (.error (some id) e))
    | .ok call =>
      if sv.isStream call then ((sv.runStream b call).1, none)
      else
        match sv.runMethod b call with
        | (b', .ok data) => (b', some (.method id data))
        | (b', .error e) => (b', some (.error (some id) e))

/-- The backend state after a sequence of requests. -/
def replay (sv : Service σ C) (b : σ) : List (Nat × Input) → σ
  | [] => b
  | (_, i) :: l => replay sv (exec1 sv b i).1 l

/-- The direct replies connection `c` should get for a sequence of requests, in order. -/
def repliesTo (sv : Service σ C) (c : Nat) (b : σ) : List (Nat × Input) → List Response
  | [] => []
  | (c', i) :: l =>
    (if c' = c then (exec1 sv b i).2.toList else []) ++ repliesTo sv c (exec1 sv b i).1 l

/-- A stream: who asked for it, under which id, and its items. -/
structure Started where
  conn : Nat
  id : Nat
  items : Nat → Option (Except SerdeErr Json)

/-- The stream a request starts, if it starts one. -/
def starts (sv : Service σ C) (b : σ) (c : Nat) : Input → Option Started
  | .ok (.exec id value) =>
    match sv.decode value with
    | .ok call => if sv.isStream call then some ⟨c, id, (sv.runStream b call).2⟩ else none
    | .error _ => none
  | _ => none

/-- All streams started by a sequence of requests, in order. -/
def streams (sv : Service σ C) (b : σ) : List (Nat × Input) → List Started
  | [] => []
  | (c, i) :: l => (starts sv b c i).toList ++ streams sv (exec1 sv b i).1 l

/-- Which stream (by its position among `streams`) an id refers to: the latest one started with the
id and not cancelled since. `n` streams were started before, `m` is the table so far. -/
def active (sv : Service σ C) (b : σ) (n : Nat) (m : Nat → Option Nat) :
    List (Nat × Input) → (Nat → Option Nat)
  | [] => m
  | (c, i) :: l =>
    match i, starts sv b c i with
    | _, some st =>
      active sv (exec1 sv b i).1 (n + 1) (fun id => if id = st.id then some n else m id) l
    | .ok (.cancelStream id'), none =>
      active sv (exec1 sv b i).1 n (fun id => if id = id' then none else m id) l
    | _, none => active sv (exec1 sv b i).1 n m l

/-- The response that carries one stream item. -/
def itemResponse (id : Nat) : Except SerdeErr Json → Response
  | .ok data => .stream id data
  | .error e => .error (some id) e

/-- The responses for the first `n` items of a stream. -/
def firstItems (st : Started) : Nat → List Response
  | 0 => []
  | n + 1 => firstItems st n ++ ((st.items n).map (itemResponse st.id)).toList

/-- Responses that stream number `t` has put on connection `c`. -/
def itemsOf (s : State σ C) (c t : Nat) : List Response :=
  ((s.conns c).produced.filter (fun p => p.1 == some t)).map (·.2)

/-- Direct replies that have been put on connection `c`. -/
def repliesOn (s : State σ C) (c : Nat) : List Response :=
  ((s.conns c).produced.filter (fun p => p.1 == none)).map (·.2)

/-- The request the loop is working on. -/
def inflight (s : State σ C) : List (Nat × Input) :=
  match s.loop with
  | .busy c _ _ i => [(c, i)]
  | _ => []

/-- The server task is running. -/
def LoopAlive (s : State σ C) : Prop :=
  match s.loop with
  | .dead => False
  | _ => True

end Verif.ServerSpec
