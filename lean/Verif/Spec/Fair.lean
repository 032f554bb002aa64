import Verif.Spec.System

/-!
# Executions that go on for ever, and fairness

An execution of the whole system never ends; at every moment something happens or nothing does. What
programs, the network and other clients do is not restricted. Fairness says that what is due to happen
does happen some time.
-/

namespace Verif.SystemSpec
open Verif Verif.System

variable {σ C : Type}

/-- `st n` is the state at moment `n`; `lab n` is what happens then (`none`: nothing). -/
structure Execution (sv : Service σ C) (b : σ) (st : Nat → State σ C) (lab : Nat → Option Label) :
    Prop where
  start : st 0 = init b
  next : ∀ n, (lab n = none ∧ st (n + 1) = st n) ∨
    ∃ l, lab n = some l ∧ step sv (st n) l = some (st (n + 1))

/-- The label can happen. -/
def Enabled (sv : Service σ C) (s : State σ C) (l : Label) : Prop := ∃ s', step sv s l = some s'

/-- What can happen from some moment on all the time happens some time. -/
def WeaklyFair (sv : Service σ C) (st : Nat → State σ C) (lab : Nat → Option Label) (l : Label) :
    Prop :=
  ∀ n, (∀ m, n ≤ m → Enabled sv (st m) l) → ∃ m, n ≤ m ∧ lab m = some l

/-- What can happen again and again happens some time. -/
def StronglyFair (sv : Service σ C) (st : Nat → State σ C) (lab : Nat → Option Label) (l : Label) :
    Prop :=
  ∀ n, (∀ m, n ≤ m → ∃ m', m ≤ m' ∧ Enabled sv (st m') l) → ∃ m, n ≤ m ∧ lab m = some l

/-- Fairness towards client `i`: connections get accepted, frames travel, the server's loop goes on,
methods return, responses get written, the event loop of the client gets to its socket events, and
deliveries to subscriptions end (callbacks do not keep on subscribing). -/
structure Fair (sv : Service σ C) (st : Nat → State σ C) (lab : Nat → Option Label) (i : Nat) :
    Prop where
  accept : ∀ k, WeaklyFair sv st lab (.accept i k)
  deliver : ∀ c, WeaklyFair sv st lab (.deliver c)
  take : WeaklyFair sv st lab (.server .take)
  methodDone : WeaklyFair sv st lab (.server .methodDone)
  flush : ∀ c, WeaklyFair sv st lab (.server (.flush c))
  opened : ∀ c, StronglyFair sv st lab (.opened c)
  respond : ∀ c, StronglyFair sv st lab (.respond c)
  idle : ∀ n, ∃ m, n ≤ m ∧ ((st m).clients i).phase = .idle

/-- Fairness towards the stream with number `t`: it is polled, an item it has is yielded, and it does
not panic. -/
structure FairStream (sv : Service σ C) (st : Nat → State σ C) (lab : Nat → Option Label) (t : Nat) :
    Prop where
  poll : WeaklyFair sv st lab (.server (.poll t))
  item : StronglyFair sv st lab (.server (.item t))
  noPanic : ∀ n, lab n ≠ some (.server (.itemPanic t))

/-- No network failure, no panic, generated clients only, and no client makes more calls than
JavaScript can count. -/
structure Peaceful (sv : Service σ C) (st : Nat → State σ C) (lab : Nat → Option Label) : Prop where
  labels : ∀ n l, lab n = some l →
    l.isFailure = false ∧ Label.harmless l = true ∧ Label.generated sv l
  calls : ∀ n i, ((st n).clients i).calls.length ≤ 2 ^ 53

/-- The close event of a socket never reaches a client that has made a new socket in the meantime (it has none,
or still that one). -/
def CalmForever (st : Nat → State σ C) (lab : Nat → Option Label) : Prop :=
  ∀ n i k, lab n = some (.endDown i k) → ∀ k', ((st n).clients i).socket = some k' → k' = k

/-- The client has a socket to send on (or to wait for). -/
def hasSocket (s : State σ C) (i : Nat) : Prop := (s.clients i).socket ≠ none

end Verif.SystemSpec
