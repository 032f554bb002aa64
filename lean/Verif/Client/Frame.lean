import Verif.Client.Model

/-!
# Which fields the client functions leave alone (proof helper)
-/

namespace Verif.Client
open Verif
namespace State

@[simp] theorem close_reqId (s : State) : s.close.reqId = s.reqId := by
  unfold close; split <;> rfl
@[simp] theorem close_live (s : State) : s.close.live = s.live := by
  unfold close; split <;> rfl
@[simp] theorem close_subs (s : State) : s.close.subs = s.subs := by
  unfold close; split <;> rfl
@[simp] theorem close_nsub (s : State) : s.close.nsub = s.nsub := by
  unfold close; split <;> rfl
@[simp] theorem close_nsock (s : State) : s.close.nsock = s.nsock := by
  unfold close; split <;> rfl
@[simp] theorem close_openP (s : State) : s.close.openP = s.openP := by
  unfold close; split <;> rfl
@[simp] theorem close_reopenCount (s : State) : s.close.reopenCount = s.reopenCount := by
  unfold close; split <;> rfl
@[simp] theorem close_phase (s : State) : s.close.phase = s.phase := by
  unfold close; split <;> rfl
@[simp] theorem close_issued (s : State) : s.close.issued = s.issued := by
  unfold close; split <;> rfl
@[simp] theorem close_stores (s : State) : s.close.stores = s.stores := by
  unfold close; split <;> rfl
@[simp] theorem close_calls (s : State) : s.close.calls = s.calls := by
  unfold close; split <;> rfl
@[simp] theorem close_sent (s : State) : s.close.sent = s.sent := by
  unfold close; split <;> rfl
@[simp] theorem close_dropped (s : State) : s.close.dropped = s.dropped := by
  unfold close; split <;> rfl
@[simp] theorem close_received (s : State) : s.close.received = s.received := by
  unfold close; split <;> rfl
@[simp] theorem close_ticks (s : State) : s.close.ticks = s.ticks := by
  unfold close; split <;> rfl
@[simp] theorem close_threw (s : State) : s.close.threw = s.threw := by
  unfold close; split <;> rfl

@[simp] theorem reopen_reqId (s : State) : s.reopen.reqId = s.reqId := by
  unfold reopen; simp only; split <;> simp
@[simp] theorem reopen_live (s : State) : s.reopen.live = s.live := by
  unfold reopen; simp only; split <;> simp
@[simp] theorem reopen_subs (s : State) : s.reopen.subs = s.subs := by
  unfold reopen; simp only; split <;> simp
@[simp] theorem reopen_nsub (s : State) : s.reopen.nsub = s.nsub := by
  unfold reopen; simp only; split <;> simp
@[simp] theorem reopen_nsock (s : State) : s.reopen.nsock = s.nsock := by
  unfold reopen; simp only; split <;> simp
@[simp] theorem reopen_openP (s : State) : s.reopen.openP = s.openP := by
  unfold reopen; simp only; split <;> simp
@[simp] theorem reopen_phase (s : State) : s.reopen.phase = s.phase := by
  unfold reopen; simp only; split <;> simp
@[simp] theorem reopen_issued (s : State) : s.reopen.issued = s.issued := by
  unfold reopen; simp only; split <;> simp
@[simp] theorem reopen_stores (s : State) : s.reopen.stores = s.stores := by
  unfold reopen; simp only; split <;> simp
@[simp] theorem reopen_calls (s : State) : s.reopen.calls = s.calls := by
  unfold reopen; simp only; split <;> simp
@[simp] theorem reopen_sent (s : State) : s.reopen.sent = s.sent := by
  unfold reopen; simp only; split <;> simp
@[simp] theorem reopen_dropped (s : State) : s.reopen.dropped = s.dropped := by
  unfold reopen; simp only; split <;> simp
@[simp] theorem reopen_received (s : State) : s.reopen.received = s.received := by
  unfold reopen; simp only; split <;> simp
@[simp] theorem reopen_threw (s : State) : s.reopen.threw = s.threw := by
  unfold reopen; simp only; split <;> simp

@[simp] theorem open__reqId (s : State) : s.open_.reqId = s.reqId := by
  unfold open_; split <;> rfl
@[simp] theorem open__live (s : State) : s.open_.live = s.live := by
  unfold open_; split <;> rfl
@[simp] theorem open__subs (s : State) : s.open_.subs = s.subs := by
  unfold open_; split <;> rfl
@[simp] theorem open__nsub (s : State) : s.open_.nsub = s.nsub := by
  unfold open_; split <;> rfl
@[simp] theorem open__reopenCount (s : State) : s.open_.reopenCount = s.reopenCount := by
  unfold open_; split <;> rfl
@[simp] theorem open__phase (s : State) : s.open_.phase = s.phase := by
  unfold open_; split <;> rfl
@[simp] theorem open__issued (s : State) : s.open_.issued = s.issued := by
  unfold open_; split <;> rfl
@[simp] theorem open__stores (s : State) : s.open_.stores = s.stores := by
  unfold open_; split <;> rfl
@[simp] theorem open__calls (s : State) : s.open_.calls = s.calls := by
  unfold open_; split <;> rfl
@[simp] theorem open__sent (s : State) : s.open_.sent = s.sent := by
  unfold open_; split <;> rfl
@[simp] theorem open__dropped (s : State) : s.open_.dropped = s.dropped := by
  unfold open_; split <;> rfl
@[simp] theorem open__received (s : State) : s.open_.received = s.received := by
  unfold open_; split <;> rfl
@[simp] theorem open__ticks (s : State) : s.open_.ticks = s.ticks := by
  unfold open_; split <;> rfl
@[simp] theorem open__threw (s : State) : s.open_.threw = s.threw := by
  unfold open_; split <;> rfl

@[simp] theorem openAndSend_reqId (s : State) (m : Msg) : (s.openAndSend m).reqId = s.reqId := by
  unfold openAndSend; split <;> (try rfl) <;> simp only [] <;> split <;> simp
@[simp] theorem openAndSend_live (s : State) (m : Msg) : (s.openAndSend m).live = s.live := by
  unfold openAndSend; split <;> (try rfl) <;> simp only [] <;> split <;> simp
@[simp] theorem openAndSend_subs (s : State) (m : Msg) : (s.openAndSend m).subs = s.subs := by
  unfold openAndSend; split <;> (try rfl) <;> simp only [] <;> split <;> simp
@[simp] theorem openAndSend_nsub (s : State) (m : Msg) : (s.openAndSend m).nsub = s.nsub := by
  unfold openAndSend; split <;> (try rfl) <;> simp only [] <;> split <;> simp
@[simp] theorem openAndSend_reopenCount (s : State) (m : Msg) : (s.openAndSend m).reopenCount = s.reopenCount := by
  unfold openAndSend; split <;> (try rfl) <;> simp only [] <;> split <;> simp
@[simp] theorem openAndSend_phase (s : State) (m : Msg) : (s.openAndSend m).phase = s.phase := by
  unfold openAndSend; split <;> (try rfl) <;> simp only [] <;> split <;> simp
@[simp] theorem openAndSend_issued (s : State) (m : Msg) : (s.openAndSend m).issued = s.issued := by
  unfold openAndSend; split <;> (try rfl) <;> simp only [] <;> split <;> simp
@[simp] theorem openAndSend_stores (s : State) (m : Msg) : (s.openAndSend m).stores = s.stores := by
  unfold openAndSend; split <;> (try rfl) <;> simp only [] <;> split <;> simp
@[simp] theorem openAndSend_calls (s : State) (m : Msg) : (s.openAndSend m).calls = s.calls := by
  unfold openAndSend; split <;> (try rfl) <;> simp only [] <;> split <;> simp
@[simp] theorem openAndSend_dropped (s : State) (m : Msg) : (s.openAndSend m).dropped = s.dropped := by
  unfold openAndSend; split <;> (try rfl) <;> simp only [] <;> split <;> simp
@[simp] theorem openAndSend_received (s : State) (m : Msg) : (s.openAndSend m).received = s.received := by
  unfold openAndSend; split <;> (try rfl) <;> simp only [] <;> split <;> simp
@[simp] theorem openAndSend_ticks (s : State) (m : Msg) : (s.openAndSend m).ticks = s.ticks := by
  unfold openAndSend; split <;> (try rfl) <;> simp only [] <;> split <;> simp
@[simp] theorem openAndSend_threw (s : State) (m : Msg) : (s.openAndSend m).threw = s.threw := by
  unfold openAndSend; split <;> (try rfl) <;> simp only [] <;> split <;> simp

@[simp] theorem addSub_reqId (s : State) (kd : Kind) (id : Nat) : (s.addSub kd id).reqId = s.reqId := by
  rfl
@[simp] theorem addSub_socks (s : State) (kd : Kind) (id : Nat) : (s.addSub kd id).socks = s.socks := by
  rfl
@[simp] theorem addSub_nsock (s : State) (kd : Kind) (id : Nat) : (s.addSub kd id).nsock = s.nsock := by
  rfl
@[simp] theorem addSub_socket (s : State) (kd : Kind) (id : Nat) : (s.addSub kd id).socket = s.socket := by
  rfl
@[simp] theorem addSub_openP (s : State) (kd : Kind) (id : Nat) : (s.addSub kd id).openP = s.openP := by
  rfl
@[simp] theorem addSub_timer (s : State) (kd : Kind) (id : Nat) : (s.addSub kd id).timer = s.timer := by
  rfl
@[simp] theorem addSub_reopenCount (s : State) (kd : Kind) (id : Nat) : (s.addSub kd id).reopenCount = s.reopenCount := by
  rfl
@[simp] theorem addSub_phase (s : State) (kd : Kind) (id : Nat) : (s.addSub kd id).phase = s.phase := by
  rfl
@[simp] theorem addSub_issued (s : State) (kd : Kind) (id : Nat) : (s.addSub kd id).issued = s.issued := by
  rfl
@[simp] theorem addSub_stores (s : State) (kd : Kind) (id : Nat) : (s.addSub kd id).stores = s.stores := by
  rfl
@[simp] theorem addSub_calls (s : State) (kd : Kind) (id : Nat) : (s.addSub kd id).calls = s.calls := by
  rfl
@[simp] theorem addSub_sent (s : State) (kd : Kind) (id : Nat) : (s.addSub kd id).sent = s.sent := by
  rfl
@[simp] theorem addSub_dropped (s : State) (kd : Kind) (id : Nat) : (s.addSub kd id).dropped = s.dropped := by
  rfl
@[simp] theorem addSub_received (s : State) (kd : Kind) (id : Nat) : (s.addSub kd id).received = s.received := by
  rfl
@[simp] theorem addSub_ticks (s : State) (kd : Kind) (id : Nat) : (s.addSub kd id).ticks = s.ticks := by
  rfl
@[simp] theorem addSub_threw (s : State) (kd : Kind) (id : Nat) : (s.addSub kd id).threw = s.threw := by
  rfl

@[simp] theorem unsubscribe_reqId (s : State) (k : Nat) : (s.unsubscribe k).reqId = s.reqId := by
  unfold unsubscribe; simp only; split <;> simp
@[simp] theorem unsubscribe_nsub (s : State) (k : Nat) : (s.unsubscribe k).nsub = s.nsub := by
  unfold unsubscribe; simp only; split <;> simp
@[simp] theorem unsubscribe_nsock (s : State) (k : Nat) : (s.unsubscribe k).nsock = s.nsock := by
  unfold unsubscribe; simp only; split <;> simp
@[simp] theorem unsubscribe_openP (s : State) (k : Nat) : (s.unsubscribe k).openP = s.openP := by
  unfold unsubscribe; simp only; split <;> simp
@[simp] theorem unsubscribe_reopenCount (s : State) (k : Nat) : (s.unsubscribe k).reopenCount = s.reopenCount := by
  unfold unsubscribe; simp only; split <;> simp
@[simp] theorem unsubscribe_phase (s : State) (k : Nat) : (s.unsubscribe k).phase = s.phase := by
  unfold unsubscribe; simp only; split <;> simp
@[simp] theorem unsubscribe_issued (s : State) (k : Nat) : (s.unsubscribe k).issued = s.issued := by
  unfold unsubscribe; simp only; split <;> simp
@[simp] theorem unsubscribe_stores (s : State) (k : Nat) : (s.unsubscribe k).stores = s.stores := by
  unfold unsubscribe; simp only; split <;> simp
@[simp] theorem unsubscribe_calls (s : State) (k : Nat) : (s.unsubscribe k).calls = s.calls := by
  unfold unsubscribe; simp only; split <;> simp
@[simp] theorem unsubscribe_sent (s : State) (k : Nat) : (s.unsubscribe k).sent = s.sent := by
  unfold unsubscribe; simp only; split <;> simp
@[simp] theorem unsubscribe_dropped (s : State) (k : Nat) : (s.unsubscribe k).dropped = s.dropped := by
  unfold unsubscribe; simp only; split <;> simp
@[simp] theorem unsubscribe_received (s : State) (k : Nat) : (s.unsubscribe k).received = s.received := by
  unfold unsubscribe; simp only; split <;> simp
@[simp] theorem unsubscribe_ticks (s : State) (k : Nat) : (s.unsubscribe k).ticks = s.ticks := by
  unfold unsubscribe; simp only; split <;> simp
@[simp] theorem unsubscribe_threw (s : State) (k : Nat) : (s.unsubscribe k).threw = s.threw := by
  unfold unsubscribe; simp only; split <;> simp

theorem foldl_openAndSend_reqId (l : List Msg) (s : State) :
    (l.foldl openAndSend s).reqId = s.reqId := by
  induction l generalizing s with
  | nil => rfl
  | cons m l ih => simp [ih]
theorem foldl_openAndSend_live (l : List Msg) (s : State) :
    (l.foldl openAndSend s).live = s.live := by
  induction l generalizing s with
  | nil => rfl
  | cons m l ih => simp [ih]
theorem foldl_openAndSend_subs (l : List Msg) (s : State) :
    (l.foldl openAndSend s).subs = s.subs := by
  induction l generalizing s with
  | nil => rfl
  | cons m l ih => simp [ih]
theorem foldl_openAndSend_nsub (l : List Msg) (s : State) :
    (l.foldl openAndSend s).nsub = s.nsub := by
  induction l generalizing s with
  | nil => rfl
  | cons m l ih => simp [ih]
theorem foldl_openAndSend_reopenCount (l : List Msg) (s : State) :
    (l.foldl openAndSend s).reopenCount = s.reopenCount := by
  induction l generalizing s with
  | nil => rfl
  | cons m l ih => simp [ih]
theorem foldl_openAndSend_phase (l : List Msg) (s : State) :
    (l.foldl openAndSend s).phase = s.phase := by
  induction l generalizing s with
  | nil => rfl
  | cons m l ih => simp [ih]
theorem foldl_openAndSend_issued (l : List Msg) (s : State) :
    (l.foldl openAndSend s).issued = s.issued := by
  induction l generalizing s with
  | nil => rfl
  | cons m l ih => simp [ih]
theorem foldl_openAndSend_stores (l : List Msg) (s : State) :
    (l.foldl openAndSend s).stores = s.stores := by
  induction l generalizing s with
  | nil => rfl
  | cons m l ih => simp [ih]
theorem foldl_openAndSend_calls (l : List Msg) (s : State) :
    (l.foldl openAndSend s).calls = s.calls := by
  induction l generalizing s with
  | nil => rfl
  | cons m l ih => simp [ih]
theorem foldl_openAndSend_dropped (l : List Msg) (s : State) :
    (l.foldl openAndSend s).dropped = s.dropped := by
  induction l generalizing s with
  | nil => rfl
  | cons m l ih => simp [ih]
theorem foldl_openAndSend_received (l : List Msg) (s : State) :
    (l.foldl openAndSend s).received = s.received := by
  induction l generalizing s with
  | nil => rfl
  | cons m l ih => simp [ih]
theorem foldl_openAndSend_ticks (l : List Msg) (s : State) :
    (l.foldl openAndSend s).ticks = s.ticks := by
  induction l generalizing s with
  | nil => rfl
  | cons m l ih => simp [ih]
theorem foldl_openAndSend_threw (l : List Msg) (s : State) :
    (l.foldl openAndSend s).threw = s.threw := by
  induction l generalizing s with
  | nil => rfl
  | cons m l ih => simp [ih]
@[simp] theorem finish_reqId (l : List Nat) (s : State) : (s.finish l).reqId = s.reqId := by
  induction l generalizing s with
  | nil => rfl
  | cons m l ih => simp [finish, ih]
@[simp] theorem finish_nsub (l : List Nat) (s : State) : (s.finish l).nsub = s.nsub := by
  induction l generalizing s with
  | nil => rfl
  | cons m l ih => simp [finish, ih]
@[simp] theorem finish_nsock (l : List Nat) (s : State) : (s.finish l).nsock = s.nsock := by
  induction l generalizing s with
  | nil => rfl
  | cons m l ih => simp [finish, ih]
@[simp] theorem finish_openP (l : List Nat) (s : State) : (s.finish l).openP = s.openP := by
  induction l generalizing s with
  | nil => rfl
  | cons m l ih => simp [finish, ih]
@[simp] theorem finish_reopenCount (l : List Nat) (s : State) : (s.finish l).reopenCount = s.reopenCount := by
  induction l generalizing s with
  | nil => rfl
  | cons m l ih => simp [finish, ih]
@[simp] theorem finish_phase (l : List Nat) (s : State) : (s.finish l).phase = s.phase := by
  induction l generalizing s with
  | nil => rfl
  | cons m l ih => simp [finish, ih]
@[simp] theorem finish_issued (l : List Nat) (s : State) : (s.finish l).issued = s.issued := by
  induction l generalizing s with
  | nil => rfl
  | cons m l ih => simp [finish, ih]
@[simp] theorem finish_stores (l : List Nat) (s : State) : (s.finish l).stores = s.stores := by
  induction l generalizing s with
  | nil => rfl
  | cons m l ih => simp [finish, ih]
@[simp] theorem finish_calls (l : List Nat) (s : State) : (s.finish l).calls = s.calls := by
  induction l generalizing s with
  | nil => rfl
  | cons m l ih => simp [finish, ih]
@[simp] theorem finish_sent (l : List Nat) (s : State) : (s.finish l).sent = s.sent := by
  induction l generalizing s with
  | nil => rfl
  | cons m l ih => simp [finish, ih]
@[simp] theorem finish_dropped (l : List Nat) (s : State) : (s.finish l).dropped = s.dropped := by
  induction l generalizing s with
  | nil => rfl
  | cons m l ih => simp [finish, ih]
@[simp] theorem finish_received (l : List Nat) (s : State) : (s.finish l).received = s.received := by
  induction l generalizing s with
  | nil => rfl
  | cons m l ih => simp [finish, ih]
@[simp] theorem finish_ticks (l : List Nat) (s : State) : (s.finish l).ticks = s.ticks := by
  induction l generalizing s with
  | nil => rfl
  | cons m l ih => simp [finish, ih]
@[simp] theorem finish_threw (l : List Nat) (s : State) : (s.finish l).threw = s.threw := by
  induction l generalizing s with
  | nil => rfl
  | cons m l ih => simp [finish, ih]
@[simp] theorem call_reqId (s : State) (k id : Nat) (d : Json) :
    (s.call k id d).1.reqId = s.reqId := by
  unfold call; repeat' split
  all_goals rfl
@[simp] theorem call_live (s : State) (k id : Nat) (d : Json) :
    (s.call k id d).1.live = s.live := by
  unfold call; repeat' split
  all_goals rfl
@[simp] theorem call_nsub (s : State) (k id : Nat) (d : Json) :
    (s.call k id d).1.nsub = s.nsub := by
  unfold call; repeat' split
  all_goals rfl
@[simp] theorem call_socks (s : State) (k id : Nat) (d : Json) :
    (s.call k id d).1.socks = s.socks := by
  unfold call; repeat' split
  all_goals rfl
@[simp] theorem call_nsock (s : State) (k id : Nat) (d : Json) :
    (s.call k id d).1.nsock = s.nsock := by
  unfold call; repeat' split
  all_goals rfl
@[simp] theorem call_socket (s : State) (k id : Nat) (d : Json) :
    (s.call k id d).1.socket = s.socket := by
  unfold call; repeat' split
  all_goals rfl
@[simp] theorem call_openP (s : State) (k id : Nat) (d : Json) :
    (s.call k id d).1.openP = s.openP := by
  unfold call; repeat' split
  all_goals rfl
@[simp] theorem call_timer (s : State) (k id : Nat) (d : Json) :
    (s.call k id d).1.timer = s.timer := by
  unfold call; repeat' split
  all_goals rfl
@[simp] theorem call_reopenCount (s : State) (k id : Nat) (d : Json) :
    (s.call k id d).1.reopenCount = s.reopenCount := by
  unfold call; repeat' split
  all_goals rfl
@[simp] theorem call_phase (s : State) (k id : Nat) (d : Json) :
    (s.call k id d).1.phase = s.phase := by
  unfold call; repeat' split
  all_goals rfl
@[simp] theorem call_issued (s : State) (k id : Nat) (d : Json) :
    (s.call k id d).1.issued = s.issued := by
  unfold call; repeat' split
  all_goals rfl
@[simp] theorem call_stores (s : State) (k id : Nat) (d : Json) :
    (s.call k id d).1.stores = s.stores := by
  unfold call; repeat' split
  all_goals rfl
@[simp] theorem call_calls (s : State) (k id : Nat) (d : Json) :
    (s.call k id d).1.calls = s.calls := by
  unfold call; repeat' split
  all_goals rfl
@[simp] theorem call_sent (s : State) (k id : Nat) (d : Json) :
    (s.call k id d).1.sent = s.sent := by
  unfold call; repeat' split
  all_goals rfl
@[simp] theorem call_dropped (s : State) (k id : Nat) (d : Json) :
    (s.call k id d).1.dropped = s.dropped := by
  unfold call; repeat' split
  all_goals rfl
@[simp] theorem call_received (s : State) (k id : Nat) (d : Json) :
    (s.call k id d).1.received = s.received := by
  unfold call; repeat' split
  all_goals rfl
@[simp] theorem call_ticks (s : State) (k id : Nat) (d : Json) :
    (s.call k id d).1.ticks = s.ticks := by
  unfold call; repeat' split
  all_goals rfl
@[simp] theorem call_threw (s : State) (k id : Nat) (d : Json) :
    (s.call k id d).1.threw = s.threw := by
  unfold call; repeat' split
  all_goals rfl

@[simp] theorem unsubscribe_live (s : State) (k : Nat) :
    (s.unsubscribe k).live = s.live.filter (· != k) := by
  unfold unsubscribe; simp only; split <;> simp [*]
@[simp] theorem unsubscribe_subs (s : State) (k : Nat) :
    (s.unsubscribe k).subs = upd s.subs k
      { s.subs k with until_ := some ((s.subs k).until_.getD (s.seenCount k)) } := by
  unfold unsubscribe; simp only; split <;> simp

end State

/-- The cases of `step`. -/
inductive Step (s : State) : Label → State → Prop
  | request (ns m a) : Step s (.request ns m a) (s.request (s.newMsg ns m a))
  | subscribe (ns m a) : Step s (.subscribe ns m a) (s.subscribe (s.newMsg ns m a))
  | attach (id) (h : id ∈ s.stores) : Step s (.attach id) (s.addSub .callback id)
  | detach (k) (h : k < s.nsub) (hk : (s.subs k).kind = .callback) :
      Step s (.detach k) (s.unsubscribe k)
  | opened (k) (hp : s.phase = .idle) (h : (s.socks k).st = .connecting) :
      Step s (.opened k) ((s.socks k).waiting.foldl State.openAndSend (s.onOpen k))
  | failed (k) (hp : s.phase = .idle) (h : (s.socks k).st ≠ .closed) :
      Step s (.closed k true) (s.onError k).reopen
  | clean (k) (hp : s.phase = .idle) (h : (s.socks k).st ≠ .closed)
      (hw : (s.socks k).wasOpen = true) : Step s (.closed k false) (s.goneClean k).reopen
  | closing (k) (hp : s.phase = .idle) (h : (s.socks k).st = .opened) : Step s (.closing k) (s.beginClose k)
  | method (k id data) (hp : s.phase = .idle) (h : (s.socks k).st = .opened) :
      Step s (.message k (.method id data)) (s.receive id data)
  | stream (k id data) (hp : s.phase = .idle) (h : (s.socks k).st = .opened) :
      Step s (.message k (.stream id data)) (s.receive id data)
  | error (k id) (hp : s.phase = .idle) (h : (s.socks k).st = .opened) :
      Step s (.message k (.error id)) s
  | garbage (k) (hp : s.phase = .idle) (h : (s.socks k).st = .opened) :
      Step s (.message k .garbage) s
  | visitEnd (id data cursor settled) (hp : s.phase = .delivering id data cursor settled)
      (hn : nextSub s.live cursor = none) :
      Step s .visit ({ s with phase := .idle }.finish settled)
  | visit (id data cursor settled k) (hp : s.phase = .delivering id data cursor settled)
      (hn : nextSub s.live cursor = some k) :
      Step s .visit { (s.call k id data).1 with
        phase := .delivering id data (k + 1)
          (if (s.call k id data).2 then settled ++ [k] else settled) }
  | visitThrow (id data cursor settled k) (hp : s.phase = .delivering id data cursor settled)
      (hn : nextSub s.live cursor = some k) (hid : (s.subs k).id = id)
      (hk : (s.subs k).kind = .callback) :
      Step s .visitThrow ({ (s.call k id data).1 with phase := .idle, threw := true }.finish settled)
  | timer (d) (hp : s.phase = .idle) (ht : s.timer = some d) : Step s .timer s.open_

theorem step_Step {s s' : State} {l : Label} (h : step s l = some s') : Step s l s' := by
  cases l with
  | request ns m a => simp only [step, Option.some.injEq] at h; subst h; exact .request ns m a
  | subscribe ns m a => simp only [step, Option.some.injEq] at h; subst h; exact .subscribe ns m a
  | attach id =>
    simp only [step] at h
    split at h <;> simp at h
    subst h; exact .attach id ‹_›
  | detach k =>
    simp only [step] at h
    split at h <;> simp at h
    rename_i hk
    subst h; exact .detach k hk.1 hk.2
  | opened k =>
    simp only [step] at h
    split at h <;> simp at h
    subst h; exact .opened k ‹_› ‹_›
  | closed k failed =>
    simp only [step] at h
    split at h
    · simp at h
    · split at h
      · simp at h
      · split at h
        · rename_i hf
          simp at h; subst h; subst hf; exact .failed k ‹_› ‹_›
        · rename_i hf
          split at h <;> simp at h
          subst h
          rw [Bool.not_eq_true] at hf; subst hf
          exact .clean k ‹_› ‹_› ‹_›
  | closing k =>
    simp only [step] at h
    split at h <;> simp at h
    subst h; exact .closing k ‹_› ‹_›
  | message k m =>
    simp only [step] at h
    split at h
    · split at h <;> simp at h <;> subst h
      · exact .method k _ _ ‹_› ‹_›
      · exact .stream k _ _ ‹_› ‹_›
      · exact .error k _ ‹_› ‹_›
      · exact .garbage k ‹_› ‹_›
    · simp at h
  | visit =>
    simp only [step] at h
    split at h
    · simp at h
    · split at h <;> simp only [Option.some.injEq] at h <;> subst h
      · exact .visitEnd _ _ _ _ ‹_› ‹_›
      · exact .visit _ _ _ _ _ ‹_› ‹_›
  | visitThrow =>
    simp only [step] at h
    split at h
    · simp at h
    · split at h
      · simp at h
      · split at h
        · rename_i hk
          simp only [Option.some.injEq] at h; subst h
          exact .visitThrow _ _ _ _ _ ‹_› ‹_› hk.1 hk.2
        · simp at h
  | timer =>
    simp only [step] at h
    split at h <;> simp at h
    subst h; exact .timer _ ‹_› ‹_›

end Verif.Client
