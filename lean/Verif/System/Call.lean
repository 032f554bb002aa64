import Verif.System.Calm

/-!
# The composed system: one call from beginning to end (proof helpers)
-/

namespace Verif.System
open Verif Verif.ServerSpec Verif.SystemSpec

variable {σ C : Type}

/-! ## Sockets that have been open belong to connections -/

section
open Client

theorem client_wasOpen_back {x y : Client.State} {l : Client.Label} (hr : Client.Reachable x)
    (h : Client.step x l = some y) {k : Nat} (hl : (y.socks k).wasOpen = true) :
    (x.socks k).wasOpen = true ∨ l = .opened k := by
  have hc := inv_conn hr
  have hclose : ∀ (z : Client.State), (z.close.socks k).wasOpen = true →
      (z.socks k).wasOpen = true := by
    intro z hl
    unfold State.close at hl
    split at hl
    · rename_i j _
      by_cases e : k = j
      · subst e
        simp only [upd_self] at hl
        unfold Sock.close at hl
        split at hl <;> exact hl
      · simp only [upd_ne _ _ e] at hl; exact hl
    · exact hl
  have hreopen : ∀ (z : Client.State), (z.reopen.socks k).wasOpen = true →
      (z.socks k).wasOpen = true := by
    intro z hl
    refine hclose z ?_
    unfold State.reopen at hl
    simp only at hl
    split at hl <;> exact hl
  have hunsub : ∀ (z : Client.State) j, ((z.unsubscribe j).socks k).wasOpen = true →
      (z.socks k).wasOpen = true := by
    intro z j hl
    unfold State.unsubscribe at hl
    simp only at hl
    split at hl
    · have := hclose _ hl
      exact this
    · exact hl
  have hfinish : ∀ (l : List Nat) (z : Client.State), ((z.finish l).socks k).wasOpen = true →
      (z.socks k).wasOpen = true := by
    intro l
    induction l with
    | nil => intro z h; exact h
    | cons j l ih => intro z h; exact hunsub z j (ih _ h)
  have hopen : ∀ (z : Client.State), (z.open_.socks k).wasOpen = true →
      (z.socks k).wasOpen = true := by
    intro z hl
    unfold State.open_ at hl
    split at hl
    · exact hl
    · by_cases e : k = z.nsock
      · subst e; simp at hl
      · simp only [upd_ne _ _ e] at hl; exact hl
  have hos : ∀ (z : Client.State) m, ((z.openAndSend m).socks k).wasOpen = true →
      (z.socks k).wasOpen = true := by
    intro z m hl
    unfold State.openAndSend at hl
    split at hl
    · exact hl
    · simp only at hl
      split at hl
      · rename_i j _
        by_cases e : k = j
        · subst e; simp only [upd_self] at hl; exact hopen z hl
        · simp only [upd_ne _ _ e] at hl; exact hopen z hl
      · exact hopen z hl
  have hcall : ∀ j id data, ((x.call j id data).1).socks = x.socks := by
    intro j id data; unfold State.call; split
    · split
      · rfl
      · split <;> rfl
    · rfl
  cases step_Step h with
  | request ns m a => exact .inl (hos ((x.issue _).addSub .request _) _ hl)
  | subscribe ns m a => exact .inl (hos { x.issue _ with stores := _ } _ hl)
  | attach id h => exact .inl hl
  | detach j h hj => exact .inl (hunsub _ _ hl)
  | opened j hp hj =>
    rw [foldl_openAndSend_ready (onOpen_ready hc hj)] at hl
    have hl : ((x.onOpen j).socks k).wasOpen = true := hl
    by_cases e : k = j
    · subst e; exact .inr rfl
    · simp only [State.onOpen, upd_ne _ _ e] at hl; exact .inl hl
  | failed j hp h =>
    have hl := hreopen _ hl
    refine .inl ?_
    by_cases e : k = j
    · subst e; simp only [State.onError, upd_self] at hl; exact hl
    · simp only [State.onError, upd_ne _ _ e] at hl; exact hl
  | clean j hp h hw =>
    have hl := hreopen _ hl
    refine .inl ?_
    by_cases e : k = j
    · subst e; simp only [State.goneClean, upd_self] at hl; exact hl
    · simp only [State.goneClean, upd_ne _ _ e] at hl; exact hl
  | closing j => exact .inl (by rw [beginClose_wasOpen] at hl; exact hl)
  | method => exact .inl hl
  | stream => exact .inl hl
  | error => exact .inl hl
  | garbage => exact .inl hl
  | visitEnd id data cursor settled hp hn =>
    exact .inl (hfinish settled { x with phase := .idle } hl)
  | visit id data cursor settled j hp hn =>
    have hl : (((x.call j id data).1).socks k).wasOpen = true := hl
    rw [hcall] at hl; exact .inl hl
  | visitThrow id data cursor settled j hp hn hid hj =>
    have hl := hfinish settled { (x.call j id data).1 with phase := .idle, threw := true } hl
    have hl : (((x.call j id data).1).socks k).wasOpen = true := hl
    rw [hcall] at hl; exact .inl hl
  | timer d hp ht => exact .inl (hopen _ hl)

end

theorem inv_opened {sv : Service σ C} {b : σ} {s : State σ C} (hr : Reachable sv b s) :
    ∀ i k, ((s.clients i).socks k).wasOpen = true → ∃ c, s.owner c = some (i, k) := by
  refine hr.induct (P := fun s => ∀ i k, ((s.clients i).socks k).wasOpen = true →
    ∃ c, s.owner c = some (i, k)) (by intro i k h; simp [init, Client.init, Client.noSock] at h) ?_
  clear hr s
  intro s l s' hr ih hst i k hw
  have hset : ∀ j x l', Client.step (s.clients j) l' = some x →
      (l' ≠ .opened k) → (((s.setClient j x).clients i).socks k).wasOpen = true →
      ∃ c, s.owner c = some (i, k) := by
    intro j x l' h hl hw
    by_cases e : i = j
    · subst e
      rw [setClient_self] at hw
      rcases client_wasOpen_back (hr.client i) h hw with h' | h'
      · exact ih i k h'
      · exact absurd h' hl
    · rw [setClient_ne _ _ e] at hw; exact ih i k hw
  cases l with
  | client j l =>
    simp only [step] at hst
    split at hst
    · rename_i hl
      obtain ⟨x, hx, rfl⟩ := map_some hst
      exact hset j x l hx (by rintro rfl; simp [isLocal] at hl) hw
    · cases hst
  | opened c =>
    simp only [step] at hst
    split at hst
    · rename_i j k' ho
      obtain ⟨x, hx, rfl⟩ := map_some hst
      by_cases e : i = j ∧ k = k'
      · rw [e.1, e.2]; exact ⟨c, ho⟩
      · by_cases e' : i = j
        · exact hset j x _ hx (by rintro ⟨⟩; exact e ⟨e', rfl⟩) hw
        · rw [setClient_ne _ _ e'] at hw; exact ih i k hw
    · cases hst
  | endDown j k' =>
    simp only [step] at hst
    split at hst
    · obtain ⟨x, hx, rfl⟩ := map_some hst
      exact hset j x _ hx (by simp) hw
    · cases hst
  | beginDown j k' =>
    simp only [step] at hst
    split at hst
    · obtain ⟨x, hx, rfl⟩ := map_some hst
      exact hset j x _ hx (by simp) hw
    · cases hst
  | failBegin j k' =>
    obtain ⟨x, hx, rfl⟩ := map_some hst
    exact hset j x _ hx (by simp) hw
  | failDown j k' f =>
    obtain ⟨x, hx, rfl⟩ := map_some hst
    exact hset j x _ hx (by simp) hw
  | respond c =>
    simp only [step] at hst
    split at hst
    · split at hst
      · split at hst
        · rename_i x hx
          cases hst
          exact hset _ x _ hx (by simp) hw
        · cases hst
      · cases hst
    · cases hst
  | accept j k' =>
    simp only [step] at hst
    split at hst
    · split at hst
      · cases hst
        obtain ⟨c, hc⟩ := ih i k hw
        refine ⟨c, ?_⟩
        have := (inv_own hr).lt _ _ hc
        show (if c = s.server.nconn then some (j, k') else s.owner c) = _
        rw [if_neg (by omega)]; exact hc
      · cases hst
    · cases hst
  | deliver c =>
    simp only [step] at hst
    split at hst
    · split at hst
      · split at hst
        · cases hst; exact ih i k hw
        · cases hst
      · cases hst
    · cases hst
  | server l =>
    simp only [step] at hst
    split at hst
    · obtain ⟨x, hx, rfl⟩ := map_some hst; exact ih i k hw
    · cases hst
  | endUp c =>
    simp only [step] at hst
    split at hst
    · split at hst
      · obtain ⟨x, hx, rfl⟩ := map_some hst; exact ih i k hw
      · cases hst
    · cases hst
  | foreignConnect => obtain ⟨x, hx, rfl⟩ := map_some hst; exact ih i k hw
  | foreignFrame c f =>
    simp only [step] at hst
    split at hst
    · cases hst
    · obtain ⟨x, hx, rfl⟩ := map_some hst; exact ih i k hw
  | foreignEnd c =>
    simp only [step] at hst
    split at hst
    · cases hst
    · obtain ⟨x, hx, rfl⟩ := map_some hst; exact ih i k hw
  | failUp c => obtain ⟨x, hx, rfl⟩ := map_some hst; exact ih i k hw
  | failWrite c => obtain ⟨x, hx, rfl⟩ := map_some hst; exact ih i k hw

theorem sent_owner {sv : Service σ C} {b : σ} {s : State σ C} (hr : Reachable sv b s) {i k : Nat}
    {m : Client.Msg} (h : (k, m) ∈ (s.clients i).sent) : ∃ c, s.owner c = some (i, k) :=
  inv_opened hr i k (sent_wasOpen (hr.client i) k m h)

/-! ## The subscription of a call -/

/-- Facts about a call made by client `i`, later. -/
structure Made (sv : Service σ C) (b : σ) (i j : Nat) (kind : Client.Kind) (msg : Client.Msg)
    (s : State σ C) : Prop where
  reach : Reachable sv b s
  lt : j < (s.clients i).nsub
  kind : ((s.clients i).subs j).kind = kind
  id : ((s.clients i).subs j).id = msg.id
  call : msg ∈ (s.clients i).calls
  old : ∀ p ∈ (s.clients i).received.take ((s.clients i).subs j).from_, p.1 ≠ msg.id

theorem new_id {x : Client.State} (hr : Client.Reachable x)
    (hn : x.calls.length < 2 ^ 53) : ∀ m ∈ x.calls, m.id ≠ Client.jsInc x.reqId := by
  intro m hm e
  have hi := Client.inv_id hr
  have : m.id ∈ x.issued := by rw [← hi.calls]; exact List.mem_map.2 ⟨m, hm, rfl⟩
  rw [hi.issued] at this
  obtain ⟨j, hj, e'⟩ := List.mem_map.1 this
  have hj := List.mem_range.1 hj
  have hl := issued_length hr
  rw [hi.reqId, Client.jsInc_min] at e
  omega

/-- Data is received for messages that have been sent. -/
theorem received_call {sv : Service σ C} {b : σ} {s : State σ C} (hr : Reachable sv b s) {i : Nat}
    {p : Nat × Json} (hp : p ∈ (s.clients i).received) : ∃ m ∈ (s.clients i).calls, m.id = p.1 := by
  obtain ⟨c, k, r, ho, hw, hpay⟩ := inv_recv hr i p hp
  obtain ⟨m, hm, e⟩ := written_id hr ho hw hpay
  exact ⟨m, sent_calls (hr.client i) (sentOn_sent.1 hm), e⟩

theorem client_step {sv : Service σ C} {s s' : State σ C} {i : Nat} {l : Client.Label}
    (h : step sv s (.client i l) = some s') :
    Client.step (s.clients i) l = some (s'.clients i) ∧ s' = s.setClient i (s'.clients i) := by
  simp only [step] at h
  split at h
  · obtain ⟨x, hx, rfl⟩ := map_some h
    rw [setClient_self]; exact ⟨hx, rfl⟩
  · cases h

theorem run_clients {sv : Service σ C} {s s' : State σ C} {ls : List Label}
    (h : run sv s ls = some s') (i : Nat) : (s.clients i).calls <+: (s'.clients i).calls := by
  obtain ⟨cl, hcl⟩ := run_client i h
  exact run_calls hcl

theorem Made.later {sv : Service σ C} {b : σ} {i j : Nat} {kind : Client.Kind} {msg : Client.Msg}
    {s s' : State σ C} (h : Made sv b i j kind msg s) {ls : List Label}
    (hrun : run sv s ls = some s') : Made sv b i j kind msg s' := by
  obtain ⟨cl, hcl⟩ := run_client i hrun
  obtain ⟨a1, a2, a3, a4⟩ := Client.run_sub hcl h.lt
  refine ⟨h.reach.run hrun, a1, a2.trans h.kind, a3.trans h.id, (run_calls hcl).subset h.call, ?_⟩
  rw [a4]
  have hb := ((Client.inv_some (h.reach.client i)).bound j h.lt).1
  have hd : (s.clients i).doneCount ≤ (s.clients i).received.length :=
    Nat.le_trans (Client.doneCount_le _ 0) (Client.seenCount_le _ 0)
  rw [(Client.run_history hcl).2, List.take_append_of_le_length (Nat.le_trans hb hd)]
  exact h.old

/-- The subscription made by a request. -/
theorem request_made {sv : Service σ C} {b : σ} {s₁ s₂ : State σ C} {i : Nat} {ns m : Str}
    {a : List Json} (hr : Reachable sv b s₁)
    (h : step sv s₁ (.client i (.request ns m a)) = some s₂)
    (hn : (s₂.clients i).calls.length ≤ 2 ^ 53) :
    Made sv b i (s₁.clients i).nsub .request (lastMessage s₂ i ns m a) s₂ := by
  have hr2 := hr.step h
  obtain ⟨hst, _⟩ := client_step h
  simp only [Client.step, Option.some.injEq] at hst
  have hnsub : (s₁.clients i).nsub < (s₂.clients i).nsub := by
    rw [← hst]; unfold Client.State.request; simp [Client.State.issue]
    simp [Client.State.addSub]
  have hsub : (s₂.clients i).subs (s₁.clients i).nsub = ⟨.request, (s₂.clients i).reqId, [],
      (s₁.clients i).doneCount, none⟩ := by
    rw [← hst]; unfold Client.State.request
    simp [Client.State.issue]
    simp [Client.State.addSub, Client.State.doneCount]
  have hcalls : (s₂.clients i).calls = (s₁.clients i).calls ++ [lastMessage s₂ i ns m a] := by
    unfold lastMessage
    rw [← hst]; unfold Client.State.request
    simp [Client.State.issue]
    simp [Client.State.newMsg]
  have hid : (s₂.clients i).reqId = Client.jsInc (s₁.clients i).reqId := by
    rw [← hst]; unfold Client.State.request
    simp [Client.State.issue]
    simp [Client.State.newMsg]
  have hrec : (s₂.clients i).received = (s₁.clients i).received := by
    rw [← hst]; unfold Client.State.request
    simp [Client.State.issue]
  refine ⟨hr2, hnsub, by rw [hsub], by rw [hsub]; rfl, by rw [hcalls]; simp, ?_⟩
  intro p hp e
  rw [hrec] at hp
  obtain ⟨m', hm', e'⟩ := received_call hr (List.mem_of_mem_take hp)
  refine new_id (hr.client i) (by rw [hcalls] at hn; simp at hn; omega) m' hm' ?_
  rw [e', e, ← hid]; rfl

/-- The subscription made by a callback attached to a new store. -/
theorem attach_made {sv : Service σ C} {b : σ} {s₁ s₂ s₃ : State σ C} {i : Nat} {ns m : Str}
    {a : List Json} (hr : Reachable sv b s₁)
    (h : step sv s₁ (.client i (.subscribe ns m a)) = some s₂)
    (h' : step sv s₂ (.client i (.attach (s₂.clients i).reqId)) = some s₃)
    (hn : (s₂.clients i).calls.length ≤ 2 ^ 53) :
    Made sv b i (s₂.clients i).nsub .callback (lastMessage s₂ i ns m a) s₃ := by
  have hr2 := hr.step h
  have hr3 := hr2.step h'
  obtain ⟨hst, _⟩ := client_step h
  obtain ⟨hst', _⟩ := client_step h'
  simp only [Client.step, Option.some.injEq] at hst
  simp only [Client.step] at hst'
  split at hst'
  · simp only [Option.some.injEq] at hst'
    have hcalls : (s₂.clients i).calls = (s₁.clients i).calls ++ [lastMessage s₂ i ns m a] := by
      unfold lastMessage
      rw [← hst]; unfold Client.State.subscribe
      simp [Client.State.issue, Client.State.newMsg]
    have hid : (s₂.clients i).reqId = Client.jsInc (s₁.clients i).reqId := by
      rw [← hst]; unfold Client.State.subscribe
      simp [Client.State.issue, Client.State.newMsg]
    have hrec : (s₂.clients i).received = (s₁.clients i).received := by
      rw [← hst]; unfold Client.State.subscribe
      simp [Client.State.issue]
    have hcalls3 : (s₃.clients i).calls = (s₂.clients i).calls := by
      rw [← hst']; simp [Client.State.addSub]
    have hrec3 : (s₃.clients i).received = (s₂.clients i).received := by
      rw [← hst']; simp [Client.State.addSub]
    have hsub : (s₃.clients i).subs (s₂.clients i).nsub = ⟨.callback, (s₂.clients i).reqId, [],
      (s₂.clients i).doneCount, none⟩ := by
      rw [← hst']
      simp [Client.State.addSub]
    have hnsub : (s₂.clients i).nsub < (s₃.clients i).nsub := by
      rw [← hst']; simp [Client.State.addSub]
    refine ⟨hr3, hnsub, by rw [hsub], by rw [hsub]; rfl, by rw [hcalls3, hcalls]; simp, ?_⟩
    intro p hp e
    rw [hrec3, hrec] at hp
    obtain ⟨m', hm', e'⟩ := received_call hr (List.mem_of_mem_take hp)
    refine new_id (hr.client i) (by rw [hcalls] at hn; simp at hn; omega) m' hm' ?_
    rw [e', e, ← hid]; rfl
  · cases hst'

theorem dataOf_take_old {id n : Nat} {l : List (Nat × Json)} (h : ∀ p ∈ l.take n, p.1 ≠ id) :
    ClientSpec.dataOf id (l.drop n) = ClientSpec.dataOf id l := by
  have : ClientSpec.dataOf id (l.take n) = [] := by
    unfold ClientSpec.dataOf
    rw [List.map_eq_nil_iff, List.filter_eq_nil_iff]
    intro p hp; simp [h p hp]
  rw [← List.take_append_drop n l, Client.dataOf_append, this, List.nil_append,
    List.take_append_drop]

/-- What is due to the subscription of a call is an initial part of what was received for it. -/
theorem Made.due {sv : Service σ C} {b : σ} {i j : Nat} {kind : Client.Kind} {msg : Client.Msg}
    {s : State σ C} (h : Made sv b i j kind msg s) :
    Client.due (s.clients i) j <+: ClientSpec.dataOf msg.id (s.clients i).received ∧
    ((s.clients i).phase = .idle → ((s.clients i).subs j).until_ = none →
      Client.due (s.clients i) j = ClientSpec.dataOf msg.id (s.clients i).received) := by
  unfold Client.due Client.window
  rw [h.id, ← dataOf_take_old h.old]
  constructor
  · rw [List.drop_take]
    unfold ClientSpec.dataOf
    exact ((List.take_prefix _ _).filter _).map _
  · intro hp hu
    unfold Client.visible Client.State.seenCount
    rw [hu, hp]
    simp

/-- A request resolves with the first data received for it. -/
theorem Made.got {sv : Service σ C} {b : σ} {i j : Nat} {msg : Client.Msg}
    {s : State σ C} (h : Made sv b i j .request msg s) (hn : (s.clients i).calls.length ≤ 2 ^ 53) :
    ((s.clients i).subs j).got <+: (ClientSpec.dataOf msg.id (s.clients i).received).take 1 ∧
    ((s.clients i).phase = .idle → ((s.clients i).subs j).got =
      (ClientSpec.dataOf msg.id (s.clients i).received).take 1) := by
  have hr := h.reach.client i
  have hlen : (s.clients i).issued.length ≤ 2 ^ 53 := by rw [issued_length hr]; exact hn
  have hg := Client.inv_req hr (Client.issued_nodup hr hlen) j h.lt h.kind
  unfold Client.gotRight at hg
  rw [h.kind] at hg
  simp only at hg
  have hpre : ((s.clients i).subs j).got <+:
      (ClientSpec.dataOf msg.id (s.clients i).received).take 1 := by
    rw [hg]
    obtain ⟨r, hr⟩ := h.due.1
    rw [← hr, List.take_append]
    exact List.prefix_append _ _
  refine ⟨hpre, fun hp => ?_⟩
  cases hu : ((s.clients i).subs j).until_ with
  | none => rw [hg, h.due.2 hp hu]
  | some n =>
    have hne := (Client.inv_live hr).kept j h.lt h.kind (by rw [hu]; simp)
    refine hpre.eq_of_length_le ?_
    have : ((s.clients i).subs j).got.length ≠ 0 := by simpa using hne
    have := List.length_take_le 1 (ClientSpec.dataOf msg.id (s.clients i).received)
    omega

/-- What a subscription for the id of a call has been given. -/
theorem call_source {sv : Service σ C} {b : σ} {i j : Nat} {msg : Client.Msg} {s : State σ C} (hr : Reachable sv b s)
    (hlt : j < (s.clients i).nsub) (hid : ((s.clients i).subs j).id = msg.id) (hcall : msg ∈ (s.clients i).calls)
    (hn : (s.clients i).calls.length ≤ 2 ^ 53) {d : Json} (hd : d ∈ ((s.clients i).subs j).got) :
    ∃ c k, s.owner c = some (i, k) ∧ msg ∈ sentOn (s.clients i) k ∧ ∃ l₁ l₂,
      s.server.log = l₁ ++ (c, requestOf msg.id msg.ns msg.method msg.args) :: l₂ ∧
      (Returns sv (replay sv b l₁) (requestOf msg.id msg.ns msg.method msg.args) d ∨
       ∃ items n, Streams sv (replay sv b l₁) (requestOf msg.id msg.ns msg.method msg.args) items ∧
         items n = some (.ok d)) := by
  obtain ⟨c, k, m, ho, hm, e, hx⟩ := got_logged hr hlt hd
  have hm' := sent_calls (hr.client i) (sentOn_sent.1 hm)
  have := call_unique (hr.client i) hn hm' hcall (by rw [e, hid])
  subst this
  exact ⟨c, k, ho, hm, hx⟩

/-- What a resolved request has resolved with. -/
theorem Made.source {sv : Service σ C} {b : σ} {i j : Nat} {kind : Client.Kind} {msg : Client.Msg}
    {s : State σ C} (h : Made sv b i j kind msg s) (hn : (s.clients i).calls.length ≤ 2 ^ 53)
    {d : Json} (hd : d ∈ ((s.clients i).subs j).got) :
    ∃ c k, s.owner c = some (i, k) ∧ msg ∈ sentOn (s.clients i) k ∧ ∃ l₁ l₂,
      s.server.log = l₁ ++ (c, requestOf msg.id msg.ns msg.method msg.args) :: l₂ ∧
      (Returns sv (replay sv b l₁) (requestOf msg.id msg.ns msg.method msg.args) d ∨
       ∃ items n, Streams sv (replay sv b l₁) (requestOf msg.id msg.ns msg.method msg.args) items ∧
         items n = some (.ok d)) := by
  exact call_source h.reach h.lt h.id h.call hn hd

theorem returns_unique {sv : Service σ C} {st : σ} {inp : Server.Input} {d d' : Json}
    (h : Returns sv st inp d) (h' : Returns sv st inp d') : d = d' := by
  obtain ⟨id, v, call, rfl, hd, hs, hrun⟩ := h
  obtain ⟨id', v', call', e, hd', hs', hrun'⟩ := h'
  cases e
  rw [hd] at hd'; cases hd'
  rw [hrun] at hrun'; cases hrun'; rfl

theorem returns_not_streams {sv : Service σ C} {st : σ} {inp : Server.Input} {d : Json}
    {items : Nat → Option (Except SerdeErr Json)}
    (h : Returns sv st inp d) (h' : Streams sv st inp items) : False := by
  obtain ⟨id, v, call, rfl, hd, hs, hrun⟩ := h
  obtain ⟨id', v', call', e, hd', hs', hrun'⟩ := h'
  cases e
  rw [hd] at hd'; cases hd'
  rw [hs] at hs'; cases hs'

/-! ## Everything done -/

/-- A delivered message has been executed when the server is idle. -/
theorem quiet_logged {sv : Service σ C} {b : σ} {s : State σ C} (hr : Reachable sv b s)
    {c i k : Nat} (ho : s.owner c = some (i, k)) (hq : Quiet s i c) {m : Client.Msg}
    (hm : m ∈ sentOn (s.clients i) k) :
    ∃ l₁ l₂, s.server.log = l₁ ++ (c, requestOf m.id m.ns m.method m.args) :: l₂ := by
  have hla : LoopAlive s.server := by unfold LoopAlive; rw [hq.idle]; trivial
  have hacc := (inv_up hr c i k ho).all hla
  rw [hq.up k ho, List.take_length] at hacc
  have hmem : requestOf m.id m.ns m.method m.args ∈ acceptedOn s.server c := by
    rw [hacc]
    refine List.mem_map.2 ⟨m, hm, ?_⟩
    exact msgInput_eq (call_id_le (hr.client i) (sent_calls (hr.client i) (sentOn_sent.1 hm)))
  unfold acceptedOn at hmem
  obtain ⟨⟨c', inp⟩, hp, e⟩ := List.mem_map.1 hmem
  obtain ⟨hp', hc⟩ := List.mem_filter.1 hp
  simp only [beq_iff_eq] at hc e
  have := (Server.inv_queue hr.server).1 hla
  rw [this, hq.queue] at hp'
  simp only [inflight, hq.idle, List.append_nil] at hp'
  rw [← hc, ← e]
  exact List.append_of_mem hp'

/-- What a client has received for a message when everything is done. -/
theorem quiet_received {sv : Service σ C} {b : σ} {s : State σ C} (hr : Reachable sv b s)
    {c i k : Nat} (ho : s.owner c = some (i, k)) (hq : Quiet s i c)
    (ha : (s.server.conns c).alive = true) (hn : (s.clients i).calls.length ≤ 2 ^ 53)
    {m : Client.Msg} (hm : m ∈ sentOn (s.clients i) k) :
    ClientSpec.dataOf m.id (s.clients i).received =
      (dataFor m.id ((s.server.conns c).produced.map (·.2))).map (·.2) := by
  have h1 := (inv_down hr c i k ho).recv hn m hm
  rw [hq.down, List.take_length] at h1
  have h2 := (Server.inv_chan hr.server c).1 ha
  rw [hq.chan, List.append_nil] at h2
  unfold ClientSpec.dataOf dataFor
  rw [h1, h2]

/-- The request has been executed, and has resolved if it returned something. -/
theorem Made.quiet {sv : Service σ C} {b : σ} {i j : Nat} {msg : Client.Msg}
    {s : State σ C} (h : Made sv b i j .request msg s) (hn : (s.clients i).calls.length ≤ 2 ^ 53)
    {c k : Nat} (ho : s.owner c = some (i, k)) (hm : msg ∈ sentOn (s.clients i) k)
    (hq : Quiet s i c)
    (ha : ((s.clients i).subs j).got = [] → (s.server.conns c).alive = true) :
    ∃ l₁ l₂, s.server.log = l₁ ++ (c, requestOf msg.id msg.ns msg.method msg.args) :: l₂ ∧
      ∀ d, Returns sv (replay sv b l₁) (requestOf msg.id msg.ns msg.method msg.args) d →
        ((s.clients i).subs j).got = [d] := by
  obtain ⟨l₁, l₂, hl⟩ := quiet_logged h.reach ho hq hm
  refine ⟨l₁, l₂, hl, fun d hd => ?_⟩
  cases hg : ((s.clients i).subs j).got with
  | nil =>
    have ha := ha hg
    have h1 := answers_direct h.reach ho hn hm hl hd ha
    have h2 := quiet_received h.reach ho hq ha hn hm
    have h3 := (h.got hn).2 hq.phase
    rw [h2, h1, hg] at h3
    cases h3
  | cons d' t =>
    have hle := (h.got hn).1.length_le
    have : t = [] := by
      have := List.length_take_le 1 (ClientSpec.dataOf msg.id (s.clients i).received)
      rw [hg] at hle
      simp only [List.length_cons] at hle
      exact List.eq_nil_of_length_eq_zero (by omega)
    subst this
    obtain ⟨c', k', ho', hm', l₁', l₂', hl', hres⟩ := h.source hn (d := d') (by rw [hg]; simp)
    obtain ⟨rfl, rfl, rfl⟩ := log_unique h.reach hn ho ho' hl hl'
    rcases hres with hres | ⟨items, n, hs, _⟩
    · rw [returns_unique hd hres]
    · exact absurd hs (fun hs => returns_not_streams hd hs)

/-! ## Dead connections -/

theorem server_frozen {sv : Service σ C} {x y : Server.State σ C} {l : Server.Label}
    (h : Server.step sv x l = some y) {c : Nat} (hc : c < x.nconn)
    (ha : (x.conns c).alive = false) : y.conns c = x.conns c := by
  have hset : ∀ c' z, (c' = c → z = x.conns c) → Server.upd x.conns c' z c = x.conns c := by
    intro c' z hz
    by_cases e : c = c'
    · subst e; rw [Server.upd_self]; exact hz rfl
    · rw [Server.upd_ne _ _ e]
  have hsend : ∀ c' f r, c' = c → ((x.conns c').send f r).1 = x.conns c := by
    rintro c' f r rfl
    unfold Server.Conn.send
    rw [ha]; rfl
  have hlive : ∀ c' z, (x.conns c').alive = true → c' = c → z = x.conns c := by
    rintro c' z h rfl; rw [ha] at h; cases h
  cases Server.step_Step h <;> first
    | rfl
    | exact hset _ _ (hsend _ _ _)
    | exact hset _ _ (hlive _ _ ‹_›)
    | skip
  case connect => exact hset _ _ (fun e => by omega)

end Verif.System
