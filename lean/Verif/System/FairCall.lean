import Verif.System.FairStages

/-!
# Fair executions: requests resolve (proof helpers)
-/

namespace Verif.System
open Verif Verif.ServerSpec Verif.SystemSpec

variable {σ C : Type} {sv : Service σ C} {b : σ} {st : Nat → State σ C} {lab : Nat → Option Label}

theorem Good.made (G : Good sv b st lab) {i j n m : Nat} {kind : Client.Kind} {msg : Client.Msg}
    (hM : Made sv b i j kind msg (st n)) (h : n ≤ m) : Made sv b i j kind msg (st m) := by
  obtain ⟨ls, hls⟩ := G.ex.later h
  exact hM.later hls

/-- A pending request keeps its subscription. -/
theorem Good.pending (G : Good sv b st lab) {i j n m : Nat} {msg : Client.Msg}
    (hM : Made sv b i j .request msg (st n)) (h : n ≤ m)
    (hg : (((st m).clients i).subs j).got = []) : j ∈ ((st m).clients i).live := by
  have hM' := G.made hM h
  have hL := Client.inv_live ((G.ex.reach m).client i)
  rw [hL.mem]
  refine ⟨hM'.lt, ?_⟩
  cases hu : (((st m).clients i).subs j).until_ with
  | none => rfl
  | some x => exact absurd hg (hL.kept j hM'.lt hM'.kind (by rw [hu]; simp))

/-- A request that has been transmitted on a socket that stays as long as it is pending gets
resolved, if its method returns something. -/
theorem Good.resolves (G : Good sv b st lab) {i j k n : Nat} (F : Fair sv st lab i)
    {msg : Client.Msg} (hM : Made sv b i j .request msg (st n))
    (hs : (k, msg) ∈ ((st n).clients i).sent)
    (H : (∀ m, n ≤ m → (((st m).clients i).subs j).got = []) →
      ∀ m, n ≤ m → ((st m).clients i).socket = some k) :
    ∃ m, n ≤ m ∧ ∃ c l₁ l₂, (st m).server.log =
        l₁ ++ (c, requestOf msg.id msg.ns msg.method msg.args) :: l₂ ∧
      ∀ d, Returns sv (replay sv b l₁) (requestOf msg.id msg.ns msg.method msg.args) d →
        (((st m).clients i).subs j).got = [d] := by
  have hsent : ∀ m, n ≤ m → (k, msg) ∈ ((st m).clients i).sent := fun m hm =>
    (G.sent i hm).subset hs
  obtain ⟨c, ho⟩ := sent_owner (G.ex.reach n) hs
  by_cases hg : ∀ m, n ≤ m → (((st m).clients i).subs j).got = []
  · have H := H hg
    obtain ⟨m1, h1, l₁, l₂, hl⟩ := G.executed F H ho (sentOn_sent.2 hs)
    refine ⟨m1, h1, c, l₁, l₂, hl, fun d hd => ?_⟩
    exfalso
    have hopen : ∀ m, m1 ≤ m → (((st m).clients i).socks k).st = .opened := by
      intro m hm
      have hc := Client.inv_conn ((G.ex.reach m).client i)
      rcases G.socket (H m (by omega)) with h | h
      · have := sent_wasOpen ((G.ex.reach m).client i) k msg (hsent m (by omega))
        rw [hc.connecting k h] at this; cases this
      · exact h
    have ho1 := G.ex.owner h1 ho
    obtain ⟨m2, h2, hp, hpre⟩ := G.arrives F (fun m hm => H m (by omega)) ho1 hopen
    have ha := answers_direct (G.ex.reach m1) ho1 (G.peace.calls m1 i)
      (sentOn_sent.2 (hsent m1 h1)) hl hd (G.alive F H h1 ho1)
    have hmem : (msg.id, d) ∈ ((st m2).clients i).received := by
      have hrec := (inv_down (G.ex.reach m2) c i k (G.ex.owner h2 ho1)).recv (G.peace.calls m2 i) msg
        (sentOn_sent.2 (hsent m2 (by omega)))
      have : (msg.id, d) ∈ dataFor msg.id
          (((st m2).server.conns c).written.take ((st m2).down c)) := by
        obtain ⟨r, hr⟩ := hpre
        rw [← hr, dataFor_append, ha]; simp
      unfold dataFor at this
      rw [← hrec] at this
      exact (List.mem_filter.1 this).1
    have hgot := ((G.made hM (m := m2) (by omega)).got (G.peace.calls m2 i)).2 hp
    rw [hg m2 (by omega)] at hgot
    have hne : d ∈ ClientSpec.dataOf msg.id ((st m2).clients i).received :=
      List.mem_map.2 ⟨_, List.mem_filter.2 ⟨hmem, by simp⟩, rfl⟩
    cases hx : ClientSpec.dataOf msg.id ((st m2).clients i).received with
    | nil => rw [hx] at hne; cases hne
    | cons y ys => rw [hx] at hgot; cases hgot
  · obtain ⟨m, hm⟩ := Classical.not_forall.1 hg
    obtain ⟨hm, hne⟩ := Classical.not_imp.1 hm
    obtain ⟨l₁, l₂, hl, hd⟩ := (G.made hM hm).resolved (G.peace.calls m i) (G.ex.owner hm ho)
      (sentOn_sent.2 (hsent m hm)) hne
    exact ⟨m, hm, c, l₁, l₂, hl, hd⟩

/-- Requests transmitted some time get resolved. -/
theorem Good.resolves_sent (G : Good sv b st lab) {i j k n : Nat} (F : Fair sv st lab i)
    {msg : Client.Msg} (hM : Made sv b i j .request msg (st n))
    (hs : (k, msg) ∈ ((st n).clients i).sent) :
    ∃ m, n ≤ m ∧ ∃ c l₁ l₂, (st m).server.log =
        l₁ ++ (c, requestOf msg.id msg.ns msg.method msg.args) :: l₂ ∧
      ∀ d, Returns sv (replay sv b l₁) (requestOf msg.id msg.ns msg.method msg.args) d →
        (((st m).clients i).subs j).got = [d] := by
  refine G.resolves F hM hs (fun hg m hm => ?_)
  have hM' := G.made hM hm
  have hu := (((Client.inv_live ((G.ex.reach m).client i)).mem j).1 (G.pending hM hm (hg m hm))).2
  have := calm_protected (G.ex.run m) (G.strictTo m) i (G.peace.calls m i) j hM'.lt hM'.kind hu k msg
    ((G.sent i hm).subset hs) hM'.id.symm
  exact ((Client.inv_conn ((G.ex.reach m).client i)).live k).1 (.inr this)

/-- Requests made while there is a socket get resolved. -/
theorem Good.resolves_made (G : Good sv b st lab) {i n : Nat} (F : Fair sv st lab i)
    {ns m : Str} {a : List Json} (hl : lab n = some (.client i (.request ns m a)))
    (hs : hasSocket (st (n + 1)) i) :
    ∃ n', n < n' ∧ ∃ c l₁ l₂, (st n').server.log = l₁ ++ (c, lastRequest (st (n + 1)) i ns m a) :: l₂ ∧
      ∀ d, Returns sv (replay sv b l₁) (lastRequest (st (n + 1)) i ns m a) d →
        promise (st n) i (st n') = [d] := by
  have hst := G.ex.step hl
  have hM := request_made (G.ex.reach n) hst (G.peace.calls (n + 1) i)
  unfold hasSocket at hs
  cases hk : ((st (n + 1)).clients i).socket with
  | none => exact absurd hk hs
  | some k =>
  have hgo : (k, lastMessage (st (n + 1)) i ns m a) ∈ ((st (n + 1)).clients i).sent ∨
      lastMessage (st (n + 1)) i ns m a ∈ (((st (n + 1)).clients i).socks k).waiting := by
    obtain ⟨hc, _⟩ := client_step hst
    simp only [Client.step, Option.some.injEq] at hc
    have hz : Client.InvConn ((((st n).clients i).issue (((st n).clients i).newMsg ns m a)).addSub
        .request (((st n).clients i).newMsg ns m a).id) :=
      (Client.inv_conn ((G.ex.reach n).client i)).same rfl rfl rfl rfl rfl
    have hmsg : lastMessage (st (n + 1)) i ns m a = ((st n).clients i).newMsg ns m a := by
      unfold lastMessage
      rw [← hc]
      unfold Client.State.request
      simp [Client.State.issue]
      simp [Client.State.newMsg]
    rw [hmsg]
    rw [← hc] at hk ⊢
    exact openAndSend_goes hz (fun _ h => G.socket h) hk
  by_cases hg : ∀ m', n + 1 ≤ m' → (((st m').clients i).subs ((st n).clients i).nsub).got = []
  · have hK := G.keeps hk (fun m' hm' => G.pending hM hm' (hg m' hm'))
    obtain ⟨m', h', hsent⟩ := G.transmits F (fun m hm => (hK m hm).1)
      (msg := lastMessage (st (n + 1)) i ns m a) (fun m' hm' => by
        rcases hgo with hgo | hgo
        · exact .inr ((G.sent i hm').subset hgo)
        · exact (hK m' hm').2 _ hgo)
    obtain ⟨m2, h2, hres⟩ := G.resolves_sent F (G.made hM h') hsent
    exact ⟨m2, by omega, hres⟩
  · obtain ⟨m', hm⟩ := Classical.not_forall.1 hg
    obtain ⟨hm, hne⟩ := Classical.not_imp.1 hm
    have hM' := G.made hM hm
    obtain ⟨d, hd⟩ := List.exists_mem_of_ne_nil _ hne
    obtain ⟨c, k', ho, hsn, _⟩ := hM'.source (G.peace.calls m' i) hd
    obtain ⟨m2, h2, hres⟩ := G.resolves_sent F hM' (sentOn_sent.1 hsn)
    exact ⟨m2, by omega, hres⟩

end Verif.System
