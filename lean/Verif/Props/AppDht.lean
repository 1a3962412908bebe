import Verif.Spec.AppDht
import Verif.Props.DhtSockets
import Verif.Props.App

/-!
# What becomes of DHT lookups (C93)
-/

namespace Demag

open Spec

variable {hash : Nat → InfoHash} {lookup : Text → BitVec 16 → Option (List SockAddr)} {nodes : List InetAddr}

/-- The requests that wait at a client. -/
def DhtState.pending (a : DhtState) : List Nat := a.inbox.filterMap ActorMessage.request ++ a.actor.senders.map Prod.snd

theorem step_requests {my v6 des a dtr} (v : StInv my v6 des a dtr) (e : DhtEvent) {a' out} (hs : a.step lookup nodes e = some (a', out)) :
    (a.pending ++ submitted [e]).Perm (settled out ++ a'.pending) := by
  have h1 := v.requests
  have h2 := (v.step e hs).requests
  have h3 : submitted (des ++ [e]) = submitted des ++ submitted [e] := by simp [submitted]
  have h4 : settled (dtr ++ out) = settled dtr ++ settled out := by simp [settled]
  rw [h3, h4, List.append_assoc] at h2
  have h5 : (settled dtr ++ (a.pending ++ submitted [e])).Perm (settled dtr ++ (settled out ++ a'.pending)) := by
    rw [← List.append_assoc]
    exact (List.Perm.append_right _ h1.symm).trans h2
  exact (List.perm_append_left_iff _).1 h5

theorem endedTasks_effects (out : List DhtEffect) : endedTasks (out.map .effect) = settled out := by
  unfold endedTasks settled
  rw [List.filterMap_map]
  congr 1
  funext x
  cases x <;> rfl

/-- What holds at any time. -/
structure AppDhtInv (es : List AppDhtEvent) (s : AppDht) (out : List AppDhtOutput) : Prop where
  client : match s.client with
    | none => s.cell.cached = none
    | some a => s.cell.cached.isSome ∧ s.cell.holder = none ∧ ∃ my v6 des dtr, StInv my v6 des a dtr
  holder : ∀ t b, s.cell.holder = some (t, b) → b = false
  count : (lookupsBegun es).Perm (endedTasks out ++ lookupsAborted es ++ waitingTasks s)

theorem waiting_some (c : DhtCell) (a : DhtState) (h : c.holder = none) : waitingTasks ⟨c, some a⟩ = a.pending := by
  simp [waitingTasks, DhtState.pending, h]

theorem AppDhtInv.step {es s out} (v : AppDhtInv es s out) (e : AppDhtEvent) {s' o} (hs : s.step hash lookup nodes e = some (s', o)) :
    AppDhtInv (es ++ [e]) s' (out ++ o) := by
  have hb : ∀ e, lookupsBegun (es ++ [e]) = lookupsBegun es ++ lookupsBegun [e] := fun e => by simp [lookupsBegun]
  have ha : ∀ e, lookupsAborted (es ++ [e]) = lookupsAborted es ++ lookupsAborted [e] := fun e => by simp [lookupsAborted]
  have he : ∀ o, endedTasks (out ++ o) = endedTasks out ++ endedTasks o := fun o => by simp [endedTasks]
  obtain ⟨⟨holder, cached, spawned⟩, client⟩ := s
  obtain ⟨v1, v2, v3⟩ := v
  -- a step of the client while the mutex is free
  have go : ∀ (a a' : DhtState) (ev : DhtEvent) (eo : List DhtEffect) (c : DhtCell) (x : AppDhtEvent), client = some a → holder = none → c.holder = none →
      c.cached.isSome → a.step lookup nodes ev = some (a', eo) → lookupsBegun [x] = submitted [ev] → lookupsAborted [x] = [] →
      AppDhtInv (es ++ [x]) ⟨c, some a'⟩ (out ++ eo.map .effect) := by
    intro a a' ev eo c x hcl hho hc1 hc2 hst hx1 hx2
    subst hcl hho
    obtain ⟨-, -, my, v6, des, dtr, w⟩ := v1
    refine ⟨⟨hc2, hc1, my, v6, des ++ [ev], dtr ++ eo, w.step ev hst⟩, (fun t b h => by rw [hc1] at h; cases h), ?_⟩
    rw [hb, ha, he, endedTasks_effects, waiting_some c a' hc1, hx1, hx2]
    rw [waiting_some _ a rfl] at v3
    have h2 := step_requests w ev hst
    rw [List.perm_iff_count] at v3 h2 ⊢
    intro t
    have h3 := v3 t
    have h4 := h2 t
    simp only [List.count_append, List.append_nil] at h3 h4 ⊢
    omega
  cases e with
  | lock t =>
    simp only [AppDht.step, DhtCell.step] at hs
    cases holder with
    | some x => cases hs
    | none =>
      cases cached with
      | none =>
        cases client with
        | some a => exact absurd v1.1 (by simp)
        | none =>
          simp only [Option.some.injEq, Prod.mk.injEq] at hs
          obtain ⟨rfl, rfl⟩ := hs
          refine ⟨rfl, (fun t' b h => by cases h; rfl), ?_⟩
          rw [hb, ha, he]
          rw [List.perm_iff_count] at v3 ⊢
          intro t'
          have h3 := v3 t'
          simp only [List.count_append, waitingTasks, lookupsBegun, lookupsAborted, endedTasks, List.filterMap_cons, List.filterMap_nil, List.append_nil,
            List.count_nil] at h3 ⊢
          omega
      | some n =>
        cases client with
        | none => cases hs
        | some a =>
          simp only at hs
          cases hst : a.step lookup nodes (.submit (.lookup t (hash t))) with
          | none => rw [hst] at hs; cases hs
          | some r =>
            rw [hst] at hs
            cases hs
            exact go a r.1 _ r.2 _ (.lock t) rfl rfl rfl rfl hst rfl rfl
  | created t my bind4 bind6 =>
    simp only [AppDht.step] at hs
    cases hc : DhtState.create my bind4 bind6 with
    | none =>
      rw [hc] at hs
      simp only [DhtCell.step, Bool.false_eq_true, if_false] at hs
      split at hs
      · rename_i hh
        subst hh
        cases hs
        have hcl : client = none := by
          cases client with
          | none => rfl
          | some a => exact absurd v1.2.1 (by simp)
        subst hcl
        refine ⟨v1, (fun t' b h => by cases h), ?_⟩
        rw [hb, ha, he]
        rw [List.perm_iff_count] at v3 ⊢
        intro t'
        have h3 := v3 t'
        simp only [List.count_append, waitingTasks, lookupsBegun, lookupsAborted, endedTasks, lookupEnd, List.filterMap_cons, List.filterMap_nil, List.append_nil,
          List.count_nil] at h3 ⊢
        omega
      · cases hs
    | some a =>
      rw [hc] at hs
      simp only [DhtCell.step, if_true] at hs
      by_cases hh : holder = some (t, false)
      · subst hh
        rw [if_pos rfl] at hs
        simp only at hs
        have hcl : client = none := by
          cases client with
          | none => rfl
          | some a => exact absurd v1.2.1 (by simp)
        subst hcl
        cases hst : a.step lookup nodes (.submit (.lookup t (hash t))) with
        | none => rw [hst] at hs; cases hs
        | some r =>
          rw [hst] at hs
          cases hs
          obtain rfl := (Props.dht_created my bind4 bind6).2.1 a hc
          have w := StInv.run (lookup := lookup) (nodes := nodes) my (decide (bind6 ≠ .failed)) [] rfl
          have h2 := step_requests w _ hst
          refine ⟨⟨rfl, rfl, _, _, _, _, w.step _ hst⟩, (fun t' b h => by cases h), ?_⟩
          rw [hb, ha, he, endedTasks_effects, waiting_some _ _ rfl]
          rw [List.perm_iff_count] at v3 h2 ⊢
          intro t'
          have h3 := v3 t'
          have h4 := h2 t'
          have h5 : (DhtState.init my (decide (bind6 ≠ .failed))).pending = [] := rfl
          have h6 : submitted [DhtEvent.submit (.lookup t (hash t))] = [t] := rfl
          rw [h5, h6] at h4
          simp only [List.count_append, waitingTasks, lookupsBegun, lookupsAborted, List.filterMap_cons, List.filterMap_nil, List.append_nil, List.nil_append,
            List.count_nil] at h3 h4 ⊢
          omega
      · rw [if_neg hh] at hs
        cases hs
  | dropped t =>
    simp only [AppDht.step, DhtCell.step] at hs
    cases holder with
    | none => cases hs
    | some x =>
      obtain ⟨t', b⟩ := x
      simp only at hs
      split at hs
      · rename_i hh
        subst hh
        cases hs
        have hcl : client = none := by
          cases client with
          | none => rfl
          | some a => exact absurd v1.2.1 (by simp)
        subst hcl
        refine ⟨v1, (fun t' b h => by cases h), ?_⟩
        rw [hb, ha, he]
        rw [List.perm_iff_count] at v3 ⊢
        intro t''
        have h3 := v3 t''
        simp only [List.count_append, waitingTasks, lookupsBegun, lookupsAborted, endedTasks, List.filterMap_cons, List.filterMap_nil, List.append_nil,
          List.count_nil] at h3 ⊢
        omega
      · cases hs
  | client ev =>
    simp only [AppDht.step] at hs
    cases client with
    | none => cases hs
    | some a =>
      simp only at hs
      split at hs
      · cases hs
      · rename_i hsub
        cases hst : a.step lookup nodes ev with
        | none => rw [hst] at hs; cases hs
        | some r =>
          rw [hst] at hs
          cases hs
          have h0 : submitted [ev] = [] := by
            cases ev with
            | submit m => exact absurd rfl hsub
            | _ => rfl
          exact go a r.1 _ r.2 _ (.client ev) rfl v1.2.1 v1.2.1 v1.1 hst (by rw [h0]; rfl) rfl

theorem AppDht.run_snoc (s : AppDht) (es : List AppDhtEvent) (e : AppDhtEvent) : ∀ {s2 out}, s.run hash lookup nodes (es ++ [e]) = some (s2, out) →
    ∃ s1 o1 o2, s.run hash lookup nodes es = some (s1, o1) ∧ s1.step hash lookup nodes e = some (s2, o2) ∧ out = o1 ++ o2 := by
  induction es generalizing s with
  | nil =>
    intro s2 out h
    simp only [List.nil_append, AppDht.run] at h
    cases hs : s.step hash lookup nodes e with
    | none => rw [hs] at h; cases h
    | some r =>
      rw [hs] at h
      cases h
      exact ⟨s, [], r.2, rfl, hs, by simp⟩
  | cons x es ih =>
    intro s2 out h
    simp only [List.cons_append, AppDht.run] at h ⊢
    cases hs : s.step hash lookup nodes x with
    | none => rw [hs] at h; cases h
    | some r =>
      obtain ⟨s', o⟩ := r
      rw [hs] at h
      simp only at h ⊢
      cases hr : s'.run hash lookup nodes (es ++ [e]) with
      | none => rw [hr] at h; cases h
      | some r' =>
        obtain ⟨s'', o'⟩ := r'
        rw [hr] at h
        cases h
        obtain ⟨s1, o1, o2, h1, h2, rfl⟩ := ih s' hr
        exact ⟨s1, o ++ o1, o2, by rw [h1], h2, by simp⟩

theorem AppDhtInv.run (es : List AppDhtEvent) {s out} (h : AppDht.start.run hash lookup nodes es = some (s, out)) : AppDhtInv es s out := by
  induction es using List.reverseRecOn generalizing s out with
  | nil =>
    cases h
    exact ⟨rfl, (fun t b h => by cases h), List.Perm.refl _⟩
  | append_singleton es e ih =>
    obtain ⟨s1, o1, o2, h1, h2, rfl⟩ := AppDht.run_snoc _ es e h
    exact (ih h1).step e h2

end Demag

namespace Demag.Props

open Demag Spec

variable {hash : Nat → InfoHash} {lookup : Text → BitVec 16 → Option (List SockAddr)} {nodes : List InetAddr}

/-- **C93.** In every history, each lookup that began ended once, was aborted, or waits: none is forgotten, and none ends twice. -/
theorem lookups_conserved (es : List AppDhtEvent) (s : AppDht) (out : List AppDhtOutput)
    (h : AppDht.start.run hash lookup nodes es = some (s, out)) :
    (lookupsBegun es).Perm (endedTasks out ++ lookupsAborted es ++ waitingTasks s) :=
  (AppDhtInv.run es h).count

/-- **C93.** A client that could not be created harms only the lookup that tried: the program is then as before, so the next lookup tries
anew, and gets a client if there is a socket. -/
theorem create_retried (es : List AppDhtEvent) (s : AppDht) (out : List AppDhtOutput) (h : AppDht.start.run hash lookup nodes es = some (s, out))
    (hn : s.client = none) (hm : s.cell.holder = none) (t : Nat) (my : NodeId) (bind6 : BindResult) :
    (s.run hash lookup nodes [.lock t, .created t my .failed bind6] = some (s, [.failed t])) ∧
    (∀ port, ∃ s', s.run hash lookup nodes [.lock t, .created t my (.bound port) bind6] = some (s', []) ∧ t ∈ waitingTasks s' ∧
      ∃ a, s'.client = some a ∧ a.phase = .starting ∧ a.inbox = [.lookup t (hash t)]) := by
  have v := AppDhtInv.run es h
  obtain ⟨⟨holder, cached, spawned⟩, client⟩ := s
  simp only at hn hm
  subst hn hm
  have hc : cached = none := v.client
  subst hc
  refine ⟨by simp [AppDht.run, AppDht.step, DhtCell.step, DhtState.create, UdpHandle.new], fun port => ?_⟩
  cases bind6 <;>
    simp [AppDht.run, AppDht.step, DhtCell.step, DhtState.create, UdpHandle.new, DhtState.step, DhtState.init, waitingTasks, ActorMessage.request]

/-- **C93.** A client that found no address of any bootstrap node ends, and all lookups that wait for it fail. -/
theorem unresolved_fails (es : List AppDhtEvent) (s : AppDht) (out : List AppDhtOutput) (h : AppDht.start.run hash lookup nodes es = some (s, out))
    (a : DhtState) (ha : s.client = some a) (hp : a.phase = .starting) (hl : ∀ n ∈ nodes, InetAddr.resolve lookup a.actor.usingIpv6 n = none) :
    ∃ s', s.step hash lookup nodes (.client (.resolved [])) = some (s', (waitingTasks s).map fun t => .effect (.down t)) ∧ clientDown s' ∧
      waitingTasks s' = [] := by
  have v := AppDhtInv.run es h
  obtain ⟨c, cl⟩ := s
  simp only at ha
  subst ha
  obtain ⟨v1, v2, my, v6, des, dtr, w⟩ := v.client
  have hs : a.actor.senders = [] := by
    have := w.act.keys
    rw [(w.starting hp).2.1] at this
    simpa using this
  have hf : nodes.filterMap (InetAddr.resolve lookup a.actor.usingIpv6) = [] := by
    rw [List.filterMap_eq_nil_iff]
    exact hl
  refine ⟨⟨c, some (a.stop a.inbox).1⟩, ?_, ⟨v2, v1, _, rfl, rfl⟩, ?_⟩
  · simp only [AppDht.step, DhtEvent.isSubmit, Bool.false_eq_true, if_false, DhtState.step, hp, hf, true_and]
    rw [if_pos (by decide)]
    simp only [if_true, Option.map_some, DhtState.stop, hs, List.map_nil, List.nil_append, List.map_map]
    rw [show waitingTasks ⟨c, some a⟩ = a.pending from waiting_some c a v2]
    unfold DhtState.pending
    rw [hs]
    simp [Function.comp_def]
  · rw [waiting_some _ _ v2]
    rfl

/-- **C93.** When the client is down, every lookup fails at once, for ever: it is not started again, whatever happens and even if all names can
be resolved now. -/
theorem down_for_ever (lookup' : Text → BitVec 16 → Option (List SockAddr)) (nodes' : List InetAddr) (es : List AppDhtEvent) :
    ∀ (s s' : AppDht) (out : List AppDhtOutput), clientDown s → s.run hash lookup' nodes' es = some (s', out) →
      clientDown s' ∧ out = (lookupsBegun es).map fun t => .effect (.down t) := by
  induction es with
  | nil =>
    intro s s' out hd h
    cases h
    exact ⟨hd, rfl⟩
  | cons e es ih =>
    intro s s' out hd h
    unfold AppDht.run at h
    cases hs : s.step hash lookup' nodes' e with
    | none => rw [hs] at h; cases h
    | some r =>
      obtain ⟨s1, o⟩ := r
      rw [hs] at h
      simp only at h
      cases hr : s1.run hash lookup' nodes' es with
      | none => rw [hr] at h; cases h
      | some r' =>
        obtain ⟨s2, o'⟩ := r'
        rw [hr] at h
        cases h
        have key : clientDown s1 ∧ o = (lookupsBegun [e]).map fun t => .effect (.down t) := by
          obtain ⟨⟨holder, cached, spawned⟩, cl⟩ := s
          obtain ⟨h1, h2, a, h3, h4⟩ := hd
          simp only at h1 h2 h3
          subst h1 h3
          obtain ⟨n, rfl⟩ := Option.isSome_iff_exists.1 h2
          cases e with
          | lock t =>
            simp only [AppDht.step, DhtCell.step, DhtState.step, h4] at hs
            cases hs
            exact ⟨⟨rfl, rfl, a, rfl, h4⟩, rfl⟩
          | created t my bind4 bind6 =>
            simp only [AppDht.step, DhtCell.step] at hs
            split at hs <;> simp at hs
          | dropped t => simp [AppDht.step, DhtCell.step] at hs
          | client ev =>
            simp only [AppDht.step] at hs
            cases ev <;> simp [DhtEvent.isSubmit, DhtState.step, h4] at hs
        obtain ⟨k1, rfl⟩ := key
        obtain ⟨k2, rfl⟩ := ih s1 _ o' k1 hr
        refine ⟨k2, ?_⟩
        rw [← List.map_append, show lookupsBegun (e :: es) = lookupsBegun [e] ++ lookupsBegun es by simp [lookupsBegun, List.filterMap_cons]; cases e <;> rfl]

/-! Concrete cases. -/

/-- The first lookup cannot create a client, the second can; its client resolves no name; then there is a third. -/
def exDown : List AppDhtEvent :=
  [.lock 1, .created 1 ⟨List.replicate 20 0, by decide⟩ .failed .failed, .lock 2, .created 2 ⟨List.replicate 20 0, by decide⟩ (.bound none) .failed,
   .client (.resolved []), .lock 3]

theorem exDown_run : (AppDht.start.run (fun _ => ⟨List.replicate 20 0, by decide⟩) (fun _ _ => none) [⟨.domain "a".toList, 1⟩] exDown).map Prod.snd =
    some [.failed 1, .effect (.down 2), .effect (.down 3)] := by decide +kernel

/-- The name can be resolved, and the bootstrap node knows a peer. -/
def exUp : List AppDhtEvent :=
  [.lock 1, .created 1 ⟨List.replicate 20 0, by decide⟩ (.bound none) .failed, .client (.resolved [bootAddr]), .client (.receive fun _ _ => true),
   .lock 2, .client (.packet bootAddr (responseWith 0 "0" []) [0] fun _ _ => true)]

theorem exUp_run : (AppDht.start.run (fun _ => ⟨List.replicate 20 0, by decide⟩) (fun _ _ => some [bootAddr]) [⟨.domain "a".toList, 1⟩] exUp).map
    (fun r => (endedTasks r.2, waitingTasks r.1)) = some ([1], [2]) := by decide +kernel

end Demag.Props
