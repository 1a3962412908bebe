import Verif.Spec.DhtAlone
import Verif.Props.DhtLookup

/-!
# C102: DHT lookups do not get in each other's way
-/

namespace Demag

open Spec

variable {lookup : Text → BitVec 16 → Option (List SockAddr)} {nodes : List InetAddr}

/-! ### Requests and their lookups -/

theorem startedFor_append (t u : List DhtEffect) : startedFor (t ++ u) = startedFor t ++ startedFor u := List.filterMap_append ..

theorem startedFor_none (u : List DhtEffect) (h : ∀ e ∈ u, startRequest e = none) : startedFor u = [] := by
  unfold startedFor
  rw [List.filterMap_eq_nil_iff]
  exact h

theorem startRequest_sends {e : DhtEffect} (h : sendsOrAnswers e) : startRequest e = none := by
  cases e <;> first | rfl | exact h.elim

theorem startRequest_stop (l : HMap Nat Nat) (m : List Nat) : ∀ e ∈ (l.map fun e => DhtEffect.down e.2) ++ m.map DhtEffect.down, startRequest e = none := by
  intro e he
  rcases List.mem_append.1 he with he | he
  · obtain ⟨x, -, rfl⟩ := List.mem_map.1 he; rfl
  · obtain ⟨x, -, rfl⟩ := List.mem_map.1 he; rfl

/-- One event: a lookup is started for a request that was in the channel. -/
theorem starts_step {my v6 es st tr} (v : StInv my v6 es st tr) (e : DhtEvent) {st' out} (hs : st.step lookup nodes e = some (st', out))
    (h : (startedFor tr ++ st.inbox.filterMap ActorMessage.request).Subperm (submitted es)) :
    (startedFor (tr ++ out) ++ st'.inbox.filterMap ActorMessage.request).Subperm (submitted (es ++ [e])) := by
  have hin : (startedFor tr).Subperm (submitted es) := (List.sublist_append_left _ _).subperm.trans h
  have hmono : (submitted es).Subperm (submitted (es ++ [e])) := by
    rw [submitted_snoc]; exact (List.sublist_append_left _ _).subperm
  have hquiet : (∀ x ∈ out, startRequest x = none) → st'.inbox = st.inbox →
      (startedFor (tr ++ out) ++ st'.inbox.filterMap ActorMessage.request).Subperm (submitted (es ++ [e])) := by
    intro h1 h2
    rw [startedFor_append, startedFor_none out h1, List.append_nil, h2]
    exact h.trans hmono
  have hdone : (∀ x ∈ out, startRequest x = none) → st'.inbox = [] →
      (startedFor (tr ++ out) ++ st'.inbox.filterMap ActorMessage.request).Subperm (submitted (es ++ [e])) := by
    intro h1 h2
    rw [startedFor_append, startedFor_none out h1, List.append_nil, h2]
    simpa using hin.trans hmono
  cases e with
  | submit m =>
    simp only [DhtState.step] at hs
    split at hs
    · cases hs
      refine hquiet ?_ rfl
      intro x hx
      cases hm : m.request with
      | none => rw [hm] at hx; simp at hx
      | some r =>
        rw [hm] at hx
        simp at hx
        subst hx
        rfl
    · cases hs
      rw [List.append_nil, submitted_snoc, List.filterMap_append, ← List.append_assoc]
      have : List.filterMap ActorMessage.request [m] = (submittedOf (.submit m)).toList := by
        simp only [submittedOf]
        cases hm : m.request <;> simp [hm]
      rw [this]
      exact h.append (List.Subperm.refl _)
  | resolved addrs =>
    simp only [DhtState.step] at hs
    split at hs
    · split at hs
      · cases hs
        exact hdone (startRequest_stop _ _) rfl
      · cases hs
        exact hquiet (by simp) rfl
    · cases hs
  | receive udp =>
    simp only [DhtState.step] at hs
    split at hs
    · rename_i b req hash inbox hph hib
      cases hs
      obtain ⟨rest, h1, h2⟩ := lookup_effects st.actor b udp req hash
      rw [hib] at h
      rw [startedFor_append, h1]
      have : startedFor (DhtEffect.started st.actor.nextSid req hash :: rest) = [req] := by
        have := startedFor_none rest fun e he => startRequest_sends (h2 e he)
        unfold startedFor at this ⊢
        rw [List.filterMap_cons]
        simp [startRequest, this]
      rw [this]
      have hh : (startedFor tr ++ List.filterMap ActorMessage.request (ActorMessage.lookup req hash :: inbox)) =
          (startedFor tr ++ [req]) ++ inbox.filterMap ActorMessage.request := by
        simp [ActorMessage.request]
      rw [hh] at h
      exact h.trans hmono
    · cases hs
      exact hdone (startRequest_stop _ _) rfl
    · cases hs
  | packet addr msg order udp =>
    simp only [DhtState.step] at hs
    split at hs
    · split at hs
      · cases hs
        refine hquiet ?_ rfl
        rcases message_effects st.actor v.act.nodup order udp addr msg with ⟨h1, -⟩ | ⟨p, sid, s, rest, -, -, -, -, h5, h6⟩
        · rw [h1]; simp
        · rw [h5]
          intro x hx
          rcases List.mem_cons.1 hx with rfl | hx
          · rfl
          · exact startRequest_sends (h6 x hx)
      · cases hs
    · cases hs
  | recvError =>
    simp only [DhtState.step] at hs
    split at hs
    · cases hs
      exact hquiet (by simp) rfl
    · cases hs
  | timer addr txn order =>
    simp only [DhtState.step] at hs
    split at hs
    · split at hs
      · cases hs
        refine hquiet ?_ rfl
        rcases timer_effects st.actor v.act.nodup order addr txn with h1 | ⟨sid, s, rest, -, -, h5, h6⟩
        · rw [h1]; simp
        · rw [h5]
          intro x hx
          rcases List.mem_cons.1 hx with rfl | hx
          · rfl
          · exact startRequest_sends (h6 x hx)
      · cases hs
    · cases hs

theorem starts_run (my : NodeId) (v6 : Bool) (es : List DhtEvent) {st tr} (h : (DhtState.init my v6).run lookup nodes es = some (st, tr)) :
    (startedFor tr ++ st.inbox.filterMap ActorMessage.request).Subperm (submitted es) := by
  induction es using List.reverseRecOn generalizing st tr with
  | nil => cases h; exact List.Subperm.refl _
  | append_singleton es e ih =>
    obtain ⟨st1, tr1, out, h1, h2, rfl⟩ := DhtState.run_snoc _ es e h
    exact starts_step (StInv.run my v6 es h1) e h2 (ih h1)

/-- Of effects that are different, at most one starts a lookup for a request. -/
theorem start_unique {tr : List DhtEffect} (h : (startedFor tr).Nodup) {i j req : Nat} {hi hj : InfoHash}
    (h1 : DhtEffect.started i req hi ∈ tr) (h2 : DhtEffect.started j req hj ∈ tr) : i = j ∧ hi = hj := by
  induction tr with
  | nil => cases h1
  | cons e tr ih =>
    have hmem : ∀ i hi, DhtEffect.started i req hi ∈ tr → req ∈ startedFor tr := by
      intro i hi hm
      exact List.mem_filterMap.2 ⟨_, hm, rfl⟩
    have htl : (startedFor tr).Nodup := by
      unfold startedFor at h ⊢
      rw [List.filterMap_cons] at h
      cases he : startRequest e with
      | none => rw [he] at h; exact h
      | some x => rw [he] at h; exact (List.nodup_cons.1 h).2
    have hhead : ∀ i hi, e = DhtEffect.started i req hi → req ∉ startedFor tr := by
      intro i hi he
      subst he
      unfold startedFor at h ⊢
      rw [List.filterMap_cons] at h
      exact (List.nodup_cons.1 h).1
    rcases List.mem_cons.1 h1 with e1 | m1
    · rcases List.mem_cons.1 h2 with e2 | m2
      · rw [← e1] at e2
        cases e2
        exact ⟨rfl, rfl⟩
      · exact absurd (hmem _ _ m2) (hhead _ _ e1.symm)
    · rcases List.mem_cons.1 h2 with e2 | m2
      · exact absurd (hmem _ _ m1) (hhead _ _ e2.symm)
      · exact ih htl m1 m2

/-! ### Counting -/

theorem outstanding_nodup {tr : List DhtEffect} (h : NoReuse tr) (sid : Nat) : (outstanding sid tr).Nodup := by
  induction tr using List.reverseRecOn with
  | nil => exact List.nodup_nil
  | append_singleton tr e ih =>
    have ih := ih (noReuse_prefix h)
    rw [outstanding_append, List.foldl_cons, List.foldl_nil]
    cases e with
    | query sid' a q p ok =>
      simp only [outstep]
      split
      · have := h tr sid' a q p ok [] rfl sid
        exact List.nodup_append.2 ⟨ih, by simp, by
          intro x hx y hy
          rw [List.mem_singleton.1 hy]
          intro hxy
          exact this (hxy ▸ hx)⟩
      · exact ih
    | replied sid' a t m =>
      simp only [outstep]
      split
      · exact ih.filter _
      · exact ih
    | timedOut sid' a t =>
      simp only [outstep]
      split
      · exact ih.filter _
      · exact ih
    | started => exact ih
    | answer => exact ih
    | down => exact ih

theorem length_filter_ne {α : Type} [DecidableEq α] {l : List α} (h : l.Nodup) {a : α} (ha : a ∈ l) :
    (l.filter fun x => x ≠ a).length + 1 = l.length := by
  induction l with
  | nil => cases ha
  | cons b l ih =>
    rw [List.nodup_cons] at h
    by_cases hb : b = a
    · subst hb
      have : l.filter (fun x => x ≠ b) = l := by
        rw [List.filter_eq_self]
        intro x hx
        simp only [ne_eq, decide_eq_true_eq]
        intro hxb
        exact h.1 (hxb ▸ hx)
      rw [List.filter_cons_of_neg (by simp), this, List.length_cons]
    · rcases List.mem_cons.1 ha with h1 | h1
      · exact absurd h1.symm hb
      · have := ih h.2 h1
        simp only [ne_eq] at this
        simp [hb]
        simpa using this

theorem heard_snoc (sid : Nat) (tr : List DhtEffect) (e : DhtEffect) : lookupHeard sid (tr ++ [e]) = lookupHeard sid tr ++ (heardOf sid e).toList := by
  unfold lookupHeard
  rw [List.filterMap_append]
  cases h : heardOf sid e <;> simp [h]

theorem socketSaid_snoc (sid : Nat) (tr : List DhtEffect) (e : DhtEffect) :
    socketSaid sid (tr ++ [e]) = socketSaid sid tr ++ (socketOf sid e).toList := by
  unfold socketSaid
  rw [List.filterMap_append]
  cases h : socketOf sid e <;> simp [h]

/-- The queries that the socket took are those that are outstanding and those of which something was heard. -/
theorem outstanding_length {tr : List DhtEffect} (he : EndsOk tr) (hn : NoReuse tr) (sid : Nat) :
    (outstanding sid tr).length + (lookupHeard sid tr).length = (socketSaid sid tr).count true := by
  induction tr using List.reverseRecOn with
  | nil => rfl
  | append_singleton tr e ih =>
    have ih := ih he.prefix (noReuse_prefix hn)
    have hd := outstanding_nodup (noReuse_prefix hn) sid
    have hend := he tr e [] rfl sid
    rw [outstanding_append, List.foldl_cons, List.foldl_nil, heard_snoc, socketSaid_snoc, List.count_append, List.length_append]
    cases e with
    | query sid' a q p ok =>
      by_cases hs : sid' = sid
      · cases ok <;> simp [outstep, heardOf, socketOf, hs] <;> omega
      · simp [outstep, heardOf, socketOf, hs]; omega
    | replied sid' a t m =>
      by_cases hs : sid' = sid
      · have := length_filter_ne hd (hend a t (by simp [endOf, hs]))
        simp only [outstep, heardOf, socketOf, hs, if_true]
        simp
        simp only [ne_eq, decide_not] at this
        omega
      · simp [outstep, heardOf, socketOf, hs]; omega
    | timedOut sid' a t =>
      by_cases hs : sid' = sid
      · have := length_filter_ne hd (hend a t (by simp [endOf, hs]))
        simp only [outstep, heardOf, socketOf, hs, if_true]
        simp
        simp only [ne_eq, decide_not] at this
        omega
      · simp [outstep, heardOf, socketOf, hs]; omega
    | started => simpa [outstep, heardOf, socketOf] using ih
    | answer => simpa [outstep, heardOf, socketOf] using ih
    | down => simpa [outstep, heardOf, socketOf] using ih

/-- The valid responses are among what was heard. -/
def validOf (x : SockAddr × Heard) : Option (SockAddr × GetPeersResponse) :=
  match x.2 with
  | .reply (some r) => some (x.1, r)
  | _ => none

theorem responses_heard (sid : Nat) (tr : List DhtEffect) : responses sid tr = (lookupHeard sid tr).filterMap validOf := by
  unfold responses lookupHeard
  rw [List.filterMap_filterMap]
  congr 1
  funext e
  cases e with
  | replied sid' a t m =>
    simp only [responseOf, heardOf]
    split
    · cases (decodeResponse lossyUtf8 m).toOption <;> rfl
    · rfl
  | timedOut sid' a t =>
    simp only [responseOf, heardOf]
    split <;> rfl
  | _ => rfl

/-! ### One lookup per event -/

theorem sendAll_lookup (udp : SockAddr → Bytes → Bool) (sid : Nat) (l : List (SockAddr × GetPeersQuery)) (a : DhtActor) :
    ∀ x ∈ (a.sendAll udp sid l).2, lookupOf x = some sid := by
  intro x hx
  have h1 := (sendAll_effects udp sid l a).2
  have h2 := (sendAll_effects udp sid l a).1 x hx
  cases x with
  | query sid' ad q p ok =>
    have : (sid', ad, q) ∈ queries (a.sendAll udp sid l).2 := List.mem_filterMap.2 ⟨_, hx, rfl⟩
    rw [h1] at this
    obtain ⟨y, -, hy⟩ := List.mem_map.1 this
    cases hy
    rfl
  | answer req r =>
    exfalso
    clear h1 h2
    induction l generalizing a with
    | nil => simp [DhtActor.sendAll] at hx
    | cons y l ih =>
      obtain ⟨ad, q⟩ := y
      rw [DhtActor.sendAll] at hx
      rcases List.mem_append.1 hx with hx | hx
      · unfold DhtActor.sendQuery at hx
        split at hx
        · simp at hx
        · split at hx <;> simp at hx
      · exact ih _ hx
  | _ => exact h2.elim

theorem sendAll_keeps_senders (udp : SockAddr → Bytes → Bool) (sid : Nat) (l : List (SockAddr × GetPeersQuery)) (a : DhtActor) :
    (a.sendAll udp sid l).1.senders = a.senders := by
  induction l generalizing a with
  | nil => rfl
  | cons x l ih =>
    obtain ⟨addr, q⟩ := x
    rw [DhtActor.sendAll]
    simp only
    rw [ih]
    have hf : ∀ a : DhtActor, (a.sendFailed sid addr q.transactionId).senders = a.senders := by
      intro a
      unfold DhtActor.sendFailed
      cases HMap.get a.sessions sid <;> rfl
    unfold DhtActor.sendQuery
    cases q.toBencode with
    | none => exact hf a
    | some m =>
      simp only
      split
      · rfl
      · exact hf a

theorem postprocess_only_answers (a : DhtActor) (sid : Nat) :
    ∀ x ∈ (a.postprocess sid).2, ∃ req r, x = .answer req r ∧ HMap.get a.senders sid = some req := by
  intro x hx
  unfold DhtActor.postprocess at hx
  cases hg : HMap.get a.sessions sid with
  | none => rw [hg] at hx; simp at hx
  | some s =>
    rw [hg] at hx
    simp only at hx
    cases hr : s.getResult with
    | none => rw [hr] at hx; simp at hx
    | some r =>
      rw [hr] at hx
      simp only at hx
      cases hq : HMap.get a.senders sid with
      | none => rw [hq] at hx; simp at hx
      | some req => rw [hq] at hx; simp at hx; exact ⟨req, r, hx, rfl⟩

end Demag

namespace Demag.Props

open Demag Spec

variable {lookup lookup' : Text → BitVec 16 → Option (List SockAddr)} {nodes nodes' : List InetAddr}

/-- **C102.** What a lookup asks and finds depends only on what it hears itself.  Take two lookups for the same infohash, in the same or in different
clients that use the same bootstrap addresses in the same order, whatever other lookups there are.  If they have got the same valid
responses, then they have sent queries to the same addresses in the same order, and what they find is the same. -/
theorem lookups_alike (my my' : NodeId) (v6 v6' : Bool) (es es' : List DhtEvent) (st st' : DhtState) (tr tr' : List DhtEffect)
    (h : (DhtState.init my v6).run lookup nodes es = some (st, tr)) (h' : (DhtState.init my' v6').run lookup' nodes' es' = some (st', tr'))
    (hb : bootstrapOf es = bootstrapOf es') (hd : (submitted es).Nodup) (hd' : (submitted es').Nodup)
    (sid sid' req req' : Nat) (hash : InfoHash) (hs : DhtEffect.started sid req hash ∈ tr) (hs' : DhtEffect.started sid' req' hash ∈ tr')
    (hr : responses sid tr = responses sid' tr') :
    queriedBy sid tr = queriedBy sid' tr' ∧
    ∀ r r', DhtEffect.answer req r ∈ tr → DhtEffect.answer req' r' ∈ tr' → r = r' := by
  have v := StInv.run my v6 es h
  have v' := StInv.run my' v6' es' h'
  have hq : ∀ {lookup : Text → BitVec 16 → Option (List SockAddr)} {nodes : List InetAddr} {my v6 es st tr sid req}
      (_ : StInv my v6 es st tr) (_ : (DhtState.init my v6).run lookup nodes es = some (st, tr)) (_ : DhtEffect.started sid req hash ∈ tr),
      queriedBy sid tr = bootstrapOf es ++ (nodeSpaceOf hash (responses sid tr)).2.map Node.address := by
    intro lookup nodes my v6 es st tr sid req v h hs
    cases hg : HMap.get st.actor.sessions sid with
    | none => exact v.act.asked sid req hash hs hg
    | some s =>
      obtain ⟨req', h', h3, h4, h5, h6⟩ := v.act.live sid s hg
      obtain ⟨-, rfl⟩ := v.act.unique _ _ _ _ _ hs h3
      have := h5.asked
      rwa [(h6 (by simp)).1, List.append_nil] at this
  have ha : ∀ {lookup : Text → BitVec 16 → Option (List SockAddr)} {nodes : List InetAddr} {my v6 es st tr sid req r}
      (_ : StInv my v6 es st tr) (_ : (DhtState.init my v6).run lookup nodes es = some (st, tr)) (_ : DhtEffect.started sid req hash ∈ tr)
      (_ : (submitted es).Nodup) (_ : DhtEffect.answer req r ∈ tr), r = resultOf hash (responses sid tr) := by
    intro lookup nodes my v6 es st tr sid req r v h hs hd hans
    obtain ⟨i, hh, h1, -, -, h4⟩ := v.act.answers req r hans
    have hsub := starts_run my v6 es h
    have hnd : (startedFor tr).Nodup := by
      obtain ⟨l, hl1, hl2⟩ := hsub
      exact (List.nodup_append.1 (hl1.nodup_iff.1 (hd.sublist hl2))).1
    obtain ⟨rfl, rfl⟩ := start_unique hnd h1 hs
    exact h4
  refine ⟨by rw [hq v h hs, hq v' h' hs', hb, hr], ?_⟩
  intro r r' h1 h2
  rw [ha v h hs hd h1, ha v' h' hs' hd' h2, hr]

/-- **C102.** A lookup is over when something has been heard about each of its queries that the socket took, no sooner and no later, as long as the client runs
and no query carries the transaction ID of an outstanding query to the same address. -/
theorem lookup_over (my : NodeId) (v6 : Bool) (es : List DhtEvent) (st : DhtState) (tr : List DhtEffect)
    (h : (DhtState.init my v6).run lookup nodes es = some (st, tr)) (hbo : (bootstrapOf es).length ≤ 2 ^ 32) (hnr : NoReuse tr)
    (hd : (submitted es).Nodup) (hdown : ∀ r, DhtEffect.down r ∉ tr)
    (sid req : Nat) (hash : InfoHash) (hs : DhtEffect.started sid req hash ∈ tr) :
    (∃ r, DhtEffect.answer req r ∈ tr) ↔ (lookupHeard sid tr).length = (socketSaid sid tr).count true := by
  have hlen := outstanding_length (EndsOk.run my v6 es h) hnr sid
  obtain ⟨-, h2, h3, -⟩ := lookup_answered my v6 es st tr h sid req hash hs
  constructor
  · rintro ⟨r, hr⟩
    by_contra hne
    have hout : outstanding sid tr ≠ [] := by
      intro h0
      rw [h0] at hlen
      simp at hlen
      exact hne hlen
    rcases h3 hbo hnr hout with h4 | h4
    · obtain ⟨h5, -, -⟩ := requests_conserved my v6 es st tr h
      have hnd := h5.nodup_iff.1 hd
      have hset : req ∈ settled tr := List.mem_filterMap.2 ⟨_, hr, rfl⟩
      exact (List.nodup_append.1 hnd).2.2 req hset req (List.mem_append_right _ h4) rfl
    · exact hdown _ h4
  · intro he
    have : outstanding sid tr = [] := List.eq_nil_of_length_eq_zero (by omega)
    exact (h2 this).resolve_right (hdown _)

/-- **C102.** Two lookups as in `lookups_alike` that have heard the same and whose queries met with the same luck at the socket: the
one has its result exactly if the other has it, and the same one. -/
theorem lookups_together (my my' : NodeId) (v6 v6' : Bool) (es es' : List DhtEvent) (st st' : DhtState) (tr tr' : List DhtEffect)
    (h : (DhtState.init my v6).run lookup nodes es = some (st, tr)) (h' : (DhtState.init my' v6').run lookup' nodes' es' = some (st', tr'))
    (hb : bootstrapOf es = bootstrapOf es') (hbo : (bootstrapOf es).length ≤ 2 ^ 32) (hnr : NoReuse tr) (hnr' : NoReuse tr')
    (hd : (submitted es).Nodup) (hd' : (submitted es').Nodup) (hdown : ∀ r, DhtEffect.down r ∉ tr) (hdown' : ∀ r, DhtEffect.down r ∉ tr')
    (sid sid' req req' : Nat) (hash : InfoHash) (hs : DhtEffect.started sid req hash ∈ tr) (hs' : DhtEffect.started sid' req' hash ∈ tr')
    (hh : lookupHeard sid tr = lookupHeard sid' tr') (hk : socketSaid sid tr = socketSaid sid' tr') :
    queriedBy sid tr = queriedBy sid' tr' ∧ ∀ r, DhtEffect.answer req r ∈ tr ↔ DhtEffect.answer req' r ∈ tr' := by
  have hr : responses sid tr = responses sid' tr' := by rw [responses_heard, responses_heard, hh]
  obtain ⟨h1, h2⟩ := lookups_alike my my' v6 v6' es es' st st' tr tr' h h' hb hd hd' sid sid' req req' hash hs hs' hr
  have o := lookup_over my v6 es st tr h hbo hnr hd hdown sid req hash hs
  have o' := lookup_over my' v6' es' st' tr' h' (hb ▸ hbo) hnr' hd' hdown' sid' req' hash hs'
  rw [hh, hk, ← o'] at o
  refine ⟨h1, fun r => ⟨fun ha => ?_, fun ha => ?_⟩⟩
  · obtain ⟨r', hr'⟩ := o.1 ⟨r, ha⟩
    rw [h2 r r' ha hr']
    exact hr'
  · obtain ⟨r', hr'⟩ := o.2 ⟨r, ha⟩
    rw [← h2 r' r hr' ha]
    exact hr'

/-- **C102.** Whatever other lookups there are and in whatever order the client looks at them: a reply to an outstanding query of a lookup reaches this
lookup, and so does the end of the time for the reply. -/
theorem lookup_served (my : NodeId) (v6 : Bool) (es : List DhtEvent) (st : DhtState) (tr : List DhtEffect)
    (h : (DhtState.init my v6).run lookup nodes es = some (st, tr)) (hbo : (bootstrapOf es).length ≤ 2 ^ 32) (hnr : NoReuse tr)
    (hdown : ∀ r, DhtEffect.down r ∉ tr) (sid : Nat) (addr : SockAddr) (txn : Bytes) (ho : (addr, txn) ∈ outstanding sid tr) :
    (∀ msg order udp st' out p, prescan msg = some p → p.msgType ≠ .query → p.transactionId = txn →
      st.step lookup nodes (.packet addr msg order udp) = some (st', out) →
      ∃ rest, out = .replied sid addr txn msg :: rest) ∧
    (∀ order st' out, st.step lookup nodes (.timer addr txn order) = some (st', out) → ∃ rest, out = .timedOut sid addr txn :: rest) ∧
    (∃ order st' out, st.step lookup nodes (.timer addr txn order) = some (st', out)) := by
  have v := StInv.run my v6 es h
  -- the session
  obtain ⟨q, hq1, hq2⟩ := outstanding_sub sid tr _ ho
  obtain ⟨req, hash, hst, -⟩ := v.act.fields _ hq1
  simp only at hst
  have hsess : ∃ s, HMap.get st.actor.sessions sid = some s ∧ (addr, txn) ∈ s.inFlight := by
    cases hg : HMap.get st.actor.sessions sid with
    | none =>
      rcases v.act.ended sid req hash hst hg with ⟨h1, -⟩ | h2
      · rw [h1 ⟨hbo, hnr⟩] at ho; cases ho
      · exact absurd h2 (hdown _)
    | some s =>
      obtain ⟨_, _, _, _, h5, _⟩ := v.act.live sid s hg
      exact ⟨s, rfl, by rw [h5.inFlight ⟨hbo, hnr⟩]; exact ho⟩
  obtain ⟨s, hg, hin⟩ := hsess
  have huniq : ∀ i si, HMap.get st.actor.sessions i = some si → (addr, txn) ∈ si.inFlight → i = sid := by
    intro i si hgi hini
    obtain ⟨_, _, _, _, h5, _⟩ := v.act.live i si hgi
    exact noReuse_unique hnr (h5.sub _ hini) ho
  have hrun : ∃ b, st.phase = .running b := by
    cases hp : st.phase with
    | starting => rw [(v.starting hp).2.1] at hg; cases hg
    | stopped => rw [(v.stopped hp).2.1] at hg; cases hg
    | running b => exact ⟨b, rfl⟩
  obtain ⟨b, hb⟩ := hrun
  have hmem : sid ∈ st.actor.sessions.map Prod.fst := List.mem_map.2 ⟨_, HMap.get_mem hg, rfl⟩
  refine ⟨?_, ?_, ?_⟩
  · intro msg order udp st' out p hp hpq hpt hstep
    simp only [DhtState.step, hb] at hstep
    split at hstep
    · rename_i hperm
      cases hstep
      rcases message_effects st.actor v.act.nodup order udp addr msg with ⟨-, h1⟩ | ⟨p', i, si, rest, h1, -, h3, h4, h5, -⟩
      · refine absurd ?_ (h1 p hp hpq sid ((List.isPerm_iff.1 hperm).mem_iff.2 hmem) s hg)
        rw [hpt]; exact hin
      · rw [hp] at h1
        cases h1
        rw [hpt] at h4 h5
        have := huniq i si h3 h4
        subst this
        exact ⟨rest, h5⟩
    · cases hstep
  · intro order st' out hstep
    simp only [DhtState.step, hb] at hstep
    split at hstep
    · rename_i hperm
      cases hstep
      have hf := findSession_eq (fun s => s.handleTimeout addr txn) (fun s => (addr, txn) ∈ s.inFlight)
        (by intro s h; simp only [LookupSession.handleTimeout]; rw [if_pos h])
        (by intro s h; simp only [LookupSession.handleTimeout]; rw [if_neg h]) st.actor.sessions v.act.nodup order
      rcases hf with ⟨-, h1⟩ | ⟨i, si, -, h3, h4, h5⟩
      · exact absurd hin (h1 sid ((List.isPerm_iff.1 hperm.2).mem_iff.2 hmem) s hg)
      · have := huniq i si h3 h4
        subst this
        simp only [DhtActor.handleTimer, h5]
        exact ⟨_, rfl⟩
    · cases hstep
  · have ht := v.act.timers ⟨hbo, hnr⟩ sid s hg _ hin
    refine ⟨st.actor.sessions.map Prod.fst, ?_⟩
    simp only [DhtState.step, hb]
    rw [if_pos ⟨ht, List.isPerm_iff.2 (List.Perm.refl _)⟩]
    exact ⟨_, _, rfl⟩

/-- **C102.** An event concerns one lookup at most: as long as the client is not stopped, everything the client does about an event belongs to one lookup,
and a result that it gives is given to the request of this lookup. -/
theorem event_one_lookup (my : NodeId) (v6 : Bool) (es : List DhtEvent) (st : DhtState) (tr : List DhtEffect)
    (h : (DhtState.init my v6).run lookup nodes es = some (st, tr)) (e : DhtEvent) (st' : DhtState) (out : List DhtEffect)
    (hs : st.step lookup nodes e = some (st', out)) (hdown : ∀ r, DhtEffect.down r ∉ out) :
    ∃ sid, ∀ x ∈ out, lookupOf x = some sid ∨ ∃ req r hash, x = .answer req r ∧ DhtEffect.started sid req hash ∈ tr ++ out := by
  have v := StInv.run my v6 es h
  have hsend : ∀ sid req, HMap.get st.actor.senders sid = some req → ∃ hash, DhtEffect.started sid req hash ∈ tr := by
    intro sid req hg
    have : sid ∈ st.actor.sessions.map Prod.fst := by
      rw [← v.act.keys]
      exact List.mem_map.2 ⟨_, HMap.get_mem hg, rfl⟩
    cases hg' : HMap.get st.actor.sessions sid with
    | none => exact absurd this (HMap.get_none_iff.1 hg')
    | some s =>
      obtain ⟨req', hash, h1, h2, -⟩ := v.act.live sid s hg'
      rw [hg] at h2
      cases h2
      exact ⟨hash, h1⟩
  have hstop : ∀ l : HMap Nat Nat, ∀ m : List Nat, out = (l.map fun e => DhtEffect.down e.2) ++ m.map DhtEffect.down →
      ∃ sid, ∀ x ∈ out, lookupOf x = some sid ∨ ∃ req r hash, x = .answer req r ∧ DhtEffect.started sid req hash ∈ tr ++ out := by
    intro l m ho
    refine ⟨0, fun x hx => ?_⟩
    exfalso
    have hx' := hx
    rw [ho] at hx'
    rcases List.mem_append.1 hx' with hx' | hx'
    · obtain ⟨y, -, rfl⟩ := List.mem_map.1 hx'; exact hdown _ hx
    · obtain ⟨y, -, rfl⟩ := List.mem_map.1 hx'; exact hdown _ hx
  cases e with
  | submit m =>
    simp only [DhtState.step] at hs
    split at hs
    · cases hs
      refine hstop [] m.request.toList ?_
      cases m.request <;> rfl
    · cases hs
      exact ⟨0, by simp⟩
  | resolved addrs =>
    simp only [DhtState.step] at hs
    split at hs
    · split at hs
      · cases hs
        exact hstop _ _ rfl
      · cases hs
        exact ⟨0, by simp⟩
    · cases hs
  | receive udp =>
    simp only [DhtState.step] at hs
    split at hs
    · rename_i b req hash inbox hph hib
      cases hs
      refine ⟨st.actor.nextSid, ?_⟩
      intro x hx
      simp only [DhtActor.lookup, List.cons_append] at hx ⊢
      rcases List.mem_cons.1 hx with rfl | hx
      · exact .inl rfl
      · rcases List.mem_append.1 hx with hx | hx
        · exact .inl (sendAll_lookup _ _ _ _ x hx)
        · obtain ⟨req', r, rfl, h2⟩ := postprocess_only_answers _ _ x hx
          rw [sendAll_keeps_senders] at h2
          simp only [HMap.get_insert, if_true, Option.some.injEq] at h2
          subst h2
          exact .inr ⟨_, r, hash, rfl, by simp⟩
    · cases hs
      exact hstop _ _ rfl
    · cases hs
  | packet addr msg order udp =>
    simp only [DhtState.step] at hs
    split at hs
    · split at hs
      · cases hs
        rcases message_effects st.actor v.act.nodup order udp addr msg with ⟨h1, -⟩ | ⟨p, i, si, rest, h1, h2, h3, h4, h5, h6⟩
        · rw [h1]; exact ⟨0, by simp⟩
        · have hout := h5
          unfold DhtActor.handleMessage at h5 ⊢
          simp only [h1, if_neg h2] at h5 ⊢
          generalize findSession (fun s => s.handleMessage addr p.transactionId msg) st.actor.sessions order = f at h5 ⊢
          obtain ⟨f1, f2⟩ := f
          cases f2 with
          | none => simp at h5
          | some j =>
            simp only at h5 ⊢
            cases hgj : HMap.get f1 j with
            | none => rw [hgj] at h5; simp at h5
            | some sj =>
              refine ⟨j, ?_⟩
              intro x hx
              simp only [List.cons_append] at hx ⊢
              rcases List.mem_cons.1 hx with rfl | hx
              · exact .inl rfl
              · rcases List.mem_append.1 hx with hx | hx
                · exact .inl (sendAll_lookup _ _ _ _ x hx)
                · obtain ⟨req', r, rfl, hh⟩ := postprocess_only_answers _ _ x hx
                  rw [sendAll_keeps_senders] at hh
                  obtain ⟨hash, hm⟩ := hsend j req' hh
                  exact .inr ⟨req', r, hash, rfl, List.mem_append_left _ hm⟩
      · cases hs
    · cases hs
  | recvError =>
    simp only [DhtState.step] at hs
    split at hs
    · cases hs
      exact ⟨0, by simp⟩
    · cases hs
  | timer addr txn order =>
    simp only [DhtState.step] at hs
    split at hs
    · split at hs
      · cases hs
        unfold DhtActor.handleTimer
        generalize findSession (fun s => s.handleTimeout addr txn) st.actor.sessions order = f
        obtain ⟨f1, f2⟩ := f
        cases f2 with
        | none => exact ⟨0, by simp⟩
        | some j =>
          refine ⟨j, ?_⟩
          intro x hx
          simp only at hx ⊢
          rcases List.mem_cons.1 hx with rfl | hx
          · exact .inl rfl
          · obtain ⟨req', r, rfl, hh⟩ := postprocess_only_answers _ _ x hx
            obtain ⟨hash, hm⟩ := hsend j req' hh
            exact .inr ⟨req', r, hash, rfl, List.mem_append_left _ hm⟩
      · cases hs
    · cases hs

/-! ### Examples -/

/-- Two lookups for the same infohash and one for another, mixed.  The first hears of a node and gets no reply from it; the others hear nothing. -/
def eventsShared : List DhtEvent :=
  [.resolved [bootAddr], .submit (.lookup 6 ⟨List.replicate 20 9, by decide⟩), .submit (.lookup 7 ⟨List.replicate 20 0, by decide⟩),
   .submit (.lookup 8 ⟨List.replicate 20 0, by decide⟩), .receive (fun _ _ => true), .receive (fun _ _ => true), .receive (fun _ _ => true),
   .packet bootAddr (responseWith 1 "26" (key "BBBBBBBBBBBBBBBBBBBB" ++ [1, 2, 3, 4, 0, 2])) [0, 1, 2] (fun _ _ => true),
   .timer bootAddr [0, 0, 0, 2] [2, 0, 1],
   .timer addrX [0, 0, 0, 3] [1, 0]]

/-- The first of these alone. -/
def eventsAlone : List DhtEvent :=
  [.resolved [bootAddr], .submit (.lookup 1 ⟨List.replicate 20 0, by decide⟩), .receive (fun _ _ => true),
   .packet bootAddr (responseWith 0 "26" (key "BBBBBBBBBBBBBBBBBBBB" ++ [1, 2, 3, 4, 0, 2])) [0] (fun _ _ => true),
   .timer addrX [0, 0, 0, 1] [0]]

/-- The hypotheses of `lookups_alike` and `lookup_over` are met by these runs: the lookup with the number 1 of the first and the lookup of the second get
the same response and ask the same addresses. -/
example : (runOf eventsShared).map (fun r => (responses 1 r.2).map fun x => (x.1, (listed x.2).map Node.address, x.2.values)) =
      some [(bootAddr, [addrX], [Peer.ofAddr (.v4 ⟨⟨0x05060708#32⟩, 80⟩)])] ∧
    (runOf eventsAlone).map (fun r => (responses 0 r.2).map fun x => (x.1, (listed x.2).map Node.address, x.2.values)) =
      some [(bootAddr, [addrX], [Peer.ofAddr (.v4 ⟨⟨0x05060708#32⟩, 80⟩)])] := by decide +kernel
example : (runOf eventsShared).map (fun r => (queriedBy 1 r.2, settled r.2, startedFor r.2, queriedBy 0 r.2)) =
      some ([bootAddr, addrX], [8, 7], [6, 7, 8], [bootAddr]) ∧
    (runOf eventsAlone).map (fun r => (queriedBy 0 r.2, settled r.2)) = some ([bootAddr, addrX], [1]) := by decide +kernel
example : (runOf eventsShared).map (fun r => ((lookupHeard 1 r.2).length, socketSaid 1 r.2, (lookupHeard 0 r.2).length, socketSaid 0 r.2)) =
    some (2, [true, true], 0, [true]) := by decide +kernel
/-- In the first run the lookup with the number 0 still waits: its query is outstanding, as `lookup_served` supposes. -/
example : (runOf eventsShared).map (fun r => (outstanding 0 r.2, r.2.all fun e => match e with | .down _ => false | _ => true)) =
    some ([(bootAddr, [0, 0, 0, 0])], true) := by decide +kernel
example : bootstrapOf eventsShared = bootstrapOf eventsAlone ∧ (submitted eventsShared).Nodup := by decide +kernel

end Demag.Props
