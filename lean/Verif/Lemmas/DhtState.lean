import Verif.Lemmas.DhtActor

/-! The invariant of the DHT client over sequences of events. -/

namespace Demag

open Spec

variable {lookup : Text → BitVec 16 → Option (List SockAddr)} {nodes : List InetAddr}

theorem DhtState.run_snoc (s : DhtState) (es : List DhtEvent) (e : DhtEvent) {st : DhtState} {tr : List DhtEffect}
    (h : s.run lookup nodes (es ++ [e]) = some (st, tr)) :
    ∃ st1 tr1 out, s.run lookup nodes es = some (st1, tr1) ∧ st1.step lookup nodes e = some (st, out) ∧ tr = tr1 ++ out := by
  induction es generalizing s tr with
  | nil =>
    rw [List.nil_append, DhtState.run] at h
    cases h1 : s.step lookup nodes e with
    | none => rw [h1] at h; cases h
    | some p =>
      obtain ⟨s', out⟩ := p
      rw [h1] at h
      simp only [DhtState.run, Option.some.injEq, Prod.mk.injEq, List.append_nil] at h
      obtain ⟨rfl, rfl⟩ := h
      exact ⟨s, [], out, rfl, h1, rfl⟩
  | cons x es ih =>
    rw [List.cons_append, DhtState.run] at h
    rw [DhtState.run]
    cases h1 : s.step lookup nodes x with
    | none => rw [h1] at h; cases h
    | some p =>
      obtain ⟨s', out⟩ := p
      rw [h1] at h
      simp only at h ⊢
      cases h2 : s'.run lookup nodes (es ++ [e]) with
      | none => rw [h2] at h; cases h
      | some p =>
        obtain ⟨s'', out'⟩ := p
        rw [h2] at h
        simp only [Option.some.injEq, Prod.mk.injEq] at h
        obtain ⟨rfl, rfl⟩ := h
        obtain ⟨st1, tr1, out1, g1, g2, g3⟩ := ih s' h2
        exact ⟨st1, out ++ tr1, out1, by rw [g1], g2, by rw [g3, List.append_assoc]⟩

/-- The invariant of the client. -/
structure StInv (my : NodeId) (v6 : Bool) (es : List DhtEvent) (st : DhtState) (tr : List DhtEffect) : Prop where
  act : ActMid my v6 (bootstrapOf es) none st.actor tr
  starting : st.phase = .starting → es.findSome? resolvedOf = none ∧ st.actor.sessions = [] ∧ tr = []
  running : ∀ b, st.phase = .running b → es.findSome? resolvedOf = some b ∧ ∀ r, DhtEffect.down r ∉ tr
  stopped : st.phase = .stopped → (es.findSome? resolvedOf).isSome ∧ st.actor.sessions = [] ∧ st.inbox = []
  requests : (submitted es).Perm (settled tr ++ (st.inbox.filterMap ActorMessage.request ++ st.actor.senders.map Prod.snd))

theorem ActMid.init (my : NodeId) (v6 : Bool) (boot : List SockAddr) : ActMid my v6 boot none (DhtState.init my v6).actor [] := by
  constructor <;> simp [DhtState.init, queries, NodupKeys]

/-- Requests that learn that the client is down. -/
theorem ActMid.downs {my v6 boot a tr} (v : ActMid my v6 boot none a tr) (l : List Nat) :
    ActMid my v6 boot none a (tr ++ l.map DhtEffect.down) := by
  have hoth : ∀ i, ∀ x ∈ l.map DhtEffect.down, lookupOf x ≠ some i := by
    intro i x hx
    obtain ⟨r, -, rfl⟩ := List.mem_map.1 hx
    simp [lookupOf]
  have hqq : queries (tr ++ l.map DhtEffect.down) = queries tr := by
    rw [queries_append]
    have : queries (l.map DhtEffect.down) = [] := by
      unfold queries
      rw [List.filterMap_eq_nil_iff]
      intro x hx
      obtain ⟨r, -, rfl⟩ := List.mem_map.1 hx
      rfl
    rw [this, List.append_nil]
  have hstart : ∀ i r h', DhtEffect.started i r h' ∈ tr ++ l.map DhtEffect.down ↔ DhtEffect.started i r h' ∈ tr := by
    intro i r h'; simp
  refine ⟨v.myEq, v.v6Eq, by rw [hqq]; exact v.txn, by rw [hqq]; exact v.txns, v.nodup, v.keys, ?_, ?_, fun hf => v.timers hf.prefix, ?_, ?_, ?_, ?_, ?_⟩
  · intro x hx i hi
    rcases List.mem_append.1 hx with hx | hx
    · exact v.lt x hx i hi
    · exact absurd hi (hoth i x hx)
  · intro i s hg
    obtain ⟨req, h, h1, h2, h3, h4⟩ := v.live i s hg
    exact ⟨req, h, (hstart _ _ _).2 h1, h2, h3.other _ (hoth i), h4⟩
  · intro i r h r' h' h1 h2
    exact v.unique i r h r' h' ((hstart _ _ _).1 h1) ((hstart _ _ _).1 h2)
  · intro i req h h1 h2
    rw [queriedBy_other _ _ _ (hoth i), responses_other _ _ _ (hoth i)]
    exact v.asked i req h ((hstart _ _ _).1 h1) h2
  · intro i req h h1 h2
    rw [outstanding_other _ _ _ (hoth i), responses_other _ _ _ (hoth i)]
    rcases v.ended i req h ((hstart _ _ _).1 h1) h2 with ⟨h5, h6⟩ | h5
    · exact .inl ⟨fun hf => h5 hf.prefix, List.mem_append_left _ h6⟩
    · exact .inr (List.mem_append_left _ h5)
  · intro req r h1
    have h1' : DhtEffect.answer req r ∈ tr := by simpa using h1
    obtain ⟨i, h, h2, h3, h4, h5⟩ := v.answers req r h1'
    refine ⟨i, h, (hstart _ _ _).2 h2, h3, ?_, ?_⟩
    · intro hf; rw [outstanding_other _ _ _ (hoth i)]; exact h4 hf.prefix
    · rw [responses_other _ _ _ (hoth i)]; exact h5
  · rw [hqq]
    intro q hq
    obtain ⟨req, h, h1, h2⟩ := v.fields q hq
    exact ⟨req, h, (hstart _ _ _).2 h1, h2⟩

/-- The actor stops. -/
theorem ActMid.stop {my v6 boot a tr} (v : ActMid my v6 boot none a tr) (l : List Nat) :
    ActMid my v6 boot none { a with sessions := [], senders := [], timers := [] }
      (tr ++ ((a.senders.map fun e => DhtEffect.down e.2) ++ l.map DhtEffect.down)) := by
  have e1 : (a.senders.map fun e => DhtEffect.down e.2) ++ l.map DhtEffect.down =
      (a.senders.map Prod.snd ++ l).map DhtEffect.down := by simp
  rw [e1]
  have w := v.downs (a.senders.map Prod.snd ++ l)
  refine ⟨w.myEq, w.v6Eq, w.txn, w.txns, by simp [NodupKeys], rfl, w.lt, ?_, ?_, w.unique, ?_, ?_, ?_, w.fields⟩
  · intro i s hg; cases hg
  · intro _ i s hg; cases hg
  · intro i req h h1 h2
    cases hg : HMap.get a.sessions i with
    | none => exact w.asked i req h h1 hg
    | some s =>
      obtain ⟨req', h', h3, h4, h5, h6⟩ := w.live i s hg
      obtain ⟨-, rfl⟩ := w.unique _ _ _ _ _ h1 h3
      have := h5.asked
      rwa [(h6 (by simp)).1, List.append_nil] at this
  · intro i req h h1 h2
    cases hg : HMap.get a.sessions i with
    | none => exact w.ended i req h h1 hg
    | some s =>
      obtain ⟨req', h', h3, h4, h5, h6⟩ := w.live i s hg
      obtain ⟨rfl, -⟩ := w.unique _ _ _ _ _ h1 h3
      refine .inr (List.mem_append_right _ (List.mem_map.2 ⟨req, List.mem_append_left _ ?_, rfl⟩))
      exact List.mem_map.2 ⟨_, HMap.get_mem h4, rfl⟩
  · intro req r h1
    obtain ⟨i, h, h2, -, h4⟩ := w.answers req r h1
    exact ⟨i, h, h2, rfl, h4⟩

theorem settled_downs (l : List Nat) : settled (l.map DhtEffect.down) = l := by
  induction l with
  | nil => rfl
  | cons a l ih => simp_all [settled, settledOf]

theorem settled_stop (l : HMap Nat Nat) (m : List Nat) :
    settled ((l.map fun e => DhtEffect.down e.2) ++ m.map DhtEffect.down) = l.map Prod.snd ++ m := by
  rw [settled_append, settled_downs]
  congr 1
  have := settled_downs (l.map Prod.snd)
  rwa [List.map_map] at this

theorem bootstrapOf_snoc (es : List DhtEvent) (e : DhtEvent) (h : resolvedOf e = none ∨ (es.findSome? resolvedOf).isSome) :
    bootstrapOf (es ++ [e]) = bootstrapOf es ∧ (es ++ [e]).findSome? resolvedOf = es.findSome? resolvedOf := by
  have : (es ++ [e]).findSome? resolvedOf = es.findSome? resolvedOf := by
    rw [List.findSome?_append]
    rcases h with h | h
    · simp [h]
    · obtain ⟨b, hb⟩ := Option.isSome_iff_exists.1 h
      simp [hb]
  exact ⟨by unfold bootstrapOf; rw [this], this⟩

theorem submitted_snoc (es : List DhtEvent) (e : DhtEvent) : submitted (es ++ [e]) = submitted es ++ (submittedOf e).toList := by
  unfold submitted
  rw [List.filterMap_append]
  cases h : submittedOf e <;> simp [h]

theorem ActMid.reboot {my v6 boot a tr} (v : ActMid my v6 boot none a tr) (hs : a.sessions = []) (ht : ∀ i r h, DhtEffect.started i r h ∉ tr)
    (boot' : List SockAddr) : ActMid my v6 boot' none a tr := by
  refine ⟨v.myEq, v.v6Eq, v.txn, v.txns, v.nodup, v.keys, v.lt, ?_, ?_, v.unique, ?_, ?_, ?_, v.fields⟩
  · intro i s hg; rw [hs] at hg; cases hg
  · intro _ i s hg; rw [hs] at hg; cases hg
  · intro i r h h1; exact absurd h1 (ht i r h)
  · intro i r h h1; exact absurd h1 (ht i r h)
  · intro req r h1
    obtain ⟨i, h, h2, -⟩ := v.answers req r h1
    exact absurd h2 (ht i req h)

/-- Queries and answers. -/
def sendsOrAnswers : DhtEffect → Prop
  | .query .. => True
  | .answer .. => True
  | _ => False

theorem sendAll_effects (udp : SockAddr → Bytes → Bool) (sid : Nat) (l : List (SockAddr × GetPeersQuery)) (a : DhtActor) :
    (∀ e ∈ (a.sendAll udp sid l).2, sendsOrAnswers e) ∧ queries (a.sendAll udp sid l).2 = l.map fun x => (sid, x.1, x.2) := by
  induction l generalizing a with
  | nil => simp [DhtActor.sendAll, queries]
  | cons x l ih =>
    obtain ⟨addr, q⟩ := x
    rw [DhtActor.sendAll]
    obtain ⟨i1, i2⟩ := ih (a.sendQuery udp sid addr q).1
    have : ∃ p ok, (a.sendQuery udp sid addr q).2 = [.query sid addr q p ok] := by
      unfold DhtActor.sendQuery
      cases q.toBencode with
      | none => exact ⟨_, _, rfl⟩
      | some m =>
        simp only
        split
        · exact ⟨_, _, rfl⟩
        · exact ⟨_, _, rfl⟩
    obtain ⟨p, ok, h⟩ := this
    simp only
    rw [h]
    refine ⟨?_, ?_⟩
    · intro e he
      rcases List.mem_append.1 he with he | he
      · rw [List.mem_singleton.1 he]; trivial
      · exact i1 e he
    · rw [queries_append, i2]; rfl

theorem postprocess_effects (a : DhtActor) (sid : Nat) :
    (∀ e ∈ (a.postprocess sid).2, sendsOrAnswers e) ∧ queries (a.postprocess sid).2 = [] ∧ (a.postprocess sid).1.txn = a.txn := by
  unfold DhtActor.postprocess
  cases HMap.get a.sessions sid with
  | none => simp [queries]
  | some s =>
    simp only
    cases s.getResult with
    | none => simp [queries]
    | some r =>
      simp only
      cases HMap.get a.senders sid with
      | none => simp [queries]
      | some req => simp [queries, queryOf, sendsOrAnswers]

theorem sendAll_txn (udp : SockAddr → Bytes → Bool) (sid : Nat) (l : List (SockAddr × GetPeersQuery)) (a : DhtActor) :
    (a.sendAll udp sid l).1.txn = a.txn := by
  induction l generalizing a with
  | nil => rfl
  | cons x l ih =>
    obtain ⟨addr, q⟩ := x
    rw [DhtActor.sendAll]
    simp only
    rw [ih]
    have hf : ∀ a : DhtActor, (a.sendFailed sid addr q.transactionId).txn = a.txn := by
      intro a
      unfold DhtActor.sendFailed
      cases HMap.get a.sessions sid <;> rfl
    unfold DhtActor.sendQuery
    cases q.toBencode with
    | none => exact hf a
    | some m =>
      simp only
      split
      · rfl
      · exact hf a

/-- The effects of a packet. -/
theorem message_effects (a : DhtActor) (hn : NodupKeys a.sessions) (order : List Nat) (udp : SockAddr → Bytes → Bool) (addr : SockAddr) (msg : Bytes) :
    ((a.handleMessage order udp addr msg) = (a, []) ∧
      (∀ p, prescan msg = some p → p.msgType ≠ .query → ∀ sid ∈ order, ∀ s, HMap.get a.sessions sid = some s → (addr, p.transactionId) ∉ s.inFlight)) ∨
    ∃ p sid s rest, prescan msg = some p ∧ p.msgType ≠ .query ∧ HMap.get a.sessions sid = some s ∧ (addr, p.transactionId) ∈ s.inFlight ∧
      (a.handleMessage order udp addr msg).2 = .replied sid addr p.transactionId msg :: rest ∧ ∀ e ∈ rest, sendsOrAnswers e := by
  unfold DhtActor.handleMessage
  cases hp : prescan msg with
  | none => exact .inl ⟨rfl, by simp⟩
  | some p =>
    simp only
    by_cases hq : p.msgType = .query
    · rw [if_pos hq]
      refine .inl ⟨rfl, ?_⟩
      intro p' hp' hq'
      cases hp'
      exact absurd hq hq'
    · rw [if_neg hq]
      have hf := findSession_eq (fun s => s.handleMessage addr p.transactionId msg) (fun s => (addr, p.transactionId) ∈ s.inFlight)
        (by intro s h; simp only [LookupSession.handleMessage]; rw [if_pos h]; split <;> rfl)
        (by intro s h; simp only [LookupSession.handleMessage]; rw [if_neg h]) a.sessions hn order
      rcases hf with ⟨hf, hno⟩ | ⟨sid, s, -, hg, hin, hf⟩
      · rw [hf]
        refine .inl ⟨rfl, ?_⟩
        intro p' hp' _
        cases hp'
        exact hno
      · rw [hf]
        have hg1 : HMap.get (HMap.set a.sessions sid (s.handleMessage addr p.transactionId msg).1) sid =
            some (s.handleMessage addr p.transactionId msg).1 := by
          rw [HMap.get_set, if_pos rfl, hg]; rfl
        simp only [hg1]
        refine .inr ⟨p, sid, s, _, rfl, hq, hg, hin, List.cons_append, ?_⟩
        intro e he
        rcases List.mem_append.1 he with he | he
        · exact (sendAll_effects _ _ _ _).1 e he
        · exact (postprocess_effects _ _).1 e he

/-- The effects of a timer. -/
theorem timer_effects (a : DhtActor) (hn : NodupKeys a.sessions) (order : List Nat) (addr : SockAddr) (txn : Bytes) :
    (a.handleTimer order addr txn).2 = [] ∨
    ∃ sid s rest, HMap.get a.sessions sid = some s ∧ (addr, txn) ∈ s.inFlight ∧
      (a.handleTimer order addr txn).2 = .timedOut sid addr txn :: rest ∧ ∀ e ∈ rest, sendsOrAnswers e := by
  unfold DhtActor.handleTimer
  have hf := findSession_eq (fun s => s.handleTimeout addr txn) (fun s => (addr, txn) ∈ s.inFlight)
    (by intro s h; simp only [LookupSession.handleTimeout]; rw [if_pos h])
    (by intro s h; simp only [LookupSession.handleTimeout]; rw [if_neg h]) a.sessions hn order
  rcases hf with ⟨hf, -⟩ | ⟨sid, s, -, hg, hin, hf⟩
  · rw [hf]; exact .inl rfl
  · rw [hf]
    exact .inr ⟨sid, s, _, hg, hin, rfl, (postprocess_effects _ _).1⟩

/-- The effects of a request. -/
theorem lookup_effects (a : DhtActor) (boot : List SockAddr) (udp : SockAddr → Bytes → Bool) (req : Nat) (h : InfoHash) :
    ∃ rest, (a.lookup boot udp req h).2 = .started a.nextSid req h :: rest ∧ ∀ e ∈ rest, sendsOrAnswers e := by
  refine ⟨_, List.cons_append, ?_⟩
  intro e he
  rcases List.mem_append.1 he with he | he
  · exact (sendAll_effects _ _ _ _).1 e he
  · exact (postprocess_effects _ _).1 e he

/-- One event. -/
theorem StInv.step {my v6 es st tr} (v : StInv my v6 es st tr) (e : DhtEvent) {st' out} (hs : st.step lookup nodes e = some (st', out)) :
    StInv my v6 (es ++ [e]) st' (tr ++ out) := by
  have hse : es.findSome? resolvedOf = none ∨ (es.findSome? resolvedOf).isSome := by
    cases es.findSome? resolvedOf <;> simp
  cases e with
  | submit m =>
    obtain ⟨b1, b2⟩ := bootstrapOf_snoc es (.submit m) (.inl rfl)
    simp only [DhtState.step] at hs
    have hsub : submitted (es ++ [.submit m]) = submitted es ++ m.request.toList := submitted_snoc _ _
    have hin : ∀ inbox : List ActorMessage, (inbox ++ [m]).filterMap ActorMessage.request = inbox.filterMap ActorMessage.request ++ m.request.toList := by
      intro inbox
      rw [List.filterMap_append]
      cases hm : m.request <;> simp [hm]
    have hperm : (submitted es ++ m.request.toList).Perm (settled tr ++ ((st.inbox.filterMap ActorMessage.request ++ m.request.toList) ++ st.actor.senders.map Prod.snd)) := by
      refine (v.requests.append_right _).trans ?_
      simp only [List.append_assoc]
      refine List.Perm.append_left _ (List.Perm.append_left _ List.perm_append_comm)
    split at hs
    · rename_i hph
      cases hs
      obtain ⟨g1, g2, g3⟩ := v.stopped hph
      have ho : (m.request.map DhtEffect.down).toList = m.request.toList.map DhtEffect.down := by cases m.request <;> rfl
      rw [ho]
      refine ⟨by rw [b1]; exact v.act.downs _, ?_, ?_, ?_, ?_⟩
      · intro h; rw [hph] at h; cases h
      · intro b h; rw [hph] at h; cases h
      · intro _; rw [b2]; exact ⟨g1, g2, g3⟩
      · rw [hsub, settled_append, settled_downs]
        refine hperm.trans ?_
        rw [g3]
        simp
    · rename_i hph
      cases hs
      rw [List.append_nil]
      refine ⟨by rw [b1]; exact v.act, ?_, ?_, ?_, ?_⟩
      · intro h; rw [b2]; exact v.starting h
      · intro b h; rw [b2]; exact v.running b h
      · intro h; exact absurd h hph
      · rw [hsub]
        simp only
        rw [hin]
        exact hperm
  | resolved addrs =>
    simp only [DhtState.step] at hs
    split at hs
    · rename_i hc
      obtain ⟨g1, g2, rfl⟩ := v.starting hc.1
      have b2 : (es ++ [DhtEvent.resolved addrs]).findSome? resolvedOf = some addrs := by
        rw [List.findSome?_append, g1]; rfl
      have hsub : submitted (es ++ [.resolved addrs]) = submitted es := by rw [submitted_snoc]; simp [submittedOf]
      split at hs
      · rename_i ha
        cases hs
        refine ⟨?_, ?_, ?_, ?_, ?_⟩
        · exact (v.act.stop _).reboot rfl (by simp) _
        · intro h; cases h
        · intro b h; cases h
        · intro _; rw [b2]; exact ⟨rfl, rfl, rfl⟩
        · rw [hsub, List.nil_append]
          have hsend : st.actor.senders = [] := by
            have := v.act.keys
            rw [g2] at this
            simpa using this
          refine v.requests.trans ?_
          rw [settled_stop, hsend]
          exact List.Perm.of_eq (by simp [settled])
      · cases hs
        rw [List.append_nil]
        refine ⟨v.act.reboot g2 (by simp) _, ?_, ?_, ?_, ?_⟩
        · intro h; cases h
        · intro b h; cases h; exact ⟨b2, by simp⟩
        · intro h; cases h
        · rw [hsub]; exact v.requests
    · cases hs
  | receive udp =>
    obtain ⟨b1, b2⟩ := bootstrapOf_snoc es (.receive udp) (.inl rfl)
    have hsub : submitted (es ++ [.receive udp]) = submitted es := by rw [submitted_snoc]; simp [submittedOf]
    simp only [DhtState.step] at hs
    split at hs
    · rename_i b req h inbox hph hin
      cases hs
      obtain ⟨g1, g2⟩ := v.running b hph
      have hbo : bootstrapOf es = b := by unfold bootstrapOf; rw [g1]; rfl
      have va := v.act
      rw [hbo] at va
      obtain ⟨w1, w2⟩ := va.lookup udp req h
      obtain ⟨rest, r1, r2⟩ := lookup_effects st.actor b udp req h
      refine ⟨by rw [b1, hbo]; exact w1, ?_, ?_, ?_, ?_⟩
      · intro h; rw [hph] at h; cases h
      · intro b' h'
        rw [b2]
        rw [hph] at h'
        cases h'
        refine ⟨g1, ?_⟩
        intro r hr
        rcases List.mem_append.1 hr with hr | hr
        · exact g2 r hr
        · rw [r1] at hr
          rcases List.mem_cons.1 hr with hr | hr
          · cases hr
          · exact r2 _ hr
      · intro h; rw [hph] at h; cases h
      · rw [hsub, settled_append]
        refine v.requests.trans ?_
        rw [hin, List.append_assoc]
        refine List.Perm.append_left _ ?_
        simp only [List.filterMap_cons, ActorMessage.request]
        refine List.Perm.trans ?_ (List.perm_append_comm_assoc _ _ _)
        refine List.Perm.trans ?_ (List.Perm.append_left _ w2.symm)
        exact List.perm_middle.symm
    · rename_i b inbox hph hin
      cases hs
      obtain ⟨g1, g2⟩ := v.running b hph
      refine ⟨by rw [b1]; exact v.act.stop _, ?_, ?_, ?_, ?_⟩
      · intro h; cases h
      · intro b h; cases h
      · intro _; rw [b2, g1]; exact ⟨rfl, rfl, rfl⟩
      · rw [hsub, settled_append]
        rw [settled_stop]
        refine v.requests.trans ?_
        rw [hin]
        simp only [List.filterMap_nil, List.map_nil, List.append_nil]
        exact List.Perm.append_left _ List.perm_append_comm
    · cases hs
  | packet addr msg order udp =>
    obtain ⟨b1, b2⟩ := bootstrapOf_snoc es (.packet addr msg order udp) (.inl rfl)
    have hsub : submitted (es ++ [.packet addr msg order udp]) = submitted es := by rw [submitted_snoc]; simp [submittedOf]
    simp only [DhtState.step] at hs
    split at hs
    · rename_i b hph
      split at hs
      · cases hs
        obtain ⟨g1, g2⟩ := v.running b hph
        obtain ⟨w1, w2⟩ := v.act.message order udp addr msg
        refine ⟨by rw [b1]; exact w1, ?_, ?_, ?_, ?_⟩
        · intro h; rw [hph] at h; cases h
        · intro b' h'
          rw [b2]
          rw [hph] at h'
          cases h'
          refine ⟨g1, ?_⟩
          intro r hr
          rcases List.mem_append.1 hr with hr | hr
          · exact g2 r hr
          · rcases message_effects st.actor v.act.nodup order udp addr msg with ⟨h1, -⟩ | ⟨p, sid, s, rest, -, -, -, -, h1, h2⟩
            · rw [h1] at hr; cases hr
            · rw [h1] at hr
              rcases List.mem_cons.1 hr with hr | hr
              · cases hr
              · exact h2 _ hr
        · intro h; rw [hph] at h; cases h
        · rw [hsub, settled_append]
          refine v.requests.trans ?_
          rw [List.append_assoc]
          refine List.Perm.append_left _ ?_
          refine List.Perm.trans ?_ (List.perm_append_comm_assoc _ _ _)
          exact List.Perm.append_left _ w2.symm
      · cases hs
    · cases hs
  | recvError =>
    obtain ⟨b1, b2⟩ := bootstrapOf_snoc es .recvError (.inl rfl)
    have hsub : submitted (es ++ [.recvError]) = submitted es := by rw [submitted_snoc]; simp [submittedOf]
    simp only [DhtState.step] at hs
    split at hs
    · cases hs
      rw [List.append_nil]
      exact ⟨by rw [b1]; exact v.act, by rw [b2]; exact v.starting, by rw [b2]; exact v.running, by rw [b2]; exact v.stopped,
        by rw [hsub]; exact v.requests⟩
    · cases hs
  | timer addr txn order =>
    obtain ⟨b1, b2⟩ := bootstrapOf_snoc es (.timer addr txn order) (.inl rfl)
    have hsub : submitted (es ++ [.timer addr txn order]) = submitted es := by rw [submitted_snoc]; simp [submittedOf]
    simp only [DhtState.step] at hs
    split at hs
    · rename_i b hph
      split at hs
      · rename_i hc
        cases hs
        obtain ⟨g1, g2⟩ := v.running b hph
        obtain ⟨w1, w2⟩ := v.act.timer order (fun i hi => (List.isPerm_iff.1 hc.2).mem_iff.2 hi) addr txn
        refine ⟨by rw [b1]; exact w1, ?_, ?_, ?_, ?_⟩
        · intro h; rw [hph] at h; cases h
        · intro b' h'
          rw [b2]
          rw [hph] at h'
          cases h'
          refine ⟨g1, ?_⟩
          intro r hr
          rcases List.mem_append.1 hr with hr | hr
          · exact g2 r hr
          · rcases timer_effects st.actor v.act.nodup order addr txn with h1 | ⟨sid, s, rest, -, -, h1, h2⟩
            · rw [h1] at hr; cases hr
            · rw [h1] at hr
              rcases List.mem_cons.1 hr with hr | hr
              · cases hr
              · exact h2 _ hr
        · intro h; rw [hph] at h; cases h
        · rw [hsub, settled_append]
          refine v.requests.trans ?_
          rw [List.append_assoc]
          refine List.Perm.append_left _ ?_
          refine List.Perm.trans ?_ (List.perm_append_comm_assoc _ _ _)
          exact List.Perm.append_left _ w2.symm
      · cases hs
    · cases hs

/-- The invariant holds after every sequence of events. -/
theorem StInv.run (my : NodeId) (v6 : Bool) (es : List DhtEvent) {st tr} (h : (DhtState.init my v6).run lookup nodes es = some (st, tr)) :
    StInv my v6 es st tr := by
  induction es using List.reverseRecOn generalizing st tr with
  | nil =>
    cases h
    refine ⟨ActMid.init _ _ _, ?_, ?_, ?_, ?_⟩
    · intro _; exact ⟨rfl, rfl, rfl⟩
    · intro b h; cases h
    · intro h; cases h
    · exact List.Perm.refl _
  | append_singleton es e ih =>
    obtain ⟨st1, tr1, out, h1, h2, rfl⟩ := DhtState.run_snoc _ es e h
    exact (ih h1).step e h2

end Demag
