import Verif.Spec.DhtTime
import Verif.Props.DhtTraffic

/-!
# C84: how long DHT lookups take
-/

namespace Demag

open Spec Props

variable {lookup : Text → BitVec 16 → Option (List SockAddr)} {nodes : List InetAddr}

theorem DhtState.run_append_one (s : DhtState) (es : List DhtEvent) (e : DhtEvent) {st st' : DhtState} {tr out : List DhtEffect}
    (h : s.run lookup nodes es = some (st, tr)) (he : st.step lookup nodes e = some (st', out)) :
    s.run lookup nodes (es ++ [e]) = some (st', tr ++ out) := by
  induction es generalizing s tr with
  | nil =>
    cases h
    rw [List.nil_append, DhtState.run, he]
    simp [DhtState.run]
  | cons x es ih =>
    rw [List.cons_append, DhtState.run]
    rw [DhtState.run] at h
    cases h1 : s.step lookup nodes x with
    | none => rw [h1] at h; cases h
    | some p =>
      obtain ⟨s', out'⟩ := p
      rw [h1] at h
      simp only at h ⊢
      cases h2 : s'.run lookup nodes es with
      | none => rw [h2] at h; cases h
      | some p =>
        obtain ⟨s'', out''⟩ := p
        rw [h2] at h
        simp only [Option.some.injEq, Prod.mk.injEq] at h
        obtain ⟨rfl, rfl⟩ := h
        rw [ih s' h2]
        simp

theorem untimed_snoc (l : DhtTimes) (now : Nat) (out : List DhtEffect) : untimed (l ++ out.map fun x => (now, x)) = untimed l ++ out := by
  simp [untimed, List.map_append, Function.comp_def]

theorem Spec.DhtTimed.run {my v6 T es st l} (h : DhtTimed lookup nodes my v6 T es st l) :
    (DhtState.init my v6).run lookup nodes es = some (st, untimed l) := by
  induction h with
  | nil => rfl
  | snoc now _ _ hs ih => rw [untimed_snoc]; exact DhtState.run_append_one _ _ _ ih hs

theorem sendAll_senders (udp : SockAddr → Bytes → Bool) (sid : Nat) (l : List (SockAddr × GetPeersQuery)) (a : DhtActor) :
    (a.sendAll udp sid l).1.senders = a.senders ∧ ∀ i req h, DhtEffect.started i req h ∉ (a.sendAll udp sid l).2 ∧
      ∀ r, DhtEffect.answer req r ∉ (a.sendAll udp sid l).2 := by
  induction l generalizing a with
  | nil => simp [DhtActor.sendAll]
  | cons x l ih =>
    obtain ⟨addr, q⟩ := x
    obtain ⟨i1, i2⟩ := ih (a.sendQuery udp sid addr q).1
    have hf : (a.sendFailed sid addr q.transactionId).senders = a.senders := by
      unfold DhtActor.sendFailed
      cases HMap.get a.sessions sid <;> rfl
    have : ∃ p ok, (a.sendQuery udp sid addr q).2 = [.query sid addr q p ok] ∧ (a.sendQuery udp sid addr q).1.senders = a.senders := by
      unfold DhtActor.sendQuery
      cases q.toBencode with
      | none => exact ⟨_, _, rfl, hf⟩
      | some m =>
        simp only
        split
        · exact ⟨_, _, rfl, rfl⟩
        · exact ⟨_, _, rfl, hf⟩
    obtain ⟨p, ok, h1, h2⟩ := this
    rw [DhtActor.sendAll]
    simp only
    refine ⟨by rw [i1, h2], fun i req h => ⟨?_, fun r => ?_⟩⟩
    · rw [h1, List.mem_append, List.mem_singleton]
      rintro (h3 | h3)
      · cases h3
      · exact (i2 i req h).1 h3
    · rw [h1, List.mem_append, List.mem_singleton]
      rintro (h3 | h3)
      · cases h3
      · exact (i2 i req h).2 r h3

theorem postprocess_answer (a : DhtActor) (sid req : Nat) (r : FoundPeers) (h : DhtEffect.answer req r ∈ (a.postprocess sid).2) :
    HMap.get a.senders sid = some req := by
  unfold DhtActor.postprocess at h
  cases h1 : HMap.get a.sessions sid with
  | none => rw [h1] at h; cases h
  | some s =>
    rw [h1] at h
    simp only at h
    cases h2 : s.getResult with
    | none => rw [h2] at h; cases h
    | some x =>
      rw [h2] at h
      simp only at h
      cases h3 : HMap.get a.senders sid with
      | none => rw [h3] at h; cases h
      | some req' =>
        rw [h3] at h
        simp only [List.mem_singleton, DhtEffect.answer.injEq] at h
        rw [h.1]

theorem query_mem_queries {sid addr q p ok} {l : List DhtEffect} (h : DhtEffect.query sid addr q p ok ∈ l) : (sid, addr, q) ∈ queries l :=
  List.mem_filterMap.2 ⟨_, h, rfl⟩

/-- What an event does for lookups: one is started, or one in progress takes a reply, or one in progress may get its answer; there are no queries and
answers otherwise. -/
inductive StepKind (st : DhtState) (out : List DhtEffect) : Prop
  | start (req : Nat) (h : InfoHash) (hs : DhtEffect.started st.actor.nextSid req h ∈ out)
      (hu : ∀ i r x, DhtEffect.started i r x ∈ out → i = st.actor.nextSid)
      (hq : ∀ q ∈ queries out, q.1 = st.actor.nextSid) (ha : ∀ r x, DhtEffect.answer r x ∈ out → r = req)
  | reply (sid : Nat) (s : LookupSession) (hg : HMap.get st.actor.sessions sid = some s)
      (hr : ∃ addr msg, (sid, addr, msg) ∈ repliesTaken out) (hu : ∀ i r x, DhtEffect.started i r x ∉ out)
      (hq : ∀ q ∈ queries out, q.1 = sid) (ha : ∀ r x, DhtEffect.answer r x ∈ out → HMap.get st.actor.senders sid = some r)
  | timeout (sid : Nat) (s : LookupSession) (hg : HMap.get st.actor.sessions sid = some s)
      (hu : ∀ i r x, DhtEffect.started i r x ∉ out)
      (hq : queries out = []) (ha : ∀ r x, DhtEffect.answer r x ∈ out → HMap.get st.actor.senders sid = some r)
  | other (hu : ∀ i r x, DhtEffect.started i r x ∉ out) (hq : queries out = []) (ha : ∀ r x, DhtEffect.answer r x ∉ out)

theorem stop_kind (st : DhtState) (inbox : List ActorMessage) : StepKind st (st.stop inbox).2 := by
  refine .other ?_ (queries_stop _ _) ?_
  all_goals
    intros
    simp [DhtState.stop]

theorem postprocess_started (a : DhtActor) (sid : Nat) : ∀ i r x, DhtEffect.started i r x ∉ (a.postprocess sid).2 :=
  fun _ _ _ h => ((postprocess_effects a sid).1 _ h).elim

theorem step_kind {my v6 es st tr} (v : StInv my v6 es st tr) (e : DhtEvent) {st' out} (hs : st.step lookup nodes e = some (st', out)) :
    StepKind st out := by
  have nothing : StepKind st [] := .other (by simp) rfl (by simp)
  cases e with
  | submit m =>
    simp only [DhtState.step] at hs
    split at hs
    · cases hs
      cases m with
      | lookup req h => exact .other (by simp [ActorMessage.request]) rfl (by simp [ActorMessage.request])
      | shutdown => exact nothing
    · cases hs; exact nothing
  | resolved addrs =>
    simp only [DhtState.step] at hs
    split at hs
    · split at hs
      · have : out = (st.stop st.inbox).2 := by cases hs; rfl
        rw [this]; exact stop_kind _ _
      · cases hs; exact nothing
    · cases hs
  | receive udp =>
    simp only [DhtState.step] at hs
    split at hs
    · rename_i b req h inbox _ hin
      cases hs
      unfold DhtActor.lookup
      simp only [List.cons_append]
      refine .start req h (List.mem_cons_self ..) ?_ ?_ ?_
      · intro i r x hm
        rcases List.mem_cons.1 hm with hm | hm
        · cases hm; rfl
        · rcases List.mem_append.1 hm with hm | hm
          · exact absurd hm ((sendAll_senders _ _ _ _).2 i r x).1
          · exact absurd hm (postprocess_started _ _ i r x)
      · intro q hq
        have e : ∀ l : List DhtEffect, queries (.started st.actor.nextSid req h :: l) = queries l := fun l => rfl
        rw [e, queries_append, (postprocess_effects _ _).2.1, List.append_nil, (sendAll_effects _ _ _ _).2] at hq
        obtain ⟨x, -, rfl⟩ := List.mem_map.1 hq
        rfl
      · intro r x hm
        rcases List.mem_cons.1 hm with hm | hm
        · cases hm
        · rcases List.mem_append.1 hm with hm | hm
          · exact absurd hm (((sendAll_senders _ _ _ _).2 0 r h).2 x)
          · have := postprocess_answer _ _ _ _ hm
            rw [(sendAll_senders _ _ _ _).1] at this
            simp only [HMap.get_insert, if_true, Option.some.injEq] at this
            exact this.symm
    · rename_i inbox _ _
      have : out = (st.stop inbox).2 := by cases hs; rfl
      rw [this]; exact stop_kind _ _
    · cases hs
  | packet addr msg order udp =>
    simp only [DhtState.step] at hs
    split at hs
    · split at hs
      · cases hs
        unfold DhtActor.handleMessage
        cases hp : prescan msg with
        | none => exact nothing
        | some p =>
          simp only
          by_cases hq : p.msgType = .query
          · rw [if_pos hq]; exact nothing
          · rw [if_neg hq]
            have hf := findSession_eq (fun s => s.handleMessage addr p.transactionId msg) (fun s => (addr, p.transactionId) ∈ s.inFlight)
              (by intro s h; simp only [LookupSession.handleMessage]; rw [if_pos h]; split <;> rfl)
              (by intro s h; simp only [LookupSession.handleMessage]; rw [if_neg h]) st.actor.sessions v.act.nodup order
            rcases hf with ⟨hf, -⟩ | ⟨sid, s, -, hg, hin, hf⟩
            · rw [hf]; exact nothing
            · rw [hf]
              have hg1 : HMap.get (HMap.set st.actor.sessions sid (s.handleMessage addr p.transactionId msg).1) sid =
                  some (s.handleMessage addr p.transactionId msg).1 := by
                rw [HMap.get_set, if_pos rfl, hg]; rfl
              simp only [hg1, List.cons_append]
              refine .reply sid s hg ⟨addr, msg, List.mem_filterMap.2 ⟨_, List.mem_cons_self .., rfl⟩⟩ ?_ ?_ ?_
              · intro i r x hm
                rcases List.mem_cons.1 hm with hm | hm
                · cases hm
                · rcases List.mem_append.1 hm with hm | hm
                  · exact absurd hm ((sendAll_senders _ _ _ _).2 i r x).1
                  · exact absurd hm (postprocess_started _ _ i r x)
              · intro q hq
                have e : ∀ l : List DhtEffect, queries (.replied sid addr p.transactionId msg :: l) = queries l := fun l => rfl
                rw [e, queries_append, (postprocess_effects _ _).2.1, List.append_nil, (sendAll_effects _ _ _ _).2] at hq
                obtain ⟨x, -, rfl⟩ := List.mem_map.1 hq
                rfl
              · intro r x hm
                rcases List.mem_cons.1 hm with hm | hm
                · cases hm
                · rcases List.mem_append.1 hm with hm | hm
                  · exact absurd hm (((sendAll_senders _ _ _ _).2 0 r ⟨List.replicate 20 0, by decide⟩).2 x)
                  · have := postprocess_answer _ _ _ _ hm
                    rw [(sendAll_senders _ _ _ _).1] at this
                    exact this
      · cases hs
    · cases hs
  | recvError =>
    simp only [DhtState.step] at hs
    split at hs
    · cases hs; exact nothing
    · cases hs
  | timer addr txn order =>
    simp only [DhtState.step] at hs
    split at hs
    · split at hs
      · cases hs
        unfold DhtActor.handleTimer
        have hf := findSession_eq (fun s => s.handleTimeout addr txn) (fun s => (addr, txn) ∈ s.inFlight)
          (by intro s h; simp only [LookupSession.handleTimeout]; rw [if_pos h])
          (by intro s h; simp only [LookupSession.handleTimeout]; rw [if_neg h]) st.actor.sessions v.act.nodup order
        rcases hf with ⟨hf, -⟩ | ⟨sid, s, -, hg, hin, hf⟩
        · rw [hf]; exact nothing
        · rw [hf]
          refine .timeout sid s hg ?_ ?_ ?_
          · intro i r x hm
            rcases List.mem_cons.1 hm with hm | hm
            · cases hm
            · exact absurd hm (postprocess_started _ _ i r x)
          · have e : ∀ l : List DhtEffect, queries (.timedOut sid addr txn :: l) = queries l := fun l => rfl
            simp only
            rw [e, (postprocess_effects _ _).2.1]
          · intro r x hm
            rcases List.mem_cons.1 hm with hm | hm
            · cases hm
            · have := postprocess_answer _ _ _ _ hm
              exact this
      · cases hs
    · cases hs

theorem repliesTo_append (sid : Nat) (t u : List DhtEffect) : repliesTo sid (t ++ u) = repliesTo sid t ++ repliesTo sid u := by
  simp [repliesTo, repliesTaken]

/-- A lookup in progress waits for the answer to a query that is not overdue. -/
theorem waits_for {my v6 T es st l} (h : DhtTimed lookup nodes my v6 T es st l) {now : Nat} (hn : NoneOverdue T now l) {sid : Nat} {s : LookupSession}
    (hg : HMap.get st.actor.sessions sid = some s) : ∃ t addr q p, (t, DhtEffect.query sid addr q p true) ∈ l ∧ now ≤ t + T := by
  obtain ⟨_, _, -, -, h5, h6⟩ := (StInv.run my v6 es h.run).act.live sid s hg
  obtain ⟨x, hx⟩ := List.exists_mem_of_ne_nil _ (h6 (by simp)).2
  obtain ⟨addr, txn⟩ := x
  obtain ⟨t, q, p, h1, -, h2⟩ := hn sid addr txn (h5.sub _ hx)
  exact ⟨t, addr, q, p, h1, h2⟩

theorem started_lt {my v6 T es st l} (h : DhtTimed lookup nodes my v6 T es st l) {x : DhtEffect} {sid : Nat} (hx : x ∈ untimed l)
    (hl : lookupOf x = some sid) : sid < st.actor.nextSid := (StInv.run my v6 es h.run).act.lt x hx sid hl

theorem mem_untimed {l : DhtTimes} {t : Nat} {x : DhtEffect} (h : (t, x) ∈ l) : x ∈ untimed l := List.mem_map.2 ⟨_, h, rfl⟩

/-- Queries are sent when the lookup starts, or no longer than `T` after the last ones. -/
theorem Spec.DhtTimed.sent {my v6 T es st l} (h : DhtTimed lookup nodes my v6 T es st l) :
    ∀ sid req hash t0 t addr q p ok, (t0, DhtEffect.started sid req hash) ∈ l → (t, DhtEffect.query sid addr q p ok) ∈ l →
      t ≤ t0 + T * (repliesTo sid (untimed l)).length := by
  induction h with
  | nil => intro sid req hash t0 t addr q p ok h1; cases h1
  | @snoc es st l e st' out now h hn hs ih =>
    intro sid req hash t0 t addr q p ok h1 h2
    rw [untimed_snoc, repliesTo_append, List.length_append]
    have hk := step_kind (StInv.run my v6 es h.run) e hs
    rcases List.mem_append.1 h2 with h2 | h2
    · rcases List.mem_append.1 h1 with h1 | h1
      · have := ih sid req hash t0 t addr q p ok h1 h2
        rw [Nat.mul_add]; omega
      · -- a lookup that has sent queries is not started again
        exfalso
        obtain ⟨x, hx, he⟩ := List.mem_map.1 h1
        cases he
        have hlt := started_lt h (mem_untimed h2) (sid := sid) rfl
        cases hk with
        | start _ _ _ hu => have := hu _ _ _ hx; omega
        | reply _ _ _ _ hu => exact hu _ _ _ hx
        | timeout _ _ _ hu => exact hu _ _ _ hx
        | other hu => exact hu _ _ _ hx
    · obtain ⟨x, hx, he⟩ := List.mem_map.1 h2
      cases he
      have hq := query_mem_queries hx
      cases hk with
      | start r' h' hst hu hq' ha =>
        have hsid := hq' _ hq
        simp only at hsid
        rcases List.mem_append.1 h1 with h1 | h1
        · have := started_lt h (mem_untimed h1) (sid := sid) rfl
          omega
        · obtain ⟨y, hy, he⟩ := List.mem_map.1 h1
          cases he
          omega
      | reply sid' s hg hr hu hq' ha =>
        have hsid := hq' _ hq
        simp only at hsid
        subst hsid
        rcases List.mem_append.1 h1 with h1 | h1
        · obtain ⟨t1, addr1, q1, p1, h3, h4⟩ := waits_for h hn hg
          have := ih sid req hash t0 t1 addr1 q1 p1 true h1 h3
          obtain ⟨a, m, hr⟩ := hr
          have hpos : 0 < (repliesTo sid out).length :=
            List.length_pos_of_mem (List.mem_filter.2 ⟨hr, by simp⟩)
          have hmul : T * 1 ≤ T * (repliesTo sid out).length := Nat.mul_le_mul_left T hpos
          rw [Nat.mul_add]; omega
        · obtain ⟨y, hy, he⟩ := List.mem_map.1 h1
          cases he
          exact absurd hy (hu _ _ _)
      | timeout _ _ _ _ hq' => rw [hq'] at hq; cases hq
      | other _ hq' => rw [hq'] at hq; cases hq

end Demag

namespace Demag.Props

open Demag Spec

variable {lookup : Text → BitVec 16 → Option (List SockAddr)} {nodes : List InetAddr}

/-- **C84.** While a lookup goes on, at any moment at which no timer is overdue, no more than the time to answer a query has passed since its start, and as
much again for each reply it took. -/
theorem lookup_time {my : NodeId} {v6 : Bool} {T : Nat} {es : List DhtEvent} {st : DhtState} {l : DhtTimes}
    (h : DhtTimed lookup nodes my v6 T es st l) (now : Nat) (hn : NoneOverdue T now l) (sid req : Nat) (hash : InfoHash) (t0 : Nat)
    (hs : (t0, DhtEffect.started sid req hash) ∈ l) :
    now ≤ t0 + T * (1 + (repliesTo sid (untimed l)).length) ∨
      (∃ r, DhtEffect.answer req r ∈ untimed l) ∨ DhtEffect.down req ∈ untimed l := by
  have v := StInv.run my v6 es h.run
  cases hg : HMap.get st.actor.sessions sid with
  | none =>
    rcases v.act.ended sid req hash (mem_untimed hs) hg with h1 | h1
    · exact .inr (.inl ⟨_, h1.2⟩)
    · exact .inr (.inr h1)
  | some s =>
    obtain ⟨t, addr, q, p, h1, h2⟩ := waits_for h hn hg
    have := h.sent sid req hash t0 t addr q p true hs h1
    rw [Nat.mul_add]
    exact .inl (by omega)

/-- **C84.** The answer to a request comes within the time to answer a query after the start of the lookup, and as much again for each reply it took. -/
theorem answer_time {my : NodeId} {v6 : Bool} {T : Nat} {es : List DhtEvent} {st : DhtState} {l : DhtTimes}
    (h : DhtTimed lookup nodes my v6 T es st l) (t req : Nat) (r : FoundPeers) (ha : (t, DhtEffect.answer req r) ∈ l) :
    ∃ sid hash t0, (t0, DhtEffect.started sid req hash) ∈ l ∧ t ≤ t0 + T * (1 + (repliesTo sid (untimed l)).length) := by
  induction h with
  | nil => cases ha
  | @snoc es st l e st' out now h hn hs ih =>
    have old : ∀ sid s, HMap.get st.actor.sessions sid = some s → HMap.get st.actor.senders sid = some req →
        ∃ sid hash t0, (t0, DhtEffect.started sid req hash) ∈ l ++ out.map (fun x => (now, x)) ∧
          now ≤ t0 + T * (1 + (repliesTo sid (untimed (l ++ out.map fun x => (now, x)))).length) := by
      intro sid s hg hse
      obtain ⟨req', hash, h1, h2, -⟩ := (StInv.run my v6 es h.run).act.live sid s hg
      rw [hse] at h2
      cases h2
      obtain ⟨⟨t0, x⟩, hx, rfl⟩ := List.mem_map.1 h1
      obtain ⟨t1, addr, q, p, h3, h4⟩ := waits_for h hn hg
      have := h.sent sid req hash t0 t1 addr q p true hx h3
      refine ⟨sid, hash, t0, List.mem_append_left _ hx, ?_⟩
      rw [untimed_snoc, repliesTo_append, List.length_append, Nat.mul_add, Nat.mul_add]
      omega
    rcases List.mem_append.1 ha with ha | ha
    · obtain ⟨sid, hash, t0, h1, h2⟩ := ih ha
      refine ⟨sid, hash, t0, List.mem_append_left _ h1, ?_⟩
      rw [untimed_snoc, repliesTo_append, List.length_append, Nat.mul_add, Nat.mul_add]
      rw [Nat.mul_add] at h2
      omega
    · obtain ⟨x, hx, he⟩ := List.mem_map.1 ha
      cases he
      cases step_kind (StInv.run my v6 es h.run) e hs with
      | start r' h' hst hu hq' ha' =>
        have := ha' _ _ hx
        subst this
        exact ⟨_, h', _, List.mem_append_right _ (List.mem_map.2 ⟨_, hst, rfl⟩), Nat.le_add_right _ _⟩
      | reply sid s hg _ _ _ ha' => exact old sid s hg (ha' _ _ hx)
      | timeout sid s hg _ _ ha' => exact old sid s hg (ha' _ _ hx)
      | other _ _ ha' => exact absurd hx (ha' _ _)

theorem replies_ends (sid : Nat) (tr : List DhtEffect) : (repliesTo sid tr).length ≤ ((ends tr).filter fun x => x.1 = sid).length := by
  induction tr with
  | nil => exact Nat.le_refl _
  | cons e tr ih =>
    cases e with
    | replied sid' a t m =>
      have e1 : repliesTo sid (.replied sid' a t m :: tr) = if sid' = sid then (sid', a, m) :: repliesTo sid tr else repliesTo sid tr := by
        simp only [repliesTo, repliesTaken, List.filterMap_cons, replyOf, List.filter_cons]
        simp only [decide_eq_true_eq]
      have e2 : (ends (.replied sid' a t m :: tr)).filter (fun x => x.1 = sid) =
          if sid' = sid then (sid', a, t) :: (ends tr).filter (fun x => x.1 = sid) else (ends tr).filter (fun x => x.1 = sid) := by
        simp only [ends, List.filterMap_cons, endOf, List.filter_cons]
        simp only [decide_eq_true_eq]
      rw [e1, e2]
      split
      · exact Nat.succ_le_succ ih
      · exact ih
    | timedOut sid' a t =>
      refine Nat.le_trans ih ?_
      simp only [ends, List.filterMap_cons, endOf, List.filter_cons]
      split
      · exact Nat.le_succ _
      · exact Nat.le_refl _
    | _ => exact ih

/-- **C84.** If the nodes listed in the responses have their addresses in `A`, the answer comes within the time to answer a query for each bootstrap address
and each address in `A`, and once more, however the nodes behave. -/
theorem answer_time_nodes {my : NodeId} {v6 : Bool} {T : Nat} {es : List DhtEvent} {st : DhtState} {l : DhtTimes}
    (h : DhtTimed lookup nodes my v6 T es st l) (A : List SockAddr)
    (hA : ∀ sid, ∀ r ∈ responses sid (untimed l), ∀ n ∈ listed r.2, Node.address n ∈ A)
    (t req : Nat) (r : FoundPeers) (ha : (t, DhtEffect.answer req r) ∈ l) :
    ∃ sid hash t0, (t0, DhtEffect.started sid req hash) ∈ l ∧ t ≤ t0 + T * (1 + ((bootstrapOf es).length + A.length)) := by
  obtain ⟨sid, hash, t0, h1, h2⟩ := answer_time h t req r ha
  obtain ⟨b1, b2⟩ := lookup_bounded my v6 es st (untimed l) h.run sid A (hA sid)
  have h3 := replies_ends sid (untimed l)
  refine ⟨sid, hash, t0, h1, Nat.le_trans h2 ?_⟩
  have : T * (1 + (repliesTo sid (untimed l)).length) ≤ T * (1 + ((bootstrapOf es).length + A.length)) :=
    Nat.mul_le_mul_left T (by omega)
  omega

/-- The queries outstanding are not overdue, as a computation. -/
def checkOverdue (T now : Nat) (l : DhtTimes) : Bool :=
  l.all fun x => match x.2 with
    | .query sid addr q _ true => decide (now ≤ x.1 + T) || decide ((addr, q.transactionId) ∉ outstanding sid (untimed l))
    | _ => true

theorem outstanding_sent (sid : Nat) (tr : List DhtEffect) (addr : SockAddr) (txn : Bytes) (h : (addr, txn) ∈ outstanding sid tr) :
    ∃ q p, DhtEffect.query sid addr q p true ∈ tr ∧ q.transactionId = txn := by
  induction tr using List.reverseRecOn with
  | nil => cases h
  | append_singleton tr e ih =>
    have h' : (addr, txn) ∈ outstep sid (outstanding sid tr) e := by
      rw [outstanding, List.foldl_append] at h
      exact h
    have old : (addr, txn) ∈ outstanding sid tr → ∃ q p, DhtEffect.query sid addr q p true ∈ tr ++ [e] ∧ q.transactionId = txn := by
      intro h
      obtain ⟨q, p, h1, h2⟩ := ih h
      exact ⟨q, p, List.mem_append_left _ h1, h2⟩
    cases e with
    | query sid' addr' q p ok =>
      simp only [outstep] at h'
      split at h'
      · rename_i hc
        rcases List.mem_append.1 h' with h' | h'
        · exact old h'
        · simp only [List.mem_singleton, Prod.mk.injEq] at h'
          obtain ⟨rfl, rfl⟩ := h'
          obtain ⟨rfl, rfl⟩ := hc
          exact ⟨q, p, by simp, rfl⟩
      · exact old h'
    | replied sid' a t m =>
      simp only [outstep] at h'
      split at h'
      · exact old (List.mem_filter.1 h').1
      · exact old h'
    | timedOut sid' a t =>
      simp only [outstep] at h'
      split at h'
      · exact old (List.mem_filter.1 h').1
      · exact old h'
    | _ => exact old h'

theorem checkOverdue_sound (T now : Nat) (l : DhtTimes) (h : checkOverdue T now l = true) : NoneOverdue T now l := by
  intro sid addr txn ho
  obtain ⟨q, p, h1, h2⟩ := outstanding_sent sid _ addr txn ho
  obtain ⟨⟨t, x⟩, hx, he⟩ := List.mem_map.1 h1
  simp only at he
  subst he
  have := List.all_eq_true.1 h _ hx
  simp only [Bool.or_eq_true, decide_eq_true_eq] at this
  rcases this with h3 | h3
  · exact ⟨t, q, p, hx, h2, h3⟩
  · rw [h2] at h3; exact absurd ho h3

/-- A run with times, as a computation. -/
def execTimed (lookup : Text → BitVec 16 → Option (List SockAddr)) (nodes : List InetAddr) (T : Nat) (st : DhtState) (l : DhtTimes) :
    List (Nat × DhtEvent) → Option (DhtState × DhtTimes)
  | [] => some (st, l)
  | (now, e) :: rest =>
    if checkOverdue T now l then
      match st.step lookup nodes e with
      | none => none
      | some (st', out) => execTimed lookup nodes T st' (l ++ out.map fun x => (now, x)) rest
    else none

theorem execTimed_timed {my v6 T es st l} (h : DhtTimed lookup nodes my v6 T es st l) (rest : List (Nat × DhtEvent)) {st' l'}
    (hr : execTimed lookup nodes T st l rest = some (st', l')) : DhtTimed lookup nodes my v6 T (es ++ rest.map Prod.snd) st' l' := by
  induction rest generalizing es st l with
  | nil => cases hr; simpa using h
  | cons x rest ih =>
    obtain ⟨now, e⟩ := x
    rw [execTimed] at hr
    split at hr
    · rename_i hc
      cases hs : st.step lookup nodes e with
      | none => rw [hs] at hr; cases hr
      | some p =>
        obtain ⟨st1, out⟩ := p
        rw [hs] at hr
        have := ih (h.snoc now (checkOverdue_sound _ _ _ hc) hs) hr
        simpa using this
    · cases hr

/-- The run `eventsTwins` with times (in milliseconds; queries may take 2 seconds): the lookup starts at 100, the bootstrap node answers at 2000, one of the
two nodes it lists at 3000, the other one does not answer until 4000. -/
def timesTwins : List (Nat × DhtEvent) := [0, 50, 100, 2000, 3000, 4000].zip eventsTwins

def timedTwins : Option (DhtState × DhtTimes) :=
  execTimed (fun _ _ => none) [⟨.ipv4 ⟨0x01020304#32⟩, 1⟩] 2000 (.init ⟨List.replicate 20 0, by decide⟩ false) [] timesTwins

/-- The answer comes at 4000, and two replies were taken; the theorem allows until 100 + 2000 * 3. -/
example : ∃ es st l r, DhtTimed (fun _ _ => none) [⟨.ipv4 ⟨0x01020304#32⟩, 1⟩] ⟨List.replicate 20 0, by decide⟩ false 2000 es st l ∧
    (4000, DhtEffect.answer 7 r) ∈ l ∧ (100, DhtEffect.started 0 7 ⟨List.replicate 20 0, by decide⟩) ∈ l ∧ (repliesTo 0 (untimed l)).length = 2 := by
  have h : timedTwins.map (fun r => (decide ((4000, DhtEffect.answer 7 ⟨[Peer.ofAddr (.v4 ⟨⟨0x05060708#32⟩, 80⟩)], [addrX]⟩) ∈ r.2),
      decide ((100, DhtEffect.started 0 7 ⟨List.replicate 20 0, by decide⟩) ∈ r.2), (repliesTo 0 (untimed r.2)).length)) = some (true, true, 2) := by
    decide +kernel
  cases hr : timedTwins with
  | none => rw [hr] at h; cases h
  | some p =>
    obtain ⟨st, l⟩ := p
    rw [hr] at h
    simp only [Option.map_some, Option.some.injEq, Prod.mk.injEq, decide_eq_true_eq] at h
    exact ⟨_, st, l, _, execTimed_timed .nil timesTwins hr, h.1, h.2.1, h.2.2⟩

/-- Had the second node been waited for until 4001, a timer would have been overdue. -/
example : (execTimed (fun _ _ => none) [⟨.ipv4 ⟨0x01020304#32⟩, 1⟩] 2000 (.init ⟨List.replicate 20 0, by decide⟩ false) []
    ([0, 50, 100, 2000, 3000, 4001].zip eventsTwins)).isSome = false := by decide +kernel

end Demag.Props
