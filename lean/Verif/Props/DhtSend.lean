import Verif.Props.DhtLookup

/-!
# Properties: which DHT queries count as sent (C39)
-/

namespace Demag

open Spec

variable {lookup : Text → BitVec 16 → Option (List SockAddr)} {nodes : List InetAddr}

/-- Whether the sockets take a datagram in the course of an event. -/
def DhtEvent.takes : DhtEvent → SockAddr → Bytes → Bool
  | .receive udp => udp
  | .packet _ _ _ udp => udp
  | _ => fun _ _ => false

/-- A query counts as sent exactly if it could be encoded, there is a socket for its address, and the socket took it. -/
def SentRight (v6 : Bool) (udp : SockAddr → Bytes → Bool) : DhtEffect → Prop
  | .query _ addr q pk ok => pk = q.toBencode ∧ (ok = true ↔ ∃ msg, pk = some msg ∧ ((∃ a, addr = .v4 a) ∨ v6 = true) ∧ udp addr msg = true)
  | _ => True

theorem sendQuery_right (a : DhtActor) (udp : SockAddr → Bytes → Bool) (sid : Nat) (addr : SockAddr) (q : GetPeersQuery) :
    (a.sendQuery udp sid addr q).1.usingIpv6 = a.usingIpv6 ∧ ∀ e ∈ (a.sendQuery udp sid addr q).2, SentRight a.usingIpv6 udp e := by
  have hf : ∀ txn, (a.sendFailed sid addr txn).usingIpv6 = a.usingIpv6 := by
    intro txn
    unfold DhtActor.sendFailed
    split <;> rfl
  unfold DhtActor.sendQuery
  cases hq : q.toBencode with
  | none =>
    refine ⟨hf _, ?_⟩
    simp [SentRight, hq]
  | some msg =>
    simp only
    have hu : udpSend a.usingIpv6 udp addr msg = true ↔ ((∃ x, addr = .v4 x) ∨ a.usingIpv6 = true) ∧ udp addr msg = true := by
      unfold udpSend
      cases addr <;> simp [SockAddr.isIpv4]
    split
    · next h =>
      refine ⟨rfl, ?_⟩
      simp only [List.mem_singleton, forall_eq, SentRight, hq, true_iff, true_and]
      exact ⟨msg, rfl, hu.1 h⟩
    · next h =>
      refine ⟨hf _, ?_⟩
      simp only [List.mem_singleton, forall_eq, SentRight, hq, true_and, Bool.false_eq_true, false_iff]
      rintro ⟨m, hm, h'⟩
      cases hm
      exact h (hu.2 h')

theorem sendAll_right (udp : SockAddr → Bytes → Bool) (sid : Nat) (l : List (SockAddr × GetPeersQuery)) : ∀ a : DhtActor,
    (a.sendAll udp sid l).1.usingIpv6 = a.usingIpv6 ∧ ∀ e ∈ (a.sendAll udp sid l).2, SentRight a.usingIpv6 udp e := by
  induction l with
  | nil => intro a; exact ⟨rfl, by simp [DhtActor.sendAll]⟩
  | cons x l ih =>
    intro a
    obtain ⟨h1, h2⟩ := sendQuery_right a udp sid x.1 x.2
    obtain ⟨h3, h4⟩ := ih (a.sendQuery udp sid x.1 x.2).1
    rw [h1] at h3 h4
    refine ⟨h3, ?_⟩
    intro e he
    rcases List.mem_append.1 he with he | he
    · exact h2 e he
    · exact h4 e he

theorem postprocess_right (a : DhtActor) (sid : Nat) (udp : SockAddr → Bytes → Bool) :
    (a.postprocess sid).1.usingIpv6 = a.usingIpv6 ∧ ∀ e ∈ (a.postprocess sid).2, SentRight a.usingIpv6 udp e := by
  unfold DhtActor.postprocess
  split
  · exact ⟨rfl, by simp⟩
  · split
    · exact ⟨rfl, by simp⟩
    · dsimp only
      split
      · exact ⟨rfl, by simp⟩
      · exact ⟨rfl, by simp [SentRight]⟩

theorem stop_right (st : DhtState) (inbox : List ActorMessage) (v6 : Bool) (udp : SockAddr → Bytes → Bool) :
    (st.stop inbox).1.actor.usingIpv6 = st.actor.usingIpv6 ∧ ∀ e ∈ (st.stop inbox).2, SentRight v6 udp e := by
  refine ⟨rfl, ?_⟩
  intro e he
  simp only [DhtState.stop, List.mem_append, List.mem_map] at he
  rcases he with ⟨x, -, rfl⟩ | ⟨x, -, rfl⟩ <;> trivial

theorem step_right {st st' : DhtState} {out : List DhtEffect} (e : DhtEvent) (hs : st.step lookup nodes e = some (st', out)) :
    st'.actor.usingIpv6 = st.actor.usingIpv6 ∧ ∀ x ∈ out, SentRight st.actor.usingIpv6 e.takes x := by
  cases e with
  | submit m =>
    rw [DhtState.step] at hs
    split at hs
    · cases hs
      refine ⟨rfl, ?_⟩
      intro x hx
      cases m with
      | lookup req h =>
        simp only [ActorMessage.request, Option.map_some, Option.toList_some, List.mem_singleton] at hx
        subst hx
        trivial
      | shutdown => cases hx
    · cases hs
      exact ⟨rfl, by simp⟩
  | resolved addrs =>
    rw [DhtState.step] at hs
    split at hs
    · split at hs
      · cases hs
        exact stop_right _ _ _ _
      · cases hs
        exact ⟨rfl, by simp⟩
    · cases hs
  | receive udp =>
    rw [DhtState.step] at hs
    split at hs
    · next boot req h inbox _ _ =>
      simp only [Option.some.injEq, Prod.mk.injEq] at hs
      obtain ⟨rfl, rfl⟩ := hs
      unfold DhtActor.lookup
      dsimp only
      obtain ⟨h1, h2⟩ := sendAll_right udp st.actor.nextSid
        ((LookupSession.new h st.actor.myId st.actor.usingIpv6 boot).getOutgoing st.actor.txn).2.2
        { st.actor with
          txn := ((LookupSession.new h st.actor.myId st.actor.usingIpv6 boot).getOutgoing st.actor.txn).2.1
          nextSid := st.actor.nextSid + 1
          sessions := HMap.insert st.actor.sessions st.actor.nextSid
            ((LookupSession.new h st.actor.myId st.actor.usingIpv6 boot).getOutgoing st.actor.txn).1
          senders := HMap.insert st.actor.senders st.actor.nextSid req }
      generalize DhtActor.sendAll _ _ _ _ = r at *
      obtain ⟨h3, h4⟩ := postprocess_right r.1 st.actor.nextSid udp
      refine ⟨h3.trans h1, ?_⟩
      intro x hx
      rcases List.mem_append.1 hx with hx | hx
      · rcases List.mem_cons.1 hx with rfl | hx
        · trivial
        · exact h2 x hx
      · have := h4 x hx
        rw [h1] at this
        exact this
    · cases hs
      exact stop_right _ _ _ _
    · cases hs
  | packet addr msg order udp =>
    rw [DhtState.step] at hs
    split at hs
    · split at hs
      · simp only [Option.some.injEq, Prod.mk.injEq] at hs
        obtain ⟨rfl, rfl⟩ := hs
        unfold DhtActor.handleMessage
        split
        · exact ⟨rfl, by simp⟩
        · next p _ =>
          split
          · exact ⟨rfl, by simp⟩
          · dsimp only
            split
            · exact ⟨rfl, by simp⟩
            · next sid _ =>
              split
              · exact ⟨rfl, by simp⟩
              · next s _ =>
                obtain ⟨h1, h2⟩ := sendAll_right udp sid (s.getOutgoing st.actor.txn).2.2
                  { st.actor with
                    sessions := HMap.set (findSession (fun s => s.handleMessage addr p.transactionId msg) st.actor.sessions order).1 sid
                      (s.getOutgoing st.actor.txn).1
                    txn := (s.getOutgoing st.actor.txn).2.1 }
                generalize DhtActor.sendAll _ _ _ _ = r at *
                obtain ⟨h3, h4⟩ := postprocess_right r.1 sid udp
                refine ⟨h3.trans h1, ?_⟩
                intro x hx
                rcases List.mem_append.1 hx with hx | hx
                · rcases List.mem_cons.1 hx with rfl | hx
                  · trivial
                  · exact h2 x hx
                · have := h4 x hx
                  rw [h1] at this
                  exact this
      · cases hs
    · cases hs
  | recvError =>
    rw [DhtState.step] at hs
    split at hs
    · cases hs
      exact ⟨rfl, by simp⟩
    · cases hs
  | timer addr txn order =>
    rw [DhtState.step] at hs
    split at hs
    · split at hs
      · simp only [Option.some.injEq, Prod.mk.injEq] at hs
        obtain ⟨rfl, rfl⟩ := hs
        unfold DhtActor.handleTimer
        dsimp only
        split
        · exact ⟨rfl, by simp⟩
        · next sid _ =>
          obtain ⟨h3, h4⟩ := postprocess_right { st.actor with
            timers := setRemove st.actor.timers (addr, txn)
            sessions := (findSession (fun s => s.handleTimeout addr txn) st.actor.sessions order).1 } sid (fun _ _ => false)
          refine ⟨h3, ?_⟩
          intro x hx
          rcases List.mem_cons.1 hx with rfl | hx
          · trivial
          · exact h4 x hx
      · cases hs
    · cases hs

namespace Props

/-- **C39.** In every schedule, a query counts as sent, so that an answer or a timeout is waited for, exactly if there is a socket for
the family of its address and the socket took the encoded query; in particular nothing is sent to IPv6 addresses when IPv6 is not
available. -/
theorem query_sent_iff (my : NodeId) (v6 : Bool) (es : List DhtEvent) : ∀ {st : DhtState} {tr : List DhtEffect},
    (DhtState.init my v6).run lookup nodes es = some (st, tr) → ∀ sid addr q pk ok, DhtEffect.query sid addr q pk ok ∈ tr →
      ∃ e ∈ es, pk = q.toBencode ∧
        (ok = true ↔ ∃ msg, pk = some msg ∧ ((∃ a, addr = .v4 a) ∨ v6 = true) ∧ e.takes addr msg = true) := by
  have gen : ∀ (es : List DhtEvent) (s : DhtState) {st : DhtState} {tr : List DhtEffect}, s.run lookup nodes es = some (st, tr) →
      ∀ x ∈ tr, ∃ e ∈ es, SentRight s.actor.usingIpv6 e.takes x := by
    intro es
    induction es with
    | nil =>
      intro s st tr h x hx
      cases h
      cases hx
    | cons e es ih =>
      intro s st tr h x hx
      rw [DhtState.run] at h
      split at h
      · cases h
      · next s' out hs =>
        split at h
        · cases h
        · next s'' out' hr =>
          cases h
          obtain ⟨h1, h2⟩ := step_right e hs
          rcases List.mem_append.1 hx with hx | hx
          · exact ⟨e, by simp, h2 x hx⟩
          · obtain ⟨e', he, hx⟩ := ih s' hr x hx
            rw [h1] at hx
            exact ⟨e', by simp [he], hx⟩
  intro st tr h sid addr q pk ok hm
  exact gen es _ h _ hm

/-! ### A concrete case: a node at an IPv6 address that nobody asked for -/

def eventsSix : List DhtEvent :=
  [.resolved [bootAddr], .submit (.lookup 7 ⟨List.replicate 20 0, by decide⟩), .receive (fun _ _ => true),
   .packet bootAddr (key "d1:rd2:id20:AAAAAAAAAAAAAAAAAAAA6:nodes638:BBBBBBBBBBBBBBBBBBBB" ++ List.replicate 15 0 ++ [1, 0, 80] ++
     key "5:token2:xye1:t4:" ++ [0, 0, 0, 0] ++ key "1:y1:re") [0] (fun _ _ => true)]

example : ((runOf eventsSix).map fun r => r.2.filterMap fun e => match e with | .query _ a _ pk ok => some (a, pk.isSome, ok) | _ => none) =
    some [(bootAddr, true, true), (.v6 ⟨⟨1#128⟩, 80⟩, true, false)] := by decide +kernel

end Props

end Demag
