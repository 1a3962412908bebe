import Verif.Spec.DhtSockets
import Verif.Props.DhtNetwork
import Verif.Props.DhtSend
import Verif.Props.LogFaithful

/-!
# The sockets of the DHT client (C92)
-/

namespace Demag

open Spec

variable {lookup : Text → BitVec 16 → Option (List SockAddr)} {nodes : List InetAddr}

theorem resolve_v4 (a : InetAddr) (s : SockAddr) (h : InetAddr.resolve lookup false a = some s) : s.isIpv4 = true := by
  unfold InetAddr.resolve at h
  split at h
  · split at h
    · simpa using List.find?_some h
    · cases h
  · cases h; rfl
  · simp at h

/-- The addresses of the bootstrap nodes are those that the nodes resolve to. -/
theorem resolved_perm (es : List DhtEvent) : ∀ (s : DhtState) {st tr}, s.run lookup nodes es = some (st, tr) →
    ∀ b, DhtEvent.resolved b ∈ es → b.Perm (nodes.filterMap (InetAddr.resolve lookup s.actor.usingIpv6)) := by
  induction es with
  | nil => intro s st tr h b hb; cases hb
  | cons e es ih =>
    intro s st tr h b hb
    unfold DhtState.run at h
    cases hs : s.step lookup nodes e with
    | none => rw [hs] at h; cases h
    | some r =>
      obtain ⟨s1, out⟩ := r
      rw [hs] at h
      simp only at h
      cases hr : s1.run lookup nodes es with
      | none => rw [hr] at h; cases h
      | some r' =>
        rcases List.mem_cons.1 hb with rfl | hb
        · simp only [DhtState.step] at hs
          split at hs
          · rename_i hc
            exact List.isPerm_iff.1 hc.2
          · cases hs
        · rw [← (step_right e hs).1]
          exact ih s1 hr b hb

theorem bootstrapOf_mem (es : List DhtEvent) (x : SockAddr) (h : x ∈ bootstrapOf es) : ∃ b, DhtEvent.resolved b ∈ es ∧ x ∈ b := by
  unfold bootstrapOf at h
  cases hf : es.findSome? resolvedOf with
  | none => rw [hf] at h; cases h
  | some b =>
    rw [hf] at h
    obtain ⟨e, he, hb⟩ := List.exists_of_findSome?_eq_some hf
    cases e with
    | resolved addrs =>
      obtain rfl : addrs = b := by simpa [resolvedOf] using hb
      exact ⟨addrs, he, h⟩
    | _ => cases hb

theorem recv_conserves (h : UdpHandle) (first6 : Bool) (d : SockAddr × Bytes) (h' : UdpHandle) (e : h.recv first6 = some (d, h')) :
    from4 [d] ++ h'.ipv4 = h.ipv4 ∧ from6 [d] ++ h'.ipv6.getD [] = h.ipv6.getD [] ∧ h'.ipv6.isSome = h.ipv6.isSome := by
  obtain ⟨l4, l6⟩ := h
  rcases l4 with _ | ⟨d4, l4⟩ <;> rcases l6 with _ | _ | ⟨d6, l6⟩ <;> cases first6 <;> simp only [UdpHandle.recv] at e <;> cases e <;>
    simp [from4, from6]

theorem step_conserves (h : UdpHandle) (e : SocketEvent) (h' : UdpHandle) (got : List (SockAddr × Bytes)) (hs : h.step e = some (h', got)) :
    from4 got ++ h'.ipv4 = h.ipv4 ++ arrived4 [e] ∧ from6 got ++ h'.ipv6.getD [] = h.ipv6.getD [] ++ arrived6 [e] ∧
      h'.ipv6.isSome = h.ipv6.isSome := by
  cases e with
  | arrive4 d =>
    cases hs
    simp [from4, from6, arrived4, arrived6]
  | arrive6 d =>
    simp only [UdpHandle.step] at hs
    split at hs
    · rename_i l hl
      cases hs
      simp [from4, from6, arrived4, arrived6, hl]
    · cases hs
  | recv first6 =>
    simp only [UdpHandle.step] at hs
    cases hr : h.recv first6 with
    | none => rw [hr] at hs; cases hs
    | some r =>
      rw [hr] at hs
      cases hs
      have := recv_conserves h first6 r.1 r.2 hr
      simpa [arrived4, arrived6] using this

theorem run_conserves (es : List SocketEvent) : ∀ (h h' : UdpHandle) (got : List (SockAddr × Bytes)), h.run es = some (h', got) →
    from4 got ++ h'.ipv4 = h.ipv4 ++ arrived4 es ∧ from6 got ++ h'.ipv6.getD [] = h.ipv6.getD [] ++ arrived6 es ∧
      h'.ipv6.isSome = h.ipv6.isSome := by
  induction es with
  | nil => intro h h' got e; cases e; simp [from4, from6, arrived4, arrived6]
  | cons x es ih =>
    intro h h' got e
    unfold UdpHandle.run at e
    cases hs : h.step x with
    | none => rw [hs] at e; cases e
    | some r =>
      obtain ⟨h1, got1⟩ := r
      rw [hs] at e
      simp only at e
      cases hr : h1.run es with
      | none => rw [hr] at e; cases e
      | some r' =>
        obtain ⟨h2, got2⟩ := r'
        rw [hr] at e
        simp only [Option.some.injEq, Prod.mk.injEq] at e
        obtain ⟨rfl, rfl⟩ := e
        obtain ⟨a1, a2, a3⟩ := step_conserves h x h1 got1 hs
        obtain ⟨b1, b2, b3⟩ := ih h1 h2 got2 hr
        have c4 : arrived4 (x :: es) = arrived4 [x] ++ arrived4 es := by
          unfold arrived4; rw [← List.filterMap_append]; rfl
        have c6 : arrived6 (x :: es) = arrived6 [x] ++ arrived6 es := by
          unfold arrived6; rw [← List.filterMap_append]; rfl
        refine ⟨?_, ?_, b3.trans a3⟩
        · rw [c4, ← List.append_assoc, ← a1, List.append_assoc, ← b1]
          simp [from4]
        · rw [c6, ← List.append_assoc, ← a2, List.append_assoc, ← b2]
          simp [from6]

theorem none_arrives (es : List SocketEvent) : ∀ (h h' : UdpHandle) (got : List (SockAddr × Bytes)), h.ipv6 = none → h.run es = some (h', got) →
    arrived6 es = [] := by
  induction es with
  | nil => intro h h' got h0 e; rfl
  | cons x es ih =>
    intro h h' got h0 e
    unfold UdpHandle.run at e
    cases hs : h.step x with
    | none => rw [hs] at e; cases e
    | some r =>
      obtain ⟨h1, got1⟩ := r
      rw [hs] at e
      simp only at e
      cases hr : h1.run es with
      | none => rw [hr] at e; cases e
      | some r' =>
        have h3 := (step_conserves h x h1 got1 hs).2.2
        rw [h0] at h3
        have := ih h1 r'.1 r'.2 (by simpa using h3) hr
        cases x with
        | arrive6 d => simp [UdpHandle.step, h0] at hs
        | _ => exact this

end Demag

namespace Demag.Props

open Demag Spec

variable {lookup : Text → BitVec 16 → Option (List SockAddr)} {nodes : List InetAddr}

/-- **C92.** The DHT client can be created exactly if there is a socket for IPv4; it uses IPv6 exactly if there is also one for IPv6, and if not
it says so in the log. -/
theorem dht_created (my : NodeId) (bind4 bind6 : BindResult) :
    (DhtState.create my bind4 bind6 = none ↔ bind4 = .failed) ∧
    (∀ s, DhtState.create my bind4 bind6 = some s → s = DhtState.init my (decide (bind6 ≠ .failed))) ∧
    (SocketLine.withoutIpv6 ∈ (UdpHandle.new bind4 bind6).2 ↔ bind4 ≠ .failed ∧ bind6 = .failed) ∧
    (∀ p, SocketLine.port false p ∈ (UdpHandle.new bind4 bind6).2 ↔ bind4 = .bound (some p)) ∧
    (∀ p, SocketLine.port true p ∈ (UdpHandle.new bind4 bind6).2 ↔ bind4 ≠ .failed ∧ bind6 = .bound (some p)) := by
  cases bind4 with
  | failed => simp [DhtState.create, UdpHandle.new]
  | bound p4 =>
    cases bind6 with
    | failed => cases p4 <;> simp [DhtState.create, UdpHandle.new, UdpHandle.usingIpv6, portLine, eq_comm]
    | bound p6 => cases p4 <;> cases p6 <;> simp [DhtState.create, UdpHandle.new, UdpHandle.usingIpv6, portLine, eq_comm]

theorem port_text (io : Text) (a : Bool) (p : BitVec 16) : (SocketLine.port a p).text io =
    "DHT node using UDP port ".toList ++ decimal p.toNat ++ " for ".toList ++ familyName a ++ " communication".toList := rfl

theorem unknown_text (io : Text) (a : Bool) : (SocketLine.unknown a).text io =
    "Could not determine local address for DHT UDP socket on ".toList ++ familyName a ++ ": ".toList ++ io := rfl

theorem without_text (io : Text) : SocketLine.withoutIpv6.text io =
    "Failed to create UDP socket over IPv6 for DHT: ".toList ++ io ++ "; proceding without IPv6".toList := rfl

theorem family_cancel {a b : Bool} {r q : Text} (h : familyName a ++ r = familyName b ++ q) : a = b ∧ r = q := by
  have key : ∀ a b : Bool, familyName a = familyName b → a = b := by decide +kernel
  have hl : ∀ a, (familyName a).length = 4 := by decide +kernel
  have h1 := List.append_inj h (by rw [hl, hl])
  exact ⟨key _ _ h1.1, h1.2⟩

theorem port_told {a b : Bool} {p q : BitVec 16} {io io' : Text} (h : (SocketLine.port a p).text io = (SocketLine.port b q).text io') :
    a = b ∧ p = q := by
  simp only [port_text, List.append_assoc] at h
  replace h := List.append_cancel_left h
  have h1 := decimal_comma (s := " for ") (by decide) (by decide) h
  exact ⟨(family_cancel h1.2).1, BitVec.eq_of_toNat_eq h1.1⟩

theorem unknown_told {a b : Bool} {io io' : Text} (h : (SocketLine.unknown a).text io = (SocketLine.unknown b).text io') : a = b ∧ io = io' := by
  simp only [unknown_text, List.append_assoc] at h
  obtain ⟨h1, h2⟩ := family_cancel (List.append_cancel_left h)
  exact ⟨h1, List.append_cancel_left h2⟩

theorem without_told {io io' : Text} (h : SocketLine.withoutIpv6.text io = SocketLine.withoutIpv6.text io') : io = io' := by
  simp only [without_text] at h
  exact List.append_cancel_left (List.append_cancel_right h)

/-- **C92.** What the log says of the sockets can be read from it: which family has which port, or of which family the port is not known or there is no
socket, and what the system said about that. -/
theorem socket_line_told (l l' : SocketLine) (io io' : Text) :
    l.text io = l'.text io' ↔ l = l' ∧ (io = io' ∨ ∃ v6 p, l = .port v6 p) := by
  constructor
  · intro h
    match l, l' with
    | .port a p, .port b q =>
      obtain ⟨rfl, rfl⟩ := port_told h
      exact ⟨rfl, .inr ⟨_, _, rfl⟩⟩
    | .unknown a, .unknown b =>
      obtain ⟨rfl, rfl⟩ := unknown_told h
      exact ⟨rfl, .inl rfl⟩
    | .withoutIpv6, .withoutIpv6 => exact ⟨rfl, .inl (without_told h)⟩
    | .port .., .unknown .. | .port .., .withoutIpv6 | .unknown .., .port .. | .unknown .., .withoutIpv6 | .withoutIpv6, .port ..
    | .withoutIpv6, .unknown .. =>
      have h1 := congrArg List.head? h
      simp only [port_text, unknown_text, without_text, List.append_assoc] at h1
      rw [List.head?_append_of_ne_nil _ (by decide +kernel), List.head?_append_of_ne_nil _ (by decide +kernel)] at h1
      exact absurd h1 (by decide +kernel)
  · rintro ⟨rfl, rfl | ⟨v6, p, rfl⟩⟩ <;> rfl

/-- **C92.** Whatever arrives in whatever order, the datagrams that the client gets from a family, followed by those that still wait, are those
that arrived at the socket of that family, in order: none is lost, doubled, changed or attributed to somebody else. -/
theorem datagrams_delivered (bind4 bind6 : BindResult) (h h' : UdpHandle) (es : List SocketEvent) (got : List (SockAddr × List UInt8))
    (hn : (UdpHandle.new bind4 bind6).1 = some h) (hr : h.run es = some (h', got)) :
    from4 got ++ h'.ipv4 = arrived4 es ∧ from6 got ++ h'.ipv6.getD [] = arrived6 es ∧ (bind6 = .failed → arrived6 es = []) := by
  obtain ⟨h1, h2, h3⟩ := run_conserves es h h' got hr
  have e4 : h.ipv4 = [] ∧ h.ipv6.getD [] = [] ∧ (bind6 = .failed → h.ipv6 = none) := by
    unfold UdpHandle.new at hn
    cases bind4 <;> cases bind6 <;> cases hn <;> simp
  refine ⟨by rw [h1, e4.1, List.nil_append], by rw [h2, e4.2.1, List.nil_append], fun hb => ?_⟩
  exact none_arrives es h h' got (e4.2.2 hb) hr

/-- **C92.** Waiting for a datagram ends exactly if there is one in either socket, and each of the sockets can be served. -/
theorem datagram_waits (h : UdpHandle) :
    (∀ first6, h.recv first6 = none ↔ h.ipv4 = [] ∧ h.ipv6.getD [] = []) ∧
    (∀ d l, h.ipv4 = d :: l → ∃ first6 h', h.recv first6 = some ((.v4 d.1, d.2), h')) ∧
    (∀ d l, h.ipv6 = some (d :: l) → ∃ first6 h', h.recv first6 = some ((.v6 d.1, d.2), h')) := by
  obtain ⟨l4, l6⟩ := h
  refine ⟨fun first6 => ?_, fun d l e => ?_, fun d l e => ?_⟩
  · cases l4 <;> rcases l6 with _ | _ | ⟨_, _⟩ <;> cases first6 <;> simp [UdpHandle.recv]
  · simp only at e
    subst e
    rcases l6 with _ | _ | ⟨_, _⟩ <;> exact ⟨false, _, rfl⟩
  · simp only at e
    subst e
    cases l4 <;> exact ⟨true, _, rfl⟩

/-- **C92.** Sending fails without the system's doing exactly for IPv6 addresses without IPv6, and `udpSend`, with which C39 is stated, tells
whether it succeeds. -/
theorem send_disabled (h : UdpHandle) (udp : SockAddr → List UInt8 → Bool) (addr : SockAddr) (msg : List UInt8) :
    (h.send udp addr msg = some .ipv6Disabled ↔ (∃ a, addr = .v6 a) ∧ h.ipv6 = none) ∧
    (h.send udp addr msg = none ↔ udpSend h.usingIpv6 udp addr msg = true) := by
  obtain ⟨l4, l6⟩ := h
  generalize hu : udp addr msg = u
  cases addr <;> cases l6 <;> cases u <;> simp [UdpHandle.send, udpSend, UdpHandle.usingIpv6, SockAddr.isIpv4, hu]

/-- **C92.** Without IPv6 the client goes on over IPv4: in every schedule, bootstrap nodes are used with IPv4 addresses only, no query asks
for IPv6 nodes, and nothing is sent to an IPv6 address.  As long as no response lists IPv6 nodes, which nobody asked for, there is not even an
attempt. -/
theorem without_ipv6 (my : NodeId) (bind4 : BindResult) (s st : DhtState) (es : List DhtEvent) (tr : List DhtEffect)
    (hc : DhtState.create my bind4 .failed = some s) (h : s.run lookup nodes es = some (st, tr)) :
    (∀ b, DhtEvent.resolved b ∈ es → ∀ x ∈ b, ∃ a, x = .v4 a) ∧
    (∀ sid addr q pk ok, DhtEffect.query sid addr q pk ok ∈ tr → q.want = none ∧ (ok = true → ∃ a, addr = .v4 a)) ∧
    (∀ sid, (∀ r ∈ responses sid tr, r.2.nodes6 = []) → ∀ x ∈ queriedBy sid tr, ∃ a, x = .v4 a) := by
  obtain rfl := (dht_created my bind4 .failed).2.1 s hc
  have hv4 : ∀ x : SockAddr, x.isIpv4 = true → ∃ a, x = .v4 a := by
    intro x hx
    cases x with
    | v4 a => exact ⟨a, rfl⟩
    | v6 a => cases hx
  have hb : ∀ b, DhtEvent.resolved b ∈ es → ∀ x ∈ b, ∃ a, x = .v4 a := by
    intro b hb x hx
    have hp := (resolved_perm es _ h b hb).mem_iff.1 hx
    obtain ⟨n, -, hn⟩ := List.mem_filterMap.1 hp
    exact hv4 x (resolve_v4 n x hn)
  refine ⟨hb, fun sid addr q pk ok hq => ⟨?_, fun hok => ?_⟩, fun sid hr x hx => ?_⟩
  · obtain ⟨-, -, -, -, -, -, -, hw⟩ := query_fields my _ es st tr h _ (List.mem_filterMap.2 ⟨_, hq, rfl⟩)
    simpa using hw
  · obtain ⟨e, -, -, hi⟩ := query_sent_iff my _ es h sid addr q pk ok hq
    obtain ⟨msg, -, h1 | h1, -⟩ := hi.1 hok
    · exact h1
    · simp at h1
  · rcases (StInv.run my _ es h).queried sid with h0 | ⟨hash, h0⟩
    · rw [h0] at hx; cases hx
    · rw [h0] at hx
      rcases List.mem_append.1 hx with hx | hx
      · obtain ⟨b, h1, h2⟩ := bootstrapOf_mem es x hx
        exact hb b h1 x h2
      · obtain ⟨n, hn, rfl⟩ := List.mem_map.1 hx
        obtain ⟨r, h1, h2⟩ := asked_listed hash _ n hn
        unfold listed at h2
        rw [hr r h1, List.map_nil, List.append_nil] at h2
        obtain ⟨m, -, rfl⟩ := List.mem_map.1 h2
        exact ⟨_, rfl⟩

/-- **C92.** With IPv6, every query asks for nodes of both families, and a query to an IPv6 address is sent if the socket takes it. -/
theorem with_ipv6 (my : NodeId) (bind4 : BindResult) (port : Option (BitVec 16)) (s st : DhtState) (es : List DhtEvent) (tr : List DhtEffect)
    (hc : DhtState.create my bind4 (.bound port) = some s) (h : s.run lookup nodes es = some (st, tr)) :
    ∀ sid addr q pk ok, DhtEffect.query sid addr q pk ok ∈ tr → q.want = some [.n4, .n6] ∧
      ∃ e ∈ es, (ok = true ↔ ∃ msg, pk = some msg ∧ e.takes addr msg = true) := by
  obtain rfl := (dht_created my bind4 (.bound port)).2.1 s hc
  intro sid addr q pk ok hq
  obtain ⟨-, -, -, -, -, -, -, hw⟩ := query_fields my _ es st tr h _ (List.mem_filterMap.2 ⟨_, hq, rfl⟩)
  obtain ⟨e, he, -, hi⟩ := query_sent_iff my _ es h sid addr q pk ok hq
  refine ⟨by simpa using hw, e, he, hi.trans ⟨?_, ?_⟩⟩
  · rintro ⟨msg, h1, -, h2⟩
    exact ⟨msg, h1, h2⟩
  · rintro ⟨msg, h1, h2⟩
    exact ⟨msg, h1, .inr (by simp), h2⟩

/-- A response that lists eight IPv6 nodes close to the info hash 0 and a good IPv4 node a little farther away. -/
def unaskedResponse : List UInt8 :=
  key "d1:rd2:id20:AAAAAAAAAAAAAAAAAAAA5:nodes26:" ++ smallCompact 100 12 ++ key "6:nodes6304:" ++
    ((List.range 8).flatMap fun i => UInt8.ofNat (i + 1) :: List.replicate 19 0 ++ List.replicate 15 0 ++ [UInt8.ofNat (i + 1), 0, 9]) ++
    key "5:token2:xy6:valuesl6:" ++ [5, 6, 7, 8, 0, 80] ++ key "ee1:t4:" ++ [0, 0, 0, 0] ++ key "1:y1:re"

/-- The bootstrap node answers so, although nobody asked for IPv6 nodes. -/
def eventsUnasked : List DhtEvent :=
  [.resolved [bootAddr], .submit (.lookup 7 ⟨List.replicate 20 0, by decide⟩), .receive (fun _ _ => true),
   .packet bootAddr unaskedResponse [0] (fun _ _ => true)]

/-- **C92.** What `without_ipv6` says only of responses without IPv6 nodes is not true of all: without IPv6, a response that lists IPv6 nodes
nobody asked for makes the client try to send to them, which it logs as an internal error, and as they take the eight places, the lookup ends
without asking the only node that it could have asked. -/
theorem unasked_ipv6 : ∃ (my : NodeId) (s st : DhtState) (es : List DhtEvent) (tr : List DhtEffect) (result : FoundPeers) (n : Node) (a : SockV6),
    DhtState.create my (.bound none) .failed = some s ∧ s.run (fun _ _ => none) [⟨.ipv4 ⟨0x01020304#32⟩, 1⟩] es = some (st, tr) ∧
    DhtEffect.answer 7 result ∈ tr ∧ (∃ r ∈ responses 0 tr, n ∈ listed r.2) ∧ (∃ x, Node.address n = .v4 x) ∧
    Node.address n ∉ queriedBy 0 tr ∧ SockAddr.v6 a ∈ queriedBy 0 tr := by
  have h : (runOf eventsUnasked).map (fun r => (
      decide (DhtEffect.answer 7 ⟨[Peer.ofAddr (.v4 ⟨⟨0x05060708#32⟩, 80⟩)], []⟩ ∈ r.2),
      (responses 0 r.2).any fun x => decide (smallNode 100 12 ∈ listed x.2),
      decide (Node.address (smallNode 100 12) ∉ queriedBy 0 r.2) && decide (SockAddr.v6 ⟨⟨1#128⟩, 9⟩ ∈ queriedBy 0 r.2))) =
      some (true, true, true) := by
    decide +kernel
  cases hr : runOf eventsUnasked with
  | none => rw [hr] at h; cases h
  | some p =>
    obtain ⟨st, tr⟩ := p
    rw [hr] at h
    simp only [Option.map_some, Option.some.injEq, Prod.mk.injEq, Bool.and_eq_true, decide_eq_true_eq, List.any_eq_true] at h
    obtain ⟨h1, ⟨x, h2, h3⟩, h4, h5⟩ := h
    exact ⟨_, _, st, _, tr, _, smallNode 100 12, _, rfl, hr, h1, ⟨x, h2, h3⟩, ⟨_, rfl⟩, h4, h5⟩

/-! Concrete cases. -/

-- no IPv6
example := (dht_created ⟨List.replicate 20 0, by decide⟩ (.bound (some 4000)) .failed).2.1 _ rfl
example : (UdpHandle.new (.bound (some 4000)) .failed).2.map (SocketLine.text "x".toList) =
    ["DHT node using UDP port 4000 for IPv4 communication".toList,
     "Failed to create UDP socket over IPv6 for DHT: x; proceding without IPv6".toList] := by decide +kernel

example : (SocketLine.port true 4000).text "x".toList ≠ (SocketLine.port true 4001).text "x".toList := by
  rw [ne_eq, socket_line_told]
  decide

-- two datagrams over IPv4 and one over IPv6, of which two are taken
example := datagrams_delivered (.bound none) (.bound none) ⟨[], some []⟩
  ⟨[(⟨⟨0x01020304#32⟩, 2⟩, [2])], some []⟩
  [.arrive4 (⟨⟨0x01020304#32⟩, 1⟩, [1]), .arrive6 (⟨⟨1#128⟩, 3⟩, [3]), .arrive4 (⟨⟨0x01020304#32⟩, 2⟩, [2]), .recv true, .recv true]
  [(.v6 ⟨⟨1#128⟩, 3⟩, [3]), (.v4 ⟨⟨0x01020304#32⟩, 1⟩, [1])] rfl (by decide +kernel)

-- a lookup without IPv6 that ends with peers: the runs of C91
example : ∃ st tr, (DhtState.create ⟨List.replicate 20 0, by decide⟩ (.bound none) .failed).bind
    (fun s => s.run (fun _ _ => none) [⟨.ipv4 ⟨0x01020304#32⟩, 1⟩] eventsSeven) = some (st, tr) ∧ (queries tr).length = 10 ∧
    (∀ r ∈ responses 0 tr, r.2.nodes6 = []) := by
  have h : (runOf eventsSeven).map (fun r => (decide ((queries r.2).length = 10), (responses 0 r.2).all fun x => decide (x.2.nodes6 = []))) =
      some (true, true) := by decide +kernel
  cases hr : runOf eventsSeven with
  | none => rw [hr] at h; cases h
  | some p =>
    obtain ⟨st, tr⟩ := p
    rw [hr] at h
    simp only [Option.map_some, Option.some.injEq, Prod.mk.injEq, decide_eq_true_eq, List.all_eq_true] at h
    refine ⟨st, tr, ?_, h.1, h.2⟩
    rw [show DhtState.create ⟨List.replicate 20 0, by decide⟩ (.bound none) .failed = some (DhtState.init ⟨List.replicate 20 0, by decide⟩ false)
      from rfl, Option.bind_some]
    exact hr

end Demag.Props
