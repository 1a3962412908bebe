import Verif.Spec.DhtLog
import Verif.Props.DhtSockets

/-!
# The log of the DHT client (C95)
-/

namespace Demag

open Spec

variable {lookup : Text → BitVec 16 → Option (List SockAddr)} {nodes : List InetAddr}

theorem told_append {α : Type} (f : List DhtEffect → DhtEffect → Option α) (b l m : List DhtEffect) :
    told f b (l ++ m) = told f b l ++ told f (b ++ l) m := by
  induction l generalizing b with
  | nil => simp [told]
  | cons x l ih => simp [told, ih]

theorem told_none {α : Type} (f : List DhtEffect → DhtEffect → Option α) (b l : List DhtEffect) (h : ∀ x ∈ l, ∀ b, f b x = none) : told f b l = [] := by
  induction l generalizing b with
  | nil => rfl
  | cons x l ih => simp [told, h x, ih (b ++ [x]) fun y hy => h y (List.mem_cons_of_mem _ hy)]

/-- The effect of an attempt to send a query. -/
def sentAs (v6 : Bool) (udp : SockAddr → Bytes → Bool) (sid : Nat) (x : SockAddr × GetPeersQuery) : DhtEffect :=
  match x.2.toBencode with
  | none => .query sid x.1 x.2 none false
  | some m => .query sid x.1 x.2 (some m) (udpSend v6 udp x.1 m)

theorem sendFailed_keeps (a : DhtActor) (sid : Nat) (addr : SockAddr) (t : Bytes) :
    (a.sendFailed sid addr t).usingIpv6 = a.usingIpv6 ∧ (a.sendFailed sid addr t).senders = a.senders ∧
      ∀ i, (HMap.get (a.sendFailed sid addr t).sessions i).map LookupSession.nodes = (HMap.get a.sessions i).map LookupSession.nodes := by
  unfold DhtActor.sendFailed
  cases h : HMap.get a.sessions sid with
  | none => exact ⟨rfl, rfl, fun _ => rfl⟩
  | some s =>
    refine ⟨rfl, rfl, fun i => ?_⟩
    simp only
    rw [HMap.get_set]
    split
    · rename_i hi
      rw [← hi, h]
      rfl
    · rfl

theorem sendQuery_shape (a : DhtActor) (udp : SockAddr → Bytes → Bool) (sid : Nat) (addr : SockAddr) (q : GetPeersQuery) :
    (a.sendQuery udp sid addr q).2 = [sentAs a.usingIpv6 udp sid (addr, q)] ∧ (a.sendQuery udp sid addr q).1.usingIpv6 = a.usingIpv6 ∧
      (a.sendQuery udp sid addr q).1.senders = a.senders ∧
      ∀ i, (HMap.get (a.sendQuery udp sid addr q).1.sessions i).map LookupSession.nodes = (HMap.get a.sessions i).map LookupSession.nodes := by
  have k := sendFailed_keeps a sid addr q.transactionId
  unfold DhtActor.sendQuery sentAs
  cases q.toBencode with
  | none => exact ⟨rfl, k⟩
  | some m =>
    simp only
    by_cases hu : udpSend a.usingIpv6 udp addr m = true
    · rw [if_pos hu, hu]; exact ⟨rfl, rfl, rfl, fun _ => rfl⟩
    · rw [if_neg hu, (Bool.not_eq_true _).mp hu]; exact ⟨rfl, k⟩

theorem sendAll_shape (udp : SockAddr → Bytes → Bool) (sid : Nat) (l : List (SockAddr × GetPeersQuery)) : ∀ a : DhtActor,
    (a.sendAll udp sid l).2 = l.map (sentAs a.usingIpv6 udp sid) ∧
      (a.sendAll udp sid l).1.senders = a.senders ∧
      ∀ i, (HMap.get (a.sendAll udp sid l).1.sessions i).map LookupSession.nodes = (HMap.get a.sessions i).map LookupSession.nodes := by
  induction l with
  | nil => intro a; exact ⟨rfl, rfl, fun _ => rfl⟩
  | cons x l ih =>
    intro a
    obtain ⟨addr, q⟩ := x
    rw [DhtActor.sendAll]
    obtain ⟨h1, h2, h3, h4⟩ := sendQuery_shape a udp sid addr q
    obtain ⟨i1, i2, i3⟩ := ih (a.sendQuery udp sid addr q).1
    simp only
    refine ⟨?_, i2.trans h3, fun i => (i3 i).trans (h4 i)⟩
    rw [h1, i1, h2]
    rfl

theorem outgoing_shape (s : LookupSession) (l : List SockAddr) : ∀ t : BitVec 32,
    (outgoingLoop s l t).2.2.map (fun x => (x.1, x.2.infoHash)) = l.map (fun a => (a, s.nodes.infoHash)) ∧
      (outgoingLoop s l t).1.nodes = s.nodes := by
  induction l generalizing s with
  | nil => intro t; exact ⟨rfl, rfl⟩
  | cons a l ih =>
    intro t
    obtain ⟨i1, i2⟩ := ih { s with inFlight := setInsert s.inFlight (a, txnId t) } (t + 1)
    refine ⟨?_, i2⟩
    simp only [outgoingLoop, List.map_cons, i1]
    rfl

/-- The log of a part of a run tells of it what it should. -/
structure ToldRight (v6 : Bool) (tr : List DhtEffect) (log : List DhtLine) (out : List DhtEffect) : Prop where
  asks : log.filterMap saidQuery = told tellQuery tr out
  ends : log.filterMap saidEnd = told tellEnd tr out
  fails : log.filterMap saidFailure = out.filterMap (tellFailure v6)
  found : List.Forall₂ (fun f (a : Nat × List Peer) => f.1 = a.2 ∧ ∃ sid, DhtEffect.started sid a.1 f.2 ∈ tr ++ out) (log.filterMap saidFound)
    (out.filterMap foundBy)
  count : (log.filterMap saidEnd).length = (Spec.ends out).length

theorem ToldRight.nil (v6 : Bool) (tr : List DhtEffect) : ToldRight v6 tr [] [] := ⟨rfl, rfl, rfl, .nil, rfl⟩

theorem ToldRight.append {v6 tr l1 o1 l2 o2} (h1 : ToldRight v6 tr l1 o1) (h2 : ToldRight v6 (tr ++ o1) l2 o2) :
    ToldRight v6 tr (l1 ++ l2) (o1 ++ o2) := by
  refine ⟨?_, ?_, ?_, ?_, ?_⟩
  · rw [List.filterMap_append, told_append, h1.asks, h2.asks]
  · rw [List.filterMap_append, told_append, h1.ends, h2.ends]
  · rw [List.filterMap_append, List.filterMap_append, h1.fails, h2.fails]
  · rw [List.filterMap_append, List.filterMap_append]
    refine List.rel_append ?_ ?_
    · refine h1.found.imp ?_
      rintro f a ⟨e, sid, hs⟩
      refine ⟨e, sid, ?_⟩
      rw [← List.append_assoc]
      exact List.mem_append_left _ hs
    · refine h2.found.imp ?_
      rintro f a ⟨e, sid, hs⟩
      refine ⟨e, sid, ?_⟩
      rwa [← List.append_assoc]
  · rw [List.filterMap_append, ends_append, List.length_append, List.length_append, h1.count, h2.count]

theorem nameAt_sent (v6 : Bool) (udp : SockAddr → Bytes → Bool) (sid i : Nat) (x : SockAddr × GetPeersQuery) (b : List DhtEffect) (a : SockAddr) :
    nameAt i (b ++ [sentAs v6 udp sid x]) a = nameAt i b a := by
  have : responses i [sentAs v6 udp sid x] = [] := by
    unfold sentAs
    cases x.2.toBencode <;> rfl
  unfold nameAt
  rw [responses_append, this, List.append_nil]

theorem told_sent (v6 : Bool) (udp : SockAddr → Bytes → Bool) (sid : Nat) (l : List (SockAddr × GetPeersQuery)) : ∀ b : List DhtEffect,
    told tellQuery b (l.map (sentAs v6 udp sid)) = l.map fun x => (x.1, nameAt sid b x.1, x.2.infoHash) := by
  induction l with
  | nil => intro b; rfl
  | cons x l ih =>
    intro b
    have : tellQuery b (sentAs v6 udp sid x) = some (x.1, nameAt sid b x.1, x.2.infoHash) := by
      unfold sentAs
      cases x.2.toBencode <;> rfl
    simp only [List.map_cons, told, this, ih, nameAt_sent, Option.toList_some, List.singleton_append]

theorem fails_sent (v6 : Bool) (udp : SockAddr → Bytes → Bool) (sid : Nat) (x : SockAddr × GetPeersQuery) :
    (sendLine v6 udp x).bind saidFailure = tellFailure v6 (sentAs v6 udp sid x) := by
  obtain ⟨a, q⟩ := x
  unfold sendLine sentAs
  simp only
  cases q.toBencode with
  | none => rfl
  | some m =>
    simp only [udpSend]
    cases a with
    | v4 a => cases udp (.v4 a) m <;> simp [SockAddr.isIpv4, saidFailure, tellFailure]
    | v6 a => cases v6 <;> cases udp (.v6 a) m <;> simp [SockAddr.isIpv4, saidFailure, tellFailure]

theorem sendLine_only (v6 : Bool) (udp : SockAddr → Bytes → Bool) (x : SockAddr × GetPeersQuery) (y : DhtLine) (h : sendLine v6 udp x = some y) :
    saidQuery y = none ∧ saidEnd y = none ∧ saidFound y = none ∧ saidPacket y = none ∧ saidStart y = none ∧ saidDomain y = none := by
  unfold sendLine at h
  split at h
  · cases h; exact ⟨rfl, rfl, rfl, rfl, rfl, rfl⟩
  · split at h
    · split at h
      · cases h
      · cases h; exact ⟨rfl, rfl, rfl, rfl, rfl, rfl⟩
    · cases h; exact ⟨rfl, rfl, rfl, rfl, rfl, rfl⟩

theorem filterMap_none {α β : Type} (f : α → Option β) (l : List α) (h : ∀ x ∈ l, f x = none) : l.filterMap f = [] :=
  List.filterMap_eq_nil_iff.2 h

/-- The result of a lookup is told. -/
theorem found_told {v6 : Bool} {tr : List DhtEffect} (a : DhtActor) {sid req : Nat} {h : InfoHash} (hst : DhtEffect.started sid req h ∈ tr)
    (hse : HMap.get a.senders sid = some req) (hn : ∀ s, HMap.get a.sessions sid = some s → s.nodes.infoHash = h) :
    ToldRight v6 tr (a.foundLog sid) (a.postprocess sid).2 := by
  unfold DhtActor.foundLog DhtActor.postprocess
  cases hg : HMap.get a.sessions sid with
  | none => exact ToldRight.nil _ _
  | some s =>
    simp only
    cases hr : s.getResult with
    | none => exact ToldRight.nil _ _
    | some r =>
      simp only [hse]
      refine ⟨rfl, rfl, rfl, .cons ⟨rfl, sid, ?_⟩ .nil, rfl⟩
      rw [hn s hg]
      exact List.mem_append_left _ hst

/-- The service of a lookup is told. -/
theorem service_told {tr : List DhtEffect} (a : DhtActor) (s : LookupSession) (t : BitVec 32) (udp : SockAddr → Bytes → Bool)
    {sid req : Nat} {h : InfoHash} (hst : DhtEffect.started sid req h ∈ tr) (hse : HMap.get a.senders sid = some req)
    (hsn : s.nodes = (nodeSpaceOf h (responses sid tr)).1) (hg : HMap.get a.sessions sid = some (s.getOutgoing t).1) :
    ToldRight a.usingIpv6 tr
      (s.queryLog ++ ((s.getOutgoing t).2.2.filterMap (sendLine a.usingIpv6 udp) ++ (a.sendAll udp sid (s.getOutgoing t).2.2).1.foundLog sid))
      ((a.sendAll udp sid (s.getOutgoing t).2.2).2 ++ ((a.sendAll udp sid (s.getOutgoing t).2.2).1.postprocess sid).2) := by
  have hh : s.nodes.infoHash = h := by
    rw [hsn]
    exact (SpaceInv.run h (nodeOps (responses sid tr))).hash
  obtain ⟨o1, o2⟩ := outgoing_shape { s with toQuery := [] } s.toQuery t
  change (s.getOutgoing t).2.2.map (fun x => (x.1, x.2.infoHash)) = s.toQuery.map (fun a => (a, s.nodes.infoHash)) at o1
  change (s.getOutgoing t).1.nodes = s.nodes at o2
  generalize s.getOutgoing t = o at *
  obtain ⟨p1, p2, p3⟩ := sendAll_shape udp sid o.2.2 a
  have hsent : ToldRight a.usingIpv6 tr (s.queryLog ++ o.2.2.filterMap (sendLine a.usingIpv6 udp)) (a.sendAll udp sid o.2.2).2 := by
    have hq : ∀ x ∈ s.queryLog, saidEnd x = none ∧ saidFailure x = none ∧ saidFound x = none := by
      intro x hx
      obtain ⟨y, -, rfl⟩ := List.mem_map.1 hx
      exact ⟨rfl, rfl, rfl⟩
    have hs : ∀ x ∈ o.2.2.filterMap (sendLine a.usingIpv6 udp), saidQuery x = none ∧ saidEnd x = none ∧ saidFound x = none := by
      intro x hx
      obtain ⟨y, -, hy⟩ := List.mem_filterMap.1 hx
      obtain ⟨k1, k2, k3, -⟩ := sendLine_only _ _ _ _ hy
      exact ⟨k1, k2, k3⟩
    have he : ∀ x ∈ o.2.2.map (sentAs a.usingIpv6 udp sid), foundBy x = none ∧ endOf x = none ∧ ∀ b, tellEnd b x = none := by
      intro x hx
      obtain ⟨y, -, rfl⟩ := List.mem_map.1 hx
      unfold sentAs
      cases y.2.toBencode <;> exact ⟨rfl, rfl, fun _ => rfl⟩
    rw [p1]
    refine ⟨?_, ?_, ?_, ?_, ?_⟩
    · rw [List.filterMap_append, filterMap_none saidQuery _ fun x hx => (hs x hx).1, List.append_nil, told_sent]
      have e : ∀ ad, HMap.get s.nodes.addr2node ad = nameAt sid tr ad := by
        intro ad
        rw [hsn]
        exact addr2node_find h _ ad
      have e1 : (o.2.2.map fun x => (x.1, nameAt sid tr x.1, x.2.infoHash)) =
          (o.2.2.map fun x => (x.1, x.2.infoHash)).map fun y => (y.1, nameAt sid tr y.1, y.2) := by rw [List.map_map]; rfl
      rw [e1, o1, List.map_map]
      unfold LookupSession.queryLog
      rw [List.filterMap_map, ← List.filterMap_eq_map]
      apply List.filterMap_congr
      intro ad _
      simp [saidQuery, e]
    · rw [List.filterMap_append, filterMap_none saidEnd _ fun x hx => (hs x hx).2.1, filterMap_none saidEnd _ fun x hx => (hq x hx).1,
        told_none _ _ _ fun x hx => (he x hx).2.2]
      rfl
    · rw [List.filterMap_append, filterMap_none saidFailure _ fun x hx => (hq x hx).2.1, List.nil_append, List.filterMap_filterMap, List.filterMap_map]
      apply List.filterMap_congr
      intro x _
      exact fails_sent _ _ _ _
    · rw [List.filterMap_append, filterMap_none saidFound _ fun x hx => (hs x hx).2.2, filterMap_none saidFound _ fun x hx => (hq x hx).2.2,
        filterMap_none foundBy _ fun x hx => (he x hx).1]
      exact .nil
    · rw [List.filterMap_append, filterMap_none saidEnd _ fun x hx => (hs x hx).2.1, filterMap_none saidEnd _ fun x hx => (hq x hx).1]
      unfold Spec.ends
      rw [filterMap_none endOf _ fun x hx => (he x hx).2.1]
      rfl
  rw [← List.append_assoc]
  refine hsent.append (found_told _ (req := req) (h := h) (List.mem_append_left _ hst) (by rw [p2]; exact hse) ?_)
  intro s' hs'
  have := p3 sid
  rw [hs', hg] at this
  simp only [Option.map_some, Option.some.injEq] at this
  rw [this, o2, hh]

theorem torrentOf_eq {my v6 boot cur a tr} (v : ActMid my v6 boot cur a tr) {sid req : Nat} {h : InfoHash} (hst : DhtEffect.started sid req h ∈ tr) :
    torrentOf sid tr = some h := by
  unfold torrentOf
  cases hf : tr.findSome? (startedAs sid) with
  | none =>
    have := List.findSome?_eq_none_iff.1 hf _ hst
    simp [startedAs] at this
  | some h' =>
    obtain ⟨e, he, hb⟩ := List.exists_of_findSome?_eq_some hf
    cases e with
    | started i r g =>
      simp only [startedAs] at hb
      split at hb
      · rename_i hi
        subst hi
        cases hb
        rw [(v.unique _ _ _ _ _ he hst).2]
      · cases hb
    | _ => cases hb

/-- The reply is told. -/
theorem reply_told {my v6 boot a tr} (v : ActMid my v6 boot none a tr) {sid : Nat} {s : LookupSession} (hg : HMap.get a.sessions sid = some s)
    (addr : SockAddr) (txn msg : Bytes) :
    ToldRight v6 tr [.line (replyLine s addr msg)] [.replied sid addr txn msg] ∧ saidPacket (.line (replyLine s addr msg)) = some addr := by
  obtain ⟨req, h, hst, -, hm, -⟩ := v.live sid s hg
  have hh : s.nodes.infoHash = h := by
    rw [hm.nodes]
    exact (SpaceInv.run h (nodeOps (responses sid tr))).hash
  have e : HMap.get s.nodes.addr2node addr = nameAt sid tr addr := by
    rw [hm.nodes]
    exact addr2node_find h _ addr
  have ht := torrentOf_eq v hst
  unfold replyLine
  cases hd : decodeResponse lossyUtf8 msg with
  | ok r =>
    refine ⟨⟨rfl, ?_, rfl, .nil, rfl⟩, rfl⟩
    simp [told, tellEnd, ht, saidEnd, endBy, hd, e, hh]
  | error er =>
    cases er <;> refine ⟨⟨rfl, ?_, rfl, .nil, rfl⟩, rfl⟩ <;> simp [told, tellEnd, ht, saidEnd, endBy, hd, e]

/-- A packet is told. -/
theorem message_told {my v6 boot a tr} (v : ActMid my v6 boot none a tr) (order : List Nat) (udp : SockAddr → Bytes → Bool) (addr : SockAddr) (msg : Bytes) :
    ToldRight v6 tr (a.messageLog order udp addr msg) (a.handleMessage order udp addr msg).2 := by
  unfold DhtActor.handleMessage DhtActor.messageLog
  cases hp : prescan msg with
  | none => exact ⟨rfl, rfl, rfl, .nil, rfl⟩
  | some p =>
    simp only
    by_cases hq : p.msgType = .query
    · rw [if_pos hq, if_pos hq]; exact ⟨rfl, rfl, rfl, .nil, rfl⟩
    · rw [if_neg hq, if_neg hq]
      have hf := findSession_eq (fun s => s.handleMessage addr p.transactionId msg) (fun s => (addr, p.transactionId) ∈ s.inFlight)
        (by intro s h; simp only [LookupSession.handleMessage]; rw [if_pos h]; split <;> rfl)
        (by intro s h; simp only [LookupSession.handleMessage]; rw [if_neg h]) a.sessions v.nodup order
      rcases hf with ⟨hf, -⟩ | ⟨sid, s, -, hg, hin, hf⟩
      · rw [hf]; exact ⟨rfl, rfl, rfl, .nil, rfl⟩
      · rw [hf]
        have hg1 : HMap.get (HMap.set a.sessions sid (s.handleMessage addr p.transactionId msg).1) sid =
            some (s.handleMessage addr p.transactionId msg).1 := by
          rw [HMap.get_set, if_pos rfl, hg]; rfl
        simp only [hg1, hg]
        obtain ⟨req, h, hst, hse, hm, -⟩ := v.live sid s hg
        have hm1 := hm.replied addr p.transactionId msg hin
        have h1 := (reply_told v hg addr p.transactionId msg).1
        have hu := v.v6Eq
        generalize (s.handleMessage addr p.transactionId msg).1 = s1 at *
        have h2 := service_told (tr := tr ++ [.replied sid addr p.transactionId msg])
          { a with sessions := HMap.set (HMap.set a.sessions sid s1) sid (s1.getOutgoing a.txn).1, txn := (s1.getOutgoing a.txn).2.1 } s1 a.txn udp
          (List.mem_append_left _ hst) hse hm1.nodes (by
            show HMap.get (HMap.set (HMap.set a.sessions sid s1) sid (s1.getOutgoing a.txn).1) sid = _
            rw [HMap.get_set, if_pos rfl, hg1]; rfl)
        simp only [hu] at h2 ⊢
        exact h1.append h2

/-- A timeout is told. -/
theorem timer_told {my v6 boot a tr} (v : ActMid my v6 boot none a tr) (order : List Nat) (addr : SockAddr) (txn : Bytes) :
    ToldRight v6 tr (a.timerLog order addr txn) (a.handleTimer order addr txn).2 := by
  unfold DhtActor.handleTimer DhtActor.timerLog
  have hf := findSession_eq (fun s => s.handleTimeout addr txn) (fun s => (addr, txn) ∈ s.inFlight)
    (by intro s h; simp only [LookupSession.handleTimeout]; rw [if_pos h])
    (by intro s h; simp only [LookupSession.handleTimeout]; rw [if_neg h]) a.sessions v.nodup order
  rcases hf with ⟨hf, -⟩ | ⟨sid, s, -, hg, hin, hf⟩
  · rw [hf]; exact ToldRight.nil _ _
  · rw [hf]
    simp only [hg]
    obtain ⟨req, h, hst, hse, hm, -⟩ := v.live sid s hg
    have e : HMap.get s.nodes.addr2node addr = nameAt sid tr addr := by
      rw [hm.nodes]
      exact addr2node_find h _ addr
    have hh : s.nodes.infoHash = h := by
      rw [hm.nodes]
      exact (SpaceInv.run h (nodeOps (responses sid tr))).hash
    have h1 : ToldRight v6 tr [.line (.nodeTimeout addr (HMap.get s.nodes.addr2node addr))] [.timedOut sid addr txn] := by
      refine ⟨rfl, ?_, rfl, .nil, rfl⟩
      simp [told, tellEnd, saidEnd, e]
    refine h1.append (found_told _ (req := req) (h := h) (List.mem_append_left _ hst) hse ?_)
    intro s' hs'
    simp only at hs'
    rw [HMap.get_set, if_pos rfl, hg] at hs'
    cases hs'
    simp only [LookupSession.handleTimeout]
    rw [if_pos hin]
    exact hh

/-- A request is told. -/
theorem lookup_told {my v6 boot a tr} (v : ActMid my v6 boot none a tr) (udp : SockAddr → Bytes → Bool) (req : Nat) (h : InfoHash) :
    ToldRight v6 tr (a.lookupLog boot udp req h) (a.lookup boot udp req h).2 := by
  have hfresh : ∀ e ∈ tr, lookupOf e ≠ some a.nextSid := by
    intro e he hl
    exact absurd (v.lt e he _ hl) (Nat.lt_irrefl _)
  have e2 : responses a.nextSid tr = [] := by
    have := responses_other a.nextSid [] tr hfresh; simpa [responses] using this
  have h1 : ToldRight v6 tr [] [.started a.nextSid req h] := ⟨rfl, rfl, rfl, .nil, rfl⟩
  have h2 := service_told (tr := tr ++ [.started a.nextSid req h])
    { a with
      txn := ((LookupSession.new h a.myId a.usingIpv6 boot).getOutgoing a.txn).2.1
      nextSid := a.nextSid + 1
      sessions := HMap.insert a.sessions a.nextSid ((LookupSession.new h a.myId a.usingIpv6 boot).getOutgoing a.txn).1
      senders := HMap.insert a.senders a.nextSid req } (LookupSession.new h a.myId a.usingIpv6 boot) a.txn udp (sid := a.nextSid) (req := req) (h := h)
    (by simp) (by
      show HMap.get (HMap.insert a.senders a.nextSid req) a.nextSid = _
      rw [HMap.get_insert, if_pos rfl]) (by rw [responses_append, e2]; rfl) (by
      show HMap.get (HMap.insert a.sessions a.nextSid _) a.nextSid = _
      rw [HMap.get_insert, if_pos rfl])
  simp only [v.v6Eq] at h2
  have := h1.append h2
  unfold DhtActor.lookup DhtActor.lookupLog
  simp only [v.v6Eq]
  exact this

theorem downs_told (v6 : Bool) (tr : List DhtEffect) (log : List DhtLine) (l : List Nat)
    (hl : ∀ x ∈ log, saidQuery x = none ∧ saidEnd x = none ∧ saidFailure x = none ∧ saidFound x = none) :
    ToldRight v6 tr log (l.map DhtEffect.down) := by
  have hd : ∀ x ∈ l.map DhtEffect.down, foundBy x = none ∧ tellFailure v6 x = none ∧ endOf x = none ∧ (∀ b, tellEnd b x = none) ∧ ∀ b, tellQuery b x = none := by
    intro x hx
    obtain ⟨r, -, rfl⟩ := List.mem_map.1 hx
    exact ⟨rfl, rfl, rfl, fun _ => rfl, fun _ => rfl⟩
  refine ⟨?_, ?_, ?_, ?_, ?_⟩
  · rw [filterMap_none _ _ fun x hx => (hl x hx).1, told_none _ _ _ fun x hx => (hd x hx).2.2.2.2]
  · rw [filterMap_none _ _ fun x hx => (hl x hx).2.1, told_none _ _ _ fun x hx => (hd x hx).2.2.2.1]
  · rw [filterMap_none _ _ fun x hx => (hl x hx).2.2.1, filterMap_none _ _ fun x hx => (hd x hx).2.1]
  · rw [filterMap_none _ _ fun x hx => (hl x hx).2.2.2, filterMap_none _ _ fun x hx => (hd x hx).1]
    exact .nil
  · rw [filterMap_none _ _ fun x hx => (hl x hx).2.1]
    unfold Spec.ends
    rw [filterMap_none _ _ fun x hx => (hd x hx).2.2.1]
    rfl

theorem resolveLine_only (v6 : Bool) (a : InetAddr) (y : DhtLine) (h : resolveLine lookup v6 a = some y) :
    (saidQuery y = none ∧ saidEnd y = none ∧ saidFailure y = none ∧ saidFound y = none) ∧ saidPacket y = none ∧ saidStart y = none := by
  unfold resolveLine at h
  split at h
  · split at h
    · split at h <;> cases h <;> exact ⟨⟨rfl, rfl, rfl, rfl⟩, rfl, rfl⟩
    · cases h; exact ⟨⟨rfl, rfl, rfl, rfl⟩, rfl, rfl⟩
  · cases h

/-- One event is told. -/
theorem step_told {my v6 es st tr} (v : StInv my v6 es st tr) (e : DhtEvent) {st' out} (hs : st.step lookup nodes e = some (st', out)) :
    ToldRight v6 tr (st.stepLog lookup nodes e) out := by
  have hd := fun log l => downs_told v6 tr log l
  cases e with
  | submit m =>
    simp only [DhtState.step] at hs
    split at hs
    · cases hs
      have ho : (m.request.map DhtEffect.down).toList = m.request.toList.map DhtEffect.down := by cases m.request <;> rfl
      rw [ho]
      exact hd [] _ (by simp)
    · cases hs; exact ToldRight.nil _ _
  | resolved addrs =>
    have hl : ∀ x ∈ st.stepLog lookup nodes (.resolved addrs), saidQuery x = none ∧ saidEnd x = none ∧ saidFailure x = none ∧ saidFound x = none := by
      intro x hx
      simp only [DhtState.stepLog, List.mem_append, List.mem_cons, List.mem_filterMap, List.not_mem_nil, or_false] at hx
      rcases hx with (rfl | ⟨y, -, hy⟩) | rfl
      · exact ⟨rfl, rfl, rfl, rfl⟩
      · exact (resolveLine_only _ _ _ hy).1
      · split <;> exact ⟨rfl, rfl, rfl, rfl⟩
    simp only [DhtState.step] at hs
    split at hs
    · split at hs
      · cases hs
        have := hd _ (st.actor.senders.map Prod.snd ++ st.inbox.filterMap ActorMessage.request) hl
        rw [List.map_append, List.map_map] at this
        exact this
      · cases hs
        exact hd _ [] hl
    · cases hs
  | receive udp =>
    simp only [DhtState.step] at hs
    split at hs
    · rename_i b req h inbox hph hin
      cases hs
      obtain ⟨g1, g2⟩ := v.running b hph
      have hbo : bootstrapOf es = b := by unfold bootstrapOf; rw [g1]; rfl
      have va := v.act
      rw [hbo] at va
      simp only [DhtState.stepLog, hph, hin]
      exact lookup_told va udp req h
    · rename_i b inbox hph hin
      cases hs
      simp only [DhtState.stepLog, hph, hin]
      have := hd [] (st.actor.senders.map Prod.snd ++ inbox.filterMap ActorMessage.request) (by simp)
      rw [List.map_append, List.map_map] at this
      exact this
    · cases hs
  | packet addr msg order udp =>
    simp only [DhtState.step] at hs
    split at hs
    · split at hs
      · cases hs; exact message_told v.act order udp addr msg
      · cases hs
    · cases hs
  | recvError =>
    simp only [DhtState.step] at hs
    split at hs
    · cases hs; exact ⟨rfl, rfl, rfl, .nil, rfl⟩
    · cases hs
  | timer addr txn order =>
    simp only [DhtState.step] at hs
    split at hs
    · split at hs
      · cases hs; exact timer_told v.act order addr txn
      · cases hs
    · cases hs

theorem run_told {my v6} (es : List DhtEvent) : ∀ {es0 s tr0}, StInv my v6 es0 s tr0 → ∀ {st tr}, s.run lookup nodes es = some (st, tr) →
    ∃ log, s.runLog lookup nodes es = some log ∧ ToldRight v6 tr0 log tr := by
  induction es with
  | nil => intro es0 s tr0 v st tr h; cases h; exact ⟨[], rfl, ToldRight.nil _ _⟩
  | cons e es ih =>
    intro es0 s tr0 v st tr h
    unfold DhtState.run at h
    unfold DhtState.runLog
    cases hs : s.step lookup nodes e with
    | none => rw [hs] at h; cases h
    | some r =>
      obtain ⟨s1, out⟩ := r
      rw [hs] at h
      simp only at h ⊢
      cases hr : s1.run lookup nodes es with
      | none => rw [hr] at h; cases h
      | some r' =>
        obtain ⟨s2, out2⟩ := r'
        rw [hr] at h
        simp only [Option.some.injEq, Prod.mk.injEq] at h
        obtain ⟨rfl, rfl⟩ := h
        obtain ⟨log, h1, h2⟩ := ih (v.step e hs) hr
        rw [h1]
        exact ⟨_, rfl, (step_told v e hs).append h2⟩

/-! ### Packets and the start -/

/-- Lines that tell neither of packets nor of the start. -/
def quiet (l : List DhtLine) : Prop := ∀ x ∈ l, saidPacket x = none ∧ saidStart x = none ∧ saidDomain x = none

theorem quiet_service (a : DhtActor) (s : LookupSession) (v6 : Bool) (udp : SockAddr → Bytes → Bool) (l : List (SockAddr × GetPeersQuery)) (sid : Nat) :
    quiet (s.queryLog ++ (l.filterMap (sendLine v6 udp) ++ a.foundLog sid)) := by
  intro x hx
  rcases List.mem_append.1 hx with hx | hx
  · obtain ⟨y, -, rfl⟩ := List.mem_map.1 hx
    exact ⟨rfl, rfl, rfl⟩
  · rcases List.mem_append.1 hx with hx | hx
    · obtain ⟨y, -, hy⟩ := List.mem_filterMap.1 hx
      exact (sendLine_only _ _ _ _ hy).2.2.2
    · unfold DhtActor.foundLog at hx
      split at hx
      · cases hx
      · split at hx
        · cases hx
        · rw [List.mem_singleton.1 hx]; exact ⟨rfl, rfl, rfl⟩

theorem quiet_said {l : List DhtLine} (h : quiet l) : l.filterMap saidPacket = [] ∧ l.filterMap saidStart = [] ∧ l.filterMap saidDomain = [] :=
  ⟨filterMap_none _ _ fun x hx => (h x hx).1, filterMap_none _ _ fun x hx => (h x hx).2.1, filterMap_none _ _ fun x hx => (h x hx).2.2⟩

theorem replyLine_said (s : LookupSession) (addr : SockAddr) (msg : Bytes) :
    saidPacket (.line (replyLine s addr msg)) = some addr ∧ saidStart (.line (replyLine s addr msg)) = none ∧
      saidDomain (.line (replyLine s addr msg)) = none := by
  unfold replyLine
  split <;> exact ⟨rfl, rfl, rfl⟩

/-- What the log of a packet is. -/
theorem message_lines (a : DhtActor) (hn : NodupKeys a.sessions) (order : List Nat) (udp : SockAddr → Bytes → Bool) (addr : SockAddr) (msg : Bytes) :
    (prescan msg = none ∧ a.messageLog order udp addr msg = [.line (.dhtIgnored 0 addr)] ∧ a.handleMessage order udp addr msg = (a, [])) ∨
    (∃ p, prescan msg = some p ∧ p.msgType = .query ∧ a.messageLog order udp addr msg = [.line (.dhtIgnored 1 addr)] ∧
      a.handleMessage order udp addr msg = (a, [])) ∨
    (∃ p, prescan msg = some p ∧ p.msgType ≠ .query ∧ (∀ sid ∈ order, ∀ s, HMap.get a.sessions sid = some s → (addr, p.transactionId) ∉ s.inFlight) ∧
      a.messageLog order udp addr msg = [.line (.dhtIgnored 2 addr)] ∧ a.handleMessage order udp addr msg = (a, [])) ∨
    ∃ p sid s log rest, prescan msg = some p ∧ p.msgType ≠ .query ∧ HMap.get a.sessions sid = some s ∧ (addr, p.transactionId) ∈ s.inFlight ∧
      a.messageLog order udp addr msg = .line (replyLine s addr msg) :: log ∧ quiet log ∧
      (a.handleMessage order udp addr msg).2 = .replied sid addr p.transactionId msg :: rest := by
  unfold DhtActor.handleMessage DhtActor.messageLog
  cases hp : prescan msg with
  | none => exact .inl ⟨rfl, rfl, rfl⟩
  | some p =>
    simp only
    by_cases hq : p.msgType = .query
    · rw [if_pos hq, if_pos hq]; exact .inr (.inl ⟨p, rfl, hq, rfl, rfl⟩)
    · rw [if_neg hq, if_neg hq]
      have hf := findSession_eq (fun s => s.handleMessage addr p.transactionId msg) (fun s => (addr, p.transactionId) ∈ s.inFlight)
        (by intro s h; simp only [LookupSession.handleMessage]; rw [if_pos h]; split <;> rfl)
        (by intro s h; simp only [LookupSession.handleMessage]; rw [if_neg h]) a.sessions hn order
      rcases hf with ⟨hf, hno⟩ | ⟨sid, s, -, hg, hin, hf⟩
      · rw [hf]; exact .inr (.inr (.inl ⟨p, rfl, hq, hno, rfl, rfl⟩))
      · rw [hf]
        have hg1 : HMap.get (HMap.set a.sessions sid (s.handleMessage addr p.transactionId msg).1) sid =
            some (s.handleMessage addr p.transactionId msg).1 := by
          rw [HMap.get_set, if_pos rfl, hg]; rfl
        simp only [hg1, hg]
        exact .inr (.inr (.inr ⟨p, sid, s, _, _, rfl, hq, hg, hin, rfl, quiet_service _ _ _ _ _ _, List.cons_append⟩))

theorem resolveLine_said (v6 : Bool) (n : InetAddr) :
    (resolveLine lookup v6 n).bind saidDomain = (domainOf n).map fun d => (d, (lookup d n.port).isSome, InetAddr.resolve lookup v6 n) := by
  unfold resolveLine domainOf InetAddr.resolve
  cases n.host with
  | domain d =>
    simp only
    cases hl : lookup d n.port with
    | none => simp [saidDomain, hl]
    | some l =>
      simp only
      cases h : l.find? fun s => v6 || s.isIpv4 <;> simp [saidDomain, hl]
  | _ => rfl

/-- The packets, the start and the names in the log of one event. -/
theorem step_lines {my v6 es st tr} (v : StInv my v6 es st tr) (e : DhtEvent) {st' out} (hs : st.step lookup nodes e = some (st', out)) :
    (st.stepLog lookup nodes e).filterMap saidPacket = ((packetOf e).map Prod.fst).toList ∧
    (st.stepLog lookup nodes e).filterMap saidStart = (tellStart e).toList ∧
    (st.stepLog lookup nodes e).filterMap saidDomain = namesOf lookup nodes v6 e := by
  cases e with
  | submit m => exact ⟨rfl, rfl, rfl⟩
  | resolved addrs =>
    have hl : st.stepLog lookup nodes (.resolved addrs) =
        [.starting] ++ (nodes.filterMap (resolveLine lookup v6) ++ [if addrs = [] then .unresolved else .ready]) := by
      simp [DhtState.stepLog, v.act.v6Eq]
    have hp : ∀ x ∈ nodes.filterMap (resolveLine lookup v6), saidPacket x = none ∧ saidStart x = none := by
      intro x hx
      obtain ⟨y, -, hy⟩ := List.mem_filterMap.1 hx
      exact (resolveLine_only _ _ _ hy).2
    rw [hl]
    simp only [List.filterMap_append]
    rw [filterMap_none saidPacket _ fun x hx => (hp x hx).1, filterMap_none saidStart _ fun x hx => (hp x hx).2, List.filterMap_filterMap]
    have hn : nodes.filterMap (fun x => (resolveLine lookup v6 x).bind saidDomain) = namesOf lookup nodes v6 (.resolved addrs) := by
      apply List.filterMap_congr
      intro n _
      exact resolveLine_said v6 n
    rw [hn]
    cases addrs with
    | nil => exact ⟨rfl, rfl, List.append_nil _⟩
    | cons x l => exact ⟨rfl, rfl, List.append_nil _⟩
  | receive udp =>
    simp only [DhtState.stepLog]
    split
    · exact quiet_said (quiet_service _ _ _ _ _ _)
    · exact ⟨rfl, rfl, rfl⟩
  | packet addr msg order udp =>
    simp only [DhtState.stepLog]
    rcases message_lines st.actor v.act.nodup order udp addr msg with ⟨-, h, -⟩ | ⟨p, -, -, h, -⟩ | ⟨p, -, -, -, h, -⟩ | ⟨p, sid, s, log, rest, -, -, -, -, h, hq, -⟩
    · rw [h]; exact ⟨rfl, rfl, rfl⟩
    · rw [h]; exact ⟨rfl, rfl, rfl⟩
    · rw [h]; exact ⟨rfl, rfl, rfl⟩
    · rw [h]
      obtain ⟨r1, r2, r3⟩ := replyLine_said s addr msg
      obtain ⟨q1, q2, q3⟩ := quiet_said hq
      simp [r1, r2, r3, q1, q2, q3, packetOf, tellStart, namesOf]
  | recvError => exact ⟨rfl, rfl, rfl⟩
  | timer addr txn order =>
    simp only [DhtState.stepLog]
    have : quiet (st.actor.timerLog order addr txn) := by
      unfold DhtActor.timerLog
      simp only
      split
      · intro x hx; cases hx
      · split
        · intro x hx
          rcases List.mem_cons.1 hx with rfl | hx
          · exact ⟨rfl, rfl, rfl⟩
          · exact quiet_service _ ⟨st.actor.myId, false, [], NodeSpace.new ⟨List.replicate 20 0, rfl⟩, [], []⟩ false (fun _ _ => true) [] _ x (by simpa [LookupSession.queryLog] using hx)
        · intro x hx; cases hx
    exact quiet_said this

theorem run_lines {my v6} (es : List DhtEvent) : ∀ {es0 s tr0}, StInv my v6 es0 s tr0 → ∀ {st tr}, s.run lookup nodes es = some (st, tr) →
    ∀ {log}, s.runLog lookup nodes es = some log →
      log.filterMap saidPacket = (packetsIn es).map Prod.fst ∧ log.filterMap saidStart = es.filterMap tellStart ∧
      log.filterMap saidDomain = es.flatMap (namesOf lookup nodes v6) := by
  induction es with
  | nil => intro es0 s tr0 v st tr h log hl; cases hl; exact ⟨rfl, rfl, rfl⟩
  | cons e es ih =>
    intro es0 s tr0 v st tr h log hl
    unfold DhtState.run at h
    unfold DhtState.runLog at hl
    cases hs : s.step lookup nodes e with
    | none => rw [hs] at h; cases h
    | some r =>
      obtain ⟨s1, out⟩ := r
      rw [hs] at h hl
      simp only at h hl
      cases hr : s1.run lookup nodes es with
      | none => rw [hr] at h; cases h
      | some r' =>
        cases hlr : s1.runLog lookup nodes es with
        | none => rw [hlr] at hl; cases hl
        | some log1 =>
          rw [hlr] at hl
          cases hl
          obtain ⟨h1, h2, h3⟩ := ih (v.step e hs) hr hlr
          obtain ⟨k1, k2, k3⟩ := step_lines v e hs
          refine ⟨?_, ?_, ?_⟩
          · rw [List.filterMap_append, k1, h1]
            unfold packetsIn
            cases hp : packetOf e <;> simp [hp]
          · rw [List.filterMap_append, k2, h2]
            cases hp : tellStart e <;> simp [hp]
          · rw [List.filterMap_append, k3, h3]
            rfl

/-! ### Each query has one outcome -/

/-- With fresh transaction IDs nothing is sent more often than it ended or is outstanding. -/
theorem ends_count_ge {tr : List DhtEffect} (hf : NoReuse tr) (x : Nat × SockAddr × Bytes) :
    (sentQueries tr).count x ≤ (ends tr).count x + (if x.2 ∈ outstanding x.1 tr then 1 else 0) := by
  induction tr using List.reverseRecOn with
  | nil => simp [sentQueries]
  | append_singleton tr e ih =>
    have ih := ih (noReuse_prefix hf)
    have hs : (sentQueries (tr ++ [e])).count x = (sentQueries tr).count x + (if takenOf e = some x then 1 else 0) := by
      unfold sentQueries
      rw [List.filterMap_append, List.count_append]
      cases he : takenOf e with
      | none => simp [he]
      | some y => simp [he, List.count_singleton]
    have hen : (ends (tr ++ [e])).count x = (ends tr).count x + (if endOf e = some x then 1 else 0) := by
      rw [ends_append, List.count_append]
      unfold ends
      cases he : endOf e with
      | none => simp [he]
      | some y => simp [he, List.count_singleton]
    rw [hs, hen, outstanding_append, List.foldl_cons, List.foldl_nil]
    obtain ⟨sid, a, t⟩ := x
    simp only at ih ⊢
    by_cases ht : takenOf e = some (sid, a, t)
    · rw [if_pos ht]
      cases e with
      | query i b q p ok =>
        cases ok with
        | false => cases ht
        | true =>
          simp only [takenOf, Option.some.injEq, Prod.mk.injEq] at ht
          obtain ⟨rfl, rfl, rfl⟩ := ht
          have := hf tr i b q p true [] rfl i
          rw [if_neg this] at ih
          have h2 : (b, q.transactionId) ∈ outstep i (outstanding i tr) (.query i b q p true) := by simp [outstep]
          rw [if_pos h2]
          omega
      | _ => cases ht
    · rw [if_neg ht]
      by_cases ho : (a, t) ∈ outstanding sid tr
      · rw [if_pos ho] at ih
        by_cases hx : endOf e = some (sid, a, t)
        · rw [if_pos hx]; omega
        · have : (a, t) ∈ outstep sid (outstanding sid tr) e := by
            cases e with
            | query i b q p ok => simp only [outstep]; split <;> simp [ho]
            | replied i b u m =>
              simp only [outstep]
              split
              · rename_i hi
                refine List.mem_filter.2 ⟨ho, ?_⟩
                simp only [ne_eq, decide_not, Bool.not_eq_eq_eq_not, Bool.not_true, decide_eq_false_iff_not]
                intro hc
                cases hc
                exact hx (by rw [hi]; rfl)
              · exact ho
            | timedOut i b u =>
              simp only [outstep]
              split
              · rename_i hi
                refine List.mem_filter.2 ⟨ho, ?_⟩
                simp only [ne_eq, decide_not, Bool.not_eq_eq_eq_not, Bool.not_true, decide_eq_false_iff_not]
                intro hc
                cases hc
                exact hx (by rw [hi]; rfl)
              · exact ho
            | started => exact ho
            | answer => exact ho
            | down => exact ho
          rw [if_pos this]
          omega
      · rw [if_neg ho] at ih
        omega

theorem told_length_query (b tr : List DhtEffect) : (told tellQuery b tr).length = (queries tr).length := by
  induction tr generalizing b with
  | nil => rfl
  | cons x tr ih =>
    simp only [told, List.length_append, ih, queries, List.filterMap_cons]
    cases x <;> simp [tellQuery, queryOf, Nat.add_comm]

theorem queries_split (v6 : Bool) (tr : List DhtEffect) (h : ∀ x ∈ tr, ∀ sid a q ok, x = .query sid a q none ok → ok = false) :
    (queries tr).length = (sentQueries tr).length + (tr.filterMap (tellFailure v6)).length := by
  induction tr with
  | nil => rfl
  | cons x tr ih =>
    have ih := ih fun y hy => h y (List.mem_cons_of_mem _ hy)
    unfold queries sentQueries at ih ⊢
    cases x with
    | query sid a q p ok =>
      have h0 := h _ List.mem_cons_self sid a q ok
      cases p with
      | none =>
        obtain rfl := h0 rfl
        simp [List.filterMap_cons, queryOf, takenOf, tellFailure, ih]; omega
      | some m => cases ok <;> cases a <;> simp [List.filterMap_cons, queryOf, takenOf, tellFailure, ih] <;> omega
    | _ => exact ih

end Demag

namespace Demag.Props

open Demag Spec

variable {lookup : Text → BitVec 16 → Option (List SockAddr)} {nodes : List InetAddr}

/-- **C95.** The log says of each query, in order, before it is sent: to whom it goes, by which name the lookup knows that address, and for which torrent
it asks; and it says so of nothing else. -/
theorem dht_log_queries (my : NodeId) (v6 : Bool) (es : List DhtEvent) (st : DhtState) (tr : List DhtEffect)
    (h : (DhtState.init my v6).run lookup nodes es = some (st, tr)) :
    ∃ log, (DhtState.init my v6).runLog lookup nodes es = some log ∧ log.filterMap saidQuery = told tellQuery [] tr := by
  obtain ⟨log, h1, h2⟩ := run_told es (StInv.run (lookup := lookup) (nodes := nodes) my v6 [] rfl) h
  exact ⟨log, h1, h2.asks⟩

/-- **C95.** The log says of each query that ends, in order: whom it had gone to and by which name the lookup knew that address then, and how it ended: with
a response, the numbers of peers and nodes in it and the torrent; with the error message that came; with a reply that cannot be read, and why; or with
a timeout. -/
theorem dht_log_ends (my : NodeId) (v6 : Bool) (es : List DhtEvent) (st : DhtState) (tr : List DhtEffect) (log : List DhtLine)
    (h : (DhtState.init my v6).run lookup nodes es = some (st, tr)) (hl : (DhtState.init my v6).runLog lookup nodes es = some log) :
    log.filterMap saidEnd = told tellEnd [] tr := by
  obtain ⟨log', h1, h2⟩ := run_told es (StInv.run (lookup := lookup) (nodes := nodes) my v6 [] rfl) h
  obtain rfl : log = log' := by rw [hl] at h1; exact Option.some.inj h1
  exact h2.ends

/-- **C95.** The log says of each query that could not be sent, in order, and of no other, where it should have gone and why it did not: it cannot be
encoded, the client has no socket for such an address, or the socket refused it. -/
theorem dht_log_failures (my : NodeId) (v6 : Bool) (es : List DhtEvent) (st : DhtState) (tr : List DhtEffect) (log : List DhtLine)
    (h : (DhtState.init my v6).run lookup nodes es = some (st, tr)) (hl : (DhtState.init my v6).runLog lookup nodes es = some log) :
    log.filterMap saidFailure = tr.filterMap (tellFailure v6) := by
  obtain ⟨log', h1, h2⟩ := run_told es (StInv.run (lookup := lookup) (nodes := nodes) my v6 [] rfl) h
  obtain rfl : log = log' := by rw [hl] at h1; exact Option.some.inj h1
  exact h2.fails

/-- **C95.** The log says of each lookup that ends with a result, in order, and of no other, which peers were found and for which torrent: the peers are
those that the request gets, and the torrent is that of the request. -/
theorem dht_log_results (my : NodeId) (v6 : Bool) (es : List DhtEvent) (st : DhtState) (tr : List DhtEffect) (log : List DhtLine)
    (h : (DhtState.init my v6).run lookup nodes es = some (st, tr)) (hl : (DhtState.init my v6).runLog lookup nodes es = some log) :
    List.Forall₂ (fun said answer => said.1 = answer.2 ∧ ∃ sid, DhtEffect.started sid answer.1 said.2 ∈ tr) (log.filterMap saidFound)
      (tr.filterMap foundBy) := by
  obtain ⟨log', h1, h2⟩ := run_told es (StInv.run (lookup := lookup) (nodes := nodes) my v6 [] rfl) h
  obtain rfl : log = log' := by rw [hl] at h1; exact Option.some.inj h1
  exact h2.found

/-- **C95.** The log has exactly one line for each packet, in order, with its sender; it says whether the client could be started, and each time that
receiving fails; and it says of each name among the bootstrap nodes which address is used, if any. -/
theorem dht_log_packets (my : NodeId) (v6 : Bool) (es : List DhtEvent) (st : DhtState) (tr : List DhtEffect) (log : List DhtLine)
    (h : (DhtState.init my v6).run lookup nodes es = some (st, tr)) (hl : (DhtState.init my v6).runLog lookup nodes es = some log) :
    log.filterMap saidPacket = (packetsIn es).map Prod.fst ∧ log.filterMap saidStart = es.filterMap tellStart ∧
    log.filterMap saidDomain = es.flatMap (namesOf lookup nodes v6) :=
  run_lines es (StInv.run (lookup := lookup) (nodes := nodes) my v6 [] rfl) h hl

/-- **C95.** A packet that the log calls ignored changes nothing; the reason given is right: it is not a DHT message, it is a query, or it is an answer that
no lookup waits for.  Any other packet ends a query of a lookup. -/
theorem dht_log_ignored (my : NodeId) (v6 : Bool) (es : List DhtEvent) (st st' : DhtState) (tr out : List DhtEffect) (addr : SockAddr)
    (msg : List UInt8) (order : List Nat) (udp : SockAddr → List UInt8 → Bool)
    (h : (DhtState.init my v6).run lookup nodes es = some (st, tr)) (hs : st.step lookup nodes (.packet addr msg order udp) = some (st', out)) :
    (∃ n, st.stepLog lookup nodes (.packet addr msg order udp) = [.line (.dhtIgnored n addr)] ∧ st' = st ∧ out = [] ∧
      (n = 0 ↔ prescan msg = none) ∧ (n = 1 ↔ ∃ p, prescan msg = some p ∧ p.msgType = .query) ∧
      (n = 2 ↔ ∃ p, prescan msg = some p ∧ p.msgType ≠ .query) ∧
      (n = 2 → NoReuse tr → (bootstrapOf es).length ≤ 2 ^ 32 → ∀ p, prescan msg = some p → ∀ sid req hash, DhtEffect.started sid req hash ∈ tr →
        DhtEffect.down req ∉ tr → (addr, p.transactionId) ∉ outstanding sid tr)) ∨
    ∃ p sid rest, prescan msg = some p ∧ (addr, p.transactionId) ∈ outstanding sid tr ∧ out = .replied sid addr p.transactionId msg :: rest := by
  have v := StInv.run my v6 es h
  simp only [DhtState.step] at hs
  split at hs
  · split at hs
    · rename_i b hph hperm
      cases hs
      simp only [DhtState.stepLog]
      rcases message_lines st.actor v.act.nodup order udp addr msg with ⟨h1, h2, h3⟩ | ⟨p, h0, h1, h2, h3⟩ | ⟨p, h0, h1, h4, h2, h3⟩ |
          ⟨p, sid, s, l, rest, h0, h1, h2, h3, -, -, h6⟩
      · refine .inl ⟨0, h2, by rw [h3], by rw [h3], by simp [h1], by simp [h1], by simp [h1], fun hn => ?_⟩
        exact absurd hn (by decide)
      · refine .inl ⟨1, h2, by rw [h3], by rw [h3], by simp [h0], by simp [h0, h1], by simp [h0, h1], fun hn => ?_⟩
        exact absurd hn (by decide)
      · refine .inl ⟨2, h2, by rw [h3], by rw [h3], by simp [h0], by simp [h0, h1], by simp [h0, h1], fun _ hf hb p' hp' sid req hash hst hd => ?_⟩
        obtain rfl : p = p' := by rw [h0] at hp'; exact Option.some.inj hp'
        cases hg : HMap.get st.actor.sessions sid with
        | none =>
          rcases v.act.ended sid req hash hst hg with ⟨h5, -⟩ | h5
          · rw [h5 ⟨hb, hf⟩]; simp
          · exact absurd h5 hd
        | some s =>
          obtain ⟨_, _, _, _, hm, _⟩ := v.act.live sid s hg
          rw [← hm.inFlight ⟨hb, hf⟩]
          exact h4 sid ((List.isPerm_iff.1 hperm).mem_iff.2 ((HMap.get_isSome_iff _ _).1 ⟨s, hg⟩)) s hg
      · obtain ⟨_, _, _, _, hm, _⟩ := v.act.live sid s h2
        exact .inr ⟨p, sid, rest, h0, hm.sub _ h3, h6⟩
    · cases hs
  · cases hs

/-- **C95.** When no query is outstanding any more, every line about a query that is to be sent is balanced by one line about its fate: there are as many of the
former as of the lines about failures, replies and timeouts together. -/
theorem dht_log_balanced (my : NodeId) (v6 : Bool) (es : List DhtEvent) (st : DhtState) (tr : List DhtEffect) (log : List DhtLine)
    (h : (DhtState.init my v6).run lookup nodes es = some (st, tr)) (hl : (DhtState.init my v6).runLog lookup nodes es = some log)
    (hf : NoReuse tr) (hq : ∀ sid, outstanding sid tr = []) :
    (log.filterMap saidQuery).length = (log.filterMap saidFailure).length + (log.filterMap saidEnd).length := by
  obtain ⟨log', h1, h2⟩ := run_told es (StInv.run (lookup := lookup) (nodes := nodes) my v6 [] rfl) h
  obtain rfl : log = log' := by rw [hl] at h1; exact Option.some.inj h1
  rw [h2.asks, h2.fails, h2.count, told_length_query, queries_split v6]
  · have : (sentQueries tr).Perm (ends tr) := by
      rw [List.perm_iff_count]
      intro x
      have a1 := ends_count_ge hf x
      have a2 := ends_count (EndsOk.run my v6 es h) x
      rw [hq, if_neg (by simp)] at a1 a2
      omega
    rw [this.length_eq, Nat.add_comm]
  · rintro x hx sid a q ok rfl
    obtain ⟨e, -, -, hi⟩ := query_sent_iff my v6 es h sid a q none ok hx
    cases ok with
    | false => rfl
    | true => obtain ⟨m, hm, -⟩ := hi.1 rfl; cases hm

/-- **C95.** The texts of the lines about queries that could not be sent give the address and the reason. -/
theorem dht_failure_told (env : LogEnv) (encode : Err) (l : DhtLine) (a : SockAddr) (why : NotSent) (h : saidFailure l = some (a, why)) :
    l.text env encode = match why with
      | .unencodable => "Failed to construct DHT \"get_peers\" query packet for ".toList ++ sockText a ++ ": ".toList ++ errorChain encode
      | .noSocket => "Failed to send DHT message to ".toList ++ sockText a ++ ": ".toList ++ UdpSendError.ipv6Disabled.text env.io.message
      | .refused => "Failed to send DHT message to ".toList ++ sockText a ++ ": ".toList ++ env.io.message := by
  cases l with
  | unencodable b => cases h; rfl
  | noSocket b => cases h; rfl
  | line l =>
    cases l with
    | querySendFailed b => cases h; rfl
    | _ => cases h
  | _ => cases h

/-! Concrete cases. -/

/-- The log of such a run. -/
def logOf (es : List DhtEvent) : Option (List DhtLine) :=
  (DhtState.init ⟨List.replicate 20 0, by decide⟩ false).runLog (fun _ _ => none) [⟨.ipv4 ⟨0x01020304#32⟩, 1⟩] es

-- the lookup of C91 with ten queries: each is told, three ended with a packet and seven with a timeout, and one result is told
example : ∃ st tr log, runOf eventsSeven = some (st, tr) ∧ logOf eventsSeven = some log ∧ (log.filterMap saidQuery).length = 10 ∧
    (log.filterMap saidEnd).length = 10 ∧ (log.filterMap saidFound).length = 1 ∧ (log.filterMap saidPacket).length = 3 ∧
    (log.filterMap saidStart).length = 1 ∧ (∃ x ∈ log.filterMap saidQuery, x.2.1 ≠ none) := by
  have h0 : (runOf eventsSeven).isSome = true := by decide +kernel
  have h : (logOf eventsSeven).map (fun log => ((log.filterMap saidQuery).length, (log.filterMap saidEnd).length, (log.filterMap saidFound).length,
      (log.filterMap saidPacket).length, (log.filterMap saidStart).length)) = some (10, 10, 1, 3, 1) := by decide +kernel
  have h' : (logOf eventsSeven).map (fun log => (log.filterMap saidQuery).any fun x => x.2.1.isSome) = some true := by decide +kernel
  obtain ⟨p, hr⟩ := Option.isSome_iff_exists.1 h0
  cases hl : logOf eventsSeven with
  | none => rw [hl] at h'; cases h'
  | some log =>
    rw [hl] at h h'
    simp only [Option.map_some, Option.some.injEq, Prod.mk.injEq, List.any_eq_true] at h h'
    obtain ⟨h1, h2, h3, h4, h5⟩ := h
    obtain ⟨x, hx, hx'⟩ := h'
    exact ⟨p.1, p.2, log, hr, rfl, h1, h2, h3, h4, h5, x, hx, by intro hn; rw [hn] at hx'; cases hx'⟩

-- the lookup of C92 where an answer lists IPv6 nodes: the log has eight lines about queries that there is no socket for
example : (logOf eventsUnasked).map (fun log => ((log.filterMap saidQuery).length, (log.filterMap saidFailure).map Prod.snd, (log.filterMap saidEnd).length)) =
    some (9, List.replicate 8 .noSocket, 1) := by decide +kernel

example (env : LogEnv) (encode : Err) := dht_failure_told env encode (.noSocket (.v6 ⟨⟨1#128⟩, 9⟩)) _ _ rfl

end Demag.Props
