import Verif.Lemmas.Dht

/-! The invariant of the DHT client. -/

namespace Demag

open Spec

/-- The node set of a lookup, and the nodes it asked. -/
def nodeSpaceOf (h : InfoHash) (rs : List (SockAddr × GetPeersResponse)) : NodeSpace × List Node :=
  spaceRun (NodeSpace.new h) (nodeOps rs)

/-- The result of a lookup. -/
def resultOf (h : InfoHash) (rs : List (SockAddr × GetPeersResponse)) : FoundPeers :=
  ⟨(peersOf rs).foldl setInsert [], ((nodeSpaceOf h rs).1.closestResponsive 8).map Node.address⟩

/-- The query of a lookup. -/
def queryFor (my : NodeId) (v6 : Bool) (h : InfoHash) (txn : Bytes) : GetPeersQuery :=
  ⟨txn, some genClient, my, h, some true, if v6 then some [.n4, .n6] else none⟩

theorem spaceRun_append (s : NodeSpace) (o p : List SpaceOp) :
    spaceRun s (o ++ p) = ((spaceRun (spaceRun s o).1 p).1, (spaceRun s o).2 ++ (spaceRun (spaceRun s o).1 p).2) := by
  induction o generalizing s with
  | nil => simp [spaceRun]
  | cons x o ih => simp [spaceRun, ih]

theorem spaceRun_adds (s : NodeSpace) (l : List Node) : spaceRun s (l.map SpaceOp.add) = (l.foldl NodeSpace.add s, []) := by
  induction l generalizing s with
  | nil => rfl
  | cons n l ih => simp [spaceRun, spaceApply, ih]

theorem addr2node_find (h : InfoHash) (ops : List SpaceOp) (a : SockAddr) :
    HMap.get (spaceRun (NodeSpace.new h) ops).1.addr2node a = (known ops).find? fun n => Node.address n = a := by
  have v := SpaceInv.run h ops
  cases e : HMap.get (spaceRun (NodeSpace.new h) ops).1.addr2node a with
  | none =>
    symm
    rw [List.find?_eq_none]
    intro n hn ha
    have := (v.addrs a n).2 ⟨hn, by simpa using ha⟩
    rw [e] at this
    cases this
  | some n =>
    obtain ⟨h1, h2⟩ := (v.addrs a n).1 e
    cases e' : (known ops).find? fun n => Node.address n = a with
    | none => exact absurd (by simpa using h2) (List.find?_eq_none.1 e' n h1)
    | some m =>
      have hm := List.mem_of_find?_eq_some e'
      have hp : Node.address m = a := by simpa using List.find?_some e'
      rw [List.inj_on_of_nodup_map (known_nodup ops) h1 hm (h2.trans hp.symm)]

theorem takeResponse_eq (h : InfoHash) (rs : List (SockAddr × GetPeersResponse)) (s s0 : LookupSession) (hs : s.nodes = (nodeSpaceOf h rs).1)
    (h0 : s0.nodes = s.nodes) (a : SockAddr) (r : GetPeersResponse) :
    ∃ new, s0.takeResponse (HMap.get s.nodes.addr2node a) r =
        { s0 with
          peers := r.values.foldl setInsert s0.peers
          nodes := (nodeSpaceOf h (rs ++ [(a, r)])).1
          toQuery := s0.toQuery ++ new.map Node.address } ∧
      (nodeSpaceOf h (rs ++ [(a, r)])).2 = (nodeSpaceOf h rs).2 ++ new := by
  unfold nodeSpaceOf at hs ⊢
  rw [nodeOps_snoc, respond]
  rw [hs, addr2node_find]
  unfold LookupSession.takeResponse
  rw [h0, hs]
  generalize nodeOps rs = ops
  cases (known ops).find? fun n => Node.address n = a with
  | none =>
    simp only [Option.map_none, Option.toList_none, List.append_nil]
    rw [List.append_assoc, spaceRun_append, spaceRun_append, spaceRun_adds]
    exact ⟨_, rfl, by simp [spaceRun, spaceApply, listed, closestCount]⟩
  | some n =>
    simp only [Option.map_some, Option.toList_some]
    rw [List.append_assoc, List.append_assoc, spaceRun_append, spaceRun_append, spaceRun_adds]
    exact ⟨_, rfl, by simp [spaceRun, spaceApply, listed, closestCount]⟩

theorem noReuse_prefix {tr u : List DhtEffect} (h : NoReuse (tr ++ u)) : NoReuse tr := by
  intro b sid a q p ok after he
  exact h b sid a q p ok (after ++ u) (by rw [he]; simp)

/-- An outstanding query belongs to only one lookup. -/
theorem noReuse_unique {tr : List DhtEffect} (h : NoReuse tr) {i j : Nat} {x : SockAddr × Bytes} (hi : x ∈ outstanding i tr)
    (hj : x ∈ outstanding j tr) : i = j := by
  induction tr using List.reverseRecOn with
  | nil => cases hi
  | append_singleton tr e ih =>
    rw [outstanding_append, List.foldl_cons, List.foldl_nil] at hi hj
    have new : ∀ {i : Nat}, x ∈ outstep i (outstanding i tr) e → x ∉ outstanding i tr → lookupOf e = some i := by
      intro i hi hn
      by_contra hl
      apply hn
      have := outstanding_other i tr [e] (by intro e' he'; rw [List.mem_singleton.1 he']; exact hl)
      rwa [← this, outstanding_append]
    have fresh : ∀ {i j : Nat}, x ∈ outstep i (outstanding i tr) e → x ∉ outstanding i tr → x ∈ outstanding j tr → False := by
      clear hi hj
      intro i j hi hn hj
      cases e with
      | query sid a q p ok =>
        simp only [outstep] at hi
        split at hi
        · rcases List.mem_append.1 hi with hi | hi
          · exact hn hi
          · rw [List.mem_singleton] at hi
            subst hi
            exact h tr sid a q p ok [] rfl j hj
        · exact hn hi
      | replied sid a t m =>
        simp only [outstep] at hi
        split at hi
        · exact hn (List.mem_filter.1 hi).1
        · exact hn hi
      | timedOut sid a t =>
        simp only [outstep] at hi
        split at hi
        · exact hn (List.mem_filter.1 hi).1
        · exact hn hi
      | started => exact hn hi
      | answer => exact hn hi
      | down => exact hn hi
    by_cases h1 : x ∈ outstanding i tr <;> by_cases h2 : x ∈ outstanding j tr
    · exact ih (noReuse_prefix h) h1 h2
    · exact (fresh hj h2 h1).elim
    · exact (fresh hi h1 h2).elim
    · have e1 := new hi h1
      have e2 := new hj h2
      rw [e1] at e2
      exact Option.some.inj e2

/-- Transaction IDs do not come again too early. -/
def Fresh (boot : List SockAddr) (tr : List DhtEffect) : Prop := boot.length ≤ 2 ^ 32 ∧ NoReuse tr

theorem Fresh.prefix {boot : List SockAddr} {tr u : List DhtEffect} (h : Fresh boot (tr ++ u)) : Fresh boot tr := ⟨h.1, noReuse_prefix h.2⟩

/-- What is true of the session of a lookup. -/
structure SessMid (my : NodeId) (v6 : Bool) (boot : List SockAddr) (sid : Nat) (h : InfoHash) (tr : List DhtEffect) (s : LookupSession) :
    Prop where
  my : s.myId = my
  v6 : s.usingIpv6 = v6
  nodes : s.nodes = (nodeSpaceOf h (responses sid tr)).1
  peers : s.peers = (peersOf (responses sid tr)).foldl setInsert []
  sub : ∀ x ∈ s.inFlight, x ∈ outstanding sid tr
  inFlight : Fresh boot tr → s.inFlight = outstanding sid tr
  distinct : s.inFlight.Nodup
  asked : queriedBy sid tr ++ s.toQuery = boot ++ (nodeSpaceOf h (responses sid tr)).2.map Node.address

theorem SessMid.other {my v6 boot sid h tr s} (v : SessMid my v6 boot sid h tr s) (u : List DhtEffect)
    (hu : ∀ e ∈ u, lookupOf e ≠ some sid) : SessMid my v6 boot sid h (tr ++ u) s := by
  obtain ⟨v1, v2, v3, v4, vs, v5, vd, v6⟩ := v
  refine ⟨v1, v2, ?_, ?_, ?_, ?_, vd, ?_⟩
  · rw [responses_other sid tr u hu]; exact v3
  · rw [responses_other sid tr u hu]; exact v4
  · rw [outstanding_other sid tr u hu]; exact vs
  · intro hf; rw [outstanding_other sid tr u hu]; exact v5 hf.prefix
  · rw [responses_other sid tr u hu, queriedBy_other sid tr u hu]; exact v6

theorem SessMid.query {my v6 boot sid h tr s} (v : SessMid my v6 boot sid h tr s) (t : Bytes) : s.query t = queryFor my v6 h t := by
  have := (SpaceInv.run h (nodeOps (responses sid tr))).hash
  unfold LookupSession.query queryFor
  rw [v.my, v.v6, v.nodes]
  unfold nodeSpaceOf
  rw [this]

/-- A reply to an outstanding query. -/
theorem SessMid.replied {my v6 boot sid h tr s} (v : SessMid my v6 boot sid h tr s) (a : SockAddr) (t msg : Bytes)
    (hm : (a, t) ∈ s.inFlight) : SessMid my v6 boot sid h (tr ++ [.replied sid a t msg]) (s.handleMessage a t msg).1 := by
  have ho : outstanding sid (tr ++ [.replied sid a t msg]) = setRemove (outstanding sid tr) (a, t) := by
    rw [outstanding_append]; simp [outstep, setRemove]
  have hs : ∀ x ∈ setRemove s.inFlight (a, t), x ∈ outstanding sid (tr ++ [.replied sid a t msg]) := by
    intro x hx
    rw [ho]
    exact List.mem_filter.2 ⟨v.sub x (List.mem_filter.1 hx).1, (List.mem_filter.1 hx).2⟩
  have hf : Fresh boot (tr ++ [.replied sid a t msg]) → setRemove s.inFlight (a, t) = outstanding sid (tr ++ [.replied sid a t msg]) := by
    intro hf
    rw [ho, v.inFlight hf.prefix]
  have hq : queriedBy sid (tr ++ [.replied sid a t msg]) = queriedBy sid tr := by
    rw [queriedBy_append]; simp [queriedBy, queries, queryOf]
  unfold LookupSession.handleMessage
  rw [if_pos hm]
  cases e : decodeResponse lossyUtf8 msg with
  | error x =>
    have hr : responses sid (tr ++ [.replied sid a t msg]) = responses sid tr := by
      rw [responses_append]; simp [responses, responseOf, e, Except.toOption]
    exact ⟨v.my, v.v6, by rw [hr]; exact v.nodes, by rw [hr]; exact v.peers, hs, hf, v.distinct.filter _, by rw [hr, hq]; exact v.asked⟩
  | ok r =>
    have hr : responses sid (tr ++ [.replied sid a t msg]) = responses sid tr ++ [(a, r)] := by
      rw [responses_append]; simp [responses, responseOf, e, Except.toOption]
    obtain ⟨new, h1, h2⟩ := takeResponse_eq h (responses sid tr) s { s with inFlight := setRemove s.inFlight (a, t) } v.nodes rfl a r
    simp only
    rw [h1]
    refine ⟨v.my, v.v6, by rw [hr], ?_, hs, hf, v.distinct.filter _, ?_⟩
    · rw [hr]
      simp only
      rw [v.peers, peersOf, peersOf, List.flatMap_append, List.foldl_append]
      simp
    · rw [hr, hq, h2, List.map_append, ← List.append_assoc, ← List.append_assoc]
      congr 1
      exact v.asked

theorem SessMid.timedOut {my v6 boot sid h tr s} (v : SessMid my v6 boot sid h tr s) (a : SockAddr) (t : Bytes)
    (hm : (a, t) ∈ s.inFlight) : SessMid my v6 boot sid h (tr ++ [.timedOut sid a t]) (s.handleTimeout a t).1 := by
  have ho : outstanding sid (tr ++ [.timedOut sid a t]) = setRemove (outstanding sid tr) (a, t) := by
    rw [outstanding_append]; simp [outstep, setRemove]
  have hs : ∀ x ∈ setRemove s.inFlight (a, t), x ∈ outstanding sid (tr ++ [.timedOut sid a t]) := by
    intro x hx
    rw [ho]
    exact List.mem_filter.2 ⟨v.sub x (List.mem_filter.1 hx).1, (List.mem_filter.1 hx).2⟩
  have hf : Fresh boot (tr ++ [.timedOut sid a t]) → setRemove s.inFlight (a, t) = outstanding sid (tr ++ [.timedOut sid a t]) := by
    intro hf
    rw [ho, v.inFlight hf.prefix]
  have hq : queriedBy sid (tr ++ [.timedOut sid a t]) = queriedBy sid tr := by
    rw [queriedBy_append]; simp [queriedBy, queries, queryOf]
  have hr : responses sid (tr ++ [.timedOut sid a t]) = responses sid tr := by
    rw [responses_append]; simp [responses, responseOf]
  unfold LookupSession.handleTimeout
  rw [if_pos hm]
  exact ⟨v.my, v.v6, by rw [hr]; exact v.nodes, by rw [hr]; exact v.peers, hs, hf, v.distinct.filter _, by rw [hr, hq]; exact v.asked⟩

/-- The invariant of the actor; `cur` is the lookup that is being served. -/
structure ActMid (my : NodeId) (v6 : Bool) (boot : List SockAddr) (cur : Option Nat) (a : DhtActor) (tr : List DhtEffect) : Prop where
  myEq : a.myId = my
  v6Eq : a.usingIpv6 = v6
  txn : a.txn = BitVec.ofNat 32 (queries tr).length
  txns : (queries tr).map (fun q => q.2.2.transactionId) = (List.range (queries tr).length).map nthTxn
  nodup : NodupKeys a.sessions
  keys : a.senders.map Prod.fst = a.sessions.map Prod.fst
  lt : ∀ e ∈ tr, ∀ sid, lookupOf e = some sid → sid < a.nextSid
  live : ∀ sid s, HMap.get a.sessions sid = some s → ∃ req h, DhtEffect.started sid req h ∈ tr ∧ HMap.get a.senders sid = some req ∧
    SessMid my v6 boot sid h tr s ∧ (cur ≠ some sid → s.toQuery = [] ∧ s.inFlight ≠ [])
  timers : Fresh boot tr → ∀ sid s, HMap.get a.sessions sid = some s → ∀ x ∈ s.inFlight, x ∈ a.timers
  unique : ∀ sid r h r' h', DhtEffect.started sid r h ∈ tr → DhtEffect.started sid r' h' ∈ tr → r = r' ∧ h = h'
  asked : ∀ sid req h, DhtEffect.started sid req h ∈ tr → HMap.get a.sessions sid = none →
    queriedBy sid tr = boot ++ (nodeSpaceOf h (responses sid tr)).2.map Node.address
  ended : ∀ sid req h, DhtEffect.started sid req h ∈ tr → HMap.get a.sessions sid = none →
    (Fresh boot tr → outstanding sid tr = []) ∧ DhtEffect.answer req (resultOf h (responses sid tr)) ∈ tr ∨ DhtEffect.down req ∈ tr
  answers : ∀ req r, DhtEffect.answer req r ∈ tr → ∃ sid h, DhtEffect.started sid req h ∈ tr ∧ HMap.get a.sessions sid = none ∧
    (Fresh boot tr → outstanding sid tr = []) ∧ r = resultOf h (responses sid tr)
  fields : ∀ q ∈ queries tr, ∃ req h, DhtEffect.started q.1 req h ∈ tr ∧ q.2.2 = queryFor my v6 h q.2.2.transactionId

theorem nthTxn_range_nodup (n : Nat) (h : n ≤ 2 ^ 32) : ((List.range n).map nthTxn).Nodup := by
  rw [List.nodup_map_iff_inj_on List.nodup_range]
  intro x hx y hy hxy
  rw [List.mem_range] at hx hy
  exact nthTxn_inj (by omega) (by omega) hxy

/-- An event of one lookup that is neither a query nor an end. -/
theorem ActMid.update {my v6 boot a tr} (v : ActMid my v6 boot none a tr) {sid : Nat} {s s1 : LookupSession}
    (hs : HMap.get a.sessions sid = some s) (e : DhtEffect) (he : lookupOf e = some sid) (hq : queryOf e = none)
    (hst : ∀ i r h, e ≠ .started i r h)
    (hs1 : ∀ h, SessMid my v6 boot sid h tr s → SessMid my v6 boot sid h (tr ++ [e]) s1) (T : List (SockAddr × Bytes))
    (ht1 : Fresh boot tr → ∀ x ∈ s1.inFlight, x ∈ T)
    (ht : Fresh boot tr → ∀ i s', i ≠ sid → HMap.get a.sessions i = some s' → ∀ x ∈ s'.inFlight, x ∈ T) :
    ActMid my v6 boot (some sid) { a with sessions := HMap.set a.sessions sid s1, timers := T } (tr ++ [e]) := by
  have hqq : queries (tr ++ [e]) = queries tr := by rw [queries_append]; simp [queries, hq]
  have hstart : ∀ i r h, DhtEffect.started i r h ∈ tr ++ [e] ↔ DhtEffect.started i r h ∈ tr := by
    intro i r h
    rw [List.mem_append, List.mem_singleton]
    constructor
    · rintro (h1 | h1)
      · exact h1
      · exact absurd h1.symm (hst i r h)
    · exact .inl
  have hans : ∀ r x, DhtEffect.answer r x ∈ tr ++ [e] ↔ DhtEffect.answer r x ∈ tr := by
    intro r x
    rw [List.mem_append, List.mem_singleton]
    constructor
    · rintro (h1 | rfl)
      · exact h1
      · cases he
    · exact .inl
  have hgn : ∀ i, HMap.get (HMap.set a.sessions sid s1) i = none → i ≠ sid ∧ HMap.get a.sessions i = none := by
    intro i hi
    rw [HMap.get_set] at hi
    split at hi
    · rw [hs] at hi; cases hi
    · rename_i hne; exact ⟨Ne.symm hne, hi⟩
  have hoth : ∀ i, i ≠ sid → ∀ x ∈ [e], lookupOf x ≠ some i := by
    intro i hi x hx
    rw [List.mem_singleton.1 hx, he]
    intro h; cases h; exact hi rfl
  refine ⟨v.myEq, v.v6Eq, by rw [hqq]; exact v.txn, by rw [hqq]; exact v.txns, nodupKeys_set v.nodup _ _, ?_, ?_, ?_, ?_, ?_, ?_, ?_, ?_, ?_⟩
  · show a.senders.map Prod.fst = _
    rw [HMap.keys_set]; exact v.keys
  · intro x hx i hi
    rcases List.mem_append.1 hx with hx | hx
    · exact v.lt x hx i hi
    · rw [List.mem_singleton.1 hx, he] at hi
      cases hi
      obtain ⟨req, h, h1, -⟩ := v.live sid s hs
      exact v.lt _ h1 sid rfl
  · intro i s' hg
    simp only at hg
    rw [HMap.get_set] at hg
    split at hg
    · rename_i hi
      subst hi
      rw [hs] at hg
      cases hg
      obtain ⟨req, h, h1, h2, h3, -⟩ := v.live sid s hs
      exact ⟨req, h, (hstart _ _ _).2 h1, h2, hs1 h h3, fun hc => absurd rfl hc⟩
    · rename_i hi
      obtain ⟨req, h, h1, h2, h3, h4⟩ := v.live i s' hg
      exact ⟨req, h, (hstart _ _ _).2 h1, h2, h3.other _ (hoth i (Ne.symm hi)), fun _ => h4 (by simp)⟩
  · intro hf i s' hg
    simp only at hg
    rw [HMap.get_set] at hg
    split at hg
    · rw [hs] at hg
      cases hg
      exact ht1 hf.prefix
    · rename_i hi
      exact ht hf.prefix i s' (Ne.symm hi) hg
  · intro i r h r' h' h1 h2
    exact v.unique i r h r' h' ((hstart _ _ _).1 h1) ((hstart _ _ _).1 h2)
  · intro i req h h1 h2
    obtain ⟨h3, h4⟩ := hgn i h2
    rw [queriedBy_other _ _ _ (hoth i h3), responses_other _ _ _ (hoth i h3)]
    exact v.asked i req h ((hstart _ _ _).1 h1) h4
  · intro i req h h1 h2
    obtain ⟨h3, h4⟩ := hgn i h2
    rw [outstanding_other _ _ _ (hoth i h3), responses_other _ _ _ (hoth i h3), hans]
    rcases v.ended i req h ((hstart _ _ _).1 h1) h4 with h5 | h5
    · exact .inl ⟨fun hf => h5.1 hf.prefix, h5.2⟩
    · exact .inr (List.mem_append_left _ h5)
  · intro req r h1
    obtain ⟨i, h, h2, h3, h4, h5⟩ := v.answers req r ((hans _ _).1 h1)
    have hi : i ≠ sid := by rintro rfl; rw [hs] at h3; cases h3
    refine ⟨i, h, (hstart _ _ _).2 h2, ?_, ?_, ?_⟩
    · show HMap.get (HMap.set a.sessions sid s1) i = none
      rw [HMap.get_set, if_neg (Ne.symm hi)]; exact h3
    · intro hf; rw [outstanding_other _ _ _ (hoth i hi)]; exact h4 hf.prefix
    · rw [responses_other _ _ _ (hoth i hi)]; exact h5
  · rw [hqq]
    intro q hq
    obtain ⟨req, h, h1, h2⟩ := v.fields q hq
    exact ⟨req, h, (hstart _ _ _).2 h1, h2⟩

theorem nthTxn_inj_near {n m i j : Nat} (hm : m ≤ 2 ^ 32) (hi : n ≤ i ∧ i < n + m) (hj : n ≤ j ∧ j < n + m) (h : nthTxn i = nthTxn j) :
    i = j := by
  have := congrArg BitVec.toNat (txnId_inj h)
  rw [BitVec.toNat_ofNat, BitVec.toNat_ofNat] at this
  omega

theorem afterSends_filter (ok : SockAddr × GetPeersQuery → Bool) (l : List (SockAddr × GetPeersQuery)) (s : LookupSession) :
    afterSends ok s l = { s with inFlight := s.inFlight.filter fun k => decide (∀ x ∈ l, ok x = false → qkey x ≠ k) } := by
  induction l generalizing s with
  | nil => simp [afterSends]
  | cons x l ih =>
    have : afterSends ok s (x :: l) = afterSends ok (if ok x then s else s.handleSendFailure x.1 x.2.transactionId) l := rfl
    rw [this, ih]
    cases hx : ok x
    · simp only [Bool.false_eq_true, if_false, LookupSession.handleSendFailure, setRemove, List.filter_filter]
      congr 1
      apply List.filter_congr
      intro k _
      simp only [List.mem_cons, forall_eq_or_imp, hx, true_imp_iff, Bool.decide_and]
      rw [Bool.and_comm]
      congr 1
      simp only [decide_eq_decide]
      exact ⟨fun h e => h e.symm, fun h e => h e.symm⟩
    · simp only [if_true, List.mem_cons, forall_eq_or_imp, hx, Bool.true_eq_false, false_imp_iff, true_and]

theorem noReuse_sends {tr : List DhtEffect} {sid : Nat} {ok : SockAddr × GetPeersQuery → Bool} {l : List (SockAddr × GetPeersQuery)}
    (h : NoReuse (tr ++ sends sid ok l)) {z : SockAddr × GetPeersQuery} (hz : z ∈ l) (sid' : Nat) : qkey z ∉ outstanding sid' tr := by
  intro hm
  obtain ⟨l1, l2, rfl⟩ := List.append_of_mem hz
  refine h (tr ++ sends sid ok l1) sid z.1 z.2 z.2.toBencode (ok z) (sends sid ok l2) (by simp [sends]) sid' ?_
  by_cases hs : sid' = sid
  · subst hs
    rw [outstanding_sends]
    exact List.mem_append_left _ hm
  · rw [outstanding_other]
    · exact hm
    · intro e he
      rw [lookupOf_sends he]
      intro h'
      exact hs (Option.some.inj h').symm

/-- The pending queries of a lookup are sent. -/
theorem ActMid.flush {my v6 boot a tr sid s} (v : ActMid my v6 boot (some sid) a tr) (hs : HMap.get a.sessions sid = some s)
    (udp : SockAddr → Bytes → Bool) (r : DhtActor × List DhtEffect)
    (hr : r = DhtActor.sendAll { a with sessions := HMap.set a.sessions sid (s.getOutgoing a.txn).1, txn := (s.getOutgoing a.txn).2.1 } udp sid
      (s.getOutgoing a.txn).2.2)
    (hb : boot.length ≤ 2 ^ 32 → s.toQuery.length ≤ 2 ^ 32) :
    ActMid my v6 boot (some sid) r.1 (tr ++ r.2) ∧ (∃ s', HMap.get r.1.sessions sid = some s' ∧ s'.toQuery = []) ∧
      r.1.senders = a.senders ∧ settled r.2 = [] := by
  obtain ⟨req, h, hst, hsend, hm, -⟩ := v.live sid s hs
  have o := outgoingLoop_eq { s with toQuery := [] } s.toQuery (queries tr).length
  rw [← v.txn] at o
  change (s.getOutgoing a.txn).1 = { { s with toQuery := [] } with inFlight := ((s.getOutgoing a.txn).2.2.map qkey).foldl setInsert s.inFlight } ∧
    (s.getOutgoing a.txn).2.1 = BitVec.ofNat 32 ((queries tr).length + s.toQuery.length) ∧
    (s.getOutgoing a.txn).2.2.map Prod.fst = s.toQuery ∧
    (∀ x ∈ (s.getOutgoing a.txn).2.2, x.2 = s.query x.2.transactionId) ∧
    (s.getOutgoing a.txn).2.2.map (fun x => x.2.transactionId) = (List.range' (queries tr).length s.toQuery.length).map nthTxn at o
  generalize s.getOutgoing a.txn = og at o hr
  obtain ⟨o1, o2, o3, o4, o5⟩ := o
  have hlen : og.2.2.length = s.toQuery.length := by rw [← o3, List.length_map]
  rw [sendAll_eq udp sid og.2.2 _ (nodupKeys_set v.nodup _ _) og.1 (by
    show HMap.get (HMap.set a.sessions sid og.1) sid = some og.1
    rw [HMap.get_set, if_pos rfl, hs]; rfl)] at hr
  simp only [HMap.set_set] at hr
  have hu : a.usingIpv6 = v6 := v.v6Eq
  rw [hu] at hr
  change r = (_, sends sid (sendOk v6 udp) og.2.2) at hr
  have hr2 : r.2 = sends sid (sendOk v6 udp) og.2.2 := by rw [hr]
  rw [hr2]
  -- the outstanding queries are distinct
  have hnd : Fresh boot (tr ++ sends sid (sendOk v6 udp) og.2.2) → (s.inFlight ++ og.2.2.map qkey).Nodup := by
    intro hf
    rw [List.nodup_append]
    refine ⟨hm.distinct, ?_, ?_⟩
    · apply List.Nodup.of_map (f := Prod.snd)
      rw [List.map_map]
      change (og.2.2.map fun x => x.2.transactionId).Nodup
      rw [o5, List.nodup_map_iff_inj_on List.nodup_range']
      intro x hx y hy hxy
      rw [List.mem_range'_1] at hx hy
      exact nthTxn_inj_near (hb hf.1) hx hy hxy
    · rintro x hx y hy rfl
      obtain ⟨z, hz, rfl⟩ := List.mem_map.1 hy
      exact noReuse_sends hf.2 hz sid (hm.sub _ hx)
  have hs' : ∃ F, afterSends (sendOk v6 udp) og.1 og.2.2 = { s with toQuery := [], inFlight := F } ∧ F.Nodup ∧
      (∀ x ∈ F, x ∈ s.inFlight ∨ x ∈ (og.2.2.filter (sendOk v6 udp)).map qkey) ∧
      (Fresh boot (tr ++ sends sid (sendOk v6 udp) og.2.2) → F = s.inFlight ++ (og.2.2.filter (sendOk v6 udp)).map qkey) := by
    rw [afterSends_filter, o1]
    refine ⟨_, rfl, (nodup_foldl_setInsert _ _ hm.distinct).filter _, ?_, ?_⟩
    · intro x hx
      obtain ⟨h1, h2⟩ := List.mem_filter.1 hx
      simp only [decide_eq_true_eq] at h2
      rcases (mem_foldl_setInsert _ _ _).1 h1 with h1 | h1
      · exact .inl h1
      · obtain ⟨z, hz, rfl⟩ := List.mem_map.1 h1
        refine .inr (List.mem_map.2 ⟨z, List.mem_filter.2 ⟨hz, ?_⟩, rfl⟩)
        by_contra hk
        exact h2 z hz (by simpa using hk) rfl
    · intro hf
      have e1 := afterSends_eq (sendOk v6 udp) og.2.2 og.1 s.inFlight (by rw [o1, foldl_setInsert_new _ _ (hnd hf)]) (hnd hf)
      rw [afterSends_filter, o1] at e1
      exact congrArg LookupSession.inFlight e1
  obtain ⟨F, hs', hFn, hFs, hFf⟩ := hs'
  rw [hs'] at hr
  have hoth : ∀ i, i ≠ sid → ∀ x ∈ sends sid (sendOk v6 udp) og.2.2, lookupOf x ≠ some i := by
    intro i hi x hx
    rw [lookupOf_sends hx]
    intro h; cases h; exact hi rfl
  have hstart : ∀ i r h, DhtEffect.started i r h ∈ tr ++ sends sid (sendOk v6 udp) og.2.2 ↔ DhtEffect.started i r h ∈ tr := by
    intro i r h
    rw [List.mem_append]
    refine ⟨?_, .inl⟩
    rintro (h1 | h1)
    · exact h1
    · obtain ⟨x, -, h2⟩ := List.mem_map.1 h1; cases h2
  have hans : ∀ r x, DhtEffect.answer r x ∈ tr ++ sends sid (sendOk v6 udp) og.2.2 ↔ DhtEffect.answer r x ∈ tr := by
    intro r x
    rw [List.mem_append]
    refine ⟨?_, .inl⟩
    rintro (h1 | h1)
    · exact h1
    · obtain ⟨x, -, h2⟩ := List.mem_map.1 h1; cases h2
  have hgn : ∀ (s1 : LookupSession) i, HMap.get (HMap.set a.sessions sid s1) i = none → i ≠ sid ∧ HMap.get a.sessions i = none := by
    intro s1 i hi
    rw [HMap.get_set] at hi
    split at hi
    · rw [hs] at hi; cases hi
    · rename_i hne; exact ⟨Ne.symm hne, hi⟩
  subst hr
  refine ⟨⟨v.myEq, rfl, ?_, ?_, nodupKeys_set v.nodup _ _, ?_, ?_, ?_, ?_, ?_, ?_, ?_, ?_, ?_⟩, ?_, rfl, settled_sends _ _ _⟩
  · rw [queries_append, queries_sends, List.length_append, List.length_map, hlen]; exact o2
  · rw [queries_append, queries_sends, List.map_append, List.map_map, List.length_append, List.length_map, hlen, v.txns]
    change _ ++ og.2.2.map (fun x => x.2.transactionId) = _
    have := List.range'_append_1 (s := 0) (m := (queries tr).length) (n := s.toQuery.length)
    rw [Nat.zero_add] at this
    rw [o5, ← List.map_append, List.range_eq_range', List.range_eq_range', this]
  · show a.senders.map Prod.fst = _
    rw [HMap.keys_set]; exact v.keys
  · intro x hx i hi
    rcases List.mem_append.1 hx with hx | hx
    · exact v.lt x hx i hi
    · rw [lookupOf_sends hx] at hi
      cases hi
      exact v.lt _ hst sid rfl
  · intro i s' hg
    simp only at hg
    rw [HMap.get_set] at hg
    split at hg
    · rename_i hi
      subst hi
      rw [hs] at hg
      cases hg
      refine ⟨req, h, (hstart _ _ _).2 hst, hsend, ⟨hm.my, hm.v6, ?_, ?_, ?_, ?_, hFn, ?_⟩, fun hc => absurd rfl hc⟩
      · rw [responses_append, responses_sends, List.append_nil]; exact hm.nodes
      · rw [responses_append, responses_sends, List.append_nil]; exact hm.peers
      · intro x hx
        rw [outstanding_sends, List.mem_append]
        exact (hFs x hx).imp (hm.sub x) id
      · intro hf
        rw [outstanding_sends, ← hm.inFlight hf.prefix]
        exact hFf hf
      · rw [responses_append, responses_sends, List.append_nil, queriedBy_append, queriedBy_sends, o3]
        simpa using hm.asked
    · rename_i hi
      obtain ⟨req, h, h1, h2, h3, h4⟩ := v.live i s' hg
      exact ⟨req, h, (hstart _ _ _).2 h1, h2, h3.other _ (hoth i (Ne.symm hi)), h4⟩
  · intro hf i s' hg x hx
    simp only at hg ⊢
    rw [mem_foldl_setInsert]
    rw [HMap.get_set] at hg
    split at hg
    · rename_i hi
      rw [hs] at hg
      cases hg
      exact (hFs x hx).imp (v.timers hf.prefix sid s hs x) id
    · exact .inl (v.timers hf.prefix i s' hg x hx)
  · intro i r h r' h' h1 h2
    exact v.unique i r h r' h' ((hstart _ _ _).1 h1) ((hstart _ _ _).1 h2)
  · intro i req h h1 h2
    obtain ⟨h3, h4⟩ := hgn _ i h2
    rw [queriedBy_other _ _ _ (hoth i h3), responses_other _ _ _ (hoth i h3)]
    exact v.asked i req h ((hstart _ _ _).1 h1) h4
  · intro i req h h1 h2
    obtain ⟨h3, h4⟩ := hgn _ i h2
    rw [outstanding_other _ _ _ (hoth i h3), responses_other _ _ _ (hoth i h3), hans]
    rcases v.ended i req h ((hstart _ _ _).1 h1) h4 with h5 | h5
    · exact .inl ⟨fun hf => h5.1 hf.prefix, h5.2⟩
    · exact .inr (List.mem_append_left _ h5)
  · intro req r h1
    obtain ⟨i, h, h2, h3, h4, h5⟩ := v.answers req r ((hans _ _).1 h1)
    have hi : i ≠ sid := by rintro rfl; rw [hs] at h3; cases h3
    refine ⟨i, h, (hstart _ _ _).2 h2, ?_, ?_, ?_⟩
    · simp only
      rw [HMap.get_set, if_neg (Ne.symm hi)]; exact h3
    · intro hf; rw [outstanding_other _ _ _ (hoth i hi)]; exact h4 hf.prefix
    · rw [responses_other _ _ _ (hoth i hi)]; exact h5
  · intro q hq
    rw [queries_append, queries_sends] at hq
    rcases List.mem_append.1 hq with hq | hq
    · obtain ⟨req, h, h1, h2⟩ := v.fields q hq
      exact ⟨req, h, (hstart _ _ _).2 h1, h2⟩
    · obtain ⟨x, hx, rfl⟩ := List.mem_map.1 hq
      refine ⟨req, h, (hstart _ _ _).2 hst, ?_⟩
      rw [← hm.query]
      exact o4 x hx
  · exact ⟨_, by simp only; rw [HMap.get_set, if_pos rfl, hs]; rfl, rfl⟩

theorem remove_perm {m : HMap Nat Nat} (hn : NodupKeys m) {k v : Nat} (h : HMap.get m k = some v) :
    (m.map Prod.snd).Perm (v :: (HMap.remove m k).map Prod.snd) := by
  induction m with
  | nil => cases h
  | cons kv m ih =>
    obtain ⟨a, b⟩ := kv
    unfold NodupKeys at hn
    rw [List.map_cons, List.nodup_cons] at hn
    rw [HMap.get_cons] at h
    split at h
    · rename_i e
      subst e
      cases h
      have : HMap.remove ((a, v) :: m) a = m := by
        unfold HMap.remove
        rw [List.filter_cons_of_neg (by simp)]
        apply List.filter_eq_self.2
        intro x hx
        simp only [ne_eq, decide_not, Bool.not_eq_eq_eq_not, Bool.not_true, decide_eq_false_iff_not]
        rintro rfl
        exact hn.1 (List.mem_map.2 ⟨x, hx, rfl⟩)
      rw [this]
      exact List.Perm.refl _
    · rename_i e
      have : HMap.remove ((a, b) :: m) k = (a, b) :: HMap.remove m k := by
        unfold HMap.remove
        rw [List.filter_cons_of_pos (by simpa using e)]
      rw [this]
      exact ((ih hn.2 h).cons _).trans (List.Perm.swap _ _ _)

/-- The end of the service of a lookup. -/
theorem ActMid.finish {my v6 boot a tr sid s} (v : ActMid my v6 boot (some sid) a tr) (hs : HMap.get a.sessions sid = some s)
    (hq : s.toQuery = []) :
    ActMid my v6 boot none (a.postprocess sid).1 (tr ++ (a.postprocess sid).2) ∧
      (settled (a.postprocess sid).2 ++ (a.postprocess sid).1.senders.map Prod.snd).Perm (a.senders.map Prod.snd) ∧
      queries (a.postprocess sid).2 = [] := by
  obtain ⟨req, h, hst, hsend, hm, -⟩ := v.live sid s hs
  unfold DhtActor.postprocess LookupSession.getResult
  rw [hs]
  simp only
  by_cases hi : s.inFlight = []
  · rw [if_pos hi]
    simp only [hsend]
    have hres : (⟨s.peers, (s.nodes.closestResponsive closestCount).map Node.address⟩ : FoundPeers) = resultOf h (responses sid tr) := by
      rw [hm.peers, hm.nodes]; rfl
    rw [hres]
    have hnone : ∀ i, ∀ x ∈ [DhtEffect.answer req (resultOf h (responses sid tr))], lookupOf x ≠ some i := by
      intro i x hx
      rw [List.mem_singleton.1 hx]
      simp [lookupOf]
    have hqq : queries (tr ++ [DhtEffect.answer req (resultOf h (responses sid tr))]) = queries tr := by
      rw [queries_append]; simp [queries, queryOf]
    have hstart : ∀ i r h', DhtEffect.started i r h' ∈ tr ++ [DhtEffect.answer req (resultOf h (responses sid tr))] ↔
        DhtEffect.started i r h' ∈ tr := by
      intro i r h'
      simp
    have hsn : NodupKeys a.senders := by unfold NodupKeys; rw [v.keys]; exact v.nodup
    refine ⟨⟨v.myEq, v.v6Eq, by rw [hqq]; exact v.txn, by rw [hqq]; exact v.txns, nodupKeys_remove v.nodup _, ?_, ?_, ?_, ?_, ?_, ?_, ?_, ?_, ?_⟩, ?_, rfl⟩
    · simp only
      rw [HMap.keys_remove, HMap.keys_remove, v.keys]
    · intro x hx i hi
      rcases List.mem_append.1 hx with hx | hx
      · exact v.lt x hx i hi
      · exact absurd hi (hnone i x hx)
    · intro i s' hg
      simp only at hg
      rw [HMap.get_remove] at hg
      split at hg
      · cases hg
      · rename_i hne
        obtain ⟨req', h', h1, h2, h3, h4⟩ := v.live i s' hg
        refine ⟨req', h', (hstart _ _ _).2 h1, ?_, h3.other _ (hnone i), fun _ => h4 ?_⟩
        · simp only
          rw [HMap.get_remove, if_neg hne]; exact h2
        · intro hc
          cases hc
          exact hne rfl
    · intro hf i s' hg
      simp only at hg
      rw [HMap.get_remove] at hg
      split at hg
      · cases hg
      · exact v.timers hf.prefix i s' hg
    · intro i r h r' h' h1 h2
      exact v.unique i r h r' h' ((hstart _ _ _).1 h1) ((hstart _ _ _).1 h2)
    · intro i req' h' h1 h2
      rw [queriedBy_other _ _ _ (hnone i), responses_other _ _ _ (hnone i)]
      simp only at h2
      rw [HMap.get_remove] at h2
      split at h2
      · rename_i hii
        subst hii
        obtain ⟨-, rfl⟩ := v.unique _ _ _ _ _ hst ((hstart _ _ _).1 h1)
        have := hm.asked
        rwa [hq, List.append_nil] at this
      · exact v.asked i req' h' ((hstart _ _ _).1 h1) h2
    · intro i req' h' h1 h2
      rw [outstanding_other _ _ _ (hnone i), responses_other _ _ _ (hnone i)]
      simp only at h2
      rw [HMap.get_remove] at h2
      split at h2
      · rename_i hii
        subst hii
        obtain ⟨rfl, rfl⟩ := v.unique _ _ _ _ _ hst ((hstart _ _ _).1 h1)
        exact .inl ⟨fun hf => by rw [← hm.inFlight hf.prefix]; exact hi, by simp⟩
      · rcases v.ended i req' h' ((hstart _ _ _).1 h1) h2 with ⟨h5, h6⟩ | h5
        · exact .inl ⟨fun hf => h5 hf.prefix, List.mem_append_left _ h6⟩
        · exact .inr (List.mem_append_left _ h5)
    · intro req' r h1
      rcases List.mem_append.1 h1 with h1 | h1
      · obtain ⟨i, h', h2, h3, h4, h5⟩ := v.answers req' r h1
        refine ⟨i, h', (hstart _ _ _).2 h2, ?_, ?_, ?_⟩
        · simp only
          rw [HMap.get_remove]
          split
          · rfl
          · exact h3
        · intro hf; rw [outstanding_other _ _ _ (hnone i)]; exact h4 hf.prefix
        · rw [responses_other _ _ _ (hnone i)]; exact h5
      · rw [List.mem_singleton] at h1
        cases h1
        refine ⟨sid, h, (hstart _ _ _).2 hst, ?_, ?_, ?_⟩
        · simp only
          rw [HMap.get_remove, if_pos rfl]
        · intro hf; rw [outstanding_other _ _ _ (hnone sid), ← hm.inFlight hf.prefix]; exact hi
        · rw [responses_other _ _ _ (hnone sid)]
    · rw [hqq]
      intro q hq
      obtain ⟨req, h, h1, h2⟩ := v.fields q hq
      exact ⟨req, h, (hstart _ _ _).2 h1, h2⟩
    · exact (remove_perm hsn hsend).symm
  · rw [if_neg hi]
    simp only [List.append_nil]
    refine ⟨{ v with live := ?_ }, by simp [settled], rfl⟩
    intro i s' hg
    obtain ⟨req', h', h1, h2, h3, h4⟩ := v.live i s' hg
    refine ⟨req', h', h1, h2, h3, fun _ => ?_⟩
    by_cases hii : i = sid
    · subst hii
      rw [hs] at hg
      cases hg
      exact ⟨hq, hi⟩
    · exact h4 (by simpa using Ne.symm hii)

theorem handleMessage_few {s : LookupSession} (h : s.toQuery = []) (addr : SockAddr) (txn msg : Bytes) :
    (s.handleMessage addr txn msg).1.toQuery.length ≤ 8 := by
  unfold LookupSession.handleMessage
  split
  · simp only
    split
    · simp only [LookupSession.takeResponse, NodeSpace.closestUnqueried]
      rw [h, List.nil_append, List.length_map, (askBuckets_eq _ _).2, List.length_map]
      exact Nat.le_trans (List.length_filter_le _ _) (List.length_take_le _ _)
    · simp only [h]; simp
  · simp only [h]; simp

/-- A reply. -/
theorem ActMid.message {my v6 boot a tr} (v : ActMid my v6 boot none a tr) (order : List Nat) (udp : SockAddr → Bytes → Bool)
    (addr : SockAddr) (msg : Bytes) :
    ActMid my v6 boot none (a.handleMessage order udp addr msg).1 (tr ++ (a.handleMessage order udp addr msg).2) ∧
      (settled (a.handleMessage order udp addr msg).2 ++ (a.handleMessage order udp addr msg).1.senders.map Prod.snd).Perm
        (a.senders.map Prod.snd) := by
  have trivial : ActMid my v6 boot none a (tr ++ []) ∧ (settled [] ++ a.senders.map Prod.snd).Perm (a.senders.map Prod.snd) := by
    rw [List.append_nil]; exact ⟨v, List.Perm.refl _⟩
  unfold DhtActor.handleMessage
  cases hp : prescan msg with
  | none => exact trivial
  | some p =>
    simp only
    by_cases hq : p.msgType = .query
    · rw [if_pos hq]; exact trivial
    · rw [if_neg hq]
      have hf := findSession_eq (fun s => s.handleMessage addr p.transactionId msg) (fun s => (addr, p.transactionId) ∈ s.inFlight)
        (by intro s h; simp only [LookupSession.handleMessage]; rw [if_pos h]; split <;> rfl)
        (by intro s h; simp only [LookupSession.handleMessage]; rw [if_neg h]) a.sessions v.nodup order
      rcases hf with ⟨hf, -⟩ | ⟨sid, s, -, hg, hin, hf⟩
      · rw [hf]; exact trivial
      · rw [hf]
        have hg1 : HMap.get (HMap.set a.sessions sid (s.handleMessage addr p.transactionId msg).1) sid =
            some (s.handleMessage addr p.transactionId msg).1 := by
          rw [HMap.get_set, if_pos rfl, hg]; rfl
        simp only [hg1]
        have hsub : ∀ x ∈ (s.handleMessage addr p.transactionId msg).1.inFlight, x ∈ s.inFlight := by
          intro x hx
          simp only [LookupSession.handleMessage] at hx
          rw [if_pos hin] at hx
          split at hx
          · exact (List.mem_filter.1 hx).1
          · exact (List.mem_filter.1 hx).1
        have v1 := v.update hg (.replied sid addr p.transactionId msg) rfl rfl (by simp) (fun h hm => hm.replied addr _ msg hin) a.timers
          (fun hf x hx => v.timers hf sid s hg x (hsub x hx)) (fun hf i s' _ hi => v.timers hf i s' hi)
        have hfew : (s.handleMessage addr p.transactionId msg).1.toQuery.length ≤ 8 := by
          obtain ⟨_, _, _, _, _, h4⟩ := v.live sid s hg
          exact handleMessage_few (h4 (by simp)).1 addr _ msg
        generalize (s.handleMessage addr p.transactionId msg).1 = s1 at *
        have h2 := v1.flush (s := s1) hg1 udp _ rfl
        simp only at h2
        generalize DhtActor.sendAll _ udp sid (s1.getOutgoing a.txn).2.2 = r at h2 ⊢
        obtain ⟨v2, ⟨s2, hg2, hq2⟩, hse, hfi⟩ := h2 (by omega)
        obtain ⟨v3, hperm, -⟩ := v2.finish hg2 hq2
        rw [List.cons_append, List.append_cons, ← List.append_assoc]
        refine ⟨v3, ?_⟩
        have : settled (DhtEffect.replied sid addr p.transactionId msg :: (r.2 ++ (r.1.postprocess sid).2)) =
            settled (r.1.postprocess sid).2 := by
          rw [show DhtEffect.replied sid addr p.transactionId msg :: (r.2 ++ (r.1.postprocess sid).2) =
            [DhtEffect.replied sid addr p.transactionId msg] ++ (r.2 ++ (r.1.postprocess sid).2) from rfl, settled_append, settled_append, hfi]
          rfl
        rw [this, ← hse]
        exact hperm

/-- A timeout. -/
theorem ActMid.timer {my v6 boot a tr} (v : ActMid my v6 boot none a tr) (order : List Nat)
    (hord : ∀ i ∈ a.sessions.map Prod.fst, i ∈ order) (addr : SockAddr) (txn : Bytes) :
    ActMid my v6 boot none (a.handleTimer order addr txn).1 (tr ++ (a.handleTimer order addr txn).2) ∧
      (settled (a.handleTimer order addr txn).2 ++ (a.handleTimer order addr txn).1.senders.map Prod.snd).Perm
        (a.senders.map Prod.snd) := by
  unfold DhtActor.handleTimer
  have hf := findSession_eq (fun s => s.handleTimeout addr txn) (fun s => (addr, txn) ∈ s.inFlight)
    (by intro s h; simp only [LookupSession.handleTimeout]; rw [if_pos h])
    (by intro s h; simp only [LookupSession.handleTimeout]; rw [if_neg h]) a.sessions v.nodup order
  rcases hf with ⟨hf, hno⟩ | ⟨sid, s, -, hg, hin, hf⟩
  · rw [hf]
    simp only [List.append_nil]
    refine ⟨{ v with timers := ?_ }, by simp [settled]⟩
    intro hf sid s hg x hx
    refine List.mem_filter.2 ⟨v.timers hf sid s hg x hx, ?_⟩
    have := hno sid (hord sid ((HMap.get_isSome_iff _ _).1 ⟨s, hg⟩)) s hg
    simp only [ne_eq, decide_not, Bool.not_eq_eq_eq_not, Bool.not_true, decide_eq_false_iff_not]
    rintro rfl
    exact this hx
  · rw [hf]
    simp only
    have hg1 : HMap.get (HMap.set a.sessions sid (s.handleTimeout addr txn).1) sid = some (s.handleTimeout addr txn).1 := by
      rw [HMap.get_set, if_pos rfl, hg]; rfl
    have hfl : (s.handleTimeout addr txn).1.inFlight = setRemove s.inFlight (addr, txn) := by
      simp only [LookupSession.handleTimeout]; rw [if_pos hin]
    have htq : (s.handleTimeout addr txn).1.toQuery = [] := by
      obtain ⟨_, _, _, _, _, h4⟩ := v.live sid s hg
      simp only [LookupSession.handleTimeout]; rw [if_pos hin]
      exact (h4 (by simp)).1
    have v1 := v.update hg (.timedOut sid addr txn) rfl rfl (by simp) (fun h hm => hm.timedOut addr _ hin) (setRemove a.timers (addr, txn))
      (by
        intro hf x hx
        rw [hfl] at hx
        exact List.mem_filter.2 ⟨v.timers hf sid s hg x (List.mem_filter.1 hx).1, (List.mem_filter.1 hx).2⟩)
      (by
        intro hf i s' hi hg' x hx
        refine List.mem_filter.2 ⟨v.timers hf i s' hg' x hx, ?_⟩
        simp only [ne_eq, decide_not, Bool.not_eq_eq_eq_not, Bool.not_true, decide_eq_false_iff_not]
        rintro rfl
        obtain ⟨_, _, _, _, m1, _⟩ := v.live i s' hg'
        obtain ⟨_, _, _, _, m2, _⟩ := v.live sid s hg
        exact hi (noReuse_unique hf.2 (m1.sub _ hx) (m2.sub _ hin)))
    obtain ⟨v3, hperm, -⟩ := v1.finish hg1 htq
    rw [List.append_cons]
    refine ⟨v3, ?_⟩
    exact hperm

/-- A new lookup. -/
theorem ActMid.lookup {my v6 boot a tr} (v : ActMid my v6 boot none a tr) (udp : SockAddr → Bytes → Bool)
    (req : Nat) (h : InfoHash) :
    ActMid my v6 boot none (a.lookup boot udp req h).1 (tr ++ (a.lookup boot udp req h).2) ∧
      (settled (a.lookup boot udp req h).2 ++ (a.lookup boot udp req h).1.senders.map Prod.snd).Perm
        (req :: a.senders.map Prod.snd) := by
  have hfresh : ∀ e ∈ tr, lookupOf e ≠ some a.nextSid := by
    intro e he hl
    exact absurd (v.lt e he _ hl) (Nat.lt_irrefl _)
  have hnone : HMap.get a.sessions a.nextSid = none := by
    cases e : HMap.get a.sessions a.nextSid with
    | none => rfl
    | some s =>
      obtain ⟨_, _, h1, _⟩ := v.live _ _ e
      exact absurd rfl (hfresh _ h1)
  have hnoneS : a.nextSid ∉ a.senders.map Prod.fst := by
    rw [v.keys]; exact HMap.get_none_iff.1 hnone
  have e1 : queriedBy a.nextSid tr = [] := by
    have := queriedBy_other a.nextSid [] tr hfresh; simpa [queriedBy, queries] using this
  have e2 : responses a.nextSid tr = [] := by
    have := responses_other a.nextSid [] tr hfresh; simpa [responses] using this
  have e3 : outstanding a.nextSid tr = [] := by
    have := outstanding_other a.nextSid [] tr hfresh; simpa [outstanding] using this
  have hqq : queries (tr ++ [.started a.nextSid req h]) = queries tr := by rw [queries_append]; simp [queries, queryOf]
  have hoth : ∀ i, i ≠ a.nextSid → ∀ x ∈ [DhtEffect.started a.nextSid req h], lookupOf x ≠ some i := by
    intro i hi x hx
    rw [List.mem_singleton.1 hx]
    intro h; cases h; exact hi rfl
  have hne : ∀ i r h', DhtEffect.started i r h' ∈ tr → i ≠ a.nextSid := by
    rintro i r h' h1 rfl
    exact hfresh _ h1 rfl
  have hstart : ∀ {i r h'}, DhtEffect.started i r h' ∈ tr ++ [.started a.nextSid req h] →
      DhtEffect.started i r h' ∈ tr ∨ i = a.nextSid ∧ r = req ∧ h' = h := by
    intro i r h' h1
    rcases List.mem_append.1 h1 with h1 | h1
    · exact .inl h1
    · rw [List.mem_singleton] at h1; cases h1; exact .inr ⟨rfl, rfl, rfl⟩
  let s0 := LookupSession.new h a.myId a.usingIpv6 boot
  let a0 : DhtActor := { a with nextSid := a.nextSid + 1, sessions := HMap.insert a.sessions a.nextSid s0, senders := HMap.insert a.senders a.nextSid req }
  have hg0 : HMap.get a0.sessions a.nextSid = some s0 := by
    show HMap.get (HMap.insert a.sessions a.nextSid s0) a.nextSid = _
    rw [HMap.get_insert, if_pos rfl]
  have v0 : ActMid my v6 boot (some a.nextSid) a0 (tr ++ [.started a.nextSid req h]) := by
    refine ⟨v.myEq, v.v6Eq, by rw [hqq]; exact v.txn, by rw [hqq]; exact v.txns, nodupKeys_insert v.nodup _ _, ?_, ?_, ?_, ?_, ?_, ?_, ?_, ?_, ?_⟩
    · show (HMap.insert a.senders a.nextSid req).map Prod.fst = (HMap.insert a.sessions a.nextSid s0).map Prod.fst
      rw [HMap.keys_insert, HMap.keys_insert, v.keys]
    · intro x hx i hi
      show i < a.nextSid + 1
      rcases List.mem_append.1 hx with hx | hx
      · have := v.lt x hx i hi; omega
      · rw [List.mem_singleton.1 hx] at hi; cases hi; omega
    · intro i s' hg
      change HMap.get (HMap.insert a.sessions a.nextSid s0) i = some s' at hg
      rw [HMap.get_insert] at hg
      split at hg
      · rename_i hi
        subst hi
        cases hg
        refine ⟨req, h, by simp, ?_, ⟨v.myEq, v.v6Eq, ?_, ?_, (fun _ hx => by cases hx), ?_, List.nodup_nil, ?_⟩, fun hc => absurd rfl hc⟩
        · show HMap.get (HMap.insert a.senders a.nextSid req) a.nextSid = _
          rw [HMap.get_insert, if_pos rfl]
        · rw [responses_append, e2]; rfl
        · rw [responses_append, e2]; rfl
        · intro _; rw [outstanding_append, e3]; rfl
        · rw [queriedBy_append, e1, responses_append, e2]
          exact (List.append_nil boot).symm
      · rename_i hi
        obtain ⟨req', h', h1, h2, h3, h4⟩ := v.live i s' hg
        refine ⟨req', h', List.mem_append_left _ h1, ?_, h3.other _ (hoth i (hne _ _ _ h1)), fun _ => h4 (by simp)⟩
        show HMap.get (HMap.insert a.senders a.nextSid req) i = _
        rw [HMap.get_insert, if_neg hi]; exact h2
    · intro hf i s' hg
      change HMap.get (HMap.insert a.sessions a.nextSid s0) i = some s' at hg
      rw [HMap.get_insert] at hg
      split at hg
      · cases hg
        intro x hx; cases hx
      · exact v.timers hf.prefix i s' hg
    · intro i r h1 r' h1' g1 g2
      rcases hstart g1 with g1 | ⟨j1, j2, j3⟩ <;> rcases hstart g2 with g2 | ⟨k1, k2, k3⟩
      · exact v.unique i r h1 r' h1' g1 g2
      · exact absurd k1 (hne _ _ _ g1)
      · exact absurd j1 (hne _ _ _ g2)
      · exact ⟨j2.trans k2.symm, j3.trans k3.symm⟩
    · intro i req' h' g1 g2
      change HMap.get (HMap.insert a.sessions a.nextSid s0) i = none at g2
      rw [HMap.get_insert] at g2
      split at g2
      · cases g2
      · rename_i hi
        rcases hstart g1 with g1 | ⟨j1, -⟩
        · rw [queriedBy_other _ _ _ (hoth i (hne _ _ _ g1)), responses_other _ _ _ (hoth i (hne _ _ _ g1))]
          exact v.asked i req' h' g1 g2
        · exact absurd j1.symm hi
    · intro i req' h' g1 g2
      change HMap.get (HMap.insert a.sessions a.nextSid s0) i = none at g2
      rw [HMap.get_insert] at g2
      split at g2
      · cases g2
      · rename_i hi
        rcases hstart g1 with g1 | ⟨j1, -⟩
        · rw [outstanding_other _ _ _ (hoth i (hne _ _ _ g1)), responses_other _ _ _ (hoth i (hne _ _ _ g1))]
          rcases v.ended i req' h' g1 g2 with ⟨h5, h6⟩ | h5
          · exact .inl ⟨fun hf => h5 hf.prefix, List.mem_append_left _ h6⟩
          · exact .inr (List.mem_append_left _ h5)
        · exact absurd j1.symm hi
    · intro req' r g1
      rcases List.mem_append.1 g1 with g1 | g1
      · obtain ⟨i, h', h2, h3, h4, h5⟩ := v.answers req' r g1
        refine ⟨i, h', List.mem_append_left _ h2, ?_, ?_, ?_⟩
        · show HMap.get (HMap.insert a.sessions a.nextSid s0) i = none
          rw [HMap.get_insert, if_neg (Ne.symm (hne _ _ _ h2))]; exact h3
        · intro hf; rw [outstanding_other _ _ _ (hoth i (hne _ _ _ h2))]; exact h4 hf.prefix
        · rw [responses_other _ _ _ (hoth i (hne _ _ _ h2))]; exact h5
      · rw [List.mem_singleton] at g1; cases g1
    · rw [hqq]
      intro q hq
      obtain ⟨req', h', h1, h2⟩ := v.fields q hq
      exact ⟨req', h', List.mem_append_left _ h1, h2⟩
  have h2 := v0.flush hg0 udp _ rfl
  have ha : ({ a0 with sessions := HMap.set a0.sessions a.nextSid (s0.getOutgoing a0.txn).1, txn := (s0.getOutgoing a0.txn).2.1 } : DhtActor) =
      { a with
        txn := (s0.getOutgoing a.txn).2.1
        nextSid := a.nextSid + 1
        sessions := HMap.insert a.sessions a.nextSid (s0.getOutgoing a.txn).1
        senders := HMap.insert a.senders a.nextSid req } := by
    show DhtActor.mk _ _ _ (HMap.set (HMap.insert a.sessions a.nextSid s0) a.nextSid (s0.getOutgoing a.txn).1) _ _ _ = _
    rw [HMap.set_insert]
  rw [ha] at h2
  unfold DhtActor.lookup
  change ActMid my v6 boot none ((DhtActor.sendAll _ udp a.nextSid (s0.getOutgoing a.txn).2.2).1.postprocess a.nextSid).1
    (tr ++ (DhtEffect.started a.nextSid req h :: (DhtActor.sendAll _ udp a.nextSid (s0.getOutgoing a.txn).2.2).2 ++
    ((DhtActor.sendAll _ udp a.nextSid (s0.getOutgoing a.txn).2.2).1.postprocess a.nextSid).2)) ∧
    (settled (DhtEffect.started a.nextSid req h :: (DhtActor.sendAll _ udp a.nextSid (s0.getOutgoing a.txn).2.2).2 ++
    ((DhtActor.sendAll _ udp a.nextSid (s0.getOutgoing a.txn).2.2).1.postprocess a.nextSid).2) ++
    ((DhtActor.sendAll _ udp a.nextSid (s0.getOutgoing a.txn).2.2).1.postprocess a.nextSid).1.senders.map Prod.snd).Perm _
  generalize hr : DhtActor.sendAll _ udp a.nextSid (s0.getOutgoing a.txn).2.2 = r at h2 ⊢
  obtain ⟨v2, ⟨s2, hg2, hq2⟩, hse, hfi⟩ := h2 id
  obtain ⟨v3, hperm, -⟩ := v2.finish hg2 hq2
  rw [List.cons_append, List.append_cons, ← List.append_assoc]
  refine ⟨v3, ?_⟩
  have hfin : settled (DhtEffect.started a.nextSid req h :: (r.2 ++ (r.1.postprocess a.nextSid).2)) =
      settled (r.1.postprocess a.nextSid).2 := by
    rw [show DhtEffect.started a.nextSid req h :: (r.2 ++ (r.1.postprocess a.nextSid).2) =
      [DhtEffect.started a.nextSid req h] ++ (r.2 ++ (r.1.postprocess a.nextSid).2) from rfl, settled_append, settled_append, hfi]
    rfl
  rw [hfin]
  refine hperm.trans ?_
  rw [hse]
  have : HMap.insert a.senders a.nextSid req = (a.nextSid, req) :: a.senders := by
    unfold HMap.insert
    congr 1
    apply List.filter_eq_self.2
    intro x hx
    simp only [ne_eq, decide_not, Bool.not_eq_eq_eq_not, Bool.not_true, decide_eq_false_iff_not]
    intro hx'
    exact hnoneS (List.mem_map.2 ⟨x, hx, hx'⟩)
  show ((HMap.insert a.senders a.nextSid req).map Prod.snd).Perm _
  rw [this]
  exact List.Perm.refl _

end Demag
