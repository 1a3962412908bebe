import Verif.Spec.DhtNetwork
import Verif.Props.DhtLookup

/-! # Properties: what a DHT lookup finds although some nodes are bad (C91) -/

namespace Demag.Props

open Demag Spec

variable {lookup : Text → BitVec 16 → Option (List SockAddr)} {nodes : List InetAddr}

theorem adds_known (ops : List SpaceOp) (l : List Node) (n : Node) (h : n ∈ l) :
    ∃ m ∈ known (ops ++ l.map SpaceOp.add), Node.address m = Node.address n := by
  induction l using List.reverseRecOn with
  | nil => cases h
  | append_singleton l m ih =>
    rw [List.map_append, ← List.append_assoc, List.map_singleton, known_snoc]
    simp only [learn]
    rcases List.mem_append.1 h with h | h
    · obtain ⟨x, hx, e⟩ := ih h
      split
      · exact ⟨x, hx, e⟩
      · exact ⟨x, List.mem_append_left _ hx, e⟩
    · obtain rfl := List.mem_singleton.1 h
      split
      · rename_i hm
        obtain ⟨x, hx, e⟩ := List.mem_map.1 hm
        exact ⟨x, hx, e⟩
      · exact ⟨n, by simp, rfl⟩

/-- Whatever is listed becomes known, at least under another name. -/
theorem listed_known (rs : List (SockAddr × GetPeersResponse)) (r : SockAddr × GetPeersResponse) (hr : r ∈ rs) (n : Node) (h : n ∈ listed r.2) :
    ∃ m ∈ known (nodeOps rs), Node.address m = Node.address n := by
  induction rs using List.reverseRecOn with
  | nil => cases hr
  | append_singleton rs x ih =>
    rw [nodeOps_snoc, known_respond]
    rcases List.mem_append.1 hr with hr | hr
    · obtain ⟨m, hm, e⟩ := ih hr
      exact ⟨m, known_mono _ _ m hm, e⟩
    · obtain rfl := List.mem_singleton.1 hr
      exact adds_known _ _ n h

/-- A node with fewer than 8 others before it is among the first 8. -/
theorem early_take (L : List Node) (a b : List Node) (n : Node) (e : L = a ++ n :: b) (h : a.length < 8) : n ∈ L.take 8 := by
  subst e
  rw [List.take_append]
  refine List.mem_append_right _ ?_
  obtain ⟨k, hk⟩ : ∃ k, 8 - a.length = k + 1 := ⟨7 - a.length, by omega⟩
  rw [hk]
  simp

theorem ranking_before {h : InfoHash} {l L a b : List Node} {n : Node} (hL : IsRanking h l L) (e : L = a ++ n :: b) :
    (∀ m ∈ a, nodeDistance h m ≤ nodeDistance h n) ∧ ∀ m ∈ b, nodeDistance h n ≤ nodeDistance h m := by
  have hp := hL.2
  rw [e, List.pairwise_append] at hp
  constructor
  · intro m hm
    rcases hp.2.2 m hm n (by simp) with h | h <;> omega
  · intro m hm
    rcases (List.pairwise_cons.1 hp.2.1).1 m hm with h | h <;> omega

/-- The core of C91: a set of replies after which the 8 closest known nodes have been asked, and every good node that was asked answered. -/
theorem network_found (h : InfoHash) (good bad : List Node) (rs : List (SockAddr × GetPeersResponse)) (asked : List SockAddr)
    (net : Network h good bad rs) (few : bad.length ≤ 7)
    (hasked : ∀ L, IsRanking h (known (nodeOps rs)) L → ∀ n ∈ L.take 8, Node.address n ∈ asked)
    (hans : ∀ n ∈ good, Node.address n ∈ asked → ∃ r, (Node.address n, r) ∈ rs)
    (start : ∃ r ∈ rs, ∃ n ∈ good, n ∈ listed r.2) (n : Node) (hn : Central h good bad n) : ∃ r, (Node.address n, r) ∈ rs := by
  have inN : ∀ m ∈ known (nodeOps rs), m ∈ good ++ bad := fun m hm => by
    obtain ⟨r, hr, hl⟩ := known_listed rs m hm
    exact net.only r hr m hl
  have isK : ∀ r ∈ rs, ∀ m ∈ listed r.2, m ∈ known (nodeOps rs) := fun r hr m hm => by
    obtain ⟨x, hx, e⟩ := listed_known rs r hr m hm
    have := List.inj_on_of_nodup_map net.one_name (inN x hx) (net.only r hr m hm) e
    exact this ▸ hx
  have hnodup : (known (nodeOps rs)).Nodup := (known_nodup _).of_map
  have hL := (SpaceInv.run h (nodeOps rs)).ranking
  generalize ((flat (spaceRun (NodeSpace.new h) (nodeOps rs)).1.nodes).map fun i => i.node) = L at hL
  have hLn : L.Nodup := hL.1.symm.nodup hnodup
  -- the first good node in the ranking
  obtain ⟨r0, hr0, g0, hg0, hl0⟩ := start
  have hex : ∃ m ∈ L, decide (m ∈ good) = true := ⟨g0, hL.1.symm.subset (isK r0 hr0 g0 hl0), by simpa using hg0⟩
  obtain ⟨x, hx⟩ : ∃ x, L.find? (fun m => decide (m ∈ good)) = some x := by
    cases hf : L.find? (fun m => decide (m ∈ good)) with
    | some x => exact ⟨x, rfl⟩
    | none =>
      obtain ⟨m, hm, hd⟩ := hex
      exact absurd hd (by simpa using List.find?_eq_none.1 hf m hm)
  obtain ⟨hxg, a, b, eL, hab⟩ := List.find?_eq_some_iff_append.1 hx
  have hxg : x ∈ good := by simpa using hxg
  have ha : a ⊆ bad := fun m hm => by
    have h1 := hab m hm
    have h2 := inN m (hL.1.subset (by rw [eL]; simp [hm]))
    rcases List.mem_append.1 h2 with h2 | h2
    · simp [h2] at h1
    · exact h2
  have han : a.Nodup := by rw [eL] at hLn; exact (List.nodup_append.1 hLn).1
  have hal : a.length ≤ bad.length := (han.subperm ha).length_le
  have hxasked : Node.address x ∈ asked := hasked L hL x (early_take L a b x eL (by omega))
  obtain ⟨rx, hrx⟩ := hans x hxg hxasked
  -- it is central
  have hxc : Central h good bad x := by
    by_contra hc
    obtain ⟨m, hmg, hml, hlt⟩ := net.far _ hrx x hxg rfl hc
    have hmL : m ∈ L := hL.1.symm.subset (isK _ hrx m hml)
    rw [eL] at hmL
    rcases List.mem_append.1 hmL with hm | hm
    · have := hab m hm; simp [hmg] at this
    · rcases List.mem_cons.1 hm with rfl | hm
      · omega
      · have := (ranking_before hL eL).2 m hm; omega
  by_cases hnx : n = x
  · exact hnx ▸ ⟨rx, hrx⟩
  -- so it lists `n`
  have hnL : n ∈ L := hL.1.symm.subset (isK _ hrx n (net.near _ hrx x rfl hxc n hn hnx))
  obtain ⟨c, d, eL'⟩ := List.append_of_mem hnL
  have hc : c.length < 8 := by
    refine Nat.lt_of_le_of_lt ?_ hn.2
    refine (List.Nodup.subperm (l₁ := c) (by rw [eL'] at hLn; exact (List.nodup_append.1 hLn).1) fun m hm => ?_).length_le
    rw [List.mem_filter]
    refine ⟨inN m (hL.1.subset (by rw [eL']; simp [hm])), ?_⟩
    have hne : m ≠ n := by
      rw [eL'] at hLn
      exact (List.nodup_append.1 hLn).2.2 m hm n (by simp)
    simpa [hne] using (ranking_before hL eL').1 m hm
  exact hans n hn.1 (hasked L hL n (early_take L c d n eL' hc))

/-- **C91.** Up to seven bad nodes cannot mislead a lookup, whatever they answer, as long as nobody lists a good node under another ID:
if some reply lists a good node and the good nodes that are asked answer, all good nodes in the centre have answered when the lookup
gives its result, and the peers they know are in the result. -/
theorem lookup_finds (my : NodeId) (v6 : Bool) (es : List DhtEvent) (st : DhtState) (tr : List DhtEffect)
    (h : (DhtState.init my v6).run lookup nodes es = some (st, tr)) (req : Nat) (result : FoundPeers) (ha : DhtEffect.answer req result ∈ tr) :
    ∃ sid hash, DhtEffect.started sid req hash ∈ tr ∧ ∀ good bad, Network hash good bad (responses sid tr) → bad.length ≤ 7 →
      (∀ n ∈ good, Node.address n ∈ queriedBy sid tr → ∃ r, (Node.address n, r) ∈ responses sid tr) →
      (∃ r ∈ responses sid tr, ∃ n ∈ good, n ∈ listed r.2) →
      ∀ n, Central hash good bad n → ∃ r, (Node.address n, r) ∈ responses sid tr ∧ ∀ p ∈ r.values, p ∈ result.peers := by
  obtain ⟨sid, hash, hst, -, -, hpeers, -⟩ := answer_spec my v6 es st tr h req result ha
  refine ⟨sid, hash, hst, fun good bad net few hans start n hn => ?_⟩
  obtain ⟨r, hr⟩ := network_found hash good bad (responses sid tr) (queriedBy sid tr) net few
    (lookup_answered my v6 es st tr h sid req hash hst).1 hans start n hn
  exact ⟨r, hr, fun p hp => (hpeers p).2 (List.mem_flatMap.2 ⟨_, hr, hp⟩)⟩

/-! ### Examples, and that both conditions are needed -/

instance (h : InfoHash) (good bad : List Node) (n : Node) : Decidable (Central h good bad n) := by unfold Central; infer_instance

/-- `Network`, as a computation. -/
def networkCheck (h : InfoHash) (good bad : List Node) (rs : List (SockAddr × GetPeersResponse)) : Bool :=
  (rs.all fun r => (listed r.2).all fun n => decide (n ∈ good ++ bad)) &&
  rs.all fun r => good.all fun n => decide (r.1 ≠ Node.address n) ||
    if Central h good bad n then good.all fun m => decide (Central h good bad m → m ≠ n → m ∈ listed r.2)
    else good.any fun m => decide (m ∈ listed r.2 ∧ nodeDistance h m < nodeDistance h n)

theorem networkCheck_near {h : InfoHash} {good bad : List Node} {rs : List (SockAddr × GetPeersResponse)} (c : networkCheck h good bad rs = true) :
    (∀ r ∈ rs, ∀ n ∈ listed r.2, n ∈ good ++ bad) ∧
    (∀ r ∈ rs, ∀ n, r.1 = Node.address n → Central h good bad n → ∀ m, Central h good bad m → m ≠ n → m ∈ listed r.2) ∧
    (∀ r ∈ rs, ∀ n ∈ good, r.1 = Node.address n → ¬ Central h good bad n → ∃ m ∈ good, m ∈ listed r.2 ∧ nodeDistance h m < nodeDistance h n) := by
  unfold networkCheck at c
  rw [Bool.and_eq_true, List.all_eq_true, List.all_eq_true] at c
  refine ⟨fun r hr n hn => ?_, fun r hr n e hc m hm hne => ?_, fun r hr n hn e hc => ?_⟩
  · exact of_decide_eq_true (List.all_eq_true.1 (c.1 r hr) n hn)
  · have := List.all_eq_true.1 (c.2 r hr) n hc.1
    rw [if_pos hc, Bool.or_eq_true, decide_eq_true_eq, List.all_eq_true] at this
    rcases this with h | h
    · exact absurd e h
    · exact of_decide_eq_true (h m hm.1) hm hne
  · have := List.all_eq_true.1 (c.2 r hr) n hn
    rw [if_neg hc, Bool.or_eq_true, decide_eq_true_eq, List.any_eq_true] at this
    rcases this with h | ⟨m, hm, h⟩
    · exact absurd e h
    · exact ⟨m, hm, of_decide_eq_true h⟩

/-- A node with a small ID on a port of one machine. -/
def smallNode (id port : UInt8) : Node := ⟨⟨id :: List.replicate 19 0, by simp⟩, .v4 ⟨0x01020304#32⟩, BitVec.ofNat 16 port.toNat⟩

/-- Its compact form. -/
def smallCompact (id port : UInt8) : Bytes := id :: List.replicate 19 0 ++ [1, 2, 3, 4, 0, port]

/-- A bootstrap node lists a good node far away.  That one lists a close good node and seven closer ones that are down. -/
def eventsSeven : List DhtEvent :=
  [.resolved [bootAddr], .submit (.lookup 7 ⟨List.replicate 20 0, by decide⟩), .receive (fun _ _ => true),
   .packet bootAddr (responseWith 0 "26" (smallCompact 100 12)) [0] (fun _ _ => true),
   .packet (Node.address (smallNode 100 12)) (responseWith 1 "208"
     (smallCompact 9 11 ++ (List.range 7).flatMap fun i => smallCompact (UInt8.ofNat (i + 1)) (UInt8.ofNat (i + 21)))) [0] (fun _ _ => true)] ++
  (List.range 7).map (fun i => .timer (Node.address (smallNode (UInt8.ofNat (i + 1)) (UInt8.ofNat (i + 21)))) [0, 0, 0, UInt8.ofNat (i + 2)] [0]) ++
  [.packet (Node.address (smallNode 9 11)) (responseWith 9 "0" []) [0] (fun _ _ => true)]

/-- The hypotheses of `lookup_finds` can be met, with seven bad nodes, and one good node in the centre and one outside. -/
example : (runOf eventsSeven).map (fun r =>
    let good := [smallNode 9 11, smallNode 100 12]
    let bad := (List.range 7).map fun i => smallNode (UInt8.ofNat (i + 1)) (UInt8.ofNat (i + 21))
    let h : InfoHash := ⟨List.replicate 20 0, by decide⟩
    (networkCheck h good bad (responses 0 r.2) && decide ((good ++ bad).map Node.address).Nodup,
     good.all fun n => (responses 0 r.2).any fun x => x.1 = Node.address n,
     good.map fun n => decide (Central h good bad n),
     settled r.2)) = some (true, true, [true, false], [7]) := by decide +kernel

/-- A bootstrap node lists a good node far away and eight closer ones that are down. -/
def eventsEight : List DhtEvent :=
  [.resolved [bootAddr], .submit (.lookup 7 ⟨List.replicate 20 0, by decide⟩), .receive (fun _ _ => true),
   .packet bootAddr (responseWith 0 "234"
     (smallCompact 100 12 ++ (List.range 8).flatMap fun i => smallCompact (UInt8.ofNat (i + 2)) (UInt8.ofNat (i + 21)))) [0] (fun _ _ => true)] ++
  (List.range 8).map (fun i => .timer (Node.address (smallNode (UInt8.ofNat (i + 2)) (UInt8.ofNat (i + 21)))) [0, 0, 0, UInt8.ofNat (i + 1)] [0])

/-- **C91.** Eight bad nodes can mislead a lookup: all the other hypotheses of `lookup_finds` hold, and the node that is closest of all is
not found. -/
theorem eight_mislead : ∃ (my : NodeId) (v6 : Bool) (es : List DhtEvent) (st : DhtState) (tr : List DhtEffect) (result : FoundPeers)
    (hash : InfoHash) (good bad : List Node) (n : Node),
    (DhtState.init my v6).run (fun _ _ => none) [⟨.ipv4 ⟨0x01020304#32⟩, 1⟩] es = some (st, tr) ∧
    DhtEffect.answer 7 result ∈ tr ∧ DhtEffect.started 0 7 hash ∈ tr ∧ Network hash good bad (responses 0 tr) ∧ bad.length = 8 ∧
    (∀ m ∈ good, Node.address m ∈ queriedBy 0 tr → ∃ r, (Node.address m, r) ∈ responses 0 tr) ∧
    (∃ r ∈ responses 0 tr, ∃ m ∈ good, m ∈ listed r.2) ∧
    Central hash good bad n ∧ (∀ m ∈ good ++ bad, nodeDistance hash n ≤ nodeDistance hash m) ∧ Node.address n ∉ queriedBy 0 tr := by
  let good := [smallNode 1 11, smallNode 100 12]
  let bad := (List.range 8).map fun i => smallNode (UInt8.ofNat (i + 2)) (UInt8.ofNat (i + 21))
  let hash : InfoHash := ⟨List.replicate 20 0, by decide⟩
  have h : (runOf eventsEight).map (fun r => (
      decide (DhtEffect.answer 7 ⟨[Peer.ofAddr (.v4 ⟨⟨0x05060708#32⟩, 80⟩)], []⟩ ∈ r.2) && decide (DhtEffect.started 0 7 hash ∈ r.2),
      networkCheck hash good bad (responses 0 r.2),
      good.all fun m => decide (Node.address m ∉ queriedBy 0 r.2),
      (responses 0 r.2).any fun x => good.any fun m => decide (m ∈ listed x.2))) = some (true, true, true, true) := by
    decide +kernel
  cases hr : runOf eventsEight with
  | none => rw [hr] at h; cases h
  | some p =>
    obtain ⟨st, tr⟩ := p
    rw [hr] at h
    simp only [Option.map_some, Option.some.injEq, Prod.mk.injEq, Bool.and_eq_true, decide_eq_true_eq, List.any_eq_true, List.all_eq_true] at h
    obtain ⟨⟨h1, h2⟩, h3, h4, x, h5, m, h6, h7⟩ := h
    obtain ⟨n1, n2, n3⟩ := networkCheck_near h3
    refine ⟨_, _, _, st, tr, _, hash, good, bad, smallNode 1 11, hr, h1, h2, ⟨by decide +kernel, n1, n2, n3⟩, by decide +kernel, ?_,
      ⟨x, h5, m, h6, h7⟩, by decide +kernel, by decide +kernel, h4 _ (by simp [good])⟩
    exact fun m hm hq => absurd hq (h4 m hm)

/-- A bootstrap node lists eight good nodes, and under a false ID the address of the good node that is closest of all.  The eight answer
and list each other and the closest one. -/
def eventsFalseName : List DhtEvent :=
  let eight := (List.range 8).flatMap fun i => smallCompact (UInt8.ofNat (i + 2)) (UInt8.ofNat (i + 21))
  [.resolved [bootAddr], .submit (.lookup 7 ⟨List.replicate 20 0, by decide⟩), .receive (fun _ _ => true),
   .packet bootAddr (responseWith 0 "234" (smallCompact 200 11 ++ eight)) [0] (fun _ _ => true)] ++
  (List.range 8).map (fun i => .packet (Node.address (smallNode (UInt8.ofNat (i + 2)) (UInt8.ofNat (i + 21))))
    (responseWith (UInt8.ofNat (i + 1)) "234" (smallCompact 1 11 ++ eight)) [0] (fun _ _ => true))

/-- **C91.** One false entry can mislead a lookup, if it names a good node: all the hypotheses of `lookup_finds` hold, except that the
one bad node has the address of a good one, and the node that is closest of all is not found, although eight good nodes list it. -/
theorem false_name_misleads : ∃ (my : NodeId) (v6 : Bool) (es : List DhtEvent) (st : DhtState) (tr : List DhtEffect) (result : FoundPeers)
    (hash : InfoHash) (good bad : List Node) (n : Node),
    (DhtState.init my v6).run (fun _ _ => none) [⟨.ipv4 ⟨0x01020304#32⟩, 1⟩] es = some (st, tr) ∧
    DhtEffect.answer 7 result ∈ tr ∧ DhtEffect.started 0 7 hash ∈ tr ∧ bad.length = 1 ∧
    (good.map Node.address).Nodup ∧ (∀ r ∈ responses 0 tr, ∀ n ∈ listed r.2, n ∈ good ++ bad) ∧
    (∀ r ∈ responses 0 tr, ∀ n, r.1 = Node.address n → Central hash good bad n → ∀ m, Central hash good bad m → m ≠ n → m ∈ listed r.2) ∧
    (∀ r ∈ responses 0 tr, ∀ n ∈ good, r.1 = Node.address n → ¬ Central hash good bad n →
      ∃ m ∈ good, m ∈ listed r.2 ∧ nodeDistance hash m < nodeDistance hash n) ∧
    (∀ m ∈ good, Node.address m ∈ queriedBy 0 tr → ∃ r, (Node.address m, r) ∈ responses 0 tr) ∧
    (∃ r ∈ responses 0 tr, ∃ m ∈ good, m ∈ listed r.2) ∧
    Central hash good bad n ∧ (∀ m ∈ good ++ bad, nodeDistance hash n ≤ nodeDistance hash m) ∧ Node.address n ∉ queriedBy 0 tr := by
  let good := smallNode 1 11 :: (List.range 8).map fun i => smallNode (UInt8.ofNat (i + 2)) (UInt8.ofNat (i + 21))
  let bad := [smallNode 200 11]
  let hash : InfoHash := ⟨List.replicate 20 0, by decide⟩
  have h : (runOf eventsFalseName).map (fun r => (
      decide (DhtEffect.started 0 7 hash ∈ r.2) && r.2.any (fun e => match e with | .answer q _ => q == 7 | _ => false),
      networkCheck hash good bad (responses 0 r.2),
      good.all fun m => decide (Node.address m ∈ queriedBy 0 r.2 → Node.address m ∈ (responses 0 r.2).map Prod.fst),
      ((responses 0 r.2).any fun x => good.any fun m => decide (m ∈ listed x.2)) && decide (Node.address (smallNode 1 11) ∉ queriedBy 0 r.2))) =
      some (true, true, true, true) := by
    decide +kernel
  cases hr : runOf eventsFalseName with
  | none => rw [hr] at h; cases h
  | some p =>
    obtain ⟨st, tr⟩ := p
    rw [hr] at h
    simp only [Option.map_some, Option.some.injEq, Prod.mk.injEq, Bool.and_eq_true, decide_eq_true_eq, List.any_eq_true, List.all_eq_true] at h
    obtain ⟨⟨h2, e, he, h1⟩, h3, h4, ⟨x, h5, m, h6, h7⟩, h8⟩ := h
    obtain ⟨n1, n2, n3⟩ := networkCheck_near h3
    cases e with
    | answer q result =>
      obtain rfl : q = 7 := by simpa using h1
      refine ⟨_, _, _, st, tr, result, hash, good, bad, smallNode 1 11, hr, he, h2, rfl, by decide +kernel, n1, n2, n3, ?_,
        ⟨x, h5, m, h6, h7⟩, by decide +kernel, by decide +kernel, h8⟩
      intro m hm hq
      obtain ⟨⟨a, r⟩, hr, e⟩ := List.mem_map.1 (h4 m hm hq)
      exact ⟨r, by rw [← e]; exact hr⟩
    | _ => cases h1

end Demag.Props
