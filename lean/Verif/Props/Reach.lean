import Verif.Spec.Reach
import Verif.Props.GetAnnounce
import Verif.Props.DhtTraffic
import Verif.Props.Frugal

/-! # C96: how many peers an answer can make the program contact -/

namespace Demag.Props

open Spec

/-! ### The size of the answer of a tracker -/

theorem compacts_length (l : List SockAddr) (b : Bytes) (h : IsConcat IsCompact l b) : 6 * l.length ≤ b.length := by
  induction l generalizing b with
  | nil => simp
  | cons x l ih =>
    obtain ⟨b1, r, rfl, h1, h2⟩ := h
    have := ih r h2
    have : 6 ≤ b1.length := by
      cases x with
      | v4 a => exact Nat.le_of_eq h1.1.symm
      | v6 a => have := h1.1; omega
    rw [List.length_append, List.length_cons]
    omega

theorem announceResponse_length {v6 : Bool} {xid i l n : Nat} {addrs : List SockAddr} {bs : Bytes} (h : IsAnnounceResponse v6 xid i l n addrs bs) :
    20 + 6 * addrs.length ≤ bs.length := by
  obtain ⟨-, -, -, -, h5, h6, -⟩ := h
  have h1 := compacts_length _ _ h6
  have h2 := h5.1
  rw [List.length_take, List.length_drop] at h2
  rw [List.length_drop] at h1
  omega

theorem peerDicts_length {parseIp : Text → Option IpAddr} (l : List Ben) (ps : List Peer) (h : List.Forall₂ (IsPeerDict parseIp) l ps) :
    6 * ps.length ≤ (bencList l).length := by
  induction h with
  | nil => simp
  | cons hx _ ih =>
    obtain ⟨kvs, ip, port, rfl, ⟨v, h1, -⟩, -⟩ := hx
    have := bencDict_one h1
    have h4 : (encBytes (keyBytes "ip")).length = 4 := by decide +kernel
    rw [bencList, benc]
    simp only [List.length_append, List.length_cons, List.length_nil]
    omega

theorem denoted_length {lossy : Bytes → Text} {parseIp : Text → Option IpAddr} {kvs : List (Bytes × Ben)} {r : AnnounceResponse}
    (h : DenotesResponse lossy parseIp kvs r) : 6 * r.peers.length < (benc (.dict kvs)).length := by
  obtain ⟨flags, ps, ps6, -, h1, h2, qs, h3, h4, -⟩ := h.peers
  have e2 := values_size (keyBytes "peers") (keyBytes "peers6") (keyBytes "interval") (by decide) (by decide) (by decide) kvs
  have f1 : 6 * (ps.getD []).length ≤ valueSize (keyBytes "peers") kvs := by
    unfold OptField at h1
    unfold valueSize
    split at h1
    · simp
    · rename_i v a hl
      rw [hl]
      rcases h1 with ⟨l, rfl, hl2⟩ | ⟨b, as, rfl, hb, hf⟩
      · have := peerDicts_length l _ hl2
        simp only [benc, List.length_cons, List.length_append, Option.getD_some]
        omega
      · have := concat_length IsCompact4 6 (fun _ _ h => h.1) as b hb
        simp only [benc, encBytes, List.length_cons, List.length_append, Option.getD_some, ← hf.length_eq]
        omega
    · exact h1.elim
  have f2 : 6 * (ps6.getD []).length ≤ valueSize (keyBytes "peers6") kvs := by
    unfold OptField at h2
    unfold valueSize
    split at h2
    · simp
    · rename_i v a hl
      rw [hl]
      obtain ⟨b, as, rfl, hb, hf⟩ := h2
      have := concat_length IsCompact6 18 (fun _ _ h => h.1) as b hb
      simp only [benc, encBytes, List.length_cons, List.length_append, Option.getD_some, ← hf.length_eq]
      omega
    · exact h2.elim
  rw [h3, List.length_append, h4, benc]
  simp only [List.length_append, List.length_cons, List.length_nil]
  omega

/-- **C96.** The peers that a tracker gives take six bytes each of the one packet or body in which they arrive: a UDP tracker gives at most as many as
fit after the 20 bytes at the beginning of a packet. -/
theorem tracker_gives_few {lossy : Bytes → Text} {parseIp : Text → Option IpAddr} {t : Tracker} {c : GetterCtx} {tr pre post : AskTrace} {s : Ask}
    {e : AskEvent} {out : List AskOutput} {ps : List Peer} (h : AskRun lossy parseIp t c tr s) (ht : tr = pre ++ (e, out) :: post)
    (hr : .result (.ok ps) ∈ out) :
    6 * ps.length < bytesHeard e ∧ ∀ u, t = .udp u → 20 + 6 * ps.length ≤ bytesHeard e := by
  rcases ask_peers h ht hr with ⟨u, ue, bs, addr, req, cid, xid, i, l, n, addrs, rfl, rfl, hi, -, -, ha, rfl⟩ |
    ⟨u, url, b, kvs, r, rfl, rfl, -, -, rfl, -, hden, rfl⟩
  · obtain ⟨time, x, input⟩ := ue
    cases hi
    have := announceResponse_length ha
    simp only [bytesHeard, List.length_map]
    exact ⟨by omega, fun _ _ => by omega⟩
  · have := denoted_length hden
    refine ⟨this, fun u hu => by cases hu⟩

theorem result_heard {lossy : Bytes → Text} {parseIp : Text → Option IpAddr} {t : Tracker} {c : GetterCtx} {tr : AskTrace} {s : Ask}
    (h : AskRun lossy parseIp t c tr s) {r : Except (GetterError AskError) (List Peer)} (hr : AskOutput.result r ∈ tr.flatMap Prod.snd) :
    6 * (r.toOption.getD []).length ≤ heard tr := by
  cases r with
  | error e => simp [Except.toOption]
  | ok ps =>
    obtain ⟨⟨e, o⟩, h1, hm⟩ := List.mem_flatMap.1 hr
    obtain ⟨pre, post, rfl⟩ := List.append_of_mem h1
    have := (tracker_gives_few h rfl hm).1
    simp only [heard, List.map_append, List.map_cons, List.sum_append, List.sum_cons, Except.toOption, Option.getD_some]
    omega

/-! ### Each tracker is asked once -/

theorem follows_subperm {J R : Type} {N : Nat} {n : Nursery J R} {acc : List J} {fin : List (J × Outcome R)} {d : Nat} (h : Follows N n acc fin d) :
    (fin.map Prod.fst).Subperm acc := by
  obtain ⟨tr, L, h1, -, -, -, rfl, h6, rfl, h8, -⟩ := h
  have hfn : (L.map Prod.fst).Nodup := by
    have := (List.nodup_append.1 (nursery_once h1).2.2).1
    rw [h6, List.map_map] at this
    exact this
  have hnd : (L.map fun x => (x.1, x.2.1)).Nodup := List.Nodup.of_map Prod.fst (by rw [List.map_map]; exact hfn)
  have hsub : (L.map fun x => (x.1, x.2.1)).Subperm (acceptedJobs tr) := by
    refine List.subperm_of_subset hnd fun x hx => ?_
    obtain ⟨y, hy, rfl⟩ := List.mem_map.1 hx
    exact h8 y hy
  obtain ⟨l, hp, hs⟩ := hsub
  refine ⟨l.map Prod.snd, ?_, hs.map _⟩
  have := hp.map Prod.snd
  rw [List.map_map] at this ⊢
  exact this

theorem dones_once {T P A D I ε : Type} [DecidableEq A] {addr : P → A} {all : List T} {dht : Except ε (List P × List D)} {jobsT jobsP : Nat}
    (hT : 0 < jobsT) (hP : 0 < jobsP) {tr : ResolveTrace T P D I ε} {s : Resolve T P A D I ε} (h : ResolveRun addr all dht jobsT jobsP tr s)
    (hne : all ≠ []) (hc : ∀ t, (t, .panic) ∉ trackerDones tr) : ((trackerDones tr).map Prod.fst).Subperm all := by
  obtain ⟨⟨-, hsrc⟩, -⟩ := resolve_inv hT hP (.inl hne) h
  rcases hsrc with ⟨-, ht⟩ | ⟨he, -⟩
  · by_cases hj : s.job = .over
    · rcases (ht.over hj).2.2.2 with ⟨t, hp⟩ | ⟨hp, -⟩
      · exact absurd hp (hc t)
      · exact hp.subperm
    · obtain ⟨n, acc, d, -, hf, hall, -⟩ := ht.live hj
      rw [← hall]
      exact (follows_subperm hf).trans (List.sublist_append_left _ _).subperm
  · exact absurd he hne

/-- **C96.** The peers that a lookup on the DHT gives take six bytes each of the packets that arrived. -/
theorem dht_gives_few {lookup : Text → BitVec 16 → Option (List SockAddr)} {nodes : List InetAddr} (my : NodeId) (v6 : Bool) (es : List DhtEvent) (st : DhtState)
    (tr : List DhtEffect) (h : (DhtState.init my v6).run lookup nodes es = some (st, tr)) (req : Nat) (found : FoundPeers) (ha : .answer req found ∈ tr) :
    6 * found.peers.length ≤ dhtHeard es := by
  obtain ⟨sid, hash, -, -, r5, r6, -⟩ := answer_spec my v6 es st tr h req found ha
  have hs := (responses_size sid tr).1
  have hl : found.peers.length ≤ (peersOf (responses sid tr)).length := (List.subperm_of_subset r5 fun p hp => (r6 p).1 hp).length_le
  have hq := (dht_replies_arrived my v6 es st tr h).1
  have hb : messageBytes (repliesTo sid tr) ≤ dhtHeard es := by
    have s1 : ((repliesTo sid tr).map fun x => x.2.2.length).Sublist ((repliesTaken tr).map fun x => x.2.2.length) := List.filter_sublist.map _
    have s2 := hq.map fun p => p.2.length
    rw [List.map_map] at s2
    exact sublist_sum (s1.trans s2)
  omega

theorem exists_asks {α β : Type} {R : α → β → Prop} (l : List α) (h : ∀ x ∈ l, ∃ y, R x y) : ∃ l', List.Forall₂ R l l' := by
  induction l with
  | nil => exact ⟨[], .nil⟩
  | cons x l ih =>
    obtain ⟨y, hy⟩ := h x (List.mem_cons_self ..)
    obtain ⟨l', hl⟩ := ih fun z hz => h z (List.mem_cons_of_mem _ hz)
    exact ⟨y :: l', .cons hy hl⟩

section
variable {sha1 : Bytes → Bytes} {env : GetEnv} {behaves : Peer → (Nat → Link) → Prop} {answers : Tracker → AskTrace → Prop} {m : Magnet}
  {tr : ResolveTrace Tracker Peer SockAddr TorrentInfo TaskError} {s : Resolve Tracker Peer SockAddr SockAddr TorrentInfo TaskError}

/-- **C96.** How many peers `get` contacts.  With trackers in the link: it asks each of them at most once, and for six bytes that they send it contacts at
most one peer.  Without: for six bytes that arrive from the DHT at most one. -/
theorem get_contacts_few (hT : 0 < env.cfg.trackers.jobsPerMagnet) (hP : 0 < env.cfg.peers.jobsPerMagnet)
    (h : GetRun sha1 env behaves answers m tr s) :
    (m.trackers ≠ [] → ∃ asks : List (Tracker × AskTrace), (asks.map Prod.fst).Subperm m.trackers ∧
      (∀ x ∈ asks, ∃ a, AskRun env.lossy env.parseIp x.1 (env.getter m) x.2 a ∧ answers x.1 x.2) ∧
      6 * (contacts tr).length ≤ (asks.map fun x => heard x.2).sum) ∧
    (m.trackers = [] → contacts tr = [] ∨ ∃ lookup my v6 es st effects req found,
      (DhtState.init my v6).run lookup env.cfg.dht.bootstrapNodes es = some (st, effects) ∧ .submit (.lookup req m.infoHash) ∈ es ∧
      .answer req found ∈ effects ∧ contacts tr <+: found.peers ∧ 6 * (contacts tr).length ≤ dhtHeard es) := by
  obtain ⟨dht, hd, hrun⟩ := h.run
  constructor
  · intro hne
    obtain ⟨h1, h2⟩ := (resolve_contacts hT hP hrun.run).1 hne
    obtain ⟨-, -, f3, -⟩ := firsts_spec (fun p : Peer => p.address) (arrivals tr)
    obtain ⟨asks, ha⟩ := exists_asks (R := fun (x : Tracker × Outcome (List Peer)) (y : Tracker × AskTrace) => y.1 = x.1 ∧
      (∃ a, AskRun env.lossy env.parseIp y.1 (env.getter m) y.2 a ∧ answers y.1 y.2) ∧ 6 * (answered x).length ≤ heard y.2) (trackerDones tr) (by
        rintro ⟨t, o⟩ hto
        obtain ⟨atr, a, r, a1, a2, a3, rfl⟩ := get_tracker h hto
        exact ⟨(t, atr), rfl, ⟨a, a1, a2⟩, result_heard a1 a3⟩)
    refine ⟨asks, ?_, ?_, ?_⟩
    · have : asks.map Prod.fst = (trackerDones tr).map Prod.fst := by
        clear h1 h2
        generalize trackerDones tr = l at ha
        induction ha with
        | nil => rfl
        | cons hx _ ih => rw [List.map_cons, List.map_cons, ih, hx.1]
      rw [this]
      refine dones_once hT hP hrun.run hne fun t ht => ?_
      obtain ⟨_, _, _, -, -, -, hx⟩ := get_tracker h ht
      cases hx
    · intro y hy
      obtain ⟨x, -, hx⟩ := mem_forall₂ ha y hy
      exact hx.2.1
    · have hl : 6 * ((trackerDones tr).flatMap answered).length ≤ (asks.map fun x => heard x.2).sum := by
        clear h1 h2
        generalize trackerDones tr = l at ha
        induction ha with
        | nil => simp
        | cons hx _ ih =>
          rw [List.flatMap_cons, List.length_append, List.map_cons, List.sum_cons]
          have := hx.2.2
          omega
      have := h2.length_le
      have := f3.length_le
      rw [h1]
      omega
  · intro he
    cases dht with
    | error e =>
      have hr := hrun.run
      rw [he] at hr
      obtain ⟨rfl, -⟩ := resolve_exited hr
      exact .inl rfl
    | ok x =>
      obtain ⟨ps, ns⟩ := x
      have hpre := (resolve_contacts hT hP hrun.run).2.1 he ps ns rfl
      rcases hd with ⟨_, hd⟩ | ⟨lookup, my, v6, es, st, effects, req, found, h1, h3, h4, h5⟩
      · cases hd
      · cases h5
        obtain ⟨sid, hash, a1, -⟩ := answer_spec my v6 es st effects h1 req found h4
        have hr := lookup_requested my v6 es st effects h1 sid req hash a1
        cases h3 _ hr
        have := dht_gives_few my v6 es st effects h1 req found h4
        have := hpre.length_le
        exact .inr ⟨lookup, my, v6, es, st, effects, req, found, h1, hr, h4, hpre, by omega⟩

/-- **C96.** So if no tracker sends more than `B` bytes, at most `B / 6` peers are contacted for each tracker of the link. -/
theorem get_contacts_bounded (hT : 0 < env.cfg.trackers.jobsPerMagnet) (hP : 0 < env.cfg.peers.jobsPerMagnet)
    (h : GetRun sha1 env behaves answers m tr s) (hne : m.trackers ≠ []) (B : Nat) (hB : ∀ t atr, answers t atr → heard atr ≤ B) :
    6 * (contacts tr).length ≤ m.trackers.length * B := by
  obtain ⟨asks, h1, h2, h3⟩ := (get_contacts_few hT hP h).1 hne
  have h4 : (asks.map fun x => heard x.2).sum ≤ asks.length * B := by
    clear h1 h3
    induction asks with
    | nil => simp
    | cons x l ih =>
      obtain ⟨_, -, hx⟩ := h2 x (List.mem_cons_self ..)
      have := ih fun y hy => h2 y (List.mem_cons_of_mem _ hy)
      have := hB _ _ hx
      rw [List.map_cons, List.sum_cons, List.length_cons, Nat.add_mul]
      omega
  have h5 := h1.length_le
  rw [List.length_map] at h5
  have := Nat.mul_le_mul_right B h5
  omega

end

/-! ### There is no other limit -/

/-- The addresses 0.0.0.0:0, 0.0.0.1:0, and so on. -/
def manyAddrs (n : Nat) : List SockV4 := (List.range n).map fun i => ⟨⟨BitVec.ofNat 32 i⟩, 0⟩

/-- A response that lists them. -/
def manyResponse (n : Nat) : List (Bytes × Ben) :=
  [(keyBytes "interval", .int 1800), (keyBytes "peers", .bytes ((manyAddrs n).flatMap fun a => sockToCompact (.v4 a)))]

def manyPeers (n : Nat) : List Peer := (manyAddrs n).map fun a => ⟨.v4 a, none, false⟩

theorem many_denoted (lossy : Bytes → Text) (parseIp : Text → Option IpAddr) (n : Nat) :
    DenotesResponse lossy parseIp (manyResponse n) ⟨1800, manyPeers n, none, none, none, none, none, none, none⟩ := by
  refine ⟨rfl, ⟨_, rfl, rfl⟩, ⟨none, some (manyPeers n), none, trivial, .inr ⟨_, manyAddrs n, rfl, (v4s_spec _ _).1 (v4s_roundtrip _), ?_⟩, trivial,
    manyPeers n, by simp, rfl, ?_⟩, trivial, trivial, trivial, trivial, trivial, rfl, rfl⟩
  · unfold manyPeers
    generalize manyAddrs n = l
    induction l with
    | nil => exact .nil
    | cons a l ih => exact .cons ⟨rfl, rfl, rfl⟩ ih
  · intro i p q hp hq
    rw [Option.getD_some] at hp
    rw [hp] at hq
    cases hq
    refine ⟨rfl, rfl, ?_⟩
    have := List.mem_of_getElem? hp
    obtain ⟨a, -, rfl⟩ := List.mem_map.1 this
    simp

/-- **C96.** There is no other limit.  However many peers are asked for, an HTTP tracker can give any number of different ones, and they are all taken. -/
theorem tracker_unlimited (lossy : Bytes → Text) (parseIp : Text → Option IpAddr) (u : Url) (c : GetterCtx) (n : Nat) (hn : n ≤ 2 ^ 32) :
    ∃ tr s ps, AskRun lossy parseIp (.http u) c tr s ∧ askResults tr = [.ok ps] ∧ ps.length = n ∧ (ps.map Peer.address).Nodup := by
  have hc : Canonical (.dict (manyResponse n)) := by
    simp only [manyResponse, Canonical, CanonicalDict, SortedKeys]
    exact ⟨⟨by decide +kernel, trivial⟩, trivial, trivial, trivial⟩
  have hd : depth (.dict (manyResponse n)) ≤ 2048 := by
    simp [manyResponse, depth, depthDict]
  obtain ⟨tr, s, -, h1, -, -, -, h2, -⟩ := ask_answers_http u c _ hc hd _ (many_denoted lossy parseIp n)
  refine ⟨tr, s, _, h1, h2, by simp [manyPeers, manyAddrs], ?_⟩
  simp only [manyPeers, manyAddrs, List.map_map]
  refine List.Nodup.map_on ?_ List.nodup_range
  intro i hi j hj he
  simp only [List.mem_range] at hi hj
  have he : BitVec.ofNat 32 i = BitVec.ofNat 32 j := by
    injection he with he
    injection he with he
    injection he
  have := congrArg BitVec.toNat he
  rw [BitVec.toNat_ofNat, BitVec.toNat_ofNat, Nat.mod_eq_of_lt (by omega), Nat.mod_eq_of_lt (by omega)] at this
  exact this

-- a UDP tracker's answer with one peer: the hypotheses of `get_contacts_few` and `get_contacts_bounded` are met, and one peer is contacted
example : ∃ tr s B, GetRun (fun _ => List.replicate 20 7) exGetEnv (fun p links => p = exPeer ∧ links = fun _ => exLink) (fun _ x => heard x ≤ B)
    exTracked tr s ∧ (contacts tr).length = 1 ∧ 6 ≤ B := by
  obtain ⟨atr, tr, s, r, h1, -, h2, -⟩ := exGetRun
  have h3 : GetRun (fun _ => List.replicate 20 7) exGetEnv (fun p links => p = exPeer ∧ links = fun _ => exLink) (fun _ x => heard x ≤ heard atr)
      exTracked tr s := by
    refine ⟨h1.run, ?_, h1.calm⟩
    intro eo heo t ps hp
    obtain ⟨w, x, a, r, a1, rfl, a3⟩ := h1.asked eo heo t ps hp
    exact ⟨w, x, a, r, a1, Nat.le_refl _, a3⟩
  have h4 := get_contacts_bounded (by decide) (by decide) h3 (by simp [exTracked]) (heard atr) (fun _ _ h => h)
  rw [h2] at h4
  exact ⟨tr, s, heard atr, h3, by rw [h2]; rfl, by simpa [exTracked] using h4⟩

-- on the DHT: one peer, for which 227 bytes arrived
example : (runOf eventsTwins).map (fun r => decide (DhtEffect.answer 7 ⟨[Peer.ofAddr (.v4 ⟨⟨0x05060708#32⟩, 80⟩)], [addrX]⟩ ∈ r.2)) = some true ∧
    dhtHeard eventsTwins = 227 := by decide +kernel

-- 33 bytes, of which 6 are a peer
example : bytesHeard (.http (.body (key "d8:intervali1800e5:peers6:iiiippe"))) = 33 := by decide +kernel

end Demag.Props
