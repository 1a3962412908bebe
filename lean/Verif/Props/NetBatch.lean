import Verif.Spec.NetBatch
import Verif.Lemmas.NetAll
import Verif.Lemmas.NetName
import Verif.Props.FleetRuns
import Verif.Props.GetAnnounce
import Verif.Props.Frugal
import Verif.Props.DhtSend

/-!
# Nobody is told of a link that does not concern them
-/

namespace Demag

open Spec Props

section
variable {sha1 : Bytes → Bytes} {good : Bytes → Prop} {message : Bytes → Message → Prop} {garbage : Bytes → MessageError → Prop}

/-- What a conversation about the metadata consists of. -/
theorem talk_words {n : Nat} {ps s es} (h : Talk n ps s es) :
    (∀ e ∈ es, (∃ m, e = .received m) ∨ (∃ p, e = .sent (request p)) ∨ ∃ p, e = .sent (reject p)) ∧
      ∀ m, s = some m → (∃ p, m = request p) ∨ ∃ p, m = reject p := by
  induction h with
  | start h => exact ⟨by simp, fun m hm => by cases hm; exact .inl ⟨_, rfl⟩⟩
  | @sent ps m es _ ih =>
    refine ⟨fun e he => ?_, by simp⟩
    rcases List.mem_append.1 he with he | he
    · exact ih.1 e he
    · obtain rfl := List.mem_singleton.1 he
      rcases ih.2 m rfl with ⟨p, rfl⟩ | ⟨p, rfl⟩
      · exact .inr (.inl ⟨p, rfl⟩)
      · exact .inr (.inr ⟨p, rfl⟩)
  | @ignore ps m es _ hm ih =>
    refine ⟨fun e he => ?_, by simp⟩
    rcases List.mem_append.1 he with he | he
    · exact ih.1 e he
    · exact .inl ⟨m, List.mem_singleton.1 he⟩
  | @refuse ps p es _ ih =>
    refine ⟨fun e he => ?_, fun m hm => by cases hm; exact .inr ⟨_, rfl⟩⟩
    rcases List.mem_append.1 he with he | he
    · exact ih.1 e he
    · exact .inl ⟨_, List.mem_singleton.1 he⟩
  | @accept ps p es _ hl hlt ih =>
    refine ⟨fun e he => ?_, fun m hm => by cases hm; exact .inl ⟨_, rfl⟩⟩
    rcases List.mem_append.1 he with he | he
    · exact ih.1 e he
    · exact .inl ⟨_, List.mem_singleton.1 he⟩

theorem ends_words {ih : InfoHash} {n : Nat} {rest stop next es r} (h : Spec.Ends sha1 good ih n rest stop garbage next es r) :
    ∀ e ∈ es, (∃ m, e = .received m) ∨ (∃ p, e = .sent (request p)) ∨ ∃ p, e = .sent (reject p) := by
  have one : ∀ {ps s es m}, Talk n ps s es →
      ∀ e ∈ es ++ [.received m], (∃ m, e = .received m) ∨ (∃ p, e = .sent (request p)) ∨ ∃ p, e = .sent (reject p) := by
    intro ps s es m ht e he
    rcases List.mem_append.1 he with he | he
    · exact (talk_words ht).1 e he
    · exact .inl ⟨m, List.mem_singleton.1 he⟩
  cases h with
  | empty => simp
  | complete ht => exact one ht
  | silent ht => exact (talk_words ht).1
  | closed ht => exact (talk_words ht).1
  | broken ht => exact (talk_words ht).1
  | garbled ht => exact (talk_words ht).1
  | size ht => exact one ht
  | piece ht => exact one ht
  | length ht => exact one ht
  | rejected ht => exact one ht
  | rejectedOther ht => exact one ht
  | unexpected ht => exact one ht
  | unsent ht => exact (talk_words ht).1
  | stuck ht => exact (talk_words ht).1

theorem connects_said {env : GetEnv} {m : Magnet} {p : Peer} {l : Link} {encrypt : Bool} {ours : Handshake} {es r}
    (ho : OurHandshake ⟨m.infoHash, env.localId, p.address.ip⟩ ours)
    (h : Connects l ⟨m.infoHash, env.localId, p.address.ip⟩ encrypt ours message garbage es r) :
    ∀ e ∈ es, IsSaid e → PeerMayBeTold env m p e := by
  have h1 : PeerMayBeTold env m p (.sentHandshake ours) := .handshake ho
  have h2 : PeerMayBeTold env m p (.sent (.extended (.handshake (ourGreeting p.address.ip)))) := .greeting
  have h3 : PeerMayBeTold env m p (.sent (.core .haveNone)) := .haveNone
  cases h <;> intro e he hs <;> simp only [greetings, List.mem_append, List.mem_cons, List.not_mem_nil, or_false] at he <;>
    (try rcases he with he | he) <;> (try rcases he with he | he) <;> (try rcases he with he | he) <;> (try rcases he with he | he) <;>
    (try subst he) <;> first | exact h1 | exact h2 | exact h3 | (simp [IsSaid] at hs; done) | skip

theorem greetings_said {env : GetEnv} {m : Magnet} {p : Peer} {ours h : Handshake} {s : ExtendedHandshake}
    (ho : OurHandshake ⟨m.infoHash, env.localId, p.address.ip⟩ ours) :
    ∀ e ∈ allGreetings ⟨m.infoHash, env.localId, p.address.ip⟩ ours h s, IsSaid e → PeerMayBeTold env m p e := by
  intro e he hs
  unfold allGreetings greetings at he
  rcases List.mem_append.1 he with he | he
  · simp only [List.mem_cons, List.not_mem_nil, or_false] at he
    rcases he with rfl | rfl | rfl | rfl
    · exact .handshake ho
    · simp [IsSaid] at hs
    · exact .greeting
    · simp [IsSaid] at hs
  · split at he
    · obtain rfl := List.mem_singleton.1 he
      exact .haveNone
    · cases he

theorem visit_said {env : GetEnv} {m : Magnet} {p : Peer} {l : Link} {encrypt : Bool} {es r}
    (h : Visit sha1 good l ⟨m.infoHash, env.localId, p.address.ip⟩ encrypt message garbage es r) :
    ∀ e ∈ es, IsSaid e → PeerMayBeTold env m p e := by
  cases h with
  | failed ho hc => exact connects_said ho hc
  | late ho hc => exact connects_said ho hc
  | panicked ho hc => exact connects_said ho hc
  | sizeless ho => exact greetings_said ho
  | huge ho => exact greetings_said ho
  | talked ho _ _ _ _ _ _ hends =>
    intro e he hs
    rcases List.mem_append.1 he with he | he
    · exact greetings_said ho e he hs
    · rcases ends_words hends e he with ⟨x, rfl⟩ | ⟨i, rfl⟩ | ⟨i, rfl⟩
      · simp [IsSaid] at hs
      · exact .request i
      · exact .reject i

end

section
variable {sha1 : Bytes → Bytes} {env : GetEnv} {resolve : Text → BitVec 16 → Option (List SockAddr)} {template : List TemplateElement} {ms : List Magnet}
  {tr : NetTrace} {ftr : MagnetFleetTrace} {s : NetBatch}

/-- The link of a download that has begun. -/
theorem NetInv.begun_link (hj : 0 < env.cfg.general.batchJobs) (v : NetInv sha1 env resolve template ms tr ftr s) {n : Nat} {m : Magnet} (hb : Began ftr n m) :
    s.link n = some m := by
  have hi := fleet_inv hj v.prog.run
  cases hw : s.fleet.work n with
  | none => exact absurd hb ((hi.idle n hw).2.1 m)
  | some r =>
    obtain ⟨m', hl, -⟩ := v.prog.working n r hw
    obtain ⟨m0, dht, s0, h1, h2, -⟩ := hi.active n r hw
    have := v.prog.link n m' hl
    rw [h1] at this
    cases this
    rw [(h2 m).1 hb]
    exact hl

theorem NetInv.link_begun (hj : 0 < env.cfg.general.batchJobs) (v : NetInv sha1 env resolve template ms tr ftr s) {n : Nat} {m : Magnet} (hl : s.link n = some m) :
    Began ftr n m := by
  have hi := fleet_inv hj v.prog.run
  cases hw : s.fleet.work n with
  | none => rw [v.prog.idle n hw] at hl; cases hl
  | some r =>
    obtain ⟨m0, dht, s0, h1, h2, -⟩ := hi.active n r hw
    have := v.prog.link n m hl
    rw [h1] at this
    cases this
    exact (h2 m).2 rfl

theorem NetInv.tasks (hj : 0 < env.cfg.general.batchJobs) (v : NetInv sha1 env resolve template ms tr ftr s) {n : Nat} {m : Magnet} (hb : Began ftr n m) :
    ∀ eo ∈ ftr, ∀ p r, .output n (.peerDone p r) ∈ eo.2 →
      ∃ links, Behaved tr p links ∧ taskOutcome (peerTask sha1 env.localId env.cfg.general.encrypt m.infoHash p links) = some r := by
  intro eo heo p r hp
  obtain ⟨m', ls, h1, h2, h3⟩ := v.faith.tasks n eo heo p r hp
  rw [v.begun_link hj hb] at h1
  cases h1
  exact ⟨ls, h2, h3⟩

/-- How the trackers of a download answered. -/
theorem NetInv.asked (hj : 0 < env.cfg.general.batchJobs) (v : NetInv sha1 env resolve template ms tr ftr s) {n : Nat} {m : Magnet} (hb : Began ftr n m) :
    ∀ eo ∈ ftr, ∀ t ps, .output n (.answer t ps) ∈ eo.2 → ∃ k w atr a r, m.trackers[k]? = some t ∧ atr <+: conversation n k tr ∧
      (∃ a, s.asks n k = some a ∧ a.tracker = t) ∧
      AskRun env.lossy env.parseIp t (env.getter m) atr a ∧ AskOutput.result r ∈ atr.flatMap Prod.snd ∧
      ps = r.toOption.getD [] ∧ eo.1 = .goesOn n (.trackerEnds w (.value (r.mapError .tracker))) := by
  intro eo heo t ps hp
  obtain ⟨m', k, w, atr, a, r, h1, ⟨a', h2, rfl⟩, h3, h4, h5, h6, h7⟩ := v.faith.asked n eo heo t ps hp
  have hl := v.begun_link hj hb
  rw [hl] at h1
  cases h1
  obtain ⟨m'', g1, g2, -⟩ := v.asks.begun n k a' h2
  rw [hl] at g1
  cases g1
  exact ⟨k, w, atr, a, r, g2, h3, ⟨a', h2, rfl⟩, h4, h5, h6, h7⟩

/-- Where the answer of the DHT comes from. -/
theorem NetInv.dhtGives (v : NetInv sha1 env resolve template ms tr ftr s) {n : Nat} {m : Magnet} (hm : ms[n]? = some m) {d out}
    (hd : (FleetEvent.begins n d, out) ∈ ftr) :
    (∃ x, d = .error (.dht x)) ∨ ∃ r : FoundPeers, NetOutput.dht (.effect (.answer n r)) ∈ tr.flatMap Prod.snd ∧ d = .ok (r.peers, r.closestNodes) := by
  obtain ⟨my, v6, des, st, dtr, c⟩ := v.dht.client
  rcases c.begins n d out hd with h | ⟨r, h1, h2⟩
  · exact .inl h
  · exact .inr ⟨r, c.heard _ h1, h2⟩

theorem NetInv.sharedDht (hj : 0 < env.cfg.general.batchJobs) (v : NetInv sha1 env resolve template ms tr ftr s) :
    SharedDht env.cfg.dht.bootstrapNodes ftr := by
  obtain ⟨my, v6, des, st, dtr, c⟩ := v.dht.client
  refine ⟨resolve, my, v6, des, st, dtr, c.run, fun n d m hb => ?_⟩
  rcases c.begins n d _ hb with h | ⟨r, h1, h2⟩
  · exact .inl h
  · refine .inr ⟨r, fun h hh => ?_, h1, h2⟩
    obtain ⟨m', g1, -, rfl⟩ := v.dht.lookups n h (c.submits n h hh)
    have hbg : Began ftr n m := List.mem_flatMap.2 ⟨_, hb, List.mem_singleton.2 rfl⟩
    rw [v.prog.link n m (v.begun_link hj hbg)] at g1
    cases g1
    rfl

/-- A download of the run by itself. -/
theorem NetInv.get (hj : 0 < env.cfg.general.batchJobs) (v : NetInv sha1 env resolve template ms tr ftr s) {n : Nat} {m : Magnet} (hb : Began ftr n m) :
    ∃ s0, GetRun sha1 env (Behaved tr) (fun t atr => ∃ k, m.trackers[k]? = some t ∧ atr <+: conversation n k tr) m (alone n ftr) s0 := by
  obtain ⟨hm, dht, s0, hd, hr, -, -⟩ := fleet_alone hj v.prog.run hb
  obtain ⟨i1, i2, i3⟩ := outputs_of v.prog.run
  have hb' := hb
  rw [Began, List.mem_flatMap] at hb'
  obtain ⟨⟨be, bo⟩, hbmem, hbin⟩ := hb'
  obtain ⟨d, rfl, rfl⟩ := i2 be bo n m hbmem hbin
  obtain rfl : d = dht := (hd d).1 ⟨_, hbmem⟩
  have back : ∀ eo ∈ alone n ftr, ∀ x ∈ eo.2, ∃ o, (FleetEvent.goesOn n eo.1, o) ∈ ftr ∧ .output n x ∈ o := by
    rintro ⟨e, out⟩ heo x hx
    obtain ⟨o, ho, rfl⟩ := mem_alone heo
    refine ⟨o, ho, ?_⟩
    rw [i1 n e o ho]
    exact List.mem_map.2 ⟨x, hx, rfl⟩
  have hg : DhtGives env.cfg.dht.bootstrapNodes m d := by
    obtain ⟨lookup, my, v6, es, st, dtr, hdr, hall⟩ := v.sharedDht hj
    rcases hall n d m hbmem with he | ⟨found, h1, h2, h3⟩
    · exact .inl he
    · exact .inr ⟨lookup, my, v6, es, st, dtr, n, found, hdr, h1, h2, h3⟩
  refine ⟨s0, ⟨d, hg, hr, ?_⟩, ?_, ?_⟩
  · intro eo heo p r hp
    obtain ⟨o, ho, hin⟩ := back eo heo _ hp
    exact v.tasks hj hb _ ho p r hin
  · intro eo heo t ps hp
    obtain ⟨o, ho, hin⟩ := back eo heo _ hp
    obtain ⟨k, w, atr, a, r, g1, g2, -, g3, g4, g5, g6⟩ := v.asked hj hb _ ho t ps hin
    refine ⟨w, atr, a, r, g3, ⟨k, g1, g2⟩, g4, g5, ?_⟩
    simpa using g6
  · intro eo heo t hp
    obtain ⟨o, ho, hin⟩ := back eo heo _ hp
    exact v.faith.calm _ ho n t hin

theorem start_unnamed (ms : Option (List Magnet)) (jobs : Nat) : (NetBatch.start ms jobs).unnamed = NetBatch.start (ms.map (List.map Magnet.unnamed)) jobs := by
  unfold NetBatch.unnamed NetBatch.start
  simp only [NetBatch.mk.injEq, and_true, true_and]
  refine ⟨?_, rfl⟩
  show Fleet.mk _ _ = Fleet.mk _ _
  rw [show (Fleet.start ms jobs : MagnetFleet).batch = Batch.start ms jobs from rfl, start_relink]
  rfl

/-- A run with the names left out. -/
theorem run_unnamed {links : Option (List Magnet)} (h : NetRun sha1 env resolve template links tr s) :
    NetRun sha1 env resolve template (links.map (List.map Magnet.unnamed)) (tr.map fun x => (x.1, x.2.map NetOutput.unnamed)) s.unnamed := by
  induction h with
  | init => rw [start_unnamed]; exact .init
  | step _ hs ih =>
    rw [List.map_append]
    refine ih.step ?_
    rw [net_unnamed, hs]
    rfl

/-- And with the names put back. -/
theorem run_named {links : Option (List Magnet)} (h : NetRun sha1 env resolve template (links.map (List.map Magnet.unnamed)) tr s) :
    ∃ tr' s', NetRun sha1 env resolve template links tr' s' ∧ s'.unnamed = s ∧ (tr'.map fun x => (x.1, x.2.map NetOutput.unnamed)) = tr := by
  induction h with
  | init => exact ⟨[], _, .init, start_unnamed .., rfl⟩
  | step _ hs ih =>
    obtain ⟨tr', s', h1, rfl, rfl⟩ := ih
    rw [net_unnamed, Option.map_eq_some_iff] at hs
    obtain ⟨⟨s2, o2⟩, h2, h3⟩ := hs
    cases h3
    exact ⟨_, _, h1.step h2, rfl, by rw [List.map_append]; rfl⟩

theorem network_unnamed (tr : NetTrace) : networkOutputs (tr.map fun x => (x.1, x.2.map NetOutput.unnamed)) = networkOutputs tr := by
  unfold networkOutputs
  rw [List.flatMap_map]
  induction tr with
  | nil => rfl
  | cons x l ih =>
    rw [List.flatMap_cons, List.flatMap_cons, List.filterMap_append, List.filterMap_append, ih]
    congr 1
    rw [List.filterMap_map]
    congr 1
    funext o
    cases o <;> rfl

end

end Demag

namespace Demag.Props

open Spec

section
variable {sha1 : Bytes → Bytes} {env : GetEnv} {resolve : Text → BitVec 16 → Option (List SockAddr)} {template : List TemplateElement} {ms : List Magnet}
  {tr : NetTrace} {s : NetBatch}

/-- **C104.** A batch with all its conversations is a batch as in C99: the tasks of its downloads end as the conversations in the run do, and the
DHT answers as its one client does. -/
theorem net_fleet_get {uenv : UrlEnv} {file : Option Bytes} (hj : 0 < env.cfg.general.batchJobs)
    (hm : batchLinks uenv env.lossy file = some ms) (h : NetRun sha1 env resolve template (some ms) tr s) :
    ∃ ftr, FleetGet sha1 env uenv (Behaved tr) (TalkedWith tr) template file ftr s.fleet ∧ ftr.flatMap Prod.snd = programOutputs tr := by
  obtain ⟨ftr, v⟩ := NetInv.run hj h
  have hb : ∀ {n m}, (∃ eo ∈ ftr, FleetOutput.began n m ∈ eo.2) → Began ftr n m := fun h => List.mem_flatMap.2 h
  refine ⟨ftr, ⟨?_, v.sharedDht hj, fun n m h => v.tasks hj (hb h), ?_, v.faith.calm, ?_⟩, v.prog.outs⟩
  · rw [hm]; exact v.prog.run
  · intro n m hbe eo heo t ps hp
    obtain ⟨k, w, atr, a, r, g1, g2, ⟨a', ha, rfl⟩, g3, g4, g5, g6⟩ := v.asked hj (hb hbe) eo heo t ps hp
    refine ⟨w, atr, a, r, g3, ⟨n, k, g2, ?_⟩, g4, g5, g6⟩
    intro t' o ho
    obtain ⟨a2, h1, h2, -⟩ := v.asks.said n k t' o ho
    rw [ha] at h1
    cases h1
    exact h2.symm
  · intro w sv n m o ho r hr
    obtain ⟨now, ok, h⟩ := v.faith.saved w sv n m o ho r hr
    exact ⟨now, ok, fun _ => h⟩

/-- **C104.** Whatever is sent to a tracker in the course of a batch goes to a tracker of one of the links, and concerns that link: a request to connect,
or an announcement of that link's info hash with what is configured. -/
theorem told_trackers (hj : 0 < env.cfg.general.batchJobs) (h : NetRun sha1 env resolve template (some ms) tr s) {n k : Nat} {t : Tracker} {o : AskOutput}
    (ho : NetOutput.tracker n k t o ∈ tr.flatMap Prod.snd) (hs : IsSent o) :
    ∃ m, ms[n]? = some m ∧ m.trackers[k]? = some t ∧ MayBeTold env m t o := by
  obtain ⟨ftr, v⟩ := NetInv.run hj h
  obtain ⟨a, ha, rfl, hin⟩ := v.asks.said n k t o ho
  obtain ⟨m, hl, hk, hrun, -⟩ := v.asks.begun n k a ha
  refine ⟨m, v.prog.link n m hl, hk, ?_⟩
  generalize a.tracker = t at hrun hk
  rcases hs with ⟨addr, bs, rfl⟩ | ⟨url, rfl⟩
  · obtain ⟨⟨e, out⟩, hmem, hd⟩ := List.mem_flatMap.1 hin
    obtain ⟨pre, post, heq⟩ := List.append_of_mem hmem
    obtain ⟨u, rfl, -, hb⟩ := ask_datagrams hrun heq hd
    rcases hb with ⟨xid, hb⟩ | ⟨ev, cid, xid, -, hb⟩
    · exact .connect hb
    · exact .udp (getter_configured env m ev) hb
  · have hu : url ∈ requests (conversation n k tr) := by
      unfold requests
      exact List.mem_filterMap.2 ⟨_, hin, rfl⟩
    rcases ask_requests hrun with hr | ⟨u, x, rfl, hx, hr | ⟨b, hb, hr, -⟩⟩
    · rw [hr] at hu; cases hu
    · rw [hr] at hu
      obtain rfl := List.mem_singleton.1 hu
      exact .http (getter_configured env m _) hx
    · rw [hr] at hu
      simp only [List.mem_cons, List.not_mem_nil, or_false] at hu
      rcases hu with rfl | rfl
      · exact .http (getter_configured env m _) hx
      · exact .http (getter_configured env m _) hb

/-- **C104.** Whatever is sent over the DHT in the course of a batch is a query for the info hash of a link without trackers.  Links with trackers are
never mentioned there. -/
theorem told_dht (hj : 0 < env.cfg.general.batchJobs) (h : NetRun sha1 env resolve template (some ms) tr s) {sid : Nat} {addr : SockAddr}
    {q : GetPeersQuery} {pk : Option Bytes} {ok : Bool} (ho : NetOutput.dht (.effect (.query sid addr q pk ok)) ∈ tr.flatMap Prod.snd) :
    pk = q.toBencode ∧ ∃ m ∈ ms, m.trackers = [] ∧ q.infoHash = m.infoHash := by
  obtain ⟨ftr, v⟩ := NetInv.run hj h
  obtain ⟨my, v6, des, st, dtr, c⟩ := v.dht.client
  have hx := c.effects _ ho
  obtain ⟨_, -, hpk, -⟩ := query_sent_iff my v6 des c.run _ _ _ _ _ hx
  refine ⟨hpk, ?_⟩
  have hq : (sid, addr, q) ∈ queries dtr := List.mem_filterMap.2 ⟨_, hx, rfl⟩
  obtain ⟨req, hash, h1, h2, -⟩ := query_fields my v6 des st dtr c.run _ hq
  have h3 := lookup_requested my v6 des st dtr c.run _ _ _ h1
  obtain ⟨m, g1, g2, g3⟩ := v.dht.lookups req hash (c.submits req hash h3)
  exact ⟨m, List.mem_of_getElem? g1, g2, by rw [← g3]; exact h2⟩

/-- **C104.** Whoever is spoken to as a peer in the course of a batch was named for the sake of one of the links, by one of its trackers or, if it has
none, in an answer of the DHT, and hears only of that link. -/
theorem told_peers (hj : 0 < env.cfg.general.batchJobs) (hT : 0 < env.cfg.trackers.jobsPerMagnet) (hP : 0 < env.cfg.peers.jobsPerMagnet)
    (h : NetRun sha1 env resolve template (some ms) tr s) {n : Nat} {p : Peer} {said : List Attempt}
    (ho : NetOutput.peer n p said ∈ tr.flatMap Prod.snd) :
    ∃ m, ms[n]? = some m ∧ (∀ a ∈ said, ∀ e ∈ a.trace, IsSaid e → PeerMayBeTold env m p e) ∧
      (m.trackers ≠ [] → NamedByTracker env tr n m p) ∧ (m.trackers = [] → NamedByDht tr n p) := by
  obtain ⟨ftr, v⟩ := NetInv.run hj h
  obtain ⟨m, ls, hl, hc, rfl⟩ := v.talk.said n p said ho
  have hm := v.prog.link n m hl
  have hb := v.link_begun hj hl
  refine ⟨m, hm, ?_, ?_, ?_⟩
  · intro a ha
    obtain ⟨i, r', hv⟩ := run_visits (run_spec sha1 ls _ none env.cfg.general.encrypt p.requiresCrypto) a ha
    exact visit_said hv
  · intro hne
    obtain ⟨s0, hg⟩ := v.get hj hb
    obtain ⟨t, -, atr, a, -, ⟨k, g1, g2⟩, g3⟩ := ((get_contacts hT hP hg).1 hne).2 p hc
    exact ⟨k, t, atr, g1, g2, g3⟩
  · intro he
    obtain ⟨-, dht, s0, hd, hr, -, -⟩ := fleet_alone hj v.prog.run hb
    obtain ⟨out, hbeg⟩ := (hd dht).2 rfl
    rcases v.dhtGives hm hbeg with ⟨x, rfl⟩ | ⟨r, h1, rfl⟩
    · rw [he] at hr
      obtain ⟨h0, -⟩ := resolve_exited hr
      rw [h0] at hc
      cases hc
    · exact ⟨r, h1, ((resolve_contacts hT hP hr).2.1 he _ _ rfl).subset hc⟩

/-- **C104.** The name that a link gives its torrent is told nobody: whatever can happen with one set of names can happen with any other, with exactly
the same sent to everybody, the same results of the downloads and the same exit status. -/
theorem name_told_nobody {ms' : List Magnet} (hm : List.Forall₂ SameButName ms ms') (h : NetRun sha1 env resolve template (some ms) tr s) :
    ∃ tr' s', NetRun sha1 env resolve template (some ms') tr' s' ∧ tr'.map Prod.fst = tr.map Prod.fst ∧ networkOutputs tr' = networkOutputs tr ∧
      s'.fleet.work = s.fleet.work ∧ s'.fleet.batch.exit = s.fleet.batch.exit := by
  have heq : ms.map Magnet.unnamed = ms'.map Magnet.unnamed := by
    clear h
    induction hm with
    | nil => rfl
    | @cons a b _ _ hab _ ih =>
      rw [List.map_cons, List.map_cons]
      congr 1
      · simp only [Magnet.unnamed, hab.1, hab.2]
  have h1 := run_unnamed h
  rw [Option.map_some, heq] at h1
  obtain ⟨tr', s', h2, h3, h4⟩ := run_named (links := some ms') h1
  refine ⟨tr', s', h2, ?_, ?_, ?_, ?_⟩
  · have := congrArg (List.map Prod.fst) h4
    simpa [List.map_map, Function.comp_def] using this
  · rw [← network_unnamed tr', h4, network_unnamed]
  · exact congrArg (fun x : NetBatch => x.fleet.work) (a₁ := s'.unnamed) (a₂ := s.unnamed) h3
  · exact congrArg (fun x : NetBatch => x.fleet.batch.exit) (a₁ := s'.unnamed) (a₂ := s.unnamed) h3

/-- **C104.** If the file cannot be read, has a line that is no link, or has no links, nothing happens at all. -/
theorem told_nothing {links : Option (List Magnet)} (hl : links = none ∨ links = some []) (h : NetRun sha1 env resolve template links tr s) : tr = [] := by
  induction h with
  | init => rfl
  | @step tr s s' e out hr hs ih =>
    subst ih
    have : s = NetBatch.start links env.cfg.general.batchJobs := by
      generalize hx : ([] : NetTrace) = x at hr
      cases hr with
      | init => rfl
      | step => simp at hx
    subst this
    exfalso
    have hx : (NetBatch.start links env.cfg.general.batchJobs).fleet.batch.exit.isSome = true := by rcases hl with rfl | rfl <;> rfl
    have hin : ∀ (s : NetBatch) fe, s.fleet.batch.exit.isSome = true → s.inner env fe = none := by
      intro s fe h
      unfold NetBatch.inner Fleet.step
      rw [if_pos h]
      rfl
    generalize hst : NetBatch.start links env.cfg.general.batchJobs = st at hs hx
    have hd : st.dht = AppDht.start := by rw [← hst]; rfl
    have hw : ∀ n, st.fleet.work n = none := by intro n; rw [← hst]; rfl
    have hk : ∀ n, st.link n = none := by intro n; rw [← hst]; rfl
    have hr' : ∀ n, st.rest n = none := by intro n; rw [← hst]; rfl
    have ha : ∀ n k, st.asks n k = none := by intro n k; rw [← hst]; rfl
    cases e with
    | fleet fe => simp only [NetBatch.step, hin st fe hx, ite_self] at hs; cases hs
    | dht de =>
      cases de with
      | lock n =>
        simp only [NetBatch.step] at hs
        split at hs
        · rw [Option.isNone_eq_false_iff.2 hx, Bool.and_false] at hs
          cases hs
        · cases hs
      | created n my b4 b6 =>
        have hc : ∀ b, DhtCell.start.step (.created n b) = none := fun b => rfl
        simp only [NetBatch.step, NetBatch.dhtStep, hd, AppDht.step, AppDht.start, hc] at hs
        generalize DhtState.create my b4 b6 = x at hs
        cases x <;> cases hs
      | dropped n =>
        simp only [NetBatch.step, NetBatch.dhtStep, hd, AppDht.step, AppDht.start, hx, if_true] at hs
        cases hs
      | client ce =>
        simp only [NetBatch.step, NetBatch.dhtStep, hd, AppDht.step, AppDht.start] at hs
        cases hs
    | begins n =>
      simp only [NetBatch.step] at hs
      split at hs
      · split at hs
        · rw [hin] at hs
          · cases hs
          · exact hx
        · cases hs
      · cases hs
    | trackerBegins n w => simp [NetBatch.step, NetBatch.trackers, hw, hr'] at hs
    | tracker n k ae => simp [NetBatch.step, ha] at hs
    | trackerEnds n w => simp [NetBatch.step, hw] at hs
    | trackerLeftover n ne => simp [NetBatch.step, hw] at hs
    | peerBegins n w ls => simp [NetBatch.step, hw] at hs
    | peerEnds n w => simp [NetBatch.step, hw] at hs
    | ends w now ok =>
      simp only [NetBatch.step, hw] at hs
      split at hs <;> cases hs

end

/-! ### Example: a link with a tracker and one without, at the same time -/

/-- A list of events, one after another. -/
def netExec (sha1 : Bytes → Bytes) (env : GetEnv) (resolve : Text → BitVec 16 → Option (List SockAddr)) (template : List TemplateElement) :
    List NetEvent → NetBatch → Option (NetTrace × NetBatch)
  | [], s => some ([], s)
  | e :: es, s =>
    match s.step sha1 env resolve template e with
    | none => none
    | some (s', out) => (netExec sha1 env resolve template es s').map fun r => ((e, out) :: r.1, r.2)

theorem netExec_run {sha1 : Bytes → Bytes} {env : GetEnv} {resolve : Text → BitVec 16 → Option (List SockAddr)} {template : List TemplateElement}
    {links : Option (List Magnet)} : ∀ (es : List NetEvent) {s : NetBatch} {tr0 tr : NetTrace} {s' : NetBatch},
    NetRun sha1 env resolve template links tr0 s → netExec sha1 env resolve template es s = some (tr, s') →
      NetRun sha1 env resolve template links (tr0 ++ tr) s'
  | [], s, tr0, tr, s', h, hx => by
    simp only [netExec, Option.some.injEq, Prod.mk.injEq] at hx
    obtain ⟨rfl, rfl⟩ := hx
    simpa using h
  | e :: es, s, tr0, tr, s', h, hx => by
    simp only [netExec] at hx
    split at hx
    · cases hx
    · rename_i s1 out hs
      rw [Option.map_eq_some_iff] at hx
      obtain ⟨⟨tr1, s2⟩, h1, h2⟩ := hx
      cases h2
      have := netExec_run es (h.step hs) h1
      simpa using this

def exNetEnv : GetEnv := { exFleetEnv with cfg := { exFleetEnv.cfg with dht := ⟨[⟨.ipv4 ⟨0x01020304#32⟩, 1⟩], 2⟩ } }

def exNetTracker : Tracker := .http ⟨"http".toList, some (.domain "tracker.example".toList), none, "/announce".toList, none, none, []⟩

/-- A link with a tracker and a name, and one with neither. -/
def exNetLinks : List Magnet := [⟨exHash, some "A name".toList, [exNetTracker]⟩, ⟨⟨List.replicate 20 6, by decide⟩, none, []⟩]

/-- The tracker names a peer, which serves the metadata; the DHT names another, which cannot be reached. -/
def exNetEvents : List NetEvent :=
  [.fleet (.batch .spawn), .fleet (.batch .spawn), .fleet (.batch .dropHandle), .fleet (.batch (.take 0)), .fleet (.batch (.take 1)),
   .fleet (.batch (.check 0)), .fleet (.batch (.check 1)), .dht (.lock 1), .begins 0,
   .dht (.created 1 ⟨List.replicate 20 0, by decide⟩ (.bound (some 1)) .failed),
   .fleet (.goesOn 0 .spawnTracker), .fleet (.goesOn 0 .startJob), .fleet (.goesOn 0 (.trackerTake 0)), .fleet (.goesOn 0 (.trackerCheck 0)),
   .dht (.client (.resolved [bootAddr])), .trackerBegins 0 0, .tracker 0 0 (.client true), .dht (.client (.receive fun _ _ => true)),
   .tracker 0 0 (.http (.body (key "d8:intervali1800e5:peers6:iiiippe"))), .trackerEnds 0 0,
   .dht (.client (.packet bootAddr (responseWith 0 "0" []) [0] fun _ _ => true)), .begins 1,
   .fleet (.goesOn 0 .nextBatch), .fleet (.goesOn 0 .nextPeer), .fleet (.goesOn 0 (.peerTake 0)), .fleet (.goesOn 0 (.peerCheck 0)),
   .fleet (.goesOn 1 .startJob), .fleet (.goesOn 1 .nextPeer), .fleet (.goesOn 1 (.peerTake 0)), .fleet (.goesOn 1 (.peerCheck 0)),
   .peerBegins 1 0 (fun _ => { exLink with connect := .fail }), .peerBegins 0 0 (fun _ => exLink), .peerEnds 0 0, .peerEnds 1 0,
   .fleet (.goesOn 0 .receive), .tracker 0 0 (.stopScheduled 3 4)]

def exNet : Option (NetTrace × NetBatch) :=
  netExec (fun _ => List.replicate 20 7) exNetEnv (fun _ _ => none) [.name] exNetEvents (NetBatch.start (some exNetLinks) 2)

/-- Who is told something: the tracker of which download; over the DHT, about which info hash; which peer, and how many events there are in the
conversations with it. -/
inductive ExHeard where
  | tracker (n k : Nat)
  | dht (ih : Bytes)
  | peer (n : Nat) (p : SockAddr) (events : Nat)
  deriving DecidableEq

def exHeard : NetOutput → Option ExHeard
  | .tracker n k _ (.get _) => some (.tracker n k)
  | .dht (.effect (.query _ _ q _ _)) => some (.dht q.infoHash.bytes)
  | .peer n p said => some (.peer n p.address (said.map fun a => a.trace.length).sum)
  | _ => none

-- in this run the tracker is asked twice ("started" and "stopped"), the DHT once, and two peers are visited: the hypotheses of `told_trackers`,
-- `told_dht`, `told_peers`, `net_fleet_get` and `name_told_nobody` are met
theorem exNet_heard : exNet.map (fun r => (networkOutputs r.1).filterMap exHeard) =
    some [.tracker 0 0, .dht (List.replicate 20 6), .peer 1 (.v4 ⟨⟨0x05060708#32⟩, 80⟩) 0, .peer 0 (.v4 ⟨⟨0x69696969#32⟩, 0x7070#16⟩) 7, .tracker 0 0] := by
  decide +kernel

theorem exNet_run : ∃ tr s, NetRun (fun _ => List.replicate 20 7) exNetEnv (fun _ _ => none) [.name] (some exNetLinks) tr s ∧
    (networkOutputs tr).filterMap exHeard =
      [.tracker 0 0, .dht (List.replicate 20 6), .peer 1 (.v4 ⟨⟨0x05060708#32⟩, 80⟩) 0, .peer 0 (.v4 ⟨⟨0x69696969#32⟩, 0x7070#16⟩) 7, .tracker 0 0] := by
  have h := exNet_heard
  cases hx : exNet with
  | none => rw [hx] at h; cases h
  | some r =>
    rw [hx] at h
    exact ⟨r.1, r.2, by simpa using netExec_run exNetEvents .init hx, Option.some.inj h⟩

example : 0 < exNetEnv.cfg.general.batchJobs ∧ 0 < exNetEnv.cfg.trackers.jobsPerMagnet ∧ 0 < exNetEnv.cfg.peers.jobsPerMagnet := by decide

-- the same links under other names: `name_told_nobody`
example : List.Forall₂ SameButName exNetLinks [⟨exHash, none, [exNetTracker]⟩, ⟨⟨List.replicate 20 6, by decide⟩, some "Another".toList, []⟩] :=
  .cons ⟨rfl, rfl⟩ (.cons ⟨rfl, rfl⟩ .nil)

-- a file with these links: `net_fleet_get`
example : batchLinks nameEnv exNetEnv.lossy (some (ascii
    "magnet:?xt=urn:btih:0707070707070707070707070707070707070707&dn=A+name&tr=http://tracker.example/announce\nmagnet:?xt=urn:btih:0606060606060606060606060606060606060606\n")) =
    some exNetLinks := by decide +kernel

-- a file with a line that is no link: `told_nothing`
example : batchLinks nameEnv exNetEnv.lossy (some (ascii "magnet:?dn=A+name\n")) = none := by decide +kernel

end Demag.Props
