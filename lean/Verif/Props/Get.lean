import Verif.Spec.Get
import Verif.Props.Query
import Verif.Props.Crash

/-! # C70: the command `get` from end to end -/

namespace Demag.Props

open Spec

/-! ### The DHT looks up what was asked for -/

def isStarted : DhtEffect → Bool
  | .started _ _ _ => true
  | _ => false

theorem sendAll_quiet (a : DhtActor) (udp : SockAddr → Bytes → Bool) (sid : Nat) (l : List (SockAddr × GetPeersQuery)) :
    ∀ e ∈ (a.sendAll udp sid l).2, isStarted e = false := by
  induction l generalizing a with
  | nil => intro e he; cases he
  | cons x l ih =>
    obtain ⟨addr, q⟩ := x
    intro e he
    simp only [DhtActor.sendAll, List.mem_append] at he
    rcases he with he | he
    · unfold DhtActor.sendQuery at he
      split at he
      · simp only [List.mem_singleton] at he; subst he; rfl
      · split at he <;> simp only [List.mem_singleton] at he <;> subst he <;> rfl
    · exact ih _ e he

theorem postprocess_quiet (a : DhtActor) (sid : Nat) : ∀ e ∈ (a.postprocess sid).2, isStarted e = false := by
  intro e he
  unfold DhtActor.postprocess at he
  split at he
  · cases he
  · split at he
    · cases he
    · split at he
      · cases he
      · simp only [List.mem_singleton] at he; subst he; rfl

theorem handleMessage_quiet (a : DhtActor) (order : List Nat) (udp : SockAddr → Bytes → Bool) (addr : SockAddr) (msg : Bytes) :
    ∀ e ∈ (a.handleMessage order udp addr msg).2, isStarted e = false := by
  intro e he
  unfold DhtActor.handleMessage at he
  split at he
  · cases he
  · split at he
    · cases he
    · simp only at he
      split at he
      · cases he
      · split at he
        · cases he
        · simp only [List.cons_append, List.mem_cons, List.mem_append] at he
          rcases he with rfl | he | he
          · rfl
          · exact sendAll_quiet _ _ _ _ e he
          · exact postprocess_quiet _ _ e he

theorem handleTimer_quiet (a : DhtActor) (order : List Nat) (addr : SockAddr) (txn : Bytes) :
    ∀ e ∈ (a.handleTimer order addr txn).2, isStarted e = false := by
  intro e he
  unfold DhtActor.handleTimer at he
  simp only at he
  split at he
  · cases he
  · simp only [List.mem_cons] at he
    rcases he with rfl | he
    · rfl
    · exact postprocess_quiet _ _ e he

theorem dhtStop_quiet (s : DhtState) (inbox : List ActorMessage) : (s.stop inbox).1.inbox = [] ∧ ∀ e ∈ (s.stop inbox).2, isStarted e = false := by
  refine ⟨rfl, fun e he => ?_⟩
  simp only [DhtState.stop, List.mem_append, List.mem_map] at he
  rcases he with ⟨x, -, rfl⟩ | ⟨x, -, rfl⟩ <;> rfl

section
variable {lookup : Text → BitVec 16 → Option (List SockAddr)} {nodes : List InetAddr}

theorem dhtStep_started {s s' : DhtState} {e : DhtEvent} {out : List DhtEffect} (h : s.step lookup nodes e = some (s', out)) :
    (∀ m ∈ s'.inbox, m ∈ s.inbox ∨ e = .submit m) ∧ ∀ sid req hash, DhtEffect.started sid req hash ∈ out → .lookup req hash ∈ s.inbox := by
  have none : ∀ {out : List DhtEffect}, (∀ e ∈ out, isStarted e = false) → ∀ sid req hash, DhtEffect.started sid req hash ∈ out →
      ActorMessage.lookup req hash ∈ s.inbox := fun hq sid req hash hm => by cases hq _ hm
  cases e with
  | submit m =>
    simp only [DhtState.step] at h
    split at h <;> cases h
    · refine ⟨fun _ hm => .inl hm, none ?_⟩
      cases m <;> simp [ActorMessage.request, isStarted]
    · exact ⟨fun x hx => by simp at hx; rcases hx with hx | rfl <;> simp [*], none (by simp)⟩
  | resolved addrs =>
    simp only [DhtState.step] at h
    split at h
    · split at h <;> cases h
      · exact ⟨(fun m hm => by cases hm), none (dhtStop_quiet s s.inbox).2⟩
      · exact ⟨fun _ hm => .inl hm, none (by simp)⟩
    · cases h
  | receive udp =>
    simp only [DhtState.step] at h
    split at h
    · rename_i boot req hash inbox hp hi
      cases h
      refine ⟨fun m hm => .inl (by rw [hi]; exact List.mem_cons_of_mem _ hm), ?_⟩
      intro sid req' hash' hm
      simp only [DhtActor.lookup, List.cons_append, List.mem_cons, List.mem_append] at hm
      rcases hm with hm | hm | hm
      · cases hm; rw [hi]; simp
      · cases sendAll_quiet _ _ _ _ _ hm
      · cases postprocess_quiet _ _ _ hm
    · rename_i inbox hp hi
      cases h
      exact ⟨(fun m hm => by cases hm), none (dhtStop_quiet s _).2⟩
    · cases h
  | packet addr msg order udp =>
    simp only [DhtState.step] at h
    split at h
    · split at h <;> cases h
      exact ⟨fun _ hm => .inl hm, none (handleMessage_quiet _ _ _ _ _)⟩
    · cases h
  | recvError =>
    simp only [DhtState.step] at h
    split at h <;> cases h
    exact ⟨fun _ hm => .inl hm, none (by simp)⟩
  | timer addr txn order =>
    simp only [DhtState.step] at h
    split at h
    · split at h <;> cases h
      exact ⟨fun _ hm => .inl hm, none (handleTimer_quiet _ _ _ _)⟩
    · cases h

theorem dhtRun_started (es : List DhtEvent) {s s' : DhtState} {tr : List DhtEffect} (h : s.run lookup nodes es = some (s', tr)) :
    ∀ sid req hash, DhtEffect.started sid req hash ∈ tr → .lookup req hash ∈ s.inbox ∨ .submit (.lookup req hash) ∈ es := by
  induction es generalizing s tr with
  | nil => simp only [DhtState.run] at h; cases h; simp
  | cons e es ih =>
    simp only [DhtState.run] at h
    split at h
    · cases h
    · rename_i s1 out1 h1
      split at h
      · cases h
      · rename_i s2 out2 h2
        cases h
        obtain ⟨a1, a2⟩ := dhtStep_started h1
        intro sid req hash hm
        rcases List.mem_append.1 hm with hm | hm
        · exact .inl (a2 sid req hash hm)
        · rcases ih h2 sid req hash hm with hm | hm
          · rcases a1 _ hm with hm | rfl
            · exact .inl hm
            · simp
          · exact .inr (by simp [hm])

/-- **C39.** A lookup is started only for a request that was made, and looks for the info hash of the request. -/
theorem lookup_requested (my : NodeId) (v6 : Bool) (es : List DhtEvent) (st : DhtState) (tr : List DhtEffect)
    (h : (DhtState.init my v6).run lookup nodes es = some (st, tr)) (sid req : Nat) (hash : InfoHash)
    (hs : DhtEffect.started sid req hash ∈ tr) : .submit (.lookup req hash) ∈ es := by
  rcases dhtRun_started es h sid req hash hs with hm | hm
  · cases hm
  · exact hm

end

theorem dhtGives_found {boot : List InetAddr} {m : Magnet} {ps : List Peer} {ns : List SockAddr} (h : DhtGives boot m (.ok (ps, ns))) : FoundOnDht boot m.infoHash ps ns := by
  rcases h with ⟨_, h⟩ | ⟨lookup, my, v6, es, st, tr, req, found, h1, h3, h4, h5⟩
  · cases h
  · cases h5
    obtain ⟨sid, hash, a1, a2, a3, a4, a5⟩ := answer_spec my v6 es st tr h1 req found h4
    have hr := lookup_requested my v6 es st tr h1 sid req hash a1
    cases h3 _ hr
    exact ⟨lookup, my, v6, es, st, tr, req, sid, h1, hr, a1, a2, a3, a4, a5⟩

/-! ### The peers that a tracker names -/

theorem ask_names {lossy : Bytes → Text} {parseIp : Text → Option IpAddr} {t : Tracker} {c : GetterCtx} {tr : AskTrace} {s : Ask}
    (h : AskRun lossy parseIp t c tr s) {ps : List Peer} (hr : AskOutput.result (.ok ps) ∈ tr.flatMap Prod.snd) :
    ∀ p ∈ ps, Names lossy parseIp c.infoHash c.peerId t tr p := by
  obtain ⟨⟨e, o⟩, h1, hm⟩ := List.mem_flatMap.1 hr
  obtain ⟨pre, post, rfl⟩ := List.append_of_mem h1
  have hst : Starts (c.announcement .started) c.infoHash c.peerId := ⟨rfl, rfl, rfl⟩
  intro p hp
  rcases ask_peers h rfl hm with ⟨u, ue, bs, addr, req, cid, xid, i, l, n, addrs, rfl, rfl, hi, hd, hq, ha, rfl⟩ |
    ⟨u, url, b, kvs, r, rfl, rfl, hd, hq, rfl, hc, hden, rfl⟩
  · have hdm : (addr, req) ∈ datagrams pre := List.mem_of_getLast? hd
    have hf : Found (pre ++ (.udp ue, o) :: post) addr := by
      have hdm := hdm
      simp only [datagrams, List.mem_filterMap, List.mem_flatMap] at hdm
      obtain ⟨x, ⟨⟨e1, o1⟩, h1, h2⟩, h3⟩ := hdm
      obtain ⟨p1, p2, rfl⟩ := List.append_of_mem h1
      have hx : x = .datagram addr req := by
        cases x <;> simp at h3
        rw [h3.1, h3.2]
      obtain ⟨-, -, hf, -⟩ := ask_datagrams h (pre := p1) (e := e1) (out := o1) (post := p2 ++ (.udp ue, o) :: post) (by simp) (hx ▸ h2)
      simpa using found_mono hf _
    obtain ⟨x, hx, rfl⟩ := List.mem_map.1 hp
    refine .udp hst (addr := addr) (req := req) ?_ hf hq h1 hi ha hx rfl rfl
    simp only [datagrams, List.flatMap_append, List.filterMap_append, List.mem_append]
    exact .inl hdm
  · refine .http hst (url := url) ?_ hq h1 hc hden hp
    have : url ∈ requests pre := by rw [hd]; simp
    simp only [requests, List.flatMap_append, List.filterMap_append, List.mem_append]
    exact .inl this

section
variable {sha1 : Bytes → Bytes} {env : GetEnv} {behaves : Peer → (Nat → Link) → Prop} {answers : Tracker → AskTrace → Prop} {m : Magnet}
  {tr : ResolveTrace Tracker Peer SockAddr TorrentInfo TaskError} {s : Resolve Tracker Peer SockAddr SockAddr TorrentInfo TaskError}

theorem get_tracker (h : GetRun sha1 env behaves answers m tr s) {t : Tracker} {o : Outcome (List Peer)} (hm : (t, o) ∈ trackerDones tr) :
    ∃ atr a r, AskRun env.lossy env.parseIp t (env.getter m) atr a ∧ answers t atr ∧ AskOutput.result r ∈ atr.flatMap Prod.snd ∧
      o = .value (r.toOption.getD []) := by
  simp only [trackerDones, resolveObserved, List.mem_filterMap, List.mem_flatMap] at hm
  obtain ⟨x, ⟨eo, heo, hx⟩, hx'⟩ := hm
  cases x <;> simp [trackerDoneOf] at hx'
  · obtain ⟨rfl, rfl⟩ := hx'
    obtain ⟨-, atr, a, r, h1, h2, h3, rfl, -⟩ := h.asked eo heo _ _ hx
    exact ⟨atr, a, r, h1, h2, h3, rfl⟩
  · obtain ⟨rfl, rfl⟩ := hx'
    exact absurd hx (h.calm eo heo _)

theorem done_listed {T P A D I ε : Type} [DecidableEq A] {addr : P → A} {all : List T} {dht : Except ε (List P × List D)} {jobsT jobsP : Nat}
    (hT : 0 < jobsT) (hP : 0 < jobsP) {tr : ResolveTrace T P D I ε} {s : Resolve T P A D I ε} (h : ResolveRun addr all dht jobsT jobsP tr s)
    (hne : all ≠ []) (hc : ∀ t, (t, .panic) ∉ trackerDones tr) : ∀ x ∈ trackerDones tr, x.1 ∈ all := by
  obtain ⟨⟨-, hsrc⟩, -⟩ := resolve_inv hT hP (.inl hne) h
  rcases hsrc with ⟨-, ht⟩ | ⟨he, -⟩
  · intro x hx
    by_cases hj : s.job = .over
    · rcases (ht.over hj).2.2.2 with ⟨t, hp⟩ | ⟨hp, -⟩
      · exact absurd hp (hc t)
      · exact hp.mem_iff.1 (List.mem_map.2 ⟨x, hx, rfl⟩)
    · obtain ⟨n, acc, d, -, hf, hall, -⟩ := ht.live hj
      rw [← hall]
      exact List.mem_append_left _ (follows_mem hf x hx)
  · exact absurd he hne

/-- **C70.** Whom `get` contacts.  With trackers in the link: peers that one of these trackers has named in answer to our announcement of the
link's info hash, no address twice.  Without: peers found by a lookup of the info hash on the DHT, each once; nobody if there is no DHT. -/
theorem get_contacts (hT : 0 < env.cfg.trackers.jobsPerMagnet) (hP : 0 < env.cfg.peers.jobsPerMagnet)
    (h : GetRun sha1 env behaves answers m tr s) :
    (m.trackers ≠ [] → ((contacts tr).map Peer.address).Nodup ∧ ∀ p ∈ contacts tr, ∃ t ∈ m.trackers, ∃ atr a,
      AskRun env.lossy env.parseIp t (env.getter m) atr a ∧ answers t atr ∧ Names env.lossy env.parseIp m.infoHash env.localId t atr p) ∧
    (m.trackers = [] → contacts tr = [] ∨ ∃ found nodes, FoundOnDht env.cfg.dht.bootstrapNodes m.infoHash found nodes ∧ contacts tr <+: found) := by
  obtain ⟨dht, hd, hrun⟩ := h.run
  obtain ⟨c1, c2, -⟩ := resolve_contacts hT hP hrun.run
  constructor
  · intro hne
    obtain ⟨h1, h2⟩ := c1 hne
    obtain ⟨f1, -, f3, -⟩ := firsts_spec (fun p : Peer => p.address) (arrivals tr)
    rw [h1]
    refine ⟨f1, fun p hp => ?_⟩
    obtain ⟨⟨t, o⟩, hto, hpo⟩ := List.mem_flatMap.1 (h2.subset (f3.subset hp))
    obtain ⟨atr, a, r, a1, a2, a3, rfl⟩ := get_tracker h hto
    refine ⟨t, ?_, atr, a, a1, a2, ?_⟩
    · refine done_listed hT hP hrun.run hne (fun t ht => ?_) _ hto
      obtain ⟨_, _, _, -, -, -, hx⟩ := get_tracker h ht
      cases hx
    · cases r with
      | error e => cases hpo
      | ok ps => exact ask_names a1 a3 p hpo
  · intro he
    cases dht with
    | error e =>
      have hr := hrun.run
      rw [he] at hr
      obtain ⟨rfl, -⟩ := resolve_exited hr
      exact .inl rfl
    | ok x =>
      obtain ⟨found, nodes⟩ := x
      exact .inr ⟨found, nodes, dhtGives_found hd, c2 he found nodes rfl⟩

theorem get_done_iff (template : List TemplateElement) (r : Resolved Tracker SockAddr TorrentInfo TaskError) :
    (getEffects env template r).2 = .success → ∃ info ts ns, r = .file info ts ns := by
  cases r with
  | file info ts ns => exact fun _ => ⟨_, _, _, rfl⟩
  | panicked => intro h; cases h
  | dht e => intro h; simp [getEffects, downloadEffects, performEffects, Resolved.isFile] at h
  | nothing => intro h; simp [getEffects, downloadEffects, performEffects, Resolved.isFile] at h

/-- **C70.** When `get` has to be successful: the file system works, and there is a tracker in the link all of whose answers list a peer at
`addr`, and the peer at `addr` (however it is described) may be asked under the encryption preference and delivers metadata with the digest.
Whatever the other trackers and peers do: if `get` comes to an end without a panic, it is successful. -/
theorem get_finds (hT : 0 < env.cfg.trackers.jobsPerMagnet) (hP : 0 < env.cfg.peers.jobsPerMagnet)
    (h : GetRun sha1 env behaves answers m tr s) {r : Resolved Tracker SockAddr TorrentInfo TaskError} (hr : s.result = some r)
    (hn : r ≠ .panicked) {t : Tracker} (ht : t ∈ m.trackers) (addr : SockAddr)
    (hans : ∀ atr a r, AskRun env.lossy env.parseIp t (env.getter m) atr a → answers t atr → r ∈ askResults atr →
      ∃ ps, r = .ok ps ∧ ∃ p ∈ ps, p.address = addr)
    (hpeer : ∀ p, p.address = addr → ¬ (env.cfg.general.encrypt = .never ∧ p.requiresCrypto = true) ∧
      ∀ links, behaves p links → ∃ d, sha1 d = m.infoHash.bytes ∧ IsInfoDict d ∧
        Delivers (fun f m => Message.decode f reg42 = .ok m) (links 0) ⟨m.infoHash, env.localId, addr.ip⟩
          (firstEncrypts env.cfg.general.encrypt p.requiresCrypto) d)
    (hok : ∀ i, env.fileOk i = true) (template : List TemplateElement) :
    (getEffects env template r).2 = .success := by
  obtain ⟨dht, hd, hrun⟩ := h.run
  have hne : m.trackers ≠ [] := by intro he; rw [he] at ht; cases ht
  have hfile : ∃ info ns, r = .file info m.trackers ns := by
    cases r with
    | panicked => exact absurd rfl hn
    | file info ts ns =>
      obtain ⟨-, -, -, h4, -⟩ := download_authentic hT hP hrun hr
      exact ⟨info, ns, by rw [h4]⟩
    | dht e => exact absurd ((resolve_dht_error hT hP hrun.run e).1 hr).1 hne
    | nothing =>
      obtain ⟨-, -, -, -, h4⟩ := resolve_nothing hT hP hrun.run hr
      rcases h4 hne with ⟨t', ht'⟩ | ⟨hperm, hcon⟩
      · obtain ⟨_, _, _, -, -, -, hx⟩ := get_tracker h ht'
        cases hx
      · obtain ⟨⟨t', o⟩, hto, rfl⟩ := List.mem_map.1 (hperm.mem_iff.2 ht)
        obtain ⟨atr, a, r, a1, a2, a3, rfl⟩ := get_tracker h hto
        obtain ⟨ps, rfl, p, hp, rfl⟩ := hans atr a r a1 a2 (by
          simp only [askResults, List.mem_filterMap]
          exact ⟨_, a3, rfl⟩)
        have hmem : p ∈ (trackerDones tr).flatMap answered := List.mem_flatMap.2 ⟨_, hto, hp⟩
        obtain ⟨-, f2, -⟩ := firsts_spec (fun p : Peer => p.address) ((trackerDones tr).flatMap answered)
        obtain ⟨q, hq, hqa⟩ := List.mem_map.1 (f2 p hmem)
        obtain ⟨g1, g2⟩ := hpeer q hqa
        refine download_finds hT hP hrun hr hn q (by rw [hcon]; exact hq) g1 (fun links hb => ?_)
        have := g2 links hb
        rw [← hqa] at this
        exact this
  obtain ⟨info, ns, rfl⟩ := hfile
  obtain ⟨effects, he, -⟩ := download_writes hT hP hrun env.lossy ipText env.parent env.now template hr hn
  simp [getEffects, he, performEffects_ok hok, Resolved.isFile]

/-- **C70.** When nothing is found: every tracker of the link has been asked, and every address it gave has been contacted; or, without
trackers, every peer found on the DHT has been contacted; and all that were contacted have failed to give the metadata. -/
theorem get_fails (hT : 0 < env.cfg.trackers.jobsPerMagnet) (hP : 0 < env.cfg.peers.jobsPerMagnet)
    (h : GetRun sha1 env behaves answers m tr s) (hr : s.result = some .nothing) :
    (∀ t ∈ m.trackers, ∃ atr a r, AskRun env.lossy env.parseIp t (env.getter m) atr a ∧ answers t atr ∧ r ∈ askResults atr ∧
      ∀ ps, r = .ok ps → ∀ p ∈ ps, ∃ q ∈ contacts tr, q.address = p.address) ∧
    (m.trackers = [] → ∃ nodes, FoundOnDht env.cfg.dht.bootstrapNodes m.infoHash (contacts tr) nodes) ∧
    ∀ p ∈ contacts tr, ∃ links e, behaves p links ∧ peerTask sha1 env.localId env.cfg.general.encrypt m.infoHash p links = .err e := by
  obtain ⟨dht, hd, hrun⟩ := h.run
  obtain ⟨es, h1, h2, h3, h4⟩ := resolve_nothing hT hP hrun.run hr
  refine ⟨fun t ht => ?_, fun he => ?_, fun p hp => ?_⟩
  · have hne : m.trackers ≠ [] := by intro he; rw [he] at ht; cases ht
    rcases h4 hne with ⟨t', ht'⟩ | ⟨hperm, hcon⟩
    · obtain ⟨_, _, _, -, -, -, hx⟩ := get_tracker h ht'
      cases hx
    · obtain ⟨⟨t', o⟩, hto, rfl⟩ := List.mem_map.1 (hperm.mem_iff.2 ht)
      obtain ⟨atr, a, r, a1, a2, a3, rfl⟩ := get_tracker h hto
      refine ⟨atr, a, r, a1, a2, ?_, ?_⟩
      · simp only [askResults, List.mem_filterMap]
        exact ⟨_, a3, rfl⟩
      · rintro ps rfl p hp
        have hmem : p ∈ (trackerDones tr).flatMap answered := List.mem_flatMap.2 ⟨_, hto, hp⟩
        obtain ⟨-, f2, -⟩ := firsts_spec (fun p : Peer => p.address) ((trackerDones tr).flatMap answered)
        obtain ⟨q, hq, hqa⟩ := List.mem_map.1 (f2 p hmem)
        exact ⟨q, by rw [hcon]; exact hq, hqa⟩
  · obtain ⟨nodes, rfl⟩ := h3 he
    exact ⟨nodes, dhtGives_found hd⟩
  · obtain ⟨⟨p', e⟩, hx, rfl⟩ := List.mem_map.1 (h2.mem_iff.2 hp)
    obtain ⟨links, hb, ho⟩ := peerDone_task hrun (p := p') (r := .value (.error e)) (by rw [h1]; exact List.mem_map.2 ⟨_, hx, rfl⟩)
    generalize hz : peerTask sha1 env.localId env.cfg.general.encrypt m.infoHash p' links = z at ho
    cases z with
    | err e' => exact ⟨links, e', hb, hz⟩
    | ok => simp [taskOutcome] at ho
    | panic => simp [taskOutcome] at ho
    | hang => simp [taskOutcome] at ho

theorem save_last {lossy : Bytes → Text} {parent : Text → Option Text} (f : TorrentFile) (hi : IsInfoDict f.info.data)
    (template : List TemplateElement) :
    ∃ dirs o b, writesOf dirs = [] ∧ f.save lossy ipText parent template = some (dirs ++ [.write o b]) := by
  obtain ⟨name, -, hs⟩ := save_spec lossy ipText parent f hi template
  rw [hs]
  generalize Output.fromArg _ = dest
  cases dest with
  | stdout => exact ⟨[], _, _, rfl, rfl⟩
  | file p =>
    simp only
    split
    · rename_i ch dir _; exact ⟨[.createDirAll (ch :: dir)], _, _, rfl, rfl⟩
    · exact ⟨[], _, _, rfl, rfl⟩

/-- **C70.** What `get` does to the file system, and its exit status.  A crash is due to an excessive time for the key exchange (C69); a failure
writes nothing; a success writes exactly one file, to where the template says: the torrent file with an info dictionary of the link's digest,
the link's trackers, and (without trackers) the nodes found on the DHT by a lookup of the link's info hash. -/
theorem get_writes (hT : 0 < env.cfg.trackers.jobsPerMagnet) (hP : 0 < env.cfg.peers.jobsPerMagnet)
    (h : GetRun sha1 env behaves answers m tr s) {r : Resolved Tracker SockAddr TorrentInfo TaskError} (hr : s.result = some r)
    (template : List TemplateElement) :
    ((getEffects env template r).2 = .crash → (getEffects env template r).1 = [] ∧
      ∃ p links, behaves p links ∧ (links 0).connect = .ok ∧ (links 0).crypto = .overflow) ∧
    ((getEffects env template r).2 = .failure → writesOf (getEffects env template r).1 = []) ∧
    ((getEffects env template r).2 = .success → ∃ (info : List (Bytes × Ben)) (nodes : List SockAddr),
      writesOf (getEffects env template r).1 =
        [(Output.fromArg (PathTemplate.format template (sanitize (((NameOf info).map env.lossy).getD "NONAME".toList)) m.infoHash),
          benc (.dict (torrentDict ipText (.dict info) (m.trackers.map Tracker.urlString) nodes (unixNow env.now).toInt client)))] ∧
      Canonical (.dict info) ∧ sha1 (benc (.dict info)) = m.infoHash.bytes ∧ (m.trackers ≠ [] → nodes = []) ∧
      (m.trackers = [] → ∃ found, FoundOnDht env.cfg.dht.bootstrapNodes m.infoHash found nodes)) := by
  obtain ⟨dht, hd, hrun⟩ := h.run
  by_cases hn : r = .panicked
  · subst hn
    refine ⟨fun _ => ⟨rfl, download_panic hT hP hrun hr⟩, (fun h => by cases h), fun h => by cases h⟩
  · obtain ⟨effects, he, hw⟩ := download_writes hT hP hrun env.lossy ipText env.parent env.now template hr hn
    cases r with
    | panicked => exact absurd rfl hn
    | dht e =>
      cases he
      exact ⟨(fun h => by cases h), fun _ => rfl, fun h => by cases h⟩
    | nothing =>
      cases he
      exact ⟨(fun h => by cases h), fun _ => rfl, fun h => by cases h⟩
    | file info ts ns =>
      rcases hw with ⟨-, hw⟩ | ⟨-, kvs, nodes, hw, hc, hs, hn1, hn2⟩
      · exact absurd rfl (hw _ _ _)
      obtain ⟨-, -, hi, -⟩ := download_authentic hT hP hrun hr
      obtain ⟨dirs, o, b, hdirs, hsave⟩ := save_last (lossy := env.lossy) (parent := env.parent)
        (TorrentFile.new env.now info (ts.map Tracker.urlString) ns) hi template
      have heq : effects = dirs ++ [.write o b] := by
        unfold downloadEffects at he
        simp only at he
        rw [hsave] at he
        exact (Option.some.inj he).symm
      obtain ⟨p1, p2⟩ := performEffects_last (ok := env.fileOk) (i := 0) hdirs (e := .write o b)
      rw [← heq] at p1 p2
      unfold getEffects
      simp only [he, Resolved.isFile, Bool.true_and]
      cases hq : (performEffects env.fileOk 0 effects).2 with
      | false => exact ⟨(fun h => by cases h), fun _ => p2 hq, fun h => by cases h⟩
      | true =>
        refine ⟨(fun h => by cases h), (fun h => by cases h), fun _ => ⟨kvs, nodes, ?_, hc, hs, hn1, fun he => ?_⟩⟩
        · rw [p1 hq]; exact hw
        · obtain ⟨found, rfl⟩ := hn2 he
          exact ⟨found, dhtGives_found hd⟩

end

/-! ### Examples -/

/-- Surroundings of `get`, for examples. -/
def exGetEnv : GetEnv :=
  { cfg := ⟨⟨1, .ifRequired⟩, { TrackersConfig.dflt with jobsPerMagnet := 1 }, { PeersConfig.dflt with jobsPerMagnet := 1 }, ⟨[], 2⟩⟩
    localId := ⟨List.replicate 20 9, by decide⟩, key := 5, port := 6881, now := .ok 0, lossy := fun _ => [], parseIp := fun _ => none,
    parent := fun _ => none, fileOk := fun _ => true }

def exTracker : Tracker := .udp ⟨"tracker.example".toList, 6969, []⟩
def exTracked : Magnet := ⟨exHash, none, [exTracker]⟩

def exGetEvents : List (ResolveEvent Peer TaskError TorrentInfo) :=
  [.spawnTracker, .startJob, .trackerTake 0, .trackerCheck 0, .trackerEnds 0 (.value (.ok [exPeer])), .nextBatch, .nextPeer, .peerTake 0,
   .peerCheck 0, .peerEnds 0 (.value (.ok ⟨exHash, ascii "de"⟩)), .receive]

-- a UDP tracker answers with a peer, which serves the metadata `de`: the hypotheses of `get_finds` are met, and those of `get_contacts` and
-- `get_writes` with them
theorem exGetRun : ∃ atr tr s r, GetRun (fun _ => List.replicate 20 7) exGetEnv (fun p links => p = exPeer ∧ links = fun _ => exLink) (fun _ x => x = atr)
    exTracked tr s ∧ s.result = some r ∧ contacts tr = [exPeer] ∧ (getEffects exGetEnv [.name] r).2 = .success := by
  obtain ⟨atr, a, r1, r2, h1, -, -, -, -, h3, -⟩ := ask_answers_udp (lossy := fun _ => []) (parseIp := fun _ => none)
    ⟨"tracker.example".toList, 6969, []⟩ (exGetEnv.getter exTracked)
    ⟨some [.v4 ⟨⟨0x0A000001#32⟩, 6969⟩], fun _ => true, fun _ => true⟩ (.v4 ⟨⟨0x0A000001#32⟩, 6969⟩) _
    rfl rfl rfl 0 0 1 1 2 17 18 0 0 0 0xAB [0, 0, 0, 0, 0, 0, 0, 17, 0, 0, 0, 0, 0, 0, 0, 0xAB]
    [0, 0, 0, 1, 0, 0, 0, 18, 0, 0, 7, 8, 0, 0, 0, 1, 0, 0, 0, 1, 1, 2, 3, 4, 0, 5] 0x708 1 1
    [.v4 ⟨⟨0x01020304#32⟩, 5⟩] (by unfold IsConnectResponse At Field; decide +kernel)
    ⟨by unfold At Field; decide +kernel, by unfold At Field; decide +kernel, by unfold At Field; decide +kernel, by unfold At Field; decide +kernel,
      by unfold At Field; decide +kernel, ⟨[1, 2, 3, 4, 0, 5], [], rfl, by unfold IsCompact IsCompact4; decide +kernel, rfl⟩,
      by simp [SockAddr.isV6]⟩
  have key : ((resolveExec (fun p : Peer => p.address) [exTracker] exGetEvents
      (Resolve.start [exTracker] (.error (TaskError.dht .down)) 1 1 : Resolve Tracker Peer SockAddr SockAddr TorrentInfo TaskError)).isSome) = true := by
    rfl
  obtain ⟨⟨tr, s⟩, hx⟩ := Option.isSome_iff_exists.1 key
  have hrun : GetRun (fun _ => List.replicate 20 7) exGetEnv (fun p links => p = exPeer ∧ links = fun _ => exLink) (fun _ x => x = atr)
      exTracked tr s := by
    refine ⟨⟨.error (.dht .down), .inl ⟨_, rfl⟩, by show ResolveRun _ [exTracker] _ 1 1 _ _; simpa using resolveExec_run exGetEvents .init hx, ?_⟩, ?_, ?_⟩ <;> cases hx
    · intro eo heo p r hp
      simp only [List.mem_cons, List.not_mem_nil, or_false] at heo
      rcases heo with rfl | rfl | rfl | rfl | rfl | rfl | rfl | rfl | rfl | rfl | rfl <;> simp [trackerPeers] at hp
      obtain ⟨rfl, rfl⟩ := hp
      exact ⟨fun _ => exLink, ⟨rfl, rfl⟩, by
        show taskOutcome (peerTask (fun _ => List.replicate 20 7) ⟨List.replicate 20 9, by decide⟩ .ifRequired exHash exPeer _) = _
        rw [exTask]; rfl⟩
    · intro eo heo t ps hp
      simp only [List.mem_cons, List.not_mem_nil, or_false] at heo
      rcases heo with rfl | rfl | rfl | rfl | rfl | rfl | rfl | rfl | rfl | rfl | rfl <;> simp [trackerPeers] at hp
      obtain ⟨rfl, rfl⟩ := hp
      refine ⟨0, atr, a, .ok [exPeer], h1, rfl, ?_, rfl, rfl⟩
      have hm : Except.ok [exPeer] ∈ askResults atr := by rw [h3]; exact List.mem_singleton.2 rfl
      simp only [askResults, List.mem_filterMap] at hm
      obtain ⟨x, hx, hx'⟩ := hm
      cases x <;> simp at hx'
      rw [← hx']; exact hx
    · intro eo heo t hp
      simp only [List.mem_cons, List.not_mem_nil, or_false] at heo
      rcases heo with rfl | rfl | rfl | rfl | rfl | rfl | rfl | rfl | rfl | rfl | rfl <;> simp [trackerPeers] at hp
  refine ⟨_, tr, s, .file ⟨exHash, ascii "de"⟩ [exTracker] [], hrun, by cases hx; rfl, by cases hx; rfl, ?_⟩
  refine get_finds (t := exTracker) (by decide) (by decide) hrun (by cases hx; rfl) (by simp) (List.mem_singleton.2 rfl) exPeer.address ?_ ?_ (fun _ => rfl) _
  · rintro atr' a' r' - rfl hm
    rw [h3] at hm
    exact ⟨_, List.mem_singleton.1 hm, exPeer, List.mem_singleton.2 rfl, rfl⟩
  · refine fun p hp => ⟨fun h => (by cases h.1), ?_⟩
    rintro links ⟨rfl, rfl⟩
    exact ⟨ascii "de", rfl, ⟨[], by decide +kernel, by simp [Canonical, SortedKeys, CanonicalDict], by decide +kernel⟩, exDelivers⟩

-- a lookup on the DHT gives a peer and a node
example : DhtGives [⟨.ipv4 ⟨0x01020304#32⟩, 1⟩] ⟨⟨List.replicate 20 0, by decide⟩, none, []⟩ (.ok ([Peer.ofAddr (.v4 ⟨⟨0x05060708#32⟩, 80⟩)], [addrX])) := by
  have h : (runOf eventsTwins).map (fun r => decide (DhtEffect.answer 7 ⟨[Peer.ofAddr (.v4 ⟨⟨0x05060708#32⟩, 80⟩)], [addrX]⟩ ∈ r.2)) =
      some true := by
    decide +kernel
  cases hr : runOf eventsTwins with
  | none => rw [hr] at h; cases h
  | some p =>
    obtain ⟨st, tr⟩ := p
    rw [hr] at h
    simp only [Option.map_some, Option.some.injEq, decide_eq_true_eq] at h
    refine .inr ⟨_, _, _, eventsTwins, st, tr, 7, _, hr, ?_, h, rfl⟩
    intro x hx
    simp [eventsTwins] at hx
    exact hx

end Demag.Props
