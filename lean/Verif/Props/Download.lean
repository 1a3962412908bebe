import Verif.Spec.Download
import Verif.Props.Resolve
import Verif.Props.Connect
import Verif.Props.Template

/-!
# C58, C59: downloading a torrent file, from end to end
-/

namespace Demag.Props

open Demag Demag.Spec

section
variable {T P A D I ε : Type} [DecidableEq A] {addr : P → A} {all : List T} {dht : Except ε (List P × List D)} {jobsT jobsP : Nat}
  {s : Resolve T P A D I ε}

/-- **C46.** Resolving panics only if the task of a peer panics. -/
theorem resolve_panicked (hT : 0 < jobsT) (hP : 0 < jobsP) {tr : ResolveTrace T P D I ε}
    (h : ResolveRun addr all dht jobsT jobsP tr s) (hr : s.result = some .panicked) : ∃ p, (p, .panic) ∈ peerDones tr := by
  have start : (Resolve.start all dht jobsT jobsP : Resolve T P A D I ε).result ≠ some .panicked := by
    cases all with
    | nil => cases dht <;> simp [Resolve.start]
    | cons => simp [Resolve.start]
  cases h with
  | init => exact absurd hr start
  | @step tr s0 _ e out h hs =>
    have hok : all ≠ [] ∨ ∃ x, dht = .ok x := by
      cases all with
      | cons t ts => exact .inl (by simp)
      | nil =>
        cases dht with
        | ok x => exact .inr ⟨x, rfl⟩
        | error e =>
          obtain ⟨-, rfl⟩ := resolve_exited h
          simp [Resolve.step, Resolve.start] at hs
    obtain ⟨hi, -⟩ := resolve_inv hT hP hok h
    unfold Resolve.step at hs
    split at hs
    · cases hs
    rename_i hres
    have hres' : s0.result = none := by simpa using hres
    have bad : ∀ {x : Option (Resolved T D I ε)}, x = none → x ≠ some .panicked := by rintro x rfl; simp
    have tq : ∀ {ev o}, s0.trackerStep ev o = some (s, out) → s.result = none := by
      intro ev o hs
      unfold Resolve.trackerStep at hs
      split at hs
      · rw [Option.map_eq_some_iff] at hs; obtain ⟨x, -, hx⟩ := hs; cases hx; exact hres'
      · cases hs
    have pq : ∀ {ev o}, s0.peerStep ev o = some (s, out) → s.result = none := by
      intro ev o hs
      unfold Resolve.peerStep at hs
      rw [Option.map_eq_some_iff] at hs; obtain ⟨x, -, hx⟩ := hs; cases hx; exact hres'
    have eq : ∀ {s0 : Resolve T P A D I ε} {o}, s0.result = none → s0.endJob o = some (s, out) → s.result = none := by
      intro s0 o h0 hs
      unfold Resolve.endJob at hs
      rw [Option.map_eq_some_iff] at hs; obtain ⟨x, -, hx⟩ := hs; cases hx; exact h0
    cases e with
    | spawnTracker =>
      simp only at hs
      split at hs
      case h_2 => cases hs
      rename_i t ts htodo
      obtain ⟨⟨d, hp⟩, h | ⟨-, f, ns, -, hd⟩⟩ := hi
      case inr => rw [hd.todo] at htodo; cases htodo
      obtain ⟨hne, h1, h2, h3, h4, h5⟩ := h
      have hjob : s0.job ≠ .over := by
        intro hj; rw [(h5 hj).2.1] at htodo; cases htodo
      obtain ⟨n, acc, dT, hn, hf, ha, hh, hr', har⟩ := h4 hjob
      have hnr : s0.job ≠ .running := by
        intro hj; rw [hr' hj] at htodo; cases htodo
      rw [if_neg hnr] at hh
      rw [hn] at hs
      simp only [Option.bind_some] at hs
      split at hs
      · cases hs; exact absurd hr (bad hres')
      · rename_i n' o hno hstep
        obtain ⟨⟨k, rfl⟩, -⟩ := follows_spawn hf (by rw [hh]; simp) hstep
        exact absurd rfl (fun h => hno k t h)
      · cases hs
    | startJob =>
      simp only at hs
      split at hs
      case h_2 => cases hs
      split at hs
      · rw [Option.map_eq_some_iff] at hs; obtain ⟨x, -, hx⟩ := hs; cases hx; exact absurd hr (bad hres')
      · cases hs; exact absurd hr (bad hres')
    | trackerTake w => exact absurd hr (bad (tq hs))
    | trackerCheck w => exact absurd hr (bad (tq hs))
    | trackerExit w => exact absurd hr (bad (tq hs))
    | trackerEnds w r =>
      simp only at hs
      split at hs
      · exact absurd hr (bad (tq hs))
      · cases hs
    | nextPeer =>
      simp only at hs
      split at hs
      · split at hs
        · cases hs; exact absurd hr (bad hres')
        · split at hs
          · cases hs; exact absurd hr (bad hres')
          · exact absurd hr (bad (eq hres' hs))
          · cases hs
      · cases hs
    | nextBatch =>
      simp only at hs
      split at hs
      · split at hs
        · cases hs; exact absurd hr (bad hres')
        · exact absurd hr (bad (eq (by exact hres') hs))
        · cases hs
      · cases hs
    | noMorePeers =>
      simp only at hs
      split at hs
      · split at hs
        · exact absurd hr (bad (eq hres' hs))
        · cases hs
      · exact absurd hr (bad (eq hres' hs))
      · cases hs
    | peerTake w => exact absurd hr (bad (pq hs))
    | peerCheck w => exact absurd hr (bad (pq hs))
    | peerExit w => exact absurd hr (bad (pq hs))
    | peerEnds w r =>
      simp only at hs
      split at hs
      · exact absurd hr (bad (pq hs))
      · cases hs
    | receive =>
      simp only at hs
      split at hs
      · cases hs
      obtain ⟨⟨d, hp⟩, h⟩ := hi
      split at hs
      · cases hs; simp at hr
      · cases hs; exact absurd hr (bad hres')
      · rename_i n' k hstep
        cases hs
        obtain ⟨⟨k', j, o', ho, hget⟩, hf', hh'⟩ := follows_recv hp.follows hstep
        simp only [List.cons.injEq, NurseryOutput.delivered.injEq, and_true] at ho
        obtain ⟨rfl, rfl⟩ := ho
        rw [List.getElem?_map, Option.map_eq_some_iff] at hget
        obtain ⟨⟨p, r⟩, hx, hxe⟩ := hget
        have hr' : r = .panic := by
          have := congrArg Prod.snd hxe
          cases r with
          | panic => rfl
          | value v => simp [outcomeOf, peerOutcome] at this
        subst hr'
        refine ⟨p, ?_⟩
        have hmem : (p, Outcome.panic) ∈ peerDones tr := List.mem_of_getElem? hx
        simp only [peerDones, resolveObserved, List.flatMap_append, List.filterMap_append, List.mem_append]
        exact .inl hmem
      · cases hs
    | receiveNone =>
      simp only at hs
      split at hs
      · cases hs
      split at hs
      · cases hs; simp at hr
      · cases hs

end


section
variable {sha1 : Bytes → Bytes} {localId : PeerId} {pref : CryptoPreference} {behaves : Peer → (Nat → Link) → Prop} {m : Magnet}
  {dht : Except TaskError (List Peer × List SockAddr)} {jobsT jobsP : Nat}
  {tr : ResolveTrace Tracker Peer SockAddr TorrentInfo TaskError} {s : Resolve Tracker Peer SockAddr SockAddr TorrentInfo TaskError}

theorem peerDone_task (h : DownloadRun sha1 localId pref behaves m dht jobsT jobsP tr s) {p : Peer}
    {r : Outcome (Except TaskError TorrentInfo)} (hp : (p, r) ∈ peerDones tr) :
    ∃ links, behaves p links ∧ taskOutcome (peerTask sha1 localId pref m.infoHash p links) = some r := by
  unfold peerDones resolveObserved at hp
  rw [List.mem_filterMap] at hp
  obtain ⟨o, ho, hpo⟩ := hp
  obtain ⟨eo, heo, ho⟩ := List.mem_flatMap.1 ho
  have : o = .peerDone p r := by
    cases o <;> simp [peerDoneOf] at hpo
    obtain ⟨rfl, rfl⟩ := hpo; rfl
  subst this
  exact h.tasks eo heo p r ho

theorem taskOutcome_ok {r : Res PeerError TorrentInfo} {i : TorrentInfo} :
    taskOutcome r = some (.value (.ok i)) ↔ r = .ok i := by
  cases r <;> simp [taskOutcome]

theorem peerTask_ok {p : Peer} {links : Nat → Link} {ih : InfoHash} {info : TorrentInfo} (h : peerTask sha1 localId pref ih p links = .ok info) :
    info.infoHash = ih ∧ sha1 info.data = ih.bytes ∧ IsInfoDict info.data := by
  have hr := run_spec sha1 links ⟨ih, localId, p.address.ip⟩ none pref p.requiresCrypto
  unfold peerTask at h
  rw [h] at hr
  obtain ⟨h1, h2, h3, -⟩ := run_success hr
  exact ⟨h1, h2, h3⟩

theorem peerTask_panic {p : Peer} {links : Nat → Link} {ih : InfoHash} (h : peerTask sha1 localId pref ih p links = .panic) :
    (links 0).connect = .ok ∧ (links 0).crypto = .overflow := by
  have hr := run_spec sha1 links ⟨ih, localId, p.address.ip⟩ none pref p.requiresCrypto
  unfold peerTask at h
  rw [h] at hr
  exact (run_panic hr).2

/-- **C58, C69.** Whatever trackers, the DHT and peers do, downloading panics only because the time allowed for the key exchange with a peer is
too long to be measured. -/
theorem download_panic (hT : 0 < jobsT) (hP : 0 < jobsP) (h : DownloadRun sha1 localId pref behaves m dht jobsT jobsP tr s)
    (hr : s.result = some .panicked) : ∃ p links, behaves p links ∧ (links 0).connect = .ok ∧ (links 0).crypto = .overflow := by
  obtain ⟨p, hp⟩ := resolve_panicked hT hP h.run hr
  obtain ⟨links, hb, ho⟩ := peerDone_task h hp
  generalize hz : peerTask sha1 localId pref m.infoHash p links = z at ho
  cases z <;> simp [taskOutcome] at ho
  exact ⟨p, links, hb, peerTask_panic hz⟩

/-- **C58.** Whatever trackers, the DHT and peers do and in whatever order: the metadata in the result has the digest that the magnet
link asks for and is one bencoded dictionary, and it was got from a peer that was contacted. -/
theorem download_authentic (hT : 0 < jobsT) (hP : 0 < jobsP) (h : DownloadRun sha1 localId pref behaves m dht jobsT jobsP tr s)
    {info : TorrentInfo} {ts : List Tracker} {ns : List SockAddr} (hr : s.result = some (.file info ts ns)) :
    info.infoHash = m.infoHash ∧ sha1 info.data = m.infoHash.bytes ∧ IsInfoDict info.data ∧ ts = m.trackers ∧
    (m.trackers ≠ [] → ns = []) ∧ (m.trackers = [] → ∃ found, dht = .ok (found, ns)) ∧
    ∃ p links, p ∈ contacts tr ∧ behaves p links ∧ peerTask sha1 localId pref m.infoHash p links = .ok info := by
  obtain ⟨h1, h2, h3, es, p, rest, h4, h5⟩ := resolve_file hT hP h.run hr
  obtain ⟨links, hb, ho⟩ := peerDone_task h (p := p) (r := .value (.ok info)) (by rw [h4]; simp)
  rw [taskOutcome_ok] at ho
  obtain ⟨a, b, c⟩ := peerTask_ok ho
  exact ⟨a, b, c, h1, h2, h3, p, links, h5, hb, ho⟩

/-- **C58.** What a finished download writes: nothing, or exactly one file.  That file is the dictionary with the trackers of the magnet
link (if any), the creator and the date, the DHT's nodes (if any, and if there are no trackers), and an info dictionary whose encoding has the
digest that the magnet link asks for; and it goes where the template says, with the torrent's sanitized name and the magnet link's info hash. -/
theorem download_writes (hT : 0 < jobsT) (hP : 0 < jobsP) (h : DownloadRun sha1 localId pref behaves m dht jobsT jobsP tr s)
    (lossy : Bytes → Text) (ipText : IpAddr → Text) (parent : Text → Option Text) (now : Except Nat Nat)
    (template : List TemplateElement) {r : Resolved Tracker SockAddr TorrentInfo TaskError} (hr : s.result = some r) (hn : r ≠ .panicked) :
    ∃ effects, downloadEffects lossy ipText parent now template r = some effects ∧
      (writesOf effects = [] ∧ (∀ info ts ns, r ≠ .file info ts ns) ∨
        (∃ info ts ns, r = .file info ts ns) ∧ ∃ (info : List (Bytes × Ben)) (nodes : List SockAddr),
          writesOf effects = [(Output.fromArg (PathTemplate.format template (sanitize (((NameOf info).map lossy).getD "NONAME".toList)) m.infoHash),
            benc (.dict (torrentDict ipText (.dict info) (m.trackers.map Tracker.urlString) nodes (unixNow now).toInt client)))] ∧
          Canonical (.dict info) ∧ sha1 (benc (.dict info)) = m.infoHash.bytes ∧
          (m.trackers ≠ [] → nodes = []) ∧ (m.trackers = [] → ∃ found, dht = .ok (found, nodes))) := by
  cases r with
  | dht e => exact ⟨[], rfl, .inl ⟨rfl, by intros; simp⟩⟩
  | nothing => exact ⟨[], rfl, .inl ⟨rfl, by intros; simp⟩⟩
  | panicked => exact absurd rfl hn
  | file info ts ns =>
    obtain ⟨h1, h2, h3, rfl, h5, h6, -⟩ := download_authentic hT hP h hr
    obtain ⟨name, ⟨kvs, hk, hc, rfl⟩, hs⟩ := save_spec lossy ipText parent
      (TorrentFile.new now info (m.trackers.map Tracker.urlString) ns) h3 template
    have hb := torrentFile_dict ipText (TorrentFile.new now info (m.trackers.map Tracker.urlString) ns) (.dict kvs) hk
    have hih : (TorrentFile.new now info (m.trackers.map Tracker.urlString) ns).info.infoHash = m.infoHash := h1
    have hk' : info.data = benc (.dict kvs) := hk
    unfold downloadEffects
    simp only
    rw [hs, hb, hih]
    generalize hdest : Output.fromArg (PathTemplate.format template (sanitize (((NameOf kvs).map lossy).getD "NONAME".toList)) m.infoHash) = dest
    have fin : ∀ {bs}, bs = benc (.dict (torrentDict ipText (.dict kvs) (m.trackers.map Tracker.urlString) ns
            (unixNow now).toInt client)) → ∃ (info : List (Bytes × Ben)) (nodes : List SockAddr),
          [(dest, bs)] = [(Output.fromArg (PathTemplate.format template (sanitize (((NameOf info).map lossy).getD "NONAME".toList)) m.infoHash),
            benc (.dict (torrentDict ipText (.dict info) (m.trackers.map Tracker.urlString) nodes (unixNow now).toInt client)))] ∧
          Canonical (.dict info) ∧ sha1 (benc (.dict info)) = m.infoHash.bytes ∧
          (m.trackers ≠ [] → nodes = []) ∧ (m.trackers = [] → ∃ found, dht = .ok (found, nodes)) := by
      rintro _ rfl
      exact ⟨kvs, ns, by rw [hdest], hc, by rw [← hk']; exact h2, h5, h6⟩
    cases dest with
    | stdout => exact ⟨_, rfl, .inr ⟨⟨_, _, _, rfl⟩, fin rfl⟩⟩
    | file p =>
      simp only
      split
      · exact ⟨_, rfl, .inr ⟨⟨_, _, _, rfl⟩, fin rfl⟩⟩
      · exact ⟨_, rfl, .inr ⟨⟨_, _, _, rfl⟩, fin rfl⟩⟩

/-- A peer that delivers is a peer whose task succeeds. -/
theorem delivers_ok {p : Peer} {links : Nat → Link} {ih : InfoHash} {d : Bytes}
    (hpol : ¬ (pref = .never ∧ p.requiresCrypto = true))
    (hd : Delivers (fun f m => Message.decode f reg42 = .ok m) (links 0) ⟨ih, localId, p.address.ip⟩ (firstEncrypts pref p.requiresCrypto) d)
    (hs : sha1 d = ih.bytes) (hi : IsInfoDict d) : peerTask sha1 localId pref ih p links = .ok ⟨ih, d⟩ := by
  obtain ⟨h, s, code, frames, fs, t, stop, n, ms, ps, ha, hsends, hsize, hn, hf, ht, hms, hserv, rfl⟩ := hd
  have hv := visit_complete sha1 [] (links 0) ⟨ih, localId, p.address.ip⟩ _ h s code frames fs t stop n ha hsends hsize hn hf ht ms hms ps
    hserv hs hi
  have hc := connect_complete (links 0) ⟨ih, localId, p.address.ip⟩ _ h s code _ ha (fun _ => hsends 2)
  unfold peerTask infoGetterRun
  generalize p.requiresCrypto = req at *
  cases pref <;> cases req <;> simp only [getCryptoMode, CryptoPreference.getCryptoMode, firstEncrypts] at hv hc ⊢
  all_goals first
    | exact hv
    | exact absurd ⟨rfl, rfl⟩ hpol
    | (split
       · rename_i c hcc; rw [hcc] at hc; cases hc
       · exact hv)

/-- **C58.** If, of the peers that were contacted, there is one that the encryption preference allows to contact and that delivers metadata
with the requested digest, then a finished download has a torrent file. -/
theorem download_finds (hT : 0 < jobsT) (hP : 0 < jobsP) (h : DownloadRun sha1 localId pref behaves m dht jobsT jobsP tr s)
    {r : Resolved Tracker SockAddr TorrentInfo TaskError} (hr : s.result = some r) (hn : r ≠ .panicked) (p : Peer) (hp : p ∈ contacts tr)
    (hpol : ¬ (pref = .never ∧ p.requiresCrypto = true))
    (hd : ∀ links, behaves p links → ∃ d, sha1 d = m.infoHash.bytes ∧ IsInfoDict d ∧
      Delivers (fun f m => Message.decode f reg42 = .ok m) (links 0) ⟨m.infoHash, localId, p.address.ip⟩
        (firstEncrypts pref p.requiresCrypto) d) :
    ∃ info ns, r = .file info m.trackers ns := by
  cases r with
  | file info ts ns =>
    obtain ⟨-, -, -, h4, -⟩ := download_authentic hT hP h hr
    exact ⟨info, ns, by rw [h4]⟩
  | panicked => exact absurd rfl hn
  | dht e =>
    obtain ⟨h1, h2⟩ := (resolve_dht_error hT hP h.run e).1 hr
    have hrun := h.run
    rw [h1, h2] at hrun
    obtain ⟨rfl, -⟩ := resolve_exited hrun
    cases hp
  | nothing =>
    exfalso
    obtain ⟨es, h1, h2, -⟩ := resolve_nothing hT hP h.run hr
    obtain ⟨⟨p', e⟩, hx, rfl⟩ := List.mem_map.1 (h2.mem_iff.2 hp)
    obtain ⟨links, hb, ho⟩ := peerDone_task h (p := p') (r := .value (.error e)) (by rw [h1]; exact List.mem_map.2 ⟨_, hx, rfl⟩)
    obtain ⟨d, d1, d2, d3⟩ := hd links hb
    rw [delivers_ok hpol d3 d1 d2] at ho
    simp [taskOutcome] at ho

end


/-! ### A peer that stalls -/

section
variable {sha1 : Bytes → Bytes} {localId : PeerId} {pref : CryptoPreference} {behaves : Peer → (Nat → Link) → Prop} {m : Magnet}
  {dht : Except TaskError (List Peer × List SockAddr)} {jobsT jobsP : Nat}
  {tr : ResolveTrace Tracker Peer SockAddr TorrentInfo TaskError} {s : Resolve Tracker Peer SockAddr SockAddr TorrentInfo TaskError}

theorem visit_hangs {good : Bytes → Prop} {l : Link} {ctx : PeerCtx} {enc : Bool} {message : Bytes → Message → Prop}
    {garbage : Bytes → MessageError → Prop} {es : List Event} (h : Visit sha1 good l ctx enc message garbage es .hang) : Stalls l ctx enc := by
  generalize hz : (Res.hang : Res PeerError TorrentInfo) = z at h
  cases h with
  | talked _ hag hf ht hs _ _ he =>
    subst hz
    refine ⟨_, _, _, _, hag, ?_⟩
    generalize hz : (Res.hang : Res PeerError TorrentInfo) = z at he
    cases he with
    | silent _ h1 h2 => subst h2; exact .inl ⟨_, _, _, rfl, hf, ht⟩
    | stuck _ h1 => exact .inr ⟨_, by split <;> omega, h1⟩
    | empty _ hv => cases hv <;> cases hz
    | complete _ _ _ hv => cases hv <;> cases hz
    | _ => cases hz
  | _ => cases hz

/-- **C59.** Asking a peer for metadata always ends, unless the peer, having agreed to talk about the metadata, stalls. -/
theorem task_ends_partial {p : Peer} {links : Nat → Link} {ih : InfoHash}
    (h : ∀ i enc, ¬ Stalls (links i) ⟨ih, localId, p.address.ip⟩ enc) : peerTask sha1 localId pref ih p links ≠ .hang := by
  intro hh
  have hr := run_spec sha1 links ⟨ih, localId, p.address.ip⟩ none pref p.requiresCrypto
  unfold peerTask at hh
  rw [hh] at hr
  generalize hz : (Res.hang : Res PeerError TorrentInfo) = z at hr
  generalize (infoGetterRun sha1 links ⟨ih, localId, p.address.ip⟩ none pref p.requiresCrypto).1 = as at hr
  cases hr with
  | impossible => cases hz
  | encrypted _ hv => subst hz; exact h _ _ (visit_hangs hv)
  | plain _ _ hv => subst hz; exact h _ _ (visit_hangs hv)
  | fallback _ _ _ hv => subst hz; exact h _ _ (visit_hangs hv)

/-- **C59.** Until a download has a result it can go on, provided that no peer stalls after having agreed to talk.  With
`resolve_terminates`: then every download comes to a result. -/
theorem download_ends_partial (hT : 0 < jobsT) (hP : 0 < jobsP) (h : DownloadRun sha1 localId pref behaves m dht jobsT jobsP tr s)
    (hr : s.result = none) (trackerEnd : Tracker → Outcome (Except TaskError (List Peer)))
    (hb : ∀ p, ∃ links, behaves p links ∧ ∀ i enc, ¬ Stalls (links i) ⟨m.infoHash, localId, p.address.ip⟩ enc) :
    ∃ e s' out, DownloadRun sha1 localId pref behaves m dht jobsT jobsP (tr ++ [(e, out)]) s' ∧
      (∀ x ∈ out.filterMap trackerDoneOf, x.2 = trackerPeers (trackerEnd x.1)) := by
  have hb' : ∀ p, ∃ o links, behaves p links ∧ taskOutcome (peerTask sha1 localId pref m.infoHash p links) = some o := by
    intro p
    obtain ⟨links, h1, h2⟩ := hb p
    have := task_ends_partial (sha1 := sha1) (pref := pref) h2
    generalize hz : peerTask sha1 localId pref m.infoHash p links = z at this
    cases z with
    | hang => exact absurd rfl this
    | ok i => exact ⟨_, links, h1, by rw [hz]; rfl⟩
    | err e => exact ⟨_, links, h1, by rw [hz]; rfl⟩
    | panic => exact ⟨_, links, h1, by rw [hz]; rfl⟩
  obtain ⟨f, hf⟩ := Classical.axiomOfChoice hb'
  obtain ⟨e, s', out, h1, h2, h3⟩ := resolve_progress hT hP h.run hr trackerEnd f
  refine ⟨e, s', out, ⟨.step h.run h1, ?_⟩, h3⟩
  intro eo heo p r hp
  rcases List.mem_append.1 heo with heo | heo
  · exact h.tasks eo heo p r hp
  · rw [List.mem_singleton] at heo
    subst heo
    have := h2 (p, r) (List.mem_filterMap.2 ⟨_, hp, rfl⟩)
    simp only at this
    rw [this]
    exact hf p

/-- **C59.** There is no infinite download: with `download_ends_partial`, every download in which no peer stalls comes to a result. -/
theorem download_terminates : WellFounded fun s' s : Resolve Tracker Peer SockAddr SockAddr TorrentInfo TaskError =>
    ∃ e out, s.step (fun p => p.address) m.trackers e = some (s', out) := resolve_terminates _ _

/-- A peer that agrees, announces metadata and then only sends ignorable messages and nothing more is waited for without end. -/
theorem silent_hangs (sha1 : Bytes → Bytes) (before : List Attempt) (l : Link) (ctx : PeerCtx) (enc : Bool)
    (h : Handshake) (s : ExtendedHandshake) (code : BitVec 8) (frames : List Bytes) (fs t : Bytes) (n : BitVec 32)
    (ha : Agreed l ctx enc h s code (fs ++ t)) (hsends : ∀ k, l.sends k = .ok) (hsize : s.metadataSize = some n)
    (h0 : 0 < n.toNat) (hn : n.toNat ≤ 20 * 1024 * 1024) (hf : IsFrames frames fs) (ht : NoFrame l.ending t .pending)
    (ms : List Message) (hms : List.Forall₂ (fun f m => Message.decode f reg42 = .ok m) frames ms) (hig : ∀ m ∈ ms, Ignorable m) :
    (finishRun sha1 ctx before l enc (connect l ctx enc)).2 = .hang := by
  have hok := connect_complete l ctx enc h s code _ ha (fun _ => hsends 2)
  obtain ⟨ours, ho, hc, hcon⟩ := connect_spec l ctx enc
  obtain ⟨⟨h', s', code', rest', hag', -, hget, hfr, -⟩, hlr⟩ := hcon _ hok
  have hrest : rest' = fs ++ t := by
    obtain ⟨r0, f, ⟨hsh, -⟩, hff, -⟩ := ha
    obtain ⟨r0', f', ⟨hsh', -⟩, hff', -⟩ := hag'
    obtain ⟨rfl, rfl⟩ := shaken_unique hsh hsh'
    exact (firstFrame_unique hff' hff).2
  rw [hrest, allFrames_spec l.ending frames fs t .pending hf ht] at hfr
  generalize hcc : connect l ctx enc = cr at *
  obtain ⟨c, r⟩ := cr
  simp only at hok hget hfr hlr
  subst hok
  have hcf : c.frames = frames := congrArg Prod.fst hfr
  have hcs : c.stop = .pending := congrArg Prod.snd hfr
  simp only [finishRun, hsize]
  obtain ⟨used, rest, es, hu, hread, -, -, he⟩ := session_spec sha1 l ctx.infoHash n c (contains_of_getMessageId hget) hn
  rw [hsends] at he
  rw [← hcf, hu, ← hlr] at hms
  obtain ⟨t', ht', hrest'⟩ := forall₂_functional (by intro a b b' h h'; rw [h] at h'; cases h'; rfl) hread hms
  have hrec : ∀ m ∈ receivedOf es, Ignorable m := fun m hm => hig m (by rw [ht']; exact List.mem_append_left _ hm)
  have last : ∀ {es' : List Event} {x : Message}, es = es' ++ [.received x] → Ignorable x := by
    intro es' x hx
    apply hrec
    rw [hx, receivedOf_append]
    simp [receivedOf]
  generalize hz : (getMetadataInfo sha1 l ctx.infoHash (some n) c).2 = z at he
  cases he with
  | empty h => omega
  | silent => rfl
  | stuck => rfl
  | closed _ _ h => rw [hcs] at h; cases h
  | broken _ _ h => exact absurd hcs h
  | garbled _ h hg =>
    subst h
    cases hrest' with
    | cons h1 _ => rw [h1] at hg; cases hg
  | unsent _ h => cases h
  | complete => exact absurd (last rfl) (by intro h; cases h)
  | size => exact absurd (last rfl) (by intro h; cases h)
  | piece => exact absurd (last rfl) (by intro h; cases h)
  | length => exact absurd (last rfl) (by intro h; cases h)
  | rejected => exact absurd (last rfl) (by intro h; cases h)
  | rejectedOther => exact absurd (last rfl) (by intro h; cases h)
  | unexpected _ h => exact absurd (last rfl) h

/-- The peers of a download of which all that are found never make their tasks end: no result, ever. -/
theorem download_stuck (hT : 0 < jobsT) (hP : 0 < jobsP) (p : Peer) (found : List Peer) (ns : List SockAddr) (hm : m.trackers = [])
    (hdht : dht = .ok (p :: found, ns))
    (hh : ∀ p links, behaves p links → peerTask sha1 localId pref m.infoHash p links = .hang)
    (h : DownloadRun sha1 localId pref behaves m dht jobsT jobsP tr s) : s.result = none := by
  have none : ∀ x, x ∉ peerDones tr := by
    rintro ⟨q, r⟩ hx
    obtain ⟨links, h1, h2⟩ := peerDone_task h hx
    rw [hh q links h1] at h2
    cases h2
  cases hr : s.result with
  | none => rfl
  | some r =>
    exfalso
    cases r with
    | panicked =>
      obtain ⟨q, hq⟩ := resolve_panicked hT hP h.run hr
      exact none _ hq
    | dht e =>
      have := ((resolve_dht_error hT hP h.run e).1 hr).2
      rw [hdht] at this; cases this
    | file info ts ns =>
      obtain ⟨-, -, -, es, q, rest, h4, -⟩ := resolve_file hT hP h.run hr
      exact none (q, .value (.ok info)) (by rw [h4]; simp)
    | nothing =>
      obtain ⟨es, h1, h2, h3, -⟩ := resolve_nothing hT hP h.run hr
      obtain ⟨nodes, h3⟩ := h3 hm
      rw [hdht] at h3
      have h4 := congrArg (fun x => match x with | Except.ok y => y.1 | .error _ => []) h3
      simp only at h4
      rw [← h4] at h2
      obtain ⟨⟨q, e⟩, hx, rfl⟩ := List.mem_map.1 (h2.mem_iff.2 (List.mem_cons_self ..))
      exact none (q, .value (.error e)) (by rw [h1]; exact List.mem_map.2 ⟨_, hx, rfl⟩)

end


/-- A peer at 1.2.3.4:5, and a magnet link without trackers. -/
def exPeer : Peer := ⟨.v4 ⟨⟨0x01020304#32⟩, 5⟩, none, false⟩
def exMagnet : Magnet := ⟨exHash, none, []⟩

/-- Agreeing to talk about metadata of two bytes, and then nothing. -/
def stallLink : Link := { exLink with incoming := exTheirs.encode ++ (beBytes 4 exGreetingBytes.length ++ exGreetingBytes) }

theorem stallAgreed : Agreed stallLink exCtx false exTheirs exGreeting 3 [] := by
  refine ⟨_, exGreetingBytes, ⟨⟨⟨rfl, by intro h; cases h⟩, rfl, exTheirs.encode, rfl, (handshake_encode_spec _).2⟩, rfl,
    by decide, rfl⟩, ⟨_, .cons (isHeader_beBytes _ (by decide)) (by decide) .nil, ?_⟩, exGreeting_ok, ⟨_, rfl, by decide⟩,
    by decide⟩
  simp

theorem stall_hangs (sha1 : Bytes → Bytes) : peerTask sha1 ⟨List.replicate 20 9, by decide⟩ .ifRequired exHash exPeer (fun _ => stallLink) = .hang :=
  silent_hangs sha1 [] stallLink exCtx false exTheirs exGreeting 3 [] [] [] 2 stallAgreed (fun _ => rfl) rfl (by decide) (by decide) .nil
    (.inr ⟨0, .inl ⟨by decide, rfl⟩, rfl⟩) [] .nil (by intro m hm; cases hm)

/-- **C59.** It is not the case that every download comes to a result: with a single peer that agrees to talk about the metadata and then
says nothing more (keeping the connection open), no run of the download ever has one, whatever the timeouts and numbers of jobs. -/
theorem download_hangs (sha1 : Bytes → Bytes) (ns : List SockAddr) (jobsT jobsP : Nat) (hT : 0 < jobsT) (hP : 0 < jobsP)
    (tr : ResolveTrace Tracker Peer SockAddr TorrentInfo TaskError) (s : Resolve Tracker Peer SockAddr SockAddr TorrentInfo TaskError)
    (h : DownloadRun sha1 ⟨List.replicate 20 9, by decide⟩ .ifRequired (fun p links => p = exPeer ∧ links = fun _ => stallLink) exMagnet
      (.ok ([exPeer], ns)) jobsT jobsP tr s) : s.result = none :=
  download_stuck hT hP exPeer [] ns rfl rfl (by rintro p links ⟨rfl, rfl⟩; exact stall_hangs sha1) h

/-! ### A download that works: the DHT finds a peer that serves the metadata `de` -/

def exEvents : List (ResolveEvent Peer TaskError TorrentInfo) :=
  [.startJob, .nextPeer, .noMorePeers, .peerTake 0, .peerCheck 0, .peerEnds 0 (.value (.ok ⟨exHash, ascii "de"⟩)), .receive]

theorem exDelivers : Delivers (fun f m => Message.decode f reg42 = .ok m) exLink exCtx false (ascii "de") :=
  ⟨exTheirs, exGreeting, 3, [exDataBytes], exRest, [], .pending, 2, [data 0 2 (ascii "de")], [ascii "de"], exAgreed, fun _ => rfl, rfl,
    by decide, by simpa [exRest] using IsFrames.cons (isHeader_beBytes _ (by decide)) (by decide) IsFrames.nil, .inr ⟨0, .inl ⟨by decide, rfl⟩, rfl⟩,
    .cons (by decide +kernel) .nil, .piece (by decide) (by decide) .done, rfl⟩

theorem exTask : peerTask (fun _ => List.replicate 20 7) ⟨List.replicate 20 9, by decide⟩ .ifRequired exHash exPeer (fun _ => exLink) =
    .ok ⟨exHash, ascii "de"⟩ :=
  delivers_ok (by simp) exDelivers rfl ⟨[], by decide +kernel, by simp [Canonical, SortedKeys, CanonicalDict], by decide +kernel⟩

theorem exDownload : ∃ tr s, DownloadRun (fun _ => List.replicate 20 7) ⟨List.replicate 20 9, by decide⟩ .ifRequired
    (fun p links => p = exPeer ∧ links = fun _ => exLink) exMagnet (.ok ([exPeer], [])) 1 1 tr s ∧
    s.result = some (.file ⟨exHash, ascii "de"⟩ [] []) ∧ contacts tr = [exPeer] := by
  have key : ((resolveExec (fun p : Peer => p.address) ([] : List Tracker) exEvents (Resolve.start [] (.ok ([exPeer], ([] : List SockAddr))) 1 1)).isSome) = true := by
    rfl
  obtain ⟨⟨tr, s⟩, hx⟩ := Option.isSome_iff_exists.1 key
  refine ⟨tr, s, ⟨by show ResolveRun _ [] _ _ _ _ _; simpa using resolveExec_run exEvents .init hx, ?_⟩, ?_, ?_⟩ <;> cases hx
  · intro eo heo p r hp
    simp only [List.mem_cons, List.not_mem_nil, or_false] at heo
    rcases heo with rfl | rfl | rfl | rfl | rfl | rfl | rfl <;> simp at hp
    obtain ⟨rfl, rfl⟩ := hp
    exact ⟨fun _ => exLink, ⟨rfl, rfl⟩, by show taskOutcome (peerTask _ _ _ exHash exPeer _) = _; rw [exTask]; rfl⟩
  · rfl
  · rfl

end Demag.Props
