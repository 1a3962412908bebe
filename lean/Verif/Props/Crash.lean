import Verif.Spec.Crash
import Verif.Props.Disk
import Verif.Props.Query

/-!
# C69: no crash

The program does not crash, whatever peers, trackers and the DHT send and however the network fails, as long as the time that the configuration
allows for the key exchange, counted from now, ends at a moment that a clock can show.  Otherwise an encrypted connection attempt crashes it.
-/

namespace Demag.Props

open Spec

theorem overNetwork_fits {H : Bytes → Bytes} {dhTimeout now : Nat} {behaves : Peer → (Nat → Link) → Prop}
    (hn : OverNetwork H dhTimeout now behaves) (hfit : now + dhTimeout < 2 ^ 63) : ∀ p links, behaves p links → (links 0).crypto ≠ .overflow := by
  intro p links hb ho
  obtain ⟨raws, chances, skey, enc, h1, h2⟩ := hn p links hb
  rw [h1, overflow_iff] at ho
  obtain ⟨h3, h4⟩ := h2 0
  omega

section
variable {sha1 H : Bytes → Bytes} {localId : PeerId} {cfg : Config} {behaves : Peer → (Nat → Link) → Prop} {now : Nat}
  {parseHost : Text → Option Host} {dht : DhtConfig} {doc : List (Text × Toml)}

/-- **C69 (part).** With every accepted configuration whose `dh-exchange-timeout` is not excessive, a download does not panic, whatever trackers, the
DHT, peers and the network do.  Missing: other values of it, of which this is false (`timeout_crashes`). -/
theorem download_no_panic_partial (hdht : DhtConfig.dflt parseHost = some dht) (hcfg : readConfig parseHost dht doc = some cfg)
    (hn : OverNetwork H cfg.peers.dhExchangeTimeout now behaves) (hfit : now + cfg.peers.dhExchangeTimeout < 2 ^ 63) {m : Magnet}
    {d : Except TaskError (List Peer × List SockAddr)} {tr : ResolveTrace Tracker Peer SockAddr TorrentInfo TaskError}
    {s : Resolve Tracker Peer SockAddr SockAddr TorrentInfo TaskError}
    (h : DownloadRun sha1 localId cfg.general.encrypt behaves m d cfg.trackers.jobsPerMagnet cfg.peers.jobsPerMagnet tr s) :
    s.result ≠ some .panicked := by
  obtain ⟨-, hT, hP, -⟩ := config_usable parseHost dht hdht doc cfg hcfg
  intro hr
  obtain ⟨p, links, h1, -, h2⟩ := download_panic hT hP h hr
  exact overNetwork_fits hn hfit p links h1 h2

/-- **C69 (part).** Neither does the batch command crash. -/
theorem batch_no_crash_partial (hdht : DhtConfig.dflt parseHost = some dht) (hcfg : readConfig parseHost dht doc = some cfg)
    (hn : OverNetwork H cfg.peers.dhExchangeTimeout now behaves) (hfit : now + cfg.peers.dhExchangeTimeout < 2 ^ 63)
    {saved : Magnet → TorrentInfo → List Tracker → List SockAddr → Bool} {magnets : Option (List Magnet)}
    {tr : List (BatchEvent × List (Magnet × Outcome Bool))} {s : Batch Magnet}
    (h : BatchDownloads sha1 localId cfg behaves saved magnets tr s) : s.exit ≠ some .crash :=
  batch_no_crash hdht hcfg (overNetwork_fits hn hfit) h

/-- **C69.** `query-peer` crashes exactly if its first connection attempt is to be encrypted, the peer can be reached and takes packet 1, and the
time for the key exchange ends too late. -/
theorem query_peer_crash {env : QueryPeerEnv} {encrypt prefer noEncrypt : Bool} {template : List TemplateElement} {peer : Peer} {ih : InfoHash} :
    (∃ effects, queryPeer sha1 H env encrypt prefer noEncrypt template peer ih = some (effects, .crash)) ↔
      (getCryptoMode (queryPeerMode encrypt prefer noEncrypt) env.pref peer.requiresCrypto = some .encrypt ∨
        getCryptoMode (queryPeerMode encrypt prefer noEncrypt) env.pref peer.requiresCrypto = some .prefer) ∧
      (env.raws 0).connect = .ok ∧ (env.raws 0).sends 0 = .ok ∧ 2 ^ 63 ≤ (env.chances 0).now + (env.chances 0).dhTimeout := by
  constructor
  · rintro ⟨effects, h⟩
    obtain ⟨-, h1, h2, h3⟩ := (query_peer_writes h).1 rfl
    refine ⟨?_, h1, h2, h3⟩
    obtain ⟨links, hl, hask⟩ := ask_run sha1 H env encrypt prefer noEncrypt peer ih
    have hr := run_spec sha1 links ⟨ih, env.localId, peer.address.ip⟩ (queryPeerMode encrypt prefer noEncrypt) env.pref peer.requiresCrypto
    have hp : (infoGetterRun sha1 links ⟨ih, env.localId, peer.address.ip⟩ (queryPeerMode encrypt prefer noEncrypt) env.pref
        peer.requiresCrypto).2 = .panic := by
      rw [← hask]
      unfold queryPeer at h
      split at h
      · rename_i info hi
        rw [hask] at hi
        rw [hi] at hr
        obtain ⟨-, -, h3, -⟩ := run_success hr
        obtain ⟨name, -, hs⟩ := save_spec env.lossy ipText env.parent (TorrentFile.new env.now info [] []) h3 template
        obtain ⟨es, hes⟩ : ∃ es, (TorrentFile.new env.now info [] []).save env.lossy ipText env.parent template = some es := by
          rw [hs]
          split
          · exact ⟨_, rfl⟩
          · split <;> exact ⟨_, rfl⟩
        simp only [hes, Option.some.injEq, Prod.mk.injEq] at h
        exact absurd h.2 (by split <;> simp)
      · cases h
      · assumption
      · cases h
    rw [hp] at hr
    obtain ⟨-, -, ho⟩ := run_panic hr
    have h0 := hl 0
    rw [h0, overflow_iff] at ho
    cases hm : getCryptoMode (queryPeerMode encrypt prefer noEncrypt) env.pref peer.requiresCrypto with
    | none => unfold infoGetterRun at hp; rw [hm] at hp; cases hp
    | some x =>
      cases x with
      | encrypt => exact .inl rfl
      | prefer => exact .inr rfl
      | plain => rw [hm] at ho; exact absurd ho.1 (by decide)
  · rintro ⟨hm, h1, h2, h3⟩
    obtain ⟨links, hl, hask⟩ := ask_run sha1 H env encrypt prefer noEncrypt peer ih
    refine ⟨[], ?_⟩
    have hl0 : links 0 = (env.raws 0).link H (env.chances 0) ih true := by
      rw [hl]
      rcases hm with hm | hm <;> rw [hm] <;> rfl
    have ho : (links 0).crypto = .overflow := by rw [hl0]; exact (overflow_iff _ _ _ _ _).2 ⟨rfl, h2, h3⟩
    have hc : (links 0).connect = .ok := by rw [hl0, link_connect]; exact h1
    have hconn : ∃ c, connect (links 0) ⟨ih, env.localId, peer.address.ip⟩ true = (c, .panic) := by
      unfold connect
      simp only [hc, if_true, ho]
      exact ⟨_, rfl⟩
    obtain ⟨c, hconn⟩ := hconn
    unfold queryPeer
    rw [hask]
    unfold infoGetterRun
    rcases hm with hm | hm <;> simp only [hm, hconn, finishRun]

end

/-! ### The refutation -/

/-- A configuration in which the key exchange may take as long as an integer of the file can say. -/
def patientDoc : List (Text × Toml) :=
  [("general".toList, .table [("batch-jobs".toList, .int 1)]), ("trackers".toList, .table [("jobs-per-magnet".toList, .int 1)]),
   ("peers".toList, .table [("jobs-per-magnet".toList, .int 1), ("dh-exchange-timeout".toList, .int 9223372036854775807)])]

def patientConfig : Config :=
  ⟨⟨1, .prefer⟩, { TrackersConfig.dflt with jobsPerMagnet := 1 }, { PeersConfig.dflt with jobsPerMagnet := 1, dhExchangeTimeout := 9223372036854775807 }, ⟨exNodes, 2⟩⟩

theorem patient_read : readConfig exHosts ⟨exNodes, 2⟩ patientDoc = some patientConfig := by decide +kernel

theorem patient_fields : patientConfig.general = ⟨1, .prefer⟩ ∧ patientConfig.trackers.jobsPerMagnet = 1 ∧
    patientConfig.peers.jobsPerMagnet = 1 ∧ 2 ^ 63 - 1 ≤ patientConfig.peers.dhExchangeTimeout := by
  refine ⟨rfl, rfl, rfl, ?_⟩
  unfold patientConfig
  decide +kernel

/-- The connection to a peer that takes what is sent to it and never says anything. -/
def patientLink (H : Bytes → Bytes) (now secs : Nat) : Link :=
  (⟨.ok, [], fun _ => .ok⟩ : RawLink).link H ⟨5, [], 0, fun _ => 1, now, secs⟩ exHash true

theorem patient_over (H : Bytes → Bytes) (now secs : Nat) :
    OverNetwork H secs now (fun p links => p = exPeer ∧ links = fun _ => patientLink H now secs) := by
  rintro p links ⟨-, rfl⟩
  exact ⟨fun _ => ⟨.ok, [], fun _ => .ok⟩, fun _ => ⟨5, [], 0, fun _ => 1, now, _⟩, exHash, fun _ => true, fun _ => rfl, fun _ => ⟨rfl, Nat.le_refl _⟩⟩

theorem patient_panics (sha1 H : Bytes → Bytes) (id : PeerId) (now secs : Nat) (h : 2 ^ 63 ≤ now + secs) :
    peerTask sha1 id .prefer exHash exPeer (fun _ => patientLink H now secs) = .panic := by
  have ho : (patientLink H now secs).crypto = .overflow := (overflow_iff _ _ _ _ _).2 ⟨rfl, rfl, h⟩
  have hc : (patientLink H now secs).connect = .ok := by unfold patientLink; rw [link_connect]
  have hconn : ∀ ctx, ∃ c, connect (patientLink H now secs) ctx true = (c, .panic) := by
    intro ctx
    unfold connect
    simp only [hc, if_true, ho]
    exact ⟨_, rfl⟩
  unfold peerTask infoGetterRun
  obtain ⟨c, hx⟩ := hconn ⟨exHash, id, exPeer.address.ip⟩
  simp only [getCryptoMode, CryptoPreference.getCryptoMode, exPeer] at hx ⊢
  simp only [hx, finishRun]

theorem patient_download (sha1 H : Bytes → Bytes) (id : PeerId) (now secs : Nat) (h : 2 ^ 63 ≤ now + secs) :
    ∃ tr s, DownloadRun sha1 id .prefer
      (fun p links => p = exPeer ∧ links = fun _ => patientLink H now secs) exMagnet (.ok ([exPeer], [])) 1 1 tr s ∧
    s.result = some .panicked := by
  have key : ((resolveExec (fun p : Peer => p.address) ([] : List Tracker)
      ([.startJob, .nextPeer, .noMorePeers, .peerTake 0, .peerCheck 0, .peerEnds 0 .panic, .receive] : List (ResolveEvent Peer TaskError TorrentInfo))
      (Resolve.start [] (.ok ([exPeer], ([] : List SockAddr))) 1 1)).isSome) = true := by
    rfl
  obtain ⟨⟨tr, s⟩, hx⟩ := Option.isSome_iff_exists.1 key
  refine ⟨tr, s, ⟨by show ResolveRun _ [] _ _ _ _ _; simpa using resolveExec_run _ .init hx, ?_⟩, ?_⟩ <;> cases hx
  · intro eo heo p r hp
    simp only [List.mem_cons, List.not_mem_nil, or_false] at heo
    rcases heo with rfl | rfl | rfl | rfl | rfl | rfl | rfl <;> simp at hp
    obtain ⟨rfl, rfl⟩ := hp
    exact ⟨fun _ => patientLink H now secs, ⟨rfl, rfl⟩, by
      show taskOutcome (peerTask _ _ _ exHash exPeer _) = _; rw [patient_panics sha1 H id now secs h]; rfl⟩
  · rfl

theorem patient_batch (sha1 H : Bytes → Bytes) (id : PeerId) (now : Nat) (cfg : Config) (saved : Magnet → TorrentInfo → List Tracker → List SockAddr → Bool)
    (hg : cfg.general = ⟨1, .prefer⟩) (ht : cfg.trackers.jobsPerMagnet = 1) (hp : cfg.peers.jobsPerMagnet = 1)
    (h : 2 ^ 63 ≤ now + cfg.peers.dhExchangeTimeout) :
    ∃ tr s, BatchDownloads sha1 id cfg (fun p links => p = exPeer ∧ links = fun _ => patientLink H now cfg.peers.dhExchangeTimeout) saved
      (some [exMagnet]) tr s ∧ s.exit = some .crash := by
  generalize cfg.peers.dhExchangeTimeout = secs at h ⊢
  refine ⟨[(.spawn, []), (.take 0, []), (.check 0, []), (.dropHandle, []), (.ends 0 .panic, [(exMagnet, .panic)]), (.workerExit 0, []),
    (.receive, [])], _, ⟨by
    rw [hg]
    exact .step (.step (.step (.step (.step (.step (.step .init rfl) rfl) rfl) rfl) rfl) rfl) rfl, ?_⟩, rfl⟩
  rw [hg, ht, hp]
  intro eo heo m o hx
  simp only [List.mem_cons, List.not_mem_nil, or_false] at heo
  rcases heo with rfl | rfl | rfl | rfl | rfl | rfl | rfl <;> simp at hx
  obtain ⟨rfl, rfl⟩ := hx
  obtain ⟨rtr, rs, h1, h2⟩ := patient_download sha1 H id now secs h
  exact ⟨_, rtr, rs, _, h1, h2, rfl⟩

/-- C69 is false as stated: under an accepted configuration, with a single peer that takes packet 1 (and does nothing else), the batch command
crashes. -/
theorem timeout_crashes (sha1 H : Bytes → Bytes) (id : PeerId) (now : Nat) (hnow : 0 < now)
    (saved : Magnet → TorrentInfo → List Tracker → List SockAddr → Bool) :
    ∃ doc cfg, readConfig exHosts ⟨exNodes, 2⟩ doc = some cfg ∧
    ∃ behaves, OverNetwork H cfg.peers.dhExchangeTimeout now behaves ∧
      ∃ tr s, BatchDownloads sha1 id cfg behaves saved (some [exMagnet]) tr s ∧ s.exit = some .crash := by
  obtain ⟨h1, h2, h3, h4⟩ := patient_fields
  exact ⟨patientDoc, patientConfig, patient_read, _, patient_over H now _,
    patient_batch sha1 H id now patientConfig saved h1 h2 h3 (by generalize patientConfig.peers.dhExchangeTimeout = secs at h4 ⊢; omega)⟩

/-! ### Examples -/

-- the partial theorems apply to the default timeout of 30 seconds, for any reasonable clock
example : OverNetwork (fun _ => []) PeersConfig.dflt.dhExchangeTimeout 1000000 (fun p links => p = exPeer ∧ links = fun _ =>
      (⟨.ok, [], fun _ => .ok⟩ : RawLink).link (fun _ => []) ⟨5, [], 0, fun _ => 1, 1000000, PeersConfig.dflt.dhExchangeTimeout⟩ exHash true) ∧
    1000000 + PeersConfig.dflt.dhExchangeTimeout < 2 ^ 63 := by
  refine ⟨?_, by simp [PeersConfig.dflt]⟩
  rintro p links ⟨-, rfl⟩
  exact ⟨fun _ => ⟨.ok, [], fun _ => .ok⟩, fun _ => ⟨5, [], 0, fun _ => 1, 1000000, _⟩, exHash, fun _ => true, fun _ => rfl, fun _ => ⟨rfl, Nat.le_refl _⟩⟩

-- `query_peer_crash`: with `--encrypt`
example : ∃ effects, queryPeer (fun _ => []) (fun _ => []) { exQueryEnv with chances := fun _ => ⟨1, [], 0, fun _ => 1, 1, 9223372036854775807⟩ } true false false
    [.name] ⟨.v4 ⟨⟨0x01020304#32⟩, 6881⟩, none, false⟩ exHash = some (effects, .crash) :=
  query_peer_crash.2 ⟨.inl rfl, rfl, rfl, by simp⟩

end Demag.Props
