import Verif.Spec.BatchGet
import Verif.Props.Get
import Verif.Props.Disk
import Verif.Props.Settings
import Verif.Props.UrlWhole
import Verif.Props.GetAnnounce
import Verif.Props.UrlPrint

/-! # C73: the command `batch`, from the text of the file to the torrent files -/

namespace Demag.Props

open Spec

theorem linesDenote_congr {P Q : Text → Magnet → Prop} (h : ∀ s m, P s m ↔ Q s m) {ls : List Bytes} {ms : List Magnet} :
    LinesDenote P ls ms ↔ LinesDenote Q ls ms := by
  constructor
  · intro hl
    induction hl with
    | nil => exact .nil
    | skip h1 _ ih => exact .skip h1 ih
    | magnet h1 h2 _ ih => exact .magnet h1 ((h _ _).1 h2) ih
  · intro hl
    induction hl with
    | nil => exact .nil
    | skip h1 _ ih => exact .skip h1 ih
    | magnet h1 h2 _ ih => exact .magnet h1 ((h _ _).2 h2) ih

/-- The links of the file are those on its lines. -/
theorem batchLinks_iff (uenv : UrlEnv) (lossy : Bytes → Text) (file : Option Bytes) (ms : List Magnet) :
    batchLinks uenv lossy file = some ms ↔ ∃ content, file = some content ∧ ListsLinks uenv lossy content ms := by
  unfold batchLinks
  rw [Option.bind_eq_some_iff]
  constructor
  · rintro ⟨c, hc, h⟩
    rw [except_toOption, magnetsFile_ok] at h
    obtain ⟨ls, h1, h2⟩ := h
    exact ⟨c, hc, ls, h1, (linesDenote_congr fun s m => magnet_iff uenv lossy s m).1 h2⟩
  · rintro ⟨c, hc, ls, h1, h2⟩
    refine ⟨c, hc, ?_⟩
    rw [except_toOption, magnetsFile_ok]
    exact ⟨ls, h1, (linesDenote_congr fun s m => magnet_iff uenv lossy s m).2 h2⟩

section
variable {sha1 : Bytes → Bytes} {env : GetEnv} {uenv : UrlEnv} {behaves : Peer → (Nat → Link) → Prop} {answers : Tracker → AskTrace → Prop}
  {template : List TemplateElement} {file : Option Bytes} {tr : List (BatchEvent × List (Magnet × Outcome Bool))}
  {jobs : List BatchJob} {s : Batch Magnet}

theorem accepted_usable (hcfg : Accepted env.cfg) :
    0 < env.cfg.general.batchJobs ∧ 0 < env.cfg.trackers.jobsPerMagnet ∧ 0 < env.cfg.peers.jobsPerMagnet := by
  obtain ⟨ph, dht, doc, hd, hc⟩ := hcfg
  obtain ⟨hB, hT, hP, -⟩ := config_usable ph dht hd doc env.cfg hc
  exact ⟨hB, hT, hP⟩

theorem batch_jobs_perm (h : BatchGet sha1 env uenv behaves answers template file tr jobs s) {ms : List Magnet}
    (hp : ((downloads tr).map Prod.fst).Perm ms) : (jobs.map BatchJob.link).Perm ms := by
  unfold downloads at hp
  rw [h.ended, List.map_map] at hp
  exact hp

theorem mem_downloads (h : BatchGet sha1 env uenv behaves answers template file tr jobs s) {m : Magnet} {o : Outcome Bool} :
    (m, o) ∈ downloads tr ↔ ∃ j ∈ jobs, j.link = m ∧ jobOutcome j.code = o := by
  unfold downloads
  rw [h.ended, List.mem_map]
  simp only [Prod.mk.injEq]

theorem jobOutcome_inj {a b : ExitCode} (h : jobOutcome a = jobOutcome b) : a = b := by
  cases a <;> cases b <;> first | rfl | cases h

/-- **C73.** A batch that ends successfully: the file could be read, its lines that are neither blank nor comments are magnet links, each of them
was downloaded once, and each download wrote exactly one file: a torrent file for the link, where the template says. -/
theorem batch_text_success (hcfg : Accepted env.cfg) (h : BatchGet sha1 env uenv behaves answers template file tr jobs s)
    (hs : s.exit = some .success) :
    ∃ content ms, file = some content ∧ ListsLinks uenv env.lossy content ms ∧ (jobs.map BatchJob.link).Perm ms ∧
      ∀ j ∈ jobs, ∃ out bytes, writesOf j.effects = [(out, bytes)] ∧ TorrentFor sha1 env.lossy ipText template j.link out bytes := by
  obtain ⟨hB, hT, hP⟩ := accepted_usable hcfg
  obtain ⟨ms, h1, h2, h3⟩ := (batch_exit hB h.run).1 hs
  obtain ⟨content, hf, hl⟩ := (batchLinks_iff _ _ _ _).1 h1
  refine ⟨content, ms, hf, hl, batch_jobs_perm h h2, ?_⟩
  intro j hj
  have ho : j.code = .success := jobOutcome_inj (h3 (j.link, jobOutcome j.code) ((mem_downloads h).2 ⟨j, hj, rfl, rfl⟩))
  obtain ⟨⟨gtr, gs, hg, hr⟩, he⟩ := h.job j hj
  rw [ho] at he
  obtain ⟨info, nodes, hw, hcan, hsha, hn, -⟩ := (get_writes (env := { env with now := j.now, fileOk := j.fileOk }) hT hP hg hr template).2.2 (by rw [he])
  rw [he] at hw
  exact ⟨_, _, hw, info, nodes, _, rfl, rfl, hcan, hsha, hn⟩

/-- **C73.** A batch that fails: the file cannot be read or its lines are not all magnet links, and nothing has been done; or all links were
tried, and for one of them nothing was written: because the torrent file, although it was made, could not be saved; because the link has no
trackers and there is no DHT; or because all were asked in vain. -/
theorem batch_text_failure (hcfg : Accepted env.cfg) (h : BatchGet sha1 env uenv behaves answers template file tr jobs s)
    (hs : s.exit = some .failure) :
    (∀ content, file = some content → ∀ ms, ¬ ListsLinks uenv env.lossy content ms) ∧ jobs = [] ∨
    ∃ content ms, file = some content ∧ ListsLinks uenv env.lossy content ms ∧ (jobs.map BatchJob.link).Perm ms ∧
      ∃ j ∈ jobs, writesOf j.effects = [] ∧ j.code = .failure ∧
        ((j.result.isFile = true ∧ ∃ i, j.fileOk i = false) ∨ ((∃ e, j.result = .dht e) ∧ j.link.trackers = []) ∨
          (j.result = .nothing ∧ AskedInVain sha1 env behaves answers j.link)) := by
  obtain ⟨hB, hT, hP⟩ := accepted_usable hcfg
  have hrun := h.run
  rcases (batch_exit hB h.run).2.1 hs with h1 | ⟨ms, h1, h2, m, h3⟩
  · refine .inl ⟨fun content hf ms hl => ?_, ?_⟩
    · rw [(batchLinks_iff _ _ _ _).2 ⟨content, hf, hl⟩] at h1
      cases h1
    · rw [h1] at hrun
      obtain ⟨rfl, -⟩ := batch_exited (c := .failure) rfl hrun
      exact List.map_eq_nil_iff.1 h.ended.symm
  · obtain ⟨content, hf, hl⟩ := (batchLinks_iff _ _ _ _).1 h1
    obtain ⟨j, hj, rfl, ho⟩ := (mem_downloads h).1 h3
    have ho : j.code = .failure := jobOutcome_inj ho
    refine .inr ⟨content, ms, hf, hl, batch_jobs_perm h h2, j, hj, ?_⟩
    obtain ⟨⟨gtr, gs, hg, hr⟩, he⟩ := h.job j hj
    rw [ho] at he
    have hw := (get_writes (env := { env with now := j.now, fileOk := j.fileOk }) hT hP hg hr template).2.1 (by rw [he])
    rw [he] at hw
    refine ⟨hw, ho, ?_⟩
    obtain ⟨dht, hd, hdl⟩ := hg.run
    cases hres : j.result with
    | panicked => rw [hres] at he; exact absurd (congrArg Prod.snd he) (by simp [getEffects, downloadEffects])
    | dht e =>
      rw [hres] at hr
      exact .inr (.inl ⟨⟨e, rfl⟩, ((resolve_dht_error hT hP hdl.run e).1 hr).1⟩)
    | nothing =>
      rw [hres] at hr
      exact .inr (.inr ⟨rfl, contacts gtr, get_fails (env := { env with now := j.now, fileOk := j.fileOk }) hT hP hg hr⟩)
    | file info ts ns =>
      refine .inl ⟨rfl, Classical.byContradiction fun hno => ?_⟩
      have hall : ∀ i, j.fileOk i = true := by
        intro i
        cases hi : j.fileOk i with
        | true => rfl
        | false => exact absurd ⟨i, hi⟩ hno
      rw [hres] at hr he
      obtain ⟨effects, hde, -⟩ := download_writes hT hP hdl env.lossy ipText env.parent j.now template hr (by simp)
      simp [getEffects, hde, performEffects_ok hall, Resolved.isFile] at he

/-- **C73.** A batch crashes only if the time allowed for the key exchange with a peer is too long to be measured (C69), and the download in which
this happened has written nothing. -/
theorem batch_text_crash (hcfg : Accepted env.cfg) (h : BatchGet sha1 env uenv behaves answers template file tr jobs s)
    (hs : s.exit = some .crash) :
    ∃ j ∈ jobs, j.effects = [] ∧ ∃ p links, behaves p links ∧ (links 0).connect = .ok ∧ (links 0).crypto = .overflow := by
  obtain ⟨hB, hT, hP⟩ := accepted_usable hcfg
  obtain ⟨m, hm⟩ := (batch_exit hB h.run).2.2 hs
  obtain ⟨j, hj, -, ho⟩ := (mem_downloads h).1 hm
  have ho : j.code = .crash := jobOutcome_inj ho
  obtain ⟨⟨gtr, gs, hg, hr⟩, he⟩ := h.job j hj
  rw [ho] at he
  obtain ⟨h1, h2⟩ := (get_writes (env := { env with now := j.now, fileOk := j.fileOk }) hT hP hg hr template).1 (by rw [he])
  rw [he] at h1
  exact ⟨j, hj, h1, h2⟩

/-- **C73.** When a batch has to be successful: the file lists links; for each of them there is a tracker in the link and an address that this
tracker will name and whose peer will deliver; files can be written; and the time allowed for key exchanges can be measured.  Whatever all other
trackers and peers do: if the batch comes to an end, it is successful. -/
theorem batch_text_finds (hcfg : Accepted env.cfg) (h : BatchGet sha1 env uenv behaves answers template file tr jobs s) {c : ExitCode}
    (hs : s.exit = some c) {content : Bytes} {ms : List Magnet} (hf : file = some content) (hl : ListsLinks uenv env.lossy content ms)
    (hgood : ∀ m ∈ ms, ∃ t ∈ m.trackers, ∃ addr, WillName env answers m t addr ∧ WillDeliver sha1 env behaves m.infoHash addr)
    (hok : ∀ j ∈ jobs, ∀ i, j.fileOk i = true) (hfit : ∀ p links, behaves p links → (links 0).crypto ≠ .overflow) : c = .success := by
  obtain ⟨hB, hT, hP⟩ := accepted_usable hcfg
  have hlinks := (batchLinks_iff uenv env.lossy file ms).2 ⟨content, hf, hl⟩
  cases c with
  | success => rfl
  | crash =>
    obtain ⟨-, -, -, p, links, hb, -, ho⟩ := batch_text_crash hcfg h hs
    exact absurd ho (hfit p links hb)
  | failure =>
    exfalso
    rcases batch_text_failure hcfg h hs with ⟨hno, -⟩ | ⟨content', ms', hf', hl', hperm, j, hj, -, hc, -⟩
    · exact hno content hf ms hl
    · have hms : ms' = ms := by
        have := (batchLinks_iff uenv env.lossy file ms').2 ⟨content', hf', hl'⟩
        rw [hlinks] at this
        exact (Option.some.inj this).symm
      subst hms
      obtain ⟨t, ht, addr, hn, hd⟩ := hgood j.link (hperm.mem_iff.1 (List.mem_map_of_mem hj))
      obtain ⟨⟨gtr, gs, hg, hr⟩, he⟩ := h.job j hj
      have hsucc := get_finds (env := { env with now := j.now, fileOk := j.fileOk }) hT hP hg hr
        (by intro hp; rw [hp, hc] at he; exact absurd (congrArg Prod.snd he) (by simp [getEffects, downloadEffects])) ht addr hn hd (hok j hj) template
      rw [he, hc] at hsucc
      cases hsucc

end

/-! ### Example -/

/-- Surroundings with a configuration that is accepted. -/
def exBatchEnv : GetEnv :=
  { exGetEnv with cfg := { exGetEnv.cfg with dht := ⟨exNodes, 2⟩ }, lossy := lossyUtf8 }

theorem exBatch_accepted : Accepted exBatchEnv.cfg :=
  ⟨exHosts, ⟨exNodes, 2⟩, [("general".toList, .table [("batch-jobs".toList, .int 1), ("encrypt".toList, .str "if-required".toList)]),
    ("trackers".toList, .table [("jobs-per-magnet".toList, .int 1)]), ("peers".toList, .table [("jobs-per-magnet".toList, .int 1)])],
    by decide +kernel, by decide +kernel⟩

def exBatchFile : Bytes := ascii "# one link\n\n magnet:?xt=urn:btih:0707070707070707070707070707070707070707&tr=udp://tracker.example:6969\n"

theorem exBatch_links : batchLinks nameEnv lossyUtf8 (some exBatchFile) = some [exTracked] := by decide +kernel

-- a file with a comment, a blank line and a link; the tracker of the link names a peer, which serves the metadata: the hypotheses of
-- `batch_text_finds` are met, and those of `batch_text_success` with them
theorem exBatch_run : ∃ answers tr jobs s, BatchGet (fun _ => List.replicate 20 7) exBatchEnv nameEnv (fun p links => p = exPeer ∧ links = fun _ => exLink)
    answers [.name] (some exBatchFile) tr jobs s ∧ jobs.length = 1 ∧ s.exit = some .success ∧
    (∃ t ∈ exTracked.trackers, ∃ addr, WillName exBatchEnv answers exTracked t addr ∧
      WillDeliver (fun _ => List.replicate 20 7) exBatchEnv (fun p links => p = exPeer ∧ links = fun _ => exLink) exTracked.infoHash addr) := by
  obtain ⟨atr, a, r1, r2, h1, -, -, -, -, h3, -⟩ := ask_answers_udp (lossy := lossyUtf8) (parseIp := fun _ => none)
    ⟨"tracker.example".toList, 6969, []⟩ (exBatchEnv.getter exTracked)
    ⟨some [.v4 ⟨⟨0x0A000001#32⟩, 6969⟩], fun _ => true, fun _ => true⟩ (.v4 ⟨⟨0x0A000001#32⟩, 6969⟩) _
    rfl rfl rfl 0 0 1 1 2 17 18 0 0 0 0xAB [0, 0, 0, 0, 0, 0, 0, 17, 0, 0, 0, 0, 0, 0, 0, 0xAB]
    [0, 0, 0, 1, 0, 0, 0, 18, 0, 0, 7, 8, 0, 0, 0, 1, 0, 0, 0, 1, 1, 2, 3, 4, 0, 5] 0x708 1 1
    [.v4 ⟨⟨0x01020304#32⟩, 5⟩] (by unfold IsConnectResponse At Field; decide +kernel)
    ⟨by unfold At Field; decide +kernel, by unfold At Field; decide +kernel, by unfold At Field; decide +kernel, by unfold At Field; decide +kernel,
      by unfold At Field; decide +kernel, ⟨[1, 2, 3, 4, 0, 5], [], rfl, by unfold IsCompact IsCompact4; decide +kernel, rfl⟩,
      by simp [SockAddr.isV6]⟩
  have key : ((resolveExec (fun p : Peer => p.address) [exTracker] exGetEvents
      (Resolve.start [exTracker] (.error (TaskError.dht .down)) 1 1 : Resolve Tracker Peer SockAddr SockAddr TorrentInfo TaskError)).isSome) = true := by
    rfl
  obtain ⟨⟨tr, s⟩, hx⟩ := Option.isSome_iff_exists.1 key
  have hrun : GetRun (fun _ => List.replicate 20 7) exBatchEnv (fun p links => p = exPeer ∧ links = fun _ => exLink) (fun _ x => x = atr)
      exTracked tr s := by
    refine ⟨⟨.error (.dht .down), .inl ⟨_, rfl⟩, by show ResolveRun _ [exTracker] _ 1 1 _ _; simpa using resolveExec_run exGetEvents .init hx, ?_⟩, ?_, ?_⟩ <;> cases hx
    · intro eo heo p r hp
      simp only [List.mem_cons, List.not_mem_nil, or_false] at heo
      rcases heo with rfl | rfl | rfl | rfl | rfl | rfl | rfl | rfl | rfl | rfl | rfl <;> simp [trackerPeers] at hp
      obtain ⟨rfl, rfl⟩ := hp
      exact ⟨fun _ => exLink, ⟨rfl, rfl⟩, by
        show taskOutcome (peerTask (fun _ => List.replicate 20 7) ⟨List.replicate 20 9, by decide⟩ .ifRequired exHash exPeer _) = _
        rw [exTask]; rfl⟩
    · intro eo heo t ps hp
      simp only [List.mem_cons, List.not_mem_nil, or_false] at heo
      rcases heo with rfl | rfl | rfl | rfl | rfl | rfl | rfl | rfl | rfl | rfl | rfl <;> simp [trackerPeers] at hp
      obtain ⟨rfl, rfl⟩ := hp
      refine ⟨0, atr, a, .ok [exPeer], h1, rfl, ?_, rfl, rfl⟩
      have hm : Except.ok [exPeer] ∈ askResults atr := by rw [h3]; exact List.mem_singleton.2 rfl
      simp only [askResults, List.mem_filterMap] at hm
      obtain ⟨x, hx, hx'⟩ := hm
      cases x <;> simp at hx'
      rw [← hx']; exact hx
    · intro eo heo t hp
      simp only [List.mem_cons, List.not_mem_nil, or_false] at heo
      rcases heo with rfl | rfl | rfl | rfl | rfl | rfl | rfl | rfl | rfl | rfl | rfl <;> simp [trackerPeers] at hp
  have hname : WillName exBatchEnv (fun _ x => x = atr) exTracked exTracker exPeer.address := by
    rintro atr' a' r' - rfl hm
    rw [h3] at hm
    exact ⟨_, List.mem_singleton.1 hm, exPeer, List.mem_singleton.2 rfl, rfl⟩
  have hdel : WillDeliver (fun _ => List.replicate 20 7) exBatchEnv (fun p links => p = exPeer ∧ links = fun _ => exLink) exTracked.infoHash
      exPeer.address := by
    refine fun p hp => ⟨fun h => (by cases h.1), ?_⟩
    rintro links ⟨rfl, rfl⟩
    exact ⟨ascii "de", rfl, ⟨[], by decide +kernel, by simp [Canonical, SortedKeys, CanonicalDict], by decide +kernel⟩, exDelivers⟩
  have hr : s.result = some (.file ⟨exHash, ascii "de"⟩ [exTracker] []) := by cases hx; rfl
  have hsucc := get_finds (t := exTracker) (by decide) (by decide) hrun hr (by simp) (List.mem_singleton.2 rfl) exPeer.address hname hdel
    (fun _ => rfl) [.name]
  have hlinks : batchLinks nameEnv exBatchEnv.lossy (some exBatchFile) = some [exTracked] := exBatch_links
  obtain ⟨b, hb, hbe⟩ : ∃ b : Batch Magnet, BatchRun (some [exTracked]) 1 [(.spawn, []), (.take 0, []), (.check 0, []), (.dropHandle, []),
      (.ends 0 (.value true), [(exTracked, .value true)]), (.workerExit 0, []), (.receive, []), (.receiveNone, [])] b ∧
      b.exit = some .success :=
    ⟨_, .step (.step (.step (.step (.step (.step (.step (.step .init rfl) rfl) rfl) rfl) rfl) rfl) rfl) rfl, rfl⟩
  refine ⟨fun _ x => x = atr, [(.spawn, []), (.take 0, []), (.check 0, []), (.dropHandle, []), (.ends 0 (.value true), [(exTracked, .value true)]),
      (.workerExit 0, []), (.receive, []), (.receiveNone, [])],
    [⟨exTracked, exBatchEnv.now, exBatchEnv.fileOk, .file ⟨exHash, ascii "de"⟩ [exTracker] [], (getEffects exBatchEnv [.name]
      (.file ⟨exHash, ascii "de"⟩ [exTracker] [])).1, .success⟩], b, ⟨?_, rfl, ?_⟩, rfl, hbe, exTracker, List.mem_singleton.2 rfl, _, hname, hdel⟩
  · rw [hlinks]
    exact hb
  · intro j hj
    obtain rfl := List.mem_singleton.1 hj
    exact ⟨⟨tr, s, hrun, hr⟩, by rw [← hsucc]⟩

end Demag.Props
