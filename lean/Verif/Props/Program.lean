import Verif.Spec.Program
import Verif.Props.CommandLine
import Verif.Props.BatchGet
import Verif.Props.App
import Verif.Props.Query
import Verif.Props.SecureLink

/-!
# C77: the program as a whole, from its arguments to the files
-/

namespace Demag.Props

open Demag Spec

/-- **C77.** The texts of the values on the command line are those of C01, C15, C57, C71 and C74. -/
theorem readers_spec (uenv : UrlEnv) (lossy : Bytes → Text) (t : Text) :
    (∀ m, (cliReaders uenv lossy).magnet t m ↔ IsMagnetLink uenv lossy t m) ∧
    (∀ u, (cliReaders uenv lossy).tracker t (.udp u) ↔ IsUdpText uenv.caret t u) ∧
    (∀ u, (cliReaders uenv lossy).tracker t (.http u) ↔ IsHttpText uenv t u) ∧
    (∀ h, (cliReaders uenv lossy).infoHash t h ↔ IsHexOf (utf8 t) h.bytes ∨ IsBase32Of (utf8 t) h.bytes) ∧
    (∀ ts, (∃ es, (cliReaders uenv lossy).template t es ∧ flat es = ts) ↔ Reads t ts) ∧
    (∀ p, (cliReaders uenv lossy).peer t p ↔ p.id = none ∧ p.requiresCrypto = false ∧ ∃ scope, IsSockText t p.address scope) :=
  ⟨fun m => magnet_iff uenv lossy t m, fun u => udp_tracker_iff uenv t u, fun u => http_tracker_iff uenv t u,
    fun h => infoHash_fromStr_spec (utf8 t) h, fun ts => template_accepts_iff t ts, fun p => peer_fromStr_iff t p⟩

theorem default_accepted {parseHost : Text → Option Host} {dht : DhtConfig} (h : DhtConfig.dflt parseHost = some dht) : Accepted (Config.dflt dht) :=
  ⟨parseHost, dht, [], h, rfl⟩

section
variable {W : World} {args : List Text} {d : Done}

/-- **C77.** The configuration used is the one that the arguments ask for. -/
theorem program_config {l : CommandLine} (h : CommandLine.parse W.uenv W.lossy args = some l) (cfg : Config) :
    W.config l = some cfg ↔ AsksConfig (cliReaders W.uenv W.lossy) W args cfg := by
  unfold World.config
  rw [config_choice]
  constructor
  · intro hc
    exact ⟨l, (command_line_iff _ _ _ _).1 h, hc⟩
  · rintro ⟨l', h', hc⟩
    have := (command_line_iff W.uenv W.lossy args l').2 h'
    rw [h] at this
    cases this
    exact hc

theorem config_accepted (hdht : DhtConfig.dflt W.parseHost = some W.dht) {l : CommandLine} {cfg : Config} (h : W.config l = some cfg) :
    Accepted cfg := by
  unfold World.config at h
  rw [config_choice] at h
  generalize (⟨l.config, l.noConfig⟩ : Arguments Text) = a at h
  cases h with
  | none => exact default_accepted hdht
  | named hc => obtain ⟨t, doc, -, -, hc⟩ := hc; exact ⟨_, _, doc, hdht, hc⟩
  | usual _ hc => obtain ⟨t, doc, -, -, hc⟩ := hc; exact ⟨_, _, doc, hdht, hc⟩
  | missing => exact default_accepted hdht

theorem get_written {cfg : Config} (ha : Accepted cfg) {template : List TemplateElement} {m : Magnet}
    {tr : List (ResolveEvent Peer TaskError TorrentInfo × List (ResolveOutput Tracker Peer SockAddr TorrentInfo TaskError))}
    {s : Resolve Tracker Peer SockAddr SockAddr TorrentInfo TaskError} {r : Resolved Tracker SockAddr TorrentInfo TaskError}
    {now : Except Nat Nat} {fileOk : Nat → Bool}
    (h : GetRun W.sha1 { W.getEnv cfg with now := now, fileOk := fileOk } W.behaves W.answers m tr s) (hr : s.result = some r) :
    ((getEffects { W.getEnv cfg with now := now, fileOk := fileOk } template r).2 = .success →
      ∃ out bytes, writesOf (getEffects { W.getEnv cfg with now := now, fileOk := fileOk } template r).1 = [(out, bytes)] ∧
        TorrentFor W.sha1 W.lossy ipText template m out bytes) ∧
    ((getEffects { W.getEnv cfg with now := now, fileOk := fileOk } template r).2 ≠ .success →
      writesOf (getEffects { W.getEnv cfg with now := now, fileOk := fileOk } template r).1 = []) := by
  obtain ⟨-, hT, hP⟩ := accepted_usable (env := W.getEnv cfg) ha
  obtain ⟨h1, h2, h3⟩ := get_writes (env := { W.getEnv cfg with now := now, fileOk := fileOk }) hT hP h hr template
  constructor
  · intro hs
    obtain ⟨info, nodes, hw, hcan, hsha, hn, -⟩ := h3 hs
    exact ⟨_, _, hw, info, nodes, _, rfl, rfl, hcan, hsha, hn⟩
  · intro hs
    cases hc : (getEffects { W.getEnv cfg with now := now, fileOk := fileOk } template r).2 with
    | success => exact absurd hc hs
    | failure => exact h2 hc
    | crash => rw [(h1 hc).1]; rfl

theorem writesOf_flatMap (jobs : List BatchJob) : writesOf (jobs.flatMap BatchJob.effects) = jobs.flatMap fun j => writesOf j.effects := by
  have happ : ∀ a b : List SaveEffect, writesOf (a ++ b) = writesOf a ++ writesOf b := by
    intro a b
    induction a with
    | nil => rfl
    | cons e a ih => cases e <;> simp [writesOf, ih]
  induction jobs with
  | nil => rfl
  | cons j jobs ih => rw [List.flatMap_cons, List.flatMap_cons, happ, ih]

theorem batch_links {sha1 : Bytes → Bytes} {env : GetEnv} {uenv : UrlEnv} {behaves : Peer → (Nat → Link) → Prop}
    {answers : Tracker → AskTrace → Prop} {template : List TemplateElement} {file : Option Bytes}
    {tr : List (BatchEvent × List (Magnet × Outcome Bool))} {jobs : List BatchJob} {s : Batch Magnet} (ha : Accepted env.cfg)
    (h : BatchGet sha1 env uenv behaves answers template file tr jobs s) {j : BatchJob} (hj : j ∈ jobs) :
    ∃ content ms, file = some content ∧ ListsLinks uenv env.lossy content ms ∧ j.link ∈ ms := by
  obtain ⟨hB, -, -⟩ := accepted_usable ha
  have hd : (j.link, jobOutcome j.code) ∈ downloads tr := (mem_downloads h).2 ⟨j, hj, rfl, rfl⟩
  have hrun := h.run
  cases e : batchLinks uenv env.lossy file with
  | none =>
    rw [e] at hrun
    obtain ⟨rfl, -⟩ := batch_exited (c := .failure) rfl hrun
    simp [downloads] at hd
  | some ms =>
    obtain ⟨content, hf, hl⟩ := (batchLinks_iff _ _ _ _).1 e
    refine ⟨content, ms, hf, hl, ?_⟩
    rw [e] at hrun
    by_cases hne : ms = []
    · subst hne
      obtain ⟨rfl, -⟩ := batch_exited (c := .success) rfl hrun
      simp [downloads] at hd
    · obtain ⟨acc, d, ⟨ntr, L, -, -, -, -, h1, -, h2, h3, -⟩, h4, -⟩ := batch_inv hB hne hrun
      rw [h2] at hd
      obtain ⟨x, hx, hxe⟩ := List.mem_map.1 hd
      have := List.mem_map_of_mem (f := Prod.snd) (h3 x hx)
      rw [h1, hxe] at this
      rw [← h4]
      exact List.mem_append_left _ this

/-- **C77.** Whatever the arguments, the configuration, the trackers, the DHT and the peers: the program writes nothing but torrent files that the
arguments ask for, with the info hash and the trackers asked for, at the place asked for. -/
theorem program_writes (hdht : DhtConfig.dflt W.parseHost = some W.dht) (h : ProgramRun W args d) (out : Output) (bytes : Bytes)
    (hw : (out, bytes) ∈ writesOf d.effects) :
    ∃ t m, AsksFor (cliReaders W.uenv W.lossy) W args t m ∧ TorrentFor W.sha1 W.lossy ipText t m out bytes := by
  cases h with
  | refused => cases hw
  | unconfigured => cases hw
  | @ran l cfg _ hp hc hr =>
    have ha := config_accepted hdht hc
    have hm := (command_line_iff _ _ _ _).1 hp
    generalize hcmd : l.command = c at hr
    cases hr with
    | @get template m tr s r hg hres =>
      obtain ⟨h1, h2⟩ := get_written (template := template) (now := W.now) (fileOk := W.fileOk) ha hg hres
      by_cases hs : (getEffects (W.getEnv cfg) template r).2 = .success
      · obtain ⟨o, b, e, ht⟩ := h1 hs
        have hw' : (out, bytes) ∈ writesOf (getEffects { W.getEnv cfg with now := W.now, fileOk := W.fileOk } template r).1 := hw
        rw [e] at hw'
        cases List.mem_singleton.1 hw'
        exact ⟨_, _, .get hm hcmd, ht⟩
      · have := h2 hs
        have hw' : (out, bytes) ∈ writesOf (getEffects { W.getEnv cfg with now := W.now, fileOk := W.fileOk } template r).1 := hw
        rw [this] at hw'
        cases hw'
    | @batch template file tr jobs s code hb hex =>
      simp only [writesOf_flatMap, List.mem_flatMap] at hw
      obtain ⟨j, hj, hw⟩ := hw
      obtain ⟨content, ms, hf, hl, hjm⟩ := batch_links (env := W.getEnv cfg) ha hb hj
      obtain ⟨⟨gtr, gs, hg, hres⟩, he⟩ := hb.job j hj
      obtain ⟨h1, h2⟩ := get_written (template := template) ha hg hres
      rw [he] at h1 h2
      by_cases hs : j.code = .success
      · obtain ⟨o, b, e, ht⟩ := h1 hs
        rw [e] at hw
        cases List.mem_singleton.1 hw
        exact ⟨_, _, .batch hm hcmd hf hl hjm, ht⟩
      · rw [h2 hs] at hw
        cases hw
    | queryTracker => cases hw
    | dhtError => cases hw
    | queryDht => cases hw
    | queryPeer hq =>
      obtain ⟨h1, h2, h3⟩ := query_peer_writes hq
      rename_i enc no pre template peer ih effects code
      cases code with
      | crash => rw [(h1 rfl).1] at hw; cases hw
      | failure => simp only [h2 rfl] at hw; cases hw
      | success =>
        obtain ⟨info, hcan, hsha, e⟩ := h3 rfl
        simp only [e] at hw
        cases List.mem_singleton.1 hw
        exact ⟨_, _, .peer hm hcmd, info, [], _, rfl, rfl, hcan, hsha, fun _ => rfl⟩

/-- **C77.** If the program ends successfully, then for everything the arguments ask for a torrent file was written, or (asked for peers) the peers
were printed. -/
theorem program_success (hdht : DhtConfig.dflt W.parseHost = some W.dht) (h : ProgramRun W args d) (hs : d.code = some .success) :
    (∀ t m, AsksFor (cliReaders W.uenv W.lossy) W args t m →
      ∃ out bytes, (out, bytes) ∈ writesOf d.effects ∧ TorrentFor W.sha1 W.lossy ipText t m out bytes) ∧
    (∀ j, AsksPeers (cliReaders W.uenv W.lossy) args j →
      ∃ ps, PeersFor (cliReaders W.uenv W.lossy) W args j ps ∧ d.printed = (printPeers j W.out ps).1) := by
  cases h with
  | refused => cases hs
  | unconfigured => cases hs
  | @ran l cfg _ hp hc hr =>
    have ha := config_accepted hdht hc
    have huniq : ∀ l', CommandLineMeans (cliReaders W.uenv W.lossy) args l' → l' = l := by
      intro l' h'
      have := (command_line_iff _ _ _ _).2 h'
      rw [hp] at this
      cases this
      rfl
    constructor
    · intro t m hask
      cases hask with
      | get hm hcmd =>
        cases huniq _ hm
        rw [hcmd] at hr
        cases hr with
        | get hg hres =>
          rename_i tr s r
          obtain ⟨h1, -⟩ := get_written (template := t) (now := W.now) (fileOk := W.fileOk) ha hg hres
          obtain ⟨o, b, e, ht⟩ := h1 (Option.some.inj hs)
          exact ⟨o, b, by show (o, b) ∈ writesOf (getEffects { W.getEnv cfg with now := W.now, fileOk := W.fileOk } t r).1; rw [e]; simp, ht⟩
      | batch hm hcmd hf hl hmem =>
        cases huniq _ hm
        rw [hcmd] at hr
        cases hr with
        | batch hb hex =>
          cases Option.some.inj hs
          obtain ⟨content', ms', hf', hl', hperm, hall⟩ := batch_text_success (env := W.getEnv cfg) ha hb hex
          rename_i f content ms tr jobs s
          have e1 : some ms = some ms' := by
            rw [← (batchLinks_iff W.uenv W.lossy (W.inputs f) ms).2 ⟨content, hf, hl⟩,
              ← (batchLinks_iff W.uenv W.lossy (W.inputs f) ms').2 ⟨content', hf', hl'⟩]
          cases e1
          obtain ⟨j, hj, rfl⟩ := List.mem_map.1 (hperm.mem_iff.2 hmem)
          obtain ⟨o, b, e, ht⟩ := hall j hj
          refine ⟨o, b, ?_, ht⟩
          simp only [writesOf_flatMap, List.mem_flatMap]
          exact ⟨j, hj, by rw [e]; simp⟩
      | peer hm hcmd =>
        cases huniq _ hm
        rw [hcmd] at hr
        cases hr with
        | queryPeer hq =>
          cases Option.some.inj hs
          obtain ⟨info, hcan, hsha, e⟩ := (query_peer_writes hq).2.2 rfl
          exact ⟨_, _, by simp only [e]; exact List.mem_singleton.2 rfl, info, [], _, rfl, rfl, hcan, hsha, fun _ => rfl⟩
    · rintro j ⟨l', hm, hcmd⟩
      have hcfg := (program_config hp cfg).1 hc
      cases huniq _ hm
      rcases hcmd with ⟨n, r, s, t, ih, hcmd⟩ | ⟨ih, hcmd⟩
      · rw [hcmd] at hr
        cases hr with
        | @queryTracker _ _ _ _ _ _ tr a res ht hres =>
          cases res with
          | ok ps =>
            refine ⟨ps, .tracker hm hcmd hcfg (tr := tr) (a := a) ?_ ?_, rfl⟩
            · have e : (if r then some TrackerCrypto.required else if s then some .supported else if n then some .plain else none) =
                  trackerCryptoFlags r s n := by cases r <;> cases s <;> cases n <;> rfl
              rw [e]; exact ht
            · simp only [askResults, List.mem_filterMap]
              exact ⟨_, hres, rfl⟩
          | error e => cases Option.some.inj hs
      · rw [hcmd] at hr
        cases hr with
        | dhtError => cases Option.some.inj hs
        | @queryDht _ _ _ _ _ _ _ _ _ found hd hq hans =>
          simp only [queryDht] at hs ⊢
          split
          · rename_i he; rw [if_pos he] at hs; cases hs
          · rename_i he
            exact ⟨found.peers, .dht hm hcmd hcfg hd hq hans (by simpa using he), rfl⟩

/-- **C77.** When `get` has to be successful: one of the link's trackers will name an address whose peer will deliver; files can be written; and the
time allowed for key exchanges can be measured.  Whatever all other trackers and peers do: if the program comes to an end, it is successful. -/
theorem program_get_finds (hdht : DhtConfig.dflt W.parseHost = some W.dht) (h : ProgramRun W args d) {l : CommandLine} {template : List TemplateElement}
    {m : Magnet} (hm : CommandLineMeans (cliReaders W.uenv W.lossy) args l) (hcmd : l.command = .get template m) {cfg : Config}
    (hcfg : AsksConfig (cliReaders W.uenv W.lossy) W args cfg) {t : Tracker} (ht : t ∈ m.trackers) {addr : SockAddr}
    (hname : WillName (W.getEnv cfg) W.answers m t addr) (hdel : WillDeliver W.sha1 (W.getEnv cfg) W.behaves m.infoHash addr)
    (hok : ∀ i, W.fileOk i = true) (hfit : ∀ p links, W.behaves p links → (links 0).crypto ≠ .overflow) : d.code = some .success := by
  have hp := (command_line_iff _ _ _ _).2 hm
  have hc := (program_config hp cfg).2 hcfg
  cases h with
  | refused h => rw [hp] at h; cases h
  | unconfigured h h' => rw [hp] at h; cases h; rw [hc] at h'; cases h'
  | ran h h' hr =>
    rw [hp] at h; cases h
    rw [hc] at h'; cases h'
    rw [hcmd] at hr
    obtain ⟨-, hT, hP⟩ := accepted_usable (env := W.getEnv cfg) (config_accepted hdht hc)
    cases hr with
    | @get _ _ tr s r hg hres =>
      have hn : r ≠ .panicked := by
        rintro rfl
        obtain ⟨-, p, links, h1, -, h2⟩ := (get_writes hT hP hg hres template).1 rfl
        exact hfit p links h1 h2
      exact congrArg some (get_finds hT hP hg hres hn ht addr hname hdel hok template)

/-- **C77.** If the arguments are refused or there is no configuration as asked for, nothing is printed or written, and the program does not
succeed; the commands that fetch torrents print nothing, and those that ask for peers write nothing. -/
theorem program_quiet (h : ProgramRun W args d) :
    ((∀ l, ¬ CommandLineMeans (cliReaders W.uenv W.lossy) args l) → d = ⟨[], [], none⟩) ∧
    (∀ l, CommandLineMeans (cliReaders W.uenv W.lossy) args l → (∀ cfg, ¬ AsksConfig (cliReaders W.uenv W.lossy) W args cfg) →
      d = ⟨[], [], some .failure⟩) ∧
    (∀ t m, AsksFor (cliReaders W.uenv W.lossy) W args t m → d.printed = []) ∧
    (∀ j, AsksPeers (cliReaders W.uenv W.lossy) args j → d.effects = []) := by
  cases h with
  | refused hp =>
    have hno : ∀ l, ¬ CommandLineMeans (cliReaders W.uenv W.lossy) args l := by
      intro l hm
      rw [(command_line_iff _ _ _ _).2 hm] at hp
      cases hp
    exact ⟨fun _ => rfl, fun l hm => absurd hm (hno l), fun _ _ _ => rfl, fun _ _ => rfl⟩
  | unconfigured hp hc =>
    have hm := (command_line_iff _ _ _ _).1 hp
    exact ⟨fun hno => absurd hm (hno _), fun _ _ _ => rfl, fun _ _ _ => rfl, fun _ _ => rfl⟩
  | @ran l cfg _ hp hc hr =>
    have hm := (command_line_iff _ _ _ _).1 hp
    have huniq : ∀ l', CommandLineMeans (cliReaders W.uenv W.lossy) args l' → l' = l := by
      intro l' h'
      have := (command_line_iff _ _ _ _).2 h'
      rw [hp] at this
      cases this
      rfl
    refine ⟨fun hno => absurd hm (hno _), fun _ _ hno => absurd ((program_config hp cfg).1 hc) (hno cfg), ?_, ?_⟩
    · intro t m hask
      cases hask with
      | get hm hcmd => cases huniq _ hm; rw [hcmd] at hr; cases hr; rfl
      | batch hm hcmd => cases huniq _ hm; rw [hcmd] at hr; cases hr; rfl
      | peer hm hcmd => cases huniq _ hm; rw [hcmd] at hr; cases hr; rfl
    · rintro j ⟨l', hm, hcmd⟩
      cases huniq _ hm
      rcases hcmd with ⟨n, r, s, t, ih, hcmd⟩ | ⟨ih, hcmd⟩ <;> rw [hcmd] at hr <;> cases hr <;> rfl

end

/-! ### Example -/

def batchPart : Command → Option (List TemplateElement × InputArg)
  | .batch t f => some (t, f)
  | _ => none

theorem batchPart_eq {c : Command} {t : List TemplateElement} {f : InputArg} (h : batchPart c = some (t, f)) : c = .batch t f := by
  cases c <;> simp [batchPart] at h
  rw [h.1, h.2]

def exToml (t : Text) : Option (List (Text × Toml)) :=
  if t = ['x'] then some [("general".toList, .table [("batch-jobs".toList, .int 1), ("encrypt".toList, .str "if-required".toList)]),
    ("trackers".toList, .table [("jobs-per-magnet".toList, .int 1)]), ("peers".toList, .table [("jobs-per-magnet".toList, .int 1)])] else none

/-- Surroundings of the program, for the example: a configuration file, a file with a magnet link. -/
def exWorld (answers : Tracker → AskTrace → Prop) : World where
  sha1 := fun _ => List.replicate 20 7
  H := fun _ => List.replicate 20 7
  uenv := nameEnv
  lossy := lossyUtf8
  parseIp := fun _ => none
  parent := fun _ => none
  parseToml := exToml
  parseHost := exHosts
  dht := ⟨exNodes, 2⟩
  defaultPath := none
  configs := fun p => if p = "my.toml".toList then .text ['x'] else .notFound
  inputs := fun f => if f = .stdin then some exBatchFile else none
  out := fun _ => none
  fileOk := fun _ => true
  now := .ok 0
  localId := ⟨List.replicate 20 9, by decide⟩
  key := 5
  port := 6881
  behaves := fun p links => p = exPeer ∧ links = fun _ => exLink
  answers := answers
  chances := fun _ => exChances
  raws := fun _ => exRaw

/-- `demagnetize -cmy.toml batch -o {name} -` ends successfully, and has written a file. -/
theorem exProgram_run : ∃ answers d, ProgramRun (exWorld answers) (["-cmy.toml", "batch", "-o", "{name}", "-"].map String.toList) d ∧ d.code = some .success ∧
    writesOf d.effects ≠ [] := by
  obtain ⟨answers, tr, jobs, s, hb, hlen, hs, -⟩ := exBatch_run
  have hp : ∃ l, CommandLine.parse nameEnv lossyUtf8 (["-cmy.toml", "batch", "-o", "{name}", "-"].map String.toList) = some l ∧
      l.config = some "my.toml".toList ∧ l.noConfig = false ∧ l.command = .batch [.name] .stdin := by
    have key : (CommandLine.parse nameEnv lossyUtf8 (["-cmy.toml", "batch", "-o", "{name}", "-"].map String.toList)).map
        (fun l => (l.config, l.noConfig, batchPart l.command)) = some (some "my.toml".toList, false, some ([.name], .stdin)) := by decide +kernel
    obtain ⟨l, hl, e⟩ := Option.map_eq_some_iff.1 key
    simp only [Prod.mk.injEq] at e
    exact ⟨l, hl, e.1, e.2.1, batchPart_eq e.2.2⟩
  obtain ⟨l, hp, h1, h2, h3⟩ := hp
  have hc : (exWorld answers).config l = some exBatchEnv.cfg := by
    unfold World.config
    rw [h1, h2]
    show Arguments.chooseConfig (Config.load exToml exHosts ⟨exNodes, 2⟩) (Config.dflt ⟨exNodes, 2⟩) none
      (fun p => if p = "my.toml".toList then .text ['x'] else .notFound) _ = _
    decide +kernel
  have hrun : CommandRun (exWorld answers) exBatchEnv.cfg l.command ⟨[], jobs.flatMap BatchJob.effects, some .success⟩ := by
    rw [h3]
    exact .batch hb hs
  refine ⟨answers, _, .ran hp hc hrun, rfl, ?_⟩
  obtain ⟨-, -, -, -, -, hall⟩ := batch_text_success exBatch_accepted hb hs
  match jobs, hlen with
  | j :: _, _ =>
    obtain ⟨o, b, e, -⟩ := hall j (by simp)
    intro hnil
    have hm : (o, b) ∈ (j :: ‹List BatchJob›).flatMap fun j => writesOf j.effects := List.mem_flatMap.2 ⟨j, by simp, by rw [e]; simp⟩
    rw [← writesOf_flatMap, hnil] at hm
    cases hm

end Demag.Props
