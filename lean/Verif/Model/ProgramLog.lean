import Verif.Model.Program
import Verif.Model.LogText

/-!
# What the program tells in its log: the model of the `log::…!` statements of `/repo/src/main.rs`, `/repo/src/magnet.rs` and
`/repo/src/torrent.rs` in the order in which they are reached, and of `init_logging`

The messages of the tasks that run beside (trackers, peers, the DHT node) have levels and texts here, but their places among the others are not
modelled.
-/

namespace Demag

/-- `log::Level` (crate `log`, external). -/
inductive Level where
  | error | warn | info | debug | trace
  deriving DecidableEq

/-- `Level as usize` (crate `log`, external). -/
def Level.rank : Level → Nat
  | .error => 1
  | .warn => 2
  | .info => 3
  | .debug => 4
  | .trace => 5

/-- `LevelFilter as usize` (crate `log`, external). -/
def LevelFilter.rank : LevelFilter → Nat
  | .off => 0
  | .error => 1
  | .warn => 2
  | .info => 3
  | .debug => 4
  | .trace => 5

/-- Crate `fern` (external): the target of a message belongs to the module `m` or to one inside it. -/
def inModule (m target : Text) : Bool := target == m || (m ++ "::".toList).isPrefixOf target

/-- src/main.rs:406-407 `.level(LevelFilter::Info).level_for("demagnetize", log_level)`: whether a message is written.  Messages of this program
have the target `demagnetize` or one inside it. -/
def logShown (f : LevelFilter) (target : Text) (l : Level) : Bool :=
  decide (l.rank ≤ (if inModule "demagnetize".toList target then f else .info).rank)

/-- The levels of the messages: which macro is called at the places named at `LogLine` (src/magnet.rs:36, 56, 94; src/main.rs:228-371;
src/tracker/mod.rs:61-217; src/tracker/udp.rs:135-244; src/peer/mod.rs:190-425; src/peer/msepe.rs:174-454; src/dht/actor.rs:207-554). -/
def LogLine.level : LogLine → Level
  | .badMagnets _ | .getFailed _ | .batchFailed _ _ | .queryFailed _ | .fetchFailed _ _ => .error
  | .trackerFailed _ _ _ | .peerFailed _ _ _ _ | .stopFailed _ _ _ | .encryptionFailed _ _ | .querySendFailed _ | .nodeError _ _ _
  | .nodeInvalid _ _ _ => .warn
  | .fetching _ | .requestingPeers _ _ | .returnedCount _ _ _ | .requestingInfo _ _ | .gotMetadata _ _ | .dhtFound _ _ => .info
  | .returned _ _ _ | .nodeReplied _ _ _ _ | .nodeTimeout _ _ | .nodeQuery _ _ _ => .debug
  | .peerStep n _ => if n.val % 2 = 0 then .debug else .trace
  | .stopCancelled _ _ | .announcing _ _ _ | .warned _ _ _ | .udpStep _ _ | .udpConnected _ _ | .selected _ _ | .sendingPacket _ _
  | .gotHandshake _ _ | .sending _ _ | .received _ _ | .rejecting _ _ | .dhtIgnored _ _ => .trace

/-- The targets of the messages: `module_path!()` of the places named at `LogLine` (src/main.rs:4-14 and the `mod` declarations in
src/tracker/mod.rs:1-3, src/peer/mod.rs:1-4, src/dht/mod.rs:1-5; the crate is `demagnetize`, Cargo.toml:2). -/
def LogLine.target : LogLine → Text
  | .badMagnets _ | .getFailed _ | .batchFailed _ _ | .queryFailed _ | .fetchFailed _ _ => "demagnetize".toList
  | .fetching _ | .trackerFailed _ _ _ | .peerFailed _ _ _ _ => "demagnetize::magnet".toList
  | .requestingPeers _ _ | .returnedCount _ _ _ | .returned _ _ _ | .stopCancelled _ _ | .stopFailed _ _ _ | .announcing _ _ _
  | .warned _ _ _ => "demagnetize::tracker".toList
  | .udpStep _ _ | .udpConnected _ _ => "demagnetize::tracker::udp".toList
  | .requestingInfo _ _ | .encryptionFailed _ _ | .gotHandshake _ _ | .sending _ _ | .received _ _ | .rejecting _ _
  | .gotMetadata _ _ => "demagnetize::peer".toList
  | .peerStep n _ => if n.val < 4 then "demagnetize::peer".toList else "demagnetize::peer::msepe".toList
  | .selected _ _ | .sendingPacket _ _ => "demagnetize::peer::msepe".toList
  | .querySendFailed _ | .dhtIgnored _ _ | .nodeReplied _ _ _ _ | .nodeError _ _ _ | .nodeInvalid _ _ _ | .nodeTimeout _ _
  | .nodeQuery _ _ _ | .dhtFound _ _ => "demagnetize::dht::actor".toList

/-- All messages of src/main.rs, src/magnet.rs and src/torrent.rs. -/
inductive MainLine where
  /-- those of `LogLine` -/
  | about (l : LogLine)
  /-- src/torrent.rs:157-168 -/
  | saving (m : Magnet) (out : Output)
  /-- src/main.rs:72-74 -/
  | noHome
  /-- src/main.rs:77-80 -/
  | readingConfig (path : Text)
  /-- src/main.rs:86-88 -/
  | noConfigFile
  /-- src/main.rs:92-96 -/
  | badConfig (path : Text) (e : ConfigError)
  /-- src/main.rs:102 -/
  | localPeer (id : PeerId) (key : BitVec 32) (port : BitVec 16)
  /-- src/main.rs:243 -/
  | noMagnets
  /-- src/main.rs:274-276 -/
  | converted (success total : Nat)
  /-- src/main.rs:322 -/
  | noDhtPeers
  /-- src/main.rs:336 -/
  | dhtFailed (e : DhtFailure)
  /-- src/main.rs:364 -/
  | writeFailed

/-- The levels of these messages: which macro is called at the places named at `MainLine` (src/main.rs:72-364, src/torrent.rs:158, 163). -/
def MainLine.level : MainLine → Level
  | .about l => l.level
  | .saving _ _ => .info
  | .noHome => .error
  | .readingConfig _ => .debug
  | .noConfigFile => .debug
  | .badConfig _ _ => .error
  | .localPeer _ _ _ => .debug
  | .noMagnets => .info
  | .converted _ _ => .info
  | .noDhtPeers => .error
  | .dhtFailed _ => .error
  | .writeFailed => .error

/-- The targets of these messages (src/main.rs:72-364, src/torrent.rs:158, 163). -/
def MainLine.target : MainLine → Text
  | .about l => l.target
  | .saving _ _ => "demagnetize::torrent".toList
  | _ => "demagnetize".toList

/-- src/config.rs:300-306 `ConfigError`; `toml` is the error of the crate `toml`. -/
def ConfigError.err (env : LogEnv) (toml : Err) : ConfigError → Err
  | .notFound => .caused "error reading configuration file".toList env.io
  | .read => .caused "error reading configuration file".toList env.io
  | .parse => .caused "error parsing configuration file".toList toml

/-- src/app.rs:91-97 `DhtError`, src/dht/actor.rs:351-361. -/
def DhtFailure.err (env : LogEnv) : DhtFailure → Err
  | .create => .caused "failed to create DHT node actor".toList (.caused "failed to create UDP socket over IPv4".toList env.io)
  | .down => .leaf "DHT actor is down".toList

/-- The texts of these messages: src/main.rs:72-364, src/app.rs:80-88 `Display for LocalPeer`, src/torrent.rs:157-168. -/
def MainLine.text (env : LogEnv) (toml : Err) : MainLine → Text
  | .about l => l.text env
  | .saving m out => savingText env.plain m out
  | .noHome => "Failed to locate configuration file: could not determine user's home directory".toList
  | .readingConfig p => "Reading program configuration from ".toList ++ p ++ " ...".toList
  | .noConfigFile => "Default configuration file does not exist; using default settings".toList
  | .badConfig p e => "Failed to get program configuration from file ".toList ++ p ++ ": ".toList ++ errorChain (e.err env toml)
  | .localPeer id key port => "Using local peer details: id = ".toList ++ id.text ++ ", key = ".toList ++ decimal key.toNat ++
      ", port = ".toList ++ decimal port.toNat
  | .noMagnets => "No magnet links supplied".toList
  | .converted s t => decimal s ++ "/".toList ++ decimal t ++ " magnet links successfully converted to torrent files".toList
  | .noDhtPeers => "No peers found on DHT".toList
  | .dhtFailed e => "Failed to get peers from DHT: ".toList ++ errorChain (e.err env)
  | .writeFailed => "Failed to write to file: ".toList ++ errorChain env.io

/-! ### Records -/

/-- `Display for Level` (crate `log`, external) with `{:<5}`. -/
def Level.padded : Level → Text
  | .error => "ERROR".toList
  | .warn => "WARN ".toList
  | .info => "INFO ".toList
  | .debug => "DEBUG".toList
  | .trace => "TRACE".toList

/-- `Style::render` (crate `anstyle`, external) of the styles in src/main.rs:390-396. -/
def Level.style : Level → Text
  | .error => Char.ofNat 27 :: "[31m".toList
  | .warn => Char.ofNat 27 :: "[33m".toList
  | .info => Char.ofNat 27 :: "[1m".toList
  | .debug => Char.ofNat 27 :: "[36m".toList
  | .trace => Char.ofNat 27 :: "[32m".toList

/-- Two decimal digits. -/
def twoDigits (n : Nat) : Text := [Char.ofNat (48 + n / 10), Char.ofNat (48 + n % 10)]

/-- A time of the day: the format `%H:%M:%S` of the crate `chrono` (external). -/
structure Clock where
  hour : Fin 24
  minute : Fin 60
  second : Fin 61
  deriving DecidableEq

/-- src/main.rs:400. -/
def Clock.text (c : Clock) : Text := twoDigits c.hour ++ ':' :: (twoDigits c.minute ++ ':' :: twoDigits c.second)

/-- src/main.rs:388-405: a record with the line feed that `fern` (external) adds.  `colour`: the standard error is a terminal that takes colours;
otherwise `AutoStream` (crate `anstream`, external) leaves them out.  Simplified: it would also leave out commands to the terminal that are in the
message. -/
def recordText (colour : Bool) (c : Clock) (l : Level) (message : Text) : Text :=
  (if colour then l.style else []) ++ c.text ++ " [".toList ++ l.padded ++ "] ".toList ++ message ++
    (if colour then Char.ofNat 27 :: "[0m".toList else []) ++ ['\n']

/-! ### The order of the messages -/

/-- src/main.rs:64-100: while the configuration is chosen. -/
def configLog {P : Type} (name : P → Text) (load : FileText → Except ConfigError Config) (defaultPath : Option P) (fs : P → FileText)
    (args : Arguments P) : List MainLine :=
  if args.noConfig then []
  else
    match (match args.config with
      | some p => some (p, false)
      | none =>
        match defaultPath with
        | some p => some (p, true)
        | none => none) with
    | none => [.noHome]
    | some (cfgpath, defpath) =>
      .readingConfig (name cfgpath) ::
        match load (fs cfgpath) with
        | .ok _ => []
        | .error e => if e = .notFound ∧ defpath = true then [.noConfigFile] else [.badConfig (name cfgpath) e]

/-- src/magnet.rs:56-59: the answer of a tracker task that ended with the error `e`. -/
def trackerWarning (m : Magnet) (e : GetterError AskError) : ResolveOutput Tracker Peer SockAddr TorrentInfo TaskError → Option LogLine
  | .answer t _ => some (.trackerFailed t m e)
  | _ => none

/-- src/magnet.rs:94-99: the main loop got to know about a peer.  `mse` tells how the encryption failed, if it was that. -/
def peerWarning (m : Magnet) (mse : Peer → MseError) : ResolveOutput Tracker Peer SockAddr TorrentInfo TaskError → Option LogLine
  | .tried p (.error (.peer e)) => some (.peerFailed m p e (mse p))
  | _ => none

/-- src/magnet.rs:54-102: the messages at an event. -/
def eventWarnings (m : Magnet) (mse : Peer → MseError)
    (eo : ResolveEvent Peer TaskError TorrentInfo × List (ResolveOutput Tracker Peer SockAddr TorrentInfo TaskError)) : List LogLine :=
  (match eo.1 with
    | .trackerEnds _ (.value (.error (.tracker e))) => eo.2.filterMap (trackerWarning m e)
    | _ => []) ++ eo.2.filterMap (peerWarning m mse)

/-- src/magnet.rs:32-103 `get_torrent_file`. -/
def getLog (m : Magnet) (mse : Peer → MseError)
    (tr : List (ResolveEvent Peer TaskError TorrentInfo × List (ResolveOutput Tracker Peer SockAddr TorrentInfo TaskError))) : List LogLine :=
  .fetching m :: tr.flatMap (eventWarnings m mse)

/-- src/torrent.rs:154-168: the beginning of `save`. -/
def saveLog (lossy : Bytes → Text) (m : Magnet) (template : List TemplateElement) (info : TorrentInfo) : List MainLine :=
  match info.name lossy with
  | none => []
  | some name => [.saving m (Output.fromArg (PathTemplate.format template (sanitize (name.getD "NONAME".toList)) info.infoHash))]

/-- src/magnet.rs:105-113 `download_torrent_file`: the error, if it gives one.  (An error of a tracker or a peer is not the one of the DHT.) -/
def getFailure (env : GetEnv) (template : List TemplateElement) : Resolved Tracker SockAddr TorrentInfo TaskError → Option DownloadFailure
  | .file info ts ns =>
    match downloadEffects env.lossy ipText env.parent env.now template (.file info ts ns) with
    | none => none
    | some effects => if (performEffects env.fileOk 0 effects).2 then none else some .save
  | .dht (.dht .create) => some .dhtCreate
  | .dht (.dht .down) => some .dhtDown
  | .dht _ => none
  | .nothing => some .nothingFromPeers
  | .panicked => none

/-- src/magnet.rs:105-113: `save` is called for a torrent file. -/
def resultLog (env : GetEnv) (m : Magnet) (template : List TemplateElement) : Resolved Tracker SockAddr TorrentInfo TaskError → List MainLine
  | .file info _ _ => saveLog env.lossy m template info
  | _ => []

/-- src/main.rs:223-233, 253-266: a download with the message about its failure. -/
def downloadLog (env : GetEnv) (template : List TemplateElement) (m : Magnet) (mse : Peer → MseError) (failed : DownloadFailure → LogLine)
    (tr : List (ResolveEvent Peer TaskError TorrentInfo × List (ResolveOutput Tracker Peer SockAddr TorrentInfo TaskError)))
    (r : Resolved Tracker SockAddr TorrentInfo TaskError) : List MainLine :=
  (getLog m mse tr).map .about ++ resultLog env m template r ++ (getFailure env template r).toList.map fun f => .about (failed f)

/-- src/main.rs:253-266: the messages of a job of the batch. -/
def BatchJob.Logs (sha1 : Bytes → Bytes) (env : GetEnv) (behaves : Peer → (Nat → Link) → Prop) (answers : Tracker → AskTrace → Prop)
    (template : List TemplateElement) (j : BatchJob) (log : List MainLine) : Prop :=
  ∃ gtr gs mse, GetRun sha1 { env with now := j.now, fileOk := j.fileOk } behaves answers j.link gtr gs ∧ gs.result = some j.result ∧
    log = downloadLog { env with now := j.now, fileOk := j.fileOk } template j.link mse (.batchFailed j.link) gtr j.result

/-- The messages of tasks that run at the same time: in each task's own order, otherwise in any order. -/
inductive Interleaves {α : Type} : List (List α) → List α → Prop
  | done {ls} : (∀ l ∈ ls, l = []) → Interleaves ls []
  | next {pre x l post out} : Interleaves (pre ++ l :: post) out → Interleaves (pre ++ (x :: l) :: post) (x :: out)

/-- src/magnet.rs:228-262: the error of `parse_magnets_file`, if it gives one. -/
def magnetsFailure (uenv : UrlEnv) (lossy : Bytes → Text) : Option Bytes → Option MagnetsFileError
  | none => some .read
  | some content =>
    match parseMagnetsFile (Magnet.parse (urlParse uenv) lossy) content with
    | .error e => some e
    | .ok _ => none

/-- src/main.rs:234-281: the messages of a batch; `jobs` are those of its jobs. -/
def batchLog (uenv : UrlEnv) (lossy : Bytes → Text) (file : Option Bytes) (jobs : List MainLine) (success total : Nat) : List MainLine :=
  match magnetsFailure uenv lossy file with
  | some e => [.about (.badMagnets e)]
  | none =>
    match batchLinks uenv lossy file with
    | some (_ :: _) => jobs ++ [.converted success total]
    | _ => [.noMagnets]

/-- src/main.rs:303-317. -/
def queryTrackerLog : Except (GetterError AskError) (List Peer) → List MainLine
  | .ok _ => []
  | .error e => [.about (.queryFailed e)]

/-- src/main.rs:320-339. -/
def queryDhtLog : Except DhtFailure FoundPeers → List MainLine
  | .ok found => if found.peers.isEmpty then [.noDhtPeers] else []
  | .error e => [.dhtFailed e]

/-- src/main.rs:361-374. -/
def queryPeerLog (env : QueryPeerEnv) (template : List TemplateElement) (ih : InfoHash) (mse : MseError) : Res PeerError TorrentInfo → List MainLine
  | .ok info =>
    saveLog env.lossy ⟨ih, none, []⟩ template info ++
      match (TorrentFile.new env.now info [] []).save env.lossy ipText env.parent template with
      | none => []
      | some effects => if (performEffects env.fileOk 0 effects).2 then [] else [.writeFailed]
  | .err e => [.about (.fetchFailed e mse)]
  | .panic => []
  | .hang => []

/-- src/main.rs:221-378 `Command::run`, for runs that come to an end, with their messages.  Left out are batches that crash. -/
inductive CommandLog (W : World) (cfg : Config) : Command → Done → List MainLine → Prop
  | get {template m tr s r} (mse : Peer → MseError) : GetRun W.sha1 (W.getEnv cfg) W.behaves W.answers m tr s → s.result = some r →
      CommandLog W cfg (.get template m) ⟨[], (getEffects (W.getEnv cfg) template r).1, some (getEffects (W.getEnv cfg) template r).2⟩
        (downloadLog (W.getEnv cfg) template m mse .getFailed tr r)
  | batch {template file tr jobs s code logs log} :
      BatchGet W.sha1 (W.getEnv cfg) W.uenv W.behaves W.answers template (W.inputs file) tr jobs s →
      s.exit = some code → code ≠ .crash → List.Forall₂ (BatchJob.Logs W.sha1 (W.getEnv cfg) W.behaves W.answers template) jobs logs →
      Interleaves logs log →
      CommandLog W cfg (.batch template file) ⟨[], jobs.flatMap BatchJob.effects, some code⟩
        (batchLog W.uenv W.lossy (W.inputs file) log s.success s.total)
  | queryTracker {json no req sup t ih tr s r} :
      AskRun W.lossy W.parseIp t (W.getter cfg ih (trackerCryptoFlags req sup no)) tr s →
      AskOutput.result r ∈ tr.flatMap Prod.snd →
      CommandLog W cfg (.queryTracker json no req sup t ih) ⟨(queryTracker json W.out r).1, [], some (queryTracker json W.out r).2⟩
        (queryTrackerLog r)
  | dhtError {json ih} (e : DhtFailure) :
      CommandLog W cfg (.queryDht json ih) ⟨(queryDht json W.out none).1, [], some (queryDht json W.out none).2⟩ (queryDhtLog (.error e))
  | queryDht {json ih lookup my v6 es st tr req found} : (DhtState.init my v6).run lookup cfg.dht.bootstrapNodes es = some (st, tr) →
      (∀ h, DhtEvent.submit (.lookup req h) ∈ es → h = ih) → DhtEffect.answer req found ∈ tr →
      CommandLog W cfg (.queryDht json ih) ⟨(queryDht json W.out (some found)).1, [], some (queryDht json W.out (some found)).2⟩
        (queryDhtLog (.ok found))
  | queryPeer {enc no pre template peer ih effects code} (mse : MseError) :
      queryPeer W.sha1 W.H (W.queryPeerEnv cfg) enc pre no template peer ih = some (effects, code) →
      CommandLog W cfg (.queryPeer enc no pre template peer ih) ⟨[], effects, some code⟩
        (queryPeerLog (W.queryPeerEnv cfg) template ih mse ((W.queryPeerEnv cfg).ask W.sha1 W.H enc pre no peer ih).2)

/-- src/main.rs:64-100 in these surroundings. -/
def World.configLog (W : World) (l : CommandLine) : List MainLine :=
  Demag.configLog id (Config.load W.parseToml W.parseHost W.dht) W.defaultPath W.configs ⟨l.config, l.noConfig⟩

/-- src/main.rs:380-383 `main`, 62-106 `Arguments::run`: the runs of the program that come to an end, with the level asked for and the
messages. -/
inductive ProgramLog (W : World) (args : List Text) : LevelFilter → Done → List MainLine → Prop
  | unconfigured {l} : CommandLine.parse W.uenv W.lossy args = some l → W.config l = none →
      ProgramLog W args l.logLevel ⟨[], [], some .failure⟩ (W.configLog l)
  | ran {l cfg d log} : CommandLine.parse W.uenv W.lossy args = some l → W.config l = some cfg → CommandLog W cfg l.command d log →
      ProgramLog W args l.logLevel d (W.configLog l ++ .localPeer W.localId W.key W.port :: log)

/-- src/main.rs:406-407: the messages that are written. -/
def shownLog (f : LevelFilter) (log : List MainLine) : List MainLine := log.filter fun x => logShown f x.target x.level

/-- src/main.rs:385-411: what is written to the standard error for messages (with the times at which they are written). -/
def stderrText (env : LogEnv) (toml : Err) (colour : Bool) (f : LevelFilter) (log : List (Clock × MainLine)) : Text :=
  (log.filter fun x => logShown f x.2.target x.2.level).flatMap fun x => recordText colour x.1 x.2.level (x.2.text env toml)

end Demag
