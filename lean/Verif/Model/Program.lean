import Verif.Model.CommandLine
import Verif.Model.BatchGet

/-!
# The program as a whole: the model of `/repo/src/main.rs` 61-107, 220-383
-/

namespace Demag

open Spec (Toml)

/-- What surrounds the program: what it computes with (digests), how texts are read, its file system, its standard output, its random values, its
clock, and what the network may do. -/
structure World where
  sha1 : Bytes → Bytes
  /-- SHA-1 as used by the encryption of connections. -/
  H : Bytes → Bytes
  uenv : UrlEnv
  lossy : Bytes → Text
  parseIp : Text → Option IpAddr
  parent : Text → Option Text
  parseToml : Text → Option (List (Text × Toml))
  parseHost : Text → Option Host
  /-- The default configuration of the DHT. -/
  dht : DhtConfig
  /-- `Config::default_path()`. -/
  defaultPath : Option Text
  configs : Text → FileText
  inputs : InputArg → Option Bytes
  out : Nat → Option Nat
  fileOk : Nat → Bool
  now : Except Nat Nat
  localId : PeerId
  key : BitVec 32
  port : BitVec 16
  behaves : Peer → (Nat → Link) → Prop
  answers : Tracker → AskTrace → Prop
  chances : Nat → Chances
  raws : Nat → RawLink

/-- src/main.rs:64-100: the configuration used. -/
def World.config (W : World) (l : CommandLine) : Option Config :=
  Arguments.chooseConfig (Config.load W.parseToml W.parseHost W.dht) (Config.dflt W.dht) W.defaultPath W.configs ⟨l.config, l.noConfig⟩

/-- What surrounds a download. -/
def World.getEnv (W : World) (cfg : Config) : GetEnv :=
  ⟨cfg, W.localId, W.key, W.port, W.now, W.lossy, W.parseIp, W.parent, W.fileOk⟩

/-- src/main.rs:297-302, src/tracker/mod.rs:32-42: how `query-tracker` asks. -/
def World.getter (W : World) (cfg : Config) (infoHash : InfoHash) (crypto : Option TrackerCrypto) : GetterCtx :=
  ⟨infoHash, W.localId, W.key, W.port, BitVec.ofNat 32 cfg.trackers.numwant, cfg.general.encrypt, crypto⟩

/-- What surrounds `query-peer`. -/
def World.queryPeerEnv (W : World) (cfg : Config) : QueryPeerEnv :=
  ⟨W.localId, cfg.general.encrypt, W.now, W.lossy, W.parent, W.chances, W.raws, W.fileOk⟩

/-- What a run of the program has printed, what it has done to the file system, and how it ended (`none`: the option parser has ended it). -/
structure Done where
  printed : Bytes
  effects : List SaveEffect
  code : Option ExitCode

/-- src/main.rs:221-378 `Command::run`, for runs that come to an end. -/
inductive CommandRun (W : World) (cfg : Config) : Command → Done → Prop
  | get {template m tr s r} : GetRun W.sha1 (W.getEnv cfg) W.behaves W.answers m tr s → s.result = some r →
      CommandRun W cfg (.get template m) ⟨[], (getEffects (W.getEnv cfg) template r).1, some (getEffects (W.getEnv cfg) template r).2⟩
  | batch {template file tr jobs s code} : BatchGet W.sha1 (W.getEnv cfg) W.uenv W.behaves W.answers template (W.inputs file) tr jobs s →
      s.exit = some code → CommandRun W cfg (.batch template file) ⟨[], jobs.flatMap BatchJob.effects, some code⟩
  | queryTracker {json no req sup t ih tr s r} :
      AskRun W.lossy W.parseIp t (W.getter cfg ih (trackerCryptoFlags req sup no)) tr s →
      AskOutput.result r ∈ tr.flatMap Prod.snd →
      CommandRun W cfg (.queryTracker json no req sup t ih) ⟨(queryTracker json W.out r).1, [], some (queryTracker json W.out r).2⟩
  | dhtError {json ih} : CommandRun W cfg (.queryDht json ih) ⟨(queryDht json W.out none).1, [], some (queryDht json W.out none).2⟩
  | queryDht {json ih lookup my v6 es st tr req found} : (DhtState.init my v6).run lookup cfg.dht.bootstrapNodes es = some (st, tr) →
      (∀ h, DhtEvent.submit (.lookup req h) ∈ es → h = ih) → DhtEffect.answer req found ∈ tr →
      CommandRun W cfg (.queryDht json ih) ⟨(queryDht json W.out (some found)).1, [], some (queryDht json W.out (some found)).2⟩
  | queryPeer {enc no pre template peer ih effects code} :
      queryPeer W.sha1 W.H (W.queryPeerEnv cfg) enc pre no template peer ih = some (effects, code) →
      CommandRun W cfg (.queryPeer enc no pre template peer ih) ⟨[], effects, some code⟩

/-- src/main.rs:380-383 `main`, 62-106 `Arguments::run`: the runs of the program with these arguments that come to an end. -/
inductive ProgramRun (W : World) (args : List Text) : Done → Prop
  | refused : CommandLine.parse W.uenv W.lossy args = none → ProgramRun W args ⟨[], [], none⟩
  | unconfigured {l} : CommandLine.parse W.uenv W.lossy args = some l → W.config l = none → ProgramRun W args ⟨[], [], some .failure⟩
  | ran {l cfg d} : CommandLine.parse W.uenv W.lossy args = some l → W.config l = some cfg → CommandRun W cfg l.command d → ProgramRun W args d

end Demag
