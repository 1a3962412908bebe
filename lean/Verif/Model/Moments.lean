import Verif.Model.ProgramLog

/-!
# What is said and what is done, in order: the model of `/repo/src/main.rs` lines 62-106 and 221-378 with `/repo/src/magnet.rs` lines 105-113
and `/repo/src/torrent.rs` lines 154-177

Model/ProgramLog.lean has the messages of a run, and beside them, apart, what the run does to the file system.  Here both stand in one list, in
the order in which they happen.
-/

namespace Demag

/-- The program writes a message to its log, or does something to the file system. -/
inductive Moment where
  | says (x : MainLine)
  | does (e : SaveEffect)

/-- src/magnet.rs:105-113 `download_torrent_file`, src/torrent.rs:154-177 `save`, src/main.rs:223-233 and 253-266: a download. -/
def downloadMoments (env : GetEnv) (template : List TemplateElement) (m : Magnet) (mse : Peer → MseError) (failed : DownloadFailure → LogLine)
    (tr : List (ResolveEvent Peer TaskError TorrentInfo × List (ResolveOutput Tracker Peer SockAddr TorrentInfo TaskError)))
    (r : Resolved Tracker SockAddr TorrentInfo TaskError) : List Moment :=
  ((getLog m mse tr).map MainLine.about ++ resultLog env m template r).map .says ++ (getEffects env template r).1.map .does ++
    (getFailure env template r).toList.map fun f => .says (.about (failed f))

/-- src/main.rs:253-266: a job of the batch. -/
def BatchJob.Happens (sha1 : Bytes → Bytes) (env : GetEnv) (behaves : Peer → (Nat → Link) → Prop) (answers : Tracker → AskTrace → Prop)
    (template : List TemplateElement) (j : BatchJob) (ms : List Moment) : Prop :=
  ∃ gtr gs mse, GetRun sha1 { env with now := j.now, fileOk := j.fileOk } behaves answers j.link gtr gs ∧ gs.result = some j.result ∧
    ms = downloadMoments { env with now := j.now, fileOk := j.fileOk } template j.link mse (.batchFailed j.link) gtr j.result

/-- src/main.rs:234-281: the batch; `jobs` is what happens in its jobs. -/
def batchMoments (uenv : UrlEnv) (lossy : Bytes → Text) (file : Option Bytes) (jobs : List Moment) (success total : Nat) : List Moment :=
  match magnetsFailure uenv lossy file with
  | some e => [.says (.about (.badMagnets e))]
  | none =>
    match batchLinks uenv lossy file with
    | some (_ :: _) => jobs ++ [.says (.converted success total)]
    | _ => [.says .noMagnets]

/-- src/main.rs:361-374. -/
def queryPeerMoments (env : QueryPeerEnv) (template : List TemplateElement) (ih : InfoHash) (mse : MseError) : Res PeerError TorrentInfo → List Moment
  | .ok info =>
    (saveLog env.lossy ⟨ih, none, []⟩ template info).map .says ++
      match (TorrentFile.new env.now info [] []).save env.lossy ipText env.parent template with
      | none => []
      | some effects =>
        let r := performEffects env.fileOk 0 effects
        r.1.map .does ++ if r.2 then [] else [.says .writeFailed]
  | .err e => [.says (.about (.fetchFailed e mse))]
  | .panic => []
  | .hang => []

/-- The commands that do not touch the file system. -/
def Command.asksOnly : Command → Bool
  | .queryTracker .. => true
  | .queryDht .. => true
  | _ => false

/-- src/main.rs:221-378 `Command::run`, for runs that come to an end.  The jobs of a batch run at the same time.  Left out are, as in
Model/ProgramLog.lean, batches that crash, and what is printed to the standard output. -/
inductive CommandMoments (W : World) (cfg : Config) : Command → ExitCode → List Moment → Prop
  | get {template m tr s r} (mse : Peer → MseError) : GetRun W.sha1 (W.getEnv cfg) W.behaves W.answers m tr s → s.result = some r →
      CommandMoments W cfg (.get template m) (getEffects (W.getEnv cfg) template r).2
        (downloadMoments (W.getEnv cfg) template m mse .getFailed tr r)
  | batch {template file tr jobs s code mss ms} :
      BatchGet W.sha1 (W.getEnv cfg) W.uenv W.behaves W.answers template (W.inputs file) tr jobs s →
      s.exit = some code → code ≠ .crash → List.Forall₂ (BatchJob.Happens W.sha1 (W.getEnv cfg) W.behaves W.answers template) jobs mss →
      Interleaves mss ms →
      CommandMoments W cfg (.batch template file) code (batchMoments W.uenv W.lossy (W.inputs file) ms s.success s.total)
  | asks {c d log code} : c.asksOnly = true → CommandLog W cfg c d log → d.code = some code → CommandMoments W cfg c code (log.map .says)
  | queryPeer {enc no pre template peer ih effects code} (mse : MseError) :
      queryPeer W.sha1 W.H (W.queryPeerEnv cfg) enc pre no template peer ih = some (effects, code) →
      CommandMoments W cfg (.queryPeer enc no pre template peer ih) code
        (queryPeerMoments (W.queryPeerEnv cfg) template ih mse ((W.queryPeerEnv cfg).ask W.sha1 W.H enc pre no peer ih).2)

/-- src/main.rs:380-383 `main`, 62-106 `Arguments::run`: what happens in the runs of the program that come to an end. -/
inductive ProgramMoments (W : World) (args : List Text) : ExitCode → List Moment → Prop
  | unconfigured {l} : CommandLine.parse W.uenv W.lossy args = some l → W.config l = none →
      ProgramMoments W args .failure ((W.configLog l).map .says)
  | ran {l cfg code ms} : CommandLine.parse W.uenv W.lossy args = some l → W.config l = some cfg → CommandMoments W cfg l.command code ms →
      ProgramMoments W args code ((W.configLog l ++ [MainLine.localPeer W.localId W.key W.port]).map .says ++ ms)

end Demag
