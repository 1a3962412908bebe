import Verif.Model.Get
import Verif.Model.Disk
import Verif.Model.UrlParse

/-!
# The command `batch`, from the text of the file of magnet links to the torrent files: the model of `/repo/src/main.rs` 234-284 with all that
it calls
-/

namespace Demag

/-- src/main.rs:253-266: the output of the job for a magnet link, from how `download_torrent_file` ended. -/
def jobOutcome : ExitCode → Outcome Bool
  | .success => .value true
  | .failure => .value false
  | .crash => .panic

/-- src/magnet.rs:228-248 `parse_magnets_file`: the magnet links of the file; `none` for an error.  `file` is what the file holds, `none` if it
cannot be read. -/
def batchLinks (uenv : UrlEnv) (lossy : Bytes → Text) (file : Option Bytes) : Option (List Magnet) :=
  file.bind fun content => (parseMagnetsFile (Magnet.parse (urlParse uenv) lossy) content).toOption

/-- A download that has ended: its link, the time on its clock, which of its operations on the file system succeeded, what `get_torrent_file` gave,
what was done to the file system, and how it ended. -/
structure BatchJob where
  link : Magnet
  now : Except Nat Nat
  fileOk : Nat → Bool
  result : Resolved Tracker SockAddr TorrentInfo TaskError
  effects : List SaveEffect
  code : ExitCode

/-- src/main.rs:253-266, src/magnet.rs:105-113 `download_torrent_file` as a job of the batch, in the surroundings of `env` with a clock and a file
system of its own. -/
def BatchJob.Runs (sha1 : Bytes → Bytes) (env : GetEnv) (behaves : Peer → (Nat → Link) → Prop) (answers : Tracker → AskTrace → Prop)
    (template : List TemplateElement) (j : BatchJob) : Prop :=
  (∃ gtr gs, GetRun sha1 { env with now := j.now, fileOk := j.fileOk } behaves answers j.link gtr gs ∧ gs.result = some j.result) ∧
    getEffects { env with now := j.now, fileOk := j.fileOk } template j.result = (j.effects, j.code)

/-- The runs of the batch command (src/main.rs:234-284); `jobs` are the downloads that have ended, in the order in which they did. -/
structure BatchGet (sha1 : Bytes → Bytes) (env : GetEnv) (uenv : UrlEnv) (behaves : Peer → (Nat → Link) → Prop)
    (answers : Tracker → AskTrace → Prop) (template : List TemplateElement) (file : Option Bytes)
    (tr : List (BatchEvent × List (Magnet × Outcome Bool))) (jobs : List BatchJob) (s : Batch Magnet) : Prop where
  run : BatchRun (batchLinks uenv env.lossy file) env.cfg.general.batchJobs tr s
  ended : tr.flatMap Prod.snd = jobs.map fun j => (j.link, jobOutcome j.code)
  job : ∀ j ∈ jobs, j.Runs sha1 env behaves answers template

end Demag
