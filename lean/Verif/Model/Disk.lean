import Verif.Model.Download
import Verif.Model.App

/-!
# Files on disk: several torrent files written at the same time

`TorrentFile::save` (src/torrent.rs:154-176) writes its file with `OutputArg::async_write` (crate `patharg`), which is `tokio::fs::write`:
on a thread of its own, `std::fs::write` creates or truncates the file and then writes the contents from the beginning, in as many pieces as the
system makes of them.  The batch command runs several of these at the same time.
-/

namespace Demag

/-- One call of `std::fs::write`: the file, the contents, and how much of them is written (`none` before the file is opened). -/
structure DiskWriter (F : Type) where
  file : F
  contents : Bytes
  offset : Option Nat

/-- The files and the calls that are under way. -/
structure Disk (F : Type) where
  files : F → Option Bytes
  writers : List (DiskWriter F)

/-- What may happen next: the file of writer `i` is opened, or the next `n` bytes of its contents are written. -/
inductive DiskEvent where
  | opened (i : Nat)
  | piece (i n : Nat)

/-- POSIX `write` at an offset: the bytes there are replaced; a gap is filled with zeros. -/
def overwriteAt (old : Bytes) (o : Nat) (new : Bytes) : Bytes :=
  old.take o ++ List.replicate (o - old.length) 0 ++ new ++ old.drop (o + new.length)

/-- `std::fs::write` (std), step by step: `File::create`, then `write_all`. -/
def Disk.step {F : Type} [DecidableEq F] (d : Disk F) : DiskEvent → Option (Disk F)
  | .opened i =>
    match d.writers[i]? with
    | none => none
    | some w =>
      match w.offset with
      | some _ => none
      | none => some ⟨fun f => if f = w.file then some [] else d.files f, d.writers.set i { w with offset := some 0 }⟩
  | .piece i n =>
    match d.writers[i]? with
    | none => none
    | some w =>
      match w.offset with
      | none => none
      | some o =>
        if 1 ≤ n ∧ o + n ≤ w.contents.length then
          some ⟨fun f => if f = w.file then some (overwriteAt ((d.files f).getD []) o ((w.contents.drop o).take n)) else d.files f,
            d.writers.set i { w with offset := some (o + n) }⟩
        else none

/-- The schedules, from the files `files` and the calls `jobs` (file and contents of each). -/
inductive DiskRun {F : Type} [DecidableEq F] (files : F → Option Bytes) (jobs : List (F × Bytes)) : List DiskEvent → Disk F → Prop
  | init : DiskRun files jobs [] ⟨files, jobs.map fun j => ⟨j.1, j.2, none⟩⟩
  | step {es : List DiskEvent} {d d' : Disk F} {e : DiskEvent} :
      DiskRun files jobs es d → d.step e = some d' → DiskRun files jobs (es ++ [e]) d'

/-- The call has returned: everything is written. -/
def DiskWriter.finished {F : Type} (w : DiskWriter F) : Prop := w.offset = some w.contents.length

/-- src/main.rs:234-283 `Command::Batch` together with the downloads it runs: every download that ended has ended with the result of a run of
`get_torrent_file` and the outcome of saving its file (`saved m info ts ns`), all with the settings of `cfg`. -/
structure BatchDownloads (sha1 : Bytes → Bytes) (localId : PeerId) (cfg : Config) (behaves : Peer → (Nat → Link) → Prop)
    (saved : Magnet → TorrentInfo → List Tracker → List SockAddr → Bool) (magnets : Option (List Magnet))
    (tr : List (BatchEvent × List (Magnet × Outcome Bool))) (s : Batch Magnet) : Prop where
  run : BatchRun magnets cfg.general.batchJobs tr s
  downloads : ∀ eo ∈ tr, ∀ m o, (m, o) ∈ eo.2 →
    ∃ dht rtr rs r, DownloadRun sha1 localId cfg.general.encrypt behaves m dht cfg.trackers.jobsPerMagnet cfg.peers.jobsPerMagnet rtr rs ∧
      rs.result = some r ∧ o = downloadTorrentFile (saved m) r

end Demag
