import Verif.Model.Settings
import Verif.Model.Resolve

/-!
# The program: the model of `/repo/src/main.rs` 61-107, 341-360 and `/repo/src/app.rs`
-/

namespace Demag

open Spec (Toml)

/-- What `std::fs::read_to_string` gives. -/
inductive FileText where
  | text (t : Text)
  | notFound
  | failed
  deriving DecidableEq

/-- src/config.rs:300-306 `ConfigError`; `notFound` is an `io::Error` of the kind `NotFound`. -/
inductive ConfigError where
  | notFound
  | read
  | parse
  deriving DecidableEq

/-- src/config.rs:37-40 `Config::load`.  `parseToml` is the parser of the crate `toml`. -/
def Config.load (parseToml : Text → Option (List (Text × Toml))) (parseHost : Text → Option Host) (dht : DhtConfig) :
    FileText → Except ConfigError Config
  | .notFound => .error .notFound
  | .failed => .error .read
  | .text t =>
    match parseToml t with
    | none => .error .parse
    | some doc =>
      match readConfig parseHost dht doc with
      | none => .error .parse
      | some cfg => .ok cfg

/-- src/main.rs:39-59 `Arguments`, as far as the configuration goes; `P` are the paths.  The option parser refuses to have both
(`conflicts_with`). -/
structure Arguments (P : Type) where
  config : Option P
  noConfig : Bool

/-- src/main.rs:64-100: the configuration that is used; `none` if the program ends with a failure instead.  `defaultPath` is
`Config::default_path()`, `fs` is the file system. -/
def Arguments.chooseConfig {P : Type} (load : FileText → Except ConfigError Config) (dflt : Config) (defaultPath : Option P)
    (fs : P → FileText) (args : Arguments P) : Option Config :=
  if args.noConfig then some dflt
  else
    match (match args.config with
      | some p => some (p, false)
      | none =>
        match defaultPath with
        | some p => some (p, true)
        | none => none) with
    | none => none
    | some (cfgpath, defpath) =>
      match load (fs cfgpath) with
      | .ok cfg => some cfg
      | .error e => if e = .notFound ∧ defpath = true then some dflt else none

/-- What the program does, in order. -/
inductive ProgramStep where
  | command (cfg : Config)
  | stopDht
  | stopGroup (seconds : Nat)
  | exit (code : ExitCode)
  deriving DecidableEq

/-- src/main.rs:62-106 `Arguments::run` and src/app.rs:61-71 `App::shutdown`, for a command that ends: `command cfg` is its exit status (`none` for
a panic, which ends the program at once) and whether it has started a DHT actor. -/
def Arguments.run {P : Type} (load : FileText → Except ConfigError Config) (dflt : Config) (defaultPath : Option P)
    (fs : P → FileText) (command : Config → Option ExitCode × Bool) (args : Arguments P) : List ProgramStep :=
  match args.chooseConfig load dflt defaultPath fs with
  | none => [.exit .failure]
  | some cfg =>
    match command cfg with
    | (none, _) => [.command cfg, .exit .crash]
    | (some r, dht) => .command cfg :: (if dht then [.stopDht] else []) ++ [.stopGroup cfg.trackers.shutdownTimeout, .exit r]

/-- src/main.rs:349-354: the flags `--encrypt`, `--prefer-encrypt` and `--no-encrypt` of `query-peer`. -/
def queryPeerMode (encrypt prefer noEncrypt : Bool) : Option CryptoMode :=
  match encrypt, prefer, noEncrypt with
  | true, _, _ => some .encrypt
  | false, true, _ => some .prefer
  | false, false, true => some .plain
  | false, false, false => none

/-! ### The DHT handle -/

/-- src/app.rs:17 `dht_handle`: the mutex around it and what it guards; the actors that were started have the numbers below `spawned`. -/
structure DhtCell where
  /-- The task that holds the mutex while it waits: for the creation of an actor, or (`true`) for the actor to stop. -/
  holder : Option (Nat × Bool)
  cached : Option Nat
  spawned : Nat
  deriving DecidableEq

/-- src/app.rs:30: at the beginning. -/
def DhtCell.start : DhtCell := ⟨none, none, 0⟩

/-- What may happen. -/
inductive DhtCellEvent where
  /-- The task gets the mutex in `get_dht_handle`. -/
  | lock (task : Nat)
  /-- The creation of an actor succeeds or fails. -/
  | created (task : Nat) (ok : Bool)
  /-- The task gets the mutex in `shutdown`. -/
  | lockShutdown (task : Nat)
  /-- The actor has confirmed that it stops, or it is dead. -/
  | confirmed (task : Nat)
  /-- The task is aborted while it waits. -/
  | dropped (task : Nat)
  deriving DecidableEq

/-- What is observed. -/
inductive DhtCellOutput where
  | got (task actor : Nat)
  | failed (task : Nat)
  | spawned (actor : Nat)
  | asked (actor : Nat)
  | stopped (task : Nat)
  deriving DecidableEq

/-- src/app.rs:38-51 `get_dht_handle`, 61-67 `shutdown`; `none` if the event cannot happen. -/
def DhtCell.step (s : DhtCell) : DhtCellEvent → Option (DhtCell × List DhtCellOutput)
  | .lock t =>
    match s.holder with
    | some _ => none
    | none =>
      match s.cached with
      | some a => some (s, [.got t a])
      | none => some ({ s with holder := some (t, false) }, [])
  | .created t ok =>
    if s.holder = some (t, false) then
      if ok then some (⟨none, some s.spawned, s.spawned + 1⟩, [.spawned s.spawned, .got t s.spawned])
      else some ({ s with holder := none }, [.failed t])
    else none
  | .lockShutdown t =>
    match s.holder with
    | some _ => none
    | none =>
      match s.cached with
      | some a => some ({ s with holder := some (t, true) }, [.asked a])
      | none => some (s, [.stopped t])
  | .confirmed t =>
    if s.holder = some (t, true) then some ({ s with holder := none }, [.stopped t]) else none
  | .dropped t =>
    match s.holder with
    | some (t', _) => if t' = t then some ({ s with holder := none }, []) else none
    | none => none

/-- The histories, with what was observed. -/
inductive DhtCellRun : List (DhtCellEvent × List DhtCellOutput) → DhtCell → Prop
  | init : DhtCellRun [] .start
  | step {tr : List (DhtCellEvent × List DhtCellOutput)} {s s' : DhtCell} {e : DhtCellEvent} {out : List DhtCellOutput} :
      DhtCellRun tr s → s.step e = some (s', out) → DhtCellRun (tr ++ [(e, out)]) s'

end Demag
