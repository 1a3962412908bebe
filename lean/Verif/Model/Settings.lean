import Verif.Spec.Settings

/-!
# The configuration file: the model of `/repo/src/config.rs` 15-148, 268-320

The text is parsed by the crate `toml`, whose result `Toml` is where this model starts.  `serde`'s derived code reads a structure from a
table (unknown keys are skipped, the container's `#[serde(default)]` gives what is missing) or from an array (by position, what is missing at
the end is the default, what is too much is skipped).
-/

namespace Demag

open Spec (Toml underKey givenIn)

/-- src/config.rs:42-49 `GeneralConfig`. -/
structure GeneralConfig where
  batchJobs : Nat
  encrypt : CryptoPreference
  deriving DecidableEq

/-- src/config.rs:61-79 `TrackersConfig`; times are whole seconds. -/
structure TrackersConfig where
  localPort : LocalPort
  numwant : Nat
  jobsPerMagnet : Nat
  announceTimeout : Nat
  shutdownTimeout : Nat
  deriving DecidableEq

/-- src/config.rs:94-108 `PeersConfig`. -/
structure PeersConfig where
  jobsPerMagnet : Nat
  handshakeTimeout : Nat
  dhExchangeTimeout : Nat
  deriving DecidableEq

/-- src/config.rs:122-131 `DhtConfig`. -/
structure DhtConfig where
  bootstrapNodes : List InetAddr
  queryTimeout : Nat
  deriving DecidableEq

/-- src/config.rs:15-25 `Config`. -/
structure Config where
  general : GeneralConfig
  trackers : TrackersConfig
  peers : PeersConfig
  dht : DhtConfig
  deriving DecidableEq

/-- src/config.rs:51-59, 268-276: `GeneralConfig::default`. -/
def GeneralConfig.dflt : GeneralConfig := ⟨50, .prefer⟩

/-- src/config.rs:81-92 `TrackersConfig::default`. -/
def TrackersConfig.dflt : TrackersConfig := ⟨.dflt, 50, 30, 30, 3⟩

/-- src/config.rs:110-120 `PeersConfig::default`, src/peer/msepe.rs:22. -/
def PeersConfig.dflt : PeersConfig := ⟨30, 60, 30⟩

/-- src/consts.rs:33-37 `DEFAULT_DHT_BOOTSTRAP_NODES`. -/
def defaultBootstrapNodes : List Text :=
  ["dht.transmissionbt.com:6881".toList, "relay.pkarr.org:6881".toList, "router.bittorrent.com:6881".toList]

/-- Each of them, or nothing if one is missing. -/
def allSome {α : Type} : List (Option α) → Option (List α)
  | [] => some []
  | none :: _ => none
  | some a :: l => (allSome l).map (a :: ·)

/-- src/config.rs:133-148 `DhtConfig::default`; `none` is a panic (a built-in node that cannot be parsed). -/
def DhtConfig.dflt (parseHost : Text → Option Host) : Option DhtConfig :=
  (allSome (defaultBootstrapNodes.map (InetAddr.parse parseHost))).map fun ns => ⟨ns, 2⟩

/-- `serde`'s derived code, one field: the default if the value is missing, otherwise it is read. -/
def readOr {α : Type} (read : Toml → Option α) (dflt : α) : Option Toml → Option α
  | none => some dflt
  | some v => read v

/-- Integers of a range: `NonZeroUsize`, `NonZeroU32` and `u64` (src/config.rs:45, 67, 70, 97, 315-320), on a platform of 64 bits. -/
def readRange (lo hi : Nat) : Toml → Option Nat
  | .int i => if 0 ≤ i ∧ lo ≤ i.toNat ∧ i.toNat ≤ hi then some i.toNat else none
  | _ => none

/-- src/config.rs:268-276: the derived `Deserialize` of `CryptoPreference`, names in kebab case.  Only texts are modelled (serde would also take a
table whose only key is such a name). -/
def readPreference : Toml → Option CryptoPreference
  | .str s =>
    if s = "always".toList then some .always
    else if s = "prefer".toList then some .prefer
    else if s = "if-required".toList then some .ifRequired
    else if s = "never".toList then some .never
    else none
  | _ => none

/-- src/config.rs:209-266 `Deserialize for LocalPort`. -/
def readLocalPort : Toml → Option LocalPort
  | .int i => LocalPort.ofInt i
  | .str s => LocalPort.ofText s
  | _ => none

/-- src/dht/mod.rs:211-236 `Deserialize for InetAddr`. -/
def readInetAddr (parseHost : Text → Option Host) : Toml → Option InetAddr
  | .str s => InetAddr.parse parseHost s
  | _ => none

/-- `Deserialize for Vec1` (crate `mitsein`) of `InetAddr`s: a nonempty array. -/
def readInetAddrs (parseHost : Text → Option Host) : Toml → Option (List InetAddr)
  | .arr l =>
    match allSome (l.map (readInetAddr parseHost)) with
    | some (a :: as) => some (a :: as)
    | _ => none
  | _ => none

/-- `serde`'s derived code, a structure: a table or an array. -/
def isSection : Toml → Bool
  | .table _ => true
  | .arr _ => true
  | _ => false

/-- src/config.rs:42-49: the derived `Deserialize` of `GeneralConfig`. -/
def readGeneral (t : Toml) : Option GeneralConfig :=
  if isSection t then
    (readOr (readRange 1 (2 ^ 64 - 1)) GeneralConfig.dflt.batchJobs (givenIn t 0 "batch-jobs".toList)).bind fun jobs =>
    (readOr readPreference GeneralConfig.dflt.encrypt (givenIn t 1 "encrypt".toList)).bind fun encrypt =>
    some ⟨jobs, encrypt⟩
  else none

/-- src/config.rs:61-79: the derived `Deserialize` of `TrackersConfig`. -/
def readTrackers (t : Toml) : Option TrackersConfig :=
  if isSection t then
    (readOr readLocalPort TrackersConfig.dflt.localPort (givenIn t 0 "local-port".toList)).bind fun port =>
    (readOr (readRange 1 (2 ^ 32 - 1)) TrackersConfig.dflt.numwant (givenIn t 1 "numwant".toList)).bind fun numwant =>
    (readOr (readRange 1 (2 ^ 64 - 1)) TrackersConfig.dflt.jobsPerMagnet (givenIn t 2 "jobs-per-magnet".toList)).bind fun jobs =>
    (readOr (readRange 0 (2 ^ 64 - 1)) TrackersConfig.dflt.announceTimeout (givenIn t 3 "announce-timeout".toList)).bind fun announce =>
    (readOr (readRange 0 (2 ^ 64 - 1)) TrackersConfig.dflt.shutdownTimeout (givenIn t 4 "shutdown-timeout".toList)).bind fun shutdown =>
    some ⟨port, numwant, jobs, announce, shutdown⟩
  else none

/-- src/config.rs:94-108: the derived `Deserialize` of `PeersConfig`. -/
def readPeers (t : Toml) : Option PeersConfig :=
  if isSection t then
    (readOr (readRange 1 (2 ^ 64 - 1)) PeersConfig.dflt.jobsPerMagnet (givenIn t 0 "jobs-per-magnet".toList)).bind fun jobs =>
    (readOr (readRange 0 (2 ^ 64 - 1)) PeersConfig.dflt.handshakeTimeout (givenIn t 1 "handshake-timeout".toList)).bind fun handshake =>
    (readOr (readRange 0 (2 ^ 64 - 1)) PeersConfig.dflt.dhExchangeTimeout (givenIn t 2 "dh-exchange-timeout".toList)).bind fun dh =>
    some ⟨jobs, handshake, dh⟩
  else none

/-- src/config.rs:122-131: the derived `Deserialize` of `DhtConfig`; `dflt` is `DhtConfig::default()`. -/
def readDht (parseHost : Text → Option Host) (dflt : DhtConfig) (t : Toml) : Option DhtConfig :=
  if isSection t then
    (readOr (readInetAddrs parseHost) dflt.bootstrapNodes (givenIn t 0 "bootstrap-nodes".toList)).bind fun nodes =>
    (readOr (readRange 0 (2 ^ 64 - 1)) dflt.queryTimeout (givenIn t 1 "query-timeout".toList)).bind fun timeout =>
    some ⟨nodes, timeout⟩
  else none

/-- src/config.rs:15-25: `Config::default`. -/
def Config.dflt (dht : DhtConfig) : Config := ⟨.dflt, .dflt, .dflt, dht⟩

/-- src/config.rs:15-25: the derived `Deserialize` of `Config`, for the table that a TOML document is; `dht` is `DhtConfig::default()`. -/
def readConfig (parseHost : Text → Option Host) (dht : DhtConfig) (doc : List (Text × Toml)) : Option Config :=
  (readOr readGeneral .dflt (underKey "general".toList doc)).bind fun general =>
  (readOr readTrackers .dflt (underKey "trackers".toList doc)).bind fun trackers =>
  (readOr readPeers .dflt (underKey "peers".toList doc)).bind fun peers =>
  (readOr (readDht parseHost dht) dht (underKey "dht".toList doc)).bind fun dht =>
  some ⟨general, trackers, peers, dht⟩

end Demag
