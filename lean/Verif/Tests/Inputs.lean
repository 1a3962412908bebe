import Verif.Model.Settings
import Verif.Model.UrlParse
import Verif.Model.Magnet
import Verif.Model.Utf8

/-!
# The unit tests of `/repo/src/config.rs`, `/repo/src/dht/mod.rs` and `/repo/src/magnet.rs`, run on the model

These are tests, not proofs of properties: they compare the model with the code on the inputs of the tests in `/repo`, which the code passes.
-/

namespace Demag.Tests

open Demag

/-- `url::Host::parse`; nothing but ASCII domain names is read. -/
def hostTest (s : Text) : Option Host := hostParse (fun _ => none) s
/-- The default nodes. -/
def nodesTest : List InetAddr :=
  [⟨.domain "dht.transmissionbt.com".toList, 6881⟩, ⟨.domain "relay.pkarr.org".toList, 6881⟩, ⟨.domain "router.bittorrent.com".toList, 6881⟩]
/-- `load_config`, with the file already read as TOML. -/
def loadTest (doc : List (Text × Spec.Toml)) : Option Config := readConfig hostTest ⟨nodesTest, 2⟩ doc
/-- The settings by default. -/
def configTest : Config := Config.dflt ⟨nodesTest, 2⟩
/-- A file with a single setting. -/
def oneSetting (sect name : String) (v : Spec.Toml) : List (Text × Spec.Toml) := [(sect.toList, .table [(name.toList, v)])]

/-- src/config.rs:321-353 `default_config` -/
example : DhtConfig.dflt hostTest = some ⟨nodesTest, 2⟩ ∧
    configTest = ⟨⟨50, .prefer⟩, ⟨.dflt, 50, 30, 30, 3⟩, ⟨30, 60, 30⟩, ⟨nodesTest, 2⟩⟩ := by decide +kernel
/-- src/config.rs:362-366 `empty_config` -/
example : loadTest [] = some configTest := by decide +kernel
/-- src/config.rs:368-381 `int_local_port` -/
example : loadTest (oneSetting "trackers" "local-port" (.int 60069)) =
    some { configTest with trackers := { configTest.trackers with localPort := .constant 60069 } } := by decide +kernel
/-- src/config.rs:383-396 `int_str_local_port` -/
example : loadTest (oneSetting "trackers" "local-port" (.str "60069".toList)) =
    some { configTest with trackers := { configTest.trackers with localPort := .constant 60069 } } := by decide +kernel
/-- src/config.rs:398-414 `local_port_range` -/
example : loadTest (oneSetting "trackers" "local-port" (.str "3000-4000".toList)) =
    some { configTest with trackers := { configTest.trackers with localPort := .range 3000 4000 } } := by decide +kernel
/-- src/config.rs:416-432 `local_port_spaced_range` -/
example : loadTest (oneSetting "trackers" "local-port" (.str "3000 - 4000".toList)) =
    some { configTest with trackers := { configTest.trackers with localPort := .range 3000 4000 } } := by decide +kernel
/-- src/config.rs:434-450 `local_port_eq_range` -/
example : loadTest (oneSetting "trackers" "local-port" (.str "3000-3000".toList)) =
    some { configTest with trackers := { configTest.trackers with localPort := .range 3000 3000 } } := by decide +kernel
/-- src/config.rs:452-455 `descending_local_port_range` -/
example : loadTest (oneSetting "trackers" "local-port" (.str "4000-3000".toList)) = none := by decide +kernel
/-- src/config.rs:457-460 `empty_bootstrap_nodes` -/
example : loadTest (oneSetting "dht" "bootstrap-nodes" (.arr [])) = none := by decide +kernel
/-- src/config.rs:462-475 `zero_duration` -/
example : loadTest (oneSetting "trackers" "shutdown-timeout" (.int 0)) =
    some { configTest with trackers := { configTest.trackers with shutdownTimeout := 0 } } := by decide +kernel
/-- src/config.rs:477-532 `full_config` -/
example : loadTest
    [("general".toList, .table [("batch-jobs".toList, .int 100), ("encrypt".toList, .str "if-required".toList)]),
     ("trackers".toList, .table [("announce-timeout".toList, .int 45), ("jobs-per-magnet".toList, .int 42),
        ("local-port".toList, .str "10000-65535".toList), ("numwant".toList, .int 75), ("shutdown-timeout".toList, .int 5)]),
     ("peers".toList, .table [("dh-exchange-timeout".toList, .int 10), ("handshake-timeout".toList, .int 120), ("jobs-per-magnet".toList, .int 23)]),
     ("dht".toList, .table [("bootstrap-nodes".toList, .arr [.str "router.example.com:6881".toList, .str "10.0.0.1:8000".toList]),
        ("query-timeout".toList, .int 15)])] =
    some ⟨⟨100, .ifRequired⟩, ⟨.range 10000 65535, 75, 42, 45, 5⟩, ⟨23, 120, 10⟩,
      ⟨[⟨.domain "router.example.com".toList, 6881⟩, ⟨.ipv4 ⟨0x0A000001⟩, 8000⟩], 15⟩⟩ := by decide +kernel
/-- src/config.rs:534-541 `generate_local_port_single_range`, for any random number in the range -/
example (draw : BitVec 16 → BitVec 16 → BitVec 16) (h : ∀ l u : BitVec 16, l ≤ draw l u ∧ draw l u ≤ u) :
    LocalPort.generate draw (.range 1025 1025) = some 1025 := by
  have h1 : draw 1025 1025 = 1025 := by
    have := h 1025 1025
    simp only [BitVec.le_def] at this
    exact BitVec.eq_of_toNat_eq (by omega)
  simp only [LocalPort.generate, h1]
  rfl

/-- src/dht/mod.rs:245-253 `inet_addr::parse_domain_host` -/
example : InetAddr.parse hostTest "www.example.com:80".toList = some ⟨.domain "www.example.com".toList, 80⟩ := by decide +kernel
/-- src/dht/mod.rs:255-264 `inet_addr::parse_ipv4_host` -/
example : InetAddr.parse hostTest "127.0.0.1:80".toList = some ⟨.ipv4 ⟨0x7F000001⟩, 80⟩ ∧
    InetAddr.parse hostTest "80:61".toList = some ⟨.ipv4 ⟨80⟩, 61⟩ := by decide +kernel
/-- src/dht/mod.rs:266-276 `inet_addr::parse_ipv6_host` -/
example : InetAddr.parse hostTest "[::1]:80".toList = some ⟨.ipv6 ⟨1⟩, 80⟩ ∧
    InetAddr.parse hostTest "[::ffff:127.0.0.1]:80".toList = some ⟨.ipv6 ⟨0xffff7f000001⟩, 80⟩ ∧
    InetAddr.parse hostTest "[2001:abcd::1234]:80".toList = some ⟨.ipv6 ⟨0x2001abcd000000000000000000001234⟩, 80⟩ := by decide +kernel
/-- src/dht/mod.rs:278-290 `inet_addr::bad_parse` -/
example : (["www.example.com", "www.example.com:80:61", "[www.example.com]:60069", "[127.0.0.1]:60069", "127.0.0.1", "::1:8000",
      "::ffff:127.0.0.1:8000", "2001:abcd::1234:80"].all fun s => InetAddr.parse hostTest s.toList = none) = true := by decide +kernel

/-- The infohash of the links. -/
def hashOfLink : InfoHash := ⟨key "\x28\xC5\x51\x96\xF5\x77\x53\xC4\x0A\xCE\xB6\xFB\x58\x61\x7E\x69\x95\xA7\xED\xDB", by decide +kernel⟩
/-- `s.parse::<Magnet>()` -/
def magnetOf (s : String) : Except MagnetError Magnet := Magnet.parse (urlParse ⟨true, fun _ => none, fun _ => none⟩) lossyUtf8 s.toList

/-- src/magnet.rs:268-287 `parse_magnet` -/
example : (magnetOf ("magnet:?xt=urn:btih:28c55196f57753c40aceb6fb58617e6995a7eddb&dn=debian-11.2.0-amd64-netinst.iso&" ++
      "tr=http%3A%2F%2Fbttracker.debian.org%3A6969%2Fannounce")).toOption =
    (Tracker.parse (urlParse ⟨true, fun _ => none, fun _ => none⟩) "http://bttracker.debian.org:6969/announce".toList).toOption.map fun t =>
      ⟨hashOfLink, some "debian-11.2.0-amd64-netinst.iso".toList, [t]⟩ := by decide +kernel
/-- The tracker of the link is read. -/
example : (Tracker.parse (urlParse ⟨true, fun _ => none, fun _ => none⟩) "http://bttracker.debian.org:6969/announce".toList).toOption.isSome := by
  decide +kernel
/-- src/magnet.rs:289-300 `parse_magnet_no_trackers` -/
example : magnetOf "magnet:?xt=urn:btih:28c55196f57753c40aceb6fb58617e6995a7eddb" = .ok ⟨hashOfLink, none, []⟩ := by decide +kernel

end Demag.Tests
