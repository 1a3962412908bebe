import Verif.Model.Json
import Verif.Model.IpParse
import Verif.Model.TrackerHttp
import Verif.Model.LogText

/-!
# The unit tests of `/repo/src/peer/mod.rs` and `/repo/src/peer/extensions.rs`, run on the model

These are tests, not proofs of properties: they compare the model with the code on the inputs of the tests in `/repo`, which the code passes.
-/

namespace Demag.Tests

open Demag

/-- `decode_bencode::<Peer>` -/
def decodePeer (b : Bytes) : Except UnbencodeError Peer := decodeBencode bendyDefaultDepth (Peer.ofBen ipFromStr) b
/-- `127.0.0.1:8080` -/
def local8080 : SockAddr := .v4 ⟨⟨0x7F000001#32⟩, 8080⟩
def idPre : PeerId := ⟨key "-PRE-123-abcdefghijk", by decide +kernel⟩

/-- src/peer/mod.rs:545-555 `test_unbencode_peer` -/
example : decodePeer (key "d2:ip9:127.0.0.17:peer id20:-PRE-123-abcdefghijk4:porti8080ee") = .ok ⟨local8080, some idPre, false⟩ ∧
    sockFromStr "127.0.0.1:8080".toList = some (local8080, 0) := by decide +kernel
/-- src/peer/mod.rs:557-565 `test_unbencode_peer_no_peer_id` -/
example : decodePeer (key "d2:ip9:127.0.0.14:porti8080ee") = .ok ⟨local8080, none, false⟩ := by decide +kernel
/-- src/peer/mod.rs:567-578 `test_unbencode_peer_extra_field` -/
example : decodePeer (key "d2:ip9:127.0.0.17:peer id20:-PRE-123-abcdefghijk4:porti8080e5:speedi65535ee") =
    .ok ⟨local8080, some idPre, false⟩ := by decide +kernel
/-- src/peer/mod.rs:580-586 `test_unbencode_peer_empty` -/
example : decodePeer [] = .error .noData := by decide +kernel
/-- src/peer/mod.rs:588-594 `test_unbencode_peer_trailing_bencode` -/
example : decodePeer (key "d2:ip9:127.0.0.17:peer id20:-PRE-123-abcdefghijk4:porti8080ee2:hi") = .error .trailingData := by decide +kernel
/-- src/peer/mod.rs:596-602 `test_unbencode_peer_trailing_garbage` -/
example : decodePeer (key "d2:ip9:127.0.0.17:peer id20:-PRE-123-abcdefghijk4:porti8080eeqqq") = .error .trailingData := by decide +kernel

/-- src/peer/mod.rs:607-615 `display_json::no_id` -/
example : (Peer.fromStr "127.0.0.1:8080".toList).map displayJson =
    some "{\"host\": \"127.0.0.1\", \"port\": 8080, \"id\": null, \"requires_crypto\": false}".toList := by decide +kernel
/-- src/peer/mod.rs:617-628 `display_json::simple_id` -/
example : (decodePeer (key "d2:ip9:127.0.0.17:peer id20:-PRE-123-abcdefghijk4:porti8080ee")).toOption.map displayJson =
    some "{\"host\": \"127.0.0.1\", \"port\": 8080, \"id\": \"-PRE-123-abcdefghijk\", \"requires_crypto\": false}".toList := by
  decide +kernel
/-- src/peer/mod.rs:630-641 `display_json::non_ascii_id` -/
example : (decodePeer (key "d2:ip9:127.0.0.17:peer id20:-PRE-123-abcdefgh\xC3\xAEj4:porti8080ee")).toOption.map displayJson =
    some "{\"host\": \"127.0.0.1\", \"port\": 8080, \"id\": \"-PRE-123-abcdefgh\\u00eej\", \"requires_crypto\": false}".toList := by
  decide +kernel
/-- src/peer/mod.rs:643-654 `display_json::non_utf8_id` -/
example : (decodePeer (key "d2:ip9:127.0.0.17:peer id20:-PRE-123-abcdefgh\xEEjk4:porti8080ee")).toOption.map displayJson =
    some "{\"host\": \"127.0.0.1\", \"port\": 8080, \"id\": \"-PRE-123-abcdefgh\\ufffdjk\", \"requires_crypto\": false}".toList := by
  decide +kernel
/-- src/peer/mod.rs:656-668 `display_json::requires_crypto` -/
example : displayJson ⟨local8080, none, true⟩ =
    "{\"host\": \"127.0.0.1\", \"port\": 8080, \"id\": null, \"requires_crypto\": true}".toList := by decide +kernel

/-- src/peer/mod.rs:671-684 `test_write_json_str` -/
example : ([("foobar", "foobar"), ("foo / bar", "foo / bar"), ("foo\"bar", "foo\\\"bar"), ("foo\\bar", "foo\\\\bar"),
      ("foo\x08\x0C\n\r\tbar", "foo\\b\\f\\n\\r\\tbar"), ("foo\x0B\x1B\x7Fbar", "foo\\u000b\\u001b\\u007fbar"),
      ("foo—bar", "foo\\u2014bar"), ("foo🐐bar", "foo\\ud83d\\udc10bar")].all
    fun (s, json) => writeJsonStr s.toList = json.toList) = true := by decide +kernel

/-- src/peer/extensions.rs:223-236 `test_extension_iter` -/
example : Extension.all = [.azureusMessaging, .locationAware, .bep10, .dht, .xbtPex, .fast, .natTraversal, .hybridV2] := by decide +kernel
/-- src/peer/extensions.rs:238-254 `test_extension_set` -/
example : (let s := ExtensionSet.fromIter [.bep10, .dht, .fast]
    s.has .bep10 ∧ s.has .dht ∧ s.has .fast ∧ !s.has .locationAware ∧ !s.has .xbtPex ∧
      s.text = "BEP 10 Extension Protocol, BitTorrent DHT, Fast Extension".toList ∧ s = ⟨0x100005⟩) := by decide +kernel
/-- src/peer/extensions.rs:256-265 `test_default_extension_set` -/
example : (∀ e ∈ Extension.all, (⟨0⟩ : ExtensionSet).has e = false) ∧ (⟨0⟩ : ExtensionSet).text = "<none>".toList := by decide +kernel
/-- src/peer/extensions.rs:267-281 `test_extension_set_unknown` -/
example : (∀ e ∈ Extension.all, (⟨0x8404⟩ : ExtensionSet).has e = decide (e = .fast)) ∧
    (⟨0x8404⟩ : ExtensionSet).text = "Fast Extension, Unknown(0x0000000000008400)".toList := by decide +kernel
/-- src/peer/extensions.rs:283-290 `test_extension_set_all_unknown` -/
example : (∀ e ∈ Extension.all, (⟨0x8400⟩ : ExtensionSet).has e = false) ∧
    (⟨0x8400⟩ : ExtensionSet).text = "Unknown(0x0000000000008400)".toList := by decide +kernel

end Demag.Tests
