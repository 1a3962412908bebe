import Verif.Model.DhtMsg

/-!
# The unit tests of `/repo/src/dht/messages.rs`, run on the model

These are tests, not proofs of properties: they compare the model with the code on the inputs of the tests in `/repo`, which the code passes.
(The model does not tell the errors of bendy apart; where a test looks at the text of such an error, there is only an error here.)
-/

namespace Demag.Tests

open Demag

/-- The text as bytes that are 20. -/
def nodeIdA : NodeId := ⟨key "abcdefghij0123456789", by decide +kernel⟩
def nodeIdM : NodeId := ⟨key "mnopqrstuvwxyz123456", by decide +kernel⟩
def infoHashM : InfoHash := ⟨key "mnopqrstuvwxyz123456", by decide +kernel⟩
/-- How `String::from_utf8_lossy` reads ASCII. -/
def asciiLossy (b : Bytes) : Text := b.map fun c => Char.ofNat c.toNat

/-- src/dht/messages.rs:413-429 `decode::error` -/
example : (decodeBencode bendyDefaultDepth (ErrorResponse.ofBen asciiLossy) (key "d1:eli201e23:A Generic Error Ocurrede1:t2:aa1:y1:ee")).toOption =
    some ⟨key "aa", none, .generic, "A Generic Error Ocurred".toList, none⟩ := by decide +kernel

/-- src/dht/messages.rs:431-450 `decode::get_peers_response_values` -/
example : (decodeBencode bendyDefaultDepth GetPeersResponse.ofBen
      (key "d1:rd2:id20:abcdefghij01234567895:token8:aoeusnth6:valuesl6:axje.u6:idhtnmee1:t2:aa1:y1:re")).toOption =
    some ⟨key "aa", none, nodeIdA, [Peer.ofAddr (.v4 ⟨⟨BitVec.ofNat 32 (((97 * 256 + 120) * 256 + 106) * 256 + 101)⟩, 11893⟩),
      Peer.ofAddr (.v4 ⟨⟨BitVec.ofNat 32 (((105 * 256 + 100) * 256 + 104) * 256 + 116)⟩, 28269⟩)], [], [], some (key "aoeusnth"), none⟩ := by
  decide +kernel

/-- src/dht/messages.rs:452-473 `decode::get_peers_response_ipv6_values` -/
example : (decodeBencode bendyDefaultDepth GetPeersResponse.ofBen
      (key "d1:rd2:id20:abcdefghij01234567895:token8:aoeusnth6:valuesl6:axje.u18:iiiiiiiiiiiiiiiippee1:t2:aa1:y1:re")).toOption =
    some ⟨key "aa", none, nodeIdA, [Peer.ofAddr (.v4 ⟨⟨BitVec.ofNat 32 (((97 * 256 + 120) * 256 + 106) * 256 + 101)⟩, 11893⟩),
      Peer.ofAddr (.v6 ⟨⟨0x69696969696969696969696969696969#128⟩, 28784⟩)], [], [], some (key "aoeusnth"), none⟩ := by
  decide +kernel

/-- src/dht/messages.rs:475-495 `decode::get_peers_response_nodes` -/
example : (decodeBencode bendyDefaultDepth GetPeersResponse.ofBen
      (key "d1:rd2:id20:abcdefghij01234567895:nodes26:mnopqrstuvwxyz123456iiiipp5:token8:aoeusnthe1:t2:aa1:y1:re")).toOption =
    some ⟨key "aa", none, nodeIdA, [], [⟨nodeIdM, ⟨0x69696969#32⟩, 28784⟩], [], some (key "aoeusnth"), none⟩ := by decide +kernel

/-- src/dht/messages.rs:497-517 `decode::get_peers_response_nodes6` -/
example : (decodeBencode bendyDefaultDepth GetPeersResponse.ofBen
      (key "d1:rd2:id20:abcdefghij01234567896:nodes638:mnopqrstuvwxyz123456iiiiiiiiiiiiiiiipp5:token8:aoeusnthe1:t2:aa1:y1:re")).toOption =
    some ⟨key "aa", none, nodeIdA, [], [], [⟨nodeIdM, ⟨0x69696969696969696969696969696969#128⟩, 28784⟩], some (key "aoeusnth"), none⟩ := by
  decide +kernel

/-- src/dht/messages.rs:523-534 `encode::get_peers_query` -/
example : (GetPeersQuery.mk (key "aa") none nodeIdA infoHashM none none).toBencode =
    some (key "d1:ad2:id20:abcdefghij01234567899:info_hash20:mnopqrstuvwxyz123456e1:q9:get_peers1:t2:aa1:y1:qe") := by decide +kernel

/-- src/dht/messages.rs:536-547 `encode::get_peers_query_want_n4` -/
example : (GetPeersQuery.mk (key "aa") none nodeIdA infoHashM none (some [.n4])).toBencode =
    some (key "d1:ad2:id20:abcdefghij01234567899:info_hash20:mnopqrstuvwxyz1234564:wantl2:n4ee1:q9:get_peers1:t2:aa1:y1:qe") := by decide +kernel

/-- src/dht/messages.rs:549-560 `encode::get_peers_query_want_n6` -/
example : (GetPeersQuery.mk (key "aa") none nodeIdA infoHashM none (some [.n6])).toBencode =
    some (key "d1:ad2:id20:abcdefghij01234567899:info_hash20:mnopqrstuvwxyz1234564:wantl2:n6ee1:q9:get_peers1:t2:aa1:y1:qe") := by decide +kernel

/-- src/dht/messages.rs:562-573 `encode::get_peers_query_want_n4_n6` -/
example : (GetPeersQuery.mk (key "aa") none nodeIdA infoHashM none (some [.n4, .n6])).toBencode =
    some (key "d1:ad2:id20:abcdefghij01234567899:info_hash20:mnopqrstuvwxyz1234564:wantl2:n42:n6ee1:q9:get_peers1:t2:aa1:y1:qe") := by
  decide +kernel

/-- src/dht/messages.rs:575-586 `encode::get_peers_query_all_fields` -/
example : (GetPeersQuery.mk (key "xx") (some (key "TEST")) nodeIdA infoHashM (some true) (some [.n4, .n6])).toBencode =
    some (key ("d1:ad2:id20:abcdefghij01234567899:info_hash20:mnopqrstuvwxyz1234564:wantl2:n42:n6ee1:q9:get_peers2:roi1e1:t2:xx1:v4:TEST" ++
      "1:y1:qe")) := by decide +kernel

/-- src/dht/messages.rs:592-598 `prescan::ok_query` -/
example : prescan (key "d1:rd2:id20:mnopqrstuvwxyz123456e1:t2:aa1:y1:qe") = some ⟨key "aa", .query⟩ := by decide +kernel
/-- src/dht/messages.rs:600-606 `prescan::ok_response` -/
example : prescan (key "d1:rd2:id20:mnopqrstuvwxyz123456e1:t2:aa1:y1:re") = some ⟨key "aa", .response⟩ := by decide +kernel
/-- src/dht/messages.rs:608-614 `prescan::ok_error` -/
example : prescan (key "d1:rd2:id20:mnopqrstuvwxyz123456e1:t2:aa1:y1:ee") = some ⟨key "aa", .error⟩ := by decide +kernel
/-- src/dht/messages.rs:616-620 `prescan::empty` -/
example : prescan [] = none := by decide +kernel
/-- src/dht/messages.rs:622-626 `prescan::no_t` -/
example : prescan (key "d1:eli201e5:Ouch.e1:y1:ee") = none := by decide +kernel
/-- src/dht/messages.rs:628-632 `prescan::not_dict` -/
example : prescan (key "li201e5:Ouch.e") = none := by decide +kernel
/-- src/dht/messages.rs:634-638 `prescan::no_y` -/
example : prescan (key "d1:rd2:id20:mnopqrstuvwxyz123456e1:t2:aae") = none := by decide +kernel
/-- src/dht/messages.rs:640-648 `prescan::bad_y` -/
example : prescan (key "d1:rd2:id20:mnopqrstuvwxyz123456e1:t2:aa1:y1:xe") = none := by decide +kernel

/-- src/dht/messages.rs:655-674 `decode_response::get_peers_response` -/
example : (decodeResponse asciiLossy (key "d1:rd2:id20:abcdefghij01234567895:token8:aoeusnth6:valuesl6:axje.u6:idhtnmee1:t2:aa1:y1:re")).toOption =
    some ⟨key "aa", none, nodeIdA, [Peer.ofAddr (.v4 ⟨⟨BitVec.ofNat 32 (((97 * 256 + 120) * 256 + 106) * 256 + 101)⟩, 11893⟩),
      Peer.ofAddr (.v4 ⟨⟨BitVec.ofNat 32 (((105 * 256 + 100) * 256 + 104) * 256 + 116)⟩, 28269⟩)], [], [], some (key "aoeusnth"), none⟩ := by
  decide +kernel

/-- src/dht/messages.rs:676-694 `decode_response::error` -/
example : (decodeResponse asciiLossy (key "d1:eli201e23:A Generic Error Ocurrede1:t2:aa1:y1:ee")) =
    .error (.rpc ⟨key "aa", none, .generic, "A Generic Error Ocurred".toList, none⟩) := by decide +kernel

/-- src/dht/messages.rs:696-703 `decode_response::query` -/
example : (decodeResponse asciiLossy
    (key "d1:ad2:id20:abcdefghij01234567899:info_hash20:mnopqrstuvwxyz123456e1:q9:get_peers1:t2:aa1:y1:qe")) = .error .query := by decide +kernel

end Demag.Tests
