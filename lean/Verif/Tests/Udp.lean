import Verif.Model.TrackerUdp
import Verif.Model.TrackerUrl
import Verif.Model.UrlParse
import Verif.Model.IpParse
import Verif.Model.InfoHash
import Verif.Model.Settings

/-!
# The unit tests of `/repo/src/tracker/udp.rs`, run on the model

These are tests, not proofs of properties: they compare the model with the code on the inputs of the tests in `/repo`, which the code passes.
-/

namespace Demag.Tests

open Demag

/-- Nothing but ASCII domain names is read, and no `file:` URLs. -/
def urlEnvTest : UrlEnv := ⟨true, fun _ => none, fun _ => none⟩
/-- `UdpUrl::try_from(s.parse::<Url>().unwrap())` -/
def udpUrlOf (s : String) : Option UdpUrl := (urlParse urlEnvTest s.toList).bind fun u => (UdpUrl.ofUrl u).toOption

/-- src/tracker/udp.rs:476-491 `udp_url::from_url` -/
example : udpUrlOf "udp://tracker.opentrackr.org:1337/announce" = some ⟨"tracker.opentrackr.org".toList, 1337, "/announce".toList⟩ ∧
    UdpUrl.display ⟨"tracker.opentrackr.org".toList, 1337, "/announce".toList⟩ = "udp://tracker.opentrackr.org:1337/announce".toList := by decide +kernel
/-- src/tracker/udp.rs:493-506 `udp_url::from_url_no_urldata` -/
example : udpUrlOf "udp://tracker.opentrackr.org:1337" = some ⟨"tracker.opentrackr.org".toList, 1337, "".toList⟩ ∧
    UdpUrl.display ⟨"tracker.opentrackr.org".toList, 1337, "".toList⟩ = "udp://tracker.opentrackr.org:1337".toList := by decide +kernel
/-- src/tracker/udp.rs:508-521 `udp_url::from_url_ipv4` -/
example : udpUrlOf "udp://192.168.1.2:1337/announce" = some ⟨"192.168.1.2".toList, 1337, "/announce".toList⟩ ∧
    UdpUrl.display ⟨"192.168.1.2".toList, 1337, "/announce".toList⟩ = "udp://192.168.1.2:1337/announce".toList := by decide +kernel
/-- src/tracker/udp.rs:523-536 `udp_url::from_url_ipv6` -/
example : udpUrlOf "udp://[3fff::abcd]:1337/announce" = some ⟨"3fff::abcd".toList, 1337, "/announce".toList⟩ ∧
    UdpUrl.display ⟨"3fff::abcd".toList, 1337, "/announce".toList⟩ = "udp://[3fff::abcd]:1337/announce".toList := by decide +kernel

/-- src/tracker/udp.rs:539-549 `build_connection_request` -/
example : udpConnectRequest 0x5C310D73 = key "\x00\x00\x04\x17'\x10\x19\x80\x00\x00\x00\x00\\1\rs" := by decide +kernel
/-- src/tracker/udp.rs:551-557 `parse_connection_response` -/
example : udpConnectResponse (key "\x00\x00\x00\x00\\1\rs\\\xcb\xdf\xdb\x15|%\xba") = .ok ⟨0x5C310D73, 0x5CCBDFDB157C25BA⟩ := by decide +kernel

/-- The announcement of the two requests. -/
def announcementTest (ih : InfoHash) : Announcement where
  infoHash := ih
  peerId := ⟨key "-TR3000-12nig788rk3b", by decide +kernel⟩
  port := 60069
  key := 0x2C545EDE
  event := .started
  downloaded := 0
  uploaded := 0
  left := (1 <<< 63) - 1
  numwant := 80
  crypto := .supported

/-- src/tracker/udp.rs:559-584 `build_announce_request` -/
example : (InfoHash.fromStr (key "4c3e215f9e50b06d708a74c9b0e66e08bce520aa")).toOption.map (fun ih =>
      udpAnnounceRequest 0x5CCBDFDB157C25BA 0xA537EEE7 (announcementTest ih) "".toList) = some (
    key "\\\xcb\xdf\xdb\x15|%\xba\x00\x00\x00\x01\xa57\xee\xe7L>!_\x9eP\xb0mp\x8at\xc9\xb0\xe6n\x08" ++
    key "\xbc\xe5 \xaa-TR3000-12nig788rk3b\x00\x00\x00\x00\x00\x00\x00\x00\x7f\xff\xff\xff\xff\xff\xff" ++
    key "\xff\x00\x00\x00\x00\x00\x00\x00\x00\x00\x00\x00\x02\x00\x00\x00\x00,T^\xde\x00\x00\x00P\xea" ++
    key "\xa5") := by decide +kernel

/-- src/tracker/udp.rs:586-611 `build_announce_request_urldata` -/
example : (InfoHash.fromStr (key "4c3e215f9e50b06d708a74c9b0e66e08bce520aa")).toOption.map (fun ih =>
      udpAnnounceRequest 0x5CCBDFDB157C25BA 0xA537EEE7 (announcementTest ih) "/announce".toList) = some (
    key "\\\xcb\xdf\xdb\x15|%\xba\x00\x00\x00\x01\xa57\xee\xe7L>!_\x9eP\xb0mp\x8at\xc9\xb0\xe6n\x08" ++
    key "\xbc\xe5 \xaa-TR3000-12nig788rk3b\x00\x00\x00\x00\x00\x00\x00\x00\x7f\xff\xff\xff\xff\xff\xff" ++
    key "\xff\x00\x00\x00\x00\x00\x00\x00\x00\x00\x00\x00\x02\x00\x00\x00\x00,T^\xde\x00\x00\x00P\xea" ++
    key "\xa5\x02\x09/announce") := by decide +kernel

/-- The addresses of peers, as text: `none` if one cannot be read. -/
def peersOf (l : List String) : Option (List Peer) := allSome (l.map fun s => Peer.fromStr s.toList)
/-- src/tracker/udp.rs:613-660 `parse_announce_response_ipv4` -/
example : (udpAnnounceResponse false (
    key "\x00\x00\x00\x01\xa57\xee\xe7\x00\x00\x07\x08\x00\x00\x00\x03\x00\x00\x00\x1a\x17Qr\xeb\xc9" ++
    key ",\xbfe\xfe\xe0`\x07\xb9\x15\xd8\x95\t\x84\x9a\x15rd\x8f\xfe\xd5\x98\xbb\xebH\xda\xb2\x9b\x8b" ++
    key "\xa8\x88\xb7\xc3N6\xd3\x7f\xa4\xacbGNV\xe1\xb0\x7f\xe6\xc6)\xaa\xd4f%\xba\xca\x7f\xa0\xb2\xbc" ++
    key "\xcb\x1a\xe1\xb9\x15\xd8\x86\x80\x163\x0fh\xca8L]#\x92\xd4CB.\xf6\x03\xcd\xe3\xaa\xb9\x15\xd9" ++
    key "M\xe1\x06V`\\\xe5\xc8\xd5Q\x06'\x9b\xc8\xd5\xb9A\x87\xb1\xe7\xb7N\x89\x17\x16M\xfc\xc1\x13" ++
    key "\xce/\x1a\xe1\xb9&\x0e\xbf\xc64_\xf5l\xfd\xe1w\xb9\x99\xb3<\xf20\x99\xa2D\x9b\xea\xa5W\xf9" ++
    key "\x86\x13\xd8\xb2\x9a\r\x01\x87\xc8\xd5\xb9\x9f\x9e9\x82\x1a\x8a\xc77%\x97S")).toOption =
    (peersOf ["23.81.114.235:51500", "191.101.254.224:24583", "185.21.216.149:2436", "154.21.114.100:36862", "213.152.187.235:18650",
      "178.155.139.168:34999", "195.78.54.211:32676", "172.98.71.78:22241", "176.127.230.198:10666", "212.102.37.186:51839",
      "160.178.188.203:6881", "185.21.216.134:32790", "51.15.104.202:14412", "93.35.146.212:17218", "46.246.3.205:58282",
      "185.21.217.77:57606", "86.96.92.229:51413", "81.6.39.155:51413", "185.65.135.177:59319", "78.137.23.22:19964",
      "193.19.206.47:6881", "185.38.14.191:50740", "95.245.108.253:57719", "185.153.179.60:62000", "153.162.68.155:60069",
      "87.249.134.19:55474", "154.13.1.135:51413", "185.159.158.57:33306", "138.199.55.37:38739"]).map fun l => ⟨0xA537EEE7, 1800, l, none, none, none, none, none, some 3, some 26⟩ := by decide +kernel

/-- src/tracker/udp.rs:662-700 `parse_announce_response_ipv6_not_all_peers` -/
example : (udpAnnounceResponse true (
    key "\x00\x00\x00\x01\r\rY\x00\x00\x00\x077\x00\x00\x00\x06\x00" ++
    key "\x00\x00\x8f&\x07\xfe\xa8t\x97\x18\x00\x00\x00\x00\x00\x00" ++
    key "\x00^\x02'#&\x07\xfe\xa8t\x97\x18\x00\xd6\x9fs\xa0\xa0\x92" ++
    key "\xe9('#&\x07\xfe\xa8t\x97\x18\x00\xfc\x8d\n1\xad\x06 S'#*" ++
    key "\x01\x04\xf8\x01\n\x10\x88\x00\x00\x00\x00\x00\x00\x00\x02" ++
    key "\x93(*\x01\x0e\n\x02jzp\x9f\x04\x9c\x999\xfb\xb5\x12\xaeV*" ++
    key "\x01\x0e\n\x02jzp\xed\x9c\\j\x84\xa3\xfe\x92\xaeV*\x01\x0e" ++
    key "\n\n{a\x10\xf8\xa5\r\xadG\x87\xe8\xea\x10,*\x01\xcb\x08\x87" ++
    key "\xfb\x84\x00\x90\x1b<\xfd(-\x9cJ\xe1\x1a*\x01\xcb\x08\x87" ++
    key "\xfb\x84\x00\xe1Wa\xe9d\xfa9#\xe1\x1a*\x02\x06\xf8  \x01" ++
    key "\x97\x00\x02\x00\x00\x00\x00\x10\x08\xd0\xae*\x03\x1b \x00" ++
    key "\n\xf0\x11\x00\x00\x00\x00\x00\x00\xa0N\xf5\xd8$\x04\x0e" ++
    key "\x80nk\x00\x00\x1e\xda\xa3\xef\xe5\xd4\xcc\xd7\xa6t$\x04" ++
    key "\x0e\x80nk\x00\x00\x92\xa4>;L\x86\x15:\xa6t$\x04\x0e\x80nk" ++
    key "\x00\x00\xe7Q\x94j\xff,\x82\xef\xa6t&\x00\x17\x00:\xe8\x06" ++
    key "\x00\x00\x00\x00\x00\x00\x00\x00I\x82\xa2&\x00\x17\x00:\xe8" ++
    key "\x06\x00\x00\x8c9(\xe7\x159\xa4\x82\xa2&\x00\x17\x00:\xe8" ++
    key "\x06\x005\x11\xf1\x83\xcfb\xb7\xa2\x82\xa2&\x00\x17\x00:" ++
    key "\xe8\x06\x00\xd4Cl\xf4\xf0Z\xaa(\x82\xa2&\x04=\t }7\x00\x00" ++
    key "\x00\x00\x00\x00\x00mP\xed4&\x04=\t }7\x00B\xef.\x1d\xden" ++
    key "\xa5\x02\xed4&\x04\xa8\x80\x08\x00\x00\x10\x00\x00\x00\x00" ++
    key "\x01\xcc\xc0\x016Y&\x04\xa8\x80\x08\x00\x00\x10\x00\x00\x00" ++
    key "\x00\x01\xcc\xc0\x01\x8bZ&\x04\xa8\x80\x08\x00\x00\x10\x00" ++
    key "\x00\x00\x00\x01\xcc\xc0\x01\xac\xe0")).toOption.map
    (fun r => (r.xid, { r.response with peers := [] }, r.response.peers.length)) =
    some (0x0D0D5900, ⟨1847, [], none, none, none, none, none, some 6, some 143⟩, 23) := by decide +kernel

/-- src/tracker/udp.rs:702-718 `parse_announce_response_ipv4_no_peers` -/
example : udpAnnounceResponse false (key "\x00\x00\x00\x01\x13Tg\xd1\x00\x00\x07O\x00\x00\x00\x01\x00\x00\x00\x1d") =
    .ok ⟨0x135467D1, 1871, [], none, none, none, none, none, some 1, some 29⟩ := by decide +kernel

end Demag.Tests
