import Verif.Model.IpText
import Verif.Model.Utf8
import Verif.Model.Tracker

/-!
# Peers as JSON: the model of `DisplayJson` and `write_json_str` in `/repo/src/peer/mod.rs`
-/

namespace Demag

/-- `char::encode_utf16` (std). -/
def encodeUtf16 (c : Char) : List Nat :=
  if c.toNat < 0x10000 then [c.toNat]
  else [0xD800 + (c.toNat - 0x10000) / 1024, 0xDC00 + (c.toNat - 0x10000) % 1024]

/-- `{:04x}` (std): at least four digits. -/
def hex4 (n : Nat) : Text := List.replicate (4 - (hexNat n).length) '0' ++ hexNat n

/-- src/peer/mod.rs:517-533: one character. -/
def jsonChar (c : Char) : Text :=
  if c = '"' then ['\\', '"']
  else if c = '\\' then ['\\', '\\']
  else if c = Char.ofNat 8 then ['\\', 'b']
  else if c = Char.ofNat 12 then ['\\', 'f']
  else if c = '\n' then ['\\', 'n']
  else if c = '\r' then ['\\', 'r']
  else if c = '\t' then ['\\', 't']
  else if ' ' ≤ c ∧ c ≤ '~' then [c]
  else (encodeUtf16 c).flatMap fun u => ['\\', 'u'] ++ hex4 u

/-- src/peer/mod.rs:516-536 `write_json_str`. -/
def writeJsonStr (s : Text) : Text := s.flatMap jsonChar

/-- src/peer/mod.rs:491-502: the peer ID. -/
def jsonId : Option PeerId → Text
  | some pid =>
    ['"'] ++ ((utf8Chunks pid.bytes).flatMap fun c =>
      writeJsonStr c.1 ++ if !c.2.isEmpty then "\\ufffd".toList else []) ++ ['"']
  | none => "null".toList

/-- src/peer/mod.rs:483-514 `Display for DisplayJson`. -/
def displayJson (p : Peer) : Text :=
  "{\"host\": \"".toList ++ ipText p.address.ip ++ "\", \"port\": ".toList ++ decimal p.address.port.toNat ++
    ", \"id\": ".toList ++
    jsonId p.id ++
    ", \"requires_crypto\": ".toList ++ (if p.requiresCrypto then "true".toList else "false".toList) ++ ['}']

end Demag
