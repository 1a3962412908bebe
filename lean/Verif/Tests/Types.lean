import Verif.Model.InfoHash
import Verif.Model.Display
import Verif.Model.UrlParse
import Verif.Model.TrackerHttp
import Verif.Model.LogText

/-!
# The unit tests of `/repo/src/types.rs` and `/repo/src/util.rs`, run on the model

These are tests, not proofs of properties: they compare the model with the code on the inputs of the tests in `/repo`, which the code passes.
-/

namespace Demag.Tests

open Demag

/-- `28C55196F57753C40ACEB6FB58617E6995A7EDDB` -/
def hashOfHex : InfoHash := ⟨key "\x28\xC5\x51\x96\xF5\x77\x53\xC4\x0A\xCE\xB6\xFB\x58\x61\x7E\x69\x95\xA7\xED\xDB", by decide +kernel⟩
def hashOfBase32 : InfoHash := ⟨key "\xb8\x51\x47\x4b\x74\xf6\x5c\xd1\x9f\x98\x1c\x72\x35\x90\xe3\xe5\x20\x24\x2b\x97", by decide +kernel⟩
/-- src/types.rs:250-263 `test_hex_info_hash` -/
example : InfoHash.fromStr (key "28C55196F57753C40ACEB6FB58617E6995A7EDDB") = .ok hashOfHex ∧
    hashOfHex.display = key "28c55196f57753c40aceb6fb58617e6995a7eddb" := by decide +kernel
/-- src/types.rs:265-278 `test_base32_info_hash` -/
example : InfoHash.fromStr (key "XBIUOS3U6ZONDH4YDRZDLEHD4UQCIK4X") = .ok hashOfBase32 ∧
    hashOfBase32.display = key "b851474b74f65cd19f981c723590e3e520242b97" := by decide +kernel
/-- src/types.rs:280-291 `test_add_query_param` -/
example : (urlParse ⟨true, fun _ => none, fun _ => none⟩ "http://tracker.example.com:8080/announce?here=there".toList).map (fun u =>
      Url.text { u with query := addBytesQueryParam u.query (key "info_hash") hashOfHex.bytes }) =
    some ("http://tracker.example.com:8080/announce?here=there&" ++
      "info_hash=%28%C5Q%96%F5wS%C4%0A%CE%B6%FBXa%7Ei%95%A7%ED%DB").toList := by decide +kernel
/-- src/types.rs:293-303 `test_generate_peer_id`, for any random numbers -/
example (rng : Nat → Nat) : ((PeerId.generate (key "-PRE-123-") rng).bytes.length = 20) ∧
    (PeerId.generate (key "-PRE-123-") rng).bytes.take 9 = key "-PRE-123-" ∧
    ∀ b ∈ (PeerId.generate (key "-PRE-123-") rng).bytes.drop 9, ∃ c : Char, c.isAlphanum ∧ b = UInt8.ofNat c.toNat := by
  refine ⟨(PeerId.generate (key "-PRE-123-") rng).len, rfl, ?_⟩
  intro b hb
  have h : (PeerId.generate (key "-PRE-123-") rng).bytes.drop 9 = (List.range 11).map fun i => alphanumericSample (rng i) := rfl
  rw [h, List.mem_map] at hb
  obtain ⟨i, -, rfl⟩ := hb
  have key62 : ∀ n < 62, ∃ c : Char, c.isAlphanum ∧
      UInt8.ofNat (if n < 26 then 65 + n else if n < 52 then 97 + (n - 26) else 48 + (n - 52)) = UInt8.ofNat c.toNat := by
    intro n hn
    refine ⟨Char.ofNat (if n < 26 then 65 + n else if n < 52 then 97 + (n - 26) else 48 + (n - 52)), ?_⟩
    revert n
    decide +kernel
  exact key62 _ (Nat.mod_lt _ (by decide))
/-- src/types.rs:305-310 `test_generate_peer_id_long_prefix`, for any random numbers -/
example (rng : Nat → Nat) : (PeerId.generate (utf8 "-PRE-123-abcdefghijé-".toList) rng).bytes = key "-PRE-123-abcdefghij\xC3" ∧
    debugBytes (key "-PRE-123-abcdefghij\xC3") = "b\"-PRE-123-abcdefghij\\xc3\"".toList := by
  have h : utf8 "-PRE-123-abcdefghijé-".toList = key "-PRE-123-abcdefghij\xC3\xA9-" := by decide +kernel
  refine ⟨?_, by decide +kernel⟩
  rw [h]
  rfl

/-- src/util.rs:177-183 `test_comma_list` -/
example : commaList ([].map decimal) = "<none>".toList ∧ commaList ([42].map decimal) = "42".toList ∧
    commaList ([42, 23].map decimal) = "42, 23".toList ∧ commaList ([42, 23, 17].map decimal) = "42, 23, 17".toList := by decide +kernel
/-- The results of as many reads in a row as there are results. -/
def readsOf (α : Type) [TryFromBuf α] : Nat → Bytes → List (Except PacketError α)
  | 0, _ => []
  | n + 1, b => match tryGet α b with
    | .ok (a, rest) => .ok a :: readsOf α n rest
    | .error e => .error e :: readsOf α n b
/-- src/util.rs:185-192 `test_try_get_u8` -/
example : readsOf (BitVec 8) 4 (key "abc") = [.ok 0x61, .ok 0x62, .ok 0x63, .error .short] := by decide +kernel
/-- src/util.rs:194-199 `test_try_get_u16` -/
example : readsOf (BitVec 16) 2 (key "abc") = [.ok 0x6162, .error .short] := by decide +kernel
/-- src/util.rs:201-206 `test_try_get_u32` -/
example : readsOf (BitVec 32) 2 (key "0123abc") = [.ok 0x30313233, .error .short] := by decide +kernel
/-- src/util.rs:208-213 `test_try_get_i32` -/
example : readsOf (BitVec 32) 2 (key "\x80123abc") = [.ok (BitVec.ofInt 32 (-2144259533)), .error .short] := by decide +kernel
/-- src/util.rs:215-220 `test_try_get_u64` -/
example : readsOf (BitVec 64) 2 (key "01234567abcde") = [.ok 0x3031323334353637, .error .short] := by decide +kernel
/-- src/util.rs:222-230 `test_try_get_ipv4addr` -/
example : readsOf (Ipv4) 2 (key "0123abc") = [.ok ⟨0x30313233⟩, .error .short] := by decide +kernel
/-- src/util.rs:232-242 `test_try_get_ipv6addr` -/
example : readsOf (Ipv6) 2 (key "iiiiiiiiiiiiiiii000000000") = [.ok ⟨0x69696969696969696969696969696969⟩, .error .short] := by decide +kernel
/-- src/util.rs:244-252 `test_try_get_socketaddrv4` -/
example : readsOf (SockV4) 2 (key "iiiipp0123") = [.ok ⟨⟨0x69696969⟩, 28784⟩, .error .short] := by decide +kernel
/-- src/util.rs:254-264 `test_try_get_socketaddrv6` -/
example : readsOf (SockV6) 2 (key "iiiiiiiiiiiiiiiipp012345678") = [.ok ⟨⟨0x69696969696969696969696969696969⟩, 28784⟩, .error .short] := by decide +kernel

end Demag.Tests
