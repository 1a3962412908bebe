import Verif.Model.Wire

/-!
# Info hashes and peer ids: the model of `/repo/src/types.rs`

`str` arguments are modelled by their UTF-8 bytes, which is what the code looks
at (`s.len()`, `s.as_bytes()`); the theorems therefore cover all byte strings,
in particular all valid UTF-8 ones.
-/

namespace Demag

/-- src/types.rs:115-123 `InfoHashError`.  Simplification: the `DecodeError` carried by the first two
variants (position and kind, used only in messages) is left out. -/
inductive InfoHashError where
  | invalidHex
  | invalidBase32
  | invalidLength (n : Nat)
  deriving DecidableEq, Repr

/-- The value of a symbol in data-encoding's `HEXLOWER_PERMISSIVE` (external): digits and letters of
either case. -/
def hexVal (c : UInt8) : Option Nat :=
  if 48 ≤ c.toNat ∧ c.toNat ≤ 57 then some (c.toNat - 48)
  else if 97 ≤ c.toNat ∧ c.toNat ≤ 102 then some (c.toNat - 87)
  else if 65 ≤ c.toNat ∧ c.toNat ≤ 70 then some (c.toNat - 55)
  else none

/-- `HEXLOWER_PERMISSIVE.decode` (external, data-encoding 2.11): pairs of symbols; an odd number of
symbols or a non-symbol is an error. -/
def hexDecode : Bytes → Option Bytes
  | [] => some []
  | [_] => none
  | a :: b :: rest => do
    let x ← hexVal a
    let y ← hexVal b
    let r ← hexDecode rest
    return UInt8.ofNat (x * 16 + y) :: r

/-- The value of a symbol in data-encoding's `BASE32` (external): `A`–`Z` are 0–25, `2`–`7` are 26–31. -/
def base32Val (c : UInt8) : Option Nat :=
  if 65 ≤ c.toNat ∧ c.toNat ≤ 90 then some (c.toNat - 65)
  else if 50 ≤ c.toNat ∧ c.toNat ≤ 55 then some (c.toNat - 24)
  else none

/-- Symbol values of a whole string, or `none` at the first non-symbol. -/
def base32Vals : Bytes → Option (List Nat)
  | [] => some []
  | c :: cs => do
    let x ← base32Val c
    let xs ← base32Vals cs
    return x :: xs

/-- Number of trailing `=` of a block. -/
def trailingPad (blk : Bytes) : Nat := (blk.reverse.takeWhile (· == 61)).length

/-- One block of 8 symbols of data-encoding's `BASE32.decode` (external): trailing `=` are padding, the
number `n` of remaining symbols must be positive with `5 n mod 8 < 5`, the remaining symbols carry 5 bits each,
most significant first; unused trailing bits must be zero. -/
def base32Block (blk : Bytes) : Option Bytes :=
  let n := 8 - trailingPad blk
  if n = 0 ∨ ¬ (5 * n % 8 < 5) then none
  else do
    let vs ← base32Vals (blk.take n)
    let v := vs.foldl (fun acc d => acc * 32 + d) 0
    let extra := 5 * n % 8
    if v % 2 ^ extra = 0 then some (beBytes (5 * n / 8) (v / 2 ^ extra)) else none

/-- `BASE32.decode` (external, data-encoding 2.11): blocks of 8 symbols, each possibly padded. -/
def base32Decode (s : Bytes) : Option Bytes :=
  if s.isEmpty then some []
  else if _h : s.length < 8 then none
  else do
    let b ← base32Block (s.take 8)
    let r ← base32Decode (s.drop 8)
    return b ++ r
termination_by s.length
decreasing_by rw [List.length_drop]; omega

/-- src/types.rs:78-87 `TryFrom<Vec<u8>> for InfoHash`. -/
def infoHashOfVec (bs : Bytes) : Except InfoHashError InfoHash :=
  if h : bs.length = 20 then .ok ⟨bs, h⟩ else .error (.invalidLength bs.length)

/-- src/types.rs:28-33 `InfoHash::from_hex`. -/
def InfoHash.fromHex (s : Bytes) : Except InfoHashError InfoHash :=
  match hexDecode s with
  | none => .error .invalidHex
  | some bs => infoHashOfVec bs

/-- src/types.rs:35-40 `InfoHash::from_base32`. -/
def InfoHash.fromBase32 (s : Bytes) : Except InfoHashError InfoHash :=
  match base32Decode s with
  | none => .error .invalidBase32
  | some bs => infoHashOfVec bs

/-- src/types.rs:60-70 `InfoHash::from_str`. -/
def InfoHash.fromStr (s : Bytes) : Except InfoHashError InfoHash :=
  if s.length = 32 then InfoHash.fromBase32 s else InfoHash.fromHex s

/-- A nibble printed by `{:x}` (std). -/
def hexNibble (n : Nat) : UInt8 := UInt8.ofNat (if n < 10 then 48 + n else 87 + n)

/-- src/types.rs:51-58 `Display for InfoHash`: `{b:02x}` for every byte (also src/dht/mod.rs:21-28). -/
def InfoHash.display (h : InfoHash) : Bytes :=
  h.bytes.flatMap fun b => [hexNibble (b.toNat / 16), hexNibble (b.toNat % 16)]

/-- One byte produced by `Alphanumeric.sample` (rand, external): a byte of `A`–`Z`, `a`–`z`, `0`–`9` chosen by
the 0-based index `r % 62`, where `r` is what the random generator delivers. -/
def alphanumericSample (r : Nat) : UInt8 :=
  let i := r % 62
  UInt8.ofNat (if i < 26 then 65 + i else if i < 52 then 97 + (i - 26) else 48 + (i - 52))

/-- src/types.rs:131-138 `PeerId::generate`: byte `i` is the prefix's byte `i` if there is one, otherwise
the next random alphanumeric byte.  `rng k` is the `k`-th draw from the generator. -/
def genPeerIdBytes (pfx : Bytes) (rng : Nat → Nat) : Bytes :=
  (List.range 20).map fun i =>
    match pfx[i]? with
    | some b => b
    | none => alphanumericSample (rng (i - pfx.length))

/-- src/types.rs:131-138 `PeerId::generate` as a value of type `PeerId`. -/
def PeerId.generate (pfx : Bytes) (rng : Nat → Nat) : PeerId :=
  ⟨genPeerIdBytes pfx rng, by simp [genPeerIdBytes]⟩

/-- build.rs:4-21: the peer id prefix computed from the version's three components. -/
def buildPrefix (major minor patch : Bytes) : Bytes :=
  [45, 68, 77, 45] ++ major ++ (if minor.length < 2 then [48] else []) ++ minor ++ patch ++ [45]

end Demag
