/-!
# Byte buffers: the model of `/repo/src/util.rs` (`TryBytes`, `TryFromBuf`)

Byte strings (`Bytes`, `&[u8]`, `Vec<u8>`) are `List UInt8`.  Rust's unsigned
integers of `n` bits are `BitVec n`.
-/

namespace Demag

deriving instance DecidableEq for Except

/-- A byte string: `bytes::Bytes`, `Vec<u8>`, `&[u8]`. -/
abbrev Bytes := List UInt8

/-- A Rust `String`/`&str`: a sequence of Unicode scalar values (`Char` in Lean is exactly that). -/
abbrev Text := List Char

/-- `str::as_bytes`: the UTF-8 encoding of a text (standard library). -/
def utf8 (t : Text) : Bytes := t.flatMap String.utf8EncodeChar

/-- src/util.rs:126-132 `PacketError`. -/
inductive PacketError where
  | short
  | long
  deriving DecidableEq, Repr

/-- `BufMut::put_u8/16/32/64` and `to_be_bytes` (crate `bytes`/std): the `w` low-order bytes of `n`,
most significant first. -/
def beBytes : Nat → Nat → Bytes
  | 0, _ => []
  | w + 1, n => UInt8.ofNat (n / 256 ^ w) :: beBytes w n

/-- `Buf::get_u8/16/32/64/128` (crate `bytes`) and `from_be_bytes` (std): accumulate the bytes most
significant first. -/
def beAccum (bs : Bytes) : Nat := bs.foldl (fun acc b => acc * 256 + b.toNat) 0

/-- `BufMut::put_u8`. -/
def putU8 (x : BitVec 8) : Bytes := beBytes 1 x.toNat
/-- `BufMut::put_u16`. -/
def putU16 (x : BitVec 16) : Bytes := beBytes 2 x.toNat
/-- `BufMut::put_u32` (and `put_i32`, which writes the same two's complement bits). -/
def putU32 (x : BitVec 32) : Bytes := beBytes 4 x.toNat
/-- `BufMut::put_u64`. -/
def putU64 (x : BitVec 64) : Bytes := beBytes 8 x.toNat

/-- src/util.rs:84-86 trait `TryFromBuf`.  The law `shrink` (every implementation consumes at least
one byte) is what makes the `while` loop of `try_get_all` terminate. -/
class TryFromBuf (α : Type) where
  tryGet : Bytes → Except PacketError (α × Bytes)
  shrink : ∀ b x r, tryGet b = .ok (x, r) → r.length < b.length

/-- src/util.rs:88-100 macro `impl_tryfrombuf!`: check that `len` bytes remain, then read them. -/
def tryGetUint (len bits : Nat) (buf : Bytes) : Except PacketError (BitVec bits × Bytes) :=
  if buf.length ≥ len then
    .ok (BitVec.ofNat bits (beAccum (buf.take len)), buf.drop len)
  else
    .error .short

theorem tryGetUint_shrink {len bits : Nat} (h : 0 < len) (b : Bytes) (x : BitVec bits) (r : Bytes) :
    tryGetUint len bits b = .ok (x, r) → r.length < b.length := by
  unfold tryGetUint
  split
  · intro e
    simp only [Except.ok.injEq, Prod.mk.injEq] at e
    rw [← e.2, List.length_drop]; omega
  · intro e; cases e

/-- src/util.rs:102 `u8`. -/
instance : TryFromBuf (BitVec 8) := ⟨tryGetUint 1 8, tryGetUint_shrink (by decide)⟩
/-- src/util.rs:103 `u16`. -/
instance : TryFromBuf (BitVec 16) := ⟨tryGetUint 2 16, tryGetUint_shrink (by decide)⟩
/-- src/util.rs:104-105 `u32` and `i32` (an `i32` is represented by its 32 bits). -/
instance : TryFromBuf (BitVec 32) := ⟨tryGetUint 4 32, tryGetUint_shrink (by decide)⟩
/-- src/util.rs:106 `u64`. -/
instance : TryFromBuf (BitVec 64) := ⟨tryGetUint 8 64, tryGetUint_shrink (by decide)⟩

/-- `std::net::Ipv4Addr` (its `u32` value, as given by `From<u32>`). -/
structure Ipv4 where
  bits : BitVec 32
  deriving DecidableEq, Repr

/-- `std::net::Ipv6Addr` (its `u128` value, as given by `From<u128>`). -/
structure Ipv6 where
  bits : BitVec 128
  deriving DecidableEq, Repr

/-- `Ipv4Addr::octets` (std). -/
def Ipv4.octets (ip : Ipv4) : Bytes := beBytes 4 ip.bits.toNat
/-- `Ipv6Addr::octets` (std). -/
def Ipv6.octets (ip : Ipv6) : Bytes := beBytes 16 ip.bits.toNat

/-- `std::net::SocketAddrV4`. -/
structure SockV4 where
  ip : Ipv4
  port : BitVec 16
  deriving DecidableEq, Repr

/-- `std::net::SocketAddrV6`.  Simplification: the flow info and scope id, which every construction
in the code sets to 0 (src/util.rs:122, src/compact.rs:78,118), are left out. -/
structure SockV6 where
  ip : Ipv6
  port : BitVec 16
  deriving DecidableEq, Repr

/-- `std::net::IpAddr`. -/
inductive IpAddr where
  | v4 (ip : Ipv4)
  | v6 (ip : Ipv6)
  deriving DecidableEq, Repr

/-- `std::net::SocketAddr`. -/
inductive SockAddr where
  | v4 (a : SockV4)
  | v6 (a : SockV6)
  deriving DecidableEq, Repr

/-- src/util.rs:107 `Ipv4Addr`. -/
def tryGetIpv4 (buf : Bytes) : Except PacketError (Ipv4 × Bytes) := do
  let (x, r) ← tryGetUint 4 32 buf
  return (⟨x⟩, r)

/-- src/util.rs:108 `Ipv6Addr`. -/
def tryGetIpv6 (buf : Bytes) : Except PacketError (Ipv6 × Bytes) := do
  let (x, r) ← tryGetUint 16 128 buf
  return (⟨x⟩, r)

/-- src/util.rs:110-116 `SocketAddrV4::try_from_buf`. -/
def tryGetSockV4 (buf : Bytes) : Except PacketError (SockV4 × Bytes) := do
  let (ip, buf) ← tryGetIpv4 buf
  let (port, buf) ← tryGetUint 2 16 buf
  return (⟨ip, port⟩, buf)

/-- src/util.rs:118-124 `SocketAddrV6::try_from_buf`. -/
def tryGetSockV6 (buf : Bytes) : Except PacketError (SockV6 × Bytes) := do
  let (ip, buf) ← tryGetIpv6 buf
  let (port, buf) ← tryGetUint 2 16 buf
  return (⟨ip, port⟩, buf)

theorem tryGetIpv4_shrink (b : Bytes) (x : Ipv4) (r : Bytes) (h : tryGetIpv4 b = .ok (x, r)) :
    r.length < b.length := by
  unfold tryGetIpv4 at h
  cases e : tryGetUint 4 32 b with
  | error => rw [e] at h; cases h
  | ok v =>
    obtain ⟨y, r'⟩ := v
    have := tryGetUint_shrink (by decide) _ _ _ e
    rw [e] at h; cases h; exact this

theorem tryGetIpv6_shrink (b : Bytes) (x : Ipv6) (r : Bytes) (h : tryGetIpv6 b = .ok (x, r)) :
    r.length < b.length := by
  unfold tryGetIpv6 at h
  cases e : tryGetUint 16 128 b with
  | error => rw [e] at h; cases h
  | ok v =>
    obtain ⟨y, r'⟩ := v
    have := tryGetUint_shrink (by decide) _ _ _ e
    rw [e] at h; cases h; exact this

theorem tryGetSockV4_shrink (b : Bytes) (x : SockV4) (r : Bytes) (h : tryGetSockV4 b = .ok (x, r)) :
    r.length < b.length := by
  unfold tryGetSockV4 at h
  cases e : tryGetIpv4 b with
  | error => rw [e] at h; cases h
  | ok v =>
    obtain ⟨y, r'⟩ := v
    have h1 := tryGetIpv4_shrink _ _ _ e
    rw [e] at h
    simp only [bind, Except.bind] at h
    cases e2 : tryGetUint 2 16 r' with
    | error => rw [e2] at h; cases h
    | ok w =>
      obtain ⟨z, r''⟩ := w
      have h2 := tryGetUint_shrink (by decide) _ _ _ e2
      rw [e2] at h; cases h; exact Nat.lt_trans h2 h1

theorem tryGetSockV6_shrink (b : Bytes) (x : SockV6) (r : Bytes) (h : tryGetSockV6 b = .ok (x, r)) :
    r.length < b.length := by
  unfold tryGetSockV6 at h
  cases e : tryGetIpv6 b with
  | error => rw [e] at h; cases h
  | ok v =>
    obtain ⟨y, r'⟩ := v
    have h1 := tryGetIpv6_shrink _ _ _ e
    rw [e] at h
    simp only [bind, Except.bind] at h
    cases e2 : tryGetUint 2 16 r' with
    | error => rw [e2] at h; cases h
    | ok w =>
      obtain ⟨z, r''⟩ := w
      have h2 := tryGetUint_shrink (by decide) _ _ _ e2
      rw [e2] at h; cases h; exact Nat.lt_trans h2 h1

instance : TryFromBuf Ipv4 := ⟨tryGetIpv4, tryGetIpv4_shrink⟩
instance : TryFromBuf Ipv6 := ⟨tryGetIpv6, tryGetIpv6_shrink⟩
instance : TryFromBuf SockV4 := ⟨tryGetSockV4, tryGetSockV4_shrink⟩
instance : TryFromBuf SockV6 := ⟨tryGetSockV6, tryGetSockV6_shrink⟩

/-- src/util.rs:34-36 `TryBytes::try_get`. -/
def tryGet (α : Type) [TryFromBuf α] (buf : Bytes) : Except PacketError (α × Bytes) :=
  TryFromBuf.tryGet buf

/-- src/util.rs:38-44 `TryBytes::try_get_all`: the `while` loop as a well-founded recursion. -/
def tryGetAll (α : Type) [TryFromBuf α] (buf : Bytes) : Except PacketError (List α) :=
  if buf.isEmpty then .ok []
  else
    match _h : TryFromBuf.tryGet (α := α) buf with
    | .error e => .error e
    | .ok (x, rest) => do
      let xs ← tryGetAll α rest
      return x :: xs
termination_by buf.length
decreasing_by exact TryFromBuf.shrink _ _ _ _h

/-- src/util.rs:46-52 `TryBytes::try_get_bytes`. -/
def tryGetBytes (len : Nat) (buf : Bytes) : Except PacketError (Bytes × Bytes) :=
  if buf.length ≥ len then .ok (buf.take len, buf.drop len) else .error .short

/-- src/util.rs:58-64 `TryBytes::eof`. -/
def eof (buf : Bytes) : Except PacketError Unit :=
  if buf.isEmpty then .ok () else .error .long

/-- src/types.rs:22-23 `InfoHash`: exactly 20 bytes. -/
structure InfoHash where
  bytes : Bytes
  len : bytes.length = 20
  deriving DecidableEq

/-- src/types.rs:125-126 `PeerId`: exactly 20 bytes. -/
structure PeerId where
  bytes : Bytes
  len : bytes.length = 20
  deriving DecidableEq

/-- src/types.rs:89-99 `InfoHash::try_from_buf`. -/
def tryGetInfoHash (buf : Bytes) : Except PacketError (InfoHash × Bytes) :=
  if h : buf.length ≥ 20 then
    .ok (⟨buf.take 20, by rw [List.length_take]; omega⟩, buf.drop 20)
  else .error .short

/-- src/types.rs:183-193 `PeerId::try_from_buf`. -/
def tryGetPeerId (buf : Bytes) : Except PacketError (PeerId × Bytes) :=
  if h : buf.length ≥ 20 then
    .ok (⟨buf.take 20, by rw [List.length_take]; omega⟩, buf.drop 20)
  else .error .short

end Demag
