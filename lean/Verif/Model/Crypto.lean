import Verif.Model.Wire

/-!
# Model: RC4 and SHA-1 (crates `rc4`, `sha1`)

The two algorithms as published (RC4: the key schedule and the generator; SHA-1: FIPS 180-4).  They are external crates; the theorems
about the encrypted connection use of RC4 only that it XORs the data with a stream of bytes that its state determines, and of SHA-1
only the length of its digests.
-/

namespace Demag

/-- The state of RC4: a permutation of the bytes and two indices. -/
structure Rc4 where
  s : List UInt8
  i : UInt8
  j : UInt8
  deriving DecidableEq

/-- Exchange two elements. -/
def swapAt (l : List UInt8) (i j : UInt8) : List UInt8 :=
  (l.set i.toNat (l.getD j.toNat 0)).set j.toNat (l.getD i.toNat 0)

/-- One step of the key schedule. -/
def rc4Schedule (key : Bytes) (st : List UInt8 × UInt8) (i : Nat) : List UInt8 × UInt8 :=
  let j := st.2 + st.1.getD i 0 + key.getD (i % key.length) 0
  (swapAt st.1 (UInt8.ofNat i) j, j)

/-- `Rc4::new_from_slice` (crate `rc4`), for the keys of 20 bytes that are used. -/
def Rc4.new (key : Bytes) : Rc4 :=
  ⟨((List.range 256).foldl (rc4Schedule key) ((List.range 256).map UInt8.ofNat, 0)).1, 0, 0⟩

/-- One byte of the keystream. -/
def Rc4.next (r : Rc4) : UInt8 × Rc4 :=
  let i := r.i + 1
  let j := r.j + r.s.getD i.toNat 0
  let s := swapAt r.s i j
  (s.getD (s.getD i.toNat 0 + s.getD j.toNat 0).toNat 0, ⟨s, i, j⟩)

/-- `StreamCipher::apply_keystream` (crate `rc4`). -/
def Rc4.apply : Rc4 → Bytes → Bytes × Rc4
  | r, [] => ([], r)
  | r, b :: bs =>
    let n := r.next
    let t := n.2.apply bs
    ((b ^^^ n.1) :: t.1, t.2)

/-! ### SHA-1 -/

/-- Rotation to the left. -/
def rotl (x : BitVec 32) (n : Nat) : BitVec 32 := x <<< n ||| x >>> (32 - n)

/-- FIPS 180-4 section 5.1.1: the padded message. -/
def sha1Pad (m : Bytes) : Bytes := m ++ [0x80] ++ List.replicate ((119 - m.length % 64) % 64) 0 ++ beBytes 8 (8 * m.length)

/-- The bytes of a block as words. -/
def toWords : Bytes → List (BitVec 32)
  | a :: b :: c :: d :: rest => BitVec.ofNat 32 (beAccum [a, b, c, d]) :: toWords rest
  | _ => []

/-- FIPS 180-4 section 6.1.2, step 1: the next word of the schedule; `w` are the last sixteen, the latest first. -/
def nextWord (w : List (BitVec 32)) : BitVec 32 := rotl (w.getD 2 0 ^^^ w.getD 7 0 ^^^ w.getD 13 0 ^^^ w.getD 15 0) 1

/-- The five words of the state. -/
structure Sha1State where
  a : BitVec 32
  b : BitVec 32
  c : BitVec 32
  d : BitVec 32
  e : BitVec 32

/-- FIPS 180-4 sections 4.1.1 and 4.2.1. -/
def sha1F (t : Nat) (b c d : BitVec 32) : BitVec 32 × BitVec 32 :=
  if t < 20 then ((b &&& c) ^^^ (~~~b &&& d), 0x5a827999#32)
  else if t < 40 then (b ^^^ c ^^^ d, 0x6ed9eba1#32)
  else if t < 60 then ((b &&& c) ^^^ (b &&& d) ^^^ (c &&& d), 0x8f1bbcdc#32)
  else (b ^^^ c ^^^ d, 0xca62c1d6#32)

/-- FIPS 180-4 section 6.1.2, step 3: `n` rounds from round `t`; `w` are the coming words of the block, `last` the used ones. -/
def sha1Rounds : Nat → Nat → List (BitVec 32) → List (BitVec 32) → Sha1State → Sha1State
  | 0, _, _, _, s => s
  | n + 1, t, w, last, s =>
    let x := match w with
      | x :: _ => x
      | [] => nextWord last
    let f := sha1F t s.b s.c s.d
    sha1Rounds n (t + 1) w.tail ((x :: last).take 16) ⟨rotl s.a 5 + f.1 + s.e + f.2 + x, s.a, rotl s.b 30, s.c, s.d⟩

/-- One block. -/
def sha1Block (h : Sha1State) (block : Bytes) : Sha1State :=
  let s := sha1Rounds 80 0 (toWords block) [] h
  ⟨h.a + s.a, h.b + s.b, h.c + s.c, h.d + s.d, h.e + s.e⟩

/-- All the blocks; the first argument is their number. -/
def sha1Blocks : Nat → Sha1State → Bytes → Sha1State
  | 0, h, _ => h
  | n + 1, h, m => sha1Blocks n (sha1Block h (m.take 64)) (m.drop 64)

/-- `Sha1::digest` (crate `sha1`). -/
def sha1 (m : Bytes) : Bytes :=
  let p := sha1Pad m
  let h := sha1Blocks (p.length / 64) ⟨0x67452301#32, 0xefcdab89#32, 0x98badcfe#32, 0x10325476#32, 0xc3d2e1f0#32⟩ p
  putU32 h.a ++ putU32 h.b ++ putU32 h.c ++ putU32 h.d ++ putU32 h.e

end Demag
