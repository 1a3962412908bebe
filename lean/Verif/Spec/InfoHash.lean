import Verif.Spec.Digits

/-!
# Specification: textual forms of an info hash
-/

namespace Demag.Spec

/-- ASCII text as bytes. -/
def ascii (s : String) : List UInt8 := s.toList.map fun c => UInt8.ofNat c.toNat

/-- Lower-case an ASCII letter. -/
def asciiLower (c : UInt8) : UInt8 :=
  if 65 ≤ c.toNat ∧ c.toNat ≤ 90 then UInt8.ofNat (c.toNat + 32) else c

/-- The lower-case hexadecimal text of a byte string: two digits per byte. -/
def hexText (bs : List UInt8) : List UInt8 :=
  bs.flatMap fun b => [(ascii "0123456789abcdef").getD (b.toNat / 16) 0,
    (ascii "0123456789abcdef").getD (b.toNat % 16) 0]

/-- `s` is a hexadecimal text of `bs`, letters in either case. -/
def IsHexOf (s bs : List UInt8) : Prop := s.map asciiLower = hexText bs

/-- `s` is the (unpadded, upper-case) base32 text of the 20 bytes `bs`: 32 symbols of the RFC 4648 alphabet that,
read as a number in base 32, denote the same number as the bytes in base 256. -/
def IsBase32Of (s bs : List UInt8) : Prop :=
  ∃ ds : List Nat, ds.length = 32 ∧ (∀ d ∈ ds, d < 32) ∧
    s = ds.map (fun d => (ascii "ABCDEFGHIJKLMNOPQRSTUVWXYZ234567").getD d 0) ∧
    ofDigits 32 ds = beValue bs

/-- `blk` is the base32 text, padded to 8 characters, of the one to five bytes `b` (RFC 4648, section 6): as many symbols as hold the bytes, the
bits left over being zero, and `=` signs. -/
def IsBase32Block (blk b : List UInt8) : Prop :=
  1 ≤ b.length ∧ b.length ≤ 5 ∧ ∃ ds : List Nat, ds.length = (8 * b.length + 4) / 5 ∧ (∀ d ∈ ds, d < 32) ∧
    blk = ds.map (fun d => (ascii "ABCDEFGHIJKLMNOPQRSTUVWXYZ234567").getD d 0) ++ List.replicate (8 - ds.length) 61 ∧
    ofDigits 32 ds = beValue b * 2 ^ (5 * ds.length - 8 * b.length)

/-- `s` consists of base32 texts padded to 8 characters each, and `bs` of their bytes. -/
inductive IsPaddedBase32 : List UInt8 → List UInt8 → Prop
  | nil : IsPaddedBase32 [] []
  | cons {blk b s bs} : IsBase32Block blk b → IsPaddedBase32 s bs → IsPaddedBase32 (blk ++ s) (b ++ bs)

/-- ASCII letters and digits. -/
def IsAlphanumeric (c : UInt8) : Prop :=
  (65 ≤ c.toNat ∧ c.toNat ≤ 90) ∨ (97 ≤ c.toNat ∧ c.toNat ≤ 122) ∨ (48 ≤ c.toNat ∧ c.toNat ≤ 57)

end Demag.Spec
