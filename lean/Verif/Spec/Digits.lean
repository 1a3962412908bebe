/-!
# Specification: positional numerals

Independent of the model.  `ofDigits b ds` is the number denoted by the digit
list `ds` (most significant first) in base `b`: the sum of every digit times
its place value.
-/

namespace Demag.Spec

/-- Value of a most-significant-first numeral in base `b`. -/
def ofDigits (b : Nat) : List Nat → Nat
  | [] => 0
  | d :: ds => d * b ^ ds.length + ofDigits b ds

/-- Big-endian (network byte order) value of a byte string. -/
def beValue (bs : List UInt8) : Nat := ofDigits 256 (bs.map UInt8.toNat)

end Demag.Spec
