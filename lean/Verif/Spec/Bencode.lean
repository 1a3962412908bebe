import Verif.Spec.Digits

/-!
# Specification: bencode (BEP 3)

The abstract values, their (unique) encoding, and the two side conditions a
document must meet: dictionary keys strictly increasing as raw byte strings, and
bounded nesting.  Nothing here refers to the model.
-/

namespace Demag.Spec

/-- A bencode value. -/
inductive Ben where
  | int (i : Int)
  | bytes (b : List UInt8)
  | list (l : List Ben)
  | dict (d : List (List UInt8 × Ben))

/-- Decimal digits (ASCII) of a natural number, without leading zeros. -/
def dec (n : Nat) : List UInt8 :=
  if n < 10 then [UInt8.ofNat (48 + n)] else dec (n / 10) ++ [UInt8.ofNat (48 + n % 10)]
termination_by n

/-- Decimal text of an integer. -/
def decInt : Int → List UInt8
  | .ofNat n => dec n
  | .negSucc n => 45 :: dec (n + 1)

/-- Encoding of a byte string: length, colon, bytes. -/
def encBytes (b : List UInt8) : List UInt8 := dec b.length ++ 58 :: b

mutual
/-- The bencoding of a value. -/
def benc : Ben → List UInt8
  | .int i => 105 :: (decInt i ++ [101])
  | .bytes b => encBytes b
  | .list l => 108 :: (bencList l ++ [101])
  | .dict d => 100 :: (bencDict d ++ [101])
/-- The elements of a list, one after the other. -/
def bencList : List Ben → List UInt8
  | [] => []
  | v :: vs => benc v ++ bencList vs
/-- The pairs of a dictionary, one after the other. -/
def bencDict : List (List UInt8 × Ben) → List UInt8
  | [] => []
  | (k, v) :: kvs => encBytes k ++ benc v ++ bencDict kvs
end

/-- Strict lexicographic order on byte strings. -/
def bytesLt : List UInt8 → List UInt8 → Bool
  | _, [] => false
  | [], _ :: _ => true
  | a :: as, b :: bs => decide (a.toNat < b.toNat) || (decide (a = b) && bytesLt as bs)

/-- Keys are strictly increasing. -/
def SortedKeys {α : Type} : List (List UInt8 × α) → Prop
  | [] => True
  | [_] => True
  | a :: b :: rest => bytesLt a.1 b.1 = true ∧ SortedKeys (b :: rest)

mutual
/-- All dictionaries inside the value have strictly increasing keys. -/
def Canonical : Ben → Prop
  | .int _ => True
  | .bytes _ => True
  | .list l => CanonicalList l
  | .dict d => SortedKeys d ∧ CanonicalDict d
def CanonicalList : List Ben → Prop
  | [] => True
  | v :: vs => Canonical v ∧ CanonicalList vs
def CanonicalDict : List (List UInt8 × Ben) → Prop
  | [] => True
  | (_, v) :: kvs => Canonical v ∧ CanonicalDict kvs
end

mutual
/-- Number of nested lists/dictionaries. -/
def depth : Ben → Nat
  | .int _ => 0
  | .bytes _ => 0
  | .list l => depthList l + 1
  | .dict d => depthDict d + 1
def depthList : List Ben → Nat
  | [] => 0
  | v :: vs => max (depth v) (depthList vs)
def depthDict : List (List UInt8 × Ben) → Nat
  | [] => 0
  | (_, v) :: kvs => max (depth v) (depthDict kvs)
end

/-- The value stored under a key of a dictionary (first entry). -/
def lookup (k : List UInt8) (d : List (List UInt8 × Ben)) : Option Ben :=
  (d.find? fun kv => kv.1 == k).map Prod.snd

end Demag.Spec
