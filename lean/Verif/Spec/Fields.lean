import Verif.Spec.Bencode

/-!
# Specification: optional fields of a bencoded dictionary
-/

namespace Demag.Spec

/-- ASCII text as bytes. -/
def keyBytes (s : String) : List UInt8 := s.toList.map fun c => UInt8.ofNat c.toNat

/-- The optional field `k` of the dictionary: absent and `x` is absent, or present with a value that denotes `x`. -/
def OptField {α : Type} (k : String) (kvs : List (List UInt8 × Ben)) (P : Ben → α → Prop) (x : Option α) : Prop :=
  match lookup (keyBytes k) kvs, x with
  | none, none => True
  | some v, some a => P v a
  | _, _ => False

/-- The mandatory field `k` of the dictionary. -/
def ReqField {α : Type} (k : String) (kvs : List (List UInt8 × Ben)) (P : Ben → α → Prop) (x : α) : Prop :=
  ∃ v, lookup (keyBytes k) kvs = some v ∧ P v x

/-- The integer `x`, which fits `w` bits. -/
def IsUint (w : Nat) (v : Ben) (x : BitVec w) : Prop := v = .int x.toNat

/-- The byte string `x`. -/
def IsBytes (v : Ben) (x : List UInt8) : Prop := v = .bytes x

end Demag.Spec
