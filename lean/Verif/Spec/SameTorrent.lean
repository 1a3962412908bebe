import Verif.Spec.Program
import Verif.Spec.Disk

/-!
# Specification: two torrent files for the same info hash
-/

namespace Demag.Spec

/-- Two different texts have the same digest. -/
def Collide (sha1 : List UInt8 → List UInt8) (a b : List UInt8) : Prop := a ≠ b ∧ sha1 a = sha1 b

/-- The file is a bencoded dictionary with the value `v` under the key `k`. -/
def DictField (file k : List UInt8) (v : Ben) : Prop := ∃ d, Canonical (.dict d) ∧ file = benc (.dict d) ∧ lookup k d = some v

/-- Two files that have the same under all keys, but for those named. -/
def SameExcept (keys : List String) (file file' : List UInt8) : Prop :=
  ∀ k, k ∉ keys.map keyBytes → ∀ v, DictField file k v ↔ DictField file' k v

end Demag.Spec
