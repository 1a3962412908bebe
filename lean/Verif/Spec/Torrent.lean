import Verif.Spec.Bencode

/-!
# Specification: metadata pieces (BEP 9)
-/

namespace Demag.Spec

/-- Number of pieces of metadata of `n` bytes: as many blocks of 16 KiB as are needed to hold it. -/
def pieceCount (n : Nat) : Nat := (n + 16383) / 16384

/-- Size of piece `i`: 16 KiB, or what is left. -/
def pieceSize (n i : Nat) : Nat := min 16384 (n - 16384 * i)

/-- The pieces are a correct beginning of the metadata of `n` bytes: no more than there are, each of its size. -/
def GoodPieces (n : Nat) (ps : List (List UInt8)) : Prop :=
  ps.length ≤ pieceCount n ∧ ∀ i, (h : i < ps.length) → (ps[i]).length = pieceSize n i

end Demag.Spec
