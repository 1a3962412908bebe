import Verif.Spec.Digits
import Verif.Model.Framing

/-!
# Specification: length-prefixed frames
-/

namespace Demag.Spec

/-- A 4-byte big-endian length `n`. -/
def IsHeader (n : Nat) (h : List UInt8) : Prop := h.length = 4 ∧ beValue h = n

/-- `bs` consists of the frames with the payloads `ps`, none longer than 65535 bytes. -/
inductive IsFrames : List (List UInt8) → List UInt8 → Prop
  | nil : IsFrames [] []
  | cons {p ps h bs} : IsHeader p.length h → p.length ≤ 65535 → IsFrames ps bs → IsFrames (p :: ps) (h ++ p ++ bs)

/-- The header of a frame that is too long. -/
def TooLong (t : List UInt8) : Prop := ∃ h x n, t = h ++ x ∧ IsHeader n h ∧ 65535 < n

/-- The beginning of a frame (possibly nothing at all), with `left` bytes received of its header or, after a complete
header, of its payload. -/
def Incomplete (t : List UInt8) (left : Nat) : Prop :=
  (t.length < 4 ∧ left = t.length) ∨
  ∃ h x n, t = h ++ x ∧ IsHeader n h ∧ n ≤ 65535 ∧ x.length < n ∧ left = x.length

/-- Why reading stops within an incomplete frame of which `left` bytes are there. -/
def stopOf (ending : Ending) (left : Nat) : Stop :=
  match ending with
  | .eof => if left = 0 then .disconnect else .truncated
  | .ioError => .ioError
  | .stall => .pending

/-- There is no further frame in `t`: reading stops for the given reason. -/
def NoFrame (ending : Ending) (t : List UInt8) (stop : Stop) : Prop :=
  (TooLong t ∧ stop = .tooBig) ∨ ∃ left, Incomplete t left ∧ stop = stopOf ending left

end Demag.Spec
