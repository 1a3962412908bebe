import Verif.Model.ConnectTime

/-!
# Specification: the two deadlines of an encrypted connection (C94)
-/

namespace Demag.Spec

/-- The peer neither closes the connection nor lets it break before the moment `t`; it may send what it likes. -/
def StaysOpen (w : TimedNet) (t : Nat) : Prop :=
  ∀ a ∈ w.arrivals, a.1 ≤ t → ∃ b, b ≠ [] ∧ a.2 = .data b

/-- Nothing arrives before the moment `t`. -/
def SilentUntil (w : TimedNet) (t : Nat) : Prop := ∀ a ∈ w.arrivals, t < a.1

/-- The connection is made, and the first packet sent, in time. -/
def Reachable (w : TimedNet) (t : Nat) : Prop := w.connect = .ok ∧ w.connectedAt ≤ t ∧ w.sends 0 = .ok ∧ w.sentAt ≤ t

end Demag.Spec
