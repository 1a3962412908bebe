import Verif.Spec.DhtTraffic

/-!
# Specification: how long DHT lookups take

Runs of the DHT client in which events, and so effects, have times.
-/

namespace Demag.Spec

/-- Effects with the times at which they happen. -/
abbrev DhtTimes := List (Nat × DhtEffect)

/-- The effects without their times. -/
def untimed (l : DhtTimes) : List DhtEffect := l.map Prod.snd

/-- At time `now`, no query is outstanding for which the time to answer, `T`, has run out: each was sent no longer than `T` ago.  (The client sets a
timer for each query it sends, src/dht/actor.rs:223, and `lookup_progress` shows that it is there as long as the query is outstanding; so this says that
timers are looked at when they are due.) -/
def NoneOverdue (T now : Nat) (l : DhtTimes) : Prop :=
  ∀ sid addr txn, (addr, txn) ∈ outstanding sid (untimed l) →
    ∃ t q p, (t, DhtEffect.query sid addr q p true) ∈ l ∧ q.transactionId = txn ∧ now ≤ t + T

/-- The runs of a new client in which every event happens before any timer is overdue. -/
inductive DhtTimed (lookup : Text → BitVec 16 → Option (List SockAddr)) (nodes : List InetAddr) (my : NodeId) (v6 : Bool) (T : Nat) :
    List DhtEvent → DhtState → DhtTimes → Prop
  | nil : DhtTimed lookup nodes my v6 T [] (.init my v6) []
  | snoc {es st l e st' out} (now : Nat) : DhtTimed lookup nodes my v6 T es st l → NoneOverdue T now l →
      st.step lookup nodes e = some (st', out) → DhtTimed lookup nodes my v6 T (es ++ [e]) st' (l ++ out.map fun x => (now, x))

end Demag.Spec
