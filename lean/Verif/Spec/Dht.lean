import Verif.Spec.Digits
import Verif.Model.Dht

/-!
# Specification: the nodes known to a DHT lookup
-/

namespace Demag.Spec

/-- What a lookup does with its set of nodes: it learns of a node, it takes the nodes to query next, it marks an ID as responsive. -/
inductive SpaceOp where
  | add (n : Node)
  | ask (k : Nat)
  | mark (id : NodeId)

/-- The known nodes in the order in which they became known: the first node for every address. -/
def learn (l : List Node) : SpaceOp → List Node
  | .add n => if Node.address n ∈ l.map Node.address then l else l ++ [n]
  | _ => l

/-- The known nodes after a history. -/
def known (ops : List SpaceOp) : List Node := ops.foldl learn []

/-- The XOR distance between a node and the target. -/
def nodeDistance (h : InfoHash) (n : Node) : Nat := beValue n.id.bytes ^^^ beValue h.bytes

/-- `n` became known later than `m`. -/
def Later (l : List Node) (n m : Node) : Prop := [m, n].Sublist l

/-- `L` lists the nodes of `l` from the closest to the farthest; among nodes with the same ID those that became known last come first. -/
def IsRanking (h : InfoHash) (l : List Node) (L : List Node) : Prop :=
  L.Perm l ∧ L.Pairwise fun n m => nodeDistance h n < nodeDistance h m ∨ nodeDistance h n = nodeDistance h m ∧ Later l n m

/-- In the history the node was marked: its ID was marked at a moment when it was the latest known node with that ID. -/
def Marked (ops : List SpaceOp) (n : Node) : Prop :=
  ∃ before after, ops = before ++ SpaceOp.mark n.id :: after ∧ n ∈ known before ∧
    ∀ m ∈ known before, m.id = n.id → m = n ∨ Later (known before) n m

/-- One operation on the node set of the model, and the nodes that are to be queried because of it. -/
def spaceApply (s : NodeSpace) : SpaceOp → NodeSpace × List Node
  | .add n => (s.add n, [])
  | .ask k => s.closestUnqueried k
  | .mark id => (s.markResponsive id, [])

/-- A history: the node set, and all the nodes that were to be queried. -/
def spaceRun (s : NodeSpace) : List SpaceOp → NodeSpace × List Node
  | [] => (s, [])
  | op :: ops =>
    let r := spaceApply s op
    let r' := spaceRun r.1 ops
    (r'.1, r.2 ++ r'.2)

end Demag.Spec
