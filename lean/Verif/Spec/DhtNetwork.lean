import Verif.Spec.DhtLookup

/-! # Specification: a DHT with good and bad nodes -/

namespace Demag.Spec

/-- A good node with fewer than 8 nodes, good or bad, at its distance from the target or closer: one of those where peers are to be
announced and looked for. -/
def Central (h : InfoHash) (good bad : List Node) (n : Node) : Prop :=
  n ∈ good ∧ ((good ++ bad).filter fun m => m ≠ n ∧ nodeDistance h m ≤ nodeDistance h n).length < 8

/-- The replies `rs` come from a network of good and bad nodes (`bad` are nodes that are down or lie, and also those that do not exist
but are listed by someone).  Nothing is assumed about replies of bad nodes, except that everything they list is counted in. -/
structure Network (h : InfoHash) (good bad : List Node) (rs : List (SockAddr × GetPeersResponse)) : Prop where
  /-- A node has one address, and an address belongs to one node. -/
  one_name : ((good ++ bad).map Node.address).Nodup
  /-- Everything anybody lists. -/
  only : ∀ r ∈ rs, ∀ n ∈ listed r.2, n ∈ good ++ bad
  /-- Good nodes in the centre know each other. -/
  near : ∀ r ∈ rs, ∀ n, r.1 = Node.address n → Central h good bad n → ∀ m, Central h good bad m → m ≠ n → m ∈ listed r.2
  /-- Any other good node knows a good node that is closer than itself. -/
  far : ∀ r ∈ rs, ∀ n ∈ good, r.1 = Node.address n → ¬ Central h good bad n →
    ∃ m ∈ good, m ∈ listed r.2 ∧ nodeDistance h m < nodeDistance h n

end Demag.Spec
