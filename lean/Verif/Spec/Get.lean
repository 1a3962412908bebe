import Verif.Spec.Resolve
import Verif.Spec.DhtLookup
import Verif.Spec.TrackerFlow
import Verif.Model.Get

/-! # Specification: where the peers of a download come from -/

namespace Demag.Spec

/-- An announcement that we have started to download the torrent `ih`. -/
def Starts (a : Announcement) (ih : InfoHash) (localId : PeerId) : Prop := a.infoHash = ih ∧ a.peerId = localId ∧ a.event = .started

/-- In the conversation `tr` with the tracker `t`, we announce that we have started to download `ih`, and the answer names the peer `p`: a UDP
tracker, at the address found for its host, lists the peer's address in a packet with the transaction ID of that announcement; an HTTP tracker
answers the request for its URL (with the parameters of the announcement) with a dictionary that lists the peer. -/
inductive Names (lossy : List UInt8 → List Char) (parseIp : List Char → Option IpAddr) (ih : InfoHash) (localId : PeerId) :
    Tracker → AskTrace → Peer → Prop
  | udp {u tr a addr req cid xid ue o bs i l n addrs p} : Starts a ih localId → (addr, req) ∈ datagrams tr → Found tr addr →
      IsAnnounceRequest cid xid a (utf8 u.urldata) req → (AskEvent.udp ue, o) ∈ tr → ue.input = .packet bs →
      IsAnnounceResponse addr.isV6 xid i l n addrs bs → p.address ∈ addrs → p.id = none → p.requiresCrypto = false →
      Names lossy parseIp ih localId (.udp u) tr p
  | http {u tr a url o kvs r p} : Starts a ih localId → url ∈ requests tr → IsHttpAnnounce u a url →
      (AskEvent.http (.body (benc (.dict kvs))), o) ∈ tr → Canonical (.dict kvs) → DenotesResponse lossy parseIp kvs r → p ∈ r.peers →
      Names lossy parseIp ih localId (.http u) tr p

/-- An announcement for the torrent `ih` made with our peer ID, key and port and with what is configured: how many peers we want, and that we
insist on encryption, or can do it, or neither (the option `encrypt`).  Nothing is said to have been downloaded or uploaded yet. -/
def AsConfigured (env : GetEnv) (ih : InfoHash) (a : Announcement) : Prop :=
  a.infoHash = ih ∧ a.peerId = env.localId ∧ a.key = env.key ∧ a.port = env.port ∧ a.downloaded = 0 ∧ a.uploaded = 0 ∧ a.left ≠ 0 ∧
    (env.cfg.trackers.numwant < 2 ^ 32 → a.numwant.toNat = env.cfg.trackers.numwant) ∧
    (a.crypto = .required ↔ env.cfg.general.encrypt = .always) ∧ (a.crypto = .plain ↔ env.cfg.general.encrypt = .never)

/-- `peers` and `nodes` are found by a lookup of `ih` on the DHT, reached through the nodes `bootstrap`, that has come to its end (none of its queries is outstanding, unless a
transaction ID was used again): the peers listed in the valid responses to its
queries, each once, and the addresses of the first 8 marked nodes in the order of their distance. -/
def FoundOnDht (bootstrap : List InetAddr) (ih : InfoHash) (peers : List Peer) (nodes : List SockAddr) : Prop :=
  ∃ lookup my v6 es st tr req sid, (DhtState.init my v6).run lookup bootstrap es = some (st, tr) ∧
    DhtEvent.submit (.lookup req ih) ∈ es ∧ DhtEffect.started sid req ih ∈ tr ∧
    ((bootstrapOf es).length ≤ 2 ^ 32 → NoReuse tr → outstanding sid tr = []) ∧
    peers.Nodup ∧ (∀ p, p ∈ peers ↔ p ∈ peersOf (responses sid tr)) ∧
    ∀ marked : Node → Bool, (∀ n, marked n = true ↔ Marked (nodeOps (responses sid tr)) n) →
      ∃ L, IsRanking ih (known (nodeOps (responses sid tr))) L ∧ nodes = ((L.filter marked).take 8).map Node.address

end Demag.Spec
