import Verif.Spec.DhtTraffic
import Verif.Model.DhtLog

/-!
# Specification: what the log of the DHT client has to tell (C95)

Functions of the effects of the client, that is of what it sends and takes.
-/

namespace Demag.Spec

/-- What is to be told of effects, in order; `f` is given what has happened before, too. -/
def told {α : Type} (f : List DhtEffect → DhtEffect → Option α) : List DhtEffect → List DhtEffect → List α
  | _, [] => []
  | before, x :: xs => (f before x).toList ++ told f (before ++ [x]) xs

/-- The name by which a lookup knows an address: the node as which the replies to the lookup listed it first. -/
def nameAt (sid : Nat) (tr : List DhtEffect) (addr : SockAddr) : Option Node :=
  (known (nodeOps (responses sid tr))).find? fun n => Node.address n = addr

/-- The torrent that a lookup is about. -/
def startedAs (sid : Nat) : DhtEffect → Option InfoHash
  | .started sid' _ h => if sid' = sid then some h else none
  | _ => none

/-- The torrent that a lookup is about. -/
def torrentOf (sid : Nat) (tr : List DhtEffect) : Option InfoHash := tr.findSome? (startedAs sid)

/-- To be told of each query: the address, the name, the torrent. -/
def tellQuery (before : List DhtEffect) : DhtEffect → Option (SockAddr × Option Node × InfoHash)
  | .query sid addr q _ _ => some (addr, nameAt sid before addr, q.infoHash)
  | _ => none

/-- The lines that say so. -/
def saidQuery : DhtLine → Option (SockAddr × Option Node × InfoHash)
  | .line (.nodeQuery a k h) => some (a, k, h)
  | _ => none

/-- To be told of each query that ends: the sender, its name, and how: with a response and what is in it, with an error message, with something that is
neither, or because no answer came. -/
inductive QueryEnd where
  | response (values nodes : Nat) (h : InfoHash)
  | error (e : ErrorResponse)
  | invalid (e : ResponseError)
  | timeout

/-- How a reply ends a query. -/
def endBy (h : InfoHash) (msg : List UInt8) : QueryEnd :=
  match decodeResponse lossyUtf8 msg with
  | .ok r => .response r.values.length (r.nodes.length + r.nodes6.length) h
  | .error (.rpc e) => .error e
  | .error e => .invalid e

/-- To be told of each query that ends. -/
def tellEnd (before : List DhtEffect) : DhtEffect → Option (SockAddr × Option Node × QueryEnd)
  | .replied sid addr _ msg => (torrentOf sid before).map fun h => (addr, nameAt sid before addr, endBy h msg)
  | .timedOut sid addr _ => some (addr, nameAt sid before addr, .timeout)
  | _ => none

/-- The lines that say so. -/
def saidEnd : DhtLine → Option (SockAddr × Option Node × QueryEnd)
  | .line (.nodeReplied a k r h) => some (a, k, .response r.values.length (r.nodes.length + r.nodes6.length) h)
  | .line (.nodeError a k e) => some (a, k, .error e)
  | .line (.nodeInvalid a k e) => some (a, k, .invalid e)
  | .line (.nodeTimeout a k) => some (a, k, .timeout)
  | _ => none

/-- Why a query is not sent: it cannot be encoded, there is no socket for the address, or the socket refuses it. -/
inductive NotSent where
  | unencodable
  | noSocket
  | refused
  deriving DecidableEq

/-- To be told of each query that is not sent, by a client with or without IPv6. -/
def tellFailure (v6 : Bool) : DhtEffect → Option (SockAddr × NotSent)
  | .query _ addr _ none _ => some (addr, .unencodable)
  | .query _ (.v4 a) _ (some _) false => some (.v4 a, .refused)
  | .query _ (.v6 a) _ (some _) false => some (.v6 a, if v6 then .refused else .noSocket)
  | _ => none

/-- The lines that say so. -/
def saidFailure : DhtLine → Option (SockAddr × NotSent)
  | .unencodable a => some (a, .unencodable)
  | .noSocket a => some (a, .noSocket)
  | .line (.querySendFailed a) => some (a, .refused)
  | _ => none

/-- A lookup that ends with a result: the request, and the peers found. -/
def foundBy : DhtEffect → Option (Nat × List Peer)
  | .answer req r => some (req, r.peers)
  | _ => none

/-- The lines that say so, with the torrent. -/
def saidFound : DhtLine → Option (List Peer × InfoHash)
  | .line (.dhtFound ps h) => some (ps, h)
  | _ => none

/-- The lines about packets: where the packet came from. -/
def saidPacket : DhtLine → Option SockAddr
  | .line (.dhtIgnored _ a) => some a
  | .line (.nodeReplied a _ _ _) => some a
  | .line (.nodeError a _ _) => some a
  | .line (.nodeInvalid a _ _) => some a
  | _ => none

/-- The lines about the start and the sockets: whether the client could be started (`some`), or that receiving failed (`none`). -/
def saidStart : DhtLine → Option (Option Bool)
  | .ready => some (some true)
  | .unresolved => some (some false)
  | .recvFailed => some none
  | _ => none

/-- What those lines have to tell. -/
def tellStart : DhtEvent → Option (Option Bool)
  | .resolved addrs => some (some (!addrs.isEmpty))
  | .recvError => some none
  | _ => none

/-- The bootstrap nodes that are named by a domain. -/
def domainOf (a : InetAddr) : Option Text :=
  match a.host with
  | .domain d => some d
  | _ => none

/-- What the log has to say of names, when the client starts: each name, with whether looking it up succeeded,
and the address that is used for it, if any. -/
def namesOf (lookup : Text → BitVec 16 → Option (List SockAddr)) (nodes : List InetAddr) (v6 : Bool) :
    DhtEvent → List (Text × Bool × Option SockAddr)
  | .resolved _ => nodes.filterMap fun n => (domainOf n).map fun d => (d, (lookup d n.port).isSome, InetAddr.resolve lookup v6 n)
  | _ => []

/-- The lines about the names of bootstrap nodes: the name, whether looking it up succeeded, and the address found. -/
def saidDomain : DhtLine → Option (Text × Bool × Option SockAddr)
  | .domain d a => some (d, true, some a)
  | .noAddress d => some (d, true, none)
  | .lookupFailed d => some (d, false, none)
  | _ => none

end Demag.Spec
