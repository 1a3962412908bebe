import Verif.Spec.Get
import Verif.Spec.Fleet
import Verif.Spec.Connect
import Verif.Model.NetBatch

/-!
# Specification: what a batch tells whom

What can be read off a run of a batch with all its conversations.
-/

namespace Demag.Spec

/-- What is observed of the program itself. -/
def programPart : NetOutput → Option (FleetOutput Magnet Tracker Peer SockAddr TorrentInfo TaskError)
  | .fleet o => some o
  | _ => none

/-- All of it, in order. -/
def programOutputs (tr : NetTrace) : List (FleetOutput Magnet Tracker Peer SockAddr TorrentInfo TaskError) :=
  (tr.flatMap Prod.snd).filterMap programPart

/-- What goes over the network. -/
def networkPart : NetOutput → Option NetOutput
  | .fleet _ => none
  | o => some o

/-- All of it, in order. -/
def networkOutputs (tr : NetTrace) : List NetOutput := (tr.flatMap Prod.snd).filterMap networkPart

/-- Of an output of the conversation with a tracker, what the conversation alone would show. -/
def askOf : NetOutput → Option AskOutput
  | .tracker _ _ _ o => some o
  | _ => none

/-- An event, if it is one of the conversation with tracker number `k` of download `n`. -/
def askPart (n k : Nat) (x : NetEvent × List NetOutput) : Option (AskEvent × List AskOutput) :=
  match x.1 with
  | .tracker n' k' e => if n' = n ∧ k' = k then some (e, x.2.filterMap askOf) else none
  | _ => none

/-- The conversation with tracker number `k` of download `n`, all else left out. -/
def conversation (n k : Nat) (tr : NetTrace) : AskTrace := tr.filterMap (askPart n k)

/-- In this run the network behaved like `links` towards the peer `p`. -/
def Behaved (tr : NetTrace) (p : Peer) (links : Nat → Link) : Prop := ∃ n w said, (NetEvent.peerBegins n w links, [NetOutput.peer n p said]) ∈ tr

/-- In this run there was the conversation `atr` with the tracker `t` (which may have gone on). -/
def TalkedWith (tr : NetTrace) (t : Tracker) (atr : AskTrace) : Prop :=
  ∃ n k, atr <+: conversation n k tr ∧ ∀ t' o, NetOutput.tracker n k t' o ∈ tr.flatMap Prod.snd → t' = t

/-- What the tracker `t` may be sent for the sake of the link `m`: a request to connect, which says nothing, or an announcement of the link's info
hash, made with our peer ID, key and port and what is configured. -/
inductive MayBeTold (env : GetEnv) (m : Magnet) : Tracker → AskOutput → Prop
  | connect {u addr xid bs} : IsConnectRequest xid bs → MayBeTold env m (.udp u) (.datagram addr bs)
  | udp {u addr a cid xid bs} : AsConfigured env m.infoHash a → IsAnnounceRequest cid xid a (utf8 u.urldata) bs → MayBeTold env m (.udp u) (.datagram addr bs)
  | http {u a url} : AsConfigured env m.infoHash a → IsHttpAnnounce u a url → MayBeTold env m (.http u) (.get url)

/-- Something is sent. -/
def IsSent (o : AskOutput) : Prop := (∃ addr bs, o = .datagram addr bs) ∨ ∃ u, o = .get u

/-- What the peer `p` may be told for the sake of the link `m`: our handshake with the link's info hash, our greeting, that we have nothing, which piece
of the metadata we ask for, and that we do not give a piece.  (The encryption handshake before that is `Link.crypto` in the model: of the link it uses the
info hash only, src/peer/mod.rs:223-232.) -/
inductive PeerMayBeTold (env : GetEnv) (m : Magnet) (p : Peer) : Event → Prop
  | handshake {h} : OurHandshake ⟨m.infoHash, env.localId, p.address.ip⟩ h → PeerMayBeTold env m p (.sentHandshake h)
  | greeting : PeerMayBeTold env m p (.sent (.extended (.handshake (ourGreeting p.address.ip))))
  | haveNone : PeerMayBeTold env m p (.sent (.core .haveNone))
  | request (i) : PeerMayBeTold env m p (.sent (request i))
  | reject (i) : PeerMayBeTold env m p (.sent (reject i))

/-- Something is said to the peer. -/
def IsSaid (e : Event) : Prop := (∃ h, e = .sentHandshake h) ∨ ∃ x, e = .sent x

/-- One of the link's trackers, asked for this download (number `n`) in this run, has named the peer in answer to our announcement. -/
def NamedByTracker (env : GetEnv) (tr : NetTrace) (n : Nat) (m : Magnet) (p : Peer) : Prop :=
  ∃ k t atr, m.trackers[k]? = some t ∧ atr <+: conversation n k tr ∧ Names env.lossy env.parseIp m.infoHash env.localId t atr p

/-- The answer of the DHT, in this run, to the lookup of this download (number `n`) lists the peer. -/
def NamedByDht (tr : NetTrace) (n : Nat) (p : Peer) : Prop :=
  ∃ r : FoundPeers, NetOutput.dht (.effect (.answer n r)) ∈ tr.flatMap Prod.snd ∧ p ∈ r.peers

/-- The tracker of download `n` whose answer (or failure) has come. -/
def answeredPart (n : Nat) : NetOutput → Option Tracker
  | .fleet (.output n' (.answer t _)) => if n' = n then some t else none
  | _ => none

/-- The trackers of download `n` whose answers (or failures) have come, in order. -/
def answeredTrackers (n : Nat) (tr : NetTrace) : List Tracker := (tr.flatMap Prod.snd).filterMap (answeredPart n)

/-- Two links that differ at most in the name to be shown. -/
def SameButName (m m' : Magnet) : Prop := m.infoHash = m'.infoHash ∧ m.trackers = m'.trackers

end Demag.Spec
