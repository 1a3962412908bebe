import Mathlib.Data.List.Forall2
import Verif.Spec.Session
import Verif.Spec.Framing
import Verif.Spec.PeerBen
import Verif.Spec.Peer

/-!
# Specification: connecting to a peer (BEP 3, 6, 9, 10)
-/

namespace Demag.Spec

/-- What we say about ourselves: `ut_metadata` under code 42, our name, the address of the peer. -/
def ourGreeting (ip : IpAddr) : ExtendedHandshake :=
  { e := none, m := some [("ut_metadata".toList, 42)], v := some "demagnetize 0.7.0".toList, metadataSize := none,
    yourip := some ip }

/-- Our handshake supports exactly BEP 10 and the Fast extension. -/
def OurHandshake (ctx : PeerCtx) (h : Handshake) : Prop :=
  h.infoHash = ctx.infoHash ∧ h.peerId = ctx.localId ∧ ∀ e, h.extensions.has e = true ↔ e = .bep10 ∨ e = .fast

/-- The events of a successful connection, in order (without the final `HaveNone`). -/
def greetings (ctx : PeerCtx) (ours theirs : Handshake) (s : ExtendedHandshake) : List Event :=
  [.sentHandshake ours, .gotHandshake theirs, .sent (.extended (.handshake (ourGreeting ctx.peerIp))),
    .received (.extended (.handshake s))]

/-- The connection is there, encrypted if required. -/
def Ready (l : Link) (encrypt : Bool) : Prop := l.connect = .ok ∧ (encrypt = true → l.crypto = .ok)

/-- We have sent our handshake and the peer has answered with `h` followed by `rest`. -/
def Shaken (l : Link) (encrypt : Bool) (h : Handshake) (rest : List UInt8) : Prop :=
  Ready l encrypt ∧ l.sends 0 = .ok ∧ ∃ hs, l.incoming = hs ++ rest ∧ HandshakeLayout h hs

/-- Moreover both handshakes are about the same torrent, the peer supports BEP 10 and we have sent our greeting. -/
def Greeted (l : Link) (ctx : PeerCtx) (encrypt : Bool) (h : Handshake) (rest : List UInt8) : Prop :=
  Shaken l encrypt h rest ∧ h.infoHash = ctx.infoHash ∧ h.extensions.has .bep10 = true ∧ l.sends 1 = .ok

/-- `bs` begins with the frame `f`, followed by `rest`. -/
def FirstFrame (bs f rest : List UInt8) : Prop := ∃ fr, IsFrames [f] fr ∧ bs = fr ++ rest

/-- The frame is an extended handshake saying `s`. -/
def IsGreeting (f : List UInt8) (s : ExtendedHandshake) : Prop :=
  ∃ kvs, f = [20, 0] ++ benc (.dict kvs) ∧ Canonical (.dict kvs) ∧ depth (.dict kvs) ≤ 2048 ∧ DenotesHandshake kvs s

/-- The peer supports `ut_metadata` under the given code. -/
def MetadataCode (s : ExtendedHandshake) (code : BitVec 8) : Prop :=
  ∃ m, s.m = some m ∧ ("ut_metadata".toList, code) ∈ m

/-- The peer has agreed to talk about the metadata; what follows are the bytes `rest`. -/
def Agreed (l : Link) (ctx : PeerCtx) (encrypt : Bool) (h : Handshake) (s : ExtendedHandshake) (code : BitVec 8)
    (rest : List UInt8) : Prop :=
  ∃ rest0 f, Greeted l ctx encrypt h rest0 ∧ FirstFrame rest0 f rest ∧ IsGreeting f s ∧ MetadataCode s code ∧ code ≠ 0

/-- How connecting may end, and the events until then.  `message` says which frames are which messages (before any
extension is agreed on), `garbage` which are not messages. -/
inductive Connects (l : Link) (ctx : PeerCtx) (encrypt : Bool) (ours : Handshake) (message : List UInt8 → Message → Prop)
    (garbage : List UInt8 → MessageError → Prop) : List Event → Res PeerError (Option (BitVec 32)) → Prop
  | refused : l.connect = .fail → Connects l ctx encrypt ours message garbage [] (.err .connect)
  | unreachable : l.connect = .hang → Connects l ctx encrypt ours message garbage [] .hang
  | cryptoFail : l.connect = .ok → encrypt = true → l.crypto = .fail →
      Connects l ctx encrypt ours message garbage [] (.err .cryptoHandshake)
  | cryptoHang : l.connect = .ok → encrypt = true → l.crypto = .hang → Connects l ctx encrypt ours message garbage [] .hang
  /-- The time allowed for the key exchange is too long to be measured. -/
  | cryptoPanic : l.connect = .ok → encrypt = true → l.crypto = .overflow → Connects l ctx encrypt ours message garbage [] .panic
  | unsent0 : Ready l encrypt → l.sends 0 = .fail → Connects l ctx encrypt ours message garbage [] (.err .send)
  | stuck0 : Ready l encrypt → l.sends 0 = .hang → Connects l ctx encrypt ours message garbage [] .hang
  | short : Ready l encrypt → l.sends 0 = .ok → l.incoming.length < 68 →
      Connects l ctx encrypt ours message garbage [.sentHandshake ours]
        (match l.ending with | .stall => .hang | .eof => .err (.recv .truncated) | .ioError => .err (.recv .ioError))
  | foreign {e} : Ready l encrypt → l.sends 0 = .ok → 68 ≤ l.incoming.length →
      (∀ h, ¬ HandshakeLayout h (l.incoming.take 68)) →
      Connects l ctx encrypt ours message garbage [.sentHandshake ours] (.err (.handshake e))
  | mismatch {h rest} : Shaken l encrypt h rest → h.infoHash ≠ ctx.infoHash →
      Connects l ctx encrypt ours message garbage [.sentHandshake ours, .gotHandshake h]
        (.err (.infoHashMismatch ctx.infoHash h.infoHash))
  | noBep10 {h rest} : Shaken l encrypt h rest → h.infoHash = ctx.infoHash → h.extensions.has .bep10 = false →
      Connects l ctx encrypt ours message garbage [.sentHandshake ours, .gotHandshake h] (.err .noBep10)
  | unsent1 {h rest} : Shaken l encrypt h rest → h.infoHash = ctx.infoHash → h.extensions.has .bep10 = true →
      l.sends 1 = .fail → Connects l ctx encrypt ours message garbage [.sentHandshake ours, .gotHandshake h] (.err .send)
  | stuck1 {h rest} : Shaken l encrypt h rest → h.infoHash = ctx.infoHash → h.extensions.has .bep10 = true →
      l.sends 1 = .hang → Connects l ctx encrypt ours message garbage [.sentHandshake ours, .gotHandshake h] .hang
  | silent {h rest} : Greeted l ctx encrypt h rest → NoFrame l.ending rest .pending →
      Connects l ctx encrypt ours message garbage
        [.sentHandshake ours, .gotHandshake h, .sent (.extended (.handshake (ourGreeting ctx.peerIp)))] .hang
  | closed {h rest} : Greeted l ctx encrypt h rest → NoFrame l.ending rest .disconnect →
      Connects l ctx encrypt ours message garbage
        [.sentHandshake ours, .gotHandshake h, .sent (.extended (.handshake (ourGreeting ctx.peerIp)))] (.err .disconnect)
  | broken {h rest stop} : Greeted l ctx encrypt h rest → NoFrame l.ending rest stop → stop ≠ .pending → stop ≠ .disconnect →
      Connects l ctx encrypt ours message garbage
        [.sentHandshake ours, .gotHandshake h, .sent (.extended (.handshake (ourGreeting ctx.peerIp)))] (.err (.recv stop))
  | garbled {h rest f rest' e} : Greeted l ctx encrypt h rest → FirstFrame rest f rest' → garbage f e →
      Connects l ctx encrypt ours message garbage
        [.sentHandshake ours, .gotHandshake h, .sent (.extended (.handshake (ourGreeting ctx.peerIp)))] (.err (.message e))
  | rude {h rest f rest' m} : Greeted l ctx encrypt h rest → FirstFrame rest f rest' → message f m →
      (∀ s, ¬ IsGreeting f s) →
      Connects l ctx encrypt ours message garbage
        [.sentHandshake ours, .gotHandshake h, .sent (.extended (.handshake (ourGreeting ctx.peerIp))), .received m]
        (.err .noExtendedHandshake)
  | zeroCode {h rest f rest' s} : Greeted l ctx encrypt h rest → FirstFrame rest f rest' → IsGreeting f s →
      MetadataCode s 0 → Connects l ctx encrypt ours message garbage (greetings ctx ours h s) (.err (.registry .handshake))
  | noMetadata {h rest f rest' s} : Greeted l ctx encrypt h rest → FirstFrame rest f rest' → IsGreeting f s →
      (∀ c, ¬ MetadataCode s c) → Connects l ctx encrypt ours message garbage (greetings ctx ours h s) (.err .noMetadataExt)
  | unsent2 {h s code rest} : Agreed l ctx encrypt h s code rest → h.extensions.has .fast = true → l.sends 2 = .fail →
      Connects l ctx encrypt ours message garbage (greetings ctx ours h s) (.err .send)
  | stuck2 {h s code rest} : Agreed l ctx encrypt h s code rest → h.extensions.has .fast = true → l.sends 2 = .hang →
      Connects l ctx encrypt ours message garbage (greetings ctx ours h s) .hang
  /-- Without the Fast extension. -/
  | slow {h s code rest} : Agreed l ctx encrypt h s code rest → h.extensions.has .fast = false →
      Connects l ctx encrypt ours message garbage (greetings ctx ours h s) (.ok s.metadataSize)
  /-- With the Fast extension. -/
  | fast {h s code rest} : Agreed l ctx encrypt h s code rest → h.extensions.has .fast = true → l.sends 2 = .ok →
      Connects l ctx encrypt ours message garbage (greetings ctx ours h s ++ [.sent (.core .haveNone)])
        (.ok s.metadataSize)

/-- The events of a successful connection. -/
def allGreetings (ctx : PeerCtx) (ours theirs : Handshake) (s : ExtendedHandshake) : List Event :=
  greetings ctx ours theirs s ++ if theirs.extensions.has .fast then [.sent (.core .haveNone)] else []

/-- How a whole visit to a peer over one link may go: its events and its result. -/
inductive Visit (sha1 : List UInt8 → List UInt8) (good : List UInt8 → Prop) (l : Link) (ctx : PeerCtx) (encrypt : Bool)
    (message : List UInt8 → Message → Prop) (garbage : List UInt8 → MessageError → Prop) :
    List Event → Res PeerError TorrentInfo → Prop
  /-- Connecting fails. -/
  | failed {ours es e} : OurHandshake ctx ours → Connects l ctx encrypt ours message garbage es (.err e) →
      Visit sha1 good l ctx encrypt message garbage es (.err e)
  /-- Connecting takes too long. -/
  | late {ours es} : OurHandshake ctx ours → Connects l ctx encrypt ours message garbage es .hang →
      Visit sha1 good l ctx encrypt message garbage es (.err .connectTimeout)
  /-- Connecting panics. -/
  | panicked {ours es} : OurHandshake ctx ours → Connects l ctx encrypt ours message garbage es .panic →
      Visit sha1 good l ctx encrypt message garbage es .panic
  /-- The peer does not say how large the metadata is. -/
  | sizeless {ours h s code rest} : OurHandshake ctx ours → Agreed l ctx encrypt h s code rest → s.metadataSize = none →
      Visit sha1 good l ctx encrypt message garbage (allGreetings ctx ours h s) (.err .noMetadataSize)
  /-- The metadata is too large. -/
  | huge {ours h s code rest n} : OurHandshake ctx ours → Agreed l ctx encrypt h s code rest → s.metadataSize = some n →
      20 * 1024 * 1024 < n.toNat →
      Visit sha1 good l ctx encrypt message garbage (allGreetings ctx ours h s) (.err (.infoConstruct (.tooLarge n)))
  /-- The metadata is asked for; of the frames sent by the peer, `used` have been received and `left` have not. -/
  | talked {ours h s code n used left fs t stop es r} : OurHandshake ctx ours →
      Agreed l ctx encrypt h s code (fs ++ t) → IsFrames (used ++ left) fs → NoFrame l.ending t stop →
      s.metadataSize = some n → n.toNat ≤ 20 * 1024 * 1024 →
      List.Forall₂ message used (receivedOf es) →
      Ends sha1 good ctx.infoHash n.toNat left stop garbage
        (l.sends ((if h.extensions.has .fast then 3 else 2) + (sentOf es).length)) es r →
      Visit sha1 good l ctx encrypt message garbage (allGreetings ctx ours h s ++ es) r

/-- What the user wants: the mode given on the command line, if any, otherwise the configured preference. -/
def wish : Option CryptoMode → CryptoPreference → CryptoPreference
  | some .encrypt, _ => .always
  | some .prefer, _ => .prefer
  | some .plain, _ => .never
  | none, p => p

/-- How asking a peer for metadata may go, with up to two attempts to connect over the links `links 0`, `links 1`. -/
inductive Run (sha1 : List UInt8 → List UInt8) (good : List UInt8 → Prop) (links : Nat → Link) (ctx : PeerCtx)
    (wish : CryptoPreference) (required : Bool) (message : List UInt8 → Message → Prop)
    (garbage : List UInt8 → MessageError → Prop) : List Attempt → Res PeerError TorrentInfo → Prop
  /-- The peer requires what the user forbids: it is not contacted. -/
  | impossible : wish = .never → required = true →
      Run sha1 good links ctx wish required message garbage [] (.err .cantRequireCrypto)
  /-- Encrypted. -/
  | encrypted {es r} : wish = .always ∨ wish = .prefer ∨ (wish = .ifRequired ∧ required = true) →
      Visit sha1 good (links 0) ctx true message garbage es r →
      (wish = .prefer → required = false → r ≠ .err .cryptoHandshake) →
      Run sha1 good links ctx wish required message garbage [⟨true, es⟩] r
  /-- Not encrypted. -/
  | plain {es r} : wish = .never ∨ wish = .ifRequired → required = false →
      Visit sha1 good (links 0) ctx false message garbage es r →
      Run sha1 good links ctx wish required message garbage [⟨false, es⟩] r
  /-- First encrypted, then, after the failure of the encryption handshake, not. -/
  | fallback {es es' r} : wish = .prefer → required = false →
      Visit sha1 good (links 0) ctx true message garbage es (.err .cryptoHandshake) →
      Visit sha1 good (links 1) ctx false message garbage es' r →
      Run sha1 good links ctx wish required message garbage [⟨true, es⟩, ⟨false, es'⟩] r

end Demag.Spec
