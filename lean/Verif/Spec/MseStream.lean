import Verif.Spec.Mse

/-! # Specification: an encrypted connection in use -/

namespace Demag.Spec

/-- The stream of bytes with which a connection hides what it sends: zeros when it does not. -/
def outByte : Keystream → Nat → UInt8
  | .plaintext, _ => 0
  | .rc4 o _, k => rc4Byte o k

/-- The stream of bytes with which the other end hides what it sends. -/
def inByte : Keystream → Nat → UInt8
  | .plaintext, _ => 0
  | .rc4 _ i, k => rc4Byte i k

/-- What the program does with a connection, and how the network behaves. -/
inductive StreamOp where
  | write (b : List UInt8)
  | flush (ws : List WriteResult) (inner : PollResult)
  | read (room : Nat) (net : Option (List UInt8))

/-- What can be observed: the bytes given to the connection, those the network took, those the network delivered, those the connection
delivered. -/
structure StreamTrace where
  written : List UInt8 := []
  sent : List UInt8 := []
  received : List UInt8 := []
  delivered : List UInt8 := []

/-- One operation; `none`: the network claims more bytes than there were. -/
def streamStep (st : EncryptedStream × StreamTrace) : StreamOp → Option (EncryptedStream × StreamTrace)
  | .write b => some (st.1.write b, { st.2 with written := st.2.written ++ b })
  | .flush ws inner => (st.1.flush ws inner).map fun r => (r.2.1, { st.2 with sent := st.2.sent ++ r.1 })
  | .read room net => (st.1.read room net).map fun r =>
      (r.2.2, { st.2 with received := st.2.received ++ r.1, delivered := st.2.delivered ++ r.2.1 })

/-- Any number of operations. -/
def streamRun (st : EncryptedStream × StreamTrace) : List StreamOp → Option (EncryptedStream × StreamTrace)
  | [] => some st
  | op :: ops => (streamStep st op).bind fun st' => streamRun st' ops

end Demag.Spec
