import Verif.Spec.Connect
import Verif.Model.Mse

/-!
# Specification: how much is said and kept

Only data types of the model are used.
-/

namespace Demag.Spec

/-- The requests received in a conversation. -/
def requestsReceived : List Event → List (BitVec 32)
  | [] => []
  | .received (.extended (.metadata (.request p))) :: es => p :: requestsReceived es
  | _ :: es => requestsReceived es

/-- The number of bytes of metadata received in a conversation. -/
def metadataReceived (es : List Event) : Nat := ((dataReceived es).map fun x => x.2.2.length).sum

/-- The number of bytes that arrive on a connection, up to its end. -/
def bytesArriving : List HandshakeRead → Nat
  | .data (b :: bs) :: rest => (b :: bs).length + bytesArriving rest
  | .timeout :: rest => bytesArriving rest
  | _ => 0

/-- How much a visit asks for, says and receives: at most 1280 pieces are asked for (20 MiB of 16 KiB each); besides those requests and one answer to each
request of the peer, two messages are sent; and at most 20 MiB of metadata and one message of at most 65535 bytes are received. -/
structure Modest (es : List Event) : Prop where
  asked : (requestsSent es).length ≤ 1280
  said : (sentOf es).length ≤ 1282 + (requestsReceived es).length
  got : metadataReceived es ≤ 20 * 1024 * 1024 + 65535

end Demag.Spec
