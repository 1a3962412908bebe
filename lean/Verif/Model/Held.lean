import Verif.Model.Framing
import Verif.Model.Mse

/-!
# Model: what is kept of the bytes a peer has sent

The states in which the two buffers of a connection can be: that of the channel (`Framed`, src/peer/mod.rs:302-348) and that of the encryption
handshake (`input_buffer`, src/peer/msepe.rs:120-212).  `room` is the largest number of bytes one read of the connection delivers (it depends on
how much memory tokio has reserved for the buffer).
-/

namespace Demag

/-- The states of the buffer of a channel: src/peer/mod.rs:310-326 at the beginning; src/peer/mod.rs:340-348 (`Framed::poll_next`) after a read, which is
made only if no frame can be taken from the buffer, and after a frame has been taken. -/
inductive Codec.Reaches (room : Nat) : Codec → Prop
  | new : Reaches room Codec.new
  | read {c c' : Codec} {r : Bytes} : Reaches room c → c.decode = (c', .needMore) → r.length ≤ room → Reaches room { c' with buf := c'.buf ++ r }
  | took {c c' : Codec} {b : Bytes} : Reaches room c → c.decode = (c', .frame b) → Reaches room c'

/-- The states of the encryption handshake: src/peer/msepe.rs:98-117 at the beginning; src/peer/msepe.rs:425-438 after sending a packet;
src/peer/msepe.rs:439-458 after a read and after the time for packet 2.  It ends when the state is `done`. -/
inductive Handshaker.Reaches (H : Bytes → Bytes) (room : Nat) : Handshaker → Prop
  | build (skey : InfoHash) (privateKey : Nat) (padA : Bytes) (padcLen : BitVec 16) :
      Reaches H room (Handshaker.build skey privateKey padA padcLen)
  | sent {h : Handshaker} : Reaches H room h → Reaches H room { h with output := none, timeout := false }
  | input {h h' : Handshaker} {b : Bytes} : Reaches H room h → (∀ ks, h.state ≠ .done ks) → b.length ≤ room → h.handleInput b = .ok h' →
      Reaches H room h'
  | timeout {h h' : Handshaker} : Reaches H room h → (∀ ks, h.state ≠ .done ks) → h.handleTimeout H = .ok h' → Reaches H room h'

end Demag
