import Verif.Spec.TrackerUdp

/-! # Specification: what is to blame when a UDP tracker could not be asked -/

namespace Demag.Spec

/-- What must have happened for an error to be reported: `last` is the datagram sent last before the event `e`. -/
def Blames (lossy : List UInt8 → List Char) (ipv6 : Bool) (last : Option (List UInt8)) (e : UdpEvent) : UdpError → Prop
  -- the datagram could not be sent
  | .send => e.input = .sendFailed
  -- nothing could be received
  | .recv => e.input = .recvFailed
  -- the tracker says so, in an error packet
  | .failure m => ∃ bs xid msg, e.input = .packet bs ∧ IsErrorResponse xid msg bs ∧ m = lossy msg
  -- the packet received is neither an error packet nor of the kind (the first number, `got`) of the last datagram sent (`expected`)
  | .badAction expected got => ∃ bs req, e.input = .packet bs ∧ last = some req ∧ At req 8 4 expected.toNat ∧ At bs 0 4 got.toNat ∧
      got ≠ expected ∧ got.toNat ≠ 3
  -- it is of that kind, but its transaction ID, `got`, is not that of the last datagram sent, `expected`
  | .xactionMismatch expected got => ∃ bs req kind, e.input = .packet bs ∧ last = some req ∧ At req 8 4 kind ∧ At bs 0 4 kind ∧
      At req 12 4 expected.toNat ∧ At bs 4 4 got.toNat ∧ got ≠ expected
  -- it is too short for its kind, or it does not end where an address ends
  | .packetLen _ => ∃ bs req, e.input = .packet bs ∧ last = some req ∧
      (At bs 0 4 3 ∧ bs.length < 8 ∨ At req 8 4 0 ∧ bs.length < 16 ∨
        At req 8 4 1 ∧ (bs.length < 20 ∨ (bs.length - 20) % (if ipv6 then 18 else 6) ≠ 0))

end Demag.Spec
