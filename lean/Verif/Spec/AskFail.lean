import Verif.Spec.TrackerFlow
import Verif.Spec.UdpErrors

/-! # Specification: what is to blame when a tracker could not be asked -/

namespace Demag.Spec

/-- An IPv6 address. -/
def OnV6 (a : SockAddr) : Prop := ∃ x, a = .v6 x

/-- What must have happened for an error to be the result: `pre` is what happened before the event. -/
inductive AskFails (lossy : List UInt8 → List Char) (parseIp : List Char → Option IpAddr) (pre : AskTrace) : AskEvent → GetterError AskError → Prop
  -- the time is over
  | timeout : AskFails lossy parseIp pre .timeout .timeout
  -- the host could not be looked up
  | lookup {time xid x} : x.lookup = none → AskFails lossy parseIp pre (.socket time xid x) (.inner .lookup)
  -- it has no address
  | noResolve {time xid x} : x.lookup = some [] → AskFails lossy parseIp pre (.socket time xid x) (.inner .noResolve)
  -- there is no socket for the kind of its first address
  | bind {time xid x addr rest v6} : x.lookup = some (addr :: rest) → (v6 = true ↔ OnV6 addr) → x.bind v6 = false →
      AskFails lossy parseIp pre (.socket time xid x) (.inner .bind)
  -- there is one, but it could not be connected to this address
  | connect {time xid x addr rest v6} : x.lookup = some (addr :: rest) → (v6 = true ↔ OnV6 addr) → x.bind v6 = true → x.connect addr = false →
      AskFails lossy parseIp pre (.socket time xid x) (.inner .connect)
  -- there is no HTTP client
  | client : AskFails lossy parseIp pre (.client false) (.inner .buildClient)
  -- the UDP tracker at this address did not answer as it should
  | udp {e err addr v6} : Found pre addr → (v6 = true ↔ OnV6 addr) → Blames lossy v6 ((datagrams pre).getLast?.map Prod.snd) e err →
      AskFails lossy parseIp pre (.udp e) (.inner (.udp err))
  -- the HTTP tracker could not be asked, or answered with an error status, or its answer broke off
  | send : AskFails lossy parseIp pre (.http .sendError) (.inner (.http .sendRequest))
  | status : AskFails lossy parseIp pre (.http .statusError) (.inner (.http .httpStatus))
  | read : AskFails lossy parseIp pre (.http .bodyError) (.inner (.http .readBody))
  -- it says so itself
  | failure {kvs msg} : Canonical (.dict kvs) → depth (.dict kvs) ≤ 2048 → DenotesFailure lossy kvs msg →
      AskFails lossy parseIp pre (.http (.body (benc (.dict kvs)))) (.inner (.http (.failure msg)))
  -- its answer is neither a response nor such a message
  | parse {b e} : (∀ kvs, b = benc (.dict kvs) → Canonical (.dict kvs) → depth (.dict kvs) ≤ 2048 →
        (∀ r, ¬ DenotesResponse lossy parseIp kvs r) ∧ ∀ msg, ¬ DenotesFailure lossy kvs msg) →
      AskFails lossy parseIp pre (.http (.body b)) (.inner (.http (.parseResponse e)))

end Demag.Spec
