import Verif.Model.TrackerFlow

/-!
# Asking a UDP tracker over a network that loses datagrams

The program is that of Model/TrackerFlow.lean; here time and the network are added.  Sending takes no time, timers fire when they are due,
and every datagram either is lost on its way (or its answer is) or is answered after a delay.
-/

namespace Demag

/-- A datagram on its way to us: when it arrives, and its bytes. -/
structure Flight where
  arrival : Nat
  bytes : Bytes

/-- Asking a tracker at a moment: its state, the time, the answer on its way, and how many datagrams have been lost before the first answer
arrived and since. -/
structure LossyState where
  ask : Ask
  now : Nat
  flight : Option Flight
  answered : Bool
  lostBefore : Nat
  lostAfter : Nat

/-- One more datagram is lost. -/
def LossyState.lose (s : LossyState) (a : Ask) : LossyState :=
  if s.answered then { s with ask := a, lostAfter := s.lostAfter + 1 } else { s with ask := a, lostBefore := s.lostBefore + 1 }

/-- The datagram that is being sent, if one is: `self.socket.send(&msg)` (src/tracker/udp.rs:197). -/
def Ask.sending (s : Ask) : Option Bytes :=
  match s.inner with
  | some (.udp _ u) =>
    match u.phase with
    | .connecting _ _ ⟨msg, _, .sending⟩ => some msg
    | .announcing _ _ _ ⟨msg, _, .sending⟩ => some msg
    | _ => none
  | _ => none

/-- No timer of the session is overdue (Model/TrackerUdp.lean). -/
def Ask.Prompt (s : Ask) (now : Nat) : Prop :=
  match s.inner with
  | some (.udp _ u) => u.Prompt now
  | _ => True

/-- The runs of `PeerGetter::run` (src/tracker/mod.rs:60-98) for a UDP tracker, from the moment `t0` at which it begins until it returns, with
the time limit `limit` (src/tracker/mod.rs:66-69).  The host is looked up at once, and found at `addr`.  A datagram sent may get lost; or an answer `bs` to it,
as `answers` says, arrives after a delay of at most `d`.  The time limit is reached when nothing else happens before. -/
inductive LossyRun (lossy : Bytes → Text) (parseIp : Text → Option IpAddr) (u : UdpUrl) (c : GetterCtx) (addr : SockAddr)
    (answers : Bytes → Bytes → Prop) (t0 d limit : Nat) : AskTrace → LossyState → Prop
  | begin {xid x a out} : udpConnect x = .ok addr → Ask.step lossy parseIp (.udp u) c ⟨.init, none⟩ (.socket t0 xid x) = some (a, out) →
      LossyRun lossy parseIp u c addr answers t0 d limit [(.socket t0 xid x, out)] ⟨a, t0, none, false, 0, 0⟩
  | lost {tr s z a out req} : LossyRun lossy parseIp u c addr answers t0 d limit tr s → s.ask.sending = some req →
      s.ask.step lossy parseIp (.udp u) c (.udp ⟨s.now, z, .sent⟩) = some (a, out) →
      LossyRun lossy parseIp u c addr answers t0 d limit (tr ++ [(.udp ⟨s.now, z, .sent⟩, out)]) (s.lose a)
  | flies {tr s z a out req bs τ} : LossyRun lossy parseIp u c addr answers t0 d limit tr s → s.ask.sending = some req →
      s.ask.step lossy parseIp (.udp u) c (.udp ⟨s.now, z, .sent⟩) = some (a, out) →
      answers req bs → s.now < τ → τ ≤ s.now + d →
      LossyRun lossy parseIp u c addr answers t0 d limit (tr ++ [(.udp ⟨s.now, z, .sent⟩, out)]) { s with ask := a, flight := some ⟨τ, bs⟩ }
  | arrives {tr s f xid a out} : LossyRun lossy parseIp u c addr answers t0 d limit tr s → s.flight = some f →
      f.arrival ≤ t0 + limit → s.ask.Prompt f.arrival →
      s.ask.step lossy parseIp (.udp u) c (.udp ⟨f.arrival, xid, .packet f.bytes⟩) = some (a, out) →
      LossyRun lossy parseIp u c addr answers t0 d limit (tr ++ [(.udp ⟨f.arrival, xid, .packet f.bytes⟩, out)])
        { s with ask := a, now := f.arrival, flight := none, answered := true }
  | timer {tr s τ xid a out} : LossyRun lossy parseIp u c addr answers t0 d limit tr s → s.ask.sending = none →
      s.now ≤ τ → τ ≤ t0 + limit → (∀ f, s.flight = some f → τ ≤ f.arrival) → s.ask.Prompt τ → ¬ s.ask.Prompt (τ + 1) →
      s.ask.step lossy parseIp (.udp u) c (.udp ⟨τ, xid, .timer⟩) = some (a, out) →
      LossyRun lossy parseIp u c addr answers t0 d limit (tr ++ [(.udp ⟨τ, xid, .timer⟩, out)]) { s with ask := a, now := τ }
  | timeout {tr s a out} : LossyRun lossy parseIp u c addr answers t0 d limit tr s → s.ask.sending = none →
      s.now ≤ t0 + limit → (∀ f, s.flight = some f → t0 + limit ≤ f.arrival) → s.ask.Prompt (t0 + limit) →
      s.ask.step lossy parseIp (.udp u) c .timeout = some (a, out) →
      LossyRun lossy parseIp u c addr answers t0 d limit (tr ++ [(.timeout, out)]) { s with ask := a, now := t0 + limit, flight := none }

end Demag
