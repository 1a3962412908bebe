import Verif.Model.App
import Verif.Model.DhtSockets

/-!
# The DHT as the program uses it: the model of `/repo/src/app.rs` 38-59 with the client it starts

The cell of `Model/App.lean` together with the client of `Model/Dht.lean` that is behind the handle in it.
-/

namespace Demag

/-- src/app.rs:17 `dht_handle` and the client whose handle it holds. -/
structure AppDht where
  cell : DhtCell
  client : Option DhtState

/-- src/app.rs:30: at the beginning. -/
def AppDht.start : AppDht := ⟨.start, none⟩

/-- What may happen before the program shuts down.  (`App::shutdown` comes when the command has ended.) -/
inductive AppDhtEvent where
  /-- The task gets the mutex in `get_dht_handle`. -/
  | lock (task : Nat)
  /-- `DhtActor::new` ends, with these results of binding sockets. -/
  | created (task : Nat) (my : NodeId) (bind4 bind6 : BindResult)
  /-- The task is aborted while it waits for that. -/
  | dropped (task : Nat)
  /-- The client does something by itself. -/
  | client (e : DhtEvent)

/-- What is observed: a lookup fails because there is no client, or an effect of the client. -/
inductive AppDhtOutput where
  | failed (task : Nat)
  | effect (x : DhtEffect)
  deriving DecidableEq

/-- The client does something by itself: nobody uses its handle. -/
def DhtEvent.isSubmit : DhtEvent → Bool
  | .submit _ => true
  | _ => false

/-- src/app.rs:53-59 `get_peers_from_dht` with 38-51 `get_dht_handle` and src/dht/actor.rs:290-303 `lookup_peers`: one event; `none` if it
cannot happen.  A task is named by a number, under which the client also knows its request; `hash` gives the torrent it is about.  A task that
gets the handle uses it at once. -/
def AppDht.step (hash : Nat → InfoHash) (lookup : Text → BitVec 16 → Option (List SockAddr)) (nodes : List InetAddr) (s : AppDht) :
    AppDhtEvent → Option (AppDht × List AppDhtOutput)
  | .lock t =>
    match s.cell.step (.lock t) with
    | some (c, [.got _ _]) =>
      match s.client with
      | some a => (a.step lookup nodes (.submit (.lookup t (hash t)))).map fun r => (⟨c, some r.1⟩, r.2.map .effect)
      | none => none
    | some (c, _) => some (⟨c, s.client⟩, [])
    | none => none
  | .created t my bind4 bind6 =>
    match DhtState.create my bind4 bind6 with
    | none => (s.cell.step (.created t false)).map fun r => (⟨r.1, s.client⟩, [.failed t])
    | some a =>
      match s.cell.step (.created t true) with
      | some (c, _) => (a.step lookup nodes (.submit (.lookup t (hash t)))).map fun r => (⟨c, some r.1⟩, r.2.map .effect)
      | none => none
  | .dropped t => (s.cell.step (.dropped t)).map fun r => (⟨r.1, s.client⟩, [])
  | .client e =>
    match s.client with
    | some a => if e.isSubmit then none else (a.step lookup nodes e).map fun r => (⟨s.cell, some r.1⟩, r.2.map .effect)
    | none => none

/-- A sequence of events: all that is observed, in order. -/
def AppDht.run (hash : Nat → InfoHash) (lookup : Text → BitVec 16 → Option (List SockAddr)) (nodes : List InetAddr) (s : AppDht) :
    List AppDhtEvent → Option (AppDht × List AppDhtOutput)
  | [] => some (s, [])
  | e :: es =>
    match s.step hash lookup nodes e with
    | none => none
    | some (s', out) =>
      match s'.run hash lookup nodes es with
      | none => none
      | some (s'', out') => some (s'', out ++ out')

end Demag
