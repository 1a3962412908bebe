import Verif.Model.Config
import Verif.Model.InfoHash
import Verif.Model.Mse
import Verif.Model.Settings

/-!
# Model: what the program makes of random numbers

The generator (crate `rand`) is a tape: the values it will deliver, in order, each with the kind of question it answers.  A function that
draws takes the tape and gives back what it left of it; `none` is a question the tape does not answer (or a panic).
-/

namespace Demag

/-- One answer of the random number generator (crate `rand`, external). -/
inductive Draw where
  /-- `random::<u8>()`, also as item of `random_iter::<u8>()` and of `random::<[u8; 20]>()`. -/
  | byte (b : UInt8)
  /-- `Alphanumeric.sample`. -/
  | alnum (b : UInt8)
  /-- `random::<u32>()`. -/
  | word (w : BitVec 32)
  /-- `random_range(low..=high)`. -/
  | range (low high n : Nat)
  deriving DecidableEq

/-- A computation that draws random numbers. -/
abbrev Gen (α : Type) := List Draw → Option (α × List Draw)

/-- No draw. -/
def Gen.pure {α : Type} (a : α) : Gen α := fun t => some (a, t)

/-- One computation after another, on the same generator. -/
def Gen.bind {α β : Type} (f : Gen α) (g : α → Gen β) : Gen β := fun t => (f t).bind fun r => g r.1 r.2

/-- `random::<u8>()` (crate `rand`). -/
def drawByte : Gen UInt8
  | .byte b :: t => some (b, t)
  | _ => none

/-- `Alphanumeric.sample(rng)` (crate `rand`): one of the 62 letters and digits. -/
def drawAlnum : Gen UInt8
  | .alnum b :: t =>
    if (65 ≤ b.toNat ∧ b.toNat ≤ 90) ∨ (97 ≤ b.toNat ∧ b.toNat ≤ 122) ∨ (48 ≤ b.toNat ∧ b.toNat ≤ 57) then some (b, t) else none
  | _ => none

/-- `random::<u32>()` (crate `rand`). -/
def drawWord : Gen (BitVec 32)
  | .word w :: t => some (w, t)
  | _ => none

/-- `random_range(low..=high)` (crate `rand`). -/
def drawRange (low high : Nat) : Gen Nat
  | .range l h n :: t => if l = low ∧ h = high ∧ low ≤ n ∧ n ≤ high then some (n, t) else none
  | _ => none

/-- The same draw `n` times (`random_iter().take(n)`, `std::array::from_fn`). -/
def drawMany {α : Type} (f : Gen α) : Nat → Gen (List α)
  | 0 => Gen.pure []
  | n + 1 => f.bind fun a => (drawMany f n).bind fun l => Gen.pure (a :: l)

/-- src/peer/msepe.rs:528-537 `gen_private_key`. -/
def genPrivateKey : Gen Nat := (drawMany drawByte 20).bind fun b => Gen.pure (fromBytesBe b)

/-- src/peer/msepe.rs:63-70 `HandshakeBuilder` (without the peer, which is only kept, and the generator). -/
structure HandshakeBuilder where
  skey : InfoHash
  provide : BitVec 32
  /-- In seconds. -/
  timeout : Nat

/-- src/peer/msepe.rs:22-24, 72-81 `HandshakeBuilder::new`. -/
def HandshakeBuilder.new (skey : InfoHash) : HandshakeBuilder := { skey := skey, provide := methodSet [.rc4], timeout := 30 }

/-- src/peer/msepe.rs:93-96 `dh_exchange_timeout`. -/
def HandshakeBuilder.dhExchangeTimeout (b : HandshakeBuilder) (d : Nat) : HandshakeBuilder := { b with timeout := d }

/-- src/peer/msepe.rs:98-117 `HandshakeBuilder::build`: the handshake, and the time it allows for packet 2. -/
def HandshakeBuilder.build (b : HandshakeBuilder) : Gen (Handshaker × Nat) :=
  (drawRange 0 512).bind fun padaLen =>
  (drawRange 0 512).bind fun padcLen =>
  genPrivateKey.bind fun privateKey =>
  (drawMany drawByte padaLen).bind fun padA =>
  Gen.pure
    ({ state := .packet2 privateKey
       output := some (biguint2bytes (modpow 2 privateKey primeModulus) ++ padA)
       padcLen := BitVec.ofNat 16 padcLen
       skey := b.skey
       timeout := true
       input := []
       provide := b.provide }, b.timeout)

/-- src/peer/mod.rs:221-231: the handshake of a connection that is to be encrypted. -/
def connectionHandshake (cfg : PeersConfig) (skey : InfoHash) : Gen (Handshaker × Nat) :=
  ((HandshakeBuilder.new skey).dhExchangeTimeout cfg.dhExchangeTimeout).build

/-- src/app.rs:73-78 `LocalPeer`. -/
structure LocalPeer where
  id : PeerId
  key : BitVec 32
  port : BitVec 16
  deriving DecidableEq

/-- src/types.rs:131-138 `PeerId::generate`: the bytes of the prefix, as far as there is room for them, and one draw for every further
byte. -/
def PeerId.draw (pfx : Bytes) : Gen PeerId :=
  (drawMany drawAlnum (20 - pfx.length)).bind fun l =>
  if h : (pfx.take 20 ++ l).length = 20 then Gen.pure ⟨pfx.take 20 ++ l, h⟩ else fun _ => none

/-- src/config.rs:157-164 `LocalPort::generate`. -/
def LocalPort.draw : LocalPort → Gen (BitVec 16)
  | .constant p => Gen.pure p
  | .range low high => (drawRange low.toNat high.toNat).bind fun n => Gen.pure (BitVec.ofNat 16 n)

/-- src/app.rs:21-25 `App::new`: who the program is for trackers and peers.  `pfx` is `PEER_ID_PREFIX` (build.rs:4-21). -/
def LocalPeer.draw (pfx : Bytes) (port : LocalPort) : Gen LocalPeer :=
  (PeerId.draw pfx).bind fun id => drawWord.bind fun key => port.draw.bind fun p => Gen.pure ⟨id, key, p⟩

/-- src/dht/actor.rs:99: the ID under which the program asks the DHT. -/
def drawNodeId : Gen Bytes := drawMany drawByte 20

end Demag
