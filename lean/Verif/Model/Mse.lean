import Verif.Model.Crypto

/-!
# Model: encrypted connections (src/peer/msepe.rs)

The digest is a parameter `H`.  Random numbers (the private key, the padding) are parameters.  `BigUint` (crate `num-bigint`) is `Nat`.
-/

namespace Demag

/-- src/peer/msepe.rs:26 `MODULUS_BYTES`. -/
def modulusBytes : Nat := 96
/-- src/peer/msepe.rs:28 `MIN_PACKET2_LEN`. -/
def minPacket2Len : Nat := modulusBytes
/-- src/peer/msepe.rs:30 `MAX_PACKET2_LEN`. -/
def maxPacket2Len : Nat := 608

/-- src/peer/msepe.rs:32-39 `CryptoMethod`. -/
inductive CryptoMethod where
  | plaintext
  | rc4
  deriving DecidableEq

/-- src/peer/msepe.rs:36-39: `u32::from` (crate `num_enum`). -/
def CryptoMethod.code : CryptoMethod → BitVec 32
  | .plaintext => 1
  | .rc4 => 2

/-- src/peer/msepe.rs:36-39: `CryptoMethod::try_from` (crate `num_enum`). -/
def CryptoMethod.ofCode (x : BitVec 32) : Option CryptoMethod :=
  if x = 1 then some .plaintext else if x = 2 then some .rc4 else none

/-- src/peer/msepe.rs:45-47 `CryptoMethodSet::contains`. -/
def methodSetContains (set : BitVec 32) (m : CryptoMethod) : Bool := set &&& m.code != 0

/-- src/peer/msepe.rs:50-55 `CryptoMethodSet::from_iter`. -/
def methodSet (l : List CryptoMethod) : BitVec 32 := l.foldl (fun acc m => acc ||| m.code) 0

/-- `u32::count_ones` (std). -/
def countOnes (x : BitVec 32) : Nat := (List.range 32).countP fun i => x.getLsbD i

/-- src/peer/msepe.rs:540-551 `prime_modulus`. -/
def primeModulus : Nat :=
  0xffffffffffffffffc90fdaa22168c234c4c6628b80dc1cd129024e088a67cc74020bbea63b139b22514a08798e3404ddef9519b3cd3a431b302b0a6df25f14374fe1356d6d51c245e485b576625e7ec6f44c42e9a63a36210000000000090563

/-- `BigUint::to_bytes_be` (crate `num-bigint`): no leading zeros; zero is one zero byte.  The first argument bounds the number of
bytes. -/
def minimalBytes : Nat → Nat → Bytes
  | 0, _ => []
  | fuel + 1, n => if n < 256 then [UInt8.ofNat n] else minimalBytes fuel (n / 256) ++ [UInt8.ofNat n]

/-- `BigUint::to_bytes_be` (crate `num-bigint`). -/
def toBytesBe (n : Nat) : Bytes := minimalBytes (n.log2 + 1) n

/-- src/peer/msepe.rs:553-566 `biguint2bytes`.  (The `debug_assert` is theorem `biguint2bytes_length`.) -/
def biguint2bytes (n : Nat) : Bytes :=
  let bytes := toBytesBe n
  if bytes.length ≤ modulusBytes then List.replicate (modulusBytes - bytes.length) 0 ++ bytes else bytes

/-- `BigUint::from_bytes_be` (crate `num-bigint`). -/
def fromBytesBe (b : Bytes) : Nat := beAccum b

/-- `BigUint::modpow` (crate `num-bigint`), by squaring; the first argument bounds the number of bits of the exponent.  The theorem
`modpow_eq` says that it is the remainder of the power. -/
def modpowBits : Nat → Nat → Nat → Nat → Nat
  | 0, _, _, modulus => 1 % modulus
  | fuel + 1, base, exponent, modulus =>
    let h := modpowBits fuel (base * base % modulus) (exponent / 2) modulus
    if exponent % 2 = 1 then base * h % modulus else h

/-- `BigUint::modpow` (crate `num-bigint`). -/
def modpow (base exponent modulus : Nat) : Nat := modpowBits (exponent.log2 + 1) base exponent modulus

/-- src/peer/msepe.rs:375-384 `Keystream`. -/
inductive Keystream where
  | plaintext
  | rc4 (outgoing incoming : Rc4)
  deriving DecidableEq

/-- src/peer/msepe.rs:388-392 `Keystream::encode`. -/
def Keystream.encode : Keystream → Bytes → Bytes × Keystream
  | .plaintext, b => (b, .plaintext)
  | .rc4 o i, b => ((o.apply b).1, .rc4 (o.apply b).2 i)

/-- src/peer/msepe.rs:395-399 `Keystream::decode`. -/
def Keystream.decode : Keystream → Bytes → Bytes × Keystream
  | .plaintext, b => (b, .plaintext)
  | .rc4 o i, b => ((i.apply b).1, .rc4 o (i.apply b).2)

/-- src/peer/msepe.rs:340-353 `Packet4State`. -/
inductive Packet4State where
  | vc
  | select
  | lenPadD (m : CryptoMethod)
  | padD (m : CryptoMethod) (needed : Nat)
  deriving DecidableEq

/-- src/peer/msepe.rs:327-338 `HandshakeState`. -/
inductive HandshakeState where
  | packet2 (privateKey : Nat)
  | packet4 (ks : Keystream) (sub : Packet4State)
  | done (ks : Keystream)
  deriving DecidableEq

/-- src/peer/msepe.rs:355-373 `HandshakeError`. -/
inductive MseError where
  | packet2Len (n : Nat)
  | vcNotZero
  | selectNotSingle (n : Nat)
  | unknownMethod (x : BitVec 32)
  | unexpectedSelection (m : CryptoMethod)
  | send
  | recv
  | disconnect
  deriving DecidableEq

/-- src/peer/msepe.rs:120-129 `Handshaker`.  `timeout` tells whether the duration has not yet been taken. -/
structure Handshaker where
  state : HandshakeState
  output : Option Bytes
  padcLen : BitVec 16
  skey : InfoHash
  timeout : Bool
  input : Bytes
  provide : BitVec 32

/-- src/peer/msepe.rs:98-117 `HandshakeBuilder::build`.  The random numbers are parameters: the private key (160 bits), the first
padding and the length of the third. -/
def Handshaker.build (skey : InfoHash) (privateKey : Nat) (padA : Bytes) (padcLen : BitVec 16) : Handshaker :=
  { state := .packet2 privateKey
    output := some (biguint2bytes (modpow 2 privateKey primeModulus) ++ padA)
    padcLen := padcLen
    skey := skey
    timeout := true
    input := []
    provide := methodSet [.rc4] }

/-- src/peer/msepe.rs:187-207: state `PadD`; the loop ends here in any case. -/
def onPadD (m : CryptoMethod) (needed : Nat) (ks : Keystream) (buf : Bytes) : Except MseError (HandshakeState × Bytes) :=
  let sz := min needed buf.length
  let d := ks.decode (buf.take sz)
  let needed' := needed - sz
  if needed' = 0 then
    .ok (.done (match m with | .plaintext => .plaintext | .rc4 => d.2), buf.drop sz)
  else .ok (.packet4 d.2 (.padD m needed'), buf.drop sz)

/-- src/peer/msepe.rs:177-186: state `LenPadD`. -/
def onLenPadD (m : CryptoMethod) (ks : Keystream) (buf : Bytes) : Except MseError (HandshakeState × Bytes) :=
  if buf.length < 2 then .ok (.packet4 ks (.lenPadD m), buf)
  else
    let d := ks.decode (buf.take 2)
    onPadD m (beAccum d.1) d.2 (buf.drop 2)

/-- src/peer/msepe.rs:159-176: state `Select`. -/
def onSelect (provide : BitVec 32) (ks : Keystream) (buf : Bytes) : Except MseError (HandshakeState × Bytes) :=
  if buf.length < 4 then .ok (.packet4 ks .select, buf)
  else
    let d := ks.decode (buf.take 4)
    let cs := BitVec.ofNat 32 (beAccum d.1)
    if countOnes cs ≠ 1 then .error (.selectNotSingle (countOnes cs))
    else
      match CryptoMethod.ofCode cs with
      | none => .error (.unknownMethod cs)
      | some m =>
        if methodSetContains provide m then onLenPadD m d.2 (buf.drop 4) else .error (.unexpectedSelection m)

/-- src/peer/msepe.rs:150-158: state `Vc`. -/
def onVc (provide : BitVec 32) (ks : Keystream) (buf : Bytes) : Except MseError (HandshakeState × Bytes) :=
  if buf.length < 8 then .ok (.packet4 ks .vc, buf)
  else
    let d := ks.decode (buf.take 8)
    if d.1.all (fun b => b == 0) then onSelect provide d.2 (buf.drop 8) else .error .vcNotZero

/-- src/peer/msepe.rs:148-209: the loop of `handle_input`, unrolled along its only path. -/
def packet4Loop (provide : BitVec 32) (ks : Keystream) (sub : Packet4State) (buf : Bytes) :
    Except MseError (HandshakeState × Bytes) :=
  match sub with
  | .vc => onVc provide ks buf
  | .select => onSelect provide ks buf
  | .lenPadD m => onLenPadD m ks buf
  | .padD m n => onPadD m n ks buf

/-- src/peer/msepe.rs:141-212 `Handshaker::handle_input`. -/
def Handshaker.handleInput (h : Handshaker) (b : Bytes) : Except MseError Handshaker :=
  match h.state with
  | .packet4 ks sub => (packet4Loop h.provide ks sub (h.input ++ b)).map fun r => { h with state := r.1, input := r.2 }
  | _ => .ok { h with input := h.input ++ b }

/-- src/peer/msepe.rs:247-254: a keystream whose first 1024 bytes are thrown away. -/
def freshRc4 (key : Bytes) : Rc4 := ((Rc4.new key).apply (List.replicate 1024 0)).2

/-- The byte string literals of src/peer/msepe.rs:236-280. -/
def ascii (s : String) : Bytes := s.toList.map fun c => UInt8.ofNat c.toNat

/-- src/peer/msepe.rs:222-305 `Handshaker::handle_timeout`.  (src/peer/msepe.rs:251-254: one buffer is used for both keystreams; what it
contains does not matter.) -/
def Handshaker.handleTimeout (H : Bytes → Bytes) (h : Handshaker) : Except MseError Handshaker :=
  match h.state with
  | .packet2 privateKey =>
    let sz := h.input.length
    if ¬ (minPacket2Len ≤ sz ∧ sz ≤ maxPacket2Len) then .error (.packet2Len sz)
    else
      let secret := biguint2bytes (modpow (fromBytesBe (h.input.take modulusBytes)) privateKey primeModulus)
      let outgoing := freshRc4 (H (ascii "keyA" ++ secret ++ h.skey.bytes))
      let incoming := freshRc4 (H (ascii "keyB" ++ secret ++ h.skey.bytes))
      let text := List.replicate 8 0 ++ putU32 h.provide ++ putU16 h.padcLen ++ List.replicate h.padcLen.toNat 0 ++ putU16 0
      let e := outgoing.apply text
      let packet3 := H (ascii "req1" ++ secret) ++
        List.zipWith (fun a b => a ^^^ b) (H (ascii "req2" ++ h.skey.bytes)) (H (ascii "req3" ++ secret)) ++ e.1
      .ok { h with input := [], output := some packet3, state := .packet4 (.rc4 e.2 incoming) .vc }
  | _ => .ok h

/-- src/peer/msepe.rs:439-458: what the connection does while the handshake waits for it. -/
inductive HandshakeRead where
  | data (b : Bytes)
  | eof
  | failed
  | timeout
  deriving DecidableEq

/-- src/peer/msepe.rs:402-414 `EncryptedStream` (without the connection). -/
structure EncryptedStream where
  keystream : Keystream
  readBuffer : Bytes
  writeBuffer : Bytes
  deriving DecidableEq

/-- src/peer/msepe.rs:417-420: how the handshake ends: with a stream, with an error; or it still waits. -/
inductive HandshakeOutcome where
  | ok (s : EncryptedStream)
  | err (e : MseError)
  | waiting
  deriving DecidableEq

/-- src/peer/msepe.rs:417-467 `EncryptedStream::handshake`: the loop.  `deadline` tells whether `timeout_time` is set; `sendOk n` tells
whether packet `n` can be sent.  The result: the packets sent, the outcome and the reads that were not used. -/
def handshakeLoop (H : Bytes → Bytes) (sendOk : Nat → Bool) (n : Nat) (deadline : Bool) (h : Handshaker) (reads : List HandshakeRead) :
    List Bytes × HandshakeOutcome × List HandshakeRead :=
  match h.state with
  | .done ks => ([], .ok ⟨ks, h.input, []⟩, reads)
  | _ =>
    let sent := h.output.toList
    if h.output.isSome && !sendOk n then ([], .err .send, reads)
    else
      let n' := if h.output.isSome then n + 2 else n
      let deadline' := deadline || h.timeout
      let h' := { h with output := none, timeout := false }
      match reads with
      | [] => (sent, .waiting, [])
      | .data [] :: rest => (sent, .err .disconnect, rest)
      | .data b :: rest =>
        match h'.handleInput b with
        | .error e => (sent, .err e, rest)
        | .ok h'' =>
          let r := handshakeLoop H sendOk n' deadline' h'' rest
          (sent ++ r.1, r.2)
      | .eof :: rest => (sent, .err .disconnect, rest)
      | .failed :: rest => (sent, .err .recv, rest)
      | .timeout :: rest =>
        if deadline' then
          match h'.handleTimeout H with
          | .error e => (sent, .err e, rest)
          | .ok h'' =>
            let r := handshakeLoop H sendOk n' false h'' rest
            (sent ++ r.1, r.2)
        else (sent, .waiting, .timeout :: rest)

/-! ### The stream -/

/-- src/peer/msepe.rs:510-514: the result of a poll of the connection for writing. -/
inductive WriteResult where
  | wrote (n : Nat)
  | pending
  | failed
  deriving DecidableEq

/-- src/peer/msepe.rs:517: the result of a poll. -/
inductive PollResult where
  | ready
  | pending
  | failed
  deriving DecidableEq

/-- src/peer/msepe.rs:494-505 `poll_write`: always takes everything. -/
def EncryptedStream.write (s : EncryptedStream) (b : Bytes) : EncryptedStream :=
  { s with keystream := (s.keystream.encode b).2, writeBuffer := s.writeBuffer ++ (s.keystream.encode b).1 }

/-- src/peer/msepe.rs:509-516: the loop of `poll_flush`.  `ws` are the results of the polls of the connection; `inner` is the result
of its `poll_flush`.  The result: the bytes the connection took, what is left, the result; `none` if the connection takes more than
it was given, or `ws` ends too early. -/
def flushLoop (inner : PollResult) : Bytes → List WriteResult → Option (Bytes × Bytes × PollResult)
  | [], _ => some ([], [], inner)
  | _ :: _, [] => none
  | b :: bs, .wrote n :: ws =>
    if n ≤ (b :: bs).length then
      match flushLoop inner ((b :: bs).drop n) ws with
      | none => none
      | some r => some ((b :: bs).take n ++ r.1, r.2)
    else none
  | b :: bs, .pending :: _ => some ([], b :: bs, .pending)
  | b :: bs, .failed :: _ => some ([], b :: bs, .failed)

/-- src/peer/msepe.rs:507-518 `poll_flush`. -/
def EncryptedStream.flush (s : EncryptedStream) (ws : List WriteResult) (inner : PollResult) : Option (Bytes × EncryptedStream × PollResult) :=
  (flushLoop inner s.writeBuffer ws).map fun r => (r.1, { s with writeBuffer := r.2.1 }, r.2.2)

/-- src/peer/msepe.rs:471-490 `poll_read` into a buffer with room for `room` bytes.  `net` is what the connection delivers when it is
asked: `none` if it has nothing or fails; not more than `room` bytes.  The result: the bytes taken from the connection, the bytes
delivered. -/
def EncryptedStream.read (s : EncryptedStream) (room : Nat) (net : Option Bytes) : Option (Bytes × Bytes × EncryptedStream) :=
  if s.readBuffer ≠ [] then
    let sz := min room s.readBuffer.length
    let d := s.keystream.decode (s.readBuffer.take sz)
    some ([], d.1, { s with readBuffer := s.readBuffer.drop sz, keystream := d.2 })
  else
    match net with
    | none => some ([], [], s)
    | some b =>
      if b.length ≤ room then
        let d := s.keystream.decode b
        some (b, d.1, { s with keystream := d.2 })
      else none

end Demag
