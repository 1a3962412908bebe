import Verif.Model.Mse
import Verif.Spec.Digits

/-!
# Specification: Message Stream Encryption

What the protocol says, without reference to how the program proceeds: which bytes make up the packets and which byte of which
keystream belongs to which byte of the connection.
-/

namespace Demag.Spec

/-- XOR data with a stream of bytes, beginning at byte `k` of the stream. -/
def xorAt (f : Nat → UInt8) : Nat → List UInt8 → List UInt8
  | _, [] => []
  | k, x :: xs => (x ^^^ f k) :: xorAt f (k + 1) xs

/-- The state of a generator after `k` bytes. -/
def rc4After (r : Rc4) : Nat → Rc4
  | 0 => r
  | k + 1 => (rc4After r k).next.2

/-- Byte `k` of the keystream that a generator is about to produce. -/
def rc4Byte (r : Rc4) (k : Nat) : UInt8 := (rc4After r k).next.1

/-- The keystream of the protocol for a key: without its first 1024 bytes. -/
def mseStream (key : List UInt8) (k : Nat) : UInt8 := rc4Byte (Rc4.new key) (1024 + k)

/-- The prime of the protocol. -/
def msePrime : Nat :=
  0xFFFFFFFFFFFFFFFFC90FDAA22168C234C4C6628B80DC1CD129024E088A67CC74020BBEA63B139B22514A08798E3404DDEF9519B3CD3A431B302B0A6DF25F14374FE1356D6D51C245E485B576625E7EC6F44C42E9A63A36210000000000090563

/-- A number as the protocol sends it: 96 bytes, the most significant first. -/
def Sent96 (n : Nat) (b : List UInt8) : Prop := b.length = 96 ∧ beValue b = n

/-- The code of a method in `crypto_provide` and `crypto_select`. -/
def methodCode : CryptoMethod → Nat
  | .plaintext => 1
  | .rc4 => 2

/-- The methods a `crypto_provide` field offers: bit 0 for plaintext, bit 1 for RC4. -/
def Offers (provide : BitVec 32) : CryptoMethod → Prop
  | .plaintext => provide.getLsbD 0 = true
  | .rc4 => provide.getLsbD 1 = true

/-- Packet 4, decrypted, and what follows it: eight zero bytes, the selected method, the length of the padding, the padding, the rest. -/
structure Reply (provide : BitVec 32) (plain : List UInt8) (m : CryptoMethod) (padLen : Nat) : Prop where
  offered : Offers provide m
  parts : ∃ sel len pad rest : List UInt8, plain = List.replicate 8 0 ++ sel ++ len ++ pad ++ rest ∧
    sel.length = 4 ∧ beValue sel = methodCode m ∧ len.length = 2 ∧ beValue len = padLen ∧ pad.length = padLen

/-- The number of one bits of a 32-bit number. -/
def oneBits (v : Nat) : Nat := ((List.range 32).filter fun i => v.testBit i).length

/-- The beginnings of packet 4, decrypted, that must be rejected, and for which reason. -/
inductive BadReply (provide : BitVec 32) (plain : List UInt8) : MseError → Prop
  | vc (long : 8 ≤ plain.length) (bad : plain.take 8 ≠ List.replicate 8 0) : BadReply provide plain .vcNotZero
  | single (sel rest : List UInt8) (parts : plain = List.replicate 8 0 ++ sel ++ rest) (four : sel.length = 4)
      (bad : oneBits (beValue sel) ≠ 1) : BadReply provide plain (.selectNotSingle (oneBits (beValue sel)))
  | unknown (sel rest : List UInt8) (parts : plain = List.replicate 8 0 ++ sel ++ rest) (four : sel.length = 4)
      (one : oneBits (beValue sel) = 1) (bad : ∀ m, beValue sel ≠ methodCode m) :
      BadReply provide plain (.unknownMethod (BitVec.ofNat 32 (beValue sel)))
  | unexpected (m : CryptoMethod) (sel rest : List UInt8) (parts : plain = List.replicate 8 0 ++ sel ++ rest) (four : sel.length = 4)
      (code : beValue sel = methodCode m) (bad : ¬ Offers provide m) : BadReply provide plain (.unexpectedSelection m)

/-- The ASCII text `keyA`, for what the initiator sends. -/
def keyAText : List UInt8 := [0x6B, 0x65, 0x79, 0x41]

/-- The ASCII text `keyB`, for what the responder sends. -/
def keyBText : List UInt8 := [0x6B, 0x65, 0x79, 0x42]

/-- Packet 3 as the protocol describes it, without initial data: `S` is the shared secret, `provide` the offered methods. -/
def Packet3 (H : List UInt8 → List UInt8) (S skey : List UInt8) (provide padLen : Nat) (packet : List UInt8) : Prop :=
  ∃ x e pro len ia : List UInt8,
    packet = H ([0x72, 0x65, 0x71, 0x31] ++ S) ++ x ++ e ∧
    x.length = 20 ∧
    List.zipWith (fun a b => a ^^^ b) x (H ([0x72, 0x65, 0x71, 0x33] ++ S)) = H ([0x72, 0x65, 0x71, 0x32] ++ skey) ∧
    xorAt (mseStream (H (keyAText ++ S ++ skey))) 0 e =
      List.replicate 8 0 ++ pro ++ len ++ List.replicate padLen 0 ++ ia ∧
    pro.length = 4 ∧ beValue pro = provide ∧ len.length = 2 ∧ beValue len = padLen ∧ ia = [0, 0]

end Demag.Spec
