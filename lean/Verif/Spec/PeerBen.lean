import Verif.Spec.Fields
import Verif.Model.PeerMsg

/-!
# Specification: bencoded peer messages (BEP 9, BEP 10)

Only the data types of the model and `utf8` (UTF-8 encoding of a text) are used.
-/

namespace Demag.Spec

/-- A flag: an integer 0..255, true iff not 0. -/
def IsFlag (v : Ben) (b : Bool) : Prop := ∃ n : Nat, n < 256 ∧ v = .int n ∧ (b = true ↔ n ≠ 0)

/-- A UTF-8 text. -/
def IsText (v : Ben) (t : List Char) : Prop := v = .bytes (utf8 t)

/-- A dictionary of names and one-byte codes. -/
def IsCodeMap (v : Ben) (m : List (List Char × BitVec 8)) : Prop :=
  v = .dict (m.map fun kv => (utf8 kv.1, .int kv.2.toNat))

/-- An IP address in network byte order. -/
def IsIp (v : Ben) (ip : IpAddr) : Prop :=
  ∃ b, v = .bytes b ∧
    match ip with
    | .v4 a => b.length = 4 ∧ beValue b = a.bits.toNat
    | .v6 a => b.length = 16 ∧ beValue b = a.bits.toNat

/-- The dictionary denotes the extended handshake: each of the five keys is absent iff the field is absent, and
has the value of the field otherwise.  Other keys are permitted. -/
structure DenotesHandshake (kvs : List (List UInt8 × Ben)) (s : ExtendedHandshake) : Prop where
  e : OptField "e" kvs IsFlag s.e
  m : OptField "m" kvs IsCodeMap s.m
  v : OptField "v" kvs IsText s.v
  metadataSize : OptField "metadata_size" kvs (IsUint 32) s.metadataSize
  yourip : OptField "yourip" kvs IsIp s.yourip

/-- The metadata message denoted by a dictionary followed by `rest` (BEP 9): `total_size`, if present, must fit 32 bits;
only `data` may be followed by bytes, which are its payload. -/
inductive DenotesMetadata (kvs : List (List UInt8 × Ben)) (rest : List UInt8) : MetadataMessage → Prop
  | request (p : BitVec 32) (t : Option (BitVec 32)) (h : ReqField "msg_type" kvs (IsUint 8) 0)
      (hp : ReqField "piece" kvs (IsUint 32) p) (ht : OptField "total_size" kvs (IsUint 32) t) (hr : rest = []) :
      DenotesMetadata kvs rest (.request p)
  | data (p t : BitVec 32) (h : ReqField "msg_type" kvs (IsUint 8) 1)
      (hp : ReqField "piece" kvs (IsUint 32) p) (ht : ReqField "total_size" kvs (IsUint 32) t) :
      DenotesMetadata kvs rest (.data p t rest)
  | reject (p : BitVec 32) (t : Option (BitVec 32)) (h : ReqField "msg_type" kvs (IsUint 8) 2)
      (hp : ReqField "piece" kvs (IsUint 32) p) (ht : OptField "total_size" kvs (IsUint 32) t) (hr : rest = []) :
      DenotesMetadata kvs rest (.reject p)
  | unknown (c : BitVec 8) (p : BitVec 32) (t : Option (BitVec 32)) (h : ReqField "msg_type" kvs (IsUint 8) c)
      (hc : 2 < c.toNat) (hp : ReqField "piece" kvs (IsUint 32) p) (ht : OptField "total_size" kvs (IsUint 32) t) :
      DenotesMetadata kvs rest (.unknown c)

end Demag.Spec
