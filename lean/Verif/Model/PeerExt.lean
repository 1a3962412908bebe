import Verif.Model.Bencode

/-!
# Protocol extensions: the model of `/repo/src/peer/extensions.rs`
-/

namespace Demag

/-- src/peer/extensions.rs:9-19 `Extension`. -/
inductive Extension where
  | azureusMessaging
  | locationAware
  | bep10
  | dht
  | xbtPex
  | fast
  | natTraversal
  | hybridV2
  deriving DecidableEq, Repr

/-- src/peer/extensions.rs:11-18: the discriminants. -/
def Extension.code : Extension → Nat
  | .azureusMessaging => 63
  | .locationAware => 43
  | .bep10 => 20
  | .dht => 0
  | .xbtPex => 1
  | .fast => 2
  | .natTraversal => 3
  | .hybridV2 => 4

/-- src/peer/extensions.rs:22-24 `Extension::bit`. -/
def Extension.bit (e : Extension) : BitVec 64 := 1#64 <<< e.code

/-- src/peer/extensions.rs:9 `EnumIter`: the variants in declaration order. -/
def Extension.all : List Extension :=
  [.azureusMessaging, .locationAware, .bep10, .dht, .xbtPex, .fast, .natTraversal, .hybridV2]

/-- src/peer/extensions.rs:27-41 `Display for Extension`. -/
def Extension.display : Extension → String
  | .azureusMessaging => "Azureus Messaging Protocol"
  | .locationAware => "BitTorrent Location-aware Protocol"
  | .bep10 => "BEP 10 Extension Protocol"
  | .dht => "BitTorrent DHT"
  | .xbtPex => "XBT Peer Exchange"
  | .fast => "Fast Extension"
  | .natTraversal => "NAT Traversal"
  | .hybridV2 => "hybrid torrent legacy to v2 upgrade"

/-- src/peer/extensions.rs:43-44 `ExtensionSet`; also 86-96, the conversions from and to `u64`, which are the
constructor and the field. -/
structure ExtensionSet where
  bits : BitVec 64
  deriving DecidableEq, Repr

/-- src/peer/extensions.rs:47-49 `ExtensionSet::has`. -/
def ExtensionSet.has (s : ExtensionSet) (e : Extension) : Bool := s.bits &&& e.bit != 0

/-- src/peer/extensions.rs:78-84 `BitAnd for ExtensionSet`. -/
def ExtensionSet.and (s t : ExtensionSet) : ExtensionSet := ⟨s.bits &&& t.bits⟩

/-- src/peer/extensions.rs:98-109 `FromIterator<Extension> for ExtensionSet`. -/
def ExtensionSet.fromIter (es : List Extension) : ExtensionSet :=
  ⟨es.foldl (fun value e => value ||| e.bit) 0⟩

/-- src/peer/extensions.rs:54-64: the loop of `Display for ExtensionSet`: the extensions whose names are written, and
the bits left over. -/
def ExtensionSet.shownLoop : List Extension → BitVec 64 → List Extension × BitVec 64
  | [], extset => ([], extset)
  | e :: es, extset =>
    let (shown, left) := shownLoop es (extset &&& ~~~ e.bit)
    if extset &&& e.bit != 0 then (e :: shown, left) else (shown, left)

/-- src/peer/extensions.rs:52-76 `Display for ExtensionSet`, as the pair of the extensions named (in order) and the
leftover bits, which are printed as `Unknown(..)` iff nonzero.  The literal text is in `Model/LogText.lean`. -/
def ExtensionSet.shown (s : ExtensionSet) : List Extension × BitVec 64 := shownLoop Extension.all s.bits

/-- src/consts.rs:20 `SUPPORTED_EXTENSIONS`. -/
def supportedExtensions : List Extension := [.bep10, .fast]

/-! ### Maps -/

/-- `std::collections::HashMap`: an association list (each key at most once, see `insert`). -/
abbrev HMap (κ ν : Type) := List (κ × ν)

/-- `HashMap::get`. -/
def HMap.get {κ ν : Type} [DecidableEq κ] (m : HMap κ ν) (k : κ) : Option ν :=
  (m.find? fun kv => kv.1 = k).map Prod.snd

/-- `HashMap::contains_key`. -/
def HMap.contains {κ ν : Type} [DecidableEq κ] (m : HMap κ ν) (k : κ) : Bool := (HMap.get m k).isSome

/-- `HashMap::insert`. -/
def HMap.insert {κ ν : Type} [DecidableEq κ] (m : HMap κ ν) (k : κ) (v : ν) : HMap κ ν :=
  (k, v) :: m.filter fun kv => kv.1 ≠ k

/-- `HashMap::remove`. -/
def HMap.remove {κ ν : Type} [DecidableEq κ] (m : HMap κ ν) (k : κ) : HMap κ ν :=
  m.filter fun kv => kv.1 ≠ k

/-- `BTreeMap<String, V>::insert` on the list of entries in key order (`str` is ordered by its UTF-8 bytes). -/
def btreeInsert {ν : Type} : List (Text × ν) → Text → ν → List (Text × ν)
  | [], k, v => [(k, v)]
  | (k', v') :: rest, k, v =>
    if k = k' then (k, v) :: rest
    else if Spec.bytesLt (utf8 k) (utf8 k') then (k, v) :: (k', v') :: rest
    else (k', v') :: btreeInsert rest k v

/-! ### BEP 10 registry -/

/-- src/peer/extensions.rs:111-116 `Bep10Extension`. -/
inductive Bep10Extension where
  | metadata
  deriving DecidableEq, Repr

/-- src/peer/extensions.rs:118-128 `Bep10Extension::from_str` (`none` = `Bep10Error`). -/
def Bep10Extension.fromStr (s : Text) : Option Bep10Extension :=
  if s = "ut_metadata".toList then some .metadata else none

/-- src/peer/extensions.rs:130-137 `Display for Bep10Extension`. -/
def Bep10Extension.display : Bep10Extension → Text
  | .metadata => "ut_metadata".toList

/-- src/peer/extensions.rs:143-148 `Bep10Registry`.  Generalisation: the type of extensions is a parameter (the code
has one extension and mentions two more in comments), so that the theorems are about any number of extensions. -/
structure RegistryOf (ε : Type) where
  toCode : HMap ε (BitVec 8)
  fromCode : HMap (BitVec 8) ε

abbrev Bep10Registry := RegistryOf Bep10Extension

/-- src/peer/extensions.rs:209-217 `Bep10RegistryError`. -/
inductive RegistryError (ε : Type) where
  | handshake
  | code (c : BitVec 8)
  | ext (e : ε)
  deriving DecidableEq

/-- src/peer/extensions.rs:152-157 `Bep10Registry::new`. -/
def RegistryOf.new {ε : Type} : RegistryOf ε := ⟨[], []⟩

/-- src/peer/extensions.rs:177-179 `Bep10Registry::contains`. -/
def RegistryOf.contains {ε : Type} [DecidableEq ε] (r : RegistryOf ε) (e : ε) : Bool := HMap.contains r.toCode e

/-- src/peer/extensions.rs:181-183 `Bep10Registry::get_message_id`. -/
def RegistryOf.getMessageId {ε : Type} [DecidableEq ε] (r : RegistryOf ε) (e : ε) : Option (BitVec 8) :=
  HMap.get r.toCode e

/-- src/peer/extensions.rs:185-187 `Bep10Registry::for_message_id`. -/
def RegistryOf.forMessageId {ε : Type} [DecidableEq ε] (r : RegistryOf ε) (c : BitVec 8) : Option ε :=
  HMap.get r.fromCode c

/-- src/peer/extensions.rs:189-206 `Bep10Registry::register`: the registry afterwards and the result. -/
def RegistryOf.register {ε : Type} [DecidableEq ε] (r : RegistryOf ε) (e : ε) (c : BitVec 8) :
    RegistryOf ε × Except (RegistryError ε) Unit :=
  if c = 0 then (r, .error .handshake)
  else if HMap.contains r.fromCode c then (r, .error (.code c))
  else if HMap.contains r.toCode e then (r, .error (.ext e))
  else (⟨HMap.insert r.toCode e c, HMap.insert r.fromCode c e⟩, .ok ())

/-- src/peer/extensions.rs:161-166: the loop of `Bep10Registry::from_m`; `parse` is `Bep10Extension::from_str`. -/
def RegistryOf.fromMLoop {ε : Type} [DecidableEq ε] (parse : Text → Option ε) (r : RegistryOf ε) :
    List (Text × BitVec 8) → Except (RegistryError ε) (RegistryOf ε)
  | [] => .ok r
  | (k, v) :: rest =>
    match parse k with
    | some e =>
      match r.register e v with
      | (r', .ok ()) => fromMLoop parse r' rest
      | (_, .error err) => .error err
    | none => fromMLoop parse r rest

/-- src/peer/extensions.rs:159-167 `Bep10Registry::from_m`. -/
def RegistryOf.fromM {ε : Type} [DecidableEq ε] (parse : Text → Option ε) (m : List (Text × BitVec 8)) :
    Except (RegistryError ε) (RegistryOf ε) :=
  fromMLoop parse .new m

/-- src/peer/extensions.rs:169-175 `Bep10Registry::to_m`; `display` is `Bep10Extension::to_string`. -/
def RegistryOf.toM {ε : Type} (display : ε → Text) (r : RegistryOf ε) : List (Text × BitVec 8) :=
  r.toCode.foldl (fun m ec => btreeInsert m (display ec.1) ec.2) []

end Demag
