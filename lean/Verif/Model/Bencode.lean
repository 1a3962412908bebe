import Verif.Spec.Bencode
import Verif.Model.Wire

/-!
# Bencode reading and writing as done by `bendy` 0.6 for demagnetize

`bendy` is an external crate; its source is not part of `/repo`, so this file is
a model of its documented behaviour (see the trusted base in DESIGN.md).  The decoder is a
recursive-descent parser equivalent to bendy's token loop plus state tracker:

* integers have no superfluous leading zeros and no negative zero,
* string lengths have no superfluous leading zeros,
* dictionary keys are strings and strictly increasing,
* at most `max_depth` nested containers.

All syntax errors are `none`: the code never distinguishes them.
`bendy` decodes lazily while the code below decodes to a tree first; the two agree on which
documents are accepted and with which result, because dropping a list or dictionary decoder consumes the rest of it
and syntax errors stay latched in the decoder (they then make the final `next_object` fail).
-/

namespace Demag

open Spec (Ben)

/-- ASCII digit. -/
def isDigit (c : UInt8) : Bool := decide (48 ≤ c.toNat ∧ c.toNat ≤ 57)

/-- bendy `Decoder::take_int` without the sign: canonical decimal digits up to the first non-digit. -/
def parseNat (bs : Bytes) : Option (Nat × Bytes) :=
  let ds := bs.takeWhile isDigit
  let rest := bs.dropWhile isDigit
  match ds with
  | [] => none
  | d :: ds' =>
    if d = 48 ∧ ds' ≠ [] then none
    else some ((d :: ds').foldl (fun acc c => acc * 10 + (c.toNat - 48)) 0, rest)

/-- bendy: the part of an integer token after `i`. -/
def parseIntBody (bs : Bytes) : Option (Int × Bytes) :=
  match bs with
  | 45 :: bs' => do
    let (n, r) ← parseNat bs'
    match r with
    | 101 :: r' => if n = 0 then none else some (-(n : Int), r')
    | _ => none
  | _ => do
    let (n, r) ← parseNat bs
    match r with
    | 101 :: r' => some ((n : Int), r')
    | _ => none

/-- bendy: a byte string token, `<len>:<bytes>`. -/
def parseBytes (bs : Bytes) : Option (Bytes × Bytes) := do
  let (n, r) ← parseNat bs
  match r with
  | 58 :: r' => if n ≤ r'.length then some (r'.take n, r'.drop n) else none
  | _ => none

/-- bendy state tracker: a key must be greater than the previous key of the same dictionary, if any. -/
def keyAfter : Option Bytes → Bytes → Bool
  | none, _ => true
  | some p, k => Spec.bytesLt p k

mutual
/-- bendy: one object (with everything inside it) at remaining depth `d`. -/
def parseVal : Nat → Nat → Bytes → Option (Ben × Bytes)
  | 0, _, _ => none
  | fuel + 1, d, bs =>
    match bs with
    | [] => none
    | c :: bs' =>
      if c = 105 then do
        let (i, r) ← parseIntBody bs'
        some (.int i, r)
      else if c = 108 then
        match d with
        | 0 => none
        | d' + 1 => do
          let (l, r) ← parseListItems fuel d' bs'
          some (.list l, r)
      else if c = 100 then
        match d with
        | 0 => none
        | d' + 1 => do
          let (kvs, r) ← parseDictItems fuel d' none bs'
          some (.dict kvs, r)
      else do
        let (b, r) ← parseBytes (c :: bs')
        some (.bytes b, r)
/-- bendy `ListDecoder`: objects up to the closing `e`. -/
def parseListItems : Nat → Nat → Bytes → Option (List Ben × Bytes)
  | 0, _, _ => none
  | fuel + 1, d, bs =>
    match bs with
    | [] => none
    | c :: bs' =>
      if c = 101 then some ([], bs')
      else do
        let (v, r) ← parseVal fuel d (c :: bs')
        let (vs, r') ← parseListItems fuel d r
        some (v :: vs, r')
/-- bendy `DictDecoder`: pairs up to the closing `e`; every key must exceed the previous one. -/
def parseDictItems : Nat → Nat → Option Bytes → Bytes → Option (List (Bytes × Ben) × Bytes)
  | 0, _, _, _ => none
  | fuel + 1, d, prev, bs =>
    match bs with
    | [] => none
    | c :: bs' =>
      if c = 101 then some ([], bs')
      else do
        let (k, r) ← parseBytes (c :: bs')
        if keyAfter prev k then do
          let (v, r') ← parseVal fuel d r
          let (kvs, r'') ← parseDictItems fuel d (some k) r'
          some ((k, v) :: kvs, r'')
        else none
end

/-- One object from the start of `bs`, with enough fuel for any input (`Decoder::next_object` on a fresh
`Decoder::new(bs).with_max_depth(maxDepth)`, including the contents of the object). -/
def parseObject (maxDepth : Nat) (bs : Bytes) : Option (Ben × Bytes) :=
  parseVal (2 * bs.length + 2) maxDepth bs

/-- src/util.rs:148-156 `UnbencodeError`; `bendy` stands for syntax errors and for errors raised by
`decode_bencode_object`. -/
inductive UnbencodeError where
  | bendy
  | noData
  | trailingData
  deriving DecidableEq, Repr

/-- src/util.rs:136-146 `decode_bencode`: one object, interpreted by `f` (`T::decode_bencode_object`), and
nothing after it.  `maxDepth` is `T::EXPECTED_RECURSION_DEPTH`. -/
def decodeBencode {α : Type} (maxDepth : Nat) (f : Ben → Option α) (buf : Bytes) : Except UnbencodeError α :=
  if buf.isEmpty then .error .noData
  else
    match parseObject maxDepth buf with
    | none => .error .bendy
    | some (v, rest) =>
      match f v with
      | none => .error .bendy
      | some x => if rest.isEmpty then .ok x else .error .trailingData

/-- bendy's default `EXPECTED_RECURSION_DEPTH`/`Decoder::new` depth limit. -/
def bendyDefaultDepth : Nat := 2048

/-! ### Interpreting objects -/

/-- bendy `u8/u16/u32/…::decode_bencode_object`: an integer in the range of the type of `bits` bits. -/
def benUint (bits : Nat) : Ben → Option (BitVec bits)
  | .int i => if 0 ≤ i ∧ i < 2 ^ bits then some (BitVec.ofNat bits i.toNat) else none
  | _ => none

/-- bendy `try_into_bytes`. -/
def benBytes : Ben → Option Bytes
  | .bytes b => some b
  | _ => none

/-- bendy `try_into_list`. -/
def benList : Ben → Option (List Ben)
  | .list l => some l
  | _ => none

/-- bendy `try_into_dictionary`. -/
def benDict : Ben → Option (List (Bytes × Ben))
  | .dict d => some d
  | _ => none

/-- `String::from_utf8`/`str::from_utf8` (std), through Lean's own UTF-8 decoder. -/
def fromUtf8 (b : Bytes) : Option Text := (ByteArray.mk b.toArray).utf8Decode?.map Array.toList

/-- bendy `String::decode_bencode_object`: a byte string that is valid UTF-8. -/
def benText : Ben → Option Text
  | .bytes b => fromUtf8 b
  | _ => none

/-! ### Writing -/

/-- Decimal printing of unsigned integers (std `Display`). -/
def showNat (n : Nat) : Bytes :=
  if n < 10 then [UInt8.ofNat (48 + n)] else showNat (n / 10) ++ [UInt8.ofNat (48 + n % 10)]
termination_by n

/-- bendy `emit_int` for an unsigned integer. -/
def emitNat (n : Nat) : Bytes := [105] ++ showNat n ++ [101]

/-- bendy `emit_int` for a signed integer. -/
def emitInt (i : Int) : Bytes := [105] ++ (if i < 0 then 45 :: showNat i.natAbs else showNat i.natAbs) ++ [101]

/-- bendy `emit_bytes`/`emit_str`. -/
def emitBytes (b : Bytes) : Bytes := showNat b.length ++ [58] ++ b

/-- bendy `emit_list`: `l`, the items, `e`. -/
def emitList (items : List Bytes) : Bytes := [108] ++ items.flatten ++ [101]

/-- bendy's key check while emitting a dictionary: a key must exceed the previous one. -/
def keysIncreasing : Option Bytes → List (Bytes × Bytes) → Bool
  | _, [] => true
  | none, (k, _) :: kvs => keysIncreasing (some k) kvs
  | some p, (k, _) :: kvs => Spec.bytesLt p k && keysIncreasing (some k) kvs

/-- bendy `emit_dict`/`emit_pair`: fails (and the code's `expect` panics) if the keys are not emitted in strictly
increasing order. -/
def emitDict (kvs : List (Bytes × Bytes)) : Option Bytes :=
  if keysIncreasing none kvs then
    some ([100] ++ (kvs.map fun kv => emitBytes kv.1 ++ kv.2).flatten ++ [101])
  else none

end Demag
