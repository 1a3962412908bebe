import Verif.Model.TrackerUrl
import Verif.Model.InfoHash
import Verif.Model.Bencode

/-!
# Magnet links and magnet files: the model of the parsing in `/repo/src/magnet.rs`
-/

namespace Demag

/-! ### `Url::query_pairs` (crates `url`, `form_urlencoded`, `percent-encoding`; external, modelled from their source) -/

/-- `(byte as char).to_digit(16)` (std). -/
def byteHexDigit (b : UInt8) : Option Nat :=
  if 48 ≤ b.toNat ∧ b.toNat ≤ 57 then some (b.toNat - 48)
  else if 97 ≤ b.toNat ∧ b.toNat ≤ 102 then some (b.toNat - 87)
  else if 65 ≤ b.toNat ∧ b.toNat ≤ 70 then some (b.toNat - 55)
  else none

/-- `percent_encoding::percent_decode`: `%` followed by two hexadecimal digits is a byte, otherwise it stands for itself. -/
def percentDecode : Bytes → Bytes
  | [] => []
  | [b] => [b]
  | [b, x] => [b, x]
  | b :: x :: y :: r =>
    if b = 37 then
      match byteHexDigit x, byteHexDigit y with
      | some h, some l => UInt8.ofNat (h * 16 + l) :: percentDecode r
      | _, _ => b :: percentDecode (x :: y :: r)
    else b :: percentDecode (x :: y :: r)
termination_by b => b.length

/-- `form_urlencoded::replace_plus`. -/
def replacePlus (b : Bytes) : Bytes := b.map fun x => if x = 43 then 32 else x

/-- `b.splitn(2, |x| x == sep)` (std), the second part being empty if there is no separator. -/
def splitn2 (sep : UInt8) (b : Bytes) : Bytes × Bytes :=
  (b.takeWhile (· ≠ sep), (b.dropWhile (· ≠ sep)).drop 1)

/-- `form_urlencoded::Parse::next`, repeated; `lossy` is `String::from_utf8_lossy`. -/
def formParse (lossy : Bytes → Text) (input : Bytes) : List (Text × Text) :=
  if _h : input = [] then []
  else
    let sr := splitn2 38 input
    if sr.1 = [] then formParse lossy sr.2
    else
      let nv := splitn2 61 sr.1
      (lossy (percentDecode (replacePlus nv.1)), lossy (percentDecode (replacePlus nv.2))) :: formParse lossy sr.2
termination_by input.length
decreasing_by
  all_goals
    show ((input.dropWhile (· ≠ 38)).drop 1).length < input.length
    have h1 : (input.dropWhile (· ≠ (38 : UInt8))).length ≤ input.length := (List.dropWhile_sublist _).length_le
    have h2 : 0 < input.length := List.length_pos_iff.2 _h
    rw [List.length_drop]; omega

/-- `Url::query_pairs`. -/
def Url.queryPairs (lossy : Bytes → Text) (u : Url) : List (Text × Text) := formParse lossy (utf8 (u.query.getD []))

/-! ### Magnet links -/

/-- src/magnet.rs:202-210 `XtError`. -/
inductive XtError where
  | notUrn
  | notBtih
  | infoHash (e : InfoHashError)
  deriving DecidableEq

/-- src/magnet.rs:176-190 `MagnetError`. -/
inductive MagnetError where
  | url
  | notMagnet
  | noXt
  | invalidXt (e : XtError)
  | multipleXt
  | invalidTracker (e : TrackerUrlError)
  deriving DecidableEq

/-- `str::strip_prefix` (std). -/
def stripPrefix (p s : Text) : Option Text := if p.isPrefixOf s then some (s.drop p.length) else none

/-- src/magnet.rs:192-200 `parse_xt`. -/
def parseXt (xt : Text) : Except XtError InfoHash :=
  match stripPrefix "urn:".toList xt with
  | none => .error .notUrn
  | some s =>
    match stripPrefix "btih:".toList s with
    | none => .error .notBtih
    | some s =>
      match InfoHash.fromStr (utf8 s) with
      | .ok h => .ok h
      | .error e => .error (.infoHash e)

/-- src/magnet.rs:16-21 `Magnet`. -/
structure Magnet where
  infoHash : InfoHash
  displayName : Option Text
  trackers : List Tracker
  deriving DecidableEq

/-- The variables of src/magnet.rs:124-126. -/
structure MagnetFields where
  infoHash : Option InfoHash := none
  dn : Option Text := none
  trackers : List Tracker := []

/-- src/magnet.rs:127-142: the body of the loop. -/
def MagnetFields.readPair (parseUrl : Text → Option Url) (s : MagnetFields) (kv : Text × Text) :
    Except MagnetError MagnetFields :=
  if kv.1 = "xt".toList then
    match s.infoHash with
    | none =>
      match parseXt kv.2 with
      | .ok h => .ok { s with infoHash := some h }
      | .error e => .error (.invalidXt e)
    | some _ => .error .multipleXt
  else if kv.1 = "dn".toList then .ok { s with dn := some kv.2 }
  else if kv.1 = "tr".toList then
    match Tracker.parse parseUrl kv.2 with
    | .ok t => .ok { s with trackers := s.trackers ++ [t] }
    | .error e => .error (.invalidTracker e)
  else .ok s

/-- src/magnet.rs:127-151: the loop and what follows. -/
def magnetOfPairs (parseUrl : Text → Option Url) (ps : List (Text × Text)) : Except MagnetError Magnet :=
  match ps.foldlM (MagnetFields.readPair parseUrl) {} with
  | .error e => .error e
  | .ok s =>
    match s.infoHash with
    | none => .error .noXt
    | some h => .ok ⟨h, s.dn, s.trackers⟩

/-- src/magnet.rs:119-152 `Magnet::from_str`. -/
def Magnet.parse (parseUrl : Text → Option Url) (lossy : Bytes → Text) (s : Text) : Except MagnetError Magnet :=
  match parseUrl s with
  | none => .error .url
  | some u =>
    if u.scheme ≠ "magnet".toList then .error .notMagnet
    else magnetOfPairs parseUrl (u.queryPairs lossy)

/-! ### Magnet files -/

/-- `tokio::io::Lines::next_line`, repeated (external): up to and including the next line feed, or the rest of the file; the
line feed and a carriage return before it are removed. -/
def fileLines (b : Bytes) : List Bytes :=
  if _h : b = [] then []
  else
    let l := b.takeWhile (· ≠ 10)
    match _hd : b.dropWhile (· ≠ 10) with
    | [] => [l]
    | _ :: rest => (if l.getLast? = some 13 then l.dropLast else l) :: fileLines rest
termination_by b.length
decreasing_by
  have h1 : (b.dropWhile (· ≠ (10 : UInt8))).length ≤ b.length := (List.dropWhile_sublist _).length_le
  rw [_hd] at h1
  simp only [List.length_cons] at h1
  omega

/-- `char::is_whitespace` (std): the Unicode property White_Space. -/
def isWhitespace (c : Char) : Bool :=
  let n := c.toNat
  (9 ≤ n && n ≤ 13) || n == 0x20 || n == 0x85 || n == 0xA0 || n == 0x1680 || (0x2000 ≤ n && n ≤ 0x200A) || n == 0x2028 ||
    n == 0x2029 || n == 0x202F || n == 0x205F || n == 0x3000

/-- `str::trim` (std). -/
def trim (t : Text) : Text := ((t.dropWhile isWhitespace).reverse.dropWhile isWhitespace).reverse

/-- src/magnet.rs:254-262 `MagnetsFileError`, without `Open`, which is the outcome of opening the file. -/
inductive MagnetsFileError where
  | read
  | parse (lineno : Nat) (e : MagnetError)
  deriving DecidableEq

/-- src/magnet.rs:235-250: the loop, with the lines that are left, their number so far and the magnets so far.  A line that
is not UTF-8 is an error of the reader.  Other read errors are not modelled. -/
def magnetsLoop (parse : Text → Except MagnetError Magnet) : List Bytes → Nat → List Magnet →
    Except MagnetsFileError (List Magnet)
  | [], _, ms => .ok ms
  | l :: ls, i, ms =>
    match fromUtf8 l with
    | none => .error .read
    | some t =>
      let ln := trim t
      if ln.isEmpty || ['#'].isPrefixOf ln then magnetsLoop parse ls (i + 1) ms
      else
        match parse ln with
        | .ok m => magnetsLoop parse ls (i + 1) (ms ++ [m])
        | .error e => .error (.parse (i + 1) e)

/-- src/magnet.rs:228-252 `parse_magnets_file`, given the contents of the file. -/
def parseMagnetsFile (parse : Text → Except MagnetError Magnet) (content : Bytes) :
    Except MagnetsFileError (List Magnet) := magnetsLoop parse (fileLines content) 0 []

end Demag
