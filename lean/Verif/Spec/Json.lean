import Verif.Spec.TrackerHttp

/-!
# Specification: JSON (RFC 8259) and UTF-16

The values needed here: no arrays, and numbers are unsigned integers.
-/

namespace Demag.Spec

/-- JSON values. -/
inductive Json where
  | null
  | bool (b : Bool)
  | num (n : Nat)
  | str (t : List Char)
  | obj (members : List (List Char × Json))

/-- The UTF-16 code units of a character. -/
def utf16 (c : Char) : List Nat :=
  if c.toNat < 0x10000 then [c.toNat]
  else [0xD800 + (c.toNat - 0x10000) / 1024, 0xDC00 + (c.toNat - 0x10000) % 1024]

/-- Reading UTF-16 code units. -/
def fromUtf16 : List Nat → Option (List Char)
  | [] => some []
  | u :: r =>
    if 0xD800 ≤ u ∧ u < 0xDC00 then
      match r with
      | v :: r' =>
        if 0xDC00 ≤ v ∧ v < 0xE000 then
          (fromUtf16 r').map (Char.ofNat (0x10000 + (u - 0xD800) * 1024 + (v - 0xDC00)) :: ·)
        else none
      | [] => none
    else if 0xDC00 ≤ u ∧ u < 0xE000 then none
    else (fromUtf16 r).map (Char.ofNat u :: ·)

/-- What is behind the opening quotation mark of a string: its code units, and the text after the closing one. -/
def stringUnits : List Char → Option (List Nat × List Char)
  | [] => none
  | c :: r =>
    if c = '"' then some ([], r)
    else if c = '\\' then
      match r with
      | 'u' :: a :: b :: c :: d :: r' =>
        match hexDigit a, hexDigit b, hexDigit c, hexDigit d with
        | some a, some b, some c, some d => (stringUnits r').map fun p => ((4096 * a + 256 * b + 16 * c + d) :: p.1, p.2)
        | _, _, _, _ => none
      | '"' :: r' => (stringUnits r').map fun p => (34 :: p.1, p.2)
      | '\\' :: r' => (stringUnits r').map fun p => (92 :: p.1, p.2)
      | '/' :: r' => (stringUnits r').map fun p => (47 :: p.1, p.2)
      | 'b' :: r' => (stringUnits r').map fun p => (8 :: p.1, p.2)
      | 'f' :: r' => (stringUnits r').map fun p => (12 :: p.1, p.2)
      | 'n' :: r' => (stringUnits r').map fun p => (10 :: p.1, p.2)
      | 'r' :: r' => (stringUnits r').map fun p => (13 :: p.1, p.2)
      | 't' :: r' => (stringUnits r').map fun p => (9 :: p.1, p.2)
      | _ => none
    else if c.toNat < 0x20 then none
    else (stringUnits r).map fun p => (utf16 c ++ p.1, p.2)

/-- A string, behind its opening quotation mark. -/
def jsonString (t : List Char) : Option (List Char × List Char) :=
  match stringUnits t with
  | none => none
  | some (us, r) => (fromUtf16 us).map fun s => (s, r)

/-- Blanks, tabs and line ends may stand between tokens. -/
def skipWs (t : List Char) : List Char := t.dropWhile fun c => c = ' ' || c = '\t' || c = '\n' || c = '\r'

mutual
/-- A value and the text after it; `n` bounds the depth. -/
def jsonValue : Nat → List Char → Option (Json × List Char)
  | 0, _ => none
  | n + 1, t =>
    match skipWs t with
    | 'n' :: 'u' :: 'l' :: 'l' :: r => some (.null, r)
    | 't' :: 'r' :: 'u' :: 'e' :: r => some (.bool true, r)
    | 'f' :: 'a' :: 'l' :: 's' :: 'e' :: r => some (.bool false, r)
    | '"' :: r => (jsonString r).map fun p => (.str p.1, p.2)
    | '{' :: r =>
      match skipWs r with
      | '}' :: r' => some (.obj [], r')
      | _ => (jsonMembers n r).map fun p => (.obj p.1, p.2)
    | c :: r =>
      if c.isDigit then
        let ds := (c :: r).takeWhile Char.isDigit
        if c = '0' ∧ ds ≠ ['0'] then none
        else some (.num (ofDigits 10 (ds.map digitValue)), (c :: r).dropWhile Char.isDigit)
      else none
    | [] => none
/-- The members of an object, behind the opening brace or a comma, up to the closing brace. -/
def jsonMembers : Nat → List Char → Option (List (List Char × Json) × List Char)
  | 0, _ => none
  | n + 1, t =>
    match skipWs t with
    | '"' :: r =>
      match jsonString r with
      | none => none
      | some (name, r) =>
        match skipWs r with
        | ':' :: r =>
          match jsonValue n r with
          | none => none
          | some (v, r) =>
            match skipWs r with
            | ',' :: r => (jsonMembers n r).map fun p => ((name, v) :: p.1, p.2)
            | '}' :: r => some ([(name, v)], r)
            | _ => none
        | _ => none
    | _ => none
end

/-- The value a text denotes. -/
def parseJson (t : List Char) : Option Json :=
  match jsonValue (t.length + 1) t with
  | some (v, r) => if skipWs r = [] then some v else none
  | none => none

end Demag.Spec
