/-!
# What is expected of the log
-/

namespace Demag.Spec

/-- The character is printable ASCII, or one of those that are taken for printable (`printable`). -/
def Shown (printable : Char → Bool) (c : Char) : Prop := 0x20 ≤ c.toNat ∧ c.toNat ≤ 0x7E ∨ printable c = true

/-- A control character: with it, output can move the cursor, end the line or start a command to the terminal. -/
def IsControl (c : Char) : Prop := c.toNat < 0x20 ∨ 0x7F ≤ c.toNat ∧ c.toNat ≤ 0x9F

/-- The value of a hexadecimal digit. -/
def hexDigitOf (c : Char) : Option Nat :=
  if '0' ≤ c ∧ c ≤ '9' then some (c.toNat - 48) else if 'a' ≤ c ∧ c ≤ 'f' then some (c.toNat - 87) else none

/-- Hexadecimal digits up to a closing brace: their value (with `n` for the digits before) and what follows. -/
def readBraced : Nat → List Char → Option (Nat × List Char)
  | _, [] => none
  | n, c :: r => if c = '}' then some (n, r) else (hexDigitOf c).bind fun d => readBraced (16 * n + d) r

/-- The inside of a quoted text up to the closing quote, and what follows: a backslash starts an escape sequence, a quote ends the text, and
everything else stands for itself.  The first argument bounds the number of characters. -/
def readQuotedInside : Nat → List Char → Option (List Char × List Char)
  | 0, _ => none
  | _ + 1, [] => none
  | fuel + 1, c :: r =>
    if c = '"' then some ([], r)
    else if c = '\\' then
      match r with
      | [] => none
      | e :: r' =>
        let more (d : Char) (r : List Char) := (readQuotedInside fuel r).map fun p => (d :: p.1, p.2)
        if e = '0' then more (Char.ofNat 0) r'
        else if e = 't' then more '\t' r'
        else if e = 'r' then more '\r' r'
        else if e = 'n' then more '\n' r'
        else if e = '\\' then more '\\' r'
        else if e = '"' then more '"' r'
        else if e = 'u' then
          match r' with
          | '{' :: r'' => (readBraced 0 r'').bind fun p => more (Char.ofNat p.1) p.2
          | _ => none
        else none
    else (readQuotedInside fuel r).map fun p => (c :: p.1, p.2)

/-- Reading a text in quotes: the text, and what follows the closing quote. -/
def readQuoted : List Char → Option (List Char × List Char)
  | '"' :: r => readQuotedInside (r.length + 1) r
  | _ => none

end Demag.Spec
