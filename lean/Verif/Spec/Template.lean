import Verif.Spec.Digits

/-!
# Specification: path templates

A template is read from the left: `{{` and `}}` stand for one brace, `{name}` and
`{hash}` for the torrent's name and info hash, a single `}` and any other character
for themselves.
-/

namespace Demag.Spec

/-- What a template means: a sequence of characters, names and hashes. -/
inductive Tok where
  | ch (c : Char)
  | name
  | hash
  deriving DecidableEq

/-- `Reads s ts`: the template `s` means `ts`. -/
inductive Reads : List Char → List Tok → Prop
  | nil : Reads [] []
  | char (c : Char) (h1 : c ≠ '{') (h2 : c ≠ '}') {s ts} : Reads s ts → Reads (c :: s) (.ch c :: ts)
  | open2 {s ts} : Reads s ts → Reads ('{' :: '{' :: s) (.ch '{' :: ts)
  | close2 {s ts} : Reads s ts → Reads ('}' :: '}' :: s) (.ch '}' :: ts)
  | close1 {s ts} (h : s.head? ≠ some '}') : Reads s ts → Reads ('}' :: s) (.ch '}' :: ts)
  | name {s ts} : Reads s ts → Reads ('{' :: 'n' :: 'a' :: 'm' :: 'e' :: '}' :: s) (.name :: ts)
  | hash {s ts} : Reads s ts → Reads ('{' :: 'h' :: 'a' :: 's' :: 'h' :: '}' :: s) (.hash :: ts)

/-- The text a sequence of tokens produces for a given name and hash text. -/
def render (name hash : List Char) : List Tok → List Char
  | [] => []
  | .ch c :: ts => c :: render name hash ts
  | .name :: ts => name ++ render name hash ts
  | .hash :: ts => hash ++ render name hash ts

/-- A template for a sequence of tokens: braces doubled, placeholders spelled out. -/
def escape : List Tok → List Char
  | [] => []
  | .ch c :: ts => (if c = '{' then ['{', '{'] else if c = '}' then ['}', '}'] else [c]) ++ escape ts
  | .name :: ts => '{' :: 'n' :: 'a' :: 'm' :: 'e' :: '}' :: escape ts
  | .hash :: ts => '{' :: 'h' :: 'a' :: 's' :: 'h' :: '}' :: escape ts

/-- The parts between slashes. -/
def components : List Char → List (List Char)
  | [] => [[]]
  | c :: s =>
    if c = '/' then [] :: components s
    else
      match components s with
      | [] => [[c]]
      | p :: ps => (c :: p) :: ps

/-- The parts of a template between its own slashes. -/
def tokComponents : List Tok → List (List Tok)
  | [] => [[]]
  | t :: ts =>
    if t = .ch '/' then [] :: tokComponents ts
    else
      match tokComponents ts with
      | [] => [[t]]
      | p :: ps => (t :: p) :: ps

/-- The characters of a template that stand for themselves. -/
def ownChars (ts : List Tok) : List Char := ts.filterMap fun | .ch c => some c | _ => none

/-- The texts that have a special meaning as a component of a path or as the whole argument. -/
def specialNames : List (List Char) := [[], ['.'], ['.', '.'], ['-']]

end Demag.Spec
