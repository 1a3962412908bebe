import Verif.Spec.ProgramLog

/-!
# Specification: reading the log
-/

namespace Demag.Spec

/-- A message comes from this program: its target is the crate or a module in it. -/
def OwnTarget (t : List Char) : Prop := t = "demagnetize".toList ∨ ∃ m, t = "demagnetize::".toList ++ m

/-- The lines of a text. -/
def linesOf : List Char → List (List Char)
  | [] => []
  | c :: s =>
    if c = '\n' then [] :: linesOf s
    else
      match linesOf s with
      | [] => [[c]]
      | l :: ls => (c :: l) :: ls

/-- The value of two decimal digits. -/
def readTwo (a b : Char) : Option Nat := if a.isDigit ∧ b.isDigit then some (10 * (a.toNat - 48) + (b.toNat - 48)) else none

/-- The names of the levels. -/
def levelNames : List (List Char × Level) :=
  [("ERROR".toList, .error), ("WARN".toList, .warn), ("INFO".toList, .info), ("DEBUG".toList, .debug), ("TRACE".toList, .trace)]

/-- A line without the command to the terminal in front, which ends with `m`, and the one of four characters at its end. -/
def unstyled (l : List Char) : List Char := ((l.dropWhile fun c => c != 'm').drop 1).dropLast.dropLast.dropLast.dropLast

/-- What a line of the log says: hour, minute, second, level and message. -/
def readRecord (l : List Char) : Option (Nat × Nat × Nat × Level × List Char) :=
  match l with
  | h1 :: h2 :: ':' :: m1 :: m2 :: ':' :: s1 :: s2 :: ' ' :: '[' :: a :: b :: c :: d :: e :: ']' :: ' ' :: msg => do
    let h ← readTwo h1 h2
    let m ← readTwo m1 m2
    let s ← readTwo s1 s2
    let l ← levelNames.lookup ([a, b, c, d, e].filter fun x => x != ' ')
    some (h, m, s, l, msg)
  | _ => none

/-- The arguments of the program have no characters below the blank. -/
def CleanArgs (args : List (List Char)) : Prop := ∀ a ∈ args, ∀ c ∈ a, 0x20 ≤ c.toNat

end Demag.Spec
