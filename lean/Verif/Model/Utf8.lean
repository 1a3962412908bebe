import Verif.Model.Bencode

/-!
# Broken UTF-8: the model of `[u8]::utf8_chunks` and `String::from_utf8_lossy`

These are functions of std; `/repo/src/peer/mod.rs:493-498`, `/repo/src/torrent.rs` and the crate `form_urlencoded` use them.
-/

namespace Demag

/-- std `utf8_char_width`: the length of a character by its first byte; 0 if no character starts with it. -/
def utf8Width (x : UInt8) : Nat :=
  if x.toNat < 0x80 then 1
  else if x.toNat < 0xC2 then 0
  else if x.toNat < 0xE0 then 2
  else if x.toNat < 0xF0 then 3
  else if x.toNat < 0xF5 then 4
  else 0

/-- std `safe_get(i) & 192 == TAG_CONT_U8`, where reading past the end gives 0: a continuation byte. -/
def isCont (y : UInt8) : Bool := 0x80 ≤ y.toNat && y.toNat ≤ 0xBF

/-- std, the second byte of a character of three bytes, by the first. -/
def second3 (x y : UInt8) : Bool :=
  (x.toNat == 0xE0 && (0xA0 ≤ y.toNat && y.toNat ≤ 0xBF)) || ((0xE1 ≤ x.toNat && x.toNat ≤ 0xEC) && isCont y) ||
    (x.toNat == 0xED && (0x80 ≤ y.toNat && y.toNat ≤ 0x9F)) || ((0xEE ≤ x.toNat && x.toNat ≤ 0xEF) && isCont y)

/-- std, the second byte of a character of four bytes, by the first. -/
def second4 (x y : UInt8) : Bool :=
  (x.toNat == 0xF0 && (0x90 ≤ y.toNat && y.toNat ≤ 0xBF)) || ((0xF1 ≤ x.toNat && x.toNat ≤ 0xF3) && isCont y) ||
    (x.toNat == 0xF4 && (0x80 ≤ y.toNat && y.toNat ≤ 0x8F))

/-- std `Utf8Chunks::next`, one turn of its loop: how many bytes are read, and whether they are a character. -/
def scanChar : Bytes → Nat × Bool
  | [] => (0, false)
  | x :: r =>
    let y := r.getD 0 0
    let z := r.getD 1 0
    let w := r.getD 2 0
    match utf8Width x with
    | 1 => (1, true)
    | 2 => if isCont y then (2, true) else (1, false)
    | 3 => if second3 x y then (if isCont z then (3, true) else (2, false)) else (1, false)
    | 4 =>
      if second4 x y then (if isCont z then (if isCont w then (4, true) else (3, false)) else (2, false)) else (1, false)
    | _ => (1, false)

theorem scanChar_pos (x : UInt8) (r : Bytes) : 1 ≤ (scanChar (x :: r)).1 := by
  simp only [scanChar]
  split <;> (repeat' split) <;> simp

/-- std `Utf8Chunks`: the bytes that are valid so far, and the rest.  A chunk is a valid part and the invalid bytes after
it. -/
def chunksLoop (valid b : Bytes) : List (Bytes × Bytes) :=
  match b with
  | [] => if valid.isEmpty then [] else [(valid, [])]
  | x :: r =>
    let n := (scanChar (x :: r)).1
    if (scanChar (x :: r)).2 then chunksLoop (valid ++ (x :: r).take n) ((x :: r).drop n)
    else (valid, (x :: r).take n) :: chunksLoop [] ((x :: r).drop n)
termination_by b.length
decreasing_by
  all_goals
    have := scanChar_pos x r
    simp only [List.length_drop, List.length_cons]
    omega

/-- std `[u8]::utf8_chunks`.  The valid part is handed out as a `&str` without a check: a failing decoding shows up as the empty
text here, and `chunks_valid` shows that it does not fail. -/
def utf8Chunks (b : Bytes) : List (Text × Bytes) := (chunksLoop [] b).map fun c => ((fromUtf8 c.1).getD [], c.2)

/-- std `String::from_utf8_lossy`: every invalid part becomes U+FFFD. -/
def lossyUtf8 (b : Bytes) : Text :=
  (utf8Chunks b).flatMap fun c => c.1 ++ if c.2.isEmpty then [] else [Char.ofNat 0xFFFD]

end Demag
