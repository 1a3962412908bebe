import Verif.Model.Info

/-!
# Path templates and saving: the model of `/repo/src/torrent.rs` lines 154-177, 232-313, 355-366
-/

namespace Demag

/-- src/torrent.rs:299-304 `TemplateElement`. -/
inductive TemplateElement where
  | literal (s : Text)
  | name
  | hash
  deriving DecidableEq

/-- src/torrent.rs:306-314 `PathTemplateError`; positions are byte indices. -/
inductive PathTemplateError where
  | unmatched (i : Nat)
  | invalidField (i : Nat)
  | unknownField (field : Text)
  deriving DecidableEq

/-- src/torrent.rs:262 the characters of a field name. -/
def isFieldChar (ch : Char) : Bool := ch.isAlphanum || ch = '_'

/-- `str::replace("}}", "}")` (std): non-overlapping occurrences from the left. -/
def replaceClose : Text → Text
  | [] => []
  | [c] => [c]
  | c :: d :: r => if c = '}' ∧ d = '}' then '}' :: replaceClose r else c :: replaceClose (d :: r)

/-- src/torrent.rs:269-272, 287-289: the pending literal text becomes an element, unless it is empty. -/
def flushLiteral (elems : List TemplateElement) (buf : Text) : List TemplateElement :=
  if buf.isEmpty then elems else elems ++ [.literal (replaceClose buf)]

/-- src/torrent.rs:255-291 the scanning loop.  `rest` is what is left of the template and `i` its byte index
(`prev_end`); text up to the next `{` moves to `buf` character by character instead of as one slice. -/
def parseTemplate (elems : List TemplateElement) (buf : Text) (i : Nat) (rest : Text) :
    Except PathTemplateError (List TemplateElement) :=
  match rest with
  | [] => .ok (flushLiteral elems buf)
  | c :: cs =>
    if c = '{' then
      let field := cs.takeWhile isFieldChar
      match h : cs.dropWhile isFieldChar with
      | [] => .error (.unmatched i)
      | d :: after =>
        if field = [] ∧ d = '{' then parseTemplate elems (buf ++ ['{']) (i + 2) after
        else if d = '}' then
          let elems := flushLiteral elems buf
          if field = "name".toList then parseTemplate (elems ++ [.name]) [] (i + 1 + field.length + 1) after
          else if field = "hash".toList then parseTemplate (elems ++ [.hash]) [] (i + 1 + field.length + 1) after
          else .error (.unknownField field)
        else .error (.invalidField i)
    else parseTemplate elems (buf ++ [c]) (i + (utf8 [c]).length) cs
termination_by rest.length
decreasing_by
  all_goals simp only [List.length_cons]
  all_goals try omega
  all_goals
    have := congrArg List.length h
    have h2 := (List.dropWhile_suffix isFieldChar (l := cs)).length_le
    simp only [List.length_cons] at this
    omega

/-- src/torrent.rs:250-296 `PathTemplate::from_str`. -/
def PathTemplate.fromStr (s : Text) : Except PathTemplateError (List TemplateElement) := parseTemplate [] [] 0 s

/-- The text of an info hash: `Display` (`Model/InfoHash.lean`) as characters. -/
def InfoHash.displayText (h : InfoHash) : Text := h.display.map fun b => Char.ofNat b.toNat

/-- src/torrent.rs:235-247 `PathTemplate::format`. -/
def PathTemplate.format (elems : List TemplateElement) (name : Text) (h : InfoHash) : Text :=
  elems.foldl (fun buf elem =>
    match elem with
    | .literal s => buf ++ s
    | .name => buf ++ name
    | .hash => buf ++ h.displayText) []

/-- src/torrent.rs:355-366 `sanitize`. -/
def sanitize (s : Text) : Text :=
  s.map fun ch => if ch < ' ' ∨ ch ∈ ['/', '\\', '<', '>', ':', '|', '"', '?', '*'] then '_' else ch

/-- Where a torrent file goes: crate `patharg` `OutputArg::from_arg` takes `-` for standard output. -/
inductive Output where
  | stdout
  | file (path : Text)
  deriving DecidableEq

/-- crate `patharg` `OutputArg::from_arg`. -/
def Output.fromArg (arg : Text) : Output := if arg = ['-'] then .stdout else .file arg

/-- One effect on the file system. -/
inductive SaveEffect where
  | createDirAll (dir : Text)
  | write (dest : Output) (contents : Bytes)
  deriving DecidableEq

/-- src/torrent.rs:154-177 `TorrentFile::save`: the effects, in order, each attempted only if the one before
succeeded (`?`).  `parent` is `Path::parent` (std).  The outer `none` is a panic of `TorrentInfo::name`. -/
def TorrentFile.save (lossy : Bytes → Text) (ipText : IpAddr → Text) (parent : Text → Option Text) (t : TorrentFile)
    (template : List TemplateElement) : Option (List SaveEffect) :=
  (t.info.name lossy).map fun name =>
    let name := sanitize (name.getD "NONAME".toList)
    let path := Output.fromArg (PathTemplate.format template name t.info.infoHash)
    let dirs :=
      match path with
      | .stdout => []
      | .file p =>
        match parent p with
        | some dir => if dir ≠ [] then [.createDirAll dir] else []
        | none => []
    dirs ++ [.write path (t.toBytes ipText)]

end Demag
