import Verif.Model.Query
import Verif.Model.UrlParse

/-!
# The command line: the model of `/repo/src/main.rs` 33-59, 109-218, 380-382

How arguments are read is declared by attributes, from which the crate `clap` (version 4, external) makes a parser; its rules are modelled
here.  An argument list that is not accepted, or that asks for help or for the version, has the result `none`: something is printed, the program
ends and does nothing else.  Arguments are texts (those that are not UTF-8 are left out).
-/

namespace Demag

/-- What is declared of an option: its long name, its short name, whether it takes a value. -/
structure CliOption where
  long : Text
  short : Option Char
  value : Bool
  deriving DecidableEq

/-- What an argument, or part of it, is taken for. -/
inductive CliItem where
  | flag (name : Text)
  | opt (name value : Text)
  | word (w : Text)
  deriving DecidableEq

/-- clap (external): an argument that is not taken for an option: it does not begin with a hyphen, or is one. -/
def isPlainArg (a : Text) : Bool := a == ['-'] || a.head? != some '-'

/-- clap (external): a long option is divided at the first `=`. -/
def splitEquals (t : Text) : Text × Option Text :=
  match t.dropWhile (· != '=') with
  | [] => (t, none)
  | _ :: v => (t.takeWhile (· != '='), some v)

/-- clap (external), `parse_short_arg`: the letters after a hyphen: flags, and perhaps at the end an option with its value (after `=` if there is
one) or an option whose value is the next argument. -/
def scanShort (decl : List CliOption) : Text → Option (List CliItem × Option Text)
  | [] => some ([], none)
  | c :: cs =>
    match decl.find? fun o => o.short == some c with
    | none => none
    | some o =>
      if o.value then
        match cs with
        | [] => some ([], some o.long)
        | d :: v => some ([.opt o.long (if d == '=' then v else d :: v)], none)
      else (scanShort decl cs).map fun r => (.flag o.long :: r.1, r.2)

/-- More items before what was read. -/
def prependItems (is : List CliItem) (r : Option (List CliItem × List Text)) : Option (List CliItem × List Text) :=
  r.map fun r => (is ++ r.1, r.2)

/-- What an argument looks like. -/
inductive ArgShape where
  | escape
  | long (body : Text)
  | letters (t : Text)
  | word

/-- clap (external), `is_escape`, `to_long`, `to_short`. -/
def argShape : Text → ArgShape
  | ['-', '-'] => .escape
  | '-' :: '-' :: body => .long body
  | '-' :: c :: cs => .letters (c :: cs)
  | _ => .word

/-- clap (external), `parse_long_arg`: a flag, an option with its value, or an option whose value is the next argument. -/
def scanLong (decl : List CliOption) (body : Text) : Option (List CliItem × Option Text) :=
  match decl.find? fun o => o.long == (splitEquals body).1 with
  | none => none
  | some o =>
    match o.value, (splitEquals body).2 with
    | false, none => some ([.flag o.long], none)
    | false, some _ => none
    | true, some v => some ([.opt o.long v], none)
    | true, none => some ([], some o.long)

/-- clap (external), `parse`: the arguments from left to right; `pending` is the option whose value comes next.  Where no words are allowed (in
front of the subcommand) the first word ends the reading; the rest is the second result. -/
def scanArgs (decl : List CliOption) (words : Bool) : Option Text → List Text → Option (List CliItem × List Text)
  | none, [] => some ([], [])
  | some _, [] => none
  | some n, v :: rest => if isPlainArg v then prependItems [.opt n v] (scanArgs decl words none rest) else none
  | none, a :: rest =>
    match argShape a with
    | .escape => if words then some (rest.map .word, []) else none
    | .long body => (scanLong decl body).bind fun r => prependItems r.1 (scanArgs decl words r.2 rest)
    | .letters t => (scanShort decl t).bind fun r => prependItems r.1 (scanArgs decl words r.2 rest)
    | .word => if words then prependItems [.word a] (scanArgs decl words none rest) else some ([], a :: rest)

/-- The option an item gives. -/
def CliItem.name : CliItem → Option Text
  | .flag n => some n
  | .opt n _ => some n
  | .word _ => none

/-- clap (external), `react` for `ArgAction::Set` and `ArgAction::SetTrue`: no option may be given twice. -/
def noRepeats (is : List CliItem) : Bool := decide (is.filterMap CliItem.name).Nodup

/-- The flag is given. -/
def flagGiven (is : List CliItem) (n : Text) : Bool := is.contains (.flag n)

/-- The value given to an option. -/
def valueGiven (is : List CliItem) (n : Text) : Option Text :=
  is.findSome? fun i =>
    match i with
    | .opt m v => if m = n then some v else none
    | _ => none

/-- The words, in order. -/
def wordsGiven (is : List CliItem) : List Text :=
  is.filterMap fun i =>
    match i with
    | .word w => some w
    | _ => none

/-- clap (external), `validate_conflicts`: whether two options that exclude each other are both given. -/
def conflicting (is : List CliItem) (conflicts : List (Text × Text)) : Bool :=
  conflicts.any fun c => (is.filterMap CliItem.name).contains c.1 && (is.filterMap CliItem.name).contains c.2

/-- `LevelFilter` (crate `log`, external). -/
inductive LevelFilter where
  | off | error | warn | info | debug | trace
  deriving DecidableEq

/-- `LevelFilter::from_str` (crate `log`, external): the names in any case. -/
def LevelFilter.fromStr (t : Text) : Option LevelFilter :=
  match [("OFF".toList, LevelFilter.off), ("ERROR".toList, .error), ("WARN".toList, .warn), ("INFO".toList, .info), ("DEBUG".toList, .debug),
      ("TRACE".toList, .trace)].find? fun p => p.1 == t.map Char.toUpper with
  | some p => some p.2
  | none => none

/-- `InputArg` (crate `patharg`, external): a file or, for `-`, the standard input. -/
inductive InputArg where
  | stdin
  | path (p : Text)
  deriving DecidableEq

/-- `InputArg::from_arg` (crate `patharg`, external). -/
def InputArg.fromArg (t : Text) : InputArg := if t = ['-'] then .stdin else .path t

/-- src/main.rs:109-218 `Command`. -/
inductive Command where
  | get (outfile : List TemplateElement) (magnet : Magnet)
  | batch (outfile : List TemplateElement) (file : InputArg)
  | queryTracker (json noCrypto requireCrypto supportCrypto : Bool) (tracker : Tracker) (infoHash : InfoHash)
  | queryDht (json : Bool) (infoHash : InfoHash)
  | queryPeer (encrypt noEncrypt preferEncrypt : Bool) (outfile : List TemplateElement) (peer : Peer) (infoHash : InfoHash)

/-- src/main.rs:37-59 `Arguments`. -/
structure CommandLine where
  config : Option Text
  logLevel : LevelFilter
  noConfig : Bool
  command : Command

/-- src/main.rs:40-55: the options before the subcommand. -/
def globalOptions : List CliOption :=
  [⟨"config".toList, some 'c', true⟩, ⟨"log-level".toList, some 'l', true⟩, ⟨"no-config".toList, none, false⟩]

/-- src/main.rs:54: `conflicts_with`. -/
def globalConflicts : List (Text × Text) := [("no-config".toList, "config".toList)]

/-- src/main.rs:118, 132, 199: the option of `get`, `batch` and `query-peer`. -/
def outfileOption : CliOption := ⟨"outfile".toList, some 'o', true⟩

/-- src/main.rs:143, 174. -/
def jsonOption : CliOption := ⟨"json".toList, some 'J', false⟩

/-- src/main.rs:109-218: the subcommands with their options and the options that exclude each other. -/
def subcommands : List (Text × List CliOption × List (Text × Text)) :=
  [("get".toList, [outfileOption], []),
   ("batch".toList, [outfileOption], []),
   ("query-tracker".toList,
    [jsonOption, ⟨"no-crypto".toList, none, false⟩, ⟨"require-crypto".toList, none, false⟩, ⟨"support-crypto".toList, none, false⟩],
    [("no-crypto".toList, "require-crypto".toList), ("no-crypto".toList, "support-crypto".toList),
      ("support-crypto".toList, "require-crypto".toList)]),
   ("query-dht".toList, [jsonOption], []),
   ("query-peer".toList,
    [⟨"encrypt".toList, none, false⟩, ⟨"no-encrypt".toList, none, false⟩, outfileOption, ⟨"prefer-encrypt".toList, none, false⟩],
    [("no-encrypt".toList, "encrypt".toList), ("prefer-encrypt".toList, "encrypt".toList), ("prefer-encrypt".toList, "no-encrypt".toList)])]

/-- src/main.rs:118, 132, 199: the value of `--outfile` or the default. -/
def readOutfile (is : List CliItem) : Option (List TemplateElement) :=
  (PathTemplate.fromStr ((valueGiven is "outfile".toList).getD "{name}.torrent".toList)).toOption

/-- `FromStr for InfoHash`, for an argument. -/
def readInfoHash (t : Text) : Option InfoHash := (InfoHash.fromStr (utf8 t)).toOption

/-- clap (external): one word is required, and more are not accepted. -/
def withWord {α : Type} (f : Text → Option α) : List Text → Option α
  | [w] => f w
  | _ => none

/-- clap (external): two words are required, and more are not accepted. -/
def withWords {α : Type} (f : Text → Text → Option α) : List Text → Option α
  | [v, w] => f v w
  | _ => none

/-- src/main.rs:109-218: the subcommand with this name, from its options and words. -/
def readCommand (uenv : UrlEnv) (lossy : Bytes → Text) (name : Text) (is : List CliItem) : Option Command :=
  if name = "get".toList then
    withWord (fun w => (readOutfile is).bind fun t => (Magnet.parse (urlParse uenv) lossy w).toOption.map fun m => .get t m) (wordsGiven is)
  else if name = "batch".toList then
    withWord (fun w => (readOutfile is).map fun t => .batch t (.fromArg w)) (wordsGiven is)
  else if name = "query-tracker".toList then
    withWords (fun v w => (Tracker.parse (urlParse uenv) v).toOption.bind fun t => (readInfoHash w).map fun h =>
      .queryTracker (flagGiven is "json".toList) (flagGiven is "no-crypto".toList) (flagGiven is "require-crypto".toList)
        (flagGiven is "support-crypto".toList) t h) (wordsGiven is)
  else if name = "query-dht".toList then
    withWord (fun w => (readInfoHash w).map fun h => .queryDht (flagGiven is "json".toList) h) (wordsGiven is)
  else if name = "query-peer".toList then
    withWords (fun v w => (readOutfile is).bind fun t => (Peer.fromStr v).bind fun p => (readInfoHash w).map fun h =>
      .queryPeer (flagGiven is "encrypt".toList) (flagGiven is "no-encrypt".toList) (flagGiven is "prefer-encrypt".toList) t p h) (wordsGiven is)
  else none

/-- src/main.rs:40-55: the options before the subcommand.  A path may not be empty (clap, external). -/
def readGlobals (is : List CliItem) (c : Command) : Option CommandLine :=
  if valueGiven is "config".toList = some [] then none
  else (LevelFilter.fromStr ((valueGiven is "log-level".toList).getD "INFO".toList)).map fun l =>
    ⟨valueGiven is "config".toList, l, flagGiven is "no-config".toList, c⟩

/-- src/main.rs:382 `Arguments::parse`, of the arguments without the name of the program. -/
def CommandLine.parse (uenv : UrlEnv) (lossy : Bytes → Text) (args : List Text) : Option CommandLine :=
  match scanArgs globalOptions false none args with
  | some (gs, name :: rest) =>
    match subcommands.find? fun c => c.1 == name with
    | none => none
    | some (_, decl, conflicts) =>
      match scanArgs decl true none rest with
      | none => none
      | some (is, _) =>
        if noRepeats gs && noRepeats is && !conflicting gs globalConflicts && !conflicting is conflicts then
          (readCommand uenv lossy name is).bind (readGlobals gs)
        else none
  | _ => none

end Demag
