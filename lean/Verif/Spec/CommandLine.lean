import Verif.Model.CommandLine

/-!
# What a command line means, after `/repo/README.md` 61-203

Only the data types of the model are used (`CliOption`, `CliItem`, `CommandLine`, `Command`); the values are read by the parsers of the other
parts (`Readers`).
-/

namespace Demag.Spec

/-- Not taken for an option: it does not begin with a hyphen, or it is one. -/
def PlainArg (a : Text) : Prop := a = ['-'] ∨ ∀ t, a ≠ '-' :: t

/-- The letters are the short names of flags with these long names. -/
def FlagLetters (decl : List CliOption) (cs : List Char) (names : List Text) : Prop :=
  List.Forall₂ (fun c n => (⟨n, some c, false⟩ : CliOption) ∈ decl) cs names

/-- How options and words are written down; options and words may be mixed.  `words`: whether words are allowed. -/
inductive Spelled (decl : List CliOption) (words : Bool) : List CliItem → List Text → Prop
  | nil : Spelled decl words [] []
  /-- `--flag` -/
  | longFlag {n s is as} : (⟨n, s, false⟩ : CliOption) ∈ decl → Spelled decl words is as → Spelled decl words (.flag n :: is) (('-' :: '-' :: n) :: as)
  /-- `--option=value` -/
  | longEquals {n s v is as} : (⟨n, s, true⟩ : CliOption) ∈ decl → Spelled decl words is as →
      Spelled decl words (.opt n v :: is) (('-' :: '-' :: n ++ '=' :: v) :: as)
  /-- `--option value` -/
  | longNext {n s v is as} : (⟨n, s, true⟩ : CliOption) ∈ decl → PlainArg v → Spelled decl words is as →
      Spelled decl words (.opt n v :: is) (('-' :: '-' :: n) :: v :: as)
  /-- `-abc` -/
  | letters {cs names is as} : cs ≠ [] → FlagLetters decl cs names → Spelled decl words is as →
      Spelled decl words (names.map .flag ++ is) (('-' :: cs) :: as)
  /-- `-abcVALUE` -/
  | letterAttached {cs names c n d v is as} : FlagLetters decl cs names → (⟨n, some c, true⟩ : CliOption) ∈ decl → d ≠ '=' →
      Spelled decl words is as → Spelled decl words (names.map .flag ++ .opt n (d :: v) :: is) (('-' :: cs ++ c :: d :: v) :: as)
  /-- `-abc=VALUE` -/
  | letterEquals {cs names c n v is as} : FlagLetters decl cs names → (⟨n, some c, true⟩ : CliOption) ∈ decl →
      Spelled decl words is as → Spelled decl words (names.map .flag ++ .opt n v :: is) (('-' :: cs ++ c :: '=' :: v) :: as)
  /-- `-abc VALUE` -/
  | letterNext {cs names c n v is as} : FlagLetters decl cs names → (⟨n, some c, true⟩ : CliOption) ∈ decl → PlainArg v →
      Spelled decl words is as → Spelled decl words (names.map .flag ++ .opt n v :: is) (('-' :: cs ++ [c]) :: v :: as)
  | word {w is as} : words = true → PlainArg w → Spelled decl words is as → Spelled decl words (.word w :: is) (w :: as)
  /-- After `--` there are only words. -/
  | rest {ws} : words = true → Spelled decl words (ws.map .word) (['-', '-'] :: ws)

/-- README.md 73-84. -/
def manualGlobals : List CliOption :=
  [⟨"config".toList, 'c', true⟩, ⟨"log-level".toList, 'l', true⟩, ⟨"no-config".toList, none, false⟩]

/-- README.md 87-203: the options of the subcommands. -/
def manualOptions : List (Text × List CliOption) :=
  [("get".toList, [⟨"outfile".toList, 'o', true⟩]),
   ("batch".toList, [⟨"outfile".toList, 'o', true⟩]),
   ("query-tracker".toList, [⟨"json".toList, 'J', false⟩, ⟨"no-crypto".toList, none, false⟩, ⟨"require-crypto".toList, none, false⟩,
     ⟨"support-crypto".toList, none, false⟩]),
   ("query-dht".toList, [⟨"json".toList, 'J', false⟩]),
   ("query-peer".toList, [⟨"encrypt".toList, none, false⟩, ⟨"no-encrypt".toList, none, false⟩, ⟨"outfile".toList, 'o', true⟩,
     ⟨"prefer-encrypt".toList, none, false⟩])]

/-- The option is given (as a flag or with a value). -/
def Given (is : List CliItem) (n : Text) : Prop := .flag n ∈ is ∨ ∃ v, .opt n v ∈ is

/-- No option is given twice. -/
def OnceEach (is : List CliItem) : Prop :=
  is.Pairwise fun a b => ∀ n, (a = .flag n ∨ ∃ v, a = .opt n v) → ¬ (b = .flag n ∨ ∃ v, b = .opt n v)

/-- At most one of the options is given. -/
def AtMostOne (is : List CliItem) (ns : List Text) : Prop := ns.Pairwise fun a b => ¬ (Given is a ∧ Given is b)

/-- The words among the items are these. -/
inductive Words : List CliItem → List Text → Prop
  | nil : Words [] []
  | flag {n is ws} : Words is ws → Words (.flag n :: is) ws
  | opt {n v is ws} : Words is ws → Words (.opt n v :: is) ws
  | word {w is ws} : Words is ws → Words (.word w :: is) (w :: ws)

/-- The value of the option is `v`, or it is not given and `v` is the default. -/
def ValueOr (is : List CliItem) (n dflt v : Text) : Prop := .opt n v ∈ is ∨ ((∀ v', .opt n v' ∉ is) ∧ v = dflt)

/-- `b` says whether the flag is given. -/
def Switch (is : List CliItem) (n : Text) (b : Bool) : Prop := b = true ↔ .flag n ∈ is

/-- How values are read: the texts of magnet links (C18, C71), trackers (C71, C74), info hashes (C01), templates (C15) and peers (C57). -/
structure Readers where
  magnet : Text → Magnet → Prop
  tracker : Text → Tracker → Prop
  infoHash : Text → InfoHash → Prop
  template : Text → List TemplateElement → Prop
  peer : Text → Peer → Prop

/-- The file of magnet links, or the standard input. -/
inductive InputMeans : Text → InputArg → Prop
  | stdin : InputMeans ['-'] .stdin
  | path {p} : p ≠ ['-'] → InputMeans p (.path p)

/-- README.md 87-203: what a subcommand with these options and words means. -/
inductive CommandMeans (R : Readers) : Text → List CliItem → Command → Prop
  | get {is w o t m} : Words is [w] → ValueOr is "outfile".toList "{name}.torrent".toList o → R.template o t → R.magnet w m →
      CommandMeans R "get".toList is (.get t m)
  | batch {is w o t f} : Words is [w] → ValueOr is "outfile".toList "{name}.torrent".toList o → R.template o t → InputMeans w f →
      CommandMeans R "batch".toList is (.batch t f)
  | queryTracker {is v w t h json no req sup} : Words is [v, w] → R.tracker v t → R.infoHash w h → Switch is "json".toList json →
      Switch is "no-crypto".toList no → Switch is "require-crypto".toList req → Switch is "support-crypto".toList sup →
      AtMostOne is ["no-crypto".toList, "require-crypto".toList, "support-crypto".toList] →
      CommandMeans R "query-tracker".toList is (.queryTracker json no req sup t h)
  | queryDht {is w h json} : Words is [w] → R.infoHash w h → Switch is "json".toList json →
      CommandMeans R "query-dht".toList is (.queryDht json h)
  | queryPeer {is v w o t p h enc no pre} : Words is [v, w] → R.peer v p → R.infoHash w h →
      ValueOr is "outfile".toList "{name}.torrent".toList o → R.template o t →
      Switch is "encrypt".toList enc → Switch is "no-encrypt".toList no → Switch is "prefer-encrypt".toList pre →
      AtMostOne is ["encrypt".toList, "no-encrypt".toList, "prefer-encrypt".toList] →
      CommandMeans R "query-peer".toList is (.queryPeer enc no pre t p h)

/-- The texts of log levels, in any case. -/
inductive LevelMeans : Text → LevelFilter → Prop
  | off {t} : t.map Char.toUpper = "OFF".toList → LevelMeans t .off
  | error {t} : t.map Char.toUpper = "ERROR".toList → LevelMeans t .error
  | warn {t} : t.map Char.toUpper = "WARN".toList → LevelMeans t .warn
  | info {t} : t.map Char.toUpper = "INFO".toList → LevelMeans t .info
  | debug {t} : t.map Char.toUpper = "DEBUG".toList → LevelMeans t .debug
  | trace {t} : t.map Char.toUpper = "TRACE".toList → LevelMeans t .trace

/-- README.md 73-84: what the options in front of the subcommand mean. -/
structure GlobalsMean (is : List CliItem) (l : CommandLine) : Prop where
  config : ∀ p, l.config = some p ↔ .opt "config".toList p ∈ is
  notEmpty : l.config ≠ some []
  noConfig : Switch is "no-config".toList l.noConfig
  conflict : AtMostOne is ["config".toList, "no-config".toList]
  logLevel : ∃ t, ValueOr is "log-level".toList "INFO".toList t ∧ LevelMeans t l.logLevel

/-- What a command line means. -/
def CommandLineMeans (R : Readers) (args : List Text) (l : CommandLine) : Prop :=
  ∃ front gs name decl back is, args = front ++ name :: back ∧ Spelled manualGlobals false gs front ∧ OnceEach gs ∧ GlobalsMean gs l ∧
    (name, decl) ∈ manualOptions ∧ Spelled decl true is back ∧ OnceEach is ∧ CommandMeans R name is l.command

end Demag.Spec
