import Verif.Model.TrackerHttp
import Verif.Model.Magnet
import Verif.Model.IpParse
import Verif.Model.Config

/-!
# Reading URLs: the model of `Url::parse` (crate `url`)

The code calls `Url::parse` in `/repo/src/magnet.rs:120` (magnet links) and `/repo/src/tracker/mod.rs:127` (trackers).  The
functions model the basic URL parser of the URL Standard, which the crate implements, without a base URL.  In URLs with a special
scheme (`http`, `https`, `ws`, `wss`, `ftp`) domain names are subject to IDNA, which is a parameter where it does more than to
change upper case letters to lower case ones; URLs with the scheme `file` are read by a parameter.  `url::Host::parse`, which is
called in `/repo/src/dht/mod.rs:202`, is the same host parser.
Simplified: for schemes that are not special the user name and the password are dropped (the code never asks for them), and an
empty host is no host, as the crate has it.
-/

namespace Demag

/-- What reading URLs depends on: whether `^` is escaped in paths (the standard changed); `idna::domain_to_ascii_from_cow` (crate
idna) for domain names that are not plain ASCII; and how what follows `file:` is read. -/
structure UrlEnv where
  caret : Bool
  idna : Bytes → Option Text
  file : Text → Option Url

/-! ### Escaping -/

/-- The C0 control percent-encode set. -/
def controlSet (c : Char) : Bool := decide (c.toNat ≤ 0x1F) || decide (0x7E < c.toNat)

/-- The fragment percent-encode set. -/
def fragmentSet (c : Char) : Bool := controlSet c || c == ' ' || c == '"' || c == '<' || c == '>' || c == '`'

/-- The query percent-encode set. -/
def querySet (c : Char) : Bool := controlSet c || c == ' ' || c == '"' || c == '#' || c == '<' || c == '>'

/-- The path percent-encode set. -/
def pathSet (caret : Bool) (c : Char) : Bool :=
  querySet c || c == '?' || c == '`' || c == '{' || c == '}' || (caret && c == '^')

/-- The special-query percent-encode set. -/
def specialQuerySet (c : Char) : Bool := querySet c || c == '\''

/-- The userinfo percent-encode set. -/
def userinfoSet (c : Char) : Bool :=
  pathSet true c || c == '/' || c == ':' || c == ';' || c == '=' || c == '@' || c == '[' || c == '\\' || c == ']' || c == '|'

/-- `utf8_percent_encode` (crate percent-encoding) for one character. -/
def percentChar (set : Char → Bool) (c : Char) : Text :=
  if set c then (utf8 [c]).flatMap fun b => ['%', hexUpper (b.toNat / 16), hexUpper (b.toNat % 16)] else [c]

/-- `utf8_percent_encode` (crate percent-encoding). -/
def percentEncode (set : Char → Bool) (t : Text) : Text := t.flatMap (percentChar set)

/-! ### Hosts -/

/-- The IPv6 parser of the URL Standard, step 6: the pieces read so far, and the index behind the piece that stands for `::`. -/
def ipv6Pieces (s : Text) (pieces : List Nat) (compress : Option Nat) : Option (List Nat × Option Nat) :=
  match s with
  | [] => some (pieces, compress)
  | c :: r =>
    if pieces.length = 8 then none
    else if c = ':' then
      if compress.isSome then none else ipv6Pieces r (pieces ++ [0]) (some (pieces.length + 1))
    else
      let hs := ((c :: r).takeWhile fun c => (toDigit 16 c).isSome).take 4
      let value := hs.foldl (fun v c => v * 16 + (toDigit 16 c).getD 0) 0
      match _h : (c :: r).drop hs.length with
      | [] => some (pieces ++ [value], compress)
      | d :: r' =>
        if d = '.' then
          if hs.isEmpty then none
          else if 6 < pieces.length then none
          else
            ((readIpv4 (c :: r)).filter fun p => p.2.isEmpty).map fun p => (pieces ++ [p.1 / 65536, p.1 % 65536], compress)
        else if d = ':' then
          if r' = [] then none else ipv6Pieces r' (pieces ++ [value]) compress
        else none
termination_by s.length
decreasing_by
  · simp
  · have h1 := congrArg List.length _h
    rw [List.length_drop] at h1
    simp only [List.length_cons] at h1 ⊢
    omega

/-- The IPv6 parser of the URL Standard, steps 5 and 6. -/
def ipv6Start (s : Text) : Option (List Nat × Option Nat) :=
  match s with
  | [] => ipv6Pieces [] [] none
  | c :: r =>
    if c = ':' then
      match r with
      | [] => none
      | d :: r => if d = ':' then ipv6Pieces r [0] (some 1) else none
    else ipv6Pieces (c :: r) [] none

/-- The IPv6 parser of the URL Standard, steps 7 and 8: the pieces behind `::` are moved to the end. -/
def ipv6Finish (pieces : List Nat) : Option Nat → Option Ipv6
  | none => if pieces.length = 8 then some (Ipv6.ofSegments pieces) else none
  | some k => some (Ipv6.ofSegments (pieces.take k ++ List.replicate (8 - pieces.length) 0 ++ pieces.drop k))

/-- The IPv6 parser of the URL Standard; `url::host::parse_ipv6addr` (crate url). -/
def urlIpv6 (s : Text) : Option Ipv6 := (ipv6Start s).bind fun p => ipv6Finish p.1 p.2

/-- The forbidden host code points of the URL Standard. -/
def forbiddenHost : List Char :=
  [Char.ofNat 0, '\t', '\n', '\r', ' ', '#', '/', ':', '<', '>', '?', '@', '[', '\\', ']', '^', '|']

/-- The host parser of the URL Standard for URLs that are not special; `Host::parse_opaque` (crate url).  The inner `none` is no
host. -/
def opaqueHost (s : Text) : Option (Option UrlHost) :=
  match s with
  | [] => some none
  | c :: r =>
    if c = '[' then
      if r.getLast? = some ']' then (urlIpv6 r.dropLast).map fun ip => some (.ipv6 (ipv6Text ip)) else none
    else if (c :: r).any fun c => forbiddenHost.contains c then none
    else some (some (.domain (percentEncode controlSet (c :: r))))

/-- A text cut at every character of a kind. -/
def splitWhere (p : Char → Bool) : Text → List Text
  | [] => [[]]
  | c :: r =>
    if p c then [] :: splitWhere p r
    else
      match splitWhere p r with
      | s :: ss => (c :: s) :: ss
      | [] => [[c]]

/-- The labels of a domain name, or the parts of an IPv4 address. -/
def splitDots : Text → List Text := splitWhere (· == '.')

/-- Bytes as characters, for ASCII. -/
def asciiText (bs : Bytes) : Text := bs.map fun b => Char.ofNat b.toNat

/-- `AsciiDenyList::URL` (crate idna): the forbidden domain code points of the URL Standard. -/
def forbiddenDomain (c : Char) : Bool :=
  decide (c.toNat ≤ 0x20) || decide (c.toNat = 0x7F) || "%#/:<>?@[\\]^|".toList.contains c

/-- The domain names that IDNA only changes to lower case: ASCII, and no label starts with `xn--`. -/
def plainDomain (bs : Bytes) : Bool :=
  bs.all (· < 0x80) && (splitDots (asciiText bs)).all fun l => (l.take 4).map Char.toLower != "xn--".toList

/-- `idna::domain_to_ascii_from_cow` (crate idna) with `AsciiDenyList::URL`: what is denied is so in whatever name. -/
def domainToAscii (idna : Bytes → Option Text) (bs : Bytes) : Option Text :=
  if (asciiText bs).any forbiddenDomain then none
  else if plainDomain bs then some ((asciiText bs).map Char.toLower)
  else idna bs

/-- The base of a number and its digits (`parse_ipv4number`, url 2.5 `host.rs`): `0x` or `0X` means hexadecimal, another `0` in front of
something octal. -/
def radixAndDigits (t : Text) : Nat × Text :=
  if t.take 2 = ['0', 'x'] ∨ t.take 2 = ['0', 'X'] then (16, t.drop 2)
  else if 2 ≤ t.length ∧ t.head? = some '0' then (8, t.drop 1)
  else (10, t)

/-- The digits `ds` of a number, if all of them are digits. -/
def digitsIn (radix : Nat) (ds : Text) : Option Nat :=
  if ds.all fun c => (toDigit radix c).isSome then some (ds.foldl (fun r c => r * radix + (toDigit radix c).getD 0) 0) else none

/-- The IPv4 number parser of the URL Standard; `url::host::parse_ipv4number` (crate url).  Simplified: the crate's case of a number
that does not fit 32 bits is such a number here, which `urlIpv4` refuses. -/
def ipv4Number (t : Text) : Option Nat :=
  if t = [] then none else digitsIn (radixAndDigits t).1 (radixAndDigits t).2

/-- The parts of a host that may be an IPv4 address: an empty last part does not count. -/
def ipv4Parts (t : Text) : List Text :=
  if (splitDots t).getLast? = some [] then (splitDots t).dropLast else splitDots t

/-- The ends-in-a-number checker of the URL Standard; `url::host::ends_in_a_number` (crate url). -/
def endsInNumber (t : Text) : Bool :=
  match (ipv4Parts t).getLast? with
  | none => false
  | some last => (!last.isEmpty && last.all Char.isDigit) || (ipv4Number last).isSome

/-- The IPv4 parser of the URL Standard; `url::host::parse_ipv4addr` (crate url). -/
def urlIpv4 (t : Text) : Option Ipv4 :=
  if 4 < (ipv4Parts t).length then none
  else
    ((ipv4Parts t).mapM ipv4Number).bind fun ns =>
      match ns.getLast? with
      | none => none
      | some last =>
        let front := ns.dropLast
        if 256 ^ (4 - front.length) ≤ last then none
        else if front.any (255 < ·) then none
        else some ⟨BitVec.ofNat 32 (last + (front.mapIdx fun i n => n * 256 ^ (3 - i)).sum)⟩

/-- The host parser of the URL Standard for special URLs; `Host::parse` (crate url). -/
def hostParse (idna : Bytes → Option Text) (s : Text) : Option Host :=
  match s with
  | [] => none
  | c :: r =>
    if c = '[' then
      if r.getLast? = some ']' then (urlIpv6 r.dropLast).map .ipv6 else none
    else
      (domainToAscii idna (percentDecode (utf8 (c :: r)))).bind fun d =>
        if d = [] then none
        else if endsInNumber d then (urlIpv4 d).map .ipv4
        else some (.domain d)

/-- The host with its text; `Display for Host` (crate url) but for the brackets. -/
def Host.toUrl : Host → UrlHost
  | .domain s => .domain s
  | .ipv4 ip => .ipv4 (ipv4Text ip)
  | .ipv6 ip => .ipv6 (ipv6Text ip)

/-- The host state of the URL Standard: the host ends at the first colon that is not in brackets. -/
def splitHostPort : Bool → Text → Text × Option Text
  | _, [] => ([], none)
  | inside, c :: r =>
    if c = ':' ∧ inside = false then ([], some r)
    else
      let inside := if c = '[' then true else if c = ']' then false else inside
      let p := splitHostPort inside r
      (c :: p.1, p.2)

/-- The port state of the URL Standard; `Parser::parse_port` (crate url).  The inner `none` is no port. -/
def urlPort (t : Text) : Option (Option (BitVec 16)) :=
  if t = [] then some none
  else if t.all Char.isDigit then
    let n := t.foldl (fun r c => r * 10 + (c.toNat - 48)) 0
    if n < 65536 then some (some (BitVec.ofNat 16 n)) else none
  else none

/-- The part of a text behind its last `@`, if there is one. -/
def afterLastAt (t : Text) : Option Text :=
  if t.contains '@' then some ((t.reverse.takeWhile (· ≠ '@')).reverse) else none

/-- The authority state and those following it: host and port.  `none` if the text is not acceptable. -/
def urlAuthority (t : Text) : Option (Option UrlHost × Option (BitVec 16)) :=
  let hp := (afterLastAt t).getD t
  if (afterLastAt t).isSome && hp.isEmpty then none
  else
    match splitHostPort false hp with
    | (host, none) => (opaqueHost host).map fun h => (h, none)
    | (host, some port) => if host.isEmpty then none else (opaqueHost host).bind fun h => (urlPort port).map fun p => (h, p)

/-- The part of a text in front of its last `@`, nothing if there is none. -/
def beforeLastAt (t : Text) : Text :=
  match afterLastAt t with
  | none => []
  | some r => t.take (t.length - (r.length + 1))

/-- The authority state of the URL Standard: user name and password, escaped; `Parser::parse_userinfo` (crate url). -/
def userinfoText (t : Text) : Text :=
  let password := (t.dropWhile (· ≠ ':')).drop 1
  percentEncode userinfoSet (t.takeWhile (· ≠ ':')) ++
    if password = [] then [] else ':' :: percentEncode userinfoSet password

/-- `default_port` (crate url). -/
def defaultPort (scheme : Text) : Option Nat :=
  if scheme = "http".toList ∨ scheme = "ws".toList then some 80
  else if scheme = "https".toList ∨ scheme = "wss".toList then some 443
  else if scheme = "ftp".toList then some 21
  else none

/-- The port, unless it is the scheme's; `Parser::parse_port` (crate url). -/
def otherPort (scheme : Text) (port : Option (BitVec 16)) : Option (BitVec 16) :=
  port.filter fun p => some p.toNat != defaultPort scheme

/-- The authority state and those following it for special URLs: user information, host and port. -/
def specialAuthority (idna : Bytes → Option Text) (scheme t : Text) : Option (Text × UrlHost × Option (BitVec 16)) :=
  match splitHostPort false ((afterLastAt t).getD t) with
  | (host, none) => (hostParse idna host).map fun h => (userinfoText (beforeLastAt t), h.toUrl, none)
  | (host, some port) =>
    (hostParse idna host).bind fun h =>
      (urlPort port).map fun p => (userinfoText (beforeLastAt t), h.toUrl, otherPort scheme p)

/-! ### Paths -/

/-- A text cut at every slash. -/
def splitSlash : Text → List Text
  | [] => [[]]
  | c :: r =>
    if c = '/' then [] :: splitSlash r
    else
      match splitSlash r with
      | s :: ss => (c :: s) :: ss
      | [] => [[c]]

/-- The single-dot path segments of the URL Standard. -/
def singleDot (s : Text) : Bool := [".".toList, "%2e".toList].contains (s.map Char.toLower)

/-- The double-dot path segments of the URL Standard. -/
def doubleDot (s : Text) : Bool := ["..".toList, ".%2e".toList, "%2e.".toList, "%2e%2e".toList].contains (s.map Char.toLower)

/-- The path state of the URL Standard, for the segments that are left. -/
def pathSegments (caret : Bool) : List Text → List Text → List Text
  | path, [] => path
  | path, s :: ss =>
    let path :=
      if doubleDot s then if ss.isEmpty then path.dropLast ++ [[]] else path.dropLast
      else if singleDot s then if ss.isEmpty then path ++ [[]] else path
      else path ++ [percentEncode (pathSet caret) s]
    pathSegments caret path ss

/-- A path that starts with a slash, read and written again. -/
def slashPath (caret : Bool) (t : Text) : Text := (pathSegments caret [] (splitSlash t)).flatMap fun s => '/' :: s

/-- The path start state of the URL Standard: the path behind an authority is nothing or starts with a slash. -/
def pathStart (caret : Bool) (t : Text) : Text :=
  match t with
  | [] => []
  | _ :: p => slashPath caret p

/-- What separates segments of a path in a special URL. -/
def isSlash (c : Char) : Bool := c == '/' || c == '\\'

/-- The path start state and the path state of the URL Standard for special URLs: there is at least one segment. -/
def specialPath (caret : Bool) (t : Text) : Text :=
  (pathSegments caret [] (splitWhere isSlash (t.drop 1))).flatMap fun s => '/' :: s

/-- The end of a path. -/
def notPathEnd (c : Char) : Bool := c != '?' && c != '#'

/-! ### The whole -/

/-- The query state and the fragment state of the URL Standard. -/
def queryAndFragment (t : Text) : Option Text × Option Text :=
  match t with
  | [] => (none, none)
  | c :: r =>
    if c = '?' then
      (some (percentEncode querySet (r.takeWhile (· ≠ '#'))),
        match r.dropWhile (· ≠ '#') with
        | [] => none
        | _ :: f => some (percentEncode fragmentSet f))
    else (none, some (percentEncode fragmentSet r))

/-- The query state and the fragment state of the URL Standard for special URLs. -/
def specialTail (t : Text) : Option Text × Option Text :=
  match t with
  | [] => (none, none)
  | c :: r =>
    if c = '?' then
      (some (percentEncode specialQuerySet (r.takeWhile (· ≠ '#'))),
        match r.dropWhile (· ≠ '#') with
        | [] => none
        | _ :: f => some (percentEncode fragmentSet f))
    else (none, some (percentEncode fragmentSet r))

/-- The first steps of the basic URL parser: control characters and spaces around the text and tabs and line ends inside it are
dropped. -/
def urlInput (s : Text) : Text :=
  (((s.dropWhile fun c => decide (c.toNat ≤ 0x20)).reverse.dropWhile fun c => decide (c.toNat ≤ 0x20)).reverse).filter
    fun c => c != '\t' && c != '\n' && c != '\r'

/-- A character of a scheme. -/
def schemeChar (c : Char) : Bool := c.isAlphanum || c == '+' || c == '-' || c == '.'

/-- The scheme start state and the scheme state of the URL Standard: the scheme and what follows the colon. -/
def splitScheme (s : Text) : Option (Text × Text) :=
  match s with
  | [] => none
  | c :: r =>
    if c.isAlpha then
      match (c :: r).dropWhile schemeChar with
      | d :: rest => if d = ':' then some (((c :: r).takeWhile schemeChar).map Char.toLower, rest) else none
      | [] => none
    else none

/-- The special schemes of the URL Standard. -/
def specialSchemes : List Text :=
  ["http".toList, "https".toList, "ws".toList, "wss".toList, "ftp".toList, "file".toList]

/-- What follows the scheme, for schemes that are not special; `Parser::parse_non_special` (crate url). -/
def urlRest (caret : Bool) (scheme rest : Text) : Option Url :=
  match rest with
  | '/' :: '/' :: r =>
    let authority := r.takeWhile fun c => c ≠ '/' ∧ c ≠ '?' ∧ c ≠ '#'
    let r := r.dropWhile fun c => c ≠ '/' ∧ c ≠ '?' ∧ c ≠ '#'
    (urlAuthority authority).map fun (host, port) =>
      let path := pathStart caret (r.takeWhile notPathEnd)
      let (q, f) := queryAndFragment (r.dropWhile notPathEnd)
      { scheme := scheme, host := host, port := port, path := path, query := q, fragment := f }
  | '/' :: r =>
    let (q, f) := queryAndFragment (r.dropWhile notPathEnd)
    some { scheme := scheme, host := none, port := none, path := slashPath caret (r.takeWhile notPathEnd), query := q, fragment := f }
  | r =>
    let (q, f) := queryAndFragment (r.dropWhile notPathEnd)
    some { scheme := scheme, host := none, port := none, path := percentEncode controlSet (r.takeWhile notPathEnd), query := q, fragment := f }

/-- The end of the authority of a special URL. -/
def notAuthorityEnd (c : Char) : Bool := !isSlash c && notPathEnd c

/-- What follows the scheme, for special schemes other than `file`: any number of slashes, then the authority;
`Parser::parse_with_scheme` and `Parser::after_double_slash` (crate url). -/
def urlSpecial (env : UrlEnv) (scheme rest : Text) : Option Url :=
  let r := rest.dropWhile isSlash
  let p := r.dropWhile notAuthorityEnd
  (specialAuthority env.idna scheme (r.takeWhile notAuthorityEnd)).map fun a =>
    { scheme := scheme, host := some a.2.1, port := a.2.2, path := specialPath env.caret (p.takeWhile notPathEnd),
      query := (specialTail (p.dropWhile notPathEnd)).1, fragment := (specialTail (p.dropWhile notPathEnd)).2, auth := a.1 }

/-- What follows the scheme, for special schemes. -/
def specialRest (env : UrlEnv) (scheme rest : Text) : Option Url :=
  if scheme = "file".toList then (env.file rest).map fun u => { u with scheme := scheme } else urlSpecial env scheme rest

/-- `Url::parse` (crate url). -/
def urlParse (env : UrlEnv) (s : Text) : Option Url :=
  (splitScheme (urlInput s)).bind fun (scheme, rest) =>
    if specialSchemes.contains scheme then specialRest env scheme rest else urlRest env.caret scheme rest

/-! ### Printing -/

/-- `Display for Host` (crate url). -/
def UrlHost.text : UrlHost → Text
  | .domain s => s
  | .ipv4 s => s
  | .ipv6 s => '[' :: (s ++ [']'])

/-- `Display for Url` (crate url).  Simplified: for URLs with a host, as all printed ones are. -/
def Url.text (u : Url) : Text :=
  u.scheme ++ "://".toList ++ (if u.auth = [] then [] else u.auth ++ ['@']) ++ (u.host.elim [] UrlHost.text) ++
    (u.port.elim [] fun p => ':' :: decimal p.toNat) ++ u.path ++ (u.query.elim [] fun q => '?' :: q) ++
    u.fragment.elim [] fun f => '#' :: f

end Demag
