import Verif.Model.Wire

/-!
# Tracker URLs: the model of the URL handling in `/repo/src/tracker/{mod,udp,http}.rs`

Parsing a text into the components of a URL is the business of the crate `url` (its model is `Model/UrlParse.lean`): a `Url` is
what the code can ask of a parsed one.
-/

namespace Demag

/-- The decimal digits of a number, as printed by `Display` for Rust's unsigned integers. -/
def decimal (n : Nat) : Text :=
  if n < 10 then [Char.ofNat (48 + n)] else decimal (n / 10) ++ [Char.ofNat (48 + n % 10)]
termination_by n

/-- src/tracker/udp.rs:48-53 `UdpUrl`. -/
structure UdpUrl where
  host : Text
  port : BitVec 16
  urldata : Text
  deriving DecidableEq

/-- `url::Host` (crate `url`), with the text of an IP address as printed by std. -/
inductive UrlHost where
  | domain (s : Text)
  | ipv4 (s : Text)
  | ipv6 (s : Text)
  deriving DecidableEq

/-- What the code looks at in a `url::Url` (crate `url`), or prints of it: `auth` is `USER` or `USER:PASSWORD`, or nothing. -/
structure Url where
  scheme : Text
  host : Option UrlHost
  port : Option (BitVec 16)
  path : Text
  query : Option Text
  fragment : Option Text
  auth : Text := []
  deriving DecidableEq

/-- src/tracker/mod.rs:223-233 `TrackerUrlError`. -/
inductive TrackerUrlError where
  | url
  | unsupportedScheme (s : Text)
  | noHost
  | noUdpPort
  deriving DecidableEq

/-- src/tracker/udp.rs:68-96 `TryFrom<Url> for UdpUrl`. -/
def UdpUrl.ofUrl (u : Url) : Except TrackerUrlError UdpUrl :=
  if u.scheme ≠ "udp".toList then .error (.unsupportedScheme u.scheme)
  else
    match u.host with
    | none => .error .noHost
    | some h =>
      let host := match h with | .domain s => s | .ipv4 s => s | .ipv6 s => s
      match u.port with
      | none => .error .noUdpPort
      | some port => .ok ⟨host, port, u.path ++ match u.query with | some q => '?' :: q | none => []⟩

/-- src/tracker/udp.rs:55-66 `Display for UdpUrl`. -/
def UdpUrl.display (u : UdpUrl) : Text :=
  "udp://".toList ++ (if u.host.contains ':' then ['['] ++ u.host ++ [']'] else u.host) ++ [':'] ++ decimal u.port.toNat ++
    u.urldata

/-- src/tracker/mod.rs:18-22 `Tracker`, with src/tracker/http.rs:21-22 `HttpTracker` and src/tracker/udp.rs:20-21
`UdpTracker`. -/
inductive Tracker where
  | http (u : Url)
  | udp (u : UdpUrl)
  deriving DecidableEq

/-- src/tracker/http.rs:47-60 `TryFrom<Url> for HttpTracker`. -/
def httpOfUrl (u : Url) : Except TrackerUrlError Url :=
  if u.scheme ≠ "http".toList && u.scheme ≠ "https".toList then .error (.unsupportedScheme u.scheme)
  else if u.host.isNone then .error .noHost
  else .ok u

/-- src/tracker/mod.rs:126-133 `Tracker::from_str`.  `parseUrl` is `Url::parse`. -/
def Tracker.parse (parseUrl : Text → Option Url) (s : Text) : Except TrackerUrlError Tracker :=
  match parseUrl s with
  | none => .error .url
  | some u =>
    if u.scheme = "http".toList ∨ u.scheme = "https".toList then (httpOfUrl u).map .http
    else if u.scheme = "udp".toList then (UdpUrl.ofUrl u).map .udp
    else .error (.unsupportedScheme u.scheme)

end Demag
