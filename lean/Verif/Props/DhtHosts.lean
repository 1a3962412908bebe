import Verif.Props.UrlHttp
import Verif.Props.Settings

/-! # C54, C60: the addresses of DHT nodes in the configuration, with the hosts of the URL Standard -/

namespace Demag.Props

open Spec

/-- **C54.** Which texts are addresses of nodes, and of which host and port: the part before the last colon is the text of a host, as in an HTTP
URL, and the part after it that of the port. -/
theorem node_text (idna : Bytes → Option Text) (t : Text) (a : InetAddr) :
    InetAddr.parse (hostParse idna) t = some a ↔ AddressText (IsHostText idna) t a := by
  rw [inet_parse]
  simp only [hostParse_iff, AddressText]

/-- **C54.** A colon in the host is only possible in brackets around an IPv6 address: without them, the text of an IPv6 address with a port behind
it is refused, and so is a host with two ports. -/
theorem node_colon (idna : Bytes → Option Text) (t : Text) (a : InetAddr) (h : InetAddr.parse (hostParse idna) t = some a) (host port : Text)
    (ht : AtLast ':' t host port) (hc : ':' ∈ host) : host.head? = some '[' ∧ host.getLast? = some ']' ∧ ∃ ip, a.host = .ipv6 ip := by
  obtain ⟨host', port', ht', -, hh⟩ := (node_text idna t a).1 h
  obtain rfl : host' = host := by
    have h1 := (rsplitOnce_spec _ _ _ _).2 ht
    rw [(rsplitOnce_spec _ _ _ _).2 ht'] at h1
    exact (Prod.mk.inj (Option.some.inj h1)).1
  have hd : ∀ d, ¬ DomainOf idna host' d := by
    rintro d ⟨hn, -⟩
    exact hn _ (escapedBytes_mem (c := ':') (by decide) (by decide) (by decide) host' hc) (by unfold NotInDomain; decide)
  cases hah : a.host with
  | domain d => rw [hah] at hh; exact absurd hh.2.1 (hd _)
  | ipv4 ip => rw [hah] at hh; obtain ⟨-, d, hd', -⟩ := hh; exact absurd hd' (hd _)
  | ipv6 ip =>
    rw [hah] at hh
    obtain ⟨t', rfl, hi⟩ := hh
    refine ⟨rfl, ?_, ip, rfl⟩
    rw [List.getLast?_cons, List.getLast?_append]; simp

/-- What IDNA does makes no difference to a plain name. -/
theorem hostParse_plain (idna idna' : Bytes → Option Text) (t : Text) (h : plainDomain (percentDecode (utf8 t)) = true) :
    hostParse idna t = hostParse idna' t := by
  match t with
  | [] => rfl
  | c :: r => simp only [hostParse, domainToAscii, h, if_true]

/-- **C60.** The nodes used without bootstrap nodes in the file: the built-in texts are addresses, whatever IDNA does, so that the program does not
panic. -/
theorem default_nodes (idna : Bytes → Option Text) : DhtConfig.dflt (hostParse idna) =
    some ⟨[⟨.domain "dht.transmissionbt.com".toList, 6881⟩, ⟨.domain "relay.pkarr.org".toList, 6881⟩,
      ⟨.domain "router.bittorrent.com".toList, 6881⟩], 2⟩ := by
  have e : DhtConfig.dflt (hostParse idna) = DhtConfig.dflt (hostParse fun _ => none) := by
    have h1 := hostParse_plain idna (fun _ => none) "dht.transmissionbt.com".toList (by decide +kernel)
    have h2 := hostParse_plain idna (fun _ => none) "relay.pkarr.org".toList (by decide +kernel)
    have h3 := hostParse_plain idna (fun _ => none) "router.bittorrent.com".toList (by decide +kernel)
    have key : ∀ (host t : Text) (port : BitVec 16), rsplitOnce ':' t = some (host, "6881".toList) →
        hostParse idna host = hostParse (fun _ => none) host →
        InetAddr.parse (hostParse idna) t = InetAddr.parse (hostParse fun _ => none) t := by
      intro host t port hs hh
      unfold InetAddr.parse
      simp only [hs, hh]
    unfold DhtConfig.dflt defaultBootstrapNodes
    simp only [List.map_cons, List.map_nil]
    rw [key _ "dht.transmissionbt.com:6881".toList 0 (by decide +kernel) h1, key _ "relay.pkarr.org:6881".toList 0 (by decide +kernel) h2,
      key _ "router.bittorrent.com:6881".toList 0 (by decide +kernel) h3]
  rw [e]
  decide +kernel

/-- **C60.** The bootstrap nodes of every accepted file: those that it names, each by the text of a host and a port, or the built-in ones. -/
theorem config_nodes (idna : Bytes → Option Text) (dht : DhtConfig) (hdht : DhtConfig.dflt (hostParse idna) = some dht)
    (doc : List (Text × Toml)) (cfg : Config) (h : readConfig (hostParse idna) dht doc = some cfg) :
    Setting doc "dht" 0 "bootstrap-nodes" (Addresses (IsHostText idna))
      [⟨.domain "dht.transmissionbt.com".toList, 6881⟩, ⟨.domain "relay.pkarr.org".toList, 6881⟩, ⟨.domain "router.bittorrent.com".toList, 6881⟩]
      cfg.dht.bootstrapNodes := by
  rw [default_nodes, Option.some.injEq] at hdht
  subst hdht
  obtain ⟨-, -, -, -, -, -, -, -, -, -, h, -⟩ := (config_settings _ _ doc cfg).1 h
  have e : (fun t h => hostParse idna t = some h) = IsHostText idna := by
    funext t h; exact propext (hostParse_iff idna t h)
  rwa [e] at h

/-! ### Examples -/

example : InetAddr.parse (hostParse fun _ => none) "80:61".toList = some ⟨.ipv4 ⟨0x00000050#32⟩, 61⟩ := by decide +kernel
example : InetAddr.parse (hostParse fun _ => none) "WWW.example.com:80".toList = some ⟨.domain "www.example.com".toList, 80⟩ := by decide +kernel
example : InetAddr.parse (hostParse fun _ => none) "::1:80".toList = none := by decide +kernel
theorem exNode_v6 : InetAddr.parse (hostParse fun _ => none) "[::1]:80".toList = some ⟨.ipv6 ⟨1#128⟩, 80⟩ := by decide +kernel
example := node_colon (fun _ => none) "[::1]:80".toList _ exNode_v6 "[::1]".toList "80".toList
  ((rsplitOnce_spec _ _ _ _).1 (by decide +kernel)) (by decide)

-- a file that names two nodes
example := config_nodes (fun _ => none) _ (default_nodes _)
  [("dht".toList, .table [("bootstrap-nodes".toList, .arr [.str "0x7F.1:1".toList, .str "[::1]:80".toList])])]
  (Config.dflt ⟨[⟨.ipv4 ⟨0x7F000001#32⟩, 1⟩, ⟨.ipv6 ⟨1#128⟩, 80⟩], 2⟩) (by decide +kernel)

end Demag.Props
