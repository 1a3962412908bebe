import Verif.Props.IpText
import Verif.Props.HttpResponse
import Verif.Props.Json
import Verif.Props.Torrent
import Verif.Props.Utf8

/-!
# Properties: the parameters of other theorems, instantiated (C13, C27, C44)

`torrentFile_dict` and `httpResult_ok` hold for any function that prints or reads IP addresses and any lossy conversion.  Here
they are stated for the models of std's functions.
-/

namespace Demag.Props

open Spec

theorem sockAddr_ext {a b : SockAddr} (h1 : a.ip = b.ip) (h2 : a.port = b.port) : a = b := by
  rcases a with ⟨⟨⟩⟩ | ⟨⟨⟩⟩ <;> rcases b with ⟨⟨⟩⟩ | ⟨⟨⟩⟩ <;> simp_all [SockAddr.ip, SockAddr.port]

/-- **C13.** A node stands in the torrent file with a text of its IP address and with its port. -/
theorem torrent_node_text (a : SockAddr) :
    ∃ t, nodeBen ipText a = .list [.bytes (utf8 t), .int a.port.toNat] ∧ IsIpText t a.ip :=
  ⟨ipText a.ip, rfl, ipText_is a.ip⟩

/-- **C13.** The nodes in a torrent file tell the addresses of the nodes, in order. -/
theorem torrent_nodes_injective {ns ms : List SockAddr} (h : ns.map (nodeBen ipText) = ms.map (nodeBen ipText)) : ns = ms := by
  refine List.map_inj_right ?_ |>.1 h
  intro a b e
  simp only [nodeBen, Ben.list.injEq, List.cons.injEq, Ben.bytes.injEq, Ben.int.injEq, and_true] at e
  refine sockAddr_ext (ipText_injective (utf8_inj e.1)) (BitVec.eq_of_toNat_eq ?_)
  exact Int.ofNat_inj.1 e.2

/-- **C27.** A peer is listed as a dictionary with a text of its IP address, its port, and perhaps its ID. -/
theorem httpPeer_text (v : Ben) (p : Peer) :
    IsPeerDict ipFromStr v p ↔
      ∃ kvs, v = .dict kvs ∧ ReqField "ip" kvs (fun v x => ∃ t, v = .bytes (utf8 t) ∧ IsIpText t x) p.address.ip ∧
        ReqField "port" kvs (IsUint 16) p.address.port ∧
        OptField "peer id" kvs (fun v (x : PeerId) => v = .bytes x.bytes) p.id ∧ p.requiresCrypto = false := by
  have e : (fun (v : Ben) x => ∃ t, v = .bytes (utf8 t) ∧ ipFromStr t = some x) =
      fun v x => ∃ t, v = .bytes (utf8 t) ∧ IsIpText t x := by
    funext v x
    simp only [ipFromStr_iff]
  simp only [IsPeerDict, e]
  constructor
  · rintro ⟨kvs, ip, port, rfl, h1, h2, h3, h4, h5⟩
    refine ⟨kvs, rfl, ?_, ?_, h3, h5⟩
    · rw [h4]; cases ip <;> exact h1
    · rw [h4]; cases ip <;> exact h2
  · rintro ⟨kvs, rfl, h1, h2, h3, h5⟩
    refine ⟨kvs, _, _, rfl, h1, h2, h3, ?_, h5⟩
    cases p.address <;> rfl

/-- **C44.** The host in the JSON output is read back as the IP address of the peer. -/
theorem json_host (p : Peer) : ∃ host, parseJson (displayJson p) =
      some (peerJson host p.address.port.toNat (p.id.map fun i => lossyUtf8 i.bytes) p.requiresCrypto) ∧
    ipFromStr host = some p.address.ip :=
  ⟨_, json_peer p, ip_roundTrip _⟩

/-- **C44.** Peers with different addresses have different JSON outputs. -/
theorem json_address {p q : Peer} (h : displayJson p = displayJson q) : p.address = q.address := by
  have hp := json_peer p
  rw [h, json_peer q] at hp
  simp only [peerJson, Option.some.injEq, Json.obj.injEq, List.cons.injEq, Prod.mk.injEq, Json.str.injEq, Json.num.injEq,
    true_and] at hp
  exact (sockAddr_ext (ipText_injective hp.1) (BitVec.eq_of_toNat_eq hp.2.1)).symm

example : displayJson ⟨.v6 ⟨⟨1#128⟩, 6881#16⟩, none, true⟩ =
    "{\"host\": \"::1\", \"port\": 6881, \"id\": null, \"requires_crypto\": true}".toList := by decide +kernel
example : IsPeerDict ipFromStr (.dict [(keyBytes "ip", .bytes (keyBytes "::1")), (keyBytes "port", .int 6881)])
    ⟨.v6 ⟨⟨1#128⟩, 6881#16⟩, none, false⟩ := by
  refine (httpPeer_text _ _).2 ⟨_, rfl, ⟨.bytes (keyBytes "::1"), rfl, "::1".toList, ?_, ?_⟩, ⟨.int 6881, rfl, rfl⟩, ?_, rfl⟩
  · exact congrArg Ben.bytes (by decide +kernel)
  · exact (ipFromStr_iff _ _).1 (by decide +kernel)
  · exact trivial

end Demag.Props
