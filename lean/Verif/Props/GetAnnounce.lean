import Verif.Props.Get
import Verif.Props.UrlPrint

/-!
# C70, C48: what `get` tells the trackers, and the trackers named in the file it writes
-/

namespace Demag.Props

open Spec

section
variable {sha1 : Bytes → Bytes} {env : GetEnv} {behaves : Peer → (Nat → Link) → Prop} {answers : Tracker → AskTrace → Prop} {m : Magnet}
  {tr : ResolveTrace Tracker Peer SockAddr TorrentInfo TaskError} {s : Resolve Tracker Peer SockAddr SockAddr TorrentInfo TaskError}

theorem getter_configured (env : GetEnv) (m : Magnet) (ev : AnnounceEvent) : AsConfigured env m.infoHash ((env.getter m).announcement ev) := by
  refine ⟨rfl, rfl, rfl, rfl, rfl, rfl, by show (65535 : BitVec 64) ≠ 0; decide, fun h => ?_, ?_, ?_⟩
  · show (BitVec.ofNat 32 _).toNat = _
    rw [BitVec.toNat_ofNat, Nat.mod_eq_of_lt h]
  · show CryptoPreference.getTrackerCrypto env.cfg.general.encrypt = _ ↔ _
    cases env.cfg.general.encrypt <;> simp [CryptoPreference.getTrackerCrypto]
  · show CryptoPreference.getTrackerCrypto env.cfg.general.encrypt = _ ↔ _
    cases env.cfg.general.encrypt <;> simp [CryptoPreference.getTrackerCrypto]

/-- **C70.** Behind every answer of a tracker there is a conversation in which all that we sent was this: connect requests, announce requests
and requests for URLs with the link's info hash, our peer ID, key and port, and the configured number of peers and wish for encryption. -/
theorem get_announces (h : GetRun sha1 env behaves answers m tr s) {t : Tracker} {o : Outcome (List Peer)} (hm : (t, o) ∈ trackerDones tr) :
    ∃ atr a r, AskRun env.lossy env.parseIp t (env.getter m) atr a ∧ answers t atr ∧ r ∈ askResults atr ∧ o = .value (r.toOption.getD []) ∧
      (∀ addr bs, (addr, bs) ∈ datagrams atr → (∃ xid, IsConnectRequest xid bs) ∨ ∃ u cid xid an, t = .udp u ∧
        IsAnnounceRequest cid xid an (utf8 u.urldata) bs ∧ AsConfigured env m.infoHash an ∧ (an.event = .started ∨ an.event = .stopped)) ∧
      ∀ url ∈ requests atr, ∃ u an, t = .http u ∧ IsHttpAnnounce u an url ∧ AsConfigured env m.infoHash an ∧
        (an.event = .started ∨ an.event = .stopped) := by
  obtain ⟨atr, a, r, h1, h2, h3, h4⟩ := get_tracker h hm
  refine ⟨atr, a, r, h1, h2, ?_, h4, ?_, ?_⟩
  · simp only [askResults, List.mem_filterMap]
    exact ⟨_, h3, rfl⟩
  · intro addr bs hd
    simp only [datagrams, List.mem_filterMap, List.mem_flatMap] at hd
    obtain ⟨x, ⟨⟨e1, o1⟩, g1, g2⟩, g3⟩ := hd
    obtain ⟨p1, p2, rfl⟩ := List.append_of_mem g1
    have hx : x = .datagram addr bs := by
      cases x <;> simp at g3
      rw [g3.1, g3.2]
    obtain ⟨u, ht, -, hq⟩ := ask_datagrams h1 rfl (hx ▸ g2)
    rcases hq with hq | ⟨ev, cid, xid, hev, hq⟩
    · exact .inl hq
    · refine .inr ⟨u, cid, xid, _, ht, hq, getter_configured env m ev, ?_⟩
      rcases hev with ⟨rfl, -⟩ | ⟨rfl, -⟩
      · exact .inl rfl
      · exact .inr rfl
  · intro url hu
    rcases ask_requests h1 with hr | ⟨u, x, ht, hx, hr | ⟨b, hb, hr, -⟩⟩
    · rw [hr] at hu; cases hu
    · rw [hr] at hu
      obtain rfl := List.mem_singleton.1 hu
      exact ⟨u, _, ht, hx, getter_configured env m _, .inl rfl⟩
    · rw [hr] at hu
      simp only [List.mem_cons, List.not_mem_nil, or_false] at hu
      rcases hu with rfl | rfl
      · exact ⟨u, _, ht, hx, getter_configured env m _, .inl rfl⟩
      · exact ⟨u, _, ht, hb, getter_configured env m _, .inr rfl⟩

theorem mem_forall₂ {α β : Type} {R : α → β → Prop} {l : List α} {l' : List β} (h : List.Forall₂ R l l') : ∀ b ∈ l', ∃ a ∈ l, R a b := by
  induction h with
  | nil => intro b hb; cases hb
  | cons h1 h2 ih =>
    intro b hb
    rcases List.mem_cons.1 hb with rfl | hb
    · exact ⟨_, List.mem_cons_self, h1⟩
    · obtain ⟨a, ha, hr⟩ := ih b hb
      exact ⟨a, List.mem_cons_of_mem _ ha, hr⟩

/-- **C48.** The texts with which the trackers of a link are named in the torrent file are read back as these trackers. -/
theorem trackers_named {uenv : UrlEnv} (hi : IdnaOk uenv.idna) {lossy : Bytes → Text} {text : Text}
    (hm : Magnet.parse (urlParse uenv) lossy text = .ok m) :
    (m.trackers.map Tracker.urlString).map (Tracker.parse (urlParse uenv)) = m.trackers.map .ok := by
  rw [List.map_map]
  apply List.map_congr_left
  intro t ht
  obtain ⟨u, -, -, hd⟩ := (magnet_ok (urlParse uenv) lossy text m).1 hm
  obtain ⟨v, -, hv⟩ := mem_forall₂ hd.tr t ht
  cases t with
  | udp u => exact tracker_roundTrip hv
  | http u => exact http_roundTrip hi hv

end

/-! ### Examples -/

-- `trackers_named`, for a link with a UDP and an HTTP tracker, the latter with an international name
example : IdnaOk nameEnv.idna ∧ ∃ m : Magnet, (Magnet.parse (urlParse nameEnv) lossyUtf8
      "magnet:?xt=urn:btih:000102030405060708090A0B0C0D0E0F10111213&tr=udp://[1::0:2]:080/A&tr=HTTP:me@B%C3%BCCHER.example:80\\a/../b?c'".toList = .ok m) ∧
    m.trackers.map Tracker.urlString = ["udp://[1::2]:80/A".toList, "http://me@xn--bcher-kva.example/b?c%27".toList] :=
  ⟨nameEnv_ok, ⟨⟨(List.range 20).map UInt8.ofNat, rfl⟩, none, [.udp ⟨"1::2".toList, 80, "/A".toList⟩,
    .http ⟨"http".toList, some (.domain "xn--bcher-kva.example".toList), none, "/b".toList, some "c%27".toList, none, "me".toList⟩]⟩,
    (except_toOption _ _).1 (by decide +kernel), by decide +kernel⟩

end Demag.Props
