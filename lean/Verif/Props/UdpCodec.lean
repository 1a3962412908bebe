import Verif.Lemmas.Udp

/-!
# C21, C22: UDP tracker packets
-/

namespace Demag.Props

open Demag Spec

/-- **C21.** The connect request has the layout of BEP 15. -/
theorem udpConnectRequest_spec (xid : BitVec 32) : IsConnectRequest xid.toNat (udpConnectRequest xid) := by
  refine ⟨by simp [udpConnectRequest], ?_, ?_, ?_⟩
  · exact (At_intro (bs := udpConnectRequest xid) (off := 0) (r := putU32 connectAction ++ putU32 xid)
      (by simp [udpConnectRequest]) ((field_64 protocolId _).2 rfl)).1
  · exact At_field (p := putU64 protocolId) (r := putU32 xid) ((field_32 connectAction _).2 rfl)
  · have := At_field (p := putU64 protocolId ++ putU32 connectAction) (r := []) ((field_32 xid _).2 rfl)
    simpa [udpConnectRequest] using this

/-- **C21.** Every announce request has the layout of BEP 15, and reading its options as in BEP 41 gives the path and query
of the tracker's URL, whatever their length. -/
theorem udpAnnounceRequest_spec (cid : BitVec 64) (xid : BitVec 32) (a : Announcement) (urldata : Text) :
    IsAnnounceRequest cid.toNat xid.toNat a (utf8 urldata) (udpAnnounceRequest cid xid a urldata) := by
  obtain ⟨bs, hbs⟩ : ∃ bs, bs = udpAnnounceRequest cid xid a urldata := ⟨_, rfl⟩
  rw [← hbs]
  have ev : a.event.forUdp.toNat = eventNumber a.event := by cases a.event <;> rfl
  have h0 : bs.drop 0 = putU64 cid ++ (putU32 announceAction ++ (putU32 xid ++ (a.infoHash.bytes ++ (a.peerId.bytes ++
      (putU64 a.downloaded ++ (putU64 a.left ++ (putU64 a.uploaded ++ (putU32 a.event.forUdp ++ (putU32 0 ++ (putU32 a.key ++
      (putU32 a.numwant ++ (putU16 a.port ++ putUrlData (utf8 urldata))))))))))))) := by
    rw [hbs]; simp [udpAnnounceRequest]
  have hlen : 98 ≤ bs.length := by
    have := congrArg List.length h0
    have h1 := a.infoHash.len
    have h2 := a.peerId.len
    simp at this
    omega
  obtain ⟨a1, h1⟩ := At_intro h0 ((field_64 cid _).2 rfl)
  obtain ⟨a2, h2⟩ := At_intro h1 ((field_32 announceAction _).2 rfl)
  obtain ⟨a3, h3⟩ := At_intro h2 ((field_32 xid _).2 rfl)
  have a4 : (bs.drop 16).take 20 = a.infoHash.bytes := by
    rw [h3]; exact List.take_left' a.infoHash.len
  have h4 := congrArg (List.drop 20) h3
  rw [List.drop_drop, List.drop_left' a.infoHash.len] at h4
  have a5 : (bs.drop 36).take 20 = a.peerId.bytes := by
    rw [h4]; exact List.take_left' a.peerId.len
  have h5 := congrArg (List.drop 20) h4
  rw [List.drop_drop, List.drop_left' a.peerId.len] at h5
  obtain ⟨a6, h6⟩ := At_intro h5 ((field_64 a.downloaded _).2 rfl)
  obtain ⟨a7, h7⟩ := At_intro h6 ((field_64 a.left _).2 rfl)
  obtain ⟨a8, h8⟩ := At_intro h7 ((field_64 a.uploaded _).2 rfl)
  obtain ⟨a9, h9⟩ := At_intro h8 ((field_32 a.event.forUdp _).2 rfl)
  obtain ⟨a10, h10⟩ := At_intro h9 ((field_32 (0 : BitVec 32) _).2 rfl)
  obtain ⟨a11, h11⟩ := At_intro h10 ((field_32 a.key _).2 rfl)
  obtain ⟨a12, h12⟩ := At_intro h11 ((field_32 a.numwant _).2 rfl)
  obtain ⟨a13, h13⟩ := At_intro h12 ((field_16 a.port _).2 rfl)
  exact ⟨hlen, a1, a2, a3, a4, a5, a6, a7, a8, ev ▸ a9, a10, a11, a12, a13, by rw [h13]; exact urlDataOptions_put _⟩

/-- **C22.** A packet is taken for a connect response exactly if it has its layout; the transaction and connection ID are
those in the packet. -/
theorem udpConnectResponse_spec (bs : Bytes) (xid : BitVec 32) (cid : BitVec 64) :
    udpConnectResponse bs = .ok ⟨xid, cid⟩ ↔ IsConnectResponse xid.toNat cid.toNat bs := by
  have e0 : bs = bs.drop 0 := rfl
  unfold udpConnectResponse IsConnectResponse
  simp only [bind, Except.bind]
  constructor
  · intro h
    split at h
    · cases h
    rename_i v hv
    rw [mapError_ok, e0] at hv
    obtain ⟨ac, r⟩ := v
    obtain ⟨ha, rfl⟩ := (get32_at _ _).1 hv
    simp only [throw, throwThe, MonadExceptOf.throw] at h
    split at h
    · cases h
    rename_i hac
    simp only [ne_eq, Decidable.not_not] at hac
    subst hac
    simp only [pure, Except.pure] at h
    split at h
    · cases h
    rename_i v hv
    rw [mapError_ok] at hv
    obtain ⟨x, r⟩ := v
    obtain ⟨hx, rfl⟩ := (get32_at _ _).1 hv
    split at h
    · cases h
    rename_i v hv
    rw [mapError_ok] at hv
    obtain ⟨c, r⟩ := v
    obtain ⟨hc, rfl⟩ := (get64_at _ _).1 hv
    cases h
    exact ⟨ha, hx, hc⟩
  · rintro ⟨ha, hx, hc⟩
    have h1 : tryGet (BitVec 32) bs = .ok (connectAction, bs.drop 4) := (get32_at0 _ _).2 ⟨ha, rfl⟩
    have h2 : tryGet (BitVec 32) (bs.drop 4) = .ok (xid, bs.drop 8) := (get32_at _ _).2 ⟨hx, rfl⟩
    have h3 : tryGet (BitVec 64) (bs.drop 8) = .ok (cid, bs.drop 16) := (get64_at _ _).2 ⟨hc, rfl⟩
    rw [h1]
    simp only [Except.mapError, ne_eq, not_true_eq_false, if_false, pure, Except.pure, h2, h3]

theorem concat_map {α : Type} {R : α → Bytes → Prop} {R' : SockAddr → Bytes → Prop} (f : α → SockAddr)
    (h : ∀ a bs, R' (f a) bs ↔ R a bs) (xs : List α) (bs : Bytes) : IsConcat R' (xs.map f) bs ↔ IsConcat R xs bs := by
  induction xs generalizing bs with
  | nil => exact Iff.rfl
  | cons x xs ih => simp only [List.map_cons, IsConcat, h, ih]

theorem getPeers_iff (ipv6 : Bool) (buf : Bytes) (ps : List Peer) :
    udpPeers ipv6 buf = .ok ps ↔
    ∃ addrs, ps = addrs.map Peer.ofAddr ∧ IsConcat IsCompact addrs buf ∧ ∀ a ∈ addrs, (∃ v, a = .v6 v) ↔ ipv6 = true := by
  unfold udpPeers
  cases ipv6 with
  | true =>
    simp only [if_true, mapError_ok, iff_true]
    constructor
    · intro h
      cases e : tryGetAll SockV6 buf with
      | error => rw [e] at h; cases h
      | ok xs =>
        rw [e] at h; cases h
        refine ⟨xs.map .v6, by simp [Peer.ofV6, Peer.ofAddr], ?_, by simp⟩
        exact (concat_map (R := IsCompact6) .v6 (fun _ _ => Iff.rfl) _ _).2 ((getAllV6_iff _ _).1 e)
    · rintro ⟨addrs, rfl, hc, hv⟩
      obtain ⟨xs, rfl⟩ : ∃ xs : List SockV6, addrs = xs.map .v6 := by
        clear hc
        induction addrs with
        | nil => exact ⟨[], rfl⟩
        | cons a as ih =>
          obtain ⟨v, rfl⟩ := hv a (by simp)
          obtain ⟨xs, rfl⟩ := ih (fun b hb => hv b (by simp [hb]))
          exact ⟨v :: xs, rfl⟩
      rw [concat_map (R := IsCompact6) .v6 (fun _ _ => Iff.rfl)] at hc
      rw [(getAllV6_iff _ _).2 hc]
      simp [Except.map, Peer.ofV6, Peer.ofAddr]
  | false =>
    simp only [Bool.false_eq_true, if_false, mapError_ok, iff_false]
    constructor
    · intro h
      cases e : tryGetAll SockV4 buf with
      | error => rw [e] at h; cases h
      | ok xs =>
        rw [e] at h; cases h
        refine ⟨xs.map .v4, by simp [Peer.ofV4, Peer.ofAddr], ?_, by simp⟩
        exact (concat_map (R := IsCompact4) .v4 (fun _ _ => Iff.rfl) _ _).2 ((getAllV4_iff _ _).1 e)
    · rintro ⟨addrs, rfl, hc, hv⟩
      obtain ⟨xs, rfl⟩ : ∃ xs : List SockV4, addrs = xs.map .v4 := by
        clear hc
        induction addrs with
        | nil => exact ⟨[], rfl⟩
        | cons a as ih =>
          obtain ⟨xs, rfl⟩ := ih (fun b hb => hv b (by simp [hb]))
          cases a with
          | v4 v => exact ⟨v :: xs, rfl⟩
          | v6 v => exact absurd ⟨v, rfl⟩ (hv _ (by simp))
      rw [concat_map (R := IsCompact4) .v4 (fun _ _ => Iff.rfl)] at hc
      rw [(getAllV4_iff _ _).2 hc]
      simp [Except.map, Peer.ofV4, Peer.ofAddr]

/-- **C22.** A packet is taken for an announce response exactly if it has its layout, with whole addresses up to the end;
the peers are the addresses in order and the numbers are those in the packet. -/
theorem udpAnnounceResponse_spec (ipv6 : Bool) (bs : Bytes) (xid : BitVec 32) (resp : AnnounceResponse) :
    udpAnnounceResponse ipv6 bs = .ok ⟨xid, resp⟩ ↔
      ∃ interval leechers seeders addrs,
        IsAnnounceResponse ipv6 xid.toNat interval leechers seeders addrs bs ∧
        resp.interval.toNat = interval ∧ resp.leechers.map BitVec.toNat = some leechers ∧
        resp.seeders.map BitVec.toNat = some seeders ∧ resp.peers = addrs.map (fun a => ⟨a, none, false⟩) ∧
        resp.warningMessage = none ∧ resp.minInterval = none ∧ resp.trackerId = none ∧ resp.complete = none ∧
        resp.incomplete = none := by
  have e0 : bs = bs.drop 0 := rfl
  unfold udpAnnounceResponse IsAnnounceResponse
  simp only [bind, Except.bind]
  constructor
  · intro h
    split at h
    · cases h
    rename_i v hv
    rw [mapError_ok, e0] at hv
    obtain ⟨ac, r⟩ := v
    obtain ⟨ha, rfl⟩ := (get32_at _ _).1 hv
    simp only [throw, throwThe, MonadExceptOf.throw] at h
    split at h
    · cases h
    rename_i hac
    simp only [ne_eq, Decidable.not_not] at hac
    subst hac
    simp only [pure, Except.pure] at h
    split at h
    · cases h
    rename_i v hv
    rw [mapError_ok] at hv
    obtain ⟨x, r⟩ := v
    obtain ⟨hx, rfl⟩ := (get32_at _ _).1 hv
    split at h
    · cases h
    rename_i v hv
    rw [mapError_ok] at hv
    obtain ⟨i, r⟩ := v
    obtain ⟨hi, rfl⟩ := (get32_at _ _).1 hv
    split at h
    · cases h
    rename_i v hv
    rw [mapError_ok] at hv
    obtain ⟨l, r⟩ := v
    obtain ⟨hl, rfl⟩ := (get32_at _ _).1 hv
    split at h
    · cases h
    rename_i v hv
    rw [mapError_ok] at hv
    obtain ⟨se, r⟩ := v
    obtain ⟨hs, rfl⟩ := (get32_at _ _).1 hv
    split at h
    · cases h
    rename_i ps hps
    obtain ⟨addrs, rfl, hc, hv⟩ := (getPeers_iff ipv6 _ ps).1 hps
    cases h
    exact ⟨_, _, _, addrs, ⟨ha, hx, hi, hl, hs, hc, hv⟩, rfl, rfl, rfl, rfl, rfl, rfl, rfl, rfl, rfl⟩
  · obtain ⟨i, ps, wm, mi, ti, co, inc, le, se⟩ := resp
    rintro ⟨i', l', s', addrs, ⟨ha, hx, hi, hl, hs, hc, hv⟩, rfl, h1, h2, rfl, h3, h4, h5, h6, h7⟩
    simp only at h3 h4 h5 h6 h7
    subst h3; subst h4; subst h5; subst h6; subst h7
    simp only [Option.map_eq_some_iff] at h1 h2
    obtain ⟨l, rfl, rfl⟩ := h1
    obtain ⟨s, rfl, rfl⟩ := h2
    have h1 : tryGet (BitVec 32) bs = .ok (announceAction, bs.drop 4) := (get32_at0 _ _).2 ⟨ha, rfl⟩
    have h2 : tryGet (BitVec 32) (bs.drop 4) = .ok (xid, bs.drop 8) := (get32_at _ _).2 ⟨hx, rfl⟩
    have h3 : tryGet (BitVec 32) (bs.drop 8) = .ok (i, bs.drop 12) := (get32_at _ _).2 ⟨hi, rfl⟩
    have h4 : tryGet (BitVec 32) (bs.drop 12) = .ok (l, bs.drop 16) := (get32_at _ _).2 ⟨hl, rfl⟩
    have h5 : tryGet (BitVec 32) (bs.drop 16) = .ok (s, bs.drop 20) := (get32_at _ _).2 ⟨hs, rfl⟩
    have h6 := (getPeers_iff ipv6 (bs.drop 20) _).2 ⟨addrs, rfl, hc, hv⟩
    rw [h1]
    simp only [Except.mapError, ne_eq, not_true_eq_false, if_false, pure, Except.pure, h2, h3, h4, h5, h6]
    rfl

/-- **C22.** A packet marked as error is reported as a failure with the tracker's message, and nothing else is. -/
theorem udpResponse_failure {α : Type} (lossy : Bytes → Text) (parser : Bytes → Except UdpError α)
    (hp : ∀ bs m, parser bs ≠ .error (.failure m)) (bs : Bytes) (m : Text) :
    udpResponse lossy parser bs = .error (.failure m) ↔ ∃ xid msg, IsErrorResponse xid msg bs ∧ m = lossy msg := by
  unfold udpResponse IsErrorResponse
  constructor
  · intro h
    split at h
    · rename_i action view hv
      obtain ⟨ha, rfl⟩ := (get32_at0 _ _).1 hv
      split at h
      · rename_i hac; subst hac
        split at h
        · cases h
        · rename_i x view hg
          obtain ⟨hx, rfl⟩ := (get32_at (off := 4) _ _).1 hg
          cases h
          exact ⟨_, _, ⟨ha, hx, rfl⟩, rfl⟩
      · exact absurd h (hp _ _)
    · exact absurd h (hp _ _)
  · rintro ⟨xid, msg, ⟨ha, hx, rfl⟩, rfl⟩
    rw [(get32_at0 errorAction (bs.drop 4)).2 ⟨ha, rfl⟩]
    simp only [if_true]
    have hlt : xid < 2 ^ 32 := by
      have := beValue_lt ((bs.drop 4).take 4)
      rw [hx.1, hx.2] at this; exact this
    have hx' : At bs 4 4 (BitVec.ofNat 32 xid).toNat := by
      rw [BitVec.toNat_ofNat, Nat.mod_eq_of_lt hlt]; exact hx
    rw [(get32_at _ (bs.drop 8)).2 ⟨hx', rfl⟩]

/-- **C22.** A packet not marked as error is interpreted by the parser of the expected response; one marked as error never
succeeds. -/
theorem udpResponse_ok {α : Type} (lossy : Bytes → Text) (parser : Bytes → Except UdpError α) (bs : Bytes) (r : α) :
    udpResponse lossy parser bs = .ok r ↔ ¬ At bs 0 4 3 ∧ parser bs = .ok r := by
  unfold udpResponse
  cases e : tryGet (BitVec 32) bs with
  | error err =>
    simp only
    refine ⟨fun h => ⟨?_, h⟩, fun h => h.2⟩
    intro ha
    rw [(get32_at0 errorAction (bs.drop 4)).2 ⟨ha, rfl⟩] at e
    cases e
  | ok v =>
    obtain ⟨action, view⟩ := v
    obtain ⟨ha, rfl⟩ := (get32_at0 _ _).1 e
    simp only
    by_cases hac : action = errorAction
    · subst hac
      simp only [if_true]
      constructor
      · intro h; split at h <;> cases h
      · rintro ⟨h, -⟩; exact absurd ha h
    · rw [if_neg hac]
      refine ⟨fun h => ⟨?_, h⟩, fun h => h.2⟩
      intro h3
      exact hac (BitVec.eq_of_toNat_eq (At_inj ha h3))

theorem udpConnectResponse_no_failure (bs : Bytes) (m : Text) : udpConnectResponse bs ≠ .error (.failure m) := by
  unfold udpConnectResponse
  simp only [bind, Except.bind, throw, throwThe, MonadExceptOf.throw, pure, Except.pure]
  intro h
  repeat' (split at h <;> try cases h)
  all_goals (rename_i hh; obtain ⟨e', -, he⟩ := (mapError_err _ _ _).1 hh; cases he)

theorem udpAnnounceResponse_no_failure (ipv6 : Bool) (bs : Bytes) (m : Text) :
    udpAnnounceResponse ipv6 bs ≠ .error (.failure m) := by
  unfold udpAnnounceResponse
  simp only [bind, Except.bind, throw, throwThe, MonadExceptOf.throw, pure, Except.pure]
  intro h
  repeat' (split at h <;> try cases h)
  all_goals rename_i hh
  all_goals first
    | (unfold udpPeers at hh
       split at hh <;> (obtain ⟨e', -, he⟩ := (mapError_err _ _ _).1 hh; cases he))
    | (obtain ⟨e', -, he⟩ := (mapError_err _ _ _).1 hh; cases he)

/-- **C22.** While waiting for a connect response, a packet gives a connection exactly if it has the layout of one. -/
theorem udpConnect_ok (lossy : Bytes → Text) (bs : Bytes) (xid : BitVec 32) (cid : BitVec 64) :
    udpResponse lossy udpConnectResponse bs = .ok ⟨xid, cid⟩ ↔ IsConnectResponse xid.toNat cid.toNat bs := by
  rw [udpResponse_ok, udpConnectResponse_spec]
  refine ⟨fun h => h.2, fun h => ⟨fun h3 => ?_, h⟩⟩
  exact absurd (At_inj h.1 h3) (by decide)

/-- **C22.** An announce response is accepted exactly if it is at least 20 bytes long, has the action 1, and the rest is a
whole number of addresses: truncated packets and stray bytes are rejected. -/
theorem udpAnnounce_accepted_iff (lossy : Bytes → Text) (ipv6 : Bool) (bs : Bytes) :
    (∃ r, udpResponse lossy (udpAnnounceResponse ipv6) bs = .ok r) ↔
      20 ≤ bs.length ∧ At bs 0 4 1 ∧ (bs.length - 20) % (if ipv6 then 18 else 6) = 0 := by
  have at_len : ∀ off w v, At bs off w v → off + w ≤ bs.length ∨ w = 0 := by
    intro off w v h
    have := h.1
    rw [List.length_take, List.length_drop] at this
    omega
  have at_ex : ∀ off, off + 4 ≤ bs.length → ∃ x : BitVec 32, At bs off 4 x.toNat := by
    intro off h
    have hl : ((bs.drop off).take 4).length = 4 := by rw [List.length_take, List.length_drop]; omega
    have hb := beValue_lt ((bs.drop off).take 4)
    rw [hl] at hb
    refine ⟨BitVec.ofNat 32 (beValue ((bs.drop off).take 4)), hl, ?_⟩
    rw [BitVec.toNat_ofNat, Nat.mod_eq_of_lt hb]
  constructor
  · rintro ⟨⟨xid, resp⟩, h⟩
    rw [udpResponse_ok] at h
    obtain ⟨i, l, s, addrs, ⟨ha, hx, hi, hl, hs, hc, hv⟩, -⟩ := (udpAnnounceResponse_spec _ _ _ _).1 h.2
    have := at_len _ _ _ hs
    refine ⟨by omega, ha, ?_⟩
    cases ipv6 with
    | true =>
      have hc2 := (getPeers_iff true (bs.drop 20) _).2 ⟨addrs, rfl, hc, hv⟩
      simp only [udpPeers, if_true, mapError_ok] at hc2
      cases e : tryGetAll SockV6 (bs.drop 20) with
      | error => rw [e] at hc2; cases hc2
      | ok xs =>
        have := (v6s_accepts_iff (bs.drop 20)).1 ⟨xs, (v6s_spec _ _).2 ((getAllV6_iff _ _).1 e)⟩
        rw [List.length_drop] at this
        simpa using this
    | false =>
      have hc2 := (getPeers_iff false (bs.drop 20) _).2 ⟨addrs, rfl, hc, hv⟩
      simp only [udpPeers, Bool.false_eq_true, if_false, mapError_ok] at hc2
      cases e : tryGetAll SockV4 (bs.drop 20) with
      | error => rw [e] at hc2; cases hc2
      | ok xs =>
        have := (v4s_accepts_iff (bs.drop 20)).1 ⟨xs, (v4s_spec _ _).2 ((getAllV4_iff _ _).1 e)⟩
        rw [List.length_drop] at this
        simpa using this
  · rintro ⟨hlen, ha, hm⟩
    obtain ⟨x, hx⟩ := at_ex 4 (by omega)
    obtain ⟨i, hi⟩ := at_ex 8 (by omega)
    obtain ⟨l, hl⟩ := at_ex 12 (by omega)
    obtain ⟨s, hs⟩ := at_ex 16 (by omega)
    have : ∃ addrs, IsConcat IsCompact addrs (bs.drop 20) ∧ ∀ a ∈ addrs, (∃ v, a = .v6 v) ↔ ipv6 = true := by
      cases ipv6 with
      | true =>
        obtain ⟨xs, h⟩ := (v6s_accepts_iff (bs.drop 20)).2 (by rw [List.length_drop]; simpa using hm)
        exact ⟨xs.map .v6, (concat_map (R := IsCompact6) .v6 (fun _ _ => Iff.rfl) _ _).2 ((v6s_spec _ _).1 h), by simp⟩
      | false =>
        obtain ⟨xs, h⟩ := (v4s_accepts_iff (bs.drop 20)).2 (by rw [List.length_drop]; simpa using hm)
        exact ⟨xs.map .v4, (concat_map (R := IsCompact4) .v4 (fun _ _ => Iff.rfl) _ _).2 ((v4s_spec _ _).1 h), by simp⟩
    obtain ⟨addrs, hc, hv⟩ := this
    refine ⟨⟨x, ⟨i, addrs.map (fun a => ⟨a, none, false⟩), none, none, none, none, none, some l, some s⟩⟩, ?_⟩
    rw [udpResponse_ok]
    refine ⟨fun h3 => absurd (At_inj ha h3) (by decide), ?_⟩
    rw [udpAnnounceResponse_spec]
    exact ⟨_, _, _, addrs, ⟨ha, hx, hi, hl, hs, hc, hv⟩, rfl, rfl, rfl, rfl, rfl, rfl, rfl, rfl, rfl⟩

/-- **C22.** The peers are determined by the packet: an address list has only one reading. -/
theorem udpAnnounce_layout_functional {ipv6 : Bool} {x i l s x' i' l' s' : Nat} {as as' : List SockAddr} {bs : Bytes}
    (h : IsAnnounceResponse ipv6 x i l s as bs) (h' : IsAnnounceResponse ipv6 x' i' l' s' as' bs) :
    x = x' ∧ i = i' ∧ l = l' ∧ s = s' ∧ as = as' := by
  obtain ⟨-, hx, hi, hl, hs, hc, hv⟩ := h
  obtain ⟨-, hx', hi', hl', hs', hc', hv'⟩ := h'
  refine ⟨At_inj hx hx', At_inj hi hi', At_inj hl hl', At_inj hs hs', ?_⟩
  have a := (getPeers_iff ipv6 (bs.drop 20) _).2 ⟨as, rfl, hc, hv⟩
  have b := (getPeers_iff ipv6 (bs.drop 20) _).2 ⟨as', rfl, hc', hv'⟩
  rw [a] at b
  cases as' <;> cases as <;> simp only [Except.ok.injEq, List.map_nil, List.map_cons, reduceCtorEq] at b
  · rfl
  · obtain ⟨h1, h2⟩ := List.cons.inj b
    have h3 : ∀ xs ys : List SockAddr, xs.map Peer.ofAddr = ys.map Peer.ofAddr → xs = ys := by
      intro xs ys h
      exact (List.map_inj_right (f := Peer.ofAddr) (by intro x y h; cases h; rfl)).1 h
    rw [h3 _ _ h2]
    cases h1; rfl

-- concrete cases
example : udpConnectRequest 0x5C310D73 =
    [0x00, 0x00, 0x04, 0x17, 0x27, 0x10, 0x19, 0x80, 0, 0, 0, 0, 0x5C, 0x31, 0x0D, 0x73] := by decide
example : urlDataOptions [2, 1, 0x2f, 1, 7, 1, 0xff, 2, 2, 0x61, 0x62, 0, 9] = some [0x2f, 0x61, 0x62] := by
  simp [urlDataOptions]
example : udpResponse (fun _ => []) udpConnectResponse [0, 0, 0, 0, 0, 0, 0, 7, 0, 0, 0, 0, 0, 0, 1, 2, 99] =
    .ok ⟨7, 0x102⟩ := by decide
example : IsErrorResponse 7 [0x6f, 0x6b] [0, 0, 0, 3, 0, 0, 0, 7, 0x6f, 0x6b] := by
  unfold IsErrorResponse At Field; decide

end Demag.Props
