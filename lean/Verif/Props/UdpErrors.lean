import Verif.Spec.UdpErrors
import Verif.Props.UdpSession

/-!
# C23: the errors of UDP trackers
-/

namespace Demag

open Spec Props

theorem at_short {bs : Bytes} {off w v : Nat} (h : At bs off w v) (hw : 0 < w) : off + w ≤ bs.length := by
  have := h.1
  rw [List.length_take, List.length_drop] at this
  omega

theorem get32_error {bs : Bytes} {off : Nat} {err : PacketError} (h : tryGet (BitVec 32) (bs.drop off) = .error err) : bs.length < off + 4 := by
  apply Decidable.byContradiction
  intro hl
  have hlen : ((bs.drop off).take 4).length = 4 := by rw [List.length_take, List.length_drop]; omega
  have hb := beValue_lt ((bs.drop off).take 4)
  rw [hlen] at hb
  have : At bs off 4 (BitVec.ofNat 32 (beValue ((bs.drop off).take 4))).toNat := by
    rw [BitVec.toNat_ofNat, Nat.mod_eq_of_lt hb]
    exact ⟨hlen, rfl⟩
  rw [(get32_at _ _).2 ⟨this, rfl⟩] at h
  cases h

theorem get64_error {bs : Bytes} {off : Nat} {err : PacketError} (h : tryGet (BitVec 64) (bs.drop off) = .error err) : bs.length < off + 8 := by
  apply Decidable.byContradiction
  intro hl
  have hlen : ((bs.drop off).take 8).length = 8 := by rw [List.length_take, List.length_drop]; omega
  have hb := beValue_lt ((bs.drop off).take 8)
  rw [hlen] at hb
  have : At bs off 8 (BitVec.ofNat 64 (beValue ((bs.drop off).take 8))).toNat := by
    rw [BitVec.toNat_ofNat, Nat.mod_eq_of_lt hb]
    exact ⟨hlen, rfl⟩
  rw [(get64_at _ _).2 ⟨this, rfl⟩] at h
  cases h

/-- The errors of the parser of connect responses. -/
theorem udpConnectResponse_error {bs : Bytes} {err : UdpError} (h : udpConnectResponse bs = .error err) :
    (∃ p, err = .packetLen p ∧ bs.length < 16) ∨ ∃ got, err = .badAction 0 got ∧ At bs 0 4 got.toNat ∧ got ≠ 0 := by
  unfold udpConnectResponse at h
  simp only [bind, Except.bind, throw, throwThe, MonadExceptOf.throw, pure, Except.pure] at h
  split at h
  · rename_i hh
    obtain ⟨e', h1, rfl⟩ := (mapError_err _ _ _).1 hh
    cases h
    have := get32_error (off := 0) h1
    exact .inl ⟨_, rfl, by omega⟩
  · rename_i v hh
    obtain ⟨action, r⟩ := v
    rw [mapError_ok] at hh
    obtain ⟨ha, rfl⟩ := (get32_at0 _ _).1 hh
    split at h
    · rename_i hne
      cases h
      exact .inr ⟨_, rfl, ha, hne⟩
    · split at h
      · rename_i hh
        obtain ⟨e', h1, rfl⟩ := (mapError_err _ _ _).1 hh
        cases h
        have := get32_error (off := 4) h1
        exact .inl ⟨_, rfl, by omega⟩
      · rename_i v hh
        obtain ⟨x, r⟩ := v
        rw [mapError_ok] at hh
        obtain ⟨hx, rfl⟩ := (get32_at (off := 4) _ _).1 hh
        split at h
        · rename_i hh
          obtain ⟨e', h1, rfl⟩ := (mapError_err _ _ _).1 hh
          cases h
          have := get64_error (off := 8) h1
          exact .inl ⟨_, rfl, by omega⟩
        · cases h

/-- The errors of the parser of announce responses. -/
theorem udpAnnounceResponse_error {ipv6 : Bool} {bs : Bytes} {err : UdpError} (h : udpAnnounceResponse ipv6 bs = .error err) :
    (∃ p, err = .packetLen p ∧ (bs.length < 20 ∨ (bs.length - 20) % (if ipv6 then 18 else 6) ≠ 0)) ∨
    ∃ got, err = .badAction 1 got ∧ At bs 0 4 got.toNat ∧ got ≠ 1 := by
  have hall := h
  unfold udpAnnounceResponse at h
  simp only [bind, Except.bind, throw, throwThe, MonadExceptOf.throw, pure, Except.pure] at h
  split at h
  · rename_i hh
    obtain ⟨e', h1, rfl⟩ := (mapError_err _ _ _).1 hh
    cases h
    have := get32_error (off := 0) h1
    exact .inl ⟨_, rfl, .inl (by omega)⟩
  · rename_i v hh
    obtain ⟨action, r⟩ := v
    rw [mapError_ok] at hh
    obtain ⟨ha, rfl⟩ := (get32_at0 _ _).1 hh
    split at h
    · rename_i hne
      cases h
      exact .inr ⟨_, rfl, ha, hne⟩
    · rename_i hac
      simp only [ne_eq, Decidable.not_not] at hac
      subst hac
      have hlen : bs.length < 20 ∨ (bs.length - 20) % (if ipv6 then 18 else 6) ≠ 0 := by
        apply Decidable.byContradiction
        intro hn
        simp only [not_or, Nat.not_lt, ne_eq, Decidable.not_not] at hn
        obtain ⟨r, hr⟩ := (udpAnnounce_accepted_iff (fun _ => []) ipv6 bs).2 ⟨hn.1, ha, hn.2⟩
        rw [udpResponse_ok, hall] at hr
        cases hr.2
      have hp : ∃ p, err = .packetLen p := by
        repeat' (split at h <;> try cases h)
        all_goals rename_i hh
        all_goals first
          | (unfold udpPeers at hh
             split at hh <;> (obtain ⟨e', -, rfl⟩ := (mapError_err _ _ _).1 hh; exact ⟨_, rfl⟩))
          | (obtain ⟨e', -, rfl⟩ := (mapError_err _ _ _).1 hh; exact ⟨_, rfl⟩)
      obtain ⟨p, rfl⟩ := hp
      exact .inl ⟨_, rfl, hlen⟩

/-- The errors of responses of any kind. -/
theorem udpResponse_error {α : Type} {lossy : Bytes → Text} {parser : Bytes → Except UdpError α} {bs : Bytes} {err : UdpError}
    (h : udpResponse lossy parser bs = .error err) :
    (∃ xid msg, IsErrorResponse xid msg bs ∧ err = .failure (lossy msg)) ∨ (∃ p, err = .packetLen p ∧ At bs 0 4 3 ∧ bs.length < 8) ∨
    (¬ At bs 0 4 3 ∧ parser bs = .error err) := by
  unfold udpResponse at h
  split at h
  · rename_i action view hv
    obtain ⟨ha, rfl⟩ := (get32_at0 _ _).1 hv
    split at h
    · rename_i hac
      subst hac
      split at h
      · rename_i e' hg
        cases h
        have := get32_error (off := 4) hg
        exact .inr (.inl ⟨_, rfl, ha, this⟩)
      · rename_i x view hg
        obtain ⟨hx, rfl⟩ := (get32_at (off := 4) _ _).1 hg
        cases h
        exact .inl ⟨_, _, ⟨ha, hx, rfl⟩, rfl⟩
    · rename_i hne
      exact .inr (.inr ⟨fun h3 => hne (BitVec.eq_of_toNat_eq (At_inj ha h3)), h⟩)
  · rename_i e' he
    refine .inr (.inr ⟨fun h3 => ?_, h⟩)
    rw [(get32_at0 errorAction (bs.drop 4)).2 ⟨h3, rfl⟩] at he
    cases he

theorem step_result_error {lossy : Bytes → Text} {s : UdpSession} {e : UdpEvent} {err : UdpError}
    (h : .result (.error err) ∈ (s.step lossy e).2) :
    (err = .send ∧ e.input = .sendFailed) ∨ (err = .recv ∧ e.input = .recvFailed) ∨
    (∃ bs a xid chat d, e.input = .packet bs ∧ s.phase = .connecting a xid chat ∧ chat.wait = .waiting d ∧
      (udpResponse lossy udpConnectResponse bs = .error err ∨
        ∃ r, udpResponse lossy udpConnectResponse bs = .ok r ∧ r.xid ≠ xid ∧ err = .xactionMismatch xid r.xid)) ∨
    (∃ bs a xid c chat d, e.input = .packet bs ∧ s.phase = .announcing a xid c chat ∧ chat.wait = .waiting d ∧
      (udpResponse lossy (udpAnnounceResponse s.ipv6) bs = .error err ∨
        ∃ r, udpResponse lossy (udpAnnounceResponse s.ipv6) bs = .ok r ∧ r.xid ≠ xid ∧ err = .xactionMismatch xid r.xid)) := by
  obtain ⟨sip, surl, conn, phase⟩ := s
  unfold UdpSession.step at h
  simp only [UdpSession.startConnect, UdpSession.startAnnounce] at h
  cases phase with
  | idle =>
    cases hi : e.input <;> rw [hi] at h <;> simp only [List.not_mem_nil] at h
    split at h
    · split at h <;> simp at h
    · simp at h
  | connecting a xid chat =>
    simp only at h
    split at h
    · simp at h
    · simp at h
      exact .inl ⟨h, by assumption⟩
    · split at h <;> simp at h
    · simp at h
      exact .inr (.inl ⟨h, by assumption⟩)
    · rename_i d bs hw hi
      refine .inr (.inr (.inl ⟨bs, a, xid, chat, d, hi, rfl, hw, ?_⟩))
      split at h
      · rename_i err' he
        simp only [List.mem_singleton, UdpOutput.result.injEq, Except.error.injEq] at h
        exact .inl (h ▸ he)
      · rename_i rr hr
        split at h
        · rename_i hx
          simp only [List.mem_singleton, UdpOutput.result.injEq, Except.error.injEq] at h
          exact .inr ⟨rr, hr, hx, h⟩
        · simp at h
    · simp at h
  | announcing a xid c chat =>
    simp only at h
    split at h
    · simp at h
    · simp at h
      exact .inl ⟨h, by assumption⟩
    · split at h <;> simp at h
    · split at h
      · simp at h
      · split at h <;> simp at h
    · simp at h
      exact .inr (.inl ⟨h, by assumption⟩)
    · rename_i d bs hw hi
      refine .inr (.inr (.inr ⟨bs, a, xid, c, chat, d, hi, rfl, hw, ?_⟩))
      split at h
      · rename_i err' he
        simp only [List.mem_singleton, UdpOutput.result.injEq, Except.error.injEq] at h
        exact .inl (h ▸ he)
      · rename_i rr hr
        split at h
        · rename_i hx
          simp only [List.mem_singleton, UdpOutput.result.injEq, Except.error.injEq] at h
          exact .inr ⟨rr, hr, hx, h⟩
        · simp at h
    · simp at h

namespace Props

/-- **C23.** What is reported when a UDP tracker could not be asked is what happened: the error names the cause, the number expected is that of
the datagram sent last, and the number got that of the packet received. -/
theorem udp_error_causes {lossy : Bytes → Text} {ipv6 : Bool} {urldata : Text} {tr pre post : UdpTrace}
    {s : UdpSession} {e : UdpEvent} {out : List UdpOutput} {err : UdpError}
    (h : UdpRun lossy ipv6 urldata tr s) (ht : tr = pre ++ (e, out) :: post) (hr : .result (.error err) ∈ out) :
    Blames lossy ipv6 (lastSent pre) e err := by
  obtain ⟨s1, h1, -, rfl⟩ := h.split ht
  have hv := h1.inv
  rcases step_result_error hr with ⟨rfl, hi⟩ | ⟨rfl, hi⟩ | ⟨bs, a, xid, chat, d, hi, hp, hw, hres⟩ | ⟨bs, a, xid, c, chat, d, hi, hp, hw, hres⟩
  · exact hi
  · exact hi
  · obtain ⟨-, hm, hci⟩ := hv.connecting _ _ _ hp
    unfold ChatInv at hci
    rw [hw] at hci
    obtain ⟨ts, t, -, -, -, hls⟩ := hci
    have hreq := udpConnectRequest_spec xid
    rw [hm] at hls
    rcases hres with hres | ⟨r, hres, hx, rfl⟩
    · rcases udpResponse_error hres with ⟨x, msg, h3, rfl⟩ | ⟨p, rfl, h3, h4⟩ | ⟨h3, h4⟩
      · exact ⟨bs, x, msg, hi, h3, rfl⟩
      · exact ⟨bs, _, hi, hls, .inl ⟨h3, h4⟩⟩
      · rcases udpConnectResponse_error h4 with ⟨p, rfl, h5⟩ | ⟨got, rfl, h5, h6⟩
        · exact ⟨bs, _, hi, hls, .inr (.inl ⟨hreq.2.2.1, h5⟩)⟩
        · exact ⟨bs, _, hi, hls, hreq.2.2.1, h5, h6, fun hg => h3 (hg ▸ h5)⟩
    · obtain ⟨x, cid⟩ := r
      obtain ⟨h3, h4, -⟩ := (udpConnect_ok _ _ _ _).1 hres
      exact ⟨bs, _, 0, hi, hls, hreq.2.2.1, h3, hreq.2.2.2, h4, hx⟩
  · obtain ⟨-, hm, hci, -⟩ := hv.announcing _ _ _ _ hp
    unfold ChatInv at hci
    rw [hw] at hci
    obtain ⟨ts, t, -, -, -, hls⟩ := hci
    have hreq := udpAnnounceRequest_spec c.id xid a urldata
    rw [hm] at hls
    rw [hv.ip] at hres
    rcases hres with hres | ⟨r, hres, hx, rfl⟩
    · rcases udpResponse_error hres with ⟨x, msg, h3, rfl⟩ | ⟨p, rfl, h3, h4⟩ | ⟨h3, h4⟩
      · exact ⟨bs, x, msg, hi, h3, rfl⟩
      · exact ⟨bs, _, hi, hls, .inl ⟨h3, h4⟩⟩
      · rcases udpAnnounceResponse_error h4 with ⟨p, rfl, h5⟩ | ⟨got, rfl, h5, h6⟩
        · exact ⟨bs, _, hi, hls, .inr (.inr ⟨hreq.action, h5⟩)⟩
        · exact ⟨bs, _, hi, hls, hreq.action, h5, h6, fun hg => h3 (hg ▸ h5)⟩
    · obtain ⟨x, resp⟩ := r
      rw [udpResponse_ok] at hres
      obtain ⟨i, l, n, addrs, hlay, -⟩ := (udpAnnounceResponse_spec _ _ _ _).1 hres.2
      exact ⟨bs, _, 1, hi, hls, hreq.action, hlay.1, hreq.transactionId, hlay.2.1, hx⟩

-- an answer to another request
example : ∃ tr s pre e post, UdpRun (fun _ => []) false [] tr s ∧ tr = pre ++ (e, [.result (.error (.xactionMismatch 18 17))]) :: post :=
  ⟨_, _, (execUdp (fun _ => []) [] (.new false []) sampleEvents).1, ⟨2 * second, 0, .packet [0, 0, 0, 1, 0, 0, 0, 17, 0, 0, 7, 8, 0, 0, 0, 1, 0, 0, 0, 2]⟩, [],
    execUdp_run .nil (sampleEvents ++ [⟨2 * second, 0, .packet [0, 0, 0, 1, 0, 0, 0, 17, 0, 0, 7, 8, 0, 0, 0, 1, 0, 0, 0, 2]⟩]) (by decide +kernel), by
      decide +kernel⟩

end Props
end Demag
