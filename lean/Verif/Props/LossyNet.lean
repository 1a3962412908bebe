import Verif.Spec.LossyNet
import Verif.Model.Settings
import Verif.Props.TrackerFlow

/-!
# C110: what lost datagrams cost
-/

namespace Demag.Props

open Demag.Spec

variable {lossy : Bytes → Text} {parseIp : Text → Option IpAddr} {u : UdpUrl} {c : GetterCtx} {addr : SockAddr} {t0 d limit : Nat}

theorem waits_zero : waits 0 = 0 := rfl

theorem waits_succ (n : Nat) : waits (n + 1) = waits n + 15 * 2 ^ n * second := by
  simp [waits, List.range_succ, second]

theorem waits_mono {m n : Nat} (h : m ≤ n) : waits m ≤ waits n := by
  induction h with
  | refl => exact Nat.le_refl _
  | step _ ih => rw [waits_succ]; omega

theorem waits_few {n : Nat} (h : waits n ≤ 60 * second) : n ≤ 2 := by
  by_contra hn
  have h3 : waits 3 ≤ waits n := waits_mono (by omega)
  have : waits 3 = 105 * second := by decide
  simp only [second] at *
  omega

theorem onSent_waits (msg : Bytes) (n t : Nat) :
    (Chat.onSent ⟨msg, n, .sending⟩ t) = ⟨msg, n, .waiting (t + 15 * 2 ^ n * second)⟩ := by
  simp [Chat.onSent, Nat.shiftLeft_eq]

/-- The session asking for a connection. -/
def connectingAsk (u : UdpUrl) (c : GetterCtx) (addr : SockAddr) (xid : BitVec 32) (n : Nat) (w : ChatWait) : Ask :=
  ⟨⟨.starting, .absent⟩, some (.udp addr ⟨addr.isV6, u.urldata, none, .connecting (c.announcement .started) xid ⟨udpConnectRequest xid, n, w⟩⟩)⟩

/-- The session announcing over a connection made at `tc`. -/
def announcingAsk (u : UdpUrl) (c : GetterCtx) (addr : SockAddr) (xid : BitVec 32) (cid : BitVec 64) (tc m : Nat) (w : ChatWait) : Ask :=
  ⟨⟨.starting, .absent⟩, some (.udp addr ⟨addr.isV6, u.urldata, some ⟨cid, tc + 60 * second⟩,
    .announcing (c.announcement .started) xid ⟨cid, tc + 60 * second⟩ ⟨udpAnnounceRequest cid xid (c.announcement .started) u.urldata, m, w⟩⟩)⟩

/-- The states that occur. -/
inductive LossyInv (u : UdpUrl) (c : GetterCtx) (addr : SockAddr) (t0 d limit : Nat) (tr : AskTrace) : LossyState → Prop
  | connSend {xid n} : askResults tr = [] → tr.length = 2 * n + 1 → waits n ≤ limit →
      LossyInv u c addr t0 d limit tr ⟨connectingAsk u c addr xid n .sending, t0 + waits n, none, false, n, 0⟩
  | connLost {xid n} : askResults tr = [] → tr.length = 2 * n + 2 → waits n ≤ limit →
      LossyInv u c addr t0 d limit tr ⟨connectingAsk u c addr xid n (.waiting (t0 + waits (n + 1))), t0 + waits n, none, false, n + 1, 0⟩
  | connFlies {xid n f} : askResults tr = [] → tr.length = 2 * n + 2 → waits n ≤ limit → t0 + waits n < f.arrival → f.arrival ≤ t0 + waits n + d →
      (∃ cid, IsConnectResponse xid.toNat cid f.bytes) →
      LossyInv u c addr t0 d limit tr ⟨connectingAsk u c addr xid n (.waiting (t0 + waits (n + 1))), t0 + waits n, some f, false, n, 0⟩
  | annSend {xid cid tc n m} : askResults tr = [] → tr.length = 2 * n + 2 * m + 3 → t0 + waits n < tc → tc ≤ t0 + waits n + d →
      tc + waits m ≤ t0 + limit →
      LossyInv u c addr t0 d limit tr ⟨announcingAsk u c addr xid cid tc m .sending, tc + waits m, none, true, n, m⟩
  | annLost {xid cid tc n m} : askResults tr = [] → tr.length = 2 * n + 2 * m + 4 → t0 + waits n < tc → tc ≤ t0 + waits n + d →
      tc + waits m ≤ t0 + limit →
      LossyInv u c addr t0 d limit tr ⟨announcingAsk u c addr xid cid tc m (.waiting (tc + waits (m + 1))), tc + waits m, none, true, n, m + 1⟩
  | annFlies {xid cid tc n m f} : askResults tr = [] → tr.length = 2 * n + 2 * m + 4 → t0 + waits n < tc → tc ≤ t0 + waits n + d →
      tc + waits m ≤ t0 + limit → tc + waits m < f.arrival → f.arrival ≤ tc + waits m + d →
      (∃ i l n addrs, IsAnnounceResponse addr.isV6 xid.toNat i l n addrs f.bytes) →
      LossyInv u c addr t0 d limit tr ⟨announcingAsk u c addr xid cid tc m (.waiting (tc + waits (m + 1))), tc + waits m, some f, true, n, m⟩
  | done {us ps n m now} : askResults tr = [.ok ps] → tr.length = 2 * n + 2 * m + 5 → us.phase = .idle → t0 + waits n + waits m < now →
      now ≤ t0 + waits n + waits m + 2 * d → now ≤ t0 + limit →
      LossyInv u c addr t0 d limit tr ⟨⟨⟨.over, .spawned⟩, some (.udp addr us)⟩, now, none, true, n, m⟩
  | failed {n m b} : askResults tr = [.error .timeout] → tr.length ≤ 2 * n + 2 * m + 5 → limit ≤ waits n + waits m + 2 * d →
      waits (n - 1) ≤ limit → waits (m - 1) ≤ limit →
      LossyInv u c addr t0 d limit tr ⟨⟨⟨.over, .absent⟩, none⟩, t0 + limit, none, b, n, m⟩

theorem answers_connect {v6 : Bool} {xid : BitVec 32} {bs : Bytes} (h : Answers v6 (udpConnectRequest xid) bs) :
    ∃ cid, IsConnectResponse xid.toNat cid bs := by
  obtain ⟨x, hx, h⟩ := h
  have hs := udpConnectRequest_spec xid
  cases At_inj hx hs.2.2.2
  rcases h with h | h
  · exact h.2
  · exact absurd (At_inj h.1 hs.2.2.1) (by decide)

theorem answers_announce {v6 : Bool} {cid : BitVec 64} {xid : BitVec 32} {a : Announcement} {url : Text} {bs : Bytes}
    (h : Answers v6 (udpAnnounceRequest cid xid a url) bs) : ∃ i l n addrs, IsAnnounceResponse v6 xid.toNat i l n addrs bs := by
  obtain ⟨x, hx, h⟩ := h
  have hs := udpAnnounceRequest_spec cid xid a url
  cases At_inj hx hs.transactionId
  rcases h with h | h
  · exact absurd (At_inj h.1 hs.action) (by decide)
  · exact h.2

theorem connect_read (lossy : Bytes → Text) {xid : BitVec 32} {cid : Nat} {bs : Bytes} (h : IsConnectResponse xid.toNat cid bs) :
    udpResponse lossy udpConnectResponse bs = .ok ⟨xid, BitVec.ofNat 64 cid⟩ := by
  rw [udpConnect_ok]
  have := beValue_lt ((bs.drop 8).take 8)
  rw [h.2.2.1, h.2.2.2] at this
  have e : (BitVec.ofNat 64 cid).toNat = cid := by simpa using Nat.mod_eq_of_lt this
  rw [e]
  exact h

theorem announce_read (lossy : Bytes → Text) {v6 : Bool} {xid : BitVec 32} {i l n : Nat} {addrs : List SockAddr} {bs : Bytes}
    (h2 : IsAnnounceResponse v6 xid.toNat i l n addrs bs) :
    ∃ r, udpResponse lossy (udpAnnounceResponse v6) bs = .ok ⟨xid, r⟩ := by
  have lt : ∀ {off v}, At bs off 4 v → v < 2 ^ 32 := by
    intro off v h
    have := beValue_lt ((bs.drop off).take 4)
    rw [h.1, h.2] at this
    exact this
  have hi := lt h2.2.2.1
  have hl := lt h2.2.2.2.1
  have hn := lt h2.2.2.2.2.1
  refine ⟨⟨BitVec.ofNat 32 i, addrs.map (fun a => ⟨a, none, false⟩), none, none, none, none, none, some (BitVec.ofNat 32 l),
    some (BitVec.ofNat 32 n)⟩, (udpResponse_ok _ _ _ _).2 ⟨fun h3 => absurd (At_inj h2.1 h3) (by decide), ?_⟩⟩
  refine (udpAnnounceResponse_spec _ _ _ _).2 ⟨i, l, n, addrs, h2, ?_, ?_, ?_, rfl, rfl, rfl, rfl, rfl, rfl⟩
  · simpa using Nat.mod_eq_of_lt hi
  · simpa using Nat.mod_eq_of_lt hl
  · simpa using Nat.mod_eq_of_lt hn

/-! ### What the steps do -/

theorem connecting_sent (xid z : BitVec 32) (n t : Nat) :
    (connectingAsk u c addr xid n .sending).step lossy parseIp (.udp u) c (.udp ⟨t, z, .sent⟩) =
      some (connectingAsk u c addr xid n (.waiting (t + 15 * 2 ^ n * second)), [.datagram addr (udpConnectRequest xid)]) := by
  simp [connectingAsk, Ask.step, UdpSession.step, onSent_waits, udpAnswer, udpDatagrams]

theorem connecting_timer (xid z : BitVec 32) (n t D : Nat) (hn : n < 8) (ht : D ≤ t) :
    (connectingAsk u c addr xid n (.waiting D)).step lossy parseIp (.udp u) c (.udp ⟨t, z, .timer⟩) =
      some (connectingAsk u c addr xid (n + 1) .sending, []) := by
  simp [connectingAsk, Ask.step, UdpSession.step, Chat.onTimeout, udpAnswer, udpDatagrams, hn, ht]

theorem connecting_packet (xid z : BitVec 32) (n t D cid : Nat) (bs : Bytes) (h : IsConnectResponse xid.toNat cid bs) :
    (connectingAsk u c addr xid n (.waiting D)).step lossy parseIp (.udp u) c (.udp ⟨t, z, .packet bs⟩) =
      some (announcingAsk u c addr z (BitVec.ofNat 64 cid) t 0 .sending, []) := by
  simp [connectingAsk, announcingAsk, Ask.step, UdpSession.step, connect_read lossy h, UdpSession.startAnnounce, Chat.start, udpAnswer, udpDatagrams]

theorem announcing_sent (xid z : BitVec 32) (cid : BitVec 64) (tc m t : Nat) :
    (announcingAsk u c addr xid cid tc m .sending).step lossy parseIp (.udp u) c (.udp ⟨t, z, .sent⟩) =
      some (announcingAsk u c addr xid cid tc m (.waiting (t + 15 * 2 ^ m * second)),
        [.datagram addr (udpAnnounceRequest cid xid (c.announcement .started) u.urldata)]) := by
  simp [announcingAsk, Ask.step, UdpSession.step, onSent_waits, udpAnswer, udpDatagrams]

theorem announcing_timer (xid z : BitVec 32) (cid : BitVec 64) (tc m t D : Nat) (hm : m < 8) (ht : D ≤ t) :
    (announcingAsk u c addr xid cid tc m (.waiting D)).step lossy parseIp (.udp u) c (.udp ⟨t, z, .timer⟩) =
      some (announcingAsk u c addr xid cid tc (m + 1) .sending, []) := by
  simp [announcingAsk, Ask.step, UdpSession.step, Chat.onTimeout, udpAnswer, udpDatagrams, hm, ht]

theorem announcing_packet (lossy : Bytes → Text) (xid z : BitVec 32) (cid : BitVec 64) (tc m t D i l n : Nat) (addrs : List SockAddr) (bs : Bytes)
    (h : IsAnnounceResponse addr.isV6 xid.toNat i l n addrs bs) :
    ∃ us ps, us.phase = .idle ∧ (announcingAsk u c addr xid cid tc m (.waiting D)).step lossy parseIp (.udp u) c (.udp ⟨t, z, .packet bs⟩) =
      some (⟨⟨.over, .spawned⟩, some (.udp addr us)⟩, [.spawnStop, .result (.ok ps)]) := by
  obtain ⟨r, hr⟩ := announce_read lossy h
  refine ⟨⟨addr.isV6, u.urldata, some ⟨cid, tc + 60 * second⟩, .idle⟩, r.peers, rfl, ?_⟩
  simp [announcingAsk, Ask.step, UdpSession.step, hr, udpAnswer, udpDatagrams, Ask.tell, Ask.answer, GetterState.step, InnerSession.perform,
    Except.mapError]

theorem asking_timeout (a : Ask) (h : a.getter = ⟨.starting, .absent⟩) :
    a.step lossy parseIp (.udp u) c .timeout = some (⟨⟨.over, .absent⟩, none⟩, [.result (.error .timeout)]) := by
  simp [Ask.step, GetterState.step, h]

theorem askResults_add (tr : AskTrace) (e : AskEvent) (out : List AskOutput) :
    askResults (tr ++ [(e, out)]) = askResults tr ++ out.filterMap askResultOf := askResults_snoc _ _ _

/-- Every state of a run is as the invariant says. -/
theorem lossy_inv (hd : d < 15 * second) (hl : limit ≤ 60 * second) {tr : AskTrace} {s : LossyState}
    (h : LossyRun lossy parseIp u c addr (Answers addr.isV6) t0 d limit tr s) : LossyInv u c addr t0 d limit tr s := by
  have pw : ∀ n, 15 * second ≤ 15 * 2 ^ n * second := fun n => Nat.mul_le_mul_right _ (by have : 1 ≤ 2 ^ n := Nat.one_le_two_pow; omega)
  induction h with
  | @begin xid x a out hx hs =>
    simp only [Ask.step, hx] at hs
    have : a = connectingAsk u c addr xid 0 .sending ∧ out = [] := by
      have hs' : some (connectingAsk u c addr xid 0 .sending, ([] : List AskOutput)) = some (a, out) := by rw [← hs]; rfl
      cases hs'; exact ⟨rfl, rfl⟩
    obtain ⟨rfl, rfl⟩ := this
    exact .connSend (n := 0) rfl rfl (Nat.zero_le _)
  | @lost tr s z a out req hrun hq hs ih =>
    cases ih with
    | connSend h1 h2 h3 =>
      rw [connecting_sent] at hs
      cases hs
      rw [Nat.add_assoc, ← waits_succ]
      exact .connLost (by rw [askResults_add, h1]; rfl) (by simp [h2]) h3
    | annSend h1 h2 h3 h4 h5 =>
      rw [announcing_sent] at hs
      cases hs
      rw [Nat.add_assoc, ← waits_succ]
      exact .annLost (by rw [askResults_add, h1]; rfl) (by simp [h2]) h3 h4 h5
    | done h1 h2 h3 => simp [Ask.sending, h3] at hq
    | _ => cases hq
  | @flies tr s z a out req bs τ hrun hq hs ha hτ1 hτ2 ih =>
    cases ih with
    | connSend h1 h2 h3 =>
      rw [connecting_sent] at hs
      cases hs
      cases hq
      simp only
      rw [Nat.add_assoc, ← waits_succ]
      exact .connFlies (by rw [askResults_add, h1]; rfl) (by simp [h2]) h3 hτ1 hτ2 (answers_connect ha)
    | annSend h1 h2 h3 h4 h5 =>
      rw [announcing_sent] at hs
      cases hs
      cases hq
      simp only
      rw [Nat.add_assoc, ← waits_succ]
      exact .annFlies (by rw [askResults_add, h1]; rfl) (by simp [h2]) h3 h4 h5 hτ1 hτ2 (answers_announce ha)
    | done h1 h2 h3 => simp [Ask.sending, h3] at hq
    | _ => cases hq
  | @arrives tr s f xid a out hrun hf hlim hp hs ih =>
    cases ih with
    | connFlies h1 h2 h3 h4 h5 h6 =>
      cases hf
      obtain ⟨cid, h6⟩ := h6
      rw [connecting_packet _ _ _ _ _ _ _ h6] at hs
      cases hs
      exact .annSend (m := 0) (by rw [askResults_add, h1]; rfl) (by simp [h2]) h4 h5 hlim
    | @annFlies xid0 cid tc n m f h1 h2 h3 h4 h5 h6 h7 h8 =>
      cases hf
      obtain ⟨i, l, k, addrs, h8⟩ := h8
      obtain ⟨us, ps, hus, he⟩ := announcing_packet lossy _ xid _ _ _ f.arrival _ _ _ _ _ _ h8
      rw [he] at hs
      cases hs
      exact .done (n := n) (m := m) (by rw [askResults_add, h1]; rfl) (by simp [h2]) hus (by omega) (by omega) hlim
    | _ => cases hf
  | @timer tr s τ xid a out hrun hq hτ1 hτ2 hτ3 hp hp' hs ih =>
    cases ih with
    | @connLost xid n h1 h2 h3 =>
      have hn := waits_few (Nat.le_trans h3 hl)
      have hp1 : τ ≤ t0 + waits (n + 1) := hp
      have hp2 : ¬ (τ + 1 ≤ t0 + waits (n + 1)) := hp'
      obtain rfl : τ = t0 + waits (n + 1) := by omega
      rw [connecting_timer _ _ _ _ _ (by omega) (Nat.le_refl _)] at hs
      cases hs
      exact .connSend (by rw [askResults_add, h1]; rfl) (by simp [h2]; omega) (by omega)
    | @connFlies xid n f h1 h2 h3 h4 h5 h6 =>
      have hp2 : ¬ (τ + 1 ≤ t0 + waits (n + 1)) := hp'
      have := hτ3 f rfl
      have := pw n
      rw [waits_succ] at hp2
      omega
    | @annLost xid cid tc n m h1 h2 h3 h4 h5 =>
      have hm := waits_few (n := m) (by omega)
      have hp1 : τ ≤ tc + 60 * second ∧ τ ≤ tc + waits (m + 1) := hp
      have hp2 : ¬ (τ + 1 ≤ tc + 60 * second ∧ τ + 1 ≤ tc + waits (m + 1)) := hp'
      obtain rfl : τ = tc + waits (m + 1) := by omega
      rw [announcing_timer _ _ _ _ _ _ _ (by omega) (Nat.le_refl _)] at hs
      cases hs
      exact .annSend (by rw [askResults_add, h1]; rfl) (by simp [h2]; omega) h3 h4 hτ2
    | @annFlies xid cid tc n m f h1 h2 h3 h4 h5 h6 h7 h8 =>
      have hp2 : ¬ (τ + 1 ≤ tc + 60 * second ∧ τ + 1 ≤ tc + waits (m + 1)) := hp'
      have := hτ3 f rfl
      have := pw m
      rw [waits_succ] at hp2
      omega
    | done h1 h2 h3 => simp [Ask.Prompt, UdpSession.Prompt, h3] at hp'
    | failed => exact absurd trivial hp'
    | _ => cases hq
  | @timeout tr s a out hrun hq hnow hf hp hs ih =>
    cases ih with
    | @connLost xid n h1 h2 h3 =>
      have hp1 : t0 + limit ≤ t0 + waits (n + 1) := hp
      rw [asking_timeout _ rfl] at hs
      cases hs
      exact .failed (n := n + 1) (m := 0) (by rw [askResults_add, h1]; rfl) (by simp [h2]; omega) (by omega) h3 (Nat.zero_le _)
    | @connFlies xid n f h1 h2 h3 h4 h5 h6 =>
      have := hf f rfl
      rw [asking_timeout _ rfl] at hs
      cases hs
      exact .failed (n := n) (m := 0) (by rw [askResults_add, h1]; rfl) (by simp [h2]) (by omega) (Nat.le_trans (waits_mono (by omega)) h3) (Nat.zero_le _)
    | @annLost xid cid tc n m h1 h2 h3 h4 h5 =>
      have hp1 : t0 + limit ≤ tc + 60 * second ∧ t0 + limit ≤ tc + waits (m + 1) := hp
      have := waits_mono (Nat.sub_le n 1)
      rw [asking_timeout _ rfl] at hs
      cases hs
      exact .failed (n := n) (m := m + 1) (by rw [askResults_add, h1]; rfl) (by simp [h2]; omega) (by omega) (by omega) (by simp; omega)
    | @annFlies xid cid tc n m f h1 h2 h3 h4 h5 h6 h7 h8 =>
      have := hf f rfl
      have := waits_mono (Nat.sub_le n 1)
      have := waits_mono (Nat.sub_le m 1)
      rw [asking_timeout _ rfl] at hs
      cases hs
      exact .failed (n := n) (m := m) (by rw [askResults_add, h1]; rfl) (by simp [h2]) (by omega) (by omega) (by omega)
    | done h1 h2 h3 => simp [Ask.step, GetterState.step] at hs
    | failed => simp [Ask.step, GetterState.step] at hs
    | _ => cases hq

/-! ### The theorems -/

/-- **C110.** These are runs of the program. -/
theorem lossy_run {answers : Bytes → Bytes → Prop} {tr : AskTrace} {s : LossyState}
    (h : LossyRun lossy parseIp u c addr answers t0 d limit tr s) : AskRun lossy parseIp (.udp u) c tr s.ask := by
  induction h with
  | begin hx hs => exact .step .init hs
  | lost _ _ hs ih =>
    have := AskRun.step ih hs
    unfold LossyState.lose
    split <;> exact this
  | flies _ _ hs _ _ _ ih => exact .step ih hs
  | arrives _ _ _ _ hs ih => exact .step ih hs
  | timer _ _ _ _ _ _ _ hs ih => exact .step ih hs
  | timeout _ _ _ _ _ hs ih => exact .step ih hs

/-- **C110.** As long as there is no result something can happen next. -/
theorem lossy_goes_on (hd : d < 15 * second) (hl : limit ≤ 60 * second) {tr : AskTrace} {s : LossyState}
    (h : LossyRun lossy parseIp u c addr (Answers addr.isV6) t0 d limit tr s) (hr : askResults tr = []) :
    ∃ x s', LossyRun lossy parseIp u c addr (Answers addr.isV6) t0 d limit (tr ++ [x]) s' := by
  have hi := lossy_inv hd hl h
  cases hi with
  | @connSend xid n h1 h2 h3 => exact ⟨_, _, .lost (z := 0) h rfl (connecting_sent _ _ _ _)⟩
  | @connLost xid n h1 h2 h3 =>
    have hn := waits_few (Nat.le_trans h3 hl)
    have hm := waits_mono (Nat.le_succ n)
    by_cases hc : waits (n + 1) ≤ limit
    · exact ⟨_, _, .timer (τ := t0 + waits (n + 1)) (xid := 0) h rfl (Nat.add_le_add_left hm _) (by omega) (fun _ h => by cases h)
        (Nat.le_refl (t0 + waits (n + 1))) (Nat.not_succ_le_self (t0 + waits (n + 1))) (connecting_timer _ _ _ _ _ (by omega) (Nat.le_refl _))⟩
    · exact ⟨_, _, .timeout h rfl (by simp only; omega) (fun _ h => by cases h)
        (show t0 + limit ≤ t0 + waits (n + 1) by omega) (asking_timeout _ rfl)⟩
  | @connFlies xid n f h1 h2 h3 h4 h5 h6 =>
    have hw : f.arrival ≤ t0 + waits (n + 1) := by
      rw [waits_succ]
      have : 15 * second ≤ 15 * 2 ^ n * second := Nat.mul_le_mul_right _ (by have : 1 ≤ 2 ^ n := Nat.one_le_two_pow; omega)
      omega
    by_cases hc : f.arrival ≤ t0 + limit
    · obtain ⟨cid, h6⟩ := h6
      exact ⟨_, _, .arrives (xid := 0) h rfl hc hw (connecting_packet _ _ _ _ _ _ _ h6)⟩
    · exact ⟨_, _, .timeout h rfl (by simp only; omega) (fun _ h => by cases h; omega)
        (show t0 + limit ≤ t0 + waits (n + 1) by omega) (asking_timeout _ rfl)⟩
  | @annSend xid cid tc n m h1 h2 h3 h4 h5 => exact ⟨_, _, .lost (z := 0) h rfl (announcing_sent _ _ _ _ _ _)⟩
  | @annLost xid cid tc n m h1 h2 h3 h4 h5 =>
    have hn := waits_few (n := m) (by omega)
    have hm := waits_mono (Nat.le_succ m)
    by_cases hc : tc + waits (m + 1) ≤ t0 + limit
    · exact ⟨_, _, .timer (τ := tc + waits (m + 1)) (xid := 0) h rfl (Nat.add_le_add_left hm _) hc (fun _ h => by cases h)
        (show tc + waits (m + 1) ≤ tc + 60 * second ∧ tc + waits (m + 1) ≤ tc + waits (m + 1) by omega)
        (show ¬ (tc + waits (m + 1) + 1 ≤ tc + 60 * second ∧ tc + waits (m + 1) + 1 ≤ tc + waits (m + 1)) by omega)
        (announcing_timer _ _ _ _ _ _ _ (by omega) (Nat.le_refl _))⟩
    · exact ⟨_, _, .timeout h rfl h5 (fun _ h => by cases h)
        (show t0 + limit ≤ tc + 60 * second ∧ t0 + limit ≤ tc + waits (m + 1) by omega) (asking_timeout _ rfl)⟩
  | @annFlies xid cid tc n m f h1 h2 h3 h4 h5 h6 h7 h8 =>
    have hw : f.arrival ≤ tc + waits (m + 1) := by
      rw [waits_succ]
      have : 15 * second ≤ 15 * 2 ^ m * second := Nat.mul_le_mul_right _ (by have : 1 ≤ 2 ^ m := Nat.one_le_two_pow; omega)
      omega
    by_cases hc : f.arrival ≤ t0 + limit
    · obtain ⟨i, l, k, addrs, h8⟩ := h8
      obtain ⟨us, ps, hus, he⟩ := announcing_packet (u := u) (c := c) (parseIp := parseIp) lossy xid 0 cid tc m f.arrival (tc + waits (m + 1)) _ _ _ _ _ h8
      exact ⟨_, _, .arrives (xid := 0) h rfl hc
        (show f.arrival ≤ tc + 60 * second ∧ f.arrival ≤ tc + waits (m + 1) by omega) he⟩
    · exact ⟨_, _, .timeout h rfl h5 (fun _ h => by cases h; omega)
        (show t0 + limit ≤ tc + 60 * second ∧ t0 + limit ≤ tc + waits (m + 1) by omega) (asking_timeout _ rfl)⟩
  | done h1 => rw [hr] at h1; cases h1
  | failed h1 => rw [hr] at h1; cases h1

/-- **C110.** But not for ever: each request is sent at most three times. -/
theorem lossy_ends (hd : d < 15 * second) (hl : limit ≤ 60 * second) {tr : AskTrace} {s : LossyState}
    (h : LossyRun lossy parseIp u c addr (Answers addr.isV6) t0 d limit tr s) :
    s.lostBefore ≤ 3 ∧ s.lostAfter ≤ 3 ∧ tr.length ≤ 17 ∧ s.now ≤ t0 + limit := by
  have hi := lossy_inv hd hl h
  cases hi with
  | @connSend xid n h1 h2 h3 => have := waits_few (n := n) (by omega); simp only; omega
  | @connLost xid n h1 h2 h3 => have := waits_few (n := n) (by omega); simp only; omega
  | @connFlies xid n f h1 h2 h3 h4 h5 h6 => have := waits_few (n := n) (by omega); simp only; omega
  | @annSend xid cid tc n m h1 h2 h3 h4 h5 =>
    have := waits_few (n := n) (by omega); have := waits_few (n := m) (by omega); simp only; omega
  | @annLost xid cid tc n m h1 h2 h3 h4 h5 =>
    have := waits_few (n := n) (by omega); have := waits_few (n := m) (by omega); simp only; omega
  | @annFlies xid cid tc n m f h1 h2 h3 h4 h5 h6 h7 h8 =>
    have := waits_few (n := n) (by omega); have := waits_few (n := m) (by omega); simp only; omega
  | @done us ps n m now h1 h2 h3 h4 h5 h6 =>
    have := waits_few (n := n) (by omega); have := waits_few (n := m) (by omega); simp only; omega
  | @failed n m b h1 h2 h3 h4 h5 =>
    have := waits_few (n := n - 1) (by omega); have := waits_few (n := m - 1) (by omega); simp only; omega

/-- **C110.** What lost datagrams cost: if peers are returned, it is after the waits for the datagrams lost and the delays of the two answers.
If the tracker fails, then because the time is up before that, and the error says so. -/
theorem lossy_result (hd : d < 15 * second) (hl : limit ≤ 60 * second) {tr : AskTrace} {s : LossyState}
    (h : LossyRun lossy parseIp u c addr (Answers addr.isV6) t0 d limit tr s) (hr : askResults tr ≠ []) :
    (∃ ps, askResults tr = [.ok ps] ∧ t0 + waits s.lostBefore + waits s.lostAfter < s.now ∧
      s.now ≤ t0 + waits s.lostBefore + waits s.lostAfter + 2 * d ∧ s.now ≤ t0 + limit) ∨
    (askResults tr = [.error .timeout] ∧ s.now = t0 + limit ∧ limit ≤ waits s.lostBefore + waits s.lostAfter + 2 * d) := by
  have hi := lossy_inv hd hl h
  cases hi with
  | done h1 h2 h3 h4 h5 h6 => exact .inl ⟨_, h1, h4, h5, h6⟩
  | failed h1 h2 h3 h4 h5 => exact .inr ⟨h1, rfl, h3⟩
  | _ h1 => exact absurd (by assumption) hr

/-- **C110.** One lost datagram loses no tracker: with the time limit of the default configuration, 30 seconds, if the tracker answers within 7 seconds and at most one datagram is
lost, its peers are returned within 29 seconds. -/
theorem one_lost {tr : AskTrace} {s : LossyState}
    (h : LossyRun lossy parseIp u c addr (Answers addr.isV6) t0 (7 * second) (TrackersConfig.dflt.announceTimeout * second) tr s) (h1 : s.lostBefore + s.lostAfter ≤ 1)
    (hr : askResults tr ≠ []) : ∃ ps, askResults tr = [.ok ps] ∧ s.now ≤ t0 + 29 * second := by
  have hw : waits s.lostBefore + waits s.lostAfter ≤ 15 * second := by
    have w1 : waits 1 = 15 * second := by decide
    rcases (by omega : (s.lostBefore = 0 ∧ s.lostAfter = 0) ∨ (s.lostBefore = 1 ∧ s.lostAfter = 0) ∨ (s.lostBefore = 0 ∧ s.lostAfter = 1)) with
      ⟨e1, e2⟩ | ⟨e1, e2⟩ | ⟨e1, e2⟩ <;> rw [e1, e2] <;> simp [waits_zero, w1]
  rcases lossy_result (by simp [second]) (by simp [second, TrackersConfig.dflt]) h hr with ⟨ps, h1, h2, h3, h4⟩ | ⟨h1, h2, h3⟩
  · clear h4 h
    exact ⟨ps, h1, by simp only [second] at *; omega⟩
  · simp only [second, TrackersConfig.dflt] at *; omega

/-- **C110.** Two lost datagrams do: then, however fast the tracker is, no peers are returned within the default time limit. -/
theorem two_lost (hd : d < 15 * second) {tr : AskTrace} {s : LossyState}
    (h : LossyRun lossy parseIp u c addr (Answers addr.isV6) t0 d (TrackersConfig.dflt.announceTimeout * second) tr s) (h1 : 2 ≤ s.lostBefore + s.lostAfter)
    (hr : askResults tr ≠ []) : askResults tr = [.error .timeout] := by
  have hw : 30 * second ≤ waits s.lostBefore + waits s.lostAfter := by
    have w1 : waits 1 = 15 * second := by decide
    have w2 : waits 2 = 45 * second := by decide
    rcases (by omega : 2 ≤ s.lostBefore ∨ 2 ≤ s.lostAfter ∨ (1 ≤ s.lostBefore ∧ 1 ≤ s.lostAfter)) with e | e | ⟨e1, e2⟩
    · have := waits_mono e; omega
    · have := waits_mono e; omega
    · have := waits_mono e1; have := waits_mono e2; omega
  rcases lossy_result hd (by simp [second, TrackersConfig.dflt]) h hr with ⟨ps, h1, h2, h3, h4⟩ | ⟨h1, h2, h3⟩
  · simp only [TrackersConfig.dflt] at h4; omega
  · exact h1

theorem announce_stray (lossy : Bytes → Text) {v6 : Bool} {bs : Bytes} (h : At bs 0 4 0) :
    udpResponse lossy (udpAnnounceResponse v6) bs = .error (.badAction 1 0) := by
  have h0 : tryGet (BitVec 32) bs = .ok (0, bs.drop 4) := (get32_at0 _ _).2 ⟨h, rfl⟩
  simp [udpResponse, h0, errorAction, udpAnnounceResponse, bind, Except.bind, Except.mapError, announceAction, throw, throwThe, MonadExceptOf.throw]

theorem announcing_stray (xid z : BitVec 32) (cid : BitVec 64) (tc m t D : Nat) (bs : Bytes) (h : At bs 0 4 0) :
    (announcingAsk u c addr xid cid tc m (.waiting D)).step lossy parseIp (.udp u) c (.udp ⟨t, z, .packet bs⟩) =
      some (⟨⟨.over, .absent⟩, none⟩, [.result (.error (.inner (.udp (.badAction 1 0))))]) := by
  simp [announcingAsk, Ask.step, UdpSession.step, announce_stray lossy h, udpAnswer, udpDatagrams, Ask.tell, Ask.answer, GetterState.step,
    InnerSession.perform, Except.mapError]

/-- **C110.** A datagram that comes twice loses the tracker, too: if the answer to the request for a connection is delivered again while the answer to
the announcement is awaited, then it is taken for that one, and asking fails. -/
theorem duplicate_fatal (u : UdpUrl) (c : GetterCtx) (x : SocketChances) (hx : udpConnect x = .ok addr) (t0 t1 t2 t3 t4 cid : Nat)
    (xid1 xid2 z1 z2 z3 : BitVec 32) (bs : Bytes) (h : IsConnectResponse xid1.toNat cid bs) :
    ∃ tr s, AskRun lossy parseIp (.udp u) c tr s ∧
      tr.map Prod.fst = [.socket t0 xid1 x, .udp ⟨t1, z1, .sent⟩, .udp ⟨t2, xid2, .packet bs⟩, .udp ⟨t3, z2, .sent⟩, .udp ⟨t4, z3, .packet bs⟩] ∧
      askResults tr = [.error (.inner (.udp (.badAction 1 0)))] := by
  have r1 : AskRun lossy parseIp (.udp u) c [(.socket t0 xid1 x, [])] (connectingAsk u c addr xid1 0 .sending) :=
    .step .init (by simp only [Ask.step, hx]; rfl)
  have r5 := (((r1.step (connecting_sent xid1 z1 0 t1)).step (connecting_packet xid1 xid2 0 t2 _ cid bs h)).step
    (announcing_sent xid2 z2 _ t2 0 t3)).step (announcing_stray xid2 z3 _ t2 0 t4 _ bs h.1)
  exact ⟨_, _, r5, rfl, rfl⟩

/-- **C110.** So a delay of more than 15 seconds is fatal even if nothing is lost and there is time: both copies of the request for a connection are
answered after 16 seconds, and the second answer arrives before the announcement, sent at 16 seconds, can have been answered. -/
theorem slow_fatal (u : UdpUrl) (c : GetterCtx) (x : SocketChances) (hx : udpConnect x = .ok addr) (cid : Nat) (xid1 xid2 z : BitVec 32) (bs : Bytes)
    (h : IsConnectResponse xid1.toNat cid bs) :
    ∃ tr s, AskRun lossy parseIp (.udp u) c tr s ∧
      tr.map Prod.fst = [.socket 0 xid1 x, .udp ⟨0, z, .sent⟩, .udp ⟨15 * second, z, .timer⟩, .udp ⟨15 * second, z, .sent⟩,
        .udp ⟨16 * second, xid2, .packet bs⟩, .udp ⟨16 * second, z, .sent⟩, .udp ⟨31 * second, z, .packet bs⟩] ∧
      datagrams tr = [(addr, udpConnectRequest xid1), (addr, udpConnectRequest xid1),
        (addr, udpAnnounceRequest (BitVec.ofNat 64 cid) xid2 (c.announcement .started) u.urldata)] ∧
      askResults tr = [.error (.inner (.udp (.badAction 1 0)))] := by
  have r1 : AskRun lossy parseIp (.udp u) c [(.socket 0 xid1 x, [])] (connectingAsk u c addr xid1 0 .sending) :=
    .step .init (by simp only [Ask.step, hx]; rfl)
  have r2 := (r1.step (connecting_sent xid1 z 0 0)).step (connecting_timer xid1 z 0 (15 * second) _ (by decide) (by decide))
  have r3 := (r2.step (connecting_sent xid1 z 1 (15 * second))).step (connecting_packet xid1 xid2 1 (16 * second) _ cid bs h)
  have r4 := (r3.step (announcing_sent xid2 z _ (16 * second) 0 (16 * second))).step (announcing_stray xid2 z _ (16 * second) 0 (31 * second) _ bs h.1)
  exact ⟨_, _, r4, rfl, rfl, rfl⟩

/-! ### Cases -/

/-- A tracker, for examples. -/
def lossyUrl : UdpUrl := ⟨"tracker.example".toList, 6969, []⟩

/-- Its address. -/
def lossyAddr : SockAddr := .v4 ⟨⟨0x0A000001#32⟩, 6969⟩

/-- The first datagram of the connect request is lost; 15 seconds later it is sent again. -/
theorem lossy_example_first (d : Nat) : ∃ tr s, LossyRun (fun _ => []) (fun _ => none) lossyUrl sampleGetter lossyAddr (Answers false) 0 d (30 * second)
      tr s ∧ askResults tr = [] ∧ s = ⟨connectingAsk lossyUrl sampleGetter lossyAddr 17 1 .sending, 15 * second, none, false, 1, 0⟩ := by
  have r1 := LossyRun.begin (lossy := fun _ => []) (parseIp := fun _ => none) (u := lossyUrl) (c := sampleGetter) (addr := lossyAddr)
    (answers := Answers false) (t0 := 0) (d := d) (limit := 30 * second) (xid := 17) (x := ⟨some [lossyAddr], fun _ => true, fun _ => true⟩)
    (a := connectingAsk lossyUrl sampleGetter lossyAddr 17 0 .sending) (out := []) rfl rfl
  have r2 := r1.lost (z := 0) rfl (connecting_sent _ _ _ _)
  have r3 := r2.timer (τ := 15 * second) (xid := 0) rfl (by decide) (by decide) (fun _ h => by cases h)
    (show 15 * second ≤ 0 + 15 * 2 ^ 0 * second by decide) (show ¬ (15 * second + 1 ≤ 0 + 15 * 2 ^ 0 * second) by decide)
    (connecting_timer _ _ _ _ _ (by decide) (by decide))
  exact ⟨_, _, r3, rfl, rfl⟩

-- The hypotheses of `one_lost` can be met: the second one is answered after 2 seconds, and so is the announcement
example : ∃ tr s, LossyRun (fun _ => []) (fun _ => none) lossyUrl sampleGetter lossyAddr (Answers lossyAddr.isV6) 0 (7 * second) (TrackersConfig.dflt.announceTimeout * second) tr s ∧
    s.lostBefore + s.lostAfter ≤ 1 ∧ askResults tr ≠ [] ∧ s.now = 19 * second := by
  obtain ⟨tr, s, h, h0, rfl⟩ := lossy_example_first (7 * second)
  have hc : IsConnectResponse (17#32).toNat 0xAB [0, 0, 0, 0, 0, 0, 0, 17, 0, 0, 0, 0, 0, 0, 0, 0xAB] := by
    unfold IsConnectResponse At Field; decide +kernel
  have ha : IsAnnounceResponse lossyAddr.isV6 (18#32).toNat 0x708 1 2 [] [0, 0, 0, 1, 0, 0, 0, 18, 0, 0, 7, 8, 0, 0, 0, 1, 0, 0, 0, 2] :=
    ⟨by unfold At Field; decide +kernel, by unfold At Field; decide +kernel, by unfold At Field; decide +kernel, by unfold At Field; decide +kernel,
      by unfold At Field; decide +kernel, rfl, by simp⟩
  have r4 := h.flies (z := 0) (τ := 17 * second) rfl (connecting_sent _ _ _ _)
    ⟨_, (udpConnectRequest_spec 17).2.2.2, .inl ⟨(udpConnectRequest_spec 17).2.2.1, _, hc⟩⟩ (by decide) (by decide)
  have r5 := r4.arrives (xid := 18) rfl (by decide) (show 17 * second ≤ 15 * second + 15 * 2 ^ 1 * second by decide) (connecting_packet _ _ _ _ _ _ _ hc)
  have hq := udpAnnounceRequest_spec (BitVec.ofNat 64 0xAB) 18 (sampleGetter.announcement .started) lossyUrl.urldata
  have r6 := r5.flies (z := 0) (τ := 19 * second) rfl (announcing_sent _ _ _ _ _ _)
    ⟨_, hq.transactionId, .inr ⟨hq.action, _, _, _, _, ha⟩⟩ (by decide) (by decide)
  obtain ⟨us, ps, hus, he⟩ := announcing_packet (u := lossyUrl) (c := sampleGetter) (parseIp := fun _ => none) (fun _ => []) 18 0 (BitVec.ofNat 64 0xAB)
    (17 * second) 0 (19 * second) (17 * second + 15 * 2 ^ 0 * second) _ _ _ _ _ ha
  have r7 := r6.arrives (xid := 0) rfl (by decide)
    (show 19 * second ≤ 17 * second + 60 * second ∧ 19 * second ≤ 17 * second + 15 * 2 ^ 0 * second by decide) he
  refine ⟨_, _, r7, Nat.le_refl 1, ?_, rfl⟩
  rw [askResults_add]
  simp [askResultOf, List.filterMap_cons]

-- And those of `two_lost`: the second one is lost as well
example : ∃ tr s, LossyRun (fun _ => []) (fun _ => none) lossyUrl sampleGetter lossyAddr (Answers lossyAddr.isV6) 0 (7 * second) (TrackersConfig.dflt.announceTimeout * second) tr s ∧
    2 ≤ s.lostBefore + s.lostAfter ∧ askResults tr = [.error .timeout] := by
  obtain ⟨tr, s, h, h0, rfl⟩ := lossy_example_first (7 * second)
  have r4 := h.lost (z := 0) rfl (connecting_sent _ _ _ _)
  have r5 := r4.timeout rfl (by decide) (fun _ h => by cases h) (show 0 + 30 * second ≤ 15 * second + 15 * 2 ^ 1 * second by decide) (asking_timeout _ rfl)
  refine ⟨_, _, r5, by decide, ?_⟩
  rw [askResults_add, askResults_add, h0]
  rfl

-- And those of `duplicate_fatal` and `slow_fatal`
example : udpConnect ⟨some [lossyAddr], fun _ => true, fun _ => true⟩ = .ok lossyAddr ∧
    IsConnectResponse (17#32).toNat 0xAB [0, 0, 0, 0, 0, 0, 0, 17, 0, 0, 0, 0, 0, 0, 0, 0xAB] :=
  ⟨rfl, by unfold IsConnectResponse At Field; decide +kernel⟩

end Demag.Props
