import Verif.Spec.UdpTraffic
import Verif.Props.UdpSession

/-!
# C83: how much is sent to a UDP tracker
-/

namespace Demag

open Spec Props

/-- The packets that are still to be sent without a timer or a call. -/
def UdpPhase.due : UdpPhase → Nat
  | .idle => 0
  | .connecting _ _ chat => match chat.wait with
    | .sending => 2
    | .waiting _ => 1
  | .announcing _ _ _ chat => match chat.wait with
    | .sending => 1
    | .waiting _ => 0

/-- The deadline of the chat. -/
def UdpPhase.deadline : UdpPhase → Option Nat
  | .idle => none
  | .connecting _ _ chat => match chat.wait with
    | .sending => none
    | .waiting d => some d
  | .announcing _ _ _ chat => match chat.wait with
    | .sending => none
    | .waiting d => some d

/-- The invariant: `k` waits for an answer and `r` connections have run out since `t0`; it is `now`. -/
structure UdpFew (t0 now : Nat) (tr : UdpTrace) (s : UdpSession) (k r : Nat) : Prop where
  sent : (udpSent tr).length + s.phase.due ≤ 2 * udpCalls tr + k + 2 * r
  waits : t0 + 15 * second * k ≤ now
  wait : ∀ d, s.phase.deadline = some d → t0 + 15 * second * (k + 1) ≤ d
  resets : t0 + 60 * second * r ≤ now
  conn : ∀ c, s.conn = some c → t0 + 60 * second * (r + 1) ≤ c.expiration
  used : ∀ a x c chat, s.phase = .announcing a x c chat → s.conn = some c

theorem udpSent_snoc (tr : UdpTrace) (e : UdpEvent) (out : List UdpOutput) :
    udpSent (tr ++ [(e, out)]) = udpSent tr ++ out.filterMap sentPacket := by
  simp [udpSent, List.flatMap_append]

theorem udpCalls_snoc (tr : UdpTrace) (e : UdpEvent) (out : List UdpOutput) :
    udpCalls (tr ++ [(e, out)]) = udpCalls tr + if isCall e.input then 1 else 0 := by
  simp only [udpCalls, List.filter_append, List.length_append, List.filter_cons, List.filter_nil]
  split <;> rfl

theorem UdpFew.later {t0 now now' : Nat} {tr : UdpTrace} {s : UdpSession} {k r : Nat} (h : UdpFew t0 now tr s k r)
    (hn : now ≤ now') : UdpFew t0 now' tr s k r :=
  ⟨h.sent, Nat.le_trans h.waits hn, h.wait, Nat.le_trans h.resets hn, h.conn, h.used⟩

theorem onSent_deadline (c : Chat) (now : Nat) : ∃ d, (c.onSent now).wait = .waiting d ∧ now + 15 * second ≤ d := by
  refine ⟨_, rfl, ?_⟩
  rw [Nat.shiftLeft_eq]
  have : 1 ≤ 2 ^ c.n := Nat.one_le_two_pow
  have h2 : 15 * second ≤ 15 * 2 ^ c.n * second := Nat.mul_le_mul_right _ (by omega)
  omega

/-- One step preserves the invariant. -/
theorem UdpFew.step {t0 : Nat} {tr : UdpTrace} {s : UdpSession} {k r : Nat} (lossy : Bytes → Text) (e : UdpEvent)
    (h : UdpFew t0 e.time tr s k r) (hal : s.Allows e) :
    ∃ k' r', UdpFew t0 e.time (tr ++ [(e, (s.step lossy e).2)]) (s.step lossy e).1 k' r' := by
  obtain ⟨hs, hw, hd, hr, hc, hu⟩ := h
  obtain ⟨sip, surl, conn, phase⟩ := s
  simp only [UdpSession.Allows] at hal
  obtain ⟨now, xid', input⟩ := e
  simp only at hs hw hd hr hc hu hal
  have hm : 15 * second * (k + 1) = 15 * second * k + 15 * second := Nat.mul_succ _ _
  have hm2 : 60 * second * (r + 1) = 60 * second * r + 60 * second := Nat.mul_succ _ _
  -- the session is idle afterwards
  have idle : ∀ (inp : UdpInput) out, out.filterMap sentPacket = [] →
      ∃ k' r', UdpFew t0 now (tr ++ [((⟨now, xid', inp⟩ : UdpEvent), out)]) ⟨sip, surl, conn, .idle⟩ k' r' := by
    intro inp out ho
    refine ⟨k, r, ?_, hw, by (intro d h; cases h), hr, hc, by (intro a x c chat h; cases h)⟩
    rw [udpSent_snoc, udpCalls_snoc, ho, List.append_nil]
    show _ + 0 ≤ _
    omega
  -- nothing happens
  have stay : ∀ inp : UdpInput,
      ∃ k' r', UdpFew t0 now (tr ++ [((⟨now, xid', inp⟩ : UdpEvent), [])]) ⟨sip, surl, conn, phase⟩ k' r' := by
    intro inp
    refine ⟨k, r, ?_, hw, hd, hr, hc, hu⟩
    rw [udpSent_snoc, udpCalls_snoc]
    simp only [List.filterMap_nil, List.append_nil]
    omega
  cases phase with
  | idle =>
    cases input with
    | call a =>
      have con : ∃ k' r', UdpFew t0 now (tr ++ [((⟨now, xid', .call a⟩ : UdpEvent),
          ((⟨sip, surl, conn, .idle⟩ : UdpSession).startConnect a xid').2)])
          ((⟨sip, surl, conn, .idle⟩ : UdpSession).startConnect a xid').1 k' r' := by
        refine ⟨k, r, ?_, hw, by (intro d h; cases h), hr, hc, by (intro a x c chat h; cases h)⟩
        rw [udpSent_snoc, udpCalls_snoc]
        simp only [UdpSession.startConnect, Chat.start, UdpPhase.due, sentPacket, List.filterMap_cons, List.filterMap_nil,
          List.append_nil, isCall, if_true] at hs ⊢
        omega
      cases hcn : conn with
      | none => subst hcn; exact con
      | some c =>
        subst hcn
        by_cases ht : now < c.expiration
        · simp only [UdpSession.step, if_pos ht]
          refine ⟨k, r, ?_, hw, by (intro d h; cases h), hr, hc, by (intro a x c' chat h; cases h; rfl)⟩
          rw [udpSent_snoc, udpCalls_snoc]
          simp only [UdpSession.startAnnounce, Chat.start, UdpPhase.due, sentPacket, List.filterMap_cons, List.filterMap_nil,
            List.append_nil, isCall, if_true] at hs ⊢
          omega
        · simp only [UdpSession.step, if_neg ht]
          exact con
    | _ => simp only [UdpSession.step]; exact stay _
  | connecting a xid chat =>
    cases hwt : chat.wait with
    | sending =>
      cases input with
      | sent =>
        simp only [UdpSession.step, hwt]
        obtain ⟨d, h1, h2⟩ := onSent_deadline chat now
        refine ⟨k, r, ?_, hw, ?_, hr, hc, by (intro a x c chat h; cases h)⟩
        · rw [udpSent_snoc, udpCalls_snoc]
          simp only [UdpPhase.due, hwt] at hs
          simp only [UdpPhase.due, h1, sentPacket, List.filterMap_cons, List.filterMap_nil, List.length_append,
            List.length_cons, List.length_nil]
          omega
        · intro d' h
          simp only [UdpPhase.deadline, h1, Option.some.injEq] at h
          omega
      | sendFailed => simp only [UdpSession.step, hwt]; exact idle _ _ rfl
      | call b => exact absurd (hal b rfl) (by simp)
      | _ => simp only [UdpSession.step, hwt]; exact stay _
    | waiting d =>
      have hd' := hd d (by simp [UdpPhase.deadline, hwt])
      cases input with
      | timer =>
        by_cases hdt : d ≤ now
        · simp only [UdpSession.step, hwt, if_pos hdt]
          refine ⟨k + 1, r, ?_, by omega, by (intro d h; cases h), hr, hc, by (intro a x c chat h; cases h)⟩
          rw [udpSent_snoc, udpCalls_snoc]
          simp only [UdpPhase.due, hwt] at hs
          simp only [UdpPhase.due, Chat.onTimeout, List.filterMap_nil, List.append_nil]
          omega
        · simp only [UdpSession.step, hwt, if_neg hdt]; exact stay _
      | recvFailed => simp only [UdpSession.step, hwt]; exact idle _ _ rfl
      | packet bs =>
        simp only [UdpSession.step, hwt]
        cases udpResponse lossy udpConnectResponse bs with
        | error err => exact idle _ _ rfl
        | ok x =>
          simp only
          split
          · exact idle _ _ rfl
          · refine ⟨k, r, ?_, hw, by (intro d h; cases h), hr, ?_, by (intro a x c chat h; cases h; rfl)⟩
            · rw [udpSent_snoc, udpCalls_snoc]
              simp only [UdpPhase.due, hwt] at hs
              simp only [UdpSession.startAnnounce, Chat.start, UdpPhase.due, sentPacket, List.filterMap_cons,
                List.filterMap_nil, List.append_nil]
              omega
            · intro c h
              cases h
              simp only
              omega
      | call b => exact absurd (hal b rfl) (by simp)
      | _ => simp only [UdpSession.step, hwt]; exact stay _
  | announcing a xid c chat =>
    have hcc : conn = some c := hu a xid c chat rfl
    have hexp := hc c hcc
    have reset : c.expiration ≤ now → ∃ k' r', UdpFew t0 now (tr ++ [((⟨now, xid', .timer⟩ : UdpEvent),
        ((⟨sip, surl, none, .announcing a xid c chat⟩ : UdpSession).startConnect a xid').2)])
        ((⟨sip, surl, none, .announcing a xid c chat⟩ : UdpSession).startConnect a xid').1 k' r' := by
      intro hx
      refine ⟨k, r + 1, ?_, hw, by (intro d h; cases h), by omega, by (intro c h; cases h),
        by (intro a x c chat h; cases h)⟩
      rw [udpSent_snoc, udpCalls_snoc]
      simp only [UdpSession.startConnect, Chat.start, UdpPhase.due, sentPacket, List.filterMap_cons, List.filterMap_nil,
        List.append_nil]
      omega
    cases hwt : chat.wait with
    | sending =>
      cases input with
      | sent =>
        simp only [UdpSession.step, hwt]
        obtain ⟨d, h1, h2⟩ := onSent_deadline chat now
        refine ⟨k, r, ?_, hw, ?_, hr, hc, by (intro a x c chat h; cases h; exact hcc)⟩
        · rw [udpSent_snoc, udpCalls_snoc]
          simp only [UdpPhase.due, hwt] at hs
          simp only [UdpPhase.due, h1, sentPacket, List.filterMap_cons, List.filterMap_nil, List.length_append,
            List.length_cons, List.length_nil]
          omega
        · intro d' h
          simp only [UdpPhase.deadline, h1, Option.some.injEq] at h
          omega
      | sendFailed => simp only [UdpSession.step, hwt]; exact idle _ _ rfl
      | timer =>
        by_cases hx : c.expiration ≤ now
        · simp only [UdpSession.step, hwt, if_pos hx]; exact reset hx
        · simp only [UdpSession.step, hwt, if_neg hx]; exact stay _
      | call b => exact absurd (hal b rfl) (by simp)
      | _ => simp only [UdpSession.step, hwt]; exact stay _
    | waiting d =>
      have hd' := hd d (by simp [UdpPhase.deadline, hwt])
      cases input with
      | timer =>
        by_cases hdt : d ≤ now
        · simp only [UdpSession.step, hwt, if_pos hdt]
          refine ⟨k + 1, r, ?_, by omega, by (intro d h; cases h), hr, hc, by (intro a x c chat h; cases h; exact hcc)⟩
          rw [udpSent_snoc, udpCalls_snoc]
          simp only [UdpPhase.due, hwt] at hs
          simp only [UdpPhase.due, Chat.onTimeout, List.filterMap_nil, List.append_nil]
          omega
        · by_cases hx : c.expiration ≤ now
          · simp only [UdpSession.step, hwt, if_neg hdt, if_pos hx]; exact reset hx
          · simp only [UdpSession.step, hwt, if_neg hdt, if_neg hx]; exact stay _
      | recvFailed => simp only [UdpSession.step, hwt]; exact idle _ _ rfl
      | packet bs =>
        simp only [UdpSession.step, hwt]
        cases udpResponse lossy (udpAnnounceResponse sip) bs with
        | error err => exact idle _ _ rfl
        | ok x =>
          simp only
          split <;> exact idle _ _ rfl
      | call b => exact absurd (hal b rfl) (by simp)
      | _ => simp only [UdpSession.step, hwt]; exact stay _

theorem UdpRun.few {lossy : Bytes → Text} {ipv6 : Bool} {urldata : Text} {tr : UdpTrace} {s : UdpSession}
    (h : UdpRun lossy ipv6 urldata tr s) (hch : Chronological tr) {t0 now : Nat} (h0 : t0 ≤ now)
    (ht : ∀ x ∈ tr, t0 ≤ x.1.time ∧ x.1.time ≤ now) : ∃ k r, UdpFew t0 now tr s k r := by
  induction h generalizing now with
  | nil =>
    exact ⟨0, 0, Nat.le_refl _, by simpa using h0, by (intro d h; cases h), by simpa using h0, by (intro c h; cases h),
      by (intro a x c chat h; cases h)⟩
  | @snoc tr s e h hal ih =>
    unfold Chronological at hch
    rw [List.pairwise_append] at hch
    have he := ht (e, (s.step lossy e).2) (by simp)
    obtain ⟨k, r, hf⟩ := ih hch.1 he.1 fun x hx => ⟨(ht x (by simp [hx])).1, hch.2.2 x hx _ (by simp)⟩
    obtain ⟨k', r', hf'⟩ := hf.step lossy e hal
    exact ⟨k', r', hf'.later he.2⟩

theorem putUrlData_length (u : Bytes) : (putUrlData u).length = optionsLength u.length := by
  fun_induction putUrlData u with
  | case1 => rfl
  | case2 c cs k ih =>
    have hk : k = min (cs.length + 1) 255 := rfl
    have e : (putU8 2 ++ putU8 (BitVec.ofNat 8 k) ++ List.take k (c :: cs) ++ putUrlData (List.drop k (c :: cs))).length =
        optionsLength (cs.length + 1) := by
      simp only [List.length_append, ih, List.length_take, List.length_drop, optionsLength, putU8_length, List.length_cons]
      omega
    exact e

end Demag

namespace Demag.Props

open Spec

/-- C83: every packet sent to a tracker is a connect request of 16 bytes or an announce request of 98 bytes and the URL
options. -/
theorem udp_packet_size {lossy : Bytes → Text} {ipv6 : Bool} {urldata : Text} {tr : UdpTrace} {s : UdpSession}
    (h : UdpRun lossy ipv6 urldata tr s) (pkt : List UInt8) (hp : pkt ∈ udpSent tr) :
    pkt.length = 16 ∨ pkt.length = 98 + optionsLength (utf8 urldata).length := by
  simp only [udpSent, List.mem_filterMap, List.mem_flatMap] at hp
  obtain ⟨o, ⟨x, hx, ho⟩, hs⟩ := hp
  obtain ⟨pre, post, rfl⟩ := List.append_of_mem hx
  obtain ⟨e, out⟩ := x
  obtain ⟨s1, h1, hal, rfl⟩ := h.split rfl
  have : o = .transmit pkt := by cases o <;> simp_all [sentPacket]
  subst this
  have inv := h1.inv
  rcases step_transmit ho with ⟨a, xid, chat, hph, -, rfl⟩ | ⟨a, xid, c, chat, hph, -, rfl⟩
  · rw [(inv.connecting a xid chat hph).2.1]
    exact .inl (udpConnectRequest_spec xid).1
  · rw [(inv.announcing a xid c chat hph).2.1]
    refine .inr ?_
    simp only [udpAnnounceRequest, List.length_append, putUrlData_length, a.infoHash.len, a.peerId.len, putU64_length,
      putU32_length, putU16_length]

/-- C83: however the tracker answers, and whatever it answers, the packets sent to it within a time are at most two for
each announcement, one for each 15 seconds and two for each minute. -/
theorem udp_traffic {lossy : Bytes → Text} {ipv6 : Bool} {urldata : Text} {tr : UdpTrace} {s : UdpSession}
    (h : UdpRun lossy ipv6 urldata tr s) (hch : Chronological tr) (t0 T : Nat)
    (ht : ∀ x ∈ tr, t0 ≤ x.1.time ∧ x.1.time ≤ t0 + T) :
    (udpSent tr).length ≤ 2 * udpCalls tr + T / (15 * second) + 2 * (T / (60 * second)) := by
  obtain ⟨k, r, hf⟩ := h.few hch (Nat.le_add_right t0 T) ht
  have hk : k ≤ T / (15 * second) := by
    rw [Nat.le_div_iff_mul_le (by decide), Nat.mul_comm]
    have := hf.waits
    omega
  have hr : r ≤ T / (60 * second) := by
    rw [Nat.le_div_iff_mul_le (by decide), Nat.mul_comm]
    have := hf.resets
    omega
  have := hf.sent
  omega

/-- C83: in less than a minute (the whole of an announcement takes 30 seconds at most unless configured otherwise) the
packets are at most two for each announcement and one for each 15 seconds. -/
theorem udp_traffic_short {lossy : Bytes → Text} {ipv6 : Bool} {urldata : Text} {tr : UdpTrace} {s : UdpSession}
    (h : UdpRun lossy ipv6 urldata tr s) (hch : Chronological tr) (t0 T : Nat) (hT : T < 60 * second)
    (ht : ∀ x ∈ tr, t0 ≤ x.1.time ∧ x.1.time ≤ t0 + T) :
    (udpSent tr).length ≤ 2 * udpCalls tr + T / (15 * second) := by
  have := udp_traffic h hch t0 T ht
  rw [Nat.div_eq_of_lt hT] at this
  exact this

/-- Announcing anew after a wait of 15 seconds for the answer. -/
def sampleRetry : List UdpEvent := sampleEvents ++ [⟨16 * second, 0, .timer⟩, ⟨16 * second, 0, .sent⟩, { sampleReply with time := 17 * second }]

/-- The bounds are met exactly: three packets, for one announcement and 17 seconds. -/
example : ∃ tr s, UdpRun (fun _ => []) false "/a".toList tr s ∧ Chronological tr ∧
    (∀ x ∈ tr, 0 ≤ x.1.time ∧ x.1.time ≤ 0 + 17 * second) ∧ udpCalls tr = 1 ∧
    (udpSent tr).map List.length = [16, 102, 102] ∧ 2 * 1 + 17 * second / (15 * second) = 3 :=
  ⟨_, _, execUdp_run .nil sampleRetry (by decide +kernel), by unfold Chronological; decide +kernel, by decide +kernel,
    by decide +kernel, by decide +kernel, by decide +kernel⟩

/-- A wait for the answer that is never given: one connection runs out, and another is asked for. -/
def sampleExpired : List UdpEvent :=
  sampleEvents ++ [⟨16 * second, 0, .timer⟩, ⟨16 * second, 0, .sent⟩, ⟨46 * second, 0, .timer⟩, ⟨46 * second, 0, .sent⟩,
    ⟨61 * second, 17, .timer⟩, ⟨61 * second, 0, .sent⟩]

example : ∃ tr s, UdpRun (fun _ => []) false "/a".toList tr s ∧ Chronological tr ∧
    (∀ x ∈ tr, 0 ≤ x.1.time ∧ x.1.time ≤ 0 + 61 * second) ∧ udpCalls tr = 1 ∧
    (udpSent tr).map List.length = [16, 102, 102, 102, 16] :=
  ⟨_, _, execUdp_run .nil sampleExpired (by decide +kernel), by unfold Chronological; decide +kernel, by decide +kernel,
    by decide +kernel, by decide +kernel⟩

/-- 300 bytes of URL data need two options. -/
example : optionsLength 300 = 304 ∧ optionsLength 255 = 257 ∧ optionsLength 0 = 0 := by decide

end Demag.Props
