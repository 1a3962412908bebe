import Verif.Props.UdpCodec

/-!
# C23, C24, C25: sessions with UDP trackers
-/

namespace Demag

open Spec Props

theorem lastSent_snoc (tr : UdpTrace) (e : UdpEvent) (out : List UdpOutput) :
    lastSent (tr ++ [(e, out)]) = out.foldl sentAfter (lastSent tr) := by
  simp [lastSent, List.flatMap_append, List.foldl_append]

theorem lastCall_snoc (tr : UdpTrace) (e : UdpEvent) (out : List UdpOutput) :
    lastCall (tr ++ [(e, out)]) = callAfter (lastCall tr) e.input := by
  simp [lastCall, List.foldl_append]

theorem sendTimes_snoc (tr : UdpTrace) (e : UdpEvent) (out : List UdpOutput) :
    sendTimes (tr ++ [(e, out)]) = out.foldl (timesAfter e.time) (sendTimes tr) := by
  simp [sendTimes, List.foldl_append]

theorem callAfter_ne (acc : Option Announcement) (i : UdpInput) (h : ∀ b, i ≠ .call b) : callAfter acc i = acc := by
  cases i <;> first | rfl | exact absurd rfl (h _)

theorem givenAt_mono {tr : UdpTrace} {t c : Nat} (h : GivenAt tr t c) (l : UdpTrace) : GivenAt (tr ++ l) t c := by
  obtain ⟨pre, e, out, post, bs, req, xid, rfl, h⟩ := h
  exact ⟨pre, e, out, post ++ l, bs, req, xid, by simp, h⟩

/-- What is known of a connection. -/
def ConnInv (tr : UdpTrace) (c : UdpConn) : Prop := ∃ t, GivenAt tr t c.id.toNat ∧ c.expiration = t + 60 * second

theorem ConnInv.mono {tr : UdpTrace} {c : UdpConn} (h : ConnInv tr c) (l : UdpTrace) : ConnInv (tr ++ l) c := by
  obtain ⟨t, h, h2⟩ := h
  exact ⟨t, givenAt_mono h l, h2⟩

/-- What is known of a chat. -/
def ChatInv (tr : UdpTrace) (chat : Chat) : Prop :=
  match chat.wait with
  | .sending => chat.n = min 8 (sendTimes tr).length ∧
      ∀ ts t, sendTimes tr = ts ++ [t] → ∃ x ∈ tr, t + backoff ts.length * second ≤ x.1.time
  | .waiting d => ∃ ts t, sendTimes tr = ts ++ [t] ∧ chat.n = min 8 ts.length ∧ d = t + backoff ts.length * second ∧
      lastSent tr = some chat.msg

structure SessionInv (ipv6 : Bool) (urldata : Text) (tr : UdpTrace) (s : UdpSession) : Prop where
  ip : s.ipv6 = ipv6
  url : s.urldata = urldata
  conn : ∀ c, s.conn = some c → ConnInv tr c
  connecting : ∀ a xid chat, s.phase = .connecting a xid chat →
    lastCall tr = some a ∧ chat.msg = udpConnectRequest xid ∧ ChatInv tr chat
  announcing : ∀ a xid c chat, s.phase = .announcing a xid c chat →
    lastCall tr = some a ∧ chat.msg = udpAnnounceRequest c.id xid a urldata ∧ ChatInv tr chat ∧ ConnInv tr c

theorem chatInv_start (tr : UdpTrace) (msg : Bytes) (h : sendTimes tr = []) : ChatInv tr (.start msg) := by
  simp [ChatInv, Chat.start, h]

/-- Nothing done that matters to the chat. -/
theorem ChatInv.stay {tr : UdpTrace} {chat : Chat} (h : ChatInv tr chat) (e : UdpEvent) : ChatInv (tr ++ [(e, [])]) chat := by
  unfold ChatInv at *
  rw [sendTimes_snoc, lastSent_snoc]
  simp only [List.foldl_nil]
  split
  · rename_i hw; rw [hw] at h
    refine ⟨h.1, fun ts t ht => ?_⟩
    obtain ⟨x, hx, h2⟩ := h.2 ts t ht
    exact ⟨x, by simp [hx], h2⟩
  · rename_i hw; rw [hw] at h; exact h

theorem ChatInv.sent {tr : UdpTrace} {chat : Chat} (h : ChatInv tr chat) (hw : chat.wait = .sending) (e : UdpEvent) :
    ChatInv (tr ++ [(e, [.transmit chat.msg])]) (chat.onSent e.time) := by
  unfold ChatInv at *
  rw [hw] at h
  rw [sendTimes_snoc, lastSent_snoc]
  simp only [Chat.onSent, List.foldl_cons, List.foldl_nil]
  refine ⟨_, _, rfl, h.1, ?_, rfl⟩
  rw [h.1, backoff, Nat.shiftLeft_eq, Nat.min_comm]

theorem ChatInv.timeout {tr : UdpTrace} {chat : Chat} (h : ChatInv tr chat) {d : Nat} (hw : chat.wait = .waiting d)
    (e : UdpEvent) (hd : d ≤ e.time) : ChatInv (tr ++ [(e, [])]) chat.onTimeout := by
  unfold ChatInv at *
  rw [hw] at h
  obtain ⟨ts, t, h1, h2, h3, h4⟩ := h
  rw [sendTimes_snoc]
  simp only [Chat.onTimeout, List.foldl_nil, h1, List.length_append, List.length_cons, List.length_nil, h2]
  refine ⟨by split <;> omega, ?_⟩
  intro ts' t' ht
  obtain ⟨h5, h6⟩ := List.append_inj' ht rfl
  rw [List.singleton_inj] at h6
  subst h5; subst h6
  exact ⟨(e, []), by simp, by rw [← h3]; exact hd⟩

theorem GivenAt_now {tr : UdpTrace} {e : UdpEvent} {out : List UdpOutput} {bs req : Bytes} {xid cid : Nat}
    (hi : e.input = .packet bs) (hl : lastSent tr = some req) (hr : IsConnectRequest xid req)
    (hb : IsConnectResponse xid cid bs) : GivenAt (tr ++ [(e, out)]) e.time cid :=
  ⟨tr, e, out, [], bs, req, xid, rfl, rfl, hi, hl, hr, hb⟩

/-- One step preserves the invariant. -/
theorem SessionInv.step {ipv6 : Bool} {urldata : Text} {tr : UdpTrace} {s : UdpSession} (h : SessionInv ipv6 urldata tr s)
    (lossy : Bytes → Text) (e : UdpEvent) (hal : s.Allows e) :
    SessionInv ipv6 urldata (tr ++ [(e, (s.step lossy e).2)]) (s.step lossy e).1 := by
  obtain ⟨ip, url, hc, hcon, hann⟩ := h
  obtain ⟨sip, surl, conn, phase⟩ := s
  simp only at ip url hc hcon hann
  simp only [UdpSession.Allows] at hal
  subst ip; subst url
  have keep : ∀ {l : UdpTrace} c, conn = some c → ConnInv (tr ++ l) c := fun c h => (hc c h).mono _
  obtain ⟨time, xid', input⟩ := e
  cases phase with
  | idle =>
    cases input with
    | call a =>
      have lc : ∀ out, lastCall (tr ++ [((⟨time, xid', .call a⟩ : UdpEvent), out)]) = some a := by
        intro out; rw [lastCall_snoc]; rfl
      have conCase : SessionInv sip surl (tr ++ [((⟨time, xid', .call a⟩ : UdpEvent),
          ((⟨sip, surl, conn, .idle⟩ : UdpSession).startConnect a xid').2)])
          ((⟨sip, surl, conn, .idle⟩ : UdpSession).startConnect a xid').1 := by
        refine ⟨rfl, rfl, fun c h => keep c h, ?_, by intro a xid c chat h; cases h⟩
        intro a' x chat h
        cases h
        exact ⟨lc _, rfl, chatInv_start _ _ (by rw [sendTimes_snoc]; rfl)⟩
      cases hcn : conn with
      | none => subst hcn; exact conCase
      | some c =>
        subst hcn
        by_cases ht : time < c.expiration
        · simp only [UdpSession.step, if_pos ht]
          refine ⟨rfl, rfl, fun c h => keep c h, by (intro a x chat h; cases h), ?_⟩
          intro a' x c' chat h
          cases h
          exact ⟨lc _, rfl, chatInv_start _ _ (by rw [sendTimes_snoc]; rfl), keep c rfl⟩
        · simp only [UdpSession.step, if_neg ht]
          exact conCase
    | _ =>
      simp only [UdpSession.step]
      exact ⟨rfl, rfl, fun c h => keep c h, by (intro a x chat h; cases h), by (intro a x c chat h; cases h)⟩
  | connecting a xid chat =>
    obtain ⟨hl, hm, hci⟩ := hcon a xid chat rfl
    have stay : ∀ e : UdpEvent, (∀ b, e.input ≠ .call b) →
        SessionInv sip surl (tr ++ [(e, [])]) ⟨sip, surl, conn, .connecting a xid chat⟩ := by
      intro e he
      refine ⟨rfl, rfl, fun c h => keep c h, ?_, by (intro a x c chat h; cases h)⟩
      intro a' x chat' h
      cases h
      refine ⟨?_, hm, hci.stay e⟩
      rw [lastCall_snoc, callAfter_ne _ _ he]
      exact hl
    have idle : ∀ (e : UdpEvent) out, SessionInv sip surl (tr ++ [(e, out)]) ⟨sip, surl, conn, .idle⟩ := by
      intro e out
      exact ⟨rfl, rfl, fun c h => keep c h, by (intro a x chat h; cases h), by (intro a x c chat h; cases h)⟩
    have lc : ∀ inp out, (∀ b, inp ≠ .call b) → lastCall (tr ++ [((⟨time, xid', inp⟩ : UdpEvent), out)]) = some a := by
      intro inp out hne
      rw [lastCall_snoc, callAfter_ne _ _ hne]
      exact hl
    cases hw : chat.wait with
    | sending =>
      cases input with
      | sent =>
        simp only [UdpSession.step, hw]
        refine ⟨rfl, rfl, fun c h => keep c h, ?_, by (intro a x c chat h; cases h)⟩
        intro a' x chat' h
        cases h
        exact ⟨lc _ _ (by simp), hm, hci.sent hw ⟨time, xid', .sent⟩⟩
      | sendFailed => simp only [UdpSession.step, hw]; exact idle _ _
      | call b => exact absurd (hal b rfl) (by simp)
      | _ => simp only [UdpSession.step, hw]; exact stay _ (by simp)
    | waiting d =>
      cases input with
      | timer =>
        by_cases hd : d ≤ time
        · simp only [UdpSession.step, hw, if_pos hd]
          refine ⟨rfl, rfl, fun c h => keep c h, ?_, by (intro a x c chat h; cases h)⟩
          intro a' x chat' h
          cases h
          exact ⟨lc _ _ (by simp), hm, hci.timeout hw ⟨time, xid', .timer⟩ hd⟩
        · simp only [UdpSession.step, hw, if_neg hd]; exact stay _ (by simp)
      | recvFailed => simp only [UdpSession.step, hw]; exact idle _ _
      | packet bs =>
        simp only [UdpSession.step, hw]
        cases hr : udpResponse lossy udpConnectResponse bs with
        | error err => simp only; exact idle _ _
        | ok r =>
          simp only
          by_cases hx : r.xid ≠ xid
          · rw [if_pos hx]; exact idle _ _
          · rw [if_neg hx]
            simp only [ne_eq, Decidable.not_not] at hx
            obtain ⟨x, cid⟩ := r
            simp only at hx; subst hx
            have hresp := (udpConnect_ok lossy bs x cid).1 hr
            have hsent : lastSent tr = some (udpConnectRequest x) := by
              unfold ChatInv at hci
              rw [hw] at hci
              obtain ⟨ts, t, -, -, -, h⟩ := hci
              rw [h, hm]
            have hg : ∀ out, ConnInv (tr ++ [((⟨time, xid', .packet bs⟩ : UdpEvent), out)]) ⟨cid, time + 60 * second⟩ :=
              fun out => ⟨time, GivenAt_now (e := ⟨time, xid', .packet bs⟩) rfl hsent (udpConnectRequest_spec x) hresp, rfl⟩
            refine ⟨rfl, rfl, ?_, by (intro a x chat h; cases h), ?_⟩
            · intro c h; cases h; exact hg _
            · intro a' x' c' chat' h
              cases h
              exact ⟨lc _ _ (by simp), rfl, chatInv_start _ _ (by rw [sendTimes_snoc]; rfl), hg _⟩
      | call b => exact absurd (hal b rfl) (by simp)
      | _ => simp only [UdpSession.step, hw]; exact stay _ (by simp)
  | announcing a xid c chat =>
    obtain ⟨hl, hm, hci, hcv⟩ := hann a xid c chat rfl
    have stay : ∀ e : UdpEvent, (∀ b, e.input ≠ .call b) →
        SessionInv sip surl (tr ++ [(e, [])]) ⟨sip, surl, conn, .announcing a xid c chat⟩ := by
      intro e he
      refine ⟨rfl, rfl, fun c h => keep c h, by (intro a x chat h; cases h), ?_⟩
      intro a' x c' chat' h
      cases h
      refine ⟨?_, hm, hci.stay e, hcv.mono _⟩
      rw [lastCall_snoc, callAfter_ne _ _ he]
      exact hl
    have idle : ∀ (e : UdpEvent) out, SessionInv sip surl (tr ++ [(e, out)]) ⟨sip, surl, conn, .idle⟩ := by
      intro e out
      exact ⟨rfl, rfl, fun c h => keep c h, by (intro a x chat h; cases h), by (intro a x c chat h; cases h)⟩
    have lc : ∀ inp out, (∀ b, inp ≠ .call b) → lastCall (tr ++ [((⟨time, xid', inp⟩ : UdpEvent), out)]) = some a := by
      intro inp out hne
      rw [lastCall_snoc, callAfter_ne _ _ hne]
      exact hl
    have reset : SessionInv sip surl (tr ++ [((⟨time, xid', .timer⟩ : UdpEvent),
          ((⟨sip, surl, none, .announcing a xid c chat⟩ : UdpSession).startConnect a xid').2)])
          ((⟨sip, surl, none, .announcing a xid c chat⟩ : UdpSession).startConnect a xid').1 := by
      refine ⟨rfl, rfl, by (intro c h; cases h), ?_, by (intro a xid c chat h; cases h)⟩
      intro a' x chat h
      cases h
      exact ⟨lc _ _ (by simp), rfl, chatInv_start _ _ (by rw [sendTimes_snoc]; rfl)⟩
    cases hw : chat.wait with
    | sending =>
      cases input with
      | sent =>
        simp only [UdpSession.step, hw]
        refine ⟨rfl, rfl, fun c h => keep c h, by (intro a x chat h; cases h), ?_⟩
        intro a' x c' chat' h
        cases h
        exact ⟨lc _ _ (by simp), hm, hci.sent hw ⟨time, xid', .sent⟩, hcv.mono _⟩
      | sendFailed => simp only [UdpSession.step, hw]; exact idle _ _
      | timer =>
        by_cases hd : c.expiration ≤ time
        · simp only [UdpSession.step, hw, if_pos hd]; exact reset
        · simp only [UdpSession.step, hw, if_neg hd]; exact stay _ (by simp)
      | call b => exact absurd (hal b rfl) (by simp)
      | _ => simp only [UdpSession.step, hw]; exact stay _ (by simp)
    | waiting d =>
      cases input with
      | timer =>
        by_cases hd : d ≤ time
        · simp only [UdpSession.step, hw, if_pos hd]
          refine ⟨rfl, rfl, fun c h => keep c h, by (intro a x chat h; cases h), ?_⟩
          intro a' x c' chat' h
          cases h
          exact ⟨lc _ _ (by simp), hm, hci.timeout hw ⟨time, xid', .timer⟩ hd, hcv.mono _⟩
        · by_cases he : c.expiration ≤ time
          · simp only [UdpSession.step, hw, if_neg hd, if_pos he]; exact reset
          · simp only [UdpSession.step, hw, if_neg hd, if_neg he]; exact stay _ (by simp)
      | recvFailed => simp only [UdpSession.step, hw]; exact idle _ _
      | packet bs =>
        simp only [UdpSession.step, hw]
        cases hr : udpResponse lossy (udpAnnounceResponse sip) bs with
        | error err => simp only; exact idle _ _
        | ok r =>
          simp only
          split <;> exact idle _ _
      | call b => exact absurd (hal b rfl) (by simp)
      | _ => simp only [UdpSession.step, hw]; exact stay _ (by simp)

theorem UdpRun.inv {lossy : Bytes → Text} {ipv6 : Bool} {urldata : Text} {tr : UdpTrace} {s : UdpSession}
    (h : UdpRun lossy ipv6 urldata tr s) : SessionInv ipv6 urldata tr s := by
  induction h with
  | nil =>
    exact ⟨rfl, rfl, by (intro c h; cases h), by (intro a x chat h; cases h), by (intro a x c chat h; cases h)⟩
  | snoc e h hal ih => exact ih.step lossy e hal

theorem UdpPromptRun.run {lossy : Bytes → Text} {ipv6 : Bool} {urldata : Text} {tr : UdpTrace} {s : UdpSession}
    (h : UdpPromptRun lossy ipv6 urldata tr s) : UdpRun lossy ipv6 urldata tr s := by
  induction h with
  | nil => exact .nil
  | snoc e h hal hp ih => exact .snoc e ih hal

/-- A run up to one of its events. -/
theorem UdpRun.split {lossy : Bytes → Text} {ipv6 : Bool} {urldata : Text} {tr : UdpTrace} {s : UdpSession}
    (h : UdpRun lossy ipv6 urldata tr s) {pre post : UdpTrace} {e : UdpEvent} {out : List UdpOutput}
    (ht : tr = pre ++ (e, out) :: post) :
    ∃ s1, UdpRun lossy ipv6 urldata pre s1 ∧ s1.Allows e ∧ out = (s1.step lossy e).2 := by
  induction h generalizing post with
  | nil => simp at ht
  | @snoc tr' s' e' h' hal ih =>
    rcases List.eq_nil_or_concat post with rfl | ⟨p, x, rfl⟩
    · obtain ⟨h1, h2⟩ := List.append_inj' ht rfl
      cases h2
      exact ⟨s', h1 ▸ h', hal, rfl⟩
    · rw [List.concat_eq_append] at ht
      have ht' : tr' ++ [(e', (s'.step lossy e').2)] = (pre ++ (e, out) :: p) ++ [x] := by rw [ht]; simp
      exact ih (List.append_inj' ht' rfl).1

theorem UdpPromptRun.split {lossy : Bytes → Text} {ipv6 : Bool} {urldata : Text} {tr : UdpTrace} {s : UdpSession}
    (h : UdpPromptRun lossy ipv6 urldata tr s) {pre post : UdpTrace} {e : UdpEvent} {out : List UdpOutput}
    (ht : tr = pre ++ (e, out) :: post) :
    ∃ s1, UdpPromptRun lossy ipv6 urldata pre s1 ∧ s1.Allows e ∧ s1.Prompt e.time ∧ out = (s1.step lossy e).2 := by
  induction h generalizing post with
  | nil => simp at ht
  | @snoc tr' s' e' h' hal hp ih =>
    rcases List.eq_nil_or_concat post with rfl | ⟨p, x, rfl⟩
    · obtain ⟨h1, h2⟩ := List.append_inj' ht rfl
      cases h2
      exact ⟨s', h1 ▸ h', hal, hp, rfl⟩
    · rw [List.concat_eq_append] at ht
      have ht' : tr' ++ [(e', (s'.step lossy e').2)] = (pre ++ (e, out) :: p) ++ [x] := by rw [ht]; simp
      exact ih (List.append_inj' ht' rfl).1

theorem step_transmit {lossy : Bytes → Text} {s : UdpSession} {e : UdpEvent} {pkt : Bytes}
    (h : .transmit pkt ∈ (s.step lossy e).2) :
    (∃ a xid chat, s.phase = .connecting a xid chat ∧ chat.wait = .sending ∧ pkt = chat.msg) ∨
    (∃ a xid c chat, s.phase = .announcing a xid c chat ∧ chat.wait = .sending ∧ pkt = chat.msg) := by
  obtain ⟨sip, surl, conn, phase⟩ := s
  unfold UdpSession.step at h
  simp only [UdpSession.startConnect, UdpSession.startAnnounce] at h
  cases phase with
  | idle =>
    cases hi : e.input <;> rw [hi] at h <;> simp only [List.not_mem_nil] at h
    split at h
    · split at h <;> simp at h
    · simp at h
  | connecting a xid chat =>
    simp only at h
    split at h
    · rename_i hw _
      simp only [List.mem_singleton, UdpOutput.transmit.injEq] at h
      exact .inl ⟨a, xid, chat, rfl, hw, h⟩
    · simp at h
    · split at h <;> simp at h
    · simp at h
    · split at h
      · simp at h
      · split at h <;> simp at h
    · simp at h
  | announcing a xid c chat =>
    simp only at h
    split at h
    · rename_i hw _
      simp only [List.mem_singleton, UdpOutput.transmit.injEq] at h
      exact .inr ⟨a, xid, c, chat, rfl, hw, h⟩
    · simp at h
    · split at h <;> simp at h
    · split at h
      · simp at h
      · split at h <;> simp at h
    · simp at h
    · split at h
      · simp at h
      · split at h <;> simp at h
    · simp at h

theorem step_result_ok {lossy : Bytes → Text} {s : UdpSession} {e : UdpEvent} {r : AnnounceResponse}
    (h : .result (.ok r) ∈ (s.step lossy e).2) :
    ∃ bs a xid c chat d, e.input = .packet bs ∧ s.phase = .announcing a xid c chat ∧ chat.wait = .waiting d ∧
      udpResponse lossy (udpAnnounceResponse s.ipv6) bs = .ok ⟨xid, r⟩ := by
  obtain ⟨sip, surl, conn, phase⟩ := s
  unfold UdpSession.step at h
  simp only [UdpSession.startConnect, UdpSession.startAnnounce] at h
  cases phase with
  | idle =>
    cases hi : e.input <;> rw [hi] at h <;> simp only [List.not_mem_nil] at h
    split at h
    · split at h <;> simp at h
    · simp at h
  | connecting a xid chat =>
    simp only at h
    split at h
    · simp at h
    · simp at h
    · split at h <;> simp at h
    · simp at h
    · split at h
      · simp at h
      · split at h <;> simp at h
    · simp at h
  | announcing a xid c chat =>
    simp only at h
    split at h
    · simp at h
    · simp at h
    · split at h <;> simp at h
    · split at h
      · simp at h
      · split at h <;> simp at h
    · simp at h
    · rename_i d bs hw hi
      split at h
      · simp at h
      · rename_i rr hr
        split at h
        · simp at h
        · rename_i hx
          simp only [ne_eq, Decidable.not_not] at hx
          simp only [List.mem_singleton, UdpOutput.result.injEq, Except.ok.injEq] at h
          refine ⟨bs, a, xid, c, chat, d, hi, rfl, hw, ?_⟩
          rw [hr, ← hx, h]
    · simp at h

theorem step_connected {lossy : Bytes → Text} {s : UdpSession} {e : UdpEvent} {c : UdpConn}
    (h : .connected c ∈ (s.step lossy e).2) :
    ∃ bs a xid chat d, e.input = .packet bs ∧ s.phase = .connecting a xid chat ∧ chat.wait = .waiting d ∧
      udpResponse lossy udpConnectResponse bs = .ok ⟨xid, c.id⟩ ∧ c.expiration = e.time + 60 * second := by
  obtain ⟨sip, surl, conn, phase⟩ := s
  unfold UdpSession.step at h
  simp only [UdpSession.startConnect, UdpSession.startAnnounce] at h
  cases phase with
  | idle =>
    cases hi : e.input <;> rw [hi] at h <;> simp only [List.not_mem_nil] at h
    split at h
    · split at h <;> simp at h
    · simp at h
  | connecting a xid chat =>
    simp only at h
    split at h
    · simp at h
    · simp at h
    · split at h <;> simp at h
    · simp at h
    · rename_i d bs hw hi
      split at h
      · simp at h
      · rename_i rr hr
        split at h
        · simp at h
        · rename_i hx
          simp only [ne_eq, Decidable.not_not] at hx
          simp only [List.mem_cons, List.not_mem_nil, or_false, UdpOutput.connected.injEq, reduceCtorEq] at h
          subst h
          refine ⟨bs, a, xid, chat, d, hi, rfl, hw, ?_, rfl⟩
          rw [hr, ← hx]
    · simp at h
  | announcing a xid c chat =>
    simp only at h
    split at h
    · simp at h
    · simp at h
    · split at h <;> simp at h
    · split at h
      · simp at h
      · split at h <;> simp at h
    · simp at h
    · split at h
      · simp at h
      · split at h <;> simp at h
    · simp at h

theorem step_request {lossy : Bytes → Text} {s : UdpSession} {e : UdpEvent} {pkt : Bytes}
    (h : .request pkt ∈ (s.step lossy e).2) :
    pkt = udpConnectRequest e.xid ∨ ∃ a c, pkt = udpAnnounceRequest c.id e.xid a s.urldata ∧
      (s.step lossy e).1.conn = some c ∧ e.time < c.expiration := by
  obtain ⟨sip, surl, conn, phase⟩ := s
  unfold UdpSession.step at h ⊢
  simp only [UdpSession.startConnect, UdpSession.startAnnounce] at h ⊢
  cases phase with
  | idle =>
    cases hi : e.input <;> rw [hi] at h <;> simp only [List.not_mem_nil] at h ⊢
    rename_i a
    cases conn with
    | some c =>
      by_cases ht : e.time < c.expiration
      · simp only [if_pos ht, List.mem_singleton, UdpOutput.request.injEq] at h
        right
        refine ⟨a, c, h, ?_, ht⟩
        simp only [if_pos ht]
      · simp only [if_neg ht, List.mem_singleton, UdpOutput.request.injEq] at h
        exact .inl h
    | none =>
      simp only [List.mem_singleton, UdpOutput.request.injEq] at h
      exact .inl h
  | connecting a xid chat =>
    simp only at h ⊢
    split at h
    · simp at h
    · simp at h
    · split at h <;> simp at h
    · simp at h
    · rename_i d bs hw hi
      split at h
      · simp at h
      · rename_i rr hr
        split at h
        · simp at h
        · rename_i hx
          simp only [List.mem_cons, List.not_mem_nil, or_false, UdpOutput.request.injEq, reduceCtorEq, false_or] at h
          refine .inr ⟨_, ⟨rr.connectionId, e.time + 60 * second⟩, h, ?_, by simp [second]⟩
          simp only [ne_eq, Decidable.not_not] at hx
          simp [hw, hi, hr, hx]
    · simp at h
  | announcing a xid c chat =>
    simp only at h
    split at h
    · simp at h
    · simp at h
    · split at h
      · simp only [List.mem_singleton, UdpOutput.request.injEq] at h
        exact .inl h
      · simp at h
    · split at h
      · simp at h
      · split at h
        · simp only [List.mem_singleton, UdpOutput.request.injEq] at h
          exact .inl h
        · simp at h
    · simp at h
    · split at h
      · simp at h
      · split at h <;> simp at h
    · simp at h

namespace Props

/-- **C23** (the part that holds). Peers are returned only from a packet that is an announce response with the transaction
ID of the announce request that was the last packet sent; that request carries the announcement asked for, and the peers
are those of the packet. -/
theorem udp_peers_answer_request_partial {lossy : Bytes → Text} {ipv6 : Bool} {urldata : Text} {tr pre post : UdpTrace}
    {s : UdpSession} {e : UdpEvent} {out : List UdpOutput} {r : AnnounceResponse}
    (h : UdpRun lossy ipv6 urldata tr s) (ht : tr = pre ++ (e, out) :: post) (hr : .result (.ok r) ∈ out) :
    ∃ bs req cid xid a i l n addrs, e.input = .packet bs ∧ lastSent pre = some req ∧ lastCall pre = some a ∧
      IsAnnounceRequest cid xid a (utf8 urldata) req ∧ IsAnnounceResponse ipv6 xid i l n addrs bs ∧
      r.peers = addrs.map (fun a => ⟨a, none, false⟩) := by
  obtain ⟨s1, h1, -, rfl⟩ := h.split ht
  obtain ⟨bs, a, xid, c, chat, d, hi, hp, hw, hres⟩ := step_result_ok hr
  have hv := h1.inv
  obtain ⟨hl, hm, hci, -⟩ := hv.announcing _ _ _ _ hp
  rw [udpResponse_ok] at hres
  obtain ⟨i, l, n, addrs, hlay, -, -, -, hpeers, -⟩ := (udpAnnounceResponse_spec _ _ _ _).1 hres.2
  unfold ChatInv at hci
  rw [hw] at hci
  obtain ⟨ts, t, -, -, -, hls⟩ := hci
  refine ⟨bs, chat.msg, c.id.toNat, xid.toNat, a, i, l, n, addrs, hi, hls, hl, ?_, hv.ip ▸ hlay, hpeers⟩
  rw [hm]
  exact udpAnnounceRequest_spec _ _ _ _

/-- **C23** (the part that holds). A connection ID is accepted only from a packet that is a connect response with the
transaction ID of the connect request that was the last packet sent, and it expires 60 seconds later. -/
theorem udp_connection_answers_request_partial {lossy : Bytes → Text} {ipv6 : Bool} {urldata : Text}
    {tr pre post : UdpTrace} {s : UdpSession} {e : UdpEvent} {out : List UdpOutput} {c : UdpConn}
    (h : UdpRun lossy ipv6 urldata tr s) (ht : tr = pre ++ (e, out) :: post) (hr : .connected c ∈ out) :
    ∃ bs req xid, e.input = .packet bs ∧ lastSent pre = some req ∧ IsConnectRequest xid req ∧
      IsConnectResponse xid c.id.toNat bs ∧ c.expiration = e.time + 60 * second := by
  obtain ⟨s1, h1, -, rfl⟩ := h.split ht
  obtain ⟨bs, a, xid, chat, d, hi, hp, hw, hres, hexp⟩ := step_connected hr
  have hv := h1.inv
  obtain ⟨hl, hm, hci⟩ := hv.connecting _ _ _ hp
  unfold ChatInv at hci
  rw [hw] at hci
  obtain ⟨ts, t, -, -, -, hls⟩ := hci
  refine ⟨bs, _, xid.toNat, hi, hls, ?_, (udpConnect_ok _ _ _ _).1 hres, hexp⟩
  rw [hm]
  exact udpConnectRequest_spec _

/-- Everything a session sends is a connect request, or an announce request for the announcement asked for. -/
theorem udp_transmits {lossy : Bytes → Text} {ipv6 : Bool} {urldata : Text} {tr pre post : UdpTrace}
    {s : UdpSession} {e : UdpEvent} {out : List UdpOutput} {pkt : Bytes}
    (h : UdpRun lossy ipv6 urldata tr s) (ht : tr = pre ++ (e, out) :: post) (hr : .transmit pkt ∈ out) :
    ∃ a xid, lastCall pre = some a ∧ (IsConnectRequest xid pkt ∨
      ∃ cid t, GivenAt pre t cid ∧ IsAnnounceRequest cid xid a (utf8 urldata) pkt) := by
  obtain ⟨s1, h1, -, rfl⟩ := h.split ht
  have hv := h1.inv
  rcases step_transmit hr with ⟨a, xid, chat, hp, hw, rfl⟩ | ⟨a, xid, c, chat, hp, hw, rfl⟩
  · obtain ⟨hl, hm, hci⟩ := hv.connecting _ _ _ hp
    exact ⟨a, xid.toNat, hl, .inl (hm ▸ udpConnectRequest_spec _)⟩
  · obtain ⟨hl, hm, hci, t, hg, -⟩ := hv.announcing _ _ _ _ hp
    exact ⟨a, xid.toNat, hl, .inr ⟨c.id.toNat, t, hg, hm ▸ udpAnnounceRequest_spec _ _ _ _⟩⟩

theorem givenAt_le {pre : UdpTrace} {x : UdpEvent × List UdpOutput} {t cid : Nat} (hg : GivenAt pre t cid)
    (hc : Chronological (pre ++ [x])) : t ≤ x.1.time := by
  obtain ⟨p, e, o, q, bs, req, xid, rfl, rfl, -⟩ := hg
  exact (List.pairwise_append.1 hc).2.2 (e, o) (by simp) x (by simp)

theorem chronological_prefix {pre post : UdpTrace} (h : Chronological (pre ++ post)) : Chronological pre :=
  (List.pairwise_append.1 h).1

/-- **C24** (the part that holds whatever the timing). A new announce request is begun only with a connection ID that the
tracker gave out less than 60 seconds earlier. -/
theorem udp_request_fresh {lossy : Bytes → Text} {ipv6 : Bool} {urldata : Text} {tr pre post : UdpTrace}
    {s : UdpSession} {e : UdpEvent} {out : List UdpOutput} {pkt : Bytes}
    (h : UdpRun lossy ipv6 urldata tr s) (hch : Chronological tr) (ht : tr = pre ++ (e, out) :: post)
    (hr : .request pkt ∈ out) :
    (∃ xid, IsConnectRequest xid pkt) ∨
    ∃ cid xid a t, IsAnnounceRequest cid xid a (utf8 urldata) pkt ∧ GivenAt (pre ++ [(e, out)]) t cid ∧
      t ≤ e.time ∧ e.time < t + 60 * second := by
  obtain ⟨s1, h1, hal, rfl⟩ := h.split ht
  rcases step_request hr with rfl | ⟨a, c, rfl, hcn, hlt⟩
  · exact .inl ⟨_, udpConnectRequest_spec _⟩
  · right
    have hv := (h1.snoc e hal).inv
    obtain ⟨t, hg, hexp⟩ := hv.conn c hcn
    refine ⟨c.id.toNat, e.xid.toNat, a, t, ?_, hg, ?_, by omega⟩
    · rw [h1.inv.url]; exact udpAnnounceRequest_spec _ _ _ _
    obtain ⟨p, e', o, q, bs, req, xid, heq, rfl, -⟩ := hg
    rcases List.eq_nil_or_concat q with rfl | ⟨q', x, rfl⟩
    · obtain ⟨-, h2⟩ := List.append_inj' heq rfl
      cases h2
      exact Nat.le_refl _
    · rw [List.concat_eq_append] at heq
      have heq' : pre ++ [(e, (s1.step lossy e).2)] = (p ++ (e', o) :: q') ++ [x] := by rw [heq]; simp
      obtain ⟨h3, -⟩ := List.append_inj' heq' rfl
      have hp : Chronological (pre ++ [(e, (s1.step lossy e).2)]) := by
        apply chronological_prefix (post := post)
        rw [ht] at hch
        simpa using hch
      rw [h3] at hp
      exact (List.pairwise_append.1 hp).2.2 (e', o) (by simp) (e, (s1.step lossy e).2) (by simp)

/-- **C24** (for runs in which timers fire when they are due). Every announce request sent carries a connection ID that the
tracker gave out at most 60 seconds earlier. -/
theorem udp_announce_fresh_partial {lossy : Bytes → Text} {ipv6 : Bool} {urldata : Text} {tr pre post : UdpTrace}
    {s : UdpSession} {e : UdpEvent} {out : List UdpOutput} {pkt : Bytes}
    (h : UdpPromptRun lossy ipv6 urldata tr s) (hch : Chronological tr) (ht : tr = pre ++ (e, out) :: post)
    (hr : .transmit pkt ∈ out) :
    (∃ xid, IsConnectRequest xid pkt) ∨
    ∃ cid xid a t, IsAnnounceRequest cid xid a (utf8 urldata) pkt ∧ GivenAt pre t cid ∧
      t ≤ e.time ∧ e.time ≤ t + 60 * second := by
  obtain ⟨s1, h1, hal, hp, rfl⟩ := h.split ht
  have hv := h1.run.inv
  rcases step_transmit hr with ⟨a, xid, chat, hph, hw, rfl⟩ | ⟨a, xid, c, chat, hph, hw, rfl⟩
  · obtain ⟨hl, hm, hci⟩ := hv.connecting _ _ _ hph
    exact .inl ⟨xid.toNat, hm ▸ udpConnectRequest_spec _⟩
  · right
    obtain ⟨hl, hm, hci, t, hg, hexp⟩ := hv.announcing _ _ _ _ hph
    unfold UdpSession.Prompt at hp
    rw [hph] at hp
    refine ⟨c.id.toNat, xid.toNat, a, t, hm ▸ udpAnnounceRequest_spec _ _ _ _, hg, ?_, by omega⟩
    refine givenAt_le (x := (e, (s1.step lossy e).2)) hg (chronological_prefix (post := post) ?_)
    rw [ht] at hch
    simpa using hch

theorem spaced_snoc {ts : List Nat} {t : Nat} (h : Spaced ts)
    (h2 : ∀ ts' t', ts = ts' ++ [t'] → t' + backoff ts'.length * second ≤ t) : Spaced (ts ++ [t]) := by
  intro i a b ha hb
  by_cases hi : i + 1 < ts.length
  · rw [List.getElem?_append_left (by omega)] at ha hb
    exact h i a b ha hb
  · have hlt := (List.getElem?_eq_some_iff.1 hb).1
    rw [List.length_append, List.length_cons, List.length_nil] at hlt
    have hlen : ts.length = i + 1 := by omega
    rcases List.eq_nil_or_concat ts with rfl | ⟨ts', t', rfl⟩
    · simp at hlen
    · rw [List.concat_eq_append] at *
      have hl' : ts'.length = i := by simpa using hlen
      have := h2 ts' t' rfl
      rw [List.append_assoc, List.getElem?_append_right (by omega)] at ha hb
      rw [← hl'] at ha hb
      simp only [Nat.sub_self, Nat.add_sub_cancel_left, List.cons_append, List.nil_append, List.getElem?_cons_zero,
        List.getElem?_cons_succ, Option.some.injEq] at ha hb
      subst ha; subst hb; rw [← hl']; exact this

/-- Only sending adds to the times of the current request. -/
theorem sendTimes_step {lossy : Bytes → Text} {s : UdpSession} {e : UdpEvent} (tr : UdpTrace) :
    sendTimes (tr ++ [(e, (s.step lossy e).2)]) = sendTimes tr ∨ sendTimes (tr ++ [(e, (s.step lossy e).2)]) = [] ∨
    (sendTimes (tr ++ [(e, (s.step lossy e).2)]) = sendTimes tr ++ [e.time] ∧
      ∃ pkt, .transmit pkt ∈ (s.step lossy e).2) := by
  rw [sendTimes_snoc]
  obtain ⟨sip, surl, conn, phase⟩ := s
  unfold UdpSession.step
  simp only [UdpSession.startConnect, UdpSession.startAnnounce]
  repeat' split
  all_goals simp [timesAfter]

/-- **C25.** However often a request is sent, the `k`-th time is followed by the next no earlier than `15 * 2 ^ min k 8`
seconds later. -/
theorem udp_backoff {lossy : Bytes → Text} {ipv6 : Bool} {urldata : Text} {tr : UdpTrace} {s : UdpSession}
    (h : UdpRun lossy ipv6 urldata tr s) (hch : Chronological tr) : Spaced (sendTimes tr) := by
  induction h with
  | nil => intro i a b ha; simp [sendTimes] at ha
  | @snoc tr s e h hal ih =>
    have hsp := ih (chronological_prefix hch)
    rcases sendTimes_step (lossy := lossy) (s := s) (e := e) tr with h1 | h1 | ⟨h1, pkt, hp⟩
    · rw [h1]; exact hsp
    · rw [h1]; intro i a b ha; simp at ha
    · rw [h1]
      apply spaced_snoc hsp
      intro ts t ht
      have hci : ∃ chat, ChatInv tr chat ∧ chat.wait = .sending := by
        rcases step_transmit hp with ⟨a, xid, chat, hph, hw, rfl⟩ | ⟨a, xid, c, chat, hph, hw, rfl⟩
        · exact ⟨chat, (h.inv.connecting _ _ _ hph).2.2, hw⟩
        · exact ⟨chat, (h.inv.announcing _ _ _ _ hph).2.2.1, hw⟩
      obtain ⟨chat, hci, hw⟩ := hci
      unfold ChatInv at hci
      rw [hw] at hci
      obtain ⟨x, hx, hle⟩ := hci.2 ts t ht
      exact Nat.le_trans hle ((List.pairwise_append.1 hch).2.2 x hx (e, (s.step lossy e).2) (by simp))

/-- The chat of a session, if there is one. -/
def chatOf (s : UdpSession) : Option Chat :=
  match s.phase with
  | .idle => none
  | .connecting _ _ chat => some chat
  | .announcing _ _ _ chat => some chat

theorem chatOf_inv {ipv6 : Bool} {urldata : Text} {tr : UdpTrace} {s : UdpSession} (h : SessionInv ipv6 urldata tr s)
    {chat : Chat} (hc : chatOf s = some chat) : ChatInv tr chat := by
  unfold chatOf at hc
  cases hp : s.phase with
  | idle => rw [hp] at hc; cases hc
  | connecting a xid chat' => rw [hp] at hc; cases hc; exact (h.connecting _ _ _ hp).2.2
  | announcing a xid c chat' => rw [hp] at hc; cases hc; exact (h.announcing _ _ _ _ hp).2.2.1

/-- **C25.** A session that awaits an answer does so until exactly `15 * 2 ^ min k 8` seconds after having sent the request
for the `k`-th time. -/
theorem udp_deadline {lossy : Bytes → Text} {ipv6 : Bool} {urldata : Text} {tr : UdpTrace} {s : UdpSession} {chat : Chat}
    {d : Nat} (h : UdpRun lossy ipv6 urldata tr s) (hc : chatOf s = some chat) (hw : chat.wait = .waiting d) :
    ∃ ts t, sendTimes tr = ts ++ [t] ∧ lastSent tr = some chat.msg ∧ d = t + backoff ts.length * second := by
  have := chatOf_inv h.inv hc
  unfold ChatInv at this
  rw [hw] at this
  obtain ⟨ts, t, h1, -, h3, h4⟩ := this
  exact ⟨ts, t, h1, h4, h3⟩

/-- **C25.** When the deadline has come, the same request is sent again: after the timer, the next thing to be sent is the
same packet. -/
theorem udp_resends {lossy : Bytes → Text} {s : UdpSession} {chat : Chat} {d : Nat} {e e' : UdpEvent}
    (hc : chatOf s = some chat) (hw : chat.wait = .waiting d) (he : e.input = .timer) (hd : d ≤ e.time)
    (he' : e'.input = .sent) : ((s.step lossy e).1.step lossy e').2 = [.transmit chat.msg] := by
  unfold chatOf at hc
  obtain ⟨sip, surl, conn, phase⟩ := s
  cases phase with
  | idle => cases hc
  | connecting a xid chat' =>
    cases hc
    simp only [UdpSession.step, he, hw, if_pos hd, he', Chat.onTimeout]
  | announcing a xid c chat' =>
    cases hc
    simp only [UdpSession.step, he, hw, if_pos hd, he', Chat.onTimeout]

/-- **C25.** Before the deadline nothing is sent again, except that an announcement starts over when its connection
expires. -/
theorem udp_no_early_timeout {lossy : Bytes → Text} {s : UdpSession} {chat : Chat} {d : Nat} {e : UdpEvent}
    (hc : chatOf s = some chat) (hw : chat.wait = .waiting d) (he : e.input = .timer) (hd : e.time < d) :
    (s.step lossy e).1 = s ∨ ∃ a xid c, s.phase = .announcing a xid c chat ∧ c.expiration ≤ e.time ∧
      (s.step lossy e).2 = [.request (udpConnectRequest e.xid)] := by
  unfold chatOf at hc
  obtain ⟨sip, surl, conn, phase⟩ := s
  cases phase with
  | idle => cases hc
  | connecting a xid chat' =>
    cases hc
    simp only [UdpSession.step, he, hw, if_neg (by omega : ¬ d ≤ e.time), true_or]
  | announcing a xid c chat' =>
    cases hc
    simp only [UdpSession.step, he, hw, if_neg (by omega : ¬ d ≤ e.time)]
    by_cases hx : c.expiration ≤ e.time
    · right
      exact ⟨a, xid, c, rfl, hx, by simp only [if_pos hx]; rfl⟩
    · left; simp only [if_neg hx]

/-- **C25.** The waiting times never decrease, double up to the ninth and never exceed 3840 seconds. -/
theorem backoff_bounds (k : Nat) : backoff k ≤ backoff (k + 1) ∧ backoff k ≤ 3840 ∧ 15 ≤ backoff k ∧
    (k < 8 → backoff (k + 1) = 2 * backoff k) := by
  unfold backoff
  have h1 : 2 ^ min k 8 ≤ 2 ^ min (k + 1) 8 := Nat.pow_le_pow_right (by omega) (by omega)
  have h2 : 2 ^ min k 8 ≤ 2 ^ 8 := Nat.pow_le_pow_right (by omega) (by omega)
  have h3 : 0 < 2 ^ min k 8 := Nat.pow_pos (by omega)
  refine ⟨by omega, by omega, by omega, fun h => ?_⟩
  rw [Nat.min_eq_left (by omega), Nat.min_eq_left (by omega), Nat.pow_succ]
  omega

/-- **C25.** The shift by which the waiting time is computed never exceeds 8, so that it does not overflow. -/
theorem udp_no_overflow {lossy : Bytes → Text} {ipv6 : Bool} {urldata : Text} {tr : UdpTrace} {s : UdpSession} {chat : Chat}
    (h : UdpRun lossy ipv6 urldata tr s) (hc : chatOf s = some chat) : chat.n ≤ 8 ∧ 15 <<< chat.n < 2 ^ 31 := by
  have hn : chat.n ≤ 8 := by
    have := chatOf_inv h.inv hc
    unfold ChatInv at this
    cases hw : chat.wait with
    | sending => rw [hw] at this; omega
    | waiting d => rw [hw] at this; obtain ⟨ts, t, -, h2, -⟩ := this; omega
  refine ⟨hn, ?_⟩
  rw [Nat.shiftLeft_eq]
  have : 2 ^ chat.n ≤ 2 ^ 8 := Nat.pow_le_pow_right (by omega) hn
  omega

/-- Running a session through a list of events. -/
def execUdp (lossy : Bytes → Text) (tr : UdpTrace) (s : UdpSession) : List UdpEvent → UdpTrace × UdpSession
  | [] => (tr, s)
  | e :: es => execUdp lossy (tr ++ [(e, (s.step lossy e).2)]) (s.step lossy e).1 es

/-- Every call is made while the session is idle. -/
def allowedUdp (lossy : Bytes → Text) (s : UdpSession) : List UdpEvent → Bool
  | [] => true
  | e :: es => (match e.input with | .call _ => decide (s.phase = .idle) | _ => true) &&
      allowedUdp lossy (s.step lossy e).1 es

theorem execUdp_run {lossy : Bytes → Text} {ipv6 : Bool} {urldata : Text} {tr : UdpTrace} {s : UdpSession}
    (h : UdpRun lossy ipv6 urldata tr s) (es : List UdpEvent) (ha : allowedUdp lossy s es = true) :
    UdpRun lossy ipv6 urldata (execUdp lossy tr s es).1 (execUdp lossy tr s es).2 := by
  induction es generalizing tr s with
  | nil => exact h
  | cons e es ih =>
    simp only [allowedUdp, Bool.and_eq_true] at ha
    refine ih (h.snoc e ?_) ha.2
    intro a he
    have := ha.1
    rw [he] at this
    simpa using this

/-- An announcement, for examples. -/
def sampleAnnouncement : Announcement :=
  ⟨⟨List.replicate 20 7, rfl⟩, ⟨List.replicate 20 9, rfl⟩, 0, 65535, 0, .started, 5, 50, 6881, .plain⟩

/-- The tracker answers the connect request (at second 1, transaction 17) with the connection ID 0xAB. -/
def sampleConnectResponse : Bytes := [0, 0, 0, 0, 0, 0, 0, 17, 0, 0, 0, 0, 0, 0, 0, 0xAB]

/-- A session that gets a connection and announces (transaction 18). -/
def sampleEvents : List UdpEvent :=
  [⟨0, 17, .call sampleAnnouncement⟩, ⟨0, 0, .sent⟩, ⟨1 * second, 18, .packet sampleConnectResponse⟩, ⟨1 * second, 0, .sent⟩]

/-- The session goes on to receive two peers. -/
def sampleReply : UdpEvent :=
  ⟨2 * second, 0, .packet [0, 0, 0, 1, 0, 0, 0, 18, 0, 0, 7, 8, 0, 0, 0, 1, 0, 0, 0, 2,
    1, 2, 3, 4, 0x1a, 0xe1, 5, 6, 7, 8, 0, 80]⟩

example : ∃ tr s pre e out post r, UdpRun (fun _ => []) false [] tr s ∧ tr = pre ++ (e, out) :: post ∧
    .result (.ok r) ∈ out ∧ r.peers.map (·.address) = [.v4 ⟨⟨0x01020304#32⟩, 6881⟩, .v4 ⟨⟨0x05060708#32⟩, 80⟩] :=
  ⟨_, _, (execUdp (fun _ => []) [] (.new false []) sampleEvents).1, sampleReply, _, [],
    ⟨0x708, [.ofV4 ⟨⟨0x01020304#32⟩, 6881⟩, .ofV4 ⟨⟨0x05060708#32⟩, 80⟩], none, none, none, none, none, some 1, some 2⟩,
    execUdp_run .nil (sampleEvents ++ [sampleReply]) (by decide +kernel), rfl, by decide +kernel, by decide +kernel⟩

/-- **C23 fails for error packets.** There is a session in which the announcement fails with the message of an error packet
whose transaction ID (99) is not that of the request (18). -/
theorem udp_foreign_error_accepted : ∃ tr s pre e out post bs req msg,
    UdpRun (fun bs => bs.map fun b => Char.ofNat b.toNat) false [] tr s ∧ Chronological tr ∧
    tr = pre ++ (e, out) :: post ∧ e.input = .packet bs ∧ lastSent pre = some req ∧ At req 12 4 18 ∧
    IsErrorResponse 99 (ascii "bad") bs ∧ msg = "bad".toList ∧ out = [.result (.error (.failure msg))] := by
  refine ⟨_, _, (execUdp (fun bs => bs.map fun b => Char.ofNat b.toNat) [] (.new false []) sampleEvents).1,
    ⟨2 * second, 0, .packet ([0, 0, 0, 3, 0, 0, 0, 99] ++ ascii "bad")⟩, _, [], _,
    udpAnnounceRequest 0xAB 18 sampleAnnouncement [], _,
    execUdp_run .nil (sampleEvents ++ [⟨2 * second, 0, .packet ([0, 0, 0, 3, 0, 0, 0, 99] ++ ascii "bad")⟩])
      (by decide +kernel), ?_, rfl, rfl, by decide +kernel, (udpAnnounceRequest_spec 0xAB 18 _ _).transactionId,
    by unfold IsErrorResponse At Field; decide +kernel, rfl, by decide +kernel⟩
  unfold Chronological
  decide +kernel

/-- **C24 fails when timers fire late.** There is a session, all of whose events are in order, that sends an announce request
at second 101 although the connection ID in it was given out at second 1: the process was not running (it was suspended, say)
between the second at which it sent the request first and second 101, and on waking up looks at the timer for sending again
before the one for the expiration of the connection. -/
theorem udp_stale_id_possible : ∃ tr s pre e out post pkt,
    UdpRun (fun _ => []) false [] tr s ∧ Chronological tr ∧ tr = pre ++ (e, out) :: post ∧ .transmit pkt ∈ out ∧
    IsAnnounceRequest 0xAB 18 sampleAnnouncement [] pkt ∧ e.time = 101 * second ∧
    ∀ t, GivenAt pre t 0xAB → t = 1 * second := by
  refine ⟨_, _, (execUdp (fun _ => []) [] (.new false []) (sampleEvents ++ [⟨101 * second, 0, .timer⟩])).1,
    ⟨101 * second, 0, .sent⟩, _, [], udpAnnounceRequest 0xAB 18 sampleAnnouncement [],
    execUdp_run .nil (sampleEvents ++ [⟨101 * second, 0, .timer⟩, ⟨101 * second, 0, .sent⟩])
      (by decide +kernel), ?_, rfl, by decide +kernel, udpAnnounceRequest_spec 0xAB 18 _ [], rfl, ?_⟩
  · unfold Chronological
    decide +kernel
  · rintro t ⟨p, e, o, q, bs, req, xid, heq, rfl, hi, -⟩
    have hmem : (e, o) ∈ (execUdp (fun _ => []) [] (.new false []) (sampleEvents ++ [⟨101 * second, 0, .timer⟩])).1 := by
      rw [heq]; simp
    have hall : ∀ x ∈ (execUdp (fun _ => []) [] (.new false []) (sampleEvents ++ [⟨101 * second, 0, .timer⟩])).1,
        (match x.1.input with | .packet _ => true | _ => false) = true → x.1.time = 1 * second := by decide +kernel
    exact hall _ hmem (by rw [hi])

instance (s : UdpSession) (t : Nat) : Decidable (s.Prompt t) := by
  unfold UdpSession.Prompt
  cases s.phase with
  | idle => exact instDecidableTrue
  | connecting a x chat => simp only; cases chat.wait <;> simp only <;> infer_instance
  | announcing a x c chat => simp only; cases chat.wait <;> simp only <;> infer_instance

/-- Every event comes while no timer is overdue. -/
def promptUdp (lossy : Bytes → Text) (s : UdpSession) : List UdpEvent → Bool
  | [] => true
  | e :: es => decide (s.Prompt e.time) && promptUdp lossy (s.step lossy e).1 es

theorem execUdp_prompt {lossy : Bytes → Text} {ipv6 : Bool} {urldata : Text} {tr : UdpTrace} {s : UdpSession}
    (h : UdpPromptRun lossy ipv6 urldata tr s) (es : List UdpEvent) (ha : allowedUdp lossy s es = true)
    (hp : promptUdp lossy s es = true) :
    UdpPromptRun lossy ipv6 urldata (execUdp lossy tr s es).1 (execUdp lossy tr s es).2 := by
  induction es generalizing tr s with
  | nil => exact h
  | cons e es ih =>
    simp only [allowedUdp, promptUdp, Bool.and_eq_true, decide_eq_true_eq] at ha hp
    refine ih (h.snoc e ?_ hp.1) ha.2 hp.2
    intro a he
    have := ha.1
    rw [he] at this
    simpa using this

/-- The prompt runs include sessions that get a connection, announce over it, and start over when it expires. -/
example : ∃ tr s, UdpPromptRun (fun _ => []) false [] tr s ∧ Chronological tr ∧ s.conn = none ∧
    sendTimes tr = [61 * second] := by
  refine ⟨_, _, execUdp_prompt .nil (sampleEvents ++ [⟨16 * second, 0, .timer⟩, ⟨16 * second, 0, .sent⟩,
    ⟨46 * second, 0, .timer⟩, ⟨46 * second, 0, .sent⟩, ⟨61 * second, 19, .timer⟩, ⟨61 * second, 0, .sent⟩])
    (by decide +kernel) (by decide +kernel), ?_, by decide +kernel, by decide +kernel⟩
  unfold Chronological
  decide +kernel

end Props

end Demag
