import Verif.Spec.AskLog
import Verif.Props.AskTraffic

/-! # C97: the log of asking a tracker -/

namespace Demag.Props

open Spec

variable {lossy : Bytes → Text} {parseIp : Text → Option IpAddr} {t : Tracker} {c : GetterCtx} {m : Magnet}

theorem askLog_unlogged {tr : AskLogTrace} {s : Ask} (h : AskLogRun lossy parseIp t c m tr s) : AskRun lossy parseIp t c (unlogged tr) s := by
  induction h with
  | init => exact .init
  | step _ hs ih =>
    simp only [Spec.unlogged, List.map_append, List.map_cons, List.map_nil] at ih ⊢
    exact .step ih hs

theorem askLog_exists {tr : AskTrace} {s : Ask} (h : AskRun lossy parseIp t c tr s) : ∃ ltr, AskLogRun lossy parseIp t c m ltr s ∧ Spec.unlogged ltr = tr := by
  induction h with
  | init => exact ⟨[], .init, rfl⟩
  | step _ hs ih =>
    obtain ⟨ltr, h1, rfl⟩ := ih
    exact ⟨_, .step h1 hs, by simp [Spec.unlogged]⟩

theorem askLog_split {tr : AskLogTrace} {s : Ask} (h : AskLogRun lossy parseIp t c m tr s) {pre post : AskLogTrace} {e : AskEvent}
    {out : List AskOutput} {ls : List LogLine} (ht : tr = pre ++ (e, out, ls) :: post) :
    ∃ s1 s2, AskLogRun lossy parseIp t c m pre s1 ∧ s1.step lossy parseIp t c e = some (s2, out) ∧ ls = s1.stepLog lossy parseIp t c m e := by
  induction h generalizing post with
  | init => simp at ht
  | @step tr s e' s' out' hrun hs ih =>
    rcases List.eq_nil_or_concat post with rfl | ⟨post', x, rfl⟩
    · obtain ⟨h1, h2⟩ := List.append_inj' ht rfl
      cases h2
      subst h1
      exact ⟨s, s', hrun, hs, rfl⟩
    · rw [List.concat_eq_append, ← List.cons_append, ← List.append_assoc] at ht
      obtain ⟨h1, -⟩ := List.append_inj' ht rfl
      exact ih h1

/-! ### What a UDP session tells -/

def itemOfStep (n : Fin 5) : UdpItem := match n with
  | 0 => .restarts
  | 1 => .expired
  | 2 => .asks
  | 3 => .connected
  | 4 => .again

def itemOfUdp : UdpOutput → Option UdpItem
  | .transmit bs => some (.sent bs)
  | _ => none

/-- The items of a step of the session. -/
def newItems (time : Nat) (ns : List (Fin 5)) (out : List UdpOutput) : List (Nat × UdpItem) :=
  (ns.map itemOfStep ++ out.filterMap itemOfUdp).map fun i => (time, i)

theorem told_snoc {url : Bytes} {l : List (Nat × UdpItem)} (h : ToldRight c url l) {time : Nat} {x : UdpItem} (hx : RightAfter c url l time x) :
    ToldRight c url (l ++ [(time, x)]) := by
  intro before time' x' after he
  rcases List.eq_nil_or_concat after with rfl | ⟨after', y, rfl⟩
  · obtain ⟨h1, h2⟩ := List.append_inj' he rfl
    cases h2
    subst h1
    exact hx
  · rw [List.concat_eq_append, ← List.cons_append, ← List.append_assoc] at he
    obtain ⟨h1, -⟩ := List.append_inj' he rfl
    exact h before time' x' after' h1

/-- How far the exchange of a message is told. -/
def ChatTold (l : List (Nat × UdpItem)) (chat : Chat) (first : UdpItem → Prop) : Prop :=
  match chat.wait with
  | .sending => (∃ t x, l.getLast? = some (t, x) ∧ first x) ∨ (∃ t, l.getLast? = some (t, .again) ∧ (packets l).getLast? = some chat.msg)
  | .waiting d => ∃ t, l.getLast? = some (t, .sent chat.msg) ∧ t + 15 * second ≤ d

/-- How far a session is told. -/
structure SessTold (c : GetterCtx) (l : List (Nat × UdpItem)) (v : UdpSession) : Prop where
  conn : ∀ k, v.conn = some k → ∃ t', (connections l).getLast? = some t' ∧ k.expiration = t' + 60 * second
  phase : match v.phase with
    | .idle => True
    | .connecting a xid chat => ∃ ev, a = c.announcement ev ∧ (begun l).getLast? = some ev ∧ IsConnectRequest xid.toNat chat.msg ∧
        ChatTold l chat (fun x => x = .asks)
    | .announcing a xid k chat => v.conn = some k ∧ ∃ ev, a = c.announcement ev ∧ (begun l).getLast? = some ev ∧
        (∃ cid, IsAnnounceRequest cid xid.toNat (c.announcement ev) (utf8 v.urldata) chat.msg) ∧
        ChatTold l chat (fun x => x = .connected ∨ (ev = .stopped ∧ x = .begins .stopped))

theorem chat_sent {url : Bytes} {l : List (Nat × UdpItem)} {chat : Chat} {time : Nat} (hw : chat.wait = .sending) {first : UdpItem → Prop}
    (h : ChatTold l chat first) (hf : ∀ t x, l.getLast? = some (t, x) → first x → RightAfter c url l time (.sent chat.msg)) :
    RightAfter c url l time (.sent chat.msg) := by
  unfold ChatTold at h
  rw [hw] at h
  rcases h with ⟨t, x, h1, h2⟩ | ⟨t, h1, h2⟩
  · exact hf t x h1 h2
  · exact .inr (.inr ⟨t, h1, h2⟩)

theorem chat_waits (l : List (Nat × UdpItem)) (chat : Chat) (time : Nat) (first : UdpItem → Prop) :
    ChatTold (l ++ [(time, .sent chat.msg)]) (chat.onSent time) first := by
  refine ⟨time, by simp [Chat.onSent], ?_⟩
  have : 15 ≤ 15 <<< chat.n := by
    rw [Nat.shiftLeft_eq]
    have := Nat.one_le_two_pow (n := chat.n)
    omega
  have := Nat.mul_le_mul_right second this
  omega

theorem chat_again {l : List (Nat × UdpItem)} {chat : Chat} {d time : Nat} {first : UdpItem → Prop} (hw : chat.wait = .waiting d)
    (h : ChatTold l chat first) (hd : d ≤ time) (url : Bytes) (first' : UdpItem → Prop) :
    RightAfter c url l time .again ∧ ChatTold (l ++ [(time, .again)]) chat.onTimeout first' := by
  unfold ChatTold at h
  rw [hw] at h
  obtain ⟨t, h1, h2⟩ := h
  refine ⟨⟨t, _, h1, by omega⟩, .inr ⟨time, by simp, ?_⟩⟩
  obtain ⟨l', rfl⟩ : ∃ l', l = l' ++ [(t, .sent chat.msg)] := by
    rcases List.eq_nil_or_concat l with rfl | ⟨l', y, rfl⟩
    · cases h1
    · simp at h1; subst h1; exact ⟨l', by simp⟩
  simp [packets, Chat.onTimeout]

theorem conns_quiet (l : List (Nat × UdpItem)) (time : Nat) (x : UdpItem) (hx : x ≠ .connected) : connections (l ++ [(time, x)]) = connections l := by
  cases x <;> simp [connections] at hx ⊢

theorem begun_quiet (l : List (Nat × UdpItem)) (time : Nat) (x : UdpItem) (hx : ∀ ev, x ≠ .begins ev) : begun (l ++ [(time, x)]) = begun l := by
  cases x <;> simp [begun] at hx ⊢

/-- A new connection is begun. -/
theorem sess_asks {l : List (Nat × UdpItem)} {v : UdpSession} {time : Nat} {xid : BitVec 32} {ev : AnnounceEvent}
    (hc : ∀ k, v.conn = some k → ∃ t', (connections l).getLast? = some t' ∧ k.expiration = t' + 60 * second) (hb : (begun l).getLast? = some ev)  :
    SessTold c (l ++ [(time, .asks)]) (v.startConnect (c.announcement ev) xid).1 := by
  refine ⟨?_, ?_⟩
  · rw [conns_quiet _ _ _ (by simp)]
    exact hc
  · refine ⟨ev, rfl, by rw [begun_quiet _ _ _ (by simp)]; exact hb, udpConnectRequest_spec xid, ?_⟩
    exact .inl ⟨time, .asks, by simp, rfl⟩

/-- The last that is told is an announcement that is sent. -/
def LastAnnounced (c : GetterCtx) (url : Bytes) (l : List (Nat × UdpItem)) : Prop :=
  ∃ t0 req cid xid ev, l.getLast? = some (t0, .sent req) ∧ IsAnnounceRequest cid xid (c.announcement ev) url req

/-- A step of a session that is not called. -/
theorem sess_step {l : List (Nat × UdpItem)} {v : UdpSession} {e : UdpEvent} (he : ∀ a, e.input ≠ .call a) (hr : ToldRight c (utf8 v.urldata) l)
    (h : SessTold c l v) :
    ToldRight c (utf8 v.urldata) (l ++ newItems e.time (v.stepLog lossy e) (v.step lossy e).2) ∧
    SessTold c (l ++ newItems e.time (v.stepLog lossy e) (v.step lossy e).2) (v.step lossy e).1 ∧ (v.step lossy e).1.urldata = v.urldata ∧
    (∀ r, udpAnswer (v.step lossy e).2 = some (.ok r) → (v.step lossy e).1.conn ≠ none ∧
      LastAnnounced c (utf8 v.urldata) (l ++ newItems e.time (v.stepLog lossy e) (v.step lossy e).2)) := by
  obtain ⟨time, nxid, input⟩ := e
  obtain ⟨ip, url, conn, phase⟩ := v
  obtain ⟨h1, h2⟩ := h
  have same : ∀ {ph : UdpPhase}, (match ph with
      | .idle => True
      | .connecting a xid chat => ∃ ev, a = c.announcement ev ∧ (begun l).getLast? = some ev ∧ IsConnectRequest xid.toNat chat.msg ∧
        ChatTold l chat (fun x => x = .asks)
      | .announcing a xid k chat => conn = some k ∧ ∃ ev, a = c.announcement ev ∧ (begun l).getLast? = some ev ∧
        (∃ cid, IsAnnounceRequest cid xid.toNat (c.announcement ev) (utf8 url) chat.msg) ∧
        ChatTold l chat (fun x => x = .connected ∨ (ev = .stopped ∧ x = .begins .stopped))) →
      ToldRight c (utf8 url) (l ++ newItems time [] []) ∧ SessTold c (l ++ newItems time [] []) ⟨ip, url, conn, ph⟩ := by
    intro ph hp
    have : newItems time [] [] = [] := rfl
    rw [this, List.append_nil]
    exact ⟨hr, h1, hp⟩
  cases phase with
  | idle =>
    have e1 := udp_step_idle (lossy := lossy) (u := ⟨ip, url, conn, .idle⟩) (e := ⟨time, nxid, input⟩) rfl he
    have e2 : UdpSession.stepLog lossy ⟨ip, url, conn, .idle⟩ ⟨time, nxid, input⟩ = [] := by
      cases input <;> first | rfl | exact absurd rfl (he _)
    rw [e1, e2]
    obtain ⟨a1, a2⟩ := same (ph := .idle) trivial
    exact ⟨a1, a2, rfl, fun r h => by cases h⟩
  | connecting a xid chat =>
    obtain ⟨msg, n, wait⟩ := chat
    obtain ⟨ev, rfl, hb, hm, hch⟩ := h2
    have stay := same (ph := .connecting (c.announcement ev) xid ⟨msg, n, wait⟩) ⟨ev, rfl, hb, hm, hch⟩
    cases wait with
    | sending =>
      cases input with
      | call a => exact absurd rfl (he a)
      | sent =>
        have hx : RightAfter c (utf8 url) l time (.sent msg) := by
          refine chat_sent rfl hch ?_
          rintro t x h1 rfl
          exact .inl ⟨xid.toNat, t, hm, h1⟩
        refine ⟨told_snoc hr hx, ⟨?_, ⟨ev, rfl, ?_, hm, chat_waits _ ⟨msg, n, .sending⟩ _ _⟩⟩, rfl, fun r h => by cases h⟩
        · rw [show newItems time _ _ = [(time, .sent msg)] from rfl, conns_quiet _ _ _ (by simp)]; exact h1
        · rw [show newItems time _ _ = [(time, .sent msg)] from rfl, begun_quiet _ _ _ (by simp)]; exact hb
      | sendFailed => exact ⟨(same (ph := .idle) trivial).1, (same (ph := .idle) trivial).2, rfl, fun r h => by cases h⟩
      | packet bs => exact ⟨stay.1, stay.2, rfl, fun r h => by cases h⟩
      | recvFailed => exact ⟨stay.1, stay.2, rfl, fun r h => by cases h⟩
      | timer => exact ⟨stay.1, stay.2, rfl, fun r h => by cases h⟩
    | waiting d =>
      cases input with
      | call a => exact absurd rfl (he a)
      | sent => exact ⟨stay.1, stay.2, rfl, fun r h => by cases h⟩
      | sendFailed => exact ⟨stay.1, stay.2, rfl, fun r h => by cases h⟩
      | recvFailed => exact ⟨(same (ph := .idle) trivial).1, (same (ph := .idle) trivial).2, rfl, fun r h => by cases h⟩
      | timer =>
        by_cases hd : d ≤ time
        · simp only [UdpSession.step, UdpSession.stepLog, if_pos hd]
          obtain ⟨b1, b2⟩ := chat_again (c := c) rfl hch hd (utf8 url) (fun x => x = .asks)
          refine ⟨told_snoc hr b1, ⟨?_, ⟨ev, rfl, ?_, hm, b2⟩⟩, trivial, fun r h => by cases h⟩
          · rw [show newItems time _ _ = [(time, .again)] from rfl, conns_quiet _ _ _ (by simp)]; exact h1
          · rw [show newItems time _ _ = [(time, .again)] from rfl, begun_quiet _ _ _ (by simp)]; exact hb
        · simp only [UdpSession.step, UdpSession.stepLog, if_neg hd]
          exact ⟨stay.1, stay.2, trivial, fun r h => by cases h⟩
      | packet bs =>
        cases hp : udpResponse lossy udpConnectResponse bs with
        | error er =>
          simp only [UdpSession.step, UdpSession.stepLog, hp]
          exact ⟨(same (ph := .idle) trivial).1, (same (ph := .idle) trivial).2, trivial, fun r h => by simp [udpAnswer] at h⟩
        | ok r =>
          by_cases hx : r.xid ≠ xid
          · simp only [UdpSession.step, UdpSession.stepLog, hp, if_pos hx]
            exact ⟨(same (ph := .idle) trivial).1, (same (ph := .idle) trivial).2, trivial, fun r h => by simp [udpAnswer] at h⟩
          · simp only [UdpSession.step, UdpSession.stepLog, hp, if_neg hx]
            obtain ⟨t0, g1, g2⟩ := hch
            refine ⟨told_snoc hr (x := .connected) ⟨t0, xid.toNat, msg, g1, hm⟩, ⟨?_, ?_⟩, rfl, ?_⟩
            · intro k hk
              cases hk
              exact ⟨time, by rw [show newItems time _ _ = [(time, .connected)] from rfl]; simp [connections], rfl⟩
            · refine ⟨rfl, ev, rfl, ?_, ⟨_, udpAnnounceRequest_spec _ _ _ _⟩, .inl ⟨time, .connected, by
                rw [show newItems time _ _ = [(time, .connected)] from rfl]; simp, .inl rfl⟩⟩
              rw [show newItems time _ _ = [(time, .connected)] from rfl, begun_quiet _ _ _ (by simp)]; exact hb
            · intro r h; cases h
  | announcing a xid k chat =>
    obtain ⟨msg, n, wait⟩ := chat
    obtain ⟨hk, ev, rfl, hb, hm, hch⟩ := h2
    simp only at hk
    subst hk
    have stay := same (ph := .announcing (c.announcement ev) xid k ⟨msg, n, wait⟩) ⟨rfl, ev, rfl, hb, hm, hch⟩
    obtain ⟨t', ht, hexp⟩ := h1 k rfl
    have restart : (∀ t x, l.getLast? = some (t, x) → x = .connected ∨ x = .again ∨ x = .begins .stopped ∨ ∃ bs, x = .sent bs) → k.expiration ≤ time →
        ToldRight c (utf8 url) (l ++ newItems time [0, 2] (UdpSession.startConnect ⟨ip, url, none, .announcing (c.announcement ev) xid k ⟨msg, n, wait⟩⟩
          (c.announcement ev) nxid).2) ∧
        SessTold c (l ++ newItems time [0, 2] (UdpSession.startConnect ⟨ip, url, none, .announcing (c.announcement ev) xid k ⟨msg, n, wait⟩⟩
          (c.announcement ev) nxid).2) (UdpSession.startConnect ⟨ip, url, none, .announcing (c.announcement ev) xid k ⟨msg, n, wait⟩⟩
          (c.announcement ev) nxid).1 := by
      intro hl hx
      have e1 : l ++ newItems time [0, 2] (UdpSession.startConnect ⟨ip, url, none, .announcing (c.announcement ev) xid k ⟨msg, n, wait⟩⟩
          (c.announcement ev) nxid).2 = (l ++ [(time, .restarts)]) ++ [(time, .asks)] := by
        rw [List.append_assoc]; rfl
      rw [e1]
      refine ⟨told_snoc (told_snoc hr (x := .restarts) ⟨t', ht, by omega, hl⟩) (x := .asks) ⟨time, .inl (by simp)⟩, sess_asks (fun k hk => by cases hk) ?_⟩
      rw [begun_quiet _ _ _ (by simp)]; exact hb
    cases wait with
    | sending =>
      have hlast : ∀ t x, l.getLast? = some (t, x) → x = .connected ∨ x = .again ∨ x = .begins .stopped ∨ ∃ bs, x = .sent bs := by
        intro t x hx
        rcases hch with ⟨_, _, g1, g2⟩ | ⟨_, g1, g2⟩
        · rw [hx] at g1
          cases g1
          rcases g2 with rfl | ⟨-, rfl⟩ <;> simp
        · rw [hx] at g1
          cases g1
          simp
      cases input with
      | call a => exact absurd rfl (he a)
      | sent =>
        have hx : RightAfter c (utf8 url) l time (.sent msg) := by
          refine chat_sent rfl hch ?_
          intro t x h1 h2
          obtain ⟨cid, hm⟩ := hm
          refine .inr (.inl ⟨cid, xid.toNat, ev, t, hm, hb, ?_⟩)
          rcases h2 with rfl | ⟨rfl, rfl⟩
          · exact .inl h1
          · exact .inr ⟨rfl, h1⟩
        refine ⟨told_snoc hr hx, ⟨?_, ⟨rfl, ev, rfl, ?_, hm, chat_waits _ ⟨msg, n, .sending⟩ _ _⟩⟩, rfl, fun r h => by cases h⟩
        · rw [show newItems time _ _ = [(time, .sent msg)] from rfl, conns_quiet _ _ _ (by simp)]; exact h1
        · rw [show newItems time _ _ = [(time, .sent msg)] from rfl, begun_quiet _ _ _ (by simp)]; exact hb
      | sendFailed => exact ⟨(same (ph := .idle) trivial).1, (same (ph := .idle) trivial).2, rfl, fun r h => by cases h⟩
      | packet bs => exact ⟨stay.1, stay.2, rfl, fun r h => by cases h⟩
      | recvFailed => exact ⟨stay.1, stay.2, rfl, fun r h => by cases h⟩
      | timer =>
        by_cases hd : k.expiration ≤ time
        · simp only [UdpSession.step, UdpSession.stepLog, if_pos hd]
          obtain ⟨b1, b2⟩ := restart hlast hd
          exact ⟨b1, b2, rfl, fun r h => by cases h⟩
        · simp only [UdpSession.step, UdpSession.stepLog, if_neg hd]
          exact ⟨stay.1, stay.2, trivial, fun r h => by cases h⟩
    | waiting d =>
      cases input with
      | call a => exact absurd rfl (he a)
      | sent => exact ⟨stay.1, stay.2, rfl, fun r h => by cases h⟩
      | sendFailed => exact ⟨stay.1, stay.2, rfl, fun r h => by cases h⟩
      | recvFailed => exact ⟨(same (ph := .idle) trivial).1, (same (ph := .idle) trivial).2, rfl, fun r h => by cases h⟩
      | timer =>
        by_cases hd : d ≤ time
        · simp only [UdpSession.step, UdpSession.stepLog, if_pos hd]
          obtain ⟨b1, b2⟩ := chat_again (c := c) rfl hch hd (utf8 url) (fun x => x = .connected ∨ (ev = .stopped ∧ x = .begins .stopped))
          refine ⟨told_snoc hr b1, ⟨?_, ⟨rfl, ev, rfl, ?_, hm, b2⟩⟩, trivial, fun r h => by cases h⟩
          · rw [show newItems time _ _ = [(time, .again)] from rfl, conns_quiet _ _ _ (by simp)]; exact h1
          · rw [show newItems time _ _ = [(time, .again)] from rfl, begun_quiet _ _ _ (by simp)]; exact hb
        · by_cases hx : k.expiration ≤ time
          · simp only [UdpSession.step, UdpSession.stepLog, if_neg hd, if_pos hx]
            obtain ⟨t0, g1, -⟩ := hch
            obtain ⟨b1, b2⟩ := restart (fun t x hx => by rw [g1] at hx; cases hx; simp) hx
            exact ⟨b1, b2, rfl, fun r h => by cases h⟩
          · simp only [UdpSession.step, UdpSession.stepLog, if_neg hd, if_neg hx]
            exact ⟨stay.1, stay.2, trivial, fun r h => by cases h⟩
      | packet bs =>
        cases hp : udpResponse lossy (udpAnnounceResponse ip) bs with
        | error er =>
          simp only [UdpSession.step, UdpSession.stepLog, hp]
          exact ⟨(same (ph := .idle) trivial).1, (same (ph := .idle) trivial).2, trivial, fun r h => by cases h⟩
        | ok r =>
          by_cases hx : r.xid ≠ xid
          · simp only [UdpSession.step, UdpSession.stepLog, hp, if_pos hx]
            exact ⟨(same (ph := .idle) trivial).1, (same (ph := .idle) trivial).2, trivial, fun r h => by cases h⟩
          · simp only [UdpSession.step, UdpSession.stepLog, hp, if_neg hx]
            refine ⟨(same (ph := .idle) trivial).1, (same (ph := .idle) trivial).2, trivial, fun r h => ⟨by simp, ?_⟩⟩
            obtain ⟨t0, g1, -⟩ := hch
            obtain ⟨cid, hm⟩ := hm
            refine ⟨t0, msg, cid, _, ev, ?_, hm⟩
            rw [show newItems time [] _ = [] from rfl, List.append_nil]
            exact g1

/-- A session is called. -/
theorem sess_call {l : List (Nat × UdpItem)} {v : UdpSession} {time : Nat} {nxid : BitVec 32} {ev : AnnounceEvent} (hi : v.phase = .idle)
    (hr : ToldRight c (utf8 v.urldata) l) (h : SessTold c l v) (hs : ev = .started ∧ v.conn = none ∧ connections l = [] ∨ ev = .stopped ∧ v.conn ≠ none) :
    ToldRight c (utf8 v.urldata) (l ++ (time, .begins ev) :: newItems time (v.stepLog lossy ⟨time, nxid, .call (c.announcement ev)⟩) []) ∧
    SessTold c (l ++ (time, .begins ev) :: newItems time (v.stepLog lossy ⟨time, nxid, .call (c.announcement ev)⟩) [])
      (v.step lossy ⟨time, nxid, .call (c.announcement ev)⟩).1 ∧ (v.step lossy ⟨time, nxid, .call (c.announcement ev)⟩).1.urldata = v.urldata := by
  obtain ⟨ip, url, conn, phase⟩ := v
  obtain ⟨h1, -⟩ := h
  simp only at hi hs h1 hr
  subst hi
  have r1 : ToldRight c (utf8 url) (l ++ [(time, .begins ev)]) := told_snoc hr trivial
  have b1 : (begun (l ++ [(time, .begins ev)])).getLast? = some ev := by simp [begun]
  have h1' : ∀ k, conn = some k → ∃ t', (connections (l ++ [(time, .begins ev)])).getLast? = some t' ∧ k.expiration = t' + 60 * second := by
    rw [conns_quiet _ _ _ (by simp)]
    exact h1
  cases conn with
  | none =>
    rcases hs with ⟨rfl, -, hn⟩ | ⟨-, h⟩
    · have e1 : l ++ (time, .begins .started) :: newItems time (UdpSession.stepLog lossy ⟨ip, url, none, .idle⟩ ⟨time, nxid, .call (c.announcement .started)⟩) [] =
          (l ++ [(time, .begins .started)]) ++ [(time, .asks)] := by
        rw [List.append_assoc]; rfl
      rw [e1]
      refine ⟨told_snoc r1 (x := .asks) ⟨time, .inr (.inr ⟨by simp, ?_⟩)⟩, sess_asks h1' b1, rfl⟩
      rw [conns_quiet _ _ _ (by simp)]
      exact hn
    · exact absurd rfl h
  | some k =>
    rcases hs with ⟨-, h, -⟩ | ⟨rfl, -⟩
    · cases h
    · by_cases hx : time < k.expiration
      · simp only [UdpSession.step, UdpSession.stepLog, if_pos hx]
        refine ⟨r1, ⟨h1', ⟨rfl, .stopped, rfl, b1, ⟨_, udpAnnounceRequest_spec _ _ _ _⟩, ?_⟩⟩, rfl⟩
        exact .inl ⟨time, .begins .stopped, by rw [show newItems time [] [] = [] from rfl]; simp, .inr ⟨rfl, rfl⟩⟩
      · simp only [UdpSession.step, UdpSession.stepLog, if_neg hx]
        obtain ⟨t', g1, g2⟩ := h1' k rfl
        have r2 : ToldRight c (utf8 url) (l ++ [(time, .begins .stopped)] ++ [(time, .expired)]) :=
          told_snoc r1 (x := .expired) ⟨time, t', by simp, g1, by omega⟩
        have e1 : l ++ (time, .begins .stopped) :: newItems time [1, 2] [] = (l ++ [(time, .begins .stopped)] ++ [(time, .expired)]) ++ [(time, .asks)] := by
          rw [List.append_assoc, List.append_assoc]; rfl
        rw [e1]
        refine ⟨told_snoc r2 (x := .asks) ⟨time, .inr (.inl (by simp))⟩, sess_asks ?_ ?_, rfl⟩
        · rw [conns_quiet _ _ _ (by simp)]; exact h1'
        · rw [begun_quiet _ _ _ (by simp)]; exact b1

theorem items_of_steps (ns : List (Fin 5)) (u : UdpUrl) : (ns.map fun n => LogLine.udpStep n u).filterMap itemOfLine = ns.map itemOfStep := by
  induction ns with
  | nil => rfl
  | cons n ns ih =>
    rw [List.map_cons, List.filterMap_cons, List.map_cons, ih]
    match n with
    | 0 => rfl
    | 1 => rfl
    | 2 => rfl
    | 3 => rfl
    | 4 => rfl

theorem items_of_answer (s : Ask) (r : Except AskError AnnounceResponse) : (s.answerLog t m r).filterMap itemOfLine = [] := by
  cases r with
  | ok r =>
    simp only [Ask.answerLog]
    cases r.warningMessage <;> cases s.getter.phase <;> rfl
  | error e =>
    simp only [Ask.answerLog]
    cases s.getter.phase <;> rfl

theorem items_of_datagrams (addr : SockAddr) (out : List UdpOutput) : (udpDatagrams addr out).filterMap itemOfOutput = out.filterMap itemOfUdp := by
  induction out with
  | nil => rfl
  | cons o out ih =>
    cases o <;> simp only [udpDatagrams, List.filterMap_cons, itemOfOutput, itemOfUdp, ih]

/-- What holds of asking a UDP tracker. -/
structure AskTold (c : GetterCtx) (uu : UdpUrl) (l : List (Nat × UdpItem)) (s : Ask) : Prop where
  right : ToldRight c (utf8 uu.urldata) l
  start : s.getter.phase = .connecting → l = []
  sess : ∀ addr v, s.inner = some (.udp addr v) → v.urldata = uu.urldata ∧ SessTold c l v ∧ (s.getter.task = .spawned → v.conn ≠ none ∧ LastAnnounced c (utf8 uu.urldata) l)

theorem AskTold.gone {uu : UdpUrl} {l : List (Nat × UdpItem)} {s : Ask} (h : AskTold c uu l s) {g : GetterState} (hg : g.phase ≠ .connecting) :
    AskTold c uu (l ++ []) ⟨g, none⟩ := by
  rw [List.append_nil]
  exact ⟨h.right, fun hp => absurd hp hg, fun _ _ h => by cases h⟩

theorem ask_told {uu : UdpUrl} {tr : AskLogTrace} {s : Ask} (h : AskLogRun lossy parseIp (.udp uu) c m tr s) : AskTold c uu (udpItems tr) s := by
  induction h with
  | init =>
    refine ⟨?_, fun _ => rfl, fun _ _ h => by cases h⟩
    intro before time x after h
    simp [udpItems] at h
  | @step tr s e s' out hrun hs ih =>
    have inv := ask_inv (askLog_unlogged hrun)
    have e0 : udpItems (tr ++ [(e, out, s.stepLog lossy parseIp (.udp uu) c m e)]) =
        udpItems tr ++ itemsOf (e, out, s.stepLog lossy parseIp (.udp uu) c m e) := by
      simp [udpItems]
    rw [e0]
    cases e with
    | timeout =>
      cases inv <;> simp [Ask.step, GetterState.step, Option.map] at hs <;> obtain ⟨rfl, rfl⟩ := hs <;> exact ih.gone (by simp)
    | dropped =>
      cases inv <;> simp [Ask.step, GetterState.step, Option.map] at hs <;> obtain ⟨rfl, rfl⟩ := hs <;> exact ih.gone (by simp)
    | stopCancelled =>
      cases inv <;> simp [Ask.step, GetterState.step, Option.map] at hs <;> obtain ⟨rfl, rfl⟩ := hs <;> exact ih.gone (by simp)
    | client built => simp [Ask.step] at hs
    | http o =>
      cases inv with
      | starting h1 h2 => cases h2 with | udp => simp [Ask.step] at hs | http ht => cases ht
      | spawned h1 h2 => cases h2 with | udp => simp [Ask.step] at hs | http ht => cases ht
      | announcing h1 h2 => cases h2 with | udp => simp [Ask.step] at hs | http ht => cases ht
      | _ => simp [Ask.step] at hs
    | stopScheduled time xid =>
      cases inv with
      | @spawned i ps h1 h2 =>
        simp [Ask.step, Ask.tell, GetterState.step, InnerSession.perform] at hs
        obtain ⟨rfl, rfl⟩ := hs
        cases h2 with
        | @udp uu' addr v utr' ht hu hl hd hfd hc hb hr =>
          cases ht
          have hidle : v.phase = .idle := Decidable.byContradiction fun h => by simpa using hb.1 h
          obtain ⟨g1, g2, g3⟩ := ih.sess addr v rfl
          have hr := ih.right
          rw [← g1] at hr
          obtain ⟨b1, b2, b3⟩ := sess_call (lossy := lossy) (time := time) (nxid := xid) hidle hr g2 (.inr ⟨rfl, (g3 rfl).1⟩)
          have e1 : itemsOf (.stopScheduled time xid, (InnerSession.udp addr v).announce lossy time xid (c.announcement .stopped) |>.2,
              Ask.stepLog lossy parseIp (.udp uu) c m ⟨⟨.over, .spawned⟩, some (.udp addr v)⟩ (.stopScheduled time xid)) =
              (time, .begins .stopped) :: newItems time (v.stepLog lossy ⟨time, xid, .call (c.announcement .stopped)⟩) [] := by
            simp only [itemsOf, Ask.stepLog, InnerSession.announceLog, InnerSession.announce, AskEvent.moment, Option.getD, List.filterMap_cons,
              itemOfLine, items_of_steps, newItems, List.filterMap_nil, List.append_nil, List.map_cons]
            rfl
          rw [e1]
          refine ⟨g1 ▸ b1, fun h => (by cases h), fun addr' v' h => ?_⟩
          cases h
          exact ⟨b3.trans g1, b2, fun h => by cases h⟩
        | http ht => cases ht
      | _ => simp [Ask.step, Ask.tell, GetterState.step] at hs
    | socket time xid x =>
      cases hx : udpConnect x with
      | error er =>
        cases inv <;> simp [Ask.step, GetterState.step, hx] at hs
        obtain ⟨rfl, rfl⟩ := hs
        have e1 : itemsOf (.socket time xid x, [.result (.error (.inner er))],
            Ask.stepLog lossy parseIp (.udp uu) c m ⟨⟨.connecting, .absent⟩, none⟩ (.socket time xid x)) = [] := by
          simp only [itemsOf, Ask.stepLog, hx, socketLog]
          cases x.lookup with
          | none => rfl
          | some as =>
            cases as with
            | nil => rfl
            | cons a as => simp only; split <;> rfl
        rw [e1]
        exact ih.gone (by simp)
      | ok addr =>
        cases inv with
        | connecting h1 h2 h3 =>
          simp [Ask.step, Ask.tell, GetterState.step, hx, InnerSession.perform, InnerSession.announce] at hs
          obtain ⟨rfl, rfl⟩ := hs
          have hn := ih.start rfl
          have hr := ih.right
          rw [hn] at hr ⊢
          obtain ⟨b1, b2, b3⟩ := sess_call (lossy := lossy) (v := .new addr.isV6 uu.urldata) (ev := .started) (time := time) (nxid := xid) rfl hr
            ⟨fun k h => (by cases h), trivial⟩ (.inl ⟨rfl, rfl, rfl⟩)
          have e1 : itemsOf (.socket time xid x, [], Ask.stepLog lossy parseIp (.udp uu) c m ⟨⟨.connecting, .absent⟩, none⟩ (.socket time xid x)) =
              (time, .begins .started) :: newItems time ((UdpSession.new addr.isV6 uu.urldata).stepLog lossy ⟨time, xid, .call (c.announcement .started)⟩) [] := by
            have e2 : (socketLog uu x).filterMap itemOfLine = [] := by
              unfold socketLog
              cases x.lookup with
              | none => rfl
              | some as =>
                cases as with
                | nil => rfl
                | cons a as => simp only; split <;> rfl
            simp only [itemsOf, Ask.stepLog, hx, InnerSession.announceLog, AskEvent.moment, Option.getD, List.filterMap_append, List.filterMap_cons, e2,
              itemOfLine, items_of_steps, newItems, List.filterMap_nil, List.append_nil, List.map_cons, List.nil_append]
            rfl
          rw [e1]
          refine ⟨b1, fun h => (by cases h), fun addr' v' h => ?_⟩
          cases h
          exact ⟨b3, b2, fun h => by cases h⟩
        | _ => simp [Ask.step, Ask.tell, GetterState.step, hx] at hs
    | udp ue =>
      have he : ∀ a, ue.input ≠ .call a := by
        intro a ha
        obtain ⟨g, inner⟩ := s
        cases inner with
        | none => simp [Ask.step] at hs
        | some i => cases i <;> simp [Ask.step, ha] at hs
      obtain ⟨g, inner⟩ := s
      cases inner with
      | none => simp [Ask.step] at hs
      | some i =>
        cases i with
        | http u b => simp [Ask.step] at hs
        | udp addr v =>
          obtain ⟨g1, g2, g3⟩ := ih.sess addr v rfl
          have hr := ih.right
          rw [← g1] at hr
          obtain ⟨b1, b2, b3, b4⟩ := sess_step (lossy := lossy) he hr g2
          rw [ask_step_udp he] at hs
          have e1 : ∀ q : List AskOutput, q.filterMap itemOfOutput = [] → itemsOf (.udp ue, udpDatagrams addr (v.step lossy ue).2 ++ q,
              Ask.stepLog lossy parseIp (.udp uu) c m ⟨g, some (.udp addr v)⟩ (.udp ue)) = newItems ue.time (v.stepLog lossy ue) (v.step lossy ue).2 := by
            intro q hq
            simp only [itemsOf, Ask.stepLog, AskEvent.moment, Option.getD, List.filterMap_append, items_of_steps, items_of_datagrams, hq, List.append_nil,
              newItems]
            cases udpAnswer (v.step lossy ue).2 with
            | none => simp
            | some a => simp [items_of_answer]
          cases ha : udpAnswer (v.step lossy ue).2 with
          | none =>
            rw [ha] at hs
            cases hs
            have e2 := e1 [] rfl
            rw [List.append_nil] at e2
            rw [e2]
            have hc := ih.start
            refine ⟨g1 ▸ b1, fun h => ?_, fun addr' v' h => ?_⟩
            · cases inv with
              | starting => cases h
              | spawned => cases h
              | announcing => cases h
            · cases h
              refine ⟨b3.trans g1, b2, ?_⟩
              intro ht
              cases inv with
              | starting => cases ht
              | announcing => cases ht
              | spawned h1 h2 =>
                cases h2 with
                | udp _ _ _ _ _ _ hb =>
                  have hidle : v.phase = .idle := Decidable.byContradiction fun h => by simpa using hb.1 h
                  have e3 : v.stepLog lossy ue = [] := by
                    obtain ⟨time, nxid, input⟩ := ue
                    cases input <;> first | exact absurd rfl (he _) | simp [UdpSession.stepLog, hidle]
                  rw [udp_step_idle hidle he, e3, show newItems ue.time [] [] = [] from rfl, List.append_nil]
                  exact g3 rfl
          | some a =>
            rw [ha] at hs
            cases inv with
            | starting =>
              cases a with
              | ok r =>
                simp [Ask.tell, Ask.answer, GetterState.step, InnerSession.perform, Except.mapError] at hs
                obtain ⟨rfl, rfl⟩ := hs
                rw [e1 _ rfl]
                refine ⟨g1 ▸ b1, fun h => (by cases h), fun addr' v' h => ?_⟩
                cases h
                exact ⟨b3.trans g1, b2, fun _ => ⟨(b4 r ha).1, g1 ▸ (b4 r ha).2⟩⟩
              | error er =>
                simp [Ask.tell, Ask.answer, GetterState.step, InnerSession.perform, Except.mapError] at hs
                obtain ⟨rfl, rfl⟩ := hs
                rw [e1 _ rfl]
                exact ⟨g1 ▸ b1, fun h => (by cases h), fun addr' v' h => by cases h⟩
            | spawned h1 h2 =>
              cases h2 with
              | udp _ _ _ _ _ _ hb =>
                have hidle : v.phase = .idle := Decidable.byContradiction fun h => by simpa using hb.1 h
                rw [udp_step_idle hidle he] at ha
                cases ha
            | announcing =>
              cases a with
              | ok r =>
                simp [Ask.tell, Ask.answer, GetterState.step, InnerSession.perform, Except.mapError] at hs
                obtain ⟨rfl, rfl⟩ := hs
                rw [← List.append_nil (udpDatagrams _ _), e1 _ rfl]
                exact ⟨g1 ▸ b1, fun h => (by cases h), fun addr' v' h => by cases h⟩
              | error er =>
                simp [Ask.tell, Ask.answer, GetterState.step, InnerSession.perform, Except.mapError] at hs
                obtain ⟨rfl, rfl⟩ := hs
                rw [e1 _ rfl]
                exact ⟨g1 ▸ b1, fun h => (by cases h), fun addr' v' h => by cases h⟩

/-- **C97.** What is told of a UDP session is right, and complete: every datagram is told beforehand as what it is — a request for a connection, the
announcement that was said to be sent, over the connection there is said to be, or the last datagram again —, and one is sent again after 15 seconds or
more, a connection is said to be no longer valid after a minute. -/
theorem log_udp_right {uu : UdpUrl} {tr : AskLogTrace} {s : Ask} (h : AskLogRun lossy parseIp (.udp uu) c m tr s) :
    ToldRight c (utf8 uu.urldata) (udpItems tr) := (ask_told h).right

/-! ### What is told of every conversation -/

theorem udp_answer_plain {v : UdpSession} {e : UdpEvent} {r : AnnounceResponse} (h : udpAnswer (v.step lossy e).2 = some (.ok r)) :
    r.warningMessage = none := by
  obtain ⟨ip, url, conn, phase⟩ := v
  obtain ⟨time, nxid, input⟩ := e
  cases phase with
  | idle =>
    cases input <;> simp only [UdpSession.step] at h <;> (try cases h)
    cases conn with
    | none => simp [UdpSession.startConnect, udpAnswer] at h
    | some k =>
      simp only at h
      split at h <;> simp [UdpSession.startConnect, UdpSession.startAnnounce, udpAnswer] at h
  | connecting a xid chat =>
    obtain ⟨msg, n, wait⟩ := chat
    cases wait <;> cases input <;> simp only [UdpSession.step] at h <;> (try cases h)
    · split at h <;> simp [udpAnswer, UdpSession.startAnnounce] at h
      split at h <;> simp [udpAnswer, UdpSession.startAnnounce] at h
    · split at h <;> simp [udpAnswer] at h
  | announcing a xid k chat =>
    obtain ⟨msg, n, wait⟩ := chat
    cases wait <;> cases input <;> simp only [UdpSession.step] at h <;> (try cases h)
    · split at h <;> simp [udpAnswer, UdpSession.startConnect] at h
    · rename_i bs
      cases hp : udpResponse lossy (udpAnnounceResponse ip) bs with
      | error er =>
        rw [hp] at h
        cases h
      | ok q =>
        rw [hp] at h
        simp only at h
        split at h
        · simp [udpAnswer] at h
        · simp only [udpAnswer, Option.some.injEq, Except.ok.injEq] at h
          subst h
          have := ((udpResponse_ok lossy _ _ _).1 hp).2
          unfold udpAnnounceResponse at this
          simp only [bind, Except.bind, throw, throwThe, MonadExceptOf.throw, pure, Except.pure] at this
          repeat' (split at this <;> try cases this)
          rfl
    · split at h
      · simp [udpAnswer] at h
      · split at h <;> simp [udpAnswer, UdpSession.startConnect] at h

/-- What the messages of an event say. -/
structure LinesRight (lossy : Bytes → Text) (parseIp : Text → Option IpAddr) (t : Tracker) (m : Magnet) (e : AskEvent) (out : List AskOutput)
    (ls : List LogLine) : Prop where
  begun : ls.filterMap saysBegun = (begunBy e).toList.map fun ev => (ev, t, m)
  count : ls.filterMap saysCount = (out.filterMap returns).map fun ps => (ps, t, m)
  peers : ls.filterMap saysPeers = (out.filterMap returns).map fun ps => (ps, t, m)
  failed : ls.filterMap saysStopFailed = (out.filterMap failsToStop).map fun e => (e, t, m)
  cancelled : ls.filterMap saysCancelled = if isCancel e then [(t, m)] else []
  warned : ls.filterMap saysWarned = (match e with
    | .http o => (match httpResult lossy parseIp o with
      | .ok r => r.warningMessage.toList.map fun msg => (msg, t, m)
      | .error _ => [])
    | _ => [])
  socket : ls.filterMap saysSocket = socketTold t e
  others : ∀ x ∈ ls, (∃ n u, x = .udpStep n u ∧ t = .udp u) ∨ (saysBegun x).isSome ∨ (saysCount x).isSome ∨ (saysPeers x).isSome ∨
    (saysStopFailed x).isSome ∨ (saysCancelled x).isSome ∨ (saysWarned x).isSome ∨ (saysSocket x).isSome

theorem steps_say (ns : List (Fin 5)) (u : UdpUrl) {α : Type} (f : LogLine → Option α) (hf : ∀ n, f (.udpStep n u) = none) :
    (ns.map fun n => LogLine.udpStep n u).filterMap f = [] := by
  rw [List.filterMap_eq_nil_iff]
  intro x hx
  obtain ⟨n, -, rfl⟩ := List.mem_map.1 hx
  exact hf n

theorem datagrams_say (addr : SockAddr) (out : List UdpOutput) {α : Type} (f : AskOutput → Option α) (hf : ∀ bs, f (.datagram addr bs) = none) :
    (udpDatagrams addr out).filterMap f = [] := by
  rw [List.filterMap_eq_nil_iff]
  intro x hx
  obtain ⟨bs, rfl, -⟩ := (datagrams_of_udp addr out).2.2.2.1 x hx
  exact hf bs

theorem lines_right {tr : AskTrace} {s s' : Ask} {e : AskEvent} {out : List AskOutput} (hrun : AskRun lossy parseIp t c tr s)
    (hs : s.step lossy parseIp t c e = some (s', out)) : LinesRight lossy parseIp t m e out (s.stepLog lossy parseIp t c m e) := by
  have inv := ask_inv hrun
  have call : ∀ (u : UdpUrl) (v : UdpSession) (ue : UdpEvent), ∀ x ∈ (v.stepLog lossy ue).map fun n => LogLine.udpStep n u, ∃ n, x = .udpStep n u := by
    intro u v ue x hx
    obtain ⟨n, -, rfl⟩ := List.mem_map.1 hx
    exact ⟨n, rfl⟩
  cases e with
  | timeout =>
    cases inv <;> simp [Ask.step, GetterState.step, Option.map] at hs <;> obtain ⟨rfl, rfl⟩ := hs <;>
      exact ⟨rfl, rfl, rfl, rfl, rfl, rfl, (by cases t <;> rfl), fun x h => by cases h⟩
  | dropped =>
    cases inv <;> simp [Ask.step, GetterState.step, Option.map] at hs <;> obtain ⟨rfl, rfl⟩ := hs <;>
      exact ⟨rfl, rfl, rfl, rfl, rfl, rfl, (by cases t <;> rfl), fun x h => by cases h⟩
  | stopCancelled =>
    cases inv <;> simp [Ask.step, GetterState.step, Option.map] at hs <;> obtain ⟨rfl, rfl⟩ := hs <;>
      exact ⟨rfl, rfl, rfl, rfl, rfl, rfl, (by cases t <;> rfl), fun x h => by
        simp only [Ask.stepLog, List.mem_singleton] at h; subst h; simp [saysCancelled]⟩
  | client built =>
    cases t with
    | udp x => simp [Ask.step] at hs
    | http x =>
      cases built <;> cases inv <;> simp [Ask.step, Ask.tell, GetterState.step, InnerSession.perform, InnerSession.announce] at hs <;>
        obtain ⟨rfl, rfl⟩ := hs
      · exact ⟨rfl, rfl, rfl, rfl, rfl, rfl, rfl, fun x h => by cases h⟩
      · exact ⟨rfl, rfl, rfl, rfl, rfl, rfl, rfl, fun x h => by
          simp only [Ask.stepLog, InnerSession.announceLog, if_pos, List.mem_singleton] at h; subst h; simp [saysBegun]⟩
  | http o =>
    have body : ∀ (g : GetterState) (u : Url) (hb : out.filterMap returns = (match g.phase, httpResult lossy parseIp o with
          | .over, _ => []
          | _, .ok r => [r.peers]
          | _, .error _ => [])) (hw : out.filterMap failsToStop = (match g.phase, httpResult lossy parseIp o with
          | .over, .error e => [.http e]
          | _, _ => [])) (hh : t = .http u),
        LinesRight lossy parseIp t m (.http o) out (Ask.stepLog lossy parseIp t c m ⟨g, some (.http u true)⟩ (.http o)) := by
      intro g u hb hw hh
      subst hh
      obtain ⟨p, task⟩ := g
      cases ho : httpResult lossy parseIp o with
      | error er =>
        rw [ho] at hb hw
        cases p <;> simp only at hb hw <;>
          (refine ⟨?_, ?_, ?_, ?_, ?_, ?_, ?_, ?_⟩ <;>
            simp [Ask.stepLog, Ask.answerLog, ho, hb, hw, Except.mapError, saysBegun, saysCount, saysPeers, saysStopFailed, saysCancelled, saysWarned, saysSocket, socketTold,
              begunBy, isCancel, List.filterMap_cons])
      | ok r =>
        rw [ho] at hb hw
        cases hm : r.warningMessage <;> cases p <;> simp only at hb hw <;>
          (refine ⟨?_, ?_, ?_, ?_, ?_, ?_, ?_, ?_⟩ <;>
            simp [Ask.stepLog, Ask.answerLog, ho, hb, hw, hm, Except.mapError, saysBegun, saysCount, saysPeers, saysStopFailed, saysCancelled, saysWarned, saysSocket, socketTold,
              begunBy, isCancel, List.filterMap_cons])
    cases inv with
    | starting h1 h2 =>
      cases h2 with
      | udp => simp [Ask.step] at hs
      | http ht =>
        cases ho : httpResult lossy parseIp o <;>
          simp [Ask.step, Ask.tell, Ask.answer, GetterState.step, InnerSession.perform, ho, Except.mapError] at hs <;>
          obtain ⟨rfl, rfl⟩ := hs <;> refine body _ _ ?_ ?_ ht <;> rw [ho] <;> rfl
    | spawned h1 h2 => cases h2 <;> simp [Ask.step] at hs
    | announcing h1 h2 =>
      cases h2 with
      | udp => simp [Ask.step] at hs
      | http ht =>
        cases ho : httpResult lossy parseIp o <;>
          simp [Ask.step, Ask.tell, Ask.answer, GetterState.step, InnerSession.perform, ho, Except.mapError] at hs <;>
          obtain ⟨rfl, rfl⟩ := hs <;> refine body _ _ ?_ ?_ ht <;> rw [ho] <;> rfl
    | _ => simp [Ask.step] at hs
  | stopScheduled time xid =>
    cases inv with
    | @spawned i ps h1 h2 =>
      simp [Ask.step, Ask.tell, GetterState.step, InnerSession.perform] at hs
      obtain ⟨rfl, rfl⟩ := hs
      cases h2 with
      | @udp uu addr v utr' ht hu hl hd hfd hc hb hr =>
        subst ht
        refine ⟨?_, ?_, ?_, ?_, ?_, ?_, ?_, ?_⟩
        rotate_right
        · intro x hx
          simp only [Ask.stepLog, InnerSession.announceLog] at hx
          rcases List.mem_cons.1 hx with rfl | hx
          · simp [saysBegun]
          · obtain ⟨n, rfl⟩ := call _ _ _ x hx
            exact .inl ⟨n, uu, rfl, rfl⟩
        all_goals
          simp only [Ask.stepLog, InnerSession.announceLog, List.filterMap_cons, saysBegun, saysCount, saysPeers, saysStopFailed, saysCancelled, saysWarned,
            saysSocket]
          rw [steps_say _ _ _ (fun n => rfl)]
          try rfl
      | http ht =>
        subst ht
        exact ⟨rfl, rfl, rfl, rfl, rfl, rfl, rfl, fun x h => by
          simp only [Ask.stepLog, InnerSession.announceLog, List.mem_singleton] at h; subst h; simp [saysBegun]⟩
    | _ => simp [Ask.step, Ask.tell, GetterState.step] at hs
  | socket time xid x =>
    cases t with
    | http u => simp [Ask.step] at hs
    | udp uu =>
      have hsock : ∀ y ∈ socketLog uu x, ∃ a, y = .udpConnected uu a := by
        unfold socketLog
        intro y hy
        split at hy
        · split at hy
          · exact ⟨_, List.mem_singleton.1 hy⟩
          · cases hy
        · cases hy
      have hsock' : (socketLog uu x).filterMap saysSocket = (boundFor (.socket time xid x)).toList.map fun a => (a, uu) := by
        simp only [socketLog, boundFor]
        cases x.lookup with
        | none => rfl
        | some as =>
          cases as with
          | nil => rfl
          | cons a as => simp only; split <;> rfl
      have quiet : ∀ {α : Type} (f : LogLine → Option α), (∀ a, f (.udpConnected uu a) = none) → (socketLog uu x).filterMap f = [] := by
        intro α f hf
        rw [List.filterMap_eq_nil_iff]
        intro y hy
        obtain ⟨a, rfl⟩ := hsock y hy
        exact hf a
      cases hx : udpConnect x with
      | error er =>
        cases inv <;> simp [Ask.step, GetterState.step, hx] at hs
        obtain ⟨rfl, rfl⟩ := hs
        have hb : begunBy (.socket time xid x) = none := by
          unfold udpConnect at hx
          simp only [begunBy]
          cases hl : x.lookup with
          | none => rfl
          | some as =>
            cases as with
            | nil => rfl
            | cons a as =>
              rw [hl] at hx
              simp only at hx ⊢
              split at hx
              · split at hx
                · cases hx
                · rename_i h1 h2; simp [h1, h2]
              · rename_i h1; simp [h1]
        refine ⟨?_, ?_, ?_, ?_, ?_, ?_, ?_, ?_⟩
        all_goals simp only [Ask.stepLog, hx, List.append_nil]
        · rw [quiet _ (fun _ => rfl), hb]; rfl
        · rw [quiet _ (fun _ => rfl)]; rfl
        · rw [quiet _ (fun _ => rfl)]; rfl
        · rw [quiet _ (fun _ => rfl)]; rfl
        · rw [quiet _ (fun _ => rfl)]; rfl
        · rw [quiet _ (fun _ => rfl)]
        · exact hsock'
        · intro y hy
          obtain ⟨a, rfl⟩ := hsock y hy
          simp [saysSocket]
      | ok addr =>
        cases inv with
        | connecting h1 h2 h3 =>
          simp [Ask.step, Ask.tell, GetterState.step, hx, InnerSession.perform, InnerSession.announce] at hs
          obtain ⟨rfl, rfl⟩ := hs
          have hb : begunBy (.socket time xid x) = some .started := by
            unfold udpConnect at hx
            simp only [begunBy]
            cases hl : x.lookup with
            | none => simp [hl] at hx
            | some as =>
              cases as with
              | nil => simp [hl] at hx
              | cons a as =>
                rw [hl] at hx
                simp only at hx ⊢
                split at hx
                · split at hx
                  · rename_i h1 h2; simp [h1, h2]
                  · cases hx
                · cases hx
          refine ⟨?_, ?_, ?_, ?_, ?_, ?_, ?_, ?_⟩
          all_goals simp only [Ask.stepLog, hx, InnerSession.announceLog, List.filterMap_append, List.filterMap_cons]
          · rw [quiet _ (fun _ => rfl), hb, steps_say _ _ _ (fun _ => rfl)]; rfl
          · rw [quiet _ (fun _ => rfl), steps_say _ _ _ (fun _ => rfl)]; rfl
          · rw [quiet _ (fun _ => rfl), steps_say _ _ _ (fun _ => rfl)]; rfl
          · rw [quiet _ (fun _ => rfl), steps_say _ _ _ (fun _ => rfl)]; rfl
          · rw [quiet _ (fun _ => rfl), steps_say _ _ _ (fun _ => rfl)]; rfl
          · rw [quiet _ (fun _ => rfl), steps_say _ _ _ (fun _ => rfl)]; rfl
          · rw [hsock', steps_say _ _ _ (fun _ => rfl)]; simp [saysSocket, socketTold]
          · intro y hy
            rcases List.mem_append.1 hy with hy | hy
            · obtain ⟨a, rfl⟩ := hsock y hy
              simp [saysSocket]
            · rcases List.mem_cons.1 hy with rfl | hy
              · simp [saysBegun]
              · obtain ⟨n, rfl⟩ := call _ _ _ y hy
                exact .inl ⟨n, uu, rfl, rfl⟩
        | _ => simp [Ask.step, Ask.tell, GetterState.step, hx] at hs
  | udp ue =>
    have he : ∀ a, ue.input ≠ .call a := by
      intro a ha
      obtain ⟨g, inner⟩ := s
      cases inner with
      | none => simp [Ask.step] at hs
      | some i => cases i <;> simp [Ask.step, ha] at hs
    have body : ∀ (g : GetterState) (addr : SockAddr) (v : UdpSession) (uu : UdpUrl) (q : List AskOutput) (ls : List LogLine)
        (hl : (match udpAnswer (v.step lossy ue).2 with
          | none => []
          | some a => Ask.answerLog ⟨g, some (.udp addr v)⟩ t m (a.mapError .udp)) = ls)
        (hls : ∀ x ∈ ls, (saysCount x).isSome ∨ (saysPeers x).isSome ∨ (saysStopFailed x).isSome)
        (hc : ls.filterMap saysCount = (q.filterMap returns).map fun ps => (ps, t, m))
        (hp : ls.filterMap saysPeers = (q.filterMap returns).map fun ps => (ps, t, m))
        (hw : ls.filterMap saysStopFailed = (q.filterMap failsToStop).map fun e => (e, t, m)) (hh : t = .udp uu),
        LinesRight lossy parseIp t m (.udp ue) (udpDatagrams addr (v.step lossy ue).2 ++ q)
          (Ask.stepLog lossy parseIp t c m ⟨g, some (.udp addr v)⟩ (.udp ue)) := by
      intro g addr v uu q ls hl hls hc hp hw hh
      have none_of : ∀ {α : Type} (f : LogLine → Option α), (∀ x, (f x).isSome → ¬ ((saysCount x).isSome ∨ (saysPeers x).isSome ∨ (saysStopFailed x).isSome)) →
          ls.filterMap f = [] := by
        intro α f hf
        rw [List.filterMap_eq_nil_iff]
        intro x hx
        cases hfx : f x with
        | none => rfl
        | some y => exact absurd (hls x hx) (hf x (by simp [hfx]))
      subst hh
      have e1 : Ask.stepLog lossy parseIp (.udp uu) c m ⟨g, some (.udp addr v)⟩ (.udp ue) = ((v.stepLog lossy ue).map fun n => LogLine.udpStep n uu) ++ ls := by
        rw [← hl]; rfl
      rw [e1]
      refine ⟨?_, ?_, ?_, ?_, ?_, ?_, ?_, ?_⟩
      all_goals try simp only [List.filterMap_append]
      · rw [steps_say _ _ _ (fun _ => rfl), none_of]
        · rfl
        · intro x; cases x <;> simp [saysBegun, saysCount, saysPeers, saysStopFailed]
      · rw [steps_say _ _ _ (fun _ => rfl), datagrams_say _ _ _ (fun _ => rfl)]; exact hc
      · rw [steps_say _ _ _ (fun _ => rfl), datagrams_say _ _ _ (fun _ => rfl)]; exact hp
      · rw [steps_say _ _ _ (fun _ => rfl), datagrams_say _ _ _ (fun _ => rfl)]; exact hw
      · rw [steps_say _ _ _ (fun _ => rfl), none_of]
        · rfl
        · intro x; cases x <;> simp [saysCancelled, saysCount, saysPeers, saysStopFailed]
      · rw [steps_say _ _ _ (fun _ => rfl), none_of]
        · rfl
        · intro x; cases x <;> simp [saysWarned, saysCount, saysPeers, saysStopFailed]
      · rw [steps_say _ _ _ (fun _ => rfl), none_of]
        · rfl
        · intro x; cases x <;> simp [saysSocket, saysCount, saysPeers, saysStopFailed]
      · intro x hx
        rcases List.mem_append.1 hx with hx | hx
        · obtain ⟨n, rfl⟩ := call _ _ _ x hx
          exact .inl ⟨n, uu, rfl, rfl⟩
        · rcases hls x hx with h | h | h <;> simp [h]
    obtain ⟨g, inner⟩ := s
    cases inner with
    | none => simp [Ask.step] at hs
    | some i =>
      cases i with
      | http u b => simp [Ask.step] at hs
      | udp addr v =>
        obtain ⟨uu, hh⟩ : ∃ uu, t = .udp uu := by
          cases inv with
          | starting _ h => cases h with | udp ht => exact ⟨_, ht⟩
          | spawned _ h => cases h with | udp ht => exact ⟨_, ht⟩
          | announcing _ h => cases h with | udp ht => exact ⟨_, ht⟩
        rw [ask_step_udp he] at hs
        cases ha : udpAnswer (v.step lossy ue).2 with
        | none =>
          rw [ha] at hs
          cases hs
          have := body g addr v uu [] [] (by rw [ha]) (fun x h => by cases h) rfl rfl rfl hh
          rwa [List.append_nil] at this
        | some a =>
          rw [ha] at hs
          cases inv with
          | starting =>
            cases a with
            | ok r =>
              simp [Ask.tell, Ask.answer, GetterState.step, InnerSession.perform, Except.mapError] at hs
              obtain ⟨rfl, rfl⟩ := hs
              exact body _ addr v uu _ [.returnedCount t m r.peers, .returned t m r.peers]
                (by rw [ha]; simp [Ask.answerLog, Except.mapError, udp_answer_plain ha]) (by simp [saysCount, saysPeers]) rfl rfl rfl hh
            | error er =>
              simp [Ask.tell, Ask.answer, GetterState.step, InnerSession.perform, Except.mapError] at hs
              obtain ⟨rfl, rfl⟩ := hs
              exact body _ addr v uu _ [] (by rw [ha]; rfl) (fun x h => by cases h) rfl rfl rfl hh
          | spawned h1 h2 =>
            cases h2 with
            | udp _ _ _ _ _ _ hb =>
              have hidle : v.phase = .idle := Decidable.byContradiction fun h => by simpa using hb.1 h
              rw [udp_step_idle hidle he] at ha
              cases ha
          | announcing =>
            cases a with
            | ok r =>
              simp [Ask.tell, Ask.answer, GetterState.step, InnerSession.perform, Except.mapError] at hs
              obtain ⟨rfl, rfl⟩ := hs
              have := body ⟨.over, .announcing⟩ addr v uu [] [] (by rw [ha]; simp [Ask.answerLog, Except.mapError, udp_answer_plain ha]) (fun x h => by cases h) rfl rfl rfl hh
              rwa [List.append_nil] at this
            | error er =>
              simp [Ask.tell, Ask.answer, GetterState.step, InnerSession.perform, Except.mapError] at hs
              obtain ⟨rfl, rfl⟩ := hs
              exact body _ addr v uu _ [.stopFailed t m (.udp er)] (by rw [ha]; rfl) (by simp [saysStopFailed]) rfl rfl rfl hh

theorem askLog_lines {tr : AskLogTrace} {s : Ask} (h : AskLogRun lossy parseIp t c m tr s) {e : AskEvent} {out : List AskOutput} {ls : List LogLine}
    (hx : (e, out, ls) ∈ tr) : LinesRight lossy parseIp t m e out ls := by
  obtain ⟨pre, post, ht⟩ := List.append_of_mem hx
  obtain ⟨s1, s2, h1, h2, rfl⟩ := askLog_split h ht
  exact lines_right (askLog_unlogged h1) h2

/-- **C97.** It is said that an announcement is sent — which, to which tracker, for which torrent — exactly when it begins. -/
theorem log_begins {tr : AskLogTrace} {s : Ask} (h : AskLogRun lossy parseIp t c m tr s) {e : AskEvent} {out : List AskOutput} {ls : List LogLine}
    (hx : (e, out, ls) ∈ tr) : ls.filterMap saysBegun = (begunBy e).toList.map fun ev => (ev, t, m) := (askLog_lines h hx).begun

/-- **C97.** The peers are told, and how many there are, exactly when they are returned. -/
theorem log_peers {tr : AskLogTrace} {s : Ask} (h : AskLogRun lossy parseIp t c m tr s) {e : AskEvent} {out : List AskOutput} {ls : List LogLine}
    (hx : (e, out, ls) ∈ tr) :
    ls.filterMap saysCount = (out.filterMap returns).map (fun ps => (ps, t, m)) ∧ ls.filterMap saysPeers = (out.filterMap returns).map fun ps => (ps, t, m) :=
  ⟨(askLog_lines h hx).count, (askLog_lines h hx).peers⟩

/-- **C97.** Failure to announce "stopped" is told with its reason, exactly if it fails; that it is given up, exactly if it is. -/
theorem log_stop {tr : AskLogTrace} {s : Ask} (h : AskLogRun lossy parseIp t c m tr s) {e : AskEvent} {out : List AskOutput} {ls : List LogLine}
    (hx : (e, out, ls) ∈ tr) :
    ls.filterMap saysStopFailed = (out.filterMap failsToStop).map (fun e => (e, t, m)) ∧ ls.filterMap saysCancelled = (if isCancel e then [(t, m)] else []) :=
  ⟨(askLog_lines h hx).failed, (askLog_lines h hx).cancelled⟩

/-- **C97.** The tracker's warning is told, once, exactly if there is one in its response. -/
theorem log_warning {tr : AskLogTrace} {s : Ask} (h : AskLogRun lossy parseIp t c m tr s) {e : AskEvent} {out : List AskOutput} {ls : List LogLine}
    (hx : (e, out, ls) ∈ tr) :
    (ls.filterMap saysWarned).length ≤ 1 ∧ ∀ y, y ∈ ls.filterMap saysWarned ↔ ∃ msg, y = (msg, t, m) ∧ HasWarning lossy parseIp e msg := by
  rw [(askLog_lines h hx).warned]
  cases e with
  | http o =>
    simp only
    cases ho : httpResult lossy parseIp o with
    | error er =>
      refine ⟨by simp, fun y => ⟨fun hy => (by cases hy), ?_⟩⟩
      rintro ⟨msg, -, kvs, r, he, h1, h2, h3, -⟩
      cases he
      rw [(httpResult_ok lossy parseIp _ r).2 ⟨kvs, rfl, h1, h2, h3⟩] at ho
      cases ho
    | ok r =>
      refine ⟨by cases r.warningMessage <;> simp, fun y => ?_⟩
      cases o with
      | body b =>
        constructor
        · intro hy
          obtain ⟨msg, h1, rfl⟩ := List.mem_map.1 hy
          obtain ⟨kvs, rfl, g1, g2, g3⟩ := (httpResult_ok lossy parseIp b r).1 ho
          exact ⟨msg, rfl, kvs, r, rfl, g1, g2, g3, by simpa using h1⟩
        · rintro ⟨msg, rfl, kvs, r', he, h1, h2, h3, h4⟩
          cases he
          rw [(httpResult_ok lossy parseIp _ r').2 ⟨kvs, rfl, h1, h2, h3⟩] at ho
          cases ho
          simp [h4]
      | _ => cases ho
  | _ =>
    refine ⟨by simp, fun y => ⟨fun hy => (by cases hy), ?_⟩⟩
    rintro ⟨msg, -, kvs, r, he, -⟩
    cases he

/-- **C97.** The address of a UDP tracker is told exactly if a socket can be bound for the first address of its host — even if the socket is not
connected to it then. -/
theorem log_socket {tr : AskLogTrace} {s : Ask} (h : AskLogRun lossy parseIp t c m tr s) {e : AskEvent} {out : List AskOutput} {ls : List LogLine}
    (hx : (e, out, ls) ∈ tr) : ls.filterMap saysSocket = socketTold t e := (askLog_lines h hx).socket

/-- **C97.** Nothing else is told of a conversation with a tracker, except the steps of a UDP session (`log_udp_right`). -/
theorem log_others {tr : AskLogTrace} {s : Ask} (h : AskLogRun lossy parseIp t c m tr s) {e : AskEvent} {out : List AskOutput} {ls : List LogLine}
    (hx : (e, out, ls) ∈ tr) : ∀ x ∈ ls, (∃ n u, x = .udpStep n u ∧ t = .udp u) ∨ (saysBegun x).isSome ∨ (saysCount x).isSome ∨ (saysPeers x).isSome ∨
      (saysStopFailed x).isSome ∨ (saysCancelled x).isSome ∨ (saysWarned x).isSome ∨ (saysSocket x).isSome := (askLog_lines h hx).others

theorem connectRequest_xid {x y : Nat} {bs : Bytes} (h : IsConnectRequest x bs) (h' : IsConnectRequest y bs) : x = y := At_inj h.2.2.2 h'.2.2.2

/-- **C97.** It is said that there is a connection exactly when a packet comes that grants the one asked for last. -/
theorem log_connected {uu : UdpUrl} {tr pre post : AskLogTrace} {s : Ask} (h : AskLogRun lossy parseIp (.udp uu) c m tr s) {e : AskEvent}
    {out : List AskOutput} {ls : List LogLine} (ht : tr = pre ++ (e, out, ls) :: post) :
    (∃ u, .udpStep 3 u ∈ ls) ↔ ∃ time nxid bs xid cid t0 req, e = .udp ⟨time, nxid, .packet bs⟩ ∧ IsConnectResponse xid cid bs ∧
      (udpItems pre).getLast? = some (t0, .sent req) ∧ IsConnectRequest xid req := by
  obtain ⟨s1, s2, h1, h2, rfl⟩ := askLog_split h ht
  have told := ask_told h1
  have inv := ask_inv (askLog_unlogged h1)
  have nocall : ∀ (v : UdpSession) time xid a, (3 : Fin 5) ∉ v.stepLog lossy ⟨time, xid, .call a⟩ := by
    intro v time xid a
    obtain ⟨ip, url, conn, phase⟩ := v
    cases phase with
    | idle =>
      cases conn with
      | none => simp [UdpSession.stepLog]
      | some k => simp only [UdpSession.stepLog]; split <;> simp
    | connecting a xid chat => cases hw : chat.wait <;> simp [UdpSession.stepLog, hw]
    | announcing a xid k chat => cases hw : chat.wait <;> simp [UdpSession.stepLog, hw]
  have nosteps : ∀ (ns : List (Fin 5)) (u u' : UdpUrl), (3 : Fin 5) ∉ ns → .udpStep 3 u ∉ ns.map fun n => LogLine.udpStep n u' := by
    intro ns u u' hn hm
    obtain ⟨n, hn', he⟩ := List.mem_map.1 hm
    cases he
    exact hn hn'
  have noanswer : ∀ (r : Except AskError AnnounceResponse) u, LogLine.udpStep 3 u ∉ s1.answerLog (.udp uu) m r := by
    intro r u
    cases r with
    | ok r => simp only [Ask.answerLog]; cases r.warningMessage <;> cases s1.getter.phase <;> simp
    | error e => simp only [Ask.answerLog]; cases s1.getter.phase <;> simp
  have nosocket : ∀ x u, LogLine.udpStep 3 u ∉ socketLog uu x := by
    intro x u
    unfold socketLog
    split
    · split <;> simp
    · simp
  constructor
  · rintro ⟨u, hu⟩
    cases e with
    | udp ue =>
      obtain ⟨g, inner⟩ := s1
      cases inner with
      | none => simp [Ask.step] at h2
      | some i =>
        cases i with
        | http u b => simp [Ask.step] at h2
        | udp addr v =>
          obtain ⟨-, g2, -⟩ := told.sess addr v rfl
          simp only [Ask.stepLog] at hu
          have hu' : (3 : Fin 5) ∈ v.stepLog lossy ue := by
            rcases List.mem_append.1 hu with hu | hu
            · obtain ⟨n, hn, he⟩ := List.mem_map.1 hu
              cases he
              exact hn
            · exfalso
              split at hu
              · cases hu
              · exact noanswer _ _ hu
          obtain ⟨ip, url, conn, phase⟩ := v
          obtain ⟨time, nxid, input⟩ := ue
          cases phase with
          | idle =>
            exfalso
            cases input with
            | call a => exact nocall _ _ _ _ hu'
            | _ => simp [UdpSession.stepLog] at hu'
          | connecting a xid chat =>
            obtain ⟨msg, n, wait⟩ := chat
            cases wait with
            | sending => simp [UdpSession.stepLog] at hu'
            | waiting d =>
              cases input with
              | packet bs =>
                simp only [UdpSession.stepLog] at hu'
                cases hp : udpResponse lossy udpConnectResponse bs with
                | error er => simp [hp] at hu'
                | ok r =>
                  obtain ⟨rx, rc⟩ := r
                  by_cases hx : rx = xid
                  · subst hx
                    obtain ⟨-, ev, -, -, hm, t0, q1, -⟩ := g2
                    exact ⟨time, nxid, bs, _, _, t0, msg, rfl, (udpConnect_ok lossy bs _ _).1 hp, q1, hm⟩
                  · simp [hp, hx] at hu'
              | timer => simp only [UdpSession.stepLog] at hu'; split at hu' <;> simp at hu'
              | _ => simp [UdpSession.stepLog] at hu'
          | announcing a xid k chat =>
            obtain ⟨msg, n, wait⟩ := chat
            cases wait with
            | sending =>
              cases input with
              | timer => simp only [UdpSession.stepLog] at hu'; split at hu' <;> simp at hu'
              | _ => simp [UdpSession.stepLog] at hu'
            | waiting d =>
              cases input with
              | timer =>
                simp only [UdpSession.stepLog] at hu'
                split at hu'
                · simp at hu'
                · split at hu' <;> simp at hu'
              | _ => simp [UdpSession.stepLog] at hu'
    | socket time xid x =>
      exfalso
      simp only [Ask.stepLog] at hu
      rcases List.mem_append.1 hu with hu | hu
      · exact nosocket _ _ hu
      · split at hu
        · cases hu
        · rcases List.mem_cons.1 hu with hu | hu
          · cases hu
          · exact nosteps _ _ _ (nocall _ _ _ _) hu
    | stopScheduled time xid =>
      exfalso
      simp only [Ask.stepLog] at hu
      split at hu
      · rename_i i hi
        cases i with
        | udp addr v =>
          rcases List.mem_cons.1 hu with hu | hu
          · cases hu
          · exact nosteps _ _ _ (nocall _ _ _ _) hu
        | http u b => simp [InnerSession.announceLog] at hu
      · cases hu
    | http o => exact absurd hu (noanswer _ _)
    | client b => cases hu
    | timeout => cases hu
    | dropped => cases hu
    | stopCancelled => simp [Ask.stepLog] at hu
  · rintro ⟨time, nxid, bs, xid, cid, t0, req, rfl, h3, h4, h5⟩
    refine ⟨uu, ?_⟩
    obtain ⟨g, inner⟩ := s1
    cases inner with
    | none => simp [Ask.step] at h2
    | some i =>
      cases i with
      | http u b => simp [Ask.step] at h2
      | udp addr v =>
        obtain ⟨-, g2, g3⟩ := told.sess addr v rfl
        simp only [Ask.stepLog]
        refine List.mem_append_left _ (List.mem_map.2 ⟨3, ?_, rfl⟩)
        have notann : ∀ {k x ev url}, IsAnnounceRequest k x (c.announcement ev) url req → False := by
          intro k x ev url hann
          have := hann.length
          rw [h5.1] at this
          omega
        obtain ⟨ip, url, conn, phase⟩ := v
        cases phase with
        | idle =>
          exfalso
          cases inv with
          | starting _ hS => cases hS with | udp _ _ _ _ _ _ hb => exact absurd rfl (hb.2 rfl)
          | announcing _ hS => cases hS with | udp _ _ _ _ _ _ hb => exact absurd rfl (hb.2 rfl)
          | spawned _ hS =>
            obtain ⟨-, t1, req1, k, x, ev, q1, q2⟩ := g3 rfl
            rw [h4] at q1
            cases q1
            exact notann q2
        | connecting a x chat =>
          obtain ⟨msg, n, wait⟩ := chat
          obtain ⟨-, ev, -, -, hm, hch⟩ := g2
          cases wait with
          | sending =>
            exfalso
            rcases hch with ⟨_, _, q1, rfl⟩ | ⟨_, q1, -⟩ <;> rw [h4] at q1 <;> cases q1
          | waiting d =>
            obtain ⟨t1, q1, -⟩ := hch
            rw [h4] at q1
            cases q1
            have hx := connectRequest_xid h5 hm
            subst hx
            have hc : cid < 2 ^ 64 := by
              have := beValue_lt ((bs.drop 8).take 8)
              rw [h3.2.2.1, h3.2.2.2] at this
              simpa using this
            have hp : udpResponse lossy udpConnectResponse bs = .ok ⟨x, BitVec.ofNat 64 cid⟩ := by
              rw [udpConnect_ok, BitVec.toNat_ofNat, Nat.mod_eq_of_lt hc]
              exact h3
            simp only [UdpSession.stepLog, hp]
            simp
        | announcing a x k chat =>
          exfalso
          obtain ⟨msg, n, wait⟩ := chat
          obtain ⟨-, -, ev, -, -, ⟨k', hm⟩, hch⟩ := g2
          cases wait with
          | sending =>
            rcases hch with ⟨_, _, q1, q2⟩ | ⟨_, q1, -⟩
            · rw [h4] at q1
              cases q1
              rcases q2 with q2 | ⟨-, q2⟩ <;> cases q2
            · rw [h4] at q1
              cases q1
          | waiting d =>
            obtain ⟨t1, q1, -⟩ := hch
            rw [h4] at q1
            cases q1
            exact notann hm

/-- **C97.** Every conversation has its log. -/
theorem log_exists {tr : AskTrace} {s : Ask} (h : AskRun lossy parseIp t c tr s) : ∃ ltr, AskLogRun lossy parseIp t c m ltr s ∧ unlogged ltr = tr :=
  askLog_exists h

/-- The run with these events, and its log. -/
def execAskLog (t : Tracker) (c : GetterCtx) (m : Magnet) : AskLogTrace × Ask → List AskEvent → Option (AskLogTrace × Ask)
  | x, [] => some x
  | x, e :: es =>
    match x.2.step (fun _ => []) (fun _ => none) t c e with
    | none => none
    | some (s', out) => execAskLog t c m (x.1 ++ [(e, out, x.2.stepLog (fun _ => []) (fun _ => none) t c m e)], s') es

theorem execAskLog_run {x y : AskLogTrace × Ask} (h : AskLogRun (fun _ => []) (fun _ => none) t c m x.1 x.2) (es : List AskEvent)
    (he : execAskLog t c m x es = some y) : AskLogRun (fun _ => []) (fun _ => none) t c m y.1 y.2 := by
  induction es generalizing x with
  | nil => cases he; exact h
  | cons e es ih =>
    unfold execAskLog at he
    split at he
    · cases he
    · rename_i s' out hs
      exact ih (x := (_, s')) (h.step hs) he

def logMagnet : Magnet := ⟨⟨List.replicate 20 0x1f, by decide⟩, none, []⟩

/-- What is observed of a run with its log. -/
theorem execAskLog_get {α : Type} {es : List AskEvent} {f : AskLogTrace → α} {a : α}
    (h : (execAskLog t sampleGetter logMagnet ([], ⟨.init, none⟩) es).map (fun y => f y.1) = some a) :
    ∃ tr s, AskLogRun (fun _ => []) (fun _ => none) t sampleGetter logMagnet tr s ∧ f tr = a := by
  cases hy : execAskLog t sampleGetter logMagnet ([], ⟨.init, none⟩) es with
  | none => rw [hy] at h; cases h
  | some y =>
    rw [hy] at h
    simp only [Option.map_some, Option.some.injEq] at h
    exact ⟨y.1, y.2, execAskLog_run (x := ([], ⟨.init, none⟩)) .init es hy, h⟩

def logUdp : Tracker := .udp ⟨"tracker.example".toList, 6969, "/a".toList⟩

/-- The items, with the lengths of the datagrams instead of the datagrams. -/
def itemShape (l : List (Nat × UdpItem)) : List (Nat × UdpItem) := l.map fun x => (x.1, match x.2 with | .sent bs => .sent [bs.length.toUInt8] | i => i)

-- the whole log of a UDP session, with a packet that is sent again and the announcement of "stopped"
example : ∃ tr s, AskLogRun (fun _ => []) (fun _ => none) logUdp sampleGetter logMagnet tr s ∧ itemShape (udpItems tr) =
    [(0, .begins .started), (0, .asks), (0, .sent [16]), (second, .connected), (second, .sent [102]), (16 * second, .again), (16 * second, .sent [102]),
      (17 * second, .begins .stopped), (17 * second, .sent [102])] :=
  execAskLog_get (t := logUdp) (es := slowAsk ++ slowAnswer) (f := fun tr => itemShape (udpItems tr)) (by decide +kernel)

-- a connection that is no longer valid when "stopped" is announced, and one that expires in the course of that
example : ∃ tr s, AskLogRun (fun _ => []) (fun _ => none) logUdp sampleGetter logMagnet tr s ∧ (itemShape (udpItems tr)).drop 7 =
    [(62 * second, .begins .stopped), (62 * second, .expired), (62 * second, .asks), (62 * second, .sent [16]), (63 * second, .connected),
      (123 * second, .restarts), (123 * second, .asks), (123 * second, .sent [16])] :=
  execAskLog_get (t := logUdp) (es := slowAsk ++ slowAnswer.take 1 ++ [.stopScheduled (62 * second) 19, .udp ⟨62 * second, 0, .sent⟩,
    .udp ⟨63 * second, 20, .packet [0, 0, 0, 0, 0, 0, 0, 19, 0, 0, 0, 0, 0, 0, 0, 0xAB]⟩, .udp ⟨123 * second, 21, .timer⟩, .udp ⟨123 * second, 0, .sent⟩])
    (f := fun tr => (itemShape (udpItems tr)).drop 7) (by decide +kernel)

-- `log_begins`, `log_peers`: what is said and how many peers there are
example : ∃ tr s, AskLogRun (fun _ => []) (fun _ => none) logUdp sampleGetter logMagnet tr s ∧
    (tr.flatMap fun x => x.2.2.filterMap saysBegun).map Prod.fst = [.started, .stopped] ∧
    (tr.flatMap fun x => x.2.2.filterMap saysCount).map Prod.fst = [[⟨.v4 ⟨⟨0x01020304#32⟩, 6881⟩, none, false⟩]] := by
  obtain ⟨tr, s, h, h1⟩ := execAskLog_get (t := logUdp) (es := slowAsk ++ slowAnswer)
    (f := fun tr => ((tr.flatMap fun x => x.2.2.filterMap saysBegun).map Prod.fst, (tr.flatMap fun x => x.2.2.filterMap saysCount).map Prod.fst))
    (a := ([.started, .stopped], [[⟨.v4 ⟨⟨0x01020304#32⟩, 6881⟩, none, false⟩]])) (by decide +kernel)
  exact ⟨tr, s, h, congrArg Prod.fst h1, congrArg Prod.snd h1⟩

-- `log_stop`: the announcement of "stopped" fails, or is given up
example : ∃ tr s, AskLogRun (fun _ => []) (fun _ => none) logUdp sampleGetter logMagnet tr s ∧ (tr.flatMap fun x => x.2.2.filterMap saysStopFailed).length = 1 :=
  execAskLog_get (t := logUdp) (es := slowAsk ++ slowAnswer ++ [.udp ⟨18 * second, 0, .recvFailed⟩])
    (f := fun tr => (tr.flatMap fun x => x.2.2.filterMap saysStopFailed).length) (by decide +kernel)

example : ∃ tr s, AskLogRun (fun _ => []) (fun _ => none) logUdp sampleGetter logMagnet tr s ∧
    (tr.flatMap fun x => x.2.2.filterMap saysCancelled).length = 1 :=
  execAskLog_get (t := logUdp) (es := slowAsk ++ slowAnswer ++ [.stopCancelled])
    (f := fun tr => (tr.flatMap fun x => x.2.2.filterMap saysCancelled).length) (by decide +kernel)

def logHttp : Tracker := .http ⟨"http".toList, some (.domain "tracker.example".toList), none, "/announce".toList, none, none, []⟩

-- `log_warning`
example : ∃ tr s, AskLogRun (fun _ => []) (fun _ => none) logHttp sampleGetter logMagnet tr s ∧
    (tr.flatMap fun x => x.2.2.filterMap saysWarned).length = 1 ∧ (tr.flatMap fun x => x.2.2.filterMap saysCount).map (fun x => x.1.length) = [1] := by
  obtain ⟨tr, s, h, h1⟩ := execAskLog_get (t := logHttp)
    (es := [.client true, .http (.body (key "d8:intervali1800e5:peers6:iiiipp15:warning message4:slowe"))])
    (f := fun tr => ((tr.flatMap fun x => x.2.2.filterMap saysWarned).length, (tr.flatMap fun x => x.2.2.filterMap saysCount).map (fun x => x.1.length)))
    (a := (1, [1])) (by decide +kernel)
  exact ⟨tr, s, h, congrArg Prod.fst h1, congrArg Prod.snd h1⟩

/-- The errors of connecting. -/
def connectFailed : AskOutput → Bool
  | .result (.error (.inner .connect)) => true
  | _ => false

/-- **C97.** "Connected UDP socket to …" is said before the socket is connected, and so it is even said if it cannot be. -/
theorem log_socket_early : ∃ tr s, AskLogRun (fun _ => []) (fun _ => none) logUdp sampleGetter logMagnet tr s ∧
    (tr.flatMap fun x => x.2.2.filterMap saysSocket).map Prod.fst = [.v4 ⟨⟨0x0A000001#32⟩, 6969⟩] ∧ (tr.flatMap fun x => x.2.1.map connectFailed) = [true] := by
  obtain ⟨tr, s, h, h1⟩ := execAskLog_get (t := logUdp)
    (es := [.socket 0 17 ⟨some [.v4 ⟨⟨0x0A000001#32⟩, 6969⟩], fun _ => true, fun _ => false⟩])
    (f := fun tr => ((tr.flatMap fun x => x.2.2.filterMap saysSocket).map Prod.fst, (tr.flatMap fun x => x.2.1.map connectFailed)))
    (a := ([.v4 ⟨⟨0x0A000001#32⟩, 6969⟩], [true])) (by decide +kernel)
  exact ⟨tr, s, h, congrArg Prod.fst h1, congrArg Prod.snd h1⟩

end Demag.Props
