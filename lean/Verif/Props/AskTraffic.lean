import Verif.Spec.AskTraffic
import Verif.Props.TrackerFlow
import Verif.Props.UdpTraffic

/-!
# C85: how much is sent to a tracker that is asked for peers
-/

namespace Demag.Props

open Spec

variable {lossy : Bytes → Text} {parseIp : Text → Option IpAddr} {t : Tracker} {c : GetterCtx}

/-- The announcements that have been begun. -/
def GetterState.begun : GetterState → Nat
  | ⟨.connecting, _⟩ => 0
  | ⟨_, .absent⟩ => 1
  | ⟨_, .spawned⟩ => 1
  | ⟨_, _⟩ => 2

/-- The datagrams are those of a UDP session that was called for each of these announcements. -/
structure AskUdp (lossy : Bytes → Text) (t : Tracker) (tr : AskTrace) (s : Ask) (ipv6 : Bool) (utr : UdpTrace) (u : UdpSession) (url : Text) :
    Prop where
  run : UdpRun lossy ipv6 url utr u
  sent : (datagrams tr).map Prod.snd = udpSent utr
  calls : udpCalls utr ≤ GetterState.begun s.getter
  times : (utr.map fun x => x.1.time).Sublist (askMoments tr)
  inner : ∀ addr v, s.inner = some (.udp addr v) → v = u
  none : ∀ x, t = .http x → utr = []
  url : ∀ x, t = .udp x → url = x.urldata

theorem askMoments_snoc (tr : AskTrace) (e : AskEvent) (out : List AskOutput) :
    askMoments (tr ++ [(e, out)]) = askMoments tr ++ (AskEvent.moment e).toList := by
  simp only [askMoments, List.filterMap_append, List.filterMap_cons, List.filterMap_nil]
  cases AskEvent.moment e <;> rfl

theorem udpDatagrams_sent (addr : SockAddr) (out : List UdpOutput) :
    ((udpDatagrams addr out).filterMap datagramOf).map Prod.snd = out.filterMap sentPacket := by
  induction out with
  | nil => rfl
  | cons o out ih => cases o <;> simp [udpDatagrams, List.filterMap_cons, datagramOf, sentPacket, ih]

/-- An event that the session does not see, and that sends nothing. -/
theorem AskUdp.other {tr : AskTrace} {s s' : Ask} {ipv6 : Bool} {utr : UdpTrace} {u : UdpSession} {url : Text}
    (h : AskUdp lossy t tr s ipv6 utr u url) {e : AskEvent} {out : List AskOutput} (ho : out.filterMap datagramOf = [])
    (hb : GetterState.begun s.getter ≤ GetterState.begun s'.getter)
    (hi : ∀ addr v, s'.inner = some (.udp addr v) → s.inner = some (.udp addr v)) :
    AskUdp lossy t (tr ++ [(e, out)]) s' ipv6 utr u url := by
  refine ⟨h.run, ?_, Nat.le_trans h.calls hb, ?_, fun addr v hv => h.inner addr v (hi addr v hv), h.none, h.url⟩
  · rw [datagrams_snoc, ho, List.append_nil, h.sent]
  · rw [askMoments_snoc]
    exact h.times.trans (List.sublist_append_left _ _)

/-- An event that the session sees. -/
theorem AskUdp.seen {tr : AskTrace} {s s' : Ask} {ipv6 : Bool} {utr : UdpTrace} {u : UdpSession} {url : Text}
    (h : AskUdp lossy t tr s ipv6 utr u url) {e : AskEvent} {ue : UdpEvent} {out : List AskOutput}
    (ho : (out.filterMap datagramOf).map Prod.snd = (u.step lossy ue).2.filterMap sentPacket) (hal : u.Allows ue)
    (hb : GetterState.begun s.getter + (if isCall ue.input then 1 else 0) ≤ GetterState.begun s'.getter)
    (hm : AskEvent.moment e = some ue.time) (ht : ∃ x, t = .udp x)
    (hi : ∀ addr v, s'.inner = some (.udp addr v) → v = (u.step lossy ue).1) :
    AskUdp lossy t (tr ++ [(e, out)]) s' ipv6 (utr ++ [(ue, (u.step lossy ue).2)]) (u.step lossy ue).1 url := by
  refine ⟨h.run.snoc ue hal, ?_, ?_, ?_, hi, ?_, h.url⟩
  · rw [datagrams_snoc, List.map_append, h.sent, ho, udpSent_snoc]
  · rw [udpCalls_snoc]
    exact Nat.le_trans (Nat.add_le_add_right h.calls _) hb
  · rw [askMoments_snoc, hm, List.map_append]
    exact h.times.append (List.Sublist.refl _)
  · rintro x rfl
    obtain ⟨_, ht⟩ := ht
    cases ht

theorem ask_udp {tr : AskTrace} {s : Ask} (h : AskRun lossy parseIp t c tr s) : ∃ ipv6 utr u url, AskUdp lossy t tr s ipv6 utr u url := by
  induction h with
  | init =>
    refine ⟨false, [], _, (match t with | .udp x => x.urldata | .http _ => []), .nil, rfl, Nat.le_refl _, List.Sublist.refl _,
      (fun addr v h => by cases h), fun _ _ => rfl, ?_⟩
    rintro x rfl
    rfl
  | @step tr s e s' out hrun hs ih =>
    obtain ⟨ipv6, utr, u, url, ih⟩ := ih
    have inv := ask_inv hrun
    cases e with
    | timeout =>
      refine ⟨ipv6, utr, u, url, ?_⟩
      cases inv <;> simp [Ask.step, GetterState.step, Option.map] at hs <;> obtain ⟨rfl, rfl⟩ := hs <;>
        exact ih.other rfl (by simp [GetterState.begun]) (fun _ _ h => by cases h)
    | dropped =>
      refine ⟨ipv6, utr, u, url, ?_⟩
      cases inv <;> simp [Ask.step, GetterState.step, Option.map] at hs <;> obtain ⟨rfl, rfl⟩ := hs <;>
        exact ih.other rfl (by simp [GetterState.begun]) (fun _ _ h => by cases h)
    | stopCancelled =>
      refine ⟨ipv6, utr, u, url, ?_⟩
      cases inv <;> simp [Ask.step, GetterState.step, Option.map] at hs <;> obtain ⟨rfl, rfl⟩ := hs <;>
        exact ih.other rfl (by simp [GetterState.begun]) (fun _ _ h => by cases h)
    | client built =>
      refine ⟨ipv6, utr, u, url, ?_⟩
      cases t with
      | udp x => simp [Ask.step] at hs
      | http x =>
        cases built <;> cases inv <;>
          simp [Ask.step, Ask.tell, GetterState.step, InnerSession.perform, InnerSession.announce] at hs <;>
          obtain ⟨rfl, rfl⟩ := hs <;>
          exact ih.other rfl (by simp [GetterState.begun]) (fun _ _ h => by cases h)
    | http o =>
      refine ⟨ipv6, utr, u, url, ?_⟩
      cases inv with
      | starting h1 h2 =>
        cases h2 with
        | udp => simp [Ask.step] at hs
        | http =>
          cases ho : httpResult lossy parseIp o <;>
            simp [Ask.step, Ask.tell, Ask.answer, GetterState.step, InnerSession.perform, ho, Except.mapError] at hs <;>
            obtain ⟨rfl, rfl⟩ := hs <;>
            exact ih.other rfl (by simp [GetterState.begun]) (fun _ _ h => by cases h)
      | spawned h1 h2 => cases h2 <;> simp [Ask.step] at hs
      | announcing h1 h2 =>
        cases h2 with
        | udp => simp [Ask.step] at hs
        | http =>
          cases ho : httpResult lossy parseIp o <;>
            simp [Ask.step, Ask.tell, Ask.answer, GetterState.step, InnerSession.perform, ho, Except.mapError] at hs <;>
            obtain ⟨rfl, rfl⟩ := hs <;>
            exact ih.other rfl (by simp [GetterState.begun]) (fun _ _ h => by cases h)
      | _ => simp [Ask.step] at hs
    | stopScheduled time xid =>
      cases inv with
      | @spawned i ps h1 h2 =>
        simp [Ask.step, Ask.tell, GetterState.step, InnerSession.perform] at hs
        obtain ⟨rfl, rfl⟩ := hs
        cases h2 with
        | @udp uu addr v utr' ht hu hl hd hfd hc hb hr =>
          have hvu := ih.inner addr v rfl
          subst hvu
          have hidle : v.phase = .idle := Decidable.byContradiction fun h => by simpa using hb.1 h
          obtain ⟨hp, bs, ho⟩ := udp_step_call (lossy := lossy) (time := time) (xid := xid) (a := c.announcement .stopped) hidle
          refine ⟨ipv6, _, _, url, ih.seen (ue := ⟨time, xid, .call (c.announcement .stopped)⟩) ?_ (fun _ _ => hidle)
            (by simp [GetterState.begun, isCall]) rfl ⟨_, ht⟩ ?_⟩
          · rw [ho]; rfl
          · intro addr' v' h; cases h; rfl
        | http =>
          exact ⟨ipv6, utr, u, url, ih.other rfl (by simp [GetterState.begun])
            (fun _ _ h => by simp [InnerSession.announce] at h)⟩
      | _ => simp [Ask.step, Ask.tell, GetterState.step] at hs
    | socket time xid x =>
      cases t with
      | http u => simp [Ask.step] at hs
      | udp w =>
        cases hx : udpConnect x with
        | error er =>
          cases inv <;> simp [Ask.step, GetterState.step, hx] at hs
          obtain ⟨rfl, rfl⟩ := hs
          exact ⟨ipv6, utr, u, url, ih.other rfl (by simp [GetterState.begun]) (fun _ _ h => by cases h)⟩
        | ok addr =>
          cases inv with
          | connecting h1 h2 h3 =>
            simp [Ask.step, Ask.tell, GetterState.step, hx, InnerSession.perform, InnerSession.announce] at hs
            obtain ⟨rfl, rfl⟩ := hs
            obtain ⟨hp, bs, ho⟩ := udp_step_call (lossy := lossy) (u := .new addr.isV6 w.urldata) (time := time) (xid := xid)
              (a := c.announcement .started) rfl
            have start : AskUdp lossy (.udp w) tr ⟨⟨.connecting, .absent⟩, none⟩ addr.isV6 [] (.new addr.isV6 w.urldata) w.urldata :=
              ⟨.nil, by rw [h1]; rfl, Nat.zero_le _, List.nil_sublist _, (fun _ _ h => by cases h), fun _ _ => rfl, (fun x h => by cases h; rfl)⟩
            refine ⟨_, _, _, _, start.seen (ue := ⟨time, xid, .call (c.announcement .started)⟩) ?_ (fun _ _ => rfl)
              (by simp [GetterState.begun, isCall]) rfl ⟨_, rfl⟩ ?_⟩
            · rw [ho]; rfl
            · intro addr' v' h; cases h; rfl
          | _ => simp [Ask.step, Ask.tell, GetterState.step, hx] at hs
    | udp e =>
      by_cases he : ∃ a, e.input = .call a
      · obtain ⟨a, ha⟩ := he
        simp only [Ask.step, ha] at hs
        split at hs <;> cases hs
      have he' : ∀ a, e.input ≠ .call a := fun a ha => he ⟨a, ha⟩
      have hcall : isCall e.input = false := by
        cases hi : e.input with
        | call a => exact absurd hi (he' a)
        | _ => rfl
      obtain ⟨g, inner⟩ := s
      cases inner with
      | none => simp [Ask.step] at hs
      | some i =>
        cases i with
        | http v b => simp [Ask.step] at hs
        | udp addr v =>
          have hvu := ih.inner addr v rfl
          subst hvu
          have htu : ∃ x, t = .udp x := by
            cases inv with
            | starting _ h2 => cases h2; exact ⟨_, by assumption⟩
            | spawned _ h2 => cases h2; exact ⟨_, by assumption⟩
            | announcing _ h2 => cases h2; exact ⟨_, by assumption⟩
          rw [ask_step_udp he'] at hs
          have fin : ∀ {s' : Ask} {outs}, (outs.filterMap datagramOf) = [] →
              GetterState.begun g ≤ GetterState.begun s'.getter →
              (∀ addr' v', s'.inner = some (.udp addr' v') → v' = (v.step lossy e).1) →
              ∃ ipv6 utr u url, AskUdp lossy t (tr ++ [(.udp e, udpDatagrams addr (v.step lossy e).2 ++ outs)]) s' ipv6 utr u url := by
            intro s' outs ho hb hi
            refine ⟨ipv6, _, _, url, ih.seen (ue := e) ?_ (fun a ha => absurd ha (he' a)) (by rw [hcall]; exact hb) rfl htu hi⟩
            rw [List.filterMap_append, ho, List.append_nil, udpDatagrams_sent]
          cases hans : udpAnswer (v.step lossy e).2 with
          | none =>
            rw [hans] at hs
            simp only [Option.some.injEq, Prod.mk.injEq] at hs
            obtain ⟨rfl, rfl⟩ := hs
            have := @fin ⟨g, some (.udp addr (v.step lossy e).1)⟩ [] rfl (Nat.le_refl _) (by intro _ _ h; cases h; rfl)
            simpa using this
          | some a =>
            rw [hans] at hs
            simp only at hs
            cases inv <;> cases a <;>
              simp [Ask.tell, Ask.answer, GetterState.step, InnerSession.perform, Except.mapError] at hs <;>
              obtain ⟨rfl, rfl⟩ := hs <;>
              first
              | exact fin rfl (by simp [GetterState.begun]) (by intro _ _ h; first | (cases h; rfl) | (cases h; done))
              | (have := @fin ⟨⟨.over, .over⟩, none⟩ [] rfl (by simp [GetterState.begun]) (by intro _ _ h; cases h)
                 simpa using this)

/-- **C85.** However a tracker answers, and whatever it answers, asking it for peers and telling it afterwards that we have
stopped takes four datagrams, one for each 15 seconds and two for each minute at most; before peers have been returned,
two datagrams and as many for the time at most. -/
theorem ask_traffic {tr : AskTrace} {s : Ask} (h : AskRun lossy parseIp t c tr s) (t0 T : Nat) (ht : During t0 T tr) :
    (datagrams tr).length ≤ 4 + T / (15 * second) + 2 * (T / (60 * second)) ∧
    (¬ Answered tr → (datagrams tr).length ≤ 2 + T / (15 * second) + 2 * (T / (60 * second))) := by
  obtain ⟨ipv6, utr, u, url, hu⟩ := ask_udp h
  have hch : Chronological utr := by
    unfold Chronological
    have := ht.1.sublist hu.times
    rwa [List.pairwise_map] at this
  have htr := udp_traffic hu.run hch t0 T fun x hx => ht.2 _ (hu.times.subset (List.mem_map.2 ⟨x, hx, rfl⟩))
  have hlen : (datagrams tr).length = (udpSent utr).length := by rw [← hu.sent, List.length_map]
  rw [← hlen] at htr
  have hcalls := hu.calls
  constructor
  · have : GetterState.begun s.getter ≤ 2 := by
      unfold GetterState.begun; split <;> omega
    omega
  · intro hna
    have : GetterState.begun s.getter ≤ 1 := by
      cases ask_inv h with
      | announcing h1 _ => exact absurd ⟨_, by rw [h1]; exact List.mem_singleton.2 rfl⟩ hna
      | over h1 _ => exact absurd ⟨_, by rw [h1]; exact List.mem_singleton.2 rfl⟩ hna
      | _ => simp [GetterState.begun]
    omega

/-- **C85.** Each datagram has 16 bytes, or 98 bytes and the URL options. -/
theorem ask_datagram_size {tr : AskTrace} {s : Ask} (h : AskRun lossy parseIp t c tr s) (d : SockAddr × List UInt8)
    (hd : d ∈ datagrams tr) : d.2.length = 16 ∨ d.2.length = 98 + optionsLength (urlDataLength t) := by
  obtain ⟨ipv6, utr, u, url, hu⟩ := ask_udp h
  have hm : d.2 ∈ udpSent utr := by rw [← hu.sent]; exact List.mem_map.2 ⟨d, hd, rfl⟩
  have := udp_packet_size hu.run d.2 hm
  cases t with
  | udp x => rw [hu.url x rfl] at this; exact this
  | http x =>
    rw [hu.none x rfl] at hm
    cases hm

/-- **C85.** At most two URLs are requested, and none of a UDP tracker; no datagram is sent to an HTTP tracker. -/
theorem ask_requests_few {tr : AskTrace} {s : Ask} (h : AskRun lossy parseIp t c tr s) :
    (requests tr).length ≤ 2 ∧ (∀ u, t = .udp u → requests tr = []) ∧ (∀ u, t = .http u → datagrams tr = []) ∧
      (¬ Answered tr → (requests tr).length ≤ 1) := by
  refine ⟨?_, ?_, ?_, ?_⟩
  · rcases ask_requests h with h | ⟨_, _, _, _, h | ⟨_, _, h, _⟩⟩ <;> simp [h]
  · rintro u rfl
    rcases ask_requests h with h | ⟨_, _, h, _⟩
    · exact h
    · cases h
  · rintro u rfl
    obtain ⟨ipv6, utr, v, url, hu⟩ := ask_udp h
    have := hu.sent
    rw [hu.none u rfl] at this
    exact List.map_eq_nil_iff.1 this
  · intro hna
    rcases ask_requests h with h | ⟨_, _, _, _, h | ⟨_, _, _, h⟩⟩
    · simp [h]
    · simp [h]
    · exact absurd h hna

/-- The run with these events. -/
def execAsk (t : Tracker) (c : GetterCtx) : AskTrace × Ask → List AskEvent → Option (AskTrace × Ask)
  | x, [] => some x
  | x, e :: es =>
    match x.2.step (fun _ => []) (fun _ => none) t c e with
    | none => none
    | some (s', out) => execAsk t c (x.1 ++ [(e, out)], s') es

theorem execAsk_run {x y : AskTrace × Ask} (h : AskRun (fun _ => []) (fun _ => none) t c x.1 x.2) (es : List AskEvent)
    (he : execAsk t c x es = some y) : AskRun (fun _ => []) (fun _ => none) t c y.1 y.2 := by
  induction es generalizing x with
  | nil => cases he; exact h
  | cons e es ih =>
    unfold execAsk at he
    split at he
    · cases he
    · rename_i s' out hs
      exact ih (x := (x.1 ++ [(e, out)], s')) (h.step hs) he

/-- Asking a UDP tracker that does not answer the announcement within 15 seconds. -/
def slowAsk : List AskEvent :=
  [.socket 0 17 ⟨some [.v4 ⟨⟨0x0A000001#32⟩, 6969⟩], fun _ => true, fun _ => true⟩, .udp ⟨0, 0, .sent⟩,
    .udp ⟨second, 18, .packet [0, 0, 0, 0, 0, 0, 0, 17, 0, 0, 0, 0, 0, 0, 0, 0xAB]⟩, .udp ⟨second, 0, .sent⟩,
    .udp ⟨16 * second, 0, .timer⟩, .udp ⟨16 * second, 0, .sent⟩]

/-- Its answer, and the "stopped" announcement. -/
def slowAnswer : List AskEvent :=
  [.udp ⟨17 * second, 0, .packet [0, 0, 0, 1, 0, 0, 0, 18, 0, 0, 7, 8, 0, 0, 0, 1, 0, 0, 0, 2, 1, 2, 3, 4, 0x1a, 0xe1]⟩,
    .stopScheduled (17 * second) 19, .udp ⟨17 * second, 0, .sent⟩]

/-- What it took to ask. -/
def askCost (t : Tracker) (es : List AskEvent) : Option (List Nat × Nat × List Nat) :=
  (execAsk t sampleGetter ([], ⟨.init, none⟩) es).map fun y =>
    ((datagrams y.1).map fun d => d.2.length, (askResults y.1).length, askMoments y.1)

theorem askCost_run {es : List AskEvent} {ls : List Nat} {n : Nat} {ms : List Nat} (h : askCost t es = some (ls, n, ms)) :
    ∃ tr s, AskRun (fun _ => []) (fun _ => none) t sampleGetter tr s ∧ (datagrams tr).map (fun d => d.2.length) = ls ∧
      (askResults tr).length = n ∧ askMoments tr = ms := by
  unfold askCost at h
  cases hy : execAsk t sampleGetter ([], ⟨.init, none⟩) es with
  | none => rw [hy] at h; cases h
  | some y =>
    rw [hy] at h
    simp only [Option.map_some, Option.some.injEq, Prod.mk.injEq] at h
    exact ⟨y.1, y.2, execAsk_run (x := ([], ⟨.init, none⟩)) .init es hy, h.1, h.2.1, h.2.2⟩

-- the bound before peers are returned is met exactly: three datagrams in 16 seconds
example : ∃ tr s, AskRun (fun _ => []) (fun _ => none) (.udp ⟨"tracker.example".toList, 6969, "/a".toList⟩) sampleGetter tr s ∧
    During 0 (16 * second) tr ∧ ¬ Answered tr ∧ (datagrams tr).map (fun d => d.2.length) = [16, 102, 102] ∧
    2 + 16 * second / (15 * second) + 2 * (16 * second / (60 * second)) = 3 := by
  obtain ⟨tr, s, h, h1, h2, h3⟩ := askCost_run (t := .udp ⟨"tracker.example".toList, 6969, "/a".toList⟩) (es := slowAsk)
    (ls := [16, 102, 102]) (n := 0) (ms := [0, 0, second, second, 16 * second, 16 * second]) (by decide +kernel)
  refine ⟨tr, s, h, ⟨by rw [h3]; decide +kernel, by rw [h3]; decide +kernel⟩, ?_, h1, by decide +kernel⟩
  rintro ⟨ps, hp⟩
  rw [List.length_eq_zero_iff.1 h2] at hp
  cases hp

-- with the answer and the "stopped" announcement
example : ∃ tr s, AskRun (fun _ => []) (fun _ => none) (.udp ⟨"tracker.example".toList, 6969, "/a".toList⟩) sampleGetter tr s ∧
    During 0 (17 * second) tr ∧ (askResults tr).length = 1 ∧ (datagrams tr).map (fun d => d.2.length) = [16, 102, 102, 102] := by
  obtain ⟨tr, s, h, h1, h2, h3⟩ := askCost_run (t := .udp ⟨"tracker.example".toList, 6969, "/a".toList⟩) (es := slowAsk ++ slowAnswer)
    (ls := [16, 102, 102, 102]) (n := 1)
    (ms := [0, 0, second, second, 16 * second, 16 * second, 17 * second, 17 * second, 17 * second]) (by decide +kernel)
  exact ⟨tr, s, h, ⟨by rw [h3]; decide +kernel, by rw [h3]; decide +kernel⟩, h2, h1⟩

end Demag.Props
