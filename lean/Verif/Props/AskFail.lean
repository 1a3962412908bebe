import Verif.Spec.AskFail
import Verif.Props.UdpErrors
import Verif.Props.TrackerFlow

/-!
# C66: the error that is the result names what happened
-/

namespace Demag.Props

open Spec

variable {lossy : Bytes → Text} {parseIp : Text → Option IpAddr} {t : Tracker} {c : GetterCtx}

theorem isV6_iff (a : SockAddr) : a.isV6 = true ↔ OnV6 a := by
  cases a with
  | v4 x => exact ⟨(fun h => by cases h), fun ⟨y, h⟩ => by cases h⟩
  | v6 x => exact ⟨fun _ => ⟨x, rfl⟩, fun _ => rfl⟩

theorem udpConnect_error {x : SocketChances} {e : AskError} {pre : AskTrace} (time : Nat) (xid : BitVec 32) :
    udpConnect x = .error e → AskFails lossy parseIp pre (.socket time xid x) (.inner e) := by
  intro h
  unfold udpConnect at h
  split at h
  · cases h; exact .lookup (by assumption)
  · cases h; exact .noResolve (by assumption)
  · rename_i addr rest hl
    split at h
    · split at h
      · cases h
      · cases h; exact .connect hl (isV6_iff addr) (by assumption) (Bool.eq_false_iff.2 (by assumption))
    · cases h; exact .bind hl (isV6_iff addr) (Bool.eq_false_iff.2 (by assumption))

theorem udpConnect_fails {x : SocketChances} {e : GetterError AskError} {pre : AskTrace} {time : Nat} {xid : BitVec 32} :
    AskFails lossy parseIp pre (.socket time xid x) e → ∃ e', e = .inner e' ∧ udpConnect x = .error e' := by
  have key : ∀ {addr : SockAddr} {v6 : Bool}, (v6 = true ↔ OnV6 addr) → addr.isV6 = v6 := by
    intro addr v6 h
    rw [← isV6_iff] at h
    cases v6 <;> simpa using h
  intro h
  cases h with
  | lookup h => exact ⟨_, rfl, by simp [udpConnect, h]⟩
  | noResolve h => exact ⟨_, rfl, by simp [udpConnect, h]⟩
  | bind h1 h2 h3 => exact ⟨_, rfl, by simp [udpConnect, h1, key h2, h3]⟩
  | connect h1 h2 h3 h4 => exact ⟨_, rfl, by simp [udpConnect, h1, key h2, h3, h4]⟩

theorem httpResult_error {o : HttpOutcome} {e : HttpError} {pre : AskTrace} (h : httpResult lossy parseIp o = .error e) :
    AskFails lossy parseIp pre (.http o) (.inner (.http e)) := by
  cases o with
  | sendError => cases h; exact .send
  | statusError => cases h; exact .status
  | bodyError => cases h; exact .read
  | body b =>
    cases e with
    | failure msg =>
      obtain ⟨kvs, rfl, h1, h2, h3⟩ := (httpResult_failure lossy parseIp b msg).1 h
      exact .failure h1 h2 h3
    | parseResponse e =>
      refine .parse fun kvs hb hc hd => ⟨fun r hr => ?_, fun msg hm => ?_⟩
      · have := (httpResult_ok lossy parseIp b r).2 ⟨kvs, hb, hc, hd, hr⟩
        rw [this] at h
        cases h
      · have := (httpResult_failure lossy parseIp b msg).2 ⟨kvs, hb, hc, hd, hm⟩
        rw [this] at h
        cases h
    | _ =>
      exfalso
      unfold httpResult at h
      simp only at h
      split at h <;> cases h

/-- **C66.** When asking a tracker has an error as its result, that error names what happened: the time was over; or the host could not be
looked up, or has no address, or no socket could be bound for its first address, or connected to it; or there is no HTTP client; or a UDP
tracker did not answer the last datagram as it should; or an HTTP tracker answered with an error. -/
theorem ask_fails {tr pre post : AskTrace} {s : Ask} {e : AskEvent} {out : List AskOutput} {err : GetterError AskError}
    (h : AskRun lossy parseIp t c tr s) (ht : tr = pre ++ (e, out) :: post) (hr : .result (.error err) ∈ out) :
    AskFails lossy parseIp pre e err := by
  obtain ⟨s1, s2, h1, hs⟩ := AskRun.split h ht
  have hi := ask_inv h1
  cases e with
  | timeout =>
    cases hi <;> simp [Ask.step, GetterState.step] at hs <;> obtain ⟨-, rfl⟩ := hs <;> simp at hr <;> subst hr <;> exact .timeout
  | dropped =>
    cases hi <;> simp [Ask.step, GetterState.step] at hs <;> obtain ⟨-, rfl⟩ := hs <;> simp at hr
  | stopCancelled =>
    cases hi <;> simp [Ask.step, GetterState.step] at hs <;> obtain ⟨-, rfl⟩ := hs <;> simp at hr
  | stopScheduled time xid =>
    cases hi with
    | @spawned i _ _ _ =>
      simp [Ask.step, Ask.tell, GetterState.step, InnerSession.perform] at hs
      obtain ⟨-, rfl⟩ := hs
      cases i <;> simp [InnerSession.announce] at hr
    | _ => simp [Ask.step, Ask.tell, GetterState.step] at hs
  | client built =>
    cases t with
    | udp u => simp [Ask.step] at hs
    | http u =>
      cases built <;> cases hi <;> simp [Ask.step, Ask.tell, GetterState.step, InnerSession.perform, InnerSession.announce] at hs <;>
        obtain ⟨-, rfl⟩ := hs <;> simp at hr
      subst hr
      exact .client
  | socket time xid x =>
    cases t with
    | http u => simp [Ask.step] at hs
    | udp u =>
      cases hx : udpConnect x <;> cases hi <;>
        simp [Ask.step, Ask.tell, GetterState.step, InnerSession.perform, InnerSession.announce, hx] at hs <;>
        obtain ⟨-, rfl⟩ := hs <;> simp at hr
      subst hr
      exact udpConnect_error _ _ hx
  | http o =>
    cases hi with
    | starting g1 g2 =>
      cases g2 with
      | udp => simp [Ask.step] at hs
      | @http uu ht' hd hq =>
        cases ho : httpResult lossy parseIp o <;>
          simp [Ask.step, Ask.tell, Ask.answer, GetterState.step, ho, Except.mapError, InnerSession.perform] at hs <;>
          obtain ⟨-, rfl⟩ := hs <;> simp at hr
        subst hr
        exact httpResult_error ho
    | announcing g1 g2 =>
      cases g2 with
      | udp => simp [Ask.step] at hs
      | http =>
        cases ho : httpResult lossy parseIp o <;>
          simp [Ask.step, Ask.tell, Ask.answer, GetterState.step, ho, Except.mapError, InnerSession.perform] at hs <;>
          obtain ⟨-, rfl⟩ := hs <;> simp at hr
    | spawned g1 g2 => cases g2 <;> simp [Ask.step] at hs
    | _ => simp [Ask.step] at hs
  | udp ue =>
    have hcall : ∀ {i g}, s1 = ⟨g, some i⟩ → ∀ a, ue.input ≠ .call a := by
      rintro i g rfl a ha
      cases i <;> simp [Ask.step, ha] at hs
    cases hi with
    | starting g1 g2 =>
      cases g2 with
      | http => simp [Ask.step] at hs
      | @udp uu addr u utr ht' hu hl hd hfd hc hb hq =>
        have hne := hcall rfl
        rw [ask_step_udp hne] at hs
        obtain ⟨-, -, -, d4, -⟩ := datagrams_of_udp addr (u.step lossy ue).2
        cases ha : udpAnswer (u.step lossy ue).2 with
        | none =>
          rw [ha] at hs
          cases hs
          obtain ⟨bs, hbs, -⟩ := d4 _ hr
          cases hbs
        | some a =>
          rw [ha] at hs
          cases a with
          | ok r =>
            simp [Ask.tell, Ask.answer, GetterState.step, Except.mapError, InnerSession.perform] at hs
            obtain ⟨-, rfl⟩ := hs
            simp at hr
            obtain ⟨bs, hbs, -⟩ := d4 _ hr
            cases hbs
          | error er =>
            simp [Ask.tell, Ask.answer, GetterState.step, Except.mapError, InnerSession.perform] at hs
            obtain ⟨-, rfl⟩ := hs
            simp at hr
            have her : err = .inner (.udp er) := by
              rcases hr with hr | hr
              · obtain ⟨bs, hbs, -⟩ := d4 _ hr
                cases hbs
              · exact hr
            subst her
            have hmem := (udp_step_busy (lossy := lossy) (e := ue) (hb.2 rfl)).2 _ ha |>.2
            have hbl := udp_error_causes (hu.snoc ue (fun a h => absurd h (hne a))) rfl hmem
            rw [hl] at hbl
            exact .udp hfd (isV6_iff addr) hbl
    | announcing g1 g2 =>
      cases g2 with
      | http => simp [Ask.step] at hs
      | @udp uu addr u utr ht' hu hl hd hfd hc hb hq =>
        rw [ask_step_udp (hcall rfl)] at hs
        obtain ⟨-, -, -, d4, -⟩ := datagrams_of_udp addr (u.step lossy ue).2
        have hbad : ∀ {l : List AskOutput}, out = udpDatagrams addr (u.step lossy ue).2 ++ l → (∀ r, .result r ∉ l) → False := by
          rintro l rfl hl'
          rcases List.mem_append.1 hr with hr | hr
          · obtain ⟨bs, hbs, -⟩ := d4 _ hr
            cases hbs
          · exact hl' _ hr
        cases ha : udpAnswer (u.step lossy ue).2 with
        | none =>
          rw [ha] at hs
          cases hs
          exact (hbad (l := []) (by simp) (by simp)).elim
        | some a =>
          rw [ha] at hs
          cases a <;> simp [Ask.tell, Ask.answer, GetterState.step, Except.mapError, InnerSession.perform] at hs <;>
            obtain ⟨-, rfl⟩ := hs
          · exact (hbad rfl (by simp)).elim
          · exact (hbad (l := []) (by simp) (by simp)).elim
    | spawned g1 g2 =>
      cases g2 with
      | http => simp [Ask.step] at hs
      | @udp uu addr u utr ht' hu hl hd hfd hc hb hq =>
        have hidle : u.phase = .idle := Decidable.byContradiction fun h => by simpa using hb.1 h
        rw [ask_step_udp (hcall rfl), udp_step_idle hidle (hcall rfl)] at hs
        cases hs
        cases hr
    | _ => simp [Ask.step] at hs

/-- **C66.** And what fails is reported at once: while there is no result, a socket that cannot be had, the lack of an HTTP client, the end of
the time and an HTTP answer that is no response each give the error that names them as the result, and nothing else is done. -/
theorem ask_reports {pre : AskTrace} {s s' : Ask} {e : AskEvent} {out : List AskOutput} {err : GetterError AskError}
    (h : AskRun lossy parseIp t c pre s) (hn : askResults pre = []) (hs : s.step lossy parseIp t c e = some (s', out))
    (hf : AskFails lossy parseIp pre e err) (hu : ∀ ue, e ≠ .udp ue) :
    ∃ err', AskFails lossy parseIp pre e err' ∧ out = [.result (.error err')] := by
  have hi := ask_inv h
  cases e with
  | udp ue => exact absurd rfl (hu ue)
  | dropped => cases hf
  | stopCancelled => cases hf
  | stopScheduled => cases hf
  | timeout =>
    refine ⟨.timeout, .timeout, ?_⟩
    cases hi <;> simp [Ask.step, GetterState.step] at hs <;> exact hs.2.symm
  | client built =>
    cases hf
    refine ⟨_, .client, ?_⟩
    cases t with
    | udp u => simp [Ask.step] at hs
    | http u => cases hi <;> simp [Ask.step, GetterState.step] at hs <;> exact hs.2.symm
  | socket time xid x =>
    obtain ⟨e', rfl, he⟩ := udpConnect_fails hf
    refine ⟨_, hf, ?_⟩
    cases t with
    | http u => simp [Ask.step] at hs
    | udp u => cases hi <;> simp [Ask.step, GetterState.step, he] at hs <;> exact hs.2.symm
  | http o =>
    cases ho : httpResult lossy parseIp o with
    | error er =>
      refine ⟨_, httpResult_error ho, ?_⟩
      cases hi with
      | starting g1 g2 =>
        cases g2 with
        | udp => simp [Ask.step] at hs
        | http =>
          simp [Ask.step, Ask.tell, Ask.answer, GetterState.step, ho, Except.mapError, InnerSession.perform] at hs
          exact hs.2.symm
      | announcing g1 g2 => rw [hn] at g1; cases g1
      | spawned g1 g2 => rw [hn] at g1; cases g1
      | _ => simp [Ask.step] at hs
    | ok r =>
      exfalso
      cases o with
      | body b =>
        obtain ⟨kvs, rfl, h1, h2, h3⟩ := (httpResult_ok lossy parseIp b r).1 ho
        generalize hb : benc (.dict kvs) = b at hf ho
        cases hf with
        | failure g1 g2 g3 =>
          have := (httpResult_failure lossy parseIp _ _).2 ⟨_, rfl, g1, g2, g3⟩
          rw [this] at ho
          cases ho
        | parse g => exact (g kvs hb.symm h1 h2).1 r h3
      | _ => cases ho

/-- **C66.** A UDP tracker at an IPv4 address gives peers with IPv4 addresses, one at an IPv6 address peers with IPv6 addresses. -/
theorem ask_family {tr pre post : AskTrace} {s : Ask} {e : AskEvent} {out : List AskOutput} {ps : List Peer} {u : UdpUrl}
    (h : AskRun lossy parseIp (.udp u) c tr s) (ht : tr = pre ++ (e, out) :: post) (hr : .result (.ok ps) ∈ out) :
    ∃ addr, Found pre addr ∧ ∀ p ∈ ps, OnV6 p.address ↔ OnV6 addr := by
  rcases ask_peers h ht hr with ⟨u', ue, bs, addr, req, cid, xid, i, l, n, addrs, -, rfl, hi, hd, hq, ha, rfl⟩ | ⟨u', _, _, _, _, hc, _⟩
  · refine ⟨addr, ?_, fun p hp => ?_⟩
    · have hdm : (addr, req) ∈ datagrams pre := List.mem_of_getLast? hd
      simp only [datagrams, List.mem_filterMap, List.mem_flatMap] at hdm
      obtain ⟨x, ⟨⟨e1, o1⟩, h1, h2⟩, h3⟩ := hdm
      obtain ⟨p1, p2, rfl⟩ := List.append_of_mem h1
      have hx : x = .datagram addr req := by
        cases x <;> simp at h3
        rw [h3.1, h3.2]
      obtain ⟨-, -, hf, -⟩ := ask_datagrams h (pre := p1) (e := e1) (out := o1) (post := p2 ++ (.udp ue, out) :: post) (by rw [ht]; simp) (hx ▸ h2)
      exact found_mono hf _
    · obtain ⟨x, hx, rfl⟩ := List.mem_map.1 hp
      rw [← isV6_iff addr]
      exact ha.2.2.2.2.2.2 x hx
  · cases hc

-- `ask_fails`, `ask_reports`: a host without addresses; a tracker with an IPv6 address, for which there is no socket; one that refuses
example : ∃ s, AskRun (fun _ => []) (fun _ => none) (.udp ⟨"tracker.example".toList, 6969, []⟩) sampleGetter
    [(.socket 0 0 ⟨some [], fun _ => true, fun _ => true⟩, [.result (.error (.inner .noResolve))])] s := ⟨_, .step .init rfl⟩
example : ∃ s, AskRun (fun _ => []) (fun _ => none) (.udp ⟨"tracker.example".toList, 6969, []⟩) sampleGetter
    [(.socket 0 0 ⟨some [.v6 ⟨⟨1#128⟩, 6969⟩, .v4 ⟨⟨0x0A000001#32⟩, 6969⟩], (!·), fun _ => true⟩, [.result (.error (.inner .bind))])] s :=
  ⟨_, .step .init rfl⟩
example : ∃ s, AskRun (fun _ => []) (fun _ => none) (.udp ⟨"tracker.example".toList, 6969, []⟩) sampleGetter
    [(.socket 0 0 ⟨some [.v4 ⟨⟨0x0A000001#32⟩, 6969⟩], (!·), fun _ => false⟩, [.result (.error (.inner .connect))])] s := ⟨_, .step .init rfl⟩

end Demag.Props
