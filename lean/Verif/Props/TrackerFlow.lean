import Verif.Props.UdpSession
import Verif.Props.HttpQuery
import Verif.Props.HttpResponse
import Verif.Props.TrackerSession
import Verif.Spec.TrackerFlow

/-!
# C66: peers come from the tracker's answer to our announcement
-/

namespace Demag.Props

open Spec

variable {lossy : Bytes → Text} {parseIp : Text → Option IpAddr} {t : Tracker} {c : GetterCtx}

/-! ### Traces -/

def datagramOf : AskOutput → Option (SockAddr × Bytes)
  | .datagram addr bs => some (addr, bs)
  | _ => none

def requestOf : AskOutput → Option Url
  | .get u => some u
  | _ => none

def askResultOf : AskOutput → Option (Except (GetterError AskError) (List Peer))
  | .result r => some r
  | _ => none

theorem datagrams_snoc (tr : AskTrace) (e : AskEvent) (out : List AskOutput) :
    datagrams (tr ++ [(e, out)]) = datagrams tr ++ out.filterMap datagramOf := by
  simp only [datagrams, List.flatMap_append, List.filterMap_append, List.flatMap_cons, List.flatMap_nil, List.append_nil]
  rfl
theorem requests_snoc (tr : AskTrace) (e : AskEvent) (out : List AskOutput) :
    requests (tr ++ [(e, out)]) = requests tr ++ out.filterMap requestOf := by
  simp only [requests, List.flatMap_append, List.filterMap_append, List.flatMap_cons, List.flatMap_nil, List.append_nil]
  rfl
theorem askResults_snoc (tr : AskTrace) (e : AskEvent) (out : List AskOutput) :
    askResults (tr ++ [(e, out)]) = askResults tr ++ out.filterMap askResultOf := by
  simp only [askResults, List.flatMap_append, List.filterMap_append, List.flatMap_cons, List.flatMap_nil, List.append_nil]
  rfl

theorem AskRun.split {tr : AskTrace} {s : Ask} (h : AskRun lossy parseIp t c tr s) {pre post : AskTrace} {e : AskEvent}
    {out : List AskOutput} (ht : tr = pre ++ (e, out) :: post) :
    ∃ s1 s2, AskRun lossy parseIp t c pre s1 ∧ s1.step lossy parseIp t c e = some (s2, out) := by
  induction h generalizing post with
  | init => simp at ht
  | @step tr s e' s' out' h hs ih =>
    rcases List.eq_nil_or_concat post with rfl | ⟨post', x, rfl⟩
    · obtain ⟨rfl, hx⟩ := List.append_inj' ht rfl
      simp only [List.cons.injEq, Prod.mk.injEq, and_true] at hx
      obtain ⟨rfl, rfl⟩ := hx
      exact ⟨_, _, h, hs⟩
    · rw [List.concat_eq_append] at ht
      have ht' : tr ++ [(e', out')] = (pre ++ (e, out) :: post') ++ [x] := by rw [ht]; simp
      exact ih (List.append_inj' ht' rfl).1

/-! ### The UDP session -/

theorem udp_step_busy {u : UdpSession} {e : UdpEvent} (hu : u.phase ≠ .idle) :
    (udpAnswer (u.step lossy e).2 = none → (u.step lossy e).1.phase ≠ .idle) ∧
    (∀ r, udpAnswer (u.step lossy e).2 = some r → (u.step lossy e).1.phase = .idle ∧ .result r ∈ (u.step lossy e).2) := by
  obtain ⟨ip, url, conn, phase⟩ := u
  cases phase with
  | idle => exact absurd rfl hu
  | connecting a xid chat =>
    unfold UdpSession.step
    simp only
    split <;> first
      | (simp [udpAnswer]; done)
      | (split <;> simp [udpAnswer]; done)
      | (split
         · simp [udpAnswer]
         · split <;> simp [udpAnswer, UdpSession.startAnnounce])
  | announcing a xid cn chat =>
    unfold UdpSession.step
    simp only
    split <;> first
      | (simp [udpAnswer]; done)
      | (split <;> simp [udpAnswer, UdpSession.startConnect]; done)
      | (split
         · simp [udpAnswer]
         · split <;> simp [udpAnswer, UdpSession.startConnect])

theorem udp_step_idle {u : UdpSession} {e : UdpEvent} (hu : u.phase = .idle) (he : ∀ a, e.input ≠ .call a) :
    u.step lossy e = (u, []) := by
  obtain ⟨ip, url, conn, phase⟩ := u
  simp only at hu
  subst hu
  obtain ⟨time, xid, input⟩ := e
  cases input <;> first | rfl | exact absurd rfl (he _)

theorem ask_step_udp {g : GetterState} {addr : SockAddr} {u : UdpSession} {e : UdpEvent} (he : ∀ a, e.input ≠ .call a) :
    Ask.step lossy parseIp t c ⟨g, some (.udp addr u)⟩ (.udp e) =
      match udpAnswer (u.step lossy e).2 with
      | none => some (⟨g, some (.udp addr (u.step lossy e).1)⟩, udpDatagrams addr (u.step lossy e).2)
      | some a => (Ask.tell lossy c ⟨g, some (.udp addr u)⟩ (.udp addr (u.step lossy e).1) e.time e.xid
          (Ask.answer ⟨g, some (.udp addr u)⟩ (a.mapError .udp))).map fun q => (q.1, udpDatagrams addr (u.step lossy e).2 ++ q.2) := by
  obtain ⟨time, xid, input⟩ := e
  cases input <;> first | rfl | exact absurd rfl (he _)

theorem udp_step_call {u : UdpSession} {time : Nat} {xid : BitVec 32} {a : Announcement} (hu : u.phase = .idle) :
    (u.step lossy ⟨time, xid, .call a⟩).1.phase ≠ .idle ∧ ∃ bs, (u.step lossy ⟨time, xid, .call a⟩).2 = [.request bs] := by
  obtain ⟨ip, url, conn, phase⟩ := u
  simp only at hu
  subst hu
  unfold UdpSession.step
  simp only
  cases conn with
  | none => simp [UdpSession.startConnect]
  | some cn =>
    simp only
    split <;> simp [UdpSession.startConnect, UdpSession.startAnnounce]

theorem datagrams_of_udp (addr : SockAddr) (out : List UdpOutput) :
    (udpDatagrams addr out).filterMap requestOf = [] ∧ (udpDatagrams addr out).filterMap askResultOf = [] ∧
    (∀ d ∈ (udpDatagrams addr out).filterMap datagramOf, d.1 = addr) ∧
    (∀ d ∈ udpDatagrams addr out, ∃ bs, d = .datagram addr bs ∧ .transmit bs ∈ out) ∧
    ∀ (l : List (SockAddr × Bytes)) (acc : Option Bytes), acc = l.getLast?.map Prod.snd →
      out.foldl sentAfter acc = (l ++ (udpDatagrams addr out).filterMap datagramOf).getLast?.map Prod.snd := by
  induction out with
  | nil => simp [udpDatagrams]
  | cons o out ih =>
    obtain ⟨h1, h2, h3, h4, h5⟩ := ih
    cases o with
    | transmit bs =>
      simp only [udpDatagrams]
      refine ⟨?_, ?_, ?_, ?_, ?_⟩
      · rw [List.filterMap_cons]; exact h1
      · rw [List.filterMap_cons]; exact h2
      · intro d hd
        rw [List.filterMap_cons] at hd
        simp only [datagramOf, List.mem_cons] at hd
        rcases hd with rfl | hd
        · rfl
        · exact h3 _ hd
      · intro d hd
        rcases List.mem_cons.1 hd with rfl | hd
        · exact ⟨bs, rfl, by simp⟩
        · obtain ⟨b, hb, hm⟩ := h4 d hd; exact ⟨b, hb, by simp [hm]⟩
      · intro l acc hacc
        rw [List.foldl_cons, List.filterMap_cons]
        simp only [sentAfter, datagramOf]
        rw [h5 (l ++ [(addr, bs)]) (some bs) (by simp)]
        simp
    | _ =>
      simp only [udpDatagrams, List.foldl_cons, sentAfter]
      exact ⟨h1, h2, h3, fun d hd => (h4 d hd).imp fun b hb => ⟨hb.1, by simp [hb.2]⟩, h5⟩

/-! ### The invariant -/

/-- The session inside, the last announcement made with it being that for `ev`; `busy`: it has not been answered. -/
inductive Sess (lossy : Bytes → Text) (t : Tracker) (c : GetterCtx) (ev : AnnounceEvent) (busy : Bool) (tr : AskTrace) : InnerSession → Prop
  | udp {uu : UdpUrl} {addr : SockAddr} {u : UdpSession} {utr : UdpTrace} : t = .udp uu → UdpRun lossy addr.isV6 uu.urldata utr u →
      lastSent utr = (datagrams tr).getLast?.map Prod.snd → (∀ d ∈ datagrams tr, d.1 = addr) → Found tr addr →
      lastCall utr = some (c.announcement ev) → (u.phase ≠ .idle ↔ busy = true) → requests tr = [] → Sess lossy t c ev busy tr (.udp addr u)
  | http {uu : Url} : t = .http uu → datagrams tr = [] →
      requests tr = announceUrl uu (c.announcement .started) :: (if ev = .stopped then [announceUrl uu (c.announcement .stopped)] else []) →
      Sess lossy t c ev busy tr (.http uu busy)

theorem found_mono {tr : AskTrace} {addr : SockAddr} (h : Found tr addr) (l : AskTrace) : Found (tr ++ l) addr := by
  obtain ⟨time, xid, x, out, rest, h1, h2⟩ := h
  exact ⟨time, xid, x, out, rest, by simp [h1], h2⟩

theorem found_of_connect {tr : AskTrace} {time : Nat} {xid : BitVec 32} {x : SocketChances} {out : List AskOutput} {addr : SockAddr}
    (h : udpConnect x = .ok addr) (hm : (AskEvent.socket time xid x, out) ∈ tr) : Found tr addr := by
  refine ⟨time, xid, x, out, ?_⟩
  unfold udpConnect at h
  split at h
  · cases h
  · cases h
  · rename_i a rest hl
    refine ⟨rest, hm, ?_⟩
    split at h
    · split at h
      · cases h; exact hl
      · cases h
    · cases h

/-- The URLs that may be requested. -/
def mayRequest (t : Tracker) (c : GetterCtx) : List Url :=
  match t with
  | .udp _ => []
  | .http u => [announceUrl u (c.announcement .started), announceUrl u (c.announcement .stopped)]

inductive AskInv (lossy : Bytes → Text) (t : Tracker) (c : GetterCtx) (tr : AskTrace) : Ask → Prop
  | connecting : datagrams tr = [] → requests tr = [] → askResults tr = [] → AskInv lossy t c tr ⟨⟨.connecting, .absent⟩, none⟩
  | starting {i} : askResults tr = [] → Sess lossy t c .started true tr i → AskInv lossy t c tr ⟨⟨.starting, .absent⟩, some i⟩
  | failed : (∀ ps, .ok ps ∉ askResults tr) → (askResults tr).length ≤ 1 →
      (requests tr = [] ∨ ∃ u, t = .http u ∧ requests tr = [announceUrl u (c.announcement .started)]) →
      AskInv lossy t c tr ⟨⟨.over, .absent⟩, none⟩
  | spawned {i ps} : askResults tr = [.ok ps] → Sess lossy t c .started false tr i → AskInv lossy t c tr ⟨⟨.over, .spawned⟩, some i⟩
  | announcing {i ps} : askResults tr = [.ok ps] → Sess lossy t c .stopped true tr i → AskInv lossy t c tr ⟨⟨.over, .announcing⟩, some i⟩
  | over {ps} : askResults tr = [.ok ps] → requests tr <+: mayRequest t c → AskInv lossy t c tr ⟨⟨.over, .over⟩, none⟩

theorem Sess.requests_prefix {ev : AnnounceEvent} {busy : Bool} {tr : AskTrace} {i : InnerSession} (h : Sess lossy t c ev busy tr i) :
    requests tr <+: mayRequest t c := by
  cases h with
  | udp ht _ _ _ _ _ _ hr => rw [hr]; exact List.nil_prefix
  | http ht _ hr =>
    rw [hr, ht]
    simp only [mayRequest]
    split
    · exact List.prefix_refl _
    · exact ⟨[_], rfl⟩

theorem Sess.requests_started {busy : Bool} {tr : AskTrace} {i : InnerSession} (h : Sess lossy t c .started busy tr i) :
    requests tr = [] ∨ ∃ u, t = .http u ∧ requests tr = [announceUrl u (c.announcement .started)] := by
  cases h with
  | udp ht _ _ _ _ _ _ hr => exact .inl hr
  | http ht _ hr => exact .inr ⟨_, ht, by simpa using hr⟩

theorem ask_inv {tr : AskTrace} {s : Ask} (h : AskRun lossy parseIp t c tr s) : AskInv lossy t c tr s := by
  induction h with
  | init => exact .connecting rfl rfl rfl
  | @step tr s e s' out hrun hs ih =>
    cases e with
    | timeout =>
      cases ih with
      | connecting h1 h2 h3 =>
        simp only [Ask.step, GetterState.step, Option.map] at hs
        cases hs
        exact .failed (by simp [askResults_snoc, askResultOf, List.filterMap_cons, h3]) (by simp [askResults_snoc, askResultOf, List.filterMap_cons, h3])
          (.inl (by simp [requests_snoc, requestOf, List.filterMap_cons, h2]))
      | starting h1 h2 =>
        simp only [Ask.step, GetterState.step, Option.map] at hs
        cases hs
        exact .failed (by simp [askResults_snoc, askResultOf, List.filterMap_cons, h1]) (by simp [askResults_snoc, askResultOf, List.filterMap_cons, h1])
          (by simpa [requests_snoc, requestOf, List.filterMap_cons] using h2.requests_started)
      | _ => simp [Ask.step, GetterState.step] at hs
    | dropped =>
      cases ih with
      | connecting h1 h2 h3 =>
        simp only [Ask.step, GetterState.step, Option.map] at hs
        cases hs
        exact .failed (by simp [askResults_snoc, h3]) (by simp [askResults_snoc, h3])
          (.inl (by simp [requests_snoc, h2]))
      | starting h1 h2 =>
        simp only [Ask.step, GetterState.step, Option.map] at hs
        cases hs
        exact .failed (by simp [askResults_snoc, h1]) (by simp [askResults_snoc, h1])
          (by simpa [requests_snoc] using h2.requests_started)
      | _ => simp [Ask.step, GetterState.step] at hs
    | stopCancelled =>
      cases ih with
      | spawned h1 h2 =>
        simp [Ask.step, GetterState.step] at hs
        obtain ⟨rfl, rfl⟩ := hs
        exact .over (by simpa [askResults_snoc] using h1) (by simpa [requests_snoc] using h2.requests_prefix)
      | announcing h1 h2 =>
        simp [Ask.step, GetterState.step] at hs
        obtain ⟨rfl, rfl⟩ := hs
        exact .over (by simpa [askResults_snoc] using h1) (by simpa [requests_snoc] using h2.requests_prefix)
      | _ => simp [Ask.step, GetterState.step] at hs
    | stopScheduled time xid =>
      cases ih with
      | @spawned i ps h1 h2 =>
        simp [Ask.step, Ask.tell, GetterState.step, InnerSession.perform] at hs
        obtain ⟨rfl, rfl⟩ := hs
        cases h2 with
        | udp ht hu hl hd hfd hc hb hr =>
          obtain ⟨hp, bs, ho⟩ := udp_step_call (lossy := lossy) (time := time) (xid := xid) (a := c.announcement .stopped)
            (Decidable.byContradiction fun h => by simpa using hb.1 h)
          refine .announcing (ps := ps) ?_ (.udp ht (hu.snoc ⟨time, xid, .call (c.announcement .stopped)⟩ ?_) ?_ ?_ ?_ ?_ ?_ ?_)
          · simpa [askResults_snoc, InnerSession.announce] using h1
          · exact fun _ _ => Decidable.byContradiction fun h => by simpa using hb.1 h
          · rw [lastSent_snoc, ho]; simpa [sentAfter, datagrams_snoc, InnerSession.announce] using hl
          · simpa [datagrams_snoc, InnerSession.announce] using hd
          · exact found_mono hfd _
          · rw [lastCall_snoc]; rfl
          · exact ⟨fun _ => rfl, fun _ => hp⟩
          · simpa [requests_snoc, InnerSession.announce] using hr
        | http ht hd hr =>
          refine .announcing (ps := ps) ?_ (.http ht ?_ ?_)
          · simpa [askResults_snoc, InnerSession.announce, askResultOf, List.filterMap_cons] using h1
          · simpa [datagrams_snoc, InnerSession.announce, datagramOf, List.filterMap_cons] using hd
          · simp [requests_snoc, InnerSession.announce, requestOf, List.filterMap_cons, hr]
      | _ => simp [Ask.step, Ask.tell, GetterState.step] at hs
    | client built =>
      cases t with
      | udp u => simp [Ask.step] at hs
      | http u =>
        cases built with
        | true =>
          cases ih with
          | connecting h1 h2 h3 =>
            simp [Ask.step, Ask.tell, GetterState.step, InnerSession.perform, InnerSession.announce] at hs
            obtain ⟨rfl, rfl⟩ := hs
            exact .starting (by simp [askResults_snoc, askResultOf, List.filterMap_cons, h3]) (.http rfl (by simp [datagrams_snoc, datagramOf, List.filterMap_cons, h1])
              (by simp [requests_snoc, requestOf, List.filterMap_cons, h2]))
          | _ => simp [Ask.step, Ask.tell, GetterState.step] at hs
        | false =>
          cases ih with
          | connecting h1 h2 h3 =>
            simp [Ask.step, GetterState.step] at hs
            obtain ⟨rfl, rfl⟩ := hs
            exact .failed (by simp [askResults_snoc, askResultOf, List.filterMap_cons, h3]) (by simp [askResults_snoc, askResultOf, List.filterMap_cons, h3])
              (.inl (by simp [requests_snoc, requestOf, List.filterMap_cons, h2]))
          | _ => simp [Ask.step, GetterState.step] at hs
    | socket time xid x =>
      cases t with
      | http u => simp [Ask.step] at hs
      | udp u =>
        cases hx : udpConnect x with
        | error er =>
          cases ih with
          | connecting h1 h2 h3 =>
            simp [Ask.step, GetterState.step, hx] at hs
            obtain ⟨rfl, rfl⟩ := hs
            exact .failed (by simp [askResults_snoc, askResultOf, List.filterMap_cons, h3]) (by simp [askResults_snoc, askResultOf, List.filterMap_cons, h3])
              (.inl (by simp [requests_snoc, requestOf, List.filterMap_cons, h2]))
          | _ => simp [Ask.step, GetterState.step, hx] at hs
        | ok addr =>
          cases ih with
          | connecting h1 h2 h3 =>
            simp [Ask.step, Ask.tell, GetterState.step, hx, InnerSession.perform, InnerSession.announce] at hs
            obtain ⟨rfl, rfl⟩ := hs
            obtain ⟨hp, bs, ho⟩ := udp_step_call (lossy := lossy) (u := .new addr.isV6 u.urldata) (time := time) (xid := xid)
              (a := c.announcement .started) rfl
            refine .starting ?_ (.udp rfl (UdpRun.nil.snoc ⟨time, xid, .call (c.announcement .started)⟩ ?_) ?_ ?_ ?_ ?_ ?_ ?_)
            · simp [askResults_snoc, h3]
            · exact fun _ _ => rfl
            · rw [lastSent_snoc, ho]; simp [sentAfter, datagrams_snoc, h1, lastSent]
            · simp [datagrams_snoc, h1]
            · exact found_of_connect hx (List.mem_append_right _ (List.mem_singleton.2 rfl))
            · rw [lastCall_snoc]; rfl
            · exact ⟨fun _ => rfl, fun _ => hp⟩
            · simp [requests_snoc, h2]
          | _ => simp [Ask.step, Ask.tell, GetterState.step, hx] at hs
    | http o =>
      have hr := httpResult lossy parseIp o
      cases ih with
      | starting h1 h2 =>
        cases h2 with
        | udp => simp [Ask.step] at hs
        | http ht hd hr =>
          cases ho : httpResult lossy parseIp o with
          | ok r =>
            simp [Ask.step, Ask.tell, Ask.answer, GetterState.step, ho, Except.mapError, InnerSession.perform] at hs
            obtain ⟨rfl, rfl⟩ := hs
            exact .spawned (ps := r.peers) (by simp [askResults_snoc, askResultOf, List.filterMap_cons, h1]) (.http ht (by simp [datagrams_snoc, datagramOf, List.filterMap_cons, hd])
              (by simp [requests_snoc, requestOf, List.filterMap_cons, hr]))
          | error er =>
            simp [Ask.step, Ask.tell, Ask.answer, GetterState.step, ho, Except.mapError, InnerSession.perform] at hs
            obtain ⟨rfl, rfl⟩ := hs
            exact .failed (by simp [askResults_snoc, askResultOf, List.filterMap_cons, h1]) (by simp [askResults_snoc, askResultOf, List.filterMap_cons, h1])
              (.inr ⟨_, ht, by simp [requests_snoc, requestOf, List.filterMap_cons, hr]⟩)
      | announcing h1 h2 =>
        have hpre := h2.requests_prefix
        cases h2 with
        | udp => simp [Ask.step] at hs
        | http ht hd hr =>
          cases ho : httpResult lossy parseIp o with
          | ok r =>
            simp [Ask.step, Ask.tell, Ask.answer, GetterState.step, ho, Except.mapError, InnerSession.perform] at hs
            obtain ⟨rfl, rfl⟩ := hs
            exact .over (by simpa [askResults_snoc, askResultOf, List.filterMap_cons] using h1) (by simpa [requests_snoc] using hpre)
          | error er =>
            simp [Ask.step, Ask.tell, Ask.answer, GetterState.step, ho, Except.mapError, InnerSession.perform] at hs
            obtain ⟨rfl, rfl⟩ := hs
            exact .over (by simpa [askResults_snoc, askResultOf, List.filterMap_cons] using h1) (by simpa [requests_snoc, requestOf, List.filterMap_cons] using hpre)
      | spawned h1 h2 =>
        cases h2 with
        | udp => simp [Ask.step] at hs
        | http => simp [Ask.step] at hs
      | _ => simp [Ask.step] at hs
    | udp e =>
      cases ih with
      | connecting => simp [Ask.step] at hs
      | failed => simp [Ask.step] at hs
      | over => simp [Ask.step] at hs
      | starting h1 h2 =>
        cases h2 with
        | http => simp [Ask.step] at hs
        | @udp uu addr u utr ht hu hl hd hfd hc hb hr =>
          by_cases hcall : ∃ a, e.input = .call a
          · obtain ⟨a, ha⟩ := hcall
            simp [Ask.step, ha] at hs
          · have hne : ∀ a, e.input ≠ .call a := fun a h => hcall ⟨a, h⟩
            have hrun' := hu.snoc e (fun a h => absurd h (hne a))
            obtain ⟨d1, d2, d3, -, d5⟩ := datagrams_of_udp addr (u.step lossy e).2
            obtain ⟨b1, b2⟩ := udp_step_busy (lossy := lossy) (e := e) (hb.2 rfl)
            have hstep := hs
            rw [ask_step_udp hne] at hstep
            cases ha : udpAnswer (u.step lossy e).2 with
            | none =>
              rw [ha] at hstep
              cases hstep
              refine .starting (by simp [askResults_snoc, d2, h1]) (.udp ht hrun' ?_ ?_ (found_mono hfd _) ?_ ?_ ?_)
              · rw [lastSent_snoc, datagrams_snoc]; exact d5 _ _ hl
              · intro d hd'
                rw [datagrams_snoc] at hd'
                rcases List.mem_append.1 hd' with h | h
                · exact hd _ h
                · exact d3 _ h
              · rw [lastCall_snoc, callAfter_ne _ _ hne]; exact hc
              · exact ⟨fun _ => rfl, fun _ => b1 ha⟩
              · simp [requests_snoc, d1, hr]
            | some a =>
              rw [ha] at hstep
              cases a with
              | ok r =>
                simp [Ask.tell, Ask.answer, GetterState.step, Except.mapError, InnerSession.perform] at hstep
                obtain ⟨rfl, rfl⟩ := hstep
                refine .spawned (ps := r.peers) (by simp [askResults_snoc, askResultOf, List.filterMap_cons, d2, h1]) (.udp ht hrun' ?_ ?_ (found_mono hfd _) ?_ ?_ ?_)
                · rw [lastSent_snoc, datagrams_snoc]; simpa [datagramOf, List.filterMap_cons] using d5 _ _ hl
                · intro d hd'
                  rw [datagrams_snoc] at hd'
                  rcases List.mem_append.1 hd' with h | h
                  · exact hd _ h
                  · exact d3 _ (by simpa [datagramOf, List.filterMap_cons] using h)
                · rw [lastCall_snoc, callAfter_ne _ _ hne]; exact hc
                · simp [(b2 _ ha).1]
                · simp [requests_snoc, d1, hr, requestOf, List.filterMap_cons]
              | error er =>
                simp [Ask.tell, Ask.answer, GetterState.step, Except.mapError, InnerSession.perform] at hstep
                obtain ⟨rfl, rfl⟩ := hstep
                exact .failed (by simp [askResults_snoc, askResultOf, List.filterMap_cons, d2, h1]) (by simp [askResults_snoc, askResultOf, List.filterMap_cons, d2, h1])
                  (.inl (by simp [requests_snoc, d1, hr, requestOf, List.filterMap_cons]))
      | announcing h1 h2 =>
        cases h2 with
        | http => simp [Ask.step] at hs
        | @udp uu addr u utr ht hu hl hd hfd hc hb hr =>
          by_cases hcall : ∃ a, e.input = .call a
          · obtain ⟨a, ha⟩ := hcall
            simp [Ask.step, ha] at hs
          · have hne : ∀ a, e.input ≠ .call a := fun a h => hcall ⟨a, h⟩
            have hrun' := hu.snoc e (fun a h => absurd h (hne a))
            obtain ⟨d1, d2, d3, -, d5⟩ := datagrams_of_udp addr (u.step lossy e).2
            obtain ⟨b1, b2⟩ := udp_step_busy (lossy := lossy) (e := e) (hb.2 rfl)
            have hstep := hs
            rw [ask_step_udp hne] at hstep
            cases ha : udpAnswer (u.step lossy e).2 with
            | none =>
              rw [ha] at hstep
              cases hstep
              refine .announcing (by simp [askResults_snoc, d2, h1]; rfl) (.udp ht hrun' ?_ ?_ (found_mono hfd _) ?_ ?_ ?_)
              · rw [lastSent_snoc, datagrams_snoc]; exact d5 _ _ hl
              · intro d hd'
                rw [datagrams_snoc] at hd'
                rcases List.mem_append.1 hd' with h | h
                · exact hd _ h
                · exact d3 _ h
              · rw [lastCall_snoc, callAfter_ne _ _ hne]; exact hc
              · exact ⟨fun _ => rfl, fun _ => b1 ha⟩
              · simp [requests_snoc, d1, hr]
            | some a =>
              rw [ha] at hstep
              cases a with
              | ok r =>
                simp [Ask.tell, Ask.answer, GetterState.step, Except.mapError, InnerSession.perform] at hstep
                obtain ⟨rfl, rfl⟩ := hstep
                exact .over (by simp [askResults_snoc, d2, h1]; rfl) (by simp [requests_snoc, d1, hr])
              | error er =>
                simp [Ask.tell, Ask.answer, GetterState.step, Except.mapError, InnerSession.perform] at hstep
                obtain ⟨rfl, rfl⟩ := hstep
                exact .over (by simp [askResults_snoc, askResultOf, List.filterMap_cons, d2, h1]; rfl) (by simp [requests_snoc, d1, hr, requestOf, List.filterMap_cons])
      | spawned h1 h2 =>
        cases h2 with
        | http => simp [Ask.step] at hs
        | @udp uu addr u utr ht hu hl hd hfd hc hb hr =>
          by_cases hcall : ∃ a, e.input = .call a
          · obtain ⟨a, ha⟩ := hcall
            simp [Ask.step, ha] at hs
          · have hne : ∀ a, e.input ≠ .call a := fun a h => hcall ⟨a, h⟩
            have hidle : u.phase = .idle := Decidable.byContradiction fun h => by simpa using hb.1 h
            have hstep : Ask.step lossy parseIp t c ⟨⟨.over, .spawned⟩, some (.udp addr u)⟩ (.udp e) =
                some (⟨⟨.over, .spawned⟩, some (.udp addr u)⟩, []) := by
              rw [ask_step_udp hne, udp_step_idle hidle hne]
              rfl
            rw [hstep] at hs
            cases hs
            refine .spawned (by simp [askResults_snoc, h1]; rfl) (.udp ht hu ?_ ?_ (found_mono hfd _) hc hb ?_)
            · simpa [datagrams_snoc] using hl
            · simpa [datagrams_snoc] using hd
            · simpa [requests_snoc] using hr

/-! ### C66 -/

theorem askResults_of_mem {pre post : AskTrace} {e : AskEvent} {out : List AskOutput} {r : Except (GetterError AskError) (List Peer)}
    (h : .result r ∈ out) : r ∈ askResults (pre ++ (e, out) :: post) := by
  simp only [askResults, List.flatMap_append, List.flatMap_cons, List.filterMap_append, List.mem_append, List.mem_filterMap]
  exact .inr (.inl ⟨_, h, rfl⟩)

/-- **C66.** Peers are returned only from an answer to the "started" announcement.  For a UDP tracker: when they are returned, a packet has
arrived from the address asked that is an announce response with the transaction ID of the last datagram sent; that datagram announces "started"
with the right fields, and the peers are the addresses in the packet.  For an HTTP tracker: the only URL requested so far announces
"started", and the peers are those that the body of the response denotes. -/
theorem ask_peers {tr pre post : AskTrace} {s : Ask} {e : AskEvent} {out : List AskOutput} {ps : List Peer}
    (h : AskRun lossy parseIp t c tr s) (ht : tr = pre ++ (e, out) :: post) (hr : .result (.ok ps) ∈ out) :
    (∃ u ue bs addr req cid xid i l n addrs, t = .udp u ∧ e = .udp ue ∧ ue.input = .packet bs ∧
      (datagrams pre).getLast? = some (addr, req) ∧ IsAnnounceRequest cid xid (c.announcement .started) (utf8 u.urldata) req ∧
      IsAnnounceResponse addr.isV6 xid i l n addrs bs ∧ ps = addrs.map (fun a => ⟨a, none, false⟩)) ∨
    (∃ u url b kvs r, t = .http u ∧ e = .http (.body b) ∧ requests pre = [url] ∧ IsHttpAnnounce u (c.announcement .started) url ∧
      b = benc (.dict kvs) ∧ Canonical (.dict kvs) ∧ DenotesResponse lossy parseIp kvs r ∧ ps = r.peers) := by
  obtain ⟨s1, s2, h1, hs⟩ := AskRun.split h ht
  have hi := ask_inv h1
  cases e with
  | timeout =>
    cases hi <;> simp [Ask.step, GetterState.step] at hs <;> obtain ⟨-, rfl⟩ := hs <;> simp at hr
  | dropped =>
    cases hi <;> simp [Ask.step, GetterState.step] at hs <;> obtain ⟨-, rfl⟩ := hs <;> simp at hr
  | stopCancelled =>
    cases hi <;> simp [Ask.step, GetterState.step] at hs <;> obtain ⟨-, rfl⟩ := hs <;> simp at hr
  | stopScheduled time xid =>
    cases hi with
    | @spawned i _ _ _ =>
      simp [Ask.step, Ask.tell, GetterState.step, InnerSession.perform] at hs
      obtain ⟨-, rfl⟩ := hs
      cases i <;> simp [InnerSession.announce] at hr
    | _ => simp [Ask.step, Ask.tell, GetterState.step] at hs
  | client built =>
    cases t with
    | udp u => simp [Ask.step] at hs
    | http u =>
      cases built <;> cases hi <;> simp [Ask.step, Ask.tell, GetterState.step, InnerSession.perform, InnerSession.announce] at hs <;>
        obtain ⟨-, rfl⟩ := hs <;> simp at hr
  | socket time xid x =>
    cases t with
    | http u => simp [Ask.step] at hs
    | udp u =>
      cases hx : udpConnect x <;> cases hi <;>
        simp [Ask.step, Ask.tell, GetterState.step, InnerSession.perform, InnerSession.announce, hx] at hs <;>
        obtain ⟨-, rfl⟩ := hs <;> simp at hr
  | http o =>
    right
    cases hi with
    | starting g1 g2 =>
      cases g2 with
      | udp => simp [Ask.step] at hs
      | @http uu ht' hd hq =>
        cases ho : httpResult lossy parseIp o with
        | ok r =>
          simp [Ask.step, Ask.tell, Ask.answer, GetterState.step, ho, Except.mapError, InnerSession.perform] at hs
          obtain ⟨-, rfl⟩ := hs
          simp at hr
          subst hr
          cases o with
          | body b =>
            obtain ⟨kvs, hb, hk, -, hden⟩ := (httpResult_ok lossy parseIp b r).1 ho
            obtain ⟨q', qs, hq1, hq2, hq3⟩ := announceQuery_decodes uu.query (c.announcement .started)
            exact ⟨uu, announceUrl uu (c.announcement .started), b, kvs, r, ht', rfl, by simpa using hq, ⟨rfl, rfl, rfl, rfl, rfl, q', qs, hq1, hq2, hq3⟩, hb, hk, hden, rfl⟩
          | _ => cases ho
        | error er =>
          simp [Ask.step, Ask.tell, Ask.answer, GetterState.step, ho, Except.mapError, InnerSession.perform] at hs
          obtain ⟨-, rfl⟩ := hs
          simp at hr
    | announcing g1 g2 =>
      cases g2 with
      | udp => simp [Ask.step] at hs
      | http =>
        cases ho : httpResult lossy parseIp o <;>
          simp [Ask.step, Ask.tell, Ask.answer, GetterState.step, ho, Except.mapError, InnerSession.perform] at hs <;>
          obtain ⟨-, rfl⟩ := hs <;> simp at hr
    | spawned g1 g2 => cases g2 <;> simp [Ask.step] at hs
    | _ => simp [Ask.step] at hs
  | udp ue =>
    left
    have hcall : ∀ {i g}, s1 = ⟨g, some i⟩ → ∀ a, ue.input ≠ .call a := by
      rintro i g rfl a ha
      cases i <;> simp [Ask.step, ha] at hs
    cases hi with
    | starting g1 g2 =>
      cases g2 with
      | http => simp [Ask.step] at hs
      | @udp uu addr u utr ht' hu hl hd hfd hc hb hq =>
        have hne := hcall rfl
        rw [ask_step_udp hne] at hs
        obtain ⟨-, -, -, d4, -⟩ := datagrams_of_udp addr (u.step lossy ue).2
        cases ha : udpAnswer (u.step lossy ue).2 with
        | none =>
          rw [ha] at hs
          cases hs
          obtain ⟨bs, hbs, -⟩ := d4 _ hr
          cases hbs
        | some a =>
          rw [ha] at hs
          cases a with
          | error er =>
            simp [Ask.tell, Ask.answer, GetterState.step, Except.mapError, InnerSession.perform] at hs
            obtain ⟨-, rfl⟩ := hs
            simp at hr
            obtain ⟨bs, hbs, -⟩ := d4 _ hr
            cases hbs
          | ok r =>
            simp [Ask.tell, Ask.answer, GetterState.step, Except.mapError, InnerSession.perform] at hs
            obtain ⟨-, rfl⟩ := hs
            simp at hr
            have hps : ps = r.peers := by
              rcases hr with hr | hr
              · obtain ⟨bs, hbs, -⟩ := d4 _ hr
                cases hbs
              · exact hr
            have hmem := (udp_step_busy (lossy := lossy) (e := ue) (hb.2 rfl)).2 _ ha |>.2
            obtain ⟨bs, req, cid, xid, a, i, l, n, addrs, k1, k2, k3, k4, k5, k6⟩ :=
              udp_peers_answer_request_partial (hu.snoc ue (fun a h => absurd h (hne a))) rfl hmem
            rw [hl] at k2
            rw [hc] at k3
            cases k3
            cases hlast : (datagrams pre).getLast? with
            | none => rw [hlast] at k2; cases k2
            | some d =>
              rw [hlast] at k2
              cases k2
              have hda := hd d (List.mem_of_getLast? hlast)
              exact ⟨uu, ue, bs, addr, d.2, cid, xid, i, l, n, addrs, ht', rfl, k1, by rw [← hda], k4, k5, by rw [hps, k6]⟩
    | announcing g1 g2 =>
      cases g2 with
      | http => simp [Ask.step] at hs
      | @udp uu addr u utr ht' hu hl hd hfd hc hb hq =>
        rw [ask_step_udp (hcall rfl)] at hs
        obtain ⟨-, -, -, d4, -⟩ := datagrams_of_udp addr (u.step lossy ue).2
        have hbad : ∀ {l : List AskOutput}, out = udpDatagrams addr (u.step lossy ue).2 ++ l → (∀ r, .result r ∉ l) → False := by
          rintro l rfl hl'
          rcases List.mem_append.1 hr with hr | hr
          · obtain ⟨bs, hbs, -⟩ := d4 _ hr
            cases hbs
          · exact hl' _ hr
        cases ha : udpAnswer (u.step lossy ue).2 with
        | none =>
          rw [ha] at hs
          cases hs
          exact (hbad (l := []) (by simp) (by simp)).elim
        | some a =>
          rw [ha] at hs
          cases a <;> simp [Ask.tell, Ask.answer, GetterState.step, Except.mapError, InnerSession.perform] at hs <;>
            obtain ⟨-, rfl⟩ := hs
          · exact (hbad rfl (by simp)).elim
          · exact (hbad (l := []) (by simp) (by simp)).elim
    | spawned g1 g2 =>
      cases g2 with
      | http => simp [Ask.step] at hs
      | @udp uu addr u utr ht' hu hl hd hfd hc hb hq =>
        have hidle : u.phase = .idle := Decidable.byContradiction fun h => by simpa using hb.1 h
        rw [ask_step_udp (hcall rfl), udp_step_idle hidle (hcall rfl)] at hs
        cases hs
        cases hr
    | _ => simp [Ask.step] at hs

/-- **C66.** Every datagram goes to the first address found for the tracker's host and is a connect request or an announce request with
the right fields and the path and query of the tracker's URL, for "started" until peers have been returned and for "stopped" afterwards. -/
theorem ask_datagrams {tr pre post : AskTrace} {s : Ask} {e : AskEvent} {out : List AskOutput} {addr : SockAddr} {bs : Bytes}
    (h : AskRun lossy parseIp t c tr s) (ht : tr = pre ++ (e, out) :: post) (hd : .datagram addr bs ∈ out) :
    ∃ u, t = .udp u ∧ Found pre addr ∧ ((∃ xid, IsConnectRequest xid bs) ∨
      ∃ ev cid xid, CurrentEvent pre ev ∧ IsAnnounceRequest cid xid (c.announcement ev) (utf8 u.urldata) bs) := by
  obtain ⟨s1, s2, h1, hs⟩ := AskRun.split h ht
  have hi := ask_inv h1
  -- what a session may send
  have key : ∀ {ev busy addr' u ue}, Sess lossy t c ev busy pre (.udp addr' u) → CurrentEvent pre ev →
      addr = addr' ∧ .transmit bs ∈ (u.step lossy ue).2 → ∃ u, t = .udp u ∧ Found pre addr ∧ ((∃ xid, IsConnectRequest xid bs) ∨
      ∃ ev cid xid, CurrentEvent pre ev ∧ IsAnnounceRequest cid xid (c.announcement ev) (utf8 u.urldata) bs) := by
    rintro ev busy addr' u ue hsess hev ⟨rfl, htr⟩
    cases hsess with
    | @udp uu _ _ utr ht' hu hl hd hfd hc hb hq =>
      refine ⟨uu, ht', hfd, ?_⟩
      have hv := hu.inv
      rcases step_transmit htr with ⟨a, xid, chat, hph, -, rfl⟩ | ⟨a, xid, cn, chat, hph, -, rfl⟩
      · obtain ⟨-, hm, -⟩ := hv.connecting _ _ _ hph
        exact .inl ⟨xid.toNat, hm ▸ udpConnectRequest_spec _⟩
      · obtain ⟨hl', hm, -⟩ := hv.announcing _ _ _ _ hph
        rw [hc] at hl'
        cases hl'
        exact .inr ⟨ev, _, _, hev, hm ▸ udpAnnounceRequest_spec _ _ _ _⟩
  cases e with
  | timeout =>
    cases hi <;> simp [Ask.step, GetterState.step] at hs <;> obtain ⟨-, rfl⟩ := hs <;> simp at hd
  | dropped =>
    cases hi <;> simp [Ask.step, GetterState.step] at hs <;> obtain ⟨-, rfl⟩ := hs <;> simp at hd
  | stopCancelled =>
    cases hi <;> simp [Ask.step, GetterState.step] at hs <;> obtain ⟨-, rfl⟩ := hs <;> simp at hd
  | stopScheduled time xid =>
    cases hi with
    | @spawned i _ _ _ =>
      simp [Ask.step, Ask.tell, GetterState.step, InnerSession.perform] at hs
      obtain ⟨-, rfl⟩ := hs
      cases i <;> simp [InnerSession.announce] at hd
    | _ => simp [Ask.step, Ask.tell, GetterState.step] at hs
  | client built =>
    cases t with
    | udp u => simp [Ask.step] at hs
    | http u =>
      cases built <;> cases hi <;> simp [Ask.step, Ask.tell, GetterState.step, InnerSession.perform, InnerSession.announce] at hs <;>
        obtain ⟨-, rfl⟩ := hs <;> simp at hd
  | socket time xid x =>
    cases t with
    | http u => simp [Ask.step] at hs
    | udp u =>
      cases hx : udpConnect x <;> cases hi <;>
        simp [Ask.step, Ask.tell, GetterState.step, InnerSession.perform, InnerSession.announce, hx] at hs <;>
        obtain ⟨-, rfl⟩ := hs <;> simp at hd
  | http o =>
    cases hi with
    | starting g1 g2 =>
      cases g2 with
      | udp => simp [Ask.step] at hs
      | http =>
        cases ho : httpResult lossy parseIp o <;>
          simp [Ask.step, Ask.tell, Ask.answer, GetterState.step, ho, Except.mapError, InnerSession.perform] at hs <;>
          obtain ⟨-, rfl⟩ := hs <;> simp at hd
    | announcing g1 g2 =>
      cases g2 with
      | udp => simp [Ask.step] at hs
      | http =>
        cases ho : httpResult lossy parseIp o <;>
          simp [Ask.step, Ask.tell, Ask.answer, GetterState.step, ho, Except.mapError, InnerSession.perform] at hs <;>
          obtain ⟨-, rfl⟩ := hs <;> simp at hd
    | spawned g1 g2 => cases g2 <;> simp [Ask.step] at hs
    | _ => simp [Ask.step] at hs
  | udp ue =>
    have hcall : ∀ {i g}, s1 = ⟨g, some i⟩ → ∀ a, ue.input ≠ .call a := by
      rintro i g rfl a ha
      cases i <;> simp [Ask.step, ha] at hs
    -- the datagrams of this event are those of the session
    have fin : ∀ {addr' u g}, s1 = ⟨g, some (.udp addr' u)⟩ → (g = ⟨.starting, .absent⟩ ∨ g = ⟨.over, .announcing⟩) →
        addr = addr' ∧ .transmit bs ∈ (UdpSession.step lossy u ue).2 := by
      rintro addr' u g rfl hg
      have : ∃ l, out = udpDatagrams addr' (UdpSession.step lossy u ue).2 ++ l ∧ ∀ a b, .datagram a b ∉ l := by
        rw [ask_step_udp (hcall rfl)] at hs
        cases ha : udpAnswer (u.step lossy ue).2 with
        | none => rw [ha] at hs; cases hs; exact ⟨[], by simp⟩
        | some a =>
          rw [ha] at hs
          rcases hg with rfl | rfl <;> cases a <;>
            simp [Ask.tell, Ask.answer, GetterState.step, Except.mapError, InnerSession.perform] at hs <;>
            obtain ⟨-, rfl⟩ := hs <;> first | exact ⟨_, rfl, by simp⟩ | exact ⟨[], by simp⟩
      obtain ⟨l, rfl, hl⟩ := this
      rcases List.mem_append.1 hd with hd | hd
      · obtain ⟨-, -, -, d4, -⟩ := datagrams_of_udp addr' (u.step lossy ue).2
        obtain ⟨bs', hbs, hm⟩ := d4 _ hd
        cases hbs
        exact ⟨rfl, hm⟩
      · exact absurd hd (hl _ _)
    cases hi with
    | @starting i g1 g2 =>
      have hev : CurrentEvent pre .started := .inl ⟨rfl, by simp [Answered, g1]⟩
      cases i with
      | http => cases g2; simp [Ask.step] at hs
      | udp addr' u =>
        exact key g2 hev (fin rfl (.inl rfl))
    | @announcing i ps g1 g2 =>
      have hev : CurrentEvent pre .stopped := .inr ⟨rfl, ps, by simp [g1]⟩
      cases i with
      | http => cases g2; simp [Ask.step] at hs
      | udp addr' u => exact key g2 hev (fin rfl (.inr rfl))
    | spawned g1 g2 =>
      cases g2 with
      | http => simp [Ask.step] at hs
      | @udp uu addr u utr ht' hu hl hd' hfd hc hb hq =>
        have hidle : u.phase = .idle := Decidable.byContradiction fun h => by simpa using hb.1 h
        rw [ask_step_udp (hcall rfl), udp_step_idle hidle (hcall rfl)] at hs
        cases hs
        cases hd
    | _ => simp [Ask.step] at hs

theorem isHttpAnnounce (u : Url) (a : Announcement) : IsHttpAnnounce u a (announceUrl u a) := by
  obtain ⟨q', qs, hq1, hq2, hq3⟩ := announceQuery_decodes u.query a
  exact ⟨rfl, rfl, rfl, rfl, rfl, q', qs, hq1, hq2, hq3⟩

/-- **C66.** An HTTP tracker is asked at most twice: "started" first, and "stopped" only when peers have been returned; a UDP tracker is not
asked for any URL. -/
theorem ask_requests {tr : AskTrace} {s : Ask} (h : AskRun lossy parseIp t c tr s) :
    requests tr = [] ∨ ∃ u a, t = .http u ∧ IsHttpAnnounce u (c.announcement .started) a ∧
      (requests tr = [a] ∨ ∃ b, IsHttpAnnounce u (c.announcement .stopped) b ∧ requests tr = [a, b] ∧ Answered tr) := by
  have pre : ∀ {ps}, askResults tr = [.ok ps] → requests tr <+: mayRequest t c →
      requests tr = [] ∨ ∃ u a, t = .http u ∧ IsHttpAnnounce u (c.announcement .started) a ∧
      (requests tr = [a] ∨ ∃ b, IsHttpAnnounce u (c.announcement .stopped) b ∧ requests tr = [a, b] ∧ Answered tr) := by
    rintro ps hps hp
    cases t with
    | udp u => left; simpa [mayRequest] using hp
    | http u =>
      generalize requests tr = l at hp
      match l, hp with
      | [], _ => exact .inl rfl
      | [x], hp =>
        obtain ⟨r, hr⟩ := hp
        simp only [mayRequest, List.cons_append, List.cons.injEq] at hr
        obtain ⟨rfl, -⟩ := hr
        exact .inr ⟨u, _, rfl, isHttpAnnounce _ _, .inl rfl⟩
      | x :: y :: l, hp =>
        obtain ⟨r, hr⟩ := hp
        simp only [mayRequest, List.cons_append, List.cons.injEq] at hr
        obtain ⟨rfl, rfl, hr⟩ := hr
        have : l = [] := (List.append_eq_nil_iff.1 hr).1
        subst this
        exact .inr ⟨u, _, rfl, isHttpAnnounce _ _, .inr ⟨_, isHttpAnnounce _ _, rfl, ps, by simp [hps]⟩⟩
  cases ask_inv h with
  | connecting _ h2 _ => exact .inl h2
  | starting _ h2 =>
    rcases h2.requests_started with h | ⟨u, hu, h⟩
    · exact .inl h
    · exact .inr ⟨u, _, hu, isHttpAnnounce _ _, .inl h⟩
  | failed _ _ h2 =>
    rcases h2 with h | ⟨u, hu, h⟩
    · exact .inl h
    · exact .inr ⟨u, _, hu, isHttpAnnounce _ _, .inl h⟩
  | spawned h1 h2 => exact pre h1 h2.requests_prefix
  | announcing h1 h2 => exact pre h1 h2.requests_prefix
  | over h1 h2 => exact pre h1 h2

/-- **C66.** There is at most one result. -/
theorem ask_once {tr : AskTrace} {s : Ask} (h : AskRun lossy parseIp t c tr s) : (askResults tr).length ≤ 1 := by
  cases ask_inv h with
  | connecting _ _ h' => simp [h']
  | starting h' _ => simp [h']
  | failed _ h' _ => exact h'
  | spawned h' _ => simp [h']
  | announcing h' _ => simp [h']
  | over h' _ => simp [h']

/-- **C66.** A UDP tracker that answers has its peers returned: whatever connection ID, transaction IDs, times and addresses, if it answers the
connect request and then the announce request, the result is the addresses in its answer. -/
theorem ask_answers_udp (u : UdpUrl) (c : GetterCtx) (x : SocketChances) (addr : SockAddr) (rest : List SockAddr)
    (hl : x.lookup = some (addr :: rest)) (hb : x.bind addr.isV6 = true) (hc : x.connect addr = true) (t0 t1 t2 t3 t4 : Nat) (xid1 xid2 z1 z2 z3 : BitVec 32) (cid : BitVec 64) (bs1 bs2 : Bytes) (i l n : Nat) (addrs : List SockAddr)
    (h1 : IsConnectResponse xid1.toNat cid.toNat bs1) (h2 : IsAnnounceResponse addr.isV6 xid2.toNat i l n addrs bs2) :
    ∃ tr s req1 req2, AskRun lossy parseIp (.udp u) c tr s ∧
      tr.map Prod.fst = [.socket t0 xid1 x, .udp ⟨t1, z1, .sent⟩, .udp ⟨t2, xid2, .packet bs1⟩, .udp ⟨t3, z2, .sent⟩,
        .udp ⟨t4, z3, .packet bs2⟩] ∧
      datagrams tr = [(addr, req1), (addr, req2)] ∧ IsConnectRequest xid1.toNat req1 ∧
      IsAnnounceRequest cid.toNat xid2.toNat (c.announcement .started) (utf8 u.urldata) req2 ∧
      askResults tr = [.ok (addrs.map (fun a => ⟨a, none, false⟩))] ∧ s.getter.task = .spawned := by
  have hx : udpConnect x = .ok addr := by simp [udpConnect, hl, hb, hc]
  have k1 := (udpConnect_ok lossy bs1 xid1 cid).2 h1
  obtain ⟨r, hr, hps⟩ : ∃ r, udpResponse lossy (udpAnnounceResponse addr.isV6) bs2 = .ok ⟨xid2, r⟩ ∧
      r.peers = addrs.map (fun a => ⟨a, none, false⟩) := by
    have lt : ∀ {off v}, At bs2 off 4 v → v < 2 ^ 32 := by
      intro off v h
      have := beValue_lt ((bs2.drop off).take 4)
      rw [h.1, h.2] at this
      exact this
    have hi := lt h2.2.2.1
    have hl := lt h2.2.2.2.1
    have hn := lt h2.2.2.2.2.1
    refine ⟨⟨BitVec.ofNat 32 i, addrs.map (fun a => ⟨a, none, false⟩), none, none, none, none, none, some (BitVec.ofNat 32 l),
      some (BitVec.ofNat 32 n)⟩, (udpResponse_ok _ _ _ _).2 ⟨fun h3 => absurd (At_inj h2.1 h3) (by decide), ?_⟩, rfl⟩
    refine (udpAnnounceResponse_spec _ _ _ _).2 ⟨i, l, n, addrs, h2, ?_, ?_, ?_, rfl, rfl, rfl, rfl, rfl, rfl⟩
    · simpa using Nat.mod_eq_of_lt hi
    · simpa using Nat.mod_eq_of_lt hl
    · simpa using Nat.mod_eq_of_lt hn
  refine ⟨_, _, udpConnectRequest xid1, udpAnnounceRequest cid xid2 (c.announcement .started) u.urldata,
    .step (.step (.step (.step (.step .init (e := .socket t0 xid1 x) (by simp only [Ask.step, hx]; rfl))
      (e := .udp ⟨t1, z1, .sent⟩) rfl) (e := .udp ⟨t2, xid2, .packet bs1⟩)
        (s' := ⟨⟨.starting, .absent⟩, some (.udp addr ⟨addr.isV6, u.urldata, some ⟨cid, t2 + 60 * second⟩,
          .announcing (c.announcement .started) xid2 ⟨cid, t2 + 60 * second⟩ (.start (udpAnnounceRequest cid xid2 (c.announcement .started) u.urldata))⟩)⟩)
        (out := []) ?_)
      (e := .udp ⟨t3, z2, .sent⟩) rfl)
      (e := .udp ⟨t4, z3, .packet bs2⟩) (s' := ⟨⟨.over, .spawned⟩, some (.udp addr ⟨addr.isV6, u.urldata, some ⟨cid, t2 + 60 * second⟩, .idle⟩)⟩)
        (out := [.spawnStop, .result (.ok r.peers)]) ?_, rfl, ?_, udpConnectRequest_spec _, udpAnnounceRequest_spec _ _ _ _, ?_, rfl⟩
  · simp [Ask.step, UdpSession.new, UdpSession.step, UdpSession.startConnect, UdpSession.startAnnounce, Chat.start, Chat.onSent, k1, udpAnswer, udpDatagrams]
    rfl
  · simp [Ask.step, UdpSession.step, Chat.start, Chat.onSent, hr, udpAnswer, udpDatagrams, Ask.tell, Ask.answer, GetterState.step, InnerSession.perform,
      Except.mapError]
  · simp [datagrams, List.filterMap_cons]
    rfl
  · simp [askResults, askResultOf, List.filterMap_cons, hps, udpDatagrams]
    rfl

/-- **C66.** An HTTP tracker that answers has its peers returned. -/
theorem ask_answers_http (u : Url) (c : GetterCtx) (kvs : List (Bytes × Ben)) (hk : Canonical (.dict kvs)) (hd : depth (.dict kvs) ≤ 2048)
    (r : AnnounceResponse) (hr : DenotesResponse lossy parseIp kvs r) :
    ∃ tr s url, AskRun lossy parseIp (.http u) c tr s ∧ tr.map Prod.fst = [.client true, .http (.body (benc (.dict kvs)))] ∧
      requests tr = [url] ∧ IsHttpAnnounce u (c.announcement .started) url ∧ askResults tr = [.ok r.peers] ∧ s.getter.task = .spawned := by
  have ho := (httpResult_ok lossy parseIp _ r).2 ⟨kvs, rfl, hk, hd, hr⟩
  refine ⟨_, _, _, .step (.step .init (e := .client true) rfl) (e := .http (.body (benc (.dict kvs))))
    (s' := ⟨⟨.over, .spawned⟩, some (.http u false)⟩) (out := [.spawnStop, .result (.ok r.peers)]) ?_, rfl, rfl, isHttpAnnounce _ _, rfl, rfl⟩
  simp [Ask.step, Ask.tell, Ask.answer, GetterState.step, InnerSession.perform, InnerSession.announce, ho, Except.mapError]

/-- A context, for examples. -/
def sampleGetter : GetterCtx := ⟨⟨List.replicate 20 7, rfl⟩, ⟨List.replicate 20 9, rfl⟩, 5, 6881, 50, .prefer, none⟩

-- `ask_answers_udp`, and with it `ask_peers` and `ask_datagrams`, for a tracker with two addresses that answers with two peers
example : ∃ tr s, AskRun (fun _ => []) (fun _ => none) (.udp ⟨"tracker.example".toList, 6969, []⟩) sampleGetter tr s ∧
    askResults tr = [.ok [⟨.v4 ⟨⟨0x01020304#32⟩, 6881⟩, none, false⟩, ⟨.v4 ⟨⟨0x05060708#32⟩, 80⟩, none, false⟩]] ∧
    (datagrams tr).map Prod.fst = [.v4 ⟨⟨0x0A000001#32⟩, 6969⟩, .v4 ⟨⟨0x0A000001#32⟩, 6969⟩] := by
  obtain ⟨tr, s, r1, r2, h1, -, h2, -, -, h3, -⟩ := ask_answers_udp (lossy := fun _ => []) (parseIp := fun _ => none)
    ⟨"tracker.example".toList, 6969, []⟩ sampleGetter
    ⟨some [.v4 ⟨⟨0x0A000001#32⟩, 6969⟩, .v4 ⟨⟨0x0A000002#32⟩, 6969⟩], fun _ => true, fun _ => true⟩ (.v4 ⟨⟨0x0A000001#32⟩, 6969⟩) _
    rfl rfl rfl 0 0 1 1 2 17 18 0 0 0 0xAB [0, 0, 0, 0, 0, 0, 0, 17, 0, 0, 0, 0, 0, 0, 0, 0xAB]
    [0, 0, 0, 1, 0, 0, 0, 18, 0, 0, 7, 8, 0, 0, 0, 1, 0, 0, 0, 2, 1, 2, 3, 4, 0x1a, 0xe1, 5, 6, 7, 8, 0, 80] 0x708 1 2
    [.v4 ⟨⟨0x01020304#32⟩, 6881⟩, .v4 ⟨⟨0x05060708#32⟩, 80⟩] (by unfold IsConnectResponse At Field; decide +kernel)
    ⟨by unfold At Field; decide +kernel, by unfold At Field; decide +kernel, by unfold At Field; decide +kernel, by unfold At Field; decide +kernel,
      by unfold At Field; decide +kernel, ⟨[1, 2, 3, 4, 0x1a, 0xe1], [5, 6, 7, 8, 0, 80], rfl, by unfold IsCompact IsCompact4; decide +kernel,
        [5, 6, 7, 8, 0, 80], [], rfl, by unfold IsCompact IsCompact4; decide +kernel, rfl⟩, by simp [SockAddr.isV6]⟩
  exact ⟨tr, s, h1, h3, by rw [h2]; rfl⟩

-- `ask_answers_http`
example : ∃ tr s, AskRun (fun _ => []) (fun _ => none) (.http ⟨"http".toList, some (.domain "tracker.example".toList), none, "/announce".toList, none, none, []⟩)
    sampleGetter tr s ∧ askResults tr = [.ok [⟨.v4 ⟨⟨0x69696969#32⟩, 0x7070#16⟩, none, false⟩]] := by
  have hb : httpResult (fun _ => []) (fun _ => none) (.body (key "d8:intervali1800e5:peers6:iiiippe")) =
      .ok ⟨1800, [⟨.v4 ⟨⟨0x69696969#32⟩, 0x7070#16⟩, none, false⟩], none, none, none, none, none, none, none⟩ := by
    have : (httpResult (fun _ => []) (fun _ => none) (.body (key "d8:intervali1800e5:peers6:iiiippe"))).toOption =
      some ⟨1800, [⟨.v4 ⟨⟨0x69696969#32⟩, 0x7070#16⟩, none, false⟩], none, none, none, none, none, none, none⟩ := by decide +kernel
    generalize httpResult (fun _ => []) (fun _ => none) (.body (key "d8:intervali1800e5:peers6:iiiippe")) = y at this
    cases y with
    | ok y => cases this; rfl
    | error => cases this
  obtain ⟨kvs, h1, hk, hd, hr⟩ := (httpResult_ok _ _ _ _).1 hb
  obtain ⟨tr, s, -, h1, -, -, -, h2, -⟩ := ask_answers_http (lossy := fun _ => []) (parseIp := fun _ => none)
    ⟨"http".toList, some (.domain "tracker.example".toList), none, "/announce".toList, none, none, []⟩ sampleGetter kvs hk hd _ hr
  exact ⟨tr, s, h1, h2⟩

end Demag.Props
