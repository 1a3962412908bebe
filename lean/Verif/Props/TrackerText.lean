import Verif.Props.ErrorText
import Verif.Props.Json

/-!
# Messages about trackers and magnet links tell what happened (C89)
-/

namespace Demag.Props

open Spec

/-! ### Errors of trackers -/

/-- The beginnings of the messages about trackers. -/
def trackerTags : List Text := ["interactions with tracker did not complete in time".toList, "failed to resolve remote hostname".toList,
  "remote hostname did not resolve to any IP addresses".toList, "failed to bind UDP socket".toList, "failed to connect UDP socket".toList,
  "failed to build HTTP client".toList, "failed to send UDP packet".toList, "failed to receive UDP packet".toList,
  "UDP tracker sent response with invalid length".toList,
  "UDP tracker sent response with unexpected or unsupported action; expected ".toList,
  "response from UDP tracker did not contain expected transaction ID; expected ".toList, "tracker replied with error message ".toList,
  "failed to send request to HTTP tracker".toList, "HTTP tracker responded with HTTP error".toList,
  "failed to read HTTP tracker response".toList, "failed to parse HTTP tracker response".toList]

theorem trackerTags_apart : trackerTags.Pairwise fun a b => apart a b = true := by decide +kernel

/-- Which of them. -/
def trackerKind : GetterError AskError → Nat
  | .timeout => 0
  | .inner .lookup => 1
  | .inner .noResolve => 2
  | .inner .bind => 3
  | .inner .connect => 4
  | .inner .buildClient => 5
  | .inner (.udp .send) => 6
  | .inner (.udp .recv) => 7
  | .inner (.udp (.packetLen _)) => 8
  | .inner (.udp (.badAction _ _)) => 9
  | .inner (.udp (.xactionMismatch _ _)) => 10
  | .inner (.udp (.failure _)) => 11
  | .inner (.http (.failure _)) => 11
  | .inner (.http .sendRequest) => 12
  | .inner (.http .httpStatus) => 13
  | .inner (.http .readBody) => 14
  | .inner (.http (.parseResponse _)) => 15

theorem tracker_tag (env : LogEnv) (e : GetterError AskError) :
    ∃ a r, trackerTags[trackerKind e]? = some a ∧ errorChain (getterErr env e) = a ++ r := by
  cases e with
  | timeout => exact ⟨_, [], rfl, by unfold getterErr; simp only [chain_leaf]; rfl⟩
  | inner e => cases e with
    | lookup | bind | connect | buildClient => exact ⟨_, _, rfl, by unfold getterErr AskError.err; simp only [chain_caused]; rfl⟩
    | noResolve => exact ⟨_, [], rfl, by unfold getterErr AskError.err; simp only [chain_leaf]; rfl⟩
    | udp e => cases e with
      | send | recv | packetLen => exact ⟨_, _, rfl, by unfold getterErr AskError.err UdpError.err; simp only [chain_caused]; rfl⟩
      | badAction | xactionMismatch =>
        exact ⟨_, _, rfl, by unfold getterErr AskError.err UdpError.err; simp only [chain_leaf, List.append_assoc]; rfl⟩
      | failure => exact ⟨_, _, rfl, by unfold getterErr AskError.err UdpError.err failureErr; simp only [chain_leaf]; rfl⟩
    | http e => cases e with
      | sendRequest | httpStatus | readBody | parseResponse =>
        exact ⟨_, _, rfl, by unfold getterErr AskError.err HttpError.err; simp only [chain_caused]; rfl⟩
      | failure => exact ⟨_, _, rfl, by unfold getterErr AskError.err HttpError.err failureErr; simp only [chain_leaf]; rfl⟩

theorem hexNat_comma (n : Nat) : ',' ∉ hexNat n := by
  intro h
  have := hexNat_chars n _ h
  revert this
  unfold IpChar
  decide

theorem hex_comma {n m : Nat} {s : String} {t r q : Text} (hs : s.toList = ',' :: t)
    (h : hexAlt n ++ (s.toList ++ r) = hexAlt m ++ (s.toList ++ q)) : n = m ∧ r = q := by
  rw [hs] at h
  obtain ⟨h1, h2⟩ := sep_cancel (hexNat_comma n) (hexNat_comma m) (List.cons.inj (List.cons.inj h).2).2
  exact ⟨hexNat_inj h1, List.append_cancel_left h2⟩

theorem quoted_inj {p : Char → Bool} {s t : Text} (h : debugText p s = debugText p t) : s = t :=
  (quoted_cancel (r := []) (q := []) (by rw [h])).1

/-- **C89.** The message about a failure with a tracker tells what has failed: two failures are told alike only if they are the same. -/
theorem tracker_error_told {env : LogEnv} (hb : BendyApart env) (e e' : GetterError AskError) :
    errorChain (getterErr env e) = errorChain (getterErr env e') ↔ SameComplaint e e' := by
  constructor
  · intro h
    have hk : trackerKind e = trackerKind e' := by
      obtain ⟨a, r, h1, h2⟩ := tracker_tag env e
      obtain ⟨b, q, h3, h4⟩ := tracker_tag env e'
      rw [h2, h4] at h
      exact same_tag trackerTags_apart h1 h3 h
    rcases e with _ | e <;> rcases e' with _ | e'
    · exact .same
    · rcases e' with _ | _ | _ | _ | _ | e' | e' <;> (try cases e') <;> (simp [trackerKind] at hk; done)
    · rcases e with _ | _ | _ | _ | _ | e | e <;> (try cases e) <;> (simp [trackerKind] at hk; done)
    · rcases e with _ | _ | _ | _ | _ | e | e <;> rcases e' with _ | _ | _ | _ | _ | e' | e' <;> (try cases e) <;> (try cases e') <;>
        first | (exfalso; simp [trackerKind] at hk; done) | exact .same | skip
      all_goals simp only [getterErr, AskError.err, UdpError.err, HttpError.err, failureErr, chain_leaf, chain_caused, List.append_assoc] at h
      · rw [packetError_told (List.append_cancel_left (List.append_cancel_left h))]
        exact .same
      · obtain ⟨h1, h2⟩ := decimal_comma (by decide) (by decide) (List.append_cancel_left h)
        rw [bv32_eq h1, bv32_eq (decimal_inj h2)]
        exact .same
      · obtain ⟨h1, h2⟩ := hex_comma rfl (List.append_cancel_left h)
        rw [bv32_eq h1, bv32_eq (hexNat_inj (List.cons.inj (List.cons.inj h2).2).2)]
        exact .same
      · rw [quoted_inj (List.append_cancel_left h)]
        exact .same
      · rw [quoted_inj (List.append_cancel_left h)]
        exact .udpHttp
      · rw [quoted_inj (List.append_cancel_left h)]
        exact .httpUdp
      · rw [unbencode_told hb (List.append_cancel_left (List.append_cancel_left h))]
        exact .same
      · rw [quoted_inj (List.append_cancel_left h)]
        exact .same
  · intro h
    cases h <;> rfl

/-! ### Magnet links -/

theorem hash_quote (h : InfoHash) {p : Char → Bool} {s r q : Text} (e : debugText p s ++ r = h.displayText ++ q) : False := by
  have hl := displayText_length h
  have hc : ∀ c ∈ h.displayText, c ≠ '"' := by
    intro c hc e
    rw [InfoHash.displayText, List.mem_map] at hc
    obtain ⟨b, hb, rfl⟩ := hc
    rw [InfoHash.display, List.mem_flatMap] at hb
    obtain ⟨a, -, hb⟩ := hb
    have key : ∀ d, d < 16 → Char.ofNat (hexNibble d).toNat ≠ '"' := by decide
    have := a.toNat_lt
    simp only [List.mem_cons, List.not_mem_nil, or_false] at hb
    rcases hb with rfl | rfl
    · exact key _ (by omega) e
    · exact key _ (Nat.mod_lt _ (by omega)) e
  cases hd : h.displayText with
  | nil => rw [hd] at hl; cases hl
  | cons c t =>
    rw [hd] at e hc
    exact hc c List.mem_cons_self (List.cons.inj e).1.symm

theorem link_cancel {p : Char → Bool} {m m' : Magnet} {r q : Text} (h : m.text p ++ r = m'.text p ++ q) : SameLink m m' ∧ r = q := by
  unfold Magnet.text at h
  unfold SameLink
  have hh : ∀ {h h' : InfoHash} {r q : Text}, h.displayText ++ r = h'.displayText ++ q → h = h' ∧ r = q := by
    intro h h' r q e
    obtain ⟨h1, h2⟩ := List.append_inj e (by rw [displayText_length, displayText_length])
    exact ⟨displayText_injective _ _ h1, h2⟩
  cases hn : m.displayName with
  | none => cases hn' : m'.displayName with
    | none =>
      rw [hn, hn'] at h
      obtain ⟨h1, h2⟩ := hh h
      exact ⟨⟨h1, rfl⟩, h2⟩
    | some s =>
      rw [hn, hn'] at h
      simp only [List.append_assoc] at h
      exact (hash_quote _ h.symm).elim
  | some s => cases hn' : m'.displayName with
    | none =>
      rw [hn, hn'] at h
      simp only [List.append_assoc] at h
      exact (hash_quote _ h).elim
    | some s' =>
      rw [hn, hn'] at h
      simp only [List.append_assoc] at h
      obtain ⟨h1, h2⟩ := quoted_cancel h
      obtain ⟨h3, h4⟩ := hh (List.append_cancel_left h2)
      exact ⟨⟨h3, by rw [h1]⟩, List.append_cancel_left h4⟩

theorem link_text {p : Char → Bool} {m m' : Magnet} (h : SameLink m m') : m.text p = m'.text p := by
  unfold Magnet.text
  rw [h.1, h.2]

theorem link_inj {p : Char → Bool} {m m' : Magnet} (h : m.text p = m'.text p) : SameLink m m' :=
  (link_cancel (r := []) (q := []) (by rw [h])).1

/-! ### Trackers -/

/-- The URL of a tracker. -/
def shownUrl : Tracker → Text
  | .http u => u.text
  | .udp u => u.display

theorem trackerText_eq (t : Tracker) : t.text = "<Tracker ".toList ++ (shownUrl t ++ ['>']) := by
  cases t with
  | http u => exact List.append_assoc _ u.text _
  | udp u => exact List.append_assoc _ u.display _

/-- The program has accepted this tracker. -/
def AcceptedBy (uenv : UrlEnv) (t : Tracker) : Prop := ∃ s, Tracker.parse (urlParse uenv) s = .ok t

theorem shownUrl_reads {uenv : UrlEnv} (hi : IdnaOk uenv.idna) {t : Tracker} (h : AcceptedBy uenv t) :
    Tracker.parse (urlParse uenv) (shownUrl t) = .ok t := by
  obtain ⟨s, hs⟩ := h
  cases t with
  | http u => exact http_roundTrip hi hs
  | udp u => exact tracker_roundTrip hs

theorem shownUrl_blank {uenv : UrlEnv} (hi : IdnaOk uenv.idna) {t : Tracker} (h : AcceptedBy uenv t) : ' ' ∉ shownUrl t := by
  obtain ⟨s, hs⟩ := h
  have : ∀ c ∈ shownUrl t, Visible c := by
    cases t with
    | http u => exact plain_visible (http_plain hi hs)
    | udp u => exact display_chars (tracker_plain hs)
  intro hc
  have := this _ hc
  revert this
  unfold Visible
  decide

theorem shownUrl_inj {uenv : UrlEnv} (hi : IdnaOk uenv.idna) {t t' : Tracker} (h : AcceptedBy uenv t) (h' : AcceptedBy uenv t')
    (e : shownUrl t = shownUrl t') : t = t' := by
  have h1 := shownUrl_reads hi h
  rw [e, shownUrl_reads hi h'] at h1
  exact (Except.ok.inj h1).symm

theorem tracker_cancel {uenv : UrlEnv} (hi : IdnaOk uenv.idna) {t t' : Tracker} (h : AcceptedBy uenv t) (h' : AcceptedBy uenv t')
    {s s' : String} {r q : Text} (hs : s.toList.head? = some ' ') (hs' : s'.toList.head? = some ' ')
    (e : t.text ++ (s.toList ++ r) = t'.text ++ (s'.toList ++ q)) : t = t' ∧ s.toList ++ r = s'.toList ++ q := by
  obtain ⟨u, hu⟩ : ∃ u, s.toList = ' ' :: u := List.head?_eq_some_iff.1 hs
  obtain ⟨v, hv⟩ : ∃ v, s'.toList = ' ' :: v := List.head?_eq_some_iff.1 hs'
  rw [hu, hv] at e ⊢
  simp only [trackerText_eq, List.append_assoc] at e
  have e := List.append_cancel_left e
  have e : (shownUrl t ++ ['>']) ++ ' ' :: (u ++ r) = (shownUrl t' ++ ['>']) ++ ' ' :: (v ++ q) := by simpa using e
  have nb : ∀ {t}, AcceptedBy uenv t → ' ' ∉ shownUrl t ++ ['>'] := by
    intro t h hc
    rcases List.mem_append.1 hc with hc | hc
    · exact shownUrl_blank hi h hc
    · revert hc; decide
  obtain ⟨h1, h2⟩ := sep_cancel (nb h) (nb h') e
  exact ⟨shownUrl_inj hi h h' (List.append_cancel_right h1), by rw [List.cons_append, h2]; rfl⟩

theorem tracker_inj {uenv : UrlEnv} (hi : IdnaOk uenv.idna) {t t' : Tracker} (h : AcceptedBy uenv t) (h' : AcceptedBy uenv t')
    (e : t.text = t'.text) : t = t' := by
  simp only [trackerText_eq] at e
  exact shownUrl_inj hi h h' (List.append_cancel_right (List.append_cancel_left e))

theorem peers_inj {ps ps' : List Peer} (h : commaList (ps.map Peer.text) = commaList (ps'.map Peer.text)) :
    ps.map Peer.address = ps'.map Peer.address := by
  have nc : ∀ (ps : List Peer), ∀ v ∈ ps.map Peer.text, ',' ∉ v := by
    intro ps v hv hc
    obtain ⟨p, -, rfl⟩ := List.mem_map.1 hv
    unfold Peer.text at hc
    simp only [List.mem_append] at hc
    rcases hc with (hc | hc) | hc
    · revert hc; decide
    · have := sockText_chars _ _ hc
      revert this
      unfold IpChar
      decide
    · revert hc; decide
  have nn : ∀ (ps : List Peer), ps.map Peer.text ≠ ["<none>".toList] := by
    intro ps e
    have : "<none>".toList ∈ ps.map Peer.text := by rw [e]; exact List.mem_cons_self
    obtain ⟨p, -, hp⟩ := List.mem_map.1 this
    unfold Peer.text at hp
    rw [List.append_assoc] at hp
    exact absurd (hp.trans (List.append_nil _).symm) (apart_ne (by decide +kernel))
  have key := comma_list_inj (nc ps) (nc ps') (nn ps) (nn ps') h
  clear h nc nn
  induction ps generalizing ps' with
  | nil =>
    cases ps' with
    | nil => rfl
    | cons p ps' => cases key
  | cons p ps ih =>
    cases ps' with
    | nil => cases key
    | cons p' ps' =>
      simp only [List.map_cons, List.cons.injEq] at key ⊢
      exact ⟨(peerText_cancel (r := []) (q := []) (by rw [key.1])).1, ih key.2⟩

theorem peers_text {ps ps' : List Peer} (h : ps.map Peer.address = ps'.map Peer.address) : ps.map Peer.text = ps'.map Peer.text := by
  have : ∀ ps : List Peer, ps.map Peer.text = (ps.map Peer.address).map fun a => "<Peer ".toList ++ sockText a ++ ['>'] := by
    intro ps
    rw [List.map_map]
    rfl
  rw [this, this, h]

/-- The beginnings of the messages about the asking of trackers. -/
def askTags : List Text := ["Error communicating with ".toList, "Requesting peers for ".toList, "<Tracker ".toList,
  "\"stopped\" announcement to ".toList, "failure sending \"stopped\" announcement to ".toList, "Sending \"started\" announcement to ".toList,
  "Sending \"stopped\" announcement to ".toList]

theorem askTags_apart : askTags.Pairwise fun a b => apart a b = true := by decide +kernel

/-- Which of them. -/
def askKind : LogLine → Nat
  | .trackerFailed _ _ _ => 0
  | .requestingPeers _ _ => 1
  | .stopCancelled _ _ => 3
  | .stopFailed _ _ _ => 4
  | .announcing e _ _ => if e = .stopped then 6 else 5
  | _ => 2

theorem started_text {e : AnnounceEvent} (h : e ≠ .stopped) :
    "Sending \"".toList ++ eventWord e ++ "\" announcement to ".toList = "Sending \"started\" announcement to ".toList := by
  cases e <;> first | exact absurd rfl h | decide +kernel

theorem stopped_text :
    "Sending \"".toList ++ eventWord .stopped ++ "\" announcement to ".toList = "Sending \"stopped\" announcement to ".toList := by
  decide +kernel

/-! The texts of these messages. -/

theorem line_failed (env : LogEnv) (t m e) : (LogLine.trackerFailed t m e).text env = "Error communicating with ".toList ++ t.text ++
    " for ".toList ++ m.text env.plain ++ ": ".toList ++ errorChain (getterErr env e) := rfl
theorem line_requesting (env : LogEnv) (m t) : (LogLine.requestingPeers m t).text env = "Requesting peers for ".toList ++ m.text env.plain ++
    " from ".toList ++ t.text := rfl
theorem line_count (env : LogEnv) (t m ps) : (LogLine.returnedCount t m ps).text env = t.text ++ " returned ".toList ++ decimal ps.length ++
    " peers for ".toList ++ m.text env.plain := rfl
theorem line_returned (env : LogEnv) (t m ps) : (LogLine.returned t m ps).text env = t.text ++ " returned peers for ".toList ++
    m.text env.plain ++ ": ".toList ++ commaList (ps.map Peer.text) := rfl
theorem line_cancelled (env : LogEnv) (t m) : (LogLine.stopCancelled t m).text env = "\"stopped\" announcement to ".toList ++ t.text ++
    " for ".toList ++ m.text env.plain ++ " cancelled".toList := rfl
theorem line_stopFailed (env : LogEnv) (t m e) : (LogLine.stopFailed t m e).text env = "failure sending \"stopped\" announcement to ".toList ++
    t.text ++ " for ".toList ++ m.text env.plain ++ ": ".toList ++ errorChain (e.err env) := rfl
theorem line_announcing (env : LogEnv) (e t m) : (LogLine.announcing e t m).text env = "Sending \"".toList ++ eventWord e ++
    "\" announcement to ".toList ++ t.text ++ " for ".toList ++ m.text env.plain := rfl
theorem line_warned (env : LogEnv) (t m w) : (LogLine.warned t m w).text env = t.text ++ " replied with warning in response to ".toList ++
    m.text env.plain ++ " announcement: ".toList ++ debugText env.plain w := rfl

theorem ask_tag (env : LogEnv) (l : LogLine) (h : (askedTracker l).isSome) : ∃ a r, askTags[askKind l]? = some a ∧ l.text env = a ++ r := by
  cases l <;> first | (exfalso; simp [askedTracker] at h; done) | skip
  case announcing e t m =>
    simp only [line_announcing, askKind]
    by_cases he : e = .stopped
    · subst he
      rw [if_pos rfl, stopped_text]
      exact ⟨_, _, rfl, by simp only [List.append_assoc]; rfl⟩
    · rw [if_neg he, started_text he]
      exact ⟨_, _, rfl, by simp only [List.append_assoc]; rfl⟩
  all_goals simp only [line_failed, line_requesting, line_count, line_returned, line_cancelled, line_stopFailed, line_warned]
  case trackerFailed | requestingPeers | stopCancelled | stopFailed => exact ⟨_, _, rfl, by simp only [List.append_assoc]; rfl⟩
  all_goals exact ⟨_, _, rfl, by simp only [trackerText_eq, List.append_assoc]; rfl⟩

theorem eventWord_eq {e e' : AnnounceEvent} (h : e = .stopped ↔ e' = .stopped) : eventWord e = eventWord e' := by
  have key : ∀ e : AnnounceEvent, eventWord e = if e = .stopped then "stopped".toList else "started".toList := by intro e; cases e <;> rfl
  rw [key, key]
  simp only [h]

theorem count_list {n : Nat} {r q : Text} (h : " returned ".toList ++ (decimal n ++ r) = " returned peers for ".toList ++ q) : False := by
  have : " returned peers for ".toList = " returned ".toList ++ 'p' :: "eers for ".toList := by decide +kernel
  rw [this, List.append_assoc, List.cons_append] at h
  exact decimal_head (c := 'p') (q := "eers for ".toList ++ q) (by decide) (List.append_cancel_left h)

/-- **C89.** The messages about the asking of trackers tell which tracker was asked for which magnet link, and what happened. -/
theorem tracker_line_told {env : LogEnv} (hb : BendyApart env) {uenv : UrlEnv} (hi : IdnaOk uenv.idna) {l l' : LogLine} {t t' : Tracker}
    (h : askedTracker l = some t) (h' : askedTracker l' = some t') (ht : AcceptedBy uenv t) (ht' : AcceptedBy uenv t') :
    l.text env = l'.text env ↔ SameTrackerLine l l' := by
  constructor
  · intro e
    have hk : askKind l = askKind l' := by
      obtain ⟨a, r, h1, h2⟩ := ask_tag env l (by rw [h]; rfl)
      obtain ⟨b, q, h3, h4⟩ := ask_tag env l' (by rw [h']; rfl)
      rw [h2, h4] at e
      exact same_tag askTags_apart h1 h3 e
    cases l <;> first | (exfalso; simp [askedTracker] at h; done) | skip
    all_goals cases l' <;> first | (exfalso; simp [askedTracker] at h'; done) | (exfalso; simp [askKind] at hk; done) |
      (exfalso; simp only [askKind] at hk; split at hk <;> cases hk) | skip
    all_goals simp only [askedTracker, Option.some.injEq] at h h'
    all_goals subst h h'
    all_goals simp only [line_failed, line_requesting, line_count, line_returned, line_cancelled, line_stopFailed, line_announcing, line_warned,
      List.append_assoc] at e
    case trackerFailed.trackerFailed =>
      obtain ⟨h1, h2⟩ := tracker_cancel hi ht ht' (by decide) (by decide) (List.append_cancel_left e)
      obtain ⟨h3, h4⟩ := link_cancel (List.append_cancel_left h2)
      rw [h1]
      exact .failed h3 ((tracker_error_told hb _ _).1 (List.append_cancel_left h4))
    case requestingPeers.requestingPeers =>
      obtain ⟨h1, h2⟩ := link_cancel (List.append_cancel_left e)
      rw [tracker_inj hi ht ht' (List.append_cancel_left h2)]
      exact .requesting h1
    case returnedCount.returnedCount =>
      obtain ⟨h1, h2⟩ := tracker_cancel hi ht ht' (by decide) (by decide) e
      obtain ⟨h3, h4⟩ := decimal_comma (by decide) (by decide) (List.append_cancel_left h2)
      rw [h1]
      exact .count (link_inj h4) h3
    case returned.returned =>
      obtain ⟨h1, h2⟩ := tracker_cancel hi ht ht' (by decide) (by decide) e
      obtain ⟨h3, h4⟩ := link_cancel (List.append_cancel_left h2)
      rw [h1]
      exact .returned h3 (peers_inj (List.append_cancel_left h4))
    case stopCancelled.stopCancelled =>
      obtain ⟨h1, h2⟩ := tracker_cancel hi ht ht' (by decide) (by decide) (List.append_cancel_left e)
      obtain ⟨h3, -⟩ := link_cancel (List.append_cancel_left h2)
      rw [h1]
      exact .cancelled h3
    case stopFailed.stopFailed =>
      obtain ⟨h1, h2⟩ := tracker_cancel hi ht ht' (by decide) (by decide) (List.append_cancel_left e)
      obtain ⟨h3, h4⟩ := link_cancel (List.append_cancel_left h2)
      rw [h1]
      exact .stopFailed h3 ((tracker_error_told hb _ _).1 (List.append_cancel_left h4))
    case announcing.announcing ev t m ev' t' m' =>
      have hs : ev = .stopped ↔ ev' = .stopped := by
        simp only [askKind] at hk
        by_cases h1 : ev = .stopped <;> by_cases h2 : ev' = .stopped <;> simp [h1, h2] at hk ⊢
      rw [eventWord_eq hs] at e
      obtain ⟨h1, h2⟩ := tracker_cancel hi ht ht' (by decide) (by decide) (List.append_cancel_left (List.append_cancel_left (List.append_cancel_left e)))
      rw [h1]
      exact .announcing (link_inj (List.append_cancel_left h2)) hs
    case warned.warned =>
      obtain ⟨h1, h2⟩ := tracker_cancel hi ht ht' (by decide) (by decide) e
      obtain ⟨h3, h4⟩ := link_cancel (List.append_cancel_left h2)
      rw [h1, quoted_inj (List.append_cancel_left h4)]
      exact .warned h3
    case returnedCount.returned => exact (count_list (tracker_cancel hi ht ht' (by decide) (by decide) e).2).elim
    case returned.returnedCount => exact (count_list (tracker_cancel hi ht ht' (by decide) (by decide) e).2.symm).elim
    case returnedCount.warned => exact absurd (tracker_cancel hi ht ht' (by decide) (by decide) e).2 (apart_ne (by decide +kernel))
    case warned.returnedCount => exact absurd (tracker_cancel hi ht ht' (by decide) (by decide) e).2 (apart_ne (by decide +kernel))
    case returned.warned => exact absurd (tracker_cancel hi ht ht' (by decide) (by decide) e).2 (apart_ne (by decide +kernel))
    case warned.returned => exact absurd (tracker_cancel hi ht ht' (by decide) (by decide) e).2 (apart_ne (by decide +kernel))
  · intro h
    cases h with
    | failed hl hc => simp only [line_failed, link_text hl, (tracker_error_told hb _ _).2 hc]
    | requesting hl => simp only [line_requesting, link_text hl]
    | count hl hc => simp only [line_count, link_text hl, hc]
    | returned hl hc => simp only [line_returned, link_text hl, peers_text hc]
    | cancelled hl => simp only [line_cancelled, link_text hl]
    | stopFailed hl hc => 
      have := (tracker_error_told hb _ _).2 hc
      simp only [getterErr] at this
      simp only [line_stopFailed, link_text hl, this]
    | @announcing t m m' e e' hl hc =>
      have := eventWord_eq hc
      simp only [line_announcing, link_text hl, this]
    | warned hl => simp only [line_warned, link_text hl]

end Demag.Props
