import Verif.Lemmas.Decimal

/-!
# C48: UDP tracker URLs, and which URLs are trackers
-/

namespace Demag.Props

open Demag Spec

theorem takeWhile_ne {h r : Text} {c : Char} (hh : c ∉ h) :
    (h ++ c :: r).takeWhile (· ≠ c) = h ∧ (h ++ c :: r).dropWhile (· ≠ c) = c :: r := by
  induction h with
  | nil => simp
  | cons x xs ih =>
    simp only [List.mem_cons, not_or] at hh
    have hne : x ≠ c := fun e => hh.1 e.symm
    have := ih hh.2
    simp only [List.cons_append, List.takeWhile_cons, List.dropWhile_cons, hne, ne_eq, not_false_eq_true, decide_true,
      if_true]
    exact ⟨by rw [this.1], this.2⟩

/-- **C48.** Splitting the printed form of a UDP URL gives its host, port and path with query, if the host has no brackets and
the rest does not start with a digit. -/
theorem udpUrl_split (u : UdpUrl) (hh : ∀ c ∈ u.host, c ≠ '[' ∧ c ≠ ']') (hd : ∀ c ∈ u.urldata.head?, c.isDigit = false) :
    splitUdpUrl u.display = some (u.host, u.port.toNat, u.urldata) := by
  obtain ⟨host, port, urldata⟩ := u
  simp only at hh hd
  obtain ⟨d1, d2, d3, -⟩ := decimal_isDecimal port.toNat
  obtain ⟨t1, t2⟩ := takeWhile_digits (t := decimal port.toNat) (r := urldata) d2 hd
  have e0 : "udp://".toList = ['u', 'd', 'p', ':', '/', '/'] := rfl
  unfold splitUdpUrl UdpUrl.display
  rw [e0]
  simp only [List.append_assoc]
  by_cases hc : ':' ∈ host
  · have hb : ']' ∉ host := fun h => (hh _ h).2 rfl
    have hc' : List.contains host ':' = true := by simpa using hc
    rw [hc', if_pos rfl]
    obtain ⟨w1, w2⟩ := takeWhile_ne (r := ':' :: (decimal port.toNat ++ urldata)) hb
    simp only [List.cons_append, List.nil_append, List.append_assoc] at w1 w2 ⊢
    simp only [List.take_succ_cons, List.take_zero, if_true, List.drop_succ_cons, List.drop_zero, w1, w2, t1, t2, d3]
  · have hc' : List.contains host ':' = false := by simpa using hc
    rw [hc', if_neg Bool.false_ne_true]
    obtain ⟨w1, w2⟩ := takeWhile_ne (r := decimal port.toNat ++ urldata) hc
    simp only [List.cons_append, List.nil_append, List.append_assoc] at w1 w2 ⊢
    simp only [List.take_succ_cons, List.take_zero, if_true, List.drop_succ_cons, List.drop_zero]
    split
    · rename_i r he
      cases host with
      | nil => simp at he
      | cons x xs =>
        simp only [List.cons_append, List.cons.injEq] at he
        exact absurd he.1 (hh x (by simp)).1
    · simp only [w1, w2, t1, t2, d3]

/-- **C48.** A URL is accepted as UDP tracker exactly if its scheme is `udp` and it has a host and a port; these and the path
with the query are kept as they are. -/
theorem udpUrl_ofUrl (u : Url) (v : UdpUrl) :
    UdpUrl.ofUrl u = .ok v ↔ u.scheme = "udp".toList ∧ ∃ h, u.host = some h ∧ v.host = hostText h ∧
      u.port = some v.port ∧ v.urldata = pathAndQuery u := by
  obtain ⟨scheme, host, port, path, query, fragment, auth⟩ := u
  obtain ⟨vh, vp, vd⟩ := v
  unfold UdpUrl.ofUrl pathAndQuery
  by_cases hs : scheme = "udp".toList
  · simp only [hs, ne_eq, not_true_eq_false, if_false, true_and]
    cases host with
    | none => simp
    | some h =>
      cases port with
      | none => simp
      | some p =>
        cases query <;> cases h <;>
          simp only [Except.ok.injEq, UdpUrl.mk.injEq, Option.some.injEq, hostText, exists_eq_left', List.append_nil,
            List.append_assoc, List.singleton_append] <;>
          (constructor <;> rintro ⟨rfl, rfl, rfl⟩ <;> exact ⟨rfl, rfl, rfl⟩)
  · rw [if_pos hs]
    constructor
    · intro h; cases h
    · intro h; exact absurd h.1 hs

/-- **C48.** Printing the UDP tracker URL made from a URL and splitting the text again gives the host, the port, and the path
with the query of that URL. -/
theorem udpUrl_roundtrip (u : Url) (v : UdpUrl) (hok : UrlOk u) (h : UdpUrl.ofUrl u = .ok v) :
    ∃ host port, u.host = some host ∧ u.port = some port ∧
      splitUdpUrl v.display = some (hostText host, port.toNat, pathAndQuery u) := by
  obtain ⟨-, host, hh, hv, hp, hd⟩ := (udpUrl_ofUrl u v).1 h
  refine ⟨host, v.port, hh, hp, ?_⟩
  rw [udpUrl_split v, hv, hd]
  · rw [hv]; exact hok.host _ hh
  · rw [hd]
    intro c hc
    unfold pathAndQuery at hc
    rcases hok.path with hp | ⟨r, hp⟩
    · rw [hp] at hc
      cases hq : u.query with
      | none => rw [hq] at hc; simp at hc
      | some q =>
        rw [hq] at hc
        simp only [List.nil_append, List.cons_append, List.head?_cons, Option.mem_def, Option.some.injEq] at hc
        subst hc; decide
    · rw [hp] at hc
      cases hq : u.query with
      | none =>
        rw [hq] at hc
        simp only [List.head?_cons, Option.mem_def, Option.some.injEq] at hc
        subst hc; decide
      | some q =>
        rw [hq] at hc
        simp only [List.cons_append, List.head?_cons, Option.mem_def, Option.some.injEq] at hc
        subst hc; decide

/-- **C48.** The printed URL has brackets around the host exactly for IPv6 addresses. -/
theorem udpUrl_brackets (u : Url) (v : UdpUrl) (hok : UrlOk u) (h : UdpUrl.ofUrl u = .ok v) :
    (∃ r, v.display = "udp://[".toList ++ r) ↔ ∃ s, u.host = some (.ipv6 s) := by
  obtain ⟨-, host, hh, hv, hp, hd⟩ := (udpUrl_ofUrl u v).1 h
  have e0 : "udp://".toList = ['u', 'd', 'p', ':', '/', '/'] := rfl
  have e1 : "udp://[".toList = ['u', 'd', 'p', ':', '/', '/', '['] := rfl
  unfold UdpUrl.display
  rw [e0, e1]
  by_cases hc : ':' ∈ v.host
  · rw [if_pos (by simpa using hc)]
    refine ⟨fun _ => ?_, fun _ => ⟨_, by simp; rfl⟩⟩
    apply Classical.byContradiction
    intro hne
    exact hok.domain host hh (fun s e => hne ⟨s, by rw [hh, e]⟩) (hv ▸ hc)
  · rw [if_neg (by simpa using hc)]
    constructor
    · rintro ⟨r, hr⟩
      simp only [List.append_assoc, List.cons_append, List.nil_append, List.cons.injEq, true_and] at hr
      cases hx : v.host with
      | nil => rw [hx] at hr; simp at hr
      | cons x xs =>
        rw [hx] at hr
        simp only [List.cons_append, List.cons.injEq] at hr
        have := (hok.host _ hh x (by rw [← hv, hx]; simp)).1
        exact absurd hr.1 this
    · rintro ⟨s, hs⟩
      rw [hs] at hh
      cases hh
      exact absurd (hok.ipv6 s hs) (by rw [hv] at hc; exact hc)

/-- A text is a tracker exactly if it is a URL with the scheme http or https and a host, or an acceptable UDP URL; every other
scheme is reported. -/
theorem tracker_parse (parseUrl : Text → Option Url) (s : Text) (t : Tracker) :
    Tracker.parse parseUrl s = .ok t ↔ ∃ u, parseUrl s = some u ∧
      (((u.scheme = "http".toList ∨ u.scheme = "https".toList) ∧ u.host ≠ none ∧ t = .http u) ∨
       ∃ v, UdpUrl.ofUrl u = .ok v ∧ t = .udp v) := by
  unfold Tracker.parse
  cases hp : parseUrl s with
  | none => simp
  | some u =>
    simp only [Option.some.injEq, exists_eq_left']
    by_cases hs : u.scheme = "http".toList ∨ u.scheme = "https".toList
    · rw [if_pos hs]
      have hne : ¬ (u.scheme = "udp".toList) := by
        rcases hs with h | h <;> rw [h] <;> decide
      have hno : ∀ v, UdpUrl.ofUrl u ≠ .ok v := fun v h => hne ((udpUrl_ofUrl u v).1 h).1
      have h1 : (decide (u.scheme ≠ "http".toList) && decide (u.scheme ≠ "https".toList)) = false := by
        rcases hs with h | h <;> rw [h] <;> decide
      simp only [httpOfUrl, h1, Bool.false_eq_true, if_false, hs, true_and]
      cases hh : u.host with
      | none => simp [Except.map, hno]
      | some h => simp [Except.map, hno, eq_comm]
    · rw [if_neg hs]
      simp only [hs, false_and, false_or]
      by_cases hu : u.scheme = "udp".toList
      · rw [if_pos hu]
        cases e : UdpUrl.ofUrl u with
        | error => simp [Except.map]
        | ok v => simp [Except.map, eq_comm]
      · rw [if_neg hu]
        have hno : ∀ v, UdpUrl.ofUrl u ≠ .ok v := fun v h => hu ((udpUrl_ofUrl u v).1 h).1
        simp [hno]

/-- **C48.** Which error is reported for a text that is not a tracker: that it is not a URL, an unknown scheme, a missing host, or a missing
port of a UDP tracker. -/
theorem tracker_parse_error (parseUrl : Text → Option Url) (s : Text) (e : TrackerUrlError) :
    Tracker.parse parseUrl s = .error e ↔ (parseUrl s = none ∧ e = .url) ∨ ∃ u, parseUrl s = some u ∧
      ((u.scheme ∉ ["http".toList, "https".toList, "udp".toList] ∧ e = .unsupportedScheme u.scheme) ∨
       (u.scheme ∈ ["http".toList, "https".toList, "udp".toList] ∧ u.host = none ∧ e = .noHost) ∨
       (u.scheme = "udp".toList ∧ u.host ≠ none ∧ u.port = none ∧ e = .noUdpPort)) := by
  unfold Tracker.parse
  cases hp : parseUrl s with
  | none => simp [eq_comm]
  | some u =>
    obtain ⟨scheme, host, port, path, query, fragment, auth⟩ := u
    simp only [List.mem_cons, List.not_mem_nil, or_false, Option.some.injEq, exists_eq_left']
    by_cases h1 : scheme = "http".toList ∨ scheme = "https".toList
    · have h2 : scheme ≠ "udp".toList := by rcases h1 with h | h <;> rw [h] <;> decide
      have h3 : (decide (scheme ≠ "http".toList) && decide (scheme ≠ "https".toList)) = false := by
        rcases h1 with h | h <;> rw [h] <;> decide
      have h4 : scheme = "http".toList ∨ scheme = "https".toList ∨ scheme = "udp".toList := by
        rcases h1 with h | h
        · exact .inl h
        · exact .inr (.inl h)
      rw [if_pos h1]
      simp only [httpOfUrl, h3, Bool.false_eq_true, if_false, h2, false_and, or_false, reduceCtorEq, false_or, h1, not_true, true_and]
      cases host <;> first | (simp [Except.map]; done) | (simp [Except.map]; try exact eq_comm)
    · rw [if_neg h1]
      by_cases h2 : scheme = "udp".toList
      · have h4 : scheme = "http".toList ∨ scheme = "https".toList ∨ scheme = "udp".toList := .inr (.inr h2)
        rw [if_pos h2]
        simp only [UdpUrl.ofUrl, h2, h4, ne_eq, not_true, if_false, false_and, or_false, reduceCtorEq, false_or, true_and, or_true]
        cases host with
        | none => simp [Except.map, eq_comm]
        | some h => cases port <;> simp [Except.map, eq_comm]
      · have h4 : ¬ (scheme = "http".toList ∨ scheme = "https".toList ∨ scheme = "udp".toList) := by
          rintro (h | h | h)
          · exact h1 (.inl h)
          · exact h1 (.inr h)
          · exact h2 h
        rw [if_neg h2]
        simp only [h1, h2, not_false_iff, true_and, false_and, or_false, false_or]
        exact ⟨fun h => by cases h; exact .inr rfl, fun h => by rcases h with ⟨h, -⟩ | h; cases h; rw [h]⟩

-- a concrete case meeting the hypotheses
example : splitUdpUrl "udp://[2001:db8::1]:8080/announce?a=b".toList =
    some ("2001:db8::1".toList, 8080, "/announce?a=b".toList) := by decide +kernel
example : UdpUrl.display ⟨"tracker.example".toList, 80, []⟩ = "udp://tracker.example:80".toList := by decide +kernel
example : UrlOk ⟨"udp".toList, some (.ipv6 "::1".toList), some 80, [], some ['x'], none, []⟩ :=
  ⟨by intro h hh; cases hh; decide, by (intro h hh hn; cases hh; exact absurd rfl (hn _)), by (intro s hs; cases hs; decide),
    .inl rfl⟩

end Demag.Props
