import Verif.Lemmas.UrlHost
import Verif.Props.UrlWhole

/-! Property theorems about hosts and about URLs with a special scheme, such as those of HTTP trackers. -/

namespace Demag.Props

open Spec

/-! ### Hosts -/

/-- **C74.** Which texts are hosts of special URLs, and what they denote. -/
theorem hostParse_iff (idna : Bytes → Option Text) (h : Text) (host : Host) : hostParse idna h = some host ↔ IsHostText idna h host := by
  match h with
  | [] =>
    have hd : ∀ d, DomainOf idna [] d → d = [] := by
      rintro d ⟨-, ⟨t, ht, -, rfl⟩ | ⟨h, -⟩⟩
      · rw [escapedBytes] at ht
        have : t = [] := utf8_inj (by rw [ht]; rfl)
        rw [this]; rfl
      · exact absurd ⟨by simp, by intro a b e; simp at e⟩ (h [] (by rw [escapedBytes]; rfl))
    have he : ¬ EndsInNumber [] := by rw [← endsInNumber_iff]; decide +kernel
    constructor
    · intro e; cases e
    · intro e
      match host, e with
      | .ipv6 ip, ⟨t, e, _⟩ => cases e
      | .ipv4 ip, ⟨_, d, h1, h2, _⟩ => rw [hd d h1] at h2; exact absurd h2 he
      | .domain d, ⟨_, h1, h2, _⟩ => exact absurd (hd d h1) h2
  | c :: r =>
    simp only [hostParse]
    by_cases hc : c = '['
    · subst hc
      rw [if_pos rfl]
      constructor
      · intro e
        split at e
        · next hl =>
          obtain ⟨t, rfl⟩ := List.getLast?_eq_some_iff.1 hl
          rw [List.dropLast_concat, Option.map_eq_some_iff] at e
          obtain ⟨ip, h1, rfl⟩ := e
          exact ⟨t, rfl, (urlIpv6_iff t ip).1 h1⟩
        · cases e
      · intro e
        match host, e with
        | .ipv6 ip, ⟨t, e, h1⟩ =>
          cases e
          rw [if_pos (by simp), List.dropLast_concat, (urlIpv6_iff t ip).2 h1]
          rfl
        | .ipv4 ip, ⟨h, _⟩ => exact absurd rfl h
        | .domain d, ⟨h, _⟩ => exact absurd rfl h
    · rw [if_neg hc]
      have hh : (c :: r).head? ≠ some '[' := by simpa using hc
      rw [Option.bind_eq_some_iff]
      have hne : ∀ d, EndsInNumber d → d ≠ [] := by
        rintro d he rfl
        rw [← endsInNumber_iff] at he
        exact absurd he (by decide +kernel)
      constructor
      · rintro ⟨d, h1, h2⟩
        rw [domainToAscii_iff] at h1
        split at h2
        · cases h2
        · next hd =>
          split at h2
          · next he =>
            rw [Option.map_eq_some_iff] at h2
            obtain ⟨ip, h2, rfl⟩ := h2
            exact ⟨hh, d, h1, (endsInNumber_iff d).1 he, (urlIpv4_iff d ip).1 h2⟩
          · next he =>
            cases h2
            exact ⟨hh, h1, hd, fun h => he ((endsInNumber_iff d).2 h)⟩
      · intro e
        match host, e with
        | .ipv6 ip, ⟨t, e, _⟩ => cases e; exact absurd rfl hc
        | .ipv4 ip, ⟨_, d, h1, h2, h3⟩ =>
          refine ⟨d, (domainToAscii_iff _ _ _).2 h1, ?_⟩
          rw [if_neg (hne d h2), if_pos ((endsInNumber_iff d).2 h2), (urlIpv4_iff d ip).2 h3]
          rfl
        | .domain d, ⟨_, h1, h2, h3⟩ =>
          refine ⟨d, (domainToAscii_iff _ _ _).2 h1, ?_⟩
          rw [if_neg h2, if_neg fun h => h3 ((endsInNumber_iff d).1 h)]


/-! ### Authorities -/

theorem notInDomain_host {idna : Bytes → Option Text} {h d : Text} (hd : DomainOf idna h d) {c : Char} (hc : c ∈ h)
    (hn : c.toNat < 0x80) (hx : hexDigit c = none) (hp : c ≠ '%') : ¬ NotInDomain c := by
  have := hd.1 _ (escapedBytes_mem hn hx hp h hc)
  rwa [show (UInt8.ofNat c.toNat).toNat = c.toNat from by rw [UInt8.toNat_ofNat']; omega, Char.ofNat_toNat] at this

theorem domain_quiet {idna : Bytes → Option Text} {h d : Text} (hd : DomainOf idna h d) :
    ∀ c ∈ h, c ≠ '[' ∧ c ≠ ']' ∧ c ≠ ':' := by
  intro c hc
  refine ⟨?_, ?_, ?_⟩ <;>
    (rintro rfl; exact notInDomain_host hd hc (by decide) (by decide) (by decide) (by unfold NotInDomain; decide))

theorem hostText_ne {idna : Bytes → Option Text} {h : Text} {host : Host} (hh : IsHostText idna h host) : h ≠ [] := by
  rintro rfl
  rw [← hostParse_iff] at hh
  cases hh

theorem splitHostPort_special {idna : Bytes → Option Text} {h : Text} {host : Host} (hh : IsHostText idna h host) :
    splitHostPort false h = (h, none) ∧ ∀ r, splitHostPort false (h ++ ':' :: r) = (h, some r) := by
  match host, hh with
  | .domain d, ⟨_, hd, _⟩ => exact ⟨splitHostPort_bare (domain_quiet hd), fun r => splitHostPort_plain (domain_quiet hd) r⟩
  | .ipv4 ip, ⟨_, d, hd, _⟩ => exact ⟨splitHostPort_bare (domain_quiet hd), fun r => splitHostPort_plain (domain_quiet hd) r⟩
  | .ipv6 ip, ⟨t, h1, h2⟩ => exact splitHostPort_host (host := some (.ipv6 (ipv6Text ip))) ⟨t, ip, h1, h2, rfl⟩

theorem not_user_iff (c : Char) : userinfoSet c = false ↔ KeptInUser c := by
  simp only [userinfoSet, pathSet, querySet, Bool.or_eq_false_iff, beq_eq_false_iff_ne, not_control_iff, KeptInUser, visible_iff,
    show "\"#<>?`{}^/:;=@[\\]|".toList = ['"', '#', '<', '>', '?', '`', '{', '}', '^', '/', ':', ';', '=', '@', '[', '\\', ']', '|'] from rfl,
    List.mem_cons, List.not_mem_nil, or_false, not_or, and_assoc, Bool.true_and]

theorem not_special_query_iff (c : Char) : specialQuerySet c = false ↔ KeptInSpecialQuery c := by
  simp only [specialQuerySet, querySet, Bool.or_eq_false_iff, beq_eq_false_iff_ne, not_control_iff, KeptInSpecialQuery, visible_iff,
    show "\"#<>'".toList = ['"', '#', '<', '>', '\''] from rfl, List.mem_cons, List.not_mem_nil, or_false, not_or, and_assoc]

theorem userinfo_iff (t auth : Text) : userinfoText t = auth ↔ IsUser t auth := by
  unfold userinfoText
  simp only [percentEncode_escape not_user_iff]
  constructor
  · rintro rfl
    have hs := List.takeWhile_append_dropWhile (p := fun c => decide (c ≠ ':')) (l := t)
    have hn : ':' ∉ t.takeWhile (fun c => decide (c ≠ ':')) := by
      intro hm
      have := List.all_takeWhile (p := fun c => decide (c ≠ ':')) (l := t)
      rw [List.all_eq_true] at this
      simpa using this _ hm
    refine ⟨_, _, ?_, hn, rfl⟩
    match hd : t.dropWhile (fun c => decide (c ≠ ':')) with
    | [] => rw [hd, List.append_nil] at hs; exact .inl ⟨hs.symm, rfl⟩
    | c :: r =>
      have hc : c = ':' := by
        have := List.head?_dropWhile_not (fun c => decide (c ≠ ':')) t
        rw [hd] at this
        simpa using this
      rw [hd, hc] at hs
      exact .inr hs.symm
  · rintro ⟨name, password, h, hn, rfl⟩
    have hall : ∀ c ∈ name, decide (c ≠ ':') = true := fun c hc => by
      simp only [decide_eq_true_eq]; rintro rfl; exact hn hc
    rcases h with ⟨rfl, rfl⟩ | rfl
    · obtain ⟨t1, t2⟩ := takeWhile_stop (t := t) (r := []) hall (by simp)
      rw [List.append_nil] at t1 t2
      rw [t1, t2]
      simp
    · obtain ⟨t1, t2⟩ := takeWhile_stop (t := name) (r := ':' :: password) hall (by simp)
      rw [t1, t2]
      simp

theorem beforeLastAt_user {x r : Text} (h2 : '@' ∉ r) : beforeLastAt (x ++ '@' :: r) = x := by
  have : afterLastAt (x ++ '@' :: r) = some r := by
    have := afterLastAt_user (user := x ++ ['@']) (r := r) (by simp) h2
    simpa using this
  unfold beforeLastAt
  rw [this]
  simp

theorem beforeLastAt_bare {r : Text} (h2 : '@' ∉ r) : beforeLastAt r = [] := by
  unfold beforeLastAt
  rw [afterLastAt_bare h2]

/-- The schemes of special URLs that have a port. -/
def PortScheme (sch : Text) : Prop :=
  sch = "http".toList ∨ sch = "https".toList ∨ sch = "ws".toList ∨ sch = "wss".toList ∨ sch = "ftp".toList

theorem otherPort_iff {sch : Text} (hs : PortScheme sch) (port : Option (BitVec 16)) :
    otherPort sch port = if port = some (BitVec.ofNat 16 (usualPort sch)) then none else port := by
  have h1 : defaultPort sch = some (usualPort sch) ∧ usualPort sch < 65536 := by
    rcases hs with rfl | rfl | rfl | rfl | rfl <;> decide
  unfold otherPort
  match port with
  | none => rfl
  | some p =>
    rw [h1.1]
    have : (p.toNat = usualPort sch) ↔ p = BitVec.ofNat 16 (usualPort sch) := by
      constructor
      · intro e; rw [← e]; simp
      · rintro rfl; rw [BitVec.toNat_ofNat]; omega
    by_cases hp : p.toNat = usualPort sch
    · simp [Option.filter, hp, ← this]
    · simp [Option.filter, hp, ← this]

/-- `USER:PASSWORD@HOST:PORT`. -/
def SpecialAuthority (idna : Bytes → Option Text) (sch a auth : Text) (host : Host) (port : Option (BitVec 16)) : Prop :=
  ∃ user h p port', a = user ++ h ++ p ∧ (user = [] ∧ auth = [] ∨ ∃ x, user = x ++ ['@'] ∧ IsUser x auth) ∧ '@' ∉ h ++ p ∧
    IsHostText idna h host ∧ IsPort p port' ∧ port = if port' = some (BitVec.ofNat 16 (usualPort sch)) then none else port'

theorem specialAuthority_iff {idna : Bytes → Option Text} {sch : Text} (hs : PortScheme sch) (a auth : Text) (host : UrlHost) (port : Option (BitVec 16)) :
    specialAuthority idna sch a = some (auth, host, port) ↔ ∃ h, host = h.toUrl ∧ SpecialAuthority idna sch a auth h port := by
  constructor
  · intro e
    have huser : ∃ user rest, a = user ++ rest ∧ rest = (afterLastAt a).getD a ∧ '@' ∉ rest ∧
        (user = [] ∧ userinfoText (beforeLastAt a) = [] ∨ ∃ x, user = x ++ ['@'] ∧ IsUser x (userinfoText (beforeLastAt a))) := by
      match hat : afterLastAt a with
      | none =>
        have hn := afterLastAt_none hat
        exact ⟨[], a, rfl, rfl, hn, .inl ⟨rfl, by rw [beforeLastAt_bare hn]; rfl⟩⟩
      | some r =>
        obtain ⟨user, h1, h2, h3⟩ := afterLastAt_some hat
        obtain ⟨x, rfl⟩ := List.getLast?_eq_some_iff.1 h2
        refine ⟨x ++ ['@'], r, h1, rfl, h3, .inr ⟨x, rfl, ?_⟩⟩
        rw [← userinfo_iff, h1, List.append_assoc, List.singleton_append, beforeLastAt_user h3]
    obtain ⟨user, rest, h1, h2, h3, h4⟩ := huser
    unfold specialAuthority at e
    rw [← h2] at e
    match hsp : splitHostPort false rest with
    | (h, none) =>
      rw [hsp] at e
      simp only [Option.map_eq_some_iff] at e
      obtain ⟨hh, e1, e2⟩ := e
      cases e2
      have := splitHostPort_none false _ hsp
      subst this
      exact ⟨hh, rfl, user, rest, [], none, by simp [h1], h4, by simpa using h3, (hostParse_iff _ _ _).1 e1, .inl rfl, by simp⟩
    | (h, some p) =>
      rw [hsp] at e
      simp only [Option.bind_eq_some_iff, Option.map_eq_some_iff] at e
      obtain ⟨hh, e1, p', e2, e3⟩ := e
      cases e3
      have := splitHostPort_some false _ hsp
      subst this
      exact ⟨hh, rfl, user, h, ':' :: p, p', by simp [h1], h4, h3, (hostParse_iff _ _ _).1 e1, (urlPort_iff _ _).1 e2, otherPort_iff hs p'⟩
  · rintro ⟨hh, rfl, user, h, p, port', rfl, hu, hat, hh', hp, rfl⟩
    have hrest : (afterLastAt (user ++ h ++ p)).getD (user ++ h ++ p) = h ++ p ∧ userinfoText (beforeLastAt (user ++ h ++ p)) = auth := by
      rw [List.append_assoc]
      rcases hu with ⟨rfl, rfl⟩ | ⟨x, rfl, hx⟩
      · rw [List.nil_append, afterLastAt_bare hat, beforeLastAt_bare hat]
        exact ⟨rfl, rfl⟩
      · constructor
        · rw [afterLastAt_user (by simp) hat]; rfl
        · rw [List.append_assoc, List.singleton_append, beforeLastAt_user hat, userinfo_iff]
          exact hx
    obtain ⟨s1, s2⟩ := splitHostPort_special hh'
    unfold specialAuthority
    rw [hrest.1, hrest.2]
    rw [← hostParse_iff] at hh'
    have hcase : p = [] ∨ ∃ r, p = ':' :: r := by
      match port', hp with
      | none, .inl e => exact .inl e
      | none, .inr e => exact .inr ⟨[], e⟩
      | some _, ⟨ds, e, _⟩ => exact .inr ⟨ds, e⟩
    rcases hcase with rfl | ⟨r, rfl⟩
    · rw [List.append_nil, s1]
      match port', hp with
      | none, _ => simp [hh']
      | some _, ⟨ds, e, _⟩ => cases e
    · rw [s2]
      simp only [hh', Option.bind_some, (urlPort_iff _ _).2 hp, Option.map_some, otherPort_iff hs]

/-! ### Paths, queries and fragments -/

theorem isSlash_iff (c : Char) : isSlash c = true ↔ c = '/' ∨ c = '\\' := by simp [isSlash]

theorem splitWhere_slash (t : Text) : splitWhere isSlash t = splitSlash (t.map fun c => if c = '\\' then '/' else c) := by
  induction t with
  | nil => rfl
  | cons c r ih =>
    rw [List.map_cons, splitSlash, splitWhere, ih]
    by_cases h : isSlash c = true
    · rw [if_pos h, if_pos]
      rcases (isSlash_iff c).1 h with rfl | rfl <;> rfl
    · have h' := h
      rw [isSlash_iff, not_or] at h'
      rw [if_neg h, if_neg h'.2, if_neg h'.1]

theorem specialPath_iff (caret : Bool) {t : Text} (h : t = [] ∨ t.head? = some '/' ∨ t.head? = some '\\') (path : Text) :
    IsSpecialPath caret t path ↔ specialPath caret t = path := by
  unfold IsSpecialPath specialPath
  rw [splitWhere_slash]
  match t, h with
  | [], _ => exact slashPath_iff caret [] path
  | c :: r, h =>
    simp only [List.head?_cons, Option.some.injEq, reduceCtorEq, false_or] at h
    rw [if_neg (by simp), List.map_cons, show (if c = '\\' then '/' else c) = '/' from by rcases h with rfl | rfl <;> rfl]
    exact slashPath_iff caret _ path

theorem special_tail_head {t : Text} {q f : Option Text} (h : IsSpecialTail t q f) : ∀ c ∈ t.head?, c = '?' ∨ c = '#' := by
  obtain ⟨a, b, rfl, ha, hb⟩ := h
  intro c hc
  rcases ha with ⟨rfl, -⟩ | ⟨q', rfl, -⟩
  · rcases hb with ⟨rfl, -⟩ | ⟨f', rfl, -⟩
    · cases hc
    · cases hc; exact .inr rfl
  · cases hc; exact .inl rfl

theorem special_tail_iff {t : Text} (ht : ∀ c ∈ t.head?, c = '?' ∨ c = '#') (q f : Option Text) :
    IsSpecialTail t q f ↔ specialTail t = (q, f) := by
  constructor
  · rintro ⟨a, b, rfl, ha, hb⟩
    rcases ha with ⟨rfl, rfl⟩ | ⟨q', rfl, hq, rfl⟩
    · rcases hb with ⟨rfl, rfl⟩ | ⟨f', rfl, rfl⟩
      · rfl
      · rw [List.nil_append, specialTail, if_neg (by decide), percentEncode_escape not_fragment_iff]
    · have hb' : ∀ c ∈ b.head?, (decide (c ≠ '#')) = false := by
        intro c hc
        rcases hb with ⟨rfl, -⟩ | ⟨f', rfl, -⟩
        · cases hc
        · cases hc; decide
      obtain ⟨t1, t2⟩ := takeWhile_stop (p := fun c => decide (c ≠ '#')) (t := q') (r := b)
        (fun c hc => by simp only [decide_eq_true_eq]; rintro rfl; exact hq hc) hb'
      rw [List.cons_append, specialTail, if_pos rfl, t1, t2, percentEncode_escape not_special_query_iff]
      rcases hb with ⟨rfl, rfl⟩ | ⟨f', rfl, rfl⟩
      · rfl
      · simp only [percentEncode_escape not_fragment_iff]
  · intro h
    match t with
    | [] => cases h; exact ⟨[], [], rfl, .inl ⟨rfl, rfl⟩, .inl ⟨rfl, rfl⟩⟩
    | c :: r =>
      rw [specialTail] at h
      split at h
      · next hc =>
        subst hc
        have hs := List.takeWhile_append_dropWhile (p := fun c => decide (c ≠ '#')) (l := r)
        have hn : '#' ∉ r.takeWhile (fun c => decide (c ≠ '#')) := by
          intro hm
          have := List.all_takeWhile (p := fun c => decide (c ≠ '#')) (l := r)
          rw [List.all_eq_true] at this
          simpa using this _ hm
        rw [percentEncode_escape not_special_query_iff] at h
        match hd : r.dropWhile (fun c => decide (c ≠ '#')) with
        | [] =>
          rw [hd] at h hs
          cases h
          exact ⟨'?' :: r.takeWhile _, [], by rw [List.cons_append, hs], .inr ⟨_, rfl, hn, rfl⟩, .inl ⟨rfl, rfl⟩⟩
        | d :: f' =>
          have hda : d = '#' := by
            have := List.head?_dropWhile_not (fun c => decide (c ≠ '#')) r
            rw [hd] at this
            simpa using this
          rw [hd] at h hs
          simp only [percentEncode_escape not_fragment_iff] at h
          cases h
          exact ⟨'?' :: r.takeWhile _, d :: f', by rw [List.cons_append, hs], .inr ⟨_, rfl, hn, rfl⟩, .inr ⟨f', by rw [hda], rfl⟩⟩
      · next hc =>
        have hc' : c = '#' := (ht c rfl).resolve_left hc
        rw [percentEncode_escape not_fragment_iff] at h
        cases h
        exact ⟨[], c :: r, rfl, .inl ⟨rfl, rfl⟩, .inr ⟨r, by rw [hc'], rfl⟩⟩

/-! ### URLs -/

theorem notAuthorityEnd_iff (c : Char) : notAuthorityEnd c = true ↔ c ∉ "/\\?#".toList := by
  simp [notAuthorityEnd, isSlash, notPathEnd, show "/\\?#".toList = ['/', '\\', '?', '#'] from rfl, and_assoc]

theorem urlSpecial_iff (env : UrlEnv) {sch : Text} (hs : PortScheme sch) (rest : Text) (u : Url) :
    urlSpecial env sch rest = some u ↔ u.scheme = sch ∧ IsSpecialRest env.caret env.idna rest u := by
  constructor
  · intro e
    unfold urlSpecial at e
    simp only [Option.map_eq_some_iff] at e
    obtain ⟨⟨auth, host, port⟩, e, rfl⟩ := e
    obtain ⟨h, hh, user, ht, p, port', h1, h2, h3, h4, h5, h6⟩ := (specialAuthority_iff hs _ _ _ _).1 e
    refine ⟨rfl, ?_⟩
    generalize hr : rest.dropWhile isSlash = r at *
    generalize hq : r.dropWhile notAuthorityEnd = q at *
    have c := cut_pathEnd q
    have hqh : ∀ d ∈ q.head?, notAuthorityEnd d = false := by
      intro d hd
      have := List.head?_dropWhile_not notAuthorityEnd r
      rw [hq, show q.head? = some d from hd] at this
      simpa using this
    have hpath : q.takeWhile notPathEnd = [] ∨ (q.takeWhile notPathEnd).head? = some '/' ∨ (q.takeWhile notPathEnd).head? = some '\\' := by
      match q, hqh with
      | [], _ => exact .inl rfl
      | d :: ds, hqh =>
        have hd := hqh d rfl
        by_cases hn : notPathEnd d = true
        · right
          have : isSlash d = true := by
            unfold notAuthorityEnd at hd
            rw [hn] at hd
            simpa using hd
          rw [List.takeWhile_cons, if_pos hn]
          rcases (isSlash_iff d).1 this with rfl | rfl
          · exact .inl rfl
          · exact .inr rfl
        · left
          rw [List.takeWhile_cons, if_neg hn]
    refine ⟨rest.takeWhile isSlash, user, ht, p, q.takeWhile notPathEnd, q.dropWhile notPathEnd, h, port', ?_, ?_, ?_, h2, h3, h4, hh ▸ rfl, h5, h6,
      ⟨c.1, c.2.1⟩, hpath, (specialPath_iff _ hpath _).2 rfl, (special_tail_iff c.2.2 _ _).2 rfl⟩
    · rw [← h1, List.append_assoc, List.append_assoc, List.takeWhile_append_dropWhile, ← hq, List.takeWhile_append_dropWhile, ← hr,
        List.takeWhile_append_dropWhile]
    · intro d hd
      have := List.all_takeWhile (p := isSlash) (l := rest)
      rw [List.all_eq_true] at this
      exact (isSlash_iff d).1 (this d hd)
    · rw [← h1]
      intro d hd
      have := List.all_takeWhile (p := notAuthorityEnd) (l := r)
      rw [List.all_eq_true] at this
      exact (notAuthorityEnd_iff d).1 (this d hd)
  · rintro ⟨rfl, slashes, user, h, p, path, tail, host, port, rfl, h1, h2, h3, h4, h5, h6, h7, h8, h9, h10, h11, h12⟩
    have hne := hostText_ne h5
    have hend : ∀ c ∈ (path ++ tail).head?, notAuthorityEnd c = false := by
      intro c hc
      have : c = '/' ∨ c = '\\' ∨ c = '?' ∨ c = '#' := by
        match path, h10 with
        | [], _ => rcases special_tail_head h12 c hc with h | h <;> simp [h]
        | d :: _, h10 =>
          cases hc
          simp only [List.head?_cons, Option.some.injEq, reduceCtorEq, false_or] at h10
          rcases h10 with h | h <;> simp [h]
      rcases this with rfl | rfl | rfl | rfl <;> decide
    obtain ⟨t1, t2⟩ := takeWhile_stop (p := isSlash) (t := slashes) (r := user ++ h ++ p ++ (path ++ tail))
      (fun c hc => (isSlash_iff c).2 (h1 c hc)) (by
        intro c hc
        have hm : c ∈ user ++ h ++ p := by
          have hn : user ++ h ++ p ≠ [] := by simp [hne]
          match user ++ h ++ p, hn, hc with
          | d :: ds, _, hc => cases hc; simp
        have := h2 c hm
        cases hb : isSlash c with
        | false => rfl
        | true =>
          rcases (isSlash_iff c).1 hb with rfl | rfl
          · exact absurd (by decide) this
          · exact absurd (by decide) this)
    obtain ⟨t3, t4⟩ := takeWhile_stop (p := notAuthorityEnd) (t := user ++ h ++ p) (r := path ++ tail)
      (fun c hc => (notAuthorityEnd_iff c).2 (h2 c hc)) hend
    obtain ⟨t5, t6⟩ := takeWhile_stop (p := notPathEnd) (t := path) (r := tail) (notPathEnd_all h9) (by
        intro c hc
        rcases special_tail_head h12 c hc with rfl | rfl <;> decide)
    have ha := (specialAuthority_iff (idna := env.idna) hs (user ++ h ++ p) u.auth host.toUrl u.port).2
      ⟨host, rfl, user, h, p, port, rfl, h3, h4, h5, h7, h8⟩
    unfold urlSpecial
    rw [show slashes ++ (user ++ h ++ p) ++ path ++ tail = slashes ++ (user ++ h ++ p ++ (path ++ tail)) from by simp]
    simp only
    rw [t2, t3, t4, t5, t6, ha, (specialPath_iff _ h10 _).1 h11, (special_tail_iff (special_tail_head h12) _ _).1 h12]
    simp only [Option.map_some, ← h6]

theorem urlSpecial_host {env : UrlEnv} {sch rest : Text} {u : Url} (h : urlSpecial env sch rest = some u) : u.host ≠ none := by
  unfold urlSpecial at h
  simp only [Option.map_eq_some_iff] at h
  obtain ⟨a, -, rfl⟩ := h
  simp

/-- **C48.** Exactly these texts are read as HTTP trackers. -/
theorem http_tracker_iff (env : UrlEnv) (s : Text) (u : Url) :
    Tracker.parse (urlParse env) s = .ok (.http u) ↔ IsHttpText env s u := by
  have hs : ∀ low : Text, low = "http".toList ∨ low = "https".toList → SpecialScheme low ∧ PortScheme low ∧ low ≠ "file".toList := by
    rintro low (rfl | rfl) <;> (unfold PortScheme; decide)
  rw [tracker_parse]
  constructor
  · rintro ⟨v, e, ⟨h1, h2, hv⟩ | ⟨w, hw, hv⟩⟩
    · cases hv
      obtain ⟨sch, rest, k1, k2, k3⟩ := (url_special_iff env s u (hs _ h1).1).1 e
      have hsch := specialRest_scheme k3
      rw [hsch] at h1
      unfold specialRest at k3
      rw [if_neg (hs _ h1).2.2, urlSpecial_iff env (hs _ h1).2.1] at k3
      exact ⟨sch, rest, k1, hsch, hsch ▸ h1, k3.2⟩
    · cases hv
  · rintro ⟨sch, rest, k1, k2, h1, k3⟩
    have h1' := h1
    rw [k2] at h1'
    have e : specialRest env (sch.map Char.toLower) rest = some u := by
      unfold specialRest
      rw [if_neg (hs _ h1').2.2]
      exact (urlSpecial_iff env (hs _ h1').2.1 rest u).2 ⟨k2, k3⟩
    refine ⟨u, (url_special_iff env s u (hs _ h1).1).2 ⟨sch, rest, k1, ?_, e⟩, .inl ⟨h1, ?_, rfl⟩⟩
    · rcases h1' with h1 | h1
      · exact scheme_of_lower h1 (by decide) (by decide)
      · exact scheme_of_lower h1 (by decide) (by decide)
    · unfold specialRest at e
      rw [if_neg (hs _ h1').2.2] at e
      exact urlSpecial_host e

end Demag.Props
