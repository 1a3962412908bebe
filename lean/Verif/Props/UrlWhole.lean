import Verif.Spec.UrlWhole
import Verif.Props.UrlText

/-!
# Properties: exactly the texts of magnet links and UDP trackers (C18, C48)
-/

namespace Demag.Props

open Spec

/-! ### Escaping -/

theorem hexLetter_upper {n : Nat} (h : n < 16) : hexUpper n = hexLetter n := by
  have : ∀ n : Fin 16, hexUpper n.val = hexLetter n.val := by decide
  exact this ⟨n, h⟩

theorem percentEncode_escape {set : Char → Bool} {keep : Char → Prop} [DecidablePred keep] (h : ∀ c, set c = false ↔ keep c) (t : Text) :
    percentEncode set t = escapeUnless keep t := by
  unfold percentEncode escapeUnless
  congr 1
  funext c
  unfold percentChar
  by_cases hc : keep c
  · rw [if_pos hc, if_neg (by rw [(h c).2 hc]; simp)]
  · have : set c = true := by
      cases e : set c with
      | true => rfl
      | false => exact absurd ((h c).1 e) hc
    rw [if_neg hc, if_pos this]
    congr 1
    funext b
    have := b.toNat_lt
    rw [hexLetter_upper (by omega), hexLetter_upper (by omega)]

theorem not_control_iff (c : Char) : controlSet c = false ↔ Printing c := by
  rw [controlSet_false]
  unfold Printing
  omega

theorem visible_iff (c : Char) : Visible c ↔ Printing c ∧ c ≠ ' ' := by
  have : c = ' ' ↔ c.toNat = 32 :=
    ⟨fun h => by rw [h]; rfl, fun h => by have := Char.ofNat_toNat c; rw [h] at this; exact this.symm⟩
  unfold Visible Printing
  rw [Ne, this]
  omega

theorem not_query_iff (c : Char) : querySet c = false ↔ KeptInQuery c := by
  simp only [querySet, Bool.or_eq_false_iff, beq_eq_false_iff_ne, not_control_iff, KeptInQuery, visible_iff,
    show "\"#<>".toList = ['"', '#', '<', '>'] from rfl, List.mem_cons, List.not_mem_nil, or_false, not_or, and_assoc]

theorem not_fragment_iff (c : Char) : fragmentSet c = false ↔ KeptInFragment c := by
  simp only [fragmentSet, Bool.or_eq_false_iff, beq_eq_false_iff_ne, not_control_iff, KeptInFragment, visible_iff,
    show "\"<>`".toList = ['"', '<', '>', '`'] from rfl, List.mem_cons, List.not_mem_nil, or_false, not_or, and_assoc]

theorem not_path_iff (caret : Bool) (c : Char) : pathSet caret c = false ↔ KeptInPath caret c := by
  simp only [pathSet, querySet, Bool.or_eq_false_iff, beq_eq_false_iff_ne, not_control_iff, KeptInPath, visible_iff,
    show "\"#<>?`{}".toList = ['"', '#', '<', '>', '?', '`', '{', '}'] from rfl, List.mem_cons, List.not_mem_nil, or_false, not_or, and_assoc]
  cases caret <;> simp

/-! ### Paths -/

/-- One segment of a walk. -/
def walkStep (caret : Bool) (path : List Text) (s : Text) : List Text :=
  if doubleDot s then path.dropLast else if singleDot s then path else path ++ [percentEncode (pathSet caret) s]

theorem walk_fold {caret : Bool} {ss w : List Text} (h : Walk caret ss w) : ss.foldl (walkStep caret) [] = w := by
  induction h with
  | start => rfl
  | back _ hs ih =>
    rw [List.foldl_append, ih]
    show walkStep caret _ _ = _
    rw [walkStep, if_pos ((doubleDot_iff _).2 hs)]
  | stay _ hs ih =>
    rw [List.foldl_append, ih]
    show walkStep caret _ _ = _
    rw [walkStep, if_neg, if_pos ((singleDot_iff _).2 hs)]
    rw [doubleDot_iff, hs]
    decide
  | go _ h1 h2 ih =>
    rw [List.foldl_append, ih]
    show walkStep caret _ _ = _
    rw [walkStep, if_neg (by rw [doubleDot_iff]; exact h1), if_neg (by rw [singleDot_iff]; exact h2),
      percentEncode_escape (not_path_iff caret)]

theorem walk_step {caret : Bool} {ss path : List Text} (h : Walk caret ss path) (s : Text) :
    Walk caret (ss ++ [s]) (walkStep caret path s) := by
  unfold walkStep
  split
  · next hs => exact .back h ((doubleDot_iff _).1 hs)
  · next h1 =>
    rw [doubleDot_iff] at h1
    split
    · next hs => exact .stay h ((singleDot_iff _).1 hs)
    · next h2 =>
      rw [singleDot_iff] at h2
      rw [percentEncode_escape (not_path_iff caret)]
      exact .go h h1 h2

/-- What is added when the last segment is dots. -/
def dotsEnd (last : Text) : List Text := if formBytes last = utf8 ['.', '.'] ∨ formBytes last = utf8 ['.'] then [[]] else []

theorem pathSegments_walk {caret : Bool} (ss : List Text) (last : Text) : ∀ {before path : List Text}, Walk caret before path →
    ∃ w, Walk caret (before ++ (ss ++ [last])) w ∧ pathSegments caret path (ss ++ [last]) = w ++ dotsEnd last := by
  induction ss with
  | nil =>
    intro before path h
    refine ⟨_, walk_step h last, ?_⟩
    rw [List.nil_append, pathSegments, pathSegments]
    simp only [List.isEmpty_nil, if_true]
    unfold walkStep dotsEnd
    simp only [← doubleDot_iff, ← singleDot_iff]
    by_cases h1 : doubleDot last = true
    · simp [h1]
    · by_cases h2 : singleDot last = true
      · simp [h1, h2]
      · simp [h1, h2]
  | cons s ss ih =>
    intro before path h
    obtain ⟨w, h1, h2⟩ := ih (walk_step h s)
    refine ⟨w, by simpa using h1, ?_⟩
    rw [List.cons_append, pathSegments]
    have hne : (ss ++ [last]).isEmpty = false := by cases ss <;> rfl
    simp only [hne, Bool.false_eq_true, if_false]
    exact h2

theorem splitSlash_flat (t : Text) : (splitSlash t).flatMap (fun s => '/' :: s) = '/' :: t := by
  induction t with
  | nil => rfl
  | cons c r ih =>
    rw [splitSlash]
    split
    · next h => rw [List.flatMap_cons, ih, h]; rfl
    · match e : splitSlash r with
      | [] => exact absurd e (splitSlash_ne r)
      | s :: ss =>
        rw [e, List.flatMap_cons, List.cons_append, List.cons.injEq] at ih
        rw [List.flatMap_cons, List.cons_append, List.cons_append, ih.2]

theorem slashPath_iff (caret : Bool) (t path : Text) : IsSlashPath caret ('/' :: t) path ↔ slashPath caret t = path := by
  constructor
  · rintro (⟨h, -⟩ | ⟨ss, last, w, hs, ht, hw, rfl⟩)
    · cases h
    · have hsplit : splitSlash t = ss ++ [last] := by
        match e : ss ++ [last] with
        | [] => simp at e
        | x :: xs =>
          rw [e] at ht hs
          rw [List.flatMap_cons, List.cons_append, List.cons.injEq] at ht
          rw [ht.2, splitSlash_join x xs hs]
      obtain ⟨w', h1, h2⟩ := pathSegments_walk (caret := caret) ss last .start
      rw [List.nil_append] at h1
      have : w = w' := (walk_fold hw).symm.trans (walk_fold h1)
      unfold slashPath
      rw [hsplit, h2, this]
      rfl
  · rintro rfl
    have hne := splitSlash_ne t
    have hl : splitSlash t = (splitSlash t).dropLast ++ [(splitSlash t).getLast hne] := (List.dropLast_concat_getLast hne).symm
    obtain ⟨w', h1, h2⟩ := pathSegments_walk (caret := caret) (splitSlash t).dropLast ((splitSlash t).getLast hne) .start
    rw [List.nil_append, ← hl] at h1
    refine .inr ⟨(splitSlash t).dropLast, (splitSlash t).getLast hne, w', ?_, ?_, ?_, ?_⟩
    · rw [← hl]; exact splitSlash_mem t
    · rw [← hl, splitSlash_flat]
    · rw [← hl]; exact h1
    · unfold slashPath
      rw [← hl] at h2
      rw [h2]
      rfl

theorem pathStart_iff (caret : Bool) {t : Text} (h : t = [] ∨ t.head? = some '/') (path : Text) :
    IsSlashPath caret t path ↔ pathStart caret t = path := by
  match t, h with
  | [], _ =>
    constructor
    · rintro (⟨-, rfl⟩ | ⟨ss, last, w, -, ht, -⟩)
      · rfl
      · rw [List.flatMap_append, List.flatMap_cons] at ht
        simp at ht
    · intro h
      exact .inl ⟨rfl, h.symm⟩
  | c :: t, h =>
    simp only [List.head?_cons, Option.some.injEq, reduceCtorEq, false_or] at h
    subst h
    exact slashPath_iff caret t path

theorem slashPath_head {caret : Bool} {t path : Text} (h : IsSlashPath caret t path) : t = [] ∨ t.head? = some '/' := by
  rcases h with ⟨h, -⟩ | ⟨ss, last, w, -, rfl, -⟩
  · exact .inl h
  · right
    cases ss <;> rfl

/-! ### Authorities -/

theorem hexDigit_char {c : Char} (h : (hexDigit c).isSome = true) : c ≠ '[' ∧ c ≠ ']' ∧ c ≠ '@' ∧ c ≠ '/' := by
  refine ⟨?_, ?_, ?_, ?_⟩ <;> (rintro rfl; revert h; decide)

theorem mapM_some {α β : Type} {f : α → Option β} : ∀ {l : List α} {r : List β}, l.mapM f = some r → ∀ a ∈ l, (f a).isSome = true := by
  intro l
  induction l with
  | nil => simp
  | cons x xs ih =>
    intro r h a ha
    rw [List.mapM_cons] at h
    cases hx : f x with
    | none => rw [hx] at h; cases h
    | some y =>
      cases hr : xs.mapM f with
      | none => rw [hx, hr] at h; cases h
      | some ys =>
        rcases List.mem_cons.1 ha with rfl | ha
        · rw [hx]; rfl
        · exact ih hr a ha

/-- Characters of addresses are not those that matter for authorities. -/
def Quiet (t : Text) : Prop := ∀ c ∈ t, c ≠ '[' ∧ c ≠ ']' ∧ c ≠ '@' ∧ c ≠ '/'

theorem quiet_append {a b : Text} (h1 : Quiet a) (h2 : Quiet b) : Quiet (a ++ b) := fun c hc => by
  rcases List.mem_append.1 hc with hc | hc
  · exact h1 c hc
  · exact h2 c hc

theorem quiet_cons {c : Char} {b : Text} (h1 : c = ':' ∨ c = '.') (h2 : Quiet b) : Quiet (c :: b) := fun d hd => by
  rcases List.mem_cons.1 hd with rfl | hd
  · rcases h1 with rfl | rfl <;> decide
  · exact h2 d hd

theorem quiet_digits {t : Text} (h : ∀ c ∈ t, c.isDigit = true) : Quiet t := fun c hc => by
  have := (digit_facts (h c hc)).2
  refine ⟨?_, ?_, ?_, ?_⟩ <;> (rintro rfl; exact this (by decide))

theorem group_quiet {n : Nat} {t : Text} (h : IsGroup n t) : Quiet t := fun c hc => by
  obtain ⟨-, -, ds, hd, -⟩ := h
  exact hexDigit_char (mapM_some hd c hc)

theorem dotted_quiet {n : Nat} {t : Text} (h : IsDotted t n) : Quiet t := by
  obtain ⟨a, b, c, d, ta, tb, tc, td, ha, hb, hc, hd, rfl, -⟩ := h
  have o : ∀ {n t}, IsOctet n t → Quiet t := fun h => quiet_digits h.1.2.1
  exact quiet_append (o ha) (quiet_cons (.inr rfl) (quiet_append (o hb) (quiet_cons (.inr rfl) (quiet_append (o hc)
    (quiet_cons (.inr rfl) (o hd))))))

theorem hexGroups_quiet {t : Text} {ns : List Nat} (h : IsHexGroups t ns) : Quiet t := by
  induction h with
  | one h => exact group_quiet h
  | more h _ ih => exact quiet_append (group_quiet h) (quiet_cons (.inl rfl) ih)

theorem groups_quiet {t : Text} {ns : List Nat} (h : IsGroups t ns) : Quiet t := by
  induction h with
  | one h => exact group_quiet h
  | dotted h => exact dotted_quiet h
  | more h _ ih => exact quiet_append (group_quiet h) (quiet_cons (.inl rfl) ih)

theorem ipv6_quiet {t : Text} {ip : Ipv6} (h : IsIpv6Text t ip) : Quiet t := by
  obtain ⟨segs, h | ⟨front, back, ns, ms, rfl, hf, hb, -⟩, -⟩ := h
  · exact groups_quiet h.1
  · refine quiet_append ?_ (quiet_cons (.inl rfl) (quiet_cons (.inl rfl) ?_))
    · rcases hf with ⟨rfl, -⟩ | hf
      · intro c hc; cases hc
      · exact hexGroups_quiet hf
    · rcases hb with ⟨rfl, -⟩ | hb
      · intro c hc; cases hc
      · exact groups_quiet hb

theorem opaqueHost_iff (h : Text) (host : Option UrlHost) : opaqueHost h = some host ↔ IsHost h host := by
  match h with
  | [] =>
    show some none = some host ↔ _
    match host with
    | none => exact ⟨fun _ => rfl, fun _ => rfl⟩
    | some (.domain d) => simp [IsHost]
    | some (.ipv4 d) => simp [IsHost]
    | some (.ipv6 d) => simp [IsHost]
  | c :: r =>
    rw [opaqueHost]
    split
    · next hc =>
      subst hc
      constructor
      · intro h
        split at h
        · next hl =>
          rw [Option.map_eq_some_iff] at h
          obtain ⟨ip, h1, rfl⟩ := h
          refine ⟨r.dropLast, ip, ?_, (urlIpv6_iff _ _).1 h1, rfl⟩
          obtain ⟨x, rfl⟩ := List.getLast?_eq_some_iff.1 hl
          rw [List.dropLast_concat]
        · cases h
      · intro h
        match host, h with
        | some (.domain d), h => exact absurd (h.2.1 '[' (by simp)).2 (by decide)
        | some (.ipv6 d), ⟨t, ip, h1, h2, h3⟩ =>
          injection h1 with _ h1
          rw [h1, if_pos (by simp), List.dropLast_concat, (urlIpv6_iff _ _).2 h2, h3]
          rfl
    · next hc =>
      have hforb : ((c :: r).any fun c => forbiddenHost.contains c) = true ↔ ¬ ∀ d ∈ c :: r, d.toNat ≠ 0 ∧ d ∉ "\t\n\r #/:<>?@[\\]^|".toList := by
        have hz : ∀ d : Char, d = Char.ofNat 0 ↔ d.toNat = 0 := fun d =>
          ⟨fun h => by rw [h]; rfl, fun h => by have := Char.ofNat_toNat d; rw [h] at this; exact this.symm⟩
        rw [List.any_eq_true]
        simp only [Classical.not_forall, forbiddenHost, List.contains_iff_mem, List.mem_cons (b := Char.ofNat 0), hz,
          show "\t\n\r #/:<>?@[\\]^|".toList = ['\t', '\n', '\r', ' ', '#', '/', ':', '<', '>', '?', '@', '[', '\\', ']', '^', '|'] from rfl]
        constructor
        · rintro ⟨d, hd, h⟩
          exact ⟨d, hd, fun ⟨h1, h2⟩ => h.elim h1 h2⟩
        · rintro ⟨d, hd, h⟩
          refine ⟨d, hd, ?_⟩
          by_cases h1 : d.toNat = 0
          · exact .inl h1
          · exact .inr (Classical.byContradiction fun h2 => h ⟨h1, h2⟩)
      split
      · next hf =>
        rw [hforb] at hf
        constructor
        · intro h; cases h
        · intro h
          match host, h with
          | some (.domain d), h => exact absurd h.2.1 hf
          | some (.ipv6 d), ⟨t, ip, h1, _⟩ => injection h1 with h1 _; exact absurd h1 hc
      · next hf =>
        rw [hforb, Classical.not_not] at hf
        rw [percentEncode_escape not_control_iff]
        constructor
        · intro h; cases h; exact ⟨by simp, hf, rfl⟩
        · intro h
          match host, h with
          | some (.domain d), h => rw [h.2.2]
          | some (.ipv6 d), ⟨t, ip, h1, _⟩ => injection h1 with h1 _; exact absurd h1 hc

theorem splitHostPort_some (b : Bool) (t : Text) : ∀ {h p : Text}, splitHostPort b t = (h, some p) → t = h ++ ':' :: p := by
  induction t generalizing b with
  | nil => intro h p e; cases e
  | cons c r ih =>
    intro h p e
    rw [splitHostPort] at e
    split at e
    · next hc => cases e; rw [hc.1]; rfl
    · simp only [Prod.mk.injEq] at e
      obtain ⟨rfl, e⟩ := e
      rw [List.cons_append, ← ih _ (Prod.ext rfl e)]

theorem splitHostPort_none (b : Bool) (t : Text) : ∀ {h : Text}, splitHostPort b t = (h, none) → t = h := by
  induction t generalizing b with
  | nil => intro h e; cases e; rfl
  | cons c r ih =>
    intro h e
    rw [splitHostPort] at e
    split at e
    · cases e
    · simp only [Prod.mk.injEq] at e
      obtain ⟨rfl, e⟩ := e
      exact congrArg (c :: ·) (ih _ (Prod.ext rfl e))

theorem splitHostPort_bare {h : Text} (hn : ∀ c ∈ h, c ≠ '[' ∧ c ≠ ']' ∧ c ≠ ':') : splitHostPort false h = (h, none) := by
  induction h with
  | nil => rfl
  | cons c h ih =>
    obtain ⟨h1, h2, h3⟩ := hn c (by simp)
    rw [splitHostPort, if_neg (by simp [h3]), if_neg h1, if_neg h2]
    simp only
    rw [ih (fun d hd => hn d (by simp [hd]))]

theorem splitHostPort_closed {h : Text} (hn : ∀ c ∈ h, c ≠ '[' ∧ c ≠ ']') : splitHostPort true (h ++ [']']) = (h ++ [']'], none) := by
  induction h with
  | nil => simp [splitHostPort]
  | cons c h ih =>
    obtain ⟨h1, h2⟩ := hn c (by simp)
    rw [List.cons_append, splitHostPort, if_neg (by simp), if_neg h1, if_neg h2]
    simp only
    rw [ih (fun d hd => hn d (by simp [hd]))]

theorem splitHostPort_host {h : Text} {host : Option UrlHost} (hh : IsHost h host) :
    splitHostPort false h = (h, none) ∧ ∀ r, splitHostPort false (h ++ ':' :: r) = (h, some r) := by
  match host, hh with
  | none, hh =>
    have : h = [] := hh
    subst this
    exact ⟨rfl, fun r => by simp [splitHostPort]⟩
  | some (.domain d), ⟨_, hc, _⟩ =>
    have : ∀ c ∈ h, c ≠ '[' ∧ c ≠ ']' ∧ c ≠ ':' := by
      intro c hm
      have := (hc c hm).2
      refine ⟨?_, ?_, ?_⟩ <;> (rintro rfl; exact this (by decide))
    exact ⟨splitHostPort_bare this, fun r => splitHostPort_plain this r⟩
  | some (.ipv6 d), ⟨t, ip, h1, h2, _⟩ =>
    have hq : ∀ c ∈ t, c ≠ '[' ∧ c ≠ ']' := fun c hc => ⟨(ipv6_quiet h2 c hc).1, (ipv6_quiet h2 c hc).2.1⟩
    subst h1
    refine ⟨?_, fun r => ?_⟩
    · rw [splitHostPort, if_neg (by simp), if_pos rfl]
      simp only
      rw [splitHostPort_closed hq]
    · rw [List.cons_append, splitHostPort, if_neg (by simp), if_pos rfl, List.append_assoc]
      simp only
      rw [List.cons_append, List.nil_append, splitHostPort_inside hq]

theorem urlPort_iff (t : Text) (port : Option (BitVec 16)) : urlPort t = some port ↔ IsPort (':' :: t) port := by
  unfold urlPort
  split
  · next h =>
    subst h
    match port with
    | none => simp [IsPort]
    | some p => simp [IsPort]
  · next h0 =>
    have hf : t.foldl (fun r c => r * 10 + (c.toNat - 48)) 0 = ofDigits 10 (t.map digitValue) := foldl_digits 10 (fun c => c.toNat - 48) t
    simp only [hf]
    split
    · next hd =>
      have hd' : ∀ c ∈ t, c.isDigit = true := List.all_eq_true.1 hd
      split
      · next hlt =>
        match port with
        | none => simp [IsPort, h0]
        | some p =>
          simp only [Option.some.injEq]
          constructor
          · rintro rfl
            refine ⟨t, rfl, h0, hd', ?_⟩
            rw [BitVec.toNat_ofNat, Nat.mod_eq_of_lt hlt]
          · rintro ⟨ds, e, -, -, hv⟩
            injection e with _ e
            subst e
            rw [hv]
            simp
      · next hlt =>
        match port with
        | none => simp [IsPort, h0]
        | some p =>
          constructor
          · intro h; cases h
          · rintro ⟨ds, e, -, -, hv⟩
            injection e with _ e
            subst e
            exact absurd (hv ▸ p.isLt) hlt
    · next hd =>
      match port with
      | none => simp [IsPort, h0]
      | some p =>
        constructor
        · intro h; cases h
        · rintro ⟨ds, e, -, h, -⟩
          injection e with _ e
          subst e
          exact absurd (List.all_eq_true.2 h) hd

theorem afterLastAt_some {t r : Text} (h : afterLastAt t = some r) : ∃ user, t = user ++ r ∧ user.getLast? = some '@' ∧ '@' ∉ r := by
  unfold afterLastAt at h
  split at h
  · next hc =>
    injection h with h
    have hs := List.takeWhile_append_dropWhile (p := fun c => decide (c ≠ '@')) (l := t.reverse)
    have hmem : '@' ∈ t.reverse := by simpa using hc
    have hnr : '@' ∉ r := by
      rw [← h, List.mem_reverse]
      intro hm
      have := List.all_takeWhile (p := fun c => decide (c ≠ '@')) (l := t.reverse)
      rw [List.all_eq_true] at this
      simpa using this _ hm
    match hd : t.reverse.dropWhile (fun c => decide (c ≠ '@')) with
    | [] =>
      rw [hd, List.append_nil] at hs
      rw [← hs, ← List.mem_reverse, h] at hmem
      exact absurd hmem hnr
    | d :: ds =>
      have hda : d = '@' := by
        have := List.head?_dropWhile_not (fun c => decide (c ≠ '@')) t.reverse
        rw [hd] at this
        simpa using this
      rw [hd] at hs
      have ht := congrArg List.reverse hs
      rw [List.reverse_reverse, List.reverse_append, h] at ht
      exact ⟨(d :: ds).reverse, ht.symm, by rw [List.getLast?_reverse, hda]; rfl, hnr⟩
  · cases h

theorem afterLastAt_none {t : Text} (h : afterLastAt t = none) : '@' ∉ t := by
  unfold afterLastAt at h
  split at h
  · cases h
  · next hc => simpa using hc

theorem afterLastAt_user {user r : Text} (h1 : user.getLast? = some '@') (h2 : '@' ∉ r) : afterLastAt (user ++ r) = some r := by
  obtain ⟨x, rfl⟩ := List.getLast?_eq_some_iff.1 h1
  unfold afterLastAt
  rw [if_pos (by simp), List.reverse_append]
  have := takeWhile_stop (p := fun c => decide (c ≠ '@')) (t := r.reverse) (r := (x ++ ['@']).reverse)
    (fun c hc => by simp only [decide_eq_true_eq]; rintro rfl; exact h2 (by simpa using hc)) (by simp)
  rw [this.1, List.reverse_reverse]

theorem afterLastAt_bare {r : Text} (h2 : '@' ∉ r) : afterLastAt r = none := by
  unfold afterLastAt
  rw [if_neg (by simpa using h2)]

/-- Host and port, from the text behind the `@`. -/
def hostPort (hp : Text) : Option (Option UrlHost × Option (BitVec 16)) :=
  match splitHostPort false hp with
  | (host, none) => (opaqueHost host).map fun h => (h, none)
  | (host, some port) => if host.isEmpty then none else (opaqueHost host).bind fun h => (urlPort port).map fun p => (h, p)

theorem hostPort_iff (hp : Text) (host : Option UrlHost) (port : Option (BitVec 16)) :
    hostPort hp = some (host, port) ↔ ∃ h p, hp = h ++ p ∧ IsHost h host ∧ IsPort p port ∧ (h = [] → p = []) := by
  unfold hostPort
  constructor
  · intro e
    split at e
    · next h hs =>
      rw [Option.map_eq_some_iff] at e
      obtain ⟨x, hx, e⟩ := e
      cases e
      exact ⟨h, [], by rw [splitHostPort_none _ _ hs, List.append_nil], (opaqueHost_iff _ _).1 hx, .inl rfl, fun _ => rfl⟩
    · next h p hs =>
      split at e
      · cases e
      · next hne =>
        rw [Option.bind_eq_some_iff] at e
        obtain ⟨x, hx, e⟩ := e
        rw [Option.map_eq_some_iff] at e
        obtain ⟨y, hy, e⟩ := e
        cases e
        exact ⟨h, ':' :: p, splitHostPort_some _ _ hs, (opaqueHost_iff _ _).1 hx, (urlPort_iff _ _).1 hy,
          fun h0 => absurd (List.isEmpty_iff.2 h0) hne⟩
  · rintro ⟨h, p, rfl, hh, hp, h0⟩
    obtain ⟨s1, s2⟩ := splitHostPort_host hh
    have hcase : p = [] ∧ port = none ∨ ∃ r, p = ':' :: r := by
      match port, hp with
      | none, .inl h => exact .inl ⟨h, rfl⟩
      | none, .inr h => exact .inr ⟨[], h⟩
      | some q, ⟨ds, h, _⟩ => exact .inr ⟨ds, h⟩
    rcases hcase with ⟨rfl, rfl⟩ | ⟨r, rfl⟩
    · rw [List.append_nil, s1]
      simp only [(opaqueHost_iff _ _).2 hh, Option.map_some]
    · rw [s2]
      have hne : h.isEmpty = false := by
        cases h with
        | nil => cases h0 rfl
        | cons => rfl
      simp only [hne, Bool.false_eq_true, if_false, (opaqueHost_iff _ _).2 hh, Option.bind_some, (urlPort_iff _ _).2 hp, Option.map_some]

theorem urlAuthority_iff (a : Text) (host : Option UrlHost) (port : Option (BitVec 16)) :
    urlAuthority a = some (host, port) ↔ IsAuthority a host port := by
  have hunf : urlAuthority a = if (afterLastAt a).isSome && ((afterLastAt a).getD a).isEmpty then none
      else hostPort ((afterLastAt a).getD a) := rfl
  rw [hunf]
  constructor
  · intro e
    split at e
    · cases e
    · next hne =>
      obtain ⟨h, p, hhp, hh, hp, h0⟩ := (hostPort_iff _ _ _).1 e
      match hat : afterLastAt a with
      | none =>
        rw [hat] at hhp
        refine ⟨[], h, p, by simpa using hhp, .inl rfl, ?_, hh, hp, fun hn => ⟨rfl, h0 hn⟩⟩
        have := afterLastAt_none hat
        rw [← hhp]
        exact this
      | some r =>
        rw [hat] at hhp hne
        simp only [Option.getD_some] at hhp hne
        obtain ⟨user, h1, h2, h3⟩ := afterLastAt_some hat
        refine ⟨user, h, p, by rw [h1, hhp, List.append_assoc], .inr h2, by rw [← hhp]; exact h3, hh, hp, fun hn => ?_⟩
        rw [hhp, hn, h0 hn] at hne
        simp at hne
  · rintro ⟨user, h, p, rfl, hu, hat, hh, hp, h0⟩
    have hhp : hostPort (h ++ p) = some (host, port) := (hostPort_iff _ _ _).2 ⟨h, p, rfl, hh, hp, fun hn => (h0 hn).2⟩
    rcases hu with rfl | hu
    · rw [List.nil_append, afterLastAt_bare hat]
      simpa using hhp
    · rw [List.append_assoc, afterLastAt_user hu hat]
      have hne : (h ++ p).isEmpty = false := by
        cases h with
        | nil => rw [(h0 rfl).1] at hu; cases hu
        | cons => rfl
      simpa [hne] using hhp

/-! ### Query and fragment -/

theorem tail_head {t : Text} {q f : Option Text} (h : IsTail t q f) : ∀ c ∈ t.head?, c = '?' ∨ c = '#' := by
  obtain ⟨a, b, rfl, ha, hb⟩ := h
  intro c hc
  rcases ha with ⟨rfl, -⟩ | ⟨q', rfl, -⟩
  · rcases hb with ⟨rfl, -⟩ | ⟨f', rfl, -⟩
    · cases hc
    · cases hc; exact .inr rfl
  · cases hc; exact .inl rfl

theorem tail_iff {t : Text} (ht : ∀ c ∈ t.head?, c = '?' ∨ c = '#') (q f : Option Text) :
    IsTail t q f ↔ queryAndFragment t = (q, f) := by
  constructor
  · rintro ⟨a, b, rfl, ha, hb⟩
    rcases ha with ⟨rfl, rfl⟩ | ⟨q', rfl, hq, rfl⟩
    · rcases hb with ⟨rfl, rfl⟩ | ⟨f', rfl, rfl⟩
      · rfl
      · rw [List.nil_append, queryAndFragment, if_neg (by decide), percentEncode_escape not_fragment_iff]
    · have hb' : ∀ c ∈ b.head?, (decide (c ≠ '#')) = false := by
        intro c hc
        rcases hb with ⟨rfl, -⟩ | ⟨f', rfl, -⟩
        · cases hc
        · cases hc; decide
      obtain ⟨t1, t2⟩ := takeWhile_stop (p := fun c => decide (c ≠ '#')) (t := q') (r := b)
        (fun c hc => by simp only [decide_eq_true_eq]; rintro rfl; exact hq hc) hb'
      rw [List.cons_append, queryAndFragment, if_pos rfl, t1, t2, percentEncode_escape not_query_iff]
      rcases hb with ⟨rfl, rfl⟩ | ⟨f', rfl, rfl⟩
      · rfl
      · simp only [percentEncode_escape not_fragment_iff]
  · intro h
    match t with
    | [] => cases h; exact ⟨[], [], rfl, .inl ⟨rfl, rfl⟩, .inl ⟨rfl, rfl⟩⟩
    | c :: r =>
      rw [queryAndFragment] at h
      split at h
      · next hc =>
        subst hc
        have hs := List.takeWhile_append_dropWhile (p := fun c => decide (c ≠ '#')) (l := r)
        have hn : '#' ∉ r.takeWhile (fun c => decide (c ≠ '#')) := by
          intro hm
          have := List.all_takeWhile (p := fun c => decide (c ≠ '#')) (l := r)
          rw [List.all_eq_true] at this
          simpa using this _ hm
        rw [percentEncode_escape not_query_iff] at h
        match hd : r.dropWhile (fun c => decide (c ≠ '#')) with
        | [] =>
          rw [hd] at h hs
          cases h
          exact ⟨'?' :: r.takeWhile _, [], by rw [List.cons_append, hs], .inr ⟨_, rfl, hn, rfl⟩, .inl ⟨rfl, rfl⟩⟩
        | d :: f' =>
          have hda : d = '#' := by
            have := List.head?_dropWhile_not (fun c => decide (c ≠ '#')) r
            rw [hd] at this
            simpa using this
          rw [hd] at h hs
          simp only [percentEncode_escape not_fragment_iff] at h
          cases h
          exact ⟨'?' :: r.takeWhile _, d :: f', by rw [List.cons_append, hs], .inr ⟨_, rfl, hn, rfl⟩, .inr ⟨f', by rw [hda], rfl⟩⟩
      · next hc =>
        have hc' : c = '#' := (ht c rfl).resolve_left hc
        rw [percentEncode_escape not_fragment_iff] at h
        cases h
        exact ⟨[], c :: r, rfl, .inl ⟨rfl, rfl⟩, .inr ⟨r, by rw [hc'], rfl⟩⟩

theorem notPathEnd_iff (c : Char) : notPathEnd c = true ↔ c ≠ '?' ∧ c ≠ '#' := by simp [notPathEnd]

theorem notPathEnd_all {t : Text} (h : '?' ∉ t ∧ '#' ∉ t) : ∀ c ∈ t, notPathEnd c = true := by
  intro c hc
  rw [notPathEnd_iff]
  exact ⟨fun e => h.1 (e ▸ hc), fun e => h.2 (e ▸ hc)⟩

/-- Every text is a part without `?` and `#`, and what follows. -/
theorem cut_pathEnd (t : Text) : '?' ∉ t.takeWhile notPathEnd ∧ '#' ∉ t.takeWhile notPathEnd ∧
    ∀ c ∈ (t.dropWhile notPathEnd).head?, c = '?' ∨ c = '#' := by
  have h := List.all_takeWhile (p := notPathEnd) (l := t)
  rw [List.all_eq_true] at h
  refine ⟨fun hm => ((notPathEnd_iff _).1 (h _ hm)).1 rfl, fun hm => ((notPathEnd_iff _).1 (h _ hm)).2 rfl, ?_⟩
  intro c hc
  have := List.head?_dropWhile_not notPathEnd t
  have hc' : (t.dropWhile notPathEnd).head? = some c := hc
  rw [hc'] at this
  simp only at this
  apply Classical.byContradiction
  intro hne
  rw [not_or] at hne
  rw [(notPathEnd_iff c).2 hne] at this
  cases this

/-! ### The whole -/

/-- The three forms of what follows the scheme. -/
theorem urlRest_authority (caret : Bool) (sch r : Text) : urlRest caret sch ('/' :: '/' :: r) =
    (urlAuthority (r.takeWhile fun c => c ≠ '/' ∧ c ≠ '?' ∧ c ≠ '#')).map fun hp =>
      ⟨sch, hp.1, hp.2, pathStart caret ((r.dropWhile fun c => c ≠ '/' ∧ c ≠ '?' ∧ c ≠ '#').takeWhile notPathEnd),
        (queryAndFragment ((r.dropWhile fun c => c ≠ '/' ∧ c ≠ '?' ∧ c ≠ '#').dropWhile notPathEnd)).1,
        (queryAndFragment ((r.dropWhile fun c => c ≠ '/' ∧ c ≠ '?' ∧ c ≠ '#').dropWhile notPathEnd)).2, []⟩ := rfl

theorem urlRest_slash (caret : Bool) (sch r : Text) (h : r.head? ≠ some '/') : urlRest caret sch ('/' :: r) =
    some ⟨sch, none, none, slashPath caret (r.takeWhile notPathEnd), (queryAndFragment (r.dropWhile notPathEnd)).1,
        (queryAndFragment (r.dropWhile notPathEnd)).2, []⟩ := by
  unfold urlRest
  split
  · next e =>
    cases e
    exact absurd rfl h
  · next e => cases e; rfl
  · next h1 h2 => exact absurd rfl (h2 r)

theorem urlRest_opaque (caret : Bool) (sch r : Text) (h : r.head? ≠ some '/') : urlRest caret sch r =
    some ⟨sch, none, none, percentEncode controlSet (r.takeWhile notPathEnd), (queryAndFragment (r.dropWhile notPathEnd)).1,
        (queryAndFragment (r.dropWhile notPathEnd)).2, []⟩ := by
  unfold urlRest
  split
  · exact absurd rfl h
  · exact absurd rfl h
  · rfl

theorem url_eta (u : Url) (sch : Text) (host : Option UrlHost) (port : Option (BitVec 16)) (path : Text) (t : Text) :
    (⟨sch, host, port, path, (queryAndFragment t).1, (queryAndFragment t).2, []⟩ : Url) = u ↔
      (u.scheme = sch ∧ u.auth = []) ∧ u.host = host ∧ u.port = port ∧ u.path = path ∧ queryAndFragment t = (u.query, u.fragment) := by
  obtain ⟨a, b, c, d, e, f, g⟩ := u
  simp only [Url.mk.injEq, Prod.ext_iff]
  constructor
  · rintro ⟨rfl, rfl, rfl, rfl, rfl, rfl, rfl⟩; exact ⟨⟨rfl, rfl⟩, rfl, rfl, rfl, rfl, rfl⟩
  · rintro ⟨⟨rfl, rfl⟩, rfl, rfl, rfl, rfl, rfl⟩; exact ⟨rfl, rfl, rfl, rfl, rfl, rfl, rfl⟩

/-- What is between the scheme and the query. -/
def Hier (caret : Bool) (sch rest : Text) (u : Url) : Prop :=
  ∃ hier tail, rest = hier ++ tail ∧ (u.scheme = sch ∧ u.auth = []) ∧ ('?' ∉ hier ∧ '#' ∉ hier) ∧ IsHierarchy caret hier u.host u.port u.path ∧
    IsTail tail u.query u.fragment

theorem urlRest_iff (caret : Bool) (sch rest : Text) (u : Url) : urlRest caret sch rest = some u ↔ Hier caret sch rest u := by
  have hslash : notPathEnd '/' = true := by decide
  constructor
  · intro e
    by_cases hs : rest.head? = some '/'
    · match rest, hs with
      | c :: r, hs =>
        cases hs
        by_cases hs2 : r.head? = some '/'
        · match r, hs2 with
          | c :: r, hs2 =>
            cases hs2
            rw [urlRest_authority, Option.map_eq_some_iff] at e
            obtain ⟨⟨host, port⟩, ha, e⟩ := e
            rw [url_eta] at e
            obtain ⟨e1, e2, e3, e4, e5⟩ := e
            have hc := List.takeWhile_append_dropWhile (p := fun c => decide (c ≠ '/' ∧ c ≠ '?' ∧ c ≠ '#')) (l := r)
            have hall := List.all_takeWhile (p := fun c => decide (c ≠ '/' ∧ c ≠ '?' ∧ c ≠ '#')) (l := r)
            rw [List.all_eq_true] at hall
            simp only [decide_eq_true_eq] at hall
            have hhead := List.head?_dropWhile_not (fun c => decide (c ≠ '/' ∧ c ≠ '?' ∧ c ≠ '#')) r
            generalize hA : r.takeWhile (fun c => decide (c ≠ '/' ∧ c ≠ '?' ∧ c ≠ '#')) = A at *
            generalize hR : r.dropWhile (fun c => decide (c ≠ '/' ∧ c ≠ '?' ∧ c ≠ '#')) = R at *
            obtain ⟨k1, k2, k3⟩ := cut_pathEnd R
            have hpp : R.takeWhile notPathEnd = [] ∨ (R.takeWhile notPathEnd).head? = some '/' := by
              match R, hhead with
              | [], _ => exact .inl rfl
              | d :: R, hhead =>
                simp only [List.head?_cons, decide_eq_false_iff_not] at hhead
                by_cases hd : d = '/'
                · subst hd
                  right
                  rw [List.takeWhile_cons, if_pos hslash]
                  rfl
                · left
                  rw [List.takeWhile_cons, if_neg]
                  rw [notPathEnd_iff]
                  exact fun h => hhead ⟨hd, h.1, h.2⟩
            refine ⟨'/' :: '/' :: (A ++ R.takeWhile notPathEnd), R.dropWhile notPathEnd, ?_, e1, ⟨?_, ?_⟩, ?_, ?_⟩
            · rw [List.cons_append, List.cons_append, List.append_assoc, List.takeWhile_append_dropWhile, hc]
            · simp only [List.mem_cons, List.mem_append, not_or]
              exact ⟨by decide, by decide, fun hm => (hall _ hm).2.1 rfl, k1⟩
            · simp only [List.mem_cons, List.mem_append, not_or]
              exact ⟨by decide, by decide, fun hm => (hall _ hm).2.2 rfl, k2⟩
            · refine .inl ⟨A, R.takeWhile notPathEnd, rfl, fun hm => (hall _ hm).1 rfl, ?_, ?_⟩
              · rw [e2, e3]; exact (urlAuthority_iff _ _ _).1 ha
              · exact (pathStart_iff _ hpp _).2 e4.symm
            · exact (tail_iff k3 _ _).2 e5
        · rw [urlRest_slash _ _ _ hs2, Option.some.injEq, url_eta] at e
          obtain ⟨e1, e2, e3, e4, e5⟩ := e
          obtain ⟨k1, k2, k3⟩ := cut_pathEnd r
          refine ⟨'/' :: r.takeWhile notPathEnd, r.dropWhile notPathEnd, ?_, e1, ⟨?_, ?_⟩, .inr (.inl ⟨rfl, ?_, e2, e3, ?_⟩), ?_⟩
          · rw [List.cons_append, List.takeWhile_append_dropWhile]
          · simp only [List.mem_cons, not_or]; exact ⟨by decide, k1⟩
          · simp only [List.mem_cons, not_or]; exact ⟨by decide, k2⟩
          · intro h
            apply hs2
            have h' : (r.takeWhile notPathEnd).take 1 = ['/'] := by injection h
            cases r with
            | nil => cases h'
            | cons d r =>
              rw [List.takeWhile_cons] at h'
              split at h'
              · injection h' with h' _; rw [h']; rfl
              · cases h'
          · exact (slashPath_iff _ _ _).2 e4.symm
          · exact (tail_iff k3 _ _).2 e5
    · rw [urlRest_opaque _ _ _ hs, Option.some.injEq, url_eta] at e
      obtain ⟨e1, e2, e3, e4, e5⟩ := e
      obtain ⟨k1, k2, k3⟩ := cut_pathEnd rest
      refine ⟨rest.takeWhile notPathEnd, rest.dropWhile notPathEnd, List.takeWhile_append_dropWhile.symm, e1, ⟨k1, k2⟩,
        .inr (.inr ⟨?_, e2, e3, ?_⟩), (tail_iff k3 _ _).2 e5⟩
      · intro h
        apply hs
        cases rest with
        | nil => cases h
        | cons d r =>
          rw [List.takeWhile_cons] at h
          split at h
          · exact h
          · cases h
      · rw [e4, percentEncode_escape not_control_iff]
  · rintro ⟨hier, tail, rfl, e1, hq, hh, ht⟩
    have hth := tail_head ht
    have e5 := (tail_iff hth _ _).1 ht
    have hend : ∀ c ∈ tail.head?, notPathEnd c = false := by
      intro c hc
      rcases hth c hc with rfl | rfl <;> decide
    rcases hh with ⟨a, p, rfl, ha, hau, hp⟩ | ⟨h1, h2, e2, e3, hp⟩ | ⟨h1, e2, e3, e4⟩
    · have hp0 := slashPath_head hp
      rw [List.cons_append, List.cons_append, urlRest_authority, Option.map_eq_some_iff]
      have hcut := takeWhile_stop (p := fun c => decide (c ≠ '/' ∧ c ≠ '?' ∧ c ≠ '#')) (t := a) (r := p ++ tail)
        (fun c hc => by
          simp only [decide_eq_true_eq]
          refine ⟨fun e => ha (e ▸ hc), ?_, ?_⟩
          · rintro rfl; exact hq.1 (by simp [hc])
          · rintro rfl; exact hq.2 (by simp [hc]))
        (by
          intro c hc
          rcases hp0 with rfl | hp0
          · rw [List.nil_append] at hc
            rcases hth c hc with rfl | rfl <;> decide
          · rw [List.head?_append, hp0] at hc
            cases hc
            decide)
      have hpe := takeWhile_stop (p := notPathEnd) (t := p) (r := tail)
        (notPathEnd_all ⟨fun hm => hq.1 (by simp [hm]), fun hm => hq.2 (by simp [hm])⟩) hend
      refine ⟨(u.host, u.port), ?_, ?_⟩
      · rw [List.append_assoc, hcut.1]
        exact (urlAuthority_iff _ _ _).2 hau
      · rw [url_eta, List.append_assoc, hcut.2, hpe.1, hpe.2]
        exact ⟨e1, rfl, rfl, ((pathStart_iff _ hp0 _).1 hp).symm, e5⟩
    · match hier, h1 with
      | c :: r, h1 =>
        cases h1
        have hpe := takeWhile_stop (p := notPathEnd) (t := r) (r := tail)
          (notPathEnd_all ⟨fun hm => hq.1 (by simp [hm]), fun hm => hq.2 (by simp [hm])⟩) hend
        have hr : (r ++ tail).head? ≠ some '/' := by
          cases r with
          | nil =>
            intro h
            rcases hth '/' h with h | h <;> cases h
          | cons d r =>
            intro h
            apply h2
            cases h
            rfl
        rw [List.cons_append, urlRest_slash _ _ _ hr, Option.some.injEq, url_eta, hpe.1, hpe.2]
        exact ⟨e1, e2, e3, ((slashPath_iff _ _ _).1 hp).symm, e5⟩
    · have hpe := takeWhile_stop (p := notPathEnd) (t := hier) (r := tail) (notPathEnd_all hq) hend
      have hr : (hier ++ tail).head? ≠ some '/' := by
        cases hier with
        | nil =>
          intro h
          rcases hth '/' h with h | h <;> cases h
        | cons d r => exact h1
      rw [urlRest_opaque _ _ _ hr, Option.some.injEq, url_eta, hpe.1, hpe.2]
      exact ⟨e1, e2, e3, by rw [e4, percentEncode_escape not_control_iff], e5⟩

theorem isScheme_iff (sch : Text) : IsScheme sch ↔ (∀ c ∈ sch, schemeChar c = true) ∧ ∃ c r, sch = c :: r ∧ c.isAlpha = true := by
  have hc : ∀ d : Char, schemeChar d = true ↔ d.isAlpha = true ∨ d.isDigit = true ∨ d = '+' ∨ d = '-' ∨ d = '.' := by
    intro d
    simp [schemeChar, Char.isAlphanum, or_assoc]
  constructor
  · rintro ⟨c, r, rfl, h1, h2⟩
    refine ⟨fun d hd => ?_, c, r, rfl, h1⟩
    rw [hc]
    rcases List.mem_cons.1 hd with rfl | hd
    · exact .inl h1
    · exact h2 d hd
  · rintro ⟨h1, c, r, rfl, h2⟩
    exact ⟨c, r, rfl, h2, fun d hd => (hc d).1 (h1 d (by simp [hd]))⟩

theorem splitScheme_iff (s sch rest : Text) : splitScheme s = some (sch, rest) ↔
    ∃ a, s = a ++ ':' :: rest ∧ IsScheme a ∧ a.map Char.toLower = sch := by
  constructor
  · intro h
    match s, h with
    | c :: r, h =>
      rw [splitScheme] at h
      split at h
      · next hal =>
        have hs := List.takeWhile_append_dropWhile (p := schemeChar) (l := c :: r)
        have hall := List.all_takeWhile (p := schemeChar) (l := c :: r)
        rw [List.all_eq_true] at hall
        split at h
        · next d rest' hd =>
          split at h
          · next hcol =>
            cases h
            rw [hd, hcol] at hs
            refine ⟨_, hs.symm, (isScheme_iff _).2 ⟨hall, c, r.takeWhile schemeChar, ?_, hal⟩, rfl⟩
            rw [List.takeWhile_cons, if_pos]
            simp [schemeChar, Char.isAlphanum, hal]
          · cases h
        · cases h
      · cases h
  · rintro ⟨a, rfl, ha, rfl⟩
    obtain ⟨h1, h2⟩ := (isScheme_iff a).1 ha
    exact splitScheme_of h1 h2

theorem stripped_iff (s t : Text) : Stripped s t ↔ urlInput s = t :=
  ⟨urlInput_stripped, fun h => h ▸ stripped_exists s⟩

theorem special_iff (sch : Text) : specialSchemes.contains sch = true ↔ SpecialScheme sch := by
  simp only [specialSchemes, SpecialScheme, List.contains_iff_mem, List.mem_cons, List.not_mem_nil, or_false]

/-- **C48.** Which texts are URLs with a scheme that is not special, and what they denote. -/
theorem url_iff (env : UrlEnv) (s : Text) (u : Url) (hu : ¬ SpecialScheme u.scheme) :
    urlParse env s = some u ↔ IsUrl env.caret s u := by
  unfold urlParse
  rw [Option.bind_eq_some_iff]
  constructor
  · rintro ⟨⟨sch, rest⟩, hs, e⟩
    obtain ⟨a, h1, h2, h3⟩ := (splitScheme_iff _ _ _).1 hs
    simp only at e
    split at e
    · next hc =>
      rw [← specialRest_scheme e] at hc
      exact absurd ((special_iff _).1 hc) hu
    · obtain ⟨hier, tail, h4, ⟨h5, h9⟩, h6, h7, h8⟩ := (urlRest_iff _ _ _ _).1 e
      refine ⟨a, hier, tail, ?_, h2, by rw [h5, h3], h6, h7, h8, h9⟩
      rw [stripped_iff, h1, h4]
      simp
  · rintro ⟨sch, hier, tail, hs, h2, h3, h6, h7, h8, h9⟩
    refine ⟨(sch.map Char.toLower, hier ++ tail), ?_, ?_⟩
    · rw [(stripped_iff _ _).1 hs]
      exact (splitScheme_iff _ _ _).2 ⟨sch, by simp, h2, rfl⟩
    · simp only
      rw [if_neg (by rw [← h3, special_iff]; exact hu)]
      exact (urlRest_iff _ _ _ _).2 ⟨hier, tail, rfl, ⟨h3, h9⟩, h6, h7, h8⟩

/-- **C48.** Texts whose scheme is special are read as the URL Standard has it for these, and keep their scheme. -/
theorem url_special_iff (env : UrlEnv) (s : Text) (u : Url) (hu : SpecialScheme u.scheme) :
    urlParse env s = some u ↔ ∃ sch rest, Stripped s (sch ++ [':'] ++ rest) ∧ IsScheme sch ∧
      specialRest env (sch.map Char.toLower) rest = some u := by
  unfold urlParse
  rw [Option.bind_eq_some_iff]
  constructor
  · rintro ⟨⟨sch, rest⟩, hs, e⟩
    obtain ⟨a, h1, h2, h3⟩ := (splitScheme_iff _ _ _).1 hs
    simp only at e
    split at e
    · refine ⟨a, rest, ?_, h2, by rw [h3]; exact e⟩
      rw [stripped_iff, h1]
      simp
    · next hc =>
      rw [(urlRest_plain e).1] at hu
      exact absurd ((special_iff _).2 hu) hc
  · rintro ⟨sch, rest, hs, h2, hv⟩
    refine ⟨(sch.map Char.toLower, rest), ?_, ?_⟩
    · rw [(stripped_iff _ _).1 hs]
      exact (splitScheme_iff _ _ _).2 ⟨sch, by simp, h2, rfl⟩
    · simp only
      rw [if_pos ((special_iff _).2 (specialRest_scheme hv ▸ hu)), hv]

theorem scheme_of_lower {sch low : Text} (h : sch.map Char.toLower = low) (hne : low ≠ []) (hl : ∀ d ∈ low, 97 ≤ d.toNat ∧ d.toNat ≤ 122) :
    IsScheme sch := by
  have ha : ∀ c ∈ sch, c.isAlpha = true := by
    intro c hc
    exact lower_alpha rfl (hl _ (h ▸ List.mem_map_of_mem hc))
  match sch, h with
  | [], h => exact absurd h.symm hne
  | c :: r, _ => exact ⟨c, r, rfl, ha c (by simp), fun d hd => .inl (ha d (by simp [hd]))⟩

/-- **C48.** Exactly these texts are read as UDP trackers, with the host, the port, and the path and query that they show. -/
theorem udp_tracker_iff (env : UrlEnv) (s : Text) (u : UdpUrl) :
    Tracker.parse (urlParse env) s = .ok (.udp u) ↔ IsUdpText env.caret s u := by
  have hns : ¬ SpecialScheme "udp".toList := by decide
  rw [tracker_parse]
  constructor
  · rintro ⟨v, e, ⟨-, -, hv⟩ | ⟨w, hw, hv⟩⟩
    · cases hv
    · cases hv
      obtain ⟨hs, host, hh, h1, h2, h3⟩ := (udpUrl_ofUrl v u).1 hw
      obtain ⟨sch, hier, tail, k1, k2, k3, k4, k5, k6, -⟩ := (url_iff env s v (hs ▸ hns)).1 e
      rw [hh] at k5
      rcases k5 with ⟨a, p, rfl, m1, ⟨user, h, pt, rfl, n1, n2, n3, n4, n5⟩, m3⟩ | ⟨-, -, m, -⟩ | ⟨-, m, -⟩
      · obtain ⟨q, f, rfl, hq, hf⟩ := k6
        refine ⟨sch, user, h, pt, p, q, f, ?_, by rw [← k3, hs], ?_, n1, n2, ?_, by rw [← h2]; exact n4, ?_, ?_, ?_, v.path, m3, ?_⟩
        · simpa [show "://".toList = [':', '/', '/'] from rfl] using k1
        · intro c hc
          refine ⟨fun e => m1 (e ▸ hc), fun e => ?_, fun e => ?_⟩
          · subst e; exact k4.1 (List.mem_cons_of_mem _ (List.mem_cons_of_mem _ (List.mem_append_left _ hc)))
          · subst e; exact k4.2 (List.mem_cons_of_mem _ (List.mem_cons_of_mem _ (List.mem_append_left _ hc)))
        · match host, n3 with
          | .domain d, n3 => left; rw [h1]; exact n3
          | .ipv6 d, n3 => right; rw [h1]; exact n3
        · exact ⟨fun hm => k4.1 (List.mem_cons_of_mem _ (List.mem_cons_of_mem _ (List.mem_append_right _ hm))),
            fun hm => k4.2 (List.mem_cons_of_mem _ (List.mem_cons_of_mem _ (List.mem_append_right _ hm)))⟩
        · rcases hq with ⟨rfl, -⟩ | ⟨q', rfl, hq', -⟩
          · simp
          · simp [hq']
        · rcases hf with ⟨rfl, -⟩ | ⟨f', rfl, -⟩
          · exact .inl rfl
          · exact .inr rfl
        · rw [h3]
          unfold pathAndQuery
          rcases hq with ⟨rfl, hq⟩ | ⟨q', rfl, -, hq⟩
          · exact .inl ⟨rfl, by rw [hq]⟩
          · exact .inr ⟨q', rfl, by rw [hq]; simp⟩
      · cases m
      · cases m
  · rintro ⟨sch, user, h, pt, p, q, f, k1, k2, k3, n1, n2, n3, n4, k4, k5, k6, path', m3, hq⟩
    have hsch : IsScheme sch := scheme_of_lower k2 (by decide) (by decide)
    have key : ∀ host, IsHost h (some host) → hostText host = u.host → h ≠ [] →
        ∃ v, urlParse env s = some v ∧ UdpUrl.ofUrl v = .ok u := by
      intro host hh ht hne
      refine ⟨⟨"udp".toList, some host, some u.port, path', if q = [] then none else some (escapeUnless KeptInQuery (q.drop 1)),
        if f = [] then none else some (escapeUnless KeptInFragment (f.drop 1)), []⟩, ?_, ?_⟩
      · refine (url_iff env s _ hns).2 ⟨sch, '/' :: '/' :: (user ++ h ++ pt ++ p), q ++ f, ?_, hsch, k2.symm, ⟨?_, ?_⟩,
          .inl ⟨_, p, rfl, fun hm => (k3 _ hm).1 rfl, ⟨user, h, pt, rfl, n1, n2, hh, n4, fun e => absurd e hne⟩, m3⟩, ⟨q, f, rfl, ?_, ?_⟩, rfl⟩
        · simpa [show "://".toList = [':', '/', '/'] from rfl] using k1
        · intro hm
          simp only [List.mem_cons] at hm
          rcases hm with hm | hm | hm
          · cases hm
          · cases hm
          · rcases List.mem_append.1 hm with hm | hm
            · exact (k3 _ hm).2.1 rfl
            · exact k4.1 hm
        · intro hm
          simp only [List.mem_cons] at hm
          rcases hm with hm | hm | hm
          · cases hm
          · cases hm
          · rcases List.mem_append.1 hm with hm | hm
            · exact (k3 _ hm).2.2 rfl
            · exact k4.2 hm
        · rcases hq with ⟨rfl, -⟩ | ⟨q', rfl, -⟩
          · exact .inl ⟨rfl, rfl⟩
          · exact .inr ⟨q', rfl, fun hm => k5 (by simp [hm]), rfl⟩
        · rcases k6 with rfl | k6
          · exact .inl ⟨rfl, rfl⟩
          · match f, k6 with
            | c :: f', k6 => cases k6; exact .inr ⟨f', rfl, rfl⟩
      · rw [udpUrl_ofUrl]
        refine ⟨rfl, host, rfl, ht.symm, rfl, ?_⟩
        unfold pathAndQuery
        rcases hq with ⟨rfl, hq⟩ | ⟨q', rfl, hq⟩
        · rw [hq]; simp
        · rw [hq]; simp
    have : ∃ v, urlParse env s = some v ∧ UdpUrl.ofUrl v = .ok u := by
      rcases n3 with n3 | n3
      · exact key _ n3 rfl n3.1
      · refine key _ n3 rfl ?_
        obtain ⟨t, ip, e, -⟩ := n3
        rw [e]
        simp
    obtain ⟨v, h1, h2⟩ := this
    exact ⟨v, h1, .inr ⟨u, h2, rfl⟩⟩

/-- A URL with a query is read from every text of this form. -/
theorem magnetUrl_iff (env : UrlEnv) (s q : Text) :
    (∃ u, urlParse env s = some u ∧ u.scheme = "magnet".toList ∧ u.query = some (escapeUnless KeptInQuery q)) ↔
      ∃ q', escapeUnless KeptInQuery q' = escapeUnless KeptInQuery q ∧ IsMagnetUrl s q' := by
  have hns : ¬ SpecialScheme "magnet".toList := by decide
  constructor
  · rintro ⟨u, e, hs, hq⟩
    obtain ⟨sch, hier, tail, k1, k2, k3, k4, k5, ⟨a, b, rfl, ha, hb⟩, -⟩ := (url_iff env s u (hs ▸ hns)).1 e
    rcases ha with ⟨-, ha⟩ | ⟨q', rfl, hq', ha⟩
    · rw [ha] at hq; cases hq
    · rw [ha, Option.some.injEq] at hq
      refine ⟨q', hq, sch, hier, b, by simpa using k1, by rw [← k3, hs], k4, hq', ?_, ?_⟩
      · rcases hb with ⟨rfl, -⟩ | ⟨f', rfl, -⟩
        · exact .inl rfl
        · exact .inr rfl
      · rintro r rfl
        rcases k5 with ⟨a, p, e, m1, m2, m3⟩ | ⟨-, m, -⟩ | ⟨m, -⟩
        · injection e with _ e
          injection e with _ e
          have hp := slashPath_head m3
          have := takeWhile_stop (p := fun c => decide (c ≠ '/')) (t := a) (r := p)
            (fun c hc => by simp only [decide_eq_true_eq]; rintro rfl; exact m1 hc)
            (by
              intro c hc
              rcases hp with rfl | hp
              · cases hc
              · rw [hp] at hc; cases hc; decide)
          rw [e, this.1]
          exact ⟨_, _, m2⟩
        · exact absurd rfl m
        · exact absurd rfl m
  · rintro ⟨q', hqq, sch, hier, frag, k1, k2, k3, k4, k5, k6⟩
    have hsch : IsScheme sch := scheme_of_lower k2 (by decide) (by decide)
    have build : ∀ host port path, IsHierarchy env.caret hier host port path →
        ∃ u, urlParse env s = some u ∧ u.scheme = "magnet".toList ∧ u.query = some (escapeUnless KeptInQuery q) := by
      intro host port path hh
      refine ⟨⟨"magnet".toList, host, port, path, some (escapeUnless KeptInQuery q'),
        if frag = [] then none else some (escapeUnless KeptInFragment (frag.drop 1)), []⟩, ?_, rfl, by rw [hqq]⟩
      refine (url_iff env s _ hns).2 ⟨sch, hier, '?' :: q' ++ frag, by simpa using k1, hsch, k2.symm, k3, hh,
        ⟨'?' :: q', frag, rfl, .inr ⟨q', rfl, k4, rfl⟩, ?_⟩, rfl⟩
      rcases k5 with rfl | k5
      · exact .inl ⟨rfl, rfl⟩
      · match frag, k5 with
        | c :: f', k5 => cases k5; exact .inr ⟨f', rfl, rfl⟩
    by_cases h1 : hier.head? = some '/'
    · match hier, h1 with
      | c :: r, h1 =>
        cases h1
        by_cases h2 : r.head? = some '/'
        · match r, h2 with
          | c :: r, h2 =>
            cases h2
            obtain ⟨host, port, ha⟩ := k6 r rfl
            have hc := List.takeWhile_append_dropWhile (p := fun c => decide (c ≠ '/')) (l := r)
            have hall := List.all_takeWhile (p := fun c => decide (c ≠ '/')) (l := r)
            rw [List.all_eq_true] at hall
            refine build host port (pathStart env.caret (r.dropWhile fun c => decide (c ≠ '/')))
              (.inl ⟨_, r.dropWhile fun c => decide (c ≠ '/'), by rw [hc], ?_, ha, ?_⟩)
            · intro hm
              simpa using hall _ hm
            · refine (pathStart_iff _ ?_ _).2 rfl
              have := List.head?_dropWhile_not (fun c => decide (c ≠ '/')) r
              match hd : r.dropWhile (fun c => decide (c ≠ '/')) with
              | [] => exact .inl rfl
              | d :: ds =>
                rw [hd] at this
                simp only [List.head?_cons, decide_eq_false_iff_not, Classical.not_not] at this
                right
                rw [this]
                rfl
        · refine build none none (slashPath env.caret r) (.inr (.inl ⟨rfl, ?_, rfl, rfl, (slashPath_iff _ _ _).2 rfl⟩))
          intro h
          apply h2
          injection h with _ h
          cases r with
          | nil => cases h
          | cons d r => injection h with h _; rw [h]; rfl
    · exact build none none _ (.inr (.inr ⟨h1, rfl, rfl, rfl⟩))

/-- **C18.** Exactly these texts are read as magnet links: URLs with the scheme `magnet` and a query that describes one. -/
theorem magnet_iff (env : UrlEnv) (lossy : Bytes → Text) (s : Text) (m : Magnet) :
    Magnet.parse (urlParse env) lossy s = .ok m ↔ ∃ q, IsMagnetUrl s q ∧ DescribesMagnet (urlParse env) (textPairs lossy q) m := by
  have hdec : ∀ q, textPairs lossy (escapeUnless KeptInQuery q) = textPairs lossy q := by
    intro q
    rw [← percentEncode_escape not_query_iff]
    unfold textPairs
    rw [formDecode_encode querySet_ok (by decide) (by decide)]
  rw [magnet_ok]
  constructor
  · rintro ⟨u, e, hs, hd⟩
    match hq : u.query with
    | none =>
      rw [hq] at hd
      obtain ⟨v, hv, -⟩ := hd.xt
      simp [textPairs, formDecode, segments, valuesOf] at hv
    | some q =>
      obtain ⟨sch, hier, tail, k1, k2, k3, k4, k5, ⟨a, b, rfl, ha, hb⟩, -⟩ := (url_iff env s u (by rw [hs]; decide)).1 e
      rcases ha with ⟨-, ha⟩ | ⟨q', rfl, hq', ha⟩
      · rw [ha] at hq; cases hq
      · obtain ⟨q2, h1, h2⟩ := (magnetUrl_iff env s q').1 ⟨u, e, hs, ha⟩
        refine ⟨q2, h2, ?_⟩
        rw [ha, Option.getD_some, hdec, ← hdec, ← h1, hdec] at hd
        exact hd
  · rintro ⟨q, hq, hd⟩
    obtain ⟨u, e, hs, hu⟩ := (magnetUrl_iff env s q).2 ⟨q, rfl, hq⟩
    refine ⟨u, e, hs, ?_⟩
    rw [hu, Option.getD_some, hdec]
    exact hd

/-! ### Concrete cases meeting the hypotheses -/

example : IsUdpText false " UDP://a@b@T\u00e9.example:0080/x/%2E./announce?a b#f\n".toList
    ⟨"T%C3%A9.example".toList, 80, "/announce?a%20b".toList⟩ := (udp_tracker_iff sampleUrlEnv _ _).1 ((except_toOption _ _).1 (by decide +kernel))

example : ¬ IsUdpText false "udp://[::1:6969/".toList ⟨"::1".toList, 6969, "/".toList⟩ := by
  intro h
  have := (except_toOption _ _).2 ((udp_tracker_iff sampleUrlEnv _ _).2 h)
  revert this
  decide +kernel

example : ∃ u, IsUrl false "x:a b?c\u00e9#d`".toList u ∧ u.path = "a b".toList ∧ u.query = some "c%C3%A9".toList ∧ u.fragment = some "d%60".toList :=
  ⟨⟨"x".toList, none, none, "a b".toList, some "c%C3%A9".toList, some "d%60".toList, []⟩,
    (url_iff sampleUrlEnv _ _ (by decide)).1 (by decide +kernel), rfl, rfl, rfl⟩

/-- A host in a magnet link does not matter, an empty port is no mistake. -/
example : IsMagnetUrl "magnet://host:/?xt=1".toList "xt=1".toList :=
  ⟨"magnet".toList, "//host:/".toList, [], stripped_self fun c hc => by
    have : ∀ c ∈ "magnet://host:/?xt=1".toList, 0x20 < c.toNat ∧ c.toNat < 0x7F := by decide
    exact this c hc, by decide, by decide, by decide, .inl rfl, fun r hr => by
    have : r = "host:/".toList := by cases hr; rfl
    subst this
    exact ⟨some (.domain "host".toList), none, (urlAuthority_iff _ _ _).1 (by decide +kernel)⟩⟩

end Demag.Props
