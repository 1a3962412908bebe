import Verif.Props.LogText

/-! # C72: the log can be read back, and what is said in it of a whole run -/

namespace Demag.Props

open Spec

/-! ### Quoted texts -/

theorem hexDigitOf_hexChar : ∀ d, d < 16 → hexDigitOf (hexChar d) = some d ∧ hexChar d ≠ '}' := by decide

theorem readBraced_hexNat (n : Nat) : ∀ a r, readBraced a (hexNat n ++ '}' :: r) = some (16 ^ (hexNat n).length * a + n, r) := by
  suffices h : ∀ a t, readBraced a (hexNat n ++ t) = readBraced (16 ^ (hexNat n).length * a + n) t by
    intro a r
    rw [h, readBraced, if_pos rfl]
  fun_induction hexNat n with
  | case1 n h =>
    intro a t
    obtain ⟨h1, h2⟩ := hexDigitOf_hexChar n h
    simp [readBraced, h1, h2]
  | case2 n h ih =>
    intro a t
    have hm : n % 16 < 16 := Nat.mod_lt _ (by omega)
    obtain ⟨h1, h2⟩ := hexDigitOf_hexChar (n % 16) hm
    rw [List.append_assoc, ih]
    simp only [List.singleton_append, readBraced, if_neg h2, h1, Option.bind_some]
    congr 1
    rw [List.length_append, List.length_singleton, Nat.pow_succ, Nat.mul_add, ← Nat.mul_assoc, Nat.mul_comm 16 (16 ^ _)]
    omega

theorem readQuotedInside_char (plain : Char → Bool) (c : Char) (fuel : Nat) (t : List Char) :
    readQuotedInside (fuel + 1) (debugChar plain c ++ t) = (readQuotedInside fuel t).map fun p => (c :: p.1, p.2) := by
  unfold debugChar
  by_cases h0 : c = Char.ofNat 0
  · subst h0; rw [if_pos rfl]; rfl
  by_cases h1 : c = '\t'
  · subst h1; rfl
  by_cases h2 : c = '\r'
  · subst h2; rfl
  by_cases h3 : c = '\n'
  · subst h3; rfl
  by_cases h4 : c = '\\'
  · subst h4; rfl
  by_cases h5 : c = '"'
  · subst h5; rfl
  rw [if_neg h0, if_neg h1, if_neg h2, if_neg h3, if_neg h4, if_neg h5]
  split
  · rw [List.singleton_append, readQuotedInside.eq_def]
    simp only [if_neg h5, if_neg h4]
  · have he : escapeUnicode c ++ t = '\\' :: 'u' :: '{' :: (hexNat c.toNat ++ '}' :: t) := by simp [escapeUnicode]
    rw [he]
    show (readBraced 0 (hexNat c.toNat ++ '}' :: t)).bind _ = _
    rw [readBraced_hexNat, Option.bind_some]
    simp only [Nat.mul_zero, Nat.zero_add]
    rw [Char.ofNat_toNat]

theorem readQuotedInside_text (plain : Char → Bool) (s : Text) : ∀ fuel r, s.length < fuel →
    readQuotedInside fuel (s.flatMap (debugChar plain) ++ '"' :: r) = some (s, r) := by
  induction s with
  | nil =>
    intro fuel r hf
    obtain ⟨k, rfl⟩ : ∃ k, fuel = k + 1 := ⟨fuel - 1, by simp at hf; omega⟩
    rfl
  | cons c s ih =>
    intro fuel r hf
    simp only [List.length_cons] at hf
    obtain ⟨k, rfl⟩ : ∃ k, fuel = k + 1 := ⟨fuel - 1, by omega⟩
    rw [List.flatMap_cons, List.append_assoc, readQuotedInside_char, ih k r (by omega)]
    rfl

theorem debugChar_ne_nil (plain : Char → Bool) (c : Char) : debugChar plain c ≠ [] := by
  unfold debugChar escapeUnicode
  repeat' split
  all_goals simp

theorem length_flatMap_debug (plain : Char → Bool) (s : Text) : s.length ≤ (s.flatMap (debugChar plain)).length := by
  induction s with
  | nil => simp
  | cons c s ih =>
    have := List.length_pos_iff.2 (debugChar_ne_nil plain c)
    simp only [List.flatMap_cons, List.length_append, List.length_cons]
    omega

/-- **C72.** A text in quotes can be read back from the log, and where it ends can be seen, whatever is in it and whatever comes behind it,
and whichever characters are taken for printable. -/
theorem quoted_read (plain : Char → Bool) (s : Text) (r : List Char) : readQuoted (debugText plain s ++ r) = some (s, r) := by
  have hl := length_flatMap_debug plain s
  have he : debugText plain s ++ r = '"' :: (s.flatMap (debugChar plain) ++ '"' :: r) := by simp [debugText]
  rw [he]
  show readQuotedInside _ _ = _
  refine readQuotedInside_text plain s _ r ?_
  simp only [List.length_append, List.length_cons]
  omega

theorem quoted_cancel {plain : Char → Bool} {s t : Text} {r q : List Char} (h : debugText plain s ++ r = debugText plain t ++ q) :
    s = t ∧ r = q := by
  have h1 := quoted_read plain s r
  rw [h, quoted_read] at h1
  simpa using (Option.some.inj h1).symm

example : debugText (fun c => c.isAlphanum || c == ' ') "a\"\n\x1b[31m é".toList = "\"a\\\"\\n\\u{1b}\\u{5b}31m \\u{e9}\"".toList := by decide +kernel
example : readQuoted "\"a\\\"\\n\\u{1b}\"; rest".toList = some ("a\"\n\x1b".toList, "; rest".toList) := by decide +kernel

/-! ### The extended handshake of a peer -/

theorem decimal_cancel {n m : Nat} {r q : List Char} (hr : ∀ c, r.head? = some c → c.isDigit = false)
    (hq : ∀ c, q.head? = some c → c.isDigit = false) (h : decimal n ++ r = decimal m ++ q) : n = m ∧ r = q := by
  have key : ∀ (n : Nat) (r : List Char), (∀ c, r.head? = some c → c.isDigit = false) →
      (decimal n ++ r).takeWhile (·.isDigit) = decimal n := by
    intro n r hr
    rw [List.takeWhile_append_of_pos (decimal_isDecimal n).2.1]
    cases r with
    | nil => simp
    | cons c r => rw [List.takeWhile_cons_of_neg (by rw [hr c rfl]; decide), List.append_nil]
  have h1 := key n r hr
  rw [h, key m q hq] at h1
  have e : n = m := by
    have hn := (decimal_isDecimal n).2.2.1
    rw [← h1, (decimal_isDecimal m).2.2.1] at hn
    exact hn.symm
  subst e
  exact ⟨rfl, List.append_cancel_left h⟩

/-- The tails of the text of an extended handshake: from the address, the size, the client and the preference on. -/
def tailIp (s : ExtendedHandshake) : Text := optText (fun ip => "; yourip: ".toList ++ ipText ip) s.yourip
def tailSize (s : ExtendedHandshake) : Text := optText (fun (n : BitVec 32) => "; metadata size: ".toList ++ decimal n.toNat) s.metadataSize ++ tailIp s
def tailClient (p : Char → Bool) (s : ExtendedHandshake) : Text := optText (fun v => "; client: ".toList ++ debugText p v) s.v ++ tailSize s
def tailPrefer (p : Char → Bool) (s : ExtendedHandshake) : Text := optText preferText s.e ++ tailClient p s

theorem lit_ip : "; yourip: ".toList = ';' :: ' ' :: 'y' :: "ourip: ".toList := by decide
theorem lit_size : "; metadata size: ".toList = ';' :: ' ' :: 'm' :: "etadata size: ".toList := by decide
theorem lit_client : "; client: ".toList = ';' :: ' ' :: 'c' :: "lient: ".toList := by decide
theorem lit_prefers : "; prefers encryption".toList = ';' :: ' ' :: 'p' :: "refers encryption".toList := by decide
theorem lit_not : "; does not prefer encryption".toList = ';' :: ' ' :: 'd' :: "oes not prefer encryption".toList := by decide

theorem tailIp_tag (s : ExtendedHandshake) : tailIp s = [] ∨ ∃ t, tailIp s = ';' :: ' ' :: 'y' :: t := by
  unfold tailIp
  cases s.yourip with
  | none => exact .inl rfl
  | some a => rw [optText, lit_ip]; exact .inr ⟨_, by simp only [List.cons_append]; rfl⟩

theorem tailSize_tag (s : ExtendedHandshake) : tailSize s = [] ∨ ∃ c t, tailSize s = ';' :: ' ' :: c :: t ∧ (c = 'm' ∨ c = 'y') := by
  unfold tailSize
  cases s.metadataSize with
  | none =>
    rw [optText, List.nil_append]
    rcases tailIp_tag s with h | ⟨t, h⟩
    · exact .inl h
    · exact .inr ⟨_, t, h, .inr rfl⟩
  | some a => rw [optText, lit_size]; exact .inr ⟨'m', _, by simp only [List.cons_append]; rfl, .inl rfl⟩

theorem tailClient_tag (p : Char → Bool) (s : ExtendedHandshake) :
    tailClient p s = [] ∨ ∃ c t, tailClient p s = ';' :: ' ' :: c :: t ∧ (c = 'c' ∨ c = 'm' ∨ c = 'y') := by
  unfold tailClient
  cases s.v with
  | none =>
    rw [optText, List.nil_append]
    rcases tailSize_tag s with h | ⟨c, t, h, hc⟩
    · exact .inl h
    · exact .inr ⟨_, t, h, .inr hc⟩
  | some a => rw [optText, lit_client]; exact .inr ⟨'c', _, by simp only [List.cons_append]; rfl, .inl rfl⟩

theorem tailPrefer_tag (p : Char → Bool) (s : ExtendedHandshake) : tailPrefer p s = [] ∨ ∃ t, tailPrefer p s = ';' :: ' ' :: t := by
  unfold tailPrefer
  cases s.e with
  | none =>
    rw [optText, List.nil_append]
    rcases tailClient_tag p s with h | ⟨c, t, h, hc⟩
    · exact .inl h
    · exact .inr ⟨_, h⟩
  | some a =>
    rw [optText, preferText]
    cases a
    · rw [if_neg (by decide), lit_not]; exact .inr ⟨_, by simp only [List.cons_append]; rfl⟩
    · rw [if_pos rfl, lit_prefers]; exact .inr ⟨_, by simp only [List.cons_append]; rfl⟩

theorem tailIp_inj {s t : ExtendedHandshake} (h : tailIp s = tailIp t) : s.yourip = t.yourip := by
  unfold tailIp at h
  cases hs : s.yourip <;> cases ht : t.yourip <;> rw [hs, ht] at h
  · rw [optText, optText, lit_ip] at h; cases h
  · rw [optText, optText, lit_ip] at h; cases h
  · rw [optText, optText] at h; rw [ipText_injective (List.append_cancel_left h)]

theorem tailIp_head (s : ExtendedHandshake) : ∀ c, (tailIp s).head? = some c → c.isDigit = false := by
  intro c hc
  rcases tailIp_tag s with h | ⟨t, h⟩ <;> rw [h] at hc
  · cases hc
  · rw [List.head?_cons] at hc; rw [← Option.some.inj hc]; decide

/-- A text that starts otherwise than the tails that remain is none of them. -/
theorem tag_ne {c : Char} {x : Text} {T : Text} (cs : List Char) (hc : c ∉ cs)
    (hT : T = [] ∨ ∃ d t, T = ';' :: ' ' :: d :: t ∧ d ∈ cs) : ';' :: ' ' :: c :: x ≠ T := by
  rintro rfl
  rcases hT with h | ⟨d, t, h, hd⟩
  · cases h
  · simp only [List.cons.injEq, true_and] at h
    rw [← h.1] at hd
    exact hc hd

theorem tailIp_tags (s : ExtendedHandshake) : tailIp s = [] ∨ ∃ d t, tailIp s = ';' :: ' ' :: d :: t ∧ d ∈ ['y'] := by
  rcases tailIp_tag s with h | ⟨t, h⟩
  · exact .inl h
  · exact .inr ⟨_, t, h, by simp⟩

theorem tailSize_tags (s : ExtendedHandshake) : tailSize s = [] ∨ ∃ d t, tailSize s = ';' :: ' ' :: d :: t ∧ d ∈ ['m', 'y'] := by
  rcases tailSize_tag s with h | ⟨c, t, h, hc⟩
  · exact .inl h
  · exact .inr ⟨_, t, h, by simpa using hc⟩

theorem tailClient_tags (p : Char → Bool) (s : ExtendedHandshake) :
    tailClient p s = [] ∨ ∃ d t, tailClient p s = ';' :: ' ' :: d :: t ∧ d ∈ ['c', 'm', 'y'] := by
  rcases tailClient_tag p s with h | ⟨c, t, h, hc⟩
  · exact .inl h
  · exact .inr ⟨_, t, h, by simpa using hc⟩

theorem tailSize_inj {s t : ExtendedHandshake} (h : tailSize s = tailSize t) : s.metadataSize = t.metadataSize ∧ s.yourip = t.yourip := by
  unfold tailSize at h
  cases hs : s.metadataSize <;> cases ht : t.metadataSize <;> rw [hs, ht] at h <;> simp only [optText, List.nil_append] at h
  · exact ⟨rfl, tailIp_inj h⟩
  · rw [lit_size] at h; simp only [List.cons_append] at h
    exact absurd h.symm (tag_ne _ (by decide) (tailIp_tags s))
  · rw [lit_size] at h; simp only [List.cons_append] at h
    exact absurd h (tag_ne _ (by decide) (tailIp_tags t))
  · simp only [List.append_assoc] at h
    obtain ⟨h1, h2⟩ := decimal_cancel (tailIp_head s) (tailIp_head t) (List.append_cancel_left h)
    rw [BitVec.eq_of_toNat_eq h1]
    exact ⟨rfl, tailIp_inj h2⟩

theorem tailClient_inj {p : Char → Bool} {s t : ExtendedHandshake} (h : tailClient p s = tailClient p t) :
    s.v = t.v ∧ s.metadataSize = t.metadataSize ∧ s.yourip = t.yourip := by
  unfold tailClient at h
  cases hs : s.v <;> cases ht : t.v <;> rw [hs, ht] at h <;> simp only [optText, List.nil_append] at h
  · exact ⟨rfl, tailSize_inj h⟩
  · rw [lit_client] at h; simp only [List.cons_append] at h
    exact absurd h.symm (tag_ne _ (by decide) (tailSize_tags s))
  · rw [lit_client] at h; simp only [List.cons_append] at h
    exact absurd h (tag_ne _ (by decide) (tailSize_tags t))
  · simp only [List.append_assoc] at h
    obtain ⟨h1, h2⟩ := quoted_cancel (List.append_cancel_left h)
    rw [h1]
    exact ⟨rfl, tailSize_inj h2⟩

theorem tailPrefer_inj {p : Char → Bool} {s t : ExtendedHandshake} (h : tailPrefer p s = tailPrefer p t) :
    s.e = t.e ∧ s.v = t.v ∧ s.metadataSize = t.metadataSize ∧ s.yourip = t.yourip := by
  have shape : ∀ b, ∃ x, preferText b = ';' :: ' ' :: (if b then 'p' else 'd') :: x := by
    intro b
    cases b
    · exact ⟨_, lit_not⟩
    · exact ⟨_, lit_prefers⟩
  unfold tailPrefer at h
  cases hs : s.e with
  | none =>
    cases ht : t.e with
    | none => rw [hs, ht] at h; simp only [optText, List.nil_append] at h; exact ⟨rfl, tailClient_inj h⟩
    | some b =>
      exfalso
      rw [hs, ht] at h
      simp only [optText, List.nil_append] at h
      obtain ⟨x, hx⟩ := shape b
      rw [hx] at h; simp only [List.cons_append] at h
      exact tag_ne _ (by cases b <;> decide) (tailClient_tags p s) h.symm
  | some a =>
    cases ht : t.e with
    | none =>
      exfalso
      rw [hs, ht] at h
      simp only [optText, List.nil_append] at h
      obtain ⟨x, hx⟩ := shape a
      rw [hx] at h; simp only [List.cons_append] at h
      exact tag_ne _ (by cases a <;> decide) (tailClient_tags p t) h
    | some b =>
      rw [hs, ht] at h
      simp only [optText] at h
      have e : a = b := by
        obtain ⟨x, hx⟩ := shape a
        obtain ⟨y, hy⟩ := shape b
        rw [hx, hy] at h
        simp only [List.cons_append, List.cons.injEq, true_and] at h
        have h := h.1
        cases a <;> cases b <;> first | rfl | exact absurd h (by decide)
      subst e
      exact ⟨rfl, tailClient_inj (List.append_cancel_left h)⟩

/-- Keys in quotes, each behind a comma. -/
theorem keys_cancel {p : Char → Bool} {a b : List Text} {r q : List Char} (hr : r.head? ≠ some ',') (hq : q.head? ≠ some ',')
    (h : (commaLoop false (a.map (debugText p))).2 ++ r = (commaLoop false (b.map (debugText p))).2 ++ q) : a = b ∧ r = q := by
  induction a generalizing b with
  | nil =>
    cases b with
    | nil => exact ⟨rfl, h⟩
    | cons y b =>
      exfalso
      apply hr
      have h : r = _ := h
      rw [h]; rfl
  | cons x a ih =>
    cases b with
    | nil =>
      exfalso
      apply hq
      have h : _ = q := h
      rw [← h]; rfl
    | cons y b =>
      have h' : ", ".toList ++ (debugText p x ++ ((commaLoop false (a.map (debugText p))).2 ++ r)) =
          ", ".toList ++ (debugText p y ++ ((commaLoop false (b.map (debugText p))).2 ++ q)) := by
        simpa [commaLoop] using h
      obtain ⟨h1, h2⟩ := quoted_cancel (List.append_cancel_left h')
      obtain ⟨h3, h4⟩ := ih h2
      exact ⟨by rw [h1, h3], h4⟩

theorem commaLoop_tail (vs : List Text) : (commaLoop false vs).1 = false := by
  induction vs with
  | nil => rfl
  | cons v vs ih => exact ih

theorem commaList_cons (v : Text) (vs : List Text) : commaList (v :: vs) = v ++ (commaLoop false vs).2 := by
  simp [commaList, commaLoop, commaLoop_tail]

theorem list_cancel {p : Char → Bool} {a b : List Text} {r q : List Char} (hr : r.head? ≠ some ',') (hq : q.head? ≠ some ',')
    (h : commaList (a.map (debugText p)) ++ r = commaList (b.map (debugText p)) ++ q) : a = b ∧ r = q := by
  cases a with
  | nil =>
    cases b with
    | nil => exact ⟨rfl, List.append_cancel_left h⟩
    | cons y b => rw [List.map_cons, commaList_cons] at h; exact absurd h (by simp [debugText, commaList, commaLoop])
  | cons x a =>
    cases b with
    | nil => rw [List.map_cons, commaList_cons] at h; exact absurd h (by simp [debugText, commaList, commaLoop])
    | cons y b =>
      rw [List.map_cons, List.map_cons, commaList_cons, commaList_cons, List.append_assoc, List.append_assoc] at h
      obtain ⟨h1, h2⟩ := quoted_cancel h
      obtain ⟨h3, h4⟩ := keys_cancel hr hq h2
      exact ⟨by rw [h1, h3], h4⟩

theorem tailPrefer_head (p : Char → Bool) (s : ExtendedHandshake) : (tailPrefer p s).head? ≠ some ',' := by
  rcases tailPrefer_tag p s with h | ⟨t, h⟩ <;> rw [h] <;> simp

/-- **C72.** What the log says of a peer's extended handshake tells everything in it but the numbers of the extensions: two handshakes that look
the same in the log have the same names of extensions, the same wish for encryption, the same client, size and address. A peer cannot make
one field look like another. -/
theorem handshake_log_faithful (p : Char → Bool) (s t : ExtendedHandshake) :
    s.text p = t.text p ↔
      s.m.map (List.map Prod.fst) = t.m.map (List.map Prod.fst) ∧ s.e = t.e ∧ s.v = t.v ∧ s.metadataSize = t.metadataSize ∧ s.yourip = t.yourip := by
  have shape : ∀ s : ExtendedHandshake, s.text p = "extended handshake: ".toList ++
      ((match s.m.map (List.map Prod.fst) with
        | some ks => "extensions: ".toList ++ commaList (ks.map (debugText p))
        | none => "no extensions".toList) ++ tailPrefer p s) := by
    intro s
    unfold ExtendedHandshake.text tailPrefer tailClient tailSize tailIp
    simp only [List.append_assoc]
    cases s.m with
    | none => rfl
    | some m =>
      have : m.map (fun kv => debugText p kv.1) = (m.map Prod.fst).map (debugText p) := by simp
      simp only [Option.map_some, this, List.append_assoc]
  constructor
  · intro h
    rw [shape, shape] at h
    have h := List.append_cancel_left h
    generalize hs : s.m.map (List.map Prod.fst) = ks at h ⊢
    generalize ht : t.m.map (List.map Prod.fst) = kt at h ⊢
    cases ks with
    | none =>
      cases kt with
      | none => exact ⟨rfl, tailPrefer_inj (List.append_cancel_left h)⟩
      | some b => exact absurd h (by simp)
    | some a =>
      cases kt with
      | none => exact absurd h (by simp)
      | some b =>
        simp only [List.append_assoc] at h
        obtain ⟨h1, h2⟩ := list_cancel (tailPrefer_head p s) (tailPrefer_head p t) (List.append_cancel_left h)
        exact ⟨by rw [h1], tailPrefer_inj h2⟩
  · rintro ⟨h1, h2, h3, h4, h5⟩
    rw [shape, shape, h1]
    unfold tailPrefer tailClient tailSize tailIp
    rw [h2, h3, h4, h5]

example : ({ e := some true, m := some [("ut_metadata".toList, 3#8)], v := some "x; metadata size: 5".toList, metadataSize := some 7#32 } :
      ExtendedHandshake).text (fun c => c.isAlphanum || c == ' ' || c == ';' || c == ':' || c == '_') =
    "extended handshake: extensions: \"ut_metadata\"; prefers encryption; client: \"x; metadata size: 5\"; metadata size: 7".toList := by
  decide +kernel

/-! ### No control characters, and whole runs -/

/-- **C72.** If control characters are not taken for printable, no message contains one: what comes from outside cannot end a line of the log
and start another one, nor send commands to the terminal. -/
theorem log_no_control {env : LogEnv} (h : EnvShown env) (hp : ∀ c, IsControl c → env.plain c = false) (l : LogLine)
    (ht : ∀ t ∈ l.trackers, Accepted t) : ∀ c ∈ l.text env, ¬ IsControl c := by
  intro c hc hctl
  rcases log_shown h l ht c hc with h1 | h1
  · unfold IsControl at hctl; omega
  · rw [hp c hctl] at h1; cases h1

/-- An environment in which letters, digits and blanks are taken for printable. -/
def sampleLogEnv : LogEnv where
  plain c := c.isAlphanum || c == ' '
  io := .leaf "Connection refused (os error 111)".toList
  bendy := .leaf "stream ended".toList
  url := .leaf "empty host".toList
  decoding := .leaf "invalid length at 38".toList
  reqwest := .caused "error sending request".toList (.leaf "timed out".toList)

theorem sampleLogEnv_shown : EnvShown sampleLogEnv := by
  refine ⟨shown_ascii (by decide), shown_ascii (by decide), shown_ascii (by decide), shown_ascii (by decide),
    ⟨shown_ascii (by decide), shown_ascii (by decide)⟩⟩

/-- A tracker with a warning that tries to start another line. -/
def sampleLine : LogLine :=
  .warned (.udp ⟨"tracker.example".toList, 80#16, []⟩) ⟨⟨List.replicate 20 0x1f, by decide⟩, some "a\nb".toList, []⟩
    "go\n[ERROR] away".toList

example : (∀ t ∈ sampleLine.trackers, Accepted t) ∧
    sampleLine.text sampleLogEnv = ("<Tracker udp://tracker.example:80> replied with warning in response to \"a\\nb\" " ++
      "(1f1f1f1f1f1f1f1f1f1f1f1f1f1f1f1f1f1f1f1f) announcement: \"go\\n\\u{5b}ERROR\\u{5d} away\"").toList := by
  refine ⟨?_, by decide +kernel⟩
  intro t ht
  rw [List.mem_singleton.1 ht]
  exact ⟨nameEnv, "udp://tracker.example:80".toList, nameEnv_ok, (except_toOption _ _).1 (by decide +kernel)⟩

/-- **C72.** The conversation with a peer: whatever comes over the connections, what the log says of it (the handshake, the messages of both sides,
and why it failed) has no control characters. -/
theorem peer_log_clean {env : LogEnv} (h : EnvShown env) (hp : ∀ c, IsControl c → env.plain c = false) (sha1 : Bytes → Bytes)
    (links : Nat → Link) (ctx : PeerCtx) (override : Option CryptoMode) (pref : CryptoPreference) (req : Bool) (p : Peer) (m : Magnet)
    (mse : MseError) :
    (∀ a ∈ (infoGetterRun sha1 links ctx override pref req).1, ∀ e ∈ a.trace, ∀ c ∈ (e.logLine p).text env, ¬ IsControl c) ∧
    (∀ e, (infoGetterRun sha1 links ctx override pref req).2 = .err e →
      ∀ c ∈ (LogLine.peerFailed m p e mse).text env, ¬ IsControl c) := by
  constructor
  · intro a _ e _
    refine log_no_control h hp _ ?_
    cases e <;> simp [Event.logLine, LogLine.trackers]
  · intro e _
    exact log_no_control h hp _ (by simp [LogLine.trackers])

/-- **C72.** The answers of DHT nodes: whatever bytes are in a datagram, what the log says of it has no control characters. -/
theorem reply_log_clean {env : LogEnv} (h : EnvShown env) (hp : ∀ c, IsControl c → env.plain c = false) (s : LookupSession)
    (sender : SockAddr) (msg : Bytes) : ∀ c ∈ (replyLine s sender msg).text env, ¬ IsControl c := by
  refine log_no_control h hp _ ?_
  unfold replyLine
  split <;> simp [LogLine.trackers]

/-! ### The path of the file -/

/-- **C72.** The path in the log has no character below the blank unless the template has: the name of the torrent cannot end the line. -/
theorem saving_no_newline {plain : Char → Bool} (hp : ∀ c, IsControl c → plain c = false) (elems : List TemplateElement)
    (ht : ∀ s, .literal s ∈ elems → ∀ c ∈ s, 0x20 ≤ c.toNat) (name : Text) (m : Magnet) (h : InfoHash) :
    ∀ c ∈ savingText plain m (Output.fromArg (PathTemplate.format elems (sanitize name) h)), 0x20 ≤ c.toNat := by
  have hm : ∀ c ∈ m.text plain, 0x20 ≤ c.toNat := by
    intro c hc
    rcases shown_magnet plain m c hc with h1 | h1
    · exact h1.1
    · apply Classical.byContradiction
      intro hlt
      rw [hp c (.inl (by omega))] at h1
      cases h1
  have hh : ∀ c ∈ h.displayText, 0x20 ≤ c.toNat := by
    intro c hc
    rcases shown_infoHash (p := fun _ => false) h c hc with h1 | h1
    · exact h1.1
    · cases h1
  have hn : ∀ c ∈ sanitize name, 0x20 ≤ c.toNat := by
    intro c hc
    have := sanitize_clean name c hc
    unfold Forbidden at this
    omega
  have hf : ∀ c ∈ PathTemplate.format elems (sanitize name) h, 0x20 ≤ c.toNat := by
    unfold PathTemplate.format
    suffices ∀ (buf : Text), (∀ c ∈ buf, 0x20 ≤ c.toNat) → ∀ c ∈ elems.foldl (fun buf elem =>
        match elem with
        | .literal s => buf ++ s
        | .name => buf ++ sanitize name
        | .hash => buf ++ h.displayText) buf, 0x20 ≤ c.toNat from this [] (by simp)
    induction elems with
    | nil => intro buf hb; exact hb
    | cons e elems ih =>
      intro buf hb
      rw [List.foldl_cons]
      refine ih (fun s hs => ht s (List.mem_cons_of_mem _ hs)) _ ?_
      intro c hc
      cases e with
      | literal s =>
        rcases List.mem_append.1 hc with hc | hc
        · exact hb c hc
        · exact ht s (by simp) c hc
      | name =>
        rcases List.mem_append.1 hc with hc | hc
        · exact hb c hc
        · exact hn c hc
      | hash =>
        rcases List.mem_append.1 hc with hc | hc
        · exact hb c hc
        · exact hh c hc
  have w : ∀ c ∈ "Writing torrent for info hash ".toList, 0x20 ≤ c.toNat := by decide
  have o : ∀ c ∈ " to stdout".toList, 0x20 ≤ c.toNat := by decide
  have v : ∀ c ∈ "Saving torrent for info hash ".toList, 0x20 ≤ c.toNat := by decide
  have f : ∀ c ∈ " to file ".toList, 0x20 ≤ c.toNat := by decide
  have app : ∀ {s t : Text}, (∀ c ∈ s, 0x20 ≤ c.toNat) → (∀ c ∈ t, 0x20 ≤ c.toNat) → ∀ c ∈ s ++ t, 0x20 ≤ c.toNat := by
    intro s t hs ht c hc
    rcases List.mem_append.1 hc with hc | hc
    · exact hs c hc
    · exact ht c hc
  unfold Output.fromArg
  split
  · exact app (app w hm) o
  · exact app (app (app v hm) f) hf

theorem lit_torrent : ".torrent".toList.length = 8 := by decide

/-- A character that is not replaced goes into the log as it is. -/
theorem saving_char {plain : Char → Bool} {c : Char} (hc : ¬ Forbidden c) (m : Magnet) (h : InfoHash) :
    c ∈ savingText plain m (Output.fromArg (PathTemplate.format [.name, .literal ".torrent".toList] (sanitize [c]) h)) := by
  have e : sanitize [c] = [c] := sanitize_idem [c] (by intro d hd; rw [List.mem_singleton.1 hd]; exact hc)
  have e' : PathTemplate.format [.name, .literal ".torrent".toList] [c] h = c :: ".torrent".toList := by
    simp [PathTemplate.format]
  have e'' : Output.fromArg (c :: ".torrent".toList) = .file (c :: ".torrent".toList) := by
    unfold Output.fromArg
    rw [if_neg]
    intro he
    have := congrArg List.length he
    rw [List.length_cons, lit_torrent] at this
    cases this
  rw [e, e', e'']
  unfold savingText
  apply List.mem_append_right
  apply List.mem_cons_self

theorem csi_facts : (Char.ofNat 0x9B).toNat = 0x9B ∧
    Char.ofNat 0x9B ∉ ['/', '\\', '<', '>', ':', '|', '"', '?', '*'] := by decide +kernel

/-- **C72**, where it fails: the path of the file is the one text from outside that is not quoted, and only characters below the blank are replaced in
it.  A torrent's name with the character U+009B, with which commands to a terminal start, goes into the log as it is. -/
theorem saving_control : ∃ (template : Text) (elems : List TemplateElement) (name : Text),
    PathTemplate.fromStr template = .ok elems ∧ (∀ c ∈ template, 0x20 ≤ c.toNat ∧ c.toNat ≤ 0x7E) ∧
    ∀ plain m h, ∃ c ∈ savingText plain m (Output.fromArg (PathTemplate.format elems (sanitize name) h)), IsControl c := by
  have hp : PathTemplate.fromStr "{name}.torrent".toList = .ok [.name, .literal ".torrent".toList] :=
    (except_toOption _ _).1 (by decide +kernel)
  refine ⟨_, _, [Char.ofNat 0x9B], hp, by decide +kernel, fun plain m h => ?_⟩
  obtain ⟨h1, h2⟩ := csi_facts
  generalize Char.ofNat 0x9B = c at h1 h2
  refine ⟨c, saving_char ?_ m h, ?_⟩
  · rw [← forbidden_iff, lt_space_iff, h1]
    rintro (h | h)
    · omega
    · exact h2 h
  · unfold IsControl; omega

end Demag.Props
