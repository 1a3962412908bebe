import Verif.Props.Utf8
import Verif.Lemmas.Decimal
import Verif.Model.Json
import Verif.Spec.Json

/-!
# C44: JSON output is well-formed and faithful
-/

namespace Demag.Props

open Demag Spec

/-! ### Code units -/

theorem encodeUtf16_eq (c : Char) : encodeUtf16 c = utf16 c := rfl

theorem utf16_lt (c : Char) : ∀ u ∈ utf16 c, u < 65536 := by
  have := char_val_lt c
  unfold utf16
  split
  · rename_i h; intro u hu; rw [List.mem_singleton] at hu; omega
  · intro u hu
    simp only [List.mem_cons, List.not_mem_nil, or_false] at hu
    rcases hu with hu | hu <;> omega

theorem fromUtf16_char (c : Char) (r : List Nat) : fromUtf16 (utf16 c ++ r) = (fromUtf16 r).map (c :: ·) := by
  have hv := char_val_lt c
  unfold utf16
  split
  · rename_i h
    simp only [List.cons_append, List.nil_append]
    rw [fromUtf16.eq_def]
    simp only
    rw [if_neg (by omega), if_neg (by omega), Char.ofNat_toNat]
  · rename_i h
    simp only [List.cons_append, List.nil_append]
    rw [fromUtf16.eq_def]
    simp only
    rw [if_pos (by omega)]
    rw [if_pos (by omega)]
    have : 0x10000 + (0xD800 + (c.toNat - 0x10000) / 1024 - 0xD800) * 1024 +
        (0xDC00 + (c.toNat - 0x10000) % 1024 - 0xDC00) = c.toNat := by omega
    rw [this, Char.ofNat_toNat]

/-- Code units are read back as the text they came from. -/
theorem fromUtf16_text (s : Text) : fromUtf16 (s.flatMap utf16) = some s := by
  induction s with
  | nil => rfl
  | cons c s ih => rw [List.flatMap_cons, fromUtf16_char, ih]; rfl

/-! ### Hexadecimal digits -/

theorem hexDigit_hexChar : ∀ d, d < 16 → hexDigit (hexChar d) = some d := by decide

theorem hex4_digits (n : Nat) (h : n < 65536) :
    hex4 n = [hexChar (n / 4096 % 16), hexChar (n / 256 % 16), hexChar (n / 16 % 16), hexChar (n % 16)] := by
  have zero : hexChar 0 = '0' := by decide
  unfold hex4
  by_cases h1 : n < 16
  · rw [hexNat, if_pos h1]
    have e1 : n / 4096 % 16 = 0 := by omega
    have e2 : n / 256 % 16 = 0 := by omega
    have e3 : n / 16 % 16 = 0 := by omega
    have e4 : n % 16 = n := by omega
    rw [e1, e2, e3, e4, zero]; rfl
  · rw [hexNat, if_neg h1]
    by_cases h2 : n / 16 < 16
    · rw [hexNat, if_pos h2]
      have e1 : n / 4096 % 16 = 0 := by omega
      have e2 : n / 256 % 16 = 0 := by omega
      have e3 : n / 16 % 16 = n / 16 := by omega
      rw [e1, e2, e3, zero]; rfl
    · rw [hexNat, if_neg h2]
      by_cases h3 : n / 16 / 16 < 16
      · rw [hexNat, if_pos h3]
        have e1 : n / 4096 % 16 = 0 := by omega
        have e2 : n / 256 % 16 = n / 16 / 16 := by omega
        rw [e1, e2, zero]; rfl
      · rw [hexNat, if_neg h3, hexNat, if_pos (by omega)]
        have e1 : n / 4096 % 16 = n / 16 / 16 / 16 := by omega
        have e2 : n / 256 % 16 = n / 16 / 16 % 16 := by omega
        rw [e1, e2]; rfl

theorem hexChar_ascii : ∀ d, d < 16 → ' ' ≤ hexChar d ∧ hexChar d ≤ '~' := by decide

/-! ### Strings -/

theorem stringUnits_u (u : Nat) (hu : u < 65536) (r : Text) :
    stringUnits ('\\' :: 'u' :: (hex4 u ++ r)) = (stringUnits r).map fun p => (u :: p.1, p.2) := by
  rw [hex4_digits u hu]
  simp only [List.cons_append, List.nil_append]
  rw [stringUnits.eq_def]
  simp only [Char.reduceEq, if_false, if_true, hexDigit_hexChar _ (Nat.mod_lt _ (by omega : 16 > 0))]
  have : 4096 * (u / 4096 % 16) + 256 * (u / 256 % 16) + 16 * (u / 16 % 16) + u % 16 = u := by omega
  rw [this]

theorem stringUnits_char (c : Char) (r : Text) :
    stringUnits (jsonChar c ++ r) = (stringUnits r).map fun p => (utf16 c ++ p.1, p.2) := by
  unfold jsonChar
  split
  · rename_i h; subst h; rw [List.cons_append, stringUnits.eq_def]; rfl
  split
  · rename_i h; subst h; rw [List.cons_append, stringUnits.eq_def]; rfl
  split
  · rename_i h; subst h; rw [List.cons_append, stringUnits.eq_def]; rfl
  split
  · rename_i h; subst h; rw [List.cons_append, stringUnits.eq_def]; rfl
  split
  · rename_i h; subst h; rw [List.cons_append, stringUnits.eq_def]; rfl
  split
  · rename_i h; subst h; rw [List.cons_append, stringUnits.eq_def]; rfl
  split
  · rename_i h; subst h; rw [List.cons_append, stringUnits.eq_def]; rfl
  split
  · rename_i h1 h2 _ _ _ _ _ h
    rw [List.cons_append, List.nil_append, stringUnits.eq_def]
    simp only
    rw [if_neg h1, if_neg h2, if_neg]
    have : ' '.toNat ≤ c.toNat := h.1
    have h0 : ' '.toNat = 32 := by decide
    omega
  · rw [encodeUtf16_eq]
    have hl := utf16_lt c
    have key : ∀ us : List Nat, (∀ u ∈ us, u < 65536) →
        stringUnits ((us.flatMap fun u => ['\\', 'u'] ++ hex4 u) ++ r) = (stringUnits r).map fun p => (us ++ p.1, p.2) := by
      intro us
      induction us with
      | nil => intro _; simp
      | cons u us ih =>
        intro h
        simp only [List.flatMap_cons, List.append_assoc, List.cons_append, List.nil_append]
        rw [stringUnits_u u (h u (by simp))]
        have e := ih (fun v hv => h v (by simp [hv]))
        simp only [List.cons_append, List.nil_append] at e
        rw [e, Option.map_map]
        rfl
    exact key _ hl

/-- **C44.** Between quotation marks, what is written for a text is a JSON string that denotes exactly that text, whatever
its characters are and whatever comes after. -/
theorem json_string (s r : Text) : jsonString (writeJsonStr s ++ '"' :: r) = some (s, r) := by
  have units : stringUnits (writeJsonStr s ++ '"' :: r) = some (s.flatMap utf16, r) := by
    induction s with
    | nil => rw [writeJsonStr, List.flatMap_nil, List.nil_append, stringUnits.eq_def]; rfl
    | cons c s ih =>
      rw [writeJsonStr, List.flatMap_cons, List.append_assoc, stringUnits_char]
      rw [writeJsonStr] at ih
      rw [ih]
      simp
  simp [jsonString, units, fromUtf16_text]

theorem jsonChar_ascii (c : Char) : ∀ x ∈ jsonChar c, ' ' ≤ x ∧ x ≤ '~' := by
  intro x hx
  unfold jsonChar at hx
  split at hx
  · revert x; decide
  split at hx
  · revert x; decide
  split at hx
  · revert x; decide
  split at hx
  · revert x; decide
  split at hx
  · revert x; decide
  split at hx
  · revert x; decide
  split at hx
  · revert x; decide
  split at hx
  · rename_i h; rw [List.mem_singleton] at hx; rw [hx]; exact h
  · rw [encodeUtf16_eq, List.mem_flatMap] at hx
    obtain ⟨u, hu, hx⟩ := hx
    rw [hex4_digits u (utf16_lt c u hu)] at hx
    simp only [List.cons_append, List.nil_append, List.mem_cons, List.not_mem_nil, or_false] at hx
    rcases hx with rfl | rfl | rfl | rfl | rfl | rfl
    · decide
    · decide
    all_goals exact hexChar_ascii _ (Nat.mod_lt _ (by omega))

/-- **C44.** What is written for a text is printable ASCII. -/
theorem json_string_ascii (s : Text) : ∀ x ∈ writeJsonStr s, ' ' ≤ x ∧ x ≤ '~' := by
  intro x hx
  obtain ⟨c, -, hc⟩ := List.mem_flatMap.1 hx
  exact jsonChar_ascii c x hc

/-! ### Addresses -/

/-- The characters of IP addresses. -/
def IpChar (c : Char) : Prop := c.isDigit = true ∨ ('a' ≤ c ∧ c ≤ 'f') ∨ c = '.' ∨ c = ':'

theorem ipChar_plain {c : Char} (h : IpChar c) : jsonChar c = [c] := by
  have : ∀ n : Fin 128, ((Char.ofNat n.val).isDigit = true ∨ ('a' ≤ Char.ofNat n.val ∧ Char.ofNat n.val ≤ 'f') ∨
      Char.ofNat n.val = '.' ∨ Char.ofNat n.val = ':') → jsonChar (Char.ofNat n.val) = [Char.ofNat n.val] := by decide +kernel
  have hlt : c.toNat < 128 := by
    rcases h with h | ⟨-, h⟩ | rfl | rfl
    · simp only [Char.isDigit, Bool.and_eq_true, decide_eq_true_eq] at h
      have := h.2
      have : c.val.toNat ≤ 57 := this
      show c.val.toNat < 128
      omega
    · have : c.toNat ≤ 'f'.toNat := h
      have e : 'f'.toNat = 102 := by decide
      omega
    · decide
    · decide
  exact char_ext (P := fun c => (c.isDigit = true ∨ ('a' ≤ c ∧ c ≤ 'f') ∨ c = '.' ∨ c = ':') → jsonChar c = [c]) this c hlt h

theorem hexNat_chars (n : Nat) : ∀ c ∈ hexNat n, IpChar c := by
  have dig : ∀ d, d < 16 → ((hexChar d).isDigit = true ∨ ('a' ≤ hexChar d ∧ hexChar d ≤ 'f')) := by decide
  have dig' : ∀ d, d < 16 → IpChar (hexChar d) := by
    intro d hd
    rcases dig d hd with h | h
    · exact .inl h
    · exact .inr (.inl h)
  fun_induction hexNat n with
  | case1 n h => intro c hc; rw [List.mem_singleton.1 hc]; exact dig' n h
  | case2 n h ih =>
    intro c hc
    rcases List.mem_append.1 hc with hc | hc
    · exact ih c hc
    · rw [List.mem_singleton.1 hc]; exact dig' _ (Nat.mod_lt _ (by omega))

theorem sepBy_chars {sep : Char} {ts : List Text} (hs : IpChar sep) (h : ∀ t ∈ ts, ∀ c ∈ t, IpChar c) :
    ∀ c ∈ sepBy sep ts, IpChar c := by
  intro c hc
  cases ts with
  | nil => cases hc
  | cons t ts =>
    rcases List.mem_append.1 hc with hc | hc
    · exact h t (by simp) c hc
    · obtain ⟨u, hu, hc⟩ := List.mem_flatMap.1 hc
      rcases List.mem_cons.1 hc with rfl | hc
      · exact hs
      · exact h u (by simp [hu]) c hc

theorem ipv4Text_chars (ip : Ipv4) : ∀ c ∈ ipv4Text ip, IpChar c := by
  refine sepBy_chars (.inr (.inr (.inl rfl))) ?_
  intro t ht c hc
  obtain ⟨b, -, rfl⟩ := List.mem_map.1 ht
  exact .inl ((decimal_isDecimal _).2.1 c hc)

theorem ipText_chars (ip : IpAddr) : ∀ c ∈ ipText ip, IpChar c := by
  have colon : IpChar ':' := .inr (.inr (.inr rfl))
  have segs : ∀ l : List Nat, ∀ c ∈ sepBy ':' (l.map hexNat), IpChar c := by
    intro l
    refine sepBy_chars colon ?_
    intro t ht c hc
    obtain ⟨b, -, rfl⟩ := List.mem_map.1 ht
    exact hexNat_chars _ c hc
  intro c hc
  cases ip with
  | v4 ip => exact ipv4Text_chars ip c hc
  | v6 ip =>
    simp only [ipText, ipv6Text] at hc
    split at hc
    · rcases List.mem_append.1 hc with hc | hc
      · have : ∀ c ∈ "::ffff:".toList, c.isDigit = true ∨ ('a' ≤ c ∧ c ≤ 'f') ∨ c = '.' ∨ c = ':' := by decide
        exact this c hc
      · exact ipv4Text_chars _ c hc
    · split at hc
      · rcases List.mem_append.1 hc with hc | hc
        · rcases List.mem_append.1 hc with hc | hc
          · exact segs _ c hc
          · have : ∀ c ∈ "::".toList, c.isDigit = true ∨ ('a' ≤ c ∧ c ≤ 'f') ∨ c = '.' ∨ c = ':' := by decide
            exact this c hc
        · exact segs _ c hc
      · exact segs _ c hc

theorem ipText_plain (ip : IpAddr) : writeJsonStr (ipText ip) = ipText ip := by
  have h := ipText_chars ip
  generalize ipText ip = t at h
  induction t with
  | nil => rfl
  | cons c t ih =>
    have e := ih (fun x hx => h x (by simp [hx]))
    rw [writeJsonStr] at e ⊢
    rw [List.flatMap_cons, ipChar_plain (h c (by simp)), e]
    rfl

/-! ### Peers -/

/-- The text written for a peer ID is that of the peer ID read as UTF-8. -/
theorem json_id (b : Bytes) :
    ((utf8Chunks b).flatMap fun c => writeJsonStr c.1 ++ if !c.2.isEmpty then "\\ufffd".toList else []) =
      writeJsonStr (lossyUtf8 b) := by
  have key : ∀ l : List (Text × Bytes),
      (l.flatMap fun c => writeJsonStr c.1 ++ if !c.2.isEmpty then "\\ufffd".toList else []) =
      writeJsonStr (l.flatMap fun c => c.1 ++ if c.2.isEmpty then [] else [Char.ofNat 0xFFFD]) := by
    intro l
    induction l with
    | nil => rfl
    | cons c l ih =>
      rw [List.flatMap_cons, List.flatMap_cons, ih]
      simp only [writeJsonStr, List.flatMap_append]
      congr 1
      congr 1
      cases c.2.isEmpty with
      | true => rfl
      | false => decide +kernel
  exact key _

theorem skipWs_cons {c : Char} {t : Text} (h : (c = ' ' || c = '\t' || c = '\n' || c = '\r') = false) :
    skipWs (c :: t) = c :: t := by simp [skipWs, List.dropWhile, h]

theorem skipWs_blank (t : Text) : skipWs (' ' :: t) = skipWs t := by simp [skipWs, List.dropWhile]

theorem value_string (n : Nat) (s r : Text) : jsonValue (n + 1) (' ' :: '"' :: (writeJsonStr s ++ '"' :: r)) = some (.str s, r) := by
  rw [jsonValue, skipWs_blank, skipWs_cons (by decide)]
  simp [json_string]

theorem value_num (n k : Nat) (r : Text) (hr : ∀ c ∈ r.head?, c.isDigit = false) :
    jsonValue (n + 1) (' ' :: (decimal k ++ r)) = some (.num k, r) := by
  obtain ⟨h1, h2, h3, h4⟩ := decimal_isDecimal k
  obtain ⟨g1, g2⟩ := takeWhile_digits h2 hr
  have digit_ws : ∀ c : Char, c.isDigit = true → (c = ' ' || c = '\t' || c = '\n' || c = '\r') = false ∧ c ≠ 'n' ∧ c ≠ 't' ∧
      c ≠ 'f' ∧ c ≠ '"' ∧ c ≠ '{' := by
    intro c hc
    refine ⟨?_, ?_, ?_, ?_, ?_, ?_⟩
    · cases h : (c = ' ' || c = '\t' || c = '\n' || c = '\r' : Bool) with
      | false => rfl
      | true =>
        simp only [Bool.or_eq_true, decide_eq_true_eq] at h
        rcases h with ((rfl | rfl) | rfl) | rfl <;> exact absurd hc (by decide)
    all_goals rintro rfl; exact absurd hc (by decide)
  cases hd : decimal k with
  | nil => exact absurd hd h1
  | cons c ds =>
    rw [hd] at h2 h3 h4 g1 g2
    obtain ⟨e1, e2, e3, e4, e5, e6⟩ := digit_ws c (h2 c (by simp))
    rw [List.cons_append] at g1 g2
    rw [jsonValue, skipWs_blank, List.cons_append, skipWs_cons e1]
    simp only [List.head?_cons, Option.some.injEq] at h4
    split
    · rename_i heq; simp only [List.cons.injEq] at heq; exact absurd heq.1 e2
    · rename_i heq; simp only [List.cons.injEq] at heq; exact absurd heq.1 e3
    · rename_i heq; simp only [List.cons.injEq] at heq; exact absurd heq.1 e4
    · rename_i heq; simp only [List.cons.injEq] at heq; exact absurd heq.1 e5
    · rename_i heq; simp only [List.cons.injEq] at heq; exact absurd heq.1 e6
    · rename_i c' r' _ _ _ _ _ heq
      simp only [List.cons.injEq] at heq
      obtain ⟨rfl, rfl⟩ := heq
      rw [if_pos (h2 _ (by simp)), g1, g2, if_neg, h3]
      rintro ⟨rfl, hne⟩
      exact hne (h4 rfl)
    · rename_i heq; cases heq

theorem members_next (n : Nat) (name : Text) (v : Json) (t r r' : Text)
    (ht : skipWs t = '"' :: (writeJsonStr name ++ '"' :: ':' :: r)) (hv : jsonValue n r = some (v, ',' :: r')) :
    jsonMembers (n + 1) t = (jsonMembers n r').map fun p => ((name, v) :: p.1, p.2) := by
  rw [jsonMembers, ht]
  simp only [json_string]
  rw [skipWs_cons (by decide)]
  simp only [hv]
  rw [skipWs_cons (by decide)]
  rfl

theorem members_last (n : Nat) (name : Text) (v : Json) (t r r' : Text)
    (ht : skipWs t = '"' :: (writeJsonStr name ++ '"' :: ':' :: r)) (hv : jsonValue n r = some (v, '}' :: r')) :
    jsonMembers (n + 1) t = some ([(name, v)], r') := by
  rw [jsonMembers, ht]
  simp only [json_string]
  rw [skipWs_cons (by decide)]
  simp only [hv]
  rw [skipWs_cons (by decide)]
  rfl

/-- The JSON object that describes a peer. -/
def peerJson (host : Text) (port : Nat) (id : Option Text) (requiresCrypto : Bool) : Json :=
  .obj [("host".toList, .str host), ("port".toList, .num port),
    ("id".toList, match id with | some t => .str t | none => .null), ("requires_crypto".toList, .bool requiresCrypto)]

/-- **C44.** What is printed for a peer is a JSON object with the address of the peer, its port, its ID read as UTF-8 (or null
if it is not known), and whether it requires encryption. -/
theorem json_peer (p : Peer) :
    parseJson (displayJson p) =
      some (peerJson (ipText p.address.ip) p.address.port.toNat (p.id.map fun i => lossyUtf8 i.bytes) p.requiresCrypto) := by
  have fuel : ∃ k, (displayJson p).length + 1 = k + 6 := by
    refine ⟨(displayJson p).length - 5, ?_⟩
    have : 10 ≤ (displayJson p).length := by
      unfold displayJson
      simp only [List.length_append]
      have : "{\"host\": \"".toList.length = 10 := by decide
      omega
    omega
  obtain ⟨k, hk⟩ := fuel
  have v4 : ∀ n, jsonValue (n + 1) (' ' :: ((if p.requiresCrypto then "true".toList else "false".toList) ++ ['}'])) =
      some (.bool p.requiresCrypto, ['}']) := by
    intro n
    rw [jsonValue, skipWs_blank]
    cases p.requiresCrypto with
    | true => rfl
    | false => rfl
  have v3 : ∀ n r, jsonValue (n + 1) (' ' :: (jsonId p.id ++ ',' :: r)) =
      some (match p.id.map (fun i => lossyUtf8 i.bytes) with | some t => .str t | none => .null, ',' :: r) := by
    intro n r
    cases p.id with
    | none => rw [jsonValue, skipWs_blank]; rfl
    | some i =>
      simp only [jsonId, json_id, Option.map_some]
      have := value_string n (lossyUtf8 i.bytes) (',' :: r)
      simpa using this
  have dj : displayJson p = '{' :: '"' :: (writeJsonStr "host".toList ++ '"' :: ':' :: ' ' :: '"' ::
      (writeJsonStr (ipText p.address.ip) ++ '"' :: ',' :: ' ' :: '"' :: (writeJsonStr "port".toList ++ '"' :: ':' :: ' ' ::
      (decimal p.address.port.toNat ++ ',' :: ' ' :: '"' :: (writeJsonStr "id".toList ++ '"' :: ':' :: ' ' ::
      (jsonId p.id ++ ',' :: ' ' :: '"' :: (writeJsonStr "requires_crypto".toList ++ '"' :: ':' :: ' ' ::
      ((if p.requiresCrypto then "true".toList else "false".toList) ++ ['}'])))))))) := by
    have w1 : writeJsonStr "host".toList = "host".toList := by decide
    have w2 : writeJsonStr "port".toList = "port".toList := by decide
    have w3 : writeJsonStr "id".toList = "id".toList := by decide
    have w4 : writeJsonStr "requires_crypto".toList = "requires_crypto".toList := by decide
    rw [w1, w2, w3, w4, ipText_plain]
    unfold displayJson
    simp
  unfold parseJson
  rw [hk]
  have val : jsonValue (k + 6) (displayJson p) =
      some (peerJson (ipText p.address.ip) p.address.port.toNat (p.id.map fun i => lossyUtf8 i.bytes) p.requiresCrypto, []) := by
    rw [dj]
    rw [jsonValue, skipWs_cons (by decide)]
    simp only
    rw [skipWs_cons (by decide)]
    rw [members_next (k + 4) "host".toList _ _ _ _ (skipWs_cons (by decide)) (value_string (k + 3) _ _),
      members_next (k + 3) "port".toList _ _ _ _ (by rw [skipWs_blank, skipWs_cons (by decide)])
        (value_num (k + 2) _ _ (by intro c hc; simp only [List.head?_cons, Option.mem_def, Option.some.injEq] at hc; rw [← hc]; decide)),
      members_next (k + 2) "id".toList _ _ _ _ (by rw [skipWs_blank, skipWs_cons (by decide)]) (v3 (k + 1) _),
      members_last (k + 1) "requires_crypto".toList _ _ _ _ (by rw [skipWs_blank, skipWs_cons (by decide)]) (v4 k)]
    rfl
  rw [val]
  simp [skipWs]

/-- **C44.** What is printed for a peer is printable ASCII on one line. -/
theorem json_peer_ascii (p : Peer) : ∀ c ∈ displayJson p, ' ' ≤ c ∧ c ≤ '~' := by
  have lit : ∀ (t : Text), (t.all fun c => ' ' ≤ c ∧ c ≤ '~') = true → ∀ c ∈ t, ' ' ≤ c ∧ c ≤ '~' := by
    intro t h c hc
    have := List.all_eq_true.1 h c hc
    simpa using this
  have host : ∀ c ∈ ipText p.address.ip, ' ' ≤ c ∧ c ≤ '~' := by
    intro c hc; rw [← ipText_plain] at hc; exact json_string_ascii _ c hc
  have port : ∀ c ∈ decimal p.address.port.toNat, ' ' ≤ c ∧ c ≤ '~' := by
    intro c hc
    have h := (decimal_isDecimal p.address.port.toNat).2.1 c hc
    have := ipChar_plain (.inl h)
    exact jsonChar_ascii c c (by rw [this]; simp)
  intro c hc
  unfold displayJson at hc
  simp only [List.mem_append, or_assoc] at hc
  rcases hc with hc | hc | hc | hc | hc | hc | hc | hc | hc
  · exact lit _ (by decide) c hc
  · exact host c hc
  · exact lit _ (by decide) c hc
  · exact port c hc
  · exact lit _ (by decide) c hc
  · cases hid : p.id with
    | none => rw [hid] at hc; exact lit _ (by decide) c hc
    | some i =>
      rw [hid] at hc
      simp only [jsonId, json_id, List.mem_append, or_assoc] at hc
      rcases hc with hc | hc | hc
      · exact lit _ (by decide) c hc
      · exact json_string_ascii _ c hc
      · exact lit _ (by decide) c hc
  · exact lit _ (by decide) c hc
  · cases hr : p.requiresCrypto with
    | true => rw [hr] at hc; exact lit _ (by decide) c hc
    | false => rw [hr] at hc; exact lit _ (by decide) c hc
  · exact lit _ (by decide) c hc

example : writeJsonStr ['a', '"', 'é', Char.ofNat 0x1F600, Char.ofNat 7] = "a\\\"\\u00e9\\ud83d\\ude00\\u0007".toList := by
  decide +kernel
example : displayJson ⟨.v4 ⟨⟨0x7F000001#32⟩, 6881⟩, none, true⟩ =
    "{\"host\": \"127.0.0.1\", \"port\": 6881, \"id\": null, \"requires_crypto\": true}".toList := by decide +kernel

end Demag.Props
