import Verif.Spec.UrlHttp
import Verif.Lemmas.FormParse
import Verif.Lemmas.UrlIpv6
import Verif.Props.UrlText

/-! Helper lemmas: hosts of special URLs, as the model reads them and as the specification describes them. -/

namespace Demag

open Spec Props

/-! ### Percent decoding -/

theorem head_byte' (c : Char) : ∃ x xs, String.utf8EncodeChar c = x :: xs ∧ byteHexDigit x = hexDigit c ∧ (hexDigit c ≠ none → xs = []) := by
  by_cases h : c = '+'
  · subst h
    exact ⟨43, [], by decide, by decide, fun _ => rfl⟩
  · have := head_byte c
    rwa [replacePlus_char c h] at this

theorem escapedBytes_decode (t : Text) : percentDecode (utf8 t) = escapedBytes t := by
  fun_induction escapedBytes t with
  | case1 => simp [utf8, percentDecode]
  | case2 a b r' x y hy hx ih =>
    obtain ⟨p, ps, hp, hp1, hp2⟩ := head_byte' a
    obtain ⟨q, qs, hq, hq1, hq2⟩ := head_byte' b
    rw [hp2 (by simp [hx])] at hp
    rw [hq2 (by simp [hy])] at hq
    rw [utf8_cons, utf8_cons, utf8_cons, hp, hq, show String.utf8EncodeChar '%' = [37] from by decide]
    simp only [List.singleton_append, List.cons_append, List.nil_append]
    rw [percentDecode, if_pos rfl, hp1, hq1, hx, hy]
    simp only [ih, Nat.mul_comm]
  | case3 a b r' hne ih =>
    obtain ⟨p, ps, hp, hp1, hp2⟩ := head_byte' a
    obtain ⟨q, qs, hq, hq1, hq2⟩ := head_byte' b
    rw [utf8_cons, show String.utf8EncodeChar '%' = [37] from by decide,
      show utf8 ['%'] = [37] from by decide, List.singleton_append, List.singleton_append, ← ih]
    rw [utf8_cons, utf8_cons, hp, hq]
    cases ha : hexDigit a with
    | none =>
      rcases hr : ps ++ ((q :: qs) ++ utf8 r') with _ | ⟨z, zs⟩
      · simp at hr
      · rw [List.cons_append, hr, percentDecode, if_pos rfl, hp1, ha]
    | some x =>
      rw [hp2 (by simp [ha])]
      simp only [List.cons_append, List.nil_append]
      rw [percentDecode, if_pos rfl, hp1, hq1, ha]
      cases hb : hexDigit b with
      | none => rfl
      | some y => exact absurd hb (hne x y ha)
  | case4 a ih =>
    obtain ⟨p, ps, hp, hp1, hp2⟩ := head_byte' a
    rw [utf8_cons, show String.utf8EncodeChar '%' = [37] from by decide,
      show utf8 ['%'] = [37] from by decide, List.singleton_append, List.singleton_append, ← ih]
    rw [utf8_cons, hp]
    rcases hr : ps ++ utf8 [] with _ | ⟨z, zs⟩
    · rw [List.cons_append, hr]
      simp [percentDecode]
    · rw [List.cons_append, hr, percentDecode, if_pos rfl, hp1]
      cases ha : hexDigit a with
      | none => rfl
      | some x =>
        rw [hp2 (by simp [ha])] at hr
        simp [utf8] at hr
  | case5 => decide +kernel
  | case6 c r h ih =>
    rw [utf8_cons, percentDecode_append _ _ (char_not_percent c h), ih, utf8_single]

/-- A text without `%` denotes itself. -/
theorem escapedBytes_self {t : Text} (h : '%' ∉ t) : escapedBytes t = utf8 t := by
  rw [← escapedBytes_decode]
  have : ∀ b ∈ utf8 t, b ≠ 37 := by
    intro b hb
    induction t with
    | nil => cases hb
    | cons c r ih =>
      rw [utf8_cons, List.mem_append] at hb
      rcases hb with hb | hb
      · exact char_not_percent c (fun e => h (by simp [e])) b hb
      · exact ih (fun hm => h (by simp [hm])) hb
  have := percentDecode_append (utf8 t) [] this
  simpa [percentDecode] using this

/-- What is not part of an escape sequence stands for itself. -/
theorem escapedBytes_mem {c : Char} (hc : c.toNat < 0x80) (hx : hexDigit c = none) (hp : c ≠ '%') (t : Text) (h : c ∈ t) :
    UInt8.ofNat c.toNat ∈ escapedBytes t := by
  have hs : ∀ d, d = c → UInt8.ofNat c.toNat ∈ utf8 [d] := by
    rintro d rfl
    rw [utf8_single]
    rcases utf8_char d with ⟨_, e⟩ | ⟨h, _⟩
    · rw [e]; simp
    · omega
  fun_induction escapedBytes t with
  | case1 => cases h
  | case2 a b r' x y hy hx' ih =>
    simp only [List.mem_cons] at h
    rcases h with rfl | rfl | rfl | h
    · exact absurd rfl hp
    · rw [hx] at hx'; cases hx'
    · rw [hx] at hy; cases hy
    · exact List.mem_cons_of_mem _ (ih h)
  | case3 a b r' hne ih =>
    rw [List.mem_append]
    rcases List.mem_cons.1 h with rfl | h
    · exact absurd rfl hp
    · exact .inr (ih h)
  | case4 a ih =>
    rw [List.mem_append]
    rcases List.mem_cons.1 h with rfl | h
    · exact absurd rfl hp
    · exact .inr (ih h)
  | case5 => 
    rcases List.mem_cons.1 h with rfl | h
    · exact absurd rfl hp
    · cases h
  | case6 d r hd ih =>
    rw [List.mem_append]
    rcases List.mem_cons.1 h with rfl | h
    · exact .inl (hs _ rfl)
    · exact .inr (ih h)

/-! ### Parts -/

theorem splitWhere_ne (p : Char → Bool) (t : Text) : splitWhere p t ≠ [] := by
  cases t with
  | nil => simp [splitWhere]
  | cons c r =>
    rw [splitWhere]
    split
    · simp
    · split <;> simp

theorem splitWhere_cons {p : Char → Bool} {c : Char} (hc : p c = false) {r s : Text} {ss : List Text} (h : splitWhere p r = s :: ss) :
    splitWhere p (c :: r) = (c :: s) :: ss := by
  rw [splitWhere, hc, h]
  rfl

theorem splitWhere_sep {p : Char → Bool} {c : Char} (hc : p c = true) (r : Text) : splitWhere p (c :: r) = [] :: splitWhere p r := by
  rw [splitWhere, if_pos hc]

theorem splitWhere_self {p : Char → Bool} {t : Text} (h : ∀ c ∈ t, p c = false) : splitWhere p t = [t] := by
  induction t with
  | nil => rfl
  | cons c r ih => exact splitWhere_cons (h c (by simp)) (ih fun d hd => h d (by simp [hd]))

theorem splitWhere_append {p : Char → Bool} (a : Text) {c : Char} (hc : p c = true) (b : Text) :
    splitWhere p (a ++ c :: b) = splitWhere p a ++ splitWhere p b := by
  induction a with
  | nil => simp [splitWhere, hc]
  | cons d r ih =>
    cases hd : p d with
    | true => rw [List.cons_append, splitWhere_sep hd, splitWhere_sep hd, ih]; rfl
    | false =>
      cases hr : splitWhere p r with
      | nil => exact absurd hr (splitWhere_ne p r)
      | cons s ss => rw [List.cons_append, splitWhere_cons hd hr, splitWhere_cons hd (ih.trans (by rw [hr]; rfl))]; rfl

theorem splitWhere_free {p : Char → Bool} (t : Text) : ∀ s ∈ splitWhere p t, ∀ c ∈ s, p c = false := by
  induction t with
  | nil => simp [splitWhere]
  | cons d r ih =>
    cases hd : p d with
    | true =>
      rw [splitWhere_sep hd]
      intro s hs
      rcases List.mem_cons.1 hs with rfl | hs
      · simp
      · exact ih s hs
    | false =>
      cases hr : splitWhere p r with
      | nil => exact absurd hr (splitWhere_ne p r)
      | cons x xs =>
        rw [splitWhere_cons hd hr]
        rw [hr] at ih
        intro s hs c hc
        rcases List.mem_cons.1 hs with rfl | hs
        · rcases List.mem_cons.1 hc with rfl | hc
          · exact hd
          · exact ih x (by simp) c hc
        · exact ih s (by simp [hs]) c hc

/-- Parts are what is between separators. -/
theorem splitWhere_parts {p : Char → Bool} (t : Text) : ∃ s ss b, splitWhere p t = s :: ss ∧ t = s ++ b ∧ (b = [] ∨ ∃ c b', b = c :: b' ∧ p c = true) ∧
    ∀ l ∈ ss, ∃ a c b, t = (a ++ [c]) ++ l ++ b ∧ p c = true ∧ (b = [] ∨ ∃ c b', b = c :: b' ∧ p c = true) := by
  induction t with
  | nil => exact ⟨[], [], [], rfl, rfl, .inl rfl, by simp⟩
  | cons d r ih =>
    obtain ⟨s, ss, b, h1, h2, h3, h4⟩ := ih
    cases hd : p d with
    | true =>
      rw [splitWhere_sep hd, h1]
      refine ⟨[], _, d :: r, rfl, rfl, .inr ⟨d, r, rfl, hd⟩, ?_⟩
      intro l hl
      rcases List.mem_cons.1 hl with rfl | hl
      · exact ⟨[], d, b, by rw [h2]; rfl, hd, h3⟩
      · obtain ⟨a, c, b, e, hc, hb⟩ := h4 l hl
        exact ⟨d :: a, c, b, by rw [e]; rfl, hc, hb⟩
    | false =>
      rw [splitWhere_cons hd h1]
      refine ⟨d :: s, ss, b, rfl, by rw [h2]; rfl, h3, ?_⟩
      intro l hl
      obtain ⟨a, c, b, e, hc, hb⟩ := h4 l hl
      exact ⟨d :: a, c, b, by rw [e]; rfl, hc, hb⟩

theorem splitWhere_join {p : Char → Bool} (c : Char) (hp : ∀ d, p d = true ↔ d = c) (t : Text) :
    t = ((splitWhere p t).intersperse [c]).flatten := by
  induction t with
  | nil => rfl
  | cons d r ih =>
    cases hd : p d with
    | true =>
      rw [splitWhere_sep hd]
      cases hr : splitWhere p r with
      | nil => exact absurd hr (splitWhere_ne p r)
      | cons s ss =>
        rw [hr] at ih
        simp only [List.intersperse, List.flatten_cons, List.nil_append, List.singleton_append, ← ih, (hp d).1 hd]
    | false =>
      cases hr : splitWhere p r with
      | nil => exact absurd hr (splitWhere_ne p r)
      | cons s ss =>
        rw [splitWhere_cons hd hr]
        rw [hr] at ih
        cases ss with
        | nil => simpa [List.intersperse] using ih
        | cons x xs => simpa [List.intersperse] using ih

theorem splitWhere_of_join {p : Char → Bool} (c : Char) (hp : p c = true) (parts : List Text) (hne : parts ≠ [])
    (hfree : ∀ s ∈ parts, ∀ d ∈ s, p d = false) : splitWhere p ((parts.intersperse [c]).flatten) = parts := by
  induction parts with
  | nil => exact absurd rfl hne
  | cons s ss ih =>
    cases ss with
    | nil => simpa [List.intersperse] using splitWhere_self (hfree s (by simp))
    | cons x xs =>
      have h := ih (by simp) (fun s hs => hfree s (by simp only [List.mem_cons] at hs ⊢; exact .inr hs))
      have : (((s :: x :: xs).intersperse [c]).flatten) = s ++ c :: (((x :: xs).intersperse [c]).flatten) := by
        simp [List.intersperse]
      rw [this, splitWhere_append s hp, h, splitWhere_self (hfree s (by simp))]
      rfl

/-! ### Domain names -/

theorem asciiText_utf8 {t : Text} (h : ∀ c ∈ t, c.toNat < 0x80) : asciiText (utf8 t) = t ∧ ∀ b ∈ utf8 t, b < 0x80 := by
  induction t with
  | nil => exact ⟨rfl, fun b hb => nomatch hb⟩
  | cons c r ih =>
    obtain ⟨h1, h2⟩ := ih fun d hd => h d (by simp [hd])
    have hc := h c (by simp)
    have e : String.utf8EncodeChar c = [UInt8.ofNat c.toNat] := by
      rcases utf8_char c with ⟨_, e⟩ | ⟨h, _⟩
      · exact e
      · omega
    have hn : (UInt8.ofNat c.toNat).toNat = c.toNat := by rw [UInt8.toNat_ofNat']; omega
    rw [utf8_cons, e]
    constructor
    · show Char.ofNat (UInt8.ofNat c.toNat).toNat :: asciiText (utf8 r) = c :: r
      rw [h1, hn, Char.ofNat_toNat]
    · intro b hb
      rcases List.mem_cons.1 hb with rfl | hb
      · rw [UInt8.lt_iff_toNat_lt, hn]; exact hc
      · exact h2 b hb

theorem utf8_asciiText {bs : Bytes} (h : ∀ b ∈ bs, b < 0x80) : utf8 (asciiText bs) = bs ∧ ∀ c ∈ asciiText bs, c.toNat < 0x80 := by
  induction bs with
  | nil => exact ⟨rfl, fun b hb => nomatch hb⟩
  | cons b r ih =>
    obtain ⟨h1, h2⟩ := ih fun d hd => h d (by simp [hd])
    have hb : b.toNat < 0x80 := by have := h b (by simp); rwa [UInt8.lt_iff_toNat_lt] at this
    have hn : (Char.ofNat b.toNat).toNat = b.toNat := char_ofNat_toNat (by omega)
    show utf8 (Char.ofNat b.toNat :: asciiText r) = b :: r ∧ ∀ c ∈ Char.ofNat b.toNat :: asciiText r, _
    constructor
    · rw [utf8_cons, h1]
      rcases utf8_char (Char.ofNat b.toNat) with ⟨_, e⟩ | ⟨h, _⟩
      · rw [e, hn, UInt8.ofNat_toNat]; rfl
      · omega
    · intro c hc
      rcases List.mem_cons.1 hc with rfl | hc
      · omega
      · exact h2 c hc

theorem toLower_dot (c : Char) : (c.toLower == '.') = (c == '.') := by
  have : c.toLower = '.' ↔ c = '.' := by
    constructor
    · intro h
      rcases toLower_eq h with h | ⟨h, h2, -⟩
      · exact h
      · have : ('.').toNat = 46 := rfl
        omega
    · rintro rfl; decide
  rw [Bool.eq_iff_iff]
  simpa using this

theorem splitDots_lower (t : Text) : splitDots (t.map Char.toLower) = (splitDots t).map fun s => s.map Char.toLower := by
  unfold splitDots
  induction t with
  | nil => rfl
  | cons c r ih =>
    cases hc : (c == '.') with
    | true => rw [List.map_cons, splitWhere_sep (p := (· == '.')) hc, splitWhere_sep (p := (· == '.')) ((toLower_dot c).trans hc), ih]; rfl
    | false =>
      cases hr : splitWhere (· == '.') r with
      | nil => exact absurd hr (splitWhere_ne _ r)
      | cons s ss =>
        rw [List.map_cons, splitWhere_cons (p := (· == '.')) hc hr,
          splitWhere_cons (p := (· == '.')) ((toLower_dot c).trans hc) (ih.trans (by rw [hr]; rfl))]
        rfl

theorem xn_iff (u : Text) : (∀ l ∈ splitDots u, l.take 4 ≠ "xn--".toList) ↔
    ∀ a b, u = a ++ "xn--".toList ++ b → a ≠ [] ∧ a.getLast? ≠ some '.' := by
  have hx : ∀ c ∈ "xn--".toList, (c == '.') = false := by decide
  have hfirst : ∀ b, ∃ s ss, splitDots ("xn--".toList ++ b) = s :: ss ∧ s.take 4 = "xn--".toList := by
    intro b
    unfold splitDots
    cases hb : splitWhere (· == '.') b with
    | nil => exact absurd hb (splitWhere_ne _ b)
    | cons s ss => exact ⟨"xn--".toList ++ s, ss, by simp [splitWhere, hb], by simp⟩
  constructor
  · intro h a b e
    constructor
    · rintro rfl
      obtain ⟨s, ss, h1, h2⟩ := hfirst b
      exact h s (by rw [e, List.nil_append, h1]; simp) h2
    · intro hl
      obtain ⟨a', rfl⟩ := List.getLast?_eq_some_iff.1 hl
      obtain ⟨s, ss, h1, h2⟩ := hfirst b
      refine h s ?_ h2
      rw [e, List.append_assoc, List.append_assoc, List.singleton_append]
      unfold splitDots at h1 ⊢
      rw [splitWhere_append a' (by decide), h1]
      simp
  · intro h l hl ht
    have hl' : l = "xn--".toList ++ l.drop 4 := by rw [← ht, List.take_append_drop]
    obtain ⟨s, ss, b, h1, h2, -, h4⟩ := splitWhere_parts (p := (· == '.')) u
    rw [splitDots, h1] at hl
    rcases List.mem_cons.1 hl with rfl | hl
    · exact (h [] (l.drop 4 ++ b) (by rw [h2, List.nil_append, ← List.append_assoc, ← hl'])).1 rfl
    · obtain ⟨a, c, b, e, hc, -⟩ := h4 l hl
      refine (h (a ++ [c]) (l.drop 4 ++ b) ?_).2 ?_
      · rw [e]
        conv => lhs; rw [hl']
        simp
      · simpa using hc

theorem plainDomain_iff (bs : Bytes) : plainDomain bs = true ↔ utf8 (asciiText bs) = bs ∧ PlainAscii (asciiText bs) := by
  unfold plainDomain PlainAscii
  rw [Bool.and_eq_true, List.all_eq_true, ← xn_iff, splitDots_lower]
  have hl : ((splitDots (asciiText bs)).all fun l => (l.take 4).map Char.toLower != "xn--".toList) = true ↔
      ∀ l ∈ (splitDots (asciiText bs)).map fun s => s.map Char.toLower, l.take 4 ≠ "xn--".toList := by
    rw [List.all_eq_true]
    simp only [List.mem_map, forall_exists_index, and_imp, forall_apply_eq_imp_iff₂, bne_iff_ne, List.map_take]
  rw [hl]
  constructor
  · rintro ⟨h1, h2⟩
    have := utf8_asciiText (bs := bs) (fun b hb => by simpa using h1 b hb)
    exact ⟨this.1, this.2, h2⟩
  · rintro ⟨h0, h1, h2⟩
    refine ⟨fun b hb => ?_, h2⟩
    have := (asciiText_utf8 h1).2 b (by rwa [h0])
    simpa using this

theorem plainDomain_ex (bs : Bytes) : plainDomain bs = true ↔ ∃ t, utf8 t = bs ∧ PlainAscii t := by
  rw [plainDomain_iff]
  constructor
  · rintro ⟨h1, h2⟩; exact ⟨_, h1, h2⟩
  · rintro ⟨t, rfl, h⟩; rw [(asciiText_utf8 h.1).1]; exact ⟨rfl, h⟩

theorem forbiddenDomain_iff (c : Char) : forbiddenDomain c = true ↔ NotInDomain c := by
  unfold forbiddenDomain NotInDomain
  simp only [Bool.or_eq_true, decide_eq_true_eq, List.contains_iff_mem, or_assoc]

theorem domainToAscii_iff (idna : Bytes → Option Text) (h d : Text) :
    domainToAscii idna (percentDecode (utf8 h)) = some d ↔ DomainOf idna h d := by
  rw [escapedBytes_decode]
  unfold domainToAscii DomainOf
  have hf : ((asciiText (escapedBytes h)).any forbiddenDomain = true) ↔ ¬ ∀ b ∈ escapedBytes h, ¬ NotInDomain (Char.ofNat b.toNat) := by
    rw [List.any_eq_true, Classical.not_forall]
    simp only [asciiText, List.mem_map, forbiddenDomain_iff]
    constructor
    · rintro ⟨c, ⟨b, hb, rfl⟩, hc⟩; exact ⟨b, fun h => h hb hc⟩
    · rintro ⟨b, hb⟩
      exact ⟨_, ⟨b, Classical.byContradiction fun hn => hb fun h => absurd h hn, rfl⟩,
        Classical.byContradiction fun hn => hb fun _ => hn⟩
  split
  · next h1 =>
    constructor
    · intro h; cases h
    · intro h; exact absurd h.1 (hf.1 h1)
  · next h1 =>
    have h1' : ∀ b ∈ escapedBytes h, ¬ NotInDomain (Char.ofNat b.toNat) := Classical.byContradiction fun hn => h1 (hf.2 hn)
    split
    · next h2 =>
      have h3 := (plainDomain_iff _).1 h2
      constructor
      · intro e
        exact ⟨h1', .inl ⟨_, h3.1, h3.2, (Option.some.inj e).symm⟩⟩
      · rintro ⟨-, ⟨t, ht, hp, rfl⟩ | ⟨hn, -⟩⟩
        · rw [← ht, (asciiText_utf8 hp.1).1]
        · exact absurd h3.2 (hn _ h3.1)
    · next h2 =>
      constructor
      · intro e
        exact ⟨h1', .inr ⟨fun t ht hp => h2 ((plainDomain_ex _).2 ⟨t, ht, hp⟩), e⟩⟩
      · rintro ⟨-, ⟨t, ht, hp, -⟩ | ⟨-, e⟩⟩
        · exact absurd ((plainDomain_ex _).2 ⟨t, ht, hp⟩) h2
        · exact e

/-! ### Numbers and IPv4 addresses -/

theorem toDigit8 (c : Char) : toDigit 8 c = if c.isDigit ∧ digitValue c < 8 then some (digitValue c) else none := by
  have h : ∀ a b : Char, (a ≤ c ∧ c ≤ b) ↔ (a.toNat ≤ c.toNat ∧ c.toNat ≤ b.toNat) := fun a b => Iff.rfl
  have hd : (c.isDigit = true) ↔ (48 ≤ c.toNat ∧ c.toNat ≤ 57) := by
    simp only [Char.isDigit, Bool.and_eq_true, decide_eq_true_eq]; exact Iff.rfl
  have e0 : '0'.toNat = 48 := rfl
  have e1 : '9'.toNat = 57 := rfl
  have e2 : 'a'.toNat = 97 := rfl
  have e4 : 'z'.toNat = 122 := rfl
  have e5 : 'A'.toNat = 65 := rfl
  have e7 : 'Z'.toNat = 90 := rfl
  simp only [toDigit, h, hd, e0, e1, e2, e4, e5, e7, digitValue]
  repeat' split
  all_goals first | rfl | omega | (congr 1; omega)

theorem ipv4Number_digits (radix : Nat) (ds : Text) (n : Nat) :
    digitsIn radix ds = some n ↔
      (∀ c ∈ ds, (toDigit radix c).isSome = true) ∧ ofDigits radix (ds.map fun c => (toDigit radix c).getD 0) = n := by
  unfold digitsIn
  rw [foldl_digits radix fun c => (toDigit radix c).getD 0]
  split
  · next h =>
    rw [List.all_eq_true] at h
    simp only [Option.some.injEq]
    exact ⟨fun e => ⟨h, e⟩, fun e => e.2⟩
  · next h => rw [List.all_eq_true] at h; simp [h]

theorem isIpv4Number_ne {t : Text} {n : Nat} (h : IsIpv4Number t n) : t ≠ [] := by
  cases h with
  | decimal h => exact h
  | octal => simp
  | hex => simp

theorem ipv4Number_iff (t : Text) (n : Nat) : ipv4Number t = some n ↔ IsIpv4Number t n := by
  unfold ipv4Number
  constructor
  · intro h
    split at h
    · cases h
    · next hne =>
      unfold radixAndDigits at h
      split at h
      · next hx =>
        rw [ipv4Number_digits] at h
        match t, hne with
        | [c], _ => simp at hx
        | c :: x :: ds, _ =>
          simp only [List.take_succ_cons, List.take_zero, List.cons.injEq, and_true] at hx
          have hc : c = '0' := hx.elim (·.1) (·.1)
          subst hc
          simp only [toDigit16, List.drop_succ_cons, List.drop_zero] at h
          rw [← h.2]
          exact .hex (hx.imp (·.2) (·.2)) ((mapM_hexDigit _ _).2 ⟨h.1, rfl⟩)
      · split at h
        · next hx h8 =>
          rw [ipv4Number_digits] at h
          match t, hne with
          | [c], _ => simp at h8
          | c :: x :: ds, _ =>
            obtain ⟨-, h8⟩ := h8
            cases h8
            obtain ⟨h1, h2⟩ := h
            simp only [List.drop_succ_cons, List.drop_zero] at h1 h2
            have hd : ∀ c ∈ x :: ds, c.isDigit = true ∧ digitValue c < 8 := by
              intro c hc
              have := h1 c hc
              rw [toDigit8] at this
              split at this
              · next hh => exact hh
              · cases this
            rw [← h2, List.map_congr_left (g := digitValue)]
            · exact .octal (by simp) hd
            · intro c hc; rw [toDigit8, if_pos (hd c hc)]; rfl
        · next hx h8 =>
          rw [ipv4Number_digits] at h
          obtain ⟨h1, h2⟩ := h
          have hd : ∀ c ∈ t, c.isDigit = true := fun c hc => by have := h1 c hc; rwa [toDigit10_isSome] at this
          rw [← h2, map_toDigit10 t hd]
          refine .decimal hne hd fun h0 => ?_
          match t, hne with
          | [c], _ => rfl
          | c :: x :: ds, _ => exact absurd ⟨by simp, h0⟩ h8
  · intro h
    rw [if_neg (isIpv4Number_ne h)]
    cases h with
    | decimal hne hd h0 =>
      have e : radixAndDigits t = (10, t) := by
        unfold radixAndDigits
        rw [if_neg, if_neg]
        · rintro ⟨hl, h⟩; have := h0 h; omega
        · match t, hne with
          | [c], _ => simp
          | c :: x :: ds, _ =>
            simp only [List.take_succ_cons, List.take_zero, List.cons.injEq, and_true]
            rintro (⟨rfl, rfl⟩ | ⟨rfl, rfl⟩) <;> (have := h0 rfl; simp at this)
      rw [e, ipv4Number_digits]
      exact ⟨fun c hc => by rw [toDigit10_isSome]; exact hd c hc, by rw [map_toDigit10 t hd]⟩
    | @octal ds hne hd =>
      match ds, hne with
      | x :: ds, _ =>
        have e : radixAndDigits ('0' :: x :: ds) = (8, x :: ds) := by
          unfold radixAndDigits
          rw [if_neg, if_pos ⟨by simp, rfl⟩]
          · rfl
          · simp only [List.take_succ_cons, List.take_zero, List.cons.injEq, and_true, true_and]
            have := (hd x (by simp)).1
            rintro (rfl | rfl) <;> exact absurd this (by decide)
        rw [e, ipv4Number_digits]
        refine ⟨fun c hc => ?_, ?_⟩
        · rw [toDigit8, if_pos (hd c hc)]; rfl
        · rw [List.map_congr_left (g := digitValue)]
          intro c hc; rw [toDigit8, if_pos (hd c hc)]; rfl
    | @hex x ds vs hx hv =>
      have e : radixAndDigits ('0' :: x :: ds) = (16, ds) := by
        unfold radixAndDigits
        rw [if_pos]
        · rfl
        · simp only [List.take_succ_cons, List.take_zero, List.cons.injEq, and_true, true_and]
          exact hx
      rw [e, ipv4Number_digits]
      obtain ⟨h1, h2⟩ := (mapM_hexDigit _ _).1 hv
      simp only [toDigit16]
      exact ⟨h1, by rw [h2]⟩

theorem isIpv4Number_dot {t : Text} {n : Nat} (h : IsIpv4Number t n) : '.' ∉ t := by
  cases h with
  | decimal _ hd => exact fun hm => absurd (hd _ hm) (by decide)
  | octal _ hd =>
    intro hm
    rcases List.mem_cons.1 hm with h | hm
    · exact absurd h (by decide)
    · exact absurd (hd _ hm).1 (by decide)
  | hex hx hv =>
    intro hm
    simp only [List.mem_cons] at hm
    rcases hm with h | h | hm
    · exact absurd h (by decide)
    · rcases hx with rfl | rfl <;> exact absurd h (by decide)
    · exact absurd (((mapM_hexDigit _ _).1 hv).1 _ hm) (by decide)

theorem dots_self {l : Text} (h : '.' ∉ l) : splitDots l = [l] :=
  splitWhere_self fun c hc => by
    simp only [beq_eq_false_iff_ne]
    exact fun e => h (e ▸ hc)

theorem splitDots_last_of {front l : Text} (h1 : front = [] ∨ front.getLast? = some '.') (h2 : '.' ∉ l) :
    (splitDots (front ++ l)).getLast? = some l := by
  rcases h1 with rfl | h1
  · rw [List.nil_append, dots_self h2]; rfl
  · obtain ⟨a, rfl⟩ := List.getLast?_eq_some_iff.1 h1
    rw [List.append_assoc, List.singleton_append]
    have := dots_self h2
    unfold splitDots at this ⊢
    rw [splitWhere_append a (by decide), this]
    simp

theorem splitDots_last_ex (t : Text) : ∃ front l, t = front ++ l ∧ (front = [] ∨ front.getLast? = some '.') ∧ '.' ∉ l := by
  induction t with
  | nil => exact ⟨[], [], rfl, .inl rfl, by simp⟩
  | cons c r ih =>
    obtain ⟨front, l, rfl, h1, h2⟩ := ih
    by_cases hf : front = []
    · subst hf
      by_cases hc : c = '.'
      · exact ⟨[c], l, rfl, .inr (by rw [hc]; rfl), h2⟩
      · exact ⟨[], c :: l, rfl, .inl rfl, by simpa [h2] using fun e => hc e.symm⟩
    · refine ⟨c :: front, l, rfl, .inr ?_, h2⟩
      have := h1.resolve_left hf
      obtain ⟨a, rfl⟩ := List.getLast?_eq_some_iff.1 this
      rw [← List.cons_append, List.getLast?_append]
      rfl

theorem splitDots_last {t l : Text} : (splitDots t).getLast? = some l ↔
    ∃ front, t = front ++ l ∧ (front = [] ∨ front.getLast? = some '.') ∧ '.' ∉ l := by
  constructor
  · intro h
    obtain ⟨front, l', rfl, h1, h2⟩ := splitDots_last_ex t
    rw [splitDots_last_of h1 h2] at h
    cases h
    exact ⟨front, rfl, h1, h2⟩
  · rintro ⟨front, rfl, h1, h2⟩
    exact splitDots_last_of h1 h2

theorem ipv4Parts_dot (t : Text) : ipv4Parts (t ++ ['.']) = splitDots t := by
  have : splitDots (t ++ ['.']) = splitDots t ++ [[]] := by
    unfold splitDots
    rw [splitWhere_append t (by decide)]
    rfl
  unfold ipv4Parts
  rw [this, if_pos (by simp)]
  simp

theorem ipv4Parts_self {t : Text} (h1 : t ≠ []) (h2 : t.getLast? ≠ some '.') : ipv4Parts t = splitDots t := by
  unfold ipv4Parts
  rw [if_neg]
  intro h
  obtain ⟨front, rfl, hf, -⟩ := splitDots_last.1 h
  rw [List.append_nil] at h1 h2
  rcases hf with rfl | hf
  · exact h1 rfl
  · exact h2 hf

theorem ipv4Parts_cases (t : Text) : (t = [] ∧ ipv4Parts t = []) ∨ (∃ t', t = t' ++ ['.'] ∧ ipv4Parts t = splitDots t') ∨
    (t ≠ [] ∧ t.getLast? ≠ some '.' ∧ ipv4Parts t = splitDots t) := by
  by_cases h1 : t = []
  · subst h1; exact .inl ⟨rfl, rfl⟩
  · by_cases h2 : t.getLast? = some '.'
    · obtain ⟨a, rfl⟩ := List.getLast?_eq_some_iff.1 h2
      exact .inr (.inl ⟨a, rfl, ipv4Parts_dot a⟩)
    · exact .inr (.inr ⟨h1, h2, ipv4Parts_self h1 h2⟩)

theorem last_kept {front last : Text} (h1 : last ≠ []) (h2 : '.' ∉ last) : front ++ last ≠ [] ∧ (front ++ last).getLast? ≠ some '.' := by
  constructor
  · simp [h1]
  · intro h
    obtain ⟨a, e⟩ := List.getLast?_eq_some_iff.1 h
    rcases List.append_eq_append_iff.1 e with ⟨x, -, e⟩ | ⟨x, e1, e2⟩
    · rw [e] at h2; simp at h2
    · match x with
      | [] => exact h2 (by rw [show last = ['.'] from by simpa using e2.symm]; simp)
      | y :: ys =>
        simp only [List.cons_append, List.cons.injEq] at e2
        have := e2.2
        simp at this
        exact h1 this.2

theorem endsInNumber_iff (t : Text) : endsInNumber t = true ↔ EndsInNumber t := by
  have key : ∀ last : Text, ((!last.isEmpty && last.all Char.isDigit) || (ipv4Number last).isSome) = true ↔
      ((last ≠ [] ∧ ∀ c ∈ last, c.isDigit = true) ∨ ∃ n, IsIpv4Number last n) := by
    intro last
    simp only [Bool.or_eq_true, Bool.and_eq_true, Bool.not_eq_true', List.isEmpty_eq_false_iff, List.all_eq_true, Option.isSome_iff_exists,
      ipv4Number_iff]
  unfold endsInNumber EndsInNumber
  constructor
  · intro h
    split at h
    · cases h
    · next last hl =>
      rw [key] at h
      rcases ipv4Parts_cases t with ⟨rfl, e⟩ | ⟨t', rfl, e⟩ | ⟨h1, h2, e⟩
      · rw [e] at hl; cases hl
      · rw [e] at hl
        obtain ⟨front, rfl, hf, hd⟩ := splitDots_last.1 hl
        exact ⟨front, last, ['.'], rfl, hf, hd, .inr rfl, h⟩
      · rw [e] at hl
        obtain ⟨front, rfl, hf, hd⟩ := splitDots_last.1 hl
        exact ⟨front, last, [], by simp, hf, hd, .inl rfl, h⟩
  · rintro ⟨front, last, tail, rfl, hf, hd, rfl | rfl, h⟩
    · have hne : last ≠ [] := by
        rcases h with h | ⟨n, h⟩
        · exact h.1
        · exact isIpv4Number_ne h
      have := last_kept (front := front) hne hd
      rw [List.append_nil, ipv4Parts_self this.1 this.2, splitDots_last_of hf hd]
      exact (key last).2 h
    · rw [ipv4Parts_dot, splitDots_last_of hf hd]
      exact (key last).2 h

theorem mapM_rel {α β : Type} {f : α → Option β} {P : α → β → Prop} (h : ∀ a b, f a = some b ↔ P a b) (l : List α) (r : List β) :
    l.mapM f = some r ↔ List.Forall₂ P l r := by
  induction l generalizing r with
  | nil => 
    simp only [List.mapM_nil]
    constructor
    · intro e; cases e; exact .nil
    · intro e; cases e; rfl
  | cons a l ih =>
    rw [List.mapM_cons]
    constructor
    · intro e
      cases ha : f a with
      | none => rw [ha] at e; cases e
      | some b =>
        cases hl : l.mapM f with
        | none => rw [ha, hl] at e; cases e
        | some bs =>
          rw [ha, hl] at e
          cases e
          exact .cons ((h a b).1 ha) ((ih bs).1 hl)
    · intro e
      cases e with
      | cons h1 h2 => rw [(h _ _).2 h1, (ih _).2 h2]; rfl

theorem ipv4_value (front : List Nat) (h : front.length ≤ 3) :
    (front.mapIdx fun i n => n * 256 ^ (3 - i)).sum = ofDigits 256 front * 256 ^ (4 - front.length) := by
  match front, h with
  | [], _ => rfl
  | [a], _ => simp [ofDigits]
  | [a, b], _ => simp [ofDigits]; omega
  | [a, b, c], _ => simp [ofDigits]; omega
  | _ :: _ :: _ :: _ :: _, h => simp at h

theorem ipv4_value_lt {front : List Nat} {last : Nat} (h : front.length ≤ 3) (hf : ∀ n ∈ front, n ≤ 255) (hl : last < 256 ^ (4 - front.length)) :
    ofDigits 256 front * 256 ^ (4 - front.length) + last < 4294967296 := by
  have h1 : ofDigits 256 front < 256 ^ front.length := ofDigits_lt front fun n hn => by have := hf n hn; omega
  have h2 : (ofDigits 256 front + 1) * 256 ^ (4 - front.length) ≤ 256 ^ front.length * 256 ^ (4 - front.length) :=
    Nat.mul_le_mul_right _ h1
  rw [← Nat.pow_add, show front.length + (4 - front.length) = 4 from by omega, Nat.add_mul, Nat.one_mul] at h2
  omega

theorem parts_join {t : Text} : ((splitDots t).intersperse ['.']).flatten = t :=
  (splitWhere_join '.' (by simp) t).symm

theorem forall₂_ne {parts : List Text} {ns : List Nat} (h : List.Forall₂ IsIpv4Number parts ns) : ∀ s ∈ parts, s ≠ [] ∧ '.' ∉ s := by
  induction h with
  | nil => simp
  | cons h1 _ ih =>
    intro s hs
    rcases List.mem_cons.1 hs with rfl | hs
    · exact ⟨isIpv4Number_ne h1, isIpv4Number_dot h1⟩
    · exact ih s hs

theorem forall₂_length {α β : Type} {P : α → β → Prop} {l : List α} {r : List β} (h : List.Forall₂ P l r) : l.length = r.length := by
  induction h with
  | nil => rfl
  | cons _ _ ih => simp [ih]

theorem ipv4Parts_join {parts : List Text} {tail : Text} (hne : parts ≠ []) (h : ∀ s ∈ parts, s ≠ [] ∧ '.' ∉ s) (ht : tail = [] ∨ tail = ['.']) :
    ipv4Parts ((parts.intersperse ['.']).flatten ++ tail) = parts := by
  have hs : splitDots ((parts.intersperse ['.']).flatten) = parts :=
    splitWhere_of_join '.' (by decide) parts hne fun s hs d hd => by
      simp only [beq_eq_false_iff_ne]
      exact fun e => (h s hs).2 (e ▸ hd)
  rcases ht with rfl | rfl
  · rw [List.append_nil]
    obtain ⟨last, hl⟩ : ∃ l, parts.getLast? = some l := by
      cases hp : parts.getLast? with
      | none => exact absurd (List.getLast?_eq_none_iff.1 hp) hne
      | some l => exact ⟨l, rfl⟩
    have hm := List.mem_of_getLast? hl
    rw [← hs] at hl
    obtain ⟨front, e, -, hd⟩ := splitDots_last.1 hl
    have := last_kept (front := front) (h last hm).1 hd
    rw [← e] at this
    rw [ipv4Parts_self this.1 this.2, hs]
  · rw [ipv4Parts_dot, hs]

theorem urlIpv4_iff (t : Text) (ip : Ipv4) : urlIpv4 t = some ip ↔ IsUrlIpv4 t ip := by
  unfold urlIpv4 IsUrlIpv4
  constructor
  · intro h
    split at h
    · cases h
    · next hlen =>
      rw [Option.bind_eq_some_iff] at h
      obtain ⟨ns, hns, h⟩ := h
      rw [mapM_rel ipv4Number_iff] at hns
      split at h
      · cases h
      · next last hl =>
        obtain ⟨front, rfl⟩ := List.getLast?_eq_some_iff.1 hl
        have hfl := forall₂_length hns
        simp only [List.length_append, List.length_singleton, List.dropLast_concat] at hfl h
        split at h
        · cases h
        · next h1 =>
          split at h
          · cases h
          · next h2 =>
            have h2' : ∀ n ∈ front, n ≤ 255 := fun n hn => by
              have : ¬ 255 < n := fun hlt => h2 (List.any_eq_true.2 ⟨n, hn, by simpa using hlt⟩)
              omega
            have hv := ipv4_value_lt (last := last) (by omega) h2' (by omega)
            have hd : ∃ tail, t = ((ipv4Parts t).intersperse ['.']).flatten ++ tail ∧ (tail = [] ∨ tail = ['.']) := by
              rcases ipv4Parts_cases t with ⟨rfl, e⟩ | ⟨t', rfl, e⟩ | ⟨-, -, e⟩
              · exact ⟨[], by rw [e]; rfl, .inl rfl⟩
              · exact ⟨['.'], by rw [e, parts_join], .inr rfl⟩
              · exact ⟨[], by rw [e, parts_join, List.append_nil], .inl rfl⟩
            obtain ⟨tail, hd, ht⟩ := hd
            refine ⟨ipv4Parts t, tail, front, last, hd, ht, hns, by omega, h2', by omega, ?_⟩
            cases h
            rw [ipv4_value front (by omega), BitVec.toNat_ofNat]
            omega
  · rintro ⟨parts, tail, front, last, rfl, ht, hns, hlen, hf, hl, hip⟩
    have hfl := forall₂_length hns
    simp only [List.length_append, List.length_singleton] at hfl
    have hp : ipv4Parts ((parts.intersperse ['.']).flatten ++ tail) = parts :=
      ipv4Parts_join (fun e => by subst e; simp at hfl) (forall₂_ne hns) ht
    rw [hp, if_neg (by omega), (mapM_rel ipv4Number_iff _ _).2 hns, Option.bind_some]
    simp only [List.getLast?_append, List.getLast?_singleton, Option.some_or, List.dropLast_concat]
    rw [if_neg (by omega), if_neg]
    · congr 1
      obtain ⟨b⟩ := ip
      congr 1
      apply BitVec.eq_of_toNat_eq
      rw [ipv4_value front hlen, BitVec.toNat_ofNat, hip]
      have := ipv4_value_lt hlen hf hl
      omega
    · intro h
      obtain ⟨n, hn, h⟩ := List.any_eq_true.1 h
      have := hf n hn
      simp at h
      omega

end Demag
