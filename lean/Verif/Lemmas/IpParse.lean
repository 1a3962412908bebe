import Verif.Model.IpParse
import Verif.Spec.IpText
import Verif.Lemmas.Decimal

/-! Helper lemmas about the parser of addresses. -/

namespace Demag

open Spec

theorem toDigit16 (c : Char) : toDigit 16 c = hexDigit c := by
  have h : ∀ a b : Char, (a ≤ c ∧ c ≤ b) ↔ (a.toNat ≤ c.toNat ∧ c.toNat ≤ b.toNat) := fun a b => Iff.rfl
  have e0 : '0'.toNat = 48 := rfl
  have e1 : '9'.toNat = 57 := rfl
  have e2 : 'a'.toNat = 97 := rfl
  have e3 : 'f'.toNat = 102 := rfl
  have e4 : 'z'.toNat = 122 := rfl
  have e5 : 'A'.toNat = 65 := rfl
  have e6 : 'F'.toNat = 70 := rfl
  have e7 : 'Z'.toNat = 90 := rfl
  simp only [toDigit, hexDigit, h, e0, e1, e2, e3, e4, e5, e6, e7]
  repeat' split
  all_goals first | rfl | omega | (congr 1; omega)

theorem toDigit10 (c : Char) : toDigit 10 c = if c.isDigit then some (digitValue c) else none := by
  have h : ∀ a b : Char, (a ≤ c ∧ c ≤ b) ↔ (a.toNat ≤ c.toNat ∧ c.toNat ≤ b.toNat) := fun a b => Iff.rfl
  have hd : (c.isDigit = true) ↔ (48 ≤ c.toNat ∧ c.toNat ≤ 57) := by
    simp only [Char.isDigit, Bool.and_eq_true, decide_eq_true_eq]; exact Iff.rfl
  have e0 : '0'.toNat = 48 := rfl
  have e1 : '9'.toNat = 57 := rfl
  have e2 : 'a'.toNat = 97 := rfl
  have e4 : 'z'.toNat = 122 := rfl
  have e5 : 'A'.toNat = 65 := rfl
  have e7 : 'Z'.toNat = 90 := rfl
  simp only [toDigit, h, hd, e0, e1, e2, e4, e5, e7, digitValue]
  repeat' split
  all_goals first | rfl | omega | (congr 1; omega)

theorem takeWhile_stop {α : Type} {p : α → Bool} {t r : List α} (ht : ∀ c ∈ t, p c = true) (hr : ∀ c ∈ r.head?, p c = false) :
    (t ++ r).takeWhile p = t ∧ (t ++ r).dropWhile p = r := by
  induction t with
  | nil =>
    cases r with
    | nil => simp
    | cons c cs => have := hr c (by simp); simp [this]
  | cons c cs ih =>
    have := ih (fun x hx => ht x (by simp [hx]))
    simp [ht c (by simp), this]

theorem foldl_digits (radix : Nat) (f : Char → Nat) (ds : Text) :
    ds.foldl (fun r c => r * radix + f c) 0 = ofDigits radix (ds.map f) := by
  have := ofDigits_foldl radix (ds.map f) 0
  rw [List.foldl_map] at this
  simpa using this

/-- What `readNumber` reads. -/
theorem readNumber_iff {radix : Nat} {m : Option Nat} {z : Bool} {bound : Nat} {s r : Text} {n : Nat} :
    readNumber radix m z bound s = some (n, r) ↔
      ∃ ds, s = ds ++ r ∧ ds ≠ [] ∧ (∀ c ∈ ds, (toDigit radix c).isSome = true) ∧
        (∀ c ∈ r.head?, (toDigit radix c).isSome = false) ∧ (∀ k ∈ m, ds.length ≤ k) ∧
        (z = true ∨ (ds.head? = some '0' → ds.length ≤ 1)) ∧
        ofDigits radix (ds.map fun c => (toDigit radix c).getD 0) = n ∧ n < bound := by
  have core : ∀ ds r : Text, (∀ c ∈ ds, (toDigit radix c).isSome = true) → (∀ c ∈ r.head?, (toDigit radix c).isSome = false) →
      readNumber radix m z bound (ds ++ r) =
        if ds ≠ [] ∧ (∀ k ∈ m, ds.length ≤ k) ∧ (z = true ∨ (ds.head? = some '0' → ds.length ≤ 1)) ∧
          ofDigits radix (ds.map fun c => (toDigit radix c).getD 0) < bound
        then some (ofDigits radix (ds.map fun c => (toDigit radix c).getD 0), r) else none := by
    intro ds r h1 h2
    obtain ⟨e1, e2⟩ := takeWhile_stop (p := fun c => (toDigit radix c).isSome) h1 h2
    simp only [readNumber, e1, e2, foldl_digits]
    by_cases c1 : ds = []
    · simp [c1]
    rw [if_neg (by simpa using c1)]
    by_cases c2 : ∀ k ∈ m, ds.length ≤ k
    · rw [if_neg (by
        cases m with
        | none => simp
        | some k => have := c2 k rfl; simp; omega)]
      by_cases c3 : z = true ∨ (ds.head? = some '0' → ds.length ≤ 1)
      · rw [if_neg (by
          rcases c3 with c3 | c3
          · simp [c3]
          · simp only [Bool.and_eq_true, beq_iff_eq, decide_eq_true_eq, not_and]
            intro h h'
            have := c3 h.2
            omega)]
        by_cases c4 : ofDigits radix (ds.map fun c => (toDigit radix c).getD 0) < bound
        · rw [if_pos c4, if_pos ⟨c1, c2, c3, c4⟩]
        · rw [if_neg c4, if_neg (fun h => c4 h.2.2.2)]
      · rw [if_pos (by
          cases z with
          | true => exact absurd (.inl rfl) c3
          | false =>
            simp only [Bool.and_eq_true, beq_iff_eq, decide_eq_true_eq, Bool.not_false, true_and]
            refine Decidable.byContradiction fun h => c3 (.inr fun h' => ?_)
            refine Decidable.byContradiction fun h'' => h ⟨h', by omega⟩), if_neg (fun h => c3 h.2.2.1)]
    · rw [if_pos (by
        cases m with
        | none => exact absurd (fun k hk => by cases hk) c2
        | some k =>
          simp only [Option.any_some, decide_eq_true_eq]
          refine Decidable.byContradiction fun h => c2 ?_
          intro k' hk'
          cases hk'
          omega), if_neg (fun h => c2 h.2.1)]
  constructor
  · intro h
    have e : s = s.takeWhile (fun c => (toDigit radix c).isSome) ++ s.dropWhile (fun c => (toDigit radix c).isSome) :=
      List.takeWhile_append_dropWhile.symm
    have h2 : ∀ c ∈ (s.dropWhile (fun c => (toDigit radix c).isSome)).head?, (toDigit radix c).isSome = false := by
      intro c hc
      have := List.head?_dropWhile_not (fun c => (toDigit radix c).isSome) s
      rw [show (s.dropWhile (fun c => (toDigit radix c).isSome)).head? = some c from hc] at this
      simpa using this
    have h1 : ∀ c ∈ s.takeWhile (fun c => (toDigit radix c).isSome), (toDigit radix c).isSome = true := by
      intro c hc
      exact List.all_eq_true.1 (List.all_takeWhile (l := s) (p := fun c => (toDigit radix c).isSome)) c hc
    have := core _ _ h1 h2
    rw [← e, h] at this
    split at this
    · next hc =>
      simp only [Option.some.injEq, Prod.mk.injEq] at this
      obtain ⟨rfl, rfl⟩ := this
      exact ⟨_, e, hc.1, h1, h2, hc.2.1, hc.2.2.1, rfl, hc.2.2.2⟩
    · cases this
  · rintro ⟨ds, rfl, h0, h1, h2, h3, h4, rfl, h5⟩
    rw [core ds r h1 h2, if_pos ⟨h0, h3, h4, h5⟩]

theorem toDigit10_isSome (c : Char) : (toDigit 10 c).isSome = c.isDigit := by
  rw [toDigit10]; cases c.isDigit <;> rfl

theorem map_toDigit10 (t : Text) (h : ∀ c ∈ t, c.isDigit = true) :
    t.map (fun c => (toDigit 10 c).getD 0) = t.map digitValue := by
  apply List.map_congr_left
  intro c hc
  rw [toDigit10, if_pos (h c hc)]
  rfl

/-- A numeral has few digits if its value is small. -/
theorem digits_length {t : Text} {n k : Nat} (h0 : ∀ c ∈ t, c.isDigit = true)
    (h1 : t.head? = some '0' → t = ['0']) (h2 : ofDigits 10 (t.map digitValue) = n) (h3 : n < 10 ^ k) (hk : 0 < k) : t.length ≤ k := by
  cases t with
  | nil => simp
  | cons c t =>
    by_cases hc : c = '0'
    · have := h1 (by simp [hc]); rw [this]; exact hk
    · have hd : 1 ≤ digitValue c := by
        have := h0 c (by simp)
        simp only [Char.isDigit, Bool.and_eq_true, decide_eq_true_eq] at this
        have h48 : 48 ≤ c.toNat := this.1
        have : c.toNat ≠ 48 := fun e => hc (by
          have := Char.ofNat_toNat c
          rw [e] at this
          exact this.symm)
        unfold digitValue
        omega
      simp only [List.map_cons, ofDigits, List.length_map] at h2
      have : 10 ^ t.length ≤ n := by
        have : 1 * 10 ^ t.length ≤ digitValue c * 10 ^ t.length := Nat.mul_le_mul_right _ hd
        omega
      have : 10 ^ t.length < 10 ^ k := by omega
      have := (Nat.pow_lt_pow_iff_right (by omega : 1 < 10)).1 this
      exact this

/-- An octet is what is read as one. -/
theorem readOctet_iff {s r : Text} {n : Nat} :
    readNumber 10 (some 3) false 256 s = some (n, r) ↔
      ∃ t, s = t ++ r ∧ IsOctet n t ∧ ∀ c ∈ r.head?, c.isDigit = false := by
  rw [readNumber_iff]
  simp only [toDigit10_isSome]
  constructor
  · rintro ⟨ds, rfl, h0, h1, h2, -, h4, h5, h6⟩
    rw [map_toDigit10 ds h1] at h5
    refine ⟨ds, rfl, ⟨⟨h0, h1, h5, ?_⟩, h6⟩, h2⟩
    intro hz
    have h4 := (h4.resolve_left (by simp)) hz
    cases ds with
    | nil => cases hz
    | cons c ds =>
      simp only [List.length_cons] at h4
      have : ds = [] := List.length_eq_zero_iff.1 (by omega)
      subst this
      simpa using hz
  · rintro ⟨t, rfl, ⟨⟨h0, h1, h5, h4⟩, h6⟩, h2⟩
    refine ⟨t, rfl, h0, h1, h2, ?_, .inr fun h => by simp [h4 h], by rw [map_toDigit10 t h1]; exact h5, h6⟩
    intro k hk
    cases hk
    exact digits_length h1 h4 h5 (by omega) (by omega)

/-- A number with leading zeros is what is read as one. -/
theorem readNum_iff {s r : Text} {n bound : Nat} :
    readNumber 10 none true bound s = some (n, r) ↔
      ∃ t, s = t ++ r ∧ IsNumber bound n t ∧ ∀ c ∈ r.head?, c.isDigit = false := by
  rw [readNumber_iff]
  simp only [toDigit10_isSome]
  constructor
  · rintro ⟨ds, rfl, h0, h1, h2, -, -, h5, h6⟩
    rw [map_toDigit10 ds h1] at h5
    exact ⟨ds, rfl, ⟨h0, h1, h5, h6⟩, h2⟩
  · rintro ⟨t, rfl, ⟨h0, h1, h5, h6⟩, h2⟩
    exact ⟨t, rfl, h0, h1, h2, (fun k hk => nomatch hk), .inl trivial, (by rw [map_toDigit10 t h1]; exact h5), h6⟩

theorem mapM_hexDigit (t : Text) (ds : List Nat) :
    t.mapM hexDigit = some ds ↔ (∀ c ∈ t, (hexDigit c).isSome = true) ∧ t.map (fun c => (hexDigit c).getD 0) = ds := by
  induction t generalizing ds with
  | nil => simp
  | cons c t ih =>
    cases hc : hexDigit c with
    | none => simp [List.mapM_cons, hc]
    | some d =>
      cases ht : t.mapM hexDigit with
      | none =>
        have : ¬ ∀ c ∈ t, (hexDigit c).isSome = true := by
          intro h
          have := (ih _).2 ⟨h, rfl⟩
          rw [ht] at this
          cases this
        simp only [List.mapM_cons, hc, ht, List.mem_cons, forall_eq_or_imp, Option.isSome_some, true_and]
        constructor
        · intro h; cases h
        · intro h; exact absurd h.1 this
      | some es =>
        have := (ih es).1 ht
        simp only [List.mapM_cons, hc, ht, List.mem_cons, forall_eq_or_imp, Option.isSome_some, true_and, List.map_cons,
          Option.getD_some]
        constructor
        · intro h; cases h; exact ⟨this.1, by rw [this.2]⟩
        · rintro ⟨-, h⟩; rw [this.2] at h; rw [← h]; rfl

theorem hexDigit_lt (c : Char) : (hexDigit c).getD 0 < 16 := by
  have h : ∀ a b : Char, (a ≤ c ∧ c ≤ b) ↔ (a.toNat ≤ c.toNat ∧ c.toNat ≤ b.toNat) := fun a b => Iff.rfl
  have e0 : '0'.toNat = 48 := rfl
  have e1 : '9'.toNat = 57 := rfl
  have e2 : 'a'.toNat = 97 := rfl
  have e3 : 'f'.toNat = 102 := rfl
  have e5 : 'A'.toNat = 65 := rfl
  have e6 : 'F'.toNat = 70 := rfl
  simp only [hexDigit, h, e0, e1, e2, e3, e5, e6]
  repeat' split
  all_goals simp only [Option.getD_some, Option.getD_none]
  all_goals omega

theorem isGroup_lt {n : Nat} {t : Text} (h : IsGroup n t) : n < 65536 := by
  obtain ⟨-, h1, ds, h2, rfl⟩ := h
  have h3 := (mapM_hexDigit t ds).1 h2
  have : ofDigits 16 ds < 16 ^ ds.length := by
    apply ofDigits_lt
    intro d hd
    rw [← h3.2] at hd
    obtain ⟨c, -, rfl⟩ := List.mem_map.1 hd
    exact hexDigit_lt c
  have hl : ds.length ≤ 4 := by rw [← h3.2]; simpa using h1
  have : 16 ^ ds.length ≤ 16 ^ 4 := Nat.pow_le_pow_right (by omega) hl
  omega

/-- A group is what is read as one. -/
theorem readGroup_iff {s r : Text} {n : Nat} :
    readNumber 16 (some 4) true 65536 s = some (n, r) ↔
      ∃ t, s = t ++ r ∧ IsGroup n t ∧ ∀ c ∈ r.head?, (hexDigit c).isSome = false := by
  rw [readNumber_iff]
  simp only [toDigit16]
  constructor
  · rintro ⟨ds, rfl, h0, h1, h2, h3, -, h5, -⟩
    exact ⟨ds, rfl, ⟨h0, h3 4 rfl, _, (mapM_hexDigit _ _).2 ⟨h1, rfl⟩, h5⟩, h2⟩
  · rintro ⟨t, rfl, hg, h2⟩
    have hlt := isGroup_lt hg
    obtain ⟨h0, h3, ds, h4, rfl⟩ := hg
    have h5 := (mapM_hexDigit t ds).1 h4
    exact ⟨t, rfl, h0, h5.1, h2, fun k hk => by cases hk; exact h3, .inl trivial, by rw [h5.2], hlt⟩

theorem readGivenChar_iff {c : Char} {s r : Text} : readGivenChar c s = some r ↔ s = c :: r := by
  cases s with
  | nil => simp [readGivenChar]
  | cons x s =>
    simp only [readGivenChar, List.cons.injEq]
    split
    · next h => simp [h]
    · next h => simp [h]

theorem digit_dot : ('.' : Char).isDigit = false := by decide

/-- Four octets are what is read as an IPv4 address. -/
theorem readIpv4_iff {s r : Text} {n : Nat} :
    readIpv4 s = some (n, r) ↔ ∃ t, s = t ++ r ∧ IsDotted t n ∧ ∀ c ∈ r.head?, c.isDigit = false := by
  simp only [readIpv4, Option.bind_eq_bind, Option.bind_eq_some_iff, Option.pure_def, Option.some.injEq, Prod.mk.injEq,
    Prod.exists, readOctet_iff, readGivenChar_iff]
  constructor
  · rintro ⟨a, s1, ⟨ta, rfl, ha, -⟩, s2, rfl, b, s3, ⟨tb, rfl, hb, -⟩, s4, rfl, c, s5, ⟨tc, rfl, hc, -⟩, s6, rfl,
      d, s7, ⟨td, rfl, hd, hr⟩, rfl, rfl⟩
    exact ⟨_, by simp, ⟨a, b, c, d, ta, tb, tc, td, ha, hb, hc, hd, rfl, rfl⟩, hr⟩
  · rintro ⟨t, rfl, ⟨a, b, c, d, ta, tb, tc, td, ha, hb, hc, hd, rfl, rfl⟩, hr⟩
    have dot : ∀ (x : Text), ∀ c ∈ ('.' :: x).head?, c.isDigit = false := by
      intro x c hc
      cases hc
      rfl
    exact ⟨a, _, ⟨ta, by simp, ha, dot _⟩, _, rfl, b, _, ⟨tb, rfl, hb, dot _⟩, _, rfl, c, _, ⟨tc, rfl, hc, dot _⟩, _, rfl,
      d, _, ⟨td, rfl, hd, hr⟩, rfl, rfl⟩

/-! ### Groups -/

/-- What may follow a group or an IPv4 address without being taken for a part of it. -/
def Ends (r : Text) : Prop := ∀ c ∈ r.head?, hexDigit c = none ∧ c ≠ '.'

theorem hexDigit_of_isDigit {c : Char} (h : c.isDigit = true) : hexDigit c ≠ none := by
  rw [← toDigit16]
  have h10 := toDigit10 c
  rw [if_pos h] at h10
  have hd : 48 ≤ c.toNat ∧ c.toNat ≤ 57 := by
    simp only [Char.isDigit, Bool.and_eq_true, decide_eq_true_eq] at h; exact h
  have : ('0' ≤ c ∧ c ≤ '9') := hd
  simp only [toDigit, if_pos this]
  rw [if_pos (by omega)]
  simp

theorem ends_digit {r : Text} (h : Ends r) : ∀ c ∈ r.head?, c.isDigit = false := by
  intro c hc
  have := (h c hc).1
  cases e : c.isDigit with
  | false => rfl
  | true => exact absurd this (hexDigit_of_isDigit e)

theorem ends_hex {r : Text} (h : Ends r) : ∀ c ∈ r.head?, (hexDigit c).isSome = false := by
  intro c hc
  rw [(h c hc).1]; rfl

theorem ends_colon (r : Text) : Ends (':' :: r) := by
  intro c hc
  cases hc
  decide

theorem group_hex {n : Nat} {t : Text} (h : IsGroup n t) : ∀ c ∈ t, hexDigit c ≠ none := by
  obtain ⟨-, -, ds, h2, -⟩ := h
  intro c hc e
  have := ((mapM_hexDigit t ds).1 h2).1 c hc
  rw [e] at this
  cases this

/-- A group is not taken for an IPv4 address. -/
theorem readIpv4_group {n : Nat} {t r : Text} (h : IsGroup n t) (hr : Ends r) : readIpv4 (t ++ r) = none := by
  cases e : readIpv4 (t ++ r) with
  | none => rfl
  | some p =>
    obtain ⟨v, r'⟩ := p
    obtain ⟨t', h1, ⟨a, b, c, d, ta, tb, tc, td, ha, -, -, -, rfl, -⟩, -⟩ := readIpv4_iff.1 e
    rw [List.append_assoc, List.cons_append] at h1
    rcases List.append_eq_append_iff.1 h1 with ⟨x, hx, hy⟩ | ⟨x, hx, hy⟩
    · cases x with
      | nil => exact absurd rfl (hr '.' (by rw [hy]; rfl)).2
      | cons y x =>
        have h1 : y.isDigit = true := ha.1.2.1 y (by rw [hx]; simp)
        have h2 := (hr y (by rw [hy]; rfl)).1
        exact absurd h2 (hexDigit_of_isDigit h1)
    · cases x with
      | nil =>
        simp only [List.nil_append] at hy
        exact absurd rfl (hr '.' (by rw [← hy]; rfl)).2
      | cons y x =>
        have : y = '.' := (List.cons.inj hy).1.symm
        subst this
        exact absurd (by decide) (group_hex h '.' (by rw [hx]; simp))

theorem readIpv4_colon (r : Text) : readIpv4 (':' :: r) = none := by
  cases e : readIpv4 (':' :: r) with
  | none => rfl
  | some p =>
    obtain ⟨v, r'⟩ := p
    obtain ⟨t', h1, ⟨a, b, c, d, ta, tb, tc, td, ha, -, -, -, rfl, -⟩, -⟩ := readIpv4_iff.1 e
    cases ta with
    | nil => exact absurd rfl ha.1.1
    | cons y ta =>
      have := (List.cons.inj h1).1
      subst this
      exact absurd (ha.1.2.1 ':' (by simp)) (by decide)

/-- Nothing is read here. -/
def Stops (first : Bool) (r : Text) : Prop :=
  (readSeparator first r).bind readIpv4 = none ∧
  (readSeparator first r).bind (readNumber 16 (some 4) true 65536) = none

theorem readIpv4_none {r : Text} (h : Ends r) : readIpv4 r = none := by
  cases e : readIpv4 r with
  | none => rfl
  | some p =>
    obtain ⟨v, r'⟩ := p
    obtain ⟨t', rfl, ⟨a, b, c, d, ta, tb, tc, td, ha, -, -, -, rfl, -⟩, -⟩ := readIpv4_iff.1 e
    cases ta with
    | nil => exact absurd rfl ha.1.1
    | cons y ta => exact absurd (h y rfl).1 (hexDigit_of_isDigit (ha.1.2.1 y (by simp)))

theorem readGroup_none {r : Text} (h : Ends r) : readNumber 16 (some 4) true 65536 r = none := by
  cases e : readNumber 16 (some 4) true 65536 r with
  | none => rfl
  | some p =>
    obtain ⟨v, r'⟩ := p
    obtain ⟨t, rfl, hg, -⟩ := readGroup_iff.1 e
    cases t with
    | nil => exact absurd rfl hg.1
    | cons y t => exact absurd (h y rfl).1 (group_hex hg y (by simp))

theorem stops_true {r : Text} (h : Ends r) : Stops true r := ⟨readIpv4_none h, readGroup_none h⟩

theorem stops_false {r : Text} (h : ∀ c ∈ r.head?, c ≠ ':') : Stops false r := by
  have : readGivenChar ':' r = none := by
    cases r with
    | nil => rfl
    | cons c r => simp [readGivenChar, h c rfl]
  simp [Stops, readSeparator, this]

theorem stops_colons (r : Text) : Stops false (':' :: ':' :: r) := stops_true (ends_colon r)

theorem readGroups_stop {k : Nat} {first : Bool} {r : Text} (h : Stops first r) : readGroups k first r = ([], false, r) := by
  cases k with
  | zero => rfl
  | succ k =>
    rw [readGroups, h.2, h.1]
    split
    · next h => split at h <;> cases h
    · rfl

/-- The separator in front of a group. -/
def sepText (first : Bool) : Text := if first then [] else [':']

theorem readSeparator_sep (first : Bool) (t : Text) : readSeparator first (sepText first ++ t) = some t := by
  cases first <;> simp [readSeparator, sepText, readGivenChar]

theorem readSeparator_iff {first : Bool} {s t : Text} : readSeparator first s = some t ↔ s = sepText first ++ t := by
  cases first with
  | true => simp [readSeparator, sepText]
  | false => simp [readSeparator, sepText, readGivenChar_iff]

theorem readGroups_group {k : Nat} {first : Bool} {n : Nat} {t r : Text} (h : IsGroup n t) (hr : Ends r) :
    readGroups (k + 1) first (sepText first ++ (t ++ r)) =
      (n :: (readGroups k false r).1, (readGroups k false r).2.1, (readGroups k false r).2.2) := by
  rw [readGroups, readSeparator_sep]
  simp only [Option.bind_some]
  rw [readIpv4_group h hr, readGroup_iff.2 ⟨t, rfl, h, ends_hex hr⟩]
  split
  · next h => split at h <;> cases h
  · rfl

theorem readGroups_hex {t : Text} {gs : List Nat} (h : IsHexGroups t gs) : ∀ (k : Nat) (first : Bool) (r : Text), gs.length ≤ k →
    Ends r → (gs.length = k ∨ Stops false r) → readGroups k first (sepText first ++ (t ++ r)) = (gs, false, r) := by
  induction h with
  | one h =>
    intro k first r hk hr hs
    cases k with
    | zero => simp at hk
    | succ k =>
      rw [readGroups_group h hr]
      rcases hs with hs | hs
      · simp only [List.length_cons, List.length_nil, Nat.zero_add] at hs
        obtain rfl : k = 0 := by omega
        rfl
      · rw [readGroups_stop hs]
  | more h _ ih =>
    intro k first r hk hr hs
    cases k with
    | zero => simp at hk
    | succ k =>
      rw [List.append_assoc, List.cons_append, readGroups_group h (ends_colon _)]
      rw [show ∀ x : Text, ':' :: x = sepText false ++ x from fun _ => rfl,
        ih k false r (by simpa using hk) hr (by
          rcases hs with hs | hs
          · left; simpa using hs
          · exact .inr hs)]

theorem readGroups_any {t : Text} {gs : List Nat} (h : IsGroups t gs) : ∀ (k : Nat) (first : Bool) (r : Text), gs.length ≤ k →
    Ends r → (gs.length = k ∨ Stops false r) → ∃ v, readGroups k first (sepText first ++ (t ++ r)) = (gs, v, r) := by
  induction h with
  | one h =>
    intro k first r hk hr hs
    exact ⟨false, readGroups_hex (.one h) k first r hk hr hs⟩
  | dotted h =>
    intro k first r hk hr hs
    cases k with
    | zero => simp at hk
    | succ k =>
      have hk : 0 < k := by simp at hk; omega
      refine ⟨true, ?_⟩
      rw [readGroups, readSeparator_sep, if_pos hk, Option.bind_some, readIpv4_iff.2 ⟨_, rfl, h, ends_digit hr⟩]
  | more h _ ih =>
    intro k first r hk hr hs
    cases k with
    | zero => simp at hk
    | succ k =>
      obtain ⟨v, e⟩ := ih k false r (by simpa using hk) hr (by
          rcases hs with hs | hs
          · left; simpa using hs
          · exact .inr hs)
      refine ⟨v, ?_⟩
      rw [List.append_assoc, List.cons_append, readGroups_group h (ends_colon _)]
      rw [show ∀ x : Text, ':' :: x = sepText false ++ x from fun _ => rfl, e]

theorem readGroups_sound (k : Nat) (first : Bool) (s : Text) : ∀ (gs : List Nat) (v : Bool) (r : Text),
    readGroups k first s = (gs, v, r) → gs.length ≤ k ∧
      ((gs = [] ∧ v = false ∧ r = s) ∨
        ∃ t, s = sepText first ++ (t ++ r) ∧ IsGroups t gs ∧ (v = false → IsHexGroups t gs)) := by
  induction k generalizing first s with
  | zero =>
    intro gs v r h
    simp only [readGroups, Prod.mk.injEq] at h
    obtain ⟨rfl, rfl, rfl⟩ := h
    exact ⟨Nat.le_refl _, .inl ⟨rfl, rfl, rfl⟩⟩
  | succ k ih =>
    intro gs v r h
    rw [readGroups] at h
    split at h
    · next n r' h4 =>
      split at h4
      · next hk =>
        simp only [Option.bind_eq_some_iff, readSeparator_iff, readIpv4_iff] at h4
        obtain ⟨_, rfl, t, rfl, hd, -⟩ := h4
        simp only [Prod.mk.injEq] at h
        obtain ⟨rfl, rfl, rfl⟩ := h
        exact ⟨by simp; omega, .inr ⟨t, rfl, .dotted hd, by simp⟩⟩
      · cases h4
    · split at h
      · simp only [Prod.mk.injEq] at h
        obtain ⟨rfl, rfl, rfl⟩ := h
        exact ⟨Nat.zero_le _, .inl ⟨rfl, rfl, rfl⟩⟩
      · next g r' hg =>
        simp only [Option.bind_eq_some_iff, readSeparator_iff, readGroup_iff] at hg
        obtain ⟨_, rfl, t, rfl, hg, -⟩ := hg
        simp only [Prod.mk.injEq] at h
        obtain ⟨rfl, rfl, rfl⟩ := h
        obtain ⟨hl, hx⟩ := ih false r' _ _ _ rfl
        refine ⟨by simpa using hl, .inr ?_⟩
        rcases hx with ⟨h1, h2, h3⟩ | ⟨u, h1, h2, h3⟩
        · rw [h1, h3]
          exact ⟨t, rfl, .one hg, fun _ => .one hg⟩
        · refine ⟨t ++ ':' :: u, ?_, .more hg h2, fun hv => .more hg (h3 hv)⟩
          generalize readGroups k false r' = q at h1
          rw [h1]
          simp [sepText]

/-! ### IPv6 addresses -/

theorem readIpv6_sound {s r : Text} {segs : List Nat} (h : readIpv6 s = some (segs, r)) :
    ∃ t, s = t ++ r ∧ IsEightGroups t segs := by
  rw [readIpv6] at h
  cases e : readGroups 8 true s with
  | mk head p =>
    obtain ⟨v, s1⟩ := p
    rw [e] at h
    simp only at h
    obtain ⟨hl, hx⟩ := readGroups_sound 8 true s head v s1 e
    split at h
    · next h8 =>
      simp only [Option.some.injEq, Prod.mk.injEq] at h
      obtain ⟨rfl, rfl⟩ := h
      rcases hx with ⟨rfl, -, -⟩ | ⟨t, rfl, hg, -⟩
      · simp at h8
      · exact ⟨t, by simp [sepText], .inl ⟨hg, h8⟩⟩
    · next h8 =>
      split at h
      · cases h
      · next hv =>
        have hv : v = false := by simpa using hv
        simp only [Option.bind_eq_bind, Option.bind_eq_some_iff, readGivenChar_iff, Option.pure_def, Option.some.injEq,
          Prod.mk.injEq] at h
        obtain ⟨s2, rfl, s3, rfl, h1, h2⟩ := h
        cases e' : readGroups (8 - (head.length + 1)) true s3 with
        | mk tail p =>
          obtain ⟨v', s4⟩ := p
          rw [e'] at h1 h2
          simp only at h1 h2
          subst h2
          obtain ⟨hl', hx'⟩ := readGroups_sound _ true s3 tail v' s4 e'
          have hh : ∃ front, s = front ++ ':' :: ':' :: s3 ∧ (front = [] ∧ head = [] ∨ IsHexGroups front head) := by
            rcases hx with ⟨rfl, -, rfl⟩ | ⟨t, rfl, -, hg⟩
            · exact ⟨[], rfl, .inl ⟨rfl, rfl⟩⟩
            · exact ⟨t, by simp [sepText], .inr (hg hv)⟩
          have ht : ∃ back, s3 = back ++ s4 ∧ (back = [] ∧ tail = [] ∨ IsGroups back tail) := by
            rcases hx' with ⟨rfl, -, rfl⟩ | ⟨t, rfl, hg, -⟩
            · exact ⟨[], rfl, .inl ⟨rfl, rfl⟩⟩
            · exact ⟨t, by simp [sepText], .inr hg⟩
          obtain ⟨front, rfl, hf⟩ := hh
          obtain ⟨back, rfl, hb⟩ := ht
          refine ⟨front ++ ':' :: ':' :: back, by simp, .inr ⟨front, back, head, tail, rfl, hf, hb, by omega, ?_⟩⟩
          rw [← h1, show 8 - head.length - tail.length = 8 - (head.length + tail.length) by omega]

theorem readIpv6_complete {t r : Text} {segs : List Nat} (h : IsEightGroups t segs) (hr : Ends r)
    (hc : ∀ c ∈ r.head?, c ≠ ':') : readIpv6 (t ++ r) = some (segs, r) := by
  rcases h with ⟨hg, h8⟩ | ⟨front, back, ns, ms, rfl, hf, hb, hl, rfl⟩
  · obtain ⟨v, e⟩ := readGroups_any hg 8 true r (by omega) hr (.inl h8)
    rw [readIpv6, show t ++ r = sepText true ++ (t ++ r) from rfl, e]
    simp only [h8, if_true]
  · have hd : readGroups 8 true (front ++ ':' :: ':' :: (back ++ r)) = (ns, false, ':' :: ':' :: (back ++ r)) := by
      rcases hf with ⟨rfl, rfl⟩ | hf
      · exact readGroups_stop (stops_true (ends_colon _))
      · exact readGroups_hex hf 8 true _ (by omega) (ends_colon _) (.inr (stops_colons _))
    have htl : ∃ v, readGroups (8 - (ns.length + 1)) true (back ++ r) = (ms, v, r) := by
      rcases hb with ⟨rfl, rfl⟩ | hb
      · exact ⟨false, readGroups_stop (stops_true hr)⟩
      · exact readGroups_any hb _ true r (by omega) hr (.inr (stops_false hc))
    obtain ⟨v, htl⟩ := htl
    rw [readIpv6, show front ++ ':' :: ':' :: back ++ r = front ++ ':' :: ':' :: (back ++ r) by simp, hd]
    simp only
    rw [if_neg (by omega), if_neg (by simp)]
    simp only [readGivenChar, if_true, Option.bind_eq_bind, Option.bind_some, htl, Option.pure_def]
    rw [show 8 - ns.length - ms.length = 8 - (ns.length + ms.length) by omega]

theorem isDotted_lt {t : Text} {n : Nat} (h : IsDotted t n) : n < 2 ^ 32 := by
  obtain ⟨a, b, c, d, ta, tb, tc, td, ha, hb, hc, hd, rfl, rfl⟩ := h
  have := ha.2
  have := hb.2
  have := hc.2
  have := hd.2
  omega

theorem isGroups_lt {t : Text} {gs : List Nat} (h : IsGroups t gs) : ∀ g ∈ gs, g < 65536 := by
  induction h with
  | one h => simpa using isGroup_lt h
  | dotted h =>
    have := isDotted_lt h
    intro g hg
    simp only [List.mem_cons, List.not_mem_nil, or_false] at hg
    rcases hg with rfl | rfl <;> omega
  | more h _ ih =>
    intro g hg
    rcases List.mem_cons.1 hg with rfl | hg
    · exact isGroup_lt h
    · exact ih g hg

theorem isHexGroups_isGroups {t : Text} {gs : List Nat} (h : IsHexGroups t gs) : IsGroups t gs := by
  induction h with
  | one h => exact .one h
  | more h _ ih => exact .more h ih

theorem eightGroups_ok {t : Text} {segs : List Nat} (h : IsEightGroups t segs) :
    segs.length = 8 ∧ ∀ g ∈ segs, g < 65536 := by
  rcases h with ⟨hg, h8⟩ | ⟨front, back, ns, ms, rfl, hf, hb, hl, rfl⟩
  · exact ⟨h8, isGroups_lt hg⟩
  · refine ⟨by simp; omega, ?_⟩
    intro g hg
    simp only [List.mem_append, List.mem_replicate] at hg
    rcases hg with (hg | ⟨-, rfl⟩) | hg
    · rcases hf with ⟨-, rfl⟩ | hf
      · cases hg
      · exact isGroups_lt (isHexGroups_isGroups hf) g hg
    · omega
    · rcases hb with ⟨-, rfl⟩ | hb
      · cases hg
      · exact isGroups_lt hb g hg

theorem ofSegments_toNat {segs : List Nat} (h8 : segs.length = 8) (h : ∀ g ∈ segs, g < 65536) :
    (Ipv6.ofSegments segs).bits.toNat = ofDigits 65536 segs := by
  have e : segs.foldl (fun acc g => acc * 65536 + g) 0 = ofDigits 65536 segs := by
    have := ofDigits_foldl 65536 segs 0
    simpa using this
  have := ofDigits_lt segs h
  rw [h8] at this
  rw [Ipv6.ofSegments, e, BitVec.toNat_ofNat, Nat.mod_eq_of_lt (by omega)]

theorem ipv6_ofSegments_iff {segs : List Nat} {ip : Ipv6} (h8 : segs.length = 8) (h : ∀ g ∈ segs, g < 65536) :
    Ipv6.ofSegments segs = ip ↔ ip.bits.toNat = ofDigits 65536 segs := by
  rw [← ofSegments_toNat h8 h]
  constructor
  · rintro rfl; rfl
  · intro e
    obtain ⟨b⟩ := ip
    have : b = (Ipv6.ofSegments segs).bits := BitVec.eq_of_toNat_eq e
    rw [this]

theorem hexGroups_readIpv4 {t : Text} {gs : List Nat} (h : IsHexGroups t gs) {r : Text} (hr : Ends r) : readIpv4 (t ++ r) = none := by
  cases h with
  | one h => exact readIpv4_group h hr
  | more h _ => rw [List.append_assoc]; exact readIpv4_group h (ends_colon _)

theorem eightGroups_readIpv4 {t : Text} {segs : List Nat} (h : IsEightGroups t segs) (r : Text) (hr : Ends r) :
    readIpv4 (t ++ r) = none := by
  rcases h with ⟨hg, h8⟩ | ⟨front, back, ns, ms, rfl, hf, hb, hl, rfl⟩
  · cases hg with
    | one h => simp at h8
    | dotted h => simp at h8
    | more h _ => rw [List.append_assoc]; exact readIpv4_group h (ends_colon _)
  · rcases hf with ⟨rfl, rfl⟩ | hf
    · exact readIpv4_colon _
    · rw [List.append_assoc]
      exact hexGroups_readIpv4 hf (ends_colon _)

end Demag
