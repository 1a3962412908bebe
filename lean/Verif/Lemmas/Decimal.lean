import Verif.Lemmas.Digits
import Verif.Spec.TrackerUrl

/-! Helper lemmas about decimal numerals. -/

namespace Demag

open Spec

theorem digit_isDigit : ∀ d, d < 10 → (Char.ofNat (48 + d)).isDigit = true := by decide
theorem digit_value : ∀ d, d < 10 → digitValue (Char.ofNat (48 + d)) = d := by decide
theorem digit_zero : ∀ d, d < 10 → Char.ofNat (48 + d) = '0' → d = 0 := by decide

theorem ofDigits_snoc (b : Nat) (ds : List Nat) (d : Nat) : ofDigits b (ds ++ [d]) = ofDigits b ds * b + d := by
  induction ds with
  | nil => simp [ofDigits]
  | cons x xs ih =>
    simp only [List.cons_append, ofDigits, ih, List.length_append, List.length_cons, List.length_nil, Nat.pow_succ,
      Nat.zero_add, Nat.add_mul, Nat.mul_assoc, Nat.add_assoc]

/-- Printing a number gives its decimal numeral. -/
theorem decimal_isDecimal (n : Nat) : IsDecimal n (decimal n) := by
  fun_induction decimal n with
  | case1 n h =>
    refine ⟨by simp, by simpa using digit_isDigit n h, by simp [ofDigits, digit_value n h], ?_⟩
    intro hh
    simp only [List.head?_cons, Option.some.injEq] at hh
    rw [hh]
  | case2 n h ih =>
    obtain ⟨h1, h2, h3, h4⟩ := ih
    have hm : n % 10 < 10 := Nat.mod_lt _ (by omega)
    refine ⟨by simp, ?_, ?_, ?_⟩
    · intro c hc
      rcases List.mem_append.1 hc with hc | hc
      · exact h2 c hc
      · rw [List.mem_singleton.1 hc]; exact digit_isDigit _ hm
    · rw [List.map_append, List.map_singleton, ofDigits_snoc, h3, digit_value _ hm]; omega
    · intro hh
      rw [List.head?_append] at hh
      cases hd : (decimal (n / 10)).head? with
      | none => rw [List.head?_eq_none_iff] at hd; exact absurd hd h1
      | some c =>
        rw [hd] at hh
        simp only [Option.some_or, Option.some.injEq] at hh
        rw [hh] at hd
        have h5 := h4 hd
        rw [h5] at h3
        have : n / 10 = 0 := by rw [← h3]; decide
        omega

/-- Numerals are unique. -/
theorem takeWhile_digits {t r : Text} (ht : ∀ c ∈ t, c.isDigit = true) (hr : ∀ c ∈ r.head?, c.isDigit = false) :
    (t ++ r).takeWhile (·.isDigit) = t ∧ (t ++ r).dropWhile (·.isDigit) = r := by
  induction t with
  | nil =>
    cases r with
    | nil => simp
    | cons c cs => have := hr c (by simp); simp [this]
  | cons c cs ih =>
    have := ih (fun x hx => ht x (by simp [hx]))
    simp [ht c (by simp), this]

end Demag
