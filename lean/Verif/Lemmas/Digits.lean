import Verif.Spec.Digits

/-! Helper lemmas about positional numerals. -/

namespace Demag

open Spec

/-- Fixed-width most-significant-first digits of `n` in base `b` (helper used only in proofs). -/
def toDigits (b : Nat) : Nat → Nat → List Nat
  | 0, _ => []
  | w + 1, n => (n / b ^ w) % b :: toDigits b w n

@[simp] theorem toDigits_length (b w n : Nat) : (toDigits b w n).length = w := by
  induction w <;> simp_all [toDigits]

theorem toDigits_lt {b : Nat} (hb : 0 < b) (w n : Nat) : ∀ d ∈ toDigits b w n, d < b := by
  induction w with
  | zero => simp [toDigits]
  | succ w ih =>
    intro d hd
    simp only [toDigits, List.mem_cons] at hd
    rcases hd with rfl | hd
    · exact Nat.mod_lt _ hb
    · exact ih d hd

theorem ofDigits_append (b : Nat) (xs ys : List Nat) :
    ofDigits b (xs ++ ys) = ofDigits b xs * b ^ ys.length + ofDigits b ys := by
  induction xs with
  | nil => simp [ofDigits]
  | cons x xs ih =>
    simp only [List.cons_append, ofDigits, ih, List.length_append, Nat.pow_add, Nat.add_mul,
      Nat.mul_assoc, Nat.add_assoc]

theorem ofDigits_lt {b : Nat} (ds : List Nat) (h : ∀ d ∈ ds, d < b) :
    ofDigits b ds < b ^ ds.length := by
  induction ds with
  | nil => simp [ofDigits]
  | cons d ds ih =>
    have h1 := ih (fun x hx => h x (List.mem_cons_of_mem _ hx))
    have h2 : d < b := h d (List.mem_cons_self ..)
    simp only [ofDigits, List.length_cons, Nat.pow_succ]
    calc d * b ^ ds.length + ofDigits b ds
        < d * b ^ ds.length + b ^ ds.length := by omega
      _ = (d + 1) * b ^ ds.length := by rw [Nat.add_mul, Nat.one_mul]
      _ ≤ b * b ^ ds.length := Nat.mul_le_mul_right _ h2
      _ = b ^ ds.length * b := Nat.mul_comm ..

theorem ofDigits_toDigits (b w n : Nat) : ofDigits b (toDigits b w n) = n % b ^ w := by
  induction w with
  | zero => simp [toDigits, ofDigits, Nat.mod_one]
  | succ w ih =>
    simp only [toDigits, ofDigits, ih, toDigits_length]
    rw [Nat.pow_succ, Nat.mod_mul, Nat.mul_comm, Nat.add_comm]

theorem toDigits_mod (b w n m : Nat) : w ≤ m → toDigits b w (n % b ^ m) = toDigits b w n := by
  induction w with
  | zero => simp [toDigits]
  | succ w ih =>
    intro h
    simp only [toDigits]
    rw [ih (by omega)]
    congr 1
    obtain ⟨k, rfl⟩ : ∃ k, m = w + 1 + k := ⟨m - (w+1), by omega⟩
    rw [Nat.pow_add, Nat.pow_succ]
    rw [Nat.mul_assoc, Nat.mod_mul_right_div_self, Nat.mod_mul_right_mod]

theorem toDigits_ofDigits {b : Nat} (ds : List Nat) (h : ∀ d ∈ ds, d < b) :
    toDigits b ds.length (ofDigits b ds) = ds := by
  induction ds with
  | nil => simp [toDigits]
  | cons d ds ih =>
    have hd : d < b := h d (List.mem_cons_self ..)
    have htl : ∀ x ∈ ds, x < b := fun x hx => h x (List.mem_cons_of_mem _ hx)
    have hlt := ofDigits_lt ds htl
    have hpos : 0 < b ^ ds.length := by omega
    simp only [List.length_cons, toDigits, ofDigits]
    congr 1
    · rw [Nat.add_comm, Nat.add_mul_div_right _ _ hpos, Nat.div_eq_of_lt hlt, Nat.zero_add,
        Nat.mod_eq_of_lt hd]
    · rw [← toDigits_mod b ds.length _ ds.length (Nat.le_refl _), Nat.add_comm,
        Nat.add_mul_mod_self_right, Nat.mod_eq_of_lt hlt, ih htl]

theorem toDigits_add (b v w n : Nat) :
    toDigits b (v + w) n = toDigits b v (n / b ^ w) ++ toDigits b w n := by
  induction v with
  | zero => simp [toDigits]
  | succ v ih =>
    have : v + 1 + w = (v + w) + 1 := by omega
    rw [this]
    simp only [toDigits, List.cons_append, ih]
    rw [Nat.div_div_eq_div_mul, ← Nat.pow_add, Nat.add_comm w v]

theorem ofDigits_inj {b : Nat} {xs ys : List Nat} (hx : ∀ d ∈ xs, d < b) (hy : ∀ d ∈ ys, d < b)
    (hl : xs.length = ys.length) (h : ofDigits b xs = ofDigits b ys) : xs = ys := by
  rw [← toDigits_ofDigits xs hx, ← toDigits_ofDigits ys hy, hl, h]

theorem ofDigits_foldl (b : Nat) (ds : List Nat) (acc : Nat) :
    ds.foldl (fun a d => a * b + d) acc = acc * b ^ ds.length + ofDigits b ds := by
  induction ds generalizing acc with
  | nil => simp [ofDigits]
  | cons d ds ih =>
    simp only [List.foldl_cons, ih, ofDigits, List.length_cons, Nat.pow_succ, Nat.add_mul]
    rw [Nat.mul_assoc, Nat.mul_comm b, Nat.add_assoc]

end Demag
