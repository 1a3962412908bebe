import Verif.Model.Dht
import Verif.Lemmas.Wire

/-!
# C36: the distance between IDs is the XOR metric of Kademlia, and orders nodes
-/

namespace Demag

open Spec

theorem xor_le_add (a b : Nat) : a ^^^ b ≤ a + b := by
  induction a using Nat.strongRecOn generalizing b with
  | _ a ih =>
    cases a with
    | zero => simp
    | succ a =>
      have h := ih ((a + 1) / 2) (by omega) (b / 2)
      rw [← Nat.xor_div_two] at h
      have hm : ((a + 1) ^^^ b) % 2 = 1 ↔ ¬ ((a + 1) % 2 = 1 ↔ b % 2 = 1) := Nat.xor_mod_two_eq_one
      omega

theorem xor_concat (k a b r s : Nat) (hr : r < 2 ^ k) (hs : s < 2 ^ k) :
    (a * 2 ^ k + r) ^^^ (b * 2 ^ k + s) = (a ^^^ b) * 2 ^ k + (r ^^^ s) := by
  have h1 : ((a * 2 ^ k + r) ^^^ (b * 2 ^ k + s)) / 2 ^ k = a ^^^ b := by
    rw [Nat.xor_div_two_pow, Nat.mul_comm a, Nat.mul_comm b, Nat.mul_add_div (Nat.two_pow_pos k), Nat.mul_add_div (Nat.two_pow_pos k),
      Nat.div_eq_of_lt hr, Nat.div_eq_of_lt hs, Nat.add_zero, Nat.add_zero]
  have h2 : ((a * 2 ^ k + r) ^^^ (b * 2 ^ k + s)) % 2 ^ k = r ^^^ s := by
    rw [Nat.xor_mod_two_pow, Nat.mul_comm a, Nat.mul_comm b, Nat.mul_add_mod, Nat.mul_add_mod, Nat.mod_eq_of_lt hr, Nat.mod_eq_of_lt hs]
  have := Nat.div_add_mod ((a * 2 ^ k + r) ^^^ (b * 2 ^ k + s)) (2 ^ k)
  rw [h1, h2, Nat.mul_comm] at this
  exact this.symm

theorem beValue_cons (x : UInt8) (xs : Bytes) : beValue (x :: xs) = x.toNat * 2 ^ (8 * xs.length) + beValue xs := by
  simp [beValue, ofDigits, Nat.pow_mul]

theorem beValue_lt2 (xs : Bytes) : beValue xs < 2 ^ (8 * xs.length) := by
  have := beValue_lt xs
  rwa [Nat.pow_mul]

theorem beValue_xor (xs ys : Bytes) (h : xs.length = ys.length) :
    beValue (List.zipWith (fun a b => a ^^^ b) xs ys) = beValue xs ^^^ beValue ys := by
  induction xs generalizing ys with
  | nil => cases ys with
    | nil => rfl
    | cons => simp at h
  | cons x xs ih =>
    cases ys with
    | nil => simp at h
    | cons y ys =>
      simp only [List.length_cons, Nat.add_right_cancel_iff] at h
      rw [List.zipWith_cons_cons, beValue_cons, beValue_cons, beValue_cons, ih ys h, UInt8.toNat_xor, List.length_zipWith, h,
        Nat.min_self, xor_concat _ _ _ _ _ (h ▸ beValue_lt2 xs) (beValue_lt2 ys)]

theorem bytesLt_beValue (xs ys : Bytes) (h : xs.length = ys.length) : bytesLt xs ys = true ↔ beValue xs < beValue ys := by
  induction xs generalizing ys with
  | nil => cases ys with
    | nil => simp [bytesLt]
    | cons => simp at h
  | cons x xs ih =>
    cases ys with
    | nil => simp at h
    | cons y ys =>
      simp only [List.length_cons, Nat.add_right_cancel_iff] at h
      rw [beValue_cons, beValue_cons]
      simp only [bytesLt, Bool.or_eq_true, Bool.and_eq_true, decide_eq_true_eq]
      rw [ih ys h]
      have hx := beValue_lt2 xs
      have hy := beValue_lt2 ys
      rw [h] at hx ⊢
      constructor
      · rintro (h1 | ⟨rfl, h1⟩)
        · have : (x.toNat + 1) * 2 ^ (8 * ys.length) ≤ y.toNat * 2 ^ (8 * ys.length) := Nat.mul_le_mul_right _ h1
          rw [Nat.add_mul] at this
          omega
        · omega
      · intro h1
        by_cases h2 : x.toNat < y.toNat
        · exact .inl h2
        · right
          have h3 : ¬ y.toNat < x.toNat := by
            intro h3
            have : (y.toNat + 1) * 2 ^ (8 * ys.length) ≤ x.toNat * 2 ^ (8 * ys.length) := Nat.mul_le_mul_right _ h3
            rw [Nat.add_mul] at this
            omega
          have h4 : x.toNat = y.toNat := by omega
          refine ⟨UInt8.toNat_inj.1 h4, ?_⟩
          rw [h4] at h1
          omega

@[simp] theorem distance_length (n : NodeId) (h : InfoHash) : (distance n h).length = 20 := by
  simp [distance, n.len, h.len]

end Demag

namespace Demag.Props

open Demag Spec

/-- **C36.** The distance, read as a big-endian number, is the exclusive or of the two IDs read as big-endian numbers. -/
theorem distance_value (n : NodeId) (h : InfoHash) : beValue (distance n h) = beValue n.bytes ^^^ beValue h.bytes :=
  beValue_xor _ _ (by rw [n.len, h.len])

/-- **C36.** Distances are ordered as these numbers are. -/
theorem distance_order (n m : NodeId) (h : InfoHash) :
    bytesLt (distance n h) (distance m h) = true ↔
      beValue n.bytes ^^^ beValue h.bytes < beValue m.bytes ^^^ beValue h.bytes := by
  rw [bytesLt_beValue _ _ (by simp), distance_value, distance_value]

/-- **C36.** The distance is zero exactly between equal IDs. -/
theorem distance_zero (n : NodeId) (h : InfoHash) : beValue (distance n h) = 0 ↔ n.bytes = h.bytes := by
  rw [distance_value]
  constructor
  · intro e
    apply beValue_inj (by rw [n.len, h.len])
    have h1 : (beValue n.bytes ^^^ beValue h.bytes) ^^^ beValue h.bytes = beValue h.bytes := by rw [e, Nat.zero_xor]
    rwa [Nat.xor_assoc, Nat.xor_self, Nat.xor_zero] at h1
  · intro e; rw [e, Nat.xor_self]

/-- **C36.** The distance is symmetric. -/
theorem distance_symm (n : NodeId) (h : InfoHash) : distance n h = distance ⟨h.bytes, h.len⟩ ⟨n.bytes, n.len⟩ := by
  apply beValue_inj (by simp)
  rw [distance_value, distance_value, Nat.xor_comm]

/-- **C36.** The distance satisfies the triangle inequality. -/
theorem distance_triangle (x y : NodeId) (z : InfoHash) :
    beValue (distance x z) ≤ beValue (distance x ⟨y.bytes, y.len⟩) + beValue (distance y z) := by
  rw [distance_value, distance_value, distance_value]
  have e : beValue x.bytes ^^^ beValue z.bytes = (beValue x.bytes ^^^ beValue y.bytes) ^^^ (beValue y.bytes ^^^ beValue z.bytes) := by
    rw [Nat.xor_assoc, ← Nat.xor_assoc (beValue y.bytes), Nat.xor_self, Nat.zero_xor]
  rw [e]
  exact xor_le_add _ _

/-- **C36.** From any target, nodes with different IDs are at different distances; so of two nodes one is closer. -/
theorem distance_injective (n m : NodeId) (h : InfoHash) (e : distance n h = distance m h) : n = m := by
  have h1 := congrArg beValue e
  rw [distance_value, distance_value] at h1
  have h2 : (beValue n.bytes ^^^ beValue h.bytes) ^^^ beValue h.bytes = (beValue m.bytes ^^^ beValue h.bytes) ^^^ beValue h.bytes := by
    rw [h1]
  rw [Nat.xor_assoc, Nat.xor_assoc, Nat.xor_self, Nat.xor_zero, Nat.xor_zero] at h2
  obtain ⟨a, ha⟩ := n
  obtain ⟨b, hb⟩ := m
  have := beValue_inj (by rw [ha, hb]) h2
  subst this
  rfl

/-- **C36.** Of two nodes with different IDs exactly one is closer. -/
theorem distance_total (n m : NodeId) (h : InfoHash) :
    bytesLt (distance n h) (distance m h) = true ∨ n = m ∨ bytesLt (distance m h) (distance n h) = true := by
  rw [bytesLt_beValue _ _ (by simp), bytesLt_beValue _ _ (by simp)]
  rcases Nat.lt_trichotomy (beValue (distance n h)) (beValue (distance m h)) with h1 | h1 | h1
  · exact .inl h1
  · exact .inr (.inl (distance_injective n m h (beValue_inj (by simp) h1)))
  · exact .inr (.inr h1)

/-- Two IDs that differ in the first and in the last byte. -/
example : beValue (distance ⟨0x80 :: List.replicate 19 0, by decide⟩ ⟨List.replicate 19 0 ++ [3], by decide⟩) =
    2 ^ 159 + 3 := by decide +kernel
example : bytesLt (distance ⟨List.replicate 19 0 ++ [5], by decide⟩ ⟨List.replicate 19 0 ++ [4], by decide⟩)
    (distance ⟨List.replicate 19 0 ++ [3], by decide⟩ ⟨List.replicate 19 0 ++ [4], by decide⟩) = true := by decide +kernel

end Demag.Props
