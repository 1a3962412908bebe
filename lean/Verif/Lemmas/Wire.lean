import Verif.Lemmas.Digits
import Verif.Model.Wire

/-! Helper lemmas about big-endian integers and buffers. -/

namespace Demag

open Spec

@[simp] theorem beBytes_length (w n : Nat) : (beBytes w n).length = w := by
  induction w <;> simp_all [beBytes]

theorem beBytes_map (w n : Nat) : (beBytes w n).map UInt8.toNat = toDigits 256 w n := by
  induction w with
  | zero => rfl
  | succ w ih => simp [beBytes, toDigits, ih]

theorem map_toNat_lt (bs : Bytes) : ∀ d ∈ bs.map UInt8.toNat, d < 256 := by
  intro d hd
  obtain ⟨b, -, rfl⟩ := List.mem_map.1 hd
  exact UInt8.toNat_lt b

theorem map_toNat_inj {xs ys : Bytes} (h : xs.map UInt8.toNat = ys.map UInt8.toNat) : xs = ys := by
  induction xs generalizing ys with
  | nil => cases ys <;> simp_all
  | cons x xs ih =>
    cases ys with
    | nil => simp at h
    | cons y ys =>
      simp only [List.map_cons, List.cons.injEq] at h
      rw [UInt8.toNat_inj.1 h.1, ih h.2]

theorem beValue_beBytes (w n : Nat) : beValue (beBytes w n) = n % 256 ^ w := by
  rw [beValue, beBytes_map, ofDigits_toDigits]

theorem beValue_lt (bs : Bytes) : beValue bs < 256 ^ bs.length := by
  have := ofDigits_lt (bs.map UInt8.toNat) (map_toNat_lt bs)
  simpa [beValue] using this

theorem beBytes_beValue (bs : Bytes) : beBytes bs.length (beValue bs) = bs := by
  apply map_toNat_inj
  rw [beBytes_map, beValue]
  have := toDigits_ofDigits (bs.map UInt8.toNat) (map_toNat_lt bs)
  simpa using this

theorem beValue_inj {xs ys : Bytes} (hl : xs.length = ys.length) (h : beValue xs = beValue ys) :
    xs = ys := by
  rw [← beBytes_beValue xs, ← beBytes_beValue ys, hl, h]

theorem beAccum_eq (bs : Bytes) : beAccum bs = beValue bs := by
  have := ofDigits_foldl 256 (bs.map UInt8.toNat) 0
  rw [List.foldl_map] at this
  simpa [beAccum, beValue] using this

theorem beAccum_beBytes (w n : Nat) : beAccum (beBytes w n) = n % 256 ^ w := by
  rw [beAccum_eq, beValue_beBytes]

/-- Reading back an integer just written. -/
theorem tryGetUint_append {w bits : Nat} (x : BitVec bits) (hw : 2 ^ bits = 256 ^ w) (r : Bytes) :
    tryGetUint w bits (beBytes w x.toNat ++ r) = .ok (x, r) := by
  unfold tryGetUint
  have hl : (beBytes w x.toNat ++ r).length ≥ w := by simp
  rw [if_pos hl]
  have h1 : (beBytes w x.toNat ++ r).take w = beBytes w x.toNat := by
    rw [List.take_append_of_le_length (by simp), List.take_of_length_le (by simp)]
  have h2 : (beBytes w x.toNat ++ r).drop w = r := by
    rw [List.drop_append, List.drop_of_length_le (by simp)]
    simp
  rw [h1, h2, beAccum_beBytes, ← hw, Nat.mod_eq_of_lt x.isLt]
  simp

theorem tryGetUint_ok {w bits : Nat} (hw : 2 ^ bits = 256 ^ w) (buf : Bytes) (x : BitVec bits)
    (r : Bytes) :
    tryGetUint w bits buf = .ok (x, r) ↔ buf = beBytes w x.toNat ++ r := by
  constructor
  · unfold tryGetUint
    split
    · rename_i hl
      intro e
      simp only [Except.ok.injEq, Prod.mk.injEq] at e
      obtain ⟨hx, hr⟩ := e
      have hlen : (buf.take w).length = w := by rw [List.length_take]; omega
      have : x.toNat = beValue (buf.take w) := by
        rw [← hx, BitVec.toNat_ofNat, beAccum_eq]
        have := beValue_lt (buf.take w)
        rw [hlen] at this
        rw [hw, Nat.mod_eq_of_lt this]
      have e2 := beBytes_beValue (buf.take w)
      rw [hlen] at e2
      rw [this, e2, ← hr, List.take_append_drop]
    · intro e; cases e
  · rintro rfl; exact tryGetUint_append x hw r

theorem tryGetUint_error {w bits : Nat} (buf : Bytes) (e : PacketError) :
    tryGetUint w bits buf = .error e ↔ e = .short ∧ buf.length < w := by
  unfold tryGetUint
  split
  · simp; omega
  · simp; constructor
    · rintro rfl; exact ⟨rfl, by omega⟩
    · rintro ⟨rfl, _⟩; rfl

end Demag
