import Verif.Lemmas.Emit
import Verif.Lemmas.Wire
import Verif.Spec.Peer

/-! Helper lemmas about peer messages. -/

namespace Demag

open Spec

theorem tryGet8 (buf : Bytes) : tryGet (BitVec 8) buf = tryGetUint 1 8 buf := rfl
theorem tryGet16 (buf : Bytes) : tryGet (BitVec 16) buf = tryGetUint 2 16 buf := rfl
theorem tryGet32 (buf : Bytes) : tryGet (BitVec 32) buf = tryGetUint 4 32 buf := rfl
theorem tryGet64 (buf : Bytes) : tryGet (BitVec 64) buf = tryGetUint 8 64 buf := rfl

theorem field_iff {w bits : Nat} (hw : 2 ^ bits = 256 ^ w) (x : BitVec bits) (f : Bytes) :
    Field w x.toNat f ↔ f = beBytes w x.toNat := by
  constructor
  · rintro ⟨hl, hv⟩
    rw [← hv, ← hl, beBytes_beValue]
  · rintro rfl
    refine ⟨by simp, ?_⟩
    rw [beValue_beBytes, ← hw, Nat.mod_eq_of_lt x.isLt]

theorem field_8 (x : BitVec 8) (f : Bytes) : Field 1 x.toNat f ↔ f = putU8 x := field_iff (by decide) x f
theorem field_16 (x : BitVec 16) (f : Bytes) : Field 2 x.toNat f ↔ f = putU16 x := field_iff (by decide) x f
theorem field_32 (x : BitVec 32) (f : Bytes) : Field 4 x.toNat f ↔ f = putU32 x := field_iff (by decide) x f
theorem field_64 (x : BitVec 64) (f : Bytes) : Field 8 x.toNat f ↔ f = putU64 x := field_iff (by decide) x f

theorem get8_iff (buf : Bytes) (x : BitVec 8) (r : Bytes) :
    tryGet (BitVec 8) buf = .ok (x, r) ↔ buf = putU8 x ++ r := tryGetUint_ok (by decide) buf x r
theorem get16_iff (buf : Bytes) (x : BitVec 16) (r : Bytes) :
    tryGet (BitVec 16) buf = .ok (x, r) ↔ buf = putU16 x ++ r := tryGetUint_ok (by decide) buf x r
theorem get32_iff (buf : Bytes) (x : BitVec 32) (r : Bytes) :
    tryGet (BitVec 32) buf = .ok (x, r) ↔ buf = putU32 x ++ r := tryGetUint_ok (by decide) buf x r
theorem get64_iff (buf : Bytes) (x : BitVec 64) (r : Bytes) :
    tryGet (BitVec 64) buf = .ok (x, r) ↔ buf = putU64 x ++ r := tryGetUint_ok (by decide) buf x r

theorem get8_err (buf : Bytes) (e : PacketError) :
    tryGet (BitVec 8) buf = .error e ↔ e = .short ∧ buf.length < 1 := tryGetUint_error buf e
theorem get16_err (buf : Bytes) (e : PacketError) :
    tryGet (BitVec 16) buf = .error e ↔ e = .short ∧ buf.length < 2 := tryGetUint_error buf e
theorem get32_err (buf : Bytes) (e : PacketError) :
    tryGet (BitVec 32) buf = .error e ↔ e = .short ∧ buf.length < 4 := tryGetUint_error buf e

@[simp] theorem get8_put (x : BitVec 8) (r : Bytes) : tryGet (BitVec 8) (putU8 x ++ r) = .ok (x, r) :=
  (get8_iff _ _ _).2 rfl
@[simp] theorem get16_put (x : BitVec 16) (r : Bytes) : tryGet (BitVec 16) (putU16 x ++ r) = .ok (x, r) :=
  (get16_iff _ _ _).2 rfl
@[simp] theorem get32_put (x : BitVec 32) (r : Bytes) : tryGet (BitVec 32) (putU32 x ++ r) = .ok (x, r) :=
  (get32_iff _ _ _).2 rfl
@[simp] theorem get64_put (x : BitVec 64) (r : Bytes) : tryGet (BitVec 64) (putU64 x ++ r) = .ok (x, r) :=
  (get64_iff _ _ _).2 rfl
@[simp] theorem get8_put' (x : BitVec 8) : tryGet (BitVec 8) (putU8 x) = .ok (x, []) :=
  (get8_iff _ _ _).2 (by simp)
@[simp] theorem get16_put' (x : BitVec 16) : tryGet (BitVec 16) (putU16 x) = .ok (x, []) :=
  (get16_iff _ _ _).2 (by simp)
@[simp] theorem get32_put' (x : BitVec 32) : tryGet (BitVec 32) (putU32 x) = .ok (x, []) :=
  (get32_iff _ _ _).2 (by simp)
@[simp] theorem get64_put' (x : BitVec 64) : tryGet (BitVec 64) (putU64 x) = .ok (x, []) :=
  (get64_iff _ _ _).2 (by simp)

theorem putU8_eq (x : BitVec 8) : putU8 x = [UInt8.ofNat x.toNat] := by
  simp [putU8, beBytes]

theorem putU8_ofNat (c : UInt8) : putU8 (BitVec.ofNat 8 c.toNat) = [c] := by
  rw [putU8_eq]
  have := c.toNat_lt
  simp

/-- A nonempty buffer starts with a type byte. -/
theorem get8_cons (c : UInt8) (cs : Bytes) : tryGet (BitVec 8) (c :: cs) = .ok (BitVec.ofNat 8 c.toNat, cs) := by
  have : c :: cs = putU8 (BitVec.ofNat 8 c.toNat) ++ cs := by rw [putU8_ofNat]; rfl
  rw [this]; exact get8_put _ _

@[simp] theorem putU8_length (x : BitVec 8) : (putU8 x).length = 1 := by simp [putU8]
@[simp] theorem putU16_length (x : BitVec 16) : (putU16 x).length = 2 := by simp [putU16]
@[simp] theorem putU32_length (x : BitVec 32) : (putU32 x).length = 4 := by simp [putU32]
@[simp] theorem putU64_length (x : BitVec 64) : (putU64 x).length = 8 := by simp [putU64]

@[simp] theorem eof_nil : eof [] = .ok () := rfl
theorem eof_iff (b : Bytes) : eof b = .ok () ↔ b = [] := by cases b <;> simp [eof]

theorem mapError_ok {ε ε' α : Type} (f : ε → ε') (x : Except ε α) (v : α) : x.mapError f = .ok v ↔ x = .ok v := by
  cases x <;> simp [Except.mapError]

theorem mapError_err {ε ε' α : Type} (f : ε → ε') (x : Except ε α) (e : ε') :
    x.mapError f = .error e ↔ ∃ e', x = .error e' ∧ f e' = e := by
  cases x <;> simp [Except.mapError]

theorem get32_pair (buf : Bytes) (v : BitVec 32 × Bytes) :
    tryGet (BitVec 32) buf = .ok v ↔ buf = putU32 v.1 ++ v.2 := get32_iff _ _ _
theorem get16_pair (buf : Bytes) (v : BitVec 16 × Bytes) :
    tryGet (BitVec 16) buf = .ok v ↔ buf = putU16 v.1 ++ v.2 := get16_iff _ _ _
theorem get8_pair (buf : Bytes) (v : BitVec 8 × Bytes) :
    tryGet (BitVec 8) buf = .ok v ↔ buf = putU8 v.1 ++ v.2 := get8_iff _ _ _
theorem get64_pair (buf : Bytes) (v : BitVec 64 × Bytes) :
    tryGet (BitVec 64) buf = .ok v ↔ buf = putU64 v.1 ++ v.2 := get64_iff _ _ _
theorem eof_any (b : Bytes) (v : Unit) : eof b = .ok v ↔ b = [] := by cases v; exact eof_iff b

end Demag
