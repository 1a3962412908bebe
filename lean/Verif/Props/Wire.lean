import Verif.Lemmas.Wire

/-!
# C53: integer wire fields are big-endian and bounds-checked
-/

namespace Demag.Props

open Demag Spec

/-- The widths at which `TryFromBuf` is implemented for integers (bytes, bits). -/
def WireWidth (w bits : Nat) : Prop :=
  (w, bits) ∈ [(1, 8), (2, 16), (4, 32), (8, 64), (16, 128)]

theorem wireWidth_pow {w bits : Nat} (h : WireWidth w bits) : 2 ^ bits = 256 ^ w := by
  simp only [WireWidth, List.mem_cons, Prod.mk.injEq, List.not_mem_nil, or_false] at h
  rcases h with ⟨rfl, rfl⟩ | ⟨rfl, rfl⟩ | ⟨rfl, rfl⟩ | ⟨rfl, rfl⟩ | ⟨rfl, rfl⟩ <;> decide

/-- **C53.** Reading an integer field of `w` bytes succeeds exactly when the buffer starts with `w`
bytes; the value is their big-endian value and the rest of the buffer is what follows them. -/
theorem tryGetUint_spec {w bits : Nat} (hw : WireWidth w bits) (buf : Bytes) (x : BitVec bits)
    (rest : Bytes) :
    tryGetUint w bits buf = .ok (x, rest) ↔
      ∃ field, buf = field ++ rest ∧ field.length = w ∧ beValue field = x.toNat := by
  rw [tryGetUint_ok (wireWidth_pow hw)]
  constructor
  · intro h
    refine ⟨_, h, by simp, ?_⟩
    rw [beValue_beBytes, ← wireWidth_pow hw, Nat.mod_eq_of_lt x.isLt]
  · rintro ⟨field, rfl, hl, hv⟩
    rw [← hv, ← hl, beBytes_beValue]

/-- **C53.** Reading fails exactly when fewer than `w` bytes remain, and then with `Short`. -/
theorem tryGetUint_fails_iff {w bits : Nat} (buf : Bytes) (e : PacketError) :
    tryGetUint w bits buf = .error e ↔ e = .short ∧ buf.length < w :=
  tryGetUint_error buf e

/-- **C53.** Writing an integer and reading it back yields the integer and leaves what follows. -/
theorem put_then_get {w bits : Nat} (hw : WireWidth w bits) (x : BitVec bits) (rest : Bytes) :
    tryGetUint w bits (beBytes w x.toNat ++ rest) = .ok (x, rest) :=
  tryGetUint_append x (wireWidth_pow hw) rest

/-- **C53.** `try_get_bytes` splits off exactly the requested number of bytes or fails with `Short`. -/
theorem tryGetBytes_spec (len : Nat) (buf a b : Bytes) :
    tryGetBytes len buf = .ok (a, b) ↔ buf = a ++ b ∧ a.length = len := by
  unfold tryGetBytes
  split
  · rename_i h
    simp only [Except.ok.injEq, Prod.mk.injEq]
    constructor
    · rintro ⟨rfl, rfl⟩
      exact ⟨(List.take_append_drop ..).symm, by rw [List.length_take]; omega⟩
    · rintro ⟨rfl, rfl⟩
      simp
  · rename_i h
    simp only [reduceCtorEq, false_iff, not_and]
    rintro rfl
    simp at h; omega

/-- Reading `α`s one after the other: an independent description of what `try_get_all` must return. -/
inductive ReadsAll (α : Type) [TryFromBuf α] : Bytes → List α → Prop
  | done : ReadsAll α [] []
  | more {buf rest : Bytes} {x : α} {xs : List α} : buf ≠ [] → tryGet α buf = .ok (x, rest) →
      ReadsAll α rest xs → ReadsAll α buf (x :: xs)

/-- **C53.** `try_get_all` succeeds exactly when the whole buffer can be read element by element, and
returns these elements in order. -/
theorem tryGetAll_spec (α : Type) [TryFromBuf α] (buf : Bytes) (xs : List α) :
    tryGetAll α buf = .ok xs ↔ ReadsAll α buf xs := by
  constructor
  · intro h
    fun_induction tryGetAll α buf generalizing xs with
    | case1 buf he =>
      cases h
      rw [List.isEmpty_iff.1 he]
      exact .done
    | case2 buf he e heq => cases h
    | case3 buf he x rest heq ih =>
      cases e2 : tryGetAll α rest with
      | error => rw [e2] at h; cases h
      | ok ys =>
        rw [e2] at h
        cases h
        exact .more (by simpa using he) heq (ih _ e2)
  · intro h
    induction h with
    | done => rw [tryGetAll]; rfl
    | more hne hx hr ih =>
      rename_i buf rest x xs
      rw [tryGetAll]
      have : buf.isEmpty = false := by cases buf <;> simp_all
      simp only [this, Bool.false_eq_true, if_false]
      split
      · rename_i e2; rw [tryGet] at hx; rw [hx] at e2; cases e2
      · rename_i e2; rw [tryGet] at hx; rw [hx] at e2; cases e2
        rw [ih]; rfl

/-- **C53.** A list of integers of `w` bytes written one after the other is read back exactly. -/
theorem tryGetAll_u32 (xs : List (BitVec 32)) :
    tryGetAll (BitVec 32) (xs.flatMap putU32) = .ok xs := by
  rw [tryGetAll_spec]
  induction xs with
  | nil => exact .done
  | cons x xs ih =>
    refine .more ?_ (rest := xs.flatMap putU32) ?_ ih
    · intro h
      have := congrArg List.length h
      simp [putU32] at this
    · exact tryGetUint_append (w := 4) x (by decide) _

/-- **C53.** `eof` accepts exactly the empty rest. -/
theorem eof_spec (buf : Bytes) : eof buf = .ok () ↔ buf = [] := by
  cases buf <;> simp [eof]

-- concrete cases meeting the hypotheses
example : WireWidth 4 32 := by unfold WireWidth; decide
example : tryGetUint 2 16 [0x61, 0x62, 0x63] = .ok (0x6162, [0x63]) := by decide
example : tryGetUint 4 32 [0x61, 0x62, 0x63] = .error .short := by decide
example : ReadsAll (BitVec 16) [1, 2, 3, 4] [0x0102, 0x0304] :=
  .more (by decide) (rest := [3, 4]) (by decide) (.more (by decide) (rest := []) (by decide) .done)

end Demag.Props
