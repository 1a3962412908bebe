import Verif.Lemmas.Bencode

/-! Helper lemmas about writing bencode and about UTF-8. -/

namespace Demag

open Spec

theorem emitNat_eq (n : Nat) : emitNat n = benc (.int n) := by
  simp [emitNat, benc, showNat_eq, decInt]

theorem emitInt_eq (i : Int) : emitInt i = benc (.int i) := by
  cases i with
  | ofNat n =>
    have : ¬ ((Int.ofNat n) < 0) := by simp
    simp [emitInt, benc, showNat_eq, decInt]
  | negSucc n => simp [emitInt, benc, showNat_eq, decInt, Int.negSucc_lt_zero]

theorem emitBytes_eq (b : Bytes) : emitBytes b = benc (.bytes b) := by
  simp [emitBytes, benc, encBytes, showNat_eq]

theorem bencList_eq (vs : List Ben) : bencList vs = (vs.map benc).flatten := by
  induction vs with
  | nil => rfl
  | cons v vs ih => simp [bencList, ih]

theorem emitList_eq (vs : List Ben) : emitList (vs.map benc) = benc (.list vs) := by
  simp [emitList, benc, bencList_eq]

theorem bencDict_eq (kvs : List (Bytes × Ben)) :
    bencDict kvs = (kvs.map fun kv => encBytes kv.1 ++ benc kv.2).flatten := by
  induction kvs with
  | nil => rfl
  | cons v vs ih => obtain ⟨k, v⟩ := v; simp [bencDict, ih]

theorem keysIncreasing_some (p : Bytes) (x : Bytes) (kvs : List (Bytes × Bytes)) :
    keysIncreasing (some p) kvs = true ↔ SortedKeys ((p, x) :: kvs) := by
  induction kvs generalizing p x with
  | nil => simp [keysIncreasing, SortedKeys]
  | cons kv kvs ih =>
    obtain ⟨k, v⟩ := kv
    simp [keysIncreasing, SortedKeys, ih k v]

theorem keysIncreasing_none (kvs : List (Bytes × Bytes)) :
    keysIncreasing none kvs = true ↔ SortedKeys kvs := by
  cases kvs with
  | nil => simp [keysIncreasing, SortedKeys]
  | cons kv kvs => obtain ⟨k, v⟩ := kv; simp [keysIncreasing, keysIncreasing_some k v]

theorem sortedKeys_map {α β : Type} (f : α → β) (kvs : List (Bytes × α)) :
    SortedKeys (kvs.map fun kv => (kv.1, f kv.2)) ↔ SortedKeys kvs := by
  induction kvs with
  | nil => simp [SortedKeys]
  | cons kv kvs ih =>
    cases kvs with
    | nil => simp [SortedKeys]
    | cons kv2 kvs => simpa [SortedKeys] using fun _ => ih

theorem emitDict_eq (kvs : List (Bytes × Ben)) (h : SortedKeys kvs) :
    emitDict (kvs.map fun kv => (kv.1, benc kv.2)) = some (benc (.dict kvs)) := by
  unfold emitDict
  rw [if_pos ((keysIncreasing_none _).2 ((sortedKeys_map benc kvs).2 h))]
  simp only [List.map_map, benc, bencDict_eq]
  have : (fun kv : Bytes × Bytes => emitBytes kv.1 ++ kv.2) ∘ (fun kv : Bytes × Ben => (kv.1, benc kv.2)) =
      fun kv => encBytes kv.1 ++ benc kv.2 := by
    funext kv; simp [emitBytes_eq, benc]
  rw [this]; simp

theorem emitDict_isSome (kvs : List (Bytes × Bytes)) : (emitDict kvs).isSome ↔ SortedKeys kvs := by
  unfold emitDict
  rw [← keysIncreasing_none]
  split <;> simp_all

/-! ### UTF-8 -/

theorem utf8_toByteArray (t : Text) : ByteArray.mk (utf8 t).toArray = t.utf8Encode := by
  apply ByteArray.ext
  simp [List.utf8Encode, utf8]

theorem fromUtf8_utf8 (t : Text) : fromUtf8 (utf8 t) = some t := by
  unfold fromUtf8
  rw [utf8_toByteArray, List.utf8Decode?_utf8Encode]
  rfl

theorem fromUtf8_iff (b : Bytes) (t : Text) : fromUtf8 b = some t ↔ b = utf8 t := by
  constructor
  · intro h
    unfold fromUtf8 at h
    cases e : (ByteArray.mk b.toArray).utf8Decode? with
    | none => rw [e] at h; cases h
    | some a =>
      rw [e] at h
      cases h
      have h2 := @ByteArray.utf8Encode_get_utf8Decode? (ByteArray.mk b.toArray) (by rw [e]; rfl)
      simp only [e, Option.get_some] at h2
      rw [← utf8_toByteArray] at h2
      have := congrArg (fun x : ByteArray => x.data.toList) h2
      simpa using this.symm
  · rintro rfl; exact fromUtf8_utf8 t

theorem utf8_inj {s t : Text} (h : utf8 s = utf8 t) : s = t := by
  have := fromUtf8_utf8 s
  rw [h, fromUtf8_utf8] at this
  exact (Option.some.inj this).symm

end Demag
