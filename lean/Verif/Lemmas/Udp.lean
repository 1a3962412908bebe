import Verif.Lemmas.Peer
import Verif.Lemmas.Compact
import Verif.Props.Wire
import Verif.Props.Compact
import Verif.Spec.TrackerUdp

/-! Helper lemmas about UDP tracker packets. -/

namespace Demag

open Spec

theorem At_field {w v : Nat} {p f r : Bytes} (hf : Field w v f) : At (p ++ f ++ r) p.length w v := by
  unfold At
  rw [List.append_assoc, List.drop_left, List.take_left' hf.1]
  exact hf

/-- Splitting off the field at the front. -/
theorem At_split {bs : Bytes} {off w v : Nat} (h : At bs off w v) :
    ∃ f, Field w v f ∧ bs.drop off = f ++ bs.drop (off + w) :=
  ⟨_, h, by rw [← List.drop_drop]; exact (List.take_append_drop w _).symm⟩

theorem At_intro {bs : Bytes} {off w v : Nat} {f r : Bytes} (hd : bs.drop off = f ++ r) (hf : Field w v f) :
    At bs off w v ∧ bs.drop (off + w) = r := by
  constructor
  · unfold At
    rw [hd, List.take_left' hf.1]; exact hf
  · rw [← List.drop_drop, hd, ← hf.1, List.drop_left]

theorem At32 {bs : Bytes} {off : Nat} (x : BitVec 32) :
    At bs off 4 x.toNat ↔ bs.drop off = putU32 x ++ bs.drop (off + 4) := by
  constructor
  · intro h
    obtain ⟨f, hf, hd⟩ := At_split h
    rw [field_32] at hf; rw [hd, hf]
  · intro h; exact (At_intro h ((field_32 _ _).2 rfl)).1

theorem At64 {bs : Bytes} {off : Nat} (x : BitVec 64) :
    At bs off 8 x.toNat ↔ bs.drop off = putU64 x ++ bs.drop (off + 8) := by
  constructor
  · intro h
    obtain ⟨f, hf, hd⟩ := At_split h
    rw [field_64] at hf; rw [hd, hf]
  · intro h; exact (At_intro h ((field_64 _ _).2 rfl)).1

/-- Reading an integer at the offset. -/
theorem get32_at {bs : Bytes} {off : Nat} (x : BitVec 32) (r : Bytes) :
    tryGet (BitVec 32) (bs.drop off) = .ok (x, r) ↔ At bs off 4 x.toNat ∧ r = bs.drop (off + 4) := by
  rw [get32_iff, At32]
  constructor
  · intro h
    have h2 := (At_intro h ((field_32 _ _).2 rfl)).2
    rw [h2]; exact ⟨h, rfl⟩
  · rintro ⟨h, rfl⟩; exact h

theorem get32_at0 {bs : Bytes} (x : BitVec 32) (r : Bytes) :
    tryGet (BitVec 32) bs = .ok (x, r) ↔ At bs 0 4 x.toNat ∧ r = bs.drop 4 := get32_at (off := 0) x r

theorem get64_at {bs : Bytes} {off : Nat} (x : BitVec 64) (r : Bytes) :
    tryGet (BitVec 64) (bs.drop off) = .ok (x, r) ↔ At bs off 8 x.toNat ∧ r = bs.drop (off + 8) := by
  rw [get64_iff, At64]
  constructor
  · intro h
    have h2 := (At_intro h ((field_64 _ _).2 rfl)).2
    rw [h2]; exact ⟨h, rfl⟩
  · rintro ⟨h, rfl⟩; exact h

theorem At_inj {bs : Bytes} {off w v v' : Nat} (h : At bs off w v) (h' : At bs off w v') : v = v' := by
  unfold At Field at *
  omega

/-- The loop that writes the options, and the reader. -/
theorem urlDataOptions_put (u : Bytes) : urlDataOptions (putUrlData u) = some u := by
  fun_induction putUrlData u with
  | case1 => simp [urlDataOptions]
  | case2 c cs k ih =>
    have hk : k ≤ 255 := Nat.min_le_right _ _
    have hk2 : k ≤ (c :: cs).length := Nat.min_le_left _ _
    have e2 : putU8 2 = [2] := by decide
    have ek : putU8 (BitVec.ofNat 8 k) = [UInt8.ofNat k] := by
      rw [putU8_eq]
      simp only [BitVec.toNat_ofNat]
      rw [Nat.mod_eq_of_lt (by omega)]
    show urlDataOptions (putU8 2 ++ putU8 (BitVec.ofNat 8 k) ++ List.take k (c :: cs) ++
      putUrlData (List.drop k (c :: cs))) = some (c :: cs)
    rw [e2, ek]
    simp only [List.cons_append, List.nil_append]
    rw [urlDataOptions]
    have hn : (UInt8.ofNat k).toNat = k := by
      simp only [UInt8.toNat_ofNat']; omega
    have hl : (List.take k (c :: cs)).length = k := by rw [List.length_take]; omega
    rw [if_neg (by decide), if_neg (by decide)]
    simp only [hn]
    rw [if_pos (by rw [List.length_append, hl]; omega)]
    have d1 : List.drop k (List.take k (c :: cs) ++ putUrlData (List.drop k (c :: cs))) =
        putUrlData (List.drop k (c :: cs)) := by
      exact List.drop_left' hl
    have d2 : List.take k (List.take k (c :: cs) ++ putUrlData (List.drop k (c :: cs))) = List.take k (c :: cs) :=
      List.take_left' hl
    rw [d1, d2, ih]
    simp only [if_true, Option.map_some, Option.some.injEq]
    exact List.take_append_drop k (c :: cs)

/-- Reading addresses to the end of the buffer. -/
theorem getV4_iff (b : Bytes) (a : SockV4) (r : Bytes) :
    tryGet SockV4 b = .ok (a, r) ↔ ∃ f, b = f ++ r ∧ IsCompact4 a f := by
  have hc := isCompact4_toCompact a
  have key : tryGet SockV4 b = .ok (a, r) ↔ b = sockToCompact (.v4 a) ++ r := by
    show tryGetSockV4 b = _ ↔ _
    unfold tryGetSockV4
    obtain ⟨ip, port⟩ := a
    simp only [bind, Except.bind]
    constructor
    · intro h
      split at h
      · cases h
      · rename_i v hv
        obtain ⟨i, r1⟩ := v
        rw [Props.tryGetIpv4_ok] at hv
        split at h
        · cases h
        · rename_i v2 hv2
          rw [← tryGet16, get16_pair] at hv2
          cases h
          simp only at hv2
          rw [hv, hv2]
          simp [sockToCompact]
    · intro h
      have h1 : tryGetIpv4 b = .ok (ip, putU16 port ++ r) := by
        rw [Props.tryGetIpv4_ok, h]; simp [sockToCompact]
      rw [h1]
      simp only [← tryGet16, get16_put]
      rfl
  rw [key]
  constructor
  · intro h; exact ⟨_, h, hc⟩
  · rintro ⟨f, h, hf⟩
    rw [h, isCompact4_unique hc hf]

theorem getV6_iff (b : Bytes) (a : SockV6) (r : Bytes) :
    tryGet SockV6 b = .ok (a, r) ↔ ∃ f, b = f ++ r ∧ IsCompact6 a f := by
  have hc := isCompact6_toCompact a
  have key : tryGet SockV6 b = .ok (a, r) ↔ b = sockToCompact (.v6 a) ++ r := by
    show tryGetSockV6 b = _ ↔ _
    unfold tryGetSockV6
    obtain ⟨ip, port⟩ := a
    simp only [bind, Except.bind]
    constructor
    · intro h
      split at h
      · cases h
      · rename_i v hv
        obtain ⟨i, r1⟩ := v
        rw [Props.tryGetIpv6_ok] at hv
        split at h
        · cases h
        · rename_i v2 hv2
          rw [← tryGet16, get16_pair] at hv2
          cases h
          simp only at hv2
          rw [hv, hv2]
          simp [sockToCompact]
    · intro h
      have h1 : tryGetIpv6 b = .ok (ip, putU16 port ++ r) := by
        rw [Props.tryGetIpv6_ok, h]; simp [sockToCompact]
      rw [h1]
      simp only [← tryGet16, get16_put]
      rfl
  rw [key]
  constructor
  · intro h; exact ⟨_, h, hc⟩
  · rintro ⟨f, h, hf⟩
    rw [h, isCompact6_unique hc hf]

theorem readsAll_concat {α : Type} [TryFromBuf α] (R : α → Bytes → Prop)
    (hg : ∀ b a r, tryGet α b = .ok (a, r) ↔ ∃ f, b = f ++ r ∧ R a f) (hne : ∀ a f, R a f → f ≠ [])
    (buf : Bytes) (xs : List α) : tryGetAll α buf = .ok xs ↔ IsConcat R xs buf := by
  rw [Props.tryGetAll_spec]
  induction xs generalizing buf with
  | nil =>
    constructor
    · intro h; cases h; rfl
    · intro h; rw [show buf = [] from h]; exact .done
  | cons x xs ih =>
    constructor
    · intro h
      cases h with
      | more hb hx hr =>
        rename_i rest
        obtain ⟨f, rfl, hf⟩ := (hg _ _ _).1 hx
        exact ⟨f, rest, rfl, hf, (ih _).1 hr⟩
    · rintro ⟨f, rest, rfl, hf, hr⟩
      refine .more ?_ ((hg _ _ _).2 ⟨f, rfl, hf⟩) ((ih _).2 hr)
      intro h
      exact hne _ _ hf (List.append_eq_nil_iff.1 h).1

theorem getAllV4_iff (buf : Bytes) (xs : List SockV4) : tryGetAll SockV4 buf = .ok xs ↔ IsConcat IsCompact4 xs buf :=
  readsAll_concat IsCompact4 getV4_iff (by rintro a f ⟨h, -⟩ rfl; simp at h) buf xs

theorem getAllV6_iff (buf : Bytes) (xs : List SockV6) : tryGetAll SockV6 buf = .ok xs ↔ IsConcat IsCompact6 xs buf :=
  readsAll_concat IsCompact6 getV6_iff (by rintro a f ⟨h, -⟩ rfl; simp at h) buf xs

end Demag
