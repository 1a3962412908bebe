import Verif.Lemmas.Wire
import Verif.Spec.Compact

/-! Helper lemmas about compact addresses. -/

namespace Demag

open Spec

theorem beAccum_ofNat {w bits : Nat} (hw : 2 ^ bits = 256 ^ w) (bs : Bytes) (hl : bs.length = w)
    (x : BitVec bits) : BitVec.ofNat bits (beAccum bs) = x ↔ beValue bs = x.toNat := by
  have hlt := beValue_lt bs
  rw [hl, ← hw] at hlt
  rw [beAccum_eq, ← BitVec.toNat_inj, BitVec.toNat_ofNat, Nat.mod_eq_of_lt hlt]

theorem readV4_iff (bs : Bytes) (hl : bs.length = 6) (a : SockV4) :
    readV4 bs = a ↔ IsCompact4 a bs := by
  obtain ⟨⟨ip⟩, port⟩ := a
  have h2 : (bs.drop 4).take 2 = bs.drop 4 := List.take_of_length_le (by simp [hl])
  simp only [readV4, SockV4.mk.injEq, Ipv4.mk.injEq, IsCompact4, hl, true_and, h2]
  rw [beAccum_ofNat (w := 4) (by decide) _ (by simp [hl]),
    beAccum_ofNat (w := 2) (by decide) _ (by simp [hl])]

theorem readV6_iff (bs : Bytes) (hl : bs.length = 18) (a : SockV6) :
    readV6 bs = a ↔ IsCompact6 a bs := by
  obtain ⟨⟨ip⟩, port⟩ := a
  have h2 : (bs.drop 16).take 2 = bs.drop 16 := List.take_of_length_le (by simp [hl])
  simp only [readV6, SockV6.mk.injEq, Ipv6.mk.injEq, IsCompact6, hl, true_and, h2]
  rw [beAccum_ofNat (w := 16) (by decide) _ (by simp [hl]),
    beAccum_ofNat (w := 2) (by decide) _ (by simp [hl])]

theorem v4FromCompact_iff (bs : Bytes) (a : SockV4) :
    v4FromCompact bs = .ok a ↔ IsCompact4 a bs := by
  unfold v4FromCompact
  split
  · rename_i h; rw [Except.ok.injEq]; exact readV4_iff bs h a
  · rename_i h; simp only [reduceCtorEq, IsCompact4, false_iff]; rintro ⟨h', -⟩; exact h h'

theorem v6FromCompact_iff (bs : Bytes) (a : SockV6) :
    v6FromCompact bs = .ok a ↔ IsCompact6 a bs := by
  unfold v6FromCompact
  split
  · rename_i h; rw [Except.ok.injEq]; exact readV6_iff bs h a
  · rename_i h; simp only [reduceCtorEq, IsCompact6, false_iff]; rintro ⟨h', -⟩; exact h h'

theorem isCompact4_toCompact (a : SockV4) : IsCompact4 a (sockToCompact (.v4 a)) := by
  refine ⟨by simp [sockToCompact, Ipv4.octets, putU16], ?_, ?_⟩
  · simp only [sockToCompact, Ipv4.octets]
    rw [List.take_append_of_le_length (by simp), List.take_of_length_le (by simp), beValue_beBytes]
    exact Nat.mod_eq_of_lt a.ip.bits.isLt
  · simp only [sockToCompact, Ipv4.octets, putU16]
    rw [List.drop_append, List.drop_of_length_le (by simp)]
    simp only [beBytes_length, Nat.sub_self, List.drop_zero, List.nil_append]
    rw [beValue_beBytes]
    exact Nat.mod_eq_of_lt a.port.isLt

theorem isCompact6_toCompact (a : SockV6) : IsCompact6 a (sockToCompact (.v6 a)) := by
  refine ⟨by simp [sockToCompact, Ipv6.octets, putU16], ?_, ?_⟩
  · simp only [sockToCompact, Ipv6.octets]
    rw [List.take_append_of_le_length (by simp), List.take_of_length_le (by simp), beValue_beBytes]
    exact Nat.mod_eq_of_lt a.ip.bits.isLt
  · simp only [sockToCompact, Ipv6.octets, putU16]
    rw [List.drop_append, List.drop_of_length_le (by simp)]
    simp only [beBytes_length, Nat.sub_self, List.drop_zero, List.nil_append]
    rw [beValue_beBytes]
    exact Nat.mod_eq_of_lt a.port.isLt

theorem isCompact4_unique {a : SockV4} {xs ys : Bytes} (hx : IsCompact4 a xs) (hy : IsCompact4 a ys) :
    xs = ys := by
  obtain ⟨l1, a1, p1⟩ := hx
  obtain ⟨l2, a2, p2⟩ := hy
  rw [← List.take_append_drop 4 xs, ← List.take_append_drop 4 ys]
  rw [beValue_inj (xs := xs.take 4) (ys := ys.take 4) (by simp [l1, l2]) (by rw [a1, a2]),
    beValue_inj (xs := xs.drop 4) (ys := ys.drop 4) (by simp [l1, l2]) (by rw [p1, p2])]

theorem isCompact6_unique {a : SockV6} {xs ys : Bytes} (hx : IsCompact6 a xs) (hy : IsCompact6 a ys) :
    xs = ys := by
  obtain ⟨l1, a1, p1⟩ := hx
  obtain ⟨l2, a2, p2⟩ := hy
  rw [← List.take_append_drop 16 xs, ← List.take_append_drop 16 ys]
  rw [beValue_inj (xs := xs.take 16) (ys := ys.take 16) (by simp [l1, l2]) (by rw [a1, a2]),
    beValue_inj (xs := xs.drop 16) (ys := ys.drop 16) (by simp [l1, l2]) (by rw [p1, p2])]

/-- The chunking loop reads exactly the concatenations of entries. -/
theorem vecFromCompact_iff {α : Type} (len : Nat) (hlen : 0 < len)
    (one : Bytes → Except FromCompactError α) (R : α → Bytes → Prop)
    (hR : ∀ bs x, one bs = .ok x ↔ R x bs) (hRl : ∀ bs x, R x bs → bs.length = len)
    (bs : Bytes) (xs : List α) :
    vecFromCompact len hlen one bs = .ok xs ↔ IsConcat R xs bs := by
  fun_induction vecFromCompact len hlen one bs generalizing xs with
  | case1 bs he =>
    have : bs = [] := List.isEmpty_iff.1 he
    subst this
    cases xs with
    | nil => simp [IsConcat]
    | cons x xs =>
      simp only [Except.ok.injEq, reduceCtorEq, IsConcat, List.nil_eq_append_iff, false_iff]
      rintro ⟨b, r, ⟨rfl, rfl⟩, hb, -⟩
      have := hRl _ _ hb
      simp at this; omega
  | case2 bs he hl ih =>
    cases xs with
    | nil =>
      simp only [IsConcat]
      constructor
      · intro h
        cases e1 : one (bs.take len) with
        | error => rw [e1] at h; cases h
        | ok x =>
          cases e2 : vecFromCompact len hlen one (bs.drop len) with
          | error => rw [e1, e2] at h; cases h
          | ok ys => rw [e1, e2] at h; cases h
      · rintro rfl; simp at he
    | cons x xs =>
      simp only [IsConcat]
      constructor
      · intro h
        cases e1 : one (bs.take len) with
        | error => rw [e1] at h; cases h
        | ok y =>
          cases e2 : vecFromCompact len hlen one (bs.drop len) with
          | error => rw [e1, e2] at h; cases h
          | ok ys =>
            rw [e1, e2] at h; cases h
            exact ⟨_, _, (List.take_append_drop len bs).symm, (hR _ _).1 e1, (ih _).1 e2⟩
      · rintro ⟨b, r, rfl, hb, hr⟩
        have hbl := hRl _ _ hb
        have e1 : (b ++ r).take len = b := by simp [← hbl]
        have e2 : (b ++ r).drop len = r := by simp [← hbl]
        rw [e1, e2, (hR _ _).2 hb]
        rw [e2] at ih
        rw [(ih _).2 hr]; rfl
  | case3 bs he hl =>
    constructor
    · intro h
      cases e1 : one bs with
      | error => rw [e1] at h; cases h
      | ok y => exact absurd (hRl _ _ ((hR _ _).1 e1)) (by omega)
    · intro h
      cases xs with
      | nil => simp only [IsConcat] at h; subst h; simp at he
      | cons x xs =>
        obtain ⟨b, r, rfl, hb, hr⟩ := h
        have := hRl _ _ hb
        simp at hl; omega

/-- If single entries of the right length are always accepted, the loop fails iff a partial entry is left. -/
theorem vecFromCompact_ok_iff {α : Type} (len : Nat) (hlen : 0 < len)
    (one : Bytes → Except FromCompactError α)
    (h1 : ∀ bs, bs.length = len → ∃ x, one bs = .ok x)
    (h2 : ∀ bs x, one bs = .ok x → bs.length = len) (bs : Bytes) :
    (∃ xs, vecFromCompact len hlen one bs = .ok xs) ↔ bs.length % len = 0 := by
  fun_induction vecFromCompact len hlen one bs with
  | case1 bs he =>
    have : bs = [] := List.isEmpty_iff.1 he
    subst this; simp
  | case2 bs he hl ih =>
    obtain ⟨x, hx⟩ := h1 (bs.take len) (by rw [List.length_take]; omega)
    have : bs.length % len = (bs.drop len).length % len := by
      rw [List.length_drop, Nat.mod_eq_sub_mod hl]
    rw [this, ← ih, hx]
    constructor
    · rintro ⟨xs, h⟩
      cases e2 : vecFromCompact len hlen one (bs.drop len) with
      | error => rw [e2] at h; cases h
      | ok ys => exact ⟨ys, rfl⟩
    · rintro ⟨ys, h⟩; rw [h]; exact ⟨_, rfl⟩
  | case3 bs he hl =>
    have hne : bs.length ≠ 0 := by
      intro h; apply he; rw [List.length_eq_zero_iff.1 h]; rfl
    have : bs.length % len = bs.length := Nat.mod_eq_of_lt (by omega)
    constructor
    · rintro ⟨xs, h⟩
      cases e1 : one bs with
      | error => rw [e1] at h; cases h
      | ok y => have := h2 _ _ e1; omega
    · omega

theorem nodeFromCompact_iff {α : Type} (ty : String)
    (getIp : Bytes → Except PacketError (α × Bytes)) (enc : α → Bytes)
    (hg : ∀ b a r, getIp b = .ok (a, r) ↔ b = enc a ++ r) (bs : Bytes) (n : NodeT α) :
    nodeFromCompact ty getIp bs = .ok n ↔ bs = n.id.bytes ++ enc n.ip ++ putU16 n.port := by
  have hp : ∀ b (p : BitVec 16) r, tryGet (BitVec 16) b = .ok (p, r) ↔ b = putU16 p ++ r :=
    fun b p r => tryGetUint_ok (w := 2) (by decide) b p r
  constructor
  · intro h
    unfold nodeFromCompact at h
    simp only at h
    split at h
    · cases h
    · rename_i id b1 e1
      split at h
      · cases h
      · rename_i ip b2 e2
        split at h
        · cases h
        · rename_i port b3 e3
          split at h
          · cases h
          · rename_i e4
            cases h
            have e4' : b3 = [] := by cases b3 <;> simp_all [eof]
            subst e4'
            have e2' := (hg _ _ _).1 e2
            have e3' := (hp _ _ _).1 e3
            unfold tryGetNodeId at e1
            split at e1
            · cases e1
              simp only
              rw [List.append_assoc]
              rw [← List.append_nil (putU16 port), ← e3', ← e2', List.take_append_drop]
            · cases e1
  · rintro rfl
    unfold nodeFromCompact
    have e1 : tryGetNodeId (n.id.bytes ++ enc n.ip ++ putU16 n.port)
        = .ok (n.id, enc n.ip ++ putU16 n.port) := by
      unfold tryGetNodeId
      have hlen := n.id.len
      rw [dif_pos (by simp [hlen])]
      have : (n.id.bytes ++ enc n.ip ++ putU16 n.port).take 20 = n.id.bytes := by
        rw [List.append_assoc, ← hlen]; simp
      have h2 : (n.id.bytes ++ enc n.ip ++ putU16 n.port).drop 20 = enc n.ip ++ putU16 n.port := by
        rw [List.append_assoc, ← hlen]; simp
      simp only [this, h2]
    rw [e1]
    simp only [(hg (enc n.ip ++ putU16 n.port) n.ip _).2 rfl]
    simp only [(hp (putU16 n.port) n.port []).2 (List.append_nil _).symm]
    rfl

end Demag
