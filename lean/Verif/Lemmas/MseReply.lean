import Verif.Lemmas.Mse

/-! Helper lemmas: packet 4 as the protocol describes it and as the program reads it. -/

namespace Demag

open Spec

theorem split_prefix {a b c : Bytes} (h : c = a ++ b) : c.take a.length = a ∧ c.drop a.length = b := by subst h; simp

theorem reply_iff (p : BitVec 32) (plain : Bytes) (m : CryptoMethod) (n : Nat) :
    Reply p plain m n ↔ Offers p m ∧ 14 + n ≤ plain.length ∧ plain.take 8 = List.replicate 8 0 ∧
      beValue ((plain.drop 8).take 4) = methodCode m ∧ beValue ((plain.drop 12).take 2) = n := by
  constructor
  · rintro ⟨ho, sel, len, pad, rest, rfl, h1, h2, h3, h4, h5⟩
    refine ⟨ho, by simp; omega, by simp, ?_, ?_⟩
    · rw [← h2]; congr 1
      rw [List.append_assoc, List.append_assoc, List.append_assoc]
      have hl : (List.replicate 8 (0 : UInt8)).length = 8 := by simp
      rw [List.drop_left' hl, List.take_left' h1]
    · rw [← h4]; congr 1
      have : List.replicate 8 (0 : UInt8) ++ sel ++ len ++ pad ++ rest = (List.replicate 8 0 ++ sel) ++ (len ++ (pad ++ rest)) := by
        simp
      rw [this]
      have hl : (List.replicate 8 (0 : UInt8) ++ sel).length = 12 := by simp [h1]
      rw [← hl, List.drop_left, ← h3, List.take_left]
  · rintro ⟨ho, hl, h0, h1, h2⟩
    refine ⟨ho, (plain.drop 8).take 4, (plain.drop 12).take 2, (plain.drop 14).take n, plain.drop (14 + n), ?_, ?_, h1, ?_, h2, ?_⟩
    · rw [← h0]
      have e1 : plain.take 8 ++ (plain.drop 8).take 4 = plain.take 12 := (List.take_add (i := 8) (j := 4)).symm
      have e2 : plain.take 12 ++ (plain.drop 12).take 2 = plain.take 14 := (List.take_add (i := 12) (j := 2)).symm
      have e3 : plain.take 14 ++ (plain.drop 14).take n = plain.take (14 + n) := (List.take_add (i := 14) (j := n)).symm
      rw [e1, e2, e3, List.take_append_drop]
    all_goals simp; omega

/-- The field of packet 4 that selects the method. -/
theorem sel_parts {plain sel rest : Bytes} (h : plain = List.replicate 8 0 ++ sel ++ rest) (h4 : sel.length = 4) :
    12 ≤ plain.length ∧ plain.take 8 = List.replicate 8 0 ∧ (plain.drop 8).take 4 = sel := by
  subst h
  refine ⟨by simp; omega, by simp, ?_⟩
  rw [List.append_assoc]
  have hl : (List.replicate 8 (0 : UInt8)).length = 8 := by simp
  rw [List.drop_left' hl, List.take_left' h4]

theorem sel_of {plain : Bytes} (hl : 12 ≤ plain.length) (h0 : plain.take 8 = List.replicate 8 0) :
    plain = List.replicate 8 0 ++ (plain.drop 8).take 4 ++ plain.drop 12 ∧ ((plain.drop 8).take 4).length = 4 := by
  constructor
  · rw [← h0]
    have e1 : plain.take 8 ++ (plain.drop 8).take 4 = plain.take 12 := (List.take_add (i := 8) (j := 4)).symm
    rw [e1, List.take_append_drop]
  · simp; omega

theorem badReply_iff (p : BitVec 32) (plain : Bytes) (e : MseError) :
    BadReply p plain e ↔
      (8 ≤ plain.length ∧ plain.take 8 ≠ List.replicate 8 0 ∧ e = .vcNotZero) ∨
      (12 ≤ plain.length ∧ plain.take 8 = List.replicate 8 0 ∧
        ((oneBits (beValue ((plain.drop 8).take 4)) ≠ 1 ∧ e = .selectNotSingle (oneBits (beValue ((plain.drop 8).take 4)))) ∨
         (oneBits (beValue ((plain.drop 8).take 4)) = 1 ∧ (∀ m, beValue ((plain.drop 8).take 4) ≠ methodCode m) ∧
           e = .unknownMethod (BitVec.ofNat 32 (beValue ((plain.drop 8).take 4)))) ∨
         ∃ m, beValue ((plain.drop 8).take 4) = methodCode m ∧ ¬ Offers p m ∧ e = .unexpectedSelection m)) := by
  constructor
  · rintro (⟨h1, h2⟩ | ⟨sel, rest, h1, h2, h3⟩ | ⟨sel, rest, h1, h2, h3, h4⟩ | ⟨m, sel, rest, h1, h2, h3, h4⟩)
    · exact .inl ⟨h1, h2, rfl⟩
    · obtain ⟨a, b, c⟩ := sel_parts h1 h2
      exact .inr ⟨a, b, .inl (by rw [c]; exact ⟨h3, rfl⟩)⟩
    · obtain ⟨a, b, c⟩ := sel_parts h1 h2
      exact .inr ⟨a, b, .inr (.inl (by rw [c]; exact ⟨h3, h4, rfl⟩))⟩
    · obtain ⟨a, b, c⟩ := sel_parts h1 h2
      exact .inr ⟨a, b, .inr (.inr (by rw [c]; exact ⟨m, h3, h4, rfl⟩))⟩
  · rintro (⟨h1, h2, rfl⟩ | ⟨hl, h0, (⟨h3, rfl⟩ | ⟨h3, h4, rfl⟩ | ⟨m, h3, h4, rfl⟩)⟩)
    · exact .vc h1 h2
    · exact .single _ _ (sel_of hl h0).1 (sel_of hl h0).2 h3
    · exact .unknown _ _ (sel_of hl h0).1 (sel_of hl h0).2 h3 h4
    · exact .unexpected m _ _ (sel_of hl h0).1 (sel_of hl h0).2 h3 h4

theorem countOnes_eq (v : Nat) : countOnes (BitVec.ofNat 32 v) = oneBits v := by
  rw [countOnes, oneBits, List.countP_eq_length_filter]
  congr 1
  apply List.filter_congr
  intro i hi
  have := List.mem_range.1 hi
  simp only [BitVec.getLsbD_ofNat, this, decide_true, Bool.true_and]

theorem ofCode_eq (v : Nat) (hv : v < 2 ^ 32) (m : CryptoMethod) : CryptoMethod.ofCode (BitVec.ofNat 32 v) = some m ↔ v = methodCode m := by
  have h1 : BitVec.ofNat 32 v = 1 ↔ v = 1 := by rw [← BitVec.toNat_inj]; simp; omega
  have h2 : BitVec.ofNat 32 v = 2 ↔ v = 2 := by rw [← BitVec.toNat_inj]; simp; omega
  rw [CryptoMethod.ofCode]
  by_cases a : v = 1
  · rw [if_pos (h1.2 a)]; cases m <;> simp [methodCode, a]
  · rw [if_neg (mt h1.1 a)]
    by_cases b : v = 2
    · rw [if_pos (h2.2 b)]; cases m <;> simp [methodCode, b]
    · rw [if_neg (mt h2.1 b)]; cases m <;> simp [methodCode, a, b]

theorem ofCode_none (v : Nat) (hv : v < 2 ^ 32) : CryptoMethod.ofCode (BitVec.ofNat 32 v) = none ↔ ∀ m, v ≠ methodCode m := by
  constructor
  · intro h m hm
    rw [(ofCode_eq v hv m).2 hm] at h; simp at h
  · intro h
    cases hc : CryptoMethod.ofCode (BitVec.ofNat 32 v) with
    | none => rfl
    | some m => exact absurd ((ofCode_eq v hv m).1 hc) (h m)

theorem contains_iff (p : BitVec 32) (m : CryptoMethod) : methodSetContains p m = true ↔ Offers p m := by
  have hb : ∀ k, k < 32 → (p &&& BitVec.twoPow 32 k ≠ 0#32 ↔ p.getLsbD k = true) := by
    intro k hk
    rw [BitVec.and_twoPow]
    cases h : p.getLsbD k
    · simp
    · simp only [if_true]
      refine ⟨fun _ => trivial, fun _ h0 => ?_⟩
      have := congrArg (fun x => x.getLsbD k) h0
      simp [hk] at this
  cases m with
  | plaintext =>
    have h1 : BitVec.twoPow 32 0 = 1#32 := by decide
    have := hb 0 (by omega)
    rw [h1] at this
    simpa [methodSetContains, Offers, CryptoMethod.code] using this
  | rc4 =>
    have h1 : BitVec.twoPow 32 1 = 2#32 := by decide
    have := hb 1 (by omega)
    rw [h1] at this
    simpa [methodSetContains, Offers, CryptoMethod.code] using this

theorem oneBits_code (m : CryptoMethod) : oneBits (methodCode m) = 1 := by cases m <;> decide

theorem allZero_iff (b : Bytes) : b.all (fun x => x == 0) = true ↔ b = List.replicate b.length 0 := by
  induction b with
  | nil => simp
  | cons x xs ih => simp [List.replicate_succ, ← ih]

/-- What remains of the keystream after packet 4. -/
def afterReply (o i : Rc4) (m : CryptoMethod) (n : Nat) : Keystream :=
  match m with
  | .plaintext => .plaintext
  | .rc4 => .rc4 o (rc4After i (14 + n))

theorem decode_at (o i : Rc4) (k n : Nat) (full : Bytes) :
    (Keystream.rc4 o (rc4After i k)).decode ((full.drop k).take n) =
      (((xorAt (rc4Byte i) 0 full).drop k).take n, .rc4 o (rc4After i (k + ((full.drop k).take n).length))) := by
  have h : rc4Byte (rc4After i k) = fun j => rc4Byte i (k + j) := by funext j; rw [rc4Byte_after]
  have h2 := xorAt_drop (rc4Byte i) 0 k full
  simp only [Keystream.decode, apply_eq, h, xorAt_shift, Nat.add_zero, ← rc4After_add]
  rw [Nat.zero_add] at h2
  rw [xorAt_take, h2]

theorem packet4_cases (p : BitVec 32) (o i : Rc4) (full : Bytes) :
    match packet4Loop p (.rc4 o i) .vc full with
    | .error e => BadReply p (xorAt (rc4Byte i) 0 full) e
    | .ok (.done ks, rest) => ∃ m n, Reply p (xorAt (rc4Byte i) 0 full) m n ∧ ks = afterReply o i m n ∧ rest = full.drop (14 + n)
    | .ok _ => (∀ m n, ¬ Reply p (xorAt (rc4Byte i) 0 full) m n) ∧ ∀ e, ¬ BadReply p (xorAt (rc4Byte i) 0 full) e := by
  generalize hpl : xorAt (rc4Byte i) 0 full = plain
  have hlen : plain.length = full.length := by rw [← hpl]; simp
  simp only [reply_iff, badReply_iff, packet4Loop]
  rw [onVc]
  by_cases h8 : full.length < 8
  · rw [if_pos h8]
    refine ⟨?_, ?_⟩
    · rintro m n ⟨-, h, -⟩; omega
    · rintro e (⟨h, -⟩ | ⟨h, -⟩) <;> omega
  rw [if_neg h8]
  have d8 : (Keystream.rc4 o i).decode (full.take 8) = (plain.take 8, .rc4 o (rc4After i 8)) := by
    have := decode_at o i 0 8 full
    simp only [List.drop_zero, List.length_take, Nat.min_eq_left (Nat.le_of_not_lt h8), hpl] at this
    exact this
  simp only [d8]
  have hz : (plain.take 8).all (fun b => b == 0) = true ↔ plain.take 8 = List.replicate 8 0 := by
    rw [allZero_iff]
    have : (plain.take 8).length = 8 := by simp; omega
    rw [this]
  by_cases hvc : plain.take 8 = List.replicate 8 0
  case neg =>
    rw [if_neg (mt hz.1 hvc)]
    exact .inl ⟨by omega, hvc, rfl⟩
  rw [if_pos (hz.2 hvc), onSelect]
  by_cases h12 : (full.drop 8).length < 4
  · rw [if_pos h12]
    simp at h12
    refine ⟨?_, ?_⟩
    · rintro m n ⟨-, h, -⟩; omega
    · rintro e (⟨-, h, -⟩ | ⟨h, -⟩)
      · exact h hvc
      · omega
  rw [if_neg h12]
  simp only [List.length_drop, Nat.not_lt] at h12
  have d12 : (Keystream.rc4 o (rc4After i 8)).decode ((full.drop 8).take 4) = ((plain.drop 8).take 4, .rc4 o (rc4After i 12)) := by
    have := decode_at o i 8 4 full
    simp only [List.length_take, List.length_drop, Nat.min_eq_left h12, hpl] at this
    exact this
  simp only [d12, beAccum_eq]
  generalize hv : beValue ((plain.drop 8).take 4) = v
  have hv32 : v < 2 ^ 32 := by
    have := beValue_lt ((plain.drop 8).take 4)
    have hl : ((plain.drop 8).take 4).length = 4 := by simp; omega
    rw [hl, hv] at this
    exact Nat.lt_of_lt_of_le this (by decide)
  rw [countOnes_eq]
  by_cases h1 : oneBits v = 1
  case neg =>
    rw [if_pos h1]
    exact .inr ⟨by omega, hvc, .inl ⟨h1, rfl⟩⟩
  rw [if_neg (fun h => h h1)]
  cases hc : CryptoMethod.ofCode (BitVec.ofNat 32 v) with
  | none => exact .inr ⟨by omega, hvc, .inr (.inl ⟨h1, (ofCode_none v hv32).1 hc, rfl⟩)⟩
  | some m =>
    have hm := (ofCode_eq v hv32 m).1 hc
    have huniq : ∀ m', v = methodCode m' → m' = m := fun m' h => by
      have := (ofCode_eq v hv32 m').2 h
      rw [hc] at this; exact (Option.some.inj this).symm
    simp only
    by_cases ho : methodSetContains p m = true
    case neg =>
      rw [if_neg ho]
      exact .inr ⟨by omega, hvc, .inr (.inr ⟨m, hm, mt (contains_iff p m).2 ho, rfl⟩)⟩
    rw [if_pos ho]
    have ho' := (contains_iff p m).1 ho
    have hbad : ∀ e : MseError, ¬ ((8 ≤ plain.length ∧ plain.take 8 ≠ List.replicate 8 0 ∧ e = .vcNotZero) ∨
      (12 ≤ plain.length ∧ plain.take 8 = List.replicate 8 0 ∧
        ((oneBits v ≠ 1 ∧ e = .selectNotSingle (oneBits v)) ∨
         (oneBits v = 1 ∧ (∀ m, v ≠ methodCode m) ∧ e = .unknownMethod (BitVec.ofNat 32 v)) ∨
         ∃ m, v = methodCode m ∧ ¬ Offers p m ∧ e = .unexpectedSelection m))) := by
      rintro e (⟨-, h, -⟩ | ⟨-, -, (⟨h, -⟩ | ⟨-, h, -⟩ | ⟨m', h, h', -⟩)⟩)
      · exact h hvc
      · exact h h1
      · exact h m hm
      · exact h' (huniq m' h ▸ ho')
    rw [onLenPadD, List.drop_drop]
    by_cases h14 : (full.drop (8 + 4)).length < 2
    · rw [if_pos h14]
      simp only [List.length_drop] at h14
      refine ⟨?_, hbad⟩
      rintro m n ⟨-, h, -⟩; omega
    rw [if_neg h14]
    simp only [List.length_drop, Nat.not_lt] at h14
    have d14 : (Keystream.rc4 o (rc4After i 12)).decode ((full.drop 12).take 2) = ((plain.drop 12).take 2, .rc4 o (rc4After i 14)) := by
      have := decode_at o i 12 2 full
      simp only [List.length_take, List.length_drop, Nat.min_eq_left h14, hpl] at this
      exact this
    simp only [d14, beAccum_eq, List.drop_drop]
    generalize hn : beValue ((plain.drop 12).take 2) = n
    simp only [onPadD, List.length_drop]
    by_cases hp : n ≤ full.length - 14
    · have e1 : min n (full.length - (8 + 4 + 2)) = n := by omega
      rw [e1, if_pos (Nat.sub_self n)]
      have dn := decode_at o i 14 n full
      have e2 : ((full.drop 14).take n).length = n := by simp; omega
      rw [e2] at dn
      refine ⟨m, n, ⟨ho', by omega, hvc, hm, rfl⟩, ?_, ?_⟩
      · cases m
        · rfl
        · simp only [afterReply]
          exact congrArg Prod.snd dn
      · simp [List.drop_drop]
    · have e1 : n - min n (full.length - (8 + 4 + 2)) ≠ 0 := by omega
      rw [if_neg e1]
      refine ⟨?_, hbad⟩
      rintro m' n' ⟨-, h, -, -, h'⟩; omega

theorem methodCode_inj {m m' : CryptoMethod} (h : methodCode m = methodCode m') : m = m' := by
  cases m <;> cases m' <;> simp_all [methodCode]

theorem reply_unique {p : BitVec 32} {plain : Bytes} {m m' : CryptoMethod} {n n' : Nat}
    (h : Reply p plain m n) (h' : Reply p plain m' n') : m = m' ∧ n = n' := by
  rw [reply_iff] at h h'
  exact ⟨methodCode_inj (h.2.2.2.1.symm.trans h'.2.2.2.1), h.2.2.2.2.symm.trans h'.2.2.2.2⟩

theorem reply_not_bad {p : BitVec 32} {plain : Bytes} {m : CryptoMethod} {n : Nat} {e : MseError}
    (h : Reply p plain m n) : ¬ BadReply p plain e := by
  rw [reply_iff] at h
  rw [badReply_iff]
  obtain ⟨h1, h2, h3, h4, h5⟩ := h
  rintro (⟨-, h, -⟩ | ⟨-, -, (⟨h, -⟩ | ⟨-, h, -⟩ | ⟨m', h, h', -⟩)⟩)
  · exact h h3
  · rw [h4] at h; exact h (oneBits_code m)
  · exact h m h4
  · exact h' (methodCode_inj (h4.symm.trans h) ▸ h1)

theorem badReply_unique {p : BitVec 32} {plain : Bytes} {e e' : MseError}
    (h : BadReply p plain e) (h' : BadReply p plain e') : e = e' := by
  rw [badReply_iff] at h h'
  have hk := oneBits_code
  rcases h with ⟨-, h1, rfl⟩ | ⟨-, h1, h⟩ <;> rcases h' with ⟨-, h2, rfl⟩ | ⟨-, h2, h'⟩
  · rfl
  · exact absurd h2 h1
  · exact absurd h1 h2
  · rcases h with ⟨a, rfl⟩ | ⟨a, b, rfl⟩ | ⟨m, a, b, rfl⟩ <;> rcases h' with ⟨c, rfl⟩ | ⟨c, d, rfl⟩ | ⟨m', c, d, rfl⟩
    · rfl
    · exact absurd c a
    · rw [c] at a; exact absurd (hk m') a
    · exact absurd a c
    · rfl
    · exact absurd c (b m')
    · rw [a] at c; exact absurd (hk m) c
    · exact absurd a (d m)
    · rw [methodCode_inj (a.symm.trans c)]

end Demag
