import Verif.Lemmas.Wire
import Verif.Spec.InfoHash
import Verif.Model.InfoHash

/-! Helper lemmas about hexadecimal and base32. -/

namespace Demag

open Spec

theorem forall_uint8 {P : UInt8 → Prop} (h : ∀ n : Fin 256, P (UInt8.ofNat n.val)) (c : UInt8) : P c := by
  have := h ⟨c.toNat, UInt8.toNat_lt c⟩
  simpa using this

/-- A symbol's hexadecimal value, against the table of digits. -/
theorem hexVal_iff (c : UInt8) (n : Nat) :
    hexVal c = some n ↔ n < 16 ∧ asciiLower c = (ascii "0123456789abcdef").getD n 0 := by
  constructor
  · have h : ∀ c : UInt8, ∀ n, hexVal c = some n → 
      (n < 16 ∧ asciiLower c = (ascii "0123456789abcdef").getD n 0) := by
      apply forall_uint8
      intro k n
      have : ∀ k : Fin 256, (match hexVal (UInt8.ofNat k.val) with
        | none => true
        | some n => decide (n < 16 ∧ asciiLower (UInt8.ofNat k.val) = (ascii "0123456789abcdef").getD n 0)) = true := by
        decide +kernel
      intro e
      have := this k
      rw [e] at this
      simpa using this
    exact h c n
  · rintro ⟨hn, h⟩
    have key : ∀ (k : Fin 256) (n : Fin 16), asciiLower (UInt8.ofNat k.val) = (ascii "0123456789abcdef").getD n.val 0 →
        hexVal (UInt8.ofNat k.val) = some n.val := by decide +kernel
    have := key ⟨c.toNat, UInt8.toNat_lt c⟩ ⟨n, hn⟩
    simp only [UInt8.ofNat_toNat] at this
    exact this h

theorem hexTable_inj {m n : Nat} (hm : m < 16) (hn : n < 16)
    (h : (ascii "0123456789abcdef").getD m 0 = (ascii "0123456789abcdef").getD n 0) : m = n := by
  have key : ∀ (m n : Fin 16), (ascii "0123456789abcdef").getD m.val 0 = (ascii "0123456789abcdef").getD n.val 0 →
    m.val = n.val := by decide +kernel
  exact key ⟨m, hm⟩ ⟨n, hn⟩ h

theorem hexNibble_eq {n : Nat} (hn : n < 16) : hexNibble n = (ascii "0123456789abcdef").getD n 0 := by
  have key : ∀ n : Fin 16, hexNibble n.val = (ascii "0123456789abcdef").getD n.val 0 := by decide +kernel
  exact key ⟨n, hn⟩

theorem hexDecode_iff (s bs : Bytes) : hexDecode s = some bs ↔ IsHexOf s bs := by
  unfold IsHexOf
  fun_induction hexDecode s generalizing bs with
  | case1 =>
    cases bs with
    | nil => simp [hexText]
    | cons b bs => simp [hexText]
  | case2 a =>
    cases bs with
    | nil => simp [hexText]
    | cons b bs => simp [hexText]
  | case3 a b rest ih =>
    cases bs with
    | nil =>
      simp only [hexText, List.flatMap_nil, List.map_cons, reduceCtorEq, iff_false]
      intro h
      cases h1 : hexVal a <;> cases h2 : hexVal b <;> cases h3 : hexDecode rest <;>
        rw [h1, h2, h3] at h <;> cases h
    | cons x xs =>
      have hx := UInt8.toNat_lt x
      simp only [hexText, List.flatMap_cons, List.map_cons, List.cons_append, List.nil_append, List.cons.injEq]
      constructor
      · intro h
        cases h1 : hexVal a with
        | none => rw [h1] at h; cases h
        | some m =>
          cases h2 : hexVal b with
          | none => rw [h1, h2] at h; cases h
          | some n =>
            cases h3 : hexDecode rest with
            | none => rw [h1, h2, h3] at h; cases h
            | some r =>
              rw [h1, h2, h3] at h
              simp only [bind, Option.bind, pure, Option.some.injEq, List.cons.injEq] at h
              obtain ⟨rfl, rfl⟩ := h
              have h1' := (hexVal_iff _ _).1 h1
              have h2' := (hexVal_iff _ _).1 h2
              have hv : (UInt8.ofNat (m * 16 + n)).toNat = m * 16 + n := by
                rw [UInt8.toNat_ofNat']; omega
              rw [hv]
              have : (m * 16 + n) / 16 = m := by omega
              have h5 : (m * 16 + n) % 16 = n := by omega
              rw [this, h5]
              exact ⟨h1'.2, h2'.2, (ih _).1 h3⟩
      · rintro ⟨ha, hb, hr⟩
        have h1 : hexVal a = some (x.toNat / 16) := (hexVal_iff _ _).2 ⟨by omega, ha⟩
        have h2 : hexVal b = some (x.toNat % 16) := (hexVal_iff _ _).2 ⟨by omega, hb⟩
        rw [h1, h2, (ih xs).2 hr]
        simp only [bind, Option.bind, pure]
        have : x.toNat / 16 * 16 + x.toNat % 16 = x.toNat := by omega
        rw [this, UInt8.ofNat_toNat]

theorem asciiLower_table {n : Nat} (hn : n < 16) :
    asciiLower ((ascii "0123456789abcdef").getD n 0) = (ascii "0123456789abcdef").getD n 0 := by
  have key : ∀ n : Fin 16, asciiLower ((ascii "0123456789abcdef").getD n.val 0)
    = (ascii "0123456789abcdef").getD n.val 0 := by decide +kernel
  exact key ⟨n, hn⟩

theorem display_isHex (h : InfoHash) : h.display = hexText h.bytes ∧ IsHexOf h.display h.bytes := by
  have h1 : h.display = hexText h.bytes := by
    unfold InfoHash.display hexText
    congr 1
    funext b
    have hb := UInt8.toNat_lt b
    rw [hexNibble_eq (by omega), hexNibble_eq (by omega)]
  refine ⟨h1, ?_⟩
  rw [h1]
  unfold IsHexOf hexText
  rw [List.map_flatMap]
  congr 1
  funext b
  have hb := UInt8.toNat_lt b
  simp only [List.map_cons, List.map_nil]
  rw [asciiLower_table (by omega), asciiLower_table (by omega)]

theorem base32Val_iff (c : UInt8) (n : Nat) :
    base32Val c = some n ↔ n < 32 ∧ c = (ascii "ABCDEFGHIJKLMNOPQRSTUVWXYZ234567").getD n 0 := by
  constructor
  · have key : ∀ k : Fin 256, (match base32Val (UInt8.ofNat k.val) with
        | none => true
        | some n => decide (n < 32 ∧ (UInt8.ofNat k.val) = (ascii "ABCDEFGHIJKLMNOPQRSTUVWXYZ234567").getD n 0)) = true := by
        decide +kernel
    intro e
    have := key ⟨c.toNat, UInt8.toNat_lt c⟩
    simp only [UInt8.ofNat_toNat] at this
    rw [e] at this
    simpa using this
  · rintro ⟨hn, rfl⟩
    have key : ∀ n : Fin 32, base32Val ((ascii "ABCDEFGHIJKLMNOPQRSTUVWXYZ234567").getD n.val 0) = some n.val := by
      decide +kernel
    exact key ⟨n, hn⟩

theorem base32Vals_iff (s : Bytes) (ds : List Nat) :
    base32Vals s = some ds ↔ (∀ d ∈ ds, d < 32) ∧
      s = ds.map (fun d => (ascii "ABCDEFGHIJKLMNOPQRSTUVWXYZ234567").getD d 0) := by
  induction s generalizing ds with
  | nil =>
    cases ds with
    | nil => simp [base32Vals]
    | cons d ds => simp [base32Vals]
  | cons c cs ih =>
    cases ds with
    | nil =>
      simp only [base32Vals, List.map_nil, reduceCtorEq, and_false, iff_false]
      intro h
      cases h1 : base32Val c <;> cases h2 : base32Vals cs <;> rw [h1, h2] at h <;> cases h
    | cons d ds =>
      simp only [base32Vals, List.map_cons, List.cons.injEq, List.mem_cons, forall_eq_or_imp]
      have e1 := base32Val_iff c d
      have e2 := ih ds
      constructor
      · intro h
        cases h1 : base32Val c with
        | none => rw [h1] at h; cases h
        | some x =>
          cases h2 : base32Vals cs with
          | none => rw [h1, h2] at h; cases h
          | some xs =>
            rw [h1, h2] at h; cases h
            have := e1.1 h1
            have := e2.1 h2
            grind
      · rintro ⟨⟨h1, h2⟩, h3, h4⟩
        rw [e1.2 ⟨h1, h3⟩, e2.2 ⟨h2, h4⟩]; rfl

theorem base32Vals_append {s t : Bytes} {xs ys : List Nat} (hs : base32Vals s = some xs)
    (ht : base32Vals t = some ys) : base32Vals (s ++ t) = some (xs ++ ys) := by
  rw [base32Vals_iff] at *
  obtain ⟨h1, rfl⟩ := hs
  obtain ⟨h2, rfl⟩ := ht
  refine ⟨?_, by simp⟩
  intro d hd
  rcases List.mem_append.1 hd with h | h
  · exact h1 d h
  · exact h2 d h

theorem base32Vals_take_drop {s : Bytes} {ds : List Nat} (k : Nat) (hs : base32Vals s = some ds) :
    base32Vals (s.take k) = some (ds.take k) ∧ base32Vals (s.drop k) = some (ds.drop k) := by
  rw [base32Vals_iff] at hs
  obtain ⟨h1, rfl⟩ := hs
  rw [base32Vals_iff, base32Vals_iff, List.map_take, List.map_drop]
  exact ⟨⟨fun d hd => h1 d (List.mem_of_mem_take hd), rfl⟩, fun d hd => h1 d (List.mem_of_mem_drop hd), rfl⟩

theorem base32Vals_length {s : Bytes} {ds : List Nat} (hs : base32Vals s = some ds) : s.length = ds.length := by
  rw [base32Vals_iff] at hs
  rw [hs.2, List.length_map]

theorem trailingPad_zero {s : Bytes} {ds : List Nat} (hs : base32Vals s = some ds) : trailingPad s = 0 := by
  have hne : ∀ c ∈ s, c ≠ 61 := by
    rw [base32Vals_iff] at hs
    obtain ⟨h1, rfl⟩ := hs
    intro c hc
    obtain ⟨d, hd, rfl⟩ := List.mem_map.1 hc
    have key : ∀ n : Fin 32, (ascii "ABCDEFGHIJKLMNOPQRSTUVWXYZ234567").getD n.val 0 ≠ 61 := by decide +kernel
    exact key ⟨d, h1 d hd⟩
  unfold trailingPad
  cases e : s.reverse with
  | nil => rfl
  | cons c cs =>
    have hc : c ∈ s := by rw [← List.mem_reverse, e]; exact List.mem_cons_self ..
    have := hne c hc
    have h2 : (c == 61) = false := by simpa using this
    simp [List.takeWhile, h2]

theorem trailingPad_le (s : Bytes) : trailingPad s ≤ s.length := by
  unfold trailingPad
  have := (List.takeWhile_sublist (· == (61 : UInt8)) (l := s.reverse)).length_le
  simpa using this

theorem base32Block_length {blk b : Bytes} (h : base32Block blk = some b) :
    b.length = 5 * (8 - trailingPad blk) / 8 := by
  unfold base32Block at h
  simp only at h
  split at h
  · cases h
  · cases e : base32Vals (blk.take (8 - trailingPad blk)) with
    | none => rw [e] at h; cases h
    | some vs =>
      rw [e] at h
      simp only [bind, Option.bind] at h
      split at h
      · cases h; simp
      · cases h

theorem base32Block_iff (blk b : Bytes) (hl : blk.length = 8) (hb : b.length = 5) :
    base32Block blk = some b ↔ ∃ ds, base32Vals blk = some ds ∧ ofDigits 32 ds = beValue b := by
  constructor
  · intro h
    have hlen := base32Block_length h
    have hp : trailingPad blk = 0 := by
      rw [hb] at hlen
      have := trailingPad_le blk
      omega
    unfold base32Block at h
    simp only [hp] at h
    rw [if_neg (by decide)] at h
    have ht : blk.take 8 = blk := List.take_of_length_le (by omega)
    simp only [Nat.sub_zero, ht] at h
    cases e : base32Vals blk with
    | none => rw [e] at h; cases h
    | some vs =>
      rw [e] at h
      refine ⟨vs, rfl, ?_⟩
      have hvl := base32Vals_length e
      have hlt := ofDigits_lt vs ((base32Vals_iff _ _).1 e).1
      rw [← hvl, hl] at hlt
      have hf := ofDigits_foldl 32 vs 0
      simp only [bind, Option.bind, hf, Nat.zero_mul, Nat.zero_add] at h
      simp [Nat.mod_one] at h
      rw [← h, beValue_beBytes, Nat.mod_eq_of_lt (by omega)]
  · rintro ⟨ds, hds, hv⟩
    have hp := trailingPad_zero hds
    unfold base32Block
    have ht : blk.take 8 = blk := List.take_of_length_le (by omega)
    have hf := ofDigits_foldl 32 ds 0
    simp only [hp, Nat.sub_zero, ht, hds]
    simp only [bind, Option.bind, hf, Nat.zero_mul, Nat.zero_add, hv]
    have hbb := beBytes_beValue b
    rw [hb] at hbb
    simp [Nat.mod_one, hbb]

theorem base32Decode_length_le (k : Nat) (s bs : Bytes) (hs : s.length = 8 * k) (h : base32Decode s = some bs) :
    bs.length ≤ 5 * k := by
  induction k generalizing s bs with
  | zero =>
    have : s = [] := List.length_eq_zero_iff.1 (by omega)
    subst this
    rw [base32Decode] at h
    simp at h; subst h; simp
  | succ k ih =>
    rw [base32Decode] at h
    have hne : s.isEmpty = false := by cases s <;> simp at hs ⊢
    simp only [hne, Bool.false_eq_true, if_false] at h
    rw [dif_neg (by omega)] at h
    cases e1 : base32Block (s.take 8) with
    | none => rw [e1] at h; cases h
    | some b =>
      cases e2 : base32Decode (s.drop 8) with
      | none => rw [e1, e2] at h; cases h
      | some r =>
        rw [e1, e2] at h; cases h
        have h1 := base32Block_length e1
        have h2 := ih (s.drop 8) r (by rw [List.length_drop]; omega) e2
        simp only [List.length_append]; omega

theorem trailingPad_none {s : Bytes} (hne : ∀ c ∈ s, c ≠ 61) : trailingPad s = 0 := by
  unfold trailingPad
  cases e : s.reverse with
  | nil => rfl
  | cons c cs =>
    have hc : c ∈ s := by rw [← List.mem_reverse, e]; simp
    have h1 : (c == (61 : UInt8)) = false := by
      rw [beq_eq_false_iff_ne]; exact hne c hc
    rw [List.takeWhile_cons, h1]
    rfl

theorem base32Decode_length_eq (k : Nat) (s bs : Bytes) (hs : s.length = 8 * k) (hne : ∀ c ∈ s, c ≠ 61)
    (h : base32Decode s = some bs) : bs.length = 5 * k := by
  induction k generalizing s bs with
  | zero =>
    have : s = [] := List.length_eq_zero_iff.1 (by omega)
    subst this
    rw [base32Decode] at h
    simp at h; subst h; simp
  | succ k ih =>
    rw [base32Decode] at h
    have hne' : s.isEmpty = false := by cases s <;> simp at hs ⊢
    simp only [hne', Bool.false_eq_true, if_false] at h
    rw [dif_neg (by omega)] at h
    cases e1 : base32Block (s.take 8) with
    | none => rw [e1] at h; cases h
    | some b =>
      cases e2 : base32Decode (s.drop 8) with
      | none => rw [e1, e2] at h; cases h
      | some r =>
        rw [e1, e2] at h; cases h
        have h1 := base32Block_length e1
        rw [trailingPad_none (fun c hc => hne c (List.mem_of_mem_take hc))] at h1
        have h2 := ih (s.drop 8) r (by rw [List.length_drop]; omega) (fun c hc => hne c (List.mem_of_mem_drop hc)) e2
        simp only [List.length_append]; omega

theorem beValue_append (a b : Bytes) : beValue (a ++ b) = beValue a * 256 ^ b.length + beValue b := by
  simp [beValue, ofDigits_append]

theorem divmod_unique {q1 q2 r1 r2 M : Nat} (h1 : r1 < M) (h2 : r2 < M) (h : q1 * M + r1 = q2 * M + r2) :
    q1 = q2 ∧ r1 = r2 := by
  have hM : 0 < M := by omega
  have a := congrArg (· / M) h
  have b := congrArg (· % M) h
  simp only [Nat.add_comm (_ * M), Nat.add_mul_div_right _ _ hM, Nat.div_eq_of_lt h1, Nat.div_eq_of_lt h2,
    Nat.add_mul_mod_self_right, Nat.mod_eq_of_lt h1, Nat.mod_eq_of_lt h2] at a b
  omega

theorem base32Decode_iff (k : Nat) (s bs : Bytes) (hs : s.length = 8 * k) (hb : bs.length = 5 * k) :
    base32Decode s = some bs ↔ ∃ ds, base32Vals s = some ds ∧ ofDigits 32 ds = beValue bs := by
  induction k generalizing s bs with
  | zero =>
    have h1 : s = [] := List.length_eq_zero_iff.1 (by omega)
    have h2 : bs = [] := List.length_eq_zero_iff.1 (by omega)
    subst h1 h2
    rw [base32Decode]
    simp [base32Vals, beValue, ofDigits]
  | succ k ih =>
    have hne : s.isEmpty = false := by cases s <;> simp at hs ⊢
    have hpow : (32 : Nat) ^ (8 * k) = 256 ^ (5 * k) := by
      rw [Nat.pow_mul, Nat.pow_mul]
    rw [base32Decode]
    simp only [hne, Bool.false_eq_true, if_false]
    rw [dif_neg (by omega)]
    constructor
    · intro h
      cases e1 : base32Block (s.take 8) with
      | none => rw [e1] at h; cases h
      | some b =>
        cases e2 : base32Decode (s.drop 8) with
        | none => rw [e1, e2] at h; cases h
        | some r =>
          rw [e1, e2] at h; cases h
          have h1 := base32Block_length e1
          have h2 := base32Decode_length_le k _ _ (by rw [List.length_drop]; omega) e2
          simp only [List.length_append] at hb
          have hb5 : b.length = 5 := by omega
          have hr5 : r.length = 5 * k := by omega
          obtain ⟨ds, hds, hv⟩ := (base32Block_iff _ _ (by rw [List.length_take]; omega) hb5).1 e1
          obtain ⟨es, hes, hw⟩ := (ih (s.drop 8) r (by rw [List.length_drop]; omega) hr5).1 e2
          refine ⟨ds ++ es, ?_, ?_⟩
          · have := base32Vals_append hds hes
            rwa [List.take_append_drop] at this
          · rw [ofDigits_append, beValue_append, hv, hw, hr5]
            have := base32Vals_length hes
            rw [← this, List.length_drop, hs]
            rw [show 8 * (k + 1) - 8 = 8 * k by omega, hpow]
    · rintro ⟨ds, hds, hv⟩
      have hdl := base32Vals_length hds
      obtain ⟨h1, h2⟩ := base32Vals_take_drop 8 hds
      have hlt := ofDigits_lt _ ((base32Vals_iff _ _).1 h2).1
      rw [List.length_drop, show ds.length - 8 = 8 * k by omega, hpow] at hlt
      have hv' := hv
      rw [← List.take_append_drop 8 ds, ofDigits_append, ← List.take_append_drop 5 bs, beValue_append,
        List.length_drop, List.length_drop, show ds.length - 8 = 8 * k by omega,
        show bs.length - 5 = 5 * k by omega, hpow] at hv'
      have hlt2 := beValue_lt (bs.drop 5)
      rw [List.length_drop, show bs.length - 5 = 5 * k by omega] at hlt2
      obtain ⟨hq, hr⟩ := divmod_unique hlt hlt2 hv'
      rw [(base32Block_iff (s.take 8) (bs.take 5) (by rw [List.length_take]; omega)
        (by rw [List.length_take]; omega)).2 ⟨_, h1, hq⟩]
      rw [(ih (s.drop 8) (bs.drop 5) (by rw [List.length_drop]; omega) (by rw [List.length_drop]; omega)).2 ⟨_, h2, hr⟩]
      simp [bind, Option.bind]

theorem trailingPad_replicate {s : Bytes} {ds : List Nat} (hs : base32Vals s = some ds) (k : Nat) :
    trailingPad (s ++ List.replicate k 61) = k := by
  have h0 := trailingPad_zero hs
  unfold trailingPad at h0 ⊢
  rw [List.reverse_append, List.reverse_replicate, List.takeWhile_append_of_pos (by simp), List.length_append, h0]
  simp

/-- A block of eight characters is read as base32 exactly if it is the padded text of some bytes. -/
theorem base32Block_spec (blk b : Bytes) (hl : blk.length = 8) : base32Block blk = some b ↔ IsBase32Block blk b := by
  constructor
  · intro h
    have hb := base32Block_length h
    have hp := trailingPad_le blk
    unfold base32Block at h
    simp only at h
    split at h
    · cases h
    rename_i hn
    generalize e : trailingPad blk = k at *
    cases e1 : base32Vals (blk.take (8 - k)) with
    | none => rw [e1] at h; cases h
    | some vs =>
      rw [e1] at h
      have hv := (base32Vals_iff _ _).1 e1
      have hvl := base32Vals_length e1
      rw [List.length_take, hl] at hvl
      have hlt := ofDigits_lt vs hv.1
      have hf := ofDigits_foldl 32 vs 0
      simp only [bind, Option.bind, hf, Nat.zero_mul, Nat.zero_add] at h
      split at h
      · rename_i hz
        cases h
        have hk : 8 - k = 2 ∨ 8 - k = 4 ∨ 8 - k = 5 ∨ 8 - k = 7 ∨ 8 - k = 8 := by omega
        have hvl' : vs.length = 8 - k := by omega
        refine ⟨by omega, by omega, vs, by omega, hv.1, ?_, ?_⟩
        · rw [hvl', ← hv.2, show 8 - (8 - k) = k by omega]
          have : blk.drop (8 - k) = List.replicate k 61 := by
            unfold trailingPad at e
            have h1 : blk.reverse.take k = List.replicate k 61 := by
              have h2 : blk.reverse.takeWhile (· == 61) = blk.reverse.take k := by
                have := List.takeWhile_append_dropWhile (p := (· == (61 : UInt8))) (l := blk.reverse)
                conv => rhs; rw [← this]
                rw [List.take_append_of_le_length (by omega), List.take_of_length_le (by omega)]
              rw [← h2, List.eq_replicate_iff]
              refine ⟨e, fun c hc => ?_⟩
              have := List.all_takeWhile (p := (· == (61 : UInt8))) (l := blk.reverse)
              simpa using List.all_eq_true.1 this c hc
            have h3 := congrArg List.reverse h1
            rw [List.reverse_take, List.reverse_reverse, List.length_reverse, hl, List.reverse_replicate] at h3
            exact h3
          rw [← this, List.take_append_drop]
        · rw [beValue_beBytes, beBytes_length]
          have hx : 5 * vs.length - 8 * (5 * (8 - k) / 8) = 5 * (8 - k) % 8 := by omega
          rw [hx]
          have h256 : ofDigits 32 vs / 2 ^ (5 * (8 - k) % 8) < 256 ^ (5 * (8 - k) / 8) := by
            rw [Nat.div_lt_iff_lt_mul (Nat.two_pow_pos _)]
            rw [hvl'] at hlt
            refine Nat.lt_of_lt_of_eq hlt ?_
            rcases hk with h | h | h | h | h <;> rw [h]
          rw [Nat.mod_eq_of_lt h256, Nat.div_mul_cancel (Nat.dvd_of_mod_eq_zero hz)]
      · cases h
  · rintro ⟨h1, h5, ds, hdl, hlt, rfl, hv⟩
    have e1 : base32Vals (ds.map (fun d => (ascii "ABCDEFGHIJKLMNOPQRSTUVWXYZ234567").getD d 0)) = some ds :=
      (base32Vals_iff _ _).2 ⟨hlt, rfl⟩
    have hp := trailingPad_replicate e1 (8 - ds.length)
    unfold base32Block
    simp only [hp]
    have hbl : b.length = 1 ∨ b.length = 2 ∨ b.length = 3 ∨ b.length = 4 ∨ b.length = 5 := by omega
    have hd8 : 8 - (8 - ds.length) = ds.length := by omega
    rw [hd8, if_neg (by omega), List.take_append_of_le_length (by simp), List.take_of_length_le (by simp), e1]
    have hf := ofDigits_foldl 32 ds 0
    simp only [bind, Option.bind, hf, Nat.zero_mul, Nat.zero_add, hv]
    have hx : 5 * ds.length - 8 * b.length = 5 * ds.length % 8 := by omega
    rw [hx, if_pos (Nat.mul_mod_left _ _), Nat.mul_div_cancel _ (Nat.two_pow_pos _), show 5 * ds.length / 8 = b.length by omega,
      beBytes_beValue]

theorem isBase32Block_length {blk b : Bytes} (h : IsBase32Block blk b) : blk.length = 8 := by
  obtain ⟨h1, h5, ds, hdl, -, rfl, -⟩ := h
  simp
  omega

/-- A text is read as base32 exactly if it consists of padded texts of bytes. -/
theorem base32Decode_spec (s bs : Bytes) : base32Decode s = some bs ↔ IsPaddedBase32 s bs := by
  constructor
  · intro h
    fun_induction base32Decode s generalizing bs with
    | case1 s hs =>
      cases h
      have : s = [] := by simpa using hs
      rw [this]; exact .nil
    | case2 s hs hl => cases h
    | case3 s hs hl ih =>
      cases e1 : base32Block (s.take 8) with
      | none => rw [e1] at h; cases h
      | some b =>
        cases e2 : base32Decode (s.drop 8) with
        | none => rw [e1, e2] at h; cases h
        | some r =>
          rw [e1, e2] at h; cases h
          have := IsPaddedBase32.cons ((base32Block_spec _ _ (by rw [List.length_take]; omega)).1 e1) (ih r e2)
          rwa [List.take_append_drop] at this
  · intro h
    induction h with
    | nil => rw [base32Decode]; rfl
    | @cons blk b s bs hb _ ih =>
      have hl := isBase32Block_length hb
      rw [base32Decode]
      have hne : (blk ++ s).isEmpty = false := by
        cases blk
        · simp at hl
        · rfl
      rw [hne, if_neg (by decide), dif_neg (by rw [List.length_append]; omega)]
      rw [List.take_append_of_le_length (by omega), List.take_of_length_le (by omega), List.drop_append_of_le_length (by omega),
        List.drop_of_length_le (by omega), List.nil_append, (base32Block_spec _ _ hl).2 hb, ih]
      rfl

theorem alphanumericSample_alnum (r : Nat) : IsAlphanumeric (alphanumericSample r) := by
  have key : ∀ i : Fin 62, IsAlphanumeric (UInt8.ofNat
      (if i.val < 26 then 65 + i.val else if i.val < 52 then 97 + (i.val - 26) else 48 + (i.val - 52))) := by
    unfold IsAlphanumeric; decide +kernel
  exact key ⟨r % 62, Nat.mod_lt _ (by decide)⟩

end Demag
