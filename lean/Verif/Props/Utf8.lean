import Verif.Model.Utf8
import Verif.Spec.Utf8
import Verif.Lemmas.FormParse
import Verif.Lemmas.Emit

/-!
# Broken UTF-8 is read as Unicode recommends
-/

namespace Demag.Props

open Demag Spec

/-- The shapes of the encodings of characters. -/
def EncShape : Bytes → Prop
  | [x] => x.toNat < 0x80
  | [x, y] => (0xC2 ≤ x.toNat ∧ x.toNat ≤ 0xDF) ∧ isCont y = true
  | [x, y, z] => second3 x y = true ∧ isCont z = true
  | [x, y, z, w] => second4 x y = true ∧ isCont z = true ∧ isCont w = true
  | _ => False

theorem char_val_lt (c : Char) : c.toNat < 0xD800 ∨ (0xDFFF < c.toNat ∧ c.toNat < 0x110000) := by
  show c.val.toNat < 0xD800 ∨ (0xDFFF < c.val.toNat ∧ c.val.toNat < 0x110000)
  rcases c.valid with h | ⟨h1, h2⟩
  · left; simpa using h
  · right; exact ⟨by simpa using h1, by simpa using h2⟩

theorem enc_shape (c : Char) : EncShape (String.utf8EncodeChar c) := by
  have hv := char_val_lt c
  unfold String.utf8EncodeChar
  have hc : c.val.toNat = c.toNat := rfl
  simp only [hc]
  generalize c.toNat = v at hv
  split
  · simp only [EncShape, UInt8.toNat_ofNat']; omega
  · split
    · simp only [EncShape, isCont, UInt8.toNat_ofNat', Bool.and_eq_true, decide_eq_true_eq]; omega
    · split
      · simp only [EncShape, second3, isCont, UInt8.toNat_ofNat', Bool.and_eq_true, Bool.or_eq_true, decide_eq_true_eq,
          beq_iff_eq]
        omega
      · simp only [EncShape, second4, isCont, UInt8.toNat_ofNat', Bool.and_eq_true, Bool.or_eq_true, decide_eq_true_eq,
          beq_iff_eq]
        omega

theorem char_ofNat_toNat {n : Nat} (h : n < 0xD800 ∨ (0xDFFF < n ∧ n < 0x110000)) : (Char.ofNat n).val.toNat = n := by
  have hv : n.isValidChar := h
  simp only [Char.ofNat, dif_pos hv]
  show (Char.ofNatAux n hv).toNat = n
  simp [Char.ofNatAux, Char.toNat]

theorem byte_eq {x : UInt8} {n : Nat} (h : x.toNat = n % 256) : UInt8.ofNat n = x := by
  apply UInt8.toNat_inj.1; rw [UInt8.toNat_ofNat', h]

theorem shape_enc {b : Bytes} (h : EncShape b) : ∃ c, String.utf8EncodeChar c = b := by
  unfold EncShape at h
  split at h
  · rename_i x
    refine ⟨Char.ofNat x.toNat, ?_⟩
    unfold String.utf8EncodeChar
    simp only [char_ofNat_toNat (n := x.toNat) (by omega)]
    rw [if_pos (by omega), UInt8.ofNat_toNat]
  · rename_i x y
    simp only [isCont, Bool.and_eq_true, decide_eq_true_eq] at h
    refine ⟨Char.ofNat ((x.toNat - 0xC0) * 64 + (y.toNat - 0x80)), ?_⟩
    unfold String.utf8EncodeChar
    simp only [char_ofNat_toNat (n := (x.toNat - 0xC0) * 64 + (y.toNat - 0x80)) (by omega)]
    rw [if_neg (by omega), if_pos (by omega), byte_eq (x := x) (by omega), byte_eq (x := y) (by omega)]
  · rename_i x y z
    simp only [second3, isCont, Bool.and_eq_true, Bool.or_eq_true, decide_eq_true_eq, beq_iff_eq] at h
    refine ⟨Char.ofNat ((x.toNat - 0xE0) * 4096 + (y.toNat - 0x80) * 64 + (z.toNat - 0x80)), ?_⟩
    unfold String.utf8EncodeChar
    simp only [char_ofNat_toNat (n := (x.toNat - 0xE0) * 4096 + (y.toNat - 0x80) * 64 + (z.toNat - 0x80)) (by omega)]
    rw [if_neg (by omega), if_neg (by omega), if_pos (by omega), byte_eq (x := x) (by omega), byte_eq (x := y) (by omega),
      byte_eq (x := z) (by omega)]
  · rename_i x y z w
    simp only [second4, isCont, Bool.and_eq_true, Bool.or_eq_true, decide_eq_true_eq, beq_iff_eq] at h
    refine ⟨Char.ofNat ((x.toNat - 0xF0) * 262144 + (y.toNat - 0x80) * 4096 + (z.toNat - 0x80) * 64 + (w.toNat - 0x80)), ?_⟩
    unfold String.utf8EncodeChar
    simp only [char_ofNat_toNat
      (n := (x.toNat - 0xF0) * 262144 + (y.toNat - 0x80) * 4096 + (z.toNat - 0x80) * 64 + (w.toNat - 0x80)) (by omega)]
    rw [if_neg (by omega), if_neg (by omega), if_neg (by omega), byte_eq (x := x) (by omega), byte_eq (x := y) (by omega),
      byte_eq (x := z) (by omega), byte_eq (x := w) (by omega)]
  · exact h.elim

/-- The encodings of characters are the byte strings of these shapes. -/
theorem enc_iff (b : Bytes) : (∃ c, utf8 [c] = b) ↔ EncShape b := by
  constructor
  · rintro ⟨c, rfl⟩; rw [utf8_single]; exact enc_shape c
  · intro h; obtain ⟨c, hc⟩ := shape_enc h; exact ⟨c, by rw [utf8_single, hc]⟩

theorem charPrefix_iff (p : Bytes) : CharPrefix p ↔ ∃ b, EncShape b ∧ p <+: b := by
  constructor
  · rintro ⟨c, h⟩; exact ⟨_, (enc_iff _).1 ⟨c, rfl⟩, h⟩
  · rintro ⟨b, h1, h2⟩; obtain ⟨c, rfl⟩ := (enc_iff _).2 h1; exact ⟨c, h2⟩

theorem utf8Width_cases (x : UInt8) :
    (x.toNat < 0x80 ∧ utf8Width x = 1) ∨ ((0xC2 ≤ x.toNat ∧ x.toNat ≤ 0xDF) ∧ utf8Width x = 2) ∨
    ((0xE0 ≤ x.toNat ∧ x.toNat ≤ 0xEF) ∧ utf8Width x = 3) ∨ ((0xF0 ≤ x.toNat ∧ x.toNat ≤ 0xF4) ∧ utf8Width x = 4) ∨
    (((0x80 ≤ x.toNat ∧ x.toNat ≤ 0xC1) ∨ 0xF5 ≤ x.toNat) ∧ utf8Width x = 0) := by
  unfold utf8Width
  repeat' split
  all_goals omega

theorem isCont_zero : isCont 0 = false := by decide
theorem second3_zero (x : UInt8) : second3 x 0 = false := by simp [second3, isCont]
theorem second4_zero (x : UInt8) : second4 x 0 = false := by simp [second4, isCont]

theorem second3_lead {x y : UInt8} (h : second3 x y = true) : 0xE0 ≤ x.toNat ∧ x.toNat ≤ 0xEF := by
  simp only [second3, isCont, Bool.and_eq_true, Bool.or_eq_true, decide_eq_true_eq, beq_iff_eq] at h; omega
theorem second4_lead {x y : UInt8} (h : second4 x y = true) : 0xF0 ≤ x.toNat ∧ x.toNat ≤ 0xF4 := by
  simp only [second4, isCont, Bool.and_eq_true, Bool.or_eq_true, decide_eq_true_eq, beq_iff_eq] at h; omega
theorem second3_some (x : UInt8) (h : 0xE0 ≤ x.toNat ∧ x.toNat ≤ 0xEF) : ∃ y, second3 x y = true := by
  by_cases h1 : x.toNat = 0xED
  · exact ⟨0x80, by simp [second3, h1]⟩
  · refine ⟨0xA0, ?_⟩
    simp only [second3, isCont, Bool.and_eq_true, Bool.or_eq_true, decide_eq_true_eq, beq_iff_eq, UInt8.reduceToNat]; omega
theorem second4_some (x : UInt8) (h : 0xF0 ≤ x.toNat ∧ x.toNat ≤ 0xF4) : ∃ y, second4 x y = true := by
  by_cases h1 : x.toNat = 0xF4
  · exact ⟨0x80, by simp [second4, h1]⟩
  · refine ⟨0x90, ?_⟩
    simp only [second4, isCont, Bool.and_eq_true, Bool.or_eq_true, decide_eq_true_eq, beq_iff_eq, UInt8.reduceToNat]; omega

/-- When a character is read, it is the encoding of one. -/
theorem scan_char (x : UInt8) (r : Bytes) (h : (scanChar (x :: r)).2 = true) :
    EncShape ((x :: r).take (scanChar (x :: r)).1) := by
  simp only [scanChar] at h ⊢
  rcases utf8Width_cases x with ⟨h1, h2⟩ | ⟨h1, h2⟩ | ⟨h1, h2⟩ | ⟨h1, h2⟩ | ⟨h1, h2⟩
  · simp only [h2]; simpa [EncShape] using h1
  · simp only [h2] at h ⊢
    split at h
    · rename_i hy
      rw [if_pos hy]
      rcases r with _ | ⟨y, r⟩
      · simp [isCont_zero] at hy
      · simp only [List.getD_cons_zero] at hy; exact ⟨h1, hy⟩
    · cases h
  · simp only [h2] at h ⊢
    split at h
    · rename_i hy
      rw [if_pos hy]
      split at h
      · rename_i hz
        rw [if_pos hz]
        rcases r with _ | ⟨y, _ | ⟨z, r⟩⟩
        · simp [isCont_zero] at hz
        · simp [isCont_zero] at hz
        · exact ⟨hy, hz⟩
      · cases h
    · cases h
  · simp only [h2] at h ⊢
    split at h
    · rename_i hy
      rw [if_pos hy]
      split at h
      · rename_i hz
        rw [if_pos hz]
        split at h
        · rename_i hw
          rw [if_pos hw]
          rcases r with _ | ⟨y, _ | ⟨z, _ | ⟨w, r⟩⟩⟩
          · simp [isCont_zero] at hw
          · simp [isCont_zero] at hw
          · simp [isCont_zero] at hw
          · exact ⟨hy, hz, hw⟩
        · cases h
      · cases h
    · cases h
  · simp only [h2] at h; cases h

/-- How the encodings that a byte string begins with, or that begin with it, look. -/
theorem shape_cases {b : Bytes} (h : EncShape b) :
    (∃ x, b = [x] ∧ x.toNat < 0x80) ∨ (∃ x y, b = [x, y] ∧ (0xC2 ≤ x.toNat ∧ x.toNat ≤ 0xDF) ∧ isCont y = true) ∨
    (∃ x y z, b = [x, y, z] ∧ second3 x y = true ∧ isCont z = true) ∨
    (∃ x y z w, b = [x, y, z, w] ∧ second4 x y = true ∧ isCont z = true ∧ isCont w = true) := by
  unfold EncShape at h
  split at h
  · exact .inl ⟨_, rfl, h⟩
  · exact .inr (.inl ⟨_, _, rfl, h⟩)
  · exact .inr (.inr (.inl ⟨_, _, _, rfl, h⟩))
  · exact .inr (.inr (.inr ⟨_, _, _, _, rfl, h⟩))
  · exact h.elim

theorem no_char {x : UInt8} {r : Bytes} (h1 : ¬ x.toNat < 0x80)
    (h2 : (0xC2 ≤ x.toNat ∧ x.toNat ≤ 0xDF) → isCont (r.getD 0 0) = false)
    (h3 : second3 x (r.getD 0 0) = true → isCont (r.getD 1 0) = false)
    (h4 : second4 x (r.getD 0 0) = true → isCont (r.getD 1 0) = true → isCont (r.getD 2 0) = false) :
    ∀ b, EncShape b → ¬ b <+: x :: r := by
  intro b hb hp
  rcases shape_cases hb with ⟨x', rfl, g1⟩ | ⟨x', y', rfl, g1, g2⟩ | ⟨x', y', z', rfl, g1, g2⟩ | ⟨x', y', z', w', rfl, g1, g2, g3⟩
  · rw [List.cons_prefix_cons] at hp; rw [hp.1] at g1; exact h1 g1
  · obtain ⟨t, ht⟩ := hp
    simp only [List.cons_append, List.nil_append, List.cons.injEq] at ht
    obtain ⟨rfl, rfl⟩ := ht
    have := h2 g1
    simp only [List.getD_cons_zero] at this
    rw [this] at g2; cases g2
  · obtain ⟨t, ht⟩ := hp
    simp only [List.cons_append, List.nil_append, List.cons.injEq] at ht
    obtain ⟨rfl, rfl⟩ := ht
    have := h3 g1
    simp only [List.getD_cons_zero, List.getD_cons_succ] at this
    rw [this] at g2; cases g2
  · obtain ⟨t, ht⟩ := hp
    simp only [List.cons_append, List.nil_append, List.cons.injEq] at ht
    obtain ⟨rfl, rfl⟩ := ht
    have := h4 g1 g2
    simp only [List.getD_cons_zero, List.getD_cons_succ] at this
    rw [this] at g3; cases g3

theorem no_prefix2 {x y : UInt8} (h1 : (0xC2 ≤ x.toNat ∧ x.toNat ≤ 0xDF) → isCont y = false) (h2 : second3 x y = false)
    (h3 : second4 x y = false) : ∀ b, EncShape b → ¬ [x, y] <+: b := by
  intro b hb hp
  rcases shape_cases hb with ⟨x', rfl, g1⟩ | ⟨x', y', rfl, g1, g2⟩ | ⟨x', y', z', rfl, g1, g2⟩ | ⟨x', y', z', w', rfl, g1, g2, g3⟩
  · simp [List.cons_prefix_cons] at hp
  · simp only [List.cons_prefix_cons] at hp; obtain ⟨rfl, rfl, -⟩ := hp; rw [h1 g1] at g2; cases g2
  · simp only [List.cons_prefix_cons] at hp; obtain ⟨rfl, rfl, -⟩ := hp; rw [h2] at g1; cases g1
  · simp only [List.cons_prefix_cons] at hp; obtain ⟨rfl, rfl, -⟩ := hp; rw [h3] at g1; cases g1

theorem no_prefix3 {x y z : UInt8} (h : isCont z = false) : ∀ b, EncShape b → ¬ [x, y, z] <+: b := by
  intro b hb hp
  rcases shape_cases hb with ⟨x', rfl, g1⟩ | ⟨x', y', rfl, g1, g2⟩ | ⟨x', y', z', rfl, g1, g2⟩ | ⟨x', y', z', w', rfl, g1, g2, g3⟩
  · simp [List.cons_prefix_cons] at hp
  · simp [List.cons_prefix_cons] at hp
  · simp only [List.cons_prefix_cons] at hp; obtain ⟨rfl, rfl, rfl, -⟩ := hp; rw [h] at g2; cases g2
  · simp only [List.cons_prefix_cons] at hp; obtain ⟨rfl, rfl, rfl, -⟩ := hp; rw [h] at g2; cases g2

theorem no_prefix4 {x y z w : UInt8} (h : isCont w = false) : ∀ b, EncShape b → ¬ [x, y, z, w] <+: b := by
  intro b hb hp
  rcases shape_cases hb with ⟨x', rfl, g1⟩ | ⟨x', y', rfl, g1, g2⟩ | ⟨x', y', z', rfl, g1, g2⟩ | ⟨x', y', z', w', rfl, g1, g2, g3⟩
  · simp [List.cons_prefix_cons] at hp
  · simp [List.cons_prefix_cons] at hp
  · simp [List.cons_prefix_cons] at hp
  · simp only [List.cons_prefix_cons] at hp; obtain ⟨rfl, rfl, rfl, rfl, -⟩ := hp; rw [h] at g3; cases g3

theorem second3_not {x y : UInt8} (h : ¬ (0xE0 ≤ x.toNat ∧ x.toNat ≤ 0xEF)) : second3 x y = false := by
  cases hs : second3 x y with
  | false => rfl
  | true => exact absurd (second3_lead hs) h
theorem second4_not {x y : UInt8} (h : ¬ (0xF0 ≤ x.toNat ∧ x.toNat ≤ 0xF4)) : second4 x y = false := by
  cases hs : second4 x y with
  | false => rfl
  | true => exact absurd (second4_lead hs) h

theorem cont80 : isCont 0x80 = true := by decide

/-- When no character is read, what is read is one ill-formed piece. -/
theorem scan_bad (x : UInt8) (r : Bytes) (h : (scanChar (x :: r)).2 = false) :
    IllFormed ((x :: r).take (scanChar (x :: r)).1) ((x :: r).drop (scanChar (x :: r)).1) := by
  have mk : ∀ n, 1 ≤ n → (∀ b, EncShape b → ¬ b <+: x :: r) → (n = 1 ∨ ∃ b, EncShape b ∧ (x :: r).take n <+: b) →
      (∀ b, EncShape b → n < (x :: r).length → ¬ (x :: r).take (n + 1) <+: b) →
      IllFormed ((x :: r).take n) ((x :: r).drop n) := by
    intro n hn h1 h2 h3
    refine ⟨?_, ?_, ?_, ?_⟩
    · intro c hc
      rw [List.take_append_drop] at hc
      exact h1 _ ((enc_iff _).1 ⟨c, rfl⟩) hc
    · cases n with
      | zero => omega
      | succ n => simp
    · rcases h2 with h2 | h2
      · left; subst h2; simp
      · right; exact (charPrefix_iff _).2 h2
    · intro y s hy hp
      obtain ⟨b, hb1, hb2⟩ := (charPrefix_iff _).1 hp
      have hlt : n < (x :: r).length := by
        have := congrArg List.length hy
        simp only [List.length_drop, List.length_cons] at this
        simp only [List.length_cons]
        omega
      apply h3 b hb1 hlt
      rw [List.take_succ, List.getElem?_eq_getElem hlt]
      rw [List.drop_eq_getElem_cons hlt, List.cons.injEq] at hy
      simpa [hy.1] using hb2
  have one : (∀ b, EncShape b → ¬ b <+: x :: r) → (∀ b, EncShape b → ¬ [x, r.getD 0 0] <+: b) →
      IllFormed ((x :: r).take 1) ((x :: r).drop 1) := by
    intro g1 g2
    refine mk 1 (by omega) g1 (.inl rfl) ?_
    intro b hb hlt hp
    rcases r with _ | ⟨y, r⟩
    · simp at hlt
    · exact g2 b hb hp
  simp only [scanChar] at h ⊢
  rcases utf8Width_cases x with ⟨h1, h2⟩ | ⟨h1, h2⟩ | ⟨h1, h2⟩ | ⟨h1, h2⟩ | ⟨h1, h2⟩
  · simp only [h2] at h; cases h
  · simp only [h2] at h ⊢
    split at h
    · cases h
    · rename_i hy
      rw [if_neg hy]
      rw [Bool.not_eq_true] at hy
      have s3 : ∀ y, second3 x y = false := fun y => second3_not (by omega)
      have s4 : ∀ y, second4 x y = false := fun y => second4_not (by omega)
      exact one (no_char (by omega) (fun _ => hy) (by simp [s3]) (by simp [s4])) (no_prefix2 (fun _ => hy) (s3 _) (s4 _))
  · simp only [h2] at h ⊢
    have s4 : ∀ y, second4 x y = false := fun y => second4_not (by omega)
    split at h
    · rename_i hy
      rw [if_pos hy]
      split at h
      · cases h
      · rename_i hz
        rw [if_neg hz]
        rw [Bool.not_eq_true] at hz
        rcases r with _ | ⟨y, r⟩
        · simp [second3_zero] at hy
        · simp only [List.getD_cons_zero, List.getD_cons_succ] at hy hz
          refine mk 2 (by omega) (no_char (by omega) (by omega) (by simpa using fun _ => hz) (by simp [s4])) (.inr ?_) ?_
          · exact ⟨[x, y, 0x80], ⟨hy, cont80⟩, ⟨[0x80], rfl⟩⟩
          · intro b hb hlt hp
            rcases r with _ | ⟨z, r⟩
            · simp at hlt
            · exact no_prefix3 hz b hb hp
    · rename_i hy
      rw [if_neg hy]
      rw [Bool.not_eq_true] at hy
      exact one (no_char (by omega) (by omega) (fun g => by rw [hy] at g; cases g) (by simp [s4])) (no_prefix2 (by omega) hy (s4 _))
  · simp only [h2] at h ⊢
    have s3 : ∀ y, second3 x y = false := fun y => second3_not (by omega)
    split at h
    · rename_i hy
      rw [if_pos hy]
      rcases r with _ | ⟨y, r⟩
      · simp [second4_zero] at hy
      · simp only [List.getD_cons_zero, List.getD_cons_succ] at h hy ⊢
        split at h
        · rename_i hz
          rw [if_pos hz]
          split at h
          · cases h
          · rename_i hw
            rw [if_neg hw]
            rw [Bool.not_eq_true] at hw
            rcases r with _ | ⟨z, r⟩
            · simp [isCont_zero] at hz
            · simp only [List.getD_cons_zero, List.getD_cons_succ] at hz hw
              refine mk 3 (by omega) (no_char (by omega) (by omega) (by simp [s3]) (by simpa using fun _ _ => hw)) (.inr ?_) ?_
              · exact ⟨[x, y, z, 0x80], ⟨hy, hz, cont80⟩, ⟨[0x80], rfl⟩⟩
              · intro b hb hlt hp
                rcases r with _ | ⟨w, r⟩
                · simp at hlt
                · exact no_prefix4 hw b hb hp
        · rename_i hz
          rw [if_neg hz]
          rw [Bool.not_eq_true] at hz
          refine mk 2 (by omega) (no_char (by omega) (by omega) (by simp [s3]) (fun _ g => by simp only [List.getD_cons_succ] at g; rw [hz] at g; cases g)) (.inr ?_) ?_
          · exact ⟨[x, y, 0x80, 0x80], ⟨hy, cont80, cont80⟩, ⟨[0x80, 0x80], rfl⟩⟩
          · intro b hb hlt hp
            rcases r with _ | ⟨z, r⟩
            · simp at hlt
            · exact no_prefix3 hz b hb hp
    · rename_i hy
      rw [if_neg hy]
      rw [Bool.not_eq_true] at hy
      exact one (no_char (by omega) (by omega) (by simp [s3]) (fun g => by rw [hy] at g; cases g)) (no_prefix2 (by omega) (s3 _) hy)
  · simp only [h2] at h ⊢
    have s3 : ∀ y, second3 x y = false := fun y => second3_not (by omega)
    have s4 : ∀ y, second4 x y = false := fun y => second4_not (by omega)
    exact one (no_char (by omega) (by omega) (by simp [s3]) (by simp [s4])) (no_prefix2 (by omega) (s3 _) (s4 _))

theorem chunks_loop (valid : Text) (b : Bytes) :
    (∀ c ∈ chunksLoop (utf8 valid) b, ∃ t, c.1 = utf8 t) ∧
    ∃ t, Lossy b t ∧ ((chunksLoop (utf8 valid) b).map fun c => ((fromUtf8 c.1).getD [], c.2)).flatMap
      (fun c => c.1 ++ if c.2.isEmpty then [] else [Char.ofNat 0xFFFD]) = valid ++ t := by
  induction hn : b.length using Nat.strongRecOn generalizing valid b with
  | _ n ih =>
    cases b with
    | nil =>
      simp only [chunksLoop, List.isEmpty_iff]
      split
      · rename_i h
        have := (utf8_nil_iff _).1 h
        exact ⟨by simp, [], .nil, by simp [this]⟩
      · refine ⟨?_, [], .nil, ?_⟩
        · intro c hc; rw [List.mem_singleton] at hc; exact ⟨valid, by rw [hc]⟩
        · simp [fromUtf8_utf8]
    | cons x r =>
      have hpos := scanChar_pos x r
      have hlt : ((x :: r).drop (scanChar (x :: r)).1).length < n := by
        rw [← hn, List.length_drop]
        simp only [List.length_cons]
        omega
      rw [chunksLoop]
      cases hok : (scanChar (x :: r)).2 with
      | true =>
        rw [if_pos rfl]
        obtain ⟨c, hc⟩ := (enc_iff _).2 (scan_char x r hok)
        have hv : utf8 valid ++ (x :: r).take (scanChar (x :: r)).1 = utf8 (valid ++ [c]) := by
          rw [← hc]; simp [utf8]
        rw [hv]
        obtain ⟨h1, t, h2, h3⟩ := ih _ hlt (valid ++ [c]) _ rfl
        refine ⟨h1, c :: t, ?_, by rw [h3]; simp⟩
        have := Lossy.char c h2
        rwa [hc, List.take_append_drop] at this
      | false =>
        rw [if_neg (by simp)]
        obtain ⟨h1, t, h2, h3⟩ := ih _ hlt [] _ rfl
        have hbad := scan_bad x r hok
        refine ⟨?_, Char.ofNat 0xFFFD :: t, ?_, ?_⟩
        · intro c hc
          rcases List.mem_cons.1 hc with rfl | hc
          · exact ⟨valid, rfl⟩
          · exact h1 c hc
        · have := Lossy.bad hbad h2
          rwa [List.take_append_drop] at this
        · have hne : ((x :: r).take (scanChar (x :: r)).1).isEmpty = false := by
            rw [List.isEmpty_eq_false_iff]; exact hbad.nonempty
          simp only [List.nil_append] at h3
          simp only [List.map_cons, List.flatMap_cons, fromUtf8_utf8, Option.getD_some, hne]
          have h0 : utf8 [] = [] := rfl
          rw [h0] at h3
          rw [h3]
          simp

/-- The valid parts are valid. -/
theorem chunks_valid (b : Bytes) : ∀ c ∈ chunksLoop [] b, ∃ t, c.1 = utf8 t := (chunks_loop [] b).1

/-- Broken UTF-8 is read with U+FFFD in place of every ill-formed piece. -/
theorem lossy_spec (b : Bytes) : Lossy b (lossyUtf8 b) := by
  obtain ⟨-, t, h1, h2⟩ := chunks_loop [] b
  have : lossyUtf8 b = t := by
    simp only [List.nil_append] at h2
    exact h2
  rw [this]; exact h1

theorem illFormed_unique {a b r s : Bytes} (h1 : IllFormed a r) (h2 : IllFormed b s) (h : a ++ r = b ++ s) : a = b ∧ r = s := by
  have key : ∀ {a b r s : Bytes}, IllFormed a r → IllFormed b s → a ++ r = b ++ s → b.length ≤ a.length := by
    intro a b r s h1 h2 h
    rcases Nat.lt_or_ge a.length b.length with hlt | hge
    · exfalso
      have hp : a <+: b := List.prefix_of_prefix_length_le (l₃ := b ++ s) ⟨r, h⟩ ⟨s, rfl⟩ (by omega)
      obtain ⟨c, rfl⟩ := hp
      rw [List.append_assoc, List.append_cancel_left_eq] at h
      cases c with
      | nil => simp at hlt
      | cons x c =>
        apply h1.longest x (c ++ s) h
        rcases h2.piece with hl | ⟨d, hd⟩
        · have := h1.nonempty
          cases a with
          | nil => exact absurd rfl this
          | cons y a => simp at hl
        · exact ⟨d, List.IsPrefix.trans ⟨c, by simp⟩ hd⟩
    · exact hge
  have hl : a.length = b.length := Nat.le_antisymm (key h2 h1 h.symm) (key h1 h2 h)
  exact List.append_inj h hl

theorem utf8_single_ne (c : Char) : utf8 [c] ≠ [] := by
  intro h; have := (utf8_nil_iff _).1 h; cases this

/-- Encodings of characters are not prefixes of one another. -/
theorem char_unique {c d : Char} {r s : Bytes} (h : utf8 [c] ++ r = utf8 [d] ++ s) : c = d ∧ r = s := by
  have hc := (enc_iff _).1 ⟨c, rfl⟩
  have hd := (enc_iff _).1 ⟨d, rfl⟩
  have hcd : utf8 [c] = utf8 [d] → c = d ∧ r = s := by
    intro e
    have := utf8_inj e
    rw [e, List.append_cancel_left_eq] at h
    exact ⟨by simpa using this, h⟩
  apply hcd
  rcases shape_cases hc with ⟨x, e, g1⟩ | ⟨x, y, e, g1, g2⟩ | ⟨x, y, z, e, g1, g2⟩ | ⟨x, y, z, w, e, g1, g2, g3⟩ <;>
  rcases shape_cases hd with ⟨x', e', g1'⟩ | ⟨x', y', e', g1', g2'⟩ | ⟨x', y', z', e', g1', g2'⟩ |
      ⟨x', y', z', w', e', g1', g2', g3'⟩ <;>
  rw [e, e'] at h ⊢ <;> simp only [List.cons_append, List.nil_append, List.cons.injEq, and_true] at h ⊢ <;>
  first
  | exact ⟨h.1, h.2.1, h.2.2.1, h.2.2.2.1⟩
  | exact ⟨h.1, h.2.1, h.2.2.1⟩
  | exact ⟨h.1, h.2.1⟩
  | exact h.1
  | (exfalso
     obtain ⟨rfl, -⟩ := h
     first
     | omega
     | (have := second3_lead g1; omega)
     | (have := second4_lead g1; omega)
     | (have := second3_lead g1'; omega)
     | (have := second4_lead g1'; omega)
     | (have := second3_lead g1; have := second4_lead g1'; omega)
     | (have := second4_lead g1; have := second3_lead g1'; omega))

/-- There is only one such reading. -/
theorem lossy_unique {b : Bytes} {s t : Text} (h1 : Lossy b s) (h2 : Lossy b t) : s = t := by
  induction h1 generalizing t with
  | nil =>
    generalize hb : ([] : Bytes) = b at h2
    cases h2 with
    | nil => rfl
    | char c h => have := List.append_eq_nil_iff.1 hb.symm; exact absurd this.1 (utf8_single_ne c)
    | bad hi h => have := List.append_eq_nil_iff.1 hb.symm; exact absurd this.1 hi.nonempty
  | @char c r t' h ih =>
    generalize hb : utf8 [c] ++ r = b at h2
    cases h2 with
    | nil => have := List.append_eq_nil_iff.1 hb; exact absurd this.1 (utf8_single_ne c)
    | char d h' => obtain ⟨rfl, rfl⟩ := char_unique hb; rw [ih h']
    | bad hi h' => exact absurd ⟨r, hb⟩ (hi.notChar c)
  | @bad bad r t' hi h ih =>
    generalize hb : bad ++ r = b at h2
    cases h2 with
    | nil => have := List.append_eq_nil_iff.1 hb; exact absurd this.1 hi.nonempty
    | char d h' => exact absurd ⟨_, hb.symm⟩ (hi.notChar d)
    | bad hi' h' => obtain ⟨rfl, rfl⟩ := illFormed_unique hi hi' hb; rw [ih h']

/-- A valid text is read as it is. -/
theorem lossy_utf8 (t : Text) : lossyUtf8 (utf8 t) = t := by
  refine lossy_unique (lossy_spec _) ?_
  induction t with
  | nil => exact .nil
  | cons c t ih =>
    have := Lossy.char c ih
    rwa [utf8_single, ← utf8_cons] at this

example : lossyUtf8 [0x41, 0xE2, 0x82, 0x42, 0xFF, 0xED, 0xA0, 0x80, 0xC3, 0xA9] =
    ['A', Char.ofNat 0xFFFD, 'B', Char.ofNat 0xFFFD, Char.ofNat 0xFFFD, Char.ofNat 0xFFFD, Char.ofNat 0xFFFD, 'é'] := by
  decide +kernel

end Demag.Props
