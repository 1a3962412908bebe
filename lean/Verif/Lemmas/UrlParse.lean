import Verif.Model.UrlParse
import Verif.Spec.Magnet
import Verif.Props.HttpQuery
import Verif.Props.Utf8
import Verif.Props.IpText

/-!
# Lemmas: reading URLs
-/

namespace Demag

open Spec

/-! ### Escaping -/

/-- A set of characters to escape that leaves alone what escapes are made of. -/
structure SetOk (set : Char → Bool) : Prop where
  pct : set '%' = false
  plus : set '+' = false
  hex : ∀ c, (hexDigit c).isSome = true → set c = false

theorem hexDigit_range {c : Char} (h : (hexDigit c).isSome = true) :
    (48 ≤ c.toNat ∧ c.toNat ≤ 57) ∨ (65 ≤ c.toNat ∧ c.toNat ≤ 70) ∨ (97 ≤ c.toNat ∧ c.toNat ≤ 102) := by
  unfold hexDigit at h
  split at h
  · next h1 => left; exact ⟨h1.1, h1.2⟩
  · split at h
    · next h1 => right; left; exact ⟨h1.1, h1.2⟩
    · split at h
      · next h1 => right; right; exact ⟨h1.1, h1.2⟩
      · cases h

theorem not_beq_of_toNat {c d : Char} (h : c.toNat ≠ d.toNat) : (c == d) = false := by
  rw [beq_eq_false_iff_ne]
  rintro rfl
  exact h rfl

theorem controlSet_false {c : Char} : controlSet c = false ↔ 0x1F < c.toNat ∧ c.toNat ≤ 0x7E := by
  simp [controlSet]

theorem controlSet_ok : SetOk controlSet where
  pct := by decide
  plus := by decide
  hex c h := by
    rw [controlSet_false]
    have := hexDigit_range h
    omega

theorem querySet_ok : SetOk querySet where
  pct := by decide
  plus := by decide
  hex c h := by
    have h1 := controlSet_ok.hex c h
    have h2 := hexDigit_range h
    have e : ∀ d : Char, d ∈ [' ', '"', '#', '<', '>'] → (c == d) = false := by
      intro d hd
      apply not_beq_of_toNat
      simp only [List.mem_cons, List.not_mem_nil, or_false] at hd
      rcases hd with rfl | rfl | rfl | rfl | rfl <;> simp <;> omega
    simp [querySet, h1, e]

theorem pathSet_ok (caret : Bool) : SetOk (pathSet caret) where
  pct := by cases caret <;> decide
  plus := by cases caret <;> decide
  hex c h := by
    have h1 := querySet_ok.hex c h
    have h2 := hexDigit_range h
    have e : ∀ d : Char, d ∈ ['?', '`', '{', '}', '^'] → (c == d) = false := by
      intro d hd
      apply not_beq_of_toNat
      simp only [List.mem_cons, List.not_mem_nil, or_false] at hd
      rcases hd with rfl | rfl | rfl | rfl | rfl <;> simp <;> omega
    simp [pathSet, h1, e]

/-- A byte, escaped. -/
def pctByte (b : UInt8) : Text := ['%', hexUpper (b.toNat / 16), hexUpper (b.toNat % 16)]

theorem hexDigit_upper : ∀ d, d < 16 → hexDigit (hexUpper d) = some d := by decide

theorem byte_digits (b : UInt8) : b.toNat / 16 < 16 ∧ b.toNat % 16 < 16 ∧ UInt8.ofNat (16 * (b.toNat / 16) + b.toNat % 16) = b := by
  have := b.toNat_lt
  refine ⟨by omega, by omega, ?_⟩
  rw [show 16 * (b.toNat / 16) + b.toNat % 16 = b.toNat by omega]
  simp

theorem formBytes_pctByte (b : UInt8) (r : Text) : formBytes (pctByte b ++ r) = b :: formBytes r := by
  obtain ⟨h1, h2, h3⟩ := byte_digits b
  unfold pctByte
  rw [List.cons_append, List.cons_append, List.cons_append, List.nil_append, formBytes]
  simp only [hexDigit_upper _ h1, hexDigit_upper _ h2, h3]
  rfl

theorem formBytes_pctBytes (bs : Bytes) (r : Text) : formBytes (bs.flatMap pctByte ++ r) = bs ++ formBytes r := by
  induction bs with
  | nil => rfl
  | cons b bs ih => rw [List.flatMap_cons, List.append_assoc, formBytes_pctByte, ih]; rfl

/-- A percent sign that two hexadecimal digits do not follow stands for itself. -/
theorem formBytes_percent (x : Text) (h : ∀ a b r, x = a :: b :: r → ¬ ((hexDigit a).isSome = true ∧ (hexDigit b).isSome = true)) :
    formBytes ('%' :: x) = utf8 ['%'] ++ formBytes x := by
  match x with
  | [] => simp [formBytes]
  | [a] => rw [formBytes]; simp
  | a :: b :: r =>
    rw [formBytes]
    have := h a b r rfl
    simp only [show ('%' : Char) ≠ '+' by decide, if_false, if_true]
    split
    · next h1 h2 => simp [h1, h2] at this
    · rfl

theorem percentChar_set {set : Char → Bool} {c : Char} (h : set c = true) : percentChar set c = (utf8 [c]).flatMap pctByte := by
  rw [percentChar, if_pos h]; rfl

theorem percentChar_keep {set : Char → Bool} {c : Char} (h : set c = false) : percentChar set c = [c] := by
  rw [percentChar, if_neg (by simp [h])]

theorem percentEncode_cons (set : Char → Bool) (c : Char) (t : Text) :
    percentEncode set (c :: t) = percentChar set c ++ percentEncode set t := List.flatMap_cons

/-- What is written for a character of the set starts with a percent sign. -/
theorem percentChar_head {set : Char → Bool} {c : Char} (h : set c = true) : ∃ r, percentChar set c = '%' :: r := by
  rw [percentChar_set h]
  match hu : utf8 [c], Props.utf8_single_ne c with
  | b :: bs, _ => exact ⟨_, rfl⟩

/-- Escaping does not change the meaning. -/
theorem formBytes_encode {set : Char → Bool} (hs : SetOk set) (t : Text) : formBytes (percentEncode set t) = formBytes t := by
  have cons : ∀ c r, c ≠ '%' → c ≠ '+' → formBytes (percentEncode set r) = formBytes r →
      formBytes (percentEncode set (c :: r)) = utf8 [c] ++ formBytes r := by
    intro c r h1 h2 ih
    rw [percentEncode_cons]
    by_cases h : set c = true
    · rw [percentChar_set h, formBytes_pctBytes, ih]
    · rw [percentChar_keep (by simpa using h), List.cons_append, List.nil_append, formBytes.eq_def]
      simp only [h2, h1, if_false, ih]
  have pctHead : ∀ a b r x y z, (hexDigit a).isSome = false ∨ (hexDigit b).isSome = false → percentEncode set (a :: b :: r) = x :: y :: z →
      ¬ ((hexDigit x).isSome = true ∧ (hexDigit y).isSome = true) := by
    intro a b r x y z hab he hxy
    have hp : (hexDigit '%').isSome = false := by decide
    rw [percentEncode_cons] at he
    by_cases ha : set a = true
    · obtain ⟨u, hu⟩ := percentChar_head ha
      rw [hu, List.cons_append] at he
      injection he with e1 e2
      rw [← e1, hp] at hxy
      cases hxy.1
    · rw [percentChar_keep (by simpa using ha), List.cons_append, List.nil_append, percentEncode_cons] at he
      injection he with e1 e2
      subst e1
      by_cases hb : set b = true
      · obtain ⟨u, hu⟩ := percentChar_head hb
        rw [hu, List.cons_append] at e2
        injection e2 with e3 e4
        rw [← e3, hp] at hxy
        cases hxy.2
      · rw [percentChar_keep (by simpa using hb), List.cons_append] at e2
        injection e2 with e3 e4
        subst e3
        rcases hab with h | h
        · rw [h] at hxy; cases hxy.1
        · rw [h] at hxy; cases hxy.2
  fun_induction formBytes t with
  | case1 => simp [percentEncode, formBytes]
  | case2 r ih =>
    rw [percentEncode_cons, percentChar_keep hs.plus, List.cons_append, List.nil_append, formBytes.eq_def]
    simp only [if_true, ih]
  | case3 a b r' x y hy hx h ih =>
    rw [percentEncode_cons, percentChar_keep hs.pct, percentEncode_cons, percentChar_keep (hs.hex a (by simp [hx])),
      percentEncode_cons, percentChar_keep (hs.hex b (by simp [hy]))]
    simp only [List.cons_append, List.nil_append]
    rw [formBytes.eq_def]
    simp only [show ('%' : Char) ≠ '+' by decide, if_false, if_true, hx, hy, ih]
  | case4 a b r' hn h ih =>
    rw [percentEncode_cons, percentChar_keep hs.pct, List.cons_append, List.nil_append, formBytes_percent, ih]
    intro x y z he
    refine pctHead a b r' x y z ?_ he
    cases ha : hexDigit a with
    | none => left; rfl
    | some x =>
      cases hb : hexDigit b with
      | none => right; rfl
      | some y => exact absurd hb (hn x y ha)
  | case5 a h ih =>
    rw [percentEncode_cons, percentChar_keep hs.pct, List.cons_append, List.nil_append, formBytes_percent, ih]
    intro x y z he hxy
    by_cases ha : set a = true
    · obtain ⟨u, hu⟩ := percentChar_head ha
      rw [percentEncode_cons, hu] at he
      injection he with e1 e2
      rw [← e1] at hxy
      exact absurd hxy.1 (by decide)
    · rw [percentEncode_cons, percentChar_keep (by simpa using ha)] at he
      cases he
  | case6 h =>
    rw [percentEncode_cons, percentChar_keep hs.pct]
    simp [percentEncode, formBytes]
  | case7 c r h1 h2 ih => exact cons c r h2 h1 ih

/-- A text without characters of the set is left alone. -/
theorem percentEncode_id {set : Char → Bool} {t : Text} (h : ∀ c ∈ t, set c = false) : percentEncode set t = t := by
  induction t with
  | nil => rfl
  | cons c t ih =>
    rw [percentEncode_cons, percentChar_keep (h c (by simp)), ih (fun d hd => h d (by simp [hd]))]; rfl

/-- What may stand in an escaped text: characters not in the set, percent signs and digits. -/
theorem mem_percentEncode {set : Char → Bool} {t : Text} {c : Char} (h : c ∈ percentEncode set t) :
    (set c = false ∧ c ∈ t) ∨ c = '%' ∨ (hexDigit c).isSome = true := by
  unfold percentEncode at h
  obtain ⟨d, hd, hc⟩ := List.mem_flatMap.1 h
  by_cases hs : set d = true
  · rw [percentChar_set hs] at hc
    obtain ⟨b, -, hb⟩ := List.mem_flatMap.1 hc
    obtain ⟨h1, h2, -⟩ := byte_digits b
    simp only [pctByte, List.mem_cons, List.not_mem_nil, or_false] at hb
    rcases hb with rfl | rfl | rfl
    · right; left; rfl
    · right; right; simp [hexDigit_upper _ h1]
    · right; right; simp [hexDigit_upper _ h2]
  · rw [percentChar_keep (by simpa using hs)] at hc
    simp only [List.mem_cons, List.not_mem_nil, or_false] at hc
    subst hc
    exact .inl ⟨by simpa using hs, hd⟩

theorem percentEncode_avoids {set : Char → Bool} (hs : SetOk set) (t : Text) : ∀ c ∈ percentEncode set t, set c = false := by
  intro c hc
  rcases mem_percentEncode hc with h | rfl | h
  · exact h.1
  · exact hs.pct
  · exact hs.hex c h

theorem percentEncode_eq_nil {set : Char → Bool} {t : Text} : percentEncode set t = [] ↔ t = [] := by
  cases t with
  | nil => simp [percentEncode]
  | cons c t =>
    rw [percentEncode_cons]
    constructor
    · intro h
      by_cases hs : set c = true
      · obtain ⟨r, hr⟩ := percentChar_head hs
        rw [hr] at h; cases h
      · rw [percentChar_keep (by simpa using hs)] at h; cases h
    · intro h; cases h

/-- Characters that are neither escaped nor part of escapes stay where they are. -/
theorem percentEncode_split {set : Char → Bool} {d : Char} (hd : set d = false) (hp : d ≠ '%') (hh : (hexDigit d).isSome = false)
    (t : Text) :
    (percentEncode set t).takeWhile (· ≠ d) = percentEncode set (t.takeWhile (· ≠ d)) ∧
    (percentEncode set t).dropWhile (· ≠ d) = percentEncode set (t.dropWhile (· ≠ d)) := by
  induction t with
  | nil => exact ⟨rfl, rfl⟩
  | cons c t ih =>
    by_cases hc : c = d
    · subst hc
      rw [percentEncode_cons, percentChar_keep hd]
      simp [percentEncode, percentChar_keep hd]
    · have hall : ∀ x ∈ percentChar set c, (decide (x ≠ d)) = true := by
        intro x hx
        have : x ∈ percentEncode set [c] := by simpa [percentEncode] using hx
        rcases mem_percentEncode this with h | rfl | h
        · simp at h; rw [h.2]; simpa using hc
        · simpa using hp.symm
        · simp only [decide_eq_true_eq]; rintro rfl; rw [hh] at h; cases h
      rw [percentEncode_cons, List.takeWhile_append_of_pos hall, List.dropWhile_append_of_pos hall, ih.1, ih.2]
      simp [hc, percentEncode_cons]

theorem amp_ok : (hexDigit '&').isSome = false := by decide

/-- Escaping a query does not change the names and values in it. -/
theorem formDecode_encode {set : Char → Bool} (hs : SetOk set) (ha : set '&' = false) (he : set '=' = false) (q : Text) :
    formDecode (percentEncode set q) = formDecode q := by
  have hseg : segments (percentEncode set q) = (segments q).map (percentEncode set) := by
    induction q with
    | nil => rfl
    | cons c t ih =>
      have key : ∀ u : Text, '&' ∉ u → ∀ r s ss, segments r = s :: ss → segments (u ++ r) = (u ++ s) :: ss := by
        intro u hu r s ss hr
        induction u with
        | nil => exact hr
        | cons x u ihu =>
          have := ihu (fun h => hu (by simp [h]))
          rw [List.cons_append, segments, this, if_neg (by intro h; exact hu (by simp [h]))]
          rfl
      by_cases hc : c = '&'
      · subst hc
        rw [percentEncode_cons, percentChar_keep ha, List.cons_append, List.nil_append, segments, if_pos rfl, ih, segments, if_pos rfl]
        rfl
      · match hseg : segments t, Props.segments_ne t with
        | s :: ss, _ =>
          rw [percentEncode_cons, key _ _ _ (percentEncode set s) (ss.map (percentEncode set)) (by rw [ih, hseg]; rfl), segments,
            if_neg hc, hseg]
          · rfl
          · intro h
            have : '&' ∈ percentEncode set [c] := by simpa [percentEncode] using h
            rcases mem_percentEncode this with h | h | h
            · simp at h; exact hc h.2.symm
            · cases h
            · cases h
  have hpair : ∀ s, formPair (percentEncode set s) = formPair s := by
    intro s
    obtain ⟨h1, h2⟩ := percentEncode_split he (by decide) (by decide) s
    unfold formPair
    rw [h1, h2, formBytes_encode hs]
    congr 1
    match s.dropWhile (· ≠ '='), List.head?_dropWhile_not (fun c => decide (c ≠ '=')) s with
    | [], _ => rfl
    | c :: r, hh =>
      have hc : c = '=' := by simpa using hh
      subst hc
      rw [percentEncode_cons, percentChar_keep he]
      simp only [List.cons_append, List.nil_append, List.drop_succ_cons, List.drop_zero]
      exact formBytes_encode hs r
  unfold formDecode
  rw [hseg, List.filter_map, List.map_map]
  rw [show ((fun x => decide (x ≠ [])) ∘ percentEncode set) = fun x => decide (x ≠ []) by
    funext x; simp [percentEncode_eq_nil]]
  apply List.map_congr_left
  intro s _
  exact hpair s

end Demag
