import Verif.Spec.Magnet
import Mathlib.Data.List.TakeWhile

/-! Helper lemmas: `form_urlencoded` works on bytes, the specification on characters. -/

namespace Demag

open Spec

/-- A character is one ASCII byte, or bytes that are not ASCII. -/
theorem utf8_char (c : Char) :
    (c.toNat < 128 ∧ String.utf8EncodeChar c = [UInt8.ofNat c.toNat]) ∨
    (128 ≤ c.toNat ∧ ∀ b ∈ String.utf8EncodeChar c, 128 ≤ b.toNat) := by
  unfold String.utf8EncodeChar
  have hc : c.val.toNat = c.toNat := rfl
  simp only [hc]
  have hv : c.toNat < 1114112 := by
    show c.val.toNat < 1114112
    rcases c.valid with h | ⟨-, h⟩ <;> omega
  by_cases h : c.toNat ≤ 0x7f
  · left
    rw [if_pos h]
    exact ⟨by omega, rfl⟩
  · right
    rw [if_neg h]
    refine ⟨by omega, ?_⟩
    intro b hb
    split at hb
    · simp only [List.mem_cons, List.not_mem_nil, or_false] at hb
      rcases hb with rfl | rfl <;> simp <;> omega
    · split at hb
      · simp only [List.mem_cons, List.not_mem_nil, or_false] at hb
        rcases hb with rfl | rfl | rfl <;> simp <;> omega
      · simp only [List.mem_cons, List.not_mem_nil, or_false] at hb
        rcases hb with rfl | rfl | rfl | rfl <;> simp <;> omega

theorem char_ext {P : Char → Prop} (h : ∀ n : Fin 128, P (Char.ofNat n.val)) (c : Char) (hc : c.toNat < 128) : P c := by
  have := h ⟨c.toNat, hc⟩
  rwa [show Char.ofNat c.toNat = c from Char.ofNat_toNat c] at this

/-- The first byte of a character is a hexadecimal digit iff the character is. -/
theorem head_byte (c : Char) : ∃ x xs, replacePlus (String.utf8EncodeChar c) = x :: xs ∧ byteHexDigit x = hexDigit c ∧
    (hexDigit c ≠ none → xs = []) := by
  rcases utf8_char c with ⟨h, -⟩ | ⟨h, hb⟩
  · revert h
    refine fun h => char_ext (P := fun c => ∃ x xs, replacePlus (String.utf8EncodeChar c) = x :: xs ∧
      byteHexDigit x = hexDigit c ∧ (hexDigit c ≠ none → xs = [])) ?_ c h
    intro n
    have : ∀ n : Fin 128, replacePlus (String.utf8EncodeChar (Char.ofNat n.val)) =
        [(replacePlus (String.utf8EncodeChar (Char.ofNat n.val))).headD 0] ∧
        byteHexDigit ((replacePlus (String.utf8EncodeChar (Char.ofNat n.val))).headD 0) = hexDigit (Char.ofNat n.val) := by
      decide +kernel
    exact ⟨_, _, (this n).1, (this n).2, fun _ => rfl⟩
  · have hne : String.utf8EncodeChar c ≠ [] := by
      intro e
      have := String.length_utf8EncodeChar c
      rw [e] at this
      have h2 := Char.utf8Size_pos c
      simp at this; omega
    cases he : String.utf8EncodeChar c with
    | nil => exact absurd he hne
    | cons x xs =>
      have hx : 128 ≤ x.toNat := hb x (by rw [he]; simp)
      have hx43 : x ≠ 43 := by rintro rfl; simp at hx
      have h1 : hexDigit c = none := by
        have e1 : ('9' : Char).toNat = 57 := rfl
        have e2 : ('F' : Char).toNat = 70 := rfl
        have e3 : ('f' : Char).toNat = 102 := rfl
        have le : ∀ d : Char, d.toNat < 128 → ¬ c ≤ d := by
          intro d hd hcd
          have : c.toNat ≤ d.toNat := hcd
          omega
        unfold hexDigit
        rw [if_neg (fun h => le '9' (by decide) h.2), if_neg (fun h => le 'F' (by decide) h.2),
          if_neg (fun h => le 'f' (by decide) h.2)]
      refine ⟨x, replacePlus xs, by simp [replacePlus, hx43], ?_, fun hh => absurd h1 hh⟩
      rw [h1]
      unfold byteHexDigit
      rw [if_neg (by omega), if_neg (by omega), if_neg (by omega)]

theorem percentDecode_cons {b : UInt8} (r : Bytes) (h : b ≠ 37) : percentDecode (b :: r) = b :: percentDecode r := by
  rcases r with _ | ⟨x, _ | ⟨y, r⟩⟩
  · simp [percentDecode]
  · simp [percentDecode]
  · rw [percentDecode, if_neg h]

theorem percentDecode_append (a r : Bytes) (h : ∀ b ∈ a, b ≠ 37) : percentDecode (a ++ r) = a ++ percentDecode r := by
  induction a with
  | nil => rfl
  | cons x xs ih =>
    rw [List.cons_append, percentDecode_cons _ (h x (by simp)), ih (fun b hb => h b (by simp [hb]))]; rfl

theorem utf8_cons (c : Char) (t : Text) : utf8 (c :: t) = String.utf8EncodeChar c ++ utf8 t := rfl
theorem utf8_single (c : Char) : utf8 [c] = String.utf8EncodeChar c := by simp [utf8]
theorem replacePlus_append (a b : Bytes) : replacePlus (a ++ b) = replacePlus a ++ replacePlus b := List.map_append

theorem replacePlus_char (c : Char) (h1 : c ≠ '+') : replacePlus (String.utf8EncodeChar c) = String.utf8EncodeChar c := by
  unfold replacePlus
  rcases utf8_char c with ⟨h, he⟩ | ⟨h, hb⟩
  · rw [he]
    have : UInt8.ofNat c.toNat ≠ 43 := by
      intro e
      apply h1
      have e2 := congrArg UInt8.toNat e
      simp only [UInt8.toNat_ofNat'] at e2
      have e3 : c.toNat = 43 := by
        have : (43 : UInt8).toNat = 43 := rfl
        omega
      have := congrArg Char.ofNat e3
      rwa [Char.ofNat_toNat] at this
    simp [this]
  · refine (List.map_congr_left (g := id) ?_).trans (List.map_id _)
    intro x hx
    rw [if_neg]; · rfl
    rintro rfl
    exact absurd (hb _ hx) (by decide)

theorem char_not_percent (c : Char) (h2 : c ≠ '%') : ∀ b ∈ String.utf8EncodeChar c, b ≠ 37 := by
  rcases utf8_char c with ⟨h, he⟩ | ⟨h, hb⟩
  · rw [he]
    intro b hb e
    rw [List.mem_singleton] at hb
    subst hb
    apply h2
    have e2 := congrArg UInt8.toNat e
    simp only [UInt8.toNat_ofNat'] at e2
    have e3 : c.toNat = 37 := by
      have : (37 : UInt8).toNat = 37 := rfl
      omega
    have := congrArg Char.ofNat e3
    rwa [Char.ofNat_toNat] at this
  · rintro b hb' rfl
    exact absurd (hb _ hb') (by decide)

/-- Decoding bytes is decoding characters. -/
theorem formBytes_decode (t : Text) : percentDecode (replacePlus (utf8 t)) = formBytes t := by
  fun_induction formBytes t with
  | case1 => simp [utf8, replacePlus, percentDecode]
  | case2 r ih =>
    rw [utf8_cons, replacePlus_append, show replacePlus (String.utf8EncodeChar '+') = [32] from by decide,
      List.singleton_append, percentDecode_cons _ (by decide), ih]
  | case3 a b r' x y hy hx h ih =>
    obtain ⟨p, ps, hp, hp1, hp2⟩ := head_byte a
    obtain ⟨q, qs, hq, hq1, hq2⟩ := head_byte b
    rw [hp2 (by simp [hx])] at hp
    rw [hq2 (by simp [hy])] at hq
    rw [utf8_cons, utf8_cons, utf8_cons, replacePlus_append, replacePlus_append, replacePlus_append, hp, hq,
      show replacePlus (String.utf8EncodeChar '%') = [37] from by decide]
    simp only [List.singleton_append, List.cons_append, List.nil_append]
    rw [percentDecode, if_pos rfl, hp1, hq1, hx, hy]
    simp only [ih, Nat.mul_comm]
  | case4 a b r' hne h ih =>
    obtain ⟨p, ps, hp, hp1, hp2⟩ := head_byte a
    obtain ⟨q, qs, hq, hq1, hq2⟩ := head_byte b
    rw [utf8_cons, replacePlus_append, show replacePlus (String.utf8EncodeChar '%') = [37] from by decide,
      show utf8 ['%'] = [37] from by decide, List.singleton_append, List.singleton_append, ← ih]
    rw [utf8_cons, utf8_cons, replacePlus_append, replacePlus_append, hp, hq]
    cases ha : hexDigit a with
    | none =>
      rcases hr : ps ++ ((q :: qs) ++ replacePlus (utf8 r')) with _ | ⟨z, zs⟩
      · simp at hr
      · rw [List.cons_append, hr, percentDecode, if_pos rfl, hp1, ha]
    | some x =>
      rw [hp2 (by simp [ha])]
      simp only [List.cons_append, List.nil_append]
      rw [percentDecode, if_pos rfl, hp1, hq1, ha]
      cases hb : hexDigit b with
      | none => rfl
      | some y => exact absurd hb (hne x y ha)
  | case5 a h ih =>
    obtain ⟨p, ps, hp, hp1, hp2⟩ := head_byte a
    rw [utf8_cons, replacePlus_append, show replacePlus (String.utf8EncodeChar '%') = [37] from by decide,
      show utf8 ['%'] = [37] from by decide, List.singleton_append, List.singleton_append, ← ih]
    rw [utf8_cons, replacePlus_append, hp]
    rcases hr : ps ++ replacePlus (utf8 []) with _ | ⟨z, zs⟩
    · rw [List.cons_append, hr]
      simp [percentDecode]
    · rw [List.cons_append, hr, percentDecode, if_pos rfl, hp1]
      cases ha : hexDigit a with
      | none => rfl
      | some x => rw [hp2 (by simp [ha])] at hr; simp [utf8, replacePlus] at hr
  | case6 h =>
    rw [show replacePlus (utf8 ['%']) = [37] from by decide, show utf8 ['%'] = [37] from by decide]; simp [percentDecode]
  | case7 c r h1 h2 ih =>
    rw [utf8_cons, replacePlus_append, replacePlus_char c h1, percentDecode_append _ _ (char_not_percent c h2), ih, utf8_single]

/-- Splitting bytes at an ASCII separator is splitting characters. -/
theorem splitn2_utf8 (d : Char) (hd : d.toNat < 128) (t : Text) :
    splitn2 (UInt8.ofNat d.toNat) (utf8 t) = (utf8 (t.takeWhile (· ≠ d)), utf8 ((t.dropWhile (· ≠ d)).drop 1)) := by
  have key : ∀ c : Char, c ≠ d → ∀ b ∈ String.utf8EncodeChar c, b ≠ UInt8.ofNat d.toNat := by
    intro c hne
    rcases utf8_char c with ⟨h, he⟩ | ⟨h, hb⟩
    · rw [he]
      intro b hb e
      rw [List.mem_singleton] at hb
      subst hb
      apply hne
      have e2 := congrArg UInt8.toNat e
      simp only [UInt8.toNat_ofNat'] at e2
      have e3 : c.toNat = d.toNat := by omega
      have := congrArg Char.ofNat e3
      rwa [Char.ofNat_toNat, Char.ofNat_toNat] at this
    · rintro b hb' rfl
      have := hb _ hb'
      simp only [UInt8.toNat_ofNat'] at this
      omega
  have hself : String.utf8EncodeChar d = [UInt8.ofNat d.toNat] := by
    rcases utf8_char d with ⟨-, he⟩ | ⟨h, -⟩
    · exact he
    · omega
  unfold splitn2
  induction t with
  | nil => rfl
  | cons c t ih =>
    simp only [Prod.mk.injEq] at ih ⊢
    by_cases hc : c = d
    · subst hc
      rw [utf8_cons, hself, List.singleton_append, List.takeWhile_cons_of_neg (by simp), List.takeWhile_cons_of_neg (by simp),
        List.dropWhile_cons_of_neg (by simp), List.dropWhile_cons_of_neg (by simp)]
      exact ⟨rfl, rfl⟩
    · have hk := key c hc
      rw [utf8_cons, List.takeWhile_cons_of_pos (by simpa using hc), List.dropWhile_cons_of_pos (by simpa using hc),
        List.takeWhile_append_of_pos (by simpa using hk), List.dropWhile_append_of_pos (by simpa using hk), ih.1, ih.2]
      exact ⟨rfl, rfl⟩

theorem segments_split (c : Char) (t : Text) :
    segments (c :: t) = (c :: t).takeWhile (· ≠ '&') ::
      (if '&' ∈ c :: t then segments (((c :: t).dropWhile (· ≠ '&')).drop 1) else []) := by
  have : ∀ t : Text, segments t = t.takeWhile (· ≠ '&') ::
      (if '&' ∈ t then segments ((t.dropWhile (· ≠ '&')).drop 1) else []) := by
    intro t
    induction t with
    | nil => rfl
    | cons c r ih =>
      rw [segments]
      by_cases hc : c = '&'
      · subst hc
        rw [if_pos rfl, List.takeWhile_cons_of_neg (by simp), List.dropWhile_cons_of_neg (by simp), if_pos (by simp)]
        rfl
      · rw [if_neg hc, ih, List.takeWhile_cons_of_pos (by simpa using hc), List.dropWhile_cons_of_pos (by simpa using hc)]
        simp only [List.mem_cons, show ('&' = c) = False from eq_false (fun e => hc e.symm), false_or]
  exact this _

theorem formDecode_nil : formDecode [] = [] := rfl

theorem formDecode_cons (c : Char) (t : Text) :
    formDecode (c :: t) = (if (c :: t).takeWhile (· ≠ '&') = [] then [] else [formPair ((c :: t).takeWhile (· ≠ '&'))]) ++
      formDecode (((c :: t).dropWhile (· ≠ '&')).drop 1) := by
  unfold formDecode
  rw [segments_split c t]
  by_cases h : '&' ∈ c :: t
  · rw [if_pos h]
    by_cases h2 : (c :: t).takeWhile (· ≠ '&') = []
    · rw [if_pos h2, h2, List.filter_cons_of_neg (by simp)]; rfl
    · rw [if_neg h2, List.filter_cons_of_pos (by simpa using h2)]; rfl
  · have hd : (c :: t).dropWhile (· ≠ '&') = [] := by
      have e := List.takeWhile_append_dropWhile (p := (· ≠ '&')) (l := c :: t)
      have e2 : (c :: t).takeWhile (· ≠ '&') = c :: t := by
        rw [List.takeWhile_eq_self_iff]
        intro x hx
        simp only [decide_eq_true_eq]
        rintro rfl; exact h hx
      rw [e2] at e
      exact List.append_cancel_left (e.trans (List.append_nil _).symm)
    have h2 : (c :: t).takeWhile (· ≠ '&') = c :: t := by
      have := List.takeWhile_append_dropWhile (p := (· ≠ '&')) (l := c :: t)
      rw [hd, List.append_nil] at this
      exact this
    rw [if_neg h, hd, h2, if_neg (by simp)]
    rfl

theorem utf8_nil_iff (t : Text) : utf8 t = [] ↔ t = [] := by
  cases t with
  | nil => simp [utf8]
  | cons c t =>
    obtain ⟨x, xs, h, -⟩ := head_byte c
    simp only [utf8_cons, List.append_eq_nil_iff, reduceCtorEq, iff_false, not_and]
    intro e; rw [e] at h; cases h

/-- `form_urlencoded::parse` reads what the specification reads. -/
theorem formParse_spec (lossy : Bytes → Text) (t : Text) : formParse lossy (utf8 t) = textPairs lossy t := by
  unfold textPairs
  generalize hn : t.length = n
  induction n using Nat.strongRecOn generalizing t with
  | _ n ih =>
    cases t with
    | nil => rw [formParse, dif_pos (by rfl)]; rfl
    | cons c t =>
      have hlt : (((c :: t).dropWhile (· ≠ '&')).drop 1).length < n := by
        have h1 : ((c :: t).dropWhile (· ≠ '&')).length ≤ (c :: t).length := (List.dropWhile_sublist _).length_le
        rw [List.length_drop]
        simp only [List.length_cons] at h1 hn
        omega
      have hs := splitn2_utf8 '&' (by decide) (c :: t)
      rw [show UInt8.ofNat '&'.toNat = 38 from rfl] at hs
      rw [formParse, dif_neg (by rw [utf8_nil_iff]; simp), formDecode_cons]
      simp only [hs, utf8_nil_iff]
      rw [ih _ hlt _ rfl]
      split
      · simp
      · have he := splitn2_utf8 '=' (by decide) ((c :: t).takeWhile (· ≠ '&'))
        rw [show UInt8.ofNat '='.toNat = 61 from rfl] at he
        simp only [he, formBytes_decode, List.map_append, List.map_cons, List.map_nil, List.singleton_append]
        rfl

end Demag
