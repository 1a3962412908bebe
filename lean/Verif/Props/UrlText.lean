import Verif.Spec.UrlText
import Verif.Lemmas.UrlIpv6
import Verif.Props.TrackerUrl
import Verif.Props.Magnet
import Verif.Props.Json
import Verif.Props.HttpQuery
import Verif.Props.Utf8

/-!
# Properties: from texts to magnet links and trackers (C18, C48)
-/

namespace Demag.Props

open Spec

/-! ### The start of a URL -/

theorem dropWhile_head {α : Type} {p : α → Bool} {l : List α} (h : ∀ c, l.head? = some c → p c = false) : l.dropWhile p = l := by
  cases l with
  | nil => rfl
  | cons c l => rw [List.dropWhile_cons, if_neg (by simp [h c rfl])]

theorem urlInput_stripped {s t : Text} (h : Stripped s t) : urlInput s = t := by
  obtain ⟨a, m, b, rfl, hab, h1, h2, rfl⟩ := h
  have ha : ∀ c ∈ a, (decide (c.toNat ≤ 0x20)) = true := fun c hc => by simpa using hab c (by simp [hc])
  have hb : ∀ c ∈ b, (decide (c.toNat ≤ 0x20)) = true := fun c hc => by simpa using hab c (by simp [hc])
  have hm : ∀ c, m.head? = some c → decide (c.toNat ≤ 0x20) = false := fun c hc => by have := h1 c hc; simp; omega
  have hm' : ∀ c, m.reverse.head? = some c → decide (c.toNat ≤ 0x20) = false := fun c hc => by
    rw [List.head?_reverse] at hc; have := h2 c hc; simp; omega
  have hf : (fun c : Char => c != '\t' && c != '\n' && c != '\r') = fun c => decide ¬ (c = '\t' ∨ c = '\n' ∨ c = '\r') := by
    funext c; simp [bne, Bool.beq_eq_decide_eq, Bool.and_assoc]
  unfold urlInput
  rw [hf]
  congr 1
  rw [List.append_assoc, List.dropWhile_append_of_pos ha]
  match m with
  | [] =>
    rw [List.nil_append]
    have : b.dropWhile (fun c => decide (c.toNat ≤ 0x20)) = [] := by
      have := List.dropWhile_append_of_pos (l₂ := []) hb
      simpa using this
    rw [this]; rfl
  | c :: m =>
    have hcm : (c :: m ++ b).dropWhile (fun c => decide (c.toNat ≤ 0x20)) = c :: m ++ b :=
      dropWhile_head fun d hd => hm d hd
    rw [hcm, List.reverse_append,
      List.dropWhile_append_of_pos (fun c hc => hb c (by simpa using hc)), dropWhile_head hm', List.reverse_reverse]

theorem stripped_self {t : Text} (h : ∀ c ∈ t, Visible c) : Stripped t t := by
  refine ⟨[], t, [], by simp, by simp, ?_, ?_, ?_⟩
  · intro c hc; exact (h c (List.mem_of_mem_head? hc)).1
  · intro c hc; exact (h c (List.mem_of_getLast? hc)).1
  · symm
    rw [List.filter_eq_self]
    intro c hc
    have := (h c hc).1
    simp only [decide_eq_true_eq]
    rintro (rfl | rfl | rfl) <;> simp at this

/-- Schemes are read in either case. -/
theorem splitScheme_of {sch rest : Text} (h1 : ∀ c ∈ sch, schemeChar c = true) (h2 : ∃ c r, sch = c :: r ∧ c.isAlpha = true) :
    splitScheme (sch ++ ':' :: rest) = some (sch.map Char.toLower, rest) := by
  obtain ⟨c, r, rfl, hc⟩ := h2
  have hs : schemeChar ':' = false := by decide
  have e := takeWhile_stop (p := schemeChar) (t := c :: r) (r := ':' :: rest) h1 (by intro d hd; cases hd; exact hs)
  rw [List.cons_append] at e ⊢
  rw [splitScheme, if_pos hc, e.1, e.2]
  rfl

/-! ### Dots in paths -/

theorem formBytes_cons_ne (c : Char) (r : Text) : formBytes (c :: r) ≠ [] := by
  rw [formBytes.eq_def]
  simp only
  split
  · simp
  · split
    · split
      · split
        · simp
        · simp [utf8_single_ne]
      · simp [utf8_single_ne]
      · simp [utf8_single_ne]
    · simp [utf8_single_ne]

theorem formBytes_eq_nil {t : Text} : formBytes t = [] ↔ t = [] := by
  cases t with
  | nil => simp [formBytes]
  | cons c r => simp [formBytes_cons_ne]

theorem utf8_dot (c : Char) : utf8 [c] = [46] ↔ c = '.' := by
  constructor
  · intro h
    have : utf8 [c] = utf8 ['.'] := h.trans (by decide)
    have := utf8_inj this
    injection this
  · rintro rfl; decide

/-- The ways to write a dot. -/
theorem formBytes_dot {t : Text} {bs : Bytes} : formBytes t = 46 :: bs ↔
    ∃ u r, t = u ++ r ∧ (u = ['.'] ∨ u = ['%', '2', 'e'] ∨ u = ['%', '2', 'E']) ∧ formBytes r = bs := by
  constructor
  · intro h
    match t with
    | [] => simp [formBytes] at h
    | c :: r =>
      have plain : ∀ r', utf8 [c] ++ formBytes r' = 46 :: bs → c = '.' ∧ formBytes r' = bs := by
        intro r' e
        have e' : utf8 [c] ++ formBytes r' = utf8 ['.'] ++ bs := by rw [e]; rfl
        exact char_unique e'
      rw [formBytes.eq_def] at h
      simp only at h
      split at h
      · cases h
      · split at h
        · next hc =>
          subst hc
          split at h
          · next a b r' =>
            split at h
            · next x y hx hy =>
              injection h with h1 h2
              have hx16 := hexDigit_lt a
              have hy16 := hexDigit_lt b
              rw [hx] at hx16
              rw [hy] at hy16
              simp only [Option.getD_some] at hx16 hy16
              have h3 := congrArg UInt8.toNat h1
              rw [UInt8.toNat_ofNat'] at h3
              have h46 : (46 : UInt8).toNat = 46 := rfl
              have hx2 : x = 2 := by omega
              have hy14 : y = 14 := by omega
              subst hx2 hy14
              have ha : a = '2' := by
                have : ∀ c : Char, hexDigit c = some 2 → c = '2' := by
                  intro c hc
                  have hr := hexDigit_range (c := c) (by rw [hc]; rfl)
                  have hval := Char.ofNat_toNat c
                  unfold hexDigit at hc
                  split at hc
                  · injection hc with hc
                    rw [show c.toNat = 50 by omega] at hval
                    exact hval.symm
                  · split at hc
                    · injection hc with hc
                      next h1 _ => exact absurd hc (by have : 65 ≤ c.toNat := by rename_i q; exact q.1
                                                       omega)
                    · split at hc
                      · injection hc with hc
                        rename_i q
                        have : 97 ≤ c.toNat := q.1
                        omega
                      · cases hc
                exact this a hx
              have hb : b = 'e' ∨ b = 'E' := by
                have hval := Char.ofNat_toNat b
                have hc := hy
                unfold hexDigit at hc
                split at hc
                · injection hc with hc
                  rename_i q
                  have : b.toNat ≤ 57 := q.2
                  omega
                · split at hc
                  · injection hc with hc
                    rw [show b.toNat = 69 by omega] at hval
                    right; exact hval.symm
                  · split at hc
                    · injection hc with hc
                      rw [show b.toNat = 101 by omega] at hval
                      left; exact hval.symm
                    · cases hc
              subst ha
              rcases hb with rfl | rfl
              · exact ⟨['%', '2', 'e'], r', rfl, .inr (.inl rfl), h2⟩
              · exact ⟨['%', '2', 'E'], r', rfl, .inr (.inr rfl), h2⟩
            · exact absurd (plain _ h).1 (by decide)
          · exact absurd (plain _ h).1 (by decide)
          · exact absurd (plain [] (by simpa [formBytes] using h)).1 (by decide)
        · obtain ⟨rfl, h2⟩ := plain _ h
          exact ⟨['.'], r, rfl, .inl rfl, h2⟩
  · rintro ⟨u, r, rfl, hu, rfl⟩
    have d2 : hexDigit '2' = some 2 := by decide
    have de : hexDigit 'e' = some 14 := by decide
    have dE : hexDigit 'E' = some 14 := by decide
    rcases hu with rfl | rfl | rfl
    · rw [List.cons_append, List.nil_append, formBytes.eq_def]
      rfl
    · rw [List.cons_append, formBytes.eq_def]
      simp only [List.cons_append, List.nil_append, d2, de]
      rfl
    · rw [List.cons_append, formBytes.eq_def]
      simp only [List.cons_append, List.nil_append, d2, dE]
      rfl

theorem toLower_toNat (c : Char) : c.toLower.toNat = if 65 ≤ c.toNat ∧ c.toNat ≤ 90 then c.toNat + 32 else c.toNat := by
  unfold Char.toLower
  split
  · next h =>
    have h1 : 65 ≤ c.toNat := by simpa using UInt32.le_iff_toNat_le.1 h.1
    have h2 : c.toNat ≤ 90 := by simpa using UInt32.le_iff_toNat_le.1 h.2
    rw [if_pos ⟨h1, h2⟩]
    show (c.val + 32).toNat = c.val.toNat + 32
    rw [UInt32.toNat_add]
    have : c.val.toNat ≤ 90 := h2
    simp; omega
  · next h =>
    rw [if_neg]
    rintro ⟨h1, h2⟩
    apply h
    refine ⟨UInt32.le_iff_toNat_le.2 ?_, UInt32.le_iff_toNat_le.2 ?_⟩
    · exact h1
    · exact h2
theorem toLower_eq {c d : Char} (h : c.toLower = d) : c = d ∨ (c.toNat + 32 = d.toNat ∧ 65 ≤ c.toNat ∧ c.toNat ≤ 90) := by
  have := toLower_toNat c
  rw [h] at this
  split at this
  · right; omega
  · left
    rw [← Char.ofNat_toNat c, ← this, Char.ofNat_toNat]

/-- A dot, or a dot escaped. -/
def DotUnit (u : Text) : Prop := u = ['.'] ∨ u = ['%', '2', 'e'] ∨ u = ['%', '2', 'E']

theorem lower_unit {u : Text} : (u.map Char.toLower = ['.'] ∨ u.map Char.toLower = ['%', '2', 'e']) ↔ DotUnit u := by
  have nolow : ∀ c d : Char, d.toNat < 97 → c.toLower = d → c = d := by
    intro c d hd h
    rcases toLower_eq h with h | h
    · exact h
    · omega
  have e1 : ('.' : Char).toNat = 46 := rfl
  have e2 : ('%' : Char).toNat = 37 := rfl
  have e3 : ('2' : Char).toNat = 50 := rfl
  have e4 : ('e' : Char).toNat = 101 := rfl
  constructor
  · rintro (h | h)
    · rw [List.map_eq_cons_iff] at h
      obtain ⟨a, r, rfl, h1, h2⟩ := h
      rw [List.map_eq_nil_iff] at h2
      subst h2
      left; rw [nolow a '.' (by omega) h1]
    · simp only [List.map_eq_cons_iff, List.map_eq_nil_iff] at h
      obtain ⟨a, r, rfl, h1, b, r', rfl, h2, c, r'', rfl, h3, rfl⟩ := h
      · 
        right
        rw [nolow a '%' (by omega) h1, nolow b '2' (by omega) h2]
        rcases toLower_eq h3 with h | h
        · left; rw [h]
        · right
          have := Char.ofNat_toNat c
          rw [show c.toNat = 69 by omega] at this
          rw [← this]
  · rintro (rfl | rfl | rfl)
    · left; decide
    · right; decide
    · right; decide

theorem formBytes_unit {t : Text} {bs : Bytes} : formBytes t = 46 :: bs ↔ ∃ u r, t = u ++ r ∧ DotUnit u ∧ formBytes r = bs := formBytes_dot

theorem singleDot_iff (s : Text) : singleDot s = true ↔ formBytes s = utf8 ['.'] := by
  have e : utf8 ['.'] = [46] := by decide
  rw [e, formBytes_unit]
  have h1 : singleDot s = true ↔ DotUnit s := by
    rw [← lower_unit]
    simp [singleDot]
  rw [h1]
  constructor
  · intro h; exact ⟨s, [], by simp, h, by simp [formBytes]⟩
  · rintro ⟨u, r, rfl, hu, hr⟩
    rw [formBytes_eq_nil] at hr
    subst hr
    rwa [List.append_nil]

theorem doubleDot_iff (s : Text) : doubleDot s = true ↔ formBytes s = utf8 ['.', '.'] := by
  have e : utf8 ['.', '.'] = [46, 46] := by decide
  rw [e, formBytes_unit]
  have h1 : doubleDot s = true ↔ ∃ u v, s = u ++ v ∧ DotUnit u ∧ DotUnit v := by
    simp only [← lower_unit]
    constructor
    · intro h
      have : s.map Char.toLower = ['.'] ++ ['.'] ∨ s.map Char.toLower = ['.'] ++ ['%', '2', 'e'] ∨
          s.map Char.toLower = ['%', '2', 'e'] ++ ['.'] ∨ s.map Char.toLower = ['%', '2', 'e'] ++ ['%', '2', 'e'] := by
        simpa [doubleDot] using h
      rcases this with h | h | h | h
      all_goals
        obtain ⟨u, v, rfl, h1, h2⟩ := List.map_eq_append_iff.1 h
        exact ⟨u, v, rfl, by simp [h1], by simp [h2]⟩
    · rintro ⟨u, v, rfl, h1 | h1, h2 | h2⟩ <;> simp [doubleDot, h1, h2]
  rw [h1]
  constructor
  · rintro ⟨u, v, rfl, hu, hv⟩
    refine ⟨u, v, rfl, hu, formBytes_unit.2 ⟨v, [], by simp, hv, by simp [formBytes]⟩⟩
  · rintro ⟨u, r, rfl, hu, hr⟩
    obtain ⟨v, r', rfl, hv, hr'⟩ := formBytes_unit.1 hr
    rw [formBytes_eq_nil] at hr'
    subst hr'
    exact ⟨u, v, by simp, hu, hv⟩

/-! ### Paths -/

/-- The path segments made from a path are in normal form. -/
theorem plainSegment_encode {caret : Bool} {s : Text} (hs : '/' ∉ s) (h1 : singleDot s = false) (h2 : doubleDot s = false) :
    PlainSegment caret (percentEncode (pathSet caret) s) := by
  refine ⟨?_, ?_, ?_⟩
  · intro c hc
    have hset := percentEncode_avoids (pathSet_ok caret) s c hc
    have hslash : c ≠ '/' := by
      rintro rfl
      rcases mem_percentEncode hc with h | h | h
      · exact hs h.2
      · cases h
      · cases h
    simp only [pathSet, querySet, Bool.or_eq_false_iff, beq_eq_false_iff_ne, controlSet_false, Bool.and_eq_false_iff] at hset
    obtain ⟨⟨⟨⟨⟨⟨⟨⟨⟨⟨hr, h3⟩, h4⟩, h5⟩, h6⟩, h7⟩, h8⟩, h9⟩, h10⟩, h11⟩, h12⟩ := hset
    refine ⟨⟨?_, by omega⟩, ?_, ?_⟩
    · have : c.toNat ≠ 32 := fun e => h3 (by have := Char.ofNat_toNat c; rw [e] at this; exact this.symm)
      omega
    · simp only [show "/\"#<>?`{}".toList = ['/', '"', '#', '<', '>', '?', '`', '{', '}'] from rfl, List.mem_cons, List.not_mem_nil,
        or_false, not_or]
      exact ⟨hslash, h4, h5, h6, h7, h8, h9, h10, h11⟩
    · rintro rfl rfl
      rcases h12 with h | h <;> simp at h
  · rw [formBytes_encode (pathSet_ok caret)]
    intro e
    rw [← singleDot_iff, h1] at e
    cases e
  · rw [formBytes_encode (pathSet_ok caret)]
    intro e
    rw [← doubleDot_iff, h2] at e
    cases e

theorem splitSlash_ne (t : Text) : splitSlash t ≠ [] := by
  induction t with
  | nil => simp [splitSlash]
  | cons c t ih =>
    rw [splitSlash]
    split
    · simp
    · split <;> simp

theorem splitSlash_mem (t : Text) : ∀ s ∈ splitSlash t, '/' ∉ s := by
  induction t with
  | nil => simp [splitSlash]
  | cons c t ih =>
    rw [splitSlash]
    split
    · intro s hs
      rcases List.mem_cons.1 hs with rfl | hs
      · simp
      · exact ih s hs
    · next hc =>
      split
      · next s ss e =>
        rw [e] at ih
        intro s' hs'
        rcases List.mem_cons.1 hs' with rfl | hs'
        · simp only [List.mem_cons, not_or]
          exact ⟨fun h => hc h.symm, ih s (by simp)⟩
        · exact ih s' (by simp [hs'])
      · intro s' hs'
        simp only [List.mem_cons, List.not_mem_nil, or_false] at hs'
        subst hs'
        simpa using fun h => hc h.symm

theorem plainSegment_nil (caret : Bool) : PlainSegment caret [] := by
  refine ⟨by simp, ?_, ?_⟩ <;> simp [formBytes] <;> decide

theorem pathSegments_plain {caret : Bool} (ss : List Text) : ∀ path : List Text, (∀ s ∈ path, PlainSegment caret s) →
    (∀ s ∈ ss, '/' ∉ s) → (∀ s ∈ pathSegments caret path ss, PlainSegment caret s) ∧ (ss ≠ [] → pathSegments caret path ss ≠ []) := by
  induction ss with
  | nil => intro path h _; exact ⟨h, fun h => absurd rfl h⟩
  | cons s ss ih =>
    intro path hp hs
    rw [pathSegments]
    have hdrop : ∀ x ∈ path.dropLast, PlainSegment caret x := fun x hx => hp x ((List.dropLast_sublist path).mem hx)
    generalize hnew : (if doubleDot s = true then if ss.isEmpty = true then path.dropLast ++ [[]] else path.dropLast
      else if singleDot s = true then if ss.isEmpty = true then path ++ [[]] else path
      else path ++ [percentEncode (pathSet caret) s]) = new
    have hn : (∀ x ∈ new, PlainSegment caret x) ∧ (ss = [] → new ≠ []) := by
      rw [← hnew]
      constructor
      · intro x hx
        split at hx
        · split at hx
          · rcases List.mem_append.1 hx with hx | hx
            · exact hdrop x hx
            · simp only [List.mem_cons, List.not_mem_nil, or_false] at hx; subst hx; exact plainSegment_nil caret
          · exact hdrop x hx
        · next h2 =>
          split at hx
          · split at hx
            · rcases List.mem_append.1 hx with hx | hx
              · exact hp x hx
              · simp only [List.mem_cons, List.not_mem_nil, or_false] at hx; subst hx; exact plainSegment_nil caret
            · exact hp x hx
          · next h1 =>
            rcases List.mem_append.1 hx with hx | hx
            · exact hp x hx
            · simp only [List.mem_cons, List.not_mem_nil, or_false] at hx
              subst hx
              exact plainSegment_encode (hs s (by simp)) (by simpa using h1) (by simpa using h2)
      · rintro rfl
        simp only [List.isEmpty_nil, if_true]
        repeat' split
        all_goals simp
    obtain ⟨h1, h2⟩ := ih new hn.1 (fun x hx => hs x (by simp [hx]))
    refine ⟨h1, fun _ => ?_⟩
    by_cases he : ss = []
    · subst he; exact hn.2 rfl
    · exact h2 he

theorem pathSegments_id {caret : Bool} (ss : List Text) : ∀ path : List Text, (∀ s ∈ ss, PlainSegment caret s) →
    pathSegments caret path ss = path ++ ss := by
  induction ss with
  | nil => intro path _; simp [pathSegments]
  | cons s ss ih =>
    intro path h
    have hp := h s (by simp)
    have h2 : doubleDot s = false := by
      cases e : doubleDot s with
      | false => rfl
      | true => exact absurd ((doubleDot_iff s).1 e) hp.2.2
    have h1 : singleDot s = false := by
      cases e : singleDot s with
      | false => rfl
      | true => exact absurd ((singleDot_iff s).1 e) hp.2.1
    have he : percentEncode (pathSet caret) s = s := by
      apply percentEncode_id
      intro c hc
      obtain ⟨⟨v1, v2⟩, v3, v4⟩ := hp.1 c hc
      simp only [show "/\"#<>?`{}".toList = ['/', '"', '#', '<', '>', '?', '`', '{', '}'] from rfl, List.mem_cons, List.not_mem_nil,
        or_false, not_or] at v3
      have hsp : c ≠ ' ' := by rintro rfl; simp at v1
      simp only [pathSet, querySet, Bool.or_eq_false_iff, beq_eq_false_iff_ne, controlSet_false, Bool.and_eq_false_iff]
      refine ⟨⟨⟨⟨⟨⟨⟨⟨⟨⟨⟨by omega, by omega⟩, hsp⟩, v3.2.1⟩, v3.2.2.1⟩, v3.2.2.2.1⟩, v3.2.2.2.2.1⟩, v3.2.2.2.2.2.1⟩, v3.2.2.2.2.2.2.1⟩,
        v3.2.2.2.2.2.2.2.1⟩, v3.2.2.2.2.2.2.2.2⟩, ?_⟩
      cases caret with
      | false => left; rfl
      | true => right; exact v4 rfl
    rw [pathSegments, h2, h1]
    simp only [Bool.false_eq_true, if_false]
    rw [he, ih _ (fun x hx => h x (by simp [hx]))]
    simp

theorem splitSlash_join (s : Text) (ss : List Text) (h : ∀ x ∈ s :: ss, '/' ∉ x) :
    splitSlash (s ++ ss.flatMap fun x => '/' :: x) = s :: ss := by
  have add : ∀ (u : Text), '/' ∉ u → ∀ r y ys, splitSlash r = y :: ys → splitSlash (u ++ r) = (u ++ y) :: ys := by
    intro u hu r y ys e
    induction u with
    | nil => exact e
    | cons c u ih =>
      have := ih (fun h => hu (by simp [h]))
      rw [List.cons_append, splitSlash, if_neg (by intro e; exact hu (by simp [e])), this]
      rfl
  induction ss generalizing s with
  | nil =>
    have := add s (h s (by simp)) [] [] [] rfl
    simpa using this
  | cons x xs ih =>
    have := ih x (fun y hy => h y (by simp [List.mem_cons.1 hy]))
    rw [List.flatMap_cons]
    have e : splitSlash ('/' :: (x ++ xs.flatMap fun x => '/' :: x)) = [] :: x :: xs := by
      rw [splitSlash, if_pos rfl, this]
    have := add s (h s (by simp)) _ _ _ e
    simpa using this

theorem slashPath_plain (caret : Bool) (t : Text) : PlainPath caret (slashPath caret t) ∧ ∃ r, slashPath caret t = '/' :: r := by
  obtain ⟨h1, h2⟩ := pathSegments_plain (caret := caret) (splitSlash t) [] (by simp) (splitSlash_mem t)
  refine ⟨⟨_, rfl, h1⟩, ?_⟩
  unfold slashPath
  match hp : pathSegments caret [] (splitSlash t), h2 (splitSlash_ne t) with
  | s :: ss, _ => exact ⟨_, by rw [List.flatMap_cons]; rfl⟩

theorem slashPath_id {caret : Bool} {p : Text} (h : PlainPath caret ('/' :: p)) : slashPath caret p = '/' :: p := by
  obtain ⟨segs, hs, hp⟩ := h
  match segs, hs with
  | s :: ss, hs =>
    rw [List.flatMap_cons] at hs
    rw [List.cons_append, List.cons.injEq] at hs
    replace hs := hs.2
    have hslash : ∀ x ∈ s :: ss, '/' ∉ x := by
      intro x hx hm
      have := ((hp x hx).1 '/' hm).2.1
      exact this (by decide)
    unfold slashPath
    rw [hs, splitSlash_join s ss hslash, pathSegments_id _ _ hp, List.nil_append, List.flatMap_cons]
    rfl

/-! ### Hosts and ports -/

theorem ipChar_facts {c : Char} (h : IpChar c) : Visible c ∧ c ∉ "#/<>?@[\\]^|".toList := by
  have : ∀ n : Fin 128, ((Char.ofNat n.val).isDigit = true ∨ ('a' ≤ Char.ofNat n.val ∧ Char.ofNat n.val ≤ 'f') ∨
      Char.ofNat n.val = '.' ∨ Char.ofNat n.val = ':') →
      (0x20 < (Char.ofNat n.val).toNat ∧ (Char.ofNat n.val).toNat < 0x7F) ∧ Char.ofNat n.val ∉ "#/<>?@[\\]^|".toList := by decide +kernel
  have hlt : c.toNat < 128 := by
    rcases h with h | ⟨-, h⟩ | rfl | rfl
    · simp only [Char.isDigit, Bool.and_eq_true, decide_eq_true_eq] at h
      have : c.toNat ≤ 57 := h.2
      omega
    · have : c.toNat ≤ 102 := h
      omega
    · decide
    · decide
  have := this ⟨c.toNat, hlt⟩
  simp only [Char.ofNat_toNat] at this
  exact this h

theorem ipv6_colon (ip : Ipv6) : ':' ∈ ipv6Text ip := by
  obtain ⟨segs, h, -⟩ := ipv6Text_is ip
  rcases h with ⟨hg, h8⟩ | ⟨front, back, ns, ms, e, -⟩
  · generalize ipv6Text ip = t at hg
    cases hg with
    | one h => simp at h8
    | dotted h => simp at h8
    | more h _ => simp
  · rw [e]; simp

theorem digit_facts {c : Char} (h : c.isDigit = true) : Visible c ∧ c ∉ "#/:<>?@[\\]^|".toList := by
  have h1 := ipChar_facts (.inl h)
  refine ⟨h1.1, ?_⟩
  have hc : c ≠ ':' := by rintro rfl; exact absurd h (by decide)
  have h2 := h1.2
  simp only [show "#/<>?@[\\]^|".toList = ['#', '/', '<', '>', '?', '@', '[', '\\', ']', '^', '|'] from rfl,
    show "#/:<>?@[\\]^|".toList = ['#', '/', ':', '<', '>', '?', '@', '[', '\\', ']', '^', '|'] from rfl,
    List.mem_cons, List.not_mem_nil, or_false, not_or] at h2 ⊢
  exact ⟨h2.1, h2.2.1, hc, h2.2.2⟩

theorem urlPort_decimal (p : BitVec 16) : urlPort (decimal p.toNat) = some (some p) := by
  obtain ⟨h0, h1, h2, -⟩ := decimal_isDecimal p.toNat
  have hf : (decimal p.toNat).foldl (fun r c => r * 10 + (c.toNat - 48)) 0 = p.toNat := by
    rw [foldl_digits 10 (fun c => c.toNat - 48)]
    exact h2
  unfold urlPort
  rw [if_neg h0, if_pos (List.all_eq_true.2 h1)]
  simp only [hf]
  rw [if_pos p.isLt]
  simp

/-- The host as it stands in the text. -/
def hostPart (h : Text) : Text := if h.contains ':' then ['['] ++ h ++ [']'] else h

theorem hostPart_name {h : Text} (hn : PlainName h) : hostPart h = h := by
  unfold hostPart
  rw [if_neg]
  intro hc
  have := (hn.2 ':' (by simpa using hc)).2
  exact this (by decide)

theorem hostPart_ipv6 (ip : Ipv6) : hostPart (ipv6Text ip) = '[' :: (ipv6Text ip ++ [']']) := by
  unfold hostPart
  rw [if_pos (by simpa using ipv6_colon ip)]
  rfl

theorem opaqueHost_name {h : Text} (hn : PlainName h) : opaqueHost h = some (some (.domain h)) := by
  match h, hn.1 with
  | c :: r, _ =>
    have hc : c ≠ '[' := by
      rintro rfl
      exact (hn.2 '[' (by simp)).2 (by decide)
    have hforb : ((c :: r).any fun c => forbiddenHost.contains c) = false := by
      rw [List.any_eq_false]
      intro d hd
      obtain ⟨⟨v1, v2⟩, v3⟩ := hn.2 d hd
      simp only [show "#/:<>?@[\\]^|".toList = ['#', '/', ':', '<', '>', '?', '@', '[', '\\', ']', '^', '|'] from rfl,
        List.mem_cons, List.not_mem_nil, or_false, not_or] at v3
      simp only [forbiddenHost, List.contains_iff_mem, List.mem_cons, List.not_mem_nil, or_false, not_or]
      refine ⟨?_, ?_, ?_, ?_, ?_, v3⟩ <;> (rintro rfl; revert v1; decide)
    rw [opaqueHost, if_neg hc, if_neg (by rw [hforb]; simp), percentEncode_id]
    intro d hd
    obtain ⟨⟨v1, v2⟩, -⟩ := hn.2 d hd
    rw [controlSet_false]
    omega

theorem opaqueHost_ipv6 (ip : Ipv6) : opaqueHost ('[' :: (ipv6Text ip ++ [']'])) = some (some (.ipv6 (ipv6Text ip))) := by
  rw [opaqueHost, if_pos rfl, if_pos (by simp), List.dropLast_concat, (urlIpv6_iff _ _).2 (ipv6Text_is ip)]
  rfl

theorem percentEncode_name {t : Text} (h0 : t ≠ []) (h : ∀ c ∈ t, c ∉ forbiddenHost) : PlainName (percentEncode controlSet t) := by
  refine ⟨by rw [Ne, percentEncode_eq_nil]; exact h0, ?_⟩
  have hexok : ∀ n : Fin 128, (hexDigit (Char.ofNat n.val)).isSome = true →
      (0x20 < (Char.ofNat n.val).toNat ∧ (Char.ofNat n.val).toNat < 0x7F) ∧ Char.ofNat n.val ∉ "#/:<>?@[\\]^|".toList := by decide +kernel
  intro c hc
  rcases mem_percentEncode hc with ⟨h1, h2⟩ | rfl | h1
  · rw [controlSet_false] at h1
    have h3 := h c h2
    simp only [forbiddenHost, List.mem_cons, List.not_mem_nil, or_false, not_or] at h3
    simp only [show "#/:<>?@[\\]^|".toList = ['#', '/', ':', '<', '>', '?', '@', '[', '\\', ']', '^', '|'] from rfl,
        List.mem_cons, List.not_mem_nil, or_false, not_or]
    refine ⟨⟨?_, by omega⟩, h3.2.2.2.2.2⟩
    have : c.toNat ≠ 32 := fun e => h3.2.2.2.2.1 (by have := Char.ofNat_toNat c; rw [e] at this; exact this.symm)
    omega
  · exact ⟨⟨by decide, by decide⟩, by decide⟩
  · have hr := hexDigit_range h1
    have := hexok ⟨c.toNat, by omega⟩
    simp only [Char.ofNat_toNat] at this
    exact this h1

/-- A host that is read is a name in normal form or a printed IPv6 address. -/
theorem opaqueHost_some {s : Text} {h : UrlHost} (e : opaqueHost s = some (some h)) :
    (∃ n, h = .domain n ∧ PlainName n) ∨ ∃ ip, h = .ipv6 (ipv6Text ip) := by
  match s with
  | [] => cases e
  | c :: r =>
    rw [opaqueHost] at e
    split at e
    · split at e
      · rw [Option.map_eq_some_iff] at e
        obtain ⟨ip, -, e⟩ := e
        cases e
        exact .inr ⟨ip, rfl⟩
      · cases e
    · split at e
      · cases e
      · next hf =>
        cases e
        refine .inl ⟨_, rfl, percentEncode_name (by simp) ?_⟩
        intro d hd hm
        apply hf
        rw [List.any_eq_true]
        exact ⟨d, hd, by simpa using hm⟩

theorem splitHostPort_plain {h : Text} (hn : ∀ c ∈ h, c ≠ '[' ∧ c ≠ ']' ∧ c ≠ ':') (r : Text) :
    splitHostPort false (h ++ ':' :: r) = (h, some r) := by
  induction h with
  | nil => simp [splitHostPort]
  | cons c h ih =>
    obtain ⟨h1, h2, h3⟩ := hn c (by simp)
    rw [List.cons_append, splitHostPort, if_neg (by simp [h3]), if_neg h1, if_neg h2]
    simp only
    rw [ih (fun d hd => hn d (by simp [hd]))]

theorem splitHostPort_inside {h : Text} (hn : ∀ c ∈ h, c ≠ '[' ∧ c ≠ ']') (r : Text) :
    splitHostPort true (h ++ ']' :: ':' :: r) = (h ++ [']'], some r) := by
  induction h with
  | nil => simp [splitHostPort]
  | cons c h ih =>
    obtain ⟨h1, h2⟩ := hn c (by simp)
    rw [List.cons_append, splitHostPort, if_neg (by simp), if_neg h1, if_neg h2]
    simp only
    rw [ih (fun d hd => hn d (by simp [hd]))]
    rfl

/-- The host of a UDP tracker and what it is in a URL. -/
def hostOf (h : Text) : UrlHost := if h.contains ':' then .ipv6 h else .domain h

theorem hostText_hostOf (h : Text) : hostText (hostOf h) = h := by
  unfold hostOf
  split <;> rfl

theorem urlAuthority_plain {h : Text} (hh : PlainName h ∨ ∃ ip, h = ipv6Text ip) (p : BitVec 16) :
    urlAuthority (hostPart h ++ ':' :: decimal p.toNat) = some (some (hostOf h), some p) := by
  have hdig : ∀ c ∈ decimal p.toNat, Visible c ∧ c ∉ "#/:<>?@[\\]^|".toList := fun c hc => digit_facts ((decimal_isDecimal _).2.1 c hc)
  have hat : '@' ∉ hostPart h ++ ':' :: decimal p.toNat := by
    intro hm
    rcases List.mem_append.1 hm with hm | hm
    · rcases hh with hn | ⟨ip, rfl⟩
      · rw [hostPart_name hn] at hm
        exact (hn.2 _ hm).2 (by decide)
      · rw [hostPart_ipv6] at hm
        simp only [List.mem_cons, List.mem_append, List.not_mem_nil, or_false] at hm
        rcases hm with hm | hm | hm
        · cases hm
        · exact (ipChar_facts (ipText_chars (.v6 ip) _ hm)).2 (by decide)
        · cases hm
    · rcases List.mem_cons.1 hm with hm | hm
      · cases hm
      · exact (hdig _ hm).2 (by decide)
  have hnone : afterLastAt (hostPart h ++ ':' :: decimal p.toNat) = none := by
    unfold afterLastAt
    rw [if_neg (by simpa using hat)]
  unfold urlAuthority
  simp only [hnone, Option.getD_none, Option.isSome_none, Bool.false_and, Bool.false_eq_true, if_false]
  rcases hh with hn | ⟨ip, rfl⟩
  · have hc : h.contains ':' = false := by
      cases e : h.contains ':' with
      | false => rfl
      | true => exact absurd (hn.2 ':' (by simpa using e)).2 (by decide)
    rw [hostPart_name hn, splitHostPort_plain]
    · simp only [List.isEmpty_iff, hn.1, if_false, opaqueHost_name hn, Option.bind_some, urlPort_decimal, Option.map_some, hostOf, hc,
        Bool.false_eq_true]
    · intro c hcm
      have := (hn.2 c hcm).2
      refine ⟨?_, ?_, ?_⟩ <;> (rintro rfl; exact this (by decide))
  · have hc : (ipv6Text ip).contains ':' = true := by simpa using ipv6_colon ip
    have hs : splitHostPort false (hostPart (ipv6Text ip) ++ ':' :: decimal p.toNat) =
        ('[' :: (ipv6Text ip ++ [']']), some (decimal p.toNat)) := by
      rw [hostPart_ipv6, List.cons_append, splitHostPort, if_neg (by simp), if_pos rfl, List.append_assoc]
      simp only
      rw [List.cons_append, List.nil_append, splitHostPort_inside]
      intro c hcm
      have := (ipChar_facts (ipText_chars (.v6 ip) _ hcm)).2
      refine ⟨?_, ?_⟩ <;> (rintro rfl; exact this (by decide))
    rw [hs]
    simp only [List.isEmpty_cons, Bool.false_eq_true, if_false, opaqueHost_ipv6, Option.bind_some, urlPort_decimal, Option.map_some,
      hostOf, hc, if_true]

/-! ### Trackers -/

theorem plainQuery_encode (t : Text) : PlainQuery (percentEncode querySet t) := by
  intro c hc
  have hset := percentEncode_avoids querySet_ok t c hc
  simp only [querySet, Bool.or_eq_false_iff, beq_eq_false_iff_ne, controlSet_false] at hset
  obtain ⟨⟨⟨⟨⟨hr, h3⟩, h4⟩, h5⟩, h6⟩, h7⟩ := hset
  refine ⟨⟨?_, by omega⟩, ?_⟩
  · have : c.toNat ≠ 32 := fun e => h3 (by have := Char.ofNat_toNat c; rw [e] at this; exact this.symm)
    omega
  · simp [h4, h5, h6, h7]

theorem plainQuery_id {q : Text} (h : PlainQuery q) : percentEncode querySet q = q := by
  apply percentEncode_id
  intro c hc
  obtain ⟨⟨h1, h2⟩, h3⟩ := h c hc
  simp only [show "\"#<>".toList = ['"', '#', '<', '>'] from rfl, List.mem_cons, List.not_mem_nil, or_false, not_or] at h3
  simp only [querySet, Bool.or_eq_false_iff, beq_eq_false_iff_ne, controlSet_false]
  refine ⟨⟨⟨⟨⟨by omega, ?_⟩, h3.1⟩, h3.2.1⟩, h3.2.2.1⟩, h3.2.2.2⟩
  rintro rfl
  revert h1
  decide

theorem plainPath_nil (caret : Bool) : PlainPath caret [] := ⟨[], rfl, by simp⟩

theorem plainPath_cases {caret : Bool} {p : Text} (h : PlainPath caret p) :
    (p = [] ∨ ∃ r, p = '/' :: r) ∧ ∀ c ∈ p, Visible c ∧ c ≠ '?' ∧ c ≠ '#' := by
  obtain ⟨segs, rfl, hs⟩ := h
  refine ⟨?_, ?_⟩
  · cases segs with
    | nil => exact .inl rfl
    | cons s ss => exact .inr ⟨_, by rw [List.flatMap_cons]; rfl⟩
  · intro c hc
    obtain ⟨s, hm, hc⟩ := List.mem_flatMap.1 hc
    rcases List.mem_cons.1 hc with rfl | hc
    · exact ⟨⟨by decide, by decide⟩, by decide, by decide⟩
    · obtain ⟨h1, h2, -⟩ := (hs s hm).1 c hc
      refine ⟨h1, ?_, ?_⟩ <;> (rintro rfl; exact h2 (by decide))

theorem urlAuthority_host {t : Text} {h : UrlHost} {p : Option (BitVec 16)} (e : urlAuthority t = some (some h, p)) :
    (∃ n, h = .domain n ∧ PlainName n) ∨ ∃ ip, h = .ipv6 (ipv6Text ip) := by
  unfold urlAuthority at e
  simp only at e
  split at e
  · cases e
  · split at e
    · rw [Option.map_eq_some_iff] at e
      obtain ⟨x, hx, e⟩ := e
      cases e
      exact opaqueHost_some hx
    · split at e
      · cases e
      · rw [Option.bind_eq_some_iff] at e
        obtain ⟨x, hx, e⟩ := e
        rw [Option.map_eq_some_iff] at e
        obtain ⟨y, -, e⟩ := e
        cases e
        exact opaqueHost_some hx

theorem queryAndFragment_plain {t : Text} : ∀ q, (queryAndFragment t).1 = some q → PlainQuery q := by
  intro q e
  unfold queryAndFragment at e
  split at e
  · cases e
  · split at e
    · cases e; exact plainQuery_encode _
    · cases e

/-- What is read of a URL that has a host is in normal form. -/
theorem urlRest_plain {caret : Bool} {sch rest : Text} {u : Url} (e : urlRest caret sch rest = some u) :
    u.scheme = sch ∧ ∀ h, u.host = some h →
      ((∃ n, h = .domain n ∧ PlainName n) ∨ ∃ ip, h = .ipv6 (ipv6Text ip)) ∧ PlainPath caret u.path ∧ ∀ q, u.query = some q → PlainQuery q := by
  unfold urlRest at e
  split at e
  · simp only [Option.map_eq_some_iff] at e
    obtain ⟨⟨host, port⟩, ha, e⟩ := e
    cases e
    refine ⟨rfl, ?_⟩
    rintro h rfl
    refine ⟨urlAuthority_host ha, ?_, queryAndFragment_plain⟩
    simp only
    unfold pathStart
    split
    · exact plainPath_nil _
    · exact (slashPath_plain _ _).1
  · cases e
    exact ⟨rfl, fun h e => by cases e⟩
  · cases e
    exact ⟨rfl, fun h e => by cases e⟩

theorem specialRest_scheme {env : UrlEnv} {sch rest : Text} {u : Url} (e : specialRest env sch rest = some u) : u.scheme = sch := by
  unfold specialRest at e
  split at e
  · rw [Option.map_eq_some_iff] at e
    obtain ⟨v, -, rfl⟩ := e
    rfl
  · unfold urlSpecial at e
    rw [Option.map_eq_some_iff] at e
    obtain ⟨v, -, rfl⟩ := e
    rfl

theorem urlParse_other {env : UrlEnv} {s : Text} {u : Url} (e : urlParse env s = some u) (hs : u.scheme ∉ specialSchemes) :
    ∃ rest, urlRest env.caret u.scheme rest = some u := by
  unfold urlParse at e
  rw [Option.bind_eq_some_iff] at e
  obtain ⟨⟨sch, rest⟩, -, e⟩ := e
  simp only at e
  split at e
  · next hc =>
    rw [← specialRest_scheme e] at hc
    exact absurd (by simpa using hc) hs
  · refine ⟨rest, ?_⟩
    rw [(urlRest_plain e).1]
    exact e

theorem udp_not_special : "udp".toList ∉ specialSchemes := by decide

/-- **C48.** Every UDP URL that `Url::parse` produces meets what the theorems on printing suppose of it. -/
theorem udpUrl_ok {env : UrlEnv} {s : Text} {u : Url} (e : urlParse env s = some u) (hs : u.scheme = "udp".toList)
    (hh : u.host ≠ none) : UrlOk u := by
  obtain ⟨rest, hr⟩ := urlParse_other e (hs ▸ udp_not_special)
  obtain ⟨-, hp⟩ := urlRest_plain hr
  refine ⟨?_, ?_, ?_, ?_⟩
  · intro h eh c hc
    rcases (hp h eh).1 with ⟨n, rfl, hn⟩ | ⟨ip, rfl⟩
    · have := (hn.2 c hc).2
      refine ⟨?_, ?_⟩ <;> (rintro rfl; exact this (by decide))
    · have := (ipChar_facts (ipText_chars (.v6 ip) _ hc)).2
      refine ⟨?_, ?_⟩ <;> (rintro rfl; exact this (by decide))
  · intro h eh hne hc
    rcases (hp h eh).1 with ⟨n, rfl, hn⟩ | ⟨ip, rfl⟩
    · exact (hn.2 _ hc).2 (by decide)
    · exact hne _ rfl
  · intro t et
    rcases (hp _ et).1 with ⟨n, e, hn⟩ | ⟨ip, e⟩
    · cases e
    · cases e; exact ipv6_colon ip
  · match eh : u.host, hh with
    | some h, _ => exact (plainPath_cases (hp h eh).2.1).1

/-- **C48.** A UDP tracker that is accepted is in normal form. -/
theorem tracker_plain {env : UrlEnv} {s : Text} {u : UdpUrl} (h : Tracker.parse (urlParse env) s = .ok (.udp u)) : PlainUdp env.caret u := by
  obtain ⟨v, e, hv⟩ := (tracker_parse _ _ _).1 h
  rcases hv with ⟨-, -, hv⟩ | ⟨w, hw, hv⟩
  · cases hv
  · cases hv
    obtain ⟨hs, host, hh, h1, h2, h3⟩ := (udpUrl_ofUrl v u).1 hw
    obtain ⟨rest, hr⟩ := urlParse_other e (hs ▸ udp_not_special)
    obtain ⟨hc, hp, hq⟩ := (urlRest_plain hr).2 host hh
    refine ⟨?_, v.path, hp, ?_⟩
    · rw [h1]
      rcases hc with ⟨n, rfl, hn⟩ | ⟨ip, rfl⟩
      · exact .inl hn
      · exact .inr ⟨ip, rfl⟩
    · rw [h3]
      unfold pathAndQuery
      cases eq : v.query with
      | none => exact .inl rfl
      | some q => exact .inr ⟨q, hq q eq, by simp⟩

theorem hostPart_chars {h : Text} (hh : PlainName h ∨ ∃ ip, h = ipv6Text ip) : ∀ c ∈ hostPart h, Visible c ∧ c ≠ '/' ∧ c ≠ '?' ∧ c ≠ '#' := by
  intro c hc
  rcases hh with hn | ⟨ip, rfl⟩
  · rw [hostPart_name hn] at hc
    obtain ⟨h1, h2⟩ := hn.2 c hc
    refine ⟨h1, ?_, ?_, ?_⟩ <;> (rintro rfl; exact h2 (by decide))
  · rw [hostPart_ipv6] at hc
    simp only [List.mem_cons, List.mem_append, List.not_mem_nil, or_false] at hc
    rcases hc with rfl | hc | rfl
    · exact ⟨⟨by decide, by decide⟩, by decide, by decide, by decide⟩
    · obtain ⟨h1, h2⟩ := ipChar_facts (ipText_chars (.v6 ip) _ hc)
      refine ⟨h1, ?_, ?_, ?_⟩ <;> (rintro rfl; exact h2 (by decide))
    · exact ⟨⟨by decide, by decide⟩, by decide, by decide, by decide⟩

theorem display_chars {caret : Bool} {u : UdpUrl} (h : PlainUdp caret u) : ∀ c ∈ u.display, Visible c := by
  have : u.display = "udp://".toList ++ hostPart u.host ++ [':'] ++ decimal u.port.toNat ++ u.urldata := rfl
  rw [this]
  intro c hc
  simp only [List.mem_append, List.mem_singleton] at hc
  rcases hc with (((hc | hc) | hc) | hc) | hc
  · revert c
    have : ∀ c ∈ "udp://".toList, 0x20 < c.toNat ∧ c.toNat < 0x7F := by decide
    exact this
  · exact (hostPart_chars h.host c hc).1
  · subst hc; exact ⟨by decide, by decide⟩
  · exact (digit_facts ((decimal_isDecimal _).2.1 c hc)).1
  · obtain ⟨p, hp, hd⟩ := h.data
    rcases hd with hd | ⟨q, hq, hd⟩
    · rw [hd] at hc; exact ((plainPath_cases hp).2 c hc).1
    · rw [hd] at hc
      rcases List.mem_append.1 hc with hc | hc
      · exact ((plainPath_cases hp).2 c hc).1
      · rcases List.mem_cons.1 hc with rfl | hc
        · exact ⟨by decide, by decide⟩
        · exact (hq c hc).1

/-- The URL a UDP tracker in normal form prints. -/
theorem urlParse_display (env : UrlEnv) {u : UdpUrl} (h : PlainUdp env.caret u) :
    ∃ p q, urlParse env u.display = some ⟨"udp".toList, some (hostOf u.host), some u.port, p, q, none, []⟩ ∧
      u.urldata = p ++ match q with | none => [] | some q => '?' :: q := by
  have hdisp : u.display = "udp".toList ++ ':' :: ('/' :: '/' :: ((hostPart u.host ++ ':' :: decimal u.port.toNat) ++ u.urldata)) := by
    show "udp://".toList ++ hostPart u.host ++ [':'] ++ decimal u.port.toNat ++ u.urldata = _
    simp [show "udp://".toList = ['u', 'd', 'p', ':', '/', '/'] from rfl, show "udp".toList = ['u', 'd', 'p'] from rfl]
  have hin : urlInput u.display = u.display := urlInput_stripped (stripped_self (display_chars h))
  obtain ⟨p, hp, hd⟩ := h.data
  obtain ⟨hp0, hpc⟩ := plainPath_cases hp
  have hauth : ∀ c ∈ hostPart u.host ++ ':' :: decimal u.port.toNat, decide (c ≠ '/' ∧ c ≠ '?' ∧ c ≠ '#') = true := by
    intro c hc
    rcases List.mem_append.1 hc with hc | hc
    · simpa using (hostPart_chars h.host c hc).2
    · rcases List.mem_cons.1 hc with rfl | hc
      · decide
      · have := (digit_facts ((decimal_isDecimal _).2.1 c hc)).2
        have a : c ≠ '/' := by rintro rfl; exact this (by decide)
        have b : c ≠ '?' := by rintro rfl; exact this (by decide)
        have d : c ≠ '#' := by rintro rfl; exact this (by decide)
        simp [a, b, d]
  have hhead : ∀ c ∈ u.urldata.head?, decide (c ≠ '/' ∧ c ≠ '?' ∧ c ≠ '#') = false := by
    intro c hc
    have hx : c = '/' ∨ c = '?' := by
      rcases hp0 with rfl | ⟨r, rfl⟩
      · rcases hd with hd | ⟨q, -, hd⟩
        · rw [hd] at hc; cases hc
        · rw [hd] at hc; cases hc; exact .inr rfl
      · rcases hd with hd | ⟨q, -, hd⟩
        · rw [hd] at hc; cases hc; exact .inl rfl
        · rw [hd] at hc; cases hc; exact .inl rfl
    rcases hx with rfl | rfl <;> decide
  obtain ⟨t1, t2⟩ := takeWhile_stop hauth hhead
  have hpe : ∀ c ∈ p, notPathEnd c = true := by
    intro c hc
    obtain ⟨-, h1, h2⟩ := hpc c hc
    simp [notPathEnd, h1, h2]
  have hpath : pathStart env.caret p = p := by
    rcases hp0 with rfl | ⟨r, rfl⟩
    · rfl
    · exact slashPath_id hp
  have hsch : splitScheme u.display = some ("udp".toList, '/' :: '/' :: ((hostPart u.host ++ ':' :: decimal u.port.toNat) ++ u.urldata)) := by
    rw [hdisp]
    exact splitScheme_of (sch := "udp".toList) (by decide) ⟨'u', ['d', 'p'], rfl, by decide⟩
  have hns : specialSchemes.contains "udp".toList = false := by decide
  unfold urlParse
  rw [hin, hsch, Option.bind_some]
  simp only [hns, Bool.false_eq_true, if_false]
  rw [urlRest]
  simp only [t1, t2, urlAuthority_plain h.host, Option.map_some]
  rcases hd with hd | ⟨q, hq, hd⟩
  · have := takeWhile_stop (p := notPathEnd) (t := p) (r := []) hpe (by simp)
    rw [List.append_nil] at this
    rw [hd, this.1, this.2]
    exact ⟨p, none, by rw [hpath]; rfl, by simp⟩
  · have := takeWhile_stop (p := notPathEnd) (t := p) (r := '?' :: q) hpe (by intro c hc; cases hc; decide)
    rw [hd, this.1, this.2]
    have hq2 : ∀ c ∈ q, (decide (c ≠ '#')) = true := by
      intro c hc
      have := (hq c hc).2
      have h1 : c ≠ '#' := by rintro rfl; exact this (by decide)
      simpa using h1
    have := takeWhile_stop (p := fun c => decide (c ≠ '#')) (t := q) (r := []) hq2 (by simp)
    rw [List.append_nil] at this
    refine ⟨p, some q, ?_, rfl⟩
    rw [hpath, queryAndFragment, if_pos rfl, this.1, this.2, plainQuery_id hq]

/-- **C48.** The text of a UDP tracker in normal form is read as that tracker. -/
theorem tracker_reads_plain (env : UrlEnv) {u : UdpUrl} (h : PlainUdp env.caret u) : Tracker.parse (urlParse env) u.display = .ok (.udp u) := by
  obtain ⟨p, q, e, hd⟩ := urlParse_display env h
  rw [tracker_parse]
  refine ⟨_, e, .inr ⟨u, ?_, rfl⟩⟩
  rw [udpUrl_ofUrl]
  refine ⟨rfl, _, rfl, (hostText_hostOf _).symm, rfl, ?_⟩
  rw [hd]
  unfold pathAndQuery
  cases q <;> simp

/-- **C48.** A UDP tracker that was read from a text is read back from the text it is printed as. -/
theorem tracker_roundTrip {env : UrlEnv} {s : Text} {u : UdpUrl} (h : Tracker.parse (urlParse env) s = .ok (.udp u)) :
    Tracker.parse (urlParse env) u.display = .ok (.udp u) := tracker_reads_plain env (tracker_plain h)

/-- **C48.** The text a UDP tracker is printed as shows its host, its port, and its path with the query. -/
theorem tracker_shows {env : UrlEnv} {s : Text} {u : UdpUrl} (h : Tracker.parse (urlParse env) s = .ok (.udp u)) :
    splitUdpUrl u.display = some (u.host, u.port.toNat, u.urldata) := by
  have hp := tracker_plain h
  obtain ⟨p, hpp, hd⟩ := hp.data
  apply udpUrl_split
  · intro c hc
    rcases hp.host with hn | ⟨ip, e⟩
    · have := (hn.2 c hc).2
      refine ⟨?_, ?_⟩ <;> (rintro rfl; exact this (by decide))
    · rw [e] at hc
      have := (ipChar_facts (ipText_chars (.v6 ip) _ hc)).2
      refine ⟨?_, ?_⟩ <;> (rintro rfl; exact this (by decide))
  · intro c hc
    have hx : c = '/' ∨ c = '?' := by
      rcases (plainPath_cases hpp).1 with rfl | ⟨r, rfl⟩
      · rcases hd with hd | ⟨q, -, hd⟩
        · rw [hd] at hc; cases hc
        · rw [hd] at hc; cases hc; exact .inr rfl
      · rcases hd with hd | ⟨q, -, hd⟩
        · rw [hd] at hc; cases hc; exact .inl rfl
        · rw [hd] at hc; cases hc; exact .inl rfl
    rcases hx with rfl | rfl <;> decide

/-! ### Magnet links -/

theorem lower_alpha {c d : Char} (h : c.toLower = d) (hd : 97 ≤ d.toNat ∧ d.toNat ≤ 122) : c.isAlpha = true := by
  rcases toLower_eq h with rfl | ⟨-, h1, h2⟩
  · simp only [Char.isAlpha, Char.isUpper, Char.isLower, Bool.or_eq_true, Bool.and_eq_true, decide_eq_true_eq]
    right
    exact ⟨UInt32.le_iff_toNat_le.2 hd.1, UInt32.le_iff_toNat_le.2 hd.2⟩
  · simp only [Char.isAlpha, Char.isUpper, Char.isLower, Bool.or_eq_true, Bool.and_eq_true, decide_eq_true_eq]
    left
    exact ⟨UInt32.le_iff_toNat_le.2 h1, UInt32.le_iff_toNat_le.2 h2⟩

theorem magnet_scheme_chars {sch : Text} (h : sch.map Char.toLower = "magnet".toList) :
    (∀ c ∈ sch, schemeChar c = true) ∧ ∃ c r, sch = c :: r ∧ c.isAlpha = true := by
  have hm : ∀ d ∈ "magnet".toList, 97 ≤ d.toNat ∧ d.toNat ≤ 122 := by decide
  have ha : ∀ c ∈ sch, c.isAlpha = true := by
    intro c hc
    refine lower_alpha rfl (hm _ ?_)
    rw [← h]
    exact List.mem_map_of_mem hc
  refine ⟨fun c hc => ?_, ?_⟩
  · simp [schemeChar, Char.isAlphanum, ha c hc]
  · match sch, h with
    | c :: r, _ => exact ⟨c, r, rfl, ha c (by simp)⟩

theorem magnet_not_special : specialSchemes.contains "magnet".toList = false := by decide

/-- Reading a URL without authority. -/
theorem urlRest_noAuthority {caret : Bool} {sch path tail : Text} (h1 : ∀ c ∈ path, notPathEnd c = true) (h2 : path.take 2 ≠ ['/', '/'])
    (h3 : ∀ c ∈ tail.head?, notPathEnd c = false) :
    ∃ p, urlRest caret sch (path ++ tail) = some ⟨sch, none, none, p, (queryAndFragment tail).1, (queryAndFragment tail).2, []⟩ := by
  obtain ⟨t1, t2⟩ := takeWhile_stop h1 h3
  have hslash : notPathEnd '/' = true := by decide
  unfold urlRest
  split
  · next r e =>
    exfalso
    match path, h2 with
    | [], _ =>
      rw [List.nil_append] at e
      have := h3 '/' (by rw [e]; simp)
      rw [hslash] at this
      cases this
    | [c], _ =>
      rw [List.cons_append, List.nil_append, List.cons.injEq] at e
      have := h3 '/' (by rw [e.2]; simp)
      rw [hslash] at this
      cases this
    | c :: d :: p, h2 =>
      rw [List.cons_append, List.cons_append, List.cons.injEq, List.cons.injEq] at e
      apply h2
      rw [e.1, e.2.1]
      rfl
  · next r hr e =>
    have hd : (path ++ tail).dropWhile notPathEnd = r.dropWhile notPathEnd := by
      rw [e, List.dropWhile_cons, if_pos hslash]
    rw [t2] at hd
    rw [← hd]
    exact ⟨_, rfl⟩
  · rw [t2]
    exact ⟨_, rfl⟩

/-- **C18.** What a magnet link is read as, from its text: white space around the link, its path and its fragment do not matter;
the names and values are those written in the query. -/
theorem magnet_text (env : UrlEnv) (lossy : Bytes → Text) {s q : Text} (h : IsMagnetText s q) :
    Magnet.parse (urlParse env) lossy s = magnetOfPairs (urlParse env) (textPairs lossy q) := by
  obtain ⟨sch, path, frag, hs, hm, ⟨hp1, hp2, hp3⟩, hq, hf⟩ := h
  have hin := urlInput_stripped hs
  obtain ⟨hc1, hc2⟩ := magnet_scheme_chars hm
  have hfrag : ∀ c ∈ frag.head?, (decide (c ≠ '#')) = false := by
    intro c hc
    rcases hf with rfl | hf
    · cases hc
    · rw [hf] at hc; cases hc; decide
  have hqf := takeWhile_stop (p := fun c => decide (c ≠ '#')) (t := q) (r := frag)
    (fun c hc => by simp only [decide_eq_true_eq]; rintro rfl; exact hq hc) hfrag
  obtain ⟨p, hr⟩ := urlRest_noAuthority (caret := env.caret) (sch := "magnet".toList) (path := path) (tail := '?' :: (q ++ frag))
    (fun c hc => by
      have a : c ≠ '?' := by rintro rfl; exact hp1 hc
      have b : c ≠ '#' := by rintro rfl; exact hp2 hc
      simp [notPathEnd, a, b]) hp3 (by intro c hc; cases hc; decide)
  have hqq : (queryAndFragment ('?' :: (q ++ frag))).1 = some (percentEncode querySet q) := by
    rw [queryAndFragment, if_pos rfl, hqf.1]
  have e : urlParse env s = some ⟨"magnet".toList, none, none, p, some (percentEncode querySet q), (queryAndFragment ('?' :: (q ++ frag))).2, []⟩ := by
    unfold urlParse
    rw [hin]
    have : sch ++ [':'] ++ path ++ ['?'] ++ q ++ frag = sch ++ ':' :: (path ++ '?' :: (q ++ frag)) := by simp
    rw [this, splitScheme_of hc1 hc2, hm, Option.bind_some]
    simp only [magnet_not_special, Bool.false_eq_true, if_false]
    rw [hr, hqq]
  unfold Magnet.parse
  rw [e]
  simp only [ne_eq, not_true, if_false, queryPairs_spec, Option.getD_some]
  unfold textPairs
  rw [formDecode_encode querySet_ok (by decide) (by decide)]

/-- White space and control characters around a text can always be told from what is between them. -/
theorem stripped_exists (s : Text) : Stripped s (urlInput s) := by
  let w : Char → Bool := fun c => decide (c.toNat ≤ 0x20)
  let d := s.dropWhile w
  let m := (d.reverse.dropWhile w).reverse
  have hd : d = m ++ (d.reverse.takeWhile w).reverse := by
    show d = (d.reverse.dropWhile w).reverse ++ _
    rw [← List.reverse_append, List.takeWhile_append_dropWhile, List.reverse_reverse]
  have hs : s = s.takeWhile w ++ m ++ (d.reverse.takeWhile w).reverse := by
    rw [List.append_assoc, ← hd]
    exact List.takeWhile_append_dropWhile.symm
  have hw : ∀ l : Text, ∀ c ∈ l.takeWhile w, c.toNat ≤ 0x20 := by
    intro l c hc
    have := List.all_takeWhile (p := w) (l := l)
    rw [List.all_eq_true] at this
    simpa [w] using this c hc
  have hlast : ∀ c, m.getLast? = some c → 0x20 < c.toNat := by
    intro c hc
    have h1 := List.head?_dropWhile_not w d.reverse
    have : (d.reverse.dropWhile w).head? = some c := by
      rw [← List.getLast?_reverse]; exact hc
    rw [this] at h1
    simp only [w, decide_eq_false_iff_not] at h1
    omega
  have hhead : ∀ c, m.head? = some c → 0x20 < c.toNat := by
    intro c hc
    have h1 := List.head?_dropWhile_not w s
    have : (s.dropWhile w).head? = some c := by
      show d.head? = some c
      rw [hd, List.head?_append, hc]
      rfl
    rw [this] at h1
    simp only [w, decide_eq_false_iff_not] at h1
    omega
  have hf : (fun c : Char => c != '\t' && c != '\n' && c != '\r') = fun c => decide ¬ (c = '\t' ∨ c = '\n' ∨ c = '\r') := by
    funext c; simp [bne, Bool.beq_eq_decide_eq, Bool.and_assoc]
  refine ⟨s.takeWhile w, m, (d.reverse.takeWhile w).reverse, hs, ?_, hhead, hlast, ?_⟩
  · intro c hc
    rcases List.mem_append.1 hc with hc | hc
    · exact hw _ c hc
    · exact hw _ c (List.mem_reverse.1 hc)
  · rw [← hf]
    rfl

theorem splitScheme_some {s sch rest : Text} (h : splitScheme s = some (sch, rest)) :
    ∃ a, s = a ++ ':' :: rest ∧ a.map Char.toLower = sch := by
  match s, h with
  | c :: r, h =>
    rw [splitScheme] at h
    split at h
    · have := List.takeWhile_append_dropWhile (p := schemeChar) (l := c :: r)
      split at h
      · next d rest' hd =>
        split at h
        · next hc =>
          cases h
          rw [hd, hc] at this
          exact ⟨_, this.symm, rfl⟩
        · cases h
      · cases h
    · cases h

theorem urlParse_scheme {env : UrlEnv} {s : Text} {u : Url} (e : urlParse env s = some u) :
    ∃ rest, splitScheme (urlInput s) = some (u.scheme, rest) := by
  unfold urlParse at e
  rw [Option.bind_eq_some_iff] at e
  obtain ⟨⟨sch, rest⟩, hs, e⟩ := e
  simp only at e
  split at e
  · rw [specialRest_scheme e]
    exact ⟨rest, hs⟩
  · rw [(urlRest_plain e).1]
    exact ⟨rest, hs⟩

/-- **C18.** Only a text that starts with `magnet:`, but for white space and the case of the letters, is read as a magnet link, and
only one that has a query. -/
theorem magnet_text_needed (env : UrlEnv) (lossy : Bytes → Text) {s : Text} {m : Magnet} (h : Magnet.parse (urlParse env) lossy s = .ok m) :
    ∃ sch rest, Stripped s (sch ++ [':'] ++ rest) ∧ sch.map Char.toLower = "magnet".toList ∧ '?' ∈ rest := by
  obtain ⟨u, e, hs, hd⟩ := (magnet_ok _ _ _ _).1 h
  obtain ⟨rest, hsp⟩ := urlParse_scheme e
  obtain ⟨a, ha, hm⟩ := splitScheme_some hsp
  refine ⟨a, rest, ?_, by rw [hm, hs], ?_⟩
  · have := stripped_exists s
    rw [ha] at this
    simpa using this
  · apply Classical.byContradiction
    intro hq
    have hnq : ∀ t : Text, '?' ∉ t → (queryAndFragment t).1 = none := by
      intro t ht
      unfold queryAndFragment
      split
      · rfl
      · rw [if_neg (by rintro rfl; exact ht (by simp))]
    have hdrop : ∀ (p : Char → Bool) (t : Text), '?' ∉ t → '?' ∉ t.dropWhile p :=
      fun p t ht hm => ht ((List.dropWhile_sublist p).mem hm)
    have hnone : u.query = none := by
      have e' : urlRest env.caret u.scheme rest = some u := by
        unfold urlParse at e
        rw [hsp, Option.bind_some] at e
        simp only at e
        rw [if_neg (by rw [hs, magnet_not_special]; simp)] at e
        exact e
      unfold urlRest at e'
      split at e'
      · next r =>
        simp only [Option.map_eq_some_iff] at e'
        obtain ⟨⟨host, port⟩, -, e'⟩ := e'
        rw [← e']
        exact hnq _ (hdrop _ _ (hdrop _ _ (fun hm => hq (by simp [hm]))))
      · have e2 := (Option.some.inj e').symm
        rw [e2]
        exact hnq _ (hdrop _ _ (fun hm => hq (by simp [hm])))
      · have e2 := (Option.some.inj e').symm
        rw [e2]
        exact hnq _ (hdrop _ _ hq)
    rw [hnone] at hd
    obtain ⟨v, hv, -⟩ := hd.xt
    simp [textPairs, formDecode, segments, valuesOf] at hv

/-- A name and an escaped value in a query. -/
theorem formDecode_value {k : Text} {e t : Text} (hk : ∀ c ∈ k, c ≠ '&' ∧ c ≠ '=') (h : Escaped e t) :
    formDecode (k ++ '=' :: e) = [(formBytes k, utf8 t)] := by
  have hseg : segments (k ++ '=' :: e) = [k ++ '=' :: e] := by
    apply segments_single
    intro hm
    rcases List.mem_append.1 hm with hm | hm
    · exact (hk _ hm).1 rfl
    · rcases List.mem_cons.1 hm with hm | hm
      · cases hm
      · exact (h.2 _ hm).2.1 rfl
  have hk' : '=' ∉ k := fun hm => (hk _ hm).2 rfl
  obtain ⟨w1, w2⟩ := takeWhile_ne (r := e) hk'
  unfold formDecode
  rw [hseg, List.filter_cons_of_pos (by simp), List.filter_nil, List.map_singleton, formPair, w1, w2, List.drop_succ_cons, List.drop_zero, h.1]

theorem formDecode_append (a b : Text) : formDecode (a ++ '&' :: b) = formDecode a ++ formDecode b := by
  unfold formDecode
  rw [segments_append, List.filter_append, List.map_append]

theorem magnet_decode {ex en x n : Text} {ets ts : List Text} (h1 : Escaped ex x) (h2 : Escaped en n) (h3 : List.Forall₂ Escaped ets ts) :
    textPairs lossyUtf8 ("xt=".toList ++ ex ++ "&dn=".toList ++ en ++ ets.flatMap fun e => "&tr=".toList ++ e) =
      ("xt".toList, x) :: ("dn".toList, n) :: ts.map fun t => ("tr".toList, t) := by
  have hx : formBytes "xt".toList = utf8 "xt".toList := by decide +kernel
  have hn : formBytes "dn".toList = utf8 "dn".toList := by decide +kernel
  have ht : formBytes "tr".toList = utf8 "tr".toList := by decide +kernel
  have htr : ∀ p : Text, formDecode (p ++ ets.flatMap fun e => "&tr=".toList ++ e) =
      formDecode p ++ ts.map fun t => (utf8 "tr".toList, utf8 t) := by
    induction h3 with
    | nil => intro p; simp
    | cons ha _ ih =>
      intro p
      rename_i e t es ts' _
      rw [List.flatMap_cons, List.map_cons, show p ++ ("&tr=".toList ++ e ++ es.flatMap fun e => "&tr=".toList ++ e) =
        (p ++ '&' :: ("tr".toList ++ '=' :: e)) ++ es.flatMap fun e => "&tr=".toList ++ e by
          simp [show "&tr=".toList = ['&', 't', 'r', '='] from rfl, show "tr".toList = ['t', 'r'] from rfl], ih, formDecode_append,
        formDecode_value (by decide) ha, ht, List.append_assoc]
      rfl
  unfold textPairs
  rw [htr, show "xt=".toList ++ ex ++ "&dn=".toList ++ en = ("xt".toList ++ '=' :: ex) ++ '&' :: ("dn".toList ++ '=' :: en) by
    simp [show "xt=".toList = ['x', 't', '='] from rfl, show "xt".toList = ['x', 't'] from rfl,
      show "&dn=".toList = ['&', 'd', 'n', '='] from rfl, show "dn".toList = ['d', 'n'] from rfl],
    formDecode_append, formDecode_value (by decide) h1, formDecode_value (by decide) h2, hx, hn]
  simp [lossy_utf8, Function.comp_def]

/-- **C18.** A magnet link written for an info hash, a name and trackers is read as just these, however the values are escaped. -/
theorem magnet_written (env : UrlEnv) {ex en name hash : Text} {ets txs : List Text} {h : InfoHash} {trs : List Tracker}
    (hhash : IsHexOf (utf8 hash) h.bytes ∨ IsBase32Of (utf8 hash) h.bytes)
    (hx : Escaped ex ("urn:btih:".toList ++ hash)) (hn : Escaped en name) (ht : List.Forall₂ Escaped ets txs)
    (htr : List.Forall₂ (fun t tr => Tracker.parse (urlParse env) t = .ok tr) txs trs) :
    Magnet.parse (urlParse env) lossyUtf8 (magnetLink ex en ets) = .ok ⟨h, some name, trs⟩ := by
  have hets : ∀ e ∈ ets, ∀ c ∈ e, 0x20 < c.toNat ∧ c ≠ '&' ∧ c ≠ '#' := by
    clear htr
    induction ht with
    | nil => simp
    | cons ha _ ih =>
      intro e he
      rcases List.mem_cons.1 he with rfl | he
      · exact ha.2
      · exact ih e he
  have hlit : ∀ l ∈ ["magnet:?xt=".toList, "&dn=".toList, "&tr=".toList], ∀ c ∈ l, 0x20 < c.toNat ∧ c ≠ '#' := by decide
  have hq : ∀ c ∈ "xt=".toList ++ ex ++ "&dn=".toList ++ en ++ ets.flatMap (fun e => "&tr=".toList ++ e), 0x20 < c.toNat ∧ c ≠ '#' := by
    intro c hc
    simp only [List.mem_append, List.mem_flatMap] at hc
    rcases hc with (((hc | hc) | hc) | hc) | ⟨e, he, hc | hc⟩
    · have : ∀ c ∈ "xt=".toList, 0x20 < c.toNat ∧ c ≠ '#' := by decide
      exact this c hc
    · exact ⟨(hx.2 c hc).1, (hx.2 c hc).2.2⟩
    · exact hlit _ (by simp) c hc
    · exact ⟨(hn.2 c hc).1, (hn.2 c hc).2.2⟩
    · exact hlit _ (by simp) c hc
    · exact ⟨(hets e he c hc).1, (hets e he c hc).2.2⟩
  have hlink : magnetLink ex en ets = "magnet".toList ++ [':'] ++ [] ++ ['?'] ++
      ("xt=".toList ++ ex ++ "&dn=".toList ++ en ++ ets.flatMap (fun e => "&tr=".toList ++ e)) ++ [] := by
    unfold magnetLink
    rw [show "magnet:?xt=".toList = "magnet".toList ++ [':'] ++ [] ++ ['?'] ++ "xt=".toList from rfl]
    simp only [List.append_assoc, List.append_nil]
  have hall : ∀ c ∈ magnetLink ex en ets, 0x20 < c.toNat := by
    rw [hlink]
    intro c hc
    rw [List.append_nil, List.mem_append] at hc
    rcases hc with hc | hc
    · have : ∀ c ∈ "magnet".toList ++ [':'] ++ [] ++ ['?'], 0x20 < c.toNat := by decide
      exact this c hc
    · exact (hq c hc).1
  have hstr : Stripped (magnetLink ex en ets) (magnetLink ex en ets) := by
    refine ⟨[], magnetLink ex en ets, [], by simp, by simp, ?_, ?_, ?_⟩
    · intro c hc; exact hall c (List.mem_of_mem_head? hc)
    · intro c hc; exact hall c (List.mem_of_getLast? hc)
    · symm
      rw [List.filter_eq_self]
      intro c hc
      have := hall c hc
      simp only [not_or, decide_eq_true_eq]
      refine ⟨?_, ?_, ?_⟩ <;> (rintro rfl; revert this; decide)
  have him : IsMagnetText (magnetLink ex en ets) ("xt=".toList ++ ex ++ "&dn=".toList ++ en ++ ets.flatMap (fun e => "&tr=".toList ++ e)) :=
    ⟨"magnet".toList, [], [], hlink ▸ hstr, by decide, by simp, fun hm => (hq _ hm).2 rfl, .inl rfl⟩
  rw [magnet_text env _ him, magnet_decode hx hn ht, magnetOfPairs_ok]
  have hv : ∀ k : String, k.toList ≠ "tr".toList → (txs.map fun t => ("tr".toList, t)).filter (fun kv : Text × Text => kv.1 = k.toList) = [] := by
    intro k hk
    rw [List.filter_eq_nil_iff]
    intro kv hkv
    obtain ⟨t, -, rfl⟩ := List.mem_map.1 hkv
    simpa using fun e => hk e.symm
  refine ⟨⟨"urn:btih:".toList ++ hash, ?_, hash, rfl, hhash⟩, ?_, ?_⟩
  · rw [valuesOf_cons, if_pos rfl, valuesOf_cons, if_neg (fun e => xt_ne_dn e.symm), valuesOf, hv _ (by decide)]
    rfl
  · rw [valuesOf_cons, if_neg xt_ne_dn, valuesOf_cons, if_pos rfl, valuesOf, hv _ (by decide)]
    rfl
  · rw [valuesOf_cons, if_neg xt_ne_tr, valuesOf_cons, if_neg dn_ne_tr, valuesOf, List.filter_eq_self.2, List.map_map]
    · simpa [Function.comp_def] using htr
    · intro kv hkv
      obtain ⟨t, -, rfl⟩ := List.mem_map.1 hkv
      simp

/-! ### Concrete cases meeting the hypotheses -/

def sampleUrlEnv : UrlEnv := ⟨false, fun _ => none, fun _ => none⟩

example : (Tracker.parse (urlParse sampleUrlEnv) " UDP://user@Tracker.Example:0080/x/../announce?a b#f\n".toList).toOption =
    some (.udp ⟨"Tracker.Example".toList, 80, "/announce?a%20b".toList⟩) := by decide +kernel

example : (Tracker.parse (urlParse sampleUrlEnv) "udp://[2001:DB8:0:0::1]:6969/announce".toList).toOption =
    some (.udp ⟨"2001:db8::1".toList, 6969, "/announce".toList⟩) := by decide +kernel

example : (Tracker.parse (urlParse sampleUrlEnv) "udp://[2001:db8::1]:65536".toList).toOption = none := by decide +kernel

example : PlainUdp false ⟨"tracker.example".toList, 80, "/a/b?c=d".toList⟩ where
  host := .inl ⟨by decide, fun c hc => by
    have : ∀ c ∈ "tracker.example".toList, (0x20 < c.toNat ∧ c.toNat < 0x7F) ∧ c ∉ "#/:<>?@[\\]^|".toList := by decide +kernel
    exact this c hc⟩
  data := ⟨"/a/b".toList, ⟨["a".toList, "b".toList], rfl, fun s hs => by
    have : ∀ s ∈ ["a".toList, "b".toList], (∀ c ∈ s, (0x20 < c.toNat ∧ c.toNat < 0x7F) ∧ c ∉ "/\"#<>?`{}".toList ∧
      (false = true → c ≠ '^')) ∧ formBytes s ≠ utf8 ['.'] ∧ formBytes s ≠ utf8 ['.', '.'] := by decide +kernel
    exact this s hs⟩, .inr ⟨"c=d".toList, fun c hc => by
    have : ∀ c ∈ "c=d".toList, (0x20 < c.toNat ∧ c.toNat < 0x7F) ∧ c ∉ "\"#<>".toList := by decide +kernel
    exact this c hc, rfl⟩⟩

example : IsMagnetText "\n MAGNET:?xt=urn:btih:0123&dn=a b#x ".toList "xt=urn:btih:0123&dn=a b".toList :=
  ⟨"MAGNET".toList, [], "#x".toList, ⟨"\n ".toList, "MAGNET:?xt=urn:btih:0123&dn=a b#x".toList, " ".toList, rfl, by decide +kernel,
    (fun c hc => by cases hc; decide), (fun c hc => by
      have : some 'x' = some c := hc
      cases this; decide), by decide +kernel⟩, by decide +kernel, by decide, by decide +kernel, .inr rfl⟩

/-- The values of a link, escaped in different ways. -/
example : Escaped "urn%3Abtih:00".toList "urn:btih:00".toList ∧ Escaped "a+%26%20b".toList "a & b".toList ∧ Escaped "é%C3%A9".toList "éé".toList :=
  ⟨⟨by decide +kernel, by decide +kernel⟩, ⟨by decide +kernel, by decide +kernel⟩, ⟨by decide +kernel, by decide +kernel⟩⟩

example : (Magnet.parse (urlParse sampleUrlEnv) lossyUtf8 (magnetLink "urn%3Abtih:000102030405060708090A0B0C0D0E0F10111213".toList
    "a+%26%20b".toList ["udp%3A%2F%2Ftracker.example:80".toList])).toOption =
    some ⟨⟨(List.range 20).map UInt8.ofNat, rfl⟩, some "a & b".toList, [.udp ⟨"tracker.example".toList, 80, []⟩]⟩ := by decide +kernel

end Demag.Props
