import Verif.Spec.TemplateErrors
import Verif.Props.Template

/-!
# C15: which error a malformed path template gives
-/

namespace Demag.Props

open Spec

theorem fieldChar_iff (c : Char) : FieldChar c ↔ isFieldChar c = true := by
  constructor
  · intro h
    have : ∀ c ∈ "abcdefghijklmnopqrstuvwxyzABCDEFGHIJKLMNOPQRSTUVWXYZ0123456789_".toList, isFieldChar c = true := by decide +kernel
    exact this c h
  · intro h
    have hl := isFieldChar_lt h
    have key : ∀ n : Nat, n < 128 → isFieldChar (Char.ofNat n) = true →
        Char.ofNat n ∈ "abcdefghijklmnopqrstuvwxyzABCDEFGHIJKLMNOPQRSTUVWXYZ0123456789_".toList := by decide +kernel
    have := key c.toNat hl
    rw [Char.ofNat_toNat] at this
    exact this h

theorem byteCount_utf8 (s : List Char) : (utf8 s).length = byteCount s := by
  induction s with
  | nil => rfl
  | cons c s ih =>
    show (List.flatMap String.utf8EncodeChar (c :: s)).length = _
    rw [List.flatMap_cons, List.length_append, String.length_utf8EncodeChar]
    show _ + (utf8 s).length = _
    rw [ih]
    simp [byteCount]

theorem malformed_bad (s : List Char) (e : PathTemplateError) : Malformed s e ↔ Bad s e := by
  constructor
  · rintro (⟨p, f, ts, h1, h2⟩ | ⟨p, f, r, d, ts, h1, h2, h3, h4, h5⟩ | ⟨p, f, r, ts, h1, h2, h3, h4⟩)
    · rw [← byteCount_utf8]
      exact .unmatched p f ts h1 fun c hc => (fieldChar_iff c).1 (h2 c hc)
    · rw [← byteCount_utf8]
      exact .invalid p f ts d r h1 (fun c hc => (fieldChar_iff c).1 (h2 c hc)) (by rw [fieldChar_iff] at h3; simpa using h3) h4 h5
    · exact .unknown p f ts r h1 (fun c hc => (fieldChar_iff c).1 (h2 c hc)) h3 h4
  · rintro (⟨p, f, ts, h1, h2⟩ | ⟨p, f, ts, d, r, h1, h2, h3, h4, h5⟩ | ⟨p, f, ts, r, h1, h2, h3, h4⟩)
    · rw [byteCount_utf8]
      exact .unmatched p f ts h1 fun c hc => (fieldChar_iff c).2 (h2 c hc)
    · rw [byteCount_utf8]
      exact .invalid p f r d ts h1 (fun c hc => (fieldChar_iff c).2 (h2 c hc)) (by rw [fieldChar_iff]; simpa using h3) h4 h5
    · exact .unknown p f r ts h1 (fun c hc => (fieldChar_iff c).2 (h2 c hc)) h3 h4

/-- What may follow the opening brace that cannot be read. -/
inductive BadTail (i : Nat) : Text → PathTemplateError → Prop
  | unmatched (f : Text) (hf : ∀ c ∈ f, isFieldChar c = true) : BadTail i f (.unmatched i)
  | invalid (f : Text) (d : Char) (r : Text) (hf : ∀ c ∈ f, isFieldChar c = true) (hd : isFieldChar d = false) (h1 : d ≠ '}') (h2 : ¬ (f = [] ∧ d = '{')) :
      BadTail i (f ++ d :: r) (.invalidField i)
  | unknown (f r : Text) (hf : ∀ c ∈ f, isFieldChar c = true) (h1 : f ≠ ['n', 'a', 'm', 'e']) (h2 : f ≠ ['h', 'a', 's', 'h']) :
      BadTail i (f ++ '}' :: r) (.unknownField f)

theorem bad_tail {s : Text} {e : PathTemplateError} (h : Bad s e) : ∃ p ts x, s = p ++ '{' :: x ∧ Reads p ts ∧ BadTail (utf8 p).length x e := by
  cases h with
  | unmatched p f ts hp hf => exact ⟨p, ts, f, rfl, hp, .unmatched f hf⟩
  | invalid p f ts d r hp hf hd h1 h2 => exact ⟨p, ts, f ++ d :: r, by simp, hp, .invalid f d r hf hd h1 h2⟩
  | unknown p f ts r hp hf h1 h2 => exact ⟨p, ts, f ++ '}' :: r, by simp, hp, .unknown f r hf h1 h2⟩

theorem badTail_unique {i : Nat} {x : Text} {e e' : PathTemplateError} (h : BadTail i x e) (h' : BadTail i x e') : e = e' := by
  have nc : isFieldChar '}' = false := by decide
  generalize hx : x = y at h'
  cases h with
  | unmatched f hf =>
    cases h' with
    | unmatched => rfl
    | invalid f' d r hf' hd => rw [hx] at hf; rw [hf d (by simp)] at hd; cases hd
    | unknown f' r => rw [hx] at hf; rw [hf '}' (by simp)] at nc; cases nc
  | invalid f d r hf hd h1 h2 =>
    cases h' with
    | unmatched _ hf' => rw [← hx] at hf'; rw [hf' d (by simp)] at hd; cases hd
    | invalid => rfl
    | unknown f' r' hf' => exact absurd (field_split hf hf' hd nc hx).2.1 h1
  | unknown f r hf h1 h2 =>
    cases h' with
    | unmatched _ hf' => rw [← hx] at hf'; rw [hf' '}' (by simp)] at nc; cases nc
    | invalid f' d r' hf' hd h1' => exact absurd (field_split hf hf' nc hd hx).2.1.symm h1'
    | unknown f' r' hf' => rw [(field_split hf hf' nc nc hx).1]

/-- No readable beginning goes on beyond the brace. -/
theorem badTail_stops {p : Text} {ts : List Tok} {x : Text} {e : PathTemplateError} (hp : Reads p ts) (h : BadTail (utf8 p).length x e)
    {q y : Text} {us : List Tok} (hq : Reads (p ++ '{' :: q) us) : x ≠ q ++ y := by
  rintro rfl
  obtain ⟨vs, hv, -⟩ := reads_rest hp hq
  have nf : isFieldChar '{' = false := by decide
  have nc : isFieldChar '}' = false := by decide
  generalize hx : q ++ y = x at h
  cases h with
  | unmatched f hf =>
    rcases reads_brace hv with ⟨r, hr⟩ | ⟨r, hr⟩ | ⟨r, hr⟩ <;> subst hr
    · rw [← hx] at hf; rw [hf '{' (by simp)] at nf; cases nf
    · rw [← hx] at hf; rw [hf '}' (by simp)] at nc; cases nc
    · rw [← hx] at hf; rw [hf '}' (by simp)] at nc; cases nc
  | invalid f d r hf hd h1 h2 =>
    rcases reads_brace hv with ⟨r', hr⟩ | ⟨r', hr⟩ | ⟨r', hr⟩ <;> subst hr
    · have := field_split (f := []) (by simp) hf nf hd hx
      exact h2 ⟨this.1.symm, this.2.1.symm⟩
    · rw [List.append_assoc, List.cons_append] at hx
      exact h1 (field_split nameField hf nc hd hx).2.1.symm
    · rw [List.append_assoc, List.cons_append] at hx
      exact h1 (field_split hashField hf nc hd hx).2.1.symm
  | unknown f r hf h1 h2 =>
    rcases reads_brace hv with ⟨r', hr⟩ | ⟨r', hr⟩ | ⟨r', hr⟩ <;> subst hr
    · exact absurd (field_split (f := []) (by simp) hf nf nc hx).2.1 (by decide)
    · rw [List.append_assoc, List.cons_append] at hx
      exact h1 (field_split nameField hf nc nc hx).1.symm
    · rw [List.append_assoc, List.cons_append] at hx
      exact h2 (field_split hashField hf nc nc hx).1.symm

/-- **C15.** A template is malformed in one place and for one reason. -/
theorem malformed_unique {s : List Char} {e e' : PathTemplateError} (h : Malformed s e) (h' : Malformed s e') : e = e' := by
  rw [malformed_bad] at h h'
  obtain ⟨p, ts, x, rfl, hp, hx⟩ := bad_tail h
  obtain ⟨p', ts', x', he, hp', hx'⟩ := bad_tail h'
  rcases List.append_eq_append_iff.1 he with ⟨q, hq, hr⟩ | ⟨q, hq, hr⟩
  · cases q with
    | nil =>
      simp only [List.nil_append, List.cons.injEq, true_and] at hr
      rw [List.append_nil] at hq
      subst hq hr
      exact badTail_unique hx hx'
    | cons c q =>
      simp only [List.cons_append, List.cons.injEq] at hr
      obtain ⟨rfl, hr⟩ := hr
      subst hq
      exact absurd hr (badTail_stops hp hx hp')
  · cases q with
    | nil =>
      simp only [List.nil_append, List.cons.injEq, true_and] at hr
      rw [List.append_nil] at hq
      subst hq hr
      exact badTail_unique hx hx'
    | cons c q =>
      simp only [List.cons_append, List.cons.injEq] at hr
      obtain ⟨rfl, hr⟩ := hr
      subst hq
      exact absurd hr (badTail_stops hp' hx' hp)

/-- **C15.** A template is rejected with an error exactly if it is malformed in the place and for the reason the error tells. -/
theorem template_error_iff (s : Text) (e : PathTemplateError) : PathTemplate.fromStr s = .error e ↔ Malformed s e := by
  constructor
  · intro h
    exact (malformed_bad s e).2 (template_error s e h)
  · intro h
    cases hs : PathTemplate.fromStr s with
    | ok es => exact absurd ((template_accepts_iff s _).1 ⟨es, hs, rfl⟩) (bad_not_reads ((malformed_bad s e).1 h))
    | error e' => rw [malformed_unique ((malformed_bad s e').2 (template_error s e' hs)) h]

-- byte indices, not character indices: the brace after "ä" is at 2
example : PathTemplate.fromStr "ä{name".toList = .error (.unmatched 2) :=
  (template_error_iff _ _).2 (.unmatched "ä".toList "name".toList [.ch 'ä'] (.char _ (by decide) (by decide) .nil) (by unfold FieldChar; decide +kernel))

example : Malformed "{name}{tracker}".toList (.unknownField "tracker".toList) :=
  .unknown "{name}".toList "tracker".toList [] [.name] (.name .nil) (by unfold FieldChar; decide +kernel) (by decide) (by decide)

example : Malformed "{{x{ y}".toList (.invalidField 3) :=
  .invalid "{{x".toList [] "y}".toList ' ' [.ch '{', .ch 'x'] (.open2 (.char _ (by decide) (by decide) .nil)) (by simp) (by unfold FieldChar; decide +kernel)
    (by decide) (by decide)

end Demag.Props
