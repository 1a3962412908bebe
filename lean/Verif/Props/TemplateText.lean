import Verif.Model.TemplateText
import Verif.Props.TemplateErrors
import Verif.Props.LogText

/-!
# C15: what is said about a malformed path template
-/

namespace Demag.Props

open Demag Demag.Spec

theorem field_verbatim (plain : Char → Bool) (hp : ∀ c, FieldChar c → plain c = true) (f : List Char) (hf : ∀ c ∈ f, FieldChar c) :
    debugText plain f = '"' :: (f ++ ['"']) := by
  have one : ∀ c, FieldChar c → debugChar plain c = [c] := by
    intro c hc
    have hpc := hp c hc
    have hne : ∀ d ∈ [Char.ofNat 0, '\t', '\r', '\n', '\\', '"'], c ≠ d := by
      intro d hd h
      rw [h] at hc
      have : ∀ d ∈ [Char.ofNat 0, '\t', '\r', '\n', '\\', '"'],
          d ∉ "abcdefghijklmnopqrstuvwxyzABCDEFGHIJKLMNOPQRSTUVWXYZ0123456789_".toList := by decide +kernel
      exact this d hd hc
    unfold debugChar
    rw [if_neg (hne _ (by simp)), if_neg (hne _ (by simp)), if_neg (hne _ (by simp)), if_neg (hne _ (by simp)), if_neg (hne _ (by simp)),
      if_neg (hne _ (by simp)), if_pos hpc]
  have : f.flatMap (debugChar plain) = f := by
    induction f with
    | nil => rfl
    | cons c cs ih => rw [List.flatMap_cons, one c (hf c (by simp)), ih (fun d hd => hf d (by simp [hd]))]; rfl
  rw [debugText, this]

/-- **C15.** What is said about a malformed template: which of the three things is wrong, and at which byte its first bad brace is, or which
field, word for word, is unknown. -/
theorem template_error_says (plain : Char → Bool) (hp : ∀ c, FieldChar c → plain c = true) (s : Text) (e : PathTemplateError)
    (h : PathTemplate.fromStr s = .error e) :
    (∃ i ds, Malformed s (.unmatched i) ∧ IsDecimal i ds ∧ e.text plain = "unmatched brace at byte index ".toList ++ ds) ∨
    (∃ i ds, Malformed s (.invalidField i) ∧ IsDecimal i ds ∧ e.text plain = "malformed placeholder at byte index ".toList ++ ds) ∨
    (∃ f, Malformed s (.unknownField f) ∧ e.text plain = "unknown placeholder \"".toList ++ f ++ "\"".toList) := by
  rw [template_error_iff] at h
  cases e with
  | unmatched i => exact .inl ⟨i, _, h, decimal_isDecimal i, rfl⟩
  | invalidField i => exact .inr (.inl ⟨i, _, h, decimal_isDecimal i, rfl⟩)
  | unknownField f =>
    apply Or.inr; apply Or.inr; refine Exists.intro f (And.intro h ?_)
    have hf : ∀ c ∈ f, FieldChar c := by
      generalize hz : PathTemplateError.unknownField f = z at h
      cases h with
      | unknown p f' r ts _ hf => cases hz; exact hf
      | _ => cases hz
    have h1 : "unknown placeholder \"".toList = "unknown placeholder ".toList ++ ['"'] := by decide +kernel
    have h2 : "\"".toList = ['"'] := by decide +kernel
    have h3 : (PathTemplateError.unknownField f).text plain = "unknown placeholder ".toList ++ debugText plain f := rfl
    rw [h1, h2, h3, field_verbatim plain hp f hf]
    generalize "unknown placeholder ".toList = a
    simp

example : ∃ e, PathTemplate.fromStr "ä{nam}".toList = .error e ∧ e.text (fun _ => true) = "unknown placeholder \"nam\"".toList :=
  ⟨.unknownField "nam".toList, by decide +kernel, by decide +kernel⟩

example : ∃ e, PathTemplate.fromStr "ä{name".toList = .error e ∧ e.text (fun _ => true) = "unmatched brace at byte index 2".toList :=
  ⟨.unmatched 2, by decide +kernel, by decide +kernel⟩

end Demag.Props
