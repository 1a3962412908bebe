import Verif.Spec.Display

/-!
# C55: lists and error chains are displayed faithfully
-/

namespace Demag.Props

open Demag Spec

theorem commaLoop_false (vs : List Text) :
    commaLoop false vs = (false, match vs with | [] => [] | v :: r => ", ".toList ++ joined ", ".toList (v :: r)) := by
  induction vs with
  | nil => rfl
  | cons v r ih =>
    simp only [commaLoop, ih, Bool.not_false, if_true]
    cases r with
    | nil => simp [joined]
    | cons u ts => simp [joined]

/-- **C55.** A list is displayed as its elements, in order, with a comma and a blank between them; the empty list as
`<none>`. -/
theorem comma_list (vs : List Text) : commaList vs = if vs = [] then "<none>".toList else joined ", ".toList vs := by
  cases vs with
  | nil => rfl
  | cons v r =>
    rw [if_neg (by simp)]
    simp only [commaList, commaLoop, commaLoop_false]
    cases r with
    | nil => simp [joined]
    | cons u ts => simp [joined]

theorem split_first {a b r s : Text} (ha : ',' ∉ a) (hb : ',' ∉ b) (h : a ++ ',' :: r = b ++ ',' :: s) : a = b ∧ r = s := by
  induction a generalizing b with
  | nil =>
    cases b with
    | nil => simpa using h
    | cons c cs => simp only [List.nil_append, List.cons_append, List.cons.injEq] at h; rw [← h.1] at hb; simp at hb
  | cons c cs ih =>
    cases b with
    | nil => simp only [List.nil_append, List.cons_append, List.cons.injEq] at h; rw [h.1] at ha; simp at ha
    | cons d ds =>
      simp only [List.cons_append, List.cons.injEq] at h
      simp only [List.mem_cons, not_or] at ha hb
      obtain ⟨h1, h2⟩ := ih ha.2 hb.2 h.2
      exact ⟨by rw [h.1, h1], h2⟩

/-- **C55.** Nothing is lost in the display: different lists (of texts without commas, and other than the one whose only
element is the text `<none>` itself) are displayed differently. -/
theorem comma_list_inj {vs ws : List Text} (hv : ∀ v ∈ vs, ',' ∉ v) (hw : ∀ w ∈ ws, ',' ∉ w) (hv' : vs ≠ ["<none>".toList])
    (hw' : ws ≠ ["<none>".toList]) (h : commaList vs = commaList ws) : vs = ws := by
  have key : ∀ (v : Text) (vs : List Text) (w : Text) (ws : List Text), (∀ x ∈ v :: vs, ',' ∉ x) → (∀ x ∈ w :: ws, ',' ∉ x) →
      joined ", ".toList (v :: vs) = joined ", ".toList (w :: ws) → v :: vs = w :: ws := by
    intro v vs
    induction vs generalizing v with
    | nil =>
      intro w ws h1 h2 h
      cases ws with
      | nil => simpa [joined] using h
      | cons u ts =>
        exfalso
        have : ',' ∉ v := h1 v (by simp)
        simp only [joined] at h
        rw [h] at this
        simp at this
    | cons x xs ih =>
      intro w ws h1 h2 h
      cases ws with
      | nil =>
        exfalso
        have : ',' ∉ w := h2 w (by simp)
        simp only [joined] at h
        rw [← h] at this
        simp at this
      | cons u ts =>
        simp only [joined, List.append_assoc] at h
        obtain ⟨e1, e2⟩ := split_first (h1 v (by simp)) (h2 w (by simp)) h
        have e3 := ih x u ts (fun y hy => h1 y (by simp [hy])) (fun y hy => h2 y (by simp [hy])) (by simpa using e2)
        rw [e1, e3]
  have none_ne : ∀ (w : Text) (ws : List Text), (∀ x ∈ w :: ws, ',' ∉ x) → w :: ws ≠ ["<none>".toList] →
      "<none>".toList ≠ joined ", ".toList (w :: ws) := by
    intro w ws h2 hne e
    cases ws with
    | nil => simp only [joined] at e; rw [← e] at hne; exact hne rfl
    | cons u ts =>
      have : ',' ∉ "<none>".toList := by decide
      rw [e] at this
      simp [joined] at this
  rw [comma_list, comma_list] at h
  cases vs with
  | nil =>
    cases ws with
    | nil => rfl
    | cons w ws => rw [if_pos rfl, if_neg (by simp)] at h; exact absurd h (none_ne w ws hw hw')
  | cons v vs =>
    cases ws with
    | nil => rw [if_pos rfl, if_neg (by simp)] at h; exact absurd h.symm (none_ne v vs hv hv')
    | cons w ws => rw [if_neg (by simp), if_neg (by simp)] at h; exact key v vs w ws hv hw h

/-- **C55.** An error is displayed as its message and those of its sources, all of them and in order, with a colon and a blank
between them. -/
theorem error_chain (e : Err) : errorChain e = joined ": ".toList (messages e) := by
  have loop : ∀ s : Err, sourcesLoop s = ": ".toList ++ joined ": ".toList (messages s) := by
    intro s
    induction s with
    | leaf m => rfl
    | caused m s ih =>
      rw [sourcesLoop, ih, messages]
      cases s <;> simp [joined, messages]
  cases e with
  | leaf m => simp [errorChain, Err.message, Err.source, joined, messages]
  | caused m s =>
    simp only [errorChain, Err.message, Err.source, messages, loop]
    cases s <;> simp [joined, messages]

example : commaList ["a".toList, "b c".toList, "".toList] = "a, b c, ".toList := by decide
example : commaList [] = "<none>".toList := by decide
example : errorChain (.caused "x".toList (.caused "y".toList (.leaf "z".toList))) = "x: y: z".toList := by decide

end Demag.Props
