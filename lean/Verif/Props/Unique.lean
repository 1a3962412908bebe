import Verif.Spec.Nursery

/-!
# C28: streams without repetitions
-/

namespace Demag.Props

open Demag Spec

variable {α κ : Type} [DecidableEq κ]

/-- `firsts`, given keys that occurred before. -/
def firstsFrom (key : α → κ) (seen : List κ) : List α → List α
  | [] => []
  | x :: xs => if key x ∈ seen then firstsFrom key seen xs else x :: firstsFrom key (key x :: seen) xs

theorem firstsFrom_congr (key : α → κ) (xs : List α) (s t : List κ) (h : ∀ k, k ∈ s ↔ k ∈ t) :
    firstsFrom key s xs = firstsFrom key t xs := by
  induction xs generalizing s t with
  | nil => rfl
  | cons x xs ih =>
    simp only [firstsFrom, h (key x)]
    split
    · exact ih s t h
    · rw [ih (key x :: s) (key x :: t) (by simp [h])]

theorem firstsFrom_spec (key : α → κ) (pre xs : List α) :
    firstsFrom key (pre.map key) xs =
      ((xs.zipIdx pre.length).filter fun xi => key xi.1 ∉ ((pre ++ xs).take xi.2).map key).map Prod.fst := by
  induction xs generalizing pre with
  | nil => rfl
  | cons x xs ih =>
    have h1 : ((pre ++ x :: xs).take pre.length).map key = pre.map key := by simp
    have h2 := ih (pre ++ [x])
    rw [List.length_append, List.length_singleton, List.append_assoc, List.singleton_append] at h2
    rw [firstsFrom, List.zipIdx_cons]
    split
    · rename_i hm
      rw [List.filter_cons_of_neg (by simpa [h1] using hm), ← h2]
      apply firstsFrom_congr
      intro k
      simp only [List.map_append, List.map_cons, List.map_nil, List.mem_append, List.mem_singleton]
      constructor
      · exact .inl
      · rintro (h | rfl)
        · exact h
        · exact hm
    · rename_i hm
      rw [List.filter_cons_of_pos (by simpa [h1] using hm), List.map_cons, ← h2]
      congr 1
      apply firstsFrom_congr
      intro k
      simp [or_comm]

theorem firsts_eq (key : α → κ) (xs : List α) : firsts key xs = firstsFrom key [] xs :=
  (firstsFrom_spec key [] xs).symm

theorem uniquePoll_spec (key : α → κ) (seen : List κ) (inner : List (StreamPoll α)) :
    ∃ used, inner = used ++ (uniquePoll key seen inner).2.2 ∧
      ∀ more, firstsFrom key seen (items used ++ more) =
        items [(uniquePoll key seen inner).1] ++ firstsFrom key (uniquePoll key seen inner).2.1 more := by
  induction inner generalizing seen with
  | nil => exact ⟨[], rfl, fun more => rfl⟩
  | cons p inner ih =>
    cases p with
    | pending => exact ⟨[.pending], rfl, fun more => rfl⟩
    | ended => exact ⟨[.ended], rfl, fun more => rfl⟩
    | item x =>
      rw [uniquePoll]
      split
      · rename_i hm
        obtain ⟨used, h1, h2⟩ := ih seen
        refine ⟨.item x :: used, by rw [List.cons_append, ← h1], fun more => ?_⟩
        rw [← h2 more]
        show firstsFrom key seen (x :: (items used ++ more)) = _
        rw [firstsFrom, if_pos hm]
      · rename_i hm
        refine ⟨[.item x], rfl, fun more => ?_⟩
        show firstsFrom key seen (x :: more) = _
        rw [firstsFrom, if_neg hm]
        rfl

/-- **C28.** However the inner stream's items arrive and however often the stream is polled: what it has passed on is what it
has taken from the inner stream, without the items whose key occurred before. -/
theorem unique_spec (key : α → κ) (n : Nat) (inner : List (StreamPoll α)) :
    ∃ used rest, inner = used ++ rest ∧ items (uniquePolls key n [] inner) = firsts key (items used) := by
  have main : ∀ (n : Nat) (seen : List κ) (inner : List (StreamPoll α)), ∃ used rest, inner = used ++ rest ∧
      items (uniquePolls key n seen inner) = firstsFrom key seen (items used) := by
    intro n
    induction n with
    | zero => intro seen inner; exact ⟨[], inner, rfl, rfl⟩
    | succ n ih =>
      intro seen inner
      obtain ⟨u1, h1, h2⟩ := uniquePoll_spec key seen inner
      obtain ⟨u2, rest, h3, h4⟩ := ih (uniquePoll key seen inner).2.1 (uniquePoll key seen inner).2.2
      refine ⟨u1 ++ u2, rest, by rw [List.append_assoc, ← h3, ← h1], ?_⟩
      have e : items (u1 ++ u2) = items u1 ++ items u2 := List.filterMap_append
      rw [e, h2, ← h4]
      show items ([_] ++ _) = _
      exact List.filterMap_append
  obtain ⟨used, rest, h1, h2⟩ := main n [] inner
  exact ⟨used, rest, h1, by rw [h2, firsts_eq]⟩

/-- **C28.** Once the inner stream's items have all been asked for, they have all been dealt with: nothing is held back. -/
theorem unique_complete (key : α → κ) (inner : List (StreamPoll α)) (n : Nat) (hn : inner.length ≤ n) :
    items (uniquePolls key n [] inner) = firsts key (items inner) := by
  have main : ∀ (n : Nat) (seen : List κ) (inner : List (StreamPoll α)), inner.length ≤ n →
      items (uniquePolls key n seen inner) = firstsFrom key seen (items inner) := by
    intro n
    induction n with
    | zero =>
      intro seen inner h
      have : inner = [] := List.length_eq_zero_iff.1 (by omega)
      subst this; rfl
    | succ n ih =>
      intro seen inner h
      obtain ⟨u1, h1, h2⟩ := uniquePoll_spec key seen inner
      have hlen : (uniquePoll key seen inner).2.2.length ≤ n := by
        cases hu : u1 with
        | nil =>
          cases inner with
          | nil => simp [uniquePoll]
          | cons p inner =>
            exfalso
            have hl : (uniquePoll key seen (p :: inner)).2.2.length < (p :: inner).length := by
              clear h1 h2 hu ih h
              induction inner generalizing seen p with
              | nil => cases p <;> simp [uniquePoll] <;> split <;> simp
              | cons q inner ih2 =>
                cases p with
                | pending => simp [uniquePoll]
                | ended => simp [uniquePoll]
                | item x =>
                  rw [uniquePoll]
                  split
                  · have := ih2 seen q
                    simp only [List.length_cons] at this ⊢
                    omega
                  · simp
            rw [hu] at h1
            have := congrArg List.length h1
            simp only [List.nil_append] at this
            omega
        | cons a b =>
          have := congrArg List.length h1
          rw [hu] at this
          simp only [List.length_append, List.length_cons] at this
          omega
      have h3 := ih (uniquePoll key seen inner).2.1 _ hlen
      have e : items inner = items u1 ++ items (uniquePoll key seen inner).2.2 :=
        (congrArg items h1).trans List.filterMap_append
      rw [e, h2, ← h3]
      show items ([_] ++ _) = _
      exact List.filterMap_append
  rw [main n [] inner hn, firsts_eq]

/-- **C28.** The elements `firsts` keeps have pairwise different keys, every key is kept, and the order is that of arrival. -/
theorem firsts_spec (key : α → κ) (xs : List α) :
    ((firsts key xs).map key).Nodup ∧ (∀ x ∈ xs, key x ∈ (firsts key xs).map key) ∧ (firsts key xs).Sublist xs ∧
      (∀ pre x post, xs = pre ++ x :: post → key x ∉ pre.map key → x ∈ firsts key xs) := by
  have main : ∀ (xs : List α) (seen : List κ), ((firstsFrom key seen xs).map key).Nodup ∧
      (∀ k ∈ (firstsFrom key seen xs).map key, k ∉ seen) ∧
      (∀ x ∈ xs, key x ∈ seen ∨ key x ∈ (firstsFrom key seen xs).map key) ∧ (firstsFrom key seen xs).Sublist xs ∧
      (∀ pre x post, xs = pre ++ x :: post → key x ∉ pre.map key → key x ∉ seen → x ∈ firstsFrom key seen xs) := by
    intro xs
    induction xs with
    | nil => intro seen; simp [firstsFrom]
    | cons y xs ih =>
      intro seen
      rw [firstsFrom]
      split
      · rename_i hm
        obtain ⟨a, b, c, d, e⟩ := ih seen
        refine ⟨a, b, ?_, d.cons _, ?_⟩
        · intro x hx
          rcases List.mem_cons.1 hx with rfl | hx
          · exact .inl hm
          · exact c x hx
        · intro pre x post he h1 h2
          cases pre with
          | nil => cases he; exact absurd hm h2
          | cons z pre =>
            cases he
            simp only [List.map_cons, List.mem_cons, not_or] at h1
            exact e pre x post rfl h1.2 h2
      · rename_i hm
        obtain ⟨a, b, c, d, e⟩ := ih (key y :: seen)
        refine ⟨?_, ?_, ?_, d.cons_cons _, ?_⟩
        · rw [List.map_cons, List.nodup_cons]
          exact ⟨fun h => b _ h (by simp), a⟩
        · intro k hk
          rw [List.map_cons, List.mem_cons] at hk
          rcases hk with rfl | hk
          · exact hm
          · exact fun h => b k hk (by simp [h])
        · intro x hx
          rcases List.mem_cons.1 hx with rfl | hx
          · exact .inr (by simp)
          · rcases c x hx with h | h
            · rcases List.mem_cons.1 h with h | h
              · exact .inr (by rw [h]; simp)
              · exact .inl h
            · exact .inr (by simp only [List.map_cons, List.mem_cons]; exact .inr h)
        · intro pre x post he h1 h2
          cases pre with
          | nil => cases he; simp
          | cons z pre =>
            cases he
            simp only [List.map_cons, List.mem_cons, not_or] at h1
            exact List.mem_cons_of_mem _ (e pre x post rfl h1.2 (by simp [h1.1, h2]))
  obtain ⟨a, -, c, d, e⟩ := main xs []
  rw [firsts_eq]
  exact ⟨a, fun x hx => (c x hx).resolve_left (by simp), d, fun pre x post h1 h2 => e pre x post h1 h2 (by simp)⟩

-- the test of the repository: keys are the numbers of one bits
example : firsts (fun n : Nat => (Nat.toDigits 2 n).count '1') [4, 10, 20, 30, 8] = [4, 10, 30] := by decide +kernel
example : uniquePolls (fun n : Nat => n % 3) 4 [] [.item 1, .pending, .item 4, .item 2, .pending, .ended] =
    [.item 1, .pending, .item 2, .pending] := by decide

end Demag.Props
