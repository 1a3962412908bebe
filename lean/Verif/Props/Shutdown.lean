import Verif.Spec.Nursery

/-!
# C50: shutting down background tasks
-/

namespace Demag.Props

open Demag Spec

structure ShutdownInv (es : List (Nat × ShutdownEvent)) (s : ShutdownGroup) : Prop where
  next : s.next = es.countP fun x => x.2 = .spawn
  tasks : s.tasks = tasksLeft es
  ended : ∀ n, .taskEnds n ∈ es.map Prod.snd → n < s.next
  cancelled : s.cancelled = true ↔ ∃ t, (t, .timeout) ∈ es
  opened : s.phase = .open ↔ ∀ d, ShutdownEvent.shutdown d ∉ es.map Prod.snd
  closed : s.phase ≠ .open → s.closed = true
  deadline : s.phase ≠ .open → ∃ t d, (t, .shutdown d) ∈ es ∧ s.deadline = t + d
  grace : s.phase = .grace → s.cancelled = false
  over : s.phase = .over ↔ .rejoined ∈ es.map Prod.snd

theorem tasksLeft_nodup (es : List (Nat × ShutdownEvent)) : (tasksLeft es).Nodup :=
  List.nodup_range.filter _

/-- Events that are neither `spawn` nor `taskEnds` leave the tasks as they are. -/
theorem tasksLeft_snoc_other {es : List (Nat × ShutdownEvent)} {t : Nat} {e : ShutdownEvent} (h1 : e ≠ .spawn)
    (h2 : ∀ n, e ≠ .taskEnds n) : tasksLeft (es ++ [(t, e)]) = tasksLeft es := by
  unfold tasksLeft
  rw [List.countP_append]
  have : List.countP (fun x : Nat × ShutdownEvent => decide (x.2 = .spawn)) [(t, e)] = 0 := by simp [h1]
  rw [this, Nat.add_zero]
  apply List.filter_congr
  intro n _
  have := h2 n
  simp [Ne.symm this]

theorem shutdown_inv {es : List (Nat × ShutdownEvent)} {s : ShutdownGroup} (h : ShutdownRun es s) : ShutdownInv es s := by
  induction h with
  | init => constructor <;> simp [tasksLeft]
  | @step es s s' now e hr ht hs ih =>
    obtain ⟨i1, i2, i3, i4, i5, i6, i7, i8, i9⟩ := ih
    cases e with
    | spawn =>
      simp only [ShutdownGroup.step, Option.some.injEq] at hs
      subst hs
      constructor
      · simp [i1, List.countP_append]
      · show s.tasks ++ [s.next] = _
        unfold tasksLeft
        rw [List.countP_append, show List.countP (fun x : Nat × ShutdownEvent => decide (x.2 = .spawn)) [(now, .spawn)] = 1 by simp,
          ← i1, List.range_succ, List.filter_append, i2]
        unfold tasksLeft
        rw [← i1]
        congr 1
        · apply List.filter_congr; intro n _; simp
        · symm
          rw [List.filter_eq_self]
          intro n hn
          simp only [List.mem_singleton] at hn
          subst hn
          simp only [List.map_append, List.map_cons, List.map_nil, List.mem_append, List.mem_singleton, reduceCtorEq, or_false,
            decide_not, Bool.not_eq_true', decide_eq_false_iff_not]
          intro hm
          exact Nat.lt_irrefl _ (i3 _ hm)
      · intro n hn
        simp only [List.map_append, List.map_cons, List.map_nil, List.mem_append, List.mem_singleton, reduceCtorEq, or_false] at hn
        exact Nat.lt_succ_of_lt (i3 n hn)
      · simp [i4]
      · simp [i5]
      · exact i6
      · intro hp
        obtain ⟨t, d, hm, hd⟩ := i7 hp
        exact ⟨t, d, by simp [hm], hd⟩
      · exact i8
      · simp [i9]
    | taskEnds n =>
      simp only [ShutdownGroup.step] at hs
      split at hs
      case isFalse => cases hs
      rename_i hn
      simp only [Option.some.injEq] at hs
      subst hs
      have hnlt : n < s.next := by
        rw [i2] at hn
        unfold tasksLeft at hn
        rw [← i1] at hn
        exact List.mem_range.1 (List.mem_filter.1 hn).1
      constructor
      · simp [i1, List.countP_append]
      · show s.tasks.erase n = _
        rw [i2, (tasksLeft_nodup es).erase_eq_filter]
        unfold tasksLeft
        rw [List.countP_append, show List.countP (fun x : Nat × ShutdownEvent => decide (x.2 = .spawn)) [(now, .taskEnds n)] = 0 by simp,
          Nat.add_zero, List.filter_filter]
        apply List.filter_congr
        intro m _
        rw [List.map_append, Bool.eq_iff_iff]
        by_cases hm : m = n <;> simp [hm]
      · intro m hm
        simp only [List.map_append, List.map_cons, List.map_nil, List.mem_append, List.mem_singleton,
          ShutdownEvent.taskEnds.injEq] at hm
        rcases hm with hm | rfl
        · exact i3 m hm
        · exact hnlt
      · simp [i4]
      · simp [i5]
      · exact i6
      · intro hp
        obtain ⟨t, d, hm, hd⟩ := i7 hp
        exact ⟨t, d, by simp [hm], hd⟩
      · exact i8
      · simp [i9]
    | shutdown d =>
      simp only [ShutdownGroup.step] at hs
      split at hs
      case isFalse => cases hs
      rename_i hp
      simp only [Option.some.injEq] at hs
      subst hs
      constructor
      · simp [i1, List.countP_append]
      · rw [tasksLeft_snoc_other (by simp) (by simp)]; exact i2
      · intro n hn
        exact i3 n (by simpa using hn)
      · simp [i4]
      · simp
        exact ⟨d, fun _ => rfl⟩
      · simp
      · intro _
        exact ⟨now, d, by simp, rfl⟩
      · intro _
        show s.cancelled = false
        cases hc : s.cancelled with
        | false => rfl
        | true =>
          exfalso
          -- nothing is cancelled before `shutdown` is called
          have : ∀ {es s}, ShutdownRun es s → s.phase = .open → s.cancelled = false := by
            intro es s h
            induction h with
            | init => intro _; rfl
            | @step es s s' now e hr ht hs ih =>
              intro hp
              cases e <;> simp only [ShutdownGroup.step] at hs <;> (try split at hs) <;>
                first
                  | (cases hs; done)
                  | (cases hs; first | exact ih hp | (simp at hp))
          rw [this hr hp] at hc
          cases hc
      · simp only [reduceCtorEq, false_iff]
        intro hm
        have : .rejoined ∈ es.map Prod.snd := by simpa using hm
        rw [← i9, hp] at this
        cases this
    | joined =>
      simp only [ShutdownGroup.step] at hs
      split at hs
      case isFalse => cases hs
      rename_i hp
      simp only [Option.some.injEq] at hs
      subst hs
      have hne : s.phase ≠ .open := by rw [hp.1]; simp
      constructor
      · simp [i1, List.countP_append]
      · rw [tasksLeft_snoc_other (by simp) (by simp)]; exact i2
      · intro n hn
        exact i3 n (by simpa using hn)
      · simp [i4]
      · rw [hp.1] at i5
        simpa using i5
      · intro _; exact hp.2.2
      · intro _
        obtain ⟨t, d, hm, hd⟩ := i7 hne
        exact ⟨t, d, by simp [hm], hd⟩
      · simp
      · rw [hp.1] at i9
        simpa using i9
    | timeout =>
      simp only [ShutdownGroup.step] at hs
      split at hs
      case isFalse => cases hs
      rename_i hp
      simp only [Option.some.injEq] at hs
      subst hs
      have hne : s.phase ≠ .open := by rw [hp.1]; simp
      constructor
      · simp [i1, List.countP_append]
      · rw [tasksLeft_snoc_other (by simp) (by simp)]; exact i2
      · intro n hn
        exact i3 n (by simpa using hn)
      · simp
      · rw [hp.1] at i5
        simpa using i5
      · intro _; exact i6 hne
      · intro _
        obtain ⟨t, d, hm, hd⟩ := i7 hne
        exact ⟨t, d, by simp [hm], hd⟩
      · simp
      · rw [hp.1] at i9
        simpa using i9
    | rejoined =>
      simp only [ShutdownGroup.step] at hs
      split at hs
      case isFalse => cases hs
      rename_i hp
      simp only [Option.some.injEq] at hs
      subst hs
      have hne : s.phase ≠ .open := by rw [hp.1]; simp
      constructor
      · simp [i1, List.countP_append]
      · rw [tasksLeft_snoc_other (by simp) (by simp)]; exact i2
      · intro n hn
        exact i3 n (by simpa using hn)
      · simp [i4]
      · rw [hp.1] at i5
        simpa using i5
      · intro _; exact hp.2.2
      · intro _
        obtain ⟨t, d, hm, hd⟩ := i7 hne
        exact ⟨t, d, by simp [hm], hd⟩
      · simp
      · simp

theorem shutdownRun_snoc {es : List (Nat × ShutdownEvent)} {t : Nat} {e : ShutdownEvent} {s' : ShutdownGroup}
    (h : ShutdownRun (es ++ [(t, e)]) s') : ∃ s, ShutdownRun es s ∧ (∀ x ∈ es, x.1 ≤ t) ∧ s.step t e = some s' := by
  generalize hz : es ++ [(t, e)] = z at h
  cases h with
  | init => simp at hz
  | step hr ht hs =>
    obtain ⟨h1, h2⟩ := List.append_inj' hz rfl
    simp only [List.cons.injEq, Prod.mk.injEq, and_true] at h2
    obtain ⟨rfl, rfl⟩ := h2
    subst h1
    exact ⟨_, hr, ht, hs⟩

/-- **C50.** `shutdown` returns only when every task that was spawned is over. -/
theorem shutdown_returns {es : List (Nat × ShutdownEvent)} {t : Nat} {s : ShutdownGroup}
    (h : ShutdownRun (es ++ [(t, .rejoined)]) s) : tasksLeft es = [] ∧ ∃ t₀ d, (t₀, .shutdown d) ∈ es := by
  obtain ⟨s0, hr, -, hs⟩ := shutdownRun_snoc h
  have hi := shutdown_inv hr
  simp only [ShutdownGroup.step] at hs
  split at hs
  case isFalse => cases hs
  rename_i hp
  obtain ⟨t₀, d, hm, -⟩ := hi.deadline (by rw [hp.1]; simp)
  exact ⟨by rw [← hi.tasks]; exact hp.2.1, t₀, d, hm⟩

/-- **C50.** The tasks are told to stop only if, the whole grace period after `shutdown` was called, some of them are still
running. -/
theorem shutdown_grace {es : List (Nat × ShutdownEvent)} {t : Nat} {s : ShutdownGroup}
    (h : ShutdownRun (es ++ [(t, .timeout)]) s) :
    tasksLeft es ≠ [] ∧ ∃ t₀ d, (t₀, .shutdown d) ∈ es ∧ t₀ + d ≤ t := by
  obtain ⟨s0, hr, -, hs⟩ := shutdownRun_snoc h
  have hi := shutdown_inv hr
  simp only [ShutdownGroup.step] at hs
  split at hs
  case isFalse => cases hs
  rename_i hp
  obtain ⟨t₀, d, hm, hd⟩ := hi.deadline (by rw [hp.1]; simp)
  exact ⟨by rw [← hi.tasks]; exact hp.2.1, t₀, d, hm, by rw [← hd]; exact hp.2.2⟩

/-- **C50.** The tasks are told to stop if and only if the grace period has run out, and then for good: every task that is still
running, and every task that is spawned later, is told to stop. -/
theorem shutdown_cancels {es : List (Nat × ShutdownEvent)} {s : ShutdownGroup} (h : ShutdownRun es s) :
    s.cancelled = true ↔ ∃ t, (t, .timeout) ∈ es :=
  (shutdown_inv h).cancelled

/-- **C50.** `shutdown` never hangs on its own: after it is called, as soon as every task is over it is able to go on, and once
the grace period has run out it goes on to tell the remaining tasks to stop. -/
theorem shutdown_progress {es : List (Nat × ShutdownEvent)} {s : ShutdownGroup} (h : ShutdownRun es s)
    (h1 : ∃ d, ShutdownEvent.shutdown d ∈ es.map Prod.snd) (h2 : .rejoined ∉ es.map Prod.snd) (now : Nat)
    (ht : ∀ x ∈ es, x.1 ≤ now) :
    (tasksLeft es = [] → (∃ s' : ShutdownGroup, ShutdownRun (es ++ [(now, .rejoined)]) s') ∨
      (∃ s' : ShutdownGroup, ShutdownRun (es ++ [(now, .joined), (now, .rejoined)]) s')) ∧
    (tasksLeft es ≠ [] → (∃ t, (t, .timeout) ∈ es) ∨ (∃ t, (t, .joined) ∈ es) ∨
      ∃ t₀ d, (t₀, .shutdown d) ∈ es ∧ (t₀ + d ≤ now → ∃ s' : ShutdownGroup, ShutdownRun (es ++ [(now, .timeout)]) s')) := by
  have hi := shutdown_inv h
  have hno : s.phase ≠ .open := by
    intro hp
    obtain ⟨d, hd⟩ := h1
    exact hi.opened.1 hp d hd
  have hnv : s.phase ≠ .over := fun hp => h2 (hi.over.1 hp)
  have hcl := hi.closed hno
  constructor
  · intro hl
    rw [← hi.tasks] at hl
    cases hp : s.phase with
    | «open» => exact absurd hp hno
    | over => exact absurd hp hnv
    | waiting =>
      left
      exact ⟨_, .step h ht (by simp only [ShutdownGroup.step]; rw [if_pos ⟨hp, hl, hcl⟩])⟩
    | grace =>
      right
      have r1 : ShutdownRun (es ++ [(now, .joined)]) { s with phase := .waiting } :=
        .step h ht (by simp only [ShutdownGroup.step]; rw [if_pos ⟨hp, hl, hcl⟩])
      have r2 : ShutdownRun ((es ++ [(now, .joined)]) ++ [(now, .rejoined)]) { s with phase := .over } :=
        .step r1 (by
          intro x hx
          rw [List.mem_append] at hx
          rcases hx with hx | hx
          · exact ht x hx
          · rw [List.mem_singleton] at hx; subst hx; exact Nat.le_refl _) (by
          simp only [ShutdownGroup.step]; simp [hl, hcl])
      rw [List.append_assoc] at r2
      exact ⟨_, r2⟩
  · intro hl
    rw [← hi.tasks] at hl
    cases hp : s.phase with
    | «open» => exact absurd hp hno
    | over => exact absurd hp hnv
    | waiting =>
      -- waiting is entered by `joined` or by `timeout`
      have : ∀ {es s}, ShutdownRun es s → s.phase = .waiting → (∃ t, (t, .timeout) ∈ es) ∨ (∃ t, (t, .joined) ∈ es) := by
        intro es s h
        induction h with
        | init => intro h; cases h
        | @step es s s' now e hr ht hs ih =>
          intro hp
          have go : s.phase = .waiting → (∃ t, (t, .timeout) ∈ es ++ [(now, e)]) ∨ (∃ t, (t, .joined) ∈ es ++ [(now, e)]) := by
            intro hp'
            rcases ih hp' with ⟨t, h⟩ | ⟨t, h⟩
            · exact .inl ⟨t, by simp [h]⟩
            · exact .inr ⟨t, by simp [h]⟩
          cases e with
          | spawn => simp only [ShutdownGroup.step] at hs; cases hs; exact go hp
          | taskEnds n =>
            simp only [ShutdownGroup.step] at hs
            split at hs
            · cases hs; exact go hp
            · cases hs
          | shutdown d =>
            simp only [ShutdownGroup.step] at hs
            split at hs
            · cases hs; cases hp
            · cases hs
          | joined => exact .inr ⟨now, by simp⟩
          | timeout => exact .inl ⟨now, by simp⟩
          | rejoined =>
            simp only [ShutdownGroup.step] at hs
            split at hs
            · cases hs; cases hp
            · cases hs
      rcases this h hp with h | h
      · exact .inl h
      · exact .inr (.inl h)
    | grace =>
      right; right
      obtain ⟨t₀, d, hm, hd⟩ := hi.deadline hno
      refine ⟨t₀, d, hm, fun hle => ⟨_, .step h ht (?_ : _ = some { s with cancelled := true, phase := .waiting })⟩⟩
      simp only [ShutdownGroup.step]
      rw [if_pos ⟨hp, hl, by omega⟩]

-- two tasks; one ends within the grace period, the other has to be told to stop
example : ∃ s : ShutdownGroup, ShutdownRun ([(0, .spawn), (1, .spawn), (5, .shutdown 3), (6, .taskEnds 0), (8, .timeout),
    (9, .taskEnds 1)] ++ [(9, .rejoined)]) s :=
  ⟨_, .step (.step (.step (.step (.step (.step (.step .init (by simp) rfl) (by simp) rfl) (by simp) rfl) (by simp) rfl) (by simp)
    rfl) (by simp) rfl) (by simp) rfl⟩

-- nothing left: returns at once, nothing cancelled
example : ∃ s : ShutdownGroup, ShutdownRun [(0, .spawn), (1, .taskEnds 0), (5, .shutdown 3), (5, .joined), (5, .rejoined)] s ∧
    s.cancelled = false :=
  ⟨_, .step (.step (.step (.step (.step .init (by simp) rfl) (by simp) rfl) (by simp) rfl) (by simp) rfl) (by simp) rfl, rfl⟩

end Demag.Props
