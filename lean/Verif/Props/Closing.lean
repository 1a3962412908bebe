import Verif.Spec.Closing
import Mathlib.Data.List.Induction
import Verif.Props.TrackerSession

/-!
# C100: the end of the program
-/

namespace Demag.Props

open Demag Spec

section
variable {T ε : Type} {grace : Nat}

theorem asked_snoc (n : Nat) (tr : ClosingTrace T ε) (x : Nat × ClosingEvent T ε × List (GetterOutput ε)) :
    asked n (tr ++ [x]) = asked n tr ++ asked n [x] := by simp [asked]
theorem begun_snoc (tr : ClosingTrace T ε) (x : Nat × ClosingEvent T ε × List (GetterOutput ε)) : askBegun (tr ++ [x]) = askBegun tr ++ askBegun [x] := by
  simp [askBegun]

/-- The tasks left in the group are those of askings. -/
structure TasksInv (as : List (Asking T)) (g : ShutdownGroup) : Prop where
  spawned : ∀ (n : Nat) (a : Asking T), as[n]? = some a → (a.task = none ↔ a.state.task = .absent)
  left : ∀ i : Nat, i ∈ g.tasks ↔ ∃ (n : Nat) (a : Asking T), as[n]? = some a ∧ a.task = some i ∧ a.state.task ≠ .over
  one : ∀ (n m : Nat) (a b : Asking T) (i : Nat), as[n]? = some a → as[m]? = some b → a.task = some i → b.task = some i → n = m
  below : ∀ (n : Nat) (a : Asking T) (i : Nat), as[n]? = some a → a.task = some i → i < g.next
  nodup : g.tasks.Nodup

/-- `shutdown` and the times. -/
structure GroupInv (grace : Nat) (tr : ClosingTrace T ε) (g : ShutdownGroup) : Prop where
  opened : g.phase = .open → g.cancelled = false ∧ (∀ now, ¬ CommandEnded tr now) ∧ ¬ Exited tr
  called : g.phase ≠ .open → g.closed = true ∧ ∃ now, (∀ t, CommandEnded tr t ↔ t = now) ∧ g.deadline = now + grace
  inGrace : g.phase = .grace → g.cancelled = false ∧ ¬ Exited tr
  waiting : g.phase = .waiting → ¬ Exited tr
  over : g.phase = .over → Exited tr
  given : ∀ n now, GivenUp tr n now → ∃ t, CommandEnded tr t ∧ t + grace ≤ now
  cancelled : g.cancelled = true → ∃ t c, CommandEnded tr t ∧ t + grace ≤ c ∧ ∃ x ∈ tr, x.1 = c

structure ClosingInv (grace : Nat) (tr : ClosingTrace T ε) (s : Closing T) : Prop where
  askBegun : s.askings.map (fun a => (a.tracker, a.ctx)) = askBegun tr
  runs : ∀ (n : Nat) (a : Asking T), s.askings[n]? = some a → GetterRun a.ctx (asked n tr) a.state
  unasked : ∀ n : Nat, s.askings[n]? = none → asked n tr = []
  tasks : TasksInv s.askings s.group
  group : GroupInv grace tr s.group

theorem getter_task {c : GetterCtx} {tr : GetterTrace ε} {s s' : GetterState} {e : GetterEvent ε} {out : List (GetterOutput ε)}
    (h : GetterRun c tr s) (hs : s.step c e = some (s', out)) :
    (s.task = .absent → s'.task = .absent ∨ s'.task = .spawned) ∧ (s.task ≠ .absent → s'.task ≠ .absent) ∧ (s.task = .over → s'.task = .over) := by
  have hi := getter_inv h
  cases e <;> simp only [GetterState.step] at hs <;> split at hs <;> cases hs <;> rename_i hp <;> simp_all
  case startOk => have := (hi.starting hp).1; simp [this]
  all_goals (rcases hp with hp | hp <;> simp [hp])

theorem follow_some {g g' : ShutdownGroup} {now : Nat} {task task' : Option Nat} {b a : StopTask} :
    g.follow now task b a = some (g', task') ↔
      (b = .absent ∧ a ≠ .absent ∧ g' = { g with tasks := g.tasks ++ [g.next], next := g.next + 1 } ∧ task' = some g.next) ∨
      (¬ (b = .absent ∧ a ≠ .absent) ∧ b ≠ .over ∧ a = .over ∧ ∃ i, task = some i ∧ i ∈ g.tasks ∧ g' = { g with tasks := g.tasks.erase i } ∧ task' = task) ∨
      (¬ (b = .absent ∧ a ≠ .absent) ∧ ¬ (b ≠ .over ∧ a = .over) ∧ g' = g ∧ task' = task) := by
  unfold ShutdownGroup.follow
  by_cases h1 : b = .absent ∧ a ≠ .absent
  · simp only [h1, ShutdownGroup.step, ne_eq, not_false_eq_true, and_self, if_true, Option.map_some, Option.some.injEq, Prod.mk.injEq, true_and, not_true_eq_false,
      false_and, or_false]
    constructor
    · rintro ⟨rfl, rfl⟩; exact ⟨rfl, rfl⟩
    · rintro ⟨rfl, rfl⟩; exact ⟨rfl, rfl⟩
  · by_cases h2 : b ≠ .over ∧ a = .over
    · simp only [if_neg h1, if_pos h2]
      cases task with
      | none => simp [h2]; intro h; simp [h, h2.2] at h1
      | some i =>
        simp only [ShutdownGroup.step]
        by_cases hi : i ∈ g.tasks
        · simp only [hi, if_true, Option.map_some, Option.some.injEq, Prod.mk.injEq]
          constructor
          · rintro ⟨rfl, rfl⟩; exact .inr (.inl ⟨h1, h2.1, h2.2, i, rfl, hi, rfl, rfl⟩)
          · rintro (⟨x, y, -⟩ | ⟨-, -, -, j, hj, -, rfl, rfl⟩ | ⟨-, x, -⟩)
            · exact absurd ⟨x, y⟩ h1
            · cases hj; exact ⟨rfl, rfl⟩
            · exact absurd h2 x
        · simp only [hi, if_false, Option.map_none, reduceCtorEq, false_iff]
          rintro (⟨x, y, -⟩ | ⟨-, -, -, j, hj, hm, -⟩ | ⟨-, x, -⟩)
          · exact h1 ⟨x, y⟩
          · cases hj; exact hi hm
          · exact x h2
    · simp only [if_neg h1, if_neg h2, Option.some.injEq, Prod.mk.injEq]
      constructor
      · rintro ⟨rfl, rfl⟩; exact .inr (.inr ⟨h1, h2, rfl, rfl⟩)
      · rintro (⟨x, y, -⟩ | ⟨-, x, y, -⟩ | ⟨-, -, rfl, rfl⟩)
        · exact absurd ⟨x, y⟩ h1
        · exact absurd ⟨x, y⟩ h2
        · exact ⟨rfl, rfl⟩

theorem tasks_follow {as : List (Asking T)} {g g' : ShutdownGroup} {now n : Nat} {a : Asking T} {tr : GetterTrace ε} {st : GetterState} {e : GetterEvent ε}
    {out : List (GetterOutput ε)} {task : Option Nat} (h : TasksInv as g) (ha : as[n]? = some a) (hr : GetterRun a.ctx tr a.state)
    (hs : a.state.step a.ctx e = some (st, out)) (hf : g.follow now a.task a.state.task st.task = some (g', task)) :
    TasksInv (as.set n { a with state := st, task := task }) g' := by
  obtain ⟨t1, t2, t3⟩ := getter_task hr hs
  obtain ⟨i1, i2, i3, i4, i5⟩ := h
  have hn : n < as.length := (List.getElem?_eq_some_iff.1 ha).1
  have get : ∀ m, (as.set n { a with state := st, task := task })[m]? = if m = n then some { a with state := st, task := task } else as[m]? := by
    intro m
    rw [List.getElem?_set]
    by_cases hm : n = m
    · subst hm; simp [hn]
    · simp [hm, Ne.symm hm]
  rw [follow_some] at hf
  rcases hf with ⟨hb, hc, rfl, rfl⟩ | ⟨hx, hb, hc, i, hi, him, rfl, rfl⟩ | ⟨hx, hy, rfl, rfl⟩
  · have hsp : st.task = .spawned := by rcases t1 hb with h | h; exact absurd h hc; exact h
    refine ⟨?_, ?_, ?_, ?_, ?_⟩
    · intro m b hm
      rw [get] at hm
      split at hm
      · cases hm; simp [hsp]
      · exact i1 m b hm
    · intro i
      simp only [List.mem_append, List.mem_singleton]
      constructor
      · rintro (hi | rfl)
        · obtain ⟨m, b, h1, h2, h3⟩ := (i2 i).1 hi
          have hmn : m ≠ n := by rintro rfl; rw [ha] at h1; cases h1; rw [(i1 m a ha).2 hb] at h2; cases h2
          exact ⟨m, b, by rw [get, if_neg hmn]; exact h1, h2, h3⟩
        · exact ⟨n, _, by rw [get, if_pos rfl], rfl, by simp [hsp]⟩
      · rintro ⟨m, b, h1, h2, h3⟩
        rw [get] at h1
        split at h1
        · cases h1; cases h2; exact .inr rfl
        · exact .inl ((i2 i).2 ⟨m, b, h1, h2, h3⟩)
    · intro m k b c i hm hk hb' hc'
      rw [get] at hm hk
      split at hm <;> split at hk
      · simp_all
      · cases hm; cases hb'; exact absurd (i4 _ _ _ hk hc') (Nat.lt_irrefl _)
      · cases hk; cases hc'; exact absurd (i4 _ _ _ hm hb') (Nat.lt_irrefl _)
      · exact i3 m k b c i hm hk hb' hc'
    · intro m b i hm hb'
      rw [get] at hm
      show i < g.next + 1
      split at hm
      · cases hm; cases hb'; omega
      · have := i4 m b i hm hb'; omega
    · show (g.tasks ++ [g.next]).Nodup
      rw [List.nodup_append]
      refine ⟨i5, by simp, ?_⟩
      intro x hx y hy
      simp only [List.mem_singleton] at hy
      subst hy
      obtain ⟨m, b, h1, h2, -⟩ := (i2 x).1 hx
      have := i4 m b x h1 h2
      omega
  · have hab : a.state.task ≠ .absent := by intro h; exact hx ⟨h, by simp [hc]⟩
    refine ⟨?_, ?_, ?_, ?_, ?_⟩
    · intro m b hm
      rw [get] at hm
      split at hm
      · cases hm; simp [hi, hc]
      · exact i1 m b hm
    · intro j
      rw [i5.mem_erase_iff]
      constructor
      · rintro ⟨hj, hjm⟩
        obtain ⟨m, b, h1, h2, h3⟩ := (i2 j).1 hjm
        have hmn : m ≠ n := by rintro rfl; rw [ha] at h1; cases h1; rw [hi] at h2; cases h2; exact hj rfl
        exact ⟨m, b, by rw [get, if_neg hmn]; exact h1, h2, h3⟩
      · rintro ⟨m, b, h1, h2, h3⟩
        rw [get] at h1
        split at h1
        · cases h1; exact absurd hc h3
        · rename_i hmn
          exact ⟨by rintro rfl; exact hmn (i3 m n b a j h1 ha h2 hi), (i2 j).2 ⟨m, b, h1, h2, h3⟩⟩
    · intro m k b c j hm hk hb' hc'
      rw [get] at hm hk
      split at hm <;> split at hk
      · simp_all
      · cases hm; rename_i hmn _; subst hmn; exact i3 _ k a c j ha hk hb' hc'
      · cases hk; rename_i hkn; subst hkn; exact i3 m _ b a j hm ha hb' hc'
      · exact i3 m k b c j hm hk hb' hc'
    · intro m b j hm hb'
      rw [get] at hm
      split at hm
      · cases hm; exact i4 n a j ha hb'
      · exact i4 m b j hm hb'
    · exact i5.erase _
  · have habs : a.state.task = .absent ↔ st.task = .absent := by
      constructor
      · intro h; by_contra hc; exact hx ⟨h, hc⟩
      · intro h; by_contra hc; exact t2 hc h
    have hov : a.state.task = .over ↔ st.task = .over := by
      constructor
      · exact t3
      · intro h; by_contra hc; exact hy ⟨hc, h⟩
    refine ⟨?_, ?_, ?_, ?_, i5⟩
    · intro m b hm
      rw [get] at hm
      split at hm
      · cases hm; exact (i1 n a ha).trans habs
      · exact i1 m b hm
    · intro j
      rw [i2]
      constructor
      · rintro ⟨m, b, h1, h2, h3⟩
        by_cases hmn : m = n
        · subst hmn; rw [ha] at h1; cases h1
          exact ⟨m, { a with state := st, task := a.task }, by rw [get, if_pos rfl], h2, fun h => h3 (hov.2 h)⟩
        · exact ⟨m, b, by rw [get, if_neg hmn]; exact h1, h2, h3⟩
      · rintro ⟨m, b, h1, h2, h3⟩
        rw [get] at h1
        split at h1
        · cases h1; exact ⟨n, a, ha, h2, fun h => h3 (hov.1 h)⟩
        · exact ⟨m, b, h1, h2, h3⟩
    · intro m k b c j hm hk hb' hc'
      rw [get] at hm hk
      split at hm <;> split at hk
      · simp_all
      · cases hm; rename_i hmn _; subst hmn; exact i3 _ k a c j ha hk hb' hc'
      · cases hk; rename_i hkn; subst hkn; exact i3 m _ b a j hm ha hb' hc'
      · exact i3 m k b c j hm hk hb' hc'
    · intro m b j hm hb'
      rw [get] at hm
      split at hm
      · cases hm; exact i4 n a j ha hb'
      · exact i4 m b j hm hb'

theorem follow_keeps {g g' : ShutdownGroup} {now : Nat} {task task' : Option Nat} {b a : StopTask} (h : g.follow now task b a = some (g', task')) :
    g'.phase = g.phase ∧ g'.cancelled = g.cancelled ∧ g'.closed = g.closed ∧ g'.deadline = g.deadline := by
  rw [follow_some] at h
  rcases h with ⟨-, -, rfl, -⟩ | ⟨-, -, -, i, -, -, rfl, -⟩ | ⟨-, -, rfl, -⟩ <;> exact ⟨rfl, rfl, rfl, rfl⟩

theorem commandEnded_snoc {tr : ClosingTrace T ε} {x : Nat × ClosingEvent T ε × List (GetterOutput ε)} {t : Nat} :
    CommandEnded (tr ++ [x]) t ↔ CommandEnded tr t ∨ CommandEnded [x] t := by
  simp only [CommandEnded, List.mem_append, exists_or]

theorem exited_snoc {tr : ClosingTrace T ε} {x : Nat × ClosingEvent T ε × List (GetterOutput ε)} : Exited (tr ++ [x]) ↔ Exited tr ∨ Exited [x] := by
  simp only [Exited, List.mem_append, exists_or]

theorem givenUp_snoc {tr : ClosingTrace T ε} {x : Nat × ClosingEvent T ε × List (GetterOutput ε)} {n t : Nat} :
    GivenUp (tr ++ [x]) n t ↔ GivenUp tr n t ∨ GivenUp [x] n t := by
  simp only [GivenUp, List.mem_append, exists_or]

/-- Events that leave `shutdown` as it is. -/
theorem group_keeps {tr : ClosingTrace T ε} {x : Nat × ClosingEvent T ε × List (GetterOutput ε)} {g g' : ShutdownGroup} (h : GroupInv grace tr g)
    (h1 : g'.phase = g.phase) (h2 : g'.cancelled = g.cancelled) (h3 : g'.closed = g.closed) (h4 : g'.deadline = g.deadline)
    (hc : ∀ t, ¬ CommandEnded [x] t) (hx : ¬ Exited [x]) (hg : ∀ n t, GivenUp [x] n t → ∃ c, CommandEnded tr c ∧ c + grace ≤ t) :
    GroupInv grace (tr ++ [x]) g' := by
  obtain ⟨i1, i2, i3, i4, i5, i6, i7⟩ := h
  have ec : ∀ t, CommandEnded (tr ++ [x]) t ↔ CommandEnded tr t := fun t => by rw [commandEnded_snoc]; simp [hc]
  have ee : Exited (tr ++ [x]) ↔ Exited tr := by rw [exited_snoc]; simp [hx]
  refine ⟨?_, ?_, ?_, ?_, ?_, ?_, ?_⟩
  · rw [h1, h2, ee]; intro h; simp only [ec]; exact i1 h
  · rw [h1, h3, h4]; intro h; simp only [ec]; exact i2 h
  · rw [h1, h2, ee]; exact i3
  · rw [h1, ee]; exact i4
  · rw [h1, ee]; exact i5
  · intro n t hh
    simp only [ec]
    rw [givenUp_snoc] at hh
    rcases hh with hh | hh
    · exact i6 n t hh
    · exact hg n t hh
  · rw [h2]; intro h; simp only [ec]
    obtain ⟨t, c, j1, j2, y, hy, rfl⟩ := i7 h
    exact ⟨t, _, j1, j2, y, by simp [hy], rfl⟩

theorem closing_inv {tr : ClosingTrace T ε} {s : Closing T} (h : ClosingRun grace tr s) : ClosingInv grace tr s := by
  induction h with
  | init =>
    refine ⟨rfl, by simp, by simp [asked], ⟨by simp, by simp, by simp, by simp, by simp⟩, ⟨?_, ?_, ?_, ?_, ?_, ?_, ?_⟩⟩
    · intro _; exact ⟨rfl, by simp [CommandEnded], by simp [Exited]⟩
    · intro h; exact absurd rfl h
    all_goals simp [GivenUp]
  | @step tr s s' now e out hr ht hs ih =>
    obtain ⟨i1, i2, i3, i4, i5⟩ := ih
    cases e with
    | begins t c =>
      simp only [Closing.step, Option.some.injEq, Prod.mk.injEq] at hs
      obtain ⟨rfl, rfl⟩ := hs
      have ha : ∀ n, asked n [(now, ClosingEvent.begins t c, ([] : List (GetterOutput ε)))] = [] := fun n => rfl
      refine ⟨?_, ?_, ?_, ?_, ?_⟩
      · rw [begun_snoc, ← i1]; simp [askBegun]
      · intro n a hn
        rw [asked_snoc, ha, List.append_nil]
        simp only at hn
        rw [List.getElem?_append] at hn
        split at hn
        · exact i2 n a hn
        · rename_i hl
          have : asked n tr = [] := i3 n (by simp; omega)
          rw [this]
          by_cases h0 : n - s.askings.length = 0
          · rw [h0] at hn; cases hn; exact .init
          · rw [List.getElem?_eq_none (by simp; omega)] at hn; cases hn
      · intro n hn
        rw [asked_snoc, ha, List.append_nil]
        simp only [List.getElem?_eq_none_iff, List.length_append, List.length_singleton] at hn
        exact i3 n (by simp; omega)
      · obtain ⟨j1, j2, j3, j4, j5⟩ := i4
        have get : ∀ (n : Nat) (a : Asking T), (s.askings ++ [⟨t, c, .init, none⟩])[n]? = some a → s.askings[n]? = some a ∨ (a = ⟨t, c, .init, none⟩) := by
          intro n a hn
          rw [List.getElem?_append] at hn
          split at hn
          · exact .inl hn
          · have := List.mem_of_getElem? hn
            simp only [List.mem_singleton] at this
            exact .inr this
        have put : ∀ (n : Nat) (a : Asking T), s.askings[n]? = some a → (s.askings ++ [⟨t, c, .init, none⟩])[n]? = some a := by
          intro n a hn
          rw [List.getElem?_append_left (List.getElem?_eq_some_iff.1 hn).1]; exact hn
        refine ⟨?_, ?_, ?_, ?_, j5⟩
        · intro n a hn
          rcases get n a hn with h | rfl
          · exact j1 n a h
          · simp [GetterState.init]
        · intro i
          rw [j2]
          constructor
          · rintro ⟨n, a, h1, h2⟩; exact ⟨n, a, put n a h1, h2⟩
          · rintro ⟨n, a, h1, h2⟩
            rcases get n a h1 with h | rfl
            · exact ⟨n, a, h, h2⟩
            · cases h2.1
        · intro n m a b i hn hm ha' hb'
          rcases get n a hn with h | rfl
          · rcases get m b hm with h' | rfl
            · exact j3 n m a b i h h' ha' hb'
            · cases hb'
          · cases ha'
        · intro n a i hn ha'
          rcases get n a hn with h | rfl
          · exact j4 n a i h ha'
          · cases ha'
      · exact group_keeps i5 rfl rfl rfl rfl (by simp [CommandEnded]) (by simp [Exited]) (by simp [GivenUp])
    | asking n e =>
      simp only [Closing.step] at hs
      cases ha : s.askings[n]? with
      | none => rw [ha] at hs; cases hs
      | some a =>
        rw [ha] at hs
        simp only at hs
        split at hs
        · cases hs
        rename_i hcan
        cases hst : a.state.step a.ctx e with
        | none => rw [hst] at hs; cases hs
        | some p =>
          obtain ⟨st, o⟩ := p
          rw [hst] at hs
          simp only at hs
          cases hf : s.group.follow now a.task a.state.task st.task with
          | none => rw [hf] at hs; cases hs
          | some q =>
            obtain ⟨g, task⟩ := q
            rw [hf] at hs
            simp only [Option.some.injEq, Prod.mk.injEq] at hs
            obtain ⟨rfl, rfl⟩ := hs
            have hn : n < s.askings.length := (List.getElem?_eq_some_iff.1 ha).1
            obtain ⟨k1, k2, k3, k4⟩ := follow_keeps hf
            refine ⟨?_, ?_, ?_, tasks_follow i4 ha (i2 n a ha) hst hf, ?_⟩
            · rw [begun_snoc, ← i1]
              show (s.askings.set n _).map _ = _ ++ []
              rw [List.append_nil, List.map_set]
              apply List.ext_getElem?
              intro m
              rw [List.getElem?_set]
              split
              · rename_i hm; subst hm
                rw [List.getElem?_map, ha]
                simp [hn]
              · rfl
            · intro m b hm
              simp only at hm
              rw [List.getElem?_set] at hm
              rw [asked_snoc]
              split at hm
              · rename_i hnm; subst hnm
                simp only [hn, if_true, Option.some.injEq] at hm
                subst hm
                have : asked n [(now, ClosingEvent.asking (T := T) n e, o)] = [(e, o)] := by simp [asked]
                rw [this]
                exact .step (i2 n a ha) hst
              · rename_i hnm
                have : asked m [(now, ClosingEvent.asking (T := T) n e, o)] = [] := by simp [asked, hnm]
                rw [this, List.append_nil]
                exact i2 m b hm
            · intro m hm
              simp only [List.getElem?_eq_none_iff, List.length_set] at hm
              have hnm : n ≠ m := by omega
              have : asked m [(now, ClosingEvent.asking (T := T) n e, o)] = [] := by simp [asked, hnm]
              rw [asked_snoc, this, List.append_nil]
              exact i3 m (by simpa using hm)
            · refine group_keeps i5 k1 k2 k3 k4 (by simp [CommandEnded]) (by simp [Exited]) ?_
              rintro m t ⟨o', hm⟩
              simp only [List.mem_singleton, Prod.mk.injEq, ClosingEvent.asking.injEq] at hm
              obtain ⟨rfl, ⟨rfl, rfl⟩, rfl⟩ := hm
              have hc : s.group.cancelled = true := by simpa [GetterEvent.isCancel] using hcan
              obtain ⟨c0, c1, j1, j2, y, hy, rfl⟩ := i5.cancelled hc
              exact ⟨c0, j1, Nat.le_trans j2 (ht y hy)⟩
    | commandEnds =>
      simp only [Closing.step, ShutdownGroup.step] at hs
      split at hs <;> cases hs
      rename_i hp
      refine ⟨?_, ?_, ?_, ?_, ?_⟩
      · rw [begun_snoc]; simpa [askBegun] using i1
      · intro n a hn; rw [asked_snoc]; simpa [asked] using i2 n a hn
      · intro n hn; rw [asked_snoc]; simpa [asked] using i3 n hn
      · obtain ⟨j1, j2, j3, j4, j5⟩ := i4; exact ⟨j1, j2, j3, j4, j5⟩
      · obtain ⟨j1, j2, j3, j4, j5, j6, j7⟩ := i5
        obtain ⟨l1, l2, l3⟩ := j1 hp
        refine ⟨by simp, ?_, ?_, by simp, by simp, ?_, ?_⟩
        · intro _
          refine ⟨rfl, now, ?_, rfl⟩
          intro t
          rw [commandEnded_snoc]
          simp only [l2, false_or]
          simp [CommandEnded]
        · intro _
          refine ⟨l1, ?_⟩
          rw [exited_snoc]; simp only [l3, false_or]; simp [Exited]
        · intro n t hg
          rw [givenUp_snoc] at hg
          rcases hg with hg | hg
          · obtain ⟨t', ht', -⟩ := j6 n t hg; exact absurd ht' (l2 t')
          · simp [GivenUp] at hg
        · intro hc
          simp only at hc
          rw [l1] at hc; cases hc
    | joined =>
      simp only [Closing.step, ShutdownGroup.step] at hs
      split at hs <;> cases hs
      rename_i hp
      refine ⟨?_, ?_, ?_, ?_, ?_⟩
      · rw [begun_snoc]; simpa [askBegun] using i1
      · intro n a hn; rw [asked_snoc]; simpa [asked] using i2 n a hn
      · intro n hn; rw [asked_snoc]; simpa [asked] using i3 n hn
      · obtain ⟨j1, j2, j3, j4, j5⟩ := i4; exact ⟨j1, j2, j3, j4, j5⟩
      · obtain ⟨j1, j2, j3, j4, j5, j6, j7⟩ := i5
        have ec : ∀ t, CommandEnded (tr ++ [(now, .joined, [])]) t ↔ CommandEnded tr t := fun t => by rw [commandEnded_snoc]; simp [CommandEnded]
        refine ⟨by simp, ?_, by simp, ?_, by simp, ?_, ?_⟩
        · intro _; simp only [ec]; exact j2 (by simp [hp.1])
        · intro _; rw [exited_snoc]; simp only [(j3 hp.1).2, false_or]; simp [Exited]
        · intro n t hg
          rw [givenUp_snoc] at hg
          simp only [ec]
          rcases hg with hg | hg
          · exact j6 n t hg
          · simp [GivenUp] at hg
        · intro hc
          simp only at hc
          rw [(j3 hp.1).1] at hc; cases hc
    | timeout =>
      simp only [Closing.step, ShutdownGroup.step] at hs
      split at hs <;> cases hs
      rename_i hp
      refine ⟨?_, ?_, ?_, ?_, ?_⟩
      · rw [begun_snoc]; simpa [askBegun] using i1
      · intro n a hn; rw [asked_snoc]; simpa [asked] using i2 n a hn
      · intro n hn; rw [asked_snoc]; simpa [asked] using i3 n hn
      · obtain ⟨j1, j2, j3, j4, j5⟩ := i4; exact ⟨j1, j2, j3, j4, j5⟩
      · obtain ⟨j1, j2, j3, j4, j5, j6, j7⟩ := i5
        have ec : ∀ t, CommandEnded (tr ++ [(now, .timeout, [])]) t ↔ CommandEnded tr t := fun t => by rw [commandEnded_snoc]; simp [CommandEnded]
        refine ⟨by simp, ?_, by simp, ?_, by simp, ?_, ?_⟩
        · intro _; simp only [ec]; exact j2 (by simp [hp.1])
        · intro _; rw [exited_snoc]; simp only [(j3 hp.1).2, false_or]; simp [Exited]
        · intro n t hg
          rw [givenUp_snoc] at hg
          simp only [ec]
          rcases hg with hg | hg
          · exact j6 n t hg
          · simp [GivenUp] at hg
        · intro _
          simp only [ec]
          obtain ⟨-, t, h1, h2⟩ := j2 (by simp [hp.1])
          exact ⟨t, now, (h1 t).2 rfl, h2 ▸ hp.2.2, (now, .timeout, []), by simp, rfl⟩
    | rejoined =>
      simp only [Closing.step, ShutdownGroup.step] at hs
      split at hs <;> cases hs
      rename_i hp
      refine ⟨?_, ?_, ?_, ?_, ?_⟩
      · rw [begun_snoc]; simpa [askBegun] using i1
      · intro n a hn; rw [asked_snoc]; simpa [asked] using i2 n a hn
      · intro n hn; rw [asked_snoc]; simpa [asked] using i3 n hn
      · obtain ⟨j1, j2, j3, j4, j5⟩ := i4; exact ⟨j1, j2, j3, j4, j5⟩
      · obtain ⟨j1, j2, j3, j4, j5, j6, j7⟩ := i5
        have ec : ∀ t, CommandEnded (tr ++ [(now, .rejoined, [])]) t ↔ CommandEnded tr t := fun t => by rw [commandEnded_snoc]; simp [CommandEnded]
        refine ⟨by simp, ?_, by simp, by simp, ?_, ?_, ?_⟩
        · intro _; simp only [ec]; exact j2 (by simp [hp.1])
        · intro _; exact ⟨now, [], by simp⟩
        · intro n t hg
          rw [givenUp_snoc] at hg
          simp only [ec]
          rcases hg with hg | hg
          · exact j6 n t hg
          · simp [GivenUp] at hg
        · intro hc
          simp only [ec]
          obtain ⟨t, c, l1, l2, y, hy, rfl⟩ := j7 hc
          exact ⟨t, _, l1, l2, y, by simp [hy], rfl⟩

/-- **C100.** What happens with each tracker is what happens when it is asked alone: C49 holds of it. -/
theorem closing_alone {tr : ClosingTrace T ε} {s : Closing T} (h : ClosingRun grace tr s) {n : Nat} {t : T} {c : GetterCtx}
    (hn : (askBegun tr)[n]? = some (t, c)) : ∃ st, GetterRun c (asked n tr) st := by
  have hi := closing_inv h
  rw [← hi.askBegun, List.getElem?_map, Option.map_eq_some_iff] at hn
  obtain ⟨a, ha, hc⟩ := hn
  cases hc
  exact ⟨_, hi.runs n a ha⟩

theorem getter_over {c : GetterCtx} {tr : GetterTrace ε} {s : GetterState} (h : GetterRun c tr s) (ht : s.task = .over) :
    GetterEvent.stopCancelled ∈ happened tr ∨ (∃ r, GetterEvent.stopOk r ∈ happened tr) ∨ ∃ e, GetterEvent.stopErr e ∈ happened tr := by
  induction h with
  | init => cases ht
  | @step tr s e s' out hr hs ih =>
    simp only [happened_snoc, List.mem_append, List.mem_singleton]
    have old : s.task = .over → (GetterEvent.stopCancelled ∈ happened tr ∨ GetterEvent.stopCancelled = e) ∨
        (∃ r, GetterEvent.stopOk r ∈ happened tr ∨ GetterEvent.stopOk r = e) ∨ ∃ x, GetterEvent.stopErr x ∈ happened tr ∨ GetterEvent.stopErr x = e := by
      intro ho
      rcases ih ho with h | ⟨r, h⟩ | ⟨x, h⟩
      · exact .inl (.inl h)
      · exact .inr (.inl ⟨r, .inl h⟩)
      · exact .inr (.inr ⟨x, .inl h⟩)
    cases e with
    | stopCancelled => exact .inl (.inr rfl)
    | stopOk r => exact .inr (.inl ⟨r, .inr rfl⟩)
    | stopErr x => exact .inr (.inr ⟨x, .inr rfl⟩)
    | startOk r => simp only [GetterState.step] at hs; split at hs <;> cases hs; cases ht
    | stopScheduled => simp only [GetterState.step] at hs; split at hs <;> cases hs; cases ht
    | _ => simp only [GetterState.step] at hs; split at hs <;> cases hs; exact old ht

theorem happened_asked {tr : ClosingTrace T ε} {n : Nat} {e : GetterEvent ε} (h : e ∈ happened (asked n tr)) :
    ∃ now out, (now, ClosingEvent.asking n e, out) ∈ tr := by
  simp only [happened, asked, List.mem_map, List.mem_filterMap] at h
  obtain ⟨y, ⟨x, hx, hy⟩, rfl⟩ := h
  obtain ⟨now, e', out⟩ := x
  cases e' with
  | asking k e =>
    simp only at hy
    split at hy <;> cases hy
    rename_i hk; subst hk
    exact ⟨now, out, hx⟩
  | _ => cases hy

theorem gavePeers_task {tr : ClosingTrace T ε} {s : Closing T} (hi : ClosingInv grace tr s) {n : Nat} (hg : GavePeers tr n) :
    ∃ a, s.askings[n]? = some a ∧ a.state.task ≠ .absent := by
  obtain ⟨ps, hps⟩ := hg
  cases ha : s.askings[n]? with
  | none => rw [hi.unasked n ha] at hps; cases hps
  | some a =>
    refine ⟨a, rfl, fun h => ?_⟩
    exact ((getter_inv (hi.runs n a ha)).absent h).2.2.2 ps hps

theorem over_told {tr : ClosingTrace T ε} {s : Closing T} (hi : ClosingInv grace tr s) {n : Nat} {a : Asking T} (ha : s.askings[n]? = some a)
    (ho : a.state.task = .over) : ToldStop tr n a.ctx ∨ ∃ g, GivenUp tr n g := by
  have hr := hi.runs n a ha
  by_cases hc : GetterEvent.stopCancelled ∈ happened (asked n tr)
  · obtain ⟨now, out, hm⟩ := happened_asked hc
    exact .inr ⟨now, out, hm⟩
  · refine .inl ⟨?_, (getter_over hr ho).resolve_left hc⟩
    rcases ((getter_inv hr).over ho).2.2 with h | h
    · exact h.2
    · exact absurd h.2.1 hc

/-- **C100.** When the program exits every tracker that has given peers has been told that we have stopped, and it has answered or telling it has
failed; or this was given up, but not before the time for it was over. -/
theorem closing_told {tr : ClosingTrace T ε} {s : Closing T} {now : Nat} {out : List (GetterOutput ε)}
    (h : ClosingRun grace (tr ++ [(now, .rejoined, out)]) s) {n : Nat} (hg : GavePeers tr n) :
    ∃ t c, (askBegun tr)[n]? = some (t, c) ∧
      (ToldStop tr n c ∨ ∃ g t0, GivenUp tr n g ∧ CommandEnded tr t0 ∧ t0 + grace ≤ g ∧ g ≤ now) := by
  generalize htr : tr ++ [(now, ClosingEvent.rejoined, out)] = tr' at h
  cases h with
  | init => simp at htr
  | @step tr1 s1 _ now' e out' hr ht hs =>
    obtain ⟨rfl, hx⟩ := List.append_inj' htr rfl
    simp only [List.cons.injEq, Prod.mk.injEq, and_true] at hx
    obtain ⟨rfl, rfl, rfl⟩ := hx
    have hi := closing_inv hr
    obtain ⟨a, ha, hab⟩ := gavePeers_task hi hg
    simp only [Closing.step, ShutdownGroup.step] at hs
    split at hs <;> cases hs
    rename_i hp
    have hov : a.state.task = .over := by
      by_contra hno
      have : a.task ≠ none := fun h => hab ((hi.tasks.spawned n a ha).1 h)
      obtain ⟨i, hti⟩ := Option.ne_none_iff_exists'.1 this
      have := (hi.tasks.left i).2 ⟨n, a, ha, hti, hno⟩
      rw [hp.2.1] at this
      cases this
    refine ⟨a.tracker, a.ctx, by rw [← hi.askBegun, List.getElem?_map, ha]; rfl, ?_⟩
    rcases over_told hi ha hov with h | ⟨g, h⟩
    · exact .inl h
    · obtain ⟨t0, h1, h2⟩ := hi.group.given n g h
      obtain ⟨o, ho⟩ := h
      exact .inr ⟨g, t0, ⟨o, ho⟩, h1, h2, ht _ ho⟩

/-- **C100.** Telling a tracker is never given up before the time is over. -/
theorem closing_patient {tr : ClosingTrace T ε} {s : Closing T} (h : ClosingRun grace tr s) {n now : Nat} (hg : GivenUp tr n now) :
    ∃ t0, CommandEnded tr t0 ∧ t0 + grace ≤ now := (closing_inv h).group.given n now hg

/-- **C100.** A tracker that has given no peers is not told that we have stopped. -/
theorem closing_untold {tr : ClosingTrace T ε} {s : Closing T} (h : ClosingRun grace tr s) {n : Nat} (hg : ¬ GavePeers tr n) :
    ∀ a ∈ announcements (asked n tr), a.event = .started := by
  have hi := closing_inv h
  cases ha : s.askings[n]? with
  | none => rw [hi.unasked n ha]; intro a ha; cases ha
  | some a =>
    have hr := getter_inv (hi.runs n a ha)
    intro x hx
    cases ht : a.state.task with
    | absent =>
      rcases (hr.absent ht).2.2.1 with h | h
      · rw [h] at hx; cases hx
      · rw [h] at hx; rw [List.mem_singleton.1 hx]; rfl
    | spawned => obtain ⟨r, -, h2⟩ := (hr.spawned ht).2.1; exact absurd ⟨r.peers, by rw [h2]; simp⟩ hg
    | announcing => obtain ⟨r, -, h2⟩ := (hr.announcing ht).2.1; exact absurd ⟨r.peers, by rw [h2]; simp⟩ hg
    | over => obtain ⟨r, -, h2⟩ := (hr.over ht).2.1; exact absurd ⟨r.peers, by rw [h2]; simp⟩ hg

theorem getter_ended {c : GetterCtx} {tr : GetterTrace ε} {s : GetterState} (h : GetterRun c tr s) {e : GetterEvent ε} (he : e ∈ happened tr)
    (hk : e = .stopCancelled ∨ (∃ r, e = .stopOk r) ∨ ∃ x, e = .stopErr x) : s.task = .over := by
  induction h with
  | init => cases he
  | @step tr s e' s' out hr hs ih =>
    rw [happened_snoc, List.mem_append, List.mem_singleton] at he
    rcases he with he | rfl
    · exact (getter_task hr hs).2.2 (ih he)
    · rcases hk with rfl | ⟨r, rfl⟩ | ⟨x, rfl⟩ <;> simp only [GetterState.step] at hs <;> split at hs <;> cases hs <;> rfl

theorem tasks_gave {tr : ClosingTrace T ε} {s : Closing T} (hi : ClosingInv grace tr s) {i : Nat} (him : i ∈ s.group.tasks) :
    ∃ n a, s.askings[n]? = some a ∧ a.task = some i ∧ (a.state.task = .spawned ∨ a.state.task = .announcing) ∧ GavePeers tr n := by
  obtain ⟨n, a, h1, h2, h3⟩ := (hi.tasks.left i).1 him
  have hr := getter_inv (hi.runs n a h1)
  refine ⟨n, a, h1, h2, ?_⟩
  cases ht : a.state.task with
  | absent => rw [(hi.tasks.spawned n a h1).2 ht] at h2; cases h2
  | spawned => obtain ⟨r, -, h⟩ := (hr.spawned ht).2.1; exact ⟨.inl rfl, r.peers, by rw [h]; simp⟩
  | announcing => obtain ⟨r, -, h⟩ := (hr.announcing ht).2.1; exact ⟨.inr rfl, r.peers, by rw [h]; simp⟩
  | over => exact absurd ht h3

theorem exits_now {tr : ClosingTrace T ε} {s : Closing T} (h : ClosingRun grace tr s) {t0 now : Nat} (hc : CommandEnded tr t0)
    (hnow : ∀ x ∈ tr, x.1 ≤ now) (ht : s.group.tasks = []) :
    ∃ post s', ClosingRun grace (tr ++ post) s' ∧ Exited (tr ++ post) ∧ ∀ x ∈ post, x = (now, .joined, []) ∨ x = (now, .rejoined, []) := by
  have hi := closing_inv h
  cases hp : s.group.phase with
  | «open» => exact absurd hc ((hi.group.opened hp).2.1 t0)
  | over => exact ⟨[], s, by simpa using h, by simpa using hi.group.over hp, by simp⟩
  | waiting =>
    have hcl := (hi.group.called (by simp [hp])).1
    exact ⟨[(now, .rejoined, [])], _, .step h hnow (by simp only [Closing.step, ShutdownGroup.step, hp, ht, hcl, and_self, if_true, Option.map_some]; rfl),
      ⟨now, [], by simp⟩, by simp⟩
  | grace =>
    have hcl := (hi.group.called (by simp [hp])).1
    have h1 : ClosingRun grace (tr ++ [(now, .joined, [])]) (⟨s.askings, { s.group with phase := .waiting }⟩ : Closing T) :=
      .step h hnow (by simp only [Closing.step, ShutdownGroup.step, hp, ht, hcl, and_self, if_true, Option.map_some])
    have h2 : ClosingRun grace (tr ++ [(now, .joined, [])] ++ [(now, .rejoined, [])]) (⟨s.askings, { s.group with phase := .over }⟩ : Closing T) :=
      .step h1 (by intro x hx; rw [List.mem_append] at hx; rcases hx with hx | hx; exact hnow x hx; simp at hx; simp [hx])
        (by simp only [Closing.step, ShutdownGroup.step, ht, hcl, and_self, if_true, Option.map_some])
    exact ⟨[(now, .joined, []), (now, .rejoined, [])], _, by simpa using h2, ⟨now, [], by simp⟩, by simp⟩

/-- **C100.** Once every tracker that has given peers has been told, or telling it has been given up, the program exits without waiting any longer. -/
theorem closing_ready {tr : ClosingTrace T ε} {s : Closing T} (h : ClosingRun grace tr s) {t0 now : Nat} (hc : CommandEnded tr t0)
    (hnow : ∀ x ∈ tr, x.1 ≤ now) (hall : ∀ n t c, (askBegun tr)[n]? = some (t, c) → GavePeers tr n → ToldStop tr n c ∨ ∃ g, GivenUp tr n g) :
    ∃ post s', ClosingRun grace (tr ++ post) s' ∧ Exited (tr ++ post) ∧
      ∀ x ∈ post, x = (now, .joined, []) ∨ x = (now, .rejoined, []) := by
  have hi := closing_inv h
  refine exits_now h hc hnow (List.eq_nil_iff_forall_not_mem.2 fun i him => ?_)
  obtain ⟨n, a, h1, -, h3, h4⟩ := tasks_gave hi him
  have hov : a.state.task = .over := by
    rcases hall n a.tracker a.ctx (by rw [← hi.askBegun, List.getElem?_map, h1]; rfl) h4 with ⟨-, ⟨r, hr⟩ | ⟨x, hx⟩⟩ | ⟨g, o, hg⟩
    · exact getter_ended (hi.runs n a h1) hr (.inr (.inl ⟨r, rfl⟩))
    · exact getter_ended (hi.runs n a h1) hx (.inr (.inr ⟨x, rfl⟩))
    · refine getter_ended (hi.runs n a h1) (e := .stopCancelled) ?_ (.inl rfl)
      simp only [happened, asked, List.mem_map, List.mem_filterMap]
      exact ⟨(.stopCancelled, o), ⟨_, hg, by simp⟩, rfl⟩
  rcases h3 with h | h <;> rw [h] at hov <;> cases hov

theorem cancels_all {now t0 : Nat} (k : Nat) : ∀ {tr : ClosingTrace T ε} {s : Closing T}, ClosingRun grace tr s → CommandEnded tr t0 → (∀ x ∈ tr, x.1 ≤ now) →
    s.group.cancelled = true → s.group.tasks.length = k →
    ∃ post s', ClosingRun grace (tr ++ post) s' ∧ Exited (tr ++ post) ∧ ∀ x ∈ post, x.1 = now ∧ x.2.2 = [] ∧
      ∀ n e, x.2.1 = .asking n e → e = .stopCancelled := by
  induction k with
  | zero =>
    intro tr s h hc hnow _ hk
    obtain ⟨post, s', h1, h2, h3⟩ := exits_now h hc hnow (List.length_eq_zero_iff.1 hk)
    refine ⟨post, s', h1, h2, fun x hx => ?_⟩
    rcases h3 x hx with rfl | rfl <;> exact ⟨rfl, rfl, by simp⟩
  | succ k ih =>
    intro tr s h hc hnow hcan hk
    have hi := closing_inv h
    obtain ⟨i, him⟩ := List.exists_mem_of_length_pos (l := s.group.tasks) (by omega)
    obtain ⟨n, a, h1, h2, h3, -⟩ := tasks_gave hi him
    have hs : s.step (ε := ε) grace now (.asking n .stopCancelled) =
        some (⟨s.askings.set n { a with state := { a.state with task := .over }, task := a.task }, { s.group with tasks := s.group.tasks.erase i }⟩, []) := by
      simp only [Closing.step, h1, hcan, GetterState.step, GetterEvent.isCancel]
      rw [if_pos h3]
      have hf : s.group.follow now a.task a.state.task .over = some ({ s.group with tasks := s.group.tasks.erase i }, a.task) := by
        rw [follow_some]
        refine .inr (.inl ⟨?_, ?_, rfl, i, h2, him, rfl, rfl⟩)
        · rcases h3 with h | h <;> simp [h]
        · rcases h3 with h | h <;> simp [h]
      simp [hf, hcan]
    obtain ⟨post, s', g1, g2, g3⟩ := ih (.step h hnow hs) (by rw [commandEnded_snoc]; exact .inl hc)
      (by intro x hx; rw [List.mem_append] at hx; rcases hx with hx | hx; exact hnow x hx; simp at hx; simp [hx]) hcan
      (by show (s.group.tasks.erase i).length = k; rw [List.length_erase_of_mem him]; omega)
    refine ⟨(now, .asking n .stopCancelled, []) :: post, s', by simpa using g1, by simpa using g2, ?_⟩
    intro x hx
    rcases List.mem_cons.1 hx with rfl | hx
    · exact ⟨rfl, rfl, by rintro m e he; cases he; rfl⟩
    · exact g3 x hx

theorem waiting_why {tr : ClosingTrace T ε} {s : Closing T} (h : ClosingRun grace tr s) (hp : s.group.phase = .waiting) :
    s.group.cancelled = true ∨ ∃ t out, (t, ClosingEvent.joined, out) ∈ tr := by
  induction h with
  | init => cases hp
  | @step tr s s' now e out hr ht hs ih =>
    have lift : s.group.phase = .waiting → s'.group.cancelled = s.group.cancelled →
        s'.group.cancelled = true ∨ ∃ t o, (t, ClosingEvent.joined, o) ∈ tr ++ [(now, e, out)] := by
      intro h1 h2
      rcases ih h1 with h | ⟨t, o, h⟩
      · exact .inl (h2.trans h)
      · exact .inr ⟨t, o, by simp [h]⟩
    cases e with
    | begins t c => simp only [Closing.step, Option.some.injEq, Prod.mk.injEq] at hs; obtain ⟨rfl, rfl⟩ := hs; exact lift hp rfl
    | asking n e =>
      simp only [Closing.step] at hs
      split at hs
      · cases hs
      split at hs
      · cases hs
      split at hs
      · cases hs
      split at hs
      · cases hs
      rename_i hf
      cases hs
      obtain ⟨k1, k2, -, -⟩ := follow_keeps hf
      exact lift (k1 ▸ hp) k2
    | commandEnds => simp only [Closing.step, ShutdownGroup.step] at hs; split at hs <;> cases hs; cases hp
    | joined => exact .inr ⟨now, out, by simp⟩
    | timeout => simp only [Closing.step, ShutdownGroup.step] at hs; split at hs <;> cases hs; exact .inl rfl
    | rejoined => simp only [Closing.step, ShutdownGroup.step] at hs; split at hs <;> cases hs; cases hp

/-- **C100.** Whatever trackers do (or do not), when the time is over the program can exit at once; except if `shutdown` had already found nothing to wait
for, see `closing_hangs`. -/
theorem closing_exits {tr : ClosingTrace T ε} {s : Closing T} (h : ClosingRun grace tr s) {t0 now : Nat} (hc : CommandEnded tr t0)
    (hnow : ∀ x ∈ tr, x.1 ≤ now) (hd : t0 + grace ≤ now) (hj : ∀ t out, (t, ClosingEvent.joined, out) ∉ tr) :
    ∃ post s', ClosingRun grace (tr ++ post) s' ∧ Exited (tr ++ post) ∧ ∀ x ∈ post, x.1 = now ∧ x.2.2 = [] ∧
      ∀ n e, x.2.1 = .asking n e → e = .stopCancelled := by
  have hi := closing_inv h
  by_cases ht : s.group.tasks = []
  · obtain ⟨post, s', h1, h2, h3⟩ := exits_now h hc hnow ht
    refine ⟨post, s', h1, h2, fun x hx => ?_⟩
    rcases h3 x hx with rfl | rfl <;> exact ⟨rfl, rfl, by simp⟩
  cases hp : s.group.phase with
  | «open» => exact absurd hc ((hi.group.opened hp).2.1 t0)
  | over => exact ⟨[], s, by simpa using h, by simpa using hi.group.over hp, by simp⟩
  | waiting =>
    rcases waiting_why h hp with hcan | ⟨t, o, ho⟩
    · exact cancels_all _ h hc hnow hcan rfl
    · exact absurd ho (hj t o)
  | grace =>
    obtain ⟨-, t1, h1, h2⟩ := hi.group.called (by simp [hp])
    have : t0 = t1 := (h1 t0).1 hc
    subst this
    have hs : s.step (ε := ε) grace now .timeout = some (⟨s.askings, { s.group with cancelled := true, phase := .waiting }⟩, []) := by
      simp only [Closing.step, ShutdownGroup.step, hp, h2]
      simp [ht, hd]
    obtain ⟨post, s', g1, g2, g3⟩ := cancels_all _ (.step h hnow hs) (t0 := t0) (now := now) (by rw [commandEnded_snoc]; exact .inl hc)
      (by intro x hx; rw [List.mem_append] at hx; rcases hx with hx | hx; exact hnow x hx; simp at hx; simp [hx]) rfl rfl
    refine ⟨(now, .timeout, []) :: post, s', by simpa using g1, by simpa using g2, ?_⟩
    intro x hx
    rcases List.mem_cons.1 hx with rfl | hx
    · exact ⟨rfl, rfl, by simp⟩
    · exact g3 x hx

theorem closingRun_unsnoc {tr : ClosingTrace T ε} {x : Nat × ClosingEvent T ε × List (GetterOutput ε)} {s' : Closing T}
    (h : ClosingRun grace (tr ++ [x]) s') : ∃ s, ClosingRun grace tr s ∧ s.step grace x.1 x.2.1 = some (s', x.2.2) := by
  generalize ht : tr ++ [x] = t at h
  cases h with
  | init => simp at ht
  | step hr hnow hs =>
    obtain ⟨rfl, hx⟩ := List.append_inj' ht rfl
    cases hx
    exact ⟨_, hr, hs⟩

/-- `shutdown` has found nothing to wait for, and then a tracker has given peers. -/
def Late (s : Closing T) : Prop :=
  s.group.phase = .waiting ∧ s.group.cancelled = false ∧
    ∃ a i, s.askings[0]? = some a ∧ a.task = some i ∧ (a.state.task = .spawned ∨ a.state.task = .announcing)

theorem late_lasts {tr : ClosingTrace T ε} {s s' : Closing T} {now : Nat} {e : ClosingEvent T ε} {out : List (GetterOutput ε)}
    (h : ClosingRun grace tr s) (hl : Late s) (hs : s.step grace now e = some (s', out))
    (hq : ∀ r, e ≠ .asking 0 (.stopOk r)) (hq' : ∀ x, e ≠ .asking 0 (.stopErr x)) : Late s' ∧ e ≠ .rejoined := by
  obtain ⟨h1, h2, a, i, h3, h4, h5⟩ := hl
  have hi := closing_inv h
  have hmem : s.group.tasks ≠ [] := by
    have := (hi.tasks.left i).2 ⟨0, a, h3, h4, by rcases h5 with h | h <;> simp [h]⟩
    intro h; rw [h] at this; cases this
  cases e with
  | begins t c =>
    simp only [Closing.step, Option.some.injEq, Prod.mk.injEq] at hs
    obtain ⟨rfl, rfl⟩ := hs
    refine ⟨⟨h1, h2, a, i, ?_, h4, h5⟩, by simp⟩
    rw [List.getElem?_append_left (List.getElem?_eq_some_iff.1 h3).1]; exact h3
  | asking n e =>
    simp only [Closing.step] at hs
    split at hs
    · cases hs
    rename_i b hb
    split at hs
    · cases hs
    rename_i hcan
    split at hs
    · cases hs
    rename_i st o hst
    split at hs
    · cases hs
    rename_i g task hf
    cases hs
    obtain ⟨k1, k2, -, -⟩ := follow_keeps hf
    refine ⟨⟨k1.trans h1, k2.trans h2, ?_⟩, by simp⟩
    by_cases hn : n = 0
    · subst hn
      rw [h3] at hb
      cases hb
      have hlen := (List.getElem?_eq_some_iff.1 h3).1
      refine ⟨{ a with state := st, task := task }, i, by simp [hlen], ?_, ?_⟩
      · rw [follow_some] at hf
        rcases hf with ⟨x, -⟩ | ⟨-, -, -, j, hj, -, -, rfl⟩ | ⟨-, -, -, rfl⟩
        · rcases h5 with h | h <;> rw [h] at x <;> cases x
        · exact h4
        · exact h4
      · cases e with
        | stopCancelled => rw [h2] at hcan; simp [GetterEvent.isCancel] at hcan
        | stopOk r => exact absurd rfl (hq r)
        | stopErr x => exact absurd rfl (hq' x)
        | startOk r =>
          simp only [GetterState.step] at hst
          split at hst <;> cases hst
          exact .inl rfl
        | stopScheduled =>
          simp only [GetterState.step] at hst
          split at hst <;> cases hst
          exact .inr rfl
        | _ =>
          simp only [GetterState.step] at hst
          split at hst <;> cases hst
          exact h5
    · refine ⟨a, i, ?_, h4, h5⟩
      rw [List.getElem?_set_ne hn]; exact h3
  | commandEnds => simp [Closing.step, ShutdownGroup.step, h1] at hs
  | joined => simp [Closing.step, ShutdownGroup.step, h1] at hs
  | timeout => simp [Closing.step, ShutdownGroup.step, h1] at hs
  | rejoined => simp [Closing.step, ShutdownGroup.step, hmem] at hs

end

/-! ### Runs -/

def closingExec {T ε : Type} (grace : Nat) : List (Nat × ClosingEvent T ε) → Closing T → Option (ClosingTrace T ε × Closing T)
  | [], s => some ([], s)
  | (now, e) :: es, s =>
    match s.step grace now e with
    | some (s', out) => (closingExec grace es s').map fun r => ((now, e, out) :: r.1, r.2)
    | none => none

theorem closingExec_run {T ε : Type} {grace : Nat} (es : List (Nat × ClosingEvent T ε)) {s s' : Closing T} {tr tr' : ClosingTrace T ε}
    (h : ClosingRun grace tr s) (hle : ∀ x ∈ tr, ∀ y ∈ es, x.1 ≤ y.1) (hes : es.Pairwise fun x y => x.1 ≤ y.1)
    (he : closingExec grace es s = some (tr', s')) : ClosingRun grace (tr ++ tr') s' := by
  induction es generalizing s tr tr' with
  | nil => simp only [closingExec, Option.some.injEq, Prod.mk.injEq] at he; obtain ⟨rfl, rfl⟩ := he; simpa using h
  | cons e es ih =>
    obtain ⟨now, e⟩ := e
    simp only [closingExec] at he
    split at he
    · rename_i s1 out hs
      rw [Option.map_eq_some_iff] at he
      obtain ⟨⟨tr1, s2⟩, h1, h2⟩ := he
      simp only [Prod.mk.injEq] at h2
      obtain ⟨rfl, rfl⟩ := h2
      rw [List.pairwise_cons] at hes
      have := ih (.step h (fun x hx => hle x hx _ List.mem_cons_self) hs)
        (by
          intro x hx y hy
          rw [List.mem_append, List.mem_singleton] at hx
          rcases hx with hx | rfl
          · exact hle x hx y (List.mem_cons_of_mem _ hy)
          · exact hes.1 y hy) hes.2 h1
      rwa [List.append_assoc, List.singleton_append] at this
    · cases he

def exGetterCtx : GetterCtx := ⟨⟨List.replicate 20 1, by decide⟩, ⟨List.replicate 20 2, by decide⟩, 5, 6881, 50, .prefer, none⟩
def exAnswer : AnnounceResponse := ⟨1800, [], none, none, none, none, none, none, none⟩

/-- `shutdown` finds nothing to wait for, and at that moment the tracker answers. -/
def exLateAnswer : List (Nat × ClosingEvent Nat Nat) :=
  [(0, .begins 7 exGetterCtx), (0, .asking 0 .connectOk), (0, .commandEnds), (0, .joined), (0, .asking 0 (.startOk exAnswer))]

/-- **C100.** There is a gap: if a tracker answers just after `shutdown` has found nothing to wait for, the program waits until this tracker has been
told, and the time for that is not limited. -/
theorem closing_hangs (grace : Nat) : ∃ (tr : ClosingTrace Nat Nat) (s : Closing Nat), ClosingRun grace tr s ∧ CommandEnded tr 0 ∧
    ∀ post s', ClosingRun grace (tr ++ post) s' → (∀ x ∈ post, (∀ r, x.2.1 ≠ .asking 0 (.stopOk r)) ∧ ∀ e, x.2.1 ≠ .asking 0 (.stopErr e)) →
      ¬ Exited (tr ++ post) := by
  obtain ⟨tr, s, hx⟩ : ∃ tr s, closingExec grace exLateAnswer ⟨[], {}⟩ = some (tr, s) := ⟨_, _, rfl⟩
  have hrun : ClosingRun grace tr s := by
    have := closingExec_run (tr := []) exLateAnswer .init (by simp) (by decide) hx
    simpa using this
  have hl : Late s := by cases hx; exact ⟨rfl, rfl, _, _, rfl, rfl, .inl rfl⟩
  refine ⟨tr, s, hrun, by cases hx; exact ⟨[], by simp⟩, ?_⟩
  intro post
  have main : ∀ s', ClosingRun grace (tr ++ post) s' → (∀ x ∈ post, (∀ r, x.2.1 ≠ .asking 0 (.stopOk r)) ∧ ∀ e, x.2.1 ≠ .asking 0 (.stopErr e)) →
      Late s' := by
    induction post using List.reverseRecOn with
    | nil =>
      intro s' h _
      rw [List.append_nil] at h
      have hdet : ∀ {t : ClosingTrace Nat Nat} {a b : Closing Nat}, ClosingRun grace t a → ClosingRun grace t b → a = b := by
        intro t a b ha
        induction ha generalizing b with
        | init => intro hb; generalize ht : ([] : ClosingTrace Nat Nat) = t at hb; cases hb with | init => rfl | step _ _ _ => simp at ht
        | step h1 h2 h3 ih =>
          intro hb
          obtain ⟨s1, g1, g2⟩ := closingRun_unsnoc hb
          cases ih g1
          rw [h3] at g2
          cases g2
          rfl
      cases hdet hrun h
      exact hl
    | append_singleton post x ih =>
      intro s' h hq
      rw [← List.append_assoc] at h
      obtain ⟨s1, h1, h2⟩ := closingRun_unsnoc h
      have := ih s1 h1 (fun y hy => hq y (by simp [hy]))
      exact (late_lasts h1 this h2 (hq x (by simp)).1 (hq x (by simp)).2).1
  intro s' h hq
  exact (closing_inv h).group.waiting (main s' h hq).1

/-- Two trackers are asked; one gives peers, and the download ends before the other has answered. -/
def exAborted : List (Nat × ClosingEvent Nat Nat) :=
  [(0, .begins 7 exGetterCtx), (0, .begins 8 exGetterCtx), (0, .asking 0 .connectOk), (0, .asking 1 .connectOk), (1, .asking 0 (.startOk exAnswer)),
   (1, .asking 0 .stopScheduled), (2, .asking 1 .dropped), (2, .commandEnds), (3, .asking 0 (.stopOk exAnswer)), (3, .joined), (3, .rejoined)]

/-- **C100.** Not every tracker that was told that we have started is told that we have stopped: one that has not yet answered when the download ends
is not. -/
theorem closing_left_behind : ∃ (tr : ClosingTrace Nat Nat) (s : Closing Nat), ClosingRun 3 tr s ∧ Exited tr ∧
    announcements (asked 0 tr) = [exGetterCtx.announcement .started, exGetterCtx.announcement .stopped] ∧
    announcements (asked 1 tr) = [exGetterCtx.announcement .started] := by
  obtain ⟨tr, s, hx⟩ : ∃ tr s, closingExec 3 exAborted ⟨[], {}⟩ = some (tr, s) := ⟨_, _, rfl⟩
  refine ⟨tr, s, ?_, ?_, ?_, ?_⟩
  · have := closingExec_run (tr := []) exAborted .init (by simp) (by decide) hx
    simpa using this
  all_goals cases hx
  · exact ⟨3, [], by simp⟩
  · rfl
  · rfl

/-- A tracker gives peers and then is silent. -/
def exSilent : List (Nat × ClosingEvent Nat Nat) :=
  [(0, .begins 7 exGetterCtx), (0, .asking 0 .connectOk), (1, .asking 0 (.startOk exAnswer)), (1, .asking 0 .stopScheduled), (2, .commandEnds)]

-- the hypotheses of `closing_exits` are met, and there is something to be given up
example : ∃ (tr : ClosingTrace Nat Nat) (s : Closing Nat), ClosingRun 3 tr s ∧ CommandEnded tr 2 ∧ (∀ x ∈ tr, x.1 ≤ 5) ∧
    (∀ t out, (t, ClosingEvent.joined, out) ∉ tr) ∧ GavePeers tr 0 ∧ s.group.tasks ≠ [] := by
  obtain ⟨tr, s, hx⟩ : ∃ tr s, closingExec 3 exSilent ⟨[], {}⟩ = some (tr, s) := ⟨_, _, rfl⟩
  refine ⟨tr, s, ?_, ?_, ?_, ?_, ?_, ?_⟩
  · have := closingExec_run (tr := []) exSilent .init (by simp) (by decide) hx
    simpa using this
  all_goals cases hx
  · exact ⟨[], by simp⟩
  · simp
  · simp
  · exact ⟨[], by simp [results, asked, resultOf, exAnswer]⟩
  · decide

-- it is given up at the end of the time, and then the program exits: the hypotheses of `closing_told` and `closing_patient` are met
example : (closingExec 3 (exSilent ++ [(5, .timeout), (5, .asking 0 .stopCancelled), (5, .rejoined)]) ⟨[], {}⟩).isSome = true ∧
    (closingExec 3 (exSilent ++ [(4, .timeout)]) ⟨[], {}⟩).isSome = false ∧ (closingExec 3 (exSilent ++ [(5, .asking 0 .stopCancelled)]) ⟨[], {}⟩).isSome = false := by
  decide

end Demag.Props
