import Verif.Props.FleetGet
import Verif.Props.FleetEnds
import Verif.Lemmas.Stallers

/-! Helper lemmas: where the downloads of a batch are. -/

namespace Demag

open Spec Props

section
variable {J R : Type} {s s' : Nursery J R} {e : NurseryEvent J R} {out : List (NurseryOutput J R)} {N k : Nat}

/-- The job numbered `k` waits, is in the hands of a worker, or is under way. -/
def Placed (s : Nursery J R) (k : Nat) : Prop :=
  (∃ (w : Nat) (j : J), s.workers[w]? = some (.running k j)) ∨ (∃ (w : Nat) (j : J), s.workers[w]? = some (.received k j)) ∨ ∃ j, (k, j) ∈ s.queue

theorem set_keeps {α : Type} {l : List α} {v w : Nat} {x y z : α} (hv : l[v]? = some x) (hw : l[w]? = some y) (h : x ≠ y) : (l.set w z)[v]? = some x := by
  have : w ≠ v := by
    rintro rfl
    rw [hv] at hw
    exact h (Option.some.inj hw)
  rw [List.getElem?_set_ne this]
  exact hv

theorem set_here {α : Type} {l : List α} {w : Nat} {y z : α} (hw : l[w]? = some y) : (l.set w z)[w]? = some z := by
  rw [List.getElem?_set_self (List.getElem?_eq_some_iff.1 hw).1]

theorem placed_step (hs : s.step e = some (s', out)) (hd : s.done = false) (ha : ∀ v, e ≠ .abort v) (hp : Placed s k) :
    Placed s' k ∨ ∃ (w : Nat) (o : Outcome R) (j : J), e = .finish w o ∧ s.workers[w]? = some (.running k j) := by
  have same : s'.workers = s.workers → (∀ j, (k, j) ∈ s.queue → (k, j) ∈ s'.queue) → Placed s' k := by
    intro h1 h2
    rcases hp with hp | hp | ⟨j, hj⟩
    · exact .inl (by rw [h1]; exact hp)
    · exact .inr (.inl (by rw [h1]; exact hp))
    · exact .inr (.inr ⟨j, h2 j hj⟩)
  cases e with
  | spawn j =>
    simp only [Nursery.step] at hs
    split at hs
    · cases hs
    split at hs <;> cases hs
    · exact .inl hp
    · exact .inl (same rfl fun j' h => List.mem_append_left _ h)
  | clone => simp only [Nursery.step] at hs; split at hs <;> cases hs; exact .inl (same rfl fun _ h => h)
  | dropHandle => simp only [Nursery.step] at hs; split at hs <;> cases hs; exact .inl (same rfl fun _ h => h)
  | close => simp only [Nursery.step] at hs; split at hs <;> cases hs; exact .inl (same rfl fun _ h => h)
  | setDone => simp only [Nursery.step] at hs; split at hs <;> cases hs; exact .inl (same rfl fun _ h => h)
  | take w =>
    simp only [Nursery.step] at hs
    split at hs
    · rename_i n j q hw hq
      cases hs
      rcases hp with ⟨v, j', hv⟩ | ⟨v, j', hv⟩ | ⟨j', hj⟩
      · exact .inl (.inl ⟨v, j', set_keeps hv hw (by simp)⟩)
      · exact .inl (.inr (.inl ⟨v, j', set_keeps hv hw (by simp)⟩))
      · rw [hq] at hj
        rcases List.mem_cons.1 hj with hj | hj
        · cases hj
          exact .inl (.inr (.inl ⟨w, _, set_here hw⟩))
        · exact .inl (.inr (.inr ⟨j', hj⟩))
    · cases hs
  | check w =>
    simp only [Nursery.step, hd] at hs
    split at hs
    · rename_i n j hw
      cases hs
      rcases hp with ⟨v, j', hv⟩ | ⟨v, j', hv⟩ | ⟨j', hj⟩
      · exact .inl (.inl ⟨v, j', set_keeps hv hw (by simp)⟩)
      · by_cases hvw : v = w
        · subst hvw
          rw [hw] at hv
          cases hv
          exact .inl (.inl ⟨v, j, set_here hw⟩)
        · refine .inl (.inr (.inl ⟨v, j', ?_⟩))
          show (s.workers.set w _)[v]? = _
          rw [List.getElem?_set_ne (Ne.symm hvw)]
          exact hv
      · exact .inl (.inr (.inr ⟨j', hj⟩))
    · cases hs
  | finish w o =>
    simp only [Nursery.step] at hs
    split at hs
    · rename_i n j hw
      by_cases hk : n = k
      · subst hk
        exact .inr ⟨w, o, j, rfl, hw⟩
      · left
        have hother : ∀ {v : Nat} {j' : J}, s.workers[v]? = some (.running k j') → (Worker.running k j') ≠ .running n j := by
          intro v j' _ h
          cases h
          exact hk rfl
        split at hs <;> cases hs <;> rcases hp with ⟨v, j', hv⟩ | ⟨v, j', hv⟩ | ⟨j', hj⟩
        · exact .inl ⟨v, j', set_keeps hv hw (hother hv)⟩
        · exact .inr (.inl ⟨v, j', set_keeps hv hw (by simp)⟩)
        · exact .inr (.inr ⟨j', hj⟩)
        · exact .inl ⟨v, j', set_keeps hv hw (hother hv)⟩
        · exact .inr (.inl ⟨v, j', set_keeps hv hw (by simp)⟩)
        · exact .inr (.inr ⟨j', hj⟩)
    · cases hs
  | exit w =>
    simp only [Nursery.step] at hs
    split at hs
    · rename_i hw hq
      split at hs <;> cases hs
      rcases hp with ⟨v, j', hv⟩ | ⟨v, j', hv⟩ | ⟨j', hj⟩
      · exact .inl (.inl ⟨v, j', set_keeps hv hw (by simp)⟩)
      · exact .inl (.inr (.inl ⟨v, j', set_keeps hv hw (by simp)⟩))
      · exact .inl (.inr (.inr ⟨j', hj⟩))
    · cases hs
  | recv =>
    simp only [Nursery.step] at hs
    split at hs
    · split at hs <;> cases hs
      exact .inl (same rfl fun _ h => h)
    · cases hs
  | recvNone => simp only [Nursery.step] at hs; split at hs <;> cases hs; exact .inl hp
  | dropStream => simp only [Nursery.step] at hs; split at hs <;> cases hs; exact .inl (same rfl fun _ h => h)
  | abort v => exact absurd rfl (ha v)

/-- Only handing over a job gives out a number. -/
theorem next_step (hs : s.step e = some (s', out)) (hk : k < s'.next) : k < s.next ∨ Placed s' k := by
  cases e <;> simp only [Nursery.step] at hs <;> (repeat' split at hs) <;> first | (cases hs; done) | (cases hs; exact .inl hk) | skip
  cases hs
  simp only at hk
  by_cases h : k < s.next
  · exact .inl h
  · have : k = s.next := by omega
    subst this
    exact .inr (.inr (.inr ⟨_, List.mem_append_right _ (List.mem_singleton.2 rfl)⟩))

/-- The numbers of the jobs under way differ. -/
theorem running_nodup {tr : NurseryTrace J R} (h : NurseryRun N tr s) : (s.workers.filterMap Worker.runningNum).Nodup := by
  have hi := nursery_inv h
  have h1 : (tookJobs tr).Nodup := by
    have : (tookJobs tr ++ s.queue.map Prod.fst).Nodup := by rw [hi.queue]; exact List.nodup_range
    exact (List.nodup_append.1 this).1
  have h2 := (List.nodup_append.1 ((List.nodup_append.1 (hi.took.nodup_iff.1 h1)).1)).1
  exact (List.nodup_append.1 (hi.began.nodup_iff.1 h2)).2.1

theorem busy_numbers : (busyWith s).length = (s.workers.filterMap Worker.runningNum).length := by
  unfold busyWith
  generalize s.workers = l
  induction l with
  | nil => rfl
  | cons a l ih => cases a <;> simp only [List.filterMap_cons, jobAtWork, Worker.runningNum, List.length_cons] <;> omega

end

section
variable {M : Type} {ms : List M} {jobs : Nat} {btr : List (BatchEvent × List (M × Outcome Bool))} {b b' : Batch M}

/-- What a step of a batch does to its nursery. -/
theorem batch_touch {e : BatchEvent} {out : List (M × Outcome Bool)} (hs : b.step e = some (b', out)) :
    b'.nursery = b.nursery ∨ ∃ ev o, b.nursery.step ev = some (b'.nursery, o) ∧ (∀ v, ev ≠ .abort v) ∧ ∀ w o', ev = .finish w o' → e = .ends w o' := by
  unfold Batch.step at hs
  split at hs
  · cases hs
  have quiet : ∀ {ev : NurseryEvent M Bool} {g : Batch M → Batch M} {x : List (M × Outcome Bool)}, (∀ v, ev ≠ .abort v) →
      (∀ w o', ev = .finish w o' → e = .ends w o') → (∀ c, (g c).nursery = c.nursery) →
      ((b.nursery.step ev).map fun r => (g { b with nursery := r.1 }, x)) = some (b', out) →
      b'.nursery = b.nursery ∨ ∃ ev o, b.nursery.step ev = some (b'.nursery, o) ∧ (∀ v, ev ≠ .abort v) ∧ ∀ w o', ev = .finish w o' → e = .ends w o' := by
    intro ev g x h1 h2 h3 hs
    rw [Option.map_eq_some_iff] at hs
    obtain ⟨⟨n, o⟩, hn, hs⟩ := hs
    cases hs
    rw [h3]
    exact .inr ⟨ev, o, hn, h1, h2⟩
  cases e with
  | spawn =>
    simp only at hs
    split at hs
    · rename_i m rest htodo
      split at hs
      · rename_i n k j hn
        cases hs
        exact .inr ⟨_, _, hn, by simp, by simp⟩
      · cases hs; exact .inl rfl
      · cases hs
    · cases hs
  | dropHandle =>
    simp only at hs
    split at hs
    · exact quiet (g := fun c => { c with dropped := true }) (by simp) (by simp) (fun _ => rfl) hs
    · cases hs
  | take w => exact quiet (g := id) (by simp) (by simp) (fun _ => rfl) hs
  | check w => exact quiet (g := id) (by simp) (by simp) (fun _ => rfl) hs
  | workerExit w => exact quiet (g := id) (by simp) (by simp) (fun _ => rfl) hs
  | ends w o =>
    simp only at hs
    split at hs
    · exact quiet (g := id) (by simp) (by intro w' o' h; cases h; rfl) (fun _ => rfl) hs
    · cases hs
  | receive =>
    simp only at hs
    split at hs
    · split at hs
      · rename_i n k v hn
        cases hs
        exact .inr ⟨_, _, hn, by simp, by simp⟩
      · rename_i n k hn
        cases hs
        exact .inr ⟨_, _, hn, by simp, by simp⟩
      · cases hs
    · cases hs
  | receiveNone =>
    simp only at hs
    split at hs
    · split at hs
      · rename_i n o hn
        cases hs
        exact .inr ⟨_, _, hn, by simp, by simp⟩
      · cases hs
    · cases hs

theorem batch_undone (hj : 0 < jobs) (h : BatchRun (some ms) jobs btr b) : b.nursery.done = false := by
  by_cases hne : ms = []
  · subst hne
    obtain ⟨-, rfl⟩ := batch_exited (c := .success) rfl h
    rfl
  · obtain ⟨acc, d, ⟨ntr, L, hn, hsd, -⟩, -⟩ := batch_inv hj hne h
    cases hd : b.nursery.done with
    | false => rfl
    | true => exact absurd ((nursery_inv hn).done.1 hd) hsd

/-- A batch that has exited without a crash has no download left. -/
theorem batch_exit_idle (hj : 0 < jobs) (hne : ms ≠ []) (h : BatchRun (some ms) jobs btr b) {c : ExitCode} (hx : b.exit = some c) (hc : c ≠ .crash) :
    b.todo = [] ∧ ∀ k, ¬ Placed b.nursery k := by
  have hinv := batch_inv hj hne h
  cases h with
  | init =>
    cases ms with
    | nil => exact absurd rfl hne
    | cons m ms => cases hx
  | @step _ s0 _ e out h0 hs =>
    obtain ⟨acc0, d0, -, -, -, h4, -⟩ := batch_inv hj hne h0
    obtain ⟨acc, d, hf, -⟩ := hinv
    unfold Batch.step at hs
    split at hs
    · cases hs
    rename_i hex
    have hex' : s0.exit = none := by simpa using hex
    have quiet : ∀ {ev : NurseryEvent M Bool} {g : Batch M → Batch M} {x : List (M × Outcome Bool)}, (∀ c, (g c).exit = c.exit) →
        ((s0.nursery.step ev).map fun r => (g { s0 with nursery := r.1 }, x)) = some (b, out) → False := by
      intro ev g x h3 hs
      rw [Option.map_eq_some_iff] at hs
      obtain ⟨⟨n, o⟩, hn, hs⟩ := hs
      cases hs
      rw [h3] at hx
      simp [hex'] at hx
    cases e with
    | spawn =>
      simp only at hs
      split at hs
      · split at hs
        · cases hs; simp [hex'] at hx
        · cases hs; cases hx; exact absurd rfl hc
        · cases hs
      · cases hs
    | dropHandle =>
      simp only at hs
      split at hs
      · exact (quiet (g := fun c => { c with dropped := true }) (fun _ => rfl) hs).elim
      · cases hs
    | take w => exact (quiet (g := id) (fun _ => rfl) hs).elim
    | check w => exact (quiet (g := id) (fun _ => rfl) hs).elim
    | workerExit w => exact (quiet (g := id) (fun _ => rfl) hs).elim
    | ends w o =>
      simp only at hs
      split at hs
      · exact (quiet (g := id) (fun _ => rfl) hs).elim
      · cases hs
    | receive =>
      simp only at hs
      split at hs
      · split at hs
        · cases hs; simp [hex'] at hx
        · cases hs; cases hx; exact absurd rfl hc
        · cases hs
      · cases hs
    | receiveNone =>
      simp only at hs
      split at hs
      · rename_i hdr
        split at hs
        · rename_i n o hn
          cases hs
          refine ⟨h4 hdr, ?_⟩
          have hal := follows_alive hf
          obtain ⟨ntr, L, hrun, hsd, -⟩ := hf
          have hi := nursery_inv hrun
          simp only [Nursery.step] at hn
          split at hn
          · rename_i hcond
            cases hn
            simp only [Bool.and_eq_true, List.all_eq_true] at hcond
            have hst : ∀ x ∈ s0.nursery.workers, x = .stopped := by
              intro x hx
              have := hcond.2 x hx
              cases x <;> simp at this ⊢
            have hq : s0.nursery.queue = [] := by
              refine hi.stoppedQueue ?_ hal ?_
              · show s0.nursery.done = false
                cases hd : s0.nursery.done with
                | false => rfl
                | true => exact absurd (hi.done.1 hd) hsd
              · have hlen : s0.nursery.workers.length = jobs := hi.workers
                cases hw : s0.nursery.workers with
                | nil => rw [hw] at hlen; simp at hlen; omega
                | cons a l =>
                  have := hst a (by rw [hw]; exact List.mem_cons_self)
                  rw [this]
                  exact List.mem_cons_self
            rintro k (⟨w, j, hw⟩ | ⟨w, j, hw⟩ | ⟨j, hq'⟩)
            · cases hst _ (List.mem_of_getElem? hw)
            · cases hst _ (List.mem_of_getElem? hw)
            · simp [hq] at hq'
          · cases hn
        · cases hs
      · cases hs

/-- A batch all of whose links have been handed over. -/
theorem batch_next (hj : 0 < jobs) (hne : ms ≠ []) (h : BatchRun (some ms) jobs btr b) (ht : b.todo = []) : b.nursery.next = ms.length := by
  obtain ⟨acc, d, ⟨ntr, L, hn, -, -, -, hacc, -⟩, h2, -⟩ := batch_inv hj hne h
  rw [ht, List.append_nil] at h2
  have := congrArg List.length (nursery_inv hn).accepted
  rw [List.length_map, List.length_range] at this
  rw [← this, ← h2, ← hacc, List.length_map]

/-- Either a batch can go on without the end of a download, or all its workers are busy with jobs, or all jobs not under way have ended. -/
theorem batch_jam (hj : 0 < jobs) (hne : ms ≠ []) (h : BatchRun (some ms) jobs btr b) (hx : b.exit = none) :
    (∃ e b' out, b.step e = some (b', out) ∧ ∀ w o, e ≠ .ends w o) ∨ (b.todo = [] ∧ (∀ (w k : Nat) (m : M), b.nursery.workers[w]? ≠ some (.received k m)) ∧
      (b.nursery.queue = [] ∨ (b.nursery.workers.filterMap Worker.runningNum).length = jobs)) := by
  obtain ⟨acc, d, h1, h2, h3, h4, -⟩ := batch_inv hj hne h
  have hnot : b.exit.isSome = false := by rw [hx]; rfl
  cases htodo : b.todo with
  | cons m rest =>
    left
    have hnd : b.dropped = false := by
      cases hd : b.dropped with
      | false => rfl
      | true => rw [h4 hd] at htodo; cases htodo
    have hh : b.nursery.handles ≠ 0 := by rw [h3, hnd]; simp
    have hcl : b.nursery.closed = false := by
      cases hcl : b.nursery.closed with
      | false => rfl
      | true => exact absurd ((follows_closed h1).1 hcl) hh
    refine ⟨.spawn, { b with todo := rest, nursery := { b.nursery with
        queue := b.nursery.queue ++ [(b.nursery.next, m)], next := b.nursery.next + 1 } }, [], ?_, by simp⟩
    simp [Batch.step, hnot, htodo, Nursery.step, hh, hcl]
  | nil =>
    cases hdr : b.dropped with
    | false =>
      left
      have hh : b.nursery.handles = 1 := by rw [h3, hdr]; rfl
      refine ⟨.dropHandle, { b with dropped := true, nursery := { b.nursery with handles := 0, closed := true } }, [], ?_, by simp⟩
      simp [Batch.step, hnot, htodo, hdr, Nursery.step, hh]
    | true =>
      have hh : b.nursery.handles = 0 := by rw [h3, hdr]; rfl
      by_cases hmove : (∃ w r, b.nursery.step (.take w) = some r) ∨ (∃ w r, b.nursery.step (.check w) = some r) ∨
          (∃ w r, b.nursery.step (.exit w) = some r) ∨ (∃ n' k o, b.nursery.step .recv = some (n', [.delivered k o]))
      · left
        rcases hmove with ⟨w, r, hr⟩ | ⟨w, r, hr⟩ | ⟨w, r, hr⟩ | ⟨n', k, o, hr⟩
        · exact ⟨.take w, _, [], by simp only [Batch.step, hnot]; rw [hr]; rfl, by simp⟩
        · exact ⟨.check w, _, [], by simp only [Batch.step, hnot]; rw [hr]; rfl, by simp⟩
        · exact ⟨.workerExit w, _, [], by simp only [Batch.step, hnot]; rw [hr]; rfl, by simp⟩
        · cases o with
          | value v => exact ⟨.receive, _, [], by simp only [Batch.step, hnot, hdr, hr]; rfl, by simp⟩
          | panic => exact ⟨.receive, _, [], by simp only [Batch.step, hnot, hdr, hr]; rfl, by simp⟩
      · right
        simp only [not_or, not_exists] at hmove
        obtain ⟨m1, m2, m3, m4⟩ := hmove
        have isNone : ∀ {ev : NurseryEvent M Bool}, (∀ r, ¬ b.nursery.step ev = some r) → b.nursery.step ev = none := by
          intro ev he
          cases hx : b.nursery.step ev with
          | none => rfl
          | some r => exact absurd hx (he r)
        have hrecv : b.nursery.step .recv = none := by
          cases hs : b.nursery.step .recv with
          | none => rfl
          | some r =>
            obtain ⟨⟨k, j, o, ho, -⟩, -⟩ := follows_recv (n' := r.1) (out := r.2) h1 hs
            exact absurd (by rw [hs, ← ho]) (m4 r.1 k o)
        obtain ⟨-, hrec, hq⟩ := follows_jam h1 hh (fun w => isNone (m1 w)) (fun w => isNone (m2 w)) (fun w => isNone (m3 w)) hrecv
        rw [busy_numbers] at hq
        exact ⟨rfl, hrec, hq⟩

end

section
variable {M T P A D I ε : Type} [DecidableEq A] {addr : P → A} {trackers : M → List T} {jobsT jobsP jobs : Nat} {ms : List M}
  {tr : FleetTrace M T P D I ε} {f : Fleet M T P A D I ε}

/-- A download handed over is over, or its job is somewhere. -/
theorem fleet_placed (hj : 0 < jobs) (h : FleetRun addr trackers jobsT jobsP (some ms) jobs tr f) :
    ∀ k, k < f.batch.nursery.next → Placed f.batch.nursery k ∨ ∃ m o, Over tr k m o := by
  induction h with
  | init =>
    intro k hk
    exfalso
    cases ms <;> simp [Fleet.start, Batch.start, Nursery.new] at hk
  | @step tr f f' e out h hs ih =>
    intro k hk
    obtain ⟨btr, hb, -⟩ := (fleet_inv hj h).batch
    have hd := batch_undone hj hb
    have unchanged : f'.batch = f.batch → Placed f'.batch.nursery k ∨ ∃ m o, Over (tr ++ [(e, out)]) k m o := by
      intro he
      rw [he] at hk ⊢
      rcases ih k hk with h1 | ⟨m, o, h1⟩
      · exact .inl h1
      · exact .inr ⟨m, o, (over_snoc _ _ _ k m o).2 (.inl h1)⟩
    have moved : ∀ {be : BatchEvent} {bo : List (M × Outcome Bool)}, f.batch.step be = some (f'.batch, bo) →
        (∀ (w : Nat) (o : Outcome Bool) (m : M), be = .ends w o → f.batch.nursery.workers[w]? = some (.running k m) → ∃ m o, .over k m o ∈ out) →
        Placed f'.batch.nursery k ∨ ∃ m o, Over (tr ++ [(e, out)]) k m o := by
      intro be bo hbs hover
      rcases batch_touch hbs with he | ⟨ev, o, hev, h1, h2⟩
      · rw [he] at hk ⊢
        rcases ih k hk with h1 | ⟨m, o, h1⟩
        · exact .inl h1
        · exact .inr ⟨m, o, (over_snoc _ _ _ k m o).2 (.inl h1)⟩
      · rcases next_step hev hk with hk' | hp
        · rcases ih k hk' with hp | ⟨m, o, ho⟩
          · rcases placed_step hev hd h1 hp with hp | ⟨w, o', j, he, hw⟩
            · exact .inl hp
            · obtain ⟨m, o, ho⟩ := hover w o' j (h2 w o' he) hw
              exact .inr ⟨m, o, (over_snoc _ _ _ k m o).2 (.inr ho)⟩
          · exact .inr ⟨m, o, (over_snoc _ _ _ k m o).2 (.inl ho)⟩
        · exact .inl hp
    cases e with
    | batch be =>
      unfold Fleet.step at hs
      split at hs
      · cases hs
      cases hbe : be with
      | ends w o => subst hbe; cases hs
      | _ =>
        subst hbe
        simp only [Option.map_eq_some_iff] at hs
        obtain ⟨⟨b, bo⟩, hstep, hs⟩ := hs
        cases hs
        exact moved hstep (by simp)
    | begins n d =>
      unfold Fleet.step at hs
      split at hs
      · cases hs
      simp only at hs
      split at hs
      · cases hs; exact unchanged rfl
      · cases hs
    | goesOn n re =>
      unfold Fleet.step at hs
      split at hs
      · cases hs
      simp only at hs
      split at hs
      · rw [Option.map_eq_some_iff] at hs
        obtain ⟨r, -, hs⟩ := hs
        cases hs; exact unchanged rfl
      · cases hs
    | ends w sv =>
      obtain ⟨-, n, m, r, b, bo, hw, -, hstep, rfl, rfl⟩ := step_ends_some.1 hs
      refine moved hstep ?_
      intro w' o m' he hw'
      cases he
      rw [hw] at hw'
      cases hw'
      exact ⟨_, _, List.mem_singleton.2 rfl⟩
    | leftover n ne =>
      unfold Fleet.step at hs
      split at hs
      · cases hs
      simp only at hs
      split at hs
      · split at hs
        · rw [Option.map_eq_some_iff] at hs
          obtain ⟨r, -, hs⟩ := hs
          cases hs; exact unchanged rfl
        · cases hs
      · cases hs

end

end Demag
