import Verif.Props.Nursery
import Mathlib.Data.List.Nodup
import Mathlib.Data.List.Perm.Subperm

/-! Helper lemmas: a nursery that is neither shut down nor abandoned, seen from outside. -/

namespace Demag

open Spec Props

variable {J R : Type}

/-- The jobs in the queue and with the workers are among those accepted, under their number. -/
theorem nursery_jobs {N : Nat} {tr : NurseryTrace J R} {s : Nursery J R} (h : NurseryRun N tr s) :
    (∀ x ∈ s.queue, x ∈ acceptedJobs tr) ∧
    ∀ (w n : Nat) (j : J), s.workers[w]? = some (.received n j) ∨ s.workers[w]? = some (.running n j) → (n, j) ∈ acceptedJobs tr := by
  induction h with
  | init =>
    refine ⟨by simp [Nursery.new], ?_⟩
    rintro w n j (h | h) <;>
    · simp only [Nursery.new, List.getElem?_replicate] at h
      split at h <;> simp at h
  | @step tr s s' e out hr hs ih =>
    obtain ⟨ih1, ih2⟩ := ih
    rw [acceptedJobs_snoc]
    have same : s'.queue = s.queue → s'.workers = s.workers →
        (∀ x ∈ s'.queue, x ∈ acceptedJobs tr ++ out.filterMap acceptedOf) ∧
        ∀ (w n : Nat) (j : J), s'.workers[w]? = some (.received n j) ∨ s'.workers[w]? = some (.running n j) →
          (n, j) ∈ acceptedJobs tr ++ out.filterMap acceptedOf := by
      intro h1 h2
      rw [h1, h2]
      exact ⟨fun x hx => List.mem_append_left _ (ih1 x hx), fun w n j h => List.mem_append_left _ (ih2 w n j h)⟩
    -- replacing a worker
    have upd : ∀ (w : Nat) (b : Worker J), s'.workers = s.workers.set w b → (∀ x ∈ s'.queue, x ∈ s.queue) →
        (∀ n j, b = .received n j ∨ b = .running n j → (n, j) ∈ acceptedJobs tr) →
        (∀ x ∈ s'.queue, x ∈ acceptedJobs tr ++ out.filterMap acceptedOf) ∧
        ∀ (w n : Nat) (j : J), s'.workers[w]? = some (.received n j) ∨ s'.workers[w]? = some (.running n j) →
          (n, j) ∈ acceptedJobs tr ++ out.filterMap acceptedOf := by
      intro w b h1 h2 h3
      refine ⟨fun x hx => List.mem_append_left _ (ih1 x (h2 x hx)), ?_⟩
      intro v n j hv
      apply List.mem_append_left
      rw [h1] at hv
      simp only [List.getElem?_set] at hv
      split at hv
      · split at hv
        · simp only [Option.some.injEq] at hv
          exact h3 n j hv
        · simp at hv
      · exact ih2 v n j hv
    cases e with
    | spawn j =>
      simp only [Nursery.step] at hs
      split at hs
      · cases hs
      · split at hs
        · cases hs; exact same rfl rfl
        · cases hs
          refine ⟨?_, fun w n j h => List.mem_append_left _ (ih2 w n j h)⟩
          intro x hx
          simp only [List.mem_append, List.mem_singleton] at hx
          rcases hx with hx | rfl
          · exact List.mem_append_left _ (ih1 x hx)
          · simp [acceptedOf]
    | clone => simp only [Nursery.step] at hs; split at hs; · cases hs
               · cases hs; exact same rfl rfl
    | dropHandle => simp only [Nursery.step] at hs; split at hs; · cases hs
                    · cases hs; exact same rfl rfl
    | close => simp only [Nursery.step] at hs; split at hs; · cases hs
               · cases hs; exact same rfl rfl
    | setDone =>
      simp only [Nursery.step] at hs
      split at hs
      · cases hs; exact same rfl rfl
      · cases hs
    | take w =>
      simp only [Nursery.step] at hs
      split at hs
      · rename_i n j q h1 h2
        cases hs
        refine upd w _ rfl (by intro x hx; rw [h2]; exact List.mem_cons_of_mem _ hx) ?_
        rintro n' j' (h | h) <;> cases h
        exact ih1 _ (by rw [h2]; simp)
      · cases hs
    | check w =>
      simp only [Nursery.step] at hs
      split at hs
      · rename_i n j h1
        split at hs
        · cases hs
          exact upd w .stopped rfl (fun x hx => hx) (by rintro n' j' (h | h) <;> cases h)
        · cases hs
          refine upd w _ rfl (fun x hx => hx) ?_
          rintro n' j' (h | h) <;> cases h
          exact ih2 w n j (.inl h1)
      · cases hs
    | finish w o =>
      simp only [Nursery.step] at hs
      split at hs
      · split at hs
        · cases hs
          exact upd w .waiting rfl (fun x hx => hx) (by rintro n' j' (h | h) <;> cases h)
        · cases hs
          exact upd w .stopped rfl (fun x hx => hx) (by rintro n' j' (h | h) <;> cases h)
      · cases hs
    | exit w =>
      simp only [Nursery.step] at hs
      split at hs
      · split at hs
        · cases hs
          exact upd w .stopped rfl (fun x hx => hx) (by rintro n' j' (h | h) <;> cases h)
        · cases hs
      · cases hs
    | recv =>
      simp only [Nursery.step] at hs
      split at hs
      · split at hs
        · cases hs; exact same rfl rfl
        · cases hs
      · cases hs
    | recvNone =>
      simp only [Nursery.step] at hs
      split at hs
      · cases hs; exact same rfl rfl
      · cases hs
    | dropStream =>
      simp only [Nursery.step] at hs
      split at hs
      · cases hs; exact same rfl rfl
      · cases hs
    | abort w =>
      simp only [Nursery.step] at hs
      split at hs
      · cases hs
      · split at hs <;> first
          | (cases hs; done)
          | (cases hs; exact upd w .stopped rfl (fun x hx => hx) (by rintro n' j' (h | h) <;> cases h))

/-- The nursery `n` with `N` workers has accepted the jobs `acc`; those in `fin` have ended, in that order, with these outcomes;
the first `d` of them have been delivered.  It was neither shut down nor abandoned; it is closed exactly if no handle is
left. -/
def Follows (N : Nat) (n : Nursery J R) (acc : List J) (fin : List (J × Outcome R)) (d : Nat) : Prop :=
  ∃ (tr : NurseryTrace J R) (L : List (Nat × J × Outcome R)), NurseryRun N tr n ∧ ¬ ShutDown tr ∧ ¬ StreamDropped tr ∧
    (∀ e ∈ tr, e.1 ≠ .close) ∧ (acceptedJobs tr).map Prod.snd = acc ∧ finishedJobs tr = L.map (fun x => (x.1, x.2.2)) ∧
    fin = L.map Prod.snd ∧ (∀ x ∈ L, (x.1, x.2.1) ∈ acceptedJobs tr) ∧ (deliveredJobs tr).length = d

theorem follows_new (N : Nat) : Follows N (Nursery.new N : Nursery J R) [] [] 0 := by
  refine ⟨[], [], .init, ?_, ?_, by simp, rfl, rfl, rfl, by simp, rfl⟩
  · rintro ⟨o, ho⟩; cases ho
  · rintro ⟨o, ho⟩; cases ho

section
variable {N : Nat} {n n' : Nursery J R} {acc : List J} {fin : List (J × Outcome R)} {d : Nat} {out : List (NurseryOutput J R)}

theorem follows_closed (h : Follows N n acc fin d) : n.closed = true ↔ n.handles = 0 := by
  obtain ⟨tr, L, h1, h2, h3, h4, -⟩ := h
  have hi := nursery_inv h1
  rw [hi.closed]
  constructor
  · rintro (⟨e, he, h | h⟩ | h)
    · exact absurd h (h4 e he)
    · exact absurd ⟨e.2, by rw [← h]; exact he⟩ h3
    · exact h
  · exact .inr

theorem follows_spawn {j : J} (h : Follows N n acc fin d) (hc : n.handles ≠ 0) (hs : n.step (.spawn j) = some (n', out)) :
    (∃ k, out = [.accepted k j]) ∧ Follows N n' (acc ++ [j]) fin d ∧ n'.handles = n.handles := by
  have hcl : n.closed = false := by
    cases hcl : n.closed with
    | false => rfl
    | true => exact absurd ((follows_closed h).1 hcl) hc
  have hs' := hs
  simp only [Nursery.step, if_neg hc, hcl] at hs
  simp only [Bool.false_eq_true, if_false, Option.some.injEq, Prod.mk.injEq] at hs
  obtain ⟨rfl, rfl⟩ := hs
  obtain ⟨tr, L, h1, h2, h3, h4, h5, h6, h7, h8, h9⟩ := h
  refine ⟨⟨_, rfl⟩, ⟨tr ++ [(.spawn j, [.accepted n.next j])], L, .step h1 hs', ?_, ?_, ?_, ?_, ?_, h7, ?_, ?_⟩, rfl⟩
  · rw [shutDown_snoc]; simpa using h2
  · rw [streamDropped_snoc]; simpa using h3
  · intro e he
    rw [List.mem_append] at he
    rcases he with he | he
    · exact h4 e he
    · rw [List.mem_singleton] at he; subst he; simp
  · rw [acceptedJobs_snoc, List.map_append, h5]; rfl
  · rw [finishedJobs_snoc, h6]; simp [finishedOf]
  · intro x hx
    rw [acceptedJobs_snoc]
    exact List.mem_append_left _ (h8 x hx)
  · rw [deliveredJobs_snoc, List.length_append, h9]; rfl

/-- Events that accept, finish and deliver nothing. -/
theorem follows_quiet {e : NurseryEvent J R} (h : Follows N n acc fin d) (hs : n.step e = some (n', out))
    (he : e ≠ .setDone ∧ e ≠ .dropStream ∧ e ≠ .close) (ha : out.filterMap acceptedOf = []) (hf : out.filterMap finishedOf = [])
    (hd : out.filterMap deliveredOf = []) : Follows N n' acc fin d := by
  obtain ⟨tr, L, h1, h2, h3, h4, h5, h6, h7, h8, h9⟩ := h
  refine ⟨tr ++ [(e, out)], L, .step h1 hs, ?_, ?_, ?_, ?_, ?_, h7, ?_, ?_⟩
  · rw [shutDown_snoc]; simp [h2, he.1]
  · rw [streamDropped_snoc]; simp [h3, he.2.1]
  · intro e' he'
    rw [List.mem_append] at he'
    rcases he' with he' | he'
    · exact h4 e' he'
    · rw [List.mem_singleton] at he'; subst he'; exact he.2.2
  · rw [acceptedJobs_snoc, ha, List.append_nil, h5]
  · rw [finishedJobs_snoc, hf, List.append_nil, h6]
  · intro x hx
    rw [acceptedJobs_snoc]
    exact List.mem_append_left _ (h8 x hx)
  · rw [deliveredJobs_snoc, hd, List.append_nil, h9]

theorem follows_dropHandle (h : Follows N n acc fin d) (hs : n.step .dropHandle = some (n', out)) :
    Follows N n' acc fin d ∧ n'.handles = n.handles - 1 := by
  have hs' := hs
  simp only [Nursery.step] at hs
  split at hs
  · cases hs
  · cases hs
    exact ⟨follows_quiet h hs' (by simp) rfl rfl rfl, rfl⟩

theorem follows_take {w : Nat} (h : Follows N n acc fin d) (hs : n.step (.take w) = some (n', out)) :
    Follows N n' acc fin d ∧ n'.handles = n.handles := by
  have hs' := hs
  simp only [Nursery.step] at hs
  split at hs
  · cases hs
    exact ⟨follows_quiet h hs' (by simp) rfl rfl rfl, rfl⟩
  · cases hs

theorem follows_check {w : Nat} (h : Follows N n acc fin d) (hs : n.step (.check w) = some (n', out)) :
    Follows N n' acc fin d ∧ n'.handles = n.handles := by
  have hs' := hs
  simp only [Nursery.step] at hs
  split at hs
  · split at hs
    · cases hs
      exact ⟨follows_quiet h hs' (by simp) rfl rfl rfl, rfl⟩
    · cases hs
      exact ⟨follows_quiet h hs' (by simp) rfl rfl rfl, rfl⟩
  · cases hs

theorem follows_exit {w : Nat} (h : Follows N n acc fin d) (hs : n.step (.exit w) = some (n', out)) :
    Follows N n' acc fin d ∧ n'.handles = n.handles := by
  have hs' := hs
  simp only [Nursery.step] at hs
  split at hs
  · split at hs
    · cases hs
      exact ⟨follows_quiet h hs' (by simp) rfl rfl rfl, rfl⟩
    · cases hs
  · cases hs

theorem follows_alive (h : Follows N n acc fin d) : n.alive = true := by
  obtain ⟨tr, L, h1, h2, h3, -⟩ := h
  cases ha : n.alive with
  | true => rfl
  | false => exact absurd ((nursery_inv h1).dropped.1 ha) h3

theorem follows_finish {w k : Nat} {j : J} {o : Outcome R} (h : Follows N n acc fin d) (hw : n.workers[w]? = some (.running k j))
    (hs : n.step (.finish w o) = some (n', out)) : Follows N n' acc (fin ++ [(j, o)]) d ∧ n'.handles = n.handles := by
  have ha := follows_alive h
  have hs' := hs
  simp only [Nursery.step, hw, ha, if_true, Option.some.injEq, Prod.mk.injEq] at hs
  obtain ⟨rfl, rfl⟩ := hs
  obtain ⟨tr, L, h1, h2, h3, h4, h5, h6, h7, h8, h9⟩ := h
  refine ⟨⟨tr ++ [(.finish w o, [.finished k o])], L ++ [(k, j, o)], .step h1 hs', ?_, ?_, ?_, ?_, ?_, ?_, ?_, ?_⟩, rfl⟩
  · rw [shutDown_snoc]; simpa using h2
  · rw [streamDropped_snoc]; simpa using h3
  · intro e he
    rw [List.mem_append] at he
    rcases he with he | he
    · exact h4 e he
    · rw [List.mem_singleton] at he; subst he; simp
  · rw [acceptedJobs_snoc, List.map_append, h5]; simp [acceptedOf]
  · rw [finishedJobs_snoc, h6]; simp [finishedOf, List.filterMap]
  · rw [h7]; simp
  · intro x hx
    rw [acceptedJobs_snoc]
    apply List.mem_append_left
    rw [List.mem_append] at hx
    rcases hx with hx | hx
    · exact h8 x hx
    · rw [List.mem_singleton] at hx
      subst hx
      exact (nursery_jobs h1).2 w k j (.inr hw)
  · rw [deliveredJobs_snoc, List.length_append, h9]; rfl

theorem follows_recv (h : Follows N n acc fin d) (hs : n.step .recv = some (n', out)) :
    (∃ k j o, out = [.delivered k o] ∧ fin[d]? = some (j, o)) ∧ Follows N n' acc fin (d + 1) ∧ n'.handles = n.handles := by
  have ha := follows_alive h
  have hs' := hs
  simp only [Nursery.step, ha, if_true] at hs
  split at hs
  case h_2 => cases hs
  rename_i k o r ho
  cases hs
  obtain ⟨tr, L, h1, h2, h3, h4, h5, h6, h7, h8, h9⟩ := h
  have hi := nursery_inv h1
  have hf := hi.finished
  rw [h6, ho] at hf
  have hget : (L.map fun x => (x.1, x.2.2))[d]? = some (k, o) := by
    rw [hf, ← h9, List.getElem?_append_right (Nat.le_refl _)]; simp
  rw [List.getElem?_map, Option.map_eq_some_iff] at hget
  obtain ⟨x, hx, hxe⟩ := hget
  simp only [Prod.mk.injEq] at hxe
  refine ⟨⟨k, x.2.1, o, rfl, ?_⟩, ⟨tr ++ [(.recv, [.delivered k o])], L, .step h1 hs', ?_, ?_, ?_, ?_, ?_, h7, ?_, ?_⟩, rfl⟩
  · rw [h7, List.getElem?_map, hx, ← hxe.2]; rfl
  · rw [shutDown_snoc]; simpa using h2
  · rw [streamDropped_snoc]; simpa using h3
  · intro e he
    rw [List.mem_append] at he
    rcases he with he | he
    · exact h4 e he
    · rw [List.mem_singleton] at he; subst he; simp
  · rw [acceptedJobs_snoc, List.map_append, h5]; simp [acceptedOf]
  · rw [finishedJobs_snoc, h6]; simp [finishedOf]
  · intro x hx
    rw [acceptedJobs_snoc]
    exact List.mem_append_left _ (h8 x hx)
  · rw [deliveredJobs_snoc, List.length_append, h9]; rfl

theorem follows_le (h : Follows N n acc fin d) : d ≤ fin.length := by
  obtain ⟨tr, L, h1, h2, h3, h4, h5, h6, h7, h8, h9⟩ := h
  have := (nursery_at_most_once h1).2.2.2.2.1.length_le
  rw [h6, List.length_map, h9] at this
  rw [h7, List.length_map]
  exact this

theorem follows_mem (h : Follows N n acc fin d) : ∀ x ∈ fin, x.1 ∈ acc := by
  obtain ⟨tr, L, h1, h2, h3, h4, h5, h6, h7, h8, h9⟩ := h
  intro x hx
  rw [h7] at hx
  obtain ⟨y, hy, rfl⟩ := List.mem_map.1 hx
  rw [← h5]
  exact List.mem_map.2 ⟨_, h8 y hy, rfl⟩

/-- Everything delivered. -/
theorem follows_all {tr : NurseryTrace J R} {L : List (Nat × J × Outcome R)} (h1 : NurseryRun N tr n)
    (h6 : finishedJobs tr = L.map (fun x => (x.1, x.2.2))) (h8 : ∀ x ∈ L, (x.1, x.2.1) ∈ acceptedJobs tr)
    (hp : ((deliveredJobs tr).map Prod.fst).Perm ((acceptedJobs tr).map Prod.fst)) :
    (deliveredJobs tr).length = L.length ∧ ((L.map Prod.snd).map Prod.fst).Perm ((acceptedJobs tr).map Prod.snd) := by
  have hi := nursery_inv h1
  have hacc : ((acceptedJobs tr).map Prod.fst).Nodup := by rw [hi.accepted]; exact List.nodup_range
  have hfn : (L.map Prod.fst).Nodup := by
    have := (List.nodup_append.1 (nursery_once h1).2.2).1
    rw [h6, List.map_map] at this
    exact this
  -- every job that ended was accepted
  have hsub : ∀ k ∈ L.map Prod.fst, k ∈ (deliveredJobs tr).map Prod.fst := by
    intro k hk
    rw [hp.mem_iff]
    obtain ⟨x, hx, rfl⟩ := List.mem_map.1 hk
    exact List.mem_map.2 ⟨_, h8 x hx, rfl⟩
  have hpre := (nursery_at_most_once h1).2.2.2.2.1
  have hlen : (deliveredJobs tr).length = L.length := by
    have h1' := hpre.length_le
    rw [h6, List.length_map] at h1'
    have h2' := List.Subperm.length_le (List.subperm_of_subset hfn hsub)
    rw [List.length_map, List.length_map] at h2'
    omega
  refine ⟨hlen, ?_⟩
  have hfd : finishedJobs tr = deliveredJobs tr := (hpre.eq_of_length (by rw [hlen, h6, List.length_map])).symm
  have hp1 : (L.map fun x => (x.1, x.2.1)).Perm (acceptedJobs tr) := by
    have hnd1 : (L.map fun x => (x.1, x.2.1)).Nodup :=
      List.Nodup.of_map Prod.fst (by rw [List.map_map]; exact hfn)
    have hnd2 : (acceptedJobs tr).Nodup :=
      List.Nodup.of_map Prod.fst hacc
    rw [List.perm_ext_iff_of_nodup hnd1 hnd2]
    intro x
    constructor
    · intro hx
      obtain ⟨y, hy, rfl⟩ := List.mem_map.1 hx
      exact h8 y hy
    · intro hx
      have : x.1 ∈ (deliveredJobs tr).map Prod.fst := hp.mem_iff.2 (List.mem_map.2 ⟨x, hx, rfl⟩)
      rw [← hfd, h6, List.map_map] at this
      obtain ⟨y, hy, hye⟩ := List.mem_map.1 this
      have hy' := h8 y hy
      have : (y.1, y.2.1) = x := by
        have hinj := List.inj_on_of_nodup_map hacc
        exact hinj hy' hx hye
      exact List.mem_map.2 ⟨y, hy, this⟩
  have := hp1.map Prod.snd
  rw [List.map_map] at this ⊢
  exact this

theorem follows_recvNone (hN : 0 < N) (h : Follows N n acc fin d) (hs : n.step .recvNone = some (n', out)) :
    n' = n ∧ d = fin.length ∧ (fin.map Prod.fst).Perm acc ∧ n.handles = 0 := by
  have hn : n' = n := by
    simp only [Nursery.step] at hs
    split at hs
    · cases hs; rfl
    · cases hs
  have hcl := follows_closed h
  obtain ⟨tr, L, h1, h2, h3, h4, h5, h6, h7, h8, h9⟩ := h
  have he := nursery_end hN (.step h1 hs)
  obtain ⟨ha, hb⟩ := follows_all h1 h6 h8 (he.2 h2)
  refine ⟨hn, by rw [h7, List.length_map, ← ha, h9], by rw [h7, ← h5]; exact hb, ?_⟩
  rcases he.1 with ⟨e, hm, hc | hc⟩ | hc
  · exact absurd hc (h4 e hm)
  · exact absurd ⟨e.2, by rw [← hc]; exact hm⟩ h3
  · have := (nursery_inv h1).handles
    omega

/-- If no worker and no receiver can go on, everything is delivered. -/
theorem follows_stuck (hN : 0 < N) (h : Follows N n acc fin d) (hstuck : ∀ e, Internal e → n.step e = none) :
    d = fin.length ∧ (fin.map Prod.fst).Perm acc ∧ (n.handles = 0 → n.step .recvNone = some (n, [.ended])) := by
  obtain ⟨tr, L, h1, h2, h3, h4, h5, h6, h7, h8, h9⟩ := h
  have hp := nursery_progress h1 hN h2 h3 hstuck
  obtain ⟨ha, hb⟩ := follows_all h1 h6 h8 hp.1
  refine ⟨by rw [h7, List.length_map, ← ha, h9], by rw [h7, ← h5]; exact hb, fun hh => hp.2 (.inr ?_)⟩
  have := (nursery_inv h1).handles
  omega

end

theorem weight_spawn {J R : Type} {n n' : Nursery J R} {j : J} {out : List (NurseryOutput J R)}
    (h : n.step (.spawn j) = some (n', out)) : weight n' ≤ weight n + 4 := by
  simp only [Nursery.step] at h
  split at h
  · cases h
  · split at h
    · cases h; omega
    · cases h
      simp only [weight, List.length_append, List.length_singleton]
      omega

theorem weight_dropHandle {J R : Type} {n n' : Nursery J R} {out : List (NurseryOutput J R)}
    (h : n.step .dropHandle = some (n', out)) : weight n' = weight n := by
  simp only [Nursery.step] at h
  split at h
  · cases h
  · cases h; rfl

theorem weight_recvNone {J R : Type} {n n' : Nursery J R} {out : List (NurseryOutput J R)}
    (h : n.step .recvNone = some (n', out)) : n' = n := by
  simp only [Nursery.step] at h
  split at h
  · cases h; rfl
  · cases h

end Demag
