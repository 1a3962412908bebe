import Verif.Props.FleetGet
import Verif.Props.AppDht
import Verif.Model.NetBatch

/-!
# Auxiliary facts about a batch with all its conversations
-/

namespace Demag

open Spec Props

section
variable {J R : Type}

/-- All jobs that are waiting, in hand or at work are as `g` says. -/
def JobsAre (g : Nat → J → Prop) (s : Nursery J R) : Prop :=
  (∀ x ∈ s.queue, g x.1 x.2) ∧ ∀ w ∈ s.workers, ∀ k j, w = .received k j ∨ w = .running k j → g k j

theorem JobsAre.new (g : Nat → J → Prop) (n : Nat) : JobsAre (R := R) g (.new n) := by
  refine ⟨by simp [Nursery.new], ?_⟩
  intro w hw k j h
  have := List.eq_of_mem_replicate hw
  subst this
  rcases h with h | h <;> cases h

theorem JobsAre.running {g : Nat → J → Prop} {s : Nursery J R} (h : JobsAre g s) {w k : Nat} {j : J} (hw : s.workers[w]? = some (.running k j)) : g k j :=
  h.2 _ (List.mem_of_getElem? hw) k j (.inr rfl)

theorem JobsAre.mono {g g' : Nat → J → Prop} {s : Nursery J R} (h : JobsAre g s) (hg : ∀ k j, g k j → g' k j) : JobsAre g' s :=
  ⟨fun x hx => hg _ _ (h.1 x hx), fun w hw k j hj => hg _ _ (h.2 w hw k j hj)⟩

theorem JobsAre.step {g : Nat → J → Prop} {s s' : Nursery J R} (h : JobsAre g s) {e : NurseryEvent J R} {out : List (NurseryOutput J R)}
    (hs : s.step e = some (s', out)) (hg : ∀ j, e = .spawn j → g s.next j) : JobsAre g s' := by
  obtain ⟨h1, h2⟩ := h
  have upd : ∀ (v : Nat) (y : Worker J), (∀ k j, y = .received k j ∨ y = .running k j → g k j) →
      ∀ w ∈ s.workers.set v y, ∀ k j, w = .received k j ∨ w = .running k j → g k j := by
    intro v y hy w hw k j hj
    rcases List.mem_or_eq_of_mem_set hw with hw | rfl
    · exact h2 w hw k j hj
    · exact hy k j hj
  have none : ∀ (k : Nat) (j : J), (Worker.waiting : Worker J) = .received k j ∨ (Worker.waiting : Worker J) = .running k j → g k j := by
    rintro k j (h | h) <;> cases h
  have none' : ∀ (k : Nat) (j : J), (Worker.stopped : Worker J) = .received k j ∨ (Worker.stopped : Worker J) = .running k j → g k j := by
    rintro k j (h | h) <;> cases h
  cases e <;> simp only [Nursery.step] at hs
  case spawn j =>
    repeat' split at hs
    · cases hs
    · cases hs; exact ⟨h1, h2⟩
    · cases hs
      refine ⟨?_, h2⟩
      intro x hx
      rcases List.mem_append.1 hx with hx | hx
      · exact h1 x hx
      · cases List.mem_singleton.1 hx; exact hg j rfl
  case take w =>
    split at hs
    · rename_i n j q hq hqu
      cases hs
      refine ⟨fun x hx => h1 x (by rw [hqu]; exact List.mem_cons_of_mem _ hx), upd _ _ ?_⟩
      rintro k j' (h | h) <;> cases h
      exact h1 (n, j) (by rw [hqu]; exact List.mem_cons_self)
    · cases hs
  case check w =>
    split at hs
    · rename_i n j hw
      split at hs <;> cases hs
      · exact ⟨h1, upd _ _ none'⟩
      · refine ⟨h1, upd _ _ ?_⟩
        rintro k j' (h | h) <;> cases h
        exact h2 _ (List.mem_of_getElem? hw) n j (.inl rfl)
    · cases hs
  all_goals
    (repeat' split at hs) <;> first
      | (cases hs; done)
      | (cases hs; exact ⟨h1, h2⟩)
      | (cases hs; exact ⟨h1, upd _ _ none⟩)
      | (cases hs; exact ⟨h1, upd _ _ none'⟩)

theorem step_next {s s' : Nursery J R} {e : NurseryEvent J R} {out : List (NurseryOutput J R)} (hs : s.step e = some (s', out)) :
    (s'.next = s.next ∧ ∀ n j, out ≠ [.accepted n j]) ∨ ∃ j, e = .spawn j ∧ out = [.accepted s.next j] ∧ s'.next = s.next + 1 := by
  cases e <;> simp only [Nursery.step] at hs <;> (repeat' split at hs) <;> cases hs <;> simp

/-- The jobs of a nursery, as they were accepted. -/
def JobsOf (g : List J) (s : Nursery J R) : Prop := JobsAre (fun k j => g[k]? = some j) s ∧ g.length = s.next

theorem JobsOf.quiet {g : List J} {s s' : Nursery J R} (h : JobsOf g s) {e : NurseryEvent J R} {out : List (NurseryOutput J R)}
    (hs : s.step e = some (s', out)) (hq : ∀ n j, out ≠ [.accepted n j]) : JobsOf g s' := by
  rcases step_next hs with ⟨h1, h1'⟩ | ⟨j, rfl, h2, h3⟩
  · refine ⟨?_, h.2.trans h1.symm⟩
    by_cases he : ∃ j, e = .spawn j
    · obtain ⟨j, rfl⟩ := he
      simp only [Nursery.step] at hs
      (repeat' split at hs) <;> cases hs
      · exact h.1
      · simp at h1
    · exact h.1.step hs (fun j hj => absurd ⟨j, hj⟩ he)
  · exact absurd h2 (hq _ _)

theorem JobsOf.accepts {g : List J} {s s' : Nursery J R} (h : JobsOf g s) {e : NurseryEvent J R} {k : Nat} {j : J}
    (hs : s.step e = some (s', [.accepted k j])) : JobsOf (g ++ [j]) s' := by
  rcases step_next hs with ⟨h1, h1'⟩ | ⟨j', rfl, h2, h3⟩
  · exact absurd rfl (h1' _ _)
  · cases h2
    refine ⟨?_, by simp [h3, h.2]⟩
    have hm : JobsAre (fun k i => (g ++ [j])[k]? = some i) s := by
      refine h.1.mono fun k i hk => ?_
      rw [List.getElem?_append_left]
      · exact hk
      · exact (List.getElem?_eq_some_iff.1 hk).1
    refine hm.step hs fun i hi => ?_
    cases hi
    rw [← h.2]
    simp

end

section
variable {T P A D I ε : Type} [DecidableEq A] {addr : P → A} {all : List T} {s s' : Resolve T P A D I ε} {e : ResolveEvent P ε I}
  {out : List (ResolveOutput T P D I ε)}

/-- What a step of a download does to the peers' nursery. -/
theorem resolve_peers_step (hs : s.step addr all e = some (s', out)) {g : List P} (hg : JobsOf g s.peers) :
    JobsOf (g ++ out.filterMap contactOf) s'.peers := by
  have same : s'.peers = s.peers → out.filterMap contactOf = [] → JobsOf (g ++ out.filterMap contactOf) s'.peers := by
    intro h1 h2
    rw [h1, h2, List.append_nil]
    exact hg
  have quiet : ∀ {ne o q}, s.peers.step ne = some (q, o) → (∀ p, ne ≠ .spawn p) → s'.peers = q → out.filterMap contactOf = [] →
      JobsOf (g ++ out.filterMap contactOf) s'.peers := by
    intro ne o q hn hne h1 h2
    rw [h1, h2, List.append_nil]
    refine hg.quiet hn ?_
    rcases step_next hn with ⟨-, h⟩ | ⟨j, h, -⟩
    · exact h
    · exact absurd h (hne j)
  have endJob : ∀ {r : Resolve T P A D I ε} {o}, r.peers = s.peers → o.filterMap contactOf = [] → r.endJob o = some (s', out) →
      JobsOf (g ++ out.filterMap contactOf) s'.peers := by
    intro r o hr ho h
    unfold Resolve.endJob at h
    rw [hr, Option.map_eq_some_iff] at h
    obtain ⟨x, hx, h⟩ := h
    cases h
    exact quiet hx (by intro p hp; cases hp) rfl ho
  have peerStep : ∀ {ne o}, (∀ p, ne ≠ .spawn p) → o.filterMap contactOf = [] → s.peerStep ne o = some (s', out) →
      JobsOf (g ++ out.filterMap contactOf) s'.peers := by
    intro ne o hne ho h
    unfold Resolve.peerStep at h
    rw [Option.map_eq_some_iff] at h
    obtain ⟨x, hx, h⟩ := h
    cases h
    exact quiet hx hne rfl ho
  have trackerStep : ∀ {ne o}, o.filterMap contactOf = [] → s.trackerStep ne o = some (s', out) → JobsOf (g ++ out.filterMap contactOf) s'.peers := by
    intro ne o ho h
    unfold Resolve.trackerStep at h
    split at h
    · rw [Option.map_eq_some_iff] at h
      obtain ⟨x, hx, h⟩ := h
      cases h
      exact same rfl ho
    · cases h
  unfold Resolve.step at hs
  split at hs
  · cases hs
  cases e with
  | spawnTracker =>
    simp only at hs
    (repeat' split at hs) <;> first | (cases hs; done) | (cases hs; exact same rfl rfl)
  | startJob =>
    simp only at hs
    (repeat' split at hs) <;> try (cases hs; done)
    · rw [Option.map_eq_some_iff] at hs
      obtain ⟨x, hx, hs⟩ := hs
      cases hs
      exact same rfl rfl
    · cases hs; exact same rfl rfl
  | trackerTake w => exact trackerStep rfl hs
  | trackerCheck w => exact trackerStep rfl hs
  | trackerExit w => exact trackerStep rfl hs
  | trackerEnds w r =>
    simp only at hs
    split at hs
    · refine trackerStep ?_ hs
      split <;> rfl
    · cases hs
  | nextPeer =>
    simp only at hs
    split at hs
    · rename_i p ps _ _
      split at hs
      · cases hs; exact same rfl rfl
      · split at hs
        · rename_i k j hn
          cases hs
          rcases step_next hn with ⟨-, h⟩ | ⟨j', h1, h2, -⟩
          · exact absurd rfl (h _ _)
          · cases h1
            cases h2
            exact hg.accepts hn
        · exact endJob rfl rfl hs
        · cases hs
    · cases hs
  | nextBatch =>
    simp only at hs
    split at hs
    · split at hs
      · cases hs; exact same rfl rfl
      · exact endJob rfl rfl hs
      · cases hs
    · cases hs
  | noMorePeers =>
    simp only at hs
    split at hs
    · split at hs
      · exact endJob rfl rfl hs
      · cases hs
    · exact endJob rfl rfl hs
    · cases hs
  | peerTake w => exact peerStep (by intro p hp; cases hp) rfl hs
  | peerCheck w => exact peerStep (by intro p hp; cases hp) rfl hs
  | peerExit w => exact peerStep (by intro p hp; cases hp) rfl hs
  | peerEnds w r =>
    simp only at hs
    split at hs
    · exact peerStep (by intro p hp; cases hp) rfl hs
    · cases hs
  | receive =>
    simp only at hs
    split at hs
    · cases hs
    · split at hs <;> rename_i hn <;> first | (cases hs; done) | (cases hs; exact quiet hn (by intro p hp; cases hp) rfl rfl)
  | receiveNone =>
    simp only at hs
    split at hs
    · cases hs
    · split at hs
      · rename_i hn
        cases hs
        exact quiet hn (by intro p hp; cases hp) rfl rfl
      · cases hs

/-- The trackers not spawned yet, and the tasks of those that are. -/
def TrackJobs (all : List T) (s : Resolve T P A D I ε) : Prop :=
  ∀ q, s.trackers = some q → JobsAre (fun k t => all[k]? = some t) q ∧ s.todo = all.drop q.next

theorem TrackJobs.start (dht : Except ε (List P × List D)) (jobsT jobsP : Nat) :
    TrackJobs all (Resolve.start all dht jobsT jobsP : Resolve T P A D I ε) := by
  intro q hq
  unfold Resolve.start at hq ⊢
  split at hq
  · split at hq <;> cases hq
  · cases hq
    exact ⟨JobsAre.new _ _, by simp [Nursery.new]⟩

theorem TrackJobs.step (h : TrackJobs all s) (hs : s.step addr all e = some (s', out)) : TrackJobs all s' := by
  have same : s'.trackers = s.trackers → s'.todo = s.todo → TrackJobs all s' := by
    intro h1 h2 q hq
    rw [h1] at hq
    rw [h2]
    exact h q hq
  have quiet : ∀ {q q' : Nursery T (List P)} {ne o}, s.trackers = some q → q.step ne = some (q', o) → (∀ t, ne ≠ .spawn t) →
      s'.trackers = some q' → s'.todo = s.todo → TrackJobs all s' := by
    intro q q' ne o hq hn hne h1 h2 x hx
    rw [h1] at hx
    cases hx
    obtain ⟨h3, h4⟩ := h q hq
    refine ⟨h3.step hn fun j hj => absurd hj (hne j), ?_⟩
    rcases step_next hn with ⟨h5, -⟩ | ⟨j, h5, -⟩
    · rw [h2, h4, h5]
    · exact absurd h5 (hne j)
  have gone : s'.trackers = none → TrackJobs all s' := by
    intro h1 q hq
    rw [h1] at hq
    cases hq
  have endJob : ∀ {r : Resolve T P A D I ε} {o}, r.endJob o = some (s', out) → TrackJobs all s' := by
    intro r o h
    unfold Resolve.endJob at h
    rw [Option.map_eq_some_iff] at h
    obtain ⟨x, hx, h⟩ := h
    cases h
    exact gone rfl
  have peerStep : ∀ {ne o}, s.peerStep ne o = some (s', out) → TrackJobs all s' := by
    intro ne o h
    unfold Resolve.peerStep at h
    rw [Option.map_eq_some_iff] at h
    obtain ⟨x, hx, h⟩ := h
    cases h
    exact same rfl rfl
  have trackerStep : ∀ {ne o}, (∀ t, ne ≠ .spawn t) → s.trackerStep ne o = some (s', out) → TrackJobs all s' := by
    intro ne o hne h
    unfold Resolve.trackerStep at h
    split at h
    · rename_i n hn
      rw [Option.map_eq_some_iff] at h
      obtain ⟨x, hx, h⟩ := h
      cases h
      exact quiet hn hx hne rfl rfl
    · cases h
  unfold Resolve.step at hs
  split at hs
  · cases hs
  cases e with
  | spawnTracker =>
    simp only at hs
    split at hs
    · rename_i t ts htodo
      split at hs
      · rename_i n k j hn
        cases hs
        rw [Option.bind_eq_some_iff] at hn
        obtain ⟨q, hq, hn⟩ := hn
        obtain ⟨h3, h4⟩ := h q hq
        rcases step_next hn with ⟨-, h5⟩ | ⟨j', h5, h6, h7⟩
        · exact absurd rfl (h5 _ _)
        · cases h5
          intro x hx
          cases hx
          have hd : all.drop q.next = t :: ts := by rw [← h4, htodo]
          refine ⟨h3.step hn fun i hi => ?_, ?_⟩
          · cases hi
            have : (all.drop q.next)[0]? = some t := by rw [hd]; rfl
            simpa using this
          · show ts = _
            rw [h7, ← List.drop_drop, hd]
            rfl
      · cases hs
        exact same rfl rfl
      · cases hs
    · cases hs
  | startJob =>
    simp only at hs
    (repeat' split at hs) <;> try (cases hs; done)
    · rename_i n hn
      rw [Option.map_eq_some_iff] at hs
      obtain ⟨x, hx, hs⟩ := hs
      cases hs
      exact quiet hn hx (by intro t ht; cases ht) rfl rfl
    · cases hs; exact same rfl rfl
  | trackerTake w => exact trackerStep (by intro t ht; cases ht) hs
  | trackerCheck w => exact trackerStep (by intro t ht; cases ht) hs
  | trackerExit w => exact trackerStep (by intro t ht; cases ht) hs
  | trackerEnds w r =>
    simp only at hs
    split at hs
    · exact trackerStep (by intro t ht; cases ht) hs
    · cases hs
  | nextPeer =>
    simp only at hs
    split at hs
    · split at hs
      · cases hs; exact same rfl rfl
      · split at hs
        · cases hs
          exact same rfl rfl
        · exact endJob hs
        · cases hs
    · cases hs
  | nextBatch =>
    simp only at hs
    split at hs
    · rename_i n _ _ hn
      split at hs
      · rename_i hx
        cases hs; exact quiet hn hx (by intro t ht; cases ht) rfl rfl
      · exact endJob hs
      · cases hs
    · cases hs
  | noMorePeers =>
    simp only at hs
    split at hs
    · split at hs
      · exact endJob hs
      · cases hs
    · exact endJob hs
    · cases hs
  | peerTake w => exact peerStep hs
  | peerCheck w => exact peerStep hs
  | peerExit w => exact peerStep hs
  | peerEnds w r =>
    simp only at hs
    split at hs
    · exact peerStep hs
    · cases hs
  | receive =>
    simp only at hs
    split at hs
    · cases hs
    · split at hs <;> cases hs <;> exact same rfl rfl
  | receiveNone =>
    simp only at hs
    split at hs
    · cases hs
    · split at hs
      · cases hs
        exact same rfl rfl
      · cases hs

/-- What is observed when tasks end. -/
theorem resolve_step_ends (hs : s.step addr all e = some (s', out)) :
    s.result = none ∧
    (∀ t, .trackerPanic t ∈ out → ∃ w, e = .trackerEnds w .panic) ∧
    (∀ t ps, .answer t ps ∈ out → ∃ w r k q, e = .trackerEnds w r ∧ trackerPeers r = .value ps ∧ s.trackers = some q ∧
      q.workers[w]? = some (.running k t)) ∧
    ∀ p r, .peerDone p r ∈ out → ∃ w k, e = .peerEnds w r ∧ s.peers.workers[w]? = some (.running k p) := by
  unfold Resolve.step at hs
  split at hs
  · cases hs
  rename_i hres
  refine ⟨by simpa using hres, ?_⟩
  have endJob : ∀ {r : Resolve T P A D I ε} {o}, r.endJob o = some (s', out) → out = o := by
    intro r o h
    unfold Resolve.endJob at h
    rw [Option.map_eq_some_iff] at h
    obtain ⟨x, hx, h⟩ := h
    cases h
    rfl
  have peerStep : ∀ {ne o}, s.peerStep ne o = some (s', out) → out = o := by
    intro ne o h
    unfold Resolve.peerStep at h
    rw [Option.map_eq_some_iff] at h
    obtain ⟨x, hx, h⟩ := h
    cases h
    rfl
  have trackerStep : ∀ {ne o}, s.trackerStep ne o = some (s', out) → out = o := by
    intro ne o h
    unfold Resolve.trackerStep at h
    split at h
    · rw [Option.map_eq_some_iff] at h
      obtain ⟨x, hx, h⟩ := h
      cases h
      rfl
    · cases h
  cases e with
  | spawnTracker =>
    simp only at hs
    (repeat' split at hs) <;> cases hs <;> simp
  | startJob =>
    simp only at hs
    (repeat' split at hs) <;> try (cases hs; done)
    · rw [Option.map_eq_some_iff] at hs
      obtain ⟨x, hx, hs⟩ := hs
      cases hs
      simp
    · cases hs; simp
  | trackerTake w => rw [trackerStep hs]; simp
  | trackerCheck w => rw [trackerStep hs]; simp
  | trackerExit w => rw [trackerStep hs]; simp
  | trackerEnds w r =>
    simp only at hs
    split at hs
    · rename_i k t hw
      rw [Option.bind_eq_some_iff] at hw
      obtain ⟨q, hq, hw⟩ := hw
      rw [trackerStep hs]
      cases hr : trackerPeers r with
      | value ps =>
        simp only [hr]
        refine ⟨by simp, ?_, by simp⟩
        intro t' ps' hm
        cases List.mem_singleton.1 hm
        exact ⟨w, r, k, q, rfl, hr, hq, hw⟩
      | panic =>
        simp only [hr]
        refine ⟨?_, by simp, by simp⟩
        intro t' hm
        refine ⟨w, ?_⟩
        cases r with
        | value x => cases x <;> cases hr
        | panic => rfl
    · cases hs
  | nextPeer =>
    simp only at hs
    split at hs
    · split at hs
      · cases hs; simp
      · split at hs
        · cases hs
          simp
        · rw [endJob hs]; simp
        · cases hs
    · cases hs
  | nextBatch =>
    simp only at hs
    split at hs
    · split at hs
      · cases hs; simp
      · rw [endJob hs]; simp
      · cases hs
    · cases hs
  | noMorePeers =>
    simp only at hs
    split at hs
    · split at hs
      · rw [endJob hs]; simp
      · cases hs
    · rw [endJob hs]; simp
    · cases hs
  | peerTake w => rw [peerStep hs]; simp
  | peerCheck w => rw [peerStep hs]; simp
  | peerExit w => rw [peerStep hs]; simp
  | peerEnds w r =>
    simp only at hs
    split at hs
    · rename_i k p hw
      rw [peerStep hs]
      refine ⟨by simp, by simp, ?_⟩
      intro p' r' hm
      cases List.mem_singleton.1 hm
      exact ⟨w, k, rfl, hw⟩
    · cases hs
  | receive =>
    simp only at hs
    split at hs
    · cases hs
    · split at hs <;> cases hs <;> simp
  | receiveNone =>
    simp only at hs
    split at hs
    · cases hs
    · split at hs
      · cases hs
        simp
      · cases hs

end

end Demag
