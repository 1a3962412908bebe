import Verif.Props.Aftermath

/-! Helper lemmas: where the jobs of a nursery are. -/

namespace Demag

open Spec Props

section
variable {J R : Type} {N : Nat} {n : Nursery J R} {acc : List J} {fin : List (J × Outcome R)} {d : Nat}

theorem mem_runningNum {n : Nursery J R} {k : Nat} (h : k ∈ n.workers.filterMap Worker.runningNum) : ∃ (w : Nat) (j : J), n.workers[w]? = some (.running k j) := by
  obtain ⟨x, hx, hk⟩ := List.mem_filterMap.1 h
  obtain ⟨w, hw⟩ := List.getElem?_of_mem hx
  cases x with
  | running k' j => cases hk; exact ⟨w, j, hw⟩
  | _ => cases hk

theorem mem_receivedNum {n : Nursery J R} {k : Nat} (h : k ∈ n.workers.filterMap Worker.receivedNum) : ∃ (w : Nat) (j : J), n.workers[w]? = some (.received k j) := by
  obtain ⟨x, hx, hk⟩ := List.mem_filterMap.1 h
  obtain ⟨w, hw⟩ := List.getElem?_of_mem hx
  cases x with
  | received k' j => cases hk; exact ⟨w, j, hw⟩
  | _ => cases hk

/-- Jobs with the same number are the same. -/
theorem accepted_unique {tr : NurseryTrace J R} (h : NurseryRun N tr n) {k : Nat} {j j' : J} (h1 : (k, j) ∈ acceptedJobs tr) (h2 : (k, j') ∈ acceptedJobs tr) :
    j = j' := by
  have hnd : ((acceptedJobs tr).map Prod.fst).Nodup := by rw [(nursery_inv h).accepted]; exact List.nodup_range
  have := List.inj_on_of_nodup_map hnd h1 h2 rfl
  exact congrArg Prod.snd this

/-- A job handed over has ended, is under way, is in the hands of a worker, or waits. -/
theorem follows_where (hf : Follows N n acc fin d) {j : J} (hj : j ∈ acc) :
    (∃ o, (j, o) ∈ fin) ∨ (∃ (w k : Nat), n.workers[w]? = some (.running k j)) ∨ (∃ (w k : Nat), n.workers[w]? = some (.received k j)) ∨ ∃ k, (k, j) ∈ n.queue := by
  have hal := follows_alive hf
  obtain ⟨tr, L, h1, h2, h3, h4, rfl, h6, rfl, h8, h9⟩ := hf
  have hi := nursery_inv h1
  obtain ⟨⟨k, j'⟩, hk, rfl⟩ := List.mem_map.1 hj
  have hkr : k ∈ tookJobs tr ++ n.queue.map Prod.fst := by
    rw [hi.queue, ← hi.accepted]
    exact List.mem_map_of_mem hk
  have hdone : n.done = false := by
    cases hd : n.done with
    | false => rfl
    | true => exact absurd (hi.done.1 hd) h2
  have hjobs := nursery_jobs h1
  rcases List.mem_append.1 hkr with ht | hq
  · rcases List.mem_append.1 (hi.took.mem_iff.1 ht) with hb | hr
    · rw [hi.discarded hal hdone, List.append_nil] at hb
      rcases List.mem_append.1 (hi.began.mem_iff.1 hb) with hfin | hrun
      · rw [hi.alive hal, List.append_nil, h6, List.map_map] at hfin
        obtain ⟨x, hx, hxk⟩ := List.mem_map.1 hfin
        simp only [Function.comp_apply] at hxk
        have := accepted_unique h1 (k := k) (by rw [← hxk]; exact h8 x hx) hk
        refine .inl ⟨x.2.2, List.mem_map.2 ⟨x, hx, ?_⟩⟩
        rw [← this]
      · obtain ⟨w, j, hw⟩ := mem_runningNum hrun
        have := accepted_unique h1 (hjobs.2 w k j (.inr hw)) hk
        subst this
        exact .inr (.inl ⟨w, k, hw⟩)
    · obtain ⟨w, j, hw⟩ := mem_receivedNum hr
      have := accepted_unique h1 (hjobs.2 w k j (.inl hw)) hk
      subst this
      exact .inr (.inr (.inl ⟨w, k, hw⟩))
  · obtain ⟨⟨k', j⟩, hx, rfl⟩ := List.mem_map.1 hq
    have := accepted_unique h1 (hjobs.1 _ hx) hk
    subst this
    exact .inr (.inr (.inr ⟨k', hx⟩))

/-- A closed nursery that cannot go on by itself: all outcomes are delivered; and either nothing waits any more, or all workers are busy. -/
theorem follows_jam (hf : Follows N n acc fin d) (hh : n.handles = 0) (h1 : ∀ w, n.step (.take w) = none) (h2 : ∀ w, n.step (.check w) = none)
    (h3 : ∀ w, n.step (.exit w) = none) (h5 : n.step .recv = none) :
    d = fin.length ∧ (∀ (w k : Nat) (j : J), n.workers[w]? ≠ some (.received k j)) ∧ (n.queue = [] ∨ (busyWith n).length = N) := by
  have hal := follows_alive hf
  have hcl := (follows_closed hf).2 hh
  obtain ⟨tr, L, r1, r2, r3, r4, rfl, r6, rfl, r8, r9⟩ := hf
  have hi := nursery_inv r1
  have hrec : ∀ (w k : Nat) (j : J), n.workers[w]? ≠ some (.received k j) := by
    intro w k j hw
    have := h2 w
    simp only [Nursery.step, hw] at this
    split at this <;> cases this
  refine ⟨?_, hrec, ?_⟩
  · have : n.outputs = [] := by
      cases ho : n.outputs with
      | nil => rfl
      | cons x r => simp [Nursery.step, hal, ho] at h5
    have hfd := hi.finished
    rw [this, List.append_nil] at hfd
    have := congrArg List.length r6
    rw [hfd, r9, List.length_map] at this
    rw [this, List.length_map]
  · cases hq : n.queue with
    | nil => exact .inl rfl
    | cons x q =>
      right
      have hdone : n.done = false := by
        cases hd : n.done with
        | false => rfl
        | true => exact absurd (hi.done.1 hd) r2
      have hns : (Worker.stopped : Worker J) ∉ n.workers := by
        intro hm
        have := hi.stoppedQueue hdone hal hm
        rw [hq] at this
        cases this
      have hall : ∀ x ∈ n.workers, ∃ k j, x = .running k j := by
        intro x hx
        obtain ⟨w, hw⟩ := List.getElem?_of_mem hx
        cases x with
        | running k j => exact ⟨k, j, rfl⟩
        | stopped => exact absurd hx hns
        | received k j => exact absurd hw (hrec w k j)
        | waiting =>
          have := h1 w
          simp [Nursery.step, hw, hq] at this
      rw [← hi.workers]
      unfold busyWith
      generalize n.workers = l at hall
      induction l with
      | nil => rfl
      | cons a l ih =>
        obtain ⟨k, j, rfl⟩ := hall a List.mem_cons_self
        simp only [List.filterMap_cons, jobAtWork, List.length_cons]
        rw [ih fun x hx => hall x (List.mem_cons_of_mem _ hx)]

/-- As long as no job has ended, only the first `N` jobs handed over are taken. -/
theorem follows_first (hf : Follows N n acc [] d) {w k : Nat} {j : J} (hw : n.workers[w]? = some (.running k j)) : k < N ∧ acc[k]? = some j := by
  have hal := follows_alive hf
  obtain ⟨tr, L, r1, r2, r3, r4, rfl, r6, r7, r8, r9⟩ := hf
  have hL : L = [] := by
    cases L with
    | nil => rfl
    | cons x l => cases r7
  subst hL
  have hi := nursery_inv r1
  have hdone : n.done = false := by
    cases hd : n.done with
    | false => rfl
    | true => exact absurd (hi.done.1 hd) r2
  have hfin : finishedJobs tr = [] := r6
  have hb := hi.began
  rw [hfin, hi.alive hal] at hb
  simp only [List.map_nil, List.nil_append] at hb
  have ht := hi.took
  rw [hi.discarded hal hdone, List.append_nil] at ht
  have hlen : (tookJobs tr).length ≤ N := by
    rw [ht.length_eq, List.length_append, hb.length_eq, ← hi.workers]
    generalize n.workers = l
    induction l with
    | nil => simp
    | cons a l ih => cases a <;> simp [List.filterMap_cons, Worker.runningNum, Worker.receivedNum] at ih ⊢ <;> omega
  have hk : k ∈ tookJobs tr := by
    refine ht.mem_iff.2 (List.mem_append.2 (.inl (hb.mem_iff.2 (List.mem_filterMap.2 ⟨_, List.mem_of_getElem? hw, rfl⟩))))
  have hpre : tookJobs tr = List.range (tookJobs tr).length := by
    have h1 : tookJobs tr <+: List.range n.next := ⟨_, hi.queue⟩
    have h2 := List.prefix_iff_eq_take.1 h1
    have h3 := h1.length_le
    rw [List.length_range] at h3
    rw [List.take_range, Nat.min_eq_left h3] at h2
    exact h2
  rw [hpre, List.mem_range] at hk
  refine ⟨by omega, ?_⟩
  have hacc := (nursery_jobs r1).2 w k j (.inr hw)
  obtain ⟨i, hi'⟩ := List.getElem?_of_mem hacc
  have hik : i = k := by
    have h1 : ((acceptedJobs tr).map Prod.fst)[i]? = some k := by rw [List.getElem?_map, hi']; rfl
    rw [hi.accepted, List.getElem?_range (by
      have := (List.getElem?_eq_some_iff.1 h1).1
      rw [List.length_range] at this
      exact this)] at h1
    exact Option.some.inj h1
  subst hik
  rw [List.getElem?_map, hi']
  rfl

end

section
variable {T P A D I ε : Type} [DecidableEq A] {addr : P → A} {all : List T} {dht : Except ε (List P × List D)} {jobsT jobsP : Nat} {s : Resolve T P A D I ε}

/-- Until there is a result something can happen that is not the end of the task of a peer for which `stuck` holds, if there are fewer of those than jobs; or all
other peers have failed, and no more will come. -/
theorem resolve_jam (hT : 0 < jobsT) (hP : 0 < jobsP) {tr : ResolveTrace T P D I ε}
    (h : ResolveRun addr all dht jobsT jobsP tr s) (hr : s.result = none) (trackerEnd : T → Outcome (Except ε (List P)))
    (peerEnd : P → Outcome (Except ε I)) (stuck : P → Bool) (few : (contacts tr).countP stuck < jobsP) :
    (∃ e s' out, s.step addr all e = some (s', out) ∧ (∀ x ∈ out.filterMap peerDoneOf, stuck x.1 = false ∧ x.2 = peerEnd x.1) ∧
      (∀ x ∈ out.filterMap trackerDoneOf, x.2 = trackerPeers (trackerEnd x.1))) ∨
    (s.job = .over ∧ ∀ p ∈ contacts tr, stuck p = false → ∃ e, (p, .value (.error e)) ∈ peerDones tr) := by
  have hok : all ≠ [] ∨ ∃ x, dht = .ok x := by
    cases all with
    | cons t ts => exact .inl (by simp)
    | nil =>
      cases dht with
      | ok x => exact .inr ⟨x, rfl⟩
      | error e =>
        obtain ⟨-, rfl⟩ := resolve_exited h
        simp [Resolve.start] at hr
  obtain ⟨⟨⟨d, hp⟩, hsrc⟩, -⟩ := resolve_inv hT hP hok h
  have hr' : s.result.isSome = false := by rw [hr]; rfl
  have spawnOk : ∀ {J R : Type} {N : Nat} {n : Nursery J R} {acc : List J} {fin : List (J × Outcome R)} {d : Nat} (j : J),
      Follows N n acc fin d → n.handles = 1 → ∃ n' k, n.step (.spawn j) = some (n', [.accepted k j]) := by
    intro J R N n acc fin d j hf hh
    have hcl : n.closed = false := by
      cases hcl : n.closed with
      | false => rfl
      | true => rw [(follows_closed hf).1 hcl] at hh; cases hh
    exact ⟨_, _, by simp [Nursery.step, hh, hcl]; exact ⟨rfl, rfl⟩⟩
  have endOk : s.job = .running → ∀ out : List (ResolveOutput T P D I ε), ∃ s', s.endJob out = some (s', out) := by
    intro hj out
    have hh : s.peers.handles = 1 := by rw [hp.handles, hj]; rfl
    exact ⟨_, by simp [Resolve.endJob, Nursery.step, hh]; rfl⟩
  by_cases hover : s.job = .over
  case neg =>
   left
   cases hj : s.job with
   | over => exact absurd hj hover
   | notStarted =>
     cases htodo : s.todo with
     | cons t ts =>
       rcases hsrc with ⟨-, ht⟩ | ⟨-, f, ns, -, hd⟩
       · obtain ⟨n, acc, dT, hn, hf, -, hh, -⟩ := ht.live (by rw [hj]; simp)
         rw [hj] at hh
         obtain ⟨n', k, hstep⟩ := spawnOk t hf hh
         refine ⟨.spawnTracker, { s with todo := ts, trackers := some n' }, [], ?_, by simp, by simp⟩
         simp only [Resolve.step, hr', htodo, hn, Option.bind_some, hstep]
         rfl
       · rw [hd.todo] at htodo; cases htodo
     | nil =>
       cases hn : s.trackers with
       | none => exact ⟨.startJob, _, [], by simp only [Resolve.step, hr', htodo, hj, hn]; rfl, by simp, by simp⟩
       | some n =>
         rcases hsrc with ⟨-, ht⟩ | ⟨-, f, ns, -, hd⟩
         · obtain ⟨n0, acc, dT, hn0, hf, -, hh, -⟩ := ht.live (by rw [hj]; simp)
           rw [hn] at hn0
           cases hn0
           rw [hj] at hh
           have : ∃ r, n.step .dropHandle = some r := ⟨_, by simp [Nursery.step, hh]; rfl⟩
           obtain ⟨r, hstep⟩ := this
           exact ⟨.startJob, _, [], by simp only [Resolve.step, hr', htodo, hj, hn, hstep]; rfl, by simp, by simp⟩
         · rw [hd.trackers] at hn; cases hn
   | running =>
     cases hbatch : s.batch with
     | cons p ps =>
       by_cases hdup : (s.trackers.isSome && decide (addr p ∈ s.seen)) = true
       · exact ⟨.nextPeer, _, [.arrived p], by simp only [Resolve.step, hr', hj, hbatch, hdup]; rfl, by simp [peerDoneOf], by simp [trackerDoneOf]⟩
       · obtain ⟨n', k, hstep⟩ := spawnOk p hp.follows (by rw [hp.handles, hj]; rfl)
         exact ⟨.nextPeer, _, [.arrived p, .contact p], by simp only [Resolve.step, hr', hj, hbatch, hdup, hstep]; rfl,
           by simp [List.filterMap, peerDoneOf], by simp [List.filterMap, trackerDoneOf]⟩
     | nil =>
       cases hn : s.trackers with
       | none =>
         obtain ⟨s', hs'⟩ := endOk hj []
         exact ⟨.noMorePeers, s', [], by simp only [Resolve.step, hr', hj, hbatch, hn, hs']; rfl, by simp, by simp⟩
       | some n =>
         rcases hsrc with ⟨-, ht⟩ | ⟨-, f, ns, -, hd⟩
         · obtain ⟨n0, acc, dT, hn0, hf, -, hh, -⟩ := ht.live (by rw [hj]; simp)
           rw [hn] at hn0
           cases hn0
           rw [hj] at hh
           rcases nursery_moves hT hf with ⟨w, r, h1⟩ | ⟨w, r, h1⟩ | ⟨w, r, h1⟩ | ⟨w, k, j, h1⟩ | ⟨n', k, o, h1⟩ | h1
           · exact ⟨.trackerTake w, _, [], by simp only [Resolve.step, hr', Resolve.trackerStep, hn, h1]; rfl, by simp, by simp⟩
           · exact ⟨.trackerCheck w, _, [], by simp only [Resolve.step, hr', Resolve.trackerStep, hn, h1]; rfl, by simp, by simp⟩
           · exact ⟨.trackerExit w, _, [], by simp only [Resolve.step, hr', Resolve.trackerStep, hn, h1]; rfl, by simp, by simp⟩
           · have hal := follows_alive hf
             have : ∃ r, n.step (.finish w (trackerPeers (trackerEnd j))) = some r := ⟨_, by simp [Nursery.step, h1, hal]; rfl⟩
             obtain ⟨r, hstep⟩ := this
             refine ⟨.trackerEnds w (trackerEnd j), { s with trackers := some r.1 },
               (match trackerPeers (trackerEnd j) with | .value ps => [.answer j ps] | .panic => [.trackerPanic j]), ?_, ?_, ?_⟩
             · simp only [Resolve.step, hr', hn, Option.bind_some, h1, Resolve.trackerStep, hstep]
               rfl
             · cases trackerPeers (trackerEnd j) <;> simp [peerDoneOf]
             · cases htp : trackerPeers (trackerEnd j) <;> simp [List.filterMap, trackerDoneOf, htp]
           · cases o with
             | value ps =>
               exact ⟨.nextBatch, _, [], by simp only [Resolve.step, hr', hj, hbatch, hn, h1]; rfl, by simp, by simp⟩
             | panic =>
               have hh' : s.peers.handles = 1 := by rw [hp.handles, hj]; rfl
               have : ∃ s', { s with trackers := some n' }.endJob ([] : List (ResolveOutput T P D I ε)) = some (s', []) :=
                 ⟨_, by simp [Resolve.endJob, Nursery.step, hh']; rfl⟩
               obtain ⟨s', hs'⟩ := this
               exact ⟨.nextBatch, s', [], by simp only [Resolve.step, hr', hj, hbatch, hn, h1]; exact hs', by simp, by simp⟩
           · obtain ⟨r, hstep⟩ := h1 (by rw [hh]; rfl)
             obtain ⟨s', hs'⟩ := endOk hj []
             exact ⟨.noMorePeers, s', [], by simp only [Resolve.step, hr', hj, hbatch, hn, hstep, hs']; rfl, by simp, by simp⟩
         · rw [hd.trackers] at hn; cases hn
  case pos =>
    by_cases hmove : (∃ w r, s.peers.step (.take w) = some r) ∨ (∃ w r, s.peers.step (.check w) = some r) ∨ (∃ w r, s.peers.step (.exit w) = some r) ∨
        (∃ (w k : Nat) (j : P), s.peers.workers[w]? = some (.running k j) ∧ stuck j = false) ∨ (∃ n' k o, s.peers.step .recv = some (n', [.delivered k o]))
    · left
      have hj := hover
      rcases hmove with ⟨w, r, h1⟩ | ⟨w, r, h1⟩ | ⟨w, r, h1⟩ | ⟨w, k, j, h1, hst⟩ | ⟨n', k, o, h1⟩
      · exact ⟨.peerTake w, _, [], by simp only [Resolve.step, hr', Resolve.peerStep, h1]; rfl, by simp, by simp⟩
      · exact ⟨.peerCheck w, _, [], by simp only [Resolve.step, hr', Resolve.peerStep, h1]; rfl, by simp, by simp⟩
      · exact ⟨.peerExit w, _, [], by simp only [Resolve.step, hr', Resolve.peerStep, h1]; rfl, by simp, by simp⟩
      · have hal := follows_alive hp.follows
        have : ∃ r, s.peers.step (.finish w (peerOutcome j (peerEnd j))) = some r := ⟨_, by simp [Nursery.step, h1, hal]; rfl⟩
        obtain ⟨r, hstep⟩ := this
        exact ⟨.peerEnds w (peerEnd j), _, [.peerDone j (peerEnd j)],
          by simp only [Resolve.step, hr', h1, Resolve.peerStep, hstep]; rfl, by simp [List.filterMap, peerDoneOf, hst],
          by simp [List.filterMap, trackerDoneOf]⟩
      · cases o with
        | panic =>
          exact ⟨.receive, _, [.result .panicked], by simp only [Resolve.step, hr', hj, h1]; rfl, by simp [peerDoneOf],
            by simp [trackerDoneOf]⟩
        | value x =>
          obtain ⟨p, r⟩ := x
          cases r with
          | ok i =>
            exact ⟨.receive, _, [.tried p (.ok i), .result (.file i all s.nodes)],
              by simp only [Resolve.step, hr', hj, h1]; rfl, by simp [List.filterMap, peerDoneOf], by simp [List.filterMap, trackerDoneOf]⟩
          | error er =>
            exact ⟨.receive, _, [.tried p (.error er)], by simp only [Resolve.step, hr', hj, h1]; rfl, by simp [peerDoneOf],
              by simp [trackerDoneOf]⟩
    · right
      simp only [not_or, not_exists, not_and] at hmove
      obtain ⟨m1, m2, m3, m4, m5⟩ := hmove
      have isNone : ∀ {e : NurseryEvent P (P × Except ε I)}, (∀ r, ¬ s.peers.step e = some r) → s.peers.step e = none := by
        intro e he
        cases hx : s.peers.step e with
        | none => rfl
        | some r => exact absurd hx (he r)
      have hrecv : s.peers.step .recv = none := by
        cases hs : s.peers.step .recv with
        | none => rfl
        | some r =>
          obtain ⟨⟨k, j, o, ho, -⟩, -⟩ := follows_recv (n' := r.1) (out := r.2) hp.follows hs
          exact absurd (by rw [hs, ← ho]) (m5 r.1 k o)
      obtain ⟨hd, hrec, hq⟩ := follows_jam hp.follows (by rw [hp.handles, if_pos hover]) (fun w => isNone (m1 w)) (fun w => isNone (m2 w))
        (fun w => isNone (m3 w)) hrecv
      have hbusy : ∀ j ∈ busyWith s.peers, stuck j = true := by
        intro j hjm
        obtain ⟨x, hx, hxj⟩ := List.mem_filterMap.1 hjm
        obtain ⟨w, hw⟩ := List.getElem?_of_mem hx
        cases x with
        | running k j' =>
          cases hxj
          cases hs : stuck j with
          | true => rfl
          | false => exact absurd hs (m4 w k j hw)
        | _ => cases hxj
      have hqueue : s.peers.queue = [] := by
        rcases hq with hq | hq
        · exact hq
        · exfalso
          have hheld := resolve_held stuck h
          have hc : (busyWith s.peers).countP stuck = jobsP := by rw [← hq]; exact List.countP_eq_length.2 hbusy
          simp only [heldBy, List.countP_append] at hheld
          omega
      refine ⟨hover, ?_⟩
      intro p hpc hps
      rcases follows_where hp.follows (j := p) hpc with ⟨o, ho⟩ | ⟨w, k, hw⟩ | ⟨w, k, hw⟩ | ⟨k, hk⟩
      · have htaken := hp.taken (by rw [hr]; simp)
        rw [hd, List.length_map, List.take_length] at htaken
        obtain ⟨⟨p', o'⟩, hx, hxe⟩ := List.mem_map.1 ho
        simp only [outcomeOf, Prod.mk.injEq] at hxe
        obtain ⟨rfl, -⟩ := hxe
        have hx' := hx
        rw [htaken] at hx
        obtain ⟨⟨p'', r⟩, hy, hye⟩ := List.mem_map.1 hx
        simp only [valueOf, Prod.mk.injEq] at hye
        obtain ⟨rfl, rfl⟩ := hye
        obtain ⟨e, he⟩ := hp.errors (by rw [hr]; exact id) _ hy
        simp only at he
        subst he
        exact ⟨e, hx'⟩
      · exact absurd hps (m4 w k p hw)
      · exact absurd hw (hrec w k p)
      · rw [hqueue] at hk; cases hk

end

end Demag
