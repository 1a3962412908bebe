import Verif.Lemmas.NurseryTime
import Verif.Props.Resolve
import Verif.Props.Commands

/-!
# C101: how long downloads take
-/

namespace Demag.Props

open Demag Spec

variable {T P A D I ε M : Type}

theorem lastAt_snoc {E : Type} (p : E → Bool) (d : Nat) (tr : List (Nat × E)) (now : Nat) (e : E) :
    lastAt p d (tr ++ [(now, e)]) = if p e then now else lastAt p d tr := by
  unfold lastAt
  rw [List.filter_append]
  by_cases h : p e = true
  · simp [h]
  · simp [h]

theorem clock_snoc {E : Type} (t0 : Nat) (tr : List (Nat × E)) (now : Nat) (e : E) : clock t0 (tr ++ [(now, e)]) = now := by
  simp [clock, lastAt_snoc]

/-! ### Batches -/

section
variable {magnets : Option (List M)} {jobs d t0 : Nat} {tr : List (Nat × BatchEvent × List (M × Outcome Bool))} {s : Batch M}

theorem batchTimed_run (h : BatchTimed magnets jobs d t0 tr s) : BatchRun magnets jobs (tr.map Prod.snd) s := by
  induction h with
  | init => exact .init
  | step now _ _ _ _ hs ih => simpa using BatchRun.step ih hs

theorem batch_waits (hj : 0 < jobs) {tr : List (BatchEvent × List (M × Outcome Bool))} (h : BatchRun magnets jobs tr s) (he : s.exit = none)
    (hidle : ∀ e, downloadEnds e = false → s.step e = none) : ∃ (w k : Nat) (m : M), s.nursery.workers[w]? = some (.running k m) := by
  obtain ⟨e, s', out, hs, -⟩ := batch_progress hj h he fun _ => .panic
  cases hd : downloadEnds e with
  | false => rw [hidle e hd] at hs; cases hs
  | true =>
    cases e with
    | ends w o =>
      have hn : s.exit.isSome = false := by rw [he]; rfl
      simp only [Batch.step, hn, Bool.false_eq_true, if_false] at hs
      split at hs
      · rename_i k m hw
        exact ⟨w, k, m, hw⟩
      · cases hs
    | _ => cases hd

/-- What is known in the course of a batch. -/
structure BatchTime (n jobs d t0 now : Nat) (b : Nat → Nat) (s : Batch M) : Prop where
  nursery : ∃ c, NurseryTime jobs d t0 now s.nursery c b
  count : s.nursery.next + s.todo.length = n
  todo : s.exit = none → s.todo ≠ [] → now = t0
  late : now ≤ t0 + rounds n jobs * d

theorem batchTime_pass (hj : 0 < jobs) {n now now' : Nat} {b : Nat → Nat} {tr : List (BatchEvent × List (M × Outcome Bool))}
    (hr : BatchRun magnets jobs tr s) (he : s.exit = none) (h : BatchTime n jobs d t0 now b s) (hle : now ≤ now')
    (hidle : now < now' → ∀ e', downloadEnds e' = false → s.step e' = none)
    (hrun : ∀ (w k : Nat) (m : M), s.nursery.workers[w]? = some (.running k m) → now' ≤ b w + d) : BatchTime n jobs d t0 now' b s := by
  have hn : s.exit.isSome = false := by rw [he]; rfl
  obtain ⟨c, hc⟩ := h.nursery
  have hc' : NurseryTime jobs d t0 now' s.nursery c b := by
    refine hc.pass hle (fun hlt => ?_) hrun
    constructor
    · intro w
      have := hidle hlt (.take w) rfl
      simpa [Batch.step, hn] using this
    · intro w
      have := hidle hlt (.check w) rfl
      simpa [Batch.step, hn] using this
  rcases Nat.lt_or_eq_of_le hle with hlt | rfl
  · have hi := hidle hlt
    refine ⟨⟨c, hc'⟩, h.count, fun _ ht => ?_, ?_⟩
    · exfalso
      have hsp := hi .spawn rfl
      cases htodo : s.todo with
      | nil => exact ht htodo
      | cons m ms =>
        obtain ⟨w, k, x, hw⟩ := batch_waits hj hr he hi
        simp only [Batch.step, hn, htodo, Bool.false_eq_true, if_false] at hsp
        cases hstep : s.nursery.step (.spawn m) with
        | some r =>
          obtain ⟨n1, o1⟩ := r
          rw [hstep] at hsp
          split at hsp <;> cases hsp
          rename_i heq
          cases heq
        | none =>
          simp only [Nursery.step] at hstep
          split at hstep
          · rename_i hh
            cases magnets with
            | none => obtain ⟨-, rfl⟩ := batch_exited (c := .failure) rfl hr; simp [Batch.start] at he
            | some ms' =>
              by_cases hne : ms' = []
              · subst hne; obtain ⟨-, rfl⟩ := batch_exited (c := .success) rfl hr; simp [Batch.start] at he
              · obtain ⟨acc, d', -, -, h3, h4, -⟩ := batch_inv hj hne hr
                cases hdr : s.dropped with
                | true => rw [h4 hdr] at htodo; cases htodo
                | false => rw [hdr] at h3; rw [hh] at h3; cases h3
          · split at hstep <;> cases hstep
    · obtain ⟨w, k, x, hw⟩ := batch_waits hj hr he hi
      have h1 := hc'.bound hj hw
      have h2 : s.nursery.next ≤ n := by have := h.count; omega
      have h3 := Nat.mul_le_mul_right d (rounds_mono (W := jobs) h2)
      omega
  · exact h

theorem batchTime_step (hj : 0 < jobs) {n now : Nat} {b b' : Nat → Nat} {s' : Batch M} {e : BatchEvent} {out : List (M × Outcome Bool)}
    (h : BatchTime n jobs d t0 now b s) (hs : s.step e = some (s', out)) (hb : ∀ w, b' w = if beginsDownload w (e, out) then now else b w) :
    BatchTime n jobs d t0 now b' s' := by
  obtain ⟨c, hc⟩ := h.nursery
  have hcount := h.count
  simp only [Batch.step] at hs
  split at hs
  · cases hs
  rename_i hx
  have he : s.exit = none := by simpa using hx
  have same : (∀ w, beginsDownload w (e, out) = false) → ∀ w, b' w = b w := fun h0 w => by rw [hb, h0 w]; simp
  cases e with
  | spawn =>
    simp only at hs
    split at hs
    · rename_i m ms htodo
      have hnow := h.todo he (by rw [htodo]; simp)
      subst hnow
      split at hs
      · rename_i n1 k j hstep
        cases hs
        have hj' : j = m := by
          simp only [Nursery.step] at hstep
          split at hstep
          · cases hstep
          split at hstep
          · simp at hstep
          simp only [Option.some.injEq, Prod.mk.injEq, List.cons.injEq, NurseryOutput.accepted.injEq, and_true] at hstep
          exact hstep.2.2.symm
        subst hj'
        obtain ⟨g1, g2⟩ := hc.spawn hstep
        rw [htodo] at hcount
        exact ⟨⟨c, g1.congr (same fun _ => rfl)⟩, by simp at hcount ⊢; omega, fun _ _ => rfl, h.late⟩
      · cases hs
        exact ⟨⟨c, hc.congr (same fun _ => rfl)⟩, hcount, by intro h; simp at h, h.late⟩
      · cases hs
    · cases hs
  | dropHandle =>
    simp only at hs
    split at hs
    · rename_i ht
      obtain ⟨r, hr, hs⟩ := Option.map_eq_some_iff.1 hs
      cases hs
      obtain ⟨g1, g2⟩ := hc.dropHandle hr
      exact ⟨⟨c, g1.congr (same fun _ => rfl)⟩, by simp only; omega, fun _ => h.todo he, h.late⟩
    · cases hs
  | take w =>
    obtain ⟨r, hr, hs⟩ := Option.map_eq_some_iff.1 hs
    cases hs
    obtain ⟨g1, g2⟩ := hc.take hj hr
    exact ⟨⟨_, g1.congr (same fun _ => rfl)⟩, by simp only; omega, fun _ => h.todo he, h.late⟩
  | check w =>
    obtain ⟨r, hr, hs⟩ := Option.map_eq_some_iff.1 hs
    cases hs
    obtain ⟨g1, g2⟩ := hc.check hr (b' := b') (by rw [hb]; simp [beginsDownload])
      (by intro k hk; rw [hb]; simp [beginsDownload]; intro h; exact absurd h.symm hk)
    exact ⟨⟨_, g1⟩, by simp only; omega, fun _ => h.todo he, h.late⟩
  | workerExit w =>
    obtain ⟨r, hr, hs⟩ := Option.map_eq_some_iff.1 hs
    cases hs
    obtain ⟨g1, g2⟩ := hc.exit hr
    exact ⟨⟨_, g1.congr (same fun _ => rfl)⟩, by simp only; omega, fun _ => h.todo he, h.late⟩
  | ends w o =>
    simp only at hs
    split at hs
    · obtain ⟨r, hr, hs⟩ := Option.map_eq_some_iff.1 hs
      cases hs
      obtain ⟨g1, g2⟩ := hc.finish hr
      exact ⟨⟨_, g1.congr (same fun _ => rfl)⟩, by simp only; omega, fun _ => h.todo he, h.late⟩
    · cases hs
  | receive =>
    simp only at hs
    split at hs
    · split at hs
      · rename_i hr
        cases hs
        obtain ⟨g1, g2⟩ := hc.recv hr
        exact ⟨⟨_, g1.congr (same fun _ => rfl)⟩, by simp only; omega, fun _ => h.todo he, h.late⟩
      · rename_i hr
        cases hs
        obtain ⟨g1, g2⟩ := hc.recv hr
        exact ⟨⟨_, g1.congr (same fun _ => rfl)⟩, by simp only; omega, by intro h; simp at h, h.late⟩
      · cases hs
    · cases hs
  | receiveNone =>
    simp only at hs
    split at hs
    · split at hs
      · rename_i hr
        cases hs
        simp only [Nursery.step] at hr
        split at hr <;> cases hr
        exact ⟨⟨_, hc.congr (same fun _ => rfl)⟩, hcount, by intro h; simp at h, h.late⟩
      · cases hs
    · cases hs

theorem batch_time (hj : 0 < jobs) {ms : List M} (h : BatchTimed (some ms) jobs d t0 tr s) :
    BatchTime ms.length jobs d t0 (clock t0 tr) (fun w => lastAt (beginsDownload w) t0 tr) s := by
  induction h with
  | init =>
    have : (Batch.start (some ms) jobs : Batch M).nursery = .new jobs ∧ (Batch.start (some ms) jobs : Batch M).todo = ms := by
      cases ms <;> exact ⟨rfl, rfl⟩
    refine ⟨⟨_, by rw [this.1]; exact nurseryTime_new _ _ _ _⟩, by rw [this.1, this.2]; simp [Nursery.new], fun _ _ => rfl, Nat.le_add_right _ _⟩
  | step now hr hle hidle hrun hs ih =>
    have he : ∀ {s s' : Batch M} {e out}, s.step e = some (s', out) → s.exit = none := by
      intro s s' e out hs
      cases hx : s.exit with
      | none => rfl
      | some c => simp [Batch.step, hx] at hs
    rw [clock_snoc]
    exact batchTime_step hj (batchTime_pass hj (batchTimed_run hr) (he hs) ih hle hidle hrun) hs fun w => by rw [lastAt_snoc]

/-- **C101.** A batch whose downloads take no longer than `d` each is over after as many rounds of `d` as there are links for each job. -/
theorem batch_in_time (hj : 0 < jobs) {ms : List M} (h : BatchTimed (some ms) jobs d t0 tr s) :
    ∀ x ∈ tr, x.1 ≤ t0 + rounds ms.length jobs * d := by
  induction h with
  | init => simp
  | step now hr hle hidle hrun hs ih =>
    intro x hx
    rcases List.mem_append.1 hx with hx | hx
    · exact ih x hx
    · have := (batch_time hj (.step now hr hle hidle hrun hs)).late
      rw [clock_snoc] at this
      rw [List.mem_singleton.1 hx]
      exact this

/-- **C101.** And however downloads end, it goes on until the batch is over. -/
theorem batch_reaches (hj : 0 < jobs) (ends : M → Outcome Bool) {ms : List M} (h : BatchTimed (some ms) jobs d t0 tr s) :
    ∃ post s', BatchTimed (some ms) jobs d t0 (tr ++ post) s' ∧ s'.exit ≠ none ∧ ∀ x ∈ downloads (post.map Prod.snd), x.2 = ends x.1 := by
  have hwf := batch_terminates (M := M)
  induction s using hwf.induction generalizing tr with
  | _ s ih =>
    cases hr : s.exit with
    | some r => exact ⟨[], s, by simpa using h, by simp [hr], by simp [downloads]⟩
    | none =>
      obtain ⟨e, s', out, hs, h1⟩ := batch_progress hj (batchTimed_run h) hr ends
      have hstep : BatchTimed (some ms) jobs d t0 (tr ++ [(clock t0 tr, e, out)]) s' := by
        refine .step _ h (Nat.le_refl _) (fun hlt => absurd hlt (Nat.lt_irrefl _)) ?_ hs
        intro w n m hw
        obtain ⟨c, g⟩ := (batch_time hj h).nursery
        exact (g.run _ _ _ hw).2.2.2
      obtain ⟨post, s'', g1, g2, g3⟩ := ih s' ⟨e, out, hs⟩ hstep
      refine ⟨(clock t0 tr, e, out) :: post, s'', by simpa using g1, g2, ?_⟩
      intro x hx
      simp only [downloads, List.map_cons, List.flatMap_cons, List.mem_append] at hx
      exact hx.elim (h1 x) (g3 x)

end

/-! ### Downloads -/

section
variable [DecidableEq A] {addr : P → A} {all : List T} {dht : Except ε (List P × List D)} {jobsT jobsP dT dP t0 : Nat}
  {s : Resolve T P A D I ε}

theorem downloadTimed_run {tr : TimedTrace T P D I ε} (h : DownloadTimed addr all dht jobsT jobsP dT dP t0 tr s) :
    ResolveRun addr all dht jobsT jobsP (tr.map Prod.snd) s := by
  induction h with
  | init => exact .init
  | step now _ _ _ _ _ hs ih => simpa using ResolveRun.step ih hs

/-- While there is nothing to do some task is running: that of a tracker as long as there may be more peers, that of a peer afterwards. -/
theorem resolve_waits (hT : 0 < jobsT) (hP : 0 < jobsP) {tr : ResolveTrace T P D I ε} (h : ResolveRun addr all dht jobsT jobsP tr s)
    (hr : s.result = none) (hidle : ∀ e, awaited e = false → s.step addr all e = none) :
    s.todo = [] ∧ (s.job ≠ .over → ∃ (n : Nursery T (List P)) (w k : Nat) (t : T), s.trackers = some n ∧ n.workers[w]? = some (.running k t)) ∧
      (s.job = .over → ∃ (w k : Nat) (p : P), s.peers.workers[w]? = some (.running k p)) := by
  have hok : all ≠ [] ∨ ∃ x, dht = .ok x := by
    cases all with
    | cons t ts => exact .inl (by simp)
    | nil =>
      cases dht with
      | ok x => exact .inr ⟨x, rfl⟩
      | error e =>
        obtain ⟨-, rfl⟩ := resolve_exited h
        simp [Resolve.start] at hr
  obtain ⟨⟨⟨d, hp⟩, hsrc⟩, -⟩ := resolve_inv hT hP hok h
  have hr' : s.result.isSome = false := by rw [hr]; rfl
  have no : ∀ {e : ResolveEvent P ε I} {x}, awaited e = false → s.step addr all e = some x → False := by
    intro e x he hs
    rw [hidle e he] at hs
    cases hs
  have spawnOk : ∀ {J R : Type} {N : Nat} {n : Nursery J R} {acc : List J} {fin : List (J × Outcome R)} {d : Nat} (j : J),
      Follows N n acc fin d → n.handles = 1 → ∃ n' k, n.step (.spawn j) = some (n', [.accepted k j]) := by
    intro J R N n acc fin d j hf hh
    have hcl : n.closed = false := by
      cases hcl : n.closed with
      | false => rfl
      | true => rw [(follows_closed hf).1 hcl] at hh; cases hh
    exact ⟨_, _, by simp [Nursery.step, hh, hcl]; exact ⟨rfl, rfl⟩⟩
  have endOk : s.job = .running → ∀ out : List (ResolveOutput T P D I ε), ∃ s', s.endJob out = some (s', out) := by
    intro hj out
    have hh : s.peers.handles = 1 := by rw [hp.handles, hj]; rfl
    exact ⟨_, by simp [Resolve.endJob, Nursery.step, hh]; rfl⟩
  cases hj : s.job with
  | notStarted =>
    exfalso
    cases htodo : s.todo with
    | cons t ts =>
      rcases hsrc with ⟨-, ht⟩ | ⟨-, f, ns, -, hd⟩
      · obtain ⟨n, acc, dT, hn, hf, -, hh, -⟩ := ht.live (by rw [hj]; simp)
        rw [hj] at hh
        obtain ⟨n', k, hstep⟩ := spawnOk t hf hh
        refine no (e := .spawnTracker) (x := ({ s with todo := ts, trackers := some n' }, [])) rfl ?_
        simp only [Resolve.step, hr', htodo, hn, Option.bind_some, hstep]
        rfl
      · rw [hd.todo] at htodo; cases htodo
    | nil =>
      cases hn : s.trackers with
      | none => exact no (e := .startJob) rfl (by simp only [Resolve.step, hr', htodo, hj, hn]; rfl)
      | some n =>
        rcases hsrc with ⟨-, ht⟩ | ⟨-, f, ns, -, hd⟩
        · obtain ⟨n0, acc, dT, hn0, hf, -, hh, -⟩ := ht.live (by rw [hj]; simp)
          rw [hn] at hn0
          cases hn0
          rw [hj] at hh
          have : ∃ r, n.step .dropHandle = some r := ⟨_, by simp [Nursery.step, hh]; rfl⟩
          obtain ⟨r, hstep⟩ := this
          exact no (e := .startJob) rfl (by simp only [Resolve.step, hr', htodo, hj, hn, hstep]; rfl)
        · rw [hd.trackers] at hn; cases hn
  | running =>
    cases hbatch : s.batch with
    | cons p ps =>
      exfalso
      by_cases hdup : (s.trackers.isSome && decide (addr p ∈ s.seen)) = true
      · exact no (e := .nextPeer) rfl (by simp only [Resolve.step, hr', hj, hbatch, hdup]; rfl)
      · obtain ⟨n', k, hstep⟩ := spawnOk p hp.follows (by rw [hp.handles, hj]; rfl)
        exact no (e := .nextPeer) rfl (by simp only [Resolve.step, hr', hj, hbatch, hdup, hstep]; rfl)
    | nil =>
      cases hn : s.trackers with
      | none =>
        exfalso
        obtain ⟨s', hs'⟩ := endOk hj []
        exact no (e := .noMorePeers) rfl (by simp only [Resolve.step, hr', hj, hbatch, hn, hs']; rfl)
      | some n =>
        rcases hsrc with ⟨-, ht⟩ | ⟨-, f, ns, -, hd⟩
        · obtain ⟨n0, acc, dT, hn0, hf, -, hh, htodo, -⟩ := ht.live (by rw [hj]; simp)
          rw [hn] at hn0
          cases hn0
          rw [hj] at hh
          rcases nursery_moves hT hf with ⟨w, r, h1⟩ | ⟨w, r, h1⟩ | ⟨w, r, h1⟩ | ⟨w, k, j, h1⟩ | ⟨n', k, o, h1⟩ | h1
          · exact (no (e := .trackerTake w) rfl (by simp only [Resolve.step, hr', Resolve.trackerStep, hn, h1]; rfl)).elim
          · exact (no (e := .trackerCheck w) rfl (by simp only [Resolve.step, hr', Resolve.trackerStep, hn, h1]; rfl)).elim
          · exact (no (e := .trackerExit w) rfl (by simp only [Resolve.step, hr', Resolve.trackerStep, hn, h1]; rfl)).elim
          · exact ⟨htodo hj, fun _ => ⟨n, w, k, j, rfl, h1⟩, by simp⟩
          · exfalso
            cases o with
            | value ps => exact no (e := .nextBatch) rfl (by simp only [Resolve.step, hr', hj, hbatch, hn, h1]; rfl)
            | panic =>
              have hh' : s.peers.handles = 1 := by rw [hp.handles, hj]; rfl
              have : ∃ s', { s with trackers := some n' }.endJob ([] : List (ResolveOutput T P D I ε)) = some (s', []) :=
                ⟨_, by simp [Resolve.endJob, Nursery.step, hh']; rfl⟩
              obtain ⟨s', hs'⟩ := this
              exact no (e := .nextBatch) (x := (s', [])) rfl (by simp only [Resolve.step, hr', hj, hbatch, hn, h1]; exact hs')
          · exfalso
            obtain ⟨r, hstep⟩ := h1 (by rw [hh]; rfl)
            obtain ⟨s', hs'⟩ := endOk hj []
            exact no (e := .noMorePeers) rfl (by simp only [Resolve.step, hr', hj, hbatch, hn, hstep, hs']; rfl)
        · rw [hd.trackers] at hn; cases hn
  | over =>
    have htodo : s.todo = [] := by
      rcases hsrc with ⟨-, ht⟩ | ⟨-, f, ns, -, hd⟩
      · exact (ht.over hj).2.1
      · exact hd.todo
    refine ⟨htodo, by simp, fun _ => ?_⟩
    rcases nursery_moves hP hp.follows with ⟨w, r, h1⟩ | ⟨w, r, h1⟩ | ⟨w, r, h1⟩ | ⟨w, k, j, h1⟩ | ⟨n', k, o, h1⟩ | h1
    · exact (no (e := .peerTake w) rfl (by simp only [Resolve.step, hr', Resolve.peerStep, h1]; rfl)).elim
    · exact (no (e := .peerCheck w) rfl (by simp only [Resolve.step, hr', Resolve.peerStep, h1]; rfl)).elim
    · exact (no (e := .peerExit w) rfl (by simp only [Resolve.step, hr', Resolve.peerStep, h1]; rfl)).elim
    · exact ⟨w, k, j, h1⟩
    · exfalso
      cases o with
      | panic => exact no (e := .receive) rfl (by simp only [Resolve.step, hr', hj, h1]; rfl)
      | value x =>
        obtain ⟨p, r⟩ := x
        cases r with
        | ok i => exact no (e := .receive) rfl (by simp only [Resolve.step, hr', hj, h1]; rfl)
        | error er => exact no (e := .receive) rfl (by simp only [Resolve.step, hr', hj, h1]; rfl)
    · exfalso
      obtain ⟨r, hstep⟩ := h1 (by rw [hp.handles, hj]; rfl)
      exact no (e := .receiveNone) rfl (by simp only [Resolve.step, hr', hj, hstep]; rfl)

/-- What is known in the course of a download: `E` is when the trackers are done, `co` the number of peers contacted. -/
structure ResolveTime (nT jobsT jobsP dT dP t0 now E co : Nat) (bT bP : Nat → Nat) (s : Resolve T P A D I ε) : Prop where
  peers : ∃ B c, B ≤ E ∧ NurseryTime jobsP dP B now s.peers c bP
  count : s.peers.next = co
  trackers : ∀ n, s.trackers = some n → n.next + s.todo.length = nT ∧ ∃ c, NurseryTime jobsT dT t0 now n c bT
  todo : s.result = none → s.todo ≠ [] → now = t0
  feeding : s.job ≠ .over → now ≤ E
  late : now ≤ E + rounds co jobsP * dP

theorem resolveTime_pass (hT : 0 < jobsT) (hP : 0 < jobsP) {co now now' : Nat} {bT bP : Nat → Nat} {tr : ResolveTrace T P D I ε}
    (hrun : ResolveRun addr all dht jobsT jobsP tr s) (hr : s.result = none)
    (h : ResolveTime all.length jobsT jobsP dT dP t0 now (t0 + rounds all.length jobsT * dT) co bT bP s) (hle : now ≤ now')
    (hidle : now < now' → ∀ e', awaited e' = false → s.step addr all e' = none)
    (hrT : ∀ w n t, (s.trackers.bind fun n => n.workers[w]?) = some (.running n t) → now' ≤ bT w + dT)
    (hrP : ∀ (w n : Nat) (p : P), s.peers.workers[w]? = some (.running n p) → now' ≤ bP w + dP) :
    ResolveTime all.length jobsT jobsP dT dP t0 now' (t0 + rounds all.length jobsT * dT) co bT bP s := by
  have hr' : s.result.isSome = false := by rw [hr]; rfl
  obtain ⟨B, c, hB, hc⟩ := h.peers
  have hc' : NurseryTime jobsP dP B now' s.peers c bP := by
    refine hc.pass hle (fun hlt => ⟨fun w => ?_, fun w => ?_⟩) hrP
    · have := hidle hlt (.peerTake w) rfl
      simpa [Resolve.step, hr', Resolve.peerStep] using this
    · have := hidle hlt (.peerCheck w) rfl
      simpa [Resolve.step, hr', Resolve.peerStep] using this
  have hn' : ∀ n, s.trackers = some n → n.next + s.todo.length = all.length ∧ ∃ c, NurseryTime jobsT dT t0 now' n c bT := by
    intro n hn
    obtain ⟨h1, cT, h2⟩ := h.trackers n hn
    refine ⟨h1, cT, h2.pass hle (fun hlt => ⟨fun w => ?_, fun w => ?_⟩) fun w k t hw => hrT w k t (by rw [hn]; exact hw)⟩
    · have := hidle hlt (.trackerTake w) rfl
      simpa [Resolve.step, hr', Resolve.trackerStep, hn] using this
    · have := hidle hlt (.trackerCheck w) rfl
      simpa [Resolve.step, hr', Resolve.trackerStep, hn] using this
  rcases Nat.lt_or_eq_of_le hle with hlt | rfl
  · obtain ⟨w1, w2, w3⟩ := resolve_waits hT hP hrun hr (hidle hlt)
    have hfeed : s.job ≠ .over → now' ≤ t0 + rounds all.length jobsT * dT := by
      intro hj
      obtain ⟨n, w, k, t, hn, hw⟩ := w2 hj
      obtain ⟨g1, cT, g2⟩ := hn' n hn
      have h1 := g2.bound hT hw
      have h3 := Nat.mul_le_mul_right dT (rounds_mono (W := jobsT) (show n.next ≤ all.length by omega))
      omega
    refine ⟨⟨B, c, hB, hc'⟩, h.count, hn', fun _ ht => absurd w1 ht, hfeed, ?_⟩
    by_cases hj : s.job = .over
    · obtain ⟨w, k, p, hw⟩ := w3 hj
      have h1 := hc'.bound hP hw
      rw [h.count] at h1
      omega
    · exact Nat.le_trans (hfeed hj) (Nat.le_add_right _ _)
  · exact h


theorem spawn_accepted {J R : Type} {n n' : Nursery J R} {j j' : J} {k : Nat} (h : n.step (.spawn j) = some (n', [.accepted k j'])) : j' = j := by
  simp only [Nursery.step] at h
  split at h
  · cases h
  split at h
  · simp at h
  simp only [Option.some.injEq, Prod.mk.injEq, List.cons.injEq, NurseryOutput.accepted.injEq, and_true] at h
  exact h.2.2.symm

theorem resolveTime_step (hT : 0 < jobsT) (hP : 0 < jobsP) {nT E co now : Nat} {bT bP bT' bP' : Nat → Nat} {s' : Resolve T P A D I ε}
    {e : ResolveEvent P ε I} {out : List (ResolveOutput T P D I ε)}
    (h : ResolveTime nT jobsT jobsP dT dP t0 now E co bT bP s) (hs : s.step addr all e = some (s', out))
    (hbT : ∀ w, bT' w = if asksTracker w (e, out) then now else bT w) (hbP : ∀ w, bP' w = if asksPeer w (e, out) then now else bP w) :
    ResolveTime nT jobsT jobsP dT dP t0 now E (co + (out.filterMap contactOf).length) bT' bP' s' := by
  obtain ⟨B, c, hB, hc⟩ := h.peers
  have hcount := h.count
  have hlate : ∀ k, now ≤ E + rounds (co + k) jobsP * dP := fun k => by
    have := Nat.mul_le_mul_right dP (rounds_mono (W := jobsP) (Nat.le_add_right co k))
    have := h.late
    omega
  have sameT : (∀ w, asksTracker w (e, out) = false) → ∀ w, bT' w = bT w := fun h0 w => by rw [hbT, h0 w]; simp
  have sameP : (∀ w, asksPeer w (e, out) = false) → ∀ w, bP' w = bP w := fun h0 w => by rw [hbP, h0 w]; simp
  simp only [Resolve.step] at hs
  split at hs
  · cases hs
  rename_i hx
  have hr : s.result = none := by simpa using hx
  -- steps of the tracker nursery
  have trackerCase : ∀ {ev : NurseryEvent T (List P)} {o : List (ResolveOutput T P D I ε)},
      (∀ n n' o c, NurseryTime jobsT dT t0 now n c bT → n.step ev = some (n', o) → ∃ c', NurseryTime jobsT dT t0 now n' c' bT' ∧ n'.next = n.next) →
      (∀ w, asksPeer w (e, out) = false) → s.trackerStep ev o = some (s', out) → out.filterMap contactOf = [] →
      ResolveTime nT jobsT jobsP dT dP t0 now E (co + (out.filterMap contactOf).length) bT' bP' s' := by
    intro ev o hstep hw hs hout
    unfold Resolve.trackerStep at hs
    split at hs
    · rename_i n hn
      obtain ⟨r, hr1, hs⟩ := Option.map_eq_some_iff.1 hs
      cases hs
      obtain ⟨g1, cT, g2⟩ := h.trackers n hn
      obtain ⟨c', k1, k2⟩ := hstep n r.1 r.2 cT g2 hr1
      refine ⟨⟨B, c, hB, hc.congr (sameP hw)⟩, by simp [hout, hcount], ?_, h.todo, h.feeding, hlate _⟩
      intro n' hn'
      cases hn'
      exact ⟨by simp only; omega, c', k1⟩
    · cases hs
  -- steps of the peer nursery
  have peerCase : ∀ {ev : NurseryEvent P (P × Except ε I)} {o : List (ResolveOutput T P D I ε)},
      (∀ n' o, s.peers.step ev = some (n', o) → ∃ c', NurseryTime jobsP dP B now n' c' bP' ∧ n'.next = s.peers.next) →
      (∀ w, asksTracker w (e, out) = false) → s.peerStep ev o = some (s', out) → out.filterMap contactOf = [] →
      ResolveTime nT jobsT jobsP dT dP t0 now E (co + (out.filterMap contactOf).length) bT' bP' s' := by
    intro ev o hstep hw hs hout
    unfold Resolve.peerStep at hs
    obtain ⟨r, hr1, hs⟩ := Option.map_eq_some_iff.1 hs
    cases hs
    obtain ⟨c', k1, k2⟩ := hstep r.1 r.2 hr1
    refine ⟨⟨B, c', hB, k1⟩, by simp [hout, hcount, k2], ?_, h.todo, h.feeding, hlate _⟩
    intro n hn
    obtain ⟨g1, cT, g2⟩ := h.trackers n hn
    exact ⟨g1, cT, g2.congr (sameT hw)⟩
  -- the feeding task ends
  have endCase : ∀ {s1 : Resolve T P A D I ε} {o : List (ResolveOutput T P D I ε)}, s1.peers = s.peers → s1.todo = s.todo → s1.result = s.result →
      s1.endJob o = some (s', out) → o.filterMap contactOf = [] → (∀ w, asksPeer w (e, out) = false) →
      ResolveTime nT jobsT jobsP dT dP t0 now E (co + (out.filterMap contactOf).length) bT' bP' s' := by
    intro s1 o hp1 ht1 hr1 hs hout hw
    unfold Resolve.endJob at hs
    obtain ⟨r, hr2, hs⟩ := Option.map_eq_some_iff.1 hs
    cases hs
    rw [hp1] at hr2
    obtain ⟨k1, k2⟩ := hc.dropHandle hr2
    refine ⟨⟨B, c, hB, k1.congr (sameP hw)⟩, by simp [hout, hcount, k2], by intro n hn; simp at hn, ?_, by simp, hlate _⟩
    simp only [ht1]
    exact fun _ => h.todo hr
  have oldT : (∀ w, asksTracker w (e, out) = false) →
      ∀ n, s.trackers = some n → n.next + s.todo.length = nT ∧ ∃ c, NurseryTime jobsT dT t0 now n c bT' := by
    intro hw n hn
    obtain ⟨g1, cT, g2⟩ := h.trackers n hn
    exact ⟨g1, cT, g2.congr (sameT hw)⟩
  cases e with
  | spawnTracker =>
    simp only at hs
    split at hs
    · rename_i t ts htodo
      have hnow := h.todo hr (by rw [htodo]; simp)
      subst hnow
      split at hs
      · rename_i n1 k j hstep
        cases hs
        cases hn : s.trackers with
        | none => rw [hn] at hstep; cases hstep
        | some n =>
          rw [hn, Option.bind_some] at hstep
          have := spawn_accepted hstep
          subst this
          obtain ⟨g1, cT, g2⟩ := h.trackers n hn
          obtain ⟨k1, k2⟩ := g2.spawn hstep
          refine ⟨⟨B, c, hB, hc.congr (sameP fun _ => rfl)⟩, by simp [hcount], ?_, fun _ _ => rfl, h.feeding, hlate _⟩
          intro n' hn'
          cases hn'
          rw [htodo] at g1
          exact ⟨by simp at g1 ⊢; omega, cT, k1.congr (sameT fun _ => rfl)⟩
      · cases hs
        exact ⟨⟨B, c, hB, hc.congr (sameP fun _ => rfl)⟩, by simp [hcount, contactOf], oldT fun _ => rfl, by intro h; simp at h, h.feeding, hlate _⟩
      · cases hs
    · cases hs
  | startJob =>
    simp only at hs
    split at hs
    · rename_i htodo hjob
      have hfeed := h.feeding (by rw [hjob]; simp)
      split at hs
      · rename_i n hn
        obtain ⟨r, hr1, hs⟩ := Option.map_eq_some_iff.1 hs
        cases hs
        obtain ⟨g1, cT, g2⟩ := h.trackers n hn
        obtain ⟨k1, k2⟩ := g2.dropHandle hr1
        refine ⟨⟨B, c, hB, hc.congr (sameP fun _ => rfl)⟩, by simp [hcount], ?_, h.todo, fun _ => hfeed, hlate _⟩
        intro n' hn'
        cases hn'
        exact ⟨by simp only; omega, cT, k1.congr (sameT fun _ => rfl)⟩
      · rename_i hn
        cases hs
        exact ⟨⟨B, c, hB, hc.congr (sameP fun _ => rfl)⟩, by simp [hcount], oldT fun _ => rfl, h.todo, fun _ => hfeed, hlate _⟩
    · cases hs
  | trackerTake w =>
    have ho : out = [] := by
      simp only [Resolve.trackerStep] at hs
      split at hs
      · obtain ⟨r, -, hs⟩ := Option.map_eq_some_iff.1 hs; cases hs; rfl
      · cases hs
    refine trackerCase ?_ (fun _ => rfl) hs (by simp [ho])
    intro n n' o c hc hst
    obtain ⟨k1, k2⟩ := hc.take hT hst
    exact ⟨_, k1.congr (sameT fun _ => rfl), k2⟩
  | trackerCheck w =>
    have ho : out = [] := by
      simp only [Resolve.trackerStep] at hs
      split at hs
      · obtain ⟨r, -, hs⟩ := Option.map_eq_some_iff.1 hs; cases hs; rfl
      · cases hs
    refine trackerCase ?_ (fun _ => rfl) hs (by simp [ho])
    intro n n' o c hc hst
    obtain ⟨k1, k2⟩ := hc.check hst (b' := bT') (by rw [hbT]; simp [asksTracker])
      (by intro k hk; rw [hbT]; simp [asksTracker]; intro h; exact absurd h.symm hk)
    exact ⟨_, k1, k2⟩
  | trackerExit w =>
    have ho : out = [] := by
      simp only [Resolve.trackerStep] at hs
      split at hs
      · obtain ⟨r, -, hs⟩ := Option.map_eq_some_iff.1 hs; cases hs; rfl
      · cases hs
    refine trackerCase ?_ (fun _ => rfl) hs (by simp [ho])
    intro n n' o c hc hst
    obtain ⟨k1, k2⟩ := hc.exit hst
    exact ⟨_, k1.congr (sameT fun _ => rfl), k2⟩
  | trackerEnds w r =>
    simp only at hs
    split at hs
    · rename_i t _
      have ho : out.filterMap contactOf = [] := by
        simp only [Resolve.trackerStep] at hs
        split at hs
        · obtain ⟨r', -, hs⟩ := Option.map_eq_some_iff.1 hs
          cases hs
          cases trackerPeers r <;> simp [contactOf]
        · cases hs
      refine trackerCase ?_ (fun _ => rfl) hs ho
      intro n n' o c hc hst
      obtain ⟨k1, k2⟩ := hc.finish hst
      exact ⟨_, k1.congr (sameT fun _ => rfl), k2⟩
    · cases hs
  | nextPeer =>
    simp only at hs
    split at hs
    · rename_i p ps hjob hbatch
      have hfeed := h.feeding (by rw [hjob]; simp)
      split at hs
      · cases hs
        exact ⟨⟨B, c, hB, hc.congr (sameP fun _ => rfl)⟩, by simp [hcount, contactOf], oldT fun _ => rfl, h.todo, fun _ => hfeed, hlate _⟩
      · split at hs
        · rename_i n1 k j hstep
          cases hs
          have := spawn_accepted hstep
          subst this
          obtain ⟨k1, k2⟩ := hc.spawn hstep
          exact ⟨⟨now, c, hfeed, k1.congr (sameP fun _ => rfl)⟩, by simp [hcount, k2, contactOf, List.filterMap], oldT fun _ => rfl, h.todo,
            fun _ => hfeed, hlate _⟩
        · exact endCase rfl rfl rfl hs (by simp [List.filterMap, contactOf]) fun _ => rfl
        · cases hs
    · cases hs
  | nextBatch =>
    simp only at hs
    split at hs
    · rename_i n hjob hbatch hn
      have hfeed := h.feeding (by rw [hjob]; simp)
      obtain ⟨g1, cT, g2⟩ := h.trackers n hn
      split at hs
      · rename_i n' k ps hstep
        cases hs
        obtain ⟨k1, k2⟩ := g2.recv hstep
        refine ⟨⟨B, c, hB, hc.congr (sameP fun _ => rfl)⟩, by simp [hcount], ?_, h.todo, fun _ => hfeed, hlate _⟩
        intro n'' hn'
        cases hn'
        exact ⟨by simp only; omega, cT, k1.congr (sameT fun _ => rfl)⟩
      · exact endCase rfl rfl rfl hs rfl fun _ => rfl
      · cases hs
    · cases hs
  | noMorePeers =>
    simp only at hs
    split at hs
    · split at hs
      · exact endCase rfl rfl rfl hs rfl fun _ => rfl
      · cases hs
    · exact endCase rfl rfl rfl hs rfl fun _ => rfl
    · cases hs
  | peerTake w =>
    have ho : out = [] := by
      obtain ⟨r, -, hs⟩ := Option.map_eq_some_iff.1 hs; cases hs; rfl
    refine peerCase ?_ (fun _ => rfl) hs (by simp [ho])
    intro n' o hst
    obtain ⟨k1, k2⟩ := hc.take hP hst
    exact ⟨_, k1.congr (sameP fun _ => rfl), k2⟩
  | peerCheck w =>
    have ho : out = [] := by
      obtain ⟨r, -, hs⟩ := Option.map_eq_some_iff.1 hs; cases hs; rfl
    refine peerCase ?_ (fun _ => rfl) hs (by simp [ho])
    intro n' o hst
    obtain ⟨k1, k2⟩ := hc.check hst (b' := bP') (by rw [hbP]; simp [asksPeer])
      (by intro k hk; rw [hbP]; simp [asksPeer]; intro h; exact absurd h.symm hk)
    exact ⟨_, k1, k2⟩
  | peerExit w =>
    have ho : out = [] := by
      obtain ⟨r, -, hs⟩ := Option.map_eq_some_iff.1 hs; cases hs; rfl
    refine peerCase ?_ (fun _ => rfl) hs (by simp [ho])
    intro n' o hst
    obtain ⟨k1, k2⟩ := hc.exit hst
    exact ⟨_, k1.congr (sameP fun _ => rfl), k2⟩
  | peerEnds w r =>
    simp only at hs
    split at hs
    · have ho : out.filterMap contactOf = [] := by
        obtain ⟨r', -, hs⟩ := Option.map_eq_some_iff.1 hs; cases hs; simp [contactOf]
      refine peerCase ?_ (fun _ => rfl) hs ho
      intro n' o hst
      obtain ⟨k1, k2⟩ := hc.finish hst
      exact ⟨_, k1.congr (sameP fun _ => rfl), k2⟩
    · cases hs
  | receive =>
    simp only at hs
    split at hs
    · cases hs
    split at hs
    · rename_i hstep
      cases hs
      obtain ⟨k1, k2⟩ := hc.recv hstep
      exact ⟨⟨B, c, hB, k1.congr (sameP fun _ => rfl)⟩, by simp [hcount, k2, contactOf, List.filterMap], oldT fun _ => rfl, by intro h; simp at h, h.feeding, hlate _⟩
    · rename_i hstep
      cases hs
      obtain ⟨k1, k2⟩ := hc.recv hstep
      exact ⟨⟨B, c, hB, k1.congr (sameP fun _ => rfl)⟩, by simp [hcount, k2, contactOf], oldT fun _ => rfl, h.todo, h.feeding, hlate _⟩
    · rename_i hstep
      cases hs
      obtain ⟨k1, k2⟩ := hc.recv hstep
      exact ⟨⟨B, c, hB, k1.congr (sameP fun _ => rfl)⟩, by simp [hcount, k2, contactOf], oldT fun _ => rfl, by intro h; simp at h, h.feeding, hlate _⟩
    · cases hs
  | receiveNone =>
    simp only at hs
    split at hs
    · cases hs
    split at hs
    · rename_i hstep
      cases hs
      simp only [Nursery.step] at hstep
      split at hstep <;> cases hstep
      exact ⟨⟨B, c, hB, hc.congr (sameP fun _ => rfl)⟩, by simp [hcount, contactOf], oldT fun _ => rfl, by intro h; simp at h, h.feeding, hlate _⟩
    · cases hs

theorem resolve_step_none {s' : Resolve T P A D I ε} {e : ResolveEvent P ε I} {out : List (ResolveOutput T P D I ε)}
    (hs : s.step addr all e = some (s', out)) : s.result = none := by
  cases hx : s.result with
  | none => rfl
  | some c => simp [Resolve.step, hx] at hs

theorem resolve_time (hT : 0 < jobsT) (hP : 0 < jobsP) {tr : TimedTrace T P D I ε} (h : DownloadTimed addr all dht jobsT jobsP dT dP t0 tr s) :
    ResolveTime all.length jobsT jobsP dT dP t0 (clock t0 tr) (t0 + rounds all.length jobsT * dT) (contacts (tr.map Prod.snd)).length
      (fun w => lastAt (asksTracker w) t0 tr) (fun w => lastAt (asksPeer w) t0 tr) s := by
  induction h with
  | init =>
    have hE : t0 ≤ t0 + rounds all.length jobsT * dT := Nat.le_add_right _ _
    have hp : (Resolve.start all dht jobsT jobsP : Resolve T P A D I ε).peers = .new jobsP := by
      cases all with
      | nil => cases dht <;> rfl
      | cons => rfl
    refine ⟨⟨t0, _, hE, by rw [hp]; exact nurseryTime_new _ _ _ _⟩, by rw [hp]; simp [contacts, resolveObserved, Nursery.new], ?_, fun _ _ => rfl, fun _ => hE,
      Nat.le_trans hE (Nat.le_add_right _ _)⟩
    intro n hn
    cases all with
    | nil => cases dht <;> cases hn
    | cons t ts =>
      cases hn
      exact ⟨by simp [Resolve.start, Nursery.new], _, nurseryTime_new _ _ _ _⟩
  | step now hr hle hidle hrT hrP hs ih =>
    rw [clock_snoc]
    have h1 := resolveTime_pass hT hP (downloadTimed_run hr) (resolve_step_none hs) ih hle hidle hrT hrP
    have h2 := resolveTime_step hT hP h1 hs (bT' := fun w => lastAt (asksTracker w) t0 _) (bP' := fun w => lastAt (asksPeer w) t0 _)
      (fun w => by rw [lastAt_snoc]) (fun w => by rw [lastAt_snoc])
    have h3 : ∀ (tr : TimedTrace T P D I ε) (e : ResolveEvent P ε I) (out : List (ResolveOutput T P D I ε)),
        (contacts ((tr ++ [(now, e, out)]).map Prod.snd)).length = (contacts (tr.map Prod.snd)).length + (out.filterMap contactOf).length := by
      intro tr e out
      simp [contacts, resolveObserved]
    rw [h3]
    exact h2

theorem downloadTimed_clock {tr : TimedTrace T P D I ε} (h : DownloadTimed addr all dht jobsT jobsP dT dP t0 tr s) : ∀ x ∈ tr, x.1 ≤ clock t0 tr := by
  induction h with
  | init => simp
  | step now hr hle hidle hrT hrP hs ih =>
    intro x hx
    rw [clock_snoc]
    rcases List.mem_append.1 hx with hx | hx
    · exact Nat.le_trans (ih x hx) hle
    · rw [List.mem_singleton.1 hx]
      exact Nat.le_refl _

/-- **C101.** If no tracker is asked for longer than `dT` and no peer for longer than `dP`, a download has its result after as many rounds of `dT` as there are
trackers for each of its tracker jobs, and as many rounds of `dP` as peers are contacted for each of its peer jobs. -/
theorem download_in_time (hT : 0 < jobsT) (hP : 0 < jobsP) {tr : TimedTrace T P D I ε} (h : DownloadTimed addr all dht jobsT jobsP dT dP t0 tr s) :
    ∀ x ∈ tr, x.1 ≤ t0 + rounds all.length jobsT * dT + rounds (contacts (tr.map Prod.snd)).length jobsP * dP :=
  fun x hx => Nat.le_trans (downloadTimed_clock h x hx) (resolve_time hT hP h).late

theorem goes_on_step (hT : 0 < jobsT) (hP : 0 < jobsP) {tr : TimedTrace T P D I ε} (h : DownloadTimed addr all dht jobsT jobsP dT dP t0 tr s)
    {e : ResolveEvent P ε I} {s' : Resolve T P A D I ε} {out : List (ResolveOutput T P D I ε)} (hs : s.step addr all e = some (s', out)) :
    DownloadTimed addr all dht jobsT jobsP dT dP t0 (tr ++ [(clock t0 tr, e, out)]) s' := by
  have ht := resolve_time hT hP h
  refine .step _ h (Nat.le_refl _) (fun hlt => absurd hlt (Nat.lt_irrefl _)) ?_ ?_ hs
  · intro w n t hw
    cases hn : s.trackers with
    | none => rw [hn] at hw; cases hw
    | some n =>
      rw [hn] at hw
      obtain ⟨-, c, g⟩ := ht.trackers n hn
      exact (g.run _ _ _ hw).2.2.2
  · intro w n p hw
    obtain ⟨B, c, -, g⟩ := ht.peers
    exact (g.run _ _ _ hw).2.2.2

/-- **C101.** And however trackers' and peers' tasks end, it goes on until the result is there. -/
theorem download_reaches (hT : 0 < jobsT) (hP : 0 < jobsP) (trackerEnd : T → Outcome (Except ε (List P))) (peerEnd : P → Outcome (Except ε I))
    {tr : TimedTrace T P D I ε} (h : DownloadTimed addr all dht jobsT jobsP dT dP t0 tr s) :
    ∃ post s', DownloadTimed addr all dht jobsT jobsP dT dP t0 (tr ++ post) s' ∧ s'.result ≠ none ∧
      (∀ x ∈ peerDones (post.map Prod.snd), x.2 = peerEnd x.1) ∧ ∀ x ∈ trackerDones (post.map Prod.snd), x.2 = trackerPeers (trackerEnd x.1) := by
  have hwf := resolve_terminates (D := D) (I := I) (ε := ε) addr all
  induction s using hwf.induction generalizing tr with
  | _ s ih =>
    cases hr : s.result with
    | some r => exact ⟨[], s, by simpa using h, by simp [hr], by simp [peerDones, resolveObserved], by simp [trackerDones, resolveObserved]⟩
    | none =>
      obtain ⟨e, s', out, hs, h1, h2⟩ := resolve_progress hT hP (downloadTimed_run h) hr trackerEnd peerEnd
      obtain ⟨post, s'', g1, g2, g3, g4⟩ := ih s' ⟨e, out, hs⟩ (goes_on_step hT hP h hs)
      refine ⟨(clock t0 tr, e, out) :: post, s'', by simpa using g1, g2, ?_, ?_⟩
      · intro x hx
        simp only [peerDones, resolveObserved, List.map_cons, List.flatMap_cons, List.filterMap_append, List.mem_append] at hx
        exact hx.elim (h1 x) (g3 x)
      · intro x hx
        simp only [trackerDones, resolveObserved, List.map_cons, List.flatMap_cons, List.filterMap_append, List.mem_append] at hx
        exact hx.elim (h2 x) (g4 x)

/-! ### The first peer that delivers -/

theorem nursery_outputs_keep {J R : Type} {n n' : Nursery J R} {ev : NurseryEvent J R} {o : List (NurseryOutput J R)} (h : n.step ev = some (n', o))
    (hev : ev ≠ .recv) {x : Nat × Outcome R} (hx : x ∈ n.outputs) : x ∈ n'.outputs := by
  cases ev with
  | recv => exact absurd rfl hev
  | finish w r =>
    simp only [Nursery.step] at h
    split at h
    · split at h <;> cases h
      · simp [hx]
      · exact hx
    · cases h
  | _ =>
    simp only [Nursery.step] at h
    repeat' split at h
    all_goals first | (cases h; exact hx) | cases h

theorem resolve_unstarted {tr : ResolveTrace T P D I ε} (h : ResolveRun addr all dht jobsT jobsP tr s) (hj : s.job = .notStarted) :
    s.peers = .new jobsP := by
  induction h with
  | init =>
    cases all with
    | nil => cases dht <;> rfl
    | cons => rfl
  | @step tr s s' e out hr hs ih =>
    have quiet : ∀ {ev : NurseryEvent T (List P)} {o : List (ResolveOutput T P D I ε)}, s.trackerStep ev o = some (s', out) → s'.peers = .new jobsP := by
      intro ev o hs
      unfold Resolve.trackerStep at hs
      split at hs
      · obtain ⟨r, -, hs⟩ := Option.map_eq_some_iff.1 hs; cases hs; exact ih hj
      · cases hs
    have ended : ∀ {s1 : Resolve T P A D I ε} {o : List (ResolveOutput T P D I ε)}, s1.endJob o = some (s', out) → s'.peers = .new jobsP := by
      intro s1 o hs
      unfold Resolve.endJob at hs
      obtain ⟨r, -, hs⟩ := Option.map_eq_some_iff.1 hs
      cases hs
      cases hj
    have worker : ∀ w : Nat, (Nursery.new jobsP : Nursery P (P × Except ε I)).workers[w]? = none ∨
        (Nursery.new jobsP : Nursery P (P × Except ε I)).workers[w]? = some .waiting := by
      intro w
      simp only [Nursery.new, List.getElem?_replicate]
      split <;> simp
    simp only [Resolve.step] at hs
    split at hs
    · cases hs
    cases e with
    | spawnTracker =>
      simp only at hs
      split at hs
      · split at hs <;> cases hs <;> exact ih hj
      · cases hs
    | startJob =>
      simp only at hs
      split at hs
      · split at hs
        · obtain ⟨r, -, hs⟩ := Option.map_eq_some_iff.1 hs; cases hs; cases hj
        · cases hs; cases hj
      · cases hs
    | trackerTake w => exact quiet hs
    | trackerCheck w => exact quiet hs
    | trackerExit w => exact quiet hs
    | trackerEnds w r =>
      simp only at hs
      split at hs
      · exact quiet hs
      · cases hs
    | nextPeer =>
      simp only at hs
      split at hs
      · rename_i hjob _
        split at hs
        · cases hs; simp only [hjob] at hj; cases hj
        · split at hs
          · cases hs; simp only [hjob] at hj; cases hj
          · exact ended hs
          · cases hs
      · cases hs
    | nextBatch =>
      simp only at hs
      split at hs
      · rename_i hjob _ _
        split at hs
        · cases hs; simp only [hjob] at hj; cases hj
        · exact ended hs
        · cases hs
      · cases hs
    | noMorePeers =>
      simp only at hs
      split at hs
      · split at hs
        · exact ended hs
        · cases hs
      · exact ended hs
      · cases hs
    | peerTake w =>
      obtain ⟨r, hr1, hs⟩ := Option.map_eq_some_iff.1 hs
      cases hs
      rw [ih hj] at hr1
      rcases worker w with h | h <;> simp [Nursery.step, h, Nursery.new] at hr1
    | peerCheck w =>
      obtain ⟨r, hr1, hs⟩ := Option.map_eq_some_iff.1 hs
      cases hs
      rw [ih hj] at hr1
      rcases worker w with h | h <;> simp [Nursery.step, h] at hr1
    | peerExit w =>
      obtain ⟨r, hr1, hs⟩ := Option.map_eq_some_iff.1 hs
      cases hs
      rw [ih hj] at hr1
      rcases worker w with h | h
      · simp [Nursery.step, h] at hr1
      · simp only [Nursery.step, h] at hr1
        simp [Nursery.new] at hr1
    | peerEnds w r =>
      simp only at hs
      split at hs
      · rename_i k p hw
        obtain ⟨r, hr1, hs⟩ := Option.map_eq_some_iff.1 hs
        cases hs
        rw [ih hj] at hw
        rcases worker w with h | h <;> rw [h] at hw <;> cases hw
      · cases hs
    | receive =>
      simp only at hs
      split at hs
      · cases hs
      rename_i hno
      split at hs <;> cases hs <;> exact absurd hj hno
    | receiveNone =>
      simp only at hs
      split at hs
      · cases hs
      rename_i hno
      split at hs <;> cases hs
      exact absurd hj hno

/-- What has been delivered stays until it is taken up. -/
theorem found_stays {s' : Resolve T P A D I ε} {e : ResolveEvent P ε I} {out : List (ResolveOutput T P D I ε)} (hs : s.step addr all e = some (s', out))
    {k : Nat} {p : P} {i : I} (hx : (k, .value (p, .ok i)) ∈ s.peers.outputs) : s'.result ≠ none ∨ (k, .value (p, .ok i)) ∈ s'.peers.outputs := by
  have quiet : ∀ {ev : NurseryEvent T (List P)} {o : List (ResolveOutput T P D I ε)}, s.trackerStep ev o = some (s', out) →
      s'.result ≠ none ∨ (k, .value (p, .ok i)) ∈ s'.peers.outputs := by
    intro ev o hs
    unfold Resolve.trackerStep at hs
    split at hs
    · obtain ⟨r, -, hs⟩ := Option.map_eq_some_iff.1 hs; cases hs; exact .inr hx
    · cases hs
  have ended : ∀ {s1 : Resolve T P A D I ε} {o : List (ResolveOutput T P D I ε)}, s1.peers = s.peers → s1.endJob o = some (s', out) →
      s'.result ≠ none ∨ (k, .value (p, .ok i)) ∈ s'.peers.outputs := by
    intro s1 o hp hs
    unfold Resolve.endJob at hs
    obtain ⟨r, hr, hs⟩ := Option.map_eq_some_iff.1 hs
    cases hs
    rw [hp] at hr
    exact .inr (nursery_outputs_keep hr (by simp) hx)
  have peer : ∀ {ev : NurseryEvent P (P × Except ε I)} {o : List (ResolveOutput T P D I ε)}, ev ≠ .recv → s.peerStep ev o = some (s', out) →
      s'.result ≠ none ∨ (k, .value (p, .ok i)) ∈ s'.peers.outputs := by
    intro ev o hev hs
    obtain ⟨r, hr, hs⟩ := Option.map_eq_some_iff.1 hs
    cases hs
    exact .inr (nursery_outputs_keep hr hev hx)
  simp only [Resolve.step] at hs
  split at hs
  · cases hs
  cases e with
  | spawnTracker =>
    simp only at hs
    split at hs
    · split at hs <;> cases hs
      · exact .inr hx
      · exact .inr hx
    · cases hs
  | startJob =>
    simp only at hs
    split at hs
    · split at hs
      · obtain ⟨r, -, hs⟩ := Option.map_eq_some_iff.1 hs; cases hs; exact .inr hx
      · cases hs; exact .inr hx
    · cases hs
  | trackerTake w => exact quiet hs
  | trackerCheck w => exact quiet hs
  | trackerExit w => exact quiet hs
  | trackerEnds w r =>
    simp only at hs
    split at hs
    · exact quiet hs
    · cases hs
  | nextPeer =>
    simp only at hs
    split at hs
    · split at hs
      · cases hs; exact .inr hx
      · split at hs
        · rename_i hstep
          cases hs
          exact .inr (nursery_outputs_keep hstep (by simp) hx)
        · exact ended rfl hs
        · cases hs
    · cases hs
  | nextBatch =>
    simp only at hs
    split at hs
    · split at hs
      · cases hs; exact .inr hx
      · exact ended rfl hs
      · cases hs
    · cases hs
  | noMorePeers =>
    simp only at hs
    split at hs
    · split at hs
      · exact ended rfl hs
      · cases hs
    · exact ended rfl hs
    · cases hs
  | peerTake w => exact peer (by simp) hs
  | peerCheck w => exact peer (by simp) hs
  | peerExit w => exact peer (by simp) hs
  | peerEnds w r =>
    simp only at hs
    split at hs
    · exact peer (by simp) hs
    · cases hs
  | receive =>
    simp only at hs
    split at hs
    · cases hs
    split at hs
    · cases hs; exact .inl (by simp)
    · rename_i n k' p' er hstep
      cases hs
      right
      simp only [Nursery.step] at hstep
      split at hstep
      · split at hstep
        · rename_i n1 o1 r1 hout
          simp only [Option.some.injEq, Prod.mk.injEq, List.cons.injEq, NurseryOutput.delivered.injEq, and_true] at hstep
          obtain ⟨rfl, rfl, rfl⟩ := hstep
          rw [hout] at hx
          rcases List.mem_cons.1 hx with h | h
          · simp at h
          · exact h
        · cases hstep
      · cases hstep
    · cases hs; exact .inl (by simp)
    · cases hs
  | receiveNone =>
    simp only at hs
    split at hs
    · cases hs
    split at hs <;> cases hs
    exact .inl (by simp)

/-- **C101.** When the first peer has delivered the result is there at once: nothing happens later. -/
theorem download_at_once (hT : 0 < jobsT) (hP : 0 < jobsP) {tr : TimedTrace T P D I ε} (h : DownloadTimed addr all dht jobsT jobsP dT dP t0 tr s)
    {t w : Nat} {i : I} {out : List (ResolveOutput T P D I ε)} (ht : (t, .peerEnds w (.value (.ok i)), out) ∈ tr) : ∀ x ∈ tr, x.1 ≤ t := by
  suffices (∀ x ∈ tr, x.1 ≤ t) ∧ clock t0 tr ≤ t ∧ (s.result ≠ none ∨ ∃ k p j, (k, .value (p, .ok j)) ∈ s.peers.outputs) from this.1
  induction h with
  | init => cases ht
  | @step tr s s' e out' now hr hle hidle hrT hrP hs ih =>
    have hres := resolve_step_none hs
    have hr' : s.result.isSome = false := by rw [hres]; rfl
    have hal : s.peers.alive = true := by
      obtain ⟨B, c, -, g⟩ := (resolve_time hT hP hr).peers
      exact g.alive
    rw [clock_snoc]
    rcases List.mem_append.1 ht with ht | ht
    · obtain ⟨h1, h2, h3⟩ := ih ht
      obtain ⟨k, p, j, hx⟩ := h3.resolve_left (by simp [hres])
      have hnow : now ≤ t := by
        by_contra hlt
        have hi := hidle (by omega) .receive rfl
        have hjob : s.job ≠ .notStarted := by
          intro hj
          rw [resolve_unstarted (downloadTimed_run hr) hj] at hx
          simp [Nursery.new] at hx
        cases hout : s.peers.outputs with
        | nil => rw [hout] at hx; cases hx
        | cons y ys =>
          obtain ⟨n, o⟩ := y
          have hstep : s.peers.step .recv = some ({ s.peers with outputs := ys }, [.delivered n o]) := by
            simp [Nursery.step, hal, hout]
          simp only [Resolve.step, hr', hstep] at hi
          rw [if_neg (by simp), if_neg hjob] at hi
          cases o with
          | panic => cases hi
          | value y =>
            obtain ⟨q, r⟩ := y
            cases r <;> cases hi
      refine ⟨?_, hnow, ?_⟩
      · intro x hx
        rcases List.mem_append.1 hx with hx | hx
        · exact h1 x hx
        · rw [List.mem_singleton.1 hx]; exact hnow
      · rcases found_stays hs hx with h | h
        · exact .inl h
        · exact .inr ⟨_, _, _, h⟩
    · have := List.mem_singleton.1 ht
      simp only [Prod.mk.injEq] at this
      obtain ⟨rfl, rfl, rfl⟩ := this
      refine ⟨?_, Nat.le_refl _, ?_⟩
      · intro x hx
        rcases List.mem_append.1 hx with hx | hx
        · have : x.1 ≤ clock t0 tr := downloadTimed_clock hr x hx
          omega
        · rw [List.mem_singleton.1 hx]; exact Nat.le_refl _
      · right
        simp only [Resolve.step, hr'] at hs
        rw [if_neg (by simp)] at hs
        split at hs
        · rename_i n p hw
          obtain ⟨r, hr1, hs⟩ := Option.map_eq_some_iff.1 hs
          cases hs
          simp only [Nursery.step, hw, hal, if_true, Option.some.injEq] at hr1
          subst hr1
          exact ⟨n, p, i, by simp [peerOutcome]⟩
        · cases hs

end

/-! ### A concrete case: the bound is reached -/

section
variable [DecidableEq A] {addr : P → A} {all : List T} {dht : Except ε (List P × List D)} {jobsT jobsP dT dP t0 : Nat}

/-- Whether there is nothing to do but wait. -/
def checkIdle (addr : P → A) (all : List T) (s : Resolve T P A D I ε) : Bool :=
  [ResolveEvent.spawnTracker, .startJob, .nextPeer, .nextBatch, .noMorePeers, .receive, .receiveNone].all (fun e => (s.step addr all e).isNone) &&
  (List.range (max s.peers.workers.length ((s.trackers.map fun n => n.workers.length).getD 0))).all fun w =>
    [ResolveEvent.trackerTake w, .trackerCheck w, .trackerExit w, .peerTake w, .peerCheck w, .peerExit w].all fun e => (s.step addr all e).isNone

theorem checkIdle_sound {s : Resolve T P A D I ε} (h : checkIdle addr all s = true) (e : ResolveEvent P ε I) (he : awaited e = false) :
    s.step addr all e = none := by
  simp only [checkIdle, Bool.and_eq_true, List.all_eq_true, List.mem_range] at h
  obtain ⟨h1, h2⟩ := h
  have plain : ∀ e : ResolveEvent P ε I, e ∈ [ResolveEvent.spawnTracker, .startJob, .nextPeer, .nextBatch, .noMorePeers, .receive, .receiveNone] →
      s.step addr all e = none := fun e he => by simpa using h1 e he
  have worker : ∀ (w : Nat) (e : ResolveEvent P ε I),
      e ∈ [ResolveEvent.trackerTake w, .trackerCheck w, .trackerExit w, .peerTake w, .peerCheck w, .peerExit w] → s.step addr all e = none := by
    intro w e he
    by_cases hw : w < max s.peers.workers.length ((s.trackers.map fun n => n.workers.length).getD 0)
    · simpa using h2 w hw e he
    · have hp : s.peers.workers[w]? = none := by rw [List.getElem?_eq_none_iff]; omega
      have ht : ∀ n, s.trackers = some n → n.workers[w]? = none := by
        intro n hn
        rw [hn] at hw
        simp only [Option.map_some, Option.getD_some] at hw
        rw [List.getElem?_eq_none_iff]; omega
      simp only [List.mem_cons, List.not_mem_nil, or_false] at he
      have htr : ∀ ev : NurseryEvent T (List P), (∀ n, s.trackers = some n → n.step ev = none) →
          s.trackerStep ev ([] : List (ResolveOutput T P D I ε)) = none := by
        intro ev hev
        unfold Resolve.trackerStep
        split
        · rename_i n hn; rw [hev n hn]; rfl
        · rfl
      rcases he with rfl | rfl | rfl | rfl | rfl | rfl
      · simp only [Resolve.step]; split
        · rfl
        · exact htr _ fun n hn => by simp [Nursery.step, ht n hn]
      · simp only [Resolve.step]; split
        · rfl
        · exact htr _ fun n hn => by simp [Nursery.step, ht n hn]
      · simp only [Resolve.step]; split
        · rfl
        · exact htr _ fun n hn => by simp [Nursery.step, ht n hn]
      all_goals simp [Resolve.step, Resolve.peerStep, Nursery.step, hp]
  cases e with
  | trackerEnds => cases he
  | peerEnds => cases he
  | trackerTake w => exact worker w _ (by simp)
  | trackerCheck w => exact worker w _ (by simp)
  | trackerExit w => exact worker w _ (by simp)
  | peerTake w => exact worker w _ (by simp)
  | peerCheck w => exact worker w _ (by simp)
  | peerExit w => exact worker w _ (by simp)
  | _ => exact plain _ (by simp)

def isRunning {J : Type} : Option (Worker J) → Bool
  | some (.running _ _) => true
  | _ => false

/-- Whether no task is overdue at the time `now`. -/
def checkOnTime (dT dP t0 now : Nat) (tr : TimedTrace T P D I ε) (s : Resolve T P A D I ε) : Bool :=
  (List.range ((s.trackers.map fun n => n.workers.length).getD 0)).all (fun w =>
    !isRunning (s.trackers.bind fun n => n.workers[w]?) || decide (now ≤ lastAt (asksTracker w) t0 tr + dT)) &&
  (List.range s.peers.workers.length).all fun w => !isRunning s.peers.workers[w]? || decide (now ≤ lastAt (asksPeer w) t0 tr + dP)

theorem checkOnTime_sound {now : Nat} {tr : TimedTrace T P D I ε} {s : Resolve T P A D I ε} (h : checkOnTime dT dP t0 now tr s = true) :
    (∀ w n t, (s.trackers.bind fun n => n.workers[w]?) = some (.running n t) → now ≤ lastAt (asksTracker w) t0 tr + dT) ∧
    ∀ (w n : Nat) (p : P), s.peers.workers[w]? = some (.running n p) → now ≤ lastAt (asksPeer w) t0 tr + dP := by
  simp only [checkOnTime, Bool.and_eq_true, List.all_eq_true, List.mem_range] at h
  constructor
  · intro w n t hw
    cases hn : s.trackers with
    | none => rw [hn] at hw; cases hw
    | some m =>
      have hlt : w < m.workers.length := by
        rw [hn] at hw
        exact (List.getElem?_eq_some_iff.1 hw).1
      have := h.1 w (by rw [hn]; exact hlt)
      rw [hw] at this
      simpa [isRunning] using this
  · intro w n p hw
    have := h.2 w (List.getElem?_eq_some_iff.1 hw).1
    rw [hw] at this
    simpa [isRunning] using this

/-- Runs events at their times. -/
def timedExec (addr : P → A) (all : List T) (dT dP t0 : Nat) :
    List (Nat × ResolveEvent P ε I) → TimedTrace T P D I ε → Resolve T P A D I ε → Option (TimedTrace T P D I ε × Resolve T P A D I ε)
  | [], tr, s => some (tr, s)
  | (now, e) :: es, tr, s =>
    if decide (clock t0 tr ≤ now) && (decide (clock t0 tr = now) || checkIdle addr all s) && checkOnTime dT dP t0 now tr s then
      match s.step addr all e with
      | some (s', out) => timedExec addr all dT dP t0 es (tr ++ [(now, e, out)]) s'
      | none => none
    else none

theorem timedExec_run : ∀ (es : List (Nat × ResolveEvent P ε I)) {tr tr' : TimedTrace T P D I ε} {s s' : Resolve T P A D I ε},
    DownloadTimed addr all dht jobsT jobsP dT dP t0 tr s → timedExec addr all dT dP t0 es tr s = some (tr', s') →
      DownloadTimed addr all dht jobsT jobsP dT dP t0 tr' s'
  | [], tr, tr', s, s', h, he => by cases he; exact h
  | (now, e) :: es, tr, tr', s, s', h, he => by
    rw [timedExec] at he
    split at he
    · rename_i hc
      simp only [Bool.and_eq_true, Bool.or_eq_true, decide_eq_true_eq] at hc
      obtain ⟨⟨h1, h2⟩, h3⟩ := hc
      obtain ⟨k1, k2⟩ := checkOnTime_sound h3
      split at he
      · rename_i s1 out hs
        refine timedExec_run es (.step now h h1 (fun hlt => ?_) k1 k2 hs) he
        rcases h2 with h2 | h2
        · omega
        · exact checkIdle_sound h2
      · cases he
    · cases he

end

/-- Two trackers asked one after the other, each for 30 (the second gives no answer); three peers, two at a time, each for 10. -/
def slowEvents : List (Nat × ResolveEvent (Nat × Nat) Nat Nat) :=
  [(5, .spawnTracker), (5, .spawnTracker), (5, .trackerTake 0), (5, .startJob), (5, .trackerCheck 0),
   (35, .trackerEnds 0 (.value (.error 7))), (35, .trackerTake 0), (35, .trackerCheck 0), (35, .nextBatch),
   (65, .trackerEnds 0 (.value (.ok [(1, 0), (2, 0), (1, 9), (3, 0)]))), (65, .trackerExit 0), (65, .nextBatch), (65, .nextPeer), (65, .nextPeer),
   (65, .nextPeer), (65, .nextPeer), (65, .noMorePeers), (65, .peerTake 1), (65, .peerTake 0), (65, .peerCheck 1), (65, .peerCheck 0),
   (75, .peerEnds 0 (.value (.error 1))), (75, .peerEnds 1 (.value (.error 2))), (75, .peerTake 1), (75, .receive), (75, .peerCheck 1), (75, .receive),
   (75, .peerExit 0), (85, .peerEnds 1 (.value (.error 3))), (85, .receive), (85, .peerExit 1), (85, .receiveNone)]

/-- The result comes as late as the bound allows: 5 + 2·30 + 2·10. -/
theorem download_bound_reached : ∃ (tr : TimedTrace Nat (Nat × Nat) Nat Nat Nat) (s : Resolve Nat (Nat × Nat) Nat Nat Nat Nat),
    DownloadTimed Prod.fst [100, 200] (.error 0) 1 2 30 10 5 tr s ∧ s.result = some .nothing ∧ clock 5 tr = 85 ∧
      5 + rounds 2 1 * 30 + rounds (contacts (tr.map Prod.snd)).length 2 * 10 = 85 := by
  have hx : ∃ x, timedExec Prod.fst [100, 200] 30 10 5 slowEvents []
      (Resolve.start [100, 200] (.error 0) 1 2 : Resolve Nat (Nat × Nat) Nat Nat Nat Nat) = some x ∧ x.2.result = some .nothing ∧ clock 5 x.1 = 85 ∧
      (contacts (x.1.map Prod.snd)).length = 3 := by
    refine ⟨_, rfl, ?_, ?_, ?_⟩ <;> decide +kernel
  obtain ⟨⟨tr, s⟩, h1, h2, h3, h4⟩ := hx
  exact ⟨tr, s, timedExec_run slowEvents .init h1, h2, h3, by rw [h4]; decide⟩

/-- Of two peers the second delivers first, and the other is not waited for. -/
example : ∃ (tr : TimedTrace Nat (Nat × Nat) Nat Nat Nat) (s : Resolve Nat (Nat × Nat) Nat Nat Nat Nat),
    DownloadTimed Prod.fst ([] : List Nat) (.ok ([(1, 0), (2, 0)], [])) 1 2 30 10 5 tr s ∧ s.result = some (.file 42 [] []) ∧ clock 5 tr = 8 := by
  have hx : ∃ x, timedExec Prod.fst ([] : List Nat) 30 10 5
      [(5, .startJob), (5, .nextPeer), (5, .nextPeer), (5, .noMorePeers), (5, .peerTake 0), (5, .peerTake 1), (5, .peerCheck 0), (5, .peerCheck 1),
        (8, .peerEnds 1 (.value (.ok 42))), (8, .receive)] []
      (Resolve.start ([] : List Nat) (.ok ([(1, 0), (2, 0)], [])) 1 2 : Resolve Nat (Nat × Nat) Nat Nat Nat Nat) = some x ∧
      x.2.result = some (.file 42 [] []) ∧ clock 5 x.1 = 8 := by
    refine ⟨_, rfl, ?_, ?_⟩ <;> decide +kernel
  obtain ⟨⟨tr, s⟩, h1, h2, h3⟩ := hx
  exact ⟨tr, s, timedExec_run _ .init h1, h2, h3⟩

/-- Whether there is nothing to do but wait for downloads. -/
def checkBatchIdle (s : Batch M) : Bool :=
  [BatchEvent.spawn, .dropHandle, .receive, .receiveNone].all (fun e => (s.step e).isNone) &&
  (List.range s.nursery.workers.length).all fun w => [BatchEvent.take w, .check w, .workerExit w].all fun e => (s.step e).isNone

theorem checkBatchIdle_sound {s : Batch M} (h : checkBatchIdle s = true) (e : BatchEvent) (he : downloadEnds e = false) : s.step e = none := by
  simp only [checkBatchIdle, Bool.and_eq_true, List.all_eq_true, List.mem_range] at h
  obtain ⟨h1, h2⟩ := h
  have worker : ∀ (w : Nat) (e : BatchEvent), e ∈ [BatchEvent.take w, .check w, .workerExit w] → s.step e = none := by
    intro w e he
    by_cases hw : w < s.nursery.workers.length
    · simpa using h2 w hw e he
    · have hp : s.nursery.workers[w]? = none := by rw [List.getElem?_eq_none_iff]; omega
      simp only [List.mem_cons, List.not_mem_nil, or_false] at he
      rcases he with rfl | rfl | rfl <;> simp [Batch.step, Nursery.step, hp]
  cases e with
  | ends => cases he
  | take w => exact worker w _ (by simp)
  | check w => exact worker w _ (by simp)
  | workerExit w => exact worker w _ (by simp)
  | _ => simpa using h1 _ (by simp)

/-- Runs events at their times. -/
def batchTimedExec (d t0 : Nat) : List (Nat × BatchEvent) → List (Nat × BatchEvent × List (M × Outcome Bool)) → Batch M →
    Option (List (Nat × BatchEvent × List (M × Outcome Bool)) × Batch M)
  | [], tr, s => some (tr, s)
  | (now, e) :: es, tr, s =>
    if decide (clock t0 tr ≤ now) && (decide (clock t0 tr = now) || checkBatchIdle s) && (List.range s.nursery.workers.length).all (fun w =>
        !isRunning s.nursery.workers[w]? || decide (now ≤ lastAt (beginsDownload w) t0 tr + d)) then
      match s.step e with
      | some (s', out) => batchTimedExec d t0 es (tr ++ [(now, e, out)]) s'
      | none => none
    else none

theorem batchTimedExec_run {magnets : Option (List M)} {jobs d t0 : Nat} : ∀ (es : List (Nat × BatchEvent))
    {tr tr' : List (Nat × BatchEvent × List (M × Outcome Bool))} {s s' : Batch M},
    BatchTimed magnets jobs d t0 tr s → batchTimedExec d t0 es tr s = some (tr', s') → BatchTimed magnets jobs d t0 tr' s'
  | [], tr, tr', s, s', h, he => by cases he; exact h
  | (now, e) :: es, tr, tr', s, s', h, he => by
    rw [batchTimedExec] at he
    split at he
    · rename_i hc
      simp only [Bool.and_eq_true, Bool.or_eq_true, decide_eq_true_eq, List.all_eq_true, List.mem_range] at hc
      obtain ⟨⟨h1, h2⟩, h3⟩ := hc
      split at he
      · rename_i s1 out hs
        refine batchTimedExec_run es (.step now h h1 (fun hlt => ?_) (fun w n m hw => ?_) hs) he
        · rcases h2 with h2 | h2
          · omega
          · exact checkBatchIdle_sound h2
        · have := h3 w (List.getElem?_eq_some_iff.1 hw).1
          rw [hw] at this
          simpa [isRunning] using this
      · cases he
    · cases he

/-- Two links downloaded one after the other, each in the time allowed. -/
theorem batch_bound_reached : ∃ (tr : List (Nat × BatchEvent × List (Nat × Outcome Bool))) (s : Batch Nat),
    BatchTimed (some [1, 2]) 1 60 0 tr s ∧ s.exit = some .failure ∧ clock 0 tr = 0 + rounds 2 1 * 60 := by
  have hx : ∃ x, batchTimedExec 60 0 [(0, .spawn), (0, .take 0), (0, .spawn), (0, .check 0), (0, .dropHandle), (60, .ends 0 (.value true)), (60, .receive),
      (60, .take 0), (60, .check 0), (120, .ends 0 (.value false)), (120, .receive), (120, .workerExit 0), (120, .receiveNone)] []
      (Batch.start (some [1, 2]) 1 : Batch Nat) = some x ∧ x.2.exit = some .failure ∧ clock 0 x.1 = 0 + rounds 2 1 * 60 := by
    refine ⟨_, rfl, ?_, ?_⟩ <;> decide +kernel
  obtain ⟨⟨tr, s⟩, h1, h2, h3⟩ := hx
  exact ⟨tr, s, batchTimedExec_run _ .init h1, h2, h3⟩

end Demag.Props
