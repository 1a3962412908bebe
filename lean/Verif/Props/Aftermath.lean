import Verif.Spec.Aftermath
import Verif.Props.FleetEnds

/-!
# C103: what becomes of a download that has its metadata
-/

namespace Demag

open Spec Props

variable {T P A D I ε J R : Type} [DecidableEq A]

/-! ### Nurseries whose stream is dropped -/

/-- Workers that may yet begin a job without having ended one. -/
def Worker.idle : Worker J → Bool
  | .waiting => true
  | .received _ _ => true
  | _ => false

theorem countP_set (p : Worker J → Bool) : ∀ (l : List (Worker J)) (w : Nat) (a b : Worker J), l[w]? = some a →
    (l.set w b).countP p + (if p a then 1 else 0) = l.countP p + if p b then 1 else 0
  | [], w, a, b, h => by simp at h
  | x :: l, 0, a, b, h => by
    simp only [List.getElem?_cons_zero, Option.some.injEq] at h
    subst h
    simp only [List.set_cons_zero, List.countP_cons]
    omega
  | x :: l, w + 1, a, b, h => by
    simp only [List.getElem?_cons_succ] at h
    have := countP_set p l w a b h
    simp only [List.set_cons_succ, List.countP_cons]
    omega

/-- When nobody receives outcomes any more, a worker that begins a job begins no other. -/
theorem dropped_step {s s' : Nursery J R} {e : NurseryEvent J R} {out : List (NurseryOutput J R)} (he : e.ofWorker = true)
    (ha : s.alive = false) (hs : s.step e = some (s', out)) :
    s'.alive = false ∧ s'.workers.countP Worker.idle + (s.beginning e).toList.length ≤ s.workers.countP Worker.idle := by
  cases e with
  | take w =>
    simp only [Nursery.step] at hs
    split at hs
    case h_2 => cases hs
    rename_i n j q hw hq
    cases hs
    refine ⟨ha, ?_⟩
    have := countP_set Worker.idle _ _ _ (.received n j) hw
    simp only [Worker.idle] at this
    simp only [Nursery.beginning, Option.toList_none, List.length_nil]
    omega
  | check w =>
    simp only [Nursery.step] at hs
    split at hs
    case h_2 => cases hs
    rename_i n j hw
    have h1 := countP_set Worker.idle _ _ _ (.stopped) hw
    have h2 := countP_set Worker.idle _ _ _ (.running n j) hw
    simp only [Worker.idle, Bool.false_eq_true, if_true, if_false] at h1 h2
    by_cases hd : s.done
    · rw [if_pos hd] at hs
      cases hs
      refine ⟨ha, ?_⟩
      simp only [Nursery.beginning, hw, hd, if_true, Option.toList_none, List.length_nil]
      omega
    · rw [if_neg hd] at hs
      cases hs
      refine ⟨ha, ?_⟩
      simp only [Nursery.beginning, hw, hd, Bool.false_eq_true, if_false, Option.toList_some, List.length_singleton]
      omega
  | finish w o =>
    simp only [Nursery.step] at hs
    split at hs
    case h_2 => cases hs
    rename_i n j hw
    rw [if_neg (by simp [ha])] at hs
    cases hs
    refine ⟨ha, ?_⟩
    have := countP_set Worker.idle _ _ _ (.stopped) hw
    simp only [Worker.idle, Bool.false_eq_true, if_false] at this
    simp only [Nursery.beginning, Option.toList_none, List.length_nil]
    omega
  | exit w =>
    simp only [Nursery.step] at hs
    split at hs
    case h_2 => cases hs
    rename_i hw hq
    split at hs
    case isFalse => cases hs
    cases hs
    refine ⟨ha, ?_⟩
    have := countP_set Worker.idle _ _ _ (.stopped) hw
    simp only [Worker.idle, Bool.false_eq_true, if_true, if_false] at this
    simp only [Nursery.beginning, Option.toList_none, List.length_nil]
    omega
  | abort w =>
    simp only [Nursery.step] at hs
    rw [if_neg (by simp [ha])] at hs
    split at hs
    case h_4 => cases hs
    all_goals
      rename_i hw
      cases hs
      refine ⟨ha, ?_⟩
      have := countP_set Worker.idle _ _ _ (.stopped) hw
      simp only [Worker.idle, Bool.false_eq_true, if_true, if_false] at this
      simp only [Nursery.beginning, Option.toList_none, List.length_nil]
      omega
  | _ => cases he

theorem busy_idle (n : Nursery J R) : (busyWith n).length + n.workers.countP Worker.idle ≤ n.workers.length := by
  unfold busyWith
  induction n.workers with
  | nil => simp
  | cons w l ih =>
    cases w <;> simp [jobAtWork, List.filterMap_cons, List.countP_cons, Worker.idle] <;> omega

/-- Handing over is impossible when nobody receives outcomes any more, for then the nursery is closed. -/
theorem worker_step_closed {s s' : Nursery J R} {e : NurseryEvent J R} {out : List (NurseryOutput J R)} (he : e.ofWorker = true)
    (hs : s.step e = some (s', out)) : s'.closed = s.closed ∧ s'.alive = s.alive ∧ s'.handles = s.handles := by
  cases e <;> first
    | (cases he; done)
    | (simp only [Nursery.step] at hs
       (repeat' split at hs) <;> first | (cases hs; done) | (cases hs; exact ⟨rfl, rfl, rfl⟩))

/-! ### The state when the metadata is there -/

section
variable {addr : P → A} {all : List T} {dht : Except ε (List P × List D)} {jobsT jobsP : Nat}

/-- When there is a result the feeding task has been started, unless the DHT could not be asked. -/
theorem result_started {tr : ResolveTrace T P D I ε} {s : Resolve T P A D I ε} (h : ResolveRun addr all dht jobsT jobsP tr s)
    {i : I} {ts : List T} {ns : List D} (hr : s.result = some (.file i ts ns)) : s.job ≠ .notStarted := by
  cases h with
  | init => cases all <;> cases dht <;> simp [Resolve.start] at hr
  | @step tr s _ e out hrun hs =>
    rename_i s'
    intro hj
    have hn : s.result = none := by
      cases hres : s.result with
      | none => rfl
      | some x => simp [Resolve.step, hres] at hs
    cases e <;> simp only [Resolve.step, hn, Option.isSome_none, Bool.false_eq_true, if_false] at hs
    case receive =>
      split at hs
      · cases hs
      · rename_i hne
        split at hs
        all_goals first
          | (cases hs; done)
          | (cases hs; exact hne hj)
    case receiveNone =>
      split at hs
      · cases hs
      · rename_i hne
        split at hs
        all_goals first
          | (cases hs; done)
          | (cases hs; exact hne hj)
    all_goals
      try simp only [Resolve.trackerStep, Resolve.peerStep, Resolve.endJob] at hs
      repeat' split at hs
      all_goals first
        | (cases hs; done)
        | (cases hs; simp [hn] at hr; done)
        | (rw [Option.map_eq_some_iff] at hs; obtain ⟨r, -, hs⟩ := hs; cases hs; simp [hn] at hr; done)

/-- What holds of what is left of a download. -/
structure LeftInv (jobsT jobsP : Nat) (s : Aftermath T P A D I ε) : Prop where
  started : s.work.job ≠ .notStarted
  handles : s.work.job = .running → s.work.peers.handles ≠ 0
  peersN : s.work.peers.workers.length = jobsP
  trackersN : ∀ n, s.work.trackers = some n → n.workers.length = jobsT
  live : s.work.job = .running → ∀ n, s.work.trackers = some n → n.alive = true
  dead : s.work.job = .over → ∀ n, s.work.trackers = some n → n.alive = false
  dropped : s.work.peers.alive = false → s.aborted = true ∧ s.work.peers.closed = true

theorem left_start (hT : 0 < jobsT) (hP : 0 < jobsP) {tr : ResolveTrace T P D I ε} {s : Resolve T P A D I ε}
    (h : ResolveRun addr all dht jobsT jobsP tr s) {i : I} {ts : List T} {ns : List D} (hr : s.result = some (.file i ts ns)) :
    LeftInv jobsT jobsP (Aftermath.start s) ∧ s.peers.alive = true := by
  have hst := result_started h hr
  have hok : all ≠ [] ∨ ∃ x, dht = .ok x := by
    cases hal : all with
    | cons t ts => exact .inl (by simp)
    | nil =>
      cases hd : dht with
      | ok x => exact .inr ⟨x, rfl⟩
      | error e =>
        subst hal hd
        obtain ⟨-, rfl⟩ := resolve_exited h
        simp [Resolve.start] at hr
  obtain ⟨⟨⟨d, hp⟩, hsrc⟩, -⟩ := resolve_inv hT hP hok h
  obtain ⟨w1, w2⟩ := resolve_workers h
  have hal := follows_alive hp.follows
  refine ⟨⟨hst, ?_, w1, w2, ?_, ?_, ?_⟩, hal⟩
  · intro hj
    show s.peers.handles ≠ 0
    have hj' : s.job = .running := hj
    rw [hp.handles, hj']
    simp
  · intro hj n hn
    have hj' : s.job = .running := hj
    rcases hsrc with ⟨-, ht⟩ | ⟨-, f, ns', -, hd⟩
    · obtain ⟨n', acc, d', hn', hf, -⟩ := ht.live (by rw [hj']; simp)
      have hn2 : s.trackers = some n := hn
      rw [hn'] at hn2
      cases hn2
      exact follows_alive hf
    · have hn2 : s.trackers = some n := hn
      rw [hd.trackers] at hn2
      cases hn2
  · intro hj n hn
    have hj' : s.job = .over := hj
    have hn2 : s.trackers = some n := hn
    rcases hsrc with ⟨-, ht⟩ | ⟨-, f, ns', -, hd⟩
    · rw [(ht.over hj').1] at hn2; cases hn2
    · rw [hd.trackers] at hn2; cases hn2
  · intro hx
    have hx' : s.peers.alive = false := hx
    rw [hal] at hx'
    cases hx'

end

section
variable {jobsT jobsP : Nat} {addr : P → A}

theorem endJob_some {s s' : Aftermath T P A D I ε} {out out' : List (AftermathOutput T P)} (h : s.endJob out = some (s', out')) :
    out' = out ∧ ∃ n o, s.work.peers.step .dropHandle = some (n, o) ∧
      ((s.work.trackers = none ∧ s' = { s with work := { s.work with peers := n, job := .over, batch := [] } }) ∨
       ∃ t t' o', s.work.trackers = some t ∧ t.step .dropStream = some (t', o') ∧
        s' = { s with work := { s.work with peers := n, job := .over, batch := [], trackers := some t' } }) := by
  unfold Aftermath.endJob at h
  split at h
  · cases h
  · rename_i n o hn
    split at h
    · rename_i ht
      cases h
      exact ⟨rfl, n, o, hn, .inl ⟨ht, rfl⟩⟩
    · rename_i t ht
      rw [Option.map_eq_some_iff] at h
      obtain ⟨⟨t', o'⟩, h1, h2⟩ := h
      cases h2
      exact ⟨rfl, n, o, hn, .inr ⟨t, t', o', ht, h1, rfl⟩⟩

theorem dropStream_some {n n' : Nursery J R} {o : List (NurseryOutput J R)} (h : n.step .dropStream = some (n', o)) :
    n.alive = true ∧ n' = { n with alive := false, closed := true } := by
  simp only [Nursery.step] at h
  split at h
  · rename_i ha; cases h; exact ⟨ha, rfl⟩
  · cases h

theorem dropHandle_some {n n' : Nursery J R} {o : List (NurseryOutput J R)} (h : n.step .dropHandle = some (n', o)) :
    n.handles ≠ 0 ∧ n' = { n with handles := n.handles - 1, closed := n.closed || n.handles == 1 } := by
  simp only [Nursery.step] at h
  split at h
  · cases h
  · rename_i ha; cases h; exact ⟨ha, rfl⟩

theorem spawn_some {n n' : Nursery J R} {j : J} {k : Nat} {j' : J} {o : List (NurseryOutput J R)} (h : n.step (.spawn j) = some (n', o))
    (ho : o = [.accepted k j']) :
    n.closed = false ∧ n' = { n with queue := n.queue ++ [(n.next, j)], next := n.next + 1 } := by
  simp only [Nursery.step] at h
  split at h
  · cases h
  · split at h
    · cases h; cases ho
    · rename_i hc; cases h; exact ⟨by simpa using hc, rfl⟩

theorem left_endJob {s s' : Aftermath T P A D I ε} {out out' : List (AftermathOutput T P)} (h : LeftInv jobsT jobsP s)
    (hs : s.endJob out = some (s', out')) : LeftInv jobsT jobsP s' := by
  obtain ⟨-, n, o, hn, hc⟩ := endJob_some hs
  obtain ⟨-, rfl⟩ := dropHandle_some hn
  rcases hc with ⟨ht, rfl⟩ | ⟨t, t', o', ht, htd, rfl⟩
  · exact ⟨by simp, by simp, h.peersN, h.trackersN, by simp,
      fun _ n hn => (by have : s.work.trackers = some n := hn; rw [ht] at this; cases this), fun hx =>
        ⟨(h.dropped hx).1, by have := (h.dropped hx).2; simp [this]⟩⟩
  · obtain ⟨-, rfl⟩ := dropStream_some htd
    refine ⟨by simp, by simp, h.peersN, ?_, by simp, ?_, fun hx => ⟨(h.dropped hx).1, by have := (h.dropped hx).2; simp [this]⟩⟩
    · intro n hn
      cases hn
      exact h.trackersN t ht
    · intro _ n hn
      cases hn
      rfl

theorem left_step {s s' : Aftermath T P A D I ε} {e : AftermathEvent T P ε I} {out : List (AftermathOutput T P)}
    (h : LeftInv jobsT jobsP s) (hs : s.step addr e = some (s', out)) : LeftInv jobsT jobsP s' := by
  cases e with
  | abort =>
    simp only [Aftermath.step] at hs
    split at hs
    · cases hs
    · cases hs
      exact ⟨h.started, h.handles, h.peersN, h.trackersN, h.live, h.dead, fun hx => ⟨rfl, (h.dropped hx).2⟩⟩
  | drop =>
    simp only [Aftermath.step] at hs
    split at hs
    case isFalse => cases hs
    rename_i ha
    rw [Option.map_eq_some_iff] at hs
    obtain ⟨⟨n, o⟩, h1, hs⟩ := hs
    cases hs
    obtain ⟨-, rfl⟩ := dropStream_some h1
    exact ⟨h.started, h.handles, h.peersN, h.trackersN, h.live, h.dead, fun _ => ⟨ha, rfl⟩⟩
  | nextPeer =>
    simp only [Aftermath.step] at hs
    split at hs
    case h_2 => cases hs
    rename_i p ps hj hb
    split at hs
    · cases hs
      exact ⟨h.started, h.handles, h.peersN, h.trackersN, h.live, h.dead, h.dropped⟩
    · split at hs
      · rename_i n k j hn
        cases hs
        obtain ⟨hc, rfl⟩ := spawn_some hn rfl
        exact ⟨h.started, h.handles, h.peersN, h.trackersN, h.live, h.dead, h.dropped⟩
      · exact left_endJob h hs
      · cases hs
  | nextBatch =>
    simp only [Aftermath.step] at hs
    split at hs
    case h_2 => cases hs
    rename_i n hj hb ht
    have base : ∀ n' o, n.step .recv = some (n', o) →
        LeftInv jobsT jobsP ({ s with work := { s.work with trackers := some n' } } : Aftermath T P A D I ε) := by
      intro n' o hn
      have hw := step_workers hn
      have hal : n'.alive = n.alive := by
        simp only [Nursery.step] at hn
        repeat' split at hn
        all_goals first | (cases hn; done) | (cases hn; rfl)
      refine ⟨h.started, h.handles, h.peersN, ?_, ?_, ?_, h.dropped⟩
      · intro m hm; cases hm; rw [hw]; exact h.trackersN n ht
      · intro hr m hm; cases hm; rw [hal]; exact h.live hr n ht
      · intro hr m hm; cases hm; rw [hal]; exact h.dead hr n ht
    split at hs
    · rename_i hn
      cases hs
      have b := base _ _ hn
      exact ⟨b.started, b.handles, b.peersN, b.trackersN, b.live, b.dead, b.dropped⟩
    · rename_i hn
      exact left_endJob (base _ _ hn) hs
    · cases hs
  | noMorePeers =>
    simp only [Aftermath.step] at hs
    split at hs
    · split at hs
      · exact left_endJob h hs
      · cases hs
    · exact left_endJob h hs
    · cases hs
  | jobGone =>
    simp only [Aftermath.step] at hs
    split at hs
    · exact left_endJob h hs
    · cases hs
  | tracker e =>
    simp only [Aftermath.step] at hs
    split at hs
    case h_2 => cases hs
    rename_i n ht
    split at hs
    case isFalse => cases hs
    rename_i he
    rw [Option.map_eq_some_iff] at hs
    obtain ⟨⟨n', o⟩, h1, hs⟩ := hs
    cases hs
    obtain ⟨-, hal, -⟩ := worker_step_closed he h1
    refine ⟨h.started, h.handles, h.peersN, ?_, ?_, ?_, h.dropped⟩
    · intro m hm; cases hm; rw [step_workers h1]; exact h.trackersN n ht
    · intro hr m hm; cases hm; rw [hal]; exact h.live hr n ht
    · intro hr m hm; cases hm; rw [hal]; exact h.dead hr n ht
  | peer e =>
    simp only [Aftermath.step] at hs
    split at hs
    case isFalse => cases hs
    rename_i he
    rw [Option.map_eq_some_iff] at hs
    obtain ⟨⟨n', o⟩, h1, hs⟩ := hs
    cases hs
    obtain ⟨hcl, hal, hh⟩ := worker_step_closed he h1
    refine ⟨h.started, ?_, ?_, h.trackersN, h.live, h.dead, ?_⟩
    · intro hr; show n'.handles ≠ 0; rw [hh]; exact h.handles hr
    · show n'.workers.length = _; rw [step_workers h1]; exact h.peersN
    · intro hx
      have hx' : n'.alive = false := hx
      rw [hal] at hx'
      exact ⟨(h.dropped hx').1, by show n'.closed = true; rw [hcl]; exact (h.dropped hx').2⟩

theorem left_run {s0 s : Aftermath T P A D I ε} {tr : AftermathTrace T P ε I} (h : LeftInv jobsT jobsP s0) (hr : AftermathRun addr s0 tr s) :
    LeftInv jobsT jobsP s := by
  induction hr with
  | init => exact h
  | step _ hs ih => exact left_step ih hs

theorem late_snoc (tr : AftermathTrace T P ε I) (e : AftermathEvent T P ε I) (out : List (AftermathOutput T P)) :
    lateContacts (tr ++ [(e, out)]) = lateContacts tr ++ out.filterMap lateContactOf ∧
    lateAsked (tr ++ [(e, out)]) = lateAsked tr ++ out.filterMap lateAskOf ∧
    lateTrackers (tr ++ [(e, out)]) = lateTrackers tr ++ out.filterMap lateTrackerOf := by
  simp [lateContacts, lateAsked, lateTrackers, List.flatMap_append, List.filterMap_append]

theorem run_append {s0 s1 s2 : Aftermath T P A D I ε} {tr1 tr2 : AftermathTrace T P ε I} (h1 : AftermathRun addr s0 tr1 s1)
    (h2 : AftermathRun addr s1 tr2 s2) : AftermathRun addr s0 (tr1 ++ tr2) s2 := by
  induction h2 with
  | init => simpa using h1
  | step _ hs ih => rw [← List.append_assoc]; exact .step ih hs

/-- What a step of the feeding task does to the workers: nothing. -/
theorem job_keeps {s s' : Aftermath T P A D I ε} {out out' : List (AftermathOutput T P)} (hs : s.endJob out = some (s', out')) :
    s'.work.peers.workers = s.work.peers.workers ∧ s'.work.peers.alive = s.work.peers.alive ∧ s'.work.job = .over ∧
    s'.work.peers.queue = s.work.peers.queue := by
  obtain ⟨-, n, o, hn, hc⟩ := endJob_some hs
  obtain ⟨-, rfl⟩ := dropHandle_some hn
  rcases hc with ⟨ht, rfl⟩ | ⟨t, t', o', ht, htd, rfl⟩ <;> exact ⟨rfl, rfl, rfl, rfl⟩

theorem filterMap_toList {α β γ : Type} (f : β → Option γ) (g : α → β) (o : Option α) :
    ((o.map g).toList).filterMap f = (o.bind fun a => f (g a)).toList := by
  cases o with
  | none => rfl
  | some a => simp [List.filterMap_cons]; cases f (g a) <;> rfl

/-- Once the stream of the peer nursery is dropped. -/
theorem dropped_few {s0 s : Aftermath T P A D I ε} {tr : AftermathTrace T P ε I} (h : LeftInv jobsT jobsP s0)
    (hd : s0.work.peers.alive = false) (hr : AftermathRun addr s0 tr s) :
    lateContacts tr = [] ∧ s.work.peers.alive = false ∧
    s.work.peers.workers.countP Worker.idle + (lateAsked tr).length ≤ s0.work.peers.workers.countP Worker.idle := by
  induction hr with
  | init => exact ⟨rfl, hd, by simp [lateAsked]⟩
  | @step tr s s' e out hrun hs ih =>
    obtain ⟨ih1, ih2, ih3⟩ := ih
    have hinv := left_run h hrun
    obtain ⟨l1, l2, -⟩ := late_snoc tr e out
    rw [l1, l2, ih1]
    have quiet : ∀ {t t' : Aftermath T P A D I ε} {o o' : List (AftermathOutput T P)}, t.work.peers.workers = s.work.peers.workers →
        t.work.peers.alive = s.work.peers.alive → t.endJob o = some (t', o') → o.filterMap lateContactOf = [] → o.filterMap lateAskOf = [] →
        ([] ++ o'.filterMap lateContactOf = [] ∧ t'.work.peers.alive = false ∧
          t'.work.peers.workers.countP Worker.idle + (lateAsked tr ++ o'.filterMap lateAskOf).length ≤
            s0.work.peers.workers.countP Worker.idle) := by
      intro t t' o o' hw ha ho hc hk
      obtain ⟨rfl, -⟩ := endJob_some ho
      obtain ⟨k1, k2, -⟩ := job_keeps ho
      rw [k1, k2, hw, ha, hc, hk]
      exact ⟨rfl, ih2, by simpa using ih3⟩
    cases e with
    | abort =>
      simp only [Aftermath.step] at hs
      split at hs <;> cases hs
      exact ⟨rfl, ih2, by simpa using ih3⟩
    | drop =>
      simp only [Aftermath.step] at hs
      split at hs
      · rw [Option.map_eq_some_iff] at hs
        obtain ⟨⟨n, o⟩, h1, hs⟩ := hs
        have := (dropStream_some h1).1
        rw [ih2] at this; cases this
      · cases hs
    | nextPeer =>
      simp only [Aftermath.step] at hs
      split at hs
      case h_2 => cases hs
      split at hs
      · cases hs
        exact ⟨rfl, ih2, by simpa using ih3⟩
      · split at hs
        · rename_i n k j hn
          have := (spawn_some hn rfl).1
          rw [(hinv.dropped ih2).2] at this
          cases this
        · exact quiet rfl rfl hs rfl rfl
        · cases hs
    | nextBatch =>
      simp only [Aftermath.step] at hs
      split at hs
      case h_2 => cases hs
      split at hs
      · cases hs
        exact ⟨rfl, ih2, by simpa using ih3⟩
      · refine quiet ?_ ?_ hs rfl rfl <;> rfl
      · cases hs
    | noMorePeers =>
      simp only [Aftermath.step] at hs
      split at hs
      · split at hs
        · exact quiet rfl rfl hs rfl rfl
        · cases hs
      · exact quiet rfl rfl hs rfl rfl
      · cases hs
    | jobGone =>
      simp only [Aftermath.step] at hs
      split at hs
      · exact quiet rfl rfl hs rfl rfl
      · cases hs
    | tracker e =>
      simp only [Aftermath.step] at hs
      split at hs
      case h_2 => cases hs
      split at hs
      case isFalse => cases hs
      rw [Option.map_eq_some_iff] at hs
      obtain ⟨⟨n', o⟩, h1, hs⟩ := hs
      cases hs
      rw [filterMap_toList, filterMap_toList]
      refine ⟨by simp [lateContactOf], ih2, ?_⟩
      simp only [lateAskOf, Option.bind_none, Option.toList_none, List.append_nil]
      simpa using ih3
    | peer e =>
      simp only [Aftermath.step] at hs
      split at hs
      case isFalse => cases hs
      rename_i he
      rw [Option.map_eq_some_iff] at hs
      obtain ⟨⟨n', o⟩, h1, hs⟩ := hs
      cases hs
      obtain ⟨ha, hle⟩ := dropped_step he ih2 h1
      rw [filterMap_toList, filterMap_toList]
      refine ⟨by simp [lateContactOf], ha, ?_⟩
      simp only [lateAskOf, Option.bind_some, List.length_append]
      show n'.workers.countP _ + _ ≤ _
      have : ((s.work.peers.beginning e).bind fun a => some a).toList.length = (s.work.peers.beginning e).toList.length := by simp
      omega

/-- Once the feeding task is gone. -/
theorem gone_few {s0 s : Aftermath T P A D I ε} {tr : AftermathTrace T P ε I} (h : LeftInv jobsT jobsP s0)
    (hj : s0.work.job = .over) (hr : AftermathRun addr s0 tr s) :
    lateContacts tr = [] ∧ s.work.job = .over ∧
    (s0.work.trackers = none → s.work.trackers = none ∧ lateTrackers tr = []) ∧
    ∀ n0, s0.work.trackers = some n0 → ∃ n, s.work.trackers = some n ∧
      n.workers.countP Worker.idle + (lateTrackers tr).length ≤ n0.workers.countP Worker.idle := by
  induction hr with
  | init => exact ⟨rfl, hj, fun hn => ⟨hn, rfl⟩, fun n0 hn => ⟨n0, hn, by simp [lateTrackers]⟩⟩
  | @step tr s s' e out hrun hs ih =>
    obtain ⟨ih1, ih2, ih3, ih4⟩ := ih
    have hinv := left_run h hrun
    obtain ⟨l1, -, l3⟩ := late_snoc tr e out
    rw [l1, l3, ih1]
    cases e with
    | abort =>
      simp only [Aftermath.step] at hs
      split at hs <;> cases hs
      exact ⟨rfl, ih2, by simpa using ih3, by simpa using ih4⟩
    | drop =>
      simp only [Aftermath.step] at hs
      split at hs
      · rw [Option.map_eq_some_iff] at hs
        obtain ⟨⟨n, o⟩, h1, hs⟩ := hs
        cases hs
        exact ⟨rfl, ih2, by simpa using ih3, by simpa using ih4⟩
      · cases hs
    | nextPeer => simp [Aftermath.step, ih2] at hs
    | nextBatch => simp [Aftermath.step, ih2] at hs
    | noMorePeers => simp [Aftermath.step, ih2] at hs
    | jobGone => simp [Aftermath.step, ih2] at hs
    | tracker e =>
      simp only [Aftermath.step] at hs
      split at hs
      case h_2 => cases hs
      rename_i n ht
      split at hs
      case isFalse => cases hs
      rename_i he
      rw [Option.map_eq_some_iff] at hs
      obtain ⟨⟨n', o⟩, h1, hs⟩ := hs
      cases hs
      obtain ⟨-, hle⟩ := dropped_step he (hinv.dead ih2 n ht) h1
      rw [filterMap_toList, filterMap_toList]
      refine ⟨by simp [lateContactOf], ih2, ?_, ?_⟩
      · intro hn
        have := (ih3 hn).1
        rw [ht] at this
        cases this
      · intro n0 hn0
        obtain ⟨n1, hn1, hle1⟩ := ih4 n0 hn0
        rw [ht] at hn1
        cases hn1
        refine ⟨n', rfl, ?_⟩
        simp only [lateTrackerOf, List.length_append]
        have : ((n.beginning e).bind fun a => some a).toList.length = (n.beginning e).toList.length := by simp
        omega
    | peer e =>
      simp only [Aftermath.step] at hs
      split at hs
      case isFalse => cases hs
      rename_i he
      rw [Option.map_eq_some_iff] at hs
      obtain ⟨⟨n', o⟩, h1, hs⟩ := hs
      cases hs
      rw [filterMap_toList, filterMap_toList]
      refine ⟨by simp [lateContactOf], ih2, ?_, ?_⟩
      · simpa [lateTrackerOf] using ih3
      · simpa [lateTrackerOf] using ih4

/-! ### Each address once -/

/-- The addresses of those handed over are known, and different. -/
def SeenInv (addr : P → A) (before : List P) (s : Aftermath T P A D I ε) (late : List P) : Prop :=
  (∀ p ∈ before ++ late, addr p ∈ s.work.seen) ∧ ((before ++ late).map addr).Nodup

theorem seen_run {s0 s : Aftermath T P A D I ε} {tr : AftermathTrace T P ε I} {before : List P} (ht : s0.work.trackers.isSome)
    (h0 : SeenInv addr before s0 []) (hr : AftermathRun addr s0 tr s) : s.work.trackers.isSome ∧ SeenInv addr before s (lateContacts tr) := by
  induction hr with
  | init => exact ⟨ht, h0⟩
  | @step tr s s' e out hrun hs ih =>
    obtain ⟨ih0, ih⟩ := ih
    obtain ⟨l1, -, -⟩ := late_snoc tr e out
    rw [l1]
    have quiet : ∀ {t t' : Aftermath T P A D I ε} {o o' : List (AftermathOutput T P)}, t.work.seen = s.work.seen → t.work.trackers.isSome →
        t.endJob o = some (t', o') → o.filterMap lateContactOf = [] →
        t'.work.trackers.isSome ∧ SeenInv addr before t' (lateContacts tr ++ o'.filterMap lateContactOf) := by
      intro t t' o o' hw hi ho hc
      obtain ⟨rfl, n, o2, hn, hx⟩ := endJob_some ho
      rw [hc, List.append_nil]
      rcases hx with ⟨h1, rfl⟩ | ⟨_, _, _, h1, h2, rfl⟩
      · refine ⟨hi, ?_⟩
        unfold SeenInv
        rw [show ({ t with work := { t.work with peers := n, job := .over, batch := [] } } : Aftermath T P A D I ε).work.seen = s.work.seen from hw]
        exact ih
      · refine ⟨rfl, ?_⟩
        unfold SeenInv
        simp only [hw]
        exact ih
    cases e with
    | abort =>
      simp only [Aftermath.step] at hs
      split at hs <;> cases hs
      exact ⟨ih0, by simpa [SeenInv] using ih⟩
    | drop =>
      simp only [Aftermath.step] at hs
      split at hs
      · rw [Option.map_eq_some_iff] at hs
        obtain ⟨⟨n, o⟩, h1, hs⟩ := hs
        cases hs
        exact ⟨ih0, by simpa [SeenInv] using ih⟩
      · cases hs
    | nextPeer =>
      simp only [Aftermath.step] at hs
      split at hs
      case h_2 => cases hs
      rename_i p ps hj hb
      split at hs
      · cases hs
        exact ⟨ih0, by simpa [SeenInv] using ih⟩
      · rename_i hns
        split at hs
        · rename_i n k j hn
          cases hs
          refine ⟨ih0, ?_⟩
          have hns' : addr p ∉ s.work.seen := by simpa [ih0] using hns
          refine ⟨?_, ?_⟩
          · intro q hq
            simp only [lateContactOf, List.filterMap_cons, List.filterMap_nil, ← List.append_assoc, List.mem_append, List.mem_singleton] at hq
            rcases hq with hq | rfl
            · exact List.mem_cons_of_mem _ (ih.1 q (by simpa using hq))
            · exact List.mem_cons_self
          · simp only [lateContactOf, List.filterMap_cons, List.filterMap_nil, ← List.append_assoc]
            rw [List.map_append, List.nodup_append]
            refine ⟨ih.2, by simp, ?_⟩
            intro a ha b hb hab
            simp only [List.map_cons, List.map_nil, List.mem_singleton] at hb
            subst hab hb
            obtain ⟨q, hq, hqa⟩ := List.mem_map.1 ha
            exact hns' (hqa ▸ ih.1 q hq)
        · exact quiet rfl ih0 hs rfl
        · cases hs
    | nextBatch =>
      simp only [Aftermath.step] at hs
      split at hs
      case h_2 => cases hs
      split at hs
      · cases hs
        exact ⟨rfl, by simpa [SeenInv] using ih⟩
      · refine quiet ?_ ?_ hs rfl <;> rfl
      · cases hs
    | noMorePeers =>
      simp only [Aftermath.step] at hs
      split at hs
      · split at hs
        · exact quiet rfl ih0 hs rfl
        · cases hs
      · exact quiet rfl ih0 hs rfl
      · cases hs
    | jobGone =>
      simp only [Aftermath.step] at hs
      split at hs
      · exact quiet rfl ih0 hs rfl
      · cases hs
    | tracker e =>
      simp only [Aftermath.step] at hs
      split at hs
      case h_2 => cases hs
      split at hs
      case isFalse => cases hs
      rw [Option.map_eq_some_iff] at hs
      obtain ⟨⟨n', o⟩, h1, hs⟩ := hs
      cases hs
      rw [filterMap_toList]
      exact ⟨rfl, by simpa [lateContactOf, SeenInv] using ih⟩
    | peer e =>
      simp only [Aftermath.step] at hs
      split at hs
      case isFalse => cases hs
      rw [Option.map_eq_some_iff] at hs
      obtain ⟨⟨n', o⟩, h1, hs⟩ := hs
      cases hs
      rw [filterMap_toList]
      exact ⟨ih0, by simpa [lateContactOf, SeenInv] using ih⟩

end

/-! ### Nobody is asked twice -/

/-- The jobs that a nursery has been given and that are neither over nor dropped. -/
def heldBy (n : Nursery J R) : List J := busyWith n ++ notBegun n

theorem filterMap_countP_set {α β : Type} (q : β → Bool) (f : α → Option β) : ∀ (l : List α) (w : Nat) (a b : α), l[w]? = some a →
    ((l.set w b).filterMap f).countP q + (f a).toList.countP q = (l.filterMap f).countP q + (f b).toList.countP q
  | [], w, a, b, h => by simp at h
  | x :: l, 0, a, b, h => by
    simp only [List.getElem?_cons_zero, Option.some.injEq] at h
    subst h
    simp only [List.set_cons_zero, List.filterMap_cons]
    cases hx : f x <;> cases hb : f b <;> simp [List.countP_cons] <;> omega
  | x :: l, w + 1, a, b, h => by
    simp only [List.getElem?_cons_succ] at h
    have := filterMap_countP_set q f l w a b h
    simp only [List.set_cons_succ, List.filterMap_cons]
    cases hx : f x <;> simp only [List.countP_cons] <;> omega

/-- What a worker does to the jobs: `over` is the job that is over or dropped. -/
theorem held_worker (q : J → Bool) {s s' : Nursery J R} {e : NurseryEvent J R} {out : List (NurseryOutput J R)} (he : e.ofWorker = true)
    (hs : s.step e = some (s', out)) :
    (heldBy s').countP q ≤ (heldBy s).countP q ∧ (notBegun s').countP q + (s.beginning e).toList.countP q ≤ (notBegun s).countP q := by
  have hb := fun (w : Nat) (a b : Worker J) (h : s.workers[w]? = some a) => filterMap_countP_set q jobAtWork s.workers w a b h
  have hr := fun (w : Nat) (a b : Worker J) (h : s.workers[w]? = some a) => filterMap_countP_set q jobInHand s.workers w a b h
  cases e with
  | take w =>
    simp only [Nursery.step] at hs
    split at hs
    case h_2 => cases hs
    rename_i n j qq hw hq
    cases hs
    have h1 := hb w _ (.received n j) hw
    have h2 := hr w _ (.received n j) hw
    simp only [jobAtWork, jobInHand, Option.toList_none, Option.toList_some, List.countP_nil, List.countP_singleton] at h1 h2
    simp only [heldBy, busyWith, notBegun, Nursery.beginning, hq, List.map_cons, List.countP_append, List.countP_cons, Option.toList_none, List.countP_nil]
    constructor <;> omega
  | check w =>
    simp only [Nursery.step] at hs
    split at hs
    case h_2 => cases hs
    rename_i n j hw
    by_cases hd : s.done
    · rw [if_pos hd] at hs
      cases hs
      have h1 := hb w _ .stopped hw
      have h2 := hr w _ .stopped hw
      simp only [jobAtWork, jobInHand, Option.toList_none, Option.toList_some, List.countP_nil, List.countP_singleton] at h1 h2
      simp only [heldBy, busyWith, notBegun, Nursery.beginning, hw, hd, if_true, List.countP_append, Option.toList_none, List.countP_nil]
      constructor <;> omega
    · rw [if_neg hd] at hs
      cases hs
      have h1 := hb w _ (.running n j) hw
      have h2 := hr w _ (.running n j) hw
      simp only [jobAtWork, jobInHand, Option.toList_none, Option.toList_some, List.countP_nil, List.countP_singleton] at h1 h2
      simp only [heldBy, busyWith, notBegun, Nursery.beginning, hw, hd, Bool.false_eq_true, if_false, List.countP_append, Option.toList_some,
        List.countP_singleton]
      constructor <;> omega
  | finish w o =>
    simp only [Nursery.step] at hs
    split at hs
    case h_2 => cases hs
    rename_i n j hw
    split at hs
    · cases hs
      have h1 := hb w _ .waiting hw
      have h2 := hr w _ .waiting hw
      simp only [jobAtWork, jobInHand, Option.toList_none, Option.toList_some, List.countP_nil, List.countP_singleton] at h1 h2
      simp only [heldBy, busyWith, notBegun, Nursery.beginning, List.countP_append, Option.toList_none, List.countP_nil]
      constructor <;> omega
    · cases hs
      have h1 := hb w _ .stopped hw
      have h2 := hr w _ .stopped hw
      simp only [jobAtWork, jobInHand, Option.toList_none, Option.toList_some, List.countP_nil, List.countP_singleton] at h1 h2
      simp only [heldBy, busyWith, notBegun, Nursery.beginning, List.countP_append, Option.toList_none, List.countP_nil]
      constructor <;> omega
  | exit w =>
    simp only [Nursery.step] at hs
    split at hs
    case h_2 => cases hs
    rename_i hw hq
    split at hs
    case isFalse => cases hs
    cases hs
    have h1 := hb w _ .stopped hw
    have h2 := hr w _ .stopped hw
    simp only [jobAtWork, jobInHand, Option.toList_none, List.countP_nil] at h1 h2
    simp only [heldBy, busyWith, notBegun, Nursery.beginning, List.countP_append, Option.toList_none, List.countP_nil]
    constructor <;> omega
  | abort w =>
    simp only [Nursery.step] at hs
    split at hs
    · cases hs
    split at hs
    case h_4 => cases hs
    all_goals
      rename_i hw
      cases hs
      have h1 := hb w _ .stopped hw
      have h2 := hr w _ .stopped hw
      simp only [jobAtWork, jobInHand, Option.toList_none, Option.toList_some, List.countP_nil, List.countP_singleton] at h1 h2
      simp only [heldBy, busyWith, notBegun, Nursery.beginning, List.countP_append, Option.toList_none, List.countP_nil]
      constructor <;> omega
  | _ => cases he

/-- A job that ends was held. -/
theorem held_finish (q : J → Bool) {s s' : Nursery J R} {w n : Nat} {j : J} {o : Outcome R} {out : List (NurseryOutput J R)}
    (hw : s.workers[w]? = some (.running n j)) (hs : s.step (.finish w o) = some (s', out)) :
    (heldBy s').countP q + (if q j then 1 else 0) ≤ (heldBy s).countP q := by
  have hb := fun (b : Worker J) => filterMap_countP_set q jobAtWork s.workers w _ b hw
  have hr := fun (b : Worker J) => filterMap_countP_set q jobInHand s.workers w _ b hw
  simp only [Nursery.step, hw] at hs
  split at hs
  · cases hs
    have h1 := hb .waiting
    have h2 := hr .waiting
    simp only [jobAtWork, jobInHand, Option.toList_none, Option.toList_some, List.countP_nil, List.countP_singleton] at h1 h2
    simp only [heldBy, busyWith, notBegun, List.countP_append]
    omega
  · cases hs
    have h1 := hb .stopped
    have h2 := hr .stopped
    simp only [jobAtWork, jobInHand, Option.toList_none, Option.toList_some, List.countP_nil, List.countP_singleton] at h1 h2
    simp only [heldBy, busyWith, notBegun, List.countP_append]
    omega

/-- Every peer whose task has ended or that is with the nursery was handed over, and as often. -/
theorem resolve_held {addr : P → A} {all : List T} {dht : Except ε (List P × List D)} {jobsT jobsP : Nat} (q : P → Bool)
    {tr : ResolveTrace T P D I ε} {s : Resolve T P A D I ε} (h : ResolveRun addr all dht jobsT jobsP tr s) :
    ((peerDones tr).map Prod.fst).countP q + (heldBy s.peers).countP q ≤ (contacts tr).countP q := by
  induction h with
  | init =>
    have : (heldBy (Resolve.start (A := A) (I := I) all dht jobsT jobsP).peers) = [] := by
      have hn : heldBy (Nursery.new jobsP : Nursery P (P × Except ε I)) = [] := by
        simp [heldBy, busyWith, notBegun, jobAtWork, jobInHand, Nursery.new, List.filterMap_replicate]
      cases all <;> cases dht <;> exact hn
    rw [this]
    simp [peerDones, resolveObserved]
  | @step tr s s' e out hrun hs ih =>
    have e1 : peerDones (tr ++ [(e, out)]) = peerDones tr ++ out.filterMap peerDoneOf := by simp [peerDones, resolveObserved]
    have e2 : contacts (tr ++ [(e, out)]) = contacts tr ++ out.filterMap contactOf := by simp [contacts, resolveObserved]
    rw [e1, e2, List.map_append, List.countP_append, List.countP_append]
    have hn : s.result = none := by
      cases hres : s.result with
      | none => rfl
      | some x => simp [Resolve.step, hres] at hs
    have dropH : ∀ {n n' : Nursery P (P × Except ε I)} {o}, n.step .dropHandle = some (n', o) → heldBy n' = heldBy n := by
      intro n n' o h
      obtain ⟨-, rfl⟩ := dropHandle_some h
      rfl
    have endJ : ∀ {t t' : Resolve T P A D I ε} {o o' : List (ResolveOutput T P D I ε)}, t.peers = s.peers → t.endJob o = some (t', o') →
        o.filterMap peerDoneOf = [] → o.filterMap contactOf = [] →
        ((peerDones tr).map Prod.fst).countP q + ((o'.filterMap peerDoneOf).map Prod.fst).countP q + (heldBy t'.peers).countP q ≤
          (contacts tr).countP q + (o'.filterMap contactOf).countP q := by
      intro t t' o o' hp ho h1 h2
      unfold Resolve.endJob at ho
      rw [Option.map_eq_some_iff] at ho
      obtain ⟨⟨n, x⟩, hd, ho⟩ := ho
      cases ho
      rw [h1, h2]
      show _ + (heldBy n).countP q ≤ _
      rw [dropH hd, hp]
      simpa using ih
    have same : ∀ {t : Resolve T P A D I ε} {o' : List (ResolveOutput T P D I ε)}, heldBy t.peers = heldBy s.peers →
        o'.filterMap peerDoneOf = [] → o'.filterMap contactOf = [] →
        ((peerDones tr).map Prod.fst).countP q + ((o'.filterMap peerDoneOf).map Prod.fst).countP q + (heldBy t.peers).countP q ≤
          (contacts tr).countP q + (o'.filterMap contactOf).countP q := by
      intro t o' hp h1 h2
      rw [h1, h2, hp]
      simpa using ih
    have worker : ∀ {ev : NurseryEvent P (P × Except ε I)}, ev.ofWorker = true → s.peerStep ev [] = some (s', out) →
        ((peerDones tr).map Prod.fst).countP q + ((out.filterMap peerDoneOf).map Prod.fst).countP q + (heldBy s'.peers).countP q ≤
          (contacts tr).countP q + (out.filterMap contactOf).countP q := by
      intro ev he h
      unfold Resolve.peerStep at h
      rw [Option.map_eq_some_iff] at h
      obtain ⟨⟨n, x⟩, hd, h⟩ := h
      cases h
      have := (held_worker q he hd).1
      simp only [List.filterMap_nil, List.map_nil, List.countP_nil]
      show _ + (heldBy n).countP q ≤ _
      omega
    have tracker : ∀ {ev : NurseryEvent T (List P)} {o : List (ResolveOutput T P D I ε)}, s.trackerStep ev o = some (s', out) →
        o.filterMap peerDoneOf = [] → o.filterMap contactOf = [] →
        ((peerDones tr).map Prod.fst).countP q + ((out.filterMap peerDoneOf).map Prod.fst).countP q + (heldBy s'.peers).countP q ≤
          (contacts tr).countP q + (out.filterMap contactOf).countP q := by
      intro ev o h h1 h2
      unfold Resolve.trackerStep at h
      split at h
      · rw [Option.map_eq_some_iff] at h
        obtain ⟨⟨n, x⟩, hd, h⟩ := h
        cases h
        exact same rfl h1 h2
      · cases h
    cases e <;> simp only [Resolve.step, hn, Option.isSome_none, Bool.false_eq_true, if_false] at hs
    case spawnTracker =>
      repeat' split at hs
      all_goals first
        | (cases hs; done)
        | (cases hs; exact same rfl rfl rfl)
    case startJob =>
      repeat' split at hs
      all_goals first
        | (cases hs; done)
        | (cases hs; exact same rfl rfl rfl)
        | (rw [Option.map_eq_some_iff] at hs; obtain ⟨r, -, hs⟩ := hs; cases hs; exact same rfl rfl rfl)
    case trackerTake w => exact tracker hs rfl rfl
    case trackerCheck w => exact tracker hs rfl rfl
    case trackerExit w => exact tracker hs rfl rfl
    case trackerEnds w r =>
      split at hs
      · refine tracker hs ?_ ?_ <;> (split <;> rfl)
      · cases hs
    case nextPeer =>
      split at hs
      case h_2 => cases hs
      rename_i p ps hj hb
      split at hs
      · cases hs; exact same rfl rfl rfl
      · split at hs
        · rename_i n k j hsp
          cases hs
          obtain ⟨-, rfl⟩ := spawn_some hsp rfl
          simp only [peerDoneOf, contactOf, List.filterMap_cons, List.filterMap_nil, List.map_nil, List.countP_nil, heldBy, busyWith, notBegun,
            List.map_append, List.countP_append, List.map_cons] at ih ⊢
          omega
        · exact endJ rfl hs rfl rfl
        · cases hs
    case nextBatch =>
      split at hs
      case h_2 => cases hs
      split at hs
      · cases hs; exact same rfl rfl rfl
      · refine endJ ?_ hs rfl rfl; rfl
      · cases hs
    case noMorePeers =>
      split at hs
      · split at hs
        · exact endJ rfl hs rfl rfl
        · cases hs
      · exact endJ rfl hs rfl rfl
      · cases hs
    case peerTake w => exact worker rfl hs
    case peerCheck w => exact worker rfl hs
    case peerExit w => exact worker rfl hs
    case peerEnds w r =>
      split at hs
      case h_2 => cases hs
      rename_i k p hw
      unfold Resolve.peerStep at hs
      rw [Option.map_eq_some_iff] at hs
      obtain ⟨⟨n, x⟩, hd, hs⟩ := hs
      cases hs
      have := held_finish q hw hd
      simp only [peerDoneOf, contactOf, List.filterMap_cons, List.filterMap_nil, List.map_cons, List.map_nil, List.countP_nil,
        List.countP_singleton]
      show _ + (heldBy n).countP q ≤ _
      omega
    case receive =>
      have recvH : ∀ {n : Nursery P (P × Except ε I)} {o}, s.peers.step .recv = some (n, o) → heldBy n = heldBy s.peers := by
        intro n o h
        simp only [Nursery.step] at h
        repeat' split at h
        all_goals first | (cases h; done) | (cases h; rfl)
      split at hs
      · cases hs
      split at hs
      all_goals first
        | (cases hs; done)
        | (rename_i hd; cases hs; exact same (recvH hd) rfl rfl)
    case receiveNone =>
      split at hs
      · cases hs
      split at hs
      · rename_i hd
        cases hs
        exact same (by rw [weight_recvNone hd]) rfl rfl
      · cases hs

/-- The same afterwards. -/
theorem late_held {addr : P → A} (q : P → Bool) {s0 s : Aftermath T P A D I ε} {tr : AftermathTrace T P ε I} (hr : AftermathRun addr s0 tr s) :
    (lateAsked tr).countP q + (notBegun s.work.peers).countP q ≤ (notBegun s0.work.peers).countP q + (lateContacts tr).countP q := by
  induction hr with
  | init => simp [lateAsked, lateContacts]
  | @step tr s s' e out hrun hs ih =>
    obtain ⟨l1, l2, -⟩ := late_snoc tr e out
    rw [l1, l2, List.countP_append, List.countP_append]
    have same : ∀ {t : Aftermath T P A D I ε} {o' : List (AftermathOutput T P)}, notBegun t.work.peers = notBegun s.work.peers →
        o'.filterMap lateAskOf = [] → o'.filterMap lateContactOf = [] →
        (lateAsked tr).countP q + (o'.filterMap lateAskOf).countP q + (notBegun t.work.peers).countP q ≤
          (notBegun s0.work.peers).countP q + ((lateContacts tr).countP q + (o'.filterMap lateContactOf).countP q) := by
      intro t o' hp h1 h2
      rw [h1, h2, hp]
      simpa using ih
    have endJ : ∀ {t t' : Aftermath T P A D I ε} {o o' : List (AftermathOutput T P)}, t.work.peers = s.work.peers → t.endJob o = some (t', o') →
        o.filterMap lateAskOf = [] → o.filterMap lateContactOf = [] →
        (lateAsked tr).countP q + (o'.filterMap lateAskOf).countP q + (notBegun t'.work.peers).countP q ≤
          (notBegun s0.work.peers).countP q + ((lateContacts tr).countP q + (o'.filterMap lateContactOf).countP q) := by
      intro t t' o o' hp ho h1 h2
      obtain ⟨rfl, -⟩ := endJob_some ho
      obtain ⟨k1, -, -, k4⟩ := job_keeps ho
      refine same ?_ h1 h2
      simp only [notBegun, k1, k4, hp]
    cases e with
    | abort =>
      simp only [Aftermath.step] at hs
      split at hs <;> cases hs
      exact same rfl rfl rfl
    | drop =>
      simp only [Aftermath.step] at hs
      split at hs
      · rw [Option.map_eq_some_iff] at hs
        obtain ⟨⟨n, o⟩, h1, hs⟩ := hs
        cases hs
        obtain ⟨-, rfl⟩ := dropStream_some h1
        exact same rfl rfl rfl
      · cases hs
    | nextPeer =>
      simp only [Aftermath.step] at hs
      split at hs
      case h_2 => cases hs
      split at hs
      · cases hs; exact same rfl rfl rfl
      · split at hs
        · rename_i n k j hsp
          cases hs
          obtain ⟨-, rfl⟩ := spawn_some hsp rfl
          simp only [lateAskOf, lateContactOf, List.filterMap_cons, List.filterMap_nil, List.countP_nil, notBegun,
            List.map_append, List.countP_append, List.map_cons, List.map_nil] at ih ⊢
          omega
        · exact endJ rfl hs rfl rfl
        · cases hs
    | nextBatch =>
      simp only [Aftermath.step] at hs
      split at hs
      case h_2 => cases hs
      split at hs
      · cases hs; exact same rfl rfl rfl
      · refine endJ ?_ hs rfl rfl; rfl
      · cases hs
    | noMorePeers =>
      simp only [Aftermath.step] at hs
      split at hs
      · split at hs
        · exact endJ rfl hs rfl rfl
        · cases hs
      · exact endJ rfl hs rfl rfl
      · cases hs
    | jobGone =>
      simp only [Aftermath.step] at hs
      split at hs
      · exact endJ rfl hs rfl rfl
      · cases hs
    | tracker e =>
      simp only [Aftermath.step] at hs
      split at hs
      case h_2 => cases hs
      split at hs
      case isFalse => cases hs
      rw [Option.map_eq_some_iff] at hs
      obtain ⟨⟨n', o⟩, h1, hs⟩ := hs
      cases hs
      refine same rfl ?_ ?_ <;> (rw [filterMap_toList]; simp [lateAskOf, lateContactOf])
    | peer e =>
      simp only [Aftermath.step] at hs
      split at hs
      case isFalse => cases hs
      rename_i he
      rw [Option.map_eq_some_iff] at hs
      obtain ⟨⟨n', o⟩, h1, hs⟩ := hs
      cases hs
      have := (held_worker q he h1).2
      rw [filterMap_toList, filterMap_toList]
      have e1 : ((s.work.peers.beginning e).bind fun a => lateAskOf (T := T) (.asksPeer a)) = s.work.peers.beginning e := by
        cases s.work.peers.beginning e <;> rfl
      have e2 : ((s.work.peers.beginning e).bind fun a => lateContactOf (T := T) (.asksPeer a)) = none := by
        cases s.work.peers.beginning e <;> rfl
      rw [e1, e2]
      show _ + (notBegun n').countP q ≤ _
      simp only [Option.toList_none, List.countP_nil]
      omega

/-! ### Ending -/

theorem worker_lighter {s s' : Nursery J R} {e : NurseryEvent J R} {out : List (NurseryOutput J R)} (he : e.ofWorker = true)
    (hs : s.step e = some (s', out)) : weight s' < weight s := by
  cases e with
  | take w => exact nursery_terminates _ _ _ _ (by trivial) hs
  | check w => exact nursery_terminates _ _ _ _ (by trivial) hs
  | finish w o => exact nursery_terminates _ _ _ _ (by trivial) hs
  | exit w => exact nursery_terminates _ _ _ _ (by trivial) hs
  | abort w =>
    simp only [Nursery.step] at hs
    split at hs
    · cases hs
    · split at hs
      case h_4 => cases hs
      all_goals
        rename_i hw
        cases hs
        have := sum_set (.stopped) hw
        simp only [workerWeight] at this
        simp only [weight]
        omega
  | _ => cases he

/-- What is left to do. -/
def leftWeight (s : Aftermath T P A D I ε) : Nat × Nat :=
  ((if s.aborted then 0 else 1) + nurseryWeight s.work.trackers + jobWeight s.work.job,
    5 * s.work.batch.length + weight s.work.peers + if s.work.peers.alive then 1 else 0)

theorem aftermath_lighter (addr : P → A) {s s' : Aftermath T P A D I ε} {e : AftermathEvent T P ε I} {out : List (AftermathOutput T P)}
    (hs : s.step addr e = some (s', out)) : Prod.Lex (· < ·) (· < ·) (leftWeight s') (leftWeight s) := by
  have left : ∀ {x y : Nat × Nat}, x.1 < y.1 → Prod.Lex (· < ·) (· < ·) x y := fun {x y} h => by
    obtain ⟨a, b⟩ := x; obtain ⟨c, d⟩ := y; exact Prod.Lex.left _ _ h
  have right : ∀ {x y : Nat × Nat}, x.1 = y.1 → x.2 < y.2 → Prod.Lex (· < ·) (· < ·) x y := fun {x y} h h' => by
    obtain ⟨a, b⟩ := x; obtain ⟨c, d⟩ := y; cases h; exact Prod.Lex.right _ h'
  have endQ : ∀ {t : Aftermath T P A D I ε} {o : List (AftermathOutput T P)}, t.endJob o = some (s', out) → t.aborted = s.aborted →
      nurseryWeight t.work.trackers ≤ nurseryWeight s.work.trackers → s.work.job = .running →
      Prod.Lex (· < ·) (· < ·) (leftWeight s') (leftWeight s) := by
    intro t o h ha hle hj
    apply left
    obtain ⟨-, n, o', hn, hc⟩ := endJob_some h
    rcases hc with ⟨ht, rfl⟩ | ⟨u, u', o'', ht, htd, rfl⟩
    · simp only [leftWeight, ha, jobWeight, hj]
      omega
    · obtain ⟨-, rfl⟩ := dropStream_some htd
      rw [ht] at hle
      simp only [leftWeight, ha, jobWeight, hj, nurseryWeight, weight] at hle ⊢
      omega
  cases e with
  | abort =>
    simp only [Aftermath.step] at hs
    split at hs
    · cases hs
    · rename_i hab
      cases hs
      apply left
      simp only [leftWeight, if_true, if_neg hab]
      omega
  | drop =>
    simp only [Aftermath.step] at hs
    split at hs
    · rw [Option.map_eq_some_iff] at hs
      obtain ⟨⟨n, o⟩, h1, hs⟩ := hs
      cases hs
      obtain ⟨ha, rfl⟩ := dropStream_some h1
      refine right rfl ?_
      simp [leftWeight, ha, weight]
    · cases hs
  | nextPeer =>
    simp only [Aftermath.step] at hs
    split at hs
    case h_2 => cases hs
    rename_i p ps hj hb
    split at hs
    · cases hs
      refine right rfl ?_
      simp only [leftWeight, hb, List.length_cons]
      omega
    · split at hs
      · rename_i n k j hsp
        cases hs
        obtain ⟨-, rfl⟩ := spawn_some hsp rfl
        refine right rfl ?_
        simp only [leftWeight, hb, List.length_cons, weight, List.length_append, List.length_nil]
        omega
      · exact endQ hs rfl (Nat.le_refl _) hj
      · cases hs
  | nextBatch =>
    simp only [Aftermath.step] at hs
    split at hs
    case h_2 => cases hs
    rename_i n hj hb ht
    split at hs
    · rename_i n' k ps hrec
      cases hs
      have := nursery_terminates _ _ _ _ (by trivial) hrec
      apply left
      simp only [leftWeight, ht, nurseryWeight]
      omega
    · rename_i n' k hrec
      have := nursery_terminates _ _ _ _ (by trivial) hrec
      refine endQ hs rfl ?_ hj
      rw [ht]
      exact Nat.le_of_lt this
    · cases hs
  | noMorePeers =>
    simp only [Aftermath.step] at hs
    split at hs
    · rename_i hj _ _
      split at hs
      · exact endQ hs rfl (Nat.le_refl _) hj
      · cases hs
    · rename_i hj _ _
      exact endQ hs rfl (Nat.le_refl _) hj
    · cases hs
  | jobGone =>
    simp only [Aftermath.step] at hs
    split at hs
    · rename_i hj
      exact endQ hs rfl (Nat.le_refl _) hj.2
    · cases hs
  | tracker e =>
    simp only [Aftermath.step] at hs
    split at hs
    case h_2 => cases hs
    rename_i n hn
    split at hs
    case isFalse => cases hs
    rename_i he
    rw [Option.map_eq_some_iff] at hs
    obtain ⟨⟨n', o⟩, h1, hs⟩ := hs
    cases hs
    have := worker_lighter he h1
    apply left
    simp only [leftWeight, hn, nurseryWeight]
    omega
  | peer e =>
    simp only [Aftermath.step] at hs
    split at hs
    case isFalse => cases hs
    rename_i he
    rw [Option.map_eq_some_iff] at hs
    obtain ⟨⟨n', o⟩, h1, hs⟩ := hs
    cases hs
    have := worker_lighter he h1
    refine right rfl ?_
    have hal := (worker_step_closed he h1).2.1
    simp only [leftWeight, hal]
    omega

/-- The number of workers that have not ended. -/
def unstopped (n : Nursery J R) : Nat := n.workers.countP fun w => match w with | .stopped => false | _ => true

theorem unstopped_le (n : Nursery J R) : unstopped n ≤ n.workers.length := List.countP_le_length

theorem unstopped_zero {n : Nursery J R} (h : unstopped n = 0) : AllStopped n := by
  intro w hw
  have := (List.countP_eq_zero.mp h) w hw
  cases w <;> simp at this <;> rfl

/-- A worker of a nursery whose stream was dropped can be ended. -/
theorem abort_one {n : Nursery J R} (ha : n.alive = false) (h : unstopped n ≠ 0) :
    ∃ w n' o, n.step (.abort w) = some (n', o) ∧ n'.alive = false ∧ unstopped n' + 1 = unstopped n := by
  have hex : ∃ x ∈ n.workers, (match x with | Worker.stopped => false | _ => true) = true := by
    have : 0 < n.workers.countP fun w => match w with | .stopped => false | _ => true := Nat.pos_of_ne_zero h
    exact List.countP_pos_iff.mp this
  obtain ⟨x, hx, hxs⟩ := hex
  obtain ⟨w, hw⟩ := List.getElem?_of_mem hx
  have hcount := countP_set (fun w : Worker J => match w with | .stopped => false | _ => true) n.workers w x .stopped hw
  rw [if_pos hxs] at hcount
  simp only [Bool.false_eq_true, if_false, Nat.add_zero] at hcount
  have hal : ¬ n.alive = true := by rw [ha]; simp
  cases x with
  | stopped => cases hxs
  | waiting => exact ⟨w, { n with workers := n.workers.set w .stopped }, [], by simp [Nursery.step, ha, hw], ha, hcount⟩
  | received k j => exact ⟨w, { n with workers := n.workers.set w .stopped }, [.discarded k], by simp [Nursery.step, ha, hw], ha, hcount⟩
  | running k j => exact ⟨w, { n with workers := n.workers.set w .stopped }, [.aborted k], by simp [Nursery.step, ha, hw], ha, hcount⟩

/-- An own step is possible, and does what the next one needs. -/
theorem own_step {jobsT jobsP : Nat} (addr : P → A) {s : Aftermath T P A D I ε} (h : LeftInv jobsT jobsP s) :
    (s.aborted = false ∧ ∃ s' out, s.step addr .abort = some (s', out) ∧ s'.aborted = true ∧ s'.work = s.work) ∨
    (s.aborted = true ∧ s.work.peers.alive = true ∧ ∃ s' out, s.step addr .drop = some (s', out) ∧ s'.aborted = true ∧
      s'.work.peers.alive = false ∧ unstopped s'.work.peers = unstopped s.work.peers ∧ s'.work.job = s.work.job ∧ s'.work.trackers = s.work.trackers) ∨
    (s.aborted = true ∧ s.work.peers.alive = false ∧ s.work.job = .running ∧ ∃ s' out, s.step addr .jobGone = some (s', out) ∧
      s'.aborted = true ∧ s'.work.peers.alive = false ∧ unstopped s'.work.peers = unstopped s.work.peers ∧ s'.work.job = .over ∧
      s'.work.trackers.map unstopped = s.work.trackers.map unstopped) ∨
    (s.aborted = true ∧ s.work.peers.alive = false ∧ s.work.job = .over) := by
  cases hab : s.aborted with
  | false => exact .inl ⟨rfl, { s with aborted := true }, [], by simp [Aftermath.step, hab], rfl, rfl⟩
  | true =>
    right
    cases hal : s.work.peers.alive with
    | true =>
      refine .inl ⟨rfl, rfl, { s with work := { s.work with peers := { s.work.peers with alive := false, closed := true } } }, [], ?_, hab, rfl,
        rfl, rfl, rfl⟩
      simp [Aftermath.step, hab, Nursery.step, hal]
    | false =>
      right
      cases hj : s.work.job with
      | notStarted => exact absurd hj h.started
      | over => exact .inr ⟨rfl, rfl, rfl⟩
      | running =>
        left
        refine ⟨rfl, rfl, rfl, ?_⟩
        have hne := h.handles hj
        have hd : s.work.peers.step .dropHandle =
            some ({ s.work.peers with handles := s.work.peers.handles - 1, closed := s.work.peers.closed || s.work.peers.handles == 1 }, []) := by
          simp [Nursery.step, hne]
        cases ht : s.work.trackers with
        | none =>
          have hst : s.step addr .jobGone = s.endJob [] := by simp [Aftermath.step, hab, hj]
          rw [hst]
          unfold Aftermath.endJob
          rw [hd, ht]
          exact ⟨_, _, rfl, hab, hal, rfl, rfl, by simp [ht]⟩
        | some n =>
          have hst : s.step addr .jobGone = s.endJob [] := by simp [Aftermath.step, hab, hj]
          have hs : n.step .dropStream = some ({ n with alive := false, closed := true }, []) := by
            simp [Nursery.step, h.live hj n ht]
          rw [hst]
          unfold Aftermath.endJob
          rw [hd, ht]
          simp only [hs, Option.map_some]
          exact ⟨_, _, rfl, hab, hal, rfl, rfl, rfl⟩

/-- The number of own steps that are left. -/
def ownLeft (s : Aftermath T P A D I ε) : Nat :=
  (if s.aborted then 0 else 1) + (if s.work.peers.alive then 1 else 0) + (if s.work.job = .over then 0 else 1) +
    unstopped s.work.peers + (s.work.trackers.map unstopped).getD 0

theorem own_progress {jobsT jobsP : Nat} (addr : P → A) {s : Aftermath T P A D I ε} (h : LeftInv jobsT jobsP s) :
    (ownLeft s = 0 ∧ s.aborted = true ∧ s.work.peers.alive = false ∧ LetGo s.work) ∨
    ∃ e s' out, OwnStep e ∧ s.step addr e = some (s', out) ∧ ownLeft s' + 1 = ownLeft s := by
  rcases own_step addr h with ⟨ha, s', out, hs, h1, h2⟩ | ⟨ha, hal, s', out, hs, h1, h2, h3, h4, h5⟩ |
    ⟨ha, hal, hj, s', out, hs, h1, h2, h3, h4, h5⟩ | ⟨ha, hal, hj⟩
  · refine .inr ⟨.abort, s', out, trivial, hs, ?_⟩
    simp only [ownLeft, h1, h2, ha, if_true, Bool.false_eq_true, if_false]
    omega
  · refine .inr ⟨.drop, s', out, trivial, hs, ?_⟩
    simp only [ownLeft, h1, h2, h3, h4, h5, ha, hal, if_true, Bool.false_eq_true, if_false]
    omega
  · refine .inr ⟨.jobGone, s', out, trivial, hs, ?_⟩
    simp only [ownLeft, h1, h2, h3, h4, h5, ha, hal, hj, if_true, Bool.false_eq_true, if_false, reduceCtorEq]
    omega
  · by_cases hp : unstopped s.work.peers = 0
    · cases ht : s.work.trackers with
      | none =>
        exact .inl ⟨by simp [ownLeft, ha, hal, hj, hp, ht], ha, hal, hj, unstopped_zero hp, fun n hn => by rw [ht] at hn; cases hn⟩
      | some n =>
        by_cases hn : unstopped n = 0
        · refine .inl ⟨by simp [ownLeft, ha, hal, hj, hp, ht, hn], ha, hal, hj, unstopped_zero hp, fun m hm => ?_⟩
          rw [ht] at hm
          cases hm
          exact unstopped_zero hn
        · obtain ⟨w, n', o, hs, h1, h2⟩ := abort_one (h.dead hj n ht) hn
          refine .inr ⟨.tracker (.abort w), { s with work := { s.work with trackers := some n' } }, [], trivial, ?_, ?_⟩
          · simp only [Aftermath.step, ht, NurseryEvent.ofWorker, if_true, hs, Option.map_some, Nursery.beginning, Option.map_none, Option.toList_none]
          · simp only [ownLeft, ht, Option.map_some, Option.getD_some]
            omega
    · obtain ⟨w, n', o, hs, h1, h2⟩ := abort_one hal hp
      refine .inr ⟨.peer (.abort w), { s with work := { s.work with peers := n' } }, [], trivial, ?_, ?_⟩
      · simp only [Aftermath.step, NurseryEvent.ofWorker, if_true, hs, Option.map_some, Nursery.beginning, Option.map_none, Option.toList_none]
      · simp only [ownLeft, h1, hal]
        omega

theorem run_cons {addr : P → A} {s0 s1 s2 : Aftermath T P A D I ε} {tr : AftermathTrace T P ε I} {e : AftermathEvent T P ε I}
    {out : List (AftermathOutput T P)} (hs : s0.step addr e = some (s1, out)) (h : AftermathRun addr s1 tr s2) :
    AftermathRun addr s0 ((e, out) :: tr) s2 := by
  have := run_append (.step .init hs) h
  simpa using this

theorem own_run {jobsT jobsP : Nat} (addr : P → A) : ∀ (k : Nat) {s : Aftermath T P A D I ε}, LeftInv jobsT jobsP s → ownLeft s = k →
    ∃ (tr : AftermathTrace T P ε I) (s' : Aftermath T P A D I ε), AftermathRun addr s tr s' ∧ tr.length = k ∧ (∀ x ∈ tr, OwnStep x.1) ∧
      LetGo s'.work ∧ s'.aborted = true ∧ s'.work.peers.alive = false := by
  intro k
  induction k with
  | zero =>
    intro s h hk
    rcases own_progress addr h with ⟨-, h1, h2, h3⟩ | ⟨e, s', out, -, -, h3⟩
    · exact ⟨[], s, .init, rfl, by simp, h3, h1, h2⟩
    · omega
  | succ k ih =>
    intro s h hk
    rcases own_progress addr h with ⟨h0, -⟩ | ⟨e, s', out, ho, hs, h3⟩
    · omega
    · obtain ⟨tr, s2, h1, h2, h4, h5, h6, h7⟩ := ih (left_step h hs) (by omega)
      exact ⟨(e, out) :: tr, s2, run_cons hs h1, by simp [h2], by
        intro x hx
        rcases List.mem_cons.mp hx with rfl | hx
        · exact ho
        · exact h4 x hx, h5, h6, h7⟩

/-- Running given events. -/
def aftermathExec (addr : P → A) : List (AftermathEvent T P ε I) → Aftermath T P A D I ε → Option (AftermathTrace T P ε I × Aftermath T P A D I ε)
  | [], s => some ([], s)
  | e :: es, s =>
    match s.step addr e with
    | some (s', out) => (aftermathExec addr es s').map fun r => ((e, out) :: r.1, r.2)
    | none => none

theorem aftermathExec_run {addr : P → A} : ∀ (es : List (AftermathEvent T P ε I)) {s s' : Aftermath T P A D I ε} {tr : AftermathTrace T P ε I},
    aftermathExec addr es s = some (tr, s') → AftermathRun addr s tr s'
  | [], s, s', tr, h => by simp only [aftermathExec, Option.some.injEq, Prod.mk.injEq] at h; obtain ⟨rfl, rfl⟩ := h; exact .init
  | e :: es, s, s', tr, h => by
    simp only [aftermathExec] at h
    split at h
    · rename_i s1 out hs
      rw [Option.map_eq_some_iff] at h
      obtain ⟨⟨tr1, s2⟩, h1, h2⟩ := h
      simp only [Prod.mk.injEq] at h2
      obtain ⟨rfl, rfl⟩ := h2
      exact run_cons hs (aftermathExec_run es h1)
    · cases h

end Demag

namespace Demag.Props

open Spec

variable {T P A D I ε : Type} [DecidableEq A]

section
variable {addr : P → A} {all : List T} {dht : Except ε (List P × List D)} {jobsT jobsP : Nat} {tr : ResolveTrace T P D I ε}
  {s : Resolve T P A D I ε} {i : I} {ts : List T} {ns : List D}

/-- **C103.** Once the download has given back its metadata (and so dropped the nursery of peers), no peer is handed to it any more, and the
peers that are being asked then and those that begin to be asked later are together no more than there are workers. -/
theorem aftermath_peers (hT : 0 < jobsT) (hP : 0 < jobsP) (h : ResolveRun addr all dht jobsT jobsP tr s) (hr : s.result = some (.file i ts ns))
    {tr1 tr2 : AftermathTrace T P ε I} {s1 s2 s3 : Aftermath T P A D I ε} {out : List (AftermathOutput T P)}
    (h1 : AftermathRun addr (Aftermath.start s) tr1 s1) (hd : s1.step addr .drop = some (s2, out)) (h2 : AftermathRun addr s2 tr2 s3) :
    lateContacts tr2 = [] ∧ (busyWith s2.work.peers).length + (lateAsked tr2).length ≤ jobsP := by
  have hl := left_step (left_run (left_start hT hP h hr).1 h1) hd
  have hal : s2.work.peers.alive = false := by
    simp only [Aftermath.step] at hd
    split at hd
    · rw [Option.map_eq_some_iff] at hd
      obtain ⟨⟨n, o⟩, hn, hd⟩ := hd
      cases hd
      obtain ⟨-, rfl⟩ := dropStream_some hn
      rfl
    · cases hd
  obtain ⟨c1, -, c3⟩ := dropped_few hl hal h2
  refine ⟨c1, ?_⟩
  have := busy_idle s2.work.peers
  have := hl.peersN
  omega

/-- **C103.** Once the task that feeds peers to the nursery is gone, which is sure to happen (`aftermath_ends`), no peer is handed over any more,
and the trackers that are being asked then and those that begin to be asked later are together no more than there are workers. -/
theorem aftermath_trackers (hT : 0 < jobsT) (hP : 0 < jobsP) (h : ResolveRun addr all dht jobsT jobsP tr s)
    (hr : s.result = some (.file i ts ns)) {tr1 tr2 : AftermathTrace T P ε I} {s1 s2 : Aftermath T P A D I ε}
    (h1 : AftermathRun addr (Aftermath.start s) tr1 s1) (hj : s1.work.job = .over) (h2 : AftermathRun addr s1 tr2 s2) :
    lateContacts tr2 = [] ∧ (s1.work.trackers = none → lateTrackers tr2 = []) ∧
    ∀ n, s1.work.trackers = some n → (busyWith n).length + (lateTrackers tr2).length ≤ jobsT := by
  have hl := left_run (left_start hT hP h hr).1 h1
  obtain ⟨c1, -, c3, c4⟩ := gone_few hl hj h2
  refine ⟨c1, fun hn => (c3 hn).2, fun n hn => ?_⟩
  obtain ⟨n', -, hle⟩ := c4 n hn
  have := busy_idle n
  have := hl.trackersN n hn
  omega

/-- **C103.** At no time are more peers, or more trackers, asked than there are workers for them. -/
theorem aftermath_bounded (hT : 0 < jobsT) (hP : 0 < jobsP) (h : ResolveRun addr all dht jobsT jobsP tr s) (hr : s.result = some (.file i ts ns))
    {tr1 : AftermathTrace T P ε I} {s1 : Aftermath T P A D I ε} (h1 : AftermathRun addr (Aftermath.start s) tr1 s1) :
    (busyWith s1.work.peers).length ≤ jobsP ∧ ∀ n, s1.work.trackers = some n → (busyWith n).length ≤ jobsT := by
  have hl := left_run (left_start hT hP h hr).1 h1
  refine ⟨?_, fun n hn => ?_⟩
  · have := busy_idle s1.work.peers
    have := hl.peersN
    omega
  · have := busy_idle n
    have := hl.trackersN n hn
    omega

/-- **C103.** Whoever was asked, is being asked when the metadata comes, or begins to be asked later, was handed over by the feeding task, and
as often as that. -/
theorem aftermath_handed_over (q : P → Bool) (h : ResolveRun addr all dht jobsT jobsP tr s)
    {tr1 : AftermathTrace T P ε I} {s1 : Aftermath T P A D I ε} (h1 : AftermathRun addr (Aftermath.start s) tr1 s1) :
    ((peerDones tr).map Prod.fst ++ busyWith s.peers ++ lateAsked tr1).countP q ≤ (contacts tr ++ lateContacts tr1).countP q := by
  have e1 := resolve_held q h
  have e2 := late_held q h1
  simp only [heldBy, List.countP_append, Aftermath.start] at e1 e2 ⊢
  omega

/-- **C103.** If there are trackers, nobody is asked twice, neither before nor after the metadata has come. -/
theorem aftermath_once (hT : 0 < jobsT) (hP : 0 < jobsP) (hall : all ≠ []) (h : ResolveRun addr all dht jobsT jobsP tr s)
    (hr : s.result = some (.file i ts ns)) {tr1 : AftermathTrace T P ε I} {s1 : Aftermath T P A D I ε}
    (h1 : AftermathRun addr (Aftermath.start s) tr1 s1) :
    (((peerDones tr).map Prod.fst ++ busyWith s.peers ++ lateAsked tr1).map addr).Nodup ∧
    ((contacts tr ++ lateContacts tr1).map addr).Nodup := by
  have hnd : ((contacts tr ++ lateContacts tr1).map addr).Nodup := by
    obtain ⟨⟨-, hsrc⟩, -⟩ := resolve_inv hT hP (.inl hall) h
    rcases hsrc with ⟨-, ht⟩ | ⟨he, -⟩
    case inr => exact absurd he hall
    have hco : contacts tr = firsts addr (view tr).ar := ht.contacts
    obtain ⟨f1, f2, f3, -⟩ := firsts_spec addr (view tr).ar
    rw [← hco] at f1 f3
    cases hj : s.job with
    | notStarted => exact absurd hj (result_started h hr)
    | over =>
      have := (gone_few (left_start hT hP h hr).1 hj h1).1
      rw [this]
      simpa using f1
    | running =>
      obtain ⟨n, acc, d, hn, -⟩ := ht.live (by rw [hj]; simp)
      have hseen : SeenInv addr (contacts tr) (Aftermath.start s) [] := by
        refine ⟨fun p hp => ?_, by simpa using f1⟩
        rw [List.append_nil] at hp
        exact (ht.seen _).mpr (List.mem_map_of_mem (f3.mem hp))
      exact (seen_run (by show s.trackers.isSome = true; rw [hn]; rfl) hseen h1).2.2
  refine ⟨?_, hnd⟩
  rw [List.nodup_iff_count_le_one] at hnd ⊢
  intro a
  have key := aftermath_handed_over (fun p => addr p == a) h h1
  have := hnd a
  simp only [List.count, List.countP_map] at this ⊢
  exact Nat.le_trans key this

/-- **C103.** Whatever trackers and peers do, whatever is in the queues: from every state that can be reached, what the program and its runtime do
by themselves, in at most as many steps as there are workers and three more, leads to where nothing is left of the download. -/
theorem aftermath_lets_go (hT : 0 < jobsT) (hP : 0 < jobsP) (h : ResolveRun addr all dht jobsT jobsP tr s) (hr : s.result = some (.file i ts ns))
    {tr1 : AftermathTrace T P ε I} {s1 : Aftermath T P A D I ε} (h1 : AftermathRun addr (Aftermath.start s) tr1 s1) :
    ∃ (tr2 : AftermathTrace T P ε I) (s2 : Aftermath T P A D I ε), AftermathRun addr (Aftermath.start s) (tr1 ++ tr2) s2 ∧
      tr2.length ≤ 3 + jobsP + jobsT ∧ (∀ x ∈ tr2, OwnStep x.1) ∧ LetGo s2.work := by
  have hl := left_run (left_start hT hP h hr).1 h1
  obtain ⟨tr2, s2, h2, h3, h4, h5, -⟩ := own_run addr (ownLeft s1) hl rfl
  refine ⟨tr2, s2, run_append h1 h2, ?_, h4, h5⟩
  rw [h3]
  have e1 := unstopped_le s1.work.peers
  rw [hl.peersN] at e1
  have e2 : (s1.work.trackers.map unstopped).getD 0 ≤ jobsT := by
    cases ht : s1.work.trackers with
    | none => simp
    | some n =>
      have := unstopped_le n
      rw [hl.trackersN n ht] at this
      simpa using this
  simp only [ownLeft]
  split <;> split <;> split <;> omega

/-- **C103.** No run goes on forever, and none ends before the feeding task and all workers are gone: where nothing more can happen, nothing is
left of the download. -/
theorem aftermath_ends (hT : 0 < jobsT) (hP : 0 < jobsP) (h : ResolveRun addr all dht jobsT jobsP tr s) (hr : s.result = some (.file i ts ns)) :
    WellFounded (fun s2 s1 : Aftermath T P A D I ε => ∃ e out, s1.step addr e = some (s2, out)) ∧
    ∀ (tr1 : AftermathTrace T P ε I) (s1 : Aftermath T P A D I ε), AftermathRun addr (Aftermath.start s) tr1 s1 →
      (∀ e, s1.step addr e = none) → LetGo s1.work ∧ s1.aborted = true ∧ s1.work.peers.alive = false := by
  refine ⟨Subrelation.wf (r := InvImage (Prod.Lex (· < ·) (· < ·)) leftWeight) (fun {s2 s1} ⟨e, out, h⟩ => aftermath_lighter addr h)
    (InvImage.wf leftWeight (Prod.lex Nat.lt_wfRel Nat.lt_wfRel).wf), fun tr1 s1 h1 hn => ?_⟩
  rcases own_progress addr (left_run (left_start hT hP h hr).1 h1) with ⟨-, c1, c2, c3⟩ | ⟨e, s', out, -, hs, -⟩
  · exact ⟨c3, c1, c2⟩
  · rw [hn e] at hs
    cases hs

end

-- two trackers and two peers at a time; the second tracker has not answered, and a third peer waits, when the first peer gives the metadata
def exAftermathBefore : List (ResolveEvent (Nat × Nat) Nat Nat) :=
  [.spawnTracker, .spawnTracker, .spawnTracker, .trackerTake 0, .trackerCheck 0, .startJob, .trackerEnds 0 (.value (.ok [(7, 0), (8, 0), (9, 0), (7, 1), (6, 0)])),
   .trackerTake 0, .trackerCheck 0, .nextBatch, .nextPeer, .nextPeer, .nextPeer, .peerTake 0, .peerCheck 0, .peerTake 1, .peerCheck 1,
   .peerEnds 0 (.value (.ok 99)), .receive]

-- meanwhile the third peer begins to be asked, the feeding task hands over one more peer but not one it has had before, and then all is over
def exAftermath : List (AftermathEvent Nat (Nat × Nat) Nat Nat) :=
  [.peer (.take 0), .nextPeer, .abort, .nextPeer, .peer (.check 0), .drop, .peer (.finish 1 (.value ((8, 0), .ok 99))), .jobGone, .tracker (.take 1),
   .peer (.abort 0), .tracker (.abort 1), .tracker (.abort 0)]

set_option synthInstance.maxSize 2048 in
example : ((resolveExec (A := Nat) (D := Nat) Prod.fst [1, 2, 3] exAftermathBefore (Resolve.start [1, 2, 3] (.error 0) 2 2)).bind fun r =>
      (aftermathExec Prod.fst exAftermath (Aftermath.start r.2)).map fun x =>
        ((peerDones r.1).map Prod.fst, busyWith r.2.peers, lateAsked x.1, lateContacts x.1)) =
    some ([(7, 0)], [(8, 0)], [(9, 0)], [(6, 0)]) := by decide +kernel

set_option synthInstance.maxSize 2048 in
example : ∃ (tr : ResolveTrace Nat (Nat × Nat) Nat Nat Nat) (s : Resolve Nat (Nat × Nat) Nat Nat Nat Nat)
    (tr1 : AftermathTrace Nat (Nat × Nat) Nat Nat) (s1 : Aftermath Nat (Nat × Nat) Nat Nat Nat Nat),
    ResolveRun Prod.fst [1, 2, 3] (.error 0) 2 2 tr s ∧ s.result = some (.file 99 [1, 2, 3] []) ∧ AftermathRun Prod.fst (Aftermath.start s) tr1 s1 ∧
      lateAsked tr1 = [(9, 0)] ∧ LetGo s1.work := by
  have key : ((resolveExec (A := Nat) (D := Nat) Prod.fst [1, 2, 3] exAftermathBefore (Resolve.start [1, 2, 3] (.error 0) 2 2)).bind fun r =>
      (aftermathExec Prod.fst exAftermath (Aftermath.start r.2)).map fun x =>
        (r.2.result, lateAsked x.1, x.2.work.job, x.2.work.peers.workers, x.2.work.trackers.map Nursery.workers)) =
    some (some (.file 99 [1, 2, 3] []), [(9, 0)], .over, [.stopped, .stopped], some [.stopped, .stopped]) := by decide +kernel
  rw [Option.bind_eq_some_iff] at key
  obtain ⟨⟨tr, s⟩, hx, key⟩ := key
  rw [Option.map_eq_some_iff] at key
  obtain ⟨⟨tr1, s1⟩, hy, key⟩ := key
  simp only [Prod.mk.injEq] at key
  obtain ⟨k1, k2, k3, k4, k5⟩ := key
  refine ⟨tr, s, tr1, s1, by simpa using resolveExec_run exAftermathBefore .init hx, k1, aftermathExec_run _ hy, k2, k3, ?_, ?_⟩
  · intro w hw; rw [k4] at hw; simpa using hw
  · intro n hn w hw
    rw [hn] at k5
    simp only [Option.map_some, Option.some.injEq] at k5
    rw [k5] at hw
    simpa using hw

end Demag.Props
