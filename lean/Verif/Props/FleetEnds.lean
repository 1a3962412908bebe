import Verif.Props.Fleet

/-!
# C99: how many are asked at once, and the end of a batch
-/

namespace Demag.Props

open Demag Spec

section
variable {M T P A D I ε : Type} [DecidableEq A] {addr : P → A} {trackers : M → List T} {jobsT jobsP : Nat} {jobs : Nat}

/-! ### The end of another download -/

theorem findSome_set {α β : Type} (g : α → Option β) : ∀ (l : List α) (w : Nat) (x y : α), l[w]? = some y → g y = none → g x = none →
    (l.set w x).findSome? g = l.findSome? g
  | [], _, _, _, h, _, _ => by simp at h
  | a :: l, 0, x, y, h, hy, hx => by
    simp only [List.getElem?_cons_zero, Option.some.injEq] at h
    subst h
    simp [hy, hx]
  | a :: l, w + 1, x, y, h, hy, hx => by
    simp only [List.getElem?_cons_succ] at h
    simp only [List.set_cons_succ, List.findSome?_cons]
    rw [findSome_set g l w x y h hy hx]

/-- The end of download `k` leaves the other jobs running. -/
theorem batch_ends_other {b b' : Batch M} {w k n : Nat} {m : M} {o : Outcome Bool} {out : List (M × Outcome Bool)}
    (hw : b.nursery.workers[w]? = some (.running k m)) (hs : b.step (.ends w o) = some (b', out)) (hnk : n ≠ k) :
    runningJob b'.nursery n = runningJob b.nursery n ∧ b'.exit = b.exit := by
  unfold Batch.step at hs
  split at hs
  · cases hs
  simp only [hw, Option.map_eq_some_iff] at hs
  obtain ⟨⟨s, so⟩, hn, hs⟩ := hs
  cases hs
  refine ⟨?_, rfl⟩
  have hk : ¬ k = n := fun h => hnk h.symm
  simp only [Nursery.step, hw] at hn
  split at hn
  · cases hn
    exact findSome_set _ _ w _ _ hw (by simp [hk]) rfl
  · cases hn
    exact findSome_set _ _ w _ _ hw (by simp [hk]) rfl

theorem step_ends_some {f f' : Fleet M T P A D I ε} {w : Nat} {saved : Outcome Bool} {out : List (FleetOutput M T P D I ε)} :
    f.step addr trackers jobsT jobsP (.ends w saved) = some (f', out) ↔ f.batch.exit = none ∧
      ∃ n m r b bo, f.batch.nursery.workers[w]? = some (.running n m) ∧ (f.work n).bind Resolve.result = some r ∧
        f.batch.step (.ends w (downloadOver saved r)) = some (b, bo) ∧ f' = { f with batch := b } ∧ out = [.over n m (downloadOver saved r)] := by
  constructor
  · intro h
    unfold Fleet.step at h
    split at h
    · cases h
    rename_i hx
    simp only at h
    split at h
    case h_2 => cases h
    rename_i n m hw
    split at h
    case h_2 => cases h
    rename_i r hr
    rw [Option.map_eq_some_iff] at h
    obtain ⟨⟨b, bo⟩, hs, h⟩ := h
    cases h
    exact ⟨by simpa using hx, n, m, r, b, bo, hw, hr, hs, rfl, rfl⟩
  · rintro ⟨hx, n, m, r, b, bo, hw, hr, hs, rfl, rfl⟩
    simp [Fleet.step, hx, hw, hr, hs]

/-- **C99.** Nor does it make a difference for what happens in a download whether another one ends before or after it. -/
theorem fleet_swap_over {magnets : Option (List M)} {tr : FleetTrace M T P D I ε} {f : Fleet M T P A D I ε} {n k w : Nat} (hnk : n ≠ k)
    {e : FleetEvent P D I ε} {o : List (FleetOutput M T P D I ε)} (he : OfDownload n e) {saved r : Outcome Bool} {m : M} :
    FleetRun addr trackers jobsT jobsP magnets jobs (tr ++ [(e, o), (.ends w saved, [.over k m r])]) f ↔
    FleetRun addr trackers jobsT jobsP magnets jobs (tr ++ [(.ends w saved, [.over k m r]), (e, o)]) f := by
  constructor
  · intro h
    have h' : FleetRun addr trackers jobsT jobsP magnets jobs ((tr ++ [(e, o)]) ++ [(.ends w saved, [.over k m r])]) f := by simpa using h
    obtain ⟨f1, h1, hs1⟩ := fleetRun_unsnoc h'
    obtain ⟨f0, h0, hs0⟩ := fleetRun_unsnoc h1
    rw [step_own_some he] at hs0
    obtain ⟨hx, s, hs, rfl⟩ := hs0
    rw [step_ends_some] at hs1
    obtain ⟨-, k', m', r', b, bo, hw, hr, hb, rfl, ho⟩ := hs1
    simp only [List.cons.injEq, FleetOutput.over.injEq, and_true] at ho
    obtain ⟨rfl, rfl, rfl⟩ := ho
    have e1 : (Fleet.put f0 n s).work k = f0.work k := by simp [Fleet.put, hnk.symm]
    rw [e1] at hr
    have hoth := batch_ends_other (n := n) hw hb hnk
    have g1 : FleetRun addr trackers jobsT jobsP magnets jobs (tr ++ [(.ends w saved, [.over k m (downloadOver saved r')])])
        { f0 with batch := b } := .step h0 (step_ends_some.2 ⟨hx, k, m, r', b, bo, hw, hr, hb, rfl, rfl⟩)
    have g2 := FleetRun.step g1 ((step_own_some he).2 ⟨by rw [hoth.2]; exact hx, s, by rw [hoth.1]; exact hs, rfl⟩)
    simpa [Fleet.put] using g2
  · intro h
    have h' : FleetRun addr trackers jobsT jobsP magnets jobs ((tr ++ [(.ends w saved, [.over k m r])]) ++ [(e, o)]) f := by simpa using h
    obtain ⟨f1, h1, hs1⟩ := fleetRun_unsnoc h'
    obtain ⟨f0, h0, hs0⟩ := fleetRun_unsnoc h1
    rw [step_ends_some] at hs0
    obtain ⟨hx, k', m', r', b, bo, hw, hr, hb, rfl, ho⟩ := hs0
    simp only [List.cons.injEq, FleetOutput.over.injEq, and_true] at ho
    obtain ⟨rfl, rfl, rfl⟩ := ho
    rw [step_own_some he] at hs1
    obtain ⟨-, s, hs, rfl⟩ := hs1
    have hoth := batch_ends_other (n := n) hw hb hnk
    rw [hoth.1] at hs
    have g1 := FleetRun.step h0 ((step_own_some he).2 ⟨hx, s, hs, rfl⟩)
    have e1 : (Fleet.put f0 n s).work k = f0.work k := by simp [Fleet.put, hnk.symm]
    have g2 := FleetRun.step g1 (step_ends_some.2 ⟨hx, k, m, r', b, bo, hw, by rw [e1]; exact hr, hb, rfl, rfl⟩)
    simpa [Fleet.put] using g2

/-! ### How many are asked at once -/

/-- What a step of a download does to its nurseries. -/
theorem resolve_touches {all : List T} {s s' : Resolve T P A D I ε} {e : ResolveEvent P ε I} {out : List (ResolveOutput T P D I ε)}
    (hs : s.step addr all e = some (s', out)) :
    (s'.peers = s.peers ∨ ∃ ev o, s.peers.step ev = some (s'.peers, o)) ∧
    ∀ n', s'.trackers = some n' → ∃ n, s.trackers = some n ∧ (n' = n ∨ ∃ ev o, n.step ev = some (n', o)) := by
  have trackerQ : ∀ {ev : NurseryEvent T (List P)} {o : List (ResolveOutput T P D I ε)}, s.trackerStep ev o = some (s', out) →
      (s'.peers = s.peers ∨ ∃ ev o, s.peers.step ev = some (s'.peers, o)) ∧
      ∀ n', s'.trackers = some n' → ∃ n, s.trackers = some n ∧ (n' = n ∨ ∃ ev o, n.step ev = some (n', o)) := by
    intro ev o hs
    unfold Resolve.trackerStep at hs
    split at hs
    case h_2 => cases hs
    rename_i n hn
    rw [Option.map_eq_some_iff] at hs
    obtain ⟨⟨n', o'⟩, hstep, hs⟩ := hs
    cases hs
    exact ⟨.inl rfl, fun x hx => ⟨n, hn, .inr ⟨ev, o', by cases hx; exact hstep⟩⟩⟩
  have peerQ : ∀ {ev : NurseryEvent P (P × Except ε I)} {o : List (ResolveOutput T P D I ε)}, s.peerStep ev o = some (s', out) →
      (s'.peers = s.peers ∨ ∃ ev o, s.peers.step ev = some (s'.peers, o)) ∧
      ∀ n', s'.trackers = some n' → ∃ n, s.trackers = some n ∧ (n' = n ∨ ∃ ev o, n.step ev = some (n', o)) := by
    intro ev o hs
    unfold Resolve.peerStep at hs
    rw [Option.map_eq_some_iff] at hs
    obtain ⟨⟨n', o'⟩, hstep, hs⟩ := hs
    cases hs
    exact ⟨.inr ⟨ev, o', hstep⟩, fun x hx => ⟨x, hx, .inl rfl⟩⟩
  have endQ : ∀ {s0 : Resolve T P A D I ε} {o : List (ResolveOutput T P D I ε)}, s0.endJob o = some (s', out) → s0.peers = s.peers →
      (s'.peers = s.peers ∨ ∃ ev o, s.peers.step ev = some (s'.peers, o)) ∧
      ∀ n', s'.trackers = some n' → ∃ n, s.trackers = some n ∧ (n' = n ∨ ∃ ev o, n.step ev = some (n', o)) := by
    intro s0 o hs hp
    unfold Resolve.endJob at hs
    rw [Option.map_eq_some_iff] at hs
    obtain ⟨⟨n', o'⟩, hstep, hs⟩ := hs
    cases hs
    rw [hp] at hstep
    exact ⟨.inr ⟨_, o', hstep⟩, fun x hx => by cases hx⟩
  have same : ∀ x, s.trackers = some x → ∃ n, s.trackers = some n ∧ (x = n ∨ ∃ ev o, n.step ev = some (x, o)) :=
    fun x hx => ⟨x, hx, .inl rfl⟩
  unfold Resolve.step at hs
  split at hs
  · cases hs
  cases e with
  | spawnTracker =>
    simp only at hs
    split at hs
    case h_2 => cases hs
    rename_i t ts _
    cases hn : s.trackers with
    | none => rw [hn] at hs; cases hs
    | some n =>
      rw [hn] at hs
      simp only [Option.bind_some] at hs
      split at hs
      · rename_i n' k j hstep
        cases hs
        exact ⟨.inl rfl, fun x hx => ⟨n, rfl, .inr ⟨_, _, by cases hx; exact hstep⟩⟩⟩
      · cases hs; exact ⟨.inl rfl, fun x hx => ⟨n, rfl, .inl (Option.some.inj hx).symm⟩⟩
      · cases hs
  | startJob =>
    simp only at hs
    split at hs
    case h_2 => cases hs
    split at hs
    · rename_i n hn
      rw [Option.map_eq_some_iff] at hs
      obtain ⟨⟨n', o'⟩, hstep, hs⟩ := hs
      cases hs
      exact ⟨.inl rfl, fun x hx => ⟨n, hn, .inr ⟨_, _, by cases hx; exact hstep⟩⟩⟩
    · cases hs
      exact ⟨.inl rfl, same⟩
  | trackerTake w => exact trackerQ hs
  | trackerCheck w => exact trackerQ hs
  | trackerExit w => exact trackerQ hs
  | trackerEnds w r =>
    simp only at hs
    split at hs
    · exact trackerQ hs
    · cases hs
  | nextPeer =>
    simp only at hs
    split at hs
    case h_2 => cases hs
    split at hs
    · cases hs; exact ⟨.inl rfl, same⟩
    · split at hs
      · rename_i hstep
        cases hs
        exact ⟨.inr ⟨_, _, hstep⟩, same⟩
      · exact endQ hs rfl
      · cases hs
  | nextBatch =>
    simp only at hs
    split at hs
    case h_2 => cases hs
    rename_i n _ _ hn
    split at hs
    · rename_i hstep
      cases hs
      exact ⟨.inl rfl, fun x hx => ⟨n, hn, .inr ⟨_, _, by cases hx; exact hstep⟩⟩⟩
    · exact endQ hs rfl
    · cases hs
  | noMorePeers =>
    simp only at hs
    split at hs
    · split at hs
      · exact endQ hs rfl
      · cases hs
    · exact endQ hs rfl
    · cases hs
  | peerTake w => exact peerQ hs
  | peerCheck w => exact peerQ hs
  | peerExit w => exact peerQ hs
  | peerEnds w r =>
    simp only at hs
    split at hs
    · exact peerQ hs
    · cases hs
  | receive =>
    simp only at hs
    split at hs
    · cases hs
    · split at hs
      · rename_i hstep; cases hs; exact ⟨.inr ⟨_, _, hstep⟩, same⟩
      · rename_i hstep; cases hs; exact ⟨.inr ⟨_, _, hstep⟩, same⟩
      · rename_i hstep; cases hs; exact ⟨.inr ⟨_, _, hstep⟩, same⟩
      · cases hs
  | receiveNone =>
    simp only at hs
    split at hs
    · cases hs
    · split at hs
      · rename_i hstep; cases hs; exact ⟨.inr ⟨_, _, hstep⟩, same⟩
      · cases hs

theorem resolve_workers {all : List T} {dht : Except ε (List P × List D)} {tr : ResolveTrace T P D I ε} {s : Resolve T P A D I ε}
    (h : ResolveRun addr all dht jobsT jobsP tr s) :
    s.peers.workers.length = jobsP ∧ ∀ n, s.trackers = some n → n.workers.length = jobsT := by
  induction h with
  | init =>
    cases all with
    | nil => cases dht <;> exact ⟨by simp [Resolve.start, Nursery.new], by simp [Resolve.start]⟩
    | cons t ts =>
      refine ⟨by simp [Resolve.start, Nursery.new], ?_⟩
      intro n hn
      cases hn
      simp [Nursery.new]
  | step _ hs ih =>
    obtain ⟨h1, h2⟩ := resolve_touches hs
    refine ⟨?_, ?_⟩
    · rcases h1 with h1 | ⟨ev, o, h1⟩
      · rw [h1]; exact ih.1
      · rw [step_workers h1]; exact ih.1
    · intro n hn
      obtain ⟨n0, hn0, rfl | ⟨ev, o, h3⟩⟩ := h2 n hn
      · exact ih.2 n hn0
      · rw [step_workers h3]; exact ih.2 n0 hn0

/-- **C99.** Never more than the configured number of peers and trackers are being asked for one download, not even after it has ended. -/
theorem fleet_asks_one (hj : 0 < jobs) {ms : List M} {tr : FleetTrace M T P D I ε} {f : Fleet M T P A D I ε}
    (h : FleetRun addr trackers jobsT jobsP (some ms) jobs tr f) (n : Nat) : peersAsked f n ≤ jobsP ∧ trackersAsked f n ≤ jobsT := by
  have hi := fleet_inv hj h
  unfold peersAsked trackersAsked
  cases hw : f.work n with
  | none => simp
  | some s =>
    obtain ⟨m, dht, s0, -, -, -, h4, h5, -⟩ := hi.active n s hw
    obtain ⟨h6, h7⟩ := resolve_workers h4
    have hp : s.peers.workers.length = jobsP := by
      rcases h5 with rfl | h5
      · exact h6
      · rw [h5.2.2.2]; exact h6
    have ht : s.trackers = s0.trackers := by
      rcases h5 with rfl | h5
      · rfl
      · exact h5.2.2.1
    refine ⟨?_, ?_⟩
    · simp only [Option.map_some, Option.getD_some]; rw [← hp]; exact busy_le _
    · simp only [Option.bind_some, ht]
      cases htr : s0.trackers with
      | none => simp
      | some t => simp only [Option.map_some, Option.getD_some]; rw [← h7 t htr]; exact busy_le _

theorem sum_le_mul (l : List Nat) (g : Nat → Nat) (c : Nat) (h : ∀ n ∈ l, g n ≤ c) : (l.map g).sum ≤ l.length * c := by
  induction l with
  | nil => simp
  | cons a l ih =>
    have := ih fun n hn => h n (List.mem_cons_of_mem _ hn)
    have := h a List.mem_cons_self
    simp only [List.map_cons, List.sum_cons, List.length_cons, Nat.add_mul, Nat.one_mul]
    omega

theorem batch_workers {ms : List M} {btr : List (BatchEvent × List (M × Outcome Bool))} {b : Batch M} (hj : 0 < jobs)
    (h : BatchRun (some ms) jobs btr b) : b.nursery.workers.length = jobs := by
  by_cases hne : ms = []
  · subst hne
    obtain ⟨-, rfl⟩ := batch_exited (c := .success) rfl h
    simp [Batch.start, Nursery.new]
  · obtain ⟨acc, d, ⟨ntr, L, hn, -⟩, -⟩ := batch_inv hj hne h
    exact (nursery_inv hn).workers

/-- **C99.** At any time at most the configured number of downloads is in progress, and for all of them together at most so many peers and trackers
are being asked as the configured numbers for a download allow. -/
theorem fleet_asks (hj : 0 < jobs) {ms : List M} {tr : FleetTrace M T P D I ε} {f : Fleet M T P A D I ε}
    (h : FleetRun addr trackers jobsT jobsP (some ms) jobs tr f) {ns : List Nat} (hnd : ns.Nodup) (hp : ∀ n ∈ ns, InProgress tr n) :
    ns.length ≤ jobs ∧ (ns.map (peersAsked f)).sum ≤ jobs * jobsP ∧ (ns.map (trackersAsked f)).sum ≤ jobs * jobsT := by
  have hi := fleet_inv hj h
  obtain ⟨btr, hb, -⟩ := hi.batch
  have hlen : ns.length ≤ jobs := by
    have hsub : ns ⊆ f.batch.nursery.workers.filterMap Worker.runningNum := by
      intro n hn
      obtain ⟨⟨m, hm⟩, hno⟩ := hp n hn
      cases hw : f.work n with
      | none => exact absurd hm ((hi.idle n hw).2.1 m)
      | some s =>
        obtain ⟨m', _, _, -, -, -, -, -, h6, -⟩ := hi.active n s hw
        rcases h6 with ⟨w, hw⟩ | ⟨o, ho⟩
        · rw [List.mem_filterMap]
          exact ⟨_, List.mem_of_getElem? hw, rfl⟩
        · exact absurd ho (hno m' o)
    refine Nat.le_trans (hnd.subperm hsub).length_le (Nat.le_trans (List.length_filterMap_le _ _) ?_)
    rw [batch_workers hj hb]
    exact Nat.le_refl _
  refine ⟨hlen, ?_, ?_⟩
  · exact Nat.le_trans (sum_le_mul ns _ jobsP fun n _ => (fleet_asks_one hj h n).1) (Nat.mul_le_mul_right _ hlen)
  · exact Nat.le_trans (sum_le_mul ns _ jobsT fun n _ => (fleet_asks_one hj h n).2) (Nat.mul_le_mul_right _ hlen)

/-! ### The end -/

/-- How things end while something happens: what the DHT says for a download, what comes of trackers and of peers, and of saving. -/
structure Endings (T P D I ε : Type) where
  dht : Nat → Except ε (List P × List D)
  tracker : Nat → T → Outcome (Except ε (List P))
  peer : Nat → P → Outcome (Except ε I)
  saved : Nat → Outcome Bool

/-- The event fits how things end. -/
def Fits (x : Endings T P D I ε) (e : FleetEvent P D I ε) (out : List (FleetOutput M T P D I ε)) : Prop :=
  (∀ n d, e = .begins n d → d = x.dht n) ∧
  (∀ w sv n m o, e = .ends w sv → .over n m o ∈ out → sv = x.saved n) ∧
  (∀ n p r, .output n (.peerDone p r) ∈ out → r = x.peer n p) ∧
  (∀ n t ps, .output n (.answer t ps) ∈ out → trackerPeers (x.tracker n t) = .value ps) ∧
  ∀ n t, .output n (.trackerPanic t) ∈ out → trackerPeers (x.tracker n t) = .panic

/-- **C99.** Until the batch exits something can happen (other than in what is left of downloads that have ended), however trackers, peers, the DHT and
the file system answer. -/
theorem fleet_progress (hj : 0 < jobs) (hT : 0 < jobsT) (hP : 0 < jobsP) {ms : List M} {tr : FleetTrace M T P D I ε} {f : Fleet M T P A D I ε}
    (h : FleetRun addr trackers jobsT jobsP (some ms) jobs tr f) (hx : f.batch.exit = none) (x : Endings T P D I ε) :
    ∃ e f' out, f.step addr trackers jobsT jobsP e = some (f', out) ∧ Fits x e out ∧ ∀ n ne, e ≠ .leftover n ne := by
  have hi := fleet_inv hj h
  obtain ⟨btr, hb, -⟩ := hi.batch
  by_cases hrun : ∃ (w n : Nat) (m : M), f.batch.nursery.workers[w]? = some (.running n m)
  · obtain ⟨w, n, m, hw⟩ := hrun
    obtain ⟨i, hri⟩ := runningJob_of hw
    have hm := batch_running hj hb hw
    have him : i = m := by
      obtain ⟨v, hv⟩ := runningJob_mem hri
      have := batch_running hj hb hv
      rw [hm] at this
      exact (Option.some.inj this).symm
    subst him
    cases hwk : f.work n with
    | none =>
      refine ⟨.begins n (x.dht n), Fleet.put f n (Resolve.start (trackers i) (x.dht n) jobsT jobsP), [.began n i], ?_, ?_, by simp⟩
      · simp [Fleet.step, hx, hri, hwk, Fleet.put]
      · refine ⟨?_, by simp, by simp, by simp, by simp⟩
        intro k d he
        cases he
        rfl
    | some s =>
      cases hres : s.result with
      | some r =>
        obtain ⟨b, bo, hstep⟩ : ∃ b bo, f.batch.step (.ends w (downloadOver (x.saved n) r)) = some (b, bo) := by
          simp only [Batch.step, hx, Option.isSome_none, Bool.false_eq_true, if_false, hw, Nursery.step]
          split <;> simp
        refine ⟨.ends w (x.saved n), { f with batch := b }, [.over n i (downloadOver (x.saved n) r)], ?_, ?_, by simp⟩
        · exact step_ends_some.2 ⟨hx, n, i, r, b, bo, hw, by rw [hwk]; exact hres, hstep, rfl, rfl⟩
        · refine ⟨by simp, ?_, by simp, by simp, by simp⟩
          intro v sv k m o he ho
          cases he
          simp only [List.mem_singleton, FleetOutput.over.injEq] at ho
          rw [ho.1]
      | none =>
        obtain ⟨m', dht, s0, h1, -, -, h4, h5, -⟩ := hi.active n s hwk
        have hmi : m' = i := by rw [hm] at h1; exact (Option.some.inj h1).symm
        subst hmi
        have h50 : s = s0 := by
          rcases h5 with h5 | h5
          · exact h5
          · rw [← h5.2.1, hres] at h5; cases h5.1
        subst h50
        obtain ⟨re, s', ro, hstep, hp, ht⟩ := resolve_progress hT hP h4 hres (x.tracker n) (x.peer n)
        refine ⟨.goesOn n re, Fleet.put f n s', ro.map (.output n), ?_, ?_, by simp⟩
        · simp [Fleet.step, hx, hri, hwk, hstep, Fleet.put]
        · refine ⟨by simp, by simp, ?_, ?_, ?_⟩
          · intro k p r hmem
            simp only [List.mem_map, FleetOutput.output.injEq] at hmem
            obtain ⟨y, hy, rfl, rfl⟩ := hmem
            exact hp (p, r) (List.mem_filterMap.2 ⟨_, hy, rfl⟩)
          · intro k t ps hmem
            simp only [List.mem_map, FleetOutput.output.injEq] at hmem
            obtain ⟨y, hy, rfl, rfl⟩ := hmem
            exact (ht (t, .value ps) (List.mem_filterMap.2 ⟨_, hy, rfl⟩)).symm
          · intro k t hmem
            simp only [List.mem_map, FleetOutput.output.injEq] at hmem
            obtain ⟨y, hy, rfl, rfl⟩ := hmem
            exact (ht (t, .panic) (List.mem_filterMap.2 ⟨_, hy, rfl⟩)).symm
  · obtain ⟨be, b, bo, hstep, -⟩ := batch_progress hj hb hx (fun _ => .panic)
    have hne : ∀ w o, be ≠ .ends w o := by
      rintro w o rfl
      unfold Batch.step at hstep
      split at hstep
      · cases hstep
      simp only at hstep
      split at hstep
      · rename_i n m hw
        exact hrun ⟨w, n, m, hw⟩
      · cases hstep
    refine ⟨.batch be, { f with batch := b }, [], ?_, ⟨by simp, by simp, by simp, by simp, by simp⟩, by simp⟩
    cases be with
    | ends w o => exact absurd rfl (hne w o)
    | _ => simp [Fleet.step, hx, hstep]

/-- What is left to do in a download, as far as it can be told. -/
def workWeight : Option (Resolve T P A D I ε) → Nat × Nat
  | none => (0, 0)
  | some s => ((resolveWeight s).1, (resolveWeight s).2 + if s.peers.alive then 1 else 0)

/-- What is left to do in a batch with `N` links. -/
def fleetWeight (N : Nat) (f : Fleet M T P A D I ε) : Nat × Nat × Nat :=
  (batchWeight f.batch + (List.range N).countP (fun n => (f.work n).isNone),
    ((List.range N).map fun n => (workWeight (f.work n)).1).sum, ((List.range N).map fun n => (workWeight (f.work n)).2).sum)

theorem sum_put (g : Nat → Nat) (n v : Nat) : ∀ N, n < N →
    ((List.range N).map fun k => if k = n then v else g k).sum + g n = ((List.range N).map g).sum + v := by
  intro N
  induction N with
  | zero => intro h; omega
  | succ N ih =>
    intro h
    simp only [List.range_succ, List.map_append, List.sum_append, List.map_cons, List.map_nil, List.sum_cons, List.sum_nil]
    by_cases hn : n = N
    · subst hn
      have : ((List.range n).map fun k => if k = n then v else g k) = (List.range n).map g := by
        apply List.map_congr_left
        intro k hk
        rw [List.mem_range] at hk
        rw [if_neg (by omega)]
      rw [this]
      simp
      omega
    · have := ih (by omega)
      have hN : ¬ N = n := fun h => hn h.symm
      simp only [hN, if_false]
      omega

theorem alive_step {J R : Type} {s s' : Nursery J R} {e : NurseryEvent J R} {out : List (NurseryOutput J R)} (hs : s.step e = some (s', out))
    (h : s'.alive = true) : s.alive = true := by
  cases e <;> simp only [Nursery.step] at hs <;>
    (repeat' split at hs) <;> first | (cases hs; done) | (cases hs; first | exact h | (simp at h; done))

/-- Only what is left of an ended download is concerned, and it gets less. -/
theorem leftover_decreases {s : Resolve T P A D I ε} {e : NurseryEvent P (P × Except ε I)} (ha : e.afterDrop = true)
    {n : Nursery P (P × Except ε I)} {o : List (NurseryOutput P (P × Except ε I))} (hs : s.peers.step e = some (n, o)) :
    (workWeight (some { s with peers := n })).1 = (workWeight (some s)).1 ∧
    (workWeight (some { s with peers := n })).2 < (workWeight (some s)).2 := by
  refine ⟨rfl, ?_⟩
  simp only [workWeight, resolveWeight]
  have hal := alive_step hs
  have hle : (if n.alive = true then 1 else 0) ≤ if s.peers.alive = true then 1 else 0 := by
    split
    · rename_i h; rw [if_pos (hal h)]; exact Nat.le_refl _
    · exact Nat.zero_le _
  cases e with
  | take w => have := nursery_terminates _ _ _ _ (by trivial) hs; omega
  | check w => have := nursery_terminates _ _ _ _ (by trivial) hs; omega
  | finish w o => have := nursery_terminates _ _ _ _ (by trivial) hs; omega
  | dropStream =>
    simp only [Nursery.step] at hs
    split at hs
    case isFalse => cases hs
    rename_i h
    cases hs
    simp [h, weight]
  | abort w =>
    simp only [Nursery.step] at hs
    split at hs
    · cases hs
    · split at hs
      case h_4 => cases hs
      all_goals
        rename_i hw
        cases hs
        have := sum_set (.stopped) hw
        simp only [workerWeight] at this
        simp only [weight]
        omega
  | _ => cases ha

theorem fleet_decreases (hj : 0 < jobs) {ms : List M} {tr : FleetTrace M T P D I ε} {f f' : Fleet M T P A D I ε} {e : FleetEvent P D I ε}
    {out : List (FleetOutput M T P D I ε)} (h : FleetRun addr trackers jobsT jobsP (some ms) jobs tr f)
    (hs : f.step addr trackers jobsT jobsP e = some (f', out)) :
    Prod.Lex (· < ·) (Prod.Lex (· < ·) (· < ·)) (fleetWeight ms.length f') (fleetWeight ms.length f) := by
  have hi := fleet_inv hj h
  obtain ⟨btr, hb, -⟩ := hi.batch
  have left : ∀ {x y : Nat × Nat × Nat}, x.1 < y.1 → Prod.Lex (· < ·) (Prod.Lex (· < ·) (· < ·)) x y := fun {x y} h => by
    obtain ⟨a, b⟩ := x; obtain ⟨c, d⟩ := y; exact Prod.Lex.left _ _ h
  have mid : ∀ {x y : Nat × Nat × Nat}, x.1 = y.1 → x.2.1 < y.2.1 → Prod.Lex (· < ·) (Prod.Lex (· < ·) (· < ·)) x y := fun {x y} h h' => by
    obtain ⟨a, b, c⟩ := x; obtain ⟨a', b', c'⟩ := y; cases h; exact Prod.Lex.right _ (Prod.Lex.left _ _ h')
  have right : ∀ {x y : Nat × Nat × Nat}, x.1 = y.1 → x.2.1 = y.2.1 → x.2.2 < y.2.2 → Prod.Lex (· < ·) (Prod.Lex (· < ·) (· < ·)) x y :=
    fun {x y} h h' h'' => by
      obtain ⟨a, b, c⟩ := x; obtain ⟨a', b', c'⟩ := y; cases h; cases h'; exact Prod.Lex.right _ (Prod.Lex.right _ h'')
  have dec : ∀ {b : Batch M} {be : BatchEvent} {bo : List (M × Outcome Bool)}, f.batch.step be = some (b, bo) → batchWeight b < batchWeight f.batch :=
    fun hstep => batch_weight_lt hstep
  -- a download that is at work
  have work : ∀ {n : Nat} {s s' : Resolve T P A D I ε}, f.work n = some s → n < ms.length →
      ((workWeight (some s')).1 < (workWeight (some s)).1 ∨
        (workWeight (some s')).1 = (workWeight (some s)).1 ∧ (workWeight (some s')).2 < (workWeight (some s)).2) →
      Prod.Lex (· < ·) (Prod.Lex (· < ·) (· < ·)) (fleetWeight ms.length (Fleet.put f n s')) (fleetWeight ms.length f) := by
    intro n s s' hw hn hlt
    have hfst : (fleetWeight ms.length (Fleet.put f n s')).1 = (fleetWeight ms.length f).1 := by
      simp only [fleetWeight, Fleet.put]
      congr 1
      apply List.countP_congr
      intro k _
      by_cases hk : k = n
      · subst hk; simp [hw]
      · simp [hk]
    have e1 : (fun k => (workWeight ((Fleet.put f n s').work k)).1) = fun k => if k = n then (workWeight (some s')).1 else (workWeight (f.work k)).1 := by
      funext k
      by_cases hk : k = n <;> simp [Fleet.put, hk]
    have e2 : (fun k => (workWeight ((Fleet.put f n s').work k)).2) = fun k => if k = n then (workWeight (some s')).2 else (workWeight (f.work k)).2 := by
      funext k
      by_cases hk : k = n <;> simp [Fleet.put, hk]
    have s1 := sum_put (fun k => (workWeight (f.work k)).1) n (workWeight (some s')).1 ms.length hn
    have s2 := sum_put (fun k => (workWeight (f.work k)).2) n (workWeight (some s')).2 ms.length hn
    simp only [hw] at s1 s2
    rcases hlt with hlt | ⟨heq, hlt⟩
    · refine mid hfst ?_
      simp only [fleetWeight, e1]
      omega
    · refine right hfst ?_ ?_
      · simp only [fleetWeight, e1]
        omega
      · simp only [fleetWeight, e2]
        omega
  have inRange : ∀ {n : Nat} {s : Resolve T P A D I ε}, f.work n = some s → n < ms.length := by
    intro n s hw
    obtain ⟨m, _, _, h1, -⟩ := hi.active n s hw
    exact (List.getElem?_eq_some_iff.1 h1).1
  unfold Fleet.step at hs
  split at hs
  · cases hs
  cases e with
  | batch be =>
    cases hbe : be with
    | ends w o => subst hbe; cases hs
    | _ =>
      subst hbe
      simp only [Option.map_eq_some_iff] at hs
      obtain ⟨⟨b, bo⟩, hstep, hs⟩ := hs
      cases hs
      exact left (Nat.add_lt_add_right (dec hstep) _)
  | begins n dht =>
    simp only at hs
    split at hs
    case h_2 => cases hs
    rename_i m hm hw
    cases hs
    obtain ⟨w, hrw⟩ := runningJob_mem hm
    have hn := (List.getElem?_eq_some_iff.1 (batch_running hj hb hrw)).1
    apply left
    simp only [fleetWeight]
    apply Nat.add_lt_add_left
    simp only [List.countP_eq_length_filter]
    have hsub : ((List.range ms.length).filter fun k => ((if k = n then some (Resolve.start (trackers m) dht jobsT jobsP) else f.work k) :
        Option (Resolve T P A D I ε)).isNone).length < ((List.range ms.length).filter fun k => (f.work k).isNone).length := by
      have hlist : ((List.range ms.length).filter fun k => ((if k = n then some (Resolve.start (trackers m) dht jobsT jobsP) else f.work k) :
          Option (Resolve T P A D I ε)).isNone) = (((List.range ms.length).filter fun k => (f.work k).isNone)).filter fun k => decide (k ≠ n) := by
        rw [List.filter_filter]
        apply List.filter_congr
        intro k _
        by_cases hk : k = n <;> simp [hk]
      rw [hlist]
      apply Nat.lt_of_le_of_ne (List.length_filter_le _ _)
      intro heq
      rw [List.length_filter_eq_length_iff] at heq
      have := heq n (by simp [hn, hw])
      simp at this
    exact hsub
  | goesOn n re =>
    simp only at hs
    split at hs
    case h_2 => cases hs
    rename_i m s hm hw
    rw [Option.map_eq_some_iff] at hs
    obtain ⟨⟨s', ro⟩, hstep, hs⟩ := hs
    cases hs
    refine work hw (inRange hw) ?_
    have hd := resolve_decreases addr (trackers m) s s' re ro hstep
    have hal : (if s'.peers.alive = true then 1 else 0) ≤ if s.peers.alive = true then 1 else 0 := by
      split
      · rename_i h
        rcases (resolve_touches hstep).1 with h1 | ⟨ev, o, h1⟩
        · rw [← h1, if_pos h]; exact Nat.le_refl _
        · rw [if_pos (alive_step h1 h)]; exact Nat.le_refl _
      · exact Nat.zero_le _
    rw [Prod.lex_def] at hd
    simp only [workWeight]
    rcases hd with hd | ⟨hd1, hd2⟩
    · exact .inl hd
    · exact .inr ⟨hd1, by omega⟩
  | ends w saved =>
    simp only at hs
    split at hs
    case h_2 => cases hs
    split at hs
    case h_2 => cases hs
    rw [Option.map_eq_some_iff] at hs
    obtain ⟨⟨b, bo⟩, hstep, hs⟩ := hs
    cases hs
    exact left (Nat.add_lt_add_right (dec hstep) _)
  | leftover n ne =>
    simp only at hs
    split at hs
    case h_2 => cases hs
    rename_i t ht
    split at hs
    case isFalse => cases hs
    rename_i hc
    rw [Bool.and_eq_true] at hc
    rw [Option.map_eq_some_iff] at hs
    obtain ⟨⟨p, po⟩, hstep, hs⟩ := hs
    cases hs
    exact work ht (inRange ht) (.inr (leftover_decreases hc.2 hstep))

/-- **C99.** There is no infinite run: a batch comes to its end if all that it waits for does. -/
theorem fleet_terminates (hj : 0 < jobs) {ms : List M} {tr : FleetTrace M T P D I ε} (fs : Nat → Fleet M T P A D I ε)
    (h0 : FleetRun addr trackers jobsT jobsP (some ms) jobs tr (fs 0)) :
    ¬ ∀ i, ∃ e out, (fs i).step addr trackers jobsT jobsP e = some (fs (i + 1), out) := by
  intro hall
  have hrun : ∀ i, ∃ tr, FleetRun addr trackers jobsT jobsP (some ms) jobs tr (fs i) := by
    intro i
    induction i with
    | zero => exact ⟨tr, h0⟩
    | succ i ih =>
      obtain ⟨tr, hr⟩ := ih
      obtain ⟨e, out, hs⟩ := hall i
      exact ⟨_, .step hr hs⟩
  have hwf : WellFounded (Prod.Lex (· < ·) (Prod.Lex (· < ·) (· < ·)) : Nat × Nat × Nat → Nat × Nat × Nat → Prop) :=
    (Prod.lex Nat.lt_wfRel (Prod.lex Nat.lt_wfRel Nat.lt_wfRel)).wf
  have key : ∀ x, ∀ i, fleetWeight ms.length (fs i) = x → False := by
    intro x
    induction x using hwf.induction with
    | _ x ih =>
      intro i hx
      obtain ⟨tr, hr⟩ := hrun i
      obtain ⟨e, out, hs⟩ := hall i
      exact ih _ (by rw [← hx]; exact fleet_decreases hj hr hs) (i + 1) rfl
  exact key _ 0 rfl

end

end Demag.Props
