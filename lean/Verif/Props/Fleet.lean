import Verif.Props.Resolve
import Verif.Props.Commands
import Verif.Spec.Fleet

/-!
# C99: the downloads of a batch, side by side
-/

namespace Demag.Props

open Demag Spec

/-! ### Nurseries -/

section
variable {J R : Type}

theorem runningJob_mem {s : Nursery J R} {n : Nat} {j : J} (h : runningJob s n = some j) : ∃ w : Nat, s.workers[w]? = some (.running n j) := by
  unfold runningJob at h
  obtain ⟨x, hx, hf⟩ := List.exists_of_findSome?_eq_some h
  obtain ⟨w, hw⟩ := List.getElem?_of_mem hx
  refine ⟨w, ?_⟩
  rw [hw]
  cases x with
  | running k i =>
    simp only at hf
    split at hf
    · rename_i hk; cases hf; rw [hk]
    · cases hf
  | _ => simp at hf

theorem runningJob_of {s : Nursery J R} {n w : Nat} {j : J} (h : s.workers[w]? = some (.running n j)) : ∃ i, runningJob s n = some i := by
  cases hr : runningJob s n with
  | some i => exact ⟨i, rfl⟩
  | none =>
    unfold runningJob at hr
    rw [List.findSome?_eq_none_iff] at hr
    have := hr _ (List.mem_of_getElem? h)
    simp at this

/-- A worker that runs a job goes on with it until it ends or is aborted. -/
theorem running_kept {s s' : Nursery J R} {e : NurseryEvent J R} {out : List (NurseryOutput J R)} (hs : s.step e = some (s', out))
    {w n : Nat} {j : J} (hw : s.workers[w]? = some (.running n j)) (hf : ∀ o, e ≠ .finish w o) (ha : ∀ v, e ≠ .abort v) :
    s'.workers[w]? = some (.running n j) := by
  have upd : ∀ (v : Nat) (x y : Worker J), s.workers[v]? = some x → (∀ n j, x ≠ .running n j) →
      (s.workers.set v y)[w]? = some (.running n j) := by
    intro v x y hv hx
    rw [List.getElem?_set]
    split
    · rename_i h; subst h; rw [hv] at hw; cases hw; exact absurd rfl (hx n j)
    · exact hw
  cases e with
  | spawn j =>
    simp only [Nursery.step] at hs
    split at hs
    · cases hs
    · split at hs <;> (cases hs; exact hw)
  | clone => simp only [Nursery.step] at hs; split at hs <;> cases hs; exact hw
  | dropHandle => simp only [Nursery.step] at hs; split at hs <;> cases hs; exact hw
  | close => simp only [Nursery.step] at hs; split at hs <;> cases hs; exact hw
  | setDone => simp only [Nursery.step] at hs; split at hs <;> cases hs; exact hw
  | take v =>
    simp only [Nursery.step] at hs
    split at hs
    · rename_i hv hq
      cases hs
      exact upd v _ _ hv (by simp)
    · cases hs
  | check v =>
    simp only [Nursery.step] at hs
    split at hs
    · rename_i hv
      split at hs <;> (cases hs; exact upd v _ _ hv (by simp))
    · cases hs
  | finish v o =>
    simp only [Nursery.step] at hs
    split at hs
    · have hne : v ≠ w := fun h => hf o (by rw [h])
      split at hs <;> (cases hs; simp only [List.getElem?_set, hne, if_false]; exact hw)
    · cases hs
  | exit v =>
    simp only [Nursery.step] at hs
    split at hs
    · rename_i hv hq
      split at hs
      · cases hs; exact upd v _ _ hv (by simp)
      · cases hs
    · cases hs
  | recv =>
    simp only [Nursery.step] at hs
    split at hs
    · split at hs
      · cases hs; exact hw
      · cases hs
    · cases hs
  | recvNone => simp only [Nursery.step] at hs; split at hs <;> cases hs; exact hw
  | dropStream => simp only [Nursery.step] at hs; split at hs <;> cases hs; exact hw
  | abort v => exact absurd rfl (ha v)

/-- The number of workers stays the same. -/
theorem step_workers {s s' : Nursery J R} {e : NurseryEvent J R} {out : List (NurseryOutput J R)} (hs : s.step e = some (s', out)) :
    s'.workers.length = s.workers.length := by
  cases e <;> simp only [Nursery.step] at hs <;>
    (repeat' split at hs) <;> first | (cases hs; done) | (cases hs; simp)

theorem busy_le (s : Nursery J R) : busy s ≤ s.workers.length := List.countP_le_length

end

section
variable {M : Type} {ms : List M} {jobs : Nat} {btr : List (BatchEvent × List (M × Outcome Bool))} {b b' : Batch M}

/-- The job numbered `n` is the download of link number `n`. -/
theorem batch_running (hj : 0 < jobs) (h : BatchRun (some ms) jobs btr b) {w n : Nat} {m : M}
    (hw : b.nursery.workers[w]? = some (.running n m)) : ms[n]? = some m := by
  by_cases hne : ms = []
  · subst hne
    obtain ⟨-, rfl⟩ := batch_exited (c := .success) rfl h
    simp only [Batch.start, Nursery.new, List.getElem?_replicate] at hw
    split at hw <;> simp at hw
  · obtain ⟨acc, d, ⟨ntr, L, hn, -, -, -, hacc, -⟩, h2, -⟩ := batch_inv hj hne h
    have hmem := (nursery_jobs hn).2 w n m (.inr hw)
    obtain ⟨i, hi⟩ := List.getElem?_of_mem hmem
    have h1 : ((acceptedJobs ntr).map Prod.fst)[i]? = some n := by rw [List.getElem?_map, hi]; rfl
    have h3 : ((acceptedJobs ntr).map Prod.snd)[i]? = some m := by rw [List.getElem?_map, hi]; rfl
    rw [(nursery_inv hn).accepted] at h1
    have : i = n := by
      rw [List.getElem?_eq_some_iff] at h1
      obtain ⟨_, h1⟩ := h1
      simpa using h1
    subst this
    rw [hacc] at h3
    rw [← h2, List.getElem?_append_left (List.getElem?_eq_some_iff.1 h3).1]
    exact h3

/-- What a step of the batch does to its workers. -/
theorem batch_kept {e : BatchEvent} {out : List (M × Outcome Bool)} (hs : b.step e = some (b', out)) {w n : Nat} {m : M}
    (hw : b.nursery.workers[w]? = some (.running n m)) (hf : ∀ o, e ≠ .ends w o) : b'.nursery.workers[w]? = some (.running n m) := by
  unfold Batch.step at hs
  split at hs
  · cases hs
  have quiet : ∀ {ev : NurseryEvent M Bool} {o : List (M × Outcome Bool)} {g : Nursery M Bool → Batch M}, (∀ n, (g n).nursery = n) →
      ((b.nursery.step ev).map fun r => (g r.1, o)) = some (b', out) →
      (∀ o, ev ≠ .finish w o) → (∀ v, ev ≠ .abort v) → b'.nursery.workers[w]? = some (.running n m) := by
    intro ev o g hg hs h1 h2
    rw [Option.map_eq_some_iff] at hs
    obtain ⟨⟨n, o⟩, hn, hs⟩ := hs
    cases hs
    rw [hg]
    exact running_kept hn hw h1 h2
  cases e with
  | spawn =>
    simp only at hs
    split at hs
    case h_2 => cases hs
    split at hs
    · rename_i hn
      cases hs
      exact running_kept hn hw (by simp) (by simp)
    · cases hs; exact hw
    · cases hs
  | dropHandle =>
    simp only at hs
    split at hs
    · exact quiet (g := fun n => { b with nursery := n, dropped := true }) (fun _ => rfl) hs (by simp) (by simp)
    · cases hs
  | take v => exact quiet (g := fun n => { b with nursery := n }) (fun _ => rfl) hs (by simp) (by simp)
  | check v => exact quiet (g := fun n => { b with nursery := n }) (fun _ => rfl) hs (by simp) (by simp)
  | workerExit v => exact quiet (g := fun n => { b with nursery := n }) (fun _ => rfl) hs (by simp) (by simp)
  | ends v o =>
    simp only at hs
    split at hs
    · refine quiet (g := fun n => { b with nursery := n }) (fun _ => rfl) hs ?_ (by simp)
      intro o' h
      cases h
      exact hf o rfl
    · cases hs
  | receive =>
    simp only at hs
    split at hs
    case isFalse => cases hs
    split at hs
    · rename_i hn; cases hs; exact running_kept hn hw (by simp) (by simp)
    · rename_i hn; cases hs; exact running_kept hn hw (by simp) (by simp)
    · cases hs
  | receiveNone =>
    simp only at hs
    split at hs
    case isFalse => cases hs
    split at hs
    · rename_i hn; cases hs; exact running_kept hn hw (by simp) (by simp)
    · cases hs

/-- Only the end of a download is observed. -/
theorem batch_quiet {e : BatchEvent} {out : List (M × Outcome Bool)} (hs : b.step e = some (b', out)) (he : ∀ w o, e ≠ .ends w o) : out = [] := by
  unfold Batch.step at hs
  split at hs
  · cases hs
  cases e with
  | ends w o => exact absurd rfl (he w o)
  | _ =>
    simp only at hs
    (repeat' split at hs) <;> first | (cases hs; done) | (cases hs; rfl) |
      (rw [Option.map_eq_some_iff] at hs; obtain ⟨r, -, hs⟩ := hs; cases hs; rfl)

theorem batch_ends {w : Nat} {o : Outcome Bool} {out : List (M × Outcome Bool)} (hs : b.step (.ends w o) = some (b', out)) {n : Nat} {m : M}
    (hw : b.nursery.workers[w]? = some (.running n m)) : out = [(m, o)] := by
  unfold Batch.step at hs
  split at hs
  · cases hs
  simp only [hw, Option.map_eq_some_iff] at hs
  obtain ⟨r, -, hs⟩ := hs
  cases hs
  rfl

end

/-! ### Each download alone -/

section
variable {M T P A D I ε : Type} [DecidableEq A] {addr : P → A} {trackers : M → List T} {jobsT jobsP : Nat} {jobs : Nat}

section
variable (tr : FleetTrace M T P D I ε) (e : FleetEvent P D I ε) (out : List (FleetOutput M T P D I ε))

theorem alone_snoc (n : Nat) : alone n (tr ++ [(e, out)]) = alone n tr ++ alone n [(e, out)] := by
  unfold alone; rw [List.filterMap_append]

theorem alone_goesOn (n k : Nat) (re : ResolveEvent P ε I) :
    alone n [((.goesOn k re : FleetEvent P D I ε), out)] = if k = n then [(re, out.filterMap outputOf)] else [] := by
  by_cases h : k = n <;> simp [alone, h]

theorem overs_snoc : overs (tr ++ [(e, out)]) = overs tr ++ out.filterMap overOf := by simp [overs]

theorem began_snoc (n : Nat) (m : M) : Began (tr ++ [(e, out)]) n m ↔ Began tr n m ∨ .began n m ∈ out := by simp [Began]

theorem over_snoc (n : Nat) (m : M) (o : Outcome Bool) : Over (tr ++ [(e, out)]) n m o ↔ Over tr n m o ∨ .over n m o ∈ out := by simp [Over]

theorem dhtSaid_snoc (n : Nat) (d : Except ε (List P × List D)) : DhtSaid (tr ++ [(e, out)]) n d ↔ DhtSaid tr n d ∨ e = .begins n d := by
  simp only [DhtSaid, List.mem_append, List.mem_singleton, Prod.mk.injEq]
  constructor
  · rintro ⟨o, h | ⟨h, -⟩⟩
    · exact .inl ⟨o, h⟩
    · exact .inr h.symm
  · rintro (⟨o, h⟩ | h)
    · exact ⟨o, .inl h⟩
    · exact ⟨out, .inr ⟨h.symm, rfl⟩⟩

theorem output_filterMap (n : Nat) (l : List (ResolveOutput T P D I ε)) :
    (l.map (FleetOutput.output (M := M) n)).filterMap outputOf = l := by
  induction l with
  | nil => rfl
  | cons x l ih => simp [outputOf, ih]

end

theorem endedWith_mono {tr : FleetTrace M T P D I ε} {n : Nat} {m : M} {o : Outcome Bool} {r : Resolved T D I ε} (h : EndedWith tr n m o r)
    (x : FleetEvent P D I ε × List (FleetOutput M T P D I ε)) : EndedWith (tr ++ [x]) n m o r := by
  obtain ⟨w, saved, h1, h2⟩ := h
  exact ⟨w, saved, List.mem_append_left _ h1, h2⟩

/-- What is left of a download after its result. -/
def LeftOf (s s0 : Resolve T P A D I ε) : Prop :=
  s = s0 ∨ s0.result.isSome = true ∧ s.result = s0.result ∧ s.trackers = s0.trackers ∧ s.peers.workers.length = s0.peers.workers.length

theorem LeftOf.result {s s0 : Resolve T P A D I ε} (h : LeftOf s s0) : s.result = s0.result := by
  rcases h with rfl | h
  · rfl
  · exact h.2.1

/-- What is known in the course of a batch with all its downloads. -/
structure FleetInv (addr : P → A) (trackers : M → List T) (jobsT jobsP : Nat) (ms : List M) (jobs : Nat) (tr : FleetTrace M T P D I ε)
    (f : Fleet M T P A D I ε) : Prop where
  batch : ∃ btr, BatchRun (some ms) jobs btr f.batch ∧ downloads btr = overs tr
  idle : ∀ n, f.work n = none → alone n tr = [] ∧ (∀ m, ¬ Began tr n m) ∧ (∀ d, ¬ DhtSaid tr n d) ∧ ∀ m o, ¬ Over tr n m o
  active : ∀ n s, f.work n = some s → ∃ m dht s0, ms[n]? = some m ∧ (∀ m', Began tr n m' ↔ m' = m) ∧ (∀ d, DhtSaid tr n d ↔ d = dht) ∧
    ResolveRun addr (trackers m) dht jobsT jobsP (alone n tr) s0 ∧ LeftOf s s0 ∧
    ((∃ w : Nat, f.batch.nursery.workers[w]? = some (.running n m)) ∨ ∃ o, Over tr n m o) ∧
    ∀ m' o, Over tr n m' o → m' = m ∧ ∃ r, s.result = some r ∧ EndedWith tr n m o r

theorem fleetInv_step (hj : 0 < jobs) {ms : List M} {tr : FleetTrace M T P D I ε} {f f' : Fleet M T P A D I ε} {e : FleetEvent P D I ε}
    {out : List (FleetOutput M T P D I ε)} (h : FleetInv addr trackers jobsT jobsP ms jobs tr f)
    (hs : f.step addr trackers jobsT jobsP e = some (f', out)) : FleetInv addr trackers jobsT jobsP ms jobs (tr ++ [(e, out)]) f' := by
  obtain ⟨⟨btr, hb, hdl⟩, hidle, hact⟩ := h
  have hrun : ∀ {w n : Nat} {m : M}, f.batch.nursery.workers[w]? = some (.running n m) → ms[n]? = some m := fun hw => batch_running hj hb hw
  unfold Fleet.step at hs
  split at hs
  · cases hs
  cases e with
  | batch be =>
    cases hbe : be with
    | ends w o => subst hbe; cases hs
    | _ =>
      subst hbe
      simp only [Option.map_eq_some_iff] at hs
      obtain ⟨⟨b, bo⟩, hstep, hs⟩ := hs
      cases hs
      have ho := batch_quiet hstep (by simp)
      refine ⟨⟨btr ++ [(_, bo)], .step hb hstep, ?_⟩, ?_, ?_⟩
      · rw [downloads_snoc, overs_snoc, hdl, ho]; simp
      · intro n hn
        have := hidle n hn
        simp only [alone_snoc, began_snoc, dhtSaid_snoc, over_snoc]
        simpa [alone] using this
      · intro n s hn
        obtain ⟨m, dht, s0, h1, h2, h3, h4, h5, h6, h7⟩ := hact n s hn
        refine ⟨m, dht, s0, h1, ?_, ?_, ?_, h5, ?_, ?_⟩
        · intro m'; rw [began_snoc]; simpa using h2 m'
        · intro d; rw [dhtSaid_snoc]; simpa using h3 d
        · rw [alone_snoc]; simpa [alone] using h4
        · rcases h6 with ⟨w, hw⟩ | ⟨o, ho⟩
          · exact .inl ⟨w, batch_kept hstep hw (by simp)⟩
          · exact .inr ⟨o, by rw [over_snoc]; exact .inl ho⟩
        · intro m' o ho'; rw [over_snoc] at ho'; obtain ⟨j1, r, j2, j3⟩ := h7 m' o (by simpa using ho'); exact ⟨j1, r, j2, endedWith_mono j3 _⟩
  | begins n dht =>
    simp only at hs
    split at hs
    case h_2 => cases hs
    rename_i m hm hw
    cases hs
    obtain ⟨w, hrw⟩ := runningJob_mem hm
    obtain ⟨i1, i2, i3, i4⟩ := hidle n hw
    refine ⟨⟨btr, hb, by rw [overs_snoc, hdl]; simp [overOf]⟩, ?_, ?_⟩
    · intro k hk
      simp only at hk
      split at hk
      · cases hk
      · rename_i hkn
        have := hidle k hk
        simp only [alone_snoc, began_snoc, dhtSaid_snoc, over_snoc]
        have hkn' : ¬ n = k := fun h => hkn h.symm
        simpa [alone, hkn, hkn'] using this
    · intro k s hk
      simp only at hk
      split at hk
      · rename_i hkn
        cases hk
        subst hkn
        refine ⟨m, dht, _, hrun hrw, ?_, ?_, ?_, .inl rfl, .inl ⟨w, hrw⟩, ?_⟩
        · intro m'; rw [began_snoc]; simp [i2 m']
        · intro d; rw [dhtSaid_snoc]
          simp only [FleetEvent.begins.injEq, true_and]
          exact ⟨fun h => h.elim (fun h => absurd h (i3 d)) Eq.symm, fun h => .inr h.symm⟩
        · rw [alone_snoc, i1]
          exact .init
        · intro m' o ho; rw [over_snoc] at ho; simp [i4 m' o] at ho
      · rename_i hkn
        have hkn' : ¬ n = k := fun h => hkn h.symm
        obtain ⟨m', dht', s0, h1, h2, h3, h4, h5, h6, h7⟩ := hact k s hk
        refine ⟨m', dht', s0, h1, ?_, ?_, ?_, h5, ?_, ?_⟩
        · intro m''; rw [began_snoc]; simpa [hkn] using h2 m''
        · intro d; rw [dhtSaid_snoc]; simpa [hkn'] using h3 d
        · rw [alone_snoc]; simpa [alone] using h4
        · rcases h6 with h6 | ⟨o, ho⟩
          · exact .inl h6
          · exact .inr ⟨o, by rw [over_snoc]; exact .inl ho⟩
        · intro m'' o ho'; rw [over_snoc] at ho'; obtain ⟨j1, r, j2, j3⟩ := h7 m'' o (by simpa using ho'); exact ⟨j1, r, j2, endedWith_mono j3 _⟩
  | goesOn n re =>
    simp only at hs
    split at hs
    case h_2 => cases hs
    rename_i m s hm hw
    rw [Option.map_eq_some_iff] at hs
    obtain ⟨⟨s', ro⟩, hstep, hs⟩ := hs
    cases hs
    obtain ⟨w, hrw⟩ := runningJob_mem hm
    have hobs : ∀ k x, (FleetOutput.began k x : FleetOutput M T P D I ε) ∉ ro.map (.output n) := by simp
    have hovr : ∀ k x o, (FleetOutput.over k x o : FleetOutput M T P D I ε) ∉ ro.map (.output n) := by simp
    have hov : (ro.map (FleetOutput.output (M := M) n)).filterMap overOf = [] := by
      rw [List.filterMap_eq_nil_iff]; simp [overOf]
    refine ⟨⟨btr, hb, by rw [overs_snoc, hdl, hov, List.append_nil]⟩, ?_, ?_⟩
    · intro k hk
      simp only at hk
      split at hk
      · cases hk
      · rename_i hkn
        have hkn' : ¬ n = k := fun h => hkn h.symm
        obtain ⟨i1, i2, i3, i4⟩ := hidle k hk
        refine ⟨?_, ?_, ?_, ?_⟩
        · rw [alone_snoc, alone_goesOn, if_neg hkn', i1]; rfl
        · intro m'; rw [began_snoc]; exact fun h => h.elim (i2 m') (hobs k m')
        · intro d; rw [dhtSaid_snoc]; exact fun h => h.elim (i3 d) (by simp)
        · intro m' o; rw [over_snoc]; exact fun h => h.elim (i4 m' o) (hovr k m' o)
    · intro k t hk
      simp only at hk
      split at hk
      · rename_i hkn
        cases hk
        subst hkn
        obtain ⟨m', dht', s0, h1, h2, h3, h4, h5, h6, h7⟩ := hact k s hw
        have hres : s.result = none := by
          cases hr : s.result with
          | none => rfl
          | some r => simp [Resolve.step, hr] at hstep
        have hm' : m' = m := by have := hrun hrw; rw [h1] at this; exact Option.some.inj this
        subst hm'
        have h50 : s = s0 := by
          rcases h5 with h5 | h5
          · exact h5
          · rw [← h5.2.1, hres] at h5; cases h5.1
        subst h50
        refine ⟨m', dht', _, h1, ?_, ?_, ?_, .inl rfl, ?_, ?_⟩
        · intro m''; rw [began_snoc, ← h2 m'']; exact ⟨fun h => h.elim id fun h => absurd h (hobs k m''), .inl⟩
        · intro d; rw [dhtSaid_snoc]; simpa using h3 d
        · rw [alone_snoc, alone_goesOn, if_pos rfl, output_filterMap]
          exact .step h4 hstep
        · rcases h6 with h6 | ⟨o, ho⟩
          · exact .inl h6
          · exact .inr ⟨o, by rw [over_snoc]; exact .inl ho⟩
        · intro m'' o ho'; rw [over_snoc] at ho'
          obtain ⟨-, r, hr, -⟩ := h7 m'' o (ho'.elim id fun h => absurd h (hovr k m'' o))
          rw [hres] at hr; cases hr
      · rename_i hkn
        have hkn' : ¬ n = k := fun h => hkn h.symm
        obtain ⟨m', dht', s0, h1, h2, h3, h4, h5, h6, h7⟩ := hact k t hk
        refine ⟨m', dht', s0, h1, ?_, ?_, ?_, h5, ?_, ?_⟩
        · intro m''; rw [began_snoc, ← h2 m'']; exact ⟨fun h => h.elim id fun h => absurd h (hobs k m''), .inl⟩
        · intro d; rw [dhtSaid_snoc]; simpa using h3 d
        · rw [alone_snoc, alone_goesOn, if_neg hkn', List.append_nil]; exact h4
        · rcases h6 with h6 | ⟨o, ho⟩
          · exact .inl h6
          · exact .inr ⟨o, by rw [over_snoc]; exact .inl ho⟩
        · intro m'' o ho'; rw [over_snoc] at ho'; obtain ⟨j1, r, j2, j3⟩ := h7 m'' o (ho'.elim id fun h => absurd h (hovr k m'' o)); exact ⟨j1, r, j2, endedWith_mono j3 _⟩
  | ends w saved =>
    simp only at hs
    split at hs
    case h_2 => cases hs
    rename_i n m hw
    split at hs
    case h_2 => cases hs
    rename_i r hr
    rw [Option.map_eq_some_iff] at hs
    obtain ⟨⟨b, bo⟩, hstep, hs⟩ := hs
    cases hs
    have hbo := batch_ends hstep hw
    rw [Option.bind_eq_some_iff] at hr
    obtain ⟨t, ht, hr⟩ := hr
    refine ⟨⟨btr ++ [(_, bo)], .step hb hstep, by rw [downloads_snoc, overs_snoc, hdl, hbo]; rfl⟩, ?_, ?_⟩
    · intro k hk
      have hkn : ¬ k = n := by rintro rfl; rw [ht] at hk; cases hk
      obtain ⟨i1, i2, i3, i4⟩ := hidle k hk
      refine ⟨by rw [alone_snoc, i1]; rfl, ?_, ?_, ?_⟩
      · intro m'; rw [began_snoc]; exact fun h => h.elim (i2 m') (by simp)
      · intro d; rw [dhtSaid_snoc]; exact fun h => h.elim (i3 d) (by simp)
      · intro m' o; rw [over_snoc]; exact fun h => h.elim (i4 m' o) (by simp [hkn])
    · intro k s hk
      obtain ⟨m', dht', s0, h1, h2, h3, h4, h5, h6, h7⟩ := hact k s hk
      refine ⟨m', dht', s0, h1, ?_, ?_, ?_, h5, ?_, ?_⟩
      · intro m''; rw [began_snoc]; simpa using h2 m''
      · intro d; rw [dhtSaid_snoc]; simpa using h3 d
      · rw [alone_snoc]; simpa [alone] using h4
      · rcases h6 with ⟨v, hv⟩ | ⟨o, ho⟩
        · by_cases hvw : v = w
          · subst hvw
            rw [hw] at hv
            cases hv
            exact .inr ⟨_, by rw [over_snoc]; exact .inr (by simp; rfl)⟩
          · exact .inl ⟨v, batch_kept hstep hv (by intro o h; cases h; exact hvw rfl)⟩
        · exact .inr ⟨o, by rw [over_snoc]; exact .inl ho⟩
      · intro m'' o ho'
        rw [over_snoc] at ho'
        rcases ho' with ho' | ho'
        · obtain ⟨j1, r, j2, j3⟩ := h7 m'' o ho'
          exact ⟨j1, r, j2, endedWith_mono j3 _⟩
        · simp only [List.mem_singleton, FleetOutput.over.injEq] at ho'
          obtain ⟨rfl, rfl, rfl⟩ := ho'
          rw [ht] at hk
          cases hk
          have := hrun hw
          rw [h1] at this
          refine ⟨(Option.some.inj this).symm, r, hr, w, saved, ?_, ?_⟩
          · rw [Option.some.inj this]; simp
          · cases r <;> rfl
  | leftover n ne =>
    simp only at hs
    split at hs
    case h_2 => cases hs
    rename_i t ht
    split at hs
    case isFalse => cases hs
    rename_i hc
    rw [Bool.and_eq_true] at hc
    rw [Option.map_eq_some_iff] at hs
    obtain ⟨⟨p, po⟩, hstep, hs⟩ := hs
    cases hs
    refine ⟨⟨btr, hb, by rw [overs_snoc, hdl]; simp⟩, ?_, ?_⟩
    · intro k hk
      simp only at hk
      split at hk
      · cases hk
      · obtain ⟨i1, i2, i3, i4⟩ := hidle k hk
        refine ⟨by rw [alone_snoc, i1]; rfl, ?_, ?_, ?_⟩
        · intro m'; rw [began_snoc]; exact fun h => h.elim (i2 m') (by simp)
        · intro d; rw [dhtSaid_snoc]; exact fun h => h.elim (i3 d) (by simp)
        · intro m' o; rw [over_snoc]; exact fun h => h.elim (i4 m' o) (by simp)
    · intro k s hk
      simp only at hk
      have hold : ∃ s1, f.work k = some s1 ∧ s.result = s1.result ∧ ∀ s0, LeftOf s1 s0 → LeftOf s s0 := by
        split at hk
        · rename_i hkn
          cases hk
          subst hkn
          refine ⟨t, ht, rfl, ?_⟩
          have hl := step_workers hstep
          rintro s0 (rfl | ⟨h1, h2, h3, h4⟩)
          · exact .inr ⟨hc.1, rfl, rfl, hl⟩
          · exact .inr ⟨h1, h2, h3, hl.trans h4⟩
        · exact ⟨s, hk, rfl, fun _ h => h⟩
      obtain ⟨s1, hk1, hres, hleft⟩ := hold
      obtain ⟨m', dht', s0, h1, h2, h3, h4, h5, h6, h7⟩ := hact k s1 hk1
      refine ⟨m', dht', s0, h1, ?_, ?_, ?_, hleft s0 h5, ?_, ?_⟩
      · intro m''; rw [began_snoc]; simpa using h2 m''
      · intro d; rw [dhtSaid_snoc]; simpa using h3 d
      · rw [alone_snoc]; simpa [alone] using h4
      · rcases h6 with h6 | ⟨o, ho⟩
        · exact .inl h6
        · exact .inr ⟨o, by rw [over_snoc]; exact .inl ho⟩
      · intro m'' o ho'; rw [over_snoc] at ho'; rw [hres]; obtain ⟨j1, r, j2, j3⟩ := h7 m'' o (by simpa using ho'); exact ⟨j1, r, j2, endedWith_mono j3 _⟩

theorem fleet_inv (hj : 0 < jobs) {ms : List M} {tr : FleetTrace M T P D I ε} {f : Fleet M T P A D I ε}
    (h : FleetRun addr trackers jobsT jobsP (some ms) jobs tr f) : FleetInv addr trackers jobsT jobsP ms jobs tr f := by
  induction h with
  | init =>
    refine ⟨⟨[], .init, rfl⟩, ?_, ?_⟩
    · intro n _
      refine ⟨rfl, ?_, ?_, ?_⟩
      · simp [Began]
      · simp [DhtSaid]
      · simp [Over]
    · intro n s hn
      cases hn
  | step _ hs ih => exact fleetInv_step hj ih hs

/-- **C99.** Without a list of magnet links, or with an empty one, nothing happens. -/
theorem fleet_nothing {tr : FleetTrace M T P D I ε} {f : Fleet M T P A D I ε} {magnets : Option (List M)}
    (h : FleetRun addr trackers jobsT jobsP magnets jobs tr f) (hm : magnets = none ∨ magnets = some []) : tr = [] := by
  have : tr = [] ∧ f = Fleet.start magnets jobs := by
    induction h with
    | init => exact ⟨rfl, rfl⟩
    | step _ hs ih =>
      obtain ⟨rfl, rfl⟩ := ih
      rcases hm with rfl | rfl <;> simp [Fleet.step, Fleet.start, Batch.start] at hs
  exact this.1

/-- **C99.** Whatever else goes on, a download of a batch goes as the download of its link alone could go, and ends as that does; download number
`n` is that of link number `n`. -/
theorem fleet_alone (hj : 0 < jobs) {ms : List M} {tr : FleetTrace M T P D I ε} {f : Fleet M T P A D I ε}
    (h : FleetRun addr trackers jobsT jobsP (some ms) jobs tr f) {n : Nat} {m : M} (hb : Began tr n m) :
    ms[n]? = some m ∧ ∃ dht s, (∀ d, DhtSaid tr n d ↔ d = dht) ∧ ResolveRun addr (trackers m) dht jobsT jobsP (alone n tr) s ∧
      s.result = (f.work n).bind Resolve.result ∧
      ∀ m' o, Over tr n m' o → m' = m ∧ ∃ r, s.result = some r ∧ EndedWith tr n m o r := by
  have hi := fleet_inv hj h
  cases hw : f.work n with
  | none => exact absurd hb ((hi.idle n hw).2.1 m)
  | some s =>
    obtain ⟨m', dht, s0, h1, h2, h3, h4, h5, -, h7⟩ := hi.active n s hw
    have := (h2 m).1 hb
    subst this
    exact ⟨h1, dht, s0, h3, h4, by rw [← h5.result]; rfl, by rw [← h5.result]; exact h7⟩

/-- **C99.** Nothing happens in a download before it begins. -/
theorem fleet_unbegun (hj : 0 < jobs) {ms : List M} {tr : FleetTrace M T P D I ε} {f : Fleet M T P A D I ε}
    (h : FleetRun addr trackers jobsT jobsP (some ms) jobs tr f) {n : Nat} (hb : ∀ m, ¬ Began tr n m) :
    alone n tr = [] ∧ ∀ m o, ¬ Over tr n m o := by
  have hi := fleet_inv hj h
  cases hw : f.work n with
  | none => exact ⟨(hi.idle n hw).1, (hi.idle n hw).2.2.2⟩
  | some s =>
    obtain ⟨m, _, _, -, h2, -⟩ := hi.active n s hw
    exact absurd ((h2 m).2 rfl) (hb m)

/-- **C99.** The batch itself goes as in C20, its downloads ending as they do here. -/
theorem fleet_batch (hj : 0 < jobs) {ms : List M} {tr : FleetTrace M T P D I ε} {f : Fleet M T P A D I ε}
    (h : FleetRun addr trackers jobsT jobsP (some ms) jobs tr f) :
    ∃ btr, BatchRun (some ms) jobs btr f.batch ∧ downloads btr = overs tr := (fleet_inv hj h).batch

theorem resolveRun_unsnoc {all : List T} {dht : Except ε (List P × List D)} {tr : ResolveTrace T P D I ε} {e : ResolveEvent P ε I}
    {out : List (ResolveOutput T P D I ε)} {s' : Resolve T P A D I ε} (h : ResolveRun addr all dht jobsT jobsP (tr ++ [(e, out)]) s') :
    ∃ s, ResolveRun addr all dht jobsT jobsP tr s ∧ s.step addr all e = some (s', out) := by
  generalize ht : tr ++ [(e, out)] = t at h
  cases h with
  | init => simp at ht
  | step hr hs =>
    obtain ⟨rfl, hx⟩ := List.append_inj' ht rfl
    cases hx
    exact ⟨_, hr, hs⟩

theorem resolveRun_unique {all : List T} {dht : Except ε (List P × List D)} {tr : ResolveTrace T P D I ε} {s s' : Resolve T P A D I ε}
    (h : ResolveRun addr all dht jobsT jobsP tr s) (h' : ResolveRun addr all dht jobsT jobsP tr s') : s = s' := by
  induction h generalizing s' with
  | init =>
    generalize ht : ([] : ResolveTrace T P D I ε) = t at h'
    cases h' with
    | init => rfl
    | step _ _ => simp at ht
  | step _ hs ih =>
    obtain ⟨s1, h1, h2⟩ := resolveRun_unsnoc h'
    rw [← ih h1, hs] at h2
    cases h2
    rfl

/-- **C99.** Nor do the others hold a download up: whatever could happen next in the download of the link alone can happen next here. -/
theorem fleet_together (hj : 0 < jobs) {ms : List M} {tr : FleetTrace M T P D I ε} {f : Fleet M T P A D I ε}
    (h : FleetRun addr trackers jobsT jobsP (some ms) jobs tr f) (hx : f.batch.exit = none) {n : Nat} (hp : InProgress tr n) {m : M}
    (hb : Began tr n m) {d : Except ε (List P × List D)} (hd : DhtSaid tr n d) {e : ResolveEvent P ε I} {out : List (ResolveOutput T P D I ε)}
    {s' : Resolve T P A D I ε} (hr : ResolveRun addr (trackers m) d jobsT jobsP (alone n tr ++ [(e, out)]) s') :
    ∃ f', FleetRun addr trackers jobsT jobsP (some ms) jobs (tr ++ [(.goesOn n e, out.map (.output n))]) f' := by
  have hi := fleet_inv hj h
  obtain ⟨s1, hr1, hs1⟩ := resolveRun_unsnoc hr
  cases hw : f.work n with
  | none => exact absurd hb ((hi.idle n hw).2.1 m)
  | some s =>
    obtain ⟨m', dht, s0, h1, h2, h3, h4, h5, h6, -⟩ := hi.active n s hw
    have := (h2 m).1 hb
    subst this
    have := (h3 d).1 hd
    subst this
    have := resolveRun_unique h4 hr1
    subst this
    have hres : s0.result = none := by
      cases hr : s0.result with
      | none => rfl
      | some r => simp [Resolve.step, hr] at hs1
    have h50 : s = s0 := by
      rcases h5 with h5 | h5
      · exact h5
      · rw [hres] at h5; cases h5.1
    subst h50
    rcases h6 with ⟨w, hrw⟩ | ⟨o, ho⟩
    · obtain ⟨i, hri⟩ := runningJob_of hrw
      obtain ⟨v, hv⟩ := runningJob_mem hri
      obtain ⟨btr, hbr, -⟩ := hi.batch
      have := batch_running hj hbr hv
      rw [h1] at this
      cases this
      refine ⟨_, .step h (f' := { f with work := fun k => if k = n then some s' else f.work k }) ?_⟩
      simp [Fleet.step, hx, hri, hw, hs1]
    · exact absurd ho (hp.2 m o)

/-! ### Events of different downloads -/

/-- What an event of download `n` does, from what the download works on. -/
def ownStep (addr : P → A) (trackers : M → List T) (jobsT jobsP : Nat) (n : Nat) (job : Option M) (s : Option (Resolve T P A D I ε)) :
    FleetEvent P D I ε → Option (Resolve T P A D I ε × List (FleetOutput M T P D I ε))
  | .begins _ dht => match job, s with
    | some m, none => some (Resolve.start (trackers m) dht jobsT jobsP, [.began n m])
    | _, _ => none
  | .goesOn _ e => match job, s with
    | some m, some s => (s.step addr (trackers m) e).map fun r => (r.1, r.2.map (.output n))
    | _, _ => none
  | .leftover _ e => match s with
    | some s => if s.result.isSome && e.afterDrop then (s.peers.step e).map fun r => ({ s with peers := r.1 }, []) else none
    | none => none
  | _ => none

/-- What download `n` works on is replaced. -/
def Fleet.put (f : Fleet M T P A D I ε) (n : Nat) (s : Resolve T P A D I ε) : Fleet M T P A D I ε :=
  { f with work := fun k => if k = n then some s else f.work k }

theorem step_own {n : Nat} {e : FleetEvent P D I ε} (ho : OfDownload n e) (f : Fleet M T P A D I ε) :
    f.step addr trackers jobsT jobsP e = if f.batch.exit.isSome then none else
      (ownStep addr trackers jobsT jobsP n (runningJob f.batch.nursery n) (f.work n) e).map fun r => (Fleet.put f n r.1, r.2) := by
  unfold Fleet.step
  split
  · rfl
  cases e with
  | batch _ => cases ho
  | ends _ _ => cases ho
  | begins k d =>
    cases ho
    cases h1 : runningJob f.batch.nursery n <;> cases h2 : f.work n <;> simp [ownStep, Fleet.put, h1, h2]
  | goesOn k e =>
    cases ho
    cases h1 : runningJob f.batch.nursery n with
    | none => simp [ownStep, h1]
    | some m =>
      cases h2 : f.work n with
      | none => simp [ownStep, h1, h2]
      | some s => simp only [ownStep, h1, h2, Option.map_map]; rfl
  | leftover k e =>
    cases ho
    cases h2 : f.work n with
    | none => simp [ownStep, h2]
    | some s =>
      simp only [ownStep, h2]
      split
      · simp only [Option.map_map]; rfl
      · rfl

theorem put_comm (f : Fleet M T P A D I ε) {n k : Nat} (h : n ≠ k) (s t : Resolve T P A D I ε) :
    Fleet.put (Fleet.put f n s) k t = Fleet.put (Fleet.put f k t) n s := by
  simp only [Fleet.put, Fleet.mk.injEq, true_and]
  funext j
  by_cases h1 : j = k
  · subst h1
    have : ¬ j = n := fun hh => h hh.symm
    simp [this]
  · simp [h1]

/-- A step of download `n` in the fleet. -/
theorem step_own_some {n : Nat} {e : FleetEvent P D I ε} (ho : OfDownload n e) {f f' : Fleet M T P A D I ε} {out : List (FleetOutput M T P D I ε)} :
    f.step addr trackers jobsT jobsP e = some (f', out) ↔ f.batch.exit = none ∧
      ∃ s, ownStep addr trackers jobsT jobsP n (runningJob f.batch.nursery n) (f.work n) e = some (s, out) ∧ f' = Fleet.put f n s := by
  rw [step_own ho]
  constructor
  · intro h
    split at h
    · cases h
    rename_i hx
    rw [Option.map_eq_some_iff] at h
    obtain ⟨⟨s, o⟩, h1, h2⟩ := h
    cases h2
    exact ⟨by simpa using hx, s, h1, rfl⟩
  · rintro ⟨hx, s, h1, rfl⟩
    rw [h1, hx]
    rfl

theorem fleetRun_unsnoc {magnets : Option (List M)} {tr : FleetTrace M T P D I ε} {e : FleetEvent P D I ε} {out : List (FleetOutput M T P D I ε)}
    {f' : Fleet M T P A D I ε} (h : FleetRun addr trackers jobsT jobsP magnets jobs (tr ++ [(e, out)]) f') :
    ∃ f, FleetRun addr trackers jobsT jobsP magnets jobs tr f ∧ f.step addr trackers jobsT jobsP e = some (f', out) := by
  generalize ht : tr ++ [(e, out)] = t at h
  cases h with
  | init => simp at ht
  | step hr hs =>
    obtain ⟨rfl, hx⟩ := List.append_inj' ht rfl
    cases hx
    exact ⟨_, hr, hs⟩

/-- **C99.** In which order two things happen in two different downloads makes no difference. -/
theorem fleet_swap {magnets : Option (List M)} {tr : FleetTrace M T P D I ε} {f : Fleet M T P A D I ε} {n k : Nat} (hnk : n ≠ k)
    {e e' : FleetEvent P D I ε} {o o' : List (FleetOutput M T P D I ε)} (he : OfDownload n e) (he' : OfDownload k e')
    (h : FleetRun addr trackers jobsT jobsP magnets jobs (tr ++ [(e, o), (e', o')]) f) :
    FleetRun addr trackers jobsT jobsP magnets jobs (tr ++ [(e', o'), (e, o)]) f := by
  have h' : FleetRun addr trackers jobsT jobsP magnets jobs ((tr ++ [(e, o)]) ++ [(e', o')]) f := by simpa using h
  obtain ⟨f1, h1, hs1⟩ := fleetRun_unsnoc h'
  obtain ⟨f0, h0, hs0⟩ := fleetRun_unsnoc h1
  rw [step_own_some he] at hs0
  rw [step_own_some he'] at hs1
  obtain ⟨hx, s, hs, rfl⟩ := hs0
  obtain ⟨-, t, ht, rfl⟩ := hs1
  have e1 : (Fleet.put f0 n s).work k = f0.work k := by simp [Fleet.put, hnk.symm]
  have e2 : (Fleet.put f0 k t).work n = f0.work n := by simp [Fleet.put, hnk]
  rw [e1] at ht
  have g1 : FleetRun addr trackers jobsT jobsP magnets jobs (tr ++ [(e', o')]) (Fleet.put f0 k t) :=
    .step h0 ((step_own_some he').2 ⟨hx, t, ht, rfl⟩)
  have g2 : FleetRun addr trackers jobsT jobsP magnets jobs ((tr ++ [(e', o')]) ++ [(e, o)]) (Fleet.put (Fleet.put f0 k t) n s) :=
    .step g1 ((step_own_some he).2 ⟨hx, s, by rw [e2]; exact hs, rfl⟩)
  rw [put_comm f0 hnk]
  simpa using g2

end

end Demag.Props
