import Verif.Lemmas.Follows
import Verif.Spec.Resolve

/-!
# C20: exit statuses
-/

namespace Demag.Props

open Demag Spec

variable {T P D I ε M : Type}

theorem downloads_snoc (tr : List (BatchEvent × List (M × Outcome Bool))) (e : BatchEvent) (out : List (M × Outcome Bool)) :
    downloads (tr ++ [(e, out)]) = downloads tr ++ out := by simp [downloads]

/-- What is known in the course of a batch. -/
def BatchInv (ms : List M) (jobs : Nat) (dl : List (M × Outcome Bool)) (s : Batch M) : Prop :=
  ∃ acc d, Follows jobs s.nursery acc dl d ∧ acc ++ s.todo = ms ∧
    s.nursery.handles = (if s.dropped then 0 else 1) ∧ (s.dropped = true → s.todo = []) ∧
    (s.exit = none → (∀ x ∈ dl.take d, x.2 ≠ .panic) ∧ s.total = d ∧ s.success = (dl.take d).countP (fun x => x.2 = .value true)) ∧
    (s.exit = some .crash → ∃ m, (m, .panic) ∈ dl) ∧
    (s.exit = some .success → (dl.map Prod.fst).Perm ms ∧ ∀ x ∈ dl, x.2 = .value true) ∧
    (s.exit = some .failure → (dl.map Prod.fst).Perm ms ∧ (∀ x ∈ dl, x.2 ≠ .panic) ∧ ∃ x ∈ dl, x.2 = .value false)

theorem batchInv_step {ms : List M} {jobs : Nat} {dl : List (M × Outcome Bool)} {s s' : Batch M} {e : BatchEvent}
    {out : List (M × Outcome Bool)} (hj : 0 < jobs) (h : BatchInv ms jobs dl s) (hs : s.step e = some (s', out)) :
    BatchInv ms jobs (dl ++ out) s' := by
  obtain ⟨acc, d, h1, h2, h3, h4, h5, h6, h7, h8⟩ := h
  unfold Batch.step at hs
  split at hs
  · cases hs
  rename_i hex
  have hex' : s.exit = none := by simpa using hex
  obtain ⟨h5a, h5b, h5c⟩ := h5 hex'
  have hle := follows_le h1
  -- a quiet step of the nursery
  have quiet : ∀ {ev : NurseryEvent M Bool}, ((s.nursery.step ev).map fun r => ({ s with nursery := r.1 }, ([] : List (M × Outcome Bool))))
      = some (s', out) → (∀ n o, s.nursery.step ev = some (n, o) → Follows jobs n acc dl d ∧ n.handles = s.nursery.handles) →
      BatchInv ms jobs (dl ++ out) s' := by
    intro ev hs hq
    rw [Option.map_eq_some_iff] at hs
    obtain ⟨⟨n, o⟩, hn, hs⟩ := hs
    simp only [Prod.mk.injEq] at hs
    obtain ⟨rfl, rfl⟩ := hs
    obtain ⟨hf, hh⟩ := hq n o hn
    rw [List.append_nil]
    exact ⟨acc, d, hf, h2, by rw [hh]; exact h3, h4, fun _ => ⟨h5a, h5b, h5c⟩, h6, h7, h8⟩
  cases e with
  | spawn =>
    simp only at hs
    split at hs
    case h_2 => cases hs
    rename_i m rest htodo
    have hnd : s.dropped = false := by
      cases hd : s.dropped with
      | false => rfl
      | true => rw [h4 hd] at htodo; cases htodo
    have hh : s.nursery.handles ≠ 0 := by rw [h3, hnd]; simp
    split at hs
    · rename_i n k j hn
      obtain ⟨-, hf, hh'⟩ := follows_spawn h1 hh hn
      cases hs
      rw [List.append_nil]
      exact ⟨acc ++ [m], d, hf, by rw [← h2, htodo]; simp, by rw [hh']; exact h3, by simp [hnd], fun _ => ⟨h5a, h5b, h5c⟩, h6,
        h7, h8⟩
    · rename_i n o hne hn
      obtain ⟨⟨k, rfl⟩, -⟩ := follows_spawn h1 hh hn
      exact absurd rfl (fun h => hne k m h)
    · cases hs
  | dropHandle =>
    simp only at hs
    split at hs
    case isFalse => cases hs
    rename_i hc
    simp only [Bool.and_eq_true, List.isEmpty_iff, Bool.not_eq_true'] at hc
    rw [Option.map_eq_some_iff] at hs
    obtain ⟨⟨n, o⟩, hn, hs⟩ := hs
    simp only [Prod.mk.injEq] at hs
    obtain ⟨rfl, rfl⟩ := hs
    obtain ⟨hf, hh⟩ := follows_dropHandle h1 hn
    rw [List.append_nil]
    exact ⟨acc, d, hf, h2, by rw [hh, h3, hc.2]; rfl, fun _ => hc.1, fun _ => ⟨h5a, h5b, h5c⟩, h6, h7, h8⟩
  | take w => exact quiet hs fun n o hn => follows_take h1 hn
  | check w => exact quiet hs fun n o hn => follows_check h1 hn
  | workerExit w => exact quiet hs fun n o hn => follows_exit h1 hn
  | ends w o =>
    simp only at hs
    split at hs
    case h_2 => cases hs
    rename_i k m hw
    rw [Option.map_eq_some_iff] at hs
    obtain ⟨⟨n, o'⟩, hn, hs⟩ := hs
    simp only [Prod.mk.injEq] at hs
    obtain ⟨rfl, rfl⟩ := hs
    obtain ⟨hf, hh⟩ := follows_finish h1 hw hn
    refine ⟨acc, d, hf, h2, by rw [hh]; exact h3, h4, fun _ => ?_, ?_, ?_, ?_⟩
    · rw [List.take_append_of_le_length hle]; exact ⟨h5a, h5b, h5c⟩
    · intro hc; rw [hex'] at hc; cases hc
    · intro hc; rw [hex'] at hc; cases hc
    · intro hc; rw [hex'] at hc; cases hc
  | receive =>
    simp only at hs
    split at hs
    case isFalse => cases hs
    split at hs
    · rename_i n k b hn
      obtain ⟨⟨k', m, o, ho, hget⟩, hf, hh⟩ := follows_recv h1 hn
      simp only [List.cons.injEq, NurseryOutput.delivered.injEq, and_true] at ho
      obtain ⟨rfl, rfl⟩ := ho
      cases hs
      rw [List.append_nil]
      have htake : dl.take (d + 1) = dl.take d ++ [(m, .value b)] := by
        rw [List.take_add_one, hget]; rfl
      refine ⟨acc, d + 1, hf, h2, by rw [hh]; exact h3, h4, fun _ => ⟨?_, by rw [← h5b], ?_⟩, ?_, ?_, ?_⟩
      · intro x hx
        rw [htake, List.mem_append] at hx
        rcases hx with hx | hx
        · exact h5a x hx
        · rw [List.mem_singleton] at hx; subst hx; simp
      · show (if b = true then s.success + 1 else s.success) = _
        rw [htake, List.countP_append, ← h5c]
        cases b <;> simp
      · intro hc; simp only [hex'] at hc; cases hc
      · intro hc; simp only [hex'] at hc; cases hc
      · intro hc; simp only [hex'] at hc; cases hc
    · rename_i n k hn
      obtain ⟨⟨k', m, o, ho, hget⟩, hf, hh⟩ := follows_recv h1 hn
      simp only [List.cons.injEq, NurseryOutput.delivered.injEq, and_true] at ho
      obtain ⟨rfl, rfl⟩ := ho
      cases hs
      rw [List.append_nil]
      refine ⟨acc, d + 1, hf, h2, by rw [hh]; exact h3, h4, by simp, fun _ => ⟨m, List.mem_of_getElem? hget⟩, by simp, by simp⟩
    · cases hs
  | receiveNone =>
    simp only at hs
    split at hs
    case isFalse => cases hs
    rename_i hdr
    split at hs
    case h_2 => cases hs
    rename_i n o hn
    obtain ⟨rfl, hd, hp, hh⟩ := follows_recvNone hj h1 hn
    cases hs
    rw [List.append_nil]
    have hms : acc = ms := by rw [← h2, h4 hdr, List.append_nil]
    rw [hd, List.take_length] at h5a h5c
    refine ⟨acc, d, h1, h2, h3, h4, by simp, ?_, ?_, ?_⟩
    · simp only [Option.some.injEq]
      intro hc
      split at hc <;> cases hc
    · simp only [Option.some.injEq]
      intro hc
      split at hc
      · rename_i he
        refine ⟨by rw [← hms]; exact hp, ?_⟩
        rw [h5c, h5b, hd, List.countP_eq_length] at he
        intro x hx
        simpa using he x hx
      · cases hc
    · simp only [Option.some.injEq]
      intro hc
      split at hc
      · cases hc
      · rename_i he
        refine ⟨by rw [← hms]; exact hp, h5a, ?_⟩
        rw [h5c, h5b, hd, List.countP_eq_length] at he
        simp only [decide_eq_true_eq, not_forall] at he
        obtain ⟨x, hx, hne⟩ := he
        refine ⟨x, hx, ?_⟩
        have := h5a x hx
        cases hx2 : x.2 with
        | panic => exact absurd hx2 this
        | value b =>
          cases b with
          | true => exact absurd hx2 hne
          | false => rfl

theorem batch_inv {ms : List M} {jobs : Nat} {tr : List (BatchEvent × List (M × Outcome Bool))} {s : Batch M} (hj : 0 < jobs)
    (hne : ms ≠ []) (h : BatchRun (some ms) jobs tr s) : BatchInv ms jobs (downloads tr) s := by
  induction h with
  | init =>
    cases ms with
    | nil => exact absurd rfl hne
    | cons m ms =>
      refine ⟨[], 0, follows_new jobs, by simp [Batch.start], rfl, by simp [Batch.start], ?_, by simp [Batch.start],
        by simp [Batch.start], by simp [Batch.start]⟩
      intro _
      exact ⟨by simp, rfl, by simp [Batch.start]⟩
  | step hr hs ih =>
    rw [downloads_snoc]
    exact batchInv_step hj ih hs

theorem batch_exited {magnets : Option (List M)} {jobs : Nat} {tr : List (BatchEvent × List (M × Outcome Bool))} {s : Batch M}
    {c : ExitCode} (hc : (Batch.start magnets jobs).exit = some c) (h : BatchRun magnets jobs tr s) :
    tr = [] ∧ s = Batch.start magnets jobs := by
  induction h with
  | init => exact ⟨rfl, rfl⟩
  | step hr hs ih =>
    obtain ⟨rfl, rfl⟩ := ih
    simp [Batch.step, hc] at hs

/-- **C20.** In every schedule, the batch command exits successfully only if the list of magnet links could be read and the
download of every one of them succeeded (each exactly once); it exits with a failure only if the list could not be read or some
download failed; and it crashes only if a download did. -/
theorem batch_exit {magnets : Option (List M)} {jobs : Nat} {tr : List (BatchEvent × List (M × Outcome Bool))} {s : Batch M}
    (hj : 0 < jobs) (h : BatchRun magnets jobs tr s) :
    (s.exit = some .success → ∃ ms, magnets = some ms ∧ ((downloads tr).map Prod.fst).Perm ms ∧
      ∀ x ∈ downloads tr, x.2 = .value true) ∧
    (s.exit = some .failure → magnets = none ∨
      ∃ ms, magnets = some ms ∧ ((downloads tr).map Prod.fst).Perm ms ∧ ∃ m, (m, .value false) ∈ downloads tr) ∧
    (s.exit = some .crash → ∃ m, (m, .panic) ∈ downloads tr) := by
  cases magnets with
  | none =>
    obtain ⟨rfl, rfl⟩ := batch_exited (c := .failure) rfl h
    simp [Batch.start]
  | some ms =>
    by_cases hne : ms = []
    · subst hne
      obtain ⟨rfl, rfl⟩ := batch_exited (c := .success) rfl h
      simp [Batch.start, downloads]
    · obtain ⟨acc, d, -, -, -, -, -, h6, h7, h8⟩ := batch_inv hj hne h
      refine ⟨fun hc => ⟨ms, rfl, h7 hc⟩, fun hc => .inr ⟨ms, rfl, (h8 hc).1, ?_⟩, h6⟩
      obtain ⟨x, hx, hv⟩ := (h8 hc).2.2
      exact ⟨x.1, by rw [← hv]; exact hx⟩

/-- **C20.** And in every schedule it goes on until it exits, given that downloads end. -/
theorem batch_progress {magnets : Option (List M)} {jobs : Nat} {tr : List (BatchEvent × List (M × Outcome Bool))} {s : Batch M}
    (hj : 0 < jobs) (h : BatchRun magnets jobs tr s) (he : s.exit = none) (ends : M → Outcome Bool) :
    ∃ e s' out, s.step e = some (s', out) ∧ ∀ x ∈ out, x.2 = ends x.1 := by
  cases magnets with
  | none =>
    obtain ⟨rfl, rfl⟩ := batch_exited (c := .failure) rfl h
    simp [Batch.start] at he
  | some ms =>
    by_cases hne : ms = []
    · subst hne
      obtain ⟨rfl, rfl⟩ := batch_exited (c := .success) rfl h
      simp [Batch.start] at he
    · obtain ⟨acc, d, h1, h2, h3, h4, -⟩ := batch_inv hj hne h
      apply Classical.byContradiction
      intro hno
      have hno' : ∀ e s' out, s.step e = some (s', out) → ¬ ∀ x ∈ out, x.2 = ends x.1 :=
        fun e s' out hs hx => hno ⟨e, s', out, hs, hx⟩
      have hnot : s.exit.isSome = false := by rw [he]; rfl
      cases htodo : s.todo with
      | cons m rest =>
        have hnd : s.dropped = false := by
          cases hd : s.dropped with
          | false => rfl
          | true => rw [h4 hd] at htodo; cases htodo
        have hh : s.nursery.handles ≠ 0 := by rw [h3, hnd]; simp
        have hcl : s.nursery.closed = false := by
          cases hcl : s.nursery.closed with
          | false => rfl
          | true => exact absurd ((follows_closed h1).1 hcl) hh
        refine hno' .spawn { s with todo := rest, nursery := { s.nursery with
            queue := s.nursery.queue ++ [(s.nursery.next, m)], next := s.nursery.next + 1 } } [] ?_ (by simp)
        simp [Batch.step, hnot, htodo, Nursery.step, hh, hcl]
      | nil =>
        cases hdr : s.dropped with
        | false =>
          have hh : s.nursery.handles = 1 := by rw [h3, hdr]; rfl
          refine hno' .dropHandle { s with dropped := true, nursery := { s.nursery with handles := 0, closed := true } } [] ?_
            (by simp)
          simp [Batch.step, hnot, htodo, hdr, Nursery.step, hh]
        | true =>
          have hh : s.nursery.handles = 0 := by rw [h3, hdr]; rfl
          have hst := follows_stuck hj h1 (by
            intro e hi
            cases e with
            | take w =>
              cases hstep : s.nursery.step (.take w) with
              | none => rfl
              | some r => exact absurd (by simp) (hno' (.take w) _ [] (by simp only [Batch.step, hnot]; rw [hstep]; rfl))
            | check w =>
              cases hstep : s.nursery.step (.check w) with
              | none => rfl
              | some r => exact absurd (by simp) (hno' (.check w) _ [] (by simp only [Batch.step, hnot]; rw [hstep]; rfl))
            | exit w =>
              cases hstep : s.nursery.step (.exit w) with
              | none => rfl
              | some r => exact absurd (by simp) (hno' (.workerExit w) _ [] (by simp only [Batch.step, hnot]; rw [hstep]; rfl))
            | finish w o =>
              cases hw : s.nursery.workers[w]? with
              | none => simp [Nursery.step, hw]
              | some x =>
                cases x with
                | running k m =>
                  exfalso
                  have hal := follows_alive h1
                  refine hno' (.ends w (ends m)) ({ s with nursery := { s.nursery with
                    outputs := s.nursery.outputs ++ [(k, ends m)], workers := s.nursery.workers.set w .waiting } })
                    [(m, ends m)] ?_ (by simp)
                  simp [Batch.step, hnot, hw, Nursery.step, hal]
                | _ => simp [Nursery.step, hw]
            | recv =>
              cases hstep : s.nursery.step .recv with
              | none => rfl
              | some r =>
                obtain ⟨⟨k, m, o, ho, -⟩, -⟩ := follows_recv (n' := r.1) (out := r.2) h1 hstep
                have hr : s.nursery.step .recv = some (r.1, [.delivered k o]) := by rw [hstep, ← ho]
                exfalso
                cases o with
                | value b =>
                  exact hno' .receive _ [] (by simp only [Batch.step, hnot, hdr, hr]; rfl) (by simp)
                | panic =>
                  exact hno' .receive _ [] (by simp only [Batch.step, hnot, hdr, hr]; rfl) (by simp)
            | _ => cases hi)
          have hn := hst.2.2 hh
          exact hno' .receiveNone _ [] (by simp only [Batch.step, hnot, hdr, hn]; rfl) (by simp)

def batchWeight (s : Batch M) : Nat :=
  5 * s.todo.length + weight s.nursery + (if s.dropped then 0 else 1) + if s.exit.isSome then 0 else 1

theorem batch_weight_lt {s s' : Batch M} {e : BatchEvent} {out : List (M × Outcome Bool)} (hs : s.step e = some (s', out)) :
    batchWeight s' < batchWeight s := by
  unfold Batch.step at hs
  split at hs
  · cases hs
  rename_i hex
  have hex' : s.exit.isSome = false := by simpa using hex
  have quiet : ∀ {ev : NurseryEvent M Bool} {o : List (M × Outcome Bool)}, Internal ev →
      ((s.nursery.step ev).map fun r => ({ s with nursery := r.1 }, o)) = some (s', out) → batchWeight s' < batchWeight s := by
    intro ev o hi hs
    rw [Option.map_eq_some_iff] at hs
    obtain ⟨⟨n, o⟩, hn, hs⟩ := hs
    cases hs
    have := nursery_terminates _ _ _ _ hi hn
    simp only [batchWeight]
    omega
  cases e with
  | spawn =>
    simp only at hs
    split at hs
    case h_2 => cases hs
    rename_i m rest htodo
    split at hs
    · rename_i n k j hn
      have := weight_spawn hn
      cases hs
      simp only [batchWeight, htodo, List.length_cons]
      omega
    · cases hs
      simp [batchWeight, hex']
    · cases hs
  | dropHandle =>
    simp only at hs
    split at hs
    case isFalse => cases hs
    rename_i hc
    simp only [Bool.and_eq_true, List.isEmpty_iff, Bool.not_eq_true'] at hc
    rw [Option.map_eq_some_iff] at hs
    obtain ⟨⟨n, o⟩, hn, hs⟩ := hs
    cases hs
    have := weight_dropHandle hn
    simp [batchWeight, hc.2, this]
  | take w => exact quiet (ev := .take w) trivial hs
  | check w => exact quiet (ev := .check w) trivial hs
  | workerExit w => exact quiet (ev := .exit w) trivial hs
  | ends w o =>
    simp only at hs
    split at hs
    · exact quiet (ev := .finish w o) trivial hs
    · cases hs
  | receive =>
    simp only at hs
    split at hs
    case isFalse => cases hs
    split at hs
    · rename_i n k b hn
      cases hs
      have := nursery_terminates _ _ _ _ (by trivial) hn
      simp only [batchWeight]
      omega
    · rename_i n k hn
      cases hs
      have := nursery_terminates _ _ _ _ (by trivial) hn
      simp only [batchWeight, hex', Option.isSome_some, if_true, Bool.false_eq_true, if_false]
      omega
    · cases hs
  | receiveNone =>
    simp only at hs
    split at hs
    case isFalse => cases hs
    split at hs
    case h_2 => cases hs
    rename_i n o hn
    cases hs
    rw [weight_recvNone hn]
    simp [batchWeight, hex']

/-- **C20.** There is no infinite run. -/
theorem batch_terminates : WellFounded fun s' s : Batch M => ∃ e out, s.step e = some (s', out) := by
  refine Subrelation.wf (r := InvImage (· < ·) batchWeight) ?_ (InvImage.wf batchWeight Nat.lt_wfRel.wf)
  rintro s' s ⟨e, out, hs⟩
  exact batch_weight_lt hs

/-- **C20.** `get` exits successfully exactly if a file was obtained and could be saved. -/
theorem get_exit (save : I → List T → List D → Bool) (r : Resolved T D I ε) :
    getCommand (downloadTorrentFile save r) = .success ↔ ∃ i ts ds, r = .file i ts ds ∧ save i ts ds = true := by
  cases r with
  | file i ts ds =>
    cases hs : save i ts ds with
    | false => simp [downloadTorrentFile, getCommand, hs]
    | true => simp [downloadTorrentFile, getCommand, hs]
  | _ => simp [downloadTorrentFile, getCommand]

/-- **C20.** `query-tracker` exits successfully exactly if the tracker answered, and prints the peers of its answer;
`query-dht` exits successfully exactly if the lookup gave some peer, and prints them; both print nothing otherwise;
`query-peer` exits successfully exactly if the metadata were obtained and saved. -/
theorem query_exit :
    (∀ r : Except ε (List P), ((queryTrackerCommand r).2 = .success ↔ ∃ ps, r = .ok ps ∧ (queryTrackerCommand r).1 = ps) ∧
      ((queryTrackerCommand r).2 ≠ .success → (queryTrackerCommand r) = ([], .failure))) ∧
    (∀ r : Except ε (List P × List D),
      ((queryDhtCommand r).2 = .success ↔ ∃ ps ns, r = .ok (ps, ns) ∧ ps ≠ [] ∧ (queryDhtCommand r).1 = ps) ∧
      ((queryDhtCommand r).2 ≠ .success → (queryDhtCommand r) = ([], .failure))) ∧
    (∀ (save : I → List T → List D → Bool) (r : Except ε I),
      queryPeerCommand save r = .success ↔ ∃ i, r = .ok i ∧ save i [] [] = true) := by
  refine ⟨?_, ?_, ?_⟩
  · intro r
    cases r <;> simp [queryTrackerCommand]
  · intro r
    cases r with
    | error e => simp [queryDhtCommand]
    | ok x =>
      obtain ⟨ps, ns⟩ := x
      cases ps <;> simp [queryDhtCommand]
  · intro save r
    cases r with
    | error e => simp [queryPeerCommand]
    | ok i =>
      cases h : save i [] [] <;> simp [queryPeerCommand, h]

-- two magnets, one worker; the second download fails
example : ∃ s : Batch Nat, BatchRun (some [5, 6]) 1 [(.spawn, []), (.take 0, []), (.spawn, []), (.check 0, []), (.dropHandle, []),
    (.ends 0 (.value true), [(5, .value true)]), (.receive, []), (.take 0, []), (.check 0, []),
    (.ends 0 (.value false), [(6, .value false)]), (.workerExit 0, []), (.receive, []), (.receiveNone, [])] s ∧
    s.exit = some .failure :=
  ⟨_, .step (.step (.step (.step (.step (.step (.step (.step (.step (.step (.step (.step (.step .init rfl) rfl) rfl) rfl) rfl)
    rfl) rfl) rfl) rfl) rfl) rfl) rfl) rfl, rfl⟩

end Demag.Props
