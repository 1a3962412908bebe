import Verif.Props.NetBatch

/-!
# C103: no tracker is given up on before its answer has become useless
-/

namespace Demag

open Spec Props

section
variable {T P A D I ε : Type} [DecidableEq A]

theorem endJob_result {s s' : Resolve T P A D I ε} {out out' : List (ResolveOutput T P D I ε)} (h : s.endJob out = some (s', out')) :
    s'.result = s.result := by
  unfold Resolve.endJob at h
  obtain ⟨x, -, h⟩ := Option.map_eq_some_iff.1 h
  cases h
  rfl

/-- The result is observed when it comes. -/
theorem result_observed {addr : P → A} {all : List T} {s s' : Resolve T P A D I ε} {e : ResolveEvent P ε I} {out : List (ResolveOutput T P D I ε)}
    (h : s.step addr all e = some (s', out)) (hr : s'.result.isSome = true) : ∃ r, .result r ∈ out := by
  unfold Resolve.step at h
  split at h
  · cases h
  rename_i hn
  have hn : s.result = none := by simpa using hn
  have quiet : s'.result = s.result → ∃ r, ResolveOutput.result r ∈ out := by
    intro h1
    rw [h1, hn] at hr
    cases hr
  have tq : ∀ {ev o}, s.trackerStep ev o = some (s', out) → ∃ r, ResolveOutput.result r ∈ out := by
    intro ev o h
    unfold Resolve.trackerStep at h
    split at h
    · obtain ⟨x, -, h⟩ := Option.map_eq_some_iff.1 h
      cases h
      exact quiet rfl
    · cases h
  have pq : ∀ {ev o}, s.peerStep ev o = some (s', out) → ∃ r, ResolveOutput.result r ∈ out := by
    intro ev o h
    unfold Resolve.peerStep at h
    obtain ⟨x, -, h⟩ := Option.map_eq_some_iff.1 h
    cases h
    exact quiet rfl
  have eq' : ∀ {s1 : Resolve T P A D I ε} {o}, s1.result = s.result → s1.endJob o = some (s', out) → ∃ r, ResolveOutput.result r ∈ out :=
    fun h1 h => quiet ((endJob_result h).trans h1)
  cases e with
  | spawnTracker =>
    simp only at h
    split at h
    · split at h
      · cases h; exact quiet rfl
      · cases h; exact ⟨_, List.mem_singleton.2 rfl⟩
      · cases h
    · cases h
  | startJob =>
    simp only at h
    split at h
    · split at h
      · obtain ⟨x, -, h⟩ := Option.map_eq_some_iff.1 h; cases h; exact quiet rfl
      · cases h; exact quiet rfl
    · cases h
  | trackerTake w => exact tq h
  | trackerCheck w => exact tq h
  | trackerExit w => exact tq h
  | trackerEnds w r =>
    simp only at h
    split at h
    · exact tq h
    · cases h
  | nextPeer =>
    simp only at h
    split at h
    · split at h
      · cases h; exact quiet rfl
      · split at h
        · cases h; exact quiet rfl
        · exact eq' rfl h
        · cases h
    · cases h
  | nextBatch =>
    simp only at h
    split at h
    · split at h
      · cases h; exact quiet rfl
      · refine eq' ?_ h
        rfl
      · cases h
    · cases h
  | noMorePeers =>
    simp only at h
    split at h
    · split at h
      · exact eq' rfl h
      · cases h
    · exact eq' rfl h
    · cases h
  | peerTake w => exact pq h
  | peerCheck w => exact pq h
  | peerExit w => exact pq h
  | peerEnds w r =>
    simp only at h
    split at h
    · exact pq h
    · cases h
  | receive =>
    simp only at h
    split at h
    · cases h
    · split at h
      · cases h; simp
      · cases h; exact quiet rfl
      · cases h; simp
      · cases h
  | receiveNone =>
    simp only at h
    split at h
    · cases h
    · split at h
      · cases h; simp
      · cases h

theorem resolve_result_observed {addr : P → A} {all : List T} {dht : Except ε (List P × List D)} {jobsT jobsP : Nat} {tr : ResolveTrace T P D I ε}
    {s : Resolve T P A D I ε} (hne : all ≠ []) (h : ResolveRun addr all dht jobsT jobsP tr s) (hr : s.result.isSome = true) :
    ∃ r, .result r ∈ resolveObserved tr := by
  cases h with
  | init =>
    unfold Resolve.start at hr
    split at hr
    · exact absurd rfl hne
    · cases hr
  | step h hs =>
    obtain ⟨r, h⟩ := result_observed hs hr
    exact ⟨r, by simp [resolveObserved, h]⟩

end

section
variable {sha1 : Bytes → Bytes} {env : GetEnv} {resolve : Text → BitVec 16 → Option (List SockAddr)} {template : List TemplateElement} {ms : List Magnet}
  {tr : NetTrace} {s : NetBatch}

/-- A run up to one of its events. -/
theorem net_split {links : Option (List Magnet)} {x : NetEvent × List NetOutput} {rest : NetTrace} (h : NetRun sha1 env resolve template links (tr ++ x :: rest) s) :
    ∃ s1 s2, NetRun sha1 env resolve template links tr s1 ∧ s1.step sha1 env resolve template x.1 = some (s2, x.2) := by
  generalize ht : tr ++ x :: rest = all at h
  induction h generalizing rest with
  | init => simp at ht
  | @step tr' s1 s2 e out h hs ih =>
    rcases List.eq_nil_or_concat rest with rfl | ⟨rest, y, rfl⟩
    · obtain ⟨rfl, h2⟩ := List.append_inj' ht rfl
      cases h2
      exact ⟨_, _, h, hs⟩
    · rw [List.concat_eq_append, ← List.cons_append, ← List.append_assoc] at ht
      exact ih (List.append_inj' ht rfl).1

/-- What is observed of download `n`. -/
def ownOutput (n : Nat) : FleetOutput Magnet Tracker Peer SockAddr TorrentInfo TaskError → Option (ResolveOutput Tracker Peer SockAddr TorrentInfo TaskError)
  | .output n' o => if n' = n then some o else none
  | _ => none

/-- An answer (or failure) of a tracker. -/
def answerFrom : ResolveOutput Tracker Peer SockAddr TorrentInfo TaskError → Option Tracker
  | .answer t _ => some t
  | _ => none

theorem answeredPart_eq (n : Nat) (o : NetOutput) : answeredPart n o = (programPart o).bind fun x => (ownOutput n x).bind answerFrom := by
  cases o with
  | fleet x =>
    cases x with
    | output n' y =>
      by_cases h : n' = n
      · cases y <;> simp [answeredPart, programPart, ownOutput, answerFrom, h]
      · cases y <;> simp [answeredPart, programPart, ownOutput, h]
    | _ => rfl
  | _ => rfl

/-- What is observed of one download, in the batch and alone. -/
theorem alone_outputs {ftr : MagnetFleetTrace} {f : MagnetFleet} (h : NetFleetRun env ms ftr f) (n : Nat) :
    resolveObserved (alone n ftr) = (ftr.flatMap Prod.snd).filterMap (ownOutput n) := by
  induction h with
  | init => rfl
  | @step tr f f' e out _ hs ih =>
    have one : resolveObserved (alone n [(e, out)]) = out.filterMap (ownOutput n) := by
      cases fleet_moves hs with
      | batch _ => rfl
      | begins _ _ _ => rfl
      | ends _ _ _ => rfl
      | leftover _ _ _ _ _ => rfl
      | @goesOn k re m r r' o _ _ _ _ =>
        by_cases hk : k = n
        · subst hk
          simp [alone, resolveObserved, List.filterMap_map, Function.comp_def, outputOf, ownOutput]
        · simp [alone, resolveObserved, List.filterMap_map, Function.comp_def, ownOutput, hk]
    have ha : alone n (tr ++ [(e, out)]) = alone n tr ++ alone n [(e, out)] := by simp [alone]
    rw [ha, List.flatMap_append, List.filterMap_append, ← ih]
    simp only [resolveObserved, List.flatMap_append] at one ⊢
    rw [one]
    simp

end

namespace Props

section
variable {sha1 : Bytes → Bytes} {env : GetEnv} {resolve : Text → BitVec 16 → Option (List SockAddr)} {template : List TemplateElement} {ms : List Magnet}
  {tr : NetTrace} {s : NetBatch}

/-- **C103.** The task of a tracker is dropped only if its download has its result already or all trackers of the link have answered or failed. -/
theorem trackers_patience (hj : 0 < env.cfg.general.batchJobs) (hT : 0 < env.cfg.trackers.jobsPerMagnet) (hP : 0 < env.cfg.peers.jobsPerMagnet)
    {n k : Nat} {out : List NetOutput} {rest : NetTrace}
    (h : NetRun sha1 env resolve template (some ms) (tr ++ (.tracker n k .dropped, out) :: rest) s) :
    ∃ m, ms[n]? = some m ∧ ((∃ r, .fleet (.output n (.result r)) ∈ tr.flatMap Prod.snd) ∨ (answeredTrackers n tr).Perm m.trackers) := by
  obtain ⟨s1, s2, h, hs⟩ := net_split h
  obtain ⟨ftr, v⟩ := NetInv.run hj h
  unfold NetBatch.step at hs
  simp only at hs
  split at hs
  · rename_i a m ha hl
    split at hs
    · cases hs
    rename_i hgo
    have hgo : s1.lettingGo n = true := by simpa [AskEvent.isDropped] using hgo
    unfold NetBatch.lettingGo at hgo
    split at hgo
    · rename_i r hw
      obtain ⟨m', dht, s0, hm', -, -, hrun, hleft, -, -⟩ := (fleet_inv hj v.prog.run).active n r hw
      obtain ⟨m2, hl2, hk, -⟩ := v.asks.begun n k a ha
      rw [hl] at hl2
      cases hl2
      have hmm := v.prog.link n m hl
      rw [hm'] at hmm
      cases hmm
      have hne : m.trackers ≠ [] := by
        intro e
        rw [e] at hk
        cases hk
      have hobs : ∀ o, o ∈ resolveObserved (alone n ftr) → NetOutput.fleet (.output n o) ∈ tr.flatMap Prod.snd := by
        intro o ho
        rw [alone_outputs v.prog.run, v.prog.outs, List.mem_filterMap] at ho
        obtain ⟨x, hx, ho⟩ := ho
        obtain ⟨y, hy, hx⟩ := List.mem_filterMap.1 hx
        have hyx : y = .fleet x := by
          cases y with
          | fleet z => cases hx; rfl
          | _ => cases hx
        have hxo : x = .output n o := by
          cases x with
          | output n' z =>
            simp only [ownOutput] at ho
            split at ho
            · rename_i e; subst e; cases ho; rfl
            · cases ho
          | _ => cases ho
        rw [← hxo, ← hyx]
        exact hy
      refine ⟨m, hm', ?_⟩
      by_cases hres : s0.result.isSome = true
      · obtain ⟨x, hx⟩ := resolve_result_observed hne hrun hres
        exact .inl ⟨x, hobs _ hx⟩
      · right
        have hr0 : r = s0 := by
          rcases hleft with h | ⟨h, -⟩
          · exact h
          · exact absurd h hres
        subst hr0
        have ht : r.trackers = none := by
          simp only [Bool.or_eq_true] at hgo
          rcases hgo with hgo | hgo
          · exact absurd hgo hres
          · simpa using hgo
        obtain ⟨⟨-, hsrc⟩, -⟩ := resolve_inv hT hP (.inl hne) hrun
        rcases hsrc with ⟨-, hti⟩ | ⟨he, -⟩
        · have hover : r.job = .over := by
            by_contra hno
            obtain ⟨q, -, -, hq, -⟩ := hti.live hno
            rw [ht] at hq
            cases hq
          have hans : answeredTrackers n tr = (resolveObserved (alone n ftr)).filterMap answerFrom := by
            rw [alone_outputs v.prog.run, v.prog.outs, List.filterMap_filterMap]
            unfold programOutputs answeredTrackers
            rw [List.filterMap_filterMap]
            exact List.filterMap_congr fun o _ => answeredPart_eq n o
          have calm : ∀ t, .trackerPanic t ∉ resolveObserved (alone n ftr) := by
            intro t ht
            rw [alone_outputs v.prog.run, List.mem_filterMap] at ht
            obtain ⟨x, hx, ht⟩ := ht
            obtain ⟨eo, heo, hx⟩ := List.mem_flatMap.1 hx
            cases x with
            | output n' z =>
              simp only [ownOutput] at ht
              split at ht
              · cases ht; exact v.faith.calm eo heo _ _ hx
              · cases ht
            | _ => cases ht
          have hdone : (trackerDones (alone n ftr)).map Prod.fst = (resolveObserved (alone n ftr)).filterMap answerFrom := by
            unfold trackerDones
            rw [List.map_filterMap]
            apply List.filterMap_congr
            intro o ho
            cases o with
            | trackerPanic t => exact absurd ho (calm t)
            | _ => rfl
          rcases (hti.over hover).2.2.2 with ⟨t, hpan⟩ | ⟨hperm, -⟩
          · exfalso
            obtain ⟨o, ho, hx⟩ := List.mem_filterMap.1 hpan
            cases o with
            | trackerPanic t' => exact calm t' ho
            | _ => cases hx
          · rw [hans, ← hdone]
            exact hperm
        · exact absurd he hne
    · cases hgo
  · cases hs

end

end Props

/-! ### Example: two trackers, the first of which is enough -/

namespace Props

def exTwoTrackers : List Magnet := [⟨exHash, none, [exNetTracker, exNetTracker]⟩]

/-- The first tracker names a peer, which serves the metadata; the second tracker has not answered by then. -/
def exTwoEvents : List NetEvent :=
  [.fleet (.batch .spawn), .fleet (.batch .dropHandle), .fleet (.batch (.take 0)), .fleet (.batch (.check 0)), .begins 0,
   .fleet (.goesOn 0 .spawnTracker), .fleet (.goesOn 0 .spawnTracker), .fleet (.goesOn 0 .startJob), .fleet (.goesOn 0 (.trackerTake 0)),
   .fleet (.goesOn 0 (.trackerTake 1)), .fleet (.goesOn 0 (.trackerCheck 0)), .fleet (.goesOn 0 (.trackerCheck 1)),
   .trackerBegins 0 0, .trackerBegins 0 1, .tracker 0 0 (.client true), .tracker 0 1 (.client true),
   .tracker 0 0 (.http (.body (key "d8:intervali1800e5:peers6:iiiippe"))), .trackerEnds 0 0,
   .fleet (.goesOn 0 .nextBatch), .fleet (.goesOn 0 .nextPeer), .fleet (.goesOn 0 (.peerTake 0)), .fleet (.goesOn 0 (.peerCheck 0)),
   .peerBegins 0 0 (fun _ => exLink), .peerEnds 0 0, .fleet (.goesOn 0 .receive)]

def exTwoEnv : GetEnv := { exNetEnv with cfg := { exNetEnv.cfg with trackers := { exNetEnv.cfg.trackers with jobsPerMagnet := 2 } } }

-- then the task of the second tracker can be dropped, and not a moment before: the hypotheses of `trackers_patience` are met
example : ((netExec (fun _ => List.replicate 20 7) exTwoEnv (fun _ _ => none) [.name] (exTwoEvents ++ [.tracker 0 1 .dropped])
      (NetBatch.start (some exTwoTrackers) 2)).map fun r => r.1.length) = some 26 ∧
    ((netExec (fun _ => List.replicate 20 7) exTwoEnv (fun _ _ => none) [.name] (exTwoEvents.dropLast ++ [.tracker 0 1 .dropped])
      (NetBatch.start (some exTwoTrackers) 2)).map fun r => r.1.length) = none := by
  decide +kernel

end Props

end Demag
