import Verif.Lemmas.NetInv

/-!
# Auxiliary facts about a batch with all its conversations: the invariants
-/

namespace Demag

open Spec Props

section
variable {env : GetEnv} {ms : List Magnet}

/-- The batch with its downloads, for these links. -/
abbrev NetFleetRun (env : GetEnv) (ms : List Magnet) (ftr : MagnetFleetTrace) (f : MagnetFleet) : Prop :=
  FleetRun (fun p : Peer => p.address) Magnet.trackers env.cfg.trackers.jobsPerMagnet env.cfg.peers.jobsPerMagnet (some ms) env.cfg.general.batchJobs ftr f

theorem net_running (hj : 0 < env.cfg.general.batchJobs) {ftr : MagnetFleetTrace} {f : MagnetFleet} (h : NetFleetRun env ms ftr f) {n : Nat} {m : Magnet}
    (hr : runningJob f.batch.nursery n = some m) : ms[n]? = some m := by
  obtain ⟨w, hw⟩ := runningJob_mem hr
  obtain ⟨btr, hb, -⟩ := (fleet_inv hj h).batch
  exact batch_running hj hb hw

/-- What is known of the links of the downloads and of the tasks in their nurseries. -/
structure ProgInv (env : GetEnv) (ms : List Magnet) (tr : NetTrace) (ftr : MagnetFleetTrace) (s : NetBatch) : Prop where
  run : NetFleetRun env ms ftr s.fleet
  outs : ftr.flatMap Prod.snd = programOutputs tr
  link : ∀ n m, s.link n = some m → ms[n]? = some m
  idle : ∀ n, s.fleet.work n = none → s.link n = none
  working : ∀ n r, s.fleet.work n = some r → ∃ m, s.link n = some m ∧ TrackJobs m.trackers r ∧ JobsOf (contacts (alone n ftr)) r.peers
  rest : ∀ n q, s.rest n = some q → ∃ m, s.link n = some m ∧ JobsAre (fun k t => m.trackers[k]? = some t) q

theorem programOutputs_snoc (tr : NetTrace) (x : NetEvent × List NetOutput) :
    programOutputs (tr ++ [x]) = programOutputs tr ++ x.2.filterMap programPart := by simp [programOutputs]

theorem program_fleet (fo : List (FleetOutput Magnet Tracker Peer SockAddr TorrentInfo TaskError)) :
    (fo.map NetOutput.fleet).filterMap programPart = fo := by
  induction fo with
  | nil => rfl
  | cons x l ih => rw [List.map_cons, List.filterMap_cons_some (by rfl), ih]

theorem contacts_snoc {T P D I ε : Type} (tr : ResolveTrace T P D I ε) (e : ResolveEvent P ε I) (o : List (ResolveOutput T P D I ε)) :
    contacts (tr ++ [(e, o)]) = contacts tr ++ o.filterMap contactOf := by simp [contacts, resolveObserved]

theorem alone_one_other {M T P D I ε : Type} {n : Nat} {e : FleetEvent P D I ε} {out : List (FleetOutput M T P D I ε)} (h : ∀ re, e ≠ .goesOn n re) :
    alone n [(e, out)] = [] := by
  cases e with
  | goesOn k re =>
    have : k ≠ n := by rintro rfl; exact h re rfl
    simp [alone, this]
  | _ => rfl

theorem afterDrop_spawn {J R : Type} {e : NurseryEvent J R} (h : e.afterDrop = true) : ∀ j, e ≠ .spawn j := by
  rintro j rfl
  cases h

theorem start_jobs {T P A D I ε : Type} (all : List T) (d : Except ε (List P × List D)) (jobsT jobsP : Nat) :
    JobsOf [] (Resolve.start all d jobsT jobsP : Resolve T P A D I ε).peers := by
  unfold Resolve.start
  split
  · split <;> exact ⟨JobsAre.new _ _, rfl⟩
  · exact ⟨JobsAre.new _ _, rfl⟩

theorem ProgInv.inner (hj : 0 < env.cfg.general.batchJobs) {sha1 : Bytes → Bytes} {template : List TemplateElement} {tr ftr} {s s' : NetBatch} {e fe fo}
    (v : ProgInv env ms tr ftr s) (hm : InnerMove sha1 env template s s' fe fo) :
    ProgInv env ms (tr ++ [(e, fo.map .fleet)]) (ftr ++ [(fe, fo)]) s' := by
  have hr' : NetFleetRun env ms (ftr ++ [(fe, fo)]) s'.fleet := .step v.run hm.step
  have hi := fleet_inv hj v.run
  have hout : (ftr ++ [(fe, fo)]).flatMap Prod.snd = programOutputs (tr ++ [(e, fo.map .fleet)]) := by
    rw [programOutputs_snoc, program_fleet, ← v.outs]
    simp
  obtain ⟨e1, e2, -⟩ := hm.same
  have nolink : (∀ n d, fe ≠ .begins n d) → s'.link = s.link := by
    intro h
    rcases hm.link with ⟨h', -⟩ | ⟨n, d, m, h', -⟩
    · exact h'
    · exact absurd h' (h n d)
  have keepWork : ∀ {n r}, s.fleet.work n = some r → s'.link = s.link → (∀ re, fe ≠ .goesOn n re) →
      ∃ m, s'.link n = some m ∧ TrackJobs m.trackers r ∧ JobsOf (contacts (alone n (ftr ++ [(fe, fo)]))) r.peers := by
    intro n r hw hl hne
    rw [hl, alone_snoc, alone_one_other hne, List.append_nil]
    exact v.working n r hw
  have keep : s'.link = s.link → (∀ n, s'.fleet.work n = none → s.fleet.work n = none) →
      (∀ n r, s'.fleet.work n = some r → ∃ m, s'.link n = some m ∧ TrackJobs m.trackers r ∧ JobsOf (contacts (alone n (ftr ++ [(fe, fo)]))) r.peers) →
      ProgInv env ms (tr ++ [(e, fo.map .fleet)]) (ftr ++ [(fe, fo)]) s' := by
    intro hl hidle hwork
    refine ⟨hr', hout, ?_, ?_, hwork, ?_⟩
    · rw [hl]; exact v.link
    · intro n hn; rw [hl]; exact v.idle n (hidle n hn)
    · rw [e2, hl]; exact v.rest
  cases fleet_moves hm.step with
  | batch h =>
    have hl := nolink (by simp)
    exact keep hl (fun n hn => by rw [h] at hn; exact hn) (fun n r hw => keepWork (by rw [h] at hw; exact hw) hl (by simp))
  | ends _ _ h =>
    have hl := nolink (by simp)
    exact keep hl (fun n hn => by rw [h] at hn; exact hn) (fun n r hw => keepWork (by rw [h] at hw; exact hw) hl (by simp))
  | @begins n d m hrun hw h =>
    have hmn := net_running hj v.run hrun
    have hl : s'.link = setAt s.link n (some m) := by
      rcases hm.link with ⟨-, h'⟩ | ⟨n', d', m', h', hrun', hl, -⟩
      · exact absurd rfl (h' n d)
      · cases h'
        rw [hrun] at hrun'
        cases hrun'
        exact hl
    refine ⟨hr', hout, ?_, ?_, ?_, ?_⟩
    · intro k m' hk
      rw [hl] at hk
      by_cases hkn : k = n
      · subst hkn; rw [setAt_same] at hk; cases hk; exact hmn
      · rw [setAt_other _ _ hkn] at hk; exact v.link k m' hk
    · intro k hk
      rw [h] at hk
      by_cases hkn : k = n
      · subst hkn; rw [put_same] at hk; cases hk
      · rw [put_other _ _ hkn] at hk; rw [hl, setAt_other _ _ hkn]; exact v.idle k hk
    · intro k r hk
      rw [h] at hk
      rw [alone_snoc, alone_one_other (by simp), List.append_nil]
      by_cases hkn : k = n
      · subst hkn
        rw [put_same] at hk
        cases hk
        refine ⟨m, by rw [hl, setAt_same], TrackJobs.start _ _ _, ?_⟩
        rw [(hi.idle k hw).1]
        exact start_jobs ..
      · rw [put_other _ _ hkn] at hk; rw [hl, setAt_other _ _ hkn]; exact v.working k r hk
    · intro k q hk
      rw [e2] at hk
      obtain ⟨m', h1, h2⟩ := v.rest k q hk
      refine ⟨m', ?_, h2⟩
      rw [hl, setAt_other]
      · exact h1
      · rintro rfl; rw [v.idle k hw] at h1; cases h1
  | @goesOn n re m r r' o hrun hw hstep h =>
    have hl := nolink (by simp)
    refine keep hl ?_ ?_
    · intro k hk
      rw [h] at hk
      by_cases hkn : k = n
      · subst hkn; rw [put_same] at hk; cases hk
      · rw [put_other _ _ hkn] at hk; exact hk
    · intro k q hk
      rw [h] at hk
      by_cases hkn : k = n
      · subst hkn
        rw [put_same] at hk
        cases hk
        obtain ⟨m', h1, h2, h3⟩ := v.working k r hw
        have : m' = m := by
          have a := v.link k m' h1
          rw [net_running hj v.run hrun] at a
          cases a
          rfl
        subst this
        refine ⟨m', by rw [hl]; exact h1, h2.step hstep, ?_⟩
        rw [alone_snoc, alone_goesOn, if_pos rfl, output_filterMap, contacts_snoc]
        exact resolve_peers_step hstep h3
      · rw [put_other _ _ hkn] at hk
        refine keepWork hk hl ?_
        rintro re' h'
        cases h'
        exact hkn rfl
  | @leftover n ne r q o hw hres hdrop hstep h =>
    have hl := nolink (by simp)
    refine keep hl ?_ ?_
    · intro k hk
      rw [h] at hk
      by_cases hkn : k = n
      · subst hkn; rw [put_same] at hk; cases hk
      · rw [put_other _ _ hkn] at hk; exact hk
    · intro k q' hk
      rw [h] at hk
      by_cases hkn : k = n
      · subst hkn
        rw [put_same] at hk
        cases hk
        obtain ⟨m', h1, h2, h3⟩ := keepWork hw hl (by simp)
        refine ⟨m', h1, h2, h3.quiet hstep ?_⟩
        rcases step_next hstep with ⟨-, h⟩ | ⟨j, h, -⟩
        · exact h
        · exact absurd h (afterDrop_spawn hdrop j)
      · rw [put_other _ _ hkn] at hk
        exact keepWork hk hl (by simp)

/-- A step that leaves the program alone. -/
theorem ProgInv.outer {tr ftr} {s s' : NetBatch} {e out} (v : ProgInv env ms tr ftr s) (h1 : s'.fleet = s.fleet) (h2 : s'.link = s.link)
    (h3 : out.filterMap programPart = []) (h4 : ∀ n q, s'.rest n = some q → s.rest n = some q ∨ ∃ m, s.link n = some m ∧
      JobsAre (fun k t => m.trackers[k]? = some t) q) : ProgInv env ms (tr ++ [(e, out)]) ftr s' := by
  refine ⟨by rw [h1]; exact v.run, ?_, by rw [h2]; exact v.link, by rw [h1, h2]; exact v.idle, by rw [h1, h2]; exact v.working, ?_⟩
  · rw [programOutputs_snoc, h3, List.append_nil]; exact v.outs
  · intro n q hq
    rw [h2]
    rcases h4 n q hq with h | h
    · exact v.rest n q h
    · exact h

theorem program_dht (o : List AppDhtOutput) : (o.map NetOutput.dht).filterMap programPart = [] := by
  rw [List.filterMap_eq_nil_iff]
  intro x hx
  obtain ⟨y, -, rfl⟩ := List.mem_map.1 hx
  rfl

theorem program_tracker (n k : Nat) (t : Tracker) (o : List AskOutput) : (o.map (NetOutput.tracker n k t)).filterMap programPart = [] := by
  rw [List.filterMap_eq_nil_iff]
  intro x hx
  obtain ⟨y, -, rfl⟩ := List.mem_map.1 hx
  rfl

/-- The tasks in what `trackers` gives. -/
theorem ProgInv.trackerJobs {tr ftr} {s : NetBatch} (v : ProgInv env ms tr ftr s) {n : Nat} {q : Nursery Tracker (List Peer)}
    (hq : s.trackers n = some q) : ∃ m, s.link n = some m ∧ JobsAre (fun k t => m.trackers[k]? = some t) q := by
  unfold NetBatch.trackers at hq
  split at hq
  · rename_i q' hr
    cases hq
    exact v.rest n _ hr
  · rw [Option.bind_eq_some_iff] at hq
    obtain ⟨r, hr, hq⟩ := hq
    obtain ⟨m, h1, h2, -⟩ := v.working n r hr
    exact ⟨m, h1, (h2 q hq).1⟩

theorem ProgInv.move (hj : 0 < env.cfg.general.batchJobs) {sha1 : Bytes → Bytes} {resolve} {template : List TemplateElement} {tr ftr} {s s' : NetBatch}
    {e out} (v : ProgInv env ms tr ftr s) (hm : NetMove sha1 env resolve template s s' e out) :
    (∃ fe fo, InnerMove sha1 env template s s' fe fo ∧ out = fo.map .fleet ∧ ProgInv env ms (tr ++ [(e, out)]) (ftr ++ [(fe, fo)]) s') ∨
      s'.fleet = s.fleet ∧ s'.link = s.link ∧ ProgInv env ms (tr ++ [(e, out)]) ftr s' := by
  cases hm with
  | inner h _ _ => exact .inl ⟨_, _, h, rfl, v.inner hj h⟩
  | dht _ _ h => subst h; exact .inr ⟨rfl, rfl, v.outer rfl rfl (program_dht _) fun n q h => .inl h⟩
  | trackerBegins _ _ _ _ h => subst h; exact .inr ⟨rfl, rfl, v.outer rfl rfl rfl fun n q h => .inl h⟩
  | tracker _ _ _ h => subst h; exact .inr ⟨rfl, rfl, v.outer rfl rfl (program_tracker ..) fun n q h => .inl h⟩
  | @leftover n ne r q q' o hr _ hd hq hs h =>
    subst h
    refine .inr ⟨rfl, rfl, v.outer rfl rfl rfl fun k x hx => ?_⟩
    change setAt s.rest n (some q') k = some x at hx
    by_cases hkn : k = n
    · subst hkn
      rw [setAt_same] at hx
      cases hx
      obtain ⟨m, h1, h2⟩ := v.trackerJobs hq
      exact .inr ⟨m, h1, h2.step hs fun j hj => absurd hj (afterDrop_spawn hd j)⟩
    · rw [setAt_other _ _ hkn] at hx
      exact .inl hx
  | peerBegins _ _ _ _ h => subst h; exact .inr ⟨rfl, rfl, v.outer rfl rfl rfl fun n q h => .inl h⟩

end

end Demag
