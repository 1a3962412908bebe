import Verif.Props.FleetGet
import Verif.Props.BatchGet

/-!
# C99: runs of batches
-/

namespace Demag.Props

open Demag Spec

section
variable {M T P A D I ε : Type} [DecidableEq A]

def fleetExec (addr : P → A) (trackers : M → List T) (jobsT jobsP : Nat) :
    List (FleetEvent P D I ε) → Fleet M T P A D I ε → Option (FleetTrace M T P D I ε × Fleet M T P A D I ε)
  | [], f => some ([], f)
  | e :: es, f =>
    match f.step addr trackers jobsT jobsP e with
    | some (f', out) => (fleetExec addr trackers jobsT jobsP es f').map fun r => ((e, out) :: r.1, r.2)
    | none => none

theorem fleetExec_run {addr : P → A} {trackers : M → List T} {jobsT jobsP jobs : Nat} {magnets : Option (List M)} (es : List (FleetEvent P D I ε))
    {f f' : Fleet M T P A D I ε} {tr tr' : FleetTrace M T P D I ε} (h : FleetRun addr trackers jobsT jobsP magnets jobs tr f)
    (he : fleetExec addr trackers jobsT jobsP es f = some (tr', f')) : FleetRun addr trackers jobsT jobsP magnets jobs (tr ++ tr') f' := by
  induction es generalizing f tr tr' with
  | nil => simp only [fleetExec, Option.some.injEq, Prod.mk.injEq] at he; obtain ⟨rfl, rfl⟩ := he; simpa using h
  | cons e es ih =>
    simp only [fleetExec] at he
    split at he
    · rename_i s1 out hs
      rw [Option.map_eq_some_iff] at he
      obtain ⟨⟨tr1, s2⟩, h1, h2⟩ := he
      simp only [Prod.mk.injEq] at h2
      obtain ⟨rfl, rfl⟩ := h2
      have := ih (.step h hs) h1
      rwa [List.append_assoc, List.singleton_append] at this
    · cases he

end

/-! ### Too many peers -/

/-- One download at a time, one peer at a time: download 0 has its result, and the next peer is already being asked, when it ends; then download 1
begins and asks a peer. -/
def exLateEvents : List (FleetEvent Nat Nat Nat Nat) :=
  [.batch .spawn, .batch .spawn, .batch .dropHandle, .batch (.take 0), .batch (.check 0), .begins 0 (.ok ([1, 2], [])), .goesOn 0 .startJob,
   .goesOn 0 .nextPeer, .goesOn 0 .nextPeer, .goesOn 0 (.peerTake 0), .goesOn 0 (.peerCheck 0), .goesOn 0 (.peerEnds 0 (.value (.ok 7))),
   .goesOn 0 (.peerTake 0), .goesOn 0 (.peerCheck 0), .goesOn 0 .receive, .ends 0 (.value true), .batch (.take 0), .batch (.check 0),
   .begins 1 (.ok ([3], [])), .goesOn 1 .startJob, .goesOn 1 .nextPeer, .goesOn 1 (.peerTake 0), .goesOn 1 (.peerCheck 0)]

def exLate : Option (FleetTrace Nat Nat Nat Nat Nat Nat × Fleet Nat Nat Nat Nat Nat Nat Nat) :=
  fleetExec id (fun _ => []) 1 1 exLateEvents (Fleet.start (some [50, 60]) 1)

/-- **C99.** For the downloads that have ended this cannot be said: the task that asks a peer may outlive its download (it is aborted, but that takes
its time), so that for a while more peers are being asked than the configured numbers allow. -/
theorem fleet_asks_more : ∃ (tr : FleetTrace Nat Nat Nat Nat Nat Nat) (f : Fleet Nat Nat Nat Nat Nat Nat Nat),
    FleetRun id (fun _ => []) 1 1 (some [50, 60]) 1 tr f ∧ ¬ (([0, 1].map (peersAsked f)).sum ≤ 1 * 1) := by
  have key : exLate.isSome = true := by decide +kernel
  obtain ⟨⟨tr, f⟩, hx⟩ := Option.isSome_iff_exists.1 key
  refine ⟨tr, f, by simpa using fleetExec_run exLateEvents .init hx, ?_⟩
  have : (exLate.map fun x => ([0, 1].map (peersAsked x.2)).sum) = some 2 := by decide +kernel
  rw [hx] at this
  simp only [Option.map_some, Option.some.injEq] at this
  rw [this]
  decide

-- in that run download 0 has begun and is over, download 1 is in progress: the hypotheses of `fleet_alone` and `fleet_asks` are met
example : (exLate.map fun x => ((x.1.flatMap Prod.snd).filterMap fun o => match o with | .began n m => some (n, m) | _ => none)) = some [(0, 50), (1, 60)] ∧
    (exLate.map fun x => overs x.1) = some [(50, .value true)] := by decide +kernel

-- and what happens in download 1 can as well happen before what is left of download 0 is gone as after it: `fleet_swap`
example : (fleetExec id (fun _ => []) 1 1 (exLateEvents ++ [.leftover 0 .dropStream, .leftover 0 (.abort 0), .goesOn 1 (.peerEnds 0 (.value (.error 5)))])
    (Fleet.start (some [50, 60]) 1 : Fleet Nat Nat Nat Nat Nat Nat Nat)).map (fun x => (peersAsked x.2 0, peersAsked x.2 1)) = some (0, 0) ∧
  (fleetExec id (fun _ => []) 1 1 (exLateEvents ++ [.leftover 0 .dropStream, .goesOn 1 (.peerEnds 0 (.value (.error 5))), .leftover 0 (.abort 0)])
    (Fleet.start (some [50, 60]) 1 : Fleet Nat Nat Nat Nat Nat Nat Nat)).map (fun x => (peersAsked x.2 0, peersAsked x.2 1)) = some (0, 0) := by
  decide +kernel

/-! ### Two links at the same time -/

/-- Surroundings in which two downloads go on at once. -/
def exFleetEnv : GetEnv := { exBatchEnv with cfg := { exBatchEnv.cfg with general := ⟨2, .ifRequired⟩ } }

def exFleetFile : Bytes :=
  ascii "magnet:?xt=urn:btih:0707070707070707070707070707070707070707&tr=udp://tracker.example:6969\nmagnet:?xt=urn:btih:0707070707070707070707070707070707070707&tr=udp://tracker.example:6969\n"

theorem exFleet_links : batchLinks nameEnv lossyUtf8 (some exFleetFile) = some [exTracked, exTracked] := by decide +kernel

/-- The two downloads take turns. -/
def exFleetEvents : List (FleetEvent Peer SockAddr TorrentInfo TaskError) :=
  [.batch .spawn, .batch .spawn, .batch .dropHandle, .batch (.take 0), .batch (.take 1), .batch (.check 0), .batch (.check 1),
   .begins 0 (.error (.dht .down)), .begins 1 (.error (.dht .down))] ++
  exGetEvents.flatMap (fun e => [.goesOn 1 e, .goesOn 0 e]) ++
  [.ends 0 (.value true), .ends 1 (.value true), .batch (.workerExit 0), .batch (.workerExit 1), .batch .receive, .batch .receive, .batch .receiveNone]

theorem exFleet_run : ∃ answers tr f, FleetGet (fun _ => List.replicate 20 7) exFleetEnv nameEnv (fun p links => p = exPeer ∧ links = fun _ => exLink)
    answers [.name] (some exFleetFile) tr f ∧ overs tr = [(exTracked, .value true), (exTracked, .value true)] ∧ f.batch.exit = some .success := by
  obtain ⟨atr, a, r1, r2, h1, -, -, -, -, h3, -⟩ := ask_answers_udp (lossy := lossyUtf8) (parseIp := fun _ => none)
    ⟨"tracker.example".toList, 6969, []⟩ (exFleetEnv.getter exTracked)
    ⟨some [.v4 ⟨⟨0x0A000001#32⟩, 6969⟩], fun _ => true, fun _ => true⟩ (.v4 ⟨⟨0x0A000001#32⟩, 6969⟩) _
    rfl rfl rfl 0 0 1 1 2 17 18 0 0 0 0xAB [0, 0, 0, 0, 0, 0, 0, 17, 0, 0, 0, 0, 0, 0, 0, 0xAB]
    [0, 0, 0, 1, 0, 0, 0, 18, 0, 0, 7, 8, 0, 0, 0, 1, 0, 0, 0, 1, 1, 2, 3, 4, 0, 5] 0x708 1 1
    [.v4 ⟨⟨0x01020304#32⟩, 5⟩] (by unfold IsConnectResponse At Field; decide +kernel)
    ⟨by unfold At Field; decide +kernel, by unfold At Field; decide +kernel, by unfold At Field; decide +kernel, by unfold At Field; decide +kernel,
      by unfold At Field; decide +kernel, ⟨[1, 2, 3, 4, 0, 5], [], rfl, by unfold IsCompact IsCompact4; decide +kernel, rfl⟩,
      by simp [SockAddr.isV6]⟩
  have key : (fleetExec (fun p : Peer => p.address) Magnet.trackers 1 1 exFleetEvents (Fleet.start (some [exTracked, exTracked]) 2 : MagnetFleet)).isSome = true := by
    rfl
  obtain ⟨⟨tr, f⟩, hx⟩ := Option.isSome_iff_exists.1 key
  have hrun : FleetRun (fun p : Peer => p.address) Magnet.trackers 1 1 (batchLinks nameEnv lossyUtf8 (some exFleetFile)) 2 tr f := by
    rw [exFleet_links]
    simpa using fleetExec_run exFleetEvents .init hx
  have hcode : (getEffects exFleetEnv [.name] (.file ⟨exHash, ascii "de"⟩ [exTracker] [])).2 = .success := by decide +kernel
  have hm : Except.ok [exPeer] ∈ askResults atr := by rw [h3]; exact List.mem_singleton.2 rfl
  have hans : AskOutput.result (.ok [exPeer]) ∈ atr.flatMap Prod.snd := by
    simp only [askResults, List.mem_filterMap] at hm
    obtain ⟨x, hx, hx'⟩ := hm
    cases x <;> simp at hx'
    rw [← hx']; exact hx
  have hlinks : ∀ n m, (∃ eo ∈ tr, .began n m ∈ eo.2) → m = exTracked := by
    rintro n m ⟨eo, heo, hb⟩
    have := (fleet_alone (jobs := 2) (by decide) (by rw [exFleet_links] at hrun; exact hrun) (n := n) (m := m)
      (List.mem_flatMap.2 ⟨eo, heo, hb⟩)).1
    match n, this with
    | 0, h => exact (Option.some.inj h).symm
    | 1, h => exact (Option.some.inj h).symm
    | n + 2, h => simp at h
  refine ⟨fun _ x => x = atr, tr, f, ⟨hrun, ?_, ?_, ?_, ?_, ?_⟩, by cases hx; rfl, by cases hx; rfl⟩
  · refine ⟨fun _ _ => none, ⟨List.replicate 20 9, by decide⟩, false, [], _, _, rfl, ?_⟩
    intro n d m hm
    cases hx
    simp only [List.mem_cons, List.not_mem_nil, or_false, Prod.mk.injEq, reduceCtorEq, false_and, FleetEvent.begins.injEq, false_or] at hm
    rcases hm with ⟨⟨rfl, rfl⟩, -⟩ | ⟨⟨rfl, rfl⟩, -⟩ <;> exact .inl ⟨_, rfl⟩
  · rintro n m hb eo heo p r hp
    obtain rfl := hlinks n m hb
    clear hlinks hb hrun key
    have : p = exPeer ∧ r = .value (.ok ⟨exHash, ascii "de"⟩) := by
      cases hx
      simp only [List.mem_cons, List.not_mem_nil, or_false] at heo
      rcases heo with rfl | rfl | rfl | rfl | rfl | rfl | rfl | rfl | rfl | rfl | rfl | rfl | rfl | rfl | rfl | rfl | rfl | rfl | rfl | rfl | rfl | rfl | rfl | rfl | rfl | rfl | rfl | rfl | rfl | rfl | rfl | rfl | rfl | rfl | rfl | rfl | rfl | rfl <;> simp [trackerPeers] at hp
      all_goals exact ⟨hp.2.1, hp.2.2⟩
    obtain ⟨rfl, rfl⟩ := this
    exact ⟨fun _ => exLink, ⟨rfl, rfl⟩, by
      show taskOutcome (peerTask (fun _ => List.replicate 20 7) ⟨List.replicate 20 9, by decide⟩ .ifRequired exHash exPeer _) = _
      rw [exTask]; rfl⟩
  · rintro n m hb eo heo t ps hp
    obtain rfl := hlinks n m hb
    clear hlinks hb hrun key
    have : ps = [exPeer] ∧ t = exTracker ∧ eo.1 = .goesOn n (.trackerEnds 0 (.value (.ok [exPeer]))) := by
      cases hx
      simp only [List.mem_cons, List.not_mem_nil, or_false] at heo
      rcases heo with rfl | rfl | rfl | rfl | rfl | rfl | rfl | rfl | rfl | rfl | rfl | rfl | rfl | rfl | rfl | rfl | rfl | rfl | rfl | rfl | rfl | rfl | rfl | rfl | rfl | rfl | rfl | rfl | rfl | rfl | rfl | rfl | rfl | rfl | rfl | rfl | rfl | rfl <;> simp [trackerPeers] at hp
      all_goals obtain ⟨rfl, rfl, rfl⟩ := hp; exact ⟨rfl, rfl, rfl⟩
    obtain ⟨rfl, rfl, he⟩ := this
    exact ⟨0, atr, a, .ok [exPeer], h1, rfl, hans, rfl, he⟩
  · intro eo heo n t hp
    clear hlinks hrun key
    cases hx
    simp only [List.mem_cons, List.not_mem_nil, or_false] at heo
    rcases heo with rfl | rfl | rfl | rfl | rfl | rfl | rfl | rfl | rfl | rfl | rfl | rfl | rfl | rfl | rfl | rfl | rfl | rfl | rfl | rfl | rfl | rfl | rfl | rfl | rfl | rfl | rfl | rfl | rfl | rfl | rfl | rfl | rfl | rfl | rfl | rfl | rfl | rfl <;> simp [trackerPeers] at hp
  · intro w sv n m o hm r hr
    refine ⟨exFleetEnv.now, exFleetEnv.fileOk, fun _ => ?_⟩
    clear hlinks hrun key
    have : sv = .value true ∧ (n = 0 ∨ n = 1) := by
      clear hr
      cases hx
      simp only [List.mem_cons, List.not_mem_nil, or_false, Prod.mk.injEq, reduceCtorEq, false_and, FleetEvent.ends.injEq, false_or] at hm
      rcases hm with ⟨⟨rfl, rfl⟩, h⟩ | ⟨⟨rfl, rfl⟩, h⟩
      · cases h; exact ⟨rfl, .inl rfl⟩
      · cases h; exact ⟨rfl, .inr rfl⟩
    obtain ⟨rfl, hn⟩ := this
    have : r = .file ⟨exHash, ascii "de"⟩ [exTracker] [] := by
      cases hx
      rcases hn with rfl | rfl <;> exact (Option.some.inj hr).symm
    rw [this]
    show _ = jobOutcome (getEffects exFleetEnv [.name] _).2
    rw [hcode]
    rfl

end Demag.Props
