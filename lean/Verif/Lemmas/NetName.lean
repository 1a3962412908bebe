import Verif.Lemmas.NetInv

/-!
# Auxiliary facts about a batch with all its conversations: the links may be replaced
-/

namespace Demag

open Spec Props

section
variable {J K R : Type} (f : J → K)

/-- The jobs are replaced. -/
def Worker.relink : Worker J → Worker K
  | .waiting => .waiting
  | .received n j => .received n (f j)
  | .running n j => .running n (f j)
  | .stopped => .stopped

def Nursery.relink (s : Nursery J R) : Nursery K R :=
  ⟨s.queue.map fun x => (x.1, f x.2), s.closed, s.handles, s.done, s.workers.map (Worker.relink f), s.outputs, s.alive, s.next⟩

def NurseryEvent.relink : NurseryEvent J R → NurseryEvent K R
  | .spawn j => .spawn (f j)
  | .clone => .clone
  | .dropHandle => .dropHandle
  | .close => .close
  | .setDone => .setDone
  | .take w => .take w
  | .check w => .check w
  | .finish w o => .finish w o
  | .exit w => .exit w
  | .recv => .recv
  | .recvNone => .recvNone
  | .dropStream => .dropStream
  | .abort w => .abort w

def NurseryOutput.relink : NurseryOutput J R → NurseryOutput K R
  | .accepted n j => .accepted n (f j)
  | .refused j => .refused (f j)
  | .took n => .took n
  | .began n => .began n
  | .discarded n => .discarded n
  | .finished n o => .finished n o
  | .lost n => .lost n
  | .aborted n => .aborted n
  | .delivered n o => .delivered n o
  | .ended => .ended

theorem relink_worker (s : Nursery J R) (w : Nat) : (s.relink f).workers[w]? = (s.workers[w]?).map (Worker.relink f) := by
  simp [Nursery.relink]

theorem if_some_map {α β : Type} {c d : Prop} [Decidable c] [Decidable d] (h : c ↔ d) {x : α} {y : β} {g : β → α} (hg : g y = x) :
    (if c then some x else none) = (if d then some y else none).map g := by
  by_cases hd : d
  · rw [if_pos hd, if_pos (h.mpr hd), Option.map_some, hg]
  · rw [if_neg hd, if_neg (fun hc => hd (h.mp hc))]; rfl

theorem relink_step (s : Nursery J R) (e : NurseryEvent J R) :
    (s.relink f).step (e.relink f) = (s.step e).map fun r => (r.1.relink f, r.2.map (NurseryOutput.relink f)) := by
  have hw := relink_worker f s
  cases e with
  | take w =>
    simp only [NurseryEvent.relink, Nursery.step, hw]
    cases h1 : s.workers[w]? with
    | none => rfl
    | some x =>
      cases x <;> try rfl
      cases h2 : s.queue with
      | nil => simp [Nursery.relink, h2, Worker.relink]
      | cons y q => obtain ⟨n, j⟩ := y; simp [Nursery.relink, h2, Worker.relink, NurseryOutput.relink, List.map_set]
  | check w =>
    simp only [NurseryEvent.relink, Nursery.step, hw]
    cases h1 : s.workers[w]? with
    | none => rfl
    | some x =>
      cases x <;> try rfl
      by_cases hd : s.done = true <;> simp [hd, Nursery.relink, Worker.relink, NurseryOutput.relink, List.map_set]
  | finish w o =>
    simp only [NurseryEvent.relink, Nursery.step, hw]
    cases h1 : s.workers[w]? with
    | none => rfl
    | some x =>
      cases x <;> try rfl
      by_cases hd : s.alive = true <;> simp [hd, Nursery.relink, Worker.relink, NurseryOutput.relink, List.map_set]
  | exit w =>
    simp only [NurseryEvent.relink, Nursery.step, hw]
    cases h1 : s.workers[w]? with
    | none => rfl
    | some x =>
      cases x <;> try rfl
      cases h2 : s.queue with
      | nil =>
        simp only [Option.map_some, Worker.relink, Nursery.relink, h2, List.map_nil]
        split <;> simp [Worker.relink, List.map_set]
      | cons y q => simp [Nursery.relink, h2, Worker.relink]
  | abort w =>
    simp only [NurseryEvent.relink, Nursery.step, hw]
    by_cases hd : s.alive = true
    · simp [hd, Nursery.relink]
    · cases h1 : s.workers[w]? with
      | none => simp [hd, Nursery.relink]
      | some x => cases x <;> simp [hd, Nursery.relink, Worker.relink, NurseryOutput.relink, List.map_set]
  | spawn j =>
    simp only [NurseryEvent.relink, Nursery.step]
    by_cases h0 : s.handles = 0 <;> by_cases hc : s.closed = true <;> simp [h0, hc, Nursery.relink, NurseryOutput.relink]
  | recv =>
    simp only [NurseryEvent.relink, Nursery.step]
    by_cases hd : s.alive = true
    · cases h : s.outputs with
      | nil => simp [hd, h, Nursery.relink]
      | cons y q => obtain ⟨n, o⟩ := y; simp [hd, h, Nursery.relink, NurseryOutput.relink]
    · simp [hd, Nursery.relink]
  | recvNone =>
    simp only [NurseryEvent.relink, Nursery.step]
    refine if_some_map ?_ rfl
    rw [Bool.and_eq_true, Bool.and_eq_true (s.alive && _)]
    refine and_congr Iff.rfl ?_
    rw [show (s.relink f).workers = s.workers.map (Worker.relink f) from rfl, List.all_map]
    refine iff_of_eq ?_
    congr 2
    funext x
    cases x <;> rfl
  | setDone =>
    simp only [NurseryEvent.relink, Nursery.step]
    exact if_some_map Iff.rfl rfl
  | dropStream =>
    simp only [NurseryEvent.relink, Nursery.step]
    exact if_some_map Iff.rfl rfl
  | clone =>
    simp only [NurseryEvent.relink, Nursery.step]
    by_cases h0 : s.handles = 0 <;> simp [h0, Nursery.relink]
  | dropHandle =>
    simp only [NurseryEvent.relink, Nursery.step]
    by_cases h0 : s.handles = 0 <;> simp [h0, Nursery.relink]
  | close =>
    simp only [NurseryEvent.relink, Nursery.step]
    by_cases h0 : s.handles = 0 <;> by_cases ha : s.alive = true <;> simp [h0, ha, Nursery.relink]

theorem relink_running (s : Nursery J R) (n : Nat) : runningJob (s.relink f) n = (runningJob s n).map f := by
  unfold runningJob
  simp only [Nursery.relink]
  induction s.workers with
  | nil => rfl
  | cons x l ih =>
    rw [List.map_cons, List.findSome?_cons, List.findSome?_cons]
    cases x with
    | running k j =>
      simp only [Worker.relink]
      by_cases h : k = n
      · simp [h]
      · simp only [h, if_false]; exact ih
    | _ => simp only [Worker.relink]; exact ih

end

section
variable {M N : Type} (f : M → N)

def Batch.relink (b : Batch M) : Batch N := ⟨b.todo.map f, b.nursery.relink f, b.dropped, b.success, b.total, b.exit⟩

theorem batch_relink (b : Batch M) (e : BatchEvent) :
    (b.relink f).step e = (b.step e).map fun r => (r.1.relink f, r.2.map fun x => (f x.1, x.2)) := by
  have hw := relink_worker f b.nursery
  unfold Batch.step
  cases hx : b.exit with
  | some c => simp [Batch.relink, hx]
  | none =>
    simp only [Batch.relink, hx]
    cases e with
    | spawn =>
      cases ht : b.todo with
      | nil => rfl
      | cons m ms =>
        have := relink_step f b.nursery (.spawn m)
        simp only [NurseryEvent.relink] at this
        simp only [List.map_cons, this]
        cases hs : b.nursery.step (.spawn m) with
        | none => rfl
        | some r =>
          obtain ⟨n, o⟩ := r
          have : (∃ k j, o = [.accepted k j]) ∨ (∃ j, o = [.refused j]) := by
            simp only [Nursery.step] at hs
            (repeat' split at hs) <;> cases hs <;> simp
          rcases this with ⟨k, j, rfl⟩ | ⟨j, rfl⟩ <;> simp [NurseryOutput.relink, Batch.relink, ht, hx]
    | dropHandle =>
      have := relink_step f b.nursery .dropHandle
      simp only [NurseryEvent.relink] at this
      simp only [List.isEmpty_map, this]
      simp only [Option.isSome_none, Bool.false_eq_true, if_false]
      split
      · cases b.nursery.step .dropHandle <;> simp [Batch.relink, hx]
      · rfl
    | take w =>
      have := relink_step f b.nursery (.take w)
      simp only [NurseryEvent.relink] at this
      simp only [this]
      cases b.nursery.step (.take w) <;> simp [Batch.relink, hx]
    | check w =>
      have := relink_step f b.nursery (.check w)
      simp only [NurseryEvent.relink] at this
      simp only [this]
      cases b.nursery.step (.check w) <;> simp [Batch.relink, hx]
    | workerExit w =>
      have := relink_step f b.nursery (.exit w)
      simp only [NurseryEvent.relink] at this
      simp only [this]
      cases b.nursery.step (.exit w) <;> simp [Batch.relink, hx]
    | ends w o =>
      have := relink_step f b.nursery (.finish w o)
      simp only [NurseryEvent.relink] at this
      simp only [this, hw]
      simp only [Option.isSome_none, Bool.false_eq_true, if_false]
      cases h1 : b.nursery.workers[w]? with
      | none => rfl
      | some x =>
        cases x <;> try rfl
        simp only [Option.map_some, Worker.relink]
        cases b.nursery.step (.finish w o) <;> simp [Batch.relink, hx]
    | receive =>
      have := relink_step f b.nursery .recv
      simp only [NurseryEvent.relink] at this
      simp only [this]
      simp only [Option.isSome_none, Bool.false_eq_true, if_false]
      split
      · cases hs : b.nursery.step .recv with
        | none => rfl
        | some r =>
          obtain ⟨n, o⟩ := r
          have : ∃ k x, o = [.delivered k x] := by
            simp only [Nursery.step] at hs
            (repeat' split at hs) <;> cases hs <;> simp
          obtain ⟨k, x, rfl⟩ := this
          cases x <;> simp [NurseryOutput.relink, Batch.relink, hx]
      · rfl
    | receiveNone =>
      have := relink_step f b.nursery .recvNone
      simp only [NurseryEvent.relink] at this
      simp only [this]
      simp only [Option.isSome_none, Bool.false_eq_true, if_false]
      split
      · cases hs : b.nursery.step .recvNone with
        | none => rfl
        | some r => simp [Batch.relink]
      · rfl

theorem start_relink (ms : Option (List M)) (jobs : Nat) : (Batch.start ms jobs).relink f = Batch.start (ms.map (List.map f)) jobs := by
  have hn : (Nursery.new jobs : Nursery M Bool).relink f = Nursery.new jobs := by simp [Nursery.relink, Nursery.new, Worker.relink]
  rcases ms with _ | ⟨_ | ⟨m, ms⟩⟩ <;> simp [Batch.start, Batch.relink, hn]

variable {T P A D I ε : Type} [DecidableEq A]

def Fleet.relink (F : Fleet M T P A D I ε) : Fleet N T P A D I ε := ⟨F.batch.relink f, F.work⟩

def FleetOutput.relink : FleetOutput M T P D I ε → FleetOutput N T P D I ε
  | .began n m => .began n (f m)
  | .output n o => .output n o
  | .over n m o => .over n (f m) o

theorem fleet_relink {addr : P → A} {trackers : M → List T} {trackers' : N → List T} {jobsT jobsP : Nat} (ht : ∀ m, trackers' (f m) = trackers m)
    (F : Fleet M T P A D I ε) (e : FleetEvent P D I ε) :
    (F.relink f).step addr trackers' jobsT jobsP e =
      (F.step addr trackers jobsT jobsP e).map fun r => (r.1.relink f, r.2.map (FleetOutput.relink f)) := by
  have hb := batch_relink f F.batch
  have hr := relink_running f F.batch.nursery
  have hw := relink_worker f F.batch.nursery
  unfold Fleet.step
  have hx : (F.relink f).batch.exit = F.batch.exit := rfl
  have hwork : (F.relink f).work = F.work := rfl
  have hbb : (F.relink f).batch = F.batch.relink f := rfl
  have hnn : (F.relink f).batch.nursery = F.batch.nursery.relink f := rfl
  rw [hx]
  split
  · rfl
  · cases e with
    | batch be =>
      cases be with
      | ends w o => rfl
      | _ =>
        simp only [hbb, hb, Option.map_map]
        rfl
    | begins n d =>
      simp only [hnn, hr, hwork]
      cases runningJob F.batch.nursery n with
      | none => rfl
      | some m =>
        cases F.work n with
        | some x => rfl
        | none =>
          simp only [Option.map_some, ht]
          rfl
    | goesOn n re =>
      simp only [hnn, hr, hwork]
      cases runningJob F.batch.nursery n with
      | none => rfl
      | some m =>
        cases F.work n with
        | none => rfl
        | some x =>
          simp only [Option.map_some, ht, Option.map_map]
          congr 1
          funext r
          simp only [Function.comp_apply, Fleet.relink, List.map_map, Prod.mk.injEq, true_and]
          rfl
    | ends w sv =>
      simp only [hnn, hw, hwork]
      cases F.batch.nursery.workers[w]? with
      | none => rfl
      | some x =>
        cases x <;> try rfl
        rename_i n m
        simp only [Option.map_some, Worker.relink]
        cases (F.work n).bind Resolve.result with
        | none => rfl
        | some r =>
          simp only [hbb, hb, Option.map_map]
          rfl
    | leftover n ne =>
      simp only [hwork]
      cases F.work n with
      | none => rfl
      | some r =>
        simp only
        split
        · rw [Option.map_map]; rfl
        · rfl

end

section
variable {sha1 : Bytes → Bytes} {env : GetEnv} {resolve : Text → BitVec 16 → Option (List SockAddr)} {template : List TemplateElement}

/-- A link without its name. -/
def Magnet.unnamed (m : Magnet) : Magnet := ⟨m.infoHash, none, m.trackers⟩

def NetBatch.unnamed (s : NetBatch) : NetBatch := { s with fleet := s.fleet.relink Magnet.unnamed, link := fun n => (s.link n).map Magnet.unnamed }

def NetOutput.unnamed : NetOutput → NetOutput
  | .fleet o => .fleet (o.relink Magnet.unnamed)
  | o => o

theorem inner_unnamed (s : NetBatch) (e : FleetEvent Peer SockAddr TorrentInfo TaskError) :
    s.unnamed.inner env e = (s.inner env e).map fun r => (r.1.unnamed, r.2.map NetOutput.unnamed) := by
  unfold NetBatch.inner
  have : s.unnamed.fleet = s.fleet.relink Magnet.unnamed := rfl
  rw [this, fleet_relink Magnet.unnamed (trackers := Magnet.trackers) (fun _ => rfl), Option.map_map, Option.map_map]
  congr 1
  funext r
  simp only [Function.comp_apply, List.map_map, Prod.mk.injEq]
  exact ⟨rfl, rfl⟩

theorem unnamed_dht (o : List AppDhtOutput) : (o.map NetOutput.dht).map NetOutput.unnamed = o.map .dht := by
  rw [List.map_map]; rfl

theorem dht_unnamed (s : NetBatch) (e : AppDhtEvent) :
    s.unnamed.dhtStep env resolve e = (s.dhtStep env resolve e).map fun r => (r.1.unnamed, r.2.map NetOutput.unnamed) := by
  unfold NetBatch.dhtStep
  rw [Option.map_map]
  simp only [NetBatch.unnamed]
  congr 1
  funext r
  simp only [Function.comp_apply, unnamed_dht]

theorem net_unnamed (s : NetBatch) (e : NetEvent) :
    s.unnamed.step sha1 env resolve template e = (s.step sha1 env resolve template e).map fun r => (r.1.unnamed, r.2.map NetOutput.unnamed) := by
  have hr : ∀ n, runningJob s.unnamed.fleet.batch.nursery n = (runningJob s.fleet.batch.nursery n).map Magnet.unnamed := relink_running _ _
  have hwk : ∀ w : Nat, s.unnamed.fleet.batch.nursery.workers[w]? = (s.fleet.batch.nursery.workers[w]?).map (Worker.relink Magnet.unnamed) := relink_worker _ _
  have hwork : s.unnamed.fleet.work = s.fleet.work := rfl
  have hlink : ∀ n, s.unnamed.link n = (s.link n).map Magnet.unnamed := fun _ => rfl
  cases e with
  | fleet fe =>
    simp only [NetBatch.step]
    split
    · exact inner_unnamed s fe
    · rfl
  | dht de =>
    cases de with
    | lock n =>
      simp only [NetBatch.step]
      rw [hr n, hwork, show s.unnamed.lookups = s.lookups from rfl]
      cases runningJob s.fleet.batch.nursery n with
      | none => rfl
      | some m =>
        cases s.fleet.work n with
        | some x => rfl
        | none =>
          cases s.lookups n with
          | some x => rfl
          | none =>
            simp only [Option.map_some]
            rw [show m.unnamed.trackers = m.trackers from rfl, show s.unnamed.fleet.batch.exit = s.fleet.batch.exit from rfl]
            split
            · exact dht_unnamed { s with lookups := setAt s.lookups n (some m.infoHash) } _
            · rfl
    | created n my b4 b6 => exact dht_unnamed s _
    | dropped n =>
      simp only [NetBatch.step]
      rw [show s.unnamed.fleet.batch.exit = s.fleet.batch.exit from rfl]
      split
      · exact dht_unnamed s _
      · rfl
    | client ce => exact dht_unnamed s _
  | begins n =>
    simp only [NetBatch.step]
    rw [hr n]
    cases runningJob s.fleet.batch.nursery n with
    | none => rfl
    | some m =>
      simp only [Option.map_some]
      rw [show m.unnamed.trackers = m.trackers from rfl, show s.unnamed.found = s.found from rfl]
      split
      · rename_i d _
        rw [← inner_unnamed]
        congr 1
        unfold NetBatch.unnamed
        simp only [NetBatch.mk.injEq, true_and, and_true]
        funext k
        simp only [setAt]
        split <;> rfl
      · rfl
  | trackerBegins n w =>
    simp only [NetBatch.step]
    rw [show s.unnamed.trackers n = s.trackers n from rfl, hlink n, show s.unnamed.asks = s.asks from rfl]
    cases (s.trackers n).bind fun q => q.workers[w]? with
    | none => rfl
    | some x =>
      cases x <;> try rfl
      cases s.link n with
      | none => rfl
      | some m =>
        rename_i k t
        simp only [Option.map_some]
        cases s.asks n k <;> rfl
  | tracker n k ae =>
    simp only [NetBatch.step]
    rw [hlink n, show s.unnamed.asks = s.asks from rfl, show s.unnamed.lettingGo n = s.lettingGo n from rfl]
    cases s.asks n k with
    | none => rfl
    | some a =>
      cases s.link n with
      | none => rfl
      | some m =>
        simp only [Option.map_some]
        split
        · rfl
        · rw [show env.getter m.unnamed = env.getter m from rfl, Option.map_map]
          congr 1
          funext r
          simp only [Function.comp_apply, List.map_map, Prod.mk.injEq]
          exact ⟨rfl, rfl⟩
  | trackerEnds n w =>
    simp only [NetBatch.step]
    rw [hwork, show s.unnamed.asks = s.asks from rfl]
    split
    · split
      · exact inner_unnamed s _
      · rfl
    · rfl
  | trackerLeftover n ne =>
    simp only [NetBatch.step]
    rw [hwork, show s.unnamed.trackers n = s.trackers n from rfl]
    split
    · split
      · rw [Option.map_map]; rfl
      · rfl
    · rfl
  | peerBegins n w ls =>
    simp only [NetBatch.step]
    rw [hwork, hlink n, show s.unnamed.talks = s.talks from rfl]
    cases (s.fleet.work n).bind fun r => r.peers.workers[w]? with
    | none => rfl
    | some x =>
      cases x <;> try rfl
      cases s.link n with
      | none => rfl
      | some m =>
        rename_i k p
        simp only [Option.map_some]
        cases s.talks n k <;> rfl
  | peerEnds n w =>
    simp only [NetBatch.step]
    rw [hwork, hlink n, show s.unnamed.talks = s.talks from rfl]
    cases (s.fleet.work n).bind fun r => r.peers.workers[w]? with
    | none => rfl
    | some x =>
      cases x <;> try rfl
      cases s.link n with
      | none => rfl
      | some m =>
        rename_i k p
        simp only [Option.map_some]
        cases s.talks n k with
        | none => rfl
        | some ls =>
          simp only
          rw [show m.unnamed.infoHash = m.infoHash from rfl]
          split
          · exact inner_unnamed s _
          · rfl
  | ends w now fileOk =>
    simp only [NetBatch.step]
    rw [hwk w, hwork]
    cases s.fleet.batch.nursery.workers[w]? with
    | none => rfl
    | some x =>
      cases x <;> try rfl
      rename_i n m
      simp only [Option.map_some, Worker.relink]
      split
      · exact inner_unnamed s _
      · rfl

end

end Demag
