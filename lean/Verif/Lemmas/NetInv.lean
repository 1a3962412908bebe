import Verif.Lemmas.NetBatch
import Verif.Props.DhtTime
import Verif.Spec.NetBatch

/-!
# Auxiliary facts about a batch with all its conversations: what holds at any time
-/

namespace Demag

open Spec Props

section
variable {M T P A D I ε : Type} [DecidableEq A] {addr : P → A} {trackers : M → List T} {jobsT jobsP : Nat}

/-- The steps of a batch with its downloads. -/
inductive FleetMove (addr : P → A) (trackers : M → List T) (jobsT jobsP : Nat) (f f' : Fleet M T P A D I ε) :
    FleetEvent P D I ε → List (FleetOutput M T P D I ε) → Prop
  | batch {be b} : f' = { f with batch := b } → FleetMove addr trackers jobsT jobsP f f' (.batch be) []
  | begins {n d m} : runningJob f.batch.nursery n = some m → f.work n = none → f' = Fleet.put f n (Resolve.start (trackers m) d jobsT jobsP) →
      FleetMove addr trackers jobsT jobsP f f' (.begins n d) [.began n m]
  | goesOn {n re m r r' o} : runningJob f.batch.nursery n = some m → f.work n = some r → r.step addr (trackers m) re = some (r', o) →
      f' = Fleet.put f n r' → FleetMove addr trackers jobsT jobsP f f' (.goesOn n re) (o.map (.output n))
  | ends {w sv n m r b} : f.batch.nursery.workers[w]? = some (.running n m) → (f.work n).bind Resolve.result = some r → f' = { f with batch := b } →
      FleetMove addr trackers jobsT jobsP f f' (.ends w sv) [.over n m (downloadOver sv r)]
  | leftover {n ne r q o} : f.work n = some r → r.result.isSome = true → ne.afterDrop = true → r.peers.step ne = some (q, o) →
      f' = Fleet.put f n { r with peers := q } → FleetMove addr trackers jobsT jobsP f f' (.leftover n ne) []

theorem fleet_moves {f f' : Fleet M T P A D I ε} {e : FleetEvent P D I ε} {out : List (FleetOutput M T P D I ε)}
    (hs : f.step addr trackers jobsT jobsP e = some (f', out)) : FleetMove addr trackers jobsT jobsP f f' e out := by
  unfold Fleet.step at hs
  split at hs
  · cases hs
  cases e with
  | batch be =>
    cases be with
    | ends w o => cases hs
    | _ =>
      simp only [Option.map_eq_some_iff] at hs
      obtain ⟨⟨b, bo⟩, hstep, hs⟩ := hs
      cases hs
      exact .batch rfl
  | begins n d =>
    simp only at hs
    split at hs
    · rename_i m hm hw
      cases hs
      exact .begins hm hw rfl
    · cases hs
  | goesOn n re =>
    simp only at hs
    split at hs
    · rename_i m r hm hw
      rw [Option.map_eq_some_iff] at hs
      obtain ⟨⟨r', o⟩, hr, hs⟩ := hs
      cases hs
      exact .goesOn hm hw hr rfl
    · cases hs
  | ends w sv =>
    simp only at hs
    split at hs
    · rename_i n m hw
      split at hs
      · rename_i r hr
        rw [Option.map_eq_some_iff] at hs
        obtain ⟨b, hb, hs⟩ := hs
        cases hs
        exact .ends hw hr rfl
      · cases hs
    · cases hs
  | leftover n ne =>
    simp only at hs
    split at hs
    · rename_i r hr
      split at hs
      · rename_i hc
        rw [Bool.and_eq_true] at hc
        rw [Option.map_eq_some_iff] at hs
        obtain ⟨⟨q, o⟩, hq, hs⟩ := hs
        cases hs
        exact .leftover hr hc.1 hc.2 hq rfl
      · cases hs
    · cases hs

theorem put_same (f : Fleet M T P A D I ε) (n : Nat) (r : Resolve T P A D I ε) : (Fleet.put f n r).work n = some r := by simp [Fleet.put]

theorem put_other (f : Fleet M T P A D I ε) {n k : Nat} (r : Resolve T P A D I ε) (h : k ≠ n) : (Fleet.put f n r).work k = f.work k := by simp [Fleet.put, h]

end

theorem setAt_same {α : Type} (f : Nat → α) (n : Nat) (x : α) : setAt f n x n = x := by simp [setAt]

theorem setAt_other {α : Type} (f : Nat → α) {n k : Nat} (x : α) (h : k ≠ n) : setAt f n x k = f k := by simp [setAt, h]

section
variable {sha1 : Bytes → Bytes} {env : GetEnv} {resolve : Text → BitVec 16 → Option (List SockAddr)} {template : List TemplateElement} {ms : List Magnet}

/-- A step of the program itself, and what it owes to the tasks and to the DHT. -/
structure InnerMove (sha1 : Bytes → Bytes) (env : GetEnv) (template : List TemplateElement) (s s' : NetBatch)
    (fe : FleetEvent Peer SockAddr TorrentInfo TaskError) (fo : List (FleetOutput Magnet Tracker Peer SockAddr TorrentInfo TaskError)) : Prop where
  step : s.fleet.step (fun p : Peer => p.address) Magnet.trackers env.cfg.trackers.jobsPerMagnet env.cfg.peers.jobsPerMagnet fe = some (s'.fleet, fo)
  same : s'.dht = s.dht ∧ s'.rest = s.rest ∧ s'.lookups = s.lookups ∧ s'.found = s.found ∧ s'.asks = s.asks ∧ s'.talks = s.talks
  link : (s'.link = s.link ∧ ∀ n d, fe ≠ .begins n d) ∨ ∃ n d m, fe = .begins n d ∧ runningJob s.fleet.batch.nursery n = some m ∧
    s'.link = setAt s.link n (some m) ∧ ((m.trackers = [] ∧ s.found n = some d) ∨ m.trackers ≠ [] ∧ ∃ e, d = .error (.dht e))
  tracker : ∀ n w r, fe = .goesOn n (.trackerEnds w r) → ∃ k t a r0,
    (((s.fleet.work n).bind Resolve.trackers).bind fun q => q.workers[w]?) = some (.running k t) ∧ s.asks n k = some a ∧ a.result = some r0 ∧
      r = .value (r0.mapError .tracker)
  peer : ∀ n w r, fe = .goesOn n (.peerEnds w r) → ∃ k p m ls, ((s.fleet.work n).bind fun r => r.peers.workers[w]?) = some (.running k p) ∧
    s.link n = some m ∧ s.talks n k = some ls ∧ taskOutcome (peerTask sha1 env.localId env.cfg.general.encrypt m.infoHash p ls) = some r
  save : ∀ w sv, fe = .ends w sv → ∃ n m r now fileOk, s.fleet.batch.nursery.workers[w]? = some (.running n m) ∧
    (s.fleet.work n).bind Resolve.result = some r ∧ sv = jobOutcome (getEffects { env with now := now, fileOk := fileOk } template r).2

/-- The steps of a batch with all its conversations. -/
inductive NetMove (sha1 : Bytes → Bytes) (env : GetEnv) (resolve : Text → BitVec 16 → Option (List SockAddr)) (template : List TemplateElement)
    (s s' : NetBatch) : NetEvent → List NetOutput → Prop
  | inner {e fe fo} : InnerMove sha1 env template s s' fe fo → (∀ n k ae, e ≠ .tracker n k ae) → (∀ n w ls, e ≠ .peerBegins n w ls) →
      NetMove sha1 env resolve template s s' e (fo.map .fleet)
  | dht {de lk d o} : (lk = s.lookups ∧ (∀ n, de ≠ .lock n) ∨ ∃ n m, de = .lock n ∧ runningJob s.fleet.batch.nursery n = some m ∧ m.trackers = [] ∧
        s.fleet.work n = none ∧ s.lookups n = none ∧ lk = setAt s.lookups n (some m.infoHash)) →
      s.dht.step (fun n => (lk n).getD ⟨List.replicate 20 0, by decide⟩) resolve env.cfg.dht.bootstrapNodes de = some (d, o) →
      s' = { s with lookups := lk, dht := d, found := hearDht s.found o } → NetMove sha1 env resolve template s s' (.dht de) (o.map .dht)
  | trackerBegins {n w k t q m} : s.trackers n = some q → q.workers[w]? = some (.running k t) → s.link n = some m → s.asks n k = none →
      s' = { s with asks := setAt s.asks n (setAt (s.asks n) k (some ⟨t, ⟨.init, none⟩, none⟩)) } → NetMove sha1 env resolve template s s' (.trackerBegins n w) []
  | tracker {n k e a m r} : s.asks n k = some a → s.link n = some m → a.ask.step env.lossy env.parseIp a.tracker (env.getter m) e = some r →
      s' = { s with asks := setAt s.asks n (setAt (s.asks n) k (some ⟨a.tracker, r.1, a.result.or (askReturned r.2)⟩)) } →
      NetMove sha1 env resolve template s s' (.tracker n k e) (r.2.map (.tracker n k a.tracker))
  | leftover {n ne r q q' o} : s.fleet.work n = some r → r.result.isSome = true → ne.afterDrop = true → s.trackers n = some q → q.step ne = some (q', o) →
      s' = { s with rest := setAt s.rest n (some q') } → NetMove sha1 env resolve template s s' (.trackerLeftover n ne) []
  | peerBegins {n w ls r k p m} : s.fleet.work n = some r → r.peers.workers[w]? = some (.running k p) → s.link n = some m → s.talks n k = none →
      s' = { s with talks := setAt s.talks n (setAt (s.talks n) k (some ls)) } →
      NetMove sha1 env resolve template s s' (.peerBegins n w ls)
        [.peer n p (infoGetterRun sha1 ls ⟨m.infoHash, env.localId, p.address.ip⟩ none env.cfg.general.encrypt p.requiresCrypto).1]

theorem inner_some {s s' : NetBatch} {e : FleetEvent Peer SockAddr TorrentInfo TaskError} {out : List NetOutput} (h : s.inner env e = some (s', out)) :
    ∃ fo, s.fleet.step (fun p : Peer => p.address) Magnet.trackers env.cfg.trackers.jobsPerMagnet env.cfg.peers.jobsPerMagnet e = some (s'.fleet, fo) ∧
      s' = { s with fleet := s'.fleet } ∧ out = fo.map .fleet := by
  unfold NetBatch.inner at h
  rw [Option.map_eq_some_iff] at h
  obtain ⟨⟨f, fo⟩, hf, h⟩ := h
  cases h
  exact ⟨fo, hf, rfl, rfl⟩

theorem net_moves {s s' : NetBatch} {e : NetEvent} {out : List NetOutput} (hs : s.step sha1 env resolve template e = some (s', out)) :
    NetMove sha1 env resolve template s s' e out := by
  have dhtStep : ∀ {x : NetBatch} {de}, x.dhtStep env resolve de = some (s', out) → ∃ d o, out = o.map .dht ∧
      x.dht.step (fun n => (x.lookups n).getD ⟨List.replicate 20 0, by decide⟩) resolve env.cfg.dht.bootstrapNodes de = some (d, o) ∧
      s' = { x with dht := d, found := hearDht x.found o } := by
    intro x de h
    unfold NetBatch.dhtStep at h
    rw [Option.map_eq_some_iff] at h
    obtain ⟨⟨d, o⟩, hd, h⟩ := h
    cases h
    exact ⟨d, o, rfl, hd, rfl⟩
  cases e with
  | fleet fe =>
    simp only [NetBatch.step] at hs
    split at hs
    · rename_i hin
      obtain ⟨fo, h1, h2, rfl⟩ := inner_some hs
      rw [h2]
      refine .inner ⟨h1, by simp, .inl ⟨rfl, ?_⟩, ?_, ?_, ?_⟩ (by simp) (by simp)
      · rintro n d rfl; cases hin
      · rintro n w r rfl; cases hin
      · rintro n w r rfl; cases hin
      · rintro w sv rfl; cases hin
    · cases hs
  | dht de =>
    cases de with
    | lock n =>
      simp only [NetBatch.step] at hs
      split at hs
      · rename_i m hm hw hl
        split at hs
        · rename_i hc
          rw [Bool.and_eq_true, List.isEmpty_iff] at hc
          obtain ⟨d, o, rfl, h1, h2⟩ := dhtStep hs
          exact .dht (.inr ⟨n, m, rfl, hm, hc.1, hw, hl, rfl⟩) h1 h2
        · cases hs
      · cases hs
    | created n my b4 b6 =>
      obtain ⟨d, o, rfl, h1, h2⟩ := dhtStep hs
      exact .dht (.inl ⟨rfl, by simp⟩) h1 h2
    | dropped n =>
      simp only [NetBatch.step] at hs
      split at hs
      · obtain ⟨d, o, rfl, h1, h2⟩ := dhtStep hs
        exact .dht (.inl ⟨rfl, by simp⟩) h1 h2
      · cases hs
    | client ce =>
      obtain ⟨d, o, rfl, h1, h2⟩ := dhtStep hs
      exact .dht (.inl ⟨rfl, by simp⟩) h1 h2
  | begins n =>
    simp only [NetBatch.step] at hs
    split at hs
    · rename_i m hm
      split at hs
      · rename_i d hd
        obtain ⟨fo, h1, h2, rfl⟩ := inner_some hs
        rw [h2]
        refine .inner ⟨h1, by simp, .inr ⟨n, d, m, rfl, hm, rfl, ?_⟩, ?_, ?_, ?_⟩ (by simp) (by simp)
        · split at hd
          · rename_i he
            exact .inl ⟨List.isEmpty_iff.1 he, hd⟩
          · rename_i he
            cases hd
            exact .inr ⟨fun h => he (List.isEmpty_iff.2 h), _, rfl⟩
        · intro _ _ _ h; cases h
        · intro _ _ _ h; cases h
        · intro _ _ h; cases h
      · cases hs
    · cases hs
  | trackerBegins n w =>
    simp only [NetBatch.step] at hs
    split at hs
    · rename_i k t m hq hl
      rw [Option.bind_eq_some_iff] at hq
      obtain ⟨q, hq, hw⟩ := hq
      split at hs
      · rename_i ha
        cases hs
        exact .trackerBegins hq hw hl ha rfl
      · cases hs
    · cases hs
  | tracker n k ae =>
    simp only [NetBatch.step] at hs
    split at hs
    · rename_i a m ha hl
      split at hs
      · cases hs
      · rw [Option.map_eq_some_iff] at hs
        obtain ⟨r, hr, hs⟩ := hs
        cases hs
        exact .tracker ha hl hr rfl
    · cases hs
  | trackerEnds n w =>
    simp only [NetBatch.step] at hs
    split at hs
    · rename_i k t hw
      split at hs
      · rename_i r hr
        rw [Option.bind_eq_some_iff] at hr
        obtain ⟨a, ha, hr⟩ := hr
        obtain ⟨fo, h1, h2, rfl⟩ := inner_some hs
        rw [h2]
        refine .inner ⟨h1, by simp, .inl ⟨rfl, by simp⟩, ?_, ?_, ?_⟩ (by simp) (by simp)
        · intro n' w' r' h
          cases h
          exact ⟨k, t, a, r, hw, ha, hr, rfl⟩
        · intro _ _ _ h; cases h
        · intro _ _ h; cases h
      · cases hs
    · cases hs
  | trackerLeftover n ne =>
    simp only [NetBatch.step] at hs
    split at hs
    · rename_i r hr
      split at hs
      · rename_i hc
        rw [Bool.and_eq_true] at hc
        rw [Option.map_eq_some_iff] at hs
        obtain ⟨⟨q', o⟩, hq, hs⟩ := hs
        rw [Option.bind_eq_some_iff] at hq
        obtain ⟨q, hq, hq'⟩ := hq
        cases hs
        exact .leftover hr hc.1 hc.2 hq hq' rfl
      · cases hs
    · cases hs
  | peerBegins n w ls =>
    simp only [NetBatch.step] at hs
    split at hs
    · rename_i k p m hq hl
      rw [Option.bind_eq_some_iff] at hq
      obtain ⟨r, hr, hw⟩ := hq
      split at hs
      · rename_i ht
        cases hs
        exact .peerBegins hr hw hl ht rfl
      · cases hs
    · cases hs
  | peerEnds n w =>
    simp only [NetBatch.step] at hs
    split at hs
    · rename_i k p m hq hl
      split at hs
      · rename_i ls hls
        split at hs
        · rename_i r hr
          obtain ⟨fo, h1, h2, rfl⟩ := inner_some hs
          rw [h2]
          refine .inner ⟨h1, by simp, .inl ⟨rfl, by simp⟩, ?_, ?_, ?_⟩ (by simp) (by simp)
          · intro _ _ _ h; cases h
          · intro n' w' r' h
            cases h
            exact ⟨k, p, m, ls, hq, hl, hls, hr⟩
          · intro _ _ h; cases h
        · cases hs
      · cases hs
    · cases hs
  | ends w now fileOk =>
    simp only [NetBatch.step] at hs
    split at hs
    · rename_i n m hw
      split at hs
      · rename_i r hr
        obtain ⟨fo, h1, h2, rfl⟩ := inner_some hs
        rw [h2]
        refine .inner ⟨h1, by simp, .inl ⟨rfl, by simp⟩, ?_, ?_, ?_⟩ (by simp) (by simp)
        · intro _ _ _ h; cases h
        · intro _ _ _ h; cases h
        · intro w' sv h
          cases h
          exact ⟨n, m, r, now, fileOk, hw, hr, rfl⟩
      · cases hs
    · cases hs

end

end Demag
