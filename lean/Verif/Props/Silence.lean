import Verif.Lemmas.SilenceAsk
import Verif.Props.NetBatch
import Verif.Props.FleetEnds

/-!
# C106: if everybody falls silent, the batch still comes to its end
-/

namespace Demag

open Spec Props

section
variable {sha1 : Bytes → Bytes} {env : GetEnv} {resolve : Text → BitVec 16 → Option (List SockAddr)} {template : List TemplateElement} {ms : List Magnet}
  {tr : NetTrace} {s s' : NetBatch} {e : NetEvent} {out : List NetOutput}

/-- A peer that nobody can connect to. -/
def deadLinks : Nat → Link := fun _ => ⟨.fail, .fail, [], .eof, fun _ => .fail⟩

theorem dead_no_stall {l : Link} (h : l.connect ≠ .ok) (ctx : PeerCtx) (enc : Bool) : ¬ Stalls l ctx enc := by
  rintro ⟨_, _, _, _, ⟨_, _, hg, -⟩, -⟩
  exact h hg.1.1.1

theorem some_of {α β : Type} {o : Option (α × β)} (h : o.isSome = true) : ∃ a b, o = some (a, b) := by
  cases o with
  | none => cases h
  | some x => exact ⟨x.1, x.2, rfl⟩

/-- If the DHT has a lookup to do for a download, something can happen with it. -/
theorem dht_progress (hj : 0 < env.cfg.general.batchJobs) {ftr : MagnetFleetTrace} (hp : ProgInv env ms tr ftr s) (v : HushInv env resolve ms tr s)
    (hx : s.fleet.batch.exit = none) (hb : env.cfg.dht.bootstrapNodes.length * ms.length + 8 * (dhtPackets tr).length ≤ 2 ^ 32) {n : Nat} {m : Magnet}
    (hr : runningJob s.fleet.batch.nursery n = some m) (hw : s.fleet.work n = none) (hm : m.trackers = []) (hf : s.found n = none) :
    ∃ e s' out, Silent e ∧ s.step sha1 env resolve template e = some (s', out) := by
  have hc := v.dht.cell.client
  -- somebody is waiting for a client
  have held : ∀ t b, s.dht.cell.holder = some (t, b) → ∃ e s' out, Silent e ∧ s.step sha1 env resolve template e = some (s', out) := by
    intro t b ht
    have := v.dht.cell.holder t b ht
    subst this
    refine ⟨.dht (.created t ⟨List.replicate 20 0, by decide⟩ .failed .failed), ?_⟩
    have : (s.step sha1 env resolve template (.dht (.created t ⟨List.replicate 20 0, by decide⟩ .failed .failed))).isSome = true := by
      simp [NetBatch.step, NetBatch.dhtStep, AppDht.step, DhtState.create, UdpHandle.new, DhtCell.step, ht]
    obtain ⟨a, b, h⟩ := some_of this
    exact ⟨a, b, trivial, h⟩
  cases hh : s.dht.cell.holder with
  | some x => exact held x.1 x.2 hh
  | none =>
    cases hl : s.lookups n with
    | none =>
      refine ⟨.dht (.lock n), ?_⟩
      have : (s.step sha1 env resolve template (.dht (.lock n))).isSome = true := by
        simp only [NetBatch.step, hr, hw, hl, hm, hx, List.isEmpty_nil, Option.isNone_none, Bool.and_self, if_true, NetBatch.dhtStep, Option.isSome_map,
          AppDht.step, DhtCell.step, hh]
        cases hcl : s.dht.client with
        | none =>
          rw [hcl] at hc
          rw [hc]
          rfl
        | some a =>
          rw [hcl] at hc
          obtain ⟨k, hk⟩ := Option.isSome_iff_exists.1 hc.1
          rw [hk]
          simp only [Option.isSome_map]
          simp only [DhtState.step]
          split <;> rfl
      obtain ⟨a, b, h⟩ := some_of this
      exact ⟨a, b, trivial, h⟩
    | some ih =>
      -- its lookup waits
      have hn : n ∈ lookupsBegun (dhtEvents tr) := by rw [v.dht.begun, hl]; rfl
      have hn' := (v.dht.cell.count.mem_iff).1 hn
      rw [v.dht.kept hx, List.append_nil, List.mem_append] at hn'
      have hwait : n ∈ waitingTasks s.dht := by
        rcases hn' with h | h
        · have := v.dht.ended n h
          rw [hf] at this
          cases this
        · exact h
      cases hcl : s.dht.client with
      | none =>
        unfold waitingTasks at hwait
        rw [hh, hcl] at hwait
        cases hwait
      | some a =>
        have hpend : a.pending ≠ [] := by
          unfold waitingTasks at hwait
          rw [hh, hcl] at hwait
          intro h
          unfold DhtState.pending at h
          simp only [List.nil_append] at hwait
          rw [h] at hwait
          cases hwait
        obtain ⟨my, v6, des, dtr, r1, r2, r3⟩ := v.dht.client a hcl
        have hlen : (lookupsBegun (dhtEvents tr)).length ≤ ms.length := by
          have hsub : lookupsBegun (dhtEvents tr) ⊆ List.range ms.length := fun k hk => List.mem_range.2 (v.dht.range k hk)
          have := (v.dht.nodup.subperm hsub).length_le
          rwa [List.length_range] at this
        have hbo := bootstrap_few my v6 des r1
        have hq := queries_few my v6 des r1
        have hmul : (bootstrapOf des).length * (submitted des).length ≤ env.cfg.dht.bootstrapNodes.length * ms.length := Nat.mul_le_mul hbo (by omega)
        have hone : env.cfg.dht.bootstrapNodes.length ≤ env.cfg.dht.bootstrapNodes.length * ms.length :=
          Nat.le_mul_of_pos_right _ (Nat.lt_of_le_of_lt (Nat.zero_le _) (v.dht.range n hn))
        obtain ⟨ev, h1, h2⟩ := pending_progress my v6 des r1 (by omega) (by omega) hpend
        obtain ⟨a', eo, h2⟩ := some_of h2
        refine ⟨.dht (.client ev), ?_⟩
        have hsub : ev.isSubmit = false := by
          cases ev with
          | submit m => cases h1
          | _ => rfl
        have : (s.step sha1 env resolve template (.dht (.client ev))).isSome = true := by
          simp [NetBatch.step, NetBatch.dhtStep, AppDht.step, hcl, hsub, h2]
        obtain ⟨x, y, h⟩ := some_of this
        exact ⟨x, y, h1, h⟩

/-- A sum gets less if one of the numbers does. -/
theorem sum_drops {f g : Nat → Nat} {n N : Nat} (hn : n < N) (hlt : f n < g n) (heq : ∀ k, k ≠ n → f k = g k) :
    ((List.range N).map f).sum < ((List.range N).map g).sum := by
  have h := sum_put g n (f n) N hn
  have : f = fun k => if k = n then f n else g k := by
    funext k
    by_cases hk : k = n
    · rw [if_pos hk, hk]
    · rw [if_neg hk, heq k hk]
  rw [← this] at h
  omega

/-- What is left of a nursery gets less. -/
theorem afterDrop_decreases {J R : Type} {q q' : Nursery J R} {e : NurseryEvent J R} {o : List (NurseryOutput J R)} (ha : e.afterDrop = true)
    (hs : q.step e = some (q', o)) : weight q' + (if q'.alive then 1 else 0) < weight q + (if q.alive then 1 else 0) := by
  have hal := alive_step hs
  have hle : (if q'.alive = true then 1 else 0) ≤ if q.alive = true then 1 else 0 := by
    split
    · rename_i h; rw [if_pos (hal h)]
    · exact Nat.zero_le _
  cases e with
  | take w => have := nursery_terminates _ _ _ _ (by trivial) hs; omega
  | check w => have := nursery_terminates _ _ _ _ (by trivial) hs; omega
  | finish w o => have := nursery_terminates _ _ _ _ (by trivial) hs; omega
  | dropStream =>
    simp only [Nursery.step] at hs
    split at hs
    case isFalse => cases hs
    rename_i h
    cases hs
    simp [h, weight]
  | abort w =>
    simp only [Nursery.step] at hs
    split at hs
    · cases hs
    · split at hs
      case h_4 => cases hs
      all_goals
        rename_i hw
        cases hs
        have := sum_set (.stopped) hw
        simp only [workerWeight] at this
        simp only [weight]
        omega
  | _ => cases ha

/-- What is left to do in the task that asks a tracker. -/
def askWeight : Option AskTask → Nat
  | none => 5
  | some a => getterWeight a.ask.getter

/-- What is left to do in what a download has begun. -/
def taskWeight (ms : List Magnet) (s : NetBatch) (n : Nat) : Nat :=
  ((List.range ((ms[n]?.map fun m => m.trackers.length).getD 0)).map fun k => askWeight (s.asks n k)).sum +
  (match s.trackers n with | some q => weight q + (if q.alive then 1 else 0) | none => 0) +
  ((List.range (match s.fleet.work n with | some r => r.peers.next | none => 0)).map fun k => if (s.talks n k).isNone then 1 else 0).sum

/-- What is left to do in the DHT client. -/
def clientWeight (env : GetEnv) (resolve : Text → BitVec 16 → Option (List SockAddr)) (s : NetBatch) : Nat :=
  match s.dht.client with
  | some a => work resolve env.cfg.dht.bootstrapNodes a
  | none => 0

/-- What is left to do. -/
def hushWeight (env : GetEnv) (resolve : Text → BitVec 16 → Option (List SockAddr)) (ms : List Magnet) (s : NetBatch) :
    (Nat × Nat × Nat) × Nat × Nat × Nat × Nat :=
  (fleetWeight ms.length s.fleet, ((List.range ms.length).map fun n => if (s.lookups n).isNone then 1 else 0).sum, (if s.dht.cell.holder.isSome then 1 else 0),
    clientWeight env resolve s, ((List.range ms.length).map (taskWeight ms s)).sum)

/-- Less is left to do. -/
abbrev HushLess : (Nat × Nat × Nat) × Nat × Nat × Nat × Nat → (Nat × Nat × Nat) × Nat × Nat × Nat × Nat → Prop :=
  Prod.Lex (Prod.Lex (· < ·) (Prod.Lex (· < ·) (· < ·))) (Prod.Lex (· < ·) (Prod.Lex (· < ·) (Prod.Lex (· < ·) (· < ·))))

theorem hush_wf : WellFounded HushLess :=
  (Prod.lex (Prod.lex Nat.lt_wfRel (Prod.lex Nat.lt_wfRel Nat.lt_wfRel)) (Prod.lex Nat.lt_wfRel (Prod.lex Nat.lt_wfRel (Prod.lex Nat.lt_wfRel Nat.lt_wfRel)))).wf

theorem hush_decreases (hj : 0 < env.cfg.general.batchJobs) {ftr : MagnetFleetTrace} (v : NetInv sha1 env resolve template ms tr ftr s)
    (hq : Silent e) (hs : s.step sha1 env resolve template e = some (s', out)) : HushLess (hushWeight env resolve ms s') (hushWeight env resolve ms s) := by
  have hp := v.prog
  have inMs : ∀ {n : Nat} {m : Magnet}, s.link n = some m → n < ms.length ∧ (ms[n]?.map fun m => m.trackers.length).getD 0 = m.trackers.length := by
    intro n m h
    have := hp.link n m h
    exact ⟨(List.getElem?_eq_some_iff.1 this).1, by rw [this]; rfl⟩
  have task : s'.fleet = s.fleet → s'.lookups = s.lookups → s'.dht = s.dht → (∃ n < ms.length, taskWeight ms s' n < taskWeight ms s n ∧
      ∀ k, k ≠ n → taskWeight ms s' k = taskWeight ms s k) → HushLess (hushWeight env resolve ms s') (hushWeight env resolve ms s) := by
    rintro h1 h2 h3 ⟨n, hn, h4, h5⟩
    unfold hushWeight clientWeight
    rw [h1, h2, h3]
    exact .right _ (.right _ (.right _ (.right _ (sum_drops hn h4 h5))))
  by_cases he : ∃ de, e = .dht de
  · obtain ⟨de, rfl⟩ := he
    obtain ⟨lk, d, o, rfl, h1, h2, h3, rfl⟩ := net_dht_moves hs
    unfold hushWeight
    cases de with
    | lock n =>
      rcases h1 with ⟨-, h1⟩ | ⟨n', m, h1, hm, -, -, hl, rfl⟩
      · exact absurd rfl (h1 n)
      cases h1
      refine .right _ (.left _ _ (sum_drops (n := n) ?_ ?_ ?_))
      · obtain ⟨w, hw⟩ := runningJob_mem hm
        obtain ⟨btr, hb, -⟩ := (fleet_inv hj hp.run).batch
        exact (List.getElem?_eq_some_iff.1 (batch_running hj hb hw)).1
      · simp [setAt_same, hl]
      · intro k hk
        change (if (setAt s.lookups n _ k).isNone = true then 1 else 0) = _
        rw [setAt_other _ _ hk]
    | created n my b4 b6 =>
      have h1 : lk = s.lookups := by
        rcases h1 with h1 | ⟨_, _, h1, -⟩
        · exact h1.1
        · cases h1
      subst h1
      have : s.dht.cell.holder = some (n, false) ∧ d.cell.holder = none := by
        simp only [AppDht.step] at h3
        split at h3
        · rw [Option.map_eq_some_iff] at h3
          obtain ⟨⟨c, x⟩, hc, h3⟩ := h3
          cases h3
          simp only [DhtCell.step] at hc
          split at hc
          · rename_i hh
            cases hc
            exact ⟨hh, rfl⟩
          · cases hc
        · split at h3
          · rename_i c _ hc
            rw [Option.map_eq_some_iff] at h3
            obtain ⟨⟨c', x⟩, -, h3⟩ := h3
            cases h3
            simp only [DhtCell.step] at hc
            split at hc
            · rename_i hh
              cases hc
              exact ⟨hh, rfl⟩
            · cases hc
          · cases h3
      refine .right _ (.right _ (.left _ _ ?_))
      change (if d.cell.holder.isSome = true then 1 else 0) < _
      rw [this.1, this.2]
      exact Nat.zero_lt_one
    | dropped n =>
      have h1 : lk = s.lookups := by
        rcases h1 with h1 | ⟨_, _, h1, -⟩
        · exact h1.1
        · cases h1
      subst h1
      have : (∃ x, s.dht.cell.holder = some x) ∧ d.cell.holder = none := by
        simp only [AppDht.step, Option.map_eq_some_iff] at h3
        obtain ⟨⟨c, x⟩, hc, h3⟩ := h3
        cases h3
        simp only [DhtCell.step] at hc
        split at hc
        · rename_i hh
          split at hc
          · cases hc
            exact ⟨⟨_, hh⟩, rfl⟩
          · cases hc
        · cases hc
      obtain ⟨⟨x, hx⟩, h4⟩ := this
      refine .right _ (.right _ (.left _ _ ?_))
      change (if d.cell.holder.isSome = true then 1 else 0) < _
      rw [hx, h4]
      exact Nat.zero_lt_one
    | client ce =>
      have h1 : lk = s.lookups := by
        rcases h1 with h1 | ⟨_, _, h1, -⟩
        · exact h1.1
        · cases h1
      subst h1
      simp only [AppDht.step] at h3
      split at h3
      case h_2 => cases h3
      rename_i a ha
      split at h3
      · cases h3
      rw [Option.map_eq_some_iff] at h3
      obtain ⟨⟨a', x⟩, hc, h3⟩ := h3
      cases h3
      refine .right _ (.right _ (.right _ (.left _ _ ?_)))
      unfold clientWeight
      rw [ha]
      exact work_decreases _ _ hc hq
  have he : ∀ de, e ≠ .dht de := fun de h => he ⟨de, h⟩
  cases net_moves hs with
  | inner hi h1 h2 =>
    have := fleet_decreases hj hp.run hi.step
    unfold hushWeight
    exact .left _ _ this
  | dht _ _ _ => exact absurd rfl (he _)
  | @trackerBegins n w k t q m htr hw hl ha hs' =>
    subst hs'
    obtain ⟨m', hl', hjobs⟩ := hp.trackerJobs htr
    rw [hl] at hl'
    cases hl'
    have hk : k < m.trackers.length := (List.getElem?_eq_some_iff.1 (hjobs.running hw)).1
    refine task rfl rfl rfl ⟨n, (inMs hl).1, ?_, ?_⟩
    · unfold taskWeight
      rw [(inMs hl).2]
      have : ((List.range m.trackers.length).map fun k' => askWeight (setAt s.asks n (setAt (s.asks n) k (some ⟨t, ⟨.init, none⟩, none⟩)) n k')).sum <
          ((List.range m.trackers.length).map fun k' => askWeight (s.asks n k')).sum := by
        rw [setAt_same]
        refine sum_drops hk ?_ ?_
        · rw [setAt_same, ha]
          simp [askWeight, getterWeight, GetterState.init]
        · intro k' hk'
          rw [setAt_other _ _ hk']
      exact Nat.add_lt_add_right (Nat.add_lt_add_right this _) _
    · intro n' hn'
      unfold taskWeight
      change _ + _ + _ = _
      simp only [setAt_other _ _ hn']
      rfl
  | @tracker n k ae a m r hak hl hst hs' =>
    subst hs'
    obtain ⟨m', hl', htk, -⟩ := v.asks.begun n k a hak
    rw [hl] at hl'
    cases hl'
    have hk : k < m.trackers.length := (List.getElem?_eq_some_iff.1 htk).1
    have hlt := ask_decreases hst (fun x h => by subst h; exact hq) (fun x h => by subst h; exact hq)
    refine task rfl rfl rfl ⟨n, (inMs hl).1, ?_, ?_⟩
    · unfold taskWeight
      rw [(inMs hl).2]
      have : ((List.range m.trackers.length).map fun k' => askWeight (setAt s.asks n (setAt (s.asks n) k (some ⟨a.tracker, r.1, a.result.or (askReturned r.2)⟩)) n k')).sum <
          ((List.range m.trackers.length).map fun k' => askWeight (s.asks n k')).sum := by
        rw [setAt_same]
        refine sum_drops hk ?_ ?_
        · rw [setAt_same, hak]
          exact hlt
        · intro k' hk'
          rw [setAt_other _ _ hk']
      exact Nat.add_lt_add_right (Nat.add_lt_add_right this _) _
    · intro n' hn'
      unfold taskWeight
      simp only [setAt_other _ _ hn']
      rfl
  | @leftover n ne r q q' o hw hres had htr hst hs' =>
    subst hs'
    obtain ⟨m, hl, -, -⟩ := hp.working n r hw
    have hlt := afterDrop_decreases had hst
    have hsame : ({ s with rest := setAt s.rest n (some q') } : NetBatch).trackers n = some q' := by
      unfold NetBatch.trackers
      simp only [setAt_same]
    have hother : ∀ k, k ≠ n → ({ s with rest := setAt s.rest n (some q') } : NetBatch).trackers k = s.trackers k := by
      intro k hk
      unfold NetBatch.trackers
      simp only [setAt_other _ _ hk]
    refine task rfl rfl rfl ⟨n, (inMs hl).1, ?_, ?_⟩
    · unfold taskWeight
      rw [hsame, htr]
      exact Nat.add_lt_add_right (Nat.add_lt_add_left hlt _) _
    · intro k hk
      unfold taskWeight
      rw [hother k hk]
  | @peerBegins n w ls r k p m hw hwk hl ht hs' =>
    subst hs'
    obtain ⟨m', hl', -, hjobs⟩ := hp.working n r hw
    have hk : k < r.peers.next := by
      have := (List.getElem?_eq_some_iff.1 (hjobs.1.running hwk)).1
      rwa [hjobs.2] at this
    refine task rfl rfl rfl ⟨n, (inMs hl).1, ?_, ?_⟩
    · unfold taskWeight
      simp only [hw]
      have : ((List.range r.peers.next).map fun k' => if (setAt s.talks n (setAt (s.talks n) k (some ls)) n k').isNone = true then 1 else 0).sum <
          ((List.range r.peers.next).map fun k' => if (s.talks n k').isNone = true then 1 else 0).sum := by
        rw [setAt_same]
        refine sum_drops hk ?_ ?_
        · rw [setAt_same, ht]
          exact Nat.zero_lt_one
        · intro k' hk'
          rw [setAt_other _ _ hk']
      exact Nat.add_lt_add_left this _
    · intro n' hn'
      unfold taskWeight
      simp only [setAt_other _ _ hn']
      rfl

theorem silent_packet (hq : Silent e) : dhtPackets (tr ++ [(e, out)]) = dhtPackets tr := by
  unfold dhtPackets
  rw [List.filterMap_append]
  have : [(e, out)].filterMap dhtPacket = [] := by
    cases e with
    | dht de =>
      cases de with
      | client ce =>
        cases ce with
        | packet _ _ => cases hq
        | _ => rfl
      | _ => rfl
    | _ => rfl
  rw [this, List.append_nil]

theorem silent_stall (hq : Silent e) (h : NobodyStalls env ms tr) : NobodyStalls env ms (tr ++ [(e, out)]) := by
  intro n m p ls hm hb i enc
  obtain ⟨n', w, said, hb⟩ := hb
  rw [List.mem_append] at hb
  rcases hb with hb | hb
  · exact h n m p ls hm ⟨n', w, said, hb⟩ i enc
  · rw [List.mem_singleton] at hb
    cases hb
    exact dead_no_stall (hq i) _ _

end

end Demag

namespace Demag.Props

open Demag Spec

section
variable {sha1 : Bytes → Bytes} {env : GetEnv} {resolve : Text → BitVec 16 → Option (List SockAddr)} {template : List TemplateElement} {ms : List Magnet}
  {tr : NetTrace} {s : NetBatch}

/-- **C106.** Until the batch exits something can happen that nobody else is needed for, wherever the conversations are. -/
theorem silence_progress (hj : 0 < env.cfg.general.batchJobs) (hT : 0 < env.cfg.trackers.jobsPerMagnet) (hP : 0 < env.cfg.peers.jobsPerMagnet)
    (h : NetRun sha1 env resolve template (some ms) tr s) (hx : s.fleet.batch.exit = none)
    (hb : env.cfg.dht.bootstrapNodes.length * ms.length + 8 * (dhtPackets tr).length ≤ 2 ^ 32) (hst : NobodyStalls env ms tr) :
    ∃ e s' out, Silent e ∧ s.step sha1 env resolve template e = some (s', out) := by
  obtain ⟨ftr, v⟩ := NetInv.run hj h
  have u := HushInv.run hj h
  have hp := v.prog
  obtain ⟨fe, f', fo, hs, -, hl⟩ := fleet_progress hj hT hP hp.run hx ⟨fun _ => .error (.dht .down), fun _ _ => .panic, fun _ _ => .panic, fun _ => .panic⟩
  -- the program can do this
  have inner : ∀ {x : NetBatch} {fe f' fo}, x.fleet.step (fun p : Peer => p.address) Magnet.trackers env.cfg.trackers.jobsPerMagnet
      env.cfg.peers.jobsPerMagnet fe = some (f', fo) → ∃ s' out, x.inner env fe = some (s', out) := by
    intro x fe f' fo h
    exact ⟨{ x with fleet := f' }, fo.map .fleet, by unfold NetBatch.inner; rw [h]; rfl⟩
  by_cases hin : fe.inside = true
  · obtain ⟨s', out, h⟩ := inner hs
    exact ⟨.fleet fe, s', out, trivial, by simp only [NetBatch.step, hin, if_true]; exact h⟩
  have hx' : s.fleet.batch.exit.isSome = false := by rw [hx]; rfl
  cases fleet_moves hs with
  | batch _ => exact absurd rfl hin
  | leftover _ _ _ _ _ => exact absurd rfl hin
  | @begins n d m hr hw _ =>
    by_cases hm : m.trackers = []
    · cases hf : s.found n with
      | none => exact dht_progress hj hp u hx hb hr hw hm hf
      | some d' =>
        obtain ⟨s', out, h⟩ := inner (x := { s with link := setAt s.link n (some m) }) (fe := .begins n d')
          (f' := { s.fleet with work := fun k => if k = n then some (Resolve.start m.trackers d' env.cfg.trackers.jobsPerMagnet env.cfg.peers.jobsPerMagnet) else s.fleet.work k })
          (fo := [.began n m]) (by simp only [Fleet.step, hx', hr, hw]; rfl)
        refine ⟨.begins n, s', out, trivial, ?_⟩
        simp only [NetBatch.step, hr, hm, List.isEmpty_nil, if_true, hf]
        exact h
    · obtain ⟨s', out, h⟩ := inner (x := { s with link := setAt s.link n (some m) }) (fe := .begins n (.error (.dht .down)))
        (f' := { s.fleet with work := fun k => if k = n then some (Resolve.start m.trackers (.error (.dht .down)) env.cfg.trackers.jobsPerMagnet env.cfg.peers.jobsPerMagnet) else s.fleet.work k })
        (fo := [.began n m]) (by simp only [Fleet.step, hx', hr, hw]; rfl)
      refine ⟨.begins n, s', out, trivial, ?_⟩
      have hm' : m.trackers.isEmpty = false := by simpa [List.isEmpty_iff] using hm
      simp only [NetBatch.step, hr, hm', Bool.false_eq_true, if_false]
      exact h
  | @goesOn n re m r r' o hr hw hstep _ =>
    obtain ⟨m', hl', htj, hpj⟩ := hp.working n r hw
    have hres := (resolve_step_ends hstep).1
    cases re with
    | trackerEnds w oc =>
      -- the task of the worker
      have hwk : ∃ q k t, r.trackers = some q ∧ q.workers[w]? = some (.running k t) := by
        simp only [Resolve.step, hres, Option.isSome_none, Bool.false_eq_true, if_false] at hstep
        split at hstep
        · rename_i k t hb
          obtain ⟨q, h1, h2⟩ := Option.bind_eq_some_iff.1 hb
          exact ⟨q, k, t, h1, h2⟩
        · cases hstep
      obtain ⟨q, k, t, hq, hqw⟩ := hwk
      have htr : s.trackers n = some q := by
        unfold NetBatch.trackers
        cases hre : s.rest n with
        | some q' =>
          obtain ⟨r0, h1, h2⟩ := u.rest n q' hre
          rw [hw] at h1
          cases h1
          rw [hres] at h2
          cases h2
        | none => simp only [hw, Option.bind_some, hq]
      cases ha : s.asks n k with
      | none =>
        have : (s.step sha1 env resolve template (.trackerBegins n w)).isSome = true := by
          simp [NetBatch.step, htr, hqw, hl', ha]
        obtain ⟨a, b, h⟩ := some_of this
        exact ⟨.trackerBegins n w, a, b, trivial, h⟩
      | some a =>
        cases har : a.result with
        | some r0 =>
          have hfl : ∃ f' fo, s.fleet.step (fun p : Peer => p.address) Magnet.trackers env.cfg.trackers.jobsPerMagnet env.cfg.peers.jobsPerMagnet
              (.goesOn n (.trackerEnds w (.value (r0.mapError .tracker)))) = some (f', fo) := by
            simp only [Fleet.step, hx', Bool.false_eq_true, if_false, hr, hw, Resolve.step, hres, Option.isSome_none, hq, Option.bind_some, hqw,
              Resolve.trackerStep, Nursery.step]
            split <;> split <;> exact ⟨_, _, rfl⟩
          obtain ⟨f', fo, hfl⟩ := hfl
          obtain ⟨s', out, h⟩ := inner hfl
          refine ⟨.trackerEnds n w, s', out, trivial, ?_⟩
          simp only [NetBatch.step, hw, Option.bind_some, hq, hqw, ha, har]
          exact h
        | none =>
          have hov : a.ask.getter.phase ≠ .over := by
            intro hov
            rcases u.over n k a ha hov with h | h
            · rw [har] at h; cases h
            · unfold NetBatch.lettingGo at h
              rw [hw] at h
              simp [hres, hq] at h
          have : (s.step sha1 env resolve template (.tracker n k .timeout)).isSome = true := by
            simp [NetBatch.step, ha, hl', AskEvent.isDropped, Ask.step, GetterState.step, hov]
          obtain ⟨a, b, h⟩ := some_of this
          exact ⟨.tracker n k .timeout, a, b, trivial, h⟩
    | peerEnds w oc =>
      have hwk : ∃ k p, r.peers.workers[w]? = some (.running k p) := by
        simp only [Resolve.step, hres, Option.isSome_none, Bool.false_eq_true, if_false] at hstep
        split at hstep
        · rename_i k p hb
          exact ⟨k, p, hb⟩
        · cases hstep
      obtain ⟨k, p, hqw⟩ := hwk
      cases ht : s.talks n k with
      | none =>
        have : (s.step sha1 env resolve template (.peerBegins n w deadLinks)).isSome = true := by
          simp [NetBatch.step, hw, hqw, hl', ht]
        obtain ⟨a, b, h⟩ := some_of this
        exact ⟨.peerBegins n w deadLinks, a, b, fun i => by simp [deadLinks], h⟩
      | some ls =>
        obtain ⟨p', h1, h2⟩ := v.talk.talk n k ls ht
        have h3 : (contacts (alone n ftr))[k]? = some p := hpj.1.running hqw
        rw [h3] at h1
        cases h1
        have hne := task_ends_partial (sha1 := sha1) (localId := env.localId) (pref := env.cfg.general.encrypt) (hst n m' p ls (hp.link n m' hl') h2)
        have hto : ∃ x, taskOutcome (peerTask sha1 env.localId env.cfg.general.encrypt m'.infoHash p ls) = some x := by
          cases hpt : peerTask sha1 env.localId env.cfg.general.encrypt m'.infoHash p ls with
          | hang => exact absurd hpt hne
          | _ => exact ⟨_, rfl⟩
        obtain ⟨x, hto⟩ := hto
        have hfl : ∃ f' fo, s.fleet.step (fun p : Peer => p.address) Magnet.trackers env.cfg.trackers.jobsPerMagnet env.cfg.peers.jobsPerMagnet
            (.goesOn n (.peerEnds w x)) = some (f', fo) := by
          simp only [Fleet.step, hx', Bool.false_eq_true, if_false, hr, hw, Resolve.step, hres, Option.isSome_none, hqw, Resolve.peerStep, Nursery.step]
          split <;> exact ⟨_, _, rfl⟩
        obtain ⟨f', fo, hfl⟩ := hfl
        obtain ⟨s', out, h⟩ := inner hfl
        refine ⟨.peerEnds n w, s', out, trivial, ?_⟩
        simp only [NetBatch.step, hw, Option.bind_some, hqw, hl', ht, hto]
        exact h
    | _ => exact absurd rfl hin
  | @ends w sv n m r b hwk hr _ =>
    have hfl : ∃ f' fo, s.fleet.step (fun p : Peer => p.address) Magnet.trackers env.cfg.trackers.jobsPerMagnet env.cfg.peers.jobsPerMagnet
        (.ends w (jobOutcome (getEffects { env with now := .ok 0, fileOk := fun _ => true } template r).2)) = some (f', fo) := by
      simp only [Fleet.step, hx', Bool.false_eq_true, if_false, hwk, hr, Batch.step, Nursery.step]
      split <;> exact ⟨_, _, rfl⟩
    obtain ⟨f', fo, hfl⟩ := hfl
    obtain ⟨s', out, h⟩ := inner hfl
    refine ⟨.ends w (.ok 0) (fun _ => true), s', out, trivial, ?_⟩
    simp only [NetBatch.step, hwk, hr]
    exact h

/-- **C106.** Nothing of that can go on for ever. -/
theorem silence_terminates (hj : 0 < env.cfg.general.batchJobs) (ss : Nat → NetBatch) (h0 : NetRun sha1 env resolve template (some ms) tr (ss 0)) :
    ¬ ∀ i, ∃ e out, Silent e ∧ (ss i).step sha1 env resolve template e = some (ss (i + 1), out) := by
  intro hall
  have hrun : ∀ i, ∃ tr, NetRun sha1 env resolve template (some ms) tr (ss i) := by
    intro i
    induction i with
    | zero => exact ⟨tr, h0⟩
    | succ i ih =>
      obtain ⟨tr, hr⟩ := ih
      obtain ⟨e, out, -, hs⟩ := hall i
      exact ⟨_, .step hr hs⟩
  have key : ∀ x, ∀ i, hushWeight env resolve ms (ss i) = x → False := by
    intro x
    induction x using hush_wf.induction with
    | _ x ih =>
      intro i hx
      obtain ⟨tr, hr⟩ := hrun i
      obtain ⟨ftr, v⟩ := NetInv.run hj hr
      obtain ⟨e, out, hq, hs⟩ := hall i
      exact ih _ (by rw [← hx]; exact hush_decreases hj v hq hs) (i + 1) rfl
  exact key _ 0 rfl

/-- **C106.** Whatever has happened, if from then on nothing comes from the network, the batch comes to its end: it does not depend on what the program does
first, and at no point before the end is there nothing to do. -/
theorem silence_ends (hj : 0 < env.cfg.general.batchJobs) (hT : 0 < env.cfg.trackers.jobsPerMagnet) (hP : 0 < env.cfg.peers.jobsPerMagnet)
    (h : NetRun sha1 env resolve template (some ms) tr s) (hb : env.cfg.dht.bootstrapNodes.length * ms.length + 8 * (dhtPackets tr).length ≤ 2 ^ 32)
    (hst : NobodyStalls env ms tr) :
    ∃ tr' s', NetRun sha1 env resolve template (some ms) (tr ++ tr') s' ∧ (∀ x ∈ tr', Silent x.1) ∧ s'.fleet.batch.exit.isSome = true := by
  have key : ∀ x, ∀ tr s, hushWeight env resolve ms s = x → NetRun sha1 env resolve template (some ms) tr s →
      env.cfg.dht.bootstrapNodes.length * ms.length + 8 * (dhtPackets tr).length ≤ 2 ^ 32 → NobodyStalls env ms tr →
      ∃ tr' s', NetRun sha1 env resolve template (some ms) (tr ++ tr') s' ∧ (∀ x ∈ tr', Silent x.1) ∧ s'.fleet.batch.exit.isSome = true := by
    intro x
    induction x using hush_wf.induction with
    | _ x ih =>
      intro tr s hx h hb hst
      cases hex : s.fleet.batch.exit with
      | some c => exact ⟨[], s, by simpa using h, by simp, by rw [hex]; rfl⟩
      | none =>
        obtain ⟨e, s', out, hq, hs⟩ := silence_progress hj hT hP h hex hb hst
        obtain ⟨ftr, v⟩ := NetInv.run hj h
        obtain ⟨tr', s'', h1, h2, h3⟩ := ih _ (by rw [← hx]; exact hush_decreases hj v hq hs) (tr ++ [(e, out)]) s' rfl (.step h hs)
          (by rw [silent_packet hq]; exact hb) (silent_stall hq hst)
        refine ⟨(e, out) :: tr', s'', by simpa using h1, ?_, h3⟩
        intro y hy
        rcases List.mem_cons.1 hy with rfl | hy
        · exact hq
        · exact h2 y hy
  exact key _ tr s rfl h hb hst

end

/-- The first part of the run in Props/NetBatch.lean: a tracker and a DHT node have been asked, and have not answered yet. -/
def exHush : Option (NetTrace × NetBatch) :=
  netExec (fun _ => List.replicate 20 7) exNetEnv (fun _ _ => none) [.name] (exNetEvents.take 18) (NetBatch.start (some exNetLinks) 2)

/-- No peer has been contacted. -/
def exNoPeer (x : NetEvent × List NetOutput) : Bool :=
  match x.1 with
  | .peerBegins _ _ _ => false
  | _ => true

theorem exHush_facts : exHush.map (fun r => (r.2.fleet.batch.exit.isNone, (networkOutputs r.1).filterMap exHeard, (dhtPackets r.1).length, r.1.all exNoPeer)) =
    some (true, [.tracker 0 0, .dht (List.replicate 20 6)], 0, true) := by decide +kernel

-- the hypotheses of `silence_progress` and `silence_ends` are met in the middle of a run, with conversations under way
example : ∃ tr s, NetRun (fun _ => List.replicate 20 7) exNetEnv (fun _ _ => none) [.name] (some exNetLinks) tr s ∧ s.fleet.batch.exit = none ∧
    (networkOutputs tr).filterMap exHeard = [.tracker 0 0, .dht (List.replicate 20 6)] ∧
    exNetEnv.cfg.dht.bootstrapNodes.length * exNetLinks.length + 8 * (dhtPackets tr).length ≤ 2 ^ 32 ∧ NobodyStalls exNetEnv exNetLinks tr := by
  have h := exHush_facts
  cases hx : exHush with
  | none => rw [hx] at h; cases h
  | some r =>
    rw [hx] at h
    simp only [Option.map_some, Option.some.injEq, Prod.mk.injEq] at h
    obtain ⟨h1, h2, h3, h4⟩ := h
    refine ⟨r.1, r.2, by simpa using netExec_run (exNetEvents.take 18) .init hx, by simpa using h1, h2, by rw [h3]; decide, ?_⟩
    rintro n m p ls - ⟨n', w, said, hb⟩
    have := (List.all_eq_true.1 h4) _ hb
    cases this

end Demag.Props
