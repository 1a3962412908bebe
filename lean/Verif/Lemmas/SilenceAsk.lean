import Verif.Lemmas.SilenceDht

/-!
# Auxiliary facts for C106: the tasks that ask trackers, and the invariants together
-/

namespace Demag

open Spec Props

/-! ### Asking a tracker -/

/-- What is left to do for `run` and its task by themselves. -/
def getterWeight (g : GetterState) : Nat :=
  (match g.phase with | .connecting => 2 | .starting => 1 | .over => 0) + (match g.task with | .spawned => 2 | .announcing => 1 | _ => 0)

theorem getter_over {ε : Type} {c : GetterCtx} {g g' : GetterState} {ge : GetterEvent ε} {outs} (hs : g.step c ge = some (g', outs)) (h : g'.phase = .over) :
    g.phase = .over ∨ ge = .dropped ∨ ∃ r, .result r ∈ outs := by
  obtain ⟨ph, tk⟩ := g
  cases ge <;> simp only [GetterState.step] at hs <;> split at hs <;> cases hs <;> simp_all

theorem getter_decreases {ε : Type} {c : GetterCtx} {g g' : GetterState} {ge : GetterEvent ε} {outs} (hs : g.step c ge = some (g', outs)) (h : ∀ r, ge ≠ .startOk r) :
    getterWeight g' < getterWeight g := by
  obtain ⟨ph, tk⟩ := g
  cases ge <;> simp only [GetterState.step] at hs <;> split at hs <;> cases hs <;> (try exact absurd rfl (h _)) <;> cases ph <;> cases tk <;> simp_all [getterWeight]

theorem perform_result {lossy : Bytes → Text} {time : Nat} {xid : BitVec 32} {r : Except (GetterError AskError) (List Peer)} :
    ∀ (outs : List (GetterOutput AskError)) (i : InnerSession), .result r ∈ outs → .result r ∈ (i.perform lossy time xid outs).2 := by
  intro outs
  induction outs with
  | nil => intro i h; cases h
  | cons x l ih =>
    intro i h
    cases x with
    | announce a =>
      simp only [InnerSession.perform]
      exact List.mem_append_right _ (ih _ (by simpa using h))
    | spawnStop =>
      simp only [InnerSession.perform]
      exact List.mem_cons_of_mem _ (ih _ (by simpa using h))
    | result r' =>
      simp only [InnerSession.perform]
      rcases List.mem_cons.1 h with h | h
      · cases h; exact List.mem_cons_self
      · exact List.mem_cons_of_mem _ (ih _ h)
    | warn e =>
      simp only [InnerSession.perform]
      exact List.mem_cons_of_mem _ (ih _ (by simpa using h))

theorem askReturned_isSome : ∀ {o : List AskOutput} {r}, .result r ∈ o → (askReturned o).isSome = true := by
  intro o
  induction o with
  | nil => intro r h; cases h
  | cons x l ih =>
    intro r h
    cases x with
    | result r' => rfl
    | _ => exact ih (by simpa using h)

theorem tell_over {lossy : Bytes → Text} {c : GetterCtx} {s : Ask} {i : InnerSession} {time : Nat} {xid : BitVec 32} {ge : GetterEvent AskError} {r}
    (h : s.tell lossy c i time xid ge = some r) (hp : r.1.getter.phase = .over) : s.getter.phase = .over ∨ ge = .dropped ∨ ∃ x, .result x ∈ r.2 := by
  unfold Ask.tell at h
  split at h
  · cases h
  · rename_i g outs hg
    cases h
    rcases getter_over hg hp with h | h | ⟨x, h⟩
    · exact .inl h
    · exact .inr (.inl h)
    · exact .inr (.inr ⟨x, perform_result _ _ h⟩)

/-- `run` is over: it has returned, or it was dropped. -/
theorem ask_over {lossy : Bytes → Text} {parseIp : Text → Option IpAddr} {t : Tracker} {c : GetterCtx} {a : Ask} {e : AskEvent} {r}
    (h : a.step lossy parseIp t c e = some r) (hp : r.1.getter.phase = .over) :
    a.getter.phase = .over ∨ e.isDropped = true ∨ (askReturned r.2).isSome = true := by
  have back : ∀ {ge : GetterEvent AskError} {x : Ask × List AskOutput}, ge ≠ .dropped → (a.getter.phase = .over ∨ ge = .dropped ∨ ∃ y, .result y ∈ x.2) →
      (∀ y ∈ x.2, y ∈ r.2) → a.getter.phase = .over ∨ e.isDropped = true ∨ (askReturned r.2).isSome = true := by
    intro ge x hd h hx
    rcases h with h | h | ⟨y, h⟩
    · exact .inl h
    · exact absurd h hd
    · exact .inr (.inr (askReturned_isSome (hx _ h)))
  have ans : ∀ x, a.answer x ≠ .dropped := by
    intro x
    unfold Ask.answer
    split <;> simp
  cases e with
  | socket time xid x =>
    simp only [Ask.step] at h
    split at h
    · cases h
    split at h
    · obtain ⟨q, -, rfl⟩ := Option.map_eq_some_iff.1 h
      exact .inr (.inr rfl)
    · exact back (by simp) (tell_over h hp) fun _ h => h
  | client built =>
    simp only [Ask.step] at h
    split at h
    · cases h
    split at h
    · exact back (by simp) (tell_over h hp) fun _ h => h
    · obtain ⟨q, -, rfl⟩ := Option.map_eq_some_iff.1 h
      exact .inr (.inr rfl)
  | udp ue =>
    simp only [Ask.step] at h
    split at h
    · split at h
      · cases h
      · split at h
        · cases h
          exact .inl hp
        · obtain ⟨q, hq, rfl⟩ := Option.map_eq_some_iff.1 h
          exact back (ans _) (tell_over hq hp) fun y hy => List.mem_append_right _ hy
    · cases h
  | http o =>
    simp only [Ask.step] at h
    split at h
    · exact back (ans _) (tell_over h hp) fun _ h => h
    · cases h
  | timeout =>
    simp only [Ask.step] at h
    obtain ⟨q, -, rfl⟩ := Option.map_eq_some_iff.1 h
    exact .inr (.inr rfl)
  | dropped => exact .inr (.inl rfl)
  | stopScheduled time xid =>
    simp only [Ask.step] at h
    split at h
    · exact back (by simp) (tell_over h hp) fun _ h => h
    · cases h
  | stopCancelled =>
    simp only [Ask.step] at h
    obtain ⟨⟨g, outs⟩, hq, rfl⟩ := Option.map_eq_some_iff.1 h
    simp only [GetterState.step] at hq
    split at hq
    · cases hq
      exact .inl hp
    · cases hq

theorem tell_decreases {lossy : Bytes → Text} {c : GetterCtx} {s : Ask} {i : InnerSession} {time : Nat} {xid : BitVec 32} {ge : GetterEvent AskError} {r}
    (h : s.tell lossy c i time xid ge = some r) (hg : ∀ x, ge ≠ .startOk x) : getterWeight r.1.getter < getterWeight s.getter := by
  unfold Ask.tell at h
  split at h
  · cases h
  · rename_i g outs hst
    cases h
    exact getter_decreases hst hg

/-- Without an answer of the tracker it gets less. -/
theorem ask_decreases {lossy : Bytes → Text} {parseIp : Text → Option IpAddr} {t : Tracker} {c : GetterCtx} {a : Ask} {e : AskEvent} {r}
    (h : a.step lossy parseIp t c e = some r) (h1 : ∀ x, e ≠ .udp x) (h2 : ∀ x, e ≠ .http x) : getterWeight r.1.getter < getterWeight a.getter := by
  have plain : ∀ {ge : GetterEvent AskError} {f : GetterState × List (GetterOutput AskError) → Ask × List AskOutput},
      (∀ x, (f x).1.getter = x.1) → (∀ x, ge ≠ .startOk x) → (a.getter.step c ge).map f = some r → getterWeight r.1.getter < getterWeight a.getter := by
    intro ge f hf hg h
    obtain ⟨⟨g, outs⟩, hq, rfl⟩ := Option.map_eq_some_iff.1 h
    rw [hf]
    exact getter_decreases hq hg
  cases e with
  | socket time xid x =>
    simp only [Ask.step] at h
    split at h
    · cases h
    split at h
    · exact plain (fun _ => rfl) (by simp) h
    · exact tell_decreases h (by simp)
  | client built =>
    simp only [Ask.step] at h
    split at h
    · cases h
    split at h
    · exact tell_decreases h (by simp)
    · exact plain (fun _ => rfl) (by simp) h
  | udp ue => exact absurd rfl (h1 ue)
  | http o => exact absurd rfl (h2 o)
  | timeout => exact plain (fun _ => rfl) (by simp) h
  | dropped => exact plain (fun _ => rfl) (by simp) h
  | stopScheduled time xid =>
    simp only [Ask.step] at h
    split at h
    · exact tell_decreases h (by simp)
    · cases h
  | stopCancelled => exact plain (fun _ => rfl) (by simp) h

/-! ### The invariants together -/

section
variable {sha1 : Bytes → Bytes} {env : GetEnv} {resolve : Text → BitVec 16 → Option (List SockAddr)} {template : List TemplateElement} {ms : List Magnet}
  {tr : NetTrace} {s s' : NetBatch} {e : NetEvent} {out : List NetOutput}

/-- What else is known at any time. -/
structure HushInv (env : GetEnv) (resolve : Text → BitVec 16 → Option (List SockAddr)) (ms : List Magnet) (tr : NetTrace) (s : NetBatch) : Prop where
  dht : DhtNow env resolve ms tr s
  rest : ∀ n q, s.rest n = some q → ∃ r, s.fleet.work n = some r ∧ r.result.isSome = true
  over : ∀ n k a, s.asks n k = some a → a.ask.getter.phase = .over → a.result.isSome = true ∨ s.lettingGo n = true

/-- The program goes on: what has a result keeps it, and what is let go of stays so. -/
theorem fleet_keeps {f f' : MagnetFleet} {fe fo}
    (hs : f.step (fun p : Peer => p.address) Magnet.trackers env.cfg.trackers.jobsPerMagnet env.cfg.peers.jobsPerMagnet fe = some (f', fo)) {n : Nat}
    {r : Resolve Tracker Peer SockAddr SockAddr TorrentInfo TaskError} (hr : f.work n = some r) :
    ∃ r', f'.work n = some r' ∧ (r.result.isSome = true → r'.result.isSome = true) ∧ (r.trackers = none → r'.trackers = none) := by
  cases fleet_moves hs with
  | batch h => rw [h]; exact ⟨r, hr, id, id⟩
  | ends _ _ h => rw [h]; exact ⟨r, hr, id, id⟩
  | @begins k d m' _ hwk h =>
    rw [h, put_other]
    · exact ⟨r, hr, id, id⟩
    · rintro rfl
      rw [hwk] at hr
      cases hr
  | @goesOn k re m' r1 r2 o' _ hwk hstep h =>
    rw [h]
    by_cases hn : n = k
    · subst hn
      rw [hwk] at hr
      cases hr
      rw [put_same]
      refine ⟨r2, rfl, ?_, ?_⟩
      · intro hres
        rw [(resolve_step_ends hstep).1] at hres
        cases hres
      · intro ht
        cases ht' : r2.trackers with
        | none => rfl
        | some q =>
          obtain ⟨q', h1, -⟩ := (resolve_touches hstep).2 q ht'
          rw [ht] at h1
          cases h1
    · rw [put_other _ _ hn]; exact ⟨r, hr, id, id⟩
  | @leftover k ne r1 q o' hwk _ _ _ h =>
    rw [h]
    by_cases hn : n = k
    · subst hn
      rw [hwk] at hr
      cases hr
      rw [put_same]
      exact ⟨_, rfl, id, id⟩
    · rw [put_other _ _ hn]; exact ⟨r, hr, id, id⟩

theorem lettingGo_keeps {s s' : NetBatch} {n : Nat} (h : s.lettingGo n = true)
    (hw : ∀ r, s.fleet.work n = some r → ∃ r', s'.fleet.work n = some r' ∧ (r.result.isSome = true → r'.result.isSome = true) ∧ (r.trackers = none → r'.trackers = none)) :
    s'.lettingGo n = true := by
  unfold NetBatch.lettingGo at h ⊢
  cases hr : s.fleet.work n with
  | none => rw [hr] at h; cases h
  | some r =>
    rw [hr] at h
    obtain ⟨r', h1, h2, h3⟩ := hw r hr
    rw [h1]
    simp only [Bool.or_eq_true, Option.isNone_iff_eq_none] at h ⊢
    rcases h with h | h
    · exact .inl (h2 h)
    · exact .inr (h3 h)

/-- The steps with the DHT client. -/
theorem net_dht_moves {de : AppDhtEvent} (hs : s.step sha1 env resolve template (.dht de) = some (s', out)) :
    ∃ lk d o, out = o.map .dht ∧ (lk = s.lookups ∧ (∀ n, de ≠ .lock n) ∨ ∃ n m, de = .lock n ∧ runningJob s.fleet.batch.nursery n = some m ∧ m.trackers = [] ∧
        s.fleet.work n = none ∧ s.lookups n = none ∧ lk = setAt s.lookups n (some m.infoHash)) ∧ (∀ n, de = .dropped n → s.fleet.batch.exit ≠ none) ∧
      s.dht.step (fun n => (lk n).getD ⟨List.replicate 20 0, by decide⟩) resolve env.cfg.dht.bootstrapNodes de = some (d, o) ∧
      s' = { s with lookups := lk, dht := d, found := hearDht s.found o } := by
  have dhtStep : ∀ {x : NetBatch} {de}, x.dhtStep env resolve de = some (s', out) → ∃ d o, out = o.map .dht ∧
      x.dht.step (fun n => (x.lookups n).getD ⟨List.replicate 20 0, by decide⟩) resolve env.cfg.dht.bootstrapNodes de = some (d, o) ∧
      s' = { x with dht := d, found := hearDht x.found o } := by
    intro x de h
    unfold NetBatch.dhtStep at h
    rw [Option.map_eq_some_iff] at h
    obtain ⟨⟨d, o⟩, hd, h⟩ := h
    cases h
    exact ⟨d, o, rfl, hd, rfl⟩
  cases de with
  | lock n =>
    simp only [NetBatch.step] at hs
    split at hs
    · rename_i m hm hw hl
      split at hs
      · rename_i hc
        rw [Bool.and_eq_true, List.isEmpty_iff] at hc
        obtain ⟨d, o, rfl, h1, h2⟩ := dhtStep hs
        exact ⟨_, d, o, rfl, .inr ⟨n, m, rfl, hm, hc.1, hw, hl, rfl⟩, by simp, h1, h2⟩
      · cases hs
    · cases hs
  | created n my b4 b6 =>
    obtain ⟨d, o, rfl, h1, h2⟩ := dhtStep hs
    exact ⟨_, d, o, rfl, .inl ⟨rfl, by simp⟩, by simp, h1, h2⟩
  | dropped n =>
    simp only [NetBatch.step] at hs
    split at hs
    · rename_i hx
      obtain ⟨d, o, rfl, h1, h2⟩ := dhtStep hs
      exact ⟨_, d, o, rfl, .inl ⟨rfl, by simp⟩, fun _ _ h => (by rw [h] at hx; cases hx), h1, h2⟩
    · cases hs
  | client ce =>
    obtain ⟨d, o, rfl, h1, h2⟩ := dhtStep hs
    exact ⟨_, d, o, rfl, .inl ⟨rfl, by simp⟩, by simp, h1, h2⟩

theorem HushInv.step (hj : 0 < env.cfg.general.batchJobs) {ftr : MagnetFleetTrace} (hp : ProgInv env ms tr ftr s) (v : HushInv env resolve ms tr s)
    (hs : s.step sha1 env resolve template e = some (s', out)) : HushInv env resolve ms (tr ++ [(e, out)]) s' := by
  have hm := net_moves hs
  -- steps that leave the program alone
  have same : s'.fleet = s.fleet → ∀ n r, s.fleet.work n = some r →
      ∃ r', s'.fleet.work n = some r' ∧ (r.result.isSome = true → r'.result.isSome = true) ∧ (r.trackers = none → r'.trackers = none) := by
    intro h n r hr
    rw [h]
    exact ⟨r, hr, id, id⟩
  have rest : (∀ n r, s.fleet.work n = some r →
      ∃ r', s'.fleet.work n = some r' ∧ (r.result.isSome = true → r'.result.isSome = true) ∧ (r.trackers = none → r'.trackers = none)) → s'.rest = s.rest →
      ∀ n q, s'.rest n = some q → ∃ r, s'.fleet.work n = some r ∧ r.result.isSome = true := by
    intro hw h n q hq
    rw [h] at hq
    obtain ⟨r, h1, h2⟩ := v.rest n q hq
    obtain ⟨r', h3, h4, -⟩ := hw n r h1
    exact ⟨r', h3, h4 h2⟩
  have over : (∀ n r, s.fleet.work n = some r →
      ∃ r', s'.fleet.work n = some r' ∧ (r.result.isSome = true → r'.result.isSome = true) ∧ (r.trackers = none → r'.trackers = none)) → s'.asks = s.asks →
      ∀ n k a, s'.asks n k = some a → a.ask.getter.phase = .over → a.result.isSome = true ∨ s'.lettingGo n = true := by
    intro hw h n k a ha hov
    rw [h] at ha
    rcases v.over n k a ha hov with h | h
    · exact .inl h
    · exact .inr (lettingGo_keeps h (hw n))
  by_cases he : ∃ de, e = .dht de
  · obtain ⟨de, rfl⟩ := he
    obtain ⟨lk, d, o, rfl, h1, h2, h3, rfl⟩ := net_dht_moves hs
    exact ⟨v.dht.dhtMove hj hp h1 h2 h3, v.rest, v.over⟩
  have he : ∀ de, e ≠ .dht de := fun de h => he ⟨de, h⟩
  cases hm with
  | @inner e fe fo hi h1 h2 =>
    have hw : ∀ n r, s.fleet.work n = some r →
        ∃ r', s'.fleet.work n = some r' ∧ (r.result.isSome = true → r'.result.isSome = true) ∧ (r.trackers = none → r'.trackers = none) :=
      fun n r hr => fleet_keeps hi.step hr
    have hx : s.fleet.batch.exit = none := by
      have := hi.step
      unfold Fleet.step at this
      split at this
      · cases this
      · rename_i h
        simpa using h
    refine ⟨v.dht.outer he ?_ hi.same.1 hi.same.2.2.1 hi.same.2.2.2.1 fun _ => hx, rest hw hi.same.2.1, over hw hi.same.2.2.2.2.1⟩
    intro o ho
    rw [List.mem_map] at ho
    obtain ⟨y, -, rfl⟩ := ho
    rfl
  | dht hlk hst hs' => exact absurd rfl (he _)
  | @trackerBegins n w k t q m hq hw hl ha hs' =>
    subst hs'
    refine ⟨v.dht.outer he (by simp) rfl rfl rfl id, v.rest, ?_⟩
    intro n' k' a ha' hov
    change setAt s.asks n _ n' k' = _ at ha'
    change _ ∨ s.lettingGo n' = true
    by_cases hn : n' = n
    · subst hn
      rw [setAt_same] at ha'
      by_cases hk : k' = k
      · subst hk
        rw [setAt_same] at ha'
        cases ha'
        cases hov
      · rw [setAt_other _ _ hk] at ha'
        exact v.over n' k' a ha' hov
    · rw [setAt_other _ _ hn] at ha'
      exact v.over n' k' a ha' hov
  | @tracker n k ae a m r hak hl hst hs' =>
    have hgo : ae.isDropped = true → s.lettingGo n = true := by
      intro hd
      simp only [NetBatch.step, hak, hl] at hs
      split at hs
      · cases hs
      · rename_i hc
        rw [hd] at hc
        simpa using hc
    subst hs'
    refine ⟨v.dht.outer he ?_ rfl rfl rfl id, v.rest, ?_⟩
    · intro o ho
      rw [List.mem_map] at ho
      obtain ⟨y, -, rfl⟩ := ho
      rfl
    intro n' k' a' ha' hov
    change setAt s.asks n _ n' k' = _ at ha'
    change _ ∨ s.lettingGo n' = true
    by_cases hn : n' = n
    · subst hn
      rw [setAt_same] at ha'
      by_cases hk : k' = k
      · subst hk
        rw [setAt_same] at ha'
        cases ha'
        rcases ask_over hst hov with h | h | h
        · rcases v.over n' k' a hak h with h | h
          · left
            change (a.result.or _).isSome = true
            rw [Option.isSome_or, h]
            rfl
          · exact .inr h
        · exact .inr (hgo h)
        · left
          change (a.result.or _).isSome = true
          rw [Option.isSome_or, h, Bool.or_true]
      · rw [setAt_other _ _ hk] at ha'
        exact v.over n' k' a' ha' hov
    · rw [setAt_other _ _ hn] at ha'
      exact v.over n' k' a' ha' hov
  | @leftover n ne r q q' o hw hr hd hq hst hs' =>
    subst hs'
    refine ⟨v.dht.outer he (by simp) rfl rfl rfl id, ?_, v.over⟩
    intro n' q1 hq1
    change setAt s.rest n _ n' = _ at hq1
    by_cases hn : n' = n
    · subst hn
      exact ⟨r, hw, hr⟩
    · rw [setAt_other _ _ hn] at hq1
      exact v.rest n' q1 hq1
  | peerBegins hw hk hl ht hs' =>
    subst hs'
    exact ⟨v.dht.outer he (by simp [dhtPart]) rfl rfl rfl id, v.rest, v.over⟩

theorem HushInv.run (hj : 0 < env.cfg.general.batchJobs) (h : NetRun sha1 env resolve template (some ms) tr s) : HushInv env resolve ms tr s := by
  induction h with
  | init =>
    refine ⟨⟨⟨rfl, ?_, List.Perm.refl _⟩, ?_, by simp [dhtEvents, lookupsBegun], ?_, ?_, ?_, fun _ => rfl⟩, ?_, ?_⟩
    · intro t b h; cases h
    · intro a h; cases h
    · intro n; simp [dhtEvents, lookupsBegun, NetBatch.start]
    · intro n h; cases h
    · intro n h; cases h
    · intro n q h; cases h
    · intro n k a h; cases h
  | step h hs ih =>
    obtain ⟨ftr, v⟩ := NetInv.run hj h
    exact ih.step hj v.prog hs

end

end Demag
