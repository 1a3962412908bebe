import Verif.Lemmas.NetTalk

/-!
# Auxiliary facts about a batch with all its conversations: the DHT, and all together
-/

namespace Demag

open Spec Props

section
variable {hash : Nat → InfoHash} {resolve : Text → BitVec 16 → Option (List SockAddr)} {nodes : List InetAddr} {s s' : AppDht} {e : AppDhtEvent}
  {o : List AppDhtOutput}

/-- The steps with the DHT client: nothing that the client sees, or a step of the client. -/
theorem appDht_moves (hs : s.step hash resolve nodes e = some (s', o)) :
    (s'.client = s.client ∧ (∀ x, .effect x ∉ o) ∧ s'.cell.cached = s.cell.cached ∧
      (s'.cell.holder = none ∨ ∃ t, e = .lock t ∧ s.cell.cached = none ∧ s'.cell.holder = some (t, false))) ∨
    ∃ a a' ev eo, a.step resolve nodes ev = some (a', eo) ∧ s'.client = some a' ∧ o = eo.map .effect ∧
      (s'.cell.cached.isSome = true ∨ s'.cell.cached = s.cell.cached ∧ s.client = some a) ∧
      (s'.cell.holder = none ∨ s'.cell.holder = s.cell.holder ∧ s.client = some a) ∧
      (s.client = some a ∨ ∃ t my v6, s.cell.holder = some (t, false) ∧ a = DhtState.init my v6) ∧
      ∀ t h, ev = .submit (.lookup t h) → h = hash t ∧ (e = .lock t ∨ s.cell.holder = some (t, false)) := by
  obtain ⟨⟨holder, cached, spawned⟩, client⟩ := s
  cases e with
  | lock t =>
    simp only [AppDht.step, DhtCell.step] at hs
    cases holder with
    | some x => cases hs
    | none =>
      cases cached with
      | none =>
        simp only [Option.some.injEq, Prod.mk.injEq] at hs
        obtain ⟨rfl, rfl⟩ := hs
        exact .inl ⟨rfl, by simp, rfl, .inr ⟨t, rfl, rfl, rfl⟩⟩
      | some n =>
        cases client with
        | none => cases hs
        | some a =>
          simp only [Option.map_eq_some_iff] at hs
          obtain ⟨⟨a', eo⟩, hst, hs⟩ := hs
          cases hs
          refine .inr ⟨a, a', _, eo, hst, rfl, rfl, .inl rfl, .inl rfl, .inl rfl, ?_⟩
          rintro t' h ht
          cases ht
          exact ⟨rfl, .inl rfl⟩
  | created t my bind4 bind6 =>
    simp only [AppDht.step] at hs
    cases hc : DhtState.create my bind4 bind6 with
    | none =>
      rw [hc] at hs
      simp only [DhtCell.step, Bool.false_eq_true, if_false] at hs
      split at hs
      · cases hs
        exact .inl ⟨rfl, by simp, rfl, .inl rfl⟩
      · cases hs
    | some a =>
      rw [hc] at hs
      simp only [DhtCell.step, if_true] at hs
      by_cases hh : holder = some (t, false)
      · subst hh
        rw [if_pos rfl] at hs
        simp only [Option.map_eq_some_iff] at hs
        obtain ⟨⟨a', eo⟩, hst, hs⟩ := hs
        cases hs
        refine .inr ⟨a, a', _, eo, hst, rfl, rfl, .inl rfl, .inl rfl, .inr ⟨t, my, _, rfl, (Props.dht_created my bind4 bind6).2.1 a hc⟩, ?_⟩
        rintro t' h ht
        cases ht
        exact ⟨rfl, .inr rfl⟩
      · rw [if_neg hh] at hs
        cases hs
  | dropped t =>
    simp only [AppDht.step, DhtCell.step] at hs
    cases holder with
    | none => cases hs
    | some x =>
      obtain ⟨t', b⟩ := x
      simp only at hs
      split at hs
      · cases hs
        exact .inl ⟨rfl, by simp, rfl, .inl rfl⟩
      · cases hs
  | client ev =>
    simp only [AppDht.step] at hs
    cases client with
    | none => cases hs
    | some a =>
      simp only at hs
      split at hs
      · cases hs
      · rename_i hsub
        rw [Option.map_eq_some_iff] at hs
        obtain ⟨⟨a', eo⟩, hst, hs⟩ := hs
        cases hs
        refine .inr ⟨a, a', ev, eo, hst, rfl, rfl, .inr ⟨rfl, rfl⟩, .inr ⟨rfl, rfl⟩, .inl rfl, ?_⟩
        rintro t' h rfl
        exact absurd rfl hsub

/-- What is heard. -/
theorem hearDht_some : ∀ {o : List AppDhtOutput} {found : Nat → Option (Except TaskError (List Peer × List SockAddr))} {n d}, hearDht found o n = some d →
    found n = some d ∨ (∃ x, d = .error (.dht x)) ∨ ∃ r : FoundPeers, .effect (.answer n r) ∈ o ∧ d = .ok (r.peers, r.closestNodes) := by
  intro o
  induction o with
  | nil => intro found n d h; exact .inl h
  | cons x l ih =>
    intro found n d h
    have up : ∀ {found' : Nat → Option (Except TaskError (List Peer × List SockAddr))} {t : Nat} {y}, found' = setAt found t (some y) →
        hearDht found' l n = some d → ((∃ x, y = .error (.dht x)) ∨ ∃ r : FoundPeers, x = .effect (.answer t r) ∧ y = .ok (r.peers, r.closestNodes)) →
        found n = some d ∨ (∃ x, d = .error (.dht x)) ∨ ∃ r : FoundPeers, .effect (.answer n r) ∈ x :: l ∧ d = .ok (r.peers, r.closestNodes) := by
      rintro found' t y rfl h hy
      rcases ih h with h | h | ⟨r, h1, h2⟩
      · by_cases hn : n = t
        · subst hn
          rw [setAt_same] at h
          cases h
          rcases hy with hy | ⟨r, hr, hy⟩
          · exact .inr (.inl hy)
          · exact .inr (.inr ⟨r, by rw [hr]; exact List.mem_cons_self, hy⟩)
        · rw [setAt_other _ _ hn] at h
          exact .inl h
      · exact .inr (.inl h)
      · exact .inr (.inr ⟨r, List.mem_cons_of_mem _ h1, h2⟩)
    have pass : hearDht found l n = some d →
        found n = some d ∨ (∃ x, d = .error (.dht x)) ∨ ∃ r : FoundPeers, .effect (.answer n r) ∈ x :: l ∧ d = .ok (r.peers, r.closestNodes) := by
      intro h
      rcases ih h with h | h | ⟨r, h1, h2⟩
      · exact .inl h
      · exact .inr (.inl h)
      · exact .inr (.inr ⟨r, List.mem_cons_of_mem _ h1, h2⟩)
    cases x with
    | failed t => exact up rfl h (.inl ⟨_, rfl⟩)
    | effect x =>
      cases x with
      | answer t r => exact up rfl h (.inr ⟨r, rfl, rfl⟩)
      | down t => exact up rfl h (.inl ⟨_, rfl⟩)
      | _ => exact pass h

end

section
variable {sha1 : Bytes → Bytes} {env : GetEnv} {resolve : Text → BitVec 16 → Option (List SockAddr)} {template : List TemplateElement} {ms : List Magnet}
  {tr : NetTrace} {ftr : MagnetFleetTrace} {s s' : NetBatch} {e : NetEvent} {out : List NetOutput}

/-- What the DHT has said of download `n`: an error, or an answer to be found in `dtr`. -/
def DhtWord (dtr : List DhtEffect) (n : Nat) (d : Except TaskError (List Peer × List SockAddr)) : Prop :=
  (∃ x, d = .error (.dht x)) ∨ ∃ r : FoundPeers, DhtEffect.answer n r ∈ dtr ∧ d = .ok (r.peers, r.closestNodes)

/-- What is known of the one client: its run so far. -/
structure ClientInv (env : GetEnv) (resolve : Text → BitVec 16 → Option (List SockAddr)) (tr : NetTrace) (ftr : MagnetFleetTrace) (s : NetBatch)
    (my : NodeId) (v6 : Bool) (des : List DhtEvent) (st : DhtState) (dtr : List DhtEffect) : Prop where
  run : (DhtState.init my v6).run resolve env.cfg.dht.bootstrapNodes des = some (st, dtr)
  now : ∀ a, s.dht.client = some a → a = st
  unborn : s.dht.client = none → dtr = []
  submits : ∀ t h, DhtEvent.submit (.lookup t h) ∈ des → s.lookups t = some h
  effects : ∀ x, .dht (.effect x) ∈ tr.flatMap Prod.snd → x ∈ dtr
  found : ∀ n d, s.found n = some d → DhtWord dtr n d
  begins : ∀ n d out, (FleetEvent.begins n d, out) ∈ ftr → DhtWord dtr n d
  heard : ∀ x ∈ dtr, .dht (.effect x) ∈ tr.flatMap Prod.snd

/-- What is known of the DHT. -/
structure NetDhtInv (env : GetEnv) (resolve : Text → BitVec 16 → Option (List SockAddr)) (ms : List Magnet) (tr : NetTrace) (ftr : MagnetFleetTrace)
    (s : NetBatch) : Prop where
  lookups : ∀ n h, s.lookups n = some h → ∃ m, ms[n]? = some m ∧ m.trackers = [] ∧ h = m.infoHash
  holder : ∀ t b, s.dht.cell.holder = some (t, b) → (∃ h, s.lookups t = some h) ∧ s.dht.client = none
  cached : ∀ a, s.dht.client = some a → s.dht.cell.cached.isSome = true
  client : ∃ my v6 des st dtr, ClientInv env resolve tr ftr s my v6 des st dtr

theorem DhtWord.mono {dtr : List DhtEffect} {n : Nat} {d : Except TaskError (List Peer × List SockAddr)} (h : DhtWord dtr n d) {dtr' : List DhtEffect}
    (hs : ∀ x ∈ dtr, x ∈ dtr') : DhtWord dtr' n d := by
  rcases h with h | ⟨r, h1, h2⟩
  · exact .inl h
  · exact .inr ⟨r, hs _ h1, h2⟩

theorem NetDhtInv.quiet (v : NetDhtInv env resolve ms tr ftr s) {more : MagnetFleetTrace} (h1 : s'.dht = s.dht) (h2 : s'.lookups = s.lookups)
    (h3 : s'.found = s.found) (ho : ∀ x, .dht (.effect x) ∉ out)
    (hb : ∀ n d o, (FleetEvent.begins n d, o) ∈ more → s.found n = some d ∨ ∃ x, d = .error (.dht x)) :
    NetDhtInv env resolve ms (tr ++ [(e, out)]) (ftr ++ more) s' := by
  obtain ⟨my, v6, des, st, dtr, c⟩ := v.client
  refine ⟨by rw [h2]; exact v.lookups, by rw [h1, h2]; exact v.holder, by rw [h1]; exact v.cached, my, v6, des, st, dtr, c.run, by rw [h1]; exact c.now,
    by rw [h1]; exact c.unborn, by rw [h2]; exact c.submits, ?_, by rw [h3]; exact c.found, ?_, fun x hx => by simp [c.heard x hx]⟩
  · intro x hx
    simp only [List.flatMap_append, List.flatMap_cons, List.flatMap_nil, List.append_nil, List.mem_append] at hx
    rcases hx with hx | hx
    · exact c.effects x hx
    · exact absurd hx (ho x)
  · intro n d o hx
    rcases List.mem_append.1 hx with hx | hx
    · exact c.begins n d o hx
    · rcases hb n d o hx with h | h
      · exact c.found n d h
      · exact .inl h

theorem NetDhtInv.dhtMove (hj : 0 < env.cfg.general.batchJobs) (hp : ProgInv env ms tr ftr s) (v : NetDhtInv env resolve ms tr ftr s) {de lk d o}
    (hlk : lk = s.lookups ∧ (∀ n, de ≠ AppDhtEvent.lock n) ∨ ∃ n m, de = .lock n ∧ runningJob s.fleet.batch.nursery n = some m ∧ m.trackers = [] ∧
        s.fleet.work n = none ∧ s.lookups n = none ∧ lk = setAt s.lookups n (some m.infoHash))
    (hs : s.dht.step (fun n => (lk n).getD ⟨List.replicate 20 0, by decide⟩) resolve env.cfg.dht.bootstrapNodes de = some (d, o)) :
    NetDhtInv env resolve ms (tr ++ [(.dht de, o.map .dht)]) ftr { s with lookups := lk, dht := d, found := hearDht s.found o } := by
  have grow : ∀ t h, s.lookups t = some h → lk t = some h := by
    intro t h ht
    rcases hlk with ⟨rfl, -⟩ | ⟨n, m, -, -, -, -, hn, rfl⟩
    · exact ht
    · rw [setAt_other]
      · exact ht
      · rintro rfl; rw [hn] at ht; cases ht
  have mine : ∀ t h, lk t = some h → ∃ m, ms[t]? = some m ∧ m.trackers = [] ∧ h = m.infoHash := by
    intro t h ht
    rcases hlk with ⟨rfl, -⟩ | ⟨n, m, -, hr, hm, -, hn, rfl⟩
    · exact v.lookups t h ht
    · by_cases htn : t = n
      · subst htn
        rw [setAt_same] at ht
        cases ht
        exact ⟨m, net_running hj hp.run hr, hm, rfl⟩
      · rw [setAt_other _ _ htn] at ht
        exact v.lookups t h ht
  have locked : ∀ t, de = .lock t → ∃ h, lk t = some h := by
    rintro t rfl
    rcases hlk with ⟨-, h⟩ | ⟨n, m, hn, -, -, -, -, rfl⟩
    · exact absurd rfl (h t)
    · cases hn
      exact ⟨_, setAt_same ..⟩
  have held : ∀ t b, s.dht.cell.holder = some (t, b) → ∃ h, lk t = some h := by
    intro t b ht
    obtain ⟨h, hh⟩ := (v.holder t b ht).1
    exact ⟨h, grow t h hh⟩
  obtain ⟨my, v6, des, st, dtr, c⟩ := v.client
  rcases appDht_moves hs with ⟨h1, h2, h3, h4⟩ | ⟨a, a', ev, eo, hst, h1, rfl, h3, h4, h5, h6⟩
  · refine ⟨mine, ?_, ?_, my, v6, des, st, dtr, c.run, ?_, ?_, fun t h ht => grow t h (c.submits t h ht), ?_, ?_, c.begins, fun x hx => by simp [c.heard x hx]⟩
    · intro t b ht
      change d.cell.holder = some (t, b) at ht
      change (∃ h, lk t = some h) ∧ d.client = none
      rw [h1]
      rcases h4 with h4 | ⟨t', h4, h5, h6⟩
      · rw [h4] at ht; cases ht
      · rw [h6] at ht
        cases ht
        refine ⟨locked t h4, ?_⟩
        cases hc : s.dht.client with
        | none => rfl
        | some a =>
          have := v.cached a hc
          rw [h5] at this
          cases this
    · intro a ha
      change d.client = some a at ha
      change d.cell.cached.isSome = true
      rw [h3]
      rw [h1] at ha
      exact v.cached a ha
    · intro a ha
      change d.client = some a at ha
      rw [h1] at ha
      exact c.now a ha
    · intro ha
      change d.client = none at ha
      rw [h1] at ha
      exact c.unborn ha
    · intro x hx
      simp only [List.flatMap_append, List.flatMap_cons, List.flatMap_nil, List.append_nil, List.mem_append, List.mem_map] at hx
      rcases hx with hx | ⟨y, hx, hy⟩
      · exact c.effects x hx
      · cases hy
        exact absurd hx (h2 x)
    · intro n w hn
      rcases hearDht_some hn with hn | hn | ⟨r, hn, -⟩
      · exact c.found n w hn
      · exact .inl hn
      · exact absurd hn (h2 _)
  · have asks : ∀ t h, ev = .submit (.lookup t h) → lk t = some h := by
      intro t h ht
      obtain ⟨rfl, hh⟩ := h6 t h ht
      have : ∃ h, lk t = some h := by
        rcases hh with hh | hh
        · exact locked t hh
        · exact held t _ hh
      obtain ⟨h, hh⟩ := this
      simp [hh]
    have key : ∃ my v6 des dtr0, (DhtState.init my v6).run resolve env.cfg.dht.bootstrapNodes des = some (a, dtr0) ∧ (∀ x ∈ dtr, x ∈ dtr0) ∧ (∀ x ∈ dtr0, .dht (.effect x) ∈ tr.flatMap Prod.snd) ∧
        ∀ t h, DhtEvent.submit (.lookup t h) ∈ des → lk t = some h := by
      rcases h5 with h5 | ⟨t, my', v6', h5, rfl⟩
      · have := c.now a h5
        subst this
        exact ⟨my, v6, des, dtr, c.run, fun x hx => hx, c.heard, fun t h ht => grow t h (c.submits t h ht)⟩
      · refine ⟨my', v6', [], [], rfl, ?_, by simp, by simp⟩
        rw [c.unborn (v.holder t _ h5).2]
        simp
    obtain ⟨my', v6', des', dtr0, hrun, hsub, hheard, hlook⟩ := key
    refine ⟨mine, ?_, ?_, my', v6', des' ++ [ev], a', dtr0 ++ eo, DhtState.run_append_one _ _ _ hrun hst, ?_, ?_, ?_, ?_, ?_, ?_, ?_⟩
    · intro t b ht
      change d.cell.holder = some (t, b) at ht
      rcases h4 with h4 | ⟨h4, h7⟩
      · rw [h4] at ht; cases ht
      · rw [h4] at ht
        have := (v.holder t b ht).2
        rw [h7] at this
        cases this
    · intro x hx
      change d.cell.cached.isSome = true
      rcases h3 with h3 | ⟨h3, h7⟩
      · exact h3
      · rw [h3]
        exact v.cached a h7
    · intro x hx
      change d.client = some x at hx
      rw [h1] at hx
      cases hx
      rfl
    · intro hx
      change d.client = none at hx
      rw [h1] at hx
      cases hx
    · intro t h ht
      rcases List.mem_append.1 ht with ht | ht
      · exact hlook t h ht
      · exact asks t h (List.mem_singleton.1 ht).symm
    · intro x hx
      simp only [List.flatMap_append, List.flatMap_cons, List.flatMap_nil, List.append_nil, List.mem_append, List.mem_map] at hx
      rcases hx with hx | ⟨y, ⟨z, hz, rfl⟩, hy⟩
      · exact List.mem_append_left _ (hsub x (c.effects x hx))
      · cases hy
        exact List.mem_append_right _ hz
    · intro n w hn
      rcases hearDht_some hn with hn | hn | ⟨r, hn, hw⟩
      · exact (c.found n w hn).mono fun x hx => List.mem_append_left _ (hsub x hx)
      · exact .inl hn
      · rw [List.mem_map] at hn
        obtain ⟨z, hz, hy⟩ := hn
        cases hy
        exact .inr ⟨r, List.mem_append_right _ hz, hw⟩
    · intro n w o' hn
      exact (c.begins n w o' hn).mono fun x hx => List.mem_append_left _ (hsub x hx)
    · intro x hx
      simp only [List.flatMap_append, List.flatMap_cons, List.flatMap_nil, List.append_nil, List.mem_append, List.mem_map]
      rcases List.mem_append.1 hx with hx | hx
      · exact .inl (hheard x hx)
      · exact .inr ⟨_, ⟨x, hx, rfl⟩, rfl⟩

end

end Demag
