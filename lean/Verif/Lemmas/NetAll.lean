import Verif.Lemmas.NetDht

/-!
# Auxiliary facts about a batch with all its conversations: how tasks end, and all together
-/

namespace Demag

open Spec Props

section
variable {sha1 : Bytes → Bytes} {env : GetEnv} {resolve : Text → BitVec 16 → Option (List SockAddr)} {template : List TemplateElement} {ms : List Magnet}
  {tr : NetTrace} {ftr : MagnetFleetTrace} {s s' : NetBatch} {e : NetEvent} {out : List NetOutput}

theorem asks_kept (hm : NetMove sha1 env resolve template s s' e out) {n k : Nat} {t : Tracker} (h : ∃ a, s.asks n k = some a ∧ a.tracker = t) :
    ∃ a, s'.asks n k = some a ∧ a.tracker = t := by
  obtain ⟨a, h1, h2⟩ := h
  cases hm with
  | inner hi _ _ => rw [hi.same.2.2.2.2.1]; exact ⟨a, h1, h2⟩
  | dht _ _ hs => subst hs; exact ⟨a, h1, h2⟩
  | leftover _ _ _ _ _ hs => subst hs; exact ⟨a, h1, h2⟩
  | peerBegins _ _ _ _ hs => subst hs; exact ⟨a, h1, h2⟩
  | @trackerBegins n' w k' t' q m hq hw hl hn hs =>
    refine ⟨a, ?_, h2⟩
    rw [hs]
    change setAt s.asks n' _ n k = _
    by_cases hx : n = n'
    · subst hx
      rw [setAt_same, setAt_other]
      · exact h1
      · rintro rfl; rw [hn] at h1; cases h1
    · rw [setAt_other _ _ hx]; exact h1
  | @tracker n' k' ae a' m r hak hl hstep hs =>
    rw [hs]
    change ∃ a, setAt s.asks n' _ n k = _ ∧ _
    by_cases hx : n = n'
    · subst hx
      by_cases hy : k = k'
      · subst hy
        rw [hak] at h1
        cases h1
        exact ⟨⟨a.tracker, r.1, a.result.or (askReturned r.2)⟩, by rw [setAt_same, setAt_same], h2⟩
      · rw [setAt_same, setAt_other _ _ hy]; exact ⟨a, h1, h2⟩
    · rw [setAt_other _ _ hx]; exact ⟨a, h1, h2⟩

/-- How the tasks of the downloads, and the downloads, have ended. -/
structure FaithInv (sha1 : Bytes → Bytes) (env : GetEnv) (template : List TemplateElement) (tr : NetTrace) (ftr : MagnetFleetTrace) (s : NetBatch) : Prop where
  tasks : ∀ n, ∀ eo ∈ ftr, ∀ p r, .output n (.peerDone p r) ∈ eo.2 → ∃ m ls, s.link n = some m ∧ Behaved tr p ls ∧
    taskOutcome (peerTask sha1 env.localId env.cfg.general.encrypt m.infoHash p ls) = some r
  asked : ∀ n, ∀ eo ∈ ftr, ∀ t ps, .output n (.answer t ps) ∈ eo.2 → ∃ m k w atr a r, s.link n = some m ∧ (∃ a, s.asks n k = some a ∧ a.tracker = t) ∧
    atr <+: conversation n k tr ∧ AskRun env.lossy env.parseIp t (env.getter m) atr a ∧ AskOutput.result r ∈ atr.flatMap Prod.snd ∧
    ps = r.toOption.getD [] ∧ eo.1 = .goesOn n (.trackerEnds w (.value (r.mapError .tracker)))
  calm : ∀ eo ∈ ftr, ∀ n t, .output n (.trackerPanic t) ∉ eo.2
  saved : ∀ w sv n m o, (FleetEvent.ends w sv, [FleetOutput.over n m o]) ∈ ftr → ∀ r, (s.fleet.work n).bind Resolve.result = some r →
    ∃ now fileOk, sv = jobOutcome (getEffects { env with now := now, fileOk := fileOk } template r).2

theorem conversation_grows (n k : Nat) (tr : NetTrace) (x : NetEvent × List NetOutput) : conversation n k tr <+: conversation n k (tr ++ [x]) := by
  rw [conversation_snoc]
  exact List.prefix_append _ _

/-- Once a download has its result it keeps it. -/
theorem result_kept (hj : 0 < env.cfg.general.batchJobs) {f f' : MagnetFleet} (hr : NetFleetRun env ms ftr f) {fe fo}
    (hs : f.step (fun p : Peer => p.address) Magnet.trackers env.cfg.trackers.jobsPerMagnet env.cfg.peers.jobsPerMagnet fe = some (f', fo)) {n : Nat} {m : Magnet}
    {o : Outcome Bool} (ho : Over ftr n m o) : (f'.work n).bind Resolve.result = (f.work n).bind Resolve.result := by
  have hi := fleet_inv hj hr
  cases hw : f.work n with
  | none => exact absurd ho ((hi.idle n hw).2.2.2 m o)
  | some r0 =>
    obtain ⟨_, _, _, -, -, -, -, -, -, hov⟩ := hi.active n r0 hw
    obtain ⟨-, r, hres, -⟩ := hov m o ho
    cases fleet_moves hs with
    | batch h => rw [h]; show (f.work n).bind _ = _; rw [hw]
    | ends _ _ h => rw [h]; show (f.work n).bind _ = _; rw [hw]
    | @begins k d m' _ hwk h =>
      rw [h, put_other, hw]
      rintro rfl
      rw [hwk] at hw
      cases hw
    | @goesOn k re m' r1 r2 o' _ hwk hstep h =>
      rw [h, put_other, hw]
      rintro rfl
      rw [hwk] at hw
      cases hw
      have := (resolve_step_ends hstep).1
      rw [hres] at this
      cases this
    | @leftover k ne r1 q o' hwk _ _ _ h =>
      rw [h]
      by_cases hk : n = k
      · subst hk
        rw [hwk] at hw
        cases hw
        rw [put_same]
        rfl
      · rw [put_other _ _ hk, hw]

theorem FaithInv.inner (hj : 0 < env.cfg.general.batchJobs) (hp : ProgInv env ms tr ftr s) (ha : NetAskInv env tr s) (ht : TalkInv sha1 env tr ftr s)
    (v : FaithInv sha1 env template tr ftr s) {fe fo} (hm : InnerMove sha1 env template s s' fe fo)
    (hkept : ∀ n m, s.link n = some m → s'.link n = some m) :
    FaithInv sha1 env template (tr ++ [(e, fo.map .fleet)]) (ftr ++ [(fe, fo)]) s' := by
  have hmv := fleet_moves hm.step
  have hasks := hm.same.2.2.2.2.1
  -- outputs of downloads come from their own events
  have own : ∀ n x, .output n x ∈ fo → ∃ re m r r' o, fe = .goesOn n re ∧ s.fleet.work n = some r ∧ runningJob s.fleet.batch.nursery n = some m ∧
      r.step (fun p : Peer => p.address) m.trackers re = some (r', o) ∧ x ∈ o := by
    intro n x hx
    cases hmv with
    | batch _ => cases hx
    | begins _ _ _ => simp at hx
    | ends _ _ _ => simp at hx
    | leftover _ _ _ _ _ => cases hx
    | goesOn h1 h2 h3 _ =>
      rw [List.mem_map] at hx
      obtain ⟨y, hy, hyx⟩ := hx
      cases hyx
      exact ⟨_, _, _, _, _, rfl, h2, h1, h3, hy⟩
  refine ⟨?_, ?_, ?_, ?_⟩
  · intro n eo heo p r hx
    rcases List.mem_append.1 heo with heo | heo
    · obtain ⟨m, ls, h1, h2, h3⟩ := v.tasks n eo heo p r hx
      exact ⟨m, ls, hkept n m h1, h2.mono _, h3⟩
    · cases List.mem_singleton.1 heo
      obtain ⟨re, m, r0, r1, o, rfl, hw, hrun, hstep, hmem⟩ := own n _ hx
      obtain ⟨w, k, rfl, hwk⟩ := (resolve_step_ends hstep).2.2.2 p r hmem
      obtain ⟨k', p', m', ls, h1, h2, h3, h4⟩ := hm.peer n w r rfl
      rw [hw] at h1
      change r0.peers.workers[w]? = _ at h1
      rw [hwk] at h1
      cases h1
      obtain ⟨p', h5, h6⟩ := ht.talk n k ls h3
      obtain ⟨_, -, -, h7⟩ := hp.working n r0 hw
      have h8 : (contacts (alone n ftr))[k]? = some p := h7.1.running hwk
      rw [h8] at h5
      cases h5
      exact ⟨m', ls, hkept n m' h2, h6.mono _, h4⟩
  · intro n eo heo t ps hx
    rcases List.mem_append.1 heo with heo | heo
    · obtain ⟨m, k, w, atr, a, r, h1, h2, h3, h4⟩ := v.asked n eo heo t ps hx
      exact ⟨m, k, w, atr, a, r, hkept n m h1, by rw [hasks]; exact h2, h3.trans (conversation_grows ..), h4⟩
    · cases List.mem_singleton.1 heo
      obtain ⟨re, m, r0, r1, o, rfl, hw, hrun, hstep, hmem⟩ := own n _ hx
      obtain ⟨w, r, k, q, rfl, hps, hq, hwk⟩ := (resolve_step_ends hstep).2.2.1 t ps hmem
      obtain ⟨k', t', a, r', h1, h2, h3, rfl⟩ := hm.tracker n w r rfl
      rw [hw] at h1
      change (r0.trackers.bind _) = _ at h1
      rw [hq] at h1
      change q.workers[w]? = _ at h1
      rw [hwk] at h1
      cases h1
      obtain ⟨m', h4, h5, h6, h7⟩ := ha.begun n k a h2
      obtain ⟨m'', h8, h9, -⟩ := hp.working n r0 hw
      rw [h4] at h8
      cases h8
      have h10 : m'.trackers[k]? = some t := (h9 q hq).1.running hwk
      rw [h10] at h5
      have h11 : t = a.tracker := Option.some.inj h5
      subst h11
      refine ⟨m', k, w, conversation n k tr, a.ask, r', hkept n m' h4, ⟨a, by rw [hasks]; exact h2, rfl⟩, conversation_grows .., h6, h7 r' h3, ?_, rfl⟩
      cases r' with
      | ok x => cases hps; rfl
      | error x => cases hps; rfl
  · intro eo heo n t hx
    rcases List.mem_append.1 heo with heo | heo
    · exact v.calm eo heo n t hx
    · cases List.mem_singleton.1 heo
      obtain ⟨re, m, r0, r1, o, rfl, hw, hrun, hstep, hmem⟩ := own n _ hx
      obtain ⟨w, rfl⟩ := (resolve_step_ends hstep).2.1 t hmem
      obtain ⟨_, _, _, _, -, -, -, h⟩ := hm.tracker n w _ rfl
      cases h
  · intro w sv n m o heo r hr
    rcases List.mem_append.1 heo with heo | heo
    · have hov : Over ftr n m o := List.mem_flatMap.2 ⟨_, heo, List.mem_singleton.2 rfl⟩
      rw [result_kept hj hp.run hm.step hov] at hr
      exact v.saved w sv n m o heo r hr
    · have := List.mem_singleton.1 heo
      rw [Prod.mk.injEq] at this
      obtain ⟨rfl, rfl⟩ := this
      obtain ⟨n', m', r', now, fileOk, h1, h2, h3⟩ := hm.save w sv rfl
      generalize hfo : [FleetOutput.over n m o] = fo at hmv
      cases hmv with
      | ends h4 h5 h6 =>
        rw [h4] at h1
        cases h1
        cases hfo
        rw [h6] at hr
        change (s.fleet.work n).bind _ = _ at hr
        rw [hr] at h2
        cases h2
        exact ⟨now, fileOk, h3⟩

/-- A step that leaves the program alone. -/
theorem FaithInv.outer (v : FaithInv sha1 env template tr ftr s) (hm : NetMove sha1 env resolve template s s' e out) (h1 : s'.fleet = s.fleet)
    (h2 : s'.link = s.link) : FaithInv sha1 env template (tr ++ [(e, out)]) ftr s' := by
  refine ⟨?_, ?_, v.calm, by rw [h1]; exact v.saved⟩
  · intro n eo heo p r hx
    obtain ⟨m, ls, h3, h4, h5⟩ := v.tasks n eo heo p r hx
    exact ⟨m, ls, by rw [h2]; exact h3, h4.mono _, h5⟩
  · intro n eo heo t ps hx
    obtain ⟨m, k, w, atr, a, r, h3, h4, h5, h6⟩ := v.asked n eo heo t ps hx
    exact ⟨m, k, w, atr, a, r, by rw [h2]; exact h3, asks_kept hm h4, h5.trans (conversation_grows ..), h6⟩

/-- All that is known in the course of a batch with all its conversations. -/
structure NetInv (sha1 : Bytes → Bytes) (env : GetEnv) (resolve : Text → BitVec 16 → Option (List SockAddr)) (template : List TemplateElement)
    (ms : List Magnet) (tr : NetTrace) (ftr : MagnetFleetTrace) (s : NetBatch) : Prop where
  prog : ProgInv env ms tr ftr s
  asks : NetAskInv env tr s
  talk : TalkInv sha1 env tr ftr s
  faith : FaithInv sha1 env template tr ftr s
  dht : NetDhtInv env resolve ms tr ftr s

theorem NetInv.step (hj : 0 < env.cfg.general.batchJobs) (v : NetInv sha1 env resolve template ms tr ftr s)
    (hs : s.step sha1 env resolve template e = some (s', out)) : ∃ ftr', NetInv sha1 env resolve template ms (tr ++ [(e, out)]) ftr' s' := by
  have hm := net_moves hs
  have hkept : ∀ n m, s.link n = some m → s'.link n = some m := fun n m h => v.prog.kept hm h
  have hdht : ∀ more : MagnetFleetTrace, s'.dht = s.dht → s'.lookups = s.lookups → s'.found = s.found → (∀ x, .dht (.effect x) ∉ out) →
      (∀ n d o, (FleetEvent.begins n d, o) ∈ more → s.found n = some d ∨ ∃ x, d = .error (.dht x)) →
      NetDhtInv env resolve ms (tr ++ [(e, out)]) (ftr ++ more) s' := fun more h1 h2 h3 h4 h5 => v.dht.quiet h1 h2 h3 h4 h5
  rcases v.prog.move hj hm with ⟨fe, fo, hi, rfl, hp⟩ | ⟨h1, h2, hp⟩
  · refine ⟨_, hp, v.asks.move v.prog hm, v.talk.move v.prog hm _, v.faith.inner hj v.prog v.asks v.talk hi hkept, ?_⟩
    refine hdht _ hi.same.1 hi.same.2.2.1 hi.same.2.2.2.1 (by simp) ?_
    intro n d o hd
    have := List.mem_singleton.1 hd
    rw [Prod.mk.injEq] at this
    obtain ⟨rfl, rfl⟩ := this
    rcases hi.link with ⟨-, h⟩ | ⟨n', d', m, h, -, -, h'⟩
    · exact absurd rfl (h n d)
    · cases h
      rcases h' with ⟨-, h'⟩ | ⟨-, h'⟩
      · exact .inl h'
      · exact .inr h'
  · have ht := v.talk.move v.prog hm []
    rw [List.append_nil] at ht
    refine ⟨ftr, hp, v.asks.move v.prog hm, ht, v.faith.outer hm h1 h2, ?_⟩
    have q := hdht []
    rw [List.append_nil] at q
    cases hm with
    | inner hi _ _ =>
      refine q hi.same.1 hi.same.2.2.1 hi.same.2.2.2.1 (by simp) (by simp)
    | dht hlk hst hs' => subst hs'; exact v.dht.dhtMove hj v.prog hlk hst
    | trackerBegins _ _ _ _ hs' => subst hs'; exact q rfl rfl rfl (by simp) (by simp)
    | tracker _ _ _ hs' => subst hs'; exact q rfl rfl rfl (by simp) (by simp)
    | leftover _ _ _ _ _ hs' => subst hs'; exact q rfl rfl rfl (by simp) (by simp)
    | peerBegins _ _ _ _ hs' => subst hs'; exact q rfl rfl rfl (by simp) (by simp)

theorem NetInv.run (hj : 0 < env.cfg.general.batchJobs) (h : NetRun sha1 env resolve template (some ms) tr s) :
    ∃ ftr, NetInv sha1 env resolve template ms tr ftr s := by
  induction h with
  | init =>
    refine ⟨[], ⟨.init, rfl, ?_, ?_, ?_, ?_⟩, ⟨fun _ _ _ => rfl, ?_, ?_⟩, ⟨?_, ?_⟩, ⟨?_, ?_, ?_, ?_⟩, ?_, ?_, ?_, ?_⟩
    · intro n m h; cases h
    · intro n h; rfl
    · intro n r h; cases h
    · intro n q h; cases h
    · intro n k a h; cases h
    · intro n k t o h; cases h
    · intro n k ls h; cases h
    · intro n p said h; cases h
    · intro n eo h; cases h
    · intro n eo h; cases h
    · intro eo h; cases h
    · intro w sv n m o h; cases h
    · intro n h hh; cases hh
    · intro t b h; cases h
    · intro a h; cases h
    · refine ⟨⟨List.replicate 20 0, by decide⟩, false, [], _, [], rfl, ?_, fun _ => rfl, ?_, ?_, ?_, ?_, by simp⟩
      · intro a h; cases h
      · intro t h hh; cases hh
      · intro x h; cases h
      · intro n d h; cases h
      · intro n d o h; cases h
  | step _ hs ih =>
    obtain ⟨ftr, v⟩ := ih
    exact v.step hj hs

end

end Demag
