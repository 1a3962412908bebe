import Verif.Props.FleetEnds
import Verif.Model.FleetGet

/-!
# C99: the downloads of a batch, side by side, are those of C73
-/

namespace Demag.Props

open Demag Spec

variable {sha1 : Bytes → Bytes} {env : GetEnv} {uenv : UrlEnv} {behaves : Peer → (Nat → Link) → Prop} {answers : Tracker → AskTrace → Prop}
  {template : List TemplateElement} {file : Option Bytes} {tr : MagnetFleetTrace} {f : MagnetFleet}

/-- What is observed at an event of a fleet is of the download it belongs to. -/
theorem outputs_of {M T P A D I ε : Type} [DecidableEq A] {addr : P → A} {trackers : M → List T} {jobsT jobsP jobs : Nat} {magnets : Option (List M)}
    {tr : FleetTrace M T P D I ε} {f : Fleet M T P A D I ε} (h : FleetRun addr trackers jobsT jobsP magnets jobs tr f) :
    (∀ n re out, (FleetEvent.goesOn n re, out) ∈ tr → out = (out.filterMap outputOf).map (.output n)) ∧
    (∀ e out n m, (e, out) ∈ tr → .began n m ∈ out → ∃ d, e = .begins n d ∧ out = [.began n m]) ∧
    ∀ e out n m o, (e, out) ∈ tr → .over n m o ∈ out → ∃ w sv, e = .ends w sv ∧ out = [.over n m o] := by
  induction h with
  | init => simp
  | @step tr f f' e out _ hs ih =>
    obtain ⟨i1, i2, i3⟩ := ih
    have key : (∀ n re, e = .goesOn n re → out = (out.filterMap outputOf).map (.output n)) ∧
        (∀ n m, .began n m ∈ out → ∃ d, e = .begins n d ∧ out = [.began n m]) ∧
        ∀ n m o, .over n m o ∈ out → ∃ w sv, e = .ends w sv ∧ out = [.over n m o] := by
      unfold Fleet.step at hs
      split at hs
      · cases hs
      cases e with
      | batch be =>
        cases be <;> simp only [Option.map_eq_some_iff] at hs <;>
          first | (cases hs; done) | (obtain ⟨r, -, hs⟩ := hs; cases hs; simp)
      | begins n d =>
        simp only at hs
        split at hs
        · cases hs; simp
        · cases hs
      | goesOn n re =>
        simp only at hs
        split at hs
        · rw [Option.map_eq_some_iff] at hs
          obtain ⟨r, -, hs⟩ := hs
          cases hs
          refine ⟨?_, by simp, by simp⟩
          intro k re' he
          cases he
          rw [output_filterMap]
        · cases hs
      | ends w sv =>
        simp only at hs
        split at hs
        · split at hs
          · rw [Option.map_eq_some_iff] at hs
            obtain ⟨r, -, hs⟩ := hs
            cases hs
            refine ⟨by simp, by simp, ?_⟩
            intro k m o hm
            rw [List.mem_singleton] at hm
            exact ⟨_, _, rfl, by rw [hm]⟩
          · cases hs
        · cases hs
      | leftover n ne =>
        simp only at hs
        split at hs
        · split at hs
          · rw [Option.map_eq_some_iff] at hs
            obtain ⟨r, -, hs⟩ := hs
            cases hs
            simp
          · cases hs
        · cases hs
    refine ⟨?_, ?_, ?_⟩
    · intro n re o ho
      rw [List.mem_append, List.mem_singleton] at ho
      rcases ho with ho | ho
      · exact i1 n re o ho
      · cases ho; exact key.1 n re rfl
    · intro e' o n m ho hm
      rw [List.mem_append, List.mem_singleton] at ho
      rcases ho with ho | ho
      · exact i2 e' o n m ho hm
      · cases ho; exact key.2.1 n m hm
    · intro e' o n m o' ho hm
      rw [List.mem_append, List.mem_singleton] at ho
      rcases ho with ho | ho
      · exact i3 e' o n m o' ho hm
      · cases ho; exact key.2.2 n m o' hm

/-- What happened in a download, found again in the whole. -/
theorem mem_alone {M T P D I ε : Type} {tr : FleetTrace M T P D I ε} {n : Nat} {e : ResolveEvent P ε I} {out : List (ResolveOutput T P D I ε)}
    (h : (e, out) ∈ alone n tr) : ∃ o, (FleetEvent.goesOn n e, o) ∈ tr ∧ out = o.filterMap outputOf := by
  unfold alone at h
  rw [List.mem_filterMap] at h
  obtain ⟨⟨fe, o⟩, hmem, heq⟩ := h
  simp only at heq
  split at heq
  · split at heq
    · rename_i hk; subst hk; cases heq; exact ⟨o, hmem, rfl⟩
    · cases heq
  · cases heq

/-- How a download ends is how `get` of its link ends. -/
theorem over_code (e : GetEnv) (sv : Outcome Bool) (r : Resolved Tracker SockAddr TorrentInfo TaskError)
    (h : r.isFile = true → sv = jobOutcome (getEffects e template r).2) : downloadOver sv r = jobOutcome (getEffects e template r).2 := by
  cases r with
  | file i t n => exact h rfl
  | dht x => simp [downloadOver, getEffects, downloadEffects, performEffects, Resolved.isFile, jobOutcome]
  | nothing => simp [downloadOver, getEffects, downloadEffects, performEffects, Resolved.isFile, jobOutcome]
  | panicked => simp [downloadOver, getEffects, downloadEffects, jobOutcome]

/-- **C99.** Every download that has begun is, left to itself, a run of `get` of its link (C70): with its trackers, with the peers they or the DHT
name, and with what those do. -/
theorem fleet_get_alone (hj : 0 < env.cfg.general.batchJobs) (h : FleetGet sha1 env uenv behaves answers template file tr f) {n : Nat} {m : Magnet}
    (hb : Began tr n m) (now : Except Nat Nat) (fileOk : Nat → Bool) :
    ∃ s, GetRun sha1 { env with now := now, fileOk := fileOk } behaves answers m (alone n tr) s ∧
      s.result = (f.work n).bind Resolve.result ∧ ∀ m' o, Over tr n m' o → m' = m ∧ ∃ r, s.result = some r ∧ EndedWith tr n m o r := by
  have hrun := h.run
  cases hl : batchLinks uenv env.lossy file with
  | none =>
    rw [hl] at hrun
    have := fleet_nothing hrun (.inl rfl)
    subst this
    cases hb
  | some ms =>
    rw [hl] at hrun
    obtain ⟨-, dht, s, hd, hr, hres, hov⟩ := fleet_alone hj hrun hb
    obtain ⟨i1, i2, i3⟩ := outputs_of hrun
    have hbo : ∃ eo ∈ tr, FleetOutput.began n m ∈ eo.2 := by
      rw [Began, List.mem_flatMap] at hb
      exact hb
    obtain ⟨⟨be, bo⟩, hbmem, hbin⟩ := hbo
    obtain ⟨d, rfl, rfl⟩ := i2 be bo n m hbmem hbin
    have hdd : d = dht := (hd d).1 ⟨_, hbmem⟩
    subst hdd
    have hg : DhtGives env.cfg.dht.bootstrapNodes m d := by
      obtain ⟨lookup, my, v6, es, st, dtr, hdr, hall⟩ := h.dht
      rcases hall n d m hbmem with he | ⟨found, h1, h2, h3⟩
      · exact .inl he
      · exact .inr ⟨lookup, my, v6, es, st, dtr, n, found, hdr, h1, h2, h3⟩
    have back : ∀ eo ∈ alone n tr, ∀ x ∈ eo.2, ∃ o, (FleetEvent.goesOn n eo.1, o) ∈ tr ∧ .output n x ∈ o := by
      rintro ⟨e, out⟩ heo x hx
      obtain ⟨o, ho, rfl⟩ := mem_alone heo
      refine ⟨o, ho, ?_⟩
      rw [i1 n e o ho]
      exact List.mem_map.2 ⟨x, hx, rfl⟩
    refine ⟨s, ⟨⟨d, hg, hr, ?_⟩, ?_, ?_⟩, hres, hov⟩
    · intro eo heo p r hp
      obtain ⟨o, ho, hin⟩ := back eo heo _ hp
      exact h.tasks n m ⟨_, hbmem, hbin⟩ _ ho p r hin
    · intro eo heo t ps hp
      obtain ⟨o, ho, hin⟩ := back eo heo _ hp
      obtain ⟨w, atr, a, r, h1, h2, h3, h4, h5⟩ := h.asked n m ⟨_, hbmem, hbin⟩ _ ho t ps hin
      refine ⟨w, atr, a, r, h1, h2, h3, h4, ?_⟩
      simpa using h5
    · intro eo heo t hp
      obtain ⟨o, ho, hin⟩ := back eo heo _ hp
      exact h.calm _ ho n t hin

/-- **C99.** The batch with everything that happens in its downloads is a batch as in C73: all that is said there of the torrent files and of the exit
status holds of it. -/
theorem fleet_get_batch (hj : 0 < env.cfg.general.batchJobs) (h : FleetGet sha1 env uenv behaves answers template file tr f) :
    ∃ btr jobs, BatchGet sha1 env uenv behaves answers template file btr jobs f.batch ∧
      jobs.map (fun j => (j.link, jobOutcome j.code)) = overs tr := by
  have hrun := h.run
  have main : ∃ btr, BatchRun (batchLinks uenv env.lossy file) env.cfg.general.batchJobs btr f.batch ∧ downloads btr = overs tr := by
    cases hl : batchLinks uenv env.lossy file with
    | none =>
      rw [hl] at hrun
      have htr := fleet_nothing hrun (.inl rfl)
      subst htr
      generalize ht : ([] : MagnetFleetTrace) = t at hrun
      cases hrun with
      | init => exact ⟨[], .init, rfl⟩
      | step _ _ => simp at ht
    | some ms =>
      rw [hl] at hrun
      exact fleet_batch hj hrun
  obtain ⟨btr, hb, hdl⟩ := main
  have each : ∀ x ∈ overs tr, ∃ j : BatchJob, (j.link, jobOutcome j.code) = x ∧ j.Runs sha1 env behaves answers template := by
    rintro ⟨m, o⟩ hx
    unfold overs at hx
    rw [List.mem_filterMap] at hx
    obtain ⟨y, hy, hyx⟩ := hx
    cases y with
    | began k m' => cases hyx
    | output k o' => cases hyx
    | over n m' o' =>
      cases hyx
      have hov : Over tr n m o := hy
      have hbeg : ∃ m', Began tr n m' := by
        by_contra hno
        cases hl : batchLinks uenv env.lossy file with
        | none =>
          rw [hl] at hrun
          have := fleet_nothing hrun (.inl rfl)
          subst this
          cases hov
        | some ms =>
          rw [hl] at hrun
          exact (fleet_unbegun hj hrun (fun m' hm' => hno ⟨m', hm'⟩)).2 m o hov
      obtain ⟨m', hm'⟩ := hbeg
      obtain ⟨s, -, hres, hends⟩ := fleet_get_alone hj h hm' (.ok 0) fun _ => true
      obtain ⟨rfl, r, hr, w, sv, hmem, ho⟩ := hends m o hov
      obtain ⟨now, fileOk, hsv⟩ := h.saved w sv n m o hmem r (by rw [← hres]; exact hr)
      obtain ⟨s1, hg, hres1, -⟩ := fleet_get_alone hj h hm' now fileOk
      have hsv' : o = downloadOver sv r := by cases r <;> exact ho
      refine ⟨⟨m, now, fileOk, r, (getEffects { env with now := now, fileOk := fileOk } template r).1,
        (getEffects { env with now := now, fileOk := fileOk } template r).2⟩, ?_, ⟨_, s1, hg, by rw [hres1, ← hres]; exact hr⟩, rfl⟩
      simp only [Prod.mk.injEq, true_and]
      rw [hsv', over_code _ sv r hsv]
  have build : ∀ l : List (Magnet × Outcome Bool), (∀ x ∈ l, ∃ j : BatchJob, (j.link, jobOutcome j.code) = x ∧ j.Runs sha1 env behaves answers template) →
      ∃ jobs : List BatchJob, jobs.map (fun j => (j.link, jobOutcome j.code)) = l ∧ ∀ j ∈ jobs, j.Runs sha1 env behaves answers template := by
    intro l
    induction l with
    | nil => exact fun _ => ⟨[], rfl, by simp⟩
    | cons x l ih =>
      intro hl
      obtain ⟨jobs, h1, h2⟩ := ih fun y hy => hl y (List.mem_cons_of_mem _ hy)
      obtain ⟨j, hj1, hj2⟩ := hl x List.mem_cons_self
      refine ⟨j :: jobs, by rw [List.map_cons, h1, hj1], ?_⟩
      intro y hy
      rcases List.mem_cons.1 hy with rfl | hy
      · exact hj2
      · exact h2 y hy
  obtain ⟨jobs, hjobs, hruns⟩ := build (overs tr) each
  exact ⟨btr, jobs, ⟨hb, hdl.trans hjobs.symm, hruns⟩, hjobs⟩

end Demag.Props
