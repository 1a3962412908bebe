import Verif.Spec.StuckLinks
import Verif.Lemmas.StuckLinks
import Verif.Props.Stallers

/-!
# C108: links that get stuck do not hold up the others, as long as they are fewer than the downloads that run at the same time
-/

namespace Demag.Props

open Spec

section
variable {sha1 : Bytes → Bytes} {localId : PeerId} {pref : CryptoPreference} {behaves : Peer → (Nat → Link) → Prop} {ms : List Magnet}
  {jobsT jobsP jobs : Nat} {tr : LinksTrace} {f f' : Fleet Magnet Tracker Peer SockAddr SockAddr TorrentInfo TaskError}
  {dhtEnd : Nat → Except TaskError (List Peer × List SockAddr)} {trackerEnd : Nat → Tracker → Outcome (Except TaskError (List Peer))}
  {savedEnd : Nat → Outcome Bool} {e : FleetEvent Peer SockAddr TorrentInfo TaskError}
  {out : List (FleetOutput Magnet Tracker Peer SockAddr TorrentInfo TaskError)}

/-- A download of a batch is a download as in C58. -/
theorem stuck_alone (h : BatchTasks sha1 localId pref behaves ms jobsT jobsP jobs tr f) {n : Nat} {m : Magnet} (hm : ms[n]? = some m)
    {dht : Except TaskError (List Peer × List SockAddr)} {s : Resolve Tracker Peer SockAddr SockAddr TorrentInfo TaskError}
    (hr : ResolveRun (fun p : Peer => p.address) m.trackers dht jobsT jobsP (alone n tr) s) :
    DownloadRun sha1 localId pref behaves m dht jobsT jobsP (alone n tr) s := by
  refine ⟨hr, ?_⟩
  rintro ⟨re, ro⟩ heo p r hp
  obtain ⟨o, ho, rfl⟩ := mem_alone heo
  refine h.tasks n m hm _ ho p r ?_
  rw [(outputs_of h.run).1 n re o ho]
  exact List.mem_map.2 ⟨_, hp, rfl⟩

/-- A step in which no conversation with a peer ends. -/
theorem tasks_quiet (h : BatchTasks sha1 localId pref behaves ms jobsT jobsP jobs tr f)
    (hs : f.step (fun p : Peer => p.address) Magnet.trackers jobsT jobsP e = some (f', out)) (hq : ∀ n o, .output n o ∉ out) :
    BatchTasks sha1 localId pref behaves ms jobsT jobsP jobs (tr ++ [(e, out)]) f' := by
  refine ⟨.step h.run hs, ?_⟩
  intro n m hm eo heo p r hp
  rw [List.mem_append, List.mem_singleton] at heo
  rcases heo with heo | rfl
  · exact h.tasks n m hm eo heo p r hp
  · exact absurd hp (hq n _)

/-- A link that is over was one of the batch. -/
theorem over_link (hj : 0 < jobs) (h : FleetRun (fun p : Peer => p.address) Magnet.trackers jobsT jobsP (some ms) jobs tr f) {n : Nat} {m : Magnet} {o : Outcome Bool}
    (ho : Over tr n m o) : ms[n]? = some m ∧ ∃ dht s r, DhtSaid tr n dht ∧ ResolveRun (fun p : Peer => p.address) m.trackers dht jobsT jobsP (alone n tr) s ∧
      s.result = some r ∧ EndedWith tr n m o r := by
  have hi := fleet_inv hj h
  cases hw : f.work n with
  | none => exact absurd ho ((hi.idle n hw).2.2.2 m o)
  | some s =>
    obtain ⟨m', dht, s0, h1, -, h3, h4, h5, -, h7⟩ := hi.active n s hw
    obtain ⟨rfl, r, hr, he⟩ := h7 m o ho
    exact ⟨h1, dht, s0, r, (h3 dht).2 rfl, h4, by rw [← h5.result]; exact hr, he⟩

theorem foreseen_snoc (h : Foreseen dhtEnd trackerEnd savedEnd tr) (h1 : ∀ n d, e = .begins n d → d = dhtEnd n) (h2 : ∀ n re, e ≠ .goesOn n re)
    (h3 : ∀ w sv n m o, e = .ends w sv → out = [.over n m o] → sv = savedEnd n) : Foreseen dhtEnd trackerEnd savedEnd (tr ++ [(e, out)]) := by
  refine ⟨?_, ?_, ?_⟩
  · intro n d hd
    rcases (dhtSaid_snoc _ _ _ n d).1 hd with hd | hd
    · exact h.dht n d hd
    · exact h1 n d hd
  · intro n
    have : alone n [(e, out)] = [] := by
      cases e with
      | goesOn k re => exact absurd rfl (h2 k re)
      | _ => rfl
    rw [alone_snoc, this, List.append_nil]
    exact h.trackers n
  · intro w sv n m o hmem
    rw [List.mem_append, List.mem_singleton] at hmem
    rcases hmem with hmem | hmem
    · exact h.saved w sv n m o hmem
    · cases hmem
      exact h3 w sv n m o rfl rfl

/-- **C108.** As long as fewer links are stuck than downloads run at the same time, and every other link is one that can be served (C107), something can happen
that has to do with none of the stuck links, until every other link is over. -/
theorem stuck_links_progress (hT : 0 < jobsT) (h : BatchTasks sha1 localId pref behaves ms jobsT jobsP jobs tr f)
    (hf : Foreseen dhtEnd trackerEnd savedEnd tr) (hx : f.batch.exit = none) (bad : List Nat) (hfew : bad.length < jobs)
    (hgood : ∀ n m, n ∉ bad → ms[n]? = some m → Servable sha1 localId pref behaves jobsP m (dhtEnd n) (trackerEnd n)) :
    (∃ e f' out, BatchTasks sha1 localId pref behaves ms jobsT jobsP jobs (tr ++ [(e, out)]) f' ∧
      f.step (fun p : Peer => p.address) Magnet.trackers jobsT jobsP e = some (f', out) ∧
      Foreseen dhtEnd trackerEnd savedEnd (tr ++ [(e, out)]) ∧ ∀ n ∈ bad, ¬ Concerns n (e, out)) ∨
    ∀ n m, n ∉ bad → ms[n]? = some m → ∃ o, Over tr n m o := by
  have hj : 0 < jobs := by omega
  have hi := fleet_inv hj h.run
  obtain ⟨btr, hb, -⟩ := hi.batch
  by_cases hrun : ∃ (w n : Nat) (m : Magnet), f.batch.nursery.workers[w]? = some (.running n m) ∧ n ∉ bad
  · left
    obtain ⟨w, n, m, hw, hnb⟩ := hrun
    obtain ⟨i, hri⟩ := runningJob_of hw
    have hm := batch_running hj hb hw
    have him : i = m := by
      obtain ⟨v, hv⟩ := runningJob_mem hri
      have := batch_running hj hb hv
      rw [hm] at this
      exact (Option.some.inj this).symm
    subst him
    cases hwk : f.work n with
    | none =>
      have hs : f.step (fun p : Peer => p.address) Magnet.trackers jobsT jobsP (.begins n (dhtEnd n)) =
          some (Fleet.put f n (Resolve.start i.trackers (dhtEnd n) jobsT jobsP), [.began n i]) := by simp [Fleet.step, hx, hri, hwk, Fleet.put]
      refine ⟨_, _, _, tasks_quiet h hs (by simp), hs, foreseen_snoc hf ?_ (by simp) (by simp), ?_⟩
      · intro k d he
        cases he
        rfl
      · rintro k hk (hc | ⟨m', o, hc⟩)
        · exact hnb (by rw [show n = k from hc]; exact hk)
        · simp at hc
    | some s =>
      cases hres : s.result with
      | some r =>
        obtain ⟨b, bo, hstep⟩ : ∃ b bo, f.batch.step (.ends w (downloadOver (savedEnd n) r)) = some (b, bo) := by
          simp only [Batch.step, hx, Option.isSome_none, Bool.false_eq_true, if_false, hw, Nursery.step]
          split <;> simp
        have hs : f.step (fun p : Peer => p.address) Magnet.trackers jobsT jobsP (.ends w (savedEnd n)) =
            some ({ f with batch := b }, [.over n i (downloadOver (savedEnd n) r)]) :=
          step_ends_some.2 ⟨hx, n, i, r, b, bo, hw, by rw [hwk]; exact hres, hstep, rfl, rfl⟩
        refine ⟨_, _, _, tasks_quiet h hs (by simp), hs, foreseen_snoc hf (by simp) (by simp) ?_, ?_⟩
        · intro v sv k m o he ho
          cases he
          simp only [List.cons.injEq, FleetOutput.over.injEq, and_true] at ho
          rw [ho.1]
        · rintro k hk (hc | ⟨m', o, hc⟩)
          · exact hc
          · simp only [List.mem_singleton, FleetOutput.over.injEq] at hc
            exact hnb (by rw [← hc.1]; exact hk)
      | none =>
        obtain ⟨m', dht, s0, h1, -, h3, h4, h5, -⟩ := hi.active n s hwk
        have hmi : m' = i := by rw [hm] at h1; exact (Option.some.inj h1).symm
        subst hmi
        have h50 : s = s0 := by
          rcases h5 with h5 | h5
          · exact h5
          · rw [← h5.2.1, hres] at h5; cases h5.1
        subst h50
        have hd : dht = dhtEnd n := hf.dht n dht ((h3 dht).2 rfl)
        subst hd
        obtain ⟨hc, hnd, stalling, good, g1, g2, g3, g4, g5⟩ := hgood n m' hnb hm
        obtain ⟨re, s', ro, hdr, ha, -⟩ := stallers_progress hT (stuck_alone h hm h4) hres stalling g1 hnd hc (hf.trackers n) g2 good g3 g4 g5
        obtain ⟨s1, hr1, hstep⟩ := resolveRun_unsnoc hdr.run
        obtain rfl := resolveRun_unique h4 hr1
        have hs : f.step (fun p : Peer => p.address) Magnet.trackers jobsT jobsP (.goesOn n re) = some (Fleet.put f n s', ro.map (.output n)) := by
          simp [Fleet.step, hx, hri, hwk, hstep, Fleet.put]
        refine ⟨_, _, _, ⟨.step h.run hs, ?_⟩, hs, ⟨?_, ?_, ?_⟩, ?_⟩
        · intro k m hk eo heo p r hp
          rw [List.mem_append, List.mem_singleton] at heo
          rcases heo with heo | rfl
          · exact h.tasks k m hk eo heo p r hp
          · simp only [List.mem_map, FleetOutput.output.injEq] at hp
            obtain ⟨y, hy, rfl, rfl⟩ := hp
            rw [hm] at hk
            cases hk
            exact hdr.tasks _ (List.mem_append_right _ (List.mem_singleton.2 rfl)) p r hy
        · intro k d hd
          rcases (dhtSaid_snoc _ _ _ k d).1 hd with hd | hd
          · exact hf.dht k d hd
          · cases hd
        · intro k
          rw [alone_snoc, alone_goesOn]
          split
          · rename_i hk
            subst hk
            rw [output_filterMap]
            exact ha
          · rw [List.append_nil]
            exact hf.trackers k
        · intro v sv k m o hmem
          rw [List.mem_append, List.mem_singleton] at hmem
          rcases hmem with hmem | hmem
          · exact hf.saved v sv k m o hmem
          · cases hmem
        · rintro k hk (hc | ⟨m', o, hc⟩)
          · exact hnb (by rw [show n = k from hc]; exact hk)
          · simp at hc
  · by_cases hne : ms = []
    · right
      intro n m _ hm
      simp [hne] at hm
    rcases batch_jam hj hne hb hx with ⟨be, b, bo, hstep, hno⟩ | ⟨htodo, hrec, hq⟩
    · left
      have hs : f.step (fun p : Peer => p.address) Magnet.trackers jobsT jobsP (.batch be) = some ({ f with batch := b }, []) := by
        cases be with
        | ends w o => exact absurd rfl (hno w o)
        | _ => simp [Fleet.step, hx, hstep]
      refine ⟨_, _, _, tasks_quiet h hs (by simp), hs, foreseen_snoc hf (by simp) (by simp) (by simp), ?_⟩
      rintro k - (hc | ⟨m', o, hc⟩)
      · exact hc
      · cases hc
    · right
      obtain ⟨acc, d, ⟨ntr, L, hn, -⟩, -⟩ := batch_inv hj hne hb
      have hlen : (f.batch.nursery.workers.filterMap Worker.runningNum).length ≤ bad.length := by
        refine ((running_nodup hn).subperm ?_).length_le
        intro k hk
        rw [List.mem_filterMap] at hk
        obtain ⟨x, hx, hk⟩ := hk
        obtain ⟨w, hw⟩ := List.mem_iff_getElem?.1 hx
        cases x with
        | running k' m =>
          cases hk
          by_contra hkb
          exact hrun ⟨w, _, m, hw, hkb⟩
        | _ => cases hk
      have hq : f.batch.nursery.queue = [] := by
        rcases hq with hq | hq
        · exact hq
        · omega
      intro n m hnb hm
      have hlt : n < f.batch.nursery.next := by
        rw [batch_next hj hne hb htodo]
        exact (List.getElem?_eq_some_iff.1 hm).1
      rcases fleet_placed hj h.run n hlt with (⟨w, j, hw⟩ | ⟨w, j, hw⟩ | ⟨j, hj'⟩) | ⟨m', o, ho⟩
      · exact absurd ⟨w, n, j, hw, hnb⟩ hrun
      · exact absurd hw (hrec w n j)
      · rw [hq] at hj'; cases hj'
      · have := (over_link hj h.run ho).1
        rw [hm] at this
        cases this
        exact ⟨o, ho⟩

/-- No download has panicked. -/
theorem stuck_calm (hj : 0 < jobs) (hT : 0 < jobsT) (hP : 0 < jobsP) (h : BatchTasks sha1 localId pref behaves ms jobsT jobsP jobs tr f)
    (hf : Foreseen dhtEnd trackerEnd savedEnd tr) (hfit : ∀ p links, behaves p links → (links 0).connect = .ok → (links 0).crypto ≠ .overflow)
    (hsv : ∀ n, savedEnd n ≠ .panic) {n : Nat} {m : Magnet} (ho : Over tr n m .panic) : False := by
  obtain ⟨hm, dht, s, r, -, hr, hres, w, sv, hmem, he⟩ := over_link hj h.run ho
  cases r with
  | file i ts ns => exact hsv n (by rw [← hf.saved w sv n m _ hmem]; exact he.symm)
  | dht x => cases he
  | nothing => cases he
  | panicked =>
    obtain ⟨p, links, hb, h1, h2⟩ := download_panic hT hP (stuck_alone h hm hr) hres
    exact hfit p links hb h1 h2

/-- A link that can be served ends as saving its torrent file does. -/
theorem stuck_saved (hj : 0 < jobs) (hT : 0 < jobsT) (h : BatchTasks sha1 localId pref behaves ms jobsT jobsP jobs tr f)
    (hf : Foreseen dhtEnd trackerEnd savedEnd tr) (hfit : ∀ p links, behaves p links → (links 0).connect = .ok → (links 0).crypto ≠ .overflow)
    {n : Nat} {m : Magnet} {o : Outcome Bool} (ho : Over tr n m o) (hgood : Servable sha1 localId pref behaves jobsP m (dhtEnd n) (trackerEnd n)) :
    o = savedEnd n := by
  obtain ⟨hm, dht, s, r, hd, hr, hres, w, sv, hmem, he⟩ := over_link hj h.run ho
  obtain rfl := hf.dht n dht hd
  obtain ⟨hc, hnd, stalling, good, g1, g2, g3, g4, g5⟩ := hgood
  have hP : 0 < jobsP := by omega
  have hdr := stuck_alone h hm hr
  have hn : r ≠ .panicked := by
    rintro rfl
    obtain ⟨p, links, hb, h1, h2⟩ := download_panic hT hP hdr hres
    exact hfit p links hb h1 h2
  obtain ⟨info, ns, rfl⟩ := stallers_found hT hP hdr hc (hf.trackers n) good g3 g5 hres hn
  rw [← hf.saved w sv n m o hmem]
  exact he

/-- **C108.** So from wherever the batch is, it can go on, without anything more happening to the stuck links, until every other link has its torrent file, and has
ended as saving it did. -/
theorem stuck_links_reach (hT : 0 < jobsT) (hP : 0 < jobsP) (h : BatchTasks sha1 localId pref behaves ms jobsT jobsP jobs tr f)
    (hf : Foreseen dhtEnd trackerEnd savedEnd tr) (bad : List Nat) (hfew : bad.length < jobs)
    (hgood : ∀ n m, n ∉ bad → ms[n]? = some m → Servable sha1 localId pref behaves jobsP m (dhtEnd n) (trackerEnd n))
    (hfit : ∀ p links, behaves p links → (links 0).connect = .ok → (links 0).crypto ≠ .overflow) (hsv : ∀ n, savedEnd n ≠ .panic) :
    ∃ more f', BatchTasks sha1 localId pref behaves ms jobsT jobsP jobs (tr ++ more) f' ∧ Foreseen dhtEnd trackerEnd savedEnd (tr ++ more) ∧
      (∀ x ∈ more, ∀ n ∈ bad, ¬ Concerns n x) ∧ ∀ n m, n ∉ bad → ms[n]? = some m → Over (tr ++ more) n m (savedEnd n) := by
  have hj : 0 < jobs := by omega
  have finish : ∀ {tr : LinksTrace} {f : Fleet Magnet Tracker Peer SockAddr SockAddr TorrentInfo TaskError},
      BatchTasks sha1 localId pref behaves ms jobsT jobsP jobs tr f → Foreseen dhtEnd trackerEnd savedEnd tr →
      (∀ n m, n ∉ bad → ms[n]? = some m → ∃ o, Over tr n m o) → ∀ n m, n ∉ bad → ms[n]? = some m → Over tr n m (savedEnd n) := by
    intro tr f h hf hall n m hnb hm
    obtain ⟨o, ho⟩ := hall n m hnb hm
    rw [← stuck_saved hj hT h hf hfit ho (hgood n m hnb hm)]
    exact ho
  have wf : WellFounded fun f' f : Fleet Magnet Tracker Peer SockAddr SockAddr TorrentInfo TaskError =>
      Prod.Lex (· < ·) (Prod.Lex (· < ·) (· < ·)) (fleetWeight ms.length f') (fleetWeight ms.length f) :=
    InvImage.wf (fleetWeight ms.length) (Prod.lex Nat.lt_wfRel (Prod.lex Nat.lt_wfRel Nat.lt_wfRel)).wf
  induction f using wf.induction generalizing tr with
  | _ f ih =>
    cases hx : f.batch.exit with
    | none =>
      rcases stuck_links_progress hT h hf hx bad hfew hgood with ⟨e, f', out, h1, hs, h2, h3⟩ | hall
      · obtain ⟨more, f'', i1, i2, i3, i4⟩ := ih f' (fleet_decreases hj h.run hs) h1 h2
        rw [List.append_assoc] at i1 i2
        refine ⟨[(e, out)] ++ more, f'', i1, i2, ?_, ?_⟩
        · intro x hx
          rcases List.mem_append.1 hx with hx | hx
          · rw [List.mem_singleton] at hx
            subst hx
            exact h3
          · exact i3 x hx
        · intro n m hnb hm
          rw [← List.append_assoc]
          exact i4 n m hnb hm
      · refine ⟨[], f, by rw [List.append_nil]; exact h, by rw [List.append_nil]; exact hf, by simp, ?_⟩
        rw [List.append_nil]
        exact finish h hf hall
    | some c =>
      refine ⟨[], f, by rw [List.append_nil]; exact h, by rw [List.append_nil]; exact hf, by simp, ?_⟩
      rw [List.append_nil]
      refine finish h hf ?_
      intro n m hnb hm
      have hne : ms ≠ [] := by
        rintro rfl
        simp at hm
      obtain ⟨btr, hb, hdl⟩ := (fleet_inv hj h.run).batch
      have hc : c ≠ .crash := by
        rintro rfl
        obtain ⟨m', hm'⟩ := (batch_exit hj hb).2.2 hx
        rw [hdl, overs, List.mem_filterMap] at hm'
        obtain ⟨y, hy, hyx⟩ := hm'
        cases y with
        | over k m'' o =>
          cases hyx
          exact stuck_calm hj hT hP h hf hfit hsv hy
        | _ => cases hyx
      obtain ⟨htodo, hpl⟩ := batch_exit_idle hj hne hb hx hc
      have hlt : n < f.batch.nursery.next := by
        rw [batch_next hj hne hb htodo]
        exact (List.getElem?_eq_some_iff.1 hm).1
      rcases fleet_placed hj h.run n hlt with hp | ⟨m', o, ho⟩
      · exact absurd hp (hpl n)
      · have := (over_link hj h.run ho).1
        rw [hm] at this
        cases this
        exact ⟨o, ho⟩

/-- **C108.** The number is exact: if as many links as downloads run at the same time are stuck, and they are the first, no other link is ever begun. -/
theorem stuck_links_enough (hj : 0 < jobs) (h : FleetRun (fun p : Peer => p.address) Magnet.trackers jobsT jobsP (some ms) jobs tr f)
    (hstuck : ∀ n, n < jobs → ∀ m o, ¬ Over tr n m o) {n : Nat} {m : Magnet} (hb : Began tr n m) : n < jobs := by
  have first : ∀ {tr : LinksTrace} {f : Fleet Magnet Tracker Peer SockAddr SockAddr TorrentInfo TaskError},
      FleetRun (fun p : Peer => p.address) Magnet.trackers jobsT jobsP (some ms) jobs tr f → overs tr = [] →
      ∀ (w k : Nat) (m : Magnet), f.batch.nursery.workers[w]? = some (.running k m) → k < jobs := by
    intro tr f h ho w k m hw
    obtain ⟨btr, hb, hdl⟩ := (fleet_inv hj h).batch
    have hne : ms ≠ [] := by
      rintro rfl
      have := batch_running hj hb hw
      simp at this
    obtain ⟨acc, d, hf, -⟩ := batch_inv hj hne hb
    rw [hdl, ho] at hf
    exact (follows_first hf hw).1
  have none : overs tr = [] := by
    clear hb
    induction h with
    | init => rfl
    | @step tr f f' e out h hs ih =>
      have ih := ih fun n hn m o ho => hstuck n hn m o ((over_snoc _ _ _ n m o).2 (.inl ho))
      rw [overs_snoc, ih, List.nil_append, List.filterMap_eq_nil_iff]
      intro x hx
      cases x with
      | over k m' o =>
        exfalso
        obtain ⟨w, sv, rfl, rfl⟩ := (outputs_of (.step h hs)).2.2 e out k m' o (List.mem_append_right _ (List.mem_singleton.2 rfl)) hx
        obtain ⟨-, n', m'', r, b, bo, hw, -, -, -, ho⟩ := step_ends_some.1 hs
        cases ho
        exact hstuck k (first h ih w k m' hw) m' _ ((over_snoc _ _ _ _ _ _).2 (.inr (List.mem_singleton.2 rfl)))
      | _ => rfl
  have hi := fleet_inv hj h
  cases hw : f.work n with
  | none => exact absurd hb ((hi.idle n hw).2.1 m)
  | some s =>
    obtain ⟨m', dht, s0, -, -, -, -, -, h6, -⟩ := hi.active n s hw
    rcases h6 with ⟨w, hw⟩ | ⟨o, ho⟩
    · exact first h none w n m' hw
    · exfalso
      have : (m', o) ∈ overs tr := List.mem_filterMap.2 ⟨_, ho, rfl⟩
      rw [none] at this
      cases this

end

/-! ### Two links, one of which only a peer that stalls is known for -/

/-- For the first link only the peer that stalls is found, for the second both. -/
def exDhtEnds (n : Nat) : Except TaskError (List Peer × List SockAddr) := if n = 0 then .ok ([exStaller], []) else exBothFound

theorem exServable (k : Nat) (hk : k ≠ 0) : Servable (fun _ => List.replicate 20 7) ⟨List.replicate 20 9, by decide⟩ .ifRequired exMixed 2 exMagnet (exDhtEnds k)
    (fun _ => .value (.ok [])) := by
  have he : exDhtEnds k = exBothFound := by simp [exDhtEnds, hk]
  rw [he]
  refine ⟨by simp, ?_, [exStaller.address], exPeer, by decide, ?_, .inl ⟨rfl, _, _, rfl, by simp⟩, by decide, ?_⟩
  · intro found ns hd
    cases hd
    decide
  · intro p hp hb
    obtain rfl := exMixed_good p hp hb
    exact ⟨_, .inl ⟨rfl, rfl⟩, .inl exServes⟩
  · intro p hp hn
    obtain rfl := exMixed_good p hn (by rw [hp]; decide)
    refine ⟨by simp, ?_⟩
    rintro links (⟨-, rfl⟩ | ⟨h, -⟩)
    · exact exServes
    · cases h

/-- With two downloads at the same time, however far the batch is, the second link can still have its torrent file. -/
example {tr : LinksTrace} {f : Fleet Magnet Tracker Peer SockAddr SockAddr TorrentInfo TaskError}
    (h : BatchTasks (fun _ => List.replicate 20 7) ⟨List.replicate 20 9, by decide⟩ .ifRequired exMixed [exMagnet, exMagnet] 1 2 2 tr f)
    (hf : Foreseen exDhtEnds (fun _ _ => .value (.ok [])) (fun _ => .value true) tr) :
    ∃ more f', BatchTasks (fun _ => List.replicate 20 7) ⟨List.replicate 20 9, by decide⟩ .ifRequired exMixed [exMagnet, exMagnet] 1 2 2 (tr ++ more) f' ∧
      Over (tr ++ more) 1 exMagnet (.value true) := by
  obtain ⟨more, f', h1, -, -, h4⟩ := stuck_links_reach (by decide) (by decide) h hf [0] (by decide)
    (fun n m hn hm => by
      have : m = exMagnet := by
        have := List.mem_of_getElem? hm
        simpa using this
      subst this
      exact exServable n (by simpa using hn))
    (by rintro p links (⟨rfl, rfl⟩ | ⟨rfl, rfl⟩) - <;> intro h <;> cases h) (by simp)
  exact ⟨more, f', h1, h4 1 exMagnet (by decide) rfl⟩

/-- The beginning of such a batch. -/
example : BatchTasks (fun _ => List.replicate 20 7) ⟨List.replicate 20 9, by decide⟩ .ifRequired exMixed [exMagnet, exMagnet] 1 2 2 []
    (Fleet.start (some [exMagnet, exMagnet]) 2) ∧ Foreseen exDhtEnds (fun _ _ => .value (.ok [])) (fun _ => .value true) [] :=
  ⟨⟨.init, by simp⟩, ⟨(by rintro n d ⟨o, ho⟩; cases ho), (by intro n x hx; cases hx), by simp⟩⟩

/-- With one at a time, and one peer at a time, the second link is never begun. -/
example {tr : LinksTrace} {f : Fleet Magnet Tracker Peer SockAddr SockAddr TorrentInfo TaskError}
    (h : BatchTasks (fun _ => List.replicate 20 7) ⟨List.replicate 20 9, by decide⟩ .ifRequired exMixed [exMagnet, exMagnet] 1 1 1 tr f)
    (hf : Foreseen exDhtEnds (fun _ _ => .value (.ok [])) (fun _ => .value true) tr) : ¬ Began tr 1 exMagnet := by
  intro hb
  refine absurd (stuck_links_enough (by decide) h.run ?_ hb) (by decide)
  intro n hn m o ho
  obtain rfl : n = 0 := by omega
  obtain ⟨hm, dht, s, r, hd, hr, hres, -⟩ := over_link (by decide) h.run ho
  have hd := hf.dht 0 dht hd
  cases hm
  have := stallers_enough (by decide) (by decide) [exStaller] [] [] rfl hd (by decide) ?_ (stuck_alone h rfl hr)
  · rw [this] at hres; cases hres
  · intro p hp links hb
    rw [List.mem_singleton] at hp
    subst hp
    rcases hb with ⟨h, -⟩ | ⟨-, rfl⟩
    · cases h
    · exact stall_hangs _

end Demag.Props
