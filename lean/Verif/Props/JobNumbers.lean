import Verif.Spec.JobNumbers
import Verif.Props.StuckLinks
import Verif.Props.FleetRuns

/-!
# C109: how many jobs run at the same time, and in what order things happen, does not change what is got
-/

namespace Demag.Props

open Spec

section
variable {sha1 : Bytes → Bytes} {localId localId' : PeerId} {pref : CryptoPreference} {behaves behaves' : Peer → (Nat → Link) → Prop}

section
variable {m : Magnet} {dht : Except TaskError (List Peer × List SockAddr)} {trackerEnd : Tracker → Outcome (Except TaskError (List Peer))}
  {jobsT jobsP jobsT' jobsP' : Nat} {tr tr' : ResolveTrace Tracker Peer SockAddr TorrentInfo TaskError}
  {s s' : Resolve Tracker Peer SockAddr SockAddr TorrentInfo TaskError}

/-- If a download finds nothing, then nobody who is named for the link has delivered to another one. -/
theorem nothing_nowhere (hT : 0 < jobsT) (hP : 0 < jobsP) (hT' : 0 < jobsT') (hP' : 0 < jobsP') (h : DownloadRun sha1 localId pref behaves m dht jobsT jobsP tr s)
    (h' : DownloadRun sha1 localId' pref behaves' m dht jobsT' jobsP' tr' s') (hc : ∀ t, trackerEnd t ≠ .panic) (ha : AnswersAs trackerEnd tr)
    (ha' : AnswersAs trackerEnd tr') (hst : SteadyPeers sha1 localId localId' pref behaves behaves' m dht trackerEnd) {info : TorrentInfo} {ts : List Tracker}
    {ns : List SockAddr} (hr : s.result = some (.file info ts ns)) (hr' : s'.result = some .nothing) : False := by
  obtain ⟨-, -, hf, es, p, rest, hpd, hpc⟩ := resolve_file hT hP h.run hr
  obtain ⟨links, hb, ho⟩ := peerDone_task (r := .value (.ok info)) h (p := p) (by rw [hpd]; simp)
  have hpn := contacts_named hT hP h.run ha hc hpc
  have hj : s'.job = .over := by
    have hok : m.trackers ≠ [] ∨ ∃ x, dht = .ok x := by
      by_cases hm : m.trackers = []
      · obtain ⟨found, hd⟩ := hf hm
        exact .inr ⟨_, hd⟩
      · exact .inl hm
    obtain ⟨⟨⟨d, hp⟩, -⟩, -⟩ := resolve_inv hT' hP' hok h'.run
    exact (hp.nothing hr').2.2
  obtain ⟨p', hp', hpa⟩ := List.mem_map.1 (over_contacted hT' hP' h' ha' hc hj hpn)
  obtain ⟨es', h1, h2, -⟩ := resolve_nothing hT' hP' h'.run hr'
  obtain ⟨⟨q, e⟩, hx, hq⟩ := List.mem_map.1 (h2.symm.subset hp')
  simp only at hq
  subst hq
  obtain ⟨links', hb', ho'⟩ := peerDone_task (r := .value (.error e)) h' (p := q) (by rw [h1]; exact List.mem_map.2 ⟨_, hx, rfl⟩)
  obtain ⟨i, hi⟩ := (hst p q links links' hpn (contacts_named hT' hP' h'.run ha' hc hp') hpa.symm hb hb').1 ⟨info, taskOutcome_ok.1 ho⟩
  rw [hi] at ho'
  simp [taskOutcome] at ho'

/-- **C109.** Two downloads of a link with any numbers of jobs, for which the DHT and the trackers answer the same and whose peers deliver or do not deliver in both
alike, have the same result, in whatever order things happen. -/
theorem jobs_same_result (hT : 0 < jobsT) (hP : 0 < jobsP) (hT' : 0 < jobsT') (hP' : 0 < jobsP') (h : DownloadRun sha1 localId pref behaves m dht jobsT jobsP tr s)
    (h' : DownloadRun sha1 localId' pref behaves' m dht jobsT' jobsP' tr' s') (hc : ∀ t, trackerEnd t ≠ .panic) (ha : AnswersAs trackerEnd tr)
    (ha' : AnswersAs trackerEnd tr') (hst : SteadyPeers sha1 localId localId' pref behaves behaves' m dht trackerEnd)
    {r r' : Resolved Tracker SockAddr TorrentInfo TaskError} (hr : s.result = some r) (hr' : s'.result = some r') (hn : r ≠ .panicked) (hn' : r' ≠ .panicked) :
    SameResult r r' := by
  have hst' : SteadyPeers sha1 localId' localId pref behaves' behaves m dht trackerEnd :=
    fun p p' links links' h1 h2 h3 h4 h5 => (hst p' p links' links h2 h1 h3.symm h5 h4).symm
  have nofile : ∀ {e : TaskError}, m.trackers = [] ∧ dht = .error e → ¬ ∃ x, m.trackers = [] → dht = .ok x := by
    rintro e ⟨h1, h2⟩ ⟨x, hx⟩
    rw [hx h1] at h2
    cases h2
  have file : ∀ {jT jP : Nat} {id : PeerId} {b : Peer → (Nat → Link) → Prop} {t : ResolveTrace Tracker Peer SockAddr TorrentInfo TaskError}
      {s : Resolve Tracker Peer SockAddr SockAddr TorrentInfo TaskError} {i : TorrentInfo} {ts : List Tracker} {ns : List SockAddr}, 0 < jT → 0 < jP →
      DownloadRun sha1 id pref b m dht jT jP t s → s.result = some (.file i ts ns) →
      i.infoHash = m.infoHash ∧ ts = m.trackers ∧ (m.trackers ≠ [] → ns = []) ∧ (m.trackers = [] → ∃ found, dht = .ok (found, ns)) := by
    intro jT jP id b t s i ts ns hT hP h hr
    obtain ⟨h1, -, -, -⟩ := download_authentic hT hP h hr
    obtain ⟨h2, h3, h4, -⟩ := resolve_file hT hP h.run hr
    exact ⟨h1, h2, h3, h4⟩
  have some_ok : ∀ {jT jP : Nat} {id : PeerId} {b : Peer → (Nat → Link) → Prop} {t : ResolveTrace Tracker Peer SockAddr TorrentInfo TaskError}
      {s : Resolve Tracker Peer SockAddr SockAddr TorrentInfo TaskError}, 0 < jT → 0 < jP → DownloadRun sha1 id pref b m dht jT jP t s →
      ((∃ i ts ns, s.result = some (.file i ts ns)) ∨ s.result = some .nothing) → ∃ x, m.trackers = [] → dht = .ok x := by
    intro jT jP id b t s hT hP h hr
    by_cases hm : m.trackers = []
    · rcases hr with ⟨i, ts, ns, hr⟩ | hr
      · obtain ⟨found, hd⟩ := (file hT hP h hr).2.2.2 hm
        exact ⟨_, fun _ => hd⟩
      · obtain ⟨-, -, -, hd, -⟩ := resolve_nothing hT hP h.run hr
        obtain ⟨ns, hd⟩ := hd hm
        exact ⟨_, fun _ => hd⟩
    · exact ⟨([], []), fun h => absurd h hm⟩
  cases r with
  | panicked => exact absurd rfl hn
  | dht e =>
    have he := (resolve_dht_error hT hP h.run e).1 hr
    cases r' with
    | panicked => exact absurd rfl hn'
    | dht e' =>
      have he' := (resolve_dht_error hT' hP' h'.run e').1 hr'
      rw [he.2] at he'
      cases he'.2
      exact rfl
    | nothing => exact absurd (some_ok hT' hP' h' (.inr hr')) (nofile he)
    | file i ts ns => exact absurd (some_ok hT' hP' h' (.inl ⟨_, _, _, hr'⟩)) (nofile he)
  | nothing =>
    cases r' with
    | panicked => exact absurd rfl hn'
    | dht e' => exact absurd (some_ok hT hP h (.inr hr)) (nofile ((resolve_dht_error hT' hP' h'.run e').1 hr'))
    | nothing => trivial
    | file i ts ns => exact (nothing_nowhere hT' hP' hT hP h' h hc ha' ha hst' hr' hr).elim
  | file i ts ns =>
    cases r' with
    | panicked => exact absurd rfl hn'
    | dht e' => exact absurd (some_ok hT hP h (.inl ⟨_, _, _, hr⟩)) (nofile ((resolve_dht_error hT' hP' h'.run e').1 hr'))
    | nothing => exact (nothing_nowhere hT hP hT' hP' h h' hc ha ha' hst hr hr').elim
    | file i' ts' ns' =>
      obtain ⟨a1, a2, a3, a4⟩ := file hT hP h hr
      obtain ⟨b1, b2, b3, b4⟩ := file hT' hP' h' hr'
      refine ⟨by rw [a1, b1], by rw [a2, b2], ?_⟩
      by_cases hm : m.trackers = []
      · obtain ⟨f, hd⟩ := a4 hm
        obtain ⟨f', hd'⟩ := b4 hm
        rw [hd] at hd'
        cases hd'
        rfl
      · rw [a3 hm, b3 hm]

end

section
variable {ms : List Magnet} {jobsT jobsP jobs jobsT' jobsP' jobs' : Nat} {tr tr' : LinksTrace}
  {f f' : Fleet Magnet Tracker Peer SockAddr SockAddr TorrentInfo TaskError} {dhtEnd : Nat → Except TaskError (List Peer × List SockAddr)}
  {trackerEnd : Nat → Tracker → Outcome (Except TaskError (List Peer))} {savedEnd : Nat → Outcome Bool}

/-- The result behind the end of a link. -/
theorem over_result (hj : 0 < jobs) (hT : 0 < jobsT) (hP : 0 < jobsP) (h : BatchTasks sha1 localId pref behaves ms jobsT jobsP jobs tr f)
    (hf : Foreseen dhtEnd trackerEnd savedEnd tr) (hfit : ∀ p links, behaves p links → (links 0).connect = .ok → (links 0).crypto ≠ .overflow)
    {n : Nat} {m : Magnet} {o : Outcome Bool} (ho : Over tr n m o) :
    ms[n]? = some m ∧ ∃ s r, DownloadRun sha1 localId pref behaves m (dhtEnd n) jobsT jobsP (alone n tr) s ∧ s.result = some r ∧ r ≠ .panicked ∧
      o = if r.isFile then savedEnd n else .value false := by
  obtain ⟨hm, dht, s, r, hd, hr, hres, w, sv, hmem, he⟩ := over_link hj h.run ho
  obtain rfl := hf.dht n dht hd
  have hdr := stuck_alone h hm hr
  have hn : r ≠ .panicked := by
    rintro rfl
    obtain ⟨p, links, hb, h1, h2⟩ := download_panic hT hP hdr hres
    exact hfit p links hb h1 h2
  refine ⟨hm, s, r, hdr, hres, hn, ?_⟩
  cases r with
  | file i ts ns => rw [← hf.saved w sv n m o hmem]; exact he
  | dht e => exact he
  | nothing => exact he
  | panicked => exact absurd rfl hn

/-- **C109.** In two runs of a batch with any numbers of jobs, for which the DHT, the trackers and saving answer the same and whose peers deliver or do not deliver in
both alike, every link that is over ends the same way. -/
theorem jobs_same_end (hj : 0 < jobs) (hT : 0 < jobsT) (hP : 0 < jobsP) (hj' : 0 < jobs') (hT' : 0 < jobsT') (hP' : 0 < jobsP')
    (h : BatchTasks sha1 localId pref behaves ms jobsT jobsP jobs tr f) (h' : BatchTasks sha1 localId' pref behaves' ms jobsT' jobsP' jobs' tr' f')
    (hf : Foreseen dhtEnd trackerEnd savedEnd tr) (hf' : Foreseen dhtEnd trackerEnd savedEnd tr') (hc : ∀ n t, trackerEnd n t ≠ .panic)
    (hfit : ∀ p links, behaves p links → (links 0).connect = .ok → (links 0).crypto ≠ .overflow)
    (hfit' : ∀ p links, behaves' p links → (links 0).connect = .ok → (links 0).crypto ≠ .overflow)
    (hst : ∀ n m, ms[n]? = some m → SteadyPeers sha1 localId localId' pref behaves behaves' m (dhtEnd n) (trackerEnd n))
    {n : Nat} {m m' : Magnet} {o o' : Outcome Bool} (ho : Over tr n m o) (ho' : Over tr' n m' o') : m = m' ∧ o = o' := by
  obtain ⟨hm, s, r, hdr, hres, hn, rfl⟩ := over_result hj hT hP h hf hfit ho
  obtain ⟨hm', s', r', hdr', hres', hn', rfl⟩ := over_result hj' hT' hP' h' hf' hfit' ho'
  obtain rfl : m = m' := by
    rw [hm] at hm'
    exact Option.some.inj hm'
  have := jobs_same_result hT hP hT' hP' hdr hdr' (hc n) (hf.trackers n) (hf'.trackers n) (hst n m hm) hres hres' hn hn'
  refine ⟨rfl, ?_⟩
  cases r <;> cases r' <;> first | rfl | exact this.elim

/-- When a batch has exited, and has not crashed, every link is over. -/
theorem exit_over (hj : 0 < jobs) (h : BatchTasks sha1 localId pref behaves ms jobsT jobsP jobs tr f) {c : ExitCode} (hx : f.batch.exit = some c)
    (hc : c ≠ .crash) {n : Nat} {m : Magnet} (hm : ms[n]? = some m) : ∃ o, Over tr n m o := by
  have hne : ms ≠ [] := by
    rintro rfl
    simp at hm
  obtain ⟨btr, hb, -⟩ := (fleet_inv hj h.run).batch
  obtain ⟨htodo, hpl⟩ := batch_exit_idle hj hne hb hx hc
  have hlt : n < f.batch.nursery.next := by
    rw [batch_next hj hne hb htodo]
    exact (List.getElem?_eq_some_iff.1 hm).1
  rcases fleet_placed hj h.run n hlt with hp | ⟨m', o, ho⟩
  · exact absurd hp (hpl n)
  · have := (over_link hj h.run ho).1
    rw [hm] at this
    cases this
    exact ⟨o, ho⟩

theorem overs_over {x : Magnet × Outcome Bool} (hx : x ∈ overs tr) : ∃ n, Over tr n x.1 x.2 := by
  rw [overs, List.mem_filterMap] at hx
  obtain ⟨y, hy, hyx⟩ := hx
  cases y with
  | over k m o => cases hyx; exact ⟨k, hy⟩
  | _ => cases hyx

theorem exit_calm (hj : 0 < jobs) (hT : 0 < jobsT) (hP : 0 < jobsP) (h : BatchTasks sha1 localId pref behaves ms jobsT jobsP jobs tr f)
    (hf : Foreseen dhtEnd trackerEnd savedEnd tr) (hfit : ∀ p links, behaves p links → (links 0).connect = .ok → (links 0).crypto ≠ .overflow)
    (hsv : ∀ n, savedEnd n ≠ .panic) : f.batch.exit ≠ some .crash := by
  intro hx
  obtain ⟨btr, hb, hdl⟩ := (fleet_inv hj h.run).batch
  obtain ⟨m, hm⟩ := (batch_exit hj hb).2.2 hx
  rw [hdl] at hm
  obtain ⟨n, hn⟩ := overs_over hm
  exact stuck_calm hj hT hP h hf hfit hsv hn

/-- The exit status tells whether all links ended well. -/
theorem exit_iff (hj : 0 < jobs) (h : BatchTasks sha1 localId pref behaves ms jobsT jobsP jobs tr f) {c : ExitCode} (hx : f.batch.exit = some c)
    (hc : c ≠ .crash) : c = .success ↔ ∀ n m o, Over tr n m o → o = .value true := by
  obtain ⟨btr, hb, hdl⟩ := (fleet_inv hj h.run).batch
  obtain ⟨h1, h2, -⟩ := batch_exit hj hb
  rw [hdl] at h1 h2
  constructor
  · rintro rfl n m o ho
    obtain ⟨-, -, -, hall⟩ := h1 hx
    exact hall (m, o) (List.mem_filterMap.2 ⟨_, ho, rfl⟩)
  · intro hall
    cases c with
    | success => rfl
    | crash => exact absurd rfl hc
    | failure =>
      rcases h2 hx with hno | ⟨-, -, -, m, hm⟩
      · cases hno
      · obtain ⟨n, hn⟩ := overs_over hm
        cases hall n m _ hn

/-- **C109.** So the numbers of jobs, and the order in which things happen, do not change the exit status of a batch either. -/
theorem jobs_same_exit (hj : 0 < jobs) (hT : 0 < jobsT) (hP : 0 < jobsP) (hj' : 0 < jobs') (hT' : 0 < jobsT') (hP' : 0 < jobsP')
    (h : BatchTasks sha1 localId pref behaves ms jobsT jobsP jobs tr f) (h' : BatchTasks sha1 localId' pref behaves' ms jobsT' jobsP' jobs' tr' f')
    (hf : Foreseen dhtEnd trackerEnd savedEnd tr) (hf' : Foreseen dhtEnd trackerEnd savedEnd tr') (hc : ∀ n t, trackerEnd n t ≠ .panic)
    (hfit : ∀ p links, behaves p links → (links 0).connect = .ok → (links 0).crypto ≠ .overflow)
    (hfit' : ∀ p links, behaves' p links → (links 0).connect = .ok → (links 0).crypto ≠ .overflow) (hsv : ∀ n, savedEnd n ≠ .panic)
    (hst : ∀ n m, ms[n]? = some m → SteadyPeers sha1 localId localId' pref behaves behaves' m (dhtEnd n) (trackerEnd n))
    {c c' : ExitCode} (hx : f.batch.exit = some c) (hx' : f'.batch.exit = some c') : c = c' := by
  have hcr : c ≠ .crash := by
    rintro rfl
    exact exit_calm hj hT hP h hf hfit hsv hx
  have hcr' : c' ≠ .crash := by
    rintro rfl
    exact exit_calm hj' hT' hP' h' hf' hfit' hsv hx'
  have hiff : c = .success ↔ c' = .success := by
    rw [exit_iff hj h hx hcr, exit_iff hj' h' hx' hcr']
    constructor
    · intro hall n m o ho
      obtain ⟨o1, ho1⟩ := exit_over hj h hx hcr (over_link hj' h'.run ho).1
      rw [← (jobs_same_end hj hT hP hj' hT' hP' h h' hf hf' hc hfit hfit' hst ho1 ho).2]
      exact hall n m o1 ho1
    · intro hall n m o ho
      obtain ⟨o1, ho1⟩ := exit_over hj' h' hx' hcr' (over_link hj h.run ho).1
      rw [(jobs_same_end hj hT hP hj' hT' hP' h h' hf hf' hc hfit hfit' hst ho ho1).2]
      exact hall n m o1 ho1
  cases c <;> cases c' <;> simp_all

end

end

/-- The peers of C107's example deliver or do not deliver whatever the run. -/
theorem exSteady (dht : Except TaskError (List Peer × List SockAddr)) (trackerEnd : Tracker → Outcome (Except TaskError (List Peer))) :
    SteadyPeers (fun _ => List.replicate 20 7) ⟨List.replicate 20 9, by decide⟩ ⟨List.replicate 20 9, by decide⟩ .ifRequired exMixed exMixed exMagnet dht
      trackerEnd := by
  rintro p p' links links' - - ha (⟨rfl, rfl⟩ | ⟨rfl, rfl⟩) (⟨rfl, rfl⟩ | ⟨rfl, rfl⟩)
  · exact Iff.rfl
  · exact absurd ha (by decide)
  · exact absurd ha (by decide)
  · exact Iff.rfl

/-- With two peers and two links at a time and with three and five, there are batches that come to the end of their second link, and they end it alike. -/
example : ∃ tr f tr' f' o o',
    BatchTasks (fun _ => List.replicate 20 7) ⟨List.replicate 20 9, by decide⟩ .ifRequired exMixed [exMagnet, exMagnet] 1 2 2 tr f ∧
    BatchTasks (fun _ => List.replicate 20 7) ⟨List.replicate 20 9, by decide⟩ .ifRequired exMixed [exMagnet, exMagnet] 4 3 5 tr' f' ∧
    Over tr 1 exMagnet o ∧ Over tr' 1 exMagnet o' ∧ o = o' := by
  have reach : ∀ (jT jP j : Nat), 0 < jT → 2 ≤ jP → 1 < j → ∃ tr f,
      BatchTasks (fun _ => List.replicate 20 7) ⟨List.replicate 20 9, by decide⟩ .ifRequired exMixed [exMagnet, exMagnet] jT jP j tr f ∧
      Foreseen exDhtEnds (fun _ _ => .value (.ok [])) (fun _ => .value true) tr ∧ ∃ o, Over tr 1 exMagnet o := by
    intro jT jP j h1 h2 h3
    obtain ⟨more, f', a1, a2, -, a4⟩ := stuck_links_reach (dhtEnd := exDhtEnds) (trackerEnd := fun _ _ => .value (.ok [])) (savedEnd := fun _ => .value true)
      (tr := []) (f := Fleet.start (some [exMagnet, exMagnet]) j) (jobsT := jT) (jobsP := jP) (jobs := j) (by omega) (by omega) (behaves := exMixed)
      (sha1 := fun _ => List.replicate 20 7) (localId := ⟨List.replicate 20 9, by decide⟩) (pref := .ifRequired) (ms := [exMagnet, exMagnet])
      ⟨.init, by simp⟩ ⟨(by rintro n d ⟨o, ho⟩; cases ho), (by intro n x hx; cases hx), by simp⟩ [0] (by simpa using h3)
      (fun n m hn hm => by
        have : m = exMagnet := by
          have := List.mem_of_getElem? hm
          simpa using this
        subst this
        obtain ⟨b1, b2, st, g, b3, b4⟩ := exServable n (by simpa using hn)
        exact ⟨b1, b2, st, g, by omega, b4⟩)
      (by rintro p links (⟨rfl, rfl⟩ | ⟨rfl, rfl⟩) - <;> intro h <;> cases h) (by simp)
    exact ⟨_, f', a1, a2, _, a4 1 exMagnet (by decide) rfl⟩
  obtain ⟨tr, f, h, hf, o, ho⟩ := reach 1 2 2 (by decide) (by decide) (by decide)
  obtain ⟨tr', f', h', hf', o', ho'⟩ := reach 4 3 5 (by decide) (by decide) (by decide)
  have hfit : ∀ p links, exMixed p links → (links 0).connect = .ok → (links 0).crypto ≠ .overflow := by
    rintro p links (⟨rfl, rfl⟩ | ⟨rfl, rfl⟩) - <;> intro h <;> cases h
  refine ⟨tr, f, tr', f', o, o', h, h', ho, ho', ?_⟩
  refine (jobs_same_end (by decide) (by decide) (by decide) (by decide) (by decide) (by decide) h h' hf hf' (by simp) hfit hfit ?_ ho ho').2
  intro n m hm
  have := List.mem_of_getElem? hm
  obtain rfl : m = exMagnet := by simpa using this
  exact exSteady _ _

/-- With one link at a time and with two: batches of one link for which the DHT is down, to their exit. -/
def exDownEvents : List (FleetEvent Peer SockAddr TorrentInfo TaskError) :=
  [.batch .spawn, .batch .dropHandle, .batch (.take 0), .batch (.check 0), .begins 0 (.error (.dht .down)), .ends 0 (.value true), .batch (.workerExit 0),
   .batch .receive, .batch .receiveNone]

def exDownEvents2 : List (FleetEvent Peer SockAddr TorrentInfo TaskError) :=
  [.batch .spawn, .batch .dropHandle, .batch (.take 1), .batch (.check 1), .batch (.workerExit 0), .begins 0 (.error (.dht .down)), .ends 1 (.value true),
   .batch .receive, .batch (.workerExit 1), .batch .receiveNone]

theorem exDownExits (j : Nat) (es : List (FleetEvent Peer SockAddr TorrentInfo TaskError)) (he : (j, es) = (1, exDownEvents) ∨ (j, es) = (2, exDownEvents2)) :
    ∃ tr f, BatchTasks (fun _ => List.replicate 20 7) ⟨List.replicate 20 9, by decide⟩ .ifRequired exMixed [exMagnet] 1 1 j tr f ∧
      Foreseen (fun _ => .error (.dht .down)) (fun _ _ => .value (.ok [])) (fun _ => .value true) tr ∧ f.batch.exit = some .failure := by
  have key : (fleetExec (fun p : Peer => p.address) Magnet.trackers 1 1 es (Fleet.start (some [exMagnet]) j : MagnetFleet)).isSome = true := by
    rcases he with he | he <;> cases he <;> rfl
  obtain ⟨⟨tr, f⟩, hx⟩ := Option.isSome_iff_exists.1 key
  refine ⟨tr, f, ⟨by simpa using fleetExec_run es .init hx, ?_⟩, ⟨?_, ?_, ?_⟩, ?_⟩
  · intro n m hm eo heo p r hp
    rcases he with he | he <;> cases he <;> cases hx <;> simp only [List.mem_cons, List.not_mem_nil, or_false] at heo <;>
      rcases heo with rfl | rfl | rfl | rfl | rfl | rfl | rfl | rfl | rfl | rfl <;> simp at hp
  · rintro n d ⟨o, ho⟩
    rcases he with he | he <;> cases he <;> cases hx <;> simp at ho <;> exact ho.1.2
  · intro n x hx'
    rcases he with he | he <;> cases he <;> cases hx <;> cases hx'
  · intro w sv n m o ho
    rcases he with he | he <;> cases he <;> cases hx <;> simp at ho <;> exact ho.1.2
  · rcases he with he | he <;> cases he <;> cases hx <;> rfl

example : ∃ tr f tr' f' c c', BatchTasks (fun _ => List.replicate 20 7) ⟨List.replicate 20 9, by decide⟩ .ifRequired exMixed [exMagnet] 1 1 1 tr f ∧
    BatchTasks (fun _ => List.replicate 20 7) ⟨List.replicate 20 9, by decide⟩ .ifRequired exMixed [exMagnet] 1 1 2 tr' f' ∧
    f.batch.exit = some c ∧ f'.batch.exit = some c' ∧ c = c' := by
  obtain ⟨tr, f, h, hf, hx⟩ := exDownExits 1 _ (.inl rfl)
  obtain ⟨tr', f', h', hf', hx'⟩ := exDownExits 2 _ (.inr rfl)
  have hfit : ∀ p links, exMixed p links → (links 0).connect = .ok → (links 0).crypto ≠ .overflow := by
    rintro p links (⟨rfl, rfl⟩ | ⟨rfl, rfl⟩) - <;> intro h <;> cases h
  refine ⟨tr, f, tr', f', _, _, h, h', hx, hx', ?_⟩
  refine jobs_same_exit (by decide) (by decide) (by decide) (by decide) (by decide) (by decide) h h' hf hf' (by simp) hfit hfit (by simp) ?_ hx hx'
  intro n m hm
  have := List.mem_of_getElem? hm
  obtain rfl : m = exMagnet := by simpa using this
  exact exSteady _ _

end Demag.Props
