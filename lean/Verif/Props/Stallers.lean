import Verif.Spec.Stallers
import Verif.Lemmas.Stallers
import Verif.Props.Get
import Verif.Lemmas.NetBatch

/-!
# C107: peers that stall cannot keep a download from its file, unless there are as many of them as jobs
-/

namespace Demag.Props

open Demag Spec

section
variable {sha1 : Bytes → Bytes} {localId : PeerId} {pref : CryptoPreference} {behaves : Peer → (Nat → Link) → Prop} {m : Magnet}
  {dht : Except TaskError (List Peer × List SockAddr)} {jobsT jobsP : Nat} {trackerEnd : Tracker → Outcome (Except TaskError (List Peer))}
  {tr : ResolveTrace Tracker Peer SockAddr TorrentInfo TaskError} {s : Resolve Tracker Peer SockAddr SockAddr TorrentInfo TaskError}

theorem trackerPeers_panic {P ε : Type} {o : Outcome (Except ε (List P))} (h : trackerPeers o = .panic) : o = .panic := by
  cases o with
  | panic => rfl
  | value r => cases r <;> cases h

theorem answers_calm (ha : AnswersAs trackerEnd tr) (hc : ∀ t, trackerEnd t ≠ .panic) : ∀ t, (t, .panic) ∉ trackerDones tr := by
  intro t ht
  exact hc t (trackerPeers_panic (ha _ ht).symm)

/-- Whoever is named in an answer is named for the link. -/
theorem answered_named (hl : ∀ x ∈ trackerDones tr, x.1 ∈ m.trackers) (ha : AnswersAs trackerEnd tr) {p : Peer}
    (hp : p ∈ (trackerDones tr).flatMap answered) : NamedFor m dht trackerEnd p := by
  obtain ⟨⟨t, o⟩, ht, hp⟩ := List.mem_flatMap.1 hp
  have ho := ha _ ht
  simp only at ho
  refine .inr ⟨t, hl _ ht, ?_⟩
  cases hte : trackerEnd t with
  | panic => rw [hte] at ho; subst ho; cases hp
  | value r =>
    rw [hte] at ho
    cases r with
    | error e => subst ho; cases hp
    | ok ps => subst ho; exact ⟨ps, rfl, hp⟩

theorem contacts_named (hT : 0 < jobsT) (hP : 0 < jobsP) (h : ResolveRun (fun p : Peer => p.address) m.trackers dht jobsT jobsP tr s)
    (ha : AnswersAs trackerEnd tr) (hc : ∀ t, trackerEnd t ≠ .panic) {p : Peer} (hp : p ∈ contacts tr) : NamedFor m dht trackerEnd p := by
  by_cases hm : m.trackers = []
  · cases hd : dht with
    | error e =>
      have hrun := h
      rw [hm, hd] at hrun
      obtain ⟨rfl, -⟩ := resolve_exited hrun
      cases hp
    | ok x =>
      obtain ⟨found, ns⟩ := x
      have := (resolve_contacts hT hP h).2.1 hm found ns hd
      exact .inl ⟨hm, found, ns, rfl, this.subset hp⟩
  · obtain ⟨h1, h2⟩ := (resolve_contacts hT hP h).1 hm
    refine answered_named (done_listed hT hP h hm (answers_calm ha hc)) ha (h2.subset ?_)
    rw [h1] at hp
    exact (firsts_spec (fun p : Peer => p.address) (arrivals tr)).2.2.1.subset hp

/-- When no more peers will come, somebody at every address named has been contacted. -/
theorem over_contacted (hT : 0 < jobsT) (hP : 0 < jobsP) (h : DownloadRun sha1 localId pref behaves m dht jobsT jobsP tr s)
    (ha : AnswersAs trackerEnd tr) (hc : ∀ t, trackerEnd t ≠ .panic) (hj : s.job = .over) {p : Peer} (hp : NamedFor m dht trackerEnd p) :
    p.address ∈ (contacts tr).map fun p => p.address := by
  rcases hp with ⟨hm, found, ns, hd, hp⟩ | ⟨t, ht, ps, hte, hp⟩
  · obtain ⟨⟨-, hsrc⟩, -⟩ := resolve_inv hT hP (.inr ⟨_, hd⟩) h.run
    rcases hsrc with ⟨hne, -⟩ | ⟨-, f, ns', hd', hdi⟩
    · exact absurd hm hne
    · rw [hd] at hd'
      simp only [Except.ok.injEq, Prod.mk.injEq] at hd'
      obtain ⟨rfl, rfl⟩ := hd'
      have h1 := hdi.arrived
      rw [hdi.over hj, List.append_nil] at h1
      have h2 : contacts tr = found := by
        show (view tr).co = found
        rw [hdi.contacts, h1]
      rw [h2]
      exact List.mem_map_of_mem hp
  · have hne : m.trackers ≠ [] := by intro he; rw [he] at ht; cases ht
    obtain ⟨⟨-, hsrc⟩, -⟩ := resolve_inv hT hP (.inl hne) h.run
    rcases hsrc with ⟨-, hti⟩ | ⟨he, -⟩
    · rcases (hti.over hj).2.2.2 with ⟨t, hpan⟩ | ⟨hperm, har⟩
      · exact absurd hpan (answers_calm ha hc t)
      · obtain ⟨⟨t', o⟩, hx, rfl⟩ := List.mem_map.1 (hperm.mem_iff.2 ht)
        have ho := ha (t', o) hx
        simp only at hte ho
        rw [hte] at ho
        subst ho
        have hmem : p ∈ (view tr).ar := by
          rw [har]
          exact List.mem_flatMap.2 ⟨_, hx, hp⟩
        have := (firsts_spec (fun p : Peer => p.address) (view tr).ar).2.1 p hmem
        rw [← hti.contacts] at this
        exact this
    · exact absurd he hne

/-- No more peers at the addresses `bad` are contacted than there are such addresses. -/
theorem contacts_few (hT : 0 < jobsT) (hP : 0 < jobsP) (h : DownloadRun sha1 localId pref behaves m dht jobsT jobsP tr s)
    (hdht : ∀ found ns, dht = .ok (found, ns) → (found.map fun p => p.address).Nodup) (bad : List SockAddr) :
    (contacts tr).countP (fun p => decide (p.address ∈ bad)) ≤ bad.length := by
  have hnd : ((contacts tr).map fun p => p.address).Nodup := by
    by_cases hm : m.trackers = []
    · cases hd : dht with
      | error e =>
        have hrun := h.run
        rw [hm, hd] at hrun
        obtain ⟨rfl, -⟩ := resolve_exited hrun
        exact List.nodup_nil
      | ok x =>
        obtain ⟨found, ns⟩ := x
        have := (resolve_contacts hT hP h.run).2.1 hm found ns hd
        exact (hdht found ns hd).sublist (this.sublist.map _)
    · rw [((resolve_contacts hT hP h.run).1 hm).1]
      exact (firsts_spec (fun p : Peer => p.address) (arrivals tr)).1
  rw [List.countP_eq_length_filter, ← List.length_map (f := fun p : Peer => p.address)]
  have hsub : ((contacts tr).filter fun p => decide (p.address ∈ bad)).map (fun p => p.address) ⊆ bad := by
    intro a ha
    obtain ⟨p, hp, rfl⟩ := List.mem_map.1 ha
    simpa using (List.mem_filter.1 hp).2
  exact (List.subperm_of_subset (hnd.sublist (List.filter_sublist.map _)) hsub).length_le

/-- Asking such a peer ends. -/
theorem mayEnd_ends {p : Peer} {links : Nat → Link}
    (h : ServesTo sha1 localId pref m p links ∨ ∀ i enc, ¬ Stalls (links i) ⟨m.infoHash, localId, p.address.ip⟩ enc) :
    peerTask sha1 localId pref m.infoHash p links ≠ .hang := by
  rcases h with ⟨d, d1, d2, d3⟩ | h
  · by_cases hpol : pref = .never ∧ p.requiresCrypto = true
    · have hr := run_spec sha1 links ⟨m.infoHash, localId, p.address.ip⟩ none pref p.requiresCrypto
      unfold peerTask
      intro hh
      rw [hh] at hr
      generalize hz : (Res.hang : Res PeerError TorrentInfo) = z at hr
      generalize (infoGetterRun sha1 links ⟨m.infoHash, localId, p.address.ip⟩ none pref p.requiresCrypto).1 = as at hr
      cases hr with
      | impossible => cases hz
      | encrypted h1 hv => simp_all [wish]
      | plain h1 h2 hv => simp_all
      | fallback h1 _ _ hv => simp_all
    · rw [delivers_ok hpol d3 d1 d2]
      exact fun h => nomatch h
  · exact task_ends_partial h

/-- **C107.** Let the peers at the addresses `bad` stall, fewer than the number of peers asked at the same time.  If nobody else stalls and somebody named for
the link, at another address, reliably delivers the metadata, then until the download has its result it can go on without any of the peers at `bad` ending
anything. -/
theorem stallers_progress (hT : 0 < jobsT) (h : DownloadRun sha1 localId pref behaves m dht jobsT jobsP tr s) (hr : s.result = none)
    (bad : List SockAddr) (hfew : bad.length < jobsP) (hdht : ∀ found ns, dht = .ok (found, ns) → (found.map fun p => p.address).Nodup)
    (hc : ∀ t, trackerEnd t ≠ .panic) (ha : AnswersAs trackerEnd tr) (hothers : ∀ p, NamedFor m dht trackerEnd p → p.address ∉ bad → MayEnd sha1 localId pref behaves m p)
    (good : Peer) (hgn : NamedFor m dht trackerEnd good) (hgb : good.address ∉ bad)
    (hg : ∀ p, p.address = good.address → NamedFor m dht trackerEnd p → Reliable sha1 localId pref behaves m p) :
    ∃ e s' out, DownloadRun sha1 localId pref behaves m dht jobsT jobsP (tr ++ [(e, out)]) s' ∧ AnswersAs trackerEnd (tr ++ [(e, out)]) ∧
      ∀ p r, .peerDone p r ∈ out → p.address ∉ bad := by
  have hP : 0 < jobsP := by omega
  have hb' : ∀ p : Peer, ∃ o, NamedFor m dht trackerEnd p → p.address ∉ bad →
      ∃ links, behaves p links ∧ taskOutcome (peerTask sha1 localId pref m.infoHash p links) = some o := by
    intro p
    by_cases hpb : NamedFor m dht trackerEnd p ∧ p.address ∉ bad
    · obtain ⟨links, h1, h2⟩ := hothers p hpb.1 hpb.2
      have := mayEnd_ends (pref := pref) h2
      generalize hz : peerTask sha1 localId pref m.infoHash p links = z at this
      cases z with
      | hang => exact absurd rfl this
      | ok i => exact ⟨_, fun _ _ => ⟨links, h1, by rw [hz]; rfl⟩⟩
      | err e => exact ⟨_, fun _ _ => ⟨links, h1, by rw [hz]; rfl⟩⟩
      | panic => exact ⟨_, fun _ _ => ⟨links, h1, by rw [hz]; rfl⟩⟩
    · exact ⟨.panic, fun hn hb => absurd ⟨hn, hb⟩ hpb⟩
  obtain ⟨f, hf⟩ := Classical.axiomOfChoice hb'
  rcases resolve_jam hT hP h.run hr trackerEnd f (fun p => decide (p.address ∈ bad))
    (Nat.lt_of_le_of_lt (contacts_few hT hP h hdht bad) hfew) with ⟨e, s', out, h1, h2, h3⟩ | ⟨hj, hfail⟩
  · have hrun := ResolveRun.step h.run h1
    have ha' : AnswersAs trackerEnd (tr ++ [(e, out)]) := by
      intro x hx
      have : trackerDones (tr ++ [(e, out)]) = trackerDones tr ++ out.filterMap trackerDoneOf := by simp [trackerDones, resolveObserved]
      rw [this] at hx
      rcases List.mem_append.1 hx with hx | hx
      · exact ha x hx
      · exact h3 x hx
    have hdone : ∀ p r, .peerDone p r ∈ out → NamedFor m dht trackerEnd p ∧ p.address ∉ bad ∧ r = f p := by
      intro p r hp
      have hp' : (p, r) ∈ out.filterMap peerDoneOf := List.mem_filterMap.2 ⟨_, hp, rfl⟩
      have h4 := h2 (p, r) hp'
      refine ⟨contacts_named hT hP hrun ha' hc ?_, by simpa using h4.1, h4.2⟩
      classical
      have h5 := resolve_held (fun x => decide (x = p)) hrun
      have h6 : p ∈ (peerDones (tr ++ [(e, out)])).map Prod.fst := by
        refine List.mem_map.2 ⟨(p, r), ?_, rfl⟩
        have e1 : peerDones (tr ++ [(e, out)]) = peerDones tr ++ out.filterMap peerDoneOf := by simp [peerDones, resolveObserved]
        rw [e1]
        exact List.mem_append_right _ hp'
      have h7 := List.countP_pos_iff (p := fun x => decide (x = p)).2 ⟨p, h6, by simp⟩
      obtain ⟨q, hq, hqp⟩ := List.countP_pos_iff.1 (by omega : 0 < (contacts (tr ++ [(e, out)])).countP fun x => decide (x = p))
      have : q = p := by simpa using hqp
      exact this ▸ hq
    refine ⟨e, s', out, ⟨hrun, ?_⟩, ha', fun p r hp => (hdone p r hp).2.1⟩
    intro eo heo p r hp
    rcases List.mem_append.1 heo with heo | heo
    · exact h.tasks eo heo p r hp
    · rw [List.mem_singleton] at heo
      subst heo
      obtain ⟨hn, hb, rfl⟩ := hdone p r hp
      exact hf p hn hb
  · exfalso
    obtain ⟨p, hp, hpa⟩ := List.mem_map.1 (over_contacted hT hP h ha hc hj hgn)
    obtain ⟨e, he⟩ := hfail p hp (by rw [hpa]; simpa using hgb)
    obtain ⟨hpol, hd⟩ := hg p hpa (contacts_named hT hP h.run ha hc hp)
    obtain ⟨links, hb, ho⟩ := peerDone_task h he
    obtain ⟨d, d1, d2, d3⟩ := hd links hb
    rw [delivers_ok hpol d3 d1 d2] at ho
    simp [taskOutcome] at ho

/-- **C107.** If somebody named for the link reliably delivers the metadata, the only result a download can have is a torrent file (or a panic, but see C69). -/
theorem stallers_found (hT : 0 < jobsT) (hP : 0 < jobsP) (h : DownloadRun sha1 localId pref behaves m dht jobsT jobsP tr s)
    (hc : ∀ t, trackerEnd t ≠ .panic) (ha : AnswersAs trackerEnd tr) (good : Peer) (hgn : NamedFor m dht trackerEnd good)
    (hg : ∀ p, p.address = good.address → NamedFor m dht trackerEnd p → Reliable sha1 localId pref behaves m p)
    {r : Resolved Tracker SockAddr TorrentInfo TaskError} (hr : s.result = some r) (hn : r ≠ .panicked) : ∃ info ns, r = .file info m.trackers ns := by
  cases r with
  | file info ts ns =>
    obtain ⟨-, -, -, h4, -⟩ := download_authentic hT hP h hr
    exact ⟨info, ns, by rw [h4]⟩
  | panicked => exact absurd rfl hn
  | dht e =>
    exfalso
    obtain ⟨h1, h2⟩ := (resolve_dht_error hT hP h.run e).1 hr
    rcases hgn with ⟨-, f, n, hd, -⟩ | ⟨t, ht, -⟩
    · rw [h2] at hd; cases hd
    · rw [h1] at ht; cases ht
  | nothing =>
    have hj : s.job = .over := by
      have hok : m.trackers ≠ [] ∨ ∃ x, dht = .ok x := by
        rcases hgn with ⟨-, f, n, hd, -⟩ | ⟨t, ht, -⟩
        · exact .inr ⟨_, hd⟩
        · exact .inl (by intro he; rw [he] at ht; cases ht)
      obtain ⟨⟨⟨d, hp⟩, -⟩, -⟩ := resolve_inv hT hP hok h.run
      exact (hp.nothing hr).2.2
    obtain ⟨p, hp, hpa⟩ := List.mem_map.1 (over_contacted hT hP h ha hc hj hgn)
    obtain ⟨hpol, hd⟩ := hg p hpa (contacts_named hT hP h.run ha hc hp)
    exact download_finds hT hP h hr (by simp) p hp hpol hd

/-- **C107.** So under these conditions every download can be brought to its torrent file from wherever it is; and, there being no infinite download
(`download_terminates`), it gets there if it goes on as long as it can. -/
theorem stallers_reach (hT : 0 < jobsT) (h : DownloadRun sha1 localId pref behaves m dht jobsT jobsP tr s)
    (bad : List SockAddr) (hfew : bad.length < jobsP) (hdht : ∀ found ns, dht = .ok (found, ns) → (found.map fun p => p.address).Nodup)
    (hc : ∀ t, trackerEnd t ≠ .panic) (ha : AnswersAs trackerEnd tr) (hothers : ∀ p, NamedFor m dht trackerEnd p → p.address ∉ bad → MayEnd sha1 localId pref behaves m p)
    (hfit : ∀ p links, behaves p links → (links 0).connect = .ok → (links 0).crypto ≠ .overflow)
    (good : Peer) (hgn : NamedFor m dht trackerEnd good) (hgb : good.address ∉ bad)
    (hg : ∀ p, p.address = good.address → NamedFor m dht trackerEnd p → Reliable sha1 localId pref behaves m p) :
    ∃ more s', DownloadRun sha1 localId pref behaves m dht jobsT jobsP (tr ++ more) s' ∧ AnswersAs trackerEnd (tr ++ more) ∧
      ∃ info ns, s'.result = some (.file info m.trackers ns) := by
  have hP : 0 < jobsP := by omega
  induction s using (download_terminates (m := m)).induction generalizing tr with
  | _ s ih =>
    cases hr : s.result with
    | some r =>
      have hn : r ≠ .panicked := by
        rintro rfl
        obtain ⟨p, links, hb, h1, h2⟩ := download_panic hT hP h hr
        exact hfit p links hb h1 h2
      obtain ⟨info, ns, rfl⟩ := stallers_found hT hP h hc ha good hgn hg hr hn
      exact ⟨[], s, by rwa [List.append_nil], by rwa [List.append_nil], info, ns, hr⟩
    | none =>
      obtain ⟨e, s', out, h1, h2, -⟩ := stallers_progress hT h hr bad hfew hdht hc ha hothers good hgn hgb hg
      have hstep : s.step (fun p => p.address) m.trackers e = some (s', out) := by
        have hx := h1.run
        generalize htr : tr ++ [(e, out)] = tr' at hx
        cases hx with
        | init => simp at htr
        | step ha' hs' =>
          obtain ⟨hl, hx⟩ := List.append_inj' htr rfl
          cases hx
          subst hl
          have := resolveRun_unique h.run ha'
          subst this
          exact hs'
      obtain ⟨more, s'', h3, h4, h5⟩ := ih s' ⟨e, out, hstep⟩ h1 h2
      exact ⟨(e, out) :: more, s'', by simpa using h3, by simpa using h4, h5⟩

/-- **C107.** The bound is sharp: if the first peers found on the DHT stall, as many as are asked at the same time, the download never has a result, whatever the
other peers would deliver. -/
theorem stallers_enough (hT : 0 < jobsT) (hP : 0 < jobsP) (bad rest : List Peer) (ns : List SockAddr) (hm : m.trackers = [])
    (hdht : dht = .ok (bad ++ rest, ns)) (hlen : jobsP ≤ bad.length)
    (hh : ∀ p ∈ bad, ∀ links, behaves p links → peerTask sha1 localId pref m.infoHash p links = .hang)
    (h : DownloadRun sha1 localId pref behaves m dht jobsT jobsP tr s) : s.result = none := by
  have key : peerDones tr = [] := by
    obtain ⟨hrun, htasks⟩ := h
    induction hrun with
    | init => rfl
    | @step tr s s' e out hrun hs ih =>
      have ih := ih fun eo heo => htasks eo (List.mem_append_left _ heo)
      have e1 : peerDones (tr ++ [(e, out)]) = peerDones tr ++ out.filterMap peerDoneOf := by simp [peerDones, resolveObserved]
      rw [e1, ih, List.nil_append, List.filterMap_eq_nil_iff]
      intro x hx
      cases x with
      | peerDone p r =>
        exfalso
        obtain ⟨links, hb, ho⟩ := htasks _ (List.mem_append_right _ (List.mem_singleton.2 rfl)) p r hx
        have hpb : p ∈ bad := by
          obtain ⟨w, k, -, hw⟩ := (resolve_step_ends hs).2.2.2 p r hx
          obtain ⟨⟨⟨d, hp⟩, -⟩, -⟩ := resolve_inv hT hP (.inr ⟨_, hdht⟩) hrun
          have hf := hp.follows
          have hpd : (view tr).pd = [] := ih
          rw [hpd] at hf
          obtain ⟨h1, h2⟩ := follows_first hf hw
          have h3 := (resolve_contacts hT hP hrun).2.1 hm _ _ hdht
          have h4 : (contacts tr)[k]? = some p := h2
          obtain ⟨l, h5⟩ := h3
          have h5 : (bad ++ rest)[k]? = some p := by
            rw [← h5, List.getElem?_append_left (List.getElem?_eq_some_iff.1 h4).1]
            exact h4
          rw [List.getElem?_append_left (by omega)] at h5
          exact List.mem_of_getElem? h5
        rw [hh p hpb links hb] at ho
        cases ho
      | _ => rfl
  cases hr : s.result with
  | none => rfl
  | some r =>
    exfalso
    cases r with
    | panicked =>
      obtain ⟨q, hq⟩ := resolve_panicked hT hP h.run hr
      rw [key] at hq; cases hq
    | dht e =>
      have := ((resolve_dht_error hT hP h.run e).1 hr).2
      rw [hdht] at this; cases this
    | file info ts ns =>
      obtain ⟨-, -, -, es, q, rest, h4, -⟩ := resolve_file hT hP h.run hr
      rw [key] at h4
      simp at h4
    | nothing =>
      obtain ⟨es, h1, h2, h3, -⟩ := resolve_nothing hT hP h.run hr
      obtain ⟨nodes, h3⟩ := h3 hm
      rw [hdht] at h3
      simp only [Except.ok.injEq, Prod.mk.injEq] at h3
      rw [← h3.1] at h2
      rw [key] at h1
      have : es = [] := by simpa using h1.symm
      rw [this] at h2
      have := h2.length_eq
      simp at this
      omega

end


/-! ### One peer that stalls, and one that serves the metadata -/

/-- A peer at 1.2.3.4:6, which stalls. -/
def exStaller : Peer := ⟨.v4 ⟨⟨0x01020304#32⟩, 6⟩, none, false⟩

def exMixed (p : Peer) (links : Nat → Link) : Prop := (p = exPeer ∧ links = fun _ => exLink) ∨ (p = exStaller ∧ links = fun _ => stallLink)

def exBothFound : Except TaskError (List Peer × List SockAddr) := .ok ([exStaller, exPeer], [])

theorem exServes : ServesTo (fun _ => List.replicate 20 7) ⟨List.replicate 20 9, by decide⟩ .ifRequired exMagnet exPeer (fun _ => exLink) :=
  ⟨ascii "de", rfl, ⟨[], by decide +kernel, by simp [Canonical, SortedKeys, CanonicalDict], by decide +kernel⟩, exDelivers⟩

theorem exMixed_good {trackerEnd : Tracker → Outcome (Except TaskError (List Peer))} (p : Peer) (hp : NamedFor exMagnet exBothFound trackerEnd p)
    (hb : p.address ∉ [exStaller.address]) : p = exPeer := by
  rcases hp with ⟨-, found, ns, hd, hp⟩ | ⟨t, ht, -⟩
  · cases hd
    simp only [List.mem_cons, List.not_mem_nil, or_false] at hp
    rcases hp with rfl | rfl
    · simp at hb
    · rfl
  · cases ht

/-- With two jobs, every download among these peers can be brought to its file. -/
example {tr : ResolveTrace Tracker Peer SockAddr TorrentInfo TaskError} {s : Resolve Tracker Peer SockAddr SockAddr TorrentInfo TaskError}
    (h : DownloadRun (fun _ => List.replicate 20 7) ⟨List.replicate 20 9, by decide⟩ .ifRequired exMixed exMagnet exBothFound 1 2 tr s)
    (trackerEnd : Tracker → Outcome (Except TaskError (List Peer))) (hc : ∀ t, trackerEnd t ≠ .panic) (ha : AnswersAs trackerEnd tr) :
    ∃ more s', DownloadRun (fun _ => List.replicate 20 7) ⟨List.replicate 20 9, by decide⟩ .ifRequired exMixed exMagnet exBothFound 1 2 (tr ++ more) s' ∧
      AnswersAs trackerEnd (tr ++ more) ∧ ∃ info ns, s'.result = some (.file info exMagnet.trackers ns) := by
  refine stallers_reach (by decide) h [exStaller.address] (by decide) ?_ hc ha ?_ ?_ exPeer (.inl ⟨rfl, _, _, rfl, by simp⟩) (by decide) ?_
  · intro found ns hd
    cases hd
    decide
  · intro p hp hb
    obtain rfl := exMixed_good p hp hb
    exact ⟨_, .inl ⟨rfl, rfl⟩, .inl exServes⟩
  · rintro p links (⟨rfl, rfl⟩ | ⟨rfl, rfl⟩) - <;> intro h <;> cases h
  · intro p hp hn
    obtain rfl := exMixed_good p hn (by rw [hp]; decide)
    refine ⟨by simp, ?_⟩
    rintro links (⟨-, rfl⟩ | ⟨h, -⟩)
    · exact exServes
    · cases h

/-- With one job, none of them ever has a result. -/
example {tr : ResolveTrace Tracker Peer SockAddr TorrentInfo TaskError} {s : Resolve Tracker Peer SockAddr SockAddr TorrentInfo TaskError}
    (h : DownloadRun (fun _ => List.replicate 20 7) ⟨List.replicate 20 9, by decide⟩ .ifRequired exMixed exMagnet exBothFound 1 1 tr s) :
    s.result = none := by
  refine stallers_enough (by decide) (by decide) [exStaller] [exPeer] [] rfl rfl (by decide) ?_ h
  intro p hp links hb
  rw [List.mem_singleton] at hp
  subst hp
  rcases hb with ⟨h, -⟩ | ⟨-, rfl⟩
  · cases h
  · exact stall_hangs _

/-- The beginning of such a download, from which both go. -/
example : DownloadRun (fun _ => List.replicate 20 7) ⟨List.replicate 20 9, by decide⟩ .ifRequired exMixed exMagnet exBothFound 1 2 []
    (Resolve.start [] exBothFound 1 2) ∧ AnswersAs (fun _ => .value (.ok [])) ([] : ResolveTrace Tracker Peer SockAddr TorrentInfo TaskError) :=
  ⟨⟨.init, by simp⟩, by intro x hx; cases hx⟩

end Demag.Props
