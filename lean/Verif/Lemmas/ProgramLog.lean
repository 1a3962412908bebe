import Verif.Spec.ProgramLog
import Verif.Props.Program

/-!
# Lemmas about the messages of a run
-/

namespace Demag

open Spec Props

theorem interleaves_perm {α : Type} {ls : List (List α)} {out : List α} (h : Interleaves ls out) : out.Perm ls.flatten := by
  induction h with
  | done h => rw [List.flatten_eq_nil_iff.2 h]
  | @next pre x l post out _ ih =>
    simp only [List.flatten_append, List.flatten_cons, List.cons_append] at ih ⊢
    exact (ih.cons x).trans List.perm_middle.symm

theorem interleaves_flatten {α : Type} (ls : List (List α)) : Interleaves ls ls.flatten := by
  suffices h : ∀ (pre post : List (List α)), (∀ l ∈ pre, l = []) → Interleaves (pre ++ post) post.flatten from h [] ls (by simp)
  intro pre post
  induction post generalizing pre with
  | nil => intro hp; exact .done (by simpa using hp)
  | cons l post ih =>
    intro hp
    induction l with
    | nil =>
      have := ih (pre ++ [[]]) (by simpa [or_imp, forall_and] using hp)
      simpa using this
    | cons x l ihl => exact .next ihl

section
variable {sha1 : Bytes → Bytes} {env : GetEnv} {behaves : Peer → (Nat → Link) → Prop} {answers : Tracker → AskTrace → Prop} {m : Magnet}
  {tr : ResolveTrace Tracker Peer SockAddr TorrentInfo TaskError} {s : Resolve Tracker Peer SockAddr SockAddr TorrentInfo TaskError}
  {r : Resolved Tracker SockAddr TorrentInfo TaskError} {mse : Peer → MseError}

theorem mem_getLog {x : LogLine} : x ∈ getLog m mse tr ↔ x = .fetching m ∨
    (∃ w e outs t ps, (ResolveEvent.trackerEnds w (.value (.error (.tracker e))), outs) ∈ tr ∧ .answer t ps ∈ outs ∧ x = .trackerFailed t m e) ∨
    ∃ p e, (p, .error (.peer e)) ∈ tries tr ∧ x = .peerFailed m p e (mse p) := by
  have ht : (∃ p e, (p, .error (.peer e)) ∈ tries tr ∧ x = .peerFailed m p e (mse p)) ↔
      ∃ eo ∈ tr, x ∈ eo.2.filterMap (peerWarning m mse) := by
    simp only [tries, resolveObserved, List.mem_filterMap, List.mem_flatMap]
    constructor
    · rintro ⟨p, e, ⟨o, ⟨eo, heo, ho⟩, hp⟩, rfl⟩
      cases o <;> simp [triedOf] at hp
      obtain ⟨rfl, rfl⟩ := hp
      exact ⟨eo, heo, _, ho, rfl⟩
    · rintro ⟨eo, heo, o, ho, hp⟩
      unfold peerWarning at hp
      split at hp
      · rename_i p e
        exact ⟨p, e, ⟨_, ⟨eo, heo, ho⟩, rfl⟩, (Option.some.inj hp).symm⟩
      · cases hp
  rw [ht]
  unfold getLog
  simp only [List.mem_cons, List.mem_flatMap]
  refine or_congr Iff.rfl ?_
  constructor
  · rintro ⟨⟨ev, outs⟩, heo, hx⟩
    unfold eventWarnings at hx
    rcases List.mem_append.1 hx with hx | hx
    · split at hx
      · rename_i w e hev
        obtain ⟨o, ho, hw⟩ := List.mem_filterMap.1 hx
        unfold trackerWarning at hw
        split at hw
        · rename_i t ps
          simp only at hev
          subst hev
          exact .inl ⟨w, e, outs, t, ps, heo, ho, (Option.some.inj hw).symm⟩
        · cases hw
      · cases hx
    · exact .inr ⟨_, heo, hx⟩
  · rintro (⟨w, e, outs, t, ps, heo, ho, rfl⟩ | ⟨eo, heo, hx⟩)
    · exact ⟨_, heo, List.mem_append_left _ (List.mem_filterMap.2 ⟨_, ho, rfl⟩)⟩
    · exact ⟨eo, heo, List.mem_append_right _ hx⟩

theorem getLog_level {x : LogLine} (h : x ∈ getLog m mse tr) : x.level ≠ .error := by
  rcases mem_getLog.1 h with rfl | ⟨_, _, _, _, _, -, -, rfl⟩ | ⟨_, _, -, rfl⟩ <;> simp [LogLine.level]

theorem saveLog_level {lossy : Bytes → Text} {template : List TemplateElement} {info : TorrentInfo} {x : MainLine}
    (h : x ∈ saveLog lossy m template info) : x.level = .info := by
  unfold saveLog at h
  split at h
  · cases h
  · cases List.mem_singleton.1 h; rfl

theorem resultLog_level {template : List TemplateElement} {x : MainLine} (h : x ∈ resultLog env m template r) : x.level = .info := by
  unfold resultLog at h
  split at h
  · exact saveLog_level h
  · cases h

/-- The errors among the messages of a download. -/
theorem downloadLog_error {template : List TemplateElement} {failed : DownloadFailure → LogLine} (hf : ∀ f, (failed f).level = .error)
    {x : MainLine} : (x ∈ downloadLog env template m mse failed tr r ∧ x.level = .error) ↔
      ∃ f, getFailure env template r = some f ∧ x = .about (failed f) := by
  unfold downloadLog
  simp only [List.mem_append, List.mem_map, Option.mem_toList]
  constructor
  · rintro ⟨(⟨y, hy, rfl⟩ | hx) | ⟨f, hf, rfl⟩, hl⟩
    · exact absurd hl (getLog_level hy)
    · rw [resultLog_level hx] at hl; cases hl
    · exact ⟨f, hf, rfl⟩
  · rintro ⟨f, hf', rfl⟩
    exact ⟨.inr ⟨f, hf', rfl⟩, hf f⟩

/-- The warnings among them. -/
theorem downloadLog_warn {template : List TemplateElement} {failed : DownloadFailure → LogLine} (hf : ∀ f, (failed f).level = .error)
    {x : MainLine} (hx : x ∈ downloadLog env template m mse failed tr r) (hl : x.level = .warn) : ∃ y ∈ getLog m mse tr, x = .about y := by
  unfold downloadLog at hx
  simp only [List.mem_append, List.mem_map, Option.mem_toList] at hx
  rcases hx with (⟨y, hy, rfl⟩ | hx) | ⟨f, -, rfl⟩
  · exact ⟨y, hy, rfl⟩
  · rw [resultLog_level hx] at hl; cases hl
  · have := hf f
    rw [show (MainLine.about (failed f)).level = (failed f).level from rfl, this] at hl
    cases hl

theorem performEffects_false {ok : Nat → Bool} : ∀ {i : Nat} {es : List SaveEffect}, (performEffects ok i es).2 = false → ∃ k, ok k = false := by
  intro i es
  induction es generalizing i with
  | nil => intro h; cases h
  | cons e es ih =>
    intro h
    unfold performEffects at h
    split at h
    · exact ih h
    · rename_i hk; exact ⟨i, by simpa using hk⟩

/-- A download has failed exactly if it gave an error. -/
theorem getFailure_iff (hT : 0 < env.cfg.trackers.jobsPerMagnet) (hP : 0 < env.cfg.peers.jobsPerMagnet)
    (h : GetRun sha1 env behaves answers m tr s) (hr : s.result = some r) (template : List TemplateElement) :
    (getEffects env template r).2 = .failure ↔ ∃ f, getFailure env template r = some f := by
  obtain ⟨dht, hd, hrun⟩ := h.run
  cases r with
  | panicked => simp [getEffects, downloadEffects, getFailure]
  | nothing => simp [getEffects, downloadEffects, getFailure, performEffects, Resolved.isFile]
  | dht e =>
    obtain ⟨-, rfl⟩ := (resolve_dht_error hT hP hrun.run e).1 hr
    rcases hd with ⟨e', he⟩ | ⟨_, _, _, _, _, _, _, _, -, -, -, he⟩
    · cases he
      cases e' <;> simp [getEffects, downloadEffects, getFailure, performEffects, Resolved.isFile]
    · cases he
  | file info ts ns =>
    cases hde : downloadEffects env.lossy ipText env.parent env.now template (.file info ts ns) with
    | none => simp [getEffects, getFailure, hde]
    | some es => cases hq : (performEffects env.fileOk 0 es).2 <;> simp [getEffects, getFailure, hde, hq, Resolved.isFile]

/-- What an error of a download says is so. -/
theorem getFailure_reason (hT : 0 < env.cfg.trackers.jobsPerMagnet) (hP : 0 < env.cfg.peers.jobsPerMagnet)
    (h : GetRun sha1 env behaves answers m tr s) (hr : s.result = some r) {template : List TemplateElement} {f : DownloadFailure}
    (hf : getFailure env template r = some f) :
    (f = .save → (∃ d, sha1 d = m.infoHash.bytes ∧ IsInfoDict d) ∧ ∃ i, env.fileOk i = false) ∧
    (f = .nothingFromPeers → s.result = some .nothing) ∧ (f = .dhtCreate ∨ f = .dhtDown → m.trackers = []) := by
  obtain ⟨dht, hd, hrun⟩ := h.run
  cases r with
  | panicked => cases hf
  | nothing => cases hf; exact ⟨by simp, fun _ => hr, by simp⟩
  | dht e =>
    have hm := ((resolve_dht_error hT hP hrun.run e).1 hr).1
    refine ⟨?_, ?_, fun _ => hm⟩ <;> rintro rfl <;> unfold getFailure at hf <;> split at hf <;> simp_all
  | file info ts ns =>
    obtain ⟨-, h2, h3, -⟩ := download_authentic hT hP hrun hr
    unfold getFailure at hf
    simp only at hf
    split at hf
    · cases hf
    · split at hf
      · cases hf
      · rename_i hq
        cases hf
        exact ⟨fun _ => ⟨⟨_, h2, h3⟩, performEffects_false (by simpa using hq)⟩, by simp, by simp⟩

theorem tries_done (hT : 0 < env.cfg.trackers.jobsPerMagnet) (hP : 0 < env.cfg.peers.jobsPerMagnet)
    (h : GetRun sha1 env behaves answers m tr s) {p : Peer} {x : Except TaskError TorrentInfo} (hx : (p, x) ∈ tries tr) :
    (p, .value x) ∈ peerDones tr := by
  obtain ⟨dht, hd, hrun⟩ := h.run
  have hok : m.trackers ≠ [] ∨ ∃ y, dht = .ok y := by
    by_cases hm : m.trackers = []
    · cases dht with
      | ok y => exact .inr ⟨y, rfl⟩
      | error e =>
        have := hrun.run
        rw [hm] at this
        obtain ⟨rfl, -⟩ := resolve_exited this
        cases hx
    · exact .inl hm
  obtain ⟨⟨⟨d, hp⟩, -⟩, -⟩ := resolve_inv hT hP hok hrun.run
  exact hp.pre.subset (List.mem_map.2 ⟨(p, x), hx, rfl⟩)

theorem nothing_tried (hT : 0 < env.cfg.trackers.jobsPerMagnet) (hP : 0 < env.cfg.peers.jobsPerMagnet)
    (h : GetRun sha1 env behaves answers m tr s) (hr : s.result = some .nothing) {p : Peer} (hp : p ∈ contacts tr) :
    ∃ e, (p, .error (.peer e)) ∈ tries tr := by
  obtain ⟨dht, hd, hrun⟩ := h.run
  obtain ⟨es, h1, h2, h3, -⟩ := resolve_nothing hT hP hrun.run hr
  have hok : m.trackers ≠ [] ∨ ∃ y, dht = .ok y := by
    by_cases hm : m.trackers = []
    · obtain ⟨ns, h⟩ := h3 hm; exact .inr ⟨_, h⟩
    · exact .inl hm
  obtain ⟨⟨⟨d, hi⟩, -⟩, -⟩ := resolve_inv hT hP hok hrun.run
  have htaken := hi.taken (by rw [hr]; simp)
  rw [(hi.nothing hr).1, List.take_length] at htaken
  obtain ⟨⟨p', e⟩, hx, rfl⟩ := List.mem_map.1 (h2.mem_iff.2 hp)
  have hdone : (p', Outcome.value (Except.error e)) ∈ peerDones tr := by rw [h1]; exact List.mem_map.2 ⟨_, hx, rfl⟩
  obtain ⟨links, -, ho⟩ := peerDone_task hrun hdone
  have hmem : (p', Outcome.value (Except.error e)) ∈ (tries tr).map valueOf := by
    show _ ∈ (view tr).ti.map valueOf
    rw [← htaken]; exact hdone
  obtain ⟨⟨q, y⟩, hq, hqe⟩ := List.mem_map.1 hmem
  simp only [valueOf, Prod.mk.injEq, Outcome.value.injEq] at hqe
  obtain ⟨rfl, rfl⟩ := hqe
  generalize peerTask sha1 env.localId env.cfg.general.encrypt m.infoHash q links = z at ho
  cases z with
  | err e' => simp [taskOutcome] at ho; rw [← ho] at hq; exact ⟨e', hq⟩
  | _ => simp [taskOutcome] at ho

end

end Demag
