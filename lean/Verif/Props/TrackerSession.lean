import Verif.Model.TrackerSession
import Verif.Model.TrackerHttp
import Verif.Spec.TrackerHttp
import Verif.Spec.TrackerSession

/-!
# C32: encryption flags; C49: "started" and "stopped"
-/

namespace Demag.Props

open Demag Spec

variable {ε : Type}

/-! ### C32 -/

/-- **C32.** The flag of an announcement: the override if there is one; otherwise "required" exactly for `always`, nothing
exactly for `never`, "supported" for the rest. -/
theorem trackerCrypto_policy (c : GetterCtx) (e : AnnounceEvent) :
    (∀ x, c.trackerCrypto = some x → (c.announcement e).crypto = x) ∧
    (c.trackerCrypto = none →
      ((c.announcement e).crypto = .required ↔ c.pref = .always) ∧
      ((c.announcement e).crypto = .plain ↔ c.pref = .never) ∧
      ((c.announcement e).crypto = .supported ↔ c.pref = .prefer ∨ c.pref = .ifRequired)) := by
  constructor
  · intro x hx; simp [GetterCtx.announcement, GetterCtx.getTrackerCrypto, hx]
  · intro h
    simp only [GetterCtx.announcement, GetterCtx.getTrackerCrypto, h, Option.getD_none]
    cases c.pref <;> simp [CryptoPreference.getTrackerCrypto]

/-- **C32.** The command line options (of which clap admits at most one) give the override they name. -/
theorem trackerCrypto_options :
    trackerCryptoFlags true false false = some .required ∧ trackerCryptoFlags false true false = some .supported ∧
      trackerCryptoFlags false false true = some .plain ∧ trackerCryptoFlags false false false = none := ⟨rfl, rfl, rfl, rfl⟩

/-- **C32.** What the tracker is told: among the parameters of an announcement `requirecrypto` is there iff encryption is
required, `supportcrypto` iff it is supported, and if so with the value 1. -/
theorem crypto_params (a : Announcement) (ps : List (Bytes × Bytes)) (h : IsAnnounceParams a ps) :
    ((∃ v, (keyBytes "requirecrypto", v) ∈ ps) ↔ a.crypto = .required) ∧
    ((∃ v, (keyBytes "supportcrypto", v) ∈ ps) ↔ a.crypto = .supported) ∧
    (∀ v, (keyBytes "requirecrypto", v) ∈ ps ∨ (keyBytes "supportcrypto", v) ∈ ps → v = keyBytes "1") := by
  obtain ⟨p, u, d, l, w, k, -, -, -, -, -, -, rfl⟩ := h
  have e1 : keyBytes "requirecrypto" ≠ keyBytes "supportcrypto" := by decide
  have ks : ∀ s ∈ ["event", "info_hash", "peer_id", "port", "uploaded", "downloaded", "left", "numwant", "key", "compact"],
      keyBytes "requirecrypto" ≠ keyBytes s ∧ keyBytes "supportcrypto" ≠ keyBytes s := by decide
  have hev : ∀ (x : Bytes × Bytes), x ∈ eventParam a.event → x.1 = keyBytes "event" := by
    intro x hx
    unfold eventParam at hx
    split at hx <;> first | (cases hx; done) | (rw [List.mem_singleton] at hx; rw [hx])
  have main : ∀ n v, (n = keyBytes "requirecrypto" ∨ n = keyBytes "supportcrypto") →
      ((n, v) ∈ eventParam a.event ++ [(keyBytes "info_hash", a.infoHash.bytes), (keyBytes "peer_id", a.peerId.bytes)] ++
        cryptoParam a.crypto ++
        [(keyBytes "port", utf8 p), (keyBytes "uploaded", utf8 u), (keyBytes "downloaded", utf8 d),
         (keyBytes "left", utf8 l), (keyBytes "numwant", utf8 w), (keyBytes "key", utf8 k),
         (keyBytes "compact", keyBytes "1")] ↔ (n, v) ∈ cryptoParam a.crypto) := by
    intro n v hn
    have hk : ∀ s ∈ ["event", "info_hash", "peer_id", "port", "uploaded", "downloaded", "left", "numwant", "key", "compact"],
        n ≠ keyBytes s := by
      intro s hs
      rcases hn with rfl | rfl
      · exact (ks s hs).1
      · exact (ks s hs).2
    constructor
    · intro h
      simp only [List.mem_append, List.mem_cons, List.not_mem_nil, or_false, Prod.mk.injEq] at h
      rcases h with ((h | h) | h) | h
      · exact absurd (hev _ h) (hk _ (by simp))
      · rcases h with h | h
        · exact absurd h.1 (hk _ (by simp))
        · exact absurd h.1 (hk _ (by simp))
      · exact h
      · rcases h with h | h | h | h | h | h | h
        all_goals exact absurd h.1 (hk _ (by simp))
    · intro h; simp [h]
  simp only [main _ _ (.inl rfl), main _ _ (.inr rfl)]
  unfold cryptoParam
  cases a.crypto <;> simp [e1, Ne.symm e1]

/-! ### C49 -/

theorem announcements_snoc (tr : GetterTrace ε) (e : GetterEvent ε) (out : List (GetterOutput ε)) :
    announcements (tr ++ [(e, out)]) = announcements tr ++ out.filterMap announcementOf := by simp [announcements]
theorem results_snoc (tr : GetterTrace ε) (e : GetterEvent ε) (out : List (GetterOutput ε)) :
    results (tr ++ [(e, out)]) = results tr ++ out.filterMap resultOf := by simp [results]
theorem happened_snoc (tr : GetterTrace ε) (e : GetterEvent ε) (out : List (GetterOutput ε)) :
    happened (tr ++ [(e, out)]) = happened tr ++ [e] := by simp [happened]

/-- What the state knows about the trace. -/
structure GetterInv (c : GetterCtx) (tr : GetterTrace ε) (s : GetterState) : Prop where
  connecting : s.phase = .connecting → s.task = .absent ∧ announcements tr = [] ∧ results tr = []
  starting : s.phase = .starting → s.task = .absent ∧ announcements tr = [c.announcement .started] ∧ results tr = []
  absent : s.task = .absent → (∀ r, GetterEvent.startOk r ∉ happened tr) ∧ GetterEvent.stopScheduled ∉ happened tr ∧
    (announcements tr = [] ∨ announcements tr = [c.announcement .started]) ∧
    (∀ ps, .ok ps ∉ results tr)
  spawned : s.task = .spawned → s.phase = .over ∧ (∃ r, GetterEvent.startOk r ∈ happened tr ∧ results tr = [.ok r.peers]) ∧
    GetterEvent.stopScheduled ∉ happened tr ∧ announcements tr = [c.announcement .started]
  announcing : s.task = .announcing → s.phase = .over ∧
    (∃ r, GetterEvent.startOk r ∈ happened tr ∧ results tr = [.ok r.peers]) ∧
    GetterEvent.stopScheduled ∈ happened tr ∧ announcements tr = [c.announcement .started, c.announcement .stopped]
  over : s.task = .over → s.phase = .over ∧
    (∃ r, GetterEvent.startOk r ∈ happened tr ∧ results tr = [.ok r.peers]) ∧
    ((GetterEvent.stopScheduled ∈ happened tr ∧ announcements tr = [c.announcement .started, c.announcement .stopped]) ∨
     (GetterEvent.stopScheduled ∉ happened tr ∧ GetterEvent.stopCancelled ∈ happened tr ∧
        announcements tr = [c.announcement .started]))
  results : (results tr).length ≤ 1

theorem getter_inv {c : GetterCtx} {tr : GetterTrace ε} {s : GetterState}
    (h : GetterRun c tr s) : GetterInv c tr s := by
  induction h with
  | init =>
    constructor <;> simp [GetterState.init, announcements, results, happened]
  | @step tr s e s' out hr hs ih =>
    obtain ⟨phase, task⟩ := s
    have hab : ∀ {p}, phase = p → p ≠ .over → task = .absent := by
      rintro p rfl hp
      cases phase with
      | connecting => exact (ih.connecting rfl).1
      | starting => exact (ih.starting rfl).1
      | over => exact absurd rfl hp
    cases e <;> simp only [GetterState.step] at hs <;> split at hs <;>
      first
        | cases hs; done
        | skip
    all_goals simp only [Option.some.injEq, Prod.mk.injEq] at hs
    all_goals obtain ⟨rfl, rfl⟩ := hs
    all_goals rename_i hc
    · -- connectOk
      subst hc
      obtain ⟨ht, ha, hres⟩ := ih.connecting rfl
      simp only at ht
      subst ht
      obtain ⟨i1, i2, -, -⟩ := ih.absent rfl
      constructor <;> simp_all [announcements_snoc, results_snoc, happened_snoc, announcementOf, resultOf, List.filterMap] <;>
        exact ⟨r, hr1, rfl⟩
    · subst hc
      obtain ⟨ht, ha, hres⟩ := ih.connecting rfl
      simp only at ht
      subst ht
      obtain ⟨i1, i2, -, -⟩ := ih.absent rfl
      constructor <;> simp_all [announcements_snoc, results_snoc, happened_snoc, announcementOf, resultOf, List.filterMap] <;>
        exact ⟨r, hr1, rfl⟩
    · subst hc
      obtain ⟨ht, ha, hres⟩ := ih.starting rfl
      simp only at ht
      subst ht
      obtain ⟨i1, i2, -, -⟩ := ih.absent rfl
      rename_i r
      constructor <;> simp_all [announcements_snoc, results_snoc, happened_snoc, announcementOf, resultOf, List.filterMap] <;>
        exact ⟨r, hr1, rfl⟩
    · subst hc
      obtain ⟨ht, ha, hres⟩ := ih.starting rfl
      simp only at ht
      subst ht
      obtain ⟨i1, i2, -, -⟩ := ih.absent rfl
      constructor <;> simp_all [announcements_snoc, results_snoc, happened_snoc, announcementOf, resultOf, List.filterMap] <;>
        exact ⟨r, hr1, rfl⟩
    · have ht := hab rfl hc
      subst ht
      obtain ⟨i1, i2, i3, i4⟩ := ih.absent rfl
      have hres : Spec.results tr = [] := by
        cases phase with
        | connecting => exact (ih.connecting rfl).2.2
        | starting => exact (ih.starting rfl).2.2
        | over => exact absurd rfl hc
      constructor <;> simp_all [announcements_snoc, results_snoc, happened_snoc, announcementOf, resultOf, List.filterMap] <;>
        exact ⟨r, hr1, rfl⟩
    · have ht := hab rfl hc
      subst ht
      obtain ⟨i1, i2, i3, i4⟩ := ih.absent rfl
      have := ih.results
      constructor <;> simp_all [announcements_snoc, results_snoc, happened_snoc, announcementOf, resultOf, List.filterMap] <;>
        exact ⟨r, hr1, rfl⟩
    · subst hc
      obtain ⟨hp, ⟨r, hr1, hr2⟩, i2, i3⟩ := ih.spawned rfl
      simp only at hp
      subst hp
      constructor <;> simp_all [announcements_snoc, results_snoc, happened_snoc, announcementOf, resultOf, List.filterMap] <;>
        exact ⟨r, hr1, rfl⟩
    · rcases hc with rfl | rfl
      · obtain ⟨hp, ⟨r, hr1, hr2⟩, i2, i3⟩ := ih.spawned rfl
        simp only at hp
        subst hp
        constructor <;> simp_all [announcements_snoc, results_snoc, happened_snoc, announcementOf, resultOf, List.filterMap] <;>
        exact ⟨r, hr1, rfl⟩
      · obtain ⟨hp, ⟨r, hr1, hr2⟩, i2, i3⟩ := ih.announcing rfl
        simp only at hp
        subst hp
        constructor <;> simp_all [announcements_snoc, results_snoc, happened_snoc, announcementOf, resultOf, List.filterMap] <;>
        exact ⟨r, hr1, rfl⟩
    · subst hc
      obtain ⟨hp, ⟨r, hr1, hr2⟩, i2, i3⟩ := ih.announcing rfl
      simp only at hp
      subst hp
      constructor <;> simp_all [announcements_snoc, results_snoc, happened_snoc, announcementOf, resultOf, List.filterMap] <;>
        exact ⟨r, hr1, rfl⟩
    · subst hc
      obtain ⟨hp, ⟨r, hr1, hr2⟩, i2, i3⟩ := ih.announcing rfl
      simp only at hp
      subst hp
      constructor <;> simp_all [announcements_snoc, results_snoc, happened_snoc, announcementOf, resultOf, List.filterMap] <;>
        exact ⟨r, hr1, rfl⟩

/-- **C49.** At most one "stopped" announcement is made, and only after the "started" announcement was answered; every
announcement is one of the two, in this order, with the same fields. -/
theorem stop_only_after_start {c : GetterCtx} {tr : GetterTrace ε} {s : GetterState} (h : GetterRun c tr s) :
    (announcements tr = [] ∨ announcements tr = [c.announcement .started] ∨
      (announcements tr = [c.announcement .started, c.announcement .stopped] ∧ ∃ r, StartSucceeded tr r)) ∧
    ((∃ a ∈ announcements tr, a.event = .stopped) → ∃ r, StartSucceeded tr r) := by
  have hi := getter_inv h
  have main : announcements tr = [] ∨ announcements tr = [c.announcement .started] ∨
      (announcements tr = [c.announcement .started, c.announcement .stopped] ∧ ∃ r, StartSucceeded tr r) := by
    cases ht : s.task with
    | absent =>
      rcases (hi.absent ht).2.2.1 with h | h
      · exact .inl h
      · exact .inr (.inl h)
    | spawned => exact .inr (.inl (hi.spawned ht).2.2.2)
    | announcing =>
      obtain ⟨-, ⟨r, h1, -⟩, -, h2⟩ := hi.announcing ht
      exact .inr (.inr ⟨h2, r, h1⟩)
    | over =>
      obtain ⟨-, ⟨r, h1, -⟩, h2⟩ := hi.over ht
      rcases h2 with h2 | h2
      · exact .inr (.inr ⟨h2.2, r, h1⟩)
      · exact .inr (.inl h2.2.2)
  refine ⟨main, ?_⟩
  rintro ⟨a, ha, he⟩
  rcases main with h | h | ⟨-, h⟩
  · rw [h] at ha; cases ha
  · rw [h, List.mem_singleton] at ha; subst ha; cases he
  · exact h

/-- **C49.** Once everything is over, the "stopped" announcement has been made iff the "started" announcement was answered,
except that the end of the grace period at shutdown may prevent it. -/
theorem stop_iff_start {c : GetterCtx} {tr : GetterTrace ε} {s : GetterState} (h : GetterRun c tr s)
    (ht : s.task = .absent ∨ s.task = .over) :
    (c.announcement .stopped ∈ announcements tr → ∃ r, StartSucceeded tr r) ∧
    ((∃ r, StartSucceeded tr r) → GetterEvent.stopCancelled ∉ happened tr →
      announcements tr = [c.announcement .started, c.announcement .stopped]) := by
  have hi := getter_inv h
  constructor
  · intro hm
    exact (stop_only_after_start h).2 ⟨_, hm, rfl⟩
  · rintro ⟨r, hr⟩ hc
    rcases ht with ht | ht
    · exact absurd hr ((hi.absent ht).1 r)
    · rcases (hi.over ht).2.2 with h | h
      · exact h.2
      · exact absurd h.2.1 hc

/-- **C49.** As long as it is not over, the task that makes the announcement is there, and only waits for being scheduled or
for the tracker. -/
theorem stop_pending {c : GetterCtx} {tr : GetterTrace ε} {s : GetterState} (h : GetterRun c tr s) {r : AnnounceResponse}
    (hr : StartSucceeded tr r) : s.task ≠ .absent ∧
      (s.task = .spawned → ∃ s', s.step (ε := ε) c .stopScheduled = some (s', [.announce (c.announcement .stopped)])) ∧
      (s.task = .announcing → c.announcement .stopped ∈ announcements tr) := by
  have hi := getter_inv h
  refine ⟨fun ht => (hi.absent ht).1 r hr, fun ht => ⟨_, by simp only [GetterState.step, ht, if_true]; rfl⟩, fun ht => ?_⟩
  rw [(hi.announcing ht).2.2.2]; simp

/-- **C49.** At most one result is returned; it is the peers of the response to "started" if there was one, whatever becomes
of the "stopped" announcement, and an error otherwise. -/
theorem result_of_start {c : GetterCtx} {tr : GetterTrace ε} {s : GetterState} (h : GetterRun c tr s) :
    (results tr).length ≤ 1 ∧ (∀ r, StartSucceeded tr r → results tr = [.ok r.peers]) ∧
      ((∀ r, ¬ StartSucceeded tr r) → ∀ ps, .ok ps ∉ results tr) := by
  have hi := getter_inv h
  refine ⟨hi.results, ?_, ?_⟩
  · intro r hr
    -- the response is that of the only `startOk`
    have uniq : ∀ {tr : GetterTrace ε} {s : GetterState}, GetterRun c tr s → ∀ r r', StartSucceeded tr r →
        StartSucceeded tr r' → r = r' := by
      intro tr s h
      induction h with
      | init => intro r r' hr; cases hr
      | @step tr s e s' out hrun hs ih =>
        intro r r' hr hr'
        unfold StartSucceeded at hr hr' ih
        rw [happened_snoc, List.mem_append, List.mem_singleton] at hr hr'
        have hex : ∀ q, e = GetterEvent.startOk q → ∀ q', GetterEvent.startOk q' ∉ happened tr := by
          rintro q rfl q'
          simp only [GetterState.step] at hs
          split at hs
          · rename_i hp
            exact ((getter_inv hrun).absent ((getter_inv hrun).starting hp).1).1 q'
          · cases hs
        rcases hr with hr | hr <;> rcases hr' with hr' | hr'
        · exact ih r r' hr hr'
        · exact absurd hr (hex r' hr'.symm r)
        · exact absurd hr' (hex r hr.symm r')
        · rw [← hr] at hr'; cases hr'; rfl
    cases ht : s.task with
    | absent => exact absurd hr ((hi.absent ht).1 r)
    | spawned => obtain ⟨-, ⟨q, h1, h2⟩, -⟩ := hi.spawned ht; rw [uniq h r q hr h1]; exact h2
    | announcing => obtain ⟨-, ⟨q, h1, h2⟩, -⟩ := hi.announcing ht; rw [uniq h r q hr h1]; exact h2
    | over => obtain ⟨-, ⟨q, h1, h2⟩, -⟩ := hi.over ht; rw [uniq h r q hr h1]; exact h2
  · intro hno ps
    cases ht : s.task with
    | absent => exact (hi.absent ht).2.2.2 ps
    | spawned => obtain ⟨-, ⟨q, h1, -⟩, -⟩ := hi.spawned ht; exact absurd h1 (hno q)
    | announcing => obtain ⟨-, ⟨q, h1, -⟩, -⟩ := hi.announcing ht; exact absurd h1 (hno q)
    | over => obtain ⟨-, ⟨q, h1, -⟩, -⟩ := hi.over ht; exact absurd h1 (hno q)

/-- **C49.** What is returned is what the events say: the peers of the answer, the error of connecting or of the announcement, or
that the time was up; and a failure of the "stopped" announcement, only that, leads to a warning that tells it. -/
theorem result_and_warning {c : GetterCtx} {tr : GetterTrace ε} {s : GetterState} (h : GetterRun c tr s) :
    results tr = (happened tr).filterMap outcome ∧ warnings tr = (happened tr).filterMap stopFailure := by
  induction h with
  | init => exact ⟨rfl, rfl⟩
  | @step tr s e s' out _ hs ih =>
    have hw : warnings (tr ++ [(e, out)]) = warnings tr ++ out.filterMap warningOf := by simp [warnings]
    rw [results_snoc, hw, happened_snoc, List.filterMap_append, List.filterMap_append, ih.1, ih.2]
    have : out.filterMap resultOf = [e].filterMap outcome ∧ out.filterMap warningOf = [e].filterMap stopFailure := by
      cases e <;> simp only [GetterState.step] at hs <;> split at hs <;> cases hs <;> exact ⟨rfl, rfl⟩
    rw [this.1, this.2]
    exact ⟨rfl, rfl⟩

/-- **C49.** The two announcements agree in everything but the event; both say that nothing was transferred and that 65535
bytes are left. -/
theorem announcement_fields (c : GetterCtx) :
    c.announcement .stopped = { c.announcement .started with event := .stopped } ∧
    (c.announcement .started).event = .started ∧ (c.announcement .started).infoHash = c.infoHash ∧
    (c.announcement .started).peerId = c.peerId ∧ (c.announcement .started).key = c.key ∧
    (c.announcement .started).port = c.port ∧ (c.announcement .started).numwant = c.numwant ∧
    (c.announcement .started).downloaded = 0 ∧ (c.announcement .started).uploaded = 0 ∧
    (c.announcement .started).left = 65535 := ⟨rfl, rfl, rfl, rfl, rfl, rfl, rfl, rfl, rfl, rfl⟩

-- a run in which the tracker answers, the result is returned, and the "stopped" announcement fails
example (c : GetterCtx) (r : AnnounceResponse) :
    ∃ (tr : GetterTrace Nat) (s : GetterState), GetterRun c tr s ∧ s.task = .over ∧ StartSucceeded tr r ∧
      announcements tr = [c.announcement .started, c.announcement .stopped] ∧ GetterEvent.stopErr 7 ∈ happened tr :=
  ⟨_, _, .step (.step (.step (.step .init (e := .connectOk) rfl) (e := .startOk r) rfl) (e := .stopScheduled) rfl)
    (e := .stopErr 7) rfl, rfl, by simp [StartSucceeded, happened], rfl, by simp [happened]⟩

end Demag.Props
