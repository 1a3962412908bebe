import Verif.Lemmas.ProgramLog

/-!
# C78: no failure is silent, and what the log says is so
-/

namespace Demag.Props

open Demag Spec

section
variable {W : World} {cfg : Config} {m : Magnet} {now : Except Nat Nat} {fileOk : Nat → Bool}
  {tr : ResolveTrace Tracker Peer SockAddr TorrentInfo TaskError} {s : Resolve Tracker Peer SockAddr SockAddr TorrentInfo TaskError}
  {mse : Peer → MseError}

theorem get_warnings (ha : Accepted cfg) (h : GetRun W.sha1 { W.getEnv cfg with now := now, fileOk := fileOk } W.behaves W.answers m tr s) {y : LogLine}
    (hy : y ∈ getLog m mse tr) :
    y = .fetching m ∨
    (∃ t e atr a, y = .trackerFailed t m e ∧ t ∈ m.trackers ∧ AskRun W.lossy W.parseIp t ((W.getEnv cfg).getter m) atr a ∧ W.answers t atr ∧
      .error e ∈ askResults atr) ∨
    ∃ p e links, y = .peerFailed m p e (mse p) ∧ W.behaves p links ∧
      peerTask W.sha1 W.localId cfg.general.encrypt m.infoHash p links = .err e := by
  obtain ⟨-, hT, hP⟩ := accepted_usable (env := W.getEnv cfg) ha
  rcases mem_getLog.1 hy with rfl | ⟨w, e, outs, t, ps, heo, ho, rfl⟩ | ⟨p, e, hp, rfl⟩
  · exact .inl rfl
  · refine .inr (.inl ?_)
    obtain ⟨w', atr, a, r, a1, a2, a3, -, a5⟩ := h.asked _ heo t ps ho
    have hr : r = .error e := by
      cases r with
      | ok x => simp [Except.mapError] at a5
      | error e' => simp [Except.mapError] at a5; rw [a5.2]
    subst hr
    refine ⟨t, e, atr, a, rfl, ?_, a1, a2, ?_⟩
    · obtain ⟨dht, -, hrun⟩ := h.run
      have hto : (t, Outcome.value ps) ∈ trackerDones tr := by
        simp only [trackerDones, resolveObserved, List.mem_filterMap, List.mem_flatMap]
        exact ⟨_, ⟨_, heo, ho⟩, rfl⟩
      by_cases hne : m.trackers = []
      · exfalso
        cases dht with
        | error e =>
          have := hrun.run
          rw [hne] at this
          obtain ⟨rfl, -⟩ := resolve_exited this
          cases hto
        | ok x =>
          obtain ⟨⟨-, hsrc⟩, -⟩ := resolve_inv hT hP (.inr ⟨x, rfl⟩) hrun.run
          rcases hsrc with ⟨hne', -⟩ | ⟨-, f, ns, -, hdi⟩
          · exact hne' hne
          · have := hdi.td
            change trackerDones tr = [] at this
            rw [this] at hto
            cases hto
      · refine done_listed hT hP hrun.run hne (fun t ht => ?_) _ hto
        obtain ⟨_, _, _, -, -, -, hx⟩ := get_tracker h ht
        cases hx
    · simp only [askResults, List.mem_filterMap]
      exact ⟨_, a3, rfl⟩
  · refine .inr (.inr ?_)
    have hd := tries_done (env := { W.getEnv cfg with now := now, fileOk := fileOk }) hT hP h hp
    obtain ⟨dht, -, hrun⟩ := h.run
    obtain ⟨links, hb, ho⟩ := peerDone_task hrun hd
    refine ⟨p, e, links, rfl, hb, ?_⟩
    change taskOutcome (peerTask W.sha1 W.localId cfg.general.encrypt m.infoHash p links) = _ at ho
    generalize peerTask W.sha1 W.localId cfg.general.encrypt m.infoHash p links = z at ho
    cases z with
    | err e' => simp [taskOutcome] at ho; rw [ho]
    | _ => simp [taskOutcome] at ho

theorem get_explains (ha : Accepted cfg) (h : GetRun W.sha1 { W.getEnv cfg with now := now, fileOk := fileOk } W.behaves W.answers m tr s)
    (hr : s.result = some .nothing) {log : List MainLine} (hlog : ∀ y ∈ getLog m mse tr, .about y ∈ log) : ExplainsVain W cfg m log := by
  obtain ⟨-, hT, hP⟩ := accepted_usable (env := W.getEnv cfg) ha
  obtain ⟨dht, hd, hrun⟩ := h.run
  obtain ⟨es, h1, h2, h3, h4⟩ := resolve_nothing hT hP hrun.run hr
  have htold : ∀ p ∈ contacts tr, ∃ e mse, MainLine.about (.peerFailed m p e mse) ∈ log := by
    intro p hp
    obtain ⟨e, he⟩ := nothing_tried (env := { W.getEnv cfg with now := now, fileOk := fileOk }) hT hP h hr hp
    exact ⟨e, mse p, hlog _ (mem_getLog.2 (.inr (.inr ⟨p, e, he, rfl⟩)))⟩
  constructor
  · intro t ht
    have hne : m.trackers ≠ [] := by intro he; rw [he] at ht; cases ht
    rcases h4 hne with ⟨t', ht'⟩ | ⟨hperm, hcon⟩
    · obtain ⟨_, _, _, -, -, -, hx⟩ := get_tracker h ht'
      cases hx
    · obtain ⟨⟨t', o⟩, hto, rfl⟩ := List.mem_map.1 (hperm.mem_iff.2 ht)
      have hto' := hto
      simp only [trackerDones, resolveObserved, List.mem_filterMap, List.mem_flatMap] at hto'
      obtain ⟨x, ⟨⟨ev, outs⟩, heo, hx⟩, hx'⟩ := hto'
      cases x <;> simp [trackerDoneOf] at hx'
      · obtain ⟨rfl, rfl⟩ := hx'
        rename_i ps
        obtain ⟨w, atr, a, r, a1, a2, a3, a4, a5⟩ := h.asked _ heo _ _ hx
        simp only at a5
        subst a5
        cases r with
        | error e => exact .inl ⟨e, hlog _ (mem_getLog.2 (.inr (.inl ⟨w, e, outs, _, _, heo, hx, rfl⟩)))⟩
        | ok qs =>
          cases a4
          refine .inr ⟨atr, a, qs, a1, a2, ?_, ?_⟩
          · simp only [askResults, List.mem_filterMap]
            exact ⟨_, a3, rfl⟩
          · intro p hp
            have hmem : p ∈ (trackerDones tr).flatMap answered := List.mem_flatMap.2 ⟨_, hto, hp⟩
            obtain ⟨-, f2, -⟩ := firsts_spec (fun p : Peer => p.address) ((trackerDones tr).flatMap answered)
            obtain ⟨q, hq, hqa⟩ := List.mem_map.1 (f2 p hmem)
            obtain ⟨e, k, hk⟩ := htold q (by rw [hcon]; exact hq)
            exact ⟨q, e, k, hqa, hk⟩
      · obtain ⟨rfl, rfl⟩ := hx'
        exact absurd hx (h.calm _ heo _)
  · intro he
    obtain ⟨nodes, rfl⟩ := h3 he
    exact ⟨contacts tr, nodes, dhtGives_found hd, htold⟩

theorem get_reason (ha : Accepted cfg) (h : GetRun W.sha1 { W.getEnv cfg with now := now, fileOk := fileOk } W.behaves W.answers m tr s)
    {r : Resolved Tracker SockAddr TorrentInfo TaskError} (hr : s.result = some r) {template : List TemplateElement} {f : DownloadFailure}
    (hf : getFailure { W.getEnv cfg with now := now, fileOk := fileOk } template r = some f) :
    DownloadFails W cfg m f ∧ (f = .save → ∃ i, fileOk i = false) := by
  obtain ⟨-, hT, hP⟩ := accepted_usable (env := W.getEnv cfg) ha
  obtain ⟨h1, h2, h3⟩ := getFailure_reason (env := { W.getEnv cfg with now := now, fileOk := fileOk }) hT hP h hr hf
  refine ⟨?_, fun he => (h1 he).2⟩
  cases f with
  | save => exact (h1 rfl).1
  | nothingFromPeers => exact ⟨contacts tr, get_fails (env := { W.getEnv cfg with now := now, fileOk := fileOk }) hT hP h (h2 rfl)⟩
  | dhtCreate => exact h3 (.inl rfl)
  | dhtDown => exact h3 (.inr rfl)

end

/-! ### Batches -/

theorem batch_counts {M : Type} {ms : List M} {jobs : Nat} {tr : List (BatchEvent × List (M × Outcome Bool))} {s : Batch M} (hj : 0 < jobs)
    (hne : ms ≠ []) (h : BatchRun (some ms) jobs tr s) {c : ExitCode} (hex : s.exit = some c) (hc : c ≠ .crash) :
    s.total = (downloads tr).length ∧ s.success = (downloads tr).countP (fun x => x.2 = .value true) := by
  cases h with
  | init => cases ms with
    | nil => exact absurd rfl hne
    | cons m ms => cases hex
  | @step tr s0 _ e out hr hs =>
    obtain ⟨acc, d, h1, -, -, -, h5, -⟩ := batch_inv hj hne hr
    unfold Batch.step at hs
    split at hs
    · cases hs
    rename_i h0
    have h0 : s0.exit = none := by simpa using h0
    obtain ⟨-, h5b, h5c⟩ := h5 h0
    have keep : ∀ {ev : NurseryEvent M Bool} {g : Nursery M Bool → Batch M} {o : List (M × Outcome Bool)}, (∀ n, (g n).exit = s0.exit) →
        (s0.nursery.step ev).map (fun r => (g r.1, o)) = some (s, out) → False := by
      intro ev g o hg hm
      rw [Option.map_eq_some_iff] at hm
      obtain ⟨r, -, hm⟩ := hm
      obtain ⟨rfl, -⟩ := Prod.mk.inj hm
      rw [hg, h0] at hex
      cases hex
    cases e with
    | spawn =>
      simp only at hs
      split at hs
      · split at hs
        · cases hs; rw [h0] at hex; cases hex
        · cases hs; cases hex; exact absurd rfl hc
        · cases hs
      · cases hs
    | dropHandle =>
      simp only at hs
      split at hs
      · exact absurd hs (keep (g := fun n => { s0 with nursery := n, dropped := true }) fun _ => rfl)
      · cases hs
    | take w => exact absurd hs (keep (g := fun n => { s0 with nursery := n }) fun _ => rfl)
    | check w => exact absurd hs (keep (g := fun n => { s0 with nursery := n }) fun _ => rfl)
    | workerExit w => exact absurd hs (keep (g := fun n => { s0 with nursery := n }) fun _ => rfl)
    | ends w o =>
      simp only at hs
      split at hs
      · exact absurd hs (keep (g := fun n => { s0 with nursery := n }) fun _ => rfl)
      · cases hs
    | receive =>
      simp only at hs
      split at hs
      · split at hs
        · cases hs; simp only [h0] at hex; cases hex
        · cases hs; cases hex; exact absurd rfl hc
        · cases hs
      · cases hs
    | receiveNone =>
      simp only at hs
      split at hs
      · split at hs
        · rename_i n o hn
          obtain ⟨-, hd, -⟩ := follows_recvNone hj h1 hn
          cases hs
          rw [downloads_snoc, List.append_nil]
          rw [hd, List.take_length] at h5c
          exact ⟨by show s0.total = _; rw [h5b, hd], h5c⟩
        · cases hs
      · cases hs

theorem magnetsFailure_none (uenv : UrlEnv) (lossy : Bytes → Text) (file : Option Bytes) :
    magnetsFailure uenv lossy file = none ↔ ∃ ms, batchLinks uenv lossy file = some ms := by
  cases file with
  | none => simp [magnetsFailure, batchLinks]
  | some content =>
    unfold magnetsFailure batchLinks
    simp only [Option.bind_some]
    cases parseMagnetsFile (Magnet.parse (urlParse uenv) lossy) content <;> simp [Except.toOption]

theorem magnetsLoop_read (parse : Text → Except MagnetError Magnet) (ls : List Bytes) (i : Nat) (acc : List Magnet)
    (h : magnetsLoop parse ls i acc = .error .read) :
    ∃ pre l post ms, ls = pre ++ l :: post ∧ LinesDenote (fun s m => parse s = .ok m) pre ms ∧ ∀ t, l ≠ utf8 t := by
  induction ls generalizing i acc with
  | nil => cases h
  | cons l ls ih =>
    rw [magnetsLoop] at h
    rcases line_cases l with h0 | ⟨t, h0, hc, hs⟩ | ⟨t, h0, hc, hs⟩
    · refine ⟨[], l, ls, [], rfl, .nil, fun t ht => ?_⟩
      rw [ht, fromUtf8_utf8] at h0
      cases h0
    · rw [h0] at h
      simp only [hc, if_true] at h
      obtain ⟨pre, l', post, ms, rfl, h1, h2⟩ := ih _ _ h
      exact ⟨l :: pre, l', post, ms, rfl, .skip hs h1, h2⟩
    · rw [h0] at h
      simp only [hc] at h
      cases hp : parse (trim t) with
      | error e => simp [hp] at h
      | ok m =>
        simp only [hp] at h
        obtain ⟨pre, l', post, ms, rfl, h1, h2⟩ := ih _ _ h
        exact ⟨l :: pre, l', post, m :: ms, rfl, .magnet hs hp h1, h2⟩

theorem magnetsFailure_reason {W : World} {f : InputArg} {e : MagnetsFileError} (h : magnetsFailure W.uenv W.lossy (W.inputs f) = some e) :
    UnusableLinks W f e := by
  cases hc : W.inputs f with
  | none => rw [hc] at h; cases h; exact .inl hc
  | some content =>
    rw [hc] at h
    unfold magnetsFailure at h
    simp only at h
    split at h
    · rename_i e' he
      cases h
      cases e with
      | read =>
        obtain ⟨pre, l, post, ms, h1, h2, h3⟩ := magnetsLoop_read _ _ _ _ he
        exact .inr ⟨content, pre, l, post, ms, hc, (fileLines_spec _ _).1 h1, (linesDenote_congr fun s m => magnet_iff W.uenv W.lossy s m).1 h2, h3⟩
      | parse n e =>
        obtain ⟨pre, l, post, s, ms, h1, h2, h3, h4, h5⟩ := (magnetsFile_error _ _ _ _).1 he
        refine ⟨content, pre, l, post, s, ms, hc, h1, h2, (linesDenote_congr fun s m => magnet_iff W.uenv W.lossy s m).1 h3, h4, fun m hm => ?_⟩
        have := (magnet_iff W.uenv W.lossy s m).2 hm
        rw [h5] at this
        cases this
    · cases h

theorem forall₂_left {α β : Type} {R : α → β → Prop} {as : List α} {bs : List β} (h : List.Forall₂ R as bs) {b : β} (hb : b ∈ bs) :
    ∃ a ∈ as, R a b := by
  induction h with
  | nil => cases hb
  | cons h _ ih =>
    rcases List.mem_cons.1 hb with rfl | hb
    · exact ⟨_, by simp, h⟩
    · obtain ⟨a, ha, hr⟩ := ih hb; exact ⟨a, by simp [ha], hr⟩

theorem forall₂_right {α β : Type} {R : α → β → Prop} {as : List α} {bs : List β} (h : List.Forall₂ R as bs) {a : α} (ha : a ∈ as) :
    ∃ b ∈ bs, R a b := by
  induction h with
  | nil => cases ha
  | cons h _ ih =>
    rcases List.mem_cons.1 ha with rfl | ha
    · exact ⟨_, by simp, h⟩
    · obtain ⟨b, hb, hr⟩ := ih ha; exact ⟨b, by simp [hb], hr⟩

theorem mem_writesOf {es : List SaveEffect} {o : Output} {b : Bytes} : (o, b) ∈ writesOf es ↔ .write o b ∈ es := by
  induction es with
  | nil => simp [writesOf]
  | cons e es ih => cases e <;> simp [writesOf, ih]

theorem performEffects_subset {ok : Nat → Bool} {e : SaveEffect} : ∀ {i : Nat} {es : List SaveEffect}, e ∈ (performEffects ok i es).1 → e ∈ es := by
  intro i es
  induction es generalizing i with
  | nil => intro h; cases h
  | cons x es ih =>
    intro h
    unfold performEffects at h
    split at h
    · rcases List.mem_cons.1 h with rfl | h
      · simp
      · exact List.mem_cons_of_mem _ (ih h)
    · cases h

/-- What is written is where the message says. -/
theorem save_told {lossy : Bytes → Text} {parent : Text → Option Text} {t : TorrentFile} {template : List TemplateElement} {es : List SaveEffect}
    (h : t.save lossy ipText parent template = some es) (m : Magnet) {o : Output} {b : Bytes} (hw : .write o b ∈ es) :
    .saving m o ∈ saveLog lossy m template t.info := by
  unfold TorrentFile.save at h
  rw [Option.map_eq_some_iff] at h
  obtain ⟨name, hn, rfl⟩ := h
  unfold saveLog
  rw [hn]
  simp only [List.mem_append, List.mem_singleton] at hw ⊢
  rcases hw with hw | hw
  · split at hw
    · cases hw
    · split at hw
      · split at hw
        · cases List.mem_singleton.1 hw
        · cases hw
      · cases hw
  · cases hw; rfl

theorem saveLog_place {W : World} {m : Magnet} {template : List TemplateElement} {info : TorrentInfo} (h1 : info.infoHash = m.infoHash)
    (h2 : W.sha1 info.data = m.infoHash.bytes) (h3 : IsInfoDict info.data) {x : MainLine} (hx : x ∈ saveLog W.lossy m template info) :
    ∃ out, x = .saving m out ∧ PlaceFor W template m out := by
  obtain ⟨kvs, hk, hc, hd⟩ := h3
  have hn : info.name W.lossy = some ((NameOf kvs).map W.lossy) := by
    have := name_spec W.lossy info.infoHash kvs hc hd
    rw [← hk] at this
    exact this
  unfold saveLog at hx
  rw [hn] at hx
  refine ⟨_, List.mem_singleton.1 hx, kvs, hc, by rw [← hk]; exact h2, ?_⟩
  rw [h1]

section
variable {W : World} {cfg : Config} {template : List TemplateElement} {file : InputArg} {tr : List (BatchEvent × List (Magnet × Outcome Bool))}
  {jobs : List BatchJob} {s : Batch Magnet} {code : ExitCode} {logs : List (List MainLine)} {log : List MainLine}

theorem batch_log_cases (ha : Accepted cfg)
    (hb : BatchGet W.sha1 (W.getEnv cfg) W.uenv W.behaves W.answers template (W.inputs file) tr jobs s) (hex : s.exit = some code)
    (hc : code ≠ .crash) :
    (∃ e, magnetsFailure W.uenv W.lossy (W.inputs file) = some e ∧
      batchLog W.uenv W.lossy (W.inputs file) log s.success s.total = [.about (.badMagnets e)] ∧ code = .failure ∧ jobs = []) ∨
    (batchLinks W.uenv W.lossy (W.inputs file) = some [] ∧
      batchLog W.uenv W.lossy (W.inputs file) log s.success s.total = [.noMagnets] ∧ code = .success ∧ jobs = []) ∨
    ∃ ms, ms ≠ [] ∧ batchLinks W.uenv W.lossy (W.inputs file) = some ms ∧
      batchLog W.uenv W.lossy (W.inputs file) log s.success s.total = log ++ [.converted s.success s.total] ∧
      (jobs.map BatchJob.link).Perm ms ∧ (∀ j ∈ jobs, j.code ≠ .crash) ∧ (code = .failure ↔ ∃ j ∈ jobs, j.code = .failure) ∧
      s.total = jobs.length ∧ s.success = jobs.countP (fun j => j.code = .success) := by
  obtain ⟨hB, -, -⟩ := accepted_usable (env := W.getEnv cfg) ha
  have hrun := hb.run
  change BatchRun (batchLinks W.uenv W.lossy (W.inputs file)) _ _ _ at hrun
  unfold batchLog
  cases hm : magnetsFailure W.uenv W.lossy (W.inputs file) with
  | some e =>
    have hl : batchLinks W.uenv W.lossy (W.inputs file) = none := by
      cases h : batchLinks W.uenv W.lossy (W.inputs file) with
      | none => rfl
      | some ms => rw [(magnetsFailure_none _ _ _).2 ⟨ms, h⟩] at hm; cases hm
    rw [hl] at hrun
    obtain ⟨rfl, rfl⟩ := batch_exited (c := .failure) rfl hrun
    cases hex
    exact .inl ⟨e, rfl, rfl, rfl, List.map_eq_nil_iff.1 hb.ended.symm⟩
  | none =>
    obtain ⟨ms, hl⟩ := (magnetsFailure_none _ _ _).1 hm
    rw [hl] at hrun ⊢
    cases ms with
    | nil =>
      obtain ⟨rfl, rfl⟩ := batch_exited (c := .success) rfl hrun
      cases hex
      exact .inr (.inl ⟨rfl, rfl, rfl, List.map_eq_nil_iff.1 hb.ended.symm⟩)
    | cons m ms =>
      refine .inr (.inr ⟨m :: ms, by simp, rfl, rfl, ?_⟩)
      obtain ⟨k1, k2⟩ := batch_counts hB (by simp) hrun hex hc
      obtain ⟨acc, d, -, -, -, -, -, -, h7, h8⟩ := batch_inv hB (by simp) hrun
      have hdl : downloads tr = jobs.map fun j => (j.link, jobOutcome j.code) := hb.ended
      rw [hdl] at k1 k2
      rw [List.length_map] at k1
      rw [List.countP_map] at k2
      have k2' : s.success = jobs.countP (fun j => j.code = .success) := by
        rw [k2]
        refine List.countP_congr fun j _ => ?_
        cases hj : j.code <;> simp [jobOutcome, hj]
      have hout : ∀ j ∈ jobs, (j.link, jobOutcome j.code) ∈ downloads tr := fun j hj => (mem_downloads hb).2 ⟨j, hj, rfl, rfl⟩
      cases code with
      | crash => exact absurd rfl hc
      | success =>
        obtain ⟨p1, p2⟩ := h7 hex
        have hall : ∀ j ∈ jobs, j.code = .success := fun j hj => jobOutcome_inj (p2 _ (hout j hj))
        refine ⟨batch_jobs_perm hb p1, fun j hj => by rw [hall j hj]; simp, ?_, k1, k2'⟩
        simp only [reduceCtorEq, false_iff, not_exists, not_and]
        intro j hj; rw [hall j hj]; simp
      | failure =>
        obtain ⟨p1, p2, x, hx, hv⟩ := h8 hex
        refine ⟨batch_jobs_perm hb p1, fun j hj hj' => p2 _ (hout j hj) (by rw [hj']; rfl), ?_, k1, k2'⟩
        simp only [true_iff]
        obtain ⟨j, hj, -, ho⟩ := (mem_downloads hb).1 (show (x.1, x.2) ∈ downloads tr from hx)
        exact ⟨j, hj, jobOutcome_inj (by rw [ho, hv]; rfl)⟩

theorem mem_jobs_log (hlogs : List.Forall₂ (BatchJob.Logs W.sha1 (W.getEnv cfg) W.behaves W.answers template) jobs logs)
    (hint : Interleaves logs log) {x : MainLine} : x ∈ log ↔
      ∃ j ∈ jobs, ∃ l ∈ logs, j.Logs W.sha1 (W.getEnv cfg) W.behaves W.answers template l ∧ x ∈ l := by
  rw [(interleaves_perm hint).mem_iff, List.mem_flatten]
  constructor
  · rintro ⟨l, hl, hx⟩
    obtain ⟨j, hj, hr⟩ := forall₂_left hlogs hl
    exact ⟨j, hj, l, hl, hr, hx⟩
  · rintro ⟨j, -, l, hl, -, hx⟩
    exact ⟨l, hl, hx⟩

/-- The errors among the messages of the jobs of a batch. -/
theorem jobs_errors (ha : Accepted cfg)
    (hb : BatchGet W.sha1 (W.getEnv cfg) W.uenv W.behaves W.answers template (W.inputs file) tr jobs s)
    (hlogs : List.Forall₂ (BatchJob.Logs W.sha1 (W.getEnv cfg) W.behaves W.answers template) jobs logs) (hint : Interleaves logs log) :
    (∃ x ∈ log, x.level = .error) ↔ ∃ j ∈ jobs, j.code = .failure := by
  obtain ⟨-, hT, hP⟩ := accepted_usable (env := W.getEnv cfg) ha
  have hcode : ∀ j ∈ jobs, (getEffects { W.getEnv cfg with now := j.now, fileOk := j.fileOk } template j.result).2 = j.code :=
    fun j hj => by rw [(hb.job j hj).2]
  constructor
  · rintro ⟨x, hx, hl⟩
    obtain ⟨j, hj, l, -, ⟨gtr, gs, mse, hg, hr, rfl⟩, hx⟩ := (mem_jobs_log hlogs hint).1 hx
    obtain ⟨f, hf, -⟩ := (downloadLog_error (fun _ => rfl)).1 ⟨hx, hl⟩
    refine ⟨j, hj, ?_⟩
    rw [← hcode j hj]
    exact (getFailure_iff (env := { W.getEnv cfg with now := j.now, fileOk := j.fileOk }) hT hP hg hr template).2 ⟨f, hf⟩
  · rintro ⟨j, hj, hcj⟩
    obtain ⟨l, hl, hr⟩ := forall₂_right hlogs hj
    obtain ⟨gtr, gs, mse, hg, hr', rfl⟩ := id hr
    rw [← hcode j hj] at hcj
    obtain ⟨f, hf⟩ := (getFailure_iff (env := { W.getEnv cfg with now := j.now, fileOk := j.fileOk }) hT hP hg hr' template).1 hcj
    obtain ⟨h1, h2⟩ := (downloadLog_error (m := j.link) (mse := mse) (tr := gtr) (failed := .batchFailed j.link) (fun _ => rfl)).2 ⟨f, hf, rfl⟩
    exact ⟨_, (mem_jobs_log hlogs hint).2 ⟨j, hj, _, hl, hr, h1⟩, h2⟩

end

section
variable {W : World} {cfg : Config} {c : Command} {d : Done} {log : List MainLine}

theorem command_failure_told (ha : Accepted cfg) (h : CommandLog W cfg c d log) :
    d.code = some .failure ↔ ∃ x ∈ log, x.level = .error := by
  obtain ⟨-, hT, hP⟩ := accepted_usable (env := W.getEnv cfg) ha
  cases h with
  | @get template m tr s r mse hg hr =>
    simp only [Option.some.injEq]
    rw [getFailure_iff hT hP hg hr]
    constructor
    · rintro ⟨f, hf⟩
      exact ⟨_, (downloadLog_error (failed := .getFailed) (fun _ => rfl)).2 ⟨f, hf, rfl⟩⟩
    · rintro ⟨x, hx⟩
      obtain ⟨f, hf, -⟩ := (downloadLog_error (failed := .getFailed) (fun _ => rfl)).1 hx
      exact ⟨f, hf⟩
  | batch hb hex hc hlogs hint =>
    simp only [Option.some.injEq]
    rename_i logs jl
    rcases batch_log_cases (log := jl) ha hb hex hc with ⟨e, -, h2, rfl, -⟩ | ⟨-, h2, rfl, -⟩ | ⟨ms, -, -, h2, -, -, h3, -⟩
    · rw [h2]; exact ⟨fun _ => ⟨_, List.mem_singleton.2 rfl, rfl⟩, fun _ => rfl⟩
    · rw [h2]; simp [MainLine.level]
    · rw [h2, h3, ← jobs_errors ha hb hlogs hint]
      simp only [List.mem_append, List.mem_singleton]
      constructor
      · rintro ⟨x, hx, hl⟩; exact ⟨x, .inl hx, hl⟩
      · rintro ⟨x, hx | rfl, hl⟩
        · exact ⟨x, hx, hl⟩
        · cases hl
  | @queryTracker json no req sup t ih tr s r ht hr =>
    cases r with
    | ok ps => simp only [queryTracker, printPeers, queryTrackerLog, Option.some.injEq]; split <;> simp
    | error e => simp [queryTracker, queryTrackerLog, MainLine.level, LogLine.level]
  | dhtError e => simp [queryDht, queryDhtLog, MainLine.level]
  | @queryDht json ih lookup my v6 es st tr req found hd hq hans =>
    simp only [queryDht, queryDhtLog]
    cases found.peers.isEmpty with
    | true => simp [MainLine.level]
    | false =>
      simp only [Bool.false_eq_true, if_false, printPeers, Option.some.injEq]
      split <;> simp
  | @queryPeer enc no pre template peer ih effects code mse hq =>
    simp only [Option.some.injEq]
    unfold queryPeer at hq
    unfold queryPeerLog
    cases hask : ((W.queryPeerEnv cfg).ask W.sha1 W.H enc pre no peer ih).2 with
    | hang => rw [hask] at hq; cases hq
    | panic => rw [hask] at hq; cases hq; simp
    | err e => rw [hask] at hq; cases hq; simp [MainLine.level, LogLine.level]
    | ok info =>
      rw [hask] at hq
      have hno : ∀ x ∈ saveLog (W.queryPeerEnv cfg).lossy ⟨ih, none, []⟩ template info, x.level ≠ .error := by
        intro x hx; rw [saveLog_level hx]; simp
      simp only [List.mem_append] at hq ⊢
      cases hs : (TorrentFile.new (W.queryPeerEnv cfg).now info [] []).save (W.queryPeerEnv cfg).lossy ipText (W.queryPeerEnv cfg).parent template with
      | none =>
        rw [hs] at hq
        cases hq
        simp only [reduceCtorEq, false_iff, List.not_mem_nil, or_false, not_exists, not_and]
        exact hno
      | some es =>
        rw [hs] at hq
        simp only [Option.some.injEq, Prod.mk.injEq] at hq
        obtain ⟨-, rfl⟩ := hq
        cases hq : (performEffects (W.queryPeerEnv cfg).fileOk 0 es).2 with
        | true =>
          simp only [hq, if_true, reduceCtorEq, false_iff, List.not_mem_nil, or_false, not_exists, not_and]
          exact hno
        | false =>
          simp only [hq, Bool.false_eq_true, if_false, true_iff]
          exact ⟨.writeFailed, .inr (List.mem_singleton.2 rfl), rfl⟩

end

/-! ### The configuration -/

section
variable {W : World} {l : CommandLine}

theorem config_failure_told : W.config l = none ↔ ∃ x ∈ W.configLog l, x.level = .error := by
  unfold World.config World.configLog Arguments.chooseConfig configLog
  cases l.noConfig with
  | true => simp
  | false =>
    simp only [Bool.false_eq_true, if_false]
    cases l.config with
    | some p =>
      simp only [id]
      cases Config.load W.parseToml W.parseHost W.dht (W.configs p) with
      | ok c => simp [MainLine.level]
      | error e => simp [MainLine.level]
    | none =>
      cases W.defaultPath with
      | none => simp [MainLine.level]
      | some p =>
        simp only [id]
        cases Config.load W.parseToml W.parseHost W.dht (W.configs p) with
        | ok c => simp [MainLine.level]
        | error e => by_cases he : e = .notFound <;> simp [MainLine.level, he]

theorem load_error {p : Text} {e : ConfigError} (h : Config.load W.parseToml W.parseHost W.dht (W.configs p) = .error e) : UnusableConfig W p e := by
  cases hf : W.configs p with
  | notFound => rw [hf] at h; cases h; exact hf
  | failed => rw [hf] at h; cases h; exact hf
  | text t =>
    have he : e = .parse := by
      rw [hf] at h
      unfold Config.load at h
      simp only at h
      split at h
      · cases h; rfl
      · split at h
        · cases h; rfl
        · cases h
    subst he
    refine ⟨t, hf, fun doc cfg h1 h2 => ?_⟩
    rw [hf, (load_ok W.parseToml W.parseHost W.dht (.text t) cfg).2 ⟨t, doc, rfl, h1, h2⟩] at h
    cases h

theorem config_log_lines {x : MainLine} (hx : x ∈ W.configLog l) :
    l.noConfig = false ∧ (x = .noHome ∧ l.config = none ∧ W.defaultPath = none ∨
      ∃ p, (l.config = some p ∨ l.config = none ∧ W.defaultPath = some p) ∧
        (x = .readingConfig p ∨ x = .noConfigFile ∧ l.config = none ∧ W.configs p = .notFound ∨
          ∃ e, x = .badConfig p e ∧ UnusableConfig W p e ∧ (l.config = none → e ≠ .notFound))) := by
  unfold World.configLog configLog at hx
  cases hn : l.noConfig with
  | true => rw [hn] at hx; cases hx
  | false =>
    refine ⟨rfl, ?_⟩
    simp only [hn, Bool.false_eq_true, if_false] at hx
    cases hcf : l.config with
    | some p =>
      rw [hcf] at hx
      refine .inr ⟨p, .inl rfl, ?_⟩
      simp only [id] at hx
      rcases List.mem_cons.1 hx with rfl | hx
      · exact .inl rfl
      · split at hx
        · cases hx
        · rename_i e he
          simp only [Bool.false_eq_true, and_false, if_false] at hx
          exact .inr (.inr ⟨e, List.mem_singleton.1 hx, load_error he, by simp⟩)
    | none =>
      rw [hcf] at hx
      cases hd : W.defaultPath with
      | none =>
        rw [hd] at hx
        exact .inl ⟨List.mem_singleton.1 hx, rfl, rfl⟩
      | some p =>
        rw [hd] at hx
        refine .inr ⟨p, .inr ⟨rfl, rfl⟩, ?_⟩
        simp only [id] at hx
        rcases List.mem_cons.1 hx with rfl | hx
        · exact .inl rfl
        · split at hx
          · cases hx
          · rename_i e he
            split at hx
            · rename_i hc
              obtain ⟨rfl, -⟩ := hc
              exact .inr (.inl ⟨List.mem_singleton.1 hx, rfl, load_error he⟩)
            · rename_i hc
              exact .inr (.inr ⟨e, List.mem_singleton.1 hx, load_error he, fun _ hne => hc ⟨hne, trivial⟩⟩)

end

/-! ### The program -/

section
variable {W : World} {args : List Text} {lvl : LevelFilter} {d : Done} {log : List MainLine}

/-- **C78.** No failure is silent, and nothing but a failure is called an error: the program ends with a failure exactly if there is an error
message in its log. -/
theorem failure_told (hdht : DhtConfig.dflt W.parseHost = some W.dht) (h : ProgramLog W args lvl d log) :
    d.code = some .failure ↔ ∃ x ∈ log, x.level = .error := by
  cases h with
  | unconfigured hp hc => simp only [true_iff]; exact config_failure_told.1 hc
  | @ran l cfg _ clog hp hc hr =>
    rw [command_failure_told (config_accepted hdht hc) hr]
    have hno : ¬ ∃ x ∈ W.configLog l, x.level = .error := by rw [← config_failure_told, hc]; simp
    simp only [List.mem_append, List.mem_cons]
    constructor
    · rintro ⟨x, hx, hl⟩; exact ⟨x, .inr (.inr hx), hl⟩
    · rintro ⟨x, hx | rfl | hx, hl⟩
      · exact absurd ⟨x, hx, hl⟩ hno
      · cases hl
      · exact ⟨x, hx, hl⟩

theorem saveLog_only {lossy : Bytes → Text} {m : Magnet} {template : List TemplateElement} {info : TorrentInfo} {x : MainLine}
    (h : x ∈ saveLog lossy m template info) : ∃ out, x = .saving m out := by
  unfold saveLog at h
  split at h
  · cases h
  · exact ⟨_, List.mem_singleton.1 h⟩

theorem batch_listed {cfg : Config} (ha : Accepted cfg) {template : List TemplateElement} {f : InputArg}
    {tr : List (BatchEvent × List (Magnet × Outcome Bool))} {jobs : List BatchJob} {s : Batch Magnet}
    (hb : BatchGet W.sha1 (W.getEnv cfg) W.uenv W.behaves W.answers template (W.inputs f) tr jobs s) {j : BatchJob} (hj : j ∈ jobs) :
    ∃ content ms, W.inputs f = some content ∧ ListsLinks W.uenv W.lossy content ms ∧ j.link ∈ ms :=
  batch_links (env := W.getEnv cfg) ha hb hj

/-- **C78.** What an error message says is so. -/
theorem errors_true (hdht : DhtConfig.dflt W.parseHost = some W.dht) (h : ProgramLog W args lvl d log) {x : MainLine} (hx : x ∈ log)
    (hl : x.level = .error) : Reason (cliReaders W.uenv W.lossy) W args x := by
  have hconf : ∀ {l : CommandLine}, CommandLine.parse W.uenv W.lossy args = some l → x ∈ W.configLog l →
      Reason (cliReaders W.uenv W.lossy) W args x := by
    intro l hp hx
    have hm := (command_line_iff _ _ _ _).1 hp
    obtain ⟨hn, ⟨rfl, h1, h2⟩ | ⟨p, hpath, rfl | ⟨rfl, -⟩ | ⟨e, rfl, hu, he⟩⟩⟩ := config_log_lines hx
    · exact .noHome hm hn h1 h2
    · cases hl
    · cases hl
    · refine .badConfig hm hn ?_ hu
      rcases hpath with hpath | ⟨h1, h2⟩
      · exact .inl hpath
      · exact .inr ⟨h1, h2, he h1⟩
  cases h with
  | unconfigured hp hc => exact hconf hp hx
  | @ran l cfg _ clog hp hc hr =>
    have ha := config_accepted hdht hc
    have hm := (command_line_iff _ _ _ _).1 hp
    have hcfg := (program_config hp cfg).1 hc
    rcases List.mem_append.1 hx with hx | hx
    · exact hconf hp hx
    rcases List.mem_cons.1 hx with rfl | hx
    · cases hl
    generalize hcmd : l.command = c at hr
    cases hr with
    | @get template m tr s r mse hg hr =>
      obtain ⟨f, hf, rfl⟩ := (downloadLog_error (failed := .getFailed) (fun _ => rfl)).1 ⟨hx, hl⟩
      obtain ⟨h1, h2⟩ := get_reason (now := W.now) (fileOk := W.fileOk) ha hg hr hf
      exact .get hm hcmd hcfg h1 h2
    | @batch template file tr jobs s code logs jl hb hex hnc hlogs hint =>
      rcases batch_log_cases (log := jl) ha hb hex hnc with ⟨e, h1, h2, -, -⟩ | ⟨-, h2, -, -⟩ | ⟨ms, -, hms, h2, -, -, -, -⟩
      · rw [h2] at hx
        cases List.mem_singleton.1 hx
        exact .badMagnets hm hcmd (magnetsFailure_reason h1)
      · rw [h2] at hx
        cases List.mem_singleton.1 hx
        cases hl
      · rw [h2] at hx
        rcases List.mem_append.1 hx with hx | hx
        · obtain ⟨j, hj, l', -, ⟨gtr, gs, mse, hg, hr, rfl⟩, hx⟩ := (mem_jobs_log hlogs hint).1 hx
          obtain ⟨f, hf, rfl⟩ := (downloadLog_error (fun _ => rfl)).1 ⟨hx, hl⟩
          obtain ⟨content, ms', hf', hl', hjm⟩ := batch_listed ha hb hj
          exact .batch hm hcmd hcfg hf' hl' hjm (get_reason ha hg hr hf).1
        · cases List.mem_singleton.1 hx
          cases hl
    | @queryTracker json no req sup t ih tr s r ht hr =>
      cases r with
      | ok ps => cases hx
      | error e =>
        cases List.mem_singleton.1 hx
        refine .queryTracker hm hcmd hcfg (tr := tr) (a := s) ?_ ?_
        · have e : (if req then some TrackerCrypto.required else if sup then some .supported else if no then some .plain else none) =
              trackerCryptoFlags req sup no := by cases req <;> cases sup <;> cases no <;> rfl
          rw [e]; exact ht
        · simp only [askResults, List.mem_filterMap]
          exact ⟨_, hr, rfl⟩
    | dhtError e => cases List.mem_singleton.1 hx; exact .noDht hm hcmd
    | @queryDht json ih lookup my v6 es st tr req found hd hq hans =>
      unfold queryDhtLog at hx
      simp only at hx
      split at hx
      · rename_i he
        cases List.mem_singleton.1 hx
        have := dhtGives_found (m := ⟨ih, none, []⟩) (boot := cfg.dht.bootstrapNodes) (ps := found.peers) (ns := found.closestNodes)
          (.inr ⟨lookup, my, v6, es, st, tr, req, found, hd, hq, hans, rfl⟩)
        rw [List.isEmpty_iff.1 he] at this
        exact .noPeers hm hcmd hcfg this
      · cases hx
    | @queryPeer enc no pre template peer ih effects code mse hq =>
      unfold queryPeerLog at hx
      cases hask : ((W.queryPeerEnv cfg).ask W.sha1 W.H enc pre no peer ih).2 with
      | hang => rw [hask] at hx; cases hx
      | panic => rw [hask] at hx; cases hx
      | err e => rw [hask] at hx; cases List.mem_singleton.1 hx; exact .fetch hm hcmd hcfg hask
      | ok info =>
        rw [hask] at hx
        rcases List.mem_append.1 hx with hx | hx
        · rw [saveLog_level hx] at hl; cases hl
        · split at hx
          · cases hx
          · rename_i es _
            split at hx
            · cases hx
            · rename_i hno
              cases List.mem_singleton.1 hx
              exact .write hm hcmd hcfg hask (performEffects_false (ok := (W.queryPeerEnv cfg).fileOk) (by simpa using hno))

/-- **C78.** What a warning says is so. -/
theorem warnings_true (hdht : DhtConfig.dflt W.parseHost = some W.dht) (h : ProgramLog W args lvl d log) {x : MainLine} (hx : x ∈ log)
    (hl : x.level = .warn) : Warns (cliReaders W.uenv W.lossy) W args x := by
  have hconf : ∀ {l : CommandLine}, ¬ x ∈ W.configLog l := by
    intro l hx
    obtain ⟨-, ⟨rfl, -⟩ | ⟨p, -, rfl | ⟨rfl, -⟩ | ⟨e, rfl, -⟩⟩⟩ := config_log_lines hx <;> cases hl
  cases h with
  | unconfigured hp hc => exact absurd hx hconf
  | @ran l cfg _ clog hp hc hr =>
    have ha := config_accepted hdht hc
    have hm := (command_line_iff _ _ _ _).1 hp
    have hcfg := (program_config hp cfg).1 hc
    rcases List.mem_append.1 hx with hx | hx
    · exact absurd hx hconf
    rcases List.mem_cons.1 hx with rfl | hx
    · cases hl
    have key : ∀ {t : List TemplateElement} {m : Magnet} {now : Except Nat Nat} {fileOk : Nat → Bool}
        {tr : ResolveTrace Tracker Peer SockAddr TorrentInfo TaskError} {s : Resolve Tracker Peer SockAddr SockAddr TorrentInfo TaskError}
        {mse : Peer → MseError} {y : LogLine}, AsksFor (cliReaders W.uenv W.lossy) W args t m →
        GetRun W.sha1 { W.getEnv cfg with now := now, fileOk := fileOk } W.behaves W.answers m tr s → y ∈ getLog m mse tr → x = .about y →
        Warns (cliReaders W.uenv W.lossy) W args x := by
      intro t m now fileOk tr s mse y hask hg hy hxy
      subst hxy
      rcases get_warnings ha hg hy with rfl | ⟨t, e, atr, a, rfl, h1, h2, h3, h4⟩ | ⟨p, e, links, rfl, h1, h2⟩
      · cases hl
      · exact .tracker hask hcfg h1 h2 h3 h4
      · exact .peer hask hcfg h1 h2
    generalize hcmd : l.command = c at hr
    cases hr with
    | @get template m tr s r mse hg hr =>
      obtain ⟨y, hy, hxy⟩ := downloadLog_warn (failed := .getFailed) (fun _ => rfl) hx hl
      exact key (now := W.now) (fileOk := W.fileOk) (.get hm hcmd) hg hy hxy
    | @batch template file tr jobs s code logs jl hb hex hnc hlogs hint =>
      rcases batch_log_cases (log := jl) ha hb hex hnc with ⟨e, h1, h2, -, -⟩ | ⟨-, h2, -, -⟩ | ⟨ms, -, hms, h2, -, -, -, -⟩
      · rw [h2] at hx; cases List.mem_singleton.1 hx; cases hl
      · rw [h2] at hx; cases List.mem_singleton.1 hx; cases hl
      · rw [h2] at hx
        rcases List.mem_append.1 hx with hx | hx
        · obtain ⟨j, hj, l', -, ⟨gtr, gs, mse, hg, hr, rfl⟩, hx⟩ := (mem_jobs_log hlogs hint).1 hx
          obtain ⟨y, hy, hxy⟩ := downloadLog_warn (fun _ => rfl) hx hl
          obtain ⟨content, ms', hf', hl', hjm⟩ := batch_listed ha hb hj
          exact key (.batch hm hcmd hf' hl' hjm) hg hy hxy
        · cases List.mem_singleton.1 hx; cases hl
    | @queryTracker json no req sup t ih tr s r ht hr =>
      cases r with
      | ok ps => cases hx
      | error e => cases List.mem_singleton.1 hx; cases hl
    | dhtError e => cases List.mem_singleton.1 hx; cases hl
    | @queryDht json ih lookup my v6 es st tr req found hd hq hans =>
      unfold queryDhtLog at hx
      simp only at hx
      split at hx
      · cases List.mem_singleton.1 hx; cases hl
      · cases hx
    | @queryPeer enc no pre template peer ih effects code mse hq =>
      unfold queryPeerLog at hx
      split at hx
      · rcases List.mem_append.1 hx with hx | hx
        · rw [saveLog_level hx] at hl; cases hl
        · split at hx
          · cases hx
          · split at hx
            · cases hx
            · cases List.mem_singleton.1 hx; cases hl
      · cases List.mem_singleton.1 hx; cases hl
      · cases hx
      · cases hx

/-- **C78.** When the log says that nothing was found for a link, it says why. -/
theorem vain_told (hdht : DhtConfig.dflt W.parseHost = some W.dht) (h : ProgramLog W args lvl d log) {l : CommandLine}
    (hm : CommandLineMeans (cliReaders W.uenv W.lossy) args l) {cfg : Config} (hcfg : AsksConfig (cliReaders W.uenv W.lossy) W args cfg) :
    (∀ t m, l.command = .get t m → .about (.getFailed .nothingFromPeers) ∈ log → ExplainsVain W cfg m log) ∧
    (∀ m, .about (.batchFailed m .nothingFromPeers) ∈ log → ExplainsVain W cfg m log) := by
  have hp := (command_line_iff _ _ _ _).2 hm
  have hc := (program_config hp cfg).2 hcfg
  cases h with
  | unconfigured hp' hc' => rw [hp] at hp'; cases hp'; rw [hc] at hc'; cases hc'
  | @ran _ _ _ clog hp' hc' hr =>
    rw [hp] at hp'; cases hp'
    rw [hc] at hc'; cases hc'
    have ha := config_accepted hdht hc
    obtain ⟨-, hT, hP⟩ := accepted_usable (env := W.getEnv cfg) ha
    have hin : ∀ {y : LogLine}, y.level = .error → MainLine.about y ∈ W.configLog l ++ .localPeer W.localId W.key W.port :: clog →
        MainLine.about y ∈ clog := by
      intro y hy hx
      rcases List.mem_append.1 hx with hx | hx
      · obtain ⟨-, ⟨hx, -⟩ | ⟨p, -, hx | ⟨hx, -⟩ | ⟨e, hx, -⟩⟩⟩ := config_log_lines hx <;> cases hx
      · rcases List.mem_cons.1 hx with hx | hx
        · cases hx
        · exact hx
    have hup : ∀ {x : MainLine}, x ∈ clog → x ∈ W.configLog l ++ .localPeer W.localId W.key W.port :: clog :=
      fun h => List.mem_append_right _ (List.mem_cons_of_mem _ h)
    constructor
    · intro t m hcmd hx
      have hx := hin rfl hx
      rw [hcmd] at hr
      cases hr with
      | @get _ _ tr s r mse hg hr =>
        obtain ⟨f, hf, he⟩ := (downloadLog_error (failed := .getFailed) (fun _ => rfl)).1 ⟨hx, rfl⟩
        cases he
        have hn := (getFailure_reason hT hP hg hr hf).2.1 rfl
        refine get_explains (now := W.now) (fileOk := W.fileOk) (mse := mse) ha hg hn fun y hy => hup ?_
        unfold downloadLog
        exact List.mem_append_left _ (List.mem_append_left _ (List.mem_map_of_mem hy))
    · intro m hx
      have hx := hin rfl hx
      generalize l.command = c at hr
      cases hr with
      | @get _ m' tr s r mse hg hr =>
        obtain ⟨f, hf, he⟩ := (downloadLog_error (failed := .getFailed) (fun _ => rfl)).1 ⟨hx, rfl⟩
        cases he
      | @batch template file tr jobs s code logs jl hb hex hnc hlogs hint =>
        rcases batch_log_cases (log := jl) ha hb hex hnc with ⟨e, h1, h2, -, -⟩ | ⟨-, h2, -, -⟩ | ⟨ms, -, hms, h2, -, -, -, -⟩
        · rw [h2] at hx; cases List.mem_singleton.1 hx
        · rw [h2] at hx; cases List.mem_singleton.1 hx
        · rw [h2] at hx hup
          rcases List.mem_append.1 hx with hx | hx
          · obtain ⟨j, hj, l', hl', hjl, hx⟩ := (mem_jobs_log hlogs hint).1 hx
            obtain ⟨gtr, gs, mse, hg, hr, rfl⟩ := id hjl
            obtain ⟨f, hf, he⟩ := (downloadLog_error (fun _ => rfl)).1 ⟨hx, rfl⟩
            cases he
            have hn := (getFailure_reason (env := { W.getEnv cfg with now := j.now, fileOk := j.fileOk }) hT hP hg hr hf).2.1 rfl
            rw [h2]
            refine get_explains (mse := mse) ha hg hn fun y hy => hup (List.mem_append_left _ ?_)
            refine (mem_jobs_log hlogs hint).2 ⟨j, hj, _, hl', hjl, ?_⟩
            unfold downloadLog
            exact List.mem_append_left _ (List.mem_append_left _ (List.mem_map_of_mem hy))
          · cases List.mem_singleton.1 hx
      | @queryTracker json no req sup t ih tr s r ht hr =>
        cases r with
        | ok ps => cases hx
        | error e => cases List.mem_singleton.1 hx
      | dhtError e => cases List.mem_singleton.1 hx
      | @queryDht json ih lookup my v6 es st tr req found hd hq hans =>
        unfold queryDhtLog at hx
        simp only at hx
        split at hx
        · cases List.mem_singleton.1 hx
        · cases hx
      | @queryPeer enc no pre template peer ih effects code mse hq =>
        unfold queryPeerLog at hx
        split at hx
        · rcases List.mem_append.1 hx with hx | hx
          · obtain ⟨o, ho⟩ := saveLog_only hx; cases ho
          · split at hx
            · cases hx
            · split at hx
              · cases hx
              · cases List.mem_singleton.1 hx
        · cases List.mem_singleton.1 hx
        · cases hx
        · cases hx

theorem job_failed {cfg : Config} (ha : Accepted cfg) {template : List TemplateElement} {j : BatchJob} {jl : List MainLine}
    (hrun : j.Runs W.sha1 (W.getEnv cfg) W.behaves W.answers template)
    (hj : j.Logs W.sha1 (W.getEnv cfg) W.behaves W.answers template jl) : failedLinks jl = if j.code = .failure then [j.link] else [] := by
  obtain ⟨-, hT, hP⟩ := accepted_usable (env := W.getEnv cfg) ha
  obtain ⟨gtr, gs, mse, hg, hr, rfl⟩ := hj
  have hcode : (getEffects { W.getEnv cfg with now := j.now, fileOk := j.fileOk } template j.result).2 = j.code := by rw [hrun.2]
  have hiff := getFailure_iff (env := { W.getEnv cfg with now := j.now, fileOk := j.fileOk }) hT hP hg hr template
  rw [hcode] at hiff
  have h1 : failedLinks ((getLog j.link mse gtr).map .about) = [] := by
    unfold failedLinks
    rw [List.filterMap_eq_nil_iff]
    intro x hx
    obtain ⟨y, hy, rfl⟩ := List.mem_map.1 hx
    rcases mem_getLog.1 hy with rfl | ⟨_, _, _, _, _, -, -, rfl⟩ | ⟨_, _, -, rfl⟩ <;> rfl
  have h2 : failedLinks (resultLog { W.getEnv cfg with now := j.now, fileOk := j.fileOk } j.link template j.result) = [] := by
    unfold failedLinks
    rw [List.filterMap_eq_nil_iff]
    intro x hx
    unfold resultLog at hx
    split at hx
    · obtain ⟨o, rfl⟩ := saveLog_only hx; rfl
    · cases hx
  unfold downloadLog
  unfold failedLinks at h1 h2 ⊢
  rw [List.filterMap_append, List.filterMap_append, h1, h2]
  cases hf : getFailure { W.getEnv cfg with now := j.now, fileOk := j.fileOk } template j.result with
  | none =>
    rw [if_neg]
    · rfl
    · intro hc
      obtain ⟨f, hf'⟩ := hiff.1 hc
      rw [hf] at hf'
      cases hf'
  | some f => rw [if_pos (hiff.2 ⟨f, hf⟩)]; rfl

theorem jobs_failed {cfg : Config} (ha : Accepted cfg) {template : List TemplateElement} {jobs : List BatchJob} {logs : List (List MainLine)}
    (hrun : ∀ j ∈ jobs, j.Runs W.sha1 (W.getEnv cfg) W.behaves W.answers template)
    (hlogs : List.Forall₂ (BatchJob.Logs W.sha1 (W.getEnv cfg) W.behaves W.answers template) jobs logs) :
    failedLinks logs.flatten = (jobs.filter fun j => j.code = .failure).map BatchJob.link := by
  induction hlogs with
  | nil => rfl
  | @cons j jl js ls h _ ih =>
    have h1 := job_failed ha (hrun j (by simp)) h
    have h2 := ih fun j hj => hrun j (by simp [hj])
    unfold failedLinks at h1 h2 ⊢
    rw [List.flatten_cons, List.filterMap_append, h1, h2, List.filter_cons]
    by_cases hc : j.code = .failure <;> simp [hc]

/-- **C78.** The log of a batch accounts for every link: its last message says how many links there were and for how many of them torrent files
were written; it names each of the others (as often as it is listed); and the batch is successful if it names none.  If there were no links, it
says so. -/
theorem batch_summary (hdht : DhtConfig.dflt W.parseHost = some W.dht) (h : ProgramLog W args lvl d log) {l : CommandLine}
    (hm : CommandLineMeans (cliReaders W.uenv W.lossy) args l) {cfg : Config} (hcfg : AsksConfig (cliReaders W.uenv W.lossy) W args cfg)
    {t : List TemplateElement} {f : InputArg} (hcmd : l.command = .batch t f) {content : Bytes} {ms : List Magnet}
    (hf : W.inputs f = some content) (hl : ListsLinks W.uenv W.lossy content ms) :
    (ms = [] → d.code = some .success ∧ log.getLast? = some .noMagnets) ∧
    (ms ≠ [] → ∃ good, log.getLast? = some (.converted good.length ms.length) ∧ (good ++ failedLinks log).Perm ms ∧
      (writesOf d.effects).length = good.length ∧
      (∀ m ∈ good, ∃ out bytes, (out, bytes) ∈ writesOf d.effects ∧ TorrentFor W.sha1 W.lossy ipText t m out bytes) ∧
      (d.code = some .success ↔ failedLinks log = []) ∧ d.code ≠ some .crash) := by
  have hp := (command_line_iff _ _ _ _).2 hm
  have hc := (program_config hp cfg).2 hcfg
  have hms := (batchLinks_iff W.uenv W.lossy (W.inputs f) ms).2 ⟨content, hf, hl⟩
  cases h with
  | unconfigured hp' hc' => rw [hp] at hp'; cases hp'; rw [hc] at hc'; cases hc'
  | @ran _ _ _ clog hp' hc' hr =>
    rw [hp] at hp'; cases hp'
    rw [hc] at hc'; cases hc'
    have ha := config_accepted hdht hc
    rw [hcmd] at hr
    have hlast : ∀ {x : MainLine} {pre : List MainLine}, (W.configLog l ++ .localPeer W.localId W.key W.port :: (pre ++ [x])).getLast? = some x := by
      intro x pre
      rw [show W.configLog l ++ MainLine.localPeer W.localId W.key W.port :: (pre ++ [x]) =
        (W.configLog l ++ MainLine.localPeer W.localId W.key W.port :: pre) ++ [x] by simp, List.getLast?_concat]
    have hfl : ∀ {cl : List MainLine}, failedLinks (W.configLog l ++ .localPeer W.localId W.key W.port :: cl) = failedLinks cl := by
      intro cl
      have h0 : failedLinks (W.configLog l) = [] := by
        unfold failedLinks
        rw [List.filterMap_eq_nil_iff]
        intro x hx
        obtain ⟨-, ⟨rfl, -⟩ | ⟨p, -, rfl | ⟨rfl, -⟩ | ⟨e, rfl, -⟩⟩⟩ := config_log_lines hx <;> rfl
      unfold failedLinks at h0 ⊢
      rw [List.filterMap_append, h0]
      rfl
    cases hr with
    | @batch _ _ tr jobs s code logs jl hb hex hnc hlogs hint =>
      rcases batch_log_cases (log := jl) ha hb hex hnc with ⟨e, h1, -, -, -⟩ | ⟨h1, h2, rfl, -⟩ | ⟨ms', hne, h1, h2, hperm, hnj, hcode, htot, hsuc⟩
      · rw [(magnetsFailure_none _ _ _).2 ⟨ms, hms⟩] at h1; cases h1
      · rw [hms] at h1
        cases h1
        exact ⟨fun _ => ⟨rfl, by rw [h2]; exact hlast (pre := [])⟩, fun h => absurd rfl h⟩
      · rw [hms] at h1
        cases h1
        refine ⟨fun h => absurd h hne, fun _ => ⟨(jobs.filter fun j => j.code = .success).map BatchJob.link, ?_, ?_, ?_, ?_, ?_, ?_⟩⟩
        · rw [h2, hlast, hsuc, htot, List.length_map, ← List.countP_eq_length_filter, ← hperm.length_eq, List.length_map]
        · rw [hfl, h2]
          have hconv : failedLinks (jl ++ [.converted s.success s.total]) = failedLinks jl := by simp [failedLinks]
          rw [hconv]
          have hp1 : (failedLinks jl).Perm ((jobs.filter fun j => j.code = .failure).map BatchJob.link) := by
            rw [← jobs_failed ha hb.job hlogs]
            exact (interleaves_perm hint).filterMap _
          refine (List.Perm.append_left _ hp1).trans ?_
          rw [← List.map_append]
          refine List.Perm.trans (List.Perm.map _ ?_) hperm
          have hcongr : jobs.filter (fun j => decide (j.code = .failure)) = jobs.filter (fun j => !decide (j.code = .success)) := by
            refine List.filter_congr fun j hj => ?_
            have := hnj j hj
            cases hjc : j.code <;> simp_all
          rw [hcongr]
          exact List.filter_append_perm _ _
        · simp only [writesOf_flatMap, List.length_map]
          have : ∀ js : List BatchJob, (∀ j ∈ js, j ∈ jobs) → (js.flatMap fun j => writesOf j.effects).length =
              (js.filter fun j => j.code = .success).length := by
            intro js
            induction js with
            | nil => intro _; rfl
            | cons j js ih =>
              intro hjs
              have hj := hjs j (by simp)
              have ih := ih fun k hk => hjs k (by simp [hk])
              obtain ⟨⟨gtr, gs, hg, hres⟩, he⟩ := hb.job j hj
              obtain ⟨w1, w2⟩ := get_written (template := t) ha hg hres
              rw [he] at w1 w2
              rw [List.flatMap_cons, List.length_append, ih, List.filter_cons]
              by_cases hs : j.code = .success
              · obtain ⟨o, b, e, -⟩ := w1 hs
                simp only [e, hs, decide_true, if_true, List.length_cons, List.length_nil]
                omega
              · simp only [w2 hs, hs, decide_false, Bool.false_eq_true, if_false, List.length_nil, Nat.zero_add]
          exact this jobs fun _ h => h
        · intro m hm
          obtain ⟨j, hj, rfl⟩ := List.mem_map.1 hm
          obtain ⟨hj, hs⟩ := List.mem_filter.1 hj
          obtain ⟨⟨gtr, gs, hg, hres⟩, he⟩ := hb.job j hj
          obtain ⟨w1, -⟩ := get_written (template := t) ha hg hres
          rw [he] at w1
          obtain ⟨o, b, e, ht⟩ := w1 (by simpa using hs)
          refine ⟨o, b, ?_, ht⟩
          simp only [writesOf_flatMap, List.mem_flatMap]
          exact ⟨j, hj, by rw [e]; simp⟩
        · rw [hfl, h2]
          have hconv : failedLinks (jl ++ [.converted s.success s.total]) = failedLinks jl := by simp [failedLinks]
          have hp1 : (failedLinks jl).Perm ((jobs.filter fun j => j.code = .failure).map BatchJob.link) := by
            rw [← jobs_failed ha hb.job hlogs]
            exact (interleaves_perm hint).filterMap _
          rw [hconv]
          have hnil : failedLinks jl = [] ↔ ¬ ∃ j ∈ jobs, j.code = .failure := by
            constructor
            · intro h0
              rw [h0] at hp1
              have := List.map_eq_nil_iff.1 hp1.symm.eq_nil
              rintro ⟨j, hj, hjc⟩
              have := List.filter_eq_nil_iff.1 this j hj
              simp [hjc] at this
            · intro hno
              have : jobs.filter (fun j => decide (j.code = .failure)) = [] := by
                rw [List.filter_eq_nil_iff]
                intro j hj hjc
                exact hno ⟨j, hj, by simpa using hjc⟩
              rw [this] at hp1
              exact hp1.eq_nil
          rw [hnil, ← hcode]
          cases code with
          | success => simp
          | failure => simp
          | crash => exact absurd rfl hnc
        · simpa using hnc

theorem download_saving {cfg : Config} (ha : Accepted cfg) {now : Except Nat Nat} {fileOk : Nat → Bool} {m : Magnet}
    {tr : ResolveTrace Tracker Peer SockAddr TorrentInfo TaskError} {s : Resolve Tracker Peer SockAddr SockAddr TorrentInfo TaskError}
    {r : Resolved Tracker SockAddr TorrentInfo TaskError}
    (hg : GetRun W.sha1 { W.getEnv cfg with now := now, fileOk := fileOk } W.behaves W.answers m tr s) (hr : s.result = some r)
    {template : List TemplateElement} {mse : Peer → MseError} {failed : DownloadFailure → LogLine} {m' : Magnet} {out : Output}
    (hx : .saving m' out ∈ downloadLog { W.getEnv cfg with now := now, fileOk := fileOk } template m mse failed tr r) :
    m' = m ∧ PlaceFor W template m out := by
  obtain ⟨-, hT, hP⟩ := accepted_usable (env := W.getEnv cfg) ha
  unfold downloadLog at hx
  simp only [List.mem_append, List.mem_map, Option.mem_toList] at hx
  rcases hx with (⟨y, hy, hxy⟩ | hx) | ⟨f, -, hxy⟩
  · cases hxy
  · cases r with
    | file info ts ns =>
      obtain ⟨dht, hd, hrun⟩ := hg.run
      obtain ⟨h1, h2, h3, -⟩ := download_authentic hT hP hrun hr
      obtain ⟨o, he, hp⟩ := saveLog_place h1 h2 h3 hx
      cases he
      exact ⟨rfl, hp⟩
    | nothing => cases hx
    | dht e => cases hx
    | panicked => cases hx
  · cases hxy

/-- **C78.** What the log says about saving is so: metadata for a link that was asked for was received, and its torrent file belongs there. -/
theorem saving_true (hdht : DhtConfig.dflt W.parseHost = some W.dht) (h : ProgramLog W args lvl d log) {m : Magnet} {out : Output}
    (hx : .saving m out ∈ log) : ∃ t, AsksFor (cliReaders W.uenv W.lossy) W args t m ∧ PlaceFor W t m out := by
  have hconf : ∀ {l : CommandLine}, ¬ MainLine.saving m out ∈ W.configLog l := by
    intro l hx
    obtain ⟨-, ⟨hx, -⟩ | ⟨p, -, hx | ⟨hx, -⟩ | ⟨e, hx, -⟩⟩⟩ := config_log_lines hx <;> cases hx
  cases h with
  | unconfigured hp hc => exact absurd hx hconf
  | @ran l cfg _ clog hp hc hr =>
    have ha := config_accepted hdht hc
    have hm := (command_line_iff _ _ _ _).1 hp
    rcases List.mem_append.1 hx with hx | hx
    · exact absurd hx hconf
    rcases List.mem_cons.1 hx with hx | hx
    · cases hx
    generalize hcmd : l.command = c at hr
    cases hr with
    | @get template m' tr s r mse hg hr =>
      obtain ⟨rfl, hp⟩ := download_saving (now := W.now) (fileOk := W.fileOk) ha hg hr hx
      exact ⟨_, .get hm hcmd, hp⟩
    | @batch template file tr jobs s code logs jl hb hex hnc hlogs hint =>
      rcases batch_log_cases (log := jl) ha hb hex hnc with ⟨e, h1, h2, -, -⟩ | ⟨-, h2, -, -⟩ | ⟨ms, -, hms, h2, -, -, -, -⟩
      · rw [h2] at hx; cases List.mem_singleton.1 hx
      · rw [h2] at hx; cases List.mem_singleton.1 hx
      · rw [h2] at hx
        rcases List.mem_append.1 hx with hx | hx
        · obtain ⟨j, hj, l', -, ⟨gtr, gs, mse, hg, hr, rfl⟩, hx⟩ := (mem_jobs_log hlogs hint).1 hx
          obtain ⟨rfl, hp⟩ := download_saving ha hg hr hx
          obtain ⟨content, ms', hf', hl', hjm⟩ := batch_listed ha hb hj
          exact ⟨_, .batch hm hcmd hf' hl' hjm, hp⟩
        · cases List.mem_singleton.1 hx
    | @queryTracker json no req sup t ih tr s r ht hr =>
      cases r with
      | ok ps => cases hx
      | error e => cases List.mem_singleton.1 hx
    | dhtError e => cases List.mem_singleton.1 hx
    | @queryDht json ih lookup my v6 es st tr req found hd hq hans =>
      unfold queryDhtLog at hx
      simp only at hx
      split at hx
      · cases List.mem_singleton.1 hx
      · cases hx
    | @queryPeer enc no pre template peer ih effects code mse hq =>
      unfold queryPeerLog at hx
      split at hx
      · rename_i info hinfo
        rcases List.mem_append.1 hx with hx | hx
        · obtain ⟨links, hlinks, hask⟩ := ask_run W.sha1 W.H (W.queryPeerEnv cfg) enc pre no peer ih
          have hr := run_spec W.sha1 links ⟨ih, (W.queryPeerEnv cfg).localId, peer.address.ip⟩ (queryPeerMode enc pre no) (W.queryPeerEnv cfg).pref
            peer.requiresCrypto
          rw [hask] at hinfo
          rw [hinfo] at hr
          obtain ⟨h1, h2, h3, -⟩ := run_success hr
          obtain ⟨o, he, hp⟩ := saveLog_place (m := ⟨ih, none, []⟩) h1 h2 h3 hx
          cases he
          exact ⟨_, .peer hm hcmd, hp⟩
        · split at hx
          · cases hx
          · split at hx
            · cases hx
            · cases List.mem_singleton.1 hx
      · cases List.mem_singleton.1 hx
      · cases hx
      · cases hx

theorem download_told {env : GetEnv} {template : List TemplateElement} {m : Magnet} {mse : Peer → MseError} {failed : DownloadFailure → LogLine}
    {tr : ResolveTrace Tracker Peer SockAddr TorrentInfo TaskError} {r : Resolved Tracker SockAddr TorrentInfo TaskError} {out : Output}
    {bytes : Bytes} (hw : (out, bytes) ∈ writesOf (getEffects env template r).1) : .saving m out ∈ downloadLog env template m mse failed tr r := by
  unfold downloadLog
  refine List.mem_append_left _ (List.mem_append_right _ ?_)
  unfold getEffects at hw
  rw [mem_writesOf] at hw
  cases r with
  | file info ts ns =>
    split at hw
    · cases hw
    · rename_i es he
      exact save_told (t := TorrentFile.new env.now info (ts.map Tracker.urlString) ns) he m (performEffects_subset hw)
  | nothing => simp [downloadEffects, performEffects] at hw
  | dht e => simp [downloadEffects, performEffects] at hw
  | panicked => simp [downloadEffects] at hw

/-- **C78.** No file is written that the log does not tell of. -/
theorem writes_told (hdht : DhtConfig.dflt W.parseHost = some W.dht) (h : ProgramLog W args lvl d log) {out : Output} {bytes : Bytes}
    (hw : (out, bytes) ∈ writesOf d.effects) : ∃ m, .saving m out ∈ log := by
  cases h with
  | unconfigured hp hc => cases hw
  | @ran l cfg _ clog hp hc hr =>
    have ha := config_accepted hdht hc
    suffices h : ∃ m, .saving m out ∈ clog by
      obtain ⟨m, h⟩ := h
      exact ⟨m, List.mem_append_right _ (List.mem_cons_of_mem _ h)⟩
    generalize l.command = c at hr
    cases hr with
    | @get template m' tr s r mse hg hr => exact ⟨_, download_told hw⟩
    | @batch template file tr jobs s code logs jl hb hex hnc hlogs hint =>
      simp only [writesOf_flatMap, List.mem_flatMap] at hw
      obtain ⟨j, hj, hw⟩ := hw
      rcases batch_log_cases (log := jl) ha hb hex hnc with ⟨e, -, -, -, h3⟩ | ⟨-, -, -, h3⟩ | ⟨ms, -, hms, h2, -, -, -, -⟩
      · rw [h3] at hj; cases hj
      · rw [h3] at hj; cases hj
      · rw [h2]
        obtain ⟨l', hl', hjl⟩ := forall₂_right hlogs hj
        obtain ⟨gtr, gs, mse, hg, hr, rfl⟩ := id hjl
        refine ⟨j.link, List.mem_append_left _ ((mem_jobs_log hlogs hint).2 ⟨j, hj, _, hl', hjl, download_told (bytes := bytes) ?_⟩)⟩
        · rw [(hb.job j hj).2]; exact hw
    | queryTracker => cases hw
    | dhtError e => cases hw
    | queryDht => cases hw
    | @queryPeer enc no pre template peer ih effects code mse hq =>
      unfold queryPeer at hq
      cases hr : ((W.queryPeerEnv cfg).ask W.sha1 W.H enc pre no peer ih).2 with
      | ok info =>
        rw [hr] at hq
        simp only at hq
        split at hq
        · cases hq; cases hw
        · rename_i es he
          cases hq
          exact ⟨_, List.mem_append_left _ (save_told he _ (performEffects_subset (mem_writesOf.1 hw)))⟩
      | err e => rw [hr] at hq; cases hq; cases hw
      | panic => rw [hr] at hq; cases hq; cases hw
      | hang => rw [hr] at hq; cases hq

/-- **C78.** The log says of each link that was asked for (with `get` or `batch`) that its metadata are fetched. -/
theorem fetch_told (hdht : DhtConfig.dflt W.parseHost = some W.dht) (h : ProgramLog W args lvl d log) {l : CommandLine}
    (hm : CommandLineMeans (cliReaders W.uenv W.lossy) args l) {cfg : Config} (hcfg : AsksConfig (cliReaders W.uenv W.lossy) W args cfg) :
    (∀ t m, l.command = .get t m → .about (.fetching m) ∈ log) ∧
    (∀ t f content ms m, l.command = .batch t f → W.inputs f = some content → ListsLinks W.uenv W.lossy content ms → m ∈ ms →
      .about (.fetching m) ∈ log) := by
  have hp := (command_line_iff _ _ _ _).2 hm
  have hc := (program_config hp cfg).2 hcfg
  have hfirst : ∀ {env : GetEnv} {template : List TemplateElement} {m : Magnet} {mse : Peer → MseError} {failed : DownloadFailure → LogLine}
      {tr : ResolveTrace Tracker Peer SockAddr TorrentInfo TaskError} {r : Resolved Tracker SockAddr TorrentInfo TaskError},
      MainLine.about (.fetching m) ∈ downloadLog env template m mse failed tr r := by
    intro env template m mse failed tr r
    unfold downloadLog getLog
    simp
  cases h with
  | unconfigured hp' hc' => rw [hp] at hp'; cases hp'; rw [hc] at hc'; cases hc'
  | @ran _ _ _ clog hp' hc' hr =>
    rw [hp] at hp'; cases hp'
    rw [hc] at hc'; cases hc'
    have ha := config_accepted hdht hc
    constructor
    · intro t m hcmd
      rw [hcmd] at hr
      cases hr with
      | get mse hg hr => exact List.mem_append_right _ (List.mem_cons_of_mem _ hfirst)
    · intro t f content ms m hcmd hf hl hmm
      rw [hcmd] at hr
      have hms := (batchLinks_iff W.uenv W.lossy (W.inputs f) ms).2 ⟨content, hf, hl⟩
      refine List.mem_append_right _ (List.mem_cons_of_mem _ ?_)
      cases hr with
      | @batch _ _ tr jobs s code logs jl hb hex hnc hlogs hint =>
        rcases batch_log_cases (log := jl) ha hb hex hnc with ⟨e, h1, -, -, -⟩ | ⟨h1, -, -, -⟩ | ⟨ms', -, h1, h2, hperm, -, -, -⟩
        · rw [(magnetsFailure_none _ _ _).2 ⟨ms, hms⟩] at h1; cases h1
        · rw [hms] at h1; cases h1; cases hmm
        · rw [hms] at h1; cases h1
          rw [h2]
          obtain ⟨j, hj, rfl⟩ := List.mem_map.1 (hperm.mem_iff.2 hmm)
          obtain ⟨l', hl', hjl⟩ := forall₂_right hlogs hj
          obtain ⟨gtr, gs, mse, hg, hr, rfl⟩ := id hjl
          exact List.mem_append_left _ ((mem_jobs_log hlogs hint).2 ⟨j, hj, _, hl', hjl, hfirst⟩)

/-- **C78.** The log tells which configuration file is used, and whether the default one is missing. -/
theorem config_told (h : ProgramLog W args lvl d log) {l : CommandLine} (hm : CommandLineMeans (cliReaders W.uenv W.lossy) args l) :
    l.logLevel = lvl ∧
    (∀ p, .readingConfig p ∈ log ↔ l.noConfig = false ∧ (l.config = some p ∨ l.config = none ∧ W.defaultPath = some p)) ∧
    (.noConfigFile ∈ log ↔ l.noConfig = false ∧ l.config = none ∧ ∃ p, W.defaultPath = some p ∧ W.configs p = .notFound) := by
  have hp := (command_line_iff _ _ _ _).2 hm
  have hr : ∀ p, .readingConfig p ∈ W.configLog l ↔ l.noConfig = false ∧ (l.config = some p ∨ l.config = none ∧ W.defaultPath = some p) := by
    intro p
    unfold World.configLog configLog
    cases l.noConfig with
    | true => simp
    | false =>
      cases l.config with
      | some q =>
        simp only [Bool.false_eq_true, if_false, id]
        cases Config.load W.parseToml W.parseHost W.dht (W.configs q) <;> simp [eq_comm]
      | none =>
        cases W.defaultPath with
        | none => simp
        | some q =>
          simp only [Bool.false_eq_true, if_false, id]
          cases Config.load W.parseToml W.parseHost W.dht (W.configs q) with
          | ok c => simp [eq_comm]
          | error e => by_cases he : e = .notFound <;> simp [he, eq_comm]
  have hn : .noConfigFile ∈ W.configLog l ↔ l.noConfig = false ∧ l.config = none ∧ ∃ p, W.defaultPath = some p ∧ W.configs p = .notFound := by
    constructor
    · intro hx
      obtain ⟨h1, ⟨hx, -⟩ | ⟨p, h2, hx | ⟨-, h3, h4⟩ | ⟨e, hx, -⟩⟩⟩ := config_log_lines hx
      · cases hx
      · cases hx
      · rcases h2 with h2 | ⟨-, h2⟩
        · rw [h3] at h2; cases h2
        · exact ⟨h1, h3, p, h2, h4⟩
      · cases hx
    · rintro ⟨h1, h2, p, h3, h4⟩
      unfold World.configLog configLog
      simp [h1, h2, h3, h4, Config.load]
  cases h with
  | unconfigured hp' hc' => rw [hp] at hp'; cases hp'; exact ⟨rfl, hr, hn⟩
  | @ran _ cfg _ clog hp' hc' hcl =>
    rw [hp] at hp'; cases hp'
    refine ⟨rfl, ?_⟩
    suffices hno : ∀ x ∈ clog, x ≠ .noConfigFile ∧ ∀ p, x ≠ .readingConfig p by
      constructor
      · intro p
        rw [← hr p]
        constructor
        · intro hx
          rcases List.mem_append.1 hx with hx | hx
          · exact hx
          · rcases List.mem_cons.1 hx with hx | hx
            · cases hx
            · exact absurd rfl ((hno _ hx).2 p)
        · exact List.mem_append_left _
      · rw [← hn]
        constructor
        · intro hx
          rcases List.mem_append.1 hx with hx | hx
          · exact hx
          · rcases List.mem_cons.1 hx with hx | hx
            · cases hx
            · exact absurd rfl (hno _ hx).1
        · exact List.mem_append_left _
    have hdl : ∀ {env : GetEnv} {template : List TemplateElement} {m : Magnet} {mse : Peer → MseError} {failed : DownloadFailure → LogLine}
        {tr : ResolveTrace Tracker Peer SockAddr TorrentInfo TaskError} {r : Resolved Tracker SockAddr TorrentInfo TaskError},
        ∀ x ∈ downloadLog env template m mse failed tr r, x ≠ .noConfigFile ∧ ∀ p, x ≠ .readingConfig p := by
      intro env template m mse failed tr r x hx
      unfold downloadLog at hx
      simp only [List.mem_append, List.mem_map, Option.mem_toList] at hx
      rcases hx with (⟨y, hy, rfl⟩ | hx) | ⟨f, -, rfl⟩
      · simp
      · unfold resultLog at hx
        split at hx
        · obtain ⟨o, rfl⟩ := saveLog_only hx; simp
        · cases hx
      · simp
    intro x hx
    generalize l.command = c at hcl
    cases hcl with
    | get mse hg hr => exact hdl x hx
    | @batch template file tr jobs s code logs jl hb hex hnc hlogs hint =>
      unfold batchLog at hx
      split at hx
      · cases List.mem_singleton.1 hx; simp
      · split at hx
        · rcases List.mem_append.1 hx with hx | hx
          · obtain ⟨j, hj, l', -, ⟨gtr, gs, mse, hg, hr, rfl⟩, hx⟩ := (mem_jobs_log hlogs hint).1 hx
            exact hdl x hx
          · cases List.mem_singleton.1 hx; simp
        · cases List.mem_singleton.1 hx; simp
    | @queryTracker json no req sup t ih tr s r ht hr =>
      cases r with
      | ok ps => cases hx
      | error e => cases List.mem_singleton.1 hx; simp
    | dhtError e => cases List.mem_singleton.1 hx; simp
    | @queryDht json ih lookup my v6 es st tr req found hd hq hans =>
      unfold queryDhtLog at hx
      simp only at hx
      split at hx
      · cases List.mem_singleton.1 hx; simp
      · cases hx
    | @queryPeer enc no pre template peer ih effects code mse hq =>
      unfold queryPeerLog at hx
      split at hx
      · rcases List.mem_append.1 hx with hx | hx
        · obtain ⟨o, rfl⟩ := saveLog_only hx; simp
        · split at hx
          · cases hx
          · split at hx
            · cases hx
            · cases List.mem_singleton.1 hx; simp
      · cases List.mem_singleton.1 hx; simp
      · cases hx
      · cases hx

/-- Runs with a log are runs of the program. -/
theorem log_run (h : ProgramLog W args lvl d log) : ProgramRun W args d := by
  cases h with
  | unconfigured hp hc => exact .unconfigured hp hc
  | @ran l cfg _ clog hp hc hr =>
    refine .ran hp hc ?_
    generalize l.command = c at hr
    cases hr with
    | get mse hg hr => exact .get hg hr
    | batch hb hex hnc hlogs hint => exact .batch hb hex
    | queryTracker h1 h2 => exact .queryTracker h1 h2
    | dhtError e => exact .dhtError
    | queryDht h1 h2 h3 => exact .queryDht h1 h2 h3
    | queryPeer mse h => exact .queryPeer h

theorem forall₂_exists {α β : Type} {R : α → β → Prop} : ∀ {as : List α}, (∀ a ∈ as, ∃ b, R a b) → ∃ bs, List.Forall₂ R as bs := by
  intro as
  induction as with
  | nil => intro _; exact ⟨[], .nil⟩
  | cons a as ih =>
    intro h
    obtain ⟨b, hb⟩ := h a (by simp)
    obtain ⟨bs, hbs⟩ := ih fun a ha => h a (by simp [ha])
    exact ⟨b :: bs, .cons hb hbs⟩

/-- **C78.** Every run of the program that ends with success or failure has a log (so that what is said here of runs with a log is said of all of
them). -/
theorem run_log (h : ProgramRun W args d) (hc : d.code = some .success ∨ d.code = some .failure) : ∃ lvl log, ProgramLog W args lvl d log := by
  cases h with
  | refused => rcases hc with hc | hc <;> cases hc
  | unconfigured hp hc' => exact ⟨_, _, .unconfigured hp hc'⟩
  | @ran l cfg _ hp hcf hr =>
    suffices hl : ∃ log, CommandLog W cfg l.command d log by
      obtain ⟨log, hl⟩ := hl
      exact ⟨_, _, .ran hp hcf hl⟩
    generalize l.command = c at hr
    cases hr with
    | get hg hr => exact ⟨_, .get (fun _ => .vcNotZero) hg hr⟩
    | @batch template file tr jobs s code hb hex =>
      have hlogs : ∃ logs, List.Forall₂ (BatchJob.Logs W.sha1 (W.getEnv cfg) W.behaves W.answers template) jobs logs := by
        refine forall₂_exists fun j hj => ?_
        obtain ⟨⟨gtr, gs, hg, hres⟩, -⟩ := hb.job j hj
        exact ⟨_, gtr, gs, fun _ => .vcNotZero, hg, hres, rfl⟩
      obtain ⟨logs, hlogs⟩ := hlogs
      refine ⟨_, .batch hb hex ?_ hlogs (interleaves_flatten logs)⟩
      rintro rfl
      rcases hc with hc | hc <;> cases hc
    | queryTracker h1 h2 => exact ⟨_, .queryTracker h1 h2⟩
    | dhtError => exact ⟨_, .dhtError .create⟩
    | queryDht h1 h2 h3 => exact ⟨_, .queryDht h1 h2 h3⟩
    | queryPeer h => exact ⟨_, .queryPeer .vcNotZero h⟩

end

/-! ### Examples -/

-- `demagnetize -cmy.toml batch -o {name} -` ends successfully: there is a log, without errors, which tells of a file
example : ∃ answers lvl d log, ProgramLog (exWorld answers) (["-cmy.toml", "batch", "-o", "{name}", "-"].map String.toList) lvl d log ∧
    d.code = some .success ∧ (∀ x ∈ log, x.level ≠ .error) ∧ ∃ m out, .saving m out ∈ log := by
  obtain ⟨answers, d, h, hc, hw⟩ := exProgram_run
  obtain ⟨lvl, log, hl⟩ := run_log h (.inl hc)
  have hdht : DhtConfig.dflt (exWorld answers).parseHost = some (exWorld answers).dht := by
    show DhtConfig.dflt exHosts = some ⟨exNodes, 2⟩
    decide +kernel
  refine ⟨answers, lvl, d, log, hl, hc, fun x hx he => ?_, ?_⟩
  · have := (failure_told hdht hl).2 ⟨x, hx, he⟩
    rw [hc] at this
    cases this
  · obtain ⟨⟨out, bytes⟩, hm⟩ := List.exists_mem_of_ne_nil _ hw
    obtain ⟨m, hm⟩ := writes_told hdht hl hm
    exact ⟨m, out, hm⟩

-- a configuration file that does not exist
example : ∃ d log, ProgramLog (exWorld fun _ _ => True) (["-cyour.toml", "batch", "-"].map String.toList) .info d log ∧
    d.code = some .failure ∧ log = [.readingConfig "your.toml".toList, .badConfig "your.toml".toList .notFound] := by
  have key : (CommandLine.parse nameEnv lossyUtf8 (["-cyour.toml", "batch", "-"].map String.toList)).map
      (fun l => (l.config, l.noConfig, l.logLevel)) = some (some "your.toml".toList, false, .info) := by decide +kernel
  obtain ⟨l, hl, e⟩ := Option.map_eq_some_iff.1 key
  simp only [Prod.mk.injEq] at e
  have hn : (exWorld fun _ _ => True).configs "your.toml".toList = .notFound := by
    show (if "your.toml".toList = "my.toml".toList then FileText.text ['x'] else .notFound) = .notFound
    decide +kernel
  have hc : (exWorld fun _ _ => True).config l = none := by
    unfold World.config Arguments.chooseConfig
    simp only [e.1, e.2.1, Bool.false_eq_true, if_false]
    rw [hn]
    rfl
  have := ProgramLog.unconfigured (W := exWorld fun _ _ => True) hl hc
  rw [e.2.2] at this
  refine ⟨_, _, this, rfl, ?_⟩
  unfold World.configLog configLog
  simp only [e.1, e.2.1, Bool.false_eq_true, if_false, id]
  rw [hn]
  rfl

def getPart : Command → Option (List TemplateElement × Magnet)
  | .get t m => some (t, m)
  | _ => none

theorem getPart_eq {c : Command} {t : List TemplateElement} {m : Magnet} (h : getPart c = some (t, m)) : c = .get t m := by
  cases c <;> simp [getPart] at h
  rw [h.1, h.2]

def exVainEvents : List (ResolveEvent Peer TaskError TorrentInfo) :=
  [.spawnTracker, .startJob, .trackerTake 0, .trackerCheck 0, .trackerEnds 0 (.value (.error (.tracker (.inner .lookup)))), .trackerExit 0,
   .nextBatch, .noMorePeers, .peerExit 0, .receiveNone]

def exVainLink : Text := "magnet:?xt=urn:btih:0707070707070707070707070707070707070707&tr=udp://tracker.example:6969".toList

/-- The only tracker of the link cannot be found: the log says so, and then that the download failed. -/
theorem exVain_log : ∃ answers d log, ProgramLog (exWorld answers) ["-cmy.toml".toList, "get".toList, exVainLink] .info d log ∧ d.code = some .failure ∧
    log = [.readingConfig "my.toml".toList, .localPeer (exWorld answers).localId 5 6881, .about (.fetching exTracked),
      .about (.trackerFailed exTracker exTracked (.inner .lookup)), .about (.getFailed .nothingFromPeers)] := by
  have key : (CommandLine.parse nameEnv lossyUtf8 ["-cmy.toml".toList, "get".toList, exVainLink]).map
      (fun l => (l.config, l.noConfig, l.logLevel, (getPart l.command).map Prod.snd)) = some (some "my.toml".toList, false, .info, some exTracked) := by
    decide +kernel
  obtain ⟨l, hl, e⟩ := Option.map_eq_some_iff.1 key
  simp only [Prod.mk.injEq] at e
  obtain ⟨e1, e2, e3, e4⟩ := e
  obtain ⟨⟨t, m⟩, e4, rfl⟩ := Option.map_eq_some_iff.1 e4
  have e4 := getPart_eq e4
  have hc : (exWorld fun _ x => x = [(.socket 0 0 ⟨none, fun _ => true, fun _ => true⟩, [.result (.error (.inner .lookup))])]).config l =
      some exBatchEnv.cfg := by
    unfold World.config
    rw [e1, e2]
    show Arguments.chooseConfig (Config.load exToml exHosts ⟨exNodes, 2⟩) (Config.dflt ⟨exNodes, 2⟩) none
      (fun p => if p = "my.toml".toList then .text ['x'] else .notFound) _ = _
    decide +kernel
  have hk : ((resolveExec (fun p : Peer => p.address) [exTracker] exVainEvents
      (Resolve.start [exTracker] (.error (TaskError.dht .down)) 1 1 : Resolve Tracker Peer SockAddr SockAddr TorrentInfo TaskError)).isSome) = true := by
    rfl
  obtain ⟨⟨tr, s⟩, hx⟩ := Option.isSome_iff_exists.1 hk
  have hrun : GetRun (fun _ => List.replicate 20 7) exBatchEnv (fun p links => p = exPeer ∧ links = fun _ => exLink)
      (fun _ x => x = [(.socket 0 0 ⟨none, fun _ => true, fun _ => true⟩, [.result (.error (.inner .lookup))])]) exTracked tr s := by
    refine ⟨⟨.error (.dht .down), .inl ⟨_, rfl⟩, by show ResolveRun _ [exTracker] _ 1 1 _ _; simpa using resolveExec_run exVainEvents .init hx, ?_⟩, ?_, ?_⟩ <;> cases hx
    · intro eo heo p r hp
      simp only [List.mem_cons, List.not_mem_nil, or_false] at heo
      rcases heo with rfl | rfl | rfl | rfl | rfl | rfl | rfl | rfl | rfl | rfl <;> simp [trackerPeers] at hp
    · intro eo heo t ps hp
      simp only [List.mem_cons, List.not_mem_nil, or_false] at heo
      rcases heo with rfl | rfl | rfl | rfl | rfl | rfl | rfl | rfl | rfl | rfl <;> simp [trackerPeers] at hp
      obtain ⟨rfl, rfl⟩ := hp
      exact ⟨0, _, _, .error (.inner .lookup), .step .init rfl, rfl, by simp, rfl, rfl⟩
    · intro eo heo t hp
      simp only [List.mem_cons, List.not_mem_nil, or_false] at heo
      rcases heo with rfl | rfl | rfl | rfl | rfl | rfl | rfl | rfl | rfl | rfl <;> simp [trackerPeers] at hp
  have hr : s.result = some .nothing := by cases hx; rfl
  have hcl := CommandLog.get (W := exWorld _) (cfg := exBatchEnv.cfg) (template := t) (fun _ => .vcNotZero) hrun hr
  rw [← e4] at hcl
  have := ProgramLog.ran hl hc hcl
  rw [e3] at this
  refine ⟨_, _, _, this, rfl, ?_⟩
  have hcfg : World.configLog (exWorld fun _ x => x = [(.socket 0 0 ⟨none, fun _ => true, fun _ => true⟩, [.result (.error (.inner .lookup))])]) l =
      [.readingConfig "my.toml".toList] := by
    have hcf : (exWorld fun _ x => x = [(.socket 0 0 ⟨none, fun _ => true, fun _ => true⟩,
        [.result (.error (.inner .lookup))])]).configs "my.toml".toList = .text ['x'] := by
      show (if "my.toml".toList = "my.toml".toList then FileText.text ['x'] else .notFound) = .text ['x']
      decide +kernel
    have hload : Config.load exToml exHosts ⟨exNodes, 2⟩ (.text ['x']) = .ok exBatchEnv.cfg := by
      have h : (Config.load exToml exHosts ⟨exNodes, 2⟩ (.text ['x'])).toOption = some exBatchEnv.cfg := by decide +kernel
      generalize Config.load exToml exHosts ⟨exNodes, 2⟩ (.text ['x']) = y at h
      cases y with
      | ok y => cases h; rfl
      | error => cases h
    unfold World.configLog configLog
    simp only [e1, e2, Bool.false_eq_true, if_false, id]
    rw [hcf]
    simp only [show Config.load (exWorld fun _ x => x = [(.socket 0 0 ⟨none, fun _ => true, fun _ => true⟩,
      [.result (.error (.inner .lookup))])]).parseToml (exWorld fun _ x => x = [(.socket 0 0 ⟨none, fun _ => true, fun _ => true⟩,
      [.result (.error (.inner .lookup))])]).parseHost (exWorld fun _ x => x = [(.socket 0 0 ⟨none, fun _ => true, fun _ => true⟩,
      [.result (.error (.inner .lookup))])]).dht (.text ['x']) = .ok exBatchEnv.cfg from hload]
  rw [hcfg]
  cases hx
  rfl

end Demag.Props
