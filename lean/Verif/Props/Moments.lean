import Verif.Spec.Moments
import Verif.Props.ProgramLog

/-!
# C78: what is said and what is done, in order
-/

namespace Demag.Props

open Demag Spec

theorem saidIn_append (a b : List Moment) : saidIn (a ++ b) = saidIn a ++ saidIn b := List.filterMap_append

theorem doneIn_append (a b : List Moment) : doneIn (a ++ b) = doneIn a ++ doneIn b := List.filterMap_append

theorem saidIn_says (l : List MainLine) : saidIn (l.map .says) = l := by
  induction l with
  | nil => rfl
  | cons x l ih => simpa [saidIn] using ih

theorem doneIn_says (l : List MainLine) : doneIn (l.map .says) = [] := by
  induction l with
  | nil => rfl
  | cons x l ih => simpa [doneIn] using ih

theorem saidIn_does (l : List SaveEffect) : saidIn (l.map .does) = [] := by
  induction l with
  | nil => rfl
  | cons x l ih => simpa [saidIn] using ih

theorem doneIn_does (l : List SaveEffect) : doneIn (l.map .does) = l := by
  induction l with
  | nil => rfl
  | cons x l ih => simpa [doneIn] using ih

section
variable {α β : Type}

theorem forall₂_split {R : α → β → Prop} {x : β} {b : List β} : ∀ {a : List β} {l : List α}, List.Forall₂ R l (a ++ x :: b) →
    ∃ a' x' b', l = a' ++ x' :: b' ∧ List.Forall₂ R a' a ∧ R x' x ∧ List.Forall₂ R b' b := by
  intro a
  induction a with
  | nil =>
    intro l h
    cases h with
    | cons h1 h2 => exact ⟨[], _, _, rfl, .nil, h1, h2⟩
  | cons y a ih =>
    intro l h
    cases h with
    | cons h1 h2 =>
      obtain ⟨a', x', b', rfl, k1, k2, k3⟩ := ih h2
      exact ⟨_ :: a', x', b', rfl, .cons h1 k1, k2, k3⟩

theorem forall₂_join {R : α → β → Prop} {x : β} {x' : α} {b : List β} {b' : List α} (hx : R x' x) (hb : List.Forall₂ R b' b) :
    ∀ {a : List β} {a' : List α}, List.Forall₂ R a' a → List.Forall₂ R (a' ++ x' :: b') (a ++ x :: b) := by
  intro a a' h
  induction h with
  | nil => exact .cons hx hb
  | cons h _ ih => exact .cons h ih

theorem interleaves_prefix {ls : List (List α)} {out : List α} (h : Interleaves ls out) {p : List α} (hp : p <+: out) :
    ∃ ls', List.Forall₂ (fun a b => a <+: b) ls' ls ∧ Interleaves ls' p := by
  induction h generalizing p with
  | @done ls h =>
    rw [List.prefix_nil.1 hp]
    refine ⟨ls, ?_, .done h⟩
    clear h hp
    induction ls with
    | nil => exact .nil
    | cons l ls ih => exact .cons (List.prefix_refl l) ih
  | @next pre x l post out _ ih =>
    cases p with
    | nil =>
      refine ⟨(pre ++ (x :: l) :: post).map fun _ => [], ?_, .done fun l hl => by obtain ⟨_, -, rfl⟩ := List.mem_map.1 hl; rfl⟩
      generalize pre ++ (x :: l) :: post = ls
      induction ls with
      | nil => exact .nil
      | cons l ls ih => exact .cons (List.nil_prefix) ih
    | cons y p =>
      obtain ⟨rfl, hp'⟩ := List.cons_prefix_cons.1 hp
      obtain ⟨ls', h1, h2⟩ := ih hp'
      obtain ⟨a, l', b, rfl, k1, k2, k3⟩ := forall₂_split h1
      exact ⟨a ++ (y :: l') :: b, forall₂_join (List.cons_prefix_cons.2 ⟨rfl, k2⟩) k3 k1, .next h2⟩

theorem interleaves_filterMap (f : α → Option β) {ls : List (List α)} {out : List α} (h : Interleaves ls out) :
    Interleaves (ls.map (List.filterMap f)) (out.filterMap f) := by
  induction h with
  | done h => exact .done (by simpa using fun l hl => by rw [h l hl]; simp)
  | @next pre x l post out _ ih =>
    simp only [List.map_append, List.map_cons] at ih ⊢
    cases hf : f x with
    | none => rw [List.filterMap_cons_none hf, List.filterMap_cons_none hf]; exact ih
    | some y => rw [List.filterMap_cons_some hf, List.filterMap_cons_some hf]; exact .next ih

theorem interleaves_cons_many {pre post : List (List α)} {l out : List α} (h : Interleaves (pre ++ l :: post) out) (q : List α) :
    Interleaves (pre ++ (q ++ l) :: post) (q ++ out) := by
  induction q with
  | nil => exact h
  | cons x q ih => exact .next ih

theorem filterMap_eq_cons_split {f : α → Option β} {y : β} {r : List β} : ∀ {l : List α}, l.filterMap f = y :: r →
    ∃ q x l', l = q ++ x :: l' ∧ q.filterMap f = [] ∧ f x = some y ∧ l'.filterMap f = r := by
  intro l
  induction l with
  | nil => intro h; cases h
  | cons z l ih =>
    intro h
    cases hf : f z with
    | none =>
      rw [List.filterMap_cons_none hf] at h
      obtain ⟨q, x, l', rfl, h1, h2, h3⟩ := ih h
      exact ⟨z :: q, x, l', rfl, by rw [List.filterMap_cons_none hf, h1], h2, h3⟩
    | some w =>
      rw [List.filterMap_cons_some hf] at h
      cases h
      exact ⟨[], z, l, rfl, rfl, hf, rfl⟩

theorem interleaves_lift (f : α → Option β) {logs : List (List β)} {log : List β} (h : Interleaves logs log) : ∀ {mss : List (List α)},
    List.Forall₂ (fun ms l => ms.filterMap f = l) mss logs → ∃ ms, Interleaves mss ms ∧ ms.filterMap f = log := by
  induction h with
  | @done logs h =>
    intro mss hm
    refine ⟨mss.flatten, interleaves_flatten mss, ?_⟩
    rw [List.filterMap_flatten, List.flatten_eq_nil_iff]
    intro l hl
    obtain ⟨ms, hms, rfl⟩ := List.mem_map.1 hl
    obtain ⟨l', hl', e⟩ := forall₂_right hm hms
    rw [e]
    exact h l' hl'
  | @next pre x l post out _ ih =>
    intro mss hm
    obtain ⟨a, m, b, rfl, k1, k2, k3⟩ := forall₂_split hm
    obtain ⟨q, z, m', rfl, e1, e2, e3⟩ := filterMap_eq_cons_split k2
    obtain ⟨ms, h1, h2⟩ := ih (forall₂_join (R := fun (ms : List α) (l : List β) => ms.filterMap f = l) e3 k3 k1)
    refine ⟨q ++ z :: ms, interleaves_cons_many (.next h1) q, ?_⟩
    rw [List.filterMap_append, e1, List.filterMap_cons_some e2, h2]
    rfl

end

section
variable {env : GetEnv} {template : List TemplateElement} {m : Magnet} {mse : Peer → MseError} {failed : DownloadFailure → LogLine}
  {tr : ResolveTrace Tracker Peer SockAddr TorrentInfo TaskError} {r : Resolved Tracker SockAddr TorrentInfo TaskError}

theorem downloadMoments_said : saidIn (downloadMoments env template m mse failed tr r) = downloadLog env template m mse failed tr r := by
  have h : ∀ l : List DownloadFailure, (l.map fun f => Moment.says (.about (failed f))) = (l.map fun f => MainLine.about (failed f)).map .says := by
    intro l; rw [List.map_map]; rfl
  unfold downloadMoments downloadLog
  rw [saidIn_append, saidIn_append, saidIn_says, saidIn_does, h, saidIn_says, List.append_nil]

theorem downloadMoments_done : doneIn (downloadMoments env template m mse failed tr r) = (getEffects env template r).1 := by
  have h : ∀ l : List DownloadFailure, (l.map fun f => Moment.says (.about (failed f))) = (l.map fun f => MainLine.about (failed f)).map .says := by
    intro l; rw [List.map_map]; rfl
  unfold downloadMoments
  rw [doneIn_append, doneIn_append, doneIn_says, doneIn_does, h, doneIn_says, List.append_nil, List.nil_append]

end

/-- Whatever has happened so far, no more files were written to a place than were announced for it. -/
def ToldFirst (ms : List Moment) : Prop := ∀ p, p <+: ms → ∀ out, p.countP (isWriteTo out) ≤ p.countP (announces out)

theorem says_writes (l : List MainLine) (out : Output) : (l.map Moment.says).countP (isWriteTo out) = 0 := by
  rw [List.countP_eq_zero]
  intro x hx
  obtain ⟨y, -, rfl⟩ := List.mem_map.1 hx
  simp [isWriteTo]

theorem toldFirst_says (l : List MainLine) : ToldFirst (l.map .says) := by
  intro p hp out
  have := hp.sublist.countP_le (p := isWriteTo out)
  rw [says_writes] at this
  omega

theorem toldFirst_prepend (l : List MainLine) {ms : List Moment} (h : ToldFirst ms) : ToldFirst (l.map .says ++ ms) := by
  intro p hp out
  rcases List.prefix_or_prefix_of_prefix hp (List.prefix_append (l.map .says) ms) with h1 | ⟨q, rfl⟩
  · exact toldFirst_says l p h1 out
  · have := h q ((List.prefix_append_right_inj _).1 hp) out
    rw [List.countP_append, List.countP_append, says_writes]
    omega

theorem toldFirst_append (l : List MainLine) {ms : List Moment} (h : ToldFirst ms) : ToldFirst (ms ++ l.map .says) := by
  intro p hp out
  rcases List.prefix_or_prefix_of_prefix hp (List.prefix_append ms (l.map .says)) with h1 | ⟨q, rfl⟩
  · exact h p h1 out
  · have h1 := h ms (List.prefix_refl ms) out
    have h2 := toldFirst_says l q ((List.prefix_append_right_inj _).1 hp) out
    rw [List.countP_append, List.countP_append]
    omega

theorem toldFirst_does {l : List MainLine} {es : List SaveEffect}
    (h : ∀ out, (es.map Moment.does).countP (isWriteTo out) ≤ (l.map Moment.says).countP (announces out)) :
    ToldFirst (l.map .says ++ es.map .does) := by
  intro p hp out
  rcases List.prefix_or_prefix_of_prefix hp (List.prefix_append (l.map Moment.says) (es.map Moment.does)) with h1 | ⟨q, rfl⟩
  · exact toldFirst_says l p h1 out
  · have h1 := ((List.prefix_append_right_inj _).1 hp).sublist.countP_le (p := isWriteTo out)
    have h2 := h out
    rw [List.countP_append, List.countP_append, says_writes]
    omega

theorem toldFirst_interleaves {mss : List (List Moment)} {ms : List Moment} (h : Interleaves mss ms) (hm : ∀ l ∈ mss, ToldFirst l) :
    ToldFirst ms := by
  intro p hp out
  obtain ⟨ls, h1, h2⟩ := interleaves_prefix h hp
  rw [(interleaves_perm h2).countP_eq, (interleaves_perm h2).countP_eq, List.countP_flatten, List.countP_flatten]
  have hle : ∀ l ∈ ls, l.countP (isWriteTo out) ≤ l.countP (announces out) := fun l hl => by
    obtain ⟨l', hl', hpre⟩ := forall₂_right h1 hl
    exact hm l' hl' l hpre out
  clear h1 h2
  induction ls with
  | nil => exact Nat.le_refl _
  | cons l ls ih =>
    have k1 := hle l (by simp)
    have k2 := ih fun l hl => hle l (by simp [hl])
    simp only [List.map_cons, List.sum_cons]
    omega

theorem performEffects_sublist (ok : Nat → Bool) : ∀ (i : Nat) (es : List SaveEffect), ((performEffects ok i es).1).Sublist es := by
  intro i es
  induction es generalizing i with
  | nil => exact List.Sublist.refl _
  | cons x es ih =>
    unfold performEffects
    split
    · exact (ih (i + 1)).cons_cons x
    · exact List.nil_sublist _

/-- What `save` does is announced by it. -/
theorem save_counts {lossy : Bytes → Text} {parent : Text → Option Text} {t : TorrentFile} {template : List TemplateElement} {es : List SaveEffect}
    (h : t.save lossy ipText parent template = some es) (ok : Nat → Bool) (m : Magnet) (out : Output) :
    ((performEffects ok 0 es).1.map Moment.does).countP (isWriteTo out) ≤ ((saveLog lossy m template t.info).map Moment.says).countP (announces out) := by
  refine Nat.le_trans ((performEffects_sublist ok 0 es).map Moment.does).countP_le ?_
  unfold TorrentFile.save at h
  rw [Option.map_eq_some_iff] at h
  obtain ⟨name, hn, rfl⟩ := h
  unfold saveLog
  rw [hn]
  simp only
  generalize Output.fromArg (PathTemplate.format template (sanitize (name.getD "NONAME".toList)) t.info.infoHash) = path
  cases path with
  | stdout => simp [isWriteTo, announces, List.countP_cons]
  | file f =>
    simp only
    split
    · split <;> simp [isWriteTo, announces, List.countP_cons]
    · simp [isWriteTo, announces, List.countP_cons]

section
variable {env : GetEnv} {template : List TemplateElement} {m : Magnet} {mse : Peer → MseError} {failed : DownloadFailure → LogLine}
  {tr : ResolveTrace Tracker Peer SockAddr TorrentInfo TaskError} {r : Resolved Tracker SockAddr TorrentInfo TaskError}

theorem downloadMoments_toldFirst : ToldFirst (downloadMoments env template m mse failed tr r) := by
  have h : ∀ l : List DownloadFailure, (l.map fun f => Moment.says (.about (failed f))) = (l.map fun f => MainLine.about (failed f)).map .says := by
    intro l; rw [List.map_map]; rfl
  unfold downloadMoments
  rw [h]
  refine toldFirst_append _ ?_
  rw [List.map_append, List.append_assoc]
  refine toldFirst_prepend _ (toldFirst_does fun out => ?_)
  unfold getEffects
  cases r with
  | file info ts ns =>
    cases he : downloadEffects env.lossy ipText env.parent env.now template (.file info ts ns) with
    | none => simp
    | some es => exact save_counts he env.fileOk m out
  | dht e => simp [downloadEffects, performEffects]
  | nothing => simp [downloadEffects, performEffects]
  | panicked => simp [downloadEffects]

end

section
variable {W : World} {cfg : Config} {args : List Text} {lvl : LevelFilter} {d : Done} {log : List MainLine} {code : ExitCode} {ms : List Moment}

theorem batchMoments_said {uenv : UrlEnv} {lossy : Bytes → Text} {file : Option Bytes} {jobs : List Moment} {a b : Nat} :
    saidIn (batchMoments uenv lossy file jobs a b) = batchLog uenv lossy file (saidIn jobs) a b := by
  unfold batchMoments batchLog
  cases magnetsFailure uenv lossy file with
  | some e => rfl
  | none =>
    simp only
    split
    · rename_i h; rw [h, saidIn_append]; rfl
    · rename_i h
      split
      · rename_i x y z h'; exact absurd h' (h _ _)
      · rfl

theorem queryPeerMoments_said {env : QueryPeerEnv} {template : List TemplateElement} {ih : InfoHash} {mse : MseError} {r : Res PeerError TorrentInfo} :
    saidIn (queryPeerMoments env template ih mse r) = queryPeerLog env template ih mse r := by
  cases r with
  | ok info =>
    unfold queryPeerMoments queryPeerLog
    simp only
    rw [saidIn_append, saidIn_says]
    cases (TorrentFile.new env.now info [] []).save env.lossy ipText env.parent template with
    | none => rfl
    | some es =>
      simp only
      rw [saidIn_append, saidIn_does]
      split <;> rfl
  | err e => rfl
  | panic => rfl
  | hang => rfl

theorem batchMoments_done {template : List TemplateElement} {file : InputArg} {tr : List (BatchEvent × List (Magnet × Outcome Bool))}
    {jobs : List BatchJob} {s : Batch Magnet} {mss : List (List Moment)} {ms : List Moment} (ha : Accepted cfg)
    (hb : BatchGet W.sha1 (W.getEnv cfg) W.uenv W.behaves W.answers template (W.inputs file) tr jobs s) (hex : s.exit = some code)
    (hnc : code ≠ .crash) (hm : List.Forall₂ (BatchJob.Happens W.sha1 (W.getEnv cfg) W.behaves W.answers template) jobs mss)
    (hint : Interleaves mss ms) :
    (doneIn (batchMoments W.uenv W.lossy (W.inputs file) ms s.success s.total)).Perm (jobs.flatMap BatchJob.effects) := by
  have hdone : (doneIn ms).Perm (jobs.flatMap BatchJob.effects) := by
    refine ((interleaves_perm hint).filterMap _).trans ?_
    rw [List.filterMap_flatten]
    have : mss.map doneIn = jobs.map BatchJob.effects := by
      have hjob := hb.job
      clear hb hint hex
      induction hm with
      | nil => rfl
      | @cons j l jobs mss h hm ih =>
        rw [List.map_cons, List.map_cons, ih fun j hj => hjob j (List.mem_cons_of_mem _ hj)]
        obtain ⟨gtr, gs, mse, h1, h2, rfl⟩ := h
        rw [downloadMoments_done, (hjob j (by simp)).2]
    show (mss.map doneIn).flatten.Perm _
    rw [this]
    exact .refl _
  rcases batch_log_cases (log := saidIn ms) ha hb hex hnc with ⟨e, h1, -, -, h4⟩ | ⟨h1, -, -, h4⟩ | ⟨links, h1, h2, -, -, -, -, -⟩
  · subst h4
    unfold batchMoments
    rw [h1]
    exact .refl _
  · subst h4
    unfold batchMoments
    rw [h1]
    split <;> exact .refl _
  · unfold batchMoments
    cases links with
    | nil => exact absurd rfl h1
    | cons link links =>
      have h0 : magnetsFailure W.uenv W.lossy (W.inputs file) = none := by
        revert h2
        unfold batchLinks magnetsFailure
        cases W.inputs file with
        | none => intro h; cases h
        | some content =>
          intro h
          replace h : (parseMagnetsFile (Magnet.parse (urlParse W.uenv) W.lossy) content).toOption = some (link :: links) := h
          simp only
          generalize parseMagnetsFile (Magnet.parse (urlParse W.uenv) W.lossy) content = y at h
          cases y with
          | error e => cases h
          | ok x => rfl
      rw [h0, h2, doneIn_append]
      simpa [doneIn] using hdone

theorem queryPeerMoments_done {enc no pre : Bool} {template : List TemplateElement} {peer : Peer} {ih : InfoHash} {effects : List SaveEffect}
    {mse : MseError} (hq : queryPeer W.sha1 W.H (W.queryPeerEnv cfg) enc pre no template peer ih = some (effects, code)) :
    doneIn (queryPeerMoments (W.queryPeerEnv cfg) template ih mse ((W.queryPeerEnv cfg).ask W.sha1 W.H enc pre no peer ih).2) = effects := by
  unfold queryPeer at hq
  unfold queryPeerMoments
  split at hq
  · rename_i info hr
    rw [hr]
    simp only
    split at hq
    · rename_i he
      cases hq
      rw [he, doneIn_append, doneIn_says]
      rfl
    · rename_i es he
      cases hq
      rw [he, doneIn_append, doneIn_says, doneIn_append, doneIn_does]
      simp only [List.nil_append]
      split <;> simp [doneIn]
  · rename_i e hr; cases hq; rw [hr]; rfl
  · rename_i hr; cases hq; rw [hr]; rfl
  · cases hq

theorem commandMoments_log {c : Command} (h : CommandMoments W cfg c code ms) (ha : Accepted cfg) :
    ∃ d, CommandLog W cfg c d (saidIn ms) ∧ d.code = some code ∧ (doneIn ms).Perm d.effects := by
  cases h with
  | get mse hg hr =>
    rw [downloadMoments_said, downloadMoments_done]
    exact ⟨_, .get mse hg hr, rfl, .refl _⟩
  | @batch template file tr jobs s _ mss ms hb hex hnc hm hint =>
    have hlogs : List.Forall₂ (BatchJob.Logs W.sha1 (W.getEnv cfg) W.behaves W.answers template) jobs (mss.map saidIn) := by
      rw [List.forall₂_map_right_iff]
      refine hm.imp ?_
      rintro j l ⟨gtr, gs, mse, h1, h2, rfl⟩
      exact ⟨gtr, gs, mse, h1, h2, downloadMoments_said⟩
    rw [batchMoments_said]
    refine ⟨_, .batch hb hex hnc hlogs (interleaves_filterMap _ hint), rfl, ?_⟩
    exact batchMoments_done ha hb hex hnc hm hint
  | asks hc hl hd =>
    rw [saidIn_says, doneIn_says]
    refine ⟨_, hl, hd, ?_⟩
    cases hl <;> first | exact .refl _ | cases hc
  | @queryPeer enc no pre template peer ih effects _ mse hq =>
    rw [queryPeerMoments_said]
    exact ⟨_, .queryPeer mse hq, rfl, by rw [queryPeerMoments_done hq]⟩

/-- **C78.** What is said in a run is the log of the run, and what is done is what the run does. -/
theorem moments_log (hdht : DhtConfig.dflt W.parseHost = some W.dht) (h : ProgramMoments W args code ms) :
    ∃ lvl d, ProgramLog W args lvl d (saidIn ms) ∧ d.code = some code ∧ (doneIn ms).Perm d.effects := by
  cases h with
  | @unconfigured l hp hc =>
    rw [saidIn_says, doneIn_says]
    exact ⟨_, _, .unconfigured hp hc, rfl, .refl _⟩
  | @ran l cfg _ ms hp hc hr =>
    obtain ⟨d, h1, h2, h3⟩ := commandMoments_log hr (config_accepted hdht hc)
    refine ⟨l.logLevel, d, ?_, h2, ?_⟩
    · rw [saidIn_append, saidIn_says, List.append_assoc]
      exact .ran hp hc h1
    · rw [doneIn_append, doneIn_says]
      exact h3

/-- **C78.** Every log of a run is that of a run in which it is known what happens when. -/
theorem log_moments (hdht : DhtConfig.dflt W.parseHost = some W.dht) (h : ProgramLog W args lvl d log) {code : ExitCode} (hcode : d.code = some code) :
    ∃ ms, ProgramMoments W args code ms ∧ saidIn ms = log ∧ (doneIn ms).Perm d.effects := by
  cases h with
  | @unconfigured l hp hc => cases hcode; exact ⟨_, .unconfigured hp hc, saidIn_says _, by rw [doneIn_says]⟩
  | @ran l cfg _ clog hp hc hr =>
    have ha := config_accepted hdht hc
    suffices h : ∃ ms, CommandMoments W cfg l.command code ms ∧ saidIn ms = clog ∧ (doneIn ms).Perm d.effects by
      obtain ⟨ms, h1, h2, h3⟩ := h
      refine ⟨_, .ran hp hc h1, ?_, ?_⟩
      · rw [saidIn_append, saidIn_says, h2, List.append_assoc]
        rfl
      · rw [doneIn_append, doneIn_says]
        exact h3
    generalize l.command = c at hr
    cases hr with
    | get mse hg hr => cases hcode; exact ⟨_, .get mse hg hr, downloadMoments_said, by rw [downloadMoments_done]⟩
    | @batch template file tr jobs s _ logs jl hb hex hnc hlogs hint =>
      cases hcode
      have : ∃ mss, List.Forall₂ (BatchJob.Happens W.sha1 (W.getEnv cfg) W.behaves W.answers template) jobs mss ∧
          List.Forall₂ (fun ms l => saidIn ms = l) mss logs := by
        clear hint hb hex
        induction hlogs with
        | nil => exact ⟨[], .nil, .nil⟩
        | cons h _ ih =>
          obtain ⟨mss, k1, k2⟩ := ih
          obtain ⟨gtr, gs, mse, h1, h2, rfl⟩ := h
          exact ⟨_ :: mss, .cons ⟨gtr, gs, mse, h1, h2, rfl⟩ k1, .cons downloadMoments_said k2⟩
      obtain ⟨mss, k1, k2⟩ := this
      obtain ⟨ms, m1, m2⟩ := interleaves_lift _ hint k2
      refine ⟨_, .batch hb hex hnc k1 m1, ?_, batchMoments_done ha hb hex hnc k1 m1⟩
      rw [batchMoments_said]
      exact congrArg (fun x => batchLog _ _ _ x _ _) m2
    | queryTracker h1 h2 => exact ⟨_, .asks rfl (.queryTracker h1 h2) hcode, saidIn_says _, by rw [doneIn_says]⟩
    | dhtError e => exact ⟨_, .asks rfl (.dhtError e) hcode, saidIn_says _, by rw [doneIn_says]⟩
    | queryDht h1 h2 h3 => exact ⟨_, .asks rfl (.queryDht h1 h2 h3) hcode, saidIn_says _, by rw [doneIn_says]⟩
    | @queryPeer enc no pre template peer ih effects _ mse hq =>
      cases hcode
      exact ⟨_, .queryPeer mse hq, queryPeerMoments_said, by rw [queryPeerMoments_done hq]⟩

/-- **C78.** At any moment of a run, no more files have been written to a place than the log has announced for it.  So if the program is stopped, its
log names every place where it has written. -/
theorem announced_before (h : ProgramMoments W args code ms) {p : List Moment} (hp : p <+: ms) (out : Output) :
    p.countP (isWriteTo out) ≤ p.countP (announces out) := by
  suffices hs : ToldFirst ms from hs p hp out
  cases h with
  | unconfigured hp hc => exact toldFirst_says _
  | @ran l cfg _ ms hp hc hr =>
    refine toldFirst_prepend _ ?_
    generalize l.command = c at hr
    cases hr with
    | get mse hg hr => exact downloadMoments_toldFirst
    | @batch template file tr jobs s _ mss ms hb hex hnc hm hint =>
      unfold batchMoments
      split
      · exact toldFirst_says [_]
      · split
        · refine toldFirst_append [_] (toldFirst_interleaves hint fun l hl => ?_)
          obtain ⟨j, -, gtr, gs, mse, -, -, rfl⟩ := forall₂_left hm hl
          exact downloadMoments_toldFirst
        · exact toldFirst_says [_]
    | asks hc hl hd => exact toldFirst_says _
    | @queryPeer enc no pre template peer ih effects _ mse hq =>
      unfold queryPeerMoments
      split
      · rename_i info hr
        split
        · rw [List.append_nil]; exact toldFirst_says _
        · rename_i es he
          rw [← List.append_assoc]
          have hd := toldFirst_does (save_counts he (W.queryPeerEnv cfg).fileOk ⟨ih, none, []⟩)
          split
          · rw [List.append_nil]; exact hd
          · exact toldFirst_append [_] hd
      · exact toldFirst_says [_]
      · exact toldFirst_says []
      · exact toldFirst_says []

/-- **C78.** When a batch gives its summary, it has done all it does. -/
theorem summary_last (h : ProgramMoments W args code ms) {a b : List Moment} {good total : Nat} (hm : ms = a ++ .says (.converted good total) :: b) :
    b = [] := by
  have hcfg : ∀ l : CommandLine, .converted good total ∉ W.configLog l := by
    intro l h
    unfold World.configLog configLog at h
    split at h
    · cases h
    · split at h
      · simp at h
      · rcases List.mem_cons.1 h with h | h
        · cases h
        · split at h
          · cases h
          · split at h <;> simp at h
  have hget : ∀ env template m mse failed tr r, Moment.says (.converted good total) ∉ downloadMoments env template m mse failed tr r := by
    intro env template m mse failed tr r h
    have : MainLine.converted good total ∈ downloadLog env template m mse failed tr r := by
      rw [← downloadMoments_said]
      exact List.mem_filterMap.2 ⟨_, h, rfl⟩
    unfold downloadLog at this
    simp only [List.mem_append, List.mem_map, reduceCtorEq, and_false, exists_false, or_false, false_or] at this
    unfold resultLog saveLog at this
    split at this
    · split at this <;> simp at this
    · cases this
  have hsave : ∀ lossy m template info, MainLine.converted good total ∉ saveLog lossy m template info := by
    intro lossy m template info h
    unfold saveLog at h
    split at h <;> simp at h
  have key : ∀ (x y : List Moment), .says (.converted good total) ∉ x → x ++ y = a ++ .says (.converted good total) :: b →
      ∃ a', y = a' ++ .says (.converted good total) :: b := by
    intro x y hx e
    rcases List.append_eq_append_iff.1 e with ⟨c, -, e⟩ | ⟨c, hc, e⟩
    · exact ⟨c, e⟩
    · cases c with
      | nil => exact ⟨[], e.symm⟩
      | cons z c =>
        obtain ⟨rfl, -⟩ := List.cons_eq_cons.1 e
        rw [hc] at hx
        exact absurd (by simp) hx
  have none_of : ∀ {x a' : List Moment}, .says (.converted good total) ∉ x → x = a' ++ .says (.converted good total) :: b → False := by
    rintro x a' hx rfl
    exact hx (by simp)
  cases h with
  | @unconfigured l hp hc =>
    refine (none_of ?_ hm).elim
    intro h
    obtain ⟨y, hy, e⟩ := List.mem_map.1 h
    cases e
    exact hcfg l hy
  | @ran l cfg _ ms hp hc hr =>
    obtain ⟨a', hm⟩ := key _ _ (by
      intro h
      obtain ⟨y, hy, e⟩ := List.mem_map.1 h
      cases e
      rcases List.mem_append.1 hy with hy | hy
      · exact hcfg l hy
      · simp at hy) hm
    generalize l.command = c at hr
    cases hr with
    | get mse hg hr => exact (none_of (hget _ _ _ _ _ _ _) hm).elim
    | @batch template file tr jobs s _ mss ms hb hex hnc hj hint =>
      unfold batchMoments at hm
      split at hm
      · exact (none_of (by simp) hm).elim
      · split at hm
        · by_contra hb'
          obtain ⟨b', z, rfl⟩ := (List.eq_nil_or_concat b).resolve_left hb'
          rw [List.concat_eq_append] at hm
          have e : ms ++ [Moment.says (MainLine.converted s.success s.total)] = (a' ++ .says (.converted good total) :: b') ++ [z] := by
            rw [hm]; simp
          obtain ⟨rfl, -⟩ := List.append_inj' e rfl
          have : Moment.says (.converted good total) ∈ mss.flatten := (interleaves_perm hint).mem_iff.1 (by simp)
          obtain ⟨l', hl', hx⟩ := List.mem_flatten.1 this
          obtain ⟨j, -, gtr, gs, mse, -, -, rfl⟩ := forall₂_left hj hl'
          exact hget _ _ _ _ _ _ _ hx
        · exact (none_of (by simp) hm).elim
    | asks hc hl hd =>
      refine (none_of ?_ hm).elim
      intro h
      obtain ⟨y, hy, e⟩ := List.mem_map.1 h
      cases e
      cases hl with
      | get => cases hc
      | batch => cases hc
      | queryPeer => cases hc
      | queryTracker => unfold queryTrackerLog at hy; split at hy <;> simp at hy
      | dhtError => simp [queryDhtLog] at hy
      | queryDht => unfold queryDhtLog at hy; split at hy <;> simp at hy
    | queryPeer mse hq =>
      refine (none_of ?_ hm).elim
      intro h
      have : MainLine.converted good total ∈ saidIn _ := List.mem_filterMap.2 ⟨_, h, rfl⟩
      rw [queryPeerMoments_said] at this
      unfold queryPeerLog at this
      split at this
      · rcases List.mem_append.1 this with h | h
        · exact hsave _ _ _ _ h
        · split at h
          · cases h
          · split at h <;> simp at h
      · simp at this
      · cases this
      · cases this

end

-- a batch that ends successfully: there is a list of what happens, a file is written in it, and the announcement comes before
example : ∃ answers ms a out bytes b, ProgramMoments (exWorld answers) (["-cmy.toml", "batch", "-o", "{name}", "-"].map String.toList) .success ms ∧
    ms = a ++ .does (.write out bytes) :: b ∧ ∃ m, .says (.saving m out) ∈ a := by
  obtain ⟨answers, d, h, hc, hw⟩ := exProgram_run
  obtain ⟨lvl, log, hl⟩ := run_log h (.inl hc)
  have hdht : DhtConfig.dflt (exWorld answers).parseHost = some (exWorld answers).dht := by
    show DhtConfig.dflt exHosts = some ⟨exNodes, 2⟩
    decide +kernel
  obtain ⟨ms, h1, -, h2⟩ := log_moments hdht hl hc
  obtain ⟨⟨out, bytes⟩, hw⟩ := List.exists_mem_of_ne_nil _ hw
  have : SaveEffect.write out bytes ∈ doneIn ms := h2.mem_iff.2 (mem_writesOf.1 hw)
  obtain ⟨x, hx, e⟩ := List.mem_filterMap.1 this
  cases x with
  | «says» x => cases e
  | does x =>
    cases e
    obtain ⟨a, b, rfl⟩ := List.append_of_mem hx
    refine ⟨answers, _, a, out, bytes, b, h1, rfl, ?_⟩
    have hb := announced_before h1 (p := a ++ [.does (.write out bytes)]) ⟨b, by simp⟩ out
    simp only [List.countP_append, List.countP_singleton, isWriteTo, announces] at hb
    have : 0 < a.countP (announces out) := by simp at hb; omega
    obtain ⟨y, hy, e⟩ := List.countP_pos_iff.1 this
    cases y with
    | does => cases e
    | «says» y =>
      cases y <;> simp [announces] at e
      subst e
      exact ⟨_, hy⟩

-- `summary_last`: and in the end there is the summary
example : ∃ answers ms a good total, ProgramMoments (exWorld answers) (["-cmy.toml", "batch", "-o", "{name}", "-"].map String.toList) .success ms ∧
    ms = a ++ [.says (.converted good total)] ∧ doneIn a ≠ [] := by
  obtain ⟨answers, d, h, hc, hw⟩ := exProgram_run
  obtain ⟨lvl, log, hl⟩ := run_log h (.inl hc)
  have hdht : DhtConfig.dflt (exWorld answers).parseHost = some (exWorld answers).dht := by
    show DhtConfig.dflt exHosts = some ⟨exNodes, 2⟩
    decide +kernel
  obtain ⟨ms, h1, -, h2⟩ := log_moments hdht hl hc
  have hne : doneIn ms ≠ [] := by
    intro e
    rw [e] at h2
    rw [List.nil_perm.1 h2] at hw
    exact hw rfl
  have h1' := h1
  have key : (CommandLine.parse nameEnv lossyUtf8 (["-cmy.toml", "batch", "-o", "{name}", "-"].map String.toList)).map
      (fun l => batchPart l.command) = some (some ([.name], .stdin)) := by decide +kernel
  cases h1' with
  | @ran l cfg _ ms hp hcfg hr =>
    obtain ⟨l', hl', e⟩ := Option.map_eq_some_iff.1 key
    obtain rfl : l' = l := Option.some.inj (hl'.symm.trans hp)
    rw [batchPart_eq e] at hr
    rw [doneIn_append, doneIn_says, List.nil_append] at hne
    cases hr with
    | @batch template file tr jobs s _ mss ms' hb hex hnc hm hint =>
      by_cases hx : batchMoments (exWorld answers).uenv (exWorld answers).lossy ((exWorld answers).inputs .stdin) ms' s.success s.total =
          ms' ++ [.says (.converted s.success s.total)]
      · refine ⟨answers, _, _, s.success, s.total, h1, by rw [hx, ← List.append_assoc], ?_⟩
        rw [doneIn_append, doneIn_says, List.nil_append]
        rw [hx, doneIn_append] at hne
        simpa [doneIn] using hne
      · refine absurd ?_ hne
        unfold batchMoments at hx ⊢
        split
        · rfl
        · rename_i h0
          split
          · rename_i h3
            rw [h0, h3] at hx
            exact absurd rfl hx
          · rfl
    | asks hx => cases hx

end Demag.Props
