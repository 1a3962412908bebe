import Verif.Spec.LogLevel
import Verif.Props.ProgramLog
import Verif.Props.LogRead
import Verif.Props.LogFaithful

/-! # C79: the level asked for decides what is shown of the log, and the log can be read line by line -/

namespace Demag.Props

open Spec

/-! ### Levels -/

theorem own_iff (t : Text) : inModule "demagnetize".toList t = true ↔ OwnTarget t := by
  unfold inModule OwnTarget
  rw [Bool.or_eq_true, beq_iff_eq, List.isPrefixOf_iff_prefix]
  have e : "demagnetize".toList ++ "::".toList = "demagnetize::".toList := by decide
  rw [e]
  constructor
  · rintro (h | ⟨m, h⟩)
    · exact .inl h
    · exact .inr ⟨m, h.symm⟩
  · rintro (h | ⟨m, h⟩)
    · exact .inl h
    · exact .inr ⟨m, h.symm⟩

theorem shows_iff (f : LevelFilter) (l : Level) : l.rank ≤ f.rank ↔ l ∈ Shows f := by
  cases f <;> cases l <;> simp [Level.rank, LevelFilter.rank, Shows]

/-- **C79.** Messages of this program are written if the level asked for includes theirs; messages of libraries, if they are errors, warnings or
informations. -/
theorem level_shown (f : LevelFilter) (target : Text) (l : Level) :
    (OwnTarget target → (logShown f target l = true ↔ l ∈ Shows f)) ∧ (¬ OwnTarget target → (logShown f target l = true ↔ l ∈ Shows .info)) := by
  unfold logShown
  constructor
  · intro h
    rw [(own_iff target).2 h, if_pos rfl, decide_eq_true_eq, shows_iff]
  · intro h
    rw [← own_iff] at h
    rw [if_neg h, decide_eq_true_eq, shows_iff]

example : OwnTarget "demagnetize::peer::msepe".toList := .inr ⟨"peer::msepe".toList, by decide⟩
example : ¬ OwnTarget "demagnetize_other".toList := by
  rw [← own_iff]; decide +kernel

theorem lineTarget_own (x : LogLine) : OwnTarget x.target := by
  rw [← own_iff]
  unfold LogLine.target
  split <;> try decide +kernel
  split <;> decide +kernel

/-- **C79.** All messages of the log are this program's own. -/
theorem target_own (x : MainLine) : OwnTarget x.target := by
  cases x with
  | about l => exact lineTarget_own l
  | saving => rw [← own_iff]; show inModule "demagnetize".toList "demagnetize::torrent".toList = true; decide +kernel
  | _ => exact .inl rfl

/-- **C79.** What is shown of the log are the messages whose levels the level asked for includes, in their order. -/
theorem shown_levels (f : LevelFilter) (log : List MainLine) : shownLog f log = log.filter fun x => decide (x.level ∈ Shows f) := by
  unfold shownLog
  refine List.filter_congr fun x _ => ?_
  rw [Bool.eq_iff_iff, (level_shown f x.target x.level).1 (target_own x), decide_eq_true_eq]

/-- **C79.** A higher level shows everything that a lower one does. -/
theorem shown_mono {f g : LevelFilter} (h : ∀ l ∈ Shows f, l ∈ Shows g) (log : List MainLine) : (shownLog f log).Sublist (shownLog g log) := by
  rw [shown_levels, shown_levels]
  exact List.monotone_filter_right log fun x hx => by simpa using h _ (by simpa using hx)

/-- **C78.** Unless the log is switched off, every failure is to be seen in it, and nothing else looks like one. -/
theorem failure_shown {W : World} {args : List Text} {lvl : LevelFilter} {d : Done} {log : List MainLine}
    (hdht : DhtConfig.dflt W.parseHost = some W.dht) (h : ProgramLog W args lvl d log) (hl : lvl ≠ .off) :
    d.code = some .failure ↔ ∃ x ∈ shownLog lvl log, x.level = .error := by
  rw [failure_told hdht h, shown_levels]
  constructor
  · rintro ⟨x, hx, he⟩
    refine ⟨x, List.mem_filter.2 ⟨hx, ?_⟩, he⟩
    rw [he, decide_eq_true_eq]
    cases lvl <;> simp [Shows] at hl ⊢
  · rintro ⟨x, hx, he⟩
    exact ⟨x, (List.mem_filter.1 hx).1, he⟩

/-- **C79.** With the log switched off, nothing is shown. -/
theorem off_shown (log : List MainLine) : shownLog .off log = [] := by
  rw [shown_levels]
  simp [Shows]

/-! ### Lines -/

theorem linesOf_line {l s : Text} (h : '\n' ∉ l) : linesOf (l ++ '\n' :: s) = l :: linesOf s := by
  induction l with
  | nil => simp [linesOf]
  | cons c l ih =>
    simp only [List.mem_cons, not_or] at h
    rw [List.cons_append, linesOf, if_neg (Ne.symm h.1), ih h.2]

theorem readTwo_digits : ∀ n : Fin 100, readTwo (Char.ofNat (48 + n.val / 10)) (Char.ofNat (48 + n.val % 10)) = some n.val := by decide +kernel

theorem twoDigits_clean : ∀ n : Fin 100, ∀ c ∈ twoDigits n.val, 0x20 ≤ c.toNat ∧ c ≠ 'm' := by decide +kernel

/-- A record without line feed and colours. -/
def plainRecord (c : Clock) (l : Level) (m : Text) : Text := c.text ++ " [".toList ++ l.padded ++ "] ".toList ++ m

theorem plainRecord_read (c : Clock) (l : Level) (m : Text) :
    readRecord (plainRecord c l m) = some (c.hour.val, c.minute.val, c.second.val, l, m) := by
  have h1 := readTwo_digits ⟨c.hour.val, by omega⟩
  have h2 := readTwo_digits ⟨c.minute.val, by omega⟩
  have h3 := readTwo_digits ⟨c.second.val, by omega⟩
  simp only at h1 h2 h3
  have e1 : " [".toList = [' ', '['] := by decide
  have e2 : "] ".toList = [']', ' '] := by decide
  have e3 : ∃ a b c d e, l.padded = [a, b, c, d, e] ∧ levelNames.lookup ([a, b, c, d, e].filter fun x => x != ' ') = some l := by
    cases l
    · exact ⟨'E', 'R', 'R', 'O', 'R', by decide, by decide⟩
    · exact ⟨'W', 'A', 'R', 'N', ' ', by decide, by decide⟩
    · exact ⟨'I', 'N', 'F', 'O', ' ', by decide, by decide⟩
    · exact ⟨'D', 'E', 'B', 'U', 'G', by decide, by decide⟩
    · exact ⟨'T', 'R', 'A', 'C', 'E', by decide, by decide⟩
  obtain ⟨a, b, c', d, e, hp, hl⟩ := e3
  unfold plainRecord Clock.text twoDigits
  rw [e1, e2, hp]
  simp only [List.cons_append, List.nil_append]
  unfold readRecord
  simp only [h1, h2, h3, hl, Option.bind_eq_bind, Option.bind_some]

theorem plainRecord_newline {c : Clock} {l : Level} {m : Text} (h : '\n' ∉ m) : '\n' ∉ plainRecord c l m := by
  have hd : ∀ n, n < 100 → '\n' ∉ twoDigits n := fun n hn hc => by
    have := (twoDigits_clean ⟨n, hn⟩ _ hc).1
    revert this; decide
  have h1 := hd c.hour.val (by omega)
  have h2 := hd c.minute.val (by omega)
  have h3 := hd c.second.val (by omega)
  have h4 : '\n' ∉ l.padded := by cases l <;> decide
  unfold plainRecord Clock.text
  simp [h, h1, h2, h3, h4]

theorem record_eq (colour : Bool) (c : Clock) (l : Level) (m : Text) : ∃ line, recordText colour c l m = line ++ ['\n'] ∧
    ('\n' ∉ m → '\n' ∉ line) ∧ (if colour then unstyled line else line) = plainRecord c l m := by
  cases colour with
  | false =>
    refine ⟨plainRecord c l m, ?_, plainRecord_newline, rfl⟩
    simp [recordText, plainRecord]
  | true =>
    refine ⟨l.style ++ plainRecord c l m ++ Char.ofNat 27 :: "[0m".toList, ?_, fun h => ?_, ?_⟩
    · simp [recordText, plainRecord]
    · have h0 := plainRecord_newline (c := c) (l := l) h
      have h1 : '\n' ∉ l.style := by cases l <;> decide
      have h2 : '\n' ∉ Char.ofNat 27 :: "[0m".toList := by decide
      simp only [List.mem_append, not_or]
      exact ⟨⟨h1, h0⟩, h2⟩
    · simp only [if_true]
      have hs : ∃ s, l.style = s ++ ['m'] ∧ ∀ c ∈ s, (c != 'm') = true := by
        cases l
        · exact ⟨Char.ofNat 27 :: "[31".toList, by decide, by decide⟩
        · exact ⟨Char.ofNat 27 :: "[33".toList, by decide, by decide⟩
        · exact ⟨Char.ofNat 27 :: "[1".toList, by decide, by decide⟩
        · exact ⟨Char.ofNat 27 :: "[36".toList, by decide, by decide⟩
        · exact ⟨Char.ofNat 27 :: "[32".toList, by decide, by decide⟩
      obtain ⟨s, hs, hm⟩ := hs
      have he : Char.ofNat 27 :: "[0m".toList = [Char.ofNat 27, '[', '0', 'm'] := by decide
      rw [hs, he]
      generalize plainRecord c l m = r
      unfold unstyled
      rw [List.append_assoc, List.append_assoc, List.dropWhile_append_of_pos hm]
      have : ([('m' : Char)] ++ (r ++ [Char.ofNat 27, '[', '0', 'm'])).dropWhile (fun c => c != 'm') = 'm' :: (r ++ [Char.ofNat 27, '[', '0', 'm']) := by
        simp [List.dropWhile]
      rw [this, List.drop_succ_cons, List.drop_zero]
      have h4 : r ++ [Char.ofNat 27, '[', '0', 'm'] = (((r ++ [Char.ofNat 27]) ++ ['[']) ++ ['0']) ++ ['m'] := by simp
      rw [h4, List.dropLast_concat, List.dropLast_concat, List.dropLast_concat, List.dropLast_concat]

/-- **C79.** The standard error can be read line by line: each message that is shown is one line, from which its time, its level and its text can be
read, as long as the texts have no line feeds. -/
theorem stderr_read (env : LogEnv) (toml : Err) (colour : Bool) (f : LevelFilter) (log : List (Clock × MainLine))
    (hn : ∀ x ∈ log, x.2.level ∈ Shows f → '\n' ∉ x.2.text env toml) :
    (linesOf (stderrText env toml colour f log)).map (fun l => readRecord (if colour then unstyled l else l)) =
      (log.filter fun x => decide (x.2.level ∈ Shows f)).map fun x =>
        some (x.1.hour.val, x.1.minute.val, x.1.second.val, x.2.level, x.2.text env toml) := by
  have hf : log.filter (fun x => logShown f x.2.target x.2.level) = log.filter fun x => decide (x.2.level ∈ Shows f) := by
    refine List.filter_congr fun x _ => ?_
    rw [Bool.eq_iff_iff, (level_shown f x.2.target x.2.level).1 (target_own x.2), decide_eq_true_eq]
  unfold stderrText
  rw [hf]
  have hn' : ∀ x ∈ log.filter fun x => decide (x.2.level ∈ Shows f), '\n' ∉ x.2.text env toml := by
    intro x hx
    obtain ⟨h1, h2⟩ := List.mem_filter.1 hx
    exact hn x h1 (by simpa using h2)
  generalize log.filter (fun x => decide (x.2.level ∈ Shows f)) = rs at hn'
  induction rs with
  | nil => rfl
  | cons x rs ih =>
    obtain ⟨line, h1, h2, h3⟩ := record_eq colour x.1 x.2.level (x.2.text env toml)
    rw [List.flatMap_cons, h1, List.append_assoc, List.singleton_append, linesOf_line (h2 (hn' x (by simp))), List.map_cons, List.map_cons,
      ih fun y hy => hn' y (by simp [hy]), h3, plainRecord_read]

/-! ### Line feeds in the log of the program -/

theorem spelled_values {decl : List CliOption} {b : Bool} {is : List CliItem} {as : List Text} (h : Spelled decl b is as) (hc : CleanArgs as)
    {n v : Text} (hv : .opt n v ∈ is) : ∀ c ∈ v, 0x20 ≤ c.toNat := by
  have tail : ∀ {a : Text} {as : List Text}, CleanArgs (a :: as) → CleanArgs as := fun h x hx => h x (by simp [hx])
  induction h with
  | nil => cases hv
  | longFlag _ _ ih =>
    rcases List.mem_cons.1 hv with hv | hv
    · cases hv
    · exact ih (tail hc) hv
  | longEquals _ _ ih =>
    rcases List.mem_cons.1 hv with hv | hv
    · cases hv
      intro c hcv
      exact hc _ (List.mem_cons_self ..) c (by simp [hcv])
    · exact ih (tail hc) hv
  | longNext _ _ _ ih =>
    rcases List.mem_cons.1 hv with hv | hv
    · cases hv
      intro c hcv
      exact hc _ (by simp) c hcv
    · exact ih (tail (tail hc)) hv
  | letters _ _ _ ih =>
    rcases List.mem_append.1 hv with hv | hv
    · obtain ⟨_, -, hv⟩ := List.mem_map.1 hv; cases hv
    · exact ih (tail hc) hv
  | letterAttached _ _ _ _ ih =>
    rcases List.mem_append.1 hv with hv | hv
    · obtain ⟨_, -, hv⟩ := List.mem_map.1 hv; cases hv
    · rcases List.mem_cons.1 hv with hv | hv
      · cases hv
        intro c hcv
        refine hc _ (List.mem_cons_self ..) c ?_
        simp only [List.mem_cons] at hcv
        simp only [List.cons_append, List.mem_cons, List.mem_append]
        rcases hcv with hcv | hcv <;> simp [hcv]
      · exact ih (tail hc) hv
  | letterEquals _ _ _ ih =>
    rcases List.mem_append.1 hv with hv | hv
    · obtain ⟨_, -, hv⟩ := List.mem_map.1 hv; cases hv
    · rcases List.mem_cons.1 hv with hv | hv
      · cases hv
        intro c hcv
        exact hc _ (List.mem_cons_self ..) c (by simp [hcv])
      · exact ih (tail hc) hv
  | letterNext _ _ _ _ ih =>
    rcases List.mem_append.1 hv with hv | hv
    · obtain ⟨_, -, hv⟩ := List.mem_map.1 hv; cases hv
    · rcases List.mem_cons.1 hv with hv | hv
      · cases hv
        intro c hcv
        exact hc _ (by simp) c hcv
      · exact ih (tail (tail hc)) hv
  | word _ _ _ ih =>
    rcases List.mem_cons.1 hv with hv | hv
    · cases hv
    · exact ih (tail hc) hv
  | rest => obtain ⟨_, -, hv⟩ := List.mem_map.1 hv; cases hv

theorem reads_chars {s : Text} {ts : List Tok} (h : Reads s ts) {c : Char} (hc : .ch c ∈ ts) : c ∈ s := by
  induction h with
  | nil => cases hc
  | char d _ _ _ ih =>
    rcases List.mem_cons.1 hc with hc | hc
    · cases hc; simp
    · simp [ih hc]
  | open2 _ ih =>
    rcases List.mem_cons.1 hc with hc | hc
    · cases hc; simp
    · simp [ih hc]
  | close2 _ ih =>
    rcases List.mem_cons.1 hc with hc | hc
    · cases hc; simp
    · simp [ih hc]
  | close1 _ _ ih =>
    rcases List.mem_cons.1 hc with hc | hc
    · cases hc; simp
    · simp [ih hc]
  | name _ ih =>
    rcases List.mem_cons.1 hc with hc | hc
    · cases hc
    · simp [ih hc]
  | hash _ ih =>
    rcases List.mem_cons.1 hc with hc | hc
    · cases hc
    · simp [ih hc]

theorem flat_literal {es : List TemplateElement} {s : Text} (h : .literal s ∈ es) {c : Char} (hc : c ∈ s) : .ch c ∈ flat es := by
  induction es with
  | nil => cases h
  | cons e es ih =>
    rcases List.mem_cons.1 h with rfl | h'
    · simp [flat, hc]
    · have := ih h'
      cases e <;> simp [flat, this]

/-- The templates that clean arguments ask for are clean. -/
theorem template_clean {uenv : UrlEnv} {lossy : Bytes → Text} {W : World} {args : List Text} (hc : CleanArgs args) {t : List TemplateElement} {m : Magnet}
    (h : AsksFor (cliReaders uenv lossy) W args t m) : ∀ s, .literal s ∈ t → ∀ c ∈ s, 0x20 ≤ c.toNat := by
  have key : ∀ {decl : List CliOption} {is : List CliItem} {front back : List Text} {name o : Text}, args = front ++ name :: back →
      Spelled decl true is back → ValueOr is "outfile".toList "{name}.torrent".toList o → PathTemplate.fromStr o = .ok t →
      ∀ s, .literal s ∈ t → ∀ c ∈ s, 0x20 ≤ c.toNat := by
    intro decl is front back name o ha hs ho ht s hs' c hcs
    have hr := (template_accepts_iff o (flat t)).1 ⟨t, ht, rfl⟩
    have hco := reads_chars hr (flat_literal hs' hcs)
    rcases ho with ho | ⟨-, rfl⟩
    · refine spelled_values hs (fun a hab => hc a ?_) ho c hco
      rw [ha]; simp [hab]
    · have : ∀ c ∈ "{name}.torrent".toList, 0x20 ≤ c.toNat := by decide
      exact this c hco
  cases h with
  | get hm hcmd =>
    obtain ⟨front, gs, name, decl, back, is, ha, -, -, -, -, hs, -, hcm⟩ := hm
    rw [hcmd] at hcm
    generalize hn : name = nm at hcm
    cases hcm with
    | get _ ho ht _ => exact key ha hs ho ht
  | batch hm hcmd =>
    obtain ⟨front, gs, name, decl, back, is, ha, -, -, -, -, hs, -, hcm⟩ := hm
    rw [hcmd] at hcm
    generalize hn : name = nm at hcm
    cases hcm with
    | batch _ ho ht _ => exact key ha hs ho ht
  | peer hm hcmd =>
    obtain ⟨front, gs, name, decl, back, is, ha, -, -, -, -, hs, -, hcm⟩ := hm
    rw [hcmd] at hcm
    generalize hn : name = nm at hcm
    cases hcm with
    | queryPeer _ _ _ ho ht _ _ _ _ => exact key ha hs ho ht

theorem linesDenote_mem {P : Text → Magnet → Prop} {ls : List Bytes} {ms : List Magnet} (h : LinesDenote P ls ms) {m : Magnet} (hm : m ∈ ms) :
    ∃ s, P s m := by
  induction h with
  | nil => cases hm
  | skip _ _ ih => exact ih hm
  | magnet _ hp _ ih =>
    rcases List.mem_cons.1 hm with rfl | hm
    · exact ⟨_, hp⟩
    · exact ih hm

/-- The trackers of the links that are asked for have been accepted. -/
theorem asksFor_trackers {W : World} {args : List Text} {t : List TemplateElement} {m : Magnet}
    (h : AsksFor (cliReaders W.uenv W.lossy) W args t m) {k : Tracker} (hk : k ∈ m.trackers) : ∃ s, Tracker.parse (urlParse W.uenv) s = .ok k := by
  have key : ∀ {s : Text}, IsMagnetLink W.uenv W.lossy s m → ∃ s, Tracker.parse (urlParse W.uenv) s = .ok k := by
    rintro s ⟨q, -, hd⟩
    obtain ⟨-, -, ht⟩ := hd
    obtain ⟨v, -, hv⟩ := forall₂_left ht hk
    exact ⟨v, hv⟩
  cases h with
  | get hm hcmd =>
    obtain ⟨front, gs, name, decl, back, is, ha, -, -, -, -, hs, -, hcm⟩ := hm
    rw [hcmd] at hcm
    generalize hn : name = nm at hcm
    cases hcm with
    | get _ _ _ hl => exact key ((magnet_iff _ _ _ _).1 hl)
  | batch _ _ _ hl hmm =>
    obtain ⟨ls, -, hd⟩ := hl
    obtain ⟨s, hs⟩ := linesDenote_mem hd hmm
    exact key hs
  | peer => cases hk

theorem about_level {W : World} {args : List Text} {lvl : LevelFilter} {d : Done} {log : List MainLine} (h : ProgramLog W args lvl d log)
    {y : LogLine} (hy : .about y ∈ log) : y.level = .error ∨ y.level = .warn ∨ ∃ m, y = .fetching m := by
  have hconf : ∀ {l : CommandLine}, ¬ MainLine.about y ∈ W.configLog l := by
    intro l hx
    obtain ⟨-, ⟨hx, -⟩ | ⟨p, -, hx | ⟨hx, -⟩ | ⟨e, hx, -⟩⟩⟩ := config_log_lines hx <;> cases hx
  have hdl : ∀ {env : GetEnv} {template : List TemplateElement} {m : Magnet} {mse : Peer → MseError} {failed : DownloadFailure → LogLine}
      {tr : ResolveTrace Tracker Peer SockAddr TorrentInfo TaskError} {r : Resolved Tracker SockAddr TorrentInfo TaskError},
      (∀ f, (failed f).level = .error) → .about y ∈ downloadLog env template m mse failed tr r →
      y.level = .error ∨ y.level = .warn ∨ ∃ m, y = .fetching m := by
    intro env template m mse failed tr r hf hx
    unfold downloadLog at hx
    simp only [List.mem_append, List.mem_map, Option.mem_toList] at hx
    rcases hx with (⟨z, hz, hzy⟩ | hx) | ⟨f, -, hfy⟩
    · cases hzy
      rcases mem_getLog.1 hz with rfl | ⟨_, _, _, _, _, -, -, rfl⟩ | ⟨_, _, -, rfl⟩
      · exact .inr (.inr ⟨_, rfl⟩)
      · exact .inr (.inl rfl)
      · exact .inr (.inl rfl)
    · unfold resultLog at hx
      split at hx
      · obtain ⟨o, ho⟩ := saveLog_only hx; cases ho
      · cases hx
    · cases hfy
      exact .inl (hf f)
  cases h with
  | unconfigured hp hc => exact absurd hy hconf
  | @ran l cfg _ clog hp hc hr =>
    rcases List.mem_append.1 hy with hx | hx
    · exact absurd hx hconf
    rcases List.mem_cons.1 hx with hx | hx
    · cases hx
    generalize l.command = c at hr
    cases hr with
    | get mse hg hr => exact hdl (failed := .getFailed) (fun _ => rfl) hx
    | @batch template file tr jobs s code logs jl hb hex hnc hlogs hint =>
      unfold batchLog at hx
      split at hx
      · cases List.mem_singleton.1 hx; exact .inl rfl
      · split at hx
        · rcases List.mem_append.1 hx with hx | hx
          · obtain ⟨j, hj, l', -, ⟨gtr, gs, mse, hg, hr, rfl⟩, hx⟩ := (mem_jobs_log hlogs hint).1 hx
            exact hdl (fun _ => rfl) hx
          · cases List.mem_singleton.1 hx
        · cases List.mem_singleton.1 hx
    | @queryTracker json no req sup t ih tr s r ht hr =>
      cases r with
      | ok ps => cases hx
      | error e => cases List.mem_singleton.1 hx; exact .inl rfl
    | dhtError e => cases List.mem_singleton.1 hx
    | @queryDht json ih lookup my v6 es st tr req found hd hq hans =>
      unfold queryDhtLog at hx
      simp only at hx
      split at hx
      · cases List.mem_singleton.1 hx
      · cases hx
    | @queryPeer enc no pre template peer ih effects code mse hq =>
      unfold queryPeerLog at hx
      split at hx
      · rcases List.mem_append.1 hx with hx | hx
        · obtain ⟨o, ho⟩ := saveLog_only hx; cases ho
        · split at hx
          · cases hx
          · split at hx
            · cases hx
            · cases List.mem_singleton.1 hx
      · cases List.mem_singleton.1 hx; exact .inl rfl
      · cases hx
      · cases hx

theorem clean_eq {t u : Text} (h : t = u) (hu : ∀ c ∈ u, 0x20 ≤ c.toNat) : ∀ c ∈ t, 0x20 ≤ c.toNat := h ▸ hu

theorem noHome_clean (env : LogEnv) (toml : Err) : ∀ c ∈ MainLine.text env toml .noHome, 0x20 ≤ c.toNat := by
  refine clean_eq (u := "Failed to locate configuration file: could not determine user's home directory".toList) ?_ (by decide +kernel)
  unfold MainLine.text
  dsimp only

theorem noConfigFile_clean (env : LogEnv) (toml : Err) : ∀ c ∈ MainLine.text env toml .noConfigFile, 0x20 ≤ c.toNat := by
  refine clean_eq (u := "Default configuration file does not exist; using default settings".toList) ?_ (by decide +kernel)
  unfold MainLine.text
  dsimp only

theorem noMagnets_clean (env : LogEnv) (toml : Err) : ∀ c ∈ MainLine.text env toml .noMagnets, 0x20 ≤ c.toNat := by
  refine clean_eq (u := "No magnet links supplied".toList) ?_ (by decide +kernel)
  unfold MainLine.text
  dsimp only

theorem noDhtPeers_clean (env : LogEnv) (toml : Err) : ∀ c ∈ MainLine.text env toml .noDhtPeers, 0x20 ≤ c.toNat := by
  refine clean_eq (u := "No peers found on DHT".toList) ?_ (by decide +kernel)
  unfold MainLine.text
  dsimp only

/-- **C79.** No message of a run has a line feed (or another character below the blank) in its text, whatever links, trackers, peers and torrents say,
if the arguments have none. -/
theorem program_lines {W : World} {args : List Text} {lvl : LevelFilter} {d : Done} {log : List MainLine}
    (hdht : DhtConfig.dflt W.parseHost = some W.dht) (h : ProgramLog W args lvl d log) {env : LogEnv} {toml : Err} (hs : EnvShown env)
    (ht : ErrShown env.plain toml) (hp : ∀ c, IsControl c → env.plain c = false) (hi : IdnaOk W.uenv.idna) (hc : CleanArgs args)
    (hd : ∀ p, W.defaultPath = some p → ∀ c ∈ p, 0x20 ≤ c.toNat) {x : MainLine} (hx : x ∈ log) : ∀ c ∈ x.text env toml, 0x20 ≤ c.toNat := by
  have shown : ∀ {t : Text}, AllShown env.plain t → ∀ c ∈ t, 0x20 ≤ c.toNat := by
    intro t h c hc
    rcases h c hc with h1 | h1
    · exact h1.1
    · apply Classical.byContradiction
      intro hlt
      rw [hp c (.inl (by omega))] at h1
      cases h1
  have path : ∀ {l : CommandLine} {p : Text}, CommandLineMeans (cliReaders W.uenv W.lossy) args l →
      (l.config = some p ∨ l.config = none ∧ W.defaultPath = some p) → ∀ c ∈ p, 0x20 ≤ c.toNat := by
    rintro l p ⟨front, gs, name, decl, back, is, ha, hg, -, hgm, -⟩ (hcp | ⟨-, hcp⟩)
    · exact spelled_values hg (fun a hab => hc a (by rw [ha]; simp [hab])) ((hgm.config p).1 hcp)
    · exact hd p hcp
  have append : ∀ {s t : Text}, (∀ c ∈ s, 0x20 ≤ c.toNat) → (∀ c ∈ t, 0x20 ≤ c.toNat) → ∀ c ∈ s ++ t, 0x20 ≤ c.toNat := by
    intro s t h1 h2 c hc
    rcases List.mem_append.1 hc with hc | hc
    · exact h1 c hc
    · exact h2 c hc
  cases x with
  | about y =>
    refine shown (log_shown hs y fun t hty => ?_)
    rcases about_level h hx with hl | hl | ⟨m, rfl⟩
    · cases errors_true hdht h hx hl <;> cases hty
    · cases warnings_true hdht h hx hl with
      | tracker ha hcfg hm _ _ _ =>
        obtain ⟨s, hs⟩ := asksFor_trackers ha hm
        rw [List.mem_singleton.1 hty]
        exact ⟨W.uenv, s, hi, hs⟩
      | peer => cases hty
    · cases hty
  | saving m out =>
    obtain ⟨t, ha, info, -, -, rfl⟩ := saving_true hdht h hx
    exact saving_no_newline hp t (template_clean hc ha) _ m m.infoHash
  | readingConfig p =>
    have hr := log_run h
    obtain ⟨l, hm⟩ : ∃ l, CommandLineMeans (cliReaders W.uenv W.lossy) args l := by
      cases h with
      | unconfigured hp' => exact ⟨_, (command_line_iff _ _ _ _).1 hp'⟩
      | ran hp' => exact ⟨_, (command_line_iff _ _ _ _).1 hp'⟩
    have := ((config_told h hm).2.1 p).1 hx
    unfold MainLine.text
    exact append (append (shown (shown_ascii (by decide))) (path hm this.2)) (shown (shown_ascii (by decide)))
  | badConfig p e =>
    cases errors_true hdht h hx rfl with
    | badConfig hm hn hcp hu =>
      unfold MainLine.text
      refine append (append (append (shown (shown_ascii (by decide))) (path hm ?_)) (shown (shown_ascii (by decide)))) (shown (shown_chain _ ?_))
      · rcases hcp with hcp | ⟨h1, h2, -⟩
        · exact .inl hcp
        · exact .inr ⟨h1, h2⟩
      · cases e
        · exact ⟨shown_ascii (by decide), hs.io⟩
        · exact ⟨shown_ascii (by decide), hs.io⟩
        · exact ⟨shown_ascii (by decide), ht⟩
  | localPeer id key port =>
    have := shown_debugBytes (p := env.plain) id.bytes
    refine shown ?_
    unfold MainLine.text PeerId.text
    shown
  | dhtFailed e =>
    refine shown ?_
    have : AllShown env.plain (errorChain (e.err env)) := by
      refine shown_chain _ ?_
      cases e
      · exact ⟨shown_ascii (by decide), shown_ascii (by decide), hs.io⟩
      · exact shown_ascii (by decide)
    unfold MainLine.text
    shown
  | writeFailed =>
    refine shown ?_
    have := shown_chain _ hs.io
    unfold MainLine.text
    shown
  | converted s t => refine shown ?_; unfold MainLine.text; shown
  | noHome => exact noHome_clean env toml
  | noConfigFile => exact noConfigFile_clean env toml
  | noMagnets => exact noMagnets_clean env toml
  | noDhtPeers => exact noDhtPeers_clean env toml

/-- **C79.** What the program writes to the standard error can be read line by line: the lines are the messages of the log that the level asked for
includes, each with its time, level and text. -/
theorem program_stderr {W : World} {args : List Text} {lvl : LevelFilter} {d : Done} {log : List (Clock × MainLine)}
    (hdht : DhtConfig.dflt W.parseHost = some W.dht) (h : ProgramLog W args lvl d (log.map Prod.snd)) {env : LogEnv} {toml : Err} (hs : EnvShown env)
    (ht : ErrShown env.plain toml) (hp : ∀ c, IsControl c → env.plain c = false) (hi : IdnaOk W.uenv.idna) (hc : CleanArgs args)
    (hd : ∀ p, W.defaultPath = some p → ∀ c ∈ p, 0x20 ≤ c.toNat) (colour : Bool) :
    (linesOf (stderrText env toml colour lvl log)).map (fun l => readRecord (if colour then unstyled l else l)) =
      (log.filter fun x => decide (x.2.level ∈ Shows lvl)).map fun x =>
        some (x.1.hour.val, x.1.minute.val, x.1.second.val, x.2.level, x.2.text env toml) := by
  refine stderr_read env toml colour lvl log fun x hx _ hn => ?_
  have := program_lines hdht h hs ht hp hi hc hd (List.mem_map_of_mem hx) _ hn
  revert this
  decide

theorem summary_head (r : Text) : ∀ c, (" magnet links successfully converted to torrent files".toList ++ r).head? = some c → c.isDigit = false := by
  intro c hc
  have : " magnet links successfully converted to torrent files".toList = ' ' :: "magnet links successfully converted to torrent files".toList := by
    decide +kernel
  rw [this] at hc
  cases hc
  decide

/-- **C79.** With the default level, all messages of a run are shown but the one about the local peer and those about which configuration file is
read: each link that is fetched, each file that is saved, each warning and error, and the summary of a batch. -/
theorem default_shown {W : World} {args : List Text} {lvl : LevelFilter} {d : Done} {log : List MainLine} (h : ProgramLog W args lvl d log)
    {x : MainLine} (hx : x ∈ log) : x ∈ shownLog .info log ↔ (∀ p, x ≠ .readingConfig p) ∧ x ≠ .noConfigFile ∧ ∀ i k p, x ≠ .localPeer i k p := by
  rw [shown_levels, List.mem_filter, decide_eq_true_eq]
  simp only [hx, true_and]
  cases x with
  | about y =>
    have hl : y.level = .error ∨ y.level = .warn ∨ y.level = .info := by
      rcases about_level h hx with hl | hl | ⟨m, rfl⟩
      · exact .inl hl
      · exact .inr (.inl hl)
      · exact .inr (.inr rfl)
    have : (MainLine.about y).level = y.level := rfl
    rw [this]
    rcases hl with hl | hl | hl <;> rw [hl] <;> simp [Shows]
  | _ => simp [Shows, MainLine.level]

/-- **C79.** The numbers in the summary of a batch, the details of the local peer and the path of the configuration file can be told from their
messages. -/
theorem main_log_faithful (env : LogEnv) (toml : Err) :
    (∀ s t s' t', MainLine.text env toml (.converted s t) = MainLine.text env toml (.converted s' t') → s = s' ∧ t = t') ∧
    (∀ i k p i' k' p', MainLine.text env toml (.localPeer i k p) = MainLine.text env toml (.localPeer i' k' p') → i = i' ∧ k = k' ∧ p = p') ∧
    (∀ p p', MainLine.text env toml (.readingConfig p) = MainLine.text env toml (.readingConfig p') → p = p') := by
  refine ⟨fun s t s' t' h => ?_, fun i k p i' k' p' h => ?_, fun p p' h => ?_⟩
  · unfold MainLine.text at h
    dsimp only at h
    simp only [List.append_assoc] at h
    obtain ⟨h1, h2⟩ := decimal_comma (by decide) (by decide) h
    obtain ⟨h3, -⟩ := decimal_cancel (summary_head []) (summary_head []) (by simpa only [List.append_nil] using h2)
    exact ⟨h1, h3⟩
  · unfold MainLine.text PeerId.text at h
    dsimp only at h
    simp only [List.append_assoc] at h
    obtain ⟨h1, h2⟩ := debugBytes_cancel (List.append_cancel_left h)
    obtain ⟨h3, h4⟩ := decimal_comma (by decide) (by decide) (List.append_cancel_left h2)
    refine ⟨?_, BitVec.eq_of_toNat_eq h3, BitVec.eq_of_toNat_eq (decimal_inj h4)⟩
    cases i; cases i'; simpa using h1
  · unfold MainLine.text at h
    dsimp only at h
    exact List.append_cancel_left (List.append_cancel_right h)

/-! ### Examples -/

example : recordText false ⟨12, 5, 9⟩ .warn "too late".toList = "12:05:09 [WARN ] too late\n".toList := by decide +kernel
example : recordText true ⟨12, 5, 9⟩ .info "m".toList = "\x1b[1m12:05:09 [INFO ] m\x1b[0m\n".toList := by decide +kernel
example : readRecord "23:59:60 [DEBUG] [x] y".toList = some (23, 59, 60, .debug, "[x] y".toList) := by decide +kernel

-- the log of a download that failed, with the default level: three of the five messages are shown, each on a line
example : ∃ answers d log, ProgramLog (exWorld answers) ["-cmy.toml".toList, "get".toList, exVainLink] .info d (log.map Prod.snd) ∧
    (linesOf (stderrText sampleLogEnv sampleLogEnv.io true .info log)).map (fun l => (readRecord (unstyled l)).map fun r => r.2.2.2.1) =
      [some .info, some .warn, some .error] := by
  obtain ⟨answers, d, log, h, -, hlog⟩ := exVain_log
  have hdht : DhtConfig.dflt (exWorld answers).parseHost = some (exWorld answers).dht := by
    show DhtConfig.dflt exHosts = some ⟨exNodes, 2⟩
    decide +kernel
  have hm : (log.map fun x => ((⟨12, 5, 9⟩, x) : Clock × MainLine)).map Prod.snd = log := by simp [Function.comp_def]
  rw [← hm] at h
  refine ⟨answers, d, _, h, ?_⟩
  have hp : ∀ c, IsControl c → sampleLogEnv.plain c = false := by
    intro c hc
    cases he : sampleLogEnv.plain c with
    | false => rfl
    | true =>
      have he : (c.isAlphanum || c == ' ') = true := he
      rw [Bool.or_eq_true, beq_iff_eq] at he
      unfold IsControl at hc
      rcases he with he | rfl
      · simp only [Char.isAlphanum, Char.isAlpha, Char.isUpper, Char.isLower, Char.isDigit, Bool.or_eq_true, Bool.and_eq_true, decide_eq_true_eq,
          UInt32.le_iff_toNat_le] at he
        have hv : c.toNat = c.val.toNat := rfl
        simp at he
        omega
      · revert hc; decide
  have hr := program_stderr hdht h sampleLogEnv_shown (toml := sampleLogEnv.io) sampleLogEnv_shown.io hp nameEnv_ok (by unfold CleanArgs exVainLink; decide +kernel)
    (fun p hp => by cases hp) true
  have := congrArg (List.map (Option.map fun r => r.2.2.2.1)) hr
  simp only [List.map_map, Function.comp_def, if_true] at this
  refine Eq.trans this ?_
  rw [hlog]
  rfl

end Demag.Props
