import Verif.Props.Settings
import Verif.Props.Connect
import Verif.Spec.App

/-!
# C61: the program's configuration and exit status; C62: one DHT actor; C31: the flags of `query-peer`
-/

namespace Demag.Props

open Demag Spec

section
variable {P : Type} (parseToml : Text → Option (List (Text × Toml))) (parseHost : Text → Option Host) (dht : DhtConfig)

theorem load_ok (f : FileText) (cfg : Config) : Config.load parseToml parseHost dht f = .ok cfg ↔
    ∃ t doc, f = .text t ∧ parseToml t = some doc ∧ readConfig parseHost dht doc = some cfg := by
  cases f with
  | notFound => simp [Config.load]
  | failed => simp [Config.load]
  | text t =>
    simp only [Config.load, FileText.text.injEq]
    cases h1 : parseToml t with
    | none => simp only [reduceCtorEq, false_iff]; rintro ⟨_, _, rfl, h, _⟩; rw [h1] at h; cases h
    | some doc =>
      simp only
      cases h2 : readConfig parseHost dht doc with
      | none => simp only [reduceCtorEq, false_iff]; rintro ⟨_, _, rfl, h, h'⟩; rw [h1] at h; cases h; rw [h2] at h'; cases h'
      | some c =>
        simp only [Except.ok.injEq]
        constructor
        · rintro rfl; exact ⟨t, doc, rfl, h1, h2⟩
        · rintro ⟨_, _, rfl, h, h'⟩; rw [h1] at h; cases h; rw [h2] at h'; cases h'; rfl

theorem load_notFound (f : FileText) : Config.load parseToml parseHost dht f = .error .notFound ↔ f = .notFound := by
  cases f with
  | notFound => simp [Config.load]
  | failed => simp [Config.load]
  | text t =>
    simp only [Config.load, reduceCtorEq, iff_false]
    split
    · simp
    · split <;> simp

/-- **C61.** Which configuration is used: the one the options and the files demand; and if there is none (a file that cannot be read
or is not accepted, no home directory), none is made up. -/
theorem config_choice (dflt cfg : Config) (defaultPath : Option P) (fs : P → FileText) (args : Arguments P) :
    args.chooseConfig (Config.load parseToml parseHost dht) dflt defaultPath fs = some cfg ↔
      Chosen (fun f cfg => ∃ t doc, f = .text t ∧ parseToml t = some doc ∧ readConfig parseHost dht doc = some cfg)
        dflt defaultPath fs args cfg := by
  obtain ⟨config, no⟩ := args
  simp only [← load_ok]
  unfold Arguments.chooseConfig
  cases no with
  | true =>
    simp only [if_true, Option.some.injEq]
    constructor
    · rintro rfl; exact .none
    · rintro ⟨⟩; rfl
  | false =>
    simp only [Bool.false_eq_true, if_false]
    cases config with
    | some p =>
      simp only
      cases hl : Config.load parseToml parseHost dht (fs p) with
      | ok c =>
        simp only [Option.some.injEq]
        constructor
        · rintro rfl; exact .named hl
        · rintro (_ | h); rw [hl] at h; cases h; rfl
      | error e =>
        simp only [Bool.false_eq_true, and_false, if_false, reduceCtorEq, false_iff]
        rintro (_ | h); rw [hl] at h; cases h
    | none =>
      cases defaultPath with
      | none =>
        simp only [reduceCtorEq, false_iff]
        rintro (_ | _ | ⟨h, _⟩ | ⟨h, _⟩) <;> cases h
      | some p =>
        simp only
        cases hl : Config.load parseToml parseHost dht (fs p) with
        | ok c =>
          simp only [Option.some.injEq]
          constructor
          · rintro rfl; exact .usual rfl hl
          · rintro (_ | _ | ⟨h, h'⟩ | ⟨h, h'⟩)
            · cases h; rw [hl] at h'; cases h'; rfl
            · cases h; rw [h'] at hl; simp [Config.load] at hl
        | error e =>
          by_cases he : e = .notFound
          · subst he
            rw [load_notFound] at hl
            simp only [true_and, if_true, Option.some.injEq]
            constructor
            · rintro rfl; exact .missing rfl hl
            · rintro (_ | _ | ⟨h, h'⟩ | ⟨h, h'⟩)
              · cases h; rw [hl] at h'; simp [Config.load] at h'
              · rfl
          · simp only [he, false_and, if_false, reduceCtorEq, false_iff]
            rintro (_ | _ | ⟨h, h'⟩ | ⟨h, h'⟩)
            · cases h; rw [hl] at h'; cases h'
            · cases h; rw [(load_notFound ..).2 h'] at hl; cases hl; exact he rfl

/-- **C61.** Without a configuration nothing is run and the program fails.  With one, the command is run once, with it; then the DHT actor is told to stop
if there is one, then the announcements that are left get the configured time, and then the program ends with the command's status. -/
theorem program_steps (load : FileText → Except ConfigError Config) (dflt : Config) (defaultPath : Option P) (fs : P → FileText)
    (command : Config → Option ExitCode × Bool) (args : Arguments P) :
    (args.chooseConfig load dflt defaultPath fs = none ∧ args.run load dflt defaultPath fs command = [.exit .failure]) ∨
    ∃ cfg, args.chooseConfig load dflt defaultPath fs = some cfg ∧
      ((∃ b, command cfg = (none, b) ∧ args.run load dflt defaultPath fs command = [.command cfg, .exit .crash]) ∨
       (∃ r, command cfg = (some r, true) ∧
         args.run load dflt defaultPath fs command = [.command cfg, .stopDht, .stopGroup cfg.trackers.shutdownTimeout, .exit r]) ∨
       (∃ r, command cfg = (some r, false) ∧
         args.run load dflt defaultPath fs command = [.command cfg, .stopGroup cfg.trackers.shutdownTimeout, .exit r])) := by
  unfold Arguments.run
  cases h : args.chooseConfig load dflt defaultPath fs with
  | none => exact .inl ⟨rfl, rfl⟩
  | some cfg =>
    refine .inr ⟨cfg, rfl, ?_⟩
    simp only
    rcases hc : command cfg with ⟨_ | r, _ | _⟩
    · exact .inl ⟨_, rfl, rfl⟩
    · exact .inl ⟨_, rfl, rfl⟩
    · exact .inr (.inr ⟨r, rfl, rfl⟩)
    · exact .inr (.inl ⟨r, rfl, rfl⟩)

/-- **C61.** The program reports success iff it had a configuration and the command it ran with it did. -/
theorem program_succeeds (dflt : Config) (defaultPath : Option P) (fs : P → FileText) (command : Config → Option ExitCode × Bool)
    (args : Arguments P) :
    ProgramStep.exit .success ∈ args.run (Config.load parseToml parseHost dht) dflt defaultPath fs command ↔
      ∃ cfg, Chosen (fun f cfg => ∃ t doc, f = .text t ∧ parseToml t = some doc ∧ readConfig parseHost dht doc = some cfg)
        dflt defaultPath fs args cfg ∧ (command cfg).1 = some .success := by
  simp only [← config_choice]
  rcases program_steps (Config.load parseToml parseHost dht) dflt defaultPath fs command args with
    ⟨h1, h2⟩ | ⟨cfg, h1, ⟨b, h2, h3⟩ | ⟨r, h2, h3⟩ | ⟨r, h2, h3⟩⟩
  · rw [h2, h1]; simp
  · rw [h3, h1]; simp [h2]
  · rw [h3, h1]
    simp only [List.mem_cons, reduceCtorEq, false_or, ProgramStep.exit.injEq, List.not_mem_nil, or_false, Option.some.injEq, exists_eq_left', h2]
    exact eq_comm
  · rw [h3, h1]
    simp only [List.mem_cons, reduceCtorEq, false_or, ProgramStep.exit.injEq, List.not_mem_nil, or_false, Option.some.injEq, exists_eq_left', h2]
    exact eq_comm

end

/-- A command that is not run without a configuration: a file is named that does not exist, although defaults there would be. -/
example : (Arguments.mk (some 7) false).run (Config.load (fun _ => some exFull) exHosts ⟨exNodes, 2⟩) (Config.dflt ⟨exNodes, 2⟩) (some 3)
    (fun p => if p = 3 then .text [] else .notFound) (fun _ => (some .success, true)) = [.exit .failure] := by decide +kernel

/-- The file in the usual place is used if none is named. -/
example : Chosen (fun f cfg => ∃ t doc, f = .text t ∧ (fun _ => some exFull) t = some doc ∧ readConfig exHosts ⟨exNodes, 2⟩ doc = some cfg)
    (Config.dflt ⟨exNodes, 2⟩) (some 3) (fun p => if p = 3 then .text [] else .notFound) (Arguments.mk none false)
    ⟨⟨100, .ifRequired⟩, ⟨.range 10000 65535, 75, 42, 45, 5⟩, ⟨23, 120, 10⟩, ⟨[⟨.domain "router.example.com".toList, 6881⟩], 15⟩⟩ :=
  .usual rfl ⟨_, _, rfl, rfl, exFull_read⟩

/-! ### C31 -/

/-- **C31.** The flags of `query-peer`, of which the option parser takes at most one: which attempts they allow for a peer of whom it is not
known that it requires encryption. -/
theorem query_peer_mode (encrypt prefer noEncrypt : Bool) (h : [encrypt, prefer, noEncrypt].count true ≤ 1) (pref : CryptoPreference) :
    getCryptoMode (queryPeerMode encrypt prefer noEncrypt) pref false =
      if encrypt then some .encrypt else if prefer then some .prefer else if noEncrypt then some .plain
      else getCryptoMode none pref false := by
  cases encrypt <;> cases prefer <;> cases noEncrypt <;> simp_all [queryPeerMode, getCryptoMode]

/-! ### C62 -/

theorem actors_append (a b : List DhtCellOutput) : actors (a ++ b) = actors a ++ actors b := by
  induction a with
  | nil => rfl
  | cons x a ih => cases x <;> simp [actors, ih]

theorem dhtObserved_snoc (tr : List (DhtCellEvent × List DhtCellOutput)) (e : DhtCellEvent) (out : List DhtCellOutput) :
    dhtObserved (tr ++ [(e, out)]) = dhtObserved tr ++ out := by simp [dhtObserved]

/-- What holds at any time: an actor is cached iff one was started, it is the only one, and nobody got another one or was asked to stop another one;
while an actor is being created there is none yet. -/
theorem cell_inv {tr : List (DhtCellEvent × List DhtCellOutput)} {s : DhtCell} (h : DhtCellRun tr s) :
    (s.cached = none ∧ s.spawned = 0 ∧ actors (dhtObserved tr) = [] ∨ s.cached = some 0 ∧ s.spawned = 1 ∧ actors (dhtObserved tr) = [0]) ∧
    (∀ t, s.holder = some (t, false) → s.cached = none) ∧ (∀ t, s.holder = some (t, true) → s.cached = some 0) ∧
    (∀ t a, .got t a ∈ dhtObserved tr → s.cached = some a) ∧ (∀ a, .asked a ∈ dhtObserved tr → s.cached = some a) := by
  induction h with
  | init => simp [DhtCell.start, dhtObserved, actors]
  | @step tr s s' e out hr hs ih =>
    obtain ⟨h1, h2, h3, h4, h5⟩ := ih
    rw [dhtObserved_snoc]
    simp only [actors_append, List.mem_append]
    obtain ⟨holder, cached, spawned⟩ := s
    simp only at h1 h2 h3 h4 h5
    cases e with
    | lock t =>
      simp only [DhtCell.step] at hs
      cases holder with
      | some x => cases hs
      | none =>
        rcases h1 with ⟨rfl, rfl, ha⟩ | ⟨rfl, rfl, ha⟩
        · simp only [Option.some.injEq, Prod.mk.injEq] at hs
          obtain ⟨rfl, rfl⟩ := hs
          refine ⟨.inl ⟨rfl, rfl, by simp [ha, actors]⟩, by simp, by simp, ?_, ?_⟩
          · rintro t a (h | h); exacts [h4 t a h, by cases h]
          · rintro a (h | h); exacts [h5 a h, by cases h]
        · simp only [Option.some.injEq, Prod.mk.injEq] at hs
          obtain ⟨rfl, rfl⟩ := hs
          refine ⟨.inr ⟨rfl, rfl, by simp [ha, actors]⟩, by simp, by simp, ?_, ?_⟩
          · rintro t' a (h | h)
            · exact h4 t' a h
            · simp only [List.mem_singleton, DhtCellOutput.got.injEq] at h; rw [h.2]
          · rintro a (h | h); exacts [h5 a h, by simp at h]
    | created t ok =>
      simp only [DhtCell.step] at hs
      split at hs
      · rename_i hh
        have hc := h2 t hh
        subst hc
        rcases h1 with ⟨-, rfl, ha⟩ | ⟨h1, -⟩
        · split at hs
          · simp only [Option.some.injEq, Prod.mk.injEq] at hs
            obtain ⟨rfl, rfl⟩ := hs
            refine ⟨.inr ⟨rfl, rfl, by simp [ha, actors]⟩, by simp, by simp, ?_, ?_⟩
            · rintro t' a (h | h)
              · have := h4 t' a h; cases this
              · simp only [List.mem_cons, reduceCtorEq, DhtCellOutput.got.injEq, false_or, List.not_mem_nil, or_false] at h; rw [h.2]
            · rintro a (h | h)
              · have := h5 a h; cases this
              · simp at h
          · simp only [Option.some.injEq, Prod.mk.injEq] at hs
            obtain ⟨rfl, rfl⟩ := hs
            refine ⟨.inl ⟨rfl, rfl, by simp [ha, actors]⟩, by simp, by simp, ?_, ?_⟩
            · rintro t' a (h | h); exacts [h4 t' a h, by simp at h]
            · rintro a (h | h); exacts [h5 a h, by simp at h]
        · cases h1
      · cases hs
    | lockShutdown t =>
      simp only [DhtCell.step] at hs
      cases holder with
      | some x => cases hs
      | none =>
        rcases h1 with ⟨rfl, rfl, ha⟩ | ⟨rfl, rfl, ha⟩
        · simp only [Option.some.injEq, Prod.mk.injEq] at hs
          obtain ⟨rfl, rfl⟩ := hs
          refine ⟨.inl ⟨rfl, rfl, by simp [ha, actors]⟩, by simp, by simp, ?_, ?_⟩
          · rintro t a (h | h); exacts [h4 t a h, by simp at h]
          · rintro a (h | h); exacts [h5 a h, by simp at h]
        · simp only [Option.some.injEq, Prod.mk.injEq] at hs
          obtain ⟨rfl, rfl⟩ := hs
          refine ⟨.inr ⟨rfl, rfl, by simp [ha, actors]⟩, by simp, by simp, ?_, ?_⟩
          · rintro t' a (h | h); exacts [h4 t' a h, by simp at h]
          · rintro a (h | h)
            · exact h5 a h
            · simp only [List.mem_singleton, DhtCellOutput.asked.injEq] at h; rw [h]
    | confirmed t =>
      simp only [DhtCell.step] at hs
      split at hs
      · simp only [Option.some.injEq, Prod.mk.injEq] at hs
        obtain ⟨rfl, rfl⟩ := hs
        refine ⟨by simpa [actors] using h1, by simp, by simp, ?_, ?_⟩
        · rintro t' a (h | h); exacts [h4 t' a h, by simp at h]
        · rintro a (h | h); exacts [h5 a h, by simp at h]
      · cases hs
    | dropped t =>
      simp only [DhtCell.step] at hs
      split at hs
      · split at hs
        · simp only [Option.some.injEq, Prod.mk.injEq] at hs
          obtain ⟨rfl, rfl⟩ := hs
          refine ⟨by simpa [actors] using h1, by simp, by simp, ?_, ?_⟩
          · rintro t' a (h | h); exacts [h4 t' a h, by cases h]
          · rintro a (h | h); exacts [h5 a h, by cases h]
        · cases hs
      · cases hs

/-- **C62.** However many lookups there are, at the same time or one after the other, failing or aborted: at most one DHT actor is ever
started, every lookup that gets an actor gets that one, and the one that is told to stop is that one. -/
theorem one_dht_actor {tr : List (DhtCellEvent × List DhtCellOutput)} {s : DhtCell} (h : DhtCellRun tr s) :
    (actors (dhtObserved tr)).length ≤ 1 ∧ (∀ t a, .got t a ∈ dhtObserved tr → actors (dhtObserved tr) = [a]) ∧
    (∀ a, .asked a ∈ dhtObserved tr → actors (dhtObserved tr) = [a]) := by
  obtain ⟨h1, -, -, h4, h5⟩ := cell_inv h
  rcases h1 with ⟨hc, -, ha⟩ | ⟨hc, -, ha⟩
  · refine ⟨by simp [ha], ?_, ?_⟩
    · intro t a hg; have := h4 t a hg; rw [hc] at this; cases this
    · intro a hg; have := h5 a hg; rw [hc] at this; cases this
  · refine ⟨by simp [ha], ?_, ?_⟩
    · intro t a hg; have := h4 t a hg; rw [hc] at this; cases this; exact ha
    · intro a hg; have := h5 a hg; rw [hc] at this; cases this; exact ha

/-- **C62.** Nobody waits for the mutex for good: either it is free, and then a lookup or a shutdown gets it; or one task has it, and when what that task
waits for happens, or the task is aborted, it is free again.  A lookup that gets it while an actor runs gets that actor; one that finds none
starts one, or fails, and a failure leaves the next one free to try again. -/
theorem dht_handle_progress {tr : List (DhtCellEvent × List DhtCellOutput)} {s : DhtCell} (h : DhtCellRun tr s) :
    (s.holder = none → ∀ t,
      (∀ a, actors (dhtObserved tr) = [a] → s.step (.lock t) = some (s, [.got t a]) ∧
        ∃ s', s.step (.lockShutdown t) = some (s', [.asked a])) ∧
      (actors (dhtObserved tr) = [] → s.step (.lockShutdown t) = some (s, [.stopped t]) ∧ ∃ s', s.step (.lock t) = some (s', []) ∧
        (∃ s'' a, s'.step (.created t true) = some (s'', [.spawned a, .got t a]) ∧ s''.holder = none) ∧
        s'.step (.created t false) = some (s, [.failed t]) ∧ s'.step (.dropped t) = some (s, []))) ∧
    (∀ t stopping, s.holder = some (t, stopping) →
      (∃ s', s.step (.dropped t) = some (s', []) ∧ s'.holder = none) ∧
      (stopping = true → ∃ s', s.step (.confirmed t) = some (s', [.stopped t]) ∧ s'.holder = none) ∧
      (stopping = false → ∀ ok, ∃ s' out, s.step (.created t ok) = some (s', out) ∧ s'.holder = none)) := by
  obtain ⟨h1, h2, h3, -, -⟩ := cell_inv h
  obtain ⟨holder, cached, spawned⟩ := s
  simp only at h1 h2 h3 ⊢
  constructor
  · rintro rfl t
    rcases h1 with ⟨rfl, rfl, ha⟩ | ⟨rfl, rfl, ha⟩
    · rw [ha]
      exact ⟨by simp, fun _ => ⟨rfl, _, rfl, ⟨_, _, by simp [DhtCell.step]; exact ⟨rfl, rfl⟩, rfl⟩, by simp [DhtCell.step], by simp [DhtCell.step]⟩⟩
    · rw [ha]
      refine ⟨?_, by simp⟩
      intro a hx
      simp only [List.cons.injEq, and_true] at hx
      subst hx
      exact ⟨rfl, _, rfl⟩
  · rintro t stopping rfl
    refine ⟨⟨_, by simp [DhtCell.step]; rfl, rfl⟩, ?_, ?_⟩
    · rintro rfl; exact ⟨_, by simp [DhtCell.step]; rfl, rfl⟩
    · rintro rfl ok
      cases ok
      · exact ⟨_, _, by simp [DhtCell.step]; exact ⟨rfl, rfl⟩, rfl⟩
      · exact ⟨_, _, by simp [DhtCell.step]; exact ⟨rfl, rfl⟩, rfl⟩

/-- A history: the first lookup cannot create an actor, the second does, the third uses it, and then it is stopped. -/
theorem exCell : ∃ tr s, DhtCellRun tr s ∧ dhtObserved tr = [.failed 1, .spawned 0, .got 2 0, .got 3 0, .asked 0, .stopped 9] :=
  ⟨_, _, .step (.step (.step (.step (.step (.step (.step .init (e := .lock 1) rfl) (e := .created 1 false) rfl) (e := .lock 2) rfl)
    (e := .created 2 true) rfl) (e := .lock 3) rfl) (e := .lockShutdown 9) rfl) (e := .confirmed 9) rfl, rfl⟩

end Demag.Props
