import Verif.Lemmas.Follows
import Verif.Props.Unique
import Verif.Spec.Resolve

/-!
# C46: resolving a magnet link
-/

namespace Demag.Props

open Demag Spec

variable {T P A D I ε : Type} [DecidableEq A]

theorem firstsFrom_snoc {α κ : Type} [DecidableEq κ] (key : α → κ) (seen : List κ) (xs : List α) (x : α) :
    firstsFrom key seen (xs ++ [x]) = firstsFrom key seen xs ++ if key x ∈ seen ∨ key x ∈ xs.map key then [] else [x] := by
  induction xs generalizing seen with
  | nil => by_cases h : key x ∈ seen <;> simp [firstsFrom, h]
  | cons y xs ih =>
    simp only [List.cons_append, firstsFrom]
    split
    · rename_i hy
      rw [ih]
      congr 1
      by_cases hxy : key x = key y
      · simp [hxy, hy]
      · simp [hxy]
    · rw [ih, List.cons_append]
      congr 2
      simp [or_left_comm, or_assoc]

theorem firsts_snoc {α κ : Type} [DecidableEq κ] (key : α → κ) (xs : List α) (x : α) :
    firsts key (xs ++ [x]) = firsts key xs ++ if key x ∈ xs.map key then [] else [x] := by
  rw [firsts_eq, firsts_eq, firstsFrom_snoc]
  simp

/-- What was observed of a run. -/
structure View (T P I ε : Type) where
  td : List (T × Outcome (List P))
  ar : List P
  co : List P
  pd : List (P × Outcome (Except ε I))
  ti : List (P × Except ε I)

def View.add (v : View T P I ε) (out : List (ResolveOutput T P D I ε)) : View T P I ε :=
  ⟨v.td ++ out.filterMap trackerDoneOf, v.ar ++ out.filterMap arrivedOf, v.co ++ out.filterMap contactOf,
    v.pd ++ out.filterMap peerDoneOf, v.ti ++ out.filterMap triedOf⟩

def view (tr : ResolveTrace T P D I ε) : View T P I ε := ⟨trackerDones tr, arrivals tr, contacts tr, peerDones tr, tries tr⟩

theorem view_snoc (tr : ResolveTrace T P D I ε) (e : ResolveEvent P ε I) (out : List (ResolveOutput T P D I ε)) :
    view (tr ++ [(e, out)]) = (view tr).add out := by
  simp [view, View.add, trackerDones, arrivals, contacts, peerDones, tries, resolveObserved]

section
variable (v : View T P I ε)
theorem add_nil : v.add ([] : List (ResolveOutput T P D I ε)) = v := by simp [View.add]
theorem add_answer (t : T) (ps : List P) : v.add ([.answer t ps] : List (ResolveOutput T P D I ε)) =
    { v with td := v.td ++ [(t, .value ps)] } := by
  simp [View.add, List.filterMap, trackerDoneOf, arrivedOf, contactOf, peerDoneOf, triedOf]
theorem add_trackerPanic (t : T) : v.add ([.trackerPanic t] : List (ResolveOutput T P D I ε)) =
    { v with td := v.td ++ [(t, .panic)] } := by
  simp [View.add, List.filterMap, trackerDoneOf, arrivedOf, contactOf, peerDoneOf, triedOf]
theorem add_arrived (p : P) : v.add ([.arrived p] : List (ResolveOutput T P D I ε)) = { v with ar := v.ar ++ [p] } := by
  simp [View.add, List.filterMap, trackerDoneOf, arrivedOf, contactOf, peerDoneOf, triedOf]
theorem add_contact (p : P) : v.add ([.arrived p, .contact p] : List (ResolveOutput T P D I ε)) =
    { v with ar := v.ar ++ [p], co := v.co ++ [p] } := by
  simp [View.add, List.filterMap, trackerDoneOf, arrivedOf, contactOf, peerDoneOf, triedOf]
theorem add_peerDone (p : P) (r : Outcome (Except ε I)) : v.add ([.peerDone p r] : List (ResolveOutput T P D I ε)) =
    { v with pd := v.pd ++ [(p, r)] } := by
  simp [View.add, List.filterMap, trackerDoneOf, arrivedOf, contactOf, peerDoneOf, triedOf]
theorem add_tried (p : P) (r : Except ε I) : v.add ([.tried p r] : List (ResolveOutput T P D I ε)) =
    { v with ti := v.ti ++ [(p, r)] } := by
  simp [View.add, List.filterMap, trackerDoneOf, arrivedOf, contactOf, peerDoneOf, triedOf]
theorem add_tried_result (p : P) (r : Except ε I) (x : Resolved T D I ε) :
    v.add ([.tried p r, .result x] : List (ResolveOutput T P D I ε)) = { v with ti := v.ti ++ [(p, r)] } := by
  simp [View.add, List.filterMap, trackerDoneOf, arrivedOf, contactOf, peerDoneOf, triedOf]
theorem add_result (x : Resolved T D I ε) : v.add ([.result x] : List (ResolveOutput T P D I ε)) = v := by
  simp [View.add, List.filterMap, trackerDoneOf, arrivedOf, contactOf, peerDoneOf, triedOf]
end

def outcomeOf (x : P × Outcome (Except ε I)) : P × Outcome (P × Except ε I) := (x.1, peerOutcome x.1 x.2)
def valueOf (x : P × Except ε I) : P × Outcome (Except ε I) := (x.1, .value x.2)
def IsFile : Option (Resolved T D I ε) → Prop | some (.file _ _ _) => True | _ => False
def AllErrors (l : List (P × Except ε I)) : Prop := ∀ x ∈ l, ∃ e, x.2 = .error e

/-- What is known of the peers. -/
structure PeersInv (all : List T) (jobsP : Nat) (v : View T P I ε) (s : Resolve T P A D I ε) (d : Nat) : Prop where
  follows : Follows jobsP s.peers v.co (v.pd.map outcomeOf) d
  handles : s.peers.handles = if s.job = .over then 0 else 1
  taken : s.result ≠ some .panicked → v.pd.take d = v.ti.map valueOf
  pre : v.ti.map valueOf <+: v.pd
  errors : ¬ IsFile s.result → AllErrors v.ti
  file : ∀ i ts ns, s.result = some (.file i ts ns) →
    ts = all ∧ ns = s.nodes ∧ ∃ p es, v.ti = es ++ [(p, .ok i)] ∧ AllErrors es
  nothing : s.result = some .nothing → d = v.pd.length ∧ (v.pd.map Prod.fst).Perm v.co ∧ s.job = .over
  dht : ∀ e, s.result ≠ some (.dht e)

/-- What is known of the trackers, if there are any. -/
structure TrackedInv (addr : P → A) (all : List T) (jobsT : Nat) (v : View T P I ε) (s : Resolve T P A D I ε) : Prop where
  nodes : s.nodes = []
  contacts : v.co = firsts addr v.ar
  seen : ∀ a, a ∈ s.seen ↔ a ∈ v.ar.map addr
  live : s.job ≠ .over → ∃ n acc d, s.trackers = some n ∧ Follows jobsT n acc v.td d ∧ acc ++ s.todo = all ∧
    n.handles = (if s.job = .running then 0 else 1) ∧ (s.job = .running → s.todo = []) ∧
    v.ar ++ s.batch = (v.td.take d).flatMap answered
  over : s.job = .over → s.trackers = none ∧ s.todo = [] ∧ v.ar <+: v.td.flatMap answered ∧
    ((∃ t, (t, .panic) ∈ v.td) ∨ ((v.td.map Prod.fst).Perm all ∧ v.ar = v.td.flatMap answered))

/-- What is known of the DHT's peers, if there are no trackers. -/
structure DirectInv (found : List P) (nodes : List D) (v : View T P I ε) (s : Resolve T P A D I ε) : Prop where
  nodes : s.nodes = nodes
  trackers : s.trackers = none
  todo : s.todo = []
  contacts : v.co = v.ar
  arrived : v.ar ++ s.batch = found
  over : s.job = .over → s.batch = []
  td : v.td = []

def ResolveInv (addr : P → A) (all : List T) (dht : Except ε (List P × List D)) (jobsT jobsP : Nat) (v : View T P I ε)
    (s : Resolve T P A D I ε) : Prop :=
  (∃ d, PeersInv all jobsP v s d) ∧ ((all ≠ [] ∧ TrackedInv addr all jobsT v s) ∨
    (all = [] ∧ ∃ found nodes, dht = .ok (found, nodes) ∧ DirectInv found nodes v s))

section
variable {addr : P → A} {all : List T} {dht : Except ε (List P × List D)} {jobsT jobsP : Nat} {v : View T P I ε}
  {s s' : Resolve T P A D I ε} {out : List (ResolveOutput T P D I ε)}

/-- A step that touches only the tracker nursery, and ends no task. -/
theorem inv_trackerQuiet {ev : NurseryEvent T (List P)} (h : ResolveInv addr all dht jobsT jobsP v s)
    (hs : s.trackerStep ev [] = some (s', out))
    (hq : ∀ n n' acc d o, Follows jobsT n acc v.td d → n.step ev = some (n', o) →
      Follows jobsT n' acc v.td d ∧ n'.handles = n.handles) : ResolveInv addr all dht jobsT jobsP (v.add out) s' := by
  unfold Resolve.trackerStep at hs
  split at hs
  case h_2 => cases hs
  rename_i n hn
  rw [Option.map_eq_some_iff] at hs
  obtain ⟨⟨n', o⟩, hstep, hs⟩ := hs
  simp only [Prod.mk.injEq] at hs
  obtain ⟨rfl, rfl⟩ := hs
  rw [add_nil]
  obtain ⟨⟨d, hp⟩, h | h⟩ := h
  · refine ⟨⟨d, ⟨hp.follows, hp.handles, hp.taken, hp.pre, hp.errors, hp.file, hp.nothing, hp.dht⟩⟩, .inl ⟨h.1, ?_⟩⟩
    obtain ⟨h1, h2, h3, h4, h5⟩ := h.2
    refine ⟨h1, h2, h3, ?_, ?_⟩
    · intro hj
      obtain ⟨n0, acc, d, hn0, hf, ha, hh, hr, har⟩ := h4 hj
      rw [hn] at hn0
      cases hn0
      obtain ⟨hf', hh'⟩ := hq _ _ _ _ _ hf hstep
      exact ⟨n', acc, d, rfl, hf', ha, by rw [hh']; exact hh, hr, har⟩
    · intro hj
      have := (h5 hj).1
      rw [hn] at this
      cases this
  · obtain ⟨-, f, ns, -, hd⟩ := h
    rw [hd.trackers] at hn
    cases hn

/-- A step that touches only the peer nursery, and ends no task. -/
theorem inv_peerQuiet {ev : NurseryEvent P (P × Except ε I)} (h : ResolveInv addr all dht jobsT jobsP v s)
    (hs : s.peerStep ev [] = some (s', out))
    (hq : ∀ n n' acc fin d o, Follows jobsP n acc fin d → n.step ev = some (n', o) →
      Follows jobsP n' acc fin d ∧ n'.handles = n.handles) : ResolveInv addr all dht jobsT jobsP (v.add out) s' := by
  unfold Resolve.peerStep at hs
  rw [Option.map_eq_some_iff] at hs
  obtain ⟨⟨n', o⟩, hstep, hs⟩ := hs
  simp only [Prod.mk.injEq] at hs
  obtain ⟨rfl, rfl⟩ := hs
  rw [add_nil]
  obtain ⟨⟨d, hp⟩, h⟩ := h
  obtain ⟨hf, hh⟩ := hq _ _ _ _ _ _ hp.follows hstep
  refine ⟨⟨d, ⟨hf, by rw [hh]; exact hp.handles, hp.taken, hp.pre, hp.errors, hp.file, hp.nothing, hp.dht⟩⟩, ?_⟩
  rcases h with ⟨hne, h1, h2, h3, h4, h5⟩ | ⟨he, f, ns, hd, h1, h2, h3, h4, h5, h6, h7⟩
  · exact .inl ⟨hne, h1, h2, h3, h4, h5⟩
  · exact .inr ⟨he, f, ns, hd, h1, h2, h3, h4, h5, h6, h7⟩

/-- The feeding task ends. -/
theorem peers_endJob {d : Nat} (hp : PeersInv all jobsP v s d) (hr : s.result = none)
    (hs : s.endJob [] = some (s', out)) :
    PeersInv all jobsP v s' d ∧ out = [] ∧ ∃ n, s' = { s with peers := n, job := .over, batch := [], trackers := none } := by
  unfold Resolve.endJob at hs
  rw [Option.map_eq_some_iff] at hs
  obtain ⟨⟨n', o⟩, hstep, hs⟩ := hs
  simp only [Prod.mk.injEq] at hs
  obtain ⟨rfl, rfl⟩ := hs
  obtain ⟨hf, hh⟩ := follows_dropHandle hp.follows hstep
  refine ⟨⟨hf, ?_, hp.taken, hp.pre, hp.errors, hp.file, ?_, hp.dht⟩, rfl, n', rfl⟩
  · rw [hh, hp.handles]
    split <;> simp
  · intro h
    simp only [hr] at h
    cases h

theorem resolveInv_step (hT : 0 < jobsT) (hP : 0 < jobsP) {e : ResolveEvent P ε I}
    (h : ResolveInv addr all dht jobsT jobsP v s) (hs : s.step addr all e = some (s', out)) :
    ResolveInv addr all dht jobsT jobsP (v.add out) s' ∧ ResolveOutput.jobPanic ∉ out := by
  unfold Resolve.step at hs
  split at hs
  · cases hs
  rename_i hres
  have hres' : s.result = none := by simpa using hres
  cases e with
  | spawnTracker =>
    simp only at hs
    split at hs
    case h_2 => cases hs
    rename_i t ts htodo
    obtain ⟨⟨d, hp⟩, h | ⟨-, f, ns, -, hd⟩⟩ := h
    case inr => rw [hd.todo] at htodo; cases htodo
    obtain ⟨hne, h1, h2, h3, h4, h5⟩ := h
    have hjob : s.job ≠ .over := by
      intro hj
      rw [(h5 hj).2.1] at htodo
      cases htodo
    obtain ⟨n, acc, dT, hn, hf, ha, hh, hr, har⟩ := h4 hjob
    have hnr : s.job ≠ .running := by
      intro hj; rw [hr hj] at htodo; cases htodo
    rw [if_neg hnr] at hh
    rw [hn] at hs
    simp only [Option.bind_some] at hs
    split at hs
    · rename_i n' k j hstep
      obtain ⟨-, hf', hh'⟩ := follows_spawn hf (by rw [hh]; simp) hstep
      cases hs
      refine ⟨?_, by simp⟩
      rw [add_nil]
      refine ⟨⟨d, hp.follows, hp.handles, hp.taken, hp.pre, hp.errors, hp.file, hp.nothing, hp.dht⟩, .inl ⟨hne, h1, h2, h3, ?_, ?_⟩⟩
      · intro _
        refine ⟨n', acc ++ [t], dT, rfl, hf', ?_, ?_, ?_, har⟩
        · rw [← ha, htodo]; simp
        · rw [hh', hh]; exact (if_neg hnr).symm
        · intro hj; exact absurd hj hnr
      · intro hj; exact absurd hj hjob
    · rename_i n' o hno hstep
      obtain ⟨⟨k, rfl⟩, -⟩ := follows_spawn hf (by rw [hh]; simp) hstep
      exact absurd rfl (fun h => hno k t h)
    · cases hs
  | startJob =>
    simp only at hs
    split at hs
    case h_2 => cases hs
    rename_i htodo hjob
    obtain ⟨⟨d, hp⟩, h⟩ := h
    have hph : s.peers.handles = 1 := by rw [hp.handles, hjob]; rfl
    split at hs
    · rename_i n hn
      rw [Option.map_eq_some_iff] at hs
      obtain ⟨⟨n', o⟩, hstep, hs⟩ := hs
      simp only [Prod.mk.injEq] at hs
      obtain ⟨rfl, rfl⟩ := hs
      refine ⟨?_, by simp⟩
      rw [add_nil]
      refine ⟨⟨d, hp.follows, by rw [hph]; rfl, hp.taken, hp.pre, hp.errors, hp.file, by simp [hres'], hp.dht⟩, ?_⟩
      rcases h with ⟨hne, h1, h2, h3, h4, h5⟩ | ⟨-, f, ns, -, hd⟩
      · refine .inl ⟨hne, h1, h2, h3, ?_, by simp⟩
        intro _
        obtain ⟨n0, acc, dT, hn0, hf, ha, hh, hr, har⟩ := h4 (by rw [hjob]; simp)
        rw [hn] at hn0
        cases hn0
        obtain ⟨hf', hh'⟩ := follows_dropHandle hf hstep
        refine ⟨n', acc, dT, rfl, hf', ha, ?_, fun _ => htodo, har⟩
        rw [hh', hh, hjob]; rfl
      · rw [hd.trackers] at hn; cases hn
    · rename_i hn
      cases hs
      refine ⟨?_, by simp⟩
      rw [add_nil]
      refine ⟨⟨d, hp.follows, by rw [hph]; rfl, hp.taken, hp.pre, hp.errors, hp.file, by simp [hres'], hp.dht⟩, ?_⟩
      rcases h with ⟨hne, h1, h2, h3, h4, h5⟩ | ⟨he, f, ns, hdht, hd⟩
      · obtain ⟨n0, acc, dT, hn0, -⟩ := h4 (by rw [hjob]; simp)
        rw [hn] at hn0; cases hn0
      · exact .inr ⟨he, f, ns, hdht, hd.nodes, hd.trackers, hd.todo, hd.contacts, hd.arrived, by simp, hd.td⟩
  | trackerTake w =>
    refine ⟨inv_trackerQuiet h hs fun n n' acc d o hf hn => follows_take hf hn, ?_⟩
    simp only [Resolve.trackerStep] at hs
    split at hs
    · rw [Option.map_eq_some_iff] at hs
      obtain ⟨x, -, hs⟩ := hs
      cases hs; simp
    · cases hs
  | trackerCheck w =>
    refine ⟨inv_trackerQuiet h hs fun n n' acc d o hf hn => follows_check hf hn, ?_⟩
    simp only [Resolve.trackerStep] at hs
    split at hs
    · rw [Option.map_eq_some_iff] at hs
      obtain ⟨x, -, hs⟩ := hs
      cases hs; simp
    · cases hs
  | trackerExit w =>
    refine ⟨inv_trackerQuiet h hs fun n n' acc d o hf hn => follows_exit hf hn, ?_⟩
    simp only [Resolve.trackerStep] at hs
    split at hs
    · rw [Option.map_eq_some_iff] at hs
      obtain ⟨x, -, hs⟩ := hs
      cases hs; simp
    · cases hs
  | trackerEnds w r =>
    simp only at hs
    split at hs
    case h_2 => cases hs
    rename_i k t hw
    rw [Option.bind_eq_some_iff] at hw
    obtain ⟨n, hn, hw⟩ := hw
    simp only [Resolve.trackerStep, hn] at hs
    rw [Option.map_eq_some_iff] at hs
    obtain ⟨⟨n', o⟩, hstep, hs⟩ := hs
    simp only [Prod.mk.injEq] at hs
    obtain ⟨rfl, hout⟩ := hs
    have hadd : v.add out = { v with td := v.td ++ [(t, trackerPeers r)] } := by
      rw [← hout]
      cases htp : trackerPeers r with
      | value ps => exact add_answer v t ps
      | panic => exact add_trackerPanic v t
    refine ⟨?_, ?_⟩
    · rw [hadd]
      obtain ⟨⟨d, hp⟩, h⟩ := h
      refine ⟨⟨d, hp.follows, hp.handles, hp.taken, hp.pre, hp.errors, hp.file, hp.nothing, hp.dht⟩, ?_⟩
      rcases h with ⟨hne, h1, h2, h3, h4, h5⟩ | ⟨he, f, ns, hdht, hd⟩
      · refine .inl ⟨hne, h1, h2, h3, ?_, ?_⟩
        · intro hj
          obtain ⟨n0, acc, dT, hn0, hf, ha, hh, hr, har⟩ := h4 hj
          rw [hn] at hn0
          cases hn0
          obtain ⟨hf', hh'⟩ := follows_finish hf hw hstep
          refine ⟨n', acc, dT, rfl, hf', ha, by rw [hh']; exact hh, hr, ?_⟩
          show v.ar ++ s.batch = ((v.td ++ [(t, trackerPeers r)]).take dT).flatMap answered
          rw [List.take_append_of_le_length (follows_le hf)]
          exact har
        · intro hj
          have := (h5 hj).1
          rw [hn] at this
          cases this
      · rw [hd.trackers] at hn; cases hn
    · rw [← hout]
      cases trackerPeers r <;> simp
  | nextPeer =>
    simp only at hs
    split at hs
    case h_2 => cases hs
    rename_i p ps hjob hbatch
    obtain ⟨⟨d, hp⟩, h⟩ := h
    have hph : s.peers.handles = 1 := by rw [hp.handles, hjob]; rfl
    split at hs
    · -- a repeated address
      rename_i hdup
      rw [Bool.and_eq_true, decide_eq_true_eq] at hdup
      cases hs
      refine ⟨?_, by simp⟩
      rw [add_arrived]
      refine ⟨⟨d, hp.follows, hp.handles, hp.taken, hp.pre, hp.errors, hp.file, hp.nothing, hp.dht⟩, ?_⟩
      rcases h with ⟨hne, h1, h2, h3, h4, h5⟩ | ⟨he, f, ns, hdht, hd⟩
      · refine .inl ⟨hne, h1, ?_, ?_, ?_, ?_⟩
        · show v.co = firsts addr (v.ar ++ [p])
          rw [firsts_snoc, if_pos ((h3 _).1 hdup.2), List.append_nil]; exact h2
        · intro a
          show a ∈ s.seen ↔ a ∈ (v.ar ++ [p]).map addr
          rw [h3, List.map_append, List.mem_append]
          constructor
          · exact .inl
          · rintro (h | h)
            · exact h
            · simp only [List.map_cons, List.map_nil, List.mem_singleton] at h
              subst h
              exact (h3 _).1 hdup.2
        · intro hj
          obtain ⟨n0, acc, dT, hn0, hf, ha, hh, hr, har⟩ := h4 hj
          refine ⟨n0, acc, dT, hn0, hf, ha, hh, hr, ?_⟩
          show v.ar ++ [p] ++ ps = _
          rw [List.append_assoc, List.singleton_append, ← hbatch]
          exact har
        · intro hj
          simp only [hjob] at hj
          cases hj
      · rw [hd.trackers] at hdup
        simp at hdup
    · rename_i hdup
      split at hs
      · rename_i n' k j hstep
        obtain ⟨-, hf', hh'⟩ := follows_spawn hp.follows (by rw [hph]; simp) hstep
        cases hs
        refine ⟨?_, by simp⟩
        rw [add_contact]
        refine ⟨⟨d, hf', by rw [hh']; exact hp.handles, hp.taken, hp.pre, hp.errors, hp.file, by simp [hres'], hp.dht⟩, ?_⟩
        rcases h with ⟨hne, h1, h2, h3, h4, h5⟩ | ⟨he, f, ns, hdht, hd⟩
        · obtain ⟨n0, acc, dT, hn0, hf, ha, hh, hr, har⟩ := h4 (by rw [hjob]; simp)
          have hnew : addr p ∉ v.ar.map addr := by
            rw [← h3]
            simpa [hn0] using hdup
          refine .inl ⟨hne, h1, ?_, ?_, ?_, ?_⟩
          · show v.co ++ [p] = firsts addr (v.ar ++ [p])
            rw [firsts_snoc, if_neg hnew, h2]
          · intro a
            show a ∈ addr p :: s.seen ↔ a ∈ (v.ar ++ [p]).map addr
            rw [List.mem_cons, h3, List.map_append, List.mem_append]
            simp [or_comm]
          · intro _
            refine ⟨n0, acc, dT, hn0, hf, ha, hh, hr, ?_⟩
            show v.ar ++ [p] ++ ps = _
            rw [List.append_assoc, List.singleton_append, ← hbatch]
            exact har
          · intro hj
            simp only [hjob] at hj
            cases hj
        · refine .inr ⟨he, f, ns, hdht, hd.nodes, hd.trackers, hd.todo, ?_, ?_, ?_, hd.td⟩
          · show v.co ++ [p] = v.ar ++ [p]
            rw [hd.contacts]
          · show v.ar ++ [p] ++ ps = f
            rw [List.append_assoc, List.singleton_append, ← hbatch]
            exact hd.arrived
          · intro hj
            simp only [hjob] at hj
            cases hj
      · rename_i n' o hno hstep
        obtain ⟨⟨k, rfl⟩, -⟩ := follows_spawn hp.follows (by rw [hph]; simp) hstep
        exact absurd rfl (fun h => hno k p h)
      · cases hs
  | nextBatch =>
    simp only at hs
    split at hs
    case h_2 => cases hs
    rename_i n hjob hbatch hn
    obtain ⟨⟨d, hp⟩, h | ⟨-, f, ns, -, hd⟩⟩ := h
    case inr => rw [hd.trackers] at hn; cases hn
    obtain ⟨hne, h1, h2, h3, h4, h5⟩ := h
    obtain ⟨n0, acc, dT, hn0, hf, ha, hh, hr, har⟩ := h4 (by rw [hjob]; simp)
    rw [hn] at hn0
    cases hn0
    split at hs
    · rename_i n' k ps hstep
      obtain ⟨⟨k', t, o, ho, hget⟩, hf', hh'⟩ := follows_recv hf hstep
      simp only [List.cons.injEq, NurseryOutput.delivered.injEq, and_true] at ho
      obtain ⟨rfl, rfl⟩ := ho
      cases hs
      refine ⟨?_, by simp⟩
      rw [add_nil]
      refine ⟨⟨d, hp.follows, hp.handles, hp.taken, hp.pre, hp.errors, hp.file, hp.nothing, hp.dht⟩, .inl ⟨hne, h1, h2, h3, ?_, ?_⟩⟩
      · intro _
        refine ⟨n', acc, dT + 1, rfl, hf', ha, by rw [hh']; exact hh, hr, ?_⟩
        rw [List.take_add_one, hget, List.flatMap_append, ← har, hbatch]
        simp [answered]
      · intro hj
        simp only [hjob] at hj
        cases hj
    · rename_i n' k hstep
      obtain ⟨⟨k', t, o, ho, hget⟩, hf', hh'⟩ := follows_recv hf hstep
      simp only [List.cons.injEq, NurseryOutput.delivered.injEq, and_true] at ho
      obtain ⟨rfl, rfl⟩ := ho
      have hp' : PeersInv all jobsP v { s with trackers := some n' } d :=
        ⟨hp.follows, hp.handles, hp.taken, hp.pre, hp.errors, hp.file, hp.nothing, hp.dht⟩
      obtain ⟨hp2, rfl, n2, rfl⟩ := peers_endJob hp' hres' hs
      refine ⟨?_, by simp⟩
      rw [add_nil]
      refine ⟨⟨d, hp2⟩, .inl ⟨hne, h1, h2, h3, by simp, fun _ => ⟨rfl, hr hjob, ?_, .inl ⟨t, List.mem_of_getElem? hget⟩⟩⟩⟩
      rw [hbatch, List.append_nil] at har
      rw [har]
      conv => rhs; rw [← List.take_append_drop dT v.td, List.flatMap_append]
      exact List.prefix_append _ _
    · cases hs
  | noMorePeers =>
    simp only at hs
    obtain ⟨⟨d, hp⟩, h⟩ := h
    split at hs
    · rename_i n hjob hbatch hn
      rcases h with ⟨hne, h1, h2, h3, h4, h5⟩ | ⟨-, f, ns, -, hd⟩
      · obtain ⟨n0, acc, dT, hn0, hf, ha, hh, hr, har⟩ := h4 (by rw [hjob]; simp)
        rw [hn] at hn0
        cases hn0
        split at hs
        · rename_i x hstep
          obtain ⟨n', o⟩ := x
          obtain ⟨-, hdT, hperm, -⟩ := follows_recvNone hT hf hstep
          obtain ⟨hp2, rfl, n2, rfl⟩ := peers_endJob hp hres' hs
          refine ⟨?_, by simp⟩
          rw [add_nil]
          rw [hr hjob, List.append_nil] at ha
          rw [hbatch, List.append_nil, hdT, List.take_length] at har
          exact ⟨⟨d, hp2⟩, .inl ⟨hne, h1, h2, h3, by simp, fun _ => ⟨rfl, hr hjob, by rw [har]; exact List.prefix_refl _,
            .inr ⟨by rw [← ha]; exact hperm, har⟩⟩⟩⟩
        · cases hs
      · rw [hd.trackers] at hn; cases hn
    · rename_i hjob hbatch hn
      rcases h with ⟨hne, h1, h2, h3, h4, h5⟩ | ⟨he, f, ns, hdht, hd⟩
      · obtain ⟨n0, acc, dT, hn0, -⟩ := h4 (by rw [hjob]; simp)
        rw [hn] at hn0; cases hn0
      · obtain ⟨hp2, rfl, n2, rfl⟩ := peers_endJob hp hres' hs
        refine ⟨?_, by simp⟩
        rw [add_nil]
        refine ⟨⟨d, hp2⟩, .inr ⟨he, f, ns, hdht, hd.nodes, rfl, hd.todo, hd.contacts, ?_, fun _ => rfl, hd.td⟩⟩
        show v.ar ++ [] = f
        rw [← hd.arrived, hbatch]
    · cases hs
  | peerTake w =>
    refine ⟨inv_peerQuiet h hs fun n n' acc fin d o hf hn => follows_take hf hn, ?_⟩
    simp only [Resolve.peerStep] at hs
    rw [Option.map_eq_some_iff] at hs
    obtain ⟨x, -, hs⟩ := hs
    cases hs; simp
  | peerCheck w =>
    refine ⟨inv_peerQuiet h hs fun n n' acc fin d o hf hn => follows_check hf hn, ?_⟩
    simp only [Resolve.peerStep] at hs
    rw [Option.map_eq_some_iff] at hs
    obtain ⟨x, -, hs⟩ := hs
    cases hs; simp
  | peerExit w =>
    refine ⟨inv_peerQuiet h hs fun n n' acc fin d o hf hn => follows_exit hf hn, ?_⟩
    simp only [Resolve.peerStep] at hs
    rw [Option.map_eq_some_iff] at hs
    obtain ⟨x, -, hs⟩ := hs
    cases hs; simp
  | peerEnds w r =>
    simp only at hs
    split at hs
    case h_2 => cases hs
    rename_i k p hw
    simp only [Resolve.peerStep] at hs
    rw [Option.map_eq_some_iff] at hs
    obtain ⟨⟨n', o⟩, hstep, hs⟩ := hs
    simp only [Prod.mk.injEq] at hs
    obtain ⟨rfl, rfl⟩ := hs
    refine ⟨?_, by simp⟩
    rw [add_peerDone]
    obtain ⟨⟨d, hp⟩, h⟩ := h
    obtain ⟨hf', hh'⟩ := follows_finish hp.follows hw hstep
    have hle : d ≤ v.pd.length := by
      have := follows_le hp.follows
      rwa [List.length_map] at this
    refine ⟨⟨d, ?_, by rw [hh']; exact hp.handles, ?_, ?_, hp.errors, hp.file, ?_, hp.dht⟩, ?_⟩
    · show Follows jobsP n' v.co ((v.pd ++ [(p, r)]).map outcomeOf) d
      rw [List.map_append]
      exact hf'
    · intro hr
      show (v.pd ++ [(p, r)]).take d = _
      rw [List.take_append_of_le_length hle]
      exact hp.taken hr
    · exact hp.pre.trans (List.prefix_append _ _)
    · intro hr
      simp only [hres'] at hr
      cases hr
    · rcases h with ⟨hne, h1, h2, h3, h4, h5⟩ | ⟨he, f, ns, hd, h1, h2, h3, h4, h5, h6, h7⟩
      · exact .inl ⟨hne, h1, h2, h3, h4, h5⟩
      · exact .inr ⟨he, f, ns, hd, h1, h2, h3, h4, h5, h6, h7⟩
  | receive =>
    simp only at hs
    split at hs
    · cases hs
    obtain ⟨⟨d, hp⟩, h⟩ := h
    have hle : d ≤ v.pd.length := by
      have := follows_le hp.follows
      rwa [List.length_map] at this
    have htaken := hp.taken (by rw [hres']; simp)
    have herr := hp.errors (by rw [hres']; exact id)
    -- the outcome received
    have got : ∀ {n' : Nursery P (P × Except ε I)} {k : Nat} {o : Outcome (P × Except ε I)},
        s.peers.step .recv = some (n', [.delivered k o]) →
        Follows jobsP n' v.co (v.pd.map outcomeOf) (d + 1) ∧ n'.handles = s.peers.handles ∧
        ∃ p r, v.pd[d]? = some (p, r) ∧ peerOutcome p r = o := by
      intro n' k o hstep
      obtain ⟨⟨k', j, o', ho, hget⟩, hf', hh'⟩ := follows_recv hp.follows hstep
      simp only [List.cons.injEq, NurseryOutput.delivered.injEq, and_true] at ho
      obtain ⟨rfl, rfl⟩ := ho
      refine ⟨hf', hh', ?_⟩
      rw [List.getElem?_map, Option.map_eq_some_iff] at hget
      obtain ⟨x, hx, hxe⟩ := hget
      exact ⟨x.1, x.2, hx, by simpa [outcomeOf] using (congrArg Prod.snd hxe)⟩
    have source : ∀ {n' : Nursery P (P × Except ε I)} {r : Option (Resolved T D I ε)} {ti : List (P × Except ε I)},
        (all ≠ [] ∧ TrackedInv addr all jobsT { v with ti := ti } { s with peers := n', result := r }) ∨
        (all = [] ∧ ∃ found nodes, dht = .ok (found, nodes) ∧
          DirectInv found nodes { v with ti := ti } { s with peers := n', result := r }) := by
      intro n' r ti
      rcases h with ⟨hne, h1, h2, h3, h4, h5⟩ | ⟨he, f, ns, hd, h1, h2, h3, h4, h5, h6, h7⟩
      · exact .inl ⟨hne, h1, h2, h3, h4, h5⟩
      · exact .inr ⟨he, f, ns, hd, h1, h2, h3, h4, h5, h6, h7⟩
    have next : ∀ {p : P} {r : Except ε I}, v.pd[d]? = some (p, .value r) →
        v.pd.take (d + 1) = (v.ti ++ [(p, r)]).map valueOf := by
      intro p r hget
      rw [List.take_add_one, hget, htaken, List.map_append]
      rfl
    split at hs
    · rename_i n' k p info hstep
      obtain ⟨hf', hh', p', r, hget, ho⟩ := got hstep
      cases r with
      | panic => cases ho
      | value r =>
        simp only [peerOutcome, Outcome.value.injEq, Prod.mk.injEq] at ho
        obtain ⟨rfl, rfl⟩ := ho
        cases hs
        refine ⟨?_, by simp⟩
        rw [add_tried_result]
        refine ⟨⟨d + 1, hf', by rw [hh']; exact hp.handles, fun _ => next hget, ?_, ?_, ?_, by simp, by simp⟩, source⟩
        · show (v.ti ++ [(p', Except.ok info)]).map valueOf <+: v.pd
          rw [← next hget]
          exact List.take_prefix _ _
        · intro hno
          exact absurd trivial hno
        · intro i ts ns heq
          simp only [Option.some.injEq, Resolved.file.injEq] at heq
          obtain ⟨rfl, rfl, rfl⟩ := heq
          exact ⟨rfl, rfl, p', v.ti, rfl, herr⟩
    · rename_i n' k p er hstep
      obtain ⟨hf', hh', p', r, hget, ho⟩ := got hstep
      cases r with
      | panic => cases ho
      | value r =>
        simp only [peerOutcome, Outcome.value.injEq, Prod.mk.injEq] at ho
        obtain ⟨rfl, rfl⟩ := ho
        cases hs
        refine ⟨?_, by simp⟩
        rw [add_tried]
        refine ⟨⟨d + 1, hf', by rw [hh']; exact hp.handles, fun _ => next hget, ?_, ?_, ?_, by simp [hres'], hp.dht⟩, ?_⟩
        · show (v.ti ++ [(p', Except.error er)]).map valueOf <+: v.pd
          rw [← next hget]
          exact List.take_prefix _ _
        · intro _ x hx
          rcases List.mem_append.1 hx with hx | hx
          · exact herr x hx
          · rw [List.mem_singleton] at hx; subst hx; exact ⟨er, rfl⟩
        · intro i ts ns heq
          simp only [hres'] at heq
          cases heq
        · exact source (n' := n') (r := s.result)
    · rename_i n' k hstep
      obtain ⟨hf', hh', p', r, hget, ho⟩ := got hstep
      cases hs
      refine ⟨?_, by simp⟩
      rw [add_result]
      refine ⟨⟨d + 1, hf', by rw [hh']; exact hp.handles, by simp, hp.pre, fun _ => herr, by simp, by simp, by simp⟩, ?_⟩
      exact source (n' := n') (ti := v.ti)
    · cases hs
  | receiveNone =>
    simp only at hs
    split at hs
    · cases hs
    obtain ⟨⟨d, hp⟩, h⟩ := h
    split at hs
    case h_2 => cases hs
    rename_i n' o hstep
    obtain ⟨rfl, hd, hperm, hh⟩ := follows_recvNone hP hp.follows hstep
    cases hs
    refine ⟨?_, by simp⟩
    rw [add_result]
    have htaken := hp.taken (by rw [hres']; simp)
    have herr := hp.errors (by rw [hres']; exact id)
    refine ⟨⟨d, hp.follows, hp.handles, fun _ => htaken, hp.pre, fun _ => herr, by simp, fun _ => ⟨?_, ?_, ?_⟩, by simp⟩, ?_⟩
    · rw [hd, List.length_map]
    · rw [List.map_map] at hperm; exact hperm
    · have := hp.handles
      rw [hh] at this
      show s.job = .over
      by_cases hj : s.job = .over
      · exact hj
      · rw [if_neg hj] at this; cases this
    · rcases h with ⟨hne, h1, h2, h3, h4, h5⟩ | ⟨he, f, ns, hd, h1, h2, h3, h4, h5, h6, h7⟩
      · exact .inl ⟨hne, h1, h2, h3, h4, h5⟩
      · exact .inr ⟨he, f, ns, hd, h1, h2, h3, h4, h5, h6, h7⟩

theorem resolve_exited {e : ε} {tr : ResolveTrace T P D I ε} (h : ResolveRun addr ([] : List T) (.error e) jobsT jobsP tr s) :
    tr = [] ∧ s = Resolve.start [] (.error e) jobsT jobsP := by
  induction h with
  | init => exact ⟨rfl, rfl⟩
  | step hr hs ih =>
    obtain ⟨rfl, rfl⟩ := ih
    simp [Resolve.step, Resolve.start] at hs

theorem resolve_inv (hT : 0 < jobsT) (hP : 0 < jobsP) (hok : all ≠ [] ∨ ∃ x, dht = .ok x) {tr : ResolveTrace T P D I ε}
    (h : ResolveRun addr all dht jobsT jobsP tr s) :
    ResolveInv addr all dht jobsT jobsP (view tr) s ∧ jobPanics tr = [] := by
  induction h with
  | init =>
    refine ⟨?_, rfl⟩
    cases all with
    | nil =>
      rcases hok with h | ⟨⟨found, nodes⟩, rfl⟩
      · exact absurd rfl h
      · refine ⟨⟨0, follows_new jobsP, rfl, fun _ => rfl, List.prefix_refl _, ?_, by simp [Resolve.start], by simp [Resolve.start],
          by simp [Resolve.start]⟩, .inr ⟨rfl, found, nodes, rfl, rfl, rfl, rfl, rfl, rfl, by simp [Resolve.start], rfl⟩⟩
        intro _ x hx
        cases hx
    | cons t ts =>
      refine ⟨⟨0, follows_new jobsP, rfl, fun _ => rfl, List.prefix_refl _, ?_, by simp [Resolve.start], by simp [Resolve.start],
          by simp [Resolve.start]⟩, .inl ⟨by simp, rfl, rfl, ?_, ?_, by simp [Resolve.start]⟩⟩
      · intro _ x hx
        cases hx
      · intro a
        simp [Resolve.start, view, arrivals, resolveObserved]
      · intro _
        exact ⟨_, [], 0, rfl, follows_new jobsT, rfl, rfl, by simp [Resolve.start], rfl⟩
  | @step tr s s' e out hr hs ih =>
    rw [view_snoc]
    obtain ⟨h1, h2⟩ := resolveInv_step hT hP ih.1 hs
    refine ⟨h1, ?_⟩
    have : jobPanics (tr ++ [(e, out)]) = jobPanics tr ++ out.filterMap jobPanicOf := by simp [jobPanics, resolveObserved]
    rw [this, ih.2, List.nil_append, List.filterMap_eq_nil_iff]
    intro x hx
    cases x with
    | jobPanic => exact absurd hx h2
    | _ => rfl

theorem allErrors_map {l : List (P × Except ε I)} (h : AllErrors l) :
    ∃ es : List (P × ε), l = es.map fun x => (x.1, .error x.2) := by
  induction l with
  | nil => exact ⟨[], rfl⟩
  | cons x l ih =>
    obtain ⟨es, hes⟩ := ih fun y hy => h y (List.mem_cons_of_mem _ hy)
    obtain ⟨e, he⟩ := h x (by simp)
    refine ⟨(x.1, e) :: es, ?_⟩
    rw [List.map_cons, ← hes, ← he]

/-- **C46.** If a torrent file results, then in the order in which the peers' tasks ended it is made from the metadata given by the
first that succeeded, all earlier ones having failed; it carries all trackers of the magnet link, in order, and the DHT's
nodes if the link has no trackers. -/
theorem resolve_file (hT : 0 < jobsT) (hP : 0 < jobsP) {tr : ResolveTrace T P D I ε}
    (h : ResolveRun addr all dht jobsT jobsP tr s) {info : I} {ts : List T} {ns : List D}
    (hr : s.result = some (.file info ts ns)) :
    ts = all ∧ (all ≠ [] → ns = []) ∧ (all = [] → ∃ found, dht = .ok (found, ns)) ∧
    ∃ (es : List (P × ε)) (p : P) (rest : List (P × Outcome (Except ε I))),
      peerDones tr = es.map (fun x => (x.1, .value (.error x.2))) ++ (p, .value (.ok info)) :: rest ∧ p ∈ contacts tr := by
  have hok : all ≠ [] ∨ ∃ x, dht = .ok x := by
    cases all with
    | cons t ts => exact .inl (by simp)
    | nil =>
      cases dht with
      | ok x => exact .inr ⟨x, rfl⟩
      | error e =>
        obtain ⟨-, rfl⟩ := resolve_exited h
        simp [Resolve.start] at hr
  obtain ⟨⟨⟨d, hp⟩, hsrc⟩, -⟩ := resolve_inv hT hP hok h
  obtain ⟨hts, hns, p, es, hti, hes⟩ := hp.file _ _ _ hr
  refine ⟨hts, ?_, ?_, ?_⟩
  · intro hne
    rcases hsrc with ⟨-, ht⟩ | ⟨he, -⟩
    · rw [hns, ht.nodes]
    · exact absurd he hne
  · intro he
    rcases hsrc with ⟨hne, -⟩ | ⟨-, f, ns', hd, hdi⟩
    · exact absurd he hne
    · exact ⟨f, by rw [hd, hns, hdi.nodes]⟩
  · obtain ⟨es', rfl⟩ := allErrors_map hes
    obtain ⟨rest, hrest⟩ := hp.pre
    rw [hti] at hrest
    have hpd : peerDones tr = es'.map (fun x => (x.1, .value (.error x.2))) ++ (p, .value (.ok info)) :: rest := by
      show (view tr).pd = _
      rw [← hrest, List.map_append, List.map_map, List.append_assoc]
      rfl
    refine ⟨es', p, rest, hpd, ?_⟩
    have := follows_mem hp.follows (outcomeOf (p, .value (.ok info))) (by
      apply List.mem_map_of_mem
      show _ ∈ peerDones tr
      rw [hpd]; simp)
    exact this

/-- **C46.** If nothing results, then every peer contacted has failed.  And these were all there were: the peers found on the DHT
or, unless the task of some tracker panicked, the peers that the trackers gave, each address once, all trackers having been
asked. -/
theorem resolve_nothing (hT : 0 < jobsT) (hP : 0 < jobsP) {tr : ResolveTrace T P D I ε}
    (h : ResolveRun addr all dht jobsT jobsP tr s) (hr : s.result = some .nothing) :
    ∃ es : List (P × ε), peerDones tr = es.map (fun x => (x.1, .value (.error x.2))) ∧ (es.map Prod.fst).Perm (contacts tr) ∧
      (all = [] → ∃ nodes, dht = .ok (contacts tr, nodes)) ∧
      (all ≠ [] → (∃ t, (t, .panic) ∈ trackerDones tr) ∨
        (((trackerDones tr).map Prod.fst).Perm all ∧ contacts tr = firsts addr ((trackerDones tr).flatMap answered))) := by
  have hok : all ≠ [] ∨ ∃ x, dht = .ok x := by
    cases all with
    | cons t ts => exact .inl (by simp)
    | nil =>
      cases dht with
      | ok x => exact .inr ⟨x, rfl⟩
      | error e =>
        obtain ⟨-, rfl⟩ := resolve_exited h
        simp [Resolve.start] at hr
  obtain ⟨⟨⟨d, hp⟩, hsrc⟩, -⟩ := resolve_inv hT hP hok h
  obtain ⟨hd, hperm, hjob⟩ := hp.nothing hr
  have htaken := hp.taken (by rw [hr]; simp)
  rw [hd, List.take_length] at htaken
  obtain ⟨es, hes⟩ := allErrors_map (hp.errors (by rw [hr]; exact id))
  have hpd : peerDones tr = es.map (fun x => (x.1, .value (.error x.2))) := by
    show (view tr).pd = _
    rw [htaken, hes, List.map_map]
    rfl
  refine ⟨es, hpd, ?_, ?_, ?_⟩
  · have : (view tr).pd.map Prod.fst = es.map Prod.fst := by
      show (peerDones tr).map Prod.fst = _
      rw [hpd, List.map_map]
      rfl
    rw [← this]
    exact hperm
  · intro he
    rcases hsrc with ⟨hne, -⟩ | ⟨-, f, ns', hdht, hdi⟩
    · exact absurd he hne
    · refine ⟨ns', ?_⟩
      rw [hdht]
      have h1 := hdi.arrived
      rw [hdi.over hjob, List.append_nil] at h1
      show _ = Except.ok ((view tr).co, ns')
      rw [hdi.contacts, h1]
  · intro hne
    rcases hsrc with ⟨-, ht⟩ | ⟨he, -⟩
    · rcases (ht.over hjob).2.2.2 with h1 | ⟨h1, h2⟩
      · exact .inl h1
      · refine .inr ⟨h1, ?_⟩
        show (view tr).co = firsts addr ((view tr).td.flatMap answered)
        rw [ht.contacts, h2]
    · exact absurd he hne

/-- **C46.** How a tracker's task counts: the peers of its answer, none if there was an error, and a panic only if it panicked. -/
theorem tracker_task_ends {s s' : Resolve T P A D I ε} {w : Nat} {r : Outcome (Except ε (List P))} {out : List (ResolveOutput T P D I ε)}
    (h : s.step addr all (.trackerEnds w r) = some (s', out)) :
    ∃ t, (∀ ps, r = .value (.ok ps) → out = [.answer t ps]) ∧ (∀ e, r = .value (.error e) → out = [.answer t []]) ∧
      (r = .panic → out = [.trackerPanic t]) := by
  unfold Resolve.step at h
  split at h
  · cases h
  · simp only at h
    split at h
    · rename_i n t _
      refine ⟨t, ?_⟩
      unfold Resolve.trackerStep at h
      split at h
      · rename_i n' _
        cases hn : n'.step (.finish w (trackerPeers r)) with
        | none => rw [hn] at h; cases h
        | some x =>
          rw [hn] at h
          obtain ⟨-, rfl⟩ := Prod.mk.inj (Option.some.inj h)
          refine ⟨?_, ?_, ?_⟩
          · rintro ps rfl; rfl
          · rintro e rfl; rfl
          · rintro rfl; rfl
      · cases h
    · cases h

/-- **C46.** The error of the DHT is the result exactly if the link has no trackers and the DHT cannot be asked. -/
theorem resolve_dht_error (hT : 0 < jobsT) (hP : 0 < jobsP) {tr : ResolveTrace T P D I ε}
    (h : ResolveRun addr all dht jobsT jobsP tr s) (e : ε) : s.result = some (.dht e) ↔ all = [] ∧ dht = .error e := by
  cases all with
  | nil =>
    cases dht with
    | error e' =>
      obtain ⟨-, rfl⟩ := resolve_exited h
      simp [Resolve.start]
    | ok x =>
      obtain ⟨⟨⟨d, hp⟩, -⟩, -⟩ := resolve_inv hT hP (.inr ⟨x, rfl⟩) h
      constructor
      · intro hr; exact absurd hr (hp.dht e)
      · rintro ⟨-, hx⟩; cases hx
  | cons t ts =>
    obtain ⟨⟨⟨d, hp⟩, -⟩, -⟩ := resolve_inv hT hP (.inl (by simp)) h
    constructor
    · intro hr; exact absurd hr (hp.dht e)
    · rintro ⟨hx, -⟩; cases hx

/-- **C46.** At any time: the peers contacted are, for a link with trackers, the first ones of each address among the peers
received; those are received in the order in which the trackers answered, a tracker that failed contributing none; for a link
without trackers they are the first ones of those found on the DHT.  The feeding task never finds the nursery closed. -/
theorem resolve_contacts (hT : 0 < jobsT) (hP : 0 < jobsP) {tr : ResolveTrace T P D I ε}
    (h : ResolveRun addr all dht jobsT jobsP tr s) :
    (all ≠ [] → contacts tr = firsts addr (arrivals tr) ∧ arrivals tr <+: (trackerDones tr).flatMap answered) ∧
    (all = [] → ∀ found nodes, dht = .ok (found, nodes) → contacts tr <+: found) ∧ jobPanics tr = [] := by
  refine ⟨?_, ?_, ?_⟩
  · intro hne
    obtain ⟨⟨-, hsrc⟩, -⟩ := resolve_inv hT hP (.inl hne) h
    rcases hsrc with ⟨-, ht⟩ | ⟨he, -⟩
    · refine ⟨ht.contacts, ?_⟩
      by_cases hj : s.job = .over
      · exact (ht.over hj).2.2.1
      · obtain ⟨n, acc, d, -, -, -, -, -, har⟩ := ht.live hj
        refine (?_ : _ <+: ((view tr).td.take d).flatMap answered).trans ?_
        · rw [← har]; exact List.prefix_append _ _
        · show _ <+: (view tr).td.flatMap answered
          conv => rhs; rw [← List.take_append_drop d (view tr).td, List.flatMap_append]
          exact List.prefix_append _ _
    · exact absurd he hne
  · intro he found nodes hd
    obtain ⟨⟨-, hsrc⟩, -⟩ := resolve_inv hT hP (.inr ⟨_, hd⟩) h
    rcases hsrc with ⟨hne, -⟩ | ⟨-, f, ns', hd', hdi⟩
    · exact absurd he hne
    · rw [hd] at hd'
      simp only [Except.ok.injEq, Prod.mk.injEq] at hd'
      obtain ⟨rfl, rfl⟩ := hd'
      show (view tr).co <+: _
      rw [hdi.contacts, ← hdi.arrived]
      exact List.prefix_append _ _
  · cases all with
    | cons t ts => exact (resolve_inv hT hP (.inl (by simp)) h).2
    | nil =>
      cases dht with
      | ok x => exact (resolve_inv hT hP (.inr ⟨x, rfl⟩) h).2
      | error e =>
        obtain ⟨rfl, rfl⟩ := resolve_exited h
        rfl

/-! ### Progress -/

/-- A nursery that may go on by itself does so in a way that fits how tasks end. -/
theorem nursery_moves {J R : Type} {N : Nat} {n : Nursery J R} {acc : List J} {fin : List (J × Outcome R)} {d : Nat} (hN : 0 < N)
    (hf : Follows N n acc fin d) :
    (∃ w r, n.step (.take w) = some r) ∨ (∃ w r, n.step (.check w) = some r) ∨ (∃ w r, n.step (.exit w) = some r) ∨
    (∃ (w k : Nat) (j : J), n.workers[w]? = some (.running k j)) ∨ (∃ n' k o, n.step .recv = some (n', [.delivered k o])) ∨
    (n.handles = 0 → ∃ r, n.step .recvNone = some r) := by
  apply Classical.byContradiction
  intro hno
  simp only [not_or, not_exists] at hno
  obtain ⟨h1, h2, h3, h4, h5, h6⟩ := hno
  apply h6
  intro hh
  have := (follows_stuck hN hf ?_).2.2 hh
  · exact ⟨_, this⟩
  · intro e he
    cases e with
    | take w =>
      cases hs : n.step (.take w) with
      | none => rfl
      | some r => exact absurd hs (h1 w r)
    | check w =>
      cases hs : n.step (.check w) with
      | none => rfl
      | some r => exact absurd hs (h2 w r)
    | exit w =>
      cases hs : n.step (.exit w) with
      | none => rfl
      | some r => exact absurd hs (h3 w r)
    | finish w o =>
      cases hw : n.workers[w]? with
      | none => simp [Nursery.step, hw]
      | some x =>
        cases x with
        | running k j => exact absurd hw (h4 w k j)
        | _ => simp [Nursery.step, hw]
    | recv =>
      cases hs : n.step .recv with
      | none => rfl
      | some r =>
        obtain ⟨⟨k, j, o, ho, -⟩, -⟩ := follows_recv (n' := r.1) (out := r.2) hf hs
        exact absurd (by rw [hs, ← ho]) (h5 r.1 k o)
    | _ => cases he

/-- **C46.** Until there is a result something can happen, however tasks end. -/
theorem resolve_progress (hT : 0 < jobsT) (hP : 0 < jobsP) {tr : ResolveTrace T P D I ε}
    (h : ResolveRun addr all dht jobsT jobsP tr s) (hr : s.result = none) (trackerEnd : T → Outcome (Except ε (List P)))
    (peerEnd : P → Outcome (Except ε I)) :
    ∃ e s' out, s.step addr all e = some (s', out) ∧ (∀ x ∈ out.filterMap peerDoneOf, x.2 = peerEnd x.1) ∧
      (∀ x ∈ out.filterMap trackerDoneOf, x.2 = trackerPeers (trackerEnd x.1)) := by
  have hok : all ≠ [] ∨ ∃ x, dht = .ok x := by
    cases all with
    | cons t ts => exact .inl (by simp)
    | nil =>
      cases dht with
      | ok x => exact .inr ⟨x, rfl⟩
      | error e =>
        obtain ⟨-, rfl⟩ := resolve_exited h
        simp [Resolve.start] at hr
  obtain ⟨⟨⟨d, hp⟩, hsrc⟩, -⟩ := resolve_inv hT hP hok h
  have hr' : s.result.isSome = false := by rw [hr]; rfl
  have spawnOk : ∀ {J R : Type} {N : Nat} {n : Nursery J R} {acc : List J} {fin : List (J × Outcome R)} {d : Nat} (j : J),
      Follows N n acc fin d → n.handles = 1 → ∃ n' k, n.step (.spawn j) = some (n', [.accepted k j]) := by
    intro J R N n acc fin d j hf hh
    have hcl : n.closed = false := by
      cases hcl : n.closed with
      | false => rfl
      | true => rw [(follows_closed hf).1 hcl] at hh; cases hh
    exact ⟨_, _, by simp [Nursery.step, hh, hcl]; exact ⟨rfl, rfl⟩⟩
  have endOk : s.job = .running → ∀ out : List (ResolveOutput T P D I ε), ∃ s', s.endJob out = some (s', out) := by
    intro hj out
    have hh : s.peers.handles = 1 := by rw [hp.handles, hj]; rfl
    exact ⟨_, by simp [Resolve.endJob, Nursery.step, hh]; rfl⟩
  cases hj : s.job with
  | notStarted =>
    cases htodo : s.todo with
    | cons t ts =>
      rcases hsrc with ⟨-, ht⟩ | ⟨-, f, ns, -, hd⟩
      · obtain ⟨n, acc, dT, hn, hf, -, hh, -⟩ := ht.live (by rw [hj]; simp)
        rw [hj] at hh
        obtain ⟨n', k, hstep⟩ := spawnOk t hf hh
        refine ⟨.spawnTracker, { s with todo := ts, trackers := some n' }, [], ?_, by simp, by simp⟩
        simp only [Resolve.step, hr', htodo, hn, Option.bind_some, hstep]
        rfl
      · rw [hd.todo] at htodo; cases htodo
    | nil =>
      cases hn : s.trackers with
      | none => exact ⟨.startJob, _, [], by simp only [Resolve.step, hr', htodo, hj, hn]; rfl, by simp, by simp⟩
      | some n =>
        rcases hsrc with ⟨-, ht⟩ | ⟨-, f, ns, -, hd⟩
        · obtain ⟨n0, acc, dT, hn0, hf, -, hh, -⟩ := ht.live (by rw [hj]; simp)
          rw [hn] at hn0
          cases hn0
          rw [hj] at hh
          have : ∃ r, n.step .dropHandle = some r := ⟨_, by simp [Nursery.step, hh]; rfl⟩
          obtain ⟨r, hstep⟩ := this
          exact ⟨.startJob, _, [], by simp only [Resolve.step, hr', htodo, hj, hn, hstep]; rfl, by simp, by simp⟩
        · rw [hd.trackers] at hn; cases hn
  | running =>
    cases hbatch : s.batch with
    | cons p ps =>
      by_cases hdup : (s.trackers.isSome && decide (addr p ∈ s.seen)) = true
      · exact ⟨.nextPeer, _, [.arrived p], by simp only [Resolve.step, hr', hj, hbatch, hdup]; rfl, by simp [peerDoneOf], by simp [trackerDoneOf]⟩
      · obtain ⟨n', k, hstep⟩ := spawnOk p hp.follows (by rw [hp.handles, hj]; rfl)
        exact ⟨.nextPeer, _, [.arrived p, .contact p], by simp only [Resolve.step, hr', hj, hbatch, hdup, hstep]; rfl,
          by simp [List.filterMap, peerDoneOf], by simp [List.filterMap, trackerDoneOf]⟩
    | nil =>
      cases hn : s.trackers with
      | none =>
        obtain ⟨s', hs'⟩ := endOk hj []
        exact ⟨.noMorePeers, s', [], by simp only [Resolve.step, hr', hj, hbatch, hn, hs']; rfl, by simp, by simp⟩
      | some n =>
        rcases hsrc with ⟨-, ht⟩ | ⟨-, f, ns, -, hd⟩
        · obtain ⟨n0, acc, dT, hn0, hf, -, hh, -⟩ := ht.live (by rw [hj]; simp)
          rw [hn] at hn0
          cases hn0
          rw [hj] at hh
          rcases nursery_moves hT hf with ⟨w, r, h1⟩ | ⟨w, r, h1⟩ | ⟨w, r, h1⟩ | ⟨w, k, j, h1⟩ | ⟨n', k, o, h1⟩ | h1
          · exact ⟨.trackerTake w, _, [], by simp only [Resolve.step, hr', Resolve.trackerStep, hn, h1]; rfl, by simp, by simp⟩
          · exact ⟨.trackerCheck w, _, [], by simp only [Resolve.step, hr', Resolve.trackerStep, hn, h1]; rfl, by simp, by simp⟩
          · exact ⟨.trackerExit w, _, [], by simp only [Resolve.step, hr', Resolve.trackerStep, hn, h1]; rfl, by simp, by simp⟩
          · have hal := follows_alive hf
            have : ∃ r, n.step (.finish w (trackerPeers (trackerEnd j))) = some r := ⟨_, by simp [Nursery.step, h1, hal]; rfl⟩
            obtain ⟨r, hstep⟩ := this
            refine ⟨.trackerEnds w (trackerEnd j), { s with trackers := some r.1 },
              (match trackerPeers (trackerEnd j) with | .value ps => [.answer j ps] | .panic => [.trackerPanic j]), ?_, ?_, ?_⟩
            · simp only [Resolve.step, hr', hn, Option.bind_some, h1, Resolve.trackerStep, hstep]
              rfl
            · cases trackerPeers (trackerEnd j) <;> simp [peerDoneOf]
            · cases htp : trackerPeers (trackerEnd j) <;> simp [List.filterMap, trackerDoneOf, htp]
          · cases o with
            | value ps =>
              exact ⟨.nextBatch, _, [], by simp only [Resolve.step, hr', hj, hbatch, hn, h1]; rfl, by simp, by simp⟩
            | panic =>
              have hh' : s.peers.handles = 1 := by rw [hp.handles, hj]; rfl
              have : ∃ s', { s with trackers := some n' }.endJob ([] : List (ResolveOutput T P D I ε)) = some (s', []) :=
                ⟨_, by simp [Resolve.endJob, Nursery.step, hh']; rfl⟩
              obtain ⟨s', hs'⟩ := this
              exact ⟨.nextBatch, s', [], by simp only [Resolve.step, hr', hj, hbatch, hn, h1]; exact hs', by simp, by simp⟩
          · obtain ⟨r, hstep⟩ := h1 (by rw [hh]; rfl)
            obtain ⟨s', hs'⟩ := endOk hj []
            exact ⟨.noMorePeers, s', [], by simp only [Resolve.step, hr', hj, hbatch, hn, hstep, hs']; rfl, by simp, by simp⟩
        · rw [hd.trackers] at hn; cases hn
  | over =>
    rcases nursery_moves hP hp.follows with ⟨w, r, h1⟩ | ⟨w, r, h1⟩ | ⟨w, r, h1⟩ | ⟨w, k, j, h1⟩ | ⟨n', k, o, h1⟩ | h1
    · exact ⟨.peerTake w, _, [], by simp only [Resolve.step, hr', Resolve.peerStep, h1]; rfl, by simp, by simp⟩
    · exact ⟨.peerCheck w, _, [], by simp only [Resolve.step, hr', Resolve.peerStep, h1]; rfl, by simp, by simp⟩
    · exact ⟨.peerExit w, _, [], by simp only [Resolve.step, hr', Resolve.peerStep, h1]; rfl, by simp, by simp⟩
    · have hal := follows_alive hp.follows
      have : ∃ r, s.peers.step (.finish w (peerOutcome j (peerEnd j))) = some r := ⟨_, by simp [Nursery.step, h1, hal]; rfl⟩
      obtain ⟨r, hstep⟩ := this
      exact ⟨.peerEnds w (peerEnd j), _, [.peerDone j (peerEnd j)],
        by simp only [Resolve.step, hr', h1, Resolve.peerStep, hstep]; rfl, by simp [List.filterMap, peerDoneOf],
        by simp [List.filterMap, trackerDoneOf]⟩
    · cases o with
      | panic =>
        exact ⟨.receive, _, [.result .panicked], by simp only [Resolve.step, hr', hj, h1]; rfl, by simp [peerDoneOf],
          by simp [trackerDoneOf]⟩
      | value x =>
        obtain ⟨p, r⟩ := x
        cases r with
        | ok i =>
          exact ⟨.receive, _, [.tried p (.ok i), .result (.file i all s.nodes)],
            by simp only [Resolve.step, hr', hj, h1]; rfl, by simp [List.filterMap, peerDoneOf], by simp [List.filterMap, trackerDoneOf]⟩
        | error er =>
          exact ⟨.receive, _, [.tried p (.error er)], by simp only [Resolve.step, hr', hj, h1]; rfl, by simp [peerDoneOf],
            by simp [trackerDoneOf]⟩
    · obtain ⟨r, hstep⟩ := h1 (by rw [hp.handles, hj]; rfl)
      exact ⟨.receiveNone, _, [.result .nothing], by simp only [Resolve.step, hr', hj, hstep]; rfl, by simp [peerDoneOf],
        by simp [trackerDoneOf]⟩

end

/-! ### Termination -/

def jobWeight : JobPhase → Nat
  | .notStarted => 2
  | .running => 1
  | .over => 0

def nurseryWeight {J R : Type} : Option (Nursery J R) → Nat
  | some n => weight n
  | none => 0

def resolveWeight (s : Resolve T P A D I ε) : Nat × Nat :=
  (5 * s.todo.length + nurseryWeight s.trackers + jobWeight s.job,
    5 * s.batch.length + weight s.peers + if s.result.isSome then 0 else 1)

theorem resolve_decreases (addr : P → A) (all : List T) (s s' : Resolve T P A D I ε) (e : ResolveEvent P ε I)
    (out : List (ResolveOutput T P D I ε)) (hs : s.step addr all e = some (s', out)) :
    Prod.Lex (· < ·) (· < ·) (resolveWeight s') (resolveWeight s) := by
  have left : ∀ {x y : Nat × Nat}, x.1 < y.1 → Prod.Lex (· < ·) (· < ·) x y := fun {x y} h => by
    obtain ⟨a, b⟩ := x; obtain ⟨c, d⟩ := y; exact Prod.Lex.left _ _ h
  have right : ∀ {x y : Nat × Nat}, x.1 = y.1 → x.2 < y.2 → Prod.Lex (· < ·) (· < ·) x y := fun {x y} h h' => by
    obtain ⟨a, b⟩ := x; obtain ⟨c, d⟩ := y; cases h; exact Prod.Lex.right _ h'
  have trackerQ : ∀ {ev : NurseryEvent T (List P)} {o : List (ResolveOutput T P D I ε)}, Internal ev →
      s.trackerStep ev o = some (s', out) → Prod.Lex (· < ·) (· < ·) (resolveWeight s') (resolveWeight s) := by
    intro ev o hi hs
    unfold Resolve.trackerStep at hs
    split at hs
    case h_2 => cases hs
    rename_i n hn
    rw [Option.map_eq_some_iff] at hs
    obtain ⟨⟨n', o'⟩, hstep, hs⟩ := hs
    cases hs
    apply left
    have := nursery_terminates n n' ev o' hi hstep
    simp only [resolveWeight, nurseryWeight, hn]
    omega
  have peerQ : ∀ {ev : NurseryEvent P (P × Except ε I)} {o : List (ResolveOutput T P D I ε)}, Internal ev →
      s.peerStep ev o = some (s', out) → Prod.Lex (· < ·) (· < ·) (resolveWeight s') (resolveWeight s) := by
    intro ev o hi hs
    unfold Resolve.peerStep at hs
    rw [Option.map_eq_some_iff] at hs
    obtain ⟨⟨n', o'⟩, hstep, hs⟩ := hs
    cases hs
    refine right (by first | rfl | simp [resolveWeight, *]) ?_
    have := nursery_terminates s.peers n' ev o' hi hstep
    simp only [resolveWeight]
    omega
  have endQ : ∀ {s0 : Resolve T P A D I ε} {o : List (ResolveOutput T P D I ε)}, s0.endJob o = some (s', out) →
      s0.job = .running → 5 * s0.todo.length + nurseryWeight s0.trackers + 1 ≤ (resolveWeight s).1 →
      Prod.Lex (· < ·) (· < ·) (resolveWeight s') (resolveWeight s) := by
    intro s0 o hs hj hle
    unfold Resolve.endJob at hs
    rw [Option.map_eq_some_iff] at hs
    obtain ⟨⟨n', o'⟩, hstep, hs⟩ := hs
    cases hs
    apply left
    refine Nat.lt_of_lt_of_le ?_ hle
    simp only [resolveWeight, nurseryWeight, jobWeight]
    omega
  unfold Resolve.step at hs
  split at hs
  · cases hs
  rename_i hres
  have hres' : s.result.isSome = false := by simpa using hres
  cases e with
  | spawnTracker =>
    simp only at hs
    split at hs
    case h_2 => cases hs
    rename_i t ts htodo
    cases hn : s.trackers with
    | none => rw [hn] at hs; cases hs
    | some n =>
      rw [hn] at hs
      simp only [Option.bind_some] at hs
      split at hs
      · rename_i n' k j hstep
        cases hs
        have := weight_spawn hstep
        apply left
        simp only [resolveWeight, htodo, hn, nurseryWeight, List.length_cons]
        omega
      · cases hs
        refine right (by first | rfl | simp [resolveWeight, *]) ?_
        simp [resolveWeight, hres']
      · cases hs
  | startJob =>
    simp only at hs
    split at hs
    case h_2 => cases hs
    rename_i htodo hjob
    split at hs
    · rename_i n hn
      rw [Option.map_eq_some_iff] at hs
      obtain ⟨⟨n', o'⟩, hstep, hs⟩ := hs
      cases hs
      have := weight_dropHandle hstep
      apply left
      simp only [resolveWeight, hn, hjob, nurseryWeight, jobWeight]
      omega
    · rename_i hn
      cases hs
      apply left
      simp only [resolveWeight, hjob, jobWeight]
      omega
  | trackerTake w => exact trackerQ (ev := .take w) trivial hs
  | trackerCheck w => exact trackerQ (ev := .check w) trivial hs
  | trackerExit w => exact trackerQ (ev := .exit w) trivial hs
  | trackerEnds w r =>
    simp only at hs
    split at hs
    · exact trackerQ (ev := .finish w (trackerPeers r)) trivial hs
    · cases hs
  | nextPeer =>
    simp only at hs
    split at hs
    case h_2 => cases hs
    rename_i p ps hjob hbatch
    split at hs
    · cases hs
      refine right (by first | rfl | simp [resolveWeight, *]) ?_
      simp only [resolveWeight, hbatch, List.length_cons]
      omega
    · split at hs
      · rename_i n' k j hstep
        cases hs
        have := weight_spawn hstep
        refine right (by first | rfl | simp [resolveWeight, *]) ?_
        simp only [resolveWeight, hbatch, List.length_cons]
        omega
      · exact endQ hs hjob (by simp [resolveWeight, hjob, jobWeight])
      · cases hs
  | nextBatch =>
    simp only at hs
    split at hs
    case h_2 => cases hs
    rename_i n hjob hbatch hn
    split at hs
    · rename_i n' k ps hstep
      cases hs
      have := nursery_terminates n n' .recv _ trivial hstep
      apply left
      simp only [resolveWeight, hn, nurseryWeight]
      omega
    · rename_i n' k hstep
      have := nursery_terminates n n' .recv _ trivial hstep
      exact endQ hs hjob (by simp only [resolveWeight, hjob, hn, nurseryWeight, jobWeight]; omega)
    · cases hs
  | noMorePeers =>
    simp only at hs
    split at hs
    · rename_i n hjob hbatch hn
      split at hs
      · exact endQ hs hjob (by simp [resolveWeight, hjob, jobWeight])
      · cases hs
    · rename_i hjob hbatch hn
      exact endQ hs hjob (by simp [resolveWeight, hjob, jobWeight])
    · cases hs
  | peerTake w => exact peerQ (ev := .take w) trivial hs
  | peerCheck w => exact peerQ (ev := .check w) trivial hs
  | peerExit w => exact peerQ (ev := .exit w) trivial hs
  | peerEnds w r =>
    simp only at hs
    split at hs
    · exact peerQ (ev := .finish w _) trivial hs
    · cases hs
  | receive =>
    simp only at hs
    split at hs
    · cases hs
    split at hs
    · rename_i n' k p info hstep
      cases hs
      have := nursery_terminates s.peers n' .recv _ trivial hstep
      refine right (by first | rfl | simp [resolveWeight, *]) ?_
      simp only [resolveWeight, hres']
      simp
      omega
    · rename_i n' k p er hstep
      cases hs
      have := nursery_terminates s.peers n' .recv _ trivial hstep
      refine right (by first | rfl | simp [resolveWeight, *]) ?_
      simp only [resolveWeight]
      omega
    · rename_i n' k hstep
      cases hs
      have := nursery_terminates s.peers n' .recv _ trivial hstep
      refine right (by first | rfl | simp [resolveWeight, *]) ?_
      simp only [resolveWeight, hres']
      simp
      omega
    · cases hs
  | receiveNone =>
    simp only at hs
    split at hs
    · cases hs
    split at hs
    case h_2 => cases hs
    rename_i n' o hstep
    cases hs
    rw [weight_recvNone hstep]
    refine right (by first | rfl | simp [resolveWeight, *]) ?_
    simp [resolveWeight, hres']

/-- **C46.** There is no infinite run, whatever the trackers answer: with `resolve_progress`, every run in which tasks end comes to
a result. -/
theorem resolve_terminates (addr : P → A) (all : List T) :
    WellFounded fun s' s : Resolve T P A D I ε => ∃ e out, s.step addr all e = some (s', out) :=
  Subrelation.wf (r := InvImage (Prod.Lex (· < ·) (· < ·)) resolveWeight)
    (fun {s' s} ⟨e, out, h⟩ => resolve_decreases addr all s s' e out h)
    (InvImage.wf resolveWeight (Prod.lex Nat.lt_wfRel Nat.lt_wfRel).wf)

/-- Running given events. -/
def resolveExec (addr : P → A) (all : List T) :
    List (ResolveEvent P ε I) → Resolve T P A D I ε → Option (ResolveTrace T P D I ε × Resolve T P A D I ε)
  | [], s => some ([], s)
  | e :: es, s =>
    match s.step addr all e with
    | some (s', out) => (resolveExec addr all es s').map fun r => ((e, out) :: r.1, r.2)
    | none => none

theorem resolveExec_run {addr : P → A} {all : List T} {dht : Except ε (List P × List D)} {jobsT jobsP : Nat}
    (es : List (ResolveEvent P ε I)) {s s' : Resolve T P A D I ε} {tr tr' : ResolveTrace T P D I ε}
    (h : ResolveRun addr all dht jobsT jobsP tr s) (he : resolveExec addr all es s = some (tr', s')) :
    ResolveRun addr all dht jobsT jobsP (tr ++ tr') s' := by
  induction es generalizing s tr tr' with
  | nil => simp only [resolveExec, Option.some.injEq, Prod.mk.injEq] at he; obtain ⟨rfl, rfl⟩ := he; simpa using h
  | cons e es ih =>
    simp only [resolveExec] at he
    split at he
    · rename_i s1 out hs
      rw [Option.map_eq_some_iff] at he
      obtain ⟨⟨tr1, s2⟩, h1, h2⟩ := he
      simp only [Prod.mk.injEq] at h2
      obtain ⟨rfl, rfl⟩ := h2
      have := ih (.step h hs) h1
      rwa [List.append_assoc, List.singleton_append] at this
    · cases he

-- two trackers, one of which fails; the other gives two peers with the same address and one more; the first peer contacted fails,
-- the second succeeds
def exampleEvents : List (ResolveEvent (Nat × Nat) Nat Nat) :=
  [.spawnTracker, .spawnTracker, .trackerTake 0, .trackerCheck 0, .startJob, .trackerEnds 0 (.value (.error 0)), .trackerTake 0,
   .trackerCheck 0, .nextBatch, .trackerEnds 0 (.value (.ok [(7, 0), (7, 1), (8, 0)])), .nextBatch, .nextPeer, .nextPeer,
   .peerTake 0, .peerCheck 0, .nextPeer, .peerEnds 0 (.value (.error 13)), .receive, .peerTake 0, .peerCheck 0,
   .peerEnds 0 (.value (.ok 99)), .receive]

example : (resolveExec (A := Nat) (D := Nat) Prod.fst [1, 2] exampleEvents (Resolve.start [1, 2] (.error 0) 1 1)).map
      (fun r => (resolveObserved r.1, r.2.result)) =
    some ([.answer 1 [], .answer 2 [(7, 0), (7, 1), (8, 0)], .arrived (7, 0), .contact (7, 0), .arrived (7, 1), .arrived (8, 0),
      .contact (8, 0), .peerDone (7, 0) (.value (.error 13)), .tried (7, 0) (.error 13), .peerDone (8, 0) (.value (.ok 99)),
      .tried (8, 0) (.ok 99), .result (.file 99 [1, 2] [])], some (.file 99 [1, 2] [])) := by decide +kernel

-- no trackers; the DHT finds two peers, both fail
example : (resolveExec (T := Nat) (A := Nat) (D := Nat) Prod.fst [] [.startJob, .nextPeer, .nextPeer, .peerTake 0, .peerTake 1,
      .peerCheck 1, .peerCheck 0, .peerEnds 1 (.value (.error 5)), .noMorePeers, .peerExit 1, .peerEnds 0 (.value (.error 6)),
      .peerExit 0, .receive, .receive, .receiveNone] (Resolve.start (I := Nat) [] (.ok ([(1, 1), (2, 2)], [3])) 1 2)).map
      (fun r => (peerDones r.1, r.2.result)) =
    some ([((2, 2), .value (.error 5)), ((1, 1), .value (.error 6))], some .nothing) := by decide +kernel

end Demag.Props
