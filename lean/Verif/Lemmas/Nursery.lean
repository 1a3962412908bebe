import Verif.Spec.Nursery

/-! Helper lemmas: the invariant of a nursery. -/

namespace Demag

open Spec

variable {J R : Type}

/-- The number of the job a worker has received. -/
def Worker.receivedNum : Worker J → Option Nat | .received n _ => some n | _ => none
/-- The number of the job a worker is running. -/
def Worker.runningNum : Worker J → Option Nat | .running n _ => some n | _ => none

/-- Replacing a list element, up to order. -/
theorem filterMap_set_perm {α β : Type} (f : α → Option β) (l : List α) (i : Nat) (a b : α) (h : l[i]? = some a) :
    ∃ rest, (l.filterMap f).Perm ((f a).toList ++ rest) ∧ ((l.set i b).filterMap f).Perm ((f b).toList ++ rest) := by
  induction l generalizing i with
  | nil => simp at h
  | cons x l ih =>
    cases i with
    | zero =>
      simp only [List.getElem?_cons_zero, Option.some.injEq] at h
      subst h
      refine ⟨l.filterMap f, ?_, ?_⟩
      · rw [List.filterMap_cons]; cases f x <;> simp
      · rw [List.set_cons_zero, List.filterMap_cons]; cases f b <;> simp
    | succ i =>
      simp only [List.getElem?_cons_succ] at h
      obtain ⟨rest, h1, h2⟩ := ih i h
      rw [List.set_cons_succ]
      cases hx : f x with
      | none =>
        refine ⟨rest, ?_, ?_⟩
        · rw [List.filterMap_cons, hx]; exact h1
        · rw [List.filterMap_cons, hx]; exact h2
      | some y =>
        refine ⟨y :: rest, ?_, ?_⟩
        · rw [List.filterMap_cons, hx]
          exact (List.Perm.cons y h1).trans List.perm_middle.symm
        · rw [List.filterMap_cons, hx]
          exact (List.Perm.cons y h2).trans List.perm_middle.symm

theorem observed_snoc (tr : NurseryTrace J R) (e : NurseryEvent J R) (out : List (NurseryOutput J R)) :
    observed (tr ++ [(e, out)]) = observed tr ++ out := by simp [observed]

/-- What the state knows about the trace. -/
structure NurseryInv (N : Nat) (tr : NurseryTrace J R) (s : Nursery J R) : Prop where
  workers : s.workers.length = N
  accepted : (acceptedJobs tr).map Prod.fst = List.range s.next
  queue : tookJobs tr ++ s.queue.map Prod.fst = List.range s.next
  took : (tookJobs tr).Perm (beganJobs tr ++ discardedJobs tr ++ s.workers.filterMap Worker.receivedNum)
  began : (beganJobs tr).Perm ((finishedJobs tr).map Prod.fst ++ goneJobs tr ++ s.workers.filterMap Worker.runningNum)
  finished : finishedJobs tr = deliveredJobs tr ++ s.outputs
  alive : s.alive = true → goneJobs tr = []
  discarded : s.alive = true → s.done = false → discardedJobs tr = []
  done : s.done = true ↔ ShutDown tr
  doneClosed : s.done = true → s.closed = true
  dropped : s.alive = false ↔ StreamDropped tr
  handles : s.handles + tr.countP (fun e => isDrop e.1) = tr.countP (fun e => isClone e.1) + 1
  closed : s.closed = true ↔ (∃ e ∈ tr, e.1 = .close ∨ e.1 = .dropStream) ∨ s.handles = 0
  aliveClosed : s.alive = false → s.closed = true
  stopped : s.closed = false → .stopped ∉ s.workers
  stoppedQueue : s.done = false → s.alive = true → .stopped ∈ s.workers → s.queue = []

section snoc
variable (tr : NurseryTrace J R) (e : NurseryEvent J R) (out : List (NurseryOutput J R))
theorem acceptedJobs_snoc : acceptedJobs (tr ++ [(e, out)]) = acceptedJobs tr ++ out.filterMap acceptedOf := by
  simp [acceptedJobs, observed_snoc]
theorem tookJobs_snoc : tookJobs (tr ++ [(e, out)]) = tookJobs tr ++ out.filterMap tookOf := by
  simp [tookJobs, observed_snoc]
theorem beganJobs_snoc : beganJobs (tr ++ [(e, out)]) = beganJobs tr ++ out.filterMap beganOf := by
  simp [beganJobs, observed_snoc]
theorem discardedJobs_snoc : discardedJobs (tr ++ [(e, out)]) = discardedJobs tr ++ out.filterMap discardedOf := by
  simp [discardedJobs, observed_snoc]
theorem finishedJobs_snoc : finishedJobs (tr ++ [(e, out)]) = finishedJobs tr ++ out.filterMap finishedOf := by
  simp [finishedJobs, observed_snoc]
theorem goneJobs_snoc : goneJobs (tr ++ [(e, out)]) = goneJobs tr ++ out.filterMap goneOf := by
  simp [goneJobs, observed_snoc]
theorem deliveredJobs_snoc : deliveredJobs (tr ++ [(e, out)]) = deliveredJobs tr ++ out.filterMap deliveredOf := by
  simp [deliveredJobs, observed_snoc]
theorem shutDown_snoc : ShutDown (tr ++ [(e, out)]) ↔ ShutDown tr ∨ e = .setDone := by
  simp only [ShutDown, List.mem_append, List.mem_singleton, Prod.mk.injEq]
  constructor
  · rintro ⟨o, h | ⟨h, -⟩⟩
    · exact .inl ⟨o, h⟩
    · exact .inr h.symm
  · rintro (⟨o, h⟩ | rfl)
    · exact ⟨o, .inl h⟩
    · exact ⟨out, .inr ⟨rfl, rfl⟩⟩
theorem streamDropped_snoc : StreamDropped (tr ++ [(e, out)]) ↔ StreamDropped tr ∨ e = .dropStream := by
  simp only [StreamDropped, List.mem_append, List.mem_singleton, Prod.mk.injEq]
  constructor
  · rintro ⟨o, h | ⟨h, -⟩⟩
    · exact .inl ⟨o, h⟩
    · exact .inr h.symm
  · rintro (⟨o, h⟩ | rfl)
    · exact ⟨o, .inl h⟩
    · exact ⟨out, .inr ⟨rfl, rfl⟩⟩
theorem isDrop_iff : isDrop e = true ↔ e = .dropHandle := by cases e <;> simp [isDrop]
theorem isClone_iff : isClone e = true ↔ e = .clone := by cases e <;> simp [isClone]
theorem isClose_snoc : (∃ x ∈ tr ++ [(e, out)], x.1 = .close ∨ x.1 = .dropStream) ↔
    (∃ x ∈ tr, x.1 = .close ∨ x.1 = .dropStream) ∨ (e = .close ∨ e = .dropStream) := by
  simp [or_and_right, exists_or]
theorem isDrop_snoc : (tr ++ [(e, out)]).countP (fun x => isDrop x.1) =
    tr.countP (fun x => isDrop x.1) + if isDrop e then 1 else 0 := by simp [List.countP_append, List.countP_cons]
theorem isClone_snoc : (tr ++ [(e, out)]).countP (fun x => isClone x.1) =
    tr.countP (fun x => isClone x.1) + if isClone e then 1 else 0 := by simp [List.countP_append, List.countP_cons]
end snoc

macro "nursery_snoc" : tactic => `(tactic|
  try simp only [acceptedJobs_snoc, tookJobs_snoc, beganJobs_snoc, discardedJobs_snoc, finishedJobs_snoc, goneJobs_snoc,
    deliveredJobs_snoc, shutDown_snoc, streamDropped_snoc, isClose_snoc, isDrop_snoc, isClone_snoc, List.filterMap,
    or_self, true_or, iff_true,    acceptedOf, tookOf, beganOf, discardedOf, finishedOf, goneOf, deliveredOf, isDrop_iff, isClone_iff,
    List.append_nil, Bool.false_eq_true, if_false, if_true, Nat.add_zero, or_false, reduceCtorEq, or_true])

theorem nurseryInv_init (N : Nat) : NurseryInv N ([] : NurseryTrace J R) (Nursery.new N) := by
  constructor <;> simp [Nursery.new, acceptedJobs, tookJobs, beganJobs, discardedJobs, finishedJobs, goneJobs, deliveredJobs,
    observed, ShutDown, StreamDropped, Worker.receivedNum, Worker.runningNum]

/-- Events that do not touch the workers. -/
theorem nurseryInv_simple {N : Nat} {tr : NurseryTrace J R} {s s' : Nursery J R} {e : NurseryEvent J R}
    {out : List (NurseryOutput J R)} (h : NurseryInv N tr s) (hs : s.step e = some (s', out))
    (hw : s'.workers = s.workers) : NurseryInv N (tr ++ [(e, out)]) s' := by
  obtain ⟨i1, i2, i3, i4, i5, i6, i7, i8, i9, i10, i11, i12, i13, iac, i14, i15⟩ := h
  cases e with
  | spawn j =>
    simp only [Nursery.step] at hs
    split at hs
    · cases hs
    · rename_i hh
      split at hs
      · cases hs
        constructor <;> nursery_snoc <;> assumption
      · rename_i hc
        cases hs
        have hc' : s.closed = false := by simpa using hc
        constructor <;> nursery_snoc <;> first | assumption | skip
        · rw [List.map_append, i2, List.range_succ]; rfl
        · rw [List.map_append, ← List.append_assoc, i3, List.range_succ]; rfl
        · intro _ _ hm; exact absurd hm (i14 hc')
  | clone =>
    simp only [Nursery.step] at hs
    split at hs
    · cases hs
    · rename_i hh
      cases hs
      constructor <;> nursery_snoc <;> first | assumption | skip
      · show s.handles + 1 + _ = _; omega
      · rw [i13]; simp [hh]
  | dropHandle =>
    simp only [Nursery.step] at hs
    split at hs
    · cases hs
    · rename_i hh
      cases hs
      constructor <;> nursery_snoc <;> first | assumption | skip
      · intro hd; simp [i10 hd]
      · show s.handles - 1 + _ = _; omega
      · show (s.closed || s.handles == 1) = true ↔ _ ∨ s.handles - 1 = 0
        rw [Bool.or_eq_true, i13]
        simp only [beq_iff_eq]
        constructor
        · rintro ((h | h) | h)
          · exact .inl h
          · exact absurd h hh
          · right; omega
        · rintro (h | h)
          · exact .inl (.inl h)
          · right; omega
      · intro ha; rw [iac ha]; rfl
      · intro hcl
        exact i14 (by simpa using (Bool.or_eq_false_iff.1 hcl).1)
  | close =>
    simp only [Nursery.step] at hs
    split at hs
    · cases hs
    · cases hs
      constructor <;> nursery_snoc <;> first | assumption | skip
      · intro _; trivial
      · simp
      · intro h; cases h
  | setDone =>
    simp only [Nursery.step] at hs
    split at hs
    · rename_i hc
      cases hs
      constructor <;> nursery_snoc <;> first | assumption | skip
      · intro _ h; cases h
      · intro _; exact hc
      · intro h; cases h
    · cases hs
  | take w =>
    simp only [Nursery.step] at hs
    split at hs
    · rename_i n j q h1 h2
      cases hs
      simp only at hw
      exfalso
      have := congrArg (·[w]?) hw
      simp only [h1] at this
      rw [List.getElem?_set_self (by rw [List.getElem?_eq_some_iff] at h1; exact h1.1)] at this
      cases this
    · cases hs
  | check w =>
    simp only [Nursery.step] at hs
    split at hs
    · rename_i n j h1
      exfalso
      split at hs
      all_goals
        cases hs
        simp only at hw
        have := congrArg (·[w]?) hw
        simp only [h1] at this
        rw [List.getElem?_set_self (by rw [List.getElem?_eq_some_iff] at h1; exact h1.1)] at this
        cases this
    · cases hs
  | finish w o =>
    simp only [Nursery.step] at hs
    split at hs
    · rename_i n j h1
      exfalso
      split at hs
      all_goals
        cases hs
        simp only at hw
        have := congrArg (·[w]?) hw
        simp only [h1] at this
        rw [List.getElem?_set_self (by rw [List.getElem?_eq_some_iff] at h1; exact h1.1)] at this
        cases this
    · cases hs
  | exit w =>
    simp only [Nursery.step] at hs
    split at hs
    · rename_i h1 h2
      split at hs
      · cases hs
        simp only at hw
        exfalso
        have := congrArg (·[w]?) hw
        simp only [h1] at this
        rw [List.getElem?_set_self (by rw [List.getElem?_eq_some_iff] at h1; exact h1.1)] at this
        cases this
      · cases hs
    · cases hs
  | recv =>
    simp only [Nursery.step] at hs
    split at hs
    · split at hs
      · rename_i ha n o r ho
        cases hs
        constructor <;> nursery_snoc <;> first | assumption | skip
        rw [i6, ho]; simp
      · cases hs
    · cases hs
  | recvNone =>
    simp only [Nursery.step] at hs
    split at hs
    · cases hs
      constructor <;> nursery_snoc <;> assumption
    · cases hs
  | dropStream =>
    simp only [Nursery.step] at hs
    split at hs
    · cases hs
      constructor <;> nursery_snoc <;> first | assumption | skip
      · intro h; cases h
      · intro h; cases h
      · intro _; trivial
      · simp
      · intro h; cases h
      · intro _ h; cases h
    · cases hs
  | abort w =>
    simp only [Nursery.step] at hs
    split at hs
    · cases hs
    · split at hs
      all_goals first | (cases hs; done) | skip
      all_goals
        rename_i h1
        cases hs
        simp only at hw
        exfalso
        have := congrArg (·[w]?) hw
        simp only [h1] at this
        rw [List.getElem?_set_self (by rw [List.getElem?_eq_some_iff] at h1; exact h1.1)] at this
        cases this

/-- A worker other than the one replaced. -/
theorem mem_set_stopped {ws : List (Worker J)} {w : Nat} {x : Worker J} (hx : x ≠ .stopped) (h : .stopped ∈ ws.set w x) :
    .stopped ∈ ws := by
  rcases List.mem_or_eq_of_mem_set h with h | h
  · exact h
  · exact absurd h.symm hx

theorem nurseryInv_step {N : Nat} {tr : NurseryTrace J R} {s s' : Nursery J R} {e : NurseryEvent J R}
    {out : List (NurseryOutput J R)} (h : NurseryInv N tr s) (hs : s.step e = some (s', out)) :
    NurseryInv N (tr ++ [(e, out)]) s' := by
  have hsimple : s'.workers = s.workers → NurseryInv N (tr ++ [(e, out)]) s' := nurseryInv_simple h hs
  obtain ⟨i1, i2, i3, i4, i5, i6, i7, i8, i9, i10, i11, i12, i13, iac, i14, i15⟩ := h
  cases e with
  | spawn j =>
    apply hsimple
    simp only [Nursery.step] at hs
    split at hs
    · cases hs
    · split at hs <;> (cases hs; rfl)
  | clone =>
    apply hsimple
    simp only [Nursery.step] at hs
    split at hs
    · cases hs
    · cases hs; rfl
  | dropHandle =>
    apply hsimple
    simp only [Nursery.step] at hs
    split at hs
    · cases hs
    · cases hs; rfl
  | close =>
    apply hsimple
    simp only [Nursery.step] at hs
    split at hs
    · cases hs
    · cases hs; rfl
  | setDone =>
    apply hsimple
    simp only [Nursery.step] at hs
    split at hs
    · cases hs; rfl
    · cases hs
  | recv =>
    apply hsimple
    simp only [Nursery.step] at hs
    split at hs
    · split at hs
      · cases hs; rfl
      · cases hs
    · cases hs
  | recvNone =>
    apply hsimple
    simp only [Nursery.step] at hs
    split at hs
    · cases hs; rfl
    · cases hs
  | dropStream =>
    apply hsimple
    simp only [Nursery.step] at hs
    split at hs
    · cases hs; rfl
    · cases hs
  | take w =>
    simp only [Nursery.step] at hs
    split at hs
    · rename_i n j q h1 h2
      cases hs
      obtain ⟨r1, p1, p2⟩ := filterMap_set_perm Worker.receivedNum s.workers w _ (.received n j) h1
      obtain ⟨r2, p3, p4⟩ := filterMap_set_perm Worker.runningNum s.workers w _ (.received n j) h1
      simp only [Worker.receivedNum, Worker.runningNum, Option.toList_none, Option.toList_some, List.nil_append,
        List.singleton_append] at p1 p2 p3 p4
      constructor <;> nursery_snoc <;> first | assumption | skip
      · rw [List.length_set, i1]
      · rw [h2] at i3
        simpa using i3
      · refine (List.Perm.append_right [n] i4).trans ?_
        rw [List.append_assoc]
        exact List.Perm.append_left _ ((List.Perm.append_right _ p1).trans
          (((List.perm_append_singleton n r1)).trans p2.symm))
      · exact i5.trans (List.Perm.append_left _ (p3.trans p4.symm))
      · intro hc hm; exact i14 hc (mem_set_stopped (by simp) hm)
      · intro hd ha hm
        have := i15 hd ha (mem_set_stopped (by simp) hm)
        rw [h2] at this; cases this
    · cases hs
  | check w =>
    simp only [Nursery.step] at hs
    split at hs
    · rename_i n j h1
      split at hs
      · rename_i hd
        cases hs
        obtain ⟨r1, p1, p2⟩ := filterMap_set_perm Worker.receivedNum s.workers w _ .stopped h1
        obtain ⟨r2, p3, p4⟩ := filterMap_set_perm Worker.runningNum s.workers w _ .stopped h1
        simp only [Worker.receivedNum, Worker.runningNum, Option.toList_none, Option.toList_some, List.nil_append,
          List.singleton_append] at p1 p2 p3 p4
        constructor <;> nursery_snoc <;> first | assumption | skip
        · rw [List.length_set, i1]
        · refine i4.trans ?_
          rw [List.append_assoc, List.append_assoc, List.append_assoc]
          exact List.Perm.append_left _ (List.Perm.append_left _ (p1.trans ((List.Perm.cons n p2.symm))))
        · exact i5.trans (List.Perm.append_left _ (p3.trans p4.symm))
        · intro _ hd'; rw [hd] at hd'; cases hd'
        · intro hc; rw [i10 hd] at hc; cases hc
        · intro hd'; rw [hd] at hd'; cases hd'
      · cases hs
        obtain ⟨r1, p1, p2⟩ := filterMap_set_perm Worker.receivedNum s.workers w _ (.running n j) h1
        obtain ⟨r2, p3, p4⟩ := filterMap_set_perm Worker.runningNum s.workers w _ (.running n j) h1
        simp only [Worker.receivedNum, Worker.runningNum, Option.toList_none, Option.toList_some, List.nil_append,
          List.singleton_append] at p1 p2 p3 p4
        constructor <;> nursery_snoc <;> first | assumption | skip
        · rw [List.length_set, i1]
        · refine i4.trans ?_
          refine (List.Perm.append_left _ p1).trans ?_
          refine List.perm_middle.trans ?_
          refine List.Perm.trans ?_ (List.Perm.append_left _ p2.symm)
          rw [List.append_assoc, List.append_assoc, List.append_assoc]
          exact (List.perm_middle (a := n) (l₁ := beganJobs tr) (l₂ := discardedJobs tr ++ r1)).symm
        · refine (List.Perm.append_right [n] i5).trans ?_
          rw [List.append_assoc]
          exact List.Perm.append_left _ ((List.Perm.append_right _ p3).trans
            (((List.perm_append_singleton n r2)).trans p4.symm))
        · intro hc hm; exact i14 hc (mem_set_stopped (by simp) hm)
        · intro hd ha hm; exact i15 hd ha (mem_set_stopped (by simp) hm)
    · cases hs
  | finish w o =>
    simp only [Nursery.step] at hs
    split at hs
    · rename_i n j h1
      split at hs
      · rename_i ha
        cases hs
        obtain ⟨r1, p1, p2⟩ := filterMap_set_perm Worker.receivedNum s.workers w _ .waiting h1
        obtain ⟨r2, p3, p4⟩ := filterMap_set_perm Worker.runningNum s.workers w _ .waiting h1
        simp only [Worker.receivedNum, Worker.runningNum, Option.toList_none, Option.toList_some, List.nil_append,
          List.singleton_append] at p1 p2 p3 p4
        constructor <;> nursery_snoc <;> first | assumption | skip
        · rw [List.length_set, i1]
        · exact i4.trans (List.Perm.append_left _ (p1.trans p2.symm))
        · refine i5.trans ?_
          rw [List.map_append, List.append_assoc, List.append_assoc, List.append_assoc]
          refine List.Perm.append_left _ ?_
          refine (List.Perm.append_left _ p3).trans ?_
          exact List.perm_middle.trans (List.Perm.cons n (List.Perm.append_left _ p4.symm))
        · rw [i6, List.append_assoc]
        · intro hc hm; exact i14 hc (mem_set_stopped (by simp) hm)
        · intro hd ha hm; exact i15 hd ha (mem_set_stopped (by simp) hm)
      · rename_i ha
        have ha' : s.alive = false := by simpa using ha
        cases hs
        obtain ⟨r1, p1, p2⟩ := filterMap_set_perm Worker.receivedNum s.workers w _ .stopped h1
        obtain ⟨r2, p3, p4⟩ := filterMap_set_perm Worker.runningNum s.workers w _ .stopped h1
        simp only [Worker.receivedNum, Worker.runningNum, Option.toList_none, Option.toList_some, List.nil_append,
          List.singleton_append] at p1 p2 p3 p4
        constructor <;> nursery_snoc <;> first | assumption | skip
        · rw [List.length_set, i1]
        · exact i4.trans (List.Perm.append_left _ (p1.trans p2.symm))
        · refine i5.trans ?_
          rw [List.append_assoc, List.append_assoc, List.append_assoc]
          exact List.Perm.append_left _ (List.Perm.append_left _ (p3.trans (List.Perm.cons n p4.symm)))
        · intro ha2; rw [ha'] at ha2; cases ha2
        · intro hc; rw [iac ha'] at hc; cases hc
        · intro _ ha2; rw [ha'] at ha2; cases ha2
    · cases hs
  | exit w =>
    simp only [Nursery.step] at hs
    split at hs
    · rename_i h1 h2
      split at hs
      · rename_i hc
        cases hs
        obtain ⟨r1, p1, p2⟩ := filterMap_set_perm Worker.receivedNum s.workers w _ .stopped h1
        obtain ⟨r2, p3, p4⟩ := filterMap_set_perm Worker.runningNum s.workers w _ .stopped h1
        simp only [Worker.receivedNum, Worker.runningNum, Option.toList_none, Option.toList_some, List.nil_append,
          List.singleton_append] at p1 p2 p3 p4
        constructor <;> nursery_snoc <;> first | assumption | skip
        · rw [List.length_set, i1]
        · exact i4.trans (List.Perm.append_left _ (p1.trans p2.symm))
        · exact i5.trans (List.Perm.append_left _ (p3.trans p4.symm))
        · intro hc2; rw [hc] at hc2; cases hc2
        · intro _ _ _; exact h2
      · cases hs
    · cases hs
  | abort w =>
    simp only [Nursery.step] at hs
    split at hs
    · cases hs
    · rename_i ha
      have ha' : s.alive = false := by simpa using ha
      split at hs
      · rename_i n j h1
        cases hs
        obtain ⟨r1, p1, p2⟩ := filterMap_set_perm Worker.receivedNum s.workers w _ .stopped h1
        obtain ⟨r2, p3, p4⟩ := filterMap_set_perm Worker.runningNum s.workers w _ .stopped h1
        simp only [Worker.receivedNum, Worker.runningNum, Option.toList_none, Option.toList_some, List.nil_append,
          List.singleton_append] at p1 p2 p3 p4
        constructor <;> nursery_snoc <;> first | assumption | skip
        · rw [List.length_set, i1]
        · exact i4.trans (List.Perm.append_left _ (p1.trans p2.symm))
        · refine i5.trans ?_
          rw [List.append_assoc, List.append_assoc, List.append_assoc]
          exact List.Perm.append_left _ (List.Perm.append_left _ (p3.trans (List.Perm.cons n p4.symm)))
        · intro ha2; rw [ha'] at ha2; cases ha2
        · intro hc; rw [iac ha'] at hc; cases hc
        · intro _ ha2; rw [ha'] at ha2; cases ha2
      · rename_i n j h1
        cases hs
        obtain ⟨r1, p1, p2⟩ := filterMap_set_perm Worker.receivedNum s.workers w _ .stopped h1
        obtain ⟨r2, p3, p4⟩ := filterMap_set_perm Worker.runningNum s.workers w _ .stopped h1
        simp only [Worker.receivedNum, Worker.runningNum, Option.toList_none, Option.toList_some, List.nil_append,
          List.singleton_append] at p1 p2 p3 p4
        constructor <;> nursery_snoc <;> first | assumption | skip
        · rw [List.length_set, i1]
        · refine i4.trans ?_
          rw [List.append_assoc, List.append_assoc, List.append_assoc]
          exact List.Perm.append_left _ (List.Perm.append_left _ (p1.trans ((List.Perm.cons n p2.symm))))
        · exact i5.trans (List.Perm.append_left _ (p3.trans p4.symm))
        · intro ha2; rw [ha'] at ha2; cases ha2
        · intro hc; rw [iac ha'] at hc; cases hc
        · intro _ ha2; rw [ha'] at ha2; cases ha2
      · rename_i h1
        cases hs
        obtain ⟨r1, p1, p2⟩ := filterMap_set_perm Worker.receivedNum s.workers w _ .stopped h1
        obtain ⟨r2, p3, p4⟩ := filterMap_set_perm Worker.runningNum s.workers w _ .stopped h1
        simp only [Worker.receivedNum, Worker.runningNum, Option.toList_none, Option.toList_some, List.nil_append,
          List.singleton_append] at p1 p2 p3 p4
        constructor <;> nursery_snoc <;> first | assumption | skip
        · rw [List.length_set, i1]
        · exact i4.trans (List.Perm.append_left _ (p1.trans p2.symm))
        · exact i5.trans (List.Perm.append_left _ (p3.trans p4.symm))
        · intro hc; rw [iac ha'] at hc; cases hc
        · intro _ ha2; rw [ha'] at ha2; cases ha2
      · cases hs

theorem nursery_inv {N : Nat} {tr : NurseryTrace J R} {s : Nursery J R} (h : NurseryRun N tr s) : NurseryInv N tr s := by
  induction h with
  | init => exact nurseryInv_init N
  | step _ hs ih => exact nurseryInv_step ih hs

end Demag
