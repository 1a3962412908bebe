import Verif.Spec.DownloadTime
import Mathlib.Tactic.ByContra

/-!
# How long the jobs of a nursery take

Lemmas about the nursery model: jobs that are taken as soon as a worker is free are over after as many rounds as there are jobs for each worker.
-/

namespace Demag.Props

variable {J R : Type}

/-- The sum of the first `n` values. -/
def sumTo (c : Nat → Nat) : Nat → Nat
  | 0 => 0
  | n + 1 => sumTo c n + c n

theorem sumTo_congr {c c' : Nat → Nat} : ∀ {n : Nat}, (∀ k < n, c k = c' k) → sumTo c n = sumTo c' n
  | 0, _ => rfl
  | n + 1, h => by simp only [sumTo]; rw [sumTo_congr fun k hk => h k (by omega), h n (by omega)]

/-- One more for `w`. -/
def bump (c : Nat → Nat) (w : Nat) : Nat → Nat := fun k => if k = w then c k + 1 else c k

theorem sumTo_bump (c : Nat → Nat) {w : Nat} : ∀ {n : Nat}, w < n → sumTo (bump c w) n = sumTo c n + 1
  | 0, h => by omega
  | n + 1, h => by
    simp only [sumTo]
    by_cases hw : w = n
    · subst hw
      rw [sumTo_congr (c := bump c w) (c' := c) (fun k hk => by simp [bump]; omega)]
      simp [bump]; omega
    · rw [sumTo_bump c (n := n) (by omega)]
      have : n ≠ w := fun h => hw h.symm
      simp [bump, this]; omega

theorem sumTo_le {c : Nat → Nat} {m : Nat} : ∀ {n : Nat}, (∀ k < n, m ≤ c k) → n * m ≤ sumTo c n
  | 0, _ => by simp [sumTo]
  | n + 1, h => by
    have h1 := sumTo_le (c := c) (m := m) (n := n) fun k hk => h k (by omega)
    have h2 := h n (by omega)
    simp only [sumTo, Nat.succ_mul]; omega

/-- Someone has no more than the average. -/
theorem exists_few {c : Nat → Nat} {n total : Nat} (hn : 0 < n) (h : sumTo c n ≤ total) : ∃ k < n, c k ≤ total / n := by
  by_contra hno
  have hall : ∀ k < n, total / n + 1 ≤ c k := fun k hk => by
    by_contra hk'
    exact hno ⟨k, hk, by omega⟩
  have h1 := sumTo_le hall
  have h2 := Nat.lt_mul_div_succ total hn
  have : n * (total / n + 1) ≤ total := Nat.le_trans h1 h
  omega

theorem rounds_succ {n W : Nat} (hn : 0 < n) (hW : 0 < W) : Spec.rounds n W = (n - 1) / W + 1 := by
  unfold Spec.rounds
  rw [show n + W - 1 = (n - 1) + W by omega, Nat.add_div_right _ hW]

theorem rounds_mono {n m W : Nat} (h : n ≤ m) : Spec.rounds n W ≤ Spec.rounds m W := Nat.div_le_div_right (by omega)

/-- What holds of a nursery of `W` workers at the time `now`, if no job takes longer than `D` and none is spawned after `A`: `c w` is the number of jobs
that worker `w` has taken, `b w` is when it began the last one. -/
structure NurseryTime (W D A now : Nat) (n : Nursery J R) (c b : Nat → Nat) : Prop where
  width : n.workers.length = W
  total : sumTo c W + n.queue.length = n.next
  alive : n.alive = true
  undone : n.done = false
  past : A ≤ now
  ended : ∀ w : Nat, n.workers[w]? = some .stopped → n.queue = [] ∧ n.closed = true
  busy : n.queue ≠ [] → ∀ w < W, now ≤ A + c w * D
  got : ∀ (w k : Nat) (j : J), n.workers[w]? = some (.received k j) → now + D ≤ A + c w * D ∧ now ≤ A + (n.next - 1) / W * D ∧ 0 < n.next
  run : ∀ (w k : Nat) (j : J), n.workers[w]? = some (.running k j) →
    b w + D ≤ A + c w * D ∧ b w ≤ A + (n.next - 1) / W * D ∧ 0 < n.next ∧ now ≤ b w + D

section
variable {W D A now : Nat} {n n' : Nursery J R} {c b b' : Nat → Nat} {out : List (NurseryOutput J R)}

theorem nurseryTime_new (W D t0 : Nat) (b : Nat → Nat) : NurseryTime W D t0 t0 (Nursery.new W : Nursery J R) (fun _ => 0) b := by
  have hz : ∀ n, sumTo (fun _ => 0) n = 0 := by intro n; induction n with | zero => rfl | succ n ih => simp [sumTo, ih]
  refine ⟨by simp [Nursery.new], by simp [Nursery.new, hz], rfl, rfl, Nat.le_refl _, ?_, by simp [Nursery.new], ?_, ?_⟩
  · intro w hw; simp [Nursery.new, List.getElem?_replicate] at hw
  · intro w k j hw; simp [Nursery.new, List.getElem?_replicate] at hw
  · intro w k j hw; simp [Nursery.new, List.getElem?_replicate] at hw

/-- A job is not running for longer than the rounds before it, and itself, take. -/
theorem NurseryTime.bound (h : NurseryTime W D A now n c b) (hW : 0 < W) {w k : Nat} {j : J} (hw : n.workers[w]? = some (.running k j)) :
    now ≤ A + Spec.rounds n.next W * D := by
  obtain ⟨-, h2, h3, h4⟩ := h.run w k j hw
  rw [rounds_succ h3 hW, Nat.succ_mul]
  omega

/-- Time passes. -/
theorem NurseryTime.pass (h : NurseryTime W D A now n c b) {now' : Nat} (hle : now ≤ now')
    (hidle : now < now' → (∀ w, n.step (.take w) = none) ∧ ∀ w, n.step (.check w) = none)
    (hrun : ∀ (w k : Nat) (j : J), n.workers[w]? = some (.running k j) → now' ≤ b w + D) : NurseryTime W D A now' n c b := by
  rcases Nat.lt_or_eq_of_le hle with hlt | rfl
  · obtain ⟨ht, hc⟩ := hidle hlt
    have hnotgot : ∀ (w k : Nat) (j : J), n.workers[w]? ≠ some (.received k j) := by
      intro w k j hw
      have := hc w
      simp [Nursery.step, hw, h.undone] at this
    refine ⟨h.width, h.total, h.alive, h.undone, by have := h.past; omega, h.ended, ?_, ?_, ?_⟩
    · intro hq w hw
      have hlen : w < n.workers.length := by rw [h.width]; exact hw
      cases hx : n.workers[w]? with
      | none => rw [List.getElem?_eq_none_iff] at hx; omega
      | some x =>
        cases x with
        | waiting =>
          cases hqq : n.queue with
          | nil => exact absurd hqq hq
          | cons y q => obtain ⟨k, j⟩ := y; have := ht w; simp [Nursery.step, hx, hqq] at this
        | received k j => exact absurd hx (hnotgot w k j)
        | running k j =>
          have h1 := (h.run w k j hx).1
          have h2 := hrun w k j hx
          omega
        | stopped => exact absurd (h.ended w hx).1 hq
    · intro w k j hw; exact absurd hw (hnotgot w k j)
    · intro w k j hw
      obtain ⟨h1, h2, h3, -⟩ := h.run w k j hw
      exact ⟨h1, h2, h3, hrun w k j hw⟩
  · exact h

theorem NurseryTime.congr (h : NurseryTime W D A now n c b) (hb : ∀ k, b' k = b k) : NurseryTime W D A now n c b' := by
  have : b' = b := funext hb
  rw [this]; exact h

theorem NurseryTime.spawn (h : NurseryTime W D A now n c b) {j : J} {k : Nat} (hs : n.step (.spawn j) = some (n', [.accepted k j])) :
    NurseryTime W D now now n' c b ∧ n'.next = n.next + 1 := by
  simp only [Nursery.step] at hs
  split at hs
  · cases hs
  split at hs
  · simp at hs
  rename_i hcl
  simp only [Option.some.injEq, Prod.mk.injEq] at hs
  obtain ⟨rfl, -⟩ := hs
  have hmono : (n.next - 1) / W * D ≤ (n.next + 1 - 1) / W * D := Nat.mul_le_mul_right _ (Nat.div_le_div_right (by omega))
  have hp := h.past
  refine ⟨⟨h.width, by have := h.total; simp; omega, h.alive, h.undone, Nat.le_refl _, ?_, fun _ w _ => by omega, ?_, ?_⟩, rfl⟩
  · intro w hw
    exact absurd (h.ended w hw).2 hcl
  · intro w k j hw
    obtain ⟨h1, h2, h3⟩ := h.got w k j hw
    exact ⟨by omega, by show _ ≤ _ + (n.next + 1 - 1) / W * D; omega, by simp⟩
  · intro w k j hw
    obtain ⟨h1, h2, h3, h4⟩ := h.run w k j hw
    exact ⟨by omega, by show _ ≤ _ + (n.next + 1 - 1) / W * D; omega, by simp, h4⟩

theorem NurseryTime.take (hW : 0 < W) (h : NurseryTime W D A now n c b) {w : Nat} (hs : n.step (.take w) = some (n', out)) :
    NurseryTime W D A now n' (bump c w) b ∧ n'.next = n.next := by
  simp only [Nursery.step] at hs
  split at hs <;> cases hs
  rename_i k j q hw hq
  have hlen : w < n.workers.length := (List.getElem?_eq_some_iff.1 hw).1
  have hwW : w < W := by rw [← h.width]; exact hlen
  have hbusy := h.busy (by rw [hq]; simp)
  have htot := h.total
  rw [hq, List.length_cons] at htot
  have hmono : ∀ v, A + c v * D ≤ A + bump c w v * D := by
    intro v
    have : c v ≤ bump c w v := by simp only [bump]; split <;> omega
    have := Nat.mul_le_mul_right D this
    omega
  have hother : ∀ v x, v ≠ w → (n.workers.set w (.received k j))[v]? = some x → n.workers[v]? = some x := by
    intro v x hv hx
    rwa [List.getElem?_set_ne (fun h => hv h.symm)] at hx
  refine ⟨⟨by simp [h.width], by rw [sumTo_bump c hwW]; simp only; omega, h.alive, h.undone, h.past, ?_, ?_, ?_, ?_⟩, rfl⟩
  · intro v hv
    by_cases hvw : v = w
    · subst hvw; simp [hlen] at hv
    · have := (h.ended v (hother v _ hvw hv)).1
      rw [hq] at this; cases this
  · intro _ v hv
    exact Nat.le_trans (hbusy v hv) (hmono v)
  · intro v k' j' hv
    by_cases hvw : v = w
    · subst hvw
      obtain ⟨m, hm, hle⟩ := exists_few (c := c) (total := n.next - 1) hW (by omega)
      have h1 := hbusy v hwW
      have h2 := hbusy m hm
      have h3 := Nat.mul_le_mul_right D hle
      refine ⟨?_, by simp only; omega, by simp only; omega⟩
      simp only [bump, if_true, Nat.succ_mul]
      omega
    · obtain ⟨h1, h2, h3⟩ := h.got v k' j' (hother v _ hvw hv)
      exact ⟨Nat.le_trans h1 (hmono v), h2, h3⟩
  · intro v k' j' hv
    by_cases hvw : v = w
    · subst hvw; simp [hlen] at hv
    · obtain ⟨h1, h2, h3⟩ := h.run v k' j' (hother v _ hvw hv)
      exact ⟨Nat.le_trans h1 (hmono v), h2, h3⟩

theorem NurseryTime.check (h : NurseryTime W D A now n c b) {w : Nat} (hs : n.step (.check w) = some (n', out)) (hb : b' w = now)
    (hb' : ∀ k, k ≠ w → b' k = b k) : NurseryTime W D A now n' c b' ∧ n'.next = n.next := by
  simp only [Nursery.step] at hs
  split at hs
  · rename_i k j hw
    rw [if_neg (by simp [h.undone])] at hs
    simp only [Option.some.injEq, Prod.mk.injEq] at hs
    obtain ⟨rfl, -⟩ := hs
    have hlen : w < n.workers.length := (List.getElem?_eq_some_iff.1 hw).1
    have hother : ∀ v x, v ≠ w → (n.workers.set w (.running k j))[v]? = some x → n.workers[v]? = some x := by
      intro v x hv hx
      rwa [List.getElem?_set_ne (fun h => hv h.symm)] at hx
    refine ⟨⟨by simp [h.width], h.total, h.alive, h.undone, h.past, ?_, h.busy, ?_, ?_⟩, rfl⟩
    · intro v hv
      by_cases hvw : v = w
      · subst hvw; simp [hlen] at hv
      · exact h.ended v (hother v _ hvw hv)
    · intro v k' j' hv
      by_cases hvw : v = w
      · subst hvw; simp [hlen] at hv
      · exact h.got v k' j' (hother v _ hvw hv)
    · intro v k' j' hv
      by_cases hvw : v = w
      · subst hvw
        obtain ⟨h1, h2, h3⟩ := h.got v k j hw
        rw [hb]
        exact ⟨h1, h2, h3, by omega⟩
      · rw [hb' v hvw]
        exact h.run v k' j' (hother v _ hvw hv)
  · cases hs

theorem NurseryTime.set (h : NurseryTime W D A now n c b) {w : Nat} {x : Worker J} {outs : List (Nat × Outcome R)} {cl : Bool} {hd : Nat}
    (hx : x = .waiting ∨ (x = .stopped ∧ n.queue = [] ∧ n.closed = true)) (hcl : n.closed = true → cl = true) :
    NurseryTime W D A now { n with workers := n.workers.set w x, outputs := outs, closed := cl, handles := hd } c b := by
  have hother : ∀ v y, (n.workers.set w x)[v]? = some y → (v = w ∧ y = x) ∨ n.workers[v]? = some y := by
    intro v y hy
    by_cases hvw : v = w
    · subst hvw
      rw [List.getElem?_set] at hy
      simp only [if_true] at hy
      split at hy <;> cases hy
      exact .inl ⟨rfl, rfl⟩
    · rw [List.getElem?_set_ne (fun h => hvw h.symm)] at hy
      exact .inr hy
  refine ⟨by simp [h.width], h.total, h.alive, h.undone, h.past, ?_, h.busy, ?_, ?_⟩
  · intro v hv
    rcases hother v _ hv with ⟨-, hy⟩ | hv
    · rcases hx with rfl | ⟨rfl, h1, h2⟩
      · cases hy
      · exact ⟨h1, hcl h2⟩
    · exact ⟨(h.ended v hv).1, hcl (h.ended v hv).2⟩
  · intro v k' j' hv
    rcases hother v _ hv with ⟨-, hy⟩ | hv
    · rcases hx with rfl | ⟨rfl, -⟩ <;> cases hy
    · exact h.got v k' j' hv
  · intro v k' j' hv
    rcases hother v _ hv with ⟨-, hy⟩ | hv
    · rcases hx with rfl | ⟨rfl, -⟩ <;> cases hy
    · exact h.run v k' j' hv

theorem NurseryTime.keep (h : NurseryTime W D A now n c b) {outs : List (Nat × Outcome R)} {cl : Bool} {hd : Nat} (hcl : n.closed = true → cl = true) :
    NurseryTime W D A now { n with outputs := outs, closed := cl, handles := hd } c b :=
  ⟨h.width, h.total, h.alive, h.undone, h.past, fun w hw => ⟨(h.ended w hw).1, hcl (h.ended w hw).2⟩, h.busy, h.got, h.run⟩

theorem NurseryTime.finish (h : NurseryTime W D A now n c b) {w : Nat} {o : Outcome R} (hs : n.step (.finish w o) = some (n', out)) :
    NurseryTime W D A now n' c b ∧ n'.next = n.next := by
  simp only [Nursery.step] at hs
  split at hs
  · rw [if_pos h.alive] at hs
    simp only [Option.some.injEq, Prod.mk.injEq] at hs
    obtain ⟨rfl, -⟩ := hs
    exact ⟨h.set (.inl rfl) id, rfl⟩
  · cases hs

theorem NurseryTime.exit (h : NurseryTime W D A now n c b) {w : Nat} (hs : n.step (.exit w) = some (n', out)) :
    NurseryTime W D A now n' c b ∧ n'.next = n.next := by
  simp only [Nursery.step] at hs
  split at hs
  · rename_i hq
    split at hs <;> cases hs
    rename_i hcl
    exact ⟨h.set (.inr ⟨rfl, hq, hcl⟩) id, rfl⟩
  · cases hs

theorem NurseryTime.dropHandle (h : NurseryTime W D A now n c b) (hs : n.step .dropHandle = some (n', out)) :
    NurseryTime W D A now n' c b ∧ n'.next = n.next := by
  simp only [Nursery.step] at hs
  split at hs <;> cases hs
  exact ⟨h.keep (by intro hc; simp [hc]), rfl⟩

theorem NurseryTime.recv (h : NurseryTime W D A now n c b) (hs : n.step .recv = some (n', out)) :
    NurseryTime W D A now n' c b ∧ n'.next = n.next := by
  simp only [Nursery.step] at hs
  split at hs
  · split at hs <;> cases hs
    exact ⟨h.keep id, rfl⟩
  · cases hs

end

end Demag.Props
