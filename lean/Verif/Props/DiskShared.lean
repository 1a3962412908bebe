import Verif.Spec.DiskShared
import Verif.Props.Disk

/-!
# C63, C64: exactly when a torrent file survives the others
-/

namespace Demag.Props

open Demag Spec

section
variable {F : Type} [DecidableEq F] {files : F → Option Bytes} {jobs : List (F × Bytes)} {es : List DiskEvent} {d : Disk F}

theorem overwriteAt_length (g : Bytes) (p : Nat) (new : Bytes) : (overwriteAt g p new).length = max g.length (p + new.length) := by
  simp only [overwriteAt, List.length_append, List.length_take, List.length_replicate, List.length_drop]
  omega

/-- What is written at its own position in `c` does not spoil what agrees with `c`. -/
theorem overwriteAt_agrees {g c : Bytes} {p n o : Nat} (hp : p + n ≤ c.length) (ho : o ≤ g.length) (hg : g.take o = c.take o) (hc : o ≤ c.length) :
    (overwriteAt g p ((c.drop p).take n)).take o = c.take o := by
  have hl : ((c.drop p).take n).length = n := by rw [List.length_take, List.length_drop]; omega
  apply List.ext_getElem?
  intro k
  simp only [List.getElem?_take]
  by_cases hk : k < o
  · rw [if_pos hk, if_pos hk]
    have hgk : g[k]? = c[k]? := by
      have := congrArg (fun l => l[k]?) hg
      simpa [List.getElem?_take, hk] using this
    unfold overwriteAt
    rw [hl]
    by_cases h1 : k < p
    · rw [List.getElem?_append_left (by simp; omega), List.getElem?_append_left (by simp; omega), List.getElem?_append_left (by simp; omega),
        List.getElem?_take, if_pos h1, hgk]
    · by_cases h2 : k < p + n
      · rw [List.getElem?_append_left (by simp; omega), List.getElem?_append_right (by simp; omega)]
        have he : k - (List.take p g ++ List.replicate (p - g.length) 0).length = k - p := by simp; omega
        rw [he, List.getElem?_take, if_pos (by omega), List.getElem?_drop]
        congr 1; omega
      · rw [List.getElem?_append_right (by simp; omega), List.getElem?_drop]
        have he : p + n + (k - (List.take p g ++ List.replicate (p - g.length) 0 ++ (c.drop p).take n).length) = k := by simp; omega
        rw [he, hgk]
  · rw [if_neg hk, if_neg hk]

/-- What holds of a file into which all calls write `c`: nobody has opened it, or the last to open it has written as much as its offset says. -/
def AgreeInv (files : F → Option Bytes) (f : F) (c : Bytes) (d : Disk F) : Prop :=
  (∀ w ∈ d.writers, w.file = f → w.contents = c) ∧
  (((∀ w ∈ d.writers, w.file = f → w.offset = none) ∧ d.files f = files f) ∨
   ∃ (g : Bytes) (i : Nat) (w : DiskWriter F) (o : Nat), d.files f = some g ∧ d.writers[i]? = some w ∧ w.file = f ∧ w.offset = some o ∧
    o ≤ g.length ∧ g.length ≤ c.length ∧ g.take o = c.take o)

theorem agree_inv {f : F} {c : Bytes} (hj : ∀ j ∈ jobs, j.1 = f → j.2 = c) (h : DiskRun files jobs es d) : AgreeInv files f c d := by
  induction h with
  | init =>
    refine ⟨?_, .inl ⟨?_, rfl⟩⟩ <;> intro w hw hf <;> obtain ⟨j, hjm, rfl⟩ := List.mem_map.1 hw
    · exact hj j hjm hf
    · rfl
  | @step es d d' e hr hs ih =>
    obtain ⟨hc, hcase⟩ := ih
    have setc : ∀ (i : Nat) (w : DiskWriter F) (o : Option Nat), d.writers[i]? = some w →
        ∀ w' ∈ d.writers.set i { w with offset := o }, w'.file = f → w'.contents = c := by
      intro i w o hw w' hw' hf
      rcases List.mem_or_eq_of_mem_set hw' with h | rfl
      · exact hc w' h hf
      · exact hc w (List.mem_of_getElem? hw) hf
    -- a step of a call for another file
    have other : ∀ (i : Nat) (w : DiskWriter F) (o : Option Nat) (files' : F → Option Bytes), d.writers[i]? = some w → w.file ≠ f → files' f = d.files f →
        AgreeInv files f c ⟨files', d.writers.set i { w with offset := o }⟩ := by
      intro i w o files' hw hne hf
      refine ⟨setc i w o hw, ?_⟩
      rcases hcase with ⟨h1, h2⟩ | ⟨g, k, w', o', h1, h2, h3, h4⟩
      · refine .inl ⟨?_, hf.trans h2⟩
        intro w' hw' hf'
        rcases List.mem_or_eq_of_mem_set hw' with h | rfl
        · exact h1 w' h hf'
        · exact absurd hf' hne
      · refine .inr ⟨g, k, w', o', hf.trans h1, ?_, h3, h4⟩
        have hik : i ≠ k := by
          rintro rfl
          rw [hw] at h2
          cases h2
          exact hne h3
        simp only [List.getElem?_set_ne hik]
        exact h2
    cases e with
    | opened i =>
      simp only [Disk.step] at hs
      cases hw : d.writers[i]? with
      | none => rw [hw] at hs; cases hs
      | some w =>
        rw [hw] at hs
        simp only at hs
        split at hs
        · cases hs
        · simp only [Option.some.injEq] at hs
          subst hs
          by_cases hf : w.file = f
          · refine ⟨setc i w _ hw, .inr ⟨[], i, { w with offset := some 0 }, 0, by simp [hf], ?_, hf, rfl, Nat.le_refl _, Nat.zero_le _, by simp⟩⟩
            exact List.getElem?_set_self (List.getElem?_eq_some_iff.1 hw).1
          · exact other i w _ _ hw hf (by simp [Ne.symm hf])
    | piece i n =>
      simp only [Disk.step] at hs
      cases hw : d.writers[i]? with
      | none => rw [hw] at hs; cases hs
      | some w =>
        rw [hw] at hs
        simp only at hs
        split at hs
        · cases hs
        · rename_i o ho
          split at hs
          · rename_i hn
            simp only [Option.some.injEq] at hs
            subst hs
            by_cases hf : w.file = f
            · have hwc := hc w (List.mem_of_getElem? hw) hf
              rw [hwc] at hn
              rcases hcase with ⟨h1, h2⟩ | ⟨g, k, w', o', h1, h2, h3, h4, h5, h6, h7⟩
              · have := h1 w (List.mem_of_getElem? hw) hf
                rw [ho] at this
                cases this
              · have hlen : ((c.drop o).take n).length = n := by rw [List.length_take, List.length_drop]; omega
                have hfile : (if f = w.file then some (overwriteAt ((d.files f).getD []) o ((w.contents.drop o).take n)) else d.files f) =
                    some (overwriteAt g o ((c.drop o).take n)) := by
                  rw [if_pos hf.symm, h1, hwc]; rfl
                refine ⟨setc i w _ hw, .inr ?_⟩
                by_cases hik : i = k
                · subst hik
                  rw [hw] at h2
                  cases h2
                  rw [ho] at h4
                  cases h4
                  refine ⟨_, i, { w with offset := some (o + n) }, o + n, hfile, List.getElem?_set_self (List.getElem?_eq_some_iff.1 hw).1, hf, rfl, ?_, ?_, ?_⟩
                  · rw [overwriteAt_length, hlen]; omega
                  · rw [overwriteAt_length, hlen]; omega
                  · unfold overwriteAt
                    have e1 : (g.take o ++ List.replicate (o - g.length) 0 ++ (c.drop o).take n).length = o + n := by simp; omega
                    rw [List.take_append_of_le_length (by rw [e1]), List.take_of_length_le (by rw [e1]), h7,
                      Nat.sub_eq_zero_of_le h5, List.replicate_zero, List.append_nil, List.take_add]
                · refine ⟨_, k, w', o', hfile, ?_, h3, h4, ?_, ?_, overwriteAt_agrees hn.2 h5 h7 (Nat.le_trans h5 h6)⟩
                  · simp only [List.getElem?_set_ne hik]; exact h2
                  · rw [overwriteAt_length, hlen]; omega
                  · rw [overwriteAt_length, hlen]; omega
            · exact other i w _ _ hw hf (by simp [Ne.symm hf])
          · cases hs

/-- A call that has not begun can be carried through without interruption. -/
theorem write_alone (h : DiskRun files jobs es d) {i : Nat} {w : DiskWriter F} (hw : d.writers[i]? = some w) (ho : w.offset = none) :
    ∃ es' d', DiskRun files jobs es' d' ∧ d'.writers = d.writers.set i { w with offset := some w.contents.length } ∧ d'.files w.file = some w.contents := by
  have hlt := (List.getElem?_eq_some_iff.1 hw).1
  have h1 := DiskRun.step (e := .opened i) h (d' := ⟨fun f => if f = w.file then some [] else d.files f, d.writers.set i { w with offset := some 0 }⟩)
    (by simp only [Disk.step, hw, ho])
  by_cases hc : w.contents = []
  · exact ⟨_, _, h1, by simp [hc], by simp [hc]⟩
  · have hl : 1 ≤ w.contents.length := List.length_pos_iff.2 hc
    refine ⟨_, _, DiskRun.step (e := .piece i w.contents.length) h1
      (d' := ⟨fun f => if f = w.file then some w.contents else d.files f, d.writers.set i { w with offset := some w.contents.length }⟩) ?_, rfl, by simp⟩
    simp only [Disk.step, List.getElem?_set_self hlt]
    rw [if_pos (by omega)]
    simp only [Option.some.injEq, Disk.mk.injEq, Nat.zero_add, List.set_set, and_true]
    funext f
    by_cases hf : f = w.file <;> simp [hf, overwriteAt]

/-- All calls but one can be carried through, one after the other. -/
theorem write_others (files : F → Option Bytes) (jobs : List (F × Bytes)) (k n : Nat) : ∃ es d, DiskRun files jobs es d ∧
    ∀ i w, d.writers[i]? = some w → (i < n ∧ i ≠ k → w.finished) ∧ (¬ (i < n ∧ i ≠ k) → w.offset = none) := by
  induction n with
  | zero =>
    refine ⟨_, _, .init, ?_⟩
    intro i w hw
    refine ⟨fun h => absurd h.1 (Nat.not_lt_zero _), fun _ => ?_⟩
    simp only [List.getElem?_map, Option.map_eq_some_iff] at hw
    obtain ⟨j, -, rfl⟩ := hw
    rfl
  | succ n ih =>
    obtain ⟨es, d, h, hd⟩ := ih
    by_cases hnk : n = k
    · refine ⟨es, d, h, fun i w hw => ⟨fun hi => (hd i w hw).1 ⟨by omega, hi.2⟩, fun hi => (hd i w hw).2 fun hi' => hi ⟨by omega, hi'.2⟩⟩⟩
    · cases hw : d.writers[n]? with
      | none =>
        refine ⟨es, d, h, fun i w' hw' => ?_⟩
        have : i ≠ n := by rintro rfl; rw [hw] at hw'; cases hw'
        exact ⟨fun hi => (hd i w' hw').1 ⟨by omega, hi.2⟩, fun hi => (hd i w' hw').2 fun hi' => hi ⟨by omega, hi'.2⟩⟩
      | some w =>
        obtain ⟨es', d', h', hws, -⟩ := write_alone h hw ((hd n w hw).2 (by omega))
        refine ⟨es', d', h', fun i w' hw' => ?_⟩
        rw [hws] at hw'
        by_cases hin : n = i
        · subst hin
          rw [List.getElem?_set_self (List.getElem?_eq_some_iff.1 hw).1] at hw'
          cases hw'
          exact ⟨fun _ => rfl, fun hi => absurd ⟨Nat.lt_succ_self n, hnk⟩ hi⟩
        · rw [List.getElem?_set_ne hin] at hw'
          exact ⟨fun hi => (hd i w' hw').1 ⟨by omega, hi.2⟩, fun hi => (hd i w' hw').2 fun hi' => hi ⟨by omega, hi'.2⟩⟩

/-- **C63.** Exactly when a torrent file is certain to be whole at the end: in every schedule in which all calls have returned the file of `j` holds its
contents, if and only if every call for the same file has the same contents. -/
theorem files_agree_iff {j : F × Bytes} (hj : j ∈ jobs) :
    (∀ es d, DiskRun files jobs es d → (∀ w ∈ d.writers, w.finished) → d.files j.1 = some j.2) ↔ ∀ j' ∈ jobs, j'.1 = j.1 → j'.2 = j.2 := by
  constructor
  · intro h j' hj' hf
    obtain ⟨k, hk⟩ := List.getElem?_of_mem hj'
    obtain ⟨es, d, hr, hd⟩ := write_others files jobs k jobs.length
    have hjobs := (disk_jobs hr).1
    have hlen := congrArg List.length hjobs
    simp only [List.length_map] at hlen
    cases hw : d.writers[k]? with
    | none =>
      rw [← hjobs, List.getElem?_map, hw] at hk
      cases hk
    | some w =>
      have hwj : (w.file, w.contents) = j' := by
        rw [← hjobs, List.getElem?_map, hw] at hk
        simpa using hk
      obtain ⟨es', d', hr', hws, hfile⟩ := write_alone hr hw ((hd k w hw).2 (by simp))
      have hfin : ∀ w ∈ d'.writers, w.finished := by
        intro w' hw'
        obtain ⟨i, hi⟩ := List.getElem?_of_mem hw'
        rw [hws] at hi
        by_cases hik : k = i
        · subst hik
          rw [List.getElem?_set_self (List.getElem?_eq_some_iff.1 hw).1] at hi
          cases hi
          rfl
        · rw [List.getElem?_set_ne hik] at hi
          exact (hd i w' hi).1 ⟨by rw [← hlen]; exact (List.getElem?_eq_some_iff.1 hi).1, Ne.symm hik⟩
      have := h es' d' hr' hfin
      subst hwj
      simp only at hf
      rw [← hf, hfile] at this
      exact Option.some.inj this
  · intro h es d hr hfin
    obtain ⟨hc, h1⟩ := agree_inv (f := j.1) (c := j.2) (fun j' hj' hf => h j' hj' hf) hr
    rcases h1 with ⟨h1, -⟩ | ⟨g, i, w, o, h2, h3, h4, h5, h6, h7, h8⟩
    · rw [← (disk_jobs hr).1] at hj
      obtain ⟨w, hw, rfl⟩ := List.mem_map.1 hj
      have := h1 w hw rfl
      have hf := hfin w hw
      unfold DiskWriter.finished at hf
      rw [this] at hf
      cases hf
    · have hwm := List.mem_of_getElem? h3
      have hf := hfin w hwm
      unfold DiskWriter.finished at hf
      rw [h5, hc w hwm h4] at hf
      cases hf
      rw [h2]
      congr 1
      rwa [List.take_of_length_le (by omega), List.take_length] at h8

end

section
variable {sha1 : Bytes → Bytes} {localId : PeerId} {behaves : Peer → (Nat → Link) → Prop} {cfg : Config} {parseHost : Text → Option Host} {dht : DhtConfig}
  {doc : List (Text × Toml)} {saved : Magnet → TorrentInfo → List Tracker → List SockAddr → Bool} {magnets : Option (List Magnet)}
  {tr : List (BatchEvent × List (Magnet × Outcome Bool))} {s : Batch Magnet}

/-- **C64 (part).** With any template: if the batch command exits successfully, then for every magnet link of the list a torrent file that belongs to it was
saved, and it is certain to be on the disk, whole, in whatever order and pieces the files were written, if and only if every other torrent file that went to the
same path is the same, byte for byte.  Missing: that no two different ones go to the same path, which is false (`batch_overwrites`).  Files are taken to be the
same only if their paths have the same text. -/
theorem batch_on_disk_iff_partial (hdht : DhtConfig.dflt parseHost = some dht) (hcfg : readConfig parseHost dht doc = some cfg)
    (h : BatchDownloads sha1 localId cfg behaves saved magnets tr s) (hs : s.exit = some .success)
    (lossy : Bytes → Text) (ipText : IpAddr → Text) (parent : Text → Option Text) (clock : Magnet → Except Nat Nat)
    (es : List TemplateElement) {ms : List Magnet} (hms : magnets = some ms) :
    ∃ written : List (Magnet × Output × Bytes), (written.map Prod.fst).Perm ms ∧
      (∀ x ∈ written, TorrentFor sha1 lossy ipText es x.1 x.2.1 x.2.2) ∧
      ∀ (files : Text → Option Bytes), ∀ x ∈ written, ∀ p, x.2.1 = .file p →
        ((∀ evs d, DiskRun files (fileJobs (written.map Prod.snd)) evs d → (∀ w ∈ d.writers, w.finished) → d.files p = some x.2.2) ↔
          ∀ y ∈ written, y.2.1 = .file p → y.2.2 = x.2.2) := by
  obtain ⟨ms', h1, written, h2, h3⟩ := batch_saves hdht hcfg h hs lossy ipText parent clock es
  rw [hms] at h1
  cases h1
  refine ⟨written, h2, fun x hx => (h3 x hx).1, ?_⟩
  intro files x hx p hp
  have mem : ∀ y ∈ written, ∀ q, y.2.1 = .file q → (q, y.2.2) ∈ fileJobs (written.map Prod.snd) := by
    rintro ⟨m, o, b⟩ hy q hq
    simp only at hq
    subst hq
    exact List.mem_filterMap.2 ⟨_, List.mem_map_of_mem hy, rfl⟩
  refine (files_agree_iff (j := (p, x.2.2)) (mem x hx p hp)).trans ⟨?_, ?_⟩
  · intro hall y hy hq
    exact hall _ (mem y hy p hq) rfl
  · intro hall j hj hjp
    obtain ⟨ob, hob, hf⟩ := List.mem_filterMap.1 hj
    obtain ⟨⟨m, o, b⟩, hy, rfl⟩ := List.mem_map.1 hob
    cases o with
    | stdout => cases hf
    | file q =>
      cases hf
      simp only at hjp
      exact hall _ hy (by simp only [hjp])

end

/-- Two calls with the same contents for the same file, and one for another. -/
example (es : List DiskEvent) (d : Disk Nat) (h : DiskRun (fun _ => none) [(1, [7, 8]), (2, [9]), (1, [7, 8])] es d) (hf : ∀ w ∈ d.writers, w.finished) :
    d.files 1 = some [7, 8] :=
  (files_agree_iff (j := (1, [7, 8])) (by simp)).2 (by intro j' hj' h1; simp at hj'; rcases hj' with rfl | rfl | rfl <;> simp_all) es d h hf

/-- With different contents it need not be. -/
example : ∃ (es : List DiskEvent) (d : Disk Nat), DiskRun (fun _ => none) [(1, [7, 8]), (1, [9])] es d ∧ (∀ w ∈ d.writers, w.finished) ∧ d.files 1 ≠ some [7, 8] := by
  by_contra hn
  have := (files_agree_iff (F := Nat) (files := fun _ => none) (jobs := [(1, [7, 8]), (1, [9])]) (j := (1, [7, 8])) (by simp)).1
    (fun es d h hf => by by_contra hd; exact hn ⟨es, d, h, hf, hd⟩) (1, [9]) (by simp) rfl
  simp at this

/-- The hypotheses of `batch_on_disk_iff_partial` can be met. -/
example (lossy : Bytes → Text) (ipText : IpAddr → Text) (parent : Text → Option Text) (es : List TemplateElement) :
    ∃ written : List (Magnet × Output × Bytes), (written.map Prod.fst).Perm [exMagnet] := by
  obtain ⟨tr, s, h, hs⟩ := exBatch
  obtain ⟨w, hw, -⟩ := batch_on_disk_iff_partial (dht := ⟨exNodes, 2⟩) (parseHost := exHosts) (by decide +kernel) exSmall_read h hs lossy ipText parent
    (fun _ => .ok 0) es rfl
  exact ⟨w, hw⟩

end Demag.Props
