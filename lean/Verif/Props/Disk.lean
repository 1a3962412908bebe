import Verif.Spec.Disk
import Verif.Props.Download
import Verif.Props.Commands
import Verif.Props.App
import Verif.Props.InfoHash

/-!
# C63: files on disk; C64: what the batch command leaves behind
-/

namespace Demag.Props

open Demag Spec

section
variable {F : Type} [DecidableEq F] {files : F → Option Bytes} {jobs : List (F × Bytes)} {es : List DiskEvent} {d : Disk F}

theorem overwriteAt_take (c : Bytes) (o n : Nat) (h : o + n ≤ c.length) :
    overwriteAt (c.take o) o ((c.drop o).take n) = c.take (o + n) := by
  have h1 : (c.take o).length = o := by rw [List.length_take]; omega
  have h2 : (c.take o).take o = c.take o := by rw [List.take_take]; congr 1; omega
  have h3 : (c.take o).drop (o + ((c.drop o).take n).length) = [] := by
    apply List.drop_eq_nil_of_le; rw [h1]; omega
  unfold overwriteAt
  rw [h2, h3, h1, Nat.sub_self, List.replicate_zero, List.append_nil, List.append_nil, List.take_add]

/-- What holds at any time when the calls have different files. -/
def DiskInv (files : F → Option Bytes) (jobs : List (F × Bytes)) (d : Disk F) : Prop :=
  (∀ f, f ∉ jobs.map Prod.fst → d.files f = files f) ∧
  ∀ i : Nat, match jobs[i]?, d.writers[i]? with
    | some j, some w => w.file = j.1 ∧ w.contents = j.2 ∧
      (match w.offset with
      | none => d.files j.1 = files j.1
      | some o => o ≤ j.2.length ∧ d.files j.1 = some (j.2.take o))
    | none, none => True
    | _, _ => False

theorem disk_inv_step (hd : (jobs.map Prod.fst).Nodup) {d d' : Disk F} (hi : DiskInv files jobs d) (i : Nat) (w : DiskWriter F)
    (hw : d.writers[i]? = some w) (new : Bytes) (o : Nat) (ho : o ≤ w.contents.length) (hn : new = w.contents.take o)
    (hd' : d' = ⟨fun f => if f = w.file then some new else d.files f, d.writers.set i { w with offset := some o }⟩) :
    DiskInv files jobs d' := by
  subst hd' hn
  have hii := hi.2 i
  rw [hw] at hii
  cases hj : jobs[i]? with
  | none => rw [hj] at hii; exact hii.elim
  | some j =>
    rw [hj] at hii
    obtain ⟨hf, hc, -⟩ := hii
    have hjm : j ∈ jobs := List.mem_of_getElem? hj
    refine ⟨?_, ?_⟩
    · intro f hfn
      have : f ≠ w.file := by rintro rfl; exact hfn (hf ▸ List.mem_map_of_mem hjm)
      simp only [if_neg this]
      exact hi.1 f hfn
    · intro k
      by_cases hk : i = k
      · subst hk
        have hlt : i < d.writers.length := (List.getElem?_eq_some_iff.1 hw).1
        rw [hj, List.getElem?_set_self hlt]
        simp only [hf, hc, if_true, true_and]
        rw [hc] at ho
        exact ⟨ho, trivial⟩
      · have := hi.2 k
        rw [List.getElem?_set_ne hk]
        revert this
        cases hjk : jobs[k]? with
        | none =>
          cases hwk : d.writers[k]? with
          | none => exact id
          | some w' => exact id
        | some j' =>
          cases hwk : d.writers[k]? with
          | none => exact id
          | some w' =>
            have hne : j'.1 ≠ w.file := by
              intro he
              apply hk
              have h1 : (jobs.map Prod.fst)[i]? = (jobs.map Prod.fst)[k]? := by
                rw [List.getElem?_map, List.getElem?_map, hj, hjk]
                simp [he, hf]
              have hlt : i < (jobs.map Prod.fst).length := by
                rw [List.length_map]; exact (List.getElem?_eq_some_iff.1 hj).1
              exact (List.getElem?_inj hlt hd).1 h1
            simp only [if_neg hne]
            exact id

theorem disk_inv (hd : (jobs.map Prod.fst).Nodup) (h : DiskRun files jobs es d) : DiskInv files jobs d := by
  induction h with
  | init =>
    refine ⟨fun _ _ => rfl, fun i => ?_⟩
    simp only [List.getElem?_map]
    cases jobs[i]? <;> simp
  | @step es d d' e hr hs ih =>
    cases e with
    | opened i =>
      simp only [Disk.step] at hs
      cases hw : d.writers[i]? with
      | none => rw [hw] at hs; cases hs
      | some w =>
        rw [hw] at hs
        simp only at hs
        split at hs
        · cases hs
        · simp only [Option.some.injEq] at hs
          exact disk_inv_step hd ih i w hw [] 0 (Nat.zero_le _) rfl hs.symm
    | piece i n =>
      simp only [Disk.step] at hs
      cases hw : d.writers[i]? with
      | none => rw [hw] at hs; cases hs
      | some w =>
        rw [hw] at hs
        simp only at hs
        split at hs
        · cases hs
        · rename_i o ho
          split at hs
          · rename_i hn
            simp only [Option.some.injEq] at hs
            have hii := ih.2 i
            rw [hw] at hii
            cases hj : jobs[i]? with
            | none => rw [hj] at hii; exact hii.elim
            | some j =>
              rw [hj] at hii
              obtain ⟨hf, hc, hx⟩ := hii
              rw [ho] at hx
              simp only at hx
              refine disk_inv_step hd ih i w hw _ (o + n) hn.2 rfl ?_
              rw [← hs]
              congr 1
              funext f
              by_cases he : f = w.file
              · subst he
                simp only [if_true]
                rw [hf, hx.2, Option.getD_some, ← hc, overwriteAt_take _ _ _ hn.2]
              · simp only [if_neg he]
          · cases hs

/-- **C63.** Torrent files that go to different places do not disturb each other, in any schedule: at any moment, hence also after a crash, each place holds what was
there before or a beginning of its torrent file; when its call has returned, the whole file.  All other files are as before. -/
theorem files_separate (hd : (jobs.map Prod.fst).Nodup) (h : DiskRun files jobs es d) :
    (∀ j ∈ jobs, d.files j.1 = files j.1 ∨ ∃ p, p <+: j.2 ∧ d.files j.1 = some p) ∧
    (∀ i : Nat, ∀ j w, jobs[i]? = some j → d.writers[i]? = some w → w.finished → d.files j.1 = some j.2) ∧
    (∀ f, f ∉ jobs.map Prod.fst → d.files f = files f) := by
  obtain ⟨h1, h2⟩ := disk_inv hd h
  refine ⟨?_, ?_, h1⟩
  · intro j hj
    obtain ⟨i, hi⟩ := List.getElem?_of_mem hj
    have := h2 i
    rw [hi] at this
    cases hw : d.writers[i]? with
    | none => rw [hw] at this; exact this.elim
    | some w =>
      rw [hw] at this
      obtain ⟨-, -, h3⟩ := this
      split at h3
      · exact .inl h3
      · exact .inr ⟨_, List.take_prefix _ _, h3.2⟩
  · intro i j w hj hw hf
    have := h2 i
    rw [hj, hw] at this
    obtain ⟨-, hc, h3⟩ := this
    rw [hf] at h3
    simp only at h3
    rw [h3.2, hc, List.take_length]

/-- The steps a call has made. -/
def writerSteps (w : DiskWriter F) : Nat :=
  match w.offset with
  | none => 0
  | some o => 1 + o

theorem writers_sum_set (f : DiskWriter F → Nat) (l : List (DiskWriter F)) (i : Nat) (w w' : DiskWriter F) (h : l[i]? = some w) :
    ((l.set i w').map f).sum + f w = (l.map f).sum + f w' := by
  induction l generalizing i with
  | nil => cases h
  | cons a l ih =>
    cases i with
    | zero => simp only [List.getElem?_cons_zero, Option.some.injEq] at h; subst h; simp; omega
    | succ i => have := ih i h; simp only [List.set_cons_succ, List.map_cons, List.sum_cons]; omega

theorem writers_set_spec {f : DiskWriter F → Bool} {g : DiskWriter F → F × Bytes} {l : List (DiskWriter F)} {i : Nat} {w w' : DiskWriter F} (h : l[i]? = some w)
    (hg : g w' = g w) (hf : f w' = true) (hl : ∀ w ∈ l, f w = true) : (l.set i w').map g = l.map g ∧ ∀ w ∈ l.set i w', f w = true := by
  induction l generalizing i with
  | nil => cases h
  | cons a l ih =>
    cases i with
    | zero =>
      simp only [List.getElem?_cons_zero, Option.some.injEq] at h
      subst h
      refine ⟨by simp [hg], ?_⟩
      intro w hw
      rcases List.mem_cons.1 hw with rfl | hw
      · exact hf
      · exact hl w (List.mem_cons_of_mem _ hw)
    | succ i =>
      obtain ⟨h1, h2⟩ := ih h (fun w hw => hl w (List.mem_cons_of_mem _ hw))
      refine ⟨by simp [h1], ?_⟩
      intro w hw
      rcases List.mem_cons.1 hw with rfl | hw
      · exact hl _ List.mem_cons_self
      · exact h2 w hw

theorem disk_jobs (h : DiskRun files jobs es d) : d.writers.map (fun w => (w.file, w.contents)) = jobs ∧
    (∀ w ∈ d.writers, decide (writerSteps w ≤ 1 + w.contents.length) = true) ∧ es.length ≤ (d.writers.map writerSteps).sum := by
  induction h with
  | init =>
    refine ⟨by simp [Function.comp_def], ?_, Nat.zero_le _⟩
    intro w hw
    obtain ⟨j, -, rfl⟩ := List.mem_map.1 hw
    simp [writerSteps]
  | @step es d d' e hr hs ih =>
    obtain ⟨h1, h2, h3⟩ := ih
    cases e with
    | opened i =>
      simp only [Disk.step] at hs
      cases hw : d.writers[i]? with
      | none => rw [hw] at hs; cases hs
      | some w =>
        rw [hw] at hs
        simp only at hs
        split at hs
        · cases hs
        · rename_i ho
          simp only [Option.some.injEq] at hs
          subst hs
          have hset := writers_set_spec (g := fun w => (w.file, w.contents)) (f := fun w => decide (writerSteps w ≤ 1 + w.contents.length)) (w' := { w with offset := some 0 }) hw rfl (by simp [writerSteps]) h2
          have hsum := writers_sum_set writerSteps d.writers i w { w with offset := some 0 } hw
          refine ⟨by rw [hset.1, h1], hset.2, ?_⟩
          simp only [List.length_append, List.length_singleton]
          simp only [writerSteps, ho] at hsum ⊢
          omega
    | piece i n =>
      simp only [Disk.step] at hs
      cases hw : d.writers[i]? with
      | none => rw [hw] at hs; cases hs
      | some w =>
        rw [hw] at hs
        simp only at hs
        split at hs
        · cases hs
        · rename_i o ho
          split at hs
          · rename_i hn
            simp only [Option.some.injEq] at hs
            subst hs
            have hset := writers_set_spec (g := fun w => (w.file, w.contents)) (f := fun w => decide (writerSteps w ≤ 1 + w.contents.length)) (w' := { w with offset := some (o + n) }) hw rfl
              (by simp [writerSteps]; omega) h2
            have hsum := writers_sum_set writerSteps d.writers i w { w with offset := some (o + n) } hw
            refine ⟨by rw [hset.1, h1], hset.2, ?_⟩
            simp only [List.length_append, List.length_singleton]
            simp only [writerSteps, ho] at hsum ⊢
            omega
          · cases hs

/-- **C63.** Writing comes to an end: as long as a call has not returned it can go on, and there are no more steps than files and bytes to be written. -/
theorem files_finish (h : DiskRun files jobs es d) :
    (∀ i : Nat, ∀ w, d.writers[i]? = some w → ¬ w.finished → (∃ d', d.step (.opened i) = some d') ∨ ∃ n d', d.step (.piece i n) = some d') ∧
    es.length ≤ (jobs.map fun j => 1 + j.2.length).sum := by
  obtain ⟨h1, h2, h3⟩ := disk_jobs h
  constructor
  · intro i w hw hf
    cases ho : w.offset with
    | none => left; simp only [Disk.step, hw, ho]; exact ⟨_, rfl⟩
    | some o =>
      right
      have hle := h2 w (List.mem_of_getElem? hw)
      simp only [writerSteps, ho, decide_eq_true_eq] at hle
      have : o ≠ w.contents.length := by rintro rfl; exact hf ho
      refine ⟨1, ?_⟩
      simp only [Disk.step, hw, ho]
      rw [if_pos (by omega)]
      exact ⟨_, rfl⟩
  · refine Nat.le_trans h3 ?_
    rw [← h1, List.map_map]
    clear h1 h3 h
    generalize d.writers = l at h2
    induction l with
    | nil => exact Nat.le_refl _
    | cons w l ih =>
      have hw := h2 w List.mem_cons_self
      have := ih fun w hw => h2 w (List.mem_cons_of_mem _ hw)
      simp only [decide_eq_true_eq] at hw
      simp only [List.map_cons, List.sum_cons, Function.comp_def] at this ⊢
      omega

/-- C63 is false of torrent files that go to the same place: there is a schedule in which both calls return and the file is the shorter one followed by the
rest of the longer one. -/
theorem files_mixed (files : F → Option Bytes) (f : F) (a b : Bytes) (ha : a ≠ []) (hb : b ≠ []) :
    ∃ es d, DiskRun files [(f, a), (f, b)] es d ∧ (∀ w ∈ d.writers, w.finished) ∧ d.files f = some (b ++ a.drop b.length) := by
  have hla : 1 ≤ a.length := by cases a <;> simp_all
  have hlb : 1 ≤ b.length := by cases b <;> simp_all
  refine ⟨_, _, .step (e := .piece 1 b.length) (.step (e := .piece 0 a.length) (.step (e := .opened 1) (.step (e := .opened 0) .init rfl) rfl)
    (d' := ⟨fun g => if g = f then some a else files g, [⟨f, a, some a.length⟩, ⟨f, b, some 0⟩]⟩) ?_)
    (d' := ⟨fun g => if g = f then some (b ++ a.drop b.length) else files g, [⟨f, a, some a.length⟩, ⟨f, b, some b.length⟩]⟩) ?_, ?_, ?_⟩
  · simp only [Disk.step, List.map_cons, List.set_cons_zero, List.set_cons_succ, List.getElem?_cons_zero, List.map_nil]
    rw [if_pos (by omega)]
    simp only [Option.some.injEq, Disk.mk.injEq, Nat.zero_add, and_true]
    funext g
    by_cases hg : g = f <;> simp [hg, overwriteAt]
  · simp only [Disk.step, List.getElem?_cons_succ, List.getElem?_cons_zero]
    rw [if_pos (by omega)]
    simp only [Option.some.injEq, Disk.mk.injEq, Nat.zero_add, List.set_cons_succ, List.set_cons_zero, and_true]
    funext g
    by_cases hg : g = f <;> simp [hg, overwriteAt]
  · intro w hw
    simp only [List.mem_cons, List.not_mem_nil, or_false] at hw
    rcases hw with rfl | rfl <;> rfl
  · simp

end

/-! ### Where the files go -/

theorem render_lengths (n n' h h' : Text) (hl : h.length = h'.length) (ts : List Tok) :
    (render n h ts).length + ts.count .name * n'.length = (render n' h' ts).length + ts.count .name * n.length := by
  induction ts with
  | nil => simp [render]
  | cons t ts ih =>
    cases t with
    | ch c => simp only [render, List.length_cons]; simp; omega
    | name => simp only [render, List.length_append, List.count_cons_self, Nat.succ_mul]; omega
    | hash => simp only [render, List.length_append]; simp; omega

theorem render_aligned (n n' h h' : Text) (hl : h.length = h'.length) (ts : List Tok) (hn : .name ∈ ts → n.length = n'.length)
    (hm : .hash ∈ ts) (he : render n h ts = render n' h' ts) : h = h' := by
  induction ts with
  | nil => cases hm
  | cons t ts ih =>
    have hn' : .name ∈ ts → n.length = n'.length := fun h => hn (List.mem_cons_of_mem _ h)
    cases t with
    | ch c =>
      simp only [render, List.cons.injEq, true_and] at he
      exact ih hn' (by simpa using hm) he
    | name =>
      simp only [render] at he
      exact ih hn' (by simpa using hm) (List.append_inj he (hn List.mem_cons_self)).2
    | hash =>
      simp only [render] at he
      exact (List.append_inj he hl).1

theorem render_injective (n n' h h' : Text) (hl : h.length = h'.length) (ts : List Tok) (hm : .hash ∈ ts)
    (he : render n h ts = render n' h' ts) : h = h' := by
  refine render_aligned n n' h h' hl ts (fun hn => ?_) hm he
  have := render_lengths n n' h h' hl ts
  rw [he] at this
  have hc : 0 < ts.count .name := List.count_pos_iff.2 hn
  have := Nat.add_left_cancel this
  exact (Nat.eq_of_mul_eq_mul_left hc this).symm

theorem displayText_length (h : InfoHash) : h.displayText.length = 40 := by
  rw [InfoHash.displayText, List.length_map, infoHash_display_spec]
  simp [hexText, List.length_flatMap, h.len]

theorem displayText_injective (h k : InfoHash) (e : h.displayText = k.displayText) : h = k := by
  apply infoHash_display_injective
  unfold InfoHash.displayText at e
  refine List.map_injective_iff.2 ?_ e
  intro a b hab
  have h1 : (Char.ofNat a.toNat).toNat = a.toNat := by
    have := a.toNat_lt
    have hv : Nat.isValidChar a.toNat := .inl (by omega)
    simp [Char.ofNat, dif_pos hv, Char.ofNatAux, Char.toNat]
  have h2 : (Char.ofNat b.toNat).toNat = b.toNat := by
    have := b.toNat_lt
    have hv : Nat.isValidChar b.toNat := .inl (by omega)
    simp [Char.ofNat, dif_pos hv, Char.ofNatAux, Char.toNat]
  simp only at hab
  have : a.toNat = b.toNat := by rw [← h1, ← h2, hab]
  exact UInt8.toNat_inj.1 this

/-- **C64.** With a template that holds the info hash, torrents with different info hashes go to different files, whatever their names (and none to the standard
output). -/
theorem hash_separates (s : Text) (ts : List Tok) (hr : Reads s ts) (hm : .hash ∈ ts) (es : List TemplateElement)
    (hs : PathTemplate.fromStr s = .ok es) (n n' : Text) (h h' : InfoHash) :
    (∃ p, Output.fromArg (PathTemplate.format es n h) = .file p) ∧
    (Output.fromArg (PathTemplate.format es n h) = Output.fromArg (PathTemplate.format es n' h') → h = h') := by
  have hf : ∀ n h, Output.fromArg (PathTemplate.format es n h) = .file (render n h.displayText ts) := by
    intro n h
    rw [format_spec s es n h ts hs hr, Output.fromArg, if_neg]
    obtain ⟨c, hc, h1, h2⟩ := mem_render_hash n h ts hm
    intro he
    rw [he, List.mem_singleton] at hc
    exact h2 hc
  refine ⟨⟨_, hf n h⟩, fun he => ?_⟩
  rw [hf, hf, Output.file.injEq] at he
  exact displayText_injective _ _ (render_injective n n' _ _ (by rw [displayText_length, displayText_length]) ts hm he)

/-! ### The batch command -/

section
variable {sha1 : Bytes → Bytes} {localId : PeerId} {cfg : Config} {behaves : Peer → (Nat → Link) → Prop}
  {saved : Magnet → TorrentInfo → List Tracker → List SockAddr → Bool} {magnets : Option (List Magnet)}
  {tr : List (BatchEvent × List (Magnet × Outcome Bool))} {s : Batch Magnet}
  {parseHost : Text → Option Host} {dht : DhtConfig} {doc : List (Text × Toml)}

/-- **C64.** With every configuration that is accepted, the batch command does not crash, whatever trackers, the DHT and peers do, unless the time
allowed for the key exchange with a peer is too long to be measured (see `Props/Crash.lean`). -/
theorem batch_no_crash (hdht : DhtConfig.dflt parseHost = some dht) (hcfg : readConfig parseHost dht doc = some cfg)
    (hfit : ∀ p links, behaves p links → (links 0).crypto ≠ .overflow)
    (h : BatchDownloads sha1 localId cfg behaves saved magnets tr s) : s.exit ≠ some .crash := by
  obtain ⟨hB, hT, hP, -⟩ := config_usable parseHost dht hdht doc cfg hcfg
  intro hc
  obtain ⟨m, hm⟩ := (batch_exit hB h.run).2.2 hc
  obtain ⟨eo, heo, hx⟩ := List.mem_flatMap.1 hm
  obtain ⟨d, rtr, rs, r, hrun, hr, ho⟩ := h.downloads eo heo m .panic hx
  cases r with
  | panicked =>
    obtain ⟨p, links, h1, -, h2⟩ := download_panic hT hP hrun hr
    exact hfit p links h1 h2
  | file => cases ho
  | dht => cases ho
  | nothing => cases ho

/-- **C64.** If the batch command exits successfully, then for every magnet link of the list a torrent file that belongs to it was saved; `clock` is the time at
which this was done.  (So many magnet links, so many files: the list may hold a link twice.) -/
theorem batch_saves (hdht : DhtConfig.dflt parseHost = some dht) (hcfg : readConfig parseHost dht doc = some cfg)
    (h : BatchDownloads sha1 localId cfg behaves saved magnets tr s) (hs : s.exit = some .success)
    (lossy : Bytes → Text) (ipText : IpAddr → Text) (parent : Text → Option Text) (clock : Magnet → Except Nat Nat)
    (es : List TemplateElement) :
    ∃ ms, magnets = some ms ∧ ∃ written : List (Magnet × Output × Bytes), (written.map Prod.fst).Perm ms ∧
      ∀ x ∈ written, TorrentFor sha1 lossy ipText es x.1 x.2.1 x.2.2 ∧
        ∃ info ts ns effects, saved x.1 info ts ns = true ∧
          downloadEffects lossy ipText parent (clock x.1) es (.file info ts ns) = some effects ∧ writesOf effects = [x.2] := by
  obtain ⟨hB, hT, hP, -⟩ := config_usable parseHost dht hdht doc cfg hcfg
  obtain ⟨ms, h1, h2, h3⟩ := (batch_exit hB h.run).1 hs
  refine ⟨ms, h1, ?_⟩
  have key : ∀ x ∈ downloads tr, ∃ o : Output × Bytes, TorrentFor sha1 lossy ipText es x.1 o.1 o.2 ∧
      ∃ info ts ns effects, saved x.1 info ts ns = true ∧
        downloadEffects lossy ipText parent (clock x.1) es (.file info ts ns) = some effects ∧ writesOf effects = [o] := by
    rintro ⟨m, o⟩ hx
    have ho := h3 _ hx
    obtain ⟨eo, heo, hx'⟩ := List.mem_flatMap.1 hx
    obtain ⟨d, rtr, rs, r, hrun, hr, hor⟩ := h.downloads eo heo m o hx'
    simp only at ho
    rw [ho] at hor
    obtain ⟨effects, he, hw⟩ := download_writes hT hP hrun lossy ipText parent (clock m) es hr (by rintro rfl; cases hor)
    rcases hw with ⟨-, hno⟩ | ⟨⟨info, ts, ns, rfl⟩, kvs, nodes, hw, hc, hsha, hn, -⟩
    · exfalso
      cases r with
      | file info ts ns => exact hno _ _ _ rfl
      | dht e => cases hor
      | nothing => cases hor
      | panicked => cases hor
    · simp only [downloadTorrentFile, Outcome.value.injEq] at hor
      exact ⟨_, ⟨kvs, nodes, _, rfl, rfl, hc, hsha, hn⟩, info, ts, ns, effects, hor.symm, he, hw⟩
  have build : ∀ l : List (Magnet × Outcome Bool), (∀ x ∈ l, x ∈ downloads tr) →
      ∃ written : List (Magnet × Output × Bytes), written.map Prod.fst = l.map Prod.fst ∧
      ∀ x ∈ written, TorrentFor sha1 lossy ipText es x.1 x.2.1 x.2.2 ∧
        ∃ info ts ns effects, saved x.1 info ts ns = true ∧
          downloadEffects lossy ipText parent (clock x.1) es (.file info ts ns) = some effects ∧ writesOf effects = [x.2] := by
    intro l
    induction l with
    | nil => intro _; exact ⟨[], rfl, by simp⟩
    | cons x l ih =>
      intro hl
      obtain ⟨w, hw, hw'⟩ := ih fun y hy => hl y (List.mem_cons_of_mem _ hy)
      obtain ⟨o, ho⟩ := key x (hl x List.mem_cons_self)
      refine ⟨(x.1, o) :: w, by simp [hw], ?_⟩
      intro y hy
      rcases List.mem_cons.1 hy with rfl | hy
      · exact ho
      · exact hw' y hy
  obtain ⟨w, hw, hw'⟩ := build (downloads tr) fun _ h => h
  exact ⟨w, by rw [hw]; exact h2, hw'⟩

/-- **C64 (part).** If the template holds the info hash and the magnet links have different info hashes, then after a batch that exits successfully the
file of every magnet link is on the disk, whole, in whatever order and pieces the files were written.  Missing: other templates, of which this is false
(`batch_overwrites`).  Files are taken to be the same only if their paths have the same text. -/
theorem batch_on_disk_partial (hdht : DhtConfig.dflt parseHost = some dht) (hcfg : readConfig parseHost dht doc = some cfg)
    (h : BatchDownloads sha1 localId cfg behaves saved magnets tr s) (hs : s.exit = some .success)
    (lossy : Bytes → Text) (ipText : IpAddr → Text) (parent : Text → Option Text) (clock : Magnet → Except Nat Nat)
    (t : Text) (ts : List Tok) (hr : Reads t ts) (hm : .hash ∈ ts) (es : List TemplateElement) (hes : PathTemplate.fromStr t = .ok es)
    {ms : List Magnet} (hms : magnets = some ms) (hdist : (ms.map Magnet.infoHash).Nodup) :
    ∃ written : List (Magnet × Text × Bytes), (written.map Prod.fst).Perm ms ∧
      (∀ x ∈ written, TorrentFor sha1 lossy ipText es x.1 (.file x.2.1) x.2.2) ∧
      ∀ (files : Text → Option Bytes) evs d, DiskRun files (written.map Prod.snd) evs d → (∀ w ∈ d.writers, w.finished) →
        ∀ x ∈ written, d.files x.2.1 = some x.2.2 := by
  obtain ⟨ms', h1, written, h2, h3⟩ := batch_saves hdht hcfg h hs lossy ipText parent clock es
  rw [hms] at h1
  cases h1
  have path : ∀ x ∈ written, ∃ p, x.2.1 = .file p := by
    intro x hx
    obtain ⟨⟨info, nodes, time, ho, -⟩, -⟩ := h3 x hx
    rw [ho]
    exact (hash_separates t ts hr hm es hes _ [] _ x.1.infoHash).1
  have build : ∀ l : List (Magnet × Output × Bytes), (∀ x ∈ l, x ∈ written) → ∃ l' : List (Magnet × Text × Bytes),
      l = l'.map fun x => (x.1, Output.file x.2.1, x.2.2) := by
    intro l
    induction l with
    | nil => intro _; exact ⟨[], rfl⟩
    | cons x l ih =>
      intro hl
      obtain ⟨l', rfl⟩ := ih fun y hy => hl y (List.mem_cons_of_mem _ hy)
      obtain ⟨p, hp⟩ := path x (hl x List.mem_cons_self)
      exact ⟨(x.1, p, x.2.2) :: l', by obtain ⟨a, b, c⟩ := x; simp only at hp; subst hp; rfl⟩
  obtain ⟨l', rfl⟩ := build written fun _ h => h
  have hfst : (l'.map fun x => (x.1, Output.file x.2.1, x.2.2)).map Prod.fst = l'.map Prod.fst := by simp [Function.comp_def]
  rw [hfst] at h2
  have htf : ∀ x ∈ l', TorrentFor sha1 lossy ipText es x.1 (.file x.2.1) x.2.2 := fun x hx =>
    (h3 _ (List.mem_map_of_mem (f := fun x => (x.1, Output.file x.2.1, x.2.2)) hx)).1
  refine ⟨l', h2, htf, ?_⟩
  intro files evs d hrun hfin x hx
  have hnd : (l'.map fun x => x.1.infoHash).Nodup := by
    have := (h2.map Magnet.infoHash).nodup_iff.2 hdist
    rwa [List.map_map] at this
  have hpaths : ((l'.map Prod.snd).map Prod.fst).Nodup := by
    rw [List.map_map]
    rw [List.Nodup, List.pairwise_map] at hnd ⊢
    refine List.Pairwise.imp_of_mem ?_ hnd
    intro a b ha hb hab he
    apply hab
    obtain ⟨i1, _, _, ho1, -⟩ := htf a ha
    obtain ⟨i2, _, _, ho2, -⟩ := htf b hb
    simp only [Function.comp_apply] at he
    rw [he] at ho1
    exact (hash_separates t ts hr hm es hes _ _ _ _).2 (ho1.symm.trans ho2)
  obtain ⟨i, hi⟩ := List.getElem?_of_mem hx
  have hj : (l'.map Prod.snd)[i]? = some x.2 := by rw [List.getElem?_map, hi]; rfl
  have hlen := congrArg List.length (disk_jobs hrun).1
  simp only [List.length_map] at hlen
  have hlt : i < d.writers.length := by rw [hlen]; exact (List.getElem?_eq_some_iff.1 hi).1
  exact (files_separate hpaths hrun).2.1 i x.2 d.writers[i] hj (List.getElem?_eq_getElem hlt) (hfin _ (List.getElem_mem hlt))

end

/-- C64 is false with the default template: two magnet links with different info hashes whose torrents have the same name go to the same file, and
there is a schedule in which both are written successfully and what is left is neither of them: the shorter one, followed by the rest of the longer one. -/
theorem batch_overwrites (es : List TemplateElement) (hs : PathTemplate.fromStr defaultTemplate = .ok es) (name : Text) (h h' : InfoHash)
    (a b : Bytes) (hb : b ≠ []) (hlt : b.length < a.length) (hpre : ¬ b <+: a) (files : Output → Option Bytes) :
    ∃ evs d, DiskRun files [(Output.fromArg (PathTemplate.format es (sanitize name) h), a),
        (Output.fromArg (PathTemplate.format es (sanitize name) h'), b)] evs d ∧ (∀ w ∈ d.writers, w.finished) ∧
      ∃ left, d.files (Output.fromArg (PathTemplate.format es (sanitize name) h)) = some left ∧ left ≠ a ∧ left ≠ b := by
  rw [(default_save es hs name h).1, (default_save es hs name h').1]
  obtain ⟨evs, d, h1, h2, h3⟩ := files_mixed files (Output.file (sanitize name ++ ".torrent".toList)) a b (by rintro rfl; simp at hlt) hb
  refine ⟨evs, d, h1, h2, _, h3, ?_, ?_⟩
  · intro he; exact hpre ⟨_, he⟩
  · intro he
    have := congrArg List.length he
    simp only [List.length_append, List.length_drop] at this
    omega

/-! ### Examples -/

/-- Two files in different places, the second written in two pieces around the first. -/
theorem exDisk : ∃ es d, DiskRun (F := Nat) (fun _ => none) [(1, [7, 8]), (2, [9])] es d ∧ (∀ w ∈ d.writers, w.finished) ∧
    d.files 1 = some [7, 8] ∧ d.files 2 = some [9] :=
  ⟨_, _, .step (.step (.step (.step (.step .init (e := .opened 0) rfl) (e := .piece 0 1) rfl) (e := .opened 1) rfl) (e := .piece 1 1) rfl)
    (e := .piece 0 1) rfl, by intro w hw; simp at hw; rcases hw with rfl | rfl <;> rfl, by decide, by decide⟩

/-- The template `{hash}`. -/
example : Reads "{hash}".toList [.hash] ∧ Tok.hash ∈ [Tok.hash] := ⟨.hash .nil, by simp⟩

def exSmall : List (Text × Toml) :=
  [("general".toList, .table [("batch-jobs".toList, .int 1), ("encrypt".toList, .str "if-required".toList)]),
   ("trackers".toList, .table [("jobs-per-magnet".toList, .int 1)]), ("peers".toList, .table [("jobs-per-magnet".toList, .int 1)])]

def exSmallConfig : Config := ⟨⟨1, .ifRequired⟩, { TrackersConfig.dflt with jobsPerMagnet := 1 }, { PeersConfig.dflt with jobsPerMagnet := 1 }, ⟨exNodes, 2⟩⟩

theorem exSmall_read : readConfig exHosts ⟨exNodes, 2⟩ exSmall = some exSmallConfig := by decide +kernel

/-- A batch of one magnet link, whose torrent a peer delivers. -/
theorem exBatch : ∃ tr s, BatchDownloads (fun _ => List.replicate 20 7) ⟨List.replicate 20 9, by decide⟩ exSmallConfig
    (fun p links => p = exPeer ∧ links = fun _ => exLink) (fun _ _ _ _ => true) (some [exMagnet]) tr s ∧ s.exit = some .success := by
  refine ⟨[(.spawn, []), (.take 0, []), (.check 0, []), (.dropHandle, []), (.ends 0 (.value true), [(exMagnet, .value true)]), (.workerExit 0, []),
    (.receive, []), (.receiveNone, [])], _, ⟨.step (.step (.step (.step (.step (.step (.step (.step .init rfl) rfl) rfl) rfl) rfl) rfl) rfl) rfl, ?_⟩, rfl⟩
  intro eo heo m o hx
  simp only [List.mem_cons, List.not_mem_nil, or_false] at heo
  rcases heo with rfl | rfl | rfl | rfl | rfl | rfl | rfl | rfl <;> simp at hx
  obtain ⟨rfl, rfl⟩ := hx
  obtain ⟨rtr, rs, h1, h2, -⟩ := exDownload
  exact ⟨_, rtr, rs, _, h1, h2, rfl⟩

/-- The hypotheses of `batch_on_disk_partial` can be met. -/
example (lossy : Bytes → Text) (ipText : IpAddr → Text) (parent : Text → Option Text) :
    ∃ written : List (Magnet × Text × Bytes), (written.map Prod.fst).Perm [exMagnet] := by
  obtain ⟨tr, s, h, hs⟩ := exBatch
  obtain ⟨es, hes, -⟩ := (template_accepts_iff "{hash}".toList [.hash]).2 (.hash .nil)
  obtain ⟨w, hw, -⟩ := batch_on_disk_partial (dht := ⟨exNodes, 2⟩) (parseHost := exHosts) (by decide +kernel) exSmall_read h hs lossy ipText parent
    (fun _ => .ok 0) "{hash}".toList [.hash] (.hash .nil) (by simp) es hes rfl (by simp)
  exact ⟨w, hw⟩

end Demag.Props
