import Verif.Props.Bencode
import Verif.Props.Disk
import Verif.Props.Mse

/-!
# C86: after a crash, what is left is not taken for a torrent file
-/

namespace Demag

open Spec

theorem encBytes_free (a b r s : Bytes) (h : encBytes a ++ r = encBytes b ++ s) : a = b ∧ r = s := by
  have h1 := parseBytes_enc a r
  rw [h, parseBytes_enc] at h1
  simp only [Option.some.injEq, Prod.mk.injEq] at h1
  exact ⟨h1.1.symm, h1.2.symm⟩

theorem encBytes_not {b t r s : Bytes} {c : UInt8} (hc : isDigit c = false) (h : encBytes b ++ r = c :: t ++ s) : False := by
  obtain ⟨d, u, hd, hd'⟩ := encBytes_head b
  rw [hd, List.cons_append, List.cons_append] at h
  rw [(List.cons.inj h).1, hc] at hd'
  cases hd'

theorem decInt_free (i j : Int) (r s : Bytes) (h : decInt i ++ 101 :: r = decInt j ++ 101 :: s) : i = j ∧ r = s := by
  have h1 := parseIntBody_dec i r
  rw [h, parseIntBody_dec] at h1
  simp only [Option.some.injEq, Prod.mk.injEq] at h1
  exact ⟨h1.1.symm, h1.2.symm⟩

mutual
theorem benc_free : ∀ (v w : Ben) (r s : Bytes), benc v ++ r = benc w ++ s → v = w ∧ r = s
  | .int i, .int j, r, s, h => by
    simp only [benc, List.cons_append, List.append_assoc, List.cons.injEq, true_and, List.nil_append] at h
    obtain ⟨rfl, rfl⟩ := decInt_free i j r s h
    exact ⟨rfl, rfl⟩
  | .bytes a, .bytes b, r, s, h => by
    obtain ⟨rfl, rfl⟩ := encBytes_free a b r s h
    exact ⟨rfl, rfl⟩
  | .list l, .list m, r, s, h => by
    simp only [benc, List.cons_append, List.append_assoc, List.cons.injEq, true_and, List.nil_append] at h
    obtain ⟨rfl, rfl⟩ := bencList_free l m r s h
    exact ⟨rfl, rfl⟩
  | .dict d, .dict e, r, s, h => by
    simp only [benc, List.cons_append, List.append_assoc, List.cons.injEq, true_and, List.nil_append] at h
    obtain ⟨rfl, rfl⟩ := bencDict_free d e r s h
    exact ⟨rfl, rfl⟩
  | .int _, .list _, _, _, h => by simp [benc] at h
  | .int _, .dict _, _, _, h => by simp [benc] at h
  | .list _, .int _, _, _, h => by simp [benc] at h
  | .list _, .dict _, _, _, h => by simp [benc] at h
  | .dict _, .int _, _, _, h => by simp [benc] at h
  | .dict _, .list _, _, _, h => by simp [benc] at h
  | .bytes _, .int _, _, _, h => (encBytes_not (by decide) h).elim
  | .bytes _, .list _, _, _, h => (encBytes_not (by decide) h).elim
  | .bytes _, .dict _, _, _, h => (encBytes_not (by decide) h).elim
  | .int _, .bytes _, _, _, h => (encBytes_not (by decide) h.symm).elim
  | .list _, .bytes _, _, _, h => (encBytes_not (by decide) h.symm).elim
  | .dict _, .bytes _, _, _, h => (encBytes_not (by decide) h.symm).elim
theorem bencList_free : ∀ (l m : List Ben) (r s : Bytes), bencList l ++ 101 :: r = bencList m ++ 101 :: s → l = m ∧ r = s
  | [], [], r, s, h => by
    simp only [bencList, List.nil_append, List.cons.injEq, true_and] at h
    exact ⟨rfl, h⟩
  | [], v :: vs, r, s, h => by
    obtain ⟨c, t, hc, hn⟩ := benc_head v (bencList vs ++ 101 :: s)
    simp only [bencList, List.append_assoc, hc, List.nil_append, List.cons.injEq] at h
    exact absurd h.1.symm hn
  | v :: vs, [], r, s, h => by
    obtain ⟨c, t, hc, hn⟩ := benc_head v (bencList vs ++ 101 :: r)
    simp only [bencList, List.append_assoc, hc, List.nil_append, List.cons.injEq] at h
    exact absurd h.1 hn
  | v :: vs, w :: ws, r, s, h => by
    simp only [bencList, List.append_assoc] at h
    obtain ⟨rfl, h'⟩ := benc_free v w _ _ h
    obtain ⟨rfl, rfl⟩ := bencList_free vs ws r s h'
    exact ⟨rfl, rfl⟩
theorem bencDict_free : ∀ (d e : List (Bytes × Ben)) (r s : Bytes), bencDict d ++ 101 :: r = bencDict e ++ 101 :: s → d = e ∧ r = s
  | [], [], r, s, h => by
    simp only [bencDict, List.nil_append, List.cons.injEq, true_and] at h
    exact ⟨rfl, h⟩
  | [], (k, v) :: vs, r, s, h => by
    simp only [bencDict, List.append_assoc, List.nil_append] at h
    exact (encBytes_not (c := 101) (t := r) (s := []) (by decide) (h.symm.trans (List.append_nil _).symm)).elim
  | (k, v) :: vs, [], r, s, h => by
    simp only [bencDict, List.append_assoc, List.nil_append] at h
    exact (encBytes_not (c := 101) (t := s) (s := []) (by decide) (h.trans (List.append_nil _).symm)).elim
  | (k, v) :: vs, (k', w) :: ws, r, s, h => by
    simp only [bencDict, List.append_assoc] at h
    obtain ⟨rfl, h'⟩ := encBytes_free k k' _ _ h
    obtain ⟨rfl, h''⟩ := benc_free v w _ _ h'
    obtain ⟨rfl, rfl⟩ := bencDict_free vs ws r s h''
    exact ⟨rfl, rfl⟩
end

end Demag

namespace Demag.Props

open Spec

/-- **C86.** What is left of a bencoded document that has been cut short is not a bencoded document, with its keys in whatever
order. -/
theorem cut_short (v w : Ben) (p : List UInt8) (hp : p <+: benc v) (hne : p ≠ benc v) : benc w ≠ p := by
  rintro rfl
  obtain ⟨r, hr⟩ := hp
  obtain ⟨rfl, -⟩ := benc_free w v r [] (by rw [hr, List.append_nil])
  exact hne rfl

/-- **C86.** Nor is one that has more bytes after its end. -/
theorem run_on (v w : Ben) (r : List UInt8) (hr : r ≠ []) : benc w ≠ benc v ++ r := by
  intro h
  exact hr (benc_free v w r [] (by rw [← h, List.append_nil])).2

section
variable {F : Type} [DecidableEq F] {files : F → Option Bytes} {jobs : List (F × Bytes)} {es : List DiskEvent} {d : Disk F}

/-- **C86.** Bencoded documents are being written to different places when the program is stopped, at any moment of any schedule:
each place holds what was there before, or the whole document, or something that is no bencoded document. -/
theorem crash_leaves (hd : (jobs.map Prod.fst).Nodup) (h : DiskRun files jobs es d) (j : F × Bytes) (hj : j ∈ jobs) (v : Ben)
    (hv : j.2 = benc v) :
    d.files j.1 = files j.1 ∨ d.files j.1 = some j.2 ∨ ∃ p, d.files j.1 = some p ∧ ∀ w, benc w ≠ p := by
  rcases (files_separate hd h).1 j hj with h1 | ⟨p, h1, h2⟩
  · exact .inl h1
  · by_cases hp : p = j.2
    · subst hp; exact .inr (.inl h2)
    · rw [hv] at h1 hp
      exact .inr (.inr ⟨p, h2, fun w => cut_short v w p h1 hp⟩)

end

/-- **C86.** A batch with a template that holds the info hash is stopped at any moment while the torrent files of magnet links with
different info hashes are being written.  If the file for a magnet link is not what it was before, and if it is a bencoded document
at all, then it is the whole torrent file for this magnet link. -/
theorem crash_leaves_torrents (sha1 : Bytes → Bytes) (lossy : Bytes → Text) (ipText : IpAddr → Text)
    (t : Text) (ts : List Tok) (hr : Reads t ts) (hm : .hash ∈ ts) (tmpl : List TemplateElement) (htmpl : PathTemplate.fromStr t = .ok tmpl)
    (written : List (Magnet × Text × Bytes)) (hw : ∀ x ∈ written, TorrentFor sha1 lossy ipText tmpl x.1 (.file x.2.1) x.2.2)
    (hdist : (written.map fun x => x.1.infoHash).Nodup)
    {files : Text → Option Bytes} {es : List DiskEvent} {d : Disk Text} (h : DiskRun files (written.map Prod.snd) es d)
    (x : Magnet × Text × Bytes) (hx : x ∈ written) (left : Bytes) (hl : d.files x.2.1 = some left) (hnew : files x.2.1 ≠ some left)
    (w : Ben) (hben : left = benc w) : TorrentFor sha1 lossy ipText tmpl x.1 (.file x.2.1) left := by
  have hpaths : ((written.map Prod.snd).map Prod.fst).Nodup := by
    rw [List.map_map]
    rw [List.Nodup, List.pairwise_map] at hdist ⊢
    refine List.Pairwise.imp_of_mem ?_ hdist
    intro a b ha hb hab he
    apply hab
    obtain ⟨i1, _, _, ho1, -⟩ := hw a ha
    obtain ⟨i2, _, _, ho2, -⟩ := hw b hb
    simp only [Function.comp_apply] at he
    rw [he] at ho1
    exact (hash_separates t ts hr hm tmpl htmpl _ _ _ _).2 (ho1.symm.trans ho2)
  have hx' := hw x hx
  obtain ⟨info, nodes, time, -, hb, -, -⟩ := hw x hx
  rcases crash_leaves hpaths h x.2 (List.mem_map.2 ⟨x, hx, rfl⟩) _ hb with h1 | h1 | ⟨p, h1, h2⟩
  · exact absurd (h1.symm.trans hl) hnew
  · rw [hl] at h1
    rw [Option.some.inj h1]
    exact hx'
  · rw [hl] at h1
    cases h1
    exact absurd hben.symm (h2 w)

/-- The run with these events. -/
def execDisk {F : Type} [DecidableEq F] (d : Disk F) : List DiskEvent → Option (Disk F)
  | [] => some d
  | e :: es => (d.step e).bind fun d' => execDisk d' es

theorem execDisk_run {F : Type} [DecidableEq F] {files : F → Option Bytes} {jobs : List (F × Bytes)} {es0 : List DiskEvent} {d d' : Disk F}
    (h : DiskRun files jobs es0 d) (es : List DiskEvent) (he : execDisk d es = some d') : ∃ es', DiskRun files jobs es' d' := by
  induction es generalizing es0 d with
  | nil => cases he; exact ⟨_, h⟩
  | cons e es ih =>
    unfold execDisk at he
    cases hs : d.step e with
    | none => rw [hs] at he; cases he
    | some d1 => rw [hs] at he; exact ih (h.step hs) he

-- stopped in the middle: the first document is whole, the second has been cut short, the third has not been begun
example : ∃ es d, DiskRun (fun f : Nat => if f = 3 then some [7] else none)
      [(1, benc (.list [.int 5])), (2, benc (.dict [([1], .int 300)])), (3, benc (.int 1))] es d ∧
    d.files 1 = some (benc (.list [.int 5])) ∧ d.files 2 = some [100, 49, 58, 1, 105] ∧ d.files 3 = some [7] := by
  have hx : ((execDisk (⟨fun f : Nat => if f = 3 then some [7] else none, [⟨1, benc (.list [.int 5]), none⟩,
      ⟨2, benc (.dict [([1], .int 300)]), none⟩, ⟨3, benc (.int 1), none⟩]⟩)
      [.opened 0, .piece 0 1, .opened 1, .piece 1 2, .piece 0 4, .piece 1 3]).map fun d => (d.files 1, d.files 2, d.files 3)) =
      some (some (benc (.list [.int 5])), some [100, 49, 58, 1, 105], some [7]) := by decide +kernel
  obtain ⟨d, hd, hf⟩ := Option.map_eq_some_iff.1 hx
  simp only [Prod.mk.injEq] at hf
  obtain ⟨es, h⟩ := execDisk_run (jobs := [(1, benc (.list [.int 5])), (2, benc (.dict [([1], .int 300)])), (3, benc (.int 1))]) .init _ hd
  exact ⟨es, d, h, hf.1, hf.2.1, hf.2.2⟩

-- a document cut short
example : [100, 49, 58, 1, 105] <+: benc (.dict [([1], .int 300)]) ∧ [100, 49, 58, 1, 105] ≠ benc (.dict [([1], .int 300)]) := by
  decide +kernel

-- the torrent files of two magnet links with different info hashes, for `crash_leaves_torrents`
example (lossy : Bytes → Text) (ipText : IpAddr → Text) : ∃ tmpl, PathTemplate.fromStr "{hash}".toList = .ok tmpl ∧
    ∃ written : List (Magnet × Text × Bytes), written.length = 2 ∧
      (∀ x ∈ written, TorrentFor sha1 lossy ipText tmpl x.1 (.file x.2.1) x.2.2) ∧ (written.map fun x => x.1.infoHash).Nodup := by
  obtain ⟨tmpl, htmpl, -⟩ := (template_accepts_iff "{hash}".toList [.hash]).2 (.hash .nil)
  refine ⟨tmpl, htmpl, ?_⟩
  have one : ∀ info : List (Bytes × Ben), Canonical (.dict info) → ∃ x : Text × Bytes,
      TorrentFor sha1 lossy ipText tmpl ⟨⟨sha1 (benc (.dict info)), sha1_length _⟩, none, []⟩ (.file x.1) x.2 := by
    intro info hc
    obtain ⟨p, hp⟩ := (hash_separates "{hash}".toList [.hash] (.hash .nil) (by simp) tmpl htmpl
      (sanitize (((NameOf info).map lossy).getD "NONAME".toList)) [] ⟨sha1 (benc (.dict info)), sha1_length _⟩
      ⟨sha1 (benc (.dict info)), sha1_length _⟩).1
    exact ⟨(p, _), info, [], 0, hp.symm, rfl, hc, rfl, fun _ => rfl⟩
  obtain ⟨x, hx⟩ := one [] ⟨trivial, trivial⟩
  obtain ⟨y, hy⟩ := one [([1], .int 300)] ⟨trivial, trivial, trivial⟩
  refine ⟨[(⟨⟨sha1 (benc (.dict [])), sha1_length _⟩, none, []⟩, x),
    (⟨⟨sha1 (benc (.dict [([1], .int 300)])), sha1_length _⟩, none, []⟩, y)], rfl, ?_, ?_⟩
  · intro z hz
    rcases List.mem_cons.1 hz with rfl | hz
    · exact hx
    · rw [List.mem_singleton.1 hz]; exact hy
  · simp only [List.map_cons, List.map_nil, List.nodup_cons, List.mem_singleton, List.not_mem_nil, not_false_eq_true, List.nodup_nil,
      and_true]
    intro h
    have : sha1 (benc (.dict [])) = sha1 (benc (.dict [([1], .int 300)])) := congrArg InfoHash.bytes h
    revert this
    decide +kernel

end Demag.Props
