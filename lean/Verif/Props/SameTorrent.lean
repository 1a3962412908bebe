import Verif.Spec.SameTorrent
import Verif.Props.Program

/-!
# C105: the same link gives the same torrent, whoever delivers it
-/

namespace Demag.Props

open Demag Spec

theorem dictField_benc {kvs : List (Bytes × Ben)} (hc : Canonical (.dict kvs)) (k : Bytes) (v : Ben) :
    DictField (benc (.dict kvs)) k v ↔ lookup k kvs = some v := by
  constructor
  · rintro ⟨d, hd, e, hl⟩
    have := benc_injective _ _ hc hd e
    cases this
    exact hl
  · exact fun h => ⟨kvs, hc, rfl, h⟩

/-- What is under each key of a torrent file. -/
theorem lookup_torrentDict (info : Ben) (trs : List Text) (ns : List SockAddr) (date : Int) (by' : Text) (k : Bytes) :
    lookup k (torrentDict ipText info trs ns date by') =
      if k = keyBytes "announce-list" then (if trs = [] then none else some (.list (trs.map fun t => .list [.bytes (utf8 t)])))
      else if k = keyBytes "created by" then some (.bytes (utf8 by'))
      else if k = keyBytes "creation date" then some (.int date)
      else if k = keyBytes "info" then some info
      else if k = keyBytes "nodes" then (if ns = [] then none else some (.list (ns.map (nodeBen ipText))))
      else none := by
  have d1 : keyBytes "announce-list" ≠ keyBytes "created by" := by decide
  have d2 : keyBytes "announce-list" ≠ keyBytes "creation date" := by decide
  have d3 : keyBytes "announce-list" ≠ keyBytes "info" := by decide
  have d4 : keyBytes "announce-list" ≠ keyBytes "nodes" := by decide
  have d5 : keyBytes "created by" ≠ keyBytes "creation date" := by decide
  have d6 : keyBytes "created by" ≠ keyBytes "info" := by decide
  have d7 : keyBytes "created by" ≠ keyBytes "nodes" := by decide
  have d8 : keyBytes "creation date" ≠ keyBytes "info" := by decide
  have d9 : keyBytes "creation date" ≠ keyBytes "nodes" := by decide
  have d10 : keyBytes "info" ≠ keyBytes "nodes" := by decide
  unfold torrentDict lookup
  generalize keyBytes "announce-list" = a at *
  generalize keyBytes "created by" = b at *
  generalize keyBytes "creation date" = c at *
  generalize keyBytes "info" = i at *
  generalize keyBytes "nodes" = n at *
  have hb : ∀ x y : Bytes, (x == y) = if y = x then true else false := by
    intro x y
    by_cases e : y = x
    · subst e; simp
    · rw [if_neg e]; exact beq_false_of_ne (Ne.symm e)
  simp only [List.find?_append, List.find?_cons, hb, List.find?_nil]
  by_cases ka : k = a
  · subst ka
    split <;> simp [List.find?_cons, hb, d1, d2, d3, d4]
  · have e1 : List.find? (fun kv : Bytes × Ben => if k = kv.1 then true else false)
        (if trs = [] then [] else [(a, Ben.list (trs.map fun t => .list [.bytes (utf8 t)]))]) = none := by
      split <;> simp [ka]
    rw [e1, if_neg ka]
    by_cases kb : k = b
    · simp [kb]
    by_cases kc : k = c
    · simp [kc, Ne.symm d5]
    by_cases ki : k = i
    · simp [ki, Ne.symm d6, Ne.symm d8]
    by_cases kn : k = n
    · subst kn
      by_cases hn : ns = [] <;> simp [kb, kc, ki, hn]
    · by_cases hn : ns = [] <;> simp [kb, kc, ki, kn, hn]

/-- What is the same in two torrent files. -/
theorem torrents_same {sha1 : Bytes → Bytes} {lossy : Bytes → Text} {t t' : List TemplateElement} {m m' : Magnet} {out out' : Output}
    {bytes bytes' : Bytes} (h : TorrentFor sha1 lossy ipText t m out bytes) (h' : TorrentFor sha1 lossy ipText t' m' out' bytes') :
    ∃ info info', DictField bytes (keyBytes "info") info ∧ DictField bytes' (keyBytes "info") info' ∧
      (m.infoHash = m'.infoHash → Collide sha1 (benc info) (benc info') ∨
        (info = info' ∧ (t = t' → out = out') ∧
          SameExcept ["announce-list", "creation date", "nodes"] bytes bytes' ∧
          (m.trackers = m'.trackers → SameExcept ["creation date", "nodes"] bytes bytes' ∧
            (m.trackers ≠ [] → SameExcept ["creation date"] bytes bytes' ∧
              ((∀ v, DictField bytes (keyBytes "creation date") v ↔ DictField bytes' (keyBytes "creation date") v) → bytes = bytes'))))) := by
  obtain ⟨info, nodes, time, ho, hb, hc, hsha, hn⟩ := h
  obtain ⟨info', nodes', time', ho', hb', hc', hsha', hn'⟩ := h'
  have cb := torrentFile_canonical ipText (.dict info) hc (m.trackers.map Tracker.urlString) nodes time client
  have cb' := torrentFile_canonical ipText (.dict info') hc' (m'.trackers.map Tracker.urlString) nodes' time' client
  have hk : keyBytes "info" ≠ keyBytes "announce-list" ∧ keyBytes "info" ≠ keyBytes "created by" ∧ keyBytes "info" ≠ keyBytes "creation date" := by decide
  refine ⟨.dict info, .dict info', ?_, ?_, ?_⟩
  · rw [hb, dictField_benc cb, lookup_torrentDict, if_neg hk.1, if_neg hk.2.1, if_neg hk.2.2, if_pos rfl]
  · rw [hb', dictField_benc cb', lookup_torrentDict, if_neg hk.1, if_neg hk.2.1, if_neg hk.2.2, if_pos rfl]
  · intro hih
    by_cases he : benc (.dict info) = benc (.dict info')
    · right
      cases benc_injective _ _ hc hc' he
      refine ⟨rfl, ?_, ?_, ?_⟩
      · rintro rfl
        rw [ho, ho', hih]
      · intro k hk v
        simp only [List.map_cons, List.map_nil, List.mem_cons, List.not_mem_nil, or_false, not_or] at hk
        rw [hb, hb', dictField_benc cb, dictField_benc cb', lookup_torrentDict, lookup_torrentDict]
        simp only [if_neg hk.1, if_neg hk.2.1, if_neg hk.2.2]
      · intro htr
        refine ⟨?_, ?_⟩
        · intro k hk v
          simp only [List.map_cons, List.map_nil, List.mem_cons, List.not_mem_nil, or_false, not_or] at hk
          rw [hb, hb', dictField_benc cb, dictField_benc cb', lookup_torrentDict, lookup_torrentDict, htr]
          simp only [if_neg hk.1, if_neg hk.2]
        · intro hne
          cases hn hne
          cases hn' (htr ▸ hne)
          refine ⟨?_, ?_⟩
          · intro k hk v
            simp only [List.map_cons, List.map_nil, List.mem_cons, List.not_mem_nil, or_false] at hk
            rw [hb, hb', dictField_benc cb, dictField_benc cb', lookup_torrentDict, lookup_torrentDict, htr]
            simp only [if_neg hk]
          · intro hall
            have hkd : keyBytes "creation date" ≠ keyBytes "announce-list" ∧ keyBytes "creation date" ≠ keyBytes "created by" := by decide
            have := (hall (.int time)).1 (by
              rw [hb, dictField_benc cb, lookup_torrentDict, if_neg hkd.1, if_neg hkd.2, if_pos rfl])
            rw [hb', dictField_benc cb', lookup_torrentDict, if_neg hkd.1, if_neg hkd.2, if_pos rfl] at this
            cases this
            rw [hb, hb', htr]
    · left
      refine ⟨he, ?_⟩
      rw [hsha, hih, ← hsha']

section

variable {W W' : World} {args args' : List Text} {d d' : Done}

/-- **C105.** Two runs of the program, at any times, with any arguments and configurations, any trackers, peers and DHT, and two files that they have
written.  If these are for the same info hash, then their info dictionaries are a collision of SHA-1, or: the files have the same info
dictionary and differ at most in the trackers, the creation date and the nodes; with the same template they are at the same place; if both
links have the same trackers then the files differ at most in the date and the nodes; and if there are trackers, only in the date: if that is the same too, the
files are the same byte for byte. -/
theorem same_torrent (hdht : DhtConfig.dflt W.parseHost = some W.dht) (hdht' : DhtConfig.dflt W'.parseHost = some W'.dht)
    (hs : W'.sha1 = W.sha1) (hl : W'.lossy = W.lossy) (h : ProgramRun W args d) (h' : ProgramRun W' args' d')
    {out out' : Output} {bytes bytes' : Bytes} (hw : (out, bytes) ∈ writesOf d.effects) (hw' : (out', bytes') ∈ writesOf d'.effects) :
    ∃ t m t' m', AsksFor (cliReaders W.uenv W.lossy) W args t m ∧ AsksFor (cliReaders W'.uenv W'.lossy) W' args' t' m' ∧
      TorrentFor W.sha1 W.lossy ipText t m out bytes ∧ TorrentFor W'.sha1 W'.lossy ipText t' m' out' bytes' ∧
      ∃ info info', DictField bytes (keyBytes "info") info ∧ DictField bytes' (keyBytes "info") info' ∧
        (m.infoHash = m'.infoHash → Collide W.sha1 (benc info) (benc info') ∨
          (info = info' ∧ (t = t' → out = out') ∧
            SameExcept ["announce-list", "creation date", "nodes"] bytes bytes' ∧
            (m.trackers = m'.trackers → SameExcept ["creation date", "nodes"] bytes bytes' ∧
              (m.trackers ≠ [] → SameExcept ["creation date"] bytes bytes' ∧
                ((∀ v, DictField bytes (keyBytes "creation date") v ↔ DictField bytes' (keyBytes "creation date") v) → bytes = bytes'))))) := by
  obtain ⟨t, m, ha, ht⟩ := program_writes hdht h out bytes hw
  obtain ⟨t', m', ha', ht'⟩ := program_writes hdht' h' out' bytes' hw'
  refine ⟨t, m, t', m', ha, ha', ht, ht', ?_⟩
  rw [hs, hl] at ht'
  exact torrents_same ht ht'

/-- **C105.** Two runs of the program that are asked for the same links with the same templates, in whatever order and by whatever command,
the second of which ends successfully: to every file of the one there is a file of the other that is at the same place and differs from it at most in the
date and (for a link without trackers) the nodes; or the two have come upon a collision of SHA-1. -/
theorem same_torrents (hdht : DhtConfig.dflt W.parseHost = some W.dht) (hdht' : DhtConfig.dflt W'.parseHost = some W'.dht)
    (hs : W'.sha1 = W.sha1) (hl : W'.lossy = W.lossy) (h : ProgramRun W args d) (h' : ProgramRun W' args' d')
    (hok' : d'.code = some .success)
    (hask : ∀ t m, AsksFor (cliReaders W.uenv W.lossy) W args t m → AsksFor (cliReaders W'.uenv W'.lossy) W' args' t m)
    {out : Output} {bytes : Bytes} (hw : (out, bytes) ∈ writesOf d.effects) :
    ∃ t m out' bytes', AsksFor (cliReaders W.uenv W.lossy) W args t m ∧ TorrentFor W.sha1 W.lossy ipText t m out bytes ∧
      (out', bytes') ∈ writesOf d'.effects ∧
      ((∃ info info', DictField bytes (keyBytes "info") info ∧ DictField bytes' (keyBytes "info") info' ∧ Collide W.sha1 (benc info) (benc info')) ∨
        out = out' ∧ SameExcept ["creation date", "nodes"] bytes bytes' ∧ (m.trackers ≠ [] → SameExcept ["creation date"] bytes bytes')) := by
  obtain ⟨t, m, ha, ht⟩ := program_writes hdht h out bytes hw
  obtain ⟨out', bytes', hw', ht'⟩ := (program_success hdht' h' hok').1 t m (hask t m ha)
  refine ⟨t, m, out', bytes', ha, ht, hw', ?_⟩
  rw [hs, hl] at ht'
  obtain ⟨info, info', h1, h2, h3⟩ := torrents_same ht ht'
  rcases h3 rfl with h3 | ⟨-, h3, -, h4⟩
  · exact .inl ⟨info, info', h1, h2, h3⟩
  · exact .inr ⟨h3 rfl, (h4 rfl).1, fun hne => ((h4 rfl).2 hne).1⟩

end

/-! ### Examples -/

theorem exDefault : DhtConfig.dflt exHosts = some ⟨exNodes, 2⟩ := by decide +kernel

/-- There are runs of the program that write files and end successfully. -/
example : ∃ W W' args args' d d' w w', DhtConfig.dflt W.parseHost = some W.dht ∧ DhtConfig.dflt W'.parseHost = some W'.dht ∧ W'.sha1 = W.sha1 ∧
    W'.lossy = W.lossy ∧ ProgramRun W args d ∧ ProgramRun W' args' d' ∧ w ∈ writesOf d.effects ∧ w' ∈ writesOf d'.effects ∧
    d'.code = some .success ∧ ∀ t m, AsksFor (cliReaders W.uenv W.lossy) W args t m → AsksFor (cliReaders W'.uenv W'.lossy) W' args' t m := by
  obtain ⟨answers, d, h, hc, hne⟩ := exProgram_run
  obtain ⟨w, hw⟩ := List.exists_mem_of_ne_nil _ hne
  exact ⟨exWorld answers, exWorld answers, _, _, d, d, w, w, exDefault, exDefault, rfl, rfl, h, h, hw, hw, hc, fun _ _ h => h⟩

/-- Two files that differ in the date only. -/
example : SameExcept ["creation date"] (benc (.dict [(keyBytes "creation date", .int 5), (keyBytes "info", .dict [])]))
      (benc (.dict [(keyBytes "creation date", .int 6), (keyBytes "info", .dict [])])) ∧
    ¬ SameExcept [] (benc (.dict [(keyBytes "creation date", .int 5), (keyBytes "info", .dict [])]))
      (benc (.dict [(keyBytes "creation date", .int 6), (keyBytes "info", .dict [])])) := by
  have c : ∀ n, Canonical (.dict [(keyBytes "creation date", .int n), (keyBytes "info", .dict [])]) := by
    intro n
    have e : bytesLt (keyBytes "creation date") (keyBytes "info") = true := by decide
    simp [Canonical, CanonicalDict, SortedKeys, e]
  constructor
  · intro k hk v
    rw [dictField_benc (c 5), dictField_benc (c 6)]
    have hk' : keyBytes "creation date" ≠ k := fun e => hk (by simp [e])
    simp [lookup, List.find?_cons, beq_false_of_ne hk']
  · intro h
    have := (h (keyBytes "creation date") (by simp) (.int 5)).1 ((dictField_benc (c 5) _ _).2 rfl)
    rw [dictField_benc (c 6)] at this
    cases this

/-- With a bad digest, different info dictionaries have the same info hash: the exception is needed. -/
example : Collide (fun _ => List.replicate 20 7) (benc (.dict [(keyBytes "name", .bytes [0x61])])) (benc (.dict [(keyBytes "name", .bytes [0x62])])) :=
  ⟨by decide +kernel, rfl⟩

end Demag.Props
