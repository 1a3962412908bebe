import Verif.Spec.PeerBen
import Verif.Lemmas.Fields
import Verif.Lemmas.Compact
import Verif.Props.Bencode
import Verif.Props.PeerMsg

/-!
# C08: ut_metadata messages; C09: extended handshakes
-/

namespace Demag.Props

open Demag Spec

/-! ### Extended handshake -/

/-- The flag decoder. -/
def benFlag (v : Ben) : Option Bool := (benUint 8 v).map (· != 0)

/-- The address decoder. -/
def benIp (v : Ben) : Option IpAddr := (benBytes v).bind fromCompactIp

theorem benFlag_iff (v : Ben) (b : Bool) : benFlag v = some b ↔ IsFlag v b := by
  unfold benFlag IsFlag
  constructor
  · intro h
    cases e : benUint 8 v with
    | none => rw [e] at h; cases h
    | some x =>
      rw [e] at h
      simp only [Option.map_some, Option.some.injEq] at h
      refine ⟨x.toNat, x.isLt, (benUint_iff v x).1 e, ?_⟩
      subst h
      simp only [bne_iff_ne, ne_eq]
      rw [← BitVec.toNat_inj]; rfl
  · rintro ⟨n, hn, rfl, hb⟩
    have := (benUint_iff (Ben.int n) (BitVec.ofNat 8 n)).2 (by rw [BitVec.toNat_ofNat, Nat.mod_eq_of_lt hn])
    rw [this]
    simp only [Option.map_some, Option.some.injEq]
    rw [Bool.eq_iff_iff, hb, bne_iff_ne, ne_eq, ← BitVec.toNat_inj, BitVec.toNat_ofNat, Nat.mod_eq_of_lt hn]
    rfl

theorem fromCompactIp_iff (b : Bytes) (ip : IpAddr) : fromCompactIp b = some ip ↔
    match ip with
    | .v4 a => b.length = 4 ∧ beValue b = a.bits.toNat
    | .v6 a => b.length = 16 ∧ beValue b = a.bits.toNat := by
  unfold fromCompactIp
  cases ip with
  | v4 a =>
    obtain ⟨a⟩ := a
    by_cases h : b.length = 4
    · simp only [h, if_true, Option.some.injEq, IpAddr.v4.injEq, Ipv4.mk.injEq, true_and]
      exact beAccum_ofNat (w := 4) (by decide) b h a
    · simp only [h, if_false, false_and, iff_false]
      split <;> simp
  | v6 a =>
    obtain ⟨a⟩ := a
    by_cases h : b.length = 16
    · rw [if_neg (by omega), if_pos h]
      simp only [h, Option.some.injEq, IpAddr.v6.injEq, Ipv6.mk.injEq, true_and]
      exact beAccum_ofNat (w := 16) (by decide) b h a
    · simp only [h, if_false, false_and, iff_false]
      split <;> simp

theorem benIp_iff (v : Ben) (ip : IpAddr) : benIp v = some ip ↔ IsIp v ip := by
  unfold benIp IsIp
  cases v with
  | bytes b =>
    simp only [benBytes, Option.bind_some, fromCompactIp_iff, Ben.bytes.injEq, exists_eq_left']
    rfl
  | _ => simp [benBytes]

/-- How one pair changes the fields. -/
theorem readPair_eq (s : ExtendedHandshake) (k : Bytes) (v : Ben) :
    s.readPair (k, v) =
      if k = key "e" then (benFlag v).map fun x => { s with e := some x }
      else if k = key "m" then (benTextMap v).map fun x => { s with m := some x }
      else if k = key "v" then (benText v).map fun x => { s with v := some x }
      else if k = key "metadata_size" then (benUint 32 v).map fun x => { s with metadataSize := some x }
      else if k = key "yourip" then (benIp v).map fun x => { s with yourip := some x }
      else some s := by
  unfold ExtendedHandshake.readPair benFlag benIp
  simp only [bind]
  split
  · cases benUint 8 v <;> rfl
  · split
    · cases benTextMap v <;> rfl
    · split
      · cases benText v <;> rfl
      · split
        · cases benUint 32 v <;> rfl
        · split
          · cases benBytes v with
            | none => rfl
            | some b => simp only [Option.bind_some]; cases fromCompactIp b <;> rfl
          · rfl

theorem ofBen_fold (kvs : List (Bytes × Ben)) (hn : NodupKeys kvs) (s : ExtendedHandshake) :
    kvs.foldlM ExtendedHandshake.readPair {} = some s ↔
      fieldIs (key "e") kvs benFlag s.e ∧ fieldIs (key "m") kvs benTextMap s.m ∧
      fieldIs (key "v") kvs benText s.v ∧ fieldIs (key "metadata_size") kvs (benUint 32) s.metadataSize ∧
      fieldIs (key "yourip") kvs benIp s.yourip := by
  have forward : ∀ s, kvs.foldlM ExtendedHandshake.readPair {} = some s →
      fieldIs (key "e") kvs benFlag s.e ∧ fieldIs (key "m") kvs benTextMap s.m ∧
      fieldIs (key "v") kvs benText s.v ∧ fieldIs (key "metadata_size") kvs (benUint 32) s.metadataSize ∧
      fieldIs (key "yourip") kvs benIp s.yourip := by
    intro s h
    refine ⟨foldlM_fieldIs (·.e) _ _ ?_ ?_ kvs hn {} s h rfl, foldlM_fieldIs (·.m) _ _ ?_ ?_ kvs hn {} s h rfl,
      foldlM_fieldIs (·.v) _ _ ?_ ?_ kvs hn {} s h rfl, foldlM_fieldIs (·.metadataSize) _ _ ?_ ?_ kvs hn {} s h rfl,
      foldlM_fieldIs (·.yourip) _ _ ?_ ?_ kvs hn {} s h rfl⟩
    · intro s v s' h
      rw [readPair_eq, if_pos rfl] at h
      cases hf : benFlag v <;> rw [hf] at h <;> cases h; exact ⟨rfl, rfl⟩
    · intro s k' v s' hk h
      rw [readPair_eq, if_neg hk] at h
      (repeat' split at h) <;> first
        | (cases h; rfl)
        | (obtain ⟨x, -, rfl⟩ := Option.map_eq_some_iff.1 h; rfl)
    · intro s v s' h
      rw [readPair_eq, if_neg (by decide), if_pos rfl] at h
      cases hf : benTextMap v <;> rw [hf] at h <;> cases h; exact ⟨rfl, rfl⟩
    · intro s k' v s' hk h
      rw [readPair_eq] at h
      simp only [if_neg hk] at h
      (repeat' split at h) <;> first
        | (cases h; rfl)
        | (obtain ⟨x, -, rfl⟩ := Option.map_eq_some_iff.1 h; rfl)
    · intro s v s' h
      rw [readPair_eq, if_neg (by decide), if_neg (by decide), if_pos rfl] at h
      cases hf : benText v <;> rw [hf] at h <;> cases h; exact ⟨rfl, rfl⟩
    · intro s k' v s' hk h
      rw [readPair_eq] at h
      simp only [if_neg hk] at h
      (repeat' split at h) <;> first
        | (cases h; rfl)
        | (obtain ⟨x, -, rfl⟩ := Option.map_eq_some_iff.1 h; rfl)
    · intro s v s' h
      rw [readPair_eq, if_neg (by decide), if_neg (by decide), if_neg (by decide), if_pos rfl] at h
      cases hf : benUint 32 v <;> rw [hf] at h <;> cases h; exact ⟨rfl, rfl⟩
    · intro s k' v s' hk h
      rw [readPair_eq] at h
      simp only [if_neg hk] at h
      (repeat' split at h) <;> first
        | (cases h; rfl)
        | (obtain ⟨x, -, rfl⟩ := Option.map_eq_some_iff.1 h; rfl)
    · intro s v s' h
      rw [readPair_eq, if_neg (by decide), if_neg (by decide), if_neg (by decide), if_neg (by decide), if_pos rfl] at h
      cases hf : benIp v <;> rw [hf] at h <;> cases h; exact ⟨rfl, rfl⟩
    · intro s k' v s' hk h
      rw [readPair_eq] at h
      simp only [if_neg hk] at h
      (repeat' split at h) <;> first
        | (cases h; rfl)
        | (obtain ⟨x, -, rfl⟩ := Option.map_eq_some_iff.1 h; rfl)
  constructor
  · exact forward s
  · rintro ⟨h1, h2, h3, h4, h5⟩
    have hs : (kvs.foldlM ExtendedHandshake.readPair {}).isSome := by
      apply foldlM_isSome
      intro kv hkv s
      obtain ⟨k, v⟩ := kv
      rw [readPair_eq]
      split
      · rename_i hk; rw [Option.isSome_map]; exact fieldIs_mem hn h1 hkv hk
      · split
        · rename_i hk; rw [Option.isSome_map]; exact fieldIs_mem hn h2 hkv hk
        · split
          · rename_i hk; rw [Option.isSome_map]; exact fieldIs_mem hn h3 hkv hk
          · split
            · rename_i hk; rw [Option.isSome_map]; exact fieldIs_mem hn h4 hkv hk
            · split
              · rename_i hk; rw [Option.isSome_map]; exact fieldIs_mem hn h5 hkv hk
              · rfl
    obtain ⟨s', hs'⟩ := Option.isSome_iff_exists.1 hs
    rw [hs']
    obtain ⟨g1, g2, g3, g4, g5⟩ := forward s' hs'
    have u1 := fieldIs_unique g1 h1
    have u2 := fieldIs_unique g2 h2
    have u3 := fieldIs_unique g3 h3
    have u4 := fieldIs_unique g4 h4
    have u5 := fieldIs_unique g5 h5
    congr 1
    obtain ⟨e, m, v, ms, y⟩ := s
    obtain ⟨e', m', v', ms', y'⟩ := s'
    simp only at u1 u2 u3 u4 u5
    subst u1 u2 u3 u4 u5
    rfl

theorem denotesHandshake_iff (kvs : List (Bytes × Ben)) (hc : CanonicalDict kvs) (s : ExtendedHandshake) :
    (fieldIs (key "e") kvs benFlag s.e ∧ fieldIs (key "m") kvs benTextMap s.m ∧
      fieldIs (key "v") kvs benText s.v ∧ fieldIs (key "metadata_size") kvs (benUint 32) s.metadataSize ∧
      fieldIs (key "yourip") kvs benIp s.yourip) ↔ DenotesHandshake kvs s := by
  rw [fieldIs_iff "e" kvs benFlag IsFlag (fun v a _ => benFlag_iff v a),
    fieldIs_iff "m" kvs benTextMap IsCodeMap (fun v a h => benTextMap_iff v (canonical_lookup hc h) a),
    fieldIs_iff "v" kvs benText IsText (fun v a _ => benText_iff v a),
    fieldIs_iff "metadata_size" kvs (benUint 32) (IsUint 32) (fun v a _ => benUint_iff v a),
    fieldIs_iff "yourip" kvs benIp IsIp (fun v a _ => benIp_iff v a)]
  constructor
  · rintro ⟨h1, h2, h3, h4, h5⟩; exact ⟨h1, h2, h3, h4, h5⟩
  · rintro ⟨h1, h2, h3, h4, h5⟩; exact ⟨h1, h2, h3, h4, h5⟩

/-- **C09.** A payload is accepted as an extended handshake exactly if it is one canonically bencoded dictionary (with
at most 2048 nested containers) whose fields denote the handshake returned. -/
theorem extendedHandshake_decode_spec (buf : Bytes) (s : ExtendedHandshake) :
    ExtendedHandshake.decode buf = .ok s ↔
      ∃ kvs, buf = benc (.dict kvs) ∧ Canonical (.dict kvs) ∧ depth (.dict kvs) ≤ 2048 ∧ DenotesHandshake kvs s := by
  unfold ExtendedHandshake.decode
  rw [mapError_ok, decodeBencode_spec]
  constructor
  · rintro ⟨v, hb, hc, hd, hf⟩
    cases v with
    | dict kvs =>
      refine ⟨kvs, hb, hc, hd, ?_⟩
      simp only [Canonical] at hc
      exact (denotesHandshake_iff kvs hc.2 s).1 ((ofBen_fold kvs (sortedKeys_nodup hc.1) s).1 hf)
    | _ => cases hf
  · rintro ⟨kvs, hb, hc, hd, hf⟩
    refine ⟨_, hb, hc, hd, ?_⟩
    simp only [Canonical] at hc
    exact (ofBen_fold kvs (sortedKeys_nodup hc.1) s).2 ((denotesHandshake_iff kvs hc.2 s).2 hf)

/-- The dictionary written for a handshake. -/
def handshakeDict (s : ExtendedHandshake) : List (Bytes × Ben) :=
  (s.e.map fun b => (keyBytes "e", Ben.int b.toNat)).toList ++
  (s.m.map fun m => (keyBytes "m", Ben.dict (m.map fun kv => (utf8 kv.1, .int kv.2.toNat)))).toList ++
  (s.metadataSize.map fun n => (keyBytes "metadata_size", Ben.int n.toNat)).toList ++
  (s.v.map fun t => (keyBytes "v", Ben.bytes (utf8 t))).toList ++
  (s.yourip.map fun ip => (keyBytes "yourip", Ben.bytes (ipToCompact ip))).toList

theorem handshakeDict_sorted (s : ExtendedHandshake) : SortedKeys (handshakeDict s) := by
  obtain ⟨e, m, v, ms, y⟩ := s
  cases e <;> cases m <;> cases v <;> cases ms <;> cases y <;>
    simp only [handshakeDict, Option.map_some, Option.map_none, Option.toList, List.nil_append, List.cons_append, SortedKeys, and_true] <;>
    decide +kernel

theorem ipToCompact_isIp (ip : IpAddr) : IsIp (.bytes (ipToCompact ip)) ip := by
  refine ⟨_, rfl, ?_⟩
  cases ip with
  | v4 a =>
    simp only [ipToCompact, Ipv4.octets, beBytes_length, beValue_beBytes, true_and]
    exact Nat.mod_eq_of_lt a.bits.isLt
  | v6 a =>
    simp only [ipToCompact, Ipv6.octets, beBytes_length, beValue_beBytes, true_and]
    exact Nat.mod_eq_of_lt a.bits.isLt

theorem isFlag_toNat (b : Bool) : IsFlag (.int b.toNat) b := ⟨b.toNat, by cases b <;> decide, rfl, by cases b <;> simp⟩

theorem handshakeDict_denotes (s : ExtendedHandshake) : DenotesHandshake (handshakeDict s) s := by
  obtain ⟨e, m, v, ms, y⟩ := s
  constructor
  · cases e <;> cases m <;> cases v <;> cases ms <;> cases y <;> first | trivial | exact isFlag_toNat _
  · cases e <;> cases m <;> cases v <;> cases ms <;> cases y <;> first | trivial | exact rfl
  · cases e <;> cases m <;> cases v <;> cases ms <;> cases y <;> first | trivial | exact rfl
  · cases e <;> cases m <;> cases v <;> cases ms <;> cases y <;> first | trivial | exact rfl
  · cases e <;> cases m <;> cases v <;> cases ms <;> cases y <;> first | trivial | exact ipToCompact_isIp _

theorem textMap_sorted (m : List (Text × BitVec 8)) (h : TextSorted m) : SortedKeys (textMapBen m) := by
  have := (sortedKeys_map (fun c : BitVec 8 => Ben.int c.toNat)
    (m.map fun kv : Text × BitVec 8 => (utf8 kv.1, kv.2))).2 h
  rw [List.map_map] at this
  exact this

theorem emitTextMap_eq (m : List (Text × BitVec 8)) (h : TextSorted m) :
    emitTextMap m = some (benc (.dict (textMapBen m))) := by
  unfold emitTextMap
  have hs : SortedKeys (textMapBen m) := by
    exact textMap_sorted m h
  rw [← emitDict_eq _ hs, textMapBen, List.map_map]
  congr 1
  apply List.map_congr_left
  intro kv _
  simp [emitNat_eq]

theorem textMap_canonical (m : List (Text × BitVec 8)) (h : TextSorted m) : Canonical (.dict (textMapBen m)) := by
  rw [Canonical]
  refine ⟨?_, ?_⟩
  · exact textMap_sorted m h
  · clear h
    induction m with
    | nil => trivial
    | cons kv m ih => exact ⟨trivial, ih⟩

theorem textMap_depth (m : List (Text × BitVec 8)) : depth (.dict (textMapBen m)) = 1 := by
  rw [depth]
  have : depthDict (textMapBen m) = 0 := by
    induction m with
    | nil => rfl
    | cons kv m ih => simp only [textMapBen, List.map_cons, depthDict, depth] at ih ⊢; rw [ih]; rfl
  rw [this]

/-- **C09.** The encoding never panics for a sorted `m` (which a `BTreeMap` always is); it is the canonical bencoding of
the dictionary with exactly the present fields. -/
theorem extendedHandshake_encode_spec (s : ExtendedHandshake) (hm : ∀ m, s.m = some m → TextSorted m) :
    s.encode = some (benc (.dict (handshakeDict s))) ∧ Canonical (.dict (handshakeDict s)) ∧
      depth (.dict (handshakeDict s)) ≤ 2 := by
  refine ⟨?_, ?_, ?_⟩
  · have hd := emitDict_eq (handshakeDict s) (handshakeDict_sorted s)
    rw [← hd]
    unfold ExtendedHandshake.encode
    obtain ⟨e, m, v, ms, y⟩ := s
    cases m with
    | none =>
      simp only [bind, Option.bind_some]
      congr 1
      cases e <;> cases v <;> cases ms <;> cases y <;>
        simp [handshakeDict, optPair, emitNat_eq, emitBytes_eq, key_eq]
    | some m =>
      simp only [emitTextMap_eq m (hm m rfl), bind, Option.bind_some]
      congr 1
      cases e <;> cases v <;> cases ms <;> cases y <;>
        simp [handshakeDict, optPair, emitNat_eq, emitBytes_eq, key_eq, textMapBen]
  · rw [Canonical]
    refine ⟨handshakeDict_sorted s, ?_⟩
    obtain ⟨e, m, v, ms, y⟩ := s
    have hm' : ∀ m', m = some m' → Canonical (.dict (textMapBen m')) := fun m' h => textMap_canonical m' (hm m' h)
    unfold textMapBen at hm'
    cases e <;> cases m <;> cases v <;> cases ms <;> cases y <;>
      simp_all [handshakeDict, CanonicalDict, Canonical]
  · obtain ⟨e, m, v, ms, y⟩ := s
    have hm' : ∀ m', m = some m' → depth (.dict (textMapBen m')) = 1 := fun m' h => textMap_depth m'
    unfold textMapBen at hm'
    cases e <;> cases m <;> cases v <;> cases ms <;> cases y <;>
      simp_all [handshakeDict, depthDict, depth]

/-- **C09.** An extended handshake decodes from its own encoding, whatever fields are present. -/
theorem extendedHandshake_roundtrip (s : ExtendedHandshake) (hm : ∀ m, s.m = some m → TextSorted m) :
    ∃ b, s.encode = some b ∧ ExtendedHandshake.decode b = .ok s := by
  obtain ⟨h1, h2, h3⟩ := extendedHandshake_encode_spec s hm
  refine ⟨_, h1, (extendedHandshake_decode_spec _ s).2 ⟨_, rfl, h2, by omega, handshakeDict_denotes s⟩⟩

/-- **C09.** What decodes has a sorted `m`, so that it can be encoded again. -/
theorem extendedHandshake_decode_sorted (buf : Bytes) (s : ExtendedHandshake)
    (h : ExtendedHandshake.decode buf = .ok s) : ∀ m, s.m = some m → TextSorted m := by
  obtain ⟨kvs, -, hc, -, hd⟩ := (extendedHandshake_decode_spec buf s).1 h
  intro m hm
  have := hd.m
  rw [hm] at this
  unfold OptField at this
  rw [Canonical] at hc
  cases e : lookup (keyBytes "m") kvs with
  | none => rw [e] at this; exact this.elim
  | some v =>
    rw [e] at this
    simp only [IsCodeMap] at this
    subst this
    have hc' := canonical_lookup hc.2 e
    rw [Canonical] at hc'
    have := (sortedKeys_map (fun c : BitVec 8 => Ben.int c.toNat) (m.map fun kv : Text × BitVec 8 => (utf8 kv.1, kv.2))).1
      (by rw [List.map_map]; exact hc'.1)
    exact this

/-! ### Metadata messages -/

theorem metaReadPair_eq (s : MetadataFields) (k : Bytes) (v : Ben) :
    s.readPair (k, v) =
      if k = key "msg_type" then (benUint 8 v).map fun x => { s with msgType := some x }
      else if k = key "piece" then (benUint 32 v).map fun x => { s with piece := some x }
      else if k = key "total_size" then (benUint 32 v).map fun x => { s with totalSize := some x }
      else some s := by
  unfold MetadataFields.readPair
  simp only [bind]
  split
  · cases benUint 8 v <;> rfl
  · split
    · cases benUint 32 v <;> rfl
    · split
      · cases benUint 32 v <;> rfl
      · rfl

theorem metaFold (kvs : List (Bytes × Ben)) (hn : NodupKeys kvs) (s : MetadataFields) :
    kvs.foldlM MetadataFields.readPair {} = some s ↔
      fieldIs (key "msg_type") kvs (benUint 8) s.msgType ∧ fieldIs (key "piece") kvs (benUint 32) s.piece ∧
      fieldIs (key "total_size") kvs (benUint 32) s.totalSize := by
  have forward : ∀ s, kvs.foldlM MetadataFields.readPair {} = some s →
      fieldIs (key "msg_type") kvs (benUint 8) s.msgType ∧ fieldIs (key "piece") kvs (benUint 32) s.piece ∧
      fieldIs (key "total_size") kvs (benUint 32) s.totalSize := by
    intro s h
    refine ⟨foldlM_fieldIs (·.msgType) _ _ ?_ ?_ kvs hn {} s h rfl, foldlM_fieldIs (·.piece) _ _ ?_ ?_ kvs hn {} s h rfl,
      foldlM_fieldIs (·.totalSize) _ _ ?_ ?_ kvs hn {} s h rfl⟩
    · intro s v s' h
      rw [metaReadPair_eq, if_pos rfl] at h
      cases hf : benUint 8 v <;> rw [hf] at h <;> cases h; exact ⟨rfl, rfl⟩
    · intro s k' v s' hk h
      rw [metaReadPair_eq, if_neg hk] at h
      (repeat' split at h) <;> first
        | (cases h; rfl)
        | (obtain ⟨x, -, rfl⟩ := Option.map_eq_some_iff.1 h; rfl)
    · intro s v s' h
      rw [metaReadPair_eq, if_neg (by decide), if_pos rfl] at h
      cases hf : benUint 32 v <;> rw [hf] at h <;> cases h; exact ⟨rfl, rfl⟩
    · intro s k' v s' hk h
      rw [metaReadPair_eq] at h
      simp only [if_neg hk] at h
      (repeat' split at h) <;> first
        | (cases h; rfl)
        | (obtain ⟨x, -, rfl⟩ := Option.map_eq_some_iff.1 h; rfl)
    · intro s v s' h
      rw [metaReadPair_eq, if_neg (by decide), if_neg (by decide), if_pos rfl] at h
      cases hf : benUint 32 v <;> rw [hf] at h <;> cases h; exact ⟨rfl, rfl⟩
    · intro s k' v s' hk h
      rw [metaReadPair_eq] at h
      simp only [if_neg hk] at h
      (repeat' split at h) <;> first
        | (cases h; rfl)
        | (obtain ⟨x, -, rfl⟩ := Option.map_eq_some_iff.1 h; rfl)
  constructor
  · exact forward s
  · rintro ⟨h1, h2, h3⟩
    have hs : (kvs.foldlM MetadataFields.readPair {}).isSome := by
      apply foldlM_isSome
      intro kv hkv s
      obtain ⟨k, v⟩ := kv
      rw [metaReadPair_eq]
      split
      · rename_i hk; rw [Option.isSome_map]; exact fieldIs_mem hn h1 hkv hk
      · split
        · rename_i hk; rw [Option.isSome_map]; exact fieldIs_mem hn h2 hkv hk
        · split
          · rename_i hk; rw [Option.isSome_map]; exact fieldIs_mem hn h3 hkv hk
          · rfl
    obtain ⟨s', hs'⟩ := Option.isSome_iff_exists.1 hs
    rw [hs']
    obtain ⟨g1, g2, g3⟩ := forward s' hs'
    have u1 := fieldIs_unique g1 h1
    have u2 := fieldIs_unique g2 h2
    have u3 := fieldIs_unique g3 h3
    congr 1
    obtain ⟨a, b, c⟩ := s
    obtain ⟨a', b', c'⟩ := s'
    simp only at u1 u2 u3
    subst u1 u2 u3
    rfl

theorem reqField_iff {α : Type} (k : String) (kvs : List (Bytes × Ben)) (P : Ben → α → Prop) (x : α) :
    ReqField k kvs P x ↔ OptField k kvs P (some x) := by
  unfold ReqField OptField
  cases lookup (keyBytes k) kvs <;> simp

theorem metaFold_spec (kvs : List (Bytes × Ben)) (hn : NodupKeys kvs) (a : Option (BitVec 8)) (b c : Option (BitVec 32)) :
    kvs.foldlM MetadataFields.readPair {} = some ⟨a, b, c⟩ ↔
      OptField "msg_type" kvs (IsUint 8) a ∧ OptField "piece" kvs (IsUint 32) b ∧
      OptField "total_size" kvs (IsUint 32) c := by
  rw [metaFold kvs hn, fieldIs_iff "msg_type" kvs _ (IsUint 8) (fun v a _ => benUint_iff v a),
    fieldIs_iff "piece" kvs _ (IsUint 32) (fun v a _ => benUint_iff v a),
    fieldIs_iff "total_size" kvs _ (IsUint 32) (fun v a _ => benUint_iff v a)]

theorem metadata_class (kvs : List (Bytes × Ben)) (rest : Bytes) (hn : NodupKeys kvs) (m : MetadataMessage) :
    DenotesMetadata kvs rest m ↔
      ∃ t p ts, kvs.foldlM MetadataFields.readPair {} = some ⟨some t, some p, ts⟩ ∧
        (if t = 0 then rest = [] ∧ m = .request p
         else if t = 1 then ∃ n, ts = some n ∧ m = .data p n rest
         else if t = 2 then rest = [] ∧ m = .reject p
         else m = .unknown t) := by
  constructor
  · intro h
    cases h with
    | request p ts h hp ht hr =>
      rw [reqField_iff] at h hp
      exact ⟨0, p, ts, (metaFold_spec kvs hn _ _ _).2 ⟨h, hp, ht⟩, by simp [hr]⟩
    | data p ts h hp ht =>
      rw [reqField_iff] at h hp ht
      exact ⟨1, p, some ts, (metaFold_spec kvs hn _ _ _).2 ⟨h, hp, ht⟩, by simp⟩
    | reject p ts h hp ht hr =>
      rw [reqField_iff] at h hp
      exact ⟨2, p, ts, (metaFold_spec kvs hn _ _ _).2 ⟨h, hp, ht⟩, by simp [hr]⟩
    | unknown c p ts h hc hp ht =>
      rw [reqField_iff] at h hp
      have h0 : c ≠ 0 := by rintro rfl; simp at hc
      have h1 : c ≠ 1 := by rintro rfl; simp at hc
      have h2 : c ≠ 2 := by rintro rfl; simp at hc
      exact ⟨c, p, ts, (metaFold_spec kvs hn _ _ _).2 ⟨h, hp, ht⟩, by rw [if_neg h0, if_neg h1, if_neg h2]⟩
  · rintro ⟨t, p, ts, hf, hm⟩
    rw [metaFold_spec kvs hn, ← reqField_iff, ← reqField_iff] at hf
    obtain ⟨h, hp, ht⟩ := hf
    split at hm
    · rename_i ht0; subst ht0; obtain ⟨hr, rfl⟩ := hm; exact .request p ts h hp ht hr
    · rename_i ht0
      split at hm
      · rename_i ht1; subst ht1; obtain ⟨n, rfl, rfl⟩ := hm
        rw [← reqField_iff] at ht
        exact .data p n h hp ht
      · rename_i ht1
        split at hm
        · rename_i ht2; subst ht2; obtain ⟨hr, rfl⟩ := hm; exact .reject p ts h hp ht hr
        · rename_i ht2
          subst hm
          refine .unknown t p ts h ?_ hp ht
          rw [← BitVec.toNat_inj] at ht0 ht1 ht2
          simp at ht0 ht1 ht2
          omega

/-- **C08.** A payload is accepted as a ut_metadata message exactly if it is a canonically bencoded dictionary (nesting at
most 2) followed by bytes which together denote the message returned. -/
theorem metadata_decode_spec (buf : Bytes) (m : MetadataMessage) :
    MetadataMessage.decode buf = .ok m ↔
      ∃ kvs rest, buf = benc (.dict kvs) ++ rest ∧ Canonical (.dict kvs) ∧ depth (.dict kvs) ≤ 2 ∧
        DenotesMetadata kvs rest m := by
  have main : ∀ kvs rest, parseObject 2 buf = some (.dict kvs, rest) → NodupKeys kvs → buf = benc (.dict kvs) ++ rest →
      (MetadataMessage.decode buf = .ok m ↔ DenotesMetadata kvs rest m) := by
    intro kvs rest hp hn hb
    have hne : buf.isEmpty = false := by
      rw [hb]; have := benc_length_pos (.dict kvs)
      cases h : benc (.dict kvs) with
      | nil => rw [h] at this; cases this
      | cons => rfl
    have hdrop : buf.drop (buf.length - rest.length) = rest := by
      rw [hb]; simp
    rw [metadata_class kvs rest hn]
    unfold MetadataMessage.decode
    simp only [hne, hp, hdrop, Bool.false_eq_true, if_false]
    cases hf : kvs.foldlM MetadataFields.readPair {} with
    | none => simp
    | some f =>
      obtain ⟨a, b, c⟩ := f
      cases a with
      | none => simp
      | some t =>
        cases b with
        | none => simp
        | some p =>
          simp only [Option.some.injEq, MetadataFields.mk.injEq]
          constructor
          · intro h
            refine ⟨t, p, c, ⟨rfl, rfl, rfl⟩, ?_⟩
            split at h
            · rename_i h0
              rw [if_pos h0]
              split at h
              · rename_i hr; cases h; exact ⟨List.isEmpty_iff.1 hr, rfl⟩
              · cases h
            · rename_i h0
              rw [if_neg h0]
              split at h
              · rename_i h1
                rw [if_pos h1]
                cases c with
                | none => cases h
                | some n => cases h; exact ⟨n, rfl, rfl⟩
              · rename_i h1
                rw [if_neg h1]
                split at h
                · rename_i h2
                  rw [if_pos h2]
                  split at h
                  · rename_i hr; cases h; exact ⟨List.isEmpty_iff.1 hr, rfl⟩
                  · cases h
                · rename_i h2
                  rw [if_neg h2]
                  cases h; rfl
          · rintro ⟨t', p', c', ⟨rfl, rfl, rfl⟩, h⟩
            split at h
            · rename_i h0
              rw [if_pos h0]
              obtain ⟨rfl, rfl⟩ := h
              rfl
            · rename_i h0
              rw [if_neg h0]
              split at h
              · rename_i h1
                rw [if_pos h1]
                obtain ⟨n, rfl, rfl⟩ := h
                rfl
              · rename_i h1
                rw [if_neg h1]
                split at h
                · rename_i h2
                  rw [if_pos h2]
                  obtain ⟨rfl, rfl⟩ := h
                  rfl
                · rename_i h2
                  rw [if_neg h2, h]
  constructor
  · intro h
    have hsome : ∃ kvs rest, parseObject 2 buf = some (.dict kvs, rest) := by
      unfold MetadataMessage.decode at h
      split at h
      · cases h
      · split at h
        · rename_i kvs rest hp; exact ⟨kvs, rest, hp⟩
        · cases h
    obtain ⟨kvs, rest, hp⟩ := hsome
    obtain ⟨hb, hc, hd⟩ := (parseObject_iff 2 buf _ rest).1 hp
    have hn : NodupKeys kvs := by rw [Canonical] at hc; exact sortedKeys_nodup hc.1
    exact ⟨kvs, rest, hb, hc, hd, (main kvs rest hp hn hb).1 h⟩
  · rintro ⟨kvs, rest, hb, hc, hd, hm⟩
    have hp := (parseObject_iff 2 buf (.dict kvs) rest).2 ⟨hb, hc, hd⟩
    have hn : NodupKeys kvs := by rw [Canonical] at hc; exact sortedKeys_nodup hc.1
    exact (main kvs rest hp hn hb).2 hm

/-- The dictionary written for a metadata message. -/
def metadataDict : MetadataMessage → List (Bytes × Ben)
  | .request p => [(keyBytes "msg_type", .int 0), (keyBytes "piece", .int p.toNat)]
  | .data p t _ => [(keyBytes "msg_type", .int 1), (keyBytes "piece", .int p.toNat), (keyBytes "total_size", .int t.toNat)]
  | .reject p => [(keyBytes "msg_type", .int 2), (keyBytes "piece", .int p.toNat)]
  | .unknown t => [(keyBytes "msg_type", .int t.toNat)]

/-- The bytes after the dictionary. -/
def metadataPayload : MetadataMessage → Bytes
  | .data _ _ payload => payload
  | _ => []

theorem metadataDict_canonical (m : MetadataMessage) :
    Canonical (.dict (metadataDict m)) ∧ depth (.dict (metadataDict m)) = 1 := by
  cases m <;> simp only [metadataDict, Canonical, CanonicalDict, SortedKeys, depth, depthDict, and_true, true_and] <;>
    decide +kernel

/-- **C08.** The encoding never panics and is the dictionary followed by the payload. -/
theorem metadata_encode_spec (m : MetadataMessage) :
    m.encode = some (benc (.dict (metadataDict m)) ++ metadataPayload m) := by
  have hs : SortedKeys (metadataDict m) := by
    have := (metadataDict_canonical m).1; rw [Canonical] at this; exact this.1
  have := emitDict_eq (metadataDict m) hs
  have e0 : ((0 : Nat) : Int) = 0 := rfl
  have e1 : ((1 : Nat) : Int) = 1 := rfl
  have e2 : ((2 : Nat) : Int) = 2 := rfl
  cases m <;> simp only [metadataDict, List.map_cons, List.map_nil] at this <;>
    simp only [MetadataMessage.encode, metadataDict, metadataPayload, key_eq, emitNat_eq, e0, e1, e2, this,
      List.append_nil, bind, Option.bind_some]

/-- **C08.** Every request, data (whatever its payload) and reject message decodes from its own encoding. -/
theorem metadata_roundtrip (m : MetadataMessage) (h : ∀ t, m ≠ .unknown t) :
    ∃ b, m.encode = some b ∧ MetadataMessage.decode b = .ok m := by
  refine ⟨_, metadata_encode_spec m, (metadata_decode_spec _ m).2
    ⟨metadataDict m, metadataPayload m, rfl, (metadataDict_canonical m).1, by rw [(metadataDict_canonical m).2]; decide, ?_⟩⟩
  cases m with
  | request p => exact .request p none ⟨_, rfl, rfl⟩ ⟨_, rfl, rfl⟩ trivial rfl
  | data p t pl => exact .data p t ⟨_, rfl, rfl⟩ ⟨_, rfl, rfl⟩ ⟨_, rfl, rfl⟩
  | reject p => exact .reject p none ⟨_, rfl, rfl⟩ ⟨_, rfl, rfl⟩ trivial rfl
  | unknown t => exact absurd rfl (h t)

/-- **C08.** Distinct messages have distinct encodings. -/
theorem metadata_encode_injective (m m' : MetadataMessage) (h : ∀ t, m ≠ .unknown t) (h' : ∀ t, m' ≠ .unknown t)
    (he : m.encode = m'.encode) : m = m' := by
  obtain ⟨b, hb, hd⟩ := metadata_roundtrip m h
  obtain ⟨b', hb', hd'⟩ := metadata_roundtrip m' h'
  rw [hb, hb'] at he
  cases he
  rw [hd] at hd'; cases hd'; rfl

/-- **C08.** Bytes after a request or reject are refused. -/
theorem metadata_trailing (m : MetadataMessage) (h : (∃ p, m = .request p) ∨ ∃ p, m = .reject p) (extra : Bytes)
    (hx : extra ≠ []) :
    ∃ b, m.encode = some b ∧ MetadataMessage.decode (b ++ extra) = .error (.metadata .trailingData) := by
  refine ⟨_, metadata_encode_spec m, ?_⟩
  have hpl : metadataPayload m = [] := by rcases h with ⟨p, rfl⟩ | ⟨p, rfl⟩ <;> rfl
  rw [hpl, List.append_nil]
  have hp := (parseObject_iff 2 _ (.dict (metadataDict m)) extra).2
    ⟨rfl, (metadataDict_canonical m).1, by rw [(metadataDict_canonical m).2]; decide⟩
  have hne : (benc (.dict (metadataDict m)) ++ extra).isEmpty = false := by
    cases h : benc (.dict (metadataDict m)) ++ extra with
    | nil => simp only [List.append_eq_nil_iff] at h; exact absurd h.2 hx
    | cons => rfl
  have hn : NodupKeys (metadataDict m) := by
    have := (metadataDict_canonical m).1; rw [Canonical] at this; exact sortedKeys_nodup this.1
  have hxe : extra.isEmpty = false := by cases extra with | nil => exact absurd rfl hx | cons => rfl
  unfold MetadataMessage.decode
  simp only [hne, hp, Bool.false_eq_true, if_false]
  rcases h with ⟨p, rfl⟩ | ⟨p, rfl⟩
  · have : (metadataDict (.request p)).foldlM MetadataFields.readPair {} = some ⟨some 0, some p, none⟩ :=
      (metaFold_spec _ hn _ _ _).2 ⟨rfl, rfl, trivial⟩
    rw [this]; simp [hxe]
  · have : (metadataDict (.reject p)).foldlM MetadataFields.readPair {} = some ⟨some 2, some p, none⟩ :=
      (metaFold_spec _ hn _ _ _).2 ⟨rfl, rfl, trivial⟩
    rw [this]; simp [hxe]

/-- **C08.** A dictionary without `piece` (or without `msg_type`) is refused. -/
theorem metadata_missing (kvs : List (Bytes × Ben)) (rest : Bytes) (hc : Canonical (.dict kvs))
    (h : lookup (keyBytes "piece") kvs = none ∨ lookup (keyBytes "msg_type") kvs = none) (m : MetadataMessage) :
    MetadataMessage.decode (benc (.dict kvs) ++ rest) ≠ .ok m := by
  intro hd
  obtain ⟨kvs', rest', hb, hc', -, hm⟩ := (metadata_decode_spec _ m).1 hd
  have : kvs = kvs' := by
    have := benc_prefix_free (.dict kvs) (.dict kvs') hc hc' rest rest' hb
    have := this.1
    simpa using this
  subst this
  have hp : ∃ p, ReqField "piece" kvs (IsUint 32) p := by cases hm <;> exact ⟨_, by assumption⟩
  have ht : ∃ p, ReqField "msg_type" kvs (IsUint 8) p := by cases hm <;> exact ⟨_, by assumption⟩
  obtain ⟨p, v, hv, -⟩ := hp
  obtain ⟨t, w, hw, -⟩ := ht
  rcases h with h | h
  · rw [h] at hv; cases hv
  · rw [h] at hw; cases hw

/-! ### Whole messages -/

/-- **C08/C09/C03.** Any message demagnetize sends (core messages, handshakes, metadata messages of a known type) decodes
to itself at a receiver whose registry assigns the same code to `ut_metadata`. -/
theorem message_roundtrip (msg : Message) (r r' : Bep10Registry)
    (hcore : ∀ i p, msg ≠ .core (.extended i p))
    (hunk : ∀ t, msg ≠ .extended (.metadata (.unknown t)))
    (hm : ∀ s m, msg = .extended (.handshake s) → s.m = some m → TextSorted m)
    (hr : ∀ c, r.getMessageId .metadata = some c → c ≠ 0 ∧ r'.forMessageId c = some .metadata)
    (b : Bytes) (h : msg.encode r = .ok b) : Message.decode b r' = .ok msg := by
  cases msg with
  | core m =>
    simp only [Message.encode, Except.ok.injEq] at h
    subst h
    unfold Message.decode
    rw [coreMessage_roundtrip]
    cases m with
    | extended i p => exact absurd rfl (hcore i p)
    | _ => rfl
  | extended m =>
    cases m with
    | handshake s =>
      obtain ⟨b', hb', hd⟩ := extendedHandshake_roundtrip s (fun m => hm s m rfl)
      simp only [Message.encode, ExtendedMessage.encode, hb', bind, Except.bind, pure, Except.pure, Except.ok.injEq] at h
      subst h
      unfold Message.decode
      rw [coreMessage_roundtrip]
      simp [bind, Except.bind, pure, Except.pure, ExtendedMessage.decode, hd]
    | metadata m =>
      obtain ⟨b', hb', hd⟩ := metadata_roundtrip m (fun t ht => hunk t (by rw [ht]))
      cases hc : r.getMessageId .metadata with
      | none => simp [Message.encode, ExtendedMessage.encode, hc, bind, Except.bind] at h
      | some c =>
        obtain ⟨hc0, hc'⟩ := hr c hc
        simp only [Message.encode, ExtendedMessage.encode, hc, hb', bind, Except.bind, pure, Except.pure, Except.ok.injEq] at h
        subst h
        unfold Message.decode
        rw [coreMessage_roundtrip]
        simp only [bind, Except.bind, pure, Except.pure, ExtendedMessage.decode, if_neg hc0, hc', hd]

/-- **C08.** A metadata message cannot be sent to a peer that did not register `ut_metadata`; nothing else fails. -/
theorem message_encode_error (msg : Message) (r : Bep10Registry) (e : MessageEncodeError)
    (hm : ∀ s m, msg = .extended (.handshake s) → s.m = some m → TextSorted m)
    (h : msg.encode r = .error e) :
    e = .notRegistered .metadata ∧ (∃ m, msg = .extended (.metadata m)) ∧ r.getMessageId .metadata = none := by
  cases msg with
  | core m => simp [Message.encode] at h
  | extended m =>
    cases m with
    | handshake s =>
      obtain ⟨b', hb', hd⟩ := extendedHandshake_roundtrip s (fun m => hm s m rfl)
      simp [Message.encode, ExtendedMessage.encode, hb', bind, Except.bind, pure, Except.pure] at h
    | metadata m =>
      cases hc : r.getMessageId .metadata with
      | none =>
        simp only [Message.encode, ExtendedMessage.encode, hc, bind, Except.bind, Except.error.injEq] at h
        exact ⟨h.symm, ⟨m, rfl⟩, rfl⟩
      | some c =>
        simp [Message.encode, ExtendedMessage.encode, hc, metadata_encode_spec m, bind, Except.bind, pure, Except.pure] at h

/-! ### Concrete cases -/

example : (ExtendedHandshake.mk (some true) (some [("ut_metadata".toList, 42)]) (some "x".toList) (some 5)
    (some (.v4 ⟨0x7f000001⟩))).encode =
    some (keyBytes "d1:ei1e1:md11:ut_metadatai42ee13:metadata_sizei5e1:v1:x6:yourip4:" ++ [127, 0, 0, 1] ++ keyBytes "e") := by
  decide +kernel

example : (MetadataMessage.data 3 40000 (keyBytes "d1:ae")).encode =
    some (keyBytes "d8:msg_typei1e5:piecei3e10:total_sizei40000eed1:ae") := by
  decide +kernel

example : MetadataMessage.decode (keyBytes "d8:msg_typei1e5:piecei3e10:total_sizei40000eed1:ae") =
    .ok (.data 3 40000 (keyBytes "d1:ae")) := by
  decide +kernel

/-- The encoding of an `unknown` message, which is never sent, cannot be decoded: it has no `piece`. -/
example : MetadataMessage.decode (keyBytes "d8:msg_typei7ee") = .error (.metadata .bendy) := by
  decide +kernel

end Demag.Props
