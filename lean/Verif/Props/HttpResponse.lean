import Verif.Lemmas.HttpFields
import Verif.Props.Bencode

/-!
# C27: responses of HTTP trackers
-/

namespace Demag.Props

open Demag Spec

/-- The fields before they are combined. -/
structure RawFields where
  interval : Option (BitVec 32) := none
  peers : Option (List Peer) := none
  peers6 : Option (List Peer) := none
  warningMessage : Option Text := none
  minInterval : Option (BitVec 32) := none
  trackerId : Option Bytes := none
  complete : Option (BitVec 32) := none
  incomplete : Option (BitVec 32) := none
  cryptoFlags : Option Bytes := none

def RawFields.readPair (lossy : Bytes → Text) (parseIp : Text → Option IpAddr) (s : RawFields) (kv : Bytes × Ben) :
    Option RawFields :=
  if kv.1 = key "interval" then (benUint 32 kv.2).map fun x => { s with interval := some x }
  else if kv.1 = key "crypto_flags" then (benBytes kv.2).map fun x => { s with cryptoFlags := some x }
  else if kv.1 = key "peers" then (benPeers parseIp kv.2).map fun x => { s with peers := some x }
  else if kv.1 = key "peers6" then (benPeers6 kv.2).map fun x => { s with peers6 := some x }
  else if kv.1 = key "warning message" then ((benBytes kv.2).map lossy).map fun x => { s with warningMessage := some x }
  else if kv.1 = key "min interval" then (benUint 32 kv.2).map fun x => { s with minInterval := some x }
  else if kv.1 = key "tracker id" then (benBytes kv.2).map fun x => { s with trackerId := some x }
  else if kv.1 = key "complete" then (benUint 32 kv.2).map fun x => { s with complete := some x }
  else if kv.1 = key "incomplete" then (benUint 32 kv.2).map fun x => { s with incomplete := some x }
  else some s

/-- The peers of `peers` with their flags. -/
def RawFields.flagged (s : RawFields) : List Peer :=
  match s.cryptoFlags with
  | some f => setCrypto (s.peers.getD []) (f.map fun x => x != 0)
  | none => s.peers.getD []

def RawFields.toFields (s : RawFields) : HttpFields :=
  { interval := s.interval, peers := s.flagged ++ s.peers6.getD [], warningMessage := s.warningMessage,
    minInterval := s.minInterval, trackerId := s.trackerId, complete := s.complete, incomplete := s.incomplete,
    cryptoFlags := s.cryptoFlags.map fun f => f.map fun x => x != 0 }

theorem setCrypto_nil (fs : List Bool) : setCrypto [] fs = [] := by cases fs <;> rfl

theorem readPair_sim (lossy : Bytes → Text) (parseIp : Text → Option IpAddr) (s : RawFields) (k : Bytes) (v : Ben)
    (h1 : s.peers ≠ none → bytesLt (key "peers") k = true) (h2 : s.peers6 ≠ none → bytesLt (key "peers6") k = true) :
    s.toFields.readPair lossy parseIp (k, v) = (s.readPair lossy parseIp (k, v)).map RawFields.toFields := by
  unfold HttpFields.readPair RawFields.readPair
  by_cases e1 : k = key "interval"
  · simp only [e1, if_true]; cases benUint 32 v <;> rfl
  simp only [e1, if_false]
  by_cases e2 : k = key "crypto_flags"
  · have hp : s.peers = none := by
      cases e : s.peers with
      | none => rfl
      | some x => exact absurd (h1 (by simp [e])) (by rw [e2]; decide)
    simp only [e2, if_true]
    cases benBytes v with
    | none => rfl
    | some b =>
      simp only [Option.map_some, RawFields.toFields, RawFields.flagged, hp, Option.getD_none, setCrypto_nil]
      cases s.cryptoFlags <;> rfl
  simp only [e2, if_false]
  by_cases e3 : k = key "peers"
  · have hp : s.peers = none := by
      cases e : s.peers with
      | none => rfl
      | some x => exact absurd (h1 (by simp [e])) (by rw [e3]; decide)
    have hp6 : s.peers6 = none := by
      cases e : s.peers6 with
      | none => rfl
      | some x => exact absurd (h2 (by simp [e])) (by rw [e3]; decide)
    simp only [e3, if_true]
    cases benPeers parseIp v with
    | none => rfl
    | some ps =>
      simp only [Option.map_some, RawFields.toFields, RawFields.flagged, hp, hp6, Option.getD_none]
      cases s.cryptoFlags <;> simp [setCrypto_nil]
  simp only [e3, if_false]
  by_cases e4 : k = key "peers6"
  · have hp6 : s.peers6 = none := by
      cases e : s.peers6 with
      | none => rfl
      | some x => exact absurd (h2 (by simp [e])) (by rw [e4]; decide)
    simp only [e4, if_true]
    cases benPeers6 v with
    | none => rfl
    | some ps =>
      simp only [Option.map_some, RawFields.toFields, hp6, Option.getD_none, Option.getD_some, List.append_nil]
      rfl
  simp only [e4, if_false]
  by_cases e5 : k = key "warning message"
  · simp only [e5, if_true]; cases benBytes v <;> rfl
  simp only [e5, if_false]
  by_cases e6 : k = key "min interval"
  · simp only [e6, if_true]; cases benUint 32 v <;> rfl
  simp only [e6, if_false]
  by_cases e7 : k = key "tracker id"
  · simp only [e7, if_true]; cases benBytes v <;> rfl
  simp only [e7, if_false]
  by_cases e8 : k = key "complete"
  · simp only [e8, if_true]; cases benUint 32 v <;> rfl
  simp only [e8, if_false]
  by_cases e9 : k = key "incomplete"
  · simp only [e9, if_true]; cases benUint 32 v <;> rfl
  simp only [e9, if_false, Option.map_some]

theorem raw_keeps (lossy : Bytes → Text) (parseIp : Text → Option IpAddr) (s s' : RawFields) (k : Bytes) (v : Ben)
    (h : s.readPair lossy parseIp (k, v) = some s') :
    (s'.peers ≠ none → s.peers ≠ none ∨ k = key "peers") ∧ (s'.peers6 ≠ none → s.peers6 ≠ none ∨ k = key "peers6") := by
  unfold RawFields.readPair at h
  (repeat' split at h) <;> first
    | (cases h; exact ⟨.inl, .inl⟩)
    | (obtain ⟨x, hx, hs⟩ := Option.map_eq_some_iff.1 h
       subst hs
       rename_i hk
       first
         | exact ⟨.inl, .inl⟩
         | exact ⟨fun _ => .inr hk, .inl⟩
         | exact ⟨.inl, fun _ => .inr hk⟩)

theorem fold_sim (lossy : Bytes → Text) (parseIp : Text → Option IpAddr) (kvs : List (Bytes × Ben)) (hs : SortedKeys kvs)
    (s : RawFields) (h1 : s.peers ≠ none → ∀ kv ∈ kvs, bytesLt (key "peers") kv.1 = true)
    (h2 : s.peers6 ≠ none → ∀ kv ∈ kvs, bytesLt (key "peers6") kv.1 = true) :
    kvs.foldlM (HttpFields.readPair lossy parseIp) s.toFields =
      (kvs.foldlM (RawFields.readPair lossy parseIp) s).map RawFields.toFields := by
  induction kvs generalizing s with
  | nil => rfl
  | cons kv kvs ih =>
    obtain ⟨k, v⟩ := kv
    rw [sortedKeys_cons'] at hs
    rw [List.foldlM_cons, List.foldlM_cons, readPair_sim lossy parseIp s k v (fun h => h1 h (k, v) (List.mem_cons_self ..))
      (fun h => h2 h (k, v) (List.mem_cons_self ..))]
    cases e : s.readPair lossy parseIp (k, v) with
    | none => rfl
    | some s' =>
      obtain ⟨g1, g2⟩ := raw_keeps lossy parseIp s s' k v e
      refine ih hs.2 s' (fun h kv hkv => ?_) (fun h kv hkv => ?_)
      · rcases g1 h with h | rfl
        · exact h1 h kv (List.mem_cons_of_mem _ hkv)
        · exact hs.1 kv hkv
      · rcases g2 h with h | rfl
        · exact h2 h kv (List.mem_cons_of_mem _ hkv)
        · exact hs.1 kv hkv

/-- What the nine fields are. -/
structure RawIs (lossy : Bytes → Text) (parseIp : Text → Option IpAddr) (kvs : List (Bytes × Ben)) (s : RawFields) : Prop where
  interval : fieldIs (key "interval") kvs (benUint 32) s.interval
  cryptoFlags : fieldIs (key "crypto_flags") kvs benBytes s.cryptoFlags
  peers : fieldIs (key "peers") kvs (benPeers parseIp) s.peers
  peers6 : fieldIs (key "peers6") kvs benPeers6 s.peers6
  warningMessage : fieldIs (key "warning message") kvs (fun v => (benBytes v).map lossy) s.warningMessage
  minInterval : fieldIs (key "min interval") kvs (benUint 32) s.minInterval
  trackerId : fieldIs (key "tracker id") kvs benBytes s.trackerId
  complete : fieldIs (key "complete") kvs (benUint 32) s.complete
  incomplete : fieldIs (key "incomplete") kvs (benUint 32) s.incomplete

theorem raw_interval (lossy : Bytes → Text) (parseIp : Text → Option IpAddr) (kvs : List (Bytes × Ben)) (hn : NodupKeys kvs)
    (s : RawFields) (h : kvs.foldlM (RawFields.readPair lossy parseIp) {} = some s) :
    fieldIs (key "interval") kvs (benUint 32) s.interval := by
  refine foldlM_fieldIs (·.interval) _ _ ?_ ?_ kvs hn {} s h rfl
  · field_hit RawFields.readPair
  · field_miss RawFields.readPair

theorem raw_cryptoFlags (lossy : Bytes → Text) (parseIp : Text → Option IpAddr) (kvs : List (Bytes × Ben)) (hn : NodupKeys kvs)
    (s : RawFields) (h : kvs.foldlM (RawFields.readPair lossy parseIp) {} = some s) :
    fieldIs (key "crypto_flags") kvs (benBytes) s.cryptoFlags := by
  refine foldlM_fieldIs (·.cryptoFlags) _ _ ?_ ?_ kvs hn {} s h rfl
  · field_hit RawFields.readPair
  · field_miss RawFields.readPair

theorem raw_peers (lossy : Bytes → Text) (parseIp : Text → Option IpAddr) (kvs : List (Bytes × Ben)) (hn : NodupKeys kvs)
    (s : RawFields) (h : kvs.foldlM (RawFields.readPair lossy parseIp) {} = some s) :
    fieldIs (key "peers") kvs (benPeers parseIp) s.peers := by
  refine foldlM_fieldIs (·.peers) _ _ ?_ ?_ kvs hn {} s h rfl
  · field_hit RawFields.readPair
  · field_miss RawFields.readPair

theorem raw_peers6 (lossy : Bytes → Text) (parseIp : Text → Option IpAddr) (kvs : List (Bytes × Ben)) (hn : NodupKeys kvs)
    (s : RawFields) (h : kvs.foldlM (RawFields.readPair lossy parseIp) {} = some s) :
    fieldIs (key "peers6") kvs (benPeers6) s.peers6 := by
  refine foldlM_fieldIs (·.peers6) _ _ ?_ ?_ kvs hn {} s h rfl
  · field_hit RawFields.readPair
  · field_miss RawFields.readPair

theorem raw_warningMessage (lossy : Bytes → Text) (parseIp : Text → Option IpAddr) (kvs : List (Bytes × Ben)) (hn : NodupKeys kvs)
    (s : RawFields) (h : kvs.foldlM (RawFields.readPair lossy parseIp) {} = some s) :
    fieldIs (key "warning message") kvs (fun v => (benBytes v).map lossy) s.warningMessage := by
  refine foldlM_fieldIs (·.warningMessage) _ _ ?_ ?_ kvs hn {} s h rfl
  · field_hit RawFields.readPair
  · field_miss RawFields.readPair

theorem raw_minInterval (lossy : Bytes → Text) (parseIp : Text → Option IpAddr) (kvs : List (Bytes × Ben)) (hn : NodupKeys kvs)
    (s : RawFields) (h : kvs.foldlM (RawFields.readPair lossy parseIp) {} = some s) :
    fieldIs (key "min interval") kvs (benUint 32) s.minInterval := by
  refine foldlM_fieldIs (·.minInterval) _ _ ?_ ?_ kvs hn {} s h rfl
  · field_hit RawFields.readPair
  · field_miss RawFields.readPair

theorem raw_trackerId (lossy : Bytes → Text) (parseIp : Text → Option IpAddr) (kvs : List (Bytes × Ben)) (hn : NodupKeys kvs)
    (s : RawFields) (h : kvs.foldlM (RawFields.readPair lossy parseIp) {} = some s) :
    fieldIs (key "tracker id") kvs (benBytes) s.trackerId := by
  refine foldlM_fieldIs (·.trackerId) _ _ ?_ ?_ kvs hn {} s h rfl
  · field_hit RawFields.readPair
  · field_miss RawFields.readPair

theorem raw_complete (lossy : Bytes → Text) (parseIp : Text → Option IpAddr) (kvs : List (Bytes × Ben)) (hn : NodupKeys kvs)
    (s : RawFields) (h : kvs.foldlM (RawFields.readPair lossy parseIp) {} = some s) :
    fieldIs (key "complete") kvs (benUint 32) s.complete := by
  refine foldlM_fieldIs (·.complete) _ _ ?_ ?_ kvs hn {} s h rfl
  · field_hit RawFields.readPair
  · field_miss RawFields.readPair

theorem raw_incomplete (lossy : Bytes → Text) (parseIp : Text → Option IpAddr) (kvs : List (Bytes × Ben)) (hn : NodupKeys kvs)
    (s : RawFields) (h : kvs.foldlM (RawFields.readPair lossy parseIp) {} = some s) :
    fieldIs (key "incomplete") kvs (benUint 32) s.incomplete := by
  refine foldlM_fieldIs (·.incomplete) _ _ ?_ ?_ kvs hn {} s h rfl
  · field_hit RawFields.readPair
  · field_miss RawFields.readPair

theorem rawFields_fold (lossy : Bytes → Text) (parseIp : Text → Option IpAddr) (kvs : List (Bytes × Ben)) (hn : NodupKeys kvs)
    (s : RawFields) : kvs.foldlM (RawFields.readPair lossy parseIp) {} = some s ↔ RawIs lossy parseIp kvs s := by
  have forward : ∀ s, kvs.foldlM (RawFields.readPair lossy parseIp) {} = some s → RawIs lossy parseIp kvs s := by
    intro s h
    exact ⟨raw_interval lossy parseIp kvs hn s h, raw_cryptoFlags lossy parseIp kvs hn s h, raw_peers lossy parseIp kvs hn s h, raw_peers6 lossy parseIp kvs hn s h, raw_warningMessage lossy parseIp kvs hn s h, raw_minInterval lossy parseIp kvs hn s h, raw_trackerId lossy parseIp kvs hn s h, raw_complete lossy parseIp kvs hn s h, raw_incomplete lossy parseIp kvs hn s h⟩
  constructor
  · exact forward s
  · intro hr
    have hs : (kvs.foldlM (RawFields.readPair lossy parseIp) {}).isSome := by
      apply foldlM_isSome
      intro kv hkv s
      obtain ⟨k, v⟩ := kv
      unfold RawFields.readPair
      repeat' split
      · rename_i hk; rw [Option.isSome_map]; exact fieldIs_mem hn hr.interval hkv hk
      · rename_i hk; rw [Option.isSome_map]; exact fieldIs_mem hn hr.cryptoFlags hkv hk
      · rename_i hk; rw [Option.isSome_map]; exact fieldIs_mem hn hr.peers hkv hk
      · rename_i hk; rw [Option.isSome_map]; exact fieldIs_mem hn hr.peers6 hkv hk
      · rename_i hk; rw [Option.isSome_map]; exact fieldIs_mem hn hr.warningMessage hkv hk
      · rename_i hk; rw [Option.isSome_map]; exact fieldIs_mem hn hr.minInterval hkv hk
      · rename_i hk; rw [Option.isSome_map]; exact fieldIs_mem hn hr.trackerId hkv hk
      · rename_i hk; rw [Option.isSome_map]; exact fieldIs_mem hn hr.complete hkv hk
      · rename_i hk; rw [Option.isSome_map]; exact fieldIs_mem hn hr.incomplete hkv hk
      · rfl
    obtain ⟨s', hs'⟩ := Option.isSome_iff_exists.1 hs
    rw [hs']
    have g := forward s' hs'
    have u1 := fieldIs_unique g.interval hr.interval
    have u2 := fieldIs_unique g.cryptoFlags hr.cryptoFlags
    have u3 := fieldIs_unique g.peers hr.peers
    have u4 := fieldIs_unique g.peers6 hr.peers6
    have u5 := fieldIs_unique g.warningMessage hr.warningMessage
    have u6 := fieldIs_unique g.minInterval hr.minInterval
    have u7 := fieldIs_unique g.trackerId hr.trackerId
    have u8 := fieldIs_unique g.complete hr.complete
    have u9 := fieldIs_unique g.incomplete hr.incomplete
    congr 1
    obtain ⟨⟩ := s
    obtain ⟨⟩ := s'
    simp only at u1 u2 u3 u4 u5 u6 u7 u8 u9
    subst u1 u2 u3 u4 u5 u6 u7 u8 u9
    rfl

/-! ### The flags -/

theorem setCrypto_length (ps : List Peer) (fs : List Bool) : (setCrypto ps fs).length = ps.length := by
  induction ps generalizing fs with
  | nil => rw [setCrypto_nil]
  | cons p ps ih => cases fs <;> simp [setCrypto, ih]

theorem setCrypto_get (ps : List Peer) (fs : List Bool) (i : Nat) :
    (setCrypto ps fs)[i]? = ps[i]?.map fun p => if fs[i]? = some true then { p with requiresCrypto := true } else p := by
  induction ps generalizing fs i with
  | nil => simp [setCrypto_nil]
  | cons p ps ih =>
    cases fs with
    | nil => simp [setCrypto]
    | cons f fs =>
      cases i with
      | zero => cases f <;> simp [setCrypto]
      | succ i => simp only [setCrypto, List.getElem?_cons_succ]; exact ih fs i

theorem annotated_setCrypto (flags : Bytes) (ps qs : List Peer) (hplain : ∀ p ∈ ps, p.requiresCrypto = false) :
    qs = setCrypto ps (flags.map fun x => x != 0) ↔
      qs.length = ps.length ∧ ∀ i p q, ps[i]? = some p → qs[i]? = some q → Annotated flags i p q := by
  have point : ∀ i p q, ps[i]? = some p →
      (some q = (if (flags.map fun x => x != 0)[i]? = some true then some { p with requiresCrypto := true } else some p) ↔
        Annotated flags i p q) := by
    intro i p q hp
    have hpl := hplain p (List.mem_of_getElem? hp)
    obtain ⟨pa, pi, pr⟩ := p
    obtain ⟨qa, qi, qr⟩ := q
    simp only at hpl
    subst hpl
    simp only [List.getElem?_map, Annotated]
    cases e : flags[i]? with
    | none => simp
    | some f =>
      by_cases hf : f = 0
      · subst hf; simp
      · simp [hf]
  constructor
  · rintro rfl
    refine ⟨setCrypto_length _ _, ?_⟩
    intro i p q hp hq
    rw [setCrypto_get, hp, Option.map_some] at hq
    apply (point i p q hp).1
    rw [← hq]
    split <;> rfl
  · rintro ⟨hl, h⟩
    apply List.ext_getElem?
    intro i
    rw [setCrypto_get]
    cases hp : ps[i]? with
    | none =>
      rw [List.getElem?_eq_none_iff] at hp
      simp only [Option.map_none, List.getElem?_eq_none_iff]
      omega
    | some p =>
      cases hq : qs[i]? with
      | none =>
        rw [List.getElem?_eq_none_iff] at hq
        have := (List.getElem?_eq_some_iff.1 hp).1
        omega
      | some q =>
        rw [(point i p q hp).2 (h i p q hp hq), Option.map_some]
        split <;> rfl

theorem setCrypto_none (ps : List Peer) : setCrypto ps [] = ps := by cases ps <;> rfl

theorem flagged_eq (s : RawFields) :
    s.flagged = setCrypto (s.peers.getD []) ((s.cryptoFlags.getD []).map fun x => x != 0) := by
  unfold RawFields.flagged
  cases s.cryptoFlags with
  | none => simp [setCrypto_none]
  | some f => rfl

theorem isPeers_plain {parseIp : Text → Option IpAddr} {v : Ben} {ps : List Peer} (h : IsPeers parseIp v ps) :
    ∀ p ∈ ps, p.requiresCrypto = false := by
  rcases h with ⟨l, -, h⟩ | ⟨b, as, -, -, h⟩
  · induction h with
    | nil => simp
    | cons h1 _ ih =>
      intro p hp
      rcases List.mem_cons.1 hp with rfl | hp
      · obtain ⟨_, _, _, _, _, _, _, _, h⟩ := h1; exact h
      · exact ih p hp
  · induction h with
    | nil => simp
    | cons h1 _ ih =>
      intro p hp
      rcases List.mem_cons.1 hp with rfl | hp
      · exact h1.2.2
      · exact ih p hp

/-! ### The loop -/

theorem httpLoop_success (lossy : Bytes → Text) (parseIp : Text → Option IpAddr) (kvs : List (Bytes × Ben)) (s : HttpFields)
    (h : ∀ kv ∈ kvs, kv.1 ≠ key "failure reason") :
    httpLoop lossy parseIp s kvs = (kvs.foldlM (HttpFields.readPair lossy parseIp) s).bind fun s => httpLoop lossy parseIp s [] := by
  induction kvs generalizing s with
  | nil => rfl
  | cons kv kvs ih =>
    obtain ⟨k, v⟩ := kv
    rw [httpLoop, if_neg (h (k, v) (List.mem_cons_self ..)), List.foldlM_cons]
    cases e : s.readPair lossy parseIp (k, v) with
    | none => rfl
    | some s' => exact ih s' (fun kv hkv => h kv (List.mem_cons_of_mem _ hkv))

theorem httpLoop_failure (lossy : Bytes → Text) (parseIp : Text → Option IpAddr) (pre post : List (Bytes × Ben)) (v : Ben)
    (s : HttpFields) (h : ∀ kv ∈ pre, kv.1 ≠ key "failure reason") :
    httpLoop lossy parseIp s (pre ++ (key "failure reason", v) :: post) =
      (pre.foldlM (HttpFields.readPair lossy parseIp) s).bind fun _ => (benBytes v).map fun b => .failure (lossy b) := by
  induction pre generalizing s with
  | nil => rw [List.nil_append, httpLoop, if_pos rfl]; rfl
  | cons kv pre ih =>
    obtain ⟨k, w⟩ := kv
    rw [List.cons_append, httpLoop, if_neg (h (k, w) (List.mem_cons_self ..)), List.foldlM_cons]
    cases e : s.readPair lossy parseIp (k, w) with
    | none => rfl
    | some s' => exact ih s' (fun kv hkv => h kv (List.mem_cons_of_mem _ hkv))

theorem lookup_none_iff (k : Bytes) (kvs : List (Bytes × Ben)) : lookup k kvs = none ↔ ∀ kv ∈ kvs, kv.1 ≠ k := by
  rw [lookup_eq_get, HMap.get_none_iff]
  simp only [List.mem_map, not_exists, not_and, ne_eq]

theorem lookup_split {k : Bytes} {kvs : List (Bytes × Ben)} {v : Ben} (h : lookup k kvs = some v) :
    ∃ pre post, kvs = pre ++ (k, v) :: post ∧ ∀ kv ∈ pre, kv.1 ≠ k := by
  induction kvs with
  | nil => cases h
  | cons kv kvs ih =>
    obtain ⟨k', v'⟩ := kv
    rw [lookup_cons] at h
    split at h
    · rename_i e; cases h; simp only at e; subst e; exact ⟨[], kvs, rfl, by simp⟩
    · rename_i hne
      obtain ⟨pre, post, rfl, hp⟩ := ih h
      refine ⟨(k', v') :: pre, post, rfl, ?_⟩
      intro kv hkv
      rcases List.mem_cons.1 hkv with rfl | hkv
      · exact hne
      · exact hp kv hkv

theorem finish_success (lossy : Bytes → Text) (parseIp : Text → Option IpAddr) (s : HttpFields) (r : AnnounceResponse) :
    httpLoop lossy parseIp s [] = some (.success r) ↔
      s.interval = some r.interval ∧ s.peers = r.peers ∧ s.warningMessage = r.warningMessage ∧ s.minInterval = r.minInterval ∧
      s.trackerId = r.trackerId ∧ s.complete = r.complete ∧ s.incomplete = r.incomplete ∧ r.leechers = none ∧
      r.seeders = none := by
  obtain ⟨⟩ := r
  unfold httpLoop
  cases s.interval with
  | none => simp
  | some i =>
    simp only [Option.map_some, Option.some.injEq, HttpAnnounceResponse.success.injEq, AnnounceResponse.mk.injEq]
    constructor
    · rintro ⟨h1, h2, h3, h4, h5, h6, h7, h8, h9⟩; exact ⟨h1, h2, h3, h4, h5, h6, h7, h8.symm, h9.symm⟩
    · rintro ⟨h1, h2, h3, h4, h5, h6, h7, h8, h9⟩; exact ⟨h1, h2, h3, h4, h5, h6, h7, h8.symm, h9.symm⟩

theorem optField_not_some {α : Type} {k : String} {kvs : List (Bytes × Ben)} {P : Ben → α → Prop} {x : Option α}
    (h : OptField k kvs P x) : ∀ a, x = some a → ∃ v, P v a := by
  rintro a rfl
  obtain ⟨v, -, h⟩ := optField_some.1 h
  exact ⟨v, h⟩

theorem lossyBytes_iff (lossy : Bytes → Text) (v : Ben) (t : Text) :
    (benBytes v).map lossy = some t ↔ ∃ b, v = .bytes b ∧ t = lossy b := by
  cases v <;> simp [benBytes, eq_comm]

theorem http_success_iff (lossy : Bytes → Text) (parseIp : Text → Option IpAddr) (kvs : List (Bytes × Ben))
    (hs : SortedKeys kvs) (hc : CanonicalDict kvs) (r : AnnounceResponse) :
    httpLoop lossy parseIp {} kvs = some (.success r) ↔ DenotesResponse lossy parseIp kvs r := by
  have hpeers : ∀ v (a : List Peer), lookup (keyBytes "peers") kvs = some v → (benPeers parseIp v = some a ↔ IsPeers parseIp v a) :=
    fun v a hl => benPeers_iff parseIp v (canonical_lookup hc hl) a
  have hsim := fold_sim lossy parseIp kvs hs {} (by simp) (by simp)
  have h0 : ({} : RawFields).toFields = {} := rfl
  rw [h0] at hsim
  constructor
  · intro h
    have hno : lookup (keyBytes "failure reason") kvs = none := by
      cases e : lookup (keyBytes "failure reason") kvs with
      | none => rfl
      | some v =>
        obtain ⟨pre, post, rfl, hp⟩ := lookup_split e
        rw [show keyBytes "failure reason" = key "failure reason" from rfl] at h hp
        rw [httpLoop_failure lossy parseIp pre post v {} hp] at h
        cases e1 : pre.foldlM (HttpFields.readPair lossy parseIp) {} with
        | none => rw [e1] at h; cases h
        | some s =>
          rw [e1, Option.bind_some] at h
          obtain ⟨b, -, h⟩ := Option.map_eq_some_iff.1 h
          cases h
    rw [httpLoop_success lossy parseIp kvs {} ((lookup_none_iff _ _).1 hno), hsim] at h
    obtain ⟨f, hf, hfin⟩ := Option.bind_eq_some_iff.1 h
    obtain ⟨raw, hraw, rfl⟩ := Option.map_eq_some_iff.1 hf
    have hr := (rawFields_fold lossy parseIp kvs (sortedKeys_nodup hs) raw).1 hraw
    obtain ⟨f1, f2, f3, f4, f5, f6, f7, f8, f9⟩ := (finish_success lossy parseIp _ r).1 hfin
    simp only [RawFields.toFields] at f1 f2 f3 f4 f5 f6 f7
    have i1 := (fieldIs_iff "interval" kvs _ (IsUint 32) (fun v a _ => benUint_iff v a) _).1 hr.interval
    rw [f1] at i1
    have ip := (fieldIs_iff "peers" kvs _ (IsPeers parseIp) hpeers _).1 hr.peers
    refine ⟨hno, optField_some.1 i1, ⟨raw.cryptoFlags, raw.peers, raw.peers6,
      (fieldIs_iff "crypto_flags" kvs _ IsBytes (fun v a _ => benBytes_iff v a) _).1 hr.cryptoFlags, ip,
      (fieldIs_iff "peers6" kvs _ IsPeers6 (fun v a _ => benPeers6_iff v a) _).1 hr.peers6,
      raw.flagged, f2.symm, ?_⟩, ?_, ?_, ?_, ?_, ?_, f8, f9⟩
    · refine (annotated_setCrypto (raw.cryptoFlags.getD []) (raw.peers.getD []) raw.flagged ?_).1 (flagged_eq raw)
      intro p hp
      cases e : raw.peers with
      | none => rw [e] at hp; cases hp
      | some ps =>
        rw [e] at hp ip
        obtain ⟨v, hv⟩ := optField_not_some ip ps rfl
        exact isPeers_plain hv p hp
    · rw [← f3]; exact (fieldIs_iff "warning message" kvs _ _ (fun v a _ => lossyBytes_iff lossy v a) _).1 hr.warningMessage
    · rw [← f4]; exact (fieldIs_iff "min interval" kvs _ _ (fun v a _ => benUint_iff v a) _).1 hr.minInterval
    · rw [← f5]; exact (fieldIs_iff "tracker id" kvs _ _ (fun v a _ => benBytes_iff v a) _).1 hr.trackerId
    · rw [← f6]; exact (fieldIs_iff "complete" kvs _ _ (fun v a _ => benUint_iff v a) _).1 hr.complete
    · rw [← f7]; exact (fieldIs_iff "incomplete" kvs _ _ (fun v a _ => benUint_iff v a) _).1 hr.incomplete
  · intro h
    obtain ⟨flags, ps, ps6, hf, hp, hp6, qs, hq, hl, ha⟩ := h.peers
    rw [httpLoop_success lossy parseIp kvs {} ((lookup_none_iff _ _).1 h.noFailure), hsim]
    have hr : RawIs lossy parseIp kvs ⟨some r.interval, ps, ps6, r.warningMessage, r.minInterval, r.trackerId, r.complete,
        r.incomplete, flags⟩ :=
      ⟨(fieldIs_iff "interval" kvs _ (IsUint 32) (fun v a _ => benUint_iff v a) _).2 (optField_some.2 h.interval),
       (fieldIs_iff "crypto_flags" kvs _ IsBytes (fun v a _ => benBytes_iff v a) _).2 hf,
       (fieldIs_iff "peers" kvs _ (IsPeers parseIp) hpeers _).2 hp,
       (fieldIs_iff "peers6" kvs _ IsPeers6 (fun v a _ => benPeers6_iff v a) _).2 hp6,
       (fieldIs_iff "warning message" kvs _ _ (fun v a _ => lossyBytes_iff lossy v a) _).2 h.warningMessage,
       (fieldIs_iff "min interval" kvs _ _ (fun v a _ => benUint_iff v a) _).2 h.minInterval,
       (fieldIs_iff "tracker id" kvs _ _ (fun v a _ => benBytes_iff v a) _).2 h.trackerId,
       (fieldIs_iff "complete" kvs _ _ (fun v a _ => benUint_iff v a) _).2 h.complete,
       (fieldIs_iff "incomplete" kvs _ _ (fun v a _ => benUint_iff v a) _).2 h.incomplete⟩
    rw [(rawFields_fold lossy parseIp kvs (sortedKeys_nodup hs) _).2 hr, Option.map_some, Option.bind_some, finish_success]
    refine ⟨rfl, ?_, rfl, rfl, rfl, rfl, rfl, h.others.1, h.others.2⟩
    simp only [RawFields.toFields, flagged_eq]
    rw [hq, (annotated_setCrypto (flags.getD []) (ps.getD []) qs ?_).2 ⟨hl, ha⟩]
    intro p hp'
    cases e : ps with
    | none => rw [e] at hp'; cases hp'
    | some l =>
      rw [e] at hp' hp
      obtain ⟨v, hv⟩ := optField_not_some hp l rfl
      exact isPeers_plain hv p hp'

theorem mem_lookup {kvs : List (Bytes × Ben)} (hn : NodupKeys kvs) {kv : Bytes × Ben} (h : kv ∈ kvs) :
    lookup kv.1 kvs = some kv.2 := by
  rw [lookup_eq_get]; exact HMap.mem_get hn h

theorem sorted_before {pre post : List (Bytes × Ben)} {kv : Bytes × Ben} (h : SortedKeys (pre ++ kv :: post)) :
    ∀ x ∈ pre, bytesLt x.1 kv.1 = true := by
  induction pre with
  | nil => simp
  | cons y pre ih =>
    rw [List.cons_append, sortedKeys_cons'] at h
    intro x hx
    rcases List.mem_cons.1 hx with rfl | hx
    · exact h.1 kv (by simp)
    · exact ih h.2 x hx

theorem optField_exists {α : Type} {k : String} {kvs : List (Bytes × Ben)} {P : Ben → α → Prop}
    (h : ∀ v, lookup (keyBytes k) kvs = some v → ∃ a, P v a) : ∃ x, OptField k kvs P x := by
  unfold OptField
  cases e : lookup (keyBytes k) kvs with
  | none => exact ⟨none, trivial⟩
  | some v => obtain ⟨a, ha⟩ := h v e; exact ⟨some a, ha⟩

theorem fold_ok_mem {σ : Type} {step : σ → Bytes × Ben → Option σ} {kvs : List (Bytes × Ben)} {s s' : σ}
    (h : kvs.foldlM step s = some s') : ∀ kv ∈ kvs, ∃ s, (step s kv).isSome := by
  induction kvs generalizing s with
  | nil => simp
  | cons kv kvs ih =>
    rw [List.foldlM_cons] at h
    cases e : step s kv with
    | none => rw [e] at h; cases h
    | some s1 =>
      rw [e] at h
      intro x hx
      rcases List.mem_cons.1 hx with rfl | hx
      · exact ⟨s, by rw [e]; rfl⟩
      · exact ih h x hx

theorem http_failure_iff (lossy : Bytes → Text) (parseIp : Text → Option IpAddr) (kvs : List (Bytes × Ben))
    (hs : SortedKeys kvs) (msg : Text) :
    httpLoop lossy parseIp {} kvs = some (.failure msg) ↔ DenotesFailure lossy kvs msg := by
  have hn := sortedKeys_nodup hs
  have kfr : keyBytes "failure reason" = key "failure reason" := rfl
  constructor
  · intro h
    cases e : lookup (keyBytes "failure reason") kvs with
    | none =>
      rw [httpLoop_success lossy parseIp kvs {} ((lookup_none_iff _ _).1 e)] at h
      obtain ⟨s, -, h⟩ := Option.bind_eq_some_iff.1 h
      unfold httpLoop at h
      obtain ⟨i, -, h⟩ := Option.map_eq_some_iff.1 h
      cases h
    | some v =>
      obtain ⟨pre, post, rfl, hp⟩ := lookup_split e
      rw [kfr] at hp
      rw [kfr, httpLoop_failure lossy parseIp pre post v {} hp] at h
      obtain ⟨s, hpre, h⟩ := Option.bind_eq_some_iff.1 h
      obtain ⟨b, hb, h⟩ := Option.map_eq_some_iff.1 h
      simp only [HttpAnnounceResponse.failure.injEq] at h
      have hstep := fold_ok_mem hpre
      have hmem : ∀ k w, k ≠ key "failure reason" → bytesLt k (key "failure reason") = true →
          lookup k (pre ++ (key "failure reason", v) :: post) = some w → (k, w) ∈ pre := by
        intro k w hk hlt hl
        obtain ⟨p2, q2, heq, -⟩ := lookup_split hl
        have hm : (k, w) ∈ pre ++ (key "failure reason", v) :: post := by rw [heq]; simp
        rcases List.mem_append.1 hm with hm | hm
        · exact hm
        · exfalso
          have hsort : SortedKeys ((key "failure reason", v) :: post) := by
            rw [kfr] at hs
            clear * - hs
            induction pre with
            | nil => exact hs
            | cons y pre ih => rw [List.cons_append, sortedKeys_cons'] at hs; exact ih hs.2
          rcases List.mem_cons.1 hm with hm | hm
          · cases hm; exact hk rfl
          · rw [sortedKeys_cons'] at hsort
            have := hsort.1 _ hm
            exact absurd (bytesLt_trans hlt this) (by rw [bytesLt_irrefl]; simp)
      refine ⟨⟨v, e, b, (benBytes_iff v b).1 hb, h.symm⟩, optField_exists ?_, optField_exists ?_⟩
      · intro w hw
        obtain ⟨s1, h1⟩ := hstep _ (hmem (key "complete") w (by decide) (by decide) hw)
        unfold HttpFields.readPair at h1
        simp (decide := true) only [↓reduceIte] at h1
        rw [Option.isSome_map] at h1
        obtain ⟨x, hx⟩ := Option.isSome_iff_exists.1 h1
        exact ⟨x, (benUint_iff w x).1 hx⟩
      · intro w hw
        obtain ⟨s1, h1⟩ := hstep _ (hmem (key "crypto_flags") w (by decide) (by decide) hw)
        unfold HttpFields.readPair at h1
        simp (decide := true) only [↓reduceIte] at h1
        rw [Option.isSome_map] at h1
        obtain ⟨x, hx⟩ := Option.isSome_iff_exists.1 h1
        exact ⟨x, (benBytes_iff w x).1 hx⟩
  · rintro ⟨⟨v, hl, b, rfl, rfl⟩, ⟨n, hcomp⟩, ⟨f, hflags⟩⟩
    obtain ⟨pre, post, rfl, hp⟩ := lookup_split hl
    rw [kfr] at hp hs hn hcomp hflags
    rw [kfr, httpLoop_failure lossy parseIp pre post _ {} hp]
    have hbefore := sorted_before hs
    have hf1 := (fieldIs_iff "complete" _ (benUint 32) (IsUint 32) (fun v a _ => benUint_iff v a) n).2 hcomp
    have hf2 := (fieldIs_iff "crypto_flags" _ benBytes IsBytes (fun v a _ => benBytes_iff v a) f).2 hflags
    have hok : (pre.foldlM (HttpFields.readPair lossy parseIp) {}).isSome := by
      apply foldlM_isSome
      intro kv hkv s
      have hlt := hbefore kv hkv
      have hall : kv ∈ pre ++ (key "failure reason", Ben.bytes b) :: post := List.mem_append_left _ hkv
      obtain ⟨k, w⟩ := kv
      simp only at hlt
      have ne : ∀ k', bytesLt k' (key "failure reason") = false → k ≠ k' := by
        rintro k' h rfl; rw [h] at hlt; cases hlt
      unfold HttpFields.readPair
      rw [if_neg (ne _ (by decide))]
      split
      · rename_i hk; rw [Option.isSome_map]; exact fieldIs_mem hn hf2 hall hk
      rw [if_neg (ne _ (by decide)), if_neg (ne _ (by decide)), if_neg (ne _ (by decide)), if_neg (ne _ (by decide)),
        if_neg (ne _ (by decide))]
      split
      · rename_i hk; rw [Option.isSome_map]; exact fieldIs_mem hn hf1 hall hk
      rw [if_neg (ne _ (by decide))]
      rfl
    obtain ⟨s, hs'⟩ := Option.isSome_iff_exists.1 hok
    rw [hs', Option.bind_some]
    rfl

/-! ### The results -/

/-- **C27.** The announcement succeeds exactly if the body is one canonically bencoded dictionary (at most 2048 levels deep)
without failure reason, whose fields denote the response: the peers listed, each with its own flag, followed by the IPv6
peers. -/
theorem httpResult_ok (lossy : Bytes → Text) (parseIp : Text → Option IpAddr) (body : Bytes) (r : AnnounceResponse) :
    httpResult lossy parseIp (.body body) = .ok r ↔
      ∃ kvs, body = benc (.dict kvs) ∧ Canonical (.dict kvs) ∧ depth (.dict kvs) ≤ 2048 ∧
        DenotesResponse lossy parseIp kvs r := by
  have h1 : httpResult lossy parseIp (.body body) = .ok r ↔
      decodeBencode bendyDefaultDepth (HttpAnnounceResponse.ofBen lossy parseIp) body = .ok (.success r) := by
    unfold httpResult
    simp only
    split <;> simp_all
  rw [h1, decodeBencode_spec]
  constructor
  · rintro ⟨v, hb, hc, hd, hf⟩
    cases v with
    | dict kvs =>
      refine ⟨kvs, hb, hc, hd, ?_⟩
      simp only [Canonical] at hc
      exact (http_success_iff lossy parseIp kvs hc.1 hc.2 r).1 hf
    | _ => cases hf
  · rintro ⟨kvs, hb, hc, hd, hf⟩
    refine ⟨_, hb, hc, hd, ?_⟩
    simp only [Canonical] at hc
    exact (http_success_iff lossy parseIp kvs hc.1 hc.2 r).2 hf

/-- **C27.** The tracker's message is reported exactly if the body is one canonically bencoded dictionary with a failure
reason (whatever else it has after it). -/
theorem httpResult_failure (lossy : Bytes → Text) (parseIp : Text → Option IpAddr) (body : Bytes) (msg : Text) :
    httpResult lossy parseIp (.body body) = .error (.failure msg) ↔
      ∃ kvs, body = benc (.dict kvs) ∧ Canonical (.dict kvs) ∧ depth (.dict kvs) ≤ 2048 ∧ DenotesFailure lossy kvs msg := by
  have h1 : httpResult lossy parseIp (.body body) = .error (.failure msg) ↔
      decodeBencode bendyDefaultDepth (HttpAnnounceResponse.ofBen lossy parseIp) body = .ok (.failure msg) := by
    unfold httpResult
    simp only
    split <;> simp_all
  rw [h1, decodeBencode_spec]
  constructor
  · rintro ⟨v, hb, hc, hd, hf⟩
    cases v with
    | dict kvs =>
      refine ⟨kvs, hb, hc, hd, ?_⟩
      simp only [Canonical] at hc
      exact (http_failure_iff lossy parseIp kvs hc.1 msg).1 hf
    | _ => cases hf
  · rintro ⟨kvs, hb, hc, hd, hf⟩
    refine ⟨_, hb, hc, hd, ?_⟩
    simp only [Canonical] at hc
    exact (http_failure_iff lossy parseIp kvs hc.1 msg).2 hf

/-- **C27.** Failures of the exchange are reported as such. -/
theorem httpResult_transport (lossy : Bytes → Text) (parseIp : Text → Option IpAddr) :
    httpResult lossy parseIp .sendError = .error .sendRequest ∧ httpResult lossy parseIp .statusError = .error .httpStatus ∧
      httpResult lossy parseIp .bodyError = .error .readBody := ⟨rfl, rfl, rfl⟩

-- a response with flags, IPv4 and IPv6 peers
example : (httpResult (fun b => b.map fun x => Char.ofNat x.toNat) (fun _ => none)
    (.body (key "d12:crypto_flags3:" ++ [0, 1, 1] ++ key "8:intervali1800e5:peers12:iiiippjjjjqq6:peers618:iiiiiiiiiiiiiiiippe"))).toOption =
    some ⟨1800, [⟨.v4 ⟨⟨0x69696969#32⟩, 0x7070#16⟩, none, false⟩, ⟨.v4 ⟨⟨0x6A6A6A6A#32⟩, 0x7171#16⟩, none, true⟩,
      ⟨.v6 ⟨⟨0x69696969696969696969696969696969#128⟩, 0x7070#16⟩, none, false⟩], none, none, none, none, none, none, none⟩ := by
  decide +kernel

-- peers in the list format
example : (httpResult (fun b => b.map fun x => Char.ofNat x.toNat)
    (fun t => if t = "1.2.3.4".toList then some (.v4 ⟨0x01020304#32⟩) else none)
    (.body (key "d8:intervali1800e5:peersld2:ip7:1.2.3.44:porti6881eeee"))).toOption =
    some ⟨1800, [⟨.v4 ⟨⟨0x01020304#32⟩, 6881⟩, none, false⟩], none, none, none, none, none, none, none⟩ := by
  decide +kernel

-- a failure
example : httpResult (fun b => b.map fun x => Char.ofNat x.toNat) (fun _ => none)
    (.body (key "d14:failure reason6:denied8:interval1:xe")) = .error (.failure "denied".toList) := by
  rw [httpResult_failure]
  refine ⟨[(keyBytes "failure reason", .bytes (keyBytes "denied")), (keyBytes "interval", .bytes (keyBytes "x"))],
    by decide +kernel, ?_, by decide +kernel, ⟨_, rfl, _, rfl, by decide +kernel⟩, ⟨none, trivial⟩, ⟨none, trivial⟩⟩
  rw [Canonical]
  exact ⟨⟨by decide +kernel, trivial⟩, trivial, trivial, trivial⟩

end Demag.Props
