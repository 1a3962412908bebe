import Verif.Spec.DhtTraffic
import Verif.Props.DhtSend
import Verif.Props.DhtMsg
import Mathlib.Data.List.Dedup

/-!
# C82: how much DHT lookups send and keep
-/

namespace Demag

open Spec

/-! ### The size of a response -/

theorem concat_length {α : Type} (R : α → List UInt8 → Prop) (n : Nat) (hR : ∀ x b, R x b → b.length = n) (l : List α) (b : List UInt8)
    (h : IsConcat R l b) : b.length = n * l.length := by
  induction l generalizing b with
  | nil => simp only [IsConcat] at h; subst h; simp
  | cons x l ih =>
    obtain ⟨b1, r, rfl, h1, h2⟩ := h
    rw [List.length_append, hR x b1 h1, ih r h2, List.length_cons]
    rw [Nat.mul_add, Nat.mul_one, Nat.add_comm]

/-- The number of bytes of the value of a key. -/
def valueSize (k : List UInt8) (kvs : List (List UInt8 × Ben)) : Nat :=
  match lookup k kvs with
  | some v => (benc v).length
  | none => 0

theorem valueSize_cons (k : List UInt8) (kv : List UInt8 × Ben) (kvs : List (List UInt8 × Ben)) :
    valueSize k (kv :: kvs) = if kv.1 = k then (benc kv.2).length else valueSize k kvs := by
  unfold valueSize lookup
  rw [List.find?_cons]
  by_cases h : kv.1 = k
  · simp [h]
  · have : (kv.1 == k) = false := by simpa using h
    simp [this, h]

theorem values_size (a b c : List UInt8) (hab : a ≠ b) (hac : a ≠ c) (hbc : b ≠ c) (kvs : List (List UInt8 × Ben)) :
    valueSize a kvs + valueSize b kvs + valueSize c kvs ≤ (bencDict kvs).length := by
  induction kvs with
  | nil => simp [valueSize, lookup]
  | cons kv kvs ih =>
    obtain ⟨k, v⟩ := kv
    rw [valueSize_cons, valueSize_cons, valueSize_cons, bencDict]
    simp only [List.length_append]
    by_cases h1 : k = a
    · subst h1
      rw [if_pos rfl, if_neg hab, if_neg hac]
      have : valueSize b kvs + valueSize c kvs ≤ (bencDict kvs).length := by omega
      omega
    · rw [if_neg h1]
      by_cases h2 : k = b
      · subst h2
        rw [if_pos rfl, if_neg hbc]
        omega
      · rw [if_neg h2]
        split <;> omega

theorem value_size (a : List UInt8) (kvs : List (List UInt8 × Ben)) (v : Ben) (h : lookup a kvs = some v) :
    (benc v).length ≤ (bencDict kvs).length := by
  have h1 : valueSize a kvs = (benc v).length := by rw [valueSize, h]
  have : valueSize a kvs ≤ (bencDict kvs).length := by
    clear h h1
    induction kvs with
    | nil => simp [valueSize, lookup]
    | cons kv kvs ih =>
      obtain ⟨k, v⟩ := kv
      rw [valueSize_cons, bencDict]
      simp only [List.length_append]
      split <;> omega
  omega

theorem values_length (l : List Ben) (ps : List Peer)
    (h : List.Forall₂ (fun i p => IsAddr i p.address ∧ p.id = none ∧ p.requiresCrypto = false) l ps) :
    6 * ps.length ≤ (bencList l).length := by
  induction h with
  | nil => simp
  | cons hx _ ih =>
    obtain ⟨⟨b, rfl, hb⟩, -⟩ := hx
    rw [bencList, benc, encBytes]
    simp only [List.length_append, List.length_cons]
    have : 6 ≤ b.length := by
      generalize hq : Peer.address _ = q at hb
      cases q with
      | v4 a => exact Nat.le_of_eq hb.1.symm
      | v6 a => have := hb.1; omega
    omega

/-- The nodes and peers of a response take 26 and 6 bytes each in it. -/
theorem response_size (msg : Bytes) (r : GetPeersResponse) (h : decodeResponse lossyUtf8 msg = .ok r) :
    26 * (listed r).length + 6 * r.values.length ≤ msg.length := by
  obtain ⟨kvs, hb, -, -, hd⟩ := (Props.response_ok _ _ _).1 h
  obtain ⟨rk, h1, -, h2, h3, h4, -⟩ := hd.r
  have e1 := value_size _ _ _ h1
  have e2 := values_size (keyBytes "values") (keyBytes "nodes") (keyBytes "nodes6") (by decide) (by decide) (by decide) rk
  have f2 : 6 * r.values.length ≤ valueSize (keyBytes "values") rk := by
    unfold ListField at h2
    unfold valueSize
    split at h2
    · rename_i hl; rw [hl, h2]; simp
    · rename_i v hl
      rw [hl]
      obtain ⟨l, rfl, hl2⟩ := h2
      have := values_length l _ hl2
      simp only [benc, List.length_cons, List.length_append]
      omega
  have f3 : 26 * r.nodes.length ≤ valueSize (keyBytes "nodes") rk := by
    unfold ListField at h3
    unfold valueSize
    split at h3
    · rename_i hl; rw [hl, h3]; simp
    · rename_i v hl
      rw [hl]
      obtain ⟨b, rfl, hl2⟩ := h3
      have := concat_length _ 26 (fun _ _ h => Props.compactNode4_length h) _ _ hl2
      simp only [benc, encBytes, List.length_cons, List.length_append]
      omega
  have f4 : 38 * r.nodes6.length ≤ valueSize (keyBytes "nodes6") rk := by
    unfold ListField at h4
    unfold valueSize
    split at h4
    · rename_i hl; rw [hl, h4]; simp
    · rename_i v hl
      rw [hl]
      obtain ⟨b, rfl, hl2⟩ := h4
      have := concat_length _ 38 (fun _ _ h => Props.compactNode6_length h) _ _ hl2
      simp only [benc, encBytes, List.length_cons, List.length_append]
      omega
  rw [hb]
  simp only [benc, List.length_cons, List.length_append] at e1 ⊢
  simp only [listed, List.length_append, List.length_map]
  omega

/-! ### The size of a query -/

theorem query_size (my : NodeId) (v6 : Bool) (h : InfoHash) (txn : Bytes) (ht : txn.length = 4) (p : Bytes)
    (hp : (queryFor my v6 h txn).toBencode = some p) : p.length = if v6 then 129 else 113 := by
  have := (Props.query_encode (queryFor my v6 h txn)).1
  rw [hp] at this
  cases this
  have d : ∀ b : List UInt8, b.length = 20 → (encBytes b).length = 23 := by
    intro b hb
    rw [encBytes, hb, List.length_append, List.length_cons, hb]
    decide +kernel
  have d4 : (encBytes txn).length = 6 := by
    rw [encBytes, ht, List.length_append, List.length_cons, ht]
    decide +kernel
  have k : ∀ s n, (encBytes (keyBytes s)).length = n → (encBytes (keyBytes s)).length = n := fun _ _ h => h
  cases v6
  · simp only [queryValue, queryFor, benc, bencDict, List.cons_append, List.nil_append, Option.map_some, Option.map_none, Option.toList_some,
      Option.toList_none, List.append_nil, List.length_cons, List.length_append, d _ my.len, d _ h.len, d4, if_true]
    decide +kernel
  · simp only [queryValue, queryFor, benc, bencDict, bencList, List.cons_append, List.nil_append, Option.map_some, Option.toList_some, List.map_cons, List.map_nil,
      List.append_nil, List.length_cons, List.length_append, d _ my.len, d _ h.len, d4, if_true]
    decide +kernel

/-! ### What a lookup keeps and asks -/

theorem insert_length {κ ν : Type} [DecidableEq κ] (m : HMap κ ν) (k : κ) (v : ν) (h : HMap.contains m k = false) :
    (HMap.insert m k v).length = m.length + 1 := by
  unfold HMap.insert
  rw [List.length_cons, List.filter_eq_self.2]
  intro kv hkv
  by_contra hne
  have hk : kv.1 = k := by simpa using hne
  unfold HMap.contains HMap.get at h
  have : (m.find? fun kv => decide (kv.1 = k)).isSome := by
    rw [List.find?_isSome]
    exact ⟨kv, hkv, by simpa using hk⟩
  cases hf : m.find? fun kv => decide (kv.1 = k) with
  | none => rw [hf] at this; cases this
  | some x => rw [hf] at h; cases h

theorem add_size (s : NodeSpace) (n : Node) : (flat (s.add n).nodes).length ≤ (flat s.nodes).length + 1 ∧
    (s.addr2node.length = (flat s.nodes).length → (s.add n).addr2node.length = (flat (s.add n).nodes).length) := by
  unfold NodeSpace.add
  split
  · exact ⟨Nat.le_succ _, fun h => h⟩
  · rename_i hc
    have h1 := (pushNode_perm (distance n.id s.infoHash) ⟨n, false, false⟩ s.nodes).length_eq
    rw [List.length_cons] at h1
    have h2 := insert_length s.addr2node (Node.address n) n (by simpa using hc)
    refine ⟨by simp only; omega, ?_⟩
    simp only
    omega

theorem markBuckets_length (d : Bytes) (id : NodeId) (bs : List (Bytes × List NodeInfo)) :
    (flat (markBuckets d id bs)).length = (flat bs).length := by
  have hb : ∀ l : List NodeInfo, (markBucket id l).length = l.length := by
    intro l
    have := congrArg List.length (markBucket_nodes id l)
    simpa using this
  induction bs with
  | nil => rfl
  | cons e bs ih =>
    obtain ⟨d', b⟩ := e
    rw [markBuckets]
    split
    · simp [hb]
    · simp [ih]

/-- The nodes that operations bring. -/
def added : List SpaceOp → Nat
  | [] => 0
  | .add _ :: ops => added ops + 1
  | _ :: ops => added ops

/-- The nodes that operations may ask for. -/
def asking : List SpaceOp → Nat
  | [] => 0
  | .ask k :: ops => asking ops + k
  | _ :: ops => asking ops

theorem spaceRun_size (ops : List SpaceOp) (s : NodeSpace) :
    (flat (spaceRun s ops).1.nodes).length ≤ (flat s.nodes).length + added ops ∧
    (s.addr2node.length = (flat s.nodes).length → (spaceRun s ops).1.addr2node.length = (flat (spaceRun s ops).1.nodes).length) ∧
    (spaceRun s ops).2.length ≤ asking ops := by
  induction ops generalizing s with
  | nil => exact ⟨Nat.le_refl _, fun h => h, Nat.le_refl _⟩
  | cons op ops ih =>
    rw [spaceRun]
    simp only
    obtain ⟨i1, i2, i3⟩ := ih (spaceApply s op).1
    rw [List.length_append]
    cases op with
    | add n =>
      obtain ⟨a1, a2⟩ := add_size s n
      simp only [spaceApply, added, asking, List.length_nil] at i1 i2 i3 ⊢
      exact ⟨by omega, fun h => i2 (a2 h), by omega⟩
    | ask k =>
      have e := askBuckets_eq k s.nodes
      have l1 : (flat (s.closestUnqueried k).1.nodes).length = (flat s.nodes).length := by
        show (flat (askBuckets k s.nodes).1).length = _
        rw [e.1, List.length_append, List.length_map, ← List.length_append, List.take_append_drop]
      have l2 : (s.closestUnqueried k).2.length ≤ k := by
        show (askBuckets k s.nodes).2.length ≤ k
        rw [e.2, List.length_map]
        exact Nat.le_trans (List.length_filter_le _ _) (List.length_take_le _ _)
      simp only [spaceApply, added, asking] at i1 i2 i3 ⊢
      refine ⟨by omega, fun h => i2 ?_, by omega⟩
      rw [l1]; exact h
    | mark id =>
      have l1 : (flat (s.markResponsive id).nodes).length = (flat s.nodes).length := markBuckets_length _ _ _
      simp only [spaceApply, added, asking, List.length_nil] at i1 i2 i3 ⊢
      refine ⟨by omega, fun h => i2 ?_, by omega⟩
      rw [l1]; exact h

theorem added_append (o p : List SpaceOp) : added (o ++ p) = added o + added p := by
  induction o with
  | nil => simp [added]
  | cons x o ih => cases x <;> simp only [List.cons_append, added, ih] <;> omega

theorem asking_append (o p : List SpaceOp) : asking (o ++ p) = asking o + asking p := by
  induction o with
  | nil => simp [asking]
  | cons x o ih => cases x <;> simp only [List.cons_append, asking, ih] <;> omega

theorem added_adds (l : List Node) : added (l.map SpaceOp.add) = l.length ∧ asking (l.map SpaceOp.add) = 0 := by
  induction l with
  | nil => exact ⟨rfl, rfl⟩
  | cons x l ih => simp [added, asking, ih]

theorem nodeOps_size (rs : List (SockAddr × GetPeersResponse)) :
    added (nodeOps rs) = (rs.map fun r => (listed r.2).length).sum ∧ asking (nodeOps rs) = 8 * rs.length := by
  induction rs using List.reverseRecOn with
  | nil => exact ⟨rfl, rfl⟩
  | append_singleton rs r ih =>
    rw [nodeOps_snoc, respond]
    obtain ⟨i1, i2⟩ := ih
    have hm : ∀ o : Option Node, added ((o.map fun n => SpaceOp.mark n.id).toList) = 0 ∧ asking ((o.map fun n => SpaceOp.mark n.id).toList) = 0 := by
      intro o; cases o <;> exact ⟨rfl, rfl⟩
    simp only [added_append, asking_append, (added_adds _).1, (added_adds _).2, i1, i2, (hm _).1, (hm _).2, List.map_append, List.sum_append,
      List.map_cons, List.map_nil, List.sum_cons, List.sum_nil, List.length_append, List.length_cons, List.length_nil]
    simp only [added, asking]
    constructor <;> omega

/-- The responses of a lookup against the bytes of the replies it took. -/
theorem responses_size (sid : Nat) (tr : List DhtEffect) :
    26 * ((responses sid tr).map fun r => (listed r.2).length).sum + 6 * (peersOf (responses sid tr)).length ≤ messageBytes (repliesTo sid tr) ∧
    (responses sid tr).length ≤ (repliesTo sid tr).length := by
  induction tr with
  | nil => exact ⟨Nat.le_refl _, Nat.le_refl _⟩
  | cons e tr ih =>
    obtain ⟨i1, i2⟩ := ih
    have other : responseOf sid e = none → messageBytes (repliesTo sid tr) ≤ messageBytes (repliesTo sid (e :: tr)) →
        (repliesTo sid tr).length ≤ (repliesTo sid (e :: tr)).length →
        26 * ((responses sid (e :: tr)).map fun r => (listed r.2).length).sum + 6 * (peersOf (responses sid (e :: tr))).length ≤
          messageBytes (repliesTo sid (e :: tr)) ∧ (responses sid (e :: tr)).length ≤ (repliesTo sid (e :: tr)).length := by
      intro h h2 h3
      have : responses sid (e :: tr) = responses sid tr := by unfold responses; rw [List.filterMap_cons, h]
      rw [this]
      exact ⟨by omega, by omega⟩
    cases e with
    | replied sid' addr txn msg =>
      by_cases hs : sid' = sid
      · have hr : repliesTo sid (.replied sid' addr txn msg :: tr) = (sid', addr, msg) :: repliesTo sid tr := by
          simp [repliesTo, repliesTaken, replyOf, hs]
        rw [hr] at other ⊢
        simp only [messageBytes, List.map_cons, List.sum_cons, List.length_cons] at other i1 ⊢
        cases hd : decodeResponse lossyUtf8 msg with
        | error x => exact other (by simp [responseOf, hd, Except.toOption]) (by omega) (by omega)
        | ok r =>
          have : responses sid (.replied sid' addr txn msg :: tr) = (addr, r) :: responses sid tr := by
            unfold responses; rw [List.filterMap_cons]; simp [responseOf, hd, Except.toOption, hs]
          rw [this]
          have := response_size msg r hd
          simp only [peersOf, List.flatMap_cons, List.map_cons, List.sum_cons, List.length_cons, List.length_append] at i1 ⊢
          exact ⟨by omega, by omega⟩
      · have hr : repliesTo sid (.replied sid' addr txn msg :: tr) = repliesTo sid tr := by
          simp [repliesTo, repliesTaken, replyOf, hs]
        exact other (by simp [responseOf, hs]) (by rw [hr]; exact Nat.le_refl _) (by rw [hr]; exact Nat.le_refl _)
    | query => exact other rfl (Nat.le_refl _) (Nat.le_refl _)
    | timedOut => exact other rfl (Nat.le_refl _) (Nat.le_refl _)
    | started => exact other rfl (Nat.le_refl _) (Nat.le_refl _)
    | answer => exact other rfl (Nat.le_refl _) (Nat.le_refl _)
    | down => exact other rfl (Nat.le_refl _) (Nat.le_refl _)

/-- What a lookup asked. -/
theorem asked_size (h : InfoHash) (rs : List (SockAddr × GetPeersResponse)) :
    (nodeSpaceOf h rs).2.length ≤ 8 * rs.length ∧ (nodeSpaceOf h rs).2.length ≤ (rs.map fun r => (listed r.2).length).sum := by
  refine ⟨by rw [← (nodeOps_size rs).2]; exact (spaceRun_size _ _).2.2, ?_⟩
  have hsub : (nodeSpaceOf h rs).2.map Node.address ⊆ (rs.flatMap fun r => listed r.2).map Node.address := by
    intro x hx
    obtain ⟨n, hn, rfl⟩ := List.mem_map.1 hx
    obtain ⟨r, hr, hl⟩ := asked_listed h _ n hn
    exact List.mem_map.2 ⟨n, List.mem_flatMap.2 ⟨r, hr, hl⟩, rfl⟩
  have := ((asked_nodup h rs).subperm hsub).length_le
  rw [List.length_map, List.length_map, List.length_flatMap] at this
  exact this

theorem setInsert_length {α : Type} [DecidableEq α] (r l : List α) : (r.foldl setInsert l).length ≤ l.length + r.length := by
  induction r generalizing l with
  | nil => exact Nat.le_refl _
  | cons a r ih =>
    rw [List.foldl_cons, List.length_cons]
    have h1 := ih (setInsert l a)
    have h2 : (setInsert l a).length ≤ l.length + 1 := by
      unfold setInsert
      split
      · omega
      · simp
    omega

/-! ### All lookups together -/

theorem sum_keys {α : Type} (f : α → Nat) (w : α → Nat) (K : List Nat) (hK : K.Nodup) (l : List α) :
    (K.map fun k => ((l.filter fun x => f x = k).map w).sum).sum ≤ (l.map w).sum ∧
    ((∀ x ∈ l, f x ∈ K) → (K.map fun k => ((l.filter fun x => f x = k).map w).sum).sum = (l.map w).sum) := by
  induction l with
  | nil => induction K <;> simp
  | cons x l ih =>
    have step : ∀ K : List Nat, K.Nodup → (K.map fun k => (((x :: l).filter fun x => f x = k).map w).sum).sum =
        (K.map fun k => ((l.filter fun x => f x = k).map w).sum).sum + if f x ∈ K then w x else 0 := by
      intro K hK
      induction K with
      | nil => simp
      | cons k K ihK =>
        rw [List.nodup_cons] at hK
        rw [List.map_cons, List.sum_cons, ihK hK.2, List.map_cons, List.sum_cons]
        by_cases h : f x = k
        · subst h
          rw [if_neg hK.1, if_pos (List.mem_cons_self ..), List.filter_cons_of_pos (by simp), List.map_cons, List.sum_cons]
          omega
        · rw [List.filter_cons_of_neg (by simpa using h)]
          have : (f x ∈ k :: K) ↔ f x ∈ K := by simp [h]
          simp only [this]
          omega
    rw [step K hK, List.map_cons, List.sum_cons]
    refine ⟨?_, ?_⟩
    · split <;> omega
    · intro hx
      rw [if_pos (hx x (List.mem_cons_self ..)), ih.2 (fun y hy => hx y (List.mem_cons_of_mem _ hy))]
      omega

variable {lookup : Text → BitVec 16 → Option (List SockAddr)} {nodes : List InetAddr}

theorem repliesTaken_none (l : List DhtEffect) (h : ∀ e ∈ l, replyOf e = none) : repliesTaken l = [] := List.filterMap_eq_nil_iff.2 h
theorem lookupsStarted_none (l : List DhtEffect) (h : ∀ e ∈ l, startOf e = none) : lookupsStarted l = [] := List.filterMap_eq_nil_iff.2 h
theorem sends_none {e : DhtEffect} (h : sendsOrAnswers e) : replyOf e = none ∧ startOf e = none := by
  cases e <;> first | exact ⟨rfl, rfl⟩ | exact h.elim
theorem stop_none (st : DhtState) (inbox : List ActorMessage) : ∀ e ∈ (st.stop inbox).2, replyOf e = none ∧ startOf e = none := by
  intro e he
  simp only [DhtState.stop, List.mem_append, List.mem_map] at he
  rcases he with ⟨x, -, rfl⟩ | ⟨x, -, rfl⟩ <;> exact ⟨rfl, rfl⟩

/-- The requests for lookups that wait in the channel. -/
def waitingLookups (st : DhtState) : Nat := (st.inbox.filterMap ActorMessage.request).length

theorem traffic_step {my v6 es st tr} (v : StInv my v6 es st tr) (e : DhtEvent) {st' out} (hs : st.step lookup nodes e = some (st', out)) :
    ((repliesTaken out).map fun x => x.2).Sublist (packetsIn [e]) ∧
    (lookupsStarted out).length + waitingLookups st' ≤ waitingLookups st + (submitted [e]).length := by
  have quiet : ∀ l : List DhtEffect, (∀ x ∈ l, replyOf x = none ∧ startOf x = none) →
      ((repliesTaken l).map fun x => x.2).Sublist (packetsIn [e]) ∧ (lookupsStarted l).length = 0 := by
    intro l hl
    rw [repliesTaken_none l (fun x hx => (hl x hx).1), lookupsStarted_none l (fun x hx => (hl x hx).2)]
    exact ⟨List.nil_sublist _, rfl⟩
  cases e with
  | submit m =>
    simp only [DhtState.step] at hs
    have hm : (submitted [.submit m]).length = m.request.toList.length := by
      simp only [submitted, List.filterMap_cons, submittedOf, List.filterMap_nil]
      cases m.request <;> rfl
    split at hs
    · cases hs
      obtain ⟨q1, q2⟩ := quiet (m.request.map DhtEffect.down).toList (by
        intro x hx
        cases hm : m.request with
        | none => rw [hm] at hx; cases hx
        | some r =>
          rw [hm] at hx
          simp only [Option.map_some, Option.toList_some, List.mem_singleton] at hx
          rw [hx]; exact ⟨rfl, rfl⟩)
      exact ⟨q1, by omega⟩
    · cases hs
      refine ⟨List.nil_sublist _, ?_⟩
      rw [hm]
      simp only [waitingLookups, List.filterMap_append, List.length_append, lookupsStarted, List.filterMap_nil, List.length_nil,
        List.filterMap_cons]
      cases m.request <;> simp
  | resolved addrs =>
    simp only [DhtState.step] at hs
    split at hs
    · split at hs
      · cases hs
        obtain ⟨q1, q2⟩ := quiet _ (stop_none st st.inbox)
        refine ⟨q1, ?_⟩
        have hz : waitingLookups (st.stop st.inbox).1 = 0 := rfl
        show (lookupsStarted (st.stop st.inbox).2).length + waitingLookups (st.stop st.inbox).1 ≤ _
        omega
      · cases hs
        exact ⟨List.nil_sublist _, by simp [waitingLookups, lookupsStarted]⟩
    · cases hs
  | receive udp =>
    simp only [DhtState.step] at hs
    split at hs
    · rename_i b req h inbox _ hin
      cases hs
      obtain ⟨rest, r1, r2⟩ := lookup_effects st.actor b udp req h
      rw [r1]
      obtain ⟨q1, q2⟩ := quiet rest (fun x hx => sends_none (r2 x hx))
      have hr : repliesTaken (.started st.actor.nextSid req h :: rest) = repliesTaken rest := rfl
      have hl : (lookupsStarted (.started st.actor.nextSid req h :: rest)).length = (lookupsStarted rest).length + 1 := rfl
      rw [hr, hl, q2]
      refine ⟨q1, ?_⟩
      simp only [waitingLookups, hin, List.filterMap_cons, ActorMessage.request, List.length_cons]
      omega
    · rename_i inbox _ hin
      cases hs
      obtain ⟨q1, q2⟩ := quiet _ (stop_none st inbox)
      refine ⟨q1, ?_⟩
      have hz : waitingLookups (st.stop inbox).1 = 0 := rfl
      show (lookupsStarted (st.stop inbox).2).length + waitingLookups (st.stop inbox).1 ≤ _
      omega
    · cases hs
  | packet addr msg order udp =>
    simp only [DhtState.step] at hs
    split at hs
    · split at hs
      · cases hs
        have hw : ∀ a : DhtActor, waitingLookups { st with actor := a } = waitingLookups st := fun _ => rfl
        rw [hw]
        rcases message_effects st.actor v.act.nodup order udp addr msg with ⟨h1, -⟩ | ⟨p, sid, s, rest, -, -, hg, hin, h1, h2⟩
        · rw [h1]; exact ⟨List.nil_sublist _, by simp [lookupsStarted]⟩
        · rw [h1]
          obtain ⟨q1, q2⟩ := quiet rest (fun x hx => sends_none (h2 x hx))
          have hr : repliesTaken (.replied sid addr p.transactionId msg :: rest) = (sid, addr, msg) :: repliesTaken rest := rfl
          have hl : lookupsStarted (.replied sid addr p.transactionId msg :: rest) = lookupsStarted rest := rfl
          rw [hr, hl, q2, repliesTaken_none rest (fun x hx => (sends_none (h2 x hx)).1)]
          exact ⟨List.Sublist.refl _, by omega⟩
      · cases hs
    · cases hs
  | recvError =>
    simp only [DhtState.step] at hs
    split at hs
    · cases hs; exact ⟨List.nil_sublist _, by simp [lookupsStarted]⟩
    · cases hs
  | timer addr txn order =>
    simp only [DhtState.step] at hs
    split at hs
    · split at hs
      · cases hs
        have hw : ∀ a : DhtActor, waitingLookups { st with actor := a } = waitingLookups st := fun _ => rfl
        rw [hw]
        rcases timer_effects st.actor v.act.nodup order addr txn with h1 | ⟨sid, s, rest, hg, hin, h1, h2⟩
        · rw [h1]; exact ⟨List.nil_sublist _, by simp [lookupsStarted]⟩
        · rw [h1]
          obtain ⟨q1, q2⟩ := quiet (.timedOut sid addr txn :: rest) (by
            intro x hx
            rcases List.mem_cons.1 hx with rfl | hx
            · exact ⟨rfl, rfl⟩
            · exact sends_none (h2 x hx))
          exact ⟨q1, by omega⟩
      · cases hs
    · cases hs

theorem traffic_run (my : NodeId) (v6 : Bool) (es : List DhtEvent) {st tr} (h : (DhtState.init my v6).run lookup nodes es = some (st, tr)) :
    ((repliesTaken tr).map fun x => x.2).Sublist (packetsIn es) ∧ (lookupsStarted tr).length + waitingLookups st ≤ (submitted es).length := by
  induction es using List.reverseRecOn generalizing st tr with
  | nil => cases h; exact ⟨List.nil_sublist _, Nat.le_refl _⟩
  | append_singleton es e ih =>
    obtain ⟨st1, tr1, out, h1, h2, rfl⟩ := DhtState.run_snoc _ es e h
    obtain ⟨i1, i2⟩ := ih h1
    obtain ⟨s1, s2⟩ := traffic_step (StInv.run my v6 es h1) e h2
    have e1 : repliesTaken (tr1 ++ out) = repliesTaken tr1 ++ repliesTaken out := List.filterMap_append ..
    have e2 : lookupsStarted (tr1 ++ out) = lookupsStarted tr1 ++ lookupsStarted out := List.filterMap_append ..
    have e3 : packetsIn (es ++ [e]) = packetsIn es ++ packetsIn [e] := List.filterMap_append ..
    have e4 : submitted (es ++ [e]) = submitted es ++ submitted [e] := List.filterMap_append ..
    rw [e1, e2, e3, e4, List.map_append, List.length_append, List.length_append]
    exact ⟨i1.append s1, by omega⟩

theorem sublist_sum {l m : List Nat} (h : l.Sublist m) : l.sum ≤ m.sum := by
  induction h with
  | slnil => exact Nat.le_refl _
  | cons a _ ih => rw [List.sum_cons]; omega
  | cons_cons a _ ih => rw [List.sum_cons, List.sum_cons]; omega

/-- What one lookup asked, against the replies it took. -/
theorem StInv.few {my v6 es st tr} (v : StInv my v6 es st tr) (sid : Nat) :
    (queriedBy sid tr).length ≤ (bootstrapOf es).length + 8 * (repliesTo sid tr).length ∧
    26 * (queriedBy sid tr).length ≤ 26 * (bootstrapOf es).length + messageBytes (repliesTo sid tr) := by
  rcases v.queried sid with h1 | ⟨hash, h1⟩
  · rw [h1]; simp
  · rw [h1, List.length_append, List.length_map]
    obtain ⟨a1, a2⟩ := asked_size hash (responses sid tr)
    obtain ⟨r1, r2⟩ := responses_size sid tr
    constructor <;> omega

end Demag

namespace Demag.Props

open Demag Spec

variable {lookup : Text → BitVec 16 → Option (List SockAddr)} {nodes : List InetAddr}

/-- **C82.** Every packet given to the socket is a query, and it has 113 bytes, or 129 if IPv6 is used. -/
theorem dht_packet_small (my : NodeId) (v6 : Bool) (es : List DhtEvent) (st : DhtState) (tr : List DhtEffect)
    (h : (DhtState.init my v6).run lookup nodes es = some (st, tr)) (p : Bytes) (hp : p ∈ packetsOut tr) :
    p.length = if v6 then 129 else 113 := by
  obtain ⟨e, he, hp⟩ := List.mem_filterMap.1 hp
  cases e with
  | query sid addr q pk ok =>
    have hpk : pk = some p := hp
    obtain ⟨_, -, h1, -⟩ := query_sent_iff my v6 es h _ _ _ _ _ he
    have v := StInv.run my v6 es h
    have hq : (sid, addr, q) ∈ queries tr := List.mem_filterMap.2 ⟨_, he, rfl⟩
    obtain ⟨_, hash, -, h2⟩ := v.act.fields _ hq
    simp only at h2
    have ht : q.transactionId.length = 4 := by
      have : q.transactionId ∈ (queries tr).map fun q => q.2.2.transactionId := List.mem_map.2 ⟨_, hq, rfl⟩
      rw [v.act.txns] at this
      obtain ⟨i, -, hi⟩ := List.mem_map.1 this
      rw [← hi]
      exact txnId_length _
    rw [hpk, h2] at h1
    exact query_size my v6 hash _ ht p h1.symm
  | _ => cases hp

/-- **C82.** A lookup sends a query to each of the bootstrap addresses, and at most 8 more for each reply it takes, and not more than the replies list nodes
(which take 26 bytes each). -/
theorem dht_lookup_queries (my : NodeId) (v6 : Bool) (es : List DhtEvent) (st : DhtState) (tr : List DhtEffect)
    (h : (DhtState.init my v6).run lookup nodes es = some (st, tr)) (sid : Nat) :
    (queriedBy sid tr).length ≤ (bootstrapOf es).length + 8 * (repliesTo sid tr).length ∧
    26 * (queriedBy sid tr).length ≤ 26 * (bootstrapOf es).length + messageBytes (repliesTo sid tr) :=
  (StInv.run my v6 es h).few sid

/-- **C82.** The replies that lookups take are packets that arrived: each packet is taken at most once, by one lookup.  There are not more lookups than
requests for them. -/
theorem dht_replies_arrived (my : NodeId) (v6 : Bool) (es : List DhtEvent) (st : DhtState) (tr : List DhtEffect)
    (h : (DhtState.init my v6).run lookup nodes es = some (st, tr)) :
    ((repliesTaken tr).map fun x => x.2).Sublist (packetsIn es) ∧ (lookupsStarted tr).length ≤ (submitted es).length := by
  obtain ⟨h1, h2⟩ := traffic_run my v6 es h
  exact ⟨h1, by omega⟩

/-- **C82.** All lookups together: for each of the requests a query to each bootstrap address; for each packet that arrives at most 8 queries, and at most one for
26 bytes of it.  So what the DHT makes the client send is at most 129 bytes for every 26 that it gets (less than five times as much), besides 129 bytes for each
bootstrap address and request. -/
theorem dht_traffic (my : NodeId) (v6 : Bool) (es : List DhtEvent) (st : DhtState) (tr : List DhtEffect)
    (h : (DhtState.init my v6).run lookup nodes es = some (st, tr)) :
    (packetsOut tr).length ≤ (bootstrapOf es).length * (submitted es).length + 8 * (packetsIn es).length ∧
    26 * ((packetsOut tr).map List.length).sum ≤
      129 * (26 * ((bootstrapOf es).length * (submitted es).length) + ((packetsIn es).map fun p => p.2.length).sum) := by
  have v := StInv.run my v6 es h
  obtain ⟨t1, t2⟩ := dht_replies_arrived my v6 es st tr h
  -- the lookups
  let K := (lookupsStarted tr).dedup
  have hK : K.Nodup := List.nodup_dedup _
  have hKl : K.length ≤ (submitted es).length := Nat.le_trans (List.dedup_sublist _).length_le t2
  have hmem : ∀ q ∈ queries tr, q.1 ∈ K := by
    intro q hq
    obtain ⟨req, hash, h1, -⟩ := v.act.fields q hq
    exact List.mem_dedup.2 (List.mem_filterMap.2 ⟨_, h1, rfl⟩)
  have hq := (sum_keys (fun q : Nat × SockAddr × GetPeersQuery => q.1) (fun _ => 1) K hK (queries tr)).2 hmem
  have hr8 := (sum_keys (fun q : Nat × SockAddr × Bytes => q.1) (fun _ => 8) K hK (repliesTaken tr)).1
  have hrb := (sum_keys (fun q : Nat × SockAddr × Bytes => q.1) (fun x => x.2.2.length) K hK (repliesTaken tr)).1
  have ones : ∀ {α : Type} (l : List α) (n : Nat), (l.map fun _ => n).sum = n * l.length := by
    intro α l n
    induction l with
    | nil => rfl
    | cons x l ih => rw [List.map_cons, List.sum_cons, ih, List.length_cons, Nat.mul_add, Nat.mul_one, Nat.add_comm]
  have hqb : ∀ sid, (queriedBy sid tr).length = ((queries tr).filter fun q => q.1 = sid).length := by
    intro sid; unfold queriedBy; rw [List.length_map]
  -- per lookup, summed
  have hsum : ∀ K : List Nat, (K.map fun k => (((queries tr).filter fun x => x.1 = k).map fun _ => 1).sum).sum ≤
        (bootstrapOf es).length * K.length + (K.map fun k => (((repliesTaken tr).filter fun x => x.1 = k).map fun _ => 8).sum).sum ∧
      26 * (K.map fun k => (((queries tr).filter fun x => x.1 = k).map fun _ => 1).sum).sum ≤
        26 * ((bootstrapOf es).length * K.length) + (K.map fun k => (((repliesTaken tr).filter fun x => x.1 = k).map fun x => x.2.2.length).sum).sum := by
    intro K
    induction K with
    | nil => simp
    | cons k K ih =>
      obtain ⟨f1, f2⟩ := v.few k
      have g1 : (((queries tr).filter fun x => x.1 = k).map fun _ => 1).sum ≤
          (bootstrapOf es).length + (((repliesTaken tr).filter fun x => x.1 = k).map fun _ => 8).sum := by
        rw [ones, ones, Nat.one_mul, ← hqb]; exact f1
      have g2 : 26 * (((queries tr).filter fun x => x.1 = k).map fun _ => 1).sum ≤
          26 * (bootstrapOf es).length + (((repliesTaken tr).filter fun x => x.1 = k).map fun x => x.2.2.length).sum := by
        rw [ones, Nat.one_mul, ← hqb]; exact f2
      simp only [List.map_cons, List.sum_cons, List.length_cons, Nat.mul_add, Nat.mul_one] at ih ⊢
      constructor <;> omega
  obtain ⟨s1, s2⟩ := hsum K
  rw [hq] at s1 s2
  rw [ones] at s1 s2 hr8
  have hb : (bootstrapOf es).length * K.length ≤ (bootstrapOf es).length * (submitted es).length := Nat.mul_le_mul_left _ hKl
  have hl : (repliesTaken tr).length ≤ (packetsIn es).length := by
    have := t1.length_le
    rwa [List.length_map] at this
  have hsz : ((repliesTaken tr).map fun x => x.2.2.length).sum ≤ ((packetsIn es).map fun p => p.2.length).sum := by
    have := sublist_sum (t1.map fun p : SockAddr × Bytes => p.2.length)
    rw [List.map_map] at this
    exact this
  have hpq : ∀ tr : List DhtEffect, (packetsOut tr).length ≤ (queries tr).length := by
    intro tr
    induction tr with
    | nil => exact Nat.le_refl _
    | cons e tr ih =>
      unfold packetsOut queries at *
      cases e with
      | query sid addr q pk ok => cases pk <;> simp only [List.filterMap_cons, outOf, queryOf, List.length_cons] <;> omega
      | _ => exact ih
  have hp := hpq tr
  have hpb : ((packetsOut tr).map List.length).sum ≤ 129 * (packetsOut tr).length := by
    have all : ∀ p ∈ packetsOut tr, p.length ≤ 129 := by
      intro p hp
      have := dht_packet_small my v6 es st tr h p hp
      cases v6 <;> simp at this <;> omega
    clear hp
    generalize packetsOut tr = l at all
    induction l with
    | nil => simp
    | cons p l ih =>
      have := all p (List.mem_cons_self ..)
      have := ih (fun q hq => all q (List.mem_cons_of_mem _ hq))
      rw [List.map_cons, List.sum_cons, List.length_cons]
      omega
  constructor <;> omega

/-- **C82.** What a lookup in progress keeps: a node for 26 bytes and a peer for 6 bytes of the replies it took, and one entry for each query it sent. -/
theorem dht_kept (my : NodeId) (v6 : Bool) (es : List DhtEvent) (st : DhtState) (tr : List DhtEffect)
    (h : (DhtState.init my v6).run lookup nodes es = some (st, tr)) (sid : Nat) (s : LookupSession) (hs : HMap.get st.actor.sessions sid = some s) :
    KeptWithin s (bootstrapOf es).length (queriedBy sid tr).length (messageBytes (repliesTo sid tr)) := by
  have v := StInv.run my v6 es h
  obtain ⟨_, hash, -, -, m, h6⟩ := v.act.live sid s hs
  obtain ⟨r1, -⟩ := responses_size sid tr
  have z := spaceRun_size (nodeOps (responses sid tr)) (NodeSpace.new hash)
  rw [(nodeOps_size _).1] at z
  have hn : s.nodes = (spaceRun (NodeSpace.new hash) (nodeOps (responses sid tr))).1 := m.nodes
  rw [← hn] at z
  have hp := setInsert_length (peersOf (responses sid tr)) []
  rw [← m.peers] at hp
  simp only [NodeSpace.new, flat_nil, List.length_nil, Nat.zero_add] at z hp
  refine ⟨?_, z.2.1 trivial, ?_, (h6 (by simp)).1, (v.few sid).2⟩
  · have := z.1
    unfold flat at this
    omega
  · have hsub : ∀ x ∈ s.inFlight, x ∈ ((queries tr).filter fun q => q.1 = sid).map fun q => (q.2.1, q.2.2.transactionId) := by
      intro x hx
      obtain ⟨q, q1, q2⟩ := outstanding_sub sid tr x (m.sub x hx)
      exact List.mem_map.2 ⟨_, List.mem_filter.2 ⟨q1, by simp⟩, by simp only [q2]⟩
    have := (m.distinct.subperm hsub).length_le
    rw [List.length_map] at this
    unfold queriedBy
    rw [List.length_map]
    exact this

/-! ### A concrete case: the run `eventsTwins` with three queries, for which 52 bytes of nodes arrived -/

example : (runOf eventsTwins).map (fun r => ((packetsOut r.2).map List.length, (repliesTaken r.2).length, lookupsStarted r.2)) =
    some ([113, 113, 113], 2, [0]) := by decide +kernel
example : (bootstrapOf eventsTwins).length = 1 ∧ (packetsIn eventsTwins).length = 2 ∧ submitted eventsTwins = [7] := by decide +kernel
example : (runOf (eventsTwins.take 4)).map (fun r => (queriedBy 0 r.2, messageBytes (repliesTo 0 r.2))) =
    some ([bootAddr, addrX, addrY], 140) := by decide +kernel
example : (runOf (eventsTwins.take 4)).map (fun r => (HMap.get r.1.actor.sessions 0).map fun s =>
    ((s.nodes.nodes.flatMap fun e => e.2).length, s.peers.length, s.inFlight.length)) = some (some (2, 1, 2)) := by decide +kernel

end Demag.Props
