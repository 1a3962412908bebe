import Verif.Spec.DhtLookup
import Verif.Props.DhtNodes
import Verif.Props.DhtMsg
import Verif.Lemmas.Wire

/-! Helper lemmas about the DHT client. -/

namespace Demag

open Spec

/-! ### Maps and sets -/

section
variable {κ ν : Type} [DecidableEq κ]

theorem HMap.get_set (m : HMap κ ν) (k : κ) (v : ν) (k' : κ) :
    HMap.get (HMap.set m k v) k' = if k = k' then (HMap.get m k).map (fun _ => v) else HMap.get m k' := by
  induction m with
  | nil => simp [HMap.set]
  | cons kv m ih =>
    obtain ⟨a, b⟩ := kv
    have hs : HMap.set ((a, b) :: m) k v = (if a = k then (k, v) else (a, b)) :: HMap.set m k v := rfl
    rw [hs]
    by_cases h1 : a = k
    · subst h1
      rw [if_pos rfl, HMap.get_cons, HMap.get_cons, HMap.get_cons, if_pos rfl]
      by_cases h2 : a = k'
      · simp [h2]
      · rw [if_neg h2, if_neg h2, if_neg h2, ih, if_neg h2]
    · rw [if_neg h1, HMap.get_cons, HMap.get_cons, HMap.get_cons, if_neg h1, ih]
      by_cases h2 : a = k'
      · subst h2
        rw [if_pos rfl, if_pos rfl, if_neg (Ne.symm h1)]
      · rw [if_neg h2, if_neg h2]

theorem HMap.keys_set (m : HMap κ ν) (k : κ) (v : ν) : (HMap.set m k v).map Prod.fst = m.map Prod.fst := by
  unfold HMap.set
  rw [List.map_map]
  apply List.map_congr_left
  intro kv _
  simp only [Function.comp]
  split <;> simp_all

theorem HMap.set_set (m : HMap κ ν) (k : κ) (v w : ν) : HMap.set (HMap.set m k v) k w = HMap.set m k w := by
  unfold HMap.set
  rw [List.map_map]
  apply List.map_congr_left
  intro kv _
  simp only [Function.comp]
  by_cases h : kv.1 = k <;> simp [h]

theorem HMap.set_same (m : HMap κ ν) (hn : NodupKeys m) (k : κ) (v : ν) (h : HMap.get m k = some v) : HMap.set m k v = m := by
  unfold HMap.set
  conv => rhs; rw [← List.map_id m]
  apply List.map_congr_left
  rintro ⟨a, b⟩ hm
  simp only [id]
  split
  · rename_i e
    have e' : a = k := e
    subst e'
    have := HMap.mem_get hn hm
    rw [h] at this
    cases this
    rfl
  · rfl

theorem HMap.set_insert (m : HMap κ ν) (k : κ) (v w : ν) : HMap.set (HMap.insert m k v) k w = HMap.insert m k w := by
  unfold HMap.set HMap.insert
  rw [List.map_cons, if_pos rfl]
  congr 1
  conv => rhs; rw [← List.map_id (List.filter _ m)]
  apply List.map_congr_left
  intro kv hkv
  rw [if_neg (by simpa using (List.mem_filter.1 hkv).2)]
  rfl

theorem nodupKeys_set {m : HMap κ ν} (h : NodupKeys m) (k : κ) (v : ν) : NodupKeys (HMap.set m k v) := by
  unfold NodupKeys; rw [HMap.keys_set]; exact h

theorem HMap.keys_insert (m : HMap κ ν) (k : κ) (v : ν) :
    (HMap.insert m k v).map Prod.fst = k :: (m.map Prod.fst).filter fun x => x ≠ k := by
  unfold HMap.insert
  rw [List.map_cons, List.filter_map]
  rfl

theorem HMap.keys_remove (m : HMap κ ν) (k : κ) :
    (HMap.remove m k).map Prod.fst = (m.map Prod.fst).filter fun x => x ≠ k := by
  unfold HMap.remove
  rw [List.filter_map]
  rfl

theorem HMap.get_isSome_iff (m : HMap κ ν) (k : κ) : (∃ v, HMap.get m k = some v) ↔ k ∈ m.map Prod.fst := by
  constructor
  · rintro ⟨v, hv⟩
    exact List.mem_map.2 ⟨_, HMap.get_mem hv, rfl⟩
  · intro h
    cases e : HMap.get m k with
    | none => exact absurd h (HMap.get_none_iff.1 e)
    | some v => exact ⟨v, rfl⟩
end

theorem setInsert_new {α : Type} [DecidableEq α] (l : List α) (a : α) (h : a ∉ l) : setInsert l a = l ++ [a] := by
  unfold setInsert; rw [if_neg h]

theorem mem_setInsert {α : Type} [DecidableEq α] (l : List α) (a b : α) : b ∈ setInsert l a ↔ b ∈ l ∨ b = a := by
  unfold setInsert
  split
  · rename_i h
    constructor
    · exact .inl
    · rintro (h1 | rfl)
      · exact h1
      · exact h
  · simp

theorem nodup_setInsert {α : Type} [DecidableEq α] (l : List α) (a : α) (h : l.Nodup) : (setInsert l a).Nodup := by
  unfold setInsert
  split
  · exact h
  · rename_i h1
    rw [List.nodup_append]
    refine ⟨h, by simp, ?_⟩
    intro x hx y hy
    rw [List.mem_singleton.1 hy]
    rintro rfl
    exact h1 hx

theorem foldl_setInsert_new {α : Type} [DecidableEq α] (l r : List α) (h : (l ++ r).Nodup) : r.foldl setInsert l = l ++ r := by
  induction r generalizing l with
  | nil => simp
  | cons a r ih =>
    rw [List.foldl_cons, setInsert_new, ih]
    · simp
    · simpa using h
    · rw [List.nodup_append] at h
      intro hl
      exact h.2.2 a hl a (by simp) rfl

theorem mem_foldl_setInsert {α : Type} [DecidableEq α] (l r : List α) (a : α) : a ∈ r.foldl setInsert l ↔ a ∈ l ∨ a ∈ r := by
  induction r generalizing l with
  | nil => simp
  | cons b r ih => rw [List.foldl_cons, ih, mem_setInsert, List.mem_cons, or_assoc]

theorem nodup_foldl_setInsert {α : Type} [DecidableEq α] (l r : List α) (h : l.Nodup) : (r.foldl setInsert l).Nodup := by
  induction r generalizing l with
  | nil => exact h
  | cons b r ih => exact ih _ (nodup_setInsert l b h)

/-! ### Transaction IDs -/

theorem txnId_length (t : BitVec 32) : (txnId t).length = 4 := beBytes_length _ _

theorem txnId_inj {t u : BitVec 32} (h : txnId t = txnId u) : t = u := by
  have := congrArg beValue h
  unfold txnId putU32 at this
  rw [beValue_beBytes, beValue_beBytes, Nat.mod_eq_of_lt (by have := t.isLt; omega), Nat.mod_eq_of_lt (by have := u.isLt; omega)] at this
  exact BitVec.eq_of_toNat_eq this

/-- The transaction ID of the `i`th query. -/
def nthTxn (i : Nat) : Bytes := txnId (BitVec.ofNat 32 i)

theorem nthTxn_inj {i j : Nat} (hi : i < 2 ^ 32) (hj : j < 2 ^ 32) (h : nthTxn i = nthTxn j) : i = j := by
  have := congrArg BitVec.toNat (txnId_inj h)
  rwa [BitVec.toNat_ofNat, BitVec.toNat_ofNat, Nat.mod_eq_of_lt hi, Nat.mod_eq_of_lt hj] at this

/-! ### Outgoing queries -/

/-- What identifies a query. -/
def qkey (x : SockAddr × GetPeersQuery) : SockAddr × Bytes := (x.1, x.2.transactionId)

theorem outgoingLoop_eq (s : LookupSession) (l : List SockAddr) (n : Nat) :
    (outgoingLoop s l (BitVec.ofNat 32 n)).1 =
      { s with inFlight := ((outgoingLoop s l (BitVec.ofNat 32 n)).2.2.map qkey).foldl setInsert s.inFlight } ∧
    (outgoingLoop s l (BitVec.ofNat 32 n)).2.1 = BitVec.ofNat 32 (n + l.length) ∧
    (outgoingLoop s l (BitVec.ofNat 32 n)).2.2.map Prod.fst = l ∧
    (∀ x ∈ (outgoingLoop s l (BitVec.ofNat 32 n)).2.2, x.2 = s.query x.2.transactionId) ∧
    (outgoingLoop s l (BitVec.ofNat 32 n)).2.2.map (fun x => x.2.transactionId) = (List.range' n l.length).map nthTxn := by
  induction l generalizing s n with
  | nil => exact ⟨rfl, by simp [outgoingLoop], rfl, by simp [outgoingLoop], rfl⟩
  | cons a l ih =>
    have e : BitVec.ofNat 32 n + 1 = BitVec.ofNat 32 (n + 1) := by
      apply BitVec.eq_of_toNat_eq
      simp [BitVec.toNat_add]
    rw [outgoingLoop, e]
    obtain ⟨i1, i2, i3, i4, i5⟩ := ih { s with inFlight := setInsert s.inFlight (a, txnId (BitVec.ofNat 32 n)) } (n + 1)
    refine ⟨?_, ?_, ?_, ?_, ?_⟩
    · dsimp only
      rw [i1]
      rfl
    · dsimp only
      rw [i2, List.length_cons, Nat.add_assoc, Nat.add_comm 1]
    · dsimp only
      rw [List.map_cons, i3]
    · intro x hx
      dsimp only at hx
      rcases List.mem_cons.1 hx with rfl | hx
      · rfl
      · exact i4 x hx
    · dsimp only
      rw [List.map_cons, i5, List.length_cons, List.range'_succ, List.map_cons]
      rfl

/-! ### Sending -/

/-- Whether a query can be sent. -/
def sendOk (v6 : Bool) (udp : SockAddr → Bytes → Bool) (x : SockAddr × GetPeersQuery) : Bool :=
  match x.2.toBencode with
  | none => false
  | some m => udpSend v6 udp x.1 m

/-- The session after the queries were sent. -/
def afterSends (ok : SockAddr × GetPeersQuery → Bool) (s : LookupSession) (l : List (SockAddr × GetPeersQuery)) : LookupSession :=
  l.foldl (fun s x => if ok x then s else s.handleSendFailure x.1 x.2.transactionId) s

theorem sendQuery_eq (a : DhtActor) (hn : NodupKeys a.sessions) (udp : SockAddr → Bytes → Bool) (sid : Nat) (s : LookupSession)
    (hs : HMap.get a.sessions sid = some s) (x : SockAddr × GetPeersQuery) :
    a.sendQuery udp sid x.1 x.2 =
      ({ a with
          sessions := HMap.set a.sessions sid (if sendOk a.usingIpv6 udp x then s else s.handleSendFailure x.1 x.2.transactionId)
          timers := if sendOk a.usingIpv6 udp x then setInsert a.timers (qkey x) else a.timers },
        [.query sid x.1 x.2 x.2.toBencode (sendOk a.usingIpv6 udp x)]) := by
  unfold DhtActor.sendQuery sendOk DhtActor.sendFailed
  rw [hs]
  cases x.2.toBencode with
  | none => rfl
  | some m =>
    simp only
    by_cases hu : udpSend a.usingIpv6 udp x.1 m = true
    · rw [if_pos hu, if_pos hu, if_pos hu, HMap.set_same _ hn _ _ hs, hu]; rfl
    · rw [if_neg hu, if_neg hu, if_neg hu]
      simp only [Bool.not_eq_true] at hu
      rw [hu]

theorem sendAll_eq (udp : SockAddr → Bytes → Bool) (sid : Nat) (l : List (SockAddr × GetPeersQuery)) (a : DhtActor)
    (hn : NodupKeys a.sessions) (s : LookupSession) (hs : HMap.get a.sessions sid = some s) :
    a.sendAll udp sid l =
      ({ a with
          sessions := HMap.set a.sessions sid (afterSends (sendOk a.usingIpv6 udp) s l)
          timers := ((l.filter (sendOk a.usingIpv6 udp)).map qkey).foldl setInsert a.timers },
        l.map fun x => .query sid x.1 x.2 x.2.toBencode (sendOk a.usingIpv6 udp x)) := by
  induction l generalizing a s with
  | nil =>
    have := HMap.set_same _ hn _ _ hs
    simp only [DhtActor.sendAll, afterSends, List.foldl_nil, List.filter_nil, List.map_nil, this]
  | cons x l ih =>
    rw [DhtActor.sendAll, sendQuery_eq a hn udp sid s hs]
    have hs' : HMap.get (HMap.set a.sessions sid (if sendOk a.usingIpv6 udp x then s else s.handleSendFailure x.1 x.2.transactionId)) sid =
        some (if sendOk a.usingIpv6 udp x then s else s.handleSendFailure x.1 x.2.transactionId) := by
      rw [HMap.get_set, if_pos rfl, hs]; rfl
    simp only
    rw [ih _ (nodupKeys_set hn _ _) _ hs']
    simp only [HMap.set_set, List.map_cons, List.singleton_append]
    congr 1
    cases hok : sendOk a.usingIpv6 udp x <;> simp [afterSends, hok]

theorem afterSends_eq (ok : SockAddr × GetPeersQuery → Bool) (l : List (SockAddr × GetPeersQuery)) (s : LookupSession)
    (P : List (SockAddr × Bytes)) (hs : s.inFlight = P ++ l.map qkey) (hn : (P ++ l.map qkey).Nodup) :
    afterSends ok s l = { s with inFlight := P ++ (l.filter ok).map qkey } := by
  induction l generalizing s P with
  | nil =>
    simp only [List.map_nil, List.append_nil] at hs
    simp [afterSends, ← hs]
  | cons x l ih =>
    unfold afterSends
    rw [List.foldl_cons]
    by_cases hok : ok x = true
    · rw [if_pos hok]
      have := ih s (P ++ [qkey x]) (by rw [hs]; simp) (by simpa using hn)
      unfold afterSends at this
      rw [this, List.filter_cons_of_pos hok]
      simp
    · rw [if_neg hok]
      rw [List.map_cons, List.nodup_append, List.nodup_cons] at hn
      obtain ⟨n1, ⟨n2, n3⟩, n4⟩ := hn
      have hrem : (s.handleSendFailure x.1 x.2.transactionId).inFlight = P ++ l.map qkey := by
        show setRemove s.inFlight (qkey x) = _
        rw [hs, setRemove, List.map_cons, List.filter_append, List.filter_cons_of_neg (by simp)]
        congr 1
        · apply List.filter_eq_self.2
          intro y hy
          simpa using n4 y hy (qkey x) (by simp)
        · apply List.filter_eq_self.2
          intro y hy
          simp only [ne_eq, decide_not, Bool.not_eq_eq_eq_not, Bool.not_true, decide_eq_false_iff_not]
          rintro rfl
          exact n2 hy
      have := ih (s.handleSendFailure x.1 x.2.transactionId) P hrem (by
        rw [List.nodup_append]
        exact ⟨n1, n3, fun y hy z hz => n4 y hy z (by simp [hz])⟩)
      unfold afterSends at this
      rw [this, List.filter_cons_of_neg hok]
      rfl

/-! ### Finding the session -/

theorem findSession_eq (f : LookupSession → LookupSession × Bool) (p : LookupSession → Prop) [DecidablePred p]
    (hf : ∀ s, p s → (f s).2 = true) (hf' : ∀ s, ¬ p s → f s = (s, false)) (m : HMap Nat LookupSession) (hn : NodupKeys m) (order : List Nat) :
    (findSession f m order = (m, none) ∧ ∀ sid ∈ order, ∀ s, HMap.get m sid = some s → ¬ p s) ∨
    ∃ sid s, sid ∈ order ∧ HMap.get m sid = some s ∧ p s ∧ findSession f m order = (HMap.set m sid (f s).1, some sid) := by
  induction order with
  | nil => exact .inl ⟨rfl, by simp⟩
  | cons sid order ih =>
    rw [findSession]
    cases e : HMap.get m sid with
    | none =>
      simp only
      rcases ih with ⟨h1, h2⟩ | ⟨sid', s, h1, h2⟩
      · refine .inl ⟨h1, ?_⟩
        intro sid' hs s hg
        rcases List.mem_cons.1 hs with rfl | hs
        · rw [e] at hg; cases hg
        · exact h2 sid' hs s hg
      · exact .inr ⟨sid', s, by simp [h1], h2⟩
    | some s =>
      simp only
      by_cases hp : p s
      · rw [if_pos (hf s hp)]
        exact .inr ⟨sid, s, by simp, e, hp, rfl⟩
      · rw [hf' s hp]
        simp only [Bool.false_eq_true, ↓reduceIte]
        rw [HMap.set_same m hn _ _ e]
        rcases ih with ⟨h1, h2⟩ | ⟨sid', s', h1, h2⟩
        · refine .inl ⟨h1, ?_⟩
          intro sid' hs s' hg
          rcases List.mem_cons.1 hs with rfl | hs
          · rw [e] at hg; cases hg; exact hp
          · exact h2 sid' hs s' hg
        · exact .inr ⟨sid', s', by simp [h1], h2⟩

/-! ### The functions of the effects -/

theorem queries_append (t u : List DhtEffect) : queries (t ++ u) = queries t ++ queries u := List.filterMap_append ..
theorem queriedBy_append (sid : Nat) (t u : List DhtEffect) : queriedBy sid (t ++ u) = queriedBy sid t ++ queriedBy sid u := by
  simp [queriedBy, queries_append]
theorem outstanding_append (sid : Nat) (t u : List DhtEffect) : outstanding sid (t ++ u) = u.foldl (outstep sid) (outstanding sid t) :=
  List.foldl_append ..
theorem responses_append (sid : Nat) (t u : List DhtEffect) : responses sid (t ++ u) = responses sid t ++ responses sid u :=
  List.filterMap_append ..
theorem settled_append (t u : List DhtEffect) : settled (t ++ u) = settled t ++ settled u := List.filterMap_append ..
theorem nodeOps_snoc (rs : List (SockAddr × GetPeersResponse)) (r : SockAddr × GetPeersResponse) :
    nodeOps (rs ++ [r]) = respond (nodeOps rs) r := by simp [nodeOps, List.foldl_append]

/-- Effects of other lookups. -/
theorem outstanding_other (sid : Nat) (t u : List DhtEffect) (h : ∀ e ∈ u, lookupOf e ≠ some sid) :
    outstanding sid (t ++ u) = outstanding sid t := by
  rw [outstanding_append]
  generalize outstanding sid t = l
  induction u generalizing l with
  | nil => rfl
  | cons e u ih =>
    rw [List.foldl_cons, ih (fun e he => h e (by simp [he]))]
    have := h e (by simp)
    cases e with
    | query sid' a q p ok =>
      have hne : sid' ≠ sid := by simpa [lookupOf] using this
      simp [outstep, hne]
    | replied sid' a t m =>
      have hne : sid' ≠ sid := by simpa [lookupOf] using this
      simp [outstep, hne]
    | timedOut sid' a t =>
      have hne : sid' ≠ sid := by simpa [lookupOf] using this
      simp [outstep, hne]
    | started => rfl
    | answer => rfl
    | down => rfl

theorem responses_other (sid : Nat) (t u : List DhtEffect) (h : ∀ e ∈ u, lookupOf e ≠ some sid) :
    responses sid (t ++ u) = responses sid t := by
  rw [responses_append]
  have : responses sid u = [] := by
    unfold responses
    rw [List.filterMap_eq_nil_iff]
    intro e he
    have := h e he
    cases e with
    | replied sid' a t m =>
      have hne : sid' ≠ sid := by simpa [lookupOf] using this
      simp [responseOf, hne]
    | _ => rfl
  rw [this, List.append_nil]

theorem queriedBy_other (sid : Nat) (t u : List DhtEffect) (h : ∀ e ∈ u, lookupOf e ≠ some sid) :
    queriedBy sid (t ++ u) = queriedBy sid t := by
  rw [queriedBy_append]
  have : queriedBy sid u = [] := by
    unfold queriedBy
    rw [List.map_eq_nil_iff, List.filter_eq_nil_iff]
    intro x hx
    obtain ⟨e, he, hq⟩ := List.mem_filterMap.1 hx
    have := h e he
    cases e with
    | query sid' a q p ok =>
      simp only [queryOf, Option.some.injEq] at hq
      subst hq
      have hne : sid' ≠ sid := by simpa [lookupOf] using this
      simp [hne]
    | _ => cases hq
  rw [this, List.append_nil]

/-- The effects of sending. -/
def sends (sid : Nat) (ok : SockAddr × GetPeersQuery → Bool) (l : List (SockAddr × GetPeersQuery)) : List DhtEffect :=
  l.map fun x => .query sid x.1 x.2 x.2.toBencode (ok x)

theorem queries_sends (sid : Nat) (ok : SockAddr × GetPeersQuery → Bool) (l : List (SockAddr × GetPeersQuery)) :
    queries (sends sid ok l) = l.map fun x => (sid, x.1, x.2) := by
  induction l with
  | nil => rfl
  | cons x l ih => simp_all [sends, queries, queryOf]

theorem queriedBy_sends (sid : Nat) (ok : SockAddr × GetPeersQuery → Bool) (l : List (SockAddr × GetPeersQuery)) :
    queriedBy sid (sends sid ok l) = l.map Prod.fst := by
  unfold queriedBy
  rw [queries_sends, List.filter_eq_self.2, List.map_map]
  · rfl
  · intro x hx
    obtain ⟨y, -, rfl⟩ := List.mem_map.1 hx
    simp

theorem outstanding_sends (sid : Nat) (ok : SockAddr × GetPeersQuery → Bool) (l : List (SockAddr × GetPeersQuery)) (t : List DhtEffect) :
    outstanding sid (t ++ sends sid ok l) = outstanding sid t ++ (l.filter ok).map qkey := by
  rw [outstanding_append]
  generalize outstanding sid t = P
  induction l generalizing P with
  | nil => simp [sends]
  | cons x l ih =>
    have : sends sid ok (x :: l) = .query sid x.1 x.2 x.2.toBencode (ok x) :: sends sid ok l := rfl
    rw [this, List.foldl_cons, ih]
    cases h : ok x
    · simp [outstep, h]
    · simp [outstep, h, qkey]

theorem responses_sends (sid sid' : Nat) (ok : SockAddr × GetPeersQuery → Bool) (l : List (SockAddr × GetPeersQuery)) :
    responses sid (sends sid' ok l) = [] := by
  unfold responses sends
  rw [List.filterMap_eq_nil_iff]
  intro e he
  obtain ⟨x, -, rfl⟩ := List.mem_map.1 he
  rfl

theorem settled_sends (sid' : Nat) (ok : SockAddr × GetPeersQuery → Bool) (l : List (SockAddr × GetPeersQuery)) :
    settled (sends sid' ok l) = [] := by
  unfold settled sends
  rw [List.filterMap_eq_nil_iff]
  intro e he
  obtain ⟨x, -, rfl⟩ := List.mem_map.1 he
  rfl

theorem lookupOf_sends {sid : Nat} {ok : SockAddr × GetPeersQuery → Bool} {l : List (SockAddr × GetPeersQuery)} {e : DhtEffect}
    (h : e ∈ sends sid ok l) : lookupOf e = some sid := by
  obtain ⟨x, -, rfl⟩ := List.mem_map.1 h
  rfl

/-- Outstanding queries were sent. -/
theorem outstanding_sub (sid : Nat) (tr : List DhtEffect) :
    ∀ x ∈ outstanding sid tr, ∃ q, (sid, x.1, q) ∈ queries tr ∧ q.transactionId = x.2 := by
  induction tr using List.reverseRecOn with
  | nil => simp [outstanding]
  | append_singleton tr e ih =>
    intro x hx
    rw [outstanding_append, List.foldl_cons, List.foldl_nil] at hx
    have old : x ∈ outstanding sid tr → ∃ q, (sid, x.1, q) ∈ queries (tr ++ [e]) ∧ q.transactionId = x.2 := by
      intro h
      obtain ⟨q, h1, h2⟩ := ih x h
      exact ⟨q, by rw [queries_append]; exact List.mem_append_left _ h1, h2⟩
    cases e with
    | query sid' a q p ok =>
      simp only [outstep] at hx
      split at hx
      · rename_i hc
        rcases List.mem_append.1 hx with hx | hx
        · exact old hx
        · rw [List.mem_singleton] at hx
          subst hx
          exact ⟨q, by rw [queries_append, hc.1]; simp [queries, queryOf], rfl⟩
      · exact old hx
    | replied sid' a t m =>
      simp only [outstep] at hx
      split at hx
      · exact old (List.mem_filter.1 hx).1
      · exact old hx
    | timedOut sid' a t =>
      simp only [outstep] at hx
      split at hx
      · exact old (List.mem_filter.1 hx).1
      · exact old hx
    | started => exact old hx
    | answer => exact old hx
    | down => exact old hx

end Demag
