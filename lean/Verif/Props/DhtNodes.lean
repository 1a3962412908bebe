import Verif.Spec.Dht
import Verif.Lemmas.Maps
import Verif.Props.DhtDistance
import Mathlib.Data.List.Nodup
import Mathlib.Data.List.Induction

/-!
# C37: the nodes known to a DHT lookup
-/

namespace Demag

open Spec

/-- The infos in order. -/
def flat (bs : List (Bytes × List NodeInfo)) : List NodeInfo := bs.flatMap fun e => e.2

@[simp] theorem flat_nil : flat [] = [] := rfl
@[simp] theorem flat_cons (e : Bytes × List NodeInfo) (bs : List (Bytes × List NodeInfo)) : flat (e :: bs) = e.2 ++ flat bs := rfl

/-- The buckets are in order and hold the nodes of their distance. -/
def BucketsOk (h : InfoHash) (bs : List (Bytes × List NodeInfo)) : Prop :=
  bs.Pairwise (fun e f => bytesLt e.1 f.1 = true) ∧ ∀ e ∈ bs, ∀ i ∈ e.2, distance i.node.id h = e.1

theorem bytesLt_flip {a b : Bytes} (h : a ≠ b) (hab : bytesLt a b = false) : bytesLt b a = true := by
  induction a generalizing b with
  | nil => cases b with
    | nil => exact absurd rfl h
    | cons => simp [bytesLt] at hab
  | cons x xs ih =>
    cases b with
    | nil => rfl
    | cons y ys =>
      simp only [bytesLt, Bool.or_eq_false_iff, Bool.and_eq_false_iff, decide_eq_false_iff_not] at hab
      simp only [bytesLt, Bool.or_eq_true, Bool.and_eq_true, decide_eq_true_eq]
      by_cases e : x = y
      · subst e
        refine .inr ⟨rfl, ih (fun e => h (by rw [e])) ?_⟩
        rcases hab.2 with h1 | h1
        · exact absurd rfl h1
        · exact h1
      · left
        have : x.toNat ≠ y.toNat := fun h1 => e (UInt8.toNat_inj.1 h1)
        omega

theorem pushNode_perm (d : Bytes) (i : NodeInfo) (bs : List (Bytes × List NodeInfo)) : (flat (pushNode d i bs)).Perm (i :: flat bs) := by
  induction bs with
  | nil => exact List.Perm.refl _
  | cons e bs ih =>
    obtain ⟨d', b⟩ := e
    unfold pushNode
    split
    · exact List.Perm.refl _
    split
    · exact List.Perm.refl _
    · simp only [flat_cons]
      exact (List.Perm.append_left b ih).trans List.perm_middle

theorem pushNode_ok (h : InfoHash) (i : NodeInfo) (bs : List (Bytes × List NodeInfo)) (hb : BucketsOk h bs) :
    BucketsOk h (pushNode (distance i.node.id h) i bs) := by
  have mem : ∀ bs : List (Bytes × List NodeInfo), ∀ e ∈ pushNode (distance i.node.id h) i bs,
      e.1 = distance i.node.id h ∨ ∃ f ∈ bs, f.1 = e.1 := by
    intro bs
    induction bs with
    | nil => intro e he; simp only [pushNode, List.mem_singleton] at he; left; rw [he]
    | cons f bs ih =>
      obtain ⟨d', b⟩ := f
      intro e he
      unfold pushNode at he
      split at he
      · rename_i hd
        rcases List.mem_cons.1 he with rfl | he
        · left; exact hd.symm
        · right; exact ⟨e, by simp [he], rfl⟩
      split at he
      · rcases List.mem_cons.1 he with rfl | he
        · left; rfl
        · right; exact ⟨e, he, rfl⟩
      · rcases List.mem_cons.1 he with rfl | he
        · right; exact ⟨_, List.mem_cons_self .., rfl⟩
        · rcases ih e he with h1 | ⟨f, hf, h1⟩
          · exact .inl h1
          · exact .inr ⟨f, by simp [hf], h1⟩
  induction bs with
  | nil =>
    refine ⟨by simp [pushNode], ?_⟩
    intro e he j hj
    simp only [pushNode, List.mem_singleton] at he
    subst he
    simp only [List.mem_singleton] at hj
    rw [hj]
  | cons f bs ih =>
    obtain ⟨d', b⟩ := f
    obtain ⟨hp, hm⟩ := hb
    rw [List.pairwise_cons] at hp
    unfold pushNode
    split
    · rename_i hd
      refine ⟨List.pairwise_cons.2 ⟨hp.1, hp.2⟩, ?_⟩
      intro e he j hj
      rcases List.mem_cons.1 he with rfl | he
      · rcases List.mem_cons.1 hj with rfl | hj
        · exact hd
        · exact hm _ (List.mem_cons_self ..) j hj
      · exact hm e (by simp [he]) j hj
    split
    · rename_i hd hlt
      refine ⟨List.pairwise_cons.2 ⟨?_, List.pairwise_cons.2 hp⟩, ?_⟩
      · intro e he
        rcases List.mem_cons.1 he with rfl | he
        · exact hlt
        · exact bytesLt_trans hlt (hp.1 e he)
      · intro e he j hj
        rcases List.mem_cons.1 he with rfl | he
        · simp only [List.mem_singleton] at hj; rw [hj]
        · exact hm e he j hj
    · rename_i hd hlt
      have ih' := ih ⟨hp.2, fun e he => hm e (by simp [he])⟩
      refine ⟨List.pairwise_cons.2 ⟨?_, ih'.1⟩, ?_⟩
      · intro e he
        rcases mem bs e he with h1 | ⟨f, hf, h1⟩
        · rw [h1]
          exact bytesLt_flip hd (by simpa using hlt)
        · rw [← h1]; exact hp.1 f hf
      · intro e he j hj
        rcases List.mem_cons.1 he with rfl | he
        · exact hm _ (List.mem_cons_self ..) j hj
        · exact ih'.2 e he j hj

theorem mem_flat {bs : List (Bytes × List NodeInfo)} {i : NodeInfo} : i ∈ flat bs ↔ ∃ e ∈ bs, i ∈ e.2 := by
  simp [flat, List.mem_flatMap]

/-- Inserting keeps the order, if the new node comes before those at its distance. -/
theorem pushNode_sorted (h : InfoHash) (R : Node → Node → Prop) (i : NodeInfo) (bs : List (Bytes × List NodeInfo)) (hb : BucketsOk h bs)
    (hR : (flat bs).Pairwise fun a b => R a.node b.node)
    (hlt : ∀ a b : Node, bytesLt (distance a.id h) (distance b.id h) = true → R a b)
    (hnew : ∀ j ∈ flat bs, distance j.node.id h = distance i.node.id h → R i.node j.node) :
    (flat (pushNode (distance i.node.id h) i bs)).Pairwise fun a b => R a.node b.node := by
  induction bs with
  | nil => simp [pushNode, flat]
  | cons f bs ih =>
    obtain ⟨d', b⟩ := f
    obtain ⟨hp, hm⟩ := hb
    rw [List.pairwise_cons] at hp
    have hrest : ∀ j ∈ flat bs, bytesLt d' (distance j.node.id h) = true := by
      intro j hj
      obtain ⟨e, he, hj⟩ := mem_flat.1 hj
      rw [hm e (by simp [he]) j hj]
      exact hp.1 e he
    have hbk : ∀ j ∈ b, distance j.node.id h = d' := fun j hj => hm _ (List.mem_cons_self ..) j hj
    unfold pushNode
    split
    · rename_i hd
      rw [flat_cons, List.cons_append]
      refine List.pairwise_cons.2 ⟨?_, hR⟩
      intro j hj
      rcases List.mem_append.1 hj with hj | hj
      · exact hnew j (by simp [hj]) (by rw [hbk j hj, hd])
      · exact hlt _ _ (by rw [hd]; exact hrest j hj)
    split
    · rename_i hd hlt'
      refine List.pairwise_cons.2 ⟨?_, hR⟩
      intro j hj
      apply hlt
      change j ∈ flat ((d', b) :: bs) at hj
      rw [flat_cons] at hj
      rcases List.mem_append.1 hj with hj | hj
      · rw [hbk j hj]; exact hlt'
      · exact bytesLt_trans hlt' (hrest j hj)
    · rename_i hd hlt'
      rw [flat_cons] at hR ⊢
      rw [List.pairwise_append] at hR ⊢
      refine ⟨hR.1, ih ⟨hp.2, fun e he => hm e (by simp [he])⟩ hR.2.1 (fun j hj => hnew j (by simp [hj])), ?_⟩
      intro a ha c hc
      have := (pushNode_perm _ i bs).mem_iff.1 hc
      rcases List.mem_cons.1 this with rfl | hc
      · apply hlt
        rw [hbk a ha]
        exact bytesLt_flip hd (by simpa using hlt')
      · exact hR.2.2 a ha c hc

/-! ### Asking -/

/-- The node is marked as queried. -/
def NodeInfo.ask (i : NodeInfo) : NodeInfo := { i with queried := true }

theorem askBucket_eq (k : Nat) (l : List NodeInfo) :
    askBucket k l = (k - l.length, (l.take k).map NodeInfo.ask ++ l.drop k, ((l.take k).filter fun i => !i.queried).map fun i => i.node) := by
  induction l generalizing k with
  | nil => cases k <;> simp [askBucket]
  | cons i l ih =>
    cases k with
    | zero => simp [askBucket]
    | succ k =>
      rw [askBucket, ih]
      cases hq : i.queried <;> simp [NodeInfo.ask, hq]

theorem askBuckets_eq (k : Nat) (bs : List (Bytes × List NodeInfo)) :
    flat (askBuckets k bs).1 = ((flat bs).take k).map NodeInfo.ask ++ (flat bs).drop k ∧
    (askBuckets k bs).2 = (((flat bs).take k).filter fun i => !i.queried).map fun i => i.node := by
  induction bs generalizing k with
  | nil => simp [askBuckets]
  | cons e bs ih =>
    obtain ⟨d, b⟩ := e
    rw [askBuckets, askBucket_eq]
    simp only [flat_cons]
    obtain ⟨h1, h2⟩ := ih (k - b.length)
    rw [h1, h2, List.take_append, List.drop_append]
    by_cases hk : k ≤ b.length
    · rw [Nat.sub_eq_zero_of_le hk]
      simp
    · have : b.drop k = [] := List.drop_eq_nil_of_le (by omega)
      simp [this]

theorem askBuckets_keys (h : InfoHash) (k : Nat) (bs : List (Bytes × List NodeInfo)) (hb : BucketsOk h bs) :
    BucketsOk h (askBuckets k bs).1 := by
  have hk : ∀ (bs : List (Bytes × List NodeInfo)) k, ∀ e ∈ (askBuckets k bs).1, ∃ f ∈ bs, f.1 = e.1 := by
    intro bs
    induction bs with
    | nil => intro k e he; simp [askBuckets] at he
    | cons f bs ih =>
      intro k e he
      obtain ⟨d, b⟩ := f
      rw [askBuckets] at he
      rcases List.mem_cons.1 he with rfl | he
      · exact ⟨_, List.mem_cons_self .., rfl⟩
      · obtain ⟨f, hf, h1⟩ := ih _ e he
        exact ⟨f, by simp [hf], h1⟩
  induction bs generalizing k with
  | nil => exact ⟨List.Pairwise.nil, by simp [askBuckets]⟩
  | cons f bs ih =>
    obtain ⟨d, b⟩ := f
    obtain ⟨hp, hm⟩ := hb
    rw [List.pairwise_cons] at hp
    rw [askBuckets, askBucket_eq]
    have ih' := ih (k - b.length) ⟨hp.2, fun e he => hm e (by simp [he])⟩
    refine ⟨List.pairwise_cons.2 ⟨?_, ih'.1⟩, ?_⟩
    · intro e he
      obtain ⟨f, hf, h1⟩ := hk _ _ e he
      rw [← h1]; exact hp.1 f hf
    · intro e he j hj
      rcases List.mem_cons.1 he with rfl | he
      · simp only [List.mem_append, List.mem_map] at hj
        rcases hj with ⟨i, hi, rfl⟩ | hj
        · exact hm _ (List.mem_cons_self ..) i (List.mem_of_mem_take hi)
        · exact hm _ (List.mem_cons_self ..) j (List.mem_of_mem_drop hj)
      · exact ih'.2 e he j hj

/-! ### Marking -/

theorem markBucket_none (id : NodeId) (l : List NodeInfo) (h : ∀ i ∈ l, i.node.id ≠ id) (r : List NodeInfo) :
    markBucket id (l ++ r) = l ++ markBucket id r := by
  induction l with
  | nil => rfl
  | cons i l ih =>
    rw [List.cons_append, markBucket, if_neg (h i (by simp)), ih (fun i hi => h i (by simp [hi]))]; rfl

theorem markBucket_some (id : NodeId) (l : List NodeInfo) (h : ∃ i ∈ l, i.node.id = id) (r : List NodeInfo) :
    markBucket id (l ++ r) = markBucket id l ++ r := by
  induction l with
  | nil => simp at h
  | cons i l ih =>
    rw [List.cons_append, markBucket, markBucket]
    split
    · rfl
    · rename_i hi
      rw [ih (by
        obtain ⟨j, hj, h⟩ := h
        rcases List.mem_cons.1 hj with rfl | hj
        · exact absurd h hi
        · exact ⟨j, hj, h⟩)]
      rfl

theorem markBucket_self (id : NodeId) (l : List NodeInfo) (h : ∀ i ∈ l, i.node.id ≠ id) : markBucket id l = l := by
  have := markBucket_none id l h []
  simpa [markBucket] using this

theorem markBucket_nodes (id : NodeId) (l : List NodeInfo) :
    (markBucket id l).map (fun i => i.node) = l.map fun i => i.node := by
  induction l with
  | nil => rfl
  | cons i l ih =>
    rw [markBucket]
    split
    · rfl
    · rw [List.map_cons, List.map_cons, ih]

theorem markBuckets_eq (h : InfoHash) (id : NodeId) (bs : List (Bytes × List NodeInfo)) (hb : BucketsOk h bs) :
    flat (markBuckets (distance id h) id bs) = markBucket id (flat bs) ∧ BucketsOk h (markBuckets (distance id h) id bs) ∧
      (markBuckets (distance id h) id bs).map Prod.fst = bs.map Prod.fst := by
  induction bs with
  | nil => exact ⟨rfl, hb, rfl⟩
  | cons f bs ih =>
    obtain ⟨d, b⟩ := f
    obtain ⟨hp, hm⟩ := hb
    rw [List.pairwise_cons] at hp
    obtain ⟨i1, i2, i3⟩ := ih ⟨hp.2, fun e he => hm e (by simp [he])⟩
    unfold markBuckets
    split
    · rename_i hd
      refine ⟨?_, ⟨List.pairwise_cons.2 ⟨hp.1, hp.2⟩, ?_⟩, rfl⟩
      · simp only [flat_cons]
        by_cases he : ∃ i ∈ b, i.node.id = id
        · rw [markBucket_some id b he]
        · have he' : ∀ i ∈ b, i.node.id ≠ id := fun i hi h1 => he ⟨i, hi, h1⟩
          rw [markBucket_none id b he', markBucket_self id b he', markBucket_self id (flat bs)]
          intro i hi h1
          obtain ⟨e, hbe, hi⟩ := mem_flat.1 hi
          have h2 := hm e (by simp [hbe]) i hi
          have h3 := hp.1 e hbe
          simp only at h3
          rw [← h2, h1, hd, bytesLt_irrefl] at h3
          cases h3
      · intro e he j hj
        rcases List.mem_cons.1 he with rfl | he
        · have : j.node ∈ (markBucket id b).map fun i => i.node := List.mem_map.2 ⟨j, hj, rfl⟩
          rw [markBucket_nodes] at this
          obtain ⟨i, hi, h1⟩ := List.mem_map.1 this
          rw [← h1]; exact hm _ (List.mem_cons_self ..) i hi
        · exact hm e (by simp [he]) j hj
    · rename_i hd
      refine ⟨?_, ⟨List.pairwise_cons.2 ⟨?_, i2.1⟩, ?_⟩, ?_⟩
      · simp only [flat_cons]
        rw [markBucket_none id b, i1]
        intro i hi h1
        have := hm _ (List.mem_cons_self ..) i hi
        rw [h1] at this
        exact hd this.symm
      · intro e he
        have : e.1 ∈ (markBuckets (distance id h) id bs).map Prod.fst := List.mem_map.2 ⟨e, he, rfl⟩
        rw [i3] at this
        obtain ⟨f, hf, h1⟩ := List.mem_map.1 this
        rw [← h1]; exact hp.1 f hf
      · intro e he j hj
        rcases List.mem_cons.1 he with rfl | he
        · exact hm _ (List.mem_cons_self ..) j hj
        · exact i2.2 e he j hj
      · simp [i3]

/-- Marking changes at most the first node with the ID. -/
theorem markBucket_mem (id : NodeId) (l : List NodeInfo) (hn : (l.map fun i => i.node).Nodup) (j : NodeInfo) :
    j ∈ markBucket id l ↔
      ∃ i ∈ l, (j = i ∧ l.find? (fun x => x.node.id = id) ≠ some i) ∨
        (j = { i with responsive := true } ∧ l.find? (fun x => x.node.id = id) = some i) := by
  induction l with
  | nil => simp [markBucket]
  | cons i l ih =>
    rw [List.map_cons, List.nodup_cons] at hn
    rw [markBucket]
    by_cases hi : i.node.id = id
    · rw [if_pos hi]
      have hf : (i :: l).find? (fun x => x.node.id = id) = some i := by simp [hi]
      rw [hf]
      constructor
      · intro h
        rcases List.mem_cons.1 h with h | h
        · exact ⟨i, List.mem_cons_self .., .inr ⟨h, rfl⟩⟩
        · refine ⟨j, by simp [h], .inl ⟨rfl, ?_⟩⟩
          intro h1
          simp only [Option.some.injEq] at h1
          exact hn.1 (List.mem_map.2 ⟨j, h, by rw [h1]⟩)
      · rintro ⟨x, hx, ⟨rfl, h1⟩ | ⟨rfl, h1⟩⟩
        · rcases List.mem_cons.1 hx with rfl | hx
          · exact absurd rfl h1
          · simp [hx]
        · simp only [Option.some.injEq] at h1
          subst h1
          exact List.mem_cons_self ..
    · rw [if_neg hi]
      have hf : (i :: l).find? (fun x => x.node.id = id) = l.find? (fun x => x.node.id = id) := by simp [hi]
      rw [hf, List.mem_cons, ih hn.2]
      constructor
      · rintro (rfl | ⟨x, hx, h1⟩)
        · refine ⟨j, List.mem_cons_self .., .inl ⟨rfl, ?_⟩⟩
          intro h1
          have := List.find?_some h1
          simp only [decide_eq_true_eq] at this
          exact hi this
        · exact ⟨x, by simp [hx], h1⟩
      · rintro ⟨x, hx, h1⟩
        rcases List.mem_cons.1 hx with rfl | hx
        · rcases h1 with ⟨rfl, h1⟩ | ⟨rfl, h1⟩
          · exact .inl rfl
          · have := List.find?_some h1
            simp only [decide_eq_true_eq] at this
            exact absurd this hi
        · exact .inr ⟨x, hx, h1⟩

end Demag

namespace Demag

open Spec

theorem distance_lt_iff (h : InfoHash) (a b : Node) :
    bytesLt (distance a.id h) (distance b.id h) = true ↔ nodeDistance h a < nodeDistance h b := Props.distance_order _ _ _

theorem distance_eq_iff (h : InfoHash) (a b : Node) :
    distance a.id h = distance b.id h ↔ nodeDistance h a = nodeDistance h b := by
  unfold nodeDistance
  rw [← Props.distance_value, ← Props.distance_value]
  exact ⟨congrArg beValue, beValue_inj (by simp)⟩

theorem nodeDistance_id (h : InfoHash) {a b : Node} (e : nodeDistance h a = nodeDistance h b) : a.id = b.id :=
  Props.distance_injective _ _ h ((distance_eq_iff h a b).2 e)

theorem learn_prefix (l : List Node) (op : SpaceOp) : ∃ r, learn l op = l ++ r := by
  cases op with
  | add n =>
    by_cases h : Node.address n ∈ l.map Node.address
    · exact ⟨[], by rw [learn, if_pos h, List.append_nil]⟩
    · exact ⟨[n], by rw [learn, if_neg h]⟩
  | ask k => exact ⟨[], by simp [learn]⟩
  | mark id => exact ⟨[], by simp [learn]⟩

theorem known_snoc (ops : List SpaceOp) (op : SpaceOp) : known (ops ++ [op]) = learn (known ops) op := by
  simp [known, List.foldl_append]

theorem known_nodup (ops : List SpaceOp) : ((known ops).map Node.address).Nodup := by
  induction ops using List.reverseRecOn with
  | nil => simp [known]
  | append_singleton ops op ih =>
    rw [known_snoc]
    cases op with
    | add n =>
      simp only [learn]
      split
      · exact ih
      · rename_i h
        rw [List.map_append, List.nodup_append]
        refine ⟨ih, by simp, ?_⟩
        intro a ha b hb
        simp only [List.map_cons, List.map_nil, List.mem_singleton] at hb
        rw [hb]
        rintro rfl
        exact h ha
    | ask k => exact ih
    | mark id => exact ih

theorem spaceRun_snoc (s : NodeSpace) (ops : List SpaceOp) (op : SpaceOp) :
    spaceRun s (ops ++ [op]) =
      ((spaceApply (spaceRun s ops).1 op).1, (spaceRun s ops).2 ++ (spaceApply (spaceRun s ops).1 op).2) := by
  induction ops generalizing s with
  | nil => simp [spaceRun]
  | cons o ops ih => simp [spaceRun, ih]

theorem marked_snoc (ops : List SpaceOp) (op : SpaceOp) (n : Node) :
    Marked (ops ++ [op]) n ↔ Marked ops n ∨ op = .mark n.id ∧ n ∈ known ops ∧
      ∀ m ∈ known ops, m.id = n.id → m = n ∨ Later (known ops) n m := by
  constructor
  · rintro ⟨bef, aft, he, h1, h2⟩
    rcases List.eq_nil_or_concat aft with rfl | ⟨aft, x, rfl⟩
    · right
      have := List.append_inj' he rfl
      obtain ⟨rfl, h3⟩ := this
      simp only [List.cons.injEq, and_true] at h3
      exact ⟨h3, h1, h2⟩
    · left
      rw [List.concat_eq_append, show bef ++ SpaceOp.mark n.id :: (aft ++ [x]) = (bef ++ SpaceOp.mark n.id :: aft) ++ [x] by simp] at he
      have := List.append_inj' he rfl
      exact ⟨bef, aft, this.1, h1, h2⟩
  · rintro (⟨bef, aft, rfl, h1, h2⟩ | ⟨rfl, h1, h2⟩)
    · exact ⟨bef, aft ++ [op], by simp, h1, h2⟩
    · exact ⟨ops, [], rfl, h1, h2⟩

/-- The invariant of the node set. -/
structure SpaceInv (h : InfoHash) (ops : List SpaceOp) (s : NodeSpace) (asked : List Node) : Prop where
  hash : s.infoHash = h
  ok : BucketsOk h s.nodes
  ranking : IsRanking h (known ops) ((flat s.nodes).map fun i => i.node)
  queried : ∀ i ∈ flat s.nodes, i.queried = true ↔ i.node ∈ asked
  responsive : ∀ i ∈ flat s.nodes, i.responsive = true ↔ Marked ops i.node
  addrs : ∀ a n, HMap.get s.addr2node a = some n ↔ n ∈ known ops ∧ Node.address n = a
  asked_known : ∀ n ∈ asked, n ∈ known ops
  asked_nodup : asked.Nodup

theorem SpaceInv.nodup {h ops s asked} (v : SpaceInv h ops s asked) : ((flat s.nodes).map fun i => i.node).Nodup :=
  v.ranking.1.nodup_iff.2 (known_nodup ops).of_map

theorem SpaceInv.mem {h ops s asked} (v : SpaceInv h ops s asked) {i : NodeInfo} (hi : i ∈ flat s.nodes) : i.node ∈ known ops :=
  v.ranking.1.mem_iff.1 (List.mem_map.2 ⟨i, hi, rfl⟩)

theorem SpaceInv.new (h : InfoHash) : SpaceInv h [] (NodeSpace.new h) [] := by
  refine ⟨rfl, ⟨by simp [NodeSpace.new], by simp [NodeSpace.new]⟩, ⟨by simp [NodeSpace.new, known], by simp [NodeSpace.new]⟩, by simp [NodeSpace.new],
    by simp [NodeSpace.new], by simp [NodeSpace.new, known], by simp, by simp⟩

theorem marked_known {ops : List SpaceOp} {n : Node} (h : Marked ops n) : n ∈ known ops := by
  induction ops using List.reverseRecOn with
  | nil =>
    obtain ⟨b, a, he, -⟩ := h
    simp at he
  | append_singleton ops op ih =>
    rw [known_snoc]
    obtain ⟨r, hr⟩ := learn_prefix (known ops) op
    rw [hr]
    rcases (marked_snoc _ _ _).1 h with h | ⟨-, h, -⟩
    · exact List.mem_append_left _ (ih h)
    · exact List.mem_append_left _ h

theorem later_mono {l : List Node} {n m : Node} (r : List Node) (h : Later l n m) : Later (l ++ r) n m :=
  h.trans (List.sublist_append_left _ _)

theorem later_last {l : List Node} {n m : Node} (h : m ∈ l) : Later (l ++ [n]) n m :=
  (List.singleton_sublist.2 h).append (List.Sublist.refl [n])

theorem SpaceInv.add {h ops s asked} (v : SpaceInv h ops s asked) (n : Node) :
    SpaceInv h (ops ++ [.add n]) (s.add n) asked := by
  unfold NodeSpace.add
  have hk := known_snoc ops (.add n)
  have hmk : ∀ m, Marked (ops ++ [.add n]) m ↔ Marked ops m := by
    intro m; rw [marked_snoc]; simp
  by_cases hc : Node.address n ∈ (known ops).map Node.address
  · have hc' : HMap.contains s.addr2node (Node.address n) = true := by
      rw [HMap.contains_iff]
      obtain ⟨m, hm, he⟩ := List.mem_map.1 hc
      exact ⟨m, (v.addrs _ _).2 ⟨hm, he⟩⟩
    rw [if_pos hc']
    have hk' : known (ops ++ [.add n]) = known ops := by rw [hk]; simp [learn, hc]
    refine ⟨v.hash, v.ok, hk' ▸ v.ranking, v.queried, ?_, hk' ▸ v.addrs, hk' ▸ v.asked_known, v.asked_nodup⟩
    intro i hi; rw [hmk]; exact v.responsive i hi
  · have hc' : HMap.contains s.addr2node (Node.address n) = false := by
      rw [HMap.contains_false]
      cases e : HMap.get s.addr2node (Node.address n) with
      | none => rfl
      | some m =>
        obtain ⟨hm, he⟩ := (v.addrs _ _).1 e
        exact absurd (List.mem_map.2 ⟨m, hm, he⟩) hc
    rw [if_neg (by rw [hc']; simp)]
    have hk' : known (ops ++ [.add n]) = known ops ++ [n] := by rw [hk]; simp [learn, hc]
    have hperm := pushNode_perm (distance n.id s.infoHash) ⟨n, false, false⟩ s.nodes
    have hnew : n ∉ known ops := fun h => hc (List.mem_map.2 ⟨n, h, rfl⟩)
    refine ⟨v.hash, ?_, ⟨?_, ?_⟩, ?_, ?_, ?_, ?_, v.asked_nodup⟩
    · show BucketsOk h (pushNode (distance n.id s.infoHash) ⟨n, false, false⟩ s.nodes)
      rw [v.hash]
      exact pushNode_ok h ⟨n, false, false⟩ s.nodes v.ok
    · rw [hk']
      refine (hperm.map _).trans ?_
      rw [List.map_cons]
      exact (v.ranking.1.cons n).trans (List.perm_append_singleton n _).symm
    · rw [hk']
      rw [List.pairwise_map]
      simp only [v.hash]
      apply pushNode_sorted h (fun a b => nodeDistance h a < nodeDistance h b ∨
        nodeDistance h a = nodeDistance h b ∧ Later (known ops ++ [n]) a b) ⟨n, false, false⟩ s.nodes v.ok
      · have := v.ranking.2
        rw [List.pairwise_map] at this
        refine this.imp ?_
        rintro a b (h1 | ⟨h1, h2⟩)
        · exact .inl h1
        · exact .inr ⟨h1, later_mono _ h2⟩
      · intro a b hab
        exact .inl ((distance_lt_iff h a b).1 hab)
      · intro j hj hd
        exact .inr ⟨((distance_eq_iff h _ _).1 hd).symm, later_last (v.mem hj)⟩
    · intro i hi
      rcases List.mem_cons.1 (hperm.mem_iff.1 hi) with rfl | hi
      · simp only [Bool.false_eq_true, false_iff]
        exact fun h => hnew (v.asked_known _ h)
      · exact v.queried i hi
    · intro i hi
      rw [hmk]
      rcases List.mem_cons.1 (hperm.mem_iff.1 hi) with rfl | hi
      · simp only [Bool.false_eq_true, false_iff]
        exact fun h => hnew (marked_known h)
      · exact v.responsive i hi
    · intro a m
      rw [hk', HMap.get_insert]
      by_cases ha : Node.address n = a
      · rw [if_pos ha]
        constructor
        · intro h1; cases h1; exact ⟨by simp, ha⟩
        · rintro ⟨h1, h2⟩
          rcases List.mem_append.1 h1 with h1 | h1
          · exact absurd (List.mem_map.2 ⟨m, h1, by rw [h2, ha]⟩) hc
          · rw [List.mem_singleton.1 h1]
      · rw [if_neg ha, v.addrs]
        constructor
        · rintro ⟨h1, h2⟩; exact ⟨by simp [h1], h2⟩
        · rintro ⟨h1, h2⟩
          rcases List.mem_append.1 h1 with h1 | h1
          · exact ⟨h1, h2⟩
          · rw [List.mem_singleton.1 h1] at h2
            exact absurd h2 ha
    · intro m hm
      rw [hk']
      exact List.mem_append_left _ (v.asked_known m hm)

theorem askedNodes (k : Nat) (l : List NodeInfo) :
    ((l.take k).map NodeInfo.ask ++ l.drop k).map (fun i => i.node) = l.map fun i => i.node := by
  conv => rhs; rw [← List.take_append_drop k l]
  rw [List.map_append, List.map_append, List.map_map]
  rfl

theorem SpaceInv.ask {h ops s asked} (v : SpaceInv h ops s asked) (k : Nat) :
    SpaceInv h (ops ++ [.ask k]) (s.closestUnqueried k).1 (asked ++ (s.closestUnqueried k).2) ∧
    (s.closestUnqueried k).2 = (((flat s.nodes).map fun i => i.node).take k).filter fun n => n ∉ asked := by
  obtain ⟨h1, h2⟩ := askBuckets_eq k s.nodes
  have hk : known (ops ++ [.ask k]) = known ops := known_snoc ops (.ask k)
  have hmk : ∀ m, Marked (ops ++ [.ask k]) m ↔ Marked ops m := by
    intro m; rw [marked_snoc]; simp
  have hret : (s.closestUnqueried k).2 = (((flat s.nodes).map fun i => i.node).take k).filter fun n => n ∉ asked := by
    show (askBuckets k s.nodes).2 = _
    rw [h2, ← List.map_take, List.filter_map]
    congr 1
    apply List.filter_congr
    intro i hi
    have := v.queried i (List.mem_of_mem_take hi)
    cases hq : i.queried
    · rw [hq] at this
      simp only [Bool.false_eq_true, false_iff] at this
      simp [this]
    · rw [hq] at this
      simp only [true_iff] at this
      simp [this]
  have hnodes : (flat (s.closestUnqueried k).1.nodes).map (fun i => i.node) = (flat s.nodes).map fun i => i.node := by
    show (flat (askBuckets k s.nodes).1).map _ = _
    rw [h1, askedNodes]
  have hn := v.nodup
  refine ⟨⟨v.hash, askBuckets_keys h k s.nodes v.ok, ?_, ?_, ?_, ?_, ?_, ?_⟩, hret⟩
  · rw [hk, hnodes]; exact v.ranking
  · intro i hi
    change i ∈ flat (askBuckets k s.nodes).1 at hi
    rw [h1] at hi
    rw [List.mem_append, hret]
    rcases List.mem_append.1 hi with hi | hi
    · obtain ⟨j, hj, rfl⟩ := List.mem_map.1 hi
      simp only [NodeInfo.ask, true_iff]
      by_cases hja : j.node ∈ asked
      · exact .inl hja
      · right
        rw [List.mem_filter, ← List.map_take]
        exact ⟨List.mem_map.2 ⟨j, hj, rfl⟩, by simp [hja]⟩
    · rw [v.queried i (List.mem_of_mem_drop hi)]
      constructor
      · exact .inl
      · rintro (h3 | h3)
        · exact h3
        · exfalso
          have h4 := (List.mem_filter.1 h3).1
          rw [← List.take_append_drop k ((flat s.nodes).map fun i => i.node), List.nodup_append] at hn
          refine hn.2.2 i.node h4 i.node ?_ rfl
          rw [← List.map_drop]
          exact List.mem_map.2 ⟨i, hi, rfl⟩
  · intro i hi
    rw [hmk]
    change i ∈ flat (askBuckets k s.nodes).1 at hi
    rw [h1] at hi
    rcases List.mem_append.1 hi with hi | hi
    · obtain ⟨j, hj, rfl⟩ := List.mem_map.1 hi
      exact v.responsive j (List.mem_of_mem_take hj)
    · exact v.responsive i (List.mem_of_mem_drop hi)
  · rw [hk]; exact v.addrs
  · intro n hn
    rw [hk]
    rcases List.mem_append.1 hn with hn | hn
    · exact v.asked_known n hn
    · rw [hret] at hn
      exact v.ranking.1.mem_iff.1 (List.mem_of_mem_take (List.mem_filter.1 hn).1)
  · rw [List.nodup_append]
    refine ⟨v.asked_nodup, ?_, ?_⟩
    · rw [hret]
      exact (hn.sublist (List.take_sublist _ _)).sublist List.filter_sublist
    · intro a ha b hb
      rw [hret] at hb
      have := (List.mem_filter.1 hb).2
      rintro rfl
      simp [ha] at this

theorem later_asymm {l : List Node} (hn : l.Nodup) {n m : Node} (h : Later l n m) (h' : Later l m n) : False := by
  unfold Later at h h'
  induction l with
  | nil => cases h
  | cons a l ih =>
    rw [List.nodup_cons] at hn
    cases h with
    | cons _ h =>
      cases h' with
      | cons _ h' => exact ih hn.2 h h'
      | cons_cons _ h' => exact hn.1 (h.subset (by simp))
    | cons_cons _ h =>
      cases h' with
      | cons _ h' => exact hn.1 (h'.subset (by simp))
      | cons_cons _ h' => exact hn.1 (h.subset (by simp))

theorem SpaceInv.mark {h ops s asked} (v : SpaceInv h ops s asked) (id : NodeId) :
    SpaceInv h (ops ++ [.mark id]) (s.markResponsive id) asked := by
  have hk : known (ops ++ [.mark id]) = known ops := known_snoc ops (.mark id)
  have hb := markBuckets_eq h id s.nodes v.ok
  rw [← v.hash] at hb
  obtain ⟨h1, h2, h3⟩ := hb
  have hflat : flat (s.markResponsive id).nodes = markBucket id (flat s.nodes) := h1
  have hn := v.nodup
  have hkn := (known_nodup ops).of_map
  refine ⟨v.hash, ?_, ?_, ?_, ?_, ?_, ?_, v.asked_nodup⟩
  · rw [v.hash] at h2; show BucketsOk h (markBuckets (distance id s.infoHash) id s.nodes); rw [v.hash]; exact h2
  · rw [hk, hflat, markBucket_nodes]; exact v.ranking
  · intro i hi
    rw [hflat] at hi
    obtain ⟨j, hj, ⟨rfl, -⟩ | ⟨rfl, -⟩⟩ := (markBucket_mem id _ hn i).1 hi
    · exact v.queried _ hj
    · exact v.queried j hj
  · intro i hi
    rw [hflat] at hi
    -- the node that is found first is the latest with its ID
    have hfirst : ∀ j, (flat s.nodes).find? (fun x => x.node.id = id) = some j →
        j.node.id = id ∧ ∀ m ∈ known ops, m.id = id → m = j.node ∨ Later (known ops) j.node m := by
      intro j hj
      have hid := List.find?_some hj
      simp only [decide_eq_true_eq] at hid
      refine ⟨hid, ?_⟩
      intro m hm hmid
      obtain ⟨x, hx, rfl⟩ := List.mem_map.1 (v.ranking.1.mem_iff.2 hm)
      obtain ⟨pre, post, he, hpre⟩ := (List.find?_eq_some_iff_append.1 hj).2
      have hR := v.ranking.2
      rw [List.pairwise_map, he, List.pairwise_append] at hR
      rw [he] at hx
      rcases List.mem_append.1 hx with hx | hx
      · have := hpre x hx
        simp [hmid] at this
      · rcases List.mem_cons.1 hx with rfl | hx
        · exact .inl rfl
        · right
          rcases (List.pairwise_cons.1 hR.2.1).1 x hx with h4 | ⟨-, h4⟩
          · unfold nodeDistance at h4
            rw [hid, hmid] at h4
            omega
          · exact h4
    rw [marked_snoc]
    obtain ⟨j, hj, ⟨rfl, hf⟩ | ⟨rfl, hf⟩⟩ := (markBucket_mem id _ hn i).1 hi
    · rw [v.responsive i hj]
      constructor
      · exact .inl
      · rintro (h4 | ⟨h4, h5, h6⟩)
        · exact h4
        · exfalso
          simp only [SpaceOp.mark.injEq] at h4
          subst h4
          cases e : (flat s.nodes).find? (fun x => x.node.id = i.node.id) with
          | none =>
            have := List.find?_eq_none.1 e i hj
            simp at this
          | some x =>
            rw [e] at hf
            obtain ⟨g1, g2⟩ := hfirst x e
            have hx := v.mem (List.mem_of_find?_eq_some e)
            have hne : x.node ≠ i.node := by
              intro h7
              exact hf (congrArg some (List.inj_on_of_nodup_map hn (List.mem_of_find?_eq_some e) hj h7))
            have a1 := (h6 x.node hx g1).resolve_left hne
            have a2 := (g2 i.node h5 rfl).resolve_left (Ne.symm hne)
            exact later_asymm hkn a1 a2
    · simp only [true_iff]
      right
      obtain ⟨g1, g2⟩ := hfirst j hf
      exact ⟨by rw [g1], v.mem hj, by rw [g1]; exact g2⟩
  · rw [hk]; exact v.addrs
  · rw [hk]; exact v.asked_known

theorem SpaceInv.run (h : InfoHash) (ops : List SpaceOp) :
    SpaceInv h ops (spaceRun (NodeSpace.new h) ops).1 (spaceRun (NodeSpace.new h) ops).2 := by
  induction ops using List.reverseRecOn with
  | nil => exact SpaceInv.new h
  | append_singleton ops op ih =>
    rw [spaceRun_snoc]
    cases op with
    | add n => simpa [spaceApply] using ih.add n
    | ask k => exact (ih.ask k).1
    | mark id => simpa [spaceApply] using ih.mark id

end Demag

namespace Demag.Props

open Demag Spec

/-- The ranking of the known nodes is unique. -/
theorem ranking_unique (h : InfoHash) (ops : List SpaceOp) (L L' : List Node) (hL : IsRanking h (known ops) L)
    (hL' : IsRanking h (known ops) L') : L = L' := by
  have hn := (known_nodup ops).of_map
  have asymm : ∀ a b : Node, (nodeDistance h a < nodeDistance h b ∨ nodeDistance h a = nodeDistance h b ∧ Later (known ops) a b) →
      (nodeDistance h b < nodeDistance h a ∨ nodeDistance h b = nodeDistance h a ∧ Later (known ops) b a) → a = b := by
    rintro a b (h1 | ⟨h1, h2⟩) (h3 | ⟨h3, h4⟩)
    · omega
    · omega
    · omega
    · exact (later_asymm hn h2 h4).elim
  exact List.Perm.eq_of_pairwise (fun a b _ _ => asymm a b) hL.2 hL'.2 (hL.1.trans hL'.1.symm)

/-- **C37.** After any history the known nodes, which have distinct addresses, are ranked by distance, and the nodes that are to be
queried next are, in this order, those of the first `k` that were not to be queried before; and none is to be queried twice. -/
theorem closest_unqueried_spec (h : InfoHash) (ops : List SpaceOp) (k : Nat) :
    ((known ops).map Node.address).Nodup ∧
    (∃ L, IsRanking h (known ops) L ∧
      ((spaceRun (NodeSpace.new h) ops).1.closestUnqueried k).2 =
        (L.take k).filter fun n => n ∉ (spaceRun (NodeSpace.new h) ops).2) ∧
    ((spaceRun (NodeSpace.new h) ops).2.map Node.address).Nodup := by
  have v := SpaceInv.run h ops
  refine ⟨known_nodup ops, ⟨_, v.ranking, (v.ask k).2⟩, ?_⟩
  rw [List.nodup_map_iff_inj_on v.asked_nodup]
  intro x hx y hy hxy
  exact List.inj_on_of_nodup_map (known_nodup ops) (v.asked_known x hx) (v.asked_known y hy) hxy

/-- **C37.** After any history the closest responsive nodes are the first `k` of the marked ones, in the order of their rank. -/
theorem closest_responsive_spec (h : InfoHash) (ops : List SpaceOp) (k : Nat) (marked : Node → Bool)
    (hm : ∀ n, marked n = true ↔ Marked ops n) :
    ∃ L, IsRanking h (known ops) L ∧ (spaceRun (NodeSpace.new h) ops).1.closestResponsive k = (L.filter marked).take k := by
  have v := SpaceInv.run h ops
  refine ⟨_, v.ranking, ?_⟩
  unfold NodeSpace.closestResponsive
  change (((flat (spaceRun (NodeSpace.new h) ops).1.nodes).filter fun i => i.responsive).take k).map (fun i => i.node) = _
  rw [List.filter_map, ← List.map_take]
  congr 2
  apply List.filter_congr
  intro i hi
  have := v.responsive i hi
  rw [← hm] at this
  simp only [Function.comp]
  exact Bool.eq_iff_iff.2 this

/-- Three nodes: one far away, one close, and another one at the ID of the first. -/
def exampleNodes : List Node :=
  [⟨⟨9 :: List.replicate 19 0, by decide⟩, .v4 ⟨0x01020304#32⟩, 1⟩, ⟨⟨1 :: List.replicate 19 0, by decide⟩, .v4 ⟨0x01020304#32⟩, 2⟩,
   ⟨⟨9 :: List.replicate 19 0, by decide⟩, .v4 ⟨0x01020305#32⟩, 1⟩]

/-- The nodes become known (the first twice), two are to be queried, an ID answers. -/
def exampleOps : List SpaceOp :=
  (exampleNodes.map SpaceOp.add) ++ [.add exampleNodes[0], .ask 2, .mark ⟨9 :: List.replicate 19 0, by decide⟩]

example : (spaceRun (NodeSpace.new ⟨List.replicate 20 0, by decide⟩) exampleOps).2 = [exampleNodes[1], exampleNodes[2]] := by decide +kernel
example : ((spaceRun (NodeSpace.new ⟨List.replicate 20 0, by decide⟩) exampleOps).1.closestUnqueried 8).2 = [exampleNodes[0]] := by
  decide +kernel
example : (spaceRun (NodeSpace.new ⟨List.replicate 20 0, by decide⟩) exampleOps).1.closestResponsive 8 = [exampleNodes[2]] := by
  decide +kernel
/-- The hypothesis of `closest_responsive_spec` can always be met. -/
noncomputable example (ops : List SpaceOp) : { f : Node → Bool // ∀ n, f n = true ↔ Marked ops n } :=
  ⟨fun n => @decide (Marked ops n) (Classical.propDecidable _), fun n => by simp⟩

end Demag.Props
