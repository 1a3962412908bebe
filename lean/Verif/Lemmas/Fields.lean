import Verif.Spec.Fields
import Verif.Lemmas.Emit
import Verif.Lemmas.Maps
import Verif.Model.PeerMsg

/-!
# Loops over the pairs of a dictionary
-/

namespace Demag

open Spec

theorem key_eq (s : String) : key s = keyBytes s := rfl

theorem lookup_eq_get (k : Bytes) (kvs : List (Bytes × Ben)) : lookup k kvs = HMap.get kvs k := by
  unfold lookup HMap.get
  congr 2
  funext kv
  exact Bool.beq_eq_decide_eq _ _

theorem lookup_cons (k : Bytes) (kv : Bytes × Ben) (kvs : List (Bytes × Ben)) :
    lookup k (kv :: kvs) = if kv.1 = k then some kv.2 else lookup k kvs := by
  rw [lookup_eq_get, lookup_eq_get]; exact HMap.get_cons ..

/-- `x` is what an optional field decodes to. -/
def fieldIs {α : Type} (k : Bytes) (kvs : List (Bytes × Ben)) (f : Ben → Option α) (x : Option α) : Prop :=
  match lookup k kvs with
  | none => x = none
  | some v => f v = x ∧ x.isSome

theorem fieldIs_iff {α : Type} (k : String) (kvs : List (Bytes × Ben)) (f : Ben → Option α) (P : Ben → α → Prop)
    (h : ∀ v a, lookup (keyBytes k) kvs = some v → (f v = some a ↔ P v a)) (x : Option α) :
    fieldIs (key k) kvs f x ↔ OptField k kvs P x := by
  unfold fieldIs OptField
  rw [key_eq]
  cases e : lookup (keyBytes k) kvs with
  | none => cases x <;> simp
  | some v =>
    cases x with
    | none => simp
    | some a => simp [h v a e]

section Loop

variable {σ : Type} {step : σ → Bytes × Ben → Option σ}

/-- One component of the loop state. -/
theorem foldlM_field {α : Type} (π : σ → Option α) (k : Bytes) (f : Ben → Option α)
    (hk : ∀ s v s', step s (k, v) = some s' → π s' = f v ∧ (f v).isSome)
    (ho : ∀ s k' v s', k' ≠ k → step s (k', v) = some s' → π s' = π s)
    (kvs : List (Bytes × Ben)) (hn : NodupKeys kvs) (s s' : σ) (h : kvs.foldlM step s = some s') :
    match lookup k kvs with
    | none => π s' = π s
    | some v => f v = π s' ∧ (π s').isSome := by
  induction kvs generalizing s with
  | nil => simp only [List.foldlM_nil, pure, Option.some.injEq] at h; subst h; rfl
  | cons kv kvs ih =>
    obtain ⟨k', v⟩ := kv
    simp only [NodupKeys, List.map_cons, List.nodup_cons] at hn
    rw [List.foldlM_cons] at h
    cases e : step s (k', v) with
    | none => rw [e] at h; cases h
    | some s1 =>
      rw [e] at h
      have ih' := ih hn.2 s1 h
      rw [lookup_cons]
      by_cases hkk : k' = k
      · subst hkk
        rw [if_pos rfl]
        have hnone : lookup k' kvs = none := by rw [lookup_eq_get]; exact HMap.get_none_iff.2 hn.1
        rw [hnone] at ih'
        have := hk s v s1 e
        rw [ih', this.1]
        exact ⟨rfl, this.2⟩
      · rw [if_neg hkk]
        have := ho s k' v s1 hkk e
        cases e2 : lookup k kvs with
        | none => rw [e2] at ih'; simp only at ih' ⊢; rw [ih', this]
        | some w => rw [e2] at ih'; exact ih'

theorem foldlM_fieldIs {α : Type} (π : σ → Option α) (k : Bytes) (f : Ben → Option α)
    (hk : ∀ s v s', step s (k, v) = some s' → π s' = f v ∧ (f v).isSome)
    (ho : ∀ s k' v s', k' ≠ k → step s (k', v) = some s' → π s' = π s)
    (kvs : List (Bytes × Ben)) (hn : NodupKeys kvs) (s s' : σ) (h : kvs.foldlM step s = some s') (h0 : π s = none) :
    fieldIs k kvs f (π s') := by
  have := foldlM_field π k f hk ho kvs hn s s' h
  unfold fieldIs
  cases e : lookup k kvs with
  | none => rw [e] at this; simp only at this ⊢; rw [this, h0]
  | some v => rw [e] at this; exact this

/-- The loop succeeds if every pair is acceptable in every state. -/
theorem foldlM_isSome (kvs : List (Bytes × Ben)) (s : σ)
    (h : ∀ kv ∈ kvs, ∀ s, (step s kv).isSome) : (kvs.foldlM step s).isSome := by
  induction kvs generalizing s with
  | nil => rfl
  | cons kv kvs ih =>
    rw [List.foldlM_cons]
    have := h kv (List.mem_cons_self ..) s
    cases e : step s kv with
    | none => rw [e] at this; cases this
    | some s1 => exact ih s1 fun kv' hkv' => h kv' (List.mem_cons_of_mem _ hkv')

end Loop

theorem fieldIs_mem {α : Type} {k : Bytes} {kvs : List (Bytes × Ben)} (hn : NodupKeys kvs) {f : Ben → Option α} {x : Option α}
    (h : fieldIs k kvs f x) {kv : Bytes × Ben} (hm : kv ∈ kvs) (hk : kv.1 = k) : (f kv.2).isSome := by
  have : lookup k kvs = some kv.2 := by
    rw [lookup_eq_get]; exact HMap.mem_get hn (by rw [← hk]; exact hm)
  unfold fieldIs at h
  rw [this] at h
  simp only at h
  rw [h.1]; exact h.2

theorem fieldIs_unique {α : Type} {k : Bytes} {kvs : List (Bytes × Ben)} {f : Ben → Option α} {x y : Option α}
    (hx : fieldIs k kvs f x) (hy : fieldIs k kvs f y) : x = y := by
  unfold fieldIs at hx hy
  split at hx
  · rename_i h; rw [h] at hy; simp only at hy; rw [hx, hy]
  · rename_i v h; rw [h] at hy; simp only at hy; rw [← hx.1, ← hy.1]

/-! ### Values -/

theorem benUint_iff {w : Nat} (v : Ben) (x : BitVec w) : benUint w v = some x ↔ v = .int x.toNat := by
  cases v with
  | int i =>
    simp only [benUint, Ben.int.injEq]
    constructor
    · intro h
      split at h
      · rename_i hi
        simp only [Option.some.injEq] at h
        subst h
        rw [BitVec.toNat_ofNat]
        have : i.toNat < 2 ^ w := by
          have := hi.2
          have h2 : (i.toNat : Int) < ((2 ^ w : Nat) : Int) := by rw [Int.toNat_of_nonneg hi.1]; simpa using this
          exact Int.ofNat_lt.1 h2
        rw [Nat.mod_eq_of_lt this, Int.toNat_of_nonneg hi.1]
      · cases h
    · rintro rfl
      have h1 : (0 : Int) ≤ (x.toNat : Int) := Int.natCast_nonneg _
      have h2 : (x.toNat : Int) < 2 ^ w := by
        have := x.isLt
        have : ((x.toNat : Nat) : Int) < ((2 ^ w : Nat) : Int) := Int.ofNat_lt.2 this
        simpa using this
      rw [if_pos ⟨h1, h2⟩]
      simp
  | _ => simp [benUint]

theorem benBytes_iff (v : Ben) (x : Bytes) : benBytes v = some x ↔ v = .bytes x := by
  cases v <;> simp [benBytes]

theorem benText_iff (v : Ben) (t : Text) : benText v = some t ↔ v = .bytes (utf8 t) := by
  cases v <;> simp [benText, fromUtf8_iff]

theorem benList_iff (v : Ben) (x : List Ben) : benList v = some x ↔ v = .list x := by
  cases v <;> simp [benList]

theorem benDict_iff (v : Ben) (x : List (Bytes × Ben)) : benDict v = some x ↔ v = .dict x := by
  cases v <;> simp [benDict]

theorem canonical_lookup {kvs : List (Bytes × Ben)} (h : CanonicalDict kvs) {k : Bytes} {v : Ben}
    (hl : lookup k kvs = some v) : Canonical v := by
  induction kvs with
  | nil => cases hl
  | cons kv kvs ih =>
    obtain ⟨k', v'⟩ := kv
    rw [CanonicalDict] at h
    rw [lookup_cons] at hl
    split at hl
    · cases hl; exact h.1
    · exact ih h.2 hl

theorem depth_lookup {kvs : List (Bytes × Ben)} {k : Bytes} {v : Ben}
    (hl : lookup k kvs = some v) : depth v ≤ depthDict kvs := by
  induction kvs with
  | nil => cases hl
  | cons kv kvs ih =>
    obtain ⟨k', v'⟩ := kv
    rw [depthDict]
    rw [lookup_cons] at hl
    split at hl
    · cases hl; exact Nat.le_max_left ..
    · exact Nat.le_trans (ih hl) (Nat.le_max_right ..)

/-- The entries of a `BTreeMap<String, u8>` as a dictionary. -/
def textMapBen (m : List (Text × BitVec 8)) : List (Bytes × Ben) := m.map fun kv => (utf8 kv.1, .int kv.2.toNat)

theorem benTextMap_iff (v : Ben) (hc : Canonical v) (m : List (Text × BitVec 8)) :
    benTextMap v = some m ↔ v = .dict (textMapBen m) := by
  cases v with
  | dict kvs =>
    simp only [benTextMap, Ben.dict.injEq]
    rw [Canonical] at hc
    have key : ∀ (kvs : List (Bytes × Ben)) (acc m : List (Text × BitVec 8)), SortedKeys kvs →
        (∀ x ∈ acc, ∀ kv ∈ kvs, bytesLt (utf8 x.1) kv.1 = true) →
        (kvs.foldlM (fun m kv => do
          let k ← fromUtf8 kv.1
          let v ← benUint 8 kv.2
          some (btreeInsert m k v)) acc = some m ↔ ∃ m', m = acc ++ m' ∧ kvs = textMapBen m') := by
      intro kvs
      induction kvs with
      | nil =>
        intro acc m _ _
        simp only [List.foldlM_nil, pure, Option.some.injEq]
        constructor
        · rintro rfl; exact ⟨[], by simp, rfl⟩
        · rintro ⟨m', rfl, h⟩
          cases m' with
          | nil => simp
          | cons => simp [textMapBen] at h
      | cons kv kvs ih =>
        intro acc m hs ha
        rw [List.foldlM_cons]
        obtain ⟨k, v⟩ := kv
        simp only [bind, Option.bind]
        rw [sortedKeys_cons'] at hs
        constructor
        · intro h
          cases hk : fromUtf8 k with
          | none => simp [hk] at h
          | some t =>
            cases hv : benUint 8 v with
            | none => simp [hk, hv] at h
            | some c =>
              simp only [hk, hv] at h
              rw [fromUtf8_iff] at hk
              rw [benUint_iff] at hv
              subst hk hv
              rw [btreeInsert_append acc t c (fun x hx => ha x hx _ (List.mem_cons_self ..))] at h
              have := (ih (acc ++ [(t, c)]) m hs.2 (by
                intro x hx kv hkv
                rcases List.mem_append.1 hx with hx | hx
                · exact ha x hx kv (List.mem_cons_of_mem _ hkv)
                · simp only [List.mem_singleton] at hx; subst hx; exact hs.1 kv hkv)).1 h
              obtain ⟨m', rfl, rfl⟩ := this
              exact ⟨(t, c) :: m', by simp, rfl⟩
        · rintro ⟨m', rfl, h⟩
          cases m' with
          | nil => simp [textMapBen] at h
          | cons tc m' =>
            obtain ⟨t, c⟩ := tc
            simp only [textMapBen, List.map_cons, List.cons.injEq, Prod.mk.injEq] at h
            obtain ⟨⟨rfl, rfl⟩, rfl⟩ := h
            simp only [fromUtf8_utf8, (benUint_iff (Ben.int c.toNat) c).2 rfl]
            rw [btreeInsert_append acc t c (fun x hx => ha x hx _ (List.mem_cons_self ..))]
            refine (ih (acc ++ [(t, c)]) _ hs.2 (by
                intro x hx kv hkv
                rcases List.mem_append.1 hx with hx | hx
                · exact ha x hx kv (List.mem_cons_of_mem _ hkv)
                · simp only [List.mem_singleton] at hx; subst hx; exact hs.1 kv hkv)).2 ⟨m', by simp, rfl⟩
    rw [key kvs [] m hc.1 (by simp)]
    simp
  | _ => simp [benTextMap]

end Demag
