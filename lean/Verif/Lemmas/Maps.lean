import Verif.Model.PeerExt
import Verif.Lemmas.Emit

/-! Helper lemmas about the map models. -/

namespace Demag

open Spec

variable {κ ν : Type} [DecidableEq κ]

@[simp] theorem HMap.get_nil (k : κ) : HMap.get ([] : HMap κ ν) k = none := rfl

theorem HMap.get_cons (k : κ) (v : ν) (m : HMap κ ν) (k' : κ) :
    HMap.get ((k, v) :: m) k' = if k = k' then some v else HMap.get m k' := by
  unfold HMap.get
  by_cases h : k = k' <;> simp [h]

theorem HMap.get_filter_ne (m : HMap κ ν) (k k' : κ) (h : k' ≠ k) :
    HMap.get (m.filter fun kv => kv.1 ≠ k) k' = HMap.get m k' := by
  induction m with
  | nil => rfl
  | cons kv m ih =>
    obtain ⟨a, b⟩ := kv
    by_cases ha : a = k
    · subst ha
      rw [List.filter_cons_of_neg (by simp), ih, HMap.get_cons, if_neg (Ne.symm h)]
    · rw [List.filter_cons_of_pos (by simpa using ha), HMap.get_cons, HMap.get_cons, ih]

theorem HMap.get_filter_self (m : HMap κ ν) (k : κ) :
    HMap.get (m.filter fun kv => kv.1 ≠ k) k = none := by
  induction m with
  | nil => rfl
  | cons kv m ih =>
    obtain ⟨a, b⟩ := kv
    by_cases ha : a = k
    · rw [List.filter_cons_of_neg (by simp [ha]), ih]
    · rw [List.filter_cons_of_pos (by simpa using ha), HMap.get_cons, ih, if_neg ha]

theorem HMap.get_insert (m : HMap κ ν) (k : κ) (v : ν) (k' : κ) :
    HMap.get (HMap.insert m k v) k' = if k = k' then some v else HMap.get m k' := by
  unfold HMap.insert
  rw [HMap.get_cons]
  by_cases h : k = k'
  · simp [h]
  · rw [if_neg h, if_neg h, HMap.get_filter_ne _ _ _ (Ne.symm h)]

theorem HMap.get_remove (m : HMap κ ν) (k k' : κ) :
    HMap.get (HMap.remove m k) k' = if k = k' then none else HMap.get m k' := by
  unfold HMap.remove
  by_cases h : k = k'
  · subst h; rw [if_pos rfl, HMap.get_filter_self]
  · rw [if_neg h, HMap.get_filter_ne _ _ _ (Ne.symm h)]

theorem HMap.contains_iff (m : HMap κ ν) (k : κ) : HMap.contains m k = true ↔ ∃ v, HMap.get m k = some v := by
  unfold HMap.contains; rw [Option.isSome_iff_exists]

theorem HMap.contains_false (m : HMap κ ν) (k : κ) : HMap.contains m k = false ↔ HMap.get m k = none := by
  unfold HMap.contains; simp

/-- No key twice. -/
def NodupKeys (m : List (κ × ν)) : Prop := (m.map Prod.fst).Nodup

theorem HMap.get_mem {m : HMap κ ν} {k : κ} {v : ν} (h : HMap.get m k = some v) : (k, v) ∈ m := by
  unfold HMap.get at h
  cases e : m.find? (fun kv => kv.1 = k) with
  | none => rw [e] at h; cases h
  | some kv =>
    rw [e] at h
    cases h
    have h1 := List.mem_of_find?_eq_some e
    have h2 := List.find?_some e
    simp only [decide_eq_true_eq] at h2
    rw [← h2]; exact h1

theorem HMap.mem_get {m : HMap κ ν} (hn : NodupKeys m) {k : κ} {v : ν} (h : (k, v) ∈ m) : HMap.get m k = some v := by
  induction m with
  | nil => cases h
  | cons kv m ih =>
    obtain ⟨a, b⟩ := kv
    simp only [NodupKeys, List.map_cons, List.nodup_cons] at hn
    rw [HMap.get_cons]
    cases h with
    | head => simp
    | tail _ h =>
      have : a ≠ k := by
        rintro rfl
        exact hn.1 (List.mem_map.2 ⟨_, h, rfl⟩)
      rw [if_neg this]; exact ih hn.2 h

theorem HMap.get_none_iff {m : HMap κ ν} {k : κ} : HMap.get m k = none ↔ k ∉ m.map Prod.fst := by
  unfold HMap.get
  simp only [Option.map_eq_none_iff, List.find?_eq_none, decide_eq_true_eq, List.mem_map, not_exists, not_and]

theorem nodupKeys_remove {m : HMap κ ν} (h : NodupKeys m) (k : κ) : NodupKeys (HMap.remove m k) := by
  unfold NodupKeys HMap.remove at *
  exact h.sublist (List.filter_sublist.map _)

theorem nodupKeys_insert {m : HMap κ ν} (h : NodupKeys m) (k : κ) (v : ν) : NodupKeys (HMap.insert m k v) := by
  unfold HMap.insert NodupKeys
  rw [List.map_cons, List.nodup_cons]
  refine ⟨?_, nodupKeys_remove h k⟩
  simp

/-! ### Sorted entries -/

theorem get_btreeInsert (m : List (Text × ν)) (k : Text) (v : ν) (k' : Text) :
    HMap.get (btreeInsert m k v) k' = if k = k' then some v else HMap.get m k' := by
  induction m with
  | nil => simp [btreeInsert, HMap.get_cons]
  | cons kv m ih =>
    obtain ⟨a, b⟩ := kv
    unfold btreeInsert
    split
    · rename_i h
      subst h
      by_cases h2 : k = k' <;> simp [HMap.get_cons, h2]
    · split
      · simp [HMap.get_cons]
      · rename_i h1 h2
        rw [HMap.get_cons, ih, HMap.get_cons]
        by_cases h3 : k = k'
        · subst h3
          simp [Ne.symm h1]
        · simp [h3]

/-- Entries of a `BTreeMap<String, _>`: strictly increasing keys. -/
def TextSorted (m : List (Text × ν)) : Prop := SortedKeys (m.map fun kv => (utf8 kv.1, kv.2))

theorem bytesLt_irrefl (a : List UInt8) : bytesLt a a = false := by
  induction a with
  | nil => rfl
  | cons x xs ih => simp [bytesLt, ih]

theorem bytesLt_trans {a b c : List UInt8} (h1 : bytesLt a b = true) (h2 : bytesLt b c = true) :
    bytesLt a c = true := by
  induction a generalizing b c with
  | nil =>
    cases c with
    | nil => cases b <;> simp [bytesLt] at h2
    | cons => rfl
  | cons x xs ih =>
    cases b with
    | nil => simp [bytesLt] at h1
    | cons y ys =>
      cases c with
      | nil => simp [bytesLt] at h2
      | cons z zs =>
        simp only [bytesLt, Bool.or_eq_true, decide_eq_true_eq, Bool.and_eq_true] at *
        rcases h1 with h1 | ⟨rfl, h1⟩ <;> rcases h2 with h2 | ⟨rfl, h2⟩
        · left; omega
        · left; exact h1
        · left; exact h2
        · right; exact ⟨rfl, ih h1 h2⟩

theorem bytesLt_total (a b : List UInt8) : bytesLt a b = true ∨ a = b ∨ bytesLt b a = true := by
  induction a generalizing b with
  | nil => cases b <;> simp [bytesLt]
  | cons x xs ih =>
    cases b with
    | nil => simp [bytesLt]
    | cons y ys =>
      simp only [bytesLt, Bool.or_eq_true, decide_eq_true_eq, Bool.and_eq_true, List.cons.injEq]
      rcases Nat.lt_trichotomy x.toNat y.toNat with h | h | h
      · left; left; exact h
      · have : x = y := UInt8.toNat_inj.1 h
        subst this
        rcases ih ys with h | h | h
        · left; right; exact ⟨rfl, h⟩
        · right; left; exact ⟨rfl, h⟩
        · right; right; right; exact ⟨rfl, h⟩
      · right; right; left; exact h

theorem sortedKeys_tail {α : Type} {kv : List UInt8 × α} {kvs : List (List UInt8 × α)} (h : SortedKeys (kv :: kvs)) :
    SortedKeys kvs := by
  cases kvs with
  | nil => trivial
  | cons => exact h.2

theorem sortedKeys_lt {α : Type} {kv : List UInt8 × α} {kvs : List (List UInt8 × α)} (h : SortedKeys (kv :: kvs)) :
    ∀ x ∈ kvs, bytesLt kv.1 x.1 = true := by
  induction kvs generalizing kv with
  | nil => intro x hx; cases hx
  | cons a rest ih =>
    intro x hx
    cases hx with
    | head => exact h.1
    | tail _ hx => exact bytesLt_trans h.1 (ih h.2 x hx)

theorem sortedKeys_nodup {α : Type} {kvs : List (List UInt8 × α)} (h : SortedKeys kvs) : NodupKeys kvs := by
  induction kvs with
  | nil => simp [NodupKeys]
  | cons kv kvs ih =>
    simp only [NodupKeys, List.map_cons, List.nodup_cons]
    refine ⟨?_, ih (sortedKeys_tail h)⟩
    intro hm
    obtain ⟨x, hx, he⟩ := List.mem_map.1 hm
    have := sortedKeys_lt h x hx
    rw [he, bytesLt_irrefl] at this
    cases this

/-- Two sorted lists with the same keys and values are equal. -/
theorem sortedKeys_ext {α : Type} {a b : List (List UInt8 × α)} (ha : SortedKeys a) (hb : SortedKeys b)
    (h : ∀ k, HMap.get a k = HMap.get b k) : a = b := by
  induction a generalizing b with
  | nil =>
    cases b with
    | nil => rfl
    | cons kv b =>
      obtain ⟨k, v⟩ := kv
      have := h k
      simp [HMap.get_cons] at this
  | cons x a ih =>
    cases b with
    | nil =>
      obtain ⟨k, v⟩ := x
      have := h k
      simp [HMap.get_cons] at this
    | cons y b =>
      obtain ⟨kx, vx⟩ := x
      obtain ⟨ky, vy⟩ := y
      have hk : kx = ky := by
        rcases bytesLt_total kx ky with hlt | heq | hgt
        · exfalso
          have h1 := h kx
          rw [HMap.get_cons, if_pos rfl, HMap.get_cons] at h1
          by_cases hc : ky = kx
          · rw [hc, bytesLt_irrefl] at hlt; cases hlt
          · rw [if_neg hc] at h1
            have hm := HMap.get_mem h1.symm
            have := sortedKeys_lt hb _ hm
            simp only at this
            have := bytesLt_trans hlt this
            rw [bytesLt_irrefl] at this; cases this
        · exact heq
        · exfalso
          have h1 := h ky
          rw [HMap.get_cons, HMap.get_cons, if_pos rfl] at h1
          by_cases hc : kx = ky
          · rw [hc, bytesLt_irrefl] at hgt; cases hgt
          · rw [if_neg hc] at h1
            have hm := HMap.get_mem h1
            have := sortedKeys_lt ha _ hm
            simp only at this
            have := bytesLt_trans hgt this
            rw [bytesLt_irrefl] at this; cases this
      subst hk
      have hv : vx = vy := by
        have := h kx
        simpa [HMap.get_cons] using this
      subst hv
      congr 1
      apply ih (sortedKeys_tail ha) (sortedKeys_tail hb)
      intro k
      by_cases hc : kx = k
      · subst hc
        have hna := sortedKeys_nodup ha
        have hnb := sortedKeys_nodup hb
        simp only [NodupKeys, List.map_cons, List.nodup_cons] at hna hnb
        rw [HMap.get_none_iff.2 hna.1, HMap.get_none_iff.2 hnb.1]
      · have := h k
        simpa [HMap.get_cons, hc] using this

theorem textSorted_nodup {m : List (Text × ν)} (h : TextSorted m) : NodupKeys m := by
  have := sortedKeys_nodup h
  unfold NodupKeys at *
  rw [List.map_map] at this
  have he : (Prod.fst ∘ fun kv : Text × ν => (utf8 kv.1, kv.2)) = utf8 ∘ Prod.fst := rfl
  rw [he, ← List.map_map] at this
  rw [List.nodup_iff_pairwise_ne, List.pairwise_map] at this
  exact this.imp fun hne heq => hne (by rw [heq])

/-- Inserting a key above all present keys appends. -/
theorem btreeInsert_append (m : List (Text × ν)) (k : Text) (v : ν)
    (h : ∀ x ∈ m, bytesLt (utf8 x.1) (utf8 k) = true) : btreeInsert m k v = m ++ [(k, v)] := by
  induction m with
  | nil => rfl
  | cons kv m ih =>
    obtain ⟨a, b⟩ := kv
    have ha := h (a, b) (by simp)
    simp only at ha
    unfold btreeInsert
    rw [if_neg, if_neg, ih (fun x hx => h x (by simp [hx]))]
    · rfl
    · intro hc
      have := bytesLt_trans ha hc
      rw [bytesLt_irrefl] at this; cases this
    · rintro rfl
      rw [bytesLt_irrefl] at ha; cases ha

theorem sortedKeys_cons' {α : Type} (kv : List UInt8 × α) (kvs : List (List UInt8 × α)) :
    SortedKeys (kv :: kvs) ↔ (∀ x ∈ kvs, bytesLt kv.1 x.1 = true) ∧ SortedKeys kvs := by
  constructor
  · intro h; exact ⟨sortedKeys_lt h, sortedKeys_tail h⟩
  · rintro ⟨h1, h2⟩
    cases kvs with
    | nil => trivial
    | cons a rest => exact ⟨h1 a (by simp), h2⟩

theorem mem_btreeInsert {m : List (Text × ν)} {k : Text} {v : ν} {x : Text × ν} (h : x ∈ btreeInsert m k v) :
    x = (k, v) ∨ x ∈ m := by
  induction m with
  | nil => simp [btreeInsert] at h; exact .inl h
  | cons kv m ih =>
    obtain ⟨a, b⟩ := kv
    unfold btreeInsert at h
    split at h
    · simp only [List.mem_cons] at h ⊢
      rcases h with h | h
      · exact .inl h
      · exact .inr (.inr h)
    · split at h
      · simpa using h
      · simp only [List.mem_cons] at h ⊢
        rcases h with h | h
        · exact .inr (.inl h)
        · rcases ih h with h | h
          · exact .inl h
          · exact .inr (.inr h)

theorem textSorted_insert {m : List (Text × ν)} (h : TextSorted m) (k : Text) (v : ν) :
    TextSorted (btreeInsert m k v) := by
  induction m with
  | nil => trivial
  | cons kv m ih =>
    obtain ⟨a, b⟩ := kv
    unfold TextSorted at h
    simp only [List.map_cons] at h
    rw [sortedKeys_cons'] at h
    unfold btreeInsert
    split
    · rename_i hk
      subst hk
      unfold TextSorted
      simp only [List.map_cons]
      rw [sortedKeys_cons']; exact h
    · split
      · rename_i hne hlt
        unfold TextSorted
        simp only [List.map_cons]
        rw [sortedKeys_cons', sortedKeys_cons']
        refine ⟨?_, h⟩
        intro x hx
        simp only [List.mem_cons] at hx
        rcases hx with rfl | hx
        · exact hlt
        · exact bytesLt_trans hlt (h.1 x hx)
      · rename_i hne hlt
        unfold TextSorted
        simp only [List.map_cons]
        rw [sortedKeys_cons']
        refine ⟨?_, ih h.2⟩
        intro x hx
        obtain ⟨y, hy, rfl⟩ := List.mem_map.1 hx
        rcases mem_btreeInsert hy with rfl | hy
        · rcases bytesLt_total (utf8 a) (utf8 k) with h1 | h1 | h1
          · exact h1
          · exact absurd (utf8_inj h1).symm hne
          · exact absurd h1 hlt
        · exact h.1 _ (List.mem_map.2 ⟨y, hy, rfl⟩)

end Demag
