import Verif.Lemmas.Emit
import Verif.Model.Info

/-!
# C10: bencode reading is canonical; C52: the info dictionary check
-/

namespace Demag.Props

open Demag Spec

/-- **C10.** A document is accepted with value `x` exactly if it *is* the bencoding of some value `v`, whose keys are
sorted and whose nesting is within the limit of the target type, and `v` means `x` for the target type. -/
theorem decodeBencode_spec {α : Type} (maxDepth : Nat) (f : Ben → Option α) (buf : Bytes) (x : α) :
    decodeBencode maxDepth f buf = .ok x ↔
      ∃ v, buf = benc v ∧ Canonical v ∧ depth v ≤ maxDepth ∧ f v = some x := by
  unfold decodeBencode
  split
  · rename_i h
    rw [List.isEmpty_iff] at h
    subst h
    simp only [reduceCtorEq, false_iff, not_exists, not_and]
    intro v hv
    have := benc_length_pos v
    rw [← hv] at this; simp at this
  · split
    · rename_i hp
      simp only [reduceCtorEq, false_iff, not_exists, not_and]
      rintro v rfl hc hd
      have := (parseObject_iff maxDepth (benc v) v []).2 ⟨by simp, hc, hd⟩
      rw [this] at hp; cases hp
    · rename_i v rest hp
      have h1 := (parseObject_iff maxDepth buf v rest).1 hp
      obtain ⟨hb, hc, hd⟩ := h1
      constructor
      · intro h
        cases hf : f v with
        | none => rw [hf] at h; cases h
        | some y =>
          rw [hf] at h
          simp only at h
          split at h
          · rename_i hr
            cases h
            rw [List.isEmpty_iff] at hr
            subst hr
            exact ⟨v, by simpa using hb, hc, hd, hf⟩
          · cases h
      · rintro ⟨w, hw, hcw, hdw, hfw⟩
        have := (parseObject_iff maxDepth buf w []).2 ⟨by simpa using hw, hcw, hdw⟩
        rw [this] at hp
        cases hp
        rw [hfw]; rfl

/-- **C10.** Reading the bencoding of a (sorted, not too deep) value gives back the value. -/
theorem bencode_roundtrip (maxDepth : Nat) (v : Ben) (hc : Canonical v) (hd : depth v ≤ maxDepth) :
    decodeBencode maxDepth some (benc v) = .ok v :=
  (decodeBencode_spec _ _ _ _).2 ⟨v, rfl, hc, hd, rfl⟩

/-- **C10.** One document has one meaning: different values have different encodings. -/
theorem benc_injective (v w : Ben) (hv : Canonical v) (hw : Canonical w) (h : benc v = benc w) : v = w := by
  have h1 := bencode_roundtrip (max (depth v) (depth w)) v hv (Nat.le_max_left ..)
  have h2 := bencode_roundtrip (max (depth v) (depth w)) w hw (Nat.le_max_right ..)
  rw [h, h2] at h1
  exact (Except.ok.inj h1).symm

/-- **C10.** No encoding is a proper prefix of another: bencode is self-delimiting, whatever follows. -/
theorem benc_prefix_free (v w : Ben) (hv : Canonical v) (hw : Canonical w) (r s : Bytes)
    (h : benc v ++ r = benc w ++ s) : v = w ∧ r = s := by
  have h1 := (parseObject_iff (max (depth v) (depth w)) (benc v ++ r) v r).2 ⟨rfl, hv, Nat.le_max_left ..⟩
  have h2 := (parseObject_iff (max (depth v) (depth w)) (benc w ++ s) w s).2 ⟨rfl, hw, Nat.le_max_right ..⟩
  rw [h, h2] at h1
  simp only [Option.some.injEq, Prod.mk.injEq] at h1
  exact ⟨h1.1.symm, h1.2.symm⟩

/-- **C10.** Which error is reported: nothing at all is `NoData`; a complete value of the right kind followed by more bytes is
`TrailingData`; everything else is a bencode error. -/
theorem decodeBencode_error {α : Type} (maxDepth : Nat) (f : Ben → Option α) (buf : Bytes) :
    (decodeBencode maxDepth f buf = .error .noData ↔ buf = []) ∧
    (decodeBencode maxDepth f buf = .error .trailingData ↔
      ∃ v x r, buf = benc v ++ r ∧ r ≠ [] ∧ Canonical v ∧ depth v ≤ maxDepth ∧ f v = some x) := by
  unfold decodeBencode
  split
  · rename_i h
    rw [List.isEmpty_iff] at h
    subst h
    refine ⟨by simp, ?_⟩
    simp only [Except.error.injEq, reduceCtorEq, false_iff, not_exists, not_and]
    intro v x r hv
    have := benc_length_pos v
    have h2 := congrArg List.length hv
    simp only [List.length_nil, List.length_append] at h2; omega
  · rename_i h
    rw [List.isEmpty_iff] at h
    split
    · rename_i hp
      refine ⟨by simp [h], ?_⟩
      simp only [Except.error.injEq, reduceCtorEq, false_iff, not_exists, not_and]
      rintro v x r hb - hc hd
      rw [(parseObject_iff maxDepth buf v r).2 ⟨hb, hc, hd⟩] at hp; cases hp
    · rename_i v rest hp
      have h1 := (parseObject_iff maxDepth buf v rest).1 hp
      cases hf : f v with
      | none =>
        refine ⟨by simp [h], ?_⟩
        simp only [Except.error.injEq, reduceCtorEq, false_iff, not_exists, not_and]
        rintro w x r hb - hc hd
        rw [(parseObject_iff maxDepth buf w r).2 ⟨hb, hc, hd⟩] at hp; cases hp
        simp [hf]
      | some y =>
        simp only
        split
        · rename_i hr
          refine ⟨by simp [h], ?_⟩
          simp only [reduceCtorEq, false_iff, not_exists, not_and]
          rintro w x r hb hr' hc hd
          rw [(parseObject_iff maxDepth buf w r).2 ⟨hb, hc, hd⟩] at hp; cases hp
          rw [List.isEmpty_iff] at hr; exact absurd hr hr'
        · rename_i hr
          refine ⟨by simp [h], ?_⟩
          simp only [true_iff]
          exact ⟨v, y, rest, h1.1, by simpa using hr, h1.2.1, h1.2.2, hf⟩

/-- **C10.** What the encoder writes is the bencoding of the value. -/
theorem emit_spec :
    (∀ n : Nat, emitNat n = benc (.int n)) ∧ (∀ i : Int, emitInt i = benc (.int i)) ∧
    (∀ b : Bytes, emitBytes b = benc (.bytes b)) ∧
    (∀ vs : List Ben, emitList (vs.map benc) = benc (.list vs)) ∧
    (∀ kvs : List (Bytes × Ben), SortedKeys kvs →
      emitDict (kvs.map fun kv => (kv.1, benc kv.2)) = some (benc (.dict kvs))) :=
  ⟨emitNat_eq, emitInt_eq, emitBytes_eq, emitList_eq, emitDict_eq⟩

/-- The document is one complete bencoded dictionary. -/
def IsInfoDict (buf : Bytes) : Prop :=
  ∃ kvs, buf = benc (.dict kvs) ∧ Canonical (.dict kvs) ∧ depth (.dict kvs) ≤ 2048

/-- First byte of the encoding of a dictionary. -/
theorem dict_of_head {v : Ben} {c : UInt8} {cs r : Bytes} (h : c :: cs = benc v ++ r) (hc : c = 100) :
    ∃ kvs, v = .dict kvs := by
  subst hc
  cases v with
  | dict kvs => exact ⟨kvs, rfl⟩
  | int i => simp [benc] at h
  | list l => simp [benc] at h
  | bytes b =>
    obtain ⟨d, t, hd, hdig⟩ := encBytes_head b
    simp only [benc, hd, List.cons_append, List.cons.injEq] at h
    rw [← h.1] at hdig
    exact absurd hdig (by decide)

/-- **C52.** The metadata check accepts exactly single complete dictionaries with nothing after them. -/
theorem checkBencodeDict_spec (buf : Bytes) : checkBencodeDict buf = .ok () ↔ IsInfoDict buf := by
  unfold checkBencodeDict IsInfoDict
  split
  · simp only [reduceCtorEq, false_iff, not_exists, not_and]
    intro kvs h; simp [benc] at h
  · rename_i c cs
    split
    · rename_i hc
      split
      · rename_i hp
        simp only [reduceCtorEq, false_iff, not_exists, not_and]
        intro kvs h hcn hd
        have := (parseObject_iff 2048 (c :: cs) _ []).2 ⟨by simpa using h, hcn, hd⟩
        rw [bendyDefaultDepth, this] at hp; cases hp
      · rename_i v rest hp
        have h1 := (parseObject_iff _ _ _ _).1 hp
        obtain ⟨kvs, rfl⟩ := dict_of_head h1.1 hc
        constructor
        · intro h
          split at h
          · rename_i hr
            rw [List.isEmpty_iff] at hr; subst hr
            exact ⟨kvs, by simpa using h1.1, h1.2.1, h1.2.2⟩
          · cases h
        · rintro ⟨kvs2, h2, hc2, hd2⟩
          have := (parseObject_iff 2048 (c :: cs) _ []).2 ⟨by simpa using h2, hc2, hd2⟩
          rw [bendyDefaultDepth, this] at hp; cases hp; rfl
    · rename_i hc
      have : ¬ ∃ kvs, c :: cs = benc (.dict kvs) ∧ Canonical (.dict kvs) ∧ depth (.dict kvs) ≤ 2048 := by
        rintro ⟨kvs, h, -⟩
        simp only [benc, List.cons.injEq] at h; exact hc h.1
      repeat' split
      all_goals simp only [reduceCtorEq, false_iff]; exact this

/-- **C52.** The error kinds: nothing at all; a complete value that is not a dictionary (or the opening of a list);
a complete dictionary followed by more bytes; and malformed data otherwise. -/
theorem checkBencodeDict_errors (buf : Bytes) :
    (checkBencodeDict buf = .error .empty ↔ buf = []) ∧
    (checkBencodeDict buf = .error .trailing ↔
      ∃ kvs r, r ≠ [] ∧ buf = benc (.dict kvs) ++ r ∧ Canonical (.dict kvs) ∧ depth (.dict kvs) ≤ 2048) ∧
    (checkBencodeDict buf = .error .notADict ↔
      buf.head? = some 108 ∨ (∃ i r, buf = benc (.int i) ++ r) ∨ (∃ b r, buf = benc (.bytes b) ++ r)) := by
  cases buf with
  | nil =>
    refine ⟨by simp [checkBencodeDict], ?_, ?_⟩
    · simp only [checkBencodeDict, Except.error.injEq, reduceCtorEq, false_iff, not_exists, not_and]
      intro kvs r _ h; simp [benc] at h
    · simp only [checkBencodeDict, Except.error.injEq, reduceCtorEq, false_iff, not_or, not_exists]
      refine ⟨by simp, fun i r h => by simp [benc] at h, fun b r h => ?_⟩
      have := congrArg List.length h
      have h2 := benc_length_pos (.bytes b)
      simp only [List.length_nil, List.length_append] at this; omega
  | cons c cs =>
    have hnd : c ≠ 100 → ¬ ∃ kvs r, r ≠ [] ∧ c :: cs = benc (.dict kvs) ++ r ∧ Canonical (.dict kvs) ∧
        depth (.dict kvs) ≤ 2048 := by
      rintro hc ⟨kvs, r, -, h, -⟩
      simp only [benc, List.cons_append, List.cons.injEq] at h; exact hc h.1
    have hni : c ≠ 105 → ¬ ∃ i r, c :: cs = benc (.int i) ++ r := by
      rintro hc ⟨i, r, h⟩
      simp only [benc, List.cons_append, List.cons.injEq] at h; exact hc h.1
    have hnb : isDigit c = false → ¬ ∃ b r, c :: cs = benc (.bytes b) ++ r := by
      rintro hc ⟨b, r, h⟩
      obtain ⟨d, t, hd, hdig⟩ := encBytes_head b
      simp only [benc, hd, List.cons_append, List.cons.injEq] at h
      rw [← h.1, hc] at hdig; cases hdig
    simp only [checkBencodeDict]
    by_cases hc : c = 100
    · rw [if_pos hc]
      have hN : ¬ ((c :: cs).head? = some 108 ∨ (∃ i r, c :: cs = benc (.int i) ++ r) ∨
          (∃ b r, c :: cs = benc (.bytes b) ++ r)) := by
        subst hc
        rintro (h | h | h)
        · exact absurd h (by simp)
        · exact hni (by decide) h
        · exact hnb (by decide) h
      split
      · rename_i hp
        refine ⟨by simp, ?_, ?_⟩
        · simp only [Except.error.injEq, reduceCtorEq, false_iff, not_exists, not_and]
          intro kvs r _ h hcn hd
          have := (parseObject_iff 2048 (c :: cs) _ r).2 ⟨h, hcn, hd⟩
          rw [bendyDefaultDepth, this] at hp; cases hp
        · simp only [Except.error.injEq, reduceCtorEq, false_iff]; exact hN
      · rename_i v rest hp
        have h1 := (parseObject_iff _ _ _ _).1 hp
        obtain ⟨kvs, rfl⟩ := dict_of_head h1.1 hc
        split
        · rename_i hr
          refine ⟨by simp, ?_, ?_⟩
          · simp only [reduceCtorEq, false_iff, not_exists, not_and]
            intro kvs2 r hr2 h hcn hd
            have := (parseObject_iff 2048 (c :: cs) _ r).2 ⟨h, hcn, hd⟩
            rw [bendyDefaultDepth, this] at hp; cases hp
            rw [List.isEmpty_iff] at hr; exact hr2 hr
          · simp only [reduceCtorEq, false_iff]; exact hN
        · rename_i hr
          refine ⟨by simp, ?_, ?_⟩
          · simp only [true_iff]
            exact ⟨kvs, rest, by simpa using hr, h1.1, h1.2.1, h1.2.2⟩
          · simp only [Except.error.injEq, reduceCtorEq, false_iff]; exact hN
    · rw [if_neg hc]
      by_cases h108 : c = 108
      · rw [if_pos h108]
        refine ⟨by simp, ?_, by simp [h108]⟩
        simp only [Except.error.injEq, reduceCtorEq, false_iff]; exact hnd hc
      · rw [if_neg h108]
        by_cases h105 : c = 105
        · rw [if_pos h105]
          subst h105
          cases hp : parseIntBody cs with
          | none =>
            refine ⟨by simp, by simpa using hnd hc, ?_⟩
            simp only [Option.isSome_none, Bool.false_eq_true, if_false, Except.error.injEq, reduceCtorEq, false_iff]
            rintro (h | ⟨i, r, h⟩ | h)
            · exact absurd h (by simp)
            · simp only [benc, List.cons_append, List.cons.injEq, true_and] at h
              rw [h, List.append_assoc] at hp
              simp only [List.cons_append, List.nil_append] at hp
              rw [parseIntBody_dec] at hp; cases hp
            · exact hnb (by decide) h
          | some v =>
            obtain ⟨i, r⟩ := v
            refine ⟨by simp, by simpa using hnd hc, ?_⟩
            simp only [Option.isSome_some, if_true, true_iff]
            exact .inr (.inl ⟨i, r, by simp [benc, parseIntBody_some _ _ _ hp]⟩)
        · rw [if_neg h105]
          cases hp : parseBytes (c :: cs) with
          | none =>
            refine ⟨by simp, by simpa using hnd hc, ?_⟩
            simp only [Option.isSome_none, Bool.false_eq_true, if_false, Except.error.injEq, reduceCtorEq, false_iff]
            rintro (h | h | ⟨b, r, h⟩)
            · exact h108 (by simpa using h)
            · exact hni h105 h
            · rw [h, benc, parseBytes_enc] at hp; cases hp
          | some v =>
            obtain ⟨b, r⟩ := v
            refine ⟨by simp, by simpa using hnd hc, ?_⟩
            simp only [Option.isSome_some, if_true, true_iff]
            exact .inr (.inr ⟨b, r, by simp [benc, parseBytes_some _ _ _ hp]⟩)

-- concrete cases
example : Canonical (.dict [(ascii "a", .int (-3)), (ascii "b", .list [.bytes (ascii "xy")])]) := by
  simp [Canonical, CanonicalDict, CanonicalList, SortedKeys, bytesLt, ascii]
example : benc (.dict [(ascii "a", .int (-3)), (ascii "b", .list [.bytes (ascii "xy")])]) =
    ascii "d1:ai-3e1:bl2:xyee" := by decide +kernel
example : IsInfoDict (ascii "d1:ai3ee") :=
  ⟨[(ascii "a", .int 3)], by decide +kernel,
    by simp [Canonical, CanonicalDict, SortedKeys], by simp [depth, depthDict]⟩
example : checkBencodeDict (ascii "d1:ai3ee") = .ok () := by decide +kernel
example : checkBencodeDict (ascii "d1:ai03ee") = .error .syntaxError := by decide +kernel
example : checkBencodeDict (ascii "d1:bi3e1:ai3ee") = .error .syntaxError := by decide +kernel
example : checkBencodeDict (ascii "d1:ai3eex") = .error .trailing := by decide +kernel
example : checkBencodeDict (ascii "l") = .error .notADict := by decide +kernel
example : checkBencodeDict (ascii "i5e") = .error .notADict := by decide +kernel

end Demag.Props
