import Verif.Lemmas.Maps
import Verif.Lemmas.Peer

/-!
# C05: extension sets; C06: the BEP 10 registry
-/

namespace Demag.Props

open Demag Spec

theorem has_eq_bit (s : ExtensionSet) (e : Extension) : s.has e = s.bits.getLsbD e.code := by
  unfold ExtensionSet.has Extension.bit
  rw [← BitVec.twoPow_eq, BitVec.and_twoPow]
  have h0 : BitVec.twoPow 64 e.code ≠ 0#64 := by cases e <;> decide
  split
  · rename_i h; rw [h]; simpa using h0
  · rename_i h
    simp only [Bool.not_eq_true] at h
    rw [h]; rfl

theorem code_injective {e f : Extension} (h : e.code = f.code) : e = f := by
  cases e <;> cases f <;> first | rfl | (exact absurd h (by decide))

theorem code_lt (e : Extension) : e.code < 64 := by cases e <;> decide

theorem getLsbD_bit (e : Extension) (i : Nat) : e.bit.getLsbD i = decide (e.code = i) := by
  unfold Extension.bit
  rw [← BitVec.twoPow_eq, BitVec.getLsbD_twoPow]
  simp [code_lt e]

/-- **C05.** A set built from a list has exactly the listed extensions. -/
theorem fromIter_has (es : List Extension) (e : Extension) : (ExtensionSet.fromIter es).has e = true ↔ e ∈ es := by
  rw [has_eq_bit]
  unfold ExtensionSet.fromIter
  have : ∀ (acc : BitVec 64), (es.foldl (fun value e => value ||| e.bit) acc).getLsbD e.code = true ↔
      acc.getLsbD e.code = true ∨ e ∈ es := by
    induction es with
    | nil => simp
    | cons x xs ih =>
      intro acc
      rw [List.foldl_cons, ih, BitVec.getLsbD_or, getLsbD_bit]
      simp only [Bool.or_eq_true, decide_eq_true_eq, List.mem_cons]
      constructor
      · rintro ((h | h) | h)
        · exact .inl h
        · exact .inr (.inl (code_injective h).symm)
        · exact .inr (.inr h)
      · rintro (h | rfl | h)
        · exact .inl (.inl h)
        · exact .inl (.inr rfl)
        · exact .inr h
  rw [this]; simp

/-- **C05.** A bit that belongs to no listed extension is not set. -/
theorem fromIter_bits (es : List Extension) (i : Nat) :
    (ExtensionSet.fromIter es).bits.getLsbD i = true ↔ ∃ e ∈ es, e.code = i := by
  unfold ExtensionSet.fromIter
  have : ∀ (acc : BitVec 64), (es.foldl (fun value e => value ||| e.bit) acc).getLsbD i = true ↔
      acc.getLsbD i = true ∨ ∃ e ∈ es, e.code = i := by
    induction es with
    | nil => simp
    | cons x xs ih =>
      intro acc
      rw [List.foldl_cons, ih, BitVec.getLsbD_or, getLsbD_bit]
      simp [or_assoc]
  rw [this]; simp

/-- **C05.** Intersection has exactly the extensions in both sets. -/
theorem and_has (s t : ExtensionSet) (e : Extension) : (s.and t).has e = (s.has e && t.has e) := by
  simp [has_eq_bit, ExtensionSet.and]

/-- **C05.** An extension is in the set exactly if its bit is set at the place the standards assign to it in the
eight reserved bytes of the handshake. -/
theorem has_reserved (s : ExtensionSet) (e : Extension) :
    s.has e = true ↔
      ((putU64 s.bits).getD (reservedPosition e).1 0).toNat &&& (reservedPosition e).2 ≠ 0 := by
  rw [has_eq_bit]
  have hb : ∀ k, k < 8 → ((putU64 s.bits).getD k 0).toNat = s.bits.toNat / 256 ^ (7 - k) % 256 := by
    intro k hk
    have : k = 0 ∨ k = 1 ∨ k = 2 ∨ k = 3 ∨ k = 4 ∨ k = 5 ∨ k = 6 ∨ k = 7 := by omega
    rcases this with rfl | rfl | rfl | rfl | rfl | rfl | rfl | rfl <;> simp [putU64, beBytes]
  have hk : ∀ n j, j < 8 → ((n % 256) &&& (2 ^ j) ≠ 0 ↔ n.testBit j = true) := by
    intro n j hj
    have : (n % 256).testBit j = n.testBit j := by
      rw [show (256 : Nat) = 2 ^ 8 by rfl, Nat.testBit_mod_two_pow]; simp [hj]
    rw [← this]
    constructor
    · intro h
      cases hb : (n % 256).testBit j with
      | true => rfl
      | false =>
        refine absurd (Nat.eq_of_testBit_eq fun i => ?_) h
        rw [Nat.testBit_and, Nat.testBit_two_pow, Nat.zero_testBit]
        by_cases hi : j = i
        · subst hi; simp [hb]
        · simp [hi]
    · intro h hz
      have := congrArg (fun m => Nat.testBit m j) hz
      simp [Nat.testBit_and, h] at this
  have hd : ∀ n i j, (n / 256 ^ i).testBit j = n.testBit (8 * i + j) := by
    intro n i j
    rw [show (256 : Nat) = 2 ^ 8 by rfl, ← Nat.pow_mul, ← Nat.shiftRight_eq_div_pow, Nat.testBit_shiftRight]
  rw [← BitVec.testBit_toNat]
  cases e <;> simp only [reservedPosition, Extension.code]
  · rw [hb 0 (by decide), show 0x80 = 2 ^ 7 by rfl, hk _ _ (by decide), hd]
  · rw [hb 2 (by decide), show 0x08 = 2 ^ 3 by rfl, hk _ _ (by decide), hd]
  · rw [hb 5 (by decide), show 0x10 = 2 ^ 4 by rfl, hk _ _ (by decide), hd]
  · rw [hb 7 (by decide), show 0x01 = 2 ^ 0 by rfl, hk _ _ (by decide), hd]
  · rw [hb 7 (by decide), show 0x02 = 2 ^ 1 by rfl, hk _ _ (by decide), hd]
  · rw [hb 7 (by decide), show 0x04 = 2 ^ 2 by rfl, hk _ _ (by decide), hd]
  · rw [hb 7 (by decide), show 0x08 = 2 ^ 3 by rfl, hk _ _ (by decide), hd]
  · rw [hb 7 (by decide), show 0x10 = 2 ^ 4 by rfl, hk _ _ (by decide), hd]

/-- **C05.** No two extensions share a bit. -/
theorem bit_injective (e f : Extension) : e.bit = f.bit ↔ e = f := by
  constructor
  · intro h
    have := congrArg (fun b => BitVec.getLsbD b e.code) h
    simp only [getLsbD_bit, decide_true] at this
    exact (code_injective (by simpa using this.symm)).symm
  · rintro rfl; rfl

theorem shownLoop_fst (e : Extension) (es : List Extension) (b : BitVec 64) :
    (ExtensionSet.shownLoop (e :: es) b).1 =
      if b.getLsbD e.code then e :: (ExtensionSet.shownLoop es (b &&& ~~~ e.bit)).1
      else (ExtensionSet.shownLoop es (b &&& ~~~ e.bit)).1 := by
  have hcond : (b &&& e.bit != 0) = b.getLsbD e.code := has_eq_bit ⟨b⟩ e
  rw [ExtensionSet.shownLoop, hcond]
  cases b.getLsbD e.code <;> rfl

theorem shownLoop_snd (e : Extension) (es : List Extension) (b : BitVec 64) :
    (ExtensionSet.shownLoop (e :: es) b).2 = (ExtensionSet.shownLoop es (b &&& ~~~ e.bit)).2 := by
  rw [ExtensionSet.shownLoop]
  cases (b &&& e.bit != 0) <;> rfl

theorem shownLoop_spec (es : List Extension) (hn : es.Nodup) (b : BitVec 64) :
    (ExtensionSet.shownLoop es b).1 = es.filter (fun e => b.getLsbD e.code) ∧
    ∀ i, (ExtensionSet.shownLoop es b).2.getLsbD i = true ↔ b.getLsbD i = true ∧ ∀ e ∈ es, e.code ≠ i := by
  induction es generalizing b with
  | nil => simp [ExtensionSet.shownLoop]
  | cons e es ih =>
    rw [List.nodup_cons] at hn
    have ih' := ih hn.2 (b &&& ~~~ e.bit)
    have h1 : es.filter (fun x => (b &&& ~~~ e.bit).getLsbD x.code) = es.filter (fun x => b.getLsbD x.code) := by
      apply List.filter_congr
      intro x hx
      have : e.code ≠ x.code := fun h => hn.1 (by rw [code_injective h]; exact hx)
      rw [BitVec.getLsbD_and, BitVec.getLsbD_not, getLsbD_bit]
      simp only [code_lt, this, decide_true, decide_false, Bool.not_false, Bool.and_true]
    constructor
    · rw [shownLoop_fst, List.filter_cons, ih'.1, h1]
    · intro i
      rw [shownLoop_snd, ih'.2, BitVec.getLsbD_and, BitVec.getLsbD_not, getLsbD_bit]
      by_cases hi : i < 64
      · by_cases he : e.code = i
        · subst he; simp
        · simp [hi, he]
      · have : b.getLsbD i = false := BitVec.getLsbD_of_ge _ _ (by omega)
        simp [this]

/-- **C05.** The display names exactly the extensions in the set, in declaration order, and the bits shown as
unknown are exactly those set bits that belong to no extension. -/
theorem shown_spec (s : ExtensionSet) :
    s.shown.1 = Extension.all.filter s.has ∧
    ∀ i, s.shown.2.getLsbD i = true ↔ s.bits.getLsbD i = true ∧ ∀ e : Extension, e.code ≠ i := by
  have := shownLoop_spec Extension.all (by decide) s.bits
  constructor
  · rw [ExtensionSet.shown, this.1]
    apply List.filter_congr
    intro x _; rw [has_eq_bit]
  · intro i
    have hall : ∀ e : Extension, e ∈ Extension.all := by intro e; cases e <;> decide
    rw [ExtensionSet.shown, this.2]
    simp [hall]

example : (ExtensionSet.fromIter supportedExtensions).bits = 0x100004 := by decide
example : (ExtensionSet.fromIter supportedExtensions).has .bep10 = true := by decide
example : (ExtensionSet.fromIter supportedExtensions).has .dht = false := by decide
example : ExtensionSet.shown ⟨0x8000000000100101⟩ = ([.azureusMessaging, .bep10, .dht], 0x100) := by decide

/-! ### C06 -/

variable {ε : Type} [DecidableEq ε]

/-- The registry after a history of `register` calls (each may succeed or fail). -/
def afterCalls (ops : List (ε × BitVec 8)) : RegistryOf ε :=
  ops.foldl (fun r op => (r.register op.1 op.2).1) .new

/-- What the two lookup directions must satisfy. -/
structure Bijective (r : RegistryOf ε) : Prop where
  agree : ∀ e c, r.getMessageId e = some c ↔ r.forMessageId c = some e
  zero : r.forMessageId 0 = none

theorem register_bijective (r : RegistryOf ε) (h : Bijective r) (e : ε) (c : BitVec 8) :
    Bijective (r.register e c).1 := by
  unfold RegistryOf.register
  split
  · exact h
  · rename_i hc0
    split
    · exact h
    · rename_i hcode
      split
      · exact h
      · rename_i hext
        simp only [Bool.not_eq_true] at hcode hext
        rw [HMap.contains_false] at hcode hext
        constructor
        · intro e' c'
          simp only [RegistryOf.getMessageId, RegistryOf.forMessageId, HMap.get_insert]
          have hagree := h.agree e' c'
          simp only [RegistryOf.getMessageId, RegistryOf.forMessageId] at hagree
          by_cases h1 : e = e' <;> by_cases h2 : c = c'
          · simp [h1, h2]
          · subst h1
            rw [hext] at hagree
            simp only [if_pos, h2, if_false]
            rw [← hagree]; simp [h2]
          · subst h2
            rw [hcode] at hagree
            simp only [h1, if_false]
            rw [hagree]; simp [h1]
          · simp only [h1, h2, if_false]; exact hagree
        · simp only [RegistryOf.forMessageId, HMap.get_insert]
          rw [if_neg hc0]
          exact h.zero

/-- **C06.** After any history of registrations the two lookup directions agree and code 0 is never assigned. -/
theorem registry_bijective (ops : List (ε × BitVec 8)) : Bijective (afterCalls ops) := by
  unfold afterCalls
  have : ∀ r : RegistryOf ε, Bijective r →
      Bijective (ops.foldl (fun r op => (r.register op.1 op.2).1) r) := by
    induction ops with
    | nil => intro r hr; exact hr
    | cons op ops ih => intro r hr; exact ih _ (register_bijective r hr _ _)
  exact this _ ⟨by intro e c; simp [RegistryOf.getMessageId, RegistryOf.forMessageId, RegistryOf.new], rfl⟩

/-- **C06.** No code is used for two extensions. -/
theorem registry_injective (ops : List (ε × BitVec 8)) (e f : ε) (c : BitVec 8)
    (he : (afterCalls ops).getMessageId e = some c) (hf : (afterCalls ops).getMessageId f = some c) : e = f := by
  have h := registry_bijective ops
  rw [h.agree] at he hf
  rw [he] at hf; exact Option.some.inj hf

/-- **C06.** A registration succeeds exactly if the code is not 0 and neither code nor extension is in use; then
exactly this entry is added. -/
theorem register_ok (r : RegistryOf ε) (e : ε) (c : BitVec 8) :
    ((r.register e c).2 = .ok () ↔ c ≠ 0 ∧ r.forMessageId c = none ∧ r.getMessageId e = none) ∧
    ((r.register e c).2 = .ok () → ∀ e', (r.register e c).1.getMessageId e' =
      if e = e' then some c else r.getMessageId e') ∧
    ((r.register e c).2 = .ok () → ∀ c', (r.register e c).1.forMessageId c' =
      if c = c' then some e else r.forMessageId c') := by
  unfold RegistryOf.register RegistryOf.getMessageId RegistryOf.forMessageId
  split
  · rename_i h; simp [h]
  · rename_i h0
    split
    · rename_i h
      obtain ⟨v, hv⟩ := (HMap.contains_iff _ _).1 h
      simp [hv]
    · rename_i hc
      simp only [Bool.not_eq_true, HMap.contains_false] at hc
      split
      · rename_i h
        obtain ⟨v, hv⟩ := (HMap.contains_iff _ _).1 h
        simp [hv]
      · rename_i he
        simp only [Bool.not_eq_true, HMap.contains_false] at he
        refine ⟨⟨fun _ => ⟨h0, hc, he⟩, fun _ => rfl⟩, fun _ e' => HMap.get_insert .., fun _ c' => HMap.get_insert ..⟩

/-- **C06.** A failed registration changes nothing, and the error names the reason. -/
theorem register_error (r : RegistryOf ε) (e : ε) (c : BitVec 8) (err : RegistryError ε)
    (h : (r.register e c).2 = .error err) :
    (r.register e c).1 = r ∧
    match err with
    | .handshake => c = 0
    | .code c' => c' = c ∧ r.forMessageId c ≠ none
    | .ext e' => e' = e ∧ r.getMessageId e ≠ none := by
  unfold RegistryOf.register at h ⊢
  split at h
  · rename_i h0; cases h; simp [h0]
  · rename_i h0
    split at h
    · rename_i h1
      cases h
      obtain ⟨v, hv⟩ := (HMap.contains_iff _ _).1 h1
      refine ⟨?_, rfl, by simp [RegistryOf.forMessageId, hv]⟩
      rw [if_neg h0, if_pos h1]
    · rename_i h1
      split at h
      · rename_i h2
        cases h
        obtain ⟨v, hv⟩ := (HMap.contains_iff _ _).1 h2
        refine ⟨?_, rfl, by simp [RegistryOf.getMessageId, hv]⟩
        rw [if_neg h0, if_neg h1, if_pos h2]
      · cases h

/-- Reading an `m` dictionary without a `ut_metadata` entry leaves the registry alone. -/
theorem fromMLoop_unknown (r : Bep10Registry) (m : List (Text × BitVec 8))
    (h : HMap.get m "ut_metadata".toList = none) :
    RegistryOf.fromMLoop Bep10Extension.fromStr r m = .ok r := by
  induction m generalizing r with
  | nil => rfl
  | cons kv m ih =>
    obtain ⟨k, v⟩ := kv
    rw [HMap.get_cons] at h
    split at h
    · cases h
    · rename_i hk
      rw [RegistryOf.fromMLoop]
      simp only [Bep10Extension.fromStr, if_neg hk]
      exact ih r h

/-- **C06.** Reading an `m` dictionary: entries with unknown names are ignored; the code of `ut_metadata` is taken,
and refused if it is 0. -/
theorem fromM_spec (m : List (Text × BitVec 8)) (hm : TextSorted m) :
    match HMap.get m "ut_metadata".toList with
    | none => RegistryOf.fromM Bep10Extension.fromStr m = .ok .new
    | some c =>
      if c = 0 then RegistryOf.fromM Bep10Extension.fromStr m = .error .handshake
      else ∃ r, RegistryOf.fromM Bep10Extension.fromStr m = .ok r ∧ r.getMessageId .metadata = some c ∧
        ∀ c', r.forMessageId c' = if c = c' then some .metadata else none := by
  unfold RegistryOf.fromM
  have hn := textSorted_nodup hm
  clear hm
  induction m with
  | nil => simp [RegistryOf.fromMLoop]
  | cons kv m ih =>
    obtain ⟨k, v⟩ := kv
    simp only [NodupKeys, List.map_cons, List.nodup_cons] at hn
    rw [HMap.get_cons]
    by_cases hk : k = "ut_metadata".toList
    · rw [if_pos hk]
      have hnone : HMap.get m "ut_metadata".toList = none := HMap.get_none_iff.2 (by rw [← hk]; exact hn.1)
      simp only [RegistryOf.fromMLoop, Bep10Extension.fromStr, if_pos hk]
      by_cases h0 : v = 0
      · simp [h0, RegistryOf.register]
      · rw [if_neg h0]
        have hreg : (RegistryOf.new : Bep10Registry).register .metadata v =
            (⟨[(.metadata, v)], [(v, .metadata)]⟩, .ok ()) := by
          rw [RegistryOf.register, if_neg h0]; rfl
        rw [hreg]
        simp only
        have := fromMLoop_unknown ⟨[(.metadata, v)], [(v, .metadata)]⟩ m hnone
        refine ⟨_, this, rfl, ?_⟩
        intro c'
        simp [RegistryOf.forMessageId, HMap.get_cons]
    · rw [if_neg hk]
      simp only [RegistryOf.fromMLoop, Bep10Extension.fromStr, if_neg hk]
      exact ih hn.2

omit [DecidableEq ε] in
/-- Folding the entries into the dictionary. -/
theorem toM_get (display : ε → Text) (hd : ∀ a b, display a = display b → a = b) (l : List (ε × BitVec 8))
    [DecidableEq ε] (hn : NodupKeys l) (m : List (Text × BitVec 8)) (e : ε) :
    HMap.get (l.foldl (fun m ec => btreeInsert m (display ec.1) ec.2) m) (display e) =
      match HMap.get l e with
      | some c => some c
      | none => HMap.get m (display e) := by
  induction l generalizing m with
  | nil => simp
  | cons x l ih =>
    obtain ⟨a, c⟩ := x
    simp only [NodupKeys, List.map_cons, List.nodup_cons] at hn
    rw [List.foldl_cons, ih hn.2, HMap.get_cons, get_btreeInsert]
    by_cases h : a = e
    · subst h
      rw [HMap.get_none_iff.2 hn.1]
      simp
    · have : display a ≠ display e := fun hc => h (hd _ _ hc)
      simp [h, this]

theorem afterCalls_nodup (ops : List (ε × BitVec 8)) : NodupKeys (afterCalls ops).toCode := by
  unfold afterCalls
  have : ∀ r : RegistryOf ε, NodupKeys r.toCode →
      NodupKeys (ops.foldl (fun r op => (r.register op.1 op.2).1) r).toCode := by
    induction ops with
    | nil => intro r hr; exact hr
    | cons op ops ih =>
      intro r hr
      apply ih
      show NodupKeys (r.register op.1 op.2).1.toCode
      unfold RegistryOf.register
      repeat' split
      all_goals first | exact hr | exact nodupKeys_insert hr _ _
  exact this _ (by simp [RegistryOf.new, NodupKeys])

/-- **C06.** The `m` dictionary emitted contains, under the name of each extension, exactly its code. -/
theorem toM_spec (display : ε → Text) (hd : ∀ a b, display a = display b → a = b) (ops : List (ε × BitVec 8)) (e : ε) :
    HMap.get ((afterCalls ops).toM display) (display e) = (afterCalls ops).getMessageId e := by
  have := toM_get display hd (afterCalls ops).toCode (afterCalls_nodup ops) [] e
  unfold RegistryOf.toM RegistryOf.getMessageId
  rw [this]
  cases HMap.get (afterCalls ops).toCode e <;> rfl

/-- **C06.** Emitting and reading back: the known entry survives, in a dictionary with sorted keys. -/
theorem m_roundtrip (c : BitVec 8) (h0 : c ≠ 0) :
    let r := afterCalls [(Bep10Extension.metadata, c)]
    r.toM Bep10Extension.display = [("ut_metadata".toList, c)] ∧
    ∃ r', RegistryOf.fromM Bep10Extension.fromStr (r.toM Bep10Extension.display) = .ok r' ∧
      r'.getMessageId .metadata = some c := by
  have hreg : (RegistryOf.new : Bep10Registry).register .metadata c =
      (⟨[(.metadata, c)], [(c, .metadata)]⟩, .ok ()) := by
    rw [RegistryOf.register, if_neg h0]
    rfl
  have h1 : (afterCalls [(Bep10Extension.metadata, c)]).toM Bep10Extension.display = [("ut_metadata".toList, c)] := by
    unfold afterCalls
    rw [List.foldl_cons, List.foldl_nil]
    show RegistryOf.toM Bep10Extension.display (RegistryOf.register _ _ _).1 = _
    rw [hreg]
    rfl
  refine ⟨h1, ?_⟩
  rw [h1]
  have := fromM_spec [("ut_metadata".toList, c)] trivial
  rw [HMap.get_cons, if_pos rfl] at this
  simp only [if_neg h0] at this
  obtain ⟨r, hr, hg, -⟩ := this
  exact ⟨r, hr, hg⟩

example : (afterCalls [(Bep10Extension.metadata, (42 : BitVec 8)), (.metadata, 7), (.metadata, 0)]).getMessageId .metadata
    = some 42 := by decide
example : TextSorted [("lt_donthave".toList, (7 : BitVec 8)), ("ut_metadata".toList, 3)] := by
  unfold TextSorted; exact ⟨by decide +kernel, trivial⟩

end Demag.Props
