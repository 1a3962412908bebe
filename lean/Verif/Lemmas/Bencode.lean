import Verif.Lemmas.InfoHash
import Verif.Model.Bencode

/-! Helper lemmas about bencode. -/

namespace Demag

open Spec

theorem head?_append_ne_nil {α : Type} (xs ys : List α) (h : xs ≠ []) : (xs ++ ys).head? = xs.head? := by
  cases xs <;> simp_all

theorem mem_takeWhile_pos {α : Type} {p : α → Bool} {xs : List α} {x : α} (h : x ∈ xs.takeWhile p) : p x = true := by
  induction xs with
  | nil => simp at h
  | cons y ys ih =>
    rw [List.takeWhile_cons] at h
    split at h
    · rcases List.mem_cons.1 h with rfl | h
      · assumption
      · exact ih h
    · simp at h

theorem showNat_eq (n : Nat) : showNat n = dec n := by
  induction n using Nat.strongRecOn with
  | ind n ih =>
    rw [showNat, dec]
    split
    · rfl
    · rw [ih (n / 10) (by omega)]

theorem digit_toNat {k : Nat} (h : k < 10) : (UInt8.ofNat (48 + k)).toNat = 48 + k := by
  rw [UInt8.toNat_ofNat']; omega

theorem isDigit_ofNat {k : Nat} (h : k < 10) : isDigit (UInt8.ofNat (48 + k)) = true := by
  simp only [isDigit, digit_toNat h, decide_eq_true_eq]; omega

theorem dec_digits (n : Nat) : ∀ c ∈ dec n, isDigit c = true := by
  induction n using Nat.strongRecOn with
  | ind n ih =>
    rw [dec]
    split
    · intro c hc
      rw [List.mem_singleton] at hc
      subst hc; exact isDigit_ofNat (by assumption)
    · intro c hc
      rw [List.mem_append, List.mem_singleton] at hc
      rcases hc with hc | rfl
      · exact ih _ (by omega) c hc
      · exact isDigit_ofNat (by omega)

theorem dec_ne_nil (n : Nat) : dec n ≠ [] := by
  rw [dec]; split <;> simp

theorem dec_length_pos (n : Nat) : 0 < (dec n).length :=
  List.length_pos_iff.2 (dec_ne_nil n)

/-- value of a digit string -/
def digitsVal (ds : Bytes) : Nat := ds.foldl (fun acc c => acc * 10 + (c.toNat - 48)) 0

theorem digitsVal_append (ds : Bytes) (c : UInt8) : digitsVal (ds ++ [c]) = digitsVal ds * 10 + (c.toNat - 48) := by
  simp [digitsVal, List.foldl_append]

theorem digitsVal_dec (n : Nat) : digitsVal (dec n) = n := by
  induction n using Nat.strongRecOn with
  | ind n ih =>
    rw [dec]
    split
    · rename_i h
      simp only [digitsVal, List.foldl_cons, List.foldl_nil]
      rw [digit_toNat h]; omega
    · rw [digitsVal_append, ih _ (by omega), digit_toNat (by omega)]; omega

theorem dec_head (n : Nat) : (dec n).head? = some 48 → n = 0 := by
  induction n using Nat.strongRecOn with
  | ind n ih =>
    rw [dec]
    split
    · rename_i h
      intro e
      simp only [List.head?_cons, Option.some.injEq] at e
      have := congrArg UInt8.toNat e
      rw [digit_toNat h] at this
      simp at this; omega
    · rename_i h
      intro e
      rw [head?_append_ne_nil _ _ (dec_ne_nil _)] at e
      have := ih _ (by omega) e
      omega

/-- A canonical digit string is the decimal text of its value. -/
theorem dec_digitsVal (ds : Bytes) (hd : ∀ c ∈ ds, isDigit c = true) (hne : ds ≠ [])
    (hc : ds.head? = some 48 → ds.length = 1) : dec (digitsVal ds) = ds := by
  induction h : ds.length using Nat.strongRecOn generalizing ds with
  | ind n ih =>
    have hlast := List.dropLast_concat_getLast hne
    generalize hx : ds.getLast hne = x at hlast
    generalize hi : ds.dropLast = init at hlast
    have hxd : isDigit x = true := by
      apply hd; rw [← hx]; exact List.getLast_mem hne
    simp only [isDigit, decide_eq_true_eq] at hxd
    have hxe : UInt8.ofNat (48 + (x.toNat - 48)) = x := by
      rw [show 48 + (x.toNat - 48) = x.toNat by omega, UInt8.ofNat_toNat]
    by_cases hin : init = []
    · subst hin
      simp only [List.nil_append] at hlast
      subst hlast
      rw [dec]
      simp only [digitsVal, List.foldl_cons, List.foldl_nil, Nat.zero_mul, Nat.zero_add]
      rw [if_pos (by omega), hxe]
    · subst hlast
      have hlen : 0 < init.length := List.length_pos_iff.2 hin
      have hhead : (init ++ [x]).head? = init.head? := head?_append_ne_nil _ _ hin
      rw [hhead] at hc
      have hnz : init.head? ≠ some 48 := by
        intro e
        have := hc e
        simp only [List.length_append, List.length_singleton] at this; omega
      have e1 := ih init.length (by simp at h; omega) init
        (fun c hc => hd c (List.mem_append_left _ hc)) hin (fun e => absurd e hnz) rfl
      rw [digitsVal_append]
      have hpos : digitsVal init ≠ 0 := by
        intro e0
        rw [e0] at e1
        rw [← e1] at hnz
        apply hnz
        rw [dec]; rfl
      rw [dec, if_neg (by omega)]
      have h1 : (digitsVal init * 10 + (x.toNat - 48)) / 10 = digitsVal init := by omega
      have h2 : (digitsVal init * 10 + (x.toNat - 48)) % 10 = x.toNat - 48 := by omega
      rw [h1, h2, e1, hxe]

theorem parseNat_dec (n : Nat) (r : Bytes) (hr : ∀ c, r.head? = some c → isDigit c = false) :
    parseNat (dec n ++ r) = some (n, r) := by
  have ht : (dec n ++ r).takeWhile isDigit = dec n := by
    rw [List.takeWhile_append_of_pos (dec_digits n)]
    cases r with
    | nil => simp
    | cons c r => simp [List.takeWhile, hr c rfl]
  have hdr : (dec n ++ r).dropWhile isDigit = r := by
    rw [List.dropWhile_append_of_pos (dec_digits n)]
    cases r with
    | nil => simp
    | cons c r => simp [List.dropWhile, hr c rfl]
  unfold parseNat
  simp only [ht, hdr]
  have hv := digitsVal_dec n
  have hh := dec_head n
  cases e : dec n with
  | nil => exact absurd e (dec_ne_nil n)
  | cons d ds =>
    simp only
    rw [e] at hv hh
    rw [if_neg]
    · show some (digitsVal (d :: ds), r) = _
      rw [hv]
    · rintro ⟨rfl, hne⟩
      have : n = 0 := hh rfl
      subst this
      rw [dec] at e
      simp at e
      exact hne e

theorem parseNat_some (bs : Bytes) (n : Nat) (r : Bytes) (h : parseNat bs = some (n, r)) :
    bs = dec n ++ r ∧ ∀ c, r.head? = some c → isDigit c = false := by
  unfold parseNat at h
  simp only at h
  have hsplit := List.takeWhile_append_dropWhile (p := isDigit) (l := bs)
  split at h
  · cases h
  · rename_i d ds heq
    split at h
    · cases h
    · rename_i hc
      simp only [Option.some.injEq, Prod.mk.injEq] at h
      obtain ⟨hv, hr⟩ := h
      have hd : ∀ c ∈ d :: ds, isDigit c = true := by
        rw [← heq]; intro c hc; exact mem_takeWhile_pos hc
      have := dec_digitsVal (d :: ds) hd (by simp) (by
        intro e
        simp only [List.head?_cons, Option.some.injEq] at e
        simp only [not_and, Decidable.not_not] at hc
        rw [hc e]; rfl)
      have hv' : digitsVal (d :: ds) = n := hv
      rw [hv'] at this
      refine ⟨?_, ?_⟩
      · rw [this, ← heq, ← hr, hsplit]
      · intro c hcr
        rw [← hr] at hcr
        have := List.head?_dropWhile_not isDigit bs
        rw [hcr] at this
        simpa using this

theorem not_digit_101 : isDigit 101 = false := by decide
theorem not_digit_58 : isDigit 58 = false := by decide

theorem parseBytes_enc (b r : Bytes) : parseBytes (encBytes b ++ r) = some (b, r) := by
  unfold parseBytes encBytes
  rw [List.append_assoc, parseNat_dec _ _ (by intro c h; simp at h; subst h; decide)]
  simp [bind, Option.bind]

theorem parseBytes_some (bs b r : Bytes) (h : parseBytes bs = some (b, r)) : bs = encBytes b ++ r := by
  unfold parseBytes at h
  cases e : parseNat bs with
  | none => rw [e] at h; cases h
  | some p =>
    obtain ⟨n, r1⟩ := p
    rw [e] at h
    obtain ⟨h1, -⟩ := parseNat_some _ _ _ e
    simp only [bind, Option.bind] at h
    split at h
    · rename_i r'
      split at h
      · rename_i hn
        cases h
        rw [h1]
        unfold encBytes
        rw [List.length_take, Nat.min_eq_left hn]
        simp
      · cases h
    · cases h

theorem encBytes_head (b : Bytes) : ∃ c t, encBytes b = c :: t ∧ isDigit c = true := by
  unfold encBytes
  cases e : dec b.length with
  | nil => exact absurd e (dec_ne_nil _)
  | cons c t => exact ⟨c, _, rfl, dec_digits b.length c (by rw [e]; exact List.mem_cons_self ..)⟩

theorem parseIntBody_dec (i : Int) (r : Bytes) : parseIntBody (decInt i ++ 101 :: r) = some (i, r) := by
  have h101 : ∀ c, (101 :: r : Bytes).head? = some c → isDigit c = false := by
    intro c h; simp at h; subst h; decide
  cases i with
  | ofNat n =>
    unfold parseIntBody
    simp only [decInt]
    have hp := parseNat_dec n (101 :: r) h101
    split
    · rename_i bs' heq
      exfalso
      have : isDigit 45 = true := by
        apply dec_digits n
        cases e : dec n with
        | nil => exact absurd e (dec_ne_nil n)
        | cons d ds =>
          rw [e] at heq
          simp only [List.cons_append, List.cons.injEq] at heq
          rw [heq.1]; exact List.mem_cons_self ..
      revert this; decide
    · rw [hp]; simp [bind, Option.bind]
  | negSucc n =>
    have hp := parseNat_dec (n + 1) (101 :: r) h101
    simp only [parseIntBody, decInt, List.cons_append, hp]
    simp only [bind, Option.bind]
    rw [if_neg (by omega)]
    rw [Int.negSucc_eq]
    simp

theorem parseIntBody_some (bs : Bytes) (i : Int) (r : Bytes) (h : parseIntBody bs = some (i, r)) :
    bs = decInt i ++ 101 :: r := by
  unfold parseIntBody at h
  split at h
  · rename_i bs'
    cases e : parseNat bs' with
    | none => rw [e] at h; cases h
    | some p =>
      obtain ⟨n, r1⟩ := p
      rw [e] at h
      obtain ⟨h1, -⟩ := parseNat_some _ _ _ e
      simp only [bind, Option.bind] at h
      split at h
      · rename_i r'
        split at h
        · cases h
        · rename_i hn
          cases h
          obtain ⟨k, rfl⟩ : ∃ k, n = k + 1 := ⟨n - 1, by omega⟩
          have : (-(↑(k + 1) : Int)) = Int.negSucc k := by rw [Int.negSucc_eq]; simp
          rw [this, h1]
          rfl
      · cases h
  · cases e : parseNat bs with
    | none => rw [e] at h; cases h
    | some p =>
      obtain ⟨n, r1⟩ := p
      rw [e] at h
      obtain ⟨h1, -⟩ := parseNat_some _ _ _ e
      simp only [bind, Option.bind] at h
      split at h
      · cases h
        rw [h1]; rfl
      · cases h


/-! ### The parser accepts exactly the encodings -/

theorem sortedKeys_cons {α : Type} (kv : List UInt8 × α) (kvs : List (List UInt8 × α)) :
    SortedKeys (kv :: kvs) ↔ (∀ kv', kvs.head? = some kv' → bytesLt kv.1 kv'.1 = true) ∧ SortedKeys kvs := by
  cases kvs with
  | nil => simp [SortedKeys]
  | cons b rest => simp [SortedKeys]

/-- Soundness of the three parsers, by induction on the fuel. -/
theorem parse_sound (fuel : Nat) :
    (∀ d bs v r, parseVal fuel d bs = some (v, r) → bs = benc v ++ r ∧ Canonical v ∧ depth v ≤ d) ∧
    (∀ d bs vs r, parseListItems fuel d bs = some (vs, r) →
      bs = bencList vs ++ 101 :: r ∧ CanonicalList vs ∧ depthList vs ≤ d) ∧
    (∀ d prev bs kvs r, parseDictItems fuel d prev bs = some (kvs, r) →
      bs = bencDict kvs ++ 101 :: r ∧ CanonicalDict kvs ∧ depthDict kvs ≤ d ∧ SortedKeys kvs ∧
      ∀ p kv, prev = some p → kvs.head? = some kv → bytesLt p kv.1 = true) := by
  induction fuel with
  | zero => simp [parseVal, parseListItems, parseDictItems]
  | succ fuel ih =>
    obtain ⟨ihv, ihl, ihd⟩ := ih
    refine ⟨?_, ?_, ?_⟩
    · intro d bs v r h
      cases bs with
      | nil => simp [parseVal] at h
      | cons c bs' =>
        simp only [parseVal] at h
        split at h
        · rename_i hc
          subst hc
          cases e : parseIntBody bs' with
          | none => rw [e] at h; cases h
          | some p =>
            obtain ⟨i, r'⟩ := p
            rw [e] at h; cases h
            have := parseIntBody_some _ _ _ e
            rw [this]
            simp [benc, Canonical, depth]
        · split at h
          · rename_i hc
            subst hc
            cases d with
            | zero => cases h
            | succ d' =>
              simp only at h
              cases e : parseListItems fuel d' bs' with
              | none => rw [e] at h; cases h
              | some p =>
                obtain ⟨l, r'⟩ := p
                rw [e] at h; cases h
                obtain ⟨h1, h2, h3⟩ := ihl _ _ _ _ e
                rw [h1]
                simp only [benc, Canonical, depth]
                exact ⟨by simp, h2, by omega⟩
          · split at h
            · rename_i hc
              subst hc
              cases d with
              | zero => cases h
              | succ d' =>
                simp only at h
                cases e : parseDictItems fuel d' none bs' with
                | none => rw [e] at h; cases h
                | some p =>
                  obtain ⟨l, r'⟩ := p
                  rw [e] at h; cases h
                  obtain ⟨h1, h2, h3, h4, -⟩ := ihd _ _ _ _ _ e
                  rw [h1]
                  simp only [benc, Canonical, depth]
                  exact ⟨by simp, ⟨h4, h2⟩, by omega⟩
            · cases e : parseBytes (c :: bs') with
              | none => rw [e] at h; cases h
              | some p =>
                obtain ⟨b, r'⟩ := p
                rw [e] at h; cases h
                rw [parseBytes_some _ _ _ e]
                simp [benc, Canonical, depth]
    · intro d bs vs r h
      cases bs with
      | nil => simp [parseListItems] at h
      | cons c bs' =>
        simp only [parseListItems] at h
        split at h
        · rename_i hc
          subst hc; cases h
          simp [bencList, CanonicalList, depthList]
        · cases e : parseVal fuel d (c :: bs') with
          | none => rw [e] at h; cases h
          | some p =>
            obtain ⟨v, r1⟩ := p
            rw [e] at h
            simp only [bind, Option.bind] at h
            cases e2 : parseListItems fuel d r1 with
            | none => rw [e2] at h; cases h
            | some q =>
              obtain ⟨ws, r2⟩ := q
              rw [e2] at h; cases h
              obtain ⟨h1, h2, h3⟩ := ihv _ _ _ _ e
              obtain ⟨h4, h5, h6⟩ := ihl _ _ _ _ e2
              rw [h1, h4]
              simp only [bencList, CanonicalList, depthList]
              exact ⟨by simp, ⟨h2, h5⟩, by omega⟩
    · intro d prev bs kvs r h
      cases bs with
      | nil => simp [parseDictItems] at h
      | cons c bs' =>
        simp only [parseDictItems] at h
        split at h
        · rename_i hc
          subst hc; cases h
          simp [bencDict, CanonicalDict, depthDict, SortedKeys]
        · cases e : parseBytes (c :: bs') with
          | none => rw [e] at h; cases h
          | some p =>
            obtain ⟨k, r1⟩ := p
            rw [e] at h
            simp only [bind, Option.bind] at h
            split at h
            · rename_i hprev
              cases e2 : parseVal fuel d r1 with
              | none => rw [e2] at h; cases h
              | some q =>
                obtain ⟨v, r2⟩ := q
                rw [e2] at h
                simp only at h
                cases e3 : parseDictItems fuel d (some k) r2 with
                | none => rw [e3] at h; cases h
                | some q =>
                  obtain ⟨ws, r3⟩ := q
                  rw [e3] at h; cases h
                  obtain ⟨h1, h2, h3⟩ := ihv _ _ _ _ e2
                  obtain ⟨h4, h5, h6, h7, h8⟩ := ihd _ _ _ _ _ e3
                  rw [parseBytes_some _ _ _ e, h1, h4]
                  simp only [bencDict, CanonicalDict, depthDict]
                  refine ⟨by simp, ⟨h2, h5⟩, by omega, ?_, ?_⟩
                  · rw [sortedKeys_cons]
                    exact ⟨fun kv' hk => h8 k kv' rfl hk, h7⟩
                  · intro p kv hp hk
                    simp only [List.head?_cons, Option.some.injEq] at hk
                    subst hp hk
                    exact hprev
            · cases h

theorem benc_length_pos (v : Ben) : 0 < (benc v).length := by
  cases v with
  | bytes b =>
    simp only [benc]
    obtain ⟨c, t, h, -⟩ := encBytes_head b
    rw [h]; simp
  | _ => simp [benc]

theorem benc_head (v : Ben) (r : Bytes) : ∃ c t, benc v ++ r = c :: t ∧ c ≠ 101 := by
  cases v with
  | bytes b =>
    obtain ⟨c, t, h, hd⟩ := encBytes_head b
    refine ⟨c, t ++ r, by simp [benc, h], ?_⟩
    rintro rfl; revert hd; decide
  | int i => refine ⟨105, _, by simp only [benc, List.cons_append]; rfl, by decide⟩
  | list l => refine ⟨108, _, by simp only [benc, List.cons_append]; rfl, by decide⟩
  | dict d => refine ⟨100, _, by simp only [benc, List.cons_append]; rfl, by decide⟩

/-- Completeness of the three parsers, by induction on the fuel. -/
theorem parse_complete (fuel : Nat) :
    (∀ d v r, Canonical v → depth v ≤ d → 2 * (benc v).length ≤ fuel → parseVal fuel d (benc v ++ r) = some (v, r)) ∧
    (∀ d vs r, CanonicalList vs → depthList vs ≤ d → 2 * (bencList vs).length + 1 ≤ fuel →
      parseListItems fuel d (bencList vs ++ 101 :: r) = some (vs, r)) ∧
    (∀ d prev kvs r, CanonicalDict kvs → depthDict kvs ≤ d → SortedKeys kvs →
      (∀ p kv, prev = some p → kvs.head? = some kv → bytesLt p kv.1 = true) →
      2 * (bencDict kvs).length + 1 ≤ fuel →
      parseDictItems fuel d prev (bencDict kvs ++ 101 :: r) = some (kvs, r)) := by
  induction fuel with
  | zero =>
    refine ⟨?_, ?_, ?_⟩
    · intro d v r _ _ h
      have := benc_length_pos v
      omega
    · intro d vs r _ _ h; omega
    · intro d prev kvs r _ _ _ _ h; omega
  | succ fuel ih =>
    obtain ⟨ihv, ihl, ihd⟩ := ih
    refine ⟨?_, ?_, ?_⟩
    · intro d v r hc hd hf
      cases v with
      | int i =>
        simp only [benc, List.cons_append, List.append_assoc, List.nil_append, parseVal, if_true]
        rw [parseIntBody_dec]; rfl
      | bytes b =>
        simp only [benc]
        obtain ⟨c, t, h, hdg⟩ := encBytes_head b
        have hp := parseBytes_enc b r
        rw [h] at hp ⊢
        simp only [List.cons_append] at hp ⊢
        simp only [parseVal]
        rw [if_neg (by rintro rfl; revert hdg; decide), if_neg (by rintro rfl; revert hdg; decide),
          if_neg (by rintro rfl; revert hdg; decide), hp]
        rfl
      | list l =>
        simp only [Canonical] at hc
        simp only [depth] at hd
        simp only [benc, List.length_cons, List.length_append, List.length_nil] at hf
        simp only [benc, List.cons_append, List.append_assoc, List.nil_append, parseVal]
        rw [if_neg (by decide), if_pos trivial]
        cases d with
        | zero => omega
        | succ d' =>
          simp only
          rw [ihl d' l r hc (by omega) (by omega)]
          rfl
      | dict kvs =>
        simp only [Canonical] at hc
        simp only [depth] at hd
        simp only [benc, List.length_cons, List.length_append, List.length_nil] at hf
        simp only [benc, List.cons_append, List.append_assoc, List.nil_append, parseVal]
        rw [if_neg (by decide), if_neg (by decide), if_pos trivial]
        cases d with
        | zero => omega
        | succ d' =>
          simp only
          rw [ihd d' none kvs r hc.2 (by omega) hc.1 (by simp) (by omega)]
          rfl
    · intro d vs r hc hd hf
      cases vs with
      | nil => simp [bencList, parseListItems]
      | cons v vs =>
        simp only [CanonicalList] at hc
        simp only [depthList] at hd
        simp only [bencList, List.length_append] at hf
        simp only [bencList, List.append_assoc]
        obtain ⟨c, t, h, hne⟩ := benc_head v (bencList vs ++ 101 :: r)
        have hpos := benc_length_pos v
        have hp := ihv d v (bencList vs ++ 101 :: r) hc.1 (by omega) (by omega)
        rw [h] at hp ⊢
        simp only [parseListItems]
        rw [if_neg hne, hp]
        simp only [bind, Option.bind]
        rw [ihl d vs r hc.2 (by omega) (by omega)]
    · intro d prev kvs r hc hd hs hprev hf
      cases kvs with
      | nil => simp [bencDict, parseDictItems]
      | cons kv kvs =>
        obtain ⟨k, v⟩ := kv
        simp only [CanonicalDict] at hc
        simp only [depthDict] at hd
        rw [sortedKeys_cons] at hs
        simp only [bencDict, List.length_append] at hf
        simp only [bencDict, List.append_assoc]
        obtain ⟨c, t, h, hdg⟩ := encBytes_head k
        have hb := parseBytes_enc k (benc v ++ (bencDict kvs ++ 101 :: r))
        have hpos := benc_length_pos v
        rw [h] at hb ⊢
        simp only [List.cons_append] at hb ⊢
        simp only [parseDictItems]
        rw [if_neg (by rintro rfl; revert hdg; decide), hb]
        simp only [bind, Option.bind]
        rw [if_pos]
        · rw [ihv d v _ hc.1 (by omega) (by omega)]
          simp only
          rw [ihd d (some k) kvs r hc.2 (by omega) hs.2 (by
            intro p kv' hp hk
            cases hp
            exact hs.1 kv' hk) (by omega)]
        · cases prev with
          | none => rfl
          | some p => exact hprev p _ rfl rfl

theorem parseObject_iff (d : Nat) (bs : Bytes) (v : Ben) (r : Bytes) :
    parseObject d bs = some (v, r) ↔ bs = benc v ++ r ∧ Canonical v ∧ depth v ≤ d := by
  constructor
  · exact (parse_sound _).1 d bs v r
  · rintro ⟨rfl, hc, hd⟩
    exact (parse_complete _).1 d v r hc hd (by simp only [List.length_append]; omega)

end Demag
