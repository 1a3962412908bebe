import Verif.Spec.LogFaithful
import Verif.Props.LogRead
import Verif.Props.Display
import Verif.Props.Disk

/-! # C75: what peers and DHT nodes said can be read off the log -/

namespace Demag.Props

open Spec

/-! ### Counting pieces -/

theorem ones_range : ∀ n, n < 256 → ((List.range 8).filter fun i => n / 2 ^ i % 2 = 1).length =
    ((List.range 8).filter fun i => n / 2 ^ (7 - i % 8) % 2 = 1).length := by decide +kernel

theorem piecesHad_cons (b : UInt8) (bs : Bytes) : piecesHad (b :: bs) = onesOfByte b + piecesHad bs := by
  have h1 : (List.range 8).filter (fun i => HasPiece (b :: bs) i) = (List.range 8).filter fun i => b.toNat / 2 ^ (7 - i % 8) % 2 = 1 := by
    apply List.filter_congr
    intro i hi
    have : i / 8 = 0 := by have := List.mem_range.1 hi; omega
    simp [HasPiece, this]
  have h2 : (List.range (8 * bs.length)).filter ((fun i => decide (HasPiece (b :: bs) i)) ∘ fun x => 8 + x) =
      (List.range (8 * bs.length)).filter fun i => HasPiece bs i := by
    apply List.filter_congr
    intro i _
    have h1 : (8 + i) / 8 = i / 8 + 1 := by omega
    have h2 : (8 + i) % 8 = i % 8 := by omega
    have : HasPiece (b :: bs) (8 + i) = HasPiece bs i := by unfold HasPiece; rw [h1, h2, List.getElem?_cons_succ]
    simp only [Function.comp, this]
  unfold piecesHad onesOfByte
  rw [ones_range _ (UInt8.toNat_lt b), List.length_cons, Nat.mul_succ, Nat.add_comm (8 * bs.length), List.range_add, List.filter_append, List.length_append,
    List.filter_map, List.length_map, h1, h2]

theorem ones_sum (bs : Bytes) : (bs.map onesOfByte).sum = piecesHad bs := by
  induction bs with
  | nil => rfl
  | cons b bs ih => rw [piecesHad_cons, List.map_cons, List.sum_cons, ih]

/-! ### Messages -/

/-- The kind of a message, as a number. -/
def messageKind : Message → Nat
  | .core .keepalive => 0
  | .core .choke => 1
  | .core .unchoke => 2
  | .core .interested => 3
  | .core .notInterested => 4
  | .core (.have' _) => 5
  | .core (.bitfield _) => 6
  | .core (.request ..) => 7
  | .core (.piece ..) => 8
  | .core (.cancel ..) => 9
  | .core (.port _) => 10
  | .core (.suggest _) => 11
  | .core .haveAll => 12
  | .core .haveNone => 13
  | .core (.reject ..) => 14
  | .core (.allowedFast _) => 15
  | .core (.extended ..) => 16
  | .extended (.handshake _) => 17
  | .extended (.metadata (.request _)) => 18
  | .extended (.metadata (.data ..)) => 19
  | .extended (.metadata (.reject _)) => 18
  | .extended (.metadata (.unknown _)) => 20

/-- The first ten characters of what the log says of a message. -/
def tagList : List Text :=
  ["keepalive".toList, "choke".toList, "unchoke".toList, "interested".toList, "not intere".toList, "have: piec".toList, "bitfield: ".toList,
   "request: i".toList, "piece: ind".toList, "cancel: in".toList, "DHT port: ".toList, "suggest: p".toList, "have all".toList, "have none".toList,
   "reject: in".toList, "allowed fa".toList, "extended m".toList, "extended h".toList, "metadata r".toList, "metadata d".toList, "metadata: ".toList]

theorem kind_lt (m : Message) : messageKind m < 21 := by
  rcases m with (_ | _ | _ | _ | _ | _ | _ | _ | _ | _ | _ | _ | _ | _ | _ | _ | _) | (_ | (_ | _ | _ | _)) <;> (simp only [messageKind]; decide)

theorem text_tag (p : Char → Bool) (m : Message) : some ((m.text p).take 10) = tagList[messageKind m]? := by
  rcases m with (_ | _ | _ | _ | _ | _ | _ | _ | _ | _ | _ | _ | _ | _ | _ | _ | _) | (_ | (_ | _ | _ | _)) <;> rfl

/-- Messages that look the same are of the same kind. -/
theorem text_kind {p : Char → Bool} {m m' : Message} (h : m.text p = m'.text p) : messageKind m = messageKind m' := by
  have key : ∀ k, k < 21 → ∀ l, l < 21 → tagList[k]? = tagList[l]? → k = l := by decide +kernel
  exact key _ (kind_lt m) _ (kind_lt m') (by rw [← text_tag p, ← text_tag p, h])

theorem decimal_inj {n m : Nat} (h : decimal n = decimal m) : n = m :=
  (decimal_cancel (r := []) (q := []) (by simp) (by simp) (by simpa using h)).1

theorem decimal_comma {n m : Nat} {s : String} {r q : Text} (hs : ∀ c, s.toList.head? = some c → c.isDigit = false) (hne : s.toList ≠ [])
    (h : decimal n ++ (s.toList ++ r) = decimal m ++ (s.toList ++ q)) : n = m ∧ r = q := by
  have hh : ∀ r : Text, ∀ c, (s.toList ++ r).head? = some c → c.isDigit = false := by
    intro r c hc
    refine hs c ?_
    cases ht : s.toList with
    | nil => exact absurd ht hne
    | cons x t => rw [ht] at hc; exact hc
  obtain ⟨h1, h2⟩ := decimal_cancel (hh r) (hh q) h
  exact ⟨h1, List.append_cancel_left h2⟩

/-- Three numbers, as in requests. -/
theorem three_numbers {a b c a' b' c' : Nat} {s : Text}
    (h : s ++ decimal a ++ ", begin ".toList ++ decimal b ++ ", length ".toList ++ decimal c =
      s ++ decimal a' ++ ", begin ".toList ++ decimal b' ++ ", length ".toList ++ decimal c') : a = a' ∧ b = b' ∧ c = c' := by
  simp only [List.append_assoc] at h
  obtain ⟨h1, h2⟩ := decimal_comma (by decide) (by decide) (List.append_cancel_left h)
  obtain ⟨h3, h4⟩ := decimal_comma (by decide) (by decide) h2
  exact ⟨h1, h3, decimal_inj h4⟩

theorem message_same {p : Char → Bool} {m m' : Message} (h : SameMessage m m') : m.text p = m'.text p := by
  cases h with
  | refl => rfl
  | bitfield h => unfold Message.text CoreMessage.text; simp only [ones_sum, h]
  | piece h => unfold Message.text CoreMessage.text; simp only [h]
  | raw => unfold Message.text CoreMessage.text; simp only
  | handshake h1 h2 h3 h4 h5 => exact (handshake_log_faithful p _ _).2 ⟨h1, h2, h3, h4, h5⟩
  | data h => unfold Message.text ExtendedMessage.text MetadataMessage.text; simp only [h]

theorem one_number {s : Text} {n m : Nat} (h : s ++ decimal n = s ++ decimal m) : n = m := decimal_inj (List.append_cancel_left h)

theorem bracket_number {s t : Text} {n m : Nat} (ht : ∀ c, t.head? = some c → c.isDigit = false)
    (h : s ++ decimal n ++ t = s ++ decimal m ++ t) : n = m := by
  rw [List.append_assoc, List.append_assoc] at h
  exact (decimal_cancel ht ht (List.append_cancel_left h)).1

theorem data_numbers {a b c a' b' c' : Nat} {s : Text}
    (h : s ++ decimal a ++ ", total size ".toList ++ decimal b ++ ", payload size ".toList ++ decimal c =
      s ++ decimal a' ++ ", total size ".toList ++ decimal b' ++ ", payload size ".toList ++ decimal c') : a = a' ∧ b = b' ∧ c = c' := by
  simp only [List.append_assoc] at h
  obtain ⟨h1, h2⟩ := decimal_comma (by decide +kernel) (by decide +kernel) (List.append_cancel_left h)
  obtain ⟨h3, h4⟩ := decimal_comma (by decide +kernel) (by decide +kernel) h2
  exact ⟨h1, h3, decimal_inj h4⟩

theorem request_ne_reject {n m : Nat} (h : "metadata request: piece ".toList ++ decimal n = "metadata reject: piece ".toList ++ decimal m) : False := by
  have h := congrArg (List.take 12) h
  rw [List.take_append_of_le_length (by decide +kernel), List.take_append_of_le_length (by decide +kernel)] at h
  revert h
  decide +kernel

theorem core_same {m m' : CoreMessage} (hk : messageKind (.core m) = messageKind (.core m')) (h : m.text = m'.text) : SameMessage (.core m) (.core m') := by
  cases m <;> cases m' <;> first | exact absurd hk (by simp only [messageKind]; decide) | exact .refl _ | skip
  · rw [BitVec.eq_of_toNat_eq (one_number h)]; exact .refl _
  · refine .bitfield ?_
    rw [← ones_sum, ← ones_sum]
    exact bracket_number (t := " pieces".toList) (by decide +kernel) h
  · obtain ⟨h1, h2, h3⟩ := three_numbers h
    rw [BitVec.eq_of_toNat_eq h1, BitVec.eq_of_toNat_eq h2, BitVec.eq_of_toNat_eq h3]; exact .refl _
  · obtain ⟨h1, h2, h3⟩ := three_numbers h
    rw [BitVec.eq_of_toNat_eq h1, BitVec.eq_of_toNat_eq h2]; exact .piece h3
  · obtain ⟨h1, h2, h3⟩ := three_numbers h
    rw [BitVec.eq_of_toNat_eq h1, BitVec.eq_of_toNat_eq h2, BitVec.eq_of_toNat_eq h3]; exact .refl _
  · rw [BitVec.eq_of_toNat_eq (one_number h)]; exact .refl _
  · rw [BitVec.eq_of_toNat_eq (one_number h)]; exact .refl _
  · obtain ⟨h1, h2, h3⟩ := three_numbers h
    rw [BitVec.eq_of_toNat_eq h1, BitVec.eq_of_toNat_eq h2, BitVec.eq_of_toNat_eq h3]; exact .refl _
  · rw [BitVec.eq_of_toNat_eq (one_number h)]; exact .refl _
  · rw [BitVec.eq_of_toNat_eq (bracket_number (t := [')']) (by decide +kernel) h)]; exact .raw

theorem metadata_same {m m' : MetadataMessage} (hk : messageKind (.extended (.metadata m)) = messageKind (.extended (.metadata m')))
    (h : m.text = m'.text) : SameMessage (.extended (.metadata m)) (.extended (.metadata m')) := by
  cases m <;> cases m' <;> first | exact absurd hk (by simp only [messageKind]; decide) | skip
  · rw [BitVec.eq_of_toNat_eq (one_number h)]; exact .refl _
  · exact (request_ne_reject h).elim
  · obtain ⟨h1, h2, h3⟩ := data_numbers h
    rw [BitVec.eq_of_toNat_eq h1, BitVec.eq_of_toNat_eq h2]
    exact .data h3
  · exact (request_ne_reject h.symm).elim
  · rw [BitVec.eq_of_toNat_eq (one_number h)]; exact .refl _
  · rw [BitVec.eq_of_toNat_eq (one_number h)]; exact .refl _

theorem kind_core (m : CoreMessage) : messageKind (.core m) < 17 := by cases m <;> (simp only [messageKind]; decide)

theorem kind_extended (m : ExtendedMessage) : 17 ≤ messageKind (.extended m) := by
  rcases m with _ | (_ | _ | _ | _) <;> (simp only [messageKind]; decide)

theorem kind_metadata (m : MetadataMessage) : 18 ≤ messageKind (.extended (.metadata m)) := by
  cases m <;> (simp only [messageKind]; decide)

/-- **C75.** The kind of a message and all its numbers can be read off the log, for a bit field how many pieces the peer has, and for bytes how many
they are: two messages look the same in the log iff they differ in nothing else. -/
theorem message_log_faithful (p : Char → Bool) (m m' : Message) : m.text p = m'.text p ↔ SameMessage m m' := by
  refine ⟨fun h => ?_, message_same⟩
  have hk := text_kind h
  cases m with
  | core m =>
    cases m' with
    | core m' => exact core_same hk h
    | extended m' => have := kind_core m; have := kind_extended m'; omega
  | extended m =>
    cases m' with
    | core m' => have := kind_core m'; have := kind_extended m; omega
    | extended m' =>
      cases m with
      | handshake s =>
        cases m' with
        | handshake t =>
          obtain ⟨h1, h2, h3, h4, h5⟩ := (handshake_log_faithful p s t).1 h
          exact .handshake h1 h2 h3 h4 h5
        | metadata m' =>
          have := kind_metadata m'
          have : messageKind (.extended (.handshake s)) = 17 := rfl
          omega
      | metadata m =>
        cases m' with
        | handshake t =>
          have := kind_metadata m
          have : messageKind (.extended (.handshake t)) = 17 := rfl
          omega
        | metadata m' => exact metadata_same hk h

/-! ### Handshakes -/

/-- One byte of a text in quotes, and what follows. -/
def readByte : Text → Option (Nat × Text)
  | '\\' :: 'x' :: a :: b :: r => (hexDigitOf a).bind fun x => (hexDigitOf b).map fun y => (16 * x + y, r)
  | '\\' :: 'n' :: r => some (10, r)
  | '\\' :: 'r' :: r => some (13, r)
  | '\\' :: 't' :: r => some (9, r)
  | '\\' :: '0' :: r => some (0, r)
  | '\\' :: c :: r => some (c.toNat, r)
  | c :: r => some (c.toNat, r)
  | [] => none

theorem readByte_shape : ∀ n, n < 256 →
    (debugByte (UInt8.ofNat n)).head? ≠ some '"' ∧ ((∃ c ∈ (debugByte (UInt8.ofNat n)).head?, debugByte (UInt8.ofNat n) = [c] ∧ c ≠ '\\' ∧ c.toNat = n) ∨
      debugByte (UInt8.ofNat n) = ['\\', 'n'] ∧ n = 10 ∨ debugByte (UInt8.ofNat n) = ['\\', 'r'] ∧ n = 13 ∨ debugByte (UInt8.ofNat n) = ['\\', 't'] ∧ n = 9 ∨
      debugByte (UInt8.ofNat n) = ['\\', '0'] ∧ n = 0 ∨ debugByte (UInt8.ofNat n) = ['\\', '\\'] ∧ n = 92 ∨ debugByte (UInt8.ofNat n) = ['\\', '"'] ∧ n = 34 ∨
      debugByte (UInt8.ofNat n) = ['\\', 'x', hexChar (n / 16), hexChar (n % 16)]) := by
  decide +kernel

theorem readByte_debug (b : UInt8) (r : Text) : readByte (debugByte b ++ r) = some (b.toNat, r) := by
  have hb := UInt8.toNat_lt b
  obtain ⟨-, h⟩ := readByte_shape b.toNat hb
  rw [UInt8.ofNat_toNat] at h
  rcases h with ⟨c, -, h, h1, h2⟩ | ⟨h, h1⟩ | ⟨h, h1⟩ | ⟨h, h1⟩ | ⟨h, h1⟩ | ⟨h, h1⟩ | ⟨h, h1⟩ | h
  · rw [h, List.singleton_append, readByte.eq_def]
    split <;> simp_all
  all_goals rw [h]
  · rw [h1]; rfl
  · rw [h1]; rfl
  · rw [h1]; rfl
  · rw [h1]; rfl
  · rw [h1]; rfl
  · rw [h1]; rfl
  · show (hexDigitOf _).bind _ = _
    rw [(hexDigitOf_hexChar _ (by omega)).1, Option.bind_some, (hexDigitOf_hexChar _ (by omega)).1]
    simp only [Option.map_some]
    congr 2
    omega

theorem debugByte_head (b : UInt8) : (debugByte b).head? ≠ some '"' := by
  have := (readByte_shape b.toNat (UInt8.toNat_lt b)).1
  rwa [UInt8.ofNat_toNat] at this

theorem debugBytes_cancel {a b : Bytes} {r q : Text} (h : debugBytes a ++ r = debugBytes b ++ q) : a = b ∧ r = q := by
  have ne : ∀ (x : UInt8) (t u : Text), debugByte x ++ t ≠ '"' :: u := by
    intro x t u e
    have hx := readByte_debug x t
    have hh := debugByte_head x
    cases hd : debugByte x with
    | nil => rw [hd] at hx; have := readByte_debug x []; rw [hd] at this; cases this
    | cons c l => rw [hd] at e hh; exact hh (by rw [List.head?_cons, (List.cons.inj e).1])
  have key : ∀ (a b : Bytes), a.flatMap debugByte ++ '"' :: r = b.flatMap debugByte ++ '"' :: q → a = b ∧ r = q := by
    intro a
    induction a with
    | nil =>
      rintro (_ | ⟨y, b⟩) h
      · exact ⟨rfl, (List.cons.inj h).2⟩
      · rw [List.flatMap_cons, List.append_assoc] at h
        exact absurd h.symm (ne _ _ _)
    | cons x a ih =>
      rintro (_ | ⟨y, b⟩) h
      · rw [List.flatMap_cons, List.append_assoc] at h
        exact absurd h (ne _ _ _)
      · rw [List.flatMap_cons, List.append_assoc, List.flatMap_cons, List.append_assoc] at h
        have h1 := readByte_debug x (a.flatMap debugByte ++ '"' :: r)
        rw [h, readByte_debug] at h1
        simp only [Option.some.injEq, Prod.mk.injEq] at h1
        obtain ⟨h3, h4⟩ := ih b h1.2.symm
        exact ⟨by rw [UInt8.toNat_inj.1 h1.1, h3], h4⟩
  refine key a b ?_
  simpa [debugBytes] using h

theorem readBraced_zeros (k : Nat) (t : Text) : readBraced 0 (List.replicate k '0' ++ t) = readBraced 0 t := by
  induction k with
  | zero => rfl
  | succ k ih => rw [List.replicate_succ, List.cons_append]; exact ih

theorem hexAlt18_inj {n m : Nat} (h : hexAlt18 n = hexAlt18 m) : n = m := by
  have key : ∀ n, readBraced 0 ((hexAlt18 n).drop 2 ++ ['}']) = some (n, []) := by
    intro n
    show readBraced 0 (List.replicate _ '0' ++ hexNat n ++ ['}']) = _
    rw [List.append_assoc, readBraced_zeros, readBraced_hexNat]
    simp
  have h1 := key n
  rw [h, key] at h1
  simpa using h1.symm

theorem hexAlt18_chars (n : Nat) : ∀ c ∈ hexAlt18 n, c ≠ ',' ∧ c ≠ ';' := by
  have dig : ∀ d, d < 16 → hexChar d ≠ ',' ∧ hexChar d ≠ ';' := by decide
  have hx : ∀ c ∈ hexNat n, c ≠ ',' ∧ c ≠ ';' := by
    fun_induction hexNat n with
    | case1 n h => intro c hc; obtain rfl := List.mem_singleton.1 hc; exact dig n h
    | case2 n h ih =>
      intro c hc
      rcases List.mem_append.1 hc with hc | hc
      · exact ih c hc
      · obtain rfl := List.mem_singleton.1 hc; exact dig _ (Nat.mod_lt _ (by omega))
  intro c hc
  simp only [hexAlt18, List.mem_cons, List.mem_append, List.mem_replicate] at hc
  rcases hc with rfl | rfl | ⟨-, rfl⟩ | hc
  · decide
  · decide
  · decide
  · exact hx c hc

/-- The texts in what the log says of a set of extensions. -/
def extensionTexts (s : ExtensionSet) : List Text :=
  (s.shown.1.map fun e => e.display.toList) ++ if s.shown.2 ≠ 0 then ["Unknown(".toList ++ hexAlt18 s.shown.2.toNat ++ [')']] else []

theorem extensionTexts_chars (s : ExtensionSet) : ∀ t ∈ extensionTexts s, (∀ c ∈ t, c ≠ ',' ∧ c ≠ ';') ∧ t ≠ "<none>".toList := by
  have hd : ∀ e : Extension, (∀ c ∈ e.display.toList, c ≠ ',' ∧ c ≠ ';') ∧ e.display.toList ≠ "<none>".toList ∧ e.display.toList.head? ≠ some 'U' := by
    intro e; cases e <;> decide +kernel
  intro t ht
  rcases List.mem_append.1 ht with ht | ht
  · obtain ⟨e, -, rfl⟩ := List.mem_map.1 ht
    exact ⟨(hd e).1, (hd e).2.1⟩
  · split at ht
    · obtain rfl := List.mem_singleton.1 ht
      constructor
      · intro c hc
        simp only [List.mem_append] at hc
        rcases hc with (hc | hc) | hc
        · revert c; decide +kernel
        · exact hexAlt18_chars _ c hc
        · revert c; decide
      · exact fun h => absurd (congrArg (List.take 1) h) (by
          rw [List.append_assoc, List.take_append_of_le_length (by decide +kernel)]; decide +kernel)
    · cases ht

theorem extensions_eq {s t : ExtensionSet} (h : extensionTexts s = extensionTexts t) : s = t := by
  have hU : ∀ e : Extension, (e.display.toList.take 1 == ['U']) = false := by intro e; cases e <;> decide +kernel
  have hu : ∀ n, (("Unknown(".toList ++ hexAlt18 n ++ [')']).take 1 == ['U']) = true := by
    intro n; rw [List.append_assoc, List.take_append_of_le_length (by decide +kernel)]; decide +kernel
  have names : ∀ s : ExtensionSet, (extensionTexts s).filter (fun t => !(t.take 1 == ['U'])) = s.shown.1.map fun e => e.display.toList := by
    intro s
    rw [extensionTexts, List.filter_append, List.filter_eq_self.2, List.filter_eq_nil_iff.2, List.append_nil]
    · intro t ht
      split at ht
      · obtain rfl := List.mem_singleton.1 ht; simp only [hu]; decide
      · cases ht
    · intro t ht
      obtain ⟨e, -, rfl⟩ := List.mem_map.1 ht
      simp only [hU]; decide
  have rest : ∀ s : ExtensionSet, (extensionTexts s).filter (fun t => t.take 1 == ['U']) =
      if s.shown.2 ≠ 0 then ["Unknown(".toList ++ hexAlt18 s.shown.2.toNat ++ [')']] else [] := by
    intro s
    rw [extensionTexts, List.filter_append, List.filter_eq_nil_iff.2, List.nil_append, List.filter_eq_self.2]
    · intro t ht
      split at ht
      · obtain rfl := List.mem_singleton.1 ht; exact hu _
      · cases ht
    · intro t ht
      obtain ⟨e, -, rfl⟩ := List.mem_map.1 ht
      simp only [hU]; decide
  have h1 : s.shown.1 = t.shown.1 := by
    have hi : Function.Injective fun e : Extension => e.display.toList := by
      intro a b hab
      have : ∀ a ∈ Extension.all, ∀ b ∈ Extension.all, a.display.toList = b.display.toList → a = b := by decide +kernel
      exact this a (by cases a <;> decide) b (by cases b <;> decide) hab
    have := names s
    rw [h, names t] at this
    exact (List.map_injective_iff.2 hi this).symm
  have h2 : s.shown.2 = t.shown.2 := by
    have := rest s
    rw [h, rest t] at this
    by_cases hs : s.shown.2 = 0
    · by_cases ht : t.shown.2 = 0
      · rw [hs, ht]
      · rw [if_pos ht, if_neg (by simp [hs])] at this; cases this
    · by_cases ht : t.shown.2 = 0
      · rw [if_neg (by simp [ht]), if_pos hs] at this; cases this
      · rw [if_pos ht, if_pos hs, List.cons.injEq, List.append_assoc, List.append_assoc] at this
        exact BitVec.eq_of_toNat_eq (hexAlt18_inj (List.append_cancel_right (List.append_cancel_left this.1))).symm
  obtain ⟨s1, s2⟩ := shown_spec s
  obtain ⟨t1, t2⟩ := shown_spec t
  obtain ⟨bs⟩ := s
  obtain ⟨bt⟩ := t
  congr 1
  apply BitVec.eq_of_getLsbD_eq
  intro i hi
  by_cases hc : ∃ e : Extension, e.code = i
  · obtain ⟨e, rfl⟩ := hc
    have : e ∈ (ExtensionSet.shown ⟨bs⟩).1 ↔ e ∈ (ExtensionSet.shown ⟨bt⟩).1 := by rw [h1]
    rw [s1, t1, List.mem_filter, List.mem_filter, has_eq_bit, has_eq_bit] at this
    have ha : e ∈ Extension.all := by cases e <;> decide
    simp only [ha, true_and] at this
    exact Bool.eq_iff_iff.2 this
  · have hn : ∀ e : Extension, e.code ≠ i := fun e he => hc ⟨e, he⟩
    have e1 := s2 i
    rw [h2, t2 i] at e1
    exact Bool.eq_iff_iff.2 ⟨fun h => (e1.2 ⟨h, hn⟩).1, fun h => (e1.1 ⟨h, hn⟩).1⟩

theorem extensions_inj {s t : ExtensionSet} (h : s.text = t.text) : s = t := by
  have h : commaList (extensionTexts s) = commaList (extensionTexts t) := h
  refine extensions_eq (comma_list_inj ?_ ?_ ?_ ?_ h)
  · exact fun v hv hc => ((extensionTexts_chars s v hv).1 _ hc).1 rfl
  · exact fun v hv hc => ((extensionTexts_chars t v hv).1 _ hc).1 rfl
  · intro e; exact (extensionTexts_chars s _ (by rw [e]; exact List.mem_singleton.2 rfl)).2 rfl
  · intro e; exact (extensionTexts_chars t _ (by rw [e]; exact List.mem_singleton.2 rfl)).2 rfl

theorem extensions_chars (s : ExtensionSet) : ';' ∉ s.text := by
  show ';' ∉ commaList (extensionTexts s)
  rw [comma_list]
  split
  · decide +kernel
  · intro hc
    have key : ∀ vs : List Text, (∀ v ∈ vs, ';' ∉ v) → ';' ∉ joined ", ".toList vs := by
      intro vs
      induction vs with
      | nil => intro _ h; cases h
      | cons v vs ih =>
        intro hv h
        cases vs with
        | nil => exact hv v (List.mem_singleton.2 rfl) (by simpa [joined] using h)
        | cons w ws =>
          rw [joined] at h
          simp only [List.mem_append] at h
          rcases h with (h | h) | h
          · exact hv v (List.mem_cons_self ..) h
          · revert h; decide +kernel
          · exact ih (fun u hu => hv u (List.mem_cons_of_mem _ hu)) h
    exact key _ (fun v hv hc => ((extensionTexts_chars s v hv).1 _ hc).2 rfl) hc

/-- Two texts up to the first occurrence of a character. -/
theorem sep_cancel {c : Char} {a b r q : Text} (ha : c ∉ a) (hb : c ∉ b) (h : a ++ c :: r = b ++ c :: q) : a = b ∧ r = q := by
  induction a generalizing b with
  | nil =>
    cases b with
    | nil => exact ⟨rfl, (List.cons.inj h).2⟩
    | cons d b => exact absurd (List.mem_cons.2 (.inl (List.cons.inj h).1)) hb
  | cons d a ih =>
    cases b with
    | nil => exact absurd (List.mem_cons.2 (.inl (List.cons.inj h).1.symm)) ha
    | cons e b =>
      rw [List.cons_append, List.cons_append, List.cons.injEq] at h
      obtain ⟨h1, h2⟩ := ih (fun hm => ha (List.mem_cons_of_mem _ hm)) (fun hm => hb (List.mem_cons_of_mem _ hm)) h.2
      exact ⟨by rw [h.1, h1], h2⟩

theorem assoc_five {a x l b z l' : Text} {c : Char} (h : l = c :: l') : a ++ x ++ l ++ b ++ z = a ++ (x ++ c :: (l' ++ (b ++ z))) := by
  subst h; simp

theorem assoc_peer {a x : Text} {c : Char} {b y : Text} : a ++ x ++ [c] ++ b ++ y = a ++ (x ++ c :: (b ++ y)) := by simp

theorem assoc_four {a x b y : Text} : a ++ x ++ b ++ y = a ++ (x ++ (b ++ y)) := by simp

/-- **C75.** Of a peer's handshake, the log tells all extensions, those unknown included, and the peer's ID, whatever bytes are in it. -/
theorem bt_handshake_log_faithful (h h' : Handshake) : h.text = h'.text ↔ h.extensions = h'.extensions ∧ h.peerId = h'.peerId := by
  constructor
  · intro e
    have shape : ∀ h : Handshake, h.text = "handshake (extensions: ".toList ++ (h.extensions.text ++ ';' :: (" peer ID: ".toList ++ (debugBytes h.peerId.bytes ++ [')']))) := by
      intro h
      exact assoc_five (by decide +kernel)
    rw [shape, shape] at e
    obtain ⟨h1, h2⟩ := sep_cancel (extensions_chars _) (extensions_chars _) (List.append_cancel_left e)
    obtain ⟨h3, -⟩ := debugBytes_cancel (List.append_cancel_left h2)
    refine ⟨extensions_inj h1, ?_⟩
    obtain ⟨_, _, ⟨pid, _⟩⟩ := h
    obtain ⟨_, _, ⟨pid', _⟩⟩ := h'
    cases h3
    rfl
  · rintro ⟨h1, h2⟩
    unfold Handshake.text
    rw [h1, h2]

/-! ### Conversations -/

theorem sockText_chars (a : SockAddr) : ∀ c ∈ sockText a, IpChar c ∨ c = '[' ∨ c = ']' := by
  have dec : ∀ n c, c ∈ decimal n → IpChar c := fun n c hc => .inl ((decimal_isDecimal n).2.1 c hc)
  intro c hc
  cases a with
  | v4 a =>
    rw [sockText, List.mem_append, List.mem_cons] at hc
    rcases hc with hc | rfl | hc
    · exact .inl (ipv4Text_chars _ c hc)
    · exact .inl (.inr (.inr (.inr rfl)))
    · exact .inl (dec _ c hc)
  | v6 a =>
    rw [sockText, List.mem_cons, List.mem_append, List.mem_cons, List.mem_cons] at hc
    rcases hc with rfl | hc | rfl | rfl | hc
    · exact .inr (.inl rfl)
    · exact .inl (ipText_chars (.v6 a.ip) c hc)
    · exact .inr (.inr rfl)
    · exact .inl (.inr (.inr (.inr rfl)))
    · exact .inl (dec _ c hc)

theorem sockText_not {a : SockAddr} {c : Char} (h : c = '>' ∨ c = ' ') : c ∉ sockText a := by
  intro hm
  have := sockText_chars a c hm
  revert this
  unfold IpChar
  rcases h with rfl | rfl <;> decide

theorem peerText_cancel {p p' : Peer} {r q : Text} (h : p.text ++ r = p'.text ++ q) : p.address = p'.address ∧ r = q := by
  have shape : ∀ (p : Peer) r, p.text ++ r = "<Peer ".toList ++ (sockText p.address ++ '>' :: r) := by
    intro p r
    unfold Peer.text
    rw [List.append_assoc, List.append_assoc]
    rfl
  rw [shape, shape] at h
  obtain ⟨h1, h2⟩ := sep_cancel (sockText_not (.inl rfl)) (sockText_not (.inl rfl)) (List.append_cancel_left h)
  exact ⟨sockText_injective h1, h2⟩

theorem peerText_eq {p p' : Peer} (h : p.address = p'.address) : p.text = p'.text := by unfold Peer.text; rw [h]

/-- Texts that start differently. -/
theorem take_ne {a b r q : Text} (n : Nat) (ha : n ≤ a.length) (hb : n ≤ b.length) (hne : a.take n ≠ b.take n) : a ++ r ≠ b ++ q := by
  intro h
  have h := congrArg (List.take n) h
  rw [List.take_append_of_le_length ha, List.take_append_of_le_length hb] at h
  exact hne h

theorem event_shape (env : LogEnv) (p : Peer) (e : Event) : (e.logLine p).text env =
    match e with
    | .sentHandshake _ => "Sending handshake to ".toList ++ (p.text ++ [])
    | .gotHandshake h => "<Peer ".toList ++ (sockText p.address ++ '>' :: (" sent ".toList ++ h.text))
    | .sent m => "Sending to ".toList ++ (p.text ++ (": ".toList ++ m.text env.plain))
    | .received m => "<Peer ".toList ++ (sockText p.address ++ '>' :: (" sent message: ".toList ++ m.text env.plain)) := by
  cases e with
  | sentHandshake h => exact congrArg _ (List.append_nil _).symm
  | gotHandshake h => exact assoc_peer
  | sent m => exact assoc_four
  | received m => exact assoc_peer

/-- **C75.** The lines of the log tell what happened in a conversation with a peer: who said what to whom. -/
theorem event_log_faithful (env : LogEnv) (p p' : Peer) (e e' : Event) :
    (e.logLine p).text env = (e'.logLine p').text env ↔ p.address = p'.address ∧ SameEvent e e' := by
  constructor
  · intro h
    rw [event_shape, event_shape] at h
    have lit : " sent message: ".toList = " sent ".toList ++ "message: ".toList := by decide +kernel
    have hh : ∀ (h : Handshake) (t : Text), h.text ≠ "message: ".toList ++ t := by
      intro h t
      unfold Handshake.text
      rw [assoc_five (l' := " peer ID: ".toList) (c := ';') (by decide +kernel)]
      exact take_ne 1 (by decide +kernel) (by decide +kernel) (by decide +kernel)
    cases e with
    | sentHandshake a =>
      cases e' with
      | sentHandshake b => exact ⟨(peerText_cancel (List.append_cancel_left h)).1, .sentHandshake⟩
      | gotHandshake b => exact absurd h (take_ne 1 (by decide +kernel) (by decide +kernel) (by decide +kernel))
      | sent b => exact absurd h (take_ne 9 (by decide +kernel) (by decide +kernel) (by decide +kernel))
      | received b => exact absurd h (take_ne 1 (by decide +kernel) (by decide +kernel) (by decide +kernel))
    | gotHandshake a =>
      cases e' with
      | sentHandshake b => exact absurd h (take_ne 1 (by decide +kernel) (by decide +kernel) (by decide +kernel))
      | gotHandshake b =>
        obtain ⟨h1, h2⟩ := sep_cancel (sockText_not (.inl rfl)) (sockText_not (.inl rfl)) (List.append_cancel_left h)
        obtain ⟨h3, h4⟩ := (bt_handshake_log_faithful a b).1 (List.append_cancel_left h2)
        exact ⟨sockText_injective h1, .gotHandshake h3 h4⟩
      | sent b => exact absurd h (take_ne 1 (by decide +kernel) (by decide +kernel) (by decide +kernel))
      | received b =>
        obtain ⟨h1, h2⟩ := sep_cancel (sockText_not (.inl rfl)) (sockText_not (.inl rfl)) (List.append_cancel_left h)
        rw [lit, List.append_assoc] at h2
        exact absurd (List.append_cancel_left h2) (hh a _)
    | sent a =>
      cases e' with
      | sentHandshake b => exact absurd h (take_ne 9 (by decide +kernel) (by decide +kernel) (by decide +kernel))
      | gotHandshake b => exact absurd h (take_ne 1 (by decide +kernel) (by decide +kernel) (by decide +kernel))
      | sent b =>
        obtain ⟨h1, h2⟩ := peerText_cancel (List.append_cancel_left h)
        exact ⟨h1, .sent ((message_log_faithful _ a b).1 (List.append_cancel_left h2))⟩
      | received b => exact absurd h (take_ne 1 (by decide +kernel) (by decide +kernel) (by decide +kernel))
    | received a =>
      cases e' with
      | sentHandshake b => exact absurd h (take_ne 1 (by decide +kernel) (by decide +kernel) (by decide +kernel))
      | gotHandshake b =>
        obtain ⟨h1, h2⟩ := sep_cancel (sockText_not (.inl rfl)) (sockText_not (.inl rfl)) (List.append_cancel_left h)
        rw [lit, List.append_assoc] at h2
        exact absurd (List.append_cancel_left h2).symm (hh b _)
      | sent b => exact absurd h (take_ne 1 (by decide +kernel) (by decide +kernel) (by decide +kernel))
      | received b =>
        obtain ⟨h1, h2⟩ := sep_cancel (sockText_not (.inl rfl)) (sockText_not (.inl rfl)) (List.append_cancel_left h)
        exact ⟨sockText_injective h1, .received ((message_log_faithful _ a b).1 (List.append_cancel_left h2))⟩
  · rintro ⟨h, he⟩
    rw [event_shape, event_shape]
    cases he with
    | sentHandshake => simp only [peerText_eq h]
    | gotHandshake h1 h2 => simp only [h, (bt_handshake_log_faithful _ _).2 ⟨h1, h2⟩]
    | sent hm => simp only [peerText_eq h, message_same hm]
    | received hm => simp only [h, message_same hm]

/-- **C75.** So do those of a whole conversation. -/
theorem conversation_log_faithful (env : LogEnv) (p : Peer) (tr tr' : List Event) :
    (tr.map fun e => (e.logLine p).text env) = (tr'.map fun e => (e.logLine p).text env) ↔ List.Forall₂ SameEvent tr tr' := by
  induction tr generalizing tr' with
  | nil => cases tr' <;> simp
  | cons e tr ih =>
    cases tr' with
    | nil => simp
    | cons e' tr' =>
      rw [List.map_cons, List.map_cons, List.cons.injEq, event_log_faithful, ih, List.forall₂_cons]
      simp

/-! ### DHT nodes -/

theorem hexByte_inj {a b : UInt8} (h : hexByte a = hexByte b) : a = b := by
  have key : ∀ n, n < 16 → hexDigitOf (hexChar n) = some n := fun n hn => (hexDigitOf_hexChar n hn).1
  have ha := UInt8.toNat_lt a
  have hb := UInt8.toNat_lt b
  simp only [hexByte, List.cons.injEq, and_true] at h
  have h1 := congrArg hexDigitOf h.1
  have h2 := congrArg hexDigitOf h.2
  rw [key _ (by omega), key _ (by omega)] at h1 h2
  simp only [Option.some.injEq] at h1 h2
  exact UInt8.toNat_inj.1 (by omega)

theorem nodeId_cancel {a b : NodeId} {r q : Text} (h : a.text ++ r = b.text ++ q) : a = b ∧ r = q := by
  have key : ∀ (x y : Bytes), x.length = y.length → x.flatMap hexByte ++ r = y.flatMap hexByte ++ q → x = y ∧ r = q := by
    intro x
    induction x with
    | nil => rintro (_ | _) hl h <;> simp_all
    | cons c x ih =>
      rintro (_ | ⟨d, y⟩) hl h
      · cases hl
      · rw [List.flatMap_cons, List.append_assoc, List.flatMap_cons, List.append_assoc] at h
        obtain ⟨h1, h2⟩ := List.append_inj h rfl
        obtain ⟨h3, h4⟩ := ih y (by simpa using hl) h2
        exact ⟨by rw [hexByte_inj h1, h3], h4⟩
  obtain ⟨h1, h2⟩ := key a.bytes b.bytes (by rw [a.len, b.len]) h
  obtain ⟨_, _⟩ := a
  obtain ⟨_, _⟩ := b
  cases h1
  exact ⟨rfl, h2⟩

theorem address_inj {n n' : Node} (hi : n.id = n'.id) (h : n.address = n'.address) : n = n' := by
  obtain ⟨i, ip, port⟩ := n
  obtain ⟨i', ip', port'⟩ := n'
  simp only at hi
  subst hi
  cases ip <;> cases ip' <;> simp [Node.address] at h <;> simp [h]

theorem node_cancel {a a' : SockAddr} {k k' : Option Node} {r q : Text} (h : nodeDisplay a k ++ ' ' :: r = nodeDisplay a' k' ++ ' ' :: q) :
    (k = k' ∧ (k = none → a = a')) ∧ r = q := by
  have shape : ∀ a k r, nodeDisplay a k ++ ' ' :: r = "DHT node ".toList ++
      match k with
      | some n => n.id.text ++ (" at ".toList ++ (sockText n.address ++ ' ' :: r))
      | none => "at ".toList ++ (sockText a ++ ' ' :: r) := by
    intro a k r
    cases k with
    | some n =>
      show "DHT node ".toList ++ n.id.text ++ " at ".toList ++ sockText n.address ++ ' ' :: r = _
      rw [List.append_assoc, List.append_assoc, List.append_assoc]
    | none =>
      have lit : "DHT node at ".toList = "DHT node ".toList ++ "at ".toList := by decide +kernel
      show "DHT node at ".toList ++ sockText a ++ ' ' :: r = _
      rw [lit, List.append_assoc, List.append_assoc]
  have ne : ∀ (i : NodeId) (t u : Text), i.text ++ t ≠ "at ".toList ++ u := by
    intro i t u he
    obtain ⟨bs, hl⟩ := i
    cases bs with
    | nil => cases hl
    | cons b bs =>
      have he : hexByte b ++ bs.flatMap hexByte ++ t = "at ".toList ++ u := he
      have h2 := congrArg (List.take 2) he
      rw [List.append_assoc, List.take_append_of_le_length (by decide +kernel : 2 ≤ "at ".toList.length)] at h2
      have h3 : hexChar (b.toNat % 16) = 't' := by
        have : [hexChar (b.toNat / 16), hexChar (b.toNat % 16)] = "at ".toList.take 2 := h2
        rw [show "at ".toList.take 2 = ['a', 't'] by decide +kernel] at this
        simpa using (List.cons.inj (List.cons.inj this).2).1
      have : ∀ d, d < 16 → hexChar d ≠ 't' := by decide
      exact this _ (Nat.mod_lt _ (by omega)) h3
  rw [shape, shape] at h
  have h := List.append_cancel_left h
  cases k with
  | some n =>
    cases k' with
    | some n' =>
      obtain ⟨h1, h2⟩ := nodeId_cancel h
      obtain ⟨h3, h4⟩ := sep_cancel (sockText_not (.inr rfl)) (sockText_not (.inr rfl)) (List.append_cancel_left h2)
      exact ⟨⟨by rw [address_inj h1 (sockText_injective h3)], fun h => (by cases h)⟩, h4⟩
    | none => exact absurd h (ne _ _ _)
  | none =>
    cases k' with
    | some n' => exact absurd h.symm (ne _ _ _)
    | none =>
      obtain ⟨h3, h4⟩ := sep_cancel (sockText_not (.inr rfl)) (sockText_not (.inr rfl)) (List.append_cancel_left h)
      exact ⟨⟨rfl, fun _ => sockText_injective h3⟩, h4⟩

/-- **C75.** What the log calls a node tells its ID and address, or if no node is known there the address alone. -/
theorem node_log_faithful (a a' : SockAddr) (k k' : Option Node) :
    nodeDisplay a k = nodeDisplay a' k' ↔ k = k' ∧ (k = none → a = a') := by
  constructor
  · intro h
    exact (node_cancel (r := []) (q := []) (by rw [h])).1
  · rintro ⟨rfl, h⟩
    cases k with
    | none => rw [h rfl]
    | some n => rfl

/-- The first letter of what the log says of a code. -/
def codeInitial : ErrorCode → Char
  | .generic => 'g'
  | .server => 's'
  | .protocol => 'p'
  | .methodUnknown => 'm'
  | .other _ => 'o'

theorem errorCode_cancel {c c' : ErrorCode} {r q : Text} (h : c.text ++ (": ".toList ++ r) = c'.text ++ (": ".toList ++ q)) : c = c' ∧ r = q := by
  have colon : ∀ (r : Text) (c : Char), (": ".toList ++ r).head? = some c → c.isDigit = false := by
    intro r c hc
    have : (": ".toList ++ r).head? = some ':' := rfl
    rw [this] at hc
    cases hc; decide
  have first : ∀ c : ErrorCode, ∃ t, c.text = codeInitial c :: t := by
    intro c
    cases c with
    | other n => exact ⟨"ther error: code ".toList ++ decimal n.toNat, by
        show "other error: code ".toList ++ _ = _
        rw [show "other error: code ".toList = 'o' :: "ther error: code ".toList by decide +kernel]; rfl⟩
    | generic => exact ⟨"eneric error".toList, by show "generic error".toList = _; decide +kernel⟩
    | server => exact ⟨"erver error".toList, by show "server error".toList = _; decide +kernel⟩
    | protocol => exact ⟨"rotocol error".toList, by show "protocol error".toList = _; decide +kernel⟩
    | methodUnknown => exact ⟨"ethod unknown error".toList, by show "method unknown error".toList = _; decide +kernel⟩
  obtain ⟨t, ht⟩ := first c
  obtain ⟨t', ht'⟩ := first c'
  have hc : codeInitial c = codeInitial c' := by
    rw [ht, ht'] at h
    exact (List.cons.inj h).1
  cases c with
  | other n =>
    cases c' with
    | other m =>
      have h : "other error: code ".toList ++ decimal n.toNat ++ (": ".toList ++ r) = "other error: code ".toList ++ decimal m.toNat ++ (": ".toList ++ q) := h
      rw [List.append_assoc, List.append_assoc] at h
      obtain ⟨h1, h2⟩ := decimal_cancel (colon r) (colon q) (List.append_cancel_left h)
      exact ⟨by rw [BitVec.eq_of_toNat_eq h1], List.append_cancel_left h2⟩
    | _ => exact absurd hc (by simp [codeInitial])
  | generic => cases c' with
    | generic => exact ⟨rfl, List.append_cancel_left (List.append_cancel_left h)⟩
    | _ => exact absurd hc (by simp [codeInitial])
  | server => cases c' with
    | server => exact ⟨rfl, List.append_cancel_left (List.append_cancel_left h)⟩
    | _ => exact absurd hc (by simp [codeInitial])
  | protocol => cases c' with
    | protocol => exact ⟨rfl, List.append_cancel_left (List.append_cancel_left h)⟩
    | _ => exact absurd hc (by simp [codeInitial])
  | methodUnknown => cases c' with
    | methodUnknown => exact ⟨rfl, List.append_cancel_left (List.append_cancel_left h)⟩
    | _ => exact absurd hc (by simp [codeInitial])

theorem errorResponse_inj {p : Char → Bool} {e e' : ErrorResponse} (h : e.text p = e'.text p) : e.code = e'.code ∧ e.message = e'.message := by
  unfold ErrorResponse.text at h
  rw [List.append_assoc, List.append_assoc] at h
  obtain ⟨h1, h2⟩ := errorCode_cancel h
  exact ⟨h1, (quoted_cancel (r := []) (q := []) (by rw [h2])).1⟩

theorem assoc_reply {a b x c y d h : Text} : a ++ b ++ x ++ c ++ y ++ d ++ h = a ++ (b ++ (x ++ (c ++ (y ++ (d ++ h))))) := by simp

theorem reply_shape (env : LogEnv) (s : LookupSession) (a : SockAddr) (msg : Bytes) : (replyLine s a msg).text env =
    nodeDisplay a (HMap.get s.nodes.addr2node a) ++ ' ' ::
      match decodeResponse lossyUtf8 msg with
      | .ok r => "replied with ".toList ++ (decimal r.values.length ++ (" peer(s) and ".toList ++ (decimal (r.nodes.length + r.nodes6.length) ++
          (" node(s) for info hash ".toList ++ s.nodes.infoHash.displayText))))
      | .error (.rpc e) => "replied with error message: ".toList ++ e.text env.plain
      | .error e => "sent invalid reply message: ".toList ++ errorChain (e.err env) := by
  unfold replyLine
  have l1 : " replied with ".toList = ' ' :: "replied with ".toList := by decide +kernel
  have l2 : " replied with error message: ".toList = ' ' :: "replied with error message: ".toList := by decide +kernel
  have l3 : " sent invalid reply message: ".toList = ' ' :: "sent invalid reply message: ".toList := by decide +kernel
  cases decodeResponse lossyUtf8 msg with
  | ok r =>
    show nodeDisplay _ _ ++ " replied with ".toList ++ _ ++ _ ++ _ ++ _ ++ _ = _
    rw [assoc_reply, l1]; rfl
  | error e =>
    cases e with
    | rpc e =>
      show nodeDisplay _ _ ++ " replied with error message: ".toList ++ _ = _
      rw [List.append_assoc, l2]; rfl
    | bencode e =>
      show nodeDisplay _ _ ++ " sent invalid reply message: ".toList ++ _ = _
      rw [List.append_assoc, l3]; rfl
    | query =>
      show nodeDisplay _ _ ++ " sent invalid reply message: ".toList ++ _ = _
      rw [List.append_assoc, l3]; rfl

/-- **C75.** From what the log says of a node's datagram can be read which node sent it, and whether it was a reply, with how many peers and nodes
and for which torrent, or an error, with its code and its message, or made no sense. -/
theorem reply_log_faithful (env : LogEnv) (s s' : LookupSession) (a a' : SockAddr) (msg msg' : Bytes)
    (h : (replyLine s a msg).text env = (replyLine s' a' msg').text env) :
    HMap.get s.nodes.addr2node a = HMap.get s'.nodes.addr2node a' ∧ (HMap.get s.nodes.addr2node a = none → a = a') ∧
    SameReply (decodeResponse lossyUtf8 msg) (decodeResponse lossyUtf8 msg') ∧
    (∀ r, decodeResponse lossyUtf8 msg = .ok r → s.nodes.infoHash = s'.nodes.infoHash) := by
  rw [reply_shape, reply_shape] at h
  obtain ⟨⟨h1, h2⟩, h⟩ := node_cancel h
  refine ⟨h1, h2, ?_⟩
  have digit : ∀ (n : Nat) (t u : Text), decimal n ++ t ≠ "error message: ".toList ++ u := by
    intro n t u e
    obtain ⟨hne, hd, -⟩ := decimal_isDecimal n
    cases hn : decimal n with
    | nil => exact hne hn
    | cons c l =>
      have e1 : (decimal n ++ t).head? = some 'e' := by rw [e]; rfl
      rw [hn] at e1
      have := hd c (by rw [hn]; exact List.mem_cons_self ..)
      have e1 : some c = some 'e' := e1
      cases e1
      exact absurd this (by decide)
  have lit : "replied with error message: ".toList = "replied with ".toList ++ "error message: ".toList := by decide +kernel
  generalize decodeResponse lossyUtf8 msg = d at h ⊢
  generalize decodeResponse lossyUtf8 msg' = d' at h ⊢
  have rs : ∀ t u : Text, "replied with ".toList ++ t ≠ "sent invalid reply message: ".toList ++ u := fun t u =>
    take_ne 1 (by decide +kernel) (by decide +kernel) (by decide +kernel)
  have es : ∀ t u : Text, "replied with error message: ".toList ++ t ≠ "sent invalid reply message: ".toList ++ u := fun t u =>
    take_ne 1 (by decide +kernel) (by decide +kernel) (by decide +kernel)
  have re : ∀ (n : Nat) (t u : Text), "replied with ".toList ++ (decimal n ++ t) ≠ "replied with error message: ".toList ++ u := by
    intro n t u e
    rw [lit, List.append_assoc] at e
    exact digit _ _ _ (List.append_cancel_left e)
  rcases d with (_ | e | _) | r <;> rcases d' with (_ | e' | _) | r' <;> simp only at h
  · exact ⟨.invalid (by simp) (by simp), by simp⟩
  · exact absurd h.symm (es _ _)
  · exact ⟨.invalid (by simp) (by simp), by simp⟩
  · exact absurd h.symm (rs _ _)
  · exact absurd h (es _ _)
  · obtain ⟨h3, h4⟩ := errorResponse_inj (List.append_cancel_left h)
    exact ⟨.error h3 h4, by simp⟩
  · exact absurd h (es _ _)
  · exact absurd h.symm (re _ _ _)
  · exact ⟨.invalid (by simp) (by simp), by simp⟩
  · exact absurd h.symm (es _ _)
  · exact ⟨.invalid (by simp) (by simp), by simp⟩
  · exact absurd h.symm (rs _ _)
  · exact absurd h (rs _ _)
  · exact absurd h (re _ _ _)
  · exact absurd h (rs _ _)
  · obtain ⟨h3, h4⟩ := decimal_comma (by decide +kernel) (by decide +kernel) (List.append_cancel_left h)
    obtain ⟨h5, h6⟩ := decimal_comma (by decide +kernel) (by decide +kernel) h4
    exact ⟨.found h3 h5, fun _ _ => displayText_injective _ _ h6⟩

/-! ### Examples -/

def exLogEnv : LogEnv := sampleLogEnv

-- a piece and a bit field as the log tells of them
example : (Message.core (.bitfield [0xA0, 0x01])).text exLogEnv.plain = "bitfield: have 3 pieces".toList := by decide +kernel
example : piecesHad [0xA0, 0x01] = 3 ∧ HasPiece [0xA0, 0x01] 2 ∧ ¬ HasPiece [0xA0, 0x01] 1 ∧ HasPiece [0xA0, 0x01] 15 := by decide +kernel
example := (message_log_faithful exLogEnv.plain (.core (.bitfield [0xA0, 0x01])) (.core (.bitfield [0x0B]))).1 (by decide +kernel)
-- a handshake with the bits of two known extensions and an unknown one, and a peer ID with a quote, a newline and an escape in it
example : (Handshake.mk ⟨0x8000000000100100⟩ ⟨List.replicate 20 7, by decide⟩ ⟨[34, 10, 27] ++ List.replicate 17 65, by decide⟩).text =
    "handshake (extensions: Azureus Messaging Protocol, BEP 10 Extension Protocol, Unknown(0x0000000000000100); peer ID: b\"\\\"\\n\\x1bAAAAAAAAAAAAAAAAA\")".toList := by
  decide +kernel
-- a node that answers with an error
example : decodeResponse lossyUtf8 (ascii "d1:eli201e3:bade1:t2:aa1:y1:ee") = .error (.rpc ⟨ascii "aa", none, .generic, "bad".toList, none⟩) := by
  decide +kernel

end Demag.Props
