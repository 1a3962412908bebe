import Verif.Lemmas.IpParse
import Verif.Lemmas.Wire

/-!
# Properties: addresses as texts (C57)
-/

namespace Demag.Props

open Spec

/-! ### Printing -/

theorem decimal_number {n bound : Nat} (h : n < bound) : IsNumber bound n (decimal n) :=
  ⟨(decimal_isDecimal n).1, (decimal_isDecimal n).2.1, (decimal_isDecimal n).2.2.1, h⟩

theorem ipv4Text_is (ip : Ipv4) : IsIpv4Text (ipv4Text ip) ip := by
  have oct : ∀ b : UInt8, IsOctet b.toNat (decimal b.toNat) := fun b => ⟨decimal_isDecimal _, b.toNat_lt⟩
  have hv : beValue ip.octets = ip.bits.toNat := by
    rw [Ipv4.octets, beValue_beBytes, Nat.mod_eq_of_lt (by have := ip.bits.isLt; omega)]
  have hl : ip.octets.length = 4 := beBytes_length _ _
  rw [IsIpv4Text, ipv4Text, ← hv]
  match ip.octets, hl with
  | [a, b, c, d], _ =>
    refine ⟨_, _, _, _, _, _, _, _, oct a, oct b, oct c, oct d, ?_, ?_⟩
    · simp [sepBy]
    · simp only [beValue, List.map_cons, List.map_nil, ofDigits, List.length_cons, List.length_nil]
      omega

theorem hexNat_group (n : Nat) (h : n < 65536) : IsGroup n (hexNat n) := by
  have dig : ∀ d, d < 16 → hexDigit (hexChar d) = some d := by decide
  have key : ∀ n, hexNat n ≠ [] ∧ (∃ ds, (hexNat n).mapM hexDigit = some ds ∧ ofDigits 16 ds = n) ∧
      ∀ k, 0 < k → n < 16 ^ k → (hexNat n).length ≤ k := by
    intro n
    fun_induction hexNat n with
    | case1 n h =>
      refine ⟨by simp, ⟨[n], by simp [dig n h], by simp [ofDigits]⟩, fun k hk _ => hk⟩
    | case2 n h ih =>
      obtain ⟨-, ⟨ds, h2, h3⟩, h4⟩ := ih
      have hm : n % 16 < 16 := Nat.mod_lt _ (by omega)
      refine ⟨by simp, ⟨ds ++ [n % 16], ?_, ?_⟩, ?_⟩
      · rw [List.mapM_append, h2]
        simp [dig _ hm]
      · rw [ofDigits_snoc, h3]; omega
      · intro k hk hlt
        cases k with
        | zero => omega
        | succ k =>
          rw [Nat.pow_succ] at hlt
          have := h4 k (by
            cases k with
            | zero => simp at hlt; omega
            | succ k => omega) (by omega)
          simp; omega
  exact ⟨(key n).1, (key n).2.2 4 (by omega) (by omega), (key n).2.1⟩

theorem sepBy_groups (gs : List Nat) (h : ∀ g ∈ gs, g < 65536) (hne : gs ≠ []) : IsHexGroups (sepBy ':' (gs.map hexNat)) gs := by
  induction gs with
  | nil => exact absurd rfl hne
  | cons g gs ih =>
    cases gs with
    | nil => simpa [sepBy] using IsHexGroups.one (hexNat_group g (h g (by simp)))
    | cons g' gs =>
      have := ih (fun x hx => h x (by simp [hx])) (by simp)
      have := IsHexGroups.more (hexNat_group g (h g (by simp))) this
      simpa [sepBy] using this

theorem sepBy_groups' (gs : List Nat) (h : ∀ g ∈ gs, g < 65536) :
    sepBy ':' (gs.map hexNat) = [] ∧ gs = [] ∨ IsHexGroups (sepBy ':' (gs.map hexNat)) gs := by
  by_cases hne : gs = []
  · left; simp [hne, sepBy]
  · exact .inr (sepBy_groups gs h hne)

/-- The run found is a run of zeros. -/
theorem zeroRun_spec (pre ss : List Nat) (cur longest : Nat × Nat) (i : Nat) (hi : i = pre.length)
    (hc : cur.2 = 0 ∨ cur.1 + cur.2 = i ∧ (pre.drop cur.1) = List.replicate cur.2 0)
    (hl : longest.1 + longest.2 ≤ i ∧ (pre.drop longest.1).take longest.2 = List.replicate longest.2 0) :
    (zeroRun ss i cur longest).1 + (zeroRun ss i cur longest).2 ≤ (pre ++ ss).length ∧
    ((pre ++ ss).drop (zeroRun ss i cur longest).1).take (zeroRun ss i cur longest).2 =
      List.replicate (zeroRun ss i cur longest).2 0 := by
  induction ss generalizing pre cur longest i with
  | nil => simpa [zeroRun, ← hi] using hl
  | cons s ss ih =>
    have extend : ∀ z : Nat × Nat, z.1 + z.2 ≤ i ∧ (pre.drop z.1).take z.2 = List.replicate z.2 0 →
        z.1 + z.2 ≤ i + 1 ∧ ((pre ++ [s]).drop z.1).take z.2 = List.replicate z.2 0 := by
      intro z hz
      refine ⟨by omega, ?_⟩
      rw [List.drop_append_of_le_length (by omega), List.take_append_of_le_length (by simp; omega)]
      exact hz.2
    rw [zeroRun]
    split
    · next h0 =>
      subst h0
      have hc' : ∀ c : Nat × Nat, c = (if cur.2 = 0 then i else cur.1, cur.2 + 1) →
          c.1 + c.2 = i + 1 ∧ (pre ++ [0]).drop c.1 = List.replicate c.2 0 := by
        rintro c rfl
        by_cases h0 : cur.2 = 0
        · rw [if_pos h0, h0]
          refine ⟨rfl, ?_⟩
          rw [hi]
          simp
        · have hc := hc.resolve_left h0
          rw [if_neg h0]
          refine ⟨by simp only; omega, ?_⟩
          rw [List.drop_append_of_le_length (by simp only; omega), hc.2]
          exact (List.replicate_succ' (n := cur.2) (a := 0)).symm
      have hn := hc' _ rfl
      have hs : ∀ c : Nat × Nat, c = (if cur.2 = 0 then i else cur.1, cur.2 + 1) → (if cur.2 + 1 > longest.2 then
          (if cur.2 = 0 then i else cur.1, cur.2 + 1) else longest) = if c.2 > longest.2 then c else longest := by
        rintro c rfl; rfl
      simp only
      rw [hs _ rfl]
      generalize (if cur.2 = 0 then i else cur.1, cur.2 + 1) = c at hn
      have := ih (pre ++ [0]) c (if c.2 > longest.2 then c else longest) (i + 1) (by simp [hi]) (.inr hn) (by
          split
          · refine ⟨by omega, ?_⟩
            rw [hn.2]
            simp
          · exact extend longest hl)
      simpa using this
    · have := ih (pre ++ [s]) (0, 0) longest (i + 1) (by simp [hi]) (.inl rfl) (extend longest hl)
      simpa using this

theorem segments_length (ip : Ipv6) : ip.segments.length = 8 := by simp [Ipv6.segments]

theorem segments_lt (ip : Ipv6) : ∀ g ∈ ip.segments, g < 65536 := by
  intro g hg
  obtain ⟨i, -, rfl⟩ := List.mem_map.1 hg
  exact Nat.mod_lt _ (by omega)

theorem segments_value (ip : Ipv6) : ofDigits 65536 ip.segments = ip.bits.toNat := by
  have e : ip.segments = toDigits 65536 8 ip.bits.toNat := by
    simp [Ipv6.segments, toDigits, List.range, List.range.loop]
  rw [e, ofDigits_toDigits, Nat.mod_eq_of_lt (by have := ip.bits.isLt; omega)]

theorem ipv6Text_is (ip : Ipv6) : IsIpv6Text (ipv6Text ip) ip := by
  refine ⟨ip.segments, ?_, (segments_value ip).symm⟩
  have h8 := segments_length ip
  have hlt := segments_lt ip
  rw [ipv6Text]
  split
  · next v4 h4 =>
    rw [Ipv6.toIpv4Mapped] at h4
    split at h4
    · next hp =>
      cases h4
      have hd := ipv4Text_is ⟨BitVec.ofNat 32 ip.bits.toNat⟩
      rw [IsIpv4Text] at hd
      have hn : (BitVec.ofNat 32 ip.bits.toNat).toNat = ip.bits.toNat % 2 ^ 32 := BitVec.toNat_ofNat _ _
      simp only [hn] at hd
      refine .inr ⟨[], _, [], _, rfl, .inl ⟨rfl, rfl⟩,
        .inr (.more (t := "ffff".toList) (n := 65535) ⟨by decide, by decide, [15, 15, 15, 15], by decide, by decide⟩ (.dotted hd)), by simp, ?_⟩
      rw [← List.take_append_drop 6 ip.segments, hp]
      simp only [Ipv6.segments, List.range, List.range.loop, List.map_cons, List.map_nil, List.drop_succ_cons, List.drop_zero]
      simp
      omega
    · cases h4
  · simp only
    split
    · next hz =>
      obtain ⟨h1, h2⟩ := zeroRun_spec [] ip.segments (0, 0) (0, 0) 0 rfl (.inl rfl) ⟨by simp, rfl⟩
      rw [List.nil_append] at h1 h2
      generalize zeroRun ip.segments 0 (0, 0) (0, 0) = z at hz h1 h2 ⊢
      rw [h8] at h1
      refine .inr ⟨_, sepBy ':' ((ip.segments.drop (z.1 + z.2)).map hexNat), _, ip.segments.drop (z.1 + z.2),
        by rw [List.append_assoc]; rfl,
        sepBy_groups' (ip.segments.take z.1) (fun g hg => hlt g (List.mem_of_mem_take hg)), ?_, ?_, ?_⟩
      · rcases sepBy_groups' (ip.segments.drop (z.1 + z.2)) (fun g hg => hlt g (List.mem_of_mem_drop hg)) with h | h
        · exact .inl h
        · exact .inr (isHexGroups_isGroups h)
      · simp [h8]; omega
      · rw [show 8 - ((ip.segments.take z.1).length + (ip.segments.drop (z.1 + z.2)).length) = z.2 by simp [h8]; omega, ← h2,
          ← List.drop_drop, List.append_assoc, List.take_append_drop, List.take_append_drop]
    · exact .inl ⟨isHexGroups_isGroups (sepBy_groups _ hlt (fun h => by rw [h] at h8; cases h8)), h8⟩

/-- **C57** (an IP address is printed as a text of that address). -/
theorem ipText_is (ip : IpAddr) : IsIpText (ipText ip) ip := by
  cases ip with
  | v4 ip => exact ipv4Text_is ip
  | v6 ip => exact ipv6Text_is ip

/-! ### The recommended form -/

theorem zerosAt_append {pre : List Nat} {s : Nat} {j m : Nat} (h : ZerosAt (pre ++ [s]) j m) :
    (j + m ≤ pre.length → ZerosAt pre j m) ∧ (∀ m', m = m' + 1 → j + m = pre.length + 1 → s = 0 ∧ ZerosAt pre j m') := by
  obtain ⟨h1, h2⟩ := h
  rw [List.length_append, List.length_singleton] at h1
  refine ⟨fun hl => ⟨hl, fun k hk1 hk2 => ?_⟩, ?_⟩
  · have := h2 k hk1 hk2
    rwa [List.getElem?_append_left (by omega)] at this
  · rintro m' rfl hl
    refine ⟨?_, by omega, fun k hk1 hk2 => ?_⟩
    · have := h2 pre.length (by omega) (by omega)
      simpa using this
    · have := h2 k hk1 (by omega)
      rwa [List.getElem?_append_left (by omega)] at this

/-- The run found is the first one of the longest. -/
theorem zeroRun_best (pre ss : List Nat) (cur longest : Nat × Nat) (i : Nat) (hi : i = pre.length)
    (hc : ∀ j m, ZerosAt pre j m → j + m = i → m ≤ cur.2)
    (hc' : 0 < cur.2 → cur.1 + cur.2 = i)
    (hl : longest.1 + longest.2 ≤ i)
    (hb : ∀ j m, ZerosAt pre j m → 0 < m → m ≤ longest.2 ∧ (m = longest.2 → longest.1 ≤ j)) :
    ∀ j m, ZerosAt (pre ++ ss) j m → 0 < m →
      m ≤ (zeroRun ss i cur longest).2 ∧ (m = (zeroRun ss i cur longest).2 → (zeroRun ss i cur longest).1 ≤ j) := by
  induction ss generalizing pre cur longest i with
  | nil => simpa [zeroRun] using hb
  | cons s ss ih =>
    rw [zeroRun, List.append_cons]
    split
    · next h0 =>
      subst h0
      simp only
      have hs : ∀ c : Nat × Nat, c = (if cur.2 = 0 then i else cur.1, cur.2 + 1) → (if cur.2 + 1 > longest.2 then
          (if cur.2 = 0 then i else cur.1, cur.2 + 1) else longest) = if c.2 > longest.2 then c else longest := by
        rintro c rfl; rfl
      have hsum : ∀ c : Nat × Nat, c = (if cur.2 = 0 then i else cur.1, cur.2 + 1) → c.1 + c.2 = i + 1 ∧ c.2 = cur.2 + 1 := by
        rintro c rfl
        by_cases hz : cur.2 = 0
        · rw [if_pos hz, hz]; exact ⟨rfl, rfl⟩
        · rw [if_neg hz]; have := hc' (by omega); exact ⟨by simp only; omega, rfl⟩
      obtain ⟨hs1, hs2⟩ := hsum _ rfl
      rw [hs _ rfl]
      generalize (if cur.2 = 0 then i else cur.1, cur.2 + 1) = c at hs1 hs2
      have hend : ∀ j m, ZerosAt (pre ++ [0]) j m → j + m = i + 1 → m ≤ c.2 := by
        intro j m hz hjm
        cases m with
        | zero => omega
        | succ m =>
          have := hc j m ((zerosAt_append hz).2 m rfl (by omega)).2 (by omega)
          omega
      refine ih (pre ++ [0]) c _ (i + 1) (by simp [hi]) hend (fun _ => hs1) ?_ ?_
      · split <;> omega
      · intro j m hz hm
        by_cases hjm : j + m ≤ pre.length
        · obtain ⟨b1, b2⟩ := hb j m ((zerosAt_append hz).1 hjm) hm
          split
          · exact ⟨by omega, fun e => by omega⟩
          · exact ⟨b1, b2⟩
        · have hjm' : j + m = i + 1 := by
            have := hz.1
            rw [List.length_append, List.length_singleton] at this
            omega
          have := hend j m hz hjm'
          split
          · exact ⟨this, fun e => by omega⟩
          · exact ⟨by omega, fun e => by omega⟩
    · next h0 =>
      have hno : ∀ j m, ZerosAt (pre ++ [s]) j m → j + m = i + 1 → m = 0 := by
        intro j m hz hjm
        cases m with
        | zero => rfl
        | succ m => exact absurd ((zerosAt_append hz).2 m rfl (by omega)).1 h0
      refine ih (pre ++ [s]) (0, 0) longest (i + 1) (by simp [hi]) ?_ (by simp) (by omega) ?_
      · intro j m hz hjm
        rw [hno j m hz hjm]
        simp
      · intro j m hz hm
        by_cases hjm : j + m ≤ pre.length
        · exact hb j m ((zerosAt_append hz).1 hjm) hm
        · have := hz.1
          rw [List.length_append, List.length_singleton] at this
          have := hno j m hz (by omega)
          omega

theorem hexNat_short {n : Nat} (h : n < 65536) : IsShortGroup n (hexNat n) := by
  have dig : ∀ d, d < 16 → ¬ ('A' ≤ hexChar d ∧ hexChar d ≤ 'Z') ∧ (hexChar d = '0' → d = 0) := by decide
  refine ⟨hexNat_group n h, ?_, ?_⟩
  · clear h
    intro c hc
    fun_induction hexNat n with
    | case1 n h => rw [List.mem_singleton] at hc; subst hc; exact (dig n h).1
    | case2 n h ih =>
      rcases List.mem_append.1 hc with hc | hc
      · exact ih hc
      · rw [List.mem_singleton] at hc; subst hc; exact (dig _ (Nat.mod_lt _ (by omega))).1
  · have key : ∀ n, (hexNat n).head? = some '0' → n = 0 := by
      intro n
      fun_induction hexNat n with
      | case1 n h => intro e; exact (dig n h).2 (by simpa using e)
      | case2 n h ih =>
        intro e
        have hne : hexNat (n / 16) ≠ [] := by
          rw [hexNat]
          split <;> simp
        rw [List.head?_append_of_ne_nil _ hne] at e
        have := ih e
        omega
    intro e
    rw [key n e]
    decide +kernel

theorem sepBy_short (gs : List Nat) (h : ∀ g ∈ gs, g < 65536) : IsShortGroups gs (sepBy ':' (gs.map hexNat)) := by
  induction gs with
  | nil => exact .nil
  | cons g gs ih =>
    cases gs with
    | nil => simpa [sepBy] using IsShortGroups.one (hexNat_short (h g (by simp)))
    | cons g' gs =>
      have := ih (fun x hx => h x (by simp [hx]))
      have := IsShortGroups.more (hexNat_short (h g (by simp))) (by simp) this
      simpa [sepBy] using this

/-- **C57** (an IPv6 address is printed in the form that RFC 5952 recommends; those with an IPv4 address in them are printed with that
address). -/
theorem ipv6Text_recommended (ip : Ipv6) :
    ∃ segs : List Nat, segs.length = 8 ∧ (∀ g ∈ segs, g < 65536) ∧ ofDigits 65536 segs = ip.bits.toNat ∧
      ((segs.take 6 = [0, 0, 0, 0, 0, 0xffff] ∧ ∃ t n, ipv6Text ip = "::ffff:".toList ++ t ∧ IsDotted t n ∧ n = ip.bits.toNat % 2 ^ 32) ∨
        (segs.take 6 ≠ [0, 0, 0, 0, 0, 0xffff] ∧ IsRecommended segs (ipv6Text ip))) := by
  have h8 := segments_length ip
  have hlt := segments_lt ip
  refine ⟨ip.segments, h8, hlt, segments_value ip, ?_⟩
  rw [ipv6Text, Ipv6.toIpv4Mapped]
  by_cases hp : ip.segments.take 6 = [0, 0, 0, 0, 0, 0xffff]
  · left
    rw [if_pos hp]
    have hd := ipv4Text_is ⟨BitVec.ofNat 32 ip.bits.toNat⟩
    exact ⟨hp, _, _, rfl, hd, BitVec.toNat_ofNat _ _⟩
  · right
    rw [if_neg hp]
    refine ⟨hp, ?_⟩
    obtain ⟨h1, h2⟩ := zeroRun_spec [] ip.segments (0, 0) (0, 0) 0 rfl (.inl rfl) ⟨by simp, rfl⟩
    have hb := zeroRun_best [] ip.segments (0, 0) (0, 0) 0 rfl (fun j m h _ => by have := h.1; simp at this ⊢; omega) (by simp) (by simp)
      (fun j m h hm => by have := h.1; simp at this; omega)
    rw [List.nil_append] at h1 h2 hb
    simp only
    generalize zeroRun ip.segments 0 (0, 0) (0, 0) = z at h1 h2 hb ⊢
    have hz : ZerosAt ip.segments z.1 z.2 := by
      refine ⟨h1, fun k hk1 hk2 => ?_⟩
      have : (List.take z.2 (List.drop z.1 ip.segments))[k - z.1]? = some 0 := by
        rw [h2, List.getElem?_replicate, if_pos (by omega)]
      rw [List.getElem?_take, if_pos (by omega), List.getElem?_drop] at this
      rwa [show z.1 + (k - z.1) = k by omega] at this
    split
    · next hz2 =>
      refine .inr ⟨z.1, z.2, _, _, hz2, hz, ?_, sepBy_short _ (fun g hg => hlt g (List.mem_of_mem_take hg)),
        sepBy_short _ (fun g hg => hlt g (List.mem_of_mem_drop hg)), by rw [List.append_assoc]; rfl⟩
      intro j m hm
      by_cases h0 : 0 < m
      · exact hb j m hm h0
      · exact ⟨by omega, fun e => by omega⟩
    · next hz2 =>
      refine .inl ⟨?_, sepBy_short _ hlt⟩
      rintro ⟨i, hi⟩
      have := (hb i 2 hi (by omega)).1
      omega

/-! ### Reading -/

theorem ends_nil : Ends [] := fun c hc => by cases hc

theorem bits32_iff {n : Nat} (h : n < 2 ^ 32) (ip : Ipv4) : (⟨BitVec.ofNat 32 n⟩ : Ipv4) = ip ↔ ip.bits.toNat = n := by
  obtain ⟨b⟩ := ip
  simp only [Ipv4.mk.injEq]
  constructor
  · rintro rfl
    rw [BitVec.toNat_ofNat, Nat.mod_eq_of_lt h]
  · intro e
    apply BitVec.eq_of_toNat_eq
    rw [BitVec.toNat_ofNat, Nat.mod_eq_of_lt h, e]

/-- **C57** (exactly the texts of IP addresses are read as IP addresses, and as those they are the texts of). -/
theorem ipFromStr_iff (t : Text) (ip : IpAddr) : ipFromStr t = some ip ↔ IsIpText t ip := by
  constructor
  · intro h
    rw [ipFromStr] at h
    split at h
    · next ip' e =>
      cases h
      rw [readIp] at e
      split at e
      · next n r e4 =>
        simp only [Option.some.injEq, Prod.mk.injEq] at e
        obtain ⟨rfl, rfl⟩ := e
        obtain ⟨t', rfl, hd, -⟩ := readIpv4_iff.1 e4
        rw [List.append_nil]
        show IsDotted _ _
        rw [(bits32_iff (isDotted_lt hd) _).1 rfl]
        exact hd
      · simp only [Option.map_eq_some_iff, Prod.exists, Prod.mk.injEq] at e
        obtain ⟨segs, r, e6, rfl, rfl⟩ := e
        obtain ⟨t', rfl, hg⟩ := readIpv6_sound e6
        rw [List.append_nil]
        exact ⟨segs, hg, ofSegments_toNat (eightGroups_ok hg).1 (eightGroups_ok hg).2⟩
    · cases h
  · intro h
    cases ip with
    | v4 ip =>
      have : readIpv4 t = some (ip.bits.toNat, []) := readIpv4_iff.2 ⟨t, by simp, h, fun c hc => by cases hc⟩
      rw [ipFromStr, readIp, this]
      simp only
      rw [(bits32_iff ip.bits.isLt ip).2 rfl]
    | v6 ip =>
      obtain ⟨segs, hg, hv⟩ := h
      have h4 := eightGroups_readIpv4 hg [] ends_nil
      have h6 := readIpv6_complete hg ends_nil (fun c hc => by cases hc)
      rw [List.append_nil] at h4 h6
      rw [ipFromStr, readIp, h4, h6]
      simp only [Option.map_some]
      rw [(ipv6_ofSegments_iff (eightGroups_ok hg).1 (eightGroups_ok hg).2).2 hv]

/-- **C57** (a printed IP address is read back as the same address). -/
theorem ip_roundTrip (ip : IpAddr) : ipFromStr (ipText ip) = some ip := (ipFromStr_iff _ _).2 (ipText_is ip)

/-- **C57** (different IP addresses are printed differently). -/
theorem ipText_injective {a b : IpAddr} (h : ipText a = ipText b) : a = b := by
  have := ip_roundTrip a
  rw [h, ip_roundTrip b] at this
  exact (Option.some.inj this).symm

/-- No text is one of two IP addresses. -/
theorem isIpText_unique {t : Text} {a b : IpAddr} (ha : IsIpText t a) (hb : IsIpText t b) : a = b := by
  have := (ipFromStr_iff t a).2 ha
  rw [(ipFromStr_iff t b).2 hb] at this
  exact (Option.some.inj this).symm

/-! ### Socket addresses -/

theorem readPort_iff {s r : Text} {n : Nat} :
    readPort s = some (n, r) ↔ ∃ t, s = ':' :: (t ++ r) ∧ IsNumber 65536 n t ∧ ∀ c ∈ r.head?, c.isDigit = false := by
  simp only [readPort, Option.bind_eq_some_iff, readGivenChar_iff, readNum_iff]
  constructor
  · rintro ⟨_, rfl, t, rfl, h⟩; exact ⟨t, rfl, h⟩
  · rintro ⟨t, rfl, h⟩; exact ⟨_, rfl, t, rfl, h⟩

theorem port_toNat {n : Nat} (h : n < 65536) : (BitVec.ofNat 16 n).toNat = n := by
  rw [BitVec.toNat_ofNat, Nat.mod_eq_of_lt (by omega)]

theorem ends_bracket (r : Text) : Ends (']' :: r) := by
  intro c hc
  cases hc
  decide

theorem ends_percent (r : Text) : Ends ('%' :: r) := by
  intro c hc
  cases hc
  decide

theorem readSockV4_bracket (r : Text) : readSockV4 ('[' :: r) = none := by
  have : readIpv4 ('[' :: r) = none := readIpv4_none (by
    intro c hc
    cases hc
    decide)
  simp [readSockV4, this]

/-- **C57** (exactly the texts of socket addresses are read as socket addresses, and as those they are the texts of). -/
theorem sockFromStr_iff (t : Text) (a : SockAddr) (scope : Nat) :
    sockFromStr t = some (a, scope) ↔ IsSockText t a scope := by
  constructor
  · intro h
    rw [sockFromStr] at h
    split at h
    · next a' r e =>
      split at h
      · next hr =>
        cases hr
        simp only [Option.some.injEq, Prod.mk.injEq] at h
        obtain ⟨rfl, rfl⟩ := h
        simp only [readSockV4, Option.bind_eq_bind, Option.bind_eq_some_iff, Option.pure_def, Option.some.injEq, Prod.mk.injEq,
          Prod.exists] at e
        obtain ⟨n, s1, e4, p, s2, ep, rfl, rfl⟩ := e
        obtain ⟨ti, rfl, hd, -⟩ := readIpv4_iff.1 e4
        obtain ⟨tp, rfl, hp, -⟩ := readPort_iff.1 ep
        refine ⟨rfl, ti, tp, by simp, ?_, ?_⟩
        · show IsDotted _ _
          rw [(bits32_iff (isDotted_lt hd) _).1 rfl]
          exact hd
        · rw [port_toNat hp.2.2.2]; exact hp
      · cases h
    · split at h
      · next a' scope' r e =>
        split at h
        · next hr =>
          cases hr
          simp only [Option.some.injEq, Prod.mk.injEq] at h
          obtain ⟨rfl, rfl⟩ := h
          simp only [readSockV6, Option.bind_eq_bind, Option.bind_eq_some_iff, Option.pure_def, Option.some.injEq, Prod.mk.injEq,
            Prod.exists, readGivenChar_iff] at e
          obtain ⟨s1, rfl, segs, s2, e6, s3, e3, p, s4, ep, ⟨rfl, rfl⟩, rfl⟩ := e
          obtain ⟨ti, rfl, hg⟩ := readIpv6_sound e6
          obtain ⟨tp, rfl, hp, -⟩ := readPort_iff.1 ep
          have hs : ∃ ts, s2 = ts ++ ']' :: ':' :: (tp ++ []) ∧
              (ts = [] ∧ (readScopeId s2).1 = 0 ∨ ∃ u, ts = '%' :: u ∧ IsNumber (2 ^ 32) (readScopeId s2).1 u) := by
            rw [readScopeId] at e3 ⊢
            split at e3
            · next n r e' =>
              simp only [Option.bind_eq_some_iff, readGivenChar_iff, readNum_iff] at e'
              obtain ⟨_, rfl, u, rfl, hn, -⟩ := e'
              refine ⟨'%' :: u, by rw [← e3]; rfl, .inr ⟨u, rfl, ?_⟩⟩
              exact hn
            · exact ⟨[], by rw [← e3]; rfl, .inl ⟨rfl, rfl⟩⟩
          obtain ⟨ts, rfl, hs⟩ := hs
          refine ⟨ti, ts, tp, by simp, ⟨segs, hg, ofSegments_toNat (eightGroups_ok hg).1 (eightGroups_ok hg).2⟩, hs, ?_⟩
          rw [port_toNat hp.2.2.2]; exact hp
        · cases h
      · cases h
  · intro h
    have none_digit : ∀ c ∈ ([] : Text).head?, c.isDigit = false := fun c hc => by cases hc
    cases a with
    | v4 a =>
      obtain ⟨rfl, ti, tp, rfl, hi, hp⟩ := h
      have e4 : readIpv4 (ti ++ ':' :: tp) = some (a.ip.bits.toNat, ':' :: tp) :=
        readIpv4_iff.2 ⟨ti, rfl, hi, ends_digit (ends_colon _)⟩
      have ep : readPort (':' :: tp) = some (a.port.toNat, []) := readPort_iff.2 ⟨tp, by simp, hp, none_digit⟩
      have e : readSockV4 (ti ++ ':' :: tp) = some (a, []) := by
        simp only [readSockV4, Option.bind_eq_bind, e4, ep, Option.bind_some, Option.pure_def, Option.some.injEq, Prod.mk.injEq,
          and_true]
        rw [(bits32_iff a.ip.bits.isLt a.ip).2 rfl, BitVec.ofNat_toNat, BitVec.setWidth_eq]
      rw [sockFromStr, e]
      simp
    | v6 a =>
      obtain ⟨ti, ts, tp, rfl, ⟨segs, hg, hv⟩, hs, hp⟩ := h
      have ep : readPort (':' :: tp) = some (a.port.toNat, []) := readPort_iff.2 ⟨tp, by simp, hp, none_digit⟩
      have e6 : readIpv6 (ti ++ (ts ++ ']' :: ':' :: tp)) = some (segs, ts ++ ']' :: ':' :: tp) := by
        rcases hs with ⟨rfl, -⟩ | ⟨u, rfl, -⟩
        · exact readIpv6_complete hg (ends_bracket _) (fun c hc => by cases hc; decide)
        · exact readIpv6_complete hg (ends_percent _) (fun c hc => by cases hc; decide)
      have es : readScopeId (ts ++ ']' :: ':' :: tp) = (scope, ']' :: ':' :: tp) := by
        rcases hs with ⟨rfl, rfl⟩ | ⟨u, rfl, hn⟩
        · simp [readScopeId, readGivenChar]
        · have : readNumber 10 none true (2 ^ 32) (u ++ ']' :: ':' :: tp) = some (scope, ']' :: ':' :: tp) :=
            readNum_iff.2 ⟨u, rfl, hn, ends_digit (ends_bracket _)⟩
          rw [readScopeId, List.cons_append, readGivenChar, if_pos rfl, Option.bind_some, this]
      have e : readSockV6 ('[' :: (ti ++ ts ++ ']' :: ':' :: tp)) = some ((a, scope), []) := by
        rw [List.append_assoc]
        simp only [readSockV6, readGivenChar, if_true, Option.bind_eq_bind, e6, es, ep, Option.bind_some, Option.pure_def,
          Option.some.injEq, Prod.mk.injEq, and_true]
        rw [(ipv6_ofSegments_iff (eightGroups_ok hg).1 (eightGroups_ok hg).2).2 hv, BitVec.ofNat_toNat, BitVec.setWidth_eq]
      rw [sockFromStr, readSockV4_bracket, e]
      simp

/-- **C57** (a socket address is printed as a text of that address). -/
theorem sockText_is (a : SockAddr) : IsSockText (sockText a) a 0 := by
  cases a with
  | v4 a => exact ⟨rfl, _, _, rfl, ipv4Text_is a.ip, decimal_number (by have := a.port.isLt; omega)⟩
  | v6 a => exact ⟨_, [], _, by rw [List.append_nil]; rfl, ipv6Text_is a.ip, .inl ⟨rfl, rfl⟩, decimal_number (by have := a.port.isLt; omega)⟩

/-- **C57** (the address printed for a peer is accepted as the address of a peer, and is that of the same peer). -/
theorem peer_roundTrip (a : SockAddr) : Peer.fromStr (sockText a) = some ⟨a, none, false⟩ := by
  rw [Peer.fromStr, (sockFromStr_iff _ _ _).2 (sockText_is a)]
  rfl

/-- **C57** (different addresses are printed differently). -/
theorem sockText_injective {a b : SockAddr} (h : sockText a = sockText b) : a = b := by
  have := peer_roundTrip a
  rw [h, peer_roundTrip b] at this
  cases this
  rfl

/-- **C57** (what `query-peer` accepts as a peer). -/
theorem peer_fromStr_iff (t : Text) (p : Peer) :
    Peer.fromStr t = some p ↔ p.id = none ∧ p.requiresCrypto = false ∧ ∃ scope, IsSockText t p.address scope := by
  rw [Peer.fromStr]
  simp only [Option.map_eq_some_iff, Prod.exists, sockFromStr_iff]
  constructor
  · rintro ⟨a, scope, h, rfl⟩
    exact ⟨rfl, rfl, scope, h⟩
  · rintro ⟨h1, h2, scope, h⟩
    refine ⟨p.address, scope, h, ?_⟩
    obtain ⟨a, i, c⟩ := p
    simp only at h1 h2
    rw [h1, h2]

example : ipText (.v6 ⟨0x20010db8000000000000ff0000428329#128⟩) = "2001:db8::ff00:42:8329".toList := by decide +kernel
example : ipFromStr "2001:DB8:0:0::FF00:0042:8329".toList = some (.v6 ⟨0x20010db8000000000000ff0000428329#128⟩) := by decide +kernel
example : ipText (.v6 ⟨0xffff01020304#128⟩) = "::ffff:1.2.3.4".toList := by decide +kernel
example : ipFromStr "::ffff:1.2.3.4".toList = some (.v6 ⟨0xffff01020304#128⟩) := by decide +kernel
example : ipFromStr "1:2:3:4:5:6:7::".toList = some (.v6 ⟨0x00010002000300040005000600070000#128⟩) := by decide +kernel
example : ipFromStr "1:2:3:4:5:6:7:8::".toList = none := by decide +kernel
example : ipFromStr "1.2.3.04".toList = none := by decide +kernel
example : sockText (.v6 ⟨⟨1#128⟩, 6881#16⟩) = "[::1]:6881".toList := by decide +kernel
example : sockFromStr "[fe80::1%3]:0080".toList = some (.v6 ⟨⟨0xfe800000000000000000000000000001#128⟩, 80#16⟩, 3) := by
  decide +kernel
example : Peer.fromStr "127.0.0.1:65536".toList = none := by decide +kernel
example : Peer.fromStr "127.0.0.1:6881".toList = some ⟨.v4 ⟨⟨0x7f000001#32⟩, 6881#16⟩, none, false⟩ := by decide +kernel

end Demag.Props
