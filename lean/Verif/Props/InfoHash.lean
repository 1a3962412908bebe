import Verif.Lemmas.InfoHash

/-!
# C01: info hash texts; C45: peer ids
-/

namespace Demag.Props

open Demag Spec

/-- **C01.** A text is accepted as the info hash `h` exactly if it is a hexadecimal text of `h`'s 20 bytes
(either letter case) or the base32 text of them. -/
theorem infoHash_fromStr_spec (s : Bytes) (h : InfoHash) :
    InfoHash.fromStr s = .ok h ↔ IsHexOf s h.bytes ∨ IsBase32Of s h.bytes := by
  have hexlen : ∀ bs, (hexText bs).length = 2 * bs.length := by
    intro bs
    induction bs with
    | nil => rfl
    | cons b bs ih => simp only [hexText, List.flatMap_cons, List.length_append, List.length_cons, List.length_nil] at *; omega
  have hvec : ∀ bs, infoHashOfVec bs = .ok h ↔ bs = h.bytes := by
    intro bs
    unfold infoHashOfVec
    split
    · rw [Except.ok.injEq]
      obtain ⟨hb, hl⟩ := h
      simp
    · rename_i hn
      simp only [reduceCtorEq, false_iff]
      rintro rfl; exact hn h.len
  unfold InfoHash.fromStr
  split
  · rename_i hl
    have hnothex : ¬ IsHexOf s h.bytes := by
      intro hx
      have := congrArg List.length hx
      rw [hexlen, h.len, List.length_map] at this
      omega
    have hb := base32Decode_iff 4 s h.bytes hl (by rw [h.len])
    unfold InfoHash.fromBase32
    simp only [hnothex, false_or]
    constructor
    · intro e
      cases e1 : base32Decode s with
      | none => rw [e1] at e; cases e
      | some bs =>
        rw [e1] at e
        rw [(hvec bs).1 e] at e1
        obtain ⟨ds, hds, hv⟩ := hb.1 e1
        have := base32Vals_length hds
        rw [base32Vals_iff] at hds
        exact ⟨ds, by omega, hds.1, hds.2, hv⟩
    · rintro ⟨ds, hdl, hlt, hs, hv⟩
      rw [hb.2 ⟨ds, (base32Vals_iff _ _).2 ⟨hlt, hs⟩, hv⟩]
      exact (hvec _).2 rfl
  · rename_i hl
    have hnotb : ¬ IsBase32Of s h.bytes := by
      rintro ⟨ds, hdl, -, rfl, -⟩
      exact hl (by rw [List.length_map, hdl])
    unfold InfoHash.fromHex
    simp only [hnotb, or_false]
    rw [← hexDecode_iff]
    constructor
    · intro e
      cases e1 : hexDecode s with
      | none => rw [e1] at e; cases e
      | some bs => rw [e1] at e; rw [(hvec bs).1 e]
    · intro e
      rw [e]; exact (hvec _).2 rfl

/-- **C01.** The printed form is the 40-digit lower-case hexadecimal text. -/
theorem infoHash_display_spec (h : InfoHash) : h.display = hexText h.bytes := (display_isHex h).1

/-- **C01.** Parsing the printed form gives the info hash back. -/
theorem infoHash_roundtrip (h : InfoHash) : InfoHash.fromStr h.display = .ok h :=
  (infoHash_fromStr_spec _ _).2 (.inl (display_isHex h).2)

/-- **C01.** Changing the case of letters in the hexadecimal form does not matter. -/
theorem infoHash_case_insensitive (s : Bytes) (h : InfoHash) (hs : s.map asciiLower = h.display) :
    InfoHash.fromStr s = .ok h :=
  (infoHash_fromStr_spec _ _).2 (.inl (by rw [IsHexOf, hs]; exact (display_isHex h).1))

/-- **C01.** One text never denotes two info hashes and printing is injective. -/
theorem infoHash_display_injective (h k : InfoHash) (e : h.display = k.display) : h = k := by
  have h1 := infoHash_roundtrip h
  rw [e, infoHash_roundtrip k] at h1
  cases h1; rfl

/-- **C01.** Accepted texts have 32 or 40 characters. -/
theorem infoHash_accepted_length (s : Bytes) (h : InfoHash) (e : InfoHash.fromStr s = .ok h) :
    s.length = 32 ∨ s.length = 40 := by
  rw [infoHash_fromStr_spec] at e
  rcases e with e | ⟨ds, hdl, -, rfl, -⟩
  · right
    have h1 := congrArg List.length e
    rw [List.length_map, ← infoHash_display_spec, InfoHash.display] at h1
    have : ∀ bs : Bytes, (bs.flatMap fun b => [hexNibble (b.toNat / 16), hexNibble (b.toNat % 16)]).length
        = 2 * bs.length := by
      intro bs
      induction bs with
      | nil => rfl
      | cons b bs ih => simp only [List.flatMap_cons, List.length_append, List.length_cons, List.length_nil]; omega
    rw [this, h.len] at h1
    omega
  · left; rw [List.length_map, hdl]

/-- **C01.** The error tells what is wrong with a refused text.  A text of 32 characters is read as base32 and never
called bad hexadecimal; without padding it is called bad base32.  A text of any other length is called bad hexadecimal
exactly if it is not the hexadecimal text of any bytes; if it is, the number of these bytes is reported. -/
theorem infoHash_fromStr_error (s : Bytes) (e : InfoHashError) (he : InfoHash.fromStr s = .error e) :
    (s.length = 32 → e ≠ .invalidHex ∧ ((∀ c ∈ s, c ≠ 61) → e = .invalidBase32) ∧
      ∀ n, e = .invalidLength n → n < 20) ∧
    (s.length ≠ 32 → e ≠ .invalidBase32 ∧ (e = .invalidHex ↔ ¬ ∃ bs, IsHexOf s bs) ∧
      ∀ n, e = .invalidLength n ↔ ∃ bs, IsHexOf s bs ∧ bs.length = n) := by
  refine ⟨fun hl => ?_, fun hl => ?_⟩
  · rw [InfoHash.fromStr, if_pos hl, InfoHash.fromBase32] at he
    cases e1 : base32Decode s with
    | none =>
      rw [e1] at he; cases he
      exact ⟨(fun h => by cases h), fun _ => rfl, fun n h => by cases h⟩
    | some bs =>
      rw [e1] at he
      simp only [infoHashOfVec] at he
      split at he
      · cases he
      · rename_i hn
        cases he
        have := base32Decode_length_le 4 s bs hl e1
        refine ⟨(fun h => by cases h), fun hp => ?_, fun n h => by cases h; omega⟩
        exact absurd (base32Decode_length_eq 4 s bs hl hp e1) hn
  · rw [InfoHash.fromStr, if_neg hl, InfoHash.fromHex] at he
    cases e1 : hexDecode s with
    | none =>
      rw [e1] at he; cases he
      have hno : ¬ ∃ bs, IsHexOf s bs := by
        rintro ⟨bs, hb⟩
        rw [(hexDecode_iff s bs).2 hb] at e1; cases e1
      refine ⟨(fun h => by cases h), ⟨fun _ => hno, fun _ => rfl⟩, fun n => ⟨(fun h => by cases h), ?_⟩⟩
      rintro ⟨bs, hb, -⟩; exact absurd ⟨bs, hb⟩ hno
    | some bs =>
      rw [e1] at he
      simp only [infoHashOfVec] at he
      split at he
      · cases he
      · cases he
        have hb := (hexDecode_iff s bs).1 e1
        refine ⟨(fun h => by cases h), ⟨(fun h => by cases h), fun h => absurd ⟨bs, hb⟩ h⟩, fun n => ⟨?_, ?_⟩⟩
        · intro h; cases h; exact ⟨bs, hb, rfl⟩
        · rintro ⟨bs', hb', rfl⟩
          have := (hexDecode_iff s bs').2 hb'
          rw [e1] at this; cases this; rfl

/-- **C01.** A refused text of 32 characters is called bad base32 exactly if it does not consist of padded base32 texts; if it does, the number of
their bytes is reported. -/
theorem infoHash_base32_error (s : Bytes) (e : InfoHashError) (hl : s.length = 32) (he : InfoHash.fromStr s = .error e) :
    (e = .invalidBase32 ↔ ¬ ∃ bs, IsPaddedBase32 s bs) ∧ ∀ n, e = .invalidLength n ↔ ∃ bs, IsPaddedBase32 s bs ∧ bs.length = n := by
  rw [InfoHash.fromStr, if_pos hl, InfoHash.fromBase32] at he
  simp only [← base32Decode_spec]
  cases e1 : base32Decode s with
  | none => rw [e1] at he; cases he; simp
  | some bs =>
    rw [e1] at he
    simp only [infoHashOfVec] at he
    split at he
    · cases he
    · cases he; simp

-- the last block says "foo" with padding (18 bytes in all), or has bits left over that are not zero
example : InfoHash.fromStr (ascii "MZXW6YTBMZXW6YTBMZXW6YTBMZXW6===") = .error (.invalidLength 18) := by decide +kernel
example : InfoHash.fromStr (ascii "MZXW6YTBMZXW6YTBMZXW6YTBMZXW7===") = .error .invalidBase32 := by decide +kernel
example : ∃ bs, IsPaddedBase32 (ascii "MZXW6YTBMZXW6YTBMZXW6YTBMZXW6===") bs ∧ bs.length = 18 :=
  ((infoHash_base32_error _ (.invalidLength 18) (by decide +kernel) (by decide +kernel)).2 18).1 rfl

/-- **C45.** A generated peer id is 20 bytes: the prefix (cut to 20 bytes) followed by alphanumeric bytes, for every
prefix and whatever the random generator delivers. -/
theorem peerId_generate_spec (pfx : Bytes) (rng : Nat → Nat) :
    ∃ tail, (PeerId.generate pfx rng).bytes = pfx.take 20 ++ tail ∧
      (PeerId.generate pfx rng).bytes.length = 20 ∧ ∀ c ∈ tail, IsAlphanumeric c := by
  refine ⟨(genPeerIdBytes pfx rng).drop (pfx.take 20).length, ?_, (PeerId.generate pfx rng).len, ?_⟩
  · have : (genPeerIdBytes pfx rng).take (pfx.take 20).length = pfx.take 20 := by
      apply List.ext_getElem?
      intro i
      simp only [genPeerIdBytes, List.getElem?_take, List.getElem?_map, List.length_take]
      by_cases h : i < min 20 pfx.length
      · have h1 : i < 20 := by omega
        have h2 : i < pfx.length := by omega
        simp [h, h1, h2]
      · rw [if_neg h]
        by_cases h1 : i < 20
        · have : pfx[i]? = none := by rw [List.getElem?_eq_none_iff]; omega
          simp [h1, this]
        · simp [h1]
    show genPeerIdBytes pfx rng = _
    conv => lhs; rw [← List.take_append_drop (pfx.take 20).length (genPeerIdBytes pfx rng)]
    rw [this]
  · intro c hc
    obtain ⟨i, hi, rfl⟩ := List.mem_iff_getElem.1 hc
    simp only [List.length_drop, genPeerIdBytes, List.length_map, List.length_range, List.length_take] at hi
    simp only [List.getElem_drop, genPeerIdBytes, List.getElem_map, List.getElem_range, List.length_take]
    have : pfx[min 20 pfx.length + i]? = none := by rw [List.getElem?_eq_none_iff]; omega
    rw [this]
    exact alphanumericSample_alnum _

theorem alphanumericSample_surj (c : UInt8) (h : IsAlphanumeric c) : ∃ r, alphanumericSample r = c := by
  have key : ∀ n, n < 256 → ((65 ≤ n ∧ n ≤ 90) ∨ (97 ≤ n ∧ n ≤ 122) ∨ (48 ≤ n ∧ n ≤ 57)) →
      ∃ r, r < 62 ∧ alphanumericSample r = UInt8.ofNat n := by decide +kernel
  obtain ⟨r, -, e⟩ := key c.toNat c.toNat_lt h
  exact ⟨r, by rw [e, UInt8.ofNat_toNat]⟩

/-- **C45.** Nothing but the prefix is fixed: every sequence of alphanumeric bytes that fills the 20 bytes can be generated. -/
theorem peerId_generate_all (pfx tail : Bytes) (hl : pfx.length + tail.length = 20) (ha : ∀ c ∈ tail, IsAlphanumeric c) :
    ∃ rng, (PeerId.generate pfx rng).bytes = pfx ++ tail := by
  have : ∀ i : Nat, ∃ r, ∀ c, tail[i]? = some c → alphanumericSample r = c := by
    intro i
    cases e : tail[i]? with
    | none => exact ⟨0, fun c hc => by cases hc⟩
    | some c =>
      obtain ⟨r, hr⟩ := alphanumericSample_surj c (ha c (List.mem_of_getElem? e))
      exact ⟨r, fun c' hc' => by cases hc'; exact hr⟩
  obtain ⟨rng, hrng⟩ : ∃ rng : Nat → Nat, ∀ i c, tail[i]? = some c → alphanumericSample (rng i) = c :=
    ⟨fun i => (this i).choose, fun i => (this i).choose_spec⟩
  refine ⟨rng, ?_⟩
  rw [PeerId.generate]
  simp only
  apply List.ext_getElem?
  intro i
  rw [genPeerIdBytes, List.getElem?_map]
  by_cases h20 : i < 20
  · rw [List.getElem?_range h20, Option.map_some]
    by_cases hp : i < pfx.length
    · rw [List.getElem?_append_left hp, List.getElem?_eq_getElem hp]
    · have hp' : pfx[i]? = none := by rw [List.getElem?_eq_none_iff]; omega
      have ht : i - pfx.length < tail.length := by omega
      rw [List.getElem?_append_right (by omega), List.getElem?_eq_getElem ht, hp']
      simp only [Option.some.injEq]
      exact hrng (i - pfx.length) _ (List.getElem?_eq_getElem ht)
  · rw [List.getElem?_eq_none (by simp; omega), List.getElem?_eq_none (by simp; omega), Option.map_none]

example : ∃ rng, (PeerId.generate (ascii "-DM-0070-") rng).bytes = ascii "-DM-0070-abcXYZ01234" := by
  have := peerId_generate_all (ascii "-DM-0070-") (ascii "abcXYZ01234") (by decide) (by
    intro c hc
    have : ∀ c ∈ ascii "abcXYZ01234", (65 ≤ c.toNat ∧ c.toNat ≤ 90) ∨ (97 ≤ c.toNat ∧ c.toNat ≤ 122) ∨
      (48 ≤ c.toNat ∧ c.toNat ≤ 57) := by decide
    exact this c hc)
  exact this

/-- **C45.** The prefix that `build.rs` computes for the released version 0.7.0 is `-DM-0070-`, and every peer id
generated with it starts with it. -/
theorem peerId_client_prefix (rng : Nat → Nat) :
    ascii "-DM-0070-" <+: (PeerId.generate (buildPrefix (ascii "0") (ascii "7") (ascii "0")) rng).bytes := by
  obtain ⟨tail, h, -, -⟩ := peerId_generate_spec (buildPrefix (ascii "0") (ascii "7") (ascii "0")) rng
  rw [h]
  exact ⟨tail, by rw [show (buildPrefix (ascii "0") (ascii "7") (ascii "0")).take 20 = ascii "-DM-0070-" by decide]⟩

-- concrete cases
example : InfoHash.fromStr (ascii "28C55196F57753C40ACEB6FB58617E6995A7EDDB") =
    .ok ⟨[0x28, 0xC5, 0x51, 0x96, 0xF5, 0x77, 0x53, 0xC4, 0x0A, 0xCE, 0xB6, 0xFB, 0x58, 0x61, 0x7E, 0x69,
      0x95, 0xA7, 0xED, 0xDB], by decide⟩ := by decide +kernel
example : InfoHash.fromStr (ascii "XBIUOS3U6ZONDH4YDRZDLEHD4UQCIK4X") =
    .ok ⟨[0xb8, 0x51, 0x47, 0x4b, 0x74, 0xf6, 0x5c, 0xd1, 0x9f, 0x98, 0x1c, 0x72, 0x35, 0x90, 0xe3, 0xe5,
      0x20, 0x24, 0x2b, 0x97], by decide⟩ := by decide +kernel
example : InfoHash.fromStr (ascii "28C5") = .error (.invalidLength 2) := by decide +kernel
example : InfoHash.fromStr (ascii "xbiuos3u6zondh4ydrzdlehd4uqcik4x") = .error .invalidBase32 := by decide +kernel
example : (ascii "28C55196F57753C40ACEB6FB58617E6995A7EDDB").map asciiLower =
    (InfoHash.display ⟨[0x28, 0xC5, 0x51, 0x96, 0xF5, 0x77, 0x53, 0xC4, 0x0A, 0xCE, 0xB6, 0xFB, 0x58, 0x61, 0x7E, 0x69,
      0x95, 0xA7, 0xED, 0xDB], by decide⟩) := by decide +kernel

end Demag.Props
