import Verif.Props.Magnet
import Verif.Model.Config
import Verif.Spec.Config

/-!
# C43, C54: local ports and `host:port` texts
-/

namespace Demag.Props

open Demag Spec

theorem parseU16Digits_spec (t : Text) (acc : Nat) (p : BitVec 16) (ha : acc ≤ 65535) :
    parseU16Digits t acc = some p ↔
      (∀ c ∈ t, c.isDigit = true) ∧ acc * 10 ^ t.length + ofDigits 10 (t.map digitValue) = p.toNat := by
  induction t generalizing acc with
  | nil =>
    simp only [parseU16Digits, Option.some.injEq, List.not_mem_nil, false_implies, implies_true, true_and, List.length_nil,
      Nat.pow_zero, Nat.mul_one, List.map_nil, ofDigits, Nat.add_zero]
    constructor
    · rintro rfl; rw [BitVec.toNat_ofNat]; omega
    · intro h; apply BitVec.eq_of_toNat_eq; rw [BitVec.toNat_ofNat]; omega
  | cons c cs ih =>
    simp only [parseU16Digits]
    have hp : acc * 10 ^ (c :: cs).length + ofDigits 10 ((c :: cs).map digitValue) =
        (acc * 10 + (c.toNat - 48)) * 10 ^ cs.length + ofDigits 10 (cs.map digitValue) := by
      simp only [List.length_cons, List.map_cons, ofDigits, List.length_map, digitValue, Nat.pow_succ, Nat.add_mul,
        Nat.mul_assoc, Nat.mul_comm 10, Nat.add_assoc]
    rw [hp]
    by_cases hd : c.isDigit = true
    · rw [if_pos hd]
      by_cases hle : acc * 10 + (c.toNat - 48) ≤ 65535
      · rw [if_pos hle, ih _ hle]; simp [hd]
      · rw [if_neg hle]
        simp only [reduceCtorEq, false_iff, not_and]
        intro _ h
        have h1 : 1 ≤ 10 ^ cs.length := Nat.one_le_pow _ _ (by omega)
        have h2 : acc * 10 + (c.toNat - 48) ≤ (acc * 10 + (c.toNat - 48)) * 10 ^ cs.length := Nat.le_mul_of_pos_right _ h1
        have := p.isLt
        omega
    · rw [if_neg hd]; simp [hd]

theorem not_digit_plus : '+'.isDigit = false := by decide

/-- Parsing a port gives what the text denotes. -/
theorem parseU16_spec (t : Text) (p : BitVec 16) : parseU16 t = some p ↔ PortText t p.toNat := by
  have digits : ∀ ds : Text, parseU16Digits ds 0 = some p ↔
      (∀ c ∈ ds, c.isDigit = true) ∧ ofDigits 10 (ds.map digitValue) = p.toNat ∧ p.toNat ≤ 65535 := by
    intro ds
    rw [parseU16Digits_spec ds 0 p (by omega)]
    have := p.isLt
    constructor
    · rintro ⟨h1, h2⟩; exact ⟨h1, by simpa using h2, by omega⟩
    · rintro ⟨h1, h2, _⟩; exact ⟨h1, by simpa using h2⟩
  cases t with
  | nil =>
    simp only [parseU16, reduceCtorEq, false_iff]
    rintro ⟨ds, h1 | h1, h2, -⟩
    · exact h2 h1.symm
    · cases h1
  | cons c cs =>
    simp only [parseU16]
    by_cases hc : c = '+'
    · subst hc
      rw [if_pos rfl]
      by_cases hcs : cs = []
      · rw [if_pos hcs]
        simp only [reduceCtorEq, false_iff]
        rintro ⟨ds, h1 | h1, h2, h3, -⟩
        · have := h3 '+' (by rw [← h1]; simp); rw [not_digit_plus] at this; cases this
        · rw [List.cons.injEq] at h1; exact h2 (by rw [← h1.2, hcs])
      · rw [if_neg hcs, digits]
        constructor
        · intro h; exact ⟨cs, .inr rfl, hcs, h⟩
        · rintro ⟨ds, h1 | h1, h2, h3, h4⟩
          · have := h3 '+' (by rw [← h1]; simp); rw [not_digit_plus] at this; cases this
          · rw [List.cons.injEq] at h1; rw [h1.2]; exact ⟨h3, h4⟩
    · rw [if_neg hc, digits]
      constructor
      · intro h; exact ⟨_, .inl rfl, by simp, h⟩
      · rintro ⟨ds, h1 | h1, h2, h3, h4⟩
        · rw [h1]; exact ⟨h3, h4⟩
        · rw [List.cons.injEq] at h1; exact absurd h1.1 hc

/-- A text denotes at most one port. -/
theorem portText_unique {t : Text} {p q : Nat} (hp : PortText t p) (hq : PortText t q) : p = q := by
  have h1 : p ≤ 65535 := by obtain ⟨_, _, _, _, _, h⟩ := hp; exact h
  have h2 : q ≤ 65535 := by obtain ⟨_, _, _, _, _, h⟩ := hq; exact h
  have e1 : (BitVec.ofNat 16 p).toNat = p := by rw [BitVec.toNat_ofNat]; omega
  have e2 : (BitVec.ofNat 16 q).toNat = q := by rw [BitVec.toNat_ofNat]; omega
  have h3 := (parseU16_spec t (BitVec.ofNat 16 p)).2 (by rw [e1]; exact hp)
  have h4 := (parseU16_spec t (BitVec.ofNat 16 q)).2 (by rw [e2]; exact hq)
  rw [h3, Option.some.injEq] at h4
  rw [← e1, h4, e2]

theorem splitOnce_spec (d : Char) (t a b : Text) : splitOnce d t = some (a, b) ↔ AtFirst d t a b := by
  induction t generalizing a with
  | nil => simp [splitOnce, AtFirst]
  | cons c cs ih =>
    simp only [splitOnce]
    by_cases hc : c = d
    · subst hc
      rw [if_pos rfl, Option.some.injEq, Prod.mk.injEq]
      constructor
      · rintro ⟨rfl, rfl⟩; exact ⟨rfl, by simp⟩
      · rintro ⟨h, hn⟩
        cases a with
        | nil => simp only [List.nil_append, List.cons.injEq] at h; exact ⟨rfl, h.2⟩
        | cons x xs => simp only [List.cons_append, List.cons.injEq] at h; rw [h.1] at hn; simp at hn
    · rw [if_neg hc]
      simp only [Option.map_eq_some_iff, Prod.mk.injEq, Prod.exists]
      constructor
      · rintro ⟨x, y, h, rfl, rfl⟩
        obtain ⟨h1, h2⟩ := (ih x).1 h
        exact ⟨by rw [h1]; rfl, by simp [h2, Ne.symm hc]⟩
      · rintro ⟨h, hn⟩
        cases a with
        | nil => simp only [List.nil_append, List.cons.injEq] at h; exact absurd h.1 hc
        | cons x xs =>
          simp only [List.cons_append, List.cons.injEq] at h
          simp only [List.mem_cons, not_or] at hn
          exact ⟨xs, b, (ih xs).2 ⟨h.2, hn.2⟩, by rw [h.1], rfl⟩

theorem rsplitOnce_spec (d : Char) (t a b : Text) : rsplitOnce d t = some (a, b) ↔ AtLast d t a b := by
  simp only [rsplitOnce, Option.map_eq_some_iff, Prod.mk.injEq, Prod.exists]
  constructor
  · rintro ⟨x, y, h, rfl, rfl⟩
    obtain ⟨h1, h2⟩ := (splitOnce_spec d _ _ _).1 h
    refine ⟨?_, by simpa using h2⟩
    have := congrArg List.reverse h1
    simpa using this
  · rintro ⟨h, hn⟩
    refine ⟨b.reverse, a.reverse, (splitOnce_spec d _ _ _).2 ⟨by simp [h], by simpa using hn⟩, by simp, by simp⟩

/-! ### C43 -/

/-- **C43.** A text is accepted as a single port iff it is a numeral of that port: digits only. -/
theorem local_port_constant (t : Text) (p : BitVec 16) :
    LocalPort.ofText t = some (.constant p) ↔
      t ≠ [] ∧ (∀ c ∈ t, c.isDigit = true) ∧ ofDigits 10 (t.map digitValue) = p.toNat := by
  unfold LocalPort.ofText
  by_cases hd : t.all Char.isDigit = true
  · rw [if_pos hd]
    simp only [Option.map_eq_some_iff, LocalPort.constant.injEq, exists_eq_right, parseU16_spec]
    rw [List.all_eq_true] at hd
    constructor
    · rintro ⟨ds, h1 | h1, h2, h3, h4, h5⟩
      · rw [h1]; exact ⟨h2, h3, h4⟩
      · have := hd '+' (by rw [h1]; simp); rw [not_digit_plus] at this; cases this
    · rintro ⟨h1, h2, h3⟩
      exact ⟨t, .inl rfl, h1, h2, h3, by have := p.isLt; omega⟩
  · rw [if_neg hd]
    constructor
    · intro h
      split at h
      · cases h
      · split at h
        · split at h <;> cases h
        · cases h
    · rintro ⟨-, h2, -⟩
      exact absurd (List.all_eq_true.2 h2) hd

/-- **C43.** A text is accepted as a range iff it is two ports with a hyphen between them (the first hyphen of the text), in
ascending order; there may be white space around either. -/
theorem local_port_range (t : Text) (low high : BitVec 16) :
    LocalPort.ofText t = some (.range low high) ↔
      ∃ pre post a b, AtFirst '-' t pre post ∧ TrimmedOf pre a ∧ TrimmedOf post b ∧ PortText a low.toNat ∧
        PortText b high.toNat ∧ low.toNat ≤ high.toNat := by
  unfold LocalPort.ofText
  by_cases hd : t.all Char.isDigit = true
  · rw [if_pos hd]
    constructor
    · intro h; rw [Option.map_eq_some_iff] at h; obtain ⟨_, _, h⟩ := h; cases h
    · rintro ⟨pre, post, a, b, ⟨h1, -⟩, -⟩
      rw [List.all_eq_true] at hd
      have := hd '-' (by rw [h1]; simp)
      exact absurd this (by decide)
  · rw [if_neg hd]
    constructor
    · intro h
      split at h
      · cases h
      · rename_i pre post hs
        split at h
        · rename_i l r hl hr
          split at h
          · rename_i hle
            simp only [Option.some.injEq, LocalPort.range.injEq] at h
            obtain ⟨rfl, rfl⟩ := h
            exact ⟨pre, post, _, _, (splitOnce_spec _ _ _ _).1 hs, (trim_spec _ _).1 rfl, (trim_spec _ _).1 rfl,
              (parseU16_spec _ _).1 hl, (parseU16_spec _ _).1 hr, hle⟩
          · cases h
        · cases h
    · rintro ⟨pre, post, a, b, hs, ha, hb, hl, hr, hle⟩
      rw [(splitOnce_spec _ _ _ _).2 hs]
      simp only [(trim_spec _ _).2 ha, (trim_spec _ _).2 hb, (parseU16_spec _ _).2 hl, (parseU16_spec _ _).2 hr, if_pos hle]

/-- **C43.** An integer is accepted iff it is a port. -/
theorem local_port_int (i : Int) (l : LocalPort) :
    LocalPort.ofInt i = some l ↔ ∃ p : BitVec 16, l = .constant p ∧ i = p.toNat := by
  unfold LocalPort.ofInt
  constructor
  · intro h
    split at h
    · rename_i hi
      simp only [Option.some.injEq] at h
      exact ⟨_, h.symm, by rw [BitVec.toNat_ofNat]; omega⟩
    · cases h
  · rintro ⟨p, rfl, rfl⟩
    have := p.isLt
    rw [if_pos (by omega)]
    simp

/-- A setting that came from the configuration file or is the default one. -/
inductive Configured : LocalPort → Prop
  | text {t l} : LocalPort.ofText t = some l → Configured l
  | int {i l} : LocalPort.ofInt i = some l → Configured l
  | dflt : Configured LocalPort.dflt

/-- **C43.** Whatever the setting, a port is generated, without a panic, and it is the port of the setting or lies within its
range; provided a draw from a range lies in it. -/
theorem local_port_generate {l : LocalPort} (hl : Configured l) (draw : BitVec 16 → BitVec 16 → BitVec 16)
    (hdraw : ∀ a b : BitVec 16, a.toNat ≤ b.toNat → a.toNat ≤ (draw a b).toNat ∧ (draw a b).toNat ≤ b.toNat) :
    ∃ p, l.generate draw = some p ∧
      (match l with
      | .constant q => p = q
      | .range low high => low.toNat ≤ p.toNat ∧ p.toNat ≤ high.toNat) := by
  cases l with
  | constant q => exact ⟨q, rfl, rfl⟩
  | range low high =>
    have hle : low.toNat ≤ high.toNat := by
      generalize hg : LocalPort.range low high = l at hl
      cases hl with
      | text h => subst hg; rw [local_port_range] at h; obtain ⟨_, _, _, _, _, _, _, _, _, h⟩ := h; exact h
      | int h => rw [local_port_int] at h; obtain ⟨_, h, _⟩ := h; subst hg; cases h
      | dflt =>
        simp only [LocalPort.dflt, LocalPort.range.injEq] at hg
        rw [hg.1, hg.2]; decide
    exact ⟨draw low high, by simp only [LocalPort.generate, if_pos hle], hdraw low high hle⟩

example : LocalPort.ofText "6881".toList = some (.constant 6881) := by decide
example : LocalPort.ofText "1024 - +65535".toList = some (.range 1024 65535) := by decide
example : LocalPort.ofText "65536".toList = none := by decide
example : LocalPort.ofText "2-1".toList = none := by decide
example : LocalPort.ofText "".toList = none := by decide

/-! ### C54 -/

/-- **C54.** A text is parsed as a host and a port iff the part before its last colon is a host and the part after it denotes
the port. -/
theorem inet_parse (parseHost : Text → Option Host) (t : Text) (a : InetAddr) :
    InetAddr.parse parseHost t = some a ↔
      ∃ host port, AtLast ':' t host port ∧ PortText port a.port.toNat ∧ parseHost host = some a.host := by
  unfold InetAddr.parse
  constructor
  · intro h
    split at h
    · cases h
    · rename_i host port hs
      split at h
      · cases h
      · rename_i p hp
        split at h
        · cases h
        · rename_i h' hh
          simp only [Option.some.injEq] at h
          subst h
          exact ⟨host, port, (rsplitOnce_spec _ _ _ _).1 hs, (parseU16_spec _ _).1 hp, hh⟩
  · rintro ⟨host, port, hs, hp, hh⟩
    rw [(rsplitOnce_spec _ _ _ _).2 hs]
    simp only [(parseU16_spec _ _).2 hp, hh]

/-- **C54.** What a parsed address resolves to: an IP address to itself with that port, unless it is an IPv6 address and IPv6 is
off; a domain name to the first address of the name that may be used. -/
theorem inet_resolve (lookup : Text → BitVec 16 → Option (List SockAddr)) (useIpv6 : Bool) (a : InetAddr) (s : SockAddr) :
    a.resolve lookup useIpv6 = some s ↔
      (∃ ip, a.host = .ipv4 ip ∧ s = .v4 ⟨ip, a.port⟩) ∨ (∃ ip, a.host = .ipv6 ip ∧ useIpv6 = true ∧ s = .v6 ⟨ip, a.port⟩) ∨
      (∃ d before after, a.host = .domain d ∧ lookup d a.port = some (before ++ s :: after) ∧
        (useIpv6 = true ∨ ∃ b, s = .v4 b) ∧ ∀ x ∈ before, useIpv6 = false ∧ ∃ b, x = .v6 b) := by
  have ok_iff : ∀ s : SockAddr, (useIpv6 || s.isIpv4) = true ↔
      (useIpv6 = true ∨ ∃ b, s = .v4 b) := by
    intro s; cases s <;> cases useIpv6 <;> simp [SockAddr.isIpv4]
  have nok_iff : ∀ s : SockAddr, (!(useIpv6 || s.isIpv4)) = true ↔
      (useIpv6 = false ∧ ∃ b, s = .v6 b) := by
    intro s; cases s <;> cases useIpv6 <;> simp [SockAddr.isIpv4]
  obtain ⟨host, port⟩ := a
  cases host with
  | ipv4 ip => simp [InetAddr.resolve, eq_comm]
  | ipv6 ip => cases useIpv6 <;> simp [InetAddr.resolve, eq_comm]
  | domain d =>
    simp only [InetAddr.resolve, reduceCtorEq, false_and, exists_false, Host.domain.injEq, false_or]
    cases hl : lookup d port with
    | none => simp only [reduceCtorEq, false_iff]; rintro ⟨d', b, a, rfl, h, -⟩; rw [hl] at h; cases h
    | some l =>
      simp only [List.find?_eq_some_iff_append, ok_iff, nok_iff]
      constructor
      · rintro ⟨h1, b, a, rfl, h2⟩; exact ⟨d, b, a, rfl, hl, h1, h2⟩
      · rintro ⟨d', b, a, rfl, h, h1, h2⟩
        rw [hl, Option.some.injEq] at h
        exact ⟨h1, b, a, h, h2⟩

/-- **C54.** The address that comes out has the port of the text and, if IPv6 is off, is an IPv4 address; provided looking up a
name gives addresses with the port asked for. -/
theorem inet_resolve_family (lookup : Text → BitVec 16 → Option (List SockAddr))
    (hlook : ∀ d p l, lookup d p = some l → ∀ s ∈ l, s.port = p) {useIpv6 : Bool} {a : InetAddr} {s : SockAddr}
    (h : a.resolve lookup useIpv6 = some s) : s.port = a.port ∧ (useIpv6 = false → ∃ b, s = .v4 b) := by
  rcases (inet_resolve _ _ _ _).1 h with ⟨ip, -, rfl⟩ | ⟨ip, -, hu, rfl⟩ | ⟨d, b, r, -, hl, hf, -⟩
  · exact ⟨rfl, fun _ => ⟨_, rfl⟩⟩
  · exact ⟨rfl, fun hn => by rw [hu] at hn; cases hn⟩
  · refine ⟨hlook _ _ _ hl s (by simp), fun hn => ?_⟩
    rcases hf with hf | hf
    · rw [hn] at hf; cases hf
    · exact hf

/-- A host parser that takes any text as a domain name, for the examples. -/
def anyDomain (t : Text) : Option Host := some (.domain t)

example : InetAddr.parse anyDomain "router.example:6881".toList = some ⟨.domain "router.example".toList, 6881⟩ := by decide
example : InetAddr.parse anyDomain "[::1]:+080".toList = some ⟨.domain "[::1]".toList, 80⟩ := by decide
example : InetAddr.parse anyDomain "router.example".toList = none := by decide
example : InetAddr.parse anyDomain "router:65536".toList = none := by decide
example : InetAddr.resolve (fun _ p => some [.v6 ⟨⟨1⟩, p⟩, .v4 ⟨⟨0x01020304#32⟩, p⟩]) false ⟨.domain "x".toList, 5⟩ =
    some (.v4 ⟨⟨0x01020304#32⟩, 5⟩) := by decide

end Demag.Props
