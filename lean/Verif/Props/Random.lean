import Verif.Model.SecureLink
import Verif.Spec.Random
import Verif.Props.Mse

/-! # Properties: random numbers (C90) -/

namespace Demag.Props

open Demag Spec

theorem drawn_pure {α : Type} (a : α) : DrawnOnce (Gen.pure a) (· = a) where
  sound := by
    intro tape b rest h
    simp only [Gen.pure, Option.some.injEq, Prod.mk.injEq] at h
    obtain ⟨rfl, rfl⟩ := h
    exact ⟨rfl, [], rfl, fun _ => rfl⟩
  once := by
    rintro b rfl
    refine ⟨[], fun _ => rfl, fun u hu => ?_⟩
    have := hu []
    simpa [Gen.pure] using this

theorem drawn_bind {α β : Type} {f : Gen α} {g : α → Gen β} {P : α → Prop} {Q : α → β → Prop} (hf : DrawnOnce f P)
    (hg : ∀ a, P a → DrawnOnce (g a) (Q a)) (hq : ∀ a a' b, P a → P a' → Q a b → Q a' b → a = a') :
    DrawnOnce (f.bind g) (fun b => ∃ a, P a ∧ Q a b) where
  sound := by
    intro tape b rest h
    simp only [Gen.bind, Option.bind_eq_some_iff] at h
    obtain ⟨⟨a, r⟩, h1, h2⟩ := h
    obtain ⟨pa, u, e, hu⟩ := hf.sound _ _ _ h1
    obtain ⟨qb, v, e', hv⟩ := (hg a pa).sound _ _ _ h2
    simp only at e'
    refine ⟨⟨a, pa, qb⟩, u ++ v, by rw [e, e', List.append_assoc], fun rest' => ?_⟩
    simp only [Gen.bind, List.append_assoc, hu, Option.bind_some, hv]
  once := by
    rintro b ⟨a, pa, qb⟩
    obtain ⟨u, hu, uu⟩ := hf.once a pa
    obtain ⟨v, hv, uv⟩ := (hg a pa).once b qb
    refine ⟨u ++ v, fun rest => by simp only [Gen.bind, List.append_assoc, hu, Option.bind_some, hv], fun w hw => ?_⟩
    have h := hw []
    simp only [Gen.bind, Option.bind_eq_some_iff, List.append_nil] at h
    obtain ⟨⟨a', r⟩, h1, h2⟩ := h
    obtain ⟨pa', u', e, hu'⟩ := hf.sound _ _ _ h1
    obtain ⟨qb', v', e', hv'⟩ := (hg a' pa').sound _ _ _ h2
    have := hq a' a b pa' pa qb' qb
    subst this
    simp only [List.append_nil] at e'
    rw [e, e', uu u' hu', uv v' hv']

theorem drawn_congr {α : Type} {f : Gen α} {P Q : α → Prop} (h : DrawnOnce f P) (e : ∀ a, P a ↔ Q a) : DrawnOnce f Q := by
  have : P = Q := funext fun a => propext (e a)
  exact this ▸ h

/-- Mapping the result by a function that keeps different results apart. -/
theorem drawn_map {α β : Type} {f : Gen α} {P : α → Prop} (hf : DrawnOnce f P) (k : α → β) (hk : ∀ a a', P a → P a' → k a = k a' → a = a') :
    DrawnOnce (f.bind fun a => Gen.pure (k a)) (fun b => ∃ a, P a ∧ b = k a) :=
  drawn_bind hf (fun a _ => drawn_pure (k a)) fun a a' _ pa pa' h h' => hk a a' pa pa' (h.symm.trans h')

theorem drawn_one {α : Type} {f : Gen α} {P : α → Prop} (d : α → Draw) (h1 : ∀ a, P a → ∀ rest, f (d a :: rest) = some (a, rest))
    (h2 : ∀ tape a rest, f tape = some (a, rest) → P a ∧ tape = d a :: rest) : DrawnOnce f P where
  sound := by
    intro tape a rest h
    obtain ⟨pa, e⟩ := h2 _ _ _ h
    exact ⟨pa, [d a], e, fun r => h1 a pa r⟩
  once := by
    intro a pa
    refine ⟨[d a], fun r => h1 a pa r, fun u hu => ?_⟩
    obtain ⟨-, e⟩ := h2 _ _ _ (hu [])
    simpa using e

theorem drawn_byte : DrawnOnce drawByte (fun _ => True) :=
  drawn_one .byte (fun _ _ _ => rfl) fun tape a rest h => by
    unfold drawByte at h
    split at h
    · simp only [Option.some.injEq, Prod.mk.injEq] at h
      exact ⟨trivial, by rw [h.1, h.2]⟩
    · cases h

theorem drawn_word : DrawnOnce drawWord (fun _ => True) :=
  drawn_one .word (fun _ _ _ => rfl) fun tape a rest h => by
    unfold drawWord at h
    split at h
    · simp only [Option.some.injEq, Prod.mk.injEq] at h
      exact ⟨trivial, by rw [h.1, h.2]⟩
    · cases h

theorem drawn_alnum : DrawnOnce drawAlnum IsAlphanumeric :=
  drawn_one .alnum (fun a h _ => if_pos h) fun tape a rest h => by
    unfold drawAlnum at h
    split at h
    · split at h
      · rename_i hb
        simp only [Option.some.injEq, Prod.mk.injEq] at h
        obtain ⟨rfl, rfl⟩ := h
        exact ⟨hb, rfl⟩
      · cases h
    · cases h

theorem drawn_range (low high : Nat) : DrawnOnce (drawRange low high) (fun n => low ≤ n ∧ n ≤ high) :=
  drawn_one (.range low high) (fun a h _ => if_pos ⟨rfl, rfl, h⟩) fun tape a rest h => by
    unfold drawRange at h
    split at h
    · split at h
      · rename_i hb
        simp only [Option.some.injEq, Prod.mk.injEq] at h
        obtain ⟨rfl, rfl⟩ := h
        exact ⟨hb.2.2, by rw [hb.1, hb.2.1]⟩
      · cases h
    · cases h

theorem drawn_many {α : Type} {f : Gen α} {P : α → Prop} (hf : DrawnOnce f P) (n : Nat) :
    DrawnOnce (drawMany f n) (fun l => l.length = n ∧ ∀ a ∈ l, P a) := by
  induction n with
  | zero =>
    refine drawn_congr (drawn_pure []) fun l => ?_
    constructor
    · rintro rfl; simp
    · rintro ⟨h, -⟩; exact List.length_eq_zero_iff.mp h
  | succ n ih =>
    refine drawn_congr (drawn_bind hf (fun a _ => drawn_map ih (a :: ·) fun _ _ _ _ h => (List.cons.inj h).2) ?_) fun l => ?_
    · rintro a a' b - - ⟨l, -, rfl⟩ ⟨l', -, h⟩
      exact (List.cons.inj h).1
    · constructor
      · rintro ⟨a, pa, l', ⟨hl, hp⟩, rfl⟩
        exact ⟨by simp [hl], by simpa using ⟨pa, hp⟩⟩
      · rintro ⟨hl, hp⟩
        cases l with
        | nil => cases hl
        | cons a l => exact ⟨a, hp a (by simp), l, ⟨by simpa using hl, fun b hb => hp b (by simp [hb])⟩, rfl⟩

theorem drawn_key : DrawnOnce genPrivateKey (· < 2 ^ 160) := by
  refine drawn_congr (drawn_map (drawn_many drawn_byte 20) fromBytesBe ?_) fun n => ?_
  · rintro a b ⟨ha, -⟩ ⟨hb, -⟩ h
    rw [fromBytesBe, fromBytesBe, beAccum_eq, beAccum_eq] at h
    exact beValue_inj (ha.trans hb.symm) h
  · constructor
    · rintro ⟨b, ⟨hb, -⟩, rfl⟩
      have := beValue_lt b
      rw [hb] at this
      rw [fromBytesBe, beAccum_eq]
      calc _ < 256 ^ 20 := this
        _ = 2 ^ 160 := by decide +kernel
    · intro h
      refine ⟨beBytes 20 n, ⟨by simp, fun _ _ => trivial⟩, ?_⟩
      rw [fromBytesBe, beAccum_beBytes, Nat.mod_eq_of_lt]
      calc n < 2 ^ 160 := h
        _ = 256 ^ 20 := by decide +kernel

/-- The handshake as `Model/Mse.lean` has it. -/
theorem drawn_build (b : HandshakeBuilder) (hb : b.provide = methodSet [.rc4]) : DrawnOnce b.build (fun r =>
    ∃ padaLen, (0 ≤ padaLen ∧ padaLen ≤ 512) ∧ ∃ padcLen, (0 ≤ padcLen ∧ padcLen ≤ 512) ∧ ∃ key, key < 2 ^ 160 ∧ ∃ padA : Bytes,
      (padA.length = padaLen ∧ ∀ a ∈ padA, True) ∧ r = (Handshaker.build b.skey key padA (BitVec.ofNat 16 padcLen), b.timeout)) := by
  have e : b.build = (drawRange 0 512).bind fun padaLen => (drawRange 0 512).bind fun padcLen => genPrivateKey.bind fun key =>
      (drawMany drawByte padaLen).bind fun padA => Gen.pure (Handshaker.build b.skey key padA (BitVec.ofNat 16 padcLen), b.timeout) := by
    unfold HandshakeBuilder.build Handshaker.build
    rw [hb]
  rw [e]
  have parts : ∀ k k' (p p' : Bytes) (c c' : BitVec 16) (t : Nat), (Handshaker.build b.skey k p c, t) = (Handshaker.build b.skey k' p' c', t) →
      k = k' ∧ p = p' ∧ c = c' := by
    intro k k' p p' c c' t h
    have h := congrArg Prod.fst h
    have h1 := congrArg Handshaker.state h
    have h2 := congrArg Handshaker.output h
    have h3 := congrArg Handshaker.padcLen h
    simp only [Handshaker.build, HandshakeState.packet2.injEq, Option.some.injEq] at h1 h2 h3
    subst h1
    exact ⟨rfl, List.append_cancel_left h2, h3⟩
  have small : ∀ c c' : Nat, c ≤ 512 → c' ≤ 512 → BitVec.ofNat 16 c = BitVec.ofNat 16 c' → c = c' := by
    intro c c' h h' e
    have := congrArg BitVec.toNat e
    simp only [BitVec.toNat_ofNat] at this
    omega
  refine drawn_bind (drawn_range 0 512) (fun n _ => drawn_bind (drawn_range 0 512) (fun c _ => drawn_bind drawn_key (fun k _ =>
    drawn_map (drawn_many drawn_byte n) _ ?_) ?_) ?_) ?_
  · rintro a a' - - h
    exact (parts _ _ _ _ _ _ _ h).2.1
  · rintro a a' r - - ⟨p, -, rfl⟩ ⟨p', -, h⟩
    exact (parts _ _ _ _ _ _ _ h).1
  · rintro a a' r ha ha' ⟨k, -, p, -, rfl⟩ ⟨k', -, p', -, h⟩
    exact small _ _ ha.2 ha'.2 (parts _ _ _ _ _ _ _ h).2.2
  · rintro a a' r - - ⟨c, -, k, -, p, ⟨hp, -⟩, rfl⟩ ⟨c', -, k', -, p', ⟨hp', -⟩, h⟩
    rw [← hp, ← hp', (parts _ _ _ _ _ _ _ h).2.1]

theorem firstMove_build (skey : InfoHash) (key : Nat) (padA : Bytes) (padC : Nat) (h : padC ≤ 512) :
    FirstMove skey key padA padC (Handshaker.build skey key padA (BitVec.ofNat 16 padC)) where
  secret := rfl
  first := ⟨_, rfl, sent_exactly 2 key⟩
  third := by simp only [Handshaker.build, BitVec.toNat_ofNat]; omega
  torrent := rfl
  offer := fun m => by
    simp only [Handshaker.build, methodSet_offers, List.mem_singleton]
  nothing_else := ⟨rfl, rfl, rfl⟩

theorem firstMove_unique {skey : InfoHash} {key : Nat} {padA : Bytes} {padC : Nat} {h h' : Handshaker}
    (a : FirstMove skey key padA padC h) (b : FirstMove skey key padA padC h') : h = h' := by
  obtain ⟨p, ea, sa⟩ := a.first
  obtain ⟨q, eb, sb⟩ := b.first
  have hpq : p = q := beValue_inj (sa.1.trans sb.1.symm) (sa.2.trans sb.2.symm)
  subst hpq
  have h1 := a.secret.trans b.secret.symm
  have h2 := ea.trans eb.symm
  have h3 := BitVec.eq_of_toNat_eq (a.third.trans b.third.symm)
  have h4 := a.torrent.trans b.torrent.symm
  have h5 := BitVec.eq_of_toNat_eq (a.nothing_else.2.2.trans b.nothing_else.2.2.symm)
  have h6 := a.nothing_else.1.trans b.nothing_else.1.symm
  have h7 := a.nothing_else.2.1.trans b.nothing_else.2.1.symm
  cases h; cases h'
  simp only at h1 h2 h3 h4 h5 h6 h7
  simp only [h1, h2, h3, h4, h5, h6, h7]

/-- **C90.** An encrypted connection begins with any secret number of 160 bits, any padding of at most 512 bytes and any length of at
most 512 for the later padding, each combination by exactly one sequence of draws; and never with anything else.  The time allowed for
the answer is the configured one. -/
theorem handshake_drawn (cfg : PeersConfig) (skey : InfoHash) :
    DrawnOnce (connectionHandshake cfg skey) (fun r => AllowedMove skey r.1 ∧ r.2 = cfg.dhExchangeTimeout) := by
  refine drawn_congr (drawn_build ((HandshakeBuilder.new skey).dhExchangeTimeout cfg.dhExchangeTimeout) rfl) ?_
  rintro ⟨h, t⟩
  constructor
  · rintro ⟨n, hn, c, hc, k, hk, p, ⟨hp, -⟩, e⟩
    obtain ⟨rfl, rfl⟩ := Prod.mk.inj e
    exact ⟨⟨k, p, c, hk, hp ▸ hn.2, hc.2, firstMove_build skey k p c hc.2⟩, rfl⟩
  · rintro ⟨⟨k, p, c, hk, hp, hc, hm⟩, rfl⟩
    exact ⟨p.length, ⟨Nat.zero_le _, hp⟩, c, ⟨Nat.zero_le _, hc⟩, k, hk, p, ⟨rfl, fun _ _ => trivial⟩,
      Prod.ext (firstMove_unique hm (firstMove_build skey k p c hc)) rfl⟩

/-- **C90.** The two packets of the handshake are never longer than what the protocol allows: 96 to 608 bytes for the first, and 56 to 568
for the third.  In particular the program itself would accept packets as long as its own first one. -/
theorem handshake_sizes (cfg : PeersConfig) (skey : InfoHash) (H : Bytes → Bytes) (hH : ∀ b, (H b).length = 20) (tape rest : List Draw)
    (h : Handshaker) (t : Nat) (hb : connectionHandshake cfg skey tape = some ((h, t), rest)) :
    (∃ packet1, h.output = some packet1 ∧ 96 ≤ packet1.length ∧ packet1.length ≤ 608) ∧
    ∀ input h', (({ h with input := input } : Handshaker).handleTimeout H) = .ok h' →
      ∃ packet3, h'.output = some packet3 ∧ 56 ≤ packet3.length ∧ packet3.length ≤ 568 := by
  obtain ⟨⟨⟨k, p, c, hk, hp, hc, hm⟩, -⟩, -⟩ := (handshake_drawn cfg skey).sound _ _ _ hb
  obtain ⟨pub, e, hs⟩ := hm.first
  refine ⟨⟨_, e, by simp only [List.length_append, hs.1]; omega, by simp only [List.length_append, hs.1]; omega⟩, ?_⟩
  intro input h' he
  rw [handleTimeout_eq H { h with input := input } k hm.secret] at he
  split at he
  · simp only [Except.ok.injEq] at he
    subst he
    refine ⟨_, rfl, ?_, ?_⟩
    all_goals simp [packet3Of, hH, xorAt_length, packet3Text_length, hm.third]
    all_goals omega
  · cases he

/-- A tape that answers the questions of a handshake. -/
def sampleHandshakeTape : List Draw :=
  [.range 0 512 2, .range 0 512 300] ++ (List.range 20).map (fun i => .byte (UInt8.ofNat (7 * i + 1))) ++ [.byte 5, .byte 6, .word 7#32]

/-- The program's connection to a peer that all properties of encrypted connections speak of (C33, C34, C35, C52, C53) begins in this way. -/
theorem handshake_chances (cfg : PeersConfig) (skey : InfoHash) (rooms : Nat → Nat) (now : Nat) (tape rest : List Draw) (h : Handshaker) (t : Nat)
    (hb : connectionHandshake cfg skey tape = some ((h, t), rest)) :
    ∃ c : Chances, c.privateKey < 2 ^ 160 ∧ c.padA.length ≤ 512 ∧ c.padcLen.toNat ≤ 512 ∧ c.rooms = rooms ∧ c.now = now ∧
      c.dhTimeout = cfg.dhExchangeTimeout ∧ h = Handshaker.build skey c.privateKey c.padA c.padcLen := by
  obtain ⟨⟨⟨k, p, c, hk, hp, hc, hm⟩, -⟩, -⟩ := (handshake_drawn cfg skey).sound _ _ _ hb
  exact ⟨⟨k, p, BitVec.ofNat 16 c, rooms, now, cfg.dhExchangeTimeout⟩, hk, hp, by simp only [BitVec.toNat_ofNat]; omega, rfl, rfl, rfl,
    firstMove_unique hm (firstMove_build skey k p c hc)⟩

example : ((connectionHandshake PeersConfig.dflt ⟨List.replicate 20 1, by decide⟩ sampleHandshakeTape).map fun r =>
    ((r.1.1.output.map List.length), r.1.1.padcLen, r.1.2, r.2)) = some (some 98, 300#16, 30, [.word 7#32]) := by decide +kernel

theorem drawn_peerId (pfx : Bytes) (hp : pfx.length ≤ 20) :
    DrawnOnce (PeerId.draw pfx) (fun i => ∃ tail, i.bytes = pfx ++ tail ∧ ∀ b ∈ tail, IsAlphanumeric b) := by
  have tk : pfx.take 20 = pfx := List.take_of_length_le hp
  refine drawn_congr (drawn_bind (drawn_many drawn_alnum (20 - pfx.length)) (Q := fun l i => i.bytes = pfx ++ l) ?_ ?_) ?_
  · rintro l ⟨hl, -⟩
    have : (pfx.take 20 ++ l).length = 20 := by rw [tk, List.length_append, hl]; omega
    simp only [this, dite_true]
    refine drawn_congr (drawn_pure _) fun i => ?_
    constructor
    · rintro rfl; simp only [tk]
    · intro h; cases i; simp only at h; simp only [h, tk]
  · rintro a a' i - - h h'
    exact List.append_cancel_left (h.symm.trans h')
  · intro i
    constructor
    · rintro ⟨l, ⟨-, hl⟩, h⟩; exact ⟨l, h, hl⟩
    · rintro ⟨l, h, hl⟩
      have := congrArg List.length h
      rw [i.len, List.length_append] at this
      exact ⟨l, ⟨by omega, hl⟩, h⟩

theorem drawn_port (port : LocalPort) : DrawnOnce port.draw (fun p => PortAllowed port p.toNat) := by
  cases port with
  | constant p =>
    refine drawn_congr (drawn_pure p) fun q => ?_
    exact ⟨fun h => by rw [h]; rfl, fun h => BitVec.eq_of_toNat_eq h⟩
  | range low high =>
    have := high.isLt
    refine drawn_congr (drawn_map (drawn_range low.toNat high.toNat) (BitVec.ofNat 16) ?_) fun q => ?_
    · intro a a' h h' e
      have := congrArg BitVec.toNat e
      simp only [BitVec.toNat_ofNat] at this
      omega
    · constructor
      · rintro ⟨n, h, rfl⟩
        simp only [PortAllowed, BitVec.toNat_ofNat]
        omega
      · intro h
        exact ⟨q.toNat, h, by simp⟩

/-- **C90.** The program's identity: the prefix of its ID, then any letters and digits; any key; any port that the configuration allows;
each combination by exactly one sequence of draws, and never anything else. -/
theorem identity_drawn (pfx : Bytes) (hp : pfx.length ≤ 20) (port : LocalPort) :
    DrawnOnce (LocalPeer.draw pfx port) (AllowedIdentity pfx port) := by
  refine drawn_congr (drawn_bind (drawn_peerId pfx hp) (fun i _ => drawn_bind drawn_word (fun w _ =>
    drawn_map (drawn_port port) (fun p => (⟨i, w, p⟩ : LocalPeer)) ?_) ?_) ?_) ?_
  · rintro a a' - - h; exact congrArg LocalPeer.port h
  · rintro a a' r - - ⟨p, -, rfl⟩ ⟨p', -, h⟩; exact congrArg LocalPeer.key h
  · rintro a a' r - - ⟨w, -, p, -, rfl⟩ ⟨w', -, p', -, h⟩; exact congrArg LocalPeer.id h
  · rintro ⟨i, w, p⟩
    constructor
    · rintro ⟨i', hi, w', -, p', hp', e⟩
      cases e
      exact ⟨hi, hp'⟩
    · rintro ⟨hi, hp'⟩
      exact ⟨i, hi, w, trivial, p, hp', rfl⟩

/-- A tape for the identity. -/
def sampleIdentityTape : List Draw :=
  (List.range 11).map (fun i => .alnum (UInt8.ofNat (65 + i))) ++ [.word 77#32, .range 1025 65535 40000, .byte 1]

example : (LocalPeer.draw (ascii "-DM-0070-") LocalPort.dflt sampleIdentityTape).map (fun r => (r.1.id.bytes, r.1.key, r.1.port, r.2)) =
    some (ascii "-DM-0070-ABCDEFGHIJK", 77#32, 40000#16, [.byte 1]) := by decide +kernel

/-- **C90.** The ID under which the program asks the DHT: any 20 bytes, each by exactly one sequence of draws. -/
theorem nodeId_drawn : DrawnOnce drawNodeId (fun b => b.length = 20) :=
  drawn_congr (drawn_many drawn_byte 20) fun _ => ⟨And.left, fun h => ⟨h, fun _ _ => trivial⟩⟩

end Demag.Props
