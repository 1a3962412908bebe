import Verif.Lemmas.MseReply
import Verif.Spec.MseStream

/-! # Properties: encrypted connections (C33, C34, C35) -/

namespace Demag.Props

open Demag Spec

/-- The secret the program derives from packet 2. -/
def secretOf (a : Nat) (packet2 : Bytes) : Bytes := biguint2bytes (modpow (fromBytesBe (packet2.take modulusBytes)) a primeModulus)

/-- What the program encrypts in packet 3. -/
def packet3Text (provide : BitVec 32) (padcLen : BitVec 16) : Bytes :=
  List.replicate 8 0 ++ putU32 provide ++ putU16 padcLen ++ List.replicate padcLen.toNat 0 ++ putU16 0

theorem packet3Text_length (p : BitVec 32) (c : BitVec 16) : (packet3Text p c).length = 16 + c.toNat := by
  simp [packet3Text, putU32, putU16]; omega

/-- Packet 3 as the program builds it. -/
def packet3Of (H : Bytes → Bytes) (S skey : Bytes) (provide : BitVec 32) (padcLen : BitVec 16) : Bytes :=
  H (ascii "req1" ++ S) ++ List.zipWith (fun a b => a ^^^ b) (H (ascii "req2" ++ skey)) (H (ascii "req3" ++ S)) ++
    xorAt (mseStream (H (ascii "keyA" ++ S ++ skey))) 0 (packet3Text provide padcLen)

/-- The state after packet 3. -/
def afterPacket3 (H : Bytes → Bytes) (S : Bytes) (h : Handshaker) : Handshaker :=
  { h with
    input := []
    output := some (packet3Of H S h.skey.bytes h.provide h.padcLen)
    state := .packet4 (.rc4 (rc4After (freshRc4 (H (ascii "keyA" ++ S ++ h.skey.bytes))) (16 + h.padcLen.toNat))
      (freshRc4 (H (ascii "keyB" ++ S ++ h.skey.bytes)))) .vc }

theorem handleTimeout_eq (H : Bytes → Bytes) (h : Handshaker) (a : Nat) (hst : h.state = .packet2 a) :
    h.handleTimeout H = if 96 ≤ h.input.length ∧ h.input.length ≤ 608 then .ok (afterPacket3 H (secretOf a h.input) h)
      else .error (.packet2Len h.input.length) := by
  unfold Handshaker.handleTimeout
  rw [hst]
  by_cases hl : 96 ≤ h.input.length ∧ h.input.length ≤ 608
  · have hl' : ¬ ¬ (minPacket2Len ≤ h.input.length ∧ h.input.length ≤ maxPacket2Len) := fun h => h hl
    rw [if_pos hl]
    simp only [if_neg hl', apply_eq, afterPacket3, packet3Of, freshRc4_byte, secretOf, packet3Text]
    have := packet3Text_length h.provide h.padcLen
    rw [packet3Text] at this
    rw [this]
  · have hl' : ¬ (minPacket2Len ≤ h.input.length ∧ h.input.length ≤ maxPacket2Len) := hl
    simp only [if_pos hl', if_neg hl]

/-- A whole handshake: the network delivers `c1` until the time for packet 2 is over, then `c2`, then `tail`. -/
def handshake (H : Bytes → Bytes) (sendOk : Nat → Bool) (skey : InfoHash) (a : Nat) (padA : Bytes) (padcLen : BitVec 16)
    (c1 c2 : List Bytes) (tail : List HandshakeRead) : List Bytes × HandshakeOutcome × List HandshakeRead :=
  handshakeLoop H sendOk 1 false (Handshaker.build skey a padA padcLen) (c1.map .data ++ .timeout :: (c2.map .data ++ tail))

theorem handshake_eq (H : Bytes → Bytes) (sendOk : Nat → Bool) (hs : ∀ n, sendOk n = true) (skey : InfoHash) (a : Nat) (padA : Bytes)
    (padcLen : BitVec 16) (c1 c2 : List Bytes) (tail : List HandshakeRead) (h1 : [] ∉ c1) (h2 : [] ∉ c2)
    (hl : 96 ≤ c1.flatten.length ∧ c1.flatten.length ≤ 608) :
    let S := secretOf a c1.flatten
    let o := rc4After (freshRc4 (H (ascii "keyA" ++ S ++ skey.bytes))) (16 + padcLen.toNat)
    let i := freshRc4 (H (ascii "keyB" ++ S ++ skey.bytes))
    let sent := [biguint2bytes (modpow 2 a primeModulus) ++ padA, packet3Of H S skey.bytes 2 padcLen]
    match packet4Loop 2 (.rc4 o i) .vc c2.flatten with
    | .error e => ∃ k, handshake H sendOk skey a padA padcLen c1 c2 tail = (sent, .err e, (c2.drop k).map .data ++ tail)
    | .ok (.done ks, rest) => ∃ k left, left ++ (c2.drop k).flatten = rest ∧
        handshake H sendOk skey a padA padcLen c1 c2 tail = (sent, .ok ⟨ks, left, []⟩, (c2.drop k).map .data ++ tail)
    | .ok _ => tail = [] → handshake H sendOk skey a padA padcLen c1 c2 tail = (sent, .waiting, []) := by
  intro S o i sent
  obtain ⟨n', h3⟩ := loop_packet2 H sendOk hs (c2.map .data ++ tail) c1 h1 1 false (Handshaker.build skey a padA padcLen) a rfl rfl
  rw [handleTimeout_eq H _ a rfl, if_pos (by simpa [Handshaker.build] using hl)] at h3
  have h4 := loop_packet4 H sendOk hs tail c2 h2 n' false
    (afterPacket3 H S ⟨.packet2 a, none, padcLen, skey, false, c1.flatten, 2#32⟩) (.rc4 o i) .vc rfl
    (by simp [afterPacket3, packet4Loop, onVc])
  simp only [afterPacket3, List.nil_append, Option.toList] at h4
  have hset : methodSet [.rc4] = 2#32 := by decide
  simp only [Handshaker.build, hset, List.nil_append] at h3
  have h3' : handshake H sendOk skey a padA padcLen c1 c2 tail = _ := h3
  simp only [afterPacket3, Option.toList] at h3'
  change match packet4Loop 2#32 (.rc4 o i) .vc c2.flatten with
    | .error e => _
    | .ok (.done ks, rest) => _
    | .ok _ => _
  generalize packet4Loop 2#32 (.rc4 o i) .vc c2.flatten = r at h4 ⊢
  match r, h4 with
  | .error e, ⟨k, h4⟩ => exact ⟨k, by rw [h3', h4]; rfl⟩
  | .ok (.done ks, rest), ⟨k, left, h5, h4⟩ => exact ⟨k, left, h5, by rw [h3', h4]; rfl⟩
  | .ok (.packet2 _, _), h4 => intro ht; rw [h3', h4 ht]; rfl
  | .ok (.packet4 _ _, _), h4 => intro ht; rw [h3', h4 ht]; rfl

theorem secretOf_sent (a : Nat) (packet2 : Bytes) : Sent96 (beValue (packet2.take 96) ^ a % msePrime) (secretOf a packet2) := by
  have := biguint2bytes_sent _ (modpow_lt (fromBytesBe (packet2.take modulusBytes)) a)
  rw [secretOf]
  rw [modpow_eq] at this ⊢
  rw [fromBytesBe, beAccum_eq] at this ⊢
  exact this

/-! ## C33 -/

/-- **C33.** Any cut of the input: giving the handshake two pieces one after the other is giving it both at once. -/
theorem input_cut (h : Handshaker) (a b : Bytes) : h.handleInput (a ++ b) = (h.handleInput a).bind fun h' => h'.handleInput b := by
  unfold Handshaker.handleInput
  cases hst : h.state with
  | packet2 k => simp [Except.bind, hst]
  | done ks => simp [Except.bind, hst]
  | packet4 ks sub =>
    rw [← List.append_assoc]
    simp only [packet4Loop_append h.provide ks sub (h.input ++ a) b]
    generalize hr : packet4Loop h.provide ks sub (h.input ++ a) = r
    match r, hr with
    | .error e, _ => rfl
    | .ok (.packet2 k, rest), hr => exact absurd hr (packet4Loop_ne _ _ _ _ _ _)
    | .ok (.done ks', rest), _ => rfl
    | .ok (.packet4 ks' sub', rest), _ => rfl

/-- **C33.** The outcome of a handshake is a function of the bytes the other side sends, not of how they are cut into reads `c1` (before
the time for packet 2 is over) and `c2` (after it).  `S` is the shared secret, `plain` is what the other side encrypted. -/
theorem reply_outcome (H : Bytes → Bytes) (sendOk : Nat → Bool) (hs : ∀ n, sendOk n = true) (skey : InfoHash) (a : Nat) (padA : Bytes)
    (padcLen : BitVec 16) (c1 c2 : List Bytes) (tail : List HandshakeRead) (h1 : [] ∉ c1) (h2 : [] ∉ c2)
    (hl : 96 ≤ c1.flatten.length ∧ c1.flatten.length ≤ 608)
    (S : Bytes) (hS : Sent96 (beValue (c1.flatten.take 96) ^ a % msePrime) S)
    (plain : Bytes) (hp : xorAt (mseStream (H (keyBText ++ S ++ skey.bytes))) 0 c2.flatten = plain) :
    -- exactly the well-formed replies are accepted; the bytes after the padding are kept, and the keystreams go on behind it
    (∀ m n, Reply 2 plain m n → m = .rc4 ∧ ∃ k left o i,
      (handshake H sendOk skey a padA padcLen c1 c2 tail).2 = (.ok ⟨.rc4 o i, left, []⟩, (c2.drop k).map .data ++ tail) ∧
      left ++ (c2.drop k).flatten = c2.flatten.drop (14 + n) ∧
      (∀ j, rc4Byte o j = mseStream (H (keyAText ++ S ++ skey.bytes)) (16 + padcLen.toNat + j)) ∧
      (∀ j, rc4Byte i j = mseStream (H (keyBText ++ S ++ skey.bytes)) (14 + n + j))) ∧
    -- malformed ones are rejected, each with its reason
    (∀ e, BadReply 2 plain e → (handshake H sendOk skey a padA padcLen c1 c2 tail).2.1 = .err e) ∧
    -- and otherwise more is waited for
    ((∀ m n, ¬ Reply 2 plain m n) → (∀ e, ¬ BadReply 2 plain e) → tail = [] →
      (handshake H sendOk skey a padA padcLen c1 c2 tail).2 = (.waiting, [])) := by
  have hSe : S = secretOf a c1.flatten := sent96_inj hS (secretOf_sent a c1.flatten)
  have kA : keyAText = ascii "keyA" := by decide
  have kB : keyBText = ascii "keyB" := by decide
  rw [kA, kB, hSe]
  rw [kB, hSe] at hp
  have he := handshake_eq H sendOk hs skey a padA padcLen c1 c2 tail h1 h2 hl
  dsimp only at he
  generalize ho : rc4After (freshRc4 (H (ascii "keyA" ++ secretOf a c1.flatten ++ skey.bytes))) (16 + padcLen.toNat) = o at he
  generalize hi : freshRc4 (H (ascii "keyB" ++ secretOf a c1.flatten ++ skey.bytes)) = i at he
  have hib : rc4Byte i = mseStream (H (ascii "keyB" ++ secretOf a c1.flatten ++ skey.bytes)) := by rw [← hi, freshRc4_byte]
  have hob : ∀ j, rc4Byte o j = mseStream (H (ascii "keyA" ++ secretOf a c1.flatten ++ skey.bytes)) (16 + padcLen.toNat + j) := by
    intro j; rw [← ho, rc4Byte_after, freshRc4_byte]
  have hc := packet4_cases 2 o i c2.flatten
  rw [hib, hp] at hc
  have hrc : ∀ m, Offers 2 m → m = .rc4 := by intro m; cases m <;> simp [Offers]
  generalize packet4Loop 2 (.rc4 o i) .vc c2.flatten = r at hc he
  match r, hc, he with
  | .error e, hc, ⟨k, he⟩ =>
    refine ⟨fun m n h => absurd hc (reply_not_bad h), fun e' h => ?_, fun _ h => absurd hc (h e)⟩
    rw [he, badReply_unique hc h]
  | .ok (.done ks, rest), ⟨m, n, h3, h4, h5⟩, ⟨k, left, h6, he⟩ =>
    refine ⟨fun m' n' h => ?_, fun e h => absurd h (reply_not_bad h3), fun h => absurd h3 (h m n)⟩
    obtain ⟨rfl, rfl⟩ := reply_unique h3 h
    have hm := hrc m h3.offered
    subst hm
    refine ⟨rfl, k, left, o, rc4After i (14 + n), ?_, by rw [h6, h5], hob, ?_⟩
    · rw [he, h4]; rfl
    · intro j; rw [rc4Byte_after, hib]
  | .ok (.packet2 _, _), hc, he => exact ⟨fun m n h => absurd h (hc.1 m n), fun e h => absurd h (hc.2 e), fun _ _ ht => by rw [he ht]⟩
  | .ok (.packet4 _ _, _), hc, he => exact ⟨fun m n h => absurd h (hc.1 m n), fun e h => absurd h (hc.2 e), fun _ _ ht => by rw [he ht]⟩

/-- **C33.** A packet 2 of another length than 96 to 608 bytes is rejected, however it is cut. -/
theorem packet2_length (H : Bytes → Bytes) (sendOk : Nat → Bool) (hs : ∀ n, sendOk n = true) (skey : InfoHash) (a : Nat) (padA : Bytes)
    (padcLen : BitVec 16) (c1 c2 : List Bytes) (tail : List HandshakeRead) (h1 : [] ∉ c1)
    (hl : c1.flatten.length < 96 ∨ 608 < c1.flatten.length) :
    (handshake H sendOk skey a padA padcLen c1 c2 tail).2.1 = .err (.packet2Len c1.flatten.length) := by
  obtain ⟨n', h3⟩ := loop_packet2 H sendOk hs (c2.map .data ++ tail) c1 h1 1 false (Handshaker.build skey a padA padcLen) a rfl rfl
  rw [handleTimeout_eq H _ a rfl, if_neg (by simp [Handshaker.build] at hl ⊢; omega)] at h3
  rw [handshake, h3]
  simp [Handshaker.build]

/-- What a handshake that succeeds delivers, and what it leaves in the network. -/
def leftBytes : HandshakeOutcome × List HandshakeRead → Option (Keystream × Bytes)
  | (.ok s, reads) => some (s.keystream, s.readBuffer ++ (reads.map fun | .data b => b | _ => []).flatten)
  | _ => none

/-- **C33.** Two ways to cut the same bytes: the same outcome. -/
theorem segmentation (H : Bytes → Bytes) (sendOk : Nat → Bool) (hs : ∀ n, sendOk n = true) (skey : InfoHash) (a : Nat) (padA : Bytes)
    (padcLen : BitVec 16) (c1 c1' c2 c2' : List Bytes) (h1 : [] ∉ c1) (h1' : [] ∉ c1') (h2 : [] ∉ c2) (h2' : [] ∉ c2')
    (e1 : c1.flatten = c1'.flatten) (e2 : c2.flatten = c2'.flatten) :
    let r := handshake H sendOk skey a padA padcLen c1 c2 []
    let r' := handshake H sendOk skey a padA padcLen c1' c2' []
    leftBytes r.2 = leftBytes r'.2 ∧ (∀ e, r.2.1 = .err e ↔ r'.2.1 = .err e) ∧ (r.2.1 = .waiting ↔ r'.2.1 = .waiting) := by
  intro r r'
  have hd : ∀ c : List Bytes, (((c.map HandshakeRead.data).map fun | .data b => b | _ => ([] : Bytes)).flatten) = c.flatten := by
    intro c
    congr 1
    rw [List.map_map]
    conv => rhs; rw [← List.map_id c]
    exact List.map_congr_left (fun _ _ => rfl)
  by_cases hl : 96 ≤ c1.flatten.length ∧ c1.flatten.length ≤ 608
  · have he := handshake_eq H sendOk hs skey a padA padcLen c1 c2 [] h1 h2 hl
    have he' := handshake_eq H sendOk hs skey a padA padcLen c1' c2' [] h1' h2' (e1 ▸ hl)
    rw [← e1, ← e2] at he'
    dsimp only at he he'
    generalize packet4Loop 2 _ .vc c2.flatten = q at he he'
    match q, he, he' with
    | .error e, ⟨k, he⟩, ⟨k', he'⟩ => simp only [r, r']; rw [he, he']; simp [leftBytes]
    | .ok (.done ks, rest), ⟨k, left, h6, he⟩, ⟨k', left', h6', he'⟩ =>
      simp only [r, r']; rw [he, he']
      refine ⟨?_, by simp, by simp⟩
      simp only [leftBytes, List.append_nil, hd, h6, h6']
    | .ok (.packet2 _, _), he, he' => simp only [r, r']; rw [he rfl, he' rfl]; simp
    | .ok (.packet4 _ _, _), he, he' => simp only [r, r']; rw [he rfl, he' rfl]; simp
  · have hl' : c1.flatten.length < 96 ∨ 608 < c1.flatten.length := by omega
    have p := packet2_length H sendOk hs skey a padA padcLen c1 c2 [] h1 hl'
    have p' := packet2_length H sendOk hs skey a padA padcLen c1' c2' [] h1' (e1 ▸ hl')
    rw [← e1] at p'
    have q : ∀ x : HandshakeOutcome × List HandshakeRead, x.1 = .err (.packet2Len c1.flatten.length) → leftBytes x = none := by
      rintro ⟨o, l⟩ h; simp only at h; subst h; rfl
    exact ⟨by rw [q _ p, q _ p'], fun e => by rw [p, p'], by rw [p, p']⟩

/-! ## C34 -/

/-- **C34.** Numbers below the prime are sent as exactly 96 bytes that mean the same number. -/
theorem sent_exactly (b e : Nat) : Sent96 (b ^ e % msePrime) (biguint2bytes (modpow b e primeModulus)) := by
  have := biguint2bytes_sent _ (modpow_lt b e)
  rw [modpow_eq] at this ⊢
  exact this

/-- **C34.** Both ends derive the same secret: ours from the other's public key, the other's from ours. -/
theorem key_agreement (a b : Nat) (A B S : Bytes) (hA : Sent96 (2 ^ a % msePrime) A) (hB : Sent96 (2 ^ b % msePrime) B) :
    Sent96 (beValue B ^ a % msePrime) S ↔ Sent96 (beValue A ^ b % msePrime) S := by
  rw [hA.2, hB.2, ← Nat.pow_mod, ← Nat.pow_mod, ← Nat.pow_mul, ← Nat.pow_mul, Nat.mul_comm]

theorem xor_cancel (x y : Bytes) (h : x.length = y.length) :
    List.zipWith (fun a b => a ^^^ b) (List.zipWith (fun a b => a ^^^ b) x y) y = x := by
  induction x generalizing y with
  | nil => simp
  | cons a x ih =>
    cases y with
    | nil => simp at h
    | cons b y => simp only [List.length_cons, Nat.add_right_cancel_iff] at h; simp [ih y h, UInt8.xor_assoc]

theorem packet3_ok (H : Bytes → Bytes) (hH : ∀ b, (H b).length = 20) (S skey : Bytes) (padcLen : BitVec 16) :
    Packet3 H S skey 2 padcLen.toNat (packet3Of H S skey 2 padcLen) := by
  refine ⟨_, _, putU32 2, putU16 padcLen, [0, 0], rfl, by simp [hH], xor_cancel _ _ (by simp [hH]), ?_, ?_, ?_, ?_, ?_, rfl⟩
  · have kA : ascii "keyA" = keyAText := by decide
    rw [kA, xorAt_xorAt]; rfl
  · simp [putU32]
  · rw [putU32, beValue_beBytes]; rfl
  · simp [putU16]
  · rw [putU16, beValue_beBytes]; have := padcLen.isLt; omega

/-- **C34.** With a responder that follows the protocol, the handshake succeeds, for all private keys, paddings, digests and cuts: the
responder has private key `b`, pads packet 2 with `padB` and packet 4 with `padD` and sends `app` behind it.  It finds our number in
packet 1, derives the same secret `S` from it, and packet 3 is what the protocol demands for this secret; both directions go on with
the keystreams the responder uses. -/
theorem handshake_completes (H : Bytes → Bytes) (hH : ∀ b, (H b).length = 20) (sendOk : Nat → Bool) (hs : ∀ n, sendOk n = true)
    (skey : InfoHash) (a b : Nat) (padA padB padD app B : Bytes) (padcLen : BitVec 16) (hB : Sent96 (2 ^ b % msePrime) B)
    (hpB : padB.length ≤ 512) (sel len : Bytes) (hsel : sel.length = 4 ∧ beValue sel = 2)
    (hlen : len.length = 2 ∧ beValue len = padD.length)
    (c1 c2 : List Bytes) (h1 : [] ∉ c1) (h2 : [] ∉ c2) (e1 : c1.flatten = B ++ padB) :
    ∃ packet1 packet3 S, Sent96 (2 ^ a % msePrime) (packet1.take 96) ∧ packet1.drop 96 = padA ∧
      Sent96 (beValue (packet1.take 96) ^ b % msePrime) S ∧ Packet3 H S skey.bytes 2 padcLen.toNat packet3 ∧
      (c2.flatten = xorAt (mseStream (H (keyBText ++ S ++ skey.bytes))) 0 (List.replicate 8 0 ++ sel ++ len ++ padD ++ app) →
        ∃ (unread : List Bytes) (left : Bytes) (o i : Rc4), handshake H sendOk skey a padA padcLen c1 c2 [] =
          ([packet1, packet3], .ok ⟨.rc4 o i, left, []⟩, unread.map .data) ∧
        xorAt (rc4Byte i) 0 (left ++ unread.flatten) = app ∧
        (∀ j, rc4Byte o j = mseStream (H (keyAText ++ S ++ skey.bytes)) (16 + padcLen.toNat + j)) ∧
        (∀ j, rc4Byte i j = mseStream (H (keyBText ++ S ++ skey.bytes)) (14 + padD.length + j))) := by
  have hP := sent_exactly 2 a
  have hl : 96 ≤ c1.flatten.length ∧ c1.flatten.length ≤ 608 := by rw [e1]; simp [hB.1]; omega
  have ht : c1.flatten.take 96 = B := by rw [e1, List.take_left' hB.1]
  have hS := secretOf_sent a c1.flatten
  have hp1 : (biguint2bytes (modpow 2 a primeModulus) ++ padA).take 96 = biguint2bytes (modpow 2 a primeModulus) :=
    List.take_left' hP.1
  refine ⟨biguint2bytes (modpow 2 a primeModulus) ++ padA, packet3Of H (secretOf a c1.flatten) skey.bytes 2 padcLen,
    secretOf a c1.flatten, by rw [hp1]; exact hP, List.drop_left' hP.1, ?_, packet3_ok H hH _ _ _, ?_⟩
  · rw [hp1, ← key_agreement a b _ B _ hP hB, ← ht]; exact hS
  · intro e2
    have hr : Reply 2 (List.replicate 8 0 ++ sel ++ len ++ padD ++ app) .rc4 padD.length :=
      ⟨by simp [Offers], sel, len, padD, app, rfl, hsel.1, hsel.2, hlen.1, hlen.2, rfl⟩
    obtain ⟨-, k, left, o, i, h3, h4, h5, h6⟩ :=
      (reply_outcome H sendOk hs skey a padA padcLen c1 c2 [] h1 h2 hl _ hS _ (by rw [e2, xorAt_xorAt])).1 _ _ hr
    refine ⟨c2.drop k, left, o, i, ?_, ?_, h5, h6⟩
    · have he := handshake_eq H sendOk hs skey a padA padcLen c1 c2 [] h1 h2 hl
      rw [List.append_nil] at h3
      refine Prod.ext ?_ h3
      dsimp only at he
      generalize packet4Loop 2 _ .vc c2.flatten = q at he
      match q, he with
      | .error e, ⟨k, he⟩ => rw [he]
      | .ok (.done ks, rest), ⟨k, left, h6, he⟩ => rw [he]
      | .ok (.packet2 _, _), he => rw [he rfl]
      | .ok (.packet4 _ _, _), he => rw [he rfl]
    · have hf : rc4Byte i = fun j => mseStream (H (keyBText ++ secretOf a c1.flatten ++ skey.bytes)) (14 + padD.length + j) :=
        funext h6
      rw [h4, hf, xorAt_shift, Nat.add_zero, e2]
      have := xorAt_drop (mseStream (H (keyBText ++ secretOf a c1.flatten ++ skey.bytes))) 0 (14 + padD.length)
        (xorAt (mseStream (H (keyBText ++ secretOf a c1.flatten ++ skey.bytes))) 0 (List.replicate 8 0 ++ sel ++ len ++ padD ++ app))
      rw [Nat.zero_add] at this
      rw [this, xorAt_xorAt, List.drop_left' (by simp [hsel.1, hlen.1]; omega)]

/-! ## C35 -/

theorem encode_eq (ks : Keystream) (b : Bytes) : (ks.encode b).1 = xorAt (outByte ks) 0 b ∧
    (∀ j, outByte (ks.encode b).2 j = outByte ks (b.length + j)) ∧ inByte (ks.encode b).2 = inByte ks := by
  cases ks with
  | plaintext =>
    refine ⟨?_, fun _ => rfl, rfl⟩
    have : ∀ k, xorAt (outByte .plaintext) k b = b := by
      induction b with
      | nil => intro k; rfl
      | cons x xs ih => intro k; simp [xorAt, ih, outByte]
    exact (this 0).symm
  | rc4 o i =>
    refine ⟨?_, fun j => ?_, ?_⟩
    · simp only [Keystream.encode, apply_eq]; rfl
    · simp only [Keystream.encode, apply_eq, outByte, rc4Byte_after]
    · funext k; rfl

theorem decode_eq (ks : Keystream) (b : Bytes) : (ks.decode b).1 = xorAt (inByte ks) 0 b ∧
    (∀ j, inByte (ks.decode b).2 j = inByte ks (b.length + j)) ∧ outByte (ks.decode b).2 = outByte ks := by
  cases ks with
  | plaintext =>
    refine ⟨?_, fun _ => rfl, rfl⟩
    have : ∀ k, xorAt (inByte .plaintext) k b = b := by
      induction b with
      | nil => intro k; rfl
      | cons x xs ih => intro k; simp [xorAt, ih, inByte]
    exact (this 0).symm
  | rc4 o i =>
    refine ⟨?_, fun j => ?_, ?_⟩
    · simp only [Keystream.decode, apply_eq]; rfl
    · simp only [Keystream.decode, apply_eq, inByte, rc4Byte_after]
    · funext k; rfl

theorem flushLoop_eq (inner : PollResult) (b : Bytes) (ws : List WriteResult) (r : Bytes × Bytes × PollResult)
    (h : flushLoop inner b ws = some r) : r.1 ++ r.2.1 = b ∧ (r.2.2 = .ready → r.2.1 = []) := by
  induction ws generalizing b r with
  | nil =>
    cases b with
    | nil => simp only [flushLoop, Option.some.injEq] at h; subst h; simp
    | cons x xs => simp [flushLoop] at h
  | cons w ws ih =>
    cases b with
    | nil => simp only [flushLoop, Option.some.injEq] at h; subst h; simp
    | cons x xs =>
      cases w with
      | pending => simp only [flushLoop, Option.some.injEq] at h; subst h; simp
      | failed => simp only [flushLoop, Option.some.injEq] at h; subst h; simp
      | wrote n =>
        rw [flushLoop] at h
        split at h
        · split at h
          · simp at h
          · rename_i r' hr
            simp only [Option.some.injEq] at h
            subst h
            have := ih _ _ hr
            refine ⟨?_, this.2⟩
            simp only [List.append_assoc, this.1, List.take_append_drop]
        · simp at h

/-- What holds at any time: the network has what was written, each byte encrypted once, up to what still waits; the program has what
the network delivered, decrypted once, up to what still waits. -/
structure StreamInv (s0 : EncryptedStream) (st : EncryptedStream × StreamTrace) : Prop where
  out : st.2.sent ++ st.1.writeBuffer = s0.writeBuffer ++ xorAt (outByte s0.keystream) 0 st.2.written
  inp : s0.readBuffer ++ st.2.received = xorAt (inByte s0.keystream) 0 st.2.delivered ++ st.1.readBuffer
  outPos : ∀ j, outByte st.1.keystream j = outByte s0.keystream (st.2.written.length + j)
  inPos : ∀ j, inByte st.1.keystream j = inByte s0.keystream (st.2.delivered.length + j)

theorem StreamInv.step {s0 : EncryptedStream} {st st' : EncryptedStream × StreamTrace} (h : StreamInv s0 st) (op : StreamOp)
    (hs : streamStep st op = some st') : StreamInv s0 st' := by
  obtain ⟨h1, h2, h3, h4⟩ := h
  have ho : outByte st.1.keystream = fun j => outByte s0.keystream (st.2.written.length + j) := funext h3
  have hi : inByte st.1.keystream = fun j => inByte s0.keystream (st.2.delivered.length + j) := funext h4
  have dec : ∀ b : Bytes, xorAt (inByte s0.keystream) 0 (st.2.delivered ++ (st.1.keystream.decode b).1) =
      xorAt (inByte s0.keystream) 0 st.2.delivered ++ b := by
    intro b
    rw [(decode_eq _ b).1, hi, xorAt_shift, xorAt_append, Nat.add_zero, Nat.zero_add, xorAt_xorAt]
  cases op with
  | write b =>
    simp only [streamStep, Option.some.injEq] at hs
    subst hs
    have e := encode_eq st.1.keystream b
    refine ⟨?_, h2, ?_, ?_⟩
    · simp only [EncryptedStream.write]
      rw [← List.append_assoc, h1, e.1, ho, xorAt_shift, xorAt_append, List.append_assoc, Nat.add_zero, Nat.zero_add]
    · intro j; simp only [EncryptedStream.write, e.2.1, h3, List.length_append, Nat.add_assoc]
    · intro j; simp only [EncryptedStream.write, e.2.2, h4]
  | flush ws inner =>
    simp only [streamStep, EncryptedStream.flush, Option.map_map, Option.map_eq_some_iff] at hs
    obtain ⟨r, hr, rfl⟩ := hs
    have := flushLoop_eq inner _ ws r hr
    refine ⟨?_, h2, h3, h4⟩
    simp only [Function.comp, List.append_assoc, this.1, h1]
  | read room net =>
    simp only [streamStep, EncryptedStream.read, Option.map_eq_some_iff] at hs
    obtain ⟨r, hr, rfl⟩ := hs
    split at hr
    · simp only [Option.some.injEq] at hr
      subst hr
      have e := decode_eq st.1.keystream (st.1.readBuffer.take (min room st.1.readBuffer.length))
      refine ⟨h1, ?_, ?_, ?_⟩
      · simp only [List.append_nil]
        rw [dec, List.append_assoc, List.take_append_drop, h2]
      · intro j; simp only [e.2.2, h3]
      · intro j
        simp only [e.2.1, h4, e.1, List.length_append, xorAt_length, Nat.add_assoc]
    · rename_i hb
      have hb' : st.1.readBuffer = [] := by simpa using hb
      split at hr
      · simp only [Option.some.injEq] at hr
        subst hr
        exact ⟨h1, by simpa using h2, h3, by simpa using h4⟩
      · rename_i b
        split at hr
        · simp only [Option.some.injEq] at hr
          subst hr
          have e := decode_eq st.1.keystream b
          refine ⟨h1, ?_, ?_, ?_⟩
          · simp only
            rw [dec, ← List.append_assoc, h2, hb', List.append_nil, List.append_nil]
          · intro j; simp only [e.2.2, h3]
          · intro j; simp only [e.2.1, h4, e.1, List.length_append, xorAt_length, Nat.add_assoc]
        · simp at hr

theorem StreamInv.run {s0 : EncryptedStream} (ops : List StreamOp) {st st' : EncryptedStream × StreamTrace} (h : StreamInv s0 st)
    (hs : streamRun st ops = some st') : StreamInv s0 st' := by
  induction ops generalizing st with
  | nil => simp only [streamRun, Option.some.injEq] at hs; exact hs ▸ h
  | cons op ops ih =>
    simp only [streamRun, Option.bind_eq_some_iff] at hs
    obtain ⟨m, h1, h2⟩ := hs
    exact ih (h.step op h1) h2

theorem StreamInv.init (s0 : EncryptedStream) : StreamInv s0 (s0, {}) := ⟨by simp [xorAt], by simp [xorAt], by simp, by simp⟩

/-- **C35.** At any time, whatever the network takes and delivers: the bytes it took, decrypted, are a beginning of what was written;
what is missing waits in the buffer. -/
theorem sent_is_written (s0 : EncryptedStream) (h0 : s0.writeBuffer = []) (ops : List StreamOp) (s : EncryptedStream) (t : StreamTrace)
    (hr : streamRun (s0, {}) ops = some (s, t)) :
    xorAt (outByte s0.keystream) 0 t.sent <+: t.written ∧ t.sent.length + s.writeBuffer.length = t.written.length ∧
      xorAt (outByte s0.keystream) 0 (t.sent ++ s.writeBuffer) = t.written := by
  have h := ((StreamInv.init s0).run ops hr).out
  rw [h0, List.nil_append] at h
  simp only at h
  have h2 : xorAt (outByte s0.keystream) 0 (t.sent ++ s.writeBuffer) = t.written := by rw [h, xorAt_xorAt]
  refine ⟨?_, ?_, h2⟩
  · rw [← h2, xorAt_append]; exact List.prefix_append _ _
  · have := congrArg List.length h; simpa using this

/-- **C35.** After a flush that succeeds, nothing is missing. -/
theorem flushed_is_written (s0 : EncryptedStream) (h0 : s0.writeBuffer = []) (ops : List StreamOp) (s : EncryptedStream) (t : StreamTrace)
    (hr : streamRun (s0, {}) ops = some (s, t)) (ws : List WriteResult) (inner : PollResult) (b : Bytes) (s' : EncryptedStream)
    (hf : s.flush ws inner = some (b, s', .ready)) :
    xorAt (outByte s0.keystream) 0 (t.sent ++ b) = t.written ∧ s'.writeBuffer = [] := by
  have h := (sent_is_written s0 h0 ops s t hr).2.2
  simp only [EncryptedStream.flush, Option.map_eq_some_iff] at hf
  obtain ⟨r, hr', he⟩ := hf
  have hl := flushLoop_eq inner _ ws r hr'
  simp only [Prod.mk.injEq] at he
  obtain ⟨rfl, rfl, e3⟩ := he
  have := hl.2 e3
  refine ⟨?_, this⟩
  rw [this, List.append_nil] at hl
  rw [hl.1, h]

/-- **C35.** What is read is what the other end encrypted, in order, each byte once: `plain` is what it wrote, and the bytes that came
(with the handshake and afterwards) are a beginning of its encryption.  What has come but has not been read waits in the buffer. -/
theorem read_is_sent (s0 : EncryptedStream) (ops : List StreamOp) (s : EncryptedStream) (t : StreamTrace)
    (hr : streamRun (s0, {}) ops = some (s, t)) (plain : Bytes)
    (hp : s0.readBuffer ++ t.received <+: xorAt (inByte s0.keystream) 0 plain) :
    t.delivered <+: plain ∧ t.delivered.length + s.readBuffer.length = s0.readBuffer.length + t.received.length := by
  have h := ((StreamInv.init s0).run ops hr).inp
  simp only at h
  constructor
  · rw [h] at hp
    obtain ⟨z, hz⟩ := hp
    refine ⟨xorAt (inByte s0.keystream) t.delivered.length (s.readBuffer ++ z), ?_⟩
    have := congrArg (xorAt (inByte s0.keystream) 0) hz
    rw [xorAt_xorAt, List.append_assoc, xorAt_append, xorAt_xorAt, xorAt_length, Nat.zero_add] at this
    exact this
  · have := congrArg List.length h
    simpa using this.symm

/-- **C35.** End to end: two connections with matching keystreams, and a network that delivers to the one a beginning of what it took
from the other. -/
theorem end_to_end (a0 b0 : EncryptedStream) (hk : outByte a0.keystream = inByte b0.keystream) (ha : a0.writeBuffer = [])
    (opsA opsB : List StreamOp) (a b : EncryptedStream) (tA tB : StreamTrace) (hA : streamRun (a0, {}) opsA = some (a, tA))
    (hB : streamRun (b0, {}) opsB = some (b, tB)) (net : b0.readBuffer ++ tB.received <+: tA.sent) :
    tB.delivered <+: tA.written := by
  have h := (sent_is_written a0 ha opsA a tA hA)
  refine (read_is_sent b0 opsB b tB hB tA.written ?_).1
  have h2 := congrArg (xorAt (outByte a0.keystream) 0) h.2.2
  rw [xorAt_xorAt] at h2
  rw [← hk, ← h2]
  exact net.trans (List.prefix_append _ _)

/-- **C35.** Nothing gets stuck: if the network takes at least one byte at each try, a flush with as many tries as there are bytes
empties the buffer; a read with room delivers what came with the handshake. -/
theorem stream_progress (s : EncryptedStream) :
    (∀ ns : List Nat, (∀ n ∈ ns, 1 ≤ n) → s.writeBuffer.length ≤ ns.length → ∀ r, s.flush (ns.map .wrote) .ready = some r →
      r.1 = s.writeBuffer ∧ r.2.1.writeBuffer = [] ∧ r.2.2 = .ready) ∧
    (∀ room net, 0 < room → s.readBuffer ≠ [] → ∃ d s', s.read room net = some ([], d, s') ∧ d ≠ []) := by
  constructor
  · intro ns h1 hl r hr
    simp only [EncryptedStream.flush, Option.map_eq_some_iff] at hr
    obtain ⟨q, hq, rfl⟩ := hr
    have : q = (s.writeBuffer, [], .ready) := by
      generalize s.writeBuffer = b at hl hq
      induction ns generalizing b q with
      | nil => cases b <;> simp_all [flushLoop]
      | cons n ns ih =>
        cases b with
        | nil => simpa [flushLoop] using hq.symm
        | cons x xs =>
          rw [List.map_cons, flushLoop] at hq
          split at hq
          · split at hq
            · simp at hq
            · rename_i r' hr
              have hn := h1 n (by simp)
              have := ih (fun m hm => h1 m (by simp [hm])) r' _ (by simp at hl ⊢; omega) hr
              simp only [Option.some.injEq] at hq
              rw [← hq, this, List.take_append_drop]
          · simp at hq
    subst this
    exact ⟨rfl, rfl, rfl⟩
  · intro room net hr hb
    simp only [EncryptedStream.read, if_pos hb]
    refine ⟨_, _, rfl, ?_⟩
    intro h
    have := congrArg List.length h
    rw [(decode_eq _ _).1, xorAt_length] at this
    have hb' : 0 < s.readBuffer.length := List.length_pos_iff.2 hb
    simp only [List.length_take, List.length_nil] at this
    omega

/-! ## Examples: the test vectors of src/peer/msepe.rs:584-699 -/

section examples

/-- src/peer/msepe.rs:585. -/
def testKey : InfoHash := ⟨beBytes 20 0x28c55196f57753c40aceb6fb58617e6995a7eddb, by decide⟩
/-- src/peer/msepe.rs:586. -/
def testPriv : Nat := 0xa068078feb542e953c13e4dacece2b6730a2b512
/-- src/peer/msepe.rs:588. -/
def testServer : Bytes := beBytes 96 0xb5816983bb486213388ea0ce7d8069cb62e8333a81eade46313590ff40ac185faeae22b28d4460341fa519171a15343844b80904e2e772bcc9dd8964586bdd08bb3ce6941a82dc1d305f7c8f771119f1b3c6f0d34a74f22b726d94b453b878fb
/-- src/peer/msepe.rs:685-688. -/
def testPacket4 : Bytes := beBytes 56 0x997fd11c26fca76561f2731f5ca125bef92cdde3a41fbdcb5462f7d6b6bca93d7235c29d5eb847408d1b899472b455645325ab28cf7e0f76

/-- The test as a run: packet 2 in two pieces, packet 4 in three, one of which ends amid the last field. -/
def testRun : List Bytes × HandshakeOutcome × List HandshakeRead :=
  handshake sha1 (fun _ => true) testKey testPriv [] 379 [testServer, List.replicate 123 0]
    [testPacket4.take 5, (testPacket4.drop 5).take 8, testPacket4.drop 13 ++ [7], [8, 9]] []

/-- The public key of src/peer/msepe.rs:587. -/
example : modpow 2 testPriv primeModulus = 0xfe0ffefc8a55947c7054729257d361deffc0f235bd0401acf283c4a34d0d38b7fc183fc4b172e74eed2226c9b58337605448b8217a036b740886c49578963c8ef1e1211da94f3e1386a9a6f82e8e54156de0fc5897b3a84a6d8108492cc38b6a := by
  decide +kernel

/-- The hypotheses of `reply_outcome` and `segmentation` about the pieces. -/
example : [] ∉ [testServer, List.replicate 123 0] ∧ [] ∉ [testPacket4.take 5, (testPacket4.drop 5).take 8, testPacket4.drop 13 ++ [7], [8, 9]] ∧
    96 ≤ [testServer, List.replicate 123 0].flatten.length ∧ [testServer, List.replicate 123 0].flatten.length ≤ 608 := by
  decide +kernel

/-- The assertions of src/peer/msepe.rs:664-698. -/
def testOk : List Bytes × HandshakeOutcome × List HandshakeRead → Bool
  | ([_, p3], .ok s, [.data [8, 9]]) =>
    p3.length == 435 &&
    p3.take 56 == beBytes 56 0x8e34baff908570c95d7ac86a8cbd66bca97559ba90eb626d8887c8f01e6239809baa3be4a8b20aa71767de7f5409d59790a6ea2305d73ab2 &&
    p3.drop 420 == beBytes 15 0xe75e2608cd7d7b437368a33e40d208 && s.readBuffer == [7] &&
    (s.keystream.encode (ascii "Hello, World!")).1 == beBytes 13 0x825807e21b9faa9dd6e4fb3cac &&
    (s.keystream.decode (ascii "Guten Tag, Welt!")).1 == beBytes 16 0x4fab277eea46010cf84c296afc116ea3
  | _ => false

-- The model computes what the program's own tests demand (evaluated, not proved: the keystream is too long for the kernel).
#guard testOk testRun

theorem sha1_length (b : Bytes) : (sha1 b).length = 20 := by simp [sha1, putU32]

/-- A responder with private key 7 that pads both packets: whatever the cut, here one byte at a time, the handshake succeeds. -/
example : ∃ c1 c2 : List Bytes, (∀ c ∈ c1, c.length = 1) ∧ (∀ c ∈ c2, c.length = 1) ∧
    ∃ s rest, (handshake sha1 (fun _ => true) testKey 5 [1, 2, 3] 4 c1 c2 []).2 = (.ok s, rest) := by
  have hB := sent_exactly 2 7
  let B := biguint2bytes (modpow 2 7 primeModulus)
  let bytes : Bytes → List Bytes := fun l => l.map fun x => [x]
  have hb : ∀ l, (bytes l).flatten = l := by intro l; induction l <;> simp_all [bytes]
  have hb0 : ∀ l, [] ∉ bytes l := by intro l; simp [bytes]
  have hb1 : ∀ l, ∀ c ∈ bytes l, c.length = 1 := by intro l; simp [bytes]
  let S := secretOf 5 (B ++ [9, 9])
  let c2 := bytes (xorAt (mseStream (sha1 (keyBText ++ S ++ testKey.bytes))) 0 (List.replicate 8 0 ++ [0, 0, 0, 2] ++ [0, 3] ++ [4, 5, 6] ++ [1]))
  obtain ⟨p1, p3, S', h1, -, h3, -, h5⟩ := handshake_completes sha1 sha1_length (fun _ => true) (fun _ => rfl) testKey 5 7 [1, 2, 3] [9, 9]
    [4, 5, 6] [1] B 4 hB (by decide) [0, 0, 0, 2] [0, 3] ⟨rfl, by decide⟩ ⟨rfl, by decide⟩ (bytes (B ++ [9, 9])) c2 (hb0 _) (hb0 _) (hb _)
  have hS : S' = S := by
    have hA : Sent96 (2 ^ 5 % msePrime) (p1.take 96) := h1
    have := (key_agreement 5 7 (p1.take 96) B S' hA hB).2 h3
    have h6 := secretOf_sent 5 (B ++ [9, 9])
    rw [List.take_left' hB.1] at h6
    exact sent96_inj this h6
  obtain ⟨unread, left, o, i, h6, -⟩ := h5 (by rw [hS]; exact hb _)
  exact ⟨_, c2, hb1 _, hb1 _, _, _, by rw [h6]⟩

/-- Two ends; the network cuts the bytes differently and one byte is still on its way: what arrives is what was written. -/
def testOut : Option (EncryptedStream × StreamTrace) :=
  streamRun (⟨.rc4 (Rc4.new [1, 2]) (Rc4.new [3]), [], []⟩, {})
    [.write [10, 11, 12], .flush [.wrote 1, .pending] .ready, .write [13], .flush [.wrote 2, .wrote 1] .ready]

def testIn (net : Bytes) : Option (EncryptedStream × StreamTrace) :=
  streamRun (⟨.rc4 (Rc4.new [3]) (Rc4.new [1, 2]), net.take 2, []⟩, {})
    [.read 1 none, .read 5 none, .read 5 none, .read 5 (some ((net.drop 2).take 1))]

example : (testOut.map fun r => (r.2.written, r.2.sent.length, r.1.writeBuffer)) = some ([10, 11, 12, 13], 4, []) := by decide +kernel
example : (testOut.bind fun r => (testIn r.2.sent).map fun q => (q.2.delivered, q.1.readBuffer)) = some ([10, 11, 12], []) := by
  decide +kernel

end examples

/-- **C33.** Of a set of crypto methods, exactly its members are taken to be offered. -/
theorem methodSet_offers (l : List CryptoMethod) (m : CryptoMethod) : Offers (methodSet l) m ↔ m ∈ l := by
  have key : ∀ (l : List CryptoMethod) (acc : BitVec 32),
      Offers (l.foldl (fun acc m => acc ||| m.code) acc) m ↔ Offers acc m ∨ m ∈ l := by
    intro l
    induction l with
    | nil => simp
    | cons x l ih =>
      intro acc
      rw [List.foldl_cons, ih]
      have : Offers (acc ||| x.code) m ↔ Offers acc m ∨ m = x := by
        cases m <;> cases x <;> simp [Offers, CryptoMethod.code]
      rw [this, List.mem_cons, or_assoc]
  have h0 : ¬ Offers 0 m := by cases m <;> simp [Offers]
  rw [methodSet, key]
  exact ⟨fun h => h.resolve_left h0, .inr⟩

example : Offers (methodSet [.rc4, .plaintext]) .rc4 ∧ Offers (methodSet [.rc4, .plaintext]) .plaintext ∧ ¬ Offers (methodSet [.plaintext]) .rc4 := by
  simp [methodSet_offers]

end Demag.Props
