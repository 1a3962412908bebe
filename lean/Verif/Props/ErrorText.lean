import Verif.Spec.ErrorText
import Verif.Props.LogFaithful
import Verif.Props.Disk

/-!
# C89: an error message tells what went wrong
-/

namespace Demag.Props

open Spec

theorem chain_leaf (t : Text) : errorChain (.leaf t) = t := List.append_nil _

theorem sources_chain (e : Err) : sourcesLoop e = ": ".toList ++ errorChain e := by
  cases e with
  | leaf t => rw [chain_leaf]; rfl
  | caused t s => exact List.append_assoc _ _ _

theorem chain_caused (t : Text) (s : Err) : errorChain (.caused t s) = t ++ (": ".toList ++ errorChain s) := by
  rw [← sources_chain]
  rfl

/-- Neither text begins with the other. -/
def apart (a b : Text) : Bool := !a.isPrefixOf b && !b.isPrefixOf a

theorem apart_ne {a b r q : Text} (h : apart a b = true) : a ++ r ≠ b ++ q := by
  intro e
  simp only [apart, Bool.and_eq_true, Bool.not_eq_true', ← Bool.not_eq_true, List.isPrefixOf_iff_prefix] at h
  rcases List.prefix_or_prefix_of_prefix (List.prefix_append a r) (e ▸ List.prefix_append b q) with h' | h'
  · exact h.1 h'
  · exact h.2 h'

theorem same_tag {tags : List Text} (hp : tags.Pairwise fun a b => apart a b = true) {i j : Nat} {a b r q : Text} (hi : tags[i]? = some a)
    (hj : tags[j]? = some b) (h : a ++ r = b ++ q) : i = j := by
  rcases Nat.lt_trichotomy i j with hlt | rfl | hlt
  · obtain ⟨h1, e1⟩ := List.getElem?_eq_some_iff.1 hi
    obtain ⟨h2, e2⟩ := List.getElem?_eq_some_iff.1 hj
    exact absurd h (apart_ne (by rw [← e1, ← e2]; exact List.pairwise_iff_getElem.1 hp i j h1 h2 hlt))
  · rfl
  · obtain ⟨h1, e1⟩ := List.getElem?_eq_some_iff.1 hi
    obtain ⟨h2, e2⟩ := List.getElem?_eq_some_iff.1 hj
    exact absurd h.symm (apart_ne (by rw [← e1, ← e2]; exact List.pairwise_iff_getElem.1 hp j i h2 h1 hlt))

/-! ### Errors of peers -/

/-- The beginnings of the messages about peers. -/
def peerTags : List Text := ["peer requires encryption".toList, "could not connect to peer".toList, "timed out trying to connect".toList,
  "error sending message to peer".toList, "error receiving message from peer".toList, "peer sent wrong info hash in handshake; expected ".toList,
  "peer does not support BEP 10 extensions".toList, "peer did not send extended handshake".toList, "peer does not support sending metadata".toList,
  "peer suddenly disconnected".toList, "peer sent handshake with invalid header".toList, "peer sent handshake with invalid length".toList,
  "peer sent invalid message".toList, "peer sent extended handshake with inconsistent \"m\" dict".toList,
  "peer did not report info size in extended handshake".toList, "metadata size of ".toList, "too many metadata pieces fetched".toList,
  "wrong length for metadata piece ".toList, "peer sent invalid torrent metadata".toList, "peer declared total metadata size as ".toList,
  "request for metadata piece ".toList, "peer sent unexpected message: ".toList,
  "initial crypto handshake packet from server had invalid length: ".toList, "received invalid verification constant".toList,
  "server selected ".toList]

theorem peerTags_apart : peerTags.Pairwise fun a b => apart a b = true := by decide +kernel

/-- Which of them. -/
def peerKind (x : MseError) : PeerError → Nat
  | .cantRequireCrypto => 0
  | .connect => 1
  | .connectTimeout => 2
  | .send => 3
  | .recv _ => 4
  | .infoHashMismatch _ _ => 5
  | .noBep10 => 6
  | .noExtendedHandshake => 7
  | .noMetadataExt => 8
  | .disconnect => 9
  | .handshake .invalidHeader => 10
  | .handshake (.length _) => 11
  | .cryptoHandshake => match x with
    | .packet2Len _ => 22
    | .vcNotZero => 23
    | .selectNotSingle _ => 24
    | .unknownMethod _ => 24
    | .unexpectedSelection _ => 24
    | .send => 3
    | .recv => 4
    | .disconnect => 9
  | .message _ => 12
  | .registry _ => 13
  | .noMetadataSize => 14
  | .infoConstruct _ => 15
  | .infoPush .tooManyPieces => 16
  | .infoPush _ => 17
  | .infoBuild _ => 18
  | .sizeMismatch _ _ => 19
  | .wrongPiece _ _ => 20
  | .infoRequestRejected _ => 20
  | .unexpected _ => 21

/-- The message of a failure that is not a panic. -/
theorem peer_tag (env : LogEnv) (x : MseError) (e : PeerError) (hp : ¬ IsPanic e) :
    ∃ a r, peerTags[peerKind x e]? = some a ∧ errorChain (e.err env x) = a ++ r := by
  have fin : ∀ {k : Nat} {a : Text} (t : Text), peerTags[k]? = some a → a.isPrefixOf t = true → ∃ b r, peerTags[k]? = some b ∧ t = b ++ r :=
    fun t h hp => by
      obtain ⟨r, hr⟩ := List.isPrefixOf_iff_prefix.1 hp
      exact ⟨_, r, h, hr.symm⟩
  cases e with
  | infoConstruct e => cases e with
    | tooLarge n => exact ⟨_, _, rfl, by unfold PeerError.err ConstructError.err; simp only [chain_leaf, List.append_assoc]; rfl⟩
    | panic => exact absurd trivial hp
  | infoPush e => cases e with
    | tooManyPieces => exact ⟨_, [], rfl, by unfold PeerError.err PushError.err; simp only [chain_leaf]; rfl⟩
    | length => exact ⟨_, _, rfl, by unfold PeerError.err PushError.err; simp only [chain_leaf, List.append_assoc]; rfl⟩
    | panic => exact absurd trivial hp
  | handshake e => cases e with
    | invalidHeader => exact ⟨_, [], rfl, by unfold PeerError.err HandshakeError.err; simp only [chain_leaf]; rfl⟩
    | length => exact ⟨_, _, rfl, by unfold PeerError.err HandshakeError.err; simp only [chain_caused]; rfl⟩
  | cryptoHandshake => cases x with
    | packet2Len | selectNotSingle | unknownMethod | unexpectedSelection =>
      exact ⟨_, _, rfl, by unfold PeerError.err MseError.err; simp only [chain_leaf, List.append_assoc]; rfl⟩
    | send | recv => exact ⟨_, _, rfl, by unfold PeerError.err MseError.err; simp only [chain_caused]; rfl⟩
    | vcNotZero => unfold PeerError.err MseError.err; rw [chain_leaf]; exact fin _ rfl (by decide +kernel)
    | disconnect => unfold PeerError.err MseError.err; rw [chain_leaf]; exact fin _ rfl (by decide +kernel)
  | cantRequireCrypto | connectTimeout | noBep10 | noExtendedHandshake | noMetadataExt | disconnect | noMetadataSize =>
    unfold PeerError.err; rw [chain_leaf]; exact fin _ rfl (by decide +kernel)
  | connect | send | recv | message | registry | infoBuild => exact ⟨_, _, rfl, by unfold PeerError.err; simp only [chain_caused]; rfl⟩
  | infoHashMismatch | sizeMismatch | wrongPiece | infoRequestRejected | unexpected =>
    exact ⟨_, _, rfl, by unfold PeerError.err; simp only [chain_leaf, List.append_assoc]; rfl⟩

/-- What the bencode library says of data that is not bencode is not what the program says of missing and of superfluous data. -/
def BendyApart (env : LogEnv) : Prop :=
  errorChain env.bendy ≠ "no data in bencode packet".toList ∧ errorChain env.bendy ≠ "trailing bytes after bencode structure".toList

theorem packetError_told {e e' : PacketError} (h : errorChain e.err = errorChain e'.err) : e = e' := by
  cases e <;> cases e' <;> first | rfl | (revert h; decide +kernel)

theorem unbencode_told {env : LogEnv} (hb : BendyApart env) {e e' : UnbencodeError} (h : errorChain (e.err env) = errorChain (e'.err env)) : e = e' := by
  cases e <;> cases e' <;> first | rfl | exact absurd h hb.1 | exact absurd h.symm hb.1 | exact absurd h hb.2 | exact absurd h.symm hb.2 |
    (revert h; simp only [UnbencodeError.err, chain_leaf]; decide +kernel)

theorem hexNat_inj {n m : Nat} (h : hexNat n = hexNat m) : n = m := by
  have h1 := readBraced_hexNat n 0 []
  have h2 := readBraced_hexNat m 0 []
  rw [h, h2] at h1
  simpa using (Option.some.inj h1).symm

theorem hexAlt4_table : ∀ n, n < 256 → ∀ m, m < 256 → hexAlt4 n = hexAlt4 m → n = m := by
  intro n hn m hm h
  have e : ∀ n, n < 256 → (hexAlt4 n).filter (· != ' ') = hexAlt n := by decide +kernel
  have h' := congrArg (List.filter (· != ' ')) h
  rw [e n hn, e m hm] at h'
  exact hexNat_inj (List.cons.inj (List.cons.inj h').2).2

theorem hexAlt4_length : ∀ n, n < 256 → (hexAlt4 n).length = 4 := by decide +kernel

theorem bv8_eq {a b : BitVec 8} (h : a.toNat = b.toNat) : a = b := BitVec.eq_of_toNat_eq h
theorem bv32_eq {a b : BitVec 32} (h : a.toNat = b.toNat) : a = b := BitVec.eq_of_toNat_eq h

theorem messageError_told {env : LogEnv} (hb : BendyApart env) {e e' : MessageError} (h : errorChain (e.err env) = errorChain (e'.err env)) :
    e = e' := by
  cases e <;> cases e' <;> simp only [MessageError.err, chain_leaf, chain_caused, List.append_assoc] at h
  case unknown.unknown => rw [bv8_eq (one_number h)]
  case unknownExtended.unknownExtended => rw [bv8_eq (one_number h)]
  case extendedHandshake.extendedHandshake => rw [unbencode_told hb (List.append_cancel_left (List.append_cancel_left h))]
  case metadata.metadata => rw [unbencode_told hb (List.append_cancel_left (List.append_cancel_left h))]
  case length.length t e t' e' =>
    have h := List.append_cancel_left h
    obtain ⟨h1, h2⟩ := List.append_inj h (by rw [hexAlt4_length _ t.isLt, hexAlt4_length _ t'.isLt])
    rw [bv8_eq (hexAlt4_table _ t.isLt _ t'.isLt h1), packetError_told (List.append_cancel_left (List.append_cancel_left h2))]
  all_goals exact absurd h (apart_ne (by decide +kernel))

theorem registry_told {e e' : RegistryError Bep10Extension} (h : errorChain (registryErr e) = errorChain (registryErr e')) : e = e' := by
  have key : ∀ c : BitVec 8, "extended message ID 0 listed in \"m\"".toList ≠
      "extended message ID ".toList ++ (decimal c.toNat ++ " listed in \"m\" more than once".toList) := by
    intro c h
    have e : "extended message ID 0 listed in \"m\"".toList = "extended message ID ".toList ++ (decimal 0 ++ " listed in \"m\"".toList) := by
      decide +kernel
    rw [e] at h
    obtain ⟨-, h2⟩ := decimal_cancel (by decide) (by decide) (List.append_cancel_left h)
    revert h2
    decide +kernel
  cases e <;> cases e' <;> simp only [registryErr, chain_leaf, List.append_assoc] at h
  case handshake.handshake => rfl
  case handshake.code c => exact absurd h (key c)
  case code.handshake c => exact absurd h.symm (key c)
  case code.code => rw [bv8_eq (decimal_cancel (by decide) (by decide) (List.append_cancel_left h)).1]
  case ext.ext e e' => cases e; cases e'; rfl
  case handshake.ext => exact absurd h (apart_ne (a := "exten".toList ++ "ded".toList) (r := " message ID 0 listed in \"m\"".toList) (by decide +kernel))
  case ext.handshake => exact absurd h.symm (apart_ne (a := "exten".toList ++ "ded".toList) (r := " message ID 0 listed in \"m\"".toList) (by decide +kernel))
  all_goals exact absurd h (apart_ne (by decide +kernel))

theorem digest_told {a b : Bytes} (h : a.flatMap hexByte = b.flatMap hexByte) : a = b := by
  induction a generalizing b with
  | nil => cases b with
    | nil => rfl
    | cons => cases h
  | cons x a ih => cases b with
    | nil => cases h
    | cons y b =>
      simp only [List.flatMap_cons] at h
      obtain ⟨h1, h2⟩ := List.append_inj h rfl
      rw [hexByte_inj h1, ih h2]

theorem bencodeDict_told {e e' : BencodeDictError} (h : errorChain e.err = errorChain e'.err) : e = e' := by
  cases e <;> cases e' <;> first | rfl | (revert h; decide +kernel)

theorem build_told {e e' : BuildError} (h : errorChain e.err = errorChain e'.err) : e = e' := by
  have data : ∀ e : BencodeDictError, ∃ r, errorChain e.err = "data ".toList ++ r := by
    intro e; cases e <;> exact ⟨_, (chain_leaf _).trans rfl⟩
  cases e <;> cases e' <;> simp only [BuildError.err, chain_leaf, List.append_assoc] at h
  case bencode.bencode e e' => rw [bencodeDict_told h]
  case notFinished.notFinished => rw [(decimal_cancel (by decide) (by decide) (List.append_cancel_left h)).1]
  case digest.digest e g e' g' =>
    obtain ⟨h1, h2⟩ := List.append_inj (List.append_cancel_left h) (by rw [displayText_length, displayText_length])
    rw [displayText_injective _ _ h1, digest_told (List.append_cancel_left h2)]
  case bencode.notFinished e _ => obtain ⟨r, hr⟩ := data e; rw [hr] at h; exact absurd h (apart_ne (by decide +kernel))
  case bencode.digest e _ _ => obtain ⟨r, hr⟩ := data e; rw [hr] at h; exact absurd h (apart_ne (by decide +kernel))
  case notFinished.bencode e => obtain ⟨r, hr⟩ := data e; rw [hr] at h; exact absurd h (apart_ne (by decide +kernel))
  case digest.bencode e => obtain ⟨r, hr⟩ := data e; rw [hr] at h; exact absurd h (apart_ne (by decide +kernel))
  all_goals exact absurd h (apart_ne (by decide +kernel))

theorem decimal_head {n : Nat} {r q : Text} {c : Char} (hc : c.isDigit = false) (h : decimal n ++ r = c :: q) : False := by
  have hd := decimal_isDecimal n
  cases hx : decimal n with
  | nil => exact hd.1 hx
  | cons d t =>
    rw [hx] at h
    have := hd.2.1 d (by rw [hx]; exact List.mem_cons_self)
    rw [(List.cons.inj h).1, hc] at this
    cases this

theorem selected_told {env : LogEnv} {x y : MseError} (hx : peerKind x .cryptoHandshake = 24) (hy : peerKind y .cryptoHandshake = 24)
    (h : errorChain (x.err env) = errorChain (y.err env)) : x = y := by
  have e1 : "server selected unknown crypto method ".toList = "server selected ".toList ++ 'u' :: "nknown crypto method ".toList := by decide +kernel
  have e2 : "server selected crypto method ".toList = "server selected ".toList ++ 'c' :: "rypto method ".toList := by decide +kernel
  cases x <;> first | (exfalso; simp [peerKind] at hx; done) | skip
  all_goals cases y <;> first | (exfalso; simp [peerKind] at hy; done) | skip
  all_goals simp only [MseError.err, chain_leaf, List.append_assoc] at h
  case selectNotSingle.selectNotSingle => rw [(decimal_cancel (by decide) (by decide) (List.append_cancel_left h)).1]
  case unknownMethod.unknownMethod => rw [bv32_eq (hexNat_inj (List.cons.inj (List.cons.inj (List.append_cancel_left h)).2).2)]
  case unexpectedSelection.unexpectedSelection m m' => cases m <;> cases m' <;> first | rfl | (revert h; decide +kernel)
  case unknownMethod.unexpectedSelection => exact absurd h (apart_ne (by decide +kernel))
  case unexpectedSelection.unknownMethod => exact absurd h (apart_ne (by decide +kernel))
  case selectNotSingle.unknownMethod => rw [e1, List.append_assoc] at h; exact (decimal_head (by decide) (List.append_cancel_left h)).elim
  case selectNotSingle.unexpectedSelection => rw [e2, List.append_assoc] at h; exact (decimal_head (by decide) (List.append_cancel_left h)).elim
  case unknownMethod.selectNotSingle => rw [e1, List.append_assoc] at h; exact (decimal_head (by decide) (List.append_cancel_left h).symm).elim
  case unexpectedSelection.selectNotSingle => rw [e2, List.append_assoc] at h; exact (decimal_head (by decide) (List.append_cancel_left h).symm).elim

theorem crypto_told {env : LogEnv} {x y : MseError} (hk : peerKind x .cryptoHandshake = peerKind y .cryptoHandshake)
    (h : errorChain (x.err env) = errorChain (y.err env)) : x = y := by
  by_cases hx : peerKind x .cryptoHandshake = 24
  · exact selected_told hx (hk ▸ hx) h
  · cases x <;> first | exact absurd rfl hx | skip
    all_goals cases y <;> first | (exfalso; simp [peerKind] at hk; done) | rfl | skip
    simp only [MseError.err, chain_leaf, List.append_assoc] at h
    rw [(decimal_cancel (by decide) (by decide) (List.append_cancel_left h)).1]

/-- **C89.** The message about a failure with a peer tells what has failed: two failures are told alike only if they are the same. -/
theorem peer_error_told {env : LogEnv} (hb : BendyApart env) (e e' : PeerError) (x y : MseError) (hp : ¬ IsPanic e) (hp' : ¬ IsPanic e') :
    errorChain (e.err env x) = errorChain (e'.err env y) ↔ SameFailure e x e' y := by
  constructor
  · intro h
    have hk : peerKind x e = peerKind y e' := by
      obtain ⟨a, r, h1, h2⟩ := peer_tag env x e hp
      obtain ⟨b, q, h3, h4⟩ := peer_tag env y e' hp'
      rw [h2, h4] at h
      exact same_tag peerTags_apart h1 h3 h
    by_cases hc : e = .cryptoHandshake ∧ e' = .cryptoHandshake
    · obtain ⟨rfl, rfl⟩ := hc
      rw [crypto_told hk h]
      exact .crypto
    cases e <;> cases e' <;> first
      | exact absurd ⟨rfl, rfl⟩ hc
      | (exfalso; simp [peerKind] at hk; done)
      | (exact .same (by intro h; cases h; done))
      | (exfalso; (try cases ‹HandshakeError›) <;> (try cases ‹PushError›) <;> simp [peerKind] at hk; done)
      | (exfalso; (try cases ‹HandshakeError›) <;> (try cases ‹PushError›) <;> cases x <;> simp [peerKind] at hk; done)
      | (exfalso; (try cases ‹HandshakeError›) <;> (try cases ‹PushError›) <;> cases y <;> simp [peerKind] at hk; done)
      | skip
    case neg.send.cryptoHandshake => cases y <;> first | exact .broken rfl rfl | (exfalso; simp [peerKind] at hk; done)
    case neg.recv.cryptoHandshake => cases y <;> first | exact .broken rfl rfl | (exfalso; simp [peerKind] at hk; done)
    case neg.disconnect.cryptoHandshake => cases y <;> first | exact .broken rfl rfl | (exfalso; simp [peerKind] at hk; done)
    case neg.cryptoHandshake.send => cases x <;> first | exact .broken rfl rfl | (exfalso; simp [peerKind] at hk; done)
    case neg.cryptoHandshake.recv => cases x <;> first | exact .broken rfl rfl | (exfalso; simp [peerKind] at hk; done)
    case neg.cryptoHandshake.disconnect => cases x <;> first | exact .broken rfl rfl | (exfalso; simp [peerKind] at hk; done)
    case neg.recv.recv => exact .broken rfl rfl
    all_goals simp only [PeerError.err, chain_leaf, chain_caused, List.append_assoc] at h
    case neg.infoHashMismatch.infoHashMismatch =>
      obtain ⟨h1, h2⟩ := List.append_inj (List.append_cancel_left h) (by rw [displayText_length, displayText_length])
      rw [displayText_injective _ _ h1, displayText_injective _ _ (List.append_cancel_left h2)]
      exact .same (by intro h; cases h)
    case neg.handshake.handshake e e' =>
      cases e <;> cases e' <;> first | (exfalso; simp [peerKind] at hk; done) | (exact .same (by intro h; cases h; done)) | skip
      simp only [HandshakeError.err, chain_caused] at h
      rw [packetError_told (List.append_cancel_left (List.append_cancel_left h))]
      exact .same (by intro h; cases h)
    case neg.message.message =>
      rw [messageError_told hb (List.append_cancel_left (List.append_cancel_left h))]
      exact .same (by intro h; cases h)
    case neg.registry.registry =>
      rw [registry_told (List.append_cancel_left (List.append_cancel_left h))]
      exact .same (by intro h; cases h)
    case neg.infoConstruct.infoConstruct e e' =>
      cases e with
      | panic => exact absurd trivial hp
      | tooLarge n => cases e' with
        | panic => exact absurd trivial hp'
        | tooLarge m =>
          simp only [ConstructError.err, chain_leaf, List.append_assoc] at h
          rw [bv32_eq (decimal_comma (by decide) (by decide) (List.append_cancel_left h)).1]
          exact .same (by intro h; cases h)
    case neg.infoPush.infoPush e e' =>
      cases e with
      | panic => exact absurd trivial hp
      | tooManyPieces => cases e' with
        | panic => exact absurd trivial hp'
        | tooManyPieces => exact .same (by intro h; cases h)
        | length => simp [peerKind] at hk
      | length i a b => cases e' with
        | panic => exact absurd trivial hp'
        | tooManyPieces => simp [peerKind] at hk
        | length j c d =>
          simp only [PushError.err, chain_leaf, List.append_assoc] at h
          obtain ⟨h1, h2⟩ := decimal_comma (by decide) (by decide) (List.append_cancel_left h)
          obtain ⟨h3, h4⟩ := decimal_comma (by decide) (by decide) h2
          rw [h1, h3, decimal_inj h4]
          exact .same (by intro h; cases h)
    case neg.infoBuild.infoBuild =>
      rw [build_told (List.append_cancel_left (List.append_cancel_left h))]
      exact .same (by intro h; cases h)
    case neg.sizeMismatch.sizeMismatch =>
      obtain ⟨h1, h2⟩ := decimal_comma (by decide) (by decide) (List.append_cancel_left h)
      obtain ⟨h3, -⟩ := decimal_cancel (by decide) (by decide) h2
      rw [bv32_eq h1, bv32_eq h3]
      exact .same (by intro h; cases h)
    case neg.wrongPiece.wrongPiece =>
      obtain ⟨h1, h2⟩ := decimal_comma (by decide) (by decide) (List.append_cancel_left h)
      rw [bv32_eq h1, bv32_eq (decimal_inj h2)]
      exact .same (by intro h; cases h)
    case neg.infoRequestRejected.infoRequestRejected =>
      obtain ⟨h1, h2⟩ := decimal_cancel (by decide) (by decide) (List.append_cancel_left h)
      rw [bv32_eq h1]
      exact .same (by intro h; cases h)
    case neg.wrongPiece.infoRequestRejected =>
      obtain ⟨-, h2⟩ := decimal_cancel (fun c hc => by cases hc; decide) (by decide) (List.append_cancel_left h)
      exact absurd (h2.trans (List.append_nil _).symm) (apart_ne (by decide +kernel))
    case neg.infoRequestRejected.wrongPiece =>
      obtain ⟨-, h2⟩ := decimal_cancel (by decide) (fun c hc => by cases hc; decide) (List.append_cancel_left h)
      exact absurd (h2.symm.trans (List.append_nil _).symm) (apart_ne (by decide +kernel))
    case neg.unexpected.unexpected => exact .unexpected ((message_log_faithful _ _ _).1 (List.append_cancel_left h))
  · intro h
    cases h with
    | same h => cases e <;> first | rfl | exact absurd rfl h
    | crypto => rfl
    | broken h1 h2 =>
      have key : ∀ (e : PeerError) (x : MseError) (b : Break), brokenBy e x = some b → errorChain (e.err env x) =
          errorChain (match b with
            | .sending => .caused "error sending message to peer".toList env.io
            | .receiving => .caused "error receiving message from peer".toList env.io
            | .closing => .leaf "peer suddenly disconnected".toList) := by
        intro e x b hb
        cases e <;> first | (cases hb; rfl) | (cases x <;> first | (cases hb; rfl) | cases hb) | cases hb
      rw [key _ _ _ h1, key _ _ _ h2]
    | unexpected h => simp only [PeerError.err, chain_leaf, message_same h]

end Demag.Props
