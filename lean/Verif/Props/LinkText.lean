import Verif.Props.TrackerText
import Verif.Props.LogRead

/-!
# Messages about magnet links, downloads and DHT nodes tell what happened (C89)
-/

namespace Demag.Props

open Spec

/-! ### Magnet links that are refused -/

theorem trackerUrl_told {env : LogEnv} {e e' : TrackerUrlError} (h : errorChain (e.err env) = errorChain (e'.err env)) : e = e' := by
  cases e <;> cases e' <;> first | rfl | skip
  all_goals simp only [TrackerUrlError.err, chain_leaf, chain_caused] at h
  case unsupportedScheme.unsupportedScheme => rw [quoted_inj (List.append_cancel_left h)]
  all_goals exfalso
  case url.unsupportedScheme | unsupportedScheme.url => exact apart_ne (by decide +kernel) h
  case url.noHost | url.noUdpPort | unsupportedScheme.noHost | unsupportedScheme.noUdpPort =>
    exact apart_ne (by decide +kernel) (h.trans (List.append_nil _).symm)
  case noHost.url | noUdpPort.url | noHost.unsupportedScheme | noUdpPort.unsupportedScheme =>
    exact apart_ne (by decide +kernel) (h.symm.trans (List.append_nil _).symm)
  all_goals (revert h; decide +kernel)

theorem infoHash_told {env : LogEnv} {e e' : InfoHashError} (h : errorChain (e.err env) = errorChain (e'.err env)) : e = e' := by
  have e1 : "info hash is invalid hexadecimal".toList = "info hash is ".toList ++ 'i' :: "nvalid hexadecimal".toList := by decide +kernel
  have e2 : "info hash is invalid base32".toList = "info hash is ".toList ++ 'i' :: "nvalid base32".toList := by decide +kernel
  cases e <;> cases e' <;> first | rfl | skip
  all_goals simp only [InfoHashError.err, chain_leaf, chain_caused, List.append_assoc] at h
  case invalidLength.invalidLength => rw [(decimal_cancel (by decide) (by decide) (List.append_cancel_left h)).1]
  all_goals exfalso
  case invalidHex.invalidBase32 | invalidBase32.invalidHex => exact apart_ne (by decide +kernel) h
  case invalidHex.invalidLength => rw [e1, List.append_assoc] at h; exact decimal_head (by decide) (List.append_cancel_left h).symm
  case invalidLength.invalidHex => rw [e1, List.append_assoc] at h; exact decimal_head (by decide) (List.append_cancel_left h)
  case invalidBase32.invalidLength => rw [e2, List.append_assoc] at h; exact decimal_head (by decide) (List.append_cancel_left h).symm
  case invalidLength.invalidBase32 => rw [e2, List.append_assoc] at h; exact decimal_head (by decide) (List.append_cancel_left h)

theorem xt_told {env : LogEnv} {e e' : XtError} (h : errorChain (e.err env) = errorChain (e'.err env)) : e = e' := by
  cases e <;> cases e' <;> first | rfl | skip
  all_goals simp only [XtError.err, chain_leaf, chain_caused] at h
  case infoHash.infoHash => rw [infoHash_told (List.append_cancel_left (List.append_cancel_left h))]
  all_goals exfalso
  case infoHash.notUrn | infoHash.notBtih => exact apart_ne (by decide +kernel) (h.trans (List.append_nil _).symm)
  case notUrn.infoHash | notBtih.infoHash => exact apart_ne (by decide +kernel) (h.symm.trans (List.append_nil _).symm)
  all_goals (revert h; decide +kernel)

/-- The beginnings of the messages about magnet links. -/
def linkTags : List Text := ["invalid URI".toList, "not a magnet URI".toList, "magnet URI lacks \"xt\" parameter".toList,
  "invalid \"xt\" parameter".toList, "magnet URI has multiple \"xt\" parameters".toList, "invalid \"tr\" parameter".toList]

theorem linkTags_apart : linkTags.Pairwise fun a b => apart a b = true := by decide +kernel

/-- Which of them. -/
def linkKind : MagnetError → Nat
  | .url => 0
  | .notMagnet => 1
  | .noXt => 2
  | .invalidXt _ => 3
  | .multipleXt => 4
  | .invalidTracker _ => 5

theorem link_tag (env : LogEnv) (e : MagnetError) : ∃ a r, linkTags[linkKind e]? = some a ∧ errorChain (e.err env) = a ++ r := by
  cases e with
  | url | invalidXt | invalidTracker => exact ⟨_, _, rfl, by unfold MagnetError.err; simp only [chain_caused]; rfl⟩
  | notMagnet | noXt | multipleXt => exact ⟨_, [], rfl, by unfold MagnetError.err; simp only [chain_leaf]; rfl⟩

/-- **C89.** The message about a magnet link that is refused tells why. -/
theorem link_error_told {env : LogEnv} {e e' : MagnetError} (h : errorChain (e.err env) = errorChain (e'.err env)) : e = e' := by
  have hk : linkKind e = linkKind e' := by
    obtain ⟨a, r, h1, h2⟩ := link_tag env e
    obtain ⟨b, q, h3, h4⟩ := link_tag env e'
    rw [h2, h4] at h
    exact same_tag linkTags_apart h1 h3 h
  cases e <;> cases e' <;> first | (exfalso; simp [linkKind] at hk; done) | rfl | skip
  all_goals simp only [MagnetError.err, chain_caused] at h
  · rw [xt_told (List.append_cancel_left (List.append_cancel_left h))]
  · rw [trackerUrl_told (List.append_cancel_left (List.append_cancel_left h))]

/-- **C89.** The message about a file of magnet links that is refused tells why, and the line of the wrong link. -/
theorem links_error_told {env : LogEnv} {e e' : MagnetsFileError} :
    (LogLine.badMagnets e).text env = (LogLine.badMagnets e').text env ↔ e = e' := by
  have line : ∀ e, (LogLine.badMagnets e).text env = "Error reading magnets file: ".toList ++ errorChain (e.err env) := fun _ => rfl
  refine ⟨fun h => ?_, fun h => by rw [h]⟩
  rw [line, line] at h
  have h := List.append_cancel_left h
  cases e <;> cases e' <;> first | rfl | skip
  all_goals simp only [MagnetsFileError.err, chain_caused, List.append_assoc] at h
  case parse.parse =>
    obtain ⟨h1, h2⟩ := decimal_comma (by decide) (by decide) (List.append_cancel_left h)
    rw [h1, link_error_told h2]
  all_goals exact absurd h (apart_ne (by decide +kernel))

/-! ### Downloads -/

theorem downloadFailure_told {env : LogEnv} {e e' : DownloadFailure} (h : errorChain (e.err env) = errorChain (e'.err env)) : e = e' := by
  cases e <;> cases e' <;> first | rfl | skip
  all_goals simp only [DownloadFailure.err, chain_leaf, chain_caused] at h
  all_goals exfalso
  case dhtCreate.dhtDown =>
    exact apart_ne (by decide +kernel) ((List.append_cancel_left (List.append_cancel_left h)).trans (List.append_nil _).symm)
  case dhtDown.dhtCreate =>
    exact apart_ne (by decide +kernel) ((List.append_cancel_left (List.append_cancel_left h)).symm.trans (List.append_nil _).symm)
  case save.nothingFromPeers | dhtCreate.nothingFromPeers | dhtDown.nothingFromPeers =>
    exact apart_ne (by decide +kernel) (h.trans (List.append_nil _).symm)
  case nothingFromPeers.save | nothingFromPeers.dhtCreate | nothingFromPeers.dhtDown =>
    exact apart_ne (by decide +kernel) (h.symm.trans (List.append_nil _).symm)
  all_goals exact apart_ne (by decide +kernel) h

/-- **C89.** The messages about failed downloads tell which magnet link has failed (in a batch) and why. -/
theorem download_error_told {env : LogEnv} (m m' : Magnet) (e e' : DownloadFailure) :
    ((LogLine.getFailed e).text env = (LogLine.getFailed e').text env ↔ e = e') ∧
    ((LogLine.batchFailed m e).text env = (LogLine.batchFailed m' e').text env ↔ SameLink m m' ∧ e = e') := by
  have l1 : ∀ e, (LogLine.getFailed e).text env = "Failed to download torrent file: ".toList ++ errorChain (e.err env) := fun _ => rfl
  have l2 : ∀ m e, (LogLine.batchFailed m e).text env = "Failed to download torrent file for ".toList ++ m.text env.plain ++ ": ".toList ++
    errorChain (e.err env) := fun _ _ => rfl
  refine ⟨⟨fun h => ?_, fun h => by rw [h]⟩, fun h => ?_, fun h => ?_⟩
  · rw [l1, l1] at h
    exact downloadFailure_told (List.append_cancel_left h)
  · simp only [l2, List.append_assoc] at h
    obtain ⟨h1, h2⟩ := link_cancel (List.append_cancel_left h)
    exact ⟨h1, downloadFailure_told (List.append_cancel_left h2)⟩
  · rw [l2, l2, link_text h.1, h.2]

/-! ### Peers -/

/-- **C89.** The message about a peer that has not given the metadata tells which magnet link and which peer it is, and what has failed. -/
theorem peer_line_told {env : LogEnv} (hb : BendyApart env) (m m' : Magnet) (p p' : Peer) (e e' : PeerError) (x y : MseError)
    (hp : ¬ IsPanic e) (hp' : ¬ IsPanic e') :
    (LogLine.peerFailed m p e x).text env = (LogLine.peerFailed m' p' e' y).text env ↔
      SameLink m m' ∧ p.address = p'.address ∧ SameFailure e x e' y := by
  have line : ∀ m p e x, (LogLine.peerFailed m p e x).text env = "Failed to fetch info for ".toList ++ m.text env.plain ++ " from ".toList ++
    p.text ++ ": ".toList ++ errorChain (e.err env x) := fun _ _ _ _ => rfl
  constructor
  · intro h
    simp only [line, List.append_assoc] at h
    obtain ⟨h1, h2⟩ := link_cancel (List.append_cancel_left h)
    obtain ⟨h3, h4⟩ := peerText_cancel (List.append_cancel_left h2)
    exact ⟨h1, h3, (peer_error_told hb e e' x y hp hp').1 (List.append_cancel_left h4)⟩
  · rintro ⟨h1, h2, h3⟩
    rw [line, line, link_text h1, peerText_eq h2, (peer_error_told hb e e' x y hp hp').2 h3]

/-! ### DHT nodes -/

/-- **C89.** The message about a reply of a node that makes no sense tells why. -/
theorem reply_error_told {env : LogEnv} (hb : BendyApart env) (e e' : ResponseError) :
    errorChain (e.err env) = errorChain (e'.err env) ↔
      e = e' ∨ ∃ r r', e = .rpc r ∧ e' = .rpc r' ∧ r.code = r'.code ∧ r.message = r'.message := by
  constructor
  · intro h
    cases e <;> cases e' <;> first | exact .inl rfl | skip
    all_goals simp only [ResponseError.err, chain_leaf, chain_caused] at h
    case bencode.bencode => rw [unbencode_told hb (List.append_cancel_left (List.append_cancel_left h))]; exact .inl rfl
    case rpc.rpc => exact .inr ⟨_, _, rfl, rfl, errorResponse_inj (List.append_cancel_left (List.append_cancel_left h))⟩
    all_goals exfalso
    case bencode.query | rpc.query => exact apart_ne (by decide +kernel) (h.trans (List.append_nil _).symm)
    case query.bencode | query.rpc => exact apart_ne (by decide +kernel) (h.symm.trans (List.append_nil _).symm)
    all_goals exact apart_ne (by decide +kernel) h
  · rintro (rfl | ⟨r, r', rfl, rfl, h1, h2⟩)
    · rfl
    · simp only [ResponseError.err, chain_caused, chain_leaf, ErrorResponse.text, h1, h2]

/-! ### What was expected, and what came instead -/

/-- **C89.** An error that says what was expected and what came instead does not swap the two: the info hash of the peer's handshake, the length of a
piece of metadata, the hash of the metadata, and the action and the transaction ID of a UDP tracker's reply. -/
theorem expected_told (env : LogEnv) (x : MseError) :
    (∀ e g, SaysExpected (errorChain ((PeerError.infoHashMismatch e g).err env x)) e.displayText g.displayText) ∧
    (∀ i e g, SaysExpected (errorChain ((PeerError.infoPush (.length i e g)).err env x)) (decimal e) (decimal g)) ∧
    (∀ e g, SaysExpected (errorChain ((PeerError.infoBuild (.digest e g)).err env x)) e.displayText (g.flatMap hexByte)) ∧
    (∀ e g, SaysExpected (errorChain (getterErr env (.inner (.udp (.badAction e g))))) (decimal e.toNat) (decimal g.toNat)) ∧
    (∀ e g, SaysExpected (errorChain (getterErr env (.inner (.udp (.xactionMismatch e g))))) (hexAlt e.toNat) (hexAlt g.toNat)) := by
  have s1 : "peer sent wrong info hash in handshake; expected ".toList = "peer sent wrong info hash in handshake; ".toList ++ "expected ".toList := by
    decide +kernel
  have s2 : ": expected ".toList = ": ".toList ++ "expected ".toList := by decide +kernel
  have s3 : "info hash mismatch: expected ".toList = "info hash mismatch: ".toList ++ "expected ".toList := by decide +kernel
  have s4 : "UDP tracker sent response with unexpected or unsupported action; expected ".toList =
    "UDP tracker sent response with unexpected or unsupported action; ".toList ++ "expected ".toList := by decide +kernel
  have s5 : "response from UDP tracker did not contain expected transaction ID; expected ".toList =
    "response from UDP tracker did not contain expected transaction ID; ".toList ++ "expected ".toList := by decide +kernel
  refine ⟨fun e g => ?_, fun i e g => ?_, fun e g => ?_, fun e g => ?_, fun e g => ?_⟩
  · exact ⟨"peer sent wrong info hash in handshake; ".toList, by simp only [PeerError.err, chain_leaf, s1]⟩
  · exact ⟨"wrong length for metadata piece ".toList ++ decimal i ++ ": ".toList, by
      simp only [PeerError.err, PushError.err, chain_leaf, s2, ← List.append_assoc]⟩
  · exact ⟨"peer sent invalid torrent metadata".toList ++ ": ".toList ++ "info hash mismatch: ".toList, by
      simp only [PeerError.err, BuildError.err, chain_leaf, chain_caused, s3, ← List.append_assoc]⟩
  · exact ⟨"UDP tracker sent response with unexpected or unsupported action; ".toList, by
      simp only [getterErr, AskError.err, UdpError.err, chain_leaf, s4]⟩
  · exact ⟨"response from UDP tracker did not contain expected transaction ID; ".toList, by
      simp only [getterErr, AskError.err, UdpError.err, chain_leaf, s5]⟩

/-- **C89.** So with the numbers of pieces and the sizes of metadata: first comes what was asked for, or said first. -/
theorem asked_told (env : LogEnv) (x : MseError) (e g : BitVec 32) :
    (∃ a, "request for metadata piece ".toList ++ decimal e.toNat ++ a = errorChain ((PeerError.wrongPiece e g).err env x)) ∧
    (∃ a, a ++ "message for piece ".toList ++ decimal g.toNat = errorChain ((PeerError.wrongPiece e g).err env x)) ∧
    (∃ a b, a ++ decimal e.toNat ++ " in extended handshake".toList ++ b = errorChain ((PeerError.sizeMismatch e g).err env x)) ∧
    (∃ a, a ++ decimal g.toNat ++ " in metadata data message".toList = errorChain ((PeerError.sizeMismatch e g).err env x)) := by
  have s1 : " was replied to with message for piece ".toList = " was replied to with ".toList ++ "message for piece ".toList := by decide +kernel
  have s2 : " in extended handshake but as ".toList = " in extended handshake".toList ++ " but as ".toList := by decide +kernel
  refine ⟨⟨" was replied to with message for piece ".toList ++ decimal g.toNat, ?_⟩,
    ⟨"request for metadata piece ".toList ++ decimal e.toNat ++ " was replied to with ".toList, ?_⟩,
    ⟨"peer declared total metadata size as ".toList, " but as ".toList ++ decimal g.toNat ++ " in metadata data message".toList, ?_⟩,
    ⟨"peer declared total metadata size as ".toList ++ decimal e.toNat ++ " in extended handshake but as ".toList, ?_⟩⟩
  · simp only [PeerError.err, chain_leaf, List.append_assoc]
  · simp only [PeerError.err, chain_leaf, s1, ← List.append_assoc]
  · simp only [PeerError.err, chain_leaf, s2, ← List.append_assoc]
  · simp only [PeerError.err, chain_leaf]

/-! ### Examples -/

theorem sampleLogEnv_apart : BendyApart sampleLogEnv := by unfold BendyApart; decide +kernel

/-- Two failures of one kind that only the number tells apart. -/
example : errorChain ((PeerError.message (.unknown 5#8)).err sampleLogEnv .send) ≠
    errorChain ((PeerError.message (.unknown 6#8)).err sampleLogEnv .send) := fun h => by
  cases (peer_error_told sampleLogEnv_apart (.message (.unknown 5#8)) (.message (.unknown 6#8)) .send .send (fun h => h) (fun h => h)).1 h with
  | broken h => cases h

/-- A tracker accepted by the program, and its messages about the start and the end of a torrent's download. -/
example : AcceptedBy nameEnv (.udp ⟨"tracker.example".toList, 80#16, []⟩) ∧ ∀ m,
    (LogLine.announcing .started (.udp ⟨"tracker.example".toList, 80#16, []⟩) m).text sampleLogEnv ≠
      (LogLine.announcing .stopped (.udp ⟨"tracker.example".toList, 80#16, []⟩) m).text sampleLogEnv := by
  have h : AcceptedBy nameEnv (.udp ⟨"tracker.example".toList, 80#16, []⟩) :=
    ⟨"udp://tracker.example:80".toList, (except_toOption _ _).1 (by decide +kernel)⟩
  refine ⟨h, fun m e => ?_⟩
  cases (tracker_line_told sampleLogEnv_apart nameEnv_ok rfl rfl h h).1 e with
  | announcing _ h => cases h.2 rfl

example : errorChain ((MagnetsFileError.parse 3 (.invalidTracker (.unsupportedScheme "ftp".toList))).err sampleLogEnv) =
    "invalid magnet link on line 3: invalid \"tr\" parameter: unsupported tracker URL scheme: \"ftp\"".toList := by decide +kernel

example : errorChain ((PeerError.infoPush (.length 2 16384 100)).err sampleLogEnv .send) =
    "wrong length for metadata piece 2: expected 16384, got 100".toList := by decide +kernel

end Demag.Props
