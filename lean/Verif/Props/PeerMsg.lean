import Verif.Lemmas.Peer

/-!
# C03: core peer messages; C04: handshake
-/

namespace Demag.Props

open Demag Spec

/-- **C03.** The encoder produces the standard layout. -/
theorem coreMessage_encode_spec (m : CoreMessage) : CoreLayout m m.encode := by
  cases m with
  | keepalive => exact .keepalive
  | choke => exact .choke
  | unchoke => exact .unchoke
  | interested => exact .interested
  | notInterested => exact .notInterested
  | have' p => exact .have' ((field_32 _ _).2 rfl)
  | bitfield b => exact .bitfield
  | request i b l =>
    have := CoreLayout.request ((field_32 i _).2 rfl) ((field_32 b _).2 rfl) ((field_32 l _).2 rfl)
    simpa [CoreMessage.encode, putU8_eq] using this
  | piece i b d =>
    have := CoreLayout.piece (d := d) ((field_32 i _).2 rfl) ((field_32 b _).2 rfl)
    simpa [CoreMessage.encode, putU8_eq] using this
  | cancel i b l =>
    have := CoreLayout.cancel ((field_32 i _).2 rfl) ((field_32 b _).2 rfl) ((field_32 l _).2 rfl)
    simpa [CoreMessage.encode, putU8_eq] using this
  | port p => exact .port ((field_16 _ _).2 rfl)
  | suggest i => exact .suggest ((field_32 _ _).2 rfl)
  | haveAll => exact .haveAll
  | haveNone => exact .haveNone
  | reject i b l =>
    have := CoreLayout.reject ((field_32 i _).2 rfl) ((field_32 b _).2 rfl) ((field_32 l _).2 rfl)
    simpa [CoreMessage.encode, putU8_eq] using this
  | allowedFast i => exact .allowedFast ((field_32 _ _).2 rfl)
  | extended m p =>
    have := CoreLayout.extended (p := p) ((field_8 m _).2 rfl)
    simpa [CoreMessage.encode, putU8_eq] using this

/-- The layout determines the bytes. -/
theorem coreLayout_unique {m : CoreMessage} {bs : Bytes} (h : CoreLayout m bs) : bs = m.encode := by
  cases h <;> simp_all [CoreMessage.encode, putU8_eq, field_8, field_16, field_32]

/-- **C03.** Every message decodes from its own encoding to itself. -/
theorem coreMessage_roundtrip (m : CoreMessage) : CoreMessage.decode m.encode = .ok m := by
  cases m <;>
    simp [CoreMessage.encode, CoreMessage.decode, get8_cons, Except.mapError, bind, Except.bind, pure, Except.pure,
      List.append_assoc] <;> rfl

/-- Decoding succeeds only on encodings. -/
theorem coreMessage_decode_sound (bs : Bytes) (m : CoreMessage) (h : CoreMessage.decode bs = .ok m) :
    bs = m.encode := by
  unfold CoreMessage.decode at h
  cases e : tryGet (BitVec 8) bs with
  | error err =>
    rw [e] at h
    cases h
    have := (get8_err _ _).1 e
    simpa [CoreMessage.encode] using this.2
  | ok v =>
    obtain ⟨t, buf⟩ := v
    rw [e] at h
    rw [get8_iff] at e
    subst e
    have ht : ∀ n, t.toNat = n → t = BitVec.ofNat 8 n := by
      rintro n rfl; simp
    simp only at h
    split at h
    case h_17 => cases h
    all_goals
      rename_i hn
      rw [ht _ hn]
      try simp only [bind, Except.bind] at h
      repeat (split at h; cases h)
      cases h
      simp_all [CoreMessage.encode, putU8_eq, mapError_ok, get32_pair, get16_pair, get8_pair, eof_any]
      try rfl

/-- **C03.** A payload is accepted as the message `m` exactly if it has the layout of `m`; in particular no payload
has two meanings and no two payloads have the same meaning. -/
theorem coreMessage_decode_spec (bs : Bytes) (m : CoreMessage) :
    CoreMessage.decode bs = .ok m ↔ CoreLayout m bs := by
  constructor
  · intro h
    rw [coreMessage_decode_sound bs m h]
    exact coreMessage_encode_spec m
  · intro h
    rw [coreLayout_unique h]
    exact coreMessage_roundtrip m

/-- Length errors of a body of at least (`exact`: exactly) `n` bytes. -/
def LengthErr (t : BitVec 8) (n : Nat) (exact : Bool) (err : MessageError) (cs : Bytes) : Prop :=
  ∃ e, err = .length t e ∧ ((e = .short ∧ cs.length < n) ∨ (e = .long ∧ exact = true ∧ n < cs.length))

theorem lengthErr_eof (t : BitVec 8) (cs : Bytes) (m : CoreMessage) (err : MessageError) :
    (do let _ ← (eof cs).mapError (MessageError.length t); return m) = .error err ↔ LengthErr t 0 true err cs := by
  cases cs with
  | nil => simp [LengthErr, Except.mapError, bind, Except.bind, pure, Except.pure]
  | cons => simp [LengthErr, eof, Except.mapError, bind, Except.bind, eq_comm]

theorem lengthErr_ok (t : BitVec 8) (cs : Bytes) (m : CoreMessage) (err : MessageError) :
    Except.ok m = .error err ↔ LengthErr t 0 false err cs := by
  simp [LengthErr]

theorem lengthErr_step {bits w : Nat} (t : BitVec 8) (hw : 2 ^ bits = 256 ^ w) (cs : Bytes)
    (k : BitVec bits × Bytes → Except MessageError CoreMessage) (n : Nat) (exact : Bool) (err : MessageError)
    (hk : ∀ p r, k (p, r) = .error err ↔ LengthErr t n exact err r) :
    ((tryGetUint w bits cs).mapError (MessageError.length t) >>= k) = .error err ↔
      LengthErr t (n + w) exact err cs := by
  cases e : tryGetUint w bits cs with
  | error e' =>
    have := (tryGetUint_error _ _).1 e
    obtain ⟨rfl, hl⟩ := this
    simp only [Except.mapError, bind, Except.bind, Except.error.injEq, LengthErr]
    constructor
    · rintro rfl; exact ⟨_, rfl, .inl ⟨rfl, by omega⟩⟩
    · rintro ⟨e, rfl, (⟨rfl, -⟩ | ⟨-, -, h⟩)⟩
      · rfl
      · omega
  | ok v =>
    obtain ⟨p, r⟩ := v
    rw [tryGetUint_ok hw] at e
    subst e
    simp only [Except.mapError, bind, Except.bind, hk, LengthErr, List.length_append, beBytes_length]
    constructor <;> (rintro ⟨e, rfl, h⟩; refine ⟨e, rfl, ?_⟩; rcases h with ⟨h1, h2⟩ | ⟨h1, h2, h3⟩)
    · exact .inl ⟨h1, by omega⟩
    · exact .inr ⟨h1, h2, by omega⟩
    · exact .inl ⟨h1, by omega⟩
    · exact .inr ⟨h1, h2, by omega⟩

/-- **C03.** Payloads that are rejected: an id that is not in use, or a body that is too short or too long for the
id; the error says which. -/
theorem coreMessage_decode_error (c : UInt8) (cs : Bytes) (err : MessageError) :
    CoreMessage.decode (c :: cs) = .error err ↔
      (c.toNat ∉ knownIds ∧ err = .unknown (BitVec.ofNat 8 c.toNat)) ∨
      (∃ n exact e, bodyLength c.toNat = some (n, exact) ∧ err = .length (BitVec.ofNat 8 c.toNat) e ∧
        ((e = .short ∧ cs.length < n) ∨ (e = .long ∧ exact = true ∧ n < cs.length))) := by
  have hm : (BitVec.ofNat 8 c.toNat).toNat = c.toNat := by
    have := c.toNat_lt
    simp
  unfold CoreMessage.decode
  rw [get8_cons]
  simp only [hm]
  generalize c.toNat = k
  have key : ∀ n ex, (∃ n' exact e, some (n, ex) = some (n', exact) ∧ err = .length (BitVec.ofNat 8 k) e ∧
      ((e = .short ∧ cs.length < n') ∨ (e = .long ∧ exact = true ∧ n' < cs.length))) ↔
      LengthErr (BitVec.ofNat 8 k) n ex err cs := by
    intro n ex
    constructor
    · rintro ⟨n', ex', e, h, h2⟩; cases h; exact ⟨e, h2⟩
    · rintro ⟨e, h⟩; exact ⟨n, ex, e, rfl, h⟩
  split
  case h_17 =>
    simp_all [knownIds, bodyLength, eq_comm]
  all_goals
    simp only [bodyLength]
    rw [or_iff_right (fun h => h.1 (by simp [knownIds])), key]
  · exact lengthErr_eof _ _ _ _
  · exact lengthErr_eof _ _ _ _
  · exact lengthErr_eof _ _ _ _
  · exact lengthErr_eof _ _ _ _
  · exact lengthErr_step _ (by decide) _ _ 0 _ _ fun p r => lengthErr_eof _ _ _ _
  · exact lengthErr_ok _ _ _ _
  · exact lengthErr_step _ (by decide) _ _ 8 _ _ fun p r => lengthErr_step _ (by decide) _ _ 4 _ _ fun p r =>
      lengthErr_step _ (by decide) _ _ 0 _ _ fun p r => lengthErr_eof _ _ _ _
  · exact lengthErr_step _ (by decide) _ _ 4 _ _ fun p r =>
      lengthErr_step _ (by decide) _ _ 0 _ _ fun p r => lengthErr_ok _ _ _ _
  · exact lengthErr_step _ (by decide) _ _ 8 _ _ fun p r => lengthErr_step _ (by decide) _ _ 4 _ _ fun p r =>
      lengthErr_step _ (by decide) _ _ 0 _ _ fun p r => lengthErr_eof _ _ _ _
  · exact lengthErr_step _ (by decide) _ _ 0 _ _ fun p r => lengthErr_eof _ _ _ _
  · exact lengthErr_step _ (by decide) _ _ 0 _ _ fun p r => lengthErr_eof _ _ _ _
  · exact lengthErr_eof _ _ _ _
  · exact lengthErr_eof _ _ _ _
  · exact lengthErr_step _ (by decide) _ _ 8 _ _ fun p r => lengthErr_step _ (by decide) _ _ 4 _ _ fun p r =>
      lengthErr_step _ (by decide) _ _ 0 _ _ fun p r => lengthErr_eof _ _ _ _
  · exact lengthErr_step _ (by decide) _ _ 0 _ _ fun p r => lengthErr_eof _ _ _ _
  · exact lengthErr_step _ (by decide) _ _ 0 _ _ fun p r => lengthErr_ok _ _ _ _

/-- **C03.** The empty payload is a keepalive (so decoding never fails on it). -/
theorem coreMessage_decode_empty : CoreMessage.decode [] = .ok .keepalive := rfl

/-- **C03.** Two accepted payloads with the same meaning are equal. -/
theorem coreMessage_decode_injective (b c : Bytes) (m : CoreMessage) (hb : CoreMessage.decode b = .ok m)
    (hc : CoreMessage.decode c = .ok m) : b = c := by
  rw [coreMessage_decode_sound b m hb, coreMessage_decode_sound c m hc]

/-- **C04.** The handshake is encoded as exactly 68 bytes with the standard layout. -/
theorem handshake_encode_spec (s : Handshake) : s.encode.length = 68 ∧ HandshakeLayout s s.encode := by
  constructor
  · simp [Handshake.encode, s.infoHash.len, s.peerId.len, handshakeHeader]
  · exact ⟨putU64 s.extensions.bits, rfl, (field_64 _ _).2 rfl⟩

theorem getInfoHash_ok (buf : Bytes) (x : InfoHash) (r : Bytes) :
    tryGetInfoHash buf = .ok (x, r) ↔ buf = x.bytes ++ r := by
  unfold tryGetInfoHash
  split
  · rename_i h
    simp only [Except.ok.injEq, Prod.mk.injEq]
    constructor
    · rintro ⟨rfl, rfl⟩; simp
    · rintro rfl
      obtain ⟨xb, hx⟩ := x
      simp only [InfoHash.mk.injEq]
      exact ⟨by simp [← hx], by simp [← hx]⟩
  · rename_i h
    simp only [reduceCtorEq, false_iff]
    rintro rfl
    simp [x.len] at h

theorem getPeerId_ok (buf : Bytes) (x : PeerId) (r : Bytes) :
    tryGetPeerId buf = .ok (x, r) ↔ buf = x.bytes ++ r := by
  unfold tryGetPeerId
  split
  · rename_i h
    simp only [Except.ok.injEq, Prod.mk.injEq]
    constructor
    · rintro ⟨rfl, rfl⟩; simp
    · rintro rfl
      obtain ⟨xb, hx⟩ := x
      simp only [PeerId.mk.injEq]
      exact ⟨by simp [← hx], by simp [← hx]⟩
  · rename_i h
    simp only [reduceCtorEq, false_iff]
    rintro rfl
    simp [x.len] at h

/-- **C04.** Decoding accepts exactly the standard layout and returns its parts. -/
theorem handshake_decode_spec (bs : Bytes) (s : Handshake) :
    Handshake.decode bs = .ok s ↔ HandshakeLayout s bs := by
  have hu : HandshakeLayout s bs ↔ bs = s.encode := by
    constructor
    · rintro ⟨r, rfl, hr⟩
      rw [field_64] at hr
      subst hr; rfl
    · rintro rfl; exact (handshake_encode_spec s).2
  rw [hu]
  constructor
  · intro h
    unfold Handshake.decode at h
    simp only [bind, Except.bind] at h
    split at h
    · cases h
    · rename_i v1 h1
      rw [mapError_ok] at h1
      split at h
      · cases h
      · rename_i hh
        simp only [ne_eq, Decidable.not_not] at hh
        split at h
        · cases h
        · rename_i v2 h2
          split at h
          · cases h
          · rename_i v3 h3
            split at h
            · cases h
            · rename_i v4 h4
              split at h
              · cases h
              · rename_i v5 h5
                cases h
                rw [mapError_ok] at h2 h3 h4 h5
                rw [get64_pair] at h2
                rw [eof_any] at h5
                have h3' := (getInfoHash_ok _ v3.1 v3.2).1 h3
                have h4' := (getPeerId_ok _ v4.1 v4.2).1 h4
                unfold tryGetBytes at h1
                split at h1
                · cases h1
                  simp only at h2 hh
                  rw [← List.take_append_drop 20 bs, hh, h2, h3', h4', h5]
                  simp [Handshake.encode]
                · cases h1
  · rintro rfl
    unfold Handshake.decode
    have h1 : tryGetBytes 20 s.encode =
        .ok (handshakeHeader, putU64 s.extensions.bits ++ (s.infoHash.bytes ++ s.peerId.bytes)) := by
      unfold tryGetBytes
      rw [if_pos (by rw [(handshake_encode_spec s).1]; decide)]
      have hl : handshakeHeader.length = 20 := by decide
      simp only [Handshake.encode, List.append_assoc]
      rw [List.take_left' hl, List.drop_left' hl]
    have h3 : tryGetInfoHash (s.infoHash.bytes ++ s.peerId.bytes) = .ok (s.infoHash, s.peerId.bytes) :=
      (getInfoHash_ok _ _ _).2 rfl
    have h4 : tryGetPeerId s.peerId.bytes = .ok (s.peerId, []) := (getPeerId_ok _ _ _).2 (by simp)
    simp only [h1, Except.mapError, bind, Except.bind, ne_eq, not_true_eq_false, if_false, get64_put, h3, h4, eof_nil]
    rfl

/-- **C04.** Decoding what was encoded gives the handshake back. -/
theorem handshake_roundtrip (s : Handshake) : Handshake.decode s.encode = .ok s :=
  (handshake_decode_spec _ _).2 (handshake_encode_spec s).2

/-- **C04.** Among strings of 68 bytes, exactly those starting with the standard header are accepted. -/
theorem handshake_accepts_iff (bs : Bytes) (hl : bs.length = 68) :
    (∃ s, Handshake.decode bs = .ok s) ↔ bs.take 20 = [19] ++ ascii "BitTorrent protocol" := by
  constructor
  · rintro ⟨s, h⟩
    obtain ⟨r, rfl, -⟩ := (handshake_decode_spec _ _).1 h
    simp [ascii]
  · intro h
    refine ⟨⟨⟨BitVec.ofNat 64 (beValue ((bs.drop 20).take 8))⟩, ⟨(bs.drop 28).take 20, by simp; omega⟩,
      ⟨bs.drop 48, by simp; omega⟩⟩, ?_⟩
    rw [handshake_decode_spec]
    refine ⟨(bs.drop 20).take 8, ?_, by simp; omega, ?_⟩
    · rw [← h]
      simp only [List.append_assoc]
      have e1 : (bs.drop 28).take 20 ++ bs.drop 48 = bs.drop 28 := by
        conv => rhs; rw [← List.take_append_drop 20 (bs.drop 28)]
        simp
      have e2 : (bs.drop 20).take 8 ++ bs.drop 28 = bs.drop 20 := by
        conv => rhs; rw [← List.take_append_drop 8 (bs.drop 20)]
        simp
      rw [e1, e2, List.take_append_drop]
    · have := beValue_lt ((bs.drop 20).take 8)
      have hl : ((bs.drop 20).take 8).length = 8 := by simp; omega
      rw [hl] at this
      simp only [BitVec.toNat_ofNat]
      exact (Nat.mod_eq_of_lt this).symm

-- concrete cases
example : CoreMessage.decode [4, 0, 0, 1, 2] = .ok (.have' 0x102) := by decide
example : CoreMessage.decode [4, 0, 0, 1] = .error (.length 4 .short) := by decide
example : CoreMessage.decode [0, 1] = .error (.length 0 .long) := by decide
example : CoreMessage.decode [10] = .error (.unknown 10) := by decide
example : CoreMessage.decode [20, 42, 7, 8] = .ok (.extended 42 [7, 8]) := by decide
example : ∃ s : Handshake, s.extensions = ⟨0x100004⟩ ∧ HandshakeLayout s s.encode :=
  ⟨⟨⟨0x100004⟩, ⟨List.replicate 20 7, by simp⟩, ⟨List.replicate 20 9, by simp⟩⟩, rfl, (handshake_encode_spec _).2⟩

end Demag.Props
