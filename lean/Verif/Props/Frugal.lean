import Verif.Spec.Frugal
import Verif.Props.SecureLink

/-!
# C81: how much is said to a peer
-/

namespace Demag.Props

open Demag Demag.Spec

/-! ### Sizes -/

/-- The size of some frames. -/
def framesSize (ps : List Bytes) : Nat := (ps.map fun p => 4 + p.length).sum

theorem isFrames_size {ps : List Bytes} {bs : Bytes} (h : IsFrames ps bs) : bs.length = framesSize ps := by
  induction h with
  | nil => rfl
  | cons hh _ _ ih =>
    have := hh.1
    simp only [framesSize, List.map_cons, List.sum_cons, List.length_append] at ih ⊢
    omega

theorem framesSize_append (a b : List Bytes) : framesSize (a ++ b) = framesSize a + framesSize b := by
  simp [framesSize]

theorem allFrames_size (ending : Ending) (bs : Bytes) : framesSize (allFrames ending bs).1 ≤ bs.length := by
  obtain ⟨ps, fs, t, stop, h1, h2, h3⟩ := frames_split ending bs
  subst h1
  rw [allFrames_spec ending ps fs t stop h2 h3, List.length_append, isFrames_size h2]
  simp

/-- The size of the refusal of a request, as a frame. -/
def rejectSize (p : BitVec 32) : Nat := 28 + (benc (.int p.toNat)).length

theorem rejectDict_length (p : BitVec 32) (t : Int) (ht : (benc (.int t)).length = 3) :
    (benc (.dict [(keyBytes "msg_type", .int t), (keyBytes "piece", .int p.toNat)])).length = 22 + (benc (.int p.toNat)).length := by
  have h1 : (encBytes (keyBytes "msg_type")).length = 10 := by decide +kernel
  have h2 : (encBytes (keyBytes "piece")).length = 7 := by decide +kernel
  generalize hv : Ben.int t = v at ht ⊢
  generalize Ben.int p.toNat = v'
  rw [benc]
  simp only [bencDict, List.length_cons, List.length_append, List.length_nil, ht, h1, h2]
  omega

theorem encode_metadata_length {r : Bep10Registry} {m : MetadataMessage} {b : Bytes}
    (h : (Message.extended (.metadata m)).encode r = .ok b) :
    b.length = 2 + (benc (.dict (metadataDict m))).length + (metadataPayload m).length := by
  simp only [Message.encode, ExtendedMessage.encode, metadata_encode_spec, bind, Except.bind] at h
  split at h
  · cases h
  · rename_i x hx
    split at hx
    · cases hx
    · cases hx
      cases h
      simp [CoreMessage.encode, putU8]
      omega

theorem reject_size {r : Bep10Registry} {p : BitVec 32} {b : Bytes} (h : (reject p).encode r = .ok b) : 4 + b.length = rejectSize p := by
  rw [encode_metadata_length h]
  have := rejectDict_length p 2 (by decide +kernel)
  simp only [metadataDict, metadataPayload, List.length_nil, rejectSize, this]
  omega

theorem request_size {r : Bep10Registry} {p : BitVec 32} {b : Bytes} (h : (request p).encode r = .ok b) : 4 + b.length ≤ 40 := by
  rw [encode_metadata_length h]
  have := rejectDict_length p 0 (by decide +kernel)
  have := benc_u32_length p
  simp only [metadataDict, metadataPayload, List.length_nil, rejectDict_length p 0 (by decide +kernel)]
  omega

theorem bencDict_one {k : Bytes} {v : Ben} : ∀ {kvs : List (Bytes × Ben)}, lookup k kvs = some v →
    (encBytes k).length + (benc v).length ≤ (bencDict kvs).length := by
  intro kvs
  induction kvs with
  | nil => intro h; cases h
  | cons x xs ih =>
    intro h
    obtain ⟨k', v'⟩ := x
    rw [bencDict, List.length_append, List.length_append]
    unfold lookup at h ih
    rw [List.find?_cons] at h
    split at h
    · rename_i he
      cases h
      have : k' = k := by simpa using he
      subst this; simp
    · have := ih h; omega

theorem bencDict_two {k k' : Bytes} {v v' : Ben} (hk : k ≠ k') : ∀ {kvs : List (Bytes × Ben)}, lookup k kvs = some v → lookup k' kvs = some v' →
    (encBytes k).length + (benc v).length + ((encBytes k').length + (benc v').length) ≤ (bencDict kvs).length := by
  intro kvs
  induction kvs with
  | nil => intro h; cases h
  | cons x xs ih =>
    intro h h'
    obtain ⟨a, w⟩ := x
    rw [bencDict, List.length_append, List.length_append]
    have e1 : lookup k ((a, w) :: xs) = if a == k then some w else lookup k xs := by
      unfold lookup; rw [List.find?_cons]; split <;> simp_all
    have e2 : lookup k' ((a, w) :: xs) = if a == k' then some w else lookup k' xs := by
      unfold lookup; rw [List.find?_cons]; split <;> simp_all
    rw [e1] at h; rw [e2] at h'
    by_cases ha : a = k
    · subst ha
      rw [if_pos (by simp)] at h
      rw [if_neg (by simpa using hk)] at h'
      cases h
      have := bencDict_one h'; omega
    · rw [if_neg (by simpa using ha)] at h
      by_cases hb : a = k'
      · subst hb
        rw [if_pos (by simp)] at h'
        cases h'
        have := bencDict_one h; omega
      · rw [if_neg (by simpa using hb)] at h'
        have := ih h h'; omega

/-- A request is at least as large as its refusal. -/
theorem request_frame {f : Bytes} {r : Bep10Registry} {p : BitVec 32} (h : Message.decode f r = .ok (request p)) :
    rejectSize p ≤ 4 + f.length := by
  unfold Message.decode at h
  simp only [bind, Except.bind] at h
  split at h
  · cases h
  · rename_i m hm
    split at h
    · rename_i id payload
      simp only [ExtendedMessage.decode] at h
      split at h
      · cases h
      · rename_i x hx
        cases h
        split at hx
        · simp only [bind, Except.bind] at hx
          split at hx <;> cases hx
        · split at hx
          · cases hx
          · simp only [bind, Except.bind] at hx
            split at hx
            · cases hx
            · rename_i m' hd
              cases hx
              obtain ⟨kvs, rest, hb, -, -, hden⟩ := (metadata_decode_spec _ _).1 hd
              cases hden with
              | request _ t h1 h2 _ hr =>
                obtain ⟨v1, l1, e1⟩ := h1
                obtain ⟨v2, l2, e2⟩ := h2
                unfold IsUint at e1 e2
                subst e1 e2
                have := bencDict_two (by decide +kernel) l1 l2
                have e1 : (encBytes (keyBytes "msg_type")).length = 10 := by decide +kernel
                have e2 : (encBytes (keyBytes "piece")).length = 7 := by decide +kernel
                have e3 : (benc (.int ((0 : BitVec 8).toNat : Nat))).length = 3 := by decide +kernel
                rw [e1, e2, e3] at this
                rw [coreMessage_decode_sound f _ hm, hb]
                have e4 : ∀ x : BitVec 8, (putU8 x).length = 1 := fun _ => rfl
                simp only [CoreMessage.encode, List.length_append, benc, List.length_cons, List.length_nil, rejectSize, e4] at this ⊢
                omega
    · cases h

/-! ### A conversation -/

/-- The largest size of a message sent, as a frame. -/
def sendCost : Message → Nat
  | .extended (.metadata (.request _)) => 40
  | .extended (.metadata (.reject p)) => rejectSize p
  | _ => 0

/-- The smallest size of a message received, as a frame. -/
def receiveGain : Message → Nat
  | .extended (.metadata (.request p)) => rejectSize p
  | _ => 0

theorem gain_ignorable {m : Message} (h : Ignorable m) : receiveGain m = 0 := by cases h <;> rfl

theorem talk_balance {n : Nat} {ps s es} (h : Talk n ps s es) :
    ((sentOf es).map sendCost).sum + (match s with | none => 0 | some m => sendCost m) =
      ((receivedOf es).map receiveGain).sum + 40 * (ps.length + 1) := by
  induction h with
  | start h => rfl
  | @sent ps m es _ ih =>
    rw [sentOf_append, receivedOf_append]
    simp only [sentOf, receivedOf, List.map_append, List.map_cons, List.map_nil, List.sum_append, List.sum_cons, List.sum_nil,
      List.append_nil] at ih ⊢
    omega
  | @ignore ps m es _ hm ih =>
    rw [sentOf_append, receivedOf_append]
    simp only [sentOf, receivedOf, List.map_append, List.map_cons, List.map_nil, List.sum_append, List.sum_cons, List.sum_nil,
      List.append_nil, gain_ignorable hm] at ih ⊢
    omega
  | @refuse ps p es _ ih =>
    rw [sentOf_append, receivedOf_append]
    simp only [sentOf, receivedOf, List.map_append, List.map_cons, List.map_nil, List.sum_append, List.sum_cons, List.sum_nil,
      List.append_nil, request, reject, receiveGain, sendCost] at ih ⊢
    omega
  | @accept ps p es _ hl hlt ih =>
    rw [sentOf_append, receivedOf_append]
    simp only [sentOf, receivedOf, List.map_append, List.map_cons, List.map_nil, List.sum_append, List.sum_cons, List.sum_nil,
      List.append_nil, request, data, receiveGain, sendCost, List.length_append, List.length_cons, List.length_nil] at ih ⊢
    omega

theorem pieceCount_le {n : Nat} (h : n ≤ 20 * 1024 * 1024) : pieceCount n ≤ 1280 := by
  unfold pieceCount; omega

theorem talk_count {n : Nat} {ps s es} (h : Talk n ps s es) (hn : n ≤ 20 * 1024 * 1024) : ps.length + 1 ≤ 1280 := by
  have := (talk_facts h).lt
  have := pieceCount_le hn
  omega

section
variable {sha1 : Bytes → Bytes} {good : Bytes → Prop} {ih : InfoHash} {n : Nat} {rest : List Bytes} {stop : Stop}
  {garbage : Bytes → MessageError → Prop} {next : IoOutcome} {es : List Event} {r : Res PeerError TorrentInfo}

theorem ends_balance (h : Ends sha1 good ih n rest stop garbage next es r) (hn : n ≤ 20 * 1024 * 1024) :
    ((sentOf es).map sendCost).sum ≤ ((receivedOf es).map receiveGain).sum + 51200 := by
  rcases ends_talk h with ⟨rfl, _⟩ | ⟨ps, s, ht, _⟩ | ⟨ps, es', m, rfl, ht, hm, _⟩
  · simp [sentOf]
  · have := talk_balance ht
    have := talk_count ht hn
    omega
  · have := talk_balance ht
    have := talk_count ht hn
    rw [sentOf_append, receivedOf_append]
    simp only [sentOf, receivedOf, List.map_append, List.sum_append, List.append_nil, List.map_cons, List.map_nil, List.sum_cons] at this ⊢
    omega

theorem talk_sent_kind {n : Nat} {ps s es} (h : Talk n ps s es) :
    (∀ m ∈ sentOf es, (∃ p, m = request p) ∨ ∃ p, m = reject p) ∧ (∀ m, s = some m → (∃ p, m = request p) ∨ ∃ p, m = reject p) := by
  induction h with
  | start h => exact ⟨by simp [sentOf], fun m hm => by cases hm; exact .inl ⟨_, rfl⟩⟩
  | @sent ps m es _ ih =>
    refine ⟨fun m' hm' => ?_, by simp⟩
    rw [sentOf_append, List.mem_append] at hm'
    rcases hm' with hm' | hm'
    · exact ih.1 m' hm'
    · simp only [sentOf, List.mem_singleton] at hm'
      exact ih.2 m' (by rw [hm'])
  | @ignore ps m es _ hm ih => exact ⟨by rw [sentOf_append]; simpa [sentOf] using ih.1, by simp⟩
  | @refuse ps p es _ ih => exact ⟨by rw [sentOf_append]; simpa [sentOf] using ih.1, fun m hm => by cases hm; exact .inr ⟨_, rfl⟩⟩
  | @accept ps p es _ hl hlt ih =>
    exact ⟨by rw [sentOf_append]; simpa [sentOf] using ih.1, fun m hm => by cases hm; exact .inl ⟨_, rfl⟩⟩

theorem ends_sent_kind (h : Ends sha1 good ih n rest stop garbage next es r) : ∀ m ∈ sentOf es, (∃ p, m = request p) ∨ ∃ p, m = reject p := by
  rcases ends_talk h with ⟨rfl, _⟩ | ⟨ps, s, ht, _⟩ | ⟨ps, es', m, rfl, ht, hm, _⟩
  · simp [sentOf]
  · exact (talk_sent_kind ht).1
  · rw [sentOf_append]; simpa [sentOf] using (talk_sent_kind ht).1
end

theorem frames_cost {reg : Bep10Registry} : ∀ {ps : List Bytes} {ms : List Message}, List.Forall₂ (fun p m => Message.encode m reg = .ok p) ps ms →
    (∀ m ∈ ms, (∃ p, m = request p) ∨ ∃ p, m = reject p) → framesSize ps ≤ (ms.map sendCost).sum := by
  intro ps ms h
  induction h with
  | nil => intro _; simp [framesSize]
  | @cons a m ps ms hm _ ih =>
    intro hk
    have := ih fun m h => hk m (.tail _ h)
    have h1 : 4 + a.length ≤ sendCost m := by
      rcases hk m (.head _) with ⟨p, rfl⟩ | ⟨p, rfl⟩
      · exact request_size hm
      · exact Nat.le_of_eq (reject_size hm)
    simp only [framesSize, List.map_cons, List.sum_cons] at this ⊢
    omega

theorem frames_gain {reg : Bep10Registry} : ∀ {fs : List Bytes} {ms : List Message}, List.Forall₂ (fun f m => Message.decode f reg = .ok m) fs ms →
    (ms.map receiveGain).sum ≤ framesSize fs := by
  intro fs ms h
  induction h with
  | nil => simp
  | @cons f m fs ms hm _ ih =>
    have h1 : receiveGain m ≤ 4 + f.length := by
      unfold receiveGain
      split
      · exact request_frame hm
      · omega
    simp only [framesSize, List.map_cons, List.sum_cons] at ih ⊢
    omega

/-- What a conversation about the metadata says, compared with what it hears. -/
theorem session_out (sha1 : Bytes → Bytes) (l : Link) (ih : InfoHash) (size : Option (BitVec 32)) (c : Chan)
    (hreg : c.remoteReg.contains .metadata = true) :
    (getMetadataInfo sha1 l ih size c).1.out.length ≤ c.out.length + 51200 + framesSize c.frames := by
  cases size with
  | none => rw [(session_refused sha1 l ih c).1]; simp only; omega
  | some n =>
    by_cases hn : n.toNat ≤ 20 * 1024 * 1024
    · obtain ⟨used, rest, es, h1, h2, h3, ⟨ps, w, h4, h5, h6⟩, h7⟩ := session_spec sha1 l ih n c hreg hn
      rw [h4, h1, framesSize_append, List.length_append, isFrames_size h5]
      have a := frames_cost h6 (ends_sent_kind h7)
      have b := frames_gain h2
      have d := ends_balance h7 hn
      omega
    · rw [(session_refused sha1 l ih c).2 n (by omega)]; simp only; omega

/-! ### Connecting -/

theorem encBytes_ip (ip : IpAddr) : (encBytes (ipToCompact ip)).length ≤ 19 := by
  have h := ipToCompact_length ip
  have := dec_length_le 2 (ipToCompact ip).length (by omega) (by omega)
  unfold encBytes
  simp only [List.length_append, List.length_cons]; omega

theorem greeting_size {ip : IpAddr} {r : Bep10Registry} {b : Bytes}
    (h : (Message.extended (.handshake (ourGreeting ip))).encode r = .ok b) : 4 + b.length ≤ 81 := by
  have hs : ∀ m, (ourGreeting ip).m = some m → TextSorted m := by
    intro m hm; cases hm; exact trivial
  obtain ⟨h1, -, -⟩ := extendedHandshake_encode_spec (ourGreeting ip) hs
  simp only [Message.encode, ExtendedMessage.encode, h1, bind, Except.bind] at h
  cases h
  have hl : (benc (.dict (handshakeDict (ourGreeting ip)))).length ≤ 75 := by
    have e1 : (encBytes (keyBytes "m")).length = 3 := by decide +kernel
    have e2 : (encBytes (keyBytes "v")).length = 3 := by decide +kernel
    have e3 : (encBytes (keyBytes "yourip")).length = 8 := by decide +kernel
    have e4 : (benc (.dict (List.map (fun kv : Text × BitVec 8 => (utf8 kv.1, Ben.int kv.2.toNat)) [("ut_metadata".toList, 42)]))).length = 20 := by
      decide +kernel
    have e5 : (encBytes (utf8 "demagnetize 0.7.0".toList)).length = 20 := by decide +kernel
    have e6 := encBytes_ip ip
    unfold handshakeDict ourGreeting
    simp only [Option.map_some, Option.map_none, Option.toList, List.nil_append, List.cons_append]
    rw [benc]
    simp only [bencDict, List.length_cons, List.length_append, List.length_nil, e1, e2, e3, e4]
    simp only [benc, e5]
    omega
  simp [CoreMessage.encode, putU8]
  omega

theorem recv_out (c : Chan) : c.recv.1.out = c.out := by
  unfold Chan.recv
  split
  · split <;> rfl
  · split <;> rfl

theorem send_out {l : Link} {c : Chan} {m : Message} {k : Nat} (hk : ∀ b, m.encode c.remoteReg = .ok b → 4 + b.length ≤ k) :
    (c.send l m).1.out.length ≤ c.out.length + k := by
  unfold Chan.send
  split
  · simp
  · rename_i b hb
    split
    · simp
    · rename_i w hw
      have hw' := (frameEncode_spec b w).1 hw
      obtain ⟨-, h, hh, rfl⟩ := hw'
      unfold Chan.write
      split
      · have := hk b hb
        have := hh.1
        simp only [List.length_append]; omega
      · simp
      · simp

theorem connectExtended_out (l : Link) (ctx : PeerCtx) (exts : ExtensionSet) (c : Chan) (hlr : c.localReg = reg42) :
    (connectExtended l ctx exts c).1.out.length ≤ c.out.length + 86 := by
  have he : ourExtendedHandshake ctx c.localReg = ourGreeting ctx.peerIp := by rw [hlr, ourExtendedHandshake_eq]
  unfold connectExtended
  rw [he]
  have h1 := send_out (l := l) (c := c) (m := .extended (.handshake (ourGreeting ctx.peerIp))) (k := 81) fun b hb => greeting_size hb
  generalize c.send l (.extended (.handshake (ourGreeting ctx.peerIp))) = q at h1
  obtain ⟨c1, r1⟩ := q
  simp only at h1
  cases r1 with
  | err e => simp only; omega
  | hang => simp only; omega
  | panic => simp only; omega
  | ok u =>
    simp only
    have h2 := recv_out c1
    generalize c1.recv = q at h2
    obtain ⟨c2, r2⟩ := q
    simp only at h2
    cases r2 with
    | err e => simp only [h2]; omega
    | hang => simp only [h2]; omega
    | panic => simp only [h2]; omega
    | ok m =>
      split
      · rename_i heq; cases heq
      · rename_i heq; cases heq
      · rename_i heq; cases heq
      · rename_i c3 shake heq
        cases heq
        split
        · simp only [h2]; omega
        · rename_i remote _
          split
          · simp only [h2]; omega
          · split
            · have h3 := send_out (l := l) (c := { c2 with remoteReg := remote }) (m := .core .haveNone) (k := 5) fun b hb => by
                cases hb; decide
              generalize Chan.send l _ _ = q at h3 ⊢
              obtain ⟨c4, r4⟩ := q
              simp only [h2] at h3
              cases r4 <;> (simp only; omega)
            · simp only [h2]; omega
      · rename_i heq
        cases heq
        simp only [h2]; omega

theorem connect_out (l : Link) (ctx : PeerCtx) (encrypt : Bool) : (connect l ctx encrypt).1.out.length ≤ 154 := by
  unfold connect
  simp only
  split
  · simp
  · simp
  · split
    · simp
    · simp
    · simp
    · have h1 : ∀ (c : Chan) (h : Handshake), (c.write l h.encode (.sentHandshake h)).1.out.length ≤ c.out.length + 68 := by
        intro c h
        unfold Chan.write
        have := (handshake_encode_spec h).1
        split
        · simp only [List.length_append]; omega
        · simp
        · simp
      have h2 := h1 ⟨[], .pending, 0, [], [], .new, .new⟩ (Handshake.new supportedExtensions ctx.infoHash ctx.localId)
      generalize Chan.write _ _ _ _ = q at h2 ⊢
      obtain ⟨c, r⟩ := q
      simp only [List.length_nil] at h2
      cases r with
      | err e => simp only; omega
      | hang => simp only; omega
      | panic => simp only; omega
      | ok u =>
        simp only
        split
        · split <;> (simp only; omega)
        · split
          · simp only; omega
          · split
            · simp only; omega
            · split
              · simp only; omega
              · rw [localRegistry_eq]
                simp only
                have := connectExtended_out l ctx
                refine Nat.le_trans (this _ _ rfl) ?_
                simp only
                omega

/-! ### The bounds -/

/-- **C81.** Whatever a peer does: over one connection it is sent at most 51354 bytes more than it has sent itself (before encryption). -/
theorem no_amplification (sha1 : Bytes → Bytes) (l : Link) (ctx : PeerCtx) (encrypt : Bool) :
    (visitChan sha1 l ctx encrypt).out.length ≤ 51354 + l.incoming.length := by
  have h1 := connect_out l ctx encrypt
  obtain ⟨ours, -, -, hok⟩ := connect_spec l ctx encrypt
  unfold visitChan
  generalize connect l ctx encrypt = q at h1 hok
  obtain ⟨c, r⟩ := q
  cases r with
  | err e => simp only at h1 ⊢; omega
  | hang => simp only at h1 ⊢; omega
  | panic => simp only at h1 ⊢; omega
  | ok size =>
    obtain ⟨⟨h, s, code, rest, hag, -, hget, hfr, -, -⟩, -⟩ := hok size rfl
    simp only at h1 hget hfr ⊢
    have h2 := session_out sha1 l ctx.infoHash size c (contains_of_getMessageId hget)
    have h3 := allFrames_size l.ending rest
    rw [← hfr] at h3
    obtain ⟨rest0, f, ⟨⟨-, -, hs, hin, hl⟩, -⟩, ⟨fr, -, hb⟩, -⟩ := hag
    have : rest.length ≤ l.incoming.length := by rw [hin, hb]; simp only [List.length_append]; omega
    simp only at h3
    omega

/-! ### On the network -/

/-- What is left of the input after a step of the encryption handshake. -/
theorem packet4_rest (p : BitVec 32) (ks : Keystream) (sub : Packet4State) (buf : Bytes) {st : HandshakeState} {rest : Bytes}
    (h : packet4Loop p ks sub buf = .ok (st, rest)) : rest.length ≤ buf.length ∧ ((∀ ks, st ≠ .done ks) → rest.length < 8) := by
  have h1 : ∀ {m n ks} {a : Bytes}, onPadD m n ks a = .ok (st, rest) → rest.length ≤ a.length ∧ ((∀ ks, st ≠ .done ks) → rest.length < 8) := by
    intro m n ks a h
    simp only [onPadD] at h
    split at h
    · cases h
      exact ⟨by simp, fun h => absurd rfl (h _)⟩
    · cases h
      refine ⟨by simp, fun _ => ?_⟩
      simp only [List.length_drop]; omega
  have h2 : ∀ {m ks} {a : Bytes}, onLenPadD m ks a = .ok (st, rest) → rest.length ≤ a.length ∧ ((∀ ks, st ≠ .done ks) → rest.length < 8) := by
    intro m ks a h
    rw [onLenPadD] at h
    split at h
    · cases h; exact ⟨Nat.le_refl _, fun _ => by omega⟩
    · have := h1 h
      simp only [List.length_drop] at this
      exact ⟨by omega, this.2⟩
  have h3 : ∀ {ks} {a : Bytes}, onSelect p ks a = .ok (st, rest) → rest.length ≤ a.length ∧ ((∀ ks, st ≠ .done ks) → rest.length < 8) := by
    intro ks a h
    rw [onSelect] at h
    split at h
    · cases h; exact ⟨Nat.le_refl _, fun _ => by omega⟩
    · simp only at h
      split at h
      · cases h
      · split at h
        · cases h
        · split at h
          · have := h2 h
            simp only [List.length_drop] at this
            exact ⟨by omega, this.2⟩
          · cases h
  cases sub with
  | vc =>
    simp only [packet4Loop] at h
    rw [onVc] at h
    split at h
    · cases h; exact ⟨Nat.le_refl _, fun _ => by omega⟩
    · simp only at h
      split at h
      · have := h3 h
        simp only [List.length_drop] at this
        exact ⟨by omega, this.2⟩
      · cases h
  | select => exact h3 h
  | lenPadD m => exact h2 h
  | padD m n => exact h1 h

theorem handleInput_length {h h' : Handshaker} {b : Bytes} (hi : h.handleInput b = .ok h') : h'.input.length ≤ h.input.length + b.length := by
  unfold Handshaker.handleInput at hi
  split at hi
  · rename_i ks sub _
    cases hp : packet4Loop h.provide ks sub (h.input ++ b) with
    | error e => rw [hp] at hi; cases hi
    | ok r =>
      rw [hp] at hi; cases hi
      have := (packet4_rest _ _ _ _ hp).1
      simpa using this
  · cases hi; simp

theorem handleTimeout_length {H : Bytes → Bytes} {h h' : Handshaker} (hi : h.handleTimeout H = .ok h') : h'.input.length ≤ h.input.length := by
  unfold Handshaker.handleTimeout at hi
  split at hi
  · simp only at hi
    split at hi
    · cases hi
    · cases hi; simp
  · cases hi; exact Nat.le_refl _

/-- The encryption handshake hands on no more than has arrived. -/
theorem loop_left (H : Bytes → Bytes) (f : Nat → Bool) (reads : List HandshakeRead) (n : Nat) (d : Bool) (h : Handshaker) {s : EncryptedStream}
    {rest : List HandshakeRead} (hr : (handshakeLoop H f n d h reads).2 = (.ok s, rest)) :
    s.readBuffer.length + bytesArriving rest ≤ h.input.length + bytesArriving reads := by
  induction reads generalizing n d h with
  | nil =>
    rw [handshakeLoop.eq_def] at hr
    split at hr
    · cases hr; exact Nat.le_refl _
    · simp only at hr
      split at hr <;> cases hr
  | cons x rs ih =>
    rw [handshakeLoop.eq_def] at hr
    split at hr
    · cases hr; exact Nat.le_refl _
    · simp only at hr
      split at hr
      · cases hr
      · cases x with
        | data b =>
          cases b with
          | nil => cases hr
          | cons y ys =>
            simp only at hr
            split at hr
            · cases hr
            · rename_i h'' hi
              have h1 := ih _ _ _ hr
              have h2 := handleInput_length hi
              simp only [bytesArriving] at h2 ⊢
              omega
        | eof => cases hr
        | failed => cases hr
        | timeout =>
          simp only at hr
          split at hr
          · split at hr
            · cases hr
            · rename_i h'' hi
              have h1 := ih _ _ _ hr
              have h2 := handleTimeout_length hi
              simp only [bytesArriving] at h2 ⊢
              omega
          · cases hr

theorem restOf_size (rs : List HandshakeRead) : (restOf rs).1.flatten.length = bytesArriving rs := by
  induction rs with
  | nil => rfl
  | cons x rs ih =>
    cases x with
    | data b =>
      cases b with
      | nil => rfl
      | cons y ys =>
        simp only [restOf, bytesArriving, List.flatten_cons, List.length_append, ih]
    | timeout => simpa only [restOf, bytesArriving] using ih
    | eof => rfl
    | failed => rfl

theorem restOf_whole (rs : List HandshakeRead) : [] ∉ (restOf rs).1 := by
  induction rs with
  | nil => simp [restOf]
  | cons x rs ih =>
    cases x with
    | data b => cases b <;> simp [restOf, ih]
    | timeout => simpa [restOf] using ih
    | eof => simp [restOf]
    | failed => simp [restOf]

/-- What the program reads of a connection is no more than what arrives. -/
theorem link_incoming (H : Bytes → Bytes) (c : Chances) (hrooms : ∀ k, 0 < c.rooms k) (w : RawLink) (skey : InfoHash) (enc : Bool) :
    (w.link H c skey enc).incoming.length ≤ bytesArriving w.reads := by
  unfold RawLink.link
  split
  · split
    · simp
    · have := @loop_left H (fun n => w.sends (n / 2) = .ok) w.reads 1 false (Handshaker.build skey c.privateKey c.padA c.padcLen)
      rw [show handshakeLoop H (fun n => decide (w.sends (n / 2) = .ok)) 1 false
        (Handshaker.build skey c.privateKey c.padA c.padcLen) w.reads = w.secure H c skey from rfl] at this
      generalize w.secure H c skey = r at this
      obtain ⟨packets, outcome, rest⟩ := r
      cases outcome with
      | ok s =>
        have h := this rfl
        simp only
        rw [drain_all c.rooms hrooms _ 0 s _ (restOf_whole rest) (Nat.le_refl _), xorAt_length, List.length_append, restOf_size]
        simpa [Handshaker.build] using h
      | waiting => simp
      | err e => cases e <;> simp
  · simp only [restOf_size]; exact Nat.le_refl _

theorem packet3_length {H : Bytes → Bytes} (hH : ∀ b, (H b).length = 20) {S skey : Bytes} {provide padLen : Nat} {packet : Bytes}
    (h : Packet3 H S skey provide padLen packet) : packet.length = 56 + padLen := by
  obtain ⟨x, e, pro, len, ia, rfl, hx, -, he, hp, -, hl, -, rfl⟩ := h
  have := congrArg List.length he
  simp only [xorAt_length, List.length_append, List.length_replicate, hp, hl, List.length_cons, List.length_nil] at this
  simp only [List.length_append, hH, hx, this]
  omega

/-- **C81.** On the network, too, whatever arrives, for all digests, private keys and paddings of at most 512 bytes, encrypted or not: the program sends
at most 52530 bytes more than it has received. -/
theorem wire_no_amplification (sha1 H : Bytes → Bytes) (hH : ∀ b, (H b).length = 20) (c : Chances) (hrooms : ∀ k, 0 < c.rooms k)
    (hA : c.padA.length ≤ 512) (hC : c.padcLen.toNat ≤ 512) (w : RawLink) (ctx : PeerCtx) (encrypt : Bool) :
    (wireBytes sha1 H c w ctx encrypt).length ≤ 52530 + bytesArriving w.reads := by
  have h1 := no_amplification sha1 (w.link H c ctx.infoHash encrypt) ctx encrypt
  have h2 := link_incoming H c hrooms w ctx.infoHash encrypt
  cases encrypt with
  | false =>
    unfold wireBytes
    simp only [Bool.false_eq_true, if_false]
    split
    · simp
    · omega
  | true =>
    have h := wire_hidden sha1 H hH c w ctx
    generalize (visitChan sha1 (w.link H c ctx.infoHash true) ctx true).out = out at h h1
    generalize wireBytes sha1 H c w ctx true = wire at h
    cases h with
    | nothing _ => simp
    | greeted A _ hA' => simp only [List.length_append, hA'.1]; omega
    | talked A S packet3 Y hA' _ h3 => simp only [List.length_append, hA'.1, packet3_length hH h3, xorAt_length]; omega

/-! ### Requests and metadata -/

theorem requestsReceived_append (a b : List Event) : requestsReceived (a ++ b) = requestsReceived a ++ requestsReceived b := by
  fun_induction requestsReceived a with
  | case1 => rfl
  | case2 p es ih => simp [requestsReceived, ih]
  | case3 e es h ih => rw [List.cons_append, requestsReceived, ih]; exact h

theorem requestsReceived_ignorable {m : Message} (h : Ignorable m) : requestsReceived [.received m] = [] := by cases h <;> rfl

theorem talk_sent_count {n : Nat} {ps s es} (h : Talk n ps s es) :
    (sentOf es).length + (match s with | none => 0 | some _ => 1) = (requestsReceived es).length + ps.length + 1 := by
  induction h with
  | start h => rfl
  | sent _ ih => rw [sentOf_append, requestsReceived_append]; simp [sentOf, requestsReceived] at ih ⊢; omega
  | ignore _ hm ih => rw [sentOf_append, requestsReceived_append, requestsReceived_ignorable hm]; simp [sentOf] at ih ⊢; omega
  | refuse _ ih => rw [sentOf_append, requestsReceived_append]; simp [sentOf, requestsReceived, request] at ih ⊢; omega
  | accept _ _ _ ih => rw [sentOf_append, requestsReceived_append]; simp [sentOf, requestsReceived, data] at ih ⊢; omega

theorem metadataReceived_append (a b : List Event) : metadataReceived (a ++ b) = metadataReceived a + metadataReceived b := by
  simp [metadataReceived, dataReceived_append]

theorem talk_metadata {n : Nat} {ps s es} (h : Talk n ps s es) : metadataReceived es ≤ 16384 * ps.length := by
  induction h with
  | start h => simp [metadataReceived, dataReceived]
  | sent _ ih => rw [metadataReceived_append]; simpa [metadataReceived, dataReceived] using ih
  | ignore _ hm ih => rw [metadataReceived_append]; simpa [metadataReceived, dataReceived_ignorable hm] using ih
  | refuse _ ih => rw [metadataReceived_append]; simpa [metadataReceived, dataReceived, request] using ih
  | @accept ps p es _ hl _ ih =>
    have : p.length ≤ 16384 := by rw [hl]; unfold pieceSize; omega
    rw [metadataReceived_append]
    have e : metadataReceived [.received (data (idx ps.length) (idx n) p)] = p.length := by simp [metadataReceived, dataReceived, data]
    rw [e, List.length_append, List.length_singleton]; omega

/-- What a metadata message carries is a part of the frame. -/
theorem data_frame {f : Bytes} {r : Bep10Registry} {i t : BitVec 32} {p : Bytes} (h : Message.decode f r = .ok (data i t p)) : p.length ≤ f.length := by
  unfold Message.decode at h
  simp only [bind, Except.bind] at h
  split at h
  · cases h
  · rename_i m hm
    split at h
    · rename_i id payload
      simp only [ExtendedMessage.decode] at h
      split at h
      · cases h
      · rename_i x hx
        cases h
        split at hx
        · simp only [bind, Except.bind] at hx
          split at hx <;> cases hx
        · split at hx
          · cases hx
          · simp only [bind, Except.bind] at hx
            split at hx
            · cases hx
            · rename_i m' hd
              cases hx
              obtain ⟨kvs, rest, hb, -, -, hden⟩ := (metadata_decode_spec _ _).1 hd
              cases hden with
              | data =>
                rw [coreMessage_decode_sound f _ hm, hb]
                simp only [CoreMessage.encode, List.length_append]
                omega
    · cases h

theorem isFrames_short {ps : List Bytes} {bs : Bytes} (h : IsFrames ps bs) : ∀ p ∈ ps, p.length ≤ 65535 := by
  induction h with
  | nil => simp
  | cons _ hl _ ih =>
    intro p hp
    rcases List.mem_cons.1 hp with rfl | hp
    · exact hl
    · exact ih p hp

theorem forall₂_mem {α β : Type} {R : α → β → Prop} {as : List α} {bs : List β} (h : List.Forall₂ R as bs) : ∀ b ∈ bs, ∃ a ∈ as, R a b := by
  induction h with
  | nil => simp
  | cons hr _ ih =>
    intro b hb
    rcases List.mem_cons.1 hb with rfl | hb
    · exact ⟨_, .head _, hr⟩
    · obtain ⟨a, ha, h⟩ := ih b hb; exact ⟨a, .tail _ ha, h⟩

theorem last_metadata {m : Message} {k : Nat} (h : ∀ i t p, m = data i t p → p.length ≤ k) : metadataReceived [.received m] ≤ k := by
  cases m with
  | core m => simp [metadataReceived, dataReceived]
  | extended m =>
    cases m with
    | handshake s => simp [metadataReceived, dataReceived]
    | metadata m =>
      cases m with
      | data i t p => simpa [metadataReceived, dataReceived] using h i t p rfl
      | _ => simp [metadataReceived, dataReceived]

theorem greetings_modest (ctx : PeerCtx) (ours h : Handshake) (s : ExtendedHandshake) :
    requestsSent (allGreetings ctx ours h s) = [] ∧ (sentOf (allGreetings ctx ours h s)).length ≤ 2 ∧
      metadataReceived (allGreetings ctx ours h s) = 0 := by
  unfold allGreetings greetings
  cases h.extensions.has .fast <;> simp [requestsSent, sentOf, metadataReceived, dataReceived]

theorem visit_modest {sha1 : Bytes → Bytes} {good : Bytes → Prop} {l : Link} {ctx : PeerCtx} {enc : Bool} {garbage : Bytes → MessageError → Prop}
    {es : List Event} {r : Res PeerError TorrentInfo} {reg : Bep10Registry}
    (h : Visit sha1 good l ctx enc (fun f m => Message.decode f reg = .ok m) garbage es r) : Modest es := by
  have conn : ∀ {ours es r}, Connects l ctx enc ours (fun f m => Message.decode f reg = .ok m) garbage es r → Modest es := by
    intro ours es r hc
    cases hc with
    | @rude h rest f rest' m hg hff hm hng =>
      have : metadataReceived [.received m] ≤ 65535 := by
        refine last_metadata fun i t p e => ?_
        subst e
        have h1 := data_frame hm
        obtain ⟨fr, h2, -⟩ := hff
        have h3 := isFrames_short h2 f (.head _)
        omega
      have e := metadataReceived_append [.sentHandshake ours, .gotHandshake h, .sent (.extended (.handshake (ourGreeting ctx.peerIp)))] [.received m]
      have e' : metadataReceived [.sentHandshake ours, .gotHandshake h, .sent (.extended (.handshake (ourGreeting ctx.peerIp)))] = 0 := rfl
      refine ⟨by simp [requestsSent], by simp [sentOf]; omega, ?_⟩
      simp only [List.cons_append, List.nil_append] at e
      omega
    | _ => exact ⟨by simp [requestsSent, greetings], by simp [sentOf, greetings]; try omega, by simp [metadataReceived, dataReceived, greetings]⟩
  cases h with
  | failed _ hc => exact conn hc
  | late _ hc => exact conn hc
  | panicked _ hc => exact conn hc
  | @sizeless ours h s _ _ _ _ _ =>
    obtain ⟨h1, h2, h3⟩ := greetings_modest ctx ours h s
    exact ⟨by rw [h1]; simp, by omega, by rw [h3]; omega⟩
  | @huge ours h s _ _ _ _ _ _ _ =>
    obtain ⟨h1, h2, h3⟩ := greetings_modest ctx ours h s
    exact ⟨by rw [h1]; simp, by omega, by rw [h3]; omega⟩
  | @talked ours h s code n used left fs t stop es r ho hag hf hno hm hn hread he =>
    obtain ⟨h1, h2, h3⟩ := greetings_modest ctx ours h s
    have hshort : ∀ i t p, data i t p ∈ receivedOf es → p.length ≤ 65535 := by
      intro i t p hp
      obtain ⟨f, hf1, hf2⟩ := forall₂_mem hread _ hp
      have := data_frame hf2
      have := isFrames_short hf f (by simp [hf1])
      omega
    have main : (requestsSent es).length ≤ 1280 ∧ (sentOf es).length ≤ 1280 + (requestsReceived es).length ∧
        metadataReceived es ≤ 20 * 1024 * 1024 + 65535 := by
      rcases ends_talk he with ⟨rfl, _⟩ | ⟨ps, s', ht, _⟩ | ⟨ps, es', m, rfl, ht, hm', _⟩
      · simp [requestsSent, sentOf, metadataReceived, dataReceived]
      · have a := talk_sent_count ht
        have b := talk_count ht hn
        have d := talk_metadata ht
        have e := (talk_facts ht).asking
        refine ⟨?_, by omega, by omega⟩
        cases s' with
        | none => simp only at e; rw [e]; simp; omega
        | some m =>
          rcases e with ⟨_, e⟩ | ⟨_, _, _, _, e⟩ <;> rw [e] <;> simp <;> omega
      · have a := talk_sent_count ht
        have b := talk_count ht hn
        have d := talk_metadata ht
        have e := (talk_facts ht).asking
        simp only at e a
        refine ⟨?_, ?_, ?_⟩
        · rw [requestsSent_append, e, requestsSent_received]; simp; omega
        · rw [sentOf_append, requestsReceived_append]; simp [sentOf]; omega
        · rw [metadataReceived_append]
          have : metadataReceived [.received m] ≤ 65535 := by
            refine last_metadata fun i t p e => ?_
            subst e
            exact hshort i t p (by rw [receivedOf_append]; simp [receivedOf])
          omega
    obtain ⟨m1, m2, m3⟩ := main
    refine ⟨?_, ?_, ?_⟩
    · rw [requestsSent_append, h1]; simpa using m1
    · rw [sentOf_append, requestsReceived_append, List.length_append, List.length_append]; omega
    · rw [metadataReceived_append, h3]; omega

/-- **C80, C81.** Whatever the peers do: a peer is connected to at most twice, and over each connection it is asked for at most 1280 pieces, is sent
at most 1282 messages besides one for each of its own requests, and delivers at most 20 MiB of metadata and one message more. -/
theorem visits_modest (sha1 : Bytes → Bytes) (links : Nat → Link) (ctx : PeerCtx) (override : Option CryptoMode) (pref : CryptoPreference)
    (required : Bool) : (infoGetterRun sha1 links ctx override pref required).1.length ≤ 2 ∧
      ∀ a ∈ (infoGetterRun sha1 links ctx override pref required).1, Modest a.trace := by
  have h := run_spec sha1 links ctx override pref required
  generalize (infoGetterRun sha1 links ctx override pref required).1 = as at h
  generalize (infoGetterRun sha1 links ctx override pref required).2 = r at h
  cases h with
  | impossible => exact ⟨by simp, by simp⟩
  | encrypted _ hv _ =>
    refine ⟨by simp, fun a ha => ?_⟩
    rw [List.mem_singleton] at ha
    subst ha; exact visit_modest hv
  | plain _ _ hv =>
    refine ⟨by simp, fun a ha => ?_⟩
    rw [List.mem_singleton] at ha
    subst ha; exact visit_modest hv
  | fallback _ _ hv hv' =>
    refine ⟨by simp, fun a ha => ?_⟩
    simp only [List.mem_cons, List.not_mem_nil, or_false] at ha
    rcases ha with rfl | rfl
    · exact visit_modest hv
    · exact visit_modest hv'

/-- **C80.** The metadata got from a peer has at most 20 MiB. -/
theorem metadata_small (sha1 : Bytes → Bytes) (links : Nat → Link) (ctx : PeerCtx) (override : Option CryptoMode) (pref : CryptoPreference)
    (required : Bool) (info : TorrentInfo) (h : (infoGetterRun sha1 links ctx override pref required).2 = .ok info) :
    info.data.length ≤ 20 * 1024 * 1024 := by
  have visit : ∀ {l enc es}, Visit sha1 IsInfoDict l ctx enc (fun f m => Message.decode f reg42 = .ok m) (fun f e => Message.decode f reg42 = .error e) es
      (.ok info) → info.data.length ≤ 20 * 1024 * 1024 := by
    intro l enc es hv
    generalize hz : (Res.ok info : Res PeerError TorrentInfo) = z at hv
    cases hv with
    | talked _ _ _ _ _ hn _ he =>
      subst hz
      obtain ⟨-, -, -, ps, -, h2, ⟨-, h3⟩, h4, -⟩ := session_success info he
      rw [← h2]
      have hl := pieceCount_le hn
      have : ∀ (qs : List Bytes), (∀ q ∈ qs, q.length ≤ 16384) → qs.flatten.length ≤ 16384 * qs.length := by
        intro qs
        induction qs with
        | nil => simp
        | cons q qs ih =>
          intro hq
          have h1 := ih fun q h => hq q (.tail _ h)
          have h2 := hq q (.head _)
          simp only [List.flatten_cons, List.length_append, List.length_cons]
          omega
      have h5 := this ps (by
        intro q hq
        obtain ⟨i, hi, rfl⟩ := List.getElem_of_mem hq
        rw [h3 i hi]; unfold pieceSize; omega)
      omega
    | _ => cases hz
  have hr := run_spec sha1 links ctx override pref required
  rw [h] at hr
  generalize (infoGetterRun sha1 links ctx override pref required).1 = as at hr
  generalize hz : (Res.ok info : Res PeerError TorrentInfo) = z at hr
  cases hr with
  | impossible => cases hz
  | encrypted _ hv _ => subst hz; exact visit hv
  | plain _ _ hv => subst hz; exact visit hv
  | fallback _ _ _ hv => subst hz; exact visit hv

end Demag.Props
