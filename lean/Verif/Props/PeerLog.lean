import Verif.Spec.PeerLog
import Verif.Props.Connect
import Verif.Props.SecureLink

/-! # C98: the log of fetching metadata from a peer -/

namespace Demag.Props

open Demag Demag.Spec

theorem narrate_append (p : Peer) (a b : List Event) : narrate p (a ++ b) = narrate p a ++ narrate p b := by simp [narrate]

theorem narrate_received (p : Peer) (m : Message) (es : List Event) : narrate p (.received m :: es) = .received p m :: narrate p es := rfl

theorem granted_ok {l : Link} {k n : Nat} (h : l.sends n = .ok) : (granted l k).sends n = .ok := by
  simp only [granted]; split <;> [rfl; exact h]

theorem granted_self (l : Link) (k : Nat) : (granted l k).sends k = .ok := by simp [granted]

/-- How one function of the conversation relates to its log: `r` is its result, `r'` what it would be if the next send worked. -/
structure Tells {α : Type} (p : Peer) (l : Link) (t0 : List Event) (r r' : Chan × Res PeerError α) (log fin : List LogLine) : Prop where
  talk : ∃ es more, r.1.trace = t0 ++ es ∧ r'.1.trace = t0 ++ es ++ more ∧ log = narrate p (es ++ more.take 1) ++ fin ∧
    (more = [] → r' = r ∧ r.2 ≠ .err .send) ∧
    (∀ e, more.head? = some e → IsSend e ∧
      (l.sends r.1.nsent = .fail ∧ r.2 = .err .send ∨ l.sends r.1.nsent = .hang ∧ r.2 = .hang))

theorem Tells.more {α : Type} {p : Peer} {l : Link} {t0 : List Event} {r r' : Chan × Res PeerError α} {log fin : List LogLine} (e : Event)
    (h : Tells p l (t0 ++ [e]) r r' log fin) : Tells p l t0 r r' (eventLines p e ++ log) fin := by
  obtain ⟨es, mo, h1, h2, h3, h4, h5⟩ := h
  refine ⟨e :: es, mo, by simpa using h1, by simpa using h2, ?_, h4, h5⟩
  rw [h3]; simp [narrate]

theorem Tells.stop {α : Type} (p : Peer) (l : Link) (c : Chan) (r : Res PeerError α) (hr : r ≠ .err .send) (fin : List LogLine) :
    Tells p l c.trace (c, r) (c, r) fin fin :=
  ⟨[], [], by simp, by simp, by simp [narrate], fun _ => ⟨rfl, hr⟩, by simp⟩

/-! ### Sending and receiving -/

/-- Messages that can be sent. -/
def Sendable (c : Chan) (m : Message) : Prop := ∃ b, m.encode c.remoteReg = .ok b ∧ b.length ≤ 65535

theorem send_granted {l : Link} {c : Chan} {m : Message} (h : Sendable c m) :
    (∃ c', c.send l m = (c', .ok ()) ∧ c'.trace = c.trace ++ [.sent m] ∧ c'.remoteReg = c.remoteReg ∧ c'.localReg = c.localReg ∧
      ∀ k, c.send (granted l k) m = (c', .ok ())) ∨
    (∃ c', (c.send l m = (c, .err .send) ∧ l.sends c.nsent = .fail ∨ c.send l m = (c, .hang) ∧ l.sends c.nsent = .hang) ∧
      c.send (granted l c.nsent) m = (c', .ok ()) ∧ c'.trace = c.trace ++ [.sent m] ∧ c'.remoteReg = c.remoteReg) := by
  obtain ⟨b, hb, hl⟩ := h
  obtain ⟨w, hw, -⟩ := frameEncode_ok hl
  have hs : ∀ l' : Link, c.send l' m = match l'.sends c.nsent with
      | .ok => (sentChan c m w, .ok ())
      | .fail => (c, .err .send)
      | .hang => (c, .hang) := by
    intro l'; unfold Chan.send; simp only [hb, hw]; rfl
  cases hk : l.sends c.nsent with
  | ok => exact .inl ⟨sentChan c m w, by rw [hs, hk], rfl, rfl, rfl, fun k => by rw [hs, granted_ok hk]⟩
  | fail => exact .inr ⟨sentChan c m w, .inl ⟨by rw [hs, hk], rfl⟩, by rw [hs, granted_self], rfl, rfl⟩
  | hang => exact .inr ⟨sentChan c m w, .inr ⟨by rw [hs, hk], rfl⟩, by rw [hs, granted_self], rfl, rfl⟩

theorem recv_trace {c c1 : Chan} {m : Message} (h : c.recv = (c1, .ok m)) :
    c1.trace = c.trace ++ [.received m] ∧ c1.remoteReg = c.remoteReg ∧ c1.localReg = c.localReg ∧ c1.nsent = c.nsent := by
  unfold Chan.recv at h
  split at h
  · split at h <;> cases h
  · split at h
    · cases h
    · cases h; exact ⟨rfl, rfl, rfl, rfl⟩

theorem recv_other {c c1 : Chan} {r : Res PeerError Message} (h : c.recv = (c1, r)) (hr : ∀ m, r ≠ .ok m) :
    c1.trace = c.trace ∧ r ≠ .err .send ∧ r ≠ .panic := by
  unfold Chan.recv at h
  split at h
  · split at h <;> (cases h; exact ⟨rfl, by simp, by simp⟩)
  · split at h
    · cases h; exact ⟨rfl, by simp, by simp⟩
    · cases h; exact absurd rfl (hr _)

/-! ### The pieces -/

/-- What is done about a message while waiting for a piece. -/
inductive PieceStep where
  | stop (r : Res PeerError TorrentInfo)
  | reply (m : MetadataMessage) (piecer : TorrentInfoBuilder) (j : BitVec 32)
  | skip

/-- See `awaitPiece`. -/
def pieceStep (sha1 : Bytes → Bytes) (size : BitVec 32) (piecer : TorrentInfoBuilder) (i : BitVec 32) : Message → PieceStep
  | .extended (.metadata (.data piece totalSize payload)) =>
    if totalSize ≠ size then .stop (.err (.sizeMismatch size totalSize))
    else if piece ≠ i then .stop (.err (.wrongPiece i piece))
    else
      match piecer.push payload with
      | (_, .error .panic) => .stop .panic
      | (_, .error e) => .stop (.err (.infoPush e))
      | (piecer, .ok ()) =>
        match piecer.nextPiece with
        | none =>
          match piecer.build sha1 with
          | .ok info => .stop (.ok info)
          | .error e => .stop (.err (.infoBuild e))
        | some j => .reply (.request (BitVec.ofNat 32 j)) piecer (BitVec.ofNat 32 j)
  | .extended (.metadata (.reject piece)) =>
    if piece ≠ i then .stop (.err (.wrongPiece i piece)) else .stop (.err (.infoRequestRejected piece))
  | .extended (.metadata (.request piece)) => .reply (.reject piece) piecer i
  | .extended (.metadata (.unknown _)) => .skip
  | msg => if msg.canBeIgnored then .skip else .stop (.err (.unexpected msg))

theorem pieceStep_reply {sha1 size piecer i msg m b j} (h : pieceStep sha1 size piecer i msg = .reply m b j) :
    (∃ q, m = .request q) ∨ ∃ q, m = .reject q := by
  unfold pieceStep at h
  split at h
  · split at h
    · cases h
    · split at h
      · cases h
      · split at h
        · cases h
        · cases h
        · split at h
          · split at h <;> cases h
          · cases h; exact .inl ⟨_, rfl⟩
  · split at h <;> cases h
  · cases h; exact .inr ⟨_, rfl⟩
  · cases h
  · split at h <;> cases h

theorem pieceStep_stop {sha1 size piecer i msg r} (h : pieceStep sha1 size piecer i msg = .stop r) : r ≠ .err .send := by
  rintro rfl
  unfold pieceStep at h
  split at h
  · split at h
    · cases h
    · split at h
      · cases h
      · split at h
        · cases h
        · cases h
        · split at h
          · split at h <;> cases h
          · cases h
  · split at h <;> cases h
  · cases h
  · cases h
  · split at h <;> cases h

theorem awaitPiece_other {sha1 l size c piecer i c1 r} (h : c.recv = (c1, r)) (hr : ∀ m, r ≠ .ok m) :
    awaitPiece sha1 l size c piecer i = (c1, match r with | .err e => .err e | .hang => .hang | _ => .panic) := by
  rw [awaitPiece]
  split <;> rename_i h' <;> rw [h] at h' <;> cases h' <;> first | rfl | exact absurd rfl (hr _)

theorem awaitPiece_msg {sha1 l size c piecer i c1 msg} (h : c.recv = (c1, .ok msg)) :
    awaitPiece sha1 l size c piecer i =
      match pieceStep sha1 size piecer i msg with
      | .stop r => (c1, r)
      | .skip => awaitPiece sha1 l size c1 piecer i
      | .reply m b j =>
        match c1.send l (metadataMsg m) with
        | (c2, .ok ()) => awaitPiece sha1 l size c2 b j
        | (c2, .err e) => (c2, .err e)
        | (c2, .hang) => (c2, .hang)
        | (c2, .panic) => (c2, .panic) := by
  rw [awaitPiece]
  split <;> rename_i h' <;> rw [h] at h' <;> cases h'
  match msg, h with
  | .core m, h => simp only [pieceStep]; split <;> rfl
  | .extended (.handshake _), h => simp only [pieceStep]; split <;> rfl
  | .extended (.metadata (.reject q)), h => simp only [pieceStep]; by_cases hq : q ≠ i <;> simp only [hq, if_true, if_false, ne_eq, not_false_eq_true] <;> rfl
  | .extended (.metadata (.request q)), h => simp only [pieceStep]; split <;> rename_i h2 <;> rw [h2]
  | .extended (.metadata (.unknown _)), h => rfl
  | .extended (.metadata (.data q t pl)), h =>
    simp only [pieceStep]
    by_cases h1 : t ≠ size
    · rw [if_pos h1, if_pos h1]
    · rw [if_neg h1, if_neg h1]
      by_cases h2 : q ≠ i
      · rw [if_pos h2, if_pos h2]
      · rw [if_neg h2, if_neg h2]
        rcases hq : piecer.push pl with ⟨b, e | u⟩
        · cases e <;> rfl
        · simp only
          cases b.nextPiece with
          | none => simp only; cases b.build sha1 <;> rfl
          | some j => simp only; split <;> rename_i h2 <;> rw [h2]

theorem awaitPieceLog_other {sha1 m p l size c piecer i c1 r} (h : c.recv = (c1, r)) (hr : ∀ m, r ≠ .ok m) :
    awaitPieceLog sha1 m p l size c piecer i = [] := by
  rw [awaitPieceLog]
  split <;> rename_i h' <;> rw [h] at h' <;> cases h' <;> first | rfl | exact absurd rfl (hr _)

theorem awaitPieceLog_msg {sha1 mag p l size c piecer i c1 msg} (h : c.recv = (c1, .ok msg)) :
    awaitPieceLog sha1 mag p l size c piecer i = .received p msg ::
      match pieceStep sha1 size piecer i msg with
      | .stop r => gotLines mag p r
      | .skip => awaitPieceLog sha1 mag p l size c1 piecer i
      | .reply m b j => eventLines p (.sent (metadataMsg m)) ++
        match c1.send l (metadataMsg m) with
        | (c2, .ok ()) => awaitPieceLog sha1 mag p l size c2 b j
        | _ => [] := by
  rw [awaitPieceLog]
  split <;> rename_i h' <;> rw [h] at h' <;> cases h'
  congr 1
  match msg, h with
  | .core m, h => simp only [pieceStep]; split <;> rfl
  | .extended (.handshake _), h => simp only [pieceStep]; split <;> rfl
  | .extended (.metadata (.reject q)), h => by_cases hq : q ≠ i <;> simp only [pieceStep, hq, if_true, if_false, ne_eq, not_false_eq_true] <;> rfl
  | .extended (.metadata (.request q)), h => simp only [pieceStep]; split <;> rename_i h2 <;> rw [h2] <;> rfl
  | .extended (.metadata (.unknown _)), h => rfl
  | .extended (.metadata (.data q t pl)), h =>
    simp only [pieceStep]
    by_cases h1 : t ≠ size
    · rw [if_pos h1, if_pos h1]; rfl
    · rw [if_neg h1, if_neg h1]
      by_cases h2 : q ≠ i
      · rw [if_pos h2, if_pos h2]; rfl
      · rw [if_neg h2, if_neg h2]
        rcases hq : piecer.push pl with ⟨b, e | u⟩
        · cases e <;> rfl
        · simp only
          cases b.nextPiece with
          | none => simp only; cases b.build sha1 <;> rfl
          | some j => simp only; split <;> rename_i h2 <;> rw [h2] <;> rfl

theorem metadata_sendable {c : Chan} {m : MetadataMessage} (hr : c.remoteReg.contains .metadata = true)
    (h : (∃ p, m = .request p) ∨ ∃ p, m = .reject p) : Sendable c (metadataMsg m) := encode_metadata _ _ hr h

theorem awaitPiece_trace (sha1 : Bytes → Bytes) (l : Link) (size : BitVec 32) (k : Nat) : ∀ (c : Chan) (piecer : TorrentInfoBuilder) (i : BitVec 32),
    c.frames.length = k → c.remoteReg.contains .metadata = true → ∃ es, (awaitPiece sha1 l size c piecer i).1.trace = c.trace ++ es := by
  induction k using Nat.strongRecOn with
  | _ k ih =>
    intro c piecer i hk hreg
    rcases hr : c.recv with ⟨c1, r⟩
    by_cases ho : ∃ m, r = .ok m
    · obtain ⟨msg, rfl⟩ := ho
      obtain ⟨ht, hg, -, -⟩ := recv_trace hr
      have hd := Chan.recv_decreases hr
      rw [awaitPiece_msg hr]
      cases hp : pieceStep sha1 size piecer i msg with
      | stop r => exact ⟨_, ht⟩
      | skip =>
        obtain ⟨es, he⟩ := ih _ (hk ▸ hd) c1 piecer i rfl (by rw [hg]; exact hreg)
        exact ⟨.received msg :: es, by simp only; rw [he, ht]; simp⟩
      | reply m b j =>
        simp only
        rcases send_granted (l := l) (metadata_sendable (c := c1) (by rw [hg]; exact hreg) (pieceStep_reply hp)) with
          ⟨c2, h1, h2, h3, h3', h4⟩ | ⟨c2, h1 | h1, h2⟩
        · obtain ⟨es, he⟩ := ih _ (hk ▸ hd) c2 b j (by rw [Chan.send_frames h1]) (by rw [h3, hg]; exact hreg)
          exact ⟨.received msg :: .sent (metadataMsg m) :: es, by rw [h1]; simp only; rw [he, h2, ht]; simp⟩
        · rw [h1.1]; exact ⟨_, ht⟩
        · rw [h1.1]; exact ⟨_, ht⟩
    · push Not at ho
      rw [awaitPiece_other hr ho]
      exact ⟨[], by simp [(recv_other hr ho).1]⟩

theorem awaitPiece_told (sha1 : Bytes → Bytes) (mag : Magnet) (p : Peer) (l : Link) (size : BitVec 32) (k : Nat) :
    ∀ (c : Chan) (piecer : TorrentInfoBuilder) (i : BitVec 32),
    c.frames.length = k → c.remoteReg.contains .metadata = true →
    Tells p l c.trace (awaitPiece sha1 l size c piecer i)
      (awaitPiece sha1 (granted l (awaitPiece sha1 l size c piecer i).1.nsent) size c piecer i)
      (awaitPieceLog sha1 mag p l size c piecer i) (gotLines mag p (awaitPiece sha1 l size c piecer i).2) := by
  induction k using Nat.strongRecOn with
  | _ k ih =>
    intro c piecer i hk hreg
    rcases hr : c.recv with ⟨c1, r⟩
    by_cases ho : ∃ m, r = .ok m
    · obtain ⟨msg, rfl⟩ := ho
      obtain ⟨ht, hg, -, -⟩ := recv_trace hr
      have hd := Chan.recv_decreases hr
      rw [awaitPieceLog_msg hr]
      refine Tells.more (.received msg) ?_
      rw [← ht]
      cases hp : pieceStep sha1 size piecer i msg with
      | stop r =>
        rw [awaitPiece_msg hr, awaitPiece_msg hr, hp]
        exact Tells.stop p l c1 r (pieceStep_stop hp) _
      | skip =>
        rw [awaitPiece_msg hr, awaitPiece_msg hr, hp]
        exact ih _ (hk ▸ hd) c1 piecer i rfl (by rw [hg]; exact hreg)
      | reply m b j =>
        rcases send_granted (l := l) (metadata_sendable (c := c1) (by rw [hg]; exact hreg) (pieceStep_reply hp)) with
          ⟨c2, h1, h2, h3, h3', h4⟩ | ⟨c2, h1, h2, h3, h3'⟩
        · rw [awaitPiece_msg hr, awaitPiece_msg hr, hp]
          simp only [h1]
          rw [h4]
          refine Tells.more _ ?_
          rw [← h2]
          exact ih _ (hk ▸ hd) c2 b j (by rw [Chan.send_frames h1]) (by rw [h3, hg]; exact hreg)
        · have hreg2 : c2.remoteReg.contains .metadata = true := by rw [h3', hg]; exact hreg
          obtain ⟨es, he⟩ := awaitPiece_trace sha1 (granted l c1.nsent) size _ c2 b j rfl hreg2
          have ha : (awaitPiece sha1 l size c piecer i).1 = c1 := by
            rw [awaitPiece_msg hr, hp]
            rcases h1 with h1 | h1 <;> simp only [h1.1]
          rw [ha]
          have hb : awaitPiece sha1 (granted l c1.nsent) size c piecer i = awaitPiece sha1 (granted l c1.nsent) size c2 b j := by
            rw [awaitPiece_msg hr, hp]; simp only [h2]
          rw [hb]
          rw [awaitPiece_msg hr, hp]
          rcases h1 with ⟨h1, h1'⟩ | ⟨h1, h1'⟩ <;> simp only [h1] <;>
          · refine ⟨[], .sent (metadataMsg m) :: es, by simp, by rw [he, h3]; simp, by simp [narrate, gotLines], by simp, ?_⟩
            intro e h
            cases h
            exact ⟨trivial, by simp [h1']⟩
    · push Not at ho
      obtain ⟨h1, h2, h3⟩ := recv_other hr ho
      rw [awaitPiece_other hr ho, awaitPiece_other hr ho, awaitPieceLog_other hr ho, ← h1]
      cases r with
      | ok m => exact absurd rfl (ho m)
      | err e => exact Tells.stop p l c1 (.err e) (by simpa using h2) []
      | hang => exact Tells.stop p l c1 .hang (by simp) []
      | panic => exact absurd rfl h3

/-! ### The metadata -/

theorem getMetadata_cases (sha1 : Bytes → Bytes) (ih : InfoHash) (size : Option (BitVec 32)) (c : Chan) :
    (∃ r, r ≠ .err .send ∧ ∀ l mag p, getMetadataInfo sha1 l ih size c = (c, r) ∧ getMetadataLog sha1 mag p l ih size c = gotLines mag p r) ∨
    (∃ n b i, ∀ l mag p, getMetadataInfo sha1 l ih size c =
        (match c.send l (metadataMsg (.request i)) with
        | (c, .ok ()) => awaitPiece sha1 l n c b i
        | (c, .err e) => (c, .err e)
        | (c, .hang) => (c, .hang)
        | (c, .panic) => (c, .panic)) ∧
      getMetadataLog sha1 mag p l ih size c = .sending p (metadataMsg (.request i)) ::
        match c.send l (metadataMsg (.request i)) with
        | (c, .ok ()) => awaitPieceLog sha1 mag p l n c b i
        | _ => []) := by
  cases size with
  | none => exact .inl ⟨.err .noMetadataSize, by simp, fun l mag p => ⟨rfl, rfl⟩⟩
  | some n =>
    cases hb : TorrentInfoBuilder.new ih n with
    | error e =>
      cases e with
      | panic => exact .inl ⟨.panic, by simp, fun l mag p => ⟨by simp only [getMetadataInfo, hb], by simp only [getMetadataLog, hb]; rfl⟩⟩
      | tooLarge q => exact .inl ⟨.err (.infoConstruct (.tooLarge q)), by simp, fun l mag p => ⟨by simp only [getMetadataInfo, hb], by simp only [getMetadataLog, hb]; rfl⟩⟩
    | ok b =>
      cases hn : b.nextPiece with
      | none =>
        cases hi : b.build sha1 with
        | ok info => exact .inl ⟨.ok info, by simp, fun l mag p => ⟨by simp only [getMetadataInfo, hb, hn, hi], by simp only [getMetadataLog, hb, hn, hi]; rfl⟩⟩
        | error e => exact .inl ⟨.err (.infoBuild e), by simp, fun l mag p => ⟨by simp only [getMetadataInfo, hb, hn, hi], by simp only [getMetadataLog, hb, hn, hi]; rfl⟩⟩
      | some i => exact .inr ⟨n, b, BitVec.ofNat 32 i, fun l mag p => ⟨by simp only [getMetadataInfo, hb, hn]; rfl, by simp only [getMetadataLog, hb, hn]; rfl⟩⟩

theorem getMetadata_trace (sha1 : Bytes → Bytes) (l : Link) (ih : InfoHash) (size : Option (BitVec 32)) (c : Chan)
    (hreg : c.remoteReg.contains .metadata = true) : ∃ es, (getMetadataInfo sha1 l ih size c).1.trace = c.trace ++ es := by
  rcases getMetadata_cases sha1 ih size c with ⟨r, -, h⟩ | ⟨n, b, i, h⟩
  all_goals have h := fun l => (h l ⟨ih, none, []⟩ ⟨.v4 ⟨⟨0⟩, 0⟩, none, false⟩)
  · exact ⟨[], by rw [(h l).1]; simp⟩
  · rw [(h l).1]
    rcases send_granted (l := l) (metadata_sendable hreg (.inl ⟨i, rfl⟩)) with ⟨c2, h1, h2, h3, -, -⟩ | ⟨c2, h1 | h1, h2⟩
    · obtain ⟨es, he⟩ := awaitPiece_trace sha1 l n _ c2 b i rfl (by rw [h3]; exact hreg)
      exact ⟨.sent (metadataMsg (.request i)) :: es, by rw [h1]; simp only; rw [he, h2]; simp⟩
    · rw [h1.1]; exact ⟨[], by simp⟩
    · rw [h1.1]; exact ⟨[], by simp⟩

theorem getMetadata_told (sha1 : Bytes → Bytes) (mag : Magnet) (p : Peer) (l : Link) (ih : InfoHash) (size : Option (BitVec 32)) (c : Chan)
    (hreg : c.remoteReg.contains .metadata = true) :
    Tells p l c.trace (getMetadataInfo sha1 l ih size c) (getMetadataInfo sha1 (granted l (getMetadataInfo sha1 l ih size c).1.nsent) ih size c)
      (getMetadataLog sha1 mag p l ih size c) (gotLines mag p (getMetadataInfo sha1 l ih size c).2) := by
  rcases getMetadata_cases sha1 ih size c with ⟨r, h0, h⟩ | ⟨n, b, i, h⟩
  all_goals have h := fun l => h l mag p
  · rw [(h _).1, (h _).2, (h _).1]; exact Tells.stop p l c r h0 _
  · rw [(h l).2]
    rcases send_granted (l := l) (metadata_sendable hreg (.inl ⟨i, rfl⟩)) with ⟨c2, h1, h2, h3, -, h4⟩ | ⟨c2, h1, h2, h3, h3'⟩
    · rw [(h _).1, (h _).1]
      simp only [h1, h4]
      refine Tells.more (.sent (metadataMsg (.request i))) ?_
      rw [← h2]
      exact awaitPiece_told sha1 mag p l n _ c2 b i rfl (by rw [h3]; exact hreg)
    · obtain ⟨es, he⟩ := awaitPiece_trace sha1 (granted l c.nsent) n _ c2 b i rfl (by rw [h3']; exact hreg)
      have ha : (getMetadataInfo sha1 l ih size c).1 = c := by
        rw [(h l).1]; rcases h1 with h1 | h1 <;> simp only [h1.1]
      rw [ha, (h _).1, (h _).1]
      simp only [h2]
      rcases h1 with ⟨h1, h1'⟩ | ⟨h1, h1'⟩ <;> simp only [h1] <;>
      · refine ⟨[], .sent (metadataMsg (.request i)) :: es, by simp, by rw [he, h3]; simp, by simp [narrate, gotLines, eventLines, metadataMsg], by simp, ?_⟩
        intro e h
        cases h
        exact ⟨trivial, by simp [h1']⟩

/-! ### Connecting -/

theorem haveNone_sendable (c : Chan) : Sendable c (.core .haveNone) := ⟨CoreMessage.encode .haveNone, rfl, by decide +kernel⟩

theorem greeting_sendable {c : Chan} (ctx : PeerCtx) (h : c.localReg = reg42) :
    Sendable c (.extended (.handshake (ourExtendedHandshake ctx c.localReg))) := by
  rw [h, ourExtendedHandshake_eq]; exact ourGreeting_encode ctx.peerIp _

/-- What is done about the answer to our extended handshake: an error, or the registry and the size. -/
def greetStep : Message → Except PeerError (Bep10Registry × Option (BitVec 32))
  | .extended (.handshake shake) =>
    match shake.intoRegistry with
    | .error e => .error (.registry e)
    | .ok remote => if ! remote.contains .metadata then .error .noMetadataExt else .ok (remote, shake.metadataSize)
  | _ => .error .noExtendedHandshake

theorem greetStep_ok {msg reg size} (h : greetStep msg = .ok (reg, size)) : reg.contains .metadata = true := by
  unfold greetStep at h
  split at h
  · split at h
    · cases h
    · split at h
      · cases h
      · rename_i hc; cases h; simpa using hc
  · cases h

theorem greetStep_error {msg e} (h : greetStep msg = .error e) : e ≠ .send := by
  unfold greetStep at h
  split at h
  · split at h
    · cases h; simp
    · split at h
      · cases h; simp
      · cases h
  · cases h; simp

theorem connectExtended_other {l ctx exts c c2 c3 r} (h1 : c.send l (.extended (.handshake (ourExtendedHandshake ctx c.localReg))) = (c2, .ok ()))
    (h2 : c2.recv = (c3, r)) (hr : ∀ m, r ≠ .ok m) (p : Peer) :
    connectExtended l ctx exts c = (c3, match r with | .err e => .err e | .hang => .hang | _ => .panic) ∧
    connectExtendedLog p l ctx exts c = [.sending p (.extended (.handshake (ourExtendedHandshake ctx c.localReg)))] := by
  unfold connectExtended connectExtendedLog
  simp only [h1, h2]
  cases r with
  | ok m => exact absurd rfl (hr m)
  | _ => exact ⟨rfl, rfl⟩

theorem connectExtended_msg {l ctx exts c c2 c3 msg} (h1 : c.send l (.extended (.handshake (ourExtendedHandshake ctx c.localReg))) = (c2, .ok ()))
    (h2 : c2.recv = (c3, .ok msg)) (p : Peer) :
    connectExtended l ctx exts c =
      (match greetStep msg with
      | .error e => (c3, .err e)
      | .ok (remote, size) =>
        if exts.has .fast then
          match ({ c3 with remoteReg := remote } : Chan).send l (.core .haveNone) with
          | (c, .err e) => (c, .err e)
          | (c, .hang) => (c, .hang)
          | (c, .panic) => (c, .panic)
          | (c, .ok ()) => (c, .ok size)
        else ({ c3 with remoteReg := remote }, .ok size)) ∧
    connectExtendedLog p l ctx exts c = .sending p (.extended (.handshake (ourExtendedHandshake ctx c.localReg))) :: .received p msg ::
      match greetStep msg with
      | .error _ => []
      | .ok _ => if exts.has .fast then [.sending p (.core .haveNone)] else [] := by
  unfold connectExtended connectExtendedLog
  simp only [h1, h2]
  match msg, h2 with
  | .core m, h2 => exact ⟨rfl, rfl⟩
  | .extended (.metadata _), h2 => exact ⟨rfl, rfl⟩
  | .extended (.handshake shake), h2 =>
    simp only [greetStep]
    cases shake.intoRegistry with
    | error e => exact ⟨rfl, rfl⟩
    | ok remote =>
      simp only
      cases hc : remote.contains .metadata with
      | false => exact ⟨rfl, rfl⟩
      | true => exact ⟨rfl, rfl⟩

/-- All about the extended handshake. -/
structure Joined {α : Type} (p : Peer) (t0 : List Event) (F : Link → Chan × Res PeerError α) (log : Link → List LogLine) : Prop where
  grows : ∀ l, ∃ es, (F l).1.trace = t0 ++ es
  same : ∀ l c a, F l = (c, .ok a) → (c.remoteReg.contains .metadata = true) ∧ ∀ k, F (granted l k) = (c, .ok a)
  told : ∀ l, Tells p l t0 (F l) (F (granted l (F l).1.nsent)) (log l) []

theorem connectExtended_joined (p : Peer) (ctx : PeerCtx) (exts : ExtensionSet) (c : Chan) (hreg : c.localReg = reg42) :
    Joined p c.trace (fun l => connectExtended l ctx exts c) (fun l => connectExtendedLog p l ctx exts c) := by
  -- the part after the extended handshakes
  have hlast : ∀ (l : Link) (c3 : Chan), exts.has .fast = true → ∃ c4, c4.trace = c3.trace ++ [.sent (.core .haveNone)] ∧
      c4.remoteReg = c3.remoteReg ∧
      ((∀ k, c3.send (granted l k) (.core .haveNone) = (c4, .ok ())) ∧ c3.send l (.core .haveNone) = (c4, .ok ()) ∨
       c3.send (granted l c3.nsent) (.core .haveNone) = (c4, .ok ()) ∧
        (c3.send l (.core .haveNone) = (c3, .err .send) ∧ l.sends c3.nsent = .fail ∨ c3.send l (.core .haveNone) = (c3, .hang) ∧ l.sends c3.nsent = .hang)) := by
    intro l c3 _
    rcases send_granted (l := l) (haveNone_sendable c3) with ⟨c', h1, h2, h3, -, h4⟩ | ⟨c', h1, h2, h3, h3'⟩
    · exact ⟨c', h2, h3, .inl ⟨h4, h1⟩⟩
    · exact ⟨c', h3, h3', .inr ⟨h2, h1⟩⟩
  refine ⟨fun l => ?_, fun l cc a h => ?_, fun l => ?_⟩
  · show ∃ es, (connectExtended l ctx exts c).1.trace = c.trace ++ es
    rcases send_granted (l := l) (greeting_sendable ctx hreg) with ⟨c2, h1, h2, h3, h3', h4⟩ | ⟨c2, h1 | h1, h2⟩
    · rcases hr : c2.recv with ⟨c3, r⟩
      by_cases ho : ∃ m, r = .ok m
      · obtain ⟨msg, rfl⟩ := ho
        obtain ⟨ht, -⟩ := recv_trace hr
        rw [(connectExtended_msg h1 hr p).1]
        cases hg : greetStep msg with
        | error e => exact ⟨_, by simp only; rw [ht, h2]; simp; rfl⟩
        | ok q =>
          obtain ⟨reg, size⟩ := q
          simp only
          split
          · rename_i hf
            obtain ⟨c4, h5, -, h6 | h6⟩ := hlast l { c3 with remoteReg := reg } hf
            · rw [h6.2]; exact ⟨_, by simp only; rw [h5]; simp only; rw [ht, h2]; simp; rfl⟩
            · rcases h6.2 with h7 | h7 <;> rw [h7.1] <;> exact ⟨_, by simp only; rw [ht, h2]; simp; rfl⟩
          · exact ⟨_, by simp only; rw [ht, h2]; simp; rfl⟩
      · push Not at ho
        rw [(connectExtended_other h1 hr ho p).1]
        exact ⟨_, by simp only; rw [(recv_other hr ho).1, h2]⟩
    · simp only [connectExtended, h1.1]; exact ⟨[], by simp⟩
    · simp only [connectExtended, h1.1]; exact ⟨[], by simp⟩
  · have h : connectExtended l ctx exts c = (cc, .ok a) := h
    rcases send_granted (l := l) (greeting_sendable ctx hreg) with ⟨c2, h1, h2, h3, h3', h4⟩ | ⟨c2, h1 | h1, h2⟩
    · rcases hr : c2.recv with ⟨c3, r⟩
      by_cases ho : ∃ m, r = .ok m
      · obtain ⟨msg, rfl⟩ := ho
        rw [(connectExtended_msg h1 hr p).1] at h
        cases hg : greetStep msg with
        | error e => rw [hg] at h; cases h
        | ok q =>
          obtain ⟨reg, size⟩ := q
          rw [hg] at h
          simp only at h
          by_cases hf : exts.has .fast = true
          · rw [if_pos hf] at h
            obtain ⟨c4, h5, h5', h6 | h6⟩ := hlast l { c3 with remoteReg := reg } hf
            · rw [h6.2] at h
              cases h
              refine ⟨by rw [h5']; exact greetStep_ok hg, fun k => ?_⟩
              rw [(connectExtended_msg (h4 k) hr p).1, hg]
              simp only [if_pos hf]
              rw [h6.1 k]
            · rcases h6.2 with h7 | h7 <;> (rw [h7.1] at h; cases h)
          · rw [if_neg hf] at h
            cases h
            refine ⟨greetStep_ok hg, fun k => ?_⟩
            rw [(connectExtended_msg (h4 k) hr p).1, hg]
            simp only [if_neg hf]
      · push Not at ho
        rw [(connectExtended_other h1 hr ho p).1] at h
        cases r with
        | ok m => exact absurd rfl (ho m)
        | _ => cases h
    · simp only [connectExtended, h1.1] at h; cases h
    · simp only [connectExtended, h1.1] at h; cases h
  · rcases send_granted (l := l) (greeting_sendable ctx hreg) with ⟨c2, h1, h2, h3, h3', h4⟩ | ⟨c2, h1, h2, h3, h3'⟩
    · rcases hr : c2.recv with ⟨c3, r⟩
      by_cases ho : ∃ m, r = .ok m
      · obtain ⟨msg, rfl⟩ := ho
        obtain ⟨ht, -⟩ := recv_trace hr
        rw [(connectExtended_msg h1 hr p).2]
        refine Tells.more (.sent (.extended (.handshake (ourExtendedHandshake ctx c.localReg)))) ?_
        refine Tells.more (.received msg) ?_
        rw [← h2, ← ht]
        rw [(connectExtended_msg h1 hr p).1, (connectExtended_msg (h4 _) hr p).1]
        cases hg : greetStep msg with
        | error e => exact Tells.stop p l c3 (.err e) (by simpa using greetStep_error hg) []
        | ok q =>
          obtain ⟨reg, size⟩ := q
          simp only
          by_cases hf : exts.has .fast = true
          · simp only [if_pos hf]
            obtain ⟨c4, h5, h5', h6 | ⟨h6, h7⟩⟩ := hlast l { c3 with remoteReg := reg } hf
            · rw [h6.2]; simp only; rw [h6.1]
              refine Tells.more (.sent (.core .haveNone)) ?_
              have h5 : c4.trace = c3.trace ++ [.sent (.core .haveNone)] := h5
              rw [← h5]
              exact Tells.stop p l c4 (.ok size) (by simp) []
            · rcases h7 with ⟨h7, h7'⟩ | ⟨h7, h7'⟩ <;> rw [h7] <;> simp only at h6 h7' ⊢ <;> rw [h6] <;>
              · refine ⟨[], [.sent (.core .haveNone)], by simp, by simpa using h5, rfl, by simp, ?_⟩
                intro e h
                cases h
                exact ⟨trivial, by simp [h7']⟩
          · simp only [if_neg hf]
            exact Tells.stop p l { c3 with remoteReg := reg } (.ok size) (by simp) []
      · push Not at ho
        obtain ⟨h5, h6, h7⟩ := recv_other hr ho
        rw [(connectExtended_other h1 hr ho p).2]
        refine Tells.more (.sent (.extended (.handshake (ourExtendedHandshake ctx c.localReg)))) ?_
        rw [← h2, ← h5]
        rw [(connectExtended_other h1 hr ho p).1, (connectExtended_other (h4 _) hr ho p).1]
        cases r with
        | ok m => exact absurd rfl (ho m)
        | err e => exact Tells.stop p l c3 (.err e) (by simpa using h6) []
        | hang => exact Tells.stop p l c3 .hang (by simp) []
        | panic => exact absurd rfl h7
    · have hlog : connectExtendedLog p l ctx exts c = [.sending p (.extended (.handshake (ourExtendedHandshake ctx c.localReg)))] := by
        unfold connectExtendedLog; rcases h1 with h1 | h1 <;> simp only [h1.1]
      rw [hlog]
      have hc : (connectExtended l ctx exts c).1 = c := by
        unfold connectExtended; rcases h1 with h1 | h1 <;> simp only [h1.1]
      rw [hc]
      obtain ⟨es, he⟩ : ∃ es, (connectExtended (granted l c.nsent) ctx exts c).1.trace = c2.trace ++ es := by
        rcases hr : c2.recv with ⟨c3, r⟩
        by_cases ho : ∃ m, r = .ok m
        · obtain ⟨msg, rfl⟩ := ho
          obtain ⟨ht, -⟩ := recv_trace hr
          rw [(connectExtended_msg h2 hr p).1]
          cases hg : greetStep msg with
          | error e => exact ⟨_, by simp only; rw [ht]⟩
          | ok q =>
            obtain ⟨reg, size⟩ := q
            simp only
            split
            · rename_i hf
              obtain ⟨c4, h5, -, h6 | h6⟩ := hlast (granted l c.nsent) { c3 with remoteReg := reg } hf
              · rw [h6.2]; exact ⟨_, by simp only; rw [h5]; simp only; rw [ht]; simp; rfl⟩
              · rcases h6.2 with h7 | h7 <;> rw [h7.1] <;> exact ⟨_, by simp only; rw [ht]⟩
            · exact ⟨_, by simp only; rw [ht]⟩
        · push Not at ho
          rw [(connectExtended_other h2 hr ho p).1]
          exact ⟨[], by simp only; rw [(recv_other hr ho).1]; simp⟩
      have hres : l.sends c.nsent = .fail ∧ (connectExtended l ctx exts c).2 = .err .send ∨ l.sends c.nsent = .hang ∧ (connectExtended l ctx exts c).2 = .hang := by
        unfold connectExtended
        rcases h1 with h1 | h1
        · exact .inl ⟨h1.2, by simp only [h1.1]⟩
        · exact .inr ⟨h1.2, by simp only [h1.1]⟩
      refine ⟨[], .sent (.extended (.handshake (ourExtendedHandshake ctx c.localReg))) :: es, by rw [hc]; simp, by rw [he, h3]; simp, rfl, by simp, ?_⟩
      intro e h
      cases h
      exact ⟨trivial, by rw [hc]; exact hres⟩

/-- The channel after our handshake has been sent. -/
def shookChan (ctx : PeerCtx) : Chan :=
  ⟨[], .pending, 1, [.sentHandshake (Handshake.new supportedExtensions ctx.infoHash ctx.localId)],
    (Handshake.new supportedExtensions ctx.infoHash ctx.localId).encode, .new, .new⟩

/-- What is done about the handshake of the peer: an end, or the extensions and the channel. -/
def shakeStep (l : Link) (ctx : PeerCtx) : List Event × (Res PeerError (Option (BitVec 32)) ⊕ ExtensionSet × Chan) :=
  if l.incoming.length < 68 then ([], .inl (match l.ending with
    | .stall => .hang
    | .eof => .err (.recv .truncated)
    | .ioError => .err (.recv .ioError)))
  else
    match Handshake.decode (l.incoming.take 68) with
    | .error e => ([], .inl (.err (.handshake e)))
    | .ok theirs => ([.gotHandshake theirs],
      if theirs.infoHash ≠ ctx.infoHash then .inl (.err (.infoHashMismatch ctx.infoHash theirs.infoHash))
      else
        let exts := (ExtensionSet.fromIter supportedExtensions).and theirs.extensions
        if ! exts.has .bep10 then .inl (.err .noBep10)
        else .inr (exts, { shookChan ctx with
          trace := (shookChan ctx).trace ++ [.gotHandshake theirs]
          frames := (allFrames l.ending (l.incoming.drop 68)).1
          stop := (allFrames l.ending (l.incoming.drop 68)).2
          localReg := reg42 }))

/-- The end of `connect`. -/
def shakePart (l : Link) (ctx : PeerCtx) : Chan × Res PeerError (Option (BitVec 32)) :=
  let c : Chan := ⟨[], .pending, 0, [], [], .new, .new⟩
  match l.sends 0 with
  | .fail => (c, .err .send)
  | .hang => (c, .hang)
  | .ok =>
    match shakeStep l ctx with
    | (es, .inl r) => ({ shookChan ctx with trace := (shookChan ctx).trace ++ es }, r)
    | (_, .inr (exts, c)) => connectExtended l ctx exts c

theorem connect_eq (l : Link) (ctx : PeerCtx) (encrypt : Bool) (hc : l.connect = .ok) (he : encrypt = true → l.crypto = .ok) :
    connect l ctx encrypt = shakePart l ctx := by
  have hcr : (if encrypt then l.crypto else .ok) = .ok := by cases encrypt <;> simp [he]
  unfold connect
  simp only [hc, hcr, localRegistry_eq]
  unfold shakePart Chan.write
  cases h0 : l.sends 0 with
  | fail => rfl
  | hang => rfl
  | ok =>
    simp only
    unfold shakeStep
    by_cases hl : l.incoming.length < 68
    · simp only [if_pos hl]; cases l.ending <;> rfl
    · simp only [if_neg hl]
      cases Handshake.decode (l.incoming.take 68) with
      | error e => rfl
      | ok theirs =>
        simp only
        by_cases hi : theirs.infoHash ≠ ctx.infoHash
        · simp only [if_pos hi]; rfl
        · simp only [if_neg hi]
          split
          · rfl
          · rfl

theorem shakeLog_eq (p : Peer) (l : Link) (ctx : PeerCtx) : shakeLog p l ctx = .peerStep 3 p ::
    match l.sends 0 with
    | .ok => narrate p (shakeStep l ctx).1 ++
      match (shakeStep l ctx).2 with
      | .inl _ => []
      | .inr (exts, c) => connectExtendedLog p l ctx exts c
    | _ => [] := by
  unfold shakeLog Chan.write
  simp only [localRegistry_eq]
  cases h0 : l.sends 0 with
  | fail => rfl
  | hang => rfl
  | ok =>
    simp only
    unfold shakeStep
    by_cases hl : l.incoming.length < 68
    · simp only [if_pos hl]; rfl
    · simp only [if_neg hl]
      cases Handshake.decode (l.incoming.take 68) with
      | error e => rfl
      | ok theirs =>
        simp only
        by_cases hi : theirs.infoHash ≠ ctx.infoHash
        · simp only [if_pos hi]; rfl
        · simp only [if_neg hi]
          split
          · rfl
          · rfl

theorem shakeStep_trace {l : Link} {ctx : PeerCtx} {es exts c} (h : shakeStep l ctx = (es, .inr (exts, c))) :
    c.trace = (shookChan ctx).trace ++ es ∧ c.localReg = reg42 := by
  unfold shakeStep at h
  split at h
  · cases h
  · split at h
    · cases h
    · simp only [Prod.mk.injEq] at h
      obtain ⟨rfl, h⟩ := h
      split at h
      · cases h
      · split at h
        · cases h
        · cases h; exact ⟨rfl, rfl⟩

theorem shakeStep_end {l : Link} {ctx : PeerCtx} {es r} (h : shakeStep l ctx = (es, .inl r)) : r ≠ .err .send ∧ ∀ a, r ≠ .ok a := by
  unfold shakeStep at h
  split at h
  · cases h; cases l.ending <;> simp
  · split at h
    · cases h; simp
    · simp only [Prod.mk.injEq] at h
      obtain ⟨rfl, h⟩ := h
      split at h
      · cases h; simp
      · split at h
        · cases h; simp
        · cases h

theorem shakeStep_granted (l : Link) (k : Nat) (ctx : PeerCtx) : shakeStep (granted l k) ctx = shakeStep l ctx := rfl

theorem shake_joined (p : Peer) (ctx : PeerCtx) : Joined p [] (fun l => shakePart l ctx) (fun l => shakeLog p l ctx) := by
  refine ⟨fun l => ⟨_, (List.nil_append _).symm⟩, fun l c a h => ?_, fun l => ?_⟩
  · have h : shakePart l ctx = (c, .ok a) := h
    unfold shakePart at h
    cases h0 : l.sends 0 with
    | fail => rw [h0] at h; cases h
    | hang => rw [h0] at h; cases h
    | ok =>
      rw [h0] at h
      simp only at h
      rcases hs : shakeStep l ctx with ⟨es, r | ⟨exts, c0⟩⟩
      · rw [hs] at h
        cases h
        exact absurd rfl ((shakeStep_end hs).2 a)
      · rw [hs] at h
        obtain ⟨h1, h2⟩ := (connectExtended_joined p ctx exts c0 (shakeStep_trace hs).2).same l c a h
        refine ⟨h1, fun k => ?_⟩
        show shakePart (granted l k) ctx = _
        unfold shakePart
        rw [granted_ok h0, shakeStep_granted, hs]
        exact h2 k
  · show Tells p l [] (shakePart l ctx) (shakePart (granted l (shakePart l ctx).1.nsent) ctx) (shakeLog p l ctx) []
    rw [shakeLog_eq]
    cases h0 : l.sends 0 with
    | fail | hang =>
      have h1 : ∃ es, (shakePart (granted l 0) ctx).1.trace = .sentHandshake (Handshake.new supportedExtensions ctx.infoHash ctx.localId) :: es := by
        unfold shakePart
        rw [granted_self, shakeStep_granted]
        rcases hs : shakeStep l ctx with ⟨es, r | ⟨exts, c0⟩⟩
        · exact ⟨es, rfl⟩
        · obtain ⟨es', h⟩ := (connectExtended_joined p ctx exts c0 (shakeStep_trace hs).2).grows (granted l 0)
          refine ⟨es ++ es', ?_⟩
          simp only at h ⊢
          rw [h, (shakeStep_trace hs).1]; simp [shookChan]
      obtain ⟨es, h1⟩ := h1
      have h2 : (shakePart l ctx).1 = ⟨[], .pending, 0, [], [], .new, .new⟩ := by unfold shakePart; rw [h0]
      refine ⟨[], _ :: es, by rw [h2]; rfl, by rw [h2]; simpa using h1, rfl, by simp, ?_⟩
      intro e h
      cases h
      refine ⟨trivial, ?_⟩
      rw [h2]
      unfold shakePart
      simp [h0]
    | ok =>
      have h2 : shakePart l ctx = match shakeStep l ctx with
          | (es, .inl r) => ({ shookChan ctx with trace := (shookChan ctx).trace ++ es }, r)
          | (_, .inr (exts, c)) => connectExtended l ctx exts c := by conv_lhs => unfold shakePart; rw [h0]
      have h3 : ∀ k, shakePart (granted l k) ctx = match shakeStep l ctx with
          | (es, .inl r) => ({ shookChan ctx with trace := (shookChan ctx).trace ++ es }, r)
          | (_, .inr (exts, c)) => connectExtended (granted l k) ctx exts c := by
        intro k; conv_lhs => unfold shakePart; rw [granted_ok h0, shakeStep_granted]
      rw [h3]
      rw [h2]
      refine Tells.more (.sentHandshake (Handshake.new supportedExtensions ctx.infoHash ctx.localId)) ?_
      rcases hs : shakeStep l ctx with ⟨es, r | ⟨exts, c0⟩⟩
      · simp only
        exact ⟨es, [], rfl, by simp [shookChan], by simp, fun _ => ⟨rfl, (shakeStep_end hs).1⟩, by simp⟩
      · simp only
        obtain ⟨es', mo, h4, h5, h6, h7, h8⟩ := (connectExtended_joined p ctx exts c0 (shakeStep_trace hs).2).told l
        rw [(shakeStep_trace hs).1] at h4 h5
        refine ⟨es ++ es', mo, by rw [h4]; simp [shookChan], by rw [h5]; simp [shookChan], ?_, h7, h8⟩
        rw [h6]; simp [narrate]

/-! ### A visit -/

/-- The conversation of a visit and its result (`finishRun`). -/
def visitPart (sha1 : Bytes → Bytes) (l : Link) (ctx : PeerCtx) : Chan × Res PeerError TorrentInfo :=
  match shakePart l ctx with
  | (c, .ok size) => getMetadataInfo sha1 l ctx.infoHash size c
  | (c, .err e) => (c, .err e)
  | (c, .hang) => (c, .hang)
  | (c, .panic) => (c, .panic)

theorem visit_told (sha1 : Bytes → Bytes) (mag : Magnet) (p : Peer) (l : Link) (ctx : PeerCtx) :
    Tells p l [] (visitPart sha1 l ctx) (visitPart sha1 (granted l (visitPart sha1 l ctx).1.nsent) ctx)
      (shakeLog p l ctx ++ match shakePart l ctx with | (c, .ok size) => getMetadataLog sha1 mag p l ctx.infoHash size c | _ => [])
      (gotLines mag p (visitPart sha1 l ctx).2) := by
  have hj := shake_joined p ctx
  obtain ⟨es, mo, h4, h5, h6, h7, h8⟩ := hj.told l
  rcases hs : shakePart l ctx with ⟨c, r⟩
  rw [hs] at h4 h5 h7 h8
  simp only at h4 h5 h7 h8
  have hother : (∀ a, r ≠ .ok a) → ∀ r' : Res PeerError TorrentInfo, (∀ a, r' ≠ .ok a) → (r' = .err .send ↔ r = .err .send) → (r' = .hang ↔ r = .hang) →
      visitPart sha1 l ctx = (c, r') →
      Tells p l [] (visitPart sha1 l ctx) (visitPart sha1 (granted l (visitPart sha1 l ctx).1.nsent) ctx)
      (shakeLog p l ctx ++ []) (gotLines mag p (visitPart sha1 l ctx).2) := by
    intro hr r' hr1 hr2 hr3 hv
    have hg : gotLines mag p r' = [] := by
      cases r' with
      | ok a => exact absurd rfl (hr1 a)
      | _ => rfl
    rw [hv]
    simp only [hg]
    obtain ⟨ex, hex⟩ : ∃ ex, (visitPart sha1 (granted l c.nsent) ctx).1.trace = (shakePart (granted l c.nsent) ctx).1.trace ++ ex := by
      unfold visitPart
      rcases hs' : shakePart (granted l c.nsent) ctx with ⟨c', r''⟩
      cases r'' with
      | ok a => exact getMetadata_trace sha1 _ _ _ _ (hj.same _ _ _ hs').1
      | err => exact ⟨[], by simp⟩
      | hang => exact ⟨[], by simp⟩
      | panic => exact ⟨[], by simp⟩
    by_cases hm : mo = []
    · obtain ⟨h9, h10⟩ := h7 hm
      have hv2 : visitPart sha1 (granted l c.nsent) ctx = (c, r') := by
        rw [← hv]
        unfold visitPart
        rw [h9, hs]
        cases r with
        | ok a => exact absurd rfl (hr a)
        | _ => rfl
      refine ⟨es, [], h4, by rw [hv2]; simp only; rw [h4]; simp, ?_, fun _ => ⟨hv2, fun h => h10 (hr2.1 h)⟩, by simp⟩
      rw [h6, hm]; simp
    · refine ⟨es, mo ++ ex, h4, by rw [hex, h5]; simp, ?_, fun h => absurd (List.append_eq_nil_iff.1 h).1 hm, ?_⟩
      · rw [h6, List.take_append_of_le_length (by cases mo <;> simp at hm ⊢)]; simp
      · intro e he
        have he : mo.head? = some e := by
          cases mo with
          | nil => exact absurd rfl hm
          | cons x xs => simpa using he
        obtain ⟨h10, h11⟩ := h8 e he
        exact ⟨h10, by simp only; rw [hr2, hr3]; exact h11⟩
  cases r with
  | ok size =>
    simp only
    obtain ⟨hreg, hsame⟩ := hj.same l c size hs
    have hv : ∀ k, visitPart sha1 (granted l k) ctx = getMetadataInfo sha1 (granted l k) ctx.infoHash size c := by
      intro k; unfold visitPart; have := hsame k; rw [this]
    have hv0 : visitPart sha1 l ctx = getMetadataInfo sha1 l ctx.infoHash size c := by unfold visitPart; rw [hs]
    rw [hv, hv0]
    have hmo : mo = [] := by
      cases mo with
      | nil => rfl
      | cons x xs => obtain ⟨-, h | h⟩ := h8 x rfl <;> exact absurd h.2 (by simp)
    obtain ⟨es2, mo2, g4, g5, g6, g7, g8⟩ := getMetadata_told sha1 mag p l ctx.infoHash size c hreg
    rw [h4] at g4 g5
    refine ⟨es ++ es2, mo2, by rw [g4]; simp, by rw [g5]; simp, ?_, g7, g8⟩
    rw [h6, g6, hmo]; simp [narrate]
  | err e => exact hother (by simp) (.err e) (by simp) (by simp) (by simp) (by unfold visitPart; rw [hs])
  | hang => exact hother (by simp) .hang (by simp) (by simp) (by simp) (by unfold visitPart; rw [hs])
  | panic => exact hother (by simp) .panic (by simp) (by simp) (by simp) (by unfold visitPart; rw [hs])

end Demag.Props
