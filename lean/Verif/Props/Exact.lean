import Verif.Spec.Exact
import Verif.Props.Download

/-!
# C14, C59: exactly when a peer gives us the metadata, and exactly when it keeps us waiting
-/

namespace Demag.Props

open Demag Demag.Spec

section
variable {sha1 : Bytes → Bytes} {l : Link} {n : BitVec 32} {c c1 : Chan} {b : TorrentInfoBuilder} {i : BitVec 32}

/-- What happens after a message was, or was not, sent. -/
def afterSend (sha1 : Bytes → Bytes) (l : Link) (n : BitVec 32) (b : TorrentInfoBuilder) (i : BitVec 32) :
    Chan × Res PeerError Unit → Chan × Res PeerError TorrentInfo
  | (c2, .ok ()) => awaitPiece sha1 l n c2 b i
  | (c2, .err e) => (c2, .err e)
  | (c2, .hang) => (c2, .hang)
  | (c2, .panic) => (c2, .panic)

/-- What happens after a message was received. -/
def afterRecv (sha1 : Bytes → Bytes) (l : Link) (n : BitVec 32) (b : TorrentInfoBuilder) (i : BitVec 32) (c1 : Chan) :
    Message → Chan × Res PeerError TorrentInfo
  | .extended (.metadata (.data piece totalSize payload)) =>
    if totalSize ≠ n then (c1, .err (.sizeMismatch n totalSize))
    else if piece ≠ i then (c1, .err (.wrongPiece i piece))
    else
      match b.push payload with
      | (_, .error .panic) => (c1, .panic)
      | (_, .error e) => (c1, .err (.infoPush e))
      | (b', .ok ()) =>
        match b'.nextPiece with
        | none =>
          match b'.build sha1 with
          | .ok info => (c1, .ok info)
          | .error e => (c1, .err (.infoBuild e))
        | some j => afterSend sha1 l n b' (BitVec.ofNat 32 j) (c1.send l (metadataMsg (.request (BitVec.ofNat 32 j))))
  | .extended (.metadata (.reject piece)) =>
    if piece ≠ i then (c1, .err (.wrongPiece i piece)) else (c1, .err (.infoRequestRejected piece))
  | .extended (.metadata (.request piece)) => afterSend sha1 l n b i (c1.send l (metadataMsg (.reject piece)))
  | .extended (.metadata (.unknown _)) => awaitPiece sha1 l n c1 b i
  | msg => if msg.canBeIgnored then awaitPiece sha1 l n c1 b i else (c1, .err (.unexpected msg))

theorem await_recv {m : Message} (h : c.recv = (c1, .ok m)) : awaitPiece sha1 l n c b i = afterRecv sha1 l n b i c1 m := by
  rw [awaitPiece]
  split
  · rename_i hr; rw [h] at hr; cases hr
  · rename_i hr; rw [h] at hr; cases hr
  · rename_i hr; rw [h] at hr; cases hr
  · rename_i c' m' hr
    rw [h] at hr
    cases hr
    cases m with
    | core m => rfl
    | extended m =>
      cases m with
      | handshake s => rfl
      | metadata m =>
        cases m with
        | unknown t => rfl
        | reject p => rfl
        | request p =>
          simp only [afterRecv]
          split <;> rename_i hs <;> rw [hs] <;> rfl
        | data p t d =>
          simp only [afterRecv]
          split
          · rfl
          split
          · rfl
          split
          · rename_i h1; rw [h1]
          · rename_i h0 h1; rw [h1]; simp_all
          · rename_i b' h1
            rw [h1]
            simp only
            split
            · rename_i h2
              rw [h2]
              rfl
            · rename_i j h2
              rw [h2]
              simp only
              split <;> rename_i hs <;> rw [hs] <;> rfl

theorem recv_cons {f : Bytes} {fs : List Bytes} {m : Message} (h : c.frames = f :: fs) (hd : Message.decode f c.localReg = .ok m) :
    c.recv = ({ c with frames := fs, trace := c.trace ++ [.received m] }, .ok m) := by
  unfold Chan.recv
  rw [h]
  simp only [hd]

theorem progress_got {c0 c : Chan} {used es f fs m} (h : Progress c0 used es c) (hf : c.frames = f :: fs)
    (hd : Message.decode f c.localReg = .ok m) :
    Progress c0 (used ++ [f]) (es ++ [.received m]) { c with frames := fs, trace := c.trace ++ [.received m] } := by
  refine ⟨by simp [h.trace], by simp [h.nsent, sentOf_append, sentOf], by simp [h.frames, hf], h.stop, h.localReg, h.remoteReg, ?_, ?_⟩
  · rw [receivedOf_append]
    refine List.rel_append h.read (.cons ?_ .nil)
    rw [← h.localReg]; exact hd
  · rw [sentOf_append]
    simp only [sentOf, List.append_nil]
    exact h.written
end

theorem forall₂_snoc {α β : Type} {R : α → β → Prop} {xs : List α} {ys : List β} {y : β} (h : List.Forall₂ R xs (ys ++ [y])) :
    ∃ xs' x, xs = xs' ++ [x] ∧ List.Forall₂ R xs' ys ∧ R x y := by
  induction ys generalizing xs with
  | nil =>
    cases h with
    | cons h1 h2 => cases h2; exact ⟨[], _, rfl, .nil, h1⟩
  | cons z zs ih =>
    cases h with
    | cons h1 h2 =>
      obtain ⟨xs', x, rfl, h3, h4⟩ := ih h2
      exact ⟨_ :: xs', x, rfl, .cons h1 h3, h4⟩

section
variable (sha1 : Bytes → Bytes) (l : Link) (ih : InfoHash) (n : BitVec 32) (c0 : Chan)

/-- The program having had the conversation `es`, in the midst of `getMetadataInfo`. -/
def Midst (ps : List Bytes) (used : List Bytes) (es : List Event) : Option Message → Prop
  | none => ∃ c b, Progress c0 used es c ∧ Collected ih n.toNat ps b ∧
      getMetadataInfo sha1 l ih (some n) c0 = awaitPiece sha1 l n c b (idx ps.length)
  | some m => ∃ c b, Progress c0 used es c ∧ Collected ih n.toNat ps b ∧
      (∃ mm, m = .extended (.metadata mm) ∧ ((∃ p, mm = .request p) ∨ ∃ p, mm = .reject p)) ∧
      getMetadataInfo sha1 l ih (some n) c0 = afterSend sha1 l n b (idx ps.length) (c.send l m)

/-- The program having received, in addition, the last message. -/
theorem midst_recv {ps es m} {used rest : List Bytes} (hf : c0.frames = used ++ rest)
    (hr : List.Forall₂ (fun f m => Message.decode f c0.localReg = .ok m) used (receivedOf (es ++ [.received m])))
    (h : ∀ used rest, c0.frames = used ++ rest → List.Forall₂ (fun f m => Message.decode f c0.localReg = .ok m) used (receivedOf es) →
      Midst sha1 l ih n c0 ps used es none) :
    ∃ c b, Progress c0 used (es ++ [.received m]) c ∧ Collected ih n.toNat ps b ∧
      getMetadataInfo sha1 l ih (some n) c0 = afterRecv sha1 l n b (idx ps.length) c m := by
  rw [receivedOf_append] at hr
  obtain ⟨u, f, rfl, hu, hd⟩ := forall₂_snoc hr
  rw [List.append_assoc] at hf
  obtain ⟨c, b, hp, hc, he⟩ := h u _ hf hu
  have hcf : c.frames = f :: rest := by
    have := hp.frames
    rw [hf] at this
    exact (List.append_cancel_left this).symm
  rw [← hp.localReg] at hd
  refine ⟨_, b, progress_got hp hcf hd, hc, ?_⟩
  rw [he, await_recv (recv_cons hcf hd)]

theorem talk_midst (hreg : c0.remoteReg.contains .metadata = true) (hn : n.toNat ≤ 20 * 1024 * 1024) {ps s es} (ht : Talk n.toNat ps s es) :
    ∀ used rest, c0.frames = used ++ rest → List.Forall₂ (fun f m => Message.decode f c0.localReg = .ok m) used (receivedOf es) →
      (∀ k, k < (sentOf es).length → l.sends (c0.nsent + k) = .ok) → Midst sha1 l ih n c0 ps used es s := by
  induction ht with
  | start h0 =>
    intro used rest hf hr _
    cases hr
    obtain ⟨b, hb⟩ := (builder_new_spec ih n).1 hn
    have hcol := collected_new ih n b hb
    have hnext := nextPiece_collected hcol
    have hpc : 0 < pieceCount n.toNat := by unfold pieceCount; omega
    simp only [List.length_nil] at hnext
    rw [if_pos hpc] at hnext
    refine ⟨c0, b, progress_refl c0, hcol, ⟨_, rfl, .inl ⟨_, rfl⟩⟩, ?_⟩
    unfold getMetadataInfo
    simp only [hb, hnext]
    show _ = afterSend sha1 l n b (BitVec.ofNat 32 0) (c0.send l (metadataMsg (.request (BitVec.ofNat 32 0))))
    split <;> rename_i hs <;> rw [hs] <;> rfl
  | @sent ps m es ht ihh =>
    intro used rest hf hr hs
    rw [receivedOf_append] at hr
    simp only [receivedOf, List.append_nil] at hr
    rw [sentOf_append] at hs
    simp only [sentOf, List.length_append, List.length_cons, List.length_nil] at hs
    obtain ⟨c, b, hp, hc, ⟨mm, rfl, hmm⟩, he⟩ := ihh used rest hf hr (fun k hk => hs k (by omega))
    obtain ⟨w, hw, hwl⟩ := encode_metadata c.remoteReg mm (hp.remoteReg ▸ hreg) hmm
    obtain ⟨w', hw', hse⟩ := send_eq l c _ w hw hwl
    rw [hp.nsent, hs (sentOf es).length (by omega)] at hse
    refine ⟨_, b, progress_sent hp hw hw', hc, ?_⟩
    rw [he, hse]
    rfl
  | @ignore ps m es ht hm ihh =>
    intro used rest hf hr hs
    obtain ⟨c, b, hp, hc, he⟩ := midst_recv sha1 l ih n c0 hf hr (fun u r h1 h2 => ihh u r h1 h2 (by
      intro k hk; exact hs k (by rw [sentOf_append]; simp [sentOf]; exact hk)))
    refine ⟨c, b, hp, hc, ?_⟩
    rw [he]
    cases hm <;> rfl
  | @refuse ps p es ht ihh =>
    intro used rest hf hr hs
    obtain ⟨c, b, hp, hc, he⟩ := midst_recv sha1 l ih n c0 hf hr (fun u r h1 h2 => ihh u r h1 h2 (by
      intro k hk; exact hs k (by rw [sentOf_append]; simp [sentOf]; exact hk)))
    exact ⟨c, b, hp, hc, ⟨_, rfl, .inr ⟨_, rfl⟩⟩, he⟩
  | @accept ps p es ht hl hlt ihh =>
    intro used rest hf hr hs
    obtain ⟨c, b, hp, hc, he⟩ := midst_recv sha1 l ih n c0 hf hr (fun u r h1 h2 => ihh u r h1 h2 (by
      intro k hk; exact hs k (by rw [sentOf_append]; simp [sentOf]; exact hk)))
    rcases push_cases hc (rfl : b.push p = _) with ⟨_, _, b', h, hc'⟩ | ⟨_, h, _⟩ | ⟨h, _⟩
    · refine ⟨c, b', hp, hc', ⟨_, rfl, .inl ⟨_, rfl⟩⟩, ?_⟩
      have hnext := nextPiece_collected hc'
      simp only [List.length_append, List.length_singleton] at hnext
      rw [if_pos hlt] at hnext
      rw [he]
      simp only [data, afterRecv, idx_toNat, ne_eq, not_true_eq_false, ↓reduceIte, h, hnext, List.length_append, List.length_singleton]
      rfl
    · exact absurd hl h
    · omega

/-- Two results that differ at most in the details of an error about bencode. -/
def Alike (r r' : Res PeerError TorrentInfo) : Prop :=
  r = r' ∨ ∃ e e', r = .err (.infoBuild (.bencode e)) ∧ r' = .err (.infoBuild (.bencode e'))

theorem verdict_alike {d : Bytes} {r r'} (h : Verdict sha1 IsInfoDict ih d r) (h' : Verdict sha1 IsInfoDict ih d r') : Alike r r' := by
  cases h with
  | ok h1 h2 =>
    cases h' with
    | ok => exact .inl rfl
    | digest h => exact absurd h1 h
    | bad _ h => exact absurd h2 h
  | digest h1 =>
    cases h' with
    | ok h => exact absurd h h1
    | digest => exact .inl rfl
    | bad h => exact absurd h h1
  | bad h1 h2 =>
    cases h' with
    | ok _ h => exact absurd h h2
    | digest h => exact absurd h1 h
    | bad => exact .inr ⟨_, _, rfl, rfl⟩

/-- **C14.** The conversation and its result are the ones described: if `es` is a conversation that the frames of the peer and the outcomes of
the sends allow, and that may end with the result `r`, then that is the conversation that takes place, and `r` is its result. -/
theorem session_exact (hreg : c0.remoteReg.contains .metadata = true) (hn : n.toNat ≤ 20 * 1024 * 1024) {used rest : List Bytes}
    {es : List Event} {r : Res PeerError TorrentInfo} (hf : c0.frames = used ++ rest)
    (hr : List.Forall₂ (fun f m => Message.decode f c0.localReg = .ok m) used (receivedOf es))
    (hs : ∀ k, k < (sentOf es).length → l.sends (c0.nsent + k) = .ok)
    (he : Ends sha1 IsInfoDict ih n.toNat rest c0.stop (fun f e => Message.decode f c0.localReg = .error e)
      (l.sends (c0.nsent + (sentOf es).length)) es r) :
    (getMetadataInfo sha1 l ih (some n) c0).1.trace = c0.trace ++ es ∧ Alike (getMetadataInfo sha1 l ih (some n) c0).2 r := by
  have frames : ∀ {c es}, Progress c0 used es c → c.frames = rest := by
    intro c es hp
    have := hp.frames
    rw [hf] at this
    exact (List.append_cancel_left this).symm
  have got : ∀ {ps es m}, Talk n.toNat ps none es →
      List.Forall₂ (fun f m => Message.decode f c0.localReg = .ok m) used (receivedOf (es ++ [.received m])) →
      (∀ k, k < (sentOf (es ++ [.received m])).length → l.sends (c0.nsent + k) = .ok) →
      ∃ c b, Progress c0 used (es ++ [.received m]) c ∧ Collected ih n.toNat ps b ∧
        getMetadataInfo sha1 l ih (some n) c0 = afterRecv sha1 l n b (idx ps.length) c m := by
    intro ps es m ht hr hs
    exact midst_recv sha1 l ih n c0 hf hr (fun u r h1 h2 => talk_midst sha1 l ih n c0 hreg hn ht u r h1 h2 (by
      intro k hk; exact hs k (by rw [sentOf_append]; simp [sentOf]; exact hk)))
  have waits : ∀ {ps es}, Talk n.toNat ps none es → ps.length < pieceCount n.toNat := fun h => (talk_facts h).lt
  cases he with
  | empty h0 hv =>
    cases hr
    obtain ⟨b, hb⟩ := (builder_new_spec ih n).1 hn
    have hcol := collected_new ih n b hb
    have hnext := nextPiece_collected hcol
    have hpc : pieceCount n.toNat = 0 := by rw [h0]; rfl
    simp only [List.length_nil] at hnext
    rw [hpc, if_neg (by omega)] at hnext
    have hv' := verdict_of_build (sha1 := sha1) hcol (by rw [hpc]; rfl)
    unfold getMetadataInfo
    simp only [hb, hnext]
    cases hbd : b.build sha1 with
    | ok info => rw [hbd] at hv'; exact ⟨by simp, verdict_alike sha1 ih hv' hv⟩
    | error e => rw [hbd] at hv'; exact ⟨by simp, verdict_alike sha1 ih hv' hv⟩
  | @complete ps p es r ht hl hfull hv =>
    obtain ⟨c, b, hp, hc, he⟩ := got ht hr hs
    rcases push_cases hc (rfl : b.push p = _) with ⟨_, _, b', h, hc'⟩ | ⟨_, h, _⟩ | ⟨h, _⟩
    · have hnext := nextPiece_collected hc'
      simp only [List.length_append, List.length_singleton] at hnext
      rw [if_neg (by omega)] at hnext
      have hv' := verdict_of_build (sha1 := sha1) hc' (by simpa using hfull)
      simp only [List.flatten_append, List.flatten_cons, List.flatten_nil, List.append_nil] at hv'
      rw [he]
      simp only [data, afterRecv, idx_toNat, ne_eq, not_true_eq_false, ↓reduceIte, h, hnext]
      have htr := hp.trace
      simp only [data, idx_toNat] at htr
      cases hbd : b'.build sha1 with
      | ok info => rw [hbd] at hv'; exact ⟨htr, verdict_alike sha1 ih hv' hv⟩
      | error e => rw [hbd] at hv'; exact ⟨htr, verdict_alike sha1 ih hv' hv⟩
    · exact absurd hl h
    · omega
  | silent ht h1 h2 =>
    obtain ⟨c, b, hp, hc, he⟩ := talk_midst sha1 l ih n c0 hreg hn ht used rest hf hr hs
    have := frames hp
    have hrv : c.recv = (c, .hang) := by unfold Chan.recv; rw [this, h1, hp.stop, h2]
    rw [he, awaitPiece]
    split <;> rename_i h3 <;> rw [hrv] at h3 <;> cases h3
    exact ⟨hp.trace, .inl rfl⟩
  | closed ht h1 h2 =>
    obtain ⟨c, b, hp, hc, he⟩ := talk_midst sha1 l ih n c0 hreg hn ht used rest hf hr hs
    have := frames hp
    have hrv : c.recv = (c, .err .disconnect) := by unfold Chan.recv; rw [this, h1, hp.stop, h2]
    rw [he, awaitPiece]
    split <;> rename_i h3 <;> rw [hrv] at h3 <;> cases h3
    exact ⟨hp.trace, .inl rfl⟩
  | broken ht h1 h2 h2' =>
    obtain ⟨c, b, hp, hc, he⟩ := talk_midst sha1 l ih n c0 hreg hn ht used rest hf hr hs
    have := frames hp
    have hrv : c.recv = (c, .err (.recv c0.stop)) := by
      unfold Chan.recv; rw [this, h1, hp.stop]
      cases hst : c0.stop <;> first | rfl | exact absurd hst h2 | exact absurd hst h2'
    rw [he, awaitPiece]
    split <;> rename_i h3 <;> rw [hrv] at h3 <;> cases h3
    exact ⟨hp.trace, .inl rfl⟩
  | @garbled ps es f fs e ht h1 h2 =>
    obtain ⟨c, b, hp, hc, he⟩ := talk_midst sha1 l ih n c0 hreg hn ht used rest hf hr hs
    have := frames hp
    have hrv : c.recv = ({ c with frames := fs }, .err (.message e)) := by
      unfold Chan.recv; rw [this, h1]
      simp only [hp.localReg, h2]
    rw [he, awaitPiece]
    split <;> rename_i h3 <;> rw [hrv] at h3 <;> cases h3
    exact ⟨hp.trace, .inl rfl⟩
  | @size ps es i t p ht h1 =>
    obtain ⟨c, b, hp, hc, he⟩ := got ht hr hs
    rw [idx_toNat] at h1
    rw [he, idx_toNat]
    simp only [data, afterRecv, ne_eq, h1, not_false_eq_true, ↓reduceIte]
    exact ⟨hp.trace, .inl rfl⟩
  | @piece ps es i p ht h1 =>
    obtain ⟨c, b, hp, hc, he⟩ := got ht hr hs
    rw [he]
    have htr := hp.trace
    simp only [data, idx_toNat] at htr
    simp only [data, afterRecv, idx_toNat, ne_eq, h1, not_true_eq_false, not_false_eq_true, ↓reduceIte]
    exact ⟨htr, .inl rfl⟩
  | @length ps es p ht h1 =>
    obtain ⟨c, b, hp, hc, he⟩ := got ht hr hs
    have hlt := waits ht
    rw [he]
    have htr := hp.trace
    simp only [data, idx_toNat] at htr
    rcases push_cases hc (rfl : b.push p = _) with ⟨_, h, _⟩ | ⟨_, _, h⟩ | ⟨h, _⟩
    · exact absurd h h1
    · obtain ⟨b', hb'⟩ : ∃ b', b.push p = (b', .error (.length ps.length (pieceSize n.toNat ps.length) p.length)) := ⟨_, Prod.ext rfl h⟩
      simp only [data, afterRecv, idx_toNat, ne_eq, not_true_eq_false, ↓reduceIte, hb']
      exact ⟨htr, .inl rfl⟩
    · omega
  | @rejected ps es ht =>
    obtain ⟨c, b, hp, hc, he⟩ := got ht hr hs
    rw [he]
    simp only [reject, afterRecv, ne_eq, not_true_eq_false, ↓reduceIte]
    exact ⟨hp.trace, .inl rfl⟩
  | @rejectedOther ps es i ht h1 =>
    obtain ⟨c, b, hp, hc, he⟩ := got ht hr hs
    rw [he]
    simp only [reject, afterRecv, ne_eq, h1, not_false_eq_true, ↓reduceIte]
    exact ⟨hp.trace, .inl rfl⟩
  | @unexpected ps es m ht h1 h2 =>
    obtain ⟨c, b, hp, hc, he⟩ := got ht hr hs
    rw [he]
    have hig : m.canBeIgnored = false := by
      cases h : m.canBeIgnored with
      | false => rfl
      | true => exact absurd ((ignorable_iff m).1 h) h1
    have : afterRecv sha1 l n b (idx ps.length) c m = (c, .err (.unexpected m)) := by
      cases m with
      | core m => simp only [afterRecv, hig]; rfl
      | extended m =>
        cases m with
        | handshake s => exact absurd (.handshake s) h1
        | metadata m =>
          cases m with
          | unknown t => exact absurd (.unknown t) h1
          | reject p => exact absurd (.reject p) h2
          | request p => exact absurd (.request p) h2
          | data p t d => exact absurd (.data p t d) h2
    rw [this]
    exact ⟨hp.trace, .inl rfl⟩
  | @unsent ps m es ht h1 =>
    obtain ⟨c, b, hp, hc, ⟨mm, rfl, hmm⟩, he⟩ := talk_midst sha1 l ih n c0 hreg hn ht used rest hf hr hs
    obtain ⟨w, hw, hwl⟩ := encode_metadata c.remoteReg mm (hp.remoteReg ▸ hreg) hmm
    obtain ⟨w', hw', hse⟩ := send_eq l c _ w hw hwl
    rw [hp.nsent, h1] at hse
    rw [he, hse]
    exact ⟨hp.trace, .inl rfl⟩
  | @stuck ps m es ht h1 =>
    obtain ⟨c, b, hp, hc, ⟨mm, rfl, hmm⟩, he⟩ := talk_midst sha1 l ih n c0 hreg hn ht used rest hf hr hs
    obtain ⟨w, hw, hwl⟩ := encode_metadata c.remoteReg mm (hp.remoteReg ▸ hreg) hmm
    obtain ⟨w', hw', hse⟩ := send_eq l c _ w hw hwl
    rw [hp.nsent, h1] at hse
    rw [he, hse]
    exact ⟨hp.trace, .inl rfl⟩
end

/-! ### What is said to be sent was sent -/

/-- Since `c0`, what the conversation of `c` says was sent got through. -/
def SentSince (l : Link) (c0 c : Chan) : Prop :=
  ∃ es, c.trace = c0.trace ++ es ∧ c.nsent = c0.nsent + (sentOf es).length ∧ ∀ k, k < (sentOf es).length → l.sends (c0.nsent + k) = .ok

theorem sentSince_refl (l : Link) (c : Chan) : SentSince l c c := ⟨[], by simp, rfl, by intro k h; cases h⟩

theorem sentSince_send {l : Link} {c0 c c' : Chan} {m : Message} {r} (h : SentSince l c0 c) (hs : c.send l m = (c', r)) : SentSince l c0 c' := by
  unfold Chan.send Chan.write at hs
  split at hs
  · cases hs; exact h
  · split at hs
    · cases hs; exact h
    · split at hs
      · rename_i hk
        cases hs
        obtain ⟨es, h1, h2, h3⟩ := h
        refine ⟨es ++ [.sent m], by simp [h1], by simp [h2, sentOf_append, sentOf, Nat.add_assoc], ?_⟩
        intro k hk'
        rw [sentOf_append] at hk'
        simp only [sentOf, List.length_append, List.length_singleton] at hk'
        by_cases h4 : k < (sentOf es).length
        · exact h3 k h4
        · have : k = (sentOf es).length := by omega
          rw [this, ← h2]; exact hk
      · cases hs; exact h
      · cases hs; exact h

theorem sentSince_recv {l : Link} {c0 c c' : Chan} {r} (h : SentSince l c0 c) (hs : c.recv = (c', r)) : SentSince l c0 c' := by
  unfold Chan.recv at hs
  split at hs
  · split at hs <;> cases hs <;> exact h
  · split at hs
    · cases hs; exact h
    · rename_i m hm
      cases hs
      obtain ⟨es, h1, h2, h3⟩ := h
      refine ⟨es ++ [.received m], by simp [h1], by simp [h2, sentOf_append, sentOf], ?_⟩
      intro k hk'
      rw [sentOf_append] at hk'
      simp only [sentOf, List.append_nil] at hk'
      exact h3 k hk'

theorem sentSince_await (sha1 : Bytes → Bytes) (l : Link) (n : BitVec 32) (c0 c : Chan) (b : TorrentInfoBuilder) (i : BitVec 32)
    (h : SentSince l c0 c) : SentSince l c0 (awaitPiece sha1 l n c b i).1 := by
  fun_induction awaitPiece sha1 l n c b i
  all_goals first
    | exact sentSince_recv h ‹_›
    | exact sentSince_send (sentSince_recv h ‹_›) ‹_›
    | (rename_i ihr; exact ihr (sentSince_send (sentSince_recv h ‹_›) ‹_›))
    | (rename_i ihr; exact ihr (sentSince_recv h ‹_›))

theorem sentSince_session (sha1 : Bytes → Bytes) (l : Link) (ih : InfoHash) (size : Option (BitVec 32)) (c : Chan) :
    SentSince l c (getMetadataInfo sha1 l ih size c).1 := by
  have h := sentSince_refl l c
  unfold getMetadataInfo
  split
  · exact h
  · split
    · exact h
    · exact h
    · split
      · split <;> exact h
      · split
        · exact sentSince_await _ _ _ _ _ _ _ (sentSince_send h ‹_›)
        · exact sentSince_send h ‹_›
        · exact sentSince_send h ‹_›
        · exact sentSince_send h ‹_›

/-! ### Visits -/

section
variable {sha1 : Bytes → Bytes} {l : Link} {ctx : PeerCtx} {enc : Bool}

/-- Talking as our program does. -/
abbrev TalksTo (sha1 : Bytes → Bytes) (l : Link) (ctx : PeerCtx) (enc : Bool) (es : List Event) (r : Res PeerError TorrentInfo) : Prop :=
  Talks sha1 IsInfoDict (fun f m => Message.decode f reg42 = .ok m) (fun f e => Message.decode f reg42 = .error e) l ctx enc es r

theorem agreed_unique {h h' : Handshake} {s s' : ExtendedHandshake} {code code' : BitVec 8} {rest rest' : Bytes}
    (ha : Agreed l ctx enc h s code rest) (ha' : Agreed l ctx enc h' s' code' rest') : h = h' ∧ s = s' ∧ rest = rest' := by
  obtain ⟨r0, f, ⟨hsh, -⟩, hff, hg, -⟩ := ha
  obtain ⟨r0', f', ⟨hsh', -⟩, hff', hg', -⟩ := ha'
  obtain ⟨rfl, rfl⟩ := shaken_unique hsh hsh'
  obtain ⟨rfl, rfl⟩ := firstFrame_unique hff hff'
  exact ⟨rfl, greeting_unique hg hg', rfl⟩

/-- What a connection leaves behind. -/
theorem connect_sends {size} (hok : (connect l ctx enc).2 = .ok size) {h : Handshake} {s : ExtendedHandshake} {code : BitVec 8} {rest : Bytes}
    (ha : Agreed l ctx enc h s code rest) : ∀ k, k < (if h.extensions.has .fast then 3 else 2) → l.sends k = .ok := by
  obtain ⟨ours, -, hc, -⟩ := connect_spec l ctx enc
  have h01 : l.sends 0 = .ok ∧ l.sends 1 = .ok := by
    obtain ⟨r0, f, ⟨⟨-, h0, -⟩, -, -, h1⟩, -⟩ := ha
    exact ⟨h0, h1⟩
  rw [hok] at hc
  have h2 : h.extensions.has .fast = true → l.sends 2 = .ok := by
    intro hf
    generalize hz : (Res.ok size : Res PeerError (Option (BitVec 32))) = z at hc
    generalize (connect l ctx enc).1.trace = tr at hc
    cases hc with
    | slow ha' hf' =>
      obtain ⟨rfl, -⟩ := agreed_unique ha ha'
      rw [hf] at hf'; cases hf'
    | fast _ _ h => exact h
    | short => revert hz; split <;> intro hz <;> cases hz
    | _ => cases hz
  intro k hk
  match k, hk with
  | 0, _ => exact h01.1
  | 1, _ => exact h01.2
  | 2, hk =>
    apply h2
    by_contra h
    rw [if_neg h] at hk; omega
  | k + 3, hk => split at hk <;> omega

/-- **C14.** A conversation that the peer and the network allow is the one that takes place, and its result is the result of the visit. -/
theorem talks_exact (before : List Attempt) {es r} (h : TalksTo sha1 l ctx enc es r) :
    Alike (finishRun sha1 ctx before l enc (connect l ctx enc)).2 r := by
  obtain ⟨h, s, code, n, used, left, fs, t, stop, ha, hsz, hn, hf, ht, hr, hs, he⟩ := h
  have hok := connect_complete l ctx enc h s code _ ha (fun hf => hs 2 (by rw [if_pos hf]; omega))
  obtain ⟨ours, ho, -, hcon⟩ := connect_spec l ctx enc
  obtain ⟨⟨h', s', code', rest', hag', -, hget, hfr, hns, -⟩, hlr⟩ := hcon _ hok
  obtain ⟨rfl, rfl, rfl⟩ := agreed_unique ha hag'
  rw [allFrames_spec l.ending _ fs t stop hf ht] at hfr
  generalize connect l ctx enc = cr at *
  obtain ⟨c, r0⟩ := cr
  simp only at hok hget hfr hlr hns
  subst hok
  have hcf : c.frames = used ++ left := congrArg Prod.fst hfr
  have hcs : c.stop = stop := congrArg Prod.snd hfr
  simp only [finishRun, hsz]
  refine (session_exact sha1 l ctx.infoHash n c (contains_of_getMessageId hget) hn hcf (hlr ▸ hr) ?_ ?_).2
  · intro k hk; exact hs _ (by rw [hns]; omega)
  · rw [hlr, hcs, hns]; exact he

/-- **C14.** If the peer agrees to talk and announces a size that is not too large, there is such a conversation. -/
theorem talks_exists (before : List Attempt) {n : BitVec 32} (hok : (connect l ctx enc).2 = .ok (some n)) (hn : n.toNat ≤ 20 * 1024 * 1024) :
    ∃ es, TalksTo sha1 l ctx enc es (finishRun sha1 ctx before l enc (connect l ctx enc)).2 := by
  obtain ⟨ours, ho, -, hcon⟩ := connect_spec l ctx enc
  obtain ⟨⟨h, s, code, rest, hag, hsz, hget, hfr, hns, -⟩, hlr⟩ := hcon _ hok
  have hsends := connect_sends hok hag
  generalize connect l ctx enc = cr at *
  obtain ⟨c, r0⟩ := cr
  simp only at hok hget hfr hlr hns
  subst hok
  obtain ⟨ps, fs, t, stop, hb, hf, ht⟩ := frames_split l.ending rest
  subst hb
  rw [allFrames_spec l.ending ps fs t stop hf ht] at hfr
  have hcf : c.frames = ps := congrArg Prod.fst hfr
  have hcs : c.stop = stop := congrArg Prod.snd hfr
  obtain ⟨used, left, es, h1, h2, h3, -, h5⟩ := session_spec sha1 l ctx.infoHash n c (contains_of_getMessageId hget) hn
  obtain ⟨es', g1, -, g3⟩ := sentSince_session sha1 l ctx.infoHash (some n) c
  rw [h3] at g1
  have := List.append_cancel_left g1
  subst this
  refine ⟨es, h, s, code, n, used, left, fs, t, stop, hag, hsz.symm, hn, by rw [← h1, hcf]; exact hf, ht, hlr ▸ h2, ?_, ?_⟩
  · intro k hk
    by_cases hk' : k < (if h.extensions.has .fast then 3 else 2)
    · exact hsends k hk'
    · have := g3 (k - c.nsent) (by omega)
      rwa [show c.nsent + (k - c.nsent) = k by omega] at this
  · rw [hlr, hns, hcs] at h5
    exact h5

theorem talks_of_end (before : List Attempt) {r} (h : (finishRun sha1 ctx before l enc (connect l ctx enc)).2 = r)
    (hr : r = .hang ∨ ∃ info, r = .ok info) : ∃ es, TalksTo sha1 l ctx enc es r := by
  subst h
  cases hc : (connect l ctx enc).2 with
  | ok size =>
    cases size with
    | some n =>
      by_cases hn : n.toNat ≤ 20 * 1024 * 1024
      · exact talks_exists before hc hn
      · exfalso
        revert hr
        generalize connect l ctx enc = cr at *
        obtain ⟨c, r0⟩ := cr
        simp only at hc
        subst hc
        simp only [finishRun, (session_refused sha1 l ctx.infoHash c).2 n (by omega)]
        rintro (h | ⟨_, h⟩) <;> cases h
    | none =>
      exfalso
      revert hr
      generalize connect l ctx enc = cr at *
      obtain ⟨c, r0⟩ := cr
      simp only at hc
      subst hc
      simp only [finishRun, (session_refused sha1 l ctx.infoHash c).1]
      rintro (h | ⟨_, h⟩) <;> cases h
  | err e =>
    exfalso
    revert hr
    generalize connect l ctx enc = cr at *
    obtain ⟨c, r0⟩ := cr
    simp only at hc
    subst hc
    rintro (h | ⟨_, h⟩) <;> cases h
  | hang =>
    exfalso
    revert hr
    generalize connect l ctx enc = cr at *
    obtain ⟨c, r0⟩ := cr
    simp only at hc
    subst hc
    rintro (h | ⟨_, h⟩) <;> cases h
  | panic =>
    exfalso
    revert hr
    generalize connect l ctx enc = cr at *
    obtain ⟨c, r0⟩ := cr
    simp only at hc
    subst hc
    rintro (h | ⟨_, h⟩) <;> cases h

theorem visit_end_iff (before : List Attempt) {r} (hr : r = .hang ∨ ∃ info, r = .ok info) :
    (finishRun sha1 ctx before l enc (connect l ctx enc)).2 = r ↔ ∃ es, TalksTo sha1 l ctx enc es r := by
  constructor
  · intro h; exact talks_of_end before h hr
  · rintro ⟨es, h⟩
    rcases talks_exact before h with h | ⟨e, e', -, h⟩
    · exact h
    · rcases hr with rfl | ⟨_, rfl⟩ <;> cases h

theorem connect_crypto_fail : (connect l ctx enc).2 = .err .cryptoHandshake ↔ l.connect = .ok ∧ enc = true ∧ l.crypto = .fail := by
  constructor
  · intro hok
    obtain ⟨ours, -, hc, -⟩ := connect_spec l ctx enc
    rw [hok] at hc
    generalize hz : (Res.err PeerError.cryptoHandshake : Res PeerError (Option (BitVec 32))) = z at hc
    generalize (connect l ctx enc).1.trace = tr at hc
    cases hc with
    | cryptoFail h1 h2 h3 => exact ⟨h1, h2, h3⟩
    | short => revert hz; split <;> intro hz <;> cases hz
    | _ => cases hz
  · rintro ⟨h1, rfl, h3⟩
    unfold connect
    simp only [h1, h3, ↓reduceIte]
end

/-- What is done is what the deciding link decides. -/
theorem run_decided (sha1 : Bytes → Bytes) (links : Nat → Link) (ctx : PeerCtx) (override : Option CryptoMode) (pref : CryptoPreference)
    (required : Bool) :
    (wish override pref = .never ∧ required = true ∧ infoGetterRun sha1 links ctx override pref required = ([], .err .cantRequireCrypto)) ∨
    ∃ l enc before, (∀ l' enc', Decides (wish override pref) required links l' enc' ↔ l' = l ∧ enc' = enc) ∧
      infoGetterRun sha1 links ctx override pref required = finishRun sha1 ctx before l enc (connect l ctx enc) := by
  have hmode : getCryptoMode override pref required = match wish override pref, required with
      | .never, true => none
      | .never, false | .ifRequired, false => some .plain
      | .always, _ | .ifRequired, true | .prefer, true => some .encrypt
      | .prefer, false => some .prefer := by
    rcases override with _ | ⟨_ | _ | _⟩ <;> cases pref <;> cases required <;> rfl
  have first : ∀ {w : CryptoPreference}, ¬ (w = .never ∧ required = true) →
      ¬ (w = .prefer ∧ required = false ∧ (links 0).connect = .ok ∧ (links 0).crypto = .fail) →
      ∀ l' enc', Decides w required links l' enc' ↔ l' = links 0 ∧ enc' = firstEncrypts w required := by
    intro w h1 h2 l' enc'
    constructor
    · intro h
      cases h with
      | first => exact ⟨rfl, rfl⟩
      | second a b c d => exact absurd ⟨a, b, c, d⟩ h2
    · rintro ⟨rfl, rfl⟩; exact .first h1 h2
  unfold infoGetterRun
  rw [hmode]
  generalize wish override pref = w
  cases w with
  | always => exact .inr ⟨links 0, true, [], first (by simp) (by simp), rfl⟩
  | never =>
    cases required with
    | true => exact .inl ⟨rfl, rfl, rfl⟩
    | false => exact .inr ⟨links 0, false, [], first (by simp) (by simp), rfl⟩
  | ifRequired =>
    cases required with
    | true => exact .inr ⟨links 0, true, [], first (by simp) (by simp), rfl⟩
    | false => exact .inr ⟨links 0, false, [], first (by simp) (by simp), rfl⟩
  | prefer =>
    cases required with
    | true => exact .inr ⟨links 0, true, [], first (by simp) (by simp), rfl⟩
    | false =>
      simp only
      split
      · rename_i c hc
        have hcf := (connect_crypto_fail (l := links 0) (ctx := ctx) (enc := true)).1 (by rw [hc])
        refine .inr ⟨links 1, false, _, ?_, rfl⟩
        intro l' enc'
        constructor
        · intro h
          generalize hz : (CryptoPreference.prefer) = z at h
          cases h with
          | first _ h => exact absurd ⟨hz.symm, rfl, hcf.1, hcf.2.2⟩ h
          | second => exact ⟨rfl, rfl⟩
        · rintro ⟨rfl, rfl⟩; exact .second rfl rfl hcf.1 hcf.2.2
      · rename_i hne
        refine .inr ⟨links 0, true, [], first (by simp) ?_, rfl⟩
        rintro ⟨-, -, h1, h2⟩
        have := (connect_crypto_fail (l := links 0) (ctx := ctx) (enc := true)).2 ⟨h1, rfl, h2⟩
        exact hne (connect (links 0) ctx true).1 (Prod.ext rfl this)

theorem run_end_iff (sha1 : Bytes → Bytes) (links : Nat → Link) (ctx : PeerCtx) (override : Option CryptoMode) (pref : CryptoPreference)
    (required : Bool) {r} (hr : r = .hang ∨ ∃ info, r = .ok info) :
    (infoGetterRun sha1 links ctx override pref required).2 = r ↔
      ∃ l enc es, Decides (wish override pref) required links l enc ∧ TalksTo sha1 l ctx enc es r := by
  rcases run_decided sha1 links ctx override pref required with ⟨h1, h2, h3⟩ | ⟨l, enc, before, hd, h3⟩
  · rw [h3]
    constructor
    · intro h; rcases hr with rfl | ⟨_, rfl⟩ <;> cases h
    · rintro ⟨l, enc, es, hd, -⟩
      exfalso
      rw [h1, h2] at hd
      generalize hz : (CryptoPreference.never) = z at hd
      generalize hy : true = y at hd
      cases hd with
      | first h => exact h ⟨hz.symm, hy.symm⟩
      | second h => subst hz; cases h
  · rw [h3, visit_end_iff before hr]
    constructor
    · rintro ⟨es, h⟩; exact ⟨l, enc, es, (hd l enc).2 ⟨rfl, rfl⟩, h⟩
    · rintro ⟨l', enc', es, hd', h⟩
      obtain ⟨rfl, rfl⟩ := (hd l' enc').1 hd'
      exact ⟨es, h⟩

/-- **C59.** Exactly when asking a peer for the metadata never ends: on the link that decides, having talked as described, we wait for a piece
and the peer sends nothing more without ending the connection, or a message of ours is never completely sent. -/
theorem task_hangs_iff (sha1 : Bytes → Bytes) (localId : PeerId) (pref : CryptoPreference) (ih : InfoHash) (p : Peer) (links : Nat → Link) :
    peerTask sha1 localId pref ih p links = .hang ↔
      ∃ l enc es, Decides pref p.requiresCrypto links l enc ∧
        Talks sha1 IsInfoDict (fun f m => Message.decode f reg42 = .ok m) (fun f e => Message.decode f reg42 = .error e) l
          ⟨ih, localId, p.address.ip⟩ enc es .hang := by
  have := run_end_iff sha1 links ⟨ih, localId, p.address.ip⟩ none pref p.requiresCrypto (.inl rfl)
  exact this

/-- **C14.** Exactly when asking a peer for the metadata succeeds, and what it gives. -/
theorem task_ok_iff (sha1 : Bytes → Bytes) (localId : PeerId) (pref : CryptoPreference) (ih : InfoHash) (p : Peer) (links : Nat → Link)
    (info : TorrentInfo) :
    peerTask sha1 localId pref ih p links = .ok info ↔
      ∃ l enc es, Decides pref p.requiresCrypto links l enc ∧
        Talks sha1 IsInfoDict (fun f m => Message.decode f reg42 = .ok m) (fun f e => Message.decode f reg42 = .error e) l
          ⟨ih, localId, p.address.ip⟩ enc es (.ok info) := by
  have := run_end_iff sha1 links ⟨ih, localId, p.address.ip⟩ none pref p.requiresCrypto (.inr ⟨info, rfl⟩)
  exact this

/-- **C59.** Until a download has a result it can go on, provided that every peer may behave in a way that does not keep us waiting. -/
theorem download_goes_on_partial {sha1 : Bytes → Bytes} {localId : PeerId} {pref : CryptoPreference} {behaves : Peer → (Nat → Link) → Prop}
    {m : Magnet} {dht : Except TaskError (List Peer × List SockAddr)} {jobsT jobsP : Nat}
    {tr : ResolveTrace Tracker Peer SockAddr TorrentInfo TaskError} {s : Resolve Tracker Peer SockAddr SockAddr TorrentInfo TaskError}
    (hT : 0 < jobsT) (hP : 0 < jobsP) (h : DownloadRun sha1 localId pref behaves m dht jobsT jobsP tr s)
    (hr : s.result = none) (trackerEnd : Tracker → Outcome (Except TaskError (List Peer)))
    (hb : ∀ p, ∃ links, behaves p links ∧ ¬ ∃ l enc es, Decides pref p.requiresCrypto links l enc ∧
      Talks sha1 IsInfoDict (fun f m => Message.decode f reg42 = .ok m) (fun f e => Message.decode f reg42 = .error e) l
        ⟨m.infoHash, localId, p.address.ip⟩ enc es .hang) :
    ∃ e s' out, DownloadRun sha1 localId pref behaves m dht jobsT jobsP (tr ++ [(e, out)]) s' ∧
      (∀ x ∈ out.filterMap trackerDoneOf, x.2 = trackerPeers (trackerEnd x.1)) := by
  have hb' : ∀ p, ∃ o links, behaves p links ∧ taskOutcome (peerTask sha1 localId pref m.infoHash p links) = some o := by
    intro p
    obtain ⟨links, h1, h2⟩ := hb p
    rw [← task_hangs_iff] at h2
    generalize hz : peerTask sha1 localId pref m.infoHash p links = z at h2
    cases z with
    | hang => exact absurd rfl h2
    | ok i => exact ⟨_, links, h1, by rw [hz]; rfl⟩
    | err e => exact ⟨_, links, h1, by rw [hz]; rfl⟩
    | panic => exact ⟨_, links, h1, by rw [hz]; rfl⟩
  obtain ⟨f, hf⟩ := Classical.axiomOfChoice hb'
  obtain ⟨e, s', out, h1, h2, h3⟩ := resolve_progress hT hP h.run hr trackerEnd f
  refine ⟨e, s', out, ⟨.step h.run h1, ?_⟩, h3⟩
  intro eo heo p r hp
  rcases List.mem_append.1 heo with heo | heo
  · exact h.tasks eo heo p r hp
  · rw [List.mem_singleton] at heo
    subst heo
    have := h2 (p, r) (List.mem_filterMap.2 ⟨_, hp, rfl⟩)
    simp only at this
    rw [this]
    exact hf p

/-! ### Examples -/

/-- Nothing more comes from a peer that has agreed to talk: after the first request we wait. -/
theorem exTalksNot (sha1 : Bytes → Bytes) : TalksTo sha1 stallLink exCtx false [.sent (request (idx 0))] .hang := by
  refine ⟨exTheirs, exGreeting, 3, 2, [], [], [], [], .pending, stallAgreed, rfl, by decide, .nil, .inr ⟨0, .inl ⟨by decide, rfl⟩, rfl⟩, .nil,
    fun _ _ => rfl, ?_⟩
  exact .silent (Talk.sent (.start (by decide))) rfl rfl

example (sha1 : Bytes → Bytes) :
    peerTask sha1 ⟨List.replicate 20 9, by decide⟩ .ifRequired exHash exPeer (fun _ => stallLink) = .hang :=
  (task_hangs_iff ..).2 ⟨stallLink, false, _, .first (links := fun _ => stallLink) (by simp) (by simp), exTalksNot sha1⟩

/-- A peer that serves the metadata. -/
theorem exTalksDe (sha1 : Bytes → Bytes) (hd : sha1 (ascii "de") = exHash.bytes) :
    TalksTo sha1 exLink exCtx false [.sent (request (idx 0)), .received (data (idx 0) (idx 2) (ascii "de"))] (.ok ⟨exHash, ascii "de"⟩) := by
  obtain ⟨h, s, code, frames, fs, t, stop, n, ms, ps, h1, h2, h3, h4, h5, h6, -⟩ := exDelivers
  refine ⟨exTheirs, exGreeting, 3, 2, [exDataBytes], [], exRest, [], .pending, exAgreed, rfl, by decide,
    by simpa [exRest] using IsFrames.cons (isHeader_beBytes _ (by decide)) (by decide) IsFrames.nil, .inr ⟨0, .inl ⟨by decide, rfl⟩, rfl⟩,
    .cons (by decide +kernel) .nil, fun _ _ => rfl, ?_⟩
  exact Ends.complete (ps := []) (Talk.sent (.start (by decide))) (by decide) (by decide) (.ok hd ((checkBencodeDict_spec _).1 (by decide +kernel)))

example (sha1 : Bytes → Bytes) (hd : sha1 (ascii "de") = exHash.bytes) :
    peerTask sha1 ⟨List.replicate 20 9, by decide⟩ .ifRequired exHash exPeer (fun _ => exLink) = .ok ⟨exHash, ascii "de"⟩ :=
  (task_ok_iff ..).2 ⟨exLink, false, _, .first (links := fun _ => exLink) (by simp) (by simp), exTalksDe sha1 hd⟩

/-- A link on which the first request cannot be sent. -/
def unsentLink : Link := { stallLink with sends := fun k => if k = 3 then .fail else .ok }

/-- If the request cannot be sent, the result is that error, and no other. -/
example (sha1 : Bytes → Bytes) : (finishRun sha1 exCtx [] unsentLink false (connect unsentLink exCtx false)).2 = .err .send := by
  have hf : exTheirs.extensions.has .fast = true := by decide +kernel
  have h : TalksTo sha1 unsentLink exCtx false [] (.err .send) := by
    refine ⟨exTheirs, exGreeting, 3, 2, [], [], [], [], .pending, ?_, rfl, by decide, .nil, .inr ⟨0, .inl ⟨by decide, rfl⟩, rfl⟩, .nil, ?_, ?_⟩
    · obtain ⟨r0, f, ⟨⟨a, b, c⟩, d, e, g⟩, h⟩ := stallAgreed
      exact ⟨r0, f, ⟨⟨a, rfl, c⟩, d, e, rfl⟩, h⟩
    · intro k hk
      rw [if_pos hf] at hk
      simp only [sentOf, List.length_nil, Nat.add_zero] at hk
      simp only [unsentLink, if_neg (show k ≠ 3 by omega)]
    · rw [if_pos hf]
      exact .unsent (.start (by decide)) rfl
  rcases talks_exact [] h with h | ⟨_, _, -, h⟩
  · exact h
  · cases h

end Demag.Props
