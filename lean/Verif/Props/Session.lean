import Verif.Spec.Session
import Mathlib.Data.List.Forall2
import Verif.Props.Framing
import Verif.Props.PeerBen
import Verif.Props.PeerMsg
import Verif.Props.Torrent

/-!
# C14, C31, C51: talking to a peer
-/

namespace Demag.Props

open Demag Demag.Spec

/-! ### Sending never panics -/

theorem dec_length_le (k : Nat) : ∀ n, n < 10 ^ k → 0 < k → (dec n).length ≤ k := by
  induction k with
  | zero => intro n _ h; omega
  | succ k ih =>
    intro n hn _
    rw [dec]
    split
    · simp
    · rename_i h
      have hk : 0 < k := by
        rcases Nat.eq_zero_or_pos k with rfl | h'
        · simp at hn; omega
        · exact h'
      have := ih (n / 10) (by rw [Nat.pow_succ] at hn; omega) hk
      simp only [List.length_append, List.length_singleton]; omega

theorem benc_u32_length (p : BitVec 32) : (benc (.int p.toNat)).length ≤ 12 := by
  have := dec_length_le 10 p.toNat (by have := p.isLt; omega) (by omega)
  simp only [benc, decInt, List.length_cons, List.length_append, List.length_nil]; omega

theorem metadata_small_length (m : MetadataMessage) (h : (∃ p, m = .request p) ∨ ∃ p, m = .reject p) :
    (benc (.dict (metadataDict m))).length ≤ 65000 := by
  rcases h with ⟨p, rfl⟩ | ⟨p, rfl⟩
  · have h0 : (benc (.int 0)).length = 3 := by decide +kernel
    have h1 : (encBytes (keyBytes "msg_type")).length = 10 := by decide +kernel
    have h2 : (encBytes (keyBytes "piece")).length = 7 := by decide +kernel
    have h3 := benc_u32_length p
    rw [benc]
    simp only [metadataDict, bencDict, List.length_cons, List.length_append, List.length_nil, h0, h1, h2]
    omega
  · have h0 : (benc (.int 2)).length = 3 := by decide +kernel
    have h1 : (encBytes (keyBytes "msg_type")).length = 10 := by decide +kernel
    have h2 : (encBytes (keyBytes "piece")).length = 7 := by decide +kernel
    have h3 := benc_u32_length p
    rw [benc]
    simp only [metadataDict, bencDict, List.length_cons, List.length_append, List.length_nil, h0, h1, h2]
    omega

theorem frameEncode_ok {p : Bytes} (h : p.length ≤ 65535) : ∃ w, frameEncode p = some w ∧ IsFrames [p] w := by
  have hh := isHeader_beBytes p.length (by omega)
  refine ⟨beBytes 4 p.length ++ p, (frameEncode_spec p _).2 ⟨h, _, hh, rfl⟩, ?_⟩
  have := IsFrames.cons hh h IsFrames.nil
  simpa using this

/-- A channel after a send. -/
def sentChan (c : Chan) (m : Message) (w : Bytes) : Chan :=
  { c with nsent := c.nsent + 1, trace := c.trace ++ [.sent m], out := c.out ++ w }

theorem send_eq (l : Link) (c : Chan) (m : Message) (b : Bytes) (hb : m.encode c.remoteReg = .ok b) (hl : b.length ≤ 65535) :
    ∃ w, IsFrames [b] w ∧ c.send l m =
      match l.sends c.nsent with
      | .ok => (sentChan c m w, .ok ())
      | .fail => (c, .err .send)
      | .hang => (c, .hang) := by
  obtain ⟨w, hw, hf⟩ := frameEncode_ok hl
  refine ⟨w, hf, ?_⟩
  unfold Chan.send
  simp only [hb, hw]
  rfl

theorem encode_metadata (r : Bep10Registry) (m : MetadataMessage) (hr : r.contains .metadata = true)
    (h : (∃ p, m = .request p) ∨ ∃ p, m = .reject p) :
    ∃ b, (Message.extended (.metadata m)).encode r = .ok b ∧ b.length ≤ 65535 := by
  unfold RegistryOf.contains HMap.contains at hr
  obtain ⟨code, hc⟩ := Option.isSome_iff_exists.1 hr
  have hpl : metadataPayload m = [] := by rcases h with ⟨p, rfl⟩ | ⟨p, rfl⟩ <;> rfl
  have hlen := metadata_small_length m h
  have he := metadata_encode_spec m
  rw [hpl, List.append_nil] at he
  have hg : r.getMessageId .metadata = some code := hc
  refine ⟨CoreMessage.encode (.extended code (benc (.dict (metadataDict m)))), ?_, ?_⟩
  · simp only [Message.encode, ExtendedMessage.encode, hg, he]; rfl
  · simp only [CoreMessage.encode, List.length_append]
    have : (putU8 0x14).length = 1 := rfl
    have : (putU8 code).length = 1 := rfl
    omega

/-! ### The conversation -/

theorem receivedOf_append (a b : List Event) : receivedOf (a ++ b) = receivedOf a ++ receivedOf b := by
  induction a with
  | nil => rfl
  | cons x xs ih => cases x <;> simp [receivedOf, ih]

theorem sentOf_append (a b : List Event) : sentOf (a ++ b) = sentOf a ++ sentOf b := by
  induction a with
  | nil => rfl
  | cons x xs ih => cases x <;> simp [sentOf, ih]

theorem isFrames_append {ps qs : List Bytes} {bs cs : Bytes} (h : IsFrames ps bs) (h' : IsFrames qs cs) :
    IsFrames (ps ++ qs) (bs ++ cs) := by
  induction h with
  | nil => exact h'
  | cons hh hl _ ih =>
    have := IsFrames.cons hh hl ih
    simpa [List.append_assoc] using this

/-- `c` is `c0` after the conversation `es`, for which the frames `used` were received. -/
structure Progress (c0 : Chan) (used : List Bytes) (es : List Event) (c : Chan) : Prop where
  trace : c.trace = c0.trace ++ es
  nsent : c.nsent = c0.nsent + (sentOf es).length
  frames : c0.frames = used ++ c.frames
  stop : c.stop = c0.stop
  localReg : c.localReg = c0.localReg
  remoteReg : c.remoteReg = c0.remoteReg
  read : List.Forall₂ (fun f m => Message.decode f c0.localReg = .ok m) used (receivedOf es)
  written : ∃ ps w, c.out = c0.out ++ w ∧ IsFrames ps w ∧
    List.Forall₂ (fun p m => Message.encode m c0.remoteReg = .ok p) ps (sentOf es)

theorem progress_refl (c : Chan) : Progress c [] [] c :=
  ⟨by simp, rfl, rfl, rfl, rfl, rfl, .nil, [], [], by simp, .nil, .nil⟩

theorem progress_recv {c0 c c' : Chan} {used es m} (h : Progress c0 used es c) (hr : c.recv = (c', .ok m)) :
    ∃ f, Progress c0 (used ++ [f]) (es ++ [.received m]) c' := by
  unfold Chan.recv at hr
  split at hr
  · split at hr <;> cases hr
  · rename_i f fs hf
    split at hr
    · cases hr
    · rename_i m' hd
      cases hr
      refine ⟨f, ⟨by simp [h.trace], by simp [h.nsent, sentOf_append, sentOf], by simp [h.frames, hf], h.stop, h.localReg,
        h.remoteReg, ?_, ?_⟩⟩
      · rw [receivedOf_append]
        refine List.rel_append h.read (.cons ?_ .nil)
        rw [← h.localReg]; exact hd
      · rw [sentOf_append]
        simp only [sentOf, List.append_nil]
        exact h.written

theorem progress_sent {c0 c : Chan} {used es m b w} (h : Progress c0 used es c) (hb : m.encode c.remoteReg = .ok b)
    (hw : IsFrames [b] w) : Progress c0 used (es ++ [.sent m]) (sentChan c m w) := by
  obtain ⟨ps, w0, h1, h2, h3⟩ := h.written
  refine ⟨by simp [sentChan, h.trace], by simp [sentChan, h.nsent, sentOf_append, sentOf, Nat.add_assoc], h.frames, h.stop,
    h.localReg, h.remoteReg, ?_, ps ++ [b], w0 ++ w, by simp [sentChan, h1], isFrames_append h2 hw, ?_⟩
  · rw [receivedOf_append]; simpa [receivedOf] using h.read
  · rw [sentOf_append]
    refine List.rel_append h3 (.cons ?_ .nil)
    rw [← h.remoteReg]; exact hb

/-- Why nothing was received. -/
theorem recv_none (c : Chan) (hr : ∀ c' m, c.recv ≠ (c', .ok m)) :
    c.recv.1.trace = c.trace ∧ c.recv.1.nsent = c.nsent ∧ c.recv.1.out = c.out ∧
    ((c.frames = [] ∧ c.stop = .pending ∧ c.recv.2 = .hang) ∨
     (c.frames = [] ∧ c.stop = .disconnect ∧ c.recv.2 = .err .disconnect) ∨
     (c.frames = [] ∧ c.stop ≠ .pending ∧ c.stop ≠ .disconnect ∧ c.recv.2 = .err (.recv c.stop)) ∨
     (∃ f fs e, c.frames = f :: fs ∧ Message.decode f c.localReg = .error e ∧ c.recv.2 = .err (.message e))) := by
  revert hr
  unfold Chan.recv
  split
  · rename_i hf
    split <;> rename_i hs <;> simp_all
  · rename_i f fs hf
    split
    · rename_i e hd
      intro _; exact ⟨rfl, rfl, rfl, .inr (.inr (.inr ⟨f, fs, e, hf, hd, rfl⟩))⟩
    · rename_i m hd
      intro hr; exact absurd rfl (hr _ m)

theorem ignorable_iff (m : Message) : m.canBeIgnored = true ↔ Ignorable m := by
  constructor
  · intro h
    cases m with
    | core m =>
      cases m with
      | keepalive => exact .keepalive
      | choke => exact .choke
      | unchoke => exact .unchoke
      | interested => exact .interested
      | notInterested => exact .notInterested
      | have' p => exact .have' p
      | bitfield b => exact .bitfield b
      | piece i b d => exact .piece i b d
      | haveAll => exact .haveAll
      | haveNone => exact .haveNone
      | allowedFast i => exact .allowedFast i
      | suggest i => exact .suggest i
      | _ => exact Bool.noConfusion h
    | extended m =>
      cases m with
      | handshake s => exact .handshake s
      | metadata m =>
        cases m with
        | unknown t => exact .unknown t
        | _ => exact absurd h (by simp [Message.canBeIgnored, ExtendedMessage.canBeIgnored, MetadataMessage.canBeIgnored])
  · intro h; cases h <;> rfl

/-- What the theorem about a session says. -/
def SessionOk (sha1 : Bytes → Bytes) (l : Link) (ih : InfoHash) (n : BitVec 32) (c0 : Chan)
    (res : Chan × Res PeerError TorrentInfo) : Prop :=
  ∃ used rest es,
    c0.frames = used ++ rest ∧
    List.Forall₂ (fun f m => Message.decode f c0.localReg = .ok m) used (receivedOf es) ∧
    res.1.trace = c0.trace ++ es ∧
    (∃ ps w, res.1.out = c0.out ++ w ∧ IsFrames ps w ∧
      List.Forall₂ (fun p m => Message.encode m c0.remoteReg = .ok p) ps (sentOf es)) ∧
    Ends sha1 IsInfoDict ih n.toNat rest c0.stop (fun f e => Message.decode f c0.localReg = .error e)
      (l.sends (c0.nsent + (sentOf es).length)) es res.2

theorem sessionOk_of_progress {sha1 l ih} {n : BitVec 32} {c0 c : Chan} {used es r} (hp : Progress c0 used es c)
    (he : Ends sha1 IsInfoDict ih n.toNat c.frames c0.stop (fun f e => Message.decode f c0.localReg = .error e)
      (l.sends (c0.nsent + (sentOf es).length)) es r) : SessionOk sha1 l ih n c0 (c, r) :=
  ⟨used, c.frames, es, hp.frames, hp.read, hp.trace, hp.written, he⟩

theorem verdict_of_build {sha1 ih n ps} {b : TorrentInfoBuilder} (hc : Collected ih n ps b) (hf : ps.length = pieceCount n) :
    match b.build sha1 with
    | .ok info => Verdict sha1 IsInfoDict ih ps.flatten (.ok info)
    | .error e => Verdict sha1 IsInfoDict ih ps.flatten (.err (.infoBuild e)) := by
  obtain ⟨h1, h2, h3, h4, h5, h6, h7⟩ := hc
  unfold TorrentInfoBuilder.build
  rw [h1, h2, h3, h5, h6, hf]
  simp only [Nat.sub_self, gt_iff_lt, Nat.lt_irrefl, ↓reduceIte]
  by_cases hs : sha1 ps.flatten = ih.bytes
  · rw [if_neg (by simpa using hs)]
    cases hd : checkBencodeDict ps.flatten with
    | ok u => exact .ok hs ((checkBencodeDict_spec _).1 hd)
    | error e =>
      refine .bad hs ?_
      intro hg
      rw [(checkBencodeDict_spec _).2 hg] at hd; cases hd
  · rw [if_pos (by simpa using hs)]
    exact .digest hs

theorem idx_toNat (n : BitVec 32) : idx n.toNat = n := by simp [idx]

theorem nextPiece_collected {ih n ps} {b : TorrentInfoBuilder} (hc : Collected ih n ps b) :
    b.nextPiece = if ps.length < pieceCount n then some ps.length else none := by
  obtain ⟨-, -, -, -, h5, h6, -⟩ := hc
  unfold TorrentInfoBuilder.nextPiece
  rw [h5, h6]

section
variable {sha1 : Bytes → Bytes} {good : Bytes → Prop} {ih : InfoHash} {n : BitVec 32} {rest : List Bytes} {stop : Stop}
  {garbage : Bytes → MessageError → Prop} {next : IoOutcome} {ps : List Bytes} {es : List Event}

theorem ends_size {i t p} (ht : Talk n.toNat ps none es) (h : t ≠ n) :
    Ends sha1 good ih n.toNat rest stop garbage next (es ++ [.received (data i t p)]) (.err (.sizeMismatch n t)) := by
  have := Ends.size (sha1 := sha1) (good := good) (ih := ih) (rest := rest) (stop := stop) (garbage := garbage)
    (next := next) (i := i) (t := t) (p := p) ht (by rw [idx_toNat]; exact h)
  rwa [idx_toNat] at this

theorem ends_piece {i p} (ht : Talk n.toNat ps none es) (h : i ≠ idx ps.length) :
    Ends sha1 good ih n.toNat rest stop garbage next (es ++ [.received (data i n p)]) (.err (.wrongPiece (idx ps.length) i)) := by
  have := Ends.piece (sha1 := sha1) (good := good) (ih := ih) (rest := rest) (stop := stop) (garbage := garbage)
    (next := next) (i := i) (p := p) ht h
  rwa [idx_toNat] at this

theorem ends_length {p} (ht : Talk n.toNat ps none es) (h : p.length ≠ pieceSize n.toNat ps.length) :
    Ends sha1 good ih n.toNat rest stop garbage next (es ++ [.received (data (idx ps.length) n p)])
        (.err (.infoPush (.length ps.length (pieceSize n.toNat ps.length) p.length))) := by
  have := Ends.length (sha1 := sha1) (good := good) (ih := ih) (rest := rest) (stop := stop) (garbage := garbage)
    (next := next) (p := p) ht h
  rwa [idx_toNat] at this

theorem ends_complete {p r} (ht : Talk n.toNat ps none es) (h : p.length = pieceSize n.toNat ps.length)
    (hl : ps.length + 1 = pieceCount n.toNat) (hv : Verdict sha1 good ih (ps.flatten ++ p) r) :
    Ends sha1 good ih n.toNat rest stop garbage next (es ++ [.received (data (idx ps.length) n p)]) r := by
  have := Ends.complete (sha1 := sha1) (good := good) (ih := ih) (rest := rest) (stop := stop) (garbage := garbage)
    (next := next) (p := p) ht h hl hv
  rwa [idx_toNat] at this

theorem talk_accept {p} (ht : Talk n.toNat ps none es) (h : p.length = pieceSize n.toNat ps.length)
    (hl : ps.length + 1 < pieceCount n.toNat) :
    Talk n.toNat (ps ++ [p]) (some (request (idx (ps.length + 1)))) (es ++ [.received (data (idx ps.length) n p)]) := by
  have := Talk.accept (p := p) ht h hl
  rwa [idx_toNat] at this
end

theorem push_cases {ih : InfoHash} {n : Nat} {ps : List Bytes} {b : TorrentInfoBuilder} {q : Bytes}
    {res : TorrentInfoBuilder × Except PushError Unit} (hc : Collected ih n ps b) (h : b.push q = res) :
    (ps.length < pieceCount n ∧ q.length = pieceSize n ps.length ∧ ∃ b', res = (b', .ok ()) ∧ Collected ih n (ps ++ [q]) b') ∨
    (ps.length < pieceCount n ∧ q.length ≠ pieceSize n ps.length ∧
      res.2 = .error (.length ps.length (pieceSize n ps.length) q.length)) ∨
    (ps.length = pieceCount n ∧ res.2 = .error .tooManyPieces) := by
  rw [← h]; exact collected_push ih n ps b hc q

theorem next_none {a b : Nat} (h : (if a + 1 < b then some (a + 1) else none) = none) (hlt : a < b) : a + 1 = b := by
  by_contra hne
  rw [if_pos (by omega)] at h; cases h

/-- Sending a metadata request or reject while talking. -/
theorem talk_send {sha1 l ih} {n : BitVec 32} {c0 c : Chan} {used es ps} {m : MetadataMessage}
    (hp : Progress c0 used es c) (ht : Talk n.toNat ps (some (.extended (.metadata m))) es)
    (hr : c.remoteReg.contains .metadata = true) (hm : (∃ p, m = .request p) ∨ ∃ p, m = .reject p) :
    (∃ c', c.send l (.extended (.metadata m)) = (c', .ok ()) ∧ Progress c0 used (es ++ [.sent (.extended (.metadata m))]) c') ∨
    (∃ r : Res PeerError TorrentInfo, SessionOk sha1 l ih n c0 (c, r) ∧
      ((r = .err .send ∧ c.send l (.extended (.metadata m)) = (c, .err .send)) ∨
       (r = .hang ∧ c.send l (.extended (.metadata m)) = (c, .hang)))) := by
  obtain ⟨b, hb, hbl⟩ := encode_metadata c.remoteReg m hr hm
  obtain ⟨w, hw, hs⟩ := send_eq l c _ b hb hbl
  rw [hs, hp.nsent]
  cases hn : l.sends (c0.nsent + (sentOf es).length) with
  | ok => exact .inl ⟨_, rfl, progress_sent hp hb hw⟩
  | fail => exact .inr ⟨_, sessionOk_of_progress hp (.unsent ht hn), .inl ⟨rfl, rfl⟩⟩
  | hang => exact .inr ⟨_, sessionOk_of_progress hp (.stuck ht hn), .inr ⟨rfl, rfl⟩⟩

theorem awaitPiece_ok (sha1 : Bytes → Bytes) (l : Link) (ih : InfoHash) (n : BitVec 32) (c0 : Chan)
    (hreg : c0.remoteReg.contains .metadata = true)
    (c : Chan) (piecer : TorrentInfoBuilder) (i : BitVec 32) :
    ∀ used es ps, Progress c0 used es c → Talk n.toNat ps none es → Collected ih n.toNat ps piecer →
    ps.length < pieceCount n.toNat → i = idx ps.length → SessionOk sha1 l ih n c0 (awaitPiece sha1 l n c piecer i) := by
  fun_induction awaitPiece sha1 l n c piecer i with
  | case1 c piecer i c' e hr =>
    intro used es ps hp ht hcol hlt hi
    obtain ⟨t1, t2, t3, hcase⟩ := recv_none c (by rw [hr]; intro _ _ h; cases h)
    rw [hr] at t1 t2 t3 hcase
    have hok : Ends sha1 IsInfoDict ih n.toNat c.frames c0.stop (fun f e => Message.decode f c0.localReg = .error e)
      (l.sends (c0.nsent + (sentOf es).length)) es (.err e) := by
      rcases hcase with ⟨_, _, h⟩ | ⟨h1, h2, h⟩ | ⟨h1, h2, h3, h⟩ | ⟨f, fs, e', h1, h2, h⟩
      · cases h
      · cases h; exact .closed ht h1 (hp.stop ▸ h2)
      · cases h; rw [hp.stop]; exact .broken ht h1 (hp.stop ▸ h2) (hp.stop ▸ h3)
      · cases h; exact .garbled ht h1 (hp.localReg ▸ h2)
    obtain ⟨ps', w, hw, hw2⟩ := hp.written
    exact ⟨used, c.frames, es, hp.frames, hp.read, by rw [t1, hp.trace], ⟨ps', w, by rw [t3, hw], hw2⟩, hok⟩
  | case2 c piecer i c' hr =>
    intro used es ps hp ht hcol hlt hi
    obtain ⟨t1, t2, t3, hcase⟩ := recv_none c (by rw [hr]; intro _ _ h; cases h)
    rw [hr] at t1 t2 t3 hcase
    have hok : Ends sha1 IsInfoDict ih n.toNat c.frames c0.stop (fun f e => Message.decode f c0.localReg = .error e)
      (l.sends (c0.nsent + (sentOf es).length)) es .hang := by
      rcases hcase with ⟨h1, h2, h⟩ | ⟨h1, h2, h⟩ | ⟨h1, h2, h3, h⟩ | ⟨f, fs, e', h1, h2, h⟩
      · exact .silent ht h1 (hp.stop ▸ h2)
      all_goals cases h
    obtain ⟨ps', w, hw, hw2⟩ := hp.written
    exact ⟨used, c.frames, es, hp.frames, hp.read, by rw [t1, hp.trace], ⟨ps', w, by rw [t3, hw], hw2⟩, hok⟩
  | case3 c piecer i c' hr =>
    intro used es ps hp ht hcol hlt hi
    obtain ⟨t1, t2, t3, hcase⟩ := recv_none c (by rw [hr]; intro _ _ h; cases h)
    rw [hr] at hcase
    rcases hcase with ⟨h1, h2, h⟩ | ⟨h1, h2, h⟩ | ⟨h1, h2, h3, h⟩ | ⟨f, fs, e', h1, h2, h⟩ <;> cases h
  | case4 =>
    rename_i hs hr
    intro used es ps hp ht hcol hlt hi
    obtain ⟨f, hp⟩ := progress_recv hp hr
    exact sessionOk_of_progress hp (ends_size ht hs)
  | case5 =>
    rename_i hs hpc hr
    intro used es ps hp ht hcol hlt hi
    obtain ⟨f, hp⟩ := progress_recv hp hr
    rw [ne_eq, not_not] at hs
    subst hs hi
    exact sessionOk_of_progress hp (ends_piece ht hpc)
  | case6 =>
    rename_i hpush hr
    intro used es ps hp ht hcol hlt hi
    rcases push_cases hcol hpush with ⟨_, _, b', h, _⟩ | ⟨_, _, h⟩ | ⟨h, _⟩
    · cases h
    · cases h
    · omega
  | case7 =>
    rename_i hs hpc _ _ _ hpush hr
    intro used es ps hp ht hcol hlt hi
    obtain ⟨f, hp⟩ := progress_recv hp hr
    rw [ne_eq, not_not] at hs hpc
    subst hs hpc hi
    rcases push_cases hcol hpush with ⟨_, _, b', h, _⟩ | ⟨_, h1, h⟩ | ⟨h, _⟩
    · cases h
    · cases h
      exact sessionOk_of_progress hp (ends_length ht h1)
    · omega
  | case8 =>
    rename_i hs hpc _ hpush hnext _ hbuild hr
    intro used es ps hp ht hcol hlt hi
    obtain ⟨f, hp⟩ := progress_recv hp hr
    rw [ne_eq, not_not] at hs hpc
    subst hs hpc hi
    rcases push_cases hcol hpush with ⟨_, h1, b', h, hcol'⟩ | ⟨_, h1, h⟩ | ⟨h, _⟩
    · cases h
      rw [nextPiece_collected hcol'] at hnext
      simp only [List.length_append, List.length_singleton] at hnext
      have hfull := next_none hnext hlt
      have hv := verdict_of_build (sha1 := sha1) hcol' (by simpa using hfull)
      rw [hbuild] at hv
      simp only [List.flatten_append, List.flatten_cons, List.flatten_nil, List.append_nil] at hv
      exact sessionOk_of_progress hp (ends_complete ht h1 hfull hv)
    · cases h
    · omega
  | case9 =>
    rename_i hs hpc _ hpush hnext _ hbuild hr
    intro used es ps hp ht hcol hlt hi
    obtain ⟨f, hp⟩ := progress_recv hp hr
    rw [ne_eq, not_not] at hs hpc
    subst hs hpc hi
    rcases push_cases hcol hpush with ⟨_, h1, b', h, hcol'⟩ | ⟨_, h1, h⟩ | ⟨h, _⟩
    · cases h
      rw [nextPiece_collected hcol'] at hnext
      simp only [List.length_append, List.length_singleton] at hnext
      have hfull := next_none hnext hlt
      have hv := verdict_of_build (sha1 := sha1) hcol' (by simpa using hfull)
      rw [hbuild] at hv
      simp only [List.flatten_append, List.flatten_cons, List.flatten_nil, List.append_nil] at hv
      exact sessionOk_of_progress hp (ends_complete ht h1 hfull hv)
    · cases h
    · omega
  | case10 =>
    rename_i hs hpc _ hpush _ hnext _ hsend hr ihr
    intro used es ps hp ht hcol hlt hi
    obtain ⟨f, hp⟩ := progress_recv hp hr
    rw [ne_eq, not_not] at hs hpc
    subst hs hpc hi
    rcases push_cases hcol hpush with ⟨_, h1, b', h, hcol'⟩ | ⟨_, h1, h⟩ | ⟨h, _⟩
    · cases h
      rw [nextPiece_collected hcol'] at hnext
      simp only [List.length_append, List.length_singleton] at hnext
      split at hnext
      · rename_i hlt'
        cases hnext
        have ht' := talk_accept ht h1 hlt'
        rcases talk_send (sha1 := sha1) (ih := ih) (l := l) hp ht' (hp.remoteReg ▸ hreg) (.inl ⟨_, rfl⟩) with
          ⟨c', he, hp'⟩ | ⟨r, _, ⟨_, he⟩ | ⟨_, he⟩⟩
        · have he' := he.symm.trans hsend
          cases he'
          exact ihr _ _ (ps ++ [_]) hp' ht'.sent hcol' (by simpa using hlt') (by simp [idx])
        · have he' := he.symm.trans hsend; cases he'
        · have he' := he.symm.trans hsend; cases he'
      · cases hnext
    · cases h
    · omega
  | case11 =>
    rename_i hs hpc _ hpush _ hnext _ _ hsend hr
    intro used es ps hp ht hcol hlt hi
    obtain ⟨f, hp⟩ := progress_recv hp hr
    rw [ne_eq, not_not] at hs hpc
    subst hs hpc hi
    rcases push_cases hcol hpush with ⟨_, h1, b', h, hcol'⟩ | ⟨_, h1, h⟩ | ⟨h, _⟩
    · cases h
      rw [nextPiece_collected hcol'] at hnext
      simp only [List.length_append, List.length_singleton] at hnext
      split at hnext
      · rename_i hlt'
        cases hnext
        have ht' := talk_accept ht h1 hlt'
        rcases talk_send (sha1 := sha1) (ih := ih) (l := l) hp ht' (hp.remoteReg ▸ hreg) (.inl ⟨_, rfl⟩) with
          ⟨c', he, hp'⟩ | ⟨r, hok, ⟨hr', he⟩ | ⟨hr', he⟩⟩
        · have he' := he.symm.trans hsend; cases he'
        · have he' := he.symm.trans hsend
          cases he' ; subst hr'; exact hok
        · have he' := he.symm.trans hsend
          cases he' 
      · cases hnext
    · cases h
    · omega
  | case12 =>
    rename_i hs hpc _ hpush _ hnext _ hsend hr
    intro used es ps hp ht hcol hlt hi
    obtain ⟨f, hp⟩ := progress_recv hp hr
    rw [ne_eq, not_not] at hs hpc
    subst hs hpc hi
    rcases push_cases hcol hpush with ⟨_, h1, b', h, hcol'⟩ | ⟨_, h1, h⟩ | ⟨h, _⟩
    · cases h
      rw [nextPiece_collected hcol'] at hnext
      simp only [List.length_append, List.length_singleton] at hnext
      split at hnext
      · rename_i hlt'
        cases hnext
        have ht' := talk_accept ht h1 hlt'
        rcases talk_send (sha1 := sha1) (ih := ih) (l := l) hp ht' (hp.remoteReg ▸ hreg) (.inl ⟨_, rfl⟩) with
          ⟨c', he, hp'⟩ | ⟨r, hok, ⟨hr', he⟩ | ⟨hr', he⟩⟩
        · have he' := he.symm.trans hsend; cases he'
        · have he' := he.symm.trans hsend
          cases he' 
        · have he' := he.symm.trans hsend
          cases he' ; subst hr'; exact hok
      · cases hnext
    · cases h
    · omega
  | case13 =>
    rename_i hs hpc _ hpush _ hnext _ hsend hr
    intro used es ps hp ht hcol hlt hi
    obtain ⟨f, hp⟩ := progress_recv hp hr
    rw [ne_eq, not_not] at hs hpc
    subst hs hpc hi
    rcases push_cases hcol hpush with ⟨_, h1, b', h, hcol'⟩ | ⟨_, h1, h⟩ | ⟨h, _⟩
    · cases h
      rw [nextPiece_collected hcol'] at hnext
      simp only [List.length_append, List.length_singleton] at hnext
      split at hnext
      · rename_i hlt'
        cases hnext
        have ht' := talk_accept ht h1 hlt'
        rcases talk_send (sha1 := sha1) (ih := ih) (l := l) hp ht' (hp.remoteReg ▸ hreg) (.inl ⟨_, rfl⟩) with
          ⟨c', he, hp'⟩ | ⟨r, hok, ⟨hr', he⟩ | ⟨hr', he⟩⟩
        · have he' := he.symm.trans hsend; cases he'
        · have he' := he.symm.trans hsend
          cases he' 
        · have he' := he.symm.trans hsend
          cases he' 
      · cases hnext
    · cases h
    · omega
  | case14 =>
    rename_i hpc hr
    intro used es ps hp ht hcol hlt hi
    obtain ⟨f, hp⟩ := progress_recv hp hr
    subst hi
    exact sessionOk_of_progress hp (.rejectedOther ht hpc)
  | case15 =>
    rename_i hpc hr
    intro used es ps hp ht hcol hlt hi
    obtain ⟨f, hp⟩ := progress_recv hp hr
    rw [ne_eq, not_not] at hpc
    subst hpc hi
    exact sessionOk_of_progress hp (.rejected ht)
  | case16 =>
    rename_i pc _ _ hsend hr ihr
    intro used es ps hp ht hcol hlt hi
    obtain ⟨f, hp⟩ := progress_recv hp hr
    subst hi
    have ht' := Talk.refuse (p := pc) ht
    rcases talk_send (sha1 := sha1) (ih := ih) (l := l) hp ht' (hp.remoteReg ▸ hreg) (.inr ⟨_, rfl⟩) with
      ⟨c', he, hp'⟩ | ⟨r, _, ⟨_, he⟩ | ⟨_, he⟩⟩
    · have he' := he.symm.trans hsend
      cases he'
      exact ihr _ _ ps hp' ht'.sent hcol hlt rfl
    · have he' := he.symm.trans hsend; cases he'
    · have he' := he.symm.trans hsend; cases he'
  | case17 =>
    rename_i pc _ _ _ hsend hr
    intro used es ps hp ht hcol hlt hi
    obtain ⟨f, hp⟩ := progress_recv hp hr
    subst hi
    have ht' := Talk.refuse (p := pc) ht
    rcases talk_send (sha1 := sha1) (ih := ih) (l := l) hp ht' (hp.remoteReg ▸ hreg) (.inr ⟨_, rfl⟩) with
      ⟨c', he, hp'⟩ | ⟨r, hok, ⟨hr', he⟩ | ⟨hr', he⟩⟩
    · have he' := he.symm.trans hsend; cases he'
    · have he' := he.symm.trans hsend
      cases he' ; subst hr'; exact hok
    · have he' := he.symm.trans hsend
      cases he' 
  | case18 =>
    rename_i pc _ _ hsend hr
    intro used es ps hp ht hcol hlt hi
    obtain ⟨f, hp⟩ := progress_recv hp hr
    subst hi
    have ht' := Talk.refuse (p := pc) ht
    rcases talk_send (sha1 := sha1) (ih := ih) (l := l) hp ht' (hp.remoteReg ▸ hreg) (.inr ⟨_, rfl⟩) with
      ⟨c', he, hp'⟩ | ⟨r, hok, ⟨hr', he⟩ | ⟨hr', he⟩⟩
    · have he' := he.symm.trans hsend; cases he'
    · have he' := he.symm.trans hsend
      cases he' 
    · have he' := he.symm.trans hsend
      cases he' ; subst hr'; exact hok
  | case19 =>
    rename_i pc _ _ hsend hr
    intro used es ps hp ht hcol hlt hi
    obtain ⟨f, hp⟩ := progress_recv hp hr
    subst hi
    have ht' := Talk.refuse (p := pc) ht
    rcases talk_send (sha1 := sha1) (ih := ih) (l := l) hp ht' (hp.remoteReg ▸ hreg) (.inr ⟨_, rfl⟩) with
      ⟨c', he, hp'⟩ | ⟨r, hok, ⟨hr', he⟩ | ⟨hr', he⟩⟩
    · have he' := he.symm.trans hsend; cases he'
    · have he' := he.symm.trans hsend
      cases he' 
    · have he' := he.symm.trans hsend
      cases he' 
  | case20 =>
    rename_i hr ihr
    intro used es ps hp ht hcol hlt hi
    obtain ⟨f, hp⟩ := progress_recv hp hr
    exact ihr _ _ ps hp (ht.ignore (.unknown _)) hcol hlt hi
  | case21 =>
    rename_i hig hr ihr
    intro used es ps hp ht hcol hlt hi
    obtain ⟨f, hp⟩ := progress_recv hp hr
    exact ihr _ _ ps hp (ht.ignore ((ignorable_iff _).1 hig)) hcol hlt hi
  | case22 =>
    rename_i hr0 h1 h2 h3 h4 hig hr
    intro used es ps hp ht hcol hlt hi
    obtain ⟨f, hp⟩ := progress_recv hp hr
    refine sessionOk_of_progress hp (.unexpected ht (fun h => hig ((ignorable_iff _).2 h)) ?_)
    intro hm
    cases hm with
    | request p => exact h3 p hr rfl HEq.rfl
    | reject p => exact h2 p hr rfl HEq.rfl
    | data p t d => exact h1 p t d hr rfl HEq.rfl

/-- **C14.** Every conversation about the metadata is one of those described by `Ends`: requests go out in order, each
after the piece before has been accepted; a piece is accepted only with the requested index, the announced total size
and the right length; every request is answered by a reject of the same piece before anything else happens; exactly
the ignorable messages are ignored; and the result is the one prescribed.  What is received is what the frames of the
peer say, in order, nothing is received beyond the end of the conversation, and what is sent is framed correctly. -/
theorem session_spec (sha1 : Bytes → Bytes) (l : Link) (ih : InfoHash) (n : BitVec 32) (c : Chan)
    (hreg : c.remoteReg.contains .metadata = true) (hn : n.toNat ≤ 20 * 1024 * 1024) :
    ∃ used rest es,
      c.frames = used ++ rest ∧
      List.Forall₂ (fun f m => Message.decode f c.localReg = .ok m) used (receivedOf es) ∧
      (getMetadataInfo sha1 l ih (some n) c).1.trace = c.trace ++ es ∧
      (∃ ps w, (getMetadataInfo sha1 l ih (some n) c).1.out = c.out ++ w ∧ IsFrames ps w ∧
        List.Forall₂ (fun p m => Message.encode m c.remoteReg = .ok p) ps (sentOf es)) ∧
      Ends sha1 IsInfoDict ih n.toNat rest c.stop (fun f e => Message.decode f c.localReg = .error e)
        (l.sends (c.nsent + (sentOf es).length)) es (getMetadataInfo sha1 l ih (some n) c).2 := by
  show SessionOk sha1 l ih n c (getMetadataInfo sha1 l ih (some n) c)
  obtain ⟨b, hb⟩ := (builder_new_spec ih n).1 hn
  have hcol := collected_new ih n b hb
  have hnext := nextPiece_collected hcol
  simp only [List.length_nil] at hnext
  unfold getMetadataInfo
  simp only [hb]
  by_cases h0 : n.toNat = 0
  · have hpc : pieceCount n.toNat = 0 := by rw [h0]; rfl
    rw [hpc, if_neg (by omega)] at hnext
    simp only [hnext]
    have hv := verdict_of_build (sha1 := sha1) hcol (by rw [hpc]; rfl)
    cases hbd : b.build sha1 with
    | ok info =>
      rw [hbd] at hv
      exact sessionOk_of_progress (progress_refl c) (.empty h0 hv)
    | error e =>
      rw [hbd] at hv
      exact sessionOk_of_progress (progress_refl c) (.empty h0 hv)
  · have hpc : 0 < pieceCount n.toNat := by unfold pieceCount; omega
    rw [if_pos hpc] at hnext
    simp only [hnext]
    have ht : Talk n.toNat [] (some (request (idx 0))) [] := .start (by omega)
    rcases talk_send (sha1 := sha1) (ih := ih) (l := l) (progress_refl c) ht hreg (.inl ⟨_, rfl⟩) with
      ⟨c', he, hp'⟩ | ⟨r, hok, ⟨hr', he⟩ | ⟨hr', he⟩⟩
    · have he' : c.send l (metadataMsg (.request (BitVec.ofNat 32 0))) = (c', .ok ()) := he
      simp only [he']
      exact awaitPiece_ok sha1 l ih n c hreg c' b _ _ _ [] hp' ht.sent hcol hpc rfl
    · have he' : c.send l (metadataMsg (.request (BitVec.ofNat 32 0))) = (c, .err .send) := he
      simp only [he']
      subst hr'; exact hok
    · have he' : c.send l (metadataMsg (.request (BitVec.ofNat 32 0))) = (c, .hang) := he
      simp only [he']
      subst hr'; exact hok

/-- **C14.** Without an announced size, or with one above 20 MiB, nothing is sent. -/
theorem session_refused (sha1 : Bytes → Bytes) (l : Link) (ih : InfoHash) (c : Chan) :
    getMetadataInfo sha1 l ih none c = (c, .err .noMetadataSize) ∧
    ∀ n : BitVec 32, 20 * 1024 * 1024 < n.toNat →
      getMetadataInfo sha1 l ih (some n) c = (c, .err (.infoConstruct (.tooLarge n))) := by
  refine ⟨rfl, fun n hn => ?_⟩
  unfold getMetadataInfo
  simp only [(builder_new_spec ih n).2 hn]

/-! ### Consequences -/

theorem requestsSent_append (a b : List Event) : requestsSent (a ++ b) = requestsSent a ++ requestsSent b := by
  fun_induction requestsSent a with
  | case1 => rfl
  | case2 p es ih => simp [requestsSent, ih]
  | case3 e es h ih => rw [List.cons_append, requestsSent, ih]; exact h

theorem dataReceived_append (a b : List Event) : dataReceived (a ++ b) = dataReceived a ++ dataReceived b := by
  fun_induction dataReceived a with
  | case1 => rfl
  | case2 p t d es ih => simp [dataReceived, ih]
  | case3 e es h ih => rw [List.cons_append, dataReceived, ih]; exact h

theorem numbered_snoc (n : Nat) (ps : List Bytes) (p : Bytes) :
    numbered n (ps ++ [p]) = numbered n ps ++ [(idx ps.length, idx n, p)] := by
  simp [numbered, List.mapIdx_append]

/-- What has happened while talking. -/
structure TalkFacts (n : Nat) (ps : List Bytes) (s : Option Message) (es : List Event) : Prop where
  lt : ps.length < pieceCount n
  good : GoodPieces n ps
  data : dataReceived es = numbered n ps
  asking : match s with
    | none => requestsSent es = (List.range (ps.length + 1)).map idx
    | some m =>
      (m = request (idx ps.length) ∧ requestsSent es = (List.range ps.length).map idx) ∨
      (∃ p es', m = reject p ∧ es = es' ++ [.received (request p)] ∧
        requestsSent es = (List.range (ps.length + 1)).map idx)

theorem requestsSent_received (m : Message) : requestsSent [.received m] = [] := rfl

theorem dataReceived_ignorable {m : Message} (h : Ignorable m) : dataReceived [.received m] = [] := by
  cases h <;> rfl

theorem talk_facts {n : Nat} {ps s es} (h : Talk n ps s es) : TalkFacts n ps s es := by
  induction h with
  | start h =>
    exact ⟨by unfold pieceCount; simp; omega, goodPieces_nil n, rfl, .inl ⟨rfl, rfl⟩⟩
  | @sent ps m es _ ih =>
    refine ⟨ih.lt, ih.good, ?_, ?_⟩
    · rw [dataReceived_append, ih.data]; simp [dataReceived]
    · rcases ih.asking with ⟨rfl, h⟩ | ⟨p, es', rfl, rfl, h⟩
      · show requestsSent _ = _
        rw [requestsSent_append, h, List.range_succ, List.map_append]; rfl
      · show requestsSent _ = _
        rw [requestsSent_append, h]; simp [requestsSent, reject]
  | @ignore ps m es _ hm ih =>
    refine ⟨ih.lt, ih.good, ?_, ?_⟩
    · rw [dataReceived_append, ih.data, dataReceived_ignorable hm, List.append_nil]
    · show requestsSent _ = _
      rw [requestsSent_append, requestsSent_received, List.append_nil]; exact ih.asking
  | @refuse ps p es _ ih =>
    refine ⟨ih.lt, ih.good, ?_, .inr ⟨p, es, rfl, rfl, ?_⟩⟩
    · rw [dataReceived_append, ih.data]; simp [dataReceived, request]
    · rw [requestsSent_append, requestsSent_received, List.append_nil]; exact ih.asking
  | @accept ps p es _ hl hlt ih =>
    refine ⟨by simpa using hlt, (goodPieces_snoc n ps p).2 ⟨ih.good, ih.lt, hl⟩, ?_, .inl ⟨by simp, ?_⟩⟩
    · rw [dataReceived_append, ih.data, numbered_snoc]; rfl
    · rw [requestsSent_append, requestsSent_received, List.append_nil, List.length_append]; exact ih.asking

/-- Before every message sent, we were about to send it. -/
theorem talk_before {n : Nat} {ps s es} (h : Talk n ps s es) :
    ∀ a m b, es = a ++ .sent m :: b → ∃ ps', Talk n ps' (some m) a := by
  have key : ∀ {es' : List Event} {e : Event} {a m b}, es' ++ [e] = a ++ Event.sent m :: b →
      (a = es' ∧ e = .sent m) ∨ ∃ b', es' = a ++ .sent m :: b' := by
    intro es' e a m b h
    rcases List.eq_nil_or_concat b with rfl | ⟨b', x, rfl⟩
    · have := List.append_inj' h rfl
      left; exact ⟨this.1.symm, by simpa using this.2⟩
    · right
      refine ⟨b', ?_⟩
      rw [List.concat_eq_append, ← List.cons_append, ← List.append_assoc] at h
      exact (List.append_inj' h rfl).1
  induction h with
  | start h => intro a m b h; simp at h
  | @sent ps m es ht ih =>
    intro a m' b h
    rcases key h with ⟨rfl, he⟩ | ⟨b', hb⟩
    · cases he; exact ⟨_, ht⟩
    · exact ih _ _ _ hb
  | @ignore ps m es _ hm ih =>
    intro a m' b h
    rcases key h with ⟨rfl, he⟩ | ⟨b', hb⟩
    · cases he
    · exact ih _ _ _ hb
  | @refuse ps p es _ ih =>
    intro a m' b h
    rcases key h with ⟨rfl, he⟩ | ⟨b', hb⟩
    · cases he
    · exact ih _ _ _ hb
  | @accept ps p es _ hl hlt ih =>
    intro a m' b h
    rcases key h with ⟨rfl, he⟩ | ⟨b', hb⟩
    · cases he
    · exact ih _ _ _ hb

/-- After every request received, a reject is sent. -/
theorem talk_after {n : Nat} {ps s es} (h : Talk n ps s es) :
    ∀ a p b, es = a ++ .received (request p) :: b → (b = [] ∧ s = some (reject p)) ∨ ∃ b', b = .sent (reject p) :: b' := by
  have key : ∀ {es' : List Event} {e : Event} {a p b}, es' ++ [e] = a ++ Event.received (request p) :: b →
      (a = es' ∧ b = [] ∧ e = .received (request p)) ∨ ∃ b', b = b' ++ [e] ∧ es' = a ++ .received (request p) :: b' := by
    intro es' e a m b h
    rcases List.eq_nil_or_concat b with rfl | ⟨b', x, rfl⟩
    · have := List.append_inj' h rfl
      left; exact ⟨this.1.symm, rfl, by simpa using this.2⟩
    · right
      rw [List.concat_eq_append, ← List.cons_append, ← List.append_assoc] at h
      have := List.append_inj' h rfl
      refine ⟨b', ?_, this.1⟩
      rw [this.2]; simp
  induction h with
  | start h => intro a m b h; simp at h
  | @sent ps m es ht ih =>
    intro a p b h
    rcases key h with ⟨rfl, he, he'⟩ | ⟨b', rfl, hb⟩
    · cases he'
    · right
      rcases ih _ _ _ hb with ⟨rfl, h2⟩ | ⟨b'', rfl⟩
      · cases h2; exact ⟨[], rfl⟩
      · exact ⟨b'' ++ [.sent m], by simp⟩
  | @ignore ps m es _ hm ih =>
    intro a p b h
    rcases key h with ⟨rfl, he, he'⟩ | ⟨b', rfl, hb⟩
    · cases he'; cases hm
    · rcases ih _ _ _ hb with ⟨rfl, h2⟩ | ⟨b'', rfl⟩
      · cases h2
      · right; exact ⟨_, rfl⟩
  | @refuse ps p es _ ih =>
    intro a p' b h
    rcases key h with ⟨rfl, he, he'⟩ | ⟨b', rfl, hb⟩
    · cases he'; left; exact ⟨he, rfl⟩
    · rcases ih _ _ _ hb with ⟨rfl, h2⟩ | ⟨b'', rfl⟩
      · cases h2
      · right; exact ⟨_, rfl⟩
  | @accept ps p es _ hl hlt ih =>
    intro a p' b h
    rcases key h with ⟨rfl, he, he'⟩ | ⟨b', rfl, hb⟩
    · cases he'
    · rcases ih _ _ _ hb with ⟨rfl, h2⟩ | ⟨b'', rfl⟩
      · cases h2
      · right; exact ⟨_, rfl⟩

section
variable {sha1 : Bytes → Bytes} {good : Bytes → Prop} {ih : InfoHash} {n : Nat} {rest : List Bytes} {stop : Stop}
  {garbage : Bytes → MessageError → Prop} {next : IoOutcome} {es : List Event} {r : Res PeerError TorrentInfo}

/-- A conversation ends while talking or with the message that follows. -/
theorem ends_talk (h : Ends sha1 good ih n rest stop garbage next es r) :
    (es = [] ∧ n = 0) ∨ (∃ ps s, Talk n ps s es ∧ (∀ info, r ≠ .ok info) ∧ (s ≠ none → r = .err .send ∨ r = .hang)) ∨
    ∃ ps es' m, es = es' ++ [.received m] ∧ Talk n ps none es' ∧ (∀ p, m ≠ request p) ∧ ¬ Ignorable m := by
  cases h with
  | empty h0 _ => exact .inl ⟨rfl, h0⟩
  | complete ht _ _ _ => exact .inr (.inr ⟨_, _, _, rfl, ht, (by intro p h; cases h), (by intro h; cases h)⟩)
  | silent ht _ _ => exact .inr (.inl ⟨_, _, ht, (by intro i h; cases h), fun h => absurd rfl h⟩)
  | closed ht _ _ => exact .inr (.inl ⟨_, _, ht, (by intro i h; cases h), fun h => absurd rfl h⟩)
  | broken ht _ _ _ => exact .inr (.inl ⟨_, _, ht, (by intro i h; cases h), fun h => absurd rfl h⟩)
  | garbled ht _ _ => exact .inr (.inl ⟨_, _, ht, (by intro i h; cases h), fun h => absurd rfl h⟩)
  | size ht _ => exact .inr (.inr ⟨_, _, _, rfl, ht, (by intro p h; cases h), (by intro h; cases h)⟩)
  | piece ht _ => exact .inr (.inr ⟨_, _, _, rfl, ht, (by intro p h; cases h), (by intro h; cases h)⟩)
  | length ht _ => exact .inr (.inr ⟨_, _, _, rfl, ht, (by intro p h; cases h), (by intro h; cases h)⟩)
  | rejected ht => exact .inr (.inr ⟨_, _, _, rfl, ht, (by intro p h; cases h), (by intro h; cases h)⟩)
  | rejectedOther ht _ => exact .inr (.inr ⟨_, _, _, rfl, ht, (by intro p h; cases h), (by intro h; cases h)⟩)
  | unexpected ht h1 h2 => exact .inr (.inr ⟨_, _, _, rfl, ht, fun p h => h2 (h ▸ .request p), h1⟩)
  | unsent ht _ => exact .inr (.inl ⟨_, _, ht, (by intro i h; cases h), fun _ => .inl rfl⟩)
  | stuck ht _ => exact .inr (.inl ⟨_, _, ht, (by intro i h; cases h), fun _ => .inr rfl⟩)

/-- **C14.** Every message sent is either the request for piece `i`, after exactly the pieces `0..i-1` were requested
and received with their numbers, the announced total size and the right lengths; or the reject of the piece the peer
has just requested. -/
theorem requests_in_order (h : Ends sha1 good ih n rest stop garbage next es r) (a : List Event) (m : Message)
    (b : List Event) (he : es = a ++ .sent m :: b) :
    (∃ ps, m = request (idx ps.length) ∧ ps.length < pieceCount n ∧ requestsSent a = (List.range ps.length).map idx ∧
      dataReceived a = numbered n ps ∧ GoodPieces n ps) ∨
    (∃ p a', m = reject p ∧ a = a' ++ [.received (request p)]) := by
  have main : ∃ ps, Talk n ps (some m) a := by
    rcases ends_talk h with ⟨rfl, _⟩ | ⟨ps, s, ht, _⟩ | ⟨ps, es', m', rfl, ht, _⟩
    · simp at he
    · exact talk_before ht a m b he
    · rcases List.eq_nil_or_concat b with rfl | ⟨b', x, rfl⟩
      · have := List.append_inj' he rfl
        cases (List.cons.inj this.2).1
      · rw [List.concat_eq_append, ← List.cons_append, ← List.append_assoc] at he
        exact talk_before ht a m b' (List.append_inj' he rfl).1
  obtain ⟨ps, ht⟩ := main
  have hf := talk_facts ht
  rcases hf.asking with ⟨h1, h2⟩ | ⟨p, es', h1, h2, _⟩
  · exact .inl ⟨ps, h1, hf.lt, h2, hf.data, hf.good⟩
  · exact .inr ⟨p, es', h1, h2⟩

/-- **C14.** Every request of the peer is answered at once by a reject of the same piece, unless sending it fails or
never ends. -/
theorem requests_answered (h : Ends sha1 good ih n rest stop garbage next es r) (a : List Event) (p : BitVec 32)
    (b : List Event) (he : es = a ++ .received (request p) :: b) :
    (∃ b', b = .sent (reject p) :: b') ∨ (b = [] ∧ (r = .err .send ∨ r = .hang)) := by
  rcases ends_talk h with ⟨rfl, _⟩ | ⟨ps, s, ht, _, hs⟩ | ⟨ps, es', m', rfl, ht, hm, _⟩
  · simp at he
  · rcases talk_after ht a p b he with ⟨h1, h2⟩ | h1
    · exact .inr ⟨h1, hs (by rw [h2]; simp)⟩
    · exact .inl h1
  · rcases List.eq_nil_or_concat b with rfl | ⟨b', x, rfl⟩
    · have := List.append_inj' he rfl
      exact absurd (Event.received.inj (List.cons.inj this.2).1) (hm p)
    · rw [List.concat_eq_append, ← List.cons_append, ← List.append_assoc] at he
      have := List.append_inj' he rfl
      rcases talk_after ht a p b' this.1 with ⟨_, h2⟩ | ⟨b'', rfl⟩
      · cases h2
      · exact .inl ⟨b'' ++ [x], by simp⟩

/-- **C14.** A session ends successfully only with metadata of the requested digest that is one dictionary, put
together from exactly the pieces received, in order. -/
theorem session_success (info : TorrentInfo) (h : Ends sha1 good ih n rest stop garbage next es (.ok info)) :
    info.infoHash = ih ∧ sha1 info.data = ih.bytes ∧ good info.data ∧
    ∃ ps, dataReceived es = numbered n ps ∧ ps.flatten = info.data ∧ GoodPieces n ps ∧ ps.length = pieceCount n ∧
      requestsSent es = (List.range ps.length).map idx := by
  cases h with
  | empty h0 hv =>
    cases hv with
    | ok h1 h2 => exact ⟨rfl, h1, h2, [], rfl, rfl, goodPieces_nil n, by rw [h0]; rfl, rfl⟩
  | @complete ps p es _ ht hl hc hv =>
    cases hv with
    | ok h1 h2 =>
      have hf := talk_facts ht
      refine ⟨rfl, h1, h2, ps ++ [p], ?_, by simp, (goodPieces_snoc n ps p).2 ⟨hf.good, hf.lt, hl⟩, by simpa using hc, ?_⟩
      · rw [dataReceived_append, hf.data, numbered_snoc]; rfl
      · rw [requestsSent_append, requestsSent_received, List.append_nil, List.length_append]; exact hf.asking

/-- **C14.** A session never panics, whatever the peer sends. -/
theorem session_no_panic : ¬ Ends sha1 good ih n rest stop garbage next es .panic := by
  intro h
  cases h with
  | empty _ hv => cases hv
  | complete _ _ _ hv => cases hv
end

theorem idx_inj {i j : Nat} (hi : i < 2 ^ 32) (hj : j < 2 ^ 32) (h : idx i = idx j) : i = j := by
  have := congrArg BitVec.toNat h
  simp only [idx, BitVec.toNat_ofNat] at this
  omega

/-- Talking with a peer that serves the pieces. -/
theorem talk_serves {n : Nat} {ps : List Bytes} {ms : List Message} (hs : Serves n 0 ps ms) {qs s es}
    (ht : Talk n qs s es) : ∀ t, ms = receivedOf es ++ t → ∃ ps', ps = qs ++ ps' ∧ Serves n qs.length ps' t := by
  induction ht with
  | start h => intro t h; exact ⟨ps, rfl, by simpa [receivedOf, h] using hs⟩
  | @sent qs m es _ ih =>
    intro t h
    rw [receivedOf_append] at h
    exact ih t (by simpa [receivedOf] using h)
  | @ignore qs m es ht hm ih =>
    intro t h
    rw [receivedOf_append] at h
    obtain ⟨ps', h1, h2⟩ := ih (m :: t) (by simpa [receivedOf] using h)
    have hlt := (talk_facts ht).lt
    refine ⟨ps', h1, ?_⟩
    generalize hz : m :: t = z at h2
    generalize hy : qs.length = y at h2 hlt
    cases h2 with
    | done => omega
    | piece _ _ _ => cases hz; cases hm
    | ignorable _ _ h => cases hz; exact h
    | request _ h => cases hz; cases hm
  | @refuse qs p es ht ih =>
    intro t h
    rw [receivedOf_append] at h
    obtain ⟨ps', h1, h2⟩ := ih (request p :: t) (by simpa [receivedOf] using h)
    have hlt := (talk_facts ht).lt
    refine ⟨ps', h1, ?_⟩
    generalize hz : request p :: t = z at h2
    generalize hy : qs.length = y at h2 hlt
    cases h2 with
    | done => omega
    | piece _ _ _ => cases hz
    | ignorable _ hm h => cases hz; cases hm
    | request _ h => cases hz; exact h
  | @accept qs p es ht hl hlt ih =>
    intro t h
    rw [receivedOf_append] at h
    obtain ⟨ps', h1, h2⟩ := ih (data (idx qs.length) (idx n) p :: t) (by simpa [receivedOf] using h)
    generalize hz : data (idx qs.length) (idx n) p :: t = z at h2
    generalize hy : qs.length = y at h2 hlt
    cases h2 with
    | done => omega
    | @piece _ p' ps'' _ _ _ hr =>
      subst hy
      cases hz
      exact ⟨ps'', by rw [h1]; simp, by rw [List.length_append]; exact hr⟩
    | ignorable _ hm h => cases hz; cases hm
    | request _ h => cases hz

theorem forall₂_functional {α β : Type} {R : α → β → Prop} (hf : ∀ a b b', R a b → R a b' → b = b') {xs : List α} {ys zs : List β}
    (h : List.Forall₂ R xs ys) {xs' : List α} (h' : List.Forall₂ R (xs ++ xs') zs) :
    ∃ t, zs = ys ++ t ∧ List.Forall₂ R xs' t := by
  induction h generalizing zs with
  | nil => exact ⟨zs, rfl, h'⟩
  | cons hab _ ih =>
    cases h' with
    | cons hab' h'' =>
      obtain ⟨t, rfl, ht⟩ := ih h''
      exact ⟨t, by rw [hf _ _ _ hab hab']; rfl, ht⟩

/-- **C14.** If the peer serves the metadata, in the right order and among any other messages that are allowed, and
everything can be sent, then the metadata is obtained. -/
theorem session_complete (sha1 : Bytes → Bytes) (l : Link) (ih : InfoHash) (n : BitVec 32) (c : Chan)
    (hreg : c.remoteReg.contains .metadata = true) (hn : n.toNat ≤ 20 * 1024 * 1024) (hl : ∀ k, l.sends k = .ok)
    (ms : List Message) (hms : List.Forall₂ (fun f m => Message.decode f c.localReg = .ok m) c.frames ms)
    (ps : List Bytes) (hs : Serves n.toNat 0 ps ms) (hd : sha1 ps.flatten = ih.bytes) (hi : IsInfoDict ps.flatten) :
    (getMetadataInfo sha1 l ih (some n) c).2 = .ok ⟨ih, ps.flatten⟩ := by
  obtain ⟨used, rest, es, hf, hread, -, -, he⟩ := session_spec sha1 l ih n c hreg hn
  rw [hl] at he
  rw [hf] at hms
  obtain ⟨t, ht, hrest⟩ := forall₂_functional (by intro a b b' h h'; rw [h] at h'; cases h'; rfl) hread hms
  generalize (getMetadataInfo sha1 l ih (some n) c).2 = r at he
  have hidx := idx_toNat n
  -- the next message is one that is served
  have waits : ∀ {qs es}, Talk n.toNat qs none es → ∀ t, ms = receivedOf es ++ t →
      ∃ ps', ps = qs ++ ps' ∧ qs.length < pieceCount n.toNat ∧ Serves n.toNat qs.length ps' t :=
    fun htk t h => by
      obtain ⟨ps', h1, h2⟩ := talk_serves hs htk t h
      exact ⟨ps', h1, (talk_facts htk).lt, h2⟩
  have arrives : ∀ {qs es m}, Talk n.toNat qs none es → ms = receivedOf (es ++ [.received m]) ++ t →
      (∃ p ps', m = data (idx qs.length) (idx n.toNat) p ∧ p.length = pieceSize n.toNat qs.length ∧
        ps = qs ++ p :: ps' ∧ Serves n.toNat (qs.length + 1) ps' t) ∨ Ignorable m ∨ ∃ p, m = request p := by
    intro qs es m htk h
    rw [receivedOf_append, List.append_assoc] at h
    obtain ⟨ps', h1, h2, h3⟩ := waits htk _ h
    simp only [receivedOf, List.singleton_append] at h3
    generalize hz : m :: t = z at h3
    generalize hy : qs.length = y at h2 h3
    cases h3 with
    | done => omega
    | @piece _ p ps'' _ _ hlen hr => cases hz; exact .inl ⟨p, ps'', rfl, hlen, h1, hr⟩
    | ignorable _ hm h => cases hz; exact .inr (.inl hm)
    | request _ h => cases hz; exact .inr (.inr ⟨_, rfl⟩)
  have none_left : ∀ {qs es}, Talk n.toNat qs none es → ms = receivedOf es ++ [] → False := by
    intro qs es htk h
    obtain ⟨ps', h1, h2, h3⟩ := waits htk _ h
    generalize hz : ([] : List Message) = z at h3
    generalize hy : qs.length = y at h2 h3
    cases h3 with
    | done => omega
    | _ => cases hz
  have served_end : ∀ {i ps' t}, Serves n.toNat i ps' t → i = pieceCount n.toNat → ps' = [] := by
    intro i ps' t h hi
    cases h with
    | done => rfl
    | piece h _ _ => omega
    | ignorable h _ _ => omega
    | request h _ => omega
  cases he with
  | empty h0 hv =>
    have hps : ps = [] := served_end hs (by rw [h0]; rfl)
    subst hps
    cases hv with
    | ok _ _ => rfl
    | digest h => exact absurd hd h
    | bad _ h => exact absurd hi h
  | complete htk hlen hc hv =>
    rcases arrives htk ht with ⟨p', ps', he, _, hps, hsv⟩ | h | ⟨p, h⟩
    · cases he
      rw [hc] at hsv
      have hp' := served_end hsv rfl
      subst hp' hps
      simp only [List.flatten_append, List.flatten_cons, List.flatten_nil, List.append_nil] at hd hi ⊢
      cases hv with
      | ok _ _ => rfl
      | digest h => exact absurd hd h
      | bad _ h => exact absurd hi h
    · cases h
    · cases h
  | silent htk h1 _ => subst h1; cases hrest; exact (none_left htk ht).elim
  | closed htk h1 _ => subst h1; cases hrest; exact (none_left htk ht).elim
  | broken htk h1 _ _ => subst h1; cases hrest; exact (none_left htk ht).elim
  | garbled htk h1 hg =>
    subst h1
    cases hrest with
    | cons h _ => rw [hg] at h; cases h
  | size htk hne =>
    rcases arrives htk ht with ⟨p', ps', he, _, hps, hsv⟩ | h | ⟨p, h⟩
    · cases he; exact absurd rfl hne
    · cases h
    · cases h
  | piece htk hne =>
    rcases arrives htk ht with ⟨p', ps', he, _, hps, hsv⟩ | h | ⟨p, h⟩
    · cases he; exact absurd rfl hne
    · cases h
    · cases h
  | length htk hne =>
    rcases arrives htk ht with ⟨p', ps', he, hlen, hps, hsv⟩ | h | ⟨p, h⟩
    · cases he; exact absurd hlen hne
    · cases h
    · cases h
  | rejected htk =>
    rcases arrives htk ht with ⟨p', ps', he, _, hps, hsv⟩ | h | ⟨p, h⟩
    · cases he
    · cases h
    · cases h
  | rejectedOther htk _ =>
    rcases arrives htk ht with ⟨p', ps', he, _, hps, hsv⟩ | h | ⟨p, h⟩
    · cases he
    · cases h
    · cases h
  | unexpected htk h1 h2 =>
    rcases arrives htk ht with ⟨p', ps', he, _, hps, hsv⟩ | h | ⟨p, h⟩
    · exact absurd (he ▸ IsMetadata.data _ _ _) h2
    · exact absurd h h1
    · exact absurd (h ▸ IsMetadata.request _) h2
  | unsent _ h => cases h
  | stuck _ h => cases h

end Demag.Props
