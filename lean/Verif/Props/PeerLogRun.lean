import Verif.Props.PeerLog
import Verif.Props.PeerLogMse

/-! # C98: the log of fetching metadata from a peer, as a whole -/

namespace Demag.Props

open Demag Demag.Spec

/-- What a visit comes to. -/
def visitEnd (sha1 : Bytes → Bytes) (l : Link) (ctx : PeerCtx) (encrypt : Bool) : Res PeerError TorrentInfo :=
  (finishRun sha1 ctx [] l encrypt (connect l ctx encrypt)).2

theorem finish_visit (sha1 : Bytes → Bytes) (l : Link) (ctx : PeerCtx) (encrypt : Bool) (before : List Attempt) :
    finishRun sha1 ctx before l encrypt (connect l ctx encrypt) =
      (before ++ [⟨encrypt, (visitChan sha1 l ctx encrypt).trace⟩], visitEnd sha1 l ctx encrypt) := by
  unfold visitEnd visitChan
  rcases connect l ctx encrypt with ⟨c, r⟩
  cases r <;> rfl

theorem visit_eq (sha1 : Bytes → Bytes) (l : Link) (ctx : PeerCtx) (encrypt : Bool) (hc : l.connect = .ok) (he : encrypt = true → l.crypto = .ok) :
    visitChan sha1 l ctx encrypt = (visitPart sha1 l ctx).1 ∧
    (∀ m p, gotLines m p (visitEnd sha1 l ctx encrypt) = gotLines m p (visitPart sha1 l ctx).2) := by
  unfold visitEnd visitChan visitPart
  rw [connect_eq l ctx encrypt hc he]
  rcases shakePart l ctx with ⟨c, r⟩
  cases r with
  | ok a => exact ⟨rfl, fun m p => rfl⟩
  | _ => exact ⟨rfl, fun m p => rfl⟩

/-- The connection cannot be used. -/
def Unusable (l : Link) (encrypt : Bool) : Prop := l.connect ≠ .ok ∨ encrypt = true ∧ l.crypto ≠ .ok

theorem unusable_silent (sha1 : Bytes → Bytes) (l : Link) (ctx : PeerCtx) (encrypt : Bool) (h : Unusable l encrypt) :
    (visitChan sha1 l ctx encrypt).trace = [] ∧ (∀ m p, gotLines m p (visitEnd sha1 l ctx encrypt) = []) ∧ ∀ a, (connect l ctx encrypt).2 ≠ .ok a := by
  have key : (connect l ctx encrypt).1.trace = [] ∧ ∀ a, (connect l ctx encrypt).2 ≠ .ok a := by
    unfold connect
    cases hc : l.connect with
    | fail => exact ⟨rfl, by simp⟩
    | hang => exact ⟨rfl, by simp⟩
    | ok =>
      rcases h with h | ⟨he, h⟩
      · exact absurd hc h
      · simp only [he, if_true]
        cases hk : l.crypto with
        | ok => exact absurd hk h
        | _ => exact ⟨rfl, by simp⟩
  unfold visitEnd visitChan
  rcases hcn : connect l ctx encrypt with ⟨c, r⟩
  rw [hcn] at key
  cases r with
  | ok a => exact absurd rfl (key.2 a)
  | _ => exact ⟨key.1, fun m p => rfl, by simp⟩

theorem opening_log (H : Bytes → Bytes) (p : Peer) (c : Chances) (w : RawLink) (ctx : PeerCtx) (encrypt : Bool) :
    ∃ o, Opening H p c w ctx.infoHash encrypt o ∧
      (Unusable (w.link H c ctx.infoHash encrypt) encrypt → connectLog H p c w ctx encrypt = o) ∧
      (¬ Unusable (w.link H c ctx.infoHash encrypt) encrypt →
        connectLog H p c w ctx encrypt = o ++ shakeLog p (w.link H c ctx.infoHash encrypt) ctx) := by
  unfold connectLog Opening Unusable
  simp only [link_connect]
  cases hc : w.connect with
  | fail => exact ⟨_, by simp, fun _ => rfl, fun h => absurd (.inl (by simp)) h⟩
  | hang => exact ⟨_, by simp, fun _ => rfl, fun h => absurd (.inl (by simp)) h⟩
  | ok =>
    simp only [if_true]
    cases encrypt with
    | false => exact ⟨[.peerStep 0 p, .peerStep 1 p], ⟨[], rfl, fun _ => rfl, by simp⟩, fun h => absurd h (by simp), fun _ => by simp⟩
    | true =>
      simp only [if_true]
      refine ⟨.peerStep 0 p :: .peerStep 1 p :: .peerStep 2 p :: w.secureLog H p c ctx.infoHash, ⟨_, rfl, by simp, fun _ => ⟨_, rfl, ?_⟩⟩, ?_, ?_⟩
      · split
        · rename_i h; simp [RawLink.secureLog, h]
        · rename_i h; exact secure_log H p c w ctx.infoHash (by simpa using h)
      · intro h
        cases hk : (w.link H c ctx.infoHash true).crypto with
        | ok => exact absurd hk (by simpa using h)
        | _ => simp
      · intro h
        have : (w.link H c ctx.infoHash true).crypto = .ok := by simpa using h
        simp [this]

/-- **C98.** The log of one attempt: how the connection was made; the conversation, with what would have been sent where a send does not
work; and that the metadata has been received, if it has. -/
theorem visit_log (sha1 H : Bytes → Bytes) (m : Magnet) (p : Peer) (c : Chances) (w : RawLink) (ctx : PeerCtx) (encrypt : Bool) :
    ∃ o, Opening H p c w ctx.infoHash encrypt o ∧
      visitLog sha1 H m p c w ctx encrypt = o ++
        narrate p ((visitChan sha1 (w.link H c ctx.infoHash encrypt) ctx encrypt).trace ++ wouldDo sha1 (w.link H c ctx.infoHash encrypt) ctx encrypt) ++
        gotLines m p (visitEnd sha1 (w.link H c ctx.infoHash encrypt) ctx encrypt) := by
  obtain ⟨o, ho, h1, h2⟩ := opening_log H p c w ctx encrypt
  refine ⟨o, ho, ?_⟩
  unfold visitLog
  generalize w.link H c ctx.infoHash encrypt = l at h1 h2 ⊢
  by_cases hu : Unusable l encrypt
  · obtain ⟨e1, e2, e3⟩ := unusable_silent sha1 l ctx encrypt hu
    have hu' : ∀ k, Unusable (granted l k) encrypt := fun k => hu
    have e4 := fun k => (unusable_silent sha1 (granted l k) ctx encrypt (hu' k)).1
    rw [wouldDo, e1, e2, e4]
    simp only [h1 hu]
    rcases hcn : connect l ctx encrypt with ⟨c', r⟩
    rw [hcn] at e3
    cases r with
    | ok a => exact absurd rfl (e3 a)
    | _ => simp [nextEvent, narrate]
  · have hc : l.connect = .ok := by
      cases h : l.connect with
      | ok => rfl
      | _ => exact absurd (.inl (by simp [h])) hu
    have he : encrypt = true → l.crypto = .ok := fun h' => by
      cases h : l.crypto with
      | ok => rfl
      | _ => exact absurd (.inr ⟨h', by simp [h]⟩) hu
    have hv := visit_eq sha1 l ctx encrypt hc he
    have hv' := fun k => (visit_eq sha1 (granted l k) ctx encrypt hc he).1
    obtain ⟨es, mo, g1, g2, g3, -, -⟩ := visit_told sha1 m p l ctx
    simp only [List.nil_append] at g1 g2
    rw [wouldDo, hv', hv.1, hv.2, g2, g1, h2 hu]
    simp only [connect_eq l ctx encrypt hc he]
    have : nextEvent es (es ++ mo) = mo.take 1 := by simp [nextEvent]
    rw [this]
    simp only [List.append_assoc]
    rw [← g3]
    rfl

/-- **C98.** What is announced but not said: nothing, unless a send fails or hangs; and then it is what would have been sent. -/
theorem visit_last (sha1 : Bytes → Bytes) (l : Link) (ctx : PeerCtx) (encrypt : Bool) :
    (wouldDo sha1 l ctx encrypt).length ≤ 1 ∧
    (∀ e ∈ wouldDo sha1 l ctx encrypt, IsSend e ∧ l.connect = .ok ∧ (encrypt = true → l.crypto = .ok) ∧
      l.sends (visitChan sha1 l ctx encrypt).nsent ≠ .ok) ∧
    (visitEnd sha1 l ctx encrypt = .err .send → wouldDo sha1 l ctx encrypt ≠ []) := by
  refine ⟨by simp [wouldDo, nextEvent]; omega, ?_⟩
  by_cases hu : Unusable l encrypt
  · obtain ⟨e1, e2, e3⟩ := unusable_silent sha1 l ctx encrypt hu
    have hu' : ∀ k, Unusable (granted l k) encrypt := fun k => hu
    have e4 := fun k => (unusable_silent sha1 (granted l k) ctx encrypt (hu' k)).1
    have hw : wouldDo sha1 l ctx encrypt = [] := by rw [wouldDo, e1, e4]; rfl
    rw [hw]
    refine ⟨by simp, fun h => ?_⟩
    exfalso
    revert h
    unfold visitEnd connect
    cases hc : l.connect with
    | fail => simp [finishRun]
    | hang => simp [finishRun]
    | ok =>
      rcases hu with h | ⟨he, h⟩
      · exact absurd hc h
      · simp only [he, if_true]
        cases hk : l.crypto with
        | ok => exact absurd hk h
        | _ => simp [finishRun]
  · have hc : l.connect = .ok := by
      cases h : l.connect with
      | ok => rfl
      | _ => exact absurd (.inl (by simp [h])) hu
    have he : encrypt = true → l.crypto = .ok := fun h' => by
      cases h : l.crypto with
      | ok => rfl
      | _ => exact absurd (.inr ⟨h', by simp [h]⟩) hu
    have hv := visit_eq sha1 l ctx encrypt hc he
    have hv' := fun k => (visit_eq sha1 (granted l k) ctx encrypt hc he).1
    obtain ⟨es, mo, g1, g2, g3, g4, g5⟩ := visit_told sha1 ⟨ctx.infoHash, none, []⟩ ⟨.v4 ⟨⟨0⟩, 0⟩, none, false⟩ l ctx
    simp only [List.nil_append] at g1 g2
    have hw : wouldDo sha1 l ctx encrypt = mo.take 1 := by
      rw [wouldDo, hv', hv.1, g2, g1]; simp [nextEvent]
    rw [hw, hv.1]
    constructor
    · intro e hmem
      have hh : mo.head? = some e := by
        cases mo with
        | nil => cases hmem
        | cons x xs => simp at hmem; simp [hmem]
      obtain ⟨k1, k2⟩ := g5 e hh
      refine ⟨k1, hc, he, ?_⟩
      rcases k2 with k2 | k2 <;> rw [k2.1] <;> decide
    · intro hs hmo
      have hmo : mo = [] := by
        cases mo with
        | nil => rfl
        | cons x xs => simp at hmo
      refine (g4 hmo).2 ?_
      rw [← hs]
      revert hs
      unfold visitEnd visitPart
      rw [connect_eq l ctx encrypt hc he]
      rcases shakePart l ctx with ⟨c, r⟩
      cases r <;> simp [finishRun]

theorem crypto_refused {l : Link} {ctx : PeerCtx} {c : Chan} (h : connect l ctx true = (c, .err .cryptoHandshake)) :
    l.connect = .ok ∧ l.crypto = .fail ∧ c.trace = [] := by
  have h0 : l.crypto ≠ .ok := fun h' => connect_not_crypto (ctx := ctx) (enc := true) h' (by rw [h])
  unfold connect at h
  cases hc : l.connect with
  | fail => rw [hc] at h; cases h
  | hang => rw [hc] at h; cases h
  | ok =>
    rw [hc] at h
    cases hk : l.crypto with
    | ok => exact absurd hk h0
    | fail => rw [hk] at h; cases h; exact ⟨rfl, rfl, rfl⟩
    | hang => rw [hk] at h; cases h
    | overflow => rw [hk] at h; cases h

/-- **C98.** The log of fetching metadata from a peer tells what happened. -/
theorem peerRun_log (sha1 H : Bytes → Bytes) (m : Magnet) (p : Peer) (chances : Nat → Chances) (raws : Nat → RawLink) (ctx : PeerCtx)
    (override : Option CryptoMode) (pref : CryptoPreference) (requiresCrypto : Bool) :
    RunTold sha1 H m p chances raws ctx (wireRun sha1 H chances raws ctx override pref requiresCrypto)
      (peerRunLog sha1 H m p chances raws ctx override pref requiresCrypto) := by
  unfold wireRun infoGetterRun peerRunLog
  cases hm : getCryptoMode override pref requiresCrypto with
  | none => exact ⟨rfl, rfl⟩
  | some mode =>
    cases mode with
    | encrypt =>
      simp only [finish_visit]
      obtain ⟨o, h1, h2⟩ := visit_log sha1 H m p (chances 0) (raws 0) ctx true
      exact ⟨o, h1, by rw [h2]; rfl⟩
    | plain =>
      simp only [finish_visit]
      obtain ⟨o, h1, h2⟩ := visit_log sha1 H m p (chances 0) (raws 0) ctx false
      exact ⟨o, h1, by rw [h2]; rfl⟩
    | prefer =>
      simp only
      have hl0 : (raws 0).link H (chances 0) ctx.infoHash ((0 : Nat) == 0 && some CryptoMode.prefer != some CryptoMode.plain) =
        (raws 0).link H (chances 0) ctx.infoHash true := rfl
      have hl1 : (raws 1).link H (chances 1) ctx.infoHash ((1 : Nat) == 0 && some CryptoMode.prefer != some CryptoMode.plain) =
        (raws 1).link H (chances 1) ctx.infoHash false := rfl
      rw [hl0, hl1]
      generalize hcn : connect ((raws 0).link H (chances 0) ctx.infoHash true) ctx true = r
      by_cases hr : r.2 = .err .cryptoHandshake
      · obtain ⟨c, r⟩ := r
        simp only at hr
        subst hr
        simp only [finish_visit]
        obtain ⟨hc, hk, ht⟩ := crypto_refused hcn
        obtain ⟨o1, k1, k2, -⟩ := opening_log H p (chances 0) (raws 0) ctx true
        obtain ⟨o2, k3, k4⟩ := visit_log sha1 H m p (chances 1) (raws 1) ctx false
        have ho : (raws 0).overflows (chances 0) = false := by
          cases ho : (raws 0).overflows (chances 0) with
          | false => rfl
          | true => simp [RawLink.link, ho] at hk
        have he : ∃ e, ((raws 0).secure H (chances 0) ctx.infoHash).2.1 = .err e := by
          rcases (crypto_outcome H (chances 0) (raws 0) ctx.infoHash ho).2.1.1 hk with ⟨e, -, h⟩ | ⟨h, -⟩ <;> exact ⟨_, h⟩
        obtain ⟨e, he⟩ := he
        have hse : (raws 0).secureError H (chances 0) ctx.infoHash = some e := by
          unfold RawLink.secureError
          generalize (raws 0).secure H (chances 0) ctx.infoHash = q at he
          obtain ⟨a, b, d⟩ := q
          simp only at he
          subst he
          rfl
        refine ⟨o1, e, o2, rfl, ht, rfl, he, k1, k3, ?_⟩
        rw [k2 (.inr ⟨rfl, by rw [hk]; decide⟩), hse, k4]
        simp
      · obtain ⟨o, h1, h2⟩ := visit_log sha1 H m p (chances 0) (raws 0) ctx true
        have hf := finish_visit sha1 ((raws 0).link H (chances 0) ctx.infoHash true) ctx true []
        rw [hcn] at hf
        obtain ⟨c, r⟩ := r
        split
        · rename_i heq; cases heq; exact absurd rfl hr
        · rw [hf]
          refine ⟨o, h1, ?_⟩
          split
          · rename_i heq; cases heq; exact absurd rfl hr
          · rw [h2]; rfl

/-! ### Single lines -/

/-- Lines that may appear before the conversation. -/
def EarlyLine (p : Peer) : LogLine → Prop
  | .peerStep _ q => q = p
  | .sendingPacket _ q => q = p
  | .selected q _ => q = p
  | _ => False

theorem secureLines_early (p : Peer) : ∀ x ∈ secureLines p, EarlyLine p x := by simp [secureLines, EarlyLine]

theorem opening_early {H : Bytes → Bytes} {p : Peer} {c : Chances} {w : RawLink} {skey : InfoHash} {encrypt : Bool} {o : List LogLine}
    (h : Opening H p c w skey encrypt o) : ∀ x ∈ o, EarlyLine p x := by
  unfold Opening at h
  split at h
  · obtain ⟨rest, h1, h2, h3⟩ := h
    have hr : ∀ x ∈ rest, EarlyLine p x := by
      cases encrypt with
      | false => rw [h2 rfl]; simp
      | true =>
        obtain ⟨s, h4, h5⟩ := h3 rfl
        rw [h4]
        have hs : ∀ x ∈ s, EarlyLine p x := by
          split at h5
          · rw [h5]; simp [EarlyLine]
          · obtain ⟨k, -, -, h6, -⟩ := h5
            rw [h6]
            exact fun x hx => secureLines_early p x (List.mem_of_mem_take hx)
        intro x hx
        rcases List.mem_cons.1 hx with rfl | hx
        · rfl
        · exact hs x hx
    rw [h1]
    intro x hx
    rcases List.mem_cons.1 hx with rfl | hx
    · rfl
    · rcases List.mem_cons.1 hx with rfl | hx
      · rfl
      · exact hr x hx
  · rw [h]; simp [EarlyLine]

theorem early_silent {p : Peer} {o : List LogLine} (h : ∀ x ∈ o, EarlyLine p x) :
    o.filterMap saidReceived = [] ∧ o.filterMap saidSending = [] ∧ (∀ m q, .gotMetadata m q ∉ o) ∧ (∀ q e, .encryptionFailed q e ∉ o) ∧
    (∀ m q, .requestingInfo m q ∉ o) := by
  refine ⟨List.filterMap_eq_nil_iff.2 fun x hx => ?_, List.filterMap_eq_nil_iff.2 fun x hx => ?_, fun m q hx => h _ hx, fun q e hx => h _ hx,
    fun m q hx => h _ hx⟩
  · have := h x hx; cases x <;> first | rfl | exact absurd this id
  · have := h x hx; cases x <;> first | rfl | exact absurd this id

theorem eventLines_said (p : Peer) (e : Event) :
    (eventLines p e).filterMap saidReceived = (wasReceived e).toList ∧ (eventLines p e).filterMap saidSending = (wasSent e).toList ∧
    (∀ m q, .gotMetadata m q ∉ eventLines p e) ∧ (∀ q e', .encryptionFailed q e' ∉ eventLines p e) := by
  unfold eventLines
  split
  · simp [wasReceived, wasSent, saidReceived, saidSending]
  · simp [wasReceived, wasSent, saidReceived, saidSending]
  · exact ⟨rfl, rfl, by simp, by simp⟩
  · simp [wasReceived, wasSent, saidReceived, saidSending]
  · simp [wasReceived, wasSent, saidReceived, saidSending]

theorem narrate_said (p : Peer) (es : List Event) :
    (narrate p es).filterMap saidReceived = es.filterMap wasReceived ∧ (narrate p es).filterMap saidSending = es.filterMap wasSent ∧
    (∀ m q, .gotMetadata m q ∉ narrate p es) ∧ (∀ q e', .encryptionFailed q e' ∉ narrate p es) := by
  induction es with
  | nil => simp [narrate]
  | cons e es ih =>
    obtain ⟨h1, h2, h3, h4⟩ := eventLines_said p e
    have hn : narrate p (e :: es) = eventLines p e ++ narrate p es := rfl
    rw [hn]
    simp only [List.filterMap_append, List.mem_append, h1, h2, ih.1, ih.2.1, not_or]
    refine ⟨?_, ?_, fun m q => ⟨h3 m q, ih.2.2.1 m q⟩, fun q e' => ⟨h4 q e', ih.2.2.2 q e'⟩⟩
    · cases h : wasReceived e <;> simp [h]
    · cases h : wasSent e <;> simp [h]

theorem gotLines_said (m : Magnet) (p : Peer) (r : Res PeerError TorrentInfo) :
    (gotLines m p r).filterMap saidReceived = [] ∧ (gotLines m p r).filterMap saidSending = [] ∧
    (.gotMetadata m p ∈ gotLines m p r ↔ ∃ info, r = .ok info) ∧ (∀ q e, .encryptionFailed q e ∉ gotLines m p r) := by
  cases r <;> simp [gotLines, saidReceived, saidSending]

theorem wouldDo_received (sha1 : Bytes → Bytes) (l : Link) (ctx : PeerCtx) (encrypt : Bool) : (wouldDo sha1 l ctx encrypt).filterMap wasReceived = [] := by
  refine List.filterMap_eq_nil_iff.2 fun e he => ?_
  have := ((visit_last sha1 l ctx encrypt).2.1 e he).1
  cases e <;> first | rfl | exact absurd this id

section lines

variable (sha1 H : Bytes → Bytes) (m : Magnet) (p : Peer) (chances : Nat → Chances) (raws : Nat → RawLink) (ctx : PeerCtx)
  (override : Option CryptoMode) (pref : CryptoPreference) (requiresCrypto : Bool)

/-- **C98.** What the log says has been received is what has been received, in the order in which it was. -/
theorem peerRun_received :
    (peerRunLog sha1 H m p chances raws ctx override pref requiresCrypto).filterMap saidReceived =
      ((wireRun sha1 H chances raws ctx override pref requiresCrypto).1.flatMap Attempt.trace).filterMap wasReceived := by
  have h := peerRun_log sha1 H m p chances raws ctx override pref requiresCrypto
  generalize wireRun sha1 H chances raws ctx override pref requiresCrypto = run at h
  obtain ⟨as, r⟩ := run
  match as, h with
  | [], ⟨_, h⟩ => rw [h]; rfl
  | [a], ⟨o, h1, h⟩ =>
    rw [h]
    simp only [List.filterMap_append, (narrate_said p _).1, (gotLines_said m p r).1, wouldDo_received, List.filterMap_cons,
      (early_silent (opening_early h1)).1]
    simp [saidReceived]
  | [a, b], ⟨o1, e, o2, _, h0, _, _, h1, h2, h⟩ =>
    rw [h]
    simp only [List.filterMap_append, (narrate_said p _).1, (gotLines_said m p r).1, wouldDo_received, List.filterMap_cons,
      (early_silent (opening_early h1)).1, (early_silent (opening_early h2)).1]
    simp [saidReceived, h0]

/-- **C98.** What the log says is being sent is what has been sent, in the order in which it was, and at most one message more. -/
theorem peerRun_sending :
    ∃ extra : List Message, extra.length ≤ 1 ∧
    (peerRunLog sha1 H m p chances raws ctx override pref requiresCrypto).filterMap saidSending =
      ((wireRun sha1 H chances raws ctx override pref requiresCrypto).1.flatMap Attempt.trace).filterMap wasSent ++ extra := by
  have h := peerRun_log sha1 H m p chances raws ctx override pref requiresCrypto
  generalize wireRun sha1 H chances raws ctx override pref requiresCrypto = run at h
  obtain ⟨as, r⟩ := run
  have hx : ∀ l enc, ((wouldDo sha1 l ctx enc).filterMap wasSent).length ≤ 1 := fun l enc =>
    Nat.le_trans (List.length_filterMap_le _ _) (visit_last sha1 l ctx enc).1
  match as, h with
  | [], ⟨_, h⟩ => exact ⟨[], by simp, by rw [h]; rfl⟩
  | [a], ⟨o, h1, h⟩ =>
    refine ⟨_, hx ((raws 0).link H (chances 0) ctx.infoHash a.encrypt) a.encrypt, ?_⟩
    rw [h]
    simp only [List.filterMap_append, (narrate_said p _).2.1, (gotLines_said m p r).2.1, List.filterMap_cons,
      (early_silent (opening_early h1)).2.1]
    simp [saidSending]
  | [a, b], ⟨o1, e, o2, _, h0, _, _, h1, h2, h⟩ =>
    refine ⟨_, hx ((raws 1).link H (chances 1) ctx.infoHash false) false, ?_⟩
    rw [h]
    simp only [List.filterMap_append, (narrate_said p _).2.1, (gotLines_said m p r).2.1, List.filterMap_cons,
      (early_silent (opening_early h1)).2.1, (early_silent (opening_early h2)).2.1]
    simp [saidSending, h0]

/-- **C98.** The log says that the metadata has been received exactly if the run returns it. -/
theorem peerRun_got : .gotMetadata m p ∈ peerRunLog sha1 H m p chances raws ctx override pref requiresCrypto ↔
    ∃ info, (wireRun sha1 H chances raws ctx override pref requiresCrypto).2 = .ok info := by
  have h := peerRun_log sha1 H m p chances raws ctx override pref requiresCrypto
  generalize wireRun sha1 H chances raws ctx override pref requiresCrypto = run at h
  obtain ⟨as, r⟩ := run
  match as, h with
  | [], ⟨hr, h⟩ => rw [h, hr]; simp
  | [a], ⟨o, h1, h⟩ =>
    rw [h, ← (gotLines_said m p r).2.2.1]
    simp [(narrate_said p _).2.2.1 m p, (early_silent (opening_early h1)).2.2.1 m p]
  | [a, b], ⟨o1, e, o2, _, h0, _, _, h1, h2, h⟩ =>
    rw [h, ← (gotLines_said m p r).2.2.1]
    simp [(narrate_said p _).2.2.1 m p, (early_silent (opening_early h1)).2.2.1 m p, (early_silent (opening_early h2)).2.2.1 m p]

/-- **C98.** The log says that encryption has failed, and why, exactly if a second attempt without encryption is made. -/
theorem peerRun_failed (q : Peer) (e : MseError) :
    .encryptionFailed q e ∈ peerRunLog sha1 H m p chances raws ctx override pref requiresCrypto ↔
    q = p ∧ (wireRun sha1 H chances raws ctx override pref requiresCrypto).1.length = 2 ∧
      ((raws 0).secure H (chances 0) ctx.infoHash).2.1 = .err e := by
  have h := peerRun_log sha1 H m p chances raws ctx override pref requiresCrypto
  generalize wireRun sha1 H chances raws ctx override pref requiresCrypto = run at h
  obtain ⟨as, r⟩ := run
  match as, h with
  | [], ⟨hr, h⟩ => rw [h]; simp
  | [a], ⟨o, h1, h⟩ =>
    rw [h]
    simp [(narrate_said p _).2.2.2 q e, (early_silent (opening_early h1)).2.2.2.1 q e, (gotLines_said m p r).2.2.2 q e]
  | [a, b], ⟨o1, e', o2, _, h0, _, he, h1, h2, h⟩ =>
    rw [h, he]
    simp [(narrate_said p _).2.2.2 q e, (early_silent (opening_early h1)).2.2.2.1 q e, (early_silent (opening_early h2)).2.2.2.1 q e,
      (gotLines_said m p r).2.2.2 q e, eq_comm]

end lines

/-! ### The hypotheses can be met -/

/-- A peer that closes the connection after three bytes, and does not take a second connection: preferring encryption, all of this is told. -/
example : peerRunLog (fun _ => List.replicate 20 7) (fun b => b) ⟨exHash, none, []⟩ ⟨.v4 ⟨⟨0x01020304#32⟩, 6881⟩, none, false⟩ (fun _ => exChances)
    (fun i => if i = 0 then ⟨.ok, [.data [1, 2], .data [3], .timeout, .eof], fun _ => .ok⟩ else ⟨.fail, [], fun _ => .ok⟩) exCtx none .prefer false =
    let p : Peer := ⟨.v4 ⟨⟨0x01020304#32⟩, 6881⟩, none, false⟩
    [.requestingInfo ⟨exHash, none, []⟩ p, .peerStep 0 p, .peerStep 1 p, .peerStep 2 p, .sendingPacket 1 p, .peerStep 5 p,
      .encryptionFailed p (.packet2Len 3), .peerStep 0 p] := rfl

/-- **C98**, the exception: that packet 2 of the encryption handshake has been received is said when the time for it is over, even if nothing
has been received. -/
theorem packet2_unreceived (H : Bytes → Bytes) (p : Peer) : ∃ (c : Chances) (w : RawLink), w.reads = [.timeout] ∧ .peerStep 5 p ∈ w.secureLog H p c exHash :=
  ⟨exChances, ⟨.ok, [.timeout], fun _ => .ok⟩, rfl, by
    have : RawLink.secureLog H p exChances ⟨.ok, [.timeout], fun _ => .ok⟩ exHash = [.sendingPacket 1 p, .peerStep 5 p] := rfl
    rw [this]; simp⟩

/-- The peer of `exLink` behind encryption: encryption is selected, and the metadata is received. -/
example (p : Peer) : .selected p .rc4 ∈ exRaw.secureLog sha1 p exChances exHash := by
  have hB := sent_exactly 2 7
  have hf : ([biguint2bytes (modpow 2 7 primeModulus), [9]] : List Bytes).flatten = biguint2bytes (modpow 2 7 primeModulus) ++ [9] := by simp
  have ht : (biguint2bytes (modpow 2 7 primeModulus) ++ [9]).take 96 = biguint2bytes (modpow 2 7 primeModulus) := by
    rw [List.take_append_of_le_length (Nat.le_of_eq hB.1.symm), List.take_of_length_le (Nat.le_of_eq hB.1)]
  refine (selected_iff sha1 p exChances exRaw exHash rfl _ _ exResponder.pieces.1 exResponder.pieces.2 [] .stall rfl rfl ⟨rfl, rfl⟩ ?_ exSecret ?_).2 ?_
  · rw [hf, List.length_append, hB.1]; decide
  · rw [hf, ht]
    have h := secretOf_sent 5 (biguint2bytes (modpow 2 7 primeModulus))
    rwa [List.take_of_length_le (Nat.le_of_eq hB.1)] at h
  · have : ([exReply.take 20, exReply.drop 20] : List Bytes).flatten = exReply := by simp
    rw [this, exReply, xorAt_xorAt]
    rfl

example (p : Peer) : .gotMetadata ⟨exHash, none, []⟩ p ∈
    peerRunLog (fun _ => List.replicate 20 7) sha1 ⟨exHash, none, []⟩ p (fun _ => exChances) (fun _ => exRaw) exCtx none .always true :=
  (peerRun_got (fun _ => List.replicate 20 7) sha1 ⟨exHash, none, []⟩ p (fun _ => exChances) (fun _ => exRaw) exCtx none .always true).2 ⟨_, exEncrypted_run⟩

end Demag.Props
