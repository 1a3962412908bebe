import Verif.Spec.ConnectTime
import Verif.Props.SecureLink
import Verif.Props.Settings

namespace Demag.Props

open Demag Demag.Spec

/-- As long as the time for packet 2 is not over, the handshake neither succeeds nor takes a decision: it ends only if the connection does. -/
theorem loop_untimed (H : Bytes → Bytes) (sendOk : Nat → Bool) (reads : List HandshakeRead) (ht : .timeout ∉ reads) (n : Nat) (d : Bool) (h : Handshaker)
    (a : Nat) (hs : h.state = .packet2 a) :
    (∀ s, (handshakeLoop H sendOk n d h reads).2.1 ≠ .ok s) ∧
    ((h.output.isSome = true → sendOk n = true) → (∀ r ∈ reads, ∃ b, b ≠ [] ∧ r = .data b) →
      handshakeLoop H sendOk n d h reads = (h.output.toList, .waiting, [])) ∧
    ((handshakeLoop H sendOk n d h reads).2.1 = .err .send →
      h.output.isSome = true ∧ sendOk n = false ∧ (handshakeLoop H sendOk n d h reads).1 = []) := by
  induction reads generalizing n d h with
  | nil =>
    rw [handshakeLoop, hs]
    simp only
    by_cases hx : (h.output.isSome && !sendOk n) = true
    · rw [if_pos hx]
      simp only [Bool.and_eq_true, Bool.not_eq_true'] at hx
      refine ⟨by simp, fun h1 _ => ?_, fun _ => ⟨hx.1, hx.2, rfl⟩⟩
      rw [h1 hx.1] at hx
      simp at hx
    · rw [if_neg hx]
      exact ⟨by simp, fun _ _ => rfl, by simp⟩
  | cons r rs ih =>
    rw [handshakeLoop, hs]
    simp only
    have ht' : .timeout ∉ rs := fun h => ht (List.mem_cons_of_mem _ h)
    by_cases hx : (h.output.isSome && !sendOk n) = true
    · rw [if_pos hx]
      simp only [Bool.and_eq_true, Bool.not_eq_true'] at hx
      refine ⟨by simp, fun h1 _ => ?_, fun _ => ⟨hx.1, hx.2, rfl⟩⟩
      rw [h1 hx.1] at hx
      simp at hx
    · rw [if_neg hx]
      cases r with
      | timeout => exact absurd (List.mem_cons_self) ht
      | eof => exact ⟨by simp, fun _ h2 => (by obtain ⟨b, -, hb⟩ := h2 _ (List.mem_cons_self); cases hb), by simp⟩
      | failed => exact ⟨by simp, fun _ h2 => (by obtain ⟨b, -, hb⟩ := h2 _ (List.mem_cons_self); cases hb), by simp⟩
      | data b =>
        cases b with
        | nil => exact ⟨by simp, fun _ h2 => (by obtain ⟨b, hne, hb⟩ := h2 _ (List.mem_cons_self); cases hb; exact absurd rfl hne), by simp⟩
        | cons x xs =>
          have := ih ht' (if h.output.isSome = true then n + 2 else n) (d || h.timeout)
            ⟨.packet2 a, none, h.padcLen, h.skey, false, h.input ++ x :: xs, h.provide⟩ rfl
          simp only [Handshaker.handleInput]
          refine ⟨this.1, fun _ h2 => ?_, fun h3 => ?_⟩
          · rw [this.2.1 (by simp) (fun r hr => h2 r (List.mem_cons_of_mem _ hr))]
            simp
          · have := (this.2.2 h3).1
            simp at this

theorem upTo_mem {w : TimedNet} {t : Nat} {a : Nat × Arrival} (h : a ∈ w.upTo t) : a ∈ w.arrivals ∧ a.1 ≤ t := by
  refine ⟨List.takeWhile_subset _ h, ?_⟩
  have := List.all_takeWhile (p := fun a : Nat × Arrival => decide (a.1 ≤ t)) (l := w.arrivals)
  rw [List.all_eq_true] at this
  simpa using this a h

theorem arrival_ne_timeout (a : Arrival) : a.read ≠ .timeout := by cases a <;> simp [Arrival.read]

theorem reads_untimed {w : TimedNet} {d e : Nat} (h : e < w.sentAt + d) : .timeout ∉ w.reads d e := by
  rw [TimedNet.reads, if_neg (by omega)]
  intro hm
  obtain ⟨a, -, ha⟩ := List.mem_map.1 hm
  exact arrival_ne_timeout _ ha

theorem secure_untimed (H : Bytes → Bytes) (c : Chances) (w : TimedNet) (skey : InfoHash) (d e : Nat) (h : e < w.sentAt + d) :
    (∀ s, ((w.raw d e).secure H c skey).2.1 ≠ .ok s) ∧
    ((w.raw d e).sends 0 = .ok → StaysOpen w e →
      (w.raw d e).secure H c skey = ((Handshaker.build skey c.privateKey c.padA c.padcLen).output.toList, .waiting, [])) ∧
    (((w.raw d e).secure H c skey).2.1 = .err .send → ((w.raw d e).secure H c skey).1 = [] ∧ (w.raw d e).sends 0 ≠ .ok) := by
  have := loop_untimed H (fun n => (w.raw d e).sends (n / 2) = .ok) (w.reads d e) (reads_untimed h) 1 false
    (Handshaker.build skey c.privateKey c.padA c.padcLen) c.privateKey rfl
  refine ⟨this.1, fun h0 ho => this.2.1 (fun _ => by simpa using h0) fun r hr => ?_, fun h3 => ?_⟩
  rotate_left
  · obtain ⟨-, h4, h5⟩ := this.2.2 h3
    refine ⟨h5, ?_⟩
    simpa using h4
  rw [TimedNet.reads, if_neg (by omega)] at hr
  obtain ⟨a, ha, rfl⟩ := List.mem_map.1 hr
  obtain ⟨hm, hle⟩ := upTo_mem ha
  obtain ⟨b, hb, he⟩ := ho a hm hle
  exact ⟨b, hb, by rw [he]; rfl⟩

/-- An encrypted connection that is made was encrypted. -/
theorem connect_crypto {l : Link} {ctx : PeerCtx} {size : Option (BitVec 32)} (h : (connect l ctx true).2 = .ok size) : l.crypto = .ok := by
  unfold connect at h
  simp only [if_true] at h
  cases hc : l.connect <;> rw [hc] at h <;> simp only at h
  · cases hk : l.crypto <;> rw [hk] at h <;> simp only at h
    all_goals first | rfl | cases h
  all_goals cases h

theorem link_crypto_ok {H : Bytes → Bytes} {c : Chances} {w : RawLink} {skey : InfoHash} (h : (w.link H c skey true).crypto = .ok) :
    (∃ s, (w.secure H c skey).2.1 = .ok s) ∨ ((w.secure H c skey).2.1 = .err .send ∧ w.sends (w.secure H c skey).1.length = .ok) := by
  unfold RawLink.link at h
  rw [if_pos rfl] at h
  by_cases ho : w.overflows c = true
  · rw [if_pos ho] at h; cases h
  · rw [if_neg ho] at h
    generalize w.secure H c skey = r at h
    obtain ⟨packets, outcome, rest⟩ := r
    cases outcome with
    | ok s => exact .inl ⟨s, rfl⟩
    | waiting => cases h
    | err e =>
      cases e
      case send =>
        refine .inr ⟨rfl, ?_⟩
        cases hs : w.sends packets.length <;> simp [SecureOutcome.ofIo, hs] at h ⊢
      all_goals cases h

theorem crypto_untimed {H : Bytes → Bytes} {c : Chances} {w : TimedNet} {skey : InfoHash} {d e : Nat} (h : e < w.sentAt + d) :
    ((w.raw d e).link H c skey true).crypto ≠ .ok := by
  intro hc
  obtain ⟨h1, -, h3⟩ := secure_untimed H c w skey d e h
  rcases link_crypto_ok hc with ⟨s, hs⟩ | ⟨hs, ho⟩
  · exact h1 s hs
  · obtain ⟨h4, h5⟩ := h3 hs
    rw [h4] at ho
    exact h5 ho

theorem of_connected {enc enc' : Bool} {r : Res PeerError (Option (BitVec 32))} (h : PhaseEnd.of enc r = .connected enc') :
    enc' = enc ∧ ∃ size, r = .ok size := by
  cases r <;> simp only [PhaseEnd.of] at h
  · cases h; exact ⟨rfl, _, rfl⟩
  all_goals cases h

theorem phase_encrypted {H : Bytes → Bytes} {cfg : PeersConfig} {chances : Nat → Chances} {nets : Nat → TimedNet} {ctx : PeerCtx} {mode : CryptoMode}
    (h : (connectPhase H cfg chances nets ctx mode).2 = .connected true) : ∃ size, timedConnect H cfg (chances 0) (nets 0) ctx true = .ok size := by
  cases mode with
  | encrypt => exact (of_connected h).2
  | plain => have := (of_connected h).1; cases this
  | prefer =>
    simp only [connectPhase] at h
    split at h
    · have := (of_connected h).1; cases this
    · exact (of_connected h).2

/-- **C94.** A connection that is encrypted has taken its time: after the first packet was sent the whole time for the key exchange went by, and
not more than the time for the attempt. -/
theorem encrypted_takes_time (H : Bytes → Bytes) (cfg : PeersConfig) (chances : Nat → Chances) (nets : Nat → TimedNet) (ctx : PeerCtx)
    (mode : CryptoMode) (h : (connectPhase H cfg chances nets ctx mode).2 = .connected true) :
    (nets 0).sentAt + 1000 * cfg.dhExchangeTimeout ≤ 1000 * cfg.handshakeTimeout := by
  obtain ⟨size, hs⟩ := phase_encrypted h
  exact Nat.le_of_not_lt fun hlt => crypto_untimed hlt (connect_crypto hs)

/-- **C94.** Whatever the peers do, no connection is ever encrypted if the time for the attempt is shorter than that for the key exchange. -/
theorem never_encrypted (H : Bytes → Bytes) (cfg : PeersConfig) (hcfg : cfg.handshakeTimeout < cfg.dhExchangeTimeout) (chances : Nat → Chances)
    (nets : Nat → TimedNet) (ctx : PeerCtx) (mode : CryptoMode) :
    (connectPhase H cfg chances nets ctx mode).2 ≠ .connected true ∧
    ∀ enc, (connectPhase H cfg chances nets ctx .encrypt).2 ≠ .connected enc := by
  have hn : ∀ mode, (connectPhase H cfg chances nets ctx mode).2 ≠ .connected true := by
    intro mode h
    have := encrypted_takes_time H cfg chances nets ctx mode h
    omega
  refine ⟨hn mode, fun enc h => ?_⟩
  have := (of_connected h).1
  subst this
  exact hn .encrypt h

theorem untimed_hangs (H : Bytes → Bytes) (cfg : PeersConfig) (c : Chances) (w : TimedNet) (ctx : PeerCtx)
    (ht : 1000 * cfg.handshakeTimeout < w.sentAt + 1000 * cfg.dhExchangeTimeout) (hfit : c.now + cfg.dhExchangeTimeout < 2 ^ 63)
    (hr : Reachable w (1000 * cfg.handshakeTimeout)) (ho : StaysOpen w (1000 * cfg.handshakeTimeout)) :
    timedConnect H cfg c w ctx true = .hang := by
  obtain ⟨h1, h2, h3, h4⟩ := hr
  have hs0 : (w.raw (1000 * cfg.dhExchangeTimeout) (1000 * cfg.handshakeTimeout)).sends 0 = .ok := by
    simp only [TimedNet.raw]
    rw [if_neg (by omega), h3]
  have hsec := (secure_untimed H { c with dhTimeout := cfg.dhExchangeTimeout } w ctx.infoHash _ _ ht).2.1 hs0 ho
  have hov : (w.raw (1000 * cfg.dhExchangeTimeout) (1000 * cfg.handshakeTimeout)).overflows { c with dhTimeout := cfg.dhExchangeTimeout } = false := by
    simp [RawLink.overflows, momentAfter, hfit]
  have hcr := (crypto_outcome H { c with dhTimeout := cfg.dhExchangeTimeout } _ ctx.infoHash hov).2.2.2 (.inl (by rw [hsec]))
  have hco : ((w.raw (1000 * cfg.dhExchangeTimeout) (1000 * cfg.handshakeTimeout)).link H { c with dhTimeout := cfg.dhExchangeTimeout }
      ctx.infoHash true).connect = .ok := by
    rw [link_connect]
    simp only [TimedNet.raw]
    rw [if_pos h2, h1]
  simp only [timedConnect, connect, hco, hcr, if_true]

/-- **C94.** If the time for the attempt ends before that for the key exchange, a peer that keeps the connection open, whatever it sends, costs the
whole time, and no unencrypted connection is tried, even if encryption is only preferred. -/
theorem no_fallback_in_time (H : Bytes → Bytes) (cfg : PeersConfig) (chances : Nat → Chances) (nets : Nat → TimedNet) (ctx : PeerCtx)
    (mode : CryptoMode) (hm : mode ≠ .plain)
    (ht : 1000 * cfg.handshakeTimeout < (nets 0).sentAt + 1000 * cfg.dhExchangeTimeout)
    (hfit : (chances 0).now + cfg.dhExchangeTimeout < 2 ^ 63)
    (hr : Reachable (nets 0) (1000 * cfg.handshakeTimeout)) (ho : StaysOpen (nets 0) (1000 * cfg.handshakeTimeout)) :
    connectPhase H cfg chances nets ctx mode = ([true], .failed .connectTimeout) := by
  have := untimed_hangs H cfg (chances 0) (nets 0) ctx ht hfit hr ho
  cases mode with
  | plain => exact absurd rfl hm
  | encrypt => simp only [connectPhase, this, PhaseEnd.of]
  | prefer => simp only [connectPhase, this, PhaseEnd.of]

theorem silent_upTo {w : TimedNet} {t : Nat} (h : SilentUntil w t) : w.upTo t = [] := by
  unfold TimedNet.upTo
  cases ha : w.arrivals with
  | nil => rfl
  | cons a as =>
    have := h a (by rw [ha]; exact List.mem_cons_self)
    rw [List.takeWhile_cons, if_neg (by simp; omega)]

/-- **C94.** If the time for the key exchange ends within that for the attempt, a peer that says nothing is given up when it does: where
encryption is preferred an unencrypted connection is tried, with the whole time again, and decides; where it is required the connection fails. -/
theorem silent_falls_back (H : Bytes → Bytes) (cfg : PeersConfig) (chances : Nat → Chances) (nets : Nat → TimedNet) (ctx : PeerCtx)
    (ht : (nets 0).sentAt + 1000 * cfg.dhExchangeTimeout ≤ 1000 * cfg.handshakeTimeout)
    (hfit : (chances 0).now + cfg.dhExchangeTimeout < 2 ^ 63)
    (hr : Reachable (nets 0) (1000 * cfg.handshakeTimeout)) (hq : SilentUntil (nets 0) ((nets 0).sentAt + 1000 * cfg.dhExchangeTimeout)) :
    connectPhase H cfg chances nets ctx .prefer = ([true, false], (connectPhase H cfg (fun _ => chances 1) (fun _ => nets 1) ctx .plain).2) ∧
    connectPhase H cfg chances nets ctx .encrypt = ([true], .failed .cryptoHandshake) := by
  obtain ⟨h1, h2, h3, h4⟩ := hr
  have hs0 : ((nets 0).raw (1000 * cfg.dhExchangeTimeout) (1000 * cfg.handshakeTimeout)).sends 0 = .ok := by
    simp only [TimedNet.raw]
    rw [if_neg (by omega), h3]
  have hov : ((nets 0).raw (1000 * cfg.dhExchangeTimeout) (1000 * cfg.handshakeTimeout)).overflows
      { chances 0 with dhTimeout := cfg.dhExchangeTimeout } = false := by
    simp [RawLink.overflows, momentAfter, hfit]
  have hsec : (((nets 0).raw (1000 * cfg.dhExchangeTimeout) (1000 * cfg.handshakeTimeout)).secure H
      { chances 0 with dhTimeout := cfg.dhExchangeTimeout } ctx.infoHash).2.1 = .err (.packet2Len 0) := by
    have hrd : ((nets 0).raw (1000 * cfg.dhExchangeTimeout) (1000 * cfg.handshakeTimeout)).reads = .timeout ::
        ((((nets 0).arrivals.takeWhile (fun a => a.1 ≤ 1000 * cfg.handshakeTimeout)).map (fun a => a.2.read))) := by
      simp only [TimedNet.raw, TimedNet.reads]
      rw [if_pos ht, silent_upTo hq]
      rfl
    rw [RawLink.secure, hrd, handshakeLoop]
    simp only [Handshaker.build, Option.isSome_some, Bool.true_and]
    rw [if_neg (by simp [hs0])]
    simp [Handshaker.handleTimeout, minPacket2Len, modulusBytes]
  have hcr := (crypto_outcome H { chances 0 with dhTimeout := cfg.dhExchangeTimeout } _ ctx.infoHash hov).2.1.2
    (.inl ⟨.packet2Len 0, by simp, hsec⟩)
  have hco : (((nets 0).raw (1000 * cfg.dhExchangeTimeout) (1000 * cfg.handshakeTimeout)).link H
      { chances 0 with dhTimeout := cfg.dhExchangeTimeout } ctx.infoHash true).connect = .ok := by
    rw [link_connect]
    simp only [TimedNet.raw]
    rw [if_pos h2, h1]
  have : timedConnect H cfg (chances 0) (nets 0) ctx true = .err .cryptoHandshake := by
    simp only [timedConnect, connect, hco, hcr, if_true]
  simp only [connectPhase, this, PhaseEnd.of, and_self]

theorem takeWhile_split {α : Type} (p : α → Bool) (xs ys : List α) (hx : ∀ a ∈ xs, p a = true) (hy : ∀ a ∈ ys, p a = false) :
    (xs ++ ys).takeWhile p = xs := by
  induction xs with
  | nil =>
    cases ys with
    | nil => rfl
    | cons y ys => rw [List.nil_append, List.takeWhile_cons, hy y List.mem_cons_self]; rfl
  | cons x xs ih =>
    rw [List.cons_append, List.takeWhile_cons, hx x List.mem_cons_self, if_pos rfl, ih fun a ha => hx a (List.mem_cons_of_mem _ ha)]

/-- **C94.** A peer that follows the protocol and keeps both deadlines gets an encrypted connection: its key comes before the time for the key exchange
ends, its answer and the conversation afterwards, before the attempt ends.  The result is that of an unencrypted connection over which the peer
sends the same. -/
theorem responder_in_time (H : Bytes → Bytes) (hH : ∀ b, (H b).length = 20) (cfg : PeersConfig) (c c' : Chances) (hrooms : ∀ k, 0 < c.rooms k)
    (w : TimedNet) (ctx : PeerCtx) (b : Nat) (S padB padD app : Bytes) (l1 l2 : List (Nat × Bytes)) (c3 : List Bytes) (l3 : List (Nat × Arrival))
    (hS : Sent96 ((2 ^ c.privateKey % msePrime) ^ b % msePrime) S)
    (hr : Responder H ctx.infoHash.bytes b S padB padD app (l1.map Prod.snd) (l2.map Prod.snd))
    (ha : w.arrivals = l1.map (fun a => (a.1, .data a.2)) ++ (l2.map (fun a => (a.1, .data a.2)) ++ l3))
    (h1 : ∀ a ∈ l1, a.1 ≤ w.sentAt + 1000 * cfg.dhExchangeTimeout)
    (h2 : ∀ a ∈ l2, w.sentAt + 1000 * cfg.dhExchangeTimeout < a.1 ∧ a.1 ≤ 1000 * cfg.handshakeTimeout)
    (h3 : ∀ a ∈ l3, 1000 * cfg.handshakeTimeout < a.1)
    (ht : w.sentAt + 1000 * cfg.dhExchangeTimeout ≤ 1000 * cfg.handshakeTimeout) (hfit : c.now + cfg.dhExchangeTimeout < 2 ^ 63)
    (hw : Reachable w (1000 * cfg.handshakeTimeout)) (hs1 : w.sends 1 = .ok) (happ : c3.flatten = app) (hc3 : [] ∉ c3) :
    timedConnect H cfg c w ctx true =
      (connect ((⟨.ok, c3.map .data, fun n => w.sends (2 + n)⟩ : RawLink).link H c' ctx.infoHash false) ctx false).2 := by
  obtain ⟨hw1, hw2, hw3, hw4⟩ := hw
  have hup : w.upTo (w.sentAt + 1000 * cfg.dhExchangeTimeout) = l1.map (fun a => (a.1, .data a.2)) := by
    rw [TimedNet.upTo, ha, takeWhile_split]
    · intro a hm
      obtain ⟨x, hx, rfl⟩ := List.mem_map.1 hm
      simpa using h1 x hx
    · intro a hm
      rcases List.mem_append.1 hm with hm | hm
      · obtain ⟨x, hx, rfl⟩ := List.mem_map.1 hm
        simpa using (h2 x hx).1
      · have := h3 a hm
        simp; omega
  have hrd : (w.raw (1000 * cfg.dhExchangeTimeout) (1000 * cfg.handshakeTimeout)).reads =
      responderReads (l1.map Prod.snd) (l2.map Prod.snd) [] := by
    simp only [TimedNet.raw, TimedNet.reads]
    rw [if_pos ht, hup, ha, List.drop_left, takeWhile_split, responderReads]
    · simp [Function.comp_def, Arrival.read]
    · intro a hm
      obtain ⟨x, hx, rfl⟩ := List.mem_map.1 hm
      simpa using (h2 x hx).2
    · intro a hm
      simpa using h3 a hm
  have hsn : ∀ n, (w.raw (1000 * cfg.dhExchangeTimeout) (1000 * cfg.handshakeTimeout)).sends n = w.sends n := by
    intro n
    simp only [TimedNet.raw]
    rw [if_neg (by omega)]
  have hlink := encrypted_as_plain H hH { c with dhTimeout := cfg.dhExchangeTimeout } c' hrooms
    (w.raw (1000 * cfg.dhExchangeTimeout) (1000 * cfg.handshakeTimeout)) ⟨.ok, c3.map .data, fun n => w.sends (2 + n)⟩ ctx.infoHash b S padB padD app
    _ _ c3 [] .stall hS hr hrd rfl (by rw [hsn, hw3]) (by rw [hsn, hs1]) hfit happ hc3 (by
      have hc : (w.raw (1000 * cfg.dhExchangeTimeout) (1000 * cfg.handshakeTimeout)).connect = .ok := by
        simp only [TimedNet.raw]
        rw [if_pos hw2, hw1]
      rw [hc, List.append_nil]
      simp only [hsn])
  rw [timedConnect, hlink, connect_crypto_irrelevant (by rfl)]

theorem phase_connects {H : Bytes → Bytes} {cfg : PeersConfig} {chances : Nat → Chances} {nets : Nat → TimedNet} {ctx : PeerCtx}
    (h : ∃ size, timedConnect H cfg (chances 0) (nets 0) ctx true = .ok size) :
    connectPhase H cfg chances nets ctx .encrypt = ([true], .connected true) := by
  obtain ⟨size, h⟩ := h
  simp only [connectPhase, h, PhaseEnd.of]

/-! ### The hypotheses can be met -/

section examples

/-- The peer of `exRaw`, which sends its key after a second and its answer after 31 seconds; packet 1 is sent after 200 ms. -/
def exTimed : TimedNet :=
  ⟨.ok, 100, 200, [(1000, .data (biguint2bytes (modpow 2 7 primeModulus))), (1100, .data [9]), (31000, .data (exReply.take 20)),
    (31500, .data (exReply.drop 20))], fun _ => .ok⟩

/-- With the default timeouts (60 and 30 seconds) the connection is encrypted, and is as good as an unencrypted one. -/
theorem exTimed_connects : ∃ size, timedConnect sha1 ⟨50, 60, 30⟩ exChances exTimed exCtx true = .ok size := by
  rw [responder_in_time sha1 sha1_length ⟨50, 60, 30⟩ exChances exChances (fun _ => Nat.zero_lt_succ 2) exTimed exCtx 7 exSecret [9] [4, 5]
    exLink.incoming [(1000, biguint2bytes (modpow 2 7 primeModulus)), (1100, [9])] [(31000, exReply.take 20), (31500, exReply.drop 20)]
    [exLink.incoming] [] exSecret_ok exResponder rfl (by simp [exTimed]) (by simp [exTimed]) (by simp) (by simp [exTimed]) (by simp [exChances])
    ⟨rfl, by simp [exTimed], rfl, by simp [exTimed]⟩ rfl (by simp) (by decide +kernel)]
  have h : (match (connect { exLink with crypto := .ok } exCtx false).2 with | .ok _ => true | _ => false) = true := by decide +kernel
  have hp := exPlain
  rw [List.append_nil] at hp
  rw [show (fun n => exTimed.sends (2 + n)) = fun _ => IoOutcome.ok from rfl]
  rw [show exCtx.infoHash = exHash from rfl, hp]
  cases hx : (connect { exLink with crypto := .ok } exCtx false).2 with
  | ok size => exact ⟨size, rfl⟩
  | _ => rw [hx] at h; cases h

theorem exTimed_phase : connectPhase sha1 ⟨50, 60, 30⟩ (fun _ => exChances) (fun _ => exTimed) exCtx .encrypt = ([true], .connected true) :=
  phase_connects (chances := fun _ => exChances) (nets := fun _ => exTimed) exTimed_connects

example : exTimed.sentAt + 1000 * 30 ≤ 1000 * 60 :=
  encrypted_takes_time sha1 ⟨50, 60, 30⟩ (fun _ => exChances) (fun _ => exTimed) exCtx .encrypt (congrArg Prod.snd exTimed_phase)

/-- A configuration that sets only `handshake-timeout`, to 20 seconds, is accepted … -/
theorem exShort_read : (readConfig exHosts ⟨exNodes, 2⟩ [("peers".toList, .table [("handshake-timeout".toList, .int 20)])]).map Config.peers =
    some ⟨30, 20, 30⟩ := by decide +kernel

/-- … and then nothing is ever encrypted. -/
example (chances nets ctx mode) : (connectPhase sha1 ⟨30, 20, 30⟩ chances nets ctx mode).2 ≠ .connected true :=
  (never_encrypted sha1 ⟨30, 20, 30⟩ (by decide) chances nets ctx mode).1

/-- The same peer, with that configuration: it is given up after 20 seconds. -/
example (nets : Nat → TimedNet) (h : nets 0 = exTimed) :
    connectPhase sha1 ⟨30, 20, 30⟩ (fun _ => exChances) nets exCtx .prefer = ([true], .failed .connectTimeout) :=
  no_fallback_in_time sha1 ⟨30, 20, 30⟩ (fun _ => exChances) nets exCtx .prefer (by decide) (by rw [h]; simp [exTimed]) (by simp [exChances])
    (by rw [h]; exact ⟨rfl, by simp [exTimed], rfl, by simp [exTimed]⟩) (by
      rw [h]
      intro a ha hle
      simp only [exTimed, List.mem_cons, List.not_mem_nil, or_false] at ha
      rcases ha with rfl | rfl | rfl | rfl
      · refine ⟨_, ?_, rfl⟩
        intro hn
        have := (sent_exactly 2 7).1
        rw [hn] at this
        simp at this
      · exact ⟨[9], by simp, rfl⟩
      · simp at hle
      · simp at hle)

/-- A peer that says nothing, and then one that does not understand encryption. -/
def exSilentThenPlain : Nat → TimedNet
  | 0 => ⟨.ok, 100, 200, [], fun _ => .ok⟩
  | _ => ⟨.ok, 100, 0, [(300, .data exLink.incoming)], fun _ => .ok⟩

example : connectPhase sha1 ⟨50, 60, 30⟩ (fun _ => exChances) exSilentThenPlain exCtx .prefer =
    ([true, false], (connectPhase sha1 ⟨50, 60, 30⟩ (fun _ => exChances) (fun _ => exSilentThenPlain 1) exCtx .plain).2) :=
  (silent_falls_back sha1 ⟨50, 60, 30⟩ (fun _ => exChances) exSilentThenPlain exCtx (by simp [exSilentThenPlain]) (by simp [exChances])
    ⟨rfl, by simp [exSilentThenPlain], rfl, by simp [exSilentThenPlain]⟩ (by intro a ha; cases ha)).1

example : (match (connectPhase sha1 ⟨50, 60, 30⟩ (fun _ => exChances) (fun _ => exSilentThenPlain 1) exCtx .plain).2 with
    | .connected false => true | _ => false) = true := by decide +kernel

end examples

end Demag.Props
