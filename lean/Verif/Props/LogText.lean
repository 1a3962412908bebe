import Verif.Spec.LogText
import Verif.Model.LogText
import Verif.Props.Query
import Verif.Props.UrlPrint
import Verif.Props.Display

/-! # C72: what comes from outside cannot forge the log -/

namespace Demag.Props

open Spec

/-- All characters of the text can be shown. -/
def AllShown (p : Char → Bool) (t : Text) : Prop := ∀ c ∈ t, Shown p c

theorem shown_ascii {p : Char → Bool} {t : Text} (h : ∀ c ∈ t, 0x20 ≤ c.toNat ∧ c.toNat ≤ 0x7E) : AllShown p t :=
  fun c hc => .inl (h c hc)

theorem shown_ascii' {p : Char → Bool} {t : Text} (h : ∀ c ∈ t, ' ' ≤ c ∧ c ≤ '~') : AllShown p t :=
  fun c hc => .inl (h c hc)

theorem shown_nil {p : Char → Bool} : AllShown p [] := fun c hc => by cases hc

theorem shown_append {p : Char → Bool} {s t : Text} (hs : AllShown p s) (ht : AllShown p t) : AllShown p (s ++ t) := by
  intro c hc
  rcases List.mem_append.1 hc with h | h
  · exact hs c h
  · exact ht c h

theorem shown_cons {p : Char → Bool} {c : Char} {t : Text} (h : 0x20 ≤ c.toNat ∧ c.toNat ≤ 0x7E) (ht : AllShown p t) : AllShown p (c :: t) := by
  intro d hd
  rcases List.mem_cons.1 hd with rfl | hd
  · exact .inl h
  · exact ht d hd

theorem shown_flatMap {α : Type} {p : Char → Bool} {l : List α} {f : α → Text} (h : ∀ a ∈ l, AllShown p (f a)) : AllShown p (l.flatMap f) := by
  intro c hc
  obtain ⟨a, ha, hc⟩ := List.mem_flatMap.1 hc
  exact h a ha c hc

theorem shown_decimal {p : Char → Bool} (n : Nat) : AllShown p (decimal n) :=
  shown_ascii' fun c hc => ipChar_ascii (.inl ((decimal_isDecimal n).2.1 c hc))

theorem shown_hexNat {p : Char → Bool} (n : Nat) : AllShown p (hexNat n) :=
  shown_ascii' fun c hc => ipChar_ascii (hexNat_chars n c hc)

theorem shown_ipText {p : Char → Bool} (a : IpAddr) : AllShown p (ipText a) :=
  shown_ascii' fun c hc => ipChar_ascii (ipText_chars a c hc)

theorem shown_sockText {p : Char → Bool} (a : SockAddr) : AllShown p (sockText a) := shown_ascii' (sockText_ascii a)

theorem hexChar_range : ∀ d, d < 16 → 0x20 ≤ (hexChar d).toNat ∧ (hexChar d).toNat ≤ 0x7E := by decide

theorem shown_hexByte {p : Char → Bool} (b : UInt8) : AllShown p (hexByte b) := by
  have := b.toNat_lt
  exact shown_cons (hexChar_range _ (by omega)) (shown_cons (hexChar_range _ (Nat.mod_lt _ (by omega))) shown_nil)

theorem shown_infoHash {p : Char → Bool} (h : InfoHash) : AllShown p h.displayText := by
  refine shown_ascii ?_
  intro c hc
  rw [InfoHash.displayText, List.mem_map] at hc
  obtain ⟨b, hb, rfl⟩ := hc
  rw [InfoHash.display, List.mem_flatMap] at hb
  obtain ⟨a, -, hb⟩ := hb
  have key : ∀ d, d < 16 → 0x20 ≤ (Char.ofNat (hexNibble d).toNat).toNat ∧ (Char.ofNat (hexNibble d).toNat).toNat ≤ 0x7E := by decide
  have := a.toNat_lt
  simp only [List.mem_cons, List.not_mem_nil, or_false] at hb
  rcases hb with rfl | rfl
  · exact key _ (by omega)
  · exact key _ (Nat.mod_lt _ (by omega))

theorem shown_replicate {p : Char → Bool} (n : Nat) {c : Char} (h : 0x20 ≤ c.toNat ∧ c.toNat ≤ 0x7E) : AllShown p (List.replicate n c) := by
  intro d hd
  rw [List.eq_of_mem_replicate hd]
  exact .inl h

/-! ### Quoting -/

theorem shown_debugChar (p : Char → Bool) (c : Char) : AllShown p (debugChar p c) := by
  unfold debugChar
  split
  · exact shown_ascii (by decide)
  split
  · exact shown_ascii (by decide)
  split
  · exact shown_ascii (by decide)
  split
  · exact shown_ascii (by decide)
  split
  · exact shown_ascii (by decide)
  split
  · exact shown_ascii (by decide)
  split
  · rename_i h
    intro d hd
    rw [List.mem_singleton.1 hd]
    exact .inr h
  · unfold escapeUnicode
    exact shown_cons (by decide) (shown_cons (by decide) (shown_cons (by decide) (shown_append (shown_hexNat _) (shown_ascii (by decide)))))

theorem shown_debugText (p : Char → Bool) (s : Text) : AllShown p (debugText p s) :=
  shown_cons (by decide) (shown_append (shown_flatMap fun c _ => shown_debugChar p c) (shown_ascii (by decide)))

theorem shown_debugByte {p : Char → Bool} (b : UInt8) : AllShown p (debugByte b) := by
  unfold debugByte
  split
  · exact shown_ascii (by decide)
  split
  · exact shown_ascii (by decide)
  split
  · exact shown_ascii (by decide)
  split
  · rename_i h
    rcases h with rfl | rfl <;> exact shown_ascii (by decide)
  split
  · exact shown_ascii (by decide)
  split
  · rename_i h
    have key : ∀ n : Fin 128, 0x20 ≤ n.val → n.val < 0x7f → 0x20 ≤ (Char.ofNat n.val).toNat ∧ (Char.ofNat n.val).toNat ≤ 0x7E := by decide
    refine shown_ascii ?_
    intro c hc
    rw [List.mem_singleton.1 hc]
    exact key ⟨b.toNat, by omega⟩ h.1 h.2
  · exact shown_cons (by decide) (shown_cons (by decide) (shown_hexByte b))

theorem shown_debugBytes {p : Char → Bool} (bs : Bytes) : AllShown p (debugBytes bs) :=
  shown_cons (by decide) (shown_cons (by decide) (shown_append (shown_flatMap fun b _ => shown_debugByte b) (shown_ascii (by decide))))

theorem shown_hexAlt {p : Char → Bool} (n : Nat) : AllShown p (hexAlt n) := shown_cons (by decide) (shown_cons (by decide) (shown_hexNat n))

theorem shown_hexAlt4 {p : Char → Bool} (n : Nat) : AllShown p (hexAlt4 n) :=
  shown_append (shown_replicate _ (by decide)) (shown_hexAlt n)

theorem shown_hexAlt18 {p : Char → Bool} (n : Nat) : AllShown p (hexAlt18 n) :=
  shown_cons (by decide) (shown_cons (by decide) (shown_append (shown_replicate _ (by decide)) (shown_hexNat n)))

/-! ### Displays -/

theorem shown_commaLoop {p : Char → Bool} (first : Bool) (vs : List Text) (h : ∀ v ∈ vs, AllShown p v) : AllShown p (commaLoop first vs).2 := by
  induction vs generalizing first with
  | nil => exact shown_nil
  | cons v vs ih =>
    refine shown_append (shown_append ?_ (h v (by simp))) (ih false fun w hw => h w (by simp [hw]))
    split
    · exact shown_ascii (by decide)
    · exact shown_nil

theorem shown_commaList {p : Char → Bool} (vs : List Text) (h : ∀ v ∈ vs, AllShown p v) : AllShown p (commaList vs) := by
  refine shown_append (shown_commaLoop true vs h) ?_
  split
  · exact shown_ascii (by decide)
  · exact shown_nil

theorem shown_peer {p : Char → Bool} (x : Peer) : AllShown p x.text :=
  shown_append (shown_append (shown_ascii (by decide)) (shown_sockText _)) (shown_ascii (by decide))

theorem shown_extensions {p : Char → Bool} (s : ExtensionSet) : AllShown p s.text := by
  refine shown_commaList _ ?_
  intro v hv
  rcases List.mem_append.1 hv with hv | hv
  · obtain ⟨e, -, rfl⟩ := List.mem_map.1 hv
    cases e <;> exact shown_ascii (by decide)
  · split at hv
    · rw [List.mem_singleton.1 hv]
      exact shown_append (shown_append (shown_ascii (by decide)) (shown_hexAlt18 _)) (shown_ascii (by decide))
    · cases hv

theorem shown_handshake {p : Char → Bool} (h : Handshake) : AllShown p h.text :=
  shown_append (shown_append (shown_append (shown_append (shown_ascii (by decide)) (shown_extensions _)) (shown_ascii (by decide)))
    (shown_debugBytes _)) (shown_ascii (by decide))

/-- Concatenations of literals and of texts known to be shown. -/
macro "shown" : tactic => `(tactic| repeat' (first
  | with_reducible apply shown_append
  | with_reducible assumption
  | with_reducible exact shown_decimal _ | with_reducible exact shown_hexAlt _ | with_reducible exact shown_hexAlt4 _
  | with_reducible exact shown_infoHash _ | with_reducible exact shown_peer _ | with_reducible exact shown_ipText _
  | with_reducible exact shown_sockText _ | with_reducible exact shown_debugText _ _ | with_reducible exact shown_handshake _
  | exact shown_ascii (by decide)))

theorem shown_core {p : Char → Bool} (m : CoreMessage) : AllShown p m.text := by
  cases m <;> (unfold CoreMessage.text; shown)

theorem shown_opt {α : Type} {p : Char → Bool} {f : α → Text} (h : ∀ a, AllShown p (f a)) (o : Option α) : AllShown p (optText f o) := by
  cases o with
  | none => exact shown_nil
  | some a => exact h a

theorem shown_extended (p : Char → Bool) (s : ExtendedHandshake) : AllShown p (s.text p) := by
  unfold ExtendedHandshake.text
  refine shown_append (shown_append (shown_append (shown_append (shown_append ?_ ?_) (shown_opt ?_ _)) (shown_opt ?_ _)) (shown_opt ?_ _))
    (shown_opt ?_ _)
  · shown
  · split
    · refine shown_append (shown_ascii (by decide)) (shown_commaList _ ?_)
      intro v hv
      obtain ⟨kv, -, rfl⟩ := List.mem_map.1 hv
      exact shown_debugText p _
    · shown
  · intro a; cases a <;> (unfold preferText; shown)
  · intro v; shown
  · intro n; shown
  · intro a; shown

theorem shown_metadata {p : Char → Bool} (m : MetadataMessage) : AllShown p m.text := by
  cases m <;> (unfold MetadataMessage.text; shown)

theorem shown_message (p : Char → Bool) (m : Message) : AllShown p (m.text p) := by
  match m with
  | .core m => exact shown_core m
  | .extended (.handshake s) => exact shown_extended p s
  | .extended (.metadata m) => exact shown_metadata m

theorem shown_magnet (p : Char → Bool) (m : Magnet) : AllShown p (m.text p) := by
  unfold Magnet.text
  split <;> shown

theorem shown_node {p : Char → Bool} (a : SockAddr) (k : Option Node) : AllShown p (nodeDisplay a k) := by
  cases k with
  | none => unfold nodeDisplay; shown
  | some n =>
    unfold nodeDisplay
    have : AllShown p n.id.text := shown_flatMap fun b _ => shown_hexByte b
    shown

theorem shown_errorResponse (p : Char → Bool) (e : ErrorResponse) : AllShown p (e.text p) := by
  unfold ErrorResponse.text
  have : AllShown p e.code.text := by cases e.code <;> (unfold ErrorCode.text; shown)
  shown

/-! ### Errors -/

/-- All messages of a chain of errors can be shown. -/
def ErrShown (p : Char → Bool) : Err → Prop
  | .leaf m => AllShown p m
  | .caused m s => AllShown p m ∧ ErrShown p s

theorem shown_sources {p : Char → Bool} (e : Err) (h : ErrShown p e) : AllShown p (sourcesLoop e) := by
  induction e with
  | leaf m => exact shown_append (shown_ascii (by decide)) h
  | caused m s ih => exact shown_append (shown_append (shown_ascii (by decide)) h.1) (ih h.2)

theorem shown_errMessage {p : Char → Bool} (e : Err) (h : ErrShown p e) : AllShown p e.message := by
  cases e with
  | leaf m => exact h
  | caused m s => exact h.1

theorem shown_chain {p : Char → Bool} (e : Err) (h : ErrShown p e) : AllShown p (errorChain e) := by
  cases e with
  | leaf m => exact shown_append h shown_nil
  | caused m s => exact shown_append h.1 (shown_sources s h.2)

/-- The texts of errors from elsewhere can be shown. -/
structure EnvShown (env : LogEnv) : Prop where
  io : ErrShown env.plain env.io
  bendy : ErrShown env.plain env.bendy
  url : ErrShown env.plain env.url
  decoding : ErrShown env.plain env.decoding
  reqwest : ErrShown env.plain env.reqwest

theorem shown_packetError {p : Char → Bool} (e : PacketError) : ErrShown p e.err := by
  cases e <;> exact shown_ascii (by decide)

theorem shown_unbencode {env : LogEnv} (h : EnvShown env) (e : UnbencodeError) : ErrShown env.plain (e.err env) := by
  cases e
  · exact h.bendy
  all_goals exact shown_ascii (by decide)

theorem shown_messageError {env : LogEnv} (h : EnvShown env) (e : MessageError) : ErrShown env.plain (e.err env) := by
  cases e with
  | unknown t => show AllShown _ _; shown
  | length t e => exact ⟨by shown, shown_packetError e⟩
  | unknownExtended i => show AllShown _ _; shown
  | extendedHandshake e => exact ⟨by shown, shown_unbencode h e⟩
  | metadata e => exact ⟨by shown, shown_unbencode h e⟩

theorem shown_registry {p : Char → Bool} (e : RegistryError Bep10Extension) : ErrShown p (registryErr e) := by
  cases e with
  | handshake => show AllShown _ _; shown
  | code c => show AllShown _ _; shown
  | ext e => cases e; show AllShown _ _; shown

theorem shown_mse {env : LogEnv} (h : EnvShown env) (e : MseError) : ErrShown env.plain (e.err env) := by
  cases e with
  | send => exact ⟨by shown, h.io⟩
  | recv => exact ⟨by shown, h.io⟩
  | unexpectedSelection m => cases m <;> (show AllShown _ _; unfold CryptoMethod.debug; shown)
  | _ => show AllShown _ _; shown

theorem shown_build {p : Char → Bool} (e : BuildError) : ErrShown p e.err := by
  cases e with
  | bencode e => cases e <;> (show AllShown _ _; shown)
  | notFinished n => show AllShown _ _; shown
  | digest e g =>
    show AllShown _ _
    have : AllShown p (g.flatMap hexByte) := shown_flatMap fun b _ => shown_hexByte b
    shown

theorem shown_peerError {env : LogEnv} (h : EnvShown env) (mse : MseError) (e : PeerError) : ErrShown env.plain (e.err env mse) := by
  cases e with
  | connect => exact ⟨by shown, h.io⟩
  | send => exact ⟨by shown, h.io⟩
  | recv s => exact ⟨by shown, h.io⟩
  | handshake e =>
    cases e with
    | invalidHeader => show AllShown _ _; shown
    | length e => exact ⟨by shown, shown_packetError e⟩
  | cryptoHandshake => exact shown_mse h mse
  | message e => exact ⟨by shown, shown_messageError h e⟩
  | registry e => exact ⟨by shown, shown_registry e⟩
  | infoConstruct e => cases e <;> first | exact shown_nil | (show AllShown _ _; shown)
  | infoPush e => cases e <;> first | exact shown_nil | (show AllShown _ _; shown)
  | infoBuild e => exact ⟨by shown, shown_build e⟩
  | unexpected m =>
    have := shown_message env.plain m
    show AllShown _ _
    shown
  | _ => show AllShown _ _; shown

theorem shown_udpError {env : LogEnv} (h : EnvShown env) (e : UdpError) : ErrShown env.plain (e.err env) := by
  cases e with
  | send => exact ⟨by shown, h.io⟩
  | recv => exact ⟨by shown, h.io⟩
  | packetLen e => exact ⟨by shown, shown_packetError e⟩
  | _ => show AllShown _ _; shown

theorem shown_httpError {env : LogEnv} (h : EnvShown env) (e : HttpError) : ErrShown env.plain (e.err env) := by
  cases e with
  | parseResponse e => exact ⟨by shown, shown_unbencode h e⟩
  | failure m => show AllShown _ _; shown
  | _ => exact ⟨by shown, h.reqwest⟩

theorem shown_askError {env : LogEnv} (h : EnvShown env) (e : AskError) : ErrShown env.plain (e.err env) := by
  cases e with
  | noResolve => show AllShown _ _; shown
  | buildClient => exact ⟨by shown, h.reqwest⟩
  | udp e => exact shown_udpError h e
  | http e => exact shown_httpError h e
  | _ => exact ⟨by shown, h.io⟩

theorem shown_getter {env : LogEnv} (h : EnvShown env) (e : GetterError AskError) : ErrShown env.plain (getterErr env e) := by
  cases e with
  | timeout => show AllShown _ _; shown
  | inner e => exact shown_askError h e

theorem shown_magnetError {env : LogEnv} (h : EnvShown env) (e : MagnetError) : ErrShown env.plain (e.err env) := by
  cases e with
  | url => exact ⟨by shown, h.url⟩
  | invalidXt e =>
    refine ⟨by shown, ?_⟩
    cases e with
    | infoHash e =>
      refine ⟨by shown, ?_⟩
      cases e with
      | invalidLength n => show AllShown _ _; shown
      | _ => exact ⟨by shown, h.decoding⟩
    | _ => show AllShown _ _; shown
  | invalidTracker e =>
    refine ⟨by shown, ?_⟩
    cases e with
    | url => exact ⟨by shown, h.url⟩
    | _ => show AllShown _ _; shown
  | _ => show AllShown _ _; shown

theorem shown_magnetsError {env : LogEnv} (h : EnvShown env) (e : MagnetsFileError) : ErrShown env.plain (e.err env) := by
  cases e with
  | read => exact ⟨by shown, h.io⟩
  | parse n e => exact ⟨by shown, shown_magnetError h e⟩

theorem shown_responseError {env : LogEnv} (h : EnvShown env) (e : ResponseError) : ErrShown env.plain (e.err env) := by
  cases e with
  | bencode e => exact ⟨by shown, shown_unbencode h e⟩
  | rpc e => exact ⟨by shown, shown_errorResponse _ e⟩
  | query => show AllShown _ _; shown

theorem shown_download {env : LogEnv} (h : EnvShown env) (e : DownloadFailure) : ErrShown env.plain (e.err env) := by
  cases e with
  | save => exact ⟨by shown, h.io⟩
  | nothingFromPeers => show AllShown _ _; shown
  | dhtCreate => exact ⟨by shown, by shown, by shown, h.io⟩
  | dhtDown => refine ⟨by shown, ?_⟩; show AllShown _ _; shown

/-! ### The messages -/

/-- A tracker that the code has accepted (from a magnet link or the command line). -/
def Accepted (t : Tracker) : Prop := ∃ env s, IdnaOk env.idna ∧ Tracker.parse (urlParse env) s = .ok t

theorem visible_shown {p : Char → Bool} {t : Text} (h : ∀ c ∈ t, Visible c) : AllShown p t :=
  shown_ascii fun c hc => by have := h c hc; unfold Visible at this; omega

theorem shown_tracker {env : LogEnv} (h : EnvShown env) {t : Tracker} (ht : Accepted t) : AllShown env.plain t.text := by
  cases t with
  | http u =>
    obtain ⟨uenv, s, hi, hs⟩ := ht
    have : AllShown env.plain u.text := visible_shown (plain_visible (http_plain hi hs))
    unfold Tracker.text
    shown
  | udp u =>
    obtain ⟨uenv, s, -, hs⟩ := ht
    have : AllShown env.plain u.display := visible_shown (display_chars (tracker_plain hs))
    unfold Tracker.text
    shown

theorem shown_udpHost {p : Char → Bool} {u : UdpUrl} (ht : Accepted (.udp u)) : AllShown p u.host := by
  obtain ⟨uenv, s, -, hs⟩ := ht
  refine visible_shown fun c hc => ?_
  have hh := (tracker_plain hs).host
  refine (hostPart_chars hh c ?_).1
  unfold hostPart
  split
  · simp [hc]
  · exact hc

theorem shown_udpStep {p : Char → Bool} (n : Fin 5) {t : Text} (h : AllShown p t) : AllShown p (udpStepText n t) := by
  unfold udpStepText; split <;> shown

theorem shown_peerStep {p : Char → Bool} (n : Fin 6) {t : Text} (h : AllShown p t) : AllShown p (peerStepText n t) := by
  unfold peerStepText; split <;> shown

theorem shown_ignored {env : LogEnv} (h : EnvShown env) (n : Fin 3) {t : Text} (ht : AllShown env.plain t) :
    AllShown env.plain (dhtIgnoredText env n t) := by
  have := shown_errMessage _ h.bendy
  unfold dhtIgnoredText; split <;> shown

/-- **C72.** Whatever a magnet link, a tracker, a peer or a DHT node has said: every message of the log that speaks of it consists of printable
ASCII characters and of characters that the standard library takes for printable. -/
theorem log_shown {env : LogEnv} (h : EnvShown env) (l : LogLine) (ht : ∀ t ∈ l.trackers, Accepted t) :
    ∀ c ∈ l.text env, Shown env.plain c := by
  have hm := shown_magnet env.plain
  show AllShown _ _
  cases l with
  | fetching m => have := hm m; unfold LogLine.text; shown
  | trackerFailed t m e =>
    have := hm m; have := shown_tracker h (ht t (by simp [LogLine.trackers])); have := shown_chain _ (shown_getter h e)
    unfold LogLine.text; shown
  | peerFailed m p e mse => have := hm m; have := shown_chain _ (shown_peerError h mse e); unfold LogLine.text; shown
  | badMagnets e => have := shown_chain _ (shown_magnetsError h e); unfold LogLine.text; shown
  | getFailed e => have := shown_chain _ (shown_download h e); unfold LogLine.text; shown
  | batchFailed m e => have := hm m; have := shown_chain _ (shown_download h e); unfold LogLine.text; shown
  | queryFailed e => have := shown_chain _ (shown_getter h e); unfold LogLine.text; shown
  | fetchFailed e mse => have := shown_chain _ (shown_peerError h mse e); unfold LogLine.text; shown
  | requestingPeers m t => have := hm m; have := shown_tracker h (ht t (by simp [LogLine.trackers])); unfold LogLine.text; shown
  | returnedCount t m ps => have := hm m; have := shown_tracker h (ht t (by simp [LogLine.trackers])); unfold LogLine.text; shown
  | returned t m ps =>
    have := hm m; have := shown_tracker h (ht t (by simp [LogLine.trackers]))
    have : AllShown env.plain (commaList (ps.map Peer.text)) := by
      refine shown_commaList _ fun v hv => ?_
      obtain ⟨q, -, rfl⟩ := List.mem_map.1 hv
      exact shown_peer q
    unfold LogLine.text; shown
  | stopCancelled t m => have := hm m; have := shown_tracker h (ht t (by simp [LogLine.trackers])); unfold LogLine.text; shown
  | stopFailed t m e =>
    have := hm m; have := shown_tracker h (ht t (by simp [LogLine.trackers])); have := shown_chain _ (shown_askError h e)
    unfold LogLine.text; shown
  | announcing e t m =>
    have := hm m; have := shown_tracker h (ht t (by simp [LogLine.trackers]))
    have : AllShown env.plain (eventWord e) := by cases e <;> exact shown_ascii (by decide)
    unfold LogLine.text; shown
  | warned t m msg => have := hm m; have := shown_tracker h (ht t (by simp [LogLine.trackers])); unfold LogLine.text; shown
  | udpStep n u =>
    exact shown_udpStep n (shown_tracker h (ht (.udp u) (by simp [LogLine.trackers])))
  | udpConnected u a => have := shown_udpHost (p := env.plain) (ht (.udp u) (by simp [LogLine.trackers])); unfold LogLine.text; shown
  | requestingInfo m p => have := hm m; unfold LogLine.text; shown
  | encryptionFailed p mse => have := shown_chain _ (shown_mse h mse); unfold LogLine.text; shown
  | peerStep n p => exact shown_peerStep n (shown_peer p)
  | selected p c => unfold LogLine.text; cases c <;> (unfold CryptoMethod.debug; shown)
  | sendingPacket n p => unfold LogLine.text; shown
  | gotHandshake p s => unfold LogLine.text; shown
  | sending p m => have := shown_message env.plain m; unfold LogLine.text; shown
  | received p m => have := shown_message env.plain m; unfold LogLine.text; shown
  | rejecting i p => unfold LogLine.text; shown
  | gotMetadata m p => have := hm m; unfold LogLine.text; shown
  | querySendFailed a => have := shown_errMessage _ h.io; unfold LogLine.text; shown
  | dhtIgnored n a => exact shown_ignored h n (shown_sockText a)
  | nodeReplied a k r ih => have := shown_node (p := env.plain) a k; unfold LogLine.text; shown
  | nodeError a k e => have := shown_node (p := env.plain) a k; have := shown_errorResponse env.plain e; unfold LogLine.text; shown
  | nodeInvalid a k e =>
    have := shown_node (p := env.plain) a k; have := shown_chain _ (shown_responseError h e); unfold LogLine.text; shown
  | nodeTimeout a k => have := shown_node (p := env.plain) a k; unfold LogLine.text; shown
  | nodeQuery a k ih => have := shown_node (p := env.plain) a k; unfold LogLine.text; shown
  | dhtFound ps ih => unfold LogLine.text; shown

end Demag.Props
