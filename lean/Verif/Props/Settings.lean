import Mathlib.Data.List.Forall2
import Verif.Props.Config
import Verif.Model.Settings

/-!
# C60: the configuration file
-/

namespace Demag.Props

open Demag Spec

theorem allSome_iff {α β : Type} (f : α → Option β) (l : List α) (bs : List β) :
    allSome (l.map f) = some bs ↔ List.Forall₂ (fun a b => f a = some b) l bs := by
  induction l generalizing bs with
  | nil =>
    simp only [List.map_nil, allSome, Option.some.injEq]
    constructor
    · rintro rfl; exact .nil
    · rintro ⟨⟩; rfl
  | cons a l ih =>
    rw [List.map_cons]
    cases hf : f a with
    | none =>
      simp only [allSome, reduceCtorEq, false_iff]
      rintro (_ | ⟨h, -⟩)
      rw [hf] at h; cases h
    | some b =>
      simp only [allSome, Option.map_eq_some_iff]
      constructor
      · rintro ⟨bs', h1, rfl⟩; exact .cons hf ((ih _).1 h1)
      · rintro (_ | ⟨h, ht⟩)
        rw [hf] at h; cases h
        exact ⟨_, (ih _).2 ht, rfl⟩

theorem readRange_iff (lo hi : Nat) (v : Toml) (n : Nat) : readRange lo hi v = some n ↔ Number lo hi v n := by
  unfold readRange Number
  cases v with
  | int i =>
    simp only [Toml.int.injEq]
    constructor
    · intro h
      split at h
      · rename_i hc
        simp only [Option.some.injEq] at h
        omega
      · cases h
    · rintro ⟨rfl, h1, h2⟩
      rw [if_pos (by omega)]; simp
  | _ => simp

theorem readPreference_iff (v : Toml) (p : CryptoPreference) : readPreference v = some p ↔ Preference v p := by
  unfold readPreference Preference
  cases v with
  | str s =>
    simp only [Toml.str.injEq]
    constructor
    · intro h
      repeat (split at h; · (rename_i hs; cases h; exact hs))
      cases h
    · rintro rfl
      cases p <;> decide
  | _ => simp

theorem readLocalPort_iff (v : Toml) (p : LocalPort) : readLocalPort v = some p ↔ Port v p := by
  cases v with
  | int i =>
    simp only [readLocalPort, local_port_int]
    cases p with
    | constant q =>
      simp only [Port, LocalPort.constant.injEq, Toml.int.injEq, reduceCtorEq, false_and, exists_false, or_false]
      constructor
      · rintro ⟨_, rfl, h⟩; exact h
      · intro h; exact ⟨q, rfl, h⟩
    | range low high => simp [Port]
  | str s =>
    cases p with
    | constant q =>
      simp only [readLocalPort, local_port_constant, Port, reduceCtorEq, false_or, Toml.str.injEq]
      constructor
      · intro h; exact ⟨s, rfl, h⟩
      · rintro ⟨_, rfl, h⟩; exact h
    | range low high =>
      simp only [readLocalPort, local_port_range, Port, Toml.str.injEq]
      constructor
      · rintro ⟨pre, post, a, b, h⟩; exact ⟨s, pre, post, a, b, rfl, h⟩
      · rintro ⟨_, pre, post, a, b, rfl, h⟩; exact ⟨pre, post, a, b, h⟩
  | _ => cases p <;> simp [readLocalPort, Port]

theorem readInetAddr_iff (parseHost : Text → Option Host) (v : Toml) (a : InetAddr) :
    readInetAddr parseHost v = some a ↔ ∃ t, v = .str t ∧ AddressText (fun t h => parseHost t = some h) t a := by
  cases v with
  | str s =>
    simp only [readInetAddr, inet_parse, AddressText, Toml.str.injEq]
    constructor
    · intro h; exact ⟨s, rfl, h⟩
    · rintro ⟨_, rfl, h⟩; exact h
  | _ => simp [readInetAddr]

theorem readInetAddrs_iff (parseHost : Text → Option Host) (v : Toml) (as : List InetAddr) :
    readInetAddrs parseHost v = some as ↔ Addresses (fun t h => parseHost t = some h) v as := by
  unfold Addresses
  cases v with
  | arr l =>
    have h1 : readInetAddrs parseHost (.arr l) = some as ↔ as ≠ [] ∧ allSome (l.map (readInetAddr parseHost)) = some as := by
      simp only [readInetAddrs]
      generalize allSome (l.map (readInetAddr parseHost)) = r
      match r with
      | none => simp
      | some [] => simp only [reduceCtorEq, false_iff]; rintro ⟨h, h'⟩; cases h'; exact h rfl
      | some (a :: as') =>
        simp only [Option.some.injEq]
        constructor
        · rintro rfl; exact ⟨by simp, rfl⟩
        · rintro ⟨-, h⟩; exact h
    rw [h1, allSome_iff]
    refine and_congr_right fun hx => ?_
    simp only [readInetAddr_iff, Toml.arr.injEq]
    clear h1 hx
    constructor
    · intro h
      induction h with
      | nil => exact ⟨[], rfl, .nil⟩
      | cons h _ ih =>
        obtain ⟨t, rfl, ht⟩ := h
        obtain ⟨ts, rfl, hts⟩ := ih
        exact ⟨t :: ts, rfl, .cons ht hts⟩
    · rintro ⟨ts, rfl, h⟩
      induction h with
      | nil => exact .nil
      | cons h _ ih => exact .cons ⟨_, rfl, h⟩ ih
  | _ => simp [readInetAddrs]

theorem readOr_iff {α : Type} {read : Toml → Option α} {Means : Toml → α → Prop} (h : ∀ v x, read v = some x ↔ Means v x) (dflt x : α)
    (o : Option Toml) : readOr read dflt o = some x ↔ (match o with | none => x = dflt | some v => Means v x) := by
  cases o with
  | none => simp only [readOr, Option.some.injEq]; exact eq_comm
  | some v => exact h v x

theorem isSection_iff (t : Toml) : isSection t = true ↔ SectionLike t := by cases t <;> simp [isSection, SectionLike]

theorem setting_none {α : Type} {doc : List (Text × Toml)} {sect : String} (h : underKey sect.toList doc = none) (pos : Nat)
    (name : String) (Means : Toml → α → Prop) (dflt x : α) : Setting doc sect pos name Means dflt x ↔ x = dflt := by
  rw [Setting, h]

theorem setting_some {α : Type} {doc : List (Text × Toml)} {sect : String} {t : Toml} (h : underKey sect.toList doc = some t)
    {read : Toml → Option α} {Means : Toml → α → Prop} (hm : ∀ v x, read v = some x ↔ Means v x) (pos : Nat) (name : String) (dflt x : α) :
    Setting doc sect pos name Means dflt x ↔ isSection t = true ∧ readOr read dflt (givenIn t pos name.toList) = some x := by
  rw [readOr_iff hm, isSection_iff]
  unfold Setting
  rw [h]
  rfl

section
variable {doc : List (Text × Toml)}

theorem general_iff (g : GeneralConfig) : readOr readGeneral .dflt (underKey "general".toList doc) = some g ↔
    Setting doc "general" 0 "batch-jobs" (Number 1 (2 ^ 64 - 1)) 50 g.batchJobs ∧
    Setting doc "general" 1 "encrypt" Preference .prefer g.encrypt := by
  cases h : underKey "general".toList doc with
  | none =>
    simp only [setting_none h, readOr, Option.some.injEq]
    obtain ⟨a, b⟩ := g
    simp only [GeneralConfig.dflt, GeneralConfig.mk.injEq]
    constructor <;> (rintro ⟨rfl, rfl⟩; exact ⟨rfl, rfl⟩)
  | some t =>
    rw [setting_some h (readRange_iff _ _), setting_some h readPreference_iff]
    simp only [readOr, readGeneral]
    cases hs : isSection t with
    | false => simp
    | true =>
      simp only [if_true, Option.bind_eq_some_iff, Option.some.injEq, true_and, GeneralConfig.dflt]
      constructor
      · rintro ⟨a, ha, b, hb, rfl⟩; exact ⟨ha, hb⟩
      · rintro ⟨ha, hb⟩; exact ⟨_, ha, _, hb, rfl⟩

theorem trackers_iff (g : TrackersConfig) : readOr readTrackers .dflt (underKey "trackers".toList doc) = some g ↔
    Setting doc "trackers" 0 "local-port" Port (.range 1025 65535) g.localPort ∧
    Setting doc "trackers" 1 "numwant" (Number 1 (2 ^ 32 - 1)) 50 g.numwant ∧
    Setting doc "trackers" 2 "jobs-per-magnet" (Number 1 (2 ^ 64 - 1)) 30 g.jobsPerMagnet ∧
    Setting doc "trackers" 3 "announce-timeout" (Number 0 (2 ^ 64 - 1)) 30 g.announceTimeout ∧
    Setting doc "trackers" 4 "shutdown-timeout" (Number 0 (2 ^ 64 - 1)) 3 g.shutdownTimeout := by
  cases h : underKey "trackers".toList doc with
  | none =>
    simp only [setting_none h, readOr, Option.some.injEq]
    obtain ⟨a, b, c, d, e⟩ := g
    simp only [TrackersConfig.dflt, TrackersConfig.mk.injEq, LocalPort.dflt]
    constructor <;> (rintro ⟨rfl, rfl, rfl, rfl, rfl⟩; exact ⟨rfl, rfl, rfl, rfl, rfl⟩)
  | some t =>
    rw [setting_some h readLocalPort_iff, setting_some h (readRange_iff _ _), setting_some h (readRange_iff _ _),
      setting_some h (readRange_iff _ _), setting_some h (readRange_iff _ _)]
    simp only [readOr, readTrackers]
    cases hs : isSection t with
    | false => simp
    | true =>
      simp only [if_true, Option.bind_eq_some_iff, Option.some.injEq, true_and, TrackersConfig.dflt, LocalPort.dflt]
      constructor
      · rintro ⟨a, ha, b, hb, c, hc, d, hd, e, he, rfl⟩; exact ⟨ha, hb, hc, hd, he⟩
      · rintro ⟨ha, hb, hc, hd, he⟩; exact ⟨_, ha, _, hb, _, hc, _, hd, _, he, rfl⟩

theorem peers_iff (g : PeersConfig) : readOr readPeers .dflt (underKey "peers".toList doc) = some g ↔
    Setting doc "peers" 0 "jobs-per-magnet" (Number 1 (2 ^ 64 - 1)) 30 g.jobsPerMagnet ∧
    Setting doc "peers" 1 "handshake-timeout" (Number 0 (2 ^ 64 - 1)) 60 g.handshakeTimeout ∧
    Setting doc "peers" 2 "dh-exchange-timeout" (Number 0 (2 ^ 64 - 1)) 30 g.dhExchangeTimeout := by
  cases h : underKey "peers".toList doc with
  | none =>
    simp only [setting_none h, readOr, Option.some.injEq]
    obtain ⟨a, b, c⟩ := g
    simp only [PeersConfig.dflt, PeersConfig.mk.injEq]
    constructor <;> (rintro ⟨rfl, rfl, rfl⟩; exact ⟨rfl, rfl, rfl⟩)
  | some t =>
    rw [setting_some h (readRange_iff _ _), setting_some h (readRange_iff _ _), setting_some h (readRange_iff _ _)]
    simp only [readOr, readPeers]
    cases hs : isSection t with
    | false => simp
    | true =>
      simp only [if_true, Option.bind_eq_some_iff, Option.some.injEq, true_and, PeersConfig.dflt]
      constructor
      · rintro ⟨a, ha, b, hb, c, hc, rfl⟩; exact ⟨ha, hb, hc⟩
      · rintro ⟨ha, hb, hc⟩; exact ⟨_, ha, _, hb, _, hc, rfl⟩

theorem dht_iff (parseHost : Text → Option Host) (ns : List InetAddr) (g : DhtConfig) :
    readOr (readDht parseHost ⟨ns, 2⟩) ⟨ns, 2⟩ (underKey "dht".toList doc) = some g ↔
    Setting doc "dht" 0 "bootstrap-nodes" (Addresses fun t h => parseHost t = some h) ns g.bootstrapNodes ∧
    Setting doc "dht" 1 "query-timeout" (Number 0 (2 ^ 64 - 1)) 2 g.queryTimeout := by
  cases h : underKey "dht".toList doc with
  | none =>
    simp only [setting_none h, readOr, Option.some.injEq]
    obtain ⟨a, b⟩ := g
    simp only [DhtConfig.mk.injEq]
    constructor <;> (rintro ⟨rfl, rfl⟩; exact ⟨rfl, rfl⟩)
  | some t =>
    rw [setting_some h (readInetAddrs_iff parseHost), setting_some h (readRange_iff _ _)]
    simp only [readOr, readDht]
    cases hs : isSection t with
    | false => simp
    | true =>
      simp only [if_true, Option.bind_eq_some_iff, Option.some.injEq, true_and]
      constructor
      · rintro ⟨a, ha, b, hb, rfl⟩; exact ⟨ha, hb⟩
      · rintro ⟨ha, hb⟩; exact ⟨_, ha, _, hb, rfl⟩

end

/-- **C60.** A configuration file is accepted with the settings `cfg` iff each setting is what the file gives, or the default if the file
does not give it; so a value that is not of the kind demanded is refused, whatever else the file holds. -/
theorem config_settings (parseHost : Text → Option Host) (ns : List InetAddr) (doc : List (Text × Toml)) (cfg : Config) :
    readConfig parseHost ⟨ns, 2⟩ doc = some cfg ↔
      Setting doc "general" 0 "batch-jobs" (Number 1 (2 ^ 64 - 1)) 50 cfg.general.batchJobs ∧
      Setting doc "general" 1 "encrypt" Preference .prefer cfg.general.encrypt ∧
      Setting doc "trackers" 0 "local-port" Port (.range 1025 65535) cfg.trackers.localPort ∧
      Setting doc "trackers" 1 "numwant" (Number 1 (2 ^ 32 - 1)) 50 cfg.trackers.numwant ∧
      Setting doc "trackers" 2 "jobs-per-magnet" (Number 1 (2 ^ 64 - 1)) 30 cfg.trackers.jobsPerMagnet ∧
      Setting doc "trackers" 3 "announce-timeout" (Number 0 (2 ^ 64 - 1)) 30 cfg.trackers.announceTimeout ∧
      Setting doc "trackers" 4 "shutdown-timeout" (Number 0 (2 ^ 64 - 1)) 3 cfg.trackers.shutdownTimeout ∧
      Setting doc "peers" 0 "jobs-per-magnet" (Number 1 (2 ^ 64 - 1)) 30 cfg.peers.jobsPerMagnet ∧
      Setting doc "peers" 1 "handshake-timeout" (Number 0 (2 ^ 64 - 1)) 60 cfg.peers.handshakeTimeout ∧
      Setting doc "peers" 2 "dh-exchange-timeout" (Number 0 (2 ^ 64 - 1)) 30 cfg.peers.dhExchangeTimeout ∧
      Setting doc "dht" 0 "bootstrap-nodes" (Addresses fun t h => parseHost t = some h) ns cfg.dht.bootstrapNodes ∧
      Setting doc "dht" 1 "query-timeout" (Number 0 (2 ^ 64 - 1)) 2 cfg.dht.queryTimeout := by
  have : readConfig parseHost ⟨ns, 2⟩ doc = some cfg ↔
      readOr readGeneral .dflt (underKey "general".toList doc) = some cfg.general ∧
      readOr readTrackers .dflt (underKey "trackers".toList doc) = some cfg.trackers ∧
      readOr readPeers .dflt (underKey "peers".toList doc) = some cfg.peers ∧
      readOr (readDht parseHost ⟨ns, 2⟩) ⟨ns, 2⟩ (underKey "dht".toList doc) = some cfg.dht := by
    simp only [readConfig, Option.bind_eq_some_iff, Option.some.injEq]
    constructor
    · rintro ⟨a, ha, b, hb, c, hc, d, hd, rfl⟩; exact ⟨ha, hb, hc, hd⟩
    · rintro ⟨ha, hb, hc, hd⟩; exact ⟨_, ha, _, hb, _, hc, _, hd, rfl⟩
  rw [this, general_iff, trackers_iff, peers_iff, dht_iff]
  simp only [and_assoc]

theorem setting_pos {doc : List (Text × Toml)} {sect : String} {pos : Nat} {name : String} {hi dflt x : Nat} (hd : 1 ≤ dflt)
    (h : Setting doc sect pos name (Number 1 hi) dflt x) : 1 ≤ x := by
  unfold Setting at h
  split at h
  · omega
  · obtain ⟨-, h⟩ := h
    split at h
    · omega
    · exact h.2.1

/-- **C60.** Without bootstrap nodes in the file, these are used, in this order, with a query timeout of 2 seconds.  (If one of them could not be
read, the program would panic.) -/
theorem dht_default (parseHost : Text → Option Host) (dht : DhtConfig) : DhtConfig.dflt parseHost = some dht ↔
    dht.queryTimeout = 2 ∧ List.Forall₂ (fun s a => InetAddr.parse parseHost s = some a)
      ["dht.transmissionbt.com:6881".toList, "relay.pkarr.org:6881".toList, "router.bittorrent.com:6881".toList] dht.bootstrapNodes := by
  unfold DhtConfig.dflt
  rw [Option.map_eq_some_iff]
  constructor
  · rintro ⟨ns, h, rfl⟩
    exact ⟨rfl, (allSome_iff _ _ _).1 h⟩
  · rintro ⟨h1, h2⟩
    refine ⟨dht.bootstrapNodes, (allSome_iff _ _ _).2 h2, ?_⟩
    cases dht
    cases h1
    rfl

example := (dht_default (fun t => some (.domain t)) ⟨[⟨.domain "dht.transmissionbt.com".toList, 6881⟩, ⟨.domain "relay.pkarr.org".toList, 6881⟩,
  ⟨.domain "router.bittorrent.com".toList, 6881⟩], 2⟩).1 (by decide +kernel)

/-- **C60.** With every configuration file that is accepted, at least one magnet link, one tracker and one peer is worked on at a time, at least
one peer is asked for, at least one node is there to start from, and the port can be generated. -/
theorem config_usable (parseHost : Text → Option Host) (dht : DhtConfig) (hdht : DhtConfig.dflt parseHost = some dht)
    (doc : List (Text × Toml)) (cfg : Config) (h : readConfig parseHost dht doc = some cfg) :
    1 ≤ cfg.general.batchJobs ∧ 1 ≤ cfg.trackers.jobsPerMagnet ∧ 1 ≤ cfg.peers.jobsPerMagnet ∧
    1 ≤ cfg.trackers.numwant ∧ cfg.trackers.numwant < 2 ^ 32 ∧ cfg.dht.bootstrapNodes ≠ [] ∧
    ∀ low high, cfg.trackers.localPort = .range low high → low.toNat ≤ high.toNat := by
  unfold DhtConfig.dflt at hdht
  rw [Option.map_eq_some_iff] at hdht
  obtain ⟨ns, hns, rfl⟩ := hdht
  have hne : ns ≠ [] := by
    rintro rfl
    rw [allSome_iff] at hns
    cases hns
  obtain ⟨h1, -, h3, h4, h5, -, -, h8, -, -, h11, -⟩ := (config_settings parseHost ns doc cfg).1 h
  refine ⟨setting_pos (by omega) h1, setting_pos (by omega) h5, setting_pos (by omega) h8, setting_pos (by omega) h4, ?_, ?_, ?_⟩
  · unfold Setting at h4
    split at h4
    · omega
    · obtain ⟨-, h⟩ := h4
      split at h
      · omega
      · have := h.2.2; omega
  · unfold Setting at h11
    split at h11
    · rw [h11]; exact hne
    · obtain ⟨-, h⟩ := h11
      split at h
      · rw [h]; exact hne
      · exact h.1
  · intro low high hr
    rw [hr] at h3
    unfold Setting at h3
    split at h3
    · simp only [LocalPort.range.injEq] at h3; obtain ⟨rfl, rfl⟩ := h3; decide
    · obtain ⟨-, h⟩ := h3
      split at h
      · simp only [LocalPort.range.injEq] at h; obtain ⟨rfl, rfl⟩ := h; decide
      · obtain ⟨_, _, _, _, _, _, _, _, _, _, _, h⟩ := h; exact h

/-- **C60.** Settings and sections the program does not know change nothing: only what stands under the names above counts. -/
theorem config_unknown (parseHost : Text → Option Host) (dht : DhtConfig) (doc doc' : List (Text × Toml))
    (h : ∀ sect ∈ ["general", "trackers", "peers", "dht"], underKey sect.toList doc = underKey sect.toList doc') :
    readConfig parseHost dht doc = readConfig parseHost dht doc' := by
  unfold readConfig
  rw [h "general" (by simp), h "trackers" (by simp), h "peers" (by simp), h "dht" (by simp)]

/-! ### Examples: the files of the tests of src/config.rs -/

/-- Lower-case names are domains. -/
def exHosts (t : Text) : Option Host := some (.domain t)

def exNodes : List InetAddr :=
  [⟨.domain "dht.transmissionbt.com".toList, 6881⟩, ⟨.domain "relay.pkarr.org".toList, 6881⟩, ⟨.domain "router.bittorrent.com".toList, 6881⟩]

example : DhtConfig.dflt exHosts = some ⟨exNodes, 2⟩ := by decide +kernel

/-- src/config.rs:361-365. -/
example : readConfig exHosts ⟨exNodes, 2⟩ [] = some (Config.dflt ⟨exNodes, 2⟩) := rfl

/-- A file with all settings: src/config.rs:484-532. -/
def exFull : List (Text × Toml) :=
  [("general".toList, .table [("batch-jobs".toList, .int 100), ("encrypt".toList, .str "if-required".toList)]),
   ("trackers".toList, .table [("announce-timeout".toList, .int 45), ("jobs-per-magnet".toList, .int 42),
      ("local-port".toList, .str "10000-65535".toList), ("numwant".toList, .int 75), ("shutdown-timeout".toList, .int 5)]),
   ("peers".toList, .table [("dh-exchange-timeout".toList, .int 10), ("handshake-timeout".toList, .int 120), ("jobs-per-magnet".toList, .int 23)]),
   ("dht".toList, .table [("bootstrap-nodes".toList, .arr [.str "router.example.com:6881".toList]), ("query-timeout".toList, .int 15)])]

theorem exFull_read : readConfig exHosts ⟨exNodes, 2⟩ exFull = some ⟨⟨100, .ifRequired⟩, ⟨.range 10000 65535, 75, 42, 45, 5⟩, ⟨23, 120, 10⟩,
    ⟨[⟨.domain "router.example.com".toList, 6881⟩], 15⟩⟩ := by decide +kernel

example := config_usable exHosts ⟨exNodes, 2⟩ (by decide +kernel) exFull _ exFull_read

/-- src/config.rs:466-469: no nodes are refused. -/
example : readConfig exHosts ⟨exNodes, 2⟩ [("dht".toList, .table [("bootstrap-nodes".toList, .arr [])])] = none := by decide +kernel

/-- No jobs are refused. -/
example : readConfig exHosts ⟨exNodes, 2⟩ [("peers".toList, .table [("jobs-per-magnet".toList, .int 0)])] = none := by decide +kernel

/-- An unknown section changes nothing. -/
example : readConfig exHosts ⟨exNodes, 2⟩ (("other".toList, .other) :: exFull) = readConfig exHosts ⟨exNodes, 2⟩ exFull :=
  config_unknown _ _ _ _ (by
    intro sect h
    simp only [List.mem_cons, List.not_mem_nil, or_false] at h
    rcases h with rfl | rfl | rfl | rfl <;> rfl)

end Demag.Props
