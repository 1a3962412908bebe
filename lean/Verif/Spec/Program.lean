import Verif.Model.Program
import Verif.Spec.CommandLine
import Verif.Spec.BatchGet
import Verif.Spec.App

/-!
# Specification: what the program may do and has to do, from its arguments
-/

namespace Demag.Spec

/-- The arguments (read with `R`) ask for a torrent file for the link `m` at a place made from the template `t`: with `get` for the link, with
`batch` for each link in the file, with `query-peer` for a torrent of which only the info hash is known. -/
inductive AsksFor (R : Readers) (W : World) (args : List Text) : List TemplateElement → Magnet → Prop
  | get {l t m} : CommandLineMeans R args l → l.command = .get t m → AsksFor R W args t m
  | batch {l t f content ms m} : CommandLineMeans R args l → l.command = .batch t f → W.inputs f = some content →
      ListsLinks W.uenv W.lossy content ms → m ∈ ms → AsksFor R W args t m
  | peer {l e n p t q h} : CommandLineMeans R args l → l.command = .queryPeer e n p t q h → AsksFor R W args t ⟨h, none, []⟩

/-- The configuration that the arguments ask for. -/
def AsksConfig (R : Readers) (W : World) (args : List Text) (cfg : Config) : Prop :=
  ∃ l, CommandLineMeans R args l ∧
    Chosen (fun f cfg => ∃ t doc, f = .text t ∧ W.parseToml t = some doc ∧ readConfig W.parseHost W.dht doc = some cfg) (Config.dflt W.dht)
      W.defaultPath W.configs ⟨l.config, l.noConfig⟩ cfg

/-- The arguments ask for peers of a torrent, as JSON or not, and these are what the tracker asked for has answered or what a lookup in the DHT for
this torrent has found. -/
inductive PeersFor (R : Readers) (W : World) (args : List Text) : Bool → List Peer → Prop
  | tracker {l cfg j n r s t h tr a ps} : CommandLineMeans R args l → l.command = .queryTracker j n r s t h → AsksConfig R W args cfg →
      AskRun W.lossy W.parseIp t ⟨h, W.localId, W.key, W.port, BitVec.ofNat 32 cfg.trackers.numwant, cfg.general.encrypt,
        if r then some .required else if s then some .supported else if n then some .plain else none⟩ tr a →
      .ok ps ∈ askResults tr → PeersFor R W args j ps
  | dht {l cfg j h lookup my v6 es st tr req found} : CommandLineMeans R args l → l.command = .queryDht j h → AsksConfig R W args cfg →
      (DhtState.init my v6).run lookup cfg.dht.bootstrapNodes es = some (st, tr) → (∀ h', DhtEvent.submit (.lookup req h') ∈ es → h' = h) →
      DhtEffect.answer req found ∈ tr → found.peers ≠ [] → PeersFor R W args j found.peers

/-- The arguments ask for peers. -/
def AsksPeers (R : Readers) (args : List Text) (j : Bool) : Prop :=
  ∃ l, CommandLineMeans R args l ∧ ((∃ n r s t h, l.command = .queryTracker j n r s t h) ∨ ∃ h, l.command = .queryDht j h)

end Demag.Spec
