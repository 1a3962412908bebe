import Verif.Model.App

/-!
# Specification: the program and its DHT actor
-/

namespace Demag.Spec

/-- The configuration that the program is to use: with `--no-config` the defaults; with `--config FILE` that file's; otherwise that of the
file in the default place, or the defaults if there is no such file. -/
inductive Chosen {P : Type} (holds : FileText → Config → Prop) (dflt : Config) (defaultPath : Option P) (fs : P → FileText) :
    Arguments P → Config → Prop
  | none {config : Option P} : Chosen holds dflt defaultPath fs ⟨config, true⟩ dflt
  | named {p : P} {cfg : Config} : holds (fs p) cfg → Chosen holds dflt defaultPath fs ⟨some p, false⟩ cfg
  | usual {p : P} {cfg : Config} : defaultPath = some p → holds (fs p) cfg → Chosen holds dflt defaultPath fs ⟨.none, false⟩ cfg
  | missing {p : P} : defaultPath = some p → fs p = .notFound → Chosen holds dflt defaultPath fs ⟨.none, false⟩ dflt

/-- All that was observed in a history. -/
def dhtObserved (tr : List (DhtCellEvent × List DhtCellOutput)) : List DhtCellOutput := (tr.map Prod.snd).flatten

/-- The actors started in a history. -/
def actors : List DhtCellOutput → List Nat
  | [] => []
  | .spawned a :: l => a :: actors l
  | _ :: l => actors l

end Demag.Spec
