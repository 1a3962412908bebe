import Verif.Model.SecureLink

/-! # Specification: what a connection delivers, and how it ends -/

namespace Demag.Spec

/-- The connection goes on. -/
def Lively (rs : List HandshakeRead) : Prop := ∀ r ∈ rs, r ≠ .eof ∧ r ≠ .failed ∧ r ≠ .data []

/-- The data of the reads, put together. -/
def dataOf (rs : List HandshakeRead) : List UInt8 := rs.flatMap fun r => match r with | .data b => b | _ => []

/-- The peer has closed the connection: a read of no bytes says the same. -/
def Closing (r : HandshakeRead) : Prop := r = .eof ∨ r = .data []

/-- The reads `rs` deliver the bytes `bs`, and then `e` happens: the first end or failure counts, what would follow it does not; time
does not matter. -/
def Arrives (rs : List HandshakeRead) (bs : List UInt8) (e : Ending) : Prop :=
  ∃ used rest, rs = used ++ rest ∧ Lively used ∧ bs = dataOf used ∧
    match e with
    | .stall => rest = []
    | .eof => ∃ r, rest.head? = some r ∧ Closing r
    | .ioError => rest.head? = some .failed

/-- What the reads `rs` mean for the encryption handshake when the reads `rest` are left of them and it ended like this. -/
def HandshakeEnds (rs rest : List HandshakeRead) (out : HandshakeOutcome) : Prop :=
  ∃ used, rs = used ++ rest ∧
    match out with
    | .err .disconnect => ∃ u r, used = u ++ [r] ∧ Lively u ∧ Closing r
    | .err .recv => ∃ u, used = u ++ [.failed] ∧ Lively u
    | .waiting => Lively used ∧ (rest = [] ∨ rest.head? = some .timeout)
    | _ => Lively used

end Demag.Spec
