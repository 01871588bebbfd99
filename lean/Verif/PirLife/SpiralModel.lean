import Verif.Spiral.WireProps

/-!
# A hash table for a Spiral server

Models `SpiralServer::GenerateFromSimpleHashTable`.  What is left of the members when it throws is not modelled.
-/

namespace Psi.Spiral

/-- `GenerateFromSimpleHashTable`: `spiral_server.cc:375-428`.  Behind `UpdateByDatabaseInfo` it is `GenerateFromRawData`. -/
def Server.generateTable (pk : PackPar) (polyLog : Nat) (S : Server) (table : List (List Nat)) (rowLen : Nat) : Res Server :=
  if pk.logt ≠ 8 then .throws
  else (updateByDatabaseInfo pk polyLog S.dims.tgsw table.length rowLen).bind fun x =>
    Server.generate pk { S with rows := table.length, rowLen := rowLen, dims := x.1 } table

end Psi.Spiral
