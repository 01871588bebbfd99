import Verif.Spiral.SwitchModel
import Verif.Spiral.PackModel

/-!
# The reoriented database of Spiral PIR and the first dimension

Models `ReorientDatabase` and `SpiralServer::MultiplyRegByDatabase` (`spiral_server.cc:882-956`, `1020-1065`),
`ReorientRegCiphertexts` (`spiral_client.cc:540-577`) and `util::CalcIndex` (`util.cc:85-95`).

Simplified: `parallel_for` runs its range in order; sizes and indices (`size_t`) are not wrapped; all items are
transformed before the first word is written; the running index of `MultiplyRegByDatabase` is written out.
-/

namespace Psi.Spiral

/-- `CalcIndex`: `util.cc:85-95`, over pairs of an index and a length, the last pair first. -/
def calcIndexLoop : List (Nat × Nat) → Nat → Nat → Nat
  | [], idx, _ => idx
  | (i, len) :: rest, idx, prod => calcIndexLoop rest (idx + i * prod) (prod * len)

def calcIndex (l : List (Nat × Nat)) : Nat := calcIndexLoop l.reverse 0 1

/-- A loop that writes `val k` at `addr k`. -/
def writeAll (n : Nat) (addr val : Nat → Nat) : Words :=
  (List.range n).foldl (fun v k => upd v (addr k) (val k)) fun _ => 0

/-- Two residues in a word: `spiral_server.cc:1056-1058`, `spiral_client.cc:571`. -/
def packWord (lo hi : Nat) : Nat := lo ||| w64 (hi <<< 32)

/-- One item of the database: `spiral_server.cc:1041-1051`. -/
def dbItem (P : Par) (p : Nat) (coeffs : List Nat) (trial : Nat) : Res Words :=
  let start := trial * P.n
  if coeffs.length < start + P.n then .undefined
  else (resWords P.n fun z => recenertMod (coeffs.getD (start + z) 0) p P.modulus).bind fun w => .ok (toNttPoly P w)

/-- Step `k` of the loops over the polynomials and the items: `spiral_server.cc:1034-1040`. -/
def dbStep (P : Par) (p items : Nat) (db : List (List Nat)) (k : Nat) : Res Words :=
  match db[k % items]? with
  | none => .undefined
  | some coeffs => dbItem P p coeffs (k / items)

/-- `idx_dst`: `spiral_server.cc:1053-1055`. -/
def dbAddr (P : Par) (trials numPer dim0 trial z ii j : Nat) : Nat :=
  calcIndex [(0, 1), (trial, trials), (z, P.n), (ii, numPer), (j, dim0)]

/-- `ReorientDatabase`: `spiral_server.cc:1020-1065`. -/
def reorientDatabase (P : Par) (p trials numPer dim0 : Nat) (db : List (List Nat)) : Res Words :=
  let items := dim0 * numPer
  (mapRes (dbStep P p items db) (List.range (trials * items))).bind fun ws =>
  .ok (writeAll (trials * items * P.n)
    (fun a =>
      let i := a / P.n % items
      dbAddr P trials numPer dim0 (a / P.n / items) (a % P.n) (i % numPer) (i / numPer))
    fun a =>
      let w := ws.getD (a / P.n) fun _ => 0
      packWord (w (a % P.n)) (w (P.n + a % P.n)))

/-- The databases of the partitions one after the other: `spiral_server.cc:299-306`, `spiral_server.cc:452-458`. -/
def concatDbs (size : Nat) (parts : List Words) : Words := fun i => (parts.getD (i / size) fun _ => 0) (i % size)

/-- `ReorientRegCiphertexts`: `spiral_client.cc:540-577`. -/
def reorientReg (P : Par) (dim0 : Nat) (reg : Nat → Mat) : Words :=
  writeAll (dim0 * 2 * P.n)
    (fun a => a % P.n * (dim0 * 2) + a / P.n / 2 * 2 + a / P.n % 2)
    fun a =>
      let w := (reg (a / P.n / 2)).poly (a / P.n % 2) 0
      packWord (w (a % P.n) % P.mod 0) (w (P.n + a % P.n) % P.mod 1)

/-- The sums over the first dimension: `spiral_server.cc:899-926`. -/
def dimSum (dim0 : Nat) (a b : Nat → Nat) (part : Nat → Nat) : Nat :=
  (List.range dim0).foldl (fun s jm => (s + w64 (part (a jm) * part (b jm))) % 2 ^ 128) 0

/-- `MultiplyRegByDatabase`, `out[i]`: `spiral_server.cc:882-956`.  `base` is
`partition_idx * single_db_size_ + cur_db_idx`. -/
def multiplyRegByDatabase (P : Par) (dbs firstDim : Words) (dim0 numPer base i : Nat) : Mat := .build 2 1 fun r _ idx =>
  let z := idx % P.n
  let c := idx / P.n
  let m := P.mod c
  barrettReductionU128Raw
    (dimSum dim0 (fun jm => firstDim (z * (dim0 * 2) + jm * 2 + r)) (fun jm => dbs (base + (z * (numPer * dim0) + i * dim0 + jm)))
      fun x => if c = 0 then x &&& 0x00000000FFFFFFFF else x >>> 32)
    (barrettCrs m).1 (barrettCrs m).2 m

end Psi.Spiral
