import Verif.Legacy.Model
import Verif.DpPsi.Model

/-!
# The bucket interface with `DP_PSI_2PC`

Models `DpPsiOperator` (`psi/legacy/dp_2party_psi.cc`), the operator that `MemoryPsi` makes for the protocol `DP_PSI_2PC`, inside the
bucket interface of `Verif.Legacy.Model`.

Simplified.
* What the two parties of the protocol send each other is in `Verif.DpPsi.Model`; here they meet in one call.
* There are two parties.
* The coins of a bucket are a parameter that may depend on the items of the bucket.
* `CreateOperator` (`dp_2party_psi.cc:65-84`) only chooses the probabilities of the coins and the curve.
-/

namespace Psi.Legacy
open Psi.Std (Bytes)

/-- The randomness of one call: the shuffle and the coins of Bob, and the two draws of Alice (`dp_psi.cc:43-90`). -/
structure Coins where
  shuf : List Nat
  bob : List Bool
  sub : List Bool
  up : List Bool

/-- `DpPsiOperator::OnRun` at the receiver: `dp_2party_psi.cc:39-53`.  The other party returns nothing
(`dp_2party_psi.cc:54-61`). -/
def dpOnRun {Pt : Type} (g : DpPsi.Cfg Bytes Pt) (coins : Coins) (own peer : List Bytes) : List Bytes :=
  match (DpPsi.run g peer own coins.shuf coins.bob coins.sub coins.up).2 with
  | .ok l => l.map fun i => own.getD i []
  | _ => []

/-- The configuration with the protocol `DP_PSI_2PC`: `dp_2party_psi.cc:65-86`.  `draw own peer`: the coins for a bucket with these
items of the receiver and of the other party. -/
def dpEnv {D Pt : Type} (c : Env D) (g : DpPsi.Cfg Bytes Pt) (draw : List Bytes → List Bytes → Coins) : Env D :=
  { c with
    world := 2
    nparty := false
    direct := fun own others => dpOnRun g (draw own (others.headD [])) own (others.headD []) }

end Psi.Legacy
