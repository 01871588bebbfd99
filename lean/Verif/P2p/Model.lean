import Verif.Std.Model
import Verif.Text.Model
import Verif.Legacy.Model

/-!
# Links between two parties of a larger group

`CreateP2PLinkCtx` (`psi/utils/communication.cc:22-45`) and its users: the three-party ECDH-PSI
(`psi/algorithm/ecdh/ecdh_3pc_psi.cc:350-371`), the NTY protocol (`psi/algorithm/nty/nty_mp_psi.cc:59-64`) and the PSI of n parties of
the legacy interface (`psi/legacy/nparty_psi.cc:157-188`).

Simplifications: of a link only its name, the names of its parties and the own rank are modelled.  `SubWorld`, `NextRank` and
`PartyIdByRank` are functions of yacl, which is not in the repository: the new link is named after the old one, its parties are in
the given order, the own rank is the position of the own name.  That two parties with links of the same name and party list reach
each other, and parties with links of different names do not, is what yacl promises.
-/

namespace Psi.P2p
open Psi.Std (Bytes)

/-- A link as one party has it. -/
structure Link where
  id : List Char
  parties : List Bytes
  rank : Nat
  deriving DecidableEq

/-- `yacl::link::Context::NextRank`. -/
def Link.next (l : Link) : Nat := (l.rank + 1) % l.parties.length

/-- `yacl::link::Context::SubWorld`; `none` is the exception. -/
def Link.subWorld (l : Link) (suffix : List Char) (ids : List Bytes) : Option Link :=
  match l.parties[l.rank]? with
  | none => none
  | some self =>
    if ids.all (fun x => decide (x ∈ l.parties)) && decide (self ∈ ids) then some ⟨l.id ++ '-' :: suffix, ids, ids.idxOf self⟩
    else none

/-- The name of the link: `psi/utils/communication.cc:32-34`. -/
def subId (pre : List Char) (a b : Nat) : List Char := pre ++ '-' :: (Text.dec (min a b) ++ '-' :: Text.dec (max a b))

/-- `CreateP2PLinkCtx`: `psi/utils/communication.cc:22-45`. -/
def createP2P (pre : List Char) (l : Link) (peer : Nat) : Option Link :=
  if l.parties.length > 2 then
    match l.parties[peer]?, l.parties[l.rank]? with
    | some p, some s => l.subWorld (subId pre l.rank peer) (Psi.Std.sort [p, s])
    | _, _ => none
  else some l

/-- The rank of the party that gets the result, on the new link: `psi/algorithm/ecdh/ecdh_3pc_psi.cc:358-366`; `none` is the failing
check. -/
def ctxTarget (l sub : Link) (dst target : Nat) : Option Nat :=
  if target = l.rank ∨ target = dst then some (if target = dst then sub.next else sub.rank) else none

/-- The same in the PSI of n parties: `psi/legacy/nparty_psi.cc:169-173`, `178-180`. -/
def npartyTarget (l sub : Link) (target : Nat) : Nat := if target = l.rank then sub.rank else sub.next

/-- The parties that are left after `k` levels: `psi/legacy/nparty_psi.cc:99-109`. -/
def left (vec : List Nat) : Nat → List Nat
  | 0 => vec
  | k + 1 => (left vec k).take (((left vec k).length + 1) / 2)

end Psi.P2p
