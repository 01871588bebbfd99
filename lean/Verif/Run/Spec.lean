import Verif.Run.Model

/-!
# What a run has to do

Stated over the configuration fields and the traces only.
-/

namespace Psi.Run

/-- A configuration one party may use. -/
structure Valid (c : PsiConfig) : Prop where
  protocol : c.protocol.protocol ≠ .unspecified
  role : c.protocol.role = .receiver ∨ c.protocol.role = .sender
  curve : c.protocol.protocol = .ecdh → ∃ e, c.protocol.ecdh = some e ∧ e.curve ≠ .invalid
  input : ∃ i, c.inputConfig = some i ∧ i.type = .csv
  output : ∃ o, c.outputConfig = some o ∧ o.type = .csv
  keys : c.keys ≠ [] ∧ c.keys.Nodup
  left : c.joinType = .unspecified ∨ c.joinType = .inner ∨ c.leftSide ≠ .unspecified

/-- Recovery switches the comparison of the inputs on. -/
def checks (c : PsiConfig) : Bool := c.checkDigest || c.recoveryOn

/-- Everything two parties have to agree on. -/
structure Agree (a b : PsiConfig) : Prop where
  protocol : a.protocol.protocol = b.protocol.protocol
  broadcast : a.protocol.broadcast = b.protocol.broadcast
  ecdh : a.protocol.ecdh = b.protocol.ecdh
  kkrt : a.protocol.kkrt = b.protocol.kkrt
  rr22 : a.protocol.rr22 = b.protocol.rr22
  recovery : a.recoveryOn = b.recoveryOn
  joinType : a.joinType = b.joinType
  leftSide : a.leftSide = b.leftSide
  digest : checks a = checks b
  nullRep : a.outputAttr = b.outputAttr
  threshold : a.threshold = b.threshold

/-- One party receives, the other sends. -/
def Complementary (a b : PsiConfig) : Prop :=
  (a.protocol.role = .receiver ∧ b.protocol.role = .sender) ∨
    (a.protocol.role = .sender ∧ b.protocol.role = .receiver)

/-- Two configurations that fit together. -/
structure Fit (a b : PsiConfig) : Prop where
  left : Valid a
  right : Valid b
  agree : Agree a b
  roles : Complementary a b

/-- Serialised configurations are read back as they were written. -/
def Wire.Lawful (w : Wire) : Prop := ∀ c, w.par (w.ser c) = some c

/-- What the protocols read from the configuration after initialisation. -/
structure Params where
  protocol : Protocol
  curve : CurveType
  batch : Nat
  kkrtBucket : Nat
  rr22Bucket : Nat
  lowComm : Bool
  broadcast : Bool
  join : JoinType
  left : Role
  threshold : Nat
  recovery : Bool
deriving DecidableEq, Repr

def params (c : PsiConfig) : Params where
  protocol := c.protocol.protocol
  curve := (c.protocol.ecdh.getD {}).curve
  batch := (c.protocol.ecdh.getD {}).batchSize
  kkrtBucket := (c.protocol.kkrt.getD {}).bucketSize
  rr22Bucket := (c.protocol.rr22.getD {}).bucketSize
  lowComm := (c.protocol.rr22.getD {}).lowComm
  broadcast := c.protocol.broadcast
  join := c.joinType
  left := c.leftSide
  threshold := c.threshold
  recovery := c.recoveryOn

/-- Does the party get a result? -/
def entitled (c : PsiConfig) : Bool := decide (c.protocol.role = .receiver) || c.protocol.broadcast

/-- Is the event the start of a phase? -/
def isPhase : Event → Bool
  | .write _ => false
  | _ => true

/-- The phases of a run, in order. -/
def phases (skip : Bool) : List Event :=
  if skip then [.init, .finalize] else [.init, .preProcess, .online, .postProcess, .finalize]

/-- The phases a mode of unbalanced PSI names, in order. -/
def ubPhases (server : Bool) : Mode → List Event
  | .unspecified => []
  | .genCache => if server then [.genCache] else []
  | .transferCache => [.transferCache]
  | .offline => if server then [.genCache, .transferCache] else [.transferCache]
  | .online => [.online]
  | .full => if server then [.genCache, .transferCache, .online] else [.transferCache, .online]

def succeeded {α : Type} (o : Outcome α) : Prop := ∃ a, o.result = .ok a

def good {α : Type} (x : Except Err α) : Prop := ∃ a, x = .ok a

/-- The steps of a party that have to go well; `peerRows` is the number of rows of the peer's table. -/
structure StepsGood (skip : Bool) (c : PsiConfig) (l : Local) (peerRows : Nat) : Prop where
  keys : good l.keys
  writer : good l.writer
  recovery : c.recoveryOn = true → good l.recovery
  preProcess : skip = false → good l.preProcess
  online : skip = false → good l.online
  postProcess : skip = false → good l.postProcess
  close : good l.close
  sort : good l.sort
  result : entitled c = true → ∃ s, l.join = .ok s ∧
    good (l.generate (if c.protocol.broadcast then (peerRows + 2 ^ 64 - s.2) % 2 ^ 64 else 0))

/-- Rows of the table of a party, as far as the join could be computed. -/
def rowsOf (l : Local) : Nat :=
  match l.join with
  | .ok s => s.1
  | .error _ => 0

end Psi.Run
