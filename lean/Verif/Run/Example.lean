import Verif.Run.Spec

/-!
A concrete serialisation of configurations (not protobuf's), and concrete configurations, for the examples beside the
theorems.
-/

namespace Psi.Run.Ex

structure Codec (α : Type) where
  enc : α → Bytes
  dec : Bytes → Option (α × Bytes)
  law : ∀ a r, dec (enc a ++ r) = some (a, r)

def decNat : Bytes → Option (Nat × Bytes)
  | [] => none
  | b :: r => if b = 0 then some (0, r) else (decNat r).map (fun x => (x.1 + 1, x.2))

/-- Numbers in unary. -/
def nat : Codec Nat where
  enc n := List.replicate n 1 ++ [0]
  dec := decNat
  law := by
    intro n r
    induction n with
    | zero => rfl
    | succ n ih =>
      rw [List.replicate_succ]
      show (if (1 : UInt8) = 0 then _ else (decNat _).map _) = _
      rw [if_neg (by decide)]
      exact (congrArg (Option.map (fun x => (x.1 + 1, x.2))) ih)

def prod {α β : Type} (a : Codec α) (b : Codec β) : Codec (α × β) where
  enc x := a.enc x.1 ++ b.enc x.2
  dec s := match a.dec s with
    | none => none
    | some (x, r) => match b.dec r with
      | none => none
      | some (y, r') => some ((x, y), r')
  law := by
    intro x r
    simp only [List.append_assoc, a.law, b.law]

/-- A type that is a retract of another one. -/
def iso {α β : Type} (c : Codec β) (f : α → β) (g : β → α) (h : ∀ a, g (f a) = a) : Codec α where
  enc a := c.enc (f a)
  dec s := (c.dec s).map (fun x => (g x.1, x.2))
  law := by
    intro a r
    simp only [c.law, Option.map_some, h]

def opt {α : Type} (c : Codec α) : Codec (Option α) where
  enc
    | none => [0]
    | some a => 1 :: c.enc a
  dec
    | [] => none
    | b :: r => if b = 0 then some (none, r) else (c.dec r).map (fun x => (some x.1, x.2))
  law := by
    intro a r
    cases a with
    | none => rfl
    | some a =>
      show (if (1 : UInt8) = 0 then _ else (c.dec (c.enc a ++ r)).map _) = _
      rw [if_neg (by decide), c.law]
      rfl

def decList {α : Type} (c : Codec α) : Nat → Bytes → Option (List α × Bytes)
  | 0, s => some ([], s)
  | n + 1, s => match c.dec s with
    | none => none
    | some (x, r) => (decList c n r).map (fun y => (x :: y.1, y.2))

def list {α : Type} (c : Codec α) : Codec (List α) where
  enc l := nat.enc l.length ++ l.flatMap c.enc
  dec s := match nat.dec s with
    | none => none
    | some (n, r) => decList c n r
  law := by
    intro l r
    simp only [List.append_assoc, nat.law]
    induction l with
    | nil => rfl
    | cons a l ih =>
      simp only [List.length_cons, List.flatMap_cons, List.append_assoc, decList, c.law, ih, Option.map_some]

def bool : Codec Bool := iso nat (fun b => if b then 1 else 0) (fun n => decide (n = 1)) (by decide)

def str : Codec String := iso (list nat) (fun s => s.toList.map Char.toNat)
  (fun l => String.ofList (l.map Char.ofNat)) (by
    intro s
    have : (s.toList.map Char.toNat).map Char.ofNat = s.toList := by
      rw [List.map_map]
      conv_rhs => rw [← List.map_id s.toList]
      apply List.map_congr_left
      intro c _
      simp
    rw [this, String.ofList_toList])

def role : Codec Role := iso nat
  (fun | .unspecified => 0 | .receiver => 1 | .sender => 2 | .server => 3 | .client => 4)
  (fun | 0 => .unspecified | 1 => .receiver | 2 => .sender | 3 => .server | _ => .client)
  (by intro a; cases a <;> rfl)

def protocol : Codec Protocol := iso nat
  (fun | .unspecified => 0 | .ecdh => 1 | .kkrt => 2 | .rr22 => 3)
  (fun | 0 => .unspecified | 1 => .ecdh | 2 => .kkrt | _ => .rr22)
  (by intro a; cases a <;> rfl)

def curve : Codec CurveType := iso nat
  (fun | .invalid => 0 | .c25519 => 1 | .fourq => 2 | .sm2 => 3 | .secp256k1 => 4 | .elligator2 => 5)
  (fun | 0 => .invalid | 1 => .c25519 | 2 => .fourq | 3 => .sm2 | 4 => .secp256k1 | _ => .elligator2)
  (by intro a; cases a <;> rfl)

def join : Codec JoinType := iso nat
  (fun | .unspecified => 0 | .inner => 1 | .left => 2 | .right => 3 | .full => 4 | .difference => 5)
  (fun | 0 => .unspecified | 1 => .inner | 2 => .left | 3 => .right | 4 => .full | _ => .difference)
  (by intro a; cases a <;> rfl)

def ioType : Codec IoType := iso bool (fun | .csv => true | .unspecified => false)
  (fun | true => .csv | false => .unspecified) (by intro a; cases a <;> rfl)

def ecdh : Codec EcdhConfig := iso (prod curve nat) (fun e => (e.curve, e.batchSize)) (fun x => ⟨x.1, x.2⟩) (fun _ => rfl)
def kkrt : Codec KkrtConfig := iso nat (fun e => e.bucketSize) (fun x => ⟨x⟩) (fun _ => rfl)
def rr22 : Codec Rr22Config := iso (prod nat bool) (fun e => (e.bucketSize, e.lowComm)) (fun x => ⟨x.1, x.2⟩) (fun _ => rfl)
def io : Codec IoConfig := iso (prod ioType str) (fun e => (e.type, e.path)) (fun x => ⟨x.1, x.2⟩) (fun _ => rfl)
def rec : Codec RecoveryConfig := iso (prod bool str) (fun e => (e.enabled, e.folder)) (fun x => ⟨x.1, x.2⟩) (fun _ => rfl)
def dbg : Codec DebugOptions := iso (prod str str) (fun e => (e.level, e.tracePath)) (fun x => ⟨x.1, x.2⟩) (fun _ => rfl)

def pc : Codec ProtocolConfig :=
  iso (prod protocol (prod role (prod bool (prod (opt ecdh) (prod (opt kkrt) (opt rr22))))))
    (fun c => (c.protocol, c.role, c.broadcast, c.ecdh, c.kkrt, c.rr22))
    (fun x => ⟨x.1, x.2.1, x.2.2.1, x.2.2.2.1, x.2.2.2.2.1, x.2.2.2.2.2⟩) (fun _ => rfl)

def config : Codec PsiConfig :=
  iso (prod (prod (opt pc) (prod (opt io) (prod (opt io) (prod (list str) (prod (opt dbg) (prod bool (opt rec)))))))
      (prod join (prod role (prod bool (prod (opt bool) (prod (opt str) (prod nat str)))))))
    (fun c => ((c.protocolConfig, c.inputConfig, c.outputConfig, c.keys, c.debugOptions, c.disableAlignment,
      c.recovery), c.joinType, c.leftSide, c.checkDigest, c.inputAttr, c.outputAttr, c.threshold, c.countPath))
    (fun x => ⟨x.1.1, x.1.2.1, x.1.2.2.1, x.1.2.2.2.1, x.1.2.2.2.2.1, x.1.2.2.2.2.2.1, x.1.2.2.2.2.2.2,
      x.2.1, x.2.2.1, x.2.2.2.1, x.2.2.2.2.1, x.2.2.2.2.2.1, x.2.2.2.2.2.2.1, x.2.2.2.2.2.2.2⟩) (fun _ => rfl)

def wire : Wire := ⟨config.enc, fun b => (config.dec b).map Prod.fst⟩

theorem wire_lawful : wire.Lawful := by
  intro c
  show ((config.dec (config.enc c)).map Prod.fst) = some c
  have := config.law c []
  rw [List.append_nil] at this
  rw [this]
  rfl

/-- The receiver of a KKRT run. -/
def alice : PsiConfig where
  protocolConfig := some { protocol := .kkrt, role := .receiver, kkrt := some {} }
  inputConfig := some ⟨.csv, "a.csv"⟩
  outputConfig := some ⟨.csv, "a.out"⟩
  keys := ["id", "name"]
  recovery := some ⟨true, "a.dir"⟩
  joinType := .left
  leftSide := .sender

/-- Its sender; it names its columns differently and asks for no digest check, which recovery switches on. -/
def bob : PsiConfig where
  protocolConfig := some { protocol := .kkrt, role := .sender, kkrt := some {} }
  inputConfig := some ⟨.csv, "b.csv"⟩
  outputConfig := some ⟨.csv, "b.out"⟩
  keys := ["uid", "nick"]
  disableAlignment := true
  recovery := some ⟨true, "b.dir"⟩
  joinType := .left
  leftSide := .sender
  checkDigest := true

theorem fit : Fit alice bob where
  left := ⟨by decide, by decide, by decide, ⟨_, rfl, rfl⟩, ⟨_, rfl, rfl⟩, by decide, by decide⟩
  right := ⟨by decide, by decide, by decide, ⟨_, rfl, rfl⟩, ⟨_, rfl, rfl⟩, by decide, by decide⟩
  agree := ⟨rfl, rfl, rfl, rfl, rfl, rfl, rfl, rfl, rfl, rfl, rfl⟩
  roles := .inl ⟨rfl, rfl⟩

/-- A digest function. -/
def digest32 (s : List Char) : Bytes := s.map (fun c => UInt8.ofNat c.toNat)

end Psi.Run.Ex
