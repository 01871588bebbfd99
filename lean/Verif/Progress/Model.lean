import Mathlib.Data.List.Basic

/-!
# Progress reports

Models `psi/utils/progress.cc` and the reports a `BucketPsi` run gives while it works
(`psi/legacy/bucket_psi.cc:53-107, 266-325, 441-444`).  Numbers are `size_t`; sums are taken modulo `2 ^ 64`.
-/

namespace Psi.Progress

/-- `psi/utils/progress.h:28-32`. -/
inductive Mode
  | single | serial | parallel
deriving DecidableEq, Repr

/-- `psi/utils/progress.h:34-40`. -/
structure Data where
  total : Nat
  finished : Nat
  running : Nat
  percentage : Nat
  description : String
deriving DecidableEq, Repr

/-- `Progress`: `psi/utils/progress.h:68-79`. -/
inductive Prog
  | node (mode : Mode) (weights : List Nat) (subs : List Prog) (pct : Nat) (done : Bool) (desc : String)

/-- Behaviour that is not defined: a weight behind the end is read. -/
inductive Err
  | undefined
deriving DecidableEq, Repr

/-- Constructor: `psi/utils/progress.cc:25-29`. -/
def Prog.make (desc : String := "") : Prog := .node .single [] [] 0 false desc

/-- `IsDone`: `psi/utils/progress.cc:52`. -/
def Prog.isDone : Prog → Bool
  | .node _ _ _ _ done _ => done

/-- `Update`: `psi/utils/progress.cc:31-33`. -/
def Prog.update (p : Nat) : Prog → Prog
  | .node m ws subs _ done desc => .node m ws subs (min p 100) done desc

mutual

/-- `Done`: `psi/utils/progress.cc:35-50`. -/
def Prog.finish : Prog → Prog
  | .node m ws subs pct done desc =>
    if done then .node m ws subs pct done desc
    else .node m ws (if m = .single then subs else finishAll subs) 100 true desc

/-- The loop of `Done`. -/
def finishAll : List Prog → List Prog
  | [] => []
  | p :: ps => p.finish :: finishAll ps

end

/-- What a progress without parts reports: `psi/utils/progress.cc:55-68`. -/
def single (desc : String) (p : Nat) : Data where
  total := 1
  running := if 0 < p ∧ p < 100 then 1 else 0
  finished := if 100 ≤ p then 1 else 0
  percentage := p
  description := if desc = "" then toString p ++ "%" else desc ++ ", " ++ toString p ++ "%"

/-- The description of the part that runs, or of the last one: `psi/utils/progress.cc:88-92`; the second argument is
what was found before. -/
def pick : List (Data × Bool) → String → String
  | [], s => s
  | [x], s => if s = "" then x.1.description else s
  | x :: y :: xs, s => pick (y :: xs) (if s = "" ∧ x.2 = false then x.1.description else s)

/-- The number of parts: `psi/utils/progress.cc:78, 83-84`. -/
def countTotal (n : Nat) (subs : List Data) : Nat := subs.foldl (fun t d => t - 1 + d.total) n

/-- What a progress with parts reports: `psi/utils/progress.cc:70-109`.  The flag tells whether the part is done. -/
def combine (m : Mode) (weights : List Nat) (desc : String) (subs : List (Data × Bool)) : Except Err Data :=
  if weights.length < subs.length then .error .undefined else
  let totalWeight := weights.sum % 2 ^ 64
  let totalPercent := (List.zipWith (fun w (x : Data × Bool) => w * x.1.percentage) weights subs).sum % 2 ^ 64
  let total := countTotal weights.length (subs.map Prod.fst)
  let finished := (subs.map (fun x => x.1.finished)).sum
  let running := (subs.map (fun x => x.1.running)).sum
  let sub := if m = .parallel then
      toString running ++ " jobs running (" ++ toString finished ++ " / " ++ toString total ++ ")"
    else pick subs ""
  .ok { total := total, finished := finished, running := running
        percentage := totalPercent / (if totalWeight = 0 then 1 else totalWeight)
        description := if desc = "" then sub else if sub = "" then desc else desc ++ ", " ++ sub }

mutual

/-- `Get`: `psi/utils/progress.cc:54-110`. -/
def Prog.get : Prog → Except Err Data
  | .node m ws subs pct _ desc =>
    if m = .single then .ok (single desc pct)
    else match getAll subs with
      | .error e => .error e
      | .ok ds => combine m ws desc ds

/-- The parts, in order. -/
def getAll : List Prog → Except Err (List (Data × Bool))
  | [] => .ok []
  | p :: ps =>
    match p.get, getAll ps with
    | .ok d, .ok ds => .ok ((d, p.isDone) :: ds)
    | .error e, _ => .error e
    | _, .error e => .error e

end

/-- `SetWeights`: `psi/utils/progress.cc:112-116`. -/
def Prog.setWeights (ws : List Nat) (mode : Mode := .serial) : Prog → Prog
  | .node _ _ subs pct done desc => .node mode ws subs pct done desc

/-- `SetSubJobCount`: `psi/utils/progress.cc:118-122`; weights that are there stay. -/
def Prog.setCount (n : Nat) (mode : Mode := .parallel) : Prog → Prog
  | .node _ ws subs pct done desc => .node mode (ws.take n ++ List.replicate (n - ws.length) 1) subs pct done desc

/-- `AddSubProgress`: `psi/utils/progress.cc:124-131`. -/
def Prog.add (d : String) : Prog → Prog
  | .node m ws subs pct done desc => .node m ws (subs ++ [Prog.make d]) pct done desc

/-- The last part is done. -/
def finishLast : List Prog → List Prog
  | [] => []
  | [p] => [p.finish]
  | p :: q :: ps => p :: finishLast (q :: ps)

/-- `NextSubProgress`: `psi/utils/progress.cc:133-144`. -/
def Prog.next (d : String) : Prog → Prog
  | .node m ws subs pct done desc => .node m ws (finishLast subs ++ [Prog.make d]) pct done desc

/-- `Update` of the part that was added last (the caller holds a pointer to it). -/
def Prog.updateLast (p : Nat) : Prog → Prog
  | .node m ws subs pct done desc => .node m ws (subs.dropLast ++ (subs.getLast?.map (Prog.update p)).toList) pct done desc

/-- The parts. -/
def Prog.subs : Prog → List Prog
  | .node _ _ subs _ _ _ => subs

/-! ## The reports of a run -/

/-- What the run does with its progress. -/
inductive Op
  | next (d : String)
  | update (p : Nat)
  | done
deriving DecidableEq, Repr

/-- One operation. -/
def Op.apply : Op → Prog → Prog
  | .next d => Prog.next d
  | .update p => Prog.updateLast p
  | .done => Prog.finish

/-- The operations that take the lock of the progress for themselves: `psi/utils/progress.cc:41, 135`; `Update` of a
part takes none. -/
def Op.locks : Op → Bool
  | .update _ => false
  | _ => true

/-- The operations of a run with `n` buckets: `psi/legacy/bucket_psi.cc:269-270, 290, 302, 319-322, 441-444`.  With `n = 0`
there is no bucket, or the shortcut was taken.  A run that fails stops after some of them. -/
def script (n : Nat) : List Op :=
  [.next "Precheck", .next "RunPsi"] ++ (List.range n).map (fun b => .update (100 * (b + 1) / n)) ++
    [.next "ProduceOutput", .done]

/-- The progress of a run: `psi/legacy/bucket_psi.cc:269-270`. -/
def start : Prog := (Prog.make).setWeights [15, 65, 20]

/-- The two threads: the operations left of the run, the progress, the report being made (the parts read so far),
and the reports given, the last one first. -/
structure St where
  ops : List Op
  prog : Prog
  reading : Option (List (Data × Bool))
  reports : List (Except Err Data)

/-- The run goes on; it waits while a report is made if it needs the lock. -/
def St.main (s : St) : St :=
  match s.ops with
  | [] => s
  | o :: os => if o.locks && s.reading.isSome then s else { s with ops := os, prog := o.apply s.prog }

/-- The weights and the description stay the same after the start. -/
def report (p : Prog) (ds : List (Data × Bool)) : Except Err Data :=
  match p with
  | .node m ws _ _ _ desc => combine m ws desc ds

/-- The reporting thread goes on: it begins a report, reads the next part, or gives the report:
`psi/legacy/bucket_psi.cc:80-93`, `psi/utils/progress.cc:70-93`.  Parts are read one by one, while the run may update
them. -/
def St.loop (s : St) : St :=
  match s.reading with
  | none => { s with reading := some [] }
  | some ds =>
    match s.prog.subs[ds.length]? with
    | none => { s with reading := none, reports := report s.prog ds :: s.reports }
    | some p =>
      match p.get with
      | .ok d => { s with reading := some (ds ++ [(d, p.isDone)]) }
      | .error e => { s with reading := none, reports := .error e :: s.reports }

/-- A schedule: `true` lets the run go on. -/
def exec : List Bool → St → St
  | [], s => s
  | b :: bs, s => exec bs (if b then s.main else s.loop)

/-- The report given at the end, when the run has returned or thrown: `psi/legacy/bucket_psi.cc:64-69, 94-95`. -/
def St.last (s : St) : Except Err Data := s.prog.get

end Psi.Progress
