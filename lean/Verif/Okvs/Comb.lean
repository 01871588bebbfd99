/-!
# Enumeration of column sets (`ithCombination`, `Choose`)

Models `psi/algorithm/rr22/okvs/paxos.cc:120-168`.  Products are taken modulo `2 ^ 64` as in the code.
-/

namespace Psi.Okvs

/-- `uint64_t` arithmetic. -/
def w64 (x : Nat) : Nat := x % 2 ^ 64

/-- The number of combinations: `paxos.cc:127-137`. -/
def nCkLoop (n k : Nat) : Nat := (List.range k).foldl (fun c i => w64 (c * (n - i)) / (i + 1)) 1

/-- The `while` loop: `paxos.cc:144-150`; the state is `n`, `nCk`, `cur_index`. -/
def combSkip (index kk : Nat) : Nat → Nat × Nat × Nat → Nat × Nat × Nat
  | 0, s => s
  | fuel + 1, (n, c, cur) =>
    if w64 (cur + 2 ^ 64 - c) > index then
      let p := w64 (c * (n - kk))
      combSkip index kk fuel (n - 1, (p - p % kk) / (n - 1), cur - c)
    else (n, c, cur)

/-- The `for` loop: `paxos.cc:140-154`; `set` holds the entries from position `kk` on. -/
def combLoop (index : Nat) : Nat → Nat × Nat × Nat → List Nat → List Nat
  | 0, _, set => set
  | kk + 1, (n, c, cur), set =>
    let s := combSkip index (kk + 1) n (n, w64 (c * (kk + 1)) / n, cur)
    combLoop index kk (s.1 - 1, s.2.1, s.2.2) ((s.1 - 1) :: set)

/-- `ithCombination`: `paxos.cc:120-155`. -/
def ithCombination (index n k : Nat) : List Nat := combLoop index k (n, nCkLoop n k, nCkLoop n k) []

/-- `Choose`: `paxos.cc:163-166`. -/
def chooseRec : Nat → Nat → Nat
  | _, 0 => 1
  | n, k + 1 => w64 (n * chooseRec (n - 1) k) / (k + 1)

/-- The candidates of `GetGapCols` in the order in which they are tried: `paxos.cc:1514-1523`. -/
def combs (D g : Nat) : List (List Nat) := (List.range (chooseRec D g)).map (fun ci => ithCombination ci D g)

end Psi.Okvs
