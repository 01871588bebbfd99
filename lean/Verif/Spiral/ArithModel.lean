/-!
# Modular arithmetic of Spiral PIR

Models `psi/algorithm/spiral/arith/arith.h`, `arith_params.h` and the Chinese remaindering of `params.cc`.
Machine words are natural numbers, with the wrap-around of 64-bit operations written out (`w64`).  Signed
arithmetic is on integers; a signed result outside of its type is undefined behaviour (`Res.undefined`).

Of SEAL, the word operations `multiply_uint64`, `multiply_uint64_hw64`, `add_uint64` and
`divide_uint192_inplace` are taken to be exact.
-/

namespace Psi.Spiral

/-- Outcome of a function that can fail an enforce or run into undefined behaviour. -/
inductive Res (α : Type) where
  | ok (a : α)
  | throws
  | undefined
  deriving Repr, DecidableEq

namespace Res

def bind {α β : Type} : Res α → (α → Res β) → Res β
  | ok a, f => f a
  | throws, _ => throws
  | undefined, _ => undefined

instance : Monad Res where
  pure := ok
  bind := bind

end Res

/-- Wrap-around of an unsigned 64-bit operation. -/
def w64 (x : Nat) : Nat := x % 2 ^ 64

/-- Unsigned 64-bit subtraction. -/
def sub64 (x y : Nat) : Nat := (x + 2 ^ 64 - y % 2 ^ 64) % 2 ^ 64

/-- `GetBarrettCrs`: `arith.h:39-48`.  The two low words of `2 ^ 128 / modulus`.
`seal::Modulus::const_ratio` holds the same words. -/
def barrettCrs (modulus : Nat) : Nat × Nat :=
  (w64 (2 ^ 128 / modulus), w64 (2 ^ 128 / modulus / 2 ^ 64))

/-- `BarrettRawU64`: `arith.h:113-123`. -/
def barrettRawU64 (input cr1 modulus : Nat) : Nat :=
  let tmp := input * cr1 / 2 ^ 64
  let res := sub64 input (w64 (tmp * modulus))
  if res ≥ modulus then res - modulus else res

/-- `BarrettRawU128`: `arith.h:125-153`, word by word. -/
def barrettRawU128 (val cr0 cr1 modulus : Nat) : Nat :=
  let h64 := val / 2 ^ 64
  let l64 := w64 val
  -- Round 1
  let carry := l64 * cr0 / 2 ^ 64
  let tmp20 := w64 (l64 * cr1)
  let tmp21 := l64 * cr1 / 2 ^ 64
  let tmp1 := w64 (tmp20 + carry)
  let tmp3 := w64 (tmp21 + (tmp20 + carry) / 2 ^ 64)
  -- Round 2
  let tmp20 := w64 (h64 * cr0)
  let tmp21 := h64 * cr0 / 2 ^ 64
  let carry := w64 (tmp21 + (tmp1 + tmp20) / 2 ^ 64)
  let tmp1 := w64 (h64 * cr1 + tmp3 + carry)
  sub64 l64 (w64 (tmp1 * modulus))

/-- `BarrettReductionU128Raw`: `arith.h:155-161`. -/
def barrettReductionU128Raw (val cr0 cr1 modulus : Nat) : Nat :=
  let reduced := barrettRawU128 val cr0 cr1 modulus
  sub64 reduced (w64 (modulus * if reduced ≥ modulus then 1 else 0))

/-- `MultiplyUintMod` with the two ratio words: `arith.h:221-229`. -/
def multiplyUintMod (a b modulus cr0 cr1 : Nat) : Nat :=
  barrettReductionU128Raw (a * b) cr0 cr1 modulus

/-- `BarrettCoeffU64`: `arith_params.h:29-33`. -/
def barrettCoeffU64 (modulus val : Nat) : Nat := barrettRawU64 val (barrettCrs modulus).2 modulus

/-- `MultiplyModular`: `arith_params.h:40-43`. -/
def multiplyModular (modulus a b : Nat) : Nat := barrettCoeffU64 modulus (w64 (a * b))

/-- `MultiplyAddModular`: `arith_params.h:45-49`. -/
def multiplyAddModular (modulus a b x : Nat) : Nat := barrettCoeffU64 modulus (w64 (w64 (a * b) + x))

/-- `AddModular`: `arith_params.h:51-54`. -/
def addModular (modulus a b : Nat) : Nat := barrettCoeffU64 modulus (w64 (a + b))

/-- The Chinese remaindering constants of `Params`: `params.cc:48-66`.  `inv01` is
`InvertUintMod(moduli[0], moduli[1])` and `inv10` the other way round (SEAL, external). -/
structure Crt where
  mod0 : Nat
  mod1 : Nat
  inv01 : Nat
  inv10 : Nat

namespace Crt

/-- `modulus`: `params.cc:51-54`. -/
def modulus (c : Crt) : Nat := w64 (w64 (1 * c.mod0) * c.mod1)

/-- `mod0_inv_mod1`: `params.cc:64`. -/
def mod0InvMod1 (c : Crt) : Nat := w64 (c.mod0 * c.inv01)

/-- `mod1_inv_mod0`: `params.cc:65`. -/
def mod1InvMod0 (c : Crt) : Nat := w64 (c.mod1 * c.inv10)

/-- `Params::CrtCompose2`: `params.cc:151-164`. -/
def compose (c : Crt) (x y : Nat) : Nat :=
  let val := x * c.mod1InvMod0 % 2 ^ 128
  let val := (val + y * c.mod0InvMod1 % 2 ^ 128) % 2 ^ 128
  barrettReductionU128Raw val (barrettCrs c.modulus).1 (barrettCrs c.modulus).2 c.modulus

/-- The pair of moduli can be used: odd coprime factors with a product below `2 ^ 63` and the inverses
SEAL computes. -/
def Ok (c : Crt) : Prop :=
  2 ≤ c.mod0 ∧ 2 ≤ c.mod1 ∧ c.mod0 * c.mod1 ≤ 2 ^ 63 ∧ c.inv01 < c.mod1 ∧ c.inv10 < c.mod0 ∧
    c.mod0 * c.inv01 % c.mod1 = 1 ∧ c.mod1 * c.inv10 % c.mod0 = 1

instance (c : Crt) : Decidable c.Ok := inferInstanceAs (Decidable (_ ∧ _))

end Crt

/-- `static_cast<int64_t>`: two's complement. -/
def toI64 (x : Nat) : Int := if x < 2 ^ 63 then x else (x : Int) - 2 ^ 64

/-- `static_cast<uint64_t>` of a signed value. -/
def toU64 (x : Int) : Nat := (x % 2 ^ 64).toNat

/-- A signed 64-bit result; overflow is undefined. -/
def i64 (x : Int) : Res Int := if -2 ^ 63 ≤ x ∧ x < 2 ^ 63 then .ok x else .undefined

/-- A signed 128-bit result; overflow is undefined. -/
def i128 (x : Int) : Res Int := if -2 ^ 127 ≤ x ∧ x < 2 ^ 127 then .ok x else .undefined

/-- C++ division and remainder round to zero; dividing by 0 is undefined. -/
def quot (x y : Int) : Res Int := if y = 0 then .undefined else .ok (x.tdiv y)
def rem (x y : Int) : Res Int := if y = 0 then .undefined else .ok (x.tmod y)

/-- `Recenter`: `arith.h:94-111`. -/
def recenter (val from_modulus to_modulus : Nat) : Res Nat := do
  if from_modulus < to_modulus then .throws
  else
    let f := toI64 from_modulus
    let t := toI64 to_modulus
    let a := toI64 val
    let a ← (if val ≥ from_modulus / 2 then i64 (a - f) else .ok a : Res Int)
    let d ← quot f t
    let dt ← i64 (d * t)
    let a ← i64 (a + dt)
    let t2 ← i64 (2 * t)
    let a ← i64 (a + t2)
    let a ← rem a t
    .ok (toU64 a)

/-- `RecenertMod`: `arith.h:163-178`. -/
def recenertMod (val small_modulus large_modulus : Nat) : Res Nat := do
  if val ≥ small_modulus then .throws
  else
    let v := toI64 val
    let s := toI64 small_modulus
    let l := toI64 large_modulus
    let h ← quot s 2
    let v ← (if v > h then i64 (v - s) else .ok v : Res Int)
    let v ← (if v < 0 then i64 (v + l) else .ok v : Res Int)
    .ok (toU64 v)

/-- `Rescale`: `arith.h:180-208`. -/
def rescale (a in_mod out_mod : Nat) : Res Nat := do
  if in_mod = 0 ∨ out_mod = 0 then .undefined
  else
    let inI := toI64 in_mod
    let half ← quot inI 2
    let v := toI64 (a % in_mod)
    let v ← (if v ≥ half then i64 (v - inI) else .ok v : Res Int)
    let sign : Int := if v ≥ 0 then 1 else -1
    let val ← i128 (v * out_mod)
    let sh ← i64 (sign * half)
    let x ← i128 (val + sh)
    let r ← quot x in_mod
    let tmp := w64 (in_mod / out_mod * out_mod)
    let o2 ← i128 (2 * out_mod)
    let r ← i128 (r + tmp)
    let r ← i128 (r + o2)
    let r ← rem r out_mod
    if r < 0 then .throws
    else
      let r ← i128 (r + out_mod)
      let r ← rem r out_mod
      .ok (toU64 r)

/-- `UintNum`: `arith.h:231-233`. -/
def uintNum (len uintLen : Nat) : Nat := (len + uintLen - 1) / uintLen

end Psi.Spiral
