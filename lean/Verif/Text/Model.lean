/-!
# Text helpers used by the modelled code

Standard-library and Abseil functions the project calls; modelled from their documented behaviour
(their source is not part of /repo).  Text is a list of characters, binary data a list of bytes.
-/

namespace Psi.Text

/-- Digits of a number, as printed by `fmt::format("{}", n)` / `std::to_string`. -/
def dec (n : Nat) : List Char :=
  if n < 10 then [Char.ofNat (48 + n)] else dec (n / 10) ++ [Char.ofNat (48 + n % 10)]
termination_by n
decreasing_by omega

/-- Value of one decimal digit. -/
def digit? (c : Char) : Option Nat :=
  if 48 ≤ c.toNat ∧ c.toNat ≤ 57 then some (c.toNat - 48) else none

/-- Digits to a number, `none` when a character is not a digit. -/
def digitsVal (acc : Nat) : List Char → Option Nat
  | [] => some acc
  | c :: cs =>
    match digit? c with
    | some d => digitsVal (acc * 10 + d) cs
    | none => none

/-- ASCII white space as skipped by `absl::SimpleAtoi`. -/
def isSpace (c : Char) : Bool := c == ' ' || (9 ≤ c.toNat && c.toNat ≤ 13)

/-- Drop a leading plus sign. -/
def stripPlus : List Char → List Char
  | [] => []
  | c :: r => if c = '+' then r else c :: r

/-- `absl::SimpleAtoi` into an unsigned type with values below `bound`: white space around the number
is skipped, a `+` is accepted, a `-`, an empty number, other characters and overflow are errors. -/
def simpleAtoi (bound : Nat) (s : List Char) : Option Nat :=
  let t := stripPlus ((s.dropWhile isSpace).reverse.dropWhile isSpace).reverse
  if t = [] then none
  else match digitsVal 0 t with
    | some v => if v < bound then some v else none
    | none => none

/-- `absl::StrSplit(s, c)`: always at least one token. -/
def split (c : Char) : List Char → List (List Char)
  | [] => [[]]
  | x :: xs =>
    if x = c then [] :: split c xs
    else match split c xs with
      | [] => [[x]]
      | t :: ts => (x :: t) :: ts

/-- The lines `std::getline` returns one after the other: text after the last newline counts as a line
only if it is not empty. -/
def lines : List Char → List (List Char)
  | [] => []
  | x :: xs =>
    if x = '\n' then [] :: lines xs
    else match lines xs with
      | [] => [[x]]
      | l :: ls => (x :: l) :: ls

/-- Base64 alphabet (RFC 4648). -/
def b64char (n : Nat) : Char :=
  if n < 26 then Char.ofNat (65 + n)
  else if n < 52 then Char.ofNat (97 + (n - 26))
  else if n < 62 then Char.ofNat (48 + (n - 52))
  else if n = 62 then '+' else '/'

/-- `absl::Base64Escape`: with padding. -/
def base64 : List UInt8 → List Char
  | [] => []
  | [a] => [b64char (a.toNat / 4), b64char (a.toNat % 4 * 16), '=', '=']
  | [a, b] => [b64char (a.toNat / 4), b64char (a.toNat % 4 * 16 + b.toNat / 16),
               b64char (b.toNat % 16 * 4), '=']
  | a :: b :: c :: r =>
    b64char (a.toNat / 4) :: b64char (a.toNat % 4 * 16 + b.toNat / 16)
      :: b64char (b.toNat % 16 * 4 + c.toNat / 64) :: b64char (c.toNat % 64) :: base64 r

end Psi.Text
