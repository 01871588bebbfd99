import Verif.Spiral.SchemeProps

/-!
# Runs of the Spiral scheme

Instances of the theorems of `SchemeProps`: the default parameters with a light database, and a ring of degree 8 over the
default moduli with errors of up to 1 in every key and in the query.
-/

namespace Psi.Spiral

open Finset

variable {P : Par}

/-- `h` ones and then `h` minus ones, as `GenTernaryMatrix` makes them before the shuffle. -/
def exSk (q n h : Nat) : Mat := .build n 1 fun _ _ z => if z < h then 1 else if z < 2 * h then q - 1 else 0

theorem exSk_le {n h : Nat} (hq : 4 ≤ P.modulus) : RawLe P (exSk P.modulus n h) (P.modulus - 1) := by
  intro r c _ hc k _
  unfold exSk at hc ⊢
  rw [Mat.build_cols] at hc
  rw [Mat.build_poly _ _ hc]
  split
  · omega
  · split <;> omega

theorem exSk_ok {n h : Nat} (hq : 4 ≤ P.modulus) : KeyOk P n (exSk P.modulus n h) :=
  ⟨rfl, rfl, (exSk_le hq).mono (by omega)⟩

theorem exSk_weight {n h r : Nat} (hq : 4 ≤ P.modulus) :
    ∑ i ∈ range P.n, |keyCoeff P (exSk P.modulus n h) r i| ≤ ((2 * h : Nat) : ℤ) := by
  have hle : ∀ i ∈ range P.n, |keyCoeff P (exSk P.modulus n h) r i| ≤ if i < 2 * h then (1 : ℤ) else 0 := by
    intro i _
    unfold keyCoeff exSk
    rw [Mat.build_poly _ _ Nat.one_pos]
    unfold centre
    split_ifs <;> rw [abs_le] <;> omega
  refine (sum_le_sum hle).trans ?_
  rw [← sum_filter, sum_const, nsmul_eq_mul, mul_one]
  have : (filter (fun i => i < 2 * h) (range P.n)).card ≤ (range (2 * h)).card :=
    card_le_card fun i hi => by
      rw [mem_filter] at hi
      exact mem_range.2 hi.2
  rw [card_range] at this
  exact_mod_cast this

/-- A draw with words all over the range. -/
def exDraw (q m : Nat) (e : Nat → Nat → Nat → ℤ) : Sample :=
  ⟨.build 1 m fun _ c z => (z + 1) * (c + 1) * 1234567890123456789 % q, e⟩

theorem exDraw_ok {n m : Nat} {e : Nat → Nat → Nat → ℤ} (hq : 4 ≤ P.modulus) (he : ∀ i j z, |e i j z| ≤ 1) :
    SampleOk P n m (exDraw P.modulus m e) where
  rows := rfl
  cols := rfl
  le := by
    intro r c _ hc k _
    have hc' : c < m := hc
    simp only [exDraw]
    rw [Mat.build_poly _ _ hc']
    exact (Nat.mod_lt _ (by omega)).le
  small := by
    intro i j z _ _ _
    have := he i j z
    show |e i j z| < _
    omega

/-- Errors -1, 0 and 1. -/
def exErrs (_ c z : Nat) : ℤ := (((c + z) % 3 : Nat) : ℤ) - 1

theorem exErrs_le (r c z : Nat) : |exErrs r c z| ≤ 1 := by
  unfold exErrs
  rw [abs_le]
  omega

theorem exErrs_nonzero : exErrs 0 0 0 = -1 ∧ exErrs 0 0 2 = 1 := by decide

def exCoins (q : Nat) (D : Scheme) (e : Nat → Nat → Nat → ℤ) : KeyCoins :=
  ⟨fun _ => exDraw q D.tConv e, fun _ _ => exDraw q 1 e, fun _ _ => exDraw q 1 e, fun _ => exDraw q 1 e⟩

theorem exKeys_ok {D : Scheme} {e : Nat → Nat → Nat → ℤ} (hq : 4 ≤ P.modulus) (he : ∀ i j z, |e i j z| ≤ 1) (h : Nat) :
    KeysOk P D (2 * h) (exSk P.modulus 1 h) (exSk P.modulus D.n h) (exCoins P.modulus D e) where
  reg := exSk_ok hq
  gsw := exSk_ok hq
  coins := ⟨fun _ _ => exDraw_ok hq he, fun _ _ _ _ => exDraw_ok hq he, fun _ _ _ _ => exDraw_ok hq he,
    fun _ _ => exDraw_ok hq he⟩
  reg_lt := exSk_le hq
  gsw_lt := exSk_le hq
  light_reg := exSk_weight hq
  light := fun _ _ => exSk_weight hq

/-! ### The default parameters -/

def exRows : List (List Nat) := [[1, 2, 3], [4, 5, 6], [255, 0, 9]]

theorem exRows_info : updateByDatabaseInfo PackPar.default 11 6 exRows.length 3 = .ok (⟨4, 2, 1⟩, 1) := by decide +kernel

theorem default_four (avx : Bool) : 4 ≤ (Par.default avx).modulus := by rw [default_modulus]; norm_num

example (avx : Bool) := default_noiseless avx (rowLen := 3) (raw := exRows) (by norm_num) exRows_info (by decide) (by decide)
  (exKeys_ok (default_four avx) (e := fun _ _ _ => 0) (by simp) 256) (idx := 2) (by decide)
  (s := fun _ => exDraw (Par.default avx).modulus 1 fun _ _ _ => 0) (exDraw_ok (default_four avx) (by simp))
  ⟨fun _ _ _ _ => by simp [exCoins, exDraw], fun _ _ _ _ _ => by simp [exCoins, exDraw],
    fun _ _ _ _ _ => by simp [exCoins, exDraw], fun _ _ _ _ => by simp [exCoins, exDraw]⟩
  (fun _ _ _ => by simp [exDraw])

example (avx : Bool) := default_retrieves avx (rowLen := 3) (raw := exRows) (by norm_num) exRows_info (by decide) (by decide)
  (exKeys_ok (default_four avx) exErrs_le 256) (idx := 2) (by decide)
  (s := fun _ => exDraw (Par.default avx).modulus 1 exErrs) (exDraw_ok (default_four avx) exErrs_le)

/-! ### Degree 8 with errors -/

/-- Degree 8 over the default moduli. -/
def Par.eight (avx : Bool) : Par := Par.two 3 avx Crt.default 18186460 174860716 2006920 218164008

theorem Par.eight_ok (avx : Bool) : ParOk (Par.eight avx) :=
  Par.two_ok (by decide) (by decide) Crt.default_ok (by constructor <;> decide +kernel) (by constructor <;> decide +kernel)

theorem Par.eight_modulus (avx : Bool) : (Par.eight avx).modulus = 66974689739603969 := by
  cases avx <;> decide +kernel

theorem Par.eight_n (avx : Bool) : (Par.eight avx).n = 8 := rfl

def Par.eightQ2 (avx : Bool) : Par := Par.one 3 avx 786433 541396 570203

theorem Par.eightQ2_ok (avx : Bool) : ParOk (Par.eightQ2 avx) :=
  Par.one_ok (by decide) (by decide) (by constructor <;> decide +kernel)

theorem Par.eightQ2_modulus (avx : Bool) : (Par.eightQ2 avx).modulus = 786433 := Par.one_modulus (by norm_num)

/-- Four gadget digits, first dimension 4, two candidates per position: six ciphertexts in one query of 8 coefficients. -/
def exDims : Dims := ⟨4, 2, 1⟩

theorem eight_bits (avx : Bool) (t : Nat) : bitsPer (Par.eight avx) t = if t = 56 then 1 else 56 / t + 1 := by
  have h : log2Ceil (Par.eight avx).modulus = 56 := by
    rw [Par.eight_modulus]
    unfold log2Ceil
    decide +kernel
  unfold bitsPer
  rw [h]

theorem eight_fits (avx : Bool) : DigitFits (Par.eight avx) 8 := by
  intro c tb h
  rw [eight_bits]
  match c with
  | 0 =>
    have : buildTables Crt.default.mod0 3 18186460 174860716 = tb := by simpa [Par.eight, Par.two] using h
    rw [← this]
    decide +kernel
  | 1 =>
    have : buildTables Crt.default.mod1 3 2006920 218164008 = tb := by simpa [Par.eight, Par.two] using h
    rw [← this]
    decide +kernel
  | c + 2 => simp [Par.eight, Par.two] at h

theorem eight_setup (avx : Bool) : SetupOk (Par.eight avx) (Par.eightQ2 avx) (Scheme.default exDims) ⟨8, 32⟩ 8
    (invPow exDims.g) (invPow (exDims.stopRound + 1)) where
  ring := Par.eight_ok avx
  two := by simp [Par.eight, Par.two]
  ring2 := Par.eightQ2_ok avx
  same := rfl
  scheme := ⟨by cases avx <;> decide +kernel, by decide, by rw [eight_bits]; decide, by decide, by decide, by decide, eight_fits avx,
    eight_fits avx⟩
  pt := by decide
  coeffs := by rw [Scheme.default_n, Par.eight_n]
  bits := by decide
  bytes := by decide
  pt_le := by rw [Par.eight_modulus, Scheme.default_p]; norm_num
  middle := by rw [Par.eightQ2_modulus, Scheme.default_p]; norm_num
  le := by rw [Par.eight_modulus, Par.eightQ2_modulus]; norm_num
  fits := by rw [Par.eightQ2_modulus, Scheme.default_p]; norm_num
  weight := by rw [Par.eight_modulus]; norm_num
  first_lt := by rw [Par.eight_modulus]; exact invPow_lt _
  rest_lt := by rw [Par.eight_modulus]; exact invPow_lt _
  first := by rw [Par.eight_modulus, Scheme.default_dims]; exact invPow_spec _
  rest := by rw [Par.eight_modulus, Scheme.default_dims]; exact invPow_spec _

/-- The worst case for errors of at most 1. -/
theorem eight_bound (avx : Bool) : respBound (Par.eight avx) (Scheme.default exDims) 8 1 ≤ 2 ^ 45 := by
  unfold respBound firstBound gswBound switchBound
  simp only [eight_bits]
  cases avx <;> decide +kernel

theorem eight_four (avx : Bool) : 4 ≤ (Par.eight avx).modulus := by rw [Par.eight_modulus]; norm_num

/-- Rows of 40 bytes, each across two plaintexts of 32 bytes. -/
def exLong : List (List Nat) := (List.range 5).map fun i => (List.range 40).map fun j => (i * 50 + j * 7) % 256

theorem exLong_ok : RowsOk (Scheme.default exDims) ⟨8, 32⟩ 8 40 exLong :=
  ⟨by decide, by decide, by decide, by decide, by decide, by decide⟩

/-- Errors everywhere, secret keys of weight 8, rows over two partitions: every row comes back. -/
example (avx : Bool) (idx : Nat) (hi : idx < exLong.length) := spiral_bounded (eight_setup avx)
  (exKeys_ok (eight_four avx) exErrs_le 4) exLong_ok hi
  (s := fun _ => exDraw (Par.eight avx).modulus 1 exErrs) (exDraw_ok (eight_four avx) exErrs_le) (b := 1)
  ⟨fun _ => exErrs_le, fun _ _ => exErrs_le, fun _ _ => exErrs_le, fun _ => exErrs_le⟩ exErrs_le (by
    have := eight_bound avx
    rw [Par.eightQ2_modulus, Par.eight_modulus, Scheme.default_p]
    omega)

example (avx : Bool) := spiral_retrieves (eight_setup avx) (exKeys_ok (eight_four avx) exErrs_le 4) exLong_ok (idx := 3)
  (by decide) (s := fun _ => exDraw (Par.eight avx).modulus 1 exErrs) (exDraw_ok (eight_four avx) exErrs_le)

end Psi.Spiral
