import Verif.Gf128.FieldLemmas
import Mathlib.Algebra.Module.ZMod

/-!
# 128-bit words as a ring

`Gf` is the type of 128-bit words with xor as addition and `Galois128::Mul` as multiplication.  That it is a
ring is a consequence of the facts about `Galois128::Mul`.
-/

namespace Psi.Gf128

/-- A 128-bit word. -/
structure Gf where
  val : Nat
  lt : val < 2 ^ 128
deriving DecidableEq

namespace Gf

@[ext] theorem ext {a b : Gf} (h : a.val = b.val) : a = b := by
  cases a; cases b; cases h; rfl

/-- The low 128 bits of a number. -/
def ofNat (n : Nat) : Gf := ⟨n % 2 ^ 128, Nat.mod_lt _ (Nat.two_pow_pos 128)⟩

instance : Zero Gf := ⟨⟨0, Nat.two_pow_pos 128⟩⟩
instance : One Gf := ⟨⟨1, by decide⟩⟩
/-- `x ^ y`. -/
instance : Add Gf := ⟨fun a b => ⟨a.val ^^^ b.val, xor_lt a.lt b.lt⟩⟩
/-- `Galois128::Mul`; the choice of the code path makes no difference (`C40_paths_agree`). -/
instance : Mul Gf := ⟨fun a b => ⟨mul false a.val b.val, mul_lt false a.lt b.lt⟩⟩
instance : Neg Gf := ⟨fun a => a⟩
instance : Sub Gf := ⟨fun a b => a + b⟩
instance : SMul ℕ Gf := ⟨fun n a => if n % 2 = 1 then a else 0⟩
instance : SMul ℤ Gf := ⟨fun n a => if n % 2 = 1 then a else 0⟩
instance : Pow Gf ℕ := ⟨fun a n => npowRec n a⟩
instance : NatCast Gf := ⟨fun n => if n % 2 = 1 then 1 else 0⟩
instance : IntCast Gf := ⟨fun n => if n % 2 = 1 then 1 else 0⟩

/-- Embedding into the quotient ring. -/
noncomputable def emb (a : Gf) : AdjoinRoot P := phi a.val

theorem emb_injective : Function.Injective emb := fun a b h => ext ((phi_eq_iff a.lt b.lt).mp h)

theorem emb_zero : emb 0 = 0 := phi_zero
theorem emb_one : emb 1 = 1 := phi_one
theorem emb_add (a b : Gf) : emb (a + b) = emb a + emb b := phi_xor a.val b.val
theorem val_mul (a b : Gf) : (a * b).val = mul false a.val b.val := rfl

theorem emb_mul (a b : Gf) : emb (a * b) = emb a * emb b := by
  unfold emb
  rw [val_mul]
  exact phi_mul false a.lt b.lt

theorem emb_self_add (x : AdjoinRoot P) : x + x = 0 := by
  induction x using AdjoinRoot.induction_on with
  | ih p => rw [← map_add, char_two, map_zero]

theorem emb_neg (a : Gf) : emb (-a) = -emb a := by
  show emb a = -emb a
  rw [eq_neg_iff_add_eq_zero, emb_self_add]

theorem emb_sub (a b : Gf) : emb (a - b) = emb a - emb b := by
  show emb (a + b) = _
  rw [emb_add, sub_eq_add_neg, ← emb_neg b]; rfl

theorem emb_two (n : ℕ) (x : AdjoinRoot P) : n • x = if n % 2 = 1 then x else 0 := by
  have h2 : (2 : ℕ) • x = 0 := by rw [two_nsmul, emb_self_add]
  have hn : n • x = (n % 2) • x := by
    conv_lhs => rw [← Nat.div_add_mod n 2]
    rw [add_nsmul, mul_comm, mul_nsmul', h2, nsmul_zero, zero_add]
  rw [hn]
  rcases Nat.mod_two_eq_zero_or_one n with h | h <;> simp [h]

theorem emb_two_int (n : ℤ) (x : AdjoinRoot P) : n • x = if n % 2 = 1 then x else 0 := by
  have h2 : (2 : ℤ) • x = 0 := by rw [two_zsmul, emb_self_add]
  have hn : n • x = (n % 2) • x := by
    conv_lhs => rw [← Int.mul_ediv_add_emod n 2]
    rw [add_zsmul, mul_comm, mul_zsmul, h2, zsmul_zero, zero_add]
  rw [hn]
  rcases Int.emod_two_eq_zero_or_one n with h | h <;> simp [h]

theorem emb_nsmul (a : Gf) (n : ℕ) : emb (n • a) = n • emb a := by
  rw [emb_two]
  show emb (if n % 2 = 1 then a else 0) = _
  split
  · rfl
  · exact emb_zero

theorem emb_zsmul (a : Gf) (n : ℤ) : emb (n • a) = n • emb a := by
  rw [emb_two_int]
  show emb (if n % 2 = 1 then a else 0) = _
  split
  · rfl
  · exact emb_zero

theorem emb_npow (a : Gf) (n : ℕ) : emb (a ^ n) = emb a ^ n := by
  show emb (npowRec n a) = _
  induction n with
  | zero => rw [pow_zero]; exact emb_one
  | succ n ih => rw [pow_succ, ← ih]; exact emb_mul _ _

theorem emb_natCast (n : ℕ) : emb (n : Gf) = n := by
  show emb (if n % 2 = 1 then 1 else 0) = _
  rw [← nsmul_one, emb_two]
  split
  · exact emb_one
  · exact emb_zero

theorem emb_intCast (n : ℤ) : emb (n : Gf) = n := by
  show emb (if n % 2 = 1 then 1 else 0) = _
  rw [← zsmul_one, emb_two_int]
  split
  · exact emb_one
  · exact emb_zero

attribute [local irreducible] mul in
noncomputable instance : CommRing Gf :=
  Function.Injective.commRing emb emb_injective emb_zero emb_one emb_add emb_mul emb_neg emb_sub
    (fun n a => emb_nsmul a n) (fun n a => emb_zsmul a n) emb_npow emb_natCast emb_intCast

theorem add_self (a : Gf) : a + a = 0 := by
  apply emb_injective
  rw [emb_add, emb_self_add, emb_zero]

instance : Nontrivial Gf := ⟨⟨0, 1, fun h => absurd (congrArg Gf.val h) (by decide)⟩⟩

/-- `Galois128::Inv`, for a word that is not zero. -/
def inv (a : Gf) : Gf := ofNat (invChain false a.val)

theorem mul_inv (a : Gf) (h : a ≠ 0) : a * inv a = 1 := by
  apply ext
  have h0 : a.val ≠ 0 := fun h0 => h (ext h0)
  have hl := invChain_lt false a.val a.lt
  have hv : (inv a).val = invChain false a.val := Nat.mod_eq_of_lt hl
  rw [val_mul, hv, mul_invChain false false a.val a.lt h0]
  rfl

/-- Over GF(2): a bit times a word. -/
noncomputable instance : Module (ZMod 2) Gf := AddCommGroup.zmodModule (fun a => by rw [two_nsmul, add_self])

end Gf

end Psi.Gf128
