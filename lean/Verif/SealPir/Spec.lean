import Verif.SealPir.Model
import Verif.Spiral.RingAlgebra
import Mathlib.Data.List.GetD

/-!
# What the theorems on SealPIR assume of Microsoft SEAL

`Laws S` says what the operations of the BFV scheme do to the plaintext in a ciphertext and to a bound on its noise.
The plaintexts are the elements of `ℤ[X] / (X ^ n + 1)` modulo the plaintext modulus (`Rq`).  The noise is the invariant
noise scaled by the ciphertext modulus: it adds up in a sum, and a product with a plaintext multiplies it by the sum of
the coefficients of the plaintext.

`toy` is an instance without encryption, only to show that the laws can hold.
-/

namespace Psi.SealPir

open Psi.Spiral (A xx toA coeff Rq red tau tauQ Res)

/-- The plaintext with given coefficients. -/
noncomputable def val (L t : Nat) (p : Plain) : Rq L t := red L t (toA L fun i => (p i : ℤ))

/-- A power of `X` modulo `q`. -/
noncomputable def xpow (L q e : Nat) : Rq L q := red L q (xx L ^ e)

/-- The laws. -/
structure Laws (S : Seal) where
  /-- The ciphertext holds the plaintext, with at most this noise. -/
  Holds : Nat → S.Ct → Rq S.L S.t → Prop
  /-- The same, but words may equal their prime. -/
  Loose : Nat → S.Ct → Rq S.L S.t → Prop
  /-- The same for a ciphertext of the last level. -/
  Last : Nat → S.Ct → Rq S.L S.t → Prop
  /-- The noise of a new ciphertext, of a Galois map, after a modulus switch, and what decryption bears. -/
  fresh : Nat
  ks : Nat
  sw : Nat → Nat
  budget : Nat
  lastBudget : Nat
  mono : ∀ {a b c m}, Holds a c m → a ≤ b → Holds b c m
  sw_mono : ∀ {a b}, a ≤ b → sw a ≤ sw b
  loose : ∀ {a c m}, Holds a c m → Loose a c m
  encrypt_ok : ∀ coin p, (∀ k < S.n, p k < S.t) → Holds fresh (S.encrypt coin p) (val S.L S.t p)
  add_ok : ∀ {a b c d m k}, Loose a c m → Holds b d k → Holds (a + b) (S.add c d) (m + k)
  galois_ok : ∀ {a c m} g (hg : g % 2 = 1), g < 2 * S.n → Holds a c m →
    Holds (a + ks) (S.galois c g) (tauQ S.L S.t g hg m)
  mul_ok : ∀ {a c m} p B, (∀ k < S.n, p k < S.t) → ((List.range S.n).map p).sum ≤ B → Holds a c m →
    Holds (B * a) (S.mulPlain c p) (m * val S.L S.t p)
  size_ok : ∀ {a c m}, Holds a c m → S.size c = 2
  words_ok : ∀ {a c m}, Holds a c m → ∀ p < 2, ∀ l < S.qs.length, ∀ k < S.n, S.data c p l k < S.qs.getD l 0
  /-- Words that are `X ^ e` times the words of a ciphertext, prime by prime, are a ciphertext of `X ^ e` times the
  plaintext. -/
  shift_loose : ∀ {a c m} d e, Holds a c m →
    (∀ p < 2, ∀ l < S.qs.length, (∀ k < S.n, d p l k ≤ S.qs.getD l 0) ∧
      val S.L (S.qs.getD l 0) (d p l) = xpow S.L (S.qs.getD l 0) e * val S.L (S.qs.getD l 0) (S.data c p l)) →
    Loose a (S.withData c d) (xpow S.L S.t e * m)
  shift_ok : ∀ {a c m} d e, Holds a c m →
    (∀ p < 2, ∀ l < S.qs.length, (∀ k < S.n, d p l k < S.qs.getD l 0) ∧
      val S.L (S.qs.getD l 0) (d p l) = xpow S.L (S.qs.getD l 0) e * val S.L (S.qs.getD l 0) (S.data c p l)) →
    Holds a (S.withData c d) (xpow S.L S.t e * m)
  switch_ok : ∀ {a c m}, Holds a c m → Last (sw a) (S.modSwitch c) m
  last_primes : S.lastQs ≠ [] ∧ ∀ q ∈ S.lastQs, 2 ≤ q ∧ q < 2 ^ 64
  last_size : ∀ {a c m}, Last a c m → S.size c = 2
  last_words : ∀ {a c m}, Last a c m →
    ∀ p < 2, ∀ l < S.lastQs.length, ∀ k < S.n, S.data c p l k < S.lastQs.getD l 0
  /-- A ciphertext is its words. -/
  last_copy : ∀ {a c m} d, Last a c m →
    (∀ p < 2, ∀ l < S.lastQs.length, ∀ k < S.n, d p l k = S.data c p l k) → Last a (S.lastCt 2 d) m
  decrypt_ok : ∀ {a c m}, Holds a c m → a ≤ budget →
    (∀ k < S.n, S.decrypt c k < S.t) ∧ val S.L S.t (S.decrypt c) = m
  decrypt_last : ∀ {a c m}, Last a c m → a ≤ lastBudget →
    (∀ k < S.n, S.decrypt c k < S.t) ∧ val S.L S.t (S.decrypt c) = m
  encode_lt : ∀ l, l.length = S.n → (∀ x ∈ l, x < S.t) → ∀ k < S.n, S.encode l k < S.t
  decode_encode : ∀ l p, l.length = S.n → (∀ x ∈ l, x < S.t) → (∀ k < S.n, p k = S.encode l k) → S.decode p = l

/-- The noise of a ciphertext after some rounds of expansion. -/
def expNoise (fresh ks : Nat) : Nat → Nat
  | 0 => fresh
  | i + 1 => 2 * expNoise fresh ks i + ks

/-- The noise of the answer for one dimension of size `ni`, after `e` rounds of expansion. -/
def Laws.answerNoise {S : Seal} (H : Laws S) (ni e : Nat) : Nat := ni * (S.n * S.t * expNoise H.fresh H.ks e)

/-- The noise stays within what decryption bears, for every dimension. -/
def Laws.Fits {S : Seal} (H : Laws S) (dims : List Nat) : Prop :=
  ∀ ni ∈ dims, H.answerNoise ni (Nat.clog 2 (min ni S.n)) ≤ H.budget ∧
    H.sw (H.answerNoise ni (Nat.clog 2 (min ni S.n))) ≤ H.lastBudget

/-! ### An instance -/

section Toy

variable (L t : Nat)

/-- Coefficients modulo `t`. -/
noncomputable def coeffsOf (x : A L) : Plain := fun k => (coeff x k % (t : ℤ)).toNat

/-- `X ↦ X ^ g` on coefficients. -/
noncomputable def toyGalois (c : Plain) (g : Nat) : Plain :=
  if hg : g % 2 = 1 then coeffsOf L t (tau L g hg (toA L fun i => (c i : ℤ))) else c

/-- Ciphertexts that are plaintexts. -/
noncomputable def toy (th : Bool) : Seal where
  L := L
  t := t
  Ct := Plain
  Coin := Unit
  qs := [t]
  lastQs := [t]
  throwOnTransparent := th
  size := fun _ => 2
  data := fun c p _ k => if p = 0 then c k else 0
  withData := fun _ d k => d 0 0 k
  lastCt := fun _ d k => d 0 0 k
  encrypt := fun _ p => p
  decrypt := fun c => c
  add := fun c d k => (c k + d k) % t
  galois := toyGalois L t
  mulPlain := fun c p => coeffsOf L t (toA L (fun i => (c i : ℤ)) * toA L fun i => (p i : ℤ))
  modSwitch := fun c => c
  encode := fun l k => l.getD k 0
  decode := fun p => (List.range (2 ^ L)).map p

variable {L t}

theorem coeffsOf_lt (ht : 0 < t) (x : A L) (k : Nat) : coeffsOf L t x k < t := by
  unfold coeffsOf
  have h1 := Int.emod_nonneg (coeff x k) (b := (t : ℤ)) (by omega)
  have h2 := Int.emod_lt_of_pos (coeff x k) (b := (t : ℤ)) (by omega)
  omega

theorem val_coeffsOf (ht : 0 < t) (x : A L) : val L t (coeffsOf L t x) = red L t x := by
  unfold val
  rw [Psi.Spiral.red_eq_coeff]
  intro k hk
  rw [Psi.Spiral.coeff_toA _ hk]
  unfold coeffsOf
  have h1 := Int.emod_nonneg (coeff x k) (b := (t : ℤ)) (by omega)
  rw [Int.toNat_of_nonneg h1, Int.emod_emod_of_dvd _ (dvd_refl _)]

theorem val_add_mod (c d : Plain) : val L t (fun k => (c k + d k) % t) = val L t c + val L t d := by
  unfold val
  rw [← map_add, ← Psi.Spiral.toA_add, Psi.Spiral.red_eq_coeff]
  intro k hk
  rw [Psi.Spiral.coeff_toA _ hk, Psi.Spiral.coeff_toA _ hk]
  push_cast
  exact Int.emod_emod_of_dvd _ (dvd_refl _)

theorem toyGalois_ok (ht : 0 < t) (c : Plain) (g : Nat) (hg : g % 2 = 1) :
    (∀ k < 2 ^ L, toyGalois L t c g k < t) ∧ val L t (toyGalois L t c g) = tauQ L t g hg (val L t c) := by
  unfold toyGalois
  rw [dif_pos hg]
  refine ⟨fun k _ => coeffsOf_lt ht _ _, ?_⟩
  rw [val_coeffsOf ht]
  exact (Psi.Spiral.tauQ_red L t g hg _).symm

theorem val_congr {L t : Nat} {c d : Plain} (h : ∀ k < 2 ^ L, c k = d k) : val L t c = val L t d := by
  unfold val
  congr 1
  exact Psi.Spiral.toA_congr fun k hk => by rw [h k hk]

/-- The laws hold in the instance. -/
noncomputable def toyLaws (th : Bool) (ht : 2 ≤ t) (h64 : t < 2 ^ 64) : Laws (toy L t th) where
  Holds := fun _ c m => (∀ k < 2 ^ L, c k < t) ∧ val L t c = m
  Loose := fun _ c m => (∀ k < 2 ^ L, c k ≤ t) ∧ val L t c = m
  Last := fun _ c m => (∀ k < 2 ^ L, c k < t) ∧ val L t c = m
  fresh := 0
  ks := 0
  sw := fun a => a
  budget := 0
  lastBudget := 0
  mono := fun h _ => h
  sw_mono := fun h => h
  loose := fun h => ⟨fun k hk => (h.1 k hk).le, h.2⟩
  encrypt_ok := fun _ p hp => ⟨hp, rfl⟩
  add_ok := by
    rintro a b c d m k ⟨-, rfl⟩ ⟨-, rfl⟩
    exact ⟨fun k _ => Nat.mod_lt _ (by omega), val_add_mod c d⟩
  galois_ok := by
    rintro a c m g hg - ⟨-, rfl⟩
    exact toyGalois_ok (by omega) c g hg
  mul_ok := by
    rintro a c m p B - - ⟨-, rfl⟩
    refine ⟨fun k _ => coeffsOf_lt (by omega) _ _, ?_⟩
    show val L t (coeffsOf L t _) = val L t c * val L t p
    rw [val_coeffsOf (by omega), map_mul]
    rfl
  size_ok := fun _ => rfl
  words_ok := by
    rintro a c m ⟨h, -⟩ p - l hl k hk
    have h0 : l = 0 := by
      have : l < 1 := hl
      omega
    subst h0
    show (if p = 0 then c k else 0) < t
    split_ifs
    · exact h k hk
    · omega
  shift_loose := by
    rintro a c m d e ⟨-, rfl⟩ h
    have h0 := h 0 (by omega) 0 (by show 0 < 1; omega)
    exact ⟨h0.1, h0.2⟩
  shift_ok := by
    rintro a c m d e ⟨-, rfl⟩ h
    have h0 := h 0 (by omega) 0 (by show 0 < 1; omega)
    exact ⟨h0.1, h0.2⟩
  switch_ok := fun h => h
  last_primes := ⟨by simp [toy], fun q hq => by
    have : q = t := by simpa [toy] using hq
    omega⟩
  last_size := fun _ => rfl
  last_words := by
    rintro a c m ⟨h, -⟩ p - l hl k hk
    have h0 : l = 0 := by
      have : l < 1 := hl
      omega
    subst h0
    show (if p = 0 then c k else 0) < t
    split_ifs
    · exact h k hk
    · omega
  last_copy := by
    rintro a c m d ⟨h1, rfl⟩ h
    have hk : ∀ k < 2 ^ L, d 0 0 k = c k := fun k hk => h 0 (by omega) 0 (by show 0 < 1; omega) k hk
    refine ⟨fun k hk' => ?_, ?_⟩
    · show d 0 0 k < t
      rw [hk k hk']
      exact h1 k hk'
    · show val L t (fun k => d 0 0 k) = val L t c
      exact val_congr hk
  decrypt_ok := fun h _ => h
  decrypt_last := fun h _ => h
  encode_lt := by
    intro l hl hx k hk
    have : k < l.length := by rw [hl]; exact hk
    show l.getD k 0 < t
    rw [List.getD_eq_getElem _ _ this]
    exact hx _ (List.getElem_mem _)
  decode_encode := by
    intro l p hl _ hp
    have hl' : l.length = 2 ^ L := hl
    show (List.range (2 ^ L)).map p = l
    refine List.ext_getElem (by simp [hl']) fun k h1 h2 => ?_
    rw [List.getElem_map, List.getElem_range, hp k (by rw [hl'] at h2; exact h2)]
    show l.getD k 0 = _
    exact List.getD_eq_getElem _ _ h2

theorem toy_fits (th : Bool) (ht : 2 ≤ t) (h64 : t < 2 ^ 64) (dims : List Nat) :
    (toyLaws (L := L) th ht h64).Fits dims := by
  intro ni _
  have h0 : ∀ e, expNoise 0 0 e = 0 := by
    intro e
    induction e with
    | zero => rfl
    | succ e ih => unfold expNoise; rw [ih]
  have : (toyLaws (L := L) th ht h64).answerNoise ni (Nat.clog 2 (min ni (toy L t th).n)) = 0 := by
    show ni * (_ * expNoise 0 0 _) = 0
    rw [h0, Nat.mul_zero, Nat.mul_zero]
  rw [this]
  exact ⟨Nat.le_refl 0, Nat.le_refl 0⟩

end Toy

end Psi.SealPir
