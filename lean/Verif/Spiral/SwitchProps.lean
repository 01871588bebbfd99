import Verif.Spiral.SwitchLemmas

/-!
# Decoding a response of Spiral PIR (C67)
-/

namespace Psi.Spiral

open Finset

variable {P Q : Par}

/-- `x` stands, modulo `o`, for a nearest integer to `a * o / i`. -/
def Rescaled (a i o x : Nat) : Prop :=
  ∃ v r : ℤ, v % i = (a : ℤ) % i ∧ 2 * |r * i - v * o| ≤ i ∧ x < o ∧ (x : ℤ) % o = r % o

/-- The switched matrix: the first row modulo `q2`, the others modulo `4 p`. -/
theorem switchModulus_ok (ok : ParOk P) {p q2 : Nat} (hp : 0 < p) (hq2 : 0 < q2) (hbig : p * q2 < 2 ^ 57) (ct : Mat) :
    ∃ resp, switchModulus P p q2 ct = .ok resp ∧ resp.rows = ct.rows ∧ resp.cols = ct.cols ∧
      ∀ r c z, r < ct.rows → c < ct.cols → z < P.n →
        Rescaled (ct.poly r c z) P.modulus (if r = 0 then q2 else 4 * p) (resp.poly r c z) := by
  have hp57 : p < 2 ^ 57 := lt_of_le_of_lt (Nat.le_mul_of_pos_right p hq2) hbig
  have hq57 : q2 < 2 ^ 57 := lt_of_le_of_lt (Nat.le_mul_of_pos_left q2 hp) hbig
  have hb := ok.modulus_bounds
  obtain ⟨a, a1, a2, a3, a4⟩ := resMat_ok (n := P.n) (rows := ct.rows) (cols := ct.cols)
    (f := fun r c z => if 0 ≤ r ∧ r < 1 then rescale (ct.poly r c z) P.modulus q2 else .ok (ct.poly r c z))
    (Q := fun r c z x => if r = 0 then Rescaled (ct.poly r c z) P.modulus q2 x else x = ct.poly r c z) (by
      intro r c z _ _ _
      by_cases h : r = 0
      · rw [if_pos (by omega)]
        obtain ⟨v, k, x, h1, h2, -, h3, h4, h5⟩ := rescale_nearest (ct.poly r c z) (i := P.modulus) (o := q2)
          (by omega) (by omega) hq2 (by omega)
        exact ⟨x, h1, by rw [if_pos h]; exact ⟨v, k, h2, h3, h4, h5⟩⟩
      · rw [if_neg (by omega)]
        exact ⟨_, rfl, by rw [if_neg h]⟩)
  obtain ⟨b, b1, b2, b3, b4⟩ := resMat_ok (n := P.n) (rows := a.rows) (cols := a.cols)
    (f := fun r c z => if 1 ≤ r ∧ r < a.rows then rescale (a.poly r c z) P.modulus (w64 (4 * p)) else .ok (a.poly r c z))
    (Q := fun r c z x => if r = 0 then x = a.poly r c z else Rescaled (a.poly r c z) P.modulus (4 * p) x) (by
      intro r c z hr _ _
      by_cases h : r = 0
      · rw [if_neg (by omega)]
        exact ⟨_, rfl, by rw [if_pos h]⟩
      · rw [if_pos (by omega), w64_of_lt (by omega)]
        obtain ⟨v, k, x, h1, h2, -, h3, h4, h5⟩ := rescale_nearest (a.poly r c z) (i := P.modulus) (o := 4 * p)
          (by omega) (by omega) (by omega) (by omega)
        exact ⟨x, h1, by rw [if_neg h]; exact ⟨v, k, h2, h3, h4, h5⟩⟩)
  refine ⟨b, ?_, by rw [b2, a2], by rw [b3, a3], fun r c z hr hc hz => ?_⟩
  · unfold switchModulus rescaleRows
    rw [a1, Res.ok_bind]
    exact b1
  · have h1 := a4 r c z hr hc hz
    have h2 := b4 r c z (by omega) (by omega) hz
    by_cases h : r = 0
    · rw [if_pos h] at h1 h2 ⊢
      rw [h2]
      exact h1
    · rw [if_neg h] at h1 h2 ⊢
      rw [h1] at h2
      exact h2

theorem eq_add_of_emod_eq {x y q : ℤ} (h : x % q = y % q) : ∃ k, x = y + q * k :=
  ⟨x / q - y / q, by
    have h1 := Int.mul_ediv_add_emod x q
    have h2 := Int.mul_ediv_add_emod y q
    rw [mul_sub]
    omega⟩

/-- The small representative of a coefficient of the secret key. -/
theorem centre_unique {val q : Nat} (hv : val < q) {s : ℤ} (h : (val : ℤ) % q = s % q) (hs : 2 * |s| + 1 < q) :
    centre val q = s := by
  obtain ⟨c1, c2⟩ := centre_bounds hv
  obtain ⟨k, hk⟩ := eq_add_of_emod_eq (c1.trans h)
  have h1 : |centre val q - s| < q := by
    have := abs_sub (centre val q) s
    omega
  rw [hk, add_sub_cancel_left, abs_mul, Nat.abs_cast] at h1
  have : |k| < 1 := by
    by_contra hlt
    have h2 : (1 : ℤ) ≤ |k| := by omega
    nlinarith [Int.natCast_nonneg q]
  rw [hk, Int.abs_lt_one_iff.1 this, mul_zero, add_zero]

/-- The decoded value is near the message, in integers. -/
theorem decode_core {q q2 p Δ ρ m e vf vr r0s v0s r1 v1 K k1 k2 W : ℤ} (hq : 0 < q) (hp : 0 < p) (hq2 : 0 < q2)
    (hΔ : q = p * Δ + ρ) (hρ : 0 ≤ ρ) (hvf : vf = r0s + q2 * k1) (hvr : vr = r1 + 4 * p * k2)
    (hph : v0s + v1 = Δ * m + e + q * K) (hd0 : 2 * |r0s * q - v0s * q2| ≤ W * q)
    (hd1 : 2 * |r1 * q - v1 * (4 * p)| ≤ q)
    (hn : 8 * q2 * (ρ * |m| + p * |e|) + 4 * q * p * W < 3 * q * q2) :
    2 * |vf * (4 * p) + vr * q2 - 4 * q2 * (m + p * (k1 + k2 + K))| < 4 * q2 := by
  set D0 := r0s * q - v0s * q2 with hD0
  set d1 := r1 * q - v1 * (4 * p) with hd1'
  set E := vf * (4 * p) + vr * q2 - 4 * q2 * (m + p * (k1 + k2 + K)) with hE
  have key : q * E = 4 * p * D0 + q2 * d1 + 4 * q2 * (p * e - ρ * m) := by
    have h1 : ρ = q - p * Δ := by omega
    rw [hE, hD0, hd1', hvf, hvr, h1]
    have h2 : v0s = Δ * m + e + q * K - v1 := by omega
    rw [h2]
    ring
  have hb : q * |E| ≤ 4 * p * |D0| + q2 * |d1| + 4 * q2 * (p * |e| + ρ * |m|) := by
    have e1 : q * |E| = |q * E| := by rw [abs_mul, abs_of_pos hq]
    rw [e1, key]
    refine (abs_add_le _ _).trans (add_le_add ((abs_add_le _ _).trans (add_le_add ?_ ?_)) ?_)
    · rw [abs_mul, abs_of_pos (by omega : 0 < 4 * p)]
    · rw [abs_mul, abs_of_pos hq2]
    · rw [abs_mul, abs_of_pos (by omega : 0 < 4 * q2)]
      refine mul_le_mul_of_nonneg_left ((abs_sub _ _).trans (add_le_add ?_ ?_)) (by omega)
      · rw [abs_mul, abs_of_pos hp]
      · rw [abs_mul, abs_of_nonneg hρ]
  have h1 : 4 * p * |D0| ≤ 2 * p * (W * q) := by nlinarith
  have h2 : 2 * (q2 * |d1|) ≤ q2 * q := by nlinarith
  have : q * (2 * |E|) < q * (4 * q2) := by nlinarith
  exact lt_of_mul_lt_mul_left this hq.le

/-- The product with the secret key, word by word. -/
theorem skProd_word (okQ : ParOk Q) {sk2 first : Mat} (h1 : RawLe Q sk2 (2 ^ 64 - 1)) (h2 : RawLe Q first (2 ^ 64 - 1))
    (hc : sk2.cols = 1) (hr : first.rows = 1) {r c z : Nat} (hrr : r < sk2.rows) (hcc : c < first.cols) (hz : z < Q.n) :
    (fromNtt Q (multiply Q (toNtt Q sk2) (toNtt Q first))).poly r c z < Q.modulus ∧
    ((fromNtt Q (multiply Q (toNtt Q sk2) (toNtt Q first))).poly r c z : ℤ) =
      negacyclic (fun i => (sk2.poly r 0 i : ℤ)) (fun i => (first.poly 0 c i : ℤ)) Q.n z % Q.modulus := by
  have h := matrix_product_exact okQ h1 h2 (by rw [hc, hr]) hrr hcc hz
  rw [hc, sum_range_one] at h
  refine ⟨?_, h⟩
  have hb := okQ.modulus_bounds
  have := Int.emod_lt_of_pos (negacyclic (fun i => (sk2.poly r 0 i : ℤ)) (fun i => (first.poly 0 c i : ℤ)) Q.n z)
    (show (0 : ℤ) < Q.modulus by omega)
  omega

theorem negacyclic_emod {a b c d : Nat → ℤ} {L : Nat} {q : Nat} (hac : ∀ i, i < 2 ^ L → a i % q = c i % q)
    (hbd : ∀ i, i < 2 ^ L → b i % q = d i % q) {z : Nat} (hz : z < 2 ^ L) :
    negacyclic a b (2 ^ L) z % q = negacyclic c d (2 ^ L) z % q := by
  have h1 : red L q (toA L a) = red L q (toA L c) := red_eq_coeff.2 fun k hk => by
    rw [coeff_toA _ hk, coeff_toA _ hk, hac k hk]
  have h2 : red L q (toA L b) = red L q (toA L d) := red_eq_coeff.2 fun k hk => by
    rw [coeff_toA _ hk, coeff_toA _ hk, hbd k hk]
  have h3 : red L q (toA L a * toA L b) = red L q (toA L c * toA L d) := by rw [map_mul, map_mul, h1, h2]
  have := red_eq_coeff.1 h3 z hz
  rwa [toA_mul, toA_mul, coeff_toA _ hz, coeff_toA _ hz] at this

/-- **C67** (the exact outcome) whenever the phase of the ciphertext is `⌊q / p⌋ m + e` with an error small enough,
switching the modulus and decoding succeeds and returns `m` shifted by `⌊4 q2 / p⌋`, modulo `p`. -/
theorem decode_switched (ok : ParOk P) (okQ : ParOk Q) (hL : Q.L = P.L) {p n : Nat} (hp : 0 < p)
    (hle : Q.modulus ≤ P.modulus) (hbig : p * Q.modulus < 2 ^ 57) {ct sk : Mat} (hrows : ct.rows = n + 1)
    (hcols : ct.cols = n) (hskr : sk.rows = n) (hskc : sk.cols = 1) (hsk : RawLe P sk (P.modulus - 1))
    {S : Nat → Nat → ℤ} {W : Nat} (hS : ∀ r, r < n → rmat P sk r 0 = red _ _ (toA _ (S r)))
    (hW : ∀ r, r < n → ∑ i ∈ range P.n, |S r i| ≤ W) (hWq : 2 * W + 1 < P.modulus) {m e : Nat → Nat → A P.L}
    (hphase : ∀ r c, r < n → c < n → rmat P sk r 0 * rmat P ct 0 c + rmat P ct (r + 1) c =
      red _ _ (((P.modulus / p : Nat) : A P.L) * m r c + e r c))
    (hnoise : ∀ r c z, r < n → c < n → z < P.n →
      8 * (Q.modulus : ℤ) * ((P.modulus % p : Nat) * |coeff (m r c) z| + p * |coeff (e r c) z|) + 4 * P.modulus * p * W <
        3 * P.modulus * Q.modulus) :
    ∃ resp out, switchModulus P p Q.modulus ct = .ok resp ∧ decodeResponse P Q p Q.modulus n sk resp = .ok out ∧
      ∀ r c z, r < n → c < n → z < P.n →
        (out.poly r c z : ℤ) = (coeff (m r c) z + (4 * Q.modulus / p : Nat)) % p := by
  have hb := ok.modulus_bounds
  have hbQ := okQ.modulus_bounds
  have hn : Q.n = P.n := by unfold Par.n; rw [hL]
  obtain ⟨resp, s1, s2, s3, s4⟩ := switchModulus_ok ok hp (by omega) hbig ct
  obtain ⟨sk2, k1, k2, k3, k4⟩ := resMat_ok (n := P.n) (rows := n) (cols := 1)
    (f := fun r c z => recenter (sk.poly r c z) P.modulus Q.modulus)
    (Q := fun r c z x => x < Q.modulus ∧ (x : ℤ) % Q.modulus = S r z % Q.modulus) (by
      intro r c z hr hc hz
      have hlt : sk.poly r c z < P.modulus := rawLe_lt (by omega) hsk (by omega) (by omega) z hz
      refine ⟨_, recenter_eq hlt (by omega) hle (by omega), ?_⟩
      have hcen : centre (sk.poly r c z) P.modulus = S r z := by
        have hc0 : c = 0 := by omega
        subst hc0
        refine centre_unique hlt ?_ ?_
        · have := hS r hr
          unfold rmat rval at this
          have := red_eq_coeff.1 this z hz
          rwa [coeff_toA _ hz, coeff_toA _ hz] at this
        · have h1 := hW r hr
          have h2 : |S r z| ≤ ∑ i ∈ range P.n, |S r i| :=
            single_le_sum (f := fun i => |S r i|) (fun i _ => abs_nonneg _) (mem_range.2 hz)
          omega
      have e : (if sk.poly r c z ≥ P.modulus / 2 then ((sk.poly r c z : Nat) : ℤ) - P.modulus else sk.poly r c z) =
          centre (sk.poly r c z) P.modulus := rfl
      rw [e, hcen]
      have h0 := Int.emod_nonneg (S r z) (show (Q.modulus : ℤ) ≠ 0 by omega)
      have h1 := Int.emod_lt_of_pos (S r z) (show (0 : ℤ) < Q.modulus by omega)
      refine ⟨by omega, ?_⟩
      rw [Int.toNat_of_nonneg h0, Int.emod_emod_of_dvd _ (dvd_refl _)])
  set first := resp.subMatrix 0 0 1 resp.cols with hfirst
  set rest := resp.subMatrix 1 0 (resp.rows - 1) resp.cols with hrest
  have fp : ∀ c, c < n → first.poly 0 c = resp.poly 0 c := fun c hc => by
    rw [hfirst, subMatrix_poly _ _ _ _ _ _ (by omega), Nat.zero_add, Nat.zero_add]
  have rp : ∀ r c, c < n → rest.poly r c = resp.poly (r + 1) c := fun r c hc => by
    rw [hrest, subMatrix_poly _ _ _ _ _ _ (by omega), Nat.zero_add, Nat.add_comm]
  have l1 : RawLe Q sk2 (2 ^ 64 - 1) := fun r c hr hc z hz => by
    have := (k4 r c z (by omega) (by omega) (by omega)).1
    omega
  have l2 : RawLe Q first (2 ^ 64 - 1) := fun r c hr hc z hz => by
    have hr0 : r = 0 := by
      have : r < 1 := hr
      omega
    have hc' : c < n := by
      have : c < resp.cols := hc
      omega
    subst hr0
    rw [fp c hc']
    obtain ⟨_, _, _, _, h3, _⟩ := s4 0 c z (by omega) (by omega) (by omega)
    rw [if_pos rfl] at h3
    omega
  set prod := fromNtt Q (multiply Q (toNtt Q sk2) (toNtt Q first)) with hprod
  obtain ⟨out, o1, o2, o3, o4⟩ := resMat_ok (n := P.n) (rows := n) (cols := n)
    (f := fun r c z => decodeWord p Q.modulus (prod.poly r c z) (rest.poly r c z))
    (Q := fun r c z x => (x : ℤ) = (coeff (m r c) z + (4 * Q.modulus / p : Nat)) % p) (by
      intro r c z hr hc hz
      obtain ⟨w1, w2⟩ := skProd_word okQ l1 l2 (by omega) rfl (r := r) (c := c) (z := z) (by omega)
        (show c < resp.cols by omega) (by omega)
      rw [← hprod] at w1 w2
      obtain ⟨v1, r1, x1, x2, x3, x4⟩ := s4 (r + 1) c z (by omega) (by omega) hz
      rw [if_neg (by omega)] at x2 x3 x4
      rw [← rp r c hc] at x3 x4
      -- the first row over the integers
      have h0 : ∀ i, ∃ vr : ℤ × ℤ, i < P.n → vr.1 % P.modulus = (ct.poly 0 c i : ℤ) % P.modulus ∧
          2 * |vr.2 * P.modulus - vr.1 * Q.modulus| ≤ P.modulus ∧
          (first.poly 0 c i : ℤ) % Q.modulus = vr.2 % Q.modulus := by
        intro i
        by_cases hi : i < P.n
        · obtain ⟨v, k, y1, y2, -, y3⟩ := s4 0 c i (by omega) (by omega) hi
          rw [if_pos rfl] at y2 y3
          rw [← fp c hc] at y3
          exact ⟨(v, k), fun _ => ⟨y1, y2, y3⟩⟩
        · exact ⟨(0, 0), fun h => absurd h hi⟩
      choose vr hvr using h0
      set V0 : Nat → ℤ := fun i => (vr i).1 with hV0
      set R0 : Nat → ℤ := fun i => (vr i).2 with hR0
      -- the product modulo q2
      have hpr : (prod.poly r c z : ℤ) % Q.modulus = negacyclic (S r) R0 P.n z % Q.modulus := by
        rw [w2, Int.emod_emod_of_dvd _ (dvd_refl _), hn]
        exact negacyclic_emod (L := P.L) (fun i hi => (k4 r 0 i hr (by omega) hi).2) (fun i hi => (hvr i hi).2.2) hz
      -- the phase modulo q
      have hph : (negacyclic (S r) V0 P.n z + v1) % P.modulus =
          ((P.modulus / p : Nat) * coeff (m r c) z + coeff (e r c) z) % P.modulus := by
        have h1 := hphase r c hr hc
        have h2 : rmat P ct 0 c = red _ _ (toA _ V0) := by
          unfold rmat rval
          exact red_eq_coeff.2 fun k hk => by
            rw [coeff_toA _ hk, coeff_toA _ hk]
            exact ((hvr k hk).1).symm
        rw [hS r hr, h2, ← map_mul] at h1
        unfold rmat rval at h1
        rw [← map_add] at h1
        have h3 := red_eq_coeff.1 h1 z hz
        rw [coeff_add, toA_mul, coeff_toA _ hz, coeff_toA _ hz, coeff_add,
          show ((P.modulus / p : Nat) : A P.L) = (((P.modulus / p : Nat) : ℤ) : A P.L) by push_cast; rfl,
          coeff_int_mul] at h3
        rw [← h3, Int.add_emod, x1, ← Int.add_emod]
        rfl
      obtain ⟨c1, -⟩ := centre_bounds w1
      obtain ⟨c2, -⟩ := centre_bounds x3
      obtain ⟨K1, hK1⟩ := eq_add_of_emod_eq (c1.trans hpr)
      obtain ⟨K2, hK2⟩ := eq_add_of_emod_eq (c2.trans x4)
      obtain ⟨K, hK⟩ := eq_add_of_emod_eq hph
      have hd0 : 2 * |negacyclic (S r) R0 P.n z * P.modulus - negacyclic (S r) V0 P.n z * Q.modulus| ≤
          (W : ℤ) * P.modulus := by
        have h1 : negacyclic (S r) R0 P.n z * P.modulus - negacyclic (S r) V0 P.n z * Q.modulus =
            coeff (toA P.L (S r) * toA P.L fun i => R0 i * P.modulus - V0 i * Q.modulus) z := by
          have h2 : (toA P.L fun i => R0 i * P.modulus - V0 i * Q.modulus) =
              ((P.modulus : ℤ) : A P.L) * toA P.L R0 + (((-(Q.modulus : ℤ)) : ℤ) : A P.L) * toA P.L V0 := by
            rw [← toA_int_mul, ← toA_int_mul, ← toA_add]
            exact toA_congr fun k _ => by ring
          rw [h2, mul_add, mul_left_comm, mul_left_comm (toA P.L (S r)), coeff_add, coeff_int_mul, coeff_int_mul, toA_mul,
            toA_mul, coeff_toA _ hz, coeff_toA _ hz]
          unfold Par.n
          ring
        have hnat : ∀ i, i < P.n → |R0 i * P.modulus - V0 i * Q.modulus| ≤ (P.modulus / 2 : Nat) := by
          intro i hi
          have h5 : 2 * |R0 i * P.modulus - V0 i * Q.modulus| ≤ P.modulus := (hvr i hi).2.1
          omega
        have h3 := coeff_mul_le (toA P.L (S r)) (toA P.L fun i => R0 i * P.modulus - V0 i * Q.modulus) (S := W)
          (B := (P.modulus / 2 : Nat)) (by
            have := hW r hr
            rw [sum_congr rfl fun i hi => by rw [coeff_toA _ (mem_range.1 hi)]]
            exact this) (by omega) (by
            intro j hj
            rw [coeff_toA _ hj]
            exact hnat j hj) hz
        rw [h1]
        have h4 : (2 : ℤ) * (P.modulus / 2 : Nat) ≤ P.modulus := by omega
        have h5 := mul_le_mul_of_nonneg_left h4 (Int.natCast_nonneg W)
        rw [mul_left_comm] at h5
        exact (mul_le_mul_of_nonneg_left h3 (by norm_num)).trans h5
      have hK2' : centre (rest.poly r c z) (4 * p) = r1 + 4 * (p : ℤ) * K2 := by
        rw [hK2]
        push_cast
        ring
      have hcore := decode_core (q := P.modulus) (q2 := Q.modulus) (p := p) (Δ := (P.modulus / p : Nat))
        (ρ := (P.modulus % p : Nat)) (by omega) (by omega) (by omega)
        (by exact_mod_cast (Nat.div_add_mod P.modulus p).symm) (Int.natCast_nonneg _) hK1
        hK2' hK hd0 (by push_cast at x2; exact x2) (hnoise r c z hr hc hz)
      refine ⟨_, decodeWord_eq hp (by omega) hbig w1 x3 hcore, ?_⟩
      have h0 := Int.emod_nonneg (coeff (m r c) z + p * (K1 + K2 + K) + (4 * Q.modulus / p : Nat)) (show (p : ℤ) ≠ 0 by omega)
      rw [Int.toNat_of_nonneg h0, add_right_comm, Int.add_mul_emod_self_left])
  refine ⟨resp, out, s1, ?_, o4⟩
  unfold decodeResponse
  rw [k1, Res.ok_bind]
  exact o1

/-- **C67** the requested value comes out whenever the error is small enough and `p` divides `⌊4 q2 / p⌋`. -/
theorem decode_exact (ok : ParOk P) (okQ : ParOk Q) (hL : Q.L = P.L) {p n : Nat} (hp : 0 < p)
    (hmid : p ∣ 4 * Q.modulus / p) (hle : Q.modulus ≤ P.modulus) (hbig : p * Q.modulus < 2 ^ 57) {ct sk : Mat}
    (hrows : ct.rows = n + 1) (hcols : ct.cols = n) (hskr : sk.rows = n) (hskc : sk.cols = 1)
    (hsk : RawLe P sk (P.modulus - 1)) {S : Nat → Nat → ℤ} {W : Nat}
    (hS : ∀ r, r < n → rmat P sk r 0 = red _ _ (toA _ (S r)))
    (hW : ∀ r, r < n → ∑ i ∈ range P.n, |S r i| ≤ W) (hWq : 2 * W + 1 < P.modulus) {m e : Nat → Nat → A P.L}
    (hphase : ∀ r c, r < n → c < n → rmat P sk r 0 * rmat P ct 0 c + rmat P ct (r + 1) c =
      red _ _ (((P.modulus / p : Nat) : A P.L) * m r c + e r c))
    (hnoise : ∀ r c z, r < n → c < n → z < P.n →
      8 * (Q.modulus : ℤ) * ((P.modulus % p : Nat) * |coeff (m r c) z| + p * |coeff (e r c) z|) + 4 * P.modulus * p * W <
        3 * P.modulus * Q.modulus) :
    ∃ resp out, switchModulus P p Q.modulus ct = .ok resp ∧ decodeResponse P Q p Q.modulus n sk resp = .ok out ∧
      ∀ r c z, r < n → c < n → z < P.n → (out.poly r c z : ℤ) = coeff (m r c) z % p := by
  obtain ⟨resp, out, h1, h2, h3⟩ := decode_switched ok okQ hL hp hle hbig hrows hcols hskr hskc hsk hS hW hWq hphase hnoise
  refine ⟨resp, out, h1, h2, fun r c z hr hc hz => ?_⟩
  rw [h3 r c z hr hc hz]
  obtain ⟨k, hk⟩ := hmid
  rw [hk]
  push_cast
  rw [Int.add_mul_emod_self_left]

/-- **C67** which table entries satisfy the divisibility for the plaintext modulus 256: all but 14, 15, 16 and 19
bits. -/
theorem q2_table : ∀ b, 14 ≤ b → b < 37 → ∃ q2, q2Values[b]? = some q2 ∧
    (256 ∣ 4 * q2 / 256 ↔ b ≠ 14 ∧ b ≠ 15 ∧ b ≠ 16 ∧ b ≠ 19) ∧ (¬ 256 ∣ 4 * q2 / 256 → 4 * q2 / 256 % 256 = 192) := by
  intro b h1 h2
  interval_cases b <;> exact ⟨_, rfl, by decide, by decide⟩

/-- **C67** (limit) for the other entries every value comes out wrong by 192, however small the error. -/
theorem decode_shifted (ok : ParOk P) (okQ : ParOk Q) (hL : Q.L = P.L) {n b : Nat} (h14 : 14 ≤ b) (h37 : b < 37)
    (hb : b = 14 ∨ b = 15 ∨ b = 16 ∨ b = 19) (hq2 : q2Values[b]? = some Q.modulus) (hle : Q.modulus ≤ P.modulus)
    {ct sk : Mat} (hrows : ct.rows = n + 1) (hcols : ct.cols = n) (hskr : sk.rows = n) (hskc : sk.cols = 1)
    (hsk : RawLe P sk (P.modulus - 1)) {S : Nat → Nat → ℤ} {W : Nat}
    (hS : ∀ r, r < n → rmat P sk r 0 = red _ _ (toA _ (S r)))
    (hW : ∀ r, r < n → ∑ i ∈ range P.n, |S r i| ≤ W) (hWq : 2 * W + 1 < P.modulus) {m e : Nat → Nat → A P.L}
    (hphase : ∀ r c, r < n → c < n → rmat P sk r 0 * rmat P ct 0 c + rmat P ct (r + 1) c =
      red _ _ (((P.modulus / 256 : Nat) : A P.L) * m r c + e r c))
    (hnoise : ∀ r c z, r < n → c < n → z < P.n →
      8 * (Q.modulus : ℤ) * ((P.modulus % 256 : Nat) * |coeff (m r c) z| + (256 : Nat) * |coeff (e r c) z|) +
        4 * P.modulus * (256 : Nat) * W < 3 * P.modulus * Q.modulus) :
    ∃ resp out, switchModulus P 256 Q.modulus ct = .ok resp ∧ decodeResponse P Q 256 Q.modulus n sk resp = .ok out ∧
      ∀ r c z, r < n → c < n → z < P.n → (out.poly r c z : ℤ) = (coeff (m r c) z + 192) % 256 ∧
        (out.poly r c z : ℤ) ≠ coeff (m r c) z % 256 := by
  obtain ⟨q2, t1, t2, t3⟩ := q2_table b h14 h37
  have e : q2 = Q.modulus := by
    rw [hq2] at t1
    exact (Option.some.inj t1).symm
  subst e
  have h192 := t3 (by rw [t2]; omega)
  have hlt : 256 * Q.modulus < 2 ^ 57 := by
    have := okQ.modulus_bounds
    have h6 : Q.modulus < 2 ^ 40 := by
      have : ∀ b, 14 ≤ b → b < 37 → ∀ q, q2Values[b]? = some q → q < 2 ^ 40 := by
        intro b h1 h2
        interval_cases b <;> (intro q h; have := Option.some.inj h; omega)
      exact this b h14 h37 _ hq2
    omega
  obtain ⟨resp, out, h1, h2, h3⟩ := decode_switched ok okQ hL (p := 256) (by norm_num) hle hlt hrows hcols hskr hskc hsk hS
    hW hWq hphase hnoise
  refine ⟨resp, out, h1, h2, fun r c z hr hc hz => ?_⟩
  have h4 := h3 r c z hr hc hz
  generalize 4 * Q.modulus / 256 = k at *
  push_cast at h4
  constructor <;> omega

/-! ### Concrete parameters -/

/-- A ring with one modulus. -/
def Par.one (L : Nat) (avx : Bool) (m root inv : Nat) : Par := ⟨L, avx, [buildTables m L root inv], ⟨0, 0, 0, 0⟩⟩

theorem Par.one_ok {L : Nat} {avx : Bool} {m root inv : Nat} (h2 : 2 ≤ L) (h30 : L ≤ 30) (h : RootOk m L root inv) :
    ParOk (Par.one L avx m root inv) := by
  refine ⟨h2, h30, fun c t ht => ?_, Or.inl rfl⟩
  match c with
  | 0 =>
    have : buildTables m L root inv = t := by simpa [Par.one] using ht
    rw [← this]
    exact h.good
  | c + 1 => simp [Par.one] at ht

theorem Par.one_modulus {L : Nat} {avx : Bool} {m root inv : Nat} (hm : m < 2 ^ 64) :
    (Par.one L avx m root inv).modulus = m := by
  unfold Par.modulus
  simp only [Par.one, List.map_cons, List.map_nil, List.foldl_cons, List.foldl_nil, Nat.one_mul]
  exact w64_of_lt hm

/-- `q2_params_` of the default parameters. -/
def Par.q2 (avx : Bool) : Par := Par.one 11 avx 786433 176405 491208

theorem Par.q2_ok (avx : Bool) : ParOk (Par.q2 avx) :=
  Par.one_ok (by decide) (by decide) (by constructor <;> decide +kernel)

theorem Par.q2_modulus (avx : Bool) : (Par.q2 avx).modulus = 786433 := Par.one_modulus (by norm_num)

/-- The ring for `q2_bits = 14`. -/
def Par.q2Low (avx : Bool) : Par := Par.one 11 avx 12289 1331 7968

theorem Par.q2Low_ok (avx : Bool) : ParOk (Par.q2Low avx) :=
  Par.one_ok (by decide) (by decide) (by constructor <;> decide +kernel)

theorem Par.q2Low_modulus (avx : Bool) : (Par.q2Low avx).modulus = 12289 := Par.one_modulus (by norm_num)

/-- A secret key `1` and a ciphertext of `z % 256 - 128` at coefficient `z`, with error 3. -/
def exKey : Mat := .singleValue 1

def exCt : Mat := .build 2 1 fun r _ z =>
  if r = 0 then 1000 * z + 5 else 261619881795328 * (z % 256) + 66974689739603969 + 3 - 33487344869801984 - (1000 * z + 5)

noncomputable def exMsg (avx : Bool) : A (Par.default avx).L := toA _ fun z => (z % 256 : Nat) - 128

noncomputable def exErr (avx : Bool) : A (Par.default avx).L := toA _ fun _ => 3

theorem exKey_rmat (avx : Bool) : rmat (Par.default avx) exKey 0 0 = red _ _ (toA _ fun i => if i = 0 then 1 else 0) := by
  unfold rmat rval
  refine red_eq_coeff.2 fun k hk => ?_
  rw [coeff_toA _ hk, coeff_toA _ hk]
  unfold exKey Mat.singleValue
  rw [Mat.build_poly _ _ Nat.one_pos]
  split_ifs <;> rfl

theorem exKey_le (avx : Bool) : RawLe (Par.default avx) exKey ((Par.default avx).modulus - 1) := by
  rw [default_modulus]
  intro r c hr hc k _
  unfold exKey Mat.singleValue
  rw [Mat.build_poly _ _ (show c < 1 from hc)]
  split_ifs <;> omega

theorem exCt_phase (avx : Bool) (r c : Nat) (hr : r < 1) (hc : c < 1) :
    rmat (Par.default avx) exKey r 0 * rmat (Par.default avx) exCt 0 c + rmat (Par.default avx) exCt (r + 1) c =
      red _ _ ((((Par.default avx).modulus / 256 : Nat) : A (Par.default avx).L) * exMsg avx + exErr avx) := by
  obtain rfl : r = 0 := by omega
  obtain rfl : c = 0 := by omega
  have e1 : toA (Par.default avx).L (fun i => if i = 0 then (1 : ℤ) else 0) = 1 := by
    rw [toA_single _ 1 (Nat.pow_pos (by norm_num)), pow_zero, Int.cast_one, mul_one]
  rw [exKey_rmat, e1, map_one, one_mul]
  unfold rmat rval
  rw [← map_add]
  refine red_eq_coeff.2 fun k hk => ?_
  have hk' : k < 2 ^ 11 := hk
  have e3 : (((Par.default avx).modulus / 256 : Nat) : A (Par.default avx).L) =
      ((261619881795328 : ℤ) : A (Par.default avx).L) := by
    rw [default_modulus]
    norm_num
  rw [coeff_add, coeff_toA _ hk, coeff_toA _ hk, coeff_add, e3, coeff_int_mul, default_modulus]
  unfold exMsg exErr
  rw [coeff_toA _ hk, coeff_toA _ hk]
  unfold exCt
  rw [Mat.build_poly _ _ Nat.one_pos, Mat.build_poly _ _ Nat.one_pos]
  simp only [if_pos, Nat.zero_add, Nat.one_ne_zero, if_false]
  omega

theorem exMsg_coeff (avx : Bool) {z : Nat} (hz : z < (Par.default avx).n) :
    |coeff (exMsg avx) z| ≤ 128 ∧ |coeff (exErr avx) z| ≤ 3 := by
  unfold exMsg exErr
  rw [coeff_toA _ hz, coeff_toA _ hz]
  constructor
  · rw [abs_le]
    omega
  · norm_num

theorem exKey_weight : ∑ i ∈ range 2048, |if i = 0 then (1 : ℤ) else 0| ≤ (1 : Nat) := by
  rw [sum_eq_single 0 (fun b _ hb => by simp [hb]) (by simp)]
  simp

/-- The default parameters: `p = 256` and `q2` of 21 bits. -/
example (avx : Bool) := decode_exact (Par.default_ok avx) (Par.q2_ok avx) rfl (p := 256) (n := 1) (by norm_num)
  (by rw [Par.q2_modulus]; decide) (by rw [Par.q2_modulus, default_modulus]; norm_num)
  (by rw [Par.q2_modulus]; norm_num) (ct := exCt) (sk := exKey) rfl rfl rfl rfl (exKey_le avx)
  (S := fun _ i => if i = 0 then 1 else 0) (W := 1)
  (fun r hr => by obtain rfl : r = 0 := by omega
                  exact exKey_rmat avx)
  (fun _ _ => exKey_weight) (by rw [default_modulus]; norm_num) (m := fun _ _ => exMsg avx) (e := fun _ _ => exErr avx)
  (exCt_phase avx) (fun r c z _ _ hz => by
    obtain ⟨h1, h2⟩ := exMsg_coeff avx hz
    rw [Par.q2_modulus, default_modulus]
    omega)

/-- The room the error has with the default parameters and the weight of the secret keys: up to `q / 879`. -/
example (m e : ℤ) (hm : |m| ≤ 128) (he : |e| ≤ 66974689739603969 / 879) :
    8 * ((786433 : Nat) : ℤ) * ((66974689739603969 % 256 : Nat) * |m| + (256 : Nat) * |e|) +
      4 * (66974689739603969 : Nat) * (256 : Nat) * (512 : Nat) < 3 * (66974689739603969 : Nat) * (786433 : Nat) := by
  omega

/-- The same ciphertext with `q2_bits = 14`. -/
example (avx : Bool) := decode_shifted (Par.default_ok avx) (Par.q2Low_ok avx) rfl (n := 1) (b := 14) (by norm_num)
  (by norm_num) (Or.inl rfl) (by rw [Par.q2Low_modulus]; rfl) (by rw [Par.q2Low_modulus, default_modulus]; norm_num)
  (ct := exCt) (sk := exKey) rfl rfl rfl rfl (exKey_le avx)
  (S := fun _ i => if i = 0 then 1 else 0) (W := 1)
  (fun r hr => by obtain rfl : r = 0 := by omega
                  exact exKey_rmat avx)
  (fun _ _ => exKey_weight) (by rw [default_modulus]; norm_num) (m := fun _ _ => exMsg avx) (e := fun _ _ => exErr avx)
  (exCt_phase avx) (fun r c z _ _ hz => by
    obtain ⟨h1, h2⟩ := exMsg_coeff avx hz
    rw [Par.q2Low_modulus, default_modulus]
    omega)

example (avx : Bool) := decode_switched (Par.default_ok avx) (Par.q2_ok avx) rfl (p := 256) (n := 1) (by norm_num)
  (by rw [Par.q2_modulus, default_modulus]; norm_num)
  (by rw [Par.q2_modulus]; norm_num) (ct := exCt) (sk := exKey) rfl rfl rfl rfl (exKey_le avx)
  (S := fun _ i => if i = 0 then 1 else 0) (W := 1)
  (fun r hr => by obtain rfl : r = 0 := by omega
                  exact exKey_rmat avx)
  (fun _ _ => exKey_weight) (by rw [default_modulus]; norm_num) (m := fun _ _ => exMsg avx) (e := fun _ _ => exErr avx)
  (exCt_phase avx) (fun r c z _ _ hz => by
    obtain ⟨h1, h2⟩ := exMsg_coeff avx hz
    rw [Par.q2_modulus, default_modulus]
    omega)

example := q2_table 19 (by norm_num) (by norm_num)

end Psi.Spiral
