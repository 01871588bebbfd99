import Verif.Spiral.RingModel
import Verif.Spiral.RingAlgebra
import Verif.Spiral.ArithProps

/-!
# The words of Spiral PIR as ring elements

`rval` is the ring element of a raw polynomial, `nval` of a transformed one.  Each polynomial operation of the code
is the ring operation on these values.
-/

namespace Psi.Spiral

open Finset

/-- Parameters the ring operations can be used with: one or two moduli with good tables. -/
structure ParOk (P : Par) : Prop where
  two : 2 ≤ P.L
  len : P.L ≤ 30
  good : ∀ (c : Nat) (t : Tables), P.tables[c]? = some t → GoodTables t P.L
  shape : P.tables.length = 1 ∨
    (P.tables.length = 2 ∧ P.crt.Ok ∧ P.crt.mod0 = P.mod 0 ∧ P.crt.mod1 = P.mod 1)

namespace ParOk

variable {P : Par}

theorem mod_eq {c : Nat} {t : Tables} (h : P.tables[c]? = some t) : P.mod c = t.modulus := by
  unfold Par.mod
  rw [h]
  rfl

theorem n_pos (_ : ParOk P) : 0 < P.n := by unfold Par.n; positivity

/-- The two possible shapes. -/
theorem cases (ok : ParOk P) :
    (∃ t, P.tables = [t] ∧ P.modulus = t.modulus) ∨
    (∃ t u, P.tables = [t, u] ∧ P.modulus = t.modulus * u.modulus ∧ P.crt.Ok ∧ P.crt.mod0 = t.modulus ∧
      P.crt.mod1 = u.modulus) := by
  rcases ok.shape with h | ⟨h, hc, h0, h1⟩
  · obtain ⟨t, ht⟩ := List.length_eq_one_iff.1 h
    left
    refine ⟨t, ht, ?_⟩
    have := (ok.good 0 t (by rw [ht]; rfl)).small.2
    unfold Par.modulus
    rw [ht]
    simp only [List.map_cons, List.map_nil, List.foldl_cons, List.foldl_nil]
    rw [Nat.one_mul, w64_of_lt (by omega)]
  · obtain ⟨t, u, ht⟩ := List.length_eq_two.1 h
    right
    refine ⟨t, u, ht, ?_, hc, ?_, ?_⟩
    · have := (ok.good 0 t (by rw [ht]; rfl)).small.2
      have := (ok.good 1 u (by rw [ht]; rfl)).small.2
      unfold Par.modulus
      rw [ht]
      simp only [List.map_cons, List.map_nil, List.foldl_cons, List.foldl_nil]
      rw [Nat.one_mul, w64_of_lt (x := t.modulus) (by omega), w64_of_lt]
      calc t.modulus * u.modulus ≤ 2 ^ 30 * 2 ^ 30 := Nat.mul_le_mul (by omega) (by omega)
        _ < 2 ^ 64 := by norm_num
    · rw [h0]; exact mod_eq (by rw [ht]; rfl)
    · rw [h1]; exact mod_eq (by rw [ht]; rfl)

theorem modulus_bounds (ok : ParOk P) : 2 ≤ P.modulus ∧ P.modulus < 2 ^ 60 := by
  rcases ok.cases with ⟨t, ht, hm⟩ | ⟨t, u, ht, hm, -⟩
  · have := (ok.good 0 t (by rw [ht]; rfl)).small
    have h1 := this.1
    have h2 := this.2
    omega
  · have h1 := (ok.good 0 t (by rw [ht]; rfl)).small
    have h2 := (ok.good 1 u (by rw [ht]; rfl)).small
    have a1 := h1.1
    have a2 := h1.2
    have b1 := h2.1
    have b2 := h2.2
    rw [hm]
    constructor
    · nlinarith
    · calc t.modulus * u.modulus < 2 ^ 30 * 2 ^ 30 := by nlinarith
        _ = 2 ^ 60 := by norm_num

theorem dvd (ok : ParOk P) {c : Nat} {t : Tables} (h : P.tables[c]? = some t) : t.modulus ∣ P.modulus := by
  rcases ok.cases with ⟨s, ht, hm⟩ | ⟨s, u, ht, hm, -⟩
  · rw [ht] at h
    match c with
    | 0 => rw [hm]; simp at h; rw [h]
    | c + 1 => simp at h
  · rw [ht] at h
    match c with
    | 0 => rw [hm]; simp at h; rw [h]; exact Nat.dvd_mul_right _ _
    | 1 => rw [hm]; simp at h; rw [h]; exact Nat.dvd_mul_left _ _
    | c + 2 => simp at h

theorem coprime (ok : ParOk P) {t u : Tables} (h : P.tables = [t, u]) : Nat.Coprime t.modulus u.modulus := by
  rcases ok.cases with ⟨s, ht, -⟩ | ⟨s, v, ht, -, hc, h0, h1⟩
  · rw [h] at ht; simp at ht
  · rw [h] at ht
    simp only [List.cons.injEq, and_true] at ht
    obtain ⟨rfl, rfl⟩ := ht
    rw [← h0, ← h1]
    exact Crt.coprime hc

/-- Congruence modulo the product is congruence modulo the factors. -/
theorem congr_of_factors (ok : ParOk P) {x y : ℤ}
    (h : ∀ (c : Nat) (t : Tables), P.tables[c]? = some t → x % t.modulus = y % t.modulus) : x % P.modulus = y % P.modulus := by
  rcases ok.cases with ⟨t, ht, hm⟩ | ⟨t, u, ht, hm, -⟩
  · rw [hm]
    exact h 0 t (by rw [ht]; rfl)
  · rw [hm]
    have h0 := h 0 t (by rw [ht]; rfl)
    have h1 := h 1 u (by rw [ht]; rfl)
    have hc := ok.coprime ht
    push_cast
    refine (Int.modEq_and_modEq_iff_modEq_mul ?_).1 ⟨h0, h1⟩
    simpa using hc

theorem point_pow (ok : ParOk P) {c : Nat} {t : Tables} (h : P.tables[c]? = some t) {k : Nat} (hk : k < P.n) :
    t.point P.L k ^ 2 ^ P.L = -1 :=
  rootAt_pow (ok.good c t h).roots P.L (le_refl _) hk

/-- Value of a ring element at point `k` for modulus `c`. -/
noncomputable def ev (ok : ParOk P) {c : Nat} {t : Tables} (h : P.tables[c]? = some t) {k : Nat} (hk : k < P.n) :
    Rq P.L P.modulus →+* ZMod t.modulus :=
  evalQ (ok.dvd h) (t.point P.L k) (ok.point_pow h hk)

/-- An element is determined by its values. -/
theorem ext (ok : ParOk P) {x y : Rq P.L P.modulus}
    (h : ∀ (c : Nat) (t : Tables) (hc : P.tables[c]? = some t) (k : Nat) (hk : k < P.n), ok.ev hc hk x = ok.ev hc hk y) : x = y := by
  obtain ⟨x, rfl⟩ := red_surjective _ _ x
  obtain ⟨y, rfl⟩ := red_surjective _ _ y
  rw [red_eq_coeff]
  intro i hi
  refine ok.congr_of_factors fun c t hc => ?_
  rw [← ZMod.intCast_eq_intCast_iff']
  refine eval_injective (ok.good c t hc) (a := fun i => ((coeff x i : ℤ) : ZMod t.modulus))
    (b := fun i => ((coeff y i : ℤ) : ZMod t.modulus)) (fun k hk => ?_) hi
  have := h c t hc k hk
  unfold ev at this
  rw [evalQ_red, evalQ_red, ← toA_coeff x, ← toA_coeff y, evalHom_toA, evalHom_toA] at this
  exact this

end ParOk

variable {P : Par}

/-- The ring element of a raw polynomial. -/
noncomputable def rval (P : Par) (a : Words) : Rq P.L P.modulus := red _ _ (toA P.L fun i => (a i : ℤ))

/-- The ring element of a transformed polynomial. -/
noncomputable def nval (P : Par) (w : Words) : Rq P.L P.modulus := rval P (fromNttPoly P w)

theorem rval_congr {a b : Words} (h : ∀ k, k < P.n → a k = b k) : rval P a = rval P b := by
  unfold rval
  rw [toA_congr fun k hk => by rw [h k hk]]

/-- Raw polynomials with congruent coefficients have the same value. -/
theorem rval_eq_iff {a b : Words} : rval P a = rval P b ↔ ∀ k, k < P.n → a k % P.modulus = b k % P.modulus := by
  unfold rval
  rw [red_eq_coeff]
  constructor
  · intro h k hk
    have := h k hk
    rw [coeff_toA _ hk, coeff_toA _ hk] at this
    exact_mod_cast this
  · intro h k hk
    rw [coeff_toA _ hk, coeff_toA _ hk]
    exact_mod_cast h k hk

/-- The words of a transformed polynomial are reduced, up to the modulus itself. -/
def NttOk (P : Par) (w : Words) : Prop :=
  ∀ (c : Nat) (t : Tables), P.tables[c]? = some t → ∀ k, k < P.n → w (c * P.n + k) ≤ t.modulus

theorem ev_rval (ok : ParOk P) {c : Nat} {t : Tables} (h : P.tables[c]? = some t) {k : Nat} (hk : k < P.n)
    (a : Words) : ok.ev h hk (rval P a) = evalAt (residues t.modulus a) P.n (t.point P.L k) := by
  unfold rval ParOk.ev
  rw [evalQ_red, evalHom_toA]
  unfold residues
  simp only [Int.cast_natCast]
  rfl

theorem div_add (n c k : Nat) (hk : k < n) : (c * n + k) / n = c ∧ (c * n + k) % n = k := by
  have hn : 0 < n := by omega
  constructor
  · rw [Nat.mul_comm, Nat.mul_add_div hn, Nat.div_eq_of_lt hk, Nat.add_zero]
  · rw [Nat.mul_comm, Nat.mul_add_mod, Nat.mod_eq_of_lt hk]

/-- The composed coefficient has the residues of the inverse transforms. -/
theorem compose_spec (ok : ParOk P) (w : Words) {i : Nat} (_hi : i < P.n)
    (hw : ∀ (c : Nat) (t : Tables), P.tables[c]? = some t → w (c * P.n + i) < t.modulus) :
    P.compose w i < P.modulus ∧
      ∀ (c : Nat) (t : Tables), P.tables[c]? = some t → P.compose w i % t.modulus = w (c * P.n + i) % t.modulus := by
  unfold Par.compose
  rcases ok.cases with ⟨t, ht, hm⟩ | ⟨t, u, ht, hm, hc, h0, h1⟩
  · rw [if_pos (by rw [ht]; rfl), hm]
    have := hw 0 t (by rw [ht]; rfl)
    rw [Nat.zero_mul, Nat.zero_add] at this
    refine ⟨this, fun c t' h => ?_⟩
    rw [ht] at h
    match c with
    | 0 => rw [Nat.zero_mul, Nat.zero_add]
    | c + 1 => simp at h
  · rw [if_neg (by rw [ht]; simp)]
    have b0 := hw 0 t (by rw [ht]; rfl)
    have b1 := hw 1 u (by rw [ht]; rfl)
    have s0 := (ok.good 0 t (by rw [ht]; rfl)).small.2
    have s1 := (ok.good 1 u (by rw [ht]; rfl)).small.2
    rw [Nat.zero_mul, Nat.zero_add] at b0
    rw [Nat.one_mul, Nat.add_comm] at b1
    obtain ⟨⟨e1, e2, e3⟩, -⟩ := crt_compose_exact hc (x := w i) (y := w (i + P.n)) (by omega) (by omega)
    rw [h0, h1] at e1
    rw [h0] at e2
    rw [h1] at e3
    refine ⟨by rw [hm]; exact e1, fun c t' h => ?_⟩
    rw [ht] at h
    match c with
    | 0 =>
      simp only [List.getElem?_cons_zero, Option.some.injEq] at h
      rw [← h, Nat.zero_mul, Nat.zero_add]
      exact e2
    | 1 =>
      simp only [List.getElem?_cons_succ, List.getElem?_cons_zero, Option.some.injEq] at h
      rw [← h, Nat.one_mul, Nat.add_comm P.n i]
      exact e3
    | c + 2 => simp at h

/-- Words up to twice the modulus come back as the polynomial with these values. -/
theorem fromNttPoly_spec (ok : ParOk P) (w : Words)
    (hw : ∀ (c : Nat) (t : Tables), P.tables[c]? = some t → ∀ k, k < P.n → w (c * P.n + k) ≤ 2 * t.modulus) :
    (∀ i, i < P.n → fromNttPoly P w i < P.modulus) ∧
    ∀ (c : Nat) (t : Tables) (hc : P.tables[c]? = some t) (k : Nat) (hk : k < P.n),
      ok.ev hc hk (nval P w) = ((w (c * P.n + k) : Nat) : ZMod t.modulus) := by
  have hex : ∀ (c : Nat) (t : Tables), P.tables[c]? = some t → ∃ a : Nat → ZMod t.modulus, ∀ k, k < 2 ^ P.L →
      ((w (c * P.n + k) : Nat) : ZMod t.modulus) = evalAt a (2 ^ P.L) (t.point P.L k) := by
    intro c t hc
    obtain ⟨half, hh⟩ := ZMod.half_exists (ok.good c t hc).odd
    exact eval_onto (ok.good c t hc).roots hh (ok.good c t hc).inverse
      (fun k => ((w (c * P.n + k) : Nat) : ZMod t.modulus))
  have hinv : ∀ (c : Nat) (t : Tables), P.tables[c]? = some t → ∀ i, i < P.n →
      nttInverseAll P.avx P.tables P.L w (c * P.n + i) =
        nttInverse P.avx t P.L (fun j => w (c * P.n + j)) i := fun c t hc i hi =>
    (ntt_all_moduli P.avx P.tables P.L w c t hc hi).2
  have hlt : ∀ i, i < P.n → ∀ (c : Nat) (t : Tables), P.tables[c]? = some t →
      nttInverseAll P.avx P.tables P.L w (c * P.n + i) < t.modulus := by
    intro i hi c t hc
    rw [hinv c t hc i hi]
    obtain ⟨a, ha⟩ := hex c t hc
    exact (nttInverse_spec (ok.good c t hc) P.avx _ a (fun k hk => hw c t hc k hk) ha hi).2
  refine ⟨fun i hi => (compose_spec ok _ hi (hlt i hi)).1, fun c t hc k hk => ?_⟩
  obtain ⟨a, ha⟩ := hex c t hc
  unfold nval
  rw [ev_rval, ha k hk]
  unfold evalAt
  refine sum_congr rfl fun i hi => ?_
  rw [mem_range] at hi
  congr 1
  have e := (nttInverse_spec (ok.good c t hc) P.avx _ a (fun k hk => hw c t hc k hk) ha hi).1
  unfold residues
  rw [← e, ← hinv c t hc i hi]
  exact (ZMod.natCast_eq_natCast_iff' _ _ _).2 ((compose_spec ok _ hi (hlt i hi)).2 c t hc)

theorem ev_nval (ok : ParOk P) {w : Words} (hw : NttOk P w) {c : Nat} {t : Tables} (hc : P.tables[c]? = some t)
    {k : Nat} (hk : k < P.n) : ok.ev hc hk (nval P w) = ((w (c * P.n + k) : Nat) : ZMod t.modulus) :=
  (fromNttPoly_spec ok w fun c t hc k hk => by have := hw c t hc k hk; omega).2 c t hc k hk

theorem fromNttPoly_lt (ok : ParOk P) {w : Words} (hw : NttOk P w) {i : Nat} (hi : i < P.n) :
    fromNttPoly P w i < P.modulus :=
  (fromNttPoly_spec ok w fun c t hc k hk => by have := hw c t hc k hk; omega).1 i hi

theorem rval_fromNttPoly (w : Words) : rval P (fromNttPoly P w) = nval P w := rfl

/-- To show that an operation on words is a ring operation, compare the words. -/
theorem nval_eq (ok : ParOk P) {w : Words} (hw : NttOk P w) {x : Rq P.L P.modulus}
    (h : ∀ (c : Nat) (t : Tables) (hc : P.tables[c]? = some t) (k : Nat) (hk : k < P.n),
      ((w (c * P.n + k) : Nat) : ZMod t.modulus) = ok.ev hc hk x) : nval P w = x :=
  ok.ext fun c t hc k hk => by rw [ev_nval ok hw hc hk, h c t hc k hk]

/-! ### The polynomial operations -/

theorem toNtt_words (ok : ParOk P) (b : Words) (a : Words)
    (hb : ∀ (c : Nat) (t : Tables), P.tables[c]? = some t → ∀ k, k < P.n → b (c * P.n + k) < 4 * t.modulus)
    (hab : ∀ (c : Nat) (t : Tables), P.tables[c]? = some t → ∀ k, k < P.n → b (c * P.n + k) % t.modulus = a k % t.modulus) :
    NttOk P (nttForwardAll P.avx P.tables P.L b) ∧ nval P (nttForwardAll P.avx P.tables P.L b) = rval P a := by
  have hf : ∀ (c : Nat) (t : Tables), P.tables[c]? = some t → ∀ k, k < P.n →
      nttForwardAll P.avx P.tables P.L b (c * P.n + k) =
        nttForward P.avx t P.L (fun j => b (c * P.n + j)) k := fun c t hc k hk =>
    (ntt_all_moduli P.avx P.tables P.L b c t hc hk).1
  have hok : NttOk P (nttForwardAll P.avx P.tables P.L b) := by
    intro c t hc k hk
    rw [hf c t hc k hk]
    have hs := nttForward_spec (ok.good c t hc) P.avx (fun j => b (c * P.n + j)) (hb c t hc) hk
    have := ok.two
    rcases Bool.eq_false_or_eq_true P.avx with h | h
    · exact hs.2.2.1 h this
    · exact Nat.le_of_lt (hs.2.2.2 h (by omega))
  refine ⟨hok, nval_eq ok hok fun c t hc k hk => ?_⟩
  rw [hf c t hc k hk, ev_rval]
  rw [(nttForward_spec (ok.good c t hc) P.avx (fun j => b (c * P.n + j)) (hb c t hc) hk).1]
  unfold evalAt
  refine sum_congr rfl fun i hi => ?_
  rw [mem_range] at hi
  congr 1
  unfold residues
  exact (ZMod.natCast_eq_natCast_iff' _ _ _).2 (hab c t hc i hi)

theorem toNttPoly_spec (ok : ParOk P) {a : Words} (ha : ∀ k, k < P.n → a k < 2 ^ 64) :
    NttOk P (toNttPoly P a) ∧ nval P (toNttPoly P a) = rval P a := by
  have key : ∀ (c : Nat) (t : Tables), P.tables[c]? = some t → ∀ k, k < P.n → reduceCopy P a (c * P.n + k) = a k % t.modulus := by
    intro c t hc k hk
    unfold reduceCopy
    rw [(div_add P.n c k hk).1, (div_add P.n c k hk).2, ParOk.mod_eq hc,
      barrettCoeffU64_eq (ok.good c t hc).small.1 (ha k hk)]
  refine toNtt_words ok _ a (fun c t hc k hk => ?_) fun c t hc k hk => ?_
  · rw [key c t hc k hk]
    have h1 := (ok.good c t hc).small.1
    have := Nat.mod_lt (a k) (show 0 < t.modulus by omega)
    omega
  · rw [key c t hc k hk, Nat.mod_mod]

theorem toNttNoReducePoly_spec (ok : ParOk P) {a : Words}
    (ha : ∀ (c : Nat) (t : Tables), P.tables[c]? = some t → ∀ k, k < P.n → a k < 4 * t.modulus) :
    NttOk P (toNttNoReducePoly P a) ∧ nval P (toNttNoReducePoly P a) = rval P a := by
  refine toNtt_words ok _ a (fun c t hc k hk => ?_) fun c t hc k hk => ?_
  · show a ((c * P.n + k) % P.n) < _
    rw [(div_add P.n c k hk).2]
    exact ha c t hc k hk
  · show a ((c * P.n + k) % P.n) % _ = _
    rw [(div_add P.n c k hk).2]

theorem zeroPoly_spec (ok : ParOk P) : NttOk P (fun _ => 0) ∧ nval P (fun _ => 0) = 0 := by
  have h : NttOk P (fun _ => 0) := fun _ _ _ _ _ => Nat.zero_le _
  refine ⟨h, nval_eq ok h fun c t hc k hk => ?_⟩
  rw [map_zero, Nat.cast_zero]

/-- A word operation that is exact modulo each modulus. -/
theorem wordOp_spec (ok : ParOk P) {w : Words} {x : Rq P.L P.modulus} (f : Nat → Nat → Nat)
    (h1 : ∀ (c : Nat) (t : Tables), P.tables[c]? = some t → ∀ k, k < P.n → w (c * P.n + k) = f c k % t.modulus)
    (h2 : ∀ (c : Nat) (t : Tables) (hc : P.tables[c]? = some t) (k : Nat) (hk : k < P.n), ((f c k : Nat) : ZMod t.modulus) = ok.ev hc hk x) :
    NttOk P w ∧ nval P w = x := by
  have hok : NttOk P w := by
    intro c t hc k hk
    rw [h1 c t hc k hk]
    have h1 := (ok.good c t hc).small.1
    exact Nat.le_of_lt (Nat.mod_lt _ (by omega))
  refine ⟨hok, nval_eq ok hok fun c t hc k hk => ?_⟩
  rw [h1 c t hc k hk, cast_mod, h2 c t hc k hk]

theorem NttOk.lt (ok : ParOk P) {w : Words} (hw : NttOk P w) {c : Nat} {t : Tables} (hc : P.tables[c]? = some t)
    {k : Nat} (hk : k < P.n) : w (c * P.n + k) < 2 ^ 30 := by
  have h1 := (ok.good c t hc).small.2
  have := hw c t hc k hk
  omega

theorem multiplyPoly_spec (ok : ParOk P) {a b : Words} (ha : NttOk P a) (hb : NttOk P b) :
    NttOk P (multiplyPoly P a b) ∧ nval P (multiplyPoly P a b) = nval P a * nval P b := by
  refine wordOp_spec ok (fun c k => a (c * P.n + k) * b (c * P.n + k)) (fun c t hc k hk => ?_) fun c t hc k hk => ?_
  · unfold multiplyPoly
    rw [(div_add P.n c k hk).1, ParOk.mod_eq hc]
    refine multiplyModular_eq (ok.good c t hc).small.1 ?_
    calc _ ≤ 2 ^ 30 * 2 ^ 30 := Nat.mul_le_mul (ha.lt ok hc hk).le (hb.lt ok hc hk).le
      _ < 2 ^ 64 := by norm_num
  · rw [map_mul, ev_nval ok ha, ev_nval ok hb, Nat.cast_mul]

theorem multiplyAddPoly_spec (ok : ParOk P) {r a b : Words} (hr : NttOk P r) (ha : NttOk P a) (hb : NttOk P b) :
    NttOk P (multiplyAddPoly P r a b) ∧ nval P (multiplyAddPoly P r a b) = nval P r + nval P a * nval P b := by
  refine wordOp_spec ok (fun c k => a (c * P.n + k) * b (c * P.n + k) + r (c * P.n + k)) (fun c t hc k hk => ?_)
    fun c t hc k hk => ?_
  · have h1 := ha.lt ok hc hk
    have h2 := hb.lt ok hc hk
    have h3 := hr.lt ok hc hk
    have h4 : a (c * P.n + k) * b (c * P.n + k) + r (c * P.n + k) < 2 ^ 64 := by
      calc _ ≤ 2 ^ 30 * 2 ^ 30 + 2 ^ 30 := Nat.add_le_add (Nat.mul_le_mul h1.le h2.le) h3.le
        _ < 2 ^ 64 := by norm_num
    unfold multiplyAddPoly
    split_ifs with hx
    · unfold reducePoly
      show barrettCoeffU64 (P.mod ((c * P.n + k) / P.n))
        (w64 (r (c * P.n + k) + w32 (a (c * P.n + k)) * w32 (b (c * P.n + k)))) = _
      rw [(div_add P.n c k hk).1, ParOk.mod_eq hc, w32_of_lt (by omega), w32_of_lt (by omega), Nat.add_comm (r _),
        w64_of_lt h4, barrettCoeffU64_eq (ok.good c t hc).small.1 h4]
    · show multiplyAddModular (P.mod ((c * P.n + k) / P.n)) _ _ _ = _
      rw [(div_add P.n c k hk).1, ParOk.mod_eq hc]
      exact multiplyAddModular_eq (ok.good c t hc).small.1 h4
  · rw [map_add, map_mul, ev_nval ok ha, ev_nval ok hb, ev_nval ok hr]
    push_cast
    ring

theorem addPoly_spec (ok : ParOk P) {a b : Words} (ha : NttOk P a) (hb : NttOk P b) :
    NttOk P (addPoly P a b) ∧ nval P (addPoly P a b) = nval P a + nval P b := by
  refine wordOp_spec ok (fun c k => a (c * P.n + k) + b (c * P.n + k)) (fun c t hc k hk => ?_) fun c t hc k hk => ?_
  · unfold addPoly
    rw [(div_add P.n c k hk).1, ParOk.mod_eq hc]
    have h1 := ha.lt ok hc hk
    have h2 := hb.lt ok hc hk
    exact addModular_eq (ok.good c t hc).small.1 (by omega)
  · rw [map_add, ev_nval ok ha, ev_nval ok hb, Nat.cast_add]

theorem invertPoly_spec (ok : ParOk P) {a : Words} (ha : ∀ k, k < P.n → a k ≤ P.modulus) :
    (∀ k, k < P.n → invertPoly P a k ≤ P.modulus) ∧ rval P (invertPoly P a) = -rval P a := by
  have hb := ok.modulus_bounds
  have e : ∀ k, k < P.n → invertPoly P a k = P.modulus - a k := fun k hk =>
    sub64_of_le (by omega) (ha k hk)
  refine ⟨fun k hk => by rw [e k hk]; omega, ?_⟩
  unfold rval
  rw [← map_neg, ← toA_neg, red_eq_coeff]
  intro k hk
  rw [coeff_toA _ hk, coeff_toA _ hk, e k hk, Nat.cast_sub (ha k hk), ← Int.sub_emod_right]
  congr 1
  ring

/-! ### The automorphism -/

theorem rem_injective {L t i j : Nat} (ht : t % 2 = 1) (hi : i < 2 ^ L) (hj : j < 2 ^ L)
    (h : i * t % 2 ^ L = j * t % 2 ^ L) : i = j := by
  have hc : Nat.Coprime (2 ^ L) t := by
    refine Nat.Coprime.pow_left _ ?_
    rw [Nat.coprime_two_left, Nat.odd_iff]
    exact ht
  have := Nat.ModEq.cancel_right_of_coprime (m := 2 ^ L) (a := i) (b := j) (c := t) hc h
  exact Nat.ModEq.eq_of_lt_of_lt this hi hj

theorem automorph_prefix (P : Par) (a : Words) (t : Nat) (hL : P.L ≤ 30) (ht : t % 2 = 1) (ht2 : t ≤ P.n + 1) (m : Nat)
    (hm : m ≤ P.n) (z : Words) :
    (∀ i, i < m → (List.range m).foldl (automorphStep P a t) z (i * t % P.n) =
      if i * t / P.n % 2 = 0 then a i else sub64 P.modulus (a i)) ∧
    ∀ k, (∀ i, i < m → k ≠ i * t % P.n) → (List.range m).foldl (automorphStep P a t) z k = z k := by
  have hn : P.n ≤ 2 ^ 30 := by
    unfold Par.n
    exact Nat.pow_le_pow_right (by norm_num) hL
  induction m with
  | zero => exact ⟨fun i hi => absurd hi (by omega), fun k _ => rfl⟩
  | succ m ih =>
    obtain ⟨h1, h2⟩ := ih (by omega)
    have hw : w64 (m * t) = m * t := by
      refine w64_of_lt ?_
      calc m * t ≤ 2 ^ 30 * (2 ^ 30 + 1) := Nat.mul_le_mul (by omega) (by omega)
        _ < 2 ^ 64 := by norm_num
    rw [List.range_succ, List.foldl_append]
    simp only [List.foldl_cons, List.foldl_nil]
    unfold automorphStep
    simp only [hw]
    unfold upd
    refine ⟨fun i hi => ?_, fun k hk => ?_⟩
    · by_cases hc : i = m
      · subst hc
        rw [if_pos rfl]
      · rw [if_neg]
        · have := h1 i (by omega)
          unfold automorphStep at this
          exact this
        · intro he
          exact hc (rem_injective ht (L := P.L) (show i < P.n by omega) (show m < P.n by omega) he)
    · rw [if_neg (hk m (by omega))]
      have := h2 k fun i hi => hk i (by omega)
      unfold automorphStep at this
      exact this

theorem automorphPoly_spec (ok : ParOk P) {a : Words} (ha : ∀ k, k < P.n → a k ≤ P.modulus) {t : Nat}
    (ht : t % 2 = 1) (ht2 : t ≤ P.n + 1) :
    (∀ k, k < P.n → automorphPoly P a t k ≤ P.modulus) ∧
      rval P (automorphPoly P a t) = tauQ _ _ t ht (rval P a) := by
  have hb := ok.modulus_bounds
  obtain ⟨h1, -⟩ := automorph_prefix P a t ok.len ht ht2 P.n (le_refl _) fun _ => 0
  have hpos := ok.n_pos
  have hinj : Set.InjOn (fun i => i * t % P.n) (range P.n) := by
    intro i hi j hj h
    exact rem_injective ht (L := P.L) (mem_range.1 (mem_coe.1 hi)) (mem_range.1 (mem_coe.1 hj)) h
  have himg : (range P.n).image (fun i => i * t % P.n) = range P.n := by
    refine Finset.eq_of_subset_of_card_le (fun k hk => ?_) ?_
    · obtain ⟨i, -, rfl⟩ := mem_image.1 hk
      exact mem_range.2 (Nat.mod_lt _ hpos)
    · rw [card_image_of_injOn hinj]
  constructor
  · intro k hk
    have : k ∈ (range P.n).image (fun i => i * t % P.n) := by rw [himg]; exact mem_range.2 hk
    obtain ⟨i, hi, rfl⟩ := mem_image.1 this
    rw [mem_range] at hi
    show (List.range P.n).foldl (automorphStep P a t) (fun _ => 0) (i * t % P.n) ≤ _
    rw [h1 i hi]
    have := ha i hi
    split_ifs
    · exact this
    · rw [sub64_of_le (by omega) this]
      omega
  · unfold rval
    rw [tauQ_red]
    have e1 : tau P.L t ht (toA P.L fun i => (a i : ℤ)) = ∑ i ∈ range P.n, (a i : A P.L) * (xx P.L ^ t) ^ i := by
      unfold tau
      rw [evalHom_toA]
      unfold evalAt
      simp only [Int.cast_natCast]
      rfl
    have e2 : (toA P.L fun i => (automorphPoly P a t i : ℤ)) =
        ∑ i ∈ range P.n, (automorphPoly P a t (i * t % P.n) : A P.L) * xx P.L ^ (i * t % P.n) := by
      rw [← sum_image (f := fun k => (automorphPoly P a t k : A P.L) * xx P.L ^ k) hinj, himg]
      unfold toA evalAt
      simp only [Int.cast_natCast]
      rfl
    rw [e1, e2, map_sum, map_sum]
    refine sum_congr rfl fun i hi => ?_
    rw [mem_range] at hi
    have hv : automorphPoly P a t (i * t % P.n) = if i * t / P.n % 2 = 0 then a i else sub64 P.modulus (a i) :=
      h1 i hi
    have hx : (xx P.L ^ t) ^ i = (-1) ^ (i * t / P.n) * xx P.L ^ (i * t % P.n) := by
      rw [← pow_mul, Nat.mul_comm t i]
      conv_lhs => rw [← Nat.div_add_mod (i * t) P.n]
      rw [pow_add, pow_mul]
      show (xx P.L ^ 2 ^ P.L) ^ _ * _ = _
      rw [xx_pow]
    rw [hv, hx]
    split_ifs with hpar
    · rw [Even.neg_one_pow (Nat.even_iff.2 hpar), one_mul]
    · rw [Odd.neg_one_pow (Nat.odd_iff.2 (by omega)), sub64_of_le (by omega) (ha i hi), Nat.cast_sub (ha i hi)]
      rw [red_eq_iff]
      exact ⟨xx P.L ^ (i * t % P.n), by ring⟩

end Psi.Spiral
