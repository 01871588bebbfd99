import Verif.Spiral.SchemeAnswer
import Verif.Spiral.ParamProps

/-!
# From a query to the row: the phases of the answer
-/

namespace Psi.Spiral

open Finset

variable {P : Par} {D : Scheme}

/-! ### The secret keys as integer polynomials -/

/-- A word of a key between `-q / 2` and `q / 2`. -/
def keyCoeff (P : Par) (sk : Mat) (r z : Nat) : ℤ := centre (sk.poly r 0 z) P.modulus

theorem keyCoeff_red (ok : ParOk P) {n : Nat} {sk : Mat} (hsk : RawLe P sk (P.modulus - 1)) (hr : sk.rows = n)
    (hc : sk.cols = 1) {r : Nat} (h : r < n) : rmat P sk r 0 = red _ _ (toA P.L (keyCoeff P sk r)) := by
  have hb := ok.modulus_bounds
  unfold rmat rval
  rw [red_eq_coeff]
  intro k hk
  rw [coeff_toA _ hk, coeff_toA _ hk]
  have := hsk r 0 (by omega) (by omega) k hk
  exact (centre_bounds (by omega)).1.symm

/-! ### One plaintext polynomial -/

/-- What the server holds and the client sent. -/
structure Run (P : Par) where
  keys : PublicKeys
  coins : KeyCoins
  sample : Nat → Sample
  secret : A P.L
  idx : Nat
  query : Mat
  parts : List (List (List Nat))
  dbs : Words
  size : Nat

/-- The noise after the first dimension. -/
noncomputable def firstNoise (P : Par) (D : Scheme) (R : Run P) (part trial i : Nat) : A P.L :=
  ∑ j ∈ range (2 ^ D.dims.v1), queryNoise P D R.keys R.coins R.sample R.query (2 * j) *
    ptPoly P D.p ((R.parts.getD part []).getD (j * 2 ^ D.dims.v2 + i) []) trial

/-- The ciphertexts after some rounds of folding. -/
def foldState (P : Par) (D : Scheme) (R : Run P) (part trial : Nat) : Nat → Nat → Mat :=
  let dim0 := 2 ^ D.dims.v1
  let numPer := 2 ^ D.dims.v2
  let first := reorientReg P dim0 fun i => expandQuery P D R.keys R.query (2 * i)
  let folding := foldingOf P D R.keys R.query
  foldCts P D folding (fun i => foldingNeg P D (folding i))
    (fun i => fromNtt P (multiplyRegByDatabase P R.dbs first dim0 numPer (part * R.size + trial * (dim0 * numPer * P.n)) i))

/-- The noise of `answerCt`. -/
noncomputable def answerNoise (P : Par) (D : Scheme) (R : Run P) (part trial : Nat) : A P.L :=
  foldNoise P D (selBit P.L D R.idx) (gswNoise P D R.keys R.coins R.sample R.secret R.query)
    (foldState P D R part trial) (firstNoise P D R part trial) D.dims.v2 0

/-- The noise of entry `(r, c)` of the packed answer. -/
noncomputable def respNoise (P : Par) (D : Scheme) (R : Run P) (part r c : Nat) : A P.L :=
  answerNoise P D R part (r * D.n + c) +
    packNoise P D R.coins (answerCt P D R.keys R.dbs R.size R.query part) r c

/-- The run of the protocol for one index. -/
structure RunOk (P : Par) (D : Scheme) (skReg skGsw : Mat) (invFirst invRest : Nat) (R : Run P) : Prop where
  scheme : SchemeOk P D
  two : P.tables.length = 2
  pt : D.p ≤ P.modulus
  query : QueryOk P D skReg R.idx invFirst invRest R.sample
  gsw : KeyOk P D.n skGsw
  coins : CoinsOk P D R.coins
  secret : rmat P skReg 0 0 = red _ _ R.secret
  keys : KeysFor P D skReg skGsw R.coins R.keys
  sent : SentQuery P D skReg R.idx invFirst invRest R.sample R.query
  size : R.size = D.n * D.n * (2 ^ D.dims.v1 * 2 ^ D.dims.v2) * P.n
  lens : ∀ db ∈ R.parts, db.length = 2 ^ D.dims.v1 * 2 ^ D.dims.v2
  coeffs : ∀ db ∈ R.parts, ∀ c ∈ db, D.n * D.n * P.n ≤ c.length ∧ ∀ x ∈ c, x < D.p
  stored : ∃ vs, mapRes (reorientDatabase P D.p (D.n * D.n) (2 ^ D.dims.v2) (2 ^ D.dims.v1)) R.parts = .ok vs ∧
    R.dbs = concatDbs R.size vs

variable {skReg skGsw : Mat} {invFirst invRest : Nat} {R : Run P}

/-- The plaintext asked for. -/
noncomputable def askedPoly (P : Par) (D : Scheme) (R : Run P) (part trial : Nat) : A P.L :=
  ptPoly P D.p ((R.parts.getD part []).getD R.idx []) trial

theorem answerCt_spec (ok : ParOk P) (h : RunOk P D skReg skGsw invFirst invRest R) {part trial : Nat}
    (hpart : part < R.parts.length) (htrial : trial < D.n * D.n) :
    RawCt P (answerCt P D R.keys R.dbs R.size R.query part trial) ∧
      rph P (rmat P skReg 0 0) (answerCt P D R.keys R.dbs R.size R.query part trial) =
        red _ _ (((P.modulus / D.p : Nat) : A P.L) * askedPoly P D R part trial + answerNoise P D R part trial) := by
  obtain ⟨keys, coins, sample, secret, idx, query, parts, dbs, size⟩ := R
  obtain ⟨so, two, hp, hq, hg, hC, hS, hK, hsent, hsize, hlens, hcoeffs, vs, hvs, hdbs⟩ := h
  simp only at *
  have hreg := fun j (hj : j < 2 ^ D.dims.v1) => expandQuery_even ok so hq hC hK hsent hj
  have hv1 : D.dims.v1 ≤ 11 := so.checks.2.2.2.1
  obtain ⟨vs', e1, e2⟩ := first_dimension_ring ok two (p := D.p) (trials := D.n * D.n) (numPer := 2 ^ D.dims.v2)
    (dim0 := 2 ^ D.dims.v1) hp (Nat.pow_le_pow_right (by norm_num) (by omega)) hlens (fun db hd c hc => (hcoeffs db hd c hc).1)
    (fun db hd c hc => (hcoeffs db hd c hc).2)
    (reg := fun j => expandQuery P D keys query (2 * j))
    (fun j hj => ⟨(hreg j hj).1.ok, (hreg j hj).1.rows, (hreg j hj).1.cols⟩)
  rw [hvs] at e1
  obtain rfl : vs = vs' := Res.ok.inj e1
  subst hsize
  rw [← hdbs] at e2
  have h0 : idx / 2 ^ D.dims.v2 < 2 ^ D.dims.v1 := (Nat.div_lt_iff_lt_mul (by positivity)).2 hq.idx_lt
  have hfold := fun i (hi : i < D.dims.v2) => folding_spec ok so hq hC hS hK hsent hi
  have key := foldCts_spec ok so.tgsw_pos (idx := idx) (sk := rmat P skReg 0 0)
    (c := foldingOf P D keys query)
    (M := gswNoise P D keys coins sample secret query)
    (fun i hi => (hfold i hi).1) (fun i j k hi => (hfold i hi).2 j k)
    (v := fun i => fromNtt P (multiplyRegByDatabase P dbs (reorientReg P (2 ^ D.dims.v1) fun i =>
      expandQuery P D keys query (2 * i)) (2 ^ D.dims.v1) (2 ^ D.dims.v2)
      (part * (D.n * D.n * (2 ^ D.dims.v1 * 2 ^ D.dims.v2) * P.n) + trial * (2 ^ D.dims.v1 * 2 ^ D.dims.v2 * P.n)) i))
    (m := fun i => ((P.modulus / D.p : Nat) : A P.L) *
      ptPoly P D.p ((parts.getD part []).getD (idx / 2 ^ D.dims.v2 * 2 ^ D.dims.v2 + i) []) trial)
    (N := firstNoise P D ⟨keys, coins, sample, secret, idx, query, parts, dbs,
      D.n * D.n * (2 ^ D.dims.v1 * 2 ^ D.dims.v2) * P.n⟩ part trial) (by
      intro i hi
      obtain ⟨o1, o2⟩ := e2 part trial i hpart htrial hi
      set out := multiplyRegByDatabase P dbs (reorientReg P (2 ^ D.dims.v1) fun i =>
        expandQuery P D keys query (2 * i)) (2 ^ D.dims.v1) (2 ^ D.dims.v2)
        (part * (D.n * D.n * (2 ^ D.dims.v1 * 2 ^ D.dims.v2) * P.n) + trial * (2 ^ D.dims.v1 * 2 ^ D.dims.v2 * P.n)) i with hout
      have oc : CtOk P out 1 := ⟨o1, by rw [hout, multiplyRegByDatabase, Mat.build_rows], by
        rw [hout, multiplyRegByDatabase, Mat.build_cols]⟩
      obtain ⟨f1, f2⟩ := oc.toRaw ok (rmat P skReg 0 0)
      refine ⟨f1, f2.trans ?_⟩
      unfold ph firstNoise
      rw [o2 0 (by omega), o2 1 (by omega), mul_sum, ← sum_add_distrib, map_add (red _ _), map_sum, 
        map_mul (red _ _)]
      have hterm : ∀ j ∈ range (2 ^ D.dims.v1), rmat P skReg 0 0 * (mval P (expandQuery P D keys query
            (2 * j)) 0 0 * red _ _ (ptPoly P D.p ((parts.getD part []).getD (j * 2 ^ D.dims.v2 + i) []) trial)) +
          mval P (expandQuery P D keys query (2 * j)) 1 0 *
            red _ _ (ptPoly P D.p ((parts.getD part []).getD (j * 2 ^ D.dims.v2 + i) []) trial) =
          (if j = idx / 2 ^ D.dims.v2 then red _ _ (((P.modulus / D.p : Nat) : A P.L)) *
            red _ _ (ptPoly P D.p ((parts.getD part []).getD (j * 2 ^ D.dims.v2 + i) []) trial) else 0) +
          red _ _ (queryNoise P D keys coins sample query (2 * j) *
            ptPoly P D.p ((parts.getD part []).getD (j * 2 ^ D.dims.v2 + i) []) trial) := by
        intro j hj
        have hph := (hreg j (mem_range.1 hj)).2
        unfold ph at hph
        rw [map_mul (red _ _), ← mul_assoc, ← add_mul, hph, map_add (red _ _), add_mul]
        congr 1
        split_ifs
        · rfl
        · rw [Nat.cast_zero, map_zero, zero_mul]
      rw [sum_congr rfl hterm, sum_add_distrib, sum_ite_eq' (range (2 ^ D.dims.v1)), if_pos (mem_range.2 h0)])
    le_rfl (i := 0) (by simp)
  simp only [Nat.sub_self, pow_zero, Nat.div_one, Nat.mul_one, Nat.add_zero] at key
  have hidx : idx / 2 ^ D.dims.v2 * 2 ^ D.dims.v2 + idx % 2 ^ D.dims.v2 = idx := by
    rw [Nat.mul_comm]
    exact Nat.div_add_mod _ _
  rw [hidx] at key
  exact key

theorem packed_spec (ok : ParOk P) (h : RunOk P D skReg skGsw invFirst invRest R) {part : Nat}
    (hpart : part < R.parts.length) :
    let ct := fromNtt P (packCts P D R.keys.packing (answerCt P D R.keys R.dbs R.size R.query part))
    ct.rows = D.n + 1 ∧ ct.cols = D.n ∧ ∀ r c, r < D.n → c < D.n →
      rmat P skGsw r 0 * rmat P ct 0 c + rmat P ct (r + 1) c =
        red _ _ (((P.modulus / D.p : Nat) : A P.L) * askedPoly P D R part (r * D.n + c) + respNoise P D R part r c) := by
  have hct := fun i (hi : i < D.n * D.n) => answerCt_spec ok h hpart hi
  obtain ⟨p1, p2, p3, p4⟩ := packCts_spec ok h.scheme h.query.key h.gsw h.coins h.keys fun i hi => (hct i hi).1
  obtain ⟨f1, f2⟩ := fromNtt_spec ok p1
  refine ⟨by rw [fromNtt_rows, p2], by rw [fromNtt_cols, p3], fun r c hr hc => ?_⟩
  have hlt : r * D.n + c < D.n * D.n := by
    have := Nat.mul_le_mul_right D.n (Nat.succ_le_of_lt hr)
    rw [Nat.succ_mul] at this
    omega
  rw [f2 0 c (by rw [p3]; exact hc), f2 (r + 1) c (by rw [p3]; exact hc), p4 r c hr hc, (hct _ hlt).2, ← map_add (red _ _)]
  congr 1
  unfold respNoise
  ring

end Psi.Spiral
