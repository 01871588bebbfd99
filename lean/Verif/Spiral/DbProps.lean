import Verif.Spiral.DbModel
import Verif.Spiral.SwitchProps
import Verif.Spiral.PackRows

/-!
# The first dimension of Spiral PIR (C66)
-/

namespace Psi.Spiral

open Finset

variable {P : Par}

/-! ### Writing and packing -/

theorem writeAll_get {n : Nat} {addr val : Nat → Nat} (hinj : ∀ a b, a < n → b < n → addr a = addr b → a = b) {k : Nat}
    (hk : k < n) : writeAll n addr val (addr k) = val k := by
  unfold writeAll
  induction n with
  | zero => omega
  | succ n ih =>
    rw [List.range_succ, List.foldl_append]
    simp only [List.foldl_cons, List.foldl_nil]
    generalize hf : (List.range n).foldl (fun v k => upd v (addr k) (val k)) (fun _ => 0) = f at *
    unfold upd
    by_cases h : k = n
    · rw [h, if_pos rfl]
    · rw [if_neg fun e => h (hinj _ _ hk (by omega) e)]
      exact ih (fun a b ha hb => hinj a b (by omega) (by omega)) (by omega)

theorem packWord_parts {lo hi : Nat} (hlo : lo < 2 ^ 32) (hhi : hi < 2 ^ 32) :
    packWord lo hi &&& 0x00000000FFFFFFFF = lo ∧ packWord lo hi >>> 32 = hi := by
  have e : packWord lo hi = hi * 2 ^ 32 + lo := by
    unfold packWord
    rw [Nat.shiftLeft_eq, w64_of_lt (by omega), Nat.lor_comm, Nat.mul_comm hi, Nat.two_pow_add_eq_or_of_lt hlo]
  rw [e, show (0x00000000FFFFFFFF : Nat) = 2 ^ 32 - 1 by norm_num, Nat.and_two_pow_sub_one_eq_mod, Nat.shiftRight_eq_div_pow]
  omega

theorem dbAddr_eq (P : Par) (trials numPer dim0 trial z ii j : Nat) :
    dbAddr P trials numPer dim0 trial z ii j =
      trial * (P.n * (numPer * dim0)) + (z * (numPer * dim0) + ii * dim0 + j) := by
  unfold dbAddr calcIndex
  simp only [List.reverse_cons, List.reverse_nil, List.nil_append, List.cons_append, calcIndexLoop]
  ring

/-- Mixed digits are unique. -/
theorem digits_unique {m a b c d : Nat} (hb : b < m) (hd : d < m) (h : a * m + b = c * m + d) : a = c ∧ b = d := by
  have h1 := div_add m a b hb
  have h2 := div_add m c d hd
  rw [h] at h1
  exact ⟨h1.1.symm.trans h2.1, h1.2.symm.trans h2.2⟩

theorem split_lt {n m a : Nat} (h : a < m * n) : a / n < m ∧ a % n < n := by
  have hn : 0 < n := Nat.pos_of_ne_zero fun e => by simp [e] at h
  exact ⟨(Nat.div_lt_iff_lt_mul hn).2 h, Nat.mod_lt _ hn⟩

theorem join {n a b : Nat} (h1 : a / n = b / n) (h2 : a % n = b % n) : a = b := by
  rw [← Nat.div_add_mod a n, ← Nat.div_add_mod b n, h1, h2]

theorem mul_add_lt {a b m n : Nat} (ha : a < m) (hb : b < n) : a * n + b < m * n := by
  have := Nat.mul_le_mul_right n (show a + 1 ≤ m by omega)
  rw [Nat.succ_mul] at this
  omega

/-- The address of an item word in the loop order. -/
theorem dbAddr_inj {trials numPer dim0 a b : Nat} (ha : a < trials * (dim0 * numPer) * P.n)
    (hb : b < trials * (dim0 * numPer) * P.n)
    (h : dbAddr P trials numPer dim0 (a / P.n / (dim0 * numPer)) (a % P.n) (a / P.n % (dim0 * numPer) % numPer)
        (a / P.n % (dim0 * numPer) / numPer) =
      dbAddr P trials numPer dim0 (b / P.n / (dim0 * numPer)) (b % P.n) (b / P.n % (dim0 * numPer) % numPer)
        (b / P.n % (dim0 * numPer) / numPer)) : a = b := by
  rw [dbAddr_eq, dbAddr_eq] at h
  obtain ⟨a1, a2⟩ := split_lt ha
  obtain ⟨b1, b2⟩ := split_lt hb
  obtain ⟨a3, a4⟩ := split_lt a1
  obtain ⟨b3, b4⟩ := split_lt b1
  obtain ⟨a5, a6⟩ := split_lt a4
  obtain ⟨b5, b6⟩ := split_lt b4
  have ba : a / P.n % (dim0 * numPer) % numPer * dim0 + a / P.n % (dim0 * numPer) / numPer < numPer * dim0 :=
    mul_add_lt a6 a5
  have bb : b / P.n % (dim0 * numPer) % numPer * dim0 + b / P.n % (dim0 * numPer) / numPer < numPer * dim0 :=
    mul_add_lt b6 b5
  simp only [Nat.add_assoc] at h
  obtain ⟨h1, h2⟩ := digits_unique (mul_add_lt a2 ba) (mul_add_lt b2 bb) h
  obtain ⟨h3, h4⟩ := digits_unique ba bb h2
  obtain ⟨h5, h6⟩ := digits_unique a5 b5 h4
  exact join (join h1 (join h6 h5)) h3

theorem regAddr_inj {dim0 a b : Nat} (ha : a < dim0 * 2 * P.n) (hb : b < dim0 * 2 * P.n)
    (h : a % P.n * (dim0 * 2) + a / P.n / 2 * 2 + a / P.n % 2 = b % P.n * (dim0 * 2) + b / P.n / 2 * 2 + b / P.n % 2) :
    a = b := by
  obtain ⟨a1, a2⟩ := split_lt ha
  obtain ⟨b1, b2⟩ := split_lt hb
  rw [Nat.add_assoc, Nat.add_assoc] at h
  have e1 : a / P.n / 2 * 2 + a / P.n % 2 = a / P.n := by omega
  have e2 : b / P.n / 2 * 2 + b / P.n % 2 = b / P.n := by omega
  rw [e1, e2] at h
  obtain ⟨h1, h2⟩ := digits_unique a1 b1 h
  exact join h2 h1

/-! ### The plaintexts as ring elements -/

/-- The number next to zero a plaintext coefficient stands for. -/
def ptCentre (p v : Nat) : ℤ := if v > p / 2 then (v : ℤ) - p else v

theorem ptCentre_bounds {p v : Nat} (hv : v < p) : ptCentre p v % p = v ∧ 2 * |ptCentre p v| ≤ p := by
  unfold ptCentre
  have h : ((v : ℤ)) % p = v := Int.emod_eq_of_lt (by omega) (by exact_mod_cast hv)
  split_ifs with hc
  · rw [← Int.add_emod_right, sub_add_cancel]
    refine ⟨h, ?_⟩
    rw [abs_of_nonpos (by omega)]
    omega
  · refine ⟨h, ?_⟩
    rw [abs_of_nonneg (by omega)]
    omega

/-- The polynomial `trial` of a plaintext, over the integers. -/
noncomputable def ptPoly (P : Par) (p : Nat) (coeffs : List Nat) (trial : Nat) : A P.L :=
  toA P.L fun z => ptCentre p (coeffs.getD (trial * P.n + z) 0)

theorem dbItem_ok (ok : ParOk P) {p trial : Nat} (hp : p ≤ P.modulus) {coeffs : List Nat}
    (hl : (trial + 1) * P.n ≤ coeffs.length) (hc : ∀ x ∈ coeffs, x < p) :
    ∃ w, dbItem P p coeffs trial = .ok w ∧ NttOk P w ∧ nval P w = red _ _ (ptPoly P p coeffs trial) := by
  have hb := ok.modulus_bounds
  rw [Nat.succ_mul] at hl
  have hlt : ∀ z, z < P.n → coeffs.getD (trial * P.n + z) 0 < p := fun z hz => by
    rw [List.getD_eq_getElem _ _ (by omega)]
    exact hc _ (List.getElem_mem _)
  obtain ⟨w, h1, h2⟩ := resWords_ok (k := P.n) (f := fun z => recenertMod (coeffs.getD (trial * P.n + z) 0) p P.modulus)
    (Q := fun z x => x < P.modulus ∧ (x : ℤ) % P.modulus = ptCentre p (coeffs.getD (trial * P.n + z) 0) % P.modulus) (by
      intro z hz
      have hv := hlt z hz
      refine ⟨_, recenertMod_eq hv (by omega) (by omega) hp, ?_⟩
      unfold ptCentre
      generalize coeffs.getD (trial * P.n + z) 0 = v at *
      split_ifs
      · refine ⟨by omega, ?_⟩
        rw [show ((P.modulus + v - p : Nat) : ℤ) = (v : ℤ) - p + P.modulus by omega, Int.add_emod_right]
      · exact ⟨by omega, rfl⟩)
  obtain ⟨h3, h4⟩ := toNttPoly_spec ok (a := w) fun k hk => by
    have := (h2 k hk).1
    omega
  refine ⟨_, ?_, h3, ?_⟩
  · unfold dbItem
    rw [if_neg (by omega)]
    rw [h1, Res.ok_bind]
  · rw [h4]
    unfold rval ptPoly
    exact red_eq_coeff.2 fun k hk => by
      rw [coeff_toA _ hk, coeff_toA _ hk]
      exact (h2 k hk).2

/-! ### The reoriented database -/

/-- The word the database holds for item `j * numPer + ii`, polynomial `trial`, position `z`. -/
theorem reorientDatabase_ok (ok : ParOk P) {p trials numPer dim0 : Nat} (hp : p ≤ P.modulus) {db : List (List Nat)}
    (hdb : db.length = dim0 * numPer) (hl : ∀ c ∈ db, trials * P.n ≤ c.length) (hc : ∀ c ∈ db, ∀ x ∈ c, x < p) :
    ∃ v, reorientDatabase P p trials numPer dim0 db = .ok v ∧
      ∀ trial j ii, trial < trials → j < dim0 → ii < numPer → ∃ w, NttOk P w ∧
        nval P w = red _ _ (ptPoly P p (db.getD (j * numPer + ii) []) trial) ∧
        ∀ z, z < P.n → v (trial * (P.n * (numPer * dim0)) + (z * (numPer * dim0) + ii * dim0 + j)) =
          packWord (w z) (w (P.n + z)) := by
  obtain ⟨ws, h1, h2⟩ := mapRes_ok (f := dbStep P p (dim0 * numPer) db)
    (Q := fun k w => NttOk P w ∧ nval P w =
      red _ _ (ptPoly P p (db.getD (k % (dim0 * numPer)) []) (k / (dim0 * numPer))))
    (l := List.range (trials * (dim0 * numPer))) (by
      intro k hk
      rw [List.mem_range] at hk
      obtain ⟨k1, k2⟩ := split_lt hk
      have hlt : k % (dim0 * numPer) < db.length := by omega
      unfold dbStep
      rw [List.getElem?_eq_getElem hlt, List.getD_eq_getElem _ _ hlt]
      have hm := List.getElem_mem hlt
      refine dbItem_ok ok hp (le_trans (Nat.mul_le_mul_right _ k1) (hl _ hm)) (hc _ hm))
  have hlen : ws.length = trials * (dim0 * numPer) := by
    rw [← h2.length_eq, List.length_range]
  refine ⟨_, by unfold reorientDatabase; simp only; rw [h1, Res.ok_bind], fun trial j ii ht hj hii => ?_⟩
  have hit : j * numPer + ii < dim0 * numPer := mul_add_lt hj hii
  have hk : trial * (dim0 * numPer) + (j * numPer + ii) < trials * (dim0 * numPer) := mul_add_lt ht hit
  have hkw : trial * (dim0 * numPer) + (j * numPer + ii) < ws.length := by omega
  have hw := h2.get (i := trial * (dim0 * numPer) + (j * numPer + ii)) (by simpa using hk) hkw
  simp only [List.get_eq_getElem, List.getElem_range] at hw
  rw [(div_add _ trial _ hit).1, (div_add _ trial _ hit).2] at hw
  refine ⟨_, hw.1, hw.2, fun z hz => ?_⟩
  have ha : (trial * (dim0 * numPer) + (j * numPer + ii)) * P.n + z < trials * (dim0 * numPer) * P.n := mul_add_lt hk hz
  have hget := writeAll_get (n := trials * (dim0 * numPer) * P.n)
    (addr := fun a => dbAddr P trials numPer dim0 (a / P.n / (dim0 * numPer)) (a % P.n)
      (a / P.n % (dim0 * numPer) % numPer) (a / P.n % (dim0 * numPer) / numPer))
    (val := fun a => packWord ((ws.getD (a / P.n) fun _ => 0) (a % P.n)) ((ws.getD (a / P.n) fun _ => 0) (P.n + a % P.n)))
    (fun a b => dbAddr_inj) ha
  simp only at hget
  rw [(div_add P.n _ z hz).1, (div_add P.n _ z hz).2, (div_add _ trial _ hit).1, (div_add _ trial _ hit).2,
    (div_add numPer j ii hii).1, (div_add numPer j ii hii).2, dbAddr_eq, List.getD_eq_getElem _ _ hkw] at hget
  exact hget

theorem reorientReg_get {dim0 : Nat} (reg : Nat → Mat) {j r z : Nat} (hj : j < dim0) (hr : r < 2) (hz : z < P.n) :
    reorientReg P dim0 reg (z * (dim0 * 2) + j * 2 + r) =
      packWord ((reg j).poly r 0 z % P.mod 0) ((reg j).poly r 0 (P.n + z) % P.mod 1) := by
  have hk : (j * 2 + r) * P.n + z < dim0 * 2 * P.n := mul_add_lt (mul_add_lt hj hr) hz
  have := writeAll_get (n := dim0 * 2 * P.n) (addr := fun a => a % P.n * (dim0 * 2) + a / P.n / 2 * 2 + a / P.n % 2)
    (val := fun a => packWord ((reg (a / P.n / 2)).poly (a / P.n % 2) 0 (a % P.n) % P.mod 0)
      ((reg (a / P.n / 2)).poly (a / P.n % 2) 0 (P.n + a % P.n) % P.mod 1)) (fun a b => regAddr_inj) hk
  rw [(div_add P.n _ z hz).1, (div_add P.n _ z hz).2, (div_add 2 j r hr).1, (div_add 2 j r hr).2] at this
  exact this

/-! ### The products -/

theorem dimSum_eq {dim0 : Nat} {a b : Nat → Nat} {part : Nat → Nat} (hd : dim0 ≤ 2 ^ 60)
    (h : ∀ j, j < dim0 → part (a j) * part (b j) < 2 ^ 64) :
    dimSum dim0 a b part = ∑ j ∈ range dim0, part (a j) * part (b j) ∧
      ∑ j ∈ range dim0, part (a j) * part (b j) ≤ dim0 * 2 ^ 64 := by
  unfold dimSum
  induction dim0 with
  | zero => simp
  | succ n ih =>
    obtain ⟨h1, h2⟩ := ih (by omega) fun j hj => h j (by omega)
    have h3 := h n (by omega)
    rw [List.range_succ, List.foldl_append, sum_range_succ]
    simp only [List.foldl_cons, List.foldl_nil]
    rw [h1, w64_of_lt h3, Nat.mod_eq_of_lt]
    · refine ⟨rfl, ?_⟩
      rw [Nat.succ_mul]
      omega
    · have : n * 2 ^ 64 ≤ 2 ^ 60 * 2 ^ 64 := Nat.mul_le_mul_right _ (by omega)
      omega

@[simp] theorem multiplyReg_rows (dbs firstDim : Words) (dim0 numPer base i : Nat) :
    (multiplyRegByDatabase P dbs firstDim dim0 numPer base i).rows = 2 := rfl

@[simp] theorem multiplyReg_cols (dbs firstDim : Words) (dim0 numPer base i : Nat) :
    (multiplyRegByDatabase P dbs firstDim dim0 numPer base i).cols = 1 := rfl

/-- The product of the first dimension, word by word. -/
theorem multiplyReg_spec (ok : ParOk P) (h2 : P.tables.length = 2) {dim0 numPer base i : Nat} (hd : dim0 ≤ 2 ^ 60)
    {dbs firstDim : Words} {reg : Nat → Nat → Words} {w : Nat → Words}
    (hreg : ∀ j r, j < dim0 → r < 2 → NttOk P (reg j r)) (hw : ∀ j, j < dim0 → NttOk P (w j))
    (hf : ∀ j r z, j < dim0 → r < 2 → z < P.n → firstDim (z * (dim0 * 2) + j * 2 + r) =
      packWord (reg j r z % P.mod 0) (reg j r (P.n + z) % P.mod 1))
    (hdb : ∀ j z, j < dim0 → z < P.n → dbs (base + (z * (numPer * dim0) + i * dim0 + j)) =
      packWord (w j z) (w j (P.n + z))) :
    MatOk P (multiplyRegByDatabase P dbs firstDim dim0 numPer base i) ∧
      ∀ r, r < 2 → mval P (multiplyRegByDatabase P dbs firstDim dim0 numPer base i) r 0 =
        ∑ j ∈ range dim0, nval P (reg j r) * nval P (w j) := by
  have key : ∀ r, r < 2 → NttOk P ((multiplyRegByDatabase P dbs firstDim dim0 numPer base i).poly r 0) ∧
      nval P ((multiplyRegByDatabase P dbs firstDim dim0 numPer base i).poly r 0) =
        ∑ j ∈ range dim0, nval P (reg j r) * nval P (w j) := by
    intro r hr
    refine wordOp_spec ok
      (fun c k => ∑ j ∈ range dim0, reg j r (c * P.n + k) % P.mod c * w j (c * P.n + k)) (fun c t hc k hk => ?_)
      fun c t hc k hk => ?_
    · have ht : P.mod c = t.modulus := ParOk.mod_eq hc
      have hs := (ok.good c t hc).small
      have hpos : 0 < t.modulus := by have := hs.1; omega
      have hc2 : c < 2 := by
        by_contra hlt
        rw [List.getElem?_eq_none (by omega)] at hc
        cases hc
      have hsm : ∀ c' : Nat, c' < 2 → P.mod c' < 2 ^ 30 ∧ 0 < P.mod c' ∧
          ∀ j z, j < dim0 → z < P.n → w j (c' * P.n + z) < 2 ^ 30 := by
        intro c' hc'
        obtain ⟨t', ht'⟩ : ∃ t', P.tables[c']? = some t' := ⟨_, List.getElem?_eq_getElem (by omega)⟩
        have := (ok.good c' t' ht').small
        have q1 := this.1
        have q2 := this.2
        rw [ParOk.mod_eq ht']
        exact ⟨by omega, by omega, fun j z hj hz => (hw j hj).lt ok ht' hz⟩
      obtain ⟨m1, m2, m3⟩ := hsm 0 (by omega)
      obtain ⟨m4, m5, m6⟩ := hsm 1 (by omega)
      simp only [Nat.zero_mul, Nat.zero_add, Nat.one_mul] at m3 m6
      have pa : ∀ j, j < dim0 →
          (if c = 0 then firstDim (k * (dim0 * 2) + j * 2 + r) &&& 0x00000000FFFFFFFF
            else firstDim (k * (dim0 * 2) + j * 2 + r) >>> 32) = reg j r (c * P.n + k) % P.mod c ∧
          (if c = 0 then dbs (base + (k * (numPer * dim0) + i * dim0 + j)) &&& 0x00000000FFFFFFFF
            else dbs (base + (k * (numPer * dim0) + i * dim0 + j)) >>> 32) = w j (c * P.n + k) := by
        intro j hj
        have b1 := Nat.mod_lt (reg j r k) m2
        have b2 := Nat.mod_lt (reg j r (P.n + k)) m5
        have b3 := m3 j k hj hk
        have b4 := m6 j k hj hk
        obtain ⟨x1, x2⟩ := packWord_parts (lo := reg j r k % P.mod 0) (hi := reg j r (P.n + k) % P.mod 1) (by omega) (by omega)
        obtain ⟨x3, x4⟩ := packWord_parts (lo := w j k) (hi := w j (P.n + k)) (by omega) (by omega)
        rw [hf j r k hj hr hk, hdb j k hj hk]
        by_cases h : c = 0
        · rw [if_pos h, if_pos h, x1, x3, h, Nat.zero_mul, Nat.zero_add]
          exact ⟨rfl, rfl⟩
        · have h1 : c = 1 := by omega
          rw [if_neg h, if_neg h, x2, x4, h1, Nat.one_mul]
          exact ⟨rfl, rfl⟩
      unfold multiplyRegByDatabase
      rw [Mat.build_poly _ _ Nat.one_pos]
      simp only [(div_add P.n c k hk).1, (div_add P.n c k hk).2, ht]
      have hprod : ∀ j, j < dim0 → reg j r (c * P.n + k) % P.mod c * w j (c * P.n + k) < 2 ^ 64 := by
        intro j hj
        rw [ht]
        have b1 := Nat.mod_lt (reg j r (c * P.n + k)) hpos
        have b2 := hs.2
        have b3 := (hw j hj).lt ok hc hk
        calc _ ≤ 2 ^ 30 * 2 ^ 30 := Nat.mul_le_mul (by omega) b3.le
          _ < 2 ^ 64 := by norm_num
      obtain ⟨s1, s2⟩ := dimSum_eq (dim0 := dim0) (a := fun jm => firstDim (k * (dim0 * 2) + jm * 2 + r))
        (b := fun jm => dbs (base + (k * (numPer * dim0) + i * dim0 + jm)))
        (part := fun x => if c = 0 then x &&& 0x00000000FFFFFFFF else x >>> 32) hd (by
          intro j hj
          simp only [(pa j hj).1, (pa j hj).2]
          exact hprod j hj)
      have e : ∀ j ∈ range dim0, (fun x => if c = 0 then x &&& 0x00000000FFFFFFFF else x >>> 32)
            (firstDim (k * (dim0 * 2) + j * 2 + r)) *
          (fun x => if c = 0 then x &&& 0x00000000FFFFFFFF else x >>> 32)
            (dbs (base + (k * (numPer * dim0) + i * dim0 + j))) =
          reg j r (c * P.n + k) % P.mod c * w j (c * P.n + k) := by
        intro j hj
        simp only [(pa j (mem_range.1 hj)).1, (pa j (mem_range.1 hj)).2]
      rw [sum_congr rfl e] at s1 s2
      rw [s1, barrettReductionU128Raw_eq hs.1 (by have := hs.2; omega)]
      · rw [ht]
      · have : dim0 * 2 ^ 64 ≤ 2 ^ 60 * 2 ^ 64 := Nat.mul_le_mul_right _ hd
        omega
    · rw [map_sum, Nat.cast_sum]
      refine sum_congr rfl fun j hj => ?_
      rw [mem_range] at hj
      rw [map_mul, ev_nval ok (hreg j r hj hr), ev_nval ok (hw j hj), Nat.cast_mul, ParOk.mod_eq hc, cast_mod]
  refine ⟨fun r c hr hc => ?_, fun r hr => (key r hr).2⟩
  have h1 : r < 2 := hr
  have h2 : c = 0 := by
    have : c < 1 := hc
    omega
  rw [h2]
  exact (key r h1).1

/-- The words of a database and their place in the concatenation of the partitions. -/
theorem concatDbs_get {size : Nat} {parts : List Words} {k a : Nat} (hk : k < parts.length) (ha : a < size) :
    concatDbs size parts (k * size + a) = parts[k] a := by
  unfold concatDbs
  rw [(div_add size k a ha).1, (div_add size k a ha).2, List.getD_eq_getElem _ _ hk]

/-- The product of the first dimension as ring elements. -/
theorem first_dimension_ring (ok : ParOk P) (h2 : P.tables.length = 2) {p trials numPer dim0 : Nat} (hp : p ≤ P.modulus)
    (hd : dim0 ≤ 2 ^ 60) {dbs : List (List (List Nat))} (hdb : ∀ db ∈ dbs, db.length = dim0 * numPer)
    (hl : ∀ db ∈ dbs, ∀ c ∈ db, trials * P.n ≤ c.length) (hc : ∀ db ∈ dbs, ∀ c ∈ db, ∀ x ∈ c, x < p)
    {reg : Nat → Mat} (hreg : ∀ j, j < dim0 → MatOk P (reg j) ∧ (reg j).rows = 2 ∧ (reg j).cols = 1) :
    ∃ vs, mapRes (reorientDatabase P p trials numPer dim0) dbs = .ok vs ∧
      ∀ k trial i, k < dbs.length → trial < trials → i < numPer →
        let out := multiplyRegByDatabase P (concatDbs (trials * (dim0 * numPer) * P.n) vs) (reorientReg P dim0 reg) dim0 numPer
          (k * (trials * (dim0 * numPer) * P.n) + trial * (dim0 * numPer * P.n)) i
        MatOk P out ∧ ∀ r, r < 2 → mval P out r 0 = ∑ j ∈ range dim0,
          mval P (reg j) r 0 * red _ _ (ptPoly P p ((dbs.getD k []).getD (j * numPer + i) []) trial) := by
  obtain ⟨vs, h1, h3⟩ := mapRes_ok (f := reorientDatabase P p trials numPer dim0) (l := dbs)
    (Q := fun db v => ∀ trial j ii, trial < trials → j < dim0 → ii < numPer → ∃ w, NttOk P w ∧
        nval P w = red _ _ (ptPoly P p (db.getD (j * numPer + ii) []) trial) ∧
        ∀ z, z < P.n → v (trial * (P.n * (numPer * dim0)) + (z * (numPer * dim0) + ii * dim0 + j)) =
          packWord (w z) (w (P.n + z)))
    fun db hm => reorientDatabase_ok ok hp (hdb db hm) (hl db hm) (hc db hm)
  refine ⟨vs, h1, fun k trial i hk ht hi => ?_⟩
  have hkv : k < vs.length := by rw [← h3.length_eq]; exact hk
  have hv := h3.get (i := k) hk hkv
  simp only [List.get_eq_getElem] at hv
  rw [List.getD_eq_getElem _ _ hk]
  choose! w w1 w2 w3 using fun j (hj : j < dim0) => hv trial j i ht hj hi
  obtain ⟨m1, m2⟩ := multiplyReg_spec (P := P) ok h2 (numPer := numPer) (i := i) hd
    (base := k * (trials * (dim0 * numPer) * P.n) + trial * (dim0 * numPer * P.n))
    (dbs := concatDbs (trials * (dim0 * numPer) * P.n) vs) (firstDim := reorientReg P dim0 reg)
    (reg := fun j r => (reg j).poly r 0) (w := w)
    (fun j r hj hr => (hreg j hj).1 r 0 (by rw [(hreg j hj).2.1]; exact hr) (by rw [(hreg j hj).2.2]; omega)) w1
    (fun j r z hj hr hz => reorientReg_get reg hj hr hz) (by
      intro j z hj hz
      rw [← w3 j hj z hz]
      have b1 : i * dim0 + j < numPer * dim0 := mul_add_lt hi hj
      have b2 : z * (numPer * dim0) + (i * dim0 + j) < P.n * (numPer * dim0) := mul_add_lt hz b1
      have b3 : trial * (P.n * (numPer * dim0)) + (z * (numPer * dim0) + (i * dim0 + j)) < trials * (P.n * (numPer * dim0)) :=
        mul_add_lt ht b2
      have e1 : trials * (P.n * (numPer * dim0)) = trials * (dim0 * numPer) * P.n := by ring
      have e2 : dim0 * numPer * P.n = P.n * (numPer * dim0) := by ring
      rw [e1] at b3
      rw [Nat.add_assoc, e2, Nat.add_assoc (z * _)]
      exact concatDbs_get hkv b3)
  refine ⟨m1, fun r hr => ?_⟩
  rw [m2 r hr]
  exact sum_congr rfl fun j hj => by
    rw [w2 j (mem_range.1 hj)]
    rfl

/-- **C66** the database is laid out without loss, and the product of the first dimension is exact: for every partition,
plaintext polynomial `trial` and column `i` of the database, the words of the answer are those of the sum over the rows
`j` of ciphertext `j` times item `j * numPer + i`, the coefficients of the item read as numbers next to zero, as products
of polynomials modulo `X ^ n + 1` and the modulus. -/
theorem first_dimension_exact (ok : ParOk P) (h2 : P.tables.length = 2) {p trials numPer dim0 : Nat} (hp : p ≤ P.modulus)
    (hd : dim0 ≤ 2 ^ 60) {dbs : List (List (List Nat))} (hdb : ∀ db ∈ dbs, db.length = dim0 * numPer)
    (hl : ∀ db ∈ dbs, ∀ c ∈ db, trials * P.n ≤ c.length) (hc : ∀ db ∈ dbs, ∀ c ∈ db, ∀ x ∈ c, x < p)
    {reg : Nat → Mat} (hreg : ∀ j, j < dim0 → MatOk P (reg j) ∧ (reg j).rows = 2 ∧ (reg j).cols = 1) :
    ∃ vs, mapRes (reorientDatabase P p trials numPer dim0) dbs = .ok vs ∧
      ∀ k trial i r z, k < dbs.length → trial < trials → i < numPer → r < 2 → z < P.n →
        ((fromNtt P (multiplyRegByDatabase P (concatDbs (trials * (dim0 * numPer) * P.n) vs) (reorientReg P dim0 reg) dim0
          numPer (k * (trials * (dim0 * numPer) * P.n) + trial * (dim0 * numPer * P.n)) i)).poly r 0 z : ℤ) =
        (∑ j ∈ range dim0, negacyclic (fun a => ((fromNtt P (reg j)).poly r 0 a : ℤ))
          (fun a => ptCentre p (((dbs.getD k []).getD (j * numPer + i) []).getD (trial * P.n + a) 0)) P.n z) % P.modulus := by
  obtain ⟨vs, h1, h3⟩ := first_dimension_ring (trials := trials) (numPer := numPer) ok h2 hp hd hdb hl hc hreg
  refine ⟨vs, h1, fun k trial i r z hk ht hi hr hz => ?_⟩
  obtain ⟨m1, m2⟩ := h3 k trial i hk ht hi
  obtain ⟨d1, d2⟩ := fromNtt_spec ok m1
  have hb := ok.modulus_bounds
  have hlt := rawLe_lt (by omega) d1 (r := r) (c := 0) (by simpa using hr) (by simp)
  have e2 := (d2 r 0 (by simp)).trans (m2 r hr)
  have e3 : (∑ j ∈ range dim0,
      mval P (reg j) r 0 * red _ _ (ptPoly P p ((dbs.getD k []).getD (j * numPer + i) []) trial)) =
      red _ _ (toA P.L fun z => ∑ j ∈ range dim0, negacyclic (fun a => ((fromNtt P (reg j)).poly r 0 a : ℤ))
          (fun a => ptCentre p (((dbs.getD k []).getD (j * numPer + i) []).getD (trial * P.n + a) 0)) P.n z) := by
    rw [toA_sum, map_sum]
    refine sum_congr rfl fun j hj => ?_
    have hj' := hreg j (mem_range.1 hj)
    rw [← (fromNtt_spec ok hj'.1).2 r 0 (by rw [hj'.2.2]; omega)]
    unfold rmat rval ptPoly
    rw [← map_mul, toA_mul]
    rfl
  rw [word_eq hlt (e2.trans e3) hz, coeff_toA _ hz]

/-! ### Examples -/

/-- Two partitions of four plaintexts with four polynomials each. -/
def exDbs : List (List (List Nat)) :=
  [(List.range 4).map fun j => List.replicate (4 * 2048) (60 * j + 7),
   (List.range 4).map fun j => List.replicate (4 * 2048) (255 - j)]

theorem exDbs_spec : (∀ db ∈ exDbs, db.length = 2 * 2) ∧ (∀ db ∈ exDbs, ∀ c ∈ db, 4 * 2048 ≤ c.length) ∧
    ∀ db ∈ exDbs, ∀ c ∈ db, ∀ x ∈ c, x < 256 := by
  refine ⟨?_, ?_, ?_⟩
  · intro db hdb
    simp only [exDbs, List.mem_cons, List.not_mem_nil, or_false] at hdb
    rcases hdb with rfl | rfl <;> rw [List.length_map, List.length_range]
  · intro db hdb c hc
    simp only [exDbs, List.mem_cons, List.not_mem_nil, or_false] at hdb
    rcases hdb with rfl | rfl <;>
    · obtain ⟨j, -, rfl⟩ := List.mem_map.1 hc
      rw [List.length_replicate]
  · intro db hdb c hc x hx
    simp only [exDbs, List.mem_cons, List.not_mem_nil, or_false] at hdb
    rcases hdb with rfl | rfl <;>
    · obtain ⟨j, hj, rfl⟩ := List.mem_map.1 hc
      have := List.mem_range.1 hj
      have := List.eq_of_mem_replicate hx
      omega

example (avx : Bool) := first_dimension_exact (Par.default_ok avx) rfl (p := 256) (trials := 4) (numPer := 2) (dim0 := 2)
  (by rw [default_modulus]; norm_num) (by norm_num) (dbs := exDbs) exDbs_spec.1 exDbs_spec.2.1 exDbs_spec.2.2
  (reg := fun _ => toNtt (Par.default avx) exCol)
  fun _ _ => ⟨(toNtt_spec (Par.default_ok avx) ((exCol_le avx).mono (by norm_num))).1, rfl, rfl⟩

example (avx : Bool) := first_dimension_ring (Par.default_ok avx) rfl (p := 256) (trials := 4) (numPer := 2) (dim0 := 2)
  (by rw [default_modulus]; norm_num) (by norm_num) (dbs := exDbs) exDbs_spec.1 exDbs_spec.2.1 exDbs_spec.2.2
  (reg := fun _ => toNtt (Par.default avx) exCol)
  fun _ _ => ⟨(toNtt_spec (Par.default_ok avx) ((exCol_le avx).mono (by norm_num))).1, rfl, rfl⟩

example (avx : Bool) (db : List (List Nat)) (h : db ∈ exDbs) := reorientDatabase_ok (Par.default_ok avx) (p := 256) (trials := 4)
  (numPer := 2) (dim0 := 2) (by rw [default_modulus]; norm_num) (exDbs_spec.1 db h) (exDbs_spec.2.1 db h) (exDbs_spec.2.2 db h)

end Psi.Spiral
