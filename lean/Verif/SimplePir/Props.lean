import Verif.SimplePir.Model
import Verif.Spiral.PackRows
import Mathlib.Algebra.BigOperators.Ring.Finset
import Mathlib.Algebra.Order.BigOperators.Group.Finset
import Mathlib.Data.Int.ModEq
import Mathlib.Data.List.GetD
import Mathlib.Tactic.Linarith
import Mathlib.Tactic.Ring

/-!
# C79, C80: SimplePIR returns the entry asked for
-/

namespace Psi.SimplePir

open Psi.Spiral (Res mapRes w64)
open Finset

/-- The sum of products of two vectors. -/
def dotZ (n : Nat) (a b : Nat → Int) : Int := ∑ i ∈ range n, a i * b i

theorem foldl_mod (l : List (Nat × Nat)) (a : Nat) :
    l.foldl (fun a x => (a + x.1 * x.2) % 2 ^ 128) a % 2 ^ 128 = (a + (l.map fun x => x.1 * x.2).sum) % 2 ^ 128 := by
  induction l generalizing a with
  | nil => simp
  | cons x l ih =>
    rw [List.foldl_cons, ih, List.map_cons, List.sum_cons, Nat.mod_add_mod, Nat.add_assoc]

theorem zip_sum : ∀ (a b : List Nat), a.length = b.length →
    ((((a.zip b).map fun x => x.1 * x.2).sum : Nat) : Int) = dotZ a.length (fun i => (a.getD i 0 : Int)) fun i => (b.getD i 0 : Int)
  | [], [], _ => by simp [dotZ]
  | x :: a, y :: b, h => by
    have ih := zip_sum a b (by simpa using h)
    unfold dotZ at ih ⊢
    rw [List.length_cons, sum_range_succ', List.zip_cons_cons, List.map_cons, List.sum_cons]
    rw [Nat.cast_add, ih, Nat.cast_mul]
    simp only [List.getD_cons_succ, List.getD_cons_zero]
    ring
  | [], _ :: _, h => by simp at h
  | _ :: _, [], h => by simp at h

/-- The inner product modulo a divisor of `2 ^ 128`. -/
theorem inner_ok {n q : Nat} {a b : List Nat} (hq : 0 < q) (hd : q ∣ 2 ^ 128) (ha : a.length = n) (hb : b.length = n) :
    ∃ v, innerProduct a b q = .ok v ∧ v < q ∧
      (v : Int) ≡ dotZ n (fun i => (a.getD i 0 : Int)) (fun i => (b.getD i 0 : Int)) [ZMOD q] := by
  unfold innerProduct
  rw [if_neg (by omega), if_neg (by omega)]
  refine ⟨_, rfl, Nat.mod_lt _ hq, ?_⟩
  rw [← ha, ← zip_sum a b (by omega)]
  have h := foldl_mod (a.zip b) 0
  rw [Nat.zero_add] at h
  have h2 : (a.zip b).foldl (fun a x => (a + x.1 * x.2) % 2 ^ 128) 0 ≡ ((a.zip b).map fun x => x.1 * x.2).sum [MOD q] :=
    Nat.ModEq.of_dvd hd h
  have h3 := (Nat.mod_modEq _ q).trans h2
  exact_mod_cast (Int.natCast_modEq_iff.2 h3)

theorem dotZ_congr {n : Nat} {q : Int} {a b a' b' : Nat → Int} (h : ∀ i < n, a i ≡ a' i [ZMOD q])
    (h' : ∀ i < n, b i ≡ b' i [ZMOD q]) : dotZ n a b ≡ dotZ n a' b' [ZMOD q] := by
  unfold dotZ
  refine Int.modEq_iff_dvd.2 ?_
  rw [← sum_sub_distrib]
  exact dvd_sum fun i hi => Int.modEq_iff_dvd.1 ((h i (mem_range.1 hi)).mul (h' i (mem_range.1 hi)))

/-- The rounding of the client. -/
theorem round_ok {P : Par} {phase m : Nat} {A c η : Int} (hδ : 0 < P.delta) (hm : m < P.p)
    (hA : A = m + P.p * c) (h : (phase : Int) = P.delta * A + η) (h1 : -((P.delta - P.delta / 2 : Nat) : Int) ≤ η)
    (h2 : η < ((P.delta / 2 : Nat) : Int)) : roundDiv P phase = .ok m := by
  unfold roundDiv
  rw [if_neg (by omega)]
  congr 1
  generalize P.delta = δ at *
  have hhalf : δ / 2 ≤ δ := Nat.div_le_self _ _
  have key : ((if δ / 2 ≤ phase % δ then phase / δ + 1 else phase / δ : Nat) : Int) = A := by
    have hdm := Nat.div_add_mod phase δ
    have hml := Nat.mod_lt phase hδ
    generalize phase / δ = Q at *
    generalize phase % δ = R at *
    have hz : (δ : Int) * Q + R = δ * A + η := by rw [← h, ← hdm]; push_cast; ring
    have hδ' : (0 : Int) < δ := by omega
    split_ifs with hr
    · -- rounding up
      have : (δ : Int) * (A - (Q + 1)) = R - δ - η := by linarith [mul_add (δ : Int) A (-(Q + 1 : Int))]
      have hlt : (δ : Int) * (A - (Q + 1)) < δ * 1 := by rw [this]; omega
      have hgt : (δ : Int) * (-1) < δ * (A - (Q + 1)) := by rw [this]; omega
      have := lt_of_mul_lt_mul_left hlt hδ'.le
      have := lt_of_mul_lt_mul_left hgt hδ'.le
      push_cast
      omega
    · have : (δ : Int) * (A - Q) = R - η := by linarith [mul_add (δ : Int) A (-(Q : Int))]
      have hlt : (δ : Int) * (A - Q) < δ * 1 := by rw [this]; omega
      have hgt : (δ : Int) * (-1) < δ * (A - Q) := by rw [this]; omega
      have := lt_of_mul_lt_mul_left hlt hδ'.le
      have := lt_of_mul_lt_mul_left hgt hδ'.le
      omega
  have : ((if δ / 2 ≤ phase % δ then phase / δ + 1 else phase / δ : Nat) : Int) % P.p = m := by
    rw [key, hA, Int.add_mul_emod_self_left]
    exact Int.emod_eq_of_lt (by omega) (by omega)
  exact_mod_cast this

/-- The entry at an index. -/
def entry (P : Par) (db : List (List Nat)) (idx : Nat) : Nat := (db.getD (idx / P.rows) []).getD (idx % P.rows) 0

/-- The error of an answer: the row of the entry times the errors of the query. -/
def noise (P : Par) (db : List (List Nat)) (e : List Int) (idx : Nat) : Int :=
  ∑ j ∈ range P.rows, ((db.getD (idx / P.rows) []).getD j 0 : Int) * e.getD j 0

theorem getD_map_range {α : Type} {n i : Nat} (f : Nat → α) (d : α) (h : i < n) : ((List.range n).map f).getD i d = f i := by
  rw [List.getD_eq_getElem _ _ (by simpa using h), List.getElem_map, List.getElem_range]

theorem mapRes_get {β : Type} {f : Nat → Res β} {n : Nat} {Q : Nat → β → Prop} (d : β)
    (h : ∀ i < n, ∃ y, f i = .ok y ∧ Q i y) :
    ∃ ys, mapRes f (List.range n) = .ok ys ∧ ys.length = n ∧ ∀ i < n, Q i (ys.getD i d) := by
  obtain ⟨ys, h1, h2⟩ := Psi.Spiral.mapRes_ok (f := f) (Q := Q) (l := List.range n)
    (fun i hi => h i (List.mem_range.1 hi))
  have hl := h2.length_eq
  rw [List.length_range] at hl
  refine ⟨ys, h1, hl.symm, fun i hi => ?_⟩
  have := (List.forall₂_iff_get.1 h2).2 i (by rw [List.length_range]; exact hi) (by omega)
  rw [List.getD_eq_getElem _ _ (by omega)]
  simpa using this

theorem toU64_modEq (e : Int) {q : Int} (hq : q ∣ 2 ^ 64) : (toU64 e : Int) ≡ e [ZMOD q] := by
  unfold toU64
  rw [Int.toNat_of_nonneg (Int.emod_nonneg _ (by norm_num))]
  exact (Int.mod_modEq e (2 ^ 64)).of_dvd hq

theorem w64_modEq (x : Nat) {q : Nat} (hq : q ∣ 2 ^ 64) : (w64 x : Int) ≡ x [ZMOD q] :=
  Int.natCast_modEq_iff.2 (Nat.ModEq.of_dvd hq (Nat.mod_modEq x (2 ^ 64)))

/-- **C79.**  For a modulus that is a power of two: the client recovers the entry it asked for, for every matrix, secret
and database, as long as the noise is small.  The two extra terms come from the 64-bit difference in `Recover`, which is
not reduced modulo `q`. -/
theorem entry_recovered {P : Par} {k : Nat} (hk : k ≤ 63) (hk1 : 0 < k) (hq : P.q = 2 ^ k) (hacc : P.accepted)
    (rand : Nat → Nat) {db : List (List Nat)} (hdb : db.length = P.rows) (hrow : ∀ r ∈ db, r.length = P.rows)
    {s : List Nat} (hs : s.length = P.dim) (e : List Int) {idx : Nat} (hi : idx < P.N) (hm : entry P db idx < P.p)
    (hlow : (P.q % P.p : Nat) ≤ ((P.delta - P.delta / 2 : Nat) : Int) + noise P db e idx)
    (hhigh : noise P db e idx + (P.q % P.p : Nat) + (2 ^ 64 % (P.p * P.delta) : Nat) < ((P.delta / 2 : Nat) : Int)) :
    retrieve P rand db s e idx = .ok (entry P db idx) := by
  obtain ⟨hN, hsq, hdim, hq0, hp0⟩ := hacc
  have hrows : 0 < P.rows := Nat.pos_of_ne_zero fun h0 => by rw [h0] at hsq; omega
  have hd64 : P.q ∣ 2 ^ 64 := by rw [hq]; exact pow_dvd_pow 2 (by omega)
  have hd128 : P.q ∣ 2 ^ 128 := by rw [hq]; exact pow_dvd_pow 2 (by omega)
  have hd64' : (P.q : Int) ∣ 2 ^ 64 := by exact_mod_cast hd64
  have hr : idx / P.rows < P.rows := by rw [Nat.div_lt_iff_lt_mul hrows, ← hsq]; exact hi
  have hc : idx % P.rows < P.rows := Nat.mod_lt _ hrows
  have hdbrow : ∀ i < P.rows, (db.getD i []).length = P.rows := fun i hi => by
    rw [List.getD_eq_getElem _ _ (by omega)]
    exact hrow _ (List.getElem_mem _)
  -- the coefficients of the matrix
  generalize hB : (fun i j : Nat => ((rand (j * P.rows + i) % P.q : Nat) : Int)) = B
  -- the server
  have hset : setDatabase P db = .ok db := by
    unfold setDatabase
    rw [if_neg (fun h0 => by rw [h0] at hdb; simp at hdb; omega), if_neg (by omega), if_neg]
    have := hdbrow 0 hrows
    cases db with
    | nil => simp at hdb; omega
    | cons r db => simpa using this
  obtain ⟨hint, h1, h2, h3⟩ := mapRes_get (f := fun k => hintEntry P db (serverMatrix P rand) (k / P.dim) (k % P.dim))
    (n := P.rows * P.dim) (Q := fun k v => (v : Int) ≡
      dotZ P.rows (fun i => ((db.getD (k / P.dim) []).getD i 0 : Int)) (fun i => B i (k % P.dim)) [ZMOD P.q]) 0
    (fun k hk => by
      have hkm : k % P.dim < P.dim := Nat.mod_lt _ hdim
      have hkd : k / P.dim < P.rows := by rwa [Nat.div_lt_iff_lt_mul hdim]
      obtain ⟨v, v1, -, v3⟩ := inner_ok (n := P.rows) hq0 hd128 (hdbrow _ hkd)
        (b := (serverMatrix P rand).getD (k % P.dim) [])
        (by unfold serverMatrix; rw [getD_map_range _ _ hkm]; simp)
      refine ⟨v, v1, v3.trans (dotZ_congr (fun i _ => Int.ModEq.refl _) fun i hi => ?_)⟩
      rw [← hB]
      unfold serverMatrix
      rw [getD_map_range _ _ hkm, getD_map_range _ _ hi])
  -- the query
  have hquery : ∃ qu, query P (clientMatrix P rand) s e idx = .ok qu ∧ qu.length = P.rows ∧ ∀ i < P.rows,
      (qu.getD i 0 : Int) ≡ dotZ P.dim (fun j => B i j) (fun j => (s.getD j 0 : Int)) +
        (if i = idx % P.rows then (P.delta : Int) else 0) + e.getD i 0 [ZMOD P.q] := by
    unfold query
    have hq2 : 2 ≤ P.q := by rw [hq]; exact le_trans (by norm_num) (Nat.pow_le_pow_right (by norm_num) hk1)
    rw [if_neg (by omega), if_neg (by omega)]
    refine mapRes_get (f := queryWord P (clientMatrix P rand) s e (idx % P.rows)) (n := P.rows) (Q := fun i v =>
      (v : Int) ≡ dotZ P.dim (fun j => B i j) (fun j => (s.getD j 0 : Int)) +
        (if i = idx % P.rows then (P.delta : Int) else 0) + e.getD i 0 [ZMOD P.q]) 0 fun i hi => ?_
    obtain ⟨v, v1, -, v3⟩ := inner_ok (n := P.dim) hq0 hd128
      (a := (clientMatrix P rand).getD i [])
      (by unfold clientMatrix; rw [getD_map_range _ _ hi]; simp) hs
    unfold queryWord
    rw [v1]
    refine ⟨_, rfl, ?_⟩
    push_cast
    refine (Int.mod_modEq _ _).trans ((w64_modEq _ hd64).trans ?_)
    push_cast
    refine Int.ModEq.add ((w64_modEq _ hd64).trans ?_) (toU64_modEq _ hd64')
    push_cast
    refine Int.ModEq.add (v3.trans (dotZ_congr (fun j hj => ?_) fun j _ => Int.ModEq.refl _)) (by split_ifs <;> rfl)
    rw [← hB]
    unfold clientMatrix
    rw [getD_map_range _ _ hi, getD_map_range _ _ hj]
  obtain ⟨qu, q1, q2, q3⟩ := hquery
  -- the answer
  have hans : ∃ ans, answer P db qu = .ok ans ∧ ans.length = P.rows ∧ ∀ i < P.rows, ans.getD i 0 < P.q ∧
      (ans.getD i 0 : Int) ≡ dotZ P.rows (fun j => ((db.getD i []).getD j 0 : Int)) (fun j => (qu.getD j 0 : Int)) [ZMOD P.q] :=
    mapRes_get (f := fun i => innerProduct (db.getD i []) qu P.q) (n := P.rows) (Q := fun i v => v < P.q ∧
      (v : Int) ≡ dotZ P.rows (fun j => ((db.getD i []).getD j 0 : Int)) (fun j => (qu.getD j 0 : Int)) [ZMOD P.q]) 0 fun i hi => by
      obtain ⟨v, v1, v2, v3⟩ := inner_ok (n := P.rows) hq0 hd128 (hdbrow i hi) q2
      exact ⟨v, v1, v2, v3⟩
  obtain ⟨ans, a1, a2, a3⟩ := hans
  have hrun : retrieve P rand db s e idx = recover P ((List.range P.rows).map fun i => (List.range P.dim).map fun j =>
      hint.getD (i * P.dim + j) 0) s idx ans := by
    unfold retrieve
    rw [if_neg (not_not_intro ⟨hN, hsq, hdim, hq0, hp0⟩), hset]
    show (getHint P db (serverMatrix P rand)).bind _ = _
    unfold getHint
    rw [h1]
    show (hintMatrix P hint).bind _ = _
    unfold hintMatrix
    rw [if_neg (by omega)]
    show (query P (clientMatrix P rand) s e idx).bind _ = _
    rw [q1]
    show (answer P db qu).bind _ = _
    rw [a1]
    rfl
  rw [hrun]
  obtain ⟨h, e1, e2, e3⟩ := inner_ok (n := P.dim) hq0 hd128
    (a := ((List.range P.rows).map fun i => (List.range P.dim).map fun j => hint.getD (i * P.dim + j) 0).getD (idx / P.rows) [])
    (by rw [getD_map_range _ _ hr]; simp) hs
  unfold recover
  rw [List.getElem?_eq_getElem (show idx / P.rows < ans.length by omega)]
  simp only
  rw [e1]
  show roundDiv P (w64 (ans[idx / P.rows] + 2 ^ 64 - h)) = _
  have hav : ans[idx / P.rows] = ans.getD (idx / P.rows) 0 := (List.getD_eq_getElem _ _ _).symm
  obtain ⟨a4, a5⟩ := a3 _ hr
  rw [hav]
  generalize ans.getD (idx / P.rows) 0 = a at a4 a5
  -- the difference modulo q
  have hdiff : (a : Int) - h ≡ P.delta * entry P db idx + noise P db e idx [ZMOD P.q] := by
    have hA : (a : Int) ≡ dotZ P.rows (fun j => ((db.getD (idx / P.rows) []).getD j 0 : Int)) (fun j =>
        dotZ P.dim (fun l => B j l) (fun l => (s.getD l 0 : Int)) + (if j = idx % P.rows then (P.delta : Int) else 0) +
          e.getD j 0) [ZMOD P.q] := a5.trans (dotZ_congr (fun j _ => Int.ModEq.refl _) fun j hj => q3 j hj)
    have hH : (h : Int) ≡ dotZ P.dim (fun l => dotZ P.rows (fun j => ((db.getD (idx / P.rows) []).getD j 0 : Int))
        (fun j => B j l)) (fun l => (s.getD l 0 : Int)) [ZMOD P.q] := by
      refine e3.trans (dotZ_congr (fun l hl => ?_) fun l _ => Int.ModEq.refl _)
      rw [getD_map_range _ _ hr, getD_map_range _ _ hl]
      have hk : idx / P.rows * P.dim + l < P.rows * P.dim := by
        have : (idx / P.rows + 1) * P.dim ≤ P.rows * P.dim := Nat.mul_le_mul_right _ hr
        rw [Nat.succ_mul] at this
        omega
      have := h3 _ hk
      rwa [Nat.add_comm, Nat.add_mul_div_right _ _ hdim, Nat.add_mul_mod_self_right, Nat.div_eq_of_lt hl,
        Nat.mod_eq_of_lt hl, Nat.zero_add, Nat.add_comm] at this
    refine (hA.sub hH).trans (congrArg (· % (P.q : Int)) ?_)
    unfold dotZ noise entry
    rw [show (∑ l ∈ range P.dim, (∑ j ∈ range P.rows, ((db.getD (idx / P.rows) []).getD j 0 : Int) * B j l) * (s.getD l 0 : Int))
        = ∑ j ∈ range P.rows, ((db.getD (idx / P.rows) []).getD j 0 : Int) * ∑ l ∈ range P.dim, B j l * (s.getD l 0 : Int) by
      simp only [sum_mul, mul_sum]
      rw [sum_comm]
      exact sum_congr rfl fun j _ => sum_congr rfl fun l _ => by ring]
    rw [← sum_sub_distrib]
    have hone : (P.delta : Int) * ((db.getD (idx / P.rows) []).getD (idx % P.rows) 0 : Nat) =
        ∑ j ∈ range P.rows, ((db.getD (idx / P.rows) []).getD j 0 : Int) * (if j = idx % P.rows then (P.delta : Int) else 0) := by
      rw [sum_eq_single (idx % P.rows) (fun j _ hj => by rw [if_neg hj, mul_zero])
        (fun hn => absurd (mem_range.2 hc) hn), if_pos rfl]
      ring
    rw [hone, ← sum_add_distrib]
    exact sum_congr rfl fun j _ => by ring
  -- the phase
  generalize noise P db e idx = ν at hlow hhigh hdiff
  generalize entry P db idx = m at hm hdiff
  have hqe : P.q = P.p * P.delta + P.q % P.p := (Nat.div_add_mod P.q P.p).symm
  have hWe : 2 ^ 64 = P.p * P.delta * (2 ^ 64 / (P.p * P.delta)) + 2 ^ 64 % (P.p * P.delta) := (Nat.div_add_mod _ _).symm
  have hq63 : P.q ≤ 2 ^ 63 := by rw [hq]; exact Nat.pow_le_pow_right (by norm_num) hk
  generalize P.q % P.p = r at hlow hhigh hqe
  generalize 2 ^ 64 % (P.p * P.delta) = ρ at hhigh hWe
  generalize 2 ^ 64 / (P.p * P.delta) = c at hWe
  have hδ : 0 < P.delta := by omega
  obtain ⟨y, hy⟩ := (Int.modEq_iff_dvd.1 hdiff.symm)
  have hmp : (P.delta : Int) * m + P.delta ≤ P.p * P.delta := by
    have : (P.delta * (m + 1) : Nat) ≤ P.delta * P.p := Nat.mul_le_mul_left _ hm
    have h2 : ((P.delta * (m + 1) : Nat) : Int) ≤ ((P.delta * P.p : Nat) : Int) := by exact_mod_cast this
    push_cast at h2
    linarith
  have hqz : (P.q : Int) = P.p * P.delta + r := by exact_mod_cast hqe
  have hWz : (2 : Int) ^ 64 = P.p * P.delta * c + ρ := by exact_mod_cast hWe
  have hm0 : 0 ≤ (P.delta : Int) * m := by positivity
  have hdle : (P.delta : Int) ≤ P.q := by linarith [show (0 : Int) ≤ r by omega]
  have hhalf : ((P.delta / 2 : Nat) : Int) ≤ P.delta := by omega
  have hhalf2 : ((P.delta - P.delta / 2 : Nat) : Int) ≤ P.delta := by omega
  have hρ : (0 : Int) ≤ ρ := by omega
  have hr0 : (0 : Int) ≤ r := by omega
  have hqpos : (0 : Int) < P.q := by omega
  by_cases hw : h ≤ a
  · -- no borrow
    have hph : w64 (a + 2 ^ 64 - h) = a - h := by
      unfold w64
      rw [show a + 2 ^ 64 - h = (a - h) + 2 ^ 64 by omega, Nat.add_mod_right]
      exact Nat.mod_eq_of_lt (by omega)
    rw [hph]
    have hyl : -1 < y := by
      have : (P.q : Int) * (-1) < P.q * y := by
        rw [← hy]
        linarith [show (0 : Int) ≤ (a : Int) - h by omega]
      exact lt_of_mul_lt_mul_left this hqpos.le
    have hyu : y < 2 := by
      have : (P.q : Int) * y < P.q * 2 := by
        rw [← hy]
        have : (a : Int) - h < P.q := by omega
        linarith
      exact lt_of_mul_lt_mul_left this hqpos.le
    refine round_ok hδ hm (A := m + P.p * y) (c := y) (η := ν + r * y) rfl ?_ ?_ ?_
    · have : ((a - h : Nat) : Int) = a - h := by omega
      rw [this]
      have : (a : Int) - h = P.delta * m + ν + P.q * y := by linarith
      rw [this, hqz]
      ring
    · have : y = 0 ∨ y = 1 := by omega
      rcases this with rfl | rfl <;> omega
    · have : y = 0 ∨ y = 1 := by omega
      rcases this with rfl | rfl <;> omega
  · -- borrow
    have hph : w64 (a + 2 ^ 64 - h) = a + 2 ^ 64 - h := by
      unfold w64
      exact Nat.mod_eq_of_lt (by omega)
    rw [hph]
    have hyl : -2 < y := by
      have : (P.q : Int) * (-2) < P.q * y := by
        rw [← hy]
        have : -(P.q : Int) < (a : Int) - h := by omega
        linarith
      exact lt_of_mul_lt_mul_left this hqpos.le
    have hyu : y < 1 := by
      have : (P.q : Int) * y < P.q * 1 := by
        rw [← hy]
        have : (a : Int) - h < 0 := by omega
        linarith
      exact lt_of_mul_lt_mul_left this hqpos.le
    refine round_ok hδ hm (A := m + P.p * (y + c)) (c := y + c) (η := ν + r * y + ρ) rfl ?_ ?_ ?_
    · have : ((a + 2 ^ 64 - h : Nat) : Int) = a - h + 2 ^ 64 := by omega
      rw [this, hWz]
      have : (a : Int) - h = P.delta * m + ν + P.q * y := by linarith
      rw [this, hqz]
      ring
    · have : y = -1 ∨ y = 0 := by omega
      rcases this with rfl | rfl <;> omega
    · have : y = -1 ∨ y = 0 := by omega
      rcases this with rfl | rfl <;> omega

/-- The noise of a row with entries below `p` and errors of size at most `E`. -/
theorem noise_le {P : Par} {db : List (List Nat)} {e : List Int} {idx E : Nat} (hp : ∀ r ∈ db, ∀ v ∈ r, v < P.p)
    (he : ∀ x ∈ e, |x| ≤ E) : |noise P db e idx| ≤ (P.rows * ((P.p - 1) * E) : Nat) := by
  unfold noise
  refine (abs_sum_le_sum_abs _ _).trans ((sum_le_card_nsmul _ _ (((P.p - 1) * E : Nat) : Int) fun j _ => ?_).trans ?_)
  · rw [abs_mul]
    have h1 : ((db.getD (idx / P.rows) []).getD j 0) ≤ P.p - 1 := by
      by_cases h : j < (db.getD (idx / P.rows) []).length
      · rw [List.getD_eq_getElem _ _ h]
        have hm : db.getD (idx / P.rows) [] ∈ db := by
          by_cases h' : idx / P.rows < db.length
          · rw [List.getD_eq_getElem _ _ h']; exact List.getElem_mem _
          · rw [List.getD_eq_default _ _ (by omega)] at h; simp at h
        have := hp _ hm _ (List.getElem_mem h)
        omega
      · rw [List.getD_eq_default _ _ (by omega)]; omega
    have h2 : |e.getD j 0| ≤ (E : Int) := by
      by_cases h : j < e.length
      · rw [List.getD_eq_getElem _ _ h]; exact he _ (List.getElem_mem _)
      · rw [List.getD_eq_default _ _ (by omega)]; simp
    push_cast
    rw [abs_of_nonneg (by omega : (0 : Int) ≤ ((db.getD (idx / P.rows) []).getD j 0 : Nat))]
    exact mul_le_mul (by exact_mod_cast h1) h2 (abs_nonneg _) (by omega)
  · rw [card_range, nsmul_eq_mul]
    push_cast
    exact le_refl _

/-- **C79.**  With errors of size at most `E` and entries below `p`, every index returns its entry. -/
theorem every_entry_recovered {P : Par} {k E : Nat} (hk : k ≤ 63) (hk1 : 0 < k) (hq : P.q = 2 ^ k) (hacc : P.accepted)
    (hE : P.rows * ((P.p - 1) * E) + P.q % P.p + 2 ^ 64 % (P.p * P.delta) < P.delta / 2)
    (rand : Nat → Nat) {db : List (List Nat)} (hdb : db.length = P.rows) (hrow : ∀ r ∈ db, r.length = P.rows)
    (hp : ∀ r ∈ db, ∀ v ∈ r, v < P.p) {s : List Nat} (hs : s.length = P.dim) {e : List Int} (he : ∀ x ∈ e, |x| ≤ E)
    {idx : Nat} (hi : idx < P.N) : retrieve P rand db s e idx = getValue P db idx := by
  have hn := abs_le.1 (noise_le (idx := idx) hp he)
  have hent : entry P db idx < P.p := by
    have hrows : 0 < P.rows := Nat.pos_of_ne_zero fun h0 => by
      have := hacc.2.1; rw [h0] at this; have := hacc.1; omega
    have hr : idx / P.rows < db.length := by
      rw [hdb, Nat.div_lt_iff_lt_mul hrows, ← hacc.2.1]; exact hi
    unfold entry
    rw [List.getD_eq_getElem _ _ hr, List.getD_eq_getElem _ _
      (by rw [hrow _ (List.getElem_mem _)]; exact Nat.mod_lt _ hrows)]
    exact hp _ (List.getElem_mem _) _ (List.getElem_mem _)
  rw [entry_recovered hk hk1 hq hacc rand hdb hrow hs e hi hent (by omega) (by omega)]
  unfold getValue entry
  rw [if_neg (by omega)]

/-- **C79.**  When `p` divides `q` the noise may be anything from `-(δ - δ / 2)` to `δ / 2 - 1`. -/
theorem entry_recovered_dvd {P : Par} {k : Nat} (hk : k ≤ 63) (hk1 : 0 < k) (hq : P.q = 2 ^ k) (hpq : P.p ∣ P.q)
    (hacc : P.accepted) (rand : Nat → Nat) {db : List (List Nat)} (hdb : db.length = P.rows)
    (hrow : ∀ r ∈ db, r.length = P.rows) {s : List Nat} (hs : s.length = P.dim) (e : List Int) {idx : Nat}
    (hi : idx < P.N) (hm : entry P db idx < P.p) (hlow : -((P.delta - P.delta / 2 : Nat) : Int) ≤ noise P db e idx)
    (hhigh : noise P db e idx < ((P.delta / 2 : Nat) : Int)) :
    retrieve P rand db s e idx = .ok (entry P db idx) := by
  have h1 : P.q % P.p = 0 := Nat.mod_eq_zero_of_dvd hpq
  have h2 : 2 ^ 64 % (P.p * P.delta) = 0 := by
    unfold Par.delta
    rw [Nat.mul_div_cancel' hpq, hq]
    exact Nat.mod_eq_zero_of_dvd (pow_dvd_pow 2 (by omega))
  exact entry_recovered hk hk1 hq hacc rand hdb hrow hs e hi hm (by rw [h1]; push_cast; omega)
    (by rw [h1, h2]; push_cast; omega)

/-- The parameters of `pir_test.cc:40-46`. -/
def testPar : Par := { dim := 1024, q := 2 ^ 32, N := 4096, p := 991 }

/-- **C79.**  The parameters of the test: every entry comes back, whatever the errors drawn from the table are. -/
theorem test_parameters_recover (rand : Nat → Nat) {db : List (List Nat)} (hdb : db.length = 64)
    (hrow : ∀ r ∈ db, r.length = 64) (hp : ∀ r ∈ db, ∀ v ∈ r, v < 991) {s : List Nat} (hs : s.length = 1024)
    {e : List Int} (he : ∀ x ∈ e, |x| ≤ 28) {idx : Nat} (hi : idx < 4096) :
    retrieve testPar rand db s e idx = getValue testPar db idx := by
  have hr : testPar.rows = 64 := by unfold Par.rows testPar; exact (Nat.sqrt_eq 64 : Nat.sqrt (64 * 64) = 64)
  refine every_entry_recovered (k := 32) (E := 28) (by norm_num) (by norm_num) rfl ?_ ?_ rand (by rw [hr, hdb])
    (by rw [hr]; exact hrow) hp hs (by exact_mod_cast he) hi
  · unfold Par.accepted
    rw [hr]
    decide
  · rw [hr]
    decide

/-! ### C80: the difference is not reduced modulo `q` -/

/-- A power of two and no errors: the entry 30000 comes back as 30496. -/
theorem C80_wrong_entry_power_of_two :
    let P : Par := { dim := 1, q := 2 ^ 32, N := 1, p := 40000 }
    P.accepted ∧ retrieve P (fun _ => 1) [[30000]] [2 ^ 32 - 1] [0] 0 = .ok 30496 ∧ getValue P [[30000]] 0 = .ok 30000 := by
  decide +kernel

/-- Another modulus, no errors: the entry 5 comes back as 1. -/
theorem C80_wrong_entry_other_modulus :
    let P : Par := { dim := 1, q := 1000003, N := 1, p := 10 }
    P.accepted ∧ retrieve P (fun _ => 1) [[5]] [1000002] [0] 0 = .ok 1 ∧ getValue P [[5]] 0 = .ok 5 := by
  decide +kernel

/-- Nothing asks for `p ≤ q`: the client divides by zero. -/
theorem C80_division_by_zero :
    let P : Par := { dim := 1, q := 4, N := 1, p := 5 }
    P.accepted ∧ retrieve P (fun _ => 1) [[3]] [1] [0] 0 = .undefined := by
  decide +kernel

/-- **C80**, for a modulus `2 ^ k` that `p` divides and is below: without errors every entry comes back. -/
theorem C80_no_error_partial {P : Par} {k : Nat} (hk : k ≤ 63) (hq : P.q = 2 ^ k) (hpq : P.p ∣ P.q) (hlt : P.p < P.q)
    (hacc : P.accepted) (rand : Nat → Nat) {db : List (List Nat)} (hdb : db.length = P.rows)
    (hrow : ∀ r ∈ db, r.length = P.rows) (hp : ∀ r ∈ db, ∀ v ∈ r, v < P.p) {s : List Nat} (hs : s.length = P.dim)
    {idx : Nat} (hi : idx < P.N) :
    retrieve P rand db s (List.replicate P.rows 0) idx = getValue P db idx := by
  have hp0 : 0 < P.p := hacc.2.2.2.2
  have hδ : 2 ≤ P.delta := by
    obtain ⟨d, hd⟩ := hpq
    unfold Par.delta
    rw [hd, Nat.mul_div_cancel_left _ hp0]
    rw [hd] at hlt
    by_contra h
    have : d = 0 ∨ d = 1 := by omega
    rcases this with rfl | rfl <;> omega
  have hk1 : 0 < k := by
    rcases Nat.eq_zero_or_pos k with rfl | h
    · rw [hq] at hlt; omega
    · exact h
  refine every_entry_recovered (E := 0) hk hk1 hq hacc ?_ rand hdb hrow hp hs
    (fun x hx => by rw [List.eq_of_mem_replicate hx]; simp) hi
  have h2 : 2 ^ 64 % (P.p * P.delta) = 0 := by
    unfold Par.delta
    rw [Nat.mul_div_cancel' hpq, hq]
    exact Nat.mod_eq_zero_of_dvd (pow_dvd_pow 2 (by omega))
  rw [Nat.mod_eq_zero_of_dvd hpq, h2]
  omega

/-! ### Examples -/

example := C80_no_error_partial (P := { dim := 2, q := 2 ^ 16, N := 4, p := 16 }) (k := 16) (by norm_num) rfl
  (by decide) (by decide) (by decide +kernel) (fun i => 91 * i + 5) (db := [[3, 15], [7, 9]]) (by decide +kernel)
  (by decide +kernel) (by decide) (s := [1234, 65535]) rfl (idx := 1) (by decide)

example := test_parameters_recover (fun i => 7 * i + 3) (db := List.replicate 64 (List.replicate 64 990)) (by simp)
  (fun r h => by rw [List.eq_of_mem_replicate h]; simp)
  (fun r h v hv => by rw [List.eq_of_mem_replicate h] at hv; rw [List.eq_of_mem_replicate hv]; norm_num)
  (s := List.replicate 1024 5) List.length_replicate (e := List.replicate 64 (-27)) (fun x h => by
    rw [List.eq_of_mem_replicate h]; decide) (idx := 777) (by norm_num)

example := entry_recovered_dvd (P := { dim := 2, q := 2 ^ 16, N := 4, p := 16 }) (k := 16) (by norm_num) (by norm_num) rfl
  (by decide +kernel) (by decide +kernel) (fun i => 91 * i + 5) (db := [[3, 15], [7, 9]]) (by decide +kernel) (by decide +kernel)
  (s := [1234, 65535]) rfl [-2, 1] (idx := 1) (by decide) (by decide +kernel) (by decide +kernel) (by decide +kernel)

example : retrieve { dim := 2, q := 2 ^ 16, N := 4, p := 16 } (fun i => 91 * i + 5) [[3, 15], [7, 9]] [1234, 65535] [-2, 1] 1
    = .ok 15 := by decide +kernel

example := entry_recovered (P := { dim := 2, q := 2 ^ 16, N := 4, p := 16 }) (k := 16) (by norm_num) (by norm_num) rfl
  (by decide +kernel) (fun i => 91 * i + 5) (db := [[3, 15], [7, 9]]) (by decide +kernel) (by decide +kernel)
  (s := [1234, 65535]) rfl [-2, 1] (idx := 1) (by decide) (by decide +kernel) (by decide +kernel) (by decide +kernel)

example := every_entry_recovered (P := { dim := 2, q := 2 ^ 16, N := 4, p := 16 }) (k := 16) (E := 2) (by norm_num) (by norm_num) rfl
  (by decide +kernel) (by decide +kernel) (fun i => 91 * i + 5) (db := [[3, 15], [7, 9]]) (by decide +kernel) (by decide +kernel)
  (by decide) (s := [1234, 65535]) rfl (e := [-2, 1]) (by decide) (idx := 1) (by decide)

end Psi.SimplePir
