import Verif.Okvs.CompleteLemmas
import Verif.Okvs.HashLemmas
import Verif.Okvs.Decode

/-!
# Properties of the key-value store

The keys enter by their 128-bit hashes `hs`; `X r` is the value of key `r`.
-/

namespace Psi.Okvs
open Psi.Okvs.Spec Psi.Gf128

/-- A concrete column choice: the first column of least positive weight. -/
def minPick (S : Nat) (t : Tri) : Nat :=
  ((List.range S).filter (fun c => t.wt c ≠ 0)).foldl (fun m c => if t.wt c < t.wt m then c else m)
    (((List.range S).filter (fun c => t.wt c ≠ 0)).headD 0)

theorem minPick_ok (S : Nat) : PickOk S (minPick S) := by
  rintro t ⟨c, hc, h0⟩
  have hall : ∀ x ∈ (List.range S).filter (fun c => t.wt c ≠ 0), x < S ∧ t.wt x ≠ 0 := by
    intro x hx
    rw [List.mem_filter, List.mem_range] at hx
    exact ⟨hx.1, by simpa using hx.2⟩
  have hne : c ∈ (List.range S).filter (fun c => t.wt c ≠ 0) := by
    rw [List.mem_filter, List.mem_range]
    exact ⟨hc, by simpa using h0⟩
  unfold minPick
  revert hall hne
  generalize (List.range S).filter (fun c => t.wt c ≠ 0) = l
  intro hall hne
  have hgen : ∀ (l' : List Nat) (m : Nat), (∀ x ∈ l', x < S ∧ t.wt x ≠ 0) → m < S ∧ t.wt m ≠ 0 →
      (l'.foldl (fun m c => if t.wt c < t.wt m then c else m) m) < S ∧
        t.wt (l'.foldl (fun m c => if t.wt c < t.wt m then c else m) m) ≠ 0 := by
    intro l'
    induction l' with
    | nil => intro m _ hm; exact hm
    | cons a l' ih =>
      intro m hl hm
      rw [List.foldl_cons]
      apply ih _ (fun x hx => hl x (List.mem_cons_of_mem _ hx))
      split
      · exact hl a List.mem_cons_self
      · exact hm
  apply hgen l _ hall
  cases l with
  | nil => cases hne
  | cons a l => exact hall a List.mem_cons_self

theorem rowsOf_get (w S : Nat) (hs : List Nat) {r : Nat} (hr : r < hs.length) :
    (rowsOf w S hs)[r]'(by simpa [rowsOf] using hr) = ⟨buildRow w S hs[r], hs[r]⟩ := by
  simp [rowsOf]

theorem noOverflow_of {D gMax : Nat} (h : ∀ i ≤ gMax, D * D.choose i < 2 ^ 64) : ∀ g ≤ gMax, NoOverflow D g :=
  fun _ hg i hi => h i (Nat.le_trans hi hg)

/-- C26, `DenseType::Binary` (the low-communication mode).  If the encoder accepts the keys, decoding a key
returns its value; values of any width. -/
theorem C26_binary_round_trip {V : Type} [AddCommGroup V] [Module (ZMod 2) V] (w S D gMax : Nat) (pick : Tri → Nat)
    (hs : List Nat) (X : Nat → V) (hw0 : 0 < w) (hw : w ≤ S) (hp : PickOk S pick) (hg : gMax ≤ D)
    (hov : ∀ i ≤ gMax, D * D.choose i < 2 ^ 64) {out : (Nat → V) × (Nat → V)}
    (he : encodeBin (rowsOf w S hs) S D gMax pick bitCoef X = .ok out) (r : Nat) (hr : r < hs.length) :
    decode bitCoef D out.1 out.2 ⟨buildRow w S hs[r], hs[r]⟩ = X r := by
  rw [← rowsOf_get w S hs hr]
  exact encodeBin_decode (rowsOf_ok hw0 hw hs) hp hg (noOverflow_of hov) he _

/-- C26, `DenseType::Binary`.  Accepted keys are independent: no combination of their rows cancels.
In particular no key occurs twice. -/
theorem C26_binary_accepts_only_independent {V : Type} [AddCommGroup V] [Module (ZMod 2) V] (w S D gMax : Nat)
    (pick : Tri → Nat) (hs : List Nat) (X : Nat → V) (hw0 : 0 < w) (hw : w ≤ S) (hp : PickOk S pick) (hg : gMax ≤ D)
    (hov : ∀ i ≤ gMax, D * D.choose i < 2 ^ 64) {out : (Nat → V) × (Nat → V)}
    (he : encodeBin (rowsOf w S hs) S D gMax pick bitCoef X = .ok out) : ¬ Dependent (rowsOf w S hs) D :=
  encodeBin_independent (rowsOf_ok hw0 hw hs) hp hg (noOverflow_of hov) he

/-- The ways in which a binary encoding can fail. -/
inductive Failure (w S D gMax : Nat) (hs : List Nat) (pick : Tri → Nat) : Err → Prop
  /-- Two keys have the same hash. -/
  | duplicate (i j : Nat) (hi : i < hs.length) (hj : j < hs.length) : i ≠ j → hs[i] = hs[j] →
      Failure w S D gMax hs pick .duplicate
  /-- More gap rows than parameter `g`. -/
  | gaps (t : Tri) : triangulate (rowsOf w S hs) S pick S (Tri.init (rowsOf w S hs)) = .ok t → gMax < t.gap.length →
      Failure w S D gMax hs pick .tooManyGaps
  /-- Some keys cancel on all pivot columns and in the dense part. -/
  | singular (t : Tri) (T : Finset Nat) :
      triangulate (rowsOf w S hs) S pick S (Tri.init (rowsOf w S hs)) = .ok t →
      CancelOn (rowsOf w S hs) (fun c => c ∈ t.main.map Prod.snd) D T → Failure w S D gMax hs pick .singular
  /-- Parameters out of range. -/
  | denseSize : 64 < D → Failure w S D gMax hs pick .denseSize

/-- C26, `DenseType::Binary`.  If the encoder fails, it is for one of these reasons; the internal checks
("first", the checks in `GetFCInv`, the second inversion) never fail. -/
theorem C26_binary_failures {V : Type} [AddCommGroup V] [Module (ZMod 2) V] (w S D gMax : Nat) (pick : Tri → Nat)
    (hs : List Nat) (X : Nat → V) (hw0 : 0 < w) (hw : w ≤ S) (hp : PickOk S pick) (hg : gMax ≤ D)
    (hov : ∀ i ≤ gMax, D * D.choose i < 2 ^ 64) {e : Err}
    (he : encodeBin (rowsOf w S hs) S D gMax pick bitCoef X = .error e) : Failure w S D gMax hs pick e := by
  have h := rowsOf_ok hw0 hw hs
  unfold encodeBin at he
  have hlen : (rowsOf w S hs).length = hs.length := by simp [rowsOf]
  obtain ⟨o1, o2⟩ := triangulate_once (S := S) (pick := pick) S (once_init (rowsOf w S hs))
  rcases triangulate_spec h hp with ⟨t, h1, h2, h3⟩ | h1
  · rw [h1] at he
    change backfillBin (rowsOf w S hs) bitCoef D gMax t X = .error e at he
    unfold backfillBin at he
    simp only at he
    by_cases hgm : gMax < t.gap.length
    · rw [if_pos hgm] at he
      cases he
      exact .gaps t h1 hgm
    rw [if_neg hgm] at he
    by_cases h0 : t.gap.length = 0
    · rw [if_pos h0] at he
      split at he
      · rename_i hD
        cases he
        exact .denseSize hD.1
      · cases he
    rw [if_neg h0] at he
    obtain ⟨fc, f1, f2, f3⟩ := fcInv_ok h (revOk_of_inv h2) t.gap
    rw [f1] at he
    simp only [bind, Except.bind] at he
    cases hgc : gapCols (rowsOf w S hs) bitCoef (combs D t.gap.length) t.gap fc with
    | none =>
      rw [hgc] at he
      cases he
      obtain ⟨T, hT⟩ := singular_dependent h h2 (o1 t h1) f3 (by omega) (noOverflow_of hov _ (by omega)) hgc
      exact .singular t T h1 hT
    | some gc =>
      rw [hgc] at he
      simp only at he
      have hsome := List.find?_some hgc
      cases hN : gaussJordan id t.gap.length (fun i j => ee (rowsOf w S hs) bitCoef t.gap fc i (gc.getD j 0)) with
      | none => rw [hN] at hsome; simp at hsome
      | some N =>
        rw [hN] at he
        simp only at he
        split at he
        · rename_i hD
          cases he
          exact .denseSize hD.1
        · cases he
  · rw [h1] at he
    cases he
    obtain ⟨i, j, h4, h5, h6, h7⟩ := o2 h1
    rw [hlen] at h5 h6
    refine .duplicate i j h5 h6 h4 ?_
    unfold dns rowsOf at h7
    rw [List.getD_eq_getElem _ _ (by simpa using h5), List.getD_eq_getElem _ _ (by simpa using h6)] at h7
    simpa using h7

/-- Two keys share all columns (one gap row), a third one does not; accepted. -/
theorem binary_accepted : ∃ out, encodeBin (rowsOf 3 10 [0, 10, 3 + 5 * 2 ^ 32]) 10 4 2 (minPick 10) bitCoef
    (fun r => if r = 1 then (1 : ZMod 2) else 0) = .ok out := ⟨_, rfl⟩

example : ∃ out, encodeBin (rowsOf 3 10 [0, 10, 3 + 5 * 2 ^ 32]) 10 4 2 (minPick 10) bitCoef
      (fun r => if r = 1 then (1 : ZMod 2) else 0) = .ok out ∧
    decode bitCoef 4 out.1 out.2 ⟨buildRow 3 10 10, 10⟩ = 1 := by
  obtain ⟨out, h⟩ := binary_accepted
  exact ⟨out, h, C26_binary_round_trip 3 10 4 2 (minPick 10) [0, 10, 3 + 5 * 2 ^ 32] _ (by decide) (by decide)
    (minPick_ok 10) (by decide) (by decide) h 1 (by decide)⟩

example : ¬ Dependent (rowsOf 3 10 [0, 10, 3 + 5 * 2 ^ 32]) 4 := by
  obtain ⟨out, h⟩ := binary_accepted
  exact C26_binary_accepts_only_independent 3 10 4 2 (minPick 10) _ _ (by decide) (by decide) (minPick_ok 10) (by decide)
    (by decide) h

/-- A key that occurs twice is reported. -/
example : Failure 3 10 4 2 [7, 0, 7] (minPick 10) .duplicate :=
  C26_binary_failures (V := ZMod 2) 3 10 4 2 (minPick 10) [7, 0, 7] (fun _ => 1) (by decide) (by decide) (minPick_ok 10)
    (by decide) (by decide) rfl

/-- Keys whose hashes differ above the dense bits only are not independent: no column set is invertible. -/
example : Failure 3 10 2 2 [0, 40] (minPick 10) .singular :=
  C26_binary_failures (V := ZMod 2) 3 10 2 2 (minPick 10) [0, 40] (fun _ => 1) (by decide) (by decide) (minPick_ok 10)
    (by decide) (by decide) rfl

/-- C26, `DenseType::GF128` (the fast mode), in part: the property in full is the statement without the
restriction that the encoder runs into no undefined behaviour, see `C26_gf_two_gaps_undefined`. -/
theorem C26_gf_round_trip_partial (w S D : Nat) (pick : Tri → Nat) (hs : List Nat) (X : Nat → Gf) (hw0 : 0 < w)
    (hw : w ≤ S) (hp : PickOk S pick) {out : (Nat → Gf) × (Nat → Gf)}
    (he : encodeGf (rowsOf w S hs) S D pick powCoef Gf.inv X = .ok out) (r : Nat) (hr : r < hs.length) :
    decode powCoef D out.1 out.2 ⟨buildRow w S hs[r], hs[r]⟩ = X r := by
  rw [← rowsOf_get w S hs hr]
  have h := rowsOf_ok hw0 hw hs
  unfold encodeGf at he
  rcases triangulate_spec h hp with ⟨t, h1, h2, h3⟩ | h1
  · rw [h1] at he
    exact decode_gf Gf.add_self Gf.add_self h h2 h3 powCoef Gf.inv Gf.mul_inv D X he _
  · rw [h1] at he; cases he

/-- Two keys share all columns (one gap row). -/
theorem gf_accepted : ∃ out, encodeGf (rowsOf 3 10 [0, 10, 3 + 5 * 2 ^ 32]) 10 2 (minPick 10) powCoef Gf.inv
    (fun r => if r = 1 then (1 : Gf) else 0) = .ok out := by
  have h : (match encodeGf (rowsOf 3 10 [0, 10, 3 + 5 * 2 ^ 32]) 10 2 (minPick 10) powCoef Gf.inv
      (fun r => if r = 1 then (1 : Gf) else 0) with | .ok _ => true | .error _ => false) = true := by decide +kernel
  split at h
  · rename_i out ho
    exact ⟨out, ho⟩
  · cases h

example : ∃ out, encodeGf (rowsOf 3 10 [0, 10, 3 + 5 * 2 ^ 32]) 10 2 (minPick 10) powCoef Gf.inv
      (fun r => if r = 1 then (1 : Gf) else 0) = .ok out ∧
    decode powCoef 2 out.1 out.2 ⟨buildRow 3 10 10, 10⟩ = 1 := by
  obtain ⟨out, h⟩ := gf_accepted
  exact ⟨out, h, C26_gf_round_trip_partial 3 10 2 (minPick 10) [0, 10, 3 + 5 * 2 ^ 32] _ (by decide) (by decide)
    (minPick_ok 10) h 1 (by decide)⟩

/-- C26, `DenseType::GF128`: the round trip for the algorithm as intended, with a second matrix of full
size in `MatrixGf128Inv`: then nothing about the number of gap rows is needed. -/
theorem C26_gf_intended_round_trip (w S D : Nat) (pick : Tri → Nat) (hs : List Nat) (X : Nat → Gf) (hw0 : 0 < w)
    (hw : w ≤ S) (hp : PickOk S pick) {t : Tri} (ht : triangulate (rowsOf w S hs) S pick S (Tri.init (rowsOf w S hs)) = .ok t)
    (hD : t.gap.length ≤ D) {fc : List (List Nat)} (hfc : fcInv (rowsOf w S hs) t.main.reverse t.gap = .ok fc)
    {N : Nat → Nat → Gf} (hN : gaussJordan Gf.inv t.gap.length (ee (rowsOf w S hs) powCoef t.gap fc) = some N)
    (r : Nat) (hr : r < hs.length) :
    let p2 := fun i => if i < t.gap.length then mulVec t.gap.length N (xx t.gap fc X) i else 0
    decode powCoef D (backfill (rowsOf w S hs) t.main.reverse X
      (fun r => densePart (powCoef (dns (rowsOf w S hs) r)) p2 D)) p2 ⟨buildRow w S hs[r], hs[r]⟩ = X r := by
  simp only
  rw [← rowsOf_get w S hs hr]
  have h := rowsOf_ok hw0 hw hs
  rcases triangulate_spec h hp with ⟨t', h1, h2, h3⟩ | h1
  · rw [h1] at ht
    cases ht
    exact decode_gf_of Gf.add_self Gf.add_self h h2 h3 powCoef Gf.inv Gf.mul_inv D X hD hfc hN _
  · rw [h1] at ht; cases ht

/-- C26, `DenseType::GF128`: with two or more gap rows `MatrixGf128Inv` writes behind the end of its
result. -/
theorem C26_gf_two_gaps_undefined (w S D : Nat) (pick : Tri → Nat) (hs : List Nat) (X : Nat → Gf) (hw0 : 0 < w)
    (hw : w ≤ S) (hp : PickOk S pick) (t : Tri)
    (ht : triangulate (rowsOf w S hs) S pick S (Tri.init (rowsOf w S hs)) = .ok t)
    (h2 : 2 ≤ t.gap.length) (hD : t.gap.length ≤ D) :
    encodeGf (rowsOf w S hs) S D pick powCoef Gf.inv X = .error .undefined := by
  have h := rowsOf_ok hw0 hw hs
  unfold encodeGf
  rcases triangulate_spec h hp with ⟨t', h1, hi, h3⟩ | h1
  · rw [h1] at ht
    cases ht
    rw [h1]
    show backfillGf (rowsOf w S hs) powCoef Gf.inv D t X = _
    unfold backfillGf
    simp only
    rw [if_neg (by omega), if_neg (by omega)]
    obtain ⟨fc, f1, f2, f3⟩ := fcInv_ok h (revOk_of_inv hi) t.gap
    rw [f1]
    simp only [bind, Except.bind]
    unfold gfInverse
    rw [if_pos ⟨1, by omega, by omega⟩]
  · rw [h1] at ht; cases ht

/-- Three different keys in the same columns, sizes as computed by `PaxosParam::Init` for one item. -/
theorem C26_gf_two_gaps_reached : ∃ t, triangulate (rowsOf 3 10 [0, 10, 20]) 10 (minPick 10) 10 (Tri.init (rowsOf 3 10 [0, 10, 20])) = .ok t ∧
    t.gap.length = 2 := ⟨_, rfl, by decide⟩

example : encodeGf (rowsOf 3 10 [0, 10, 20]) 10 2 (minPick 10) powCoef Gf.inv (fun _ => (1 : Gf)) = .error .undefined := by
  obtain ⟨t, h1, h2⟩ := C26_gf_two_gaps_reached
  exact C26_gf_two_gaps_undefined 3 10 2 _ _ _ (by decide) (by decide) (minPick_ok 10) t h1 (by omega) (by omega)

/-- The hypotheses of `C26_gf_intended_round_trip` with two gap rows. -/
example : ∃ t fc N, triangulate (rowsOf 3 10 [0, 10, 20]) 10 (minPick 10) 10 (Tri.init (rowsOf 3 10 [0, 10, 20])) = .ok t ∧
    t.gap.length ≤ 2 ∧ fcInv (rowsOf 3 10 [0, 10, 20]) t.main.reverse t.gap = .ok fc ∧
    gaussJordan Gf.inv t.gap.length (ee (rowsOf 3 10 [0, 10, 20]) powCoef t.gap fc) = some N := by
  have h : (match triangulate (rowsOf 3 10 [0, 10, 20]) 10 (minPick 10) 10 (Tri.init (rowsOf 3 10 [0, 10, 20])) with
    | .ok t => match fcInv (rowsOf 3 10 [0, 10, 20]) t.main.reverse t.gap with
      | .ok fc => decide (t.gap.length ≤ 2) &&
        (gaussJordan Gf.inv t.gap.length (ee (rowsOf 3 10 [0, 10, 20]) powCoef t.gap fc)).isSome
      | .error _ => false
    | .error _ => false) = true := by decide +kernel
  split at h
  · rename_i t ht
    split at h
    · rename_i fc hfc
      rw [Bool.and_eq_true, Option.isSome_iff_exists] at h
      obtain ⟨h1, N, hN⟩ := h
      exact ⟨t, fc, N, ht, by simpa using h1, hfc, hN⟩
    · cases h
  · cases h

/-- The elimination of `MatrixGf128Inv` gives up on an invertible matrix: it only accepts a 1 as new pivot. -/
theorem C26_gf_pivot_missed :
    gaussJordan Gf.inv 2 (fun i j => if i = j then 0 else if i = 0 then 1 else Gf.ofNat 2) = none ∧
      ∃ B : Matrix (Fin 2) (Fin 2) Gf, B * toMat 2 (fun i j => if i = j then 0 else if i = 0 then 1 else Gf.ofNat 2) = 1 := by
  have h2 : Gf.ofNat 2 ≠ 1 := fun h => absurd (congrArg Gf.val h) (by decide)
  have h20 : Gf.ofNat 2 ≠ 0 := fun h => absurd (congrArg Gf.val h) (by decide)
  constructor
  · have hp : pivot 2 (fun i j => if i = j then (0 : Gf) else if i = 0 then 1 else Gf.ofNat 2) 0 = none := by
      unfold pivot
      simp [h2]
    unfold gaussJordan
    rw [show List.range 2 = 0 :: [1] from rfl, List.foldlM_cons]
    unfold gjStep
    rw [hp]
    rfl
  · refine ⟨!![0, Gf.inv (Gf.ofNat 2); 1, 0], ?_⟩
    ext i j
    fin_cases i <;> fin_cases j <;>
      simp [Matrix.mul_apply, toMat, Fin.sum_univ_two, mul_comm (Gf.inv _), Gf.mul_inv _ h20]

end Psi.Okvs
