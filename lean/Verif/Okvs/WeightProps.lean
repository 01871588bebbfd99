import Verif.Okvs.WeightTri

/-!
# Properties of the lists of columns by weight

`Props.lean` has the encoder with any choice of column; here the choice comes out of the linked lists of
`WeightData`, with their checks and their reads behind the end.
-/

namespace Psi.Okvs
open Psi.Okvs.Spec Psi.Gf128

/-- Number of keys that have column `c`. -/
def load (w S : Nat) (hs : List Nat) (c : Nat) : Nat := (hs.filter (fun h => c ∈ buildRow w S h)).length

theorem colRows_load {w S : Nat} (hw0 : 0 < w) (hw : w ≤ S) (hs : List Nat) (c : Nat) :
    (colRows (rowsOf w S hs) c).length = load w S hs c := by
  have h := rowsOf_ok hw0 hw hs
  refine (init_wt h c).trans ?_
  unfold unset load
  have hlen : (rowsOf w S hs).length = hs.length := by simp [rowsOf]
  rw [hlen, ← List.countP_eq_length_filter, ← List.countP_eq_length_filter]
  have hmap : hs = (List.range hs.length).map (fun i => hs.getD i 0) := by
    apply List.ext_getElem
    · simp
    · intro i h1 h2; simp [h1]
  conv_rhs => rw [hmap, List.countP_map]
  apply List.countP_congr
  intro i hi
  rw [List.mem_range] at hi
  simp [cols, rowsOf, hi]

theorem room_rowsOf {w S : Nat} (hw3 : 3 ≤ w) (hw : w ≤ S) (hs : List Nat) : Room (rowsOf w S hs) S := by
  left
  intro r hr
  unfold rowsOf at hr
  obtain ⟨h, _, rfl⟩ := List.mem_map.mp hr
  have := (buildRow_spec hw h).2.1
  dsimp only
  omega

theorem encodeBinW_eq {V : Type} [AddCommGroup V] [Module (ZMod 2) V] {w S D gMax : Nat} {hs : List Nat}
    (X : Nat → V) (hw3 : 3 ≤ w) (hw : w ≤ S) (hl : ∀ c < S, load w S hs c < 200) :
    ∃ pick, PickMin S pick ∧ encodeBinW (rowsOf w S hs) S D gMax bitCoef X =
      liftErr (encodeBin (rowsOf w S hs) S D gMax pick bitCoef X) := by
  obtain ⟨pick, h1, h2⟩ := triW_refines (rowsOf_ok (by omega) hw hs) (room_rowsOf hw3 hw hs) (by omega)
    (fun c hc => by rw [colRows_load (by omega) hw]; exact hl c hc)
  refine ⟨pick, h1, ?_⟩
  unfold encodeBinW encodeBin
  rw [h2]
  cases triangulate (rowsOf w S hs) S pick S (Tri.init (rowsOf w S hs)) <;> rfl

theorem encodeGfW_eq {w S D : Nat} {hs : List Nat}
    (X : Nat → Gf) (hw3 : 3 ≤ w) (hw : w ≤ S) (hl : ∀ c < S, load w S hs c < 200) :
    ∃ pick, PickMin S pick ∧ encodeGfW (rowsOf w S hs) S D powCoef Gf.inv X =
      liftErr (encodeGf (rowsOf w S hs) S D pick powCoef Gf.inv X) := by
  obtain ⟨pick, h1, h2⟩ := triW_refines (rowsOf_ok (by omega) hw hs) (room_rowsOf hw3 hw hs) (by omega)
    (fun c hc => by rw [colRows_load (by omega) hw]; exact hl c hc)
  refine ⟨pick, h1, ?_⟩
  unfold encodeGfW encodeGf
  rw [h2]
  cases triangulate (rowsOf w S hs) S pick S (Tri.init (rowsOf w S hs)) <;> rfl

theorem triangulateW_heavy {w S : Nat} {hs : List Nat} (hw0 : 0 < w) (hw : w ≤ S)
    (hl : ∃ c < S, 200 ≤ load w S hs c) : triangulateW (rowsOf w S hs) S = .error .heavy := by
  obtain ⟨c, hc, h2⟩ := hl
  unfold triangulateW
  rw [init_heavy _ hc (by rw [colRows_load hw0 hw]; exact h2)]
  rfl

/-- C105.  The columns are taken in the order the code takes them: each one has the least number of
unplaced keys among those with any.  With 3 or more columns per key, fewer than 200 keys to a column, no
check of the lists fails and nothing is read behind their end. -/
theorem C105_takes_least_column (w S : Nat) (hs : List Nat) (hw3 : 3 ≤ w) (hw : w ≤ S)
    (hl : ∀ c < S, load w S hs c < 200) :
    ∃ pick : Tri → Nat,
      (∀ t : Tri, (∃ c < S, t.wt c ≠ 0) → pick t < S ∧ t.wt (pick t) ≠ 0 ∧
        ∀ c < S, t.wt c ≠ 0 → t.wt (pick t) ≤ t.wt c) ∧
      triangulateW (rowsOf w S hs) S =
        match triangulate (rowsOf w S hs) S pick S (Tri.init (rowsOf w S hs)) with
        | .ok t => .ok t
        | .error e => .error (.base e) := by
  obtain ⟨pick, h1, h2⟩ := triW_refines (rowsOf_ok (by omega) hw hs) (room_rowsOf hw3 hw hs) (by omega)
    (fun c hc => by rw [colRows_load (by omega) hw]; exact hl c hc)
  refine ⟨pick, fun t hex => ⟨(h1.1 t hex).1, (h1.1 t hex).2, fun c hc h0 => h1.2 t c hc h0⟩, ?_⟩
  rw [h2]
  cases triangulate (rowsOf w S hs) S pick S (Tri.init (rowsOf w S hs)) <;> rfl

/-- C105.  What the encoder accepts decodes to the values (`DenseType::Binary`). -/
theorem C105_binary_round_trip {V : Type} [AddCommGroup V] [Module (ZMod 2) V] (w S D gMax : Nat)
    (hs : List Nat) (X : Nat → V) (hw3 : 3 ≤ w) (hw : w ≤ S) (hg : gMax ≤ D)
    (hov : ∀ i ≤ gMax, D * D.choose i < 2 ^ 64) {out : (Nat → V) × (Nat → V)}
    (he : encodeBinW (rowsOf w S hs) S D gMax bitCoef X = .ok out) (r : Nat) (hr : r < hs.length) :
    decode bitCoef D out.1 out.2 ⟨buildRow w S hs[r], hs[r]⟩ = X r := by
  by_cases hl : ∀ c < S, load w S hs c < 200
  · obtain ⟨pick, h1, h2⟩ := encodeBinW_eq (D := D) (gMax := gMax) X hw3 hw hl
    rw [h2] at he
    cases hb : encodeBin (rowsOf w S hs) S D gMax pick bitCoef X with
    | error e => rw [hb] at he; cases he
    | ok o =>
      rw [hb] at he
      cases he
      exact C26_binary_round_trip w S D gMax pick hs X (by omega) hw h1.1 hg hov hb r hr
  · push Not at hl
    unfold encodeBinW at he
    rw [triangulateW_heavy (by omega) hw hl] at he
    cases he

/-- C105.  The reasons for which the encoder fails: a column with 200 keys or more, or one of those of C26.
No check of the lists fails, `GetMinWeightNode` finds a column, and nothing is read behind the end. -/
theorem C105_binary_failures {V : Type} [AddCommGroup V] [Module (ZMod 2) V] (w S D gMax : Nat)
    (hs : List Nat) (X : Nat → V) (hw3 : 3 ≤ w) (hw : w ≤ S) (hg : gMax ≤ D)
    (hov : ∀ i ≤ gMax, D * D.choose i < 2 ^ 64) {e : WErr}
    (he : encodeBinW (rowsOf w S hs) S D gMax bitCoef X = .error e) :
    (e = .heavy ∧ ∃ c < S, 200 ≤ load w S hs c) ∨
      (∃ e' pick, e = .base e' ∧ PickMin S pick ∧ Failure w S D gMax hs pick e') := by
  by_cases hl : ∀ c < S, load w S hs c < 200
  · obtain ⟨pick, h1, h2⟩ := encodeBinW_eq (D := D) (gMax := gMax) X hw3 hw hl
    rw [h2] at he
    cases hb : encodeBin (rowsOf w S hs) S D gMax pick bitCoef X with
    | error e' =>
      rw [hb] at he
      cases he
      exact Or.inr ⟨e', pick, rfl, h1, C26_binary_failures w S D gMax pick hs X (by omega) hw h1.1 hg hov hb⟩
    | ok o => rw [hb] at he; cases he
  · push Not at hl
    unfold encodeBinW at he
    rw [triangulateW_heavy (by omega) hw hl] at he
    cases he
    exact Or.inl ⟨rfl, hl⟩

/-- C105.  The encoder refuses keys just for the load of a column exactly if 200 of them have a column in
common, whatever the number of columns. -/
theorem C105_refused_iff_heavy {V : Type} [AddCommGroup V] [Module (ZMod 2) V] (w S D gMax : Nat)
    (hs : List Nat) (X : Nat → V) (hw3 : 3 ≤ w) (hw : w ≤ S) :
    encodeBinW (rowsOf w S hs) S D gMax bitCoef X = .error .heavy ↔ ∃ c < S, 200 ≤ load w S hs c := by
  constructor
  · intro he
    apply Classical.byContradiction
    intro hn
    have hl : ∀ c < S, load w S hs c < 200 := by
      intro c hc
      apply Classical.byContradiction
      intro h2; exact hn ⟨c, hc, by omega⟩
    obtain ⟨pick, h1, h2⟩ := encodeBinW_eq (D := D) (gMax := gMax) X hw3 hw hl
    rw [h2] at he
    cases hb : encodeBin (rowsOf w S hs) S D gMax pick bitCoef X with
    | error e' => rw [hb] at he; cases he
    | ok o => rw [hb] at he; cases he
  · intro hl
    unfold encodeBinW
    rw [triangulateW_heavy (by omega) hw hl]
    rfl

/-- C105.  The same for `DenseType::GF128`, where the encoder has defined behaviour (C26). -/
theorem C105_gf_round_trip_partial (w S D : Nat) (hs : List Nat) (X : Nat → Gf) (hw3 : 3 ≤ w) (hw : w ≤ S)
    {out : (Nat → Gf) × (Nat → Gf)} (he : encodeGfW (rowsOf w S hs) S D powCoef Gf.inv X = .ok out)
    (r : Nat) (hr : r < hs.length) :
    decode powCoef D out.1 out.2 ⟨buildRow w S hs[r], hs[r]⟩ = X r := by
  by_cases hl : ∀ c < S, load w S hs c < 200
  · obtain ⟨pick, h1, h2⟩ := encodeGfW_eq (D := D) X hw3 hw hl
    rw [h2] at he
    cases hb : encodeGf (rowsOf w S hs) S D pick powCoef Gf.inv X with
    | error e => rw [hb] at he; cases he
    | ok o =>
      rw [hb] at he
      cases he
      exact C26_gf_round_trip_partial w S D pick hs X (by omega) hw h1.1 hb r hr
  · push Not at hl
    unfold encodeGfW at he
    rw [triangulateW_heavy (by omega) hw hl] at he
    cases he

/-- C105.  With two columns per key the lists may run empty: `PopNode` then calls `back()` on an empty
vector.  One key in a table with two columns. -/
theorem C105_weight_two_undefined : triangulateW (rowsOf 2 2 [0]) 2 = .error .undefined := by
  have h : (match triangulateW (rowsOf 2 2 [0]) 2 with | .error .undefined => true | _ => false) = true := by
    decide +kernel
  split at h
  · assumption
  · cases h

/-- C105.  With two columns per key and a column that no key has, the lists do not run empty. -/
theorem C105_weight_two_partial (S : Nat) (hs : List Nat) (hS : 2 ≤ S) {z : Nat} (hz : z < S) (hz0 : load 2 S hs z = 0)
    (hl : ∀ c < S, load 2 S hs c < 200) :
    (∃ t, triangulateW (rowsOf 2 S hs) S = .ok t) ∨
      triangulateW (rowsOf 2 S hs) S = .error (.base .duplicate) := by
  have hok := rowsOf_ok (w := 2) (by omega) hS hs
  have hroom : Room (rowsOf 2 S hs) S := by
    right
    constructor
    · intro r hr
      unfold rowsOf at hr
      obtain ⟨h, _, rfl⟩ := List.mem_map.mp hr
      have := (buildRow_spec (w := 2) hS h).2.1
      dsimp only
      omega
    · refine ⟨z, hz, ?_⟩
      intro r hr hzr
      unfold rowsOf at hr
      obtain ⟨h, hh, rfl⟩ := List.mem_map.mp hr
      unfold load at hz0
      rw [List.length_eq_zero_iff, List.filter_eq_nil_iff] at hz0
      exact hz0 h hh (by simpa using hzr)
  obtain ⟨pick, h1, h2⟩ := triW_refines hok hroom (by omega)
    (fun c hc => by rw [colRows_load (by omega) hS]; exact hl c hc)
  rw [h2]
  rcases triangulate_spec hok h1.1 with ⟨t, h3, _⟩ | h3
  · rw [h3]; exact Or.inl ⟨t, rfl⟩
  · rw [h3]; exact Or.inr rfl

/-! ## Concrete inputs -/

theorem load_lt_of_length {w S : Nat} {hs : List Nat} (h : hs.length < 200) (c : Nat) : load w S hs c < 200 :=
  Nat.lt_of_le_of_lt (List.length_filter_le _ _) h

example := C105_takes_least_column 3 10 [0, 10, 3 + 5 * 2 ^ 32] (by decide) (by decide)
  (fun c _ => load_lt_of_length (by decide) c)

/-- Two keys share all columns (one gap row), a third one does not; accepted. -/
theorem binaryW_accepted : ∃ out, encodeBinW (rowsOf 3 10 [0, 10, 3 + 5 * 2 ^ 32]) 10 4 2 bitCoef
    (fun r => if r = 1 then (1 : ZMod 2) else 0) = .ok out := by
  have h : (match encodeBinW (rowsOf 3 10 [0, 10, 3 + 5 * 2 ^ 32]) 10 4 2 bitCoef
      (fun r => if r = 1 then (1 : ZMod 2) else 0) with | .ok _ => true | .error _ => false) = true := by decide +kernel
  split at h
  · rename_i out ho
    exact ⟨out, ho⟩
  · cases h

example : ∃ out, encodeBinW (rowsOf 3 10 [0, 10, 3 + 5 * 2 ^ 32]) 10 4 2 bitCoef
      (fun r => if r = 1 then (1 : ZMod 2) else 0) = .ok out ∧
    decode bitCoef 4 out.1 out.2 ⟨buildRow 3 10 10, 10⟩ = 1 := by
  obtain ⟨out, h⟩ := binaryW_accepted
  exact ⟨out, h, C105_binary_round_trip 3 10 4 2 [0, 10, 3 + 5 * 2 ^ 32] _ (by decide) (by decide) (by decide)
    (by decide) h 1 (by decide)⟩

theorem gfW_accepted : ∃ out, encodeGfW (rowsOf 3 10 [0, 10, 3 + 5 * 2 ^ 32]) 10 2 powCoef Gf.inv
    (fun r => if r = 1 then (1 : Gf) else 0) = .ok out := by
  have h : (match encodeGfW (rowsOf 3 10 [0, 10, 3 + 5 * 2 ^ 32]) 10 2 powCoef Gf.inv
      (fun r => if r = 1 then (1 : Gf) else 0) with | .ok _ => true | .error _ => false) = true := by decide +kernel
  split at h
  · rename_i out ho
    exact ⟨out, ho⟩
  · cases h

example : ∃ out, encodeGfW (rowsOf 3 10 [0, 10, 3 + 5 * 2 ^ 32]) 10 2 powCoef Gf.inv
      (fun r => if r = 1 then (1 : Gf) else 0) = .ok out ∧
    decode powCoef 2 out.1 out.2 ⟨buildRow 3 10 10, 10⟩ = 1 := by
  obtain ⟨out, h⟩ := gfW_accepted
  exact ⟨out, h, C105_gf_round_trip_partial 3 10 2 [0, 10, 3 + 5 * 2 ^ 32] _ (by decide) (by decide) h 1 (by decide)⟩

/-- A key that occurs twice is reported, and not for the load of its columns. -/
theorem binaryW_duplicate : encodeBinW (V := ZMod 2) (rowsOf 3 10 [7, 0, 7]) 10 4 2 bitCoef (fun _ => 1) =
    .error (.base .duplicate) := by
  have h : (match encodeBinW (V := ZMod 2) (rowsOf 3 10 [7, 0, 7]) 10 4 2 bitCoef (fun _ => 1) with
    | .error (.base .duplicate) => true | _ => false) = true := by decide +kernel
  split at h
  · assumption
  · cases h

example := C105_binary_failures (V := ZMod 2) 3 10 4 2 [7, 0, 7] (fun _ => 1) (by decide) (by decide) (by decide)
  (by decide) binaryW_duplicate

/-- In a table with three columns every key has all columns: 200 keys are refused. -/
theorem load_three (hs : List Nat) {c : Nat} (hc : c < 3) : load 3 3 hs c = hs.length := by
  unfold load
  rw [List.filter_eq_self.mpr]
  intro h _
  obtain ⟨h1, h2, h3⟩ := buildRow_spec (w := 3) (S := 3) (by decide) h
  have hsub : (buildRow 3 3 h).Subperm (List.range 3) :=
    List.subperm_of_subset h1 (fun x hx => List.mem_range.mpr (h3 x hx))
  have hperm := hsub.perm_of_length_le (by rw [h2]; decide)
  simpa using (hperm.mem_iff (a := c)).mpr (List.mem_range.mpr hc)

example : encodeBinW (V := ZMod 2) (rowsOf 3 3 (List.range 200)) 3 4 2 bitCoef (fun _ => 0) = .error .heavy :=
  (C105_refused_iff_heavy 3 3 4 2 _ _ (by decide) (by decide)).mpr ⟨0, by decide, by
    rw [load_three _ (by decide)]; simp⟩

/-- Two columns per key, one key, three columns. -/
example := C105_weight_two_partial 3 [0] (by decide) (z := 2) (by decide) (by decide)
  (fun c _ => load_lt_of_length (by decide) c)

end Psi.Okvs
