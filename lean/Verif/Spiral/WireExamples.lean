import Verif.Spiral.SchemeExamples
import Verif.Spiral.WireProps

/-!
# Runs of Spiral PIR across messages

Instances of the theorems of `WireProps` for the rings of `SchemeExamples`.
-/

namespace Psi.Spiral

/-- A generator all over the range. -/
def exFill (seed z : Nat) : Nat := (seed + 1) * (z + 1) * 1234567890123456789

theorem eight_wire (avx : Bool) : WireOk (Par.eight avx) (Scheme.default exDims) := by
  constructor <;> rw [Par.eight_n] <;> norm_num [Scheme.default]

theorem exLong_wide : RowsOk (Scheme.default exDims) ⟨8, 32⟩ 64 40 exLong :=
  ⟨by decide, by decide, by decide, by decide, by decide, by decide⟩

theorem exErrs_mod {q : Nat} (hq : 4 ≤ q) (z : Nat) : |exErrs 0 0 z| < q := by
  have := exErrs_le 0 0 z
  omega

example (avx : Bool) (idx : Nat) (hi : idx < exLong.length) := wire_bounded (eight_setup avx) (eight_wire avx)
  (exKeys_ok (eight_four avx) exErrs_le 4) exLong_wide hi (fill := exFill) (draw := exFill) (seed := 2 ^ 128 - 5) (e := exErrs)
  (by norm_num) (fun _ _ => rfl) (b := 1)
  ⟨fun _ => exErrs_le, fun _ _ => exErrs_le, fun _ _ => exErrs_le, fun _ => exErrs_le⟩ exErrs_le
  (by rw [Par.eight_modulus]; norm_num) (by
    have := eight_bound avx
    rw [Par.eightQ2_modulus, Par.eight_modulus, Scheme.default_p]
    omega)

example (avx : Bool) := wire_retrieves (eight_setup avx) (eight_wire avx)
  (exKeys_ok (eight_four avx) exErrs_le 4) exLong_wide (idx := 3) (by decide) (fill := exFill) (draw := exFill) (seed := 77)
  (e := exErrs) (by norm_num) (fun _ _ => rfl) fun z _ => exErrs_mod (eight_four avx) z

example (avx : Bool) := wire_exact (Par.eight_ok avx) (eight_setup avx).scheme (eight_wire avx) (idx := 5) (seed := 77)
  (fill := exFill) (draw := exFill) (e := exErrs) (exSk_ok (h := 4) (eight_four avx)) (exSk_ok (h := 4) (eight_four avx))
  (exKeys_ok (eight_four avx) exErrs_le 4).coins (by norm_num) (fun _ _ => rfl)
  ⟨exSk_ok (eight_four avx), by decide, (eight_setup avx).first_lt, (eight_setup avx).rest_lt, (eight_setup avx).first,
    (eight_setup avx).rest, seeded_ok (Par.eight_ok avx) fun z _ => exErrs_mod (eight_four avx) z⟩

example (avx : Bool) := default_wire avx (rowLen := 3) (raw := exRows) (by norm_num) exRows_info (by decide) (by decide)
  (exKeys_ok (default_four avx) exErrs_le 256) (idx := 2) (by decide) (fill := exFill) (draw := exFill) (seed := 77)
  (e := exErrs) (by norm_num) (fun _ _ => rfl) fun z _ => exErrs_mod (by norm_num) z

example (avx : Bool) := short_seed (Par.default avx) exFill ⟨2, 1, []⟩ (seed := [1, 2, 3]) (by decide)

example (avx : Bool) := size_wraps (Par.default avx) (show 11 ≤ 64 by decide)

/-! ### Restart -/

def exFour : List (List Nat) := exLong.take 4

theorem exFour_ok : RowsOk (Scheme.default exDims) ⟨8, 32⟩ 8 40 exFour :=
  ⟨by decide, by decide, by decide, by decide, by decide, by decide⟩

theorem exFour_info : updateByDatabaseInfo ⟨8, 32⟩ 3 6 exFour.length 40 = .ok (exDims, 4) := by decide +kernel

example (avx : Bool) (idx : Nat) (hi : idx < exFour.length) := restart_bounded (eight_setup avx) (eight_wire avx)
  (exKeys_ok (eight_four avx) exErrs_le 4) exFour_ok rfl exFour_info (by decide) hi (fill := exFill) (draw := exFill)
  (seed := 2 ^ 128 - 5) (e := exErrs) (by norm_num) (fun _ _ => rfl) (b := 1)
  ⟨fun _ => exErrs_le, fun _ _ => exErrs_le, fun _ _ => exErrs_le, fun _ => exErrs_le⟩ exErrs_le
  (by rw [Par.eight_modulus]; norm_num) (by
    have := eight_bound avx
    rw [Par.eightQ2_modulus, Par.eight_modulus, Scheme.default_p]
    omega)

example (avx : Bool) := restart_retrieves_partial (eight_setup avx) (eight_wire avx)
  (exKeys_ok (eight_four avx) exErrs_le 4) exFour_ok rfl exFour_info (by decide) (idx := 3) (by decide) (fill := exFill)
  (draw := exFill) (seed := 77) (e := exErrs) (by norm_num) (fun _ _ => rfl) fun z _ => exErrs_mod (eight_four avx) z

example (avx : Bool) := default_restart avx (rowLen := 3) (raw := exRows) (by norm_num) exRows_info (by decide) (by decide)
  (by decide) (exKeys_ok (default_four avx) exErrs_le 256) (idx := 2) (by decide) (fill := exFill) (draw := exFill) (seed := 77)
  (e := exErrs) (by norm_num) (fun _ _ => rfl) fun z _ => exErrs_mod (by norm_num) z

/-- The server of four rows, its dump and the loaded server. -/
theorem exFour_load (avx : Bool) : ∃ S m S' parts,
    Server.generate ⟨8, 32⟩ { rows := 4, rowLen := 40, dims := exDims } exFour = .ok S ∧ S.dump = .ok m ∧
      Server.load (Par.eight avx) 2 256 ⟨8, 32⟩ 3 6 m = .ok S' ∧
      Serves (Par.eight avx) (Scheme.default exDims) ⟨8, 32⟩ 8 40 exFour S' parts :=
  load_serves_partial (eight_setup avx) exFour_ok rfl (by decide) exFour_info (by decide)

/-- The built server is not ready: a query and keys that parse, an undefined answer. -/
theorem exFour_not_ready (avx : Bool) : ∃ S qm km,
    Server.generate ⟨8, 32⟩ { rows := 4, rowLen := 40, dims := exDims } exFour = .ok S ∧ S.seted = true ∧
      S.respond (Par.eight avx) (Scheme.default exDims) 786433 exFill qm km = .undefined := by
  obtain ⟨S, m, S', parts, s1, -, -, -⟩ := exFour_load avx
  obtain ⟨K, qm, -, query, k1, -, -, -, -, -, q2, -⟩ := wire_exact (Par.eight_ok avx) (eight_setup avx).scheme (eight_wire avx)
    (idx := 5) (seed := 77) (fill := exFill) (draw := exFill) (e := exErrs) (exSk_ok (h := 4) (eight_four avx))
    (exSk_ok (h := 4) (eight_four avx)) (exKeys_ok (eight_four avx) exErrs_le 4).coins (by norm_num) (fun _ _ => rfl)
    ⟨exSk_ok (eight_four avx), by decide, (eight_setup avx).first_lt, (eight_setup avx).rest_lt, (eight_setup avx).first,
      (eight_setup avx).rest, seeded_ok (Par.eight_ok avx) fun z _ => exErrs_mod (eight_four avx) z⟩
  exact ⟨S, qm, _, s1, built_not_ready rfl s1 q2 k1 (by decide +kernel)⟩

example (avx : Bool) : ∃ S m' m, S.dump = .ok m ∧ m'.ptDbs ≠ [] ∧ Server.load (Par.eight avx) 2 256 ⟨8, 32⟩ 3 6 m' = .ok S ∧
    Server.load (Par.eight avx) 2 256 ⟨8, 32⟩ 3 6 m = .throws := by
  obtain ⟨S, m, S', parts, s1, s2, s3, -⟩ := exFour_load avx
  have hne : m.ptDbs ≠ [] := by
    rintro h
    have h1 : (match Server.generate ⟨8, 32⟩ { rows := 4, rowLen := 40, dims := exDims } exFour with
      | .ok S => match S.dump with
        | .ok m => m.ptDbs.isEmpty
        | _ => true
      | _ => true) = false := by decide +kernel
    rw [s1] at h1
    simp only at h1
    rw [s2] at h1
    simp [h] at h1
  obtain ⟨m2, d1, d2⟩ := dump_of_loaded hne s3
  exact ⟨S', m, m2, d1, hne, s3, d2⟩

example (avx : Bool) : ∃ S m, Server.generateReoriented (Par.eight avx) (Scheme.default exDims) ⟨8, 32⟩
      { rows := 4, rowLen := 40, dims := exDims } exFour = .ok S ∧ S.dump = .ok m ∧
    Server.load (Par.eight avx) 2 256 ⟨8, 32⟩ 3 6 m = .throws := by
  obtain ⟨S, parts, s1, -⟩ := reoriented_serves (eight_setup avx) (raw := exFour) (rowLen := 40)
    ⟨by decide, by decide, by decide, by decide, by decide, by decide⟩ (by decide)
  obtain ⟨m, d1, d2⟩ := dump_of_reoriented (n := 2) (p := 256) rfl rfl (by decide) exFour_info s1
  exact ⟨S, m, s1, d1, d2⟩

end Psi.Spiral
