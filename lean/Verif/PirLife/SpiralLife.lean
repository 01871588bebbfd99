import Verif.PirLife.SpiralProps
import Verif.Spiral.WireExamples

/-!
# C124: two databases for one Spiral server

Whole runs of the calls of `SpiralProps`, from a new server.
-/

namespace Psi.Spiral

variable {P Q : Par} {D : Scheme} {pk : PackPar} {W invFirst invRest rowLen : Nat}

theorem generateReoriented_any {S0 S1 : Server} {raw : List (List Nat)}
    (hg : Server.generateReoriented P D pk { rows := S0.rows, rowLen := S0.rowLen, dims := S0.dims } raw = .ok S1) :
    ∃ S, S0.generateReoriented P D pk raw = .ok S := by
  have hrows : raw.length = S0.rows := by
    by_contra h
    unfold Server.generateReoriented at hg
    rw [if_pos h] at hg
    cases hg
  obtain ⟨parts, dbs, h1, h2, rfl⟩ := generateReoriented_ok hg
  unfold Server.generateReoriented
  rw [if_neg (by simpa using hrows)]
  have h1 : databasePts 64 pk S0.rowLen S0.prod raw = .ok parts := h1
  rw [h1, Res.ok_bind]
  have h2 : mapRes (reorientDatabase P D.p (D.n * D.n) (2 ^ S0.dims.v2) (2 ^ S0.dims.v1)) parts = .ok dbs := h2
  rw [h2, Res.ok_bind]
  exact ⟨_, rfl⟩

theorem generate_any {S0 S1 : Server} {raw : List (List Nat)}
    (hg : Server.generate pk { rows := S0.rows, rowLen := S0.rowLen, dims := S0.dims } raw = .ok S1) :
    ∃ S, S0.generate pk raw = .ok S := by
  have h8 : pk.logt = 8 := by
    by_contra h
    unfold Server.generate at hg
    rw [if_pos h] at hg
    cases hg
  have hrows : raw.length = S0.rows := by
    by_contra h
    unfold Server.generate at hg
    rw [if_neg (by simpa using h8), if_pos h] at hg
    cases hg
  obtain ⟨parts, h1, rfl⟩ := generate_inv hg
  unfold Server.generate
  rw [if_neg (by simpa using h8), if_neg (by simpa using hrows)]
  have h1 : databasePts 8 pk S0.rowLen S0.prod raw = .ok parts := h1
  rw [h1, Res.ok_bind]
  exact ⟨_, rfl⟩

/-- **C124.**  A server whose rows fit into a plaintext serves the database it was given last.  (The property asks this for
longer rows too, which `second_database_hidden` refutes.) -/
theorem second_database_served_partial (hp : SetupOk P Q D pk W invFirst invRest) {raw raw' : List (List Nat)}
    (hr : RowsOk D pk 64 rowLen raw) (h0 : raw ≠ []) (hr' : RowsOk D pk 64 rowLen raw') (hl : raw'.length = raw.length)
    (hshort : rowLen ≤ pk.maxBytes) :
    ∃ S1 S2 parts, Server.generateReoriented P D pk { rows := raw.length, rowLen := rowLen, dims := D.dims } raw = .ok S1 ∧
      S1.generateReoriented P D pk raw' = .ok S2 ∧ Serves P D pk 64 rowLen raw' S2 parts := by
  have h0' : raw' ≠ [] := by
    rintro rfl
    exact h0 (List.length_eq_zero_iff.1 hl.symm)
  obtain ⟨S1, p1, g1, -⟩ := reoriented_serves hp hr h0
  obtain ⟨S', parts, g2, s⟩ := reoriented_serves hp hr' h0'
  rw [hl] at g2
  have hsame : S1.rows = raw.length ∧ S1.rowLen = rowLen ∧ S1.dims = D.dims := by
    obtain ⟨q1, dbs, -, -, rfl⟩ := generateReoriented_ok g1
    exact ⟨rfl, rfl, rfl⟩
  obtain ⟨S2, g3⟩ := generateReoriented_any (S0 := S1) (S1 := S') (raw := raw') (P := P) (D := D) (pk := pk)
    (by rw [hsame.1, hsame.2.1, hsame.2.2]; exact g2)
  refine ⟨_, S2, parts, g1, g3, ?_⟩
  obtain ⟨pa, da, a1, a2, rfl⟩ := generateReoriented_ok g3
  unfold Server.prod at a1
  rw [hsame.2.1, hsame.2.2] at a1
  rw [hsame.2.2] at a2
  have hpa : parts = pa := Res.ok.inj (s.pts.symm.trans a1)
  subst hpa
  refine ⟨s.pts, ?_, rfl, hsame.2.2, ?_, rfl⟩
  · unfold Server.kept
    rw [if_pos (by rw [hsame.2.1]; exact hshort), List.nil_append]
    exact a2
  · show D.n * D.n * S1.prod * P.n = _
    unfold Server.prod
    rw [hsame.2.2]

/-- **Violated.**  A server that serves rows longer than a plaintext accepts another database of the same shape and goes on
to answer from the one before. -/
theorem second_database_hidden (hp : SetupOk P Q D pk W invFirst invRest) {raw raw' : List (List Nat)}
    (hr : RowsOk D pk 64 rowLen raw) (h0 : raw ≠ []) (hr' : RowsOk D pk 64 rowLen raw') (hl : raw'.length = raw.length)
    (hlong : pk.maxBytes < rowLen) :
    ∃ S1 S2 parts, Server.generateReoriented P D pk { rows := raw.length, rowLen := rowLen, dims := D.dims } raw = .ok S1 ∧
      Serves P D pk 64 rowLen raw S1 parts ∧ S1.generateReoriented P D pk raw' = .ok S2 ∧
      ∀ q2 draw qm km, S2.respond P D q2 draw qm km = S1.respond P D q2 draw qm km := by
  have h0' : raw' ≠ [] := by
    rintro rfl
    exact h0 (List.length_eq_zero_iff.1 hl.symm)
  obtain ⟨S1, parts, g1, s⟩ := reoriented_serves hp hr h0
  obtain ⟨S', -, g2, -⟩ := reoriented_serves hp hr' h0'
  rw [hl] at g2
  have hsame : S1.rows = raw.length ∧ S1.rowLen = rowLen ∧ S1.dims = D.dims := by
    obtain ⟨q1, dbs, -, -, rfl⟩ := generateReoriented_ok g1
    exact ⟨rfl, rfl, rfl⟩
  obtain ⟨S2, g3⟩ := generateReoriented_any (S0 := S1) (S1 := S') (raw := raw') (P := P) (D := D) (pk := pk)
    (by rw [hsame.1, hsame.2.1, hsame.2.2]; exact g2)
  exact ⟨S1, S2, parts, g1, s, g3, long_rows_stale (S0 := _) (by exact hlong) g1 rfl g3⟩

/-- **Violated.**  A server that serves rows and is then given others by `GenerateFromRawData` accepts them and goes on to
answer from the ones before, short or long. -/
theorem rebuilt_hidden (hp : SetupOk P Q D pk W invFirst invRest) {raw raw' : List (List Nat)}
    (hr : RowsOk D pk 64 rowLen raw) (h0 : raw ≠ []) (hr' : RowsOk D pk 8 rowLen raw') (hl : raw'.length = raw.length)
    (h8 : pk.logt = 8) :
    ∃ S1 S2 parts, Server.generateReoriented P D pk { rows := raw.length, rowLen := rowLen, dims := D.dims } raw = .ok S1 ∧
      Serves P D pk 64 rowLen raw S1 parts ∧ S1.generate pk raw' = .ok S2 ∧
      ∀ q2 draw qm km, S2.respond P D q2 draw qm km = S1.respond P D q2 draw qm km := by
  have h0' : raw' ≠ [] := by
    rintro rfl
    exact h0 (List.length_eq_zero_iff.1 hl.symm)
  obtain ⟨S1, parts, g1, s⟩ := reoriented_serves hp hr h0
  obtain ⟨S', -, g2, -⟩ := generate_ok hp.bytes hr' h8 h0'
  rw [hl] at g2
  have hsame : S1.rows = raw.length ∧ S1.rowLen = rowLen ∧ S1.dims = D.dims := by
    obtain ⟨q1, dbs, -, -, rfl⟩ := generateReoriented_ok g1
    exact ⟨rfl, rfl, rfl⟩
  obtain ⟨S2, g3⟩ := generate_any (S0 := S1) (S1 := S') (raw := raw') (pk := pk)
    (by rw [hsame.1, hsame.2.1, hsame.2.2]; exact g2)
  exact ⟨S1, S2, parts, g1, s, g3, rebuilt_stale g1 g3⟩

/-- **Violated.**  A server that is built from rows longer than a plaintext and built again from others is written to a file
that cannot be loaded. -/
theorem rebuilt_file_refused (hp : SetupOk P Q D pk W invFirst invRest) {raw raw' : List (List Nat)}
    (hr : RowsOk D pk 8 rowLen raw) (h0 : raw ≠ []) (hr' : RowsOk D pk 8 rowLen raw') (hl : raw'.length = raw.length)
    (h8 : pk.logt = 8) (hlong : pk.maxBytes < rowLen) (polyLog tgsw : Nat) :
    ∃ S1 S2 m, Server.generate pk { rows := raw.length, rowLen := rowLen, dims := D.dims } raw = .ok S1 ∧
      S1.generate pk raw' = .ok S2 ∧ S2.dump = .ok m ∧ ∀ S', Server.load P D.n D.p pk polyLog tgsw m ≠ .ok S' := by
  have h0' : raw' ≠ [] := by
    rintro rfl
    exact h0 (List.length_eq_zero_iff.1 hl.symm)
  obtain ⟨S1, parts, g1, p1, p2, hpos, p3, hS1⟩ := generate_ok hp.bytes hr h8 h0
  obtain ⟨S', -, g2, -⟩ := generate_ok hp.bytes hr' h8 h0'
  rw [hl] at g2
  obtain ⟨S2, g3⟩ := generate_any (S0 := S1) (S1 := S') (raw := raw') (pk := pk) (by rw [hS1]; exact g2)
  have hne : (parts.map List.flatten).flatten ≠ [] := by
    intro h
    have hlen := flatten_length (rows := parts.map List.flatten) (len := 2 ^ D.dims.v1 * 2 ^ D.dims.v2 * pk.coeffs) (by
      intro p hm
      obtain ⟨q, hq, rfl⟩ := List.mem_map.1 hm
      rw [flatten_length fun pt hpt => ((p3 q hq).2 pt hpt).1, (p3 q hq).1])
    rw [h, List.length_map, List.length_nil] at hlen
    have hc : 0 < pk.coeffs := by
      by_contra h
      have hb := hp.bytes
      unfold PackPar.maxBytes at hb
      rw [show pk.coeffs = 0 by omega] at hb
      simp at hb
    have : 0 < parts.length * (2 ^ D.dims.v1 * 2 ^ D.dims.v2 * pk.coeffs) := by positivity
    omega
  obtain ⟨m, d1, d2⟩ := rebuilt_dump_refused (P := P) (D := D) hp.bytes (by rw [hS1]; exact hlong) (by rw [hS1]; exact hne)
    (by rw [hS1]) (by rw [hS1]; exact hr') h0' h8 g3 D.n D.p polyLog tgsw
  exact ⟨_, S2, m, g1, g3, d1, d2⟩

/-- **Violated.**  A server that was loaded and is then given other rows by `GenerateFromRawData` accepts them and goes on to
answer from the rows of the file. -/
theorem loaded_hidden (hp : SetupOk P Q D pk W invFirst invRest) {raw raw' : List (List Nat)}
    (hr : RowsOk D pk 8 rowLen raw) (h0 : raw ≠ []) (hr' : RowsOk D pk 8 rowLen raw') (hl : raw'.length = raw.length)
    (h8 : pk.logt = 8) {polyLog tgsw size : Nat}
    (hu : updateByDatabaseInfo pk polyLog tgsw raw.length rowLen = .ok (D.dims, size))
    (hfit : (rowLen + pk.maxBytes - 1) / pk.maxBytes * (2 ^ D.dims.v1 * 2 ^ D.dims.v2 * pk.coeffs) < 2 ^ 64) :
    ∃ S m S1 S2 parts, Server.generate pk { rows := raw.length, rowLen := rowLen, dims := D.dims } raw = .ok S ∧
      S.dump = .ok m ∧ Server.load P D.n D.p pk polyLog tgsw m = .ok S1 ∧ Serves P D pk 8 rowLen raw S1 parts ∧
      S1.generate pk raw' = .ok S2 ∧ ∀ q2 draw qm km, S2.respond P D q2 draw qm km = S1.respond P D q2 draw qm km := by
  have h0' : raw' ≠ [] := by
    rintro rfl
    exact h0 (List.length_eq_zero_iff.1 hl.symm)
  obtain ⟨S, m, S1, parts, g1, g2, g3, g4⟩ := load_serves_partial hp hr h8 h0 hu hfit
  obtain ⟨S', -, g5, -⟩ := generate_ok hp.bytes hr' h8 h0'
  rw [hl] at g5
  have hm : m.rows = raw.length ∧ m.rowLen = rowLen ∧
      m.partNum = if m.rowLen ≤ pk.maxBytes then 1 else (m.rowLen + pk.maxBytes - 1) / pk.maxBytes := by
    obtain ⟨pa, a1, rfl⟩ := generate_inv g1
    have hlen : pa.length = if rowLen ≤ pk.maxBytes then 1 else (rowLen + pk.maxBytes - 1) / pk.maxBytes := by
      have h : pa.length = if rowLen ≤ pk.maxBytes then 1 else (rowLen + pk.maxBytes - 1) / pk.maxBytes - 1 + 1 :=
        databasePts_length a1
      rw [h]
      split_ifs
      · rfl
      · have : 1 ≤ (rowLen + pk.maxBytes - 1) / pk.maxBytes := by
          rw [Nat.le_div_iff_mul_le hp.bytes]
          omega
        omega
    rw [← Res.ok.inj g2]
    exact ⟨rfl, rfl, hlen⟩
  obtain ⟨c1, c2, -, -⟩ := load_shape g3
  obtain ⟨S2, g6⟩ := generate_any (S0 := S1) (S1 := S') (raw := raw') (pk := pk)
    (by rw [c1, c2, hm.1, hm.2.1, g4.dims]; exact g5)
  exact ⟨S, m, S1, S2, parts, g1, g2, g3, g4, g6, loaded_stale g3 hm.2.2 hp.bytes g6⟩

/-- **C124.**  A new server takes a hash table whatever shape it was made for, and the server loaded from its file serves the
table.  (The property asks that the server itself serve it, which `built_not_ready` refutes.) -/
theorem table_served_partial (hp : SetupOk P Q D pk W invFirst invRest) {table : List (List Nat)}
    (hr : RowsOk D pk 8 rowLen table) (h8 : pk.logt = 8) (h0 : table ≠ []) {polyLog size : Nat} (S0 : Server)
    (hnew : rowLen ≤ pk.maxBytes ∨ S0.ptDbs = [])
    (hu : updateByDatabaseInfo pk polyLog S0.dims.tgsw table.length rowLen = .ok (D.dims, size))
    (hfit : (rowLen + pk.maxBytes - 1) / pk.maxBytes * (2 ^ D.dims.v1 * 2 ^ D.dims.v2 * pk.coeffs) < 2 ^ 64) :
    ∃ S m S' parts, S0.generateTable pk polyLog table rowLen = .ok S ∧ S.dump = .ok m ∧
      Server.load P D.n D.p pk polyLog S0.dims.tgsw m = .ok S' ∧ Serves P D pk 8 rowLen table S' parts := by
  obtain ⟨S, m, S', parts, g1, g2, g3, g4⟩ := load_serves_partial hp hr h8 h0 hu hfit
  obtain ⟨T, t1⟩ := generate_any (S0 := { S0 with rows := table.length, rowLen := rowLen, dims := D.dims }) g1
  refine ⟨T, m, S', parts, ?_, ?_, g3, g4⟩
  · unfold Server.generateTable
    rw [if_neg (by simpa using h8), hu]
    exact t1
  · obtain ⟨pa, a1, rfl⟩ := generate_inv t1
    obtain ⟨pb, b1, rfl⟩ := generate_inv g1
    have hab : pb = pa := Res.ok.inj (b1.symm.trans a1)
    subst hab
    rw [← g2]
    have hk : Server.kept pk { S0 with rows := table.length, rowLen := rowLen, dims := D.dims } S0.ptDbs = [] := by
      unfold Server.kept
      split_ifs with h
      · rfl
      · exact hnew.resolve_left h
    have hk' : Server.kept pk { rows := table.length, rowLen := rowLen, dims := D.dims } ([] : List Nat) = [] := by
      unfold Server.kept
      split_ifs <;> rfl
    unfold Server.dump
    simp only [hk, hk']

/-! ### Runs -/

theorem exFour_other : RowsOk (Scheme.default exDims) ⟨8, 32⟩ 8 40 exFour.reverse :=
  ⟨by decide, by decide, by decide, by decide, by decide, by decide⟩

theorem exFour_wide : RowsOk (Scheme.default exDims) ⟨8, 32⟩ 64 40 exFour :=
  ⟨by decide, by decide, by decide, by decide, by decide, by decide⟩

theorem exFour_other_wide : RowsOk (Scheme.default exDims) ⟨8, 32⟩ 64 40 exFour.reverse :=
  ⟨by decide, by decide, by decide, by decide, by decide, by decide⟩

example : exFour.reverse ≠ exFour := by decide

example (avx : Bool) := second_database_hidden (eight_setup avx) exFour_wide (by decide) exFour_other_wide rfl (by decide)

example (avx : Bool) := rebuilt_hidden (eight_setup avx) exFour_wide (by decide) exFour_other rfl rfl

example (avx : Bool) := rebuilt_file_refused (eight_setup avx) exFour_ok (by decide) exFour_other rfl rfl (by decide) 3 6

example (avx : Bool) := loaded_hidden (eight_setup avx) exFour_ok (by decide) exFour_other rfl rfl exFour_info (by decide)

/-- Four rows that fit into a plaintext. -/
def exShort : List (List Nat) := exFour.map (·.take 30)

theorem exShort_wide : RowsOk (Scheme.default exDims) ⟨8, 32⟩ 64 30 exShort :=
  ⟨by decide, by decide, by decide, by decide, by decide, by decide⟩

theorem exShort_other : RowsOk (Scheme.default exDims) ⟨8, 32⟩ 64 30 exShort.reverse :=
  ⟨by decide, by decide, by decide, by decide, by decide, by decide⟩

example (avx : Bool) := second_database_served_partial (eight_setup avx) exShort_wide (by decide) exShort_other rfl (by decide)

example (avx : Bool) := table_served_partial (eight_setup avx) exFour_ok rfl (by decide) (polyLog := 3)
  { rows := 9, rowLen := 4, dims := exDims } (.inr rfl) exFour_info (by decide)

end Psi.Spiral
