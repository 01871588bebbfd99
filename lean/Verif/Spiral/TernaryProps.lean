import Mathlib.Data.Set.Card
import Mathlib.Data.List.GetD
import Verif.Spiral.TernaryModel
import Verif.Spiral.SchemeExamples

/-!
# The secret keys of Spiral PIR are ternary and of weight 512

Whatever the shuffle does, as long as it permutes, every polynomial of the secret keys has exactly `hamming` ones,
`hamming` minus ones and zeros otherwise (C69), which is what `default_retrieves` asks of the keys.  The limit: there are
at most `2 ^ 32` keys.
-/

namespace Psi.Spiral

open Finset

variable {G : Type} {S : Shuffler G} {P : Par}

/-- `std::shuffle` only rearranges. -/
def Shuffler.Permutes (S : Shuffler G) : Prop := ∀ g l, (S.shuffle g l).1.Perm l

/-- The values of a ternary polynomial, in some order. -/
def ternaryValues (modulus hamming n : Nat) : List Nat :=
  List.replicate hamming 1 ++ List.replicate hamming (modulus - 1) ++ List.replicate (n - 2 * hamming) 0

theorem writes_prefix (q h n : Nat) (h2 : 2 * h ≤ n) : ∀ k, k ≤ h →
    (List.range k).foldl (fun p k => (p.set k 1).set (k + h) (q - 1)) (List.replicate n 0) =
      List.replicate k 1 ++ List.replicate (h - k) 0 ++ List.replicate k (q - 1) ++ List.replicate (n - h - k) 0
  | 0, _ => by
    simp only [List.range_zero, List.foldl_nil, List.replicate_zero, List.nil_append, List.append_nil, Nat.sub_zero,
      List.replicate_append_replicate]
    congr 1
    omega
  | k + 1, hk => by
    rw [List.range_succ, List.foldl_append, writes_prefix q h n h2 k (by omega)]
    simp only [List.foldl_cons, List.foldl_nil]
    apply List.ext_getElem
    · simp
      omega
    · intro i h1 _
      simp only [List.getElem_set, List.getElem_append, List.length_append, List.length_replicate, List.getElem_replicate]
      split_ifs <;> first | rfl | omega

theorem ternaryWrites_eq {q h n : Nat} (h2 : 2 * h ≤ n) :
    ternaryWrites q h (List.replicate n 0) = ternaryValues q h n := by
  unfold ternaryWrites ternaryValues
  rw [writes_prefix q h n h2 h le_rfl]
  simp only [Nat.sub_self, List.replicate_zero, List.append_nil]
  congr 2
  omega

theorem ternaryPolys_spec (hS : S.Permutes) {q h n : Nat} (h2 : 2 * h ≤ n) : ∀ (k : Nat) (g : G),
    (ternaryPolys S q h n k g).length = k ∧ ∀ p ∈ ternaryPolys S q h n k g, p.Perm (ternaryValues q h n)
  | 0, _ => ⟨rfl, by simp [ternaryPolys]⟩
  | k + 1, g => by
    obtain ⟨h1, h3⟩ := ternaryPolys_spec hS (q := q) h2 k (S.shuffle g (ternaryWrites q h (List.replicate n 0))).2
    refine ⟨by simp [ternaryPolys, h1], fun p hp => ?_⟩
    rw [ternaryPolys, List.mem_cons] at hp
    rcases hp with rfl | hp
    · rw [← ternaryWrites_eq h2]
      exact hS _ _
    · exact h3 p hp

theorem map_range_getD (l : List Nat) {n : Nat} (h : l.length = n) : (List.range n).map (fun z => l.getD z 0) = l := by
  subst h
  apply List.ext_getElem
  · simp
  · intro i h1 h2
    rw [List.getElem_map, List.getElem_range, List.getD_eq_getElem _ _ h2]

/-- **C69** every polynomial of a key has exactly `hamming` ones, `hamming` minus ones and otherwise zeros. -/
theorem ternary_exact (hS : S.Permutes) {rows cols h : Nat} (h2 : 2 * h ≤ P.n) (seed : Nat) :
    ∃ M, genTernary S P rows cols h seed = .ok M ∧ M.rows = rows ∧ M.cols = cols ∧
      ∀ r c, r < rows → c < cols →
        ((List.range P.n).map (M.poly r c)).Perm
          (List.replicate h 1 ++ List.replicate h (P.modulus - 1) ++ List.replicate (P.n - 2 * h) 0) := by
  unfold genTernary
  rw [if_pos h2]
  refine ⟨_, rfl, rfl, rfl, fun r c hr hc => ?_⟩
  obtain ⟨h1, h3⟩ := ternaryPolys_spec hS h2 (q := P.modulus) (rows * cols) (mtState S seed)
  have hi : r * cols + c < rows * cols := by
    have := Nat.mul_le_mul_right cols (Nat.succ_le_of_lt hr)
    rw [Nat.succ_mul] at this
    omega
  generalize hl : ternaryPolys S P.modulus h P.n (rows * cols) (mtState S seed) = l at *
  have hm := h3 _ (List.getElem_mem (show r * cols + c < l.length by omega))
  have hlen : (l[r * cols + c]'(by omega)).length = P.n := by
    rw [hm.length_eq]
    simp [ternaryValues]
    omega
  have e : (List.range P.n).map ((⟨rows, cols, fun i z => (l.getD i []).getD z 0⟩ : Mat).poly r c) =
      l[r * cols + c]'(by omega) := by
    rw [← map_range_getD (l[r * cols + c]'(by omega)) hlen]
    refine List.map_congr_left fun z _ => ?_
    show (l.getD (r * cols + c) []).getD z 0 = _
    rw [List.getD_eq_getElem l [] (show r * cols + c < l.length by omega)]
  rw [e]
  exact hm

/-- A matrix with such polynomials is a key: reduced and of weight `2 * hamming`. -/
theorem ternary_weight {h : Nat} {sk : Mat} {r : Nat} (hq : 4 ≤ P.modulus)
    (hp : ((List.range P.n).map (sk.poly r 0)).Perm (ternaryValues P.modulus h P.n)) :
    (∀ z, z < P.n → sk.poly r 0 z ≤ P.modulus - 1) ∧ ∑ i ∈ range P.n, |keyCoeff P sk r i| = ((2 * h : Nat) : ℤ) := by
  constructor
  · intro z hz
    have hm : sk.poly r 0 z ∈ (List.range P.n).map (sk.poly r 0) := List.mem_map.2 ⟨z, List.mem_range.2 hz, rfl⟩
    rw [hp.mem_iff] at hm
    simp only [ternaryValues, List.mem_append, List.mem_replicate] at hm
    omega
  · have e : ∑ i ∈ range P.n, |keyCoeff P sk r i| =
        (((List.range P.n).map (sk.poly r 0)).map fun x => |centre x P.modulus|).sum := by
      rw [List.map_map]
      rfl
    rw [e, (hp.map _).sum_eq]
    have c0 : centre 0 P.modulus = 0 := by unfold centre; rw [if_neg (by omega)]; rfl
    have c1 : centre 1 P.modulus = 1 := by unfold centre; rw [if_neg (by omega)]; rfl
    have c2 : centre (P.modulus - 1) P.modulus = -1 := by unfold centre; rw [if_pos (by omega)]; omega
    simp [ternaryValues, c0, c1, c2]
    ring

/-- **C69** the keys of `GenSecretKeys` are ones the scheme works with, whatever the seeds. -/
theorem secret_keys_ok_partial (hS : S.Permutes) {D : Scheme} {h : Nat} (h2 : 2 * h ≤ P.n) (hq : 4 ≤ P.modulus) {C : KeyCoins}
    (hC : CoinsOk P D C) (seedGsw seedReg : Nat) :
    ∃ skGsw skReg, genSecretKeys S P D.n h seedGsw seedReg = .ok (skGsw, skReg) ∧ KeysOk P D (2 * h) skReg skGsw C := by
  obtain ⟨g, g1, g2, g3, g4⟩ := ternary_exact hS (rows := D.n) (cols := 1) h2 seedGsw
  obtain ⟨k, k1, k2, k3, k4⟩ := ternary_exact hS (rows := 1) (cols := 1) h2 seedReg
  have lg : RawLe P g (P.modulus - 1) := by
    intro r c hr hc z hz
    rw [g3] at hc
    obtain rfl : c = 0 := by omega
    exact (ternary_weight hq (g4 r 0 (by omega) (by omega))).1 z hz
  have lk : RawLe P k (P.modulus - 1) := by
    intro r c hr hc z hz
    rw [k3] at hc
    obtain rfl : c = 0 := by omega
    exact (ternary_weight hq (k4 r 0 (by omega) (by omega))).1 z hz
  refine ⟨g, k, by unfold genSecretKeys; rw [g1, k1]; rfl, ⟨k2, k3, lk.mono (by omega)⟩, ⟨g2, g3, lg.mono (by omega)⟩, hC, lk,
    lg, (ternary_weight hq (k4 0 0 (by omega) (by omega))).2.le, fun r hr => (ternary_weight hq (g4 r 0 hr (by omega))).2.le⟩

/-- **C68** from the seeds of the secret keys to the row, with the default parameters. -/
theorem default_client (hS : S.Permutes) (avx : Bool) (seedGsw seedReg : Nat) {rowLen : Nat} {raw : List (List Nat)} {d : Dims}
    {size : Nat} (hlen : 0 < rowLen)
    (hu : updateByDatabaseInfo PackPar.default 11 6 raw.length rowLen = .ok (d, size))
    (hrows : ∀ r ∈ raw, r.length = rowLen) (hbytes : ∀ r ∈ raw, ∀ x ∈ r, x < 256) {C : KeyCoins}
    (hC : CoinsOk (Par.default avx) (Scheme.default d) C) {idx : Nat} (hi : idx < raw.length)
    {s : Nat → Sample} (hs : SampleOk (Par.default avx) 1 1 (s 0)) :
    ∃ skGsw skReg parts vs query, genSecretKeys S (Par.default avx) 2 256 seedGsw seedReg = .ok (skGsw, skReg) ∧
      databasePts 8 PackPar.default rowLen (2 ^ d.v1 * 2 ^ d.v2) raw = .ok parts ∧
      mapRes (reorientDatabase (Par.default avx) 256 4 (2 ^ d.v2) (2 ^ d.v1)) parts = .ok vs ∧
      genQuery (Par.default avx) (Scheme.default d) skReg (ptIndex PackPar.default rowLen idx) (invPow d.g)
        (invPow (d.stopRound + 1)) s = .ok query ∧
      ((∀ part r c z, part < parts.length → r < 2 → c < 2 → z < 2048 →
        |coeff (respNoise (Par.default avx) (Scheme.default d)
          (theRun (Par.default avx) (Scheme.default d) PackPar.default skReg
            (genPublicKeys (Par.default avx) (Scheme.default d) skReg skGsw C) C s rowLen idx parts vs query) part r c) z| ≤
          76305826579175) →
      ∃ resp, processQuery (Par.default avx) (Scheme.default d) 786433
          (genPublicKeys (Par.default avx) (Scheme.default d) skReg skGsw C)
          (concatDbs (4 * (2 ^ d.v1 * 2 ^ d.v2) * 2048) vs) (4 * (2 ^ d.v1 * 2 ^ d.v2) * 2048) parts.length query = .ok resp ∧
        decodeAnswer (Par.default avx) (Par.q2 avx) (Scheme.default d) 786433 PackPar.default skGsw rowLen idx resp =
          .ok raw[idx]) := by
  obtain ⟨skGsw, skReg, h1, h2⟩ := secret_keys_ok_partial (P := Par.default avx) hS (D := Scheme.default d) (h := 256)
    (by rw [Par.default_n]; norm_num) (default_four avx) hC seedGsw seedReg
  obtain ⟨parts, vs, query, h3⟩ := default_retrieves avx hlen hu hrows hbytes h2 hi hs
  exact ⟨skGsw, skReg, parts, vs, query, h1, h3⟩

/-- **C69** (limit) the 128-bit seed is cut to 32 bits. -/
theorem ternary_seed (rows cols h seed : Nat) :
    genTernary S P rows cols h seed = genTernary S P rows cols h (seed % 2 ^ 32) := by
  unfold genTernary mtState
  rw [Nat.mod_mod]

/-- **C69** (limit) whatever the generator and the shuffle are, and whatever 128-bit seed the client draws, there are at most
`2 ^ 32` secret keys. -/
theorem ternary_few (rows cols h : Nat) :
    (Set.range fun seed : Fin (2 ^ 128) => genTernary S P rows cols h seed).ncard ≤ 2 ^ 32 := by
  have hsub : (Set.range fun seed : Fin (2 ^ 128) => genTernary S P rows cols h seed) ⊆
      genTernary S P rows cols h '' (Finset.range (2 ^ 32) : Set Nat) := by
    rintro _ ⟨seed, rfl⟩
    exact ⟨(seed : Nat) % 2 ^ 32, by simpa using Nat.mod_lt _ (by norm_num), (ternary_seed _ _ _ _).symm⟩
  refine (Set.ncard_le_ncard hsub ((Finset.finite_toSet _).image _)).trans ?_
  refine (Set.ncard_image_le (Finset.finite_toSet _)).trans ?_
  rw [Set.ncard_coe_finset, Finset.card_range]

/-! ### Examples -/

/-- A shuffle that rotates by the state, and a generator that counts. -/
def rotShuffler : Shuffler Nat := ⟨id, fun g l => (l.rotate g, g + 1)⟩

theorem rotShuffler_permutes : rotShuffler.Permutes := fun g l => List.rotate_perm l g

example (avx : Bool) := ternary_exact (P := Par.default avx) rotShuffler_permutes (rows := 2) (cols := 1) (h := 256)
  (by rw [Par.default_n]; norm_num) (2 ^ 127 + 5)

example (avx : Bool) := secret_keys_ok_partial (P := Par.default avx) (D := Scheme.default exDims) rotShuffler_permutes (h := 256)
  (by rw [Par.default_n]; norm_num) (default_four avx) (exKeys_ok (default_four avx) exErrs_le 256).coins 3 (2 ^ 90)

example (avx : Bool) := default_client rotShuffler_permutes avx 3 4 (rowLen := 3) (raw := exRows) (by norm_num) exRows_info
  (by decide) (by decide) (exKeys_ok (default_four avx) exErrs_le 256).coins (idx := 1) (by decide)
  (s := fun _ => exDraw (Par.default avx).modulus 1 exErrs) (exDraw_ok (default_four avx) exErrs_le)

/-- Seeds that agree in their low 32 bits give the same key. -/
example (avx : Bool) : genTernary rotShuffler (Par.default avx) 2 1 256 (2 ^ 100 + 7) =
    genTernary rotShuffler (Par.default avx) 2 1 256 7 := by
  rw [ternary_seed, show (2 ^ 100 + 7) % 2 ^ 32 = 7 from by norm_num]

end Psi.Spiral
