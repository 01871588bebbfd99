import Verif.Piano.Model
import Mathlib.Data.List.GetD
import Mathlib.Data.Nat.Bitwise
import Mathlib.Tactic.Linarith

/-!
# Piano PIR: entries, parameters, the state after the pass over the database
-/

namespace Psi.Piano

open Psi.Spiral (Res mapRes w64 w32)

/-! ### Entries -/

theorem xorE_comm (a b : Entry) : xorE a b = xorE b a := List.zipWith_comm_of_comm fun x y => Nat.xor_comm x y

theorem xorE_assoc : ∀ a b c : Entry, xorE (xorE a b) c = xorE a (xorE b c)
  | [], _, _ => by simp [xorE]
  | _ :: _, [], _ => by simp [xorE]
  | _ :: _, _ :: _, [] => by simp [xorE]
  | x :: a, y :: b, z :: c => by
    have := xorE_assoc a b c
    simp only [xorE, List.zipWith_cons_cons, Nat.xor_assoc] at this ⊢
    rw [this]

theorem xorE_length {s : Nat} {a b : Entry} (ha : a.length = s) (hb : b.length = s) : (xorE a b).length = s := by
  rw [xorE, List.length_zipWith, ha, hb, Nat.min_self]

theorem xorE_self : ∀ a : Entry, xorE a a = zeroEntry a.length
  | [] => rfl
  | x :: a => by
    have := xorE_self a
    simp only [xorE, List.zipWith_cons_cons, Nat.xor_self, zeroEntry, List.length_cons, List.replicate_succ] at this ⊢
    rw [this]

theorem xorE_zero : ∀ a : Entry, xorE a (zeroEntry a.length) = a
  | [] => rfl
  | x :: a => by
    have := xorE_zero a
    simp only [xorE, zeroEntry, List.length_cons, List.replicate_succ, List.zipWith_cons_cons, Nat.xor_zero] at this ⊢
    rw [this]

theorem zeroEntry_length (s : Nat) : (zeroEntry s).length = s := List.length_replicate

theorem xorE_cancel {s : Nat} {a b : Entry} (ha : a.length = s) (hb : b.length = s) : xorE (xorE a b) b = a := by
  rw [xorE_assoc, xorE_self, hb, ← ha, xorE_zero]

/-- The XOR of `m` entries. -/
def X (s m : Nat) (f : Nat → Entry) : Entry := (List.range m).foldl (fun a c => xorE a (f c)) (zeroEntry s)

theorem X_zero (s : Nat) (f : Nat → Entry) : X s 0 f = zeroEntry s := rfl

theorem X_succ (s m : Nat) (f : Nat → Entry) : X s (m + 1) f = xorE (X s m f) (f m) := by
  rw [X, List.range_succ, List.foldl_append]
  rfl

theorem X_congr {s : Nat} {f g : Nat → Entry} : ∀ {m : Nat}, (∀ c < m, f c = g c) → X s m f = X s m g
  | 0, _ => rfl
  | m + 1, h => by rw [X_succ, X_succ, X_congr fun c hc => h c (by omega), h m (by omega)]

theorem X_length {s : Nat} {f : Nat → Entry} : ∀ {m : Nat}, (∀ c < m, (f c).length = s) → (X s m f).length = s
  | 0, _ => zeroEntry_length s
  | m + 1, h => by rw [X_succ]; exact xorE_length (X_length fun c hc => h c (by omega)) (h m (by omega))

/-- One of the entries is changed. -/
theorem X_update {s k : Nat} {f g : Nat → Entry} : ∀ {m : Nat}, (∀ c < m, (f c).length = s) → (g k).length = s → k < m →
    (∀ c < m, c ≠ k → g c = f c) → X s m g = xorE (xorE (X s m f) (f k)) (g k)
  | 0, _, _, hk, _ => by omega
  | m + 1, hf, hg, hk, h => by
    rw [X_succ, X_succ]
    by_cases hkm : k = m
    · subst hkm
      rw [X_congr fun c hc => h c (by omega) (by omega),
        xorE_cancel (X_length fun c hc => hf c (by omega)) (hf k (by omega))]
    · rw [X_update (fun c hc => hf c (by omega)) hg (by omega) fun c hc hne => h c (by omega) hne,
        h m (by omega) (Ne.symm hkm)]
      rw [xorE_assoc, xorE_comm (g k), ← xorE_assoc, xorE_assoc (X s m f), xorE_comm (f k), ← xorE_assoc (X s m f)]

/-! ### Parameters -/

theorem chunkLoop_pow (n : Nat) : ∀ (fuel k : Nat), ∃ k', chunkLoop n fuel (2 ^ k) = 2 ^ k'
  | 0, k => ⟨k, rfl⟩
  | fuel + 1, k => by
    rw [chunkLoop]
    split_ifs
    · rw [← Nat.pow_succ']
      exact chunkLoop_pow n fuel (k + 1)
    · exact ⟨k, rfl⟩

theorem cs_pow (p : Params) : ∃ k, p.cs = 2 ^ k := chunkLoop_pow p.n 64 0

theorem cs_pos (p : Params) : 0 < p.cs := by
  obtain ⟨k, h⟩ := cs_pow p
  rw [h]
  exact Nat.pow_pos (by decide)

theorem n_le (p : Params) : p.n ≤ p.cs * p.ss := by
  have h := cs_pos p
  have h1 := Nat.div_add_mod (p.n + p.cs - 1) p.cs
  have h2 := Nat.mod_lt (p.n + p.cs - 1) h
  rw [Params.ss]
  generalize p.cs * ((p.n + p.cs - 1) / p.cs) = a at h1 ⊢
  omega

theorem threads_pos (p : Params) : 0 < p.threads := by
  rw [Params.threads]
  split_ifs <;> omega

theorem land_mod (p : Params) (v : Nat) : v &&& (p.cs - 1) = v % p.cs := by
  obtain ⟨k, h⟩ := cs_pow p
  rw [h, Nat.and_two_pow_sub_one_eq_mod]

theorem offset_eq (p : Params) (prf : Nat → Nat → Nat) (tag c : Nat) : offset p prf tag c = prf tag c % p.cs := land_mod p _

theorem offset_lt (p : Params) (prf : Nat → Nat → Nat) (tag c : Nat) : offset p prf tag c < p.cs := by
  rw [offset_eq]
  exact Nat.mod_lt _ (cs_pos p)

/-! ### Threads -/

theorem flatMap_ranges (per total : Nat) : ∀ T : Nat, ((List.range T).flatMap fun tid =>
    List.range' (tid * per) (min (tid * per + per) total - tid * per)) = List.range (min (T * per) total)
  | 0 => by simp
  | T + 1 => by
    rw [List.range_succ, List.flatMap_append, flatMap_ranges per total T, List.flatMap_singleton, List.range_eq_range',
      List.range_eq_range']
    rw [Nat.succ_mul]
    generalize T * per = a
    by_cases h : a ≤ total
    · rw [Nat.min_eq_left h]
      have := List.range'_append_1 (s := 0) (m := a) (n := min (a + per) total - a)
      rw [Nat.zero_add] at this
      rw [this]
      congr 1
      omega
    · rw [Nat.min_eq_right (by omega), Nat.min_eq_right (by omega), show total - a = 0 by omega]
      simp

/-- The threads together go through all sets, each once. -/
theorem covered_eq {total threads : Nat} (h : 0 < threads) : covered total threads = List.range total := by
  rw [covered]
  have := flatMap_ranges ((total + threads - 1) / threads) total threads
  dsimp only
  rw [this, Nat.min_eq_right]
  have h1 := Nat.div_add_mod (total + threads - 1) threads
  have h2 := Nat.mod_lt (total + threads - 1) h
  generalize threads * ((total + threads - 1) / threads) = a at h1 ⊢
  omega

/-- Changing places one by one. -/
theorem foldl_modify {α : Type} (P : Nat → Prop) [DecidablePred P] (f : α → α) (l : List α) : ∀ (m i : Nat),
    ((List.range m).foldl (fun l j => if P j then l.modify j f else l) l)[i]?
      = if i < m ∧ P i then l[i]?.map f else l[i]?
  | 0, i => by simp
  | m + 1, i => by
    rw [List.range_succ, List.foldl_append, List.foldl_cons, List.foldl_nil]
    by_cases hP : P m
    · rw [if_pos hP, List.getElem?_modify, foldl_modify P f l m i]
      by_cases hi : m = i
      · subst hi
        rw [if_neg (by omega), if_pos ⟨by omega, hP⟩]
        simp
      · simp only [if_neg hi]
        by_cases hlt : i < m
        · simp [hlt, show i < m + 1 by omega]
        · simp [hlt, show ¬ i < m + 1 by omega]
    · rw [if_neg hP, foldl_modify P f l m i]
      by_cases hi : m = i
      · subst hi
        rw [if_neg (by omega), if_neg (by tauto)]
      · by_cases hlt : i < m
        · simp [hlt, show i < m + 1 by omega]
        · simp [hlt, show ¬ i < m + 1 by omega]

theorem foldl_modify_map {α : Type} (P : Nat → Prop) [DecidablePred P] (f : α → α) (g : Nat → α) (m : Nat) :
    (List.range m).foldl (fun l j => if P j then l.modify j f else l) ((List.range m).map g)
      = (List.range m).map fun j => if P j then f (g j) else g j := by
  apply List.ext_getElem?
  intro i
  rw [foldl_modify, List.getElem?_map, List.getElem?_map]
  by_cases hi : i < m
  · rw [List.getElem?_range hi]
    by_cases hP : P i <;> simp [hi, hP]
  · rw [List.getElem?_eq_none (by simpa using hi)]
    simp

/-! ### The database in chunks -/

theorem slice_length {s i : Nat} {db : List Nat} (h : (i + 1) * s ≤ db.length) : (slice s db i).length = s := by
  rw [slice, List.length_take, List.length_drop]
  rw [Nat.succ_mul] at h
  omega

theorem slice_append {s i : Nat} {db r : List Nat} (h : (i + 1) * s ≤ db.length) : slice s (db ++ r) i = slice s db i := by
  rw [Nat.succ_mul] at h
  rw [slice, slice, List.drop_append_of_le_length (by omega), List.take_append_of_le_length (by simp; omega)]

theorem slice_dbChunk {p : Params} {db : List Nat} {c o : Nat} (ho : o < p.cs) :
    slice p.size (dbChunk p db c) o = slice p.size db (c * p.cs + o) := by
  rw [slice, slice, dbChunk, List.drop_take, List.take_take, List.drop_drop]
  have h1 : (c + 1) * p.cs * p.size - c * p.cs * p.size = p.cs * p.size := by
    rw [Nat.succ_mul, Nat.add_mul]
    omega
  have h2 : (o + 1) * p.size ≤ p.cs * p.size := Nat.mul_le_mul_right _ ho
  rw [h1, Nat.min_eq_left (by rw [Nat.succ_mul] at h2; omega), Nat.add_mul]

theorem dbChunk_length {p : Params} {db : List Nat} (h : db.length = p.cs * p.ss * p.size) {c : Nat} (hc : c < p.ss) :
    (dbChunk p db c).length = p.cs * p.size := by
  rw [dbChunk, List.length_take, List.length_drop, h]
  have h1 : (c + 1) * p.cs * p.size - c * p.cs * p.size = p.cs * p.size := by
    rw [Nat.succ_mul, Nat.add_mul]
    omega
  have h2 : (c + 1) * p.cs * p.size ≤ p.cs * p.ss * p.size := by
    rw [Nat.mul_comm p.cs p.ss]
    exact Nat.mul_le_mul_right _ (Nat.mul_le_mul_right _ hc)
  have h3 : c * p.cs * p.size ≤ (c + 1) * p.cs * p.size := Nat.mul_le_mul_right _ (Nat.mul_le_mul_right _ (by omega))
  rw [h1]
  omega

theorem align_length {p : Params} {db : List Nat} (pad : Nat → List Nat) (h : db.length = p.n * p.size) :
    (align p pad db).length = p.cs * p.ss * p.size := by
  have hn := n_le p
  rw [align]
  split_ifs with h1
  · rw [List.length_append, List.length_flatMap]
    simp only [padEntry, List.length_map, List.length_range, List.map_const', List.sum_replicate_nat]
    rw [h, Nat.sub_mul]
    have := Nat.mul_le_mul_right p.size hn
    omega
  · rw [h, show p.n = p.cs * p.ss by omega]

theorem align_slice {p : Params} {db : List Nat} (pad : Nat → List Nat) (h : db.length = p.n * p.size) {x : Nat} (hx : x < p.n) :
    slice p.size (align p pad db) x = slice p.size db x := by
  rw [align]
  split_ifs
  · exact slice_append (by rw [h]; exact Nat.mul_le_mul_right _ hx)
  · rfl

/-- All places of the padded database can be read. -/
theorem place_ok {p : Params} {db : List Nat} (h : db.length = p.cs * p.ss * p.size) {i : Nat} (hi : i < p.cs * p.ss) :
    (slice p.size db i).length = p.size := by
  apply slice_length
  rw [h]
  exact Nat.mul_le_mul_right _ hi

theorem place_lt {p : Params} {c o : Nat} (hc : c < p.ss) (ho : o < p.cs) : c * p.cs + o < p.cs * p.ss := by
  have : (c + 1) * p.cs ≤ p.ss * p.cs := Nat.mul_le_mul_right _ hc
  rw [Nat.succ_mul] at this
  rw [Nat.mul_comm p.cs p.ss]
  omega

/-! ### The state after the pass -/

section Offline

variable (p : Params) (prf : Nat → Nat → Nat) (rnd : Nat → Nat → Nat) (db : List Nat)

/-- The primary sets after `d` chunks. -/
def primaryAt (d : Nat) : List PSet := (List.range p.m1).map fun j =>
  ⟨w32 j, X p.size d fun c => slice p.size db (c * p.cs + offset p prf (w32 j) c), 0, false⟩

/-- The backup sets after `d` chunks. -/
def backupAt (d : Nat) : List BSet := (List.range p.total).map fun i =>
  ⟨w32 (p.m1 + i), X p.size d fun c =>
    if c = i / p.m2 then zeroEntry p.size else slice p.size db (c * p.cs + offset p prf (w32 (p.m1 + i)) c)⟩

/-- The replacement of a chunk at a place. -/
def replacement (c k : Nat) : Nat := rnd c k % p.cs + c * p.cs

/-- A set that has an index at the start. -/
def HitAtStart (x : Nat) : Prop := ∃ j < p.m1, offset p prf (w32 j) (x / p.cs) = x % p.cs

theorem hitMap_get {d c : Nat} {j : Nat} (hj : j < p.cs) :
    (hitMap p prf (primaryAt p prf db d) c).getD j false = true ↔ ∃ i < p.m1, offset p prf (w32 i) c = j := by
  rw [hitMap, covered_eq (threads_pos p)]
  have key : ∀ m ≤ p.m1, ((List.range m).foldl (fun h j => h.set (offset p prf ((primaryAt p prf db d).getD j ⟨0, [], 0, false⟩).tag c) true)
      (List.replicate p.cs false)).length = p.cs ∧
      (((List.range m).foldl (fun h j => h.set (offset p prf ((primaryAt p prf db d).getD j ⟨0, [], 0, false⟩).tag c) true)
        (List.replicate p.cs false)).getD j false = true ↔ ∃ i < m, offset p prf (w32 i) c = j) := by
    intro m
    induction m with
    | zero =>
      intro _
      rw [List.range_zero, List.foldl_nil, List.length_replicate, List.getD_eq_getElem _ _ (by simpa using hj)]
      simp
    | succ m ih =>
      intro hm
      obtain ⟨h1, h2⟩ := ih (by omega)
      rw [List.range_succ, List.foldl_append, List.foldl_cons, List.foldl_nil, List.length_set]
      refine ⟨h1, ?_⟩
      have htag : ((primaryAt p prf db d).getD m ⟨0, [], 0, false⟩).tag = w32 m := by
        rw [List.getD_eq_getElem _ _ (by simp [primaryAt]; omega)]
        simp [primaryAt]
      rw [htag]
      generalize (List.range m).foldl _ _ = l at h1 h2 ⊢
      have hget : (l.set (offset p prf (w32 m) c) true).getD j false
          = if offset p prf (w32 m) c = j then true else l.getD j false := by
        rw [List.getD_eq_getElem _ _ (by rw [List.length_set]; omega), List.getElem_set,
          List.getD_eq_getElem _ _ (by omega)]
      rw [hget]
      constructor
      · split_ifs with h
        · intro _
          exact ⟨m, by omega, h⟩
        · intro h'
          obtain ⟨i, hi, he⟩ := h2.mp h'
          exact ⟨i, by omega, he⟩
      · rintro ⟨i, hi, he⟩
        split_ifs with h
        · rfl
        · apply h2.mpr
          refine ⟨i, ?_, he⟩
          rcases Nat.lt_succ_iff_lt_or_eq.mp hi with h' | rfl
          · exact h'
          · exact absurd he h
  exact (key p.m1 le_rfl).2

theorem look_cons (m : List (Nat × Entry)) (x y : Nat) (v : Entry) :
    look ((y, v) :: m) x = if y = x then some v else look m x := by
  rw [look, List.find?_cons]
  by_cases h : y = x
  · simp [h]
  · simp [h, look]

/-- The misses of one chunk. -/
theorem look_misses {bytes : List Nat} {c : Nat} {h : List Bool} {m0 : List (Nat × Entry)}
    (hm0 : ∀ x, x / p.cs = c → look m0 x = none) : ∀ (k : Nat), k ≤ p.cs → ∀ x,
    look ((List.range k).foldl (fun m j => if h.getD j false then m else (j + c * p.cs, slice p.size bytes j) :: m) m0) x
      = if x / p.cs = c then (if x % p.cs < k ∧ h.getD (x % p.cs) false = false then some (slice p.size bytes (x % p.cs)) else none)
        else look m0 x
  | 0, _, x => by
    rw [List.range_zero, List.foldl_nil]
    split_ifs with h1 h2
    · omega
    · exact hm0 x h1
    · rfl
  | k + 1, hk, x => by
    rw [List.range_succ, List.foldl_append, List.foldl_cons, List.foldl_nil]
    have ih := look_misses hm0 (h := h) (bytes := bytes) k (by omega) x
    have hx : k + c * p.cs = x ↔ x / p.cs = c ∧ x % p.cs = k := by
      constructor
      · rintro rfl
        rw [Nat.add_mul_div_right _ _ (cs_pos p), Nat.add_mul_mod_self_right, Nat.div_eq_of_lt (by omega),
          Nat.mod_eq_of_lt (by omega)]
        omega
      · rintro ⟨h1, h2⟩
        have := Nat.div_add_mod x p.cs
        rw [h1, h2, Nat.mul_comm] at this
        omega
    by_cases hg : h.getD k false = true
    · rw [if_pos hg, ih]
      by_cases hc : x / p.cs = c
      · rw [if_pos hc, if_pos hc]
        by_cases hxk : x % p.cs = k
        · rw [hxk, hg]
          simp
        · have : x % p.cs < k ↔ x % p.cs < k + 1 := by omega
          simp only [this]
      · rw [if_neg hc, if_neg hc]
    · rw [if_neg hg, look_cons, ih]
      by_cases hc : x / p.cs = c
      · rw [if_pos hc, if_pos hc]
        by_cases hxk : x % p.cs = k
        · rw [if_pos (hx.mpr ⟨hc, hxk⟩), if_pos ⟨by omega, by rw [hxk]; simpa using hg⟩, hxk]
        · rw [if_neg (fun e => hxk (hx.mp e).2)]
          have : x % p.cs < k ↔ x % p.cs < k + 1 := by omega
          simp only [this]
      · rw [if_neg (fun e => hc (hx.mp e).1), if_neg hc, if_neg hc]

/-- The client after `d` chunks. -/
structure After (d : Nat) (cl : Client) : Prop where
  primary : cl.primary = primaryAt p prf db d
  backup : cl.backup = backupAt p prf db d
  bcons : cl.bconsumed = List.replicate p.ss 0
  rcons : cl.rconsumed = List.replicate p.ss 0
  ilen : cl.indices.length = p.ss
  vlen : cl.values.length = p.ss
  indices : ∀ c < d, cl.indices.getD c [] = (List.range p.m2).map fun k => replacement p rnd c k
  values : ∀ c < d, cl.values.getD c [] = (List.range p.m2).map fun k => slice p.size db (replacement p rnd c k)
  cache : cl.cache = []
  mask : cl.mask = false
  missSome : ∀ x v, look cl.miss x = some v → x / p.cs < d ∧ ¬ HitAtStart p prf x ∧ v = slice p.size db x
  missNone : ∀ x, x / p.cs < d → ¬ HitAtStart p prf x → look cl.miss x = some (slice p.size db x)

theorem initial_after : After p prf rnd db 0 (initial p) where
  primary := rfl
  backup := rfl
  bcons := rfl
  rcons := rfl
  ilen := by simp [initial]
  vlen := by simp [initial]
  indices := by intro c hc; omega
  values := by intro c hc; omega
  cache := rfl
  mask := rfl
  missSome := by intro x v h; simp [initial, look] at h
  missNone := fun x hx => absurd hx (Nat.not_lt_zero _)

variable {p prf rnd db}

theorem preprocess_after (hdb : db.length = p.cs * p.ss * p.size) {d : Nat} (hd : d < p.ss) {cl : Client}
    (h : After p prf rnd db d cl) :
    ∃ cl', preprocess p prf (rnd d) d (dbChunk p db d) cl = .ok cl' ∧ After p prf rnd db (d + 1) cl' := by
  have hlen := dbChunk_length hdb hd
  rw [preprocess, if_neg (by omega)]
  refine ⟨_, rfl, ?_⟩
  have hcs := cs_pos p
  constructor
  · dsimp only
    rw [covered_eq (threads_pos p), h.primary, primaryAt]
    have := foldl_modify_map (fun _ => True) (addPrimary p prf (dbChunk p db d) d)
      (fun j => (⟨w32 j, X p.size d fun c => slice p.size db (c * p.cs + offset p prf (w32 j) c), 0, false⟩ : PSet)) p.m1
    simp only [if_true] at this
    rw [this, primaryAt]
    apply List.map_congr_left
    intro j _
    rw [addPrimary, slice_dbChunk (offset_lt p prf _ _), X_succ]
  · dsimp only
    rw [covered_eq (threads_pos p), h.backup, backupAt, foldl_modify_map, backupAt]
    apply List.map_congr_left
    intro i hi
    have hm2 : 0 < p.m2 := by
      rcases Nat.eq_zero_or_pos p.m2 with h0 | h0
      · rw [List.mem_range, Params.total, h0] at hi
        omega
      · exact h0
    have hdiv : i / p.m2 = d ↔ ¬ (i < d * p.m2 ∨ (d + 1) * p.m2 ≤ i) := by
      rw [Nat.div_eq_iff hm2]
      have h1 : (d + 1) * p.m2 = d * p.m2 + p.m2 := Nat.succ_mul _ _
      omega
    rw [X_succ]
    have hX : (X p.size d fun c => if c = i / p.m2 then zeroEntry p.size
        else slice p.size db (c * p.cs + offset p prf (w32 (p.m1 + i)) c)).length = p.size := by
      apply X_length
      intro c hc
      split_ifs
      · exact zeroEntry_length _
      · exact place_ok hdb (place_lt (by omega) (offset_lt p prf _ _))
    by_cases hsk : i < d * p.m2 ∨ (d + 1) * p.m2 ≤ i
    · rw [if_pos hsk, addBackup, slice_dbChunk (offset_lt p prf _ _), if_neg (fun e => (hdiv.mp e.symm) hsk)]
    · rw [if_neg hsk, if_pos (hdiv.mpr hsk).symm]
      congr 1
      have := xorE_zero (X p.size d fun c => if c = i / p.m2 then zeroEntry p.size
        else slice p.size db (c * p.cs + offset p prf (w32 (p.m1 + i)) c))
      rw [hX] at this
      exact this.symm
  · exact h.bcons
  · exact h.rcons
  · simp [h.ilen]
  · simp [h.vlen]
  · intro c hc
    dsimp only
    by_cases hcd : c = d
    · subst hcd
      rw [List.getD_eq_getElem _ _ (by rw [List.length_set, h.ilen]; omega), List.getElem_set_self]
      apply List.map_congr_left
      intro k _
      rw [replacement, land_mod]
    · rw [List.getD_eq_getElem _ _ (by rw [List.length_set, h.ilen]; omega), List.getElem_set_ne (Ne.symm hcd),
        ← h.indices c (by omega), List.getD_eq_getElem _ _ (by rw [h.ilen]; omega)]
  · intro c hc
    dsimp only
    by_cases hcd : c = d
    · subst hcd
      rw [List.getD_eq_getElem _ _ (by rw [List.length_set, h.vlen]; omega), List.getElem_set_self]
      apply List.map_congr_left
      intro k _
      rw [land_mod, slice_dbChunk (Nat.mod_lt _ hcs), replacement, Nat.add_comm]
    · rw [List.getD_eq_getElem _ _ (by rw [List.length_set, h.vlen]; omega), List.getElem_set_ne (Ne.symm hcd),
        ← h.values c (by omega), List.getD_eq_getElem _ _ (by rw [h.vlen]; omega)]
  · exact h.cache
  · exact h.mask
  · intro x v hv
    dsimp only at hv
    rw [h.primary, look_misses p (fun y hy => by
      cases hl : look cl.miss y with
      | none => rfl
      | some w => have := (h.missSome y w hl).1; omega) p.cs le_rfl] at hv
    split_ifs at hv with h1 h2
    · refine ⟨by omega, ?_, ?_⟩
      · rintro ⟨j, hj, he⟩
        have := (hitMap_get p prf db (d := d) (c := d) h2.1).mpr ⟨j, hj, by rw [← h1]; exact he⟩
        rw [this] at h2
        simp at h2
      · rw [Option.some_inj] at hv
        rw [← hv, slice_dbChunk h2.1, ← h1]
        congr 1
        rw [Nat.mul_comm]
        exact Nat.div_add_mod x p.cs
    · have := h.missSome x v hv
      exact ⟨by omega, this.2⟩
  · intro x hx hno
    dsimp only
    rw [h.primary, look_misses p (fun y hy => by
      cases hl : look cl.miss y with
      | none => rfl
      | some w => have := (h.missSome y w hl).1; omega) p.cs le_rfl]
    have hmod := Nat.mod_lt x hcs
    by_cases h1 : x / p.cs = d
    · rw [if_pos h1, if_pos]
      · rw [slice_dbChunk hmod, ← h1]
        congr 2
        rw [Nat.mul_comm]
        exact Nat.div_add_mod x p.cs
      · refine ⟨hmod, ?_⟩
        rw [← Bool.not_eq_true, hitMap_get p prf db hmod]
        rintro ⟨i, hi, he⟩
        exact hno ⟨i, hi, by rw [h1]; exact he⟩
    · rw [if_neg h1]
      exact h.missNone x (by omega) hno

theorem offline_upto (hdb : db.length = p.cs * p.ss * p.size) : ∀ d ≤ p.ss, ∃ cl,
    (List.range d).foldl (fun acc c => Res.bind acc fun cl => preprocess p prf (rnd c) c (dbChunk p db c) cl) (Res.ok (initial p))
      = .ok cl ∧ After p prf rnd db d cl
  | 0, _ => ⟨_, rfl, initial_after p prf rnd db⟩
  | d + 1, hd => by
    obtain ⟨cl, h1, h2⟩ := offline_upto hdb d (by omega)
    obtain ⟨cl', h3, h4⟩ := preprocess_after hdb (by omega) h2
    refine ⟨cl', ?_, h4⟩
    rw [List.range_succ, List.foldl_append, h1]
    exact h3

theorem offline_ok (hdb : db.length = p.cs * p.ss * p.size) :
    ∃ cl, offline p prf rnd db = .ok cl ∧ After p prf rnd db p.ss cl := offline_upto hdb p.ss le_rfl

end Offline

end Psi.Piano
