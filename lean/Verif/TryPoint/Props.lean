import Verif.TryPoint.Model
import Verif.UbPsi.Props

/-!
# C129: different items lead to different points of the curve
-/

namespace Psi.TryPoint

open Psi.Spiral (Res)
open Psi.Ecdh (Bytes)

/-! ### Numbers and bytes -/

theorem ofBytes_append (s : Bytes) (c : UInt8) : ofBytes (s ++ [c]) = 256 * ofBytes s + c.toNat := by
  simp [ofBytes]

theorem ofBytes_toBytes (k n : Nat) : ofBytes (toBytes k n) = n % 256 ^ k := by
  induction k generalizing n with
  | zero => simp [toBytes, ofBytes, Nat.mod_one]
  | succ k ih =>
    have hpow : 256 ^ (k + 1) = 256 * 256 ^ k := by rw [Nat.pow_succ, Nat.mul_comm]
    rw [toBytes, ofBytes_append, ih, UInt8.toNat_ofNat', hpow, Nat.mod_mul]
    omega

theorem toBytes_length (k n : Nat) : (toBytes k n).length = k := by
  induction k generalizing n with
  | zero => rfl
  | succ k ih => simp [toBytes, ih]

theorem numBytes_inj {x y : Nat} (hx : x < 256 ^ 32) (hy : y < 256 ^ 32) (h : numBytes x = numBytes y) : x = y := by
  have := congrArg ofBytes h
  rwa [numBytes, numBytes, ofBytes_toBytes, ofBytes_toBytes, Nat.mod_eq_of_lt hx, Nat.mod_eq_of_lt hy] at this

/-! ### The second coordinate -/

theorem lift_some {C : Curve} {x y : Nat} (h : C.lift x = some y) : y < C.p ∧ y % 2 = 0 ∧ C.On x y := by
  have h1 := List.find?_some h
  have h2 := List.mem_of_find?_eq_some h
  simp only [decide_eq_true_eq] at h1
  exact ⟨List.mem_range.1 h2, h1⟩

theorem sq_neg_mod (p y : Nat) (h : y ≤ p) : (p - y) * (p - y) % p = y * y % p := by
  obtain ⟨d, rfl⟩ := Nat.exists_eq_add_of_le h
  rw [Nat.add_sub_cancel_left]
  have e1 : d * d + (y + d) * y = y * y + (y + d) * d := by
    simp only [Nat.add_mul, Nat.mul_comm d y]; omega
  have h1 : (d * d + (y + d) * y) % (y + d) = d * d % (y + d) := Nat.add_mul_mod_self_left _ _ _
  have h2 : (y * y + (y + d) * d) % (y + d) = y * y % (y + d) := Nat.add_mul_mod_self_left _ _ _
  rw [← h1, ← h2, e1]

/-- **C129** (no point missed) Over an odd modulus the try succeeds exactly if any point of the curve has this first
coordinate. -/
theorem C129_lift_iff (C : Curve) (hp : C.p % 2 = 1) (x : Nat) :
    (∃ y, C.lift x = some y) ↔ ∃ y, C.On x y := by
  refine ⟨fun ⟨y, h⟩ => ⟨y, (lift_some h).2.2⟩, fun ⟨y, h⟩ => ?_⟩
  have hlt : y % C.p < C.p := Nat.mod_lt _ (by omega)
  have hred : C.On x (y % C.p) := by
    unfold Curve.On at h ⊢
    rw [← h, ← Nat.mul_mod]
  rcases Nat.mod_two_eq_zero_or_one (y % C.p) with he | ho
  · cases hf : C.lift x with
    | some z => exact ⟨z, rfl⟩
    | none =>
      have := List.find?_eq_none.1 hf (y % C.p) (List.mem_range.2 hlt)
      exact absurd (by simpa using ⟨he, hred⟩) this
  · cases hf : C.lift x with
    | some z => exact ⟨z, rfl⟩
    | none =>
      have hz : C.p - y % C.p < C.p := by omega
      have := List.find?_eq_none.1 hf (C.p - y % C.p) (List.mem_range.2 hz)
      refine absurd ?_ this
      have hon : C.On x (C.p - y % C.p) := by
        unfold Curve.On at hred ⊢
        rw [sq_neg_mod _ _ hlt.le, hred]
      simpa using ⟨by omega, hon⟩

/-! ### The loop -/

/-- The strings hashed in turn. -/
def Curve.str (C : Curve) (sha : Bytes → Bytes) (m : Bytes) : Nat → Bytes
  | 0 => m
  | i + 1 => numBytes (C.coord sha (C.str sha m i))

theorem str_succ' (C : Curve) (sha : Bytes → Bytes) (m : Bytes) (i : Nat) :
    C.str sha m (i + 1) = C.str sha (numBytes (C.coord sha m)) i := by
  induction i with
  | zero => simp only [Curve.str]
  | succ i ih =>
    simp only [Curve.str] at ih ⊢
    rw [ih]

theorem loop_ok_iff (C : Curve) (sha : Bytes → Bytes) (k : Nat) (m : Bytes) (P : Nat × Nat) :
    C.loop sha k (C.coord sha m) = .ok P ↔
      ∃ n < k, (∀ i < n, C.lift (C.coord sha (C.str sha m i)) = none) ∧ P.1 = C.coord sha (C.str sha m n) ∧
        C.lift P.1 = some P.2 := by
  induction k generalizing m with
  | zero => simp [Curve.loop]
  | succ k ih =>
    rw [Curve.loop]
    cases hl : C.lift (C.coord sha m) with
    | some y =>
      simp only [Res.ok.injEq]
      constructor
      · rintro rfl
        exact ⟨0, by omega, by simp, rfl, hl⟩
      · rintro ⟨n, hn, hf, h1, h2⟩
        cases n with
        | zero =>
          have h1' : P.1 = C.coord sha m := h1
          rw [h1', hl] at h2
          exact Prod.ext h1'.symm (Option.some.inj h2)
        | succ n => exact absurd (hf 0 (by omega)) (by simp [Curve.str, hl])
    | none =>
      simp only []
      rw [ih]
      constructor
      · rintro ⟨n, hn, hf, h1, h2⟩
        refine ⟨n + 1, by omega, fun i hi => ?_, by rw [str_succ']; exact h1, h2⟩
        cases i with
        | zero => exact hl
        | succ i => rw [str_succ']; exact hf i (by omega)
      · rintro ⟨n, hn, hf, h1, h2⟩
        cases n with
        | zero =>
          have h1' : P.1 = C.coord sha m := h1
          rw [h1', hl] at h2
          cases h2
        | succ n =>
          refine ⟨n, by omega, fun i hi => ?_, by rw [← str_succ']; exact h1, h2⟩
          rw [← str_succ']
          exact hf (i + 1) (by omega)

theorem loop_ok_or_throws (C : Curve) (sha : Bytes → Bytes) (k x : Nat) :
    C.loop sha k x = .throws ∨ ∃ P, C.loop sha k x = .ok P := by
  induction k generalizing x with
  | zero => exact .inl rfl
  | succ k ih =>
    rw [Curve.loop]
    cases C.lift x with
    | some y => exact .inr ⟨_, rfl⟩
    | none => exact ih _

/-- **C129** (a point of the curve) The result is a point of the curve with reduced coordinates, the second one even. -/
theorem C129_on_curve (C : Curve) (sha : Bytes → Bytes) (hp : 0 < C.p) (m : Bytes) {P : Nat × Nat}
    (h : C.hash sha m = .ok P) :
    P.1 < C.p ∧ P.2 < C.p ∧ P.2 % 2 = 0 ∧ P.2 * P.2 % C.p = (P.1 * P.1 * P.1 + C.a * P.1 + C.b) % C.p := by
  obtain ⟨n, -, -, h1, h2⟩ := (loop_ok_iff C sha 100 m P).1 h
  obtain ⟨a, b, c⟩ := lift_some h2
  exact ⟨h1 ▸ Nat.mod_lt _ hp, a, b, c⟩

/-- **C129** (a hundred tries) No point is found exactly if none of the first hundred coordinates belongs to a point of
the curve: the hash of the item, the hash of that number written with 32 bytes, and so on. -/
theorem C129_gives_up_iff (C : Curve) (sha : Bytes → Bytes) (hp : C.p % 2 = 1) (m : Bytes) :
    C.hash sha m = .throws ↔ ∀ i < 100, ¬ ∃ y, C.On (C.coord sha (C.str sha m i)) y := by
  constructor
  · intro h i hi hy
    have hex : ∃ i, i < 100 ∧ ∃ y, C.lift (C.coord sha (C.str sha m i)) = some y :=
      ⟨i, hi, (C129_lift_iff C hp _).2 hy⟩
    classical
    have hs := Nat.find_spec hex
    obtain ⟨y, hy'⟩ := hs.2
    have hok : C.hash sha m = .ok (_, y) := (loop_ok_iff C sha 100 m (_, y)).2
      ⟨Nat.find hex, hs.1, fun j hj => by
        have hm := Nat.find_min hex hj
        cases hl : C.lift (C.coord sha (C.str sha m j)) with
        | none => rfl
        | some z => exact absurd ⟨by omega, z, hl⟩ hm, rfl, hy'⟩
    rw [hok] at h
    cases h
  · intro h
    rcases loop_ok_or_throws C sha 100 (C.coord sha m) with ht | ⟨P, hP⟩
    · exact ht
    · obtain ⟨n, hn, -, h1, h2⟩ := (loop_ok_iff C sha 100 m P).1 hP
      exact absurd ⟨P.2, h1 ▸ (lift_some h2).2.2⟩ (h n hn)

/-! ### Different items -/

/-- **C129** (twins) An item whose first try fails has a twin of 32 bytes: the number that failed.  It leads to the same
point. -/
theorem C129_twin (C : Curve) (sha : Bytes → Bytes) (m : Bytes) {P : Nat × Nat} (h : C.hash sha m = .ok P)
    (hf : C.lift (C.coord sha m) = none) (hm : m.length ≠ 32) :
    numBytes (C.coord sha m) ≠ m ∧ (numBytes (C.coord sha m)).length = 32 ∧
      C.hash sha (numBytes (C.coord sha m)) = .ok P := by
  have hlen : (numBytes (C.coord sha m)).length = 32 := toBytes_length _ _
  refine ⟨fun e => hm (e ▸ hlen), hlen, ?_⟩
  obtain ⟨n, hn, hfail, h1, h2⟩ := (loop_ok_iff C sha 100 m P).1 h
  cases n with
  | zero =>
    have h1' : P.1 = C.coord sha m := h1
    rw [h1', hf] at h2
    cases h2
  | succ n =>
    refine (loop_ok_iff C sha 100 _ P).2 ⟨n, by omega, fun i hi => ?_, by rw [← str_succ']; exact h1, h2⟩
    rw [← str_succ']
    exact hfail (i + 1) (by omega)

/-- The strings hashed for an item: each next one only if the try before it failed. -/
def Curve.hashed (C : Curve) (sha : Bytes → Bytes) : Nat → Bytes → List Bytes
  | 0, _ => []
  | k + 1, m => m :: if (C.lift (C.coord sha m)).isSome then [] else C.hashed sha k (numBytes (C.coord sha m))

theorem str_mem_hashed (C : Curve) (sha : Bytes → Bytes) (k : Nat) (m : Bytes) (i : Nat) (hi : i < k)
    (hf : ∀ j < i, C.lift (C.coord sha (C.str sha m j)) = none) : C.str sha m i ∈ C.hashed sha k m := by
  induction k generalizing m i with
  | zero => omega
  | succ k ih =>
    rw [Curve.hashed]
    cases i with
    | zero => exact List.mem_cons_self ..
    | succ i =>
      have h0 : C.lift (C.coord sha m) = none := hf 0 (by omega)
      rw [h0]
      refine List.mem_cons_of_mem _ ?_
      rw [str_succ']
      simp only [Option.isSome_none, Bool.false_eq_true, if_false]
      exact ih _ i (by omega) fun j hj => by rw [← str_succ']; exact hf (j + 1) (by omega)

/-- **C129** (different points, in part) Two items, neither of 32 bytes, for which the same point is found are the same,
unless two strings that were hashed for them have the same hash modulo the prime.
(Missing: items of 32 bytes, for which it is false by `C129_twin`.) -/
theorem C129_distinct_partial (C : Curve) (sha : Bytes → Bytes) (hp : 0 < C.p) (hp' : C.p ≤ 256 ^ 32) (m m' : Bytes)
    (hm : m.length ≠ 32) (hm' : m'.length ≠ 32)
    (hsha : ∀ s ∈ C.hashed sha 100 m, ∀ t ∈ C.hashed sha 100 m',
      ofBytes (sha s) % C.p = ofBytes (sha t) % C.p → s = t)
    {P : Nat × Nat} (h : C.hash sha m = .ok P) (h' : C.hash sha m' = .ok P) : m = m' := by
  obtain ⟨n, hn, hf, h1, -⟩ := (loop_ok_iff C sha 100 m P).1 h
  obtain ⟨n', hn', hf', h1', -⟩ := (loop_ok_iff C sha 100 m' P).1 h'
  have hc : C.coord sha (C.str sha m n) = C.coord sha (C.str sha m' n') := h1.symm.trans h1'
  clear h1 h1' h h'
  have hlt : ∀ s, C.coord sha s < 256 ^ 32 := fun s => lt_of_lt_of_le (Nat.mod_lt _ hp) hp'
  induction n generalizing n' with
  | zero =>
    have e := hsha _ (str_mem_hashed C sha 100 m 0 hn hf) _ (str_mem_hashed C sha 100 m' n' hn' hf') hc
    cases n' with
    | zero => exact e
    | succ n' => exact absurd (by rw [show m = _ from e]; exact toBytes_length _ _) hm
  | succ n ih =>
    have e := hsha _ (str_mem_hashed C sha 100 m (n + 1) hn hf) _ (str_mem_hashed C sha 100 m' n' hn' hf') hc
    cases n' with
    | zero => exact absurd (by rw [show m' = _ from e.symm]; exact toBytes_length _ _) hm'
    | succ n' =>
      exact ih (by omega) (fun i hi => hf i (by omega)) n' (by omega) (fun i hi => hf' i (by omega))
        (numBytes_inj (hlt _) (hlt _) e)

/-! ### In unbalanced PSI -/

/-- **C129** (a match that is none) In unbalanced PSI on such a curve, let the server hold an item whose first try
fails.  A client that holds the twin and not the item gets, by the OPRF, exactly the value that the server has stored for
its item, whatever the keys; the form of the OPRF that hashes the item too (`fullEvaluate`, not used there) hashes two
different strings. -/
theorem C129_wrong_match {G : Type} [AddCommGroup G] (c : Psi.UbPsi.Curve Bytes G) (hc : c.Lawful) (C : Curve)
    (sha : Bytes → Bytes) (toG : Res (Nat × Nat) → G) (hpt : ∀ m, c.point m = toG (C.hash sha m))
    (hbytes : ∀ m, c.bytes m = m) (r key : Bytes) (hr : c.GoodKey r) (hk : c.GoodKey key) (m : Bytes) {P : Nat × Nat}
    (h : C.hash sha m = .ok P) (hf : C.lift (C.coord sha m) = none) (hm : m.length ≠ 32) :
    ∃ m' e v, m' ≠ m ∧ Psi.UbPsi.evaluate c key (Psi.UbPsi.blind c r m') = .ok e ∧
      Psi.UbPsi.finalize c r e = .ok v ∧ Psi.UbPsi.simpleEvaluate c key m = .ok v ∧
      c.bytes m' ++ c.enc (c.scalar key • c.point m') ≠ c.bytes m ++ c.enc (c.scalar key • c.point m) := by
  obtain ⟨hne, hlen, hok⟩ := C129_twin C sha m h hf hm
  obtain ⟨e, v, v', h1, h2, h3, -, -⟩ := Psi.UbPsi.C28_oprf hc r key hr hk (numBytes (C.coord sha m))
  have hpts : c.point (numBytes (C.coord sha m)) = c.point m := by rw [hpt, hpt, h, hok]
  refine ⟨_, e, v, hne, h1, h2, ?_, ?_⟩
  · rw [← h3, Psi.UbPsi.simpleEvaluate, Psi.UbPsi.simpleEvaluate, Psi.UbPsi.itemMul, Psi.UbPsi.itemMul, hpts]
  · rw [hbytes, hbytes, hpts]
    exact fun e => hne (List.append_cancel_right e)

/-! ### Instances, and a run that reports a match that is none -/

namespace Ex

/-- `y² = x³ + x + 6` modulo 11: a group of prime order 13. -/
def small : Curve := ⟨11, 1, 6⟩

/-- A hash of one byte. -/
def sha (s : Bytes) : Bytes := [s.foldl (· + ·) 1]

/-- The multiple of `(2, 4)` that a point found is. -/
def toG : Res (Nat × Nat) → Fin 13
  | .ok (2, _) => 1
  | .ok (8, _) => 3
  | .ok (7, _) => 6
  | .ok (3, _) => 8
  | .ok (10, _) => 9
  | .ok (5, _) => 11
  | _ => 1

def curve : Psi.UbPsi.Curve Bytes (Fin 13) where
  order := 13
  scalar := fun b => (b.headD 1).toNat
  inverse := fun k => k ^ 11 % 13
  point := fun m => toG (small.hash sha m)
  enc := fun g => [UInt8.ofNat g.val]
  dec := fun b => if (b.headD 0).toNat = 0 then none else some (Fin.ofNat 13 (b.headD 0).toNat)
  bytes := fun m => m
  digest := fun b => b ++ List.replicate 12 7
  pointLen := 1
  compareLength := 0

theorem toG_ne (r : Res (Nat × Nat)) : toG r ≠ 0 := by
  unfold toG
  split <;> decide

theorem lawful : curve.Lawful where
  order := by decide
  inverse := by
    intro k hk
    show k * (k ^ 11 % 13) % 13 = 1
    have h0 : k % 13 ≠ 0 := by
      intro h
      have : 13 ∣ Nat.gcd k 13 := Nat.dvd_gcd (Nat.dvd_of_mod_eq_zero h) (Nat.dvd_refl _)
      rw [show Nat.gcd k 13 = 1 from hk] at this
      omega
    have h1 : k % 13 < 13 := Nat.mod_lt _ (by decide)
    rw [Nat.mul_mod, Nat.mod_mod, Nat.pow_mod]
    generalize k % 13 = m at h0 h1
    have : ∀ m < 13, m ≠ 0 → m * (m ^ 11 % 13) % 13 = 1 := by decide
    exact this m h1 h0
  point := fun m => toG_ne _
  round := by decide
  encLen := fun _ => rfl
  lenPos := by decide
  digestLen := by intro b; show 12 ≤ (b ++ List.replicate 12 7).length; simp
  cmpLt := by decide

theorem good (b : UInt8) (h : Nat.Coprime b.toNat 13) : curve.GoodKey [b] := h

/-- A session of a client with one item. -/
def session (m : Bytes) : Psi.UbPsi.Online Bytes where
  input := [[(m, 0)]]
  r := [3]
  clientGets := true
  serverGets := true
  perm := fun l => (List.range l).reverse
  batch := 2
  threads := 2

/-- The offline phase of a server with one item and the online phase with that client. -/
def run (server client : Bytes) : Option (Except Psi.UbPsi.Err Psi.UbPsi.Result) :=
  match Psi.UbPsi.genCache curve [5] (fun _ l => (List.range l).reverse) [[(server, 0)]] 2 with
  | .error _ => none
  | .ok cache =>
    match Psi.UbPsi.transferMsgs cache 1 with
    | .error _ => none
    | .ok ms => some (Psi.UbPsi.online curve (session client) none cache
        (Psi.UbPsi.clientTransfer (fun _ => [1]) 12 ms ⟨none, none⟩).1).1

end Ex

/-- **C129** (limit: a run) The server holds one item of one byte, the client another one of 32 bytes.  The run succeeds
and tells both parties that their row is common to both; with a third item of the client it does not. -/
theorem C129_run_reports_other_item :
    ∃ m m' m'' : Bytes, m ≠ m' ∧ m.length = 1 ∧ m'.length = 32 ∧
      Ex.run m m' = some (.ok ⟨some ([(0, 0)], 1), some ([(0, 0)], 1)⟩) ∧
      Ex.run m m'' = some (.ok ⟨some ([], 1), some ([], 1)⟩) := by
  refine ⟨[3], numBytes 4, [8], ?_, ?_, ?_, ?_, ?_⟩ <;> decide +kernel

/-- The item `[3]` has the coordinate 4, which no point has; the hash of 4 is 5, the coordinate of `(5, 2)`. -/
example : Ex.small.lift 4 = none ∧ Ex.small.hash Ex.sha [3] = .ok (5, 2) ∧
    Ex.small.hash Ex.sha (numBytes 4) = .ok (5, 2) := by decide +kernel

example := (C129_lift_iff Ex.small (by decide) 5).2 ⟨9, by decide⟩

example := C129_on_curve Ex.small Ex.sha (by decide) [3] (P := (5, 2)) (by decide +kernel)

example : ∀ i < 100, ¬ ∃ y, Ex.small.On (Ex.small.coord (fun _ => [4]) (Ex.small.str (fun _ => [4]) [3] i)) y :=
  (C129_gives_up_iff Ex.small (fun _ => [4]) (by decide) [3]).1 (by decide +kernel)

example := C129_twin Ex.small Ex.sha [3] (P := (5, 2)) (by decide +kernel) (by decide +kernel) (by decide)

/-- Items of one and two bytes: `[3]` is tried twice, `[1, 1]` once. -/
example := C129_distinct_partial Ex.small Ex.sha (by decide) (by decide) [3] [3] (by decide) (by decide)
  (by decide +kernel) (P := (5, 2)) (by decide +kernel) (by decide +kernel)

example : Ex.small.hash Ex.sha [3] ≠ Ex.small.hash Ex.sha [1, 1] := fun h =>
  absurd (C129_distinct_partial Ex.small Ex.sha (by decide) (by decide) [3] [1, 1] (by decide) (by decide)
    (by decide +kernel) (P := (5, 2)) (by decide +kernel) (h ▸ by decide +kernel)) (by decide)

example := C129_wrong_match Ex.curve Ex.lawful Ex.small Ex.sha Ex.toG (fun _ => rfl) (fun _ => rfl) [3] [5]
  (Ex.good 3 (by decide)) (Ex.good 5 (by decide)) [3] (P := (5, 2)) (by decide +kernel) (by decide +kernel) (by decide)

/-- The two curves the code uses meet the conditions on the prime. -/
example : sm2.p % 2 = 1 ∧ sm2.p ≤ 256 ^ 32 ∧ secp256k1.p % 2 = 1 ∧ secp256k1.p ≤ 256 ^ 32 := by decide +kernel

end Psi.TryPoint
