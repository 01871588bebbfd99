import Verif.Pps.PrivacyProps

/-!
# C88 – C91: instances that meet the hypotheses, and limits with a witness
-/

namespace Psi.Pps

open Psi.Spiral (Res mapRes w64)

/-- A generator for examples with four leaves: a key has the four elements as octal digits. -/
def toyPrg (x : Nat) : Nat × Nat :=
  if x < 2 ^ 16 then (x % 64 + 2 ^ 20, x / 64 % 64 + 2 ^ 20) else (x % 8 * 2 ^ 125 + 1, x / 8 % 8 * 2 ^ 125 + 1)

theorem toy_wide : Wide toyPrg := by
  intro x
  rw [toyPrg]
  split_ifs
  · dsimp only; omega
  · dsimp only; omega

theorem toy_noZero (k h : Nat) : NoZero toyPrg k h := by
  intro d hd _ j _
  obtain ⟨d, rfl⟩ := Nat.exists_eq_succ_of_ne_zero hd.ne'
  simp only [node, toyPrg]
  split_ifs <;> simp

theorem toy_good {k : Nat} (h1 : k < 2 ^ 128) (h2 : (eval toyPrg 8 4 k).length = 4) : GoodKey toyPrg 8 4 k :=
  ⟨h1, h2, toy_noZero _ _⟩

/-- Keys for the sets {1,3,4,6}, {0,2,5,7} and {0,3,4,7}. -/
def key1 : Nat := 1 + 8 * 3 + 64 * 4 + 512 * 6
def key2 : Nat := 7 + 8 * 5 + 64 * 2 + 512 * 0
def key3 : Nat := 4 + 8 * 0 + 64 * 3 + 512 * 7

example : eval toyPrg 8 4 key1 = [1, 3, 4, 6] := by decide +kernel

/-! ### C88 -/

example := punctured_set (prg := toyPrg) (n := 8) (s := 4) (k := key1) (i := 3) (toy_good (by decide) (by decide +kernel))
  (by decide +kernel) 5

/-- The punctured key for 3 gives 1, 4 and 6. -/
example : (punc toyPrg 4 (evalMap toyPrg 8 4 key1) 3 key1 ⟨[], 0, 5⟩).bind (evalPunc toyPrg 8 4) = .ok [1, 4, 6] := by
  decide +kernel

example := gen_full (prg := toyPrg) (n := 8) (s := 4) (lambda := 3) (rand := fun u => if u = 0 then 0 else key1)
  (key := (key1, evalMap toyPrg 8 4 key1)) (by decide +kernel)

/-- **C88**, where it stops: `Punc` puts its values behind those of an earlier use of the same object, so that a key object
used a second time stands for a wrong set. -/
theorem reused_key_wrong : ∃ pk pk2, punc toyPrg 4 (evalMap toyPrg 8 4 key1) 3 key1 ⟨[], 0, 5⟩ = .ok pk ∧
    punc toyPrg 4 (evalMap toyPrg 8 4 key1) 6 key1 pk = .ok pk2 ∧
    evalPunc toyPrg 8 4 pk2 ≠ .ok ((eval toyPrg 8 4 key1).filter fun x => x ≠ 6) := by
  refine ⟨_, _, rfl, rfl, ?_⟩
  decide +kernel

/-! ### C89 -/

def toyBits : List Bool := [true, false, false, true, true, true, false, true]

/-- Random numbers whose shifts are all different. -/
def toyRand (t : Nat) : Nat := t * 3 % 8 * 2 ^ 61

example : runSingle toyPrg 8 4 2 3 List.reverse (fun _ => key1) toyRand ⟨false, 1, 2⟩ toyBits 5 = .ok (some true) := by
  decide +kernel

example := single_right (prg := toyPrg) (n := 8) (s := 4) (lambda := 2) (lg := 3) (i := 5) (order := List.reverse)
  (randKey := fun _ => key1) (rand := toyRand) (c := ⟨false, 1, 2⟩) (bits := toyBits)
  (key := (key1, evalMap toyPrg 8 4 key1)) (deltas := [0, 1, 3, 4, 6, 7]) toy_wide (by decide) (by decide)
  (fun m => List.reverse_perm m) (fun _ => by decide) (fun t => by unfold toyRand; omega) (by decide +kernel) (toy_noZero _ _)
  (by decide) (by decide) (by decide) (by decide)

/-- Six shifts of sets of four: every one of the 8 places three times on average. -/
example := setup_enough (prg := toyPrg) (n := 8) (s := 4) (lambda := 2) (lg := 3) (randKey := fun _ => key1) (rand := toyRand)
  (key := (key1, evalMap toyPrg 8 4 key1)) (deltas := [0, 1, 3, 4, 6, 7]) (by decide) (by decide +kernel)

/-- With 8 places and sets of two elements, the set up wants 12 different shifts. -/
example := setup_small (prg := toyPrg) (n := 8) (s := 2) (lambda := 2) (lg := 3) (randKey := fun _ => key1) (rand := toyRand)
  (by decide) (fun t => by unfold toyRand; omega) (by decide)

/-! ### C90 -/

theorem toy_sizes : Sizes toyPrg 8 4 List.reverse toyBits :=
  ⟨toy_wide, by decide, by decide, by decide, fun m => List.reverse_perm m, by decide⟩

/-- A client with one set. -/
def toyClient (k d : Nat) : Client := ⟨[(k, d)], [eval toyPrg 8 4 k]⟩

def toyHints (k d : Nat) : List Bool := [sumOver 8 toyBits (eval toyPrg 8 4 k) d]

theorem toy_consistent {k d : Nat} (hk : GoodKey toyPrg 8 4 k) (hd : d < 8) :
    Consistent toyPrg 8 4 toyBits (toyClient k d) (toyHints k d) where
  vlen := rfl
  hlen := rfl
  few := by simp [toyClient]
  good := by
    intro j hj
    obtain rfl : j = 0 := by simpa [toyClient] using hj
    exact ⟨hk, hd⟩
  sets := by
    intro j hj
    obtain rfl : j = 0 := by simpa [toyClient] using hj
    rfl
  sums := by
    intro j hj
    obtain rfl : j = 0 := by simpa [toyClient] using hj
    rfl

theorem toy_good1 : GoodKey toyPrg 8 4 key1 := toy_good (by decide) (by decide +kernel)
theorem toy_good2 : GoodKey toyPrg 8 4 key2 := toy_good (by decide) (by decide +kernel)
theorem toy_good3 : GoodKey toyPrg 8 4 key3 := toy_good (by decide) (by decide +kernel)

theorem toy_apart21 : Apart toyPrg key2 key1 := by unfold Apart; decide
theorem toy_apart31 : Apart toyPrg key3 key1 := by unfold Apart; decide
theorem toy_apart32 : Apart toyPrg key3 key2 := by unfold Apart; decide

def turnA : Turn := ⟨5, fun _ => key2, ⟨false, 0, 0⟩⟩
def turnB : Turn := ⟨2, fun _ => key3, ⟨false, 2, 1⟩⟩

example := turn_right (lambda := 1) toy_sizes (st := (toyClient key1 2, toyHints key1 2)) (toy_consistent toy_good1 (by decide))
  (t := turnA) (key := (key2, evalMap toyPrg 8 4 key2)) (by decide +kernel) (by decide) (toy_noZero _ _) (by decide) (by decide)
  (by decide) (by
    intro c hc
    obtain rfl : c = (key1, 2) := by simpa [toyClient] using hc
    exact toy_apart21)

/-- Twelve sets of four elements for 8 places. -/
example := setupMulti_enough (prg := toyPrg) (n := 8) (s := 4) (lg := 3) (rand := fun _ => key1)
  (cl := ⟨(List.replicate 12 key1).map fun k => (k, 0), (List.replicate 12 key1).map fun k => eval toyPrg 8 4 k⟩)
  (by decide) (by rw [setupMulti]; simp only [show drawKeys toyPrg 8 4 (setupCountMulti 8 4 3) (fun _ => key1)
      (10 * setupCountMulti 8 4 3) 0 [] = (12, List.replicate 12 key1) by decide +kernel]; rfl)

/-- Two queries of a client with twelve sets; both are answered. -/
example : runMulti toyPrg 8 4 1 3 List.reverse (fun _ => key1) toyBits [⟨3, fun _ => key2, ⟨false, 0, 0⟩⟩,
    ⟨6, fun _ => key3, ⟨false, 2, 1⟩⟩] = .ok [some true, some false] := by decide +kernel

example := many_right (prg := toyPrg) (n := 8) (s := 4) (lambda := 1) (lg := 3) (order := List.reverse) (rand := fun _ => key1)
  (bits := toyBits) (ts := [turnA, turnB]) toy_sizes (by decide) (fun _ _ => ⟨by decide, toy_noZero _ _⟩)
  (by
    intro t ht
    rcases List.mem_cons.mp ht with rfl | ht
    · exact ⟨fun _ _ => show (_ : Nat) < _ by simp only [turnA]; decide, fun _ _ => toy_noZero _ _, by decide, by decide, by decide⟩
    · obtain rfl : t = turnB := by simpa using ht
      exact ⟨fun _ _ => show (_ : Nat) < _ by simp only [turnB]; decide, fun _ _ => toy_noZero _ _, by decide, by decide, by decide⟩)
  (by
    refine ⟨?_, ?_, trivial⟩
    · intro u _ k hk
      obtain ⟨_, _, rfl⟩ := List.mem_map.mp hk
      exact toy_apart21
    · intro u _ k hk
      rcases List.mem_append.mp hk with hk | hk
      · obtain ⟨_, _, rfl⟩ := List.mem_map.mp hk
        exact toy_apart31
      · obtain ⟨_, _, rfl⟩ := List.mem_map.mp hk
        exact toy_apart32)

/-- **C90**, where it stops: with sets of one element a punctured key has no values, and `AnswerMulti` reads the first. -/
theorem one_element_undefined {n pos pos' delta delta' : Nat} {bits : List Bool} (hp : pos = 0) (hp' : pos' = 0) :
    answerMulti toyPrg n 1 ⟨[], pos, delta⟩ ⟨[], pos', delta'⟩ bits = .undefined := by
  subst hp hp'
  have hd : depth 1 = 0 := by simp [depth]
  have : answer toyPrg n 1 ⟨[], 0, delta⟩ bits = .ok false := by
    rw [answer, evalPunc, hd, if_neg (by simp)]
    rfl
  rw [answerMulti, this]
  rfl

/-! ### C91 -/

/-- Two queries of a client with one set, for 5 and then for another place of the new set: the server learns 5. -/
example := server_learns_index (lambda := 1) toy_sizes (st := (toyClient key1 2, toyHints key1 2))
  (st2 := (toyClient key2 (freshDelta 8 List.reverse (evalMap toyPrg 8 4 key2) ⟨false, 0, 0⟩ 5),
    toyHints key2 (freshDelta 8 List.reverse (evalMap toyPrg 8 4 key2) ⟨false, 0, 0⟩ 5)))
  (toy_consistent toy_good1 (by decide)) (toy_consistent toy_good2 (by decide +kernel))
  (t := turnA) (t2 := turnB) (key := (key2, evalMap toyPrg 8 4 key2)) (key2 := (key3, evalMap toyPrg 8 4 key3))
  (by decide +kernel) (by decide +kernel) toy_good2 toy_good3 (by decide) (by decide) (by decide) (by decide) (by decide) rfl rfl
  (by
    intro c hc
    obtain rfl : c = (key1, 2) := by simpa [toyClient] using hc
    exact toy_apart21)
  (by
    intro c hc
    obtain rfl := List.mem_singleton.mp hc
    exact toy_apart32) (j := 0) (by decide +kernel) (by decide +kernel) rfl

example := own_index_read (n := 8) (s := 4) (k := key1) (i := 5) toy_good1 toy_wide (by decide) (order := List.reverse)
  (fun m => List.reverse_perm m) (deltas := [0, 2, 3]) (by decide) (by decide) (by decide)

/-- One of two keys, each with probability one half. -/
def toyDist : SetupDist toyPrg 8 4 Bool where
  weight := fun _ => 1 / 2
  key := fun b => if b then key1 else key2
  deltas := fun b => if b then [0, 2, 3] else [1, 4, 7]
  total := by norm_num
  good := by
    intro b
    cases b
    · exact toy_good2
    · exact toy_good1
  inRange := by decide

example := single_not_private toyDist toy_wide (by decide) (by decide) (by decide) (order := List.reverse)
  fun m => List.reverse_perm m

end Psi.Pps
