import Verif.DpPsi.Model
import Verif.Std.Lemmas
import Mathlib.Data.List.GetD
import Mathlib.Data.List.Perm.Basic
import Mathlib.Tactic.Ring

/-!
# Lemmas on DP-PSI
-/

namespace Psi.DpPsi

open Psi.Std (Bytes)

/-! ### Spec of the draws -/

/-- Every marked label takes the next coin of its kind and stays if the coin shows heads. -/
def pick {β : Type} : List (β × Bool) → List Bool → List Bool → List β
  | [], _, _ => []
  | (_, true) :: _, [], _ => []
  | (j, true) :: r, c :: c1, c2 => if c then j :: pick r c1 c2 else pick r c1 c2
  | (_, false) :: _, _, [] => []
  | (j, false) :: r, c1, c :: c2 => if c then j :: pick r c1 c2 else pick r c1 c2

theorem pick_map {β γ : Type} (f : β → γ) : ∀ (l : List (β × Bool)) (c1 c2 : List Bool),
    (pick l c1 c2).map f = pick (l.map fun x => (f x.1, x.2)) c1 c2
  | [], _, _ => by simp [pick]
  | (_, true) :: _, [], _ => by simp [pick]
  | (j, true) :: r, c :: c1, c2 => by
    have := pick_map f r c1 c2
    cases c <;> simp [pick, this]
  | (_, false) :: _, _, [] => by simp [pick]
  | (j, false) :: r, c1, c :: c2 => by
    have := pick_map f r c1 c2
    cases c <;> simp [pick, this]

theorem pick_sublist {β : Type} : ∀ (l : List (β × Bool)) (c1 c2 : List Bool), (pick l c1 c2).Sublist (l.map Prod.fst)
  | [], _, _ => by simp [pick]
  | (_, true) :: _, [], _ => by simp [pick]
  | (j, true) :: r, c :: c1, c2 => by
    have := pick_sublist r c1 c2
    cases c
    · simpa [pick] using this.cons j
    · simpa [pick] using this
  | (_, false) :: _, _, [] => by simp [pick]
  | (j, false) :: r, c1, c :: c2 => by
    have := pick_sublist r c1 c2
    cases c
    · simpa [pick] using this.cons j
    · simpa [pick] using this

theorem pick_length {β : Type} : ∀ (l : List (β × Bool)) (c1 c2 : List Bool),
    c1.length = (l.map Prod.snd).count true → c2.length = (l.map Prod.snd).count false →
    (pick l c1 c2).length = c1.count true + c2.count true
  | [], c1, c2, h1, h2 => by
    have : c1 = [] := List.eq_nil_of_length_eq_zero (by simpa using h1)
    have : c2 = [] := List.eq_nil_of_length_eq_zero (by simpa using h2)
    subst c1; subst c2; simp [pick]
  | (_, true) :: _, [], _, h1, _ => by simp at h1
  | (j, true) :: r, c :: c1, c2, h1, h2 => by
    have := pick_length r c1 c2 (by simpa using h1) (by simpa using h2)
    cases c <;> simp [pick, this]; all_goals omega
  | (_, false) :: _, _, [], _, h2 => by simp at h2
  | (j, false) :: r, c1, c :: c2, h1, h2 => by
    have := pick_length r c1 c2 (by simpa using h1) (by simpa using h2)
    cases c <;> simp [pick, this]; all_goals omega

/-! ### Positions -/

/-- The positions of a flag, counted from `k`. -/
def posOf (b : Bool) : Nat → List Bool → List Nat
  | _, [] => []
  | k, x :: r => if x = b then k :: posOf b (k + 1) r else posOf b (k + 1) r

theorem posOf_length (b : Bool) : ∀ (k : Nat) (l : List Bool), (posOf b k l).length = l.count b
  | _, [] => by simp [posOf]
  | k, x :: r => by
    have := posOf_length b (k + 1) r
    by_cases h : x = b
    · simp [posOf, h, this]
    · simp [posOf, h, this]

theorem posOf_ge (b : Bool) : ∀ (k : Nat) (l : List Bool), ∀ i ∈ posOf b k l, k ≤ i
  | _, [], i, h => by simp [posOf] at h
  | k, x :: r, i, h => by
    have := posOf_ge b (k + 1) r i
    unfold posOf at h
    split_ifs at h
    · rcases List.mem_cons.1 h with h | h
      · omega
      · have := this h; omega
    · have := this h; omega

theorem posOf_eq (b : Bool) : ∀ (k : Nat) (l : List Bool),
    posOf b k l = ((List.range l.length).filter fun i => l.getD i false == b).map (· + k)
  | _, [] => by simp [posOf]
  | k, x :: r => by
    unfold posOf
    rw [posOf_eq b (k + 1) r, List.length_cons, List.range_succ_eq_map, List.filter_cons, List.filter_map]
    have hf : ((fun i => (x :: r).getD i false == b) ∘ Nat.succ) = fun i => r.getD i false == b := by
      funext i; simp
    rw [hf]
    by_cases h : x = b
    · simp [h, Function.comp_def, Nat.add_assoc, Nat.add_comm 1]
    · simp [h, Function.comp_def, Nat.add_assoc, Nat.add_comm 1]

/-- Labels `k, k + 1, …` with flags. -/
def marked (k : Nat) (l : List Bool) : List (Nat × Bool) := (List.range l.length).map fun i => (i + k, l.getD i false)

theorem marked_cons (k : Nat) (b : Bool) (l : List Bool) : marked k (b :: l) = (k, b) :: marked (k + 1) l := by
  unfold marked
  rw [List.length_cons, List.range_succ_eq_map, List.map_cons, List.map_map]
  simp [Function.comp_def, Nat.add_assoc, Nat.add_comm 1]

/-! ### Sorting -/

theorem sortIdx_perm (l : List Nat) : (sortIdx l).Perm l := List.mergeSort_perm _ _

theorem sortIdx_sorted (l : List Nat) : (sortIdx l).Pairwise (· ≤ ·) := by
  have := List.pairwise_mergeSort (le := fun a b : Nat => decide (a ≤ b)) (by intro a b c; simp; omega)
    (by intro a b; simp; omega) l
  exact this.imp fun h => by simpa using h

theorem eq_of_sorted {l m : List Nat} (hp : l.Perm m) (hl : l.Pairwise (· ≤ ·)) (hm : m.Pairwise (· ≤ ·)) : l = m :=
  hp.eq_of_pairwise (fun _ _ _ _ h1 h2 => Nat.le_antisymm h1 h2) hl hm

theorem sortIdx_eq_of_perm {l m : List Nat} (hp : l.Perm m) : sortIdx l = sortIdx m :=
  eq_of_sorted ((sortIdx_perm l).trans (hp.trans (sortIdx_perm m).symm)) (sortIdx_sorted l) (sortIdx_sorted m)

theorem sortIdx_of_sorted {l : List Nat} (h : l.Pairwise (· ≤ ·)) : sortIdx l = l :=
  eq_of_sorted (sortIdx_perm l) (sortIdx_sorted l) h

theorem sortIdx_cons {k : Nat} {l : List Nat} (h : ∀ x ∈ l, k ≤ x) : sortIdx (k :: l) = k :: sortIdx l := by
  refine eq_of_sorted ((sortIdx_perm _).trans ((sortIdx_perm l).symm.cons k)) (sortIdx_sorted _) ?_
  rw [List.pairwise_cons]
  exact ⟨fun x hx => h x ((sortIdx_perm l).mem_iff.1 hx), sortIdx_sorted l⟩

theorem sortIdx_middle {k : Nat} {l m : List Nat} (h : ∀ x ∈ l ++ m, k ≤ x) : sortIdx (l ++ k :: m) = k :: sortIdx (l ++ m) := by
  rw [sortIdx_eq_of_perm List.perm_middle, sortIdx_cons h]

theorem bernoulli_sublist (l : List Nat) (c : List Bool) : (bernoulli l c).Sublist l := by
  unfold bernoulli
  refine (List.filter_sublist.map _).trans ?_
  induction l generalizing c with
  | nil => simp
  | cons a l ih =>
    cases c with
    | nil => simp
    | cons b c => simpa using ih c

theorem bernoulli_cons (k : Nat) (l : List Nat) (b : Bool) (c : List Bool) :
    bernoulli (k :: l) (b :: c) = if b then k :: bernoulli l c else bernoulli l c := by
  unfold bernoulli
  cases b <;> simp

theorem bernoulli_length : ∀ {l : List Nat} {c : List Bool}, c.length = l.length → (bernoulli l c).length = c.count true
  | [], [], _ => by simp [bernoulli]
  | k :: l, b :: c, h => by
    have := bernoulli_length (l := l) (c := c) (by simpa using h)
    rw [bernoulli_cons]
    cases b <;> simp [this]
  | [], _ :: _, h => by simp at h
  | _ :: _, [], h => by simp at h

theorem mem_draws_ge {k : Nat} {l : List Bool} {c1 c2 : List Bool} :
    ∀ x ∈ bernoulli (posOf true (k + 1) l) c1 ++ bernoulli (posOf false (k + 1) l) c2, k ≤ x := by
  intro x hx
  rcases List.mem_append.1 hx with h | h
  · have := posOf_ge _ _ _ _ ((bernoulli_sublist _ _).subset h); omega
  · have := posOf_ge _ _ _ _ ((bernoulli_sublist _ _).subset h); omega

/-- The sorted union of both draws is the draw position by position. -/
theorem sorted_draws : ∀ (l : List Bool) (k : Nat) (c1 c2 : List Bool), c1.length = l.count true → c2.length = l.count false →
    sortIdx (bernoulli (posOf true k l) c1 ++ bernoulli (posOf false k l) c2) = pick (marked k l) c1 c2
  | [], k, c1, c2, _, _ => by simp [posOf, bernoulli, marked, pick, sortIdx]
  | true :: l, k, [], c2, h1, _ => by simp at h1
  | true :: l, k, c :: c1, c2, h1, h2 => by
    have ih := sorted_draws l (k + 1) c1 c2 (by simpa using h1) (by simpa using h2)
    rw [marked_cons]
    show sortIdx (bernoulli (k :: posOf true (k + 1) l) (c :: c1) ++ bernoulli (posOf false (k + 1) l) c2) = _
    rw [bernoulli_cons]
    cases c
    · simpa [pick] using ih
    · simp only [if_true, pick, List.cons_append]
      rw [sortIdx_cons mem_draws_ge, ih]
  | false :: l, k, c1, [], _, h2 => by simp at h2
  | false :: l, k, c1, c :: c2, h1, h2 => by
    have ih := sorted_draws l (k + 1) c1 c2 (by simpa using h1) (by simpa using h2)
    rw [marked_cons]
    show sortIdx (bernoulli (posOf true (k + 1) l) c1 ++ bernoulli (k :: posOf false (k + 1) l) (c :: c2)) = _
    rw [bernoulli_cons]
    cases c
    · simpa [pick] using ih
    · simp only [if_true, pick]
      rw [sortIdx_middle mem_draws_ge, ih]

/-! ### Membership -/

variable {α P : Type}

/-- The laws of the curve that the protocol needs. -/
structure Laws (c : Cfg α P) : Prop where
  ser : ∀ p, c.deser (c.ser p) = p
  comm : ∀ p, c.maskA (c.maskB p) = c.maskB (c.maskA p)

/-- No two different items of Bob and Alice have the same value. -/
def NoClash (c : Cfg α P) (A B : List α) : Prop := ∀ x ∈ B, ∀ y ∈ A, c.dualA x = c.dualB y → x = y

theorem dual_eq {c : Cfg α P} (hc : Laws c) (x : α) : c.dualA x = c.dualB x := by
  unfold Cfg.dualA Cfg.dualB
  rw [hc.ser, hc.ser, hc.comm]

variable [DecidableEq α]

/-- For each item whether it is in the list. -/
def flags (A Y : List α) : List Bool := Y.map fun y => decide (y ∈ A)

theorem found_iff {c : Cfg α P} (hc : Laws c) {A Y : List α} (hn : NoClash c A Y) {i : Nat} (hi : i < Y.length) :
    Std.binarySearch (Std.sort (Std.sort (A.map c.dualB))) ((Y.map c.dualA).getD i []) = (flags A Y).getD i false := by
  rw [List.getD_eq_getElem _ _ (by simpa using hi), List.getD_eq_getElem _ _ (by simpa [flags] using hi)]
  rw [Bool.eq_iff_iff, Std.binarySearch_iff (Std.sort_sorted _), Std.mem_sort, Std.mem_sort, List.mem_map]
  simp only [flags, List.getElem_map, decide_eq_true_eq]
  constructor
  · rintro ⟨y, hy, e⟩
    rwa [hn _ (List.getElem_mem hi) y hy e.symm]
  · intro h
    exact ⟨_, h, (dual_eq hc _).symm⟩

theorem interIdx_eq {c : Cfg α P} (hc : Laws c) {A Y : List α} (hn : NoClash c A Y) :
    interIdx (Y.map c.dualA) (Std.sort (A.map c.dualB)) = posOf true 0 (flags A Y) := by
  unfold interIdx
  rw [posOf_eq]
  simp only [Nat.add_zero, List.map_id', List.length_map]
  rw [show (flags A Y).length = Y.length by simp [flags]]
  refine List.filter_congr fun i hi => ?_
  rw [found_iff hc hn (List.mem_range.1 hi)]
  cases (flags A Y).getD i false <;> rfl

theorem nonInterIdx_eq {c : Cfg α P} (hc : Laws c) {A Y : List α} (hn : NoClash c A Y) :
    nonInterIdx (Y.map c.dualA) (Std.sort (A.map c.dualB)) = posOf false 0 (flags A Y) := by
  unfold nonInterIdx
  rw [posOf_eq]
  simp only [Nat.add_zero, List.map_id', List.length_map]
  rw [show (flags A Y).length = Y.length by simp [flags]]
  refine List.filter_congr fun i hi => ?_
  rw [found_iff hc hn (List.mem_range.1 hi)]
  cases (flags A Y).getD i false <;> rfl

/-! ### Messages -/

theorem ofLe_range (v : Nat) : ∀ n, ofLe ((List.range n).map fun k => UInt8.ofNat (v / 256 ^ k)) = v % 256 ^ n := by
  intro n
  induction n generalizing v with
  | zero => simp [ofLe, Nat.mod_one]
  | succ n ih =>
    rw [List.range_succ_eq_map, List.map_cons, List.map_map]
    have : ((fun k => UInt8.ofNat (v / 256 ^ k)) ∘ Nat.succ) = fun k => UInt8.ofNat (v / 256 / 256 ^ k) := by
      funext k
      simp only [Function.comp_apply, Nat.succ_eq_add_one]
      rw [Nat.div_div_eq_div_mul, Nat.pow_succ, Nat.mul_comm]
    rw [this]
    show (UInt8.ofNat (v / 256 ^ 0)).toNat + 256 * ofLe _ = _
    rw [ih, Nat.pow_zero, Nat.div_one, UInt8.toNat_ofNat', Nat.pow_succ (n := 256), Nat.mul_comm (256 ^ n) 256, Nat.mod_mul]

theorem le8_length (v : Nat) : (le8 v).length = 8 := by simp [le8]

theorem ofLe_le8 {v : Nat} (h : v < 2 ^ 64) : ofLe (le8 v) = v := by
  unfold le8
  rw [ofLe_range]
  exact Nat.mod_eq_of_lt (by norm_num; omega)

theorem flat_length (l : List Nat) : (l.flatMap le8).length = 8 * l.length := by
  induction l with
  | nil => rfl
  | cons v l ih => rw [List.flatMap_cons, List.length_append, ih, le8_length, List.length_cons]; omega

theorem words_cons {b r : Bytes} (h : b.length = 8) : words (b ++ r) = ofLe b :: words r := by
  have h1 : (b ++ r).length / 8 = r.length / 8 + 1 := by rw [List.length_append]; omega
  have h2 : ∀ i, (b ++ r).drop (8 * (i + 1)) = r.drop (8 * i) := fun i => by
    rw [Nat.mul_add, Nat.mul_one, Nat.add_comm, ← List.drop_drop, List.drop_left' h]
  unfold words
  rw [h1, List.range_succ_eq_map, List.map_cons, List.map_map]
  refine List.cons_eq_cons.2 ⟨?_, List.map_congr_left fun i _ => ?_⟩
  · rw [Nat.mul_zero, List.drop_zero, List.take_left' h]
  · simp only [Function.comp_apply, Nat.succ_eq_add_one]
    rw [h2]

theorem words_flat {l : List Nat} (h : ∀ v ∈ l, v < 2 ^ 64) : words (l.flatMap le8) = l := by
  induction l with
  | nil => rfl
  | cons v l ih =>
    rw [List.flatMap_cons, words_cons (le8_length v), ofLe_le8 (h v List.mem_cons_self),
      ih fun x hx => h x (List.mem_cons_of_mem _ hx)]

theorem recv_sent {B n : Nat} (hB : 0 < B) : ∀ (f : Nat) (l acc : List Nat), l.length ≤ f → l ≠ [] →
    (∀ v ∈ l, v < 2 ^ 64) → n = acc.length + l.length → recvLoop n (sendBatches B f l) acc = .ok (acc ++ l)
  | 0, l, acc, hf, hl, _, _ => by
    exact absurd (List.eq_nil_of_length_eq_zero (by omega)) hl
  | f + 1, l, acc, hf, hl, hv, hn => by
    unfold sendBatches
    rw [if_neg hl]
    split_ifs with h
    · unfold recvLoop
      have hlen : ((l.take B).flatMap le8).length = 8 * B := by rw [flat_length, List.length_take]; omega
      rw [if_neg (by rw [hlen]; omega), if_neg (by rw [hlen]; omega), words_flat fun v hv' => hv v (List.mem_of_mem_take hv')]
      simp only [Bool.false_eq_true, if_false]
      rw [recv_sent hB f (l.drop B) _ (by rw [List.length_drop]; omega)
        (fun h0 => by have := congrArg List.length h0; rw [List.length_drop] at this; simp at this; omega)
        (fun v hv' => hv v (List.mem_of_mem_drop hv'))
        (by rw [List.length_append, List.length_take, List.length_drop]; omega)]
      rw [List.append_assoc, List.take_append_drop]
    · unfold recvLoop
      have hlen : (l.flatMap le8).length = 8 * l.length := flat_length l
      rw [if_neg (by rw [hlen]; omega), if_neg (by rw [hlen]; omega), words_flat hv]
      simp only [if_true]
      rw [List.length_append, show n - (acc.length + l.length) = 0 by omega, List.replicate_zero, List.append_nil]

end Psi.DpPsi
