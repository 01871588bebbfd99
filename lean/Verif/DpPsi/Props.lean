import Verif.DpPsi.Lemmas
import Mathlib.Analysis.SpecialFunctions.Exp
import Mathlib.Tactic.Linarith
import Mathlib.Tactic.FieldSimp
import Mathlib.Tactic.Positivity

/-!
# C81, C82: DP-PSI
-/

namespace Psi.DpPsi

open Psi.Std (Bytes)

variable {α P : Type} [DecidableEq α]

/-! ### C81: what is reported -/

/-- Bob's sampled indexes, marked by whether Alice has the item. -/
def sampled (A B : List α) (kept : List Nat) : List (Nat × Bool) :=
  kept.filterMap fun i => B[i]?.map fun y => (i, decide (y ∈ A))

theorem sampled_eq {A B : List α} {kept : List Nat} (h : ∀ i ∈ kept, i < B.length) :
    (sampled A B kept).map Prod.fst = kept ∧
    (sampled A B kept).map Prod.snd = flags A (kept.filterMap fun i => B[i]?) ∧
    (kept.filterMap fun i => B[i]?).length = kept.length := by
  induction kept with
  | nil => simp [sampled, flags]
  | cons i kept ih =>
    obtain ⟨h1, h2, h3⟩ := ih fun j hj => h j (List.mem_cons_of_mem _ hj)
    have hi := h i List.mem_cons_self
    unfold sampled flags at *
    simp only [List.filterMap_cons, List.getElem?_eq_getElem hi, Option.map_some, List.map_cons, h1, h2, h3, List.length_cons,
      and_self]

theorem marked_get (l : List Bool) {kept : List Nat} (h : l.length = kept.length) :
    (marked 0 l).map (fun x => (kept.getD x.1 0, x.2)) = kept.zip l := by
  refine List.ext_getElem (by simp [marked, h]) fun i h1 h2 => ?_
  have hi : i < l.length := by simpa [marked] using h1
  simp [marked, List.getElem?_eq_getElem hi, List.getElem?_eq_getElem (h ▸ hi : i < kept.length)]

theorem marked_snd : ∀ (k : Nat) (l : List Bool), (marked k l).map Prod.snd = l
  | _, [] => rfl
  | k, b :: l => by rw [marked_cons, List.map_cons, marked_snd (k + 1) l]

theorem count_both (l : List Bool) : l.count true + l.count false = l.length := by
  induction l with
  | nil => rfl
  | cons b l ih => cases b <;> simp <;> omega

theorem bernoulli_nodup {l : List Nat} {c : List Bool} (h : l.Nodup) : (bernoulli l c).Nodup := h.sublist (bernoulli_sublist l c)

theorem mem_marked_lt {l : List Bool} {c1 c2 : List Bool} : ∀ i ∈ pick (marked 0 l) c1 c2, i < l.length := by
  intro i hi
  have := (pick_sublist _ _ _).subset hi
  simp only [marked, List.map_map, List.mem_map, List.mem_range, Function.comp_apply] at this
  obtain ⟨j, hj, e⟩ := this
  omega

/-- The call of Alice when some sampled item of Bob is not hers. -/
theorem alice_eq {c : Cfg α P} (hc : Laws c) {A Y : List α} (hn : NoClash c A Y) {c1 c2 : List Bool}
    (hnon : ∃ y ∈ Y, y ∉ A) (h1 : c1.length = (flags A Y).count true) (h2 : c2.length = (flags A Y).count false) :
    alice (Y.map c.dualA) (Std.sort (A.map c.dualB)) c1 c2 =
      { msgs := .size (pick (marked 0 (flags A Y)) c1 c2).length ::
          sendBatches kSendBatchSize (pick (marked 0 (flags A Y)) c1 c2).length (pick (marked 0 (flags A Y)) c1 c2)
        subSample := some (c1.count false)
        upSample := some (c2.count true)
        ret := (pick (marked 0 (flags A Y)) c1 c2).length } := by
  unfold alice
  simp only
  rw [interIdx_eq hc hn, nonInterIdx_eq hc hn, if_neg, sorted_draws _ _ _ _ h1 h2, posOf_length,
    bernoulli_length (by rw [posOf_length, h1]), bernoulli_length (by rw [posOf_length, h2])]
  · congr 2
    have := count_both c1
    omega
  · intro h
    have := congrArg List.length h
    rw [posOf_length, List.length_nil, List.count_eq_zero] at this
    obtain ⟨y, hy, hya⟩ := hnon
    exact this (List.mem_map.2 ⟨y, hy, by simpa using hya⟩)

/-- **C81.**  Bob ends with exactly the original indexes of those sampled items that kept their coin: an item that Alice
has stays if its coin of Alice's first draw shows heads, another one joins if its coin of the second draw does.  The list
is strictly increasing.  The sizes that both parties report add up. -/
theorem result_exact {c : Cfg α P} (hc : Laws c) {A B : List α} (hn : NoClash c A B) (hB : B.length ≤ 2 ^ 64)
    {shuf : List Nat} (hs : shuf.Perm (List.range B.length)) {cb c1 c2 : List Bool}
    (hnon : ∃ x ∈ sampled A B (bobSample shuf cb), x.2 = false)
    (h1 : c1.length = ((sampled A B (bobSample shuf cb)).map Prod.snd).count true)
    (h2 : c2.length = ((sampled A B (bobSample shuf cb)).map Prod.snd).count false) :
    ∃ R, (run c A B shuf cb c1 c2).2 = .ok R ∧ R.Perm (pick (sampled A B (bobSample shuf cb)) c1 c2) ∧ R.Pairwise (· < ·) ∧
      (run c A B shuf cb c1 c2).1.ret = R.length ∧
      (run c A B shuf cb c1 c2).1.subSample = some (c1.count false) ∧
      (run c A B shuf cb c1 c2).1.upSample = some (c2.count true) ∧
      R.length + c1.count false = c1.length + c2.count true := by
  unfold run
  simp only
  have hkept : ∀ i ∈ bobSample shuf cb, i < B.length := fun i hi =>
    List.mem_range.1 (hs.mem_iff.1 ((bernoulli_sublist _ _).subset hi))
  have hnd : (bobSample shuf cb).Nodup := bernoulli_nodup (hs.nodup_iff.2 List.nodup_range)
  generalize bobSample shuf cb = kept at *
  obtain ⟨e1, e2, e3⟩ := sampled_eq (A := A) hkept
  have hzip : sampled A B kept = kept.zip (flags A (kept.filterMap fun i => B[i]?)) := by
    rw [← e2]
    exact List.zip_of_prod e1 rfl
  have hY : ∀ y ∈ kept.filterMap (fun i => B[i]?), y ∈ B := fun y hy => by
    obtain ⟨i, -, e⟩ := List.mem_filterMap.1 hy
    exact List.mem_of_getElem? e
  generalize hYd : kept.filterMap (fun i => B[i]?) = Y at *
  have hn' : NoClash c A Y := fun x hx y hy e => hn x (hY x hx) y hy e
  rw [e2] at h1 h2
  have hnon' : ∃ y ∈ Y, y ∉ A := by
    obtain ⟨x, hx, hx2⟩ := hnon
    have : x.2 ∈ flags A Y := e2 ▸ List.mem_map_of_mem hx
    obtain ⟨y, hy, hye⟩ := List.mem_map.1 this
    exact ⟨y, hy, by rw [hx2] at hye; simpa using hye⟩
  rw [alice_eq hc hn' hnon' h1 h2]
  simp only
  have hfl : (flags A Y).length = kept.length := by simp [flags, e3]
  have hmap : (pick (marked 0 (flags A Y)) c1 c2).map (fun i => kept.getD i 0) = pick (sampled A B kept) c1 c2 := by
    rw [pick_map, marked_get _ hfl, hzip]
  have hlt := mem_marked_lt (l := flags A Y) (c1 := c1) (c2 := c2)
  have hlen : (pick (marked 0 (flags A Y)) c1 c2).length = c1.count true + c2.count true :=
    pick_length _ _ _ (by rw [h1, marked_snd]) (by rw [h2, marked_snd])
  have hcount := count_both c1
  have hkB : kept.length ≤ B.length := by
    have := (hnd.subperm (l₂ := List.range B.length) fun i hi => List.mem_range.2 (hkept i hi)).length_le
    simpa using this
  generalize pick (marked 0 (flags A Y)) c1 c2 = L at *
  have hbob : bob kept (.size L.length :: sendBatches kSendBatchSize L.length L) = .ok (sortIdx (pick (sampled A B kept) c1 c2)) := by
    unfold bob
    simp only
    split_ifs with h0
    · have : L = [] := List.eq_nil_of_length_eq_zero h0
      rw [← hmap, this]
      simp [sortIdx]
    · rw [recv_sent (by decide) _ _ _ le_rfl (fun h => h0 (by rw [h]; rfl)) (fun v hv => by have := hlt v hv; omega) (by simp)]
      simp only [List.nil_append]
      rw [if_pos, hmap]
      rw [List.all_eq_true]
      intro i hi
      have := hlt i hi
      exact decide_eq_true (by omega)
  refine ⟨_, hbob, sortIdx_perm _, ?_, ?_, trivial, trivial, ?_⟩
  · have hnd2 : (sortIdx (pick (sampled A B kept) c1 c2)).Nodup :=
      (sortIdx_perm _).nodup_iff.2 ((e1 ▸ hnd).sublist (pick_sublist _ _ _))
    refine ((sortIdx_sorted _).and hnd2).imp fun h => ?_
    exact lt_of_le_of_ne h.1 h.2
  · rw [(sortIdx_perm _).length_eq, ← hmap, List.length_map]
  · rw [(sortIdx_perm _).length_eq, ← hmap, List.length_map, hlen]
    omega

/-- **C81.**  The size that Bob reports is the number of items left out, not of those sampled: the tails among the coins. -/
theorem bob_left_out {n : Nat} {shuf : List Nat} (hs : shuf.Perm (List.range n)) {cb : List Bool} (h : cb.length = n) :
    bobSubSample n (bobSample shuf cb) = cb.count false ∧
      bobSubSample n (bobSample shuf cb) + (bobSample shuf cb).length = n := by
  have h1 : shuf.length = n := by simpa using hs.length_eq
  have h2 := bernoulli_length (l := shuf) (c := cb) (h.trans h1.symm)
  have h3 : ∀ c : List Bool, c.count true + c.count false = c.length := by
    intro c
    induction c with
    | nil => rfl
    | cons b c ih => cases b <;> simp <;> omega
  have := h3 cb
  unfold bobSubSample bobSample
  rw [h2]
  omega

/-- Three of five items. -/
example := bob_left_out (n := 5) (shuf := [1, 0, 3, 2, 4]) (by decide) (cb := [true, false, true, true, false]) rfl

/-- **C81.**  When Alice has all sampled items nothing is reported, and Alice's sizes are left unwritten. -/
theorem all_common_reports_nothing {c : Cfg α P} (hc : Laws c) {A B : List α} (hn : NoClash c A B)
    {shuf : List Nat} (hs : shuf.Perm (List.range B.length)) {cb c1 c2 : List Bool}
    (hall : ∀ x ∈ sampled A B (bobSample shuf cb), x.2 = true) :
    run c A B shuf cb c1 c2 = ({ msgs := [.size 0], subSample := none, upSample := none, ret := 0 }, .ok []) := by
  have hkept : ∀ i ∈ bobSample shuf cb, i < B.length := fun i hi =>
    List.mem_range.1 (hs.mem_iff.1 ((bernoulli_sublist _ _).subset hi))
  unfold run
  simp only
  generalize bobSample shuf cb = kept at *
  obtain ⟨-, e2, -⟩ := sampled_eq (A := A) hkept
  have hn' : NoClash c A (kept.filterMap fun i => B[i]?) := fun x hx y hy e => by
    obtain ⟨i, -, e'⟩ := List.mem_filterMap.1 hx
    exact hn x (List.mem_of_getElem? e') y hy e
  have h0 : nonInterIdx ((kept.filterMap fun i => B[i]?).map c.dualA) (Std.sort (A.map c.dualB)) = [] := by
    rw [nonInterIdx_eq hc hn', ← e2]
    refine List.eq_nil_of_length_eq_zero ?_
    rw [posOf_length, List.count_eq_zero]
    intro h
    obtain ⟨x, hx, e⟩ := List.mem_map.1 h
    rw [hall x hx] at e
    exact absurd e (by decide)
  have ha : alice ((kept.filterMap fun i => B[i]?).map c.dualA) (Std.sort (A.map c.dualB)) c1 c2 =
      { msgs := [.size 0], subSample := none, upSample := none, ret := 0 } := by
    unfold alice
    simp only
    rw [if_pos h0]
  rw [ha]
  rfl

/-! ### C82: differential privacy -/

/-- The mean of a function of `n` independent coins that show heads with probability `p`. -/
noncomputable def mean (p : ℝ) : Nat → (List Bool → ℝ) → ℝ
  | 0, f => f []
  | n + 1, f => p * mean p n (fun c => f (true :: c)) + (1 - p) * mean p n (fun c => f (false :: c))

/-- `p2` of the options: `dp_psi.h:35-36`. -/
noncomputable def p2 (ε : ℝ) : ℝ := Real.exp ε / (1 + Real.exp ε)

/-- `q` of the options: `dp_psi.h:37`. -/
noncomputable def q (ε : ℝ) : ℝ := 1 - p2 ε

/-- The mean of a function of the messages that Alice sends, over her coins.  `A`: her items; `Y`: Bob's sampled items. -/
noncomputable def view (c : Cfg α P) (ε : ℝ) (A Y : List α) (g : List Msg → ℝ) : ℝ :=
  mean (p2 ε) (interIdx (Y.map c.dualA) (Std.sort (A.map c.dualB))).length fun c1 =>
    mean (q ε) (nonInterIdx (Y.map c.dualA) (Std.sort (A.map c.dualB))).length fun c2 =>
      g (alice (Y.map c.dualA) (Std.sort (A.map c.dualB)) c1 c2).msgs

/-- Number of positions where membership differs. -/
def diff (A A' Y : List α) : Nat := Y.countP fun y => decide (¬ (y ∈ A ↔ y ∈ A'))

theorem mean_congr {p : ℝ} : ∀ {n : Nat} {f g : List Bool → ℝ}, (∀ c, c.length = n → f c = g c) → mean p n f = mean p n g
  | 0, f, g, h => h [] rfl
  | n + 1, f, g, h => by
    unfold mean
    rw [mean_congr fun c hc => h (true :: c) (by simp [hc]), mean_congr fun c hc => h (false :: c) (by simp [hc])]

theorem mean_linear {p : ℝ} (a b : ℝ) : ∀ {n : Nat} {f g : List Bool → ℝ},
    mean p n (fun c => a * f c + b * g c) = a * mean p n f + b * mean p n g
  | 0, f, g => rfl
  | n + 1, f, g => by
    unfold mean
    rw [mean_linear a b, mean_linear a b]
    ring

/-- Randomized response, position by position: the mean of a function of the positions reported. -/
noncomputable def response (p r : ℝ) : Nat → List Bool → (List Nat → ℝ) → ℝ
  | _, [], g => g []
  | k, b :: l, g => (if b then p else r) * response p r (k + 1) l (fun s => g (k :: s)) +
      (1 - if b then p else r) * response p r (k + 1) l g

theorem mean_pick {p r : ℝ} : ∀ (l : List Bool) (k : Nat) (g : List Nat → ℝ),
    mean p (l.count true) (fun c1 => mean r (l.count false) fun c2 => g (pick (marked k l) c1 c2)) = response p r k l g
  | [], k, g => by simp [mean, marked, pick, response]
  | true :: l, k, g => by
    rw [List.count_cons_self, List.count_cons_of_ne (by decide), marked_cons]
    unfold mean response
    simp only [pick, if_true, Bool.false_eq_true, if_false]
    rw [mean_pick l (k + 1) fun s => g (k :: s), mean_pick l (k + 1) g]
  | false :: l, k, g => by
    rw [List.count_cons_self, List.count_cons_of_ne (by decide), marked_cons]
    unfold response
    rw [← mean_pick l (k + 1) fun s => g (k :: s), ← mean_pick l (k + 1) g, ← mean_linear]
    refine mean_congr fun c1 _ => ?_
    conv_lhs => unfold mean
    simp only [pick, if_true, Bool.false_eq_true, if_false]

/-- The messages as a function of the positions reported. -/
def msgsOf (l : List Nat) : List Msg := .size l.length :: sendBatches kSendBatchSize l.length l

theorem view_eq {c : Cfg α P} (hc : Laws c) {A Y : List α} (hn : NoClash c A Y) (hnon : ∃ y ∈ Y, y ∉ A) (ε : ℝ)
    (g : List Msg → ℝ) : view c ε A Y g = response (p2 ε) (q ε) 0 (flags A Y) fun s => g (msgsOf s) := by
  unfold view
  rw [interIdx_eq hc hn, nonInterIdx_eq hc hn, posOf_length, posOf_length, ← mean_pick]
  refine mean_congr fun c1 h1 => mean_congr fun c2 h2 => ?_
  rw [alice_eq hc hn hnon h1 h2]
  rfl

theorem view_all {c : Cfg α P} (hc : Laws c) {A Y : List α} (hn : NoClash c A Y) (hall : ∀ y ∈ Y, y ∈ A) (ε : ℝ)
    (g : List Msg → ℝ) : view c ε A Y g = g [.size 0] := by
  have h0 : nonInterIdx (Y.map c.dualA) (Std.sort (A.map c.dualB)) = [] := by
    rw [nonInterIdx_eq hc hn]
    refine List.eq_nil_of_length_eq_zero ?_
    rw [posOf_length, List.count_eq_zero]
    intro h
    obtain ⟨y, hy, e⟩ := List.mem_map.1 h
    simp [hall y hy] at e
  unfold view
  have : ∀ c1 c2, (alice (Y.map c.dualA) (Std.sort (A.map c.dualB)) c1 c2).msgs = [.size 0] := fun c1 c2 => by
    unfold alice
    simp only
    rw [if_pos h0]
  simp only [this]
  rw [h0]
  simp only [List.length_nil, mean]
  generalize (interIdx (Y.map c.dualA) (Std.sort (A.map c.dualB))).length = n
  induction n with
  | zero => rfl
  | succ n ih => unfold mean; rw [ih]; ring

theorem probs (ε : ℝ) : 0 < p2 ε ∧ 0 < q ε ∧ 1 - p2 ε = q ε ∧ 1 - q ε = p2 ε ∧ p2 ε = Real.exp ε * q ε ∧
    q ε = 1 / (1 + Real.exp ε) := by
  have h := Real.exp_pos ε
  have h1 : (1 + Real.exp ε) ≠ 0 := by positivity
  have hq : q ε = 1 / (1 + Real.exp ε) := by
    unfold q p2
    field_simp
    ring
  refine ⟨by unfold p2; positivity, by rw [hq]; positivity, rfl, by unfold q; ring, ?_, hq⟩
  rw [hq]
  unfold p2
  ring

theorem response_nonneg {ε : ℝ} : ∀ (l : List Bool) (k : Nat) (g : List Nat → ℝ), (∀ s, 0 ≤ g s) →
    0 ≤ response (p2 ε) (q ε) k l g
  | [], _, g, h => h []
  | b :: l, k, g, h => by
    obtain ⟨h1, h2, h3, h4, -⟩ := probs ε
    have e1 := response_nonneg (ε := ε) l (k + 1) (fun s => g (k :: s)) fun s => h _
    have e2 := response_nonneg (ε := ε) l (k + 1) g h
    unfold response
    cases b
    · simp only [Bool.false_eq_true, if_false, h4]; positivity
    · simp only [if_true, h3]; positivity

theorem response_ratio {ε : ℝ} (hε : 0 ≤ ε) : ∀ (Y : List α) (A A' : List α) (k : Nat) (g : List Nat → ℝ), (∀ s, 0 ≤ g s) →
    response (p2 ε) (q ε) k (flags A Y) g ≤ Real.exp ε ^ diff A A' Y * response (p2 ε) (q ε) k (flags A' Y) g
  | [], A, A', k, g, h => by simp [flags, response, diff]
  | y :: Y, A, A', k, g, h => by
    obtain ⟨h1, h2, h3, h4, h5, -⟩ := probs ε
    have hexp : 1 ≤ Real.exp ε := Real.one_le_exp hε
    have e1 := response_ratio hε Y A A' (k + 1) (fun s => g (k :: s)) fun s => h _
    have e2 := response_ratio hε Y A A' (k + 1) g h
    have n1 := response_nonneg (ε := ε) (flags A' Y) (k + 1) (fun s => g (k :: s)) fun s => h _
    have n2 := response_nonneg (ε := ε) (flags A' Y) (k + 1) g h
    have hE : 0 < Real.exp ε ^ diff A A' Y := by positivity
    have hs : ∀ A : List α, response (p2 ε) (q ε) k (flags A (y :: Y)) g =
        (if y ∈ A then p2 ε else q ε) * response (p2 ε) (q ε) (k + 1) (flags A Y) (fun s => g (k :: s)) +
        (1 - if y ∈ A then p2 ε else q ε) * response (p2 ε) (q ε) (k + 1) (flags A Y) g := fun A => by
      unfold flags
      rw [List.map_cons]
      conv_lhs => unfold response
      simp only [decide_eq_true_eq]
    rw [hs, hs]
    have hd : diff A A' (y :: Y) = diff A A' Y + if y ∈ A ↔ y ∈ A' then 0 else 1 := by
      unfold diff
      rw [List.countP_cons]
      by_cases h : y ∈ A ↔ y ∈ A'
      · simp [h]
      · simp [h]
    rw [hd, pow_add]
    generalize response (p2 ε) (q ε) (k + 1) (flags A Y) (fun s => g (k :: s)) = x at *
    generalize response (p2 ε) (q ε) (k + 1) (flags A' Y) (fun s => g (k :: s)) = x' at *
    generalize response (p2 ε) (q ε) (k + 1) (flags A Y) g = z at *
    generalize response (p2 ε) (q ε) (k + 1) (flags A' Y) g = z' at *
    generalize Real.exp ε ^ diff A A' Y = D at *
    generalize hX : Real.exp ε = X at *
    have key : ∀ a b a' b' F : ℝ, 0 ≤ a → 0 ≤ b → a ≤ F * a' → b ≤ F * b' →
        a * x + b * z ≤ D * F * (a' * x' + b' * z') := fun a b a' b' F ha hb h1 h2 => by
      have s1 : a * x ≤ F * a' * (D * x') := (mul_le_mul_of_nonneg_left e1 ha).trans
        (mul_le_mul_of_nonneg_right h1 (by positivity))
      have s2 : b * z ≤ F * b' * (D * z') := (mul_le_mul_of_nonneg_left e2 hb).trans
        (mul_le_mul_of_nonneg_right h2 (by positivity))
      calc a * x + b * z ≤ F * a' * (D * x') + F * b' * (D * z') := add_le_add s1 s2
        _ = D * F * (a' * x' + b' * z') := by ring
    have hqp : q ε ≤ X * p2 ε := by
      have : q ε ≤ p2 ε := by rw [h5]; exact le_mul_of_one_le_left h2.le hexp
      exact this.trans (le_mul_of_one_le_left h1.le hexp)
    by_cases hA : y ∈ A <;> by_cases hA' : y ∈ A'
    · simp only [hA, hA', if_true, h3, iff_self, pow_zero, mul_one]
      have := key (p2 ε) (q ε) (p2 ε) (q ε) 1 h1.le h2.le (one_mul _).ge (one_mul _).ge
      rwa [mul_one] at this
    · simp only [hA, hA', if_true, if_false, h3, h4, iff_false, not_true, pow_one]
      exact key (p2 ε) (q ε) (q ε) (p2 ε) X h1.le h2.le h5.le hqp
    · simp only [hA, hA', if_true, if_false, h3, h4, iff_true, pow_one]
      exact key (q ε) (p2 ε) (p2 ε) (q ε) X h2.le h1.le hqp h5.le
    · simp only [hA, hA', if_false, h4, iff_self, if_true, pow_zero, mul_one]
      have := key (q ε) (p2 ε) (q ε) (p2 ε) 1 h2.le h1.le (one_mul _).ge (one_mul _).ge
      rwa [mul_one] at this

/-- **C82 (partial).**  As long as Bob samples an item that Alice does not have, with either of two sets of hers: the
messages are randomized responses.  The probability of every set of messages — indeed the mean of every non-negative
function of them — changes at most by `e ^ ε` for each sampled item whose membership changes. -/
theorem private_group_partial {c : Cfg α P} (hc : Laws c) {A A' Y : List α} (hn : NoClash c A Y) (hn' : NoClash c A' Y)
    {ε : ℝ} (hε : 0 ≤ ε) (h : ∃ y ∈ Y, y ∉ A) (h' : ∃ y ∈ Y, y ∉ A') (g : List Msg → ℝ) (hg : ∀ m, 0 ≤ g m) :
    view c ε A Y g ≤ Real.exp ε ^ diff A A' Y * view c ε A' Y g := by
  rw [view_eq hc hn h, view_eq hc hn' h']
  exact response_ratio hε Y A A' 0 _ fun s => hg _

theorem diff_le_one {A A' Y : List α} (hY : Y.Nodup) {x : α} (hx : ∀ y, y ≠ x → (y ∈ A ↔ y ∈ A')) : diff A A' Y ≤ 1 := by
  unfold diff
  rw [List.countP_eq_length_filter]
  have hnd := hY.filter fun y => decide (¬ (y ∈ A ↔ y ∈ A'))
  have hall : ∀ y ∈ Y.filter (fun y => decide (¬ (y ∈ A ↔ y ∈ A'))), y = x := fun y hy => by
    have := (List.mem_filter.1 hy).2
    by_contra hne
    exact (of_decide_eq_true this) (hx y hne)
  have := (hnd.subperm (l₂ := [x]) fun y hy => by rw [hall y hy]; exact List.mem_singleton_self x).length_le
  simpa using this

/-- **C82 (partial).**  `ε`-differential privacy for one item of Alice, as long as Bob has no item twice and samples an
item that Alice does not have. -/
theorem private_one_item_partial {c : Cfg α P} (hc : Laws c) {A A' Y : List α} (hn : NoClash c A Y) (hn' : NoClash c A' Y)
    (hY : Y.Nodup) {x : α} (hx : ∀ y, y ≠ x → (y ∈ A ↔ y ∈ A')) {ε : ℝ} (hε : 0 ≤ ε) (h : ∃ y ∈ Y, y ∉ A)
    (h' : ∃ y ∈ Y, y ∉ A') (g : List Msg → ℝ) (hg : ∀ m, 0 ≤ g m) : view c ε A Y g ≤ Real.exp ε * view c ε A' Y g := by
  refine (private_group_partial hc hn hn' hε h h' g hg).trans (mul_le_mul_of_nonneg_right ?_ ?_)
  · have := diff_le_one hY hx
    have h1 : 1 ≤ Real.exp ε := Real.one_le_exp hε
    calc Real.exp ε ^ diff A A' Y ≤ Real.exp ε ^ 1 := pow_le_pow_right₀ h1 this
      _ = Real.exp ε := pow_one _
  · rw [view_eq hc hn' h']
    exact response_nonneg _ _ _ fun s => hg _

theorem response_one {p r : ℝ} : ∀ (l : List Bool) (k : Nat), response p r k l (fun _ => 1) = 1
  | [], _ => rfl
  | b :: l, k => by unfold response; rw [response_one l (k + 1)]; ring

theorem response_pos {ε : ℝ} : ∀ (l : List Bool) (k : Nat), l ≠ [] →
    0 < response (p2 ε) (q ε) k l (fun s => if s = [] then 0 else 1)
  | [], _, h => absurd rfl h
  | b :: l, k, _ => by
    obtain ⟨h1, h2, h3, h4, -⟩ := probs ε
    have e0 : response (p2 ε) (q ε) (k + 1) l (fun s => if k :: s = [] then (0 : ℝ) else 1) = 1 := by
      simp only [reduceCtorEq, if_false]
      exact response_one _ _
    have e2 := response_nonneg (ε := ε) l (k + 1) (fun s => if s = [] then 0 else 1) fun s => by split_ifs <;> norm_num
    unfold response
    rw [e0]
    cases b
    · simp only [Bool.false_eq_true, if_false, h4]; positivity
    · simp only [if_true, h3]; positivity

/-- The chance that anything at all is reported. -/
noncomputable def anything (c : Cfg α P) (ε : ℝ) (A Y : List α) : ℝ := view c ε A Y fun m => if m = [.size 0] then 0 else 1

theorem msgsOf_empty (s : List Nat) : msgsOf s = [.size 0] ↔ s = [] := by
  constructor
  · intro h
    have : s.length = 0 := by
      unfold msgsOf at h
      simpa using (List.cons_eq_cons.1 h).1
    exact List.eq_nil_of_length_eq_zero this
  · rintro rfl
    rfl

/-- **C82 (negation).**  When Alice has all items that Bob sampled, nothing is ever reported; as soon as she lacks one,
something is reported with positive probability.  So no factor at all bounds the change, whatever `ε` was asked for. -/
theorem C82_not_private {c : Cfg α P} (hc : Laws c) {A A' Y : List α} (hn : NoClash c A Y) (hn' : NoClash c A' Y)
    (hall : ∀ y ∈ Y, y ∈ A) (h' : ∃ y ∈ Y, y ∉ A') (ε K : ℝ) : ¬ anything c ε A' Y ≤ K * anything c ε A Y := by
  unfold anything
  rw [view_all hc hn hall, view_eq hc hn' h']
  simp only [if_true, mul_zero, not_le, msgsOf_empty]
  refine response_pos _ _ ?_
  obtain ⟨y, hy, -⟩ := h'
  intro h
  have : Y.length = 0 := by simpa [flags] using congrArg List.length h
  rw [List.length_eq_zero_iff.1 this] at hy
  simp at hy

/-- **C82 (negation).**  For a single item: a report proves that Alice lacks it, and happens with probability
`1 / (1 + e ^ ε)` if she does. -/
theorem C82_single_item {c : Cfg α P} (hc : Laws c) {A A' : List α} {y : α} (hn : NoClash c A [y]) (hn' : NoClash c A' [y])
    (h : y ∈ A) (h' : y ∉ A') (ε : ℝ) : anything c ε A [y] = 0 ∧ anything c ε A' [y] = 1 / (1 + Real.exp ε) := by
  unfold anything
  rw [view_all hc hn (by simpa using h), view_eq hc hn' ⟨y, List.mem_singleton_self y, h'⟩]
  refine ⟨by simp, ?_⟩
  simp only [msgsOf_empty, flags, List.map_cons, List.map_nil, h', decide_false, response]
  simp [(probs ε).2.2.2.2.2]

/-- An item that Bob has twice costs twice: the ratio `e ^ (2 ε)` is reached. -/
theorem C82_duplicates {c : Cfg α P} (hc : Laws c) {A A' : List α} {x z : α} (hn : NoClash c A [x, x, z])
    (hn' : NoClash c A' [x, x, z]) (hx : x ∈ A) (hx' : x ∉ A') (hz : z ∉ A) (hz' : z ∉ A') (ε : ℝ) :
    view c ε A [x, x, z] (fun m => if m = msgsOf [0, 1] then 1 else 0) =
      Real.exp ε ^ 2 * view c ε A' [x, x, z] (fun m => if m = msgsOf [0, 1] then 1 else 0) ∧
    0 < view c ε A' [x, x, z] (fun m => if m = msgsOf [0, 1] then 1 else 0) := by
  have hinj : ∀ s, (∀ v ∈ s, v < 3) → (msgsOf s = msgsOf [0, 1] ↔ s = [0, 1]) := fun s hs => by
    constructor
    · intro h
      have hlen : s.length = 2 := by
        unfold msgsOf at h
        simpa using (List.cons_eq_cons.1 h).1
      have h2 := congrArg (fun m => recvLoop 2 m.tail []) h
      have r1 : recvLoop 2 (msgsOf s).tail [] = .ok s := by
        have := recv_sent (B := kSendBatchSize) (n := 2) (by decide) s.length s [] le_rfl
          (fun h => by rw [h] at hlen; simp at hlen) (fun v hv => by have := hs v hv; omega) (by simp [hlen])
        simpa [msgsOf] using this
      have r2 : recvLoop 2 (msgsOf [0, 1]).tail [] = .ok [0, 1] := by
        have := recv_sent (B := kSendBatchSize) (n := 2) (by decide) 2 [0, 1] [] le_rfl (by simp) (by simp) rfl
        simpa [msgsOf] using this
      simp only [r1, r2, Outcome.ok.injEq] at h2
      exact h2
    · rintro rfl
      rfl
  rw [view_eq hc hn ⟨z, by simp, hz⟩, view_eq hc hn' ⟨z, by simp, hz'⟩]
  obtain ⟨h1, h2, h3, h4, h5, -⟩ := probs ε
  simp only [flags, List.map_cons, List.map_nil, hx, hx', hz, hz', decide_true, decide_false, response, if_true,
    Bool.false_eq_true, if_false]
  have hh := fun s (hs : ∀ v ∈ s, v < 3) => hinj s hs
  simp only [hh [] (by simp), hh [0] (by simp), hh [1] (by simp), hh [2] (by simp), hh [0, 2] (by simp),
    hh [1, 2] (by simp), hh [0, 1, 2] (by simp)]
  simp only [reduceCtorEq, if_false]
  norm_num [h4]
  rw [h5]
  constructor
  · ring
  · positivity

/-! ### Examples -/

/-- A toy curve: numbers in unary with addition of a key. -/
def toy : Cfg Nat Nat where
  hash x := x
  maskA p := p + 3
  maskB p := p + 4
  ser p := List.replicate p 0
  deser b := b.length
  dualSize := 1000

theorem toy_laws : Laws toy := ⟨fun p => List.length_replicate, fun p => by show p + 4 + 3 = p + 3 + 4; omega⟩

theorem toy_dual {x y : Nat} (hx : x ≤ 900) (hy : y ≤ 900) (h : toy.dualA x = toy.dualB y) : x = y := by
  have := congrArg List.length h
  simp [Cfg.dualA, Cfg.dualB, toy, Ecdh3.tail] at this
  omega

theorem toy_noClash {A B : List Nat} (hA : ∀ x ∈ A, x ≤ 900) (hB : ∀ x ∈ B, x ≤ 900) : NoClash toy A B :=
  fun x hx y hy h => toy_dual (hB x hx) (hA y hy) h

/-- Bob keeps the items 20, 60, 30 and 50 of six; Alice has 30 and 60 of them.  The coin of 60 shows tails, that of 30 heads;
20 joins, 50 does not. -/
example := result_exact toy_laws (A := [30, 10, 60]) (B := [10, 20, 30, 40, 50, 60]) (toy_noClash (by decide) (by decide))
  (by decide) (shuf := [1, 0, 5, 3, 2, 4]) (by decide) (cb := [true, false, true, false, true, true]) (c1 := [false, true])
  (c2 := [true, false]) ⟨(1, false), by decide, rfl⟩ (by decide) (by decide)

example : pick (sampled [30, 10, 60] [10, 20, 30, 40, 50, 60] (bobSample [1, 0, 5, 3, 2, 4]
    [true, false, true, false, true, true])) [false, true] [true, false] = [1, 2] := by decide

example := all_common_reports_nothing toy_laws (A := [30, 10, 60]) (B := [10, 30]) (toy_noClash (by decide) (by decide))
  (shuf := [1, 0]) (by decide) (cb := [true, true]) (c1 := [true, true]) (c2 := []) (by decide)

example := private_one_item_partial toy_laws (A := [30, 10, 60]) (A' := [10, 60]) (Y := [10, 30, 50])
  (toy_noClash (by decide) (by decide)) (toy_noClash (by decide) (by decide)) (by decide) (x := 30)
  (fun y hy => by simp [hy]) (ε := 3) (by norm_num) ⟨50, by decide, by decide⟩ ⟨50, by decide, by decide⟩
  (fun m => if m = msgsOf [1] then 1 else 0) (fun m => by split_ifs <;> norm_num)

example := C82_not_private toy_laws (A := [30, 10, 60]) (A' := [10, 60]) (Y := [10, 30])
  (toy_noClash (by decide) (by decide)) (toy_noClash (by decide) (by decide)) (by decide) ⟨30, by decide, by decide⟩ 3 1000000

example := C82_single_item toy_laws (A := [30]) (A' := [10]) (y := 30) (toy_noClash (by decide) (by decide))
  (toy_noClash (by decide) (by decide)) (by decide) (by decide) 3

example := C82_duplicates toy_laws (A := [30]) (A' := [10]) (x := 30) (z := 50) (toy_noClash (by decide) (by decide))
  (toy_noClash (by decide) (by decide)) (by decide) (by decide) (by decide) (by decide) 3

example := private_group_partial toy_laws (A := [30, 10, 60]) (A' := [10, 20]) (Y := [10, 20, 30, 50])
  (toy_noClash (by decide) (by decide)) (toy_noClash (by decide) (by decide)) (ε := 3) (by norm_num)
  ⟨50, by decide, by decide⟩ ⟨50, by decide, by decide⟩
  (fun m => if m = msgsOf [1] then 1 else 0) (fun m => by split_ifs <;> norm_num)

end Psi.DpPsi
