import Verif.Okvs.Decode
import Verif.Okvs.HashLemmas
import Verif.Okvs.CompleteLemmas
import Mathlib.Data.List.GetD
import Mathlib.Tactic.Abel

/-! # The decoders compute the same sum -/

namespace Psi.Okvs
open Psi.Gf128

/-- One pass over the 8 lanes of a group. -/
theorem group_apply {A : Type} (k : Nat) (f : Nat → A → A) (v : Nat → A) (n : Nat) (hn : n ≤ 8) (l : Nat) :
    (List.range n).foldl (fun v m => Function.update v (k * 8 + m) (f m (v (k * 8 + m)))) v l =
      if l / 8 = k ∧ l % 8 < n then f (l % 8) (v l) else v l := by
  induction n with
  | zero => simp
  | succ n ih =>
    rw [List.range_succ, List.foldl_append, List.foldl_cons, List.foldl_nil]
    by_cases h : l = k * 8 + n
    · subst h
      rw [Function.update_self, ih (by omega)]
      have h1 : (k * 8 + n) / 8 = k := by omega
      have h2 : (k * 8 + n) % 8 = n := by omega
      rw [h1, h2]
      simp
    · rw [Function.update_of_ne h, ih (by omega)]
      by_cases h2 : l / 8 = k ∧ l % 8 < n
      · rw [if_pos h2, if_pos (by omega)]
      · rw [if_neg h2, if_neg (by omega)]

theorem groups_apply {A : Type} (g : Nat → (Nat → A) → Nat → A) (F : Nat → A → A) (v : Nat → A) (n : Nat)
    (hg : ∀ k v l, k < n → g k v l = if l / 8 = k then F l (v l) else v l) (l : Nat) :
    (List.range n).foldl (fun v k => g k v) v l = if l / 8 < n then F l (v l) else v l := by
  induction n with
  | zero => simp
  | succ n ih =>
    rw [List.range_succ, List.foldl_append, List.foldl_cons, List.foldl_nil, hg n _ l (by omega)]
    have h1 := ih (fun k v l hk => hg k v l (by omega))
    by_cases h : l / 8 = n
    · rw [if_pos h, h1, if_neg (by omega), if_pos (by omega)]
    · rw [if_neg h, h1]
      by_cases h2 : l / 8 < n
      · rw [if_pos h2, if_pos (by omega)]
      · rw [if_neg h2, if_neg (by omega)]

theorem lanes_apply {A : Type} (f : Nat → Nat → A → A) (v : Nat → A) (l : Nat) (hl : l < 32) :
    lanes f v l = f (l / 8) (l % 8) (v l) := by
  unfold lanes
  rw [groups_apply (fun k v => (List.range 8).foldl (fun v m =>
    Function.update v (k * 8 + m) (f k m (v (k * 8 + m)))) v) (fun l => f (l / 8) (l % 8)) v 4]
  · rw [if_pos (by omega)]
  · intro k v l _
    rw [group_apply k (fun m => f k m) v 8 (by omega) l]
    by_cases h : l / 8 = k
    · rw [if_pos ⟨h, by omega⟩, if_pos h, h]
    · rw [if_neg (fun hh => h hh.1), if_neg h]

section
variable {V : Type} [AddCommGroup V]

theorem foldl_add_eq (a : V) (f : Nat → V) (l : List Nat) : l.foldl (fun v j => v + f j) a = a + (l.map f).sum := by
  induction l generalizing a with
  | nil => simp
  | cons x l ih => rw [List.foldl_cons, ih, List.map_cons, List.sum_cons, add_assoc]

theorem decodeSparse_eq {w : Nat} (hw : 0 < w) (p : Nat → V) (row : Nat → Nat) :
    decodeSparse w p row = sparsePart p ((List.range w).map row) := by
  unfold decodeSparse sparsePart
  rw [foldl_add_eq _ (fun j => p (row j)), List.map_map, List.range_eq_range', show w = w - 1 + 1 by omega, List.range'_succ]
  simp [Function.comp_def]

theorem decodeSparse32_eq {w : Nat} (p : Nat → V) (rows : Nat → Nat) (v : Nat → V) {l : Nat} (hl : l < 32) :
    decodeSparse32 w p rows v l = decodeSparse w p (fun j => rows (w * l + j)) := by
  have hidx : ∀ j, l / 8 * 8 * w + (w * (l % 8) + j) = w * l + j := by
    intro j
    have h1 : l / 8 * 8 * w = w * (l / 8 * 8) := Nat.mul_comm _ _
    have h2 : w * (l / 8 * 8) + w * (l % 8) = w * (l / 8 * 8 + l % 8) := (Nat.mul_add _ _ _).symm
    have h3 : l / 8 * 8 + l % 8 = l := by omega
    rw [h3] at h2
    rw [h1, ← Nat.add_assoc, h2]
  unfold decodeSparse32 decodeSparse
  have hgen : ∀ (js : List Nat) (v0 : Nat → V) (x : V), v0 l = x →
      js.foldl (fun v j => lanes (fun k m x => x + p (rows (k * 8 * w + (w * m + j)))) v) v0 l =
        js.foldl (fun v j => v + p (rows (w * l + j))) x := by
    intro js
    induction js with
    | nil => intro v0 x h; exact h
    | cons j js ih =>
      intro v0 x h
      rw [List.foldl_cons, List.foldl_cons]
      apply ih
      rw [lanes_apply _ _ _ hl, hidx, h]
  apply hgen
  rw [lanes_apply _ _ _ hl, hidx]

end

section
variable {V : Type} [AddCommGroup V] [Module Gf V]

theorem gfFold_eq (S d : Nat) (p : Nat → V) (v : V) (n : Nat) :
    (List.range' 1 n).foldl (fun (s : Gf × V) i => (s.1 * Gf.ofNat d, s.2 + (s.1 * Gf.ofNat d) • p (i + S))) (Gf.ofNat d, v) =
      (powCoef d n, v + ((List.range n).map (fun k => powCoef d (k + 1) • p (S + (k + 1)))).sum) := by
  induction n with
  | zero => simp [powCoef]
  | succ n ih =>
    rw [show List.range' 1 (n + 1) = List.range' 1 n ++ [1 + n] from by rw [List.range'_concat]; simp, List.foldl_append, ih]
    simp only [List.foldl_cons, List.foldl_nil]
    refine Prod.ext rfl ?_
    simp only [List.range_succ, List.map_append, List.map_cons, List.map_nil, List.sum_append, List.sum_cons, List.sum_nil,
      add_zero]
    rw [← add_assoc, show 1 + n + S = S + (n + 1) by omega]
    rfl

theorem decode1Gf_eq {w S D : Nat} (hw : 0 < w) (hD : 0 < D) (p : Nat → V) (row : Nat → Nat) (d : Nat) :
    decode1Gf w S D p row d = .ok (decode powCoef D p (fun k => p (S + k)) ⟨(List.range w).map row, d⟩) := by
  unfold decode1Gf decode densePart
  rw [if_neg (by omega)]
  simp only
  rw [gfFold_eq, decodeSparse_eq hw]
  congr 1
  obtain ⟨m, rfl⟩ : ∃ m, D = m + 1 := ⟨D - 1, by omega⟩
  rw [List.range_succ_eq_map, List.map_cons, List.sum_cons, List.map_map, add_assoc]
  rfl

theorem decode32Gf_eq {w S D : Nat} (hw : 0 < w) (hD : 0 < D) (p : Nat → V) (rows dense : Nat → Nat) (v : Nat → V) :
    ∃ u, decode32Gf w S D p rows dense v = .ok u ∧ ∀ l < 32,
      u l = decode powCoef D p (fun k => p (S + k)) ⟨(List.range w).map (fun j => rows (w * l + j)), dense l⟩ := by
  unfold decode32Gf
  rw [if_neg (by omega)]
  refine ⟨_, rfl, fun l hl => ?_⟩
  have h1 := decode1Gf_eq (V := V) hw hD p (fun j => rows (w * l + j)) (dense l) (S := S)
  unfold decode1Gf at h1
  rw [if_neg (by omega)] at h1
  simp only [Except.ok.injEq] at h1
  rw [← h1]
  have hlane : l / 8 * 8 + l % 8 = l := by omega
  have hgen : ∀ (is : List Nat) (s : (Nat → Gf) × (Nat → V)) (t : Gf × V), s.1 l = t.1 → s.2 l = t.2 →
      (is.foldl (fun (s : (Nat → Gf) × (Nat → V)) i =>
        (lanes (fun k m x => x * Gf.ofNat (dense (k * 8 + m))) s.1,
          lanes (fun k m y => y + lanes (fun k m x => x * Gf.ofNat (dense (k * 8 + m))) s.1 (k * 8 + m) • p (S + i)) s.2)) s).2 l =
      (is.foldl (fun (s : Gf × V) i => (s.1 * Gf.ofNat (dense l), s.2 + (s.1 * Gf.ofNat (dense l)) • p (i + S))) t).2 := by
    intro is
    induction is with
    | nil => intro s t _ h; exact h
    | cons i is ih =>
      intro s t ha hb
      rw [List.foldl_cons, List.foldl_cons]
      apply ih
      · simp only
        rw [lanes_apply _ _ _ hl, hlane, ha]
      · simp only
        rw [lanes_apply _ _ _ hl, hlane, lanes_apply _ _ _ hl, hlane, ha, hb, Nat.add_comm S i]
  apply hgen
  · rfl
  · simp only
    rw [lanes_apply _ _ _ hl, hlane, decodeSparse32_eq _ _ _ hl]

end

section
variable {V : Type} [AddCommGroup V] [Module (ZMod 2) V]

theorem binFold_eq (S d : Nat) (p : Nat → V) (v : V) (l : List Nat) :
    l.foldl (fun v i => if d.testBit i then v + p (i + S) else v) v = v + (l.map (fun k => bitCoef d k • p (S + k))).sum := by
  induction l generalizing v with
  | nil => simp
  | cons i l ih =>
    rw [List.foldl_cons, ih, List.map_cons, List.sum_cons, ← add_assoc]
    congr 1
    unfold bitCoef
    by_cases h : d.testBit i
    · rw [if_pos h, if_pos h, one_smul, Nat.add_comm]
    · rw [if_neg h, if_neg h, zero_smul, add_zero]

theorem decode1Bin_eq {w S D : Nat} (hw : 0 < w) (p : Nat → V) (row : Nat → Nat) (d : Nat) :
    decode1Bin w S D p row d = .ok (decode bitCoef D p (fun k => p (S + k)) ⟨(List.range w).map row, d⟩) := by
  unfold decode1Bin decode densePart
  rw [binFold_eq, decodeSparse_eq hw]

theorem decode32Bin_eq {w S D : Nat} (hw : 0 < w) (hD : D ≤ 64) (p : Nat → V) (rows dense : Nat → Nat) (v : Nat → V) :
    ∃ u, decode32Bin w S D p rows dense v = .ok u ∧ ∀ l < 32,
      u l = decode bitCoef D p (fun k => p (S + k)) ⟨(List.range w).map (fun j => rows (w * l + j)), dense l⟩ := by
  unfold decode32Bin
  rw [if_neg (by omega)]
  refine ⟨_, rfl, fun l hl => ?_⟩
  have hD' : ∀ n ≤ D, ∀ (k : Nat) (v : Nat → V),
      (∀ m, ((List.range n).foldl (fun (s : (Nat → Nat) × (Nat → V)) i =>
        (fun m => s.1 m / 2, (List.range 8).foldl (fun v m =>
          Function.update v (k * 8 + m) (v (k * 8 + m) + (s.1 m % 2) • p (S + i))) s.2))
        (fun m => dense (k * 8 + m) % 2 ^ 64, v)).1 m = dense (k * 8 + m) % 2 ^ 64 / 2 ^ n) ∧
      ∀ l, ((List.range n).foldl (fun (s : (Nat → Nat) × (Nat → V)) i =>
        (fun m => s.1 m / 2, (List.range 8).foldl (fun v m =>
          Function.update v (k * 8 + m) (v (k * 8 + m) + (s.1 m % 2) • p (S + i))) s.2))
        (fun m => dense (k * 8 + m) % 2 ^ 64, v)).2 l =
          if l / 8 = k then v l + ((List.range n).map (fun i => bitCoef (dense l) i • p (S + i))).sum else v l := by
    intro n hn k v
    induction n with
    | zero => simp
    | succ n ih =>
      obtain ⟨ih1, ih2⟩ := ih (by omega)
      rw [List.range_succ (n := n), List.foldl_append, List.foldl_cons, List.foldl_nil]
      refine ⟨fun m => ?_, fun l => ?_⟩
      · simp only
        rw [ih1, Nat.div_div_eq_div_mul, ← Nat.pow_succ]
      · simp only
        rw [group_apply k (fun m y => y + _ • p (S + n)) _ 8 (by omega) l, ih2]
        by_cases h : l / 8 = k
        · rw [if_pos ⟨h, by omega⟩, if_pos h, if_pos h, ih1]
          rw [List.map_append, List.sum_append, List.map_cons, List.map_nil, List.sum_cons, List.sum_nil, add_zero,
            ← add_assoc]
          congr 1
          have hl' : k * 8 + l % 8 = l := by omega
          rw [hl']
          unfold bitCoef
          have hb : (dense l).testBit n = decide (dense l % 2 ^ 64 / 2 ^ n % 2 = 1) := by
            rw [← Nat.testBit_eq_decide_div_mod_eq, Nat.testBit_mod_two_pow]
            simp [show n < 64 by omega]
          rw [hb]
          rcases Nat.mod_two_eq_zero_or_one (dense l % 2 ^ 64 / 2 ^ n) with h0 | h0
          · rw [h0]; simp
          · rw [h0]; simp
        · rw [if_neg (fun hh => h hh.1), if_neg h, if_neg h]
  rw [groups_apply (fun k v => ((List.range D).foldl (fun (s : (Nat → Nat) × (Nat → V)) i =>
        (fun m => s.1 m / 2, (List.range 8).foldl (fun v m =>
          Function.update v (k * 8 + m) (v (k * 8 + m) + (s.1 m % 2) • p (S + i))) s.2))
        (fun m => dense (k * 8 + m) % 2 ^ 64, v)).2)
      (fun l y => y + ((List.range D).map (fun i => bitCoef (dense l) i • p (S + i))).sum) _ 4
      (fun k v l _ => (hD' D (Nat.le_refl _) k v).2 l)]
  rw [if_pos (by omega), decodeSparse32_eq _ _ _ hl, decodeSparse_eq hw]
  rfl

end

theorem mapM_ok {A B E : Type} (f : A → Except E B) (g : A → B) (l : List A) (h : ∀ a ∈ l, f a = .ok (g a)) :
    l.mapM f = .ok (l.map g) := by
  induction l with
  | nil => rfl
  | cons a l ih =>
    rw [List.mapM_cons, h a List.mem_cons_self, ih (fun b hb => h b (List.mem_cons_of_mem _ hb))]
    rfl

theorem row_getD {w S h : Nat} (hw : w ≤ S) : (List.range w).map (fun j => (buildRow w S h).getD j 0) = buildRow w S h := by
  have hl := (buildRow_spec hw h).2.1
  apply List.ext_getElem
  · simp [hl]
  · intro n h1 h2
    simp only [List.getElem_map, List.getElem_range, List.getD_eq_getElem _ _ h2]

theorem row32_getD {w S : Nat} (avx2 : Bool) (hw : w ≤ S) (hS : S < 2 ^ 62) (h : Nat → Nat) {l : Nat} (hl : l < 32) :
    (List.range w).map (fun j => (buildRow32 avx2 w S h).getD (w * l + j) 0) = buildRow w S (h l) := by
  rw [buildRow32_eq avx2 hw hS h]
  have hlen : ∀ m, ((List.range m).flatMap fun k => buildRow w S (h k)).length = w * m := by
    intro m
    induction m with
    | zero => simp
    | succ m ih =>
      rw [List.range_succ, List.flatMap_append, List.length_append, ih]
      simp [(buildRow_spec hw (h m)).2.1, Nat.mul_add]
  rw [← row_getD (h := h l) hw]
  apply List.map_congr_left
  intro j hj
  rw [List.mem_range] at hj
  obtain ⟨m, hm⟩ : ∃ m, 32 = l + 1 + m := ⟨32 - (l + 1), by omega⟩
  rw [hm, List.range_add, List.range_succ, List.flatMap_append, List.flatMap_append]
  have h1 := (buildRow_spec hw (h l)).2.1
  rw [List.getD_append _ _ _ _ (by rw [List.length_append, hlen]; simp [h1]; omega),
    List.getD_append_right _ _ _ _ (by rw [hlen]; omega), hlen]
  simp

/-- Decoding a list of keys. -/
theorem decodeList_eq {V : Type} {dec1 : (Nat → Nat) → Nat → Except Err V}
    {dec32 : (Nat → Nat) → (Nat → Nat) → (Nat → V) → Except Err (Nat → V)} (dec : Row → V) {w S : Nat} (hw : w ≤ S) (hS : S < 2 ^ 62)
    (h1 : ∀ row d, dec1 row d = .ok (dec ⟨(List.range w).map row, d⟩))
    (h32 : ∀ rows dense v, ∃ u, dec32 rows dense v = .ok u ∧ ∀ l < 32,
      u l = dec ⟨(List.range w).map (fun j => rows (w * l + j)), dense l⟩)
    (avx2 : Bool) (hs : List Nat) (v0 : Nat → V) :
    decodeList dec1 dec32 avx2 w S hs v0 = .ok (hs.map (fun h => dec ⟨buildRow w S h, h⟩)) := by
  unfold decodeList
  rw [mapM_ok _ (fun c => (List.range 32).map (fun k => dec ⟨buildRow w S (hs.getD (32 * c + k) 0), hs.getD (32 * c + k) 0⟩))]
  · simp only [bind, Except.bind]
    rw [mapM_ok _ (fun h => dec ⟨buildRow w S h, h⟩)]
    · simp only
      congr 1
      have hsplit : hs = hs.take (hs.length / 32 * 32) ++ hs.drop (hs.length / 32 * 32) := (List.take_append_drop _ _).symm
      conv_rhs => rw [hsplit, List.map_append]
      congr 1
      have hgen : ∀ n, 32 * n ≤ hs.length → ((List.range n).map (fun c => (List.range 32).map (fun k =>
          dec ⟨buildRow w S (hs.getD (32 * c + k) 0), hs.getD (32 * c + k) 0⟩))).flatten =
          (hs.take (n * 32)).map (fun h => dec ⟨buildRow w S h, h⟩) := by
        intro n hn
        induction n with
        | zero => simp
        | succ n ih =>
          rw [List.range_succ (n := n), List.map_append, List.flatten_append, ih (by omega),
            show (n + 1) * 32 = n * 32 + 32 by omega, List.take_add, List.map_append]
          congr 1
          simp only [List.map_cons, List.map_nil, List.flatten_cons, List.flatten_nil, List.append_nil]
          apply List.ext_getElem
          · simp; omega
          · intro i h1 h2
            simp only [List.getElem_map, List.getElem_range, List.getElem_take, List.getElem_drop]
            simp at h1
            rw [List.getD_eq_getElem _ _ (by omega)]
            simp only [Nat.mul_comm 32 n]
      exact hgen _ (by omega)
    · intro h _
      rw [h1, row_getD hw]
  · intro c _
    obtain ⟨u, hu, hl⟩ := h32 (fun j => (buildRow32 avx2 w S (fun k => hs.getD (32 * c + k) 0)).getD j 0)
      (fun k => hs.getD (32 * c + k) 0) (fun k => v0 (32 * c + k))
    simp only [hu, bind, Except.bind]
    congr 1
    apply List.map_congr_left
    intro k hk
    rw [List.mem_range] at hk
    rw [hl k hk, row32_getD avx2 hw hS _ hk]

end Psi.Okvs
