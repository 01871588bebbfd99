import Verif.Ecdh.Wire

/-! # Lemmas about wire batches -/

namespace Psi.Ecdh

theorem flatten_length (L : Nat) (items : List Bytes) (h : ∀ x ∈ items, x.length = L) :
    items.flatten.length = items.length * L := by
  induction items with
  | nil => simp
  | cons x xs ih =>
    rw [List.flatten_cons, List.length_append, ih (fun y hy => h y (List.mem_cons_of_mem _ hy)),
      h x (List.mem_cons_self ..), List.length_cons, Nat.add_mul, Nat.one_mul, Nat.add_comm]

theorem chop_flatten (L : Nat) (items : List Bytes) (h : ∀ x ∈ items, x.length = L) :
    chop items.length L items.flatten = items := by
  induction items with
  | nil => rfl
  | cons x xs ih =>
    have hx := h x (List.mem_cons_self ..)
    unfold chop at ih ⊢
    rw [List.length_cons, List.range_succ_eq_map, List.map_cons, List.map_map, List.flatten_cons]
    congr 1
    · simp [← hx]
    · refine Eq.trans ?_ (ih (fun y hy => h y (List.mem_cons_of_mem _ hy)))
      apply List.map_congr_left
      intro i _
      simp only [Function.comp_apply, Nat.succ_eq_add_one]
      rw [show (i + 1) * L = x.length + i * L by rw [hx, Nat.add_mul]; omega, ← List.drop_drop,
        List.drop_left]

theorem decode_encode (L : Nat) (items : List Bytes) (dup : List (Nat × Nat)) (i j : Nat)
    (hl : items.length < 2 ^ 32) (h : ∀ x ∈ items, x.length = L) (hij : i % 2 ^ 32 = j % 2 ^ 32) :
    decode j (encode items dup i) = some (items, if items.isEmpty then [] else dup) := by
  unfold decode encode
  simp only [hij, if_true, Nat.mod_eq_of_lt hl]
  cases items with
  | nil => simp
  | cons x xs =>
    have hp : 0 < (x :: xs).length := by simp
    rw [if_pos hp, flatten_length L _ h, Nat.mul_div_cancel_left _ hp, chop_flatten L _ h]

theorem decode_wrong (items : List Bytes) (dup : List (Nat × Nat)) (i j : Nat)
    (hij : i % 2 ^ 32 ≠ j % 2 ^ 32) : decode j (encode items dup i) = none := by
  unfold decode encode
  simp [hij]

end Psi.Ecdh
