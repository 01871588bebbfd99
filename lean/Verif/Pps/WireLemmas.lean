import Verif.Pps.TreeLemmas

/-! # Messages and sums of bits -/

namespace Psi.Pps

open Psi.Spiral (Res mapRes w64)

theorem bind_ok {α β : Type} (a : α) (f : α → Res β) : (Res.ok a).bind f = f a := rfl

/-! ### Bytes -/

theorem leBytes_length : ∀ c v, (leBytes c v).length = c
  | 0, _ => rfl
  | c + 1, v => by rw [leBytes, List.length_cons, leBytes_length]

theorem ofLe_leBytes : ∀ c v, v < 256 ^ c → ofLeBytes (leBytes c v) = v
  | 0, v, h => by simp at h; subst h; rfl
  | c + 1, v, h => by
    rw [leBytes, ofLeBytes, ofLe_leBytes c (v / 256) (by rw [pow_succ] at h; omega)]
    omega

theorem take_le {c v : Nat} (rest : List Nat) : (leBytes c v ++ rest).take c = leBytes c v :=
  List.take_left' (leBytes_length c v)

theorem drop_le {c v : Nat} (rest : List Nat) : (leBytes c v ++ rest).drop c = rest :=
  List.drop_left' (leBytes_length c v)

theorem readWords_ok (c : Nat) : ∀ (xs rest : List Nat), (∀ x ∈ xs, x < 256 ^ c) →
    readWords c xs.length (xs.flatMap (leBytes c) ++ rest) = .ok (xs, rest)
  | [], rest, _ => rfl
  | x :: xs, rest, h => by
    rw [List.length_cons, readWords, List.flatMap_cons, List.append_assoc, if_neg, drop_le, take_le,
      readWords_ok c xs rest fun y hy => h y (List.mem_cons_of_mem _ hy), ofLe_leBytes c x (h x (by simp))]
    · rfl
    · rw [List.length_append, leBytes_length]; omega

theorem keyBytes_length (k : Nat) : (keyBytes k).length = 16 := by
  rw [keyBytes, List.length_append, leBytes_length, leBytes_length]

theorem keyOf_keyBytes {k : Nat} (h : k < 2 ^ 128) : keyOfBytes (keyBytes k) = k := by
  have h1 : k / 2 ^ 64 < 2 ^ 64 := by rw [Nat.div_lt_iff_lt_mul (by decide), ← pow_add]; exact h
  have e1 : w64 (k / 2 ^ 64) = k / 2 ^ 64 := Nat.mod_eq_of_lt h1
  have e3 : k / 2 ^ 64 < 256 ^ 8 := by
    have : (256 : Nat) ^ 8 = 2 ^ 64 := by norm_num
    omega
  have e2 : w64 k < 256 ^ 8 := by unfold w64; exact Nat.mod_lt _ (by decide)
  rw [keyOfBytes, keyBytes, e1, take_le, drop_le, ofLe_leBytes 8 _ e3]
  rw [List.take_of_length_le (by rw [leBytes_length]), ofLe_leBytes 8 _ e2, w64]
  omega

theorem offline_round_trip {k : Nat} {deltas : List Nat} (hk : k < 2 ^ 128) (hs : deltas.Pairwise (· < ·))
    (hd : ∀ d ∈ deltas, d < 2 ^ 64) (hl : deltas.length < 2 ^ 64) :
    offlineOfBytes (offlineBytes k deltas) = .ok (k, deltas) := by
  have e : (2 : Nat) ^ 64 = 256 ^ 8 := by norm_num
  have h16 : (offlineBytes k deltas).drop 16 = leBytes 8 deltas.length ++ deltas.flatMap (leBytes 8) := by
    rw [offlineBytes, List.append_assoc, List.drop_left' (keyBytes_length k)]
  have h24 : (offlineBytes k deltas).drop 24 = deltas.flatMap (leBytes 8) := by
    have : (offlineBytes k deltas).drop 24 = ((offlineBytes k deltas).drop 16).drop 8 := by rw [List.drop_drop]
    rw [this, h16, drop_le]
  have h0 : (offlineBytes k deltas).take 16 = keyBytes k := by
    rw [offlineBytes, List.append_assoc, List.take_left' (keyBytes_length k)]
  rw [offlineOfBytes, if_neg, h24, h16, h0, take_le, ofLe_leBytes 8 _ (e ▸ hl), keyOf_keyBytes hk]
  · have := readWords_ok 8 deltas [] (by rw [← e]; exact hd)
    rw [List.append_nil] at this
    rw [this, bind_ok, foldl_setInsert_sorted hs]
  · rw [offlineBytes, List.length_append, List.length_append, keyBytes_length, leBytes_length]
    omega

theorem online_round_trip {sk : PuncKey} (hk : ∀ x ∈ sk.k, x < 2 ^ 128) (hl : sk.k.length < 2 ^ 64)
    (hp : sk.pos < 2 ^ 64) (hd : sk.delta < 2 ^ 64) : onlineOfBytes (onlineBytes sk) = .ok sk := by
  have e : (2 : Nat) ^ 64 = 256 ^ 8 := by norm_num
  have e16 : (2 : Nat) ^ 128 = 256 ^ 16 := by norm_num
  have h : onlineBytes sk = leBytes 8 sk.k.length ++ (sk.k.flatMap (leBytes 16) ++ (leBytes 8 sk.pos ++ leBytes 8 sk.delta)) := by
    rw [onlineBytes, List.append_assoc, List.append_assoc]
  rw [onlineOfBytes, if_neg, h, take_le, drop_le, ofLe_leBytes 8 _ (e ▸ hl),
    readWords_ok 16 sk.k _ (by rw [← e16]; exact hk), bind_ok]
  · dsimp only
    rw [if_neg, take_le, drop_le, List.take_of_length_le (by rw [leBytes_length]), ofLe_leBytes 8 _ (e ▸ hp),
      ofLe_leBytes 8 _ (e ▸ hd)]
    rw [List.length_append, leBytes_length, leBytes_length]
    omega
  · rw [h, List.length_append, leBytes_length]
    omega

theorem readKeys_ok : ∀ ck : List (Nat × Nat), (∀ c ∈ ck, c.1 < 2 ^ 128 ∧ c.2 < 2 ^ 64) →
    readKeys ck.length (ck.flatMap fun c => leBytes 16 c.1 ++ leBytes 8 c.2) = .ok ck
  | [], _ => rfl
  | c :: ck, h => by
    have e : (2 : Nat) ^ 64 = 256 ^ 8 := by norm_num
    have e16 : (2 : Nat) ^ 128 = 256 ^ 16 := by norm_num
    have hc := h c (by simp)
    have hd : ∀ rest, (leBytes 16 c.1 ++ (leBytes 8 c.2 ++ rest)).drop 24 = rest := by
      intro rest
      have : (leBytes 16 c.1 ++ (leBytes 8 c.2 ++ rest)).drop 24
          = ((leBytes 16 c.1 ++ (leBytes 8 c.2 ++ rest)).drop 16).drop 8 := by rw [List.drop_drop]
      rw [this, drop_le, drop_le]
    rw [List.length_cons, readKeys, List.flatMap_cons, List.append_assoc, if_neg, hd, take_le, drop_le, take_le,
      readKeys_ok ck fun y hy => h y (List.mem_cons_of_mem _ hy), ofLe_leBytes 16 _ (e16 ▸ hc.1),
      ofLe_leBytes 8 _ (e ▸ hc.2)]
    · rfl
    · rw [List.length_append, List.length_append, leBytes_length, leBytes_length]
      omega

theorem keys_round_trip {ck : List (Nat × Nat)} (h : ∀ c ∈ ck, c.1 < 2 ^ 128 ∧ c.2 < 2 ^ 64) (hl : ck.length < 2 ^ 64) :
    keysOfBytes (keysBytes ck) = .ok ck := by
  have e : (2 : Nat) ^ 64 = 256 ^ 8 := by norm_num
  rw [keysOfBytes, keysBytes, if_neg, take_le, drop_le, ofLe_leBytes 8 _ (e ▸ hl), readKeys_ok ck h]
  rw [List.length_append, leBytes_length]
  omega

theorem bits_round_trip (h : List Bool) : bitsOfText (bitsText h) = h := by
  rw [bitsOfText, bitsText, List.map_reverse, List.reverse_reverse, List.map_map]
  conv_rhs => rw [← List.map_id h]
  apply List.map_congr_left
  intro b _
  cases b <;> rfl

/-! ### Arithmetic -/

theorem moduleAdd_eq {a b n : Nat} (ha : a < n) (hb : b < n) (hn : n ≤ 2 ^ 63) : moduleAdd a b n = (a + b) % n := by
  have h : w64 (a + b) = a + b := Nat.mod_eq_of_lt (by omega)
  rw [moduleAdd, h]
  split_ifs with hc
  · rw [Nat.mod_eq_sub_mod hc, Nat.mod_eq_of_lt (by omega)]
  · rw [Nat.mod_eq_of_lt (by omega)]

theorem moduleSub_eq {a b n : Nat} (_ : a < n) (hb : b < n) (hn : n ≤ 2 ^ 63) :
    moduleSub a b n = if b ≤ a then a - b else a + n - b := by
  rw [moduleSub]
  split_ifs with hc
  · rfl
  · unfold w64
    have : a + n + 2 ^ 64 - b = a + n - b + 2 ^ 64 := by omega
    rw [this, Nat.add_mod_right, Nat.mod_eq_of_lt (by omega)]

theorem moduleSub_lt {a b n : Nat} (ha : a < n) (hb : b < n) (hn : n ≤ 2 ^ 63) : moduleSub a b n < n := by
  rw [moduleSub_eq ha hb hn]; split_ifs <;> omega

theorem moduleAdd_lt {a b n : Nat} (ha : a < n) (hb : b < n) (hn : n ≤ 2 ^ 63) : moduleAdd a b n < n := by
  rw [moduleAdd_eq ha hb hn]; exact Nat.mod_lt _ (by omega)

theorem moduleAdd_sub {a b n : Nat} (ha : a < n) (hb : b < n) (hn : n ≤ 2 ^ 63) : moduleAdd (moduleSub a b n) b n = a := by
  rw [moduleAdd_eq (moduleSub_lt ha hb hn) hb hn, moduleSub_eq ha hb hn]
  split_ifs with h
  · rw [Nat.sub_add_cancel h, Nat.mod_eq_of_lt ha]
  · rw [Nat.sub_add_cancel (by omega), Nat.add_mod_right, Nat.mod_eq_of_lt ha]

theorem moduleSub_add {a b n : Nat} (ha : a < n) (hb : b < n) (hn : n ≤ 2 ^ 63) : moduleSub (moduleAdd a b n) b n = a := by
  have hlt := moduleAdd_lt ha hb hn
  rw [moduleSub_eq hlt hb hn]
  rw [moduleAdd_eq ha hb hn] at hlt ⊢
  by_cases h : a + b < n
  · rw [Nat.mod_eq_of_lt h, if_pos (by omega)]; omega
  · rw [Nat.mod_eq_sub_mod (by omega), Nat.mod_eq_of_lt (by omega), if_neg (by omega)]; omega

theorem moduleAdd_inj {a a' b n : Nat} (ha : a < n) (ha' : a' < n) (hb : b < n) (hn : n ≤ 2 ^ 63)
    (h : moduleAdd a b n = moduleAdd a' b n) : a = a' := by
  rw [← moduleSub_add ha hb hn, h, moduleSub_add ha' hb hn]

theorem moduleSub_sub {i x n : Nat} (hi : i < n) (hx : x < n) (hn : n ≤ 2 ^ 63) :
    moduleSub i (moduleSub i x n) n = x := by
  have h := moduleSub_lt hi hx hn
  rw [moduleSub_eq hi h hn]
  rw [moduleSub_eq hi hx hn] at h ⊢
  split_ifs at h ⊢ <;> omega

theorem lemire_lt {v n : Nat} (hv : v < 2 ^ 128) (h0 : 0 < n) : lemire v n < n := by
  have h1 : v / 2 ^ 64 < 2 ^ 64 := by rw [Nat.div_lt_iff_lt_mul (by decide), ← pow_add]; exact hv
  have h2 : v / 2 ^ 64 * n < 2 ^ 64 * n := Nat.mul_lt_mul_of_pos_right h1 h0
  rw [lemire, w64]
  refine lt_of_le_of_lt (Nat.mod_le _ _) ?_
  rw [Nat.div_lt_iff_lt_mul (by decide)]
  refine lt_of_le_of_lt (Nat.mod_le _ _) ?_
  rw [mul_comm n]
  exact h2

theorem lemire64_lt {v n : Nat} (hv : v < 2 ^ 64) (h0 : 0 < n) : lemire64 v n < n := by
  have h2 : v * n < 2 ^ 64 * n := Nat.mul_lt_mul_of_pos_right hv h0
  rw [lemire64, w64]
  refine lt_of_le_of_lt (Nat.mod_le _ _) ?_
  rw [Nat.div_lt_iff_lt_mul (by decide)]
  refine lt_of_le_of_lt (Nat.mod_le _ _) ?_
  rw [mul_comm n]
  exact h2

/-! ### Sums of bits -/

/-- The sum of bits. -/
def xorAll (l : List Bool) : Bool := l.foldr (fun a b => a ^^ b) false

theorem xorAll_perm {l m : List Bool} (h : l.Perm m) : xorAll l = xorAll m := by
  induction h with
  | nil => rfl
  | cons a _ ih => simp only [xorAll, List.foldr_cons] at ih ⊢; rw [ih]
  | swap a b l => simp only [xorAll, List.foldr_cons]; cases a <;> cases b <;> simp
  | trans _ _ h1 h2 => rw [h1, h2]

/-- The bits of a database at the elements of a set, shifted, added up. -/
def sumOver (n : Nat) (bits : List Bool) (set : List Nat) (delta : Nat) : Bool :=
  xorAll (set.map fun x => bits.getD (moduleAdd x delta n) false)

theorem parity_fold (n : Nat) (bits : List Bool) (delta : Nat) : ∀ (set : List Nat) (r : Bool),
    (∀ x ∈ set, moduleAdd x delta n < bits.length) →
    set.foldl (fun acc x => Res.bind acc fun r => (bitAt bits (moduleAdd x delta n)).bind fun b => .ok (r ^^ b)) (Res.ok r)
      = Res.ok (r ^^ sumOver n bits set delta)
  | [], r, _ => by simp [sumOver, xorAll]
  | x :: set, r, h => by
    rw [List.foldl_cons, bind_ok, bitAt, if_pos (h x (by simp)), bind_ok,
      parity_fold n bits delta set _ fun y hy => h y (List.mem_cons_of_mem _ hy)]
    simp only [sumOver, xorAll, List.map_cons, List.foldr_cons, Bool.xor_assoc]

theorem parity_ok {n : Nat} {bits : List Bool} {set : List Nat} {delta : Nat}
    (h : ∀ x ∈ set, moduleAdd x delta n < bits.length) : parity n bits set delta = .ok (sumOver n bits set delta) := by
  rw [parity, parity_fold n bits delta set false h, Bool.false_xor]

/-- A set is one of its elements and the others. -/
theorem sumOver_split {n : Nat} {bits : List Bool} {set : List Nat} (hs : set.Pairwise (· < ·)) {x : Nat} (hx : x ∈ set)
    (delta : Nat) : sumOver n bits set delta
      = (bits.getD (moduleAdd x delta n) false ^^ sumOver n bits (set.filter fun y => y ≠ x) delta) := by
  have hn : set.Nodup := hs.imp fun h => ne_of_lt h
  have hp : set.Perm (x :: set.filter fun y => y ≠ x) := by
    have := List.perm_cons_erase hx
    rw [hn.erase_eq_filter] at this
    refine this.trans (List.Perm.cons _ (List.Perm.of_eq ?_))
    apply List.filter_congr
    intro y _
    by_cases h : y = x <;> simp [h]
  unfold sumOver
  rw [xorAll_perm (hp.map _), List.map_cons]
  rfl

theorem mapRes_of_ok {α β : Type} {f : α → Res β} {g : α → β} : ∀ {l : List α}, (∀ a ∈ l, f a = .ok (g a)) →
    mapRes f l = .ok (l.map g)
  | [], _ => rfl
  | a :: l, h => by
    rw [mapRes, h a (by simp), bind_ok, mapRes_of_ok fun b hb => h b (List.mem_cons_of_mem _ hb), bind_ok, List.map_cons]

section Bounds

variable (prg : Nat → Nat × Nat)

theorem node_lt (hprg : ∀ x, (prg x).1 < 2 ^ 128 ∧ (prg x).2 < 2 ^ 128) {k : Nat} (hk : k < 2 ^ 128) :
    ∀ d j, node prg k d j < 2 ^ 128
  | 0, _ => hk
  | d + 1, j => by
    rw [node]
    split_ifs
    · exact (hprg _).1
    · exact (hprg _).2

theorem element_lt (hprg : ∀ x, (prg x).1 < 2 ^ 128 ∧ (prg x).2 < 2 ^ 128) {n s k : Nat} (hk : k < 2 ^ 128) (h0 : 0 < n)
    (i : Nat) : element prg n s k i < n := lemire_lt (node_lt prg hprg hk _ _) h0

end Bounds

end Psi.Pps
