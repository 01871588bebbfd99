import Verif.DkPir.KeyFileModel
import Verif.DkPir.Props

/-!
# C128: the key file of DK-PIR
-/

namespace Psi.DkPir

open Psi.Spiral (Res)

/-! ### Numbers -/

theorem varint_ne_nil (n : Nat) : varint n ≠ [] := by
  rw [varint]
  split <;> simp

theorem readVarint_varint : ∀ (k n : Nat) (rest : List Nat), n < 128 ^ (k + 1) →
    readVarint (k + 1) (varint n ++ rest) = some (n, rest)
  | k, n, rest, h => by
    rw [varint]
    split
    · next hn => simp [readVarint, hn]
    · next hn =>
      cases k with
      | zero => simp at h; omega
      | succ k =>
        have h' : n / 128 < 128 ^ (k + 1) := by
          rw [Nat.div_lt_iff_lt_mul (by norm_num)]
          rwa [pow_succ] at h
        rw [List.cons_append, readVarint, if_neg (by omega), readVarint_varint k (n / 128) rest h']
        simp only [Option.map_some, Option.some.injEq, Prod.mk.injEq, and_true]
        omega

theorem readVarint_cut : ∀ (k n j : Nat), j < (varint n).length → readVarint k ((varint n).take j) = none
  | 0, n, j, _ => by simp [readVarint]
  | k + 1, n, 0, _ => by simp [readVarint]
  | k + 1, n, j + 1, h => by
    rw [varint] at h ⊢
    split
    · next hn => rw [if_pos hn] at h; simp at h
    · next hn =>
      rw [if_neg hn] at h
      rw [List.take_succ_cons, readVarint, if_neg (by omega), readVarint_cut k (n / 128) j (by simpa using h)]
      rfl

theorem varint_length : ∀ (k n : Nat), n < 128 ^ (k + 1) → (varint n).length ≤ k + 1
  | k, n, h => by
    rw [varint]
    split
    · simp
    · next hn =>
      cases k with
      | zero => simp at h; omega
      | succ k =>
        have h' : n / 128 < 128 ^ (k + 1) := by
          rw [Nat.div_lt_iff_lt_mul (by norm_num)]
          rwa [pow_succ] at h
        have := varint_length k (n / 128) h'
        simpa using this

theorem readPacked_packed : ∀ (vs : List Nat) (k : Nat), (packed vs).length ≤ k → (∀ v ∈ vs, v < 2 ^ 64) →
    readPacked k (packed vs) = some vs
  | [], k, _, _ => by cases k <;> rfl
  | v :: vs, k, hk, hv => by
    have e : packed (v :: vs) = varint v ++ packed vs := by simp [packed]
    have hpos := List.length_pos_iff.2 (varint_ne_nil v)
    rw [e, List.length_append] at hk
    obtain ⟨k, rfl⟩ : ∃ k', k = k' + 1 := ⟨k - 1, by omega⟩
    obtain ⟨x, b, hx⟩ : ∃ x b, packed (v :: vs) = x :: b := List.exists_cons_of_ne_nil (by
      rw [e]; simp [varint_ne_nil])
    have hv0 := hv v (by simp)
    rw [hx, readPacked.eq_3 _ _ (by simp), ← hx, e, readVarint_varint 9 v _ (lt_trans hv0 (by norm_num))]
    simp only [Option.bind_some]
    rw [readPacked_packed vs k (by omega) fun w hw => hv w (by simp [hw]), Nat.mod_eq_of_lt hv0]
    rfl

/-! ### Fields -/

theorem readBlock_ok (d rest : List Nat) (h : d.length ≤ 2 ^ 31 - 1 - 16) :
    readBlock (varint d.length ++ (d ++ rest)) = some (d, rest) := by
  unfold readBlock
  rw [readVarint_varint 4 _ _ (by omega)]
  simp only [Option.bind_some]
  rw [if_pos ⟨h, by simp⟩]
  simp

theorem readBlock_cut (d : List Nat) (j : Nat) (h : d.length ≤ 2 ^ 31 - 1 - 16) (hj : j < (varint d.length ++ d).length) :
    readBlock ((varint d.length ++ d).take j) = none := by
  unfold readBlock
  by_cases h1 : j < (varint d.length).length
  · rw [List.take_append_of_le_length (by omega), readVarint_cut 5 _ _ h1]
    rfl
  · rw [List.take_append, List.take_of_length_le (by omega), readVarint_varint 4 _ _ (by omega)]
    simp only [Option.bind_some]
    rw [if_neg]
    rw [List.length_append] at hj
    rw [List.length_take]
    omega

theorem tag_ten (b : List Nat) : readVarint 5 (10 :: b) = some (10, b) := rfl

theorem tag_eighteen (b : List Nat) : readVarint 5 (18 :: b) = some (18, b) := rfl

theorem packed_short {poly : List Nat} (hp : poly.length = 2) (hv : ∀ v ∈ poly, v < 2 ^ 64) :
    (packed poly).length ≤ 20 := by
  obtain ⟨a, b, rfl⟩ := List.length_eq_two.1 hp
  have ha := varint_length 9 a (lt_trans (hv a (by simp)) (by norm_num))
  have hb := varint_length 9 b (lt_trans (hv b (by simp)) (by norm_num))
  simp [packed]
  omega

theorem readField_poly {poly : List Nat} (hp : poly.length = 2) (hv : ∀ v ∈ poly, v < 2 ^ 64) (m : KeyProto)
    (rest : List Nat) :
    readField m (polyField poly ++ rest) = some ({ m with polynomial := m.polynomial ++ poly }, rest) := by
  have hne : poly ≠ [] := by rintro rfl; simp at hp
  have hs := packed_short hp hv
  unfold readField polyField
  rw [if_neg hne, List.cons_append, List.cons_append, tag_ten, List.append_assoc]
  simp only [Option.bind_some]
  rw [if_pos (by norm_num), readBlock_ok _ _ (by omega)]
  simp only [Option.bind_some]
  rw [readPacked_packed poly _ le_rfl hv]
  rfl

theorem readField_key {key : List Nat} (hk : key ≠ []) (hl : key.length ≤ 2 ^ 31 - 1 - 16) (m : KeyProto)
    (rest : List Nat) : readField m (keyField key ++ rest) = some ({ m with secretKey := key }, rest) := by
  unfold readField keyField
  rw [if_neg hk, List.cons_append, List.cons_append, tag_eighteen, List.append_assoc]
  simp only [Option.bind_some]
  rw [if_neg (by norm_num), if_neg (by norm_num), if_pos (by norm_num), readBlock_ok _ _ hl]
  rfl

theorem polyField_ne {poly : List Nat} (hp : poly.length = 2) : polyField poly ≠ [] := by
  have hne : poly ≠ [] := by rintro rfl; simp at hp
  simp [polyField, hne]

theorem readProto_step (k : Nat) (m : KeyProto) {b : List Nat} (hb : b ≠ []) :
    readProto (k + 1) m b = (readField m b).bind fun r => readProto k r.1 r.2 := by
  obtain ⟨x, b, rfl⟩ := List.exists_cons_of_ne_nil hb
  rfl

theorem readProto_nil (k : Nat) (m : KeyProto) : readProto k m [] = some m := by cases k <;> rfl

theorem readProto_key {key : List Nat} (hl : key.length ≤ 2 ^ 31 - 1 - 16) (m : KeyProto) (hm : m.secretKey = [])
    (k : Nat) : readProto (k + 1) m (keyField key) = some { m with secretKey := key } := by
  by_cases hk : key = []
  · subst hk
    rw [keyField, if_pos rfl, readProto_nil]
    cases m
    simp_all
  · have hf : keyField key ≠ [] := by simp [keyField, hk]
    have := readField_key hk hl m []
    rw [List.append_nil] at this
    rw [readProto_step _ _ hf, this]
    simp only [Option.bind_some]
    rw [readProto_nil]

/-! ### The file -/

/-- **C128.**  What is read from the file is what was written to it. -/
theorem C128_round_trip {ser : Nat → List Nat} {des : List Nat → Res Nat} (hs : ∀ x, des (ser x) = .ok x)
    {poly : List Nat} (hp : poly.length = 2) (hv : ∀ v ∈ poly, v < 2 ^ 64) {x : Nat}
    (hl : (ser x).length ≤ 2 ^ 31 - 1 - 16) :
    (saveKey ser poly x).bind (loadKey des) = .ok (poly, x) := by
  unfold saveKey
  rw [if_neg (by omega)]
  show loadKey des _ = _
  unfold loadKey
  have hf := polyField_ne hp
  have hpos : 2 ≤ (polyField poly).length := by
    have hne : poly ≠ [] := by rintro rfl; simp at hp
    have := List.length_pos_iff.2 (varint_ne_nil (packed poly).length)
    rw [polyField, if_neg hne]
    simp only [List.cons_append, List.length_cons, List.length_append]
    omega
  obtain ⟨k, hk⟩ : ∃ k, (polyField poly ++ keyField (ser x)).length = k + 2 :=
    ⟨(polyField poly ++ keyField (ser x)).length - 2, by rw [List.length_append]; omega⟩
  rw [hk, readProto_step _ _ (by simp [hf]), readField_poly hp hv]
  simp only [Option.bind_some]
  rw [readProto_key hl _ rfl]
  simp [hp, hs, Res.bind]

/-- **C128.**  A file that was cut is refused, with one exception: cut between the two fields it is read with no
key, and it is left to the library for big numbers to refuse that. -/
theorem C128_cut_partial {ser : Nat → List Nat} {des : List Nat → Res Nat} {poly : List Nat} (hv : ∀ v ∈ poly, v < 2 ^ 64)
    {x : Nat} (hx : ser x ≠ []) (hl : (ser x).length ≤ 2 ^ 31 - 1 - 16) {file : List Nat}
    (hfile : saveKey ser poly x = .ok file) {j : Nat} (hj : j < file.length) :
    loadKey des (file.take j) =
      if j = (polyField poly).length then (des []).bind fun y => .ok (poly, y) else .throws := by
  unfold saveKey at hfile
  split at hfile
  · cases hfile
  · next hp =>
    rw [not_not] at hp
    have hne : poly ≠ [] := by rintro rfl; simp at hp
    have hs := packed_short hp hv
    obtain rfl : polyField poly ++ keyField (ser x) = file := by cases hfile; rfl
    have hf := polyField_ne hp
    have hfl := List.length_pos_iff.2 hf
    unfold loadKey
    rcases Nat.lt_trichotomy j (polyField poly).length with h | h | h
    · rw [if_neg (by omega), List.take_append_of_le_length (by omega)]
      cases j with
      | zero => simp [readProto]
      | succ j =>
        have e : (polyField poly).take (j + 1) = 10 :: (varint (packed poly).length ++ packed poly).take j := by
          rw [polyField, if_neg hne, List.cons_append, List.take_succ_cons]
        have hlen : ((polyField poly).take (j + 1)).length = j + 1 := by rw [List.length_take]; omega
        rw [hlen, readProto_step _ _ (by rw [e]; simp), e]
        have : readField {} (10 :: (varint (packed poly).length ++ packed poly).take j) = none := by
          unfold readField
          rw [tag_ten]
          simp only [Option.bind_some]
          rw [if_pos (by norm_num), readBlock_cut _ _ (by omega)]
          · rfl
          · rw [polyField, if_neg hne] at h
            simpa using h
        rw [this]
        rfl
    · subst h
      rw [if_pos rfl, List.take_left']
      · obtain ⟨k, hk⟩ : ∃ k, (polyField poly).length = k + 1 := ⟨(polyField poly).length - 1, by omega⟩
        have := readField_poly hp hv {} []
        rw [List.append_nil] at this
        rw [hk, readProto_step _ _ hf, this]
        simp only [Option.bind_some]
        rw [readProto_nil]
        simp [hp]
      · rfl
    · rw [if_neg (by omega), List.take_append, List.take_of_length_le (by omega)]
      obtain ⟨i, hi⟩ : ∃ i, j - (polyField poly).length = i + 1 := ⟨j - (polyField poly).length - 1, by omega⟩
      rw [hi]
      have e : (keyField (ser x)).take (i + 1) = 18 :: (varint (ser x).length ++ ser x).take i := by
        rw [keyField, if_neg hx, List.cons_append, List.take_succ_cons]
      rw [e]
      obtain ⟨k, hk⟩ : ∃ k, (polyField poly ++ 18 :: (varint (ser x).length ++ ser x).take i).length = k + 2 :=
        ⟨(polyField poly ++ 18 :: (varint (ser x).length ++ ser x).take i).length - 2, by
          rw [List.length_append, List.length_cons]; omega⟩
      rw [hk, readProto_step _ _ (by simp), readField_poly hp hv]
      simp only [Option.bind_some]
      rw [readProto_step _ _ (by simp)]
      have hnone : ∀ m : KeyProto, readField m (18 :: (varint (ser x).length ++ ser x).take i) = none := by
        intro m
        unfold readField
        rw [tag_eighteen]
        simp only [Option.bind_some]
        rw [if_neg (by norm_num), if_neg (by norm_num), if_pos (by norm_num), readBlock_cut _ _ hl]
        · rfl
        · rw [List.length_append, keyField, if_neg hx, List.cons_append, List.length_cons] at hj
          omega
      rw [hnone]
      rfl

/-- **C128.**  Two key files in one are refused. -/
theorem C128_two_files {ser : Nat → List Nat} {des : List Nat → Res Nat} {p p' : List Nat} (hv : ∀ v ∈ p, v < 2 ^ 64)
    (hv' : ∀ v ∈ p', v < 2 ^ 64) {x x' : Nat} (hx : ser x ≠ []) (hl : (ser x).length ≤ 2 ^ 31 - 1 - 16)
    (hl' : (ser x').length ≤ 2 ^ 31 - 1 - 16) {f f' : List Nat} (hf : saveKey ser p x = .ok f)
    (hf' : saveKey ser p' x' = .ok f') : loadKey des (f ++ f') = .throws := by
  unfold saveKey at hf hf'
  split at hf
  · cases hf
  · next hp =>
    split at hf'
    · cases hf'
    · next hp' =>
      rw [not_not] at hp hp'
      obtain rfl : polyField p ++ keyField (ser x) = f := by cases hf; rfl
      obtain rfl : polyField p' ++ keyField (ser x') = f' := by cases hf'; rfl
      have h1 := List.length_pos_iff.2 (polyField_ne hp)
      have h2 := List.length_pos_iff.2 (polyField_ne hp')
      have hkf : keyField (ser x) ≠ [] := by simp [keyField, hx]
      have h3 : 2 ≤ (keyField (ser x)).length := by
        have := List.length_pos_iff.2 (varint_ne_nil (ser x).length)
        rw [keyField, if_neg hx]
        simp only [List.cons_append, List.length_cons, List.length_append]
        omega
      unfold loadKey
      obtain ⟨k, hk⟩ : ∃ k, (polyField p ++ keyField (ser x) ++ (polyField p' ++ keyField (ser x'))).length = k + 4 :=
        ⟨(polyField p ++ keyField (ser x) ++ (polyField p' ++ keyField (ser x'))).length - 4, by
          simp only [List.length_append]; omega⟩
      rw [hk, List.append_assoc, readProto_step _ _ (by simp [polyField_ne hp]), readField_poly hp hv]
      simp only [Option.bind_some]
      rw [readProto_step _ _ (by simp [hkf]), readField_key hx hl]
      simp only [Option.bind_some]
      rw [readProto_step _ _ (by simp [polyField_ne hp']), readField_poly hp' hv']
      simp only [Option.bind_some]
      by_cases hx' : ser x' = []
      · rw [hx', keyField, if_pos rfl, readProto_nil]
        simp [hp, hp']
      · have := readField_key hx' hl' { polynomial := ([] ++ p) ++ p', secretKey := ser x } []
        rw [List.append_nil] at this
        rw [readProto_step _ _ (by simp [keyField, hx']), this]
        simp only [Option.bind_some]
        rw [readProto_nil]
        simp [hp, hp']

/-! ### What it means for the check of the number of rows -/

section Group

variable {G : Type} [AddCommGroup G] [DecidableEq G]

/-- **C128.**  A sender that has read the file again checks as the one that wrote it. -/
theorem C128_same_checks {ser : Nat → List Nat} {des : List Nat → Res Nat} (hs : ∀ x, des (ser x) = .ok x)
    (S S0 : Secrets G) (ha : S.a < 2 ^ 64) (hb : S.b < 2 ^ 64) (hl : (ser S.x).length ≤ 2 ^ 31 - 1 - 16)
    (hg : S0.g = S.g) (n : Nat) (ct : G × G) (row : Nat) :
    ∃ S', ((saveKey ser [S.a, S.b] S.x).bind fun f => S0.load des f) = .ok S' ∧
      checkRowCount S' n ct row = checkRowCount S n ct row := by
  have h := C128_round_trip (ser := ser) (des := des) hs (poly := [S.a, S.b]) rfl (by
    intro v hv
    simp only [List.mem_cons, List.not_mem_nil, or_false] at hv
    omega) hl
  refine ⟨{ S0 with a := S.a, b := S.b, x := S.x }, ?_, ?_⟩
  · unfold saveKey at h ⊢
    rw [if_neg (by simp)] at h ⊢
    have h : loadKey des (polyField [S.a, S.b] ++ keyField (ser S.x)) = _ := h
    show Secrets.load S0 des _ = _
    unfold Secrets.load
    rw [h]
    rfl
  · unfold checkRowCount
    rw [hg]

/-- **C128.**  A sender that has read another key refuses the true number of rows, which the sender that wrote the file
accepts. -/
theorem C128_other_key_refuses (S : Secrets G) {p y r m n row : Nat} (hp : p.Prime) (hord : addOrderOf S.g = p)
    (hr : ¬ p ∣ r) (hxy : ¬ S.x ≡ y [MOD p]) (hm : m = poly2 S.a S.b row n) :
    checkRowCount S n (encrypt S m r) row = true ∧ checkRowCount { S with x := y } n (encrypt S m r) row = false := by
  constructor
  · subst hm
    exact checkRowCount_self S n row _ (encOf_encrypt S _ r)
  · unfold checkRowCount encrypt
    rw [decide_eq_false_iff_not]
    dsimp only
    rw [hm]
    intro h
    have h := add_left_cancel h
    rw [← mul_smul, ← mul_smul] at h
    have h : y * r ≡ r * S.x [MOD p] := by
      rw [← hord]
      exact nsmul_eq_nsmul_iff_modEq.1 h
    rw [Nat.mul_comm y r] at h
    exact hxy (Nat.ModEq.cancel_left_of_coprime ((Nat.Prime.coprime_iff_not_dvd hp).2 hr) h).symm

end Group

/-! ### Examples -/

/-- A big number as its bytes, lowest first, for the examples. -/
def exSer (x : Nat) : List Nat := [1, x]

def exDes : List Nat → Res Nat
  | [1, x] => .ok x
  | [] => .ok 0
  | _ => .throws

example : saveKey exSer [300, 5] 77 = .ok [10, 3, 172, 2, 5, 18, 2, 1, 77] := by decide +kernel

example := C128_round_trip (ser := exSer) (des := exDes) (fun _ => rfl) (poly := [300, 2 ^ 64 - 1]) rfl (by decide) (x := 77)
  (by decide)

example : loadKey exDes [10, 3, 172, 2, 5] = .ok ([300, 5], 0) := by decide +kernel

example := C128_cut_partial (ser := exSer) (des := exDes) (poly := [300, 5]) (by decide) (x := 77) (by decide) (by decide)
  (file := [10, 3, 172, 2, 5, 18, 2, 1, 77]) (by decide +kernel) (j := 5) (by decide)

example := C128_two_files (ser := exSer) (des := exDes) (p := [300, 5]) (p' := [1, 2]) (by decide) (by decide) (x := 77)
  (x' := 8) (by decide) (by decide) (by decide) (f := [10, 3, 172, 2, 5, 18, 2, 1, 77]) (f' := [10, 2, 1, 2, 18, 2, 1, 8])
  (by decide +kernel) (by decide +kernel)

example := C128_same_checks (ser := exSer) (des := exDes) (fun _ => rfl) exSecrets { exSecrets with a := 0, b := 0, x := 0 }
  (by decide) (by decide) (by decide) rfl 2 (3, 4) 5

example := C128_other_key_refuses (G := ZMod 7) ⟨1, 3, 2, 5, 0⟩ (p := 7) (y := 0) (r := 2) (m := 2 * 4 + 5 * 2) (n := 2)
  (row := 4) (by decide) (ZMod.addOrderOf_one 7) (by decide) (by decide) rfl

end Psi.DkPir
