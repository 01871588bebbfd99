import Verif.SealPir.ComposeLemmas

/-!
# SealPIR: query, answer and decoding over several dimensions
-/

namespace Psi.SealPir

open Psi.Spiral (Rq Res w64 uintNum mapRes tauQ red toA A xx)

/-- The result meets `Q`, or SEAL refused a transparent ciphertext. -/
def Out (S : Seal) {α : Type} (x : Res α) (Q : α → Prop) : Prop :=
  (∃ a, x = .ok a ∧ Q a) ∨ (S.throwOnTransparent = true ∧ x = .throws)

theorem Out.ok {S : Seal} {α : Type} {a : α} {Q : α → Prop} (h : Q a) : Out S (.ok a) Q := Or.inl ⟨a, rfl, h⟩

theorem Out.bind {S : Seal} {α β : Type} {x : Res α} {Q : α → Prop} {f : α → Res β} {R : β → Prop} (h : Out S x Q)
    (hf : ∀ a, Q a → Out S (f a) R) : Out S (x.bind f) R := by
  rcases h with ⟨a, rfl, ha⟩ | ⟨h1, rfl⟩
  · exact hf a ha
  · exact Or.inr ⟨h1, rfl⟩

theorem Out.mapRes {S : Seal} {α β : Type} {f : α → Res β} : ∀ (l : List α) (Q : Nat → β → Prop),
    (∀ i (h : i < l.length), Out S (f l[i]) (Q i)) →
    Out S (mapRes f l) fun ys => ys.length = l.length ∧ ∀ i (h : i < ys.length), Q i ys[i]
  | [], _, _ => Or.inl ⟨[], rfl, rfl, fun i h => absurd h (by simp)⟩
  | x :: l, Q, h => by
    have h0 := h 0 (by simp)
    have ih := Out.mapRes l (fun i => Q (i + 1)) fun i hi => h (i + 1) (by simpa using hi)
    unfold Psi.Spiral.mapRes
    refine Out.bind h0 fun y hy => Out.bind ih fun ys hys => Out.ok ⟨by simp [hys.1], fun i hi => ?_⟩
    cases i with
    | zero => exact hy
    | succ i => exact hys.2 i (by simpa using hi)

theorem Out.mono {S : Seal} {α : Type} {x : Res α} {Q R : α → Prop} (h : Out S x Q) (hf : ∀ a, Q a → R a) : Out S x R := by
  rcases h with ⟨a, rfl, ha⟩ | h
  · exact Or.inl ⟨a, rfl, hf a ha⟩
  · exact Or.inr h

/-! ### Indices -/

/-- The place in a table of given dimensions. -/
def flatIndex : List Nat → List Nat → Nat
  | _ :: ds, i :: is => i * ds.prod + flatIndex ds is
  | _, _ => 0

theorem intProd_aux : ∀ (dims : List Nat) (a : Nat), (∀ d ∈ dims, 0 < d) → 0 < a → a * dims.prod < 2 ^ 31 →
    dims.foldl (fun a x => signExtend (w64 (a * x))) a = a * dims.prod
  | [], a, _, _, _ => by simp
  | d :: ds, a, hd, ha, h => by
    rw [List.foldl_cons]
    rw [List.prod_cons, ← Nat.mul_assoc] at h ⊢
    have hd0 := hd d (by simp)
    have hp : 0 < ds.prod := List.prod_pos fun x hx => hd x (by simp [hx])
    have hlt : a * d < 2 ^ 31 := lt_of_le_of_lt (Nat.le_mul_of_pos_right _ hp) h
    have he : signExtend (w64 (a * d)) = a * d := by
      have h1 : w64 (a * d) = a * d := Nat.mod_eq_of_lt (by omega)
      unfold signExtend
      rw [h1, Nat.mod_eq_of_lt (a := a * d) (b := 2 ^ 32) (by omega), if_pos hlt]
    rw [he]
    exact intProd_aux ds (a * d) (fun x hx => hd x (by simp [hx])) (Nat.mul_pos ha hd0) h

theorem intProd_eq {dims : List Nat} (hd : ∀ d ∈ dims, 0 < d) (h : dims.prod < 2 ^ 31) : intProd dims = dims.prod := by
  have := intProd_aux dims 1 hd (by omega) (by omega)
  rw [Nat.one_mul] at this
  exact this

/-- The indices stay in their dimensions. -/
def InDims : List Nat → List Nat → Prop
  | [], [] => True
  | d :: ds, i :: is => i < d ∧ InDims ds is
  | _, _ => False

theorem indicesLoop_ok : ∀ (dims : List Nat) (j : Nat), (∀ d ∈ dims, 0 < d) → j < dims.prod →
    ∃ is, indicesLoop dims dims.prod j = .ok is ∧ InDims dims is ∧ flatIndex dims is = j
  | [], j, _, h => ⟨[], rfl, trivial, by
      rw [List.prod_nil] at h
      show 0 = j
      omega⟩
  | d :: ds, j, hd, h => by
    have hd0 := hd d (by simp)
    have hp : 0 < ds.prod := List.prod_pos fun x hx => hd x (by simp [hx])
    obtain ⟨is, h1, h2, h3⟩ := indicesLoop_ok ds (j % ds.prod) (fun x hx => hd x (by simp [hx])) (Nat.mod_lt _ hp)
    rw [List.prod_cons] at h
    refine ⟨j / ds.prod :: is, ?_, ⟨?_, h2⟩, ?_⟩
    · unfold indicesLoop
      rw [List.prod_cons, Nat.mul_div_cancel_left _ hd0]
      simp only
      rw [if_neg (by omega), h1]
      rfl
    · rw [Nat.div_lt_iff_lt_mul hp]
      exact h
    · show j / ds.prod * ds.prod + flatIndex ds is = j
      rw [h3]
      exact Nat.div_add_mod' _ _

theorem computeIndices_ok {dims : List Nat} {j : Nat} (hd : ∀ d ∈ dims, 0 < d) (h31 : dims.prod < 2 ^ 31)
    (hj : j < dims.prod) :
    ∃ is, computeIndices j dims = .ok is ∧ InDims dims is ∧ flatIndex dims is = j := by
  unfold computeIndices
  rw [intProd_eq hd h31]
  exact indicesLoop_ok dims j hd hj

theorem InDims.length : ∀ {dims is : List Nat}, InDims dims is → is.length = dims.length
  | [], [], _ => rfl
  | _ :: _, _ :: _, h => by simp [InDims.length h.2]
  | [], _ :: _, h => h.elim
  | _ :: _, [], h => h.elim

theorem InDims.get : ∀ {dims is : List Nat}, InDims dims is → ∀ i, i < dims.length → is.getD i 0 < dims.getD i 0
  | d :: ds, j :: is, h, 0, _ => h.1
  | d :: ds, j :: is, h, i + 1, hi => by
    rw [List.getD_cons_succ, List.getD_cons_succ]
    exact InDims.get h.2 i (by simpa using hi)
  | [], _, _, i, hi => absurd hi (by simp)
  | _ :: _, [], h, _, _ => h.elim

theorem flatIndex_lt : ∀ {dims is : List Nat}, InDims dims is → flatIndex dims is < dims.prod
  | [], [], _ => by simp [flatIndex]
  | d :: ds, i :: is, h => by
    have := flatIndex_lt h.2
    have h1 : (i + 1) * ds.prod ≤ d * ds.prod := Nat.mul_le_mul_right _ h.1
    rw [Nat.succ_mul] at h1
    rw [List.prod_cons]
    show i * ds.prod + flatIndex ds is < _
    omega
  | [], _ :: _, h => h.elim
  | _ :: _, [], h => h.elim

/-! ### The query for one dimension -/

theorem invertMod_ok {m t : Nat} (hm : Nat.Coprime m t) (ht : 1 < t) :
    ∃ v, invertMod m t = .ok v ∧ v < t ∧ m * v % t = 1 := by
  unfold invertMod
  rw [if_pos hm]
  have h1 := Int.emod_nonneg (Nat.gcdA m t) (b := (t : ℤ)) (by omega)
  have h2 := Int.emod_lt_of_pos (Nat.gcdA m t) (b := (t : ℤ)) (by omega)
  refine ⟨_, rfl, by omega, ?_⟩
  have hb := Nat.gcd_eq_gcd_ab m t
  rw [hm] at hb
  have : ((m * (Nat.gcdA m t % (t : ℤ)).toNat : Nat) : ℤ) % t = 1 := by
    push_cast
    rw [Int.toNat_of_nonneg h1, Int.mul_emod, Int.emod_emod_of_dvd _ (dvd_refl _), ← Int.mul_emod]
    have : (m : ℤ) * Nat.gcdA m t = 1 + t * (-Nat.gcdB m t) := by
      have : ((1 : Nat) : ℤ) = 1 := rfl
      rw [this] at hb
      linear_combination -hb
    rw [this, Int.add_mul_emod_self_left]
    exact Int.emod_eq_of_lt (by omega) (by omega)
  exact_mod_cast this

section

variable {S : Seal} (H : Laws S)

theorem val_zero (L t : Nat) : val L t (fun _ => 0) = 0 := by
  unfold val
  have : (fun i : Nat => (((fun _ => 0 : Plain) i : Nat) : ℤ)) = fun _ => 0 := by funext i; simp
  rw [this, Psi.Spiral.toA_zero, map_zero]

theorem val_single {L t v r : Nat} (hr : r < 2 ^ L) :
    val L t (fun k => if k = r then v else 0) = (v : Rq L t) * xpow L t r := by
  unfold val xpow
  have : (fun i : Nat => ((if i = r then v else 0 : Nat) : ℤ)) = fun i => if i = r then (v : ℤ) else 0 := by
    funext i; split_ifs <;> simp
  rw [this, Psi.Spiral.toA_single L v hr, map_mul]
  simp

theorem natCast_eq {L t a b : Nat} (h : a % t = b % t) : ((a : Nat) : Rq L t) = ((b : Nat) : Rq L t) := by
  have ha : ((a : Nat) : Rq L t) = red L t ((a : Nat) : A L) := by rw [map_natCast]
  have hb : ((b : Nat) : Rq L t) = red L t ((b : Nat) : A L) := by rw [map_natCast]
  rw [ha, hb, Psi.Spiral.red_eq_iff]
  refine ⟨(((a / t : Nat) : ℤ) - ((b / t : Nat) : ℤ) : ℤ), ?_⟩
  have h1 := Nat.div_add_mod a t
  have h2 := Nat.div_add_mod b t
  have h3 : ((a : Nat) : ℤ) = (b : ℤ) + t * (((a / t : Nat) : ℤ) - ((b / t : Nat) : ℤ)) := by
    have e1 : ((a : Nat) : ℤ) = t * ((a / t : Nat) : ℤ) + ((a % t : Nat) : ℤ) := by exact_mod_cast h1.symm
    have e2 : ((b : Nat) : ℤ) = t * ((b / t : Nat) : ℤ) + ((b % t : Nat) : ℤ) := by exact_mod_cast h2.symm
    rw [h] at e1
    linear_combination e1 - e2
  have := congrArg (fun z : ℤ => (z : A L)) h3
  push_cast at this ⊢
  exact this

/-- The ciphertext `j` of a dimension: the chosen power of `X`, scaled, or zero. -/
theorem queryPlain_ok (hodd : S.t % 2 = 1) (h3 : 3 ≤ S.t) {ni index count j : Nat}
    (hr : j * S.n ≤ index → index < (j + 1) * S.n → index - j * S.n < totalOf S.n ni count j) :
    ∃ p, queryPlain S.n S.t ni index count j = .ok p ∧ (∀ k < S.n, p k < S.t) ∧
      ∃ (c0 : Nat) (r : Nat), val S.L S.t p = (c0 : Rq S.L S.t) * xpow S.L S.t r ∧
        (0 < totalOf S.n ni count j → r < totalOf S.n ni count j) ∧
        ∀ k < totalOf S.n ni count j, (if k = r then 2 ^ Nat.clog 2 (totalOf S.n ni count j) * (c0 : Rq S.L S.t) else 0) =
          if j * S.n + k = index then 1 else 0 := by
  unfold queryPlain
  by_cases h : j * S.n ≤ index ∧ index < (j + 1) * S.n
  · rw [if_pos h]
    have hcop : Nat.Coprime (2 ^ Nat.clog 2 (totalOf S.n ni count j)) S.t :=
      Nat.Coprime.pow_left _ (Nat.coprime_two_left.2 (Nat.odd_iff.2 hodd))
    obtain ⟨v, e1, e2, e3⟩ := invertMod_ok hcop (by omega)
    rw [e1]
    have hrn : index - j * S.n < 2 ^ S.L := by
      have := h.2
      rw [Nat.succ_mul] at this
      show _ < S.n
      omega
    refine ⟨_, rfl, fun k _ => ?_, v, index - j * S.n, val_single hrn, fun _ => hr h.1 h.2, fun k hk => ?_⟩
    · split_ifs <;> omega
    · by_cases hk2 : k = index - j * S.n
      · rw [if_pos hk2, if_pos (by omega)]
        have := natCast_eq (L := S.L) (t := S.t) (a := 2 ^ Nat.clog 2 (totalOf S.n ni count j) * v) (b := 1)
          (by rw [e3, Nat.mod_eq_of_lt (by omega)])
        push_cast at this
        exact this
      · rw [if_neg hk2, if_neg (by omega)]
  · rw [if_neg h]
    refine ⟨_, rfl, fun k _ => by omega, 0, 0, ?_, fun h => h, fun k hk => ?_⟩
    · rw [val_zero]; simp
    · have hne : ¬ j * S.n + k = index := by
        intro he
        have hkn : k < S.n := by
          unfold totalOf at hk
          split_ifs at hk with hc
          · exact lt_trans hk (Nat.mod_lt _ (n_pos S))
          · exact hk
        refine h ⟨by omega, ?_⟩
        rw [Nat.succ_mul]
        omega
      rw [if_neg hne]
      split_ifs <;> simp

theorem totalOf_last {n ni : Nat} (hn : 0 < n) (hi : 0 < ni) :
    0 < uintNum ni n ∧ (uintNum ni n - 1) * n + totalOf n ni (uintNum ni n) (uintNum ni n - 1) = ni := by
  obtain ⟨u1, u2⟩ := Psi.Spiral.uintNum_bounds ni hn
  have u2 := u2 hi
  generalize uintNum ni n = u at *
  have hu : 0 < u := by
    rcases Nat.eq_zero_or_pos u with h | h
    · rw [h] at u1; omega
    · exact h
  refine ⟨hu, ?_⟩
  obtain ⟨v, rfl⟩ : ∃ v, u = v + 1 := ⟨u - 1, by omega⟩
  rw [Nat.add_sub_cancel] at u2 ⊢
  rw [Nat.succ_mul] at u1
  unfold totalOf
  have hdm := Nat.div_add_mod ni n
  have hlt := Nat.mod_lt ni hn
  by_cases h0 : ni % n = 0
  · rw [if_neg (by omega)]
    have h1 : n ∣ ni := Nat.dvd_of_mod_eq_zero h0
    obtain ⟨w, rfl⟩ := h1
    have hw : w = v + 1 := by
      have a1 : v < w := by
        rw [Nat.mul_comm] at u2
        exact Nat.lt_of_mul_lt_mul_left u2
      have a2 : n * w ≤ n * (v + 1) := by rw [Nat.mul_comm n (v + 1), Nat.succ_mul]; exact u1
      have := Nat.le_of_mul_le_mul_left a2 hn
      omega
    rw [hw, Nat.mul_succ, Nat.mul_comm]
  · rw [if_pos ⟨by omega, h0⟩]
    have hv : ni / n = v := by
      have a1 : v ≤ ni / n := (Nat.le_div_iff_mul_le hn).2 u2.le
      have a2 : ni / n < v + 1 := by
        rw [Nat.div_lt_iff_lt_mul hn, Nat.succ_mul]
        rcases Nat.lt_or_ge ni (v * n + n) with h | h
        · exact h
        · exfalso
          have : ni = n * (v + 1) := by rw [Nat.mul_succ, Nat.mul_comm n v]; omega
          rw [this, Nat.mul_mod_right] at h0
          exact h0 rfl
      omega
    rw [hv, Nat.mul_comm] at hdm
    exact hdm

theorem totalOf_bounds {n ni : Nat} (hn : 0 < n) (hi : 0 < ni) {j : Nat} (hj : j < uintNum ni n) :
    0 < totalOf n ni (uintNum ni n) j ∧ totalOf n ni (uintNum ni n) j ≤ min ni n := by
  obtain ⟨h1, h2⟩ := totalOf_last hn hi
  have hlt := Nat.mod_lt ni hn
  by_cases hl : j = uintNum ni n - 1
  · rw [← hl] at h2
    constructor
    · unfold totalOf
      split_ifs <;> omega
    · have : totalOf n ni (uintNum ni n) j ≤ n := by
        unfold totalOf
        split_ifs <;> omega
      omega
  · have ht : totalOf n ni (uintNum ni n) j = n := by
      unfold totalOf
      rw [if_neg (by omega)]
    rw [ht]
    have : 1 * n ≤ (uintNum ni n - 1) * n := Nat.mul_le_mul_right _ (by omega)
    omega

theorem flatten_blocks {α : Type} (n : Nat) (P : Nat → α → Prop) : ∀ (parts : List (List α)) (base : Nat),
    (∀ j (h : j < parts.length), j + 1 < parts.length → (parts[j]).length = n) →
    (∀ j (h : j < parts.length) k (hk : k < (parts[j]).length), P (base + (j * n + k)) (parts[j])[k]) →
    ∀ K (h : K < parts.flatten.length), P (base + K) parts.flatten[K]
  | [], _, _, _, K, h => absurd h (by simp)
  | x :: rest, base, h1, h2, K, hK => by
    have hfl : (x :: rest).flatten = x ++ rest.flatten := rfl
    by_cases hx : K < x.length
    · have := h2 0 (by simp) K hx
      rw [Nat.zero_mul, Nat.zero_add] at this
      rw [List.getElem_of_eq hfl hK, List.getElem_append_left hx]
      exact this
    · have hK' : K < (x ++ rest.flatten).length := by rw [← hfl]; exact hK
      rw [List.length_append] at hK'
      have hne : rest ≠ [] := by
        rintro rfl
        simp at hK'
        omega
      have hlen : x.length = n := h1 0 (by simp) (by
        have := List.length_pos_iff.2 hne
        simp only [List.length_cons]
        omega)
      have ih := flatten_blocks n P rest (base + n) (fun j hj hj2 => h1 (j + 1) (by simpa using hj) (by simpa using hj2))
        (fun j hj k hk => by
          have := h2 (j + 1) (by simpa using hj) k hk
          rw [Nat.succ_mul] at this
          rw [show base + n + (j * n + k) = base + (j * n + n + k) by omega]
          exact this) (K - n) (by omega)
      rw [show base + n + (K - n) = base + K by omega] at ih
      rw [List.getElem_of_eq hfl hK, List.getElem_append_right (by omega)]
      simp only [hlen]
      exact ih

theorem flatten_blocks_length {α : Type} (n last : Nat) : ∀ (parts : List (List α)), parts ≠ [] →
    (∀ j (h : j < parts.length), j + 1 < parts.length → (parts[j]).length = n) →
    (∀ (h : parts.length - 1 < parts.length), (parts[parts.length - 1]).length = last) →
    parts.flatten.length = (parts.length - 1) * n + last
  | [], h, _, _ => absurd rfl h
  | [x], _, _, h => by
    have := h (by simp)
    simp at this
    simp [this]
  | x :: y :: rest, _, h1, h2 => by
    have ih := flatten_blocks_length n last (y :: rest) (by simp)
      (fun j hj hj2 => h1 (j + 1) (by simpa using hj) (by simpa using hj2)) (fun h => by simpa using h2 (by simp))
    have hx : x.length = n := h1 0 (by simp) (by simp)
    have hfl : (x :: y :: rest).flatten = x ++ (y :: rest).flatten := rfl
    rw [hfl, List.length_append, hx, ih]
    simp only [List.length_cons, Nat.add_sub_cancel]
    rw [Nat.succ_mul]
    omega

/-- The query for one dimension and its expansion on the server: one ciphertext of one, all others of zero. -/
theorem dimension_ok (hodd : S.t % 2 = 1) (h3 : 3 ≤ S.t) (coin : Nat → S.Coin) {ni index : Nat} (hi : index < ni) :
    ∃ q ex, queryDim S coin ni index = .ok q ∧ expandAll S (galoisElts S) ni q = .ok ex ∧ ex.length = ni ∧
      ∀ k (h : k < ex.length), H.Holds (expNoise H.fresh H.ks (Nat.clog 2 (min ni S.n))) ex[k]
        (if k = index then 1 else 0) := by
  have hn := n_pos S
  obtain ⟨hu, hlast⟩ := totalOf_last hn (ni := ni) (by omega)
  have hlastr : ∀ j, j * S.n ≤ index → index < (j + 1) * S.n → j < uintNum ni S.n →
      index - j * S.n < totalOf S.n ni (uintNum ni S.n) j := by
    intro j h1 h2 h4
    rw [Nat.succ_mul] at h2
    by_cases hl : j = uintNum ni S.n - 1
    · rw [← hl] at hlast
      omega
    · have ht : totalOf S.n ni (uintNum ni S.n) j = S.n := by unfold totalOf; rw [if_neg (by omega)]
      omega
  obtain ⟨q, g1, g2, g3⟩ := mapRes_forall
    (f := fun j => (queryPlain S.n S.t ni index (uintNum ni S.n) j).bind fun p => Res.ok (S.encrypt (coin j) p))
    (List.range (uintNum ni S.n)) (fun j c => ∃ (c0 r : Nat), H.Holds H.fresh c ((c0 : Rq S.L S.t) * xpow S.L S.t r) ∧
      r < totalOf S.n ni (uintNum ni S.n) j ∧
      ∀ k < totalOf S.n ni (uintNum ni S.n) j,
        (if k = r then 2 ^ Nat.clog 2 (totalOf S.n ni (uintNum ni S.n) j) * (c0 : Rq S.L S.t) else 0) =
          if j * S.n + k = index then 1 else 0) (fun j hj => by
      rw [List.length_range] at hj
      rw [List.getElem_range]
      obtain ⟨p, e1, e2, c0, r, e3, e4, e5⟩ := queryPlain_ok (S := S) hodd h3 (ni := ni) (index := index)
        (count := uintNum ni S.n) (j := j) (fun a b => hlastr j a b hj)
      refine ⟨S.encrypt (coin j) p, by rw [e1]; rfl, c0, r, ?_, e4 (totalOf_bounds hn (by omega) hj).1, e5⟩
      rw [← e3]
      exact H.encrypt_ok _ _ e2)
  rw [List.length_range] at g2
  obtain ⟨parts, p1, p2, p3⟩ := mapRes_forall
    (f := expandPart S (galoisElts S) ni q)
    (List.range q.length) (fun j (out : List S.Ct) => out.length = totalOf S.n ni (uintNum ni S.n) j ∧
      ∀ k (h : k < out.length), H.Holds (expNoise H.fresh H.ks (Nat.clog 2 (min ni S.n))) out[k]
        (if j * S.n + k = index then 1 else 0)) (fun j hj => by
      rw [List.length_range] at hj
      rw [List.getElem_range]
      unfold expandPart
      simp only [List.getElem?_eq_getElem hj]
      obtain ⟨c0, r, e1, e2, e3⟩ := g3 j hj
      obtain ⟨t1, t2⟩ := totalOf_bounds (n := S.n) (ni := ni) hn (by omega) (j := j) (by omega)
      obtain ⟨out, o1, o2, o3⟩ := expandQuery_ok H h3 (c0 := (c0 : Rq S.L S.t)) (fun g hg => map_natCast _ _) t1
        (by omega) e2 e1
      refine ⟨out, by rw [g2]; exact o1, o2, fun k hk => ?_⟩
      rw [← e3 k (by omega)]
      exact H.mono (o3 k hk) (expNoise_mono (Nat.clog_mono_right _ t2)))
  rw [List.length_range] at p2
  have hne : parts ≠ [] := by
    intro h
    rw [h] at p2
    simp at p2
    omega
  have hmid : ∀ j (h : j < parts.length), j + 1 < parts.length → (parts[j]).length = S.n := by
    intro j hj hj2
    rw [(p3 j hj).1]
    unfold totalOf
    rw [if_neg (by omega)]
  have hlen : parts.flatten.length = ni := by
    rw [flatten_blocks_length S.n _ parts hne hmid fun h => (p3 _ h).1, p2, g2]
    exact hlast
  refine ⟨q, parts.flatten, g1, ?_, hlen, fun k hk => ?_⟩
  · unfold expandAll
    rw [p1]
    show (if parts.flatten.length ≠ ni then Res.throws else Res.ok parts.flatten) = _
    rw [if_neg (by omega)]
  · have := flatten_blocks S.n (fun K c => H.Holds (expNoise H.fresh H.ks (Nat.clog 2 (min ni S.n))) c
      (if K = index then 1 else 0)) parts 0 hmid (fun j hj i hi2 => by
        rw [Nat.zero_add]
        exact (p3 j hj).2 i hi2) k hk
    rwa [Nat.zero_add] at this

end

end Psi.SealPir
