import Verif.SealPir.AnswerLemmas

/-!
# SealPIR: the answer over all dimensions, and its decoding
-/

namespace Psi.SealPir

open Psi.Spiral (Rq Res w64 uintNum mapRes red toA)

section

variable {S : Seal} (H : Laws S)

theorem val_inj {L t : Nat} {p q : Plain} (hp : ∀ k < 2 ^ L, p k < t) (hq : ∀ k < 2 ^ L, q k < t)
    (h : val L t p = val L t q) : ∀ k < 2 ^ L, p k = q k := by
  intro k hk
  unfold val at h
  have := Psi.Spiral.red_eq_coeff.1 h k hk
  rw [Psi.Spiral.coeff_toA _ hk, Psi.Spiral.coeff_toA _ hk] at this
  have h1 := hp k hk
  have h2 := hq k hk
  rw [Int.emod_eq_of_lt (by omega) (by omega), Int.emod_eq_of_lt (by omega) (by omega)] at this
  exact_mod_cast this

theorem sum_range_le {p : Plain} {t : Nat} : ∀ n, (∀ k < n, p k < t) → ((List.range n).map p).sum ≤ n * t
  | 0, _ => by simp
  | n + 1, h => by
    rw [List.range_succ, List.map_append, List.sum_append, Nat.succ_mul]
    have := sum_range_le n fun k hk => h k (by omega)
    have := h n (by omega)
    simp
    omega

/-- The coefficients of a plaintext are below the modulus. -/
def PlainOk (S : Seal) (p : Plain) : Prop := ∀ k < S.n, p k < S.t

theorem multiplyPlain_ok {a : Nat} {c : S.Ct} {m : Rq S.L S.t} (h : H.Holds a c m) {p : Plain} (hp : PlainOk S p) :
    Out S (multiplyPlain S c p) fun y => H.Holds (S.n * S.t * a) y (m * val S.L S.t p) := by
  unfold multiplyPlain
  split_ifs with h0
  · exact Or.inr ⟨h0.1, rfl⟩
  · exact Out.ok (H.mul_ok p _ hp (sum_range_le _ hp) h)

/-- One ciphertext of one, the others of zero. -/
def OneHot (e ni index : Nat) (ex : List S.Ct) : Prop :=
  ex.length = ni ∧ ∀ k (h : k < ex.length), H.Holds e ex[k] (if k = index then 1 else 0)

theorem dotFrom_ok {e ni index prod k : Nat} {ex : List S.Ct} {cur : List Plain} (hx : OneHot H e ni index ex)
    (hk : k < prod) (hcur : cur.length = ni * prod) (hc : ∀ p ∈ cur, PlainOk S p) (X : Rq S.L S.t)
    (hX : ∀ (h : index * prod + k < cur.length), val S.L S.t cur[index * prod + k] = X) : ∀ (m j : Nat) (acc : S.Ct),
    j + m = ni → H.Holds (j * (S.n * S.t * e)) acc (if index < j then X else 0) →
    Out S (dotFrom S cur ex prod k m j acc) fun c =>
      H.Holds (ni * (S.n * S.t * e)) c (if index < ni then X else 0)
  | 0, j, acc, hj, ha => by
    rw [Nat.add_zero] at hj
    subst hj
    exact Out.ok ha
  | m + 1, j, acc, hj, ha => by
    have hjex : j < ex.length := by rw [hx.1]; omega
    have hjc : j * prod + k < cur.length := by
      have : (j + 1) * prod ≤ ni * prod := Nat.mul_le_mul_right _ (by omega)
      rw [Nat.succ_mul] at this
      omega
    unfold dotFrom
    rw [List.getElem?_eq_getElem hjex, List.getElem?_eq_getElem hjc]
    refine Out.bind (multiplyPlain_ok H (hx.2 j hjex) (hc _ (List.getElem_mem hjc))) fun tmp ht => ?_
    refine dotFrom_ok hx hk hcur hc X hX m (j + 1) _ (by omega) ?_
    have := H.add_ok (H.loose ha) ht
    rw [← Nat.succ_mul] at this
    convert this using 1
    by_cases h1 : j = index
    · subst h1
      rw [if_pos (by omega), if_neg (by omega), if_pos rfl, hX hjc]
      ring
    · rw [if_neg h1, zero_mul, add_zero]
      by_cases h2 : index < j
      · rw [if_pos h2, if_pos (by omega)]
      · rw [if_neg h2, if_neg (by omega)]

theorem dot_ok {e ni index prod k : Nat} {ex : List S.Ct} {cur : List Plain} (hx : OneHot H e ni index ex)
    (hi : index < ni) (hk : k < prod) (hcur : cur.length = ni * prod) (hc : ∀ p ∈ cur, PlainOk S p)
    (hin : index * prod + k < cur.length) :
    Out S (dot S cur ex ni prod k) fun c =>
      H.Holds (ni * (S.n * S.t * e)) c (val S.L S.t cur[index * prod + k]) := by
  have hjex : 0 < ex.length := by rw [hx.1]; omega
  have hkc : k < cur.length := by
    have : 1 * prod ≤ ni * prod := Nat.mul_le_mul_right _ (by omega)
    omega
  unfold dot
  rw [List.getElem?_eq_getElem hjex, List.getElem?_eq_getElem hkc]
  refine Out.bind (multiplyPlain_ok H (hx.2 0 hjex) (hc _ (List.getElem_mem hkc))) fun acc ha => ?_
  refine Out.mono (dotFrom_ok H hx hk hcur hc (val S.L S.t cur[index * prod + k]) (fun _ => rfl) (ni - 1) 1 acc
    (by omega) ?_) fun c hcc => ?_
  · rw [Nat.one_mul]
    convert ha using 1
    by_cases h0 : index = 0
    · subst h0
      rw [if_pos (by omega), if_pos rfl, one_mul]
      simp only [Nat.zero_mul, Nat.zero_add]
    · rw [if_neg (by omega), if_neg (by omega), zero_mul]
  · rwa [if_pos hi] at hcc

/-- The queries for all dimensions expand to the indices. -/
def QueryOk : List Nat → List Nat → List (List S.Ct) → Prop
  | [], [], [] => True
  | n :: ns, i :: is, q :: qs =>
    (i < n ∧ ∃ ex, expandAll S (galoisElts S) n q = .ok ex ∧
      OneHot H (expNoise H.fresh H.ks (Nat.clog 2 (min n S.n))) n i ex) ∧ QueryOk ns is qs
  | _, _, _ => False

theorem QueryOk.inDims : ∀ {ns is : List Nat} {qs : List (List S.Ct)}, QueryOk H ns is qs → InDims ns is
  | [], [], [], _ => trivial
  | _ :: _, _ :: _, _ :: _, h => ⟨h.1.1, QueryOk.inDims h.2⟩
  | [], _ :: _, _, h => by cases ‹List (List S.Ct)› <;> exact h.elim
  | [], [], _ :: _, h => h.elim
  | _ :: _, [], _, h => by cases ‹List (List S.Ct)› <;> exact h.elim
  | _ :: _, _ :: _, [], h => h.elim

theorem flatMap_get {α β : Type} (f : α → List β) (R : Nat) (l : List α) (h : ∀ x ∈ l, (f x).length = R) :
    (l.flatMap f).length = l.length * R ∧ ∀ a (ha : a < l.length) b, b < R →
      (l.flatMap f)[a * R + b]? = (f l[a])[b]? := by
  induction l with
  | nil => exact ⟨by simp, fun a ha => absurd ha (by simp)⟩
  | cons x l ih =>
    obtain ⟨i1, i2⟩ := ih fun y hy => h y (by simp [hy])
    have hx := h x (by simp)
    rw [List.flatMap_cons]
    refine ⟨by rw [List.length_append, i1, hx, List.length_cons, Nat.succ_mul]; omega, fun a ha b hb => ?_⟩
    cases a with
    | zero =>
      rw [Nat.zero_mul, Nat.zero_add, List.getElem?_append_left (by omega)]
      rfl
    | succ a =>
      rw [Nat.succ_mul, List.getElem?_append_right (by omega), hx, show a * R + R + b - R = a * R + b by omega]
      exact i2 a (by simpa using ha) b hb

theorem perCt_pos {logt : Nat} (hl : 0 < logt) (H : Laws S) : 0 < perCt S logt := by
  have := ratio_pos H hl
  unfold perCt
  omega

/-- What decoding makes of an answer. -/
structure AnswerOk (S : Seal) (logt rounds base cols : Nat) (cur : List Plain) (out : List S.Ct) : Prop where
  head : ∃ c cs, out = c :: cs ∧ S.size c = 2
  len : ((decodeRound S logt 2)^[rounds] out).length = cols
  get : ∀ s (h : s < ((decodeRound S logt 2)^[rounds] out).length) (h2 : base * cols + s < cur.length), ∀ k < S.n,
    S.decrypt ((decodeRound S logt 2)^[rounds] out)[s] k = cur[base * cols + s] k

/-- The ciphertexts of one dimension. -/
theorem level_ok {e ni index prod : Nat} {ex : List S.Ct} {cur : List Plain} (hx : OneHot H e ni index ex)
    (hi : index < ni) (hcur : cur.length = ni * prod) (hc : ∀ p ∈ cur, PlainOk S p) :
    Out S (mapRes (dot S cur ex ni prod) (List.range prod)) fun cts => cts.length = prod ∧
      ∀ k (h : k < cts.length), ∀ (h2 : index * prod + k < cur.length),
        H.Holds (ni * (S.n * S.t * e)) cts[k] (val S.L S.t cur[index * prod + k]) := by
  refine Out.mono (Out.mapRes (List.range prod) (fun k c => ∀ (h2 : index * prod + k < cur.length),
    H.Holds (ni * (S.n * S.t * e)) c (val S.L S.t cur[index * prod + k])) fun k hk => ?_) fun cts h => ?_
  · rw [List.length_range] at hk
    rw [List.getElem_range]
    have hin : index * prod + k < cur.length := by
      have : (index + 1) * prod ≤ ni * prod := Nat.mul_le_mul_right _ hi
      rw [Nat.succ_mul] at this
      omega
    exact Out.mono (dot_ok H hx hi hk hcur hc hin) fun c h _ => h
  · rw [List.length_range] at h
    exact h

theorem index_lt {i n p k : Nat} (hi : i < n) (hk : k < p) : i * p + k < n * p := by
  have : (i + 1) * p ≤ n * p := Nat.mul_le_mul_right _ hi
  rw [Nat.succ_mul] at this
  omega

/-- **The answer decodes to the chosen plaintext.** -/
theorem respond_ok {logt : Nat} (hl : 0 < logt) (ht : 2 ^ logt ≤ S.t) : ∀ (ns is : List Nat) (qs : List (List S.Ct))
    (cur : List Plain) (cols : Nat), ns ≠ [] → QueryOk H ns is qs → H.Fits ns → 0 < cols → cur.length = ns.prod * cols →
    (∀ p ∈ cur, PlainOk S p) →
    Out S (respond S logt (galoisElts S) ns qs (ns.prod * cols) cur)
      (AnswerOk S logt (ns.length - 1) (flatIndex ns is) cols cur)
  | [], _, _, _, _, h, _, _, _, _, _ => absurd rfl h
  | n :: ns, [], qs, _, _, _, h, _, _, _, _ => by cases qs <;> exact h.elim
  | n :: ns, i :: is, [], _, _, _, h, _, _, _, _ => h.elim
  | [n], i :: is, q :: qs, cur, cols, _, hq, hf, hcols, hlen, hc => by
    obtain ⟨⟨hi, ex, hex, hone⟩, hrest⟩ := hq
    have his : is = [] := by
      cases is with
      | nil => rfl
      | cons _ _ => cases qs <;> exact hrest.elim
    subst his
    have hprod : [n].prod * cols / n = cols := by
      rw [List.prod_singleton]
      exact Nat.mul_div_cancel_left _ (by omega)
    rw [List.prod_singleton] at hlen
    unfold respond
    rw [hex]
    refine Out.bind (Out.ok (Q := fun x => x = ex) rfl) fun a ha => ?_
    subst ha
    rw [hprod]
    refine Out.bind (level_ok H hone hi hlen hc) fun cts hcts => Out.ok ?_
    obtain ⟨c1, c2⟩ := hcts
    have hbase : flatIndex [n] [i] = i := by simp [flatIndex]
    rw [hbase]
    obtain ⟨f1, -⟩ := hf n (by simp)
    have hne : cts ≠ [] := by
      rintro rfl
      simp at c1
      omega
    obtain ⟨c, cs, hcc⟩ := List.exists_cons_of_ne_nil hne
    refine ⟨⟨c, cs, hcc, ?_⟩, c1, fun s hs h2 k hk => ?_⟩
    · have h0 : 0 < cts.length := by omega
      have := H.size_ok (c2 0 h0 (by rw [hlen]; exact index_lt hi hcols))
      have hc0 : cts[0] = c := by simp [hcc]
      rwa [hc0] at this
    · have hs' : s < cts.length := hs
      obtain ⟨d1, d2⟩ := H.decrypt_ok (c2 s hs' h2) f1
      exact val_inj d1 (hc _ (List.getElem_mem h2)) d2 k hk
  | n :: n' :: ns, i :: is, q :: qs, cur, cols, _, hq, hf, hcols, hlen, hc => by
    obtain ⟨⟨hi, ex, hex, hone⟩, hrest⟩ := hq
    have hR := perCt_pos hl H
    have hprod : (n :: n' :: ns).prod * cols / n = (n' :: ns).prod * cols := by
      rw [List.prod_cons, Nat.mul_assoc]
      exact Nat.mul_div_cancel_left _ (by omega)
    have hlen1 : cur.length = n * ((n' :: ns).prod * cols) := by rw [hlen, List.prod_cons, Nat.mul_assoc]
    unfold respond
    rw [hex]
    refine Out.bind (Out.ok (Q := fun x => x = ex) rfl) fun a ha => ?_
    subst ha
    rw [hprod]
    refine Out.bind (level_ok H hone hi hlen1 hc) fun cts hcts => ?_
    obtain ⟨c1, c2⟩ := hcts
    obtain ⟨-, f2⟩ := hf n (by simp)
    have hlast : ∀ k (h : k < cts.length) (h2 : i * ((n' :: ns).prod * cols) + k < cur.length),
        H.Last (H.sw (H.answerNoise n (Nat.clog 2 (min n S.n)))) (S.modSwitch cts[k])
          (val S.L S.t cur[i * ((n' :: ns).prod * cols) + k]) := fun k h h2 => H.switch_ok (c2 k h h2)
    have hin : ∀ k, k < cts.length → i * ((n' :: ns).prod * cols) + k < cur.length := fun k h => by
      rw [hlen1]; exact index_lt hi (by omega)
    have hdl : ∀ c ∈ cts, (decompose S logt (S.modSwitch c)).length = perCt S logt := by
      intro c hcm
      obtain ⟨k, hk, rfl⟩ := List.getElem_of_mem hcm
      exact decompose_length H (hlast k hk (hin k hk)) logt
    obtain ⟨p1, p2⟩ := flatMap_get (fun c => decompose S logt (S.modSwitch c)) (perCt S logt) cts hdl
    simp only
    generalize hpl : cts.flatMap (fun c => decompose S logt (S.modSwitch c)) = plains at *
    have hpl2 : plains.length = (n' :: ns).prod * (cols * perCt S logt) := by rw [p1, c1]; ring
    have hpOk : ∀ p ∈ plains, PlainOk S p := by
      intro p hp k _
      rw [← hpl] at hp
      obtain ⟨c, -, hcm⟩ := List.mem_flatMap.1 hp
      exact lt_of_lt_of_le (decompose_lt _ p hcm k) ht
    rw [hpl2]
    have ih := respond_ok hl ht (n' :: ns) is qs plains (cols * perCt S logt) (by simp) hrest
      (fun x hx => hf x (by simp only [List.mem_cons] at hx ⊢; tauto)) (Nat.mul_pos hcols hR) hpl2 hpOk
    refine Out.mono ih fun out ho => ?_
    have hit : (decodeRound S logt 2)^[(n :: n' :: ns).length - 1] out =
        decodeRound S logt 2 ((decodeRound S logt 2)^[(n' :: ns).length - 1] out) := by
      rw [show (n :: n' :: ns).length - 1 = ((n' :: ns).length - 1) + 1 by simp]
      exact Function.iterate_succ_apply' _ _ _
    have holen := ho.len
    have hoget := ho.get
    generalize hF : (decodeRound S logt 2)^[(n' :: ns).length - 1] out = fin at *
    have hR2 : expansionRatio logt S.lastQs * 2 = perCt S logt := by unfold perCt; ring
    have hdiv : fin.length / perCt S logt = cols := by rw [holen]; exact Nat.mul_div_cancel _ hR
    have hlen3 : (decodeRound S logt 2 fin).length = cols := by
      unfold decodeRound
      simp only [hR2, hdiv, List.length_map, List.length_range]
    have hflat := flatIndex_lt (QueryOk.inDims H hrest)
    refine ⟨ho.head, by rw [hit]; exact hlen3, fun s hs h2 k hk => ?_⟩
    have hs3 : s < cols := by rw [hit, hlen3] at hs; exact hs
    have hbase : flatIndex (n :: n' :: ns) (i :: is) = i * (n' :: ns).prod + flatIndex (n' :: ns) is := rfl
    have hidx : flatIndex (n :: n' :: ns) (i :: is) * cols + s =
        i * ((n' :: ns).prod * cols) + (flatIndex (n' :: ns) is * cols + s) := by rw [hbase]; ring
    have ha : flatIndex (n' :: ns) is * cols + s < cts.length := by
      rw [c1]; exact index_lt hflat hs3
    have hL := hlast _ ha (hin _ ha)
    have hcomp : (decodeRound S logt 2 fin)[s]'(by rw [hlen3]; exact hs3) =
        compose S logt (((fin.map S.decrypt).drop (s * perCt S logt)).take (perCt S logt)) := by
      unfold decodeRound
      simp only [List.getElem_map, List.getElem_range, hR2]
    have hfit : s * perCt S logt + perCt S logt ≤ fin.length := by
      rw [holen, ← Nat.succ_mul]
      exact Nat.mul_le_mul_right _ hs3
    have hLast2 := compose_ok H hl hL (pts := ((fin.map S.decrypt).drop (s * perCt S logt)).take (perCt S logt))
      (by rw [List.length_take, List.length_drop, List.length_map]; omega) (fun b h1 hb2 k hk => by
        rw [List.length_take] at h1
        have hb : b < perCt S logt := by omega
        rw [List.getElem_take, List.getElem_drop, List.getElem_map]
        have hidx2 : flatIndex (n' :: ns) is * (cols * perCt S logt) + (s * perCt S logt + b) =
            (flatIndex (n' :: ns) is * cols + s) * perCt S logt + b := by ring
        have hlt : flatIndex (n' :: ns) is * (cols * perCt S logt) + (s * perCt S logt + b) < plains.length := by
          rw [hidx2, p1]
          exact index_lt ha hb
        rw [hoget (s * perCt S logt + b) (by omega) hlt k hk]
        have hg := p2 _ ha b hb
        rw [← hidx2, List.getElem?_eq_getElem hlt, List.getElem?_eq_getElem hb2] at hg
        exact congrFun (Option.some.inj hg) k)
    obtain ⟨d1, d2⟩ := H.decrypt_last hLast2 f2
    have hin2 : i * ((n' :: ns).prod * cols) + (flatIndex (n' :: ns) is * cols + s) < cur.length := hin _ ha
    have hfinal := val_inj d1 (hc _ (List.getElem_mem hin2)) d2 k hk
    have hc1 := List.getElem_of_eq hit hs
    rw [hc1, hcomp]
    have e : cur[i * ((n' :: ns).prod * cols) + (flatIndex (n' :: ns) is * cols + s)] =
        cur[flatIndex (n :: n' :: ns) (i :: is) * cols + s] := by
      congr 1
      exact hidx.symm
    exact hfinal.trans (congrFun e k)

theorem decodePlain_ok {logt polys : Nat} : ∀ (d : Nat) (tmp : List S.Ct) (c : S.Ct),
    (decodeRound S logt polys)^[d] tmp = [c] → decodePlain S logt polys (d + 1) tmp = .ok (S.decrypt c)
  | 0, tmp, c, h => by
    have h' : tmp = [c] := h
    subst h'
    rfl
  | d + 1, tmp, c, h => by
    rw [Function.iterate_succ_apply] at h
    exact decodePlain_ok d _ c h

/-- The query for a plaintext. -/
theorem generateQuery_ok (hodd : S.t % 2 = 1) (h3 : 3 ≤ S.t) (coin : Nat → Nat → S.Coin) {dims : List Nat} {j : Nat}
    (hd : ∀ d ∈ dims, 0 < d) (h31 : dims.prod < 2 ^ 31) (hj : j < dims.prod) :
    ∃ is q, generateQuery S coin dims j = .ok q ∧ QueryOk H dims is q ∧ flatIndex dims is = j := by
  obtain ⟨is, e1, e2, e3⟩ := computeIndices_ok hd h31 hj
  unfold generateQuery
  rw [e1]
  have key : ∀ (dims is : List Nat) (coin : Nat → Nat → S.Coin), InDims dims is →
      ∃ q, mapRes (fun i => queryDim S (coin i) (dims.getD i 0) (is.getD i 0)) (List.range is.length) = .ok q ∧
        QueryOk H dims is q := by
    intro dims
    induction dims with
    | nil =>
      intro is coin h
      cases is with
      | nil => exact ⟨[], rfl, trivial⟩
      | cons _ _ => exact h.elim
    | cons n ns ih =>
      intro is coin h
      cases is with
      | nil => exact h.elim
      | cons i is =>
        obtain ⟨q, ex, g1, g2, g3, g4⟩ := dimension_ok H hodd h3 (coin 0) h.1
        obtain ⟨qs, t1, t2⟩ := ih is (fun i => coin (i + 1)) h.2
        refine ⟨q :: qs, ?_, ⟨h.1, ex, g2, g3, g4⟩, t2⟩
        rw [List.length_cons, List.range_succ_eq_map]
        unfold mapRes
        simp only [List.getD_cons_zero]
        rw [g1]
        have : mapRes (fun i' => queryDim S (coin i') ((n :: ns).getD i' 0) ((i :: is).getD i' 0))
            ((List.range is.length).map Nat.succ) = .ok qs := by
          rw [← t1]
          generalize List.range is.length = l
          induction l with
          | nil => rfl
          | cons x l ihl =>
            rw [List.map_cons]
            unfold mapRes
            rw [ihl]
            simp only [Nat.succ_eq_add_one, List.getD_cons_succ]
        rw [this]
        rfl
  obtain ⟨q, q1, q2⟩ := key dims is coin e2
  exact ⟨is, q, q1, q2, e3⟩

/-- **One partition**: query, answer and decoding give the plaintext at the place asked for. -/
theorem partition_ok {logt : Nat} (hl : 0 < logt) (ht : 2 ^ logt ≤ S.t) {dims is : List Nat} {q : List (List S.Ct)}
    (hne : dims ≠ []) (hq : QueryOk H dims is q) (hf : H.Fits dims) {cur : List Plain} (hlen : cur.length = dims.prod)
    (hc : ∀ p ∈ cur, PlainOk S p) (hin : flatIndex dims is < cur.length) :
    Out S (respond S logt (galoisElts S) dims q dims.prod cur) fun out => ∃ c cs, out = c :: cs ∧
      ∃ pt, decodePlain S logt (S.size c) dims.length out = .ok pt ∧
        ∀ k < S.n, pt k = cur[flatIndex dims is] k := by
  have h := respond_ok H hl ht dims is q cur 1 hne hq hf (by omega) (by rw [Nat.mul_one]; exact hlen) hc
  rw [Nat.mul_one] at h
  refine Out.mono h fun out ho => ?_
  obtain ⟨c, cs, h1, h2⟩ := ho.head
  refine ⟨c, cs, h1, ?_⟩
  rw [h2]
  obtain ⟨x, hx⟩ := List.length_eq_one_iff.1 ho.len
  have hd : dims.length = dims.length - 1 + 1 := by
    have := List.length_pos_iff.2 hne
    omega
  rw [hd]
  refine ⟨_, decodePlain_ok _ _ x hx, fun k hk => ?_⟩
  have := ho.get 0 (by rw [ho.len]; omega) (by rw [Nat.mul_one, Nat.add_zero]; exact hin) k hk
  have e : cur[flatIndex dims is * 1 + 0]'(by rw [Nat.mul_one, Nat.add_zero]; exact hin) = cur[flatIndex dims is] := by
    congr 1
    rw [Nat.mul_one, Nat.add_zero]
  rw [e] at this
  rw [← this]
  simp only [hx, List.getElem_cons_zero]

end

end Psi.SealPir
