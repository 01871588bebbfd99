import Verif.Rr22.Oprf
import Verif.Rr22.IntersectLemmas
import Verif.Baxos.Props

/-! # Lemmas about the OPRF of RR22 -/

namespace Psi.Rr22.Oprf
open Psi.Gf128 Psi.Okvs Psi.Baxos
open Psi.Ecdh (Bytes)

/-! ## Loops and transport -/

theorem chunks_flatten {A : Type} (k : Nat) (l : List A) (n : Nat) (hn : k * n ≤ l.length) :
    ((List.range n).map (fun i => (l.drop (k * i)).take k)).flatten = l.take (k * n) := by
  induction n with
  | zero => simp
  | succ n ih =>
    rw [List.range_succ, List.map_append, List.flatten_append, ih (by rw [Nat.mul_succ] at hn; omega)]
    simp only [List.map_cons, List.map_nil, List.flatten_cons, List.flatten_nil, List.append_nil]
    rw [Nat.mul_succ, List.take_add]

theorem by8_eq {A B : Type} (f : A → B) (l : List A) : by8 f l = l.map f := by
  unfold by8
  have h := chunks_flatten 8 l (l.length / 8) (by omega)
  have : ((List.range (l.length / 8)).map (fun i => ((l.drop (8 * i)).take 8).map f)).flatten = (l.take (8 * (l.length / 8))).map f := by
    rw [← h, List.map_flatten, List.map_map]
    rfl
  rw [this, ← List.map_append, List.take_append_drop]

theorem recvChunked_append {V : Type} (size : Nat) (ms : List (List V)) (got : List V) (h : got.length + ms.flatten.length = size)
    (hne : ∀ m ∈ ms, m ≠ []) : recvChunked size got ms = .ok (got ++ ms.flatten) := by
  induction ms generalizing got with
  | nil =>
    rw [recvChunked, if_neg (by simp at h; omega)]
    simp
  | cons m ms ih =>
    have hm : 0 < m.length := List.length_pos_iff.mpr (hne m (by simp))
    rw [List.flatten_cons, List.length_append] at h
    rw [recvChunked, if_pos (by omega)]
    rw [if_neg (by omega), ih _ (by rw [List.length_append]; omega) (fun m hm => hne m (by simp [hm]))]
    simp

theorem sendChunked_flatten {V : Type} {chunk : Nat} (hc : 0 < chunk) (l : List V) : (sendChunked chunk l).flatten = l := by
  have hgen : ∀ n, ((List.range n).map (fun i => (l.drop (i * chunk)).take (min chunk (l.length - i * chunk)))).flatten = l.take (n * chunk) := by
    intro n
    induction n with
    | zero => simp
    | succ n ih =>
      rw [List.range_succ, List.map_append, List.flatten_append, ih]
      simp only [List.map_cons, List.map_nil, List.flatten_cons, List.flatten_nil, List.append_nil]
      rw [Nat.succ_mul, List.take_add]
      congr 1
      apply List.ext_getElem?
      intro i
      simp only [List.getElem?_take, List.getElem?_drop]
      by_cases h1 : i < chunk
      · by_cases h2 : n * chunk + i < l.length
        · rw [if_pos (by omega), if_pos h1]
        · rw [List.getElem?_eq_none (by omega)]; simp
      · rw [if_neg (by omega), if_neg h1]
  unfold sendChunked
  rw [hgen, List.take_of_length_le]
  have := Nat.div_add_mod (l.length + chunk - 1) chunk
  have h2 := Nat.mod_lt (l.length + chunk - 1) hc
  rw [Nat.mul_comm] at this
  omega

theorem sendChunked_ne {V : Type} {chunk : Nat} (hc : 0 < chunk) (l : List V) : ∀ m ∈ sendChunked chunk l, m ≠ [] := by
  intro m hm
  unfold sendChunked at hm
  obtain ⟨i, hi, rfl⟩ := List.mem_map.mp hm
  rw [List.mem_range] at hi
  have hlt : i * chunk < l.length := by
    have h1 : (i + 1) * chunk ≤ l.length + chunk - 1 := (Nat.le_div_iff_mul_le hc).mp hi
    rw [Nat.succ_mul] at h1
    omega
  rw [← List.length_pos_iff, List.length_take, List.length_drop]
  omega

/-- The table arrives as it was sent. -/
theorem recv_send {V : Type} {chunk : Nat} (hc : 0 < chunk) (l : List V) : recvChunked l.length [] (sendChunked chunk l) = .ok l := by
  rw [recvChunked_append _ _ _ (by rw [sendChunked_flatten hc]; simp) (sendChunked_ne hc l), sendChunked_flatten hc]
  rfl

/-! ## Bytes -/

theorem ofLe_le16 (w : Gf) : Gf.ofNat (ofLe (le16 w.val)) = w := by
  have := w.lt
  apply Gf.ext
  show ofLe (le16 w.val) % 2 ^ 128 = w.val
  unfold le16
  rw [ofLe_range, show 256 ^ 16 = 2 ^ 128 by norm_num, Nat.mod_mod, Nat.mod_eq_of_lt this]

/-! ## Linearity of the key-value store -/

theorem decode_map {K V W : Type} [CommRing K] [AddCommGroup V] [Module K V] [AddCommGroup W] [Module K W] (f : V →ₗ[K] W)
    (coef : Nat → Nat → K) (D : Nat) (P p2 : Nat → V) (r : Row) :
    decode coef D (fun k => f (P k)) (fun k => f (p2 k)) r = f (decode coef D P p2 r) := by
  unfold decode sparsePart densePart
  rw [map_add, map_list_sum, map_list_sum, List.map_map, List.map_map]
  congr 2
  apply List.map_congr_left
  intro k _
  simp only [Function.comp, map_smul]

theorem decode_add {K V : Type} [CommRing K] [AddCommGroup V] [Module K V] (coef : Nat → Nat → K) (D : Nat)
    (P P' p2 p2' : Nat → V) (r : Row) : decode coef D (fun k => P k + P' k) (fun k => p2 k + p2' k) r =
      decode coef D P p2 r + decode coef D P' p2' r := by
  unfold decode sparsePart densePart
  simp only [smul_add, List.sum_map_add]
  abel

/-- Value of a key in a table without bins. -/
def lookup1 {K V : Type} [CommRing K] [AddCommGroup V] [Module K V] (c : Cfg) (coef : Nat → Nat → K) (pp : Nat → V) (h : Nat) : V :=
  decode coef c.D pp (fun k => pp (c.S + k)) ⟨buildRow c.w c.S h, h⟩

/-- Product with the secret of the sender, on 128-bit words. -/
noncomputable def mulL (delta : Gf) : Gf →ₗ[Gf] Gf := LinearMap.mulLeft Gf delta

/-- The same on 64-bit words. -/
noncomputable def mulLow (delta : Gf) : Low →ₗ[ZMod 2] Gf where
  toFun x := delta * x.1
  map_add' a b := by simp [mul_add]
  map_smul' r x := by
    match r with
    | 0 => simp
    | 1 => simp

/-! ## Well-formed parameters -/

/-- Sizes for which the table works. -/
structure Wf (c : Cfg) : Prop where
  w0 : 0 < c.w
  w20 : c.w ≤ 20
  wS : c.w ≤ c.S
  S62 : c.S < 2 ^ 62
  D0 : 0 < c.D
  bins : 0 < c.nBins

theorem binIdx_mul_lt {c : Cfg} (w : Wf c) (h k : Nat) (hk : k < c.size) : binIdx c.nBins h * c.size + k < tableSize c := by
  have h1 : binIdx c.nBins h + 1 ≤ c.nBins := binIdx_lt w.bins
  have h2 := Nat.mul_le_mul_right c.size h1
  unfold tableSize
  rw [Nat.succ_mul] at h2
  omega

/-- What a table that differs from another one by a secret multiple of a third decodes to. -/
theorem lookup_corr {c : Cfg} (w : Wf c) {delta : Gf} {t s q : Nat → Gf} (h : ∀ k < tableSize c, t k = s k + delta * q k) (x : Nat) :
    Baxos.lookup c powCoef t x = Baxos.lookup c powCoef s x + delta * Baxos.lookup c powCoef q x := by
  unfold Baxos.lookup
  have h1 : ∀ k < c.size, t (binIdx c.nBins x * c.size + k) = s (binIdx c.nBins x * c.size + k) + delta * q (binIdx c.nBins x * c.size + k) :=
    fun k hk => h _ (binIdx_mul_lt w x k hk)
  have hs : c.size = c.S + c.D := rfl
  rw [decode_congr (P' := fun k => s (binIdx c.nBins x * c.size + k) + mulL delta (q (binIdx c.nBins x * c.size + k)))
    (Q' := fun k => s (binIdx c.nBins x * c.size + (c.S + k)) + mulL delta (q (binIdx c.nBins x * c.size + (c.S + k)))),
    decode_add, decode_map (mulL delta)]
  · rfl
  · intro k hk
    have := (buildRow_spec w.wS x).2.2 k hk
    exact h1 k (by omega)
  · intro k hk
    exact h1 _ (by omega)

theorem lookup_add {c : Cfg} (w : Wf c) {t s q : Nat → Gf} (h : ∀ k < tableSize c, t k = s k + q k) (x : Nat) :
    Baxos.lookup c powCoef t x = Baxos.lookup c powCoef s x + Baxos.lookup c powCoef q x := by
  have := lookup_corr w (delta := 1) (t := t) (s := s) (q := q) (fun k hk => by rw [one_mul]; exact h k hk) x
  rwa [one_mul] at this

theorem lookup1_corr {c : Cfg} (w : Wf c) {delta : Gf} {t s : Nat → Gf} {q : Nat → Low}
    (h : ∀ k < c.size, t k = s k + delta * (q k).1) (x : Nat) :
    lookup1 c bitCoef t x = lookup1 c bitCoef s x + delta * (lookup1 c bitCoef q x).1 := by
  unfold lookup1
  have hs : c.size = c.S + c.D := rfl
  rw [decode_congr (P' := fun k => s k + mulLow delta (q k)) (Q' := fun k => s (c.S + k) + mulLow delta (q (c.S + k))),
    decode_add, decode_map (mulLow delta)]
  · rfl
  · intro k hk
    have := (buildRow_spec w.wS x).2.2 k hk
    exact h k (by omega)
  · intro k hk
    exact h _ (by omega)

theorem lookup1_add {c : Cfg} (w : Wf c) {V : Type} [AddCommGroup V] [Module (ZMod 2) V] {t s q : Nat → V}
    (h : ∀ k < c.size, t k = s k + q k) (x : Nat) :
    lookup1 c bitCoef t x = lookup1 c bitCoef s x + lookup1 c bitCoef q x := by
  unfold lookup1
  have hs : c.size = c.S + c.D := rfl
  rw [← decode_add]
  apply decode_congr
  · intro k hk
    have := (buildRow_spec w.wS x).2.2 k hk
    exact h k (by omega)
  · intro k hk
    exact h _ (by omega)

/-! ## Steps of a run -/

theorem decodeFast_ok {c : Cfg} (w : Wf c) {pr : Prims} {threads : Nat} {sched : List Nat} (hs : ∀ i ∈ sched, i < max 1 threads)
    {inputs : List Gf} {table v0 : Nat → Gf} {outs : List Gf} (h : decodeFast c pr threads sched inputs table v0 = .ok outs) :
    outs = inputs.map (fun x => Baxos.lookup c powCoef table (pr.hash x)) := by
  unfold decodeFast at h
  split at h
  · rename_i v hv
    cases h
    apply List.ext_getElem
    · simp
    · intro i h1 h2
      simp only [List.length_map, List.length_range] at h1
      rw [List.getElem_map, List.getElem_map, List.getElem_range,
        decodeAll_ok (decOk_gf c w.w0 w.D0) w.wS w.S62 w.w20 w.bins hs hv i (by simpa using h1), List.getElem_map]
      rfl
  · cases h

theorem decodeLow_ok {c : Cfg} (w : Wf c) (hD : c.D ≤ 64) {pr : Prims} {inputs : List Gf} {table v0 : Nat → Gf} :
    decodeLow c pr inputs table v0 = .ok (inputs.map (fun x => lookup1 c bitCoef table (pr.hash x))) := by
  unfold decodeLow
  rw [decodeList_eq (fun r => decode bitCoef c.D table (fun k => table (c.S + k)) r) w.wS w.S62
    (fun row d => decode1Bin_eq w.w0 table row d) (fun rows dense v => decode32Bin_eq w.w0 hD table rows dense v)]
  simp only [List.map_map]
  rfl

/-- Final value of an item whose masked value is `u`. -/
def final (pr : Prims) (w : Option Gf) (x u : Gf) : Gf :=
  match w with
  | some w => dmHash pr (u + w) x
  | none => crHash pr u

theorem finish_ok (pr : Prims) (avx2 : Bool) (w : Option Gf) (xs : List Gf) (f : Gf → Gf) :
    finish pr avx2 w xs (xs.map f) = .ok (xs.map (fun x => final pr w x (f x))) := by
  unfold finish final
  cases w with
  | none =>
    simp only [crHashAll, by8_eq, List.map_map]
    rfl
  | some w =>
    simp only [dmHashAll]
    rw [if_neg (by simp)]
    have : ((xs.map f).map (· + w)).zip xs = xs.map (fun x => (f x + w, x)) := by
      rw [List.map_map]
      induction xs with
      | nil => rfl
      | cons a l ih => simp [ih]
    rw [this]
    split
    · rw [by8_eq, List.map_map]; rfl
    · rw [List.map_map]; rfl

theorem range_map_getD (f g : Gf → Gf) (ys : List Gf) :
    (List.range ys.length).map (fun i => (ys.map f).getD i 0 + (ys.map g).getD i 0) = ys.map (fun y => f y + g y) := by
  apply List.ext_getElem
  · simp
  · intro i h1 h2
    simp only [List.length_map, List.length_range] at h1
    rw [List.getElem_map, List.getElem_map, List.getElem_range, List.getD_eq_getElem _ _ (by simpa using h1),
      List.getD_eq_getElem _ _ (by simpa using h1), List.getElem_map, List.getElem_map]

theorem range_map_getD' (f g : Gf → Gf) (ys : List Gf) :
    (List.range ys.length).map (fun i => (ys.map f).getD i 0 + g (ys.getD i 0)) = ys.map (fun y => f y + g y) := by
  apply List.ext_getElem
  · simp
  · intro i h1 h2
    simp only [List.length_map, List.length_range] at h1
    rw [List.getElem_map, List.getElem_map, List.getElem_range, List.getD_eq_getElem _ _ (by simpa using h1),
      List.getD_eq_getElem _ _ (by simpa using h1), List.getElem_map]

theorem crHashAll_getD (pr : Prims) (xs : List Gf) (j : Nat) (hj : j < xs.length) : (crHashAll pr xs).getD j 0 = crHash pr xs[j] := by
  unfold crHashAll
  rw [by8_eq, List.getD_eq_getElem _ _ (by simpa using hj), List.getElem_map]

theorem masks_agree (pr : Prims) (ws wr : Gf) (w : Gf) (h : receiverMask pr wr (senderCommit pr ws) (le16 ws.val) = .ok w) :
    senderMask ws (le16 wr.val) = .ok w := by
  unfold receiverMask at h
  split at h
  · cases h
  · split at h
    · cases h
    · split at h
      · cases h
      · cases h
        unfold senderMask
        rw [if_neg (by rw [le16_length]; simp), ofLe_le16, ofLe_le16]

theorem maskTable_length {V : Type} [Add V] (n : Nat) (p a : Nat → V) : (maskTable n p a).length = n := by simp [maskTable]

theorem maskTable_getD {V : Type} [Add V] (n : Nat) (p a : Nat → V) (k : Nat) (hk : k < n) (d : V) : (maskTable n p a).getD k d = p k + a k := by
  rw [List.getD_eq_getElem _ _ (by rw [maskTable_length]; exact hk)]
  simp [maskTable]

theorem add_add_cancel_gf (x y : Gf) : x + y + y = x := by rw [add_assoc, Gf.add_self, add_zero]

end Psi.Rr22.Oprf
