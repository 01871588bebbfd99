import Verif.UbPsi.Spec
import Verif.Ecdh.WireLemmas
import Verif.Ecdh.Lemmas
import Verif.Provider.Props
import Mathlib.Data.Nat.GCD.Basic
import Mathlib.Algebra.Group.Basic
import Mathlib.Data.List.GetD

/-!
# Lemmas about the model of UB-PSI: OPRF, records, reading in batches
-/

namespace Psi.UbPsi
open Psi.Ecdh (Bytes dupMap dupAt chop chop_flatten flatten_length dupMap_lookup)
open Psi.Provider (ShufDup Sim)

section
variable {β γ E σ : Type}

theorem mapE_ok (f : β → Except Err γ) (g : β → γ) (l : List β) (h : ∀ x ∈ l, f x = .ok (g x)) :
    mapE f l = .ok (l.map g) := by
  induction l with
  | nil => rfl
  | cons x l ih =>
    rw [mapE, h x (by simp)]
    dsimp only
    rw [ih (fun y hy => h y (by simp [hy]))]
    rfl

theorem cut_ok (L : Nat) (hL : 0 < L) (items : List Bytes) (h : ∀ x ∈ items, x.length = L) :
    cut L items.flatten = .ok items := by
  have hl := flatten_length L items h
  rw [cut, if_neg (by omega), if_neg (by rw [hl]; simp), hl, Nat.mul_div_cancel _ hL]
  rw [chop_flatten L items h]

theorem slice_flatten (L : Nat) (items : List Bytes) (h : ∀ x ∈ items, x.length = L) (i : Nat)
    (hi : i < items.length) : (items.flatten.drop (i * L)).take L = items[i] := by
  induction items generalizing i with
  | nil => simp at hi
  | cons x items ih =>
    have hx : x.length = L := h x (by simp)
    cases i with
    | zero => simp [← hx]
    | succ i =>
      have : (i + 1) * L = x.length + i * L := by rw [hx, Nat.succ_mul]; omega
      rw [List.flatten_cons, this, List.drop_append]
      simp only [List.drop_eq_nil_of_le (show x.length ≤ x.length + i * L by omega), List.nil_append,
        Nat.add_sub_cancel_left, List.getElem_cons_succ]
      exact ih (fun y hy => h y (by simp [hy])) i (by simpa using hi)

/-! ### Numbers in memory -/

@[simp] theorem putU32_length (n : Nat) : (putU32 n).length = 4 := rfl

theorem getU32_putU32 (n : Nat) (h : n < 2 ^ 32) (rest : Bytes) : getU32 (putU32 n ++ rest) = n := by
  simp only [getU32, putU32, List.cons_append, List.getD_cons_zero, List.getD_cons_succ, UInt8.toNat_ofNat']
  omega

theorem Rec.bytes_length (r : Rec) (h : r.data.length ≤ maxCipher) : r.bytes.length = recSize := by
  simp only [Rec.bytes, List.length_append, putU32_length, List.length_replicate, recSize, maxCipher] at *
  omega

theorem parseRec_bytes (r : Rec) (h1 : r.origin < 2 ^ 32) (h2 : r.shuffle < 2 ^ 32) (h3 : r.dup < 2 ^ 32) :
    parseRec r.data.length r.bytes = r := by
  have e4 : ∀ (n : Nat) (rest : Bytes), (putU32 n ++ rest).drop 4 = rest := fun n rest => by simp [putU32]
  have e8 : r.bytes.drop 8 = putU32 r.dup ++ (r.data ++ List.replicate (maxCipher - r.data.length) 0) := by
    rw [show (8 : Nat) = 4 + 4 from rfl, ← List.drop_drop, Rec.bytes, e4, e4]
  have e12 : r.bytes.drop 12 = r.data ++ List.replicate (maxCipher - r.data.length) 0 := by
    rw [show (12 : Nat) = 8 + 4 from rfl, ← List.drop_drop, e8, e4]
  rw [parseRec, e8, e12]
  simp only [Rec.bytes, e4, getU32_putU32 _ h1, getU32_putU32 _ h2, getU32_putU32 _ h3, List.take_left']

/-! ### Reading in batches -/

theorem drain_pieces (read : σ → Except E (List β × σ)) (view : σ → List β) (size : Nat)
    (ok : σ → Prop)
    (h : ∀ s, ok s → ∃ s', read s = .ok ((view s).take size, s') ∧ ok s' ∧ view s' = (view s).drop size)
    (hs : 0 < size) (fuel : Nat) (s : σ) (hok : ok s) :
    drain read fuel s = .ok (pieces size fuel (view s)) := by
  induction fuel generalizing s with
  | zero => rfl
  | succ fuel ih =>
    obtain ⟨s', h1, h2, h3⟩ := h s hok
    rw [drain, h1]
    dsimp only
    rw [pieces, ih s' h2, h3]
    cases hv : view s with
    | nil => simp
    | cons x l =>
      have : ¬ ((x :: l).take size).isEmpty := by
        cases size with
        | zero => omega
        | succ n => simp
      simp [this]

theorem pieces_flatten (size : Nat) (hs : 0 < size) (fuel : Nat) (l : List β) (h : l.length ≤ fuel) :
    (pieces size fuel l).flatten = l := by
  induction fuel generalizing l with
  | zero =>
    have : l = [] := List.eq_nil_of_length_eq_zero (by omega)
    simp [this, pieces]
  | succ fuel ih =>
    rw [pieces]
    cases l with
    | nil => simp
    | cons x l =>
      simp only [List.isEmpty_cons, Bool.false_eq_true, if_false, List.flatten_cons]
      rw [ih _ (by simp only [List.length_drop]; simp at h ⊢; omega), List.take_append_drop]

theorem pieces_ne_nil (size : Nat) (hs : 0 < size) (fuel : Nat) (l : List β) :
    ∀ b ∈ pieces size fuel l, b ≠ [] := by
  induction fuel generalizing l with
  | zero => simp [pieces]
  | succ fuel ih =>
    rw [pieces]
    cases l with
    | nil => simp
    | cons x l =>
      simp only [List.isEmpty_cons, Bool.false_eq_true, if_false, List.mem_cons, forall_eq_or_imp]
      refine ⟨?_, ih _⟩
      cases size with
      | zero => omega
      | succ n => simp

theorem drain_reads (read : σ → Except E (List β × σ)) (n : Nat) (s s' : σ) (outs : List (List β))
    (h : Psi.Provider.Spec.reads read n s = .ok (outs, s')) :
    drain read n s = .ok (outs.takeWhile (fun b => !b.isEmpty)) := by
  induction n generalizing s outs with
  | zero =>
    simp only [Psi.Provider.Spec.reads, Except.ok.injEq, Prod.mk.injEq] at h
    simp [← h.1, drain]
  | succ n ih =>
    rw [Psi.Provider.Spec.reads] at h
    rw [drain]
    cases hr : read s with
    | error e => rw [hr] at h; simp at h
    | ok p =>
      obtain ⟨b, t⟩ := p
      rw [hr] at h
      dsimp only at h ⊢
      cases hn : Psi.Provider.Spec.reads read n t with
      | error e => rw [hn] at h; simp at h
      | ok q =>
        obtain ⟨bs, u⟩ := q
        rw [hn] at h
        simp only [Except.ok.injEq, Prod.mk.injEq] at h
        obtain ⟨h1, h2⟩ := h
        subst h1 h2
        cases b with
        | nil => simp
        | cons x b => simp [ih t bs hn]

theorem takeWhile_flatten (outs : List (List β))
    (h : ∀ i j : Nat, i ≤ j → outs[i]? = some [] → ∀ b, outs[j]? = some b → b = []) :
    (outs.takeWhile (fun b => !b.isEmpty)).flatten = outs.flatten := by
  induction outs with
  | nil => rfl
  | cons b outs ih =>
    cases b with
    | nil =>
      have : outs.flatten = [] := by
        rw [List.flatten_eq_nil_iff]
        intro x hx
        obtain ⟨j, hj, rfl⟩ := List.mem_iff_getElem.mp hx
        exact h 0 (j + 1) (by omega) rfl _ (by simp [hj])
      simp [this]
    | cons x b =>
      simp only [List.takeWhile_cons, List.isEmpty_cons, Bool.not_false, if_true, List.flatten_cons]
      rw [ih]
      intro i j hij hi c hc
      exact h (i + 1) (j + 1) (by omega) (by simpa using hi) c (by simpa using hc)

end

/-! ### OPRF -/

variable {α G : Type} [AddCommGroup G]

omit [AddCommGroup G] in
theorem cmpLen_pos (c : Curve α G) : 0 < c.cmpLen := by
  unfold Curve.cmpLen; split <;> omega

variable {c : Curve α G}

theorem tag_length (hc : c.Lawful) (key : Bytes) (x : α) : (c.tag key x).length = c.cmpLen := by
  rw [Curve.tag, List.length_take]; exact min_eq_left (hc.digestLen _)

theorem hashItem_ok (hc : c.Lawful) (item b : Bytes) :
    hashItem c item b = .ok ((c.digest (item ++ b)).take c.cmpLen) := by
  rw [hashItem]; exact if_pos (hc.digestLen _)

theorem simpleEvaluate_ok (hc : c.Lawful) (key : Bytes) (x : α) :
    simpleEvaluate c key x = .ok (c.tag key x) := by
  rw [simpleEvaluate, hashItem_ok hc]; rfl

theorem smul_mod (hc : c.Lawful) (k : Nat) (g : G) : k • g = (k % c.order) • g := by
  conv_lhs => rw [← Nat.mod_add_div k c.order, add_nsmul, mul_nsmul, hc.order]
  simp

theorem smul_cancel (hc : c.Lawful) (k : Nat) (hk : Nat.Coprime k c.order) (g : G) :
    c.inverse k • (k • g) = g := by
  rw [← mul_nsmul, smul_mod hc, hc.inverse k hk, ← smul_mod hc, one_nsmul]

theorem smul_ne_zero' (hc : c.Lawful) (k : Nat) (hk : Nat.Coprime k c.order) (g : G) (hg : g ≠ 0) :
    k • g ≠ 0 := by
  intro h
  apply hg
  rw [← smul_cancel hc k hk g, h, nsmul_zero]

/-- The blinded item. -/
theorem blind_eq (r : Bytes) (x : α) : blind c r x = c.enc (c.scalar r • c.point x) := rfl

theorem evaluate_blind (hc : c.Lawful) (r key : Bytes) (hr : c.GoodKey r) (x : α) :
    evaluate c key (blind c r x) = .ok (c.enc (c.scalar key • (c.scalar r • c.point x))) := by
  rw [evaluate, pointMul, blind_eq, hc.round _ (smul_ne_zero' hc _ hr _ (hc.point x))]

theorem unblind_enc (hc : c.Lawful) (r key : Bytes) (hr : c.GoodKey r) (hk : c.GoodKey key) (x : α) :
    unblind c r (c.enc (c.scalar key • (c.scalar r • c.point x))) = .ok (c.enc (c.scalar key • c.point x)) := by
  have h1 := smul_ne_zero' hc _ hr _ (hc.point x)
  have h2 := smul_ne_zero' hc _ hk _ h1
  rw [unblind, pointMul, hc.round _ h2]
  dsimp only
  rw [nsmul_left_comm, smul_cancel hc _ hr]

theorem finalize_ok (hc : c.Lawful) (r key : Bytes) (hr : c.GoodKey r) (hk : c.GoodKey key) (x : α) :
    finalize c r (c.enc (c.scalar key • (c.scalar r • c.point x))) = .ok (c.tag key x) := by
  rw [finalize, finalizeItem, unblind_enc hc r key hr hk]
  exact hashItem_ok hc _ _

end Psi.UbPsi
