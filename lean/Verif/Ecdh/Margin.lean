import Verif.Ecdh.Props
import Verif.Ecdh.Counting
import Mathlib.Data.List.ProdSigma

/-!
# C121: how often ECDH-PSI goes wrong because only the last bytes of the masks are compared

Of every doubly masked item `kFinalCompareBytes` = 12 bytes are kept (`psi/algorithm/ecdh/ecdh_psi.cc:168-174`,
`psi/utils/communication.h:35-43`), whatever the sizes of the inputs.  All functions from items to points are counted, as the
hash to the curve.
-/

namespace Psi.Ecdh
open Psi.Bucket (Cache computeIndices)
open Psi.Spec

variable {α P : Type}

/-- The run with another hash to the curve. -/
def Cfg.withHash (c : Cfg α P) (ω : α → P) : Cfg α P := { c with hash := ω }

/-- What is compared of the item that is hashed to a point. -/
def comp (c : Cfg α P) (p : P) : Bytes := cipher c (c.mask false (c.mask true p))

/-- The party gets exactly the intersection. -/
def Exact (c : Cfg α P) (bh : List Char → Nat) (n : Nat) (s : State α) (r : Bool) : Prop :=
  ∃ w k l, computeIndices ((Cache.fresh n).writeAll bh (s.party r).selfStore)
      ((Cache.fresh n).writeAll bh (s.party r).peerStore) = some (w, k, l) ∧ ExactIndex (c.items r) (c.items (!r)) w

/-- Hashes with which some schedule leads to a wrong result. -/
def SomeWrong (c : Cfg α P) (bh : List Char → Nat) (n : Nat) : Set (α → P) :=
  {ω | ∃ sched s r, exec (c.withHash ω) sched (init (c.withHash ω)) = some s ∧ (s.party r).finished = true ∧
    (c.target = .all ∨ c.target = .rank r) ∧ ¬ Exact c bh n s r}

/-- Hashes with which every schedule does. -/
def AllWrong (c : Cfg α P) (bh : List Char → Nat) (n : Nat) : Set (α → P) :=
  {ω | ∀ sched s r, exec (c.withHash ω) sched (init (c.withHash ω)) = some s → (s.party r).finished = true →
    (c.target = .all ∨ c.target = .rank r) → ¬ Exact c bh n s r}

theorem lawful_withHash {c : Cfg α P} {L : Nat} (hc : c.Lawful L) (ω : α → P) : (c.withHash ω).Lawful L :=
  ⟨hc.serLen, hc.round, hc.dualLe, hc.window, hc.nonempty, hc.small⟩

theorem exec_concat (c : Cfg α P) : ∀ (a b : List (Task × Bool)) (s : State α), exec c (a ++ b) s = (exec c a s).bind (exec c b)
  | [], _, _ => rfl
  | (t, r) :: a, b, s => by
    show (match step c t r s with | .ok s' => exec c (a ++ b) s' | _ => none) =
      (match step c t r s with | .ok s' => exec c a s' | _ => none).bind (exec c b)
    cases step c t r s with
    | ok s' => exact exec_concat c a b s'
    | blocked => rfl
    | failed => rfl

/-- Some schedule runs to the end. -/
theorem completes {c : Cfg α P} {L : Nat} (hc : c.Lawful L) :
    ∃ sched s, exec c sched (init c) = some s ∧ ∀ r, (s.party r).finished = true := by
  have key : ∀ (fuel : Nat) (sched : List (Task × Bool)) (s : State α), exec c sched (init c) = some s →
      3 * ((c.input false).length + 1) + 3 * ((c.input true).length + 1) ≤ sched.length + fuel →
      ∃ sched s, exec c sched (init c) = some s ∧ ∀ r, (s.party r).finished = true := by
    intro fuel
    induction fuel with
    | zero =>
      intro sched s h hf
      by_cases hall : ∀ r, (s.party r).finished = true
      · exact ⟨sched, s, h, hall⟩
      · obtain ⟨t, r, s', hst⟩ := C11_never_stuck c hc sched s h hall
        have h2 : exec c (sched ++ [(t, r)]) (init c) = some s' := by
          rw [exec_concat, h]
          show exec c [(t, r)] s = some s'
          simp only [exec, hst]
        have h3 := C11_terminates c hc _ _ h2
        rw [List.length_append, List.length_singleton] at h3
        omega
    | succ fuel ih =>
      intro sched s h hf
      by_cases hall : ∀ r, (s.party r).finished = true
      · exact ⟨sched, s, h, hall⟩
      · obtain ⟨t, r, s', hst⟩ := C11_never_stuck c hc sched s h hall
        have h2 : exec c (sched ++ [(t, r)]) (init c) = some s' := by
          rw [exec_concat, h]
          show exec c [(t, r)] s = some s'
          simp only [exec, hst]
        exact ih _ s' h2 (by rw [List.length_append, List.length_singleton]; omega)
  exact key _ [] (init c) rfl (Nat.le_add_left _ _)

section
variable [DecidableEq α] [Finite α] [Finite P] (c : Cfg α P) {L : Nat} (hc : c.Lawful L)
  (hcomm : ∀ p, c.mask false (c.mask true p) = c.mask true (c.mask false p))
  (hd : ∀ r, ((c.items r).map Prod.fst).Nodup) (bh : List Char → Nat) (n : Nat) (hn : 0 < n)
  (hl : ∀ r, (c.items r).length ≤ 2 ^ 64) (hdup : ∀ r, ∀ x ∈ c.items r, x.2 < 2 ^ 32)

/-- The pairs of items of the two parties. -/
def pairList (c : Cfg α P) : List (α × α) := (c.items false).map Prod.fst ×ˢ (c.items true).map Prod.fst

include hc hcomm hd hn hl hdup

/-- **C121** If at most `M` points have the same comparison bytes, then a wrong result for some schedule comes from one of the
`n * m` pairs of different items. -/
theorem C121_wrong_runs {M : Nat} (hM : ∀ v, {p | comp c p = v}.ncard ≤ M) :
    (SomeWrong c bh n).ncard * Nat.card P ≤ (c.items false).length * (c.items true).length * M * Nat.card (α → P) := by
  classical
  let I := (pairList c).filter fun e => e.1 ≠ e.2
  have hsub : SomeWrong c bh n ⊆ Touch (comp c) I := by
    rintro ω ⟨sched, s, r, h, fin, hres, hno⟩
    by_contra hnt
    have key : ∀ x ∈ c.items false, ∀ y ∈ c.items true, comp c (ω x.1) = comp c (ω y.1) → x.1 = y.1 := by
      intro x hx y hy he
      by_contra hne
      refine hnt ⟨(x.1, y.1), List.mem_filter.2 ⟨List.mem_product.2 ⟨List.mem_map_of_mem hx, List.mem_map_of_mem hy⟩, ?_⟩, he⟩
      simpa using hne
    have hap : Apart (c.withHash ω) := by
      refine ⟨hcomm, fun r x hx y hy he => ?_⟩
      cases r
      · exact (key y hy x hx he.symm).symm
      · exact key x hx y hy he
    obtain ⟨w, h1, h2⟩ := C10_exact_intersection (c.withHash ω) (lawful_withHash hc ω) hap sched s h r fin hres hd bh n hn hl hdup
    exact hno ⟨w, _, _, h1, h2⟩
  have hlen : I.length ≤ (c.items false).length * (c.items true).length := by
    refine (List.length_filter_le _ _).trans ?_
    rw [pairList, List.length_product, List.length_map, List.length_map]
  have h := touch_le (comp c) hM I fun e he => by simpa using (List.mem_filter.1 he).2
  calc _ ≤ (Touch (comp c) I).ncard * Nat.card P := Nat.mul_le_mul_right _ (Set.ncard_le_ncard hsub (Set.toFinite _))
    _ ≤ _ := h
    _ ≤ _ := Nat.mul_le_mul_right _ (Nat.mul_le_mul_right _ hlen)

/-- **C121** So as long as there are few enough pairs, at most one in `2 ^ ssp` hashes is wrong. -/
theorem C121_margin_partial {M ssp : Nat} (hM : ∀ v, {p | comp c p = v}.ncard ≤ M) (hP : 0 < Nat.card P)
    (hsize : (c.items false).length * (c.items true).length * M * 2 ^ ssp ≤ Nat.card P) :
    (SomeWrong c bh n).ncard * 2 ^ ssp ≤ Nat.card (α → P) := by
  have h := C121_wrong_runs c hc hcomm hd bh n hn hl hdup hM
  generalize (SomeWrong c bh n).ncard = B at *
  generalize Nat.card (α → P) = T at *
  generalize (c.items false).length * (c.items true).length * M = K at *
  have h2 : B * 2 ^ ssp * Nat.card P ≤ T * Nat.card P := by
    calc B * 2 ^ ssp * Nat.card P = 2 ^ ssp * (B * Nat.card P) := by ring
      _ ≤ 2 ^ ssp * (K * T) := Nat.mul_le_mul_left _ h
      _ = K * 2 ^ ssp * T := by ring
      _ ≤ Nat.card P * T := Nat.mul_le_mul_right _ hsize
      _ = _ := Nat.mul_comm _ _
  exact Nat.le_of_mul_le_mul_right h2 hP

/-- **Finding.**  The number of bytes does not grow with the inputs: if there are `W` comparison values, then from `2 * W / 2 ^ ssp`
pairs on more than one in `2 ^ ssp` hashes is wrong, with every schedule, if no item is common. -/
theorem C121_margin_missed [Nonempty P] {M ssp W : Nat} {g : P → Fin W} (hg : ∀ p q, g p = g q ↔ comp c p = comp c q)
    (hM : ∀ v, {p | comp c p = v}.ncard ≤ M)
    (hdis : ∀ x ∈ (c.items false).map Prod.fst, x ∉ (c.items true).map Prod.fst)
    (hsize : 2 * W < (c.items false).length * (c.items true).length * 2 ^ ssp)
    (hfew : 2 * ((c.items false).length * (c.items true).length) * M ≤ Nat.card P) :
    Nat.card (α → P) < (AllWrong c bh n).ncard * 2 ^ ssp ∧
    ∀ ω, ∃ sched s, exec (c.withHash ω) sched (init (c.withHash ω)) = some s ∧ ∀ r, (s.party r).finished = true := by
  refine ⟨?_, fun ω => completes (lawful_withHash hc ω)⟩
  have hM' : ∀ v, {p | g p = v}.ncard ≤ M := by
    intro v
    by_cases hv : ∃ p, g p = v
    · obtain ⟨p, rfl⟩ := hv
      refine le_trans (Set.ncard_le_ncard (fun q hq => ?_) (Set.toFinite _)) (hM (comp c p))
      exact (hg q p).1 hq
    · rw [show {p | g p = v} = ∅ from Set.eq_empty_iff_forall_notMem.2 fun p hp => hv ⟨p, hp⟩, Set.ncard_empty]
      exact Nat.zero_le _
  have hsub : Touch g (pairList c) ⊆ AllWrong c bh n := by
    rintro ω ⟨⟨a, b⟩, hab, he⟩ sched s r h fin hres ⟨w, k, l, hw, hex⟩
    have he : comp c (ω a) = comp c (ω b) := (hg _ _).1 he
    obtain ⟨ha, hb⟩ := List.mem_product.1 hab
    have ht : (c.withHash ω).target.canTouch r = true := by
      rcases hres with h | h <;> simp [h, Cfg.withHash, Target.canTouch]
    obtain ⟨h1, h2⟩ := stores_final _ (lawful_withHash hc ω) sched s h r fin ht
    have f1 : Psi.Bucket.Fits (s.party r).selfStore := by
      rw [h1]
      refine ⟨by rw [List.length_map]; exact hl r, ?_⟩
      intro d hd
      obtain ⟨y, _, rfl⟩ := List.mem_map.mp hd
      exact Nat.two_pow_pos 32
    have f2 : Psi.Bucket.Fits (s.party r).peerStore := by
      rw [h2]
      refine ⟨by rw [List.length_map]; exact hl (!r), ?_⟩
      intro d hd
      obtain ⟨y, hy, rfl⟩ := List.mem_map.mp hd
      exact hdup (!r) y hy
    obtain ⟨w', hw', -, hmem⟩ := Psi.Bucket.C09_bucket_intersection_exact bh n hn (s.party r).selfStore (s.party r).peerStore f1 f2
    rw [hw] at hw'
    obtain rfl : w = w' := by
      have := congrArg Prod.fst (Option.some.inj hw')
      exact this
    have hdual : ∀ r z, dual2 (c.withHash ω) r z = comp c (ω z) := fun r z => dual2_swap (c.withHash ω) hcomm r z
    -- the item of this party and that of the other with the same bytes
    obtain ⟨x, y, hx, hy, hxy⟩ : ∃ x y, x ∈ c.items r ∧ y ∈ c.items (!r) ∧ comp c (ω x.1) = comp c (ω y.1) := by
      obtain ⟨x, hx, rfl⟩ := List.mem_map.1 ha
      obtain ⟨y, hy, rfl⟩ := List.mem_map.1 hb
      cases r
      · exact ⟨x, y, hx, hy, he⟩
      · exact ⟨y, x, hy, hx, he.symm⟩
    obtain ⟨i, hi, hxi⟩ := List.mem_iff_getElem.1 hx
    have hi' : i < (s.party r).selfStore.length := by
      rw [h1, List.length_map]
      exact hi
    have hsi : (s.party r).selfStore[i].1 = comp c (ω x.1) := by
      have hs0 : (s.party r).selfStore[i]? = some (dual2 (c.withHash ω) r x.1, 0) := by
        rw [h1, List.getElem?_map]
        have : (Cfg.items (c.withHash ω) r)[i]? = some x := by
          rw [List.getElem?_eq_some_iff]
          exact ⟨hi, hxi⟩
        rw [this]
        rfl
      rw [List.getElem?_eq_getElem hi'] at hs0
      rw [Option.some.inj hs0, hdual]
    have hfind : ∃ z, (s.party r).peerStore.find? (fun p => p.1 = (s.party r).selfStore[i].1) = some z := by
      rw [← Option.isSome_iff_exists, List.find?_isSome]
      refine ⟨(dual2 (c.withHash ω) (!r) y.1, y.2), ?_, ?_⟩
      · rw [h2]
        exact List.mem_map.2 ⟨y, hy, rfl⟩
      · rw [hsi, hxy, hdual]
        simp
    obtain ⟨z, hz⟩ := hfind
    have hin : (i, z.2) ∈ w := (hmem i z.2).2 ⟨hi', by rw [hz]; rfl⟩
    obtain ⟨x', e', hx', hy'⟩ := (hex.mem i z.2).1 hin
    have hx2 : x' ∈ (c.items r).map Prod.fst := List.mem_map.2 ⟨(x', e'), List.mem_of_getElem? hx', rfl⟩
    have hy2 : x' ∈ (c.items (!r)).map Prod.fst := List.mem_map.2 ⟨(x', z.2), hy', rfl⟩
    cases r
    · exact hdis x' hx2 hy2
    · exact hdis x' hy2 hx2
  have hlen : (pairList c).length = (c.items false).length * (c.items true).length := by
    rw [pairList, List.length_product, List.length_map, List.length_map]
  have hge := touch_ge g hM' (fun a => a ∈ (c.items false).map Prod.fst) (pairList c)
    (fun f hf => by
      obtain ⟨h1, h2⟩ := List.mem_product.1 hf
      exact ⟨h1, fun h => hdis _ h h2⟩)
    ((hd false).product (hd true)) (by rw [hlen]; exact hfew)
  rw [hlen, Nat.card_fin] at hge
  have hle := Set.ncard_le_ncard hsub (Set.toFinite _)
  have hT : 0 < Nat.card (α → P) := Nat.card_pos
  generalize (AllWrong c bh n).ncard = B at *
  generalize (Touch g (pairList c)).ncard = A at *
  generalize Nat.card (α → P) = T at *
  generalize (c.items false).length * (c.items true).length = K at *
  by_contra hno
  have h3 : K * T * 2 ^ ssp ≤ 2 * W * T := by
    calc K * T * 2 ^ ssp ≤ 2 * W * A * 2 ^ ssp := Nat.mul_le_mul_right _ hge
      _ = 2 * W * (A * 2 ^ ssp) := by ring
      _ ≤ 2 * W * T := Nat.mul_le_mul_left _ ((Nat.mul_le_mul_right _ hle).trans (by omega))
  have h4 : 2 * W * T < K * 2 ^ ssp * T := Nat.mul_lt_mul_of_pos_right hsize hT
  have h5 : K * T * 2 ^ ssp = K * 2 ^ ssp * T := by ring
  omega

end

end Psi.Ecdh
